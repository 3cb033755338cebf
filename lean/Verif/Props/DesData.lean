import Verif.DesData
import Verif.Frame
import Verif.Props.FileRound

/- C61: the data of DES and other segments; C26 for the shipped data classes. -/

namespace Verif

variable (P : PyFloat)

/-! ### Specification -/

/-- The values can be written and read back (as in C01). -/
structure DesReady (o : DesObj P.F) : Prop where
  causal : o.cls.desc.causal = true
  wf : o.cls.desc.allFields FieldDef.wf = true
  survives : ∀ cs, writeChunks P o.cls.desc o.fields = .ok cs →
    ∀ ch ∈ cs, Survives P o.cls.desc o.fields ch

/-- There are no bytes after the fields, or the class keeps them. -/
def ExtraOk (o : DesObj P.F) : Prop :=
  o.extra.getD [] = [] ∨ o.cls.afterAllowed = true ∧ o.cls.copyAfter = true

/-- The same DES to a user: the same class, (index, value) pairs of every field, and bytes after
the fields. -/
structure SameDes (o o' : DesObj P.F) : Prop where
  cls : o'.cls = o.cls
  items : ∀ nm, itemsOf P o.cls.desc o'.fields nm = itemsOf P o.cls.desc o.fields nm
  extra : o'.extra.getD [] = o.extra.getD []

/-! ### Helpers -/

theorem writeDes_ok {o : DesObj P.F} {b : Bytes} (h : writeDes P o = .ok b) :
    ∃ cs, writeChunks P o.cls.desc o.fields = .ok cs ∧ b = chunkBytes cs ++ o.extra.getD [] := by
  unfold writeDes at h
  split at h
  · cases h
  · rename_i x hx
    obtain ⟨cs, hc, rfl⟩ := writeStruct_chunks P hx
    injection h with h
    exact ⟨cs, hc, h.symm⟩

theorem pyEq_str {s t : Str} : pyEq P (.str s) (.str t) = true ↔ s = t := by simp [pyEq]

/-- Reading over any state what `o` writes. -/
theorem rereadDes {o : DesObj P.F} (ho : DesReady P o) {cs : List Chunk}
    (hc : writeChunks P o.cls.desc o.fields = .ok cs) (R0 : Store P.F) (rest : Bytes) :
    ∃ R, readInto P o.cls.desc false R0 (chunkBytes cs ++ rest) = .ok (R, rest) ∧
      ∀ nm, itemsOf P o.cls.desc R nm = itemsOf P o.cls.desc o.fields nm := by
  obtain ⟨R, h1, h2⟩ := readInto_written P ho.causal hc false
    (chunkOk_of_survives P ho.causal ho.wf hc (ho.survives cs hc)) R0 rest
  refine ⟨R, h1, ?_⟩
  intro nm
  unfold itemsOf
  cases resolve o.cls.desc.tab nm with
  | none => rfl
  | some n => exact (fieldItems_same P (Desc.causalTab ho.causal) h2 n).symm

/-! ### C61 -/

/-- C61.  A DES is only read by the class for its desid, whatever the bytes. -/
theorem C61_other_desid {o : DesObj P.F} {id : Str} (h : id ≠ o.cls.tag) (size : Option Int)
    (b : Bytes) : readDes P o (.str id) size b = .ok none := by
  unfold readDes
  rw [if_neg]
  rw [pyEq_str]
  exact h

/-- C61.  A class that allows no data after the fields accepts a DES only if its fields take up
exactly the data of the segment; nothing else of the file is read. -/
theorem C61_exact {o o' : DesObj P.F} {id : Val P.F} {n : Int} {b rest : Bytes}
    (hd : o.cls.desc.causal = true) (ha : o.cls.afterAllowed = false)
    (h : readDes P o id (some n) b = .ok (some (o', rest))) :
    ∃ used, b = used ++ rest ∧ (used.length : Int) = n ∧
      readInto P o.cls.desc false o.fields used = .ok (o'.fields, []) ∧
      o'.cls = o.cls ∧ o'.extra = o.extra := by
  unfold readDes at h
  split at h
  · split at h
    · cases h
    · rename_i S r hr
      simp only [ha] at h
      split at h
      · cases h
      · rename_i hz
        injection h with h
        injection h with h
        injection h with h1 h2
        subst h1 h2
        obtain ⟨c, hb, hany⟩ := C03_exact_consumption P hd hr
        refine ⟨c, hb, ?_, ?_, rfl, rfl⟩
        · subst hb
          simp only [List.length_append] at hz
          omega
        · have := hany []
          rwa [List.append_nil] at this
  · injection h with h
    cases h

/-- C61.  Fields shorter or longer than the data of the segment are refused. -/
theorem C61_wrong_size {o : DesObj P.F} {n : Int} {used rest : Bytes} {S : Store P.F}
    (ha : o.cls.afterAllowed = false)
    (hr : readInto P o.cls.desc false o.fields (used ++ rest) = .ok (S, rest))
    (hn : n ≠ used.length) :
    readDes P o (.str o.cls.tag) (some n) (used ++ rest) = .error .runtime := by
  unfold readDes
  rw [if_pos ((pyEq_str P).mpr rfl), hr]
  simp only [ha, List.length_append]
  rw [if_pos (by omega)]
  rfl

/-- C61.  A DES that was written is read back from a segment of that size: the same values, the same
bytes after the fields, and exactly these bytes are used. -/
theorem C61_round_trip {o : DesObj P.F} (ho : DesReady P o) (he : ExtraOk P o) {b : Bytes}
    (hb : writeDes P o = .ok b) (rest : Bytes) :
    ∃ o', readDes P (DesObj.new o.cls) (.str o.cls.tag) (some (b.length : Int)) (b ++ rest) =
        .ok (some (o', rest)) ∧ SameDes P o o' := by
  obtain ⟨cs, hc, rfl⟩ := writeDes_ok P hb
  obtain ⟨R, h1, h2⟩ := rereadDes P ho hc Store.empty (o.extra.getD [] ++ rest)
  unfold readDes DesObj.new
  rw [if_pos ((pyEq_str P).mpr rfl), List.append_assoc, h1]
  simp only [List.length_append]
  rcases he with he | ⟨ha, hcp⟩
  · rw [he]
    rw [if_neg (by simp), List.nil_append]
    exact ⟨_, rfl, rfl, h2, by simp [he]⟩
  · by_cases hz : (o.extra.getD []) = []
    · rw [hz]
      rw [if_neg (by simp), List.nil_append]
      exact ⟨_, rfl, rfl, h2, by simp [hz]⟩
    · have hlen : 0 < (o.extra.getD []).length := List.length_pos_iff.mpr hz
      rw [if_pos (by omega)]
      simp only [ha, hcp, if_true]
      have e : (((chunkBytes cs).length + (o.extra.getD []).length : Nat) : Int) -
          (((chunkBytes cs).length + ((o.extra.getD []).length + rest.length) : Nat) -
            ((o.extra.getD []).length + rest.length : Nat)) = ((o.extra.getD []).length : Nat) := by
        omega
      rw [e]
      have hf : fhRead ((o.extra.getD []).length : Nat) (o.extra.getD [] ++ rest) =
          (o.extra.getD [], rest) := by
        unfold fhRead
        rw [if_neg (by omega)]
        simp
      rw [hf]
      exact ⟨_, rfl, rfl, h2, rfl⟩

/-- C61.  Copying a DES gives the same values; with nothing after its fields it is the same DES. -/
theorem C61_copy_partial {o : DesObj P.F} (ho : DesReady P o) {b : Bytes}
    (hb : writeDes P o = .ok b) : ∃ o', copyDes P o = .ok o' ∧ o'.cls = o.cls ∧
      (∀ nm, itemsOf P o.cls.desc o'.fields nm = itemsOf P o.cls.desc o.fields nm) ∧
      (o.extra.getD [] = [] → SameDes P o o') := by
  obtain ⟨cs, hc, rfl⟩ := writeDes_ok P hb
  obtain ⟨R, h1, h2⟩ := rereadDes P ho hc Store.empty (o.extra.getD [])
  unfold copyDes
  rw [hb]
  simp only
  unfold readDes DesObj.new
  rw [if_pos ((pyEq_str P).mpr rfl), h1]
  simp only [ne_eq, not_true_eq_false, if_false]
  exact ⟨_, rfl, rfl, h2, fun he => ⟨rfl, h2, by simp [he]⟩⟩

/-- C61: the copy has never anything after its fields, also when the class keeps such data: what was
there is lost. -/
theorem C61_copy_drops {o o' : DesObj P.F} (h : copyDes P o = .ok o') : o'.extra = none := by
  unfold copyDes at h
  split at h
  · cases h
  · rename_i b _
    unfold readDes DesObj.new at h
    rw [if_pos ((pyEq_str P).mpr rfl)] at h
    cases hr : readInto P o.cls.desc false Store.empty b with
    | error e => rw [hr] at h; cases h
    | ok p =>
      rw [hr] at h
      simp only [ne_eq, not_true_eq_false, if_false] at h
      injection h with h
      rw [← h]

/-- C61.  Printing a DES leaves it the same, if it is not in a file or still has the size it had
there. -/
theorem C61_print_partial {o : DesObj P.F} (ho : DesReady P o) (he : ExtraOk P o) {b : Bytes}
    (hb : writeDes P o = .ok b) {size : Option Int} (hs : size = none ∨ size = some (b.length : Int)) :
    ∃ o', printDes P o (.str o.cls.tag) size = .ok o' ∧ SameDes P o o' := by
  obtain ⟨cs, hc, rfl⟩ := writeDes_ok P hb
  obtain ⟨R, h1, h2⟩ := rereadDes P ho hc o.fields (o.extra.getD [])
  unfold printDes
  rw [hb]
  simp only
  unfold readDes
  rw [if_pos ((pyEq_str P).mpr rfl), h1]
  rcases hs with rfl | rfl
  · simp only [ne_eq, not_true_eq_false, if_false]
    exact ⟨_, rfl, rfl, h2, rfl⟩
  · simp only [List.length_append]
    by_cases hz : (o.extra.getD []) = []
    · rw [hz]
      rw [if_neg (by simp)]
      exact ⟨_, rfl, rfl, h2, rfl⟩
    · rcases he with he | ⟨ha, hcp⟩
      · exact absurd he hz
      have hlen : 0 < (o.extra.getD []).length := List.length_pos_iff.mpr hz
      rw [if_pos (by omega)]
      simp only [ha, hcp, if_true]
      have e : (((chunkBytes cs).length + (o.extra.getD []).length : Nat) : Int) -
          (((chunkBytes cs).length + (o.extra.getD []).length : Nat) -
            ((o.extra.getD []).length : Nat)) = ((o.extra.getD []).length : Nat) := by
        omega
      rw [e]
      have hf : fhRead ((o.extra.getD []).length : Nat) (o.extra.getD []) =
          (o.extra.getD [], []) := by
        unfold fhRead
        rw [if_neg (by omega)]
        simp
      rw [hf]
      exact ⟨_, rfl, rfl, h2, rfl⟩

/-- C61: but a DES read from a file whose length has changed since cannot be printed, although it
can be written. -/
theorem C61_print_changed {o : DesObj P.F} (ho : DesReady P o) (ha : o.cls.afterAllowed = false)
    (hx : o.extra = none) {b : Bytes} (hb : writeDes P o = .ok b) {n : Int} (hn : n ≠ b.length) :
    printDes P o (.str o.cls.tag) (some n) = .error .runtime := by
  have hb' := hb
  obtain ⟨cs, hc, rfl⟩ := writeDes_ok P hb
  rw [hx, Option.getD_none, List.append_nil] at hb' hn
  obtain ⟨R, h1, _⟩ := rereadDes P ho hc o.fields []
  unfold printDes
  rw [hb', ← List.append_nil (chunkBytes cs)]
  simp only
  rw [C61_wrong_size P ha h1 hn]

/-- A DES class, a DES that was read from a segment of 16 bytes, and the same after the count was
changed. -/
def exDes : DesCls := ⟨"EXDES".toList, exDesc, false, false⟩

def exDesObj : DesObj P0.F := ⟨exDes, exStore, some 0, none⟩

theorem exDes_ready : DesReady P0 exDesObj where
  causal := exDesc_causal
  wf := exDesc_wf
  survives := by
    intro cs _
    refine survives_of_values P0 (by decide) ?_
    intro n k c hc
    have hn : NoLit exStore := by
      unfold exStore
      repeat' apply NoLit.set
      exact NoLit.empty
    exact hn n k c hc

example : writeDes P0 exDesObj = .ok (chunkBytes exChunks) ∧ ExtraOk P0 exDesObj :=
  ⟨by decide +kernel, .inl rfl⟩

/-- A class whose DES have data after the fields, which it keeps. -/
def exDesAfter : DesObj P0.F :=
  ⟨⟨"EXDES".toList, exDesc, true, true⟩, exStore, some 2, some [1, 2]⟩

/-- C61: with data after the fields the copy is another DES. -/
theorem C61_copy_loses : ∃ o, copyDes P0 exDesAfter = .ok o ∧
    writeDes P0 exDesAfter = .ok (chunkBytes exChunks ++ [1, 2]) ∧ ¬ SameDes P0 exDesAfter o := by
  have hr : DesReady P0 exDesAfter := ⟨exDesc_causal, exDesc_wf, exDes_ready.survives⟩
  have hw : writeDes P0 exDesAfter = .ok (chunkBytes exChunks ++ [1, 2]) := by decide +kernel
  obtain ⟨o, ho, _⟩ := C61_copy_partial P0 hr hw
  refine ⟨o, ho, hw, ?_⟩
  intro hs
  have h1 := hs.extra
  rw [C61_copy_drops P0 ho] at h1
  cases h1

/-- The DES with another number of elements. -/
def exDesChanged : DesObj P0.F :=
  { exDesObj with fields := (setItem P0 exDesc.tab exStore 0 [] (.int 2)).1 }

example : (writeDes P0 exDesChanged).toOption.map (·.length) = some 12 := by decide +kernel

/-- A class with an optional text. -/
def exOptional : DesCls where
  tag := "EXOPT".toList
  desc := .field { name := some (n!"note"), size := .const 3, ty := .str, optional := true } .nil

/-- C61: printing can also change a value: an empty optional text becomes None. -/
theorem C61_print_rewrites :
    let o : DesObj P0.F := ⟨exOptional, Store.empty.set 0 [] ⟨.val (.str []), none⟩, none, none⟩
    getItem P0 exOptional.desc.tab o.fields 0 [] = .ok (.str []) ∧
    ∃ o', printDes P0 o (.str "EXOPT".toList) none = .ok o' ∧
      getItem P0 exOptional.desc.tab o'.fields 0 [] = .ok .none := by
  refine ⟨by decide +kernel, ?_⟩
  have h : ((printDes P0 (⟨exOptional, Store.empty.set 0 [] ⟨.val (.str []), none⟩, none, none⟩ :
      DesObj P0.F) (.str "EXOPT".toList) none).toOption.map fun o =>
      getItem P0 exOptional.desc.tab o.fields 0 []) = some (.ok .none) := by decide +kernel
  obtain ⟨o', h1, h2⟩ := Option.map_eq_some_iff.mp h
  refine ⟨o', ?_, h2⟩
  cases hp : printDes P0 (⟨exOptional, Store.empty.set 0 [] ⟨.val (.str []), none⟩, none, none⟩ :
      DesObj P0.F) (.str "EXOPT".toList) none with
  | error e => rw [hp] at h1; cases h1
  | ok x => rw [hp] at h1; injection h1 with h1; rw [h1]

/-! ### The data classes together -/

/-- The data object `x` in a segment of kind `k` with subheader `sub` can be read back.  For images
it is required of the image classes (`imgOk`). -/
def ObjReady {I : Type} (R : DataReg) (imgOk : Store P.F → I → Prop) (k : SegKind)
    (sub : Store P.F) : DataObj P.F I → Prop
  | .text _ => k = .text
  | .des o => k = .des ∧ o.cls ∈ R.des ∧ DesReady P o ∧ ExtraOk P o ∧
      getAttr P Tables.t_des_subheader sub (n!"desid") [] = .ok (.str o.cls.tag)
  | .raw k' _ => k' = k ∧ R.raw k = true ∧ k ≠ .text ∧ k ≠ .image ∧ (k = .des → ∃ id,
      getAttr P Tables.t_des_subheader sub (n!"desid") [] = .ok (.str id) ∧ ∀ c ∈ R.des, c.tag ≠ id)
  | .holder _ => False
  | .image x => k = .image ∧ imgOk sub x

/-- The same data: text with the same bytes, the same DES, the same bytes, the same image. -/
def SameObj {I : Type} (sameImg : I → I → Prop) : DataObj P.F I → DataObj P.F I → Prop
  | .text t, .text u => u.asBytes = t.asBytes
  | .des o, .des o' => SameDes P o o'
  | .raw k b, .raw k' b' => k' = k ∧ b' = b
  | .image x, .image y => sameImg x y
  | _, _ => False

/-- Classes with another tag do not read. -/
theorem readDesClasses_skip {id : Str} {size : Int} (found : Option (DesObj P.F)) (b : Bytes) :
    ∀ (cs : List DesCls), (∀ c ∈ cs, c.tag ≠ id) →
      readDesClasses P (.str id) size found b cs = .ok (found, b)
  | [], _ => rfl
  | c :: cs, h => by
    unfold readDesClasses
    rw [C61_other_desid P (o := DesObj.new c) (Ne.symm (h c (by simp)))]
    exact readDesClasses_skip found b cs fun d hd => h d (by simp [hd])

/-- C61.  If the registered classes have different tags, the class of the desid reads the DES,
wherever in the set it is. -/
theorem C61_dispatch {c : DesCls} {size : Int} {b r : Bytes} {o : DesObj P.F}
    (h : readDes P (DesObj.new c) (.str c.tag) (some size) b = .ok (some (o, r))) :
    ∀ (cs : List DesCls), c ∈ cs → (cs.map DesCls.tag).Nodup →
      readDesClasses P (.str c.tag) size none b cs = .ok (some o, r)
  | [], hm, _ => by cases hm
  | d :: cs, hm, hn => by
    rw [List.map_cons, List.nodup_cons] at hn
    unfold readDesClasses
    by_cases hd : d.tag = c.tag
    · have : d = c := by
        rcases List.mem_cons.mp hm with h1 | h1
        · exact h1.symm
        · exact absurd (List.mem_map.mpr ⟨c, h1, hd.symm⟩) hn.1
      subst this
      rw [h]
      simp only [Option.isSome_none, Bool.false_eq_true, if_false]
      refine readDesClasses_skip P (some o) r cs ?_
      intro e he heq
      exact hn.1 (List.mem_map.mpr ⟨e, he, heq⟩)
    · rw [C61_other_desid P (o := DesObj.new d) (Ne.symm hd)]
      refine C61_dispatch h cs ?_ hn.2
      rcases List.mem_cons.mp hm with h1 | h1
      · exact absurd (by rw [h1]) hd
      · exact h1

/-- The classes of pynitf have different tags. -/
theorem C61_shipped_tags : (shippedDes.map DesCls.tag).Nodup ∧
    ∀ c ∈ shippedDes, c.afterAllowed = false ∧ ∃ t ∈ Tables.all, t.2 = c.desc := by
  refine ⟨by decide, ?_⟩
  intro c hc
  have h : (shippedDes.all fun c => !c.afterAllowed && Tables.all.any fun t => decide (t.2 = c.desc)) =
      true := by decide +kernel
  have h := List.all_eq_true.mp h c hc
  simp only [Bool.and_eq_true, Bool.not_eq_true', List.any_eq_true, decide_eq_true_eq] at h
  exact h

theorem fhRead_append (b rest : Bytes) : fhRead (b.length : Nat) (b ++ rest) = (b, rest) := by
  unfold fhRead
  rw [if_neg (by omega)]
  simp

/-- C61.  What a data object writes is read back as the same data, for every kind of segment. -/
theorem C61_data (img : DataIO P.F) (sameImg : img.D → img.D → Prop) {R : DataReg}
    (hR : (R.des.map DesCls.tag).Nodup) {k : SegKind} {sub : Store P.F}
    {x : DataObj P.F img.D}
    (hx : ObjReady P R (fun S y => ∀ b, img.write y = .ok b → ∀ rest, ∃ z,
      img.read .image S b.length (b ++ rest) = .ok (z, rest) ∧ sameImg y z) k sub x) {b : Bytes}
    (hb : writeObj P img x = .ok b) (rest : Bytes) :
    ∃ y, readObj P img R k sub b.length (b ++ rest) = .ok (y, rest) ∧ SameObj P sameImg x y := by
  cases x with
  | text t =>
    cases hx
    injection hb with hb
    subst hb
    refine ⟨.text (.bytes t.asBytes), ?_, rfl⟩
    unfold readObj
    simp only [fhRead_append]
  | des o =>
    obtain ⟨rfl, hm, h1, h2, h3⟩ := hx
    obtain ⟨o', r1, r2⟩ := C61_round_trip P h1 h2 hb rest
    refine ⟨.des o', ?_, r2⟩
    unfold readObj
    simp only [h3]
    rw [C61_dispatch P r1 R.des hm hR]
  | raw k' c =>
    obtain ⟨rfl, hr, ht, hi, hd⟩ := hx
    injection hb with hb
    subst hb
    refine ⟨.raw k' c, ?_, rfl, rfl⟩
    unfold readObj
    cases k' with
    | text => exact absurd rfl ht
    | image => exact absurd rfl hi
    | des =>
      obtain ⟨id, h1, h2⟩ := hd rfl
      simp only [h1]
      rw [readDesClasses_skip P none _ R.des h2]
      simp only [readOther, hr, if_true, fhRead_append]
    | graphic => simp only [readOther, hr, if_true, fhRead_append]
    | res => simp only [readOther, hr, if_true, fhRead_append]
  | holder n => exact hx.elim
  | image y =>
    obtain ⟨rfl, h1⟩ := hx
    obtain ⟨z, z1, z2⟩ := h1 b hb rest
    refine ⟨.image z, ?_, z2⟩
    unfold readObj
    simp only [z1, Except.map]

/-- C61.  Data that no class can read is skipped, so that the next segment is read from the right
place. -/
theorem C61_skipped (img : DataIO P.F) {R : DataReg} {k : SegKind} {sub : Store P.F}
    (hk : k = .graphic ∨ k = .res ∨ k = .des ∧ ∃ id,
      getAttr P Tables.t_des_subheader sub (n!"desid") [] = .ok (.str id) ∧ ∀ c ∈ R.des, c.tag ≠ id)
    (hr : R.raw k = false) (b rest : Bytes) :
    readObj P img R k sub b.length (b ++ rest) = .ok (.holder b.length, rest) := by
  have hd : List.drop (b.length : Int).toNat (b ++ rest) = rest := by simp
  rcases hk with rfl | rfl | ⟨rfl, id, h1, h2⟩
  · unfold readObj
    simp [readOther, hr]
  · unfold readObj
    simp [readOther, hr]
  · unfold readObj
    simp only [h1]
    rw [readDesClasses_skip P none _ R.des h2]
    simp [readOther, hr]

/-- C61.  A DES of a kind no class is registered for, read as plain bytes: its `data` are the bytes
in the file, and these are what it writes. -/
theorem C61_plain (img : DataIO P.F) {R : DataReg} {sub : Store P.F} {id : Str}
    (hr : R.raw .des = true)
    (h1 : getAttr P Tables.t_des_subheader sub (n!"desid") [] = .ok (.str id))
    (h2 : ∀ c ∈ R.des, c.tag ≠ id) (b rest : Bytes) :
    ∃ x, (stdIO P img R).read .des sub b.length (b ++ rest) = .ok (x, rest) ∧
      (stdIO P img R).data x = .ok b ∧ (stdIO P img R).write x = .ok b := by
  refine ⟨.raw .des b, ?_, rfl, rfl⟩
  simp only [stdIO]
  unfold readObj
  simp only [h1]
  rw [readDesClasses_skip P none _ R.des h2]
  simp only [readOther, hr, if_true, fhRead_append]

example (img : DataIO P0.F) : ∃ x, (stdIO P0 img ⟨shippedDes, fun _ => true⟩).read .des
      (setAttr P0 Tables.t_des_subheader Store.empty (n!"desid") [] (.str "OTHER".toList)).1 3
      [1, 2, 3, 4] = .ok (x, [4]) ∧
    (stdIO P0 img ⟨shippedDes, fun _ => true⟩).data x = .ok [1, 2, 3] := by
  obtain ⟨x, h1, h2, _⟩ := C61_plain P0 img (R := ⟨shippedDes, fun _ => true⟩)
    (sub := (setAttr P0 Tables.t_des_subheader Store.empty (n!"desid") []
      (.str "OTHER".toList)).1) (id := "OTHER".toList) rfl (by decide +kernel)
    (by decide +kernel) [1, 2, 3] [4]
  exact ⟨x, h1, h2⟩

/-- Segments other than overflow segments stay. -/
theorem dropOverflow_keeps {IO : DataIO P.F} : ∀ {ss ss' : List (Seg P.F IO.D)},
    dropOverflow P IO ss = .ok ss' → ∀ s ∈ ss,
    getAttr P Tables.t_des_subheader s.sub (n!"desid") [] ≠ .ok (.str "TRE_OVERFLOW".toList) →
    s ∈ ss'
  | [], _, _, s, hs, _ => by cases hs
  | x :: ss, ss', h, s, hs, hne => by
    unfold dropOverflow at h
    split at h
    · cases h
    · rename_i id hid
      split at h
      · cases h
      · rename_i l hl
        injection h with h
        subst h
        rcases List.mem_cons.mp hs with rfl | hs
        · rw [if_neg]
          · simp
          · intro he
            rw [hid, he] at hne
            exact hne rfl
        · have := dropOverflow_keeps hl s hs hne
          split
          · exact this
          · simp [this]
    · cases h

/-- C61.  A file with a segment whose data was skipped cannot be written (so it is never written
with other data). -/
theorem C61_not_written (img : DataIO P.F) {R : DataReg} (E : Env)
    {f : NFile P.F (stdIO P img R).D} {k : SegKind} {s : Seg P.F (stdIO P img R).D} {n : Int}
    (hs : s ∈ f.segs k) (hx : s.data = .other (DataObj.holder n))
    (hk : k = .des → getAttr P Tables.t_des_subheader s.sub (n!"desid") [] ≠
      .ok (.str "TRE_OVERFLOW".toList)) :
    ∃ e, writeFile P E (stdIO P img R) f = .error e := by
  cases hw : writeFile P E (stdIO P img R) f with
  | error e => exact ⟨e, rfl⟩
  | ok p =>
    obtain ⟨f', out⟩ := p
    exfalso
    obtain ⟨r⟩ := writeFile_run P E _ hw
    have key : ∃ s' ∈ r.segs1 k, s'.data = .other (DataObj.holder n) := by
      by_cases hd : k = .des
      · subst hd
        obtain ⟨⟨ov, h1, _⟩, _⟩ := r.desList
        refine ⟨s, ?_, hx⟩
        rw [h1]
        exact List.mem_append_left _ (dropOverflow_keeps P r.drop0 s hs (hk rfl))
      · obtain ⟨s', h1, h2⟩ := (r.prepared P E _ hd).mem_left hs
        exact ⟨s', h1, by rw [h2.data, hx]⟩
    obtain ⟨s', h1, h2⟩ := key
    obtain ⟨x, _, h3⟩ := (r.each k).mem_left h1
    obtain ⟨_, _, _, _, h4⟩ := segBytes_ok P E _ h3
    rw [h2] at h4
    simp [writeData, stdIO, writeObj] at h4

/-! ### C26 for the shipped data classes -/

theorem getAttr_items {d : Desc} {S R : Store P.F} {nm : Name}
    (hs : ∀ n fi, resolve d.tab nm = some n → d.tab[n]? = some fi → fi.shapes = [])
    (h : itemsOf P d R nm = itemsOf P d S nm) : getAttr P d R nm [] = getAttr P d S nm [] := by
  unfold itemsOf at h
  unfold getAttr
  cases hr : resolve d.tab nm with
  | none => rfl
  | some n =>
    rw [hr] at h
    simp only at h ⊢
    cases hf : d.tab[n]? with
    | none =>
      unfold getItem budget getF
      rw [hf]
    | some fi =>
      unfold fieldItems at h
      simp only [hf, hs n fi hr hf, keysFrom, valuesAt] at h
      cases h1 : getItem P d.tab R n [] with
      | error e =>
        cases h2 : getItem P d.tab S n [] with
        | error e' => simp only [h1, h2] at h; injection h with h; rw [h]
        | ok v => simp only [h1, h2] at h; cases h
      | ok v =>
        cases h2 : getItem P d.tab S n [] with
        | error e' => simp only [h1, h2] at h; cases h
        | ok v' =>
          simp only [h1, h2] at h
          injection h with h
          injection h with h _
          injection h with _ h
          rw [h]

/-- Writing does not change the desid of a segment. -/
theorem desid_untouched {IO : DataIO P.F} {s s' : Seg P.F IO.D} (h : SegUntouched P IO .des s s') :
    getAttr P Tables.t_des_subheader s'.sub (n!"desid") [] =
      getAttr P Tables.t_des_subheader s.sub (n!"desid") [] := by
  have hc : clearOf Tables.t_des_subheader.tab [21, 22] = true := by decide +kernel
  have hr : resolve Tables.t_des_subheader.tab (n!"desid") = some 1 := by decide +kernel
  have h21 : resolve Tables.t_des_subheader.tab (n!"desshl") = some 21 := by decide +kernel
  have h22 : resolve Tables.t_des_subheader.tab (n!"desshf") = some 22 := by decide +kernel
  unfold getAttr
  rw [hr]
  refine (getItem_closed (P := P) (clearOf_closed hc) ?_ (by decide)).1 []
  intro n fi _ hn key
  have : s'.sub n key = s.sub n key := h.sub n key (by
    intro nm hnm he
    simp only [bookFields, List.mem_cons, List.not_mem_nil, or_false] at hnm
    rcases hnm with rfl | rfl
    · rw [show SegKind.des.desc = Tables.t_des_subheader from rfl, h21] at he
      injection he with he
      exact hn (by simp [← he])
    · rw [show SegKind.des.desc = Tables.t_des_subheader from rfl, h22] at he
      injection he with he
      exact hn (by simp [← he]))
  unfold stored
  rw [this]

/-- C26 with the data classes of pynitf: a file of text segments, DES of registered classes and (if
the raw classes are registered) others is read back as written, whatever the text and the values of
the DES.  Nothing is required of the handlers except those for images. -/
theorem C26_standard_partial (img : DataIO P.F) (sameImg : img.D → img.D → Prop) {R : DataReg}
    (E : Env) (hR : (R.des.map DesCls.tag).Nodup) {f f' : NFile P.F (stdIO P img R).D} {out : Bytes}
    (h : writeFile P E (stdIO P img R) f = .ok (f', out)) (hf : FileReady P E (stdIO P img R) f)
    (hi : ∀ s ∈ f'.image, HandlersReady P (stdIO P img R) (SameObj P sameImg) .image s)
    (hd : ∀ k, k ≠ .image → ∀ s ∈ f.segs k, (k = .des →
      getAttr P Tables.t_des_subheader s.sub (n!"desid") [] ≠ .ok (.str "TRE_OVERFLOW".toList)) →
      ∃ x, s.data = .other x ∧ ObjReady P R (fun _ _ => False) k s.sub x)
    (hlen : out.length ≠ 999999999999) :
    ∃ g, readFile P E (stdIO P img R) out = .ok g ∧
      (∀ nm, itemsOf P Tables.t_file_header g.header nm =
        itemsOf P Tables.t_file_header f'.header nm) ∧
      SameTres P f.tres g.tres ∧
      (∀ k, k ≠ .des → Each (SameSeg P (stdIO P img R) (SameObj P sameImg) k)
        (f'.segs k) (g.segs k)) ∧
      ∃ ds os, g.des = ds ++ os ∧
        Each (SameSeg P (stdIO P img R) (SameObj P sameImg) .des) f'.des ds ∧
        ∀ s ∈ os, (∃ b, s.data = .overflow b) ∧
          getAttr P Tables.t_des_subheader s.sub (n!"desid") [] =
            .ok (.str "TRE_OVERFLOW".toList) := by
  refine C26_round_trip_partial P E (stdIO P img R) (SameObj P sameImg) h hf ?_ hlen
  obtain ⟨_, _, u1, ds, u2, u3⟩ := C26_untouched_partial P E _ h hf
  -- what is needed of the data is not affected by writing
  have gen : ∀ k, k ≠ .image → ∀ s0 s, SegUntouched P (stdIO P img R) k s0 s → ∀ x,
      s0.data = .other x → ObjReady P R (fun _ _ => False) k s0.sub x →
      HandlersReady P (stdIO P img R) (SameObj P sameImg) k s := by
    intro k hk s0 s hu x hx ho
    refine ⟨x, by rw [hu.data, hx], ?_⟩
    intro b hb S hS rest
    refine C61_data P img sameImg hR ?_ hb rest
    have hid : k = .des → getAttr P Tables.t_des_subheader S (n!"desid") [] =
        getAttr P Tables.t_des_subheader s0.sub (n!"desid") [] := by
      rintro rfl
      rw [← desid_untouched P hu]
      exact getAttr_items P (id_shapes .des _ (by simp)) (hS _)
    cases x with
    | text t => exact ho
    | des o =>
      obtain ⟨h1, h2, h3, h4, h5⟩ := ho
      exact ⟨h1, h2, h3, h4, by rw [hid h1]; exact h5⟩
    | raw k' c =>
      obtain ⟨h1, h2, h3, h4, h5⟩ := ho
      exact ⟨h1, h2, h3, h4, fun e => by rw [hid e]; exact h5 e⟩
    | holder n => exact ho
    | image y => exact absurd ho.1 hk
  intro k s hs
  by_cases hk : k = .image
  · subst hk
    exact hi s hs
  by_cases hk' : k = .des
  · subst hk'
    obtain ⟨s0, h0, hu⟩ := u3.mem_right hs
    obtain ⟨hsub, hids⟩ := dropOverflow_ok P _ u2
    obtain ⟨id, i1, i2⟩ := hids s0 h0
    obtain ⟨x, x1, x2⟩ := hd .des hk s0 (hsub.subset h0) (fun _ he => by
      rw [i1] at he
      injection he with he
      injection he with he
      exact i2 he)
    exact gen .des hk s0 s hu x x1 x2
  · obtain ⟨s0, h0, hu⟩ := (u1 k hk').mem_right hs
    obtain ⟨x, x1, x2⟩ := hd k hk s0 h0 fun e => absurd e hk'
    exact gen k hk s0 s hu x x1 x2

/-! ### A concrete case -/

def exDataReg : DataReg := { des := exDes :: shippedDes }

/-- A file with a text segment "hi" and a DES of the class above. -/
def exDesFile : NFile P0.F (stdIO P0 exIO exDataReg).D :=
  { header := Store.empty
    tres := []
    text := [{ linked := true, sub := Store.empty, data := .other (.text (.str "hi".toList)) }]
    des := [{ linked := true, sub := Store.empty.set 1 [] ⟨.val (.str "EXDES".toList), none⟩,
              data := .other (.des exDesObj) }] }

theorem exDesFile_ready : FileReady P0 exEnv (stdIO P0 exIO exDataReg) exDesFile where
  reg := by intro t ht; cases ht
  header := NoLit.empty
  tres := by
    exact ⟨_, [], fileHeader_fresh P0, rfl, by simp, Reusable.fresh (by simp), by simp [exDesFile]⟩
  linked := by
    intro k s hs
    cases k <;> simp [exDesFile, NFile.segs] at hs <;> subst hs <;> rfl
  segs := by
    intro k hk s hs
    cases k <;> simp [exDesFile, NFile.segs] at hs
    · subst hs
      exact ⟨NoLit.empty, rfl, _, [], textHeader_fresh P0, rfl, by simp, Reusable.fresh (by simp),
        by simp⟩
    · exact absurd rfl hk
  des := by
    intro s hs _
    simp only [exDesFile, List.mem_cons, List.not_mem_nil, or_false] at hs
    subst hs
    exact ⟨NoLit.empty.set _ _ _ _, (by intro d U h; cases h), rfl⟩

example : (exDataReg.des.map DesCls.tag).Nodup := by decide

example : ((writeFile P0 exEnv (stdIO P0 exIO exDataReg) exDesFile).toOption.map (·.2.length)) =
    some 910 := by decide +kernel

example : ∀ k, k ≠ .image → ∀ s ∈ exDesFile.segs k, (k = .des →
      getAttr P0 Tables.t_des_subheader s.sub (n!"desid") [] ≠ .ok (.str "TRE_OVERFLOW".toList)) →
      ∃ x, s.data = .other x ∧ ObjReady P0 exDataReg (fun _ _ => False) k s.sub x := by
  intro k hk s hs _
  cases k <;> simp [exDesFile, NFile.segs] at hs
  · subst hs
    exact ⟨_, rfl, rfl⟩
  · subst hs
    exact ⟨_, rfl, rfl, by simp [exDataReg, exDesObj], exDes_ready, .inl rfl, by decide +kernel⟩

end Verif
