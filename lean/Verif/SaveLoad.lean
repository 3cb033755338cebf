import Verif.Rewrite
import Verif.Enum

/- Saving a file that was loaded: helper lemmas for C67. -/

namespace Verif

variable {P : PyFloat}

/-! ### Cells that were read -/

/-- A field without loops whose condition holds is written. -/
theorem chunk_scalar {d : Desc} (hd : d.causal = true) {S : Store P.F} {cs : List Chunk}
    (hw : writeChunks P d S = .ok cs) {n : Nat} {fi : FInfo} (hn : d.tab[n]? = some fi)
    (hs : fi.shapes = []) (hc : evalCond P (look P d.tab S) fi [] = .ok true) :
    ∃ ch ∈ cs, ch.pos = n ∧ ch.key = [] := by
  obtain ⟨ks, h1, _, h3⟩ := layout_keys hd (writeD_layout P S d 0 [] cs hw) hn
  have hk : ks = [[]] := by
    unfold fieldKeys at h1
    rw [hs] at h1
    simp only [keysFrom] at h1
    injection h1 with h1
    exact h1.symm
  rw [hk] at h3
  have hp : present (look P d.tab S) fi [] = true := by
    unfold present
    rw [hc]
  rw [List.filter_cons, if_pos hp, List.filter_nil] at h3
  have hm : ([] : Key) ∈ ((cs.map Chunk.slot).filter fun s => s.pos == n).map Slot.key := by
    rw [h3]; simp
  obtain ⟨sl, s1, s2⟩ := List.mem_map.mp hm
  obtain ⟨s3, s4⟩ := List.mem_filter.mp s1
  obtain ⟨ch, c1, rfl⟩ := List.mem_map.mp s3
  have s5 : ch.slot.pos = n := by simpa using s4
  exact ⟨ch, c1, s5, s2⟩

theorem parse_int {fd : FieldDef} (hty : fd.ty = .int) {b : Bytes} {v : Stored P.F}
    (h : parseField P fd false b = .ok v) {z : Int} (hf : finish P fd v = .ok (.int z)) :
    v = .val (.int z) := by
  unfold parseField at h
  simp only [Bool.false_eq_true, if_false, hty] at h
  split at h
  · rename_i ho
    injection h with h
    subst h
    simp only [Bool.and_eq_true] at ho
    unfold finish at hf
    simp [ho.1] at hf
  · split at h
    · cases h
    · split at h
      · injection h with h
        subst h
        rw [finish_int P hty] at hf
        injection hf with hf
        injection hf with hf
        rw [hf]
      · cases h

theorem parse_bytes {fd : FieldDef} (hty : fd.ty = .bytes) {b : Bytes} {v : Stored P.F}
    (h : parseField P fd false b = .ok v) {c : Bytes} (hf : finish P fd v = .ok (.bytes c)) :
    v = .val (.bytes c) := by
  unfold parseField at h
  simp only [Bool.false_eq_true, if_false, hty] at h
  split at h
  · rename_i ho
    injection h with h
    subst h
    simp only [Bool.and_eq_true] at ho
    unfold finish at hf
    simp [ho.1] at hf
  · injection h with h
    subst h
    rw [finish_bytes P hty] at hf
    injection hf with hf
    injection hf with hf
    rw [hf]

theorem Loaded.int {d : Desc} {S R : Store P.F} {cs : List Chunk} (L : Loaded P d S R cs) {n : Nat}
    {key : Key} (hch : ∃ ch ∈ cs, ch.pos = n ∧ ch.key = key) {fi : FInfo} (hn : d.tab[n]? = some fi)
    (hnm : fi.fd.name ≠ none) (hv : fi.fd.value = none) (hty : fi.fd.ty = .int) {z : Int}
    (hz : finish P fi.fd (stored S fi.fd n key) = .ok (.int z)) :
    stored R fi.fd n key = .val (.int z) := by
  obtain ⟨ch, c1, rfl, rfl⟩ := hch
  obtain ⟨v, v1, v2, v3⟩ := L.cell ch c1 fi hn hnm hv
  rw [v1]
  exact parse_int hty v2 (by rw [← v3]; exact hz)

theorem Loaded.bytes {d : Desc} {S R : Store P.F} {cs : List Chunk} (L : Loaded P d S R cs) {n : Nat}
    {key : Key} (hch : ∃ ch ∈ cs, ch.pos = n ∧ ch.key = key) {fi : FInfo} (hn : d.tab[n]? = some fi)
    (hnm : fi.fd.name ≠ none) (hv : fi.fd.value = none) (hty : fi.fd.ty = .bytes) {b : Bytes}
    (hz : finish P fi.fd (stored S fi.fd n key) = .ok (.bytes b)) :
    stored R fi.fd n key = .val (.bytes b) := by
  obtain ⟨ch, c1, rfl, rfl⟩ := hch
  obtain ⟨v, v1, v2, v3⟩ := L.cell ch c1 fi hn hnm hv
  rw [v1]
  exact parse_bytes hty v2 (by rw [← v3]; exact hz)

/-! ### TRE areas that already hold what is stored in them -/

/-- The area holds the bytes `h` and no overflow; it is not in use if there are none. -/
structure AreaHeld (d : Desc) (R : Store P.F) (a : Area) (m n : Nat) (h : Bytes) : Prop where
  empty : h = [] → attrPos P d R a.len = .ok false
  len : h ≠ [] → ∀ fi, d.tab[m]? = some fi → stored R fi.fd m [] = .val (.int ((h.length : Int) + 3))
  data : h ≠ [] → ∀ fi, d.tab[n]? = some fi → stored R fi.fd n [] = .val (.bytes h)
  ofl : h ≠ [] → ∀ o fi, resolve d.tab a.ofl = some o → d.tab[o]? = some fi →
    stored R fi.fd o [] = .val (.int 0)

theorem AreaRows.pos_val {d : Desc} {a : Area} {m n : Nat} (h : AreaRows d a m n) {S : Store P.F}
    {z : Int} (he : ∀ fi, d.tab[m]? = some fi → stored S fi.fd m [] = .val (.int z)) :
    attrPos P d S a.len = .ok (decide (z > 0)) := by
  unfold attrPos getAttr
  rw [h.rlen]
  obtain ⟨fm, h1, h2, h3, h4, h5⟩ := h.flen
  simp only
  rw [h2.get_plain P h3 h1 (evalCond_none P h5 _ _), he fm h1, finish_int P h4]
  rfl

theorem areaStep_settled {d : Desc} {a : Area} {m n : Nat} {h : Bytes}
    {R X : Store P.F} (hR : AreaHeld d R a m n h) (hX : SameVal P d.tab X R)
    {pos : Bool} (hp : attrPos P d R a.len = .ok pos) :
    SameVal P d.tab (areaStep d a m n h pos X) R := by
  by_cases hh : h = []
  · have := hR.empty hh
    rw [hp] at this
    injection this with this
    subst this
    subst hh
    exact hX
  · have ho : SameVal P d.tab (if pos then setOflS d a X 0 else X) R := by
      cases pos with
      | false => exact hX
      | true =>
        simp only [if_true]
        unfold setOflS
        cases hr : resolve d.tab a.ofl with
        | none => exact hX
        | some o =>
          exact (hX.set _ _ _).trans (SameVal.set_self fun fi hfi => hR.ofl hh o fi hr hfi)
    unfold areaStep
    have hl : h.length > 0 := List.length_pos_iff.mpr hh
    simp only [hl, if_true]
    have h1 := (ho.set n [] ⟨.val (.bytes h), none⟩).trans
      (SameVal.set_self (c := ⟨.val (.bytes h), none⟩) fun fi hfi => hR.data hh fi hfi)
    exact (h1.set m [] ⟨.val (.int ((h.length : Int) + 3)), none⟩).trans
      (SameVal.set_self (c := ⟨.val (.int ((h.length : Int) + 3)), none⟩)
        fun fi hfi => hR.len hh fi hfi)

/-- All areas of a header. -/
inductive HeldAll (d : Desc) (R : Store P.F) : List Area → List (Nat × Nat) → List Bytes → Prop
  | nil : HeldAll d R [] [] []
  | cons {a as m n ps h hs} : AreaHeld d R a m n h → HeldAll d R as ps hs →
      HeldAll d R (a :: as) ((m, n) :: ps) (h :: hs)

theorem storeAreas_settled {d : Desc} (hd : d.causal = true) {R : Store P.F} {as : List Area}
    {ps : List (Nat × Nat)} (hA : AreasRows d as ps) : ∀ {hs : List Bytes} {X : Store P.F},
    HeldAll d R as ps hs → SameVal P d.tab X R →
    ∃ R', storeAreas P d as hs X = .ok R' ∧ SameVal P d.tab R' R := by
  induction hA with
  | nil => intro hs X h hX; cases h; exact ⟨X, rfl, hX⟩
  | @cons a as m n ps h1 _ _ _ ih =>
    intro hs X h hX
    cases h with
    | @cons _ _ _ _ _ b bs g1 g2 =>
      have hp : ∃ pos, attrPos P d R a.len = .ok pos := by
        by_cases hb : b = []
        · exact ⟨_, g1.empty hb⟩
        · exact ⟨_, h1.pos_val (g1.len hb)⟩
      obtain ⟨pos, hp⟩ := hp
      rw [storeAreas_cons hd h1 (pos := pos) (by rw [attrPos_same P hX]; exact hp)]
      exact ih g2 (areaStep_settled g1 hX hp)

/-- `prepare_tre_write` of TREs that are placed as they are in the header already. -/
theorem prepareTreWrite_settled {d : Desc} (hd : d.causal = true) {R : Store P.F}
    {areas : List Area} {ps : List (Nat × Nat)} (hA : AreasRows d areas ps) {heads ser : List Bytes}
    {us : List (Tre P.F)} (hu : treWriteAll P us = .ok ser)
    (hpl : place ser (areas.map fun _ => []) [] = (heads, []))
    (hh : HeldAll d R areas ps heads) (n : Nat) :
    ∃ R', prepareTreWrite P d areas n us R = .ok (R', none) ∧ SameVal P d.tab R' R := by
  obtain ⟨R', r1, r2⟩ := storeAreas_settled hd hA hh (SameVal.refl _ R)
  refine ⟨R', ?_, r2⟩
  unfold prepareTreWrite
  simp only [hu, hpl, r1]
  simp

/-! ### TREs that were read -/

/-- No literal bytes are stored in the TRE. -/
def Tre.NoLit {F : Type} : Tre F → Prop
  | .unknown _ _ => True
  | .known _ _ S => Verif.NoLit S

/-- The bytes are those of one TRE, and reading them gives a TRE that is written to them. -/
def Rewritable (P : PyFloat) (reg : Registry) (b : Bytes) : Prop :=
  ∃ f : Frame, f.Ok ∧ b = f.bytes ∧ treWrite P (interp P reg f) = .ok b

theorem rewritable_of {reg : Registry} {t : Tre P.F} (hg : Representable P reg t) (hn : t.NoLit)
    {b : Bytes} (h : treWrite P t = .ok b) : Rewritable P reg b := by
  obtain ⟨htag, hg⟩ := hg
  obtain ⟨body, h1, h2, h3, h4⟩ := treWrite_frame P htag h
  refine ⟨_, h4, h3, ?_⟩
  unfold interp
  simp only [htag.rstrip, latin1Dec_utf8Enc htag.ascii]
  cases t with
  | unknown tag b' =>
    simp only [Tre.tag] at hg ⊢
    simp only [hg]
    simp only [Tre.body] at h1
    injection h1 with h1
    subst h1
    exact h
  | known tag d S =>
    simp only [Tre.tag] at hg ⊢
    simp only [hg.1, ne_eq, not_true_eq_false, if_false]
    simp only [Tre.body] at h1
    obtain ⟨cs, hc, hb⟩ := writeStruct_chunks P h1
    obtain ⟨R, r1, _, _⟩ := C01_write_then_read P hg.2.1 hg.2.2.1 hc (hg.2.2.2 cs hc) []
    have hL := loaded_of P hg.2.1 hg.2.2.1 hc (hg.2.2.2 cs hc)
      (fun ch _ fi _ => NoLit.stored (show Verif.NoLit S from hn) fi.fd ch.pos ch.key) r1
    rw [List.append_nil, ← hb] at r1
    rw [r1]
    have hw : writeStruct P d R = writeStruct P d S := by
      unfold writeStruct
      rw [hL.again, hc]
    rw [← h]
    unfold treWrite
    simp only [Tre.body, Tre.tag, hw]

theorem treWriteAll_append {us vs : List (Tre P.F)} {a b : List Bytes}
    (h1 : treWriteAll P us = .ok a) (h2 : treWriteAll P vs = .ok b) :
    treWriteAll P (us ++ vs) = .ok (a ++ b) := by
  induction us generalizing a with
  | nil =>
    unfold treWriteAll at h1
    injection h1 with h1
    subst h1
    exact h2
  | cons u us ih =>
    unfold treWriteAll at h1
    cases hu : treWrite P u with
    | error e => rw [hu] at h1; cases h1
    | ok x =>
      rw [hu] at h1
      cases hus : treWriteAll P us with
      | error e => simp only [hus] at h1; cases h1
      | ok xs =>
        simp only [hus] at h1
        injection h1 with h1
        subst h1
        rw [List.cons_append, List.cons_append]
        conv => lhs; unfold treWriteAll
        rw [hu]
        simp only [ih hus]

theorem rewritable_area {reg : Registry} (hreg : reg.Causal) {g : List Bytes}
    (h : ∀ b ∈ g, Rewritable P reg b) :
    ∃ us, readTreData P reg g.flatten = .ok us ∧ treWriteAll P us = .ok g := by
  have : ∃ fs : List Frame, (∀ f ∈ fs, f.Ok) ∧ g.flatten = fs.flatMap Frame.bytes ∧
      treWriteAll P (fs.map (interp P reg)) = .ok g := by
    induction g with
    | nil => exact ⟨[], by simp, rfl, rfl⟩
    | cons b g ih =>
      obtain ⟨fs, h1, h2, h3⟩ := ih fun c hc => h c (by simp [hc])
      obtain ⟨f, f1, f2, f3⟩ := h b (by simp)
      refine ⟨f :: fs, ?_, ?_, ?_⟩
      · intro x hx
        rcases List.mem_cons.mp hx with rfl | hx
        · exact f1
        · exact h1 x hx
      · rw [List.flatten_cons, List.flatMap_cons, h2, f2]
      · rw [List.map_cons]
        unfold treWriteAll
        rw [f3]
        simp only [h3]
  obtain ⟨fs, h1, h2, h3⟩ := this
  exact ⟨_, by rw [h2]; exact readTreData_frames P hreg fs h1, h3⟩

theorem Rewritable.ne_nil {reg : Registry} {b : Bytes} (h : Rewritable P reg b) : b ≠ [] := by
  obtain ⟨f, f1, f2, _⟩ := h
  have := f1.len_bytes
  intro hb
  rw [← f2, hb] at this
  simp at this

theorem rewritable_blobs {reg : Registry} (hreg : reg.Causal) : ∀ {G : List (List Bytes)},
    (∀ g ∈ G, ∀ b ∈ g, Rewritable P reg b) →
    ∃ us, parseBlobs P reg ((G.map List.flatten).map
        fun h => if h = [] then [] else [h]).flatten = .ok us ∧
      treWriteAll P us = .ok G.flatten
  | [], _ => ⟨[], rfl, rfl⟩
  | g :: G, h => by
    obtain ⟨us, u1, u2⟩ := rewritable_blobs hreg (G := G) fun x hx => h x (by simp [hx])
    rw [List.map_cons, List.map_cons, List.flatten_cons, List.flatten_cons]
    cases g with
    | nil =>
      rw [List.flatten_nil, if_pos rfl, List.nil_append, List.nil_append]
      exact ⟨us, u1, u2⟩
    | cons b g =>
      have hb := (h (b :: g) (by simp) b (by simp)).ne_nil
      have hne : (b :: g).flatten ≠ [] := by
        intro he
        rw [List.flatten_cons] at he
        exact hb (List.append_eq_nil_iff.mp he).1
      rw [if_neg hne]
      obtain ⟨vs, v1, v2⟩ := rewritable_area (P := P) hreg (h (b :: g) (by simp))
      refine ⟨vs ++ us, ?_, treWriteAll_append v2 u2⟩
      rw [List.cons_append, List.nil_append]
      unfold parseBlobs
      rw [v1]
      simp only [u1]

theorem blobsOf_stores (des : List (Except Err Bytes)) {vs : List AreaVal} {heads : List Bytes}
    (h : Each Fresh vs heads) : BlobsOf des (List.zipWith AreaVal.store vs heads)
      (heads.map fun h => if h = [] then [] else [h]) := by
  induction h with
  | nil => exact .nil
  | cons h1 _ ih => exact .cons (store_blobs h1 des) ih

/-- A header after `prepare_tre_write` without overflow: reading its TREs and placing them again
gives the same area contents. -/
theorem again_prepared (E : Env) {d : Desc} {areas : List Area}
    (H : HeaderAreas d areas (areaPositions d areas)) (hreg : E.reg.Causal) {S S' : Store P.F}
    {tres : List (Tre P.F)} (hr : TresReady P E d areas S tres) (hn : ∀ t ∈ tres, t.NoLit) {n : Nat}
    (hp : prepareTreWrite P d areas n tres S = .ok (S', none)) :
    ∃ heads : List Bytes,
      (∀ dd us, readTre P E.reg d dd areas S' = .ok us → ∃ ser, treWriteAll P us = .ok ser ∧
        place ser (areas.map fun _ => []) [] = (heads, [])) ∧
      Each (fun p h => ∃ v, Holds P d.tab S' p v ∧ (h = [] → v.len = 0) ∧
        (h ≠ [] → v = ⟨(h.length : Int) + 3, 0, h⟩)) (areaPositions d areas) heads := by
  obtain ⟨vs, ser, h1, h2, h3, h4, h5⟩ := hr
  obtain ⟨ser', heads, ov, p1, p2, p3, p4, _, _⟩ := prepare_ok P H h1 hp
  rw [h2] at p1
  injection p1 with p1
  subst p1
  have hov : ov = [] := by
    cases ov with
    | nil => rfl
    | cons _ _ => simp at p3
  subst hov
  have hap : afterPrepare n vs heads [] = List.zipWith AreaVal.store vs heads := by
    unfold afterPrepare
    cases List.zipWith AreaVal.store vs heads with
    | nil => rfl
    | cons v r => simp
  rw [hap] at p4
  have hrep : (areas.map fun _ => ([] : Bytes)) = List.replicate areas.length [] := List.map_const' ..
  have p2' := p2
  rw [hrep] at p2'
  have hE := treWriteAll_each P h2
  have hsz : ∀ b ∈ ser, b ≠ [] ∧ b.length < 99996 := by
    intro b hb
    obtain ⟨t, ht, htb⟩ := hE.mem_right hb
    have := treWrite_ne_nil P htb (h5 t ht).1
    exact ⟨fun h0 => by rw [h0] at this; simp at this, h3 b hb⟩
  have hlen : heads.length = areas.length := by
    obtain ⟨_, _, _, h, _⟩ := place_spec ser (areas.map fun _ => []) []
    rw [p2] at h
    simpa using h
  have hvl : vs.length = areas.length := by rw [← Each.length h1, H.at_.1]
  have hstate : ∀ (i : Nat) (v : AreaVal) (h : Bytes), vs[i]? = some v → heads[i]? = some h →
      (h = [] → v.len = 0) ∧ (¬ v.len > 0 → v.ofl = 0) := by
    intro i v h hv hh
    rcases h4 i v hv with h' | ⟨h', h''⟩
    · exact ⟨fun _ => h'.1, fun _ => h'.2⟩
    · obtain ⟨g, e1, e2⟩ := place_reaches hsz (by rw [← hvl]; exact lt_of_getElem? hv) h'' p2'
      rw [hh] at e1
      injection e1 with e1
      subst e1
      exact ⟨fun h => absurd h e2, fun h => absurd h' h⟩
  have hF : Each Fresh vs heads := by
    refine each_of_get (by omega) ?_
    intro i v h hv hh
    obtain ⟨q1, q2⟩ := hstate i v h hv hh
    exact ⟨fun he => by rw [q1 he]; omega, fun hl => by rw [q2 (by omega)]; omega⟩
  refine ⟨heads, ?_, ?_⟩
  · intro dd us hus
    obtain ⟨G, g1, g2, g3, g4⟩ := place_again p2'
    have hRw : ∀ g ∈ G, ∀ b ∈ g, Rewritable P E.reg b := by
      intro g hg b hb
      obtain ⟨t, ht, htb⟩ := hE.mem_right (g3 g hg b hb)
      exact rewritable_of (h5 t ht) (hn t ht) htb
    rw [readTre_holds P H p4 E.reg (blobsOf_stores dd hF), g2] at hus
    obtain ⟨us', u1, u2⟩ := rewritable_blobs (P := P) hreg hRw
    rw [u1] at hus
    injection hus with hus
    subst hus
    exact ⟨_, u2, by rw [hrep]; exact g4 []⟩
  · refine each_of_get (by rw [← H.at_.1, hlen]) ?_
    intro i p h hp hh
    have hi : i < vs.length := by
      rw [hvl, ← hlen]; exact lt_of_getElem? hh
    have hv := List.getElem?_eq_getElem hi
    have hz : (List.zipWith AreaVal.store vs heads)[i]? = some ((vs[i]).store h) := by
      rw [List.getElem?_zipWith, hv, hh]
    refine ⟨_, Each.get p4 i p _ hp hz, ?_, ?_⟩
    · intro he
      subst he
      exact (hstate i _ _ hv hh).1 rfl
    · intro he
      have := (hstate i _ _ hv hh).2
      unfold AreaVal.store
      simp only [he, if_false]
      congr 1
      split
      · rfl
      · rename_i hl; exact this hl

/-- The areas of a header that was read. -/
theorem area_held {d : Desc} (hd : d.causal = true) {a : Area} {p : AreaPos} (hA : AreaAt d.tab a p)
    {S R : Store P.F} {cs : List Chunk} (hw : writeChunks P d S = .ok cs) (L : Loaded P d S R cs)
    {v : AreaVal} (hv : Holds P d.tab S p v) {h : Bytes} (h0 : h = [] → v.len = 0)
    (h1 : h ≠ [] → v = ⟨(h.length : Int) + 3, 0, h⟩) : AreaHeld d R a p.m p.n h := by
  obtain ⟨fm, m1, m2, m3, m4, m5⟩ := hA.flen
  obtain ⟨fm', m1', m6⟩ := hv.len
  rw [m1] at m1'; injection m1' with m1'; subst m1'
  have hm := L.int (chunk_scalar hd hw m1 m2.shapes (evalCond_none P m5 _ _)) m1 m2.name m2.value m4 m6
  refine ⟨?_, ?_, ?_, ?_⟩
  · intro he
    unfold attrPos getAttr
    rw [hA.rlen]
    simp only
    rw [m2.get_plain P m3 m1 (evalCond_none P m5 _ _), hm, finish_int P m4, h0 he]
    rfl
  · intro he fi hfi
    rw [m1] at hfi; injection hfi with hfi; subst hfi
    rw [hm, h1 he]
  · intro he fi hfi
    obtain ⟨fn, n1, n2, n3, n4, n5, _⟩ := hA.fdata
    obtain ⟨fn', n1', n6⟩ := hv.data
    rw [n1] at n1'; injection n1' with n1'; subst n1'
    rw [n1] at hfi; injection hfi with hfi; subst hfi
    have := L.bytes (chunk_scalar hd hw n1 n2.shapes (evalCond_none P n5 _ _)) n1 n2.name n2.value
      n4 n6
    rw [this, h1 he]
  · intro he o fi ho hfi
    obtain ⟨fo, o1, o2, o3, o4, o5⟩ := hA.fofl
    obtain ⟨fo', o1', o6⟩ := hv.ofl
    rw [o1] at o1'; injection o1' with o1'; subst o1'
    rw [hA.rofl] at ho; injection ho with ho; subst ho
    rw [o1] at hfi; injection hfi with hfi; subst hfi
    have hc : evalCond P (look P d.tab S) fo [] = .ok true := by
      rw [hA.cond hd hv o5, h1 he]
      simp only
      rw [decide_eq_true]
      omega
    rw [L.int (chunk_scalar hd hw o1 o2.shapes hc) o1 o2.name o2.value o4 o6, h1 he]

theorem held_all {d : Desc} {areas : List Area}
    (H : HeaderAreas d areas (areaPositions d areas)) {ps : List (Nat × Nat)}
    (hA : AreasRows d areas ps)
    {S R : Store P.F} {cs : List Chunk} (hw : writeChunks P d S = .ok cs) (L : Loaded P d S R cs)
    {heads : List Bytes}
    (hE : Each (fun p h => ∃ v, Holds P d.tab S p v ∧ (h = [] → v.len = 0) ∧
        (h ≠ [] → v = ⟨(h.length : Int) + 3, 0, h⟩)) (areaPositions d areas) heads) :
    HeldAll d R areas ps heads := by
  have hc := H.causal
  have hat := H.at_
  generalize areaPositions d areas = qs at hE hat
  clear H
  induction hA generalizing qs heads with
  | nil =>
    cases hE with
    | nil => exact .nil
    | cons _ _ => simp at hat
  | @cons a as m n ps h1 _ _ _ ih =>
    cases hE with
    | nil => simp at hat
    | @cons p qs h hs e1 e2 =>
      have hAt := hat.2 0 a p rfl rfl
      obtain ⟨v, v1, v2, v3⟩ := e1
      have hm : m = p.m := by
        have := h1.rlen; rw [hAt.rlen] at this; injection this with this; exact this.symm
      have hn : n = p.n := by
        have := h1.rdata; rw [hAt.rdata] at this; injection this with this; exact this.symm
      rw [hm, hn]
      refine .cons (area_held hc hAt hw L v1 v2 v3) (ih qs e2 ⟨by simpa using hat.1, ?_⟩)
      intro i a' p' ha' hp'
      exact hat.2 (i + 1) a' p' (by simpa using ha') (by simpa using hp')

/-! ### Segments -/

section
variable (E : Env) (IO : DataIO P.F)

/-- `prepare_tre_write` of the header leaves the values as they are and makes no segment. -/
def PrepSettled (d : Desc) (areas : List Area) (tres : List (Tre P.F)) (R : Store P.F) : Prop :=
  ∀ n, ∃ R', prepareTreWrite P d areas n tres R = .ok (R', none) ∧ SameVal P d.tab R' R

theorem prepareHeader_settled {d : Desc} {areas : List Area} {tres : List (Tre P.F)}
    {R : Store P.F} (h : PrepSettled d areas tres R) (pre : Name) (ofl : Str) (i : Nat)
    (des : List (Seg P.F IO.D)) :
    ∃ R', prepareHeader P IO d areas pre ofl i tres R des = .ok (R', des) ∧
      SameVal P d.tab R' R := by
  obtain ⟨R', h1, h2⟩ := h des.length
  refine ⟨R', ?_, h2⟩
  unfold prepareHeader
  rw [h1]

theorem prepareSegs_settled {k : SegKind} : ∀ {ss : List (Seg P.F IO.D)},
    (∀ s ∈ ss, ∀ areas, k.areas = some areas → PrepSettled k.desc areas s.tres s.sub) →
    ∀ (i : Nat) (des : List (Seg P.F IO.D)),
    ∃ ss', prepareSegs P IO k i ss des = .ok (ss', des) ∧ Each (SegEqv P IO k) ss ss'
  | [], _, i, des => ⟨[], by unfold prepareSegs; rfl, .nil⟩
  | s :: ss, h, i, des => by
    unfold prepareSegs
    cases hk : k.areas with
    | none => exact ⟨_, rfl, Each.refl (SegEqv.refl P IO k) _⟩
    | some areas =>
      obtain ⟨R', h1, h2⟩ := prepareHeader_settled IO (h s (by simp) areas hk) k.secPrefix
        k.oflName i des
      obtain ⟨ss', h3, h4⟩ := prepareSegs_settled (ss := ss) (fun x hx => h x (by simp [hx]))
        (i + 1) des
      simp only [h1, h3]
      exact ⟨_, rfl, .cons ⟨rfl, rfl, rfl, rfl, h2.symm⟩ h4⟩

/-- What a segment must meet to be written as the bytes `p` and stay as it is. -/
structure SegSettled (k : SegKind) (s : Seg P.F IO.D) (p : Bytes × Bytes) : Prop where
  prep : ∀ areas, k.areas = some areas → PrepSettled k.desc areas s.tres s.sub
  bytes : ∃ y, segBytes P E IO k s = .ok (y, p.1, p.2) ∧ SegEqv P IO k s y

theorem writeUser_bytes {user : Option (Desc × Store P.F)} {b : Bytes}
    (h : userBytes P user = .ok b) (sub : Store P.F) :
    writeUser P .des user sub = .ok ((sub.set 22 [] ⟨.val (.bytes b), none⟩).set 21 []
      ⟨.val (.int (b.length : Nat)), none⟩) := by
  unfold writeUser
  unfold userBytes at h
  cases user with
  | none =>
    simp only at h ⊢
    injection h with h
    subst h
    rw [setUser_none P, setUser_des P []]
  | some x =>
    obtain ⟨d, U⟩ := x
    simp only at h ⊢
    rw [h]
    exact setUser_des P b

/-- A segment that was read is written as the same bytes and stays as it is. -/
theorem segBytes_loaded {same : IO.D → IO.D → Prop} (hsame : ∀ x y, same x y → IO.write y = IO.write x)
    {k : SegKind} {s0 : Seg P.F IO.D} {x : Seg P.F IO.D × Bytes × Bytes} {s : Seg P.F IO.D}
    (hx : segBytes P E IO k s0 = .ok x) (h : ReadBack P E IO same k x s)
    (hu : ∀ d U, x.1.user = some (d, U) → NoLit U) :
    ∃ y, segBytes P E IO k s = .ok (y, x.2.1, x.2.2) ∧ SegEqv P IO k s y := by
  obtain ⟨sub, h1, h2, h3, h4, h5⟩ := segBytes_ok P E IO hx
  obtain ⟨r, sb, db⟩ := x
  simp only at h2 h3 h4 hu ⊢
  subst h2
  obtain ⟨cs, c1, c2, L⟩ := h.loaded
  simp only at c1 c2 L
  have hcheck : checkUser P E IO k s = .ok () := by
    have hr := h.reads
    unfold readUser at hr
    unfold checkUser
    rw [h.linked]
    simp only [if_true]
    cases hc : userCls P E k s.sub with
    | error e => rw [hc] at hr; cases hr
    | ok o =>
      rw [hc] at hr
      cases o with
      | none => rfl
      | some d =>
        simp only at hr ⊢
        cases k with
        | des =>
          simp only at hr
          split at hr
          · cases hr
          · split at hr
            · cases hr
            · injection hr with hr
              rw [← hr]
              simp
          · cases hr
        | _ => cases hr
  have hdata : writeData P IO s.data = .ok db := by
    have hd := h.data
    rw [← h4]
    simp only at hd
    unfold writeData
    cases hs0 : s0.data with
    | overflow b =>
      rw [hs0] at hd
      cases hs : s.data with
      | overflow c => rw [hs] at hd; rw [show c = b from hd]
      | other y => rw [hs] at hd; exact absurd hd (by simp [SameData])
    | other a =>
      rw [hs0] at hd
      cases hs : s.data with
      | overflow c => rw [hs] at hd; exact absurd hd (by simp [SameData])
      | other y =>
        rw [hs] at hd
        simp only [hsame a y hd]
  have hsub : ∃ R, writeUser P k s.user s.sub = .ok R ∧ SameVal P k.desc.tab R s.sub := by
    by_cases hk : k = .des
    · subst hk
      obtain ⟨b, b1, b2⟩ := writeUser_des P h1
      have b3 := h.userAgain hu b b1
      refine ⟨_, writeUser_bytes b3 s.sub, ?_⟩
      obtain ⟨_, fi, fm, e1, e2, e3, e4, e5, e6, _, _, e9, e10, _, e12⟩ := desshf_rows
      obtain ⟨_, fm', e2', e4', e6', ety⟩ : ∃ u : Unit, ∃ fm, Tables.t_des_subheader.tab[21]? = some fm ∧
          Scalar fm ∧ fm.fd.kind = .plain ∧ fm.fd.ty = .int := by
        refine ⟨(), fm, e2, e4, e6, ?_⟩
        have : (Tables.t_des_subheader.tab[21]?).map (fun fi => fi.fd.ty == .int) = some true := by
          decide +kernel
        rw [e2] at this
        simpa using this
      rw [e2] at e2'; injection e2' with e2'; subst e2'
      have k22 := L.bytes (chunk_scalar (subheader_causal .des) c1 e1 e3.shapes (evalCond_none P e9 _ _))
        e1 e3.name e3.value e12 (b := b) (by
          rw [b2]
          simp [stored, Store.set, finish_bytes P e12])
      have k21 := L.int (chunk_scalar (subheader_causal .des) c1 e2 e4.shapes (evalCond_none P e10 _ _))
        e2 e4.name e4.value ety (z := (b.length : Nat)) (by
          rw [b2]
          simp [stored, Store.set, finish_int P ety])
      have q1 : SameVal P Tables.t_des_subheader.tab
          (s.sub.set 22 [] ⟨.val (.bytes b), none⟩) s.sub := SameVal.set_self fun fi' hfi => by
        rw [e1] at hfi; injection hfi with hfi; subst hfi; exact k22
      refine (q1.set 21 [] ⟨.val (.int (b.length : Nat)), none⟩).trans (SameVal.set_self ?_)
      intro fi' hfi
      rw [show Tables.t_des_subheader.tab[21]? = some fi' from hfi] at e2
      injection e2 with e2; subst e2; exact k21
    · refine ⟨s.sub, ?_, .refl _ _⟩
      have e : ∀ v, setUserData P k s.sub v = .ok s.sub := by
        intro v
        cases k <;> first | exact absurd rfl hk | rfl
      unfold writeUser
      have hnone : s.user = none := by
        have hr := h.reads
        unfold readUser at hr
        cases hc : userCls P E k s.sub with
        | error e => rw [hc] at hr; cases hr
        | ok o =>
          rw [hc] at hr
          cases o with
          | none => injection hr with hr; exact hr.symm
          | some d =>
            cases k with
            | des => exact absurd rfl hk
            | _ => cases hr
      rw [hnone]
      exact e _
  obtain ⟨R, r1, r2⟩ := hsub
  refine ⟨{ s with sub := R }, ?_, ⟨rfl, rfl, rfl, rfl, r2.symm⟩⟩
  unfold segBytes
  rw [hcheck]
  simp only [r1]
  have hw : writeStruct P k.desc R = .ok sb := by
    unfold writeStruct
    rw [writeChunks_same P r2, L.again]
    simp only [← c2]
    rfl
  simp only [hw, hdata]

/-- A file of settled parts is written as those parts and stays as it is. -/
theorem writeFile_settled {g : NFile P.F IO.D} {cs : List Chunk}
    {parts : SegKind → List (Bytes × Bytes)}
    (hdrop : dropOverflow P IO g.des = .ok g.des)
    (hH : PrepSettled Tables.t_file_header fileAreas g.tres g.header)
    (hw : writeChunks P Tables.t_file_header g.header = .ok cs)
    (hS : ∀ k, Each (SegSettled E IO k) (g.segs k) (parts k))
    (hnum : ∀ k, HeaderInt g.header (numPos k) [] ((g.segs k).length : Nat))
    (hhl : HeaderInt g.header hlPos [] ((chunkBytes cs).length : Nat))
    (hfl : HeaderInt g.header flPos [] ((chunkBytes cs ++ partsBytes parts).length : Nat))
    (hlhl : ∃ o, locOf hlPos [] 0 cs = some o) (hlfl : ∃ o, locOf flPos [] 0 cs = some o)
    (hlens : ∀ k (j : Nat) p, (parts k)[j]? = some p →
      ((∃ o, locOf (lenPos k) [(j : Int)] 0 cs = some o) ∧
        ∃ o, locOf (dataPos k) [(j : Int)] 0 cs = some o) ∧
      HeaderInt g.header (lenPos k) [(j : Int)] (p.1.length : Nat) ∧
      HeaderInt g.header (dataPos k) [(j : Int)] (p.2.length : Nat)) :
    ∃ g', writeFile P E IO g = .ok (g', chunkBytes cs ++ partsBytes parts) ∧
      FileEqv P IO g g' := by
  obtain ⟨H0, a1, a2⟩ := prepareHeader_settled IO hH (n!"fs") "XHD".toList 0 g.des
  have hprep : ∀ k, ∃ ss', prepareSegs P IO k 0 (g.segs k) g.des = .ok (ss', g.des) ∧
      Each (SegEqv P IO k) (g.segs k) ss' := by
    intro k
    refine prepareSegs_settled IO ?_ 0 g.des
    intro s hs
    obtain ⟨p, _, hp⟩ := (hS k).mem_left hs
    exact hp.prep
  obtain ⟨im, b1, b2⟩ := hprep .image
  obtain ⟨gr, c1, c2⟩ := hprep .graphic
  obtain ⟨tx, e1, e2⟩ := hprep .text
  obtain ⟨H1, n1, n2⟩ := nums_again (ni := im.length) (ng := gr.length) (nt := tx.length)
    (nd := g.des.length) (nr := g.res.length) a2 (by
      rw [← b2.length, ← c2.length, ← e2.length]
      exact ⟨hnum .image, hnum .graphic, hnum .text, hnum .des, hnum .res⟩)
  have hc1 : writeChunks P Tables.t_file_header H1 = .ok cs := by
    rw [writeChunks_same P n2]; exact hw
  obtain ⟨fh, fh1, fh2, _⟩ := hlField.at_
  obtain ⟨ff, ff1, ff2, _⟩ := flField.at_
  obtain ⟨H2, p1, p2⟩ := updateHeader_again hlField.res fh1 fh2 hl_unref n2 hw hlhl hhl
    (post := []) (out := chunkBytes cs) (by simp)
  -- the list of segments with their bytes
  have hxs : ∀ k ss, Each (SegEqv P IO k) (g.segs k) ss →
      ∃ xs : List (Seg P.F IO.D × Bytes × Bytes), xs.map (·.1) = g.segs k ∧
        xs.map (·.2) = parts k ∧
        Each (fun s x => s.linked = x.1.linked ∧ ∃ y, segBytes P E IO k s = .ok (y, x.2.1, x.2.2) ∧
          SegEqv P IO k x.1 y) ss xs := by
    intro k ss hE
    have hk := hS k
    generalize g.segs k = l at hE hk
    generalize parts k = ps at hk
    induction hE generalizing ps with
    | nil => cases hk; exact ⟨[], rfl, rfl, .nil⟩
    | @cons s l s' ss h1 _ ih =>
      cases hk with
      | @cons _ _ p ps k1 k2 =>
        obtain ⟨xs, x1, x2, x3⟩ := ih ps k2
        obtain ⟨y, y1, y2⟩ := k1.bytes
        obtain ⟨y', y3, y4⟩ := segBytes_same P E IO h1 y1
        refine ⟨(s, p) :: xs, by simp [x1], by simp [x2], .cons ⟨h1.linked, y', y3, ?_⟩ x3⟩
        exact y2.trans P IO y4
  have hL : ∀ k (xs : List (Seg P.F IO.D × Bytes × Bytes)), xs.map (·.2) = parts k →
      ∀ (j : Nat) x, xs[j]? = some x → x.1.linked = true →
        ((∃ o, locOf (lenPos k) [((0 + j : Nat) : Int)] 0 cs = some o) ∧
          ∃ o, locOf (dataPos k) [((0 + j : Nat) : Int)] 0 cs = some o) ∧
        HeaderInt g.header (lenPos k) [((0 + j : Nat) : Int)] (x.2.1.length : Nat) ∧
        HeaderInt g.header (dataPos k) [((0 + j : Nat) : Int)] (x.2.2.length : Nat) := by
    intro k xs hk j x hx _
    rw [Nat.zero_add]
    exact hlens k j x.2 (by rw [← hk, List.getElem?_map, hx]; rfl)
  have hpb : ∀ k (xs : List (Seg P.F IO.D × Bytes × Bytes)), xs.map (·.2) = parts k →
      (xs.flatMap fun x => x.2.1 ++ x.2.2) = (parts k).flatMap fun p => p.1 ++ p.2 := by
    intro k xs hk
    rw [← hk, List.flatMap_map]
  let pb := fun k => (parts k).flatMap fun p => p.1 ++ p.2
  obtain ⟨xi, xi1, xi2, xi3⟩ := hxs .image im b2
  obtain ⟨xg, xg1, xg2, xg3⟩ := hxs .graphic gr c2
  obtain ⟨xt, xt1, xt2, xt3⟩ := hxs .text tx e2
  obtain ⟨xd, xd1, xd2, xd3⟩ := hxs .des g.des (Each.refl (SegEqv.refl P IO .des) _)
  obtain ⟨xr, xr1, xr2, xr3⟩ := hxs .res g.res (Each.refl (SegEqv.refl P IO .res) _)
  obtain ⟨im', H3, i1, i2, i3⟩ := writeSegs_again E IO hw (i := 0) xi3 p2
    (out := chunkBytes cs) (post := []) (by simp) (hL .image xi xi2)
  rw [hpb .image xi xi2] at i1
  obtain ⟨gr', H4, g1, g2, g3⟩ := writeSegs_again E IO hw (i := 0) xg3 i2
    (out := chunkBytes cs ++ pb .image) (post := pb .image) rfl (hL .graphic xg xg2)
  rw [hpb .graphic xg xg2] at g1
  obtain ⟨tx', H5, t1, t2, t3⟩ := writeSegs_again E IO hw (i := 0) xt3 g2
    (out := chunkBytes cs ++ pb .image ++ pb .graphic) (post := pb .image ++ pb .graphic)
    (by simp) (hL .text xt xt2)
  rw [hpb .text xt xt2] at t1
  obtain ⟨de', H6, x1, x2, x3⟩ := writeSegs_again E IO hw (i := 0) xd3 t2
    (out := chunkBytes cs ++ pb .image ++ pb .graphic ++ pb .text)
    (post := pb .image ++ pb .graphic ++ pb .text) (by simp) (hL .des xd xd2)
  rw [hpb .des xd xd2] at x1
  obtain ⟨re', H7, y1, y2, y3⟩ := writeSegs_again E IO hw (i := 0) xr3
    x2 (out := chunkBytes cs ++ pb .image ++ pb .graphic ++ pb .text ++ pb .des)
    (post := pb .image ++ pb .graphic ++ pb .text ++ pb .des) (by simp) (hL .res xr xr2)
  rw [hpb .res xr xr2] at y1
  have hout : chunkBytes cs ++ partsBytes parts = chunkBytes cs ++ pb .image ++ pb .graphic ++
      pb .text ++ pb .des ++ pb .res := by
    simp only [partsBytes, SegKind.order, List.flatMap_cons, List.flatMap_nil,
      List.append_nil, List.append_assoc, pb]
  change writeSegs P E IO cs .res 0 g.res _ = .ok (re', H7, _ ++ pb .res) at y1
  rw [← hout] at y1
  obtain ⟨H8, z1, z2⟩ := updateHeader_again flField.res ff1 ff2 fl_unref y2 hw hlfl hfl rfl
  rw [xi1] at i3
  rw [xg1] at g3
  rw [xt1] at t3
  rw [xd1] at x3
  rw [xr1] at y3
  obtain ⟨de'', w1, w2⟩ := dropOverflow_same P IO x3 hdrop
  refine ⟨{ header := H8, tres := g.tres, image := im', graphic := gr', text := tx',
            des := de'', res := re' }, ?_, ⟨z2.symm, rfl, ?_⟩⟩
  · unfold writeFile
    simp only [bind_ok, Prod.exists, pure, Except.pure]
    exact ⟨_, hdrop, _, _, a1, _, _, b1, _, _, c1, _, _, e1, _, n1, _, hc1, _, _, p1, _, _, _, i1,
      _, _, _, g1, _, _, _, t1, _, _, _, x1, _, _, _, y1, _, _, z1, _, w1, rfl⟩
  · intro k
    cases k with
    | image => exact i3
    | graphic => exact g3
    | text => exact t3
    | res => exact y3
    | des => exact w2

end

end Verif
