import Verif.TrePlace
import Verif.Props.Tables

/- Writing TREs and reading them back: lists, header areas. -/

namespace Verif

variable (P : PyFloat)

/-- The same TRE to a user: the same tag; the same bytes (unknown TRE), or the same class and the
same (index, value) pairs for every field name. -/
def SameTre : Tre P.F → Tre P.F → Prop
  | .unknown tag b, .unknown tag' b' => tag' = tag ∧ b' = b
  | .known tag d S, .known tag' d' S' =>
      tag' = tag ∧ d' = d ∧ ∀ nm, itemsOf P d S' nm = itemsOf P d S nm
  | _, _ => False

/-- A TRE that can be represented: a tag of at most six ASCII characters, not ending in white
space; for a known TRE, its class is the one registered for the tag, and the values it is written
with can be read back (`Survives`); for an unknown TRE, no class is registered for the tag. -/
def Representable (reg : Registry) (t : Tre P.F) : Prop :=
  TagOk t.tag ∧
  match t with
  | .unknown tag _ => reg.lookup (tagBytes tag) = none
  | .known tag d S => reg.lookup (tagBytes tag) = some (tag, d) ∧ d.causal = true ∧
      d.allFields FieldDef.wf = true ∧
      ∀ cs, writeChunks P d S = .ok cs → ∀ ch ∈ cs, Survives P d S ch

theorem writeStruct_chunks {d : Desc} {S : Store P.F} {b : Bytes} (h : writeStruct P d S = .ok b) :
    ∃ cs, writeChunks P d S = .ok cs ∧ b = chunkBytes cs := by
  unfold writeStruct at h
  cases hc : writeChunks P d S with
  | error e => rw [hc] at h; cases h
  | ok cs =>
    rw [hc] at h
    simp only [Except.map] at h
    injection h with h
    exact ⟨cs, rfl, h.symm⟩

theorem representable_interp {reg : Registry} {t : Tre P.F} (hg : Representable P reg t) {b : Bytes}
    (h : treWrite P t = .ok b) : ∃ f : Frame, f.Ok ∧ b = f.bytes ∧ SameTre P t (interp P reg f) := by
  obtain ⟨htag, hg⟩ := hg
  obtain ⟨body, h1, h2, h3, h4⟩ := treWrite_frame P htag h
  refine ⟨_, h4, h3, ?_⟩
  unfold interp
  simp only [htag.rstrip, latin1Dec_utf8Enc htag.ascii]
  cases t with
  | unknown tag b' =>
    simp only [Tre.tag] at hg ⊢
    simp only [hg]
    simp only [Tre.body] at h1
    injection h1 with h1
    exact ⟨rfl, h1.symm⟩
  | known tag d S =>
    simp only [Tre.tag] at hg ⊢
    simp only [hg.1, ne_eq, not_true_eq_false, if_false]
    simp only [Tre.body] at h1
    obtain ⟨cs, hc, hb⟩ := writeStruct_chunks P h1
    obtain ⟨R, r1, r2, _⟩ := C01_write_then_read P hg.2.1 hg.2.2.1 hc (hg.2.2.2 cs hc) []
    rw [List.append_nil, ← hb] at r1
    rw [r1]
    exact ⟨rfl, rfl, r2⟩

theorem frames_of_each {reg : Registry} {ts : List (Tre P.F)} {ser : List Bytes}
    (h : Each (fun t b => treWrite P t = .ok b) ts ser)
    (hg : ∀ t ∈ ts, Representable P reg t) : ∃ fs : List Frame, (∀ f ∈ fs, f.Ok) ∧
      ser.flatten = fs.flatMap Frame.bytes ∧ Each (SameTre P) ts (fs.map (interp P reg)) := by
  induction h with
  | nil => exact ⟨[], by simp, rfl, .nil⟩
  | cons h _ ih =>
    obtain ⟨fs, h1, h2, h3⟩ := ih fun t ht => hg t (by simp [ht])
    obtain ⟨f, f1, f2, f3⟩ := representable_interp P (hg _ (by simp)) h
    refine ⟨f :: fs, ?_, ?_, .cons f3 h3⟩
    · intro g hg
      rcases List.mem_cons.mp hg with rfl | hg
      · exact f1
      · exact h1 g hg
    · rw [List.flatten_cons, List.flatMap_cons, h2, f2]

/-- A list of TREs and its area. -/
theorem area_round {reg : Registry} (hreg : reg.Causal) {ts : List (Tre P.F)} {ser : List Bytes}
    (h : Each (fun t b => treWrite P t = .ok b) ts ser)
    (hg : ∀ t ∈ ts, Representable P reg t) :
    ∃ us, readTreData P reg ser.flatten = .ok us ∧ Each (SameTre P) ts us := by
  obtain ⟨fs, h1, h2, h3⟩ := frames_of_each P h hg
  exact ⟨_, by rw [h2]; exact readTreData_frames P hreg fs h1, h3⟩

/-- Several areas. -/
theorem parseBlobs_round {reg : Registry} (hreg : reg.Causal) :
    ∀ {groups : List (List (Tre P.F))} {blobs : List Bytes},
      Each (fun ts b => (∀ t ∈ ts, Representable P reg t) ∧ ∃ ser,
        Each (fun t b => treWrite P t = .ok b) ts ser ∧ b = ser.flatten) groups blobs →
      ∃ us, parseBlobs P reg blobs = .ok us ∧ Each (SameTre P) groups.flatten us := by
  intro groups blobs h
  induction h with
  | nil => exact ⟨[], rfl, .nil⟩
  | cons h _ ih =>
    obtain ⟨hg, ser, h1, h2⟩ := h
    obtain ⟨us, u1, u2⟩ := area_round P hreg h1 hg
    obtain ⟨vs, v1, v2⟩ := ih
    unfold parseBlobs
    rw [h2, u1]
    simp only
    rw [v1]
    exact ⟨_, rfl, by rw [List.flatten_cons]; exact u2.append v2⟩

/-! ### Concrete headers -/

/-- Boolean form of `AreaAt`. -/
def areaOkB (T : Tab) (a : Area) (p : AreaPos) : Bool :=
  resolve T a.len == some p.m && resolve T a.ofl == some p.o && resolve T a.data == some p.n &&
  (match T[p.m]? with
    | none => false
    | some f => f.fd.name.isSome && f.shapes.isEmpty && f.fd.value.isNone && !f.fd.hardcoded &&
        f.fd.kind == .plain && f.fd.ty == .int && f.fd.cond.isNone) &&
  (match T[p.o]? with
    | none => false
    | some f => f.fd.name.isSome && f.shapes.isEmpty && f.fd.value.isNone && !f.fd.hardcoded &&
        f.fd.kind == .plain && f.fd.ty == .int &&
        f.fd.cond == some (.ne (.ref a.len []) (.const (.int 0)))) &&
  (match T[p.n]? with
    | none => false
    | some f => f.fd.name.isSome && f.shapes.isEmpty && f.fd.value.isNone && !f.fd.hardcoded &&
        f.fd.kind == .bytesData && f.fd.ty == .bytes && f.fd.cond.isNone &&
        f.fd.size == .expr (.ref a.len []) && f.fd.sizeOffset == 3 && !f.fd.sizeNotUpdated)

theorem areaAt_of_ok {T : Tab} {a : Area} {p : AreaPos} (h : areaOkB T a p = true) :
    AreaAt T a p := by
  unfold areaOkB at h
  simp only [Bool.and_eq_true, beq_iff_eq] at h
  obtain ⟨⟨⟨⟨⟨h1, h2⟩, h3⟩, hm⟩, ho⟩, hn⟩ := h
  have nn : ∀ {f : FInfo}, f.fd.name.isSome = true → f.fd.name ≠ none := by
    intro f h; cases hh : f.fd.name with
    | none => rw [hh] at h; cases h
    | some _ => simp
  refine ⟨h1, h2, h3, ?_, ?_, ?_⟩
  · cases hf : T[p.m]? with
    | none => rw [hf] at hm; cases hm
    | some f =>
      rw [hf] at hm
      simp only [Bool.and_eq_true, beq_iff_eq, List.isEmpty_iff, Option.isNone_iff_eq_none,
        Bool.not_eq_true'] at hm
      obtain ⟨⟨⟨⟨⟨⟨a1, a2⟩, a3⟩, a4⟩, a5⟩, a6⟩, a7⟩ := hm
      exact ⟨f, rfl, ⟨nn a1, a2, a3, a4⟩, a5, a6, a7⟩
  · cases hf : T[p.o]? with
    | none => rw [hf] at ho; cases ho
    | some f =>
      rw [hf] at ho
      simp only [Bool.and_eq_true, beq_iff_eq, List.isEmpty_iff, Option.isNone_iff_eq_none,
        Bool.not_eq_true'] at ho
      obtain ⟨⟨⟨⟨⟨⟨a1, a2⟩, a3⟩, a4⟩, a5⟩, a6⟩, a7⟩ := ho
      exact ⟨f, rfl, ⟨nn a1, a2, a3, a4⟩, a5, a6, a7⟩
  · cases hf : T[p.n]? with
    | none => rw [hf] at hn; cases hn
    | some f =>
      rw [hf] at hn
      simp only [Bool.and_eq_true, beq_iff_eq, List.isEmpty_iff, Option.isNone_iff_eq_none,
        Bool.not_eq_true'] at hn
      obtain ⟨⟨⟨⟨⟨⟨⟨⟨⟨a1, a2⟩, a3⟩, a4⟩, a5⟩, a6⟩, a7⟩, a8⟩, a9⟩, a10⟩ := hn
      exact ⟨f, rfl, ⟨nn a1, a2, a3, a4⟩, a5, a6, a7, a8, a9, a10⟩

/-- A header: its description, its TRE areas and where they are. -/
structure HeaderAreas (d : Desc) (areas : List Area) (ps : List AreaPos) : Prop where
  causal : d.causal = true
  at_ : areas.length = ps.length ∧ ∀ (i : Nat) (a : Area) (p : AreaPos), areas[i]? = some a →
    ps[i]? = some p → AreaAt d.tab a p
  nodup : (ps.flatMap AreaPos.list).Nodup
  nonempty : areas ≠ []

/-- Contents of all the areas. -/
def HoldsAll (d : Desc) (S : Store P.F) (ps : List AreaPos) (vs : List AreaVal) : Prop :=
  Each (Holds P d.tab S) ps vs

theorem areasAt_of {d : Desc} {S : Store P.F} : ∀ {areas : List Area} {ps : List AreaPos}
    {vs : List AreaVal},
    (areas.length = ps.length ∧ ∀ (i : Nat) (a : Area) (p : AreaPos), areas[i]? = some a →
      ps[i]? = some p → AreaAt d.tab a p) → Each (Holds P d.tab S) ps vs →
    AreasAt (P := P) d S areas ps vs
  | [], [], _, _, h => by cases h; exact .nil
  | [], _ :: _, _, h, _ => by simp at h
  | _ :: _, [], _, h, _ => by simp at h
  | a :: as, p :: ps, _, h, hv => by
    cases hv with
    | cons h1 h2 =>
      refine .cons (h.2 0 a p rfl rfl) h1 (areasAt_of ⟨by simpa using h.1, ?_⟩ h2)
      intro i a' p' ha hp
      exact h.2 (i + 1) a' p' (by simpa using ha) (by simpa using hp)

theorem AreasAt.each {d : Desc} {S : Store P.F} {areas : List Area} {ps : List AreaPos}
    {vs : List AreaVal} (h : AreasAt (P := P) d S areas ps vs) : Each (Holds P d.tab S) ps vs := by
  induction h with
  | nil => exact .nil
  | cons _ h _ ih => exact .cons h ih

theorem AreasAt.len {d : Desc} {S : Store P.F} {areas : List Area} {ps : List AreaPos}
    {vs : List AreaVal} (h : AreasAt (P := P) d S areas ps vs) :
    areas.length = vs.length ∧ ps.length = vs.length := by
  induction h with
  | nil => exact ⟨rfl, rfl⟩
  | cons _ _ _ ih => simp [ih.1, ih.2]

/-- Contents of the areas after `prepare_tre_write`. -/
def afterPrepare (ndes : Nat) (vs : List AreaVal) (heads : List Bytes) (ov : Bytes) :
    List AreaVal :=
  match List.zipWith AreaVal.store vs heads with
  | [] => []
  | v :: rest => (if ov = [] then v else { v with ofl := ndes + 1 }) :: rest

/-- Everything `prepare_tre_write` does, for a header in any state: it fails only if a TRE cannot
be written, or TREs overflow while the first area is left empty. -/
theorem prepare_spec {d : Desc} {areas : List Area} {ps : List AreaPos}
    (H : HeaderAreas d areas ps) {S : Store P.F} {vs : List AreaVal} (hS : HoldsAll P d S ps vs)
    (ndes : Nat) {tres : List (Tre P.F)} {ser : List Bytes} (hser : treWriteAll P tres = .ok ser)
    {heads : List Bytes} {ov : Bytes} (hpl : place ser (areas.map fun _ => []) [] = (heads, ov)) :
    (ov ≠ [] → ∀ v ∈ (List.zipWith AreaVal.store vs heads).head?, v.len ≠ 0) →
    ∃ S', prepareTreWrite P d areas ndes tres S =
        .ok (S', if ov = [] then none else some ov) ∧
      HoldsAll P d S' ps (afterPrepare ndes vs heads ov) ∧
      ∀ q k, ¬ (q ∈ ps.flatMap AreaPos.list ∧ k = []) → S' q k = S q k := by
  intro hne
  have hA := areasAt_of P H.at_ hS
  have hlen : heads.length = areas.length := by
    obtain ⟨_, _, _, h, _⟩ := place_spec ser (areas.map fun _ => []) []
    rw [hpl] at h
    simpa using h
  obtain ⟨S1, s1, s2, s3⟩ := storeAreas_spec H.causal hA H.nodup hlen
  unfold prepareTreWrite
  simp only [hser, hpl, s1]
  generalize hz : List.zipWith AreaVal.store vs heads = zs at s2
  cases s2 with
  | nil => exact absurd rfl H.nonempty
  | cons a1 a2 a3 =>
    rename_i a as p ps w ws
    unfold afterPrepare
    rw [hz]
    by_cases hov : ov = []
    · subst hov
      simp only [List.length_nil, gt_iff_lt, Nat.lt_irrefl, if_false, if_true]
      exact ⟨S1, rfl, .cons a2 a3.each, s3⟩
    · have hovl : ov.length > 0 := by
        cases ov with
        | nil => exact absurd rfl hov
        | cons _ _ => simp
      have hw : w.len ≠ 0 := hne hov w (by rw [hz]; simp)
      simp only [hovl, hov, if_true, if_false, a1.setOfl H.causal a2, hw]
      have hnd := H.nodup
      rw [List.flatMap_cons, List.nodup_append] at hnd
      have hframe : ∀ q k, ¬ (q = p.o ∧ k = []) →
          (S1.set p.o [] ⟨.val (.int (ndes + 1)), none⟩) q k = S1 q k := by
        intro q k h
        unfold Store.set
        rw [if_neg h]
      refine ⟨_, rfl, .cons (setOfl_holds a1 a2 _ none) (a3.congr ?_).each, ?_⟩
      · intro q hq
        refine hframe q [] ?_
        rintro ⟨rfl, _⟩
        exact hnd.2.2 p.o (by simp [AreaPos.list]) p.o hq rfl
      · intro q k h
        rw [hframe, s3 q k h]
        rintro ⟨rfl, rfl⟩
        exact h ⟨by simp [AreaPos.list], rfl⟩

/-- The failure case. -/
theorem prepare_raises {d : Desc} {areas : List Area} {ps : List AreaPos}
    (H : HeaderAreas d areas ps) {S : Store P.F} {vs : List AreaVal} (hS : HoldsAll P d S ps vs)
    (ndes : Nat) {tres : List (Tre P.F)} {ser : List Bytes} (hser : treWriteAll P tres = .ok ser)
    {heads : List Bytes} {ov : Bytes} (hpl : place ser (areas.map fun _ => []) [] = (heads, ov))
    (hov : ov ≠ []) (hz : ∀ v ∈ (List.zipWith AreaVal.store vs heads).head?, v.len = 0) :
    prepareTreWrite P d areas ndes tres S = .error .runtime := by
  have hA := areasAt_of P H.at_ hS
  have hlen : heads.length = areas.length := by
    obtain ⟨_, _, _, h, _⟩ := place_spec ser (areas.map fun _ => []) []
    rw [hpl] at h
    simpa using h
  obtain ⟨S1, s1, s2, s3⟩ := storeAreas_spec H.causal hA H.nodup hlen
  unfold prepareTreWrite
  simp only [hser, hpl, s1]
  generalize hzs : List.zipWith AreaVal.store vs heads = zs at s2
  cases s2 with
  | nil => exact absurd rfl H.nonempty
  | cons a1 a2 a3 =>
    rename_i a as p ps w ws
    have hovl : ov.length > 0 := by
      cases ov with
      | nil => exact absurd rfl hov
      | cons _ _ => simp
    have hw : w.len = 0 := hz w (by rw [hzs]; simp)
    simp only [hovl, if_true, a1.setOfl H.causal a2, hw]

theorem readTre_holds {d : Desc} {areas : List Area} {ps : List AreaPos}
    (H : HeaderAreas d areas ps) {S : Store P.F} {vs : List AreaVal} (hS : HoldsAll P d S ps vs)
    (reg : Registry) {des : List (Except Err Bytes)} {bs : List (List Bytes)}
    (hb : BlobsOf des vs bs) : readTre P reg d des areas S = parseBlobs P reg bs.flatten :=
  readTre_spec H.causal reg des (areasAt_of P H.at_ hS) hb

/-! ### Reading back after `prepare_tre_write` -/

theorem treWrite_ne_nil {t : Tre P.F} {b : Bytes} (h : treWrite P t = .ok b) (htag : TagOk t.tag) :
    11 ≤ b.length := by
  obtain ⟨body, _, _, h3, h4⟩ := treWrite_frame P htag h
  rw [h3]
  exact h4.len_bytes

/-- An area is left with the new contents only: it gets TREs, or it was empty; and an overflow
index hidden behind a zero length is zero. -/
def Fresh (v : AreaVal) (h : Bytes) : Prop := (h = [] → v.len ≤ 0) ∧ (v.len ≤ 0 → v.ofl ≤ 0)

/-- A group of TREs and the bytes they are written to. -/
def Written (reg : Registry) (ts : List (Tre P.F)) (b : Bytes) : Prop :=
  (∀ t ∈ ts, Representable P reg t) ∧ ∃ ser,
    Each (fun t b => treWrite P t = .ok b) ts ser ∧ b = ser.flatten

theorem written_picks {reg : Registry} {tres : List (Tre P.F)} {ser : List Bytes}
    (hser : Each (fun t b => treWrite P t = .ok b) tres ser)
    (hg : ∀ t ∈ tres, Representable P reg t) (dest : List (Option Nat)) (k : Option Nat) :
    Written P reg (picks dest tres k) (picks dest ser k).flatten :=
  ⟨fun t ht => hg t ((picks_sublist dest tres k).subset ht), _, hser.picks dest k, rfl⟩

theorem written_nil {reg : Registry} {ts : List (Tre P.F)} (h : Written P reg ts []) : ts = [] := by
  obtain ⟨hg, ser, h1, h2⟩ := h
  cases h1 with
  | nil => rfl
  | cons h1 _ =>
    have := treWrite_ne_nil P h1 (hg _ (by simp)).1
    rw [List.flatten_cons] at h2
    have h3 := congrArg List.length h2
    rw [List.length_append, List.length_nil] at h3
    omega

theorem store_blobs {v : AreaVal} {h : Bytes} (hf : Fresh v h) (des : List (Except Err Bytes)) :
    (v.store h).blobs des = .ok (if h = [] then [] else [h]) := by
  obtain ⟨h1, h2⟩ := hf
  unfold AreaVal.blobs AreaVal.store
  by_cases hh : h = []
  · have := h1 hh
    simp only [hh, if_true]
    rw [if_neg (by omega)]
  · simp only [hh, if_false]
    rw [if_pos (by omega), if_neg]
    split
    · omega
    · have := h2 (by omega); omega

theorem tail_blobs {reg : Registry} (des : List (Except Err Bytes)) (grp : Nat → List (Tre P.F)) :
    ∀ (vs : List AreaVal) (heads : List Bytes) (k : Nat),
      Each Fresh vs heads →
      (∀ (i : Nat) (h : Bytes), heads[i]? = some h → Written P reg (grp (k + i)) h) →
      ∃ bs gs, BlobsOf des (List.zipWith AreaVal.store vs heads) bs ∧
        Each (Written P reg) gs bs.flatten ∧
        gs.flatten = (List.range' k heads.length).flatMap grp := by
  intro vs heads k hE
  induction hE generalizing k with
  | nil => intro _; exact ⟨[], [], .nil, .nil, rfl⟩
  | @cons v vs h heads hf _ ih =>
    intro hW
    obtain ⟨bs, gs, b1, b2, b3⟩ := ih (k + 1) (by
      intro i h' hi
      have := hW (i + 1) h' (by simpa using hi)
      rwa [show k + (i + 1) = k + 1 + i by omega] at this)
    have hw0 := hW 0 h rfl
    rw [Nat.add_zero] at hw0
    refine ⟨_, if h = [] then gs else grp k :: gs, .cons (store_blobs hf des) b1, ?_, ?_⟩
    · rw [List.flatten_cons]
      by_cases hh : h = []
      · simp only [hh, if_true, List.nil_append]; exact b2
      · simp only [hh, if_false, List.cons_append, List.nil_append]
        exact .cons hw0 b2
    · rw [List.length_cons, List.range'_succ, List.flatMap_cons, ← b3]
      by_cases hh : h = []
      · subst hh
        rw [if_pos rfl, written_nil P hw0, List.nil_append]
      · rw [if_neg hh, List.flatten_cons]

/-- Write, then read with any DES list that has the overflow data in its place: a rearrangement of
the list. -/
theorem prepare_readback_gen {d : Desc} {areas : List Area} {ps : List AreaPos}
    (H : HeaderAreas d areas ps) {S : Store P.F} {vs : List AreaVal} (hS : HoldsAll P d S ps vs)
    {reg : Registry} (hreg : reg.Causal) {tres : List (Tre P.F)}
    (hg : ∀ t ∈ tres, Representable P reg t) {ser : List Bytes} (hser : treWriteAll P tres = .ok ser)
    (ndes : Nat) {heads : List Bytes} {ov : Bytes}
    (hpl : place ser (areas.map fun _ => []) [] = (heads, ov)) (hF : Each Fresh vs heads)
    (hov : ov ≠ [] → heads.head? ≠ some []) :
    ∃ S' o, prepareTreWrite P d areas ndes tres S = .ok (S', o) ∧
      ∃ qs, qs.Perm tres ∧ ∀ des : List (Except Err Bytes),
        (∀ b, o = some b → des[ndes]? = some (.ok b)) →
        ∃ us, readTre P reg d des areas S' = .ok us ∧ Each (SameTre P) qs us := by
  have hE := treWriteAll_each P hser
  obtain ⟨dest, d1, d2, d3, d4, d5, _⟩ := place_spec ser (areas.map fun _ => []) []
  rw [hpl] at d3 d4 d5
  simp only [List.length_map, List.nil_append] at d3 d4 d5 d2
  have hW : ∀ (i : Nat) (h : Bytes), heads[i]? = some h →
      Written P reg (picks dest tres (some i)) h := by
    intro i h hi
    have hlt : i < areas.length := by rw [← d3]; exact lt_of_getElem? hi
    have := d4 i [] (by simp [hlt])
    rw [hi] at this
    injection this with this
    rw [this]
    exact written_picks P hE hg dest (some i)
  have hWo : Written P reg (picks dest tres none) ov := by
    rw [d5]; exact written_picks P hE hg dest none
  have hdl : dest.length = tres.length := by rw [d1, ← hE.length]
  have hperm : (picks dest tres none ++
      (List.range' 0 areas.length).flatMap fun i => picks dest tres (some i)).Perm tres := by
    have := picks_perm (ks := none :: (List.range' 0 areas.length).map some) (α := Tre P.F) (by
      rw [List.nodup_cons]
      refine ⟨by simp, ?_⟩
      unfold List.Nodup
      rw [List.pairwise_map]
      exact (List.nodup_range' (s := 0) (n := areas.length)).imp
        fun h he => h (Option.some.inj he)) dest tres hdl (by
      intro k hk
      cases k with
      | none => simp
      | some i =>
        have := d2 _ hk i rfl
        refine List.mem_cons_of_mem _ (List.mem_map.mpr ⟨i, ?_, rfl⟩)
        rw [List.mem_range'_1]
        omega)
    rwa [List.flatMap_cons, List.flatMap_map] at this
  have hA := areasAt_of P H.at_ hS
  obtain ⟨S', p1, p2, _⟩ := prepare_spec P H hS ndes hser hpl (by
    intro ho v hv
    cases hF with
    | nil => simp at hv
    | @cons v0 vs h0 heads hf _ =>
      rw [List.zipWith_cons_cons] at hv
      simp only [List.head?_cons, Option.mem_def, Option.some.injEq] at hv
      subst hv
      have : h0 ≠ [] := by intro h; exact hov ho (by simp [h])
      unfold AreaVal.store
      simp only [this, if_false]
      omega)
  refine ⟨S', _, p1, ?_⟩
  by_cases ho : ov = []
  · refine ⟨_, hperm, ?_⟩
    intro des _
    obtain ⟨bs, gs, b1, b2, b3⟩ := tail_blobs P (reg := reg) des
      (fun i => picks dest tres (some i)) vs heads 0 hF (by
        intro i h hi; rw [Nat.zero_add]; exact hW i h hi)
    have hap : afterPrepare ndes vs heads ov = List.zipWith AreaVal.store vs heads := by
      unfold afterPrepare
      cases List.zipWith AreaVal.store vs heads with
      | nil => rfl
      | cons v r => simp [ho]
    rw [hap] at p2
    rw [readTre_holds P H p2 reg b1]
    obtain ⟨us, u1, u2⟩ := parseBlobs_round P hreg (b2.imp fun a _ b h => h)
    refine ⟨us, u1, ?_⟩
    rw [ho] at hWo
    rw [written_nil P hWo, List.nil_append, ← d3]
    rwa [b3] at u2
  · refine ⟨_, hperm, ?_⟩
    intro des hdes
    have hdes := hdes ov (by rw [if_neg ho])
    cases hF with
    | nil => simp at d3; exact absurd d3.symm (by simpa using H.nonempty)
    | @cons v0 vs h0 heads hf hF =>
      have hh : h0 ≠ [] := by intro h; exact hov ho (by simp [h])
      obtain ⟨bs, gs, b1, b2, b3⟩ := tail_blobs P (reg := reg) des
        (fun i => picks dest tres (some i)) vs heads 1 hF (by
          intro i h hi
          rw [Nat.add_comm 1 i]
          exact hW (i + 1) h (by simpa using hi))
      unfold afterPrepare at p2
      rw [List.zipWith_cons_cons] at p2
      simp only [ho, if_false] at p2
      have hb0 : ({ v0.store h0 with ofl := (ndes : Int) + 1 } : AreaVal).blobs
          des = .ok [ov, h0] := by
        unfold AreaVal.blobs AreaVal.store
        simp only [hh, if_false]
        rw [if_pos (by omega), if_pos (by omega)]
        rw [show ((ndes : Int) + 1 - 1).toNat = ndes by omega, hdes]
      rw [readTre_holds P H p2 reg (.cons hb0 b1)]
      have hgs : Each (Written P reg) (picks dest tres none :: picks dest tres (some 0) :: gs)
          ([ov, h0] :: bs).flatten := by
        rw [List.flatten_cons]
        exact .cons hWo (.cons (hW 0 h0 rfl) b2)
      obtain ⟨us, u1, u2⟩ := parseBlobs_round P hreg (hgs.imp fun a _ b h => h)
      refine ⟨us, u1, ?_⟩
      rw [List.flatten_cons, List.flatten_cons, b3] at u2
      rw [← d3, List.length_cons, List.range'_succ, List.flatMap_cons]
      exact u2

end Verif
