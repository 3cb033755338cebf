import Verif.ReadClear
import Verif.Props.SaveLoad

/- What is known about an object that was read from any bytes: helper lemmas for C68. -/

namespace Verif

variable {P : PyFloat}

/-- Every cell of the state has a value parsed from bytes for its field. -/
def Parsed (P : PyFloat) (T : Tab) (S : Store P.F) : Prop :=
  ∀ n key c, S n key = some c → ∃ fi t, T[n]? = some fi ∧ parseField P fi.fd false t = .ok c.val

theorem readD_parsed {T : Tab} (d : Desc) : ∀ (n : Nat) (key : Key) (R R' : Store P.F)
    (b rest : Bytes), Parsed P T R → readD P T false n key d (R, b) = .ok (R', rest) →
    Parsed P T R' := by
  induction d with
  | nil => intro n key R R' b rest hR h; simp only [readD] at h; cases h; exact hR
  | field fd r ih =>
    intro n key R R' b rest hR h
    simp only [readD] at h
    split at h
    · cases h
    · rename_i fi hfi
      split at h
      · cases h
      · exact ih _ _ _ _ _ _ hR h
      · split at h
        · cases h
        · rename_i s hs
          obtain ⟨R1, b1⟩ := s
          refine ih _ _ _ _ _ _ ?_ h
          obtain ⟨t, _, _, _, hc⟩ := readField_consumes P hs
          rcases hc with ⟨_, rfl⟩ | ⟨_, v, hv, rfl⟩
          · exact hR
          · intro q k c hq
            unfold Store.set at hq
            split at hq
            · rename_i hqk
              injection hq with hq
              subst hq
              exact ⟨fi, t, by rw [hqk.1]; exact hfi, hv⟩
            · exact hR q k c hq
  | loop e body r ihb ihr =>
    intro n key R R' b rest hR h
    simp only [readD] at h
    split at h
    · cases h
    · rename_i c hc
      split at h
      · cases h
      · rename_i s hs
        obtain ⟨R1, b1⟩ := s
        refine ihr _ _ _ _ _ _ ?_ h
        clear h hc
        revert hs hR
        generalize indices c = is
        intro hR hs
        induction is generalizing R b with
        | nil => simp only [forRead] at hs; cases hs; exact hR
        | cons i is ih =>
          simp only [forRead] at hs
          split at hs
          · cases hs
          · rename_i s' h'
            obtain ⟨R2, b2⟩ := s'
            exact ih _ _ (ihb _ _ _ _ _ _ hR h') hs

theorem readStruct_parsed {d : Desc} {b rest : Bytes} {S : Store P.F}
    (h : readStruct P d false b = .ok (S, rest)) : Parsed P d.tab S := by
  unfold readStruct readInto at h
  exact readD_parsed d _ _ _ _ _ _ (by intro n key c hc; cases hc) h

theorem parse_val {fd : FieldDef} {t : Bytes} {v : Stored P.F}
    (h : parseField P fd false t = .ok v) : ∃ w, v = .val w := by
  unfold parseField at h
  simp only [Bool.false_eq_true, if_false] at h
  repeat' split at h
  all_goals first | (cases h; done) | (injection h with h; exact ⟨_, h.symm⟩)

theorem Parsed.noLit {T : Tab} {S : Store P.F} (h : Parsed P T S) : NoLit S := by
  intro n k c hc
  obtain ⟨fi, t, _, ht⟩ := h n k c hc
  exact parse_val ht

theorem Parsed.int {T : Tab} {S : Store P.F} (h : Parsed P T S) {n : Nat} {fi : FInfo}
    (hn : T[n]? = some fi) (hty : fi.fd.ty = .int) (ho : fi.fd.optional = false)
    (hd : fi.fd.default = none) : ∃ z, stored S fi.fd n [] = .val (.int z) := by
  unfold stored
  cases hc : S n [] with
  | none => exact ⟨0, by simp [defaultVal, hd, ho, hty]⟩
  | some c =>
    obtain ⟨fi', t, h1, h2⟩ := h n [] c hc
    rw [hn] at h1; injection h1 with h1; subst h1
    unfold parseField at h2
    simp only [Bool.false_eq_true, if_false, ho, Bool.false_and, hty] at h2
    repeat' split at h2
    all_goals first | (cases h2; done) | (injection h2 with h2; exact ⟨_, h2.symm⟩)

theorem Parsed.bytes {T : Tab} {S : Store P.F} (h : Parsed P T S) {n : Nat} {fi : FInfo}
    (hn : T[n]? = some fi) (hty : fi.fd.ty = .bytes) (ho : fi.fd.optional = false)
    (hd : fi.fd.default = none) : ∃ z, finish P fi.fd (stored S fi.fd n []) = .ok (.bytes z) := by
  unfold stored
  cases hc : S n [] with
  | none => exact ⟨[], by simp [defaultVal, hd, ho, hty, finish, coerce]⟩
  | some c =>
    obtain ⟨fi', t, h1, h2⟩ := h n [] c hc
    rw [hn] at h1; injection h1 with h1; subst h1
    unfold parseField at h2
    simp only [Bool.false_eq_true, if_false, ho, Bool.false_and, hty] at h2
    injection h2 with h2
    exact ⟨t, by simp only [← h2]; exact finish_bytes P hty t⟩

/-- The fields of the areas are not optional and have no default of their own. -/
def areasPlainB (d : Desc) (areas : List Area) : Bool :=
  (areaPositions d areas).all fun p => p.list.all fun q =>
    match d.tab[q]? with
    | none => true
    | some fi => !fi.fd.optional && fi.fd.default.isNone

theorem Parsed.holds {d : Desc} {S : Store P.F} (h : Parsed P d.tab S) {areas : List Area} {p : AreaPos}
    {a : Area} (hp : p ∈ areaPositions d areas) (hB : areasPlainB d areas = true)
    (hA : AreaAt d.tab a p) : ∃ v, Holds P d.tab S p v := by
  have hb := List.all_eq_true.mp (List.all_eq_true.mp hB p hp)
  obtain ⟨fm, m1, _, _, m4, _⟩ := hA.flen
  obtain ⟨fo, o1, _, _, o4, _⟩ := hA.fofl
  obtain ⟨fn, n1, _, _, n4, _⟩ := hA.fdata
  have bm := hb p.m (by simp [AreaPos.list])
  have bo := hb p.o (by simp [AreaPos.list])
  have bn := hb p.n (by simp [AreaPos.list])
  simp only [m1, o1, n1, Bool.and_eq_true, Bool.not_eq_true', Option.isNone_iff_eq_none] at bm bo bn
  obtain ⟨x, hx⟩ := h.int m1 m4 bm.1 bm.2
  obtain ⟨y, hy⟩ := h.int o1 o4 bo.1 bo.2
  obtain ⟨z, hz⟩ := h.bytes n1 n4 bn.1 bn.2
  exact ⟨⟨x, y, z⟩, ⟨fm, m1, by rw [hx]; exact finish_int P m4 x⟩,
    ⟨fo, o1, by rw [hy]; exact finish_int P o4 y⟩,
    ⟨fn, n1, hz⟩⟩

/-- The length field of an area of a header that was read is not negative. -/
theorem readStruct_len {d : Desc} (hd : d.causal = true) {a : Area} {p : AreaPos}
    (hA : AreaAt d.tab a p) (hlt : p.m < p.n) (htn : d.topAt 0 p.n = true) {b rest : Bytes}
    {S : Store P.F} (h : readStruct P d false b = .ok (S, rest)) {v : AreaVal}
    (hv : Holds P d.tab S p v) : 0 ≤ v.len := by
  have hC := Desc.causalTab hd
  unfold readStruct readInto at h
  obtain ⟨fn, hn1, _, _, _, hn4, hn5, hn6, _⟩ := hA.fdata
  obtain ⟨S1, a1, a2⟩ := readD_top P hC hn1 d 0 [] [] [] _ _ _ _ (at_top d hd) rfl htn h
  rw [evalCond_none P hn4] at a2
  rcases a2 with ⟨a2, _⟩ | ⟨_, t, a2⟩
  · cases a2
  obtain ⟨fm, h1, h2, _⟩ := hA.flen
  have hl := h2.look P hC hA.rlen h1 (S := S1)
  have hv1 : getAttr P d S1 a.len [] = .ok (.int v.len) := by
    have hv' := hv.len
    obtain ⟨fi, f1, f2⟩ := hv'
    have : stored S1 fi.fd p.m [] = stored S fi.fd p.m [] := by
      unfold stored; rw [a1 p.m [] hlt]
    rw [← this] at f2
    unfold getAttr
    rw [hA.rlen]
    obtain ⟨fm', g1, g2, g3, _, g5⟩ := hA.flen
    rw [f1] at g1; injection g1 with g1; subst g1
    simp only
    rw [g2.get_plain P g3 f1 (evalCond_none P g5 _ _), f2]
  unfold getAttr at hv1
  rw [hA.rlen] at hv1
  simp only at hv1
  unfold evalSize at a2
  rw [hn5] at a2
  simp only [evalE, idxKey, bind, Except.bind] at a2
  rw [hl, hv1] at a2
  simp only [asInt, hn6] at a2
  injection a2 with a2
  split at a2 <;> omega

/-! ### TREs -/

theorem readUnknown_noLit {b rest : Bytes} {t : Tre P.F} (h : readUnknown P b = .ok (t, rest)) :
    t.NoLit := by
  unfold readUnknown at h
  split at h
  · cases h
  split at h
  · cases h
  simp only at h
  split at h
  all_goals
    injection h with h
    injection h with h _
    subst h
    trivial

theorem readOne_noLit {reg : Registry} {b rest : Bytes} {t : Tre P.F}
    (h : readOne P reg b = .ok (t, rest)) : t.NoLit := by
  unfold readOne at h
  simp only at h
  split at h
  · rename_i r hr
    injection h with h
    subst h
    split at hr
    · rename_i tag d _
      unfold readKnown at hr
      split at hr
      · cases hr
      split at hr
      · cases hr
      split at hr
      · cases hr
      simp only at hr
      split at hr
      · cases hr
      · rename_i R rest' hR
        split at hr
        · cases hr
        · injection hr with hr
          injection hr with hr _
          subst hr
          exact (readStruct_parsed hR).noLit
    · exact readUnknown_noLit hr
  · split at h
    · cases h
    · exact readUnknown_noLit h

theorem readAreaF_noLit {reg : Registry} : ∀ (f : Nat) {b : Bytes} {ts : List (Tre P.F)},
    readAreaF P reg f b = .ok ts → ∀ t ∈ ts, t.NoLit := by
  intro f
  induction f with
  | zero =>
    intro b ts h
    cases b with
    | nil => simp only [readAreaF] at h; cases h; simp
    | cons x b => simp only [readAreaF] at h; cases h
  | succ f ih =>
    intro b ts h
    cases b with
    | nil => simp only [readAreaF] at h; cases h; simp
    | cons x b =>
      simp only [readAreaF] at h
      split at h
      · cases h
      split at h
      · cases h
      rename_i t rest ht
      split at h
      · cases h
      rename_i ts' hts
      injection h with h
      subst h
      intro u hu
      rcases List.mem_cons.mp hu with rfl | hu
      · exact readOne_noLit ht
      · exact ih hts u hu

theorem readTre_noLit {reg : Registry} {d : Desc} {des : List (Except Err Bytes)} {S : Store P.F} :
    ∀ (as : List Area) {ts : List (Tre P.F)}, readTre P reg d des as S = .ok ts →
      ∀ t ∈ ts, t.NoLit := by
  intro as
  induction as with
  | nil => intro ts h; simp only [readTre] at h; cases h; simp
  | cons a as ih =>
    intro ts h
    simp only [readTre] at h
    split at h
    · cases h
    · exact ih h
    · split at h
      · cases h
      · rename_i t1 h1
        split at h
        · cases h
        · split at h
          · cases h
          rename_i t2 h2
          split at h
          · cases h
          rename_i t3 h3
          injection h with h
          subst h
          intro t ht
          rw [List.mem_append, List.mem_append] at ht
          rcases ht with (ht | ht) | ht
          · split at h1
            · cases h1
            split at h1
            · cases h1
            split at h1
            · split at h1
              · cases h1
              · cases h1
              · exact readAreaF_noLit _ h1 t ht
            · injection h1 with h1
              subst h1
              cases ht
          · exact readAreaF_noLit _ h2 t ht
          · exact ih h3 t ht
        · cases h

/-! ### Segments and files -/

variable (E : Env) (IO : DataIO P.F)

/-- What is known about a segment that was read. -/
structure ReadSeg (k : SegKind) (s : Seg P.F IO.D) : Prop where
  linked : s.linked = true
  sub : ∃ b r, readStruct P k.desc false b = .ok (s.sub, r)
  user : readUser P E k s.sub = .ok s.user
  tres : ∀ t ∈ s.tres, t.NoLit
  none : k.areas = none → s.tres = []

theorem readSegs_all {k : SegKind} : ∀ {zs : List Int} {b : Bytes} {ss : List (Seg P.F IO.D)}
    {r : Bytes}, readSegs P E IO k zs b = .ok (ss, r) → ∀ s ∈ ss, ReadSeg E IO k s := by
  intro zs
  induction zs with
  | nil =>
    intro b ss r h
    unfold readSegs at h
    injection h with h
    injection h with h _
    subst h
    simp
  | cons z zs ih =>
    intro b ss r h
    unfold readSegs at h
    split at h
    · cases h
    · rename_i s b1 h1
      split at h
      · cases h
      · rename_i ss' b2 h2
        injection h with h
        injection h with h _
        subst h
        intro x hx
        rcases List.mem_cons.mp hx with rfl | hx
        · unfold readSeg at h1
          split at h1
          · cases h1
          · rename_i sub r1 hr
            split at h1
            · cases h1
            · rename_i u hu
              split at h1
              · cases h1
              · injection h1 with h1
                injection h1 with h1 _
                rw [← h1]
                exact ⟨rfl, ⟨_, _, hr⟩, hu, by simp, fun _ => rfl⟩
        · exact ih h2 x hx

theorem readSegTres_all {k : SegKind} {des : List (Except Err Bytes)} :
    ∀ {ss ss' : List (Seg P.F IO.D)}, readSegTres P E IO k des ss = .ok ss' →
    (∀ s ∈ ss, ReadSeg E IO k s) → ∀ s ∈ ss', ReadSeg E IO k s := by
  intro ss
  induction ss with
  | nil =>
    intro ss' h _
    unfold readSegTres at h
    injection h with h
    subst h
    simp
  | cons s ss ih =>
    intro ss' h hl
    unfold readSegTres at h
    split at h
    · cases h
    · rename_i ts hts
      split at h
      · cases h
      · rename_i ss1 h1
        injection h with h
        subst h
        intro x hx
        rcases List.mem_cons.mp hx with rfl | hx
        · have hs := hl s (by simp)
          refine ⟨hs.linked, hs.sub, hs.user, ?_, ?_⟩
          · unfold segTres at hts
            split at hts
            · injection hts with hts
              subst hts
              exact hs.tres
            · exact readTre_noLit _ hts
          · intro hk
            unfold segTres at hts
            rw [hk] at hts
            injection hts with hts
            rw [← hts]
            exact hs.none hk
        · exact ih h1 (fun y hy => hl y (by simp [hy])) x hx

/-- What is known about a file that was read. -/
structure ReadFile (g : NFile P.F IO.D) : Prop where
  header : ∃ b r, readStruct P Tables.t_file_header false b = .ok (g.header, r)
  tres : ∀ t ∈ g.tres, t.NoLit
  segs : ∀ k, ∀ s ∈ g.segs k, ReadSeg E IO k s

theorem readFile_all {b : Bytes} {g : NFile P.F IO.D} (h : readFile P E IO b = .ok g) :
    ReadFile E IO g := by
  unfold readFile at h
  simp only [bind_ok, Prod.exists, pure, Except.pure] at h
  obtain ⟨H, r, e0, fl, _, h⟩ := h
  split at h
  · cases h
  simp only [bind_ok, Prod.exists] at h
  obtain ⟨zi, _, zg, _, zt, _, zd, _, zr, _, im, r1, e1, gr, r2, e2, tx, r3, e3,
    ds, r4, e4, rs, r5, e5, ts, et, im', e6, gr', e7, tx', e8, e9⟩ := h
  injection e9 with e9
  subst e9
  refine ⟨⟨_, _, e0⟩, readTre_noLit _ et, ?_⟩
  intro k
  cases k with
  | image => exact readSegTres_all E IO (k := .image) e6 (readSegs_all E IO e1)
  | graphic => exact readSegTres_all E IO (k := .graphic) e7 (readSegs_all E IO e2)
  | text => exact readSegTres_all E IO (k := .text) e8 (readSegs_all E IO e3)
  | des => exact readSegs_all E IO e4
  | res => exact readSegs_all E IO e5

end Verif
