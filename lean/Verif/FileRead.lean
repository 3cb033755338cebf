import Verif.FileRun
import Verif.Props.Struct
import Verif.Props.Tre
import Verif.Props.Security

/- Reading a written file: helper lemmas for C26. -/

namespace Verif

variable (P : PyFloat)

/-! ### TRE areas seen through `getattr` -/

theorem prepare_ok {d : Desc} {areas : List Area} {ps : List AreaPos}
    (H : HeaderAreas d areas ps) {S S' : Store P.F} {vs : List AreaVal} (hS : HoldsAll P d S ps vs)
    {ndes : Nat} {tres : List (Tre P.F)} {o : Option Bytes}
    (h : prepareTreWrite P d areas ndes tres S = .ok (S', o)) :
    ∃ ser heads ov, treWriteAll P tres = .ok ser ∧
      place ser (areas.map fun _ => []) [] = (heads, ov) ∧ o = (if ov = [] then none else some ov) ∧
      HoldsAll P d S' ps (afterPrepare ndes vs heads ov) ∧
      (ov ≠ [] → ∀ v ∈ (List.zipWith AreaVal.store vs heads).head?, v.len ≠ 0) ∧
      ∀ q k, ¬ (q ∈ ps.flatMap AreaPos.list ∧ k = []) → S' q k = S q k := by
  cases hser : treWriteAll P tres with
  | error e => unfold prepareTreWrite at h; rw [hser] at h; cases h
  | ok ser =>
    cases hpl : place ser (areas.map fun _ => []) [] with
    | mk heads ov =>
      have hc : ov ≠ [] → ∀ v ∈ (List.zipWith AreaVal.store vs heads).head?, v.len ≠ 0 := by
        intro hov v hv hz
        have := prepare_raises P H hS ndes hser hpl hov (by
          intro w hw
          simp only [Option.mem_def] at hv hw
          rw [hv] at hw
          injection hw with hw
          rw [← hw]; exact hz)
        rw [this] at h
        cases h
      obtain ⟨S1, p1, p2, p3⟩ := prepare_spec P H hS ndes hser hpl hc
      rw [p1] at h
      injection h with h
      injection h with h1 h2
      subst h1 h2
      exact ⟨ser, heads, ov, rfl, hpl, rfl, p2, hc, p3⟩

theorem AreaAt.getAbsent {d : Desc} (hd : d.causal = true) {a : Area} {p : AreaPos}
    (h : AreaAt d.tab a p) {S : Store P.F} {v : AreaVal} (hv : Holds P d.tab S p v)
    (hz : v.len = 0) : getAttr P d S a.ofl [] = .ok .none := by
  obtain ⟨fo, h1, h2, _, _, h5⟩ := h.fofl
  unfold getAttr
  rw [h.rofl]
  exact h2.get_absent P h1 (by rw [h.cond hd hv h5]; simp [hz])

theorem area_same {d : Desc} (hd : d.causal = true) {a : Area} {p : AreaPos}
    (h : AreaAt d.tab a p) {S S' : Store P.F} {v : AreaVal} (hv : Holds P d.tab S p v)
    (hv' : Holds P d.tab S' p v) :
    ∀ nm ∈ [a.len, a.ofl, a.data], getAttr P d S' nm [] = getAttr P d S nm [] := by
  intro nm hnm
  simp only [List.mem_cons, List.not_mem_nil, or_false] at hnm
  rcases hnm with rfl | rfl | rfl
  · rw [h.getLen hv, h.getLen hv']
  · by_cases hz : v.len = 0
    · rw [h.getAbsent P hd hv hz, h.getAbsent P hd hv' hz]
    · rw [h.getOfl hd hv hz, h.getOfl hd hv' hz]
  · rw [h.getData hv, h.getData hv']

/-- `read_tre` depends only on the attributes of the areas. -/
theorem readTre_congr {reg : Registry} {d : Desc} {des : List (Except Err Bytes)}
    {S S' : Store P.F} : ∀ {areas : List Area},
    (∀ a ∈ areas, ∀ nm ∈ [a.len, a.ofl, a.data], getAttr P d S' nm [] = getAttr P d S nm []) →
    readTre P reg d des areas S' = readTre P reg d des areas S := by
  intro areas
  induction areas with
  | nil => intro _; rfl
  | cons a as ih =>
    intro h
    have h1 := h a (by simp)
    have e1 : attrPos P d S' a.len = attrPos P d S a.len := by
      unfold attrPos
      rw [h1 a.len (by simp)]
    unfold readTre
    rw [e1, h1 a.ofl (by simp), h1 a.data (by simp),
      ih fun b hb => h b (List.mem_cons_of_mem _ hb)]

theorem readTre_cells {d : Desc} {areas : List Area} {ps : List AreaPos}
    (H : HeaderAreas d areas ps) {S S' : Store P.F} {vs : List AreaVal} (hS : HoldsAll P d S ps vs)
    (he : ∀ q ∈ ps.flatMap AreaPos.list, S' q [] = S q []) (reg : Registry)
    (des : List (Except Err Bytes)) :
    readTre P reg d des areas S' = readTre P reg d des areas S := by
  apply readTre_congr
  have hA := areasAt_of P H.at_ hS
  have hA' := hA.congr he
  have hd := H.causal
  clear H hS he
  induction hA with
  | nil => intro a ha; cases ha
  | cons h1 h2 _ ih =>
    cases hA' with
    | cons g1 g2 g3 =>
      intro a ha
      rcases List.mem_cons.mp ha with rfl | ha
      · exact area_same P hd h1 h2 g2
      · exact ih g3 a ha

/-- Attributes outside all loops agree as soon as reachable instances do. -/
theorem getAttr_reach {d : Desc} {S R : Store P.F} {nm : Name}
    (hs : ∀ n fi, resolve d.tab nm = some n → d.tab[n]? = some fi → fi.shapes = [])
    (h : ∀ n key, Reach P d.tab S n key → getItem P d.tab R n key = getItem P d.tab S n key) :
    getAttr P d R nm [] = getAttr P d S nm [] := by
  unfold getAttr
  cases hr : resolve d.tab nm with
  | none => rfl
  | some n =>
    simp only
    cases hf : d.tab[n]? with
    | none =>
      unfold getItem
      unfold budget
      unfold getF
      rw [hf]
    | some fi => exact h n [] (scalar_reach P hf (hs n fi hr hf) _)

theorem AreaAt.shapes {d : Desc} {a : Area} {p : AreaPos} (h : AreaAt d.tab a p) :
    ∀ nm ∈ [a.len, a.ofl, a.data], ∀ n fi, resolve d.tab nm = some n → d.tab[n]? = some fi →
      fi.shapes = [] := by
  obtain ⟨f1, a1, b1, _⟩ := h.flen
  obtain ⟨f2, a2, b2, _⟩ := h.fofl
  obtain ⟨f3, a3, b3, _⟩ := h.fdata
  intro nm hnm n fi hr hf
  simp only [List.mem_cons, List.not_mem_nil, or_false] at hnm
  rcases hnm with rfl | rfl | rfl
  · rw [h.rlen] at hr; injection hr with hr; subst hr; rw [a1] at hf; injection hf with hf
    subst hf; exact b1.shapes
  · rw [h.rofl] at hr; injection hr with hr; subst hr; rw [a2] at hf; injection hf with hf
    subst hf; exact b2.shapes
  · rw [h.rdata] at hr; injection hr with hr; subst hr; rw [a3] at hf; injection hf with hf
    subst hf; exact b3.shapes

theorem readTre_reach {d : Desc} {areas : List Area} {ps : List AreaPos}
    (H : HeaderAreas d areas ps) {S R : Store P.F}
    (h : ∀ n key, Reach P d.tab S n key → getItem P d.tab R n key = getItem P d.tab S n key)
    (reg : Registry) (des : List (Except Err Bytes)) :
    readTre P reg d des areas R = readTre P reg d des areas S := by
  apply readTre_congr
  intro a ha nm hnm
  obtain ⟨i, hi⟩ := List.getElem?_of_mem ha
  have hlt := lt_of_getElem? hi
  have hp := H.at_.2 i a (ps[i]'(by rw [← H.at_.1]; exact hlt)) hi
    (List.getElem?_eq_getElem (by rw [← H.at_.1]; exact hlt))
  exact getAttr_reach P (hp.shapes nm hnm) h

/-! ### The DES subheader -/

/-- Position of a plain field of the DES subheader outside all loops, always present. -/
theorem setA_plain {d : Desc} {nm : Name} {n : Nat} {fi : FInfo} (hr : resolve d.tab nm = some n)
    (hn : d.tab[n]? = some fi) (hk : fi.fd.kind = .plain) {S S' : Store P.F} {v : Val P.F}
    (h : setA P d S nm v = .ok S') : S' = S.set n [] ⟨.val v, none⟩ := by
  unfold setA at h
  split at h
  · rename_i S1 heq
    injection h with h
    subst h
    unfold setAttr at heq
    rw [hr] at heq
    simp only at heq
    obtain ⟨v', hv', hS'⟩ := setItem_store P hn (Or.inl hk) heq
    have := (setCheck_ok P hv').2.1
    rw [hk] at this
    simp only [packKind] at this
    injection this with this
    rw [hS', ← this]
  · cases h

/-- Facts about rows of the DES subheader, by evaluation. -/
def desRowB (nm : Name) (n : Nat) : Bool :=
  decide (resolve Tables.t_des_subheader.tab nm = some n) &&
  match Tables.t_des_subheader.tab[n]? with
  | none => false
  | some fi => fi.fd.name.isSome && fi.shapes.isEmpty && fi.fd.value.isNone &&
      !fi.fd.hardcoded && fi.fd.kind == .plain

theorem desRow_of {nm : Name} {n : Nat} (h : desRowB nm n = true) :
    resolve Tables.t_des_subheader.tab nm = some n ∧
    ∃ fi, Tables.t_des_subheader.tab[n]? = some fi ∧ Scalar fi ∧ fi.fd.kind = .plain := by
  unfold desRowB at h
  simp only [Bool.and_eq_true, decide_eq_true_eq] at h
  refine ⟨h.1, ?_⟩
  cases hf : Tables.t_des_subheader.tab[n]? with
  | none => rw [hf] at h; exact absurd h.2 (by simp)
  | some fi =>
    rw [hf] at h
    simp only [Bool.and_eq_true, beq_iff_eq, List.isEmpty_iff, Option.isNone_iff_eq_none,
      Bool.not_eq_true'] at h
    obtain ⟨_, ⟨⟨⟨a1, a2⟩, a3⟩, a4⟩, a5⟩ := h
    refine ⟨fi, rfl, ⟨?_, a2, a3, a4⟩, a5⟩
    intro hh; rw [hh] at a1; cases a1

theorem desid_row : desRowB (n!"desid") 1 = true ∧ desRowB (n!"dsver") 2 = true ∧
    desRowB (n!"desoflw") 19 = true ∧ desRowB (n!"desitem") 20 = true ∧
    desRowB (n!"desshl") 21 = true := by decide +kernel

theorem desid_fd : ∃ fi, Tables.t_des_subheader.tab[1]? = some fi ∧ Scalar fi ∧
    fi.fd.kind = .plain ∧ fi.fd.cond = none ∧ fi.fd.ty = .str := by
  obtain ⟨_, fi, h1, h2, h3⟩ := desRow_of desid_row.1
  have : (Tables.t_des_subheader.tab[1]?).map (fun fi => fi.fd.cond.isNone && fi.fd.ty == .str) =
      some true := by decide +kernel
  rw [h1] at this
  simp only [Option.map_some, Option.some.injEq, Bool.and_eq_true, Option.isNone_iff_eq_none,
    beq_iff_eq] at this
  exact ⟨fi, h1, h2, h3, this⟩

/-- `desid` depends only on its cell. -/
theorem desid_cell {S S' : Store P.F} (h : S' 1 [] = S 1 []) :
    getAttr P Tables.t_des_subheader S' (n!"desid") [] =
      getAttr P Tables.t_des_subheader S (n!"desid") [] := by
  obtain ⟨fi, h1, h2, h3, h4, _⟩ := desid_fd
  unfold getAttr
  rw [(desRow_of desid_row.1).1]
  simp only
  rw [h2.get_plain P h3 h1 (evalCond_none P h4 _ _), h2.get_plain P h3 h1 (evalCond_none P h4 _ _)]
  unfold stored
  rw [h]

theorem desid_stored {S : Store P.F} {t : Str} (h : S 1 [] = some ⟨.val (.str t), none⟩)
    (ht : rstripU t = t) :
    getAttr P Tables.t_des_subheader S (n!"desid") [] = .ok (.str t) := by
  obtain ⟨fi, h1, h2, h3, h4, h5⟩ := desid_fd
  unfold getAttr
  rw [(desRow_of desid_row.1).1]
  simp only
  rw [h2.get_plain P h3 h1 (evalCond_none P h4 _ _)]
  unfold stored
  rw [h]
  simp only
  rw [finish_str P h5, ht]

/-- Setting the security fields changes no other field. -/
theorem setSecLoop_frame {d : Desc} {s : Sec P.F} : ∀ {L : List (Name × Nat)} {S S' : Store P.F},
    (∀ f ∈ L, ∀ n, resolve d.tab f.1 = some n → ∃ fi, d.tab[n]? = some fi ∧ fi.fd.kind = .plain) →
    setSecLoop P d s L S = (S', none) →
    ∀ q key, (∀ f ∈ L, resolve d.tab f.1 ≠ some q) → S' q key = S q key := by
  intro L
  induction L with
  | nil =>
    intro S S' _ h q key _
    unfold setSecLoop at h
    injection h with h _
    rw [h]
  | cons f L ih =>
    obtain ⟨nm, a⟩ := f
    intro S S' hp h q key hq
    have hp' := fun f hf => hp f (List.mem_cons_of_mem _ hf)
    have hq' := fun f hf => hq f (List.mem_cons_of_mem _ hf)
    unfold setSecLoop at h
    split at h
    · exact ih hp' h q key hq'
    · rename_i n hr
      split at h
      · injection h with _ h; cases h
      · split at h
        · injection h with _ h; cases h
        · rename_i S1 hs
          obtain ⟨fi, h1, h2⟩ := hp (nm, a) (by simp) n hr
          obtain ⟨v', _, hS1⟩ := setItem_store P h1 (Or.inl h2) hs
          rw [ih hp' h q key hq', hS1]
          unfold Store.set
          rw [if_neg]
          rintro ⟨rfl, _⟩
          exact hq (nm, a) (by simp) hr

theorem desSec_frame {s : Sec P.F} {S S' : Store P.F}
    (h : setSecurity P Tables.t_des_subheader s S (n!"des") = (S', none)) (q : Nat)
    (hq : q ∈ [1, 2, 19, 20, 21, 22]) (key : Key) : S' q key = S q key := by
  refine setSecLoop_frame P ?_ h q key ?_
  · rintro ⟨nm, a⟩ hf n hr
    obtain ⟨fi, h1, h2⟩ := secOkB_field (secHeaders_ok (Tables.t_des_subheader, n!"des")
      (by simp [secHeaders])) hf hr
    exact ⟨fi, h1, h2.plain⟩
  · have : (secNames (n!"des")).all (fun f => [1, 2, 19, 20, 21, 22].all fun q =>
        decide (resolve Tables.t_des_subheader.tab f.1 ≠ some q)) = true := by decide +kernel
    intro f hf
    have h1 := List.all_eq_true.mp this f hf
    have h2 := List.all_eq_true.mp h1 q hq
    exact of_decide_eq_true h2

variable (E : Env) (IO : DataIO P.F)

/-- An overflow segment has the desid `TRE_OVERFLOW`. -/
theorem overflowSeg_desid {ofl : Str} {i : Nat} {sec : Sec P.F} {b : Bytes} {s : Seg P.F IO.D}
    (h : overflowSeg P IO ofl i sec b = .ok s) :
    getAttr P Tables.t_des_subheader s.sub (n!"desid") [] = .ok (.str "TRE_OVERFLOW".toList) := by
  unfold overflowSeg at h
  split at h
  · cases h
  · rename_i S h1
    split at h
    · cases h
    · rename_i S' h2
      injection h with h
      subst h
      refine desid_stored P ?_ (by decide)
      show S' 1 [] = _
      rw [desSec_frame P h2 1 (by simp)]
      obtain ⟨r1, r2, r3, r4, _⟩ := desid_row
      obtain ⟨a1, f1, b1, _, c1⟩ := desRow_of r1
      obtain ⟨a2, f2, b2, _, c2⟩ := desRow_of r2
      obtain ⟨a3, f3, b3, _, c3⟩ := desRow_of r3
      obtain ⟨a4, f4, b4, _, c4⟩ := desRow_of r4
      unfold setAll at h1
      split at h1
      · cases h1
      · rename_i S1 e1
        unfold setAll at h1
        split at h1
        · cases h1
        · rename_i S2 e2
          unfold setAll at h1
          split at h1
          · cases h1
          · rename_i S3 e3
            unfold setAll at h1
            split at h1
            · cases h1
            · rename_i S4 e4
              unfold setAll at h1
              injection h1 with h1
              subst h1
              rw [setA_plain P a4 b4 c4 e4, setA_plain P a3 b3 c3 e3, setA_plain P a1 b1 c1 e2]
              simp [Store.set]

/-! ### The user subheader -/

theorem desshf_rows : resolve Tables.t_des_subheader.tab (n!"desshf") = some 22 ∧
    ∃ fi fm, Tables.t_des_subheader.tab[22]? = some fi ∧ Tables.t_des_subheader.tab[21]? = some fm ∧
      Scalar fi ∧ Scalar fm ∧ fi.fd.kind = .bytesData ∧ fm.fd.kind = .plain ∧
      fi.fd.sizeNotUpdated = false ∧ fi.fd.size = .expr (.ref (n!"desshl") []) ∧
      fi.fd.cond = none ∧ fm.fd.cond = none ∧ fi.fd.sizeOffset = 0 ∧ fi.fd.ty = .bytes := by
  have h : (resolve Tables.t_des_subheader.tab (n!"desshf") == some 22 &&
    match Tables.t_des_subheader.tab[22]?, Tables.t_des_subheader.tab[21]? with
    | some fi, some fm =>
      (fi.fd.name.isSome && fi.shapes.isEmpty && fi.fd.value.isNone && !fi.fd.hardcoded) &&
      (fm.fd.name.isSome && fm.fd.kind == .plain) && (fi.fd.kind == .bytesData) &&
      !fi.fd.sizeNotUpdated && (fi.fd.size == .expr (.ref (n!"desshl") [])) &&
      fi.fd.cond.isNone && fm.fd.cond.isNone && (fi.fd.sizeOffset == 0) && (fi.fd.ty == .bytes)
    | _, _ => false) = true := by decide +kernel
  obtain ⟨_, fm', g1, g2, _⟩ := desRow_of desid_row.2.2.2.2
  simp only [Bool.and_eq_true, beq_iff_eq] at h
  refine ⟨h.1, ?_⟩
  have h := h.2
  cases hf : Tables.t_des_subheader.tab[22]? with
  | none => rw [hf] at h; simp at h
  | some fi =>
    rw [hf, g1] at h
    simp only [Bool.and_eq_true, beq_iff_eq, List.isEmpty_iff, Option.isNone_iff_eq_none,
      Bool.not_eq_true'] at h
    obtain ⟨⟨⟨⟨⟨⟨⟨⟨⟨⟨⟨a1, a2⟩, a3⟩, a4⟩, b1, b2⟩, c⟩, d⟩, e⟩, f⟩, g⟩, i⟩, j⟩ := h
    refine ⟨fi, fm', rfl, g1, ⟨?_, a2, a3, a4⟩, g2, c, b2, d, e, f, g, i, j⟩
    intro hh; rw [hh] at a1; cases a1

/-- `desshf = b` also sets `desshl`. -/
theorem setUser_des {sub : Store P.F} (b : Bytes) :
    setUserData P .des sub (.bytes b) = .ok ((sub.set 22 [] ⟨.val (.bytes b), none⟩).set 21 []
      ⟨.val (.int (b.length : Nat)), none⟩) := by
  obtain ⟨r, fi, fm, h1, h2, h3, h4, h5, h6, h7, h8, h9, h10, h11, _⟩ := desshf_rows
  simp only [setUserData, setA, setAttr, SegKind.desc, r]
  rw [h3.set_data P h4 h1 h2 h5 h6 h7 h8 (desRow_of desid_row.2.2.2.2).1 h9 h10, h11]
  simp only
  congr 4
  split
  · rename_i h; rw [h]; rfl
  · rfl

theorem setUser_none {sub : Store P.F} :
    setUserData P .des sub (.str []) = setUserData P .des sub (.bytes []) := by
  obtain ⟨r, fi, fm, h1, h2, h3, h4, h5, h6, h7, h8, h9, h10, h11, _⟩ := desshf_rows
  have e : setCheck P Tables.t_des_subheader.tab sub 22 [] (.str []) =
      setCheck P Tables.t_des_subheader.tab sub 22 [] (.bytes []) := by
    unfold setCheck
    rw [h1]
    simp only [h5]
    rfl
  simp only [setUserData, setA, setAttr, SegKind.desc, r]
  unfold setItem budget setF
  rw [e]

/-- The bytes of the user subheader. -/
def userBytes (user : Option (Desc × Store P.F)) : Except Err Bytes :=
  match user with
  | none => .ok []
  | some (d, U) => writeStruct P d U

theorem writeUser_des {user : Option (Desc × Store P.F)} {sub sub' : Store P.F}
    (h : writeUser P .des user sub = .ok sub') :
    ∃ b, userBytes P user = .ok b ∧ sub' = (sub.set 22 [] ⟨.val (.bytes b), none⟩).set 21 []
      ⟨.val (.int (b.length : Nat)), none⟩ := by
  unfold writeUser at h
  split at h
  · split at h
    · cases h
    · rename_i b hb
      rw [setUser_des] at h
      injection h with h
      exact ⟨b, hb, h.symm⟩
  · rw [setUser_none, setUser_des] at h
    injection h with h
    exact ⟨[], rfl, h.symm⟩

theorem writeUser_other {k : SegKind} (hk : k ≠ .des) {user : Option (Desc × Store P.F)}
    {sub sub' : Store P.F} (h : writeUser P k user sub = .ok sub') : sub' = sub := by
  have e : ∀ v, setUserData P k sub v = .ok sub := by
    intro v
    cases k <;> first | exact absurd rfl hk | rfl
  unfold writeUser at h
  split at h
  · split at h
    · cases h
    · rw [e] at h; injection h with h; exact h.symm
  · rw [e] at h; injection h with h; exact h.symm

/-- `desshf` afterwards. -/
theorem desshf_get {sub : Store P.F} {b : Bytes} {c : Cell P.F} :
    getAttr P Tables.t_des_subheader ((sub.set 22 [] ⟨.val (.bytes b), none⟩).set 21 [] c)
      (n!"desshf") [] = .ok (.bytes b) := by
  obtain ⟨r, fi, fm, h1, h2, h3, h4, h5, h6, h7, h8, h9, h10, h11, h12⟩ := desshf_rows
  unfold getAttr
  rw [r]
  simp only
  refine h3.get_bytes P h5 h1 (evalCond_none P h9 _ _) ?_
  have : stored ((sub.set 22 [] ⟨.val (.bytes b), none⟩).set 21 [] c) fi.fd 22 [] =
      .val (.bytes b) := by simp [stored, Store.set]
  rw [this]
  exact finish_bytes P h12 b

theorem writeUser_noLit {k : SegKind} {user : Option (Desc × Store P.F)} {sub sub' : Store P.F}
    (hn : NoLit sub) (h : writeUser P k user sub = .ok sub') : NoLit sub' := by
  by_cases hk : k = .des
  · subst hk
    obtain ⟨b, _, rfl⟩ := writeUser_des P h
    exact (hn.set _ _ _ _).set _ _ _ _
  · rw [writeUser_other P hk h]; exact hn

/-! ### One segment -/

theorem segBytes_ok {k : SegKind} {s : Seg P.F IO.D} {r : Seg P.F IO.D × Bytes × Bytes}
    (h : segBytes P E IO k s = .ok r) :
    ∃ sub, writeUser P k s.user s.sub = .ok sub ∧ r.1 = { s with sub := sub } ∧
      writeStruct P k.desc sub = .ok r.2.1 ∧ writeData P IO s.data = .ok r.2.2 ∧
      checkUser P E IO k s = .ok () := by
  unfold segBytes at h
  split at h
  · cases h
  · rename_i h0
    split at h
    · cases h
    · rename_i sub h1
      split at h
      · cases h
      · rename_i sb h2
        split at h
        · cases h
        · rename_i db h3
          injection h with h
          subst h
          exact ⟨sub, h1, rfl, h2, h3, h0⟩


/-- The user subheader read back: same class, same values. -/
def SameUser : Option (Desc × Store P.F) → Option (Desc × Store P.F) → Prop
  | none, none => True
  | some (d, U), some (e, V) => d = e ∧ ∀ nm, itemsOf P d V nm = itemsOf P d U nm
  | _, _ => False

variable (same : IO.D → IO.D → Prop)

/-- The data read back: the same overflow bytes, or a data object that counts as the same. -/
def SameData : SegData IO.D → SegData IO.D → Prop
  | .overflow b, .overflow c => c = b
  | .other x, .other y => same x y
  | _, _ => False

/-- The user subheader can be read back.  For a DES: the class is the one registered for the desid
and the values survive.  Image, graphic and text segments have none; a RES may not have one. -/
def UserReady (k : SegKind) (s : Seg P.F IO.D) : Prop :=
  match k with
  | .des => ∀ d U, s.user = some (d, U) → userCls P E .des s.sub = .ok (some d) ∧
      d.causal = true ∧ d.allFields FieldDef.wf = true ∧
      ∀ cs, writeChunks P d U = .ok cs → ∀ ch ∈ cs, Survives P d U ch
  | .res => s.user = none ∧ userCls P E .res s.sub = .ok none
  | _ => s.user = none

/-- The handlers read back the data of this segment, for any subheader with the same values. -/
def DataReady (k : SegKind) (s : Seg P.F IO.D) : Prop :=
  match s.data with
  | .overflow _ => k = .des ∧ getAttr P Tables.t_des_subheader s.sub (n!"desid") [] =
      .ok (.str "TRE_OVERFLOW".toList)
  | .other x =>
    (k = .des → ∃ id, getAttr P Tables.t_des_subheader s.sub (n!"desid") [] = .ok (.str id) ∧
      id ≠ "TRE_OVERFLOW".toList) ∧
    ∀ b, IO.write x = .ok b → ∀ R, (∀ nm, itemsOf P k.desc R nm = itemsOf P k.desc s.sub nm) →
      ∀ rest, ∃ y, IO.read k R b.length (b ++ rest) = .ok (y, rest) ∧ same x y

theorem userCls_congr {k : SegKind} {S S' : Store P.F}
    (h : ∀ nm ∈ [n!"desid", n!"resid"], getAttr P k.desc S' nm [] = getAttr P k.desc S nm []) :
    userCls P E k S' = userCls P E k S := by
  cases k <;> simp only [userCls]
  · rw [h (n!"desid") (by simp)]
  · rw [h (n!"resid") (by simp)]

theorem id_shapes (k : SegKind) : ∀ nm ∈ [n!"desid", n!"resid", n!"desshf"], ∀ n fi,
    resolve k.desc.tab nm = some n → k.desc.tab[n]? = some fi → fi.shapes = [] := by
  have : ([n!"desid", n!"resid", n!"desshf"].all fun nm =>
      match resolve k.desc.tab nm with
      | none => true
      | some n => match k.desc.tab[n]? with
        | none => true
        | some fi => fi.shapes.isEmpty) = true := by cases k <;> decide +kernel
  intro nm hnm n fi hr hf
  have h := List.all_eq_true.mp this nm hnm
  rw [hr] at h
  simp only [hf] at h
  exact List.isEmpty_iff.mp h

/-- The values of `R` are those of `S` (for the fields inside their loops). -/
def ReachSame (d : Desc) (S R : Store P.F) : Prop :=
  ∀ n key, Reach P d.tab S n key → getItem P d.tab R n key = getItem P d.tab S n key

/-- The result of reading a segment, compared with the segment after it was written. -/
structure ReadBack (k : SegKind) (r : Seg P.F IO.D × Bytes × Bytes) (s' : Seg P.F IO.D) : Prop where
  items : ∀ nm, itemsOf P k.desc s'.sub nm = itemsOf P k.desc r.1.sub nm
  reach : ReachSame P k.desc r.1.sub s'.sub
  user : SameUser P r.1.user s'.user
  data : SameData P IO same r.1.data s'.data
  tres : k.areas = none → s'.tres = []
  linked : s'.linked = true
  loaded : ∃ cs, writeChunks P k.desc r.1.sub = .ok cs ∧ chunkBytes cs = r.2.1 ∧
    Loaded P k.desc r.1.sub s'.sub cs
  reads : readUser P E k s'.sub = .ok s'.user
  userAgain : (∀ d U, r.1.user = some (d, U) → NoLit U) → ∀ b, userBytes P r.1.user = .ok b →
    userBytes P s'.user = .ok b

theorem readSeg_written {k : SegKind} {s : Seg P.F IO.D} {r : Seg P.F IO.D × Bytes × Bytes}
    (h : segBytes P E IO k s = .ok r) (hl : s.linked = true) (hn : NoLit s.sub)
    (hu : UserReady P E IO k s) (hd : DataReady P IO same k r.1) (rest : Bytes) :
    ∃ s', readSeg P E IO k (r.2.2.length : Nat) (r.2.1 ++ (r.2.2 ++ rest)) = .ok (s', rest) ∧
      ReadBack P E IO same k r s' ∧ s'.tres = [] := by
  obtain ⟨sub, h1, h2, h3, h4, h5⟩ := segBytes_ok P E IO h
  obtain ⟨r1, sb, db⟩ := r
  simp only at h2 h3 h4 ⊢
  subst h2
  have hns := writeUser_noLit P hn h1
  obtain ⟨cs, hc1, hc2⟩ := writeStruct_chunks P h3
  subst hc2
  obtain ⟨R, q1, q2, q3⟩ := C01_write_then_read P (subheader_causal k) (subheader_wf k) hc1
    (survives_of_values P (subheader_survives k) hns) (db ++ rest)
  have hid : ∀ nm ∈ [n!"desid", n!"resid", n!"desshf"],
      getAttr P k.desc R nm [] = getAttr P k.desc sub nm [] :=
    fun nm hnm => getAttr_reach P (id_shapes k nm hnm) q3
  have hcls : userCls P E k R = userCls P E k s.sub := by
    rw [userCls_congr P E (k := k) (S := sub) fun nm hnm => hid nm (by
      simp only [List.mem_cons, List.not_mem_nil, or_false] at hnm ⊢; rcases hnm with h | h <;> simp [h])]
    by_cases hk : k = .des
    · subst hk
      obtain ⟨b, _, rfl⟩ := writeUser_des P h1
      simp only [userCls]
      rw [show SegKind.des.desc = Tables.t_des_subheader from rfl,
        desid_cell P (S := s.sub) (by simp [Store.set])]
    · rw [writeUser_other P hk h1]
  have huser : ∃ user, readUser P E k R = .ok user ∧ SameUser P s.user user ∧
      ((∀ d U, s.user = some (d, U) → NoLit U) → ∀ b, userBytes P s.user = .ok b →
        userBytes P user = .ok b) := by
    unfold readUser
    rw [hcls]
    unfold checkUser at h5
    rw [if_pos hl] at h5
    cases k with
    | des =>
      obtain ⟨b, hb, hsub⟩ := writeUser_des P h1
      cases hus : s.user with
      | none =>
        rw [hus] at h5
        cases hcl : userCls P E .des s.sub with
        | error e => rw [hcl] at h5; cases h5
        | ok o =>
          cases o with
          | none => exact ⟨none, rfl, trivial, fun _ _ h => h⟩
          | some d => rw [hcl] at h5; simp at h5
      | some x =>
        obtain ⟨d, U⟩ := x
        obtain ⟨u1, u2, u3, u4⟩ := hu d U hus
        rw [u1]
        simp only
        rw [hus] at hb
        simp only [userBytes] at hb
        obtain ⟨ucs, w1, w2⟩ := writeStruct_chunks P hb
        subst w2
        rw [hid (n!"desshf") (by simp), hsub]
        have := desshf_get P (sub := s.sub) (b := chunkBytes ucs)
          (c := ⟨.val (.int ((chunkBytes ucs).length : Nat)), none⟩)
        rw [show SegKind.des.desc = Tables.t_des_subheader from rfl, this]
        simp only
        obtain ⟨V, v1, v2, _⟩ := C01_write_then_read P u2 u3 w1 (u4 ucs w1) []
        have v3 := v1
        rw [List.append_nil] at v1
        rw [v1]
        refine ⟨_, rfl, ⟨rfl, v2⟩, ?_⟩
        intro hnl b' hb'
        simp only [userBytes] at hb' ⊢
        rw [hb] at hb'
        injection hb' with hb'
        subst hb'
        have := (loaded_of P u2 u3 w1 (u4 ucs w1) (fun ch _ fi _ =>
          (hnl d U rfl).stored fi.fd ch.pos ch.key) v3).again
        unfold writeStruct
        rw [this]
        rfl
    | res =>
      obtain ⟨u1, u2⟩ := hu
      rw [u2, u1]
      exact ⟨none, rfl, trivial, fun _ _ h => h⟩
    | _ =>
      rw [show s.user = none from hu]
      exact ⟨none, rfl, trivial, fun _ _ h => h⟩
  obtain ⟨user, us1, us2, us3⟩ := huser
  have hdata : ∃ x, readData P IO k R (db.length : Nat) (db ++ rest) = .ok (x, rest) ∧
      SameData P IO same s.data x := by
    unfold DataReady at hd
    simp only at hd
    cases hsd : s.data with
    | overflow b =>
      rw [hsd] at hd h4
      obtain ⟨rfl, hd⟩ := hd
      simp only [writeData] at h4
      injection h4 with h4
      subst h4
      refine ⟨.overflow b, ?_, rfl⟩
      unfold readData
      simp only [hid (n!"desid") (by simp)]
      rw [show SegKind.des.desc = Tables.t_des_subheader from rfl, hd]
      have hz : ¬ ((List.length b : Nat) : Int) < 0 := by omega
      simp [pyEq, fhRead, hz]
    | other x =>
      rw [hsd] at hd h4
      obtain ⟨hd1, hd2⟩ := hd
      simp only [writeData] at h4
      split at h4
      · cases h4
      · rename_i b hb
        injection h4 with h4
        subst h4
        obtain ⟨y, y1, y2⟩ := hd2 b hb R q2 rest
        refine ⟨.other y, ?_, y2⟩
        unfold readData
        simp only [y1]
        cases k with
        | des =>
          obtain ⟨id, i1, i2⟩ := hd1 rfl
          simp only [hid (n!"desid") (by simp)]
          rw [show SegKind.des.desc = Tables.t_des_subheader from rfl, i1]
          have : pyEq P (.str id) (.str "TRE_OVERFLOW".toList) = false := by
            unfold pyEq; exact beq_false_of_ne i2
          simp only [this, Bool.false_eq_true, if_false]
        | _ => rfl
  obtain ⟨x, x1, x2⟩ := hdata
  refine ⟨{ linked := true, sub := R, user := user, data := x }, ?_, ⟨q2, q3, us2, x2, fun _ => rfl, rfl,
    ⟨cs, hc1, rfl, ?_⟩, us1, us3⟩, rfl⟩
  · unfold readSeg
    rw [q1]
    simp only [us1, x1]
  · exact loaded_of P (subheader_causal k) (subheader_wf k) hc1
      (survives_of_values P (subheader_survives k) hns)
      (fun ch _ fi _ => hns.stored fi.fd ch.pos ch.key) q1

/-! ### All segments of a kind -/

theorem readSegs_written {k : SegKind} {Q : Seg P.F IO.D × Bytes × Bytes → Seg P.F IO.D → Prop} :
    ∀ {l : List (Seg P.F IO.D × Bytes × Bytes)},
    (∀ x ∈ l, ∀ rest, ∃ s', readSeg P E IO k (x.2.2.length : Nat) (x.2.1 ++ (x.2.2 ++ rest)) =
      .ok (s', rest) ∧ Q x s') → ∀ rest,
    ∃ ss, readSegs P E IO k (l.map fun x => ((x.2.2.length : Nat) : Int))
      ((l.map (·.2)).flatMap (fun p => p.1 ++ p.2) ++ rest) = .ok (ss, rest) ∧ Each Q l ss := by
  intro l
  induction l with
  | nil => intro _ rest; exact ⟨[], rfl, .nil⟩
  | cons x l ih =>
    intro h rest
    obtain ⟨ss, s1, s2⟩ := ih (fun y hy => h y (by simp [hy])) rest
    obtain ⟨s', t1, t2⟩ := h x (by simp) ((l.map (·.2)).flatMap (fun p => p.1 ++ p.2) ++ rest)
    refine ⟨s' :: ss, ?_, .cons t2 s2⟩
    simp only [List.map_cons, List.flatMap_cons, List.append_assoc]
    unfold readSegs
    rw [t1]
    simp only [s1]

theorem listField_each {G : Int → Except Err (Val P.F)} {is zs : List Int}
    (h : Each (fun i z => G i = .ok (.int z)) is zs) : listField P G is = .ok zs := by
  induction h with
  | nil => rfl
  | cons h _ ih =>
    unfold listField
    rw [h]
    simp only [asInt, ih]

theorem each_indices {α : Type} {Q : Int → Int → Prop} (g : α → Int) (l : List α)
    (h : ∀ (i : Nat) x, l[i]? = some x → Q i (g x)) :
    Each Q (indices (l.length : Nat)) (l.map g) := by
  have : ∀ (l' : List α) (b : Nat), (∀ (i : Nat) x, l'[i]? = some x → Q ((b + i : Nat)) (g x)) →
      Each Q ((List.range' b l'.length).map Int.ofNat) (l'.map g) := by
    intro l'
    induction l' with
    | nil => intro _ _; exact .nil
    | cons a l' ih =>
      intro b hb
      simp only [List.length_cons, List.range'_succ, List.map_cons]
      refine .cons (hb 0 a rfl) (ih (b + 1) ?_)
      intro i x hx
      have := hb (i + 1) x (by simpa using hx)
      rwa [show b + (i + 1) = b + 1 + i by omega] at this
  have := this l 0 (by intro i x hx; rw [Nat.zero_add]; exact h i x hx)
  unfold indices
  rw [show ((l.length : Nat) : Int).toNat = l.length by omega, List.range_eq_range']
  exact this

/-! ### The header -/

/-- Reading the header of a written file, for any reader field that was reachable. -/
theorem WriteRun.readHeader {f f' : NFile P.F IO.D} {out : Bytes} (r : WriteRun P E IO f f' out)
    (hlit : NoLit f.header) :
    ∃ R, readStruct P Tables.t_file_header false out =
        .ok (R, partsBytes fun k => (r.res k).map (·.2)) ∧
      (∀ nm, itemsOf P Tables.t_file_header R nm = itemsOf P Tables.t_file_header f'.header nm) ∧
      ∀ n key, Reach P Tables.t_file_header.tab f'.header n key →
        getItem P Tables.t_file_header.tab R n key =
          getItem P Tables.t_file_header.tab f'.header n key := by
  have hval := r.h0_noLit P E IO hlit
  have := C01_write_then_read P t_file_header_causal t_file_header_wf r.chunks'
    (survives_of_values P t_file_header_survives hval) (partsBytes fun k => (r.res k).map (·.2))
  rwa [← r.out_eq] at this

/-- The header read back can be written again. -/
theorem WriteRun.loadHeader {f f' : NFile P.F IO.D} {out : Bytes} (r : WriteRun P E IO f f' out)
    (hlit : NoLit f.header) {R : Store P.F}
    (hR : readStruct P Tables.t_file_header false out =
      .ok (R, partsBytes fun k => (r.res k).map (·.2))) :
    Loaded P Tables.t_file_header f'.header R r.cs' := by
  have hval := r.h0_noLit P E IO hlit
  have hR := (congrArg (readStruct P Tables.t_file_header false) r.out_eq).symm.trans hR
  exact loaded_of P t_file_header_causal t_file_header_wf r.chunks'
    (survives_of_values P t_file_header_survives hval)
    (fun ch _ fi _ => NoLit.stored hval fi.fd ch.pos ch.key) hR


/-- The lengths in the header read back. -/
theorem WriteRun.readLengths {f f' : NFile P.F IO.D} {out : Bytes} (r : WriteRun P E IO f f' out)
    (hlit : NoLit f.header) (hlink : ∀ k, ∀ s ∈ f.segs k, s.linked = true) :
    ∃ R, readStruct P Tables.t_file_header false out =
        .ok (R, partsBytes fun k => (r.res k).map (·.2)) ∧
      (∀ nm, itemsOf P Tables.t_file_header R nm = itemsOf P Tables.t_file_header f'.header nm) ∧
      ReachSame P Tables.t_file_header f'.header R ∧
      getAttr P Tables.t_file_header R (n!"fl") [] = .ok (.int (out.length : Nat)) ∧
      getAttr P Tables.t_file_header R (n!"hl") [] =
        .ok (.int ((chunkBytes r.cs').length : Nat)) ∧
      ∀ k, getAttr P Tables.t_file_header R k.numField [] =
          .ok (.int ((r.res k).length : Nat)) ∧
        ∀ (i : Nat) x, (r.res k)[i]? = some x →
          getAttr P Tables.t_file_header R k.lenFields.1 [(i : Int)] =
            .ok (.int (x.2.1.length : Nat)) ∧
          getAttr P Tables.t_file_header R k.lenFields.2 [(i : Int)] =
            .ok (.int (x.2.2.length : Nat)) := by
  obtain ⟨R, r1, r2, r3⟩ := r.readHeader P E IO hlit
  have hsame : ∀ {nm n key}, resolve Tables.t_file_header.tab nm = some n →
      Reach P Tables.t_file_header.tab f'.header n key →
      getAttr P Tables.t_file_header R nm key =
        getAttr P Tables.t_file_header f'.header nm key := by
    intro nm n key hr hre
    unfold getAttr
    rw [hr]
    exact r3 n key hre
  have hscal : ∀ {nm n}, ScalarField nm n → Reach P Tables.t_file_header.tab f'.header n [] := by
    intro nm n hs
    obtain ⟨fi, h1, _, h3⟩ := hs.at_
    exact scalar_reach P h1 h3 _
  refine ⟨R, r1, r2, r3, ?_, ?_, ?_⟩
  · rw [hsame flField.res (hscal flField)]
    exact flField.get P r.fl
  · rw [hsame hlField.res (hscal hlField)]
    exact hlField.get P r.hl
  · intro k
    rw [hsame (numField k).res (hscal (numField k))]
    refine ⟨(numField k).get P (r.count P E IO k), ?_⟩
    intro i x hx
    have hc := r.count P E IO k
    have hlt := lt_of_getElem? hx
    have hlt' : i < (r.segs1 k).length := by rw [(r.each k).length]; exact hlt
    have hl := r.lens k i _ x (List.getElem?_eq_getElem hlt') hx
      (r.linked P E IO hlink k _ (List.getElem_mem hlt'))
    have hi : (i : Int) < ((r.res k).length : Nat) := by omega
    rw [hsame (lenField k).res ((lenField k).reach P hc (by omega) hi),
      hsame (dataField k).res ((dataField k).reach P hc (by omega) hi)]
    exact ⟨(lenField k).get P hc (by omega) hi hl.1, (dataField k).get P hc (by omega) hi hl.2⟩

end Verif
