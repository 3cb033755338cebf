import Verif.Same
import Verif.Props.FileRound

/- Writing the same file object again: helper lemmas for C27. -/

namespace Verif

variable (P : PyFloat)

/-! ### The TRE areas of a header -/

/-- The rows of a TRE area: the length at `m` and the data at `n`; the overflow name is a field
that is present if the length is not 0, or no field at all. -/
structure AreaRows (d : Desc) (a : Area) (m n : Nat) : Prop where
  rlen : resolve d.tab a.len = some m
  rdata : resolve d.tab a.data = some n
  flen : ∃ fm, d.tab[m]? = some fm ∧ Scalar fm ∧ fm.fd.kind = .plain ∧ fm.fd.ty = .int ∧
    fm.fd.cond = none
  fdata : ∃ fn, d.tab[n]? = some fn ∧ Scalar fn ∧ fn.fd.kind = .bytesData ∧
    fn.fd.cond = none ∧ fn.fd.size = .expr (.ref a.len []) ∧ fn.fd.sizeOffset = 3 ∧
    fn.fd.sizeNotUpdated = false
  fofl : ∀ o, resolve d.tab a.ofl = some o → ∃ fo, d.tab[o]? = some fo ∧ Scalar fo ∧
    fo.fd.kind = .plain ∧ fo.fd.cond = some (.ne (.ref a.len []) (.const (.int 0)))

/-- Boolean form. -/
def areaRowsB (d : Desc) (a : Area) (m n : Nat) : Bool :=
  resolve d.tab a.len == some m && resolve d.tab a.data == some n &&
  (match d.tab[m]? with
    | none => false
    | some f => f.fd.name.isSome && f.shapes.isEmpty && f.fd.value.isNone && !f.fd.hardcoded &&
        f.fd.kind == .plain && f.fd.ty == .int && f.fd.cond.isNone) &&
  (match d.tab[n]? with
    | none => false
    | some f => f.fd.name.isSome && f.shapes.isEmpty && f.fd.value.isNone && !f.fd.hardcoded &&
        f.fd.kind == .bytesData && f.fd.cond.isNone &&
        f.fd.size == .expr (.ref a.len []) && f.fd.sizeOffset == 3 && !f.fd.sizeNotUpdated) &&
  (match resolve d.tab a.ofl with
    | none => true
    | some o =>
      match d.tab[o]? with
      | none => false
      | some f => f.fd.name.isSome && f.shapes.isEmpty && f.fd.value.isNone && !f.fd.hardcoded &&
          f.fd.kind == .plain && f.fd.cond == some (.ne (.ref a.len []) (.const (.int 0))))

theorem areaRows_of {d : Desc} {a : Area} {m n : Nat} (h : areaRowsB d a m n = true) :
    AreaRows d a m n := by
  unfold areaRowsB at h
  simp only [Bool.and_eq_true, beq_iff_eq] at h
  obtain ⟨⟨⟨⟨h1, h3⟩, hm⟩, hn⟩, ho⟩ := h
  have nn : ∀ {f : FInfo}, f.fd.name.isSome = true → f.fd.name ≠ none := by
    intro f h; cases hh : f.fd.name with
    | none => rw [hh] at h; cases h
    | some _ => simp
  refine ⟨h1, h3, ?_, ?_, ?_⟩
  · cases hf : d.tab[m]? with
    | none => rw [hf] at hm; cases hm
    | some f =>
      rw [hf] at hm
      simp only [Bool.and_eq_true, beq_iff_eq, List.isEmpty_iff, Option.isNone_iff_eq_none,
        Bool.not_eq_true'] at hm
      obtain ⟨⟨⟨⟨⟨⟨a1, a2⟩, a3⟩, a4⟩, a5⟩, a6⟩, a7⟩ := hm
      exact ⟨f, rfl, ⟨nn a1, a2, a3, a4⟩, a5, a6, a7⟩
  · cases hf : d.tab[n]? with
    | none => rw [hf] at hn; cases hn
    | some f =>
      rw [hf] at hn
      simp only [Bool.and_eq_true, beq_iff_eq, List.isEmpty_iff, Option.isNone_iff_eq_none,
        Bool.not_eq_true'] at hn
      obtain ⟨⟨⟨⟨⟨⟨⟨⟨a1, a2⟩, a3⟩, a4⟩, a5⟩, a7⟩, a8⟩, a9⟩, a10⟩ := hn
      exact ⟨f, rfl, ⟨nn a1, a2, a3, a4⟩, a5, a7, a8, a9, a10⟩
  · intro o hr
    rw [hr] at ho
    simp only at ho
    cases hf : d.tab[o]? with
    | none => rw [hf] at ho; cases ho
    | some f =>
      rw [hf] at ho
      simp only [Bool.and_eq_true, beq_iff_eq, List.isEmpty_iff, Option.isNone_iff_eq_none,
        Bool.not_eq_true'] at ho
      obtain ⟨⟨⟨⟨⟨a1, a2⟩, a3⟩, a4⟩, a5⟩, a7⟩ := ho
      exact ⟨f, rfl, ⟨nn a1, a2, a3, a4⟩, a5, a7⟩

variable {P} {d : Desc} {a : Area} {m n : Nat}

/-- The length field depends only on its cell. -/
theorem AreaRows.len_cell (h : AreaRows d a m n) {S S' : Store P.F} (he : S' m [] = S m []) :
    getAttr P d S' a.len [] = getAttr P d S a.len [] := by
  unfold getAttr
  rw [h.rlen]
  obtain ⟨fm, h1, h2, h3, _, h5⟩ := h.flen
  simp only
  rw [h2.get_plain P h3 h1 (evalCond_none P h5 _ _), h2.get_plain P h3 h1 (evalCond_none P h5 _ _)]
  unfold stored
  rw [he]

theorem AreaRows.pos_cell (h : AreaRows d a m n) {S S' : Store P.F} (he : S' m [] = S m []) :
    attrPos P d S' a.len = attrPos P d S a.len := by
  unfold attrPos
  rw [h.len_cell he]

theorem AreaRows.pos_stored (h : AreaRows d a m n) {S : Store P.F} {z : Int} {raw : Option Bytes}
    (he : S m [] = some ⟨.val (.int z), raw⟩) : attrPos P d S a.len = .ok (decide (z > 0)) := by
  unfold attrPos getAttr
  rw [h.rlen]
  obtain ⟨fm, h1, h2, h3, h4, h5⟩ := h.flen
  simp only
  rw [h2.get_plain P h3 h1 (evalCond_none P h5 _ _)]
  unfold stored
  rw [he]
  simp only
  rw [finish_int P h4]
  rfl

/-- The condition of the overflow field depends only on the length field. -/
theorem AreaRows.cond_cell (hd : d.causal = true) (h : AreaRows d a m n) {S S' : Store P.F}
    (he : S' m [] = S m []) {fo : FInfo}
    (hc : fo.fd.cond = some (.ne (.ref a.len []) (.const (.int 0)))) :
    evalCond P (look P d.tab S') fo [] = evalCond P (look P d.tab S) fo [] := by
  have hg := h.len_cell (P := P) he
  unfold getAttr at hg
  rw [h.rlen] at hg
  simp only at hg
  obtain ⟨fm, h1, h2, _⟩ := h.flen
  unfold evalCond
  rw [hc]
  simp only [evalE, idxKey, bind, Except.bind, h2.look P (Desc.causalTab hd) h.rlen h1, hg]

theorem AreaRows.cond_pos (hd : d.causal = true) (h : AreaRows d a m n) {S : Store P.F}
    (hp : attrPos P d S a.len = .ok true) {fo : FInfo}
    (hc : fo.fd.cond = some (.ne (.ref a.len []) (.const (.int 0)))) :
    evalCond P (look P d.tab S) fo [] = .ok true := by
  unfold attrPos at hp
  cases hg : getAttr P d S a.len [] with
  | error e => rw [hg] at hp; cases hp
  | ok v =>
    rw [hg] at hp
    simp only at hp
    cases v with
    | int z =>
      simp only [asInt, Except.map] at hp
      injection hp with hp
      have hz : z > 0 := of_decide_eq_true hp
      unfold getAttr at hg
      rw [h.rlen] at hg
      simp only at hg
      obtain ⟨fm, h1, h2, _⟩ := h.flen
      unfold evalCond
      rw [hc]
      have hz' : z ≠ 0 := by omega
      simp [evalE, idxKey, bind, Except.bind, h2.look P (Desc.causalTab hd) h.rlen h1, hg,
        CVal.toVal, pyEq, pure, Except.pure, Except.map, bval, truthy, hz']
    | _ => simp only [asInt, Except.map] at hp; cases hp

/-- Assigning the overflow attribute. -/
def setOflS {F : Type} (d : Desc) (a : Area) (S : Store F) (z : Int) : Store F :=
  match resolve d.tab a.ofl with
  | none => S
  | some o => S.set o [] ⟨.val (.int z), none⟩

theorem AreaRows.setOfl_of (h : AreaRows d a m n) {S : Store P.F}
    (hc : ∀ o fo, resolve d.tab a.ofl = some o → d.tab[o]? = some fo →
      evalCond P (look P d.tab S) fo [] = .ok true) (z : Int) :
    setA P d S a.ofl (.int z) = .ok (setOflS d a S z) := by
  unfold setA setAttr setOflS
  cases hr : resolve d.tab a.ofl with
  | none => rfl
  | some o =>
    obtain ⟨fo, h1, h2, h3, _⟩ := h.fofl o hr
    simp only
    unfold setItem budget
    rw [h2.set_plain P h3 h1 (hc o fo hr h1) rfl]

theorem AreaRows.setOfl_pos (hd : d.causal = true) (h : AreaRows d a m n) {S : Store P.F}
    (hp : attrPos P d S a.len = .ok true) (z : Int) :
    setA P d S a.ofl (.int z) = .ok (setOflS d a S z) := by
  refine h.setOfl_of ?_ z
  intro o fo hr hf
  obtain ⟨fo', h1, _, _, h4⟩ := h.fofl o hr
  rw [hf] at h1; injection h1 with h1; subst h1
  exact h.cond_pos hd hp h4

theorem AreaRows.setOfl_ok (hd : d.causal = true) (h : AreaRows d a m n) {S R : Store P.F} {z : Int}
    (hs : setA P d S a.ofl (.int z) = .ok R) : R = setOflS d a S z ∧
      ∀ (S' : Store P.F) (z' : Int), S' m [] = S m [] →
        setA P d S' a.ofl (.int z') = .ok (setOflS d a S' z') := by
  cases hr : resolve d.tab a.ofl with
  | none =>
    unfold setA setAttr setOflS at *
    simp only [hr] at hs ⊢
    injection hs with hs
    exact ⟨hs.symm, fun _ _ _ => trivial⟩
  | some o =>
    obtain ⟨fo, h1, h2, h3, h4⟩ := h.fofl o hr
    have hc : evalCond P (look P d.tab S) fo [] = .ok true := by
      unfold setA setAttr at hs
      rw [hr] at hs
      simp only at hs
      unfold setItem budget setF setCheck at hs
      simp only [h1] at hs
      have hnn : fo.fd.name.isNone = false := by
        cases hh : fo.fd.name with
        | none => exact absurd hh h2.name
        | some _ => rfl
      simp only [h3, packKind, h2.check P, hnn] at hs
      cases hc : evalCond P (look P d.tab S) fo [] with
      | error e => simp [hc] at hs
      | ok b =>
        cases b with
        | true => rfl
        | false => simp [hc] at hs
    have g : ∀ {X : Store P.F}, X m [] = S m [] → ∀ o' fo', resolve d.tab a.ofl = some o' →
        d.tab[o']? = some fo' → evalCond P (look P d.tab X) fo' [] = .ok true := by
      intro X hX o' fo' hr' hf'
      rw [hr] at hr'; injection hr' with hr'; subst hr'
      rw [h1] at hf'; injection hf' with hf'; subst hf'
      rw [h.cond_cell hd hX h4]; exact hc
    refine ⟨?_, fun S' z' hS' => h.setOfl_of (g hS') z'⟩
    rw [h.setOfl_of (g rfl) z] at hs
    injection hs with hs
    exact hs.symm

theorem AreaRows.setData (h : AreaRows d a m n) (S : Store P.F) (b : Bytes) :
    setA P d S a.data (.bytes b) =
      .ok ((S.set n [] ⟨.val (.bytes b), none⟩).set m []
        ⟨.val (.int (if b.length = 0 then 0 else (b.length : Int) + 3)), none⟩) := by
  obtain ⟨fn, h1, h2, h3, h5, h6, h7, h8⟩ := h.fdata
  obtain ⟨fm, g1, g2, g3, _, g5⟩ := h.flen
  unfold setA setAttr
  rw [h.rdata]
  simp only
  rw [h2.set_data P g2 h1 g1 h3 g3 h8 h6 h.rlen h5 g5, h7]
  rfl

/-- One step of the storing loop, when it succeeds. -/
def areaStep {F : Type} (d : Desc) (a : Area) (m n : Nat) (h : Bytes) (pos : Bool) (S : Store F) :
    Store F :=
  let S1 := if pos then setOflS d a S 0 else S
  if h.length > 0 then (S1.set n [] ⟨.val (.bytes h), none⟩).set m []
    ⟨.val (.int ((h.length : Int) + 3)), none⟩ else S1

theorem storeAreas_cons (hd : d.causal = true) (hA : AreaRows d a m n) {as : List Area} {h : Bytes}
    {hs : List Bytes} {S : Store P.F} {pos : Bool} (hp : attrPos P d S a.len = .ok pos) :
    storeAreas P d (a :: as) (h :: hs) S = storeAreas P d as hs (areaStep d a m n h pos S) := by
  rw [storeAreas]
  rw [hp]
  simp only
  have h1 : (if pos = true then setA P d S a.ofl (.int 0) else .ok S) =
      .ok (if pos then setOflS d a S 0 else S) := by
    cases pos with
    | true => simp only [if_true]; exact hA.setOfl_pos hd hp 0
    | false => rfl
  rw [h1]
  simp only
  unfold areaStep
  by_cases hl : h.length > 0
  · simp only [hl, if_true]
    rw [hA.setData, if_neg (show ¬ (List.length h = 0) by omega)]
  · simp only [hl, if_false]

/-- The areas of a header, with the positions of lengths and data; no cell is used twice. -/
def areaCells (d : Desc) (a : Area) (mn : Nat × Nat) : List Nat :=
  mn.1 :: mn.2 :: (resolve d.tab a.ofl).toList

inductive AreasRows (d : Desc) : List Area → List (Nat × Nat) → Prop
  | nil : AreasRows d [] []
  | cons {a as m n ps} : AreaRows d a m n → (areaCells d a (m, n)).Nodup →
      (∀ b, ∀ mn, (b, mn) ∈ List.zip as ps → ∀ q ∈ areaCells d a (m, n), q ∉ areaCells d b mn) →
      AreasRows d as ps → AreasRows d (a :: as) ((m, n) :: ps)

theorem setOflS_frame {F : Type} (d : Desc) (a : Area) (S : Store F) (z : Int) {q : Nat} {k : Key}
    (h : ¬ (resolve d.tab a.ofl = some q ∧ k = [])) : setOflS d a S z q k = S q k := by
  unfold setOflS
  cases hr : resolve d.tab a.ofl with
  | none => rfl
  | some o =>
    simp only
    unfold Store.set
    rw [if_neg]
    rintro ⟨rfl, hk⟩
    exact h ⟨hr, hk⟩

theorem setOflS_at {F : Type} {d : Desc} {a : Area} {o : Nat} (h : resolve d.tab a.ofl = some o)
    (S : Store F) (z : Int) : setOflS d a S z o [] = some ⟨.val (.int z), none⟩ := by
  unfold setOflS
  rw [h]
  simp [Store.set]

theorem areaStep_frame {F : Type} (d : Desc) (a : Area) (m n : Nat) (h : Bytes) (pos : Bool)
    (S : Store F) {q : Nat} {k : Key} (hq : ¬ (q ∈ areaCells d a (m, n) ∧ k = [])) :
    areaStep d a m n h pos S q k = S q k := by
  have ho : (if pos then setOflS d a S 0 else S) q k = S q k := by
    cases pos with
    | false => rfl
    | true =>
      simp only [if_true]
      refine setOflS_frame d a S 0 ?_
      rintro ⟨hr, hk⟩
      exact hq ⟨by simp [areaCells, hr], hk⟩
  unfold areaStep
  split
  · unfold Store.set
    rw [if_neg, if_neg]
    · exact ho
    · rintro ⟨rfl, hk⟩
      exact hq ⟨by simp [areaCells], hk⟩
    · rintro ⟨rfl, hk⟩
      exact hq ⟨by simp [areaCells], hk⟩
  · exact ho

theorem areaStep_ofl {F : Type} {d : Desc} {a : Area} {m n : Nat} (hnd : (areaCells d a (m, n)).Nodup)
    {o : Nat} (hr : resolve d.tab a.ofl = some o) (h : Bytes) (pos : Bool) (S : Store F) :
    areaStep d a m n h pos S o [] =
      if pos then some ⟨.val (.int 0), none⟩ else S o [] := by
  have hne : o ≠ m ∧ o ≠ n := by
    simp only [areaCells, hr, Option.toList_some, List.nodup_cons, List.mem_cons, List.not_mem_nil,
      or_false, not_or] at hnd
    exact ⟨fun h => hnd.1.2 h.symm, fun h => hnd.2.1 h.symm⟩
  have ho : (if pos then setOflS d a S 0 else S) o [] =
      if pos then some ⟨.val (.int 0), none⟩ else S o [] := by
    cases pos with
    | false => rfl
    | true => simp only [if_true]; exact setOflS_at hr S 0
  unfold areaStep
  split
  · unfold Store.set
    rw [if_neg (fun h => hne.1 h.1), if_neg (fun h => hne.2 h.1)]
    exact ho
  · exact ho

/-- Cells of length and data after a step. -/
theorem areaStep_mn {F : Type} {d : Desc} {a : Area} {m n : Nat} (hnd : (areaCells d a (m, n)).Nodup)
    (h : Bytes) (pos : Bool) (S : Store F) :
    areaStep d a m n h pos S m [] =
      (if h.length > 0 then some ⟨.val (.int ((h.length : Int) + 3)), none⟩ else S m []) ∧
    areaStep d a m n h pos S n [] =
      (if h.length > 0 then some ⟨.val (.bytes h), none⟩ else S n []) := by
  have hmn : n ≠ m := by
    simp only [areaCells, List.nodup_cons, List.mem_cons, not_or] at hnd
    exact fun h => hnd.1.1 h.symm
  have hom : ∀ q, q = m ∨ q = n → resolve d.tab a.ofl ≠ some q := by
    intro q hq hr
    simp only [areaCells, hr, Option.toList_some, List.nodup_cons, List.mem_cons, List.not_mem_nil,
      or_false, not_or] at hnd
    rcases hq with rfl | rfl
    · exact hnd.1.2 rfl
    · exact hnd.2.1 rfl
  have ho : ∀ q, q = m ∨ q = n → (if pos then setOflS d a S 0 else S) q [] = S q [] := by
    intro q hq
    cases pos with
    | false => rfl
    | true => simp only [if_true]; exact setOflS_frame d a S 0 fun h => hom q hq h.1
  unfold areaStep
  split
  · refine ⟨by simp [Store.set], ?_⟩
    simp [Store.set, hmn]
  · exact ⟨ho m (Or.inl rfl), ho n (Or.inr rfl)⟩

/-- The overflow field of an area that is not in use holds 0. -/
def OflClear (P : PyFloat) (d : Desc) (areas : List Area) (S : Store P.F) : Prop :=
  ∀ a ∈ areas, attrPos P d S a.len ≠ .ok true → ∀ o fo, resolve d.tab a.ofl = some o →
    d.tab[o]? = some fo → stored S fo.fd o [] = .val (.int 0)

theorem areasRows_zip {d : Desc} {as : List Area} {ps : List (Nat × Nat)} (h : AreasRows d as ps) :
    ∀ a ∈ as, ∃ m n, (a, (m, n)) ∈ List.zip as ps ∧ AreaRows d a m n := by
  induction h with
  | nil => intro a ha; cases ha
  | cons h1 _ _ _ ih =>
    intro b hb
    rcases List.mem_cons.mp hb with rfl | hb
    · exact ⟨_, _, by simp, h1⟩
    · obtain ⟨m', n', h2, h3⟩ := ih b hb
      exact ⟨m', n', by simp [h2], h3⟩

/-- The storing loop run again, on a header with the lengths and data it left. -/
theorem storeAreas_again (hd : d.causal = true) {as : List Area} {ps : List (Nat × Nat)}
    (hA : AreasRows d as ps) : ∀ {hs : List Bytes} {S S1 X : Store P.F}, hs.length = as.length →
      OflClear P d as S → storeAreas P d as hs S = .ok S1 →
      (∀ a mn, (a, mn) ∈ List.zip as ps → X mn.1 [] = S1 mn.1 [] ∧ X mn.2 [] = S1 mn.2 []) →
      (∀ q k, (∀ a mn, (a, mn) ∈ List.zip as ps → ¬ (q ∈ areaCells d a mn ∧ k = [])) →
        S1 q k = S q k) ∧
      ∃ R, storeAreas P d as hs X = .ok R ∧ ∀ q k, R q k = X q k ∨
        (k = [] ∧ (∃ a ∈ as, resolve d.tab a.ofl = some q) ∧
          R q k = some ⟨.val (.int 0), none⟩ ∧
          ∀ fi, d.tab[q]? = some fi → stored S1 fi.fd q [] = .val (.int 0)) := by
  induction hA with
  | nil =>
    intro hs S S1 X _ _ h _
    unfold storeAreas at h ⊢
    injection h with h
    subst h
    exact ⟨fun _ _ _ => rfl, X, rfl, fun _ _ => Or.inl rfl⟩
  | @cons a as m n ps h1 hnd hdis hA ih =>
    intro hs S S1 X hl hcl h hX
    cases hs with
    | nil => simp at hl
    | cons b hs =>
      cases hp : attrPos P d S a.len with
      | error e =>
        unfold storeAreas at h
        rw [hp] at h
        cases h
      | ok pos =>
        rw [storeAreas_cons hd h1 hp] at h
        have hframe : ∀ b' mn, (b', mn) ∈ List.zip as ps → ∀ q ∈ areaCells d b' mn,
            areaStep d a m n b pos S q [] = S q [] := by
          intro b' mn hb q hq
          refine areaStep_frame d a m n b pos S ?_
          rintro ⟨hq', _⟩
          exact hdis b' mn hb q hq' hq
        have hcl' : OflClear P d as (areaStep d a m n b pos S) := by
          intro a' ha' hp' o fo hr hf
          obtain ⟨m', n', hz, hrow⟩ := areasRows_zip hA a' ha'
          have e1 := hframe a' (m', n') hz m' (by simp [areaCells])
          have e2 := hframe a' (m', n') hz o (by simp [areaCells, hr])
          rw [hrow.pos_cell e1] at hp'
          have := hcl a' (by simp [ha']) hp' o fo hr hf
          unfold stored at this ⊢
          rw [e2]
          exact this
        -- what the first run leaves in the cells of the first area
        have hlater : ∀ q ∈ areaCells d a (m, n), S1 q [] = areaStep d a m n b pos S q [] := by
          intro q hq
          refine (ih (X := S1) (by simpa using hl) hcl' h fun _ _ _ => ⟨rfl, rfl⟩).1 q [] ?_
          rintro b' mn hb ⟨hq', _⟩
          exact hdis b' mn hb q hq hq'
        obtain ⟨mm, nn⟩ := areaStep_mn hnd b pos S
        obtain ⟨x1, x2⟩ := hX a (m, n) (by simp)
        rw [hlater m (by simp [areaCells]), mm] at x1
        rw [hlater n (by simp [areaCells]), nn] at x2
        obtain ⟨pos', hp', hpp⟩ : ∃ pos', attrPos P d X a.len = .ok pos' ∧
            (pos' = true → pos = true ∨ b.length > 0) := by
          by_cases hb : b.length > 0
          · rw [if_pos hb] at x1
            exact ⟨_, h1.pos_stored x1, fun _ => Or.inr hb⟩
          · rw [if_neg hb] at x1
            exact ⟨pos, by rw [h1.pos_cell x1]; exact hp, fun h => Or.inl h⟩
        have hstep : ∀ q k, areaStep d a m n b pos' X q k = X q k ∨
            (k = [] ∧ resolve d.tab a.ofl = some q ∧ pos' = true ∧
              areaStep d a m n b pos' X q k = some ⟨.val (.int 0), none⟩) := by
          intro q k
          by_cases hk : k = []
          · subst hk
            by_cases hqm : q = m
            · subst hqm
              left
              rw [(areaStep_mn hnd b pos' X).1, x1]
              split <;> rfl
            · by_cases hqn : q = n
              · subst hqn
                left
                rw [(areaStep_mn hnd b pos' X).2, x2]
                split <;> rfl
              · by_cases hqo : resolve d.tab a.ofl = some q
                · rw [areaStep_ofl hnd hqo]
                  cases pos' with
                  | true => right; exact ⟨rfl, hqo, rfl, rfl⟩
                  | false => left; rfl
                · left
                  refine areaStep_frame d a m n b pos' X ?_
                  rintro ⟨hq, _⟩
                  simp only [areaCells, List.mem_cons, Option.mem_toList] at hq
                  rcases hq with hq | hq | hq
                  · exact hqm hq
                  · exact hqn hq
                  · exact hqo hq
          · left
            exact areaStep_frame d a m n b pos' X fun h => hk h.2
        have hX' : ∀ a' mn, (a', mn) ∈ List.zip as ps →
            areaStep d a m n b pos' X mn.1 [] = S1 mn.1 [] ∧
            areaStep d a m n b pos' X mn.2 [] = S1 mn.2 [] := by
          intro a' mn hz
          obtain ⟨y1, y2⟩ := hX a' mn (by simp [hz])
          rw [areaStep_frame d a m n b pos' X fun h => hdis a' mn hz _ h.1 (by simp [areaCells]),
            areaStep_frame d a m n b pos' X fun h => hdis a' mn hz _ h.1 (by simp [areaCells])]
          exact ⟨y1, y2⟩
        obtain ⟨i1, R, i2, i3⟩ := ih (by simpa using hl) hcl' h hX'
        refine ⟨?_, R, by rw [storeAreas_cons hd h1 hp']; exact i2, ?_⟩
        · intro q k hq
          rw [i1 q k fun a' mn hz => hq a' mn (by simp [hz]),
            areaStep_frame d a m n b pos S (hq a (m, n) (by simp))]
        · intro q k
          rcases i3 q k with e | ⟨hk, ⟨a', ha', hr'⟩, e, hst⟩
          · rw [e]
            rcases hstep q k with e' | ⟨hk, hr, hpt, e'⟩
            · left; exact e'
            · right
              refine ⟨hk, ⟨a, by simp, hr⟩, e', ?_⟩
              intro fi hfi
              have hS1 := hlater q (by simp [areaCells, hr])
              rw [areaStep_ofl hnd hr] at hS1
              unfold stored
              cases pos with
              | true => rw [hS1]; rfl
              | false =>
                simp only [Bool.false_eq_true, if_false] at hS1
                rw [hS1]
                exact hcl a (by simp) (by rw [hp]; simp) q fi hr hfi
          · right
            exact ⟨hk, ⟨a', by simp [ha'], hr'⟩, e, hst⟩

/-- `prepare_tre_write` run again, on a header with what it left in the areas. -/
theorem prepareTreWrite_again (hd : d.causal = true) {as : List Area} {ps : List (Nat × Nat)}
    (hA : AreasRows d as ps) (hl : as.length = ps.length) {ndes : Nat} {tres : List (Tre P.F)}
    {S S' X : Store P.F} {o : Option Bytes} (hcl : OflClear P d as S)
    (h : prepareTreWrite P d as ndes tres S = .ok (S', o))
    (hX : ∀ a mn, (a, mn) ∈ List.zip as ps → ∀ q ∈ areaCells d a mn, X q [] = S' q []) :
    ∃ R, prepareTreWrite P d as ndes tres X = .ok (R, o) ∧ SameVal P d.tab R X := by
  unfold prepareTreWrite at h ⊢
  generalize treWriteAll P tres = w at h
  cases w with
  | error e => cases h
  | ok ser =>
    have hlen : (place ser (as.map fun _ => []) []).1.length = as.length := by
      obtain ⟨_, _, _, h, _⟩ := place_spec ser (as.map fun _ => []) []
      simpa using h
    simp only at h ⊢
    generalize place ser (as.map fun _ => []) [] = pl at h hlen
    obtain ⟨heads, ov⟩ := pl
    simp only at h hlen ⊢
    cases h1 : storeAreas P d as heads S with
    | error e => rw [h1] at h; cases h
    | ok S1 =>
      rw [h1] at h
      simp only at h
      by_cases hov : ov.length > 0
      · rw [if_pos hov] at h
        cases hA with
        | nil => cases h
        | @cons a as m n ps ha hnd hdis hA =>
          simp only at h
          cases h2 : setA P d S1 a.ofl (.int (ndes + 1)) with
          | error e => rw [h2] at h; cases h
          | ok S2 =>
            rw [h2] at h
            simp only at h
            injection h with h
            injection h with he ho
            subst he ho
            obtain ⟨e2, hgo⟩ := ha.setOfl_ok hd h2
            subst e2
            -- length and data cells are as the loop left them
            have hmn : ∀ a' mn, (a', mn) ∈ List.zip (a :: as) ((m, n) :: ps) →
                ∀ q ∈ areaCells d a' mn, resolve d.tab a.ofl ≠ some q → X q [] = S1 q [] := by
              intro a' mn hz q hq hne
              rw [hX a' mn hz q hq]
              exact setOflS_frame d a S1 _ fun h => hne h.1
            have hne : ∀ a' mn, (a', mn) ∈ List.zip (a :: as) ((m, n) :: ps) →
                resolve d.tab a.ofl ≠ some mn.1 ∧ resolve d.tab a.ofl ≠ some mn.2 := by
              intro a' mn hz
              rw [List.zip_cons_cons] at hz
              rcases List.mem_cons.mp hz with hz | hz
              · injection hz with hz1 hz2
                subst hz1 hz2
                constructor <;> intro hr <;>
                  simp [areaCells, hr] at hnd
              · constructor <;> intro hr <;>
                  exact hdis a' mn hz _ (show _ ∈ areaCells d a (m, n) from by
                    simp only [areaCells, hr, Option.toList_some, List.mem_cons]
                    exact Or.inr (Or.inr (Or.inl rfl))) (by simp [areaCells])
            obtain ⟨_, R, r1, r2⟩ := storeAreas_again hd (.cons ha hnd hdis hA) hlen hcl h1
              (X := X) (fun a' mn hz => ⟨hmn a' mn hz _ (by simp [areaCells]) (hne a' mn hz).1,
                hmn a' mn hz _ (by simp [areaCells]) (hne a' mn hz).2⟩)
            have hRm : R m [] = S1 m [] := by
              have hm := hmn a (m, n) (by simp) m (by simp [areaCells]) (hne a (m, n) (by simp)).1
              rcases r2 m [] with e | ⟨_, ⟨a', ha', hr'⟩, _, _⟩
              · rw [e, hm]
              · exfalso
                rcases List.mem_cons.mp ha' with rfl | ha'
                · exact (hne a' (m, n) (by simp)).1 hr'
                · obtain ⟨m', n', hz, _⟩ := areasRows_zip hA a' ha'
                  exact hdis a' (m', n') hz m (by simp [areaCells]) (by simp [areaCells, hr'])
            rw [r1]
            simp only [hov, if_true, hgo R (ndes + 1) hRm]
            refine ⟨_, rfl, ?_⟩
            intro q fi hfi k
            by_cases hq : resolve d.tab a.ofl = some q ∧ k = []
            · obtain ⟨hr, rfl⟩ := hq
              have e1 := setOflS_at hr R ((ndes : Int) + 1)
              have e2 := hX a (m, n) (by simp) q (by simp [areaCells, hr])
              rw [setOflS_at hr] at e2
              unfold stored
              rw [e1, e2]
            · have e1 := setOflS_frame d a R ((ndes : Int) + 1) hq
              unfold stored
              rw [e1]
              rcases r2 q k with e | ⟨hk, ⟨a', ha', hr'⟩, e, hst⟩
              · rw [e]
              · subst hk
                have hqne : resolve d.tab a.ofl ≠ some q := fun h => hq ⟨h, rfl⟩
                obtain ⟨m', n', hz, _⟩ := areasRows_zip (.cons ha hnd hdis hA) a' ha'
                have e2 := hmn a' (m', n') hz q (by simp [areaCells, hr']) hqne
                have := hst fi hfi
                unfold stored at this
                rw [e, e2]
                exact this.symm
      · rw [if_neg hov] at h
        injection h with h
        injection h with he ho
        subst he ho
        obtain ⟨_, R, r1, r2⟩ := storeAreas_again hd hA hlen hcl h1
          (X := X) (fun a' mn hz => ⟨hX a' mn hz _ (by simp [areaCells]),
            hX a' mn hz _ (by simp [areaCells])⟩)
        rw [r1]
        simp only [hov, if_false]
        refine ⟨_, rfl, ?_⟩
        intro q fi hfi k
        unfold stored
        rcases r2 q k with e | ⟨hk, ⟨a', ha', hr'⟩, e, hst⟩
        · rw [e]
        · subst hk
          obtain ⟨m', n', hz, _⟩ := areasRows_zip hA a' ha'
          have e2 := hX a' (m', n') hz q (by simp [areaCells, hr'])
          have := hst fi hfi
          unfold stored at this
          rw [e, e2]
          exact this.symm

/-! ### The shipped headers -/

/-- Positions of length and data. -/
def areaMN (d : Desc) (a : Area) : Nat × Nat :=
  ((resolve d.tab a.len).getD 0, (resolve d.tab a.data).getD 0)

def areasRowsB (d : Desc) : List Area → Bool
  | [] => true
  | a :: as => areaRowsB d a (areaMN d a).1 (areaMN d a).2 &&
      decide (areaCells d a (areaMN d a)).Nodup &&
      as.all (fun b => (areaCells d a (areaMN d a)).all fun q =>
        decide (q ∉ areaCells d b (areaMN d b))) && areasRowsB d as

theorem areasRows_of {d : Desc} : ∀ {as : List Area}, areasRowsB d as = true →
    AreasRows d as (as.map (areaMN d))
  | [], _ => .nil
  | a :: as, h => by
    simp only [areasRowsB, Bool.and_eq_true, decide_eq_true_eq, List.all_eq_true] at h
    obtain ⟨⟨⟨h1, h2⟩, h3⟩, h4⟩ := h
    refine .cons (areaRows_of h1) h2 ?_ (areasRows_of h4)
    intro b mn hz q hq
    have : mn = areaMN d b ∧ b ∈ as := by
      clear h1 h2 h3 h4
      induction as with
      | nil => simp at hz
      | cons c as ih =>
        simp only [List.map_cons, List.zip_cons_cons, List.mem_cons, Prod.mk.injEq] at hz
        rcases hz with ⟨rfl, rfl⟩ | hz
        · exact ⟨rfl, by simp⟩
        · obtain ⟨e1, e2⟩ := ih hz
          exact ⟨e1, by simp [e2]⟩
    rw [this.1]
    exact h3 b this.2 q hq

theorem fileAreas_rows : AreasRows Tables.t_file_header fileAreas
    (fileAreas.map (areaMN Tables.t_file_header)) := areasRows_of (by decide +kernel)

theorem segAreas_rows {k : SegKind} {areas : List Area} (h : k.areas = some areas) :
    AreasRows k.desc areas (areas.map (areaMN k.desc)) := by
  cases k with
  | des => cases h
  | res => cases h
  | _ => injection h with h; subst h; exact areasRows_of (by decide +kernel)

/-! ### Headers and segments again -/

variable (E : Env) (IO : DataIO P.F)

theorem prepareHeader_again (hd : d.causal = true) {areas : List Area} {ps : List (Nat × Nat)}
    (hA : AreasRows d areas ps) (hl : areas.length = ps.length) {pre : Name} {ofl : Str} {i : Nat}
    {tres : List (Tre P.F)} {S S' X : Store P.F} {des rdes des' : List (Seg P.F IO.D)}
    (hcl : OflClear P d areas S)
    (h : prepareHeader P IO d areas pre ofl i tres S des = .ok (S', rdes))
    (hX : ∀ a mn, (a, mn) ∈ List.zip areas ps → ∀ q ∈ areaCells d a mn, X q [] = S' q [])
    (hsec : getSecurity P d X pre = getSecurity P d S' pre) (hdes : des'.length = des.length) :
    ∃ R ov, rdes = des ++ ov ∧
      prepareHeader P IO d areas pre ofl i tres X des' = .ok (R, des' ++ ov) ∧
      SameVal P d.tab R X := by
  unfold prepareHeader at h ⊢
  rw [hdes]
  cases h1 : prepareTreWrite P d areas des.length tres S with
  | error e => rw [h1] at h; cases h
  | ok r =>
    obtain ⟨S1, o⟩ := r
    rw [h1] at h
    cases o with
    | none =>
      simp only at h
      injection h with h
      injection h with e1 e2
      subst e1 e2
      obtain ⟨R, r1, r2⟩ := prepareTreWrite_again hd hA hl hcl h1 hX
      rw [r1]
      exact ⟨R, [], by simp, by simp, r2⟩
    | some b =>
      simp only at h
      cases h3 : getSecurity P d S1 pre with
      | error e => rw [h3] at h; cases h
      | ok sec =>
        rw [h3] at h
        simp only at h
        cases h4 : overflowSeg P IO ofl i sec b with
        | error e => rw [h4] at h; cases h
        | ok s =>
          rw [h4] at h
          simp only at h
          injection h with h
          injection h with e1 e2
          subst e1 e2
          obtain ⟨R, r1, r2⟩ := prepareTreWrite_again hd hA hl hcl h1 hX
          rw [r1]
          simp only
          rw [getSecurity_same P r2, hsec, h3]
          simp only
          rw [h4]
          exact ⟨R, [s], rfl, rfl, r2⟩

theorem prepareSegs_again {k : SegKind} {areas : List Area} (hk : k.areas = some areas) :
    ∀ {ss ss' des rdes des' : List (Seg P.F IO.D)} {i : Nat},
      (∀ s ∈ ss, OflClear P k.desc areas s.sub) →
      prepareSegs P IO k i ss des = .ok (ss', rdes) → des'.length = des.length →
      ∃ rs ov, rdes = des ++ ov ∧ prepareSegs P IO k i ss' des' = .ok (rs, des' ++ ov) ∧
        Each (SegEqv P IO k) rs ss' := by
  intro ss
  induction ss with
  | nil =>
    intro ss' des rdes des' i _ h _
    unfold prepareSegs at h
    injection h with h
    injection h with e1 e2
    subst e1 e2
    exact ⟨[], [], by simp, by unfold prepareSegs; simp, .nil⟩
  | cons s ss ih =>
    intro ss' des rdes des' i hcl h hdes
    unfold prepareSegs at h
    simp only [hk] at h
    cases h1 : prepareHeader P IO k.desc areas k.secPrefix k.oflName i s.tres s.sub des with
    | error e => rw [h1] at h; cases h
    | ok r =>
      obtain ⟨S1, des1⟩ := r
      rw [h1] at h
      simp only at h
      cases h2 : prepareSegs P IO k (i + 1) ss des1 with
      | error e => rw [h2] at h; cases h
      | ok r =>
        obtain ⟨ss1, des2⟩ := r
        rw [h2] at h
        simp only at h
        injection h with h
        injection h with e1 e2
        subst e1 e2
        obtain ⟨R, ov, o1, o2, o3⟩ := prepareHeader_again IO (subheader_causal k) (segAreas_rows hk)
          (by simp) (hcl s (by simp)) h1 (X := S1) (fun _ _ _ _ _ => rfl) rfl hdes
        obtain ⟨rs, ov', p1, p2, p3⟩ := ih (des' := des' ++ ov) (fun s hs => hcl s (by simp [hs])) h2
          (by rw [o1]; simp [hdes])
        refine ⟨{ s with sub := R } :: rs, ov ++ ov', by rw [p1, o1]; simp, ?_,
          .cons ⟨rfl, rfl, rfl, rfl, o3⟩ p3⟩
        unfold prepareSegs
        simp only [hk, o2, p2, List.append_assoc]

theorem store_set_self {F : Type} {S : Store F} {n : Nat} {key : Key} {c : Cell F}
    (h : S n key = some c) : S.set n key c = S := by
  funext q k
  unfold Store.set
  by_cases hc : q = n ∧ k = key
  · rw [if_pos hc, hc.1, hc.2, h]
  · rw [if_neg hc]

/-- A segment that was written is written the same way again. -/
theorem segBytes_again {k : SegKind} {s : Seg P.F IO.D} {x : Seg P.F IO.D × Bytes × Bytes}
    (h : segBytes P E IO k s = .ok x) : segBytes P E IO k x.1 = .ok x := by
  obtain ⟨sub, h1, h2, h3, h4, h5⟩ := segBytes_ok P E IO h
  obtain ⟨r, sb, db⟩ := x
  simp only at h2 h3 h4 ⊢
  by_cases hk : k = .des
  · subst hk
    obtain ⟨b, b1, b2⟩ := writeUser_des P h1
    have hsub : writeUser P .des s.user sub = .ok sub := by
      have hu : writeUser P .des s.user sub = .ok ((sub.set 22 [] ⟨.val (.bytes b), none⟩).set 21 []
          ⟨.val (.int (b.length : Nat)), none⟩) := by
        unfold writeUser
        unfold writeUser at h1
        unfold userBytes at b1
        cases hu : s.user with
        | none =>
          rw [hu] at b1
          simp only at b1 ⊢
          injection b1 with b1
          subst b1
          rw [setUser_none P, setUser_des P []]
        | some x =>
          rw [hu] at b1
          simp only at b1 ⊢
          rw [b1]
          exact setUser_des P b
      rw [hu, store_set_self (S := sub) (n := 22), store_set_self]
      · rw [b2]; simp [Store.set]
      · rw [b2]; simp [Store.set]
    have hc : checkUser P E IO .des r = .ok () := by
      unfold checkUser at h5 ⊢
      rw [h2]
      simp only
      have : userCls P E .des sub = userCls P E .des s.sub := by
        unfold userCls
        simp only [SegKind.desc]
        rw [desid_cell P (S := s.sub) (S' := sub) (by rw [b2]; simp [Store.set])]
      rw [this]
      exact h5
    unfold segBytes
    rw [hc]
    simp only
    subst h2
    simp only [hsub, h3, h4]
  · have := writeUser_other P hk h1
    subst this
    have : r = s := h2
    subst this
    exact h

/-! ### Header updates that change nothing -/

/-- The header has this number in this cell. -/
def HeaderInt (F : Store P.F) (n : Nat) (key : Key) (v : Int) : Prop :=
  ∀ fi, Tables.t_file_header.tab[n]? = some fi → stored F fi.fd n key = .val (.int v)

theorem HeaderInt.of {F : Store P.F} {n : Nat} {key : Key} {v : Int} {raw : Option Bytes}
    (h : F n key = some ⟨.val (.int v), raw⟩) : HeaderInt F n key v := by
  intro fi _
  unfold stored
  rw [h]

theorem updateHeader_again {cs : List Chunk} {nm : Name} {n : Nat} {fi : FInfo} {key : Key} {v : Nat}
    (hr : resolve Tables.t_file_header.tab nm = some n)
    (hn : Tables.t_file_header.tab[n]? = some fi) (hp : plainInt fi = true)
    (hu : Tables.t_file_header.unreferenced n = true) {H F : Store P.F} {out post : Bytes}
    (hs : SameVal P Tables.t_file_header.tab H F)
    (hw : writeChunks P Tables.t_file_header F = .ok cs) (hloc : ∃ o, locOf n key 0 cs = some o)
    (hv : HeaderInt F n key v) (hout : out = chunkBytes cs ++ post) :
    ∃ H', updateHeader P cs nm key v (H, out) = .ok (H', out) ∧
      SameVal P Tables.t_file_header.tab H' F := by
  obtain ⟨p1, p2, p3, p4, p5, p6⟩ := plainInt_spec hp
  obtain ⟨o, ho⟩ := hloc
  obtain ⟨ch, c1, c2, c3⟩ := locOf_some ho
  obtain ⟨_, fi', f1, f2, f3⟩ := writeChunks_from P t_file_header_causal hw c1
  rw [c2] at f1 f3
  rw [c3] at f2 f3
  rw [hn] at f1; injection f1 with f1; subst f1
  have hst : stored F fi.fd n key = .val (.int v) := hv fi hn
  have hci : checkIndex P (look P Tables.t_file_header.tab F) fi key = .ok () := by
    unfold fieldBytes at f3
    split at f3
    · cases f3
    · rw [hst] at f3
      simp only at f3
      unfold lowGet at f3
      cases hnm : fi.fd.name with
      | none => exact absurd hnm p1
      | some nm' =>
        rw [hnm] at f3
        simp only [bind, Except.bind] at f3
        cases hc : checkIndex P (look P Tables.t_file_header.tab F) fi key with
        | error e => rw [hc] at f3; cases f3
        | ok _ => rfl
  have hnn : fi.fd.name.isNone = false := by
    cases hh : fi.fd.name with
    | none => exact absurd hh p1
    | some _ => rfl
  have hset : setItem P Tables.t_file_header.tab H n key (.int v) =
      (H.set n key ⟨.val (.int v), none⟩, none) := by
    unfold setItem budget setF setCheck
    simp only [hn, p4, packKind, hnn, look_same P hs, hci, f2, p3, p2]
    simp [Val.isNone, p4]
  have hs' : SameVal P Tables.t_file_header.tab (H.set n key ⟨.val (.int v), none⟩) F := by
    exact (hs.set n key _).trans (SameVal.set_self hv)
  have hb : fieldBytes P (look P Tables.t_file_header.tab (H.set n key ⟨.val (.int v), none⟩))
      (H.set n key ⟨.val (.int v), none⟩) fi n key = .ok ch.bytes := by
    rw [look_same P hs', fieldBytes_same P (hs' n fi hn key)]
    exact f3
  have hok : ∃ out', updateHeader P cs nm key v (H, out) =
      .ok (H.set n key ⟨.val (.int v), none⟩, out') := by
    unfold updateHeader updateField
    simp only [hr, hset, hn, look_same P hs', f2, ho, fieldBytes_same P (hs' n fi hn key), f3]
    exact ⟨_, rfl⟩
  obtain ⟨out', hok⟩ := hok
  have hI : HdrInv P cs H out post := ⟨cs, by rw [writeChunks_same P hs]; exact hw, rfl, hout⟩
  obtain ⟨_, hI'⟩ := updateHeader_ok P hr hn p4 hu hI hok
  obtain ⟨cs', i1, _, i3⟩ := hI'.written
  rw [writeChunks_same P hs', hw] at i1
  injection i1 with i1
  rw [← i1, ← hout] at i3
  rw [i3] at hok
  exact ⟨_, hok, hs'⟩

theorem writeSegs_again {cs : List Chunk} {k : SegKind} {F : Store P.F}
    (hw : writeChunks P Tables.t_file_header F = .ok cs) :
    ∀ {xs : List (Seg P.F IO.D × Bytes × Bytes)} {ss : List (Seg P.F IO.D)} {i : Nat} {H : Store P.F}
      {out post : Bytes},
      Each (fun s x => s.linked = x.1.linked ∧ ∃ y, segBytes P E IO k s = .ok (y, x.2.1, x.2.2) ∧
        SegEqv P IO k x.1 y) ss xs →
      SameVal P Tables.t_file_header.tab H F → out = chunkBytes cs ++ post →
      (∀ (j : Nat) x, xs[j]? = some x → x.1.linked = true →
        ((∃ o, locOf (lenPos k) [((i + j : Nat) : Int)] 0 cs = some o) ∧
          ∃ o, locOf (dataPos k) [((i + j : Nat) : Int)] 0 cs = some o) ∧
        HeaderInt F (lenPos k) [((i + j : Nat) : Int)] (x.2.1.length : Nat) ∧
        HeaderInt F (dataPos k) [((i + j : Nat) : Int)] (x.2.2.length : Nat)) →
      ∃ ss' H', writeSegs P E IO cs k i ss (H, out) =
          .ok (ss', H', out ++ xs.flatMap fun x => x.2.1 ++ x.2.2) ∧
        SameVal P Tables.t_file_header.tab H' F ∧ Each (SegEqv P IO k) (xs.map (·.1)) ss' := by
  intro xs
  induction xs with
  | nil =>
    intro ss i H out post hE hs _ _
    cases hE
    exact ⟨[], H, by unfold writeSegs; simp, hs, .nil⟩
  | cons x xs ih =>
    intro ss i H out post hE hs hout hL
    cases hE with
    | @cons s ss _ _ h1 h2 =>
      obtain ⟨hlk, y, hy, hsame⟩ := h1
      have hout1 : out ++ (x.2.1 ++ x.2.2) = chunkBytes cs ++ (post ++ (x.2.1 ++ x.2.2)) := by
        rw [hout, List.append_assoc]
      have hul : ∃ H1, updateLengths P cs k i s.linked x.2.1.length x.2.2.length
          (H, out ++ (x.2.1 ++ x.2.2)) = .ok (H1, out ++ (x.2.1 ++ x.2.2)) ∧
          SameVal P Tables.t_file_header.tab H1 F := by
        unfold updateLengths
        by_cases hl : s.linked = true
        · obtain ⟨⟨l1, l2⟩, v1, v2⟩ := hL 0 x (by simp) (by rw [← hlk]; exact hl)
          rw [Nat.add_zero] at l1 l2 v1 v2
          obtain ⟨f1, a1, a2, _⟩ := (lenField k).at_
          obtain ⟨f2, b1, b2, _⟩ := (dataField k).at_
          obtain ⟨H1, u1, u2⟩ := updateHeader_again (lenField k).res a1 a2 (lenField k).unref hs hw
            l1 v1 hout1
          obtain ⟨H2, w1, w2⟩ := updateHeader_again (dataField k).res b1 b2 (dataField k).unref u2
            hw l2 v2 hout1
          refine ⟨H2, ?_, w2⟩
          simp only [hl, if_true, u1, w1]
        · exact ⟨H, by simp only [hl]; rfl, hs⟩
      obtain ⟨H1, u1, u2⟩ := hul
      obtain ⟨ss', H', w1, w2, w3⟩ := ih (i := i + 1) h2 u2 hout1 (by
        intro j z hz hl
        have := hL (j + 1) z (by simpa using hz) hl
        rwa [show i + 1 + j = i + (j + 1) by omega])
      refine ⟨y :: ss', H', ?_, w2, .cons hsame w3⟩
      unfold writeSegs
      simp only [hy, u1, w1, List.flatMap_cons, List.append_assoc]

theorem SegEqv.symm {k : SegKind} {s s' : Seg P.F IO.D} (h : SegEqv P IO k s s') :
    SegEqv P IO k s' s :=
  ⟨h.linked.symm, h.user.symm, h.tres.symm, h.data.symm, h.sub.symm⟩

/-- The five counts can always be set. -/
theorem nums_again {ni ng nt nd nr : Nat} {S F : Store P.F} (hs : SameVal P Tables.t_file_header.tab S F)
    (h : HeaderInt F 31 [] ni ∧ HeaderInt F 34 [] ng ∧ HeaderInt F 38 [] nt ∧ HeaderInt F 41 [] nd ∧
      HeaderInt F 44 [] nr) :
    ∃ R, setAll P Tables.t_file_header
      [(n!"numi", .int ni), (n!"nums", .int ng), (n!"numt", .int nt), (n!"numdes", .int nd),
       (n!"numres", .int nr)] S = .ok R ∧ SameVal P Tables.t_file_header.tab R F := by
  have step : ∀ (k : SegKind) (l : List (Name × Val P.F)) (S : Store P.F) (z : Int),
      SameVal P Tables.t_file_header.tab S F → HeaderInt F (numPos k) [] z →
      (∀ S', SameVal P Tables.t_file_header.tab S' F → ∃ R, setAll P Tables.t_file_header l S' = .ok R ∧
        SameVal P Tables.t_file_header.tab R F) →
      ∃ R, setAll P Tables.t_file_header ((k.numField, .int z) :: l) S = .ok R ∧
        SameVal P Tables.t_file_header.tab R F := by
    intro k l S z hS hz hl
    obtain ⟨fi, h1, h2, h3⟩ := (numField k).at_
    obtain ⟨p1, p2, p3, p4, p5, p6⟩ := plainInt_spec h2
    have hsc : Scalar fi := ⟨p1, h3, p2, p3⟩
    have hset : setA P Tables.t_file_header S k.numField (.int z) =
        .ok (S.set (numPos k) [] ⟨.val (.int z), none⟩) := by
      unfold setA setAttr
      rw [(numField k).res]
      simp only
      unfold setItem budget
      rw [hsc.set_plain P p4 h1 (evalCond_none P p6 _ _) rfl]
    unfold setAll
    rw [hset]
    exact hl _ ((hS.set _ _ _).trans (SameVal.set_self hz))
  obtain ⟨a1, a2, a3, a4, a5⟩ := h
  refine step .image _ S _ hs a1 fun S hs => ?_
  refine step .graphic _ S _ hs a2 fun S hs => ?_
  refine step .text _ S _ hs a3 fun S hs => ?_
  refine step .des _ S _ hs a4 fun S hs => ?_
  refine step .res _ S _ hs a5 fun S hs => ?_
  exact ⟨S, rfl, hs⟩

/-! ### The whole file -/

/-- The overflow fields of unused TRE areas are 0, in the file header and all subheaders. -/
structure AreasClear (f : NFile P.F IO.D) : Prop where
  header : OflClear P Tables.t_file_header fileAreas f.header
  segs : ∀ k areas, k.areas = some areas → ∀ s ∈ f.segs k, OflClear P k.desc areas s.sub

theorem writeFile_again {f f' : NFile P.F IO.D} {out : Bytes}
    (h : writeFile P E IO f = .ok (f', out)) (hf : AreasClear IO f) :
    ∃ f'', writeFile P E IO f' = .ok (f'', out) ∧ FileEqv P IO f' f'' := by
  obtain ⟨r⟩ := writeFile_run P E IO h
  obtain ⟨ov, ra, rb, d1, d2, d3, d4, d5, d6, d7⟩ := r.des_split P E IO
  -- the DES list
  have hdrop : dropOverflow P IO f'.des = .ok f'.des := by
    have := dropOverflow_all P IO (a := f'.des) (b := []) (dropOverflow_ok P IO r.drop1).2 (by simp)
    rwa [List.append_nil] at this
  have hdl : f'.des.length = r.des0.length := by rw [d6, List.length_map, d3.length]
  -- cells of the header that are not touched after its TREs are stored
  have hcell : ∀ q, q ∉ [flPos, hlPos, 31, 34, 38, 41, 44] → f'.header q [] = r.h0 q [] := by
    intro q hq
    simp only [List.mem_cons, List.not_mem_nil, or_false, not_or] at hq
    rw [r.others q [] hq.1 hq.2.1 fun k => Or.inr (by simp), nums_ok P r.nums]
    simp [Store.set, hq.2.2]
  have hareas : ∀ a mn, (a, mn) ∈ List.zip fileAreas (fileAreas.map (areaMN Tables.t_file_header)) →
      ∀ q ∈ areaCells Tables.t_file_header a mn, f'.header q [] = r.h0 q [] := by
    intro a mn hz q hq
    refine hcell q ?_
    have : (List.zip fileAreas (fileAreas.map (areaMN Tables.t_file_header))).all (fun x =>
        (areaCells Tables.t_file_header x.1 x.2).all fun q =>
          decide (q ∉ [flPos, hlPos, 31, 34, 38, 41, 44])) = true := by decide +kernel
    exact of_decide_eq_true (List.all_eq_true.mp (List.all_eq_true.mp this (a, mn) hz) q hq)
  have hsec : getSecurity P Tables.t_file_header f'.header (n!"fs") =
      getSecurity P Tables.t_file_header r.h0 (n!"fs") := by
    refine getSecLoop_same P _ _ ?_
    intro x hx n hn
    obtain ⟨fi, hfi, hF⟩ := secOkB_field (secHeaders_ok _ (by simp [secHeaders] : (Tables.t_file_header, n!"fs") ∈ secHeaders)) (a := x.2) hx hn
    rw [hF.get P hfi, hF.get P hfi]
    unfold stored
    rw [hcell n]
    have : (secNames (n!"fs")).all (fun x => match resolve Tables.t_file_header.tab x.1 with
        | none => true
        | some q => decide (q ∉ [flPos, hlPos, 31, 34, 38, 41, 44])) = true := by decide +kernel
    have := List.all_eq_true.mp this x hx
    rw [hn] at this
    exact of_decide_eq_true this
  obtain ⟨H0, ov1, o1, a1, a2⟩ := prepareHeader_again IO t_file_header_causal fileAreas_rows
    (by simp) hf.header r.prepH hareas hsec hdl
  -- the segments
  have hafter : ∀ k, k ≠ .des → f'.segs k = r.segs1 k := by
    intro k hk
    rw [r.after k hk]
    have hE := r.each k
    generalize r.segs1 k = l at hE
    generalize r.res k = l' at hE
    induction hE with
    | nil => rfl
    | cons h1 _ ih =>
      obtain ⟨sub, e1, e2, _⟩ := segBytes_ok P E IO h1
      rw [List.map_cons, ih, e2, writeUser_other P hk e1]
  have hi : f'.image = r.segs1 .image := hafter .image (by decide)
  have hg : f'.graphic = r.segs1 .graphic := hafter .graphic (by decide)
  have ht : f'.text = r.segs1 .text := hafter .text (by decide)
  have hrs : f'.res = f.res := (hafter .res (by decide)).trans r.segsR
  obtain ⟨im, ov2, o2, b1, b2⟩ := prepareSegs_again IO (k := .image) rfl
    (hf.segs .image _ rfl) r.prepI (des' := f'.des ++ ov1) (by rw [o1]; simp [hdl])
  obtain ⟨gr, ov3, o3, c1, c2⟩ := prepareSegs_again IO (k := .graphic) rfl
    (hf.segs .graphic _ rfl) r.prepG (des' := f'.des ++ ov1 ++ ov2) (by rw [o2, o1]; simp [hdl])
  obtain ⟨tx, ov4, o4, e1, e2⟩ := prepareSegs_again IO (k := .text) rfl
    (hf.segs .text _ rfl) r.prepT (des' := f'.des ++ ov1 ++ ov2 ++ ov3)
    (by rw [o3, o2, o1]; simp [hdl])
  have hov : ov = ov1 ++ ov2 ++ ov3 ++ ov4 := by
    rw [o4, o3, o2, o1, List.append_assoc, List.append_assoc, List.append_assoc] at d1
    have := List.append_cancel_left d1
    rw [← this]; simp
  have hdes4 : f'.des ++ ov1 ++ ov2 ++ ov3 ++ ov4 = ra.map (·.1) ++ ov := by
    rw [hov, d6]; simp
  rw [hdes4] at e1
  -- the counts
  have hdlen : (ra.map (·.1) ++ ov).length = (r.res .des).length := by
    rw [d2, List.length_append, List.length_append, List.length_map, d4.length]
  obtain ⟨H1, n1, n2⟩ := nums_again (ni := im.length) (ng := gr.length) (nt := tx.length)
    (nd := (ra.map (·.1) ++ ov).length) (nr := f'.res.length) a2 (by
      rw [b2.length, c2.length, e2.length, hdlen, hrs, ← r.segsR, (r.each .image).length,
        (r.each .graphic).length, (r.each .text).length, (r.each .res).length]
      exact ⟨.of (r.count P E IO .image), .of (r.count P E IO .graphic), .of (r.count P E IO .text),
        .of (r.count P E IO .des), .of (r.count P E IO .res)⟩)
  have hw := r.chunks'
  have hc1 : writeChunks P Tables.t_file_header H1 = .ok r.cs' := by
    rw [writeChunks_same P n2]; exact hw
  have hloc : ∀ {n key}, (∃ o, locOf n key 0 r.cs = some o) → ∃ o, locOf n key 0 r.cs' = some o := by
    intro n key h
    rwa [locOf_slots 0 r.slots]
  obtain ⟨fh, fh1, fh2, _⟩ := hlField.at_
  obtain ⟨ff, ff1, ff2, _⟩ := flField.at_
  obtain ⟨H2, p1, p2⟩ := updateHeader_again hlField.res fh1 fh2 hl_unref n2 hw (hloc r.locHl) (.of r.hl)
    (post := []) (out := chunkBytes r.cs') (by simp)
  -- the segments
  have hL : ∀ k, ∀ (j : Nat) x, (r.res k)[j]? = some x → x.1.linked = true →
        ((∃ o, locOf (lenPos k) [((0 + j : Nat) : Int)] 0 r.cs' = some o) ∧
          ∃ o, locOf (dataPos k) [((0 + j : Nat) : Int)] 0 r.cs' = some o) ∧
        HeaderInt f'.header (lenPos k) [((0 + j : Nat) : Int)] (x.2.1.length : Nat) ∧
        HeaderInt f'.header (dataPos k) [((0 + j : Nat) : Int)] (x.2.2.length : Nat) := by
    intro k j x hx hl
    rw [Nat.zero_add]
    have hlt : j < (r.segs1 k).length := by rw [(r.each k).length]; exact lt_of_getElem? hx
    have hs := List.getElem?_eq_getElem hlt
    have hsx := (r.each k).get j _ _ hs hx
    obtain ⟨sub, _, q2, _⟩ := segBytes_ok P E IO hsx
    have hl' : ((r.segs1 k)[j]).linked = true := by rw [q2] at hl; exact hl
    obtain ⟨l1, l2⟩ := r.locs k j _ hs hl'
    obtain ⟨l3, l4⟩ := r.lens k j _ x hs hx hl'
    exact ⟨⟨hloc l1, hloc l2⟩, .of l3, .of l4⟩
  have hseg : ∀ k ss, k ≠ .des → Each (SegEqv P IO k) ss (r.segs1 k) →
      Each (fun s x => s.linked = x.1.linked ∧ ∃ y, segBytes P E IO k s = .ok (y, x.2.1, x.2.2) ∧
        SegEqv P IO k x.1 y) ss (r.res k) := by
    intro k ss hk hE
    refine (Each.trans hE (r.each k)).imp ?_
    rintro s _ x ⟨t, _, hst, htx⟩
    obtain ⟨y, y1, y2⟩ := segBytes_same P E IO (hst.symm IO) htx
    obtain ⟨sub, _, q2, _⟩ := segBytes_ok P E IO htx
    exact ⟨by rw [q2]; exact hst.linked.symm, y, y1, y2⟩
  have hsegD : Each (fun s x => s.linked = x.1.linked ∧
      ∃ y, segBytes P E IO .des s = .ok (y, x.2.1, x.2.2) ∧ SegEqv P IO .des x.1 y)
      (ra.map (·.1) ++ ov) (r.res .des) := by
    rw [d2]
    refine Each.append ?_ ?_
    · refine Each.map_left _ ?_
      have : ∀ x ∈ ra, segBytes P E IO .des x.1 = .ok x := by
        intro x hx
        obtain ⟨s, _, hs⟩ := d3.mem_right hx
        exact segBytes_again E IO hs
      clear d2 d3 d6 hdes4 e1 hdlen n1
      induction ra with
      | nil => exact .nil
      | cons x ra ih =>
        exact .cons ⟨rfl, x.1, this x (by simp), .refl P IO _ _⟩ (ih fun y hy => this y (by simp [hy]))
    · refine d4.imp ?_
      intro s _ x hx
      obtain ⟨sub, _, q2, _⟩ := segBytes_ok P E IO hx
      exact ⟨by rw [q2], x.1, hx, .refl P IO _ _⟩
  let pb := fun k => List.flatMap (fun x => x.2.1 ++ x.2.2) (r.res k)
  obtain ⟨im', H3, i1, i2, i3⟩ := writeSegs_again E IO hw (i := 0) (hseg .image im (by decide) b2) p2
    (out := chunkBytes r.cs') (post := []) (by simp) (hL .image)
  obtain ⟨gr', H4, g1, g2, g3⟩ := writeSegs_again E IO hw (i := 0) (hseg .graphic gr (by decide) c2) i2
    (out := chunkBytes r.cs' ++ pb .image) (post := pb .image) rfl (hL .graphic)
  obtain ⟨tx', H5, t1, t2, t3⟩ := writeSegs_again E IO hw (i := 0) (hseg .text tx (by decide) e2) g2
    (out := chunkBytes r.cs' ++ pb .image ++ pb .graphic) (post := pb .image ++ pb .graphic)
    (by simp) (hL .text)
  obtain ⟨de', H6, x1, x2, x3⟩ := writeSegs_again E IO hw (i := 0) hsegD t2
    (out := chunkBytes r.cs' ++ pb .image ++ pb .graphic ++ pb .text)
    (post := pb .image ++ pb .graphic ++ pb .text) (by simp) (hL .des)
  obtain ⟨re', H7, y1, y2, y3⟩ := writeSegs_again E IO hw (i := 0)
    (hseg .res f'.res (by decide) (by rw [hrs, r.segsR]; exact Each.refl (SegEqv.refl P IO .res) _))
    x2 (out := chunkBytes r.cs' ++ pb .image ++ pb .graphic ++ pb .text ++ pb .des)
    (post := pb .image ++ pb .graphic ++ pb .text ++ pb .des) (by simp) (hL .res)
  have hout : out = chunkBytes r.cs' ++ pb .image ++ pb .graphic ++ pb .text ++ pb .des ++
      pb .res := by
    have := r.out_eq
    simp only [partsBytes, SegKind.order, List.flatMap_cons, List.flatMap_nil, List.flatMap_map,
      List.append_nil] at this
    refine this.trans ?_
    simp only [List.append_assoc, pb]
  change writeSegs P E IO r.cs' .res 0 f'.res _ = .ok (re', H7, _ ++ pb .res) at y1
  rw [← hout] at y1
  obtain ⟨H8, z1, z2⟩ := updateHeader_again flField.res ff1 ff2 fl_unref y2 hw (hloc r.locFl) (.of r.fl)
    r.out_eq
  obtain ⟨de'', w1, w2⟩ := dropOverflow_same P IO x3 r.drop1
  refine ⟨{ header := H8, tres := f'.tres, image := im', graphic := gr', text := tx',
            des := de'', res := re' }, ?_, ⟨z2.symm, rfl, ?_⟩⟩
  · unfold writeFile
    simp only [bind_ok, Prod.exists, pure, Except.pure]
    rw [r.tres, hi, hg, ht]
    exact ⟨_, hdrop, _, _, a1, _, _, b1, _, _, c1, _, _, e1, _, n1, _, hc1, _, _, p1, _, _, _, i1,
      _, _, _, g1, _, _, _, t1, _, _, _, x1, _, _, _, y1, _, _, z1, _, w1, rfl⟩
  · intro k
    cases k with
    | image => rw [r.after .image (by decide)]; exact i3
    | graphic => rw [r.after .graphic (by decide)]; exact g3
    | text => rw [r.after .text (by decide)]; exact t3
    | res => rw [r.after .res (by decide)]; exact y3
    | des => exact w2

end Verif
