import Verif.Assoc
import Verif.Example

/- C39: associated display levels and elements (model in `Verif/Assoc.lean`). -/

namespace Verif

variable (P : PyFloat)

/-! ### Specification -/

/-- `list(us.nm)` is `vs`: iteration takes the elements 0, 1, … until there is an IndexError. -/
def ListIs (d : Desc) (S : Store P.F) (nm : Name) (vs : List (Val P.F)) : Prop :=
  (∀ (i : Nat) v, vs[i]? = some v → getAttr P d S nm [(i : Int)] = .ok v) ∧
    getAttr P d S nm [(vs.length : Int)] = .error .index

/-- The subheader has exactly these display levels and element ids, and its counts say so. -/
structure AssocIs (S : Store P.F) (lv : List Int) (ids : List Str) : Prop where
  levels : ListIs P auD S (n!"aisdlvl") (lv.map .int)
  elems : ListIs P auD S (n!"assoc_elem_id") (ids.map .str)
  nlevels : ∃ s, getAttr P auD S (n!"numais") [] = .ok (.str s) ∧ pyIntS s = .ok (lv.length : Int)
  nelems : getAttr P auD S (n!"num_assoc_elem") [] = .ok (.int ids.length)

/-- Adding to an ordered set. -/
def addOnce {α} [DecidableEq α] (l : List α) (x : α) : List α := if x ∈ l then l else l ++ [x]

/-- The ordered set after a sequence of additions. -/
def levelsOf : List AssocOp → List Int := fun ops =>
  (ops.filterMap fun | .level z => some z | .elem _ => none).foldl addOnce []

def elemsOf : List AssocOp → List Str := fun ops =>
  (ops.filterMap fun | .elem s => some s | .level _ => none).foldl addOnce []

/-! ### Proofs -/

def numaisShape : Expr :=
  .ite (.eq (.ref (n!"numais") []) (.const (.str "ALL"))) (.const (.int 0))
    (.toInt (.ref (n!"numais") []))

theorem auD_causal : auD.causal = true := by decide +kernel
theorem row_numais : Row auD (n!"numais") 1 .str none 3 := Row.of (by decide +kernel)
theorem row_numassoc : Row auD (n!"num_assoc_elem") 3 .int none 3 := Row.of (by decide +kernel)
theorem loop_aisdlvl : LoopRow auD (n!"aisdlvl") 2 .plain .int numaisShape :=
  LoopRow.of (by decide +kernel)
theorem loop_assoc : LoopRow auD (n!"assoc_elem_id") 4 .plain .str (.ref (n!"num_assoc_elem") []) :=
  LoopRow.of (by decide +kernel)

theorem ais_shape {S : Store P.F} {s : Str} {k : Int}
    (h : getAttr P auD S (n!"numais") [] = .ok (.str s)) (hk : pyIntS s = .ok k) :
    evalShape P (look P auD.tab S) numaisShape [] = .ok k := by
  have hne : ¬ s = "ALL".toList := by
    rintro rfl
    exact absurd hk (by rw [show pyIntS "ALL".toList = .error .value by decide +kernel]; simp)
  unfold evalShape
  simp only [numaisShape, evalE, idxKey, bind, Except.bind, row_numais.look P auD_causal, h,
    CVal.toVal, pyEq, pure, Except.pure, coerceInt, hk]
  simp only [beq_iff_eq, hne, bval, truthy]
  simp

theorem assoc_shape {S : Store P.F} {k : Int}
    (h : getAttr P auD S (n!"num_assoc_elem") [] = .ok (.int k)) :
    evalShape P (look P auD.tab S) (.ref (n!"num_assoc_elem") []) [] = .ok k := by
  unfold evalShape
  simp only [evalE, idxKey, bind, Except.bind, row_numassoc.look P auD_causal, h]

theorem anyEq_from {get : Int → Except Err (Val P.F)} {x : Val P.F} (vs : List (Val P.F)) :
    ∀ k : Nat, (∀ (i : Nat) v, vs[i]? = some v → get ((k + i : Nat) : Int) = .ok v) →
      anyEq P get x ((List.range' k vs.length).map Int.ofNat) =
        .ok (vs.any fun v => pyEq P v x) := by
  induction vs with
  | nil => intro k _; rfl
  | cons a r ih =>
    intro k h
    have h0 : get (Int.ofNat k) = .ok a := h 0 a rfl
    simp only [List.length_cons, List.range'_succ, List.map_cons, anyEq, h0, List.any_cons]
    rw [ih (k + 1) fun i v hi => by
      have := h (i + 1) v hi
      rw [show k + 1 + i = k + (i + 1) by omega]
      exact this]
    cases pyEq P a x <;> simp

/-- The search finds what is there. -/
theorem anyEq_list {get : Int → Except Err (Val P.F)} {x : Val P.F} {vs : List (Val P.F)}
    (h : ∀ (i : Nat) v, vs[i]? = some v → get i = .ok v) :
    anyEq P get x (indices vs.length) = .ok (vs.any fun v => pyEq P v x) := by
  have := anyEq_from P (x := x) vs 0 (fun i v hi => by rw [Nat.zero_add]; exact h i v hi)
  unfold indices
  rw [Int.toNat_natCast, List.range_eq_range']
  exact this

theorem pyIntS_fmtInt' (w : Nat) (z : Int) : pyIntS (rstripU (fmtInt w z)) = .ok z := by
  have h := numText_fmtInt w z
  have hp := parseSigned_fmtInt w z
  have hns : ∀ c ∈ fmtInt w z, cSpace c = false := by
    intro c hc
    rcases h.chars c hc with h | rfl | rfl
    · obtain ⟨h1, h2⟩ := h
      unfold cSpace cSpaceN
      generalize c.toNat = n at *
      simp
      omega
    · decide
    · decide
  generalize fmtInt w z = t at *
  have hr : rstripU t = t := rstripBy_eq_self _ _ fun x hx => hns x (List.mem_of_getLast? hx)
  have hl : lstripBy cSpace t = t := by
    unfold lstripBy
    cases t with
    | nil => rfl
    | cons a t => simp [hns a (by simp)]
  unfold pyIntS
  rw [hr, hr, hl, hp]

/-- A list that grows by one element at the end. -/
theorem ListIs.snoc {d : Desc} {nm : Name} {n : Nat} {ty : Ty} {shape : Expr}
    (hl : LoopRow d nm n .plain ty shape) {S S' : Store P.F} {vs : List (Val P.F)} {v : Val P.F}
    (h : ListIs P d S nm vs)
    (hb : evalShape P (look P d.tab S) shape [] = .ok (vs.length : Int))
    (hb' : evalShape P (look P d.tab S') shape [] = .ok ((vs.length : Int) + 1))
    (hold : ∀ i, i ≠ (vs.length : Int) → S' n [i] = S n [i])
    (hnew : getAttr P d S' nm [(vs.length : Int)] = .ok v) : ListIs P d S' nm (vs ++ [v]) := by
  constructor
  · intro i w hi
    rcases Nat.lt_trichotomy i vs.length with hlt | rfl | hgt
    · rw [List.getElem?_append_left hlt] at hi
      rw [hl.get_congr P hb hb' (by omega) (by omega) (hold i (by omega))]
      exact h.1 i w hi
    · simp at hi
      rw [← hi]
      exact hnew
    · rw [List.getElem?_eq_none (by simp; omega)] at hi
      cases hi
  · refine hl.index P hb' ?_
    simp only [List.length_append, List.length_singleton]
    omega

/-- A list that does not change. -/
theorem ListIs.congr {d : Desc} {nm : Name} {n : Nat} {ty : Ty} {shape : Expr}
    (hl : LoopRow d nm n .plain ty shape) {S S' : Store P.F} {vs : List (Val P.F)}
    (h : ListIs P d S nm vs)
    (hb : evalShape P (look P d.tab S) shape [] = .ok (vs.length : Int))
    (hb' : evalShape P (look P d.tab S') shape [] = .ok (vs.length : Int))
    (hold : ∀ i, S' n [i] = S n [i]) : ListIs P d S' nm vs := by
  constructor
  · intro i w hi
    have hlt : i < vs.length := (List.getElem?_eq_some_iff.mp hi).1
    rw [hl.get_congr P hb hb' (by omega) (by omega) (hold i)]
    exact h.1 i w hi
  · exact hl.index P hb' (by omega)

theorem any_pyEq_int (l : List Int) (z : Int) :
    ((l.map Val.int).any fun v => pyEq P v (.int z)) = decide (z ∈ l) := by
  induction l with
  | nil => rfl
  | cons a r ih =>
    rw [List.map_cons, List.any_cons, ih]
    have e : pyEq P (.int a) (.int z) = (a == z) := rfl
    rw [e]
    by_cases h : z = a
    · subst h; simp
    · have : (a == z) = false := by simpa using fun e : a = z => h e.symm
      simp [this, h]

theorem any_pyEq_str (l : List Str) (z : Str) :
    ((l.map Val.str).any fun v => pyEq P v (.str z)) = decide (z ∈ l) := by
  induction l with
  | nil => rfl
  | cons a r ih =>
    rw [List.map_cons, List.any_cons, ih]
    have e : pyEq P (.str a) (.str z) = (a == z) := rfl
    rw [e]
    by_cases h : z = a
    · subst h; simp
    · have : (a == z) = false := by simpa using fun e : a = z => h e.symm
      simp [this, h]

/-! ### Properties -/

/-- C39 for one display level: it is appended if it is new, else nothing changes; the element ids
are not affected. -/
theorem C39_level {S : Store P.F} {lv : List Int} {ids : List Str} (h : AssocIs P S lv ids)
    (z : Int) :
    ∃ S', addDisplayLevel P (.int z) S = (S', none) ∧ AssocIs P S' (addOnce lv z) ids ∧
      (z ∈ lv → S' = S) := by
  obtain ⟨s, hs, hk⟩ := h.nlevels
  have hn : numaisInt P S = .ok (lv.length : Int) := by
    unfold numaisInt; simp only [bind, Except.bind, hs, coerceInt, hk]
  have hsrch := anyEq_list P (get := fun i => getAttr P auD S (n!"aisdlvl") [i]) (x := .int z) h.levels.1
  rw [List.length_map, any_pyEq_int] at hsrch
  unfold addDisplayLevel
  simp only [hn, bind, Except.bind, hsrch]
  unfold addOnce
  by_cases hz : z ∈ lv
  · simp only [hz, decide_true, if_true]
    exact ⟨S, rfl, h, fun _ => rfl⟩
  · simp only [hz, decide_false, if_false]
    have hset := row_numais.set P S (v := .str (fmtInt 3 ((lv.length : Int) + 1))) rfl
    simp only [runSteps, hset]
    generalize hS1 : S.set 1 [] ⟨.val (.str (fmtInt 3 ((lv.length : Int) + 1))), none⟩ = S1
    have c1 : S1 1 [] = some ⟨.val (.str (fmtInt 3 ((lv.length : Int) + 1))), none⟩ := by
      rw [← hS1]; simp [Store.set]
    have g1 := row_numais.get_str P c1
    have hn1 : numaisInt P S1 = .ok ((lv.length : Int) + 1) := by
      unfold numaisInt; simp only [bind, Except.bind, g1, coerceInt, pyIntS_fmtInt']
    have hb1 := ais_shape P g1 (pyIntS_fmtInt' 3 _)
    have hset2 := loop_aisdlvl.set P hb1 (i := (lv.length : Int)) (by omega) (by omega)
      (v := .int z) rfl
    rw [hn1]
    simp only [Int.add_sub_cancel]
    rw [hset2]
    refine ⟨_, rfl, ?_, fun hz' => hz'.elim⟩
    generalize hS2 : S1.set 2 [(lv.length : Int)] ⟨.val (.int z), none⟩ = S2
    have c2 : S2 1 [] = some ⟨.val (.str (fmtInt 3 ((lv.length : Int) + 1))), none⟩ := by
      rw [← hS2]; simp [Store.set, c1]
    have g2 := row_numais.get_str P c2
    have hb2 := ais_shape P g2 (pyIntS_fmtInt' 3 _)
    have same : ∀ m key, m ≠ 1 → m ≠ 2 → S2 m key = S m key := by
      intro m key h1 h2
      rw [← hS2, ← hS1]
      simp [Store.set, h1, h2]
    have hnum : getAttr P auD S2 (n!"num_assoc_elem") [] = .ok (.int ids.length) := by
      rw [row_numassoc.cell P (same 3 [] (by decide) (by decide))]
      exact h.nelems
    constructor
    · rw [List.map_append]
      refine h.levels.snoc P loop_aisdlvl (by rw [List.length_map]; exact ais_shape P hs hk)
        (by rw [List.length_map]; exact hb2) ?_ ?_
      · intro i hi
        rw [List.length_map] at hi
        rw [← hS2, ← hS1]
        simp [Store.set, hi]
      · rw [List.length_map]
        exact loop_aisdlvl.get_int P hb2 (by omega) (raw := none) (by rw [← hS2]; simp [Store.set])
    · exact h.elems.congr P loop_assoc (by rw [List.length_map]; exact assoc_shape P h.nelems)
        (by rw [List.length_map]; exact assoc_shape P hnum)
        (fun i => same 4 [i] (by decide) (by decide))
    · exact ⟨_, g2, by rw [pyIntS_fmtInt']; simp⟩
    · exact hnum

/-- C39 for one element id (without trailing white space, as UUIDs are). -/
theorem C39_elem {S : Store P.F} {lv : List Int} {ids : List Str} (h : AssocIs P S lv ids)
    {id : Str} (hid : rstripU id = id) :
    ∃ S', addAssocElemId P (.str id) S = (S', none) ∧ AssocIs P S' lv (addOnce ids id) ∧
      (id ∈ ids → S' = S) := by
  obtain ⟨s, hs, hk⟩ := h.nlevels
  have hn : numAssoc P S = .ok (ids.length : Int) := by
    unfold numAssoc; simp only [bind, Except.bind, h.nelems, asInt]
  have hsrch := anyEq_list P (get := fun i => getAttr P auD S (n!"assoc_elem_id") [i]) (x := .str id)
    h.elems.1
  rw [List.length_map, any_pyEq_str] at hsrch
  unfold addAssocElemId
  simp only [hn, bind, Except.bind, hsrch]
  unfold addOnce
  by_cases hz : id ∈ ids
  · simp only [hz, decide_true, if_true]
    exact ⟨S, rfl, h, fun _ => rfl⟩
  · simp only [hz, decide_false, if_false]
    have hset := row_numassoc.set P S (v := .int ((ids.length : Int) + 1)) rfl
    simp only [runSteps, hset]
    generalize hS1 : S.set 3 [] ⟨.val (.int ((ids.length : Int) + 1)), none⟩ = S1
    have c1 : S1 3 [] = some ⟨.val (.int ((ids.length : Int) + 1)), none⟩ := by
      rw [← hS1]; simp [Store.set]
    have g1 := row_numassoc.get_int P c1
    have hn1 : numAssoc P S1 = .ok ((ids.length : Int) + 1) := by
      unfold numAssoc; simp only [bind, Except.bind, g1, asInt]
    have hset2 := loop_assoc.set P (assoc_shape P g1) (i := (ids.length : Int)) (by omega) (by omega)
      (v := .str id) rfl
    rw [hn1]
    simp only [Int.add_sub_cancel]
    rw [hset2]
    refine ⟨_, rfl, ?_, fun hz' => hz'.elim⟩
    generalize hS2 : S1.set 4 [(ids.length : Int)] ⟨.val (.str id), none⟩ = S2
    have c2 : S2 3 [] = some ⟨.val (.int ((ids.length : Int) + 1)), none⟩ := by
      rw [← hS2]; simp [Store.set, c1]
    have g2 := row_numassoc.get_int P c2
    have hb2 := assoc_shape P g2
    have same : ∀ m key, m ≠ 3 → m ≠ 4 → S2 m key = S m key := by
      intro m key h1 h2
      rw [← hS2, ← hS1]
      simp [Store.set, h1, h2]
    have hnum : getAttr P auD S2 (n!"numais") [] = .ok (.str s) := by
      rw [row_numais.cell P (same 1 [] (by decide) (by decide))]
      exact hs
    constructor
    · exact h.levels.congr P loop_aisdlvl (by rw [List.length_map]; exact ais_shape P hs hk)
        (by rw [List.length_map]; exact ais_shape P hnum hk)
        (fun i => same 2 [i] (by decide) (by decide))
    · rw [List.map_append]
      refine h.elems.snoc P loop_assoc (by rw [List.length_map]; exact assoc_shape P h.nelems)
        (by rw [List.length_map]; exact hb2) ?_ ?_
      · intro i hi
        rw [List.length_map] at hi
        rw [← hS2, ← hS1]
        simp [Store.set, hi]
      · rw [List.length_map]
        have := loop_assoc.get_str P hb2 (i := (ids.length : Int)) (by omega) (raw := none) (s := id)
          (by rw [← hS2]; simp [Store.set])
        rw [hid] at this
        exact this
    · exact ⟨s, hnum, hk⟩
    · rw [g2]; simp

theorem assoc_empty : AssocIs P Store.empty [] [] := by
  have c : getAttr P auD (Store.empty : Store P.F) (n!"numais") [] = .ok (.str "0".toList) := rfl
  have k : pyIntS "0".toList = .ok 0 := by decide +kernel
  have e : getAttr P auD (Store.empty : Store P.F) (n!"num_assoc_elem") [] = .ok (.int 0) := rfl
  refine ⟨⟨fun i v hi => ?_, ?_⟩, ⟨fun i v hi => ?_, ?_⟩, ⟨_, c, k⟩, e⟩
  · simp at hi
  · exact loop_aisdlvl.index P (ais_shape P c k) (by simp)
  · simp at hi
  · exact loop_assoc.index P (assoc_shape P e) (by simp)

theorem levelsOf_snoc (ops : List AssocOp) (op : AssocOp) : levelsOf (ops ++ [op]) =
    match op with
    | .level z => addOnce (levelsOf ops) z
    | .elem _ => levelsOf ops := by
  cases op <;> simp [levelsOf, List.filterMap_append]

theorem elemsOf_snoc (ops : List AssocOp) (op : AssocOp) : elemsOf (ops ++ [op]) =
    match op with
    | .elem s => addOnce (elemsOf ops) s
    | .level _ => elemsOf ops := by
  cases op <;> simp [elemsOf, List.filterMap_append]

theorem runSteps_snoc {F} (fs : List (Step F)) (f : Step F) {S S' : Store F}
    (h : runSteps fs S = (S', none)) : runSteps (fs ++ [f]) S = f S' := by
  induction fs generalizing S with
  | nil =>
    simp only [runSteps] at h
    cases h
    simp only [List.nil_append, runSteps]
    generalize f S' = x
    obtain ⟨a, b⟩ := x
    cases b <;> rfl
  | cons g r ih =>
    simp only [runSteps, List.cons_append] at h ⊢
    generalize g S = x at h ⊢
    obtain ⟨S1, e⟩ := x
    cases e with
    | some e => cases h
    | none => exact ih h

/-- C39: after any sequence of additions to a new subheader, all of them succeed, and the display
levels and the element ids are the ordered sets of what was added; the counts are their sizes. -/
theorem C39_history (ops : List AssocOp)
    (h : ∀ s, AssocOp.elem s ∈ ops → rstripU s = s) :
    ∃ S, runSteps (ops.map (AssocOp.run P)) Store.empty = (S, none) ∧
      AssocIs P S (levelsOf ops) (elemsOf ops) := by
  have key : ∀ r : List AssocOp, (∀ s, AssocOp.elem s ∈ r → rstripU s = s) →
      ∃ S, runSteps (r.reverse.map (AssocOp.run P)) Store.empty = (S, none) ∧
        AssocIs P S (levelsOf r.reverse) (elemsOf r.reverse) := by
    intro r
    induction r with
    | nil => intro _; exact ⟨_, rfl, assoc_empty P⟩
    | cons op r ih =>
      intro hr
      obtain ⟨S, h1, h2⟩ := ih fun s hs => hr s (List.mem_cons_of_mem _ hs)
      rw [List.reverse_cons, List.map_append, levelsOf_snoc, elemsOf_snoc]
      rw [show [op].map (AssocOp.run P) = [op.run P] from rfl, runSteps_snoc _ _ h1]
      cases op with
      | level z =>
        obtain ⟨S', k1, k2, _⟩ := C39_level P h2 z
        exact ⟨S', k1, k2⟩
      | elem id =>
        obtain ⟨S', k1, k2, _⟩ := C39_elem P h2 (hr id List.mem_cons_self)
        exact ⟨S', k1, k2⟩
  have := key ops.reverse fun s hs => h s (by simpa using hs)
  rwa [List.reverse_reverse] at this

/-- What an ordered set of additions is: no repetitions, exactly the added elements, in order of
first addition. -/
theorem foldl_addOnce {α} [DecidableEq α] (l : List α) : (l.foldl addOnce []).Nodup ∧
    (∀ x, x ∈ l.foldl addOnce [] ↔ x ∈ l) ∧
    ∀ p x q, l = p ++ x :: q → x ∉ p →
      ∃ r, l.foldl addOnce [] = p.foldl addOnce [] ++ x :: r := by
  have gen : ∀ (l acc : List α), acc.Nodup → (l.foldl addOnce acc).Nodup ∧
      (∀ x, x ∈ l.foldl addOnce acc ↔ x ∈ acc ∨ x ∈ l) ∧ ∃ r, l.foldl addOnce acc = acc ++ r := by
    intro l
    induction l with
    | nil => intro acc h; exact ⟨h, fun x => by simp, [], by simp⟩
    | cons a l ih =>
      intro acc h
      simp only [List.foldl_cons]
      have h' : (addOnce acc a).Nodup := by
        unfold addOnce
        split
        · exact h
        · rename_i ha
          exact List.nodup_append.mpr ⟨h, by simp, by
            intro x hx y hy
            simp at hy
            rintro rfl
            exact ha (hy ▸ hx)⟩
      have hm : ∀ x, x ∈ addOnce acc a ↔ x ∈ acc ∨ x = a := by
        intro x
        unfold addOnce
        split
        · rename_i ha
          exact ⟨Or.inl, fun h => h.elim id fun e => e ▸ ha⟩
        · simp
      obtain ⟨h1, h2, r, h3⟩ := ih _ h'
      refine ⟨h1, fun x => by rw [h2, hm, List.mem_cons, or_assoc], ?_⟩
      rw [h3]
      unfold addOnce
      split
      · exact ⟨r, rfl⟩
      · exact ⟨a :: r, by simp⟩
  obtain ⟨h1, h2, _⟩ := gen l [] (by simp)
  refine ⟨h1, fun x => by rw [h2]; simp, ?_⟩
  rintro p x q rfl hx
  obtain ⟨p1, p2, _⟩ := gen p [] (by simp)
  rw [List.foldl_append, List.foldl_cons]
  have hnot : x ∉ p.foldl addOnce [] := by rw [p2]; simpa using hx
  rw [show addOnce (p.foldl addOnce []) x = p.foldl addOnce [] ++ [x] by simp [addOnce, hnot]]
  obtain ⟨_, _, r, h3⟩ := gen q (p.foldl addOnce [] ++ [x]) (by
    refine List.nodup_append.mpr ⟨p1, by simp, ?_⟩
    intro a ha b hb
    simp at hb
    rintro rfl
    exact hnot (hb ▸ ha))
  exact ⟨r, by rw [h3]; simp⟩

/-- C39, the ordered set: no level occurs twice, the levels are those added, and the level first
added after a prefix of the calls follows the levels of that prefix. -/
theorem C39_ordered_set (ops : List AssocOp) :
    (levelsOf ops).Nodup ∧ (∀ z, z ∈ levelsOf ops ↔ AssocOp.level z ∈ ops) ∧
    (elemsOf ops).Nodup ∧ (∀ s, s ∈ elemsOf ops ↔ AssocOp.elem s ∈ ops) := by
  refine ⟨(foldl_addOnce _).1, fun z => ?_, (foldl_addOnce _).1, fun s => ?_⟩
  · rw [levelsOf, (foldl_addOnce _).2.1, List.mem_filterMap]
    constructor
    · rintro ⟨a, ha, h⟩
      cases a with
      | level y => simp at h; exact h ▸ ha
      | elem _ => cases h
    · exact fun h => ⟨_, h, rfl⟩
  · rw [elemsOf, (foldl_addOnce _).2.1, List.mem_filterMap]
    constructor
    · rintro ⟨a, ha, h⟩
      cases a with
      | elem y => simp at h; exact h ▸ ha
      | level _ => cases h
    · exact fun h => ⟨_, h, rfl⟩

theorem C39_order (ops : List AssocOp) (p q : List AssocOp) (z : Int)
    (h : ops = p ++ AssocOp.level z :: q) (hz : AssocOp.level z ∉ p) :
    ∃ r, levelsOf ops = levelsOf p ++ z :: r := by
  subst h
  unfold levelsOf
  rw [List.filterMap_append, List.filterMap_cons]
  exact (foldl_addOnce _).2.2 _ z _ rfl (by
    rw [List.mem_filterMap]
    rintro ⟨a, ha, e⟩
    cases a with
    | level y => simp at e; exact hz (e ▸ ha)
    | elem _ => cases e)

/-- A subheader that stands for all images cannot take a level: `int("ALL")` raises, and nothing
changes. -/
theorem C39_all {S : Store P.F}
    (h : getAttr P auD S (n!"numais") [] = .ok (.str "ALL".toList)) (lvl : Val P.F) :
    addDisplayLevel P lvl S = (S, some .value) := by
  unfold addDisplayLevel numaisInt
  simp only [h, bind, Except.bind, coerceInt,
    show pyIntS "ALL".toList = .error .value by decide +kernel]

/-- Ids with trailing blanks are the exception: they are appended each time, since reading strips
them. -/
theorem C39_trailing_blank :
    let S1 := (addAssocElemId P0 (.str "a ".toList) Store.empty).1
    getAttr P0 auD (addAssocElemId P0 (.str "a ".toList) S1).1 (n!"num_assoc_elem") [] =
      .ok (.int 2) := by
  decide +kernel

/-- A case of the history: duplicates are dropped, order is kept. -/
example : levelsOf [.level 5, .elem "x".toList, .level 2, .level 5, .level 9] = [5, 2, 9] ∧
    elemsOf [.level 5, .elem "x".toList, .elem "x".toList] = ["x".toList] := by decide

/-! ### Finding the associated elements -/

theorem dictGet_set {α} (m : List (Str × α)) (k k' : Str) (v : α) :
    dictGet (dictSet m k v) k' = if k' = k then some v else dictGet m k' := by
  unfold dictGet dictSet
  rw [List.find?_cons]
  by_cases h : k = k'
  · simp [h]
  · have h' : ¬ k' = k := fun e => h e.symm
    simp only [h, decide_false, h', if_false]
    congr 1
    rw [List.find?_filter]
    congr 1
    funext p
    by_cases hp : p.1 = k'
    · simp [hp, h']
    · simp [hp]

/-- The last candidate with an id. -/
def lastWith {α} (id : Str) (cs : List (AssocCand α)) : Option α :=
  (cs.reverse.find? fun c => decide (c.id = some id)).map (·.obj)

theorem assoc_fold {α} {asid : List Str} {id : Str} (hid : id ∈ asid) (cs : List (AssocCand α)) :
    ∀ m : List (Str × α), dictGet (cs.foldl (assocStep asid) m) id =
      (lastWith id cs).or (dictGet m id) := by
  induction cs with
  | nil => intro m; rfl
  | cons c r ih =>
    intro m
    simp only [List.foldl_cons, ih]
    unfold lastWith
    rw [List.reverse_cons, List.find?_append]
    cases hf : r.reverse.find? fun c => decide (c.id = some id) with
    | some x => simp
    | none =>
      simp only [Option.map_none, Option.none_or, List.find?_cons, List.find?_nil]
      unfold assocStep
      cases hc : c.id with
      | none => simp
      | some id' =>
        by_cases he : id' = id
        · subst he
          simp [hid, dictGet_set]
        · have he' : ¬ id = id' := fun e => he e.symm
          simp only [Option.some.injEq, he, decide_false]
          split
          · rw [dictGet_set]; simp [he']
          · simp

/-- C53: the associated elements are returned in the order of the ids, one for each; the element
for an id is the last CSEXRB TRE of the images with that id, or else the last DES with that id, or
nothing if there is none. -/
theorem C53_assoc_elem {α} (asid : List Str) (des tre : List (AssocCand α)) :
    (assocElem asid des tre).length = asid.length ∧
    ∀ (i : Nat) id, asid[i]? = some id →
      (assocElem asid des tre)[i]? = some ((lastWith id tre).or (lastWith id des)) := by
  unfold assocElem
  refine ⟨by simp, fun i id hi => ?_⟩
  have hid : id ∈ asid := List.mem_of_getElem? hi
  rw [List.getElem?_map, hi]
  simp only [Option.map_some]
  rw [assoc_fold hid, assoc_fold hid]
  simp [dictGet]

example : assocElem ["a".toList, "b".toList, "c".toList]
    [⟨some "b".toList, 1⟩, ⟨none, 2⟩, ⟨some "a".toList, 3⟩, ⟨some "b".toList, 4⟩]
    [⟨some "a".toList, 5⟩] = [some 5, some 4, none] := by decide

end Verif
