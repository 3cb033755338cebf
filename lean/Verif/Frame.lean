import Verif.DiffRefs

/-
Which fields can see a change of a field.  The value of a field depends on the cells of the field
itself and on the fields named in its condition, size, value and the counts of its loops, and so on.
-/

namespace Verif

variable {P : PyFloat}

/-- Names a row refers to, loop counts included. -/
def FInfo.allRefs (fi : FInfo) : List Name := (fi.fd.refs ++ fi.shapes.flatMap Expr.refs).map (·.1)

/-- A set of positions closed under references. -/
def ClosedSet (T : Tab) (A : Nat → Prop) : Prop :=
  ∀ n fi, T[n]? = some fi → A n → ∀ nm ∈ fi.allRefs, ∀ m, resolve T nm = some m → A m

section closed

variable {T : Tab} {A : Nat → Prop} {S R : Store P.F}

/-- The same stored values in the set. -/
def SameOn (P : PyFloat) (T : Tab) (A : Nat → Prop) (S R : Store P.F) : Prop :=
  ∀ n fi, T[n]? = some fi → A n → ∀ k, stored S fi.fd n k = stored R fi.fd n k

theorem evalE_byName {l l' : Look P.F} {key : Key} (e : Expr)
    (h : ∀ nm ∈ e.refs.map (·.1), l nm = l' nm) : evalE P l key e = evalE P l' key e :=
  evalE_refs e fun r hr k _ => by rw [h r.1 (List.mem_map_of_mem hr)]

theorem evalShape_byName {l l' : Look P.F} {key : Key} (e : Expr)
    (h : ∀ nm ∈ e.refs.map (·.1), l nm = l' nm) : evalShape P l e key = evalShape P l' e key := by
  unfold evalShape
  rw [evalE_byName e h]

theorem shape_ref {fi : FInfo} {e : Expr} (he : e ∈ fi.shapes) {nm : Name}
    (h : nm ∈ e.refs.map (·.1)) : nm ∈ fi.allRefs := by
  obtain ⟨r, hr, rfl⟩ := List.mem_map.mp h
  exact List.mem_map_of_mem (List.mem_append_right _ (List.mem_flatMap.mpr ⟨e, he, hr⟩))

theorem row_ref {fi : FInfo} {nm : Name} (h : nm ∈ fi.fd.refs.map (·.1)) : nm ∈ fi.allRefs := by
  obtain ⟨r, hr, rfl⟩ := List.mem_map.mp h
  exact List.mem_map_of_mem (List.mem_append_left _ hr)

theorem getWith_byName {l l' : Look P.F} {fi : FInfo} {n : Nat} {key : Key}
    (hl : ∀ nm ∈ fi.allRefs, l nm = l' nm) (hS : stored S fi.fd n key = stored R fi.fd n key) :
    getWith P l S fi n key = getWith P l' R fi n key := by
  have hcond : evalCond P l fi key = evalCond P l' fi key := by
    unfold evalCond
    cases hc : fi.fd.cond with
    | none => rfl
    | some e =>
      simp only
      rw [evalE_byName e fun nm hn => hl nm (row_ref (by
        simp only [FieldDef.refs, hc, optRefs, List.map_append]
        exact List.mem_append_left _ hn))]
  have hsize : evalSize P l fi key = evalSize P l' fi key := by
    unfold evalSize
    cases hc : fi.fd.size with
    | const c => rfl
    | expr e =>
      simp only
      rw [evalE_byName e fun nm hn => hl nm (row_ref (by
        simp only [FieldDef.refs, hc, sizeRefs, List.map_append]
        exact List.mem_append_right _ (List.mem_append_left _ hn)))]
  have hcheck : checkIndex P l fi key = checkIndex P l' fi key := by
    unfold checkIndex
    cases hc : fi.shapes.getLast? with
    | none => rfl
    | some e =>
      have : ∀ k, evalShape P l e k = evalShape P l' e k := fun k =>
        evalShape_byName e fun nm hn => hl nm (shape_ref (List.mem_of_getLast? hc) hn)
      simp only [this]
  have hlow : lowGet P l S fi n key = lowGet P l' R fi n key := by
    unfold lowGet
    rw [hcond, hcheck, hS]
    cases hv : fi.fd.value with
    | none => rfl
    | some e =>
      simp only
      rw [evalE_byName (l := l) (l' := l') e fun nm hn => hl nm (row_ref (by
        simp only [FieldDef.refs, hv, optRefs, List.map_append]
        exact List.mem_append_right _ (List.mem_append_right _ hn)))]
  unfold getWith
  rw [hlow, hsize]

theorem getF_closed (hA : ClosedSet T A) (hS : SameOn P T A S R) :
    ∀ (f n : Nat) (key : Key), A n → getF P T S f n key = getF P T R f n key := by
  intro f
  induction f with
  | zero => intro n key _; rfl
  | succ f ih =>
    intro n key hn
    unfold getF
    cases ht : T[n]? with
    | none => rfl
    | some fi =>
      simp only
      refine getWith_byName (fun nm hnm => ?_) (hS n fi ht hn key)
      funext k
      unfold lookVia
      cases hr : resolve T nm with
      | none => rfl
      | some m =>
        simp only
        rw [ih m k (hA n fi ht hn nm hnm m hr)]

/-- In a closed set values, elements and counts only depend on the cells in the set. -/
theorem getItem_closed (hA : ClosedSet T A) (hS : SameOn P T A S R) {n : Nat} (hn : A n) :
    (∀ key, getItem P T S n key = getItem P T R n key) ∧ fieldItems P T S n = fieldItems P T R n := by
  have hg : ∀ key, getItem P T S n key = getItem P T R n key := fun key =>
    getF_closed hA hS _ n key hn
  refine ⟨hg, ?_⟩
  unfold fieldItems
  cases ht : T[n]? with
  | none => rfl
  | some fi =>
    simp only
    have hk : ∀ (es : List Expr), (∀ e ∈ es, e ∈ fi.shapes) → ∀ key,
        keysFrom P (look P T S) es key = keysFrom P (look P T R) es key := by
      intro es
      induction es with
      | nil => intro _ key; rfl
      | cons e es ih =>
        intro he key
        have hs : evalShape P (look P T S) e key = evalShape P (look P T R) e key := by
          refine evalShape_byName e fun nm hnm => ?_
          funext k
          unfold look lookVia
          cases hr : resolve T nm with
          | none => rfl
          | some m =>
            simp only
            rw [getF_closed hA hS _ m k
              (hA n fi ht hn nm (shape_ref (he e (by simp)) hnm) m hr)]
        unfold keysFrom
        rw [hs]
        simp only [ih fun e' h => he e' (List.mem_cons_of_mem _ h)]
    rw [hk fi.shapes (fun _ h => h)]
    simp only [hg]

end closed

/-- `Depends T n m`: the field at `n` is the one at `m` or refers, directly or through others, to
it. -/
inductive Depends (T : Tab) : Nat → Nat → Prop
  | refl (n : Nat) : Depends T n n
  | step {n k m : Nat} {fi : FInfo} {nm : Name} : T[n]? = some fi → nm ∈ fi.allRefs →
      resolve T nm = some k → Depends T k m → Depends T n m

theorem closed_independent (T : Tab) (B : Nat → Prop) :
    ClosedSet T fun n => ∀ q, B q → ¬ Depends T n q := by
  intro n fi hn hA nm hnm m hr q hq hd
  exact hA q hq (.step hn hnm hr hd)

/-- Changing cells of the fields in `B` is not seen by fields that do not depend on any of them. -/
theorem independent {T : Tab} {B : Nat → Prop} {S R : Store P.F}
    (h : ∀ m k, ¬ B m → S m k = R m k) {n : Nat} (hn : ∀ q, B q → ¬ Depends T n q) :
    (∀ key, getItem P T S n key = getItem P T R n key) ∧ fieldItems P T S n = fieldItems P T R n := by
  refine getItem_closed (closed_independent T B) (fun m fi _ hm k => ?_) hn
  unfold stored
  rw [h m k fun hb => hm m hb (.refl m)]

/-- Every dependence chain from a field that is not in `bad` stays outside: no row outside `bad`
names a field in `bad`. -/
def clearOf (T : Tab) (bad : List Nat) : Bool :=
  (List.range T.length).all fun n =>
    bad.contains n || match T[n]? with
      | none => true
      | some fi => fi.allRefs.all fun nm =>
        match resolve T nm with
        | none => true
        | some m => !bad.contains m

theorem clearOf_closed {T : Tab} {bad : List Nat} (h : clearOf T bad = true) :
    ClosedSet T fun n => n ∉ bad := by
  intro n fi hn hA nm hnm m hr
  have h1 := List.all_eq_true.mp h n (List.mem_range.mpr (lt_of_getElem? hn))
  have hb : bad.contains n = false := by simpa using hA
  rw [hb, hn, Bool.false_or] at h1
  have h2 := List.all_eq_true.mp h1 nm hnm
  rw [hr] at h2
  simpa using h2

end Verif
