import Verif.Index
import Verif.Props.Tables
import Verif.Props.Fields

/-
C15 for all indices of an element, not only the last: which are checked, in which tables.
-/

namespace Verif

variable {P : PyFloat}

/-- An assignment goes through its checks, and the checks decide whether anything is stored. -/
theorem setItem_rejected {T : Tab} {S : Store P.F} {n : Nat} {key : Key} {fi : FInfo}
    (hn : T[n]? = some fi)
    (h : ¬ (checkIndex P (look P T S) fi key = .ok () ∧
      ∃ b, evalCond P (look P T S) fi key = .ok b)) (v : Val P.F) :
    ∃ e, setItem P T S n key v = (S, some e) := by
  cases hc : setCheck P T S n key v with
  | error e => exact ⟨e, setItem_of_check_error P hc⟩
  | ok r =>
    exfalso
    obtain ⟨fi', v'⟩ := r
    obtain ⟨h1, _, _, h2, h3, _⟩ := setCheck_ok P hc
    rw [hn] at h1
    injection h1 with h1
    subst h1
    exact h ⟨h2, true, h3⟩

/-- C15 for a single index number `j`, if the table makes every access check it (`checks`): an
index out of range (negative, or not below the count of its loop) makes reading raise, and
assigning raise without storing anything.  Missing for the full claim: indices for which `checks`
is false, see `C15_ignored_index`. -/
theorem C15_checked_index_partial {d : Desc} (hd : d.causal = true) {S : Store P.F} {n : Nat}
    {fi : FInfo} (hn : d.tab[n]? = some fi) (hnm : fi.fd.name ≠ none) {fuel j : Nat}
    (hj : checks d.tab fuel n j = true) {key : Key}
    (hbad : ¬ IndexOk (look P d.tab S) fi key j) :
    (∃ e, getItem P d.tab S n key = .error e) ∧
    ∀ v, ∃ e, setItem P d.tab S n key v = (S, some e) := by
  have hno : ¬ (checkIndex P (look P d.tab S) fi key = .ok () ∧
      ∃ b, evalCond P (look P d.tab S) fi key = .ok b) := fun h =>
    hbad (indexOk_of_checks hd fuel n fi key hj hn h.1 h.2)
  refine ⟨?_, setItem_rejected hn hno⟩
  cases h : getItem P d.tab S n key with
  | error e => exact ⟨e, rfl⟩
  | ok v => exact absurd (getItem_checked hn hnm h) hno

/-- Nothing evaluated in an assignment to an element of the field depends on index number `j`. -/
def FInfo.ignores (fi : FInfo) (j : Nat) : Bool :=
  decide (j + 1 < fi.depth) && decide (fi.fd.kind = .plain) &&
  (optRefs fi.shapes.getLast? ++ optRefs fi.fd.cond).all fun r => !r.2.contains j

theorem idxKey_set {key : Key} {j : Nat} {i : Int} (idx : List Nat) (h : j ∉ idx) :
    idxKey (key.set j i) idx = idxKey key idx := by
  induction idx with
  | nil => rfl
  | cons a as ih =>
    simp only [List.mem_cons, not_or] at h
    simp only [idxKey, List.getElem?_set_ne h.1, ih h.2]

theorem evalE_set {l : Look P.F} {key : Key} {j : Nat} {i : Int} (e : Expr)
    (h : ∀ r ∈ e.refs, j ∉ r.2) : evalE P l (key.set j i) e = evalE P l key e := by
  induction e with
  | const c => rfl
  | ref nm idx => simp only [evalE, idxKey_set idx (h (nm, idx) (by simp [Expr.refs]))]
  | eq a b iha ihb | ne a b iha ihb | gt a b iha ihb | ge a b iha ihb | and a b iha ihb
  | band a b iha ihb | mul a b iha ihb | add a b iha ihb | sub a b iha ihb | fdiv a b iha ihb =>
    simp only [Expr.refs, List.mem_append] at h
    simp only [evalE, iha fun r hr => h r (.inl hr), ihb fun r hr => h r (.inr hr)]
  | isin a cs iha | notin a cs iha | rstrip a iha | toInt a iha | tri a iha =>
    simp only [evalE, iha h]
  | ite c a b ihc iha ihb =>
    simp only [Expr.refs, List.mem_append] at h
    simp only [evalE, ihc fun r hr => h r (.inl hr), iha fun r hr => h r (.inr (.inl hr)),
      ihb fun r hr => h r (.inr (.inr hr))]

/-- C15, the indices that are not checked: if neither the count of the innermost loop nor the
condition of the field mentions index number `j`, an assignment is accepted or refused whatever
that index is. -/
theorem C15_ignored_index {T : Tab} {S : Store P.F} {n : Nat} {fi : FInfo} (hn : T[n]? = some fi)
    {j : Nat} (hj : fi.ignores j = true) (key : Key) (i : Int) (v : Val P.F) :
    (setItem P T S n (key.set j i) v).2 = (setItem P T S n key v).2 := by
  simp only [FInfo.ignores, Bool.and_eq_true, decide_eq_true_eq, List.all_eq_true,
    Bool.not_eq_true', List.mem_append] at hj
  obtain ⟨⟨hlt, hk⟩, hr⟩ := hj
  have hr' : ∀ r, r ∈ optRefs fi.shapes.getLast? ∨ r ∈ optRefs fi.fd.cond → j ∉ r.2 := by
    intro r h hm
    have := hr r h
    rw [List.contains_iff_mem.mpr hm] at this
    cases this
  have hcond : evalCond P (look P T S) fi (key.set j i) = evalCond P (look P T S) fi key := by
    unfold evalCond
    cases hc : fi.fd.cond with
    | none => rfl
    | some e =>
      simp only
      rw [evalE_set e fun r h => hr' r (.inr (by rw [hc]; exact h))]
  have hck : checkIndex P (look P T S) fi (key.set j i) = checkIndex P (look P T S) fi key := by
    unfold checkIndex
    cases hs : fi.shapes.getLast? with
    | none => rfl
    | some e =>
      simp only [List.length_set]
      by_cases hlen : key.length = fi.depth
      · have hne : ¬ key.length ≠ fi.depth := by simpa using hlen
        simp only [if_neg hne]
        have h1 : (key.set j i).getLast? = key.getLast? := by
          rw [List.getLast?_eq_getElem?, List.getLast?_eq_getElem?, List.length_set,
            List.getElem?_set_ne (by omega)]
        have h2 : evalShape P (look P T S) e (key.set j i).dropLast =
            evalShape P (look P T S) e key.dropLast := by
          have : (key.set j i).dropLast = key.dropLast.set j i := by
            rw [List.dropLast_eq_take, List.dropLast_eq_take, List.length_set, List.take_set]
          unfold evalShape
          rw [this, evalE_set e fun r h => hr' r (.inl (by rw [hs]; exact h))]
        rw [h1, h2]
      · simp only [if_pos hlen]
  have hset : setCheck P T S n (key.set j i) v = setCheck P T S n key v := by
    unfold setCheck
    rw [hn]
    simp only [hk, packKind, hck, hcond]
  unfold setItem
  have hb : budget T = T.length + 1 := rfl
  rw [hb]
  unfold setF
  rw [hset]
  cases hc : setCheck P T S n key v with
  | error e => rfl
  | ok r =>
    obtain ⟨fi', v'⟩ := r
    obtain ⟨h1, _⟩ := setCheck_ok P hc
    rw [hn] at h1
    injection h1 with h1
    subst h1
    simp only [hk, if_true]

/-- The shipped tables with indices that are not checked. -/
def uncheckedTables : List String := ["ILLUMB", "RSMECB", "DesCSCSDB", "DesCSSFAB"]

/-- Every index of every named field is checked. -/
def allChecked (d : Desc) : Bool :=
  d.tab.zipIdx.all fun p =>
    p.1.fd.name.isNone || (List.range p.1.depth).all fun j => checks d.tab 12 p.2 j

/-- Fields whose outermost index is mentioned by the count or condition, but only as an index of
another field that need not check it. -/
def uncheckedFields : List (String × Nat) :=
  [("DesCSCSDB", 52), ("DesCSCSDB", 53), ("DesCSSFAB", 35), ("DesCSSFAB", 36), ("DesCSSFAB", 37),
   ("DesCSSFAB", 38), ("DesCSSFAB", 39), ("DesCSSFAB", 40), ("DesCSSFAB", 41), ("DesCSSFAB", 42)]

/-- Every index of every named field is checked or ignored, apart from the listed fields. -/
def allDecided (t : String × Desc) : Bool :=
  t.2.tab.zipIdx.all fun p => p.1.fd.name.isNone || uncheckedFields.contains (t.1, p.2) ||
    (List.range p.1.depth).all fun j => checks t.2.tab 12 p.2 j || p.1.ignores j

/-- C15 for the shipped tables: in all but ILLUMB, RSMECB, CSCSDB and CSSFAB, reading or assigning
an element with any index out of range, or with the wrong number of indices, raises and stores
nothing.  Missing: these four tables, see `C15_shipped_ignored`. -/
theorem C15_shipped_partial {t : String × Desc} (ht : t ∈ Tables.all) (hu : t.1 ∉ uncheckedTables)
    {S : Store P.F} {n : Nat} {fi : FInfo} (hn : t.2.tab[n]? = some fi) (hnm : fi.fd.name ≠ none)
    (hdep : 0 < fi.depth) {key : Key}
    (hbad : ¬ (key.length = fi.depth ∧ ∀ j < fi.depth, IndexOk (look P t.2.tab S) fi key j)) :
    (∃ e, getItem P t.2.tab S n key = .error e) ∧
    ∀ v, ∃ e, setItem P t.2.tab S n key v = (S, some e) := by
  have hall : (Tables.all.all fun t => uncheckedTables.contains t.1 || allChecked t.2) = true := by
    decide +kernel
  have h := List.all_eq_true.mp hall t ht
  rw [Bool.or_eq_true, List.contains_iff_mem] at h
  have h := h.resolve_left hu
  have h := List.all_eq_true.mp h (fi, n) (List.mem_zipIdx_iff_getElem?.mpr hn)
  rw [Bool.or_eq_true] at h
  have h := h.resolve_left (by simpa using hnm)
  by_cases hlen : key.length = fi.depth
  · have : ∃ j, j < fi.depth ∧ ¬ IndexOk (look P t.2.tab S) fi key j := by
      refine Classical.byContradiction fun hno => hbad ⟨hlen, fun j hj => ?_⟩
      exact Classical.byContradiction fun h => hno ⟨j, hj, h⟩
    obtain ⟨j, hj, hb⟩ := this
    exact C15_checked_index_partial (tables_causal t ht) hn hnm
      (List.all_eq_true.mp h j (List.mem_range.mpr hj)) hb
  · obtain ⟨e, he⟩ : ∃ e, fi.shapes.getLast? = some e := by
      cases hs : fi.shapes.getLast? with
      | none =>
        rw [List.getLast?_eq_none_iff] at hs
        unfold FInfo.depth at hdep
        rw [hs] at hdep
        simp at hdep
      | some e => exact ⟨e, rfl⟩
    have hck : checkIndex P (look P t.2.tab S) fi key = .error .index := by
      unfold checkIndex
      rw [he]
      simp only
      rw [if_pos hlen]
    have hno : ¬ (checkIndex P (look P t.2.tab S) fi key = .ok () ∧
        ∃ b, evalCond P (look P t.2.tab S) fi key = .ok b) := by
      rintro ⟨h, _⟩
      rw [hck] at h
      cases h
    refine ⟨?_, setItem_rejected hn hno⟩
    cases h : getItem P t.2.tab S n key with
    | error e => exact ⟨e, rfl⟩
    | ok v => exact absurd (getItem_checked hn hnm h) hno

/-- C15, picture for all shipped tables: apart from ten fields, every index of every field is either
always checked, or has no influence on whether an assignment is accepted; the latter happens in each
of the four tables. -/
theorem C15_shipped_ignored :
    (∀ t ∈ Tables.all, ∀ (n : Nat) (fi : FInfo), t.2.tab[n]? = some fi → fi.fd.name ≠ none →
      (t.1, n) ∉ uncheckedFields → ∀ j < fi.depth, checks t.2.tab 12 n j = true ∨ fi.ignores j = true) ∧
    (∀ s ∈ uncheckedTables, ∃ t ∈ Tables.all, t.1 = s ∧
      ∃ (n : Nat) (fi : FInfo), t.2.tab[n]? = some fi ∧ fi.fd.name ≠ none ∧ fi.ignores 0 = true) := by
  constructor
  · have hall : (Tables.all.all fun t => allDecided t) = true := by decide +kernel
    intro t ht n fi hn hnm hx j hj
    have h := List.all_eq_true.mp (List.all_eq_true.mp hall t ht) (fi, n)
      (List.mem_zipIdx_iff_getElem?.mpr hn)
    rw [Bool.or_eq_true, Bool.or_eq_true, List.contains_iff_mem] at h
    have h := h.resolve_left fun h => h.elim (by simpa using hnm) hx
    have := List.all_eq_true.mp h j (List.mem_range.mpr hj)
    rwa [Bool.or_eq_true] at this
  · have hall : (uncheckedTables.all fun s => Tables.all.any fun t => decide (t.1 = s) &&
        t.2.tab.any fun fi => fi.fd.name.isSome && fi.ignores 0) = true := by decide +kernel
    intro s hs
    have h := List.all_eq_true.mp hall s hs
    simp only [List.any_eq_true, Bool.and_eq_true, decide_eq_true_eq] at h
    obtain ⟨t, ht, hts, fi, hfi, hnm, hig⟩ := h
    obtain ⟨n, hn⟩ := List.getElem?_of_mem hfi
    exact ⟨t, ht, hts, n, fi, hn, (fun h => by rw [h] at hnm; cases hnm), hig⟩

/-- An ILLUMB with one band, one set of conditions and the solar illumination present. -/
def exIllumb : Store P0.F × List (Option Err) :=
  [((n!"num_bands"), Val.int 1), ((n!"existence_mask"), .int 0x1000),
   ((n!"num_illum_sets"), .int 1)].foldl
    (fun a p => let r := setAttr P0 Tables.t_tre_illumb a.1 p.1 [] p.2; (r.1, a.2 ++ [r.2]))
    (Store.empty, [])

/-- The unchecked index in a shipped table: the solar illumination of the eighth set can be assigned
and read although there is only one set; the last index is checked. -/
theorem C15_illumb : exIllumb.2 = [none, none, none] ∧
    (setAttr P0 Tables.t_tre_illumb exIllumb.1 (n!"sun_illum_method") [7, 0] (.str ['A'])).2 = none ∧
    getAttr P0 Tables.t_tre_illumb
      (setAttr P0 Tables.t_tre_illumb exIllumb.1 (n!"sun_illum_method") [7, 0] (.str ['A'])).1
      (n!"sun_illum_method") [7, 0] = .ok (.str ['A']) ∧
    (setAttr P0 Tables.t_tre_illumb exIllumb.1 (n!"sun_illum_method") [0, 1] (.str ['A'])).2 =
      some .index := by decide +kernel

/-- A case of `C15_shipped_partial` with nested loops: in SENSRB nothing is in range at first. -/
example : ∃ (n : Nat) (fi : FInfo), Tables.t_tre_sensrb.tab[n]? = some fi ∧ fi.depth = 2 ∧
    (∀ j < 2, checks Tables.t_tre_sensrb.tab 12 n j = true) ∧
    (setItem P0 Tables.t_tre_sensrb.tab Store.empty n [0, 0] (.str [])).2 = some .index := by
  have h : (Tables.t_tre_sensrb.tab.zipIdx.any fun p => decide (p.1.depth = 2) &&
      (List.range 2).all (fun j => checks Tables.t_tre_sensrb.tab 12 p.2 j) &&
      decide ((setItem P0 Tables.t_tre_sensrb.tab Store.empty p.2 [0, 0] (.str [])).2 =
        some .index)) = true := by decide +kernel
  simp only [List.any_eq_true, Bool.and_eq_true, decide_eq_true_eq, List.all_eq_true] at h
  obtain ⟨⟨fi, n⟩, hm, ⟨h1, h2⟩, h3⟩ := h
  exact ⟨n, fi, List.mem_zipIdx_iff_getElem?.mp hm, h1, fun j hj => h2 j (List.mem_range.mpr hj), h3⟩

end Verif
