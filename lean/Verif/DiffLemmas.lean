import Verif.Diff

/- Lemmas about comparing structures. -/

namespace Verif

variable (P : PyFloat)

/-- Specification.  Two nested arrays given by the loop counts `es` (read with `l1` and `l2`) have
the same counts at every level, and `ok` holds at every element. -/
def Matches (l1 l2 : Look P.F) (ok : Key → Prop) : List Expr → Key → Prop
  | [], key => ok key
  | e :: es, key =>
    ∃ c, evalShape P l1 e key = .ok c ∧ evalShape P l2 e key = .ok c ∧
      ∀ i, 0 ≤ i → i < c → Matches l1 l2 ok es (key ++ [i])

variable {P}

theorem Matches.mono {l1 l2 : Look P.F} {ok ok' : Key → Prop} (hok : ∀ k, ok k → ok' k) :
    ∀ {es : List Expr} {key : Key}, Matches P l1 l2 ok es key → Matches P l1 l2 ok' es key
  | [], key, h => hok key h
  | _ :: _, _, ⟨c, h1, h2, h3⟩ => ⟨c, h1, h2, fun i h0 hi => (h3 i h0 hi).mono hok⟩

theorem allIdx_true {f : Int → Except Err Bool} {is : List Int} :
    allIdx f is = .ok true ↔ ∀ i ∈ is, f i = .ok true := by
  induction is with
  | nil => simp [allIdx]
  | cons i is ih =>
    simp only [allIdx, List.forall_mem_cons]
    cases h : f i with
    | error x => simp
    | ok b => cases b <;> simp [ih]

/-- The shapes of matching arrays compare equal. -/
theorem shapeEqFrom_of {l1 l2 : Look P.F} {es : List Expr} {key : Key} (hne : es ≠ [])
    (h : Matches P l1 l2 (fun _ => True) es key) : shapeEqFrom P l1 l2 es es key = .ok true := by
  induction es generalizing key with
  | nil => exact absurd rfl hne
  | cons e es ih =>
    obtain ⟨c, h1, h2, h3⟩ := h
    simp only [shapeEqFrom, h1]
    cases es with
    | nil => simp [h2]
    | cons e' es =>
      simp only [List.isEmpty_cons, Bool.false_eq_true, if_false, List.tail_cons]
      rw [allIdx_true]
      intro i hi
      have := mem_indices.mp hi
      exact ih (by simp) (h3 i this.1 this.2)

/-- Arrays whose shapes compare equal and whose outer loops have the same counts have the same
shape. -/
theorem of_shapeEqFrom {l1 l2 : Look P.F} {es : List Expr} {key : Key} (hne : es ≠ [])
    (ho : Matches P l1 l2 (fun _ => True) es.dropLast key)
    (h : shapeEqFrom P l1 l2 es es key = .ok true) : Matches P l1 l2 (fun _ => True) es key := by
  induction es generalizing key with
  | nil => exact absurd rfl hne
  | cons e es ih =>
    simp only [shapeEqFrom] at h
    cases h1 : evalShape P l1 e key with
    | error x => rw [h1] at h; cases x <;> simp at h
    | ok c =>
      rw [h1] at h
      simp only at h
      cases es with
      | nil =>
        simp only [List.isEmpty_nil, if_true, List.head?_cons, Option.elim_some] at h
        cases h2 : evalShape P l2 e key with
        | error x => rw [h2] at h; cases x <;> simp at h
        | ok c2 =>
          rw [h2] at h
          simp only [Except.ok.injEq, decide_eq_true_eq] at h
          subst h
          exact ⟨c, h1, h2, fun _ _ _ => trivial⟩
      | cons e' es =>
        simp only [List.isEmpty_cons, Bool.false_eq_true, if_false, List.tail_cons] at h
        rw [allIdx_true] at h
        rw [List.dropLast_cons_of_ne_nil (by simp)] at ho
        obtain ⟨c', g1, g2, g3⟩ := ho
        rw [h1] at g1
        injection g1 with g1
        subst g1
        refine ⟨c, h1, g2, fun i h0 hi => ?_⟩
        exact ih (by simp) (g3 i h0 hi) (h i (mem_indices.mpr ⟨h0, hi⟩))

/-- The index tuples of arrays of the same shape. -/
theorem keysFrom_matches {l1 l2 : Look P.F} {es : List Expr} {key : Key}
    (h : Matches P l1 l2 (fun _ => True) es key) :
    ∃ ks, keysFrom P l1 es key = .ok ks ∧ keysFrom P l2 es key = .ok ks ∧
      ∀ ok, (Matches P l1 l2 ok es key ↔ ∀ k ∈ ks, ok k) := by
  induction es generalizing key with
  | nil => exact ⟨[key], rfl, rfl, by intro ok; simp [Matches]⟩
  | cons e es ih =>
    obtain ⟨c, h1, h2, h3⟩ := h
    have key1 : ∀ is : List Int, (∀ i ∈ is, 0 ≤ i ∧ i < c) →
        ∃ ks, forChunks (fun i => keysFrom P l1 es (key ++ [i])) is = .ok ks ∧
          forChunks (fun i => keysFrom P l2 es (key ++ [i])) is = .ok ks ∧
          ∀ ok, ((∀ i ∈ is, Matches P l1 l2 ok es (key ++ [i])) ↔ ∀ k ∈ ks, ok k) := by
      intro is
      induction is with
      | nil => intro _; exact ⟨[], rfl, rfl, by simp⟩
      | cons i is ihis =>
        intro his
        obtain ⟨ks1, a1, a2, a3⟩ := ih (h3 i (his i (by simp)).1 (his i (by simp)).2)
        obtain ⟨ks2, b1, b2, b3⟩ := ihis fun j hj => his j (by simp [hj])
        refine ⟨ks1 ++ ks2, by simp [forChunks, a1, b1], by simp [forChunks, a2, b2], ?_⟩
        intro ok
        simp only [List.forall_mem_cons, List.forall_mem_append, a3, b3]
    obtain ⟨ks, a1, a2, a3⟩ := key1 (indices c) fun i hi => mem_indices.mp hi
    refine ⟨ks, by simp [keysFrom, h1, a1], by simp [keysFrom, h2, a2], ?_⟩
    intro ok
    rw [← a3 ok]
    constructor
    · rintro ⟨c', g1, _, g3⟩ i hi
      rw [h1] at g1
      injection g1 with g1
      subst g1
      exact g3 i (mem_indices.mp hi).1 (mem_indices.mp hi).2
    · intro h
      exact ⟨c, h1, h2, fun i h0 hi => h i (mem_indices.mpr ⟨h0, hi⟩)⟩

/-- Two elements can be read and compare equal. -/
def Equal (cmp : Val P.F → Val P.F → Except Err Bool) (x y : Except Err (Val P.F)) : Prop :=
  ∃ a b, x = .ok a ∧ y = .ok b ∧ cmp a b = .ok true

theorem sameItems_iff {cmp : Val P.F → Val P.F → Except Err Bool}
    {g1 g2 : Key → Except Err (Val P.F)} {ks : List Key} :
    (∃ xs ys, valuesAt P g1 ks = .ok xs ∧ valuesAt P g2 ks = .ok ys ∧
      sameItems P cmp xs ys = .ok true) ↔ ∀ k ∈ ks, Equal cmp (g1 k) (g2 k) := by
  induction ks with
  | nil => simp [valuesAt, sameItems]
  | cons k ks ih =>
    rw [List.forall_mem_cons, ← ih]
    constructor
    · rintro ⟨xs, ys, h1, h2, h3⟩
      simp only [valuesAt] at h1 h2
      cases e1 : g1 k with
      | error x => rw [e1] at h1; cases h1
      | ok a =>
      cases e2 : g2 k with
      | error x => rw [e2] at h2; cases h2
      | ok b =>
      cases e3 : valuesAt P g1 ks with
      | error x => rw [e1, e3] at h1; cases h1
      | ok xs' =>
      cases e4 : valuesAt P g2 ks with
      | error x => rw [e2, e4] at h2; cases h2
      | ok ys' =>
      rw [e1, e3] at h1
      rw [e2, e4] at h2
      injection h1 with h1
      injection h2 with h2
      subst h1 h2
      simp only [sameItems] at h3
      cases e5 : cmp a b with
      | error x => rw [e5] at h3; cases h3
      | ok e =>
      rw [e5] at h3
      simp only at h3
      cases e6 : sameItems P cmp xs' ys' with
      | error x => rw [e6] at h3; cases h3
      | ok e' =>
      rw [e6] at h3
      simp only [Except.map, Except.ok.injEq, Bool.and_eq_true] at h3
      obtain ⟨rfl, rfl⟩ := h3
      exact ⟨⟨a, b, rfl, rfl, e5⟩, xs', ys', rfl, rfl, e6⟩
    · rintro ⟨⟨a, b, e1, e2, e5⟩, xs', ys', e3, e4, e6⟩
      exact ⟨(k, a) :: xs', (k, b) :: ys', by simp [valuesAt, e1, e3], by simp [valuesAt, e2, e4],
        by simp [sameItems, e5, e6, Except.map]⟩

theorem sameItems_total {cmp : Val P.F → Val P.F → Except Err Bool}
    {g1 g2 : Key → Except Err (Val P.F)} {ks : List Key} {xs ys : List (Key × Val P.F)}
    (h1 : valuesAt P g1 ks = .ok xs) (h2 : valuesAt P g2 ks = .ok ys)
    (hc : ∀ k ∈ ks, ∀ a b, g1 k = .ok a → g2 k = .ok b → ∃ e, cmp a b = .ok e) :
    ∃ e, sameItems P cmp xs ys = .ok e := by
  induction ks generalizing xs ys with
  | nil =>
    simp only [valuesAt, Except.ok.injEq] at h1 h2
    subst h1 h2
    exact ⟨true, rfl⟩
  | cons k ks ih =>
    simp only [valuesAt] at h1 h2
    cases e1 : g1 k with
    | error x => rw [e1] at h1; cases h1
    | ok a =>
    cases e2 : g2 k with
    | error x => rw [e2] at h2; cases h2
    | ok b =>
    cases e3 : valuesAt P g1 ks with
    | error x => rw [e1, e3] at h1; cases h1
    | ok xs' =>
    cases e4 : valuesAt P g2 ks with
    | error x => rw [e2, e4] at h2; cases h2
    | ok ys' =>
    rw [e1, e3] at h1
    rw [e2, e4] at h2
    injection h1 with h1
    injection h2 with h2
    subst h1 h2
    obtain ⟨e, he⟩ := hc k (by simp) a b e1 e2
    obtain ⟨e', he'⟩ := ih e3 e4 fun k' hk' => hc k' (by simp [hk'])
    exact ⟨e && e', by simp [sameItems, he, he', Except.map]⟩

/-- Comparing array fields of structures with the same table, if the counts of the outer loops
agree. -/
theorem cmpArray_iff {cmp : Val P.F → Val P.F → Except Err Bool} {d : Desc} {S1 S2 : Store P.F}
    {n : Nat} {fi : FInfo} (hn : d.tab[n]? = some fi) (hne : fi.shapes ≠ [])
    (ho : Matches P (look P d.tab S1) (look P d.tab S2) (fun _ => True) fi.shapes.dropLast []) :
    cmpArray P cmp d d S1 S2 n n fi fi = .ok true ↔
      Matches P (look P d.tab S1) (look P d.tab S2)
        (fun k => Equal cmp (getItem P d.tab S1 n k) (getItem P d.tab S2 n k)) fi.shapes [] := by
  have items : ∀ S, fieldItems P d.tab S n =
      match keysFrom P (look P d.tab S) fi.shapes [] with
      | .error x => .error x
      | .ok ks => valuesAt P (fun k => getItem P d.tab S n k) ks := by
    intro S; simp only [fieldItems, hn]; rfl
  constructor
  · intro h
    unfold cmpArray shapeEq at h
    simp only [ne_eq, not_true, if_false] at h
    cases hs : shapeEqFrom P (look P d.tab S1) (look P d.tab S2) fi.shapes fi.shapes [] with
    | error x => rw [hs] at h; cases h
    | ok b =>
      rw [hs] at h
      cases b with
      | false => cases h
      | true =>
        simp only at h
        obtain ⟨ks, k1, k2, k3⟩ := keysFrom_matches (of_shapeEqFrom hne ho hs)
        rw [items, items, k1, k2] at h
        simp only at h
        rw [k3, ← sameItems_iff]
        cases e1 : valuesAt P (fun k => getItem P d.tab S1 n k) ks with
        | error x => rw [e1] at h; cases h
        | ok xs =>
          cases e2 : valuesAt P (fun k => getItem P d.tab S2 n k) ks with
          | error x => rw [e1, e2] at h; cases h
          | ok ys =>
            rw [e1, e2] at h
            exact ⟨xs, ys, rfl, rfl, h⟩
  · intro h
    have hT := h.mono (ok' := fun _ => True) fun _ _ => trivial
    obtain ⟨ks, k1, k2, k3⟩ := keysFrom_matches hT
    rw [k3, ← sameItems_iff] at h
    obtain ⟨xs, ys, e1, e2, e3⟩ := h
    unfold cmpArray shapeEq
    simp only [ne_eq, not_true, if_false, shapeEqFrom_of hne hT]
    rw [items, items, k1, k2]
    simp only [e1, e2, e3]

/-- The direction that needs no assumption about the outer loops. -/
theorem cmpArray_of {cmp : Val P.F → Val P.F → Except Err Bool} {d : Desc} {S1 S2 : Store P.F}
    {n : Nat} {fi : FInfo} (hn : d.tab[n]? = some fi) (hne : fi.shapes ≠ [])
    (h : Matches P (look P d.tab S1) (look P d.tab S2)
        (fun k => Equal cmp (getItem P d.tab S1 n k) (getItem P d.tab S2 n k)) fi.shapes []) :
    cmpArray P cmp d d S1 S2 n n fi fi = .ok true := by
  refine (cmpArray_iff hn hne ?_).mpr h
  have hT := h.mono (ok' := fun _ => True) fun _ _ => trivial
  have : ∀ (es : List Expr) (key : Key),
      Matches P (look P d.tab S1) (look P d.tab S2) (fun _ => True) es key →
      Matches P (look P d.tab S1) (look P d.tab S2) (fun _ => True) es.dropLast key := by
    intro es
    induction es with
    | nil => intro key h; exact h
    | cons e es ih =>
      intro key h
      cases es with
      | nil => trivial
      | cons e' es =>
        rw [List.dropLast_cons_of_ne_nil (by simp)]
        obtain ⟨c, h1, h2, h3⟩ := h
        exact ⟨c, h1, h2, fun i h0 hi => ih _ (h3 i h0 hi)⟩
  exact this _ _ hT

end Verif
