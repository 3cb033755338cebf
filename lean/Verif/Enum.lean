import Verif.Copy
import Verif.Index
import Verif.Diff

/-
Enumerating a struct: `NitfLoop.keys`, `NitfField.items`, `to_list`, `FieldStruct.items`, and what
they have to do with what is written.
-/

namespace Verif

variable {P : PyFloat}

/-! ### Model -/

/-- A python value that is a scalar or a nested list. -/
inductive Nest (F : Type) where
  | leaf (v : Val F)
  | list (xs : List (Nest F))

/-- A list comprehension: the results for each index, or the first exception. -/
def eachIdx {α} (f : Int → Except Err α) : List Int → Except Err (List α)
  | [] => .ok []
  | i :: is =>
    match f i with
    | .error x => .error x
    | .ok a =>
      match eachIdx f is with
      | .error x => .error x
      | .ok r => .ok (a :: r)

/-- `NitfLoop.to_list` (nitf_field.py:637-645), for the loops still to enter. -/
def toListFrom (l : Look P.F) (get : Key → Except Err (Val P.F)) :
    List Expr → Key → Except Err (Nest P.F)
  | [], key => (get key).map .leaf
  | e :: es, key =>
    match evalShape P l e key with
    | .error x => .error x
    | .ok c =>
      match eachIdx (fun i => toListFrom l get es (key ++ [i])) (indices c) with
      | .error x => .error x
      | .ok xs => .ok (.list xs)

/-- `NitfField.to_list` (nitf_field.py:145-148). -/
def toList (T : Tab) (S : Store P.F) (n : Nat) : Except Err (Nest P.F) :=
  match T[n]? with
  | none => .error .attr
  | some fi => toListFrom (look P T S) (fun k => getItem P T S n k) fi.shapes []

/-- `FieldStruct.items()` (nitf_field.py:871-894): name and value of each field; the dictionary holds
the last field of a name. -/
def structItems (d : Desc) (S : Store P.F) : Except Err (List (Name × Nest P.F)) :=
  go (fieldNames d)
where
  go : List Name → Except Err (List (Name × Nest P.F))
    | [] => .ok []
    | nm :: r =>
      match resolve d.tab nm with
      | none => .error .attr
      | some n =>
        match toList d.tab S n with
        | .error x => .error x
        | .ok v =>
          match go r with
          | .error x => .error x
          | .ok vs => .ok ((nm, v) :: vs)

/-- The indices of a field, `loop.keys()`. -/
def fieldKeys (T : Tab) (S : Store P.F) (fi : FInfo) : Except Err (List Key) :=
  keysFrom P (look P T S) fi.shapes []

/-! ### Indices -/

theorem forChunks_all {α} {f : Int → Except Err (List α)} {is : List Int} {cs : List α}
    (h : forChunks f is = .ok cs) : ∀ i ∈ is, ∃ x, f i = .ok x ∧ ∀ a ∈ x, a ∈ cs := by
  induction is generalizing cs with
  | nil => simp
  | cons i is ih =>
    simp only [forChunks] at h
    cases h1 : f i with
    | error e => rw [h1] at h; cases h
    | ok cs1 =>
      rw [h1] at h
      simp only at h
      cases h2 : forChunks f is with
      | error e => rw [h2] at h; cases h
      | ok cs2 =>
        rw [h2] at h
        injection h with h
        subst h
        intro j hj
        rw [List.mem_cons] at hj
        rcases hj with rfl | hj
        · exact ⟨cs1, h1, fun a ha => List.mem_append.mpr (.inl ha)⟩
        · obtain ⟨x, hx, hm⟩ := ih h2 j hj
          exact ⟨x, hx, fun a ha => List.mem_append.mpr (.inr (hm a ha))⟩

/-- The enumerated keys continue the given one by indices in range. -/
theorem mem_keysFrom {l : Look P.F} (es : List Expr) :
    ∀ (key : Key) (ks : List Key), keysFrom P l es key = .ok ks → ∀ k, k ∈ ks ↔
      key <+: k ∧ k.length = key.length + es.length ∧
      ∀ (j : Nat) (e : Expr), es[j]? = some e → ∃ i c, k[key.length + j]? = some i ∧
        evalShape P l e (k.take (key.length + j)) = .ok c ∧ 0 ≤ i ∧ i < c := by
  induction es with
  | nil =>
    intro key ks h k
    simp only [keysFrom] at h
    injection h with h
    subst h
    simp only [List.mem_singleton, List.length_nil, Nat.add_zero]
    constructor
    · rintro rfl
      exact ⟨List.prefix_refl _, rfl, by simp⟩
    · rintro ⟨h1, h2, _⟩
      exact (h1.eq_of_length h2.symm).symm
  | cons e es ih =>
    intro key ks h k
    simp only [keysFrom] at h
    cases hs : evalShape P l e key with
    | error x => rw [hs] at h; cases h
    | ok c =>
      rw [hs] at h
      simp only at h
      constructor
      · intro hk
        obtain ⟨i, hi, ks', h1, h2⟩ := forChunks_mem h hk
        obtain ⟨hp, hl, hr⟩ := (ih _ _ h1 k).mp h2
        rw [mem_indices] at hi
        have hpk : key <+: k := (List.prefix_append _ _).trans hp
        refine ⟨hpk, by simp only [List.length_append, List.length_cons, List.length_nil] at hl ⊢; omega, ?_⟩
        intro j e' he'
        cases j with
        | zero =>
          rw [List.getElem?_cons_zero] at he'
          injection he' with he'
          subst he'
          refine ⟨i, c, ?_, ?_, hi.1, hi.2⟩
          · obtain ⟨t, ht⟩ := hp
            rw [← ht, List.append_assoc, Nat.add_zero, List.getElem?_append_right (Nat.le_refl _)]
            simp
          · obtain ⟨t, ht⟩ := hpk
            rw [← ht, Nat.add_zero, List.take_left]
            exact hs
        | succ j =>
          rw [List.getElem?_cons_succ] at he'
          obtain ⟨i', c', g1, g2, g3⟩ := hr j e' he'
          simp only [List.length_append, List.length_cons, List.length_nil] at g1 g2
          rw [show key.length + (j + 1) = key.length + (0 + 1) + j by omega]
          exact ⟨i', c', g1, g2, g3⟩
      · rintro ⟨hp, hl, hr⟩
        obtain ⟨i, c', h1, h2, h3, h4⟩ := hr 0 e rfl
        rw [Nat.add_zero] at h1 h2
        obtain ⟨t, rfl⟩ := hp
        rw [List.take_left, hs] at h2
        injection h2 with h2
        subst h2
        obtain ⟨ks', hk1, hk2⟩ := forChunks_all h i (mem_indices.mpr ⟨h3, h4⟩)
        refine hk2 _ ((ih _ _ hk1 _).mpr ⟨?_, ?_, ?_⟩)
        · cases t with
          | nil => simp at h1
          | cons a t =>
            rw [List.getElem?_append_right (Nat.le_refl _), Nat.sub_self, List.getElem?_cons_zero] at h1
            injection h1 with h1
            subst h1
            exact ⟨t, by simp⟩
        · simp only [List.length_append, List.length_cons, List.length_nil] at hl ⊢
          omega
        · intro j e' he'
          obtain ⟨i', c', g⟩ := hr (j + 1) e' (by rw [List.getElem?_cons_succ]; exact he')
          simp only [List.length_append, List.length_cons, List.length_nil]
          rw [show key.length + (0 + 1) + j = key.length + (j + 1) by omega]
          exact ⟨i', c', g⟩

/-- Row-major order of indices. -/
def Before (k k' : Key) : Prop :=
  ∃ (j : Nat) (i i' : Int), k.take j = k'.take j ∧ k[j]? = some i ∧ k'[j]? = some i' ∧ i < i'

theorem indices_pairwise (c : Int) : (indices c).Pairwise (· < ·) := by
  unfold indices
  rw [List.pairwise_map]
  exact List.Pairwise.imp (fun h => Int.ofNat_lt.mpr h) List.pairwise_lt_range

theorem keysFrom_sorted {l : Look P.F} (es : List Expr) :
    ∀ (key : Key) (ks : List Key), keysFrom P l es key = .ok ks → ks.Pairwise Before := by
  induction es with
  | nil =>
    intro key ks h
    simp only [keysFrom] at h
    injection h with h
    subst h
    exact List.pairwise_singleton _ _
  | cons e es ih =>
    intro key ks h
    simp only [keysFrom] at h
    cases hs : evalShape P l e key with
    | error x => rw [hs] at h; cases h
    | ok c =>
      rw [hs] at h
      simp only at h
      have hlt := indices_pairwise c
      generalize indices c = is at h hlt
      induction is generalizing ks with
      | nil => simp only [forChunks] at h; injection h with h; subst h; exact List.Pairwise.nil
      | cons i is ihi =>
        simp only [forChunks] at h
        cases h1 : keysFrom P l es (key ++ [i]) with
        | error e => rw [h1] at h; cases h
        | ok ks1 =>
          rw [h1] at h
          simp only at h
          cases h2 : forChunks (fun i => keysFrom P l es (key ++ [i])) is with
          | error e => rw [h2] at h; cases h
          | ok ks2 =>
            rw [h2] at h
            injection h with h
            subst h
            rw [List.pairwise_cons] at hlt
            rw [List.pairwise_append]
            refine ⟨ih _ _ h1, ihi _ h2 hlt.2, ?_⟩
            intro a ha b hb
            obtain ⟨i', hi', ks', h3, h4⟩ := forChunks_mem h2 hb
            obtain ⟨⟨s, rfl⟩, _⟩ := (mem_keysFrom es _ _ h1 a).mp ha
            obtain ⟨⟨t, rfl⟩, _⟩ := (mem_keysFrom es _ _ h3 b).mp h4
            refine ⟨key.length, i, i', ?_, ?_, ?_, hlt.1 i' hi'⟩ <;> simp

/-! ### Nested lists -/

/-- The scalars of a nested list from left to right. -/
def Nest.leaves {F} : Nest F → List (Val F)
  | .leaf v => [v]
  | .list xs => go xs
where
  go : List (Nest F) → List (Val F)
    | [] => []
    | x :: xs => x.leaves ++ go xs

/-- `x[i1][i2]...` for indices that are not negative. -/
def Nest.sub {F} : Nest F → Key → Option (Nest F)
  | x, [] => some x
  | .leaf _, _ :: _ => none
  | .list xs, i :: k => if i < 0 then none else
      match xs[i.toNat]? with
      | none => none
      | some x => x.sub k

theorem eachIdx_get {α} {f : Int → Except Err α} {is : List Int} {xs : List α}
    (h : eachIdx f is = .ok xs) :
    xs.length = is.length ∧ ∀ (j : Nat) i, is[j]? = some i → ∃ x, xs[j]? = some x ∧ f i = .ok x := by
  induction is generalizing xs with
  | nil => simp only [eachIdx] at h; injection h with h; subst h; simp
  | cons i is ih =>
    simp only [eachIdx] at h
    cases h1 : f i with
    | error e => rw [h1] at h; cases h
    | ok a =>
      rw [h1] at h
      simp only at h
      cases h2 : eachIdx f is with
      | error e => rw [h2] at h; cases h
      | ok r =>
        rw [h2] at h
        injection h with h
        subst h
        obtain ⟨hl, hg⟩ := ih h2
        refine ⟨by simp [hl], ?_⟩
        intro j i' hj
        cases j with
        | zero => simp at hj; subst hj; exact ⟨a, by simp, h1⟩
        | succ j => exact hg j i' (by simpa using hj)

theorem valuesAt_append {g : Key → Except Err (Val P.F)} (ks ks' : List Key) :
    valuesAt P g (ks ++ ks') =
      match valuesAt P g ks with
      | .error x => .error x
      | .ok a => match valuesAt P g ks' with
        | .error x => .error x
        | .ok b => .ok (a ++ b) := by
  induction ks with
  | nil =>
    simp only [List.nil_append, valuesAt]
    cases valuesAt P g ks' <;> rfl
  | cons k ks ih =>
    simp only [List.cons_append, valuesAt, ih]
    cases g k with
    | error e => rfl
    | ok v =>
      simp only
      cases valuesAt P g ks with
      | error e => rfl
      | ok a =>
        simp only
        cases valuesAt P g ks' with
        | error e => rfl
        | ok b => simp

/-- A nested list and the flat enumeration have the same scalars, and one exists iff the other
does. -/
theorem toListFrom_leaves {l : Look P.F} {get : Key → Except Err (Val P.F)} (es : List Expr) :
    ∀ key, (∀ x, toListFrom l get es key = .ok x →
        ∃ ks vs, keysFrom P l es key = .ok ks ∧ valuesAt P get ks = .ok vs ∧
          x.leaves = vs.map (·.2)) ∧
      (∀ ks vs, keysFrom P l es key = .ok ks → valuesAt P get ks = .ok vs →
        ∃ x, toListFrom l get es key = .ok x) := by
  induction es with
  | nil =>
    intro key
    simp only [toListFrom, keysFrom]
    constructor
    · intro x h
      cases hg : get key with
      | error e => rw [hg] at h; cases h
      | ok v =>
        rw [hg] at h
        simp only [Except.map] at h
        injection h with h
        subst h
        exact ⟨[key], [(key, v)], rfl, by simp [valuesAt, hg], by simp [Nest.leaves]⟩
    · intro ks vs h hv
      injection h with h
      subst h
      simp only [valuesAt] at hv
      cases hg : get key with
      | error e => rw [hg] at hv; cases hv
      | ok v => exact ⟨_, rfl⟩
  | cons e es ih =>
    intro key
    simp only [toListFrom, keysFrom]
    cases hs : evalShape P l e key with
    | error x => constructor <;> (intros; contradiction)
    | ok c =>
      simp only
      have key' : ∀ is,
          (∀ xs, eachIdx (fun i => toListFrom l get es (key ++ [i])) is = .ok xs →
            ∃ ks vs, forChunks (fun i => keysFrom P l es (key ++ [i])) is = .ok ks ∧
              valuesAt P get ks = .ok vs ∧ Nest.leaves.go xs = vs.map (·.2)) ∧
          (∀ ks vs, forChunks (fun i => keysFrom P l es (key ++ [i])) is = .ok ks →
            valuesAt P get ks = .ok vs →
            ∃ xs, eachIdx (fun i => toListFrom l get es (key ++ [i])) is = .ok xs) := by
        intro is
        induction is with
        | nil =>
          simp only [eachIdx, forChunks]
          constructor
          · intro xs h
            injection h with h
            subst h
            exact ⟨[], [], rfl, rfl, rfl⟩
          · intro ks vs _ _
            exact ⟨[], rfl⟩
        | cons i is ihi =>
          simp only [eachIdx, forChunks]
          obtain ⟨f1, f2⟩ := ih (key ++ [i])
          obtain ⟨g1, g2⟩ := ihi
          constructor
          · intro xs h
            cases h1 : toListFrom l get es (key ++ [i]) with
            | error x => rw [h1] at h; cases h
            | ok x =>
              rw [h1] at h
              simp only at h
              cases h2 : eachIdx (fun i => toListFrom l get es (key ++ [i])) is with
              | error x => rw [h2] at h; cases h
              | ok r =>
                rw [h2] at h
                injection h with h
                subst h
                obtain ⟨ks, vs, a1, a2, a3⟩ := f1 x h1
                obtain ⟨ks', vs', b1, b2, b3⟩ := g1 r h2
                refine ⟨ks ++ ks', vs ++ vs', by rw [a1, b1], ?_, ?_⟩
                · rw [valuesAt_append, a2, b2]
                · simp only [Nest.leaves.go, a3, b3, List.map_append]
          · intro ks vs h hv
            cases h1 : keysFrom P l es (key ++ [i]) with
            | error x => rw [h1] at h; cases h
            | ok ks1 =>
              rw [h1] at h
              simp only at h
              cases h2 : forChunks (fun i => keysFrom P l es (key ++ [i])) is with
              | error x => rw [h2] at h; cases h
              | ok ks2 =>
                rw [h2] at h
                injection h with h
                subst h
                rw [valuesAt_append] at hv
                cases hv1 : valuesAt P get ks1 with
                | error x => rw [hv1] at hv; cases hv
                | ok a =>
                  rw [hv1] at hv
                  simp only at hv
                  cases hv2 : valuesAt P get ks2 with
                  | error x => rw [hv2] at hv; cases hv
                  | ok b =>
                    obtain ⟨x, hx⟩ := f2 ks1 a h1 hv1
                    obtain ⟨xs, hxs⟩ := g2 ks2 b h2 hv2
                    exact ⟨x :: xs, by rw [hx, hxs]⟩
      obtain ⟨k1, k2⟩ := key' (indices c)
      constructor
      · intro x h
        cases h1 : eachIdx (fun i => toListFrom l get es (key ++ [i])) (indices c) with
        | error x => rw [h1] at h; cases h
        | ok xs =>
          rw [h1] at h
          injection h with h
          subst h
          exact k1 xs h1
      · intro ks vs h hv
        obtain ⟨xs, hxs⟩ := k2 ks vs h hv
        exact ⟨.list xs, by rw [hxs]⟩

/-- Indexing the nested list gives the values. -/
theorem toListFrom_sub {l : Look P.F} {get : Key → Except Err (Val P.F)} (es : List Expr) :
    ∀ key x, toListFrom l get es key = .ok x → ∀ k ks, keysFrom P l es key = .ok ks → key ++ k ∈ ks →
      ∃ v, get (key ++ k) = .ok v ∧ x.sub k = some (.leaf v) := by
  induction es with
  | nil =>
    intro key x h k ks hks hk
    simp only [keysFrom] at hks
    injection hks with hks
    subst hks
    simp only [List.mem_singleton, List.append_right_eq_self] at hk
    subst hk
    simp only [toListFrom] at h
    rw [List.append_nil]
    cases hg : get key with
    | error e => rw [hg] at h; cases h
    | ok v =>
      rw [hg] at h
      simp only [Except.map] at h
      injection h with h
      subst h
      exact ⟨v, rfl, rfl⟩
  | cons e es ih =>
    intro key x h k ks hks hk
    simp only [keysFrom] at hks
    simp only [toListFrom] at h
    cases hs : evalShape P l e key with
    | error x => rw [hs] at h; cases h
    | ok c =>
      rw [hs] at h hks
      simp only at h hks
      cases h1 : eachIdx (fun i => toListFrom l get es (key ++ [i])) (indices c) with
      | error x => rw [h1] at h; cases h
      | ok xs =>
        rw [h1] at h
        injection h with h
        subst h
        obtain ⟨i, hi, ks', h2, h3⟩ := forChunks_mem hks hk
        obtain ⟨⟨t, ht⟩, _⟩ := (mem_keysFrom es _ _ h2 _).mp h3
        rw [List.append_assoc, List.append_cancel_left_eq] at ht
        subst ht
        rw [mem_indices] at hi
        obtain ⟨hl, hg⟩ := eachIdx_get h1
        have hidx : (indices c)[i.toNat]? = some i := by
          unfold indices
          rw [List.getElem?_map, List.getElem?_range (by omega)]
          show some (i.toNat : Int) = some i
          congr 1
          omega
        obtain ⟨y, hy, hf⟩ := hg _ _ hidx
        rw [← List.append_assoc] at h3
        obtain ⟨v, hv, hsub⟩ := ih (key ++ [i]) y hf t ks' h2 h3
        refine ⟨v, ?_, ?_⟩
        · rw [List.append_assoc] at hv
          exact hv
        · simp only [List.cons_append, List.nil_append, Nest.sub, if_neg (show ¬ i < 0 by omega), hy]
          exact hsub

/-- Conversely an index sequence that leads to a scalar is an enumerated one. -/
theorem toListFrom_mem {l : Look P.F} {get : Key → Except Err (Val P.F)} (es : List Expr) :
    ∀ key x, toListFrom l get es key = .ok x → ∀ k v, x.sub k = some (.leaf v) →
      ∀ ks, keysFrom P l es key = .ok ks → key ++ k ∈ ks := by
  induction es with
  | nil =>
    intro key x h k v hk ks hks
    simp only [keysFrom] at hks
    injection hks with hks
    subst hks
    simp only [toListFrom] at h
    cases hg : get key with
    | error e => rw [hg] at h; cases h
    | ok w =>
      rw [hg] at h
      simp only [Except.map] at h
      injection h with h
      subst h
      cases k with
      | nil => simp
      | cons i k => simp [Nest.sub] at hk
  | cons e es ih =>
    intro key x h k v hk ks hks
    simp only [keysFrom] at hks
    simp only [toListFrom] at h
    cases hs : evalShape P l e key with
    | error x => rw [hs] at h; cases h
    | ok c =>
      rw [hs] at h hks
      simp only at h hks
      cases h1 : eachIdx (fun i => toListFrom l get es (key ++ [i])) (indices c) with
      | error x => rw [h1] at h; cases h
      | ok xs =>
        rw [h1] at h
        injection h with h
        subst h
        cases k with
        | nil => simp [Nest.sub] at hk
        | cons i k =>
          simp only [Nest.sub] at hk
          split at hk
          · cases hk
          · rename_i hi
            cases hx : xs[i.toNat]? with
            | none => rw [hx] at hk; cases hk
            | some y =>
              rw [hx] at hk
              simp only at hk
              obtain ⟨hl, hg⟩ := eachIdx_get h1
              have hlt := lt_of_getElem? hx
              rw [hl] at hlt
              have hlt' : i.toNat < c.toNat := by simpa [indices] using hlt
              have hidx : (indices c)[i.toNat]? = some i := by
                unfold indices
                rw [List.getElem?_map, List.getElem?_range hlt']
                show some (i.toNat : Int) = some i
                congr 1
                omega
              obtain ⟨y', hy', hf⟩ := hg _ _ hidx
              rw [hx] at hy'
              injection hy' with hy'
              subst hy'
              obtain ⟨ks', hk1, hk2⟩ := forChunks_all hks i (List.mem_of_getElem? hidx)
              have := hk2 _ (ih (key ++ [i]) y hf k v hk ks' hk1)
              rwa [List.append_assoc] at this

/-! ### Names -/

theorem namesFrom_spec (T : Tab) : ∀ seen,
    (namesFrom seen T).Nodup ∧ ∀ nm, nm ∈ namesFrom seen T ↔
      nm ∉ seen ∧ ∃ fi ∈ T, fi.fd.name = some nm := by
  induction T with
  | nil => intro seen; simp [namesFrom]
  | cons fi r ih =>
    intro seen
    simp only [namesFrom]
    cases hn : fi.fd.name with
    | none =>
      simp only
      refine ⟨(ih seen).1, fun nm => ?_⟩
      rw [(ih seen).2 nm]
      simp [hn]
    | some a =>
      simp only
      split
      · rename_i hin
        refine ⟨(ih seen).1, fun nm => ?_⟩
        rw [(ih seen).2 nm]
        simp only [List.mem_cons, exists_eq_or_imp, hn, Option.some.injEq]
        constructor
        · exact fun h => ⟨h.1, .inr h.2⟩
        · rintro ⟨h1, h2 | h2⟩
          · subst h2; exact absurd hin h1
          · exact ⟨h1, h2⟩
      · rename_i hin
        obtain ⟨h1, h2⟩ := ih (a :: seen)
        constructor
        · rw [List.nodup_cons]
          exact ⟨fun h => ((h2 a).mp h).1 (by simp), h1⟩
        · intro nm
          rw [List.mem_cons, h2 nm]
          simp only [List.mem_cons, exists_eq_or_imp, hn, Option.some.injEq, not_or]
          constructor
          · rintro (rfl | h)
            · exact ⟨hin, .inl rfl⟩
            · exact ⟨h.1.2, .inr h.2⟩
          · rintro ⟨h1, h2 | h2⟩
            · exact .inl h2.symm
            · by_cases e : nm = a
              · exact .inl e
              · exact .inr ⟨⟨e, h1⟩, h2⟩

theorem resolveFrom_last (nm : Name) (T : Tab) : ∀ k n, resolveFrom nm k T = some n ↔
    k ≤ n ∧ (∃ fi, T[n - k]? = some fi ∧ fi.fd.name = some nm) ∧
    ∀ m fi, n - k < m → T[m]? = some fi → fi.fd.name ≠ some nm := by
  induction T with
  | nil => intro k n; simp [resolveFrom]
  | cons f r ih =>
    intro k n
    simp only [resolveFrom]
    cases h1 : resolveFrom nm (k + 1) r with
    | some m' =>
      obtain ⟨g1, ⟨fm, g2, g2'⟩, g3⟩ := (ih (k + 1) m').mp h1
      simp only [Option.some.injEq]
      constructor
      · rintro rfl
        refine ⟨by omega, ⟨fm, ?_, g2'⟩, ?_⟩
        · rw [show m' - k = (m' - (k + 1)) + 1 by omega, List.getElem?_cons_succ]
          exact g2
        · intro m fi hlt hm
          cases m with
          | zero => omega
          | succ m => exact g3 m fi (by omega) (by simpa using hm)
      · rintro ⟨e1, ⟨fi, e2, e2'⟩, e3⟩
        have a1 : ¬ n - k < m' - k := fun hlt =>
          e3 (m' - k) fm hlt (by
            rw [show m' - k = (m' - (k + 1)) + 1 by omega, List.getElem?_cons_succ]; exact g2) g2'
        have a2 : ¬ m' - k < n - k := fun hlt => by
          refine g3 (n - (k + 1)) fi (by omega) ?_ e2'
          rw [show n - k = (n - (k + 1)) + 1 by omega, List.getElem?_cons_succ] at e2
          exact e2
        omega
    | none =>
      simp only
      have hno : ∀ (m : Nat) (fi : FInfo), r[m]? = some fi → fi.fd.name ≠ some nm := by
        clear ih
        have gen : ∀ (U : Tab) (k : Nat), resolveFrom nm k U = none →
            ∀ fi ∈ U, fi.fd.name ≠ some nm := by
          intro U
          induction U with
          | nil => simp
          | cons a U ihU =>
            intro k h
            simp only [resolveFrom] at h
            cases h2 : resolveFrom nm (k + 1) U with
            | some x => rw [h2] at h; cases h
            | none =>
              rw [h2] at h
              simp only at h
              split at h
              · cases h
              · rename_i hne
                intro fi hfi
                rw [List.mem_cons] at hfi
                rcases hfi with rfl | hfi
                · exact hne
                · exact ihU (k + 1) h2 fi hfi
        exact fun m fi hm => gen r (k + 1) h1 fi (List.mem_of_getElem? hm)
      split
      · rename_i hnm
        simp only [Option.some.injEq]
        constructor
        · rintro rfl
          refine ⟨Nat.le_refl _, ⟨f, by simp, hnm⟩, ?_⟩
          intro m fi hlt hm
          cases m with
          | zero => omega
          | succ m => exact hno m fi (by simpa using hm)
        · rintro ⟨e1, ⟨fi, e2, e2'⟩, _⟩
          cases hz : n - k with
          | zero => omega
          | succ z =>
            rw [hz, List.getElem?_cons_succ] at e2
            exact absurd e2' (hno z fi e2)
      · rename_i hnm
        constructor
        · intro h; cases h
        · rintro ⟨e1, ⟨fi, e2, e2'⟩, _⟩
          cases hz : n - k with
          | zero =>
            rw [hz, List.getElem?_cons_zero] at e2
            injection e2 with e2
            subst e2
            exact absurd e2' hnm
          | succ z =>
            rw [hz, List.getElem?_cons_succ] at e2
            exact absurd e2' (hno z fi e2)

/-! ### What is written -/

theorem filter_none {α} {p : α → Bool} {l : List α} (h : ∀ a ∈ l, p a = false) : l.filter p = [] := by
  rw [List.filter_eq_nil_iff]
  intro a ha hp
  rw [h a ha] at hp
  cases hp

/-- Whether the field is present at the index. -/
def present (l : Look P.F) (fi : FInfo) (k : Key) : Bool :=
  match evalCond P l fi k with
  | .ok b => b
  | .error _ => false

/-- The slots of the field at `m` are its enumerated indices at which it is present. -/
theorem layoutD_keys {T : Tab} (S : Store P.F) (d : Desc) :
    ∀ (n : Nat) (sh : List Expr) (st : List Nat) (key : Key) (sl : List Slot),
      At T n sh st d → layoutD P T S n key d = .ok sl →
      ∀ m fi es, n ≤ m → m < n + d.count → T[m]? = some fi → fi.shapes = sh ++ es →
        ∃ ks, keysFrom P (look P T S) es key = .ok ks ∧
          (∀ k ∈ ks, ∃ b, evalCond P (look P T S) fi k = .ok b) ∧
          (sl.filter fun s => s.pos == m).map Slot.key = ks.filter (present (look P T S) fi) := by
  induction d with
  | nil =>
    intro n sh st key sl _ _ m fi es h1 h2
    simp only [Desc.count] at h2
    omega
  | field fd r ih =>
    intro n sh st key sl hat h m fi es h1 h2 hm hes
    obtain ⟨hn, hat'⟩ := hat.field
    simp only [layoutD, hn] at h
    simp only [Desc.count] at h2
    have hge : ∀ sl1, layoutD P T S (n + 1) key r = .ok sl1 → sl1.filter (fun s => s.pos == n) = [] :=
      fun sl1 hl => filter_none fun s hs => by
        have := (layoutD_from P S r _ _ _ hl s hs).1
        simp only [beq_eq_false_iff_ne, ne_eq]
        omega
    by_cases hmn : m = n
    · subst hmn
      rw [hn] at hm
      injection hm with hm
      subst hm
      simp only at hes
      have : es = [] := by simpa using hes
      subst this
      refine ⟨[key], rfl, ?_⟩
      cases hc : evalCond P (look P T S) ⟨fd, sh, st⟩ key with
      | error e => rw [hc] at h; cases h
      | ok b =>
        refine ⟨fun k hk => ⟨b, by rw [List.mem_singleton.mp hk]; exact hc⟩, ?_⟩
        rw [hc] at h
        cases b with
        | false =>
          simp only at h
          rw [hge sl h]
          simp [present, hc]
        | true =>
          simp only at h
          cases hb : evalSize P (look P T S) ⟨fd, sh, st⟩ key with
          | error e => rw [hb] at h; cases h
          | ok sz =>
            rw [hb] at h
            simp only at h
            cases hw : layoutD P T S (m + 1) key r with
            | error e => rw [hw] at h; cases h
            | ok sl1 =>
              rw [hw] at h
              injection h with h
              subst h
              simp [hge sl1 hw, present, hc]
    · have hrest : ∀ sl1, layoutD P T S (n + 1) key r = .ok sl1 → ∃ ks,
          keysFrom P (look P T S) es key = .ok ks ∧
          (∀ k ∈ ks, ∃ b, evalCond P (look P T S) fi k = .ok b) ∧
          (sl1.filter fun s => s.pos == m).map Slot.key = ks.filter (present (look P T S) fi) :=
        fun sl1 hl => ih (n + 1) sh st key sl1 hat' hl m fi es (by omega) (by omega) hm hes
      cases hc : evalCond P (look P T S) ⟨fd, sh, st⟩ key with
      | error e => rw [hc] at h; cases h
      | ok b =>
        rw [hc] at h
        cases b with
        | false => exact hrest sl h
        | true =>
          simp only at h
          cases hb : evalSize P (look P T S) ⟨fd, sh, st⟩ key with
          | error e => rw [hb] at h; cases h
          | ok sz =>
            rw [hb] at h
            simp only at h
            cases hw : layoutD P T S (n + 1) key r with
            | error e => rw [hw] at h; cases h
            | ok sl1 =>
              rw [hw] at h
              injection h with h
              subst h
              rw [List.filter_cons_of_neg (by simpa using fun e => hmn e.symm)]
              exact hrest sl1 hw
  | loop e body r ihb ihr =>
    intro n sh st key sl hat h m fi es h1 h2 hm hes
    obtain ⟨_, hatb, hatr⟩ := hat.loop
    simp only [layoutD] at h
    simp only [Desc.count] at h2
    cases hs : evalShape P (look P T S) e key with
    | error x => rw [hs] at h; cases h
    | ok c =>
      rw [hs] at h
      simp only at h
      cases hf : forChunks (fun i => layoutD P T S n (key ++ [i]) body) (indices c) with
      | error x => rw [hf] at h; cases h
      | ok sl1 =>
        rw [hf] at h
        simp only at h
        cases hr : layoutD P T S (n + body.count) key r with
        | error x => rw [hr] at h; cases h
        | ok sl2 =>
          rw [hr] at h
          injection h with h
          subst h
          rw [List.filter_append, List.map_append]
          by_cases hb : m < n + body.count
          · have hout : sl2.filter (fun s => s.pos == m) = [] := filter_none fun s hs => by
              have := (layoutD_from P S r _ _ _ hr s hs).1
              simp only [beq_eq_false_iff_ne, ne_eq]
              omega
            rw [hout, List.map_nil, List.append_nil]
            obtain ⟨fi', hfi', _, hpre⟩ := hatb.inside h1 hb
            rw [hm] at hfi'
            injection hfi' with hfi'
            subst hfi'
            obtain ⟨es', hes'⟩ := hpre
            have : es = e :: es' := by
              rw [hes, List.append_assoc, List.append_cancel_left_eq] at hes'
              exact hes'.symm
            subst this
            simp only [keysFrom, hs]
            clear hr hout h2
            generalize indices c = is at hf
            induction is generalizing sl1 with
            | nil =>
              simp only [forChunks] at hf
              injection hf with hf
              subst hf
              exact ⟨[], rfl, by simp, rfl⟩
            | cons i is ihi =>
              simp only [forChunks] at hf
              cases g1 : layoutD P T S n (key ++ [i]) body with
              | error x => rw [g1] at hf; cases hf
              | ok a =>
                rw [g1] at hf
                simp only at hf
                cases g2 : forChunks (fun i => layoutD P T S n (key ++ [i]) body) is with
                | error x => rw [g2] at hf; cases hf
                | ok b =>
                  rw [g2] at hf
                  injection hf with hf
                  subst hf
                  obtain ⟨ks1, a1, a2, a3⟩ := ihb n _ _ _ a hatb g1 m fi es' h1 hb hm hes'.symm
                  obtain ⟨ks2, b1, b2, b3⟩ := ihi b g2
                  refine ⟨ks1 ++ ks2, by simp only [forChunks, a1, b1], ?_, ?_⟩
                  · intro k hk
                    exact (List.mem_append.mp hk).elim (a2 k) (b2 k)
                  · rw [List.filter_append, List.map_append, List.filter_append, a3, b3]
          · have hout : sl1.filter (fun s => s.pos == m) = [] := filter_none fun s hs => by
              obtain ⟨i, _, x, hx, hsx⟩ := forChunks_mem hf hs
              have := (layoutD_from P S body _ _ _ hx s hsx).2.1
              simp only [beq_eq_false_iff_ne, ne_eq]
              omega
            rw [hout, List.map_nil, List.nil_append]
            exact ihr (n + body.count) sh st key sl2 hatr hr m fi es (by omega) (by omega) hm hes

theorem layout_keys {d : Desc} (hd : d.causal = true) {S : Store P.F} {sl : List Slot}
    (h : layout P d S = .ok sl) {m : Nat} {fi : FInfo} (hm : d.tab[m]? = some fi) :
    ∃ ks, fieldKeys d.tab S fi = .ok ks ∧
      (∀ k ∈ ks, ∃ b, evalCond P (look P d.tab S) fi k = .ok b) ∧
      (sl.filter fun s => s.pos == m).map Slot.key = ks.filter (present (look P d.tab S) fi) := by
  have hlt : m < d.count := by
    have := lt_of_getElem? hm
    rwa [Desc.tab, length_flatten] at this
  exact layoutD_keys S d 0 [] [] [] sl (at_top d hd) h m fi fi.shapes (Nat.zero_le _) (by omega) hm
    (by simp)

end Verif
