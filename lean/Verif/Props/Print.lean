import Verif.Print
import Verif.Props.Enum
import Verif.FileRun

/- C65: what `str(struct)` shows (model in `Verif/Print.lean`). -/

namespace Verif

variable {P : PyFloat}

/-! ### Specification -/

/-- The elements of all named fields: the fields in the order of the table, each with its `items()`. -/
def allItems (T : Tab) (S : Store P.F) : Nat → Tab → Except Err (List (Nat × Key × Val P.F))
  | _, [] => .ok []
  | n, fi :: r =>
    match (if fi.fd.name = none then Except.ok [] else fieldItems P T S n) with
    | .error x => .error x
    | .ok its =>
      match allItems T S (n + 1) r with
      | .error x => .error x
      | .ok rest => .ok (its.map (fun kv => (n, kv.1, kv.2)) ++ rest)

/-- The element a line shows. -/
def Line.shows {F : Type} : Line F → Option (Nat × Key × Val F)
  | .head _ _ => none
  | .item _ _ n _ k v => some (n, k, v)

def Desc.hasNamed : Desc → Bool
  | .nil => false
  | .field fd r => fd.name.isSome || r.hasNamed
  | .loop _ b r => b.hasNamed || r.hasNamed

/-- Every loop contains a named field. -/
def Desc.loopsNamed : Desc → Bool
  | .nil => true
  | .field _ r => r.loopsNamed
  | .loop _ b r => b.hasNamed && b.loopsNamed && r.loopsNamed

/-! ### Lemmas -/

theorem allItems_append {T : Tab} {S : Store P.F} (b : Tab) : ∀ (a : Tab) (n : Nat),
    allItems T S n (a ++ b) =
      match allItems T S n a with
      | .error x => .error x
      | .ok x =>
        match allItems T S (n + a.length) b with
        | .error e => .error e
        | .ok y => .ok (x ++ y) := by
  intro a
  induction a with
  | nil =>
    intro n
    simp only [List.nil_append, allItems, List.length_nil, Nat.add_zero]
    cases allItems T S n b <;> rfl
  | cons fi r ih =>
    intro n
    simp only [List.cons_append, allItems, ih, List.length_cons]
    rw [show n + (r.length + 1) = n + 1 + r.length by omega]
    generalize (if fi.fd.name = none then Except.ok [] else fieldItems P T S n) = q
    cases q with
    | error e => rfl
    | ok its =>
      simp only
      cases allItems T S (n + 1) r with
      | error e => rfl
      | ok x =>
        simp only
        cases allItems T S (n + 1 + r.length) b with
        | error e => rfl
        | ok y => simp

/-- The description is the part of the table from position `n` on. -/
def Here (T : Tab) (n : Nat) (sh : List Expr) (st : List Nat) (d : Desc) : Prop :=
  flatten n sh st d <+: T.drop n

theorem Here.field {T : Tab} {n : Nat} {sh : List Expr} {st : List Nat} {fd : FieldDef} {r : Desc}
    (h : Here T n sh st (.field fd r)) : T[n]? = some ⟨fd, sh, st⟩ ∧ Here T (n + 1) sh st r := by
  obtain ⟨t, ht⟩ := h
  simp only [flatten, List.cons_append] at ht
  refine ⟨?_, ?_⟩
  · have : (T.drop n)[0]? = some ⟨fd, sh, st⟩ := by rw [← ht]; rfl
    simpa using this
  · refine ⟨t, ?_⟩
    have : T.drop (n + 1) = (T.drop n).drop 1 := by rw [List.drop_drop]
    rw [this, ← ht]; rfl

theorem Here.loop {T : Tab} {n : Nat} {sh : List Expr} {st : List Nat} {e : Expr} {b r : Desc}
    (h : Here T n sh st (.loop e b r)) :
    Here T n (sh ++ [e]) (st ++ [n]) b ∧ Here T (n + b.count) sh st r := by
  obtain ⟨t, ht⟩ := h
  simp only [flatten] at ht
  refine ⟨⟨_, by rw [← List.append_assoc, ht]⟩, ⟨t, ?_⟩⟩
  have : T.drop (n + b.count) = (T.drop n).drop b.count := by rw [List.drop_drop]
  rw [this, ← ht, List.append_assoc]
  have hlen := length_flatten n (sh ++ [e]) (st ++ [n]) b
  rw [List.drop_append, hlen, List.drop_of_length_le (by omega)]
  simp

theorem here_top (d : Desc) : Here d.tab 0 [] [] d := by simp [Here, Desc.tab]

theorem fieldLines_eq {T : Tab} {S : Store P.F} {w n : Nat} {sh : List Expr} {st : List Nat}
    {fd : FieldDef} (h : T[n]? = some ⟨fd, sh, st⟩) :
    (fieldLines T S w sh n fd.name).map (fun l => l.filterMap Line.shows) =
      (if fd.name = none then Except.ok [] else fieldItems P T S n).map
        fun its => its.map fun kv => (n, kv.1, kv.2) := by
  cases hn : fd.name with
  | none => simp [fieldLines, Except.map]
  | some nm =>
    rw [if_neg (by simp)]
    unfold fieldLines fieldItems
    rw [h]
    simp only
    cases keysFrom P (look P T S) sh [] with
    | error e => rfl
    | ok ks =>
      simp only
      cases valuesAt P (fun k => getItem P T S n k) ks with
      | error e => rfl
      | ok vs =>
        simp only [Except.map, Except.ok.injEq]
        rw [List.filterMap_map]
        induction vs with
        | nil => rfl
        | cons x r ih =>
          rw [List.filterMap_cons, ih]
          rfl

theorem exceptMap_ok {ε α β : Type} {f : α → β} {x : Except ε α} {y : β}
    (h : x.map f = .ok y) : ∃ a, x = .ok a ∧ f a = y := by
  cases x with
  | error e => cases h
  | ok a => exact ⟨a, rfl, by cases h; rfl⟩

theorem printRows_items {T : Tab} {S : Store P.F} (d : Desc) : ∀ {n w : Nat} {sh : List Expr}
    {st : List Nat} {ls : List (Line P.F)}, Here T n sh st d → printRows T S w sh n d = .ok ls →
      allItems T S n (flatten n sh st d) = .ok (ls.filterMap Line.shows) := by
  induction d with
  | nil =>
    intro n w sh st ls _ h
    simp only [printRows, Except.ok.injEq] at h
    subst h
    rfl
  | field fd r ih =>
    intro n w sh st ls hh h
    obtain ⟨h1, h2⟩ := hh.field
    simp only [printRows] at h
    have he := fieldLines_eq (S := S) (w := w) h1
    cases hf : fieldLines T S w sh n fd.name with
    | error e => rw [hf] at h; cases h
    | ok l =>
      rw [hf] at h he
      simp only at h
      cases hr : printRows T S w sh (n + 1) r with
      | error e => rw [hr] at h; cases h
      | ok ls' =>
        rw [hr] at h
        cases h
        obtain ⟨its, g1, g2⟩ := exceptMap_ok he.symm
        simp only [flatten, allItems]
        rw [g1]
        simp only
        rw [ih h2 hr]
        simp only [List.filterMap_append, Except.ok.injEq]
        rw [g2]
  | loop e b r ihb ihr =>
    intro n w sh st ls hh h
    obtain ⟨h1, h2⟩ := hh.loop
    simp only [printRows] at h
    cases hk : keysFrom P (look P T S) (sh ++ [e]) [] with
    | error x => rw [hk] at h; cases h
    | ok ks =>
      rw [hk] at h
      simp only at h
      cases hb : printRows T S (lineWidth b ks) (sh ++ [e]) n b with
      | error x => rw [hb] at h; cases h
      | ok l =>
        rw [hb] at h
        simp only at h
        cases hr : printRows T S w sh (n + b.count) r with
        | error x => rw [hr] at h; cases h
        | ok ls' =>
          rw [hr] at h
          cases h
          simp only [flatten]
          rw [allItems_append, ihb h1 hb, length_flatten]
          simp only
          rw [ihr h2 hr]
          simp [Line.shows, List.filterMap_append, List.filterMap_cons]

theorem forChunks_total {α} {f : Int → Except Err (List α)} {is : List Int}
    (h : ∀ i ∈ is, ∃ x, f i = .ok x) : ∃ cs, forChunks f is = .ok cs := by
  induction is with
  | nil => exact ⟨[], rfl⟩
  | cons i is ih =>
    obtain ⟨x, hx⟩ := h i (by simp)
    obtain ⟨y, hy⟩ := ih fun j hj => h j (by simp [hj])
    exact ⟨x ++ y, by simp only [forChunks, hx, hy]⟩

theorem keysFrom_prefix {l : Look P.F} (es' : List Expr) : ∀ (es : List Expr) (key : Key),
    (∃ ks, keysFrom P l (es ++ es') key = .ok ks) → ∃ ks, keysFrom P l es key = .ok ks := by
  intro es
  induction es with
  | nil => intro key _; exact ⟨_, rfl⟩
  | cons e es ih =>
    rintro key ⟨ks, h⟩
    simp only [List.cons_append, keysFrom] at h ⊢
    cases hs : evalShape P l e key with
    | error x => rw [hs] at h; cases h
    | ok c =>
      rw [hs] at h
      simp only at h ⊢
      apply forChunks_total
      intro i hi
      obtain ⟨x, hx, _⟩ := forChunks_all h i hi
      exact ih _ ⟨x, hx⟩

/-- A named field below the loops `sh`, if all items can be read: the loops can be enumerated. -/
theorem hasNamed_keys {T : Tab} {S : Store P.F} (d : Desc) : ∀ {n : Nat} {sh : List Expr}
    {st : List Nat} {x : List (Nat × Key × Val P.F)}, Here T n sh st d → d.hasNamed = true →
      allItems T S n (flatten n sh st d) = .ok x → ∃ ks, keysFrom P (look P T S) sh [] = .ok ks := by
  induction d with
  | nil => intro n sh st x _ h; cases h
  | field fd r ih =>
    intro n sh st x hh hn h
    obtain ⟨h1, h2⟩ := hh.field
    simp only [flatten, allItems] at h
    cases hf : (if fd.name = none then Except.ok [] else fieldItems P T S n) with
    | error e => rw [hf] at h; cases h
    | ok its =>
      rw [hf] at h
      simp only at h
      cases hr : allItems T S (n + 1) (flatten (n + 1) sh st r) with
      | error e => rw [hr] at h; cases h
      | ok y =>
        simp only [Desc.hasNamed, Bool.or_eq_true] at hn
        rcases hn with hn | hn
        · rw [if_neg (by intro h0; rw [h0] at hn; cases hn)] at hf
          unfold fieldItems at hf
          rw [h1] at hf
          simp only at hf
          cases hk : keysFrom P (look P T S) sh [] with
          | error e => rw [hk] at hf; cases hf
          | ok ks => exact ⟨ks, rfl⟩
        · exact ih h2 hn hr
  | loop e b r ihb ihr =>
    intro n sh st x hh hn h
    obtain ⟨h1, h2⟩ := hh.loop
    simp only [flatten] at h
    rw [allItems_append, length_flatten] at h
    cases hb : allItems T S n (flatten n (sh ++ [e]) (st ++ [n]) b) with
    | error e => rw [hb] at h; cases h
    | ok y =>
      rw [hb] at h
      simp only at h
      cases hr : allItems T S (n + b.count) (flatten (n + b.count) sh st r) with
      | error e => rw [hr] at h; cases h
      | ok z =>
        simp only [Desc.hasNamed, Bool.or_eq_true] at hn
        rcases hn with hn | hn
        · exact keysFrom_prefix [e] sh [] (ihb h1 hn hb)
        · exact ihr h2 hn hr

theorem printRows_total {T : Tab} {S : Store P.F} (d : Desc) : ∀ {n w : Nat} {sh : List Expr}
    {st : List Nat} {x : List (Nat × Key × Val P.F)}, Here T n sh st d → d.loopsNamed = true →
      allItems T S n (flatten n sh st d) = .ok x → ∃ ls, printRows T S w sh n d = .ok ls := by
  induction d with
  | nil => intro n w sh st x _ _ _; exact ⟨_, rfl⟩
  | field fd r ih =>
    intro n w sh st x hh hl h
    obtain ⟨h1, h2⟩ := hh.field
    simp only [flatten, allItems] at h
    have he := fieldLines_eq (S := S) (w := w) h1
    cases hf : (if fd.name = none then Except.ok [] else fieldItems P T S n) with
    | error e => rw [hf] at h; cases h
    | ok its =>
      rw [hf] at h he
      simp only at h
      cases hr : allItems T S (n + 1) (flatten (n + 1) sh st r) with
      | error e => rw [hr] at h; cases h
      | ok y =>
        obtain ⟨l, g1, _⟩ := exceptMap_ok he
        obtain ⟨ls, g2⟩ := ih (w := w) h2 hl hr
        exact ⟨l ++ ls, by simp only [printRows, g1, g2]⟩
  | loop e b r ihb ihr =>
    intro n w sh st x hh hl h
    obtain ⟨h1, h2⟩ := hh.loop
    simp only [flatten] at h
    rw [allItems_append, length_flatten] at h
    cases hb : allItems T S n (flatten n (sh ++ [e]) (st ++ [n]) b) with
    | error e => rw [hb] at h; cases h
    | ok y =>
      rw [hb] at h
      simp only at h
      cases hr : allItems T S (n + b.count) (flatten (n + b.count) sh st r) with
      | error e => rw [hr] at h; cases h
      | ok z =>
        simp only [Desc.loopsNamed, Bool.and_eq_true] at hl
        obtain ⟨ks, hk⟩ := hasNamed_keys b h1 hl.1.1 hb
        obtain ⟨l, g1⟩ := ihb (w := lineWidth b ks) h1 hl.1.2 hb
        obtain ⟨ls, g2⟩ := ihr (w := w) h2 hl.2 hr
        exact ⟨_, by simp only [printRows, hk, g1, g2]; rfl⟩

theorem allItems_total {T : Tab} {S : Store P.F} : ∀ (r : Tab) (n : Nat),
    (∃ x, allItems T S n r = .ok x) ↔ ∀ (i : Nat) fi, r[i]? = some fi → fi.fd.name ≠ none →
      ∃ its, fieldItems P T S (n + i) = .ok its := by
  intro r
  induction r with
  | nil => intro n; simp [allItems]
  | cons fi r ih =>
    intro n
    have hi := ih (n + 1)
    constructor
    · rintro ⟨x, h⟩
      simp only [allItems] at h
      cases hf : (if fi.fd.name = none then Except.ok [] else fieldItems P T S n) with
      | error e => rw [hf] at h; cases h
      | ok its =>
        rw [hf] at h
        simp only at h
        cases hr : allItems T S (n + 1) r with
        | error e => rw [hr] at h; cases h
        | ok y =>
          intro i fj hj hnm
          cases i with
          | zero =>
            simp only [List.getElem?_cons_zero, Option.some.injEq] at hj
            subst hj
            rw [if_neg hnm] at hf
            exact ⟨its, hf⟩
          | succ i =>
            rw [List.getElem?_cons_succ] at hj
            have := hi.1 ⟨y, hr⟩ i fj hj hnm
            rwa [show n + 1 + i = n + (i + 1) by omega] at this
    · intro h
      obtain ⟨y, hy⟩ := hi.2 fun i fj hj hnm => by
        have := h (i + 1) fj (by simpa using hj) hnm
        rwa [show n + 1 + i = n + (i + 1) by omega]
      have : ∃ its, (if fi.fd.name = none then Except.ok [] else fieldItems P T S n) = .ok its := by
        by_cases hnm : fi.fd.name = none
        · exact ⟨[], by rw [if_pos hnm]⟩
        · rw [if_neg hnm]
          exact h 0 fi rfl hnm
      obtain ⟨its, hits⟩ := this
      exact ⟨_, by simp only [allItems, hits, hy]; rfl⟩

/-! ### C65 -/

/-- C65.  `str(struct)` shows every element of every named field exactly once, fields in the order of
the table and the elements of a field in the order of `items()`, with the values they have. -/
theorem C65_lines {d : Desc} {S : Store P.F} {ls : List (Line P.F)} (h : printLines d S = .ok ls) :
    allItems d.tab S 0 d.tab = .ok (ls.filterMap Line.shows) :=
  printRows_items d (here_top d) h

/-- C65.  Printing succeeds exactly if the elements of every named field can be read, for every table
whose loops each contain a named field. -/
theorem C65_succeeds {d : Desc} (hd : d.loopsNamed = true) (S : Store P.F) :
    (∃ ls, printLines d S = .ok ls) ↔
      ∀ (n : Nat) fi, d.tab[n]? = some fi → fi.fd.name ≠ none →
        ∃ its, fieldItems P d.tab S n = .ok its := by
  have := allItems_total (S := S) (T := d.tab) d.tab 0
  simp only [Nat.zero_add] at this
  rw [← this]
  constructor
  · rintro ⟨ls, h⟩
    exact ⟨_, C65_lines h⟩
  · rintro ⟨x, h⟩
    exact printRows_total d (here_top d) hd h

/-! ### Columns -/

theorem le_foldl_max (l : List Nat) : ∀ a, a ≤ l.foldl max a ∧ ∀ x ∈ l, x ≤ l.foldl max a := by
  induction l with
  | nil => intro a; simp
  | cons y r ih =>
    intro a
    obtain ⟨h1, h2⟩ := ih (max a y)
    rw [List.foldl_cons]
    refine ⟨by omega, ?_⟩
    intro x hx
    rw [List.mem_cons] at hx
    rcases hx with rfl | hx
    · omega
    · exact h2 x hx

theorem le_maxOr {d x : Nat} {l : List Nat} (h : x ∈ l) : x ≤ maxOr d l := by
  cases l with
  | nil => cases h
  | cons a r =>
    rw [List.mem_cons] at h
    rcases h with rfl | h
    · exact (le_foldl_max r _).1
    · exact (le_foldl_max r a).2 x h

theorem fits_lineWidth {b : Desc} {ks : List Key} {nm : Name} {k : Key} (h1 : nm ∈ ownNames b)
    (h2 : k ∈ ks) : (nameText nm ++ keyText k).length ≤ lineWidth b ks := by
  unfold lineWidth
  have a := le_maxOr (d := 10) (List.mem_map_of_mem (f := fun nm => (nameText nm).length) h1)
  have c := le_maxOr (d := 0) (List.mem_map_of_mem (f := fun k => (keyText k).length) h2)
  rw [List.length_append]
  omega

/-- What is shown below about the lines of a part of the table. -/
def LinesAt (T : Tab) (n w : Nat) (st : List Nat) (d : Desc) (ls : List (Line P.F)) : Prop :=
  (∀ w' dp p nm k v, Line.item w' dp p nm k v ∈ ls → ∃ fi, T[p]? = some fi ∧ fi.fd.name = some nm ∧
    dp = fi.starts.length ∧ (nameText nm ++ keyText k).length ≤ w' ∧ n ≤ p ∧ p < n + d.count ∧
    (∃ t, fi.starts = st ++ t ∧ ∀ s ∈ t, n ≤ s) ∧ (fi.starts = st → w' = w)) ∧
  ∀ w1 d1 p1 m1 k1 v1 w2 d2 p2 m2 k2 v2 f1 f2, Line.item w1 d1 p1 m1 k1 v1 ∈ ls →
    Line.item w2 d2 p2 m2 k2 v2 ∈ ls → T[p1]? = some f1 → T[p2]? = some f2 →
    f1.starts = f2.starts → w1 = w2

/-- The lines of a part of the table: where the field stands, that the label fits, and that lines of
the same loop have the same width. -/
theorem printRows_width {T : Tab} {S : Store P.F} (d : Desc) : ∀ {n w : Nat} {sh : List Expr}
    {st : List Nat} {ls : List (Line P.F)}, Here T n sh st d → sh.length = st.length →
      (∀ nm ∈ ownNames d, ∀ ks, keysFrom P (look P T S) sh [] = .ok ks → ∀ k ∈ ks,
        (nameText nm ++ keyText k).length ≤ w) → printRows T S w sh n d = .ok ls →
      LinesAt T n w st d ls := by
  unfold LinesAt
  induction d with
  | nil =>
    intro n w sh st ls _ _ _ h
    simp only [printRows, Except.ok.injEq] at h
    subst h
    exact ⟨by simp, by simp⟩
  | field fd r ih =>
    intro n w sh st ls hh hlen hw h
    obtain ⟨h1, h2⟩ := hh.field
    simp only [printRows] at h
    cases hf : fieldLines T S w sh n fd.name with
    | error e => rw [hf] at h; cases h
    | ok l =>
      rw [hf] at h
      simp only at h
      cases hr : printRows T S w sh (n + 1) r with
      | error e => rw [hr] at h; cases h
      | ok ls' =>
        rw [hr] at h
        cases h
        obtain ⟨i1, i2⟩ := ih h2 hlen (fun nm hnm => hw nm (by simp [ownNames, hnm])) hr
        have hl : ∀ w' dp p nm k v, Line.item w' dp p nm k v ∈ l →
            w' = w ∧ dp = st.length ∧ p = n ∧ fd.name = some nm ∧
            (nameText nm ++ keyText k).length ≤ w := by
          intro w' dp p nm k v hm
          cases hnm : fd.name with
          | none =>
            rw [hnm] at hf
            cases hf
            cases hm
          | some nm' =>
            rw [hnm] at hf
            simp only [fieldLines] at hf
            cases hk : keysFrom P (look P T S) sh [] with
            | error e => rw [hk] at hf; cases hf
            | ok ks =>
              rw [hk] at hf
              simp only at hf
              cases hv : valuesAt P (fun k => getItem P T S n k) ks with
              | error e => rw [hv] at hf; cases hf
              | ok vs =>
                rw [hv] at hf
                cases hf
                rw [List.mem_map] at hm
                obtain ⟨⟨k', v'⟩, hkv, he⟩ := hm
                cases he
                refine ⟨rfl, hlen, rfl, rfl, ?_⟩
                have hk' : k' ∈ ks := by
                  rw [← (mem_valuesAt hv).1]
                  exact List.mem_map_of_mem (f := Prod.fst) hkv
                exact hw nm (by simp [ownNames, hnm]) ks hk k' hk'
        have all : ∀ w' dp p nm k v, Line.item w' dp p nm k v ∈ l ++ ls' → ∃ fi, T[p]? = some fi ∧
            fi.fd.name = some nm ∧ dp = fi.starts.length ∧ (nameText nm ++ keyText k).length ≤ w' ∧
            n ≤ p ∧ p < n + (Desc.field fd r).count ∧
            (∃ t, fi.starts = st ++ t ∧ ∀ s ∈ t, n ≤ s) ∧ (fi.starts = st → w' = w) := by
          intro w' dp p nm k v hm
          rw [List.mem_append] at hm
          rcases hm with hm | hm
          · obtain ⟨rfl, rfl, rfl, a, b⟩ := hl _ _ _ _ _ _ hm
            exact ⟨_, h1, a, rfl, b, Nat.le_refl _, by simp only [Desc.count]; omega,
              ⟨[], by simp, by simp⟩, fun _ => rfl⟩
          · obtain ⟨fi, a1, a2, a3, a4, a5, a6, ⟨t, a7, a8⟩, a9⟩ := i1 _ _ _ _ _ _ hm
            exact ⟨fi, a1, a2, a3, a4, by omega, by simp only [Desc.count]; omega,
              ⟨t, a7, fun s hs => by have := a8 s hs; omega⟩, a9⟩
        refine ⟨all, ?_⟩
        intro w1 d1 p1 m1 k1 v1 w2 d2 p2 m2 k2 v2 f1 f2 hm1 hm2 ht1 ht2 hs
        by_cases hst : f1.starts = st
        · obtain ⟨g1, b1, _, _, _, _, _, _, b2⟩ := all _ _ _ _ _ _ hm1
          obtain ⟨g2, c1, _, _, _, _, _, _, c2⟩ := all _ _ _ _ _ _ hm2
          rw [ht1] at b1
          rw [ht2] at c1
          cases b1
          cases c1
          rw [b2 hst, c2 (by rw [← hs]; exact hst)]
        · have hne : f2.starts ≠ st := by rw [← hs]; exact hst
          have mv : ∀ {w' dp p nm k v} {f : FInfo}, Line.item w' dp p nm k v ∈ l ++ ls' →
              T[p]? = some f → f.starts ≠ st → Line.item w' dp p nm k v ∈ ls' := by
            intro w' dp p nm k v f hm ht hn
            rw [List.mem_append] at hm
            rcases hm with hm | hm
            · obtain ⟨_, _, rfl, _⟩ := hl _ _ _ _ _ _ hm
              rw [h1] at ht
              cases ht
              exact absurd rfl hn
            · exact hm
          exact i2 _ _ _ _ _ _ _ _ _ _ _ _ f1 f2 (mv hm1 ht1 hst) (mv hm2 ht2 hne) ht1 ht2 hs
  | loop e b r ihb ihr =>
    intro n w sh st ls hh hlen hw h
    obtain ⟨h1, h2⟩ := hh.loop
    simp only [printRows] at h
    cases hk : keysFrom P (look P T S) (sh ++ [e]) [] with
    | error x => rw [hk] at h; cases h
    | ok ks =>
      rw [hk] at h
      simp only at h
      cases hb : printRows T S (lineWidth b ks) (sh ++ [e]) n b with
      | error x => rw [hb] at h; cases h
      | ok l =>
        rw [hb] at h
        simp only at h
        cases hr : printRows T S w sh (n + b.count) r with
        | error x => rw [hr] at h; cases h
        | ok ls' =>
          rw [hr] at h
          cases h
          obtain ⟨i1, i2⟩ := ihb h1 (by simp [hlen]) (fun nm hnm ks' hk' k hkm => by
            rw [hk] at hk'
            cases hk'
            exact fits_lineWidth hnm hkm) hb
          obtain ⟨j1, j2⟩ := ihr h2 hlen hw hr
          have mem : ∀ {w' dp p nm k v},
              Line.item w' dp p nm k v ∈ Line.head (sh.length + 1) e :: l ++ ls' →
              Line.item w' dp p nm k v ∈ l ∨ Line.item w' dp p nm k v ∈ ls' := by
            intro w' dp p nm k v hm
            simpa using hm
          refine ⟨?_, ?_⟩
          · intro w' dp p nm k v hm
            rcases mem hm with hm | hm
            · obtain ⟨fi, a1, a2, a3, a4, a5, a6, ⟨t, a7, a8⟩, a9⟩ := i1 _ _ _ _ _ _ hm
              refine ⟨fi, a1, a2, a3, a4, a5, by simp only [Desc.count]; omega,
                ⟨n :: t, by rw [a7]; simp, ?_⟩, ?_⟩
              · intro s hs
                rw [List.mem_cons] at hs
                rcases hs with rfl | hs
                · exact Nat.le_refl _
                · exact a8 s hs
              · intro he
                rw [a7] at he
                have := congrArg List.length he
                simp at this
            · obtain ⟨fi, a1, a2, a3, a4, a5, a6, ⟨t, a7, a8⟩, a9⟩ := j1 _ _ _ _ _ _ hm
              exact ⟨fi, a1, a2, a3, a4, by omega, by simp only [Desc.count]; omega,
                ⟨t, a7, fun s hs => by have := a8 s hs; omega⟩, a9⟩
          · have cross : ∀ {w1 d1 p1 m1 k1 v1 w2 d2 p2 m2 k2 v2} {f1 f2 : FInfo},
                Line.item w1 d1 p1 m1 k1 v1 ∈ l → Line.item w2 d2 p2 m2 k2 v2 ∈ ls' →
                T[p1]? = some f1 → T[p2]? = some f2 → f1.starts = f2.starts → False := by
              intro w1 d1 p1 m1 k1 v1 w2 d2 p2 m2 k2 v2 f1 f2 hm1 hm2 ht1 ht2 hs
              obtain ⟨g1, a1, _, _, _, a5, a6, ⟨t, a7, _⟩, _⟩ := i1 _ _ _ _ _ _ hm1
              obtain ⟨g2, b1, _, _, _, _, _, ⟨t', b7, b8⟩, _⟩ := j1 _ _ _ _ _ _ hm2
              rw [ht1] at a1
              rw [ht2] at b1
              cases a1
              cases b1
              rw [a7, b7, List.append_assoc] at hs
              have := List.append_cancel_left hs
              have := b8 n (by rw [← this]; simp)
              omega
            intro w1 d1 p1 m1 k1 v1 w2 d2 p2 m2 k2 v2 f1 f2 hm1 hm2 ht1 ht2 hs
            rcases mem hm1 with hm1 | hm1 <;> rcases mem hm2 with hm2 | hm2
            · exact i2 _ _ _ _ _ _ _ _ _ _ _ _ f1 f2 hm1 hm2 ht1 ht2 hs
            · exact (cross hm1 hm2 ht1 ht2 hs).elim
            · exact (cross hm2 hm1 ht2 ht1 hs.symm).elim
            · exact j2 _ _ _ _ _ _ _ _ _ _ _ _ f1 f2 hm1 hm2 ht1 ht2 hs

theorem top_width {d : Desc} {S : Store P.F} {ls : List (Line P.F)} (h : printLines d S = .ok ls) :
    LinesAt d.tab 0 (lineWidth d [[]]) [] d ls :=
  printRows_width (S := S) d (here_top d) rfl (fun nm hnm ks hk k hkm => by
    have : ks = [[]] := by
      simp only [keysFrom, Except.ok.injEq] at hk
      exact hk.symm
    subst this
    exact fits_lineWidth hnm hkm) h

/-- The index as it is shown: `[1, 2]`. -/
def indexText (k : Key) : Str :=
  if k = [] then [] else "[".toList ++ List.intercalate ", ".toList (k.map intStr) ++ "]".toList

theorem commas_intercalate : ∀ l : List Str, keyText.commas l = List.intercalate ", ".toList l
  | [] => rfl
  | [x] => by simp [keyText.commas, List.intercalate]
  | x :: y :: r => by
    rw [keyText.commas, commas_intercalate (y :: r)]
    simp [List.intercalate]

theorem keyText_index (k : Key) : keyText k = indexText k := by
  unfold keyText indexText
  rw [commas_intercalate]
  cases k <;> simp

/-- A value as it is shown. -/
def valueText {F : Type} (str : Val F → Str) : Val F → Str
  | .none => "Not used".toList
  | v => str v

/-- C65.  A line of a field is the name and index, padded, a colon and the value, indented by the
number of loops around the field. -/
theorem C65_line {d : Desc} {S : Store P.F} {ls : List (Line P.F)} (h : printLines d S = .ok ls)
    {w dp p : Nat} {nm : Name} {k : Key} {v : Val P.F} (hl : Line.item w dp p nm k v ∈ ls)
    (sh : Shown P.F) :
    ∃ fi, d.tab[p]? = some fi ∧ fi.fd.name = some nm ∧ dp = fi.starts.length ∧
      ∃ pad, (Line.item w dp p nm k v).text sh =
        List.replicate (2 * fi.starts.length) ' ' ++ nameText nm ++ indexText k ++
          List.replicate pad ' ' ++ ": ".toList ++ valueText sh.str v ++ "\n".toList := by
  obtain ⟨fi, a1, a2, a3, a4, _⟩ := (top_width h).1 _ _ _ _ _ _ hl
  refine ⟨fi, a1, a2, a3, w - (nameText nm ++ keyText k).length, ?_⟩
  subst a3
  have hv : sh.value v = valueText sh.str v := by cases v <;> rfl
  simp only [Line.text, Line.label, lead, ljust, List.append_assoc, keyText_index, hv]

/-- The number that stands for a name in the tables. -/
def nameCode (s : Str) : Name := s.foldl (fun a c => a * 256 + c.toNat) 0

theorem nameText_go (s : Str) (hs : ∀ c ∈ s, 0 < c.toNat ∧ c.toNat < 256) :
    ∀ (f : Nat) (acc : Str), nameCode s < 2 ^ f → nameText.go f (nameCode s) acc = s ++ acc := by
  unfold nameCode
  have gen : ∀ (r : Str), (∀ c ∈ r, 0 < c.toNat ∧ c.toNat < 256) → ∀ (f : Nat) (acc : Str),
      r.foldr (fun c a => a * 256 + c.toNat) 0 < 2 ^ f →
      nameText.go f (r.foldr (fun c a => a * 256 + c.toNat) 0) acc = r.reverse ++ acc := by
    intro r
    induction r with
    | nil => intro _ f acc _; cases f <;> simp [nameText.go]
    | cons c r ih =>
      intro h f acc hf
      simp only [List.foldr_cons] at hf ⊢
      obtain ⟨h1, h2⟩ := h c List.mem_cons_self
      cases f with
      | zero => omega
      | succ f =>
        rw [nameText.go, if_neg (by omega)]
        have e1 : (List.foldr (fun c a => a * 256 + c.toNat) 0 r * 256 + c.toNat) / 256 =
            List.foldr (fun c a => a * 256 + c.toNat) 0 r := by omega
        have e2 : (List.foldr (fun c a => a * 256 + c.toNat) 0 r * 256 + c.toNat) % 256 =
            c.toNat := by omega
        rw [e1, e2, Char.ofNat_toNat, ih (fun x hx => h x (List.mem_cons_of_mem _ hx)) f _
          (by rw [Nat.pow_succ] at hf; omega)]
        simp
  intro f acc hf
  have := gen s.reverse (fun c hc => hs c (List.mem_reverse.mp hc)) f acc
  rw [List.foldr_reverse, List.reverse_reverse] at this
  exact this hf

/-- C65.  The names are shown as they are written. -/
theorem C65_name {s : Str} (hs : ∀ c ∈ s, 0 < c.toNat ∧ c.toNat < 256) :
    nameText (nameCode s) = s := by
  unfold nameText
  rw [nameText_go s hs _ _ Nat.lt_log2_self, List.append_nil]

/-- C65.  The lines follow each other in the text: what stands before a line are exactly the lines
before it. -/
theorem C65_text {d : Desc} {S : Store P.F} {before after : List (Line P.F)} {l : Line P.F}
    (h : printLines d S = .ok (before ++ l :: after)) (sh : Shown P.F) :
    ∃ x y, printStruct sh d S = .ok (x ++ l.text sh ++ y) ∧
      x.length = (before.map fun b => (b.text sh).length).sum ∧
      y.length = (after.map fun b => (b.text sh).length).sum := by
  refine ⟨(before.map (Line.text sh)).flatten, (after.map (Line.text sh)).flatten, ?_, ?_, ?_⟩
  · simp [printStruct, h, Except.map]
  · simp [List.length_flatten, Function.comp_def]
  · simp [List.length_flatten, Function.comp_def]

/-- C65.  The head of a loop is indented by the loops around it. -/
theorem C65_head (e : Expr) (around : Nat) (sh : Shown P.F) :
    (Line.head (F := P.F) (around + 1) e).text sh =
      List.replicate (2 * around) ' ' ++ "Loop - ".toList ++ sh.shape e ++ "\n".toList := by
  simp [Line.text, Line.label, lead]

example : nameCode "nbands".toList = (n!"nbands") := by decide

/-- The loops of a table in order, with the number of loops around each. -/
def loopHeads : Nat → Desc → List (Nat × Expr)
  | _, .nil => []
  | k, .field _ r => loopHeads k r
  | k, .loop e b r => (k, e) :: (loopHeads (k + 1) b ++ loopHeads k r)

/-- The loop a line is the head of, with the number of loops around it. -/
def Line.loop? {F : Type} : Line F → Option (Nat × Expr)
  | .head dp e => some (dp - 1, e)
  | .item .. => none

theorem fieldLines_no_head {T : Tab} {S : Store P.F} {w : Nat} {sh : List Expr} {n : Nat}
    {nm : Option Name} {ls : List (Line P.F)} (h : fieldLines T S w sh n nm = .ok ls) :
    ls.filterMap Line.loop? = [] := by
  cases nm with
  | none => simp only [fieldLines] at h; cases h; rfl
  | some nm =>
    simp only [fieldLines] at h
    split at h
    · cases h
    · split at h
      · cases h
      · injection h with h
        subst h
        rw [List.filterMap_eq_nil_iff]
        intro a ha
        obtain ⟨kv, _, rfl⟩ := List.mem_map.mp ha
        rfl

theorem printRows_heads {T : Tab} {S : Store P.F} (d : Desc) : ∀ (w : Nat) (sh : List Expr) (n : Nat)
    (ls : List (Line P.F)), printRows T S w sh n d = .ok ls →
    ls.filterMap Line.loop? = loopHeads sh.length d := by
  induction d with
  | nil => intro w sh n ls h; simp only [printRows] at h; cases h; rfl
  | field fd r ih =>
    intro w sh n ls h
    simp only [printRows] at h
    split at h
    · cases h
    · rename_i l hl
      split at h
      · cases h
      · rename_i l2 hl2
        injection h with h
        subst h
        rw [List.filterMap_append, fieldLines_no_head hl, ih _ _ _ _ hl2]
        rfl
  | loop e b r ihb ihr =>
    intro w sh n ls h
    simp only [printRows] at h
    split at h
    · cases h
    · split at h
      · cases h
      · rename_i l hl
        split at h
        · cases h
        · rename_i l2 hl2
          injection h with h
          subst h
          have e1 := ihb _ _ _ _ hl
          have e2 := ihr _ _ _ _ hl2
          rw [List.length_append] at e1
          simp only [List.cons_append, List.filterMap_cons, Line.loop?, List.filterMap_append, e1, e2,
            loopHeads]
          rfl

/-- C65.  Every loop of the table has one head line, in the order of the table. -/
theorem C65_heads {d : Desc} {S : Store P.F} {ls : List (Line P.F)} (h : printLines d S = .ok ls) :
    ls.filterMap Line.loop? = loopHeads 0 d := printRows_heads d _ _ _ _ h

/-- C65.  The values of all fields of one loop start in the same column. -/
theorem C65_columns {d : Desc} {S : Store P.F} {ls : List (Line P.F)} (h : printLines d S = .ok ls)
    {w1 d1 p1 w2 d2 p2 : Nat} {m1 m2 : Name} {k1 k2 : Key} {v1 v2 : Val P.F} {f1 f2 : FInfo}
    (h1 : Line.item w1 d1 p1 m1 k1 v1 ∈ ls) (h2 : Line.item w2 d2 p2 m2 k2 v2 ∈ ls)
    (hf1 : d.tab[p1]? = some f1) (hf2 : d.tab[p2]? = some f2) (hs : f1.starts = f2.starts) :
    (Line.item w1 d1 p1 m1 k1 v1).label.length = (Line.item w2 d2 p2 m2 k2 v2).label.length := by
  have hw := (top_width h).2 _ _ _ _ _ _ _ _ _ _ _ _ f1 f2 h1 h2 hf1 hf2 hs
  obtain ⟨g1, a1, _, a3, a4, _⟩ := (top_width h).1 _ _ _ _ _ _ h1
  obtain ⟨g2, b1, _, b3, b4, _⟩ := (top_width h).1 _ _ _ _ _ _ h2
  rw [hf1] at a1
  rw [hf2] at b1
  cases a1
  cases b1
  subst hw
  rw [hs, ← b3] at a3
  subst a3
  simp only [Line.label, lead, ljust, List.length_append, List.length_replicate] at a4 b4 ⊢
  omega

/-! ### What can be written can be printed -/

/-- Floats have four bytes; floats and binary integers always have a value. -/
def FieldDef.unpackOk (fd : FieldDef) : Bool :=
  match fd.kind with
  | .fltData => fd.ty == .bytes && !fd.optional && fd.size == .const 4 && fd.sizeOffset == 0
  | .intData _ => fd.ty == .bytes && !fd.optional
  | _ => true

/-- The size of a binary integer does not depend on other fields. -/
def FieldDef.intConst (fd : FieldDef) : Bool :=
  match fd.kind with
  | .intData _ => fd.sizeOffset == 0 && [1, 2, 3, 4, 8].any fun k => fd.size == .const k
  | _ => true

/-- All sizes of binary integers are ones the library can convert. -/
def IntSizes (T : Tab) (S : Store P.F) : Prop :=
  ∀ (n : Nat) fi s, T[n]? = some fi → fi.fd.kind = .intData s → ∀ k sz,
    evalSize P (look P T S) fi k = .ok sz → sz ∈ [1, 2, 3, 4, 8]

theorem intSizes_of_const {d : Desc} (h : d.allFields FieldDef.intConst = true) (S : Store P.F) :
    IntSizes d.tab S := by
  intro n fi s hn hk key sz hz
  have := Desc.allFields_get h hn
  unfold FieldDef.intConst at this
  rw [hk] at this
  simp only [Bool.and_eq_true, beq_iff_eq, List.any_eq_true] at this
  obtain ⟨h4, kk, hkk, h3⟩ := this
  rw [Scalar.size_const P h3 h4] at hz
  cases hz
  simp only [List.mem_cons, List.not_mem_nil, or_false] at hkk
  rcases hkk with rfl | rfl | rfl | rfl | rfl <;> decide

theorem valuesAt_total {g : Key → Except Err (Val P.F)} : ∀ {ks : List Key},
    (∀ k ∈ ks, ∃ v, g k = .ok v) → ∃ vs, valuesAt P g ks = .ok vs := by
  intro ks
  induction ks with
  | nil => intro _; exact ⟨[], rfl⟩
  | cons k ks ih =>
    intro h
    obtain ⟨v, hv⟩ := h k (by simp)
    obtain ⟨vs, hvs⟩ := ih fun j hj => h j (by simp [hj])
    exact ⟨_, by simp only [valuesAt, hv, hvs]; rfl⟩

theorem encode_bytesTy {fd : FieldDef} {sz : Int} {v : Val P.F} {b : Bytes} (hty : fd.ty = .bytes)
    (ho : fd.optional = false) (h : encodeVal P fd sz v = .ok b) :
    v = .bytes b ∧ (b.length : Int) = sz := by
  unfold encodeVal at h
  simp only [ho, hty] at h
  cases v <;> simp only at h <;> try cases h
  split at h
  · cases h
  · cases h
    rename_i hh
    exact ⟨rfl, by simpa using hh⟩

/-- An element that can be written can be read. -/
theorem getItem_of_bytes {T : Tab} {S : Store P.F} (hS : NoLit S) {n : Nat} {fi : FInfo}
    (hn : T[n]? = some fi) (hI : ∀ s, fi.fd.kind = .intData s → ∀ k sz,
      evalSize P (look P T S) fi k = .ok sz → sz ∈ [1, 2, 3, 4, 8]) (hu : fi.fd.unpackOk = true) {k : Key} {b : Bytes}
    (h : fieldBytes P (look P T S) S fi n k = .ok b) : ∃ v, getItem P T S n k = .ok v := by
  rw [getItem_eq P k hn]
  unfold fieldBytes at h
  cases hz : evalSize P (look P T S) fi k with
  | error e => rw [hz] at h; cases h
  | ok sz =>
    rw [hz] at h
    simp only at h
    have hst : ∃ v, stored S fi.fd n k = .val v := by
      unfold stored
      cases hc : S n k with
      | none => exact ⟨_, rfl⟩
      | some c => exact hS n k c hc
    obtain ⟨w, hw⟩ := hst
    rw [hw] at h
    simp only at h
    cases hl : lowGet P (look P T S) S fi n k with
    | error e => rw [hl] at h; cases h
    | ok v =>
      rw [hl] at h
      simp only at h
      unfold getWith
      rw [hl]
      simp only
      split
      · exact ⟨_, rfl⟩
      · exact ⟨_, rfl⟩
      · unfold unpackKind
        unfold FieldDef.unpackOk at hu
        cases hk : fi.fd.kind with
        | fltData =>
          rw [hk] at hu
          simp only [Bool.and_eq_true, beq_iff_eq, Bool.not_eq_true'] at hu
          obtain ⟨⟨⟨h1, h2⟩, h3⟩, h4⟩ := hu
          obtain ⟨hv, hlen⟩ := encode_bytesTy h1 h2 h
          rw [Scalar.size_const P h3 h4] at hz
          cases hz
          cases hv
          have : b.length = 4 := by omega
          exact ⟨_, by rw [if_pos this]⟩
        | intData sg =>
          rw [hk] at hu
          simp only [Bool.and_eq_true, beq_iff_eq, Bool.not_eq_true'] at hu
          obtain ⟨h1, h2⟩ := hu
          obtain ⟨hv, hlen⟩ := encode_bytesTy h1 h2 h
          have : sz ∈ intSizes := hI sg hk k sz hz
          rw [hz]
          cases hv
          exact ⟨_, by simp only [this, if_true, hlen, or_true]; rfl⟩
        | plain => exact ⟨_, rfl⟩
        | bytesData => exact ⟨_, rfl⟩
        | engrda => exact ⟨_, rfl⟩
        | coord => exact ⟨_, rfl⟩
        | strData => exact ⟨_, rfl⟩
      · exact ⟨_, rfl⟩

/-- C65.  A struct of values that can be written can be printed, if its binary integers have sizes the
library can convert. -/
theorem C65_written_prints_partial {d : Desc} (hd : d.causal = true) (hl : d.loopsNamed = true)
    (hu : d.allFields FieldDef.unpackOk = true) {S : Store P.F} (hS : NoLit S)
    (hI : IntSizes d.tab S) {cs : List Chunk}
    (h : writeChunks P d S = .ok cs) : ∃ ls, printLines d S = .ok ls := by
  rw [C65_succeeds hl]
  intro n fi hn hnm
  obtain ⟨ks, h1, h2, h3⟩ := C55_written_elements hd h hn
  unfold fieldItems
  rw [hn]
  unfold fieldKeys at h1
  simp only [h1]
  apply valuesAt_total
  intro k hk
  rcases (h3 k hk).2 with hc | hc
  · have hm : k ∈ (cs.filter fun c => c.pos == n).map Chunk.key := by
      rw [h2, List.mem_filter]
      exact ⟨hk, by simp [present, hc]⟩
    rw [List.mem_map] at hm
    obtain ⟨c, hc1, rfl⟩ := hm
    rw [List.mem_filter, beq_iff_eq] at hc1
    obtain ⟨hc1, rfl⟩ := hc1
    obtain ⟨_, fi', g1, _, g3⟩ := writeChunks_from P hd h hc1
    rw [hn] at g1
    cases g1
    exact getItem_of_bytes hS hn (fun s hk => hI _ _ s hn hk) (Desc.allFields_get hu hn) g3
  · exact ⟨_, hc.2 hnm⟩

theorem tables_loopsNamed : ∀ t ∈ Tables.all, t.2.loopsNamed = true := by
  have : (Tables.all.all fun t => t.2.loopsNamed) = true := by decide +kernel
  rwa [List.all_eq_true] at this

theorem tables_unpackOk : ∀ t ∈ Tables.all, t.2.allFields FieldDef.unpackOk = true := by
  have : (Tables.all.all fun t => t.2.allFields FieldDef.unpackOk) = true := by decide +kernel
  rwa [List.all_eq_true] at this

theorem tables_intConst : ∀ t ∈ Tables.all, t.1 = "CSEXRB" ∨ t.1 = "MTIMSA" ∨
    t.2.allFields FieldDef.intConst = true := by
  have : (Tables.all.all fun t => t.1 == "CSEXRB" || t.1 == "MTIMSA" ||
    t.2.allFields FieldDef.intConst) = true := by decide +kernel
  rw [List.all_eq_true] at this
  intro t ht
  have := this t ht
  simpa only [Bool.or_eq_true, beq_iff_eq, or_assoc] using this

/-- C65, for the record types of pynitf: what can be written can be printed, and all of it is shown.
In CSEXRB and MTIMSA the size of the frame times is a field; it has to be 1, 2, 3, 4 or 8. -/
theorem C65_shipped_partial {t : String × Desc} (ht : t ∈ Tables.all) {S : Store P.F} (hS : NoLit S)
    (hI : t.1 = "CSEXRB" ∨ t.1 = "MTIMSA" → IntSizes t.2.tab S)
    {cs : List Chunk} (h : writeChunks P t.2 S = .ok cs) :
    ∃ ls, printLines t.2 S = .ok ls ∧
      allItems t.2.tab S 0 t.2.tab = .ok (ls.filterMap Line.shows) := by
  have hI' : IntSizes t.2.tab S := by
    rcases tables_intConst t ht with h | h | h
    · exact hI (.inl h)
    · exact hI (.inr h)
    · exact intSizes_of_const h S
  obtain ⟨ls, hl⟩ := C65_written_prints_partial (tables_causal t ht) (tables_loopsNamed t ht)
    (tables_unpackOk t ht) hS hI' h
  exact ⟨ls, hl, C65_lines hl⟩

/-! ### What was read can be printed -/

/-- The value of the field is not computed by an expression (nitf_field.py:101, 259-265). -/
def FieldDef.noValue (fd : FieldDef) : Bool := fd.value.isNone

/-- A value parsed from bytes is a value of the field. -/
theorem finish_parsed {fd : FieldDef} {t : Bytes} {v : Stored P.F}
    (h : parseField P fd false t = .ok v) :
    ∃ w, finish P fd v = .ok w ∧ (fd.ty = .bytes → fd.optional = false → w = .bytes t) := by
  unfold parseField at h
  simp only [Bool.false_eq_true, if_false] at h
  split at h
  · rename_i ho
    simp only [Bool.and_eq_true] at ho
    cases h
    exact ⟨.none, by simp [finish, ho.1], fun _ h => by rw [ho.1] at h; cases h⟩
  · cases hty : fd.ty with
    | str => rw [hty] at h; cases h; exact ⟨_, by simp only [finish, coerce, hty]; rfl, fun h => by cases h⟩
    | bytes =>
      rw [hty] at h; cases h
      exact ⟨_, by simp [finish, coerce, hty], fun _ _ => rfl⟩
    | int =>
      rw [hty] at h
      simp only at h
      repeat' split at h
      all_goals first | (cases h; done) | skip
      cases h
      exact ⟨_, by simp only [finish, coerce, hty, coerceInt]; rfl, fun h => by cases h⟩
    | flt =>
      rw [hty] at h
      simp only at h
      repeat' split at h
      all_goals first | (cases h; done) | skip
      cases h
      exact ⟨_, by simp only [finish, coerce, hty]; rfl, fun h => by cases h⟩

/-- An element of a field of a record that was read has a value. -/
theorem getItem_of_read {d : Desc} (hd : d.causal = true) {b rest : Bytes} {R : Store P.F}
    (h : readStruct P d false b = .ok (R, rest)) {n : Nat} {fi : FInfo} (hn : d.tab[n]? = some fi)
    (hnm : fi.fd.name ≠ none) (hv : fi.fd.noValue = true) (hu : fi.fd.unpackOk = true)
    (hI : ∀ s, fi.fd.kind = .intData s → ∀ k sz, evalSize P (look P d.tab R) fi k = .ok sz →
      sz ∈ [1, 2, 3, 4, 8]) {ks : List Key} (hks : fieldKeys d.tab R fi = .ok ks) {k : Key}
    (hk : k ∈ ks) : ∃ v, getItem P d.tab R n k = .ok v := by
  obtain ⟨ins, _, _, hl, hc, _⟩ := readInto_facts P hd h
  obtain ⟨ks', g1, g2, g3⟩ := layout_keys hd hl hn
  rw [hks] at g1
  cases g1
  have hin : InShape d.tab R fi k := (mem_fieldKeys hks k).mp hk
  have hci := checkIndex_inShape hin
  obtain ⟨nm, hnm'⟩ := Option.ne_none_iff_exists'.mp hnm
  unfold FieldDef.noValue at hv
  rw [Option.isNone_iff_eq_none] at hv
  obtain ⟨c, hcd⟩ := g2 k hk
  rw [getItem_eq P k hn]
  unfold getWith lowGet
  simp only [hnm', hci, hcd, bind, Except.bind, hv]
  cases c with
  | false => cases fi.fd.kind <;> exact ⟨_, rfl⟩
  | true =>
    have hm : k ∈ ((ins.map Chunk.slot).filter fun s => s.pos == n).map Slot.key := by
      rw [g3, List.mem_filter]
      exact ⟨hk, by simp [present, hcd]⟩
    rw [List.mem_map] at hm
    obtain ⟨sl, hs1, rfl⟩ := hm
    rw [List.mem_filter, beq_iff_eq] at hs1
    obtain ⟨hs1, rfl⟩ := hs1
    obtain ⟨_, _, _, fi', e1, _, e3⟩ := layoutD_from P R d 0 [] _ hl sl hs1
    rw [hn] at e1
    cases e1
    rw [List.mem_map] at hs1
    obtain ⟨ch, hch, rfl⟩ := hs1
    obtain ⟨v, hp, hcell⟩ := hc ch hch fi hn hnm
    obtain ⟨w, hw, hwb⟩ := finish_parsed hp
    have hst : stored R fi.fd ch.pos ch.key = v := by unfold stored; rw [hcell]
    simp only [Chunk.slot, if_true, hst, hw]
    split
    · exact ⟨_, rfl⟩
    · exact ⟨_, rfl⟩
    · rename_i bb _ _ 
      unfold unpackKind
      unfold FieldDef.unpackOk at hu
      cases hkd : fi.fd.kind with
      | fltData =>
        rw [hkd] at hu
        simp only [Bool.and_eq_true, beq_iff_eq, Bool.not_eq_true'] at hu
        obtain ⟨⟨⟨h1, h2⟩, h3⟩, h4⟩ := hu
        rw [Scalar.size_const P h3 h4] at e3
        have hb := hwb h1 h2
        cases hb
        simp only [Chunk.slot] at e3
        injection e3 with e3
        have : ch.bytes.length = 4 := by omega
        exact ⟨_, by rw [if_pos this]⟩
      | intData sg =>
        rw [hkd] at hu
        simp only [Bool.and_eq_true, beq_iff_eq, Bool.not_eq_true'] at hu
        have hb := hwb hu.1 hu.2
        cases hb
        have hm := hI sg hkd _ _ e3
        simp only [Chunk.slot] at e3 hm
        exact ⟨.int (bytesToInt sg ch.bytes), by simp only [e3, intSizes, hm, if_true, or_true]⟩
      | plain => exact ⟨_, rfl⟩
      | bytesData => exact ⟨_, rfl⟩
      | engrda => exact ⟨_, rfl⟩
      | coord => exact ⟨_, rfl⟩
      | strData => exact ⟨_, rfl⟩
    · exact ⟨_, rfl⟩

/-- C65.  A record that was read can be printed, if its binary integers have sizes the library can
convert and no field is computed. -/
theorem C65_read_prints_partial {d : Desc} (hd : d.causal = true) (hl : d.loopsNamed = true)
    (hu : d.allFields FieldDef.unpackOk = true) {b rest : Bytes} {R : Store P.F}
    (h : readStruct P d false b = .ok (R, rest))
    (hv : ∀ (n : Nat) fi ks k, d.tab[n]? = some fi → fi.fd.noValue = false →
      fieldKeys d.tab R fi = .ok ks → k ∈ ks → ∃ v, getItem P d.tab R n k = .ok v)
    (hI : IntSizes d.tab R) : ∃ ls, printLines d R = .ok ls := by
  rw [C65_succeeds hl]
  intro n fi hn hnm
  obtain ⟨ins, _, hlay, _⟩ := C06_raw_bytes P hd h
  obtain ⟨ks, h1, _, _⟩ := layout_keys hd hlay hn
  unfold fieldItems
  rw [hn]
  have h1' := h1
  unfold fieldKeys at h1
  simp only [h1]
  apply valuesAt_total
  intro k hk
  cases hnv : fi.fd.noValue with
  | false => exact hv n fi ks k hn hnv h1' hk
  | true =>
    exact getItem_of_read hd h hn hnm hnv (Desc.allFields_get hu hn)
      (fun s hk => hI _ _ s hn hk) h1' hk

theorem tables_noValue : ∀ t ∈ Tables.all, t.2 = Tables.t_tre_engrda ∨
    t.2.allFields FieldDef.noValue = true := by
  have : (Tables.all.all fun t => decide (t.2 = Tables.t_tre_engrda) ||
    t.2.allFields FieldDef.noValue) = true := by decide +kernel
  rw [List.all_eq_true] at this
  intro t ht
  simpa using this t ht

/-- The computed field of ENGRDA (nitf_tre_engrda.py:116-118) has a value, since the size of the data was
computed from it. -/
theorem engrda_computed {b rest : Bytes} {R : Store P.F}
    (h : readStruct P Tables.t_tre_engrda false b = .ok (R, rest)) {n : Nat} {fi : FInfo} {ks : List Key}
    {k : Key} (hn : Tables.t_tre_engrda.tab[n]? = some fi) (hv : fi.fd.noValue = false)
    (hks : fieldKeys Tables.t_tre_engrda.tab R fi = .ok ks) (hk : k ∈ ks) :
    ∃ v, getItem P Tables.t_tre_engrda.tab R n k = .ok v := by
  have hd : Tables.t_tre_engrda.causal = true := by decide +kernel
  have hall : (List.range Tables.t_tre_engrda.tab.length).all (fun m =>
      match Tables.t_tre_engrda.tab[m]? with
      | none => true
      | some fi => fi.fd.noValue || m == 9) = true := by decide +kernel
  have h9 : n = 9 := by
    have := List.all_eq_true.mp hall n (List.mem_range.mpr (lt_of_getElem? hn))
    simpa [hn, hv] using this
  subst h9
  obtain ⟨fi', hn', e1, e2, e3⟩ : ∃ fi', Tables.t_tre_engrda.tab[10]? = some fi' ∧ fi'.fd.cond = none ∧
      fi'.fd.size = .expr (.mul (.ref (n!"engdatc") [0]) (.ref (n!"engdts") [0])) ∧
      fi'.shapes = fi.shapes := by
    have h0 : Tables.t_tre_engrda.tab[9]?.map (·.shapes) = some [.ref (n!"recnt") []] := by decide +kernel
    rw [hn] at h0
    simp only [Option.map_some, Option.some.injEq] at h0
    refine ⟨_, rfl, rfl, rfl, ?_⟩
    rw [h0]
    decide +kernel
  obtain ⟨ins, _, hlay, _⟩ := C06_raw_bytes P hd h
  obtain ⟨ks', g1, _, g3⟩ := layout_keys hd hlay hn'
  have hkk : ks' = ks := by
    unfold fieldKeys at g1 hks
    rw [e3] at g1
    rw [g1] at hks
    injection hks
  subst hkk
  have hm : k ∈ ((ins.map Chunk.slot).filter fun s => s.pos == 10).map Slot.key := by
    rw [g3, List.mem_filter]
    exact ⟨hk, by simp [present, evalCond, e1]⟩
  rw [List.mem_map] at hm
  obtain ⟨sl, hs1, rfl⟩ := hm
  rw [List.mem_filter, beq_iff_eq] at hs1
  obtain ⟨hs1, hpos⟩ := hs1
  obtain ⟨_, _, _, fi'', f1, _, f3⟩ := layoutD_from P R Tables.t_tre_engrda 0 [] _ hlay sl hs1
  rw [hpos, hn'] at f1
  cases f1
  have hlen : sl.key.length = 1 := by
    have := ((mem_fieldKeys hks sl.key).mp hk).1
    rw [this]
    have h0 : Tables.t_tre_engrda.tab[9]?.map (·.depth) = some 1 := by decide +kernel
    rw [hn] at h0
    simpa using h0
  obtain ⟨i, hi⟩ : ∃ i, sl.key = [i] := List.length_eq_one_iff.mp hlen
  rw [hi] at f3 ⊢
  unfold evalSize at f3
  simp only [e2, evalE, idxKey, List.getElem?_cons_zero, bind, Except.bind] at f3
  have hr : resolve Tables.t_tre_engrda.tab (n!"engdatc") = some 9 := by decide +kernel
  cases hl : look P Tables.t_tre_engrda.tab R (n!"engdatc") [i] with
  | error e => rw [hl] at f3; cases f3
  | ok v =>
    unfold look lookVia at hl
    simp only [hr, hn] at hl
    split at hl
    · cases hl
    · rw [getF_budget P (Desc.causalTab hd) R hn] at hl
      exact ⟨v, hl⟩

/-- C65, for the record types of pynitf: what was read can be printed, and all of it is shown; the same
exception as in `C65_shipped_partial`. -/
theorem C65_shipped_read_partial {t : String × Desc} (ht : t ∈ Tables.all) {b rest : Bytes} {R : Store P.F}
    (h : readStruct P t.2 false b = .ok (R, rest))
    (hI : t.1 = "CSEXRB" ∨ t.1 = "MTIMSA" → IntSizes t.2.tab R) :
    ∃ ls, printLines t.2 R = .ok ls ∧
      allItems t.2.tab R 0 t.2.tab = .ok (ls.filterMap Line.shows) := by
  have hI' : IntSizes t.2.tab R := by
    rcases tables_intConst t ht with h | h | h
    · exact hI (.inl h)
    · exact hI (.inr h)
    · exact intSizes_of_const h R
  obtain ⟨ls, hl⟩ := C65_read_prints_partial (tables_causal t ht) (tables_loopsNamed t ht)
    (tables_unpackOk t ht) h (fun n fi ks k hn hv hks hk => by
      rcases tables_noValue t ht with he | he
      · obtain ⟨nm, d⟩ := t
        simp only at he
        subst he
        exact engrda_computed h hn hv hks hk
      · have := Desc.allFields_get he hn
        rw [hv] at this
        cases this) hI'
  exact ⟨ls, hl, C65_lines hl⟩

/-- The bytes of an MTIMSA record with one frame time of five bytes. -/
def exMtimsa : Bytes :=
  List.replicate 5 48 ++ List.replicate 36 65 ++ List.replicate 3 48 ++ List.replicate 36 65 ++
  List.replicate 9 48 ++ List.replicate 13 49 ++ List.replicate 9 48 ++ List.replicate 24 65 ++
  [0, 0, 0, 0, 0, 0, 0, 1] ++ [5] ++ [0, 0, 0, 1] ++ [0, 0, 0, 1] ++ [1, 2, 3, 4, 5]

/-- C65, the full statement fails: a record with frame times of five bytes can be read and written
back, but not printed, and the frame times cannot be read from the object. -/
theorem C65_frame_time_size :
    (match readStruct P0 Tables.t_tre_mtimsa false exMtimsa with
      | .error _ => false
      | .ok (R, rest) => rest == [] &&
          decide ((writeStruct P0 Tables.t_tre_mtimsa R).map List.length = .ok exMtimsa.length) &&
          decide (getAttr P0 Tables.t_tre_mtimsa R (n!"dt") [0] = .error .exception) &&
          decide ((printLines Tables.t_tre_mtimsa R).map List.length = .error .exception)) = true := by
  decide +kernel

/-! ### A concrete case -/

/-- A 2 x 3 grid, printed. -/
example : printStruct (P := P0) ⟨fun _ => "n".toList, fun v => match v with
      | .int z => intStr z
      | _ => []⟩ gridDesc
    ((Store.empty.set 0 [] ⟨.val (.int 1), none⟩).set 1 [] ⟨.val (.int 2), none⟩) =
    .ok ("nr: 1\nnc: 2\nLoop - n\n  Loop - n\n    x[0, 0]: 0\n    x[0, 1]: 0\n").toList := by
  decide +kernel

example : gridDesc.loopsNamed = true ∧ gridDesc.allFields FieldDef.unpackOk = true ∧
    gridDesc.causal = true := by decide +kernel

end Verif
