import Verif.Chunks

/- Enumerating the values of a field: `NitfLoop.keys`, `NitfField.items`. -/

namespace Verif

variable (P : PyFloat)

/-- `NitfLoop.keys` (nitf_field.py:602-617): all index tuples in 'C' order. -/
def keysFrom (look : Look P.F) : List Expr → Key → Except Err (List Key)
  | [], key => .ok [key]
  | e :: es, key =>
    match evalShape P look e key with
    | .error x => .error x
    | .ok c => forChunks (fun i => keysFrom look es (key ++ [i])) (indices c)

/-- Values at a list of keys. -/
def valuesAt (get : Key → Except Err (Val P.F)) : List Key → Except Err (List (Key × Val P.F))
  | [] => .ok []
  | k :: ks =>
    match get k with
    | .error x => .error x
    | .ok v =>
      match valuesAt get ks with
      | .error x => .error x
      | .ok r => .ok ((k, v) :: r)

/-- `NitfField.items` (nitf_field.py:157-161): the (index, value) pairs of the field at position
`n`; for a scalar the single pair with the empty index. -/
def fieldItems (T : Tab) (S : Store P.F) (n : Nat) : Except Err (List (Key × Val P.F)) :=
  match T[n]? with
  | none => .error .attr
  | some fi =>
    match keysFrom P (look P T S) fi.shapes [] with
    | .error x => .error x
    | .ok ks => valuesAt P (fun k => getItem P T S n k) ks

/-- The (index, value) pairs of the field called `nm`. -/
def itemsOf (d : Desc) (S : Store P.F) (nm : Name) : Except Err (List (Key × Val P.F)) :=
  match resolve d.tab nm with
  | none => .error .attr
  | some n => fieldItems P d.tab S n

/-! ### Loop identity -/

theorem flatten_starts_ge (n : Nat) (sh : List Expr) (st : List Nat) (d : Desc) :
    ∀ (j : Nat) (fi : FInfo), (flatten n sh st d)[j]? = some fi →
      ∃ t, fi.starts = st ++ t ∧ ∀ s ∈ t, n ≤ s := by
  induction d generalizing n sh st with
  | nil => intro j fi h; simp [flatten] at h
  | field fd r ih =>
    intro j fi h
    cases j with
    | zero => simp [flatten] at h; subst h; exact ⟨[], by simp, by simp⟩
    | succ j =>
      obtain ⟨t, h1, h2⟩ := ih (n + 1) sh st j fi (by simpa [flatten] using h)
      exact ⟨t, h1, fun s hs => by have := h2 s hs; omega⟩
  | loop e b r ihb ihr =>
    intro j fi h
    simp only [flatten] at h
    rw [List.getElem?_append] at h
    split at h
    · obtain ⟨t, h1, h2⟩ := ihb n (sh ++ [e]) (st ++ [n]) j fi h
      refine ⟨n :: t, by simp [h1], ?_⟩
      intro s hs
      simp only [List.mem_cons] at hs
      rcases hs with rfl | hs
      · exact Nat.le_refl _
      · exact h2 s hs
    · obtain ⟨t, h1, h2⟩ := ihr (n + b.count) sh st _ fi h
      exact ⟨t, h1, fun s hs => by have := h2 s hs; omega⟩

/-- If the loops around an earlier field are among those around a later one, so are their
shapes. -/
theorem flatten_shapes (n : Nat) (sh : List Expr) (st : List Nat) (d : Desc) :
    ∀ (i j : Nat) (fi fj : FInfo), i ≤ j → (flatten n sh st d)[i]? = some fi →
      (flatten n sh st d)[j]? = some fj → fi.starts <+: fj.starts → fi.shapes <+: fj.shapes := by
  induction d generalizing n sh st with
  | nil => intro i j fi fj _ h; simp [flatten] at h
  | field fd r ih =>
    intro i j fi fj hij hi hj hp
    cases i with
    | zero =>
      have : fi = ⟨fd, sh, st⟩ := by simpa [flatten] using hi.symm
      subst this
      exact (flatten_starts n sh st _ j fj hj).2
    | succ i =>
      cases j with
      | zero => omega
      | succ j =>
        exact ih (n + 1) sh st i j fi fj (by omega) (by simpa [flatten] using hi)
          (by simpa [flatten] using hj) hp
  | loop e b r ihb ihr =>
    intro i j fi fj hij hi hj hp
    simp only [flatten] at hi hj
    rw [List.getElem?_append] at hi hj
    have hlb := length_flatten n (sh ++ [e]) (st ++ [n]) b
    split at hi
    · rename_i hib
      split at hj
      · exact ihb n (sh ++ [e]) (st ++ [n]) i j fi fj hij hi hj hp
      · exfalso
        obtain ⟨t, ht, _⟩ := flatten_starts_ge n (sh ++ [e]) (st ++ [n]) b i fi hi
        obtain ⟨t', ht', hge⟩ := flatten_starts_ge (n + b.count) sh st r _ fj hj
        obtain ⟨u, hu⟩ := hp
        rw [ht, ht', List.append_assoc, List.append_assoc] at hu
        have := List.append_cancel_left hu
        have := hge n (by rw [← this]; simp)
        omega
    · rename_i hib
      split at hj
      · omega
      · exact ihr (n + b.count) sh st _ _ fi fj (by omega) hi hj hp

/-- The index up to loop `j` of a reachable field is reachable for a field visible there. -/
theorem Reach.visible {d : Desc} {S : Store P.F} {m m' : Nat} {fi fi' : FInfo}
    (hm : d.tab[m]? = some fi) (hm' : d.tab[m']? = some fi') (hle : m' ≤ m)
    (hp : fi'.starts <+: fi.starts) {key : Key} {j : Nat}
    (hlen : fi'.starts.length ≤ j) (hl' : fi'.starts.length = fi'.depth)
    (hj : j ≤ key.length)
    (hr : ∀ (i : Nat) e x, i < j → fi.shapes[i]? = some e → key[i]? = some x →
      0 ≤ x ∧ ∃ c, evalShape P (look P d.tab S) e (key.take i) = .ok c ∧ x < c) :
    Reach P d.tab S m' (key.take fi'.starts.length) := by
  have hsh := flatten_shapes 0 [] [] d m' m fi' fi hle hm' hm hp
  refine ⟨fi', hm', by rw [List.length_take]; omega, ?_⟩
  intro i e x he hx
  have hi : i < fi'.starts.length := by
    have := lt_of_getElem? he; unfold FInfo.depth at hl'; omega
  have he' : fi.shapes[i]? = some e := by
    obtain ⟨t, ht⟩ := hsh
    rw [← ht, List.getElem?_append_left (lt_of_getElem? he)]; exact he
  have hx' : key[i]? = some x := by
    rw [List.getElem?_take] at hx
    simpa [hi] using hx
  obtain ⟨h0, c, hc, hlt⟩ := hr i e x (by omega) he' hx'
  refine ⟨h0, c, ?_, hlt⟩
  rw [List.take_take, Nat.min_eq_left (by omega)]
  exact hc

/-- All reachable fields have the same value. -/
def AllSame (T : Tab) (S R : Store P.F) : Prop := ∀ m k, Reach P T S m k → SameAt P T S R m k

theorem AllSame.vis {d : Desc} (hC : CausalTab d.tab) {S R : Store P.F}
    (h : AllSame P d.tab S R) {m : Nat} {fi : FInfo} (hm : d.tab[m]? = some fi) {key : Key}
    {n j : Nat} (hn : n ≤ m) (hj : j ≤ key.length)
    (hr : ∀ (i : Nat) e x, i < j → fi.shapes[i]? = some e → key[i]? = some x →
      0 ≤ x ∧ ∃ c, evalShape P (look P d.tab S) e (key.take i) = .ok c ∧ x < c) :
    VisSame P d.tab n (fi.starts.take j) key S R := by
  intro m' fi' hm' hlt hp
  refine h m' _ (Reach.visible P hm hm' (by omega) (hp.trans (List.take_prefix _ _)) ?_
    (fieldOk_starts (hC m' fi' hm')).1 hj hr)
  have := hp.length_le
  rw [List.length_take] at this
  omega

theorem keysFrom_same {d : Desc} (hC : CausalTab d.tab) {S R : Store P.F}
    (h : AllSame P d.tab S R) {m : Nat} {fi : FInfo} (hm : d.tab[m]? = some fi) :
    ∀ (es : List Expr) (key : Key), fi.shapes = fi.shapes.take key.length ++ es →
      key.length ≤ fi.shapes.length →
      (∀ (i : Nat) e x, i < key.length → fi.shapes[i]? = some e → key[i]? = some x →
        0 ≤ x ∧ ∃ c, evalShape P (look P d.tab S) e (key.take i) = .ok c ∧ x < c) →
      keysFrom P (look P d.tab S) es key = keysFrom P (look P d.tab R) es key ∧
      ∀ ks, keysFrom P (look P d.tab S) es key = .ok ks → ∀ k ∈ ks, Reach P d.tab S m k := by
  intro es
  induction es with
  | nil =>
    intro key hes hle hr
    refine ⟨rfl, ?_⟩
    intro ks hks k hk
    simp only [keysFrom] at hks
    injection hks with hks
    subst hks
    rw [List.mem_singleton] at hk
    subst hk
    have : fi.shapes.length = k.length := by
      have := congrArg List.length hes
      rw [List.length_append, List.length_take, List.length_nil] at this
      omega
    refine ⟨fi, hm, this.symm, ?_⟩
    intro i e x he hx
    exact hr i e x (lt_of_getElem? hx) he hx
  | cons e es ih =>
    intro key hes hle hr
    have hlt : key.length < fi.shapes.length := by
      have := congrArg List.length hes
      rw [List.length_append, List.length_take, List.length_cons] at this
      omega
    have he : fi.shapes[key.length]? = some e := by
      rw [hes, List.getElem?_append_right (by rw [List.length_take]; omega), List.length_take,
        Nat.min_eq_left hle]
      simp
    -- the shape of this loop
    have hf := hC m fi hm
    have hfo := hf
    simp only [fieldOk, Bool.and_eq_true] at hfo
    obtain ⟨s, hs, ho⟩ := (shapesOk_get hfo.1.2).2 key.length e he
    rw [List.nil_append] at ho
    have hsm : s ≤ m := (fieldOk_starts hf).2 s (List.mem_of_getElem? hs)
    have hsame : evalShape P (look P d.tab S) e key = evalShape P (look P d.tab R) e key := by
      have hv := AllSame.vis P hC h hm (key := key) (n := s) (j := key.length) hsm
        (Nat.le_refl _) hr
      unfold evalShape
      rw [evalE_congr P (hv.look P hC) (by rw [List.length_take]; omega) e ho]
    simp only [keysFrom]
    rw [← hsame]
    cases hsh : evalShape P (look P d.tab S) e key with
    | error x => exact ⟨rfl, by intro ks hks; cases hks⟩
    | ok c =>
      simp only
      have hstep : ∀ i ∈ indices c,
          keysFrom P (look P d.tab S) es (key ++ [i]) = keysFrom P (look P d.tab R) es (key ++ [i]) ∧
          ∀ ks, keysFrom P (look P d.tab S) es (key ++ [i]) = .ok ks →
            ∀ k ∈ ks, Reach P d.tab S m k := by
        intro i hi
        have hmi := mem_indices.mp hi
        refine ih (key ++ [i]) ?_ (by simp; omega) ?_
        · rw [List.length_append, List.length_singleton]
          conv => lhs; rw [← List.take_append_drop (key.length + 1) fi.shapes]
          congr 1
          have := congrArg (List.drop (key.length + 1)) hes
          rw [this, List.drop_append, List.length_take, Nat.min_eq_left hle,
            List.drop_of_length_le (by rw [List.length_take]; omega)]
          simp
        · intro i' e' x hi' he' hx
          rcases Nat.lt_or_ge i' key.length with hl | hg
          · rw [List.getElem?_append_left hl] at hx
            rw [List.take_append_of_le_length (by omega)]
            exact hr i' e' x hl he' hx
          · have : i' = key.length := by simp at hi'; omega
            subst this
            rw [he] at he'
            injection he' with he'
            subst he'
            have : x = i := by simpa using hx.symm
            subst this
            refine ⟨hmi.1, c, ?_, hmi.2⟩
            simpa using hsh
      generalize indices c = is at hstep
      induction is with
      | nil => exact ⟨rfl, by intro ks hks; simp [forChunks] at hks; subst hks; simp⟩
      | cons i is ihis =>
        obtain ⟨h1, h2⟩ := hstep i (by simp)
        obtain ⟨h3, h4⟩ := ihis fun j hj => hstep j (by simp [hj])
        constructor
        · simp only [forChunks]; rw [h1, h3]
        · intro ks hks k hk
          simp only [forChunks] at hks
          cases hk1 : keysFrom P (look P d.tab S) es (key ++ [i]) with
          | error x => rw [hk1] at hks; cases hks
          | ok ks1 =>
            rw [hk1] at hks
            simp only at hks
            cases hk2 : forChunks (fun i => keysFrom P (look P d.tab S) es (key ++ [i])) is with
            | error x => rw [hk2] at hks; cases hks
            | ok ks2 =>
              rw [hk2] at hks
              injection hks with hks
              subst hks
              rw [List.mem_append] at hk
              rcases hk with hk | hk
              · exact h2 ks1 hk1 k hk
              · exact h4 ks2 hk2 k hk

theorem valuesAt_congr {g g' : Key → Except Err (Val P.F)} {ks : List Key}
    (h : ∀ k ∈ ks, g k = g' k) : valuesAt P g ks = valuesAt P g' ks := by
  induction ks with
  | nil => rfl
  | cons k ks ih =>
    simp only [valuesAt]
    rw [h k (by simp), ih fun k' hk' => h k' (by simp [hk'])]

/-- Structs whose reachable fields agree enumerate alike. -/
theorem fieldItems_same {d : Desc} (hC : CausalTab d.tab) {S R : Store P.F}
    (h : AllSame P d.tab S R) (m : Nat) :
    fieldItems P d.tab S m = fieldItems P d.tab R m := by
  unfold fieldItems
  cases hm : d.tab[m]? with
  | none => rfl
  | some fi =>
    simp only
    obtain ⟨h1, h2⟩ := keysFrom_same P hC h hm fi.shapes [] (by simp) (by simp) (by simp)
    rw [← h1]
    cases hk : keysFrom P (look P d.tab S) fi.shapes [] with
    | error x => rfl
    | ok ks =>
      simp only
      exact valuesAt_congr P fun k hkk => h m k (h2 ks hk k hkk)

end Verif
