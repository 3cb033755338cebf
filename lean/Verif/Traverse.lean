import Verif.Causal
import Verif.PyLemmas

/- Relation between the walk over a description and its flattened table. -/

namespace Verif

/-- The walk is at description `d`, whose first field has position `n`, inside loops `st` with
shapes `sh`. -/
structure At (T : Tab) (n : Nat) (sh : List Expr) (st : List Nat) (d : Desc) : Prop where
  pre : flatten n sh st d <+: T.drop n
  loops : loopsOk T n st d = true
  len : sh.length = st.length

theorem length_flatten (n : Nat) (sh : List Expr) (st : List Nat) (d : Desc) :
    (flatten n sh st d).length = d.count := by
  induction d generalizing n sh st with
  | nil => rfl
  | field fd r ih => simp [flatten, Desc.count, ih]
  | loop e b r ihb ihr => simp [flatten, Desc.count, ihb, ihr]

theorem at_top (d : Desc) (h : d.causal = true) : At d.tab 0 [] [] d := by
  simp only [Desc.causal, Bool.and_eq_true] at h
  exact ⟨by simp [Desc.tab], h.2, rfl⟩

theorem At.field {T : Tab} {n : Nat} {sh : List Expr} {st : List Nat} {fd : FieldDef} {r : Desc}
    (h : At T n sh st (.field fd r)) : T[n]? = some ⟨fd, sh, st⟩ ∧ At T (n + 1) sh st r := by
  obtain ⟨⟨t, ht⟩, hl, hlen⟩ := h
  simp only [flatten, List.cons_append] at ht
  refine ⟨?_, ?_, hl, hlen⟩
  · have : (T.drop n)[0]? = some ⟨fd, sh, st⟩ := by rw [← ht]; rfl
    simpa using this
  · refine ⟨t, ?_⟩
    have : T.drop (n + 1) = (T.drop n).drop 1 := by rw [List.drop_drop]
    rw [this, ← ht]; rfl

theorem At.loop {T : Tab} {n : Nat} {sh : List Expr} {st : List Nat} {e : Expr} {b r : Desc}
    (h : At T n sh st (.loop e b r)) :
    exprOk T n st e = true ∧ At T n (sh ++ [e]) (st ++ [n]) b ∧ At T (n + b.count) sh st r := by
  obtain ⟨⟨t, ht⟩, hl, hlen⟩ := h
  simp only [loopsOk, Bool.and_eq_true] at hl
  simp only [flatten] at ht
  refine ⟨hl.1, ⟨?_, hl.2.1, by simp [hlen]⟩, ⟨?_, hl.2.2, hlen⟩⟩
  · exact ⟨_, by rw [← List.append_assoc, ht]⟩
  · refine ⟨t, ?_⟩
    have : T.drop (n + b.count) = (T.drop n).drop b.count := by rw [List.drop_drop]
    rw [this, ← ht, List.append_assoc]
    have hlen := length_flatten n (sh ++ [e]) (st ++ [n]) b
    rw [List.drop_append, hlen, List.drop_of_length_le (by omega)]
    simp

theorem flatten_starts (n : Nat) (sh : List Expr) (st : List Nat) (d : Desc) :
    ∀ (j : Nat) (fi : FInfo), (flatten n sh st d)[j]? = some fi → st <+: fi.starts ∧ sh <+: fi.shapes := by
  induction d generalizing n sh st with
  | nil => intro j fi h; simp [flatten] at h
  | field fd r ih =>
    intro j fi h
    cases j with
    | zero => simp [flatten] at h; subst h; exact ⟨List.prefix_refl _, List.prefix_refl _⟩
    | succ j => exact ih (n + 1) sh st j fi (by simpa [flatten] using h)
  | loop e b r ihb ihr =>
    intro j fi h
    simp only [flatten] at h
    rw [List.getElem?_append] at h
    split at h
    · obtain ⟨h1, h2⟩ := ihb n (sh ++ [e]) (st ++ [n]) j fi h
      exact ⟨(List.prefix_append _ _).trans h1, (List.prefix_append _ _).trans h2⟩
    · exact ihr (n + b.count) sh st _ fi h

/-- Fields of the description at hand are inside the current loops. -/
theorem At.inside {T : Tab} {n : Nat} {sh : List Expr} {st : List Nat} {d : Desc}
    (h : At T n sh st d) {m : Nat} (h1 : n ≤ m) (h2 : m < n + d.count) :
    ∃ fi, T[m]? = some fi ∧ st <+: fi.starts ∧ sh <+: fi.shapes := by
  obtain ⟨t, ht⟩ := h.pre
  have hlen := length_flatten n sh st d
  have hlt : m - n < (flatten n sh st d).length := by omega
  refine ⟨(flatten n sh st d)[m - n], ?_, ?_⟩
  · have : (T.drop n)[m - n]? = some (flatten n sh st d)[m - n] := by
      rw [← ht, List.getElem?_append_left hlt, List.getElem?_eq_getElem hlt]
    rw [List.getElem?_drop] at this
    rwa [show n + (m - n) = m by omega] at this
  · exact flatten_starts n sh st d (m - n) _ (List.getElem?_eq_getElem hlt)

theorem At.bound {T : Tab} {n : Nat} {sh : List Expr} {st : List Nat} {d : Desc}
    (h : At T n sh st d) (hn : n ≤ T.length) : n + d.count ≤ T.length := by
  have := h.pre.length_le
  rw [length_flatten, List.length_drop] at this
  omega

variable (P : PyFloat)

/-- Inside a loop the same fields are visible at its start as outside. -/
theorem VisSame.enter {T : Tab} (hC : CausalTab T) {n : Nat} {st : List Nat} {key : Key}
    {S R : Store P.F} (h : VisSame P T n st key S R) (hk : key.length = st.length) (i : Int) :
    VisSame P T n (st ++ [n]) (key ++ [i]) S R := by
  intro m fi hm hlt hpre
  rw [List.prefix_concat_iff] at hpre
  rcases hpre with hpre | hpre
  · have := (fieldOk_starts (hC m fi hm)).2 n (by rw [hpre]; simp)
    omega
  · have := h m fi hm hlt hpre
    have hle := hpre.length_le
    rwa [List.take_append_of_le_length (by omega)]

/-- After a field whose values agree, one more field is visible. -/
theorem VisSame.step {T : Tab} {n : Nat} {sh : List Expr} {st : List Nat} {fd : FieldDef}
    {key : Key} {S R : Store P.F} (hn : T[n]? = some ⟨fd, sh, st⟩)
    (h : VisSame P T n st key S R) (hk : key.length = st.length)
    (h' : SameAt P T S R n key) : VisSame P T (n + 1) st key S R := by
  intro m fi hm hlt hpre
  rcases Nat.lt_or_ge m n with hlt' | hge
  · exact h m fi hm hlt' hpre
  · have : m = n := by omega
    subst this
    rw [hn] at hm
    injection hm with hm
    subst hm
    simp only
    rw [List.take_of_length_le (by omega)]
    exact h'

/-- After a loop nothing new is visible. -/
theorem VisSame.skip {T : Tab} {n : Nat} {sh : List Expr} {st : List Nat} {e : Expr}
    {b r : Desc} {key : Key} {S R : Store P.F} (hat : At T n sh st (.loop e b r))
    (h : VisSame P T n st key S R) : VisSame P T (n + b.count) st key S R := by
  intro m fi hm hlt hpre
  rcases Nat.lt_or_ge m n with hlt' | hge
  · exact h m fi hm hlt' hpre
  · obtain ⟨fi', hm', hst, _⟩ := hat.loop.2.1.inside hge hlt
    rw [hm] at hm'
    injection hm' with hm'
    subst hm'
    have h1 := hst.length_le
    have h2 := hpre.length_le
    simp at h1
    omega

/-- Changes confined to position `n` on leave the visible fields alone. -/
theorem VisSame.frame {T : Tab} (hC : CausalTab T) {n : Nat} {st : List Nat} {key : Key}
    {S R R' : Store P.F} (h : VisSame P T n st key S R)
    (hR : ∀ m k, m < n → R' m k = R m k) : VisSame P T n st key S R' := by
  intro m fi hm hlt hpre
  refine (h m fi hm hlt hpre).trans ?_
  exact sameAt_frame P hC m _ fun m' k' h1 _ => (hR m' k' (by omega)).symm

theorem VisSame.evalShape {T : Tab} (hC : CausalTab T) {n : Nat} {st : List Nat} {key : Key}
    {S R : Store P.F} (h : VisSame P T n st key S R) {e : Expr} (he : exprOk T n st e = true)
    (hk : st.length ≤ key.length) :
    evalShape P (Verif.look P T S) e key = evalShape P (Verif.look P T R) e key := by
  unfold Verif.evalShape
  rw [evalE_congr P (h.look P hC) hk e he]

/-- Reading changed only positions of `[n, n+c)` under index prefix `key`. -/
def Touch {F} (n c : Nat) (key : Key) (R R' : Store F) : Prop :=
  ∀ m k, ¬ (n ≤ m ∧ m < n + c ∧ key <+: k) → R' m k = R m k

theorem Touch.refl {F} (n c : Nat) (key : Key) (R : Store F) : Touch n c key R R :=
  fun _ _ _ => rfl

theorem Touch.trans {F} {n c : Nat} {key : Key} {R R' R'' : Store F}
    (h : Touch n c key R R') (h' : Touch n c key R' R'') : Touch n c key R R'' :=
  fun m k hn => (h' m k hn).trans (h m k hn)

theorem Touch.mono {F} {n c n' c' : Nat} {key key' : Key} {R R' : Store F}
    (h : Touch n c key R R') (h1 : n' ≤ n) (h2 : n + c ≤ n' + c') (hk : key' <+: key) :
    Touch n' c' key' R R' := by
  intro m k hn
  refine h m k fun ⟨a, b, hp⟩ => hn ⟨by omega, by omega, hk.trans hp⟩

theorem Touch.set {F} (n : Nat) (key : Key) (R : Store F) (cell : Cell F) :
    Touch n 1 key R (R.set n key cell) := by
  intro m k hn
  unfold Store.set
  split
  · rename_i h; exact absurd ⟨by omega, by omega, by rw [h.2]; exact List.prefix_refl _⟩ hn
  · rfl

/-- Two different continuations of an index are not both prefixes of a third. -/
theorem prefix_concat_inj {key k : Key} {i j : Int} (h1 : key ++ [i] <+: k)
    (h2 : key ++ [j] <+: k) : i = j := by
  obtain ⟨a, rfl⟩ := h1
  obtain ⟨b, hb⟩ := h2
  rw [List.append_assoc, List.append_assoc] at hb
  have := List.append_cancel_left hb
  simp at this
  exact this.1.symm

end Verif
