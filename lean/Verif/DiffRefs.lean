import Verif.DiffLemmas

/- The loop counts agree if the fields they are computed from do. -/

namespace Verif

variable {P : PyFloat}

theorem evalE_refs {l l' : Look P.F} {key : Key} (e : Expr)
    (h : ∀ r ∈ e.refs, ∀ k, idxKey key r.2 = .ok k → l r.1 k = l' r.1 k) :
    evalE P l key e = evalE P l' key e := by
  induction e with
  | const c => rfl
  | ref nm idx =>
    simp only [evalE]
    cases hk : idxKey key idx with
    | error x => rfl
    | ok k =>
      have := h (nm, idx) (by simp [Expr.refs]) k hk
      exact this
  | eq a b iha ihb | ne a b iha ihb | gt a b iha ihb | ge a b iha ihb | and a b iha ihb
  | band a b iha ihb | mul a b iha ihb | add a b iha ihb | sub a b iha ihb | fdiv a b iha ihb =>
    simp only [Expr.refs, List.mem_append] at h
    simp only [evalE, iha fun r hr => h r (.inl hr), ihb fun r hr => h r (.inr hr)]
  | isin a cs iha | notin a cs iha | rstrip a iha | toInt a iha | tri a iha =>
    simp only [evalE, iha h]
  | ite c a b ihc iha ihb =>
    simp only [Expr.refs, List.mem_append] at h
    simp only [evalE, ihc fun r hr => h r (.inl hr), iha fun r hr => h r (.inr (.inl hr)),
      ihb fun r hr => h r (.inr (.inr hr))]

/-- A key is inside the loops `es` after `key0`. -/
def Inside (l : Look P.F) (es : List Expr) (key0 key : Key) : Prop :=
  ∀ (j : Nat) e i, es[j]? = some e → key[j]? = some i →
    0 ≤ i ∧ ∃ c, evalShape P l e (key0 ++ key.take j) = .ok c ∧ i < c

theorem Matches.get {l1 l2 : Look P.F} {ok : Key → Prop} {es : List Expr} {key0 key : Key}
    (h : Matches P l1 l2 ok es key0) (hl : key.length = es.length)
    (hin : Inside l1 es key0 key) : ok (key0 ++ key) := by
  induction es generalizing key0 key with
  | nil =>
    have : key = [] := List.eq_nil_of_length_eq_zero hl
    subst this
    simpa [Matches] using h
  | cons e es ih =>
    cases key with
    | nil => simp at hl
    | cons i key =>
      obtain ⟨c, h1, h2, h3⟩ := h
      obtain ⟨h0, c', hc, hlt⟩ := hin 0 e i rfl rfl
      simp only [List.take_zero, List.append_nil] at hc
      rw [h1] at hc
      injection hc with hc
      subst hc
      have := ih (h3 i h0 hlt) (by simpa using hl) (by
        intro j e' i' he hi
        have := hin (j + 1) e' i' (by simpa using he) (by simpa using hi)
        simpa using this)
      simpa using this

/-- The loops around the innermost loop of a field have the same counts in two structures, if the
fields these counts are computed from are equal and the shapes compare equal. -/
theorem outer_of_refs {d : Desc} (hd : d.causal = true) {S1 S2 : Store P.F} {n : Nat} {fi : FInfo}
    (hn : d.tab[n]? = some fi)
    (href : ∀ e ∈ fi.shapes.dropLast, ∀ r ∈ e.refs, ∀ m fm, resolve d.tab r.1 = some m →
      d.tab[m]? = some fm → m < n → Matches P (look P d.tab S1) (look P d.tab S2)
        (fun k => ∃ a, getItem P d.tab S1 m k = .ok a ∧ getItem P d.tab S2 m k = .ok a)
        fm.shapes [])
    (hs : shapeEqFrom P (look P d.tab S1) (look P d.tab S2) fi.shapes fi.shapes [] = .ok true) :
    Matches P (look P d.tab S1) (look P d.tab S2) (fun _ => True) fi.shapes.dropLast [] := by
  have hC := Desc.causalTab hd
  have main : ∀ (es : List Expr) (key : Key),
      fi.shapes = fi.shapes.take key.length ++ es → es ≠ [] →
      Inside (look P d.tab S1) fi.shapes [] key →
      shapeEqFrom P (look P d.tab S1) (look P d.tab S2) es es key = .ok true →
      Matches P (look P d.tab S1) (look P d.tab S2) (fun _ => True) es.dropLast key := by
    intro es
    induction es with
    | nil => intro key _ h; exact absurd rfl h
    | cons e es ih =>
      intro key hes _ hin hsh
      cases es with
      | nil => trivial
      | cons e' es =>
        rw [List.dropLast_cons_of_ne_nil (by simp)]
        have hle : key.length ≤ fi.shapes.length := by
          have := congrArg List.length hes
          rw [List.length_append, List.length_take] at this
          simp only [List.length_cons] at this
          omega
        have he : fi.shapes[key.length]? = some e := by
          rw [hes, List.getElem?_append_right (by rw [List.length_take]; omega), List.length_take,
            Nat.min_eq_left hle]
          simp
        have hmem : e ∈ fi.shapes.dropLast := by
          rw [hes, List.dropLast_append_of_ne_nil (by simp),
            List.dropLast_cons_of_ne_nil (by simp)]
          simp
        have hf := hC n fi hn
        have hfo := hf
        simp only [fieldOk, Bool.and_eq_true] at hfo
        obtain ⟨s, hst, ho⟩ := (shapesOk_get hfo.1.2).2 key.length e he
        rw [List.nil_append] at ho
        have hsm : s ≤ n := (fieldOk_starts hf).2 s (List.mem_of_getElem? hst)
        have hsame : evalShape P (look P d.tab S1) e key = evalShape P (look P d.tab S2) e key := by
          unfold evalShape
          rw [evalE_refs (l := look P d.tab S1) (l' := look P d.tab S2) e ?_]
          intro r hr k hk
          have hro := List.all_eq_true.mp ho r hr
          unfold refOk at hro
          split at hro
          · cases hro
          · rename_i m hm
            split at hro
            · cases hro
            · rename_i fm hfm
              simp only [Bool.and_eq_true, decide_eq_true_eq, beq_iff_eq,
                List.isPrefixOf_iff_prefix] at hro
              obtain ⟨⟨hlt, hp⟩, hidx⟩ := hro
              have hpl : fm.starts.length ≤ key.length := by
                have := hp.length_le
                rw [List.length_take] at this
                omega
              rw [hidx, idxKey_range key _ hpl] at hk
              injection hk with hk
              subst hk
              have hM := href e hmem r hr m fm hm hfm (by omega)
              have hdep := (fieldOk_starts (hC m fm hfm)).1
              have hsh' := flatten_shapes 0 [] [] d m n fm fi (by omega) hfm hn
                (hp.trans (List.take_prefix _ _))
              have hget := hM.get (key := key.take fm.starts.length)
                (by rw [List.length_take, hdep]; unfold FInfo.depth at *; omega) (by
                  intro j e2 i he2 hi
                  rw [List.getElem?_take] at hi
                  split at hi
                  · have hpre : fi.shapes[j]? = some e2 := by
                      obtain ⟨t, ht⟩ := hsh'
                      rw [← ht, List.getElem?_append_left (lt_of_getElem? he2)]
                      exact he2
                    have := hin j e2 i hpre hi
                    rw [List.take_take, Nat.min_eq_left (by omega)]
                    exact this
                  · cases hi)
              rw [List.nil_append] at hget
              obtain ⟨a, ha1, ha2⟩ := hget
              have hlook : ∀ S, look P d.tab S r.1 (key.take fm.starts.length) =
                  if (fm.depth = 0) ≠ (key.take fm.starts.length = []) then .error .type
                  else getItem P d.tab S m (key.take fm.starts.length) := by
                intro S
                unfold look lookVia
                simp only [hm, hfm]
                rw [getF_budget P hC S hfm]
              rw [hlook, hlook, ha1, ha2]
        simp only [shapeEqFrom] at hsh
        cases h1 : evalShape P (look P d.tab S1) e key with
        | error x => rw [h1] at hsh; cases x <;> simp at hsh
        | ok c =>
          rw [h1] at hsh
          simp only [List.isEmpty_cons, Bool.false_eq_true, if_false, List.tail_cons] at hsh
          rw [allIdx_true] at hsh
          refine ⟨c, h1, by rw [← hsame, h1], fun i h0 hi => ?_⟩
          refine ih (key ++ [i]) ?_ (by simp) ?_ (hsh i (mem_indices.mpr ⟨h0, hi⟩))
          · rw [List.length_append, List.length_singleton]
            conv => lhs; rw [← List.take_append_drop (key.length + 1) fi.shapes]
            congr 1
            have := congrArg (List.drop (key.length + 1)) hes
            rw [this, List.drop_append, List.length_take, Nat.min_eq_left hle,
              List.drop_of_length_le (by rw [List.length_take]; omega)]
            simp
          · intro j e2 x he2 hx
            rw [List.nil_append]
            rcases Nat.lt_or_ge j key.length with hl | hg
            · rw [List.getElem?_append_left hl] at hx
              rw [List.take_append_of_le_length (by omega)]
              have := hin j e2 x he2 hx
              simpa using this
            · have : j = key.length := by
                have := lt_of_getElem? hx
                simp at this; omega
              subst this
              rw [he] at he2
              injection he2 with he2
              subst he2
              have : x = i := by simpa using hx.symm
              subst this
              exact ⟨h0, c, by simpa using h1, hi⟩
  by_cases hne : fi.shapes = []
  · rw [hne]; trivial
  · exact main fi.shapes [] (by simp) hne (by intro j e i _ hi; simp at hi) hs

/-- The value of a field whose type is not floating point is not a float. -/
theorem getItem_notFlt {d : Desc} {S : Store P.F} {n : Nat} {fi : FInfo} (hn : d.tab[n]? = some fi)
    (ht : fi.fd.ty ≠ .flt) (hk : fi.fd.kind ≠ .fltData) {k : Key} {v : Val P.F}
    (h : getItem P d.tab S n k = .ok v) : v.isFlt = false := by
  have co : ∀ w x, coerce P fi.fd w = .ok x → x.isFlt = false := by
    intro w x hx
    unfold coerce at hx
    cases hty : fi.fd.ty with
    | str => rw [hty] at hx; injection hx with hx; subst hx; rfl
    | int =>
      rw [hty] at hx
      simp only at hx
      cases hz : coerceInt P w with
      | error e => rw [hz] at hx; cases hx
      | ok z => rw [hz] at hx; injection hx with hx; subst hx; rfl
    | flt => exact absurd hty ht
    | bytes =>
      rw [hty] at hx
      simp only at hx
      cases w <;> simp only [reduceCtorEq] at hx
      · split at hx
        · cases hx
        · injection hx with hx; subst hx; rfl
      · injection hx with hx; subst hx; rfl
  have fin : ∀ s x, finish P fi.fd s = .ok x → x.isFlt = false := by
    intro s x hx
    unfold finish at hx
    split at hx
    · split at hx
      · injection hx with hx; subst hx; rfl
      · exact co _ _ hx
    · exact co _ _ hx
    · split at hx
      · injection hx with hx; subst hx; rfl
      · exact co _ _ hx
  rw [getItem_eq P k hn] at h
  unfold getWith at h
  cases hl : lowGet P (look P d.tab S) S fi n k with
  | error e => rw [hl] at h; cases h
  | ok w =>
    have hw : w.isFlt = false := by
      unfold lowGet at hl
      split at hl
      · injection hl with hl; subst hl; rfl
      · cases hc : checkIndex P (look P d.tab S) fi k with
        | error e => rw [hc] at hl; cases hl
        | ok u =>
          rw [hc] at hl
          cases hcd : evalCond P (look P d.tab S) fi k with
          | error e => rw [hcd] at hl; cases hl
          | ok b =>
            rw [hcd] at hl
            cases b with
            | false => injection hl with hl; subst hl; rfl
            | true =>
              simp only [bind, Except.bind, if_true] at hl
              cases hv : fi.fd.value with
              | none => rw [hv] at hl; exact fin _ _ hl
              | some e =>
                rw [hv] at hl
                simp only at hl
                split at hl
                · cases hl
                · exact fin _ _ hl
    rw [hl] at h
    simp only at h
    split at h
    · injection h with h; subst h; exact hw
    · injection h with h; subst h; rfl
    · rename_i b _ _
      unfold unpackKind at h
      split at h <;> try (injection h with h; subst h; rfl)
      · rename_i hkk; exact absurd hkk hk
      · split at h
        · cases h
        · split at h
          · split at h
            · injection h with h; subst h; rfl
            · cases h
          · cases h
    · injection h with h; subst h; exact hw

theorem pyEq_eq {a b : Val P.F} (ha : a.isFlt = false) (hb : b.isFlt = false)
    (h : pyEq P a b = true) : a = b := by
  cases a <;> cases b <;> simp_all [pyEq, Val.isFlt]

end Verif
