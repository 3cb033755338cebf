import Verif.Delayed
import Verif.Traverse

/- Facts about delayed reading used by `Props/Delayed.lean`. -/

namespace Verif

variable (P : PyFloat)

/-! ### An object that has been read -/

theorem forceIf_ready (d : Desc) (c : Bool) (S : Store P.F) :
    forceIf P d c ⟨S, none⟩ = (⟨S, none⟩, none) := by
  unfold forceIf force
  split <;> rfl

theorem setL_ready (d : Desc) (tre : Bool) : ∀ (fuel : Nat) (S : Store P.F) (n : Nat) (key : Key)
    (v : Val P.F), setL P d tre fuel ⟨S, none⟩ n key v =
      (⟨(setF P d.tab fuel S n key v).1, none⟩, (setF P d.tab fuel S n key v).2) := by
  intro fuel
  induction fuel with
  | zero => intros; rfl
  | succ fuel ih =>
    intro S n key v
    unfold setL setF
    cases hn : d.tab[n]? with
    | none => simp only [setCheck, hn]
    | some fi =>
      simp only [forceIf_ready]
      cases hp : packKind P (evalSize P (look P d.tab S) fi key) fi.fd.kind v with
      | error e => simp only [setCheck, hn, hp]
      | ok w =>
        simp only
        cases hc : setCheck P d.tab S n key v with
        | error e => rfl
        | ok r =>
          obtain ⟨fi', v'⟩ := r
          simp only
          by_cases hk : fi'.fd.kind = .plain
          · simp only [hk, if_true]
          · simp only [if_neg hk]
            cases byteLen v' with
            | error e => rfl
            | ok l =>
              simp only
              by_cases hu : fi'.fd.sizeNotUpdated = true
              · simp only [hu, if_true]
                cases evalSize P (look P d.tab (S.set n key ⟨.val v', none⟩)) fi' key with
                | error e => rfl
                | ok sz =>
                  simp only
                  split <;> rfl
              · simp only [if_neg hu]
                generalize fi'.fd.size = z
                cases z with
                | const c => rfl
                | expr e =>
                  cases e with
                  | ref nm idx =>
                    simp only
                    cases idxKey key idx with
                    | error e => rfl
                    | ok k' =>
                      cases resolve d.tab nm with
                      | none => rfl
                      | some m =>
                        simp only
                        cases d.tab[m]? with
                        | none => rfl
                        | some fm =>
                          simp only
                          split
                          · rfl
                          · split
                            · rfl
                            · exact ih _ _ _ _
                  | _ => rfl

theorem forWriteL_ready {F : Type} {f : Int → Lazy F → Lazy F × Except Err (List Chunk)}
    {g : Int → Except Err (List Chunk)} {S : Store F}
    (h : ∀ i, f i ⟨S, none⟩ = (⟨S, none⟩, g i)) :
    ∀ is, forWriteL f is ⟨S, none⟩ = (⟨S, none⟩, forChunks g is)
  | [] => rfl
  | i :: is => by
    unfold forWriteL forChunks
    rw [h i]
    cases g i with
    | error e => rfl
    | ok a =>
      simp only [forWriteL_ready h is]
      cases forChunks g is <;> rfl

theorem writeL_ready (d0 : Desc) (S : Store P.F) (d : Desc) : ∀ (n : Nat) (key : Key),
    writeL P d0 n key d ⟨S, none⟩ = (⟨S, none⟩, writeD P d0.tab S n key d) := by
  induction d with
  | nil => intros; rfl
  | field fd r ih =>
    intro n key
    unfold writeL writeD
    cases d0.tab[n]? with
    | none => rfl
    | some fi =>
      simp only [forceIf_ready]
      cases evalCond P (look P d0.tab S) fi key with
      | error e => rfl
      | ok c =>
        cases c with
        | false => exact ih _ _
        | true =>
          simp only
          cases fieldBytes P (look P d0.tab S) S fi n key with
          | error e => rfl
          | ok b =>
            simp only [ih]
            cases writeD P d0.tab S (n + 1) key r <;> rfl
  | loop e body r ihb ihr =>
    intro n key
    unfold writeL writeD
    simp only [forceIf_ready]
    cases evalShape P (look P d0.tab S) e key with
    | error x => rfl
    | ok c =>
      simp only
      rw [forWriteL_ready (g := fun i => writeD P d0.tab S n (key ++ [i]) body) fun i => ihb _ _]
      cases forChunks (fun i => writeD P d0.tab S n (key ++ [i]) body) (indices c) with
      | error x => rfl
      | ok cs =>
        simp only [ihr]
        cases writeD P d0.tab S (n + body.count) key r <;> rfl

/-! ### Reading over values set before -/

/-- A field outside the loops that is always in the file. -/
def AlwaysRead (T : Tab) (m : Nat) : Prop :=
  ∃ fi, T[m]? = some fi ∧ fi.shapes = [] ∧ fi.fd.cond = none ∧ fi.fd.name ≠ none

/-- The stores agree except for always-read fields from `n` on. -/
def AgreeTo (T : Tab) (n : Nat) (S R : Store P.F) : Prop :=
  ∀ m k, S m k = R m k ∨ (n ≤ m ∧ k = [] ∧ AlwaysRead T m)

theorem AgreeTo.mono {T : Tab} {n n' : Nat} {S R : Store P.F} (h : AgreeTo P T n' S R) (hn : n ≤ n') :
    AgreeTo P T n S R := fun m k => (h m k).imp id fun ⟨h1, h2⟩ => ⟨by omega, h2⟩

theorem AgreeTo.vis {T : Tab} (hC : CausalTab T) {n : Nat} {S R : Store P.F}
    (h : AgreeTo P T n S R) (st : List Nat) (key : Key) : VisSame P T n st key S R := by
  intro m fi _ hlt _
  refine sameAt_frame P hC m _ fun m' k' h1 _ => ?_
  rcases h m' k' with h | ⟨h, _⟩
  · exact h
  · omega

/-- Same outcome, and agreement up to `n` if it is a success. -/
def SameRead (T : Tab) (n : Nat) (a b : Except Err (Store P.F × Bytes)) : Prop :=
  match a, b with
  | .error e, .error e' => e = e'
  | .ok (S, x), .ok (R, y) => x = y ∧ AgreeTo P T n S R
  | _, _ => False

theorem forRead_agree {T : Tab} {n : Nat}
    {f : Int → Store P.F × Bytes → Except Err (Store P.F × Bytes)}
    (h : ∀ i S R b, AgreeTo P T n S R → SameRead P T n (f i (S, b)) (f i (R, b))) :
    ∀ (is : List Int) (S R : Store P.F) (b : Bytes), AgreeTo P T n S R →
      SameRead P T n (forRead f is (S, b)) (forRead f is (R, b))
  | [], S, R, b, hS => ⟨rfl, hS⟩
  | i :: is, S, R, b, hS => by
    have := h i S R b hS
    unfold forRead
    cases h1 : f i (S, b) with
    | error e =>
      cases h2 : f i (R, b) with
      | error e' => rw [h1, h2] at this; exact this
      | ok s => rw [h1, h2] at this; exact this.elim
    | ok s =>
      cases h2 : f i (R, b) with
      | error e' => rw [h1, h2] at this; exact this.elim
      | ok s' =>
        rw [h1, h2] at this
        obtain ⟨S1, b1⟩ := s
        obtain ⟨R1, b2⟩ := s'
        obtain ⟨rfl, h4⟩ := this
        exact forRead_agree h is S1 R1 b1 h4

theorem readD_agree {T : Tab} (hC : CausalTab T) (lit : Bool) (d : Desc) :
    ∀ (n : Nat) (sh : List Expr) (st : List Nat) (key : Key) (S R : Store P.F) (b : Bytes),
      At T n sh st d → key.length = st.length → AgreeTo P T n S R →
      SameRead P T (n + d.count) (readD P T lit n key d (S, b)) (readD P T lit n key d (R, b)) := by
  induction d with
  | nil =>
    intro n sh st key S R b _ _ h
    exact ⟨rfl, by simpa [Desc.count] using h⟩
  | field fd r ih =>
    intro n sh st key S R b hat hk h
    obtain ⟨hn, hat'⟩ := hat.field
    have hf := hC n _ hn
    have hl := (h.vis P hC st key).look P hC
    unfold readD
    rw [hn]
    simp only
    rw [← evalCond_congr P (fi := ⟨fd, sh, st⟩) hl (by simp [hk]) hf]
    rw [show n + (Desc.field fd r).count = n + 1 + r.count by simp [Desc.count]; omega]
    cases hc : evalCond P (look P T S) ⟨fd, sh, st⟩ key with
    | error e => rfl
    | ok c =>
      -- the field is in agreement unless it is always read at the empty key
      cases c with
      | false =>
        refine ih (n + 1) sh st key S R b hat' hk fun m k => ?_
        rcases h m k with h | ⟨h1, h2, h3⟩
        · exact Or.inl h
        · refine Or.inr ⟨?_, h2, h3⟩
          rcases Nat.lt_or_ge n m with h | h
          · omega
          · have : m = n := by omega
            subst this
            obtain ⟨fi, a1, _, a3, _⟩ := h3
            rw [hn] at a1
            cases a1
            unfold evalCond at hc
            rw [a3] at hc
            cases hc
      | true =>
        simp only
        unfold readField
        rw [← evalSize_congr P (fi := ⟨fd, sh, st⟩) hl (by simp [hk]) hf]
        cases evalSize P (look P T S) ⟨fd, sh, st⟩ key with
        | error e => rfl
        | ok sz =>
          simp only
          cases takeExact sz b with
          | error e => rfl
          | ok t =>
            obtain ⟨t, rest⟩ := t
            simp only
            cases hnm : fd.name with
            | none =>
              simp only
              refine ih (n + 1) sh st key S R rest hat' hk fun m k => ?_
              rcases h m k with h | ⟨h1, h2, h3⟩
              · exact Or.inl h
              · refine Or.inr ⟨?_, h2, h3⟩
                rcases Nat.lt_or_ge n m with h | h
                · omega
                · have : m = n := by omega
                  subst this
                  obtain ⟨fi, a1, _, _, a4⟩ := h3
                  rw [hn] at a1
                  cases a1
                  exact absurd hnm a4
            | some nm =>
              simp only
              cases parseField P fd lit t with
              | error e => rfl
              | ok v =>
                simp only
                refine ih (n + 1) sh st key _ _ rest hat' hk fun m k => ?_
                by_cases hmk : m = n ∧ k = key
                · left
                  unfold Store.set
                  rw [if_pos hmk, if_pos hmk]
                · have : ∀ Q : Store P.F, (Q.set n key ⟨v, some t⟩) m k = Q m k := by
                    intro Q
                    unfold Store.set
                    rw [if_neg hmk]
                  rw [this, this]
                  rcases h m k with h | ⟨h1, h2, h3⟩
                  · exact Or.inl h
                  · refine Or.inr ⟨?_, h2, h3⟩
                    rcases Nat.lt_or_ge n m with h | h
                    · omega
                    · have hm : m = n := by omega
                      obtain ⟨fi, a1, a2, _, _⟩ := h3
                      rw [hm, hn] at a1
                      cases a1
                      have : key = [] := by
                        have hlen := hat.len
                        simp only at a2
                        rw [a2] at hlen
                        exact List.length_eq_zero_iff.mp (by rw [hk, ← hlen]; rfl)
                      exact absurd ⟨hm, by rw [h2, this]⟩ hmk
  | loop e body r ihb ihr =>
    intro n sh st key S R b hat hk h
    obtain ⟨he, hatb, hatr⟩ := hat.loop
    have hl := (h.vis P hC st key).look P hC
    have hshape : evalShape P (look P T S) e key = evalShape P (look P T R) e key := by
      unfold evalShape
      rw [evalE_congr P hl (by rw [hk]; exact Nat.le_refl _) e he]
    -- fields in the loop are not always read
    have hin : ∀ m, n ≤ m → m < n + body.count → ¬ AlwaysRead T m := by
      rintro m h1 h2 ⟨fi, a1, a2, _⟩
      obtain ⟨t, ht⟩ := hatb.pre
      have hlt : m - n < (flatten n (sh ++ [e]) (st ++ [n]) body).length := by
        rw [length_flatten]; omega
      have : (flatten n (sh ++ [e]) (st ++ [n]) body)[m - n]? = some fi := by
        rw [← List.getElem?_append_left (l₂ := t) hlt, ht, List.getElem?_drop,
          show n + (m - n) = m by omega, a1]
      have := (flatten_starts _ _ _ _ _ _ this).2
      rw [a2] at this
      have := this.length_le
      simp at this
    have hup : ∀ {S R : Store P.F}, AgreeTo P T n S R → AgreeTo P T (n + body.count) S R := by
      intro S R h m k
      rcases h m k with h | ⟨h1, h2, h3⟩
      · exact Or.inl h
      · refine Or.inr ⟨?_, h2, h3⟩
        rcases Nat.lt_or_ge m (n + body.count) with hlt | hge
        · exact absurd h3 (hin m h1 hlt)
        · exact hge
    unfold readD
    rw [← hshape]
    rw [show n + (Desc.loop e body r).count = n + body.count + r.count by simp [Desc.count]; omega]
    cases evalShape P (look P T S) e key with
    | error x => rfl
    | ok c =>
      simp only
      have := forRead_agree P (T := T) (n := n)
        (f := fun i s => readD P T lit n (key ++ [i]) body s) (fun i S R b hS => by
          have := ihb n _ _ (key ++ [i]) S R b hatb (by simp [hk]) hS
          unfold SameRead at this ⊢
          split at this
          · exact this
          · exact ⟨this.1, this.2.mono P (by omega)⟩
          · exact this) (indices c) S R b h
      cases h1 : forRead (fun i s => readD P T lit n (key ++ [i]) body s) (indices c) (S, b) with
      | error x =>
        cases h2 : forRead (fun i s => readD P T lit n (key ++ [i]) body s) (indices c) (R, b) with
        | error x' => rw [h1, h2] at this; exact this
        | ok s => rw [h1, h2] at this; exact this.elim
      | ok s =>
        cases h2 : forRead (fun i s => readD P T lit n (key ++ [i]) body s) (indices c) (R, b) with
        | error x' => rw [h1, h2] at this; exact this.elim
        | ok s' =>
          rw [h1, h2] at this
          obtain ⟨S1, b1⟩ := s
          obtain ⟨R1, b2⟩ := s'
          obtain ⟨rfl, h4⟩ := this
          exact ihr _ _ _ key S1 R1 b1 hatr hk (hup h4)

theorem flatten_all {d : Desc} : d.tab.length = d.count := length_flatten _ _ _ _

/-- Reading overwrites every value set before in fields that are always in the file. -/
theorem readInto_over {d : Desc} (hd : d.causal = true) (lit : Bool) {S R : Store P.F} (b : Bytes)
    (h : AgreeTo P d.tab 0 S R) :
    readInto P d lit S b = readInto P d lit R b := by
  have := readD_agree P (Desc.causalTab hd) lit d 0 [] [] [] S R b (at_top d hd) rfl h
  unfold readInto
  unfold SameRead at this
  split at this
  · rename_i h1 h2; rw [h1, h2, this]
  · rename_i S1 x R1 y h1 h2
    rw [h1, h2, this.1]
    have : S1 = R1 := by
      funext m k
      rcases this.2 m k with h | ⟨h1, _, fi, h2, _⟩
      · exact h
      · have := lt_of_getElem? h2
        rw [flatten_all] at this
        omega
    rw [this]
  · exact this.elim

end Verif
