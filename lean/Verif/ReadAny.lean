import Verif.Copy
import Verif.StructLemmas

/- Reading over a record that already has values: the outcome does not depend on them. -/

namespace Verif

variable (P : PyFloat)

/-- Fields `[n, n+c)` under index prefix `key` have the same values, and what is stored of the
present elements is the same. -/
def PostAny (T : Tab) (S R : Store P.F) (n c : Nat) (key : Key) : Prop :=
  ∀ m, n ≤ m → m < n + c → ∀ k, key <+: k → Reach P T S m k → SameAt P T S R m k ∧
    ∀ fi, T[m]? = some fi → fi.fd.name ≠ none → evalCond P (look P T S) fi k = .ok true →
      S m k = R m k

/-- Two reads of the same bytes: the same exception, or the same bytes are left and `PostAny`. -/
def SameAny (T : Tab) (n c : Nat) (key : Key) (S R : Store P.F)
    (a b : Except Err (Store P.F × Bytes)) : Prop :=
  match a, b with
  | .error e, .error e' => e = e'
  | .ok (S', x), .ok (R', y) => x = y ∧ Touch n c key S S' ∧ Touch n c key R R' ∧
      PostAny P T S' R' n c key
  | _, _ => False

theorem flatten_all' {d : Desc} : d.tab.length = d.count := length_flatten _ _ _ _

/-- The condition of a field depends only on what is stored before it. -/
theorem evalCond_frame {T : Tab} (hC : CausalTab T) {m : Nat} {fi : FInfo} {k : Key}
    {S S' : Store P.F} (hm : T[m]? = some fi) (hk : fi.starts.length ≤ k.length)
    (h : ∀ m' k', m' < m → k' <+: k → S' m' k' = S m' k') :
    evalCond P (look P T S') fi k = evalCond P (look P T S) fi k := by
  refine evalCond_congr P (VisSame.look P hC ?_) hk (hC m fi hm)
  intro m' fi' _ hlt _
  refine sameAt_frame P hC m' _ fun m'' k'' h1 h2 => ?_
  exact h m'' k'' (by omega) (h2.trans (List.take_prefix _ _))

theorem visSame_prefix {T : Tab} (hC : CausalTab T) {m : Nat} {st : List Nat} {k : Key}
    {S S' : Store P.F} (hs : ∀ m' k', m' < m → k' <+: k → S' m' k' = S m' k') :
    VisSame P T m st k S' S := by
  intro m' fi' _ hlt _
  exact sameAt_frame P hC m' _ fun m'' k'' h1 h2 =>
    hs m'' k'' (by omega) (h2.trans (List.take_prefix _ _))

theorem Reach.congr {T : Tab} (hC : CausalTab T) {m : Nat} {k : Key}
    {S S' : Store P.F} (h : Reach P T S' m k)
    (hs : ∀ m' k', m' < m → k' <+: k → S' m' k' = S m' k') : Reach P T S m k := by
  obtain ⟨fi, hm, hl, hall⟩ := h
  refine ⟨fi, hm, hl, fun j e i he hi => ?_⟩
  obtain ⟨h0, c, hc, hlt⟩ := hall j e i he hi
  refine ⟨h0, c, ?_, hlt⟩
  rw [← hc]
  refine (evalShape_congr P (T := T) (n := m) (key := k)
    (VisSame.look P hC (visSame_prefix P hC hs)) (hC m fi hm) he ?_ ?_).symm
  · rw [List.take_take, Nat.min_self]
  · have := lt_of_getElem? hi
    rw [List.length_take]
    omega

/-- `PostAny` at one field instance. -/
def SameThere (T : Tab) (S R : Store P.F) (m : Nat) (k : Key) : Prop :=
  SameAt P T S R m k ∧
    ∀ fi, T[m]? = some fi → fi.fd.name ≠ none → evalCond P (look P T S) fi k = .ok true →
      S m k = R m k

/-- Later changes elsewhere do not matter. -/
theorem SameThere.frame {T : Tab} (hC : CausalTab T) {m : Nat} {k : Key}
    {S S' R R' : Store P.F} (hl : ∀ fi, T[m]? = some fi → fi.starts.length ≤ k.length)
    (h : SameThere P T S R m k)
    (hS : ∀ m' k', m' ≤ m → k' <+: k → S' m' k' = S m' k')
    (hR : ∀ m' k', m' ≤ m → k' <+: k → R' m' k' = R m' k') : SameThere P T S' R' m k := by
  refine ⟨?_, fun fi hm hn hc => ?_⟩
  · exact (sameAt_frame P hC m k hS).trans (h.1.trans (sameAt_frame P hC m k hR).symm)
  · rw [hS m k (Nat.le_refl _) (List.prefix_refl _), hR m k (Nat.le_refl _) (List.prefix_refl _)]
    refine h.2 fi hm hn ?_
    rw [← hc]
    exact (evalCond_frame P hC hm (hl fi hm) fun m' k' h1 h2 => hS m' k' (by omega) h2).symm

theorem Reach.starts {T : Tab} (hC : CausalTab T) {m : Nat} {k : Key} {S : Store P.F}
    (h : Reach P T S m k) : ∀ fi, T[m]? = some fi → fi.starts.length ≤ k.length := by
  intro fi hm
  obtain ⟨fi', hm', hl, _⟩ := h
  rw [hm] at hm'
  cases hm'
  rw [hl, (fieldOk_starts (hC m fi hm)).1]
  exact Nat.le_refl _

theorem VisSame.frames {T : Tab} (hC : CausalTab T) {n : Nat} {st : List Nat} {key : Key}
    {S S' R R' : Store P.F} (h : VisSame P T n st key S R)
    (hS : ∀ m k, m < n → S' m k = S m k) (hR : ∀ m k, m < n → R' m k = R m k) :
    VisSame P T n st key S' R' := by
  intro m fi hm hlt hpre
  refine (sameAt_frame P hC m _ fun m' k' h1 _ => hS m' k' (by omega)).trans ?_
  exact (h.frame P hC hR) m fi hm hlt hpre

/-- Loop iterations. -/
theorem forRead_any {T : Tab} {lit : Bool} {n : Nat} {st : List Nat} {key : Key} {body : Desc}
    (hC : CausalTab T) (hk : key.length = st.length)
    (ih : ∀ (i : Int) (S R : Store P.F) (b : Bytes), VisSame P T n (st ++ [n]) (key ++ [i]) S R →
      SameAny P T n body.count (key ++ [i]) S R (readD P T lit n (key ++ [i]) body (S, b))
        (readD P T lit n (key ++ [i]) body (R, b))) :
    ∀ (is : List Int), is.Nodup → ∀ (S R : Store P.F) (b : Bytes), VisSame P T n st key S R →
      match forRead (fun i s => readD P T lit n (key ++ [i]) body s) is (S, b),
          forRead (fun i s => readD P T lit n (key ++ [i]) body s) is (R, b) with
      | .error e, .error e' => e = e'
      | .ok (S', x), .ok (R', y) => x = y ∧
          (∀ m k, ¬ (n ≤ m ∧ m < n + body.count ∧ ∃ i ∈ is, key ++ [i] <+: k) → S' m k = S m k) ∧
          (∀ m k, ¬ (n ≤ m ∧ m < n + body.count ∧ ∃ i ∈ is, key ++ [i] <+: k) → R' m k = R m k) ∧
          ∀ i ∈ is, PostAny P T S' R' n body.count (key ++ [i])
      | _, _ => False := by
  intro is
  induction is with
  | nil =>
    intro _ S R b _
    exact ⟨rfl, fun _ _ _ => rfl, fun _ _ _ => rfl, by simp⟩
  | cons i is ihis =>
    intro hnd S R b hv
    rw [List.nodup_cons] at hnd
    have h1 := ih i S R b (hv.enter P hC hk i)
    unfold SameAny at h1
    unfold forRead
    cases hS : readD P T lit n (key ++ [i]) body (S, b) with
    | error e =>
      cases hR : readD P T lit n (key ++ [i]) body (R, b) with
      | error e' => rw [hS, hR] at h1; exact h1
      | ok s => rw [hS, hR] at h1; exact h1.elim
    | ok s =>
      cases hR : readD P T lit n (key ++ [i]) body (R, b) with
      | error e' => rw [hS, hR] at h1; exact h1.elim
      | ok r =>
        rw [hS, hR] at h1
        obtain ⟨S1, b1⟩ := s
        obtain ⟨R1, b2⟩ := r
        obtain ⟨rfl, tS, tR, hp⟩ := h1
        have hv1 : VisSame P T n st key S1 R1 := hv.frames P hC
          (fun m k hlt => tS m k (by omega)) (fun m k hlt => tR m k (by omega))
        have h2 := ihis hnd.2 S1 R1 b1 hv1
        simp only
        cases hS2 : forRead (fun i s => readD P T lit n (key ++ [i]) body s) is (S1, b1) with
        | error e =>
          cases hR2 : forRead (fun i s => readD P T lit n (key ++ [i]) body s) is (R1, b1) with
          | error e' => rw [hS2, hR2] at h2; exact h2
          | ok s => rw [hS2, hR2] at h2; exact h2.elim
        | ok s =>
          cases hR2 : forRead (fun i s => readD P T lit n (key ++ [i]) body s) is (R1, b1) with
          | error e' => rw [hS2, hR2] at h2; exact h2.elim
          | ok r =>
            rw [hS2, hR2] at h2
            obtain ⟨S2, c1⟩ := s
            obtain ⟨R2, c2⟩ := r
            obtain ⟨rfl, tS2, tR2, hp2⟩ := h2
            refine ⟨rfl, ?_, ?_, ?_⟩
            · intro m k hn
              rw [tS2 m k (fun ⟨a, b, j, hj, hp⟩ => hn ⟨a, b, j, by simp [hj], hp⟩)]
              exact tS m k (fun ⟨a, b, hp⟩ => hn ⟨a, b, i, by simp, hp⟩)
            · intro m k hn
              rw [tR2 m k (fun ⟨a, b, j, hj, hp⟩ => hn ⟨a, b, j, by simp [hj], hp⟩)]
              exact tR m k (fun ⟨a, b, hp⟩ => hn ⟨a, b, i, by simp, hp⟩)
            · intro j hj
              simp only [List.mem_cons] at hj
              rcases hj with rfl | hj
              · intro m h1 h2 k hkp hreach
                have hout : ∀ m' k', k' <+: k → ¬ (n ≤ m' ∧ m' < n + body.count ∧
                    ∃ i ∈ is, key ++ [i] <+: k') := by
                  rintro m' k' hk' ⟨_, _, j', hj', hp'⟩
                  have := prefix_concat_inj hkp (hp'.trans hk')
                  subst this
                  exact hnd.1 hj'
                refine SameThere.frame P hC (hreach.starts P hC) (hp m h1 h2 k hkp ?_)
                  (fun m' k' _ hk' => tS2 m' k' (hout m' k' hk'))
                  (fun m' k' _ hk' => tR2 m' k' (hout m' k' hk'))
                exact hreach.congr P hC fun m' k' _ hk' => tS2 m' k' (hout m' k' hk')
              · exact hp2 j hj

theorem readD_any {T : Tab} (hC : CausalTab T) (lit : Bool) (d : Desc) :
    ∀ (n : Nat) (sh : List Expr) (st : List Nat) (key : Key) (S R : Store P.F) (b : Bytes),
      At T n sh st d → key.length = st.length → VisSame P T n st key S R →
      SameAny P T n d.count key S R (readD P T lit n key d (S, b))
        (readD P T lit n key d (R, b)) := by
  induction d with
  | nil =>
    intro n sh st key S R b _ _ _
    refine ⟨rfl, Touch.refl _ _ _ _, Touch.refl _ _ _ _, ?_⟩
    intro m h1 h2
    simp only [Desc.count] at h2
    omega
  | field fd r ih =>
    intro n sh st key S R b hat hk hv
    obtain ⟨hn, hat'⟩ := hat.field
    have hf := hC n _ hn
    have hl := hv.look P hC
    -- the rest, after this field was dealt with
    have hstep : ∀ S1 R1 b1, Touch n 1 key S S1 → Touch n 1 key R R1 →
        SameThere P T S1 R1 n key →
        SameAny P T n (Desc.field fd r).count key S R (readD P T lit (n + 1) key r (S1, b1))
          (readD P T lit (n + 1) key r (R1, b1)) := by
      intro S1 R1 b1 tS tR hs
      have hv1 : VisSame P T n st key S1 R1 := hv.frames P hC
        (fun m k hlt => tS m k (by omega)) (fun m k hlt => tR m k (by omega))
      have := ih (n + 1) sh st key S1 R1 b1 hat' hk (hv1.step P hn hk hs.1)
      unfold SameAny at this ⊢
      split at this
      · exact this
      · rename_i S2 x R2 y _ _
        obtain ⟨rfl, tS2, tR2, hp⟩ := this
        refine ⟨rfl, ?_, ?_, ?_⟩
        · exact (tS.mono (Nat.le_refl _) (by simp [Desc.count]) (List.prefix_refl _)).trans
            (tS2.mono (by omega) (by simp [Desc.count]; omega) (List.prefix_refl _))
        · exact (tR.mono (Nat.le_refl _) (by simp [Desc.count]) (List.prefix_refl _)).trans
            (tR2.mono (by omega) (by simp [Desc.count]; omega) (List.prefix_refl _))
        · intro m h1 h2 k hkp hreach
          rcases Nat.eq_or_lt_of_le h1 with rfl | hlt
          · have hkk : k = key := by
              obtain ⟨fi, hfi, hl, _⟩ := hreach
              rw [hn] at hfi
              injection hfi with hfi
              subst hfi
              have hlen : key.length = k.length := by
                rw [hl, hk]; simp [FInfo.depth, hat.len]
              exact (hkp.eq_of_length hlen).symm
            subst hkk
            exact SameThere.frame P hC (hreach.starts P hC) hs
              (fun m' k' h _ => tS2 m' k' (by omega)) (fun m' k' h _ => tR2 m' k' (by omega))
          · exact hp m (by omega) (by simp [Desc.count] at h2; omega) k hkp hreach
      · exact this
    unfold readD
    rw [hn]
    simp only
    rw [← evalCond_congr P (fi := ⟨fd, sh, st⟩) hl (by simp [hk]) hf]
    cases hc : evalCond P (look P T S) ⟨fd, sh, st⟩ key with
    | error e => rfl
    | ok c =>
      cases c with
      | false =>
        refine hstep S R b (Touch.refl _ _ _ _) (Touch.refl _ _ _ _)
          ⟨sameAt_of_cond_false P hC hn hv (by simp [hk]) hc, fun fi hm _ hc' => ?_⟩
        rw [hn] at hm
        cases hm
        rw [hc] at hc'
        cases hc'
      | true =>
        simp only
        unfold readField
        rw [← evalSize_congr P (fi := ⟨fd, sh, st⟩) hl (by simp [hk]) hf]
        cases evalSize P (look P T S) ⟨fd, sh, st⟩ key with
        | error e => rfl
        | ok sz =>
          simp only
          cases takeExact sz b with
          | error e => rfl
          | ok t =>
            obtain ⟨t, rest⟩ := t
            simp only
            cases hnm : fd.name with
            | none =>
              simp only
              refine hstep S R rest (Touch.refl _ _ _ _) (Touch.refl _ _ _ _)
                ⟨?_, fun fi hm h => ?_⟩
              · unfold SameAt
                rw [getItem_eq P key hn, getItem_eq P key hn]
                unfold getWith lowGet
                rw [hnm]
                cases fd.kind <;> rfl
              · rw [hn] at hm
                cases hm
                exact absurd hnm h
            | some nm =>
              simp only
              cases parseField P fd lit t with
              | error e => rfl
              | ok v =>
                simp only
                refine hstep _ _ rest (Touch.set _ _ _ _) (Touch.set _ _ _ _)
                  ⟨sameAt_of_vis P hC hn (hv.frames P hC ?_ ?_) fun _ => ?_, fun fi hm _ _ => ?_⟩
                · intro m k hlt
                  exact Touch.set n key S _ m k (by omega)
                · intro m k hlt
                  exact Touch.set n key R _ m k (by omega)
                · simp [stored, Store.set]
                · simp [Store.set]
  | loop e body r ihb ihr =>
    intro n sh st key S R b hat hk hv
    obtain ⟨heok, hatb, hatr⟩ := hat.loop
    unfold readD
    rw [← hv.evalShape P hC heok (by omega)]
    cases hsh : evalShape P (look P T S) e key with
    | error x => rfl
    | ok c =>
      simp only
      have h1 := forRead_any P (lit := lit) (body := body) hC hk
        (fun i S R b hv => ihb n (sh ++ [e]) (st ++ [n]) (key ++ [i]) S R b hatb (by simp [hk]) hv)
        (indices c) (indices_nodup c) S R b hv
      cases hS : forRead (fun i s => readD P T lit n (key ++ [i]) body s) (indices c) (S, b) with
      | error x =>
        cases hR : forRead (fun i s => readD P T lit n (key ++ [i]) body s) (indices c) (R, b) with
        | error x' => rw [hS, hR] at h1; exact h1
        | ok s => rw [hS, hR] at h1; exact h1.elim
      | ok s =>
        cases hR : forRead (fun i s => readD P T lit n (key ++ [i]) body s) (indices c) (R, b) with
        | error x' => rw [hS, hR] at h1; exact h1.elim
        | ok s' =>
          rw [hS, hR] at h1
          obtain ⟨S1, b1⟩ := s
          obtain ⟨R1, b2⟩ := s'
          obtain ⟨rfl, tS, tR, hp⟩ := h1
          have up : ∀ {Q Q' : Store P.F}, (∀ m k, ¬ (n ≤ m ∧ m < n + body.count ∧
              ∃ i ∈ indices c, key ++ [i] <+: k) → Q' m k = Q m k) → Touch n body.count key Q Q' := by
            intro Q Q' h m k hn
            refine h m k ?_
            rintro ⟨a, b, i, _, hp⟩
            exact hn ⟨a, b, (List.prefix_append _ _).trans hp⟩
          have tS' := up tS
          have tR' := up tR
          have hv1 : VisSame P T n st key S1 R1 := hv.frames P hC
            (fun m k hlt => tS' m k (by omega)) (fun m k hlt => tR' m k (by omega))
          have h2 := ihr (n + body.count) sh st key S1 R1 b1 hatr hk (hv1.skip P hat)
          simp only
          unfold SameAny at h2 ⊢
          split at h2
          · exact h2
          · rename_i S2 x R2 y _ _
            obtain ⟨rfl, tS2, tR2, hp2⟩ := h2
            refine ⟨rfl, ?_, ?_, ?_⟩
            · exact (tS'.mono (Nat.le_refl _) (by simp [Desc.count]) (List.prefix_refl _)).trans
                (tS2.mono (by omega) (by simp [Desc.count]; omega) (List.prefix_refl _))
            · exact (tR'.mono (Nat.le_refl _) (by simp [Desc.count]) (List.prefix_refl _)).trans
                (tR2.mono (by omega) (by simp [Desc.count]; omega) (List.prefix_refl _))
            · intro m h1 h2 k hkp hreach
              rcases Nat.lt_or_ge m (n + body.count) with hlt | hge
              · obtain ⟨fi, hfi, hst, hshp⟩ := hatb.inside h1 hlt
                have hreach' : Reach P T S1 m k :=
                  hreach.congr P hC fun m' k' h _ => tS2 m' k' (by omega)
                have hr1 := hreach'
                obtain ⟨fi', hfi', hlen, hall⟩ := hr1
                rw [hfi] at hfi'
                injection hfi' with hfi'
                subst hfi'
                have hsl : sh.length < fi.shapes.length := by
                  have := hshp.length_le; simp at this; omega
                have hkl : sh.length < k.length := by rw [hlen]; exact hsl
                have he : fi.shapes[sh.length]? = some e := by
                  obtain ⟨t, ht⟩ := hshp
                  rw [← ht]; simp
                obtain ⟨hi0, c', hc', hic⟩ := hall sh.length e k[sh.length] he
                  (List.getElem?_eq_getElem hkl)
                have hkey : k.take sh.length = key := by
                  obtain ⟨t, rfl⟩ := hkp
                  rw [hat.len, ← hk]; simp
                have hsame : VisSame P T n st key S1 S := by
                  intro m fi hm hlt hpre
                  exact sameAt_frame P hC m _ fun m' k' h1 _ => tS' m' k' (by omega)
                rw [hkey, hsame.evalShape P hC heok (by omega), hsh] at hc'
                injection hc' with hc'
                subst hc'
                have hpre : key ++ [k[sh.length]] <+: k := by
                  rw [← hkey, List.take_append_getElem]
                  exact List.take_prefix _ _
                have := hp k[sh.length] (mem_indices.mpr ⟨hi0, hic⟩) m h1 hlt k hpre hreach'
                exact SameThere.frame P hC (hreach.starts P hC) this
                  (fun m' k' h _ => tS2 m' k' (by omega)) (fun m' k' h _ => tR2 m' k' (by omega))
              · exact hp2 m hge (by simp [Desc.count] at h2; omega) k hkp hreach
          · exact h2

/-- Reading the same bytes over two records. -/
theorem readInto_any {d : Desc} (hd : d.causal = true) (lit : Bool) (S R : Store P.F) (b : Bytes) :
    (∃ e, readInto P d lit S b = .error e ∧ readInto P d lit R b = .error e) ∨
    ∃ S' R' rest, readInto P d lit S b = .ok (S', rest) ∧ readInto P d lit R b = .ok (R', rest) ∧
      ∀ m k, Reach P d.tab S' m k → SameThere P d.tab S' R' m k := by
  have := readD_any P (Desc.causalTab hd) lit d 0 [] [] [] S R b (at_top d hd) rfl
    (by intro m fi _ h; omega)
  unfold readInto
  unfold SameAny at this
  split at this
  · rename_i e e' h1 h2
    subst this
    exact Or.inl ⟨e, h1, h2⟩
  · rename_i S' x R' y h1 h2
    obtain ⟨rfl, _, _, hp⟩ := this
    refine Or.inr ⟨S', R', x, h1, h2, fun m k hr => ?_⟩
    refine hp m (Nat.zero_le _) ?_ k List.nil_prefix hr
    obtain ⟨fi, hm, _⟩ := hr
    have := lt_of_getElem? hm
    rw [flatten_all'] at this
    omega
  · exact this.elim

/-- Structs that agree in this sense are written alike. -/
theorem writeD_sameThere {T : Tab} (hC : CausalTab T) {S R : Store P.F}
    (hA : ∀ m k, Reach P T S m k → SameThere P T S R m k)
    (hres : ∀ m k fi, T[m]? = some fi → fi.fd.name = none → S m k = R m k) (d : Desc) :
    ∀ (n : Nat) (sh : List Expr) (st : List Nat) (key : Key),
      At T n sh st d → key.length = st.length → VisSame P T n st key S R →
      (∀ (i : Nat) e x, sh[i]? = some e → key[i]? = some x →
        0 ≤ x ∧ ∃ c, evalShape P (look P T S) e (key.take i) = .ok c ∧ x < c) →
      writeD P T R n key d = writeD P T S n key d := by
  induction d with
  | nil => intros; rfl
  | field fd r ih =>
    intro n sh st key hat hk hv hr
    obtain ⟨hn, hat'⟩ := hat.field
    have hfi := hC n _ hn
    have hl := hv.look P hC
    have hst := hA n key ⟨_, hn, by simp [FInfo.depth, hk, hat.len], hr⟩
    have hrest := ih (n + 1) sh st key hat' hk (hv.step P hn hk hst.1) hr
    simp only [writeD, hn]
    rw [← evalCond_congr P (fi := ⟨fd, sh, st⟩) hl (by simp only; omega) hfi]
    cases hc : evalCond P (look P T S) ⟨fd, sh, st⟩ key with
    | error e => rfl
    | ok c =>
      cases c with
      | false => exact hrest
      | true =>
        simp only
        have hcell : S n key = R n key := by
          cases hnm : fd.name with
          | none => exact hres n key _ hn hnm
          | some nm => exact hst.2 _ hn (by simp [hnm]) hc
        have hstored : stored R fd n key = stored S fd n key := by
          unfold stored
          rw [hcell]
        have hlow := lowGet_congr P (S := S) (S' := R) (key := key) (fi := ⟨fd, sh, st⟩) hl hfi
          fun _ => by rw [hstored]
        have hfb : fieldBytes P (look P T R) R ⟨fd, sh, st⟩ n key =
            fieldBytes P (look P T S) S ⟨fd, sh, st⟩ n key := by
          unfold fieldBytes
          rw [← evalSize_congr P (fi := ⟨fd, sh, st⟩) hl (by simp only; omega) hfi, hlow]
          simp only [hstored]
        rw [hfb, hrest]
  | loop e body r ihb ihr =>
    intro n sh st key hat hk hv hr
    obtain ⟨heok, hatb, hatr⟩ := hat.loop
    simp only [writeD]
    rw [← hv.evalShape P hC heok (by omega)]
    cases hsh : evalShape P (look P T S) e key with
    | error x => rfl
    | ok c =>
      simp only
      rw [ihr _ sh st key hatr hk (hv.skip P hat) hr]
      rw [forChunks_congr (g := fun i => writeD P T S n (key ++ [i]) body)]
      intro i hi
      refine ihb n (sh ++ [e]) (st ++ [n]) (key ++ [i]) hatb (by simp [hk]) (hv.enter P hC hk i) ?_
      intro j e' x he' hx
      rcases Nat.lt_or_ge j key.length with hl | hg
      · rw [List.getElem?_append_left hl] at hx
        rw [List.getElem?_append_left (by rw [hat.len]; omega)] at he'
        rw [List.take_append_of_le_length (by omega)]
        exact hr j e' x he' hx
      · have hj : j = key.length := by
          have := lt_of_getElem? hx; simp at this; omega
        subst hj
        have h1 : sh.length = key.length := by rw [hat.len, hk]
        have : e' = e := by
          rw [← h1] at he'; simpa using he'.symm
        subst this
        have : x = i := by simpa using hx.symm
        subst this
        have := mem_indices.mp hi
        exact ⟨this.1, c, by simpa using hsh, this.2⟩

theorem writeChunks_sameThere {d : Desc} (hd : d.causal = true) {S R : Store P.F}
    (hA : ∀ m k, Reach P d.tab S m k → SameThere P d.tab S R m k)
    (hres : ∀ m k fi, d.tab[m]? = some fi → fi.fd.name = none → S m k = R m k) :
    writeChunks P d R = writeChunks P d S :=
  writeD_sameThere P (Desc.causalTab hd) hA hres d 0 [] [] [] (at_top d hd) rfl
    (by intro m fi _ h; omega) (by simp)

end Verif
