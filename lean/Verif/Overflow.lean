import Verif.Props.FileRound
import Verif.Props.Fields

/- The overflow segments made while writing: helper lemmas for C69. -/

namespace Verif

variable (P : PyFloat)

/-- Security objects read from a header consist of sixteen strings without trailing white space
and three integers. -/
theorem getSecurity_ok {d : Desc} {pre : Name} (h : (d, pre) ∈ secHeaders) {S : Store P.F}
    {t : Sec P.F} (ht : getSecurity P d S pre = .ok t) : SecOk P t := by
  have hok := secHeaders_ok _ h
  have hinit : SecOk P (Sec.init : Sec P.F) := by
    refine ⟨?_, ?_⟩
    · intro a ha
      by_cases h0 : a = 0
      · exact ⟨['U'], by simp [Sec.init, h0], by decide⟩
      · exact ⟨[], by simp [Sec.init, h0, ha], by decide⟩
    · intro a ha
      exact ⟨0, by simp [Sec.init, show a ≠ 0 by omega, show ¬ a < 16 by omega]⟩
  have key : ∀ (L : List (Name × Nat)), (∀ f ∈ L, f ∈ secNames pre) → ∀ s t : Sec P.F, SecOk P s →
      getSecLoop P d S L s = .ok t → SecOk P t := by
    intro L
    induction L with
    | nil =>
      intro _ s t hs h
      unfold getSecLoop at h
      injection h with h
      rw [← h]; exact hs
    | cons f L ih =>
      obtain ⟨nm, a⟩ := f
      intro hL s t hs h
      have hL' := fun f hf => hL f (List.mem_cons_of_mem _ hf)
      unfold getSecLoop at h
      split at h
      · exact ih hL' s t hs h
      · rename_i n hr
        split at h
        · cases h
        · rename_i v hv
          refine ih hL' _ t ?_ h
          obtain ⟨fi, hfi, hF⟩ := secOkB_field hok (hL (nm, a) (by simp)) hr
          rw [hF.get P hfi] at hv
          have hco : ∃ w, coerce P fi.fd w = .ok v ∨ v = .none ∧ fi.fd.optional = true := by
            unfold finish at hv
            split at hv
            · rw [hF.required] at hv
              exact ⟨_, .inl hv⟩
            · exact ⟨_, .inl hv⟩
            · rw [hF.required] at hv
              exact ⟨_, .inl (by simpa using hv)⟩
          obtain ⟨w, hw | hw⟩ := hco
          · refine ⟨?_, ?_⟩
            · intro b hb
              by_cases hba : b = a
              · subst hba
                have hty : fi.fd.ty = .str := by rw [hF.ty, if_pos hb]
                unfold coerce at hw
                simp only [hty] at hw
                injection hw with hw
                exact ⟨rstripU (pyStr P w), by simp [Sec.put, ← hw], rstripU_idem _⟩
              · simp only [Sec.put, hba, if_false]
                exact hs.1 b hb
            · intro b hb
              by_cases hba : b = a
              · subst hba
                have hty : fi.fd.ty = .int := by rw [hF.ty, if_neg (by omega)]
                unfold coerce at hw
                simp only [hty] at hw
                split at hw
                · rename_i z _
                  injection hw with hw
                  exact ⟨z, by simp [Sec.put, ← hw]⟩
                · cases hw
              · simp only [Sec.put, hba, if_false]
                exact hs.2 b hb
          · rw [hF.required] at hw
            exact absurd hw.2 (by simp)
  exact key _ (fun _ h => h) _ _ hinit ht

/-- The security read from a header depends only on the values of its security fields. -/
theorem getSecurity_congr {d : Desc} {pre : Name} {S S' : Store P.F}
    (he : ∀ f ∈ secNames pre, getAttr P d S' f.1 [] = getAttr P d S f.1 []) :
    getSecurity P d S' pre = getSecurity P d S pre := by
  have key : ∀ (L : List (Name × Nat)), (∀ f ∈ L, f ∈ secNames pre) → ∀ s : Sec P.F,
      getSecLoop P d S' L s = getSecLoop P d S L s := by
    intro L
    induction L with
    | nil => intro _ s; rfl
    | cons f L ih =>
      obtain ⟨nm, a⟩ := f
      intro hL s
      have hL' := fun f hf => hL f (List.mem_cons_of_mem _ hf)
      have h1 := he (nm, a) (hL (nm, a) (by simp))
      unfold getAttr at h1
      unfold getSecLoop
      split
      · exact ih hL' s
      · rename_i n hr
        simp only [hr] at h1
        rw [h1]
        split
        · rfl
        · exact ih hL' _
  exact key _ (fun _ h => h) _

/-- Security fields are outside all loops. -/
theorem sec_shapes {d : Desc} {pre : Name} (h : (d, pre) ∈ secHeaders) :
    ∀ f ∈ secNames pre, ∀ n fi, resolve d.tab f.1 = some n → d.tab[n]? = some fi →
      fi.shapes = [] := by
  intro f hf n fi hr hfi
  obtain ⟨fi', h1, h2⟩ := secOkB_field (secHeaders_ok _ h) hf hr
  rw [hfi] at h1
  injection h1 with h1
  subst h1
  exact h2.scalar.shapes

/-- A security field depends only on its own cell. -/
theorem sec_cell {d : Desc} {pre : Name} (h : (d, pre) ∈ secHeaders) {S S' : Store P.F}
    {f : Name × Nat} (hf : f ∈ secNames pre)
    (he : ∀ n, resolve d.tab f.1 = some n → S' n [] = S n []) :
    getAttr P d S' f.1 [] = getAttr P d S f.1 [] := by
  unfold getAttr
  cases hr : resolve d.tab f.1 with
  | none => rfl
  | some n =>
    obtain ⟨fi, h1, h2⟩ := secOkB_field (secHeaders_ok _ h) hf hr
    simp only
    rw [h2.get P h1, h2.get P h1]
    unfold stored
    rw [he n hr]

variable (E : Env) (IO : DataIO P.F)

/-- The condition of `desoflw` and `desitem`. -/
theorem des_cond {S : Store P.F}
    (hid : getAttr P Tables.t_des_subheader S (n!"desid") [] = .ok (.str "TRE_OVERFLOW".toList))
    {fo : FInfo}
    (hc : fo.fd.cond = some (.eq (.ref (n!"desid") []) (.const (.str "TRE_OVERFLOW")))) :
    evalCond P (look P Tables.t_des_subheader.tab S) fo [] = .ok true := by
  obtain ⟨hr, fi, h1, h2, _⟩ := desRow_of desid_row.1
  unfold getAttr at hid
  rw [hr] at hid
  simp only at hid
  have hd : Tables.t_des_subheader.causal = true := by decide +kernel
  unfold evalCond
  rw [hc]
  simp only [evalE, idxKey, bind, Except.bind, h2.look P (Desc.causalTab hd) hr h1, hid,
    CVal.toVal, pyEq, pure, Except.pure, Except.map, bval, truthy]
  simp

theorem des_marks_fd : ∃ fi fj, Tables.t_des_subheader.tab[19]? = some fi ∧
    Tables.t_des_subheader.tab[20]? = some fj ∧ fi.fd.ty = .str ∧ fj.fd.ty = .int ∧
    fi.fd.cond = some (.eq (.ref (n!"desid") []) (.const (.str "TRE_OVERFLOW"))) ∧
    fj.fd.cond = some (.eq (.ref (n!"desid") []) (.const (.str "TRE_OVERFLOW"))) := by
  have h : (match Tables.t_des_subheader.tab[19]?, Tables.t_des_subheader.tab[20]? with
    | some fi, some fj => fi.fd.ty == .str && fj.fd.ty == .int &&
      (fi.fd.cond == some (.eq (.ref (n!"desid") []) (.const (.str "TRE_OVERFLOW")))) &&
      (fj.fd.cond == some (.eq (.ref (n!"desid") []) (.const (.str "TRE_OVERFLOW"))))
    | _, _ => false) = true := by decide +kernel
  cases hf : Tables.t_des_subheader.tab[19]? with
  | none => rw [hf] at h; cases h
  | some fi =>
    cases hg : Tables.t_des_subheader.tab[20]? with
    | none => rw [hf, hg] at h; cases h
    | some fj =>
      rw [hf, hg] at h
      simp only [Bool.and_eq_true, beq_iff_eq] at h
      exact ⟨fi, fj, rfl, rfl, h.1.1.1, h.1.1.2, h.1.2, h.2⟩

/-- `desoflw` and `desitem` of a subheader with these cells. -/
theorem des_marks {S : Store P.F} {t : Str} {z : Int}
    (hid : getAttr P Tables.t_des_subheader S (n!"desid") [] = .ok (.str "TRE_OVERFLOW".toList))
    (h19 : S 19 [] = some ⟨.val (.str t), none⟩) (h20 : S 20 [] = some ⟨.val (.int z), none⟩) :
    getAttr P Tables.t_des_subheader S (n!"desoflw") [] = .ok (.str (rstripU t)) ∧
    getAttr P Tables.t_des_subheader S (n!"desitem") [] = .ok (.int z) := by
  obtain ⟨fi, fj, a1, a2, a3, a4, a5, a6⟩ := des_marks_fd
  obtain ⟨r1, f1, b1, c1, d1⟩ := desRow_of desid_row.2.2.1
  obtain ⟨r2, f2, b2, c2, d2⟩ := desRow_of desid_row.2.2.2.1
  rw [a1] at b1; injection b1 with b1; subst b1
  rw [a2] at b2; injection b2 with b2; subst b2
  unfold getAttr
  rw [r1, r2]
  simp only
  rw [c1.get_plain P d1 a1 (des_cond P hid a5), c2.get_plain P d2 a2 (des_cond P hid a6)]
  unfold stored
  rw [h19, h20]
  exact ⟨finish_str P a3 _, finish_int P a4 _⟩

/-- The cells of a new overflow segment. -/
theorem overflowSeg_cells {ofl : Str} {i : Nat} {sec : Sec P.F} {b : Bytes} {s : Seg P.F IO.D}
    (h : overflowSeg P IO ofl i sec b = .ok s) :
    s.sub 19 [] = some ⟨.val (.str ofl), none⟩ ∧ s.sub 20 [] = some ⟨.val (.int (i + 1)), none⟩ ∧
    s.data = .overflow b ∧
    ∃ S, setSecurity P Tables.t_des_subheader sec S (n!"des") = (s.sub, none) ∧
      ∀ q, q ∉ [1, 2, 19, 20] → S q [] = none := by
  unfold overflowSeg at h
  split at h
  · cases h
  · rename_i S h1
    split at h
    · cases h
    · rename_i S' h2
      injection h with h
      subst h
      have e19 : S 19 [] = some ⟨.val (.str ofl), none⟩ ∧
          S 20 [] = some ⟨.val (.int (i + 1)), none⟩ ∧ ∀ q, q ∉ [1, 2, 19, 20] → S q [] = none := by
        obtain ⟨r1, r2, r3, r4, _⟩ := desid_row
        obtain ⟨a1, f1, b1, _, c1⟩ := desRow_of r1
        obtain ⟨a2, f2, b2, _, c2⟩ := desRow_of r2
        obtain ⟨a3, f3, b3, _, c3⟩ := desRow_of r3
        obtain ⟨a4, f4, b4, _, c4⟩ := desRow_of r4
        unfold setAll at h1
        split at h1
        · cases h1
        · rename_i S1 e1
          unfold setAll at h1
          split at h1
          · cases h1
          · rename_i S2 e2
            unfold setAll at h1
            split at h1
            · cases h1
            · rename_i S3 e3
              unfold setAll at h1
              split at h1
              · cases h1
              · rename_i S4 e4
                unfold setAll at h1
                injection h1 with h1
                subst h1
                rw [setA_plain P a4 b4 c4 e4, setA_plain P a3 b3 c3 e3, setA_plain P a1 b1 c1 e2,
                  setA_plain P a2 b2 c2 e1]
                refine ⟨by simp [Store.set], by simp [Store.set], ?_⟩
                intro q hq
                simp only [List.mem_cons, List.not_mem_nil, or_false, not_or] at hq
                simp [Store.set, hq, Store.empty]
      exact ⟨(desSec_frame P h2 19 (by simp) []).trans e19.1,
        (desSec_frame P h2 20 (by simp) []).trans e19.2.1, rfl, S, h2, e19.2.2⟩

/-- The security attributes of a new overflow segment are those it was given. -/
theorem overflowSeg_security {ofl : Str} {i : Nat} {sec : Sec P.F} (hs : SecOk P sec) {b : Bytes}
    {s : Seg P.F IO.D} (h : overflowSeg P IO ofl i sec b = .ok s) :
    ∃ u, getSecurity P Tables.t_des_subheader s.sub (n!"des") = .ok u ∧ ∀ a < 16, u a = sec a := by
  obtain ⟨_, _, _, S, h1, h2⟩ := overflowSeg_cells P IO h
  have hm : (Tables.t_des_subheader, n!"des") ∈ secHeaders := by simp [secHeaders]
  have hfr : (secNames (n!"des")).all (fun f => [1, 2, 19, 20].all fun q =>
      decide (resolve Tables.t_des_subheader.tab f.1 ≠ some q)) = true := by decide +kernel
  have he : getSecurity P Tables.t_des_subheader S (n!"des") =
      getSecurity P Tables.t_des_subheader Store.empty (n!"des") := by
    apply getSecurity_congr
    intro f hf
    refine sec_cell P hm hf ?_
    intro n hn
    refine h2 n ?_
    intro hq
    exact of_decide_eq_true (List.all_eq_true.mp (List.all_eq_true.mp hfr f hf) n hq) hn
  obtain ⟨s0, hs0⟩ := C32_fresh P hm
  rw [hs0] at he
  obtain ⟨S', t, a1, a2, a3, _⟩ := C32_round_trip P hm he hs
  rw [h1] at a1
  injection a1 with a1
  subst a1
  refine ⟨t, a2, ?_⟩
  intro a ha
  refine a3 a ?_
  have : secStored Tables.t_des_subheader (n!"des") = List.range 16 := by decide +kernel
  rw [this]
  exact List.mem_range.mpr ha

/-! ### Which header each overflow segment is for -/

/-- Two lists in step, with positions counted from `n`. -/
inductive EachAt {α β : Type} (R : Nat → α → β → Prop) : Nat → List α → List β → Prop where
  | nil {n} : EachAt R n [] []
  | cons {n a b as bs} : R n a b → EachAt R (n + 1) as bs → EachAt R n (a :: as) (b :: bs)

variable {α β γ : Type} {R Q : Nat → α → β → Prop} {n : Nat} {as as' : List α} {bs bs' : List β}

theorem EachAt.append (h : EachAt R n as bs) (h' : EachAt R (n + bs.length) as' bs') :
    EachAt R n (as ++ as') (bs ++ bs') := by
  induction h with
  | nil => simpa using h'
  | cons h1 _ ih =>
    refine .cons h1 (ih ?_)
    simpa [Nat.add_assoc, Nat.add_comm 1] using h'

theorem EachAt.length (h : EachAt R n as bs) : as.length = bs.length := by
  induction h with
  | nil => rfl
  | cons _ _ ih => simp [ih]

theorem EachAt.get (h : EachAt R n as bs) : ∀ (m : Nat) a b, as[m]? = some a → bs[m]? = some b →
    R (n + m) a b := by
  induction h with
  | nil => intro m a b h; simp at h
  | cons h1 _ ih =>
    intro m a b ha hb
    cases m with
    | zero =>
      simp only [List.getElem?_cons_zero, Option.some.injEq] at ha hb
      subst ha hb
      exact h1
    | succ m =>
      have := ih m a b (by simpa using ha) (by simpa using hb)
      rwa [Nat.add_assoc, Nat.add_comm 1] at this

theorem EachAt.imp (h : EachAt R n as bs) (hi : ∀ m a b, R m a b → Q m a b) : EachAt Q n as bs := by
  induction h with
  | nil => exact .nil
  | cons h1 _ ih => exact .cons (hi _ _ _ h1) ih

theorem EachAt.map {R : Nat → γ → β → Prop} {f : α → γ}
    (h : EachAt (fun m a b => R m (f a) b) n as bs) : EachAt R n (as.map f) bs := by
  induction h with
  | nil => exact .nil
  | cons h1 _ ih => exact .cons h1 ih

theorem EachAt.mem_left (h : EachAt R n as bs) {a : α} (ha : a ∈ as) : ∃ m b, R m a b := by
  induction h with
  | nil => cases ha
  | cons h1 _ ih =>
    rcases List.mem_cons.mp ha with rfl | ha
    · exact ⟨_, _, h1⟩
    · exact ih ha

/-- `x` is the overflow segment number `pos` made for a header, number `j`, whose state changed from
`S` to `S'`. -/
def MadeFor (d : Desc) (areas : List Area) (pre : Name) (ofl : Str) (j : Nat) (tres : List (Tre P.F))
    (S S' : Store P.F) (pos : Nat) (x : Seg P.F IO.D) : Prop :=
  ∃ b sec, prepareTreWrite P d areas pos tres S = .ok (S', some b) ∧
    getSecurity P d S' pre = .ok sec ∧ overflowSeg P IO ofl j sec b = .ok x

theorem prepareSegs_made {k : SegKind} {areas : List Area} (hk : k.areas = some areas) :
    ∀ {ss ss' des des' : List (Seg P.F IO.D)} {i : Nat},
    prepareSegs P IO k i ss des = .ok (ss', des') →
      ∃ ov idx, des' = des ++ ov ∧ idx.Pairwise (· < ·) ∧
        EachAt (fun pos j x => ∃ q s s', j = i + q ∧ ss[q]? = some s ∧ ss'[q]? = some s' ∧
          MadeFor P IO k.desc areas k.secPrefix k.oflName j s.tres s.sub s'.sub pos x)
          des.length idx ov ∧
        ∀ q s s', ss[q]? = some s → ss'[q]? = some s' → i + q ∉ idx →
          ∃ n, prepareTreWrite P k.desc areas n s.tres s.sub = .ok (s'.sub, none) := by
  intro ss
  induction ss with
  | nil =>
    intro ss' des des' i h
    unfold prepareSegs at h
    injection h with h
    injection h with h1 h2
    subst h1 h2
    exact ⟨[], [], by simp, .nil, .nil, by intro q s s' h; simp at h⟩
  | cons s ss ih =>
    intro ss' des des' i h
    unfold prepareSegs at h
    rw [hk] at h
    simp only at h
    split at h
    · cases h
    · rename_i S1 des1 h1
      split at h
      · cases h
      · rename_i ss1 des2 h2
        injection h with h
        injection h with h3 h4
        subst h3 h4
        obtain ⟨o, p1, p2⟩ := prepareHeader_ok P IO h1
        obtain ⟨ov, idx, q1, q2, q3, q4⟩ := ih h2
        have hlt : ∀ j ∈ idx, i < j := by
          intro j hj
          obtain ⟨_, _, q, _, _, e, _⟩ := q3.mem_left hj
          omega
        have q3' := q3.imp (Q := fun pos j x => ∃ q t t', j = i + q ∧ (s :: ss)[q]? = some t ∧
          ({ s with sub := S1 } :: ss1)[q]? = some t' ∧
          MadeFor P IO k.desc areas k.secPrefix k.oflName j t.tres t.sub t'.sub pos x) (by
            rintro m a b ⟨q, t, t', e1, e2, e3, e4⟩
            exact ⟨q + 1, t, t', by omega, by simpa using e2, by simpa using e3, e4⟩)
        have hrest : ∀ q t t', (s :: ss)[q + 1]? = some t →
            ({ s with sub := S1 } :: ss1)[q + 1]? = some t' → i + (q + 1) ∉ idx →
            ∃ n, prepareTreWrite P k.desc areas n t.tres t.sub = .ok (t'.sub, none) := by
          intro q t t' h1 h2 h3
          refine q4 q t t' (by simpa using h1) (by simpa using h2) ?_
          rwa [show i + 1 + q = i + (q + 1) by omega]
        rcases p2 with ⟨ho, rfl⟩ | ⟨b, x, ho, rfl, _, _, sec, g1, g2⟩
        · refine ⟨ov, idx, q1, q2, q3', ?_⟩
          intro q t t' ht ht' hq
          cases q with
          | zero =>
            simp only [List.getElem?_cons_zero, Option.some.injEq] at ht ht'
            subst ht ht'
            exact ⟨_, by rw [p1, ho]⟩
          | succ q => exact hrest q t t' ht ht' hq
        · refine ⟨x :: ov, i :: idx, by rw [q1]; simp, List.pairwise_cons.mpr ⟨hlt, q2⟩,
            .cons ⟨0, s, _, rfl, rfl, rfl, b, sec, by rw [p1, ho], g1, g2⟩ (by simpa using q3'), ?_⟩
          intro q t t' ht ht' hq
          cases q with
          | zero => simp at hq
          | succ q => exact hrest q t t' ht ht' (fun hm => hq (List.mem_cons_of_mem _ hm))

end Verif
