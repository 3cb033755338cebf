import Verif.Rewrite
import Verif.Row

/- The headers of a file that was read have no stale overflow fields: helper lemmas for C27. -/

namespace Verif

variable (P : PyFloat)

/-- What a completed read says about a field outside the loops: `R1` is the state when the field
was reached, which already has the final values of all earlier fields. -/
theorem readD_top {T : Tab} (hC : CausalTab T) {lit : Bool} {m : Nat} {fi : FInfo}
    (hm : T[m]? = some fi) (d : Desc) :
    ∀ (n : Nat) (sh : List Expr) (st : List Nat) (key : Key) (R R' : Store P.F) (b rest : Bytes),
      At T n sh st d → key.length = st.length → d.topAt n m = true →
      readD P T lit n key d (R, b) = .ok (R', rest) →
      ∃ R1 : Store P.F, (∀ q k, q < m → R1 q k = R' q k) ∧
        ((evalCond P (look P T R1) fi key = .ok false ∧ R' m key = R m key) ∨
         (evalCond P (look P T R1) fi key = .ok true ∧
          ∃ t : Nat, evalSize P (look P T R1) fi key = .ok (t : Int))) := by
  induction d with
  | nil => intro _ _ _ _ _ _ _ _ _ _ h; cases h
  | field fd r ih =>
    intro n sh st key R R' b rest hat hk ht h
    obtain ⟨hn, hat'⟩ := hat.field
    simp only [readD, hn] at h
    unfold Desc.topAt at ht
    rw [Bool.or_eq_true, decide_eq_true_eq] at ht
    by_cases hmn : m = n
    · subst hmn
      rw [hn] at hm
      injection hm with hm
      subst hm
      cases hc : evalCond P (look P T R) ⟨fd, sh, st⟩ key with
      | error e => rw [hc] at h; cases h
      | ok bc =>
        rw [hc] at h
        cases bc with
        | false =>
          simp only at h
          obtain ⟨ins, _, _, hf⟩ := readD_facts P hC lit r _ sh st key R R' b rest hat' hk h
          exact ⟨R, fun q k hq => (hf.touch q k (by omega)).symm,
            Or.inl ⟨hc, hf.touch m key (by omega)⟩⟩
        | true =>
          simp only at h
          cases hrf : readField P (look P T R) lit R ⟨fd, sh, st⟩ m key b with
          | error e => rw [hrf] at h; cases h
          | ok s =>
            obtain ⟨R1, b1⟩ := s
            rw [hrf] at h
            simp only at h
            obtain ⟨t, _, hsz, _, hcase⟩ := readField_consumes P hrf
            obtain ⟨ins, _, _, hf⟩ := readD_facts P hC lit r _ sh st key R1 R' b1 rest hat' hk h
            refine ⟨R, fun q k hq => ?_, Or.inr ⟨hc, t.length, hsz⟩⟩
            rw [hf.touch q k (by omega)]
            rcases hcase with ⟨_, h1⟩ | ⟨_, v, _, h1⟩
            · rw [h1]
            · rw [h1, Store.set, if_neg (by omega)]
    · have ht := ht.resolve_left hmn
      cases hc : evalCond P (look P T R) ⟨fd, sh, st⟩ key with
      | error e => rw [hc] at h; cases h
      | ok bc =>
        rw [hc] at h
        cases bc with
        | false => exact ih _ sh st key R R' b rest hat' hk ht h
        | true =>
          simp only at h
          cases hrf : readField P (look P T R) lit R ⟨fd, sh, st⟩ n key b with
          | error e => rw [hrf] at h; cases h
          | ok s =>
            obtain ⟨R1, b1⟩ := s
            rw [hrf] at h
            obtain ⟨t, _, hsz, _, hcase⟩ := readField_consumes P hrf
            obtain ⟨S, h1, h2⟩ := ih _ sh st key R1 R' b1 rest hat' hk ht h
            refine ⟨S, h1, ?_⟩
            rcases h2 with ⟨h2, h3⟩ | h2
            · refine Or.inl ⟨h2, h3.trans ?_⟩
              rcases hcase with ⟨_, h1⟩ | ⟨_, v, _, h1⟩
              · rw [h1]
              · rw [h1, Store.set, if_neg (by omega)]
            · exact Or.inr h2
  | loop e body r _ ihr =>
    intro n sh st key R R' b rest hat hk ht h
    obtain ⟨_, hatb, hatr⟩ := hat.loop
    unfold Desc.topAt at ht
    have hlt : n + body.count ≤ m := by
      clear ihr h hat hatb hatr
      revert ht
      generalize n + body.count = q
      induction r generalizing q with
      | nil => intro h; cases h
      | field fd r ih =>
        intro h
        unfold Desc.topAt at h
        rw [Bool.or_eq_true, decide_eq_true_eq] at h
        rcases h with rfl | h
        · exact Nat.le_refl _
        · have := ih _ h; omega
      | loop e b r _ ih => intro h; unfold Desc.topAt at h; have := ih _ h; omega
    simp only [readD] at h
    cases hsh : evalShape P (look P T R) e key with
    | error x => rw [hsh] at h; cases h
    | ok c =>
      rw [hsh] at h
      simp only at h
      cases hfr : forRead (fun i s => readD P T lit n (key ++ [i]) body s) (indices c) (R, b) with
      | error x => rw [hfr] at h; cases h
      | ok s =>
        obtain ⟨R1, b1⟩ := s
        rw [hfr] at h
        simp only at h
        obtain ⟨S, h1, h2⟩ := ihr _ sh st key R1 R' b1 rest hatr hk ht h
        have hkeep : ∀ (is : List Int) (R R1 : Store P.F) (b b1 : Bytes),
            forRead (fun i s => readD P T lit n (key ++ [i]) body s) is (R, b) = .ok (R1, b1) →
            R1 m key = R m key := by
          intro is
          induction is with
          | nil => intro R R1 b b1 h; simp only [forRead] at h; cases h; rfl
          | cons i is ih =>
            intro R R1 b b1 h
            simp only [forRead] at h
            cases hi : readD P T lit n (key ++ [i]) body (R, b) with
            | error x => rw [hi] at h; cases h
            | ok s =>
              obtain ⟨Ri, bi⟩ := s
              rw [hi] at h
              simp only at h
              obtain ⟨_, _, _, hf⟩ := readD_facts P hC lit body n (sh ++ [e]) (st ++ [n])
                (key ++ [i]) R Ri b bi hatb (by simp [hk]) hi
              rw [ih _ _ _ _ h, hf.touch m key (by omega)]
        refine ⟨S, h1, ?_⟩
        rcases h2 with ⟨h2, h3⟩ | h2
        · exact Or.inl ⟨h2, h3.trans (hkeep _ _ _ _ _ hfr)⟩
        · exact Or.inr h2

/-- The fields of the areas are outside the loops, the length first, and the overflow field has
default 0. -/
def areasTopB (d : Desc) (areas : List Area) : Bool :=
  areas.all fun a =>
    match areaMN d a with
    | (m, n) => decide (m < n) && d.topAt 0 n &&
      (match resolve d.tab a.ofl with
        | none => true
        | some o => decide (m < o) && d.topAt 0 o &&
          (match d.tab[o]? with
            | none => true
            | some fo => fo.fd.default.isNone && !fo.fd.optional && fo.fd.ty == .int))

variable {P} in
/-- A header that was read has no stale overflow field. -/
theorem readStruct_oflClear {d : Desc} (hd : d.causal = true) {areas : List Area}
    (hA : AreasRows d areas (areas.map (areaMN d))) (hT : areasTopB d areas = true) {b rest : Bytes}
    {S : Store P.F} (h : readStruct P d false b = .ok (S, rest)) : OflClear P d areas S := by
  intro a ha hpos o fo ho hfo
  obtain ⟨m, n, hz, hR⟩ := areasRows_zip hA a ha
  have hmn : (m, n) = areaMN d a := by
    have : ∀ (as : List Area), (a, (m, n)) ∈ as.zip (as.map (areaMN d)) → (m, n) = areaMN d a := by
      intro as
      induction as with
      | nil => simp
      | cons c as ih =>
        simp only [List.map_cons, List.zip_cons_cons, List.mem_cons, Prod.mk.injEq]
        rintro (⟨rfl, h⟩ | h)
        · exact h
        · exact ih h
    exact this _ hz
  have hB := List.all_eq_true.mp hT a ha
  rw [← hmn, ho] at hB
  simp only [hfo, Bool.and_eq_true, decide_eq_true_eq, Option.isNone_iff_eq_none,
    Bool.not_eq_true', beq_iff_eq] at hB
  obtain ⟨⟨hlt, htn⟩, ⟨hlo, hto⟩, ⟨hdef, hopt⟩, hty⟩ := hB
  have hC := Desc.causalTab hd
  unfold readStruct readInto at h
  -- the length
  obtain ⟨fn, hn1, _, _, hn4, hn5, hn6, _⟩ := hR.fdata
  obtain ⟨S1, a1, a2⟩ := readD_top P hC hn1 d 0 [] [] [] _ _ _ _ (at_top d hd) rfl htn h
  have hlen : ∃ z, getAttr P d S a.len [] = .ok z ∧ ∃ i, asInt z = .ok i ∧ 0 ≤ i := by
    rw [evalCond_none P hn4] at a2
    rcases a2 with ⟨a2, _⟩ | ⟨_, t, a2⟩
    · cases a2
    obtain ⟨fm, h1, h2, _⟩ := hR.flen
    have hl := h2.look P hC hR.rlen h1 (S := S1)
    have hg : getAttr P d S1 a.len [] = getAttr P d S a.len [] :=
      hR.len_cell (a1 m [] hlt)
    unfold evalSize at a2
    rw [hn5] at a2
    simp only [evalE, idxKey, bind, Except.bind] at a2
    unfold getAttr at hg
    rw [hR.rlen] at hg
    simp only at hg
    rw [hl, hg] at a2
    unfold getAttr
    rw [hR.rlen]
    simp only
    cases hv : getItem P d.tab S m [] with
    | error e => rw [hv] at a2; cases a2
    | ok v =>
      rw [hv] at a2
      simp only at a2
      refine ⟨v, rfl, ?_⟩
      cases hi : asInt v with
      | error e => rw [hi] at a2; cases a2
      | ok i =>
        rw [hi, hn6] at a2
        simp only at a2
        injection a2 with a2
        refine ⟨i, rfl, ?_⟩
        split at a2 <;> omega
  obtain ⟨v, hv, i, hi, hi0⟩ := hlen
  have hiz : i = 0 := by
    unfold attrPos at hpos
    rw [hv] at hpos
    simp only [hi, Except.map] at hpos
    have : ¬ i > 0 := fun hh => hpos (by rw [decide_eq_true hh])
    omega
  have hv0 : v = .int 0 := by
    cases v <;> simp [asInt] at hi
    rw [hi, hiz]
  obtain ⟨fo', ho1, _, _, hoc⟩ := hR.fofl o ho
  rw [hfo] at ho1
  injection ho1 with ho1
  subst ho1
  obtain ⟨S2, b1, b2⟩ := readD_top P hC hfo d 0 [] [] [] _ _ _ _ (at_top d hd) rfl hto h
  have hcF : evalCond P (look P d.tab S2) fo [] = .ok false := by
    rw [← hR.cond_cell hd (b1 m [] hlo).symm hoc]
    obtain ⟨fm, h1, h2, _⟩ := hR.flen
    unfold getAttr at hv
    rw [hR.rlen] at hv
    simp only at hv
    unfold evalCond
    rw [hoc]
    simp [evalE, idxKey, bind, Except.bind, h2.look P hC hR.rlen h1, hv, hv0,
      CVal.toVal, pyEq, pure, Except.pure, Except.map, bval, truthy]
  rcases b2 with ⟨_, b2⟩ | ⟨b2, _⟩
  · unfold stored
    rw [b2]
    simp [Store.empty, defaultVal, hdef, hopt, hty]
  · rw [hcF] at b2; cases b2

variable {P}
variable (E : Env) (IO : DataIO P.F)

theorem fileAreas_top : areasTopB Tables.t_file_header fileAreas = true := by decide +kernel

theorem segAreas_top {k : SegKind} {areas : List Area} (h : k.areas = some areas) :
    areasTopB k.desc areas = true := by
  cases k with
  | des => cases h
  | res => cases h
  | _ => injection h with h; subst h; decide +kernel

theorem readSegs_clear {k : SegKind} {areas : List Area} (hk : k.areas = some areas) :
    ∀ {zs : List Int} {b : Bytes} {ss : List (Seg P.F IO.D)} {r : Bytes},
    readSegs P E IO k zs b = .ok (ss, r) → ∀ s ∈ ss, OflClear P k.desc areas s.sub := by
  intro zs
  induction zs with
  | nil =>
    intro b ss r h
    unfold readSegs at h
    injection h with h
    injection h with h _
    subst h
    simp
  | cons z zs ih =>
    intro b ss r h
    unfold readSegs at h
    split at h
    · cases h
    · rename_i s b1 h1
      split at h
      · cases h
      · rename_i ss' b2 h2
        injection h with h
        injection h with h _
        subst h
        intro x hx
        rcases List.mem_cons.mp hx with rfl | hx
        · unfold readSeg at h1
          split at h1
          · cases h1
          · rename_i sub r1 hr
            repeat' split at h1
            all_goals first | (cases h1; done) | skip
            injection h1 with h1
            injection h1 with h1 _
            rw [← h1]
            exact readStruct_oflClear (subheader_causal k) (segAreas_rows hk) (segAreas_top hk) hr
        · exact ih h2 x hx

theorem readSegTres_clear {k : SegKind} {areas : List Area} {des : List (Except Err Bytes)} :
    ∀ {ss ss' : List (Seg P.F IO.D)}, readSegTres P E IO k des ss = .ok ss' →
    (∀ s ∈ ss, OflClear P k.desc areas s.sub) → ∀ s ∈ ss', OflClear P k.desc areas s.sub := by
  intro ss
  induction ss with
  | nil =>
    intro ss' h _
    unfold readSegTres at h
    injection h with h
    subst h
    simp
  | cons s ss ih =>
    intro ss' h hl
    unfold readSegTres at h
    split at h
    · cases h
    · split at h
      · cases h
      · rename_i ss1 h1
        injection h with h
        subst h
        intro x hx
        rcases List.mem_cons.mp hx with rfl | hx
        · exact hl s (by simp)
        · exact ih h1 (fun y hy => hl y (by simp [hy])) x hx

/-- The headers of a file that was read have no stale overflow field. -/
theorem readFile_clear {b : Bytes} {g : NFile P.F IO.D} (h : readFile P E IO b = .ok g) :
    AreasClear IO g := by
  unfold readFile at h
  simp only [bind_ok, Prod.exists, pure, Except.pure] at h
  obtain ⟨H, r, e0, fl, _, h⟩ := h
  split at h
  · cases h
  simp only [bind_ok, Prod.exists] at h
  obtain ⟨zi, _, zg, _, zt, _, zd, _, zr, _, im, r1, e1, gr, r2, e2, tx, r3, e3,
    ds, r4, e4, rs, r5, e5, ts, _, im', e6, gr', e7, tx', e8, e9⟩ := h
  injection e9 with e9
  subst e9
  refine ⟨readStruct_oflClear (by decide +kernel) fileAreas_rows fileAreas_top e0, ?_⟩
  intro k areas hk
  cases k with
  | image => exact readSegTres_clear E IO (k := .image) e6 (readSegs_clear E IO hk e1)
  | graphic => exact readSegTres_clear E IO (k := .graphic) e7 (readSegs_clear E IO hk e2)
  | text => exact readSegTres_clear E IO (k := .text) e8 (readSegs_clear E IO hk e3)
  | des => cases hk
  | res => cases hk

end Verif
