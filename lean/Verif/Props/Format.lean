import Verif.FormatLemmas
import Verif.Represent
import Verif.Props.Tables

/- C62: floats in fields (model in `Verif/Format.lean`). -/

namespace Verif

variable {P : PyFloat}

/-! ### Specification -/

/-- Whether a sign is written. -/
def CFmt.signs (f : CFmt) (x : Flt) : ℕ := if x.neg || f.plus then 1 else 0

/-- There is room in `n` characters for the number shown by `f` for `x`: for the sign, the digits
before the point, the point and the decimals; in scientific notation the exponent has as many digits
as remain. -/
def CFmt.fits (f : CFmt) (x : Flt) (n : ℕ) : Prop :=
  match f.exp with
  | none => f.prec + 2 + f.signs x ≤ n ∧ f.shown x.mag < 10 ^ (n - f.signs x - 1 - f.prec)
  | some _ => f.prec + 6 + f.signs x ≤ n ∧ (f.shown x.mag = 0 ∨
      (10 : ℚ) ^ (1 - (10 : ℤ) ^ (n - f.signs x - f.prec - 4)) ≤ f.shown x.mag ∧
      f.shown x.mag < (10 : ℚ) ^ ((10 : ℤ) ^ (n - f.signs x - f.prec - 4)))

/-- How the floats of a field are formatted. -/
inductive FloatFmt where
  | printf (f : CFmt)
  | rpc
  | fixed
  deriving DecidableEq

/-- The format of a float field. -/
def FieldDef.floatFmt (fd : FieldDef) : Option FloatFmt :=
  match fd.frmt with
  | none => some .fixed
  | some (.other i) =>
    match formatSource i with
    | none => none
    | some s =>
      if s = "nitf_tre_rpc.py:_tre_rpc_coeff_format" then some .rpc
      else (CFmt.ofText s.toList).map .printf
  | some _ => none

/-- Magnitudes for which rounding to a double has its usual relative error. -/
def Ordinary (m : ℚ) : Prop := m = 0 ∨ 1 / 10 ^ 249 ≤ m ∧ m ≤ 10 ^ 249

/-! ### Proofs -/

theorem signText_length (f : CFmt) (x : Flt) : (signText f.plus x.neg).length = f.signs x := by
  unfold signText CFmt.signs
  cases x.neg <;> cases f.plus <;> simp

theorem ofText_letterOk {s : Str} {f : CFmt} (h : CFmt.ofText s = some f) : f.letterOk := by
  have hflags : ∀ (g : CFmt) (s : Str), g.exp = none → (takeFlags g s).1.exp = none := by
    intro g s
    induction s generalizing g with
    | nil => intro h; simpa [takeFlags] using h
    | cons c r ih =>
      intro h
      unfold takeFlags
      split
      · rename_i heq; injection heq with _ heq; subst heq; exact ih _ h
      · rename_i heq; injection heq with _ heq; subst heq; exact ih _ h
      · rename_i heq; injection heq with _ heq; subst heq; exact ih _ h
      · exact h
  have hconv : ∀ (g : CFmt) (s : Str) (f : CFmt), g.exp = none → takeConv g s = some f →
      f.letterOk := by
    intro g s f hg h
    unfold takeConv at h
    split at h <;> first | (injection h with h; subst h) | cases h
    · exact .inl hg
    · exact .inl hg
    · exact .inr (.inl rfl)
    · exact .inr (.inl rfl)
    · exact .inr (.inr rfl)
    · exact .inr (.inr rfl)
  unfold CFmt.ofText at h
  split at h
  · rename_i s
    have hf := hflags ⟨false, false, false, 0, 6, none⟩ s rfl
    simp only at h
    split at h
    · exact hconv _ _ _ (by exact hf) h
    · exact hconv _ _ _ (by exact hf) h
  · cases h

/-- What is written, given the text made by the format. -/
theorem encode_core {fd : FieldDef} (hty : fd.ty = .flt) {x : P.F} {n : ℕ} {core : Str} {a b : ℕ}
    (hv : ∀ c ∈ core, Visible c)
    (h : formatCore P fd (.flt x) n =
      .ok (List.replicate a ' ' ++ core ++ List.replicate b ' ')) :
    encodeVal P fd n (.flt x) =
      if a + core.length + b ≤ n then
        .ok ((List.replicate a ' ' ++ core ++ List.replicate (n - a - core.length) ' ').map
          fun c => UInt8.ofNat c.toNat)
      else .error .runtime := by
  have hfv : formatVal P fd (.flt x) n =
      .ok (padRight ' ' n (List.replicate a ' ' ++ core ++ List.replicate b ' ')) := by
    unfold formatVal
    rw [if_neg (by omega), h]
    simp [hty]
  have hlen : (List.replicate a ' ' ++ core ++ List.replicate b ' ').length = a + core.length + b := by
    simp only [List.length_append, List.length_replicate]
  have hpad : padRight ' ' n (List.replicate a ' ' ++ core ++ List.replicate b ' ') =
      List.replicate a ' ' ++ core ++ List.replicate (b + (n - (a + core.length + b))) ' ' := by
    unfold padRight
    rw [hlen, List.append_assoc, List.replicate_append_replicate]
  unfold encodeVal
  split
  · rename_i heq; cases heq
  · simp only [hty, hfv, hpad]
    have hl : (List.replicate a ' ' ++ core ++
        List.replicate (b + (n - (a + core.length + b))) ' ').length =
        a + core.length + (b + (n - (a + core.length + b))) := by
      simp only [List.length_append, List.length_replicate]
    rw [hl]
    by_cases hn : a + core.length + b ≤ n
    · rw [if_neg (by omega), if_pos hn, core_ascii hv]
      rw [show b + (n - (a + core.length + b)) = n - a - core.length by omega]
    · rw [if_pos (by omega), if_neg hn]

theorem encode_fail {fd : FieldDef} (hty : fd.ty = .flt) {x : P.F} {n : ℕ} {e : Err}
    (h : formatCore P fd (.flt x) n = .error e) : encodeVal P fd n (.flt x) = .error e := by
  have hfv : formatVal P fd (.flt x) n = .error e := by
    unfold formatVal
    rw [if_neg (by omega), h]
  unfold encodeVal
  split
  · rename_i heq; cases heq
  · simp only [hty, hfv]

theorem encode_congr {fd : FieldDef} (hty : fd.ty = .flt) {x y : P.F} {n : ℕ}
    (h : formatCore P fd (.flt y) n = formatCore P fd (.flt x) n) :
    encodeVal P fd n (.flt y) = encodeVal P fd n (.flt x) := by
  have hfv : formatVal P fd (.flt y) n = formatVal P fd (.flt x) n := by
    unfold formatVal
    rw [h]
  have : ∀ z : P.F, encodeVal P fd n (.flt z) =
      match formatVal P fd (.flt z) n with
      | .error e => .error e
      | .ok t => if (t.length : Int) ≠ n then .error .runtime else latin1Enc t := by
    intro z
    unfold encodeVal
    split
    · rename_i heq; cases heq
    · simp only [hty]
      cases formatVal P fd (.flt z) n <;> rfl
  rw [this, this, hfv]

theorem formatCore_printf (D : Doubles P) {fd : FieldDef} {f : CFmt}
    (hf : fd.floatFmt = some (.printf f)) (x : P.F) (n : ℕ) :
    formatCore P fd (.flt x) n = .ok (f.apply (D.val x)) ∧ f.letterOk := by
  unfold FieldDef.floatFmt at hf
  unfold formatCore
  split at hf
  · cases hf
  · rename_i i hi
    rw [hi]
    simp only [D.fmt, fmtText]
    split at hf
    · cases hf
    · rename_i s hs
      rw [hs]
      simp only
      split at hf
      · cases hf
      · rename_i hne
        rw [if_neg hne]
        cases ho : CFmt.ofText s.toList with
        | none => rw [ho] at hf; cases hf
        | some g =>
          rw [ho] at hf
          simp only [Option.map_some, Option.some.injEq, FloatFmt.printf.injEq] at hf
          subst hf
          exact ⟨rfl, ofText_letterOk ho⟩
  · cases hf

theorem formatCore_rpc (D : Doubles P) {fd : FieldDef}
    (hf : fd.floatFmt = some .rpc) (x : P.F) (n : ℕ) :
    formatCore P fd (.flt x) n = rpcCoeff (D.val x) := by
  unfold FieldDef.floatFmt at hf
  unfold formatCore
  split at hf
  · cases hf
  · rename_i i hi
    rw [hi]
    simp only [D.fmt, fmtText]
    split at hf
    · cases hf
    · rename_i s hs
      rw [hs]
      simp only
      split at hf
      · rename_i he; rw [if_pos he]
      · cases ho : CFmt.ofText s.toList <;> rw [ho] at hf <;> cases hf
  · cases hf

theorem formatCore_fixed (D : Doubles P) {fd : FieldDef} (hty : fd.ty = .flt)
    (hf : fd.floatFmt = some .fixed) (x : P.F) (n : ℕ) :
    formatCore P fd (.flt x) n = fixedWidthF (D.val x) n := by
  unfold FieldDef.floatFmt at hf
  unfold formatCore
  split at hf
  · rename_i hi
    rw [hi]
    simp only [hty, D.fixed]
  · split at hf
    · cases hf
    · split at hf
      · cases hf
      · rename_i s _ _
        cases ho : CFmt.ofText s.toList <;> rw [ho] at hf <;> cases hf
  · cases hf

/-! #### printf -/

theorem sci_shown_bounds {m : ℚ} (hm : 0 < m) (p : ℕ) :
    (10 : ℚ) ^ (sciParts m p).1 ≤ ((sciParts m p).2 : ℚ) / 10 ^ p * 10 ^ (sciParts m p).1 ∧
    ((sciParts m p).2 : ℚ) / 10 ^ p * 10 ^ (sciParts m p).1 < (10 : ℚ) ^ ((sciParts m p).1 + 1) := by
  obtain ⟨h1, h2, _, _⟩ := sciParts_pos hm p
  generalize (sciParts m p).2 = r at *
  generalize (sciParts m p).1 = e at *
  have hpe : (0 : ℚ) < 10 ^ e := zpow_pos (by norm_num) _
  have hpp : (0 : ℚ) < 10 ^ p := by positivity
  have a1 : (10 : ℚ) ^ p ≤ r := by exact_mod_cast h1
  have a2 : (r : ℚ) < 10 ^ (p + 1) := by exact_mod_cast h2
  constructor
  · have : 1 ≤ (r : ℚ) / 10 ^ p := by rw [le_div_iff₀ hpp]; linarith
    calc (10 : ℚ) ^ e = 1 * 10 ^ e := by ring
      _ ≤ _ := mul_le_mul_of_nonneg_right this hpe.le
  · rw [zpow_add_one₀ (by norm_num), mul_comm (10 ^ e : ℚ)]
    refine mul_lt_mul_of_pos_right ?_ hpe
    rw [div_lt_iff₀ hpp, ← pow_succ']
    exact a2

theorem body_fits {f : CFmt} {x : Flt} (hx : 0 ≤ x.mag) {n : ℕ} (hp : 0 < f.prec) :
    f.signs x + (f.body x.mag).length ≤ n ↔ f.fits x n := by
  unfold CFmt.fits CFmt.body CFmt.shown
  cases he : f.exp with
  | none =>
    simp only
    generalize roundHalfEven (x.mag * 10 ^ f.prec) = r
    have hge := decimals_length_ge r f.prec hp
    by_cases hk : f.prec + 2 + f.signs x ≤ n
    · have := decimals_length (r := r) (k := n - f.signs x) hp (by omega)
      have hcmp : r < 10 ^ (n - f.signs x - 1) ↔
          (r : ℚ) / 10 ^ f.prec < 10 ^ (n - f.signs x - 1 - f.prec) := by
        rw [div_lt_iff₀ (by positivity), ← pow_add,
          show n - f.signs x - 1 - f.prec + f.prec = n - f.signs x - 1 by omega]
        constructor
        · intro h; exact_mod_cast h
        · intro h; exact_mod_cast h
      rw [← hcmp, ← this]
      constructor
      · intro h; exact ⟨hk, by omega⟩
      · rintro ⟨_, h⟩; omega
    · constructor
      · intro h; omega
      · rintro ⟨h, _⟩; exact absurd h hk
  | some c =>
    simp only
    have hel : (expText c (sciParts x.mag f.prec).1).length =
        2 + max 2 (decStr (sciParts x.mag f.prec).1.natAbs).length := by
      unfold expText
      simp only [List.length_cons, length_padLeft]
      omega
    rw [List.length_append, hel]
    have hdig : ∀ k, 2 ≤ k → (max 2 (decStr (sciParts x.mag f.prec).1.natAbs).length ≤ k ↔
        (sciParts x.mag f.prec).1.natAbs < 10 ^ k) := by
      intro k hk
      rw [← decStr_length_le _ _ (by omega)]
      omega
    rcases hx.eq_or_lt with h0 | h0
    · rw [← h0, sciParts_zero]
      rw [← h0, sciParts_zero] at hdig
      have hl : (decimals 0 f.prec).length = f.prec + 2 :=
        decimals_length_sci hp (by positivity)
      simp only [hl]
      have : (decStr (0 : ℤ).natAbs).length = 1 := by decide
      simp only [this]
      constructor
      · intro h; exact ⟨by omega, .inl (by simp)⟩
      · rintro ⟨h, _⟩; omega
    · obtain ⟨h1, h2, _, _⟩ := sciParts_pos h0 f.prec
      obtain ⟨b1, b2⟩ := sci_shown_bounds h0 f.prec
      rw [decimals_length_sci hp h2]
      by_cases hk : f.prec + 6 + f.signs x ≤ n
      · have hd := hdig (n - f.signs x - f.prec - 4) (by omega)
        have hne : ((sciParts x.mag f.prec).2 : ℚ) / 10 ^ f.prec * 10 ^ (sciParts x.mag f.prec).1 ≠ 0 := by
          have : (0 : ℚ) < 10 ^ (sciParts x.mag f.prec).1 := zpow_pos (by norm_num) _
          exact (lt_of_lt_of_le this b1).ne'
        have hK : ((10 ^ (n - f.signs x - f.prec - 4) : ℕ) : ℤ) =
            (10 : ℤ) ^ (n - f.signs x - f.prec - 4) := by push_cast; rfl
        generalize (10 : ℤ) ^ (n - f.signs x - f.prec - 4) = K at *
        have key : (sciParts x.mag f.prec).1.natAbs < 10 ^ (n - f.signs x - f.prec - 4) ↔
            (10 : ℚ) ^ (1 - K) ≤
              ((sciParts x.mag f.prec).2 : ℚ) / 10 ^ f.prec * 10 ^ (sciParts x.mag f.prec).1 ∧
            ((sciParts x.mag f.prec).2 : ℚ) / 10 ^ f.prec * 10 ^ (sciParts x.mag f.prec).1 < 10 ^ K := by
          have h10 : (1 : ℚ) < 10 := by norm_num
          constructor
          · intro h
            have hlt : ((sciParts x.mag f.prec).1.natAbs : ℤ) < K := by rw [← hK]; exact_mod_cast h
            constructor
            · refine le_trans ?_ b1
              exact zpow_le_zpow_right₀ h10.le (by omega)
            · refine lt_of_lt_of_le b2 ?_
              exact zpow_le_zpow_right₀ h10.le (by omega)
          · rintro ⟨c1, c2⟩
            have d1 : (1 - K : ℤ) < (sciParts x.mag f.prec).1 + 1 :=
              (zpow_lt_zpow_iff_right₀ h10).mp (lt_of_le_of_lt c1 b2)
            have d2 : (sciParts x.mag f.prec).1 < K :=
              (zpow_lt_zpow_iff_right₀ h10).mp (lt_of_le_of_lt b1 c2)
            have : ((sciParts x.mag f.prec).1.natAbs : ℤ) <
                ((10 ^ (n - f.signs x - f.prec - 4) : ℕ) : ℤ) := by rw [hK]; omega
            exact_mod_cast this
        rw [← key, ← hd]
        constructor
        · intro h; exact ⟨hk, .inr (by omega)⟩
        · rintro ⟨_, h | h⟩
          · exact absurd h hne
          · omega
      · constructor
        · intro h; omega
        · rintro ⟨h, _⟩; exact absurd h hk

/-- Blanks and visible characters written by a `printf` format. -/
theorem encode_printf (D : Doubles P) {fd : FieldDef} (hty : fd.ty = .flt) {f : CFmt}
    (hf : fd.floatFmt = some (.printf f)) {n : ℕ} (hw : f.width ≤ n) (hp : 0 < f.prec) (x : P.F) :
    (f.fits (D.val x) n → ∃ b, encodeVal P fd n (.flt x) = .ok b ∧ b.length = n ∧
      fieldNumber b = some ⟨(D.val x).neg, f.shown (D.val x).mag⟩ ∧
      ∃ c ∈ latin1Dec b, IsDigit c) ∧
    (¬ f.fits (D.val x) n → encodeVal P fd n (.flt x) = .error .runtime) := by
  obtain ⟨hfc, hl⟩ := formatCore_printf D hf x n
  obtain ⟨a, z, b, hs⟩ := f.apply_shape (D.val x)
  have hlen := f.apply_length (D.val x)
  have hvis : ∀ c ∈ signText f.plus (D.val x).neg ++ (List.replicate z '0' ++ f.body (D.val x).mag),
      Visible c := by
    intro c hc
    rw [List.mem_append, List.mem_append] at hc
    rcases hc with hc | hc | hc
    · exact sign_visible _ _ c hc
    · rw [(List.mem_replicate.mp hc).2]; unfold Visible; decide
    · exact CFmt.body_visible hl _ c hc
  have hne : signText f.plus (D.val x).neg ++ (List.replicate z '0' ++ f.body (D.val x).mag) ≠ [] := by
    obtain ⟨c, t, h, _⟩ := f.body_head (D.val x).mag
    rw [h]
    simp
  have hdig : ∃ c ∈ signText f.plus (D.val x).neg ++ (List.replicate z '0' ++ f.body (D.val x).mag),
      IsDigit c := by
    obtain ⟨c, t, h, hc⟩ := f.body_head (D.val x).mag
    exact ⟨c, by rw [h]; simp, hc⟩
  have hval := CFmt.core_value hl (D.val x) z
  generalize signText f.plus (D.val x).neg ++ (List.replicate z '0' ++ f.body (D.val x).mag) = core at *
  rw [hs] at hfc hlen
  simp only [List.length_append, List.length_replicate] at hlen
  rw [signText_length] at hlen
  have hfit := body_fits (f := f) (n := n) (D.nonneg x) hp
  rw [encode_core hty hvis hfc]
  constructor
  · intro h
    rw [← hfit] at h
    rw [if_pos (by omega)]
    refine ⟨_, rfl, ?_, ?_, ?_⟩
    · simp only [List.length_map, List.length_append, List.length_replicate]; omega
    · rw [fieldNumber_core hvis hne, hval]
    · obtain ⟨c, hc, hd⟩ := hdig
      refine ⟨c, ?_, hd⟩
      unfold latin1Dec
      rw [List.mem_map]
      refine ⟨UInt8.ofNat c.toNat, ?_, ?_⟩
      · rw [List.mem_map]
        exact ⟨c, by simp [hc], rfl⟩
      · rw [UInt8.toNat_ofNat', Nat.mod_eq_of_lt (by have := hd.2; omega), Char.ofNat_toNat]
  · intro h
    rw [← hfit] at h
    rw [if_neg (by omega)]

/-- The number shown is at most half a unit of the last decimal away; in scientific notation, of
the last digit. -/
theorem shown_near (f : CFmt) {m : ℚ} (hm : 0 ≤ m) :
    (f.exp = none → |f.shown m - m| ≤ 1 / 2 / 10 ^ f.prec) ∧
    (f.exp ≠ none → |f.shown m - m| ≤ 1 / 2 / 10 ^ f.prec * m) := by
  unfold CFmt.shown
  cases f.exp with
  | none =>
    refine ⟨fun _ => ?_, fun h => absurd rfl h⟩
    have hp : (0 : ℚ) < 10 ^ f.prec := by positivity
    have h := roundHalfEven_near (q := m * 10 ^ f.prec) (by positivity)
    simp only
    generalize (roundHalfEven (m * 10 ^ f.prec) : ℚ) = r at h
    have : r / 10 ^ f.prec - m = (r - m * 10 ^ f.prec) / 10 ^ f.prec := by field_simp
    rw [this, abs_div, abs_of_pos hp]
    exact div_le_div_of_nonneg_right h hp.le
  | some c =>
    refine ⟨(fun h => by cases h), fun _ => ?_⟩
    simp only
    rcases hm.eq_or_lt with h0 | h0
    · rw [← h0, sciParts_zero]; simp
    · exact (sciParts_pos h0 f.prec).2.2.1

theorem shown_nonneg (f : CFmt) (m : ℚ) : 0 ≤ f.shown m := by
  unfold CFmt.shown
  cases f.exp with
  | none => positivity
  | some c =>
    have : (0 : ℚ) < 10 ^ (sciParts m f.prec).1 := zpow_pos (by norm_num) _
    simp only
    positivity

theorem shown_ordinary (f : CFmt) (hp : f.prec ≤ 20) {m : ℚ} (hm : 0 ≤ m) (ho : Ordinary m) :
    f.shown m = 0 ∨ 1 / 10 ^ 250 ≤ f.shown m ∧ f.shown m ≤ 10 ^ 250 := by
  have hpp : (0 : ℚ) < 10 ^ f.prec := by positivity
  have hpp1 : (1 : ℚ) ≤ 10 ^ f.prec := one_le_pow₀ (by norm_num)
  obtain ⟨hn1, hn2⟩ := shown_near f hm
  have hhalf : (1 : ℚ) / 2 / 10 ^ f.prec ≤ 1 / 2 := by
    rw [div_le_iff₀ hpp]; linarith
  cases he : f.exp with
  | none =>
    have h := hn1 he
    rw [abs_le] at h
    by_cases h0 : f.shown m = 0
    · exact .inl h0
    right
    constructor
    · -- a multiple of the last decimal
      have : 1 / 10 ^ f.prec ≤ f.shown m := by
        unfold CFmt.shown at h0 ⊢
        simp only [he] at h0 ⊢
        refine div_le_div_of_nonneg_right ?_ hpp.le
        have : 1 ≤ roundHalfEven (m * 10 ^ f.prec) := by
          rcases Nat.eq_zero_or_pos (roundHalfEven (m * 10 ^ f.prec)) with h | h
          · rw [h] at h0; simp at h0
          · exact h
        exact_mod_cast this
      refine le_trans ?_ this
      refine one_div_le_one_div_of_le hpp ?_
      exact pow_le_pow_right₀ (by norm_num) (by omega)
    · have : m ≤ 10 ^ 249 := by
        rcases ho with rfl | ⟨_, h⟩
        · positivity
        · exact h
      have : (10 : ℚ) ^ 250 = 10 ^ 249 * 10 := by rw [← pow_succ]
      rw [this]
      have : (1 : ℚ) ≤ 10 ^ 249 := one_le_pow₀ (by norm_num)
      linarith
  | some c =>
    have h := hn2 (by rw [he]; simp)
    rcases ho with rfl | ⟨h1, h2⟩
    · left
      unfold CFmt.shown
      simp [he, sciParts_zero]
    · right
      rw [abs_le] at h
      have hmul : 1 / 2 / 10 ^ f.prec * m ≤ 1 / 2 * m := mul_le_mul_of_nonneg_right hhalf hm
      have e1 : (10 : ℚ) ^ 250 = 10 ^ 249 * 10 := by rw [← pow_succ]
      constructor
      · rw [e1]
        have : (1 : ℚ) / (10 ^ 249 * 10) = 1 / 10 ^ 249 / 10 := by rw [div_div]
        rw [this]
        have h3 : (0 : ℚ) < 1 / 10 ^ 249 := by positivity
        linarith
      · rw [e1]
        linarith

/-- Showing a number that was read from what is shown shows the same. -/
theorem printf_stable {f : CFmt} {x y : Flt} (hx : 0 ≤ x.mag) (hy : 0 ≤ y.mag)
    (hsci : f.exp ≠ none → f.prec ≤ 14)
    (hfix : f.exp = none → f.shown x.mag * 10 ^ f.prec < 2 ^ 52)
    (hn : Near y ⟨x.neg, f.shown x.mag⟩) : f.apply y = f.apply x := by
  obtain ⟨hn1, hn2⟩ := hn
  simp only at hn1 hn2
  suffices h : f.body y.mag = f.body x.mag by
    unfold CFmt.apply
    rw [hn1, h]
  unfold CFmt.body
  cases he : f.exp with
  | none =>
    simp only
    have hf := hfix he
    unfold CFmt.shown at hn2 hf
    simp only [he] at hn2 hf
    have hp : (0 : ℚ) < 10 ^ f.prec := by positivity
    generalize roundHalfEven (x.mag * 10 ^ f.prec) = r at *
    rw [div_mul_cancel₀ _ hp.ne'] at hf
    rw [roundHalfEven_of_near (r := r) (by positivity)]
    have e1 : y.mag * 10 ^ f.prec - r = (y.mag - (r : ℚ) / 10 ^ f.prec) * 10 ^ f.prec := by
      field_simp
    rw [e1, abs_mul, abs_of_pos hp]
    calc _ ≤ (r : ℚ) / 10 ^ f.prec / 2 ^ 53 * 10 ^ f.prec := mul_le_mul_of_nonneg_right hn2 hp.le
      _ = (r : ℚ) / 2 ^ 53 := by field_simp
      _ < 1 / 2 := by rw [div_lt_iff₀ (by positivity)]; norm_num at hf ⊢; linarith
  | some c =>
    simp only
    have hp := hsci (by rw [he]; simp)
    suffices h : sciParts y.mag f.prec = sciParts x.mag f.prec by rw [h]
    unfold CFmt.shown at hn2
    simp only [he] at hn2
    rcases hx.eq_or_lt with h0 | h0
    · rw [← h0, sciParts_zero] at hn2 ⊢
      simp at hn2
      rw [hn2, sciParts_zero]
    · obtain ⟨h1, h2, _, _⟩ := sciParts_pos h0 f.prec
      exact sciParts_stable hp h1 h2 hn2

/-! #### RPC coefficients -/

theorem dropExpZero_append {s : Str} (t : Str) (h : ∀ c ∈ s, c ≠ 'E') :
    dropExpZero (s ++ t) = s ++ dropExpZero t := by
  induction s with
  | nil => rfl
  | cons a r ih =>
    have ha := h a List.mem_cons_self
    have := ih fun c hc => h c (List.mem_cons_of_mem _ hc)
    rw [List.cons_append]
    conv => lhs; unfold dropExpZero
    split
    · rename_i heq; injection heq with heq _; exact absurd heq ha
    · rename_i heq; injection heq with heq _; exact absurd heq ha
    · rename_i heq
      injection heq with h1 h2
      subst h1 h2
      rw [this]
      rfl
    · rename_i heq; cases heq

theorem dropExpZero_exp : ∀ k : Fin 20, dropExpZero (expText 'E' ((k.1 : ℤ) - 9)) =
    'E' :: (if ((k.1 : ℤ) - 9) < 0 then '-' else '+') ::
      padLeft '0' 1 (decStr ((k.1 : ℤ) - 9).natAbs) := by decide +kernel

theorem exp_length : ∀ k : Fin 20, (padLeft '0' 1 (decStr ((k.1 : ℤ) - 9).natAbs)).length =
    if k.1 = 19 then 2 else 1 := by decide +kernel

/-- Exponents of the numbers that `_tre_rpc_coeff_format` formats. -/
theorem rpc_exponent {m : ℚ} (h1 : 1 / 10 ^ 9 ≤ m) (h2 : m < 10 ^ 10) :
    -9 ≤ (sciParts m 6).1 ∧ (sciParts m 6).1 ≤ 10 := by
  have h0 : 0 < m := lt_of_lt_of_le (by positivity) h1
  have a : -9 ≤ Int.log 10 m :=
    (Int.zpow_le_iff_le_log (b := 10) (by norm_num) h0).mp (by norm_num at h1 ⊢; linarith)
  have b : Int.log 10 m < 10 :=
    (Int.lt_zpow_iff_log_lt (b := 10) (by norm_num) h0).mp (by norm_num at h2 ⊢; linarith)
  rcases (sciParts_pos h0 6).2.2.2 with h | h <;> rw [h] <;> constructor <;> omega

/-- The text of a coefficient that is formatted. -/
theorem rpc_text {x : Flt} (h1 : 1 / 10 ^ 9 ≤ x.mag) (h2 : x.mag < 10 ^ 10) :
    rpcCoeff x = .ok (signText true x.neg ++ (decimals (sciParts x.mag 6).2 6 ++
      'E' :: (if (sciParts x.mag 6).1 < 0 then '-' else '+') ::
        padLeft '0' 1 (decStr (sciParts x.mag 6).1.natAbs))) := by
  have h0 : 0 < x.mag := lt_of_lt_of_le (by positivity) h1
  obtain ⟨e1, e2⟩ := rpc_exponent h1 h2
  obtain ⟨_, hr, _, _⟩ := sciParts_pos h0 6
  unfold rpcCoeff
  rw [if_neg (not_lt.mpr h1), if_neg (not_le.mpr h2)]
  have hl : (decimals (sciParts x.mag 6).2 6).length = 8 := decimals_length_sci (by norm_num) hr
  have happ : rpcFmt.apply x = signText true x.neg ++
      (decimals (sciParts x.mag 6).2 6 ++ expText 'E' (sciParts x.mag 6).1) := by
    unfold CFmt.apply CFmt.body rpcFmt
    simp only [Bool.false_eq_true, if_false, if_true]
    unfold padLeft
    rw [List.length_append, hl, show 10 - (signText true x.neg).length -
      (8 + (expText 'E' (sciParts x.mag 6).1).length) = 0 by unfold expText; simp; omega]
    rfl
  rw [happ]
  have hk := dropExpZero_exp ⟨((sciParts x.mag 6).1 + 9).toNat, by omega⟩
  have hkk : ((((sciParts x.mag 6).1 + 9).toNat : ℕ) : ℤ) - 9 = (sciParts x.mag 6).1 := by omega
  simp only [hkk] at hk
  rw [dropExpZero_append, dropExpZero_append, hk]
  · intro c hc
    have := isNum_not_e (decimals_num _ _ c hc)
    rintro rfl
    simp at this
  · intro c hc
    unfold signText at hc
    split at hc
    · simp at hc; subst hc; decide
    · simp at hc; subst hc; decide

theorem rpc_short {x : Flt} (h1 : 1 / 10 ^ 9 ≤ x.mag) (h2 : x.mag < 10 ^ 10) :
    (signText true x.neg ++ (decimals (sciParts x.mag 6).2 6 ++
      'E' :: (if (sciParts x.mag 6).1 < 0 then '-' else '+') ::
        padLeft '0' 1 (decStr (sciParts x.mag 6).1.natAbs))).length =
      if rpcFmt.shown x.mag < 10 ^ 10 then 12 else 13 := by
  have h0 : 0 < x.mag := lt_of_lt_of_le (by positivity) h1
  obtain ⟨e1, e2⟩ := rpc_exponent h1 h2
  obtain ⟨_, hr, _, _⟩ := sciParts_pos h0 6
  obtain ⟨b1, b2⟩ := sci_shown_bounds h0 6
  have hl : (decimals (sciParts x.mag 6).2 6).length = 8 := decimals_length_sci (by norm_num) hr
  have hk := exp_length ⟨((sciParts x.mag 6).1 + 9).toNat, by omega⟩
  have hkk : ((((sciParts x.mag 6).1 + 9).toNat : ℕ) : ℤ) - 9 = (sciParts x.mag 6).1 := by omega
  simp only [hkk] at hk
  have hs : (signText true x.neg).length = 1 := by unfold signText; cases x.neg <;> rfl
  have hsh : rpcFmt.shown x.mag =
      ((sciParts x.mag 6).2 : ℚ) / 10 ^ 6 * 10 ^ (sciParts x.mag 6).1 := rfl
  rw [List.length_append, List.length_append, List.length_cons, List.length_cons, hl, hk, hs, hsh]
  have h10 : (1 : ℚ) < 10 := by norm_num
  by_cases he : (sciParts x.mag 6).1 = 10
  · rw [if_pos (by omega), if_neg]
    rw [he] at b1 ⊢
    exact not_lt.mpr (by exact_mod_cast b1)
  · rw [if_neg (by omega), if_pos]
    refine lt_of_lt_of_le b2 ?_
    have : (10 : ℚ) ^ ((sciParts x.mag 6).1 + 1) ≤ (10 : ℚ) ^ (10 : ℤ) :=
      zpow_le_zpow_right₀ h10.le (by omega)
    exact_mod_cast this

theorem rpc_visible (x : Flt) (r : ℕ) (e : ℤ) :
    ∀ c ∈ signText true x.neg ++ (decimals r 6 ++ 'E' :: (if e < 0 then '-' else '+') ::
      padLeft '0' 1 (decStr e.natAbs)), Visible c := by
  intro c hc
  rw [List.mem_append, List.mem_append, List.mem_cons, List.mem_cons] at hc
  rcases hc with hc | hc | rfl | rfl | hc
  · exact sign_visible _ _ c hc
  · exact num_visible (decimals_num _ _ c hc)
  · unfold Visible; decide
  · split <;> (unfold Visible; decide)
  · exact digit_visible (padLeft_zero_digits _ _ c hc)

/-- The digit that makes a content different from fill. -/
theorem digit_in_bytes {core : Str} {a b : ℕ} (h : ∃ c ∈ core, IsDigit c) :
    ∃ c ∈ latin1Dec ((List.replicate a ' ' ++ core ++ List.replicate b ' ').map
      fun c => UInt8.ofNat c.toNat), IsDigit c := by
  obtain ⟨c, hc, hd⟩ := h
  refine ⟨c, ?_, hd⟩
  unfold latin1Dec
  rw [List.mem_map]
  refine ⟨UInt8.ofNat c.toNat, ?_, ?_⟩
  · rw [List.mem_map]
    exact ⟨c, by simp [hc], rfl⟩
  · rw [UInt8.toNat_ofNat', Nat.mod_eq_of_lt (by have := hd.2; omega), Char.ofNat_toNat]

theorem encode_rpc (D : Doubles P) {fd : FieldDef} (hty : fd.ty = .flt)
    (hf : fd.floatFmt = some .rpc) {n : ℕ} (hn : n = 12) (x : P.F) :
    ((D.val x).mag < 1 / 10 ^ 9 →
      encodeVal P fd n (.flt x) = .ok ("+0.000000E+0".toList.map fun c => UInt8.ofNat c.toNat)) ∧
    (1 / 10 ^ 9 ≤ (D.val x).mag → rpcFmt.shown (D.val x).mag < 10 ^ 10 →
      ∃ b, encodeVal P fd n (.flt x) = .ok b ∧ b.length = 12 ∧
        fieldNumber b = some ⟨(D.val x).neg, rpcFmt.shown (D.val x).mag⟩ ∧
        ∃ c ∈ latin1Dec b, IsDigit c) ∧
    (10 ^ 10 ≤ rpcFmt.shown (D.val x).mag → encodeVal P fd n (.flt x) = .error .runtime) := by
  have hfc := formatCore_rpc D hf x n
  have hsmall : (D.val x).mag < 10 ^ 10 ∨ 10 ^ 10 ≤ rpcFmt.shown (D.val x).mag := by
    rcases lt_or_ge (D.val x).mag (10 ^ 10) with h | h
    · exact .inl h
    right
    have h0 : 0 < (D.val x).mag := lt_of_lt_of_le (by positivity) h
    have hlog : 10 ≤ Int.log 10 (D.val x).mag :=
      (Int.zpow_le_iff_le_log (b := 10) (by norm_num) h0).mp (by norm_num at h ⊢; linarith)
    refine le_trans ?_ (sci_shown_bounds h0 6).1
    have : (10 : ℚ) ^ (10 : ℤ) ≤ (10 : ℚ) ^ (sciParts (D.val x).mag 6).1 := by
      refine zpow_le_zpow_right₀ (by norm_num) ?_
      rcases (sciParts_pos h0 6).2.2.2 with h | h <;> omega
    exact_mod_cast this
  refine ⟨fun h => ?_, fun h hs => ?_, fun h => ?_⟩
  · have ht : rpcCoeff (D.val x) = .ok "+0.000000E+0".toList := by
      unfold rpcCoeff
      rw [if_pos h]
    rw [ht] at hfc
    have := encode_core (P := P) (core := "+0.000000E+0".toList) (n := n) (a := 0) (b := 0) hty
      (by intro c hc; revert c; unfold Visible; decide) (by simpa using hfc)
    rw [this, hn, if_pos (by decide)]
    rfl
  · have h2 : (D.val x).mag < 10 ^ 10 := by
      rcases hsmall with h | h'
      · exact h
      · exact absurd hs (not_lt.mpr h')
    rw [rpc_text h h2] at hfc
    have hlen := rpc_short h h2
    rw [if_pos hs] at hlen
    have hvis := rpc_visible (D.val x) (sciParts (D.val x).mag 6).2 (sciParts (D.val x).mag 6).1
    have hval : floatText (signText true (D.val x).neg ++ (decimals (sciParts (D.val x).mag 6).2 6 ++
        'E' :: (if (sciParts (D.val x).mag 6).1 < 0 then '-' else '+') ::
          padLeft '0' 1 (decStr (sciParts (D.val x).mag 6).1.natAbs))) =
        some ⟨(D.val x).neg, rpcFmt.shown (D.val x).mag⟩ := by
      refine floatText_sign ?_ ?_
      · obtain ⟨a, t, h, ha⟩ := decimals_head (sciParts (D.val x).mag 6).2 6
        exact ⟨a, _, by rw [h, List.cons_append], ha⟩
      · exact unsignedFloat_sci 0 _ _ _ 1 (.inr rfl)
    have hdig : ∃ c ∈ signText true (D.val x).neg ++ (decimals (sciParts (D.val x).mag 6).2 6 ++
        'E' :: (if (sciParts (D.val x).mag 6).1 < 0 then '-' else '+') ::
          padLeft '0' 1 (decStr (sciParts (D.val x).mag 6).1.natAbs)), IsDigit c := by
      obtain ⟨a, t, h, ha⟩ := decimals_head (sciParts (D.val x).mag 6).2 6
      exact ⟨a, by rw [h]; simp, ha⟩
    generalize signText true (D.val x).neg ++ (decimals (sciParts (D.val x).mag 6).2 6 ++
        'E' :: (if (sciParts (D.val x).mag 6).1 < 0 then '-' else '+') ::
          padLeft '0' 1 (decStr (sciParts (D.val x).mag 6).1.natAbs)) = core at *
    have := encode_core (P := P) (core := core) (n := n) (a := 0) (b := 0) hty hvis
      (by simpa using hfc)
    rw [if_pos (by omega)] at this
    have hne : core ≠ [] := by intro h; rw [h] at hlen; simp at hlen
    exact ⟨_, this, by simp [hlen, hn], by rw [fieldNumber_core hvis hne, hval], digit_in_bytes hdig⟩
  · by_cases h2 : (D.val x).mag < 10 ^ 10
    · have h1 : 1 / 10 ^ 9 ≤ (D.val x).mag := by
        by_contra hc
        have hn := (shown_near rpcFmt (D.nonneg x)).2 (by simp [rpcFmt])
        rw [abs_le] at hn
        have h4 : (D.val x).mag < 1 := lt_of_not_ge fun h4 => hc (by
          refine le_trans ?_ h4
          norm_num)
        have : (1 : ℚ) / 2 / 10 ^ rpcFmt.prec ≤ 1 := by
          have : rpcFmt.prec = 6 := rfl
          rw [this]; norm_num
        have h5 : 1 / 2 / 10 ^ rpcFmt.prec * (D.val x).mag ≤ 1 * (D.val x).mag :=
          mul_le_mul_of_nonneg_right this (D.nonneg x)
        norm_num at h
        linarith
      rw [rpc_text h1 h2] at hfc
      have hlen := rpc_short h1 h2
      rw [if_neg (not_lt.mpr h)] at hlen
      have hvis := rpc_visible (D.val x) (sciParts (D.val x).mag 6).2 (sciParts (D.val x).mag 6).1
      have := encode_core (P := P) (n := n) (a := 0) (b := 0) hty hvis
        (by simpa using hfc)
      rw [this, if_neg (by omega)]
    · refine encode_fail hty ?_
      rw [hfc]
      unfold rpcCoeff
      rw [if_neg, if_pos (not_lt.mp h2)]
      have := not_lt.mp h2
      norm_num at this ⊢
      linarith

/-- A coefficient read from what was written is written the same way. -/
theorem rpc_stable {x y : Flt} (hx : 1 / 10 ^ 9 ≤ x.mag) (hs : rpcFmt.shown x.mag < 10 ^ 10)
    (hxs : x.mag < 10 ^ 10) (hy : 1 / 10 ^ 9 ≤ y.mag)
    (hn : Near y ⟨x.neg, rpcFmt.shown x.mag⟩) : rpcCoeff y = rpcCoeff x := by
  have h0 : 0 < x.mag := lt_of_lt_of_le (by positivity) hx
  have hy0 : 0 < y.mag := lt_of_lt_of_le (by positivity) hy
  have happ := printf_stable (f := rpcFmt) h0.le hy0.le (by intro _; decide)
    (by intro h; cases h) hn
  have hy2 : y.mag < 10 ^ 10 := by
    obtain ⟨_, hr, _, _⟩ := sciParts_pos h0 6
    have hsh : rpcFmt.shown x.mag =
        ((sciParts x.mag 6).2 : ℚ) / 10 ^ 6 * 10 ^ (sciParts x.mag 6).1 := rfl
    have he : (sciParts x.mag 6).1 ≤ 9 := by
      have := (sci_shown_bounds h0 6).1
      rw [← hsh] at this
      have h3 : (10 : ℚ) ^ (sciParts x.mag 6).1 < (10 : ℚ) ^ (10 : ℤ) :=
        lt_of_le_of_lt this (by exact_mod_cast hs)
      have := (zpow_lt_zpow_iff_right₀ (by norm_num : (1 : ℚ) < 10)).mp h3
      omega
    have hle : rpcFmt.shown x.mag ≤ 9999999 / 10 ^ 6 * 10 ^ 9 := by
      rw [hsh]
      have a1 : ((sciParts x.mag 6).2 : ℚ) / 10 ^ 6 ≤ 9999999 / 10 ^ 6 := by
        refine div_le_div_of_nonneg_right ?_ (by positivity)
        have : (sciParts x.mag 6).2 ≤ 9999999 := by norm_num at hr; omega
        exact_mod_cast this
      have a2 : (10 : ℚ) ^ (sciParts x.mag 6).1 ≤ (10 : ℚ) ^ (9 : ℤ) :=
        zpow_le_zpow_right₀ (by norm_num) he
      have a3 : (10 : ℚ) ^ (9 : ℤ) = 10 ^ 9 := by norm_num
      rw [a3] at a2
      exact mul_le_mul a1 a2 (zpow_pos (by norm_num) _).le (by norm_num)
    obtain ⟨_, hn2⟩ := hn
    simp only at hn2
    rw [abs_le] at hn2
    norm_num at hn2 hle ⊢
    linarith
  unfold rpcCoeff
  rw [if_neg (not_lt.mpr hx), if_neg (not_le.mpr hxs), if_neg (not_lt.mpr hy),
    if_neg (not_le.mpr hy2), happ]

/-! #### Default format -/

theorem fixedLoopF_spec (x : Flt) (w k : ℕ) :
    (∃ i, i ≤ k ∧ fixedLoopF x w k = fixedTextF x i ∧ (fixedTextF x i).length ≤ w ∧
      ∀ j, i < j → j ≤ k → w < (fixedTextF x j).length) ∨
    (w < (fixedLoopF x w k).length ∧ ∀ j, j ≤ k → w < (fixedTextF x j).length) := by
  induction k with
  | zero =>
    unfold fixedLoopF
    by_cases h : (fixedTextF x 0).length ≤ w
    · exact .inl ⟨0, le_refl _, rfl, h, fun j h1 h2 => by omega⟩
    · refine .inr ⟨by omega, fun j hj => ?_⟩
      have : j = 0 := by omega
      subst this
      omega
  | succ k ih =>
    unfold fixedLoopF
    by_cases h : (fixedTextF x (k + 1)).length ≤ w
    · rw [if_pos h]
      exact .inl ⟨k + 1, le_refl _, rfl, h, fun j h1 h2 => by omega⟩
    · rw [if_neg h]
      have top : ∀ j, j ≤ k + 1 → j ≤ k ∨ j = k + 1 := fun j hj => by omega
      rcases ih with ⟨i, h1, h2, h3, h4⟩ | ⟨h1, h2⟩
      · refine .inl ⟨i, by omega, h2, h3, fun j a b => ?_⟩
        rcases top j b with b | rfl
        · exact h4 j a b
        · omega
      · refine .inr ⟨h1, fun j b => ?_⟩
        rcases top j b with b | rfl
        · exact h2 j b
        · omega

theorem fixedWidthF_ok {x : Flt} {w : ℕ} {s : Str} (h : fixedWidthF x w = .ok s) :
    2 ≤ w ∧ ∃ i, i ≤ w - 2 ∧ s = fixedTextF x i ∧ (fixedTextF x i).length ≤ w ∧
      ∀ j, i < j → j ≤ w - 2 → w < (fixedTextF x j).length := by
  unfold fixedWidthF at h
  split at h
  · cases h
  · rename_i hw
    simp only at h
    split at h
    · cases h
    · rename_i hl
      injection h with h
      rcases fixedLoopF_spec x w (w - 2) with ⟨i, h1, h2, h3, h4⟩ | ⟨h1, _⟩
      · exact ⟨by omega, i, h1, by rw [← h, h2], h3, h4⟩
      · exact absurd h1 hl

theorem fixedWidthF_of {x : Flt} {w i : ℕ} (hw : 2 ≤ w) (hi : i ≤ w - 2)
    (hl : (fixedTextF x i).length ≤ w)
    (hm : ∀ j, i < j → j ≤ w - 2 → w < (fixedTextF x j).length) :
    fixedWidthF x w = .ok (fixedTextF x i) := by
  unfold fixedWidthF
  rw [if_neg (by omega)]
  simp only
  rcases fixedLoopF_spec x w (w - 2) with ⟨k, h1, h2, h3, h4⟩ | ⟨_, h2⟩
  · have : k = i := by
      rcases Nat.lt_trichotomy k i with h | h | h
      · have := h4 i h hi; omega
      · exact h
      · have := hm k h h1; omega
    subst this
    rw [h2, if_neg (by omega)]
  · have := h2 i hi
    omega

theorem fixedTextF_length (x : Flt) (i : ℕ) : (fixedTextF x i).length =
    (if x.neg then 1 else 0) + (decimals (roundHalfEven (x.mag * 10 ^ i)) i).length := by
  unfold fixedTextF signText
  cases x.neg <;> simp
  omega

/-- Upper bound on the digits of a text that fits. -/
theorem decimals_lt {r i k : ℕ} (h : (decimals r i).length ≤ k) : r < 10 ^ k := by
  by_cases hi : i = 0
  · subst hi
    unfold decimals at h
    simp only [pow_zero, Nat.div_one, if_true, List.append_nil] at h
    have h0 := List.length_pos_iff.mpr (decStr_ne_nil r)
    exact (decStr_length_le r k (by omega)).mp h
  · have hge := decimals_length_ge r i (by omega)
    have := (decimals_length (r := r) (by omega : 0 < i) (by omega)).mp h
    exact lt_of_lt_of_le this (Nat.pow_le_pow_right (by norm_num) (by omega))

/-- A number read from what was written is written the same way. -/
theorem fixed_stable {x y : Flt} {w i : ℕ} (hx : 0 ≤ x.mag) (hy : 0 ≤ y.mag) (hw15 : w ≤ 15)
    (hw : 2 ≤ w) (hi : i ≤ w - 2) (hl : (fixedTextF x i).length ≤ w)
    (hm : ∀ j, i < j → j ≤ w - 2 → w < (fixedTextF x j).length)
    (hn : Near y ⟨x.neg, (roundHalfEven (x.mag * 10 ^ i) : ℚ) / 10 ^ i⟩) :
    fixedWidthF y w = .ok (fixedTextF x i) := by
  obtain ⟨hn1, hn2⟩ := hn
  simp only at hn1 hn2
  have hp : (0 : ℚ) < 10 ^ i := by positivity
  have hrx := roundHalfEven_near (q := x.mag * 10 ^ i) (by positivity)
  rw [fixedTextF_length] at hl
  have hr15 : roundHalfEven (x.mag * 10 ^ i) < 10 ^ 15 := by
    refine lt_of_lt_of_le (decimals_lt (k := w) (i := i) (by omega)) ?_
    exact Nat.pow_le_pow_right (by norm_num) hw15
  -- perturbation in units of decimal `j`
  have hpert : ∀ j, |y.mag * 10 ^ j - (roundHalfEven (x.mag * 10 ^ i) : ℚ) / 10 ^ i * 10 ^ j| ≤
      (roundHalfEven (x.mag * 10 ^ i) : ℚ) / 10 ^ i * 10 ^ j / 2 ^ 53 := by
    intro j
    have hpj : (0 : ℚ) < 10 ^ j := by positivity
    rw [← sub_mul, abs_mul, abs_of_pos hpj]
    calc _ ≤ _ := mul_le_mul_of_nonneg_right hn2 hpj.le
      _ = _ := by ring
  have hsame : roundHalfEven (y.mag * 10 ^ i) = roundHalfEven (x.mag * 10 ^ i) := by
    refine roundHalfEven_of_near (by positivity) ?_
    have := hpert i
    rw [div_mul_cancel₀ _ hp.ne'] at this
    refine lt_of_le_of_lt this ?_
    have h15 : (roundHalfEven (x.mag * 10 ^ i) : ℚ) < 10 ^ 15 := by exact_mod_cast hr15
    rw [div_lt_iff₀ (by positivity)]
    norm_num at h15 ⊢
    linarith
  have htext : fixedTextF y i = fixedTextF x i := by
    unfold fixedTextF
    rw [hn1, hsame]
  rw [← htext]
  refine fixedWidthF_of hw hi (by rw [fixedTextF_length, hn1, hsame]; exact hl) ?_
  intro j hij hj
  have hxj := hm j hij hj
  by_contra hcon
  rw [fixedTextF_length] at hxj hcon
  rw [hn1] at hcon
  generalize (if x.neg = true then 1 else 0) = s at *
  have hj0 : 0 < j := by omega
  have hge := decimals_length_ge (roundHalfEven (y.mag * 10 ^ j)) j hj0
  have hk : j + 2 ≤ w - s := by omega
  have hyj := (decimals_length (r := roundHalfEven (y.mag * 10 ^ j)) hj0 hk).mp (by omega)
  have hxj' : ¬ roundHalfEven (x.mag * 10 ^ j) < 10 ^ (w - s - 1) := by
    intro h
    have := (decimals_length (r := roundHalfEven (x.mag * 10 ^ j)) hj0 hk).mpr h
    omega
  generalize hr : roundHalfEven (x.mag * 10 ^ i) = r at *
  -- `y` at `j` decimals is what `x` shows, with zeros appended
  have hpji : (10 : ℚ) ^ j = 10 ^ i * 10 ^ (j - i) := by rw [← pow_add]; congr 1; omega
  have hzj : (r : ℚ) / 10 ^ i * 10 ^ j = ((r * 10 ^ (j - i) : ℕ) : ℚ) := by
    rw [hpji]; push_cast; field_simp
  have hpj := hpert j
  rw [hzj] at hpj
  have hsmall : ((r * 10 ^ (j - i) : ℕ) : ℚ) < 10 ^ 15 := by
    have hyn := roundHalfEven_near (q := y.mag * 10 ^ j) (by positivity)
    have h14 : (roundHalfEven (y.mag * 10 ^ j) : ℚ) < 10 ^ 14 := by
      have : roundHalfEven (y.mag * 10 ^ j) < 10 ^ 14 :=
        lt_of_lt_of_le hyj (Nat.pow_le_pow_right (by norm_num) (by omega))
      exact_mod_cast this
    rw [abs_le] at hyn hpj
    generalize (roundHalfEven (y.mag * 10 ^ j) : ℚ) = u at *
    generalize ((r * 10 ^ (j - i) : ℕ) : ℚ) = v at *
    norm_num at h14 hpj ⊢
    linarith
  have hrj : roundHalfEven (y.mag * 10 ^ j) = r * 10 ^ (j - i) := by
    refine roundHalfEven_of_near (by positivity) (lt_of_le_of_lt hpj ?_)
    rw [div_lt_iff₀ (by positivity)]
    norm_num at hsmall ⊢
    linarith
  rw [hrj] at hyj
  -- so `x` is below the bound at `i` decimals, but not at `j`
  have hN : 10 ^ (w - s - 1) = 10 ^ (w - s - 1 - (j - i)) * 10 ^ (j - i) := by
    rw [← Nat.pow_add]; congr 1; omega
  rw [hN] at hyj hxj'
  have hlt : r < 10 ^ (w - s - 1 - (j - i)) := Nat.lt_of_mul_lt_mul_right hyj
  generalize 10 ^ (w - s - 1 - (j - i)) = N at *
  have hxn := roundHalfEven_near (q := x.mag * 10 ^ j) (by positivity)
  have h1 : ((N * 10 ^ (j - i) : ℕ) : ℚ) ≤ roundHalfEven (x.mag * 10 ^ j) := by
    exact_mod_cast not_lt.mp hxj'
  have h2 : (r : ℚ) + 1 ≤ N := by exact_mod_cast hlt
  rw [abs_le] at hxn hrx
  have hM : (2 : ℚ) ≤ 10 ^ (j - i) := by
    calc (2 : ℚ) ≤ 10 ^ 1 := by norm_num
      _ ≤ 10 ^ (j - i) := pow_le_pow_right₀ (by norm_num) (by omega)
  push_cast at h1
  rw [show x.mag * 10 ^ j = x.mag * (10 ^ i * 10 ^ (j - i)) by rw [hpji]] at hxn h1
  generalize (10 : ℚ) ^ (j - i) = M at *
  -- x * 10^i ≤ r + 1/2 ≤ N - 1/2, but N * M - 1/2 ≤ x * 10^i * M
  have h3 : x.mag * 10 ^ i * M ≤ (N - 1 / 2) * M := by
    refine mul_le_mul_of_nonneg_right ?_ (by linarith)
    linarith
  have e : x.mag * (10 ^ i * M) = x.mag * 10 ^ i * M := by ring
  rw [e] at hxn h1
  linarith

theorem fixedTextF_visible (x : Flt) (i : ℕ) : ∀ c ∈ fixedTextF x i, Visible c := by
  intro c hc
  unfold fixedTextF at hc
  rw [List.mem_append] at hc
  rcases hc with hc | hc
  · exact sign_visible _ _ c hc
  · exact num_visible (decimals_num _ _ c hc)

theorem fixedTextF_value (x : Flt) (i : ℕ) : floatText (fixedTextF x i) =
    some ⟨x.neg, (roundHalfEven (x.mag * 10 ^ i) : ℚ) / 10 ^ i⟩ := by
  unfold fixedTextF
  refine floatText_sign (decimals_head _ _) ?_
  have := unsignedFloat_fixed 0 (roundHalfEven (x.mag * 10 ^ i)) i
  simpa using this

theorem encode_fixed (D : Doubles P) {fd : FieldDef} (hty : fd.ty = .flt)
    (hf : fd.floatFmt = some .fixed) {n : ℕ} {x : P.F} {b : Bytes}
    (h : encodeVal P fd n (.flt x) = .ok b) :
    2 ≤ n ∧ ∃ i, i ≤ n - 2 ∧ (fixedTextF (D.val x) i).length ≤ n ∧
      (∀ j, i < j → j ≤ n - 2 → n < (fixedTextF (D.val x) j).length) ∧
      b = (fixedTextF (D.val x) i ++ List.replicate (n - (fixedTextF (D.val x) i).length) ' ').map
        fun c => UInt8.ofNat c.toNat := by
  have hfc := formatCore_fixed D hty hf x n
  cases ho : fixedWidthF (D.val x) n with
  | error e =>
    rw [ho] at hfc
    rw [encode_fail hty hfc] at h
    cases h
  | ok s =>
    rw [ho] at hfc
    obtain ⟨h2, i, hi, rfl, hl, hm⟩ := fixedWidthF_ok ho
    refine ⟨h2, i, hi, hl, hm, ?_⟩
    have := encode_core (P := P) (n := n) (a := 0) (b := 0) hty (fixedTextF_visible (D.val x) i)
      (by simpa using hfc)
    rw [h, if_pos (by omega)] at this
    injection this with this

/-- A content with a digit in it that stands for a number is never taken for a missing value. -/
theorem reads_number {fd : FieldDef} (hwf : fd.wf = true) (hty : fd.ty = .flt) {b : Bytes}
    (hd : ∃ c ∈ latin1Dec b, IsDigit c) {y : P.F} (hy : pyFloatB P b = .ok y) :
    TextReads P fd b (.flt y) := by
  obtain ⟨c, hc, hdig⟩ := hd
  have henc : latin1Enc (latin1Dec b) = .ok b := latin1Enc_dec b
  refine ⟨fun _ => ?_, ?_⟩
  · obtain ⟨h1, h2⟩ := optChar_not_digit hwf hdig
    exact isFill_false_of_mem henc hc h1 h2
  · simp only [hty]
    refine ⟨?_, hy⟩
    intro h0
    unfold rstripB at h0
    rw [rstripBy_nil_iff, List.all_eq_true] at h0
    unfold latin1Dec at hc
    rw [List.mem_map] at hc
    obtain ⟨x, hx, rfl⟩ := hc
    have := h0 x hx
    rw [← toNat_ofNat_lt (show x.toNat < 256 from x.toNat_lt)] at hdig
    have hv := visible_byte (digit_visible hdig)
    rw [toNat_ofNat_lt x.toNat_lt, toNat_ofNat_lt x.toNat_lt] at hv
    rw [UInt8.ofNat_toNat] at hv
    rw [this] at hv
    cases hv

/-! ### C62 -/

/-! ### The text of a format -/

/-- The text of a format as C writes it: flags, width, precision, an optional `l`, letter. -/
def CFmt.spell (f : CFmt) (l : Bool) : Str :=
  '%' :: ((if f.left then ['-'] else []) ++ ((if f.plus then ['+'] else []) ++
    ((if f.zero then ['0'] else []) ++ ((if f.width = 0 then [] else decStr f.width) ++
      ('.' :: (decStr f.prec ++ ((if l then ['l'] else []) ++ [f.exp.getD 'f'])))))))

theorem takeNat_digits {s : Str} (hs : ∀ c ∈ s, IsDigit c) (acc : ℕ) (b : Bool) (c : Char) (r : Str)
    (hc : c.isDigit = false) :
    ∃ v b', takeNat acc b (s ++ c :: r) = (v, b', c :: r) ∧
      parseDigits acc true (s.map Char.toNat) = some v := by
  induction s generalizing acc b with
  | nil => exact ⟨acc, b, by simp [takeNat, hc], by simp [parseDigits]⟩
  | cons a s ih =>
    obtain ⟨v, b', h1, h2⟩ := ih (fun c h => hs c (List.mem_cons_of_mem _ h))
      (acc * 10 + (a.toNat - 48)) true
    have ha := hs a List.mem_cons_self
    refine ⟨v, b', ?_, ?_⟩
    · rw [List.cons_append, takeNat, if_pos (by
        unfold IsDigit at ha
        simp only [Char.isDigit, Bool.and_eq_true, decide_eq_true_eq]
        exact ⟨ha.1, ha.2⟩)]
      exact h1
    · rw [List.map_cons, parseDigits_digit _ _ _ _ ha]
      exact h2

theorem takeNat_decStr (n : ℕ) (b : Bool) (c : Char) (r : Str) (hc : c.isDigit = false) :
    ∃ b', takeNat 0 b (decStr n ++ c :: r) = (n, b', c :: r) := by
  obtain ⟨v, b', h1, h2⟩ := takeNat_digits (decStr_digits n) 0 b c r hc
  have := parseDigits_decStr n 0 true []
  rw [List.append_nil, h2] at this
  simp only [Nat.zero_mul, Nat.zero_add, parseDigits, if_true, Option.some.injEq] at this
  subst this
  exact ⟨b', h1⟩

theorem decAux_head (f n : ℕ) (hf : n < 10 ^ f) (hn : 0 < n) :
    ∃ k, 0 < k ∧ k < 10 ∧ ∃ r, decAux f n = digitChar k :: r := by
  induction f generalizing n with
  | zero => simp at hf; omega
  | succ f ih =>
    unfold decAux
    split
    · rename_i h
      exact ⟨n, hn, h, [], rfl⟩
    · rename_i h
      obtain ⟨k, h1, h2, r, hr⟩ := ih (n / 10) (by
        rw [Nat.pow_succ] at hf
        exact Nat.div_lt_of_lt_mul (by omega)) (by omega)
      exact ⟨k, h1, h2, _, by rw [hr]; rfl⟩

/-- Nothing more is taken as a flag. -/
def NotFlag (s : Str) : Prop := ∀ c r, s = c :: r → c ≠ '-' ∧ c ≠ '+' ∧ c ≠ '0'

theorem takeFlags_stop (f : CFmt) {s : Str} (h : NotFlag s) : takeFlags f s = (f, s) := by
  unfold takeFlags
  split
  · exact absurd rfl (h _ _ rfl).1
  · exact absurd rfl (h _ _ rfl).2.1
  · exact absurd rfl (h _ _ rfl).2.2
  · rfl

theorem width_notFlag (w : ℕ) (r : Str) :
    NotFlag ((if w = 0 then [] else decStr w) ++ '.' :: r) := by
  intro c t h
  split at h
  · simp only [List.nil_append, List.cons.injEq] at h
    obtain ⟨rfl, _⟩ := h
    decide
  · rename_i hw
    obtain ⟨k, h1, h2, t', ht⟩ := decAux_head _ w (lt_pow_log2_succ w) (by omega)
    unfold decStr at h
    rw [ht] at h
    simp only [List.cons_append, List.cons.injEq] at h
    obtain ⟨rfl, _⟩ := h
    have : ∀ k : Fin 10, 0 < k.1 → digitChar k.1 ≠ '-' ∧ digitChar k.1 ≠ '+' ∧ digitChar k.1 ≠ '0' := by
      decide
    exact this ⟨k, h2⟩ h1

/-- C62, format strings: the flags, width, precision and letter with which floats are written are
those the format string spells, whatever they are. -/
theorem C62_format_text (f : CFmt) (l : Bool)
    (he : f.exp = none ∨ f.exp = some 'e' ∨ f.exp = some 'E') : CFmt.ofText (f.spell l) = some f := by
  obtain ⟨left, plus, zero, width, prec, exp⟩ := f
  simp only at he
  let tail : Str := decStr prec ++ ((if l then ['l'] else []) ++ [exp.getD 'f'])
  have hflags : takeFlags ⟨false, false, false, 0, 6, none⟩
      ((if left then ['-'] else []) ++ ((if plus then ['+'] else []) ++
        ((if zero then ['0'] else []) ++ ((if width = 0 then [] else decStr width) ++ '.' :: tail)))) =
      (⟨left, plus, zero, 0, 6, none⟩, (if width = 0 then [] else decStr width) ++ '.' :: tail) := by
    have hs := fun g => takeFlags_stop g (width_notFlag width tail)
    cases left <;> cases plus <;> cases zero <;>
      simp only [if_true, Bool.false_eq_true, if_false, List.nil_append, List.cons_append, takeFlags, hs]
  have hw : ∃ b, takeNat 0 false ((if width = 0 then [] else decStr width) ++ '.' :: tail) =
      (width, b, '.' :: tail) := by
    split
    · rename_i h
      subst h
      exact ⟨false, by simp [takeNat]⟩
    · exact takeNat_decStr width false '.' tail (by decide)
  obtain ⟨b, hw⟩ := hw
  have hp : ∃ b, takeNat 0 false tail = (prec, b, (if l then ['l'] else []) ++ [exp.getD 'f']) := by
    rcases he with rfl | rfl | rfl <;> cases l <;>
      exact takeNat_decStr prec false _ _ (by decide)
  obtain ⟨b', hp⟩ := hp
  have hall : CFmt.ofText (CFmt.spell ⟨left, plus, zero, width, prec, exp⟩ l) =
      takeConv ⟨left, plus, zero, width, prec, none⟩ ((if l then ['l'] else []) ++ [exp.getD 'f']) := by
    unfold CFmt.ofText CFmt.spell
    simp only
    simp only [tail] at hflags hw hp
    rw [hflags]
    simp only
    rw [hw]
    simp only
    rw [hp]
  rw [hall]
  rcases he with rfl | rfl | rfl <;> cases l <;> rfl

/-- Formats of the tables, spelt. -/
example : CFmt.spell ⟨false, true, true, 9, 2, none⟩ true = "%+09.2lf".toList ∧
    CFmt.spell ⟨false, false, false, 0, 6, some 'E'⟩ false = "%.6E".toList ∧
    CFmt.spell ⟨true, false, true, 13, 7, some 'e'⟩ false = "%-013.7e".toList := by decide +kernel

/-- C62.  A float in a field of `n` characters with a format `f`: if there is room for it, `n`
characters are written that stand for a number with the sign of the value, at most half a unit of the
last digit away from it.  If there is no room, writing raises; nothing is cut off. -/
theorem C62_printf (D : Doubles P) {fd : FieldDef} (hty : fd.ty = .flt) {f : CFmt}
    (hf : fd.floatFmt = some (.printf f)) {n : ℕ} (hw : f.width ≤ n) (hp : 0 < f.prec) (x : P.F) :
    (f.fits (D.val x) n → ∃ b z, encodeVal P fd n (.flt x) = .ok b ∧ b.length = n ∧
      fieldNumber b = some z ∧ z.neg = (D.val x).neg ∧
      (f.exp = none → |z.mag - (D.val x).mag| ≤ 1 / 2 / 10 ^ f.prec) ∧
      (f.exp ≠ none → |z.mag - (D.val x).mag| ≤ 1 / 2 / 10 ^ f.prec * (D.val x).mag)) ∧
    (¬ f.fits (D.val x) n → encodeVal P fd n (.flt x) = .error .runtime) := by
  obtain ⟨h1, h2⟩ := encode_printf D hty hf hw hp x
  refine ⟨fun h => ?_, h2⟩
  obtain ⟨b, a1, a2, a3, _⟩ := h1 h
  obtain ⟨n1, n2⟩ := shown_near f (D.nonneg x)
  exact ⟨b, _, a1, a2, a3, rfl, n1, n2⟩

/-- C62.  RPC coefficients.  Below 1e-9 zero is written.  Otherwise the 12 characters stand for a
number with the sign of the coefficient and 7 correct digits, unless that number would be 1e10 or
more: then writing raises. -/
theorem C62_rpc (D : Doubles P) {fd : FieldDef} (hty : fd.ty = .flt)
    (hf : fd.floatFmt = some .rpc) {n : ℕ} (hn : n = 12) (x : P.F) :
    ((D.val x).mag < 1 / 10 ^ 9 →
      ∃ b, encodeVal P fd n (.flt x) = .ok b ∧ b.length = 12 ∧ fieldNumber b = some ⟨false, 0⟩) ∧
    (1 / 10 ^ 9 ≤ (D.val x).mag → rpcFmt.shown (D.val x).mag < 10 ^ 10 →
      ∃ b z, encodeVal P fd n (.flt x) = .ok b ∧ b.length = 12 ∧ fieldNumber b = some z ∧
        z.neg = (D.val x).neg ∧ |z.mag - (D.val x).mag| ≤ 1 / 2 / 10 ^ 6 * (D.val x).mag) ∧
    (10 ^ 10 ≤ rpcFmt.shown (D.val x).mag → encodeVal P fd n (.flt x) = .error .runtime) := by
  obtain ⟨h1, h2, h3⟩ := encode_rpc D hty hf hn x
  refine ⟨fun h => ⟨_, h1 h, by decide, by decide +kernel⟩, fun h hs => ?_, h3⟩
  obtain ⟨b, a1, a2, a3, _⟩ := h2 h hs
  exact ⟨b, _, a1, by rw [a2], a3, rfl, (shown_near rpcFmt (D.nonneg x)).2 (by simp [rpcFmt])⟩

/-- C62.  Without a format: `n` characters that stand for a number with the sign of the value, at
most half a unit of the last decimal `i` away; no more decimals would fit. -/
theorem C62_default (D : Doubles P) {fd : FieldDef} (hty : fd.ty = .flt)
    (hf : fd.floatFmt = some .fixed) {n : ℕ} {x : P.F} {b : Bytes}
    (h : encodeVal P fd n (.flt x) = .ok b) :
    b.length = n ∧ ∃ i z, fieldNumber b = some z ∧ z.neg = (D.val x).neg ∧
      |z.mag - (D.val x).mag| ≤ 1 / 2 / 10 ^ i ∧
      ∀ j, i < j → j ≤ n - 2 → n < (fixedTextF (D.val x) j).length := by
  obtain ⟨_, i, _, hl, hm, rfl⟩ := encode_fixed D hty hf h
  refine ⟨by simp; omega, i, ⟨(D.val x).neg, (roundHalfEven ((D.val x).mag * 10 ^ i) : ℚ) / 10 ^ i⟩,
    ?_, rfl, ?_, hm⟩
  · have hne : fixedTextF (D.val x) i ≠ [] := by
      obtain ⟨a, t, h, _⟩ := decimals_head (roundHalfEven ((D.val x).mag * 10 ^ i)) i
      unfold fixedTextF
      rw [h]
      simp
    have := fieldNumber_core (fixedTextF_visible (D.val x) i) hne 0
      (n - (fixedTextF (D.val x) i).length)
    rw [fixedTextF_value] at this
    simpa using this
  · have := (shown_near ⟨false, false, false, 0, i, none⟩ (D.nonneg x)).1 rfl
    exact this

theorem fixedLoopF_short {x : Flt} {w j : ℕ} (hl : (fixedTextF x j).length ≤ w) :
    ∀ k, j ≤ k → (fixedLoopF x w k).length ≤ w
  | 0, hj => by
    obtain rfl : j = 0 := by omega
    exact hl
  | k + 1, hj => by
    unfold fixedLoopF
    split
    · assumption
    · rename_i hn
      have : j ≠ k + 1 := by
        rintro rfl
        exact hn hl
      exact fixedLoopF_short hl k (by omega)

/-- C62.  Without a format: writing into a field of at least two characters raises exactly if the
number is too long with any number of decimals, none included. -/
theorem C62_default_raises (D : Doubles P) {fd : FieldDef} (hty : fd.ty = .flt)
    (hf : fd.floatFmt = some .fixed) {n : ℕ} (hn : 2 ≤ n) (x : P.F) :
    (∃ e, encodeVal P fd n (.flt x) = .error e) ↔
      ∀ j, j ≤ n - 2 → n < (fixedTextF (D.val x) j).length := by
  constructor
  · rintro ⟨e, he⟩ j hj
    by_contra hl
    have hs := fixedLoopF_short (by omega : (fixedTextF (D.val x) j).length ≤ n) (n - 2) hj
    have ho : fixedWidthF (D.val x) n = .ok (fixedLoopF (D.val x) n (n - 2)) := by
      unfold fixedWidthF
      rw [if_neg (by omega)]
      exact if_neg (by omega)
    obtain ⟨_, i, _, hi, hl', _⟩ := fixedWidthF_ok ho
    have hfc := formatCore_fixed D hty hf x n
    rw [ho, hi] at hfc
    have := encode_core (P := P) (n := n) (a := 0) (b := 0) hty (fixedTextF_visible (D.val x) i)
      (by simpa using hfc)
    rw [he, if_pos (by omega)] at this
    cases this
  · intro h
    cases he : encodeVal P fd n (.flt x) with
    | error e => exact ⟨e, rfl⟩
    | ok b =>
      obtain ⟨_, i, hi, hl, _⟩ := encode_fixed D hty hf he
      have := h i hi
      omega

/-- Conditions on a float field: enough room for the format, and at most as many digits as a double
keeps (16 digits for the numbers with 15 decimals). -/
def FieldDef.floatOk (fd : FieldDef) : Bool :=
  fd.ty != .flt || (fd.kind == .plain && fd.sizeOffset == 0 &&
    match fd.size, fd.floatFmt with
    | .const n, some .fixed => decide (2 ≤ n) && decide (n ≤ 15)
    | .const n, some .rpc => n == 12
    | .const n, some (.printf f) =>
      decide (f.width ≤ n) && decide (0 < f.prec) && decide (f.prec ≤ 15) &&
        match f.exp with
        | none => decide (f.prec + 2 + (if f.plus then 1 else 0) ≤ n) &&
            (decide (n ≤ 16 + (if f.plus then 1 else 0)) || f.prec == 15)
        | some _ => decide (f.prec + 6 + (if f.plus then 1 else 0) ≤ n) && decide (f.prec ≤ 14)
    | _, _ => false)

theorem tables_floatOk : ∀ t ∈ Tables.all, t.2.allFields FieldDef.floatOk = true := by
  decide +kernel

/-- C62.  Every float field of every shipped table has a fixed size and one of the formats above,
with room for it. -/
theorem C62_shipped {t : String × Desc} (ht : t ∈ Tables.all) {m : ℕ} {fi : FInfo}
    (hm : t.2.tab[m]? = some fi) (hty : fi.fd.ty = .flt) :
    ∃ n, fi.fd.size = .const n ∧ fi.fd.sizeOffset = 0 ∧ fi.fd.kind = .plain ∧
      ((fi.fd.floatFmt = some .fixed ∧ 2 ≤ n ∧ n ≤ 15) ∨
       (fi.fd.floatFmt = some .rpc ∧ n = 12) ∨
       ∃ f, fi.fd.floatFmt = some (.printf f) ∧ f.width ≤ n ∧ 0 < f.prec ∧ f.prec ≤ 15 ∧
         (f.exp = none → f.prec + 2 + (if f.plus then 1 else 0) ≤ n ∧
           (n ≤ 16 + (if f.plus then 1 else 0) ∨ f.prec = 15)) ∧
         (f.exp ≠ none → f.prec + 6 + (if f.plus then 1 else 0) ≤ n ∧ f.prec ≤ 14)) := by
  have h := Desc.allFields_get (tables_floatOk t ht) hm
  unfold FieldDef.floatOk at h
  simp only [hty, bne_self_eq_false, Bool.false_or, Bool.and_eq_true, beq_iff_eq] at h
  obtain ⟨⟨hk, ho⟩, h⟩ := h
  split at h
  · rename_i n hs hf
    rw [Bool.and_eq_true, decide_eq_true_eq, decide_eq_true_eq] at h
    exact ⟨n, hs, ho, hk, .inl ⟨hf, h⟩⟩
  · rename_i n hs hf
    exact ⟨n, hs, ho, hk, .inr (.inl ⟨hf, by simpa using h⟩)⟩
  · rename_i n f hs hf
    simp only [Bool.and_eq_true, decide_eq_true_eq] at h
    obtain ⟨⟨⟨h1, h2⟩, h3⟩, h4⟩ := h
    refine ⟨n, hs, ho, hk, .inr (.inr ⟨f, hf, h1, h2, h3, ?_⟩)⟩
    cases he : f.exp with
    | none =>
      simp only [he, Bool.and_eq_true, Bool.or_eq_true, decide_eq_true_eq, beq_iff_eq] at h4
      exact ⟨fun _ => h4, fun h => absurd rfl h⟩
    | some c =>
      simp only [he, Bool.and_eq_true, decide_eq_true_eq] at h4
      exact ⟨(fun h => by cases h), fun _ => h4⟩
  · cases h

/-- C62.  A float of a shipped field that has been written is read back as a float that is written
as the very same characters: only the first write rounds.  (For the quaternion components with 15
decimals this is shown up to magnitude 4.) -/
theorem C62_stable (D : Doubles P) {t : String × Desc} (ht : t ∈ Tables.all) {m : ℕ} {fi : FInfo}
    (hm : t.2.tab[m]? = some fi) (hty : fi.fd.ty = .flt) {n : ℕ} (hsz : fi.fd.size = .const n)
    {x : P.F} (ho : Ordinary (D.val x).mag)
    (hq : ∀ f, fi.fd.floatFmt = some (.printf f) → f.prec = 15 → (D.val x).mag ≤ 4)
    {b : Bytes} (h : encodeVal P fi.fd n (.flt x) = .ok b) :
    ∃ y, pyFloatB P b = .ok y ∧ TextReads P fi.fd b (.flt y) ∧
      encodeVal P fi.fd n (.flt y) = .ok b := by
  have hwf := Desc.allFields_get (tables_wf t ht) hm
  obtain ⟨n', hsz', _, _, hcase⟩ := C62_shipped ht hm hty
  rw [hsz] at hsz'
  injection hsz' with hnn
  subst hnn
  rcases hcase with ⟨hf, hn2, hn15⟩ | ⟨hf, hn⟩ | ⟨f, hf, hw, hp, hp15, hfix, hsci⟩
  · -- default format
    obtain ⟨hb, i, z, hz, hzn, _, _⟩ := C62_default D hty hf h
    obtain ⟨_, k, hk, hl, hmax, hbk⟩ := encode_fixed D hty hf h
    have hvis := fixedTextF_visible (D.val x) k
    have hne : fixedTextF (D.val x) k ≠ [] := by
      obtain ⟨a, t, h, _⟩ := decimals_head (roundHalfEven ((D.val x).mag * 10 ^ k)) k
      unfold fixedTextF
      rw [h]
      simp
    have hnum : fieldNumber b =
        some ⟨(D.val x).neg, (roundHalfEven ((D.val x).mag * 10 ^ k) : ℚ) / 10 ^ k⟩ := by
      have := fieldNumber_core hvis hne 0 (n - (fixedTextF (D.val x) k).length)
      rw [fixedTextF_value] at this
      rw [hbk]
      simpa using this
    have hord := shown_ordinary ⟨false, false, false, 0, k, none⟩ (by show k ≤ 20; omega)
      (D.nonneg x) ho
    obtain ⟨y, hy, hnear, _⟩ := D.read hnum hord
    have hst := fixed_stable (D.nonneg x) (D.nonneg y) hn15 hn2 hk hl hmax hnear
    refine ⟨y, hy, reads_number hwf hty ?_ hy, ?_⟩
    · rw [hbk]
      have hd : ∃ c ∈ fixedTextF (D.val x) k, IsDigit c := by
        obtain ⟨a, t, h, ha⟩ := decimals_head (roundHalfEven ((D.val x).mag * 10 ^ k)) k
        exact ⟨a, by unfold fixedTextF; rw [h]; simp, ha⟩
      have := digit_in_bytes (a := 0) (b := n - (fixedTextF (D.val x) k).length) hd
      simpa using this
    · have hfc := formatCore_fixed D hty hf y n
      rw [hst] at hfc
      have := encode_core (P := P) (n := n) (a := 0) (b := 0) hty hvis (by simpa using hfc)
      rw [this, if_pos (by omega), hbk]
      simp
  · -- RPC coefficients
    obtain ⟨e1, e2, e3⟩ := encode_rpc D hty hf hn x
    by_cases hsm : (D.val x).mag < 1 / 10 ^ 9
    · rw [e1 hsm] at h
      injection h with h
      have hnum : fieldNumber b = some ⟨false, 0⟩ := by rw [← h]; decide +kernel
      obtain ⟨y, hy, hnear, _⟩ := D.read hnum (.inl rfl)
      have hy0 : (D.val y).mag = 0 := by
        have := hnear.2
        simp at this
        exact this
      refine ⟨y, hy, reads_number hwf hty ?_ hy, ?_⟩
      · rw [← h]
        exact ⟨'0', by decide +kernel, by unfold IsDigit; decide⟩
      · rw [(encode_rpc D hty hf hn y).1 (by rw [hy0]; positivity), h]
    · have hge := not_lt.mp hsm
      have hlt : rpcFmt.shown (D.val x).mag < 10 ^ 10 := by
        by_contra hc
        rw [e3 (not_lt.mp hc)] at h
        cases h
      obtain ⟨b', a1, a2, a3, a4⟩ := e2 hge hlt
      rw [a1] at h
      injection h with h
      subst h
      have hx0 : 0 < (D.val x).mag := lt_of_lt_of_le (by positivity) hge
      have hxs : (D.val x).mag < 10 ^ 10 := by
        by_contra hc
        have : formatCore P fi.fd (.flt x) n = .error .runtime := by
          rw [formatCore_rpc D hf x n]
          unfold rpcCoeff
          rw [if_neg hsm, if_pos (not_lt.mp hc)]
        rw [encode_fail hty this] at a1
        cases a1
      have hsge : 1 / 10 ^ 9 ≤ rpcFmt.shown (D.val x).mag := by
        refine le_trans ?_ (sci_shown_bounds hx0 6).1
        have := (rpc_exponent hge hxs).1
        have h3 : (10 : ℚ) ^ (-9 : ℤ) ≤ (10 : ℚ) ^ (sciParts (D.val x).mag 6).1 :=
          zpow_le_zpow_right₀ (by norm_num) this
        refine le_trans ?_ h3
        norm_num
      have hord := shown_ordinary rpcFmt (by decide) (D.nonneg x) ho
      obtain ⟨y, hy, hnear, hmon⟩ := D.read a3 hord
      have hst := rpc_stable hge hlt hxs (hmon hsge) hnear
      refine ⟨y, hy, reads_number hwf hty a4 hy, ?_⟩
      have f1 := formatCore_rpc D hf x n
      have f2 := formatCore_rpc D hf y n
      rw [hst, ← f1] at f2
      rw [encode_congr hty f2, a1]
  · -- printf
    obtain ⟨e1, e2⟩ := encode_printf D hty hf hw hp x
    have hfits : f.fits (D.val x) n := by
      by_contra hc
      rw [e2 hc] at h
      cases h
    obtain ⟨b', a1, a2, a3, a4⟩ := e1 hfits
    rw [a1] at h
    injection h with h
    subst h
    have hord := shown_ordinary f (by omega) (D.nonneg x) ho
    obtain ⟨y, hy, hnear, _⟩ := D.read a3 hord
    have hst : f.apply (D.val y) = f.apply (D.val x) := by
      refine printf_stable (D.nonneg x) (D.nonneg y) (fun h => (hsci h).2) ?_ hnear
      intro he
      rcases (hfix he).2 with hd | hd
      · unfold CFmt.fits at hfits
        simp only [he] at hfits
        obtain ⟨g1, g2⟩ := hfits
        have hsg : (if f.plus then 1 else 0) ≤ f.signs (D.val x) := by
          unfold CFmt.signs
          cases (D.val x).neg <;> cases f.plus <;> simp
        have : f.shown (D.val x).mag * 10 ^ f.prec < 10 ^ 15 := by
          calc _ < (10 : ℚ) ^ (n - f.signs (D.val x) - 1 - f.prec) * 10 ^ f.prec :=
                mul_lt_mul_of_pos_right g2 (by positivity)
            _ = 10 ^ (n - f.signs (D.val x) - 1 - f.prec + f.prec) := by rw [← pow_add]
            _ ≤ 10 ^ 15 := pow_le_pow_right₀ (by norm_num) (by omega)
        refine lt_trans this (by norm_num)
      · have h4 := hq f hf hd
        have hnr := (shown_near f (D.nonneg x)).1 he
        rw [abs_le, hd] at hnr
        rw [hd]
        norm_num at hnr ⊢
        linarith
    refine ⟨y, hy, reads_number hwf hty a4 hy, ?_⟩
    have f1 := (formatCore_printf D hf x n).1
    have f2 := (formatCore_printf D hf y n).1
    rw [hst, ← f1] at f2
    rw [encode_congr hty f2, a1]

/-- C62 (finding).  A format that already needs the whole field for a number without sign leaves no
room for a minus sign: no negative number at all (and no negative zero) can be written. -/
theorem C62_no_negative (D : Doubles P) {fd : FieldDef} (hty : fd.ty = .flt) {f : CFmt}
    (hf : fd.floatFmt = some (.printf f)) {n : ℕ} (hw : f.width ≤ n) (hp : 0 < f.prec)
    (hn : n ≤ f.prec + 2 + if f.exp = none then 0 else 4) {x : P.F} (hx : (D.val x).neg = true) :
    encodeVal P fd n (.flt x) = .error .runtime := by
  refine (C62_printf D hty hf hw hp x).2 ?_
  unfold CFmt.fits CFmt.signs
  rw [hx]
  cases he : f.exp <;> simp only [he] at hn ⊢ <;> simp at hn ⊢ <;> omega

/-- A field of a table with the given name, a float formatted by `f` in `n` characters. -/
def HasFloat (d : Desc) (nm : Name) (n : ℕ) (f : CFmt) (fi : FInfo) : Prop :=
  ∃ m, resolve d.tab nm = some m ∧ d.tab[m]? = some fi ∧ fi.fd.ty = .flt ∧
    fi.fd.size = .const n ∧ fi.fd.floatFmt = some (.printf f)

instance (d : Desc) (nm : Name) (n : ℕ) (f : CFmt) :
    Decidable (∃ fi, HasFloat d nm n f fi) :=
  match h : resolve d.tab nm with
  | none => .isFalse (by rintro ⟨_, m, h', _⟩; rw [h] at h'; cases h')
  | some m =>
    match h2 : d.tab[m]? with
    | none => .isFalse (by
        rintro ⟨_, m', h', h3, _⟩
        rw [h] at h'; injection h' with h'; subst h'; rw [h2] at h3; cases h3)
    | some fi =>
      if h3 : fi.fd.ty = .flt ∧ fi.fd.size = .const n ∧ fi.fd.floatFmt = some (.printf f) then
        .isTrue ⟨fi, m, h, h2, h3⟩
      else .isFalse (by
        rintro ⟨fi', m', h', h4, h5⟩
        rw [h] at h'; injection h' with h'; subst h'
        rw [h2] at h4; injection h4 with h4; subst h4
        exact h3 h5)

/-- C62 (finding).  The distortion coefficients of SENSRB: 12 characters, format `%08le`.  No
negative coefficient can be written; writing raises. -/
theorem C62_sensrb_distortion (D : Doubles P) : ∀ nm ∈ [n!"radial_distort_1",
    n!"radial_distort_2", n!"radial_distort_3", n!"decent_distort_1", n!"decent_distort_2",
    n!"affinity_distort_1", n!"affinity_distort_2"],
    ∃ fi, HasFloat Tables.t_tre_sensrb nm 12 ⟨false, false, true, 8, 6, some 'e'⟩ fi ∧
      ∀ x, (D.val x).neg = true → encodeVal P fi.fd 12 (.flt x) = .error .runtime := by
  have h : ∀ nm ∈ [n!"radial_distort_1",
    n!"radial_distort_2", n!"radial_distort_3", n!"decent_distort_1", n!"decent_distort_2",
    n!"affinity_distort_1", n!"affinity_distort_2"],
    ∃ fi, HasFloat Tables.t_tre_sensrb nm 12 ⟨false, false, true, 8, 6, some 'e'⟩ fi := by
    decide +kernel
  intro nm hnm
  obtain ⟨fi, hfi⟩ := h nm hnm
  refine ⟨fi, hfi, fun x hx => ?_⟩
  obtain ⟨m, _, _, hty, _, hf⟩ := hfi
  exact C62_no_negative D (n := 12) hty hf (by decide) (by decide) (by decide) hx

/-- C62 (finding).  The focal length and the metrics of the detector in SENSRB: 8 characters, format
`%08lf` (six decimals).  No number of magnitude 10 or more can be written; writing raises. -/
theorem C62_sensrb_focal_length (D : Doubles P) : ∀ nm ∈ [n!"row_metric", n!"column_metric",
    n!"focal_length"],
    ∃ fi, HasFloat Tables.t_tre_sensrb nm 8 ⟨false, false, true, 8, 6, none⟩ fi ∧
      ∀ x, 10 ≤ (D.val x).mag → encodeVal P fi.fd 8 (.flt x) = .error .runtime := by
  have h : ∀ nm ∈ [n!"row_metric", n!"column_metric", n!"focal_length"],
    ∃ fi, HasFloat Tables.t_tre_sensrb nm 8 ⟨false, false, true, 8, 6, none⟩ fi := by
    decide +kernel
  intro nm hnm
  obtain ⟨fi, hfi⟩ := h nm hnm
  refine ⟨fi, hfi, fun x hx => ?_⟩
  obtain ⟨m, _, _, hty, _, hf⟩ := hfi
  refine (C62_printf D (n := 8) hty hf (by decide) (by decide) x).2 ?_
  rintro ⟨h1, h2⟩
  have hs := (shown_near ⟨false, false, true, 8, 6, none⟩ (D.nonneg x)).1 rfl
  have h3 : (10 : ℚ) ^ (8 - (CFmt.signs ⟨false, false, true, 8, 6, none⟩ (D.val x)) - 1 - 6) ≤
      10 ^ 1 := pow_le_pow_right₀ (by norm_num) (by omega)
  simp only at h2
  unfold CFmt.shown at h2
  simp only at h2
  have h4 := lt_of_lt_of_le h2 h3
  rw [div_lt_iff₀ (by positivity)] at h4
  have h5 : roundHalfEven ((D.val x).mag * 10 ^ 6) < 10 ^ 7 := by
    have : ((roundHalfEven ((D.val x).mag * 10 ^ 6) : ℕ) : ℚ) < ((10 ^ 7 : ℕ) : ℚ) := by
      push_cast; linarith
    exact_mod_cast this
  have h6 := roundHalfEven_near (q := (D.val x).mag * 10 ^ 6) (by linarith)
  have h7 : ((roundHalfEven ((D.val x).mag * 10 ^ 6) : ℕ) : ℚ) + 1 ≤ ((10 ^ 7 : ℕ) : ℚ) := by
    exact_mod_cast h5
  rw [abs_le] at h6
  have h8 := h6.1
  generalize ((roundHalfEven ((D.val x).mag * 10 ^ 6) : ℕ) : ℚ) = r at h7 h8
  norm_num at h7 h8
  linarith

/-! ### Floats that meet the assumptions -/

/-- Floats of unlimited precision, with the text functions of the model. -/
def exactPy : PyFloat where
  F := { x : Flt // 0 ≤ x.mag }
  beq a b := decide (a.1 = b.1)
  ofInt z := ⟨⟨decide (z < 0), z.natAbs⟩, Nat.cast_nonneg _⟩
  toInt _ := .error .value
  parse s :=
    match floatText (s.map Char.ofNat) with
    | some z => if h : 0 ≤ z.mag then .ok ⟨z, h⟩ else .error .value
    | none => .error .value
  str _ := []
  fixedWidth x w := fixedWidthF x.1 w.toNat
  fmt i v :=
    match v with
    | .flt x => fmtText i x.1
    | _ => .error .type
  toIntD _ := .error .value
  pack32 _ := .error .value
  unpack32 _ := ⟨⟨false, 0⟩, le_refl _⟩

/-- The assumptions hold for them. -/
def exactDoubles : Doubles exactPy where
  val x := x.1
  nonneg x := x.2
  fmt _ _ := rfl
  fixed _ _ := rfl
  parse s z h hr := by
    have hz : 0 ≤ z.mag := by
      rcases hr with h | ⟨h, _⟩
      · rw [h]
      · exact le_trans (by positivity) h
    have hs : (s.map Char.toNat).map Char.ofNat = s := by
      rw [List.map_map]
      conv => rhs; rw [← List.map_id s]
      refine List.map_congr_left fun c _ => ?_
      simp
    refine ⟨⟨z, hz⟩, ?_, ⟨rfl, ?_⟩, fun h => h⟩
    · simp only [exactPy, hs, h, dif_pos hz]
    · simp only [sub_self, abs_zero]
      positivity

/-- A float. -/
def exFlt (neg : Bool) (m : ℚ) (h : 0 ≤ m := by norm_num) : exactPy.F := ⟨⟨neg, m⟩, h⟩

/-- Content of the field of the given name with the given float in it. -/
def floatContent (d : Desc) (nm : Name) (x : exactPy.F) : Option (Except Err String) :=
  (resolve d.tab nm).bind fun m => (d.tab[m]?).bind fun fi =>
    match fi.fd.size with
    | .const n => some ((encodeVal exactPy fi.fd n (.flt x)).map fun b => String.ofList (latin1Dec b))
    | _ => none

example : floatContent Tables.t_tre_sensrb (n!"radial_distort_1") (exFlt false (12345/10000000)) =
    some (.ok "1.234500e-03") := by decide +kernel

example : floatContent Tables.t_tre_sensrb (n!"radial_distort_1") (exFlt true (12345/10000000)) =
    some (.error .runtime) := by decide +kernel

example : floatContent Tables.t_tre_sensrb (n!"focal_length") (exFlt false (3/2)) =
    some (.ok "1.500000") := by decide +kernel

example : floatContent Tables.t_tre_sensrb (n!"focal_length") (exFlt false 10) =
    some (.error .runtime) := by decide +kernel

example : floatContent Tables.t_tre_sensrb (n!"row_fov") (exFlt true (1/3)) =
    some (.ok "-000.333") := by decide +kernel

example : rpcCoeff ⟨true, 8103728/10^10⟩ = .ok "-8.103728E-4".toList := by decide +kernel

/-- C62 (finding).  Coefficients below 1e10 that round to 1e10 take 13 characters. -/
example : rpcCoeff ⟨true, 99999999999/10⟩ = .ok "-1.000000E+10".toList := by decide +kernel

example : fixedWidthF ⟨true, 12346/100⟩ 6 = .ok "-123.5".toList := by decide +kernel

/-- A value meeting the hypotheses of `C62_stable`: read back and written again. -/
example : ∃ fi b, HasFloat Tables.t_tre_sensrb (n!"row_fov") 8 ⟨false, false, true, 8, 3, none⟩ fi ∧
    encodeVal exactPy fi.fd 8 (.flt (exFlt true (1/3))) = .ok b ∧ b = asc "-000.333" ∧
    ∃ y, pyFloatB exactPy b = .ok y ∧ encodeVal exactPy fi.fd 8 (.flt y) = .ok b := by
  have h : ∃ fi, HasFloat Tables.t_tre_sensrb (n!"row_fov") 8 ⟨false, false, true, 8, 3, none⟩ fi := by
    decide +kernel
  obtain ⟨fi, hfi⟩ := h
  obtain ⟨m, h1, h2, hty, hsz, hf⟩ := hfi
  have hb : encodeVal exactPy fi.fd 8 (.flt (exFlt true (1/3))) = .ok (asc "-000.333") := by
    have : ∀ fi, (resolve Tables.t_tre_sensrb.tab (n!"row_fov")).bind
        (fun m => Tables.t_tre_sensrb.tab[m]?) = some fi →
        encodeVal exactPy fi.fd 8 (.flt (exFlt true (1/3))) = .ok (asc "-000.333") := by
      decide +kernel
    exact this fi (by rw [h1]; exact h2)
  refine ⟨fi, _, ⟨m, h1, h2, hty, hsz, hf⟩, hb, rfl, ?_⟩
  obtain ⟨y, a, _, c⟩ := C62_stable exactDoubles
    (t := ("SENSRB", Tables.t_tre_sensrb)) (by decide +kernel) h2 hty hsz
    (.inr (by constructor <;> simp only [exactDoubles, exFlt] <;> norm_num))
    (by intro f hf' hp; rw [hf] at hf'; cases hf'; cases hp) hb
  exact ⟨y, a, c⟩

end Verif
