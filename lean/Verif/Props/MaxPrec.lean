import Verif.MaxPrec
import Verif.Props.Format

/- C102: `float_to_fixed_width` asked for the maximum precision (model in `Verif/MaxPrec.lean`). -/

namespace Verif.MaxPrec

open Verif

/-! ### Specification -/

/-- The number lies where the function keeps to decimals without exponent. -/
def Plain (x : Flt) (w : ℕ) : Prop :=
  (10 : ℚ) ^ (5 - (w : ℤ)) ≤ value x ∧ value x ≤ (10 : ℚ) ^ ((w : ℤ) - 5)

/-- `t` stands for a number at least as near to `x` as the one `s` stands for. -/
def AtLeastAsNear (x : Flt) (t s : Str) : Prop :=
  ∀ y z, floatText s = some y → floatText t = some z →
    |value z - value x| ≤ |value y - value x|

/-- What the name of the argument promises: asking for the maximum precision never makes the text
worse. -/
def NeverWorse : Prop :=
  ∀ (x : Flt) (w : ℕ) (s t : Str), 0 ≤ x.mag → fixedWidth false x w = .ok s →
    fixedWidth true x w = .ok t → AtLeastAsNear x t s

/-! ### Lemmas -/

theorem loop_spec (t : ℕ → Str) (w k : ℕ) :
    (∃ i, i ≤ k ∧ loop t w k = t i ∧ (t i).length ≤ w ∧ ∀ j, i < j → j ≤ k → w < (t j).length) ∨
    (w < (loop t w k).length ∧ ∀ j, j ≤ k → w < (t j).length) := by
  induction k with
  | zero =>
    unfold loop
    by_cases h : (t 0).length ≤ w
    · exact .inl ⟨0, le_refl _, rfl, h, fun j h1 h2 => by omega⟩
    · refine .inr ⟨by omega, fun j hj => ?_⟩
      obtain rfl : j = 0 := by omega
      omega
  | succ k ih =>
    unfold loop
    by_cases h : (t (k + 1)).length ≤ w
    · rw [if_pos h]
      exact .inl ⟨k + 1, le_refl _, rfl, h, fun j h1 h2 => by omega⟩
    · rw [if_neg h]
      have top : ∀ j, j ≤ k + 1 → j ≤ k ∨ j = k + 1 := fun j hj => by omega
      rcases ih with ⟨i, h1, h2, h3, h4⟩ | ⟨h1, h2⟩
      · refine .inl ⟨i, by omega, h2, h3, fun j a b => ?_⟩
        rcases top j b with b | rfl
        · exact h4 j a b
        · omega
      · refine .inr ⟨h1, fun j b => ?_⟩
        rcases top j b with b | rfl
        · exact h2 j b
        · omega

theorem fixedWidth_ok_iff (mp : Bool) (x : Flt) (w : ℕ) (s : Str) :
    fixedWidth mp x w = .ok s ↔
      2 ≤ w ∧ ∃ i, i ≤ w - 2 ∧ s = text mp x w i ∧ (text mp x w i).length ≤ w ∧
        ∀ j, i < j → j ≤ w - 2 → w < (text mp x w j).length := by
  unfold fixedWidth
  by_cases hw : w < 2
  · rw [if_pos hw]
    constructor
    · intro h; cases h
    · rintro ⟨h, _⟩; omega
  · rw [if_neg hw]
    simp only
    rcases loop_spec (text mp x w) w (w - 2) with ⟨i, h1, h2, h3, h4⟩ | ⟨h1, h2⟩
    · rw [h2, if_neg (by omega)]
      constructor
      · intro h
        injection h with h
        exact ⟨by omega, i, h1, h.symm, h3, h4⟩
      · rintro ⟨_, j, g1, g2, g3, g4⟩
        rcases Nat.lt_trichotomy i j with h | h | h
        · have := h4 j h g1; omega
        · rw [g2, h]
        · have := g4 i h h1; omega
    · rw [if_pos h1]
      constructor
      · intro h; cases h
      · rintro ⟨_, j, g1, _, g3, _⟩
        have := h2 j g1
        omega

theorem wantsExp_iff (x : Flt) (w : ℕ) : wantsExp true x w = false ↔ Plain x w := by
  unfold wantsExp Plain
  simp

theorem expText_apply (i : ℕ) (x : Flt) :
    (expFmt i).apply x = signText false x.neg ++ (expFmt i).body x.mag := by
  unfold CFmt.apply expFmt
  simp [padLeft]

theorem expFmt_value (i : ℕ) (x : Flt) :
    floatText ((expFmt i).apply x) = some ⟨x.neg, (expFmt i).shown x.mag⟩ := by
  rw [expText_apply]
  exact CFmt.core_value (f := expFmt i) (.inr (.inl rfl)) x 0

theorem value_sub (n : Bool) (a b : ℚ) : |value ⟨n, a⟩ - value ⟨n, b⟩| = |a - b| := by
  unfold value
  cases n
  · rfl
  · simp only [if_true]
    rw [← abs_neg]
    congr 1
    ring

theorem expFmt_length (i : ℕ) (x : Flt) (hx : 0 ≤ x.mag) :
    ((expFmt i).apply x).length = (if x.neg then 1 else 0) + (if i = 0 then 1 else i + 2) + 2 +
      max 2 (decStr (sciParts x.mag i).1.natAbs).length := by
  rw [expText_apply]
  have hr : (sciParts x.mag i).2 < 10 ^ (i + 1) := by
    rcases hx.eq_or_lt with h | h
    · rw [← h, sciParts_zero]; positivity
    · exact (sciParts_pos h i).2.1
  have hd : (decimals (sciParts x.mag i).2 i).length = if i = 0 then 1 else i + 2 := by
    by_cases hi : i = 0
    · subst hi
      rw [if_pos rfl]
      unfold decimals
      simp only [pow_zero, Nat.div_one, if_true, List.append_nil]
      have h1 := (decStr_length_le (sciParts x.mag 0).2 1 (le_refl _)).mpr (by simpa using hr)
      have h0 := List.length_pos_iff.mpr (decStr_ne_nil (sciParts x.mag 0).2)
      omega
    · rw [if_neg hi]
      exact decimals_length_sci (by omega) hr
  have hb : (expFmt i).body x.mag =
      decimals (sciParts x.mag i).2 i ++ expText 'e' (sciParts x.mag i).1 := rfl
  rw [List.length_append, hb, List.length_append, hd]
  unfold expText signText
  simp only [List.length_cons, length_padLeft]
  cases x.neg <;> simp <;> omega

/-- Rounding finds a nearest whole number. -/
theorem round_nearest {q : ℚ} (hq : 0 ≤ q) (k : ℕ) : |(roundHalfEven q : ℚ) - q| ≤ |(k : ℚ) - q| := by
  by_cases h : roundHalfEven q = k
  · rw [h]
  · have h1 := roundHalfEven_near hq
    have h2 : (1 : ℚ) ≤ |(roundHalfEven q : ℚ) - k| := by
      have : (1 : ℤ) ≤ |(roundHalfEven q : ℤ) - k| := by
        apply Int.one_le_abs
        omega
      exact_mod_cast this
    have h3 : |(roundHalfEven q : ℚ) - k| ≤ |(roundHalfEven q : ℚ) - q| + |(k : ℚ) - q| := by
      have := abs_sub_le (roundHalfEven q : ℚ) q k
      rwa [abs_sub_comm q] at this
    linarith

theorem sciParts_value {m : ℚ} (hm : 0 < m) (p : ℕ) :
    ((sciParts m p).2 : ℚ) / 10 ^ p * 10 ^ (sciParts m p).1 =
      (roundHalfEven (m * 10 ^ ((p : ℤ) - Int.log 10 m)) : ℚ) / 10 ^ ((p : ℤ) - Int.log 10 m) := by
  unfold sciParts
  rw [if_neg hm.ne']
  simp only
  generalize hr : roundHalfEven (m * 10 ^ ((p : ℤ) - Int.log 10 m)) = r
  generalize Int.log 10 m = e
  have h10 : (10 : ℚ) ≠ 0 := by norm_num
  split
  · rename_i h
    simp only
    rw [h, zpow_sub₀ h10, zpow_add_one₀ h10, zpow_natCast]
    push_cast
    have : (10 : ℚ) ^ e ≠ 0 := zpow_ne_zero _ h10
    field_simp
    ring
  · simp only
    rw [zpow_sub₀ h10, zpow_natCast]
    have : (10 : ℚ) ^ e ≠ 0 := zpow_ne_zero _ h10
    field_simp

/-- On a finer grid the nearest number is at least as near. -/
theorem finer {m : ℚ} (hm : 0 < m) {p j : ℕ} (h : (j : ℤ) ≤ (p : ℤ) - Int.log 10 m) (r : ℕ) :
    |((sciParts m p).2 : ℚ) / 10 ^ p * 10 ^ (sciParts m p).1 - m| ≤ |(r : ℚ) / 10 ^ j - m| := by
  rw [sciParts_value hm]
  obtain ⟨d, hd⟩ : ∃ d : ℕ, (p : ℤ) - Int.log 10 m = ((j + d : ℕ) : ℤ) :=
    ⟨((p : ℤ) - Int.log 10 m - j).toNat, by push_cast; omega⟩
  rw [hd, zpow_natCast]
  have hp : (0 : ℚ) < 10 ^ (j + d) := by positivity
  have hn := round_nearest (q := m * 10 ^ (j + d)) (by positivity) (r * 10 ^ d)
  have e1 : ∀ a : ℚ, a / 10 ^ (j + d) - m = (a - m * 10 ^ (j + d)) / 10 ^ (j + d) := by
    intro a; field_simp
  have e2 : (r : ℚ) / 10 ^ j = ((r * 10 ^ d : ℕ) : ℚ) / 10 ^ (j + d) := by
    push_cast
    rw [pow_add]
    field_simp
  rw [e2, e1, e1, abs_div, abs_div]
  exact div_le_div_of_nonneg_right hn (abs_nonneg _)

theorem digits_small (k : ℕ) (hk : 3 ≤ k) : k + 2 ≤ 10 ^ (k - 1) := by
  obtain ⟨n, rfl⟩ : ∃ n, k = n + 3 := ⟨k - 3, by omega⟩
  have : n < 10 ^ n := Nat.lt_pow_self (by norm_num)
  have e : 10 ^ (n + 3 - 1) = 100 * 10 ^ n := by
    rw [show n + 3 - 1 = 2 + n by omega, pow_add]
    norm_num
  omega

/-! ### Theorems -/

/-- C102.  Without the argument this is the function of C62. -/
theorem C102_default (x : Flt) (w : ℕ) : fixedWidth false x w = fixedWidthF x w := by
  have hl : ∀ k, loop (text false x w) w k = fixedLoopF x w k := by
    intro k
    induction k with
    | zero => rfl
    | succ k ih =>
      unfold loop fixedLoopF
      rw [ih]
      rfl
  unfold fixedWidth fixedWidthF
  rw [hl]

/-- C102.  The text fits, has the sign of the number and stands for it: with as many decimals as
there is room for, to half a unit of the last decimal, absolutely in the plain range and relative to
the number outside it. -/
theorem C102_shows {x : Flt} (hx : 0 ≤ x.mag) {w : ℕ} {s : Str} (h : fixedWidth true x w = .ok s) :
    s.length ≤ w ∧ ∃ i z, i ≤ w - 2 ∧ floatText s = some z ∧ z.neg = x.neg ∧
      (Plain x w → s = fixedTextF x i ∧ |z.mag - x.mag| ≤ 1 / 2 / 10 ^ i ∧
        ∀ j, i < j → j ≤ w - 2 → w < (fixedTextF x j).length) ∧
      (¬ Plain x w → s = (expFmt i).apply x ∧ |z.mag - x.mag| ≤ 1 / 2 / 10 ^ i * x.mag ∧
        ∀ j, i < j → j ≤ w - 2 → w < ((expFmt j).apply x).length) := by
  obtain ⟨_, i, hi, hs, hl, hm⟩ := (fixedWidth_ok_iff ..).mp h
  refine ⟨hs ▸ hl, i, ?_⟩
  by_cases hp : Plain x w
  · have e : ∀ j, text true x w j = fixedTextF x j := fun j => by
      unfold text
      rw [(wantsExp_iff x w).mpr hp]
      rfl
    rw [e] at hs
    refine ⟨⟨x.neg, (roundHalfEven (x.mag * 10 ^ i) : ℚ) / 10 ^ i⟩, hi,
      by rw [hs]; exact fixedTextF_value x i, rfl, fun _ => ⟨hs, ?_, fun j a b => ?_⟩,
      fun hn => absurd hp hn⟩
    · exact (shown_near ⟨false, false, false, 0, i, none⟩ hx).1 rfl
    · have := hm j a b
      rwa [e] at this
  · have hb : wantsExp true x w = true := by
      cases hc : wantsExp true x w
      · exact absurd ((wantsExp_iff x w).mp hc) hp
      · rfl
    have e : ∀ j, text true x w j = (expFmt j).apply x := fun j => by
      unfold text
      rw [hb]
      rfl
    rw [e] at hs
    refine ⟨⟨x.neg, (expFmt i).shown x.mag⟩, hi, by rw [hs]; exact expFmt_value i x, rfl, fun hn => absurd hn hp, fun _ => ⟨hs, ?_, fun j a b => ?_⟩⟩
    · exact (shown_near (expFmt i) hx).2 (by simp [expFmt])
    · have := hm j a b
      rwa [e] at this

/-- C102.  In the plain range the argument changes nothing. -/
theorem C102_same {x : Flt} {w : ℕ} (hp : Plain x w) : fixedWidth true x w = fixedWidth false x w := by
  have e : text true x w = text false x w := by
    funext j
    unfold text
    rw [(wantsExp_iff x w).mpr hp]
    rfl
  unfold fixedWidth
  rw [e]

/-- C102.  With at least seven characters every double can be written: its magnitude is zero or far
within `10 ^ (-999)` and `10 ^ 999`. -/
theorem C102_always {x : Flt} (hx : x.mag = 0 ∨ (10 : ℚ) ^ (-999 : ℤ) ≤ x.mag ∧ x.mag < 10 ^ (999 : ℤ))
    {w : ℕ} (hw : 7 ≤ w) : ∃ s, fixedWidth true x w = .ok s := by
  have h10 : (1 : ℚ) < 10 := by norm_num
  have hx0 : 0 ≤ x.mag := by
    rcases hx with h | ⟨h, _⟩
    · exact h.ge
    · exact le_trans (zpow_pos (by norm_num) _).le h
  have hfit : (text true x w 0).length ≤ w := by
    unfold text
    cases hb : wantsExp true x w with
    | false =>
      obtain ⟨h1, h2⟩ := (wantsExp_iff x w).mp hb
      have hneg : x.neg = false := by
        cases hn : x.neg with
        | false => rfl
        | true =>
          have : value x ≤ 0 := by
            unfold value
            rw [hn, if_pos rfl]
            linarith
          have : (0 : ℚ) < (10 : ℚ) ^ (5 - (w : ℤ)) := zpow_pos (by norm_num) _
          linarith
      have hv : value x = x.mag := by
        unfold value
        rw [hneg]
        rfl
      rw [hv, show (w : ℤ) - 5 = ((w - 5 : ℕ) : ℤ) by omega, zpow_natCast] at h2
      rw [if_neg (by simp), fixedTextF_length, hneg]
      have hr := roundHalfEven_near hx0
      rw [abs_le] at hr
      have hlt : roundHalfEven x.mag < 10 ^ (w - 4) := by
        have e : (10 : ℚ) ^ (w - 4) = 10 * 10 ^ (w - 5) := by
          rw [← pow_succ']
          congr 1
          omega
        have hone : (1 : ℚ) ≤ 10 ^ (w - 5) := one_le_pow₀ (by norm_num)
        have : (roundHalfEven x.mag : ℚ) < 10 ^ (w - 4) := by rw [e]; linarith
        exact_mod_cast this
      have := (decStr_length_le (roundHalfEven x.mag) (w - 4) (by omega)).mpr hlt
      simp only [decimals, pow_zero, mul_one, Nat.div_one, if_true, List.append_nil]
      simp
      omega
    | true =>
      rw [if_pos rfl, expFmt_length 0 x hx0]
      have he : (sciParts x.mag 0).1.natAbs < 10 ^ 3 := by
        rcases hx with h | ⟨h1, h2⟩
        · rw [h, sciParts_zero]; decide
        · have hpos : 0 < x.mag := lt_of_lt_of_le (zpow_pos (by norm_num) _) h1
          have a1 : -999 ≤ Int.log 10 x.mag := by
            rw [← Int.zpow_le_iff_le_log (by norm_num) hpos]
            exact_mod_cast h1
          have a2 : Int.log 10 x.mag < 999 := by
            rw [← Int.lt_zpow_iff_log_lt (by norm_num) hpos]
            exact_mod_cast h2
          rcases (sciParts_pos hpos 0).2.2.2 with h | h <;> rw [h] <;> omega
      have := (decStr_length_le _ 3 (by omega)).mpr he
      simp only [if_true]
      split <;> omega
  unfold fixedWidth
  rw [if_neg (by omega)]
  simp only
  rcases loop_spec (text true x w) w (w - 2) with ⟨i, _, h2, h3, _⟩ | ⟨_, h2⟩
  · rw [h2, if_neg (by omega)]
    exact ⟨_, rfl⟩
  · exact absurd hfit (by have := h2 0 (by omega); omega)

/-- C102.  For at least eight characters and numbers from zero to `10 ^ (w - 5)` the promise is kept:
the text stands for a number at least as near as without the argument.  Missing from `NeverWorse`:
negative numbers, larger numbers and shorter texts, for which it does not hold (`C102_worse_negative`,
`C102_worse_large`, `C102_worse_short`). -/
theorem C102_never_worse_partial {x : Flt} {w : ℕ} (hw : 8 ≤ w) (hneg : x.neg = false)
    (hx : 0 ≤ x.mag) (hle : x.mag ≤ (10 : ℚ) ^ ((w : ℤ) - 5)) {s t : Str}
    (hs : fixedWidth false x w = .ok s) (ht : fixedWidth true x w = .ok t) : AtLeastAsNear x t s := by
  have hv : value x = x.mag := by
    unfold value
    rw [hneg]
    rfl
  by_cases hp : Plain x w
  · rw [C102_same hp, hs] at ht
    injection ht with ht
    subst ht
    intro y z h1 h2
    rw [h1] at h2
    injection h2 with h2
    rw [h2]
  · have hsmall : x.mag < (10 : ℚ) ^ (5 - (w : ℤ)) := by
      by_contra hc
      exact hp ⟨by rw [hv]; linarith, by rw [hv]; exact hle⟩
    obtain ⟨_, i, z0, hi, hz, hzn, _, hexp⟩ := C102_shows hx ht
    obtain ⟨ht', _, hmax⟩ := hexp hp
    obtain ⟨_, j, hj, hs', _, _⟩ := (fixedWidth_ok_iff ..).mp hs
    have hsj : s = fixedTextF x j := hs'
    intro y z h1 h2
    rw [hsj, fixedTextF_value] at h1
    rw [ht', expFmt_value] at h2
    injection h1 with h1
    injection h2 with h2
    subst h1 h2
    have exx : x = ⟨x.neg, x.mag⟩ := rfl
    rw [show value x = value ⟨x.neg, x.mag⟩ from rfl, value_sub, value_sub]
    rcases hx.eq_or_lt with h0 | h0
    · have : (expFmt i).shown x.mag = 0 := by
        rw [← h0]
        show ((sciParts 0 i).2 : ℚ) / 10 ^ i * 10 ^ (sciParts 0 i).1 = 0
        rw [sciParts_zero]
        simp
      rw [this, ← h0]
      simp
    · refine finer h0 ?_ _
      change (j : ℤ) ≤ (i : ℤ) - Int.log 10 x.mag
      have hlog : Int.log 10 x.mag < 5 - (w : ℤ) := by
        rw [← Int.lt_zpow_iff_log_lt (by norm_num) h0]
        exact_mod_cast hsmall
      by_cases htop : i = w - 2
      · omega
      · have hl := hmax (i + 1) (by omega) (by omega)
        rw [expFmt_length _ _ hx, hneg, if_neg (by simp), if_neg (by omega)] at hl
        have hee := (sciParts_pos h0 (i + 1)).2.2.2
        by_cases hk : (decStr (sciParts x.mag (i + 1)).1.natAbs).length ≤ 2
        · omega
        · generalize hkk : (decStr (sciParts x.mag (i + 1)).1.natAbs).length = k at hl hk
          have h3 := digits_small k (by omega)
          have h4 : ¬ (decStr (sciParts x.mag (i + 1)).1.natAbs).length ≤ k - 1 := by omega
          rw [decStr_length_le _ _ (by omega)] at h4
          omega

/-- `2 ** -20` in ten characters meets the hypotheses. -/
example : fixedWidth false ⟨false, 1 / 2 ^ 20⟩ 10 = .ok "0.00000095".toList ∧
    fixedWidth true ⟨false, 1 / 2 ^ 20⟩ 10 = .ok "9.5367e-07".toList := by decide +kernel

example : (1 / 2 ^ 20 : ℚ) ≤ 10 ^ ((10 : ℤ) - 5) ∧ ¬ Plain ⟨false, 1 / 2 ^ 20⟩ 10 := by
  refine ⟨by decide +kernel, fun h => ?_⟩
  have := h.1
  revert this
  decide +kernel

/-- In the plain range. -/
example : fixedWidth true ⟨false, 1975 / 16⟩ 10 = .ok "123.437500".toList ∧ Plain ⟨false, 1975 / 16⟩ 10 :=
  ⟨by decide +kernel, by decide +kernel, by decide +kernel⟩

/-- The smallest and nearly the largest double, in seven characters. -/
example : fixedWidth true ⟨true, 1 / 2 ^ 1074⟩ 7 = .ok "-5e-324".toList ∧
    fixedWidth true ⟨false, 2 ^ 1023⟩ 7 = .ok "9e+307".toList := by decide +kernel

/-- C102.  Negative numbers always get an exponent, and lose decimals: -123.4375 in ten characters. -/
theorem C102_worse_negative : ∃ s t, fixedWidth false ⟨true, 1975 / 16⟩ 10 = .ok s ∧
    fixedWidth true ⟨true, 1975 / 16⟩ 10 = .ok t ∧ s = "-123.43750".toList ∧
    t = "-1.234e+02".toList ∧ ¬ AtLeastAsNear ⟨true, 1975 / 16⟩ t s := by
  refine ⟨_, _, by decide +kernel, by decide +kernel, rfl, rfl, fun h => ?_⟩
  have := h ⟨true, 1975 / 16⟩ ⟨true, 1234 / 10⟩ (by decide +kernel) (by decide +kernel)
  revert this
  decide +kernel

/-- C102.  So do large numbers: 123456.75 in ten characters. -/
theorem C102_worse_large : ∃ s t, fixedWidth false ⟨false, 12345675 / 100⟩ 10 = .ok s ∧
    fixedWidth true ⟨false, 12345675 / 100⟩ 10 = .ok t ∧ s = "123456.750".toList ∧
    t = "1.2346e+05".toList ∧ ¬ AtLeastAsNear ⟨false, 12345675 / 100⟩ t s := by
  refine ⟨_, _, by decide +kernel, by decide +kernel, rfl, rfl, fun h => ?_⟩
  have := h ⟨false, 12345675 / 100⟩ ⟨false, 123460⟩ (by decide +kernel) (by decide +kernel)
  revert this
  decide +kernel

/-- C102.  And small numbers in less than eight characters: `2 ** -7` in seven. -/
theorem C102_worse_short : ∃ s t, fixedWidth false ⟨false, 1 / 128⟩ 7 = .ok s ∧
    fixedWidth true ⟨false, 1 / 128⟩ 7 = .ok t ∧ s = "0.00781".toList ∧
    t = "7.8e-03".toList ∧ ¬ AtLeastAsNear ⟨false, 1 / 128⟩ t s := by
  refine ⟨_, _, by decide +kernel, by decide +kernel, rfl, rfl, fun h => ?_⟩
  have := h ⟨false, 781 / 10 ^ 5⟩ ⟨false, 78 / 10 ^ 4⟩ (by decide +kernel) (by decide +kernel)
  revert this
  decide +kernel

/-- C102.  The promise as a whole is broken. -/
theorem C102_can_be_worse : ¬ NeverWorse := by
  intro h
  obtain ⟨s, t, h1, h2, _, _, h3⟩ := C102_worse_negative
  exact h3 (h _ _ _ _ (by norm_num) h1 h2)

end Verif.MaxPrec
