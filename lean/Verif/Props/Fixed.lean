import Verif.Fixed
import Verif.Decimal

/- C45: fixed-point text of floats (model in `Verif/Fixed.lean`). -/

namespace Verif

/-! ### Proofs -/

theorem roundHalfEven_near {q : ℚ} (hq : 0 ≤ q) : |(roundHalfEven q : ℚ) - q| ≤ 1 / 2 := by
  have h1 := Int.floor_le q
  have h2 := Int.lt_floor_add_one q
  have h0 : 0 ≤ ⌊q⌋ := Int.floor_nonneg.mpr hq
  have c1 : ((⌊q⌋.toNat : ℕ) : ℚ) = (⌊q⌋ : ℚ) := by
    have : ((⌊q⌋.toNat : ℕ) : ℤ) = ⌊q⌋ := Int.toNat_of_nonneg h0
    exact_mod_cast congrArg (Int.cast (R := ℚ)) this
  have c2 : (((⌊q⌋ + 1).toNat : ℕ) : ℚ) = (⌊q⌋ : ℚ) + 1 := by
    have : (((⌊q⌋ + 1).toNat : ℕ) : ℤ) = ⌊q⌋ + 1 := Int.toNat_of_nonneg (by omega)
    exact_mod_cast congrArg (Int.cast (R := ℚ)) this
  unfold roundHalfEven
  simp only
  rw [abs_le]
  split
  · rw [c1]; constructor <;> linarith
  · split
    · rw [c2]; constructor <;> linarith
    · split
      · rw [c1]; constructor <;> linarith
      · rw [c2]; constructor <;> linarith

theorem unsignedValue_fixed (r i : ℕ) :
    unsignedValue (decStr (r / 10 ^ i) ++
      if i = 0 then [] else '.' :: padLeft '0' i (decStr (r % 10 ^ i))) = some ((r : ℚ) / 10 ^ i) := by
  unfold unsignedValue
  by_cases hi : i = 0
  · subst hi
    simp only [if_true, List.append_nil]
    rw [dropWhile_digits (decStr_digits _)]
    simp [digitsValue_decStr]
  · rw [if_neg hi]
    obtain ⟨h1, h2⟩ := takeWhile_digits (s := decStr (r / 10 ^ i))
      (t := padLeft '0' i (decStr (r % 10 ^ i))) (decStr_digits _)
    rw [h1, h2]
    simp only [digitsValue_decStr, digitsValue_pad]
    have hlen : (padLeft '0' i (decStr (r % 10 ^ i))).length = i := by
      rw [length_padLeft]
      have := (decStr_length_le _ i (by omega)).mpr (Nat.mod_lt r (show 0 < 10 ^ i by positivity))
      omega
    rw [hlen]
    congr 1
    have hp : (10 : ℚ) ^ i ≠ 0 := by positivity
    have := Nat.div_add_mod r (10 ^ i)
    have hc : ((10 ^ i : ℕ) : ℚ) * ((r / 10 ^ i : ℕ) : ℚ) + ((r % 10 ^ i : ℕ) : ℚ) = r := by
      exact_mod_cast congrArg (Nat.cast (R := ℚ)) this
    push_cast at hc ⊢
    field_simp
    linarith

theorem decimalValue_fixed (n : ℚ) (i : ℕ) : decimalValue (fixedText n i) =
    some ((if n < 0 then -1 else 1) * ((roundHalfEven (|n| * 10 ^ i) : ℚ) / 10 ^ i)) := by
  unfold fixedText
  simp only
  generalize roundHalfEven (|n| * 10 ^ i) = r
  by_cases hn : n < 0
  · simp only [if_pos hn, List.cons_append, List.nil_append, decimalValue]
    rw [unsignedValue_fixed]
    simp
  · simp only [if_neg hn, List.nil_append, one_mul]
    rw [← unsignedValue_fixed]
    have hne := decStr_ne_nil (r / 10 ^ i)
    have hd := decStr_digits (r / 10 ^ i)
    generalize decStr (r / 10 ^ i) = s at hne hd
    cases s with
    | nil => exact absurd rfl hne
    | cons a t =>
      exact decimalValue_digit (hd a List.mem_cons_self)

theorem fixedText_near (n : ℚ) (i : ℕ) :
    ∃ v, decimalValue (fixedText n i) = some v ∧ |v - n| ≤ 1 / 2 / 10 ^ i := by
  refine ⟨_, decimalValue_fixed n i, ?_⟩
  have hp : (0 : ℚ) < 10 ^ i := by positivity
  have h := roundHalfEven_near (q := |n| * 10 ^ i) (by positivity)
  generalize (roundHalfEven (|n| * 10 ^ i) : ℚ) = r at h
  have key : |r / 10 ^ i - (|n|)| ≤ 1 / 2 / 10 ^ i := by
    have : r / 10 ^ i - (|n|) = (r - |n| * 10 ^ i) / 10 ^ i := by field_simp
    rw [this, abs_div, abs_of_pos hp]
    exact div_le_div_of_nonneg_right h hp.le
  by_cases hn : n < 0
  · rw [if_pos hn]
    rw [abs_of_neg hn] at key
    have : -1 * (r / 10 ^ i) - n = -(r / 10 ^ i - -n) := by ring
    rw [this, abs_neg]
    exact key
  · rw [if_neg hn, one_mul]
    rw [abs_of_nonneg (not_lt.mp hn)] at key
    exact key

theorem fixedText_long (n : ℚ) (i : ℕ) (hi : 0 < i) : i + 2 ≤ (fixedText n i).length := by
  have h0 := List.length_pos_iff.mpr (decStr_ne_nil (roundHalfEven (|n| * 10 ^ i) / 10 ^ i))
  unfold fixedText
  simp only [if_neg (show ¬ i = 0 by omega), List.length_append, List.length_cons, length_padLeft]
  omega

/-- What the loop finds. -/
theorem fixedLoop_spec (n : ℚ) (w k : ℕ) :
    (∃ i, i ≤ k ∧ fixedLoop n w k = fixedText n i ∧ (fixedText n i).length ≤ w ∧
      ∀ j, i < j → j ≤ k → w < (fixedText n j).length) ∨
    (w < (fixedLoop n w k).length ∧ ∀ j, j ≤ k → w < (fixedText n j).length) := by
  induction k with
  | zero =>
    unfold fixedLoop
    by_cases h : (fixedText n 0).length ≤ w
    · exact .inl ⟨0, le_refl _, rfl, h, fun j h1 h2 => by omega⟩
    · refine .inr ⟨by omega, fun j hj => ?_⟩
      have : j = 0 := by omega
      subst this
      omega
  | succ k ih =>
    unfold fixedLoop
    by_cases h : (fixedText n (k + 1)).length ≤ w
    · rw [if_pos h]
      exact .inl ⟨k + 1, le_refl _, rfl, h, fun j h1 h2 => by omega⟩
    · rw [if_neg h]
      have top : ∀ j, j ≤ k + 1 → j ≤ k ∨ j = k + 1 := fun j hj => by omega
      rcases ih with ⟨i, h1, h2, h3, h4⟩ | ⟨h1, h2⟩
      · refine .inl ⟨i, by omega, h2, h3, fun j a b => ?_⟩
        rcases top j b with b | rfl
        · exact h4 j a b
        · omega
      · refine .inr ⟨h1, fun j b => ?_⟩
        rcases top j b with b | rfl
        · exact h2 j b
        · omega

/-! ### C45 -/

/-- C45.  The text returned is at most `w` long, shows the number with some number `i` of decimals,
no larger number of decimals would fit, and the number shown differs from `n` by at most half a unit
of the last decimal. -/
theorem C45_most_precise {n : ℚ} {w : ℕ} {s : Str} (h : floatToFixedWidth n w = .ok s) :
    s.length ≤ w ∧ ∃ i, s = fixedText n i ∧ (∀ j, i < j → w < (fixedText n j).length) ∧
      ∃ v, decimalValue s = some v ∧ |v - n| ≤ 1 / 2 / 10 ^ i := by
  unfold floatToFixedWidth at h
  split at h
  · cases h
  · rename_i hw
    simp only at h
    split at h
    · cases h
    · rename_i hl
      injection h with h
      subst h
      rcases fixedLoop_spec n w (w - 2) with ⟨i, h1, h2, h3, h4⟩ | ⟨h1, _⟩
      · refine ⟨by omega, i, h2, fun j hj => ?_, ?_⟩
        · by_cases hk : j ≤ w - 2
          · exact h4 j hj hk
          · have := fixedText_long n j (by omega)
            omega
        · rw [h2]
          exact fixedText_near n i
      · exact absurd h1 hl

theorem fixed_raises {n : ℚ} {w : ℕ} (hw : 2 ≤ w) :
    (∃ e, floatToFixedWidth n w = .error e) ↔ ∀ i, w < (fixedText n i).length := by
  unfold floatToFixedWidth
  rw [if_neg (by omega)]
  simp only
  rcases fixedLoop_spec n w (w - 2) with ⟨i, h1, h2, h3, h4⟩ | ⟨h1, h2⟩
  · rw [h2, if_neg (by omega)]
    constructor
    · rintro ⟨e, he⟩; cases he
    · intro h; have := h i; omega
  · rw [if_pos h1]
    refine ⟨fun _ i => ?_, fun _ => ⟨_, rfl⟩⟩
    by_cases hk : i ≤ w - 2
    · exact h2 i hk
    · have := fixedText_long n i (by omega)
      omega

/-- Zero decimals are the shortest text. -/
theorem fixed_shortest (n : ℚ) (w : ℕ) (h : w < (fixedText n 0).length) :
    ∀ i, w < (fixedText n i).length := by
  intro i
  by_cases hi : i = 0
  · subst hi; exact h
  refine lt_of_lt_of_le h ?_
  have hp : (0 : ℕ) < 10 ^ i := by positivity
  have hq : 0 ≤ |n| := abs_nonneg n
  have h0 : 0 ≤ ⌊|n|⌋ := Int.floor_nonneg.mpr hq
  -- the integer parts differ by at most one
  have hle : roundHalfEven |n| ≤ roundHalfEven (|n| * 10 ^ i) / 10 ^ i + 1 := by
    have a1 : roundHalfEven |n| ≤ ⌊|n|⌋.toNat + 1 := by
      unfold roundHalfEven
      simp only
      split
      · omega
      · split
        · omega
        · split <;> omega
    have a2 : ⌊|n| * 10 ^ i⌋.toNat ≤ roundHalfEven (|n| * 10 ^ i) := by
      unfold roundHalfEven
      simp only
      split
      · omega
      · split
        · omega
        · split <;> omega
    have a3 : ⌊|n|⌋.toNat * 10 ^ i ≤ ⌊|n| * 10 ^ i⌋.toNat := by
      have : ⌊|n|⌋ * (10 ^ i : ℕ) ≤ ⌊|n| * 10 ^ i⌋ := by
        rw [Int.le_floor]
        push_cast
        exact mul_le_mul_of_nonneg_right (Int.floor_le _) (by positivity)
      have e : ((⌊|n|⌋.toNat * 10 ^ i : ℕ) : ℤ) = ⌊|n|⌋ * (10 ^ i : ℕ) := by
        push_cast
        rw [Int.toNat_of_nonneg h0]
      omega
    have a4 : ⌊|n|⌋.toNat ≤ roundHalfEven (|n| * 10 ^ i) / 10 ^ i :=
      (Nat.le_div_iff_mul_le hp).mpr (by omega)
    omega
  have hlen : (decStr (roundHalfEven |n|)).length ≤
      (decStr (roundHalfEven (|n| * 10 ^ i) / 10 ^ i)).length + 1 := by
    have hL := List.length_pos_iff.mpr (decStr_ne_nil (roundHalfEven (|n| * 10 ^ i) / 10 ^ i))
    have b1 := (decStr_length_le (roundHalfEven (|n| * 10 ^ i) / 10 ^ i) _ hL).mp (le_refl _)
    refine (decStr_length_le _ _ (by omega)).mpr ?_
    rw [Nat.pow_succ]
    have : 0 < 10 ^ (decStr (roundHalfEven (|n| * 10 ^ i) / 10 ^ i)).length := by positivity
    omega
  unfold fixedText
  simp only [pow_zero, mul_one, Nat.div_one, if_true, if_neg hi, List.length_append,
    List.length_cons, List.length_nil, length_padLeft]
  omega

/-- C45.  From width 2 on it raises exactly when not even the text without decimals fits. -/
theorem C45_raises {n : ℚ} {w : ℕ} (hw : 2 ≤ w) :
    (∃ e, floatToFixedWidth n w = .error e) ↔ w < (fixedText n 0).length := by
  rw [fixed_raises hw]
  exact ⟨fun h => h 0, fixed_shortest n w⟩

/-- A width below 2 always raises, also when the number has a single digit. -/
theorem C45_narrow (n : ℚ) {w : ℕ} (hw : w < 2) : floatToFixedWidth n w = .error .name := by
  unfold floatToFixedWidth
  rw [if_pos hw]

example : floatToFixedWidth (9996 / 100) 4 = .ok "100".toList := by decide +kernel
example : floatToFixedWidth (-1 / 3) 6 = .ok "-0.333".toList := by decide +kernel
example : floatToFixedWidth 123456 5 = .error .runtime := by decide +kernel

end Verif
