import Verif.Format
import Verif.Props.Fixed

/- Lemmas about float formats. -/

namespace Verif

theorem roundHalfEven_of_near {q : ℚ} {r : ℕ} (hq : 0 ≤ q) (h : |q - r| < 1 / 2) :
    roundHalfEven q = r := by
  have h2 := roundHalfEven_near hq
  rw [abs_lt] at h
  rw [abs_le] at h2
  have a1 : ((roundHalfEven q : ℕ) : ℚ) < (r : ℚ) + 1 := by linarith
  have a2 : (r : ℚ) < ((roundHalfEven q : ℕ) : ℚ) + 1 := by linarith
  have b1 : roundHalfEven q < r + 1 := by exact_mod_cast a1
  have b2 : r < roundHalfEven q + 1 := by exact_mod_cast a2
  omega

/-! ### Decimals -/

theorem decimals_length {r p k : ℕ} (hp : 0 < p) (hk : p + 2 ≤ k) :
    (decimals r p).length ≤ k ↔ r < 10 ^ (k - 1) := by
  have hlen : (padLeft '0' p (decStr (r % 10 ^ p))).length = p := by
    rw [length_padLeft]
    have := (decStr_length_le (r % 10 ^ p) p hp).mpr (Nat.mod_lt r (by positivity))
    omega
  unfold decimals
  rw [if_neg (by omega)]
  simp only [List.length_append, List.length_cons, hlen]
  have e : 10 ^ (k - 1) = 10 ^ (k - 1 - p) * 10 ^ p := by rw [← Nat.pow_add]; congr 1; omega
  rw [e, ← Nat.div_lt_iff_lt_mul (by positivity), ← decStr_length_le _ _ (by omega)]
  omega

theorem decimals_length_ge (r p : ℕ) (hp : 0 < p) : p + 2 ≤ (decimals r p).length := by
  have h0 := List.length_pos_iff.mpr (decStr_ne_nil (r / 10 ^ p))
  unfold decimals
  rw [if_neg (by omega)]
  simp only [List.length_append, List.length_cons, length_padLeft]
  omega

/-- One digit before the point. -/
theorem decimals_length_sci {r p : ℕ} (hp : 0 < p) (hr : r < 10 ^ (p + 1)) :
    (decimals r p).length = p + 2 := by
  have h1 := decimals_length_ge r p hp
  have h2 := (decimals_length (r := r) hp (le_refl (p + 2))).mpr (by simpa using hr)
  omega

/-- Characters of a number without sign and blanks. -/
def IsNum (c : Char) : Prop := IsDigit c ∨ c = '.'

theorem decimals_num (r p : ℕ) : ∀ c ∈ decimals r p, IsNum c := by
  intro c hc
  unfold decimals at hc
  rw [List.mem_append] at hc
  rcases hc with hc | hc
  · exact .inl (decStr_digits _ c hc)
  · split at hc
    · cases hc
    · rw [List.mem_cons] at hc
      rcases hc with rfl | hc
      · exact .inr rfl
      · exact .inl (padLeft_zero_digits _ _ c hc)

theorem digitsValue_zeros (z n : ℕ) : digitsValue (List.replicate z '0' ++ decStr n) = some n := by
  have := digitsValue_pad (z + (decStr n).length) n
  unfold padLeft at this
  rwa [Nat.add_sub_cancel] at this

theorem zeros_digits {z : ℕ} {s : Str} (h : ∀ c ∈ s, IsDigit c) :
    ∀ c ∈ List.replicate z '0' ++ s, IsDigit c := by
  intro c hc
  rw [List.mem_append] at hc
  rcases hc with hc | hc
  · rw [(List.mem_replicate.mp hc).2]
    unfold IsDigit
    decide
  · exact h c hc

theorem unsignedValue_zeros (z r p : ℕ) :
    unsignedValue (List.replicate z '0' ++ decimals r p) = some ((r : ℚ) / 10 ^ p) := by
  have hd := zeros_digits (z := z) (decStr_digits (r / 10 ^ p))
  rw [← unsignedValue_fixed]
  unfold decimals unsignedValue
  by_cases hp : p = 0
  · simp only [if_pos hp, List.append_nil]
    rw [dropWhile_digits hd, dropWhile_digits (decStr_digits _)]
    simp only [digitsValue_zeros, digitsValue_decStr]
  · simp only [if_neg hp]
    obtain ⟨a1, a2⟩ := takeWhile_digits (t := padLeft '0' p (decStr (r % 10 ^ p))) hd
    obtain ⟨b1, b2⟩ := takeWhile_digits (s := decStr (r / 10 ^ p))
      (t := padLeft '0' p (decStr (r % 10 ^ p))) (decStr_digits _)
    rw [← List.append_assoc, a1, a2, b1, b2]
    simp only [digitsValue_zeros, digitsValue_decStr]

/-! ### Exponents -/

theorem isNum_not_e {c : Char} (h : IsNum c) : (c ≠ 'e' && c ≠ 'E') = true := by
  rcases h with h | rfl
  · have h1 : c ≠ 'e' := by rintro rfl; exact absurd h (by unfold IsDigit; decide)
    have h2 : c ≠ 'E' := by rintro rfl; exact absurd h (by unfold IsDigit; decide)
    simp [h1, h2]
  · decide

theorem span_num {s t : Str} {c : Char} (hs : ∀ a ∈ s, IsNum a) (hc : c = 'e' ∨ c = 'E') :
    ((s ++ c :: t).takeWhile fun c => c ≠ 'e' && c ≠ 'E') = s ∧
    ((s ++ c :: t).dropWhile fun c => c ≠ 'e' && c ≠ 'E') = c :: t := by
  induction s with
  | nil => rcases hc with rfl | rfl <;> simp
  | cons a r ih =>
    have ha := isNum_not_e (hs a List.mem_cons_self)
    obtain ⟨h1, h2⟩ := ih fun x hx => hs x (List.mem_cons_of_mem _ hx)
    rw [List.cons_append, List.takeWhile_cons, List.dropWhile_cons, ha]
    simp only [if_true]
    exact ⟨by rw [h1], h2⟩

theorem span_num_all {s : Str} (hs : ∀ a ∈ s, IsNum a) :
    (s.dropWhile fun c => c ≠ 'e' && c ≠ 'E') = [] := by
  induction s with
  | nil => rfl
  | cons a r ih =>
    have ha := isNum_not_e (hs a List.mem_cons_self)
    rw [List.dropWhile_cons, ha]
    simp only [if_true]
    exact ih fun x hx => hs x (List.mem_cons_of_mem _ hx)

/-- An exponent padded to any number of digits. -/
theorem parseSigned_exp (e : ℤ) (k : ℕ) :
    parseSigned (((if e < 0 then '-' else '+') :: padLeft '0' k (decStr e.natAbs)).map Char.toNat) =
      some e := by
  have h := parseDigits_padLeft k e.natAbs false
  by_cases he : e < 0
  · simp only [if_pos he, List.map_cons]
    show (parseDigits 0 false ((padLeft '0' k (decStr e.natAbs)).map Char.toNat)).map _ = _
    rw [h]
    simp only [Option.map_some, Option.some.injEq]
    show -((e.natAbs : ℕ) : ℤ) = e
    omega
  · simp only [if_neg he, List.map_cons]
    show (parseDigits 0 false ((padLeft '0' k (decStr e.natAbs)).map Char.toNat)).map _ = _
    rw [h]
    simp only [Option.map_some, Option.some.injEq]
    show ((e.natAbs : ℕ) : ℤ) = e
    omega

/-- Digits, then an exponent. -/
theorem unsignedFloat_sci (z r p : ℕ) (e : ℤ) (k : ℕ) {c : Char} (hc : c = 'e' ∨ c = 'E') :
    unsignedFloat (List.replicate z '0' ++ (decimals r p ++
      c :: (if e < 0 then '-' else '+') :: padLeft '0' k (decStr e.natAbs))) =
      some ((r : ℚ) / 10 ^ p * 10 ^ e) := by
  have hn : ∀ a ∈ List.replicate z '0' ++ decimals r p, IsNum a := by
    intro a ha
    rw [List.mem_append] at ha
    rcases ha with ha | ha
    · rw [(List.mem_replicate.mp ha).2]
      exact .inl (by unfold IsDigit; decide)
    · exact decimals_num _ _ a ha
  obtain ⟨h1, h2⟩ := span_num (t := (if e < 0 then '-' else '+') :: padLeft '0' k (decStr e.natAbs))
    hn hc
  unfold unsignedFloat
  rw [← List.append_assoc, h1, h2]
  simp only [unsignedValue_zeros, parseSigned_exp]

theorem unsignedFloat_fixed (z r p : ℕ) :
    unsignedFloat (List.replicate z '0' ++ decimals r p) = some ((r : ℚ) / 10 ^ p) := by
  have hn : ∀ a ∈ List.replicate z '0' ++ decimals r p, IsNum a := by
    intro a ha
    rw [List.mem_append] at ha
    rcases ha with ha | ha
    · rw [(List.mem_replicate.mp ha).2]
      exact .inl (by unfold IsDigit; decide)
    · exact decimals_num _ _ a ha
  unfold unsignedFloat
  rw [span_num_all hn]
  exact unsignedValue_zeros z r p

theorem floatText_sign {neg plus : Bool} {s : Str} {q : ℚ} (hs : ∃ a t, s = a :: t ∧ IsDigit a)
    (h : unsignedFloat s = some q) : floatText (signText plus neg ++ s) = some ⟨neg, q⟩ := by
  unfold signText
  cases neg
  · simp only [Bool.false_eq_true, if_false]
    cases plus
    · simp only [Bool.false_eq_true, if_false, List.nil_append]
      obtain ⟨a, t, rfl, ha⟩ := hs
      have h1 : a ≠ '-' := by rintro rfl; exact absurd ha (by unfold IsDigit; decide)
      have h2 : a ≠ '+' := by rintro rfl; exact absurd ha (by unfold IsDigit; decide)
      unfold floatText
      split
      · rename_i h; injection h with h _; exact absurd h h1
      · rename_i h; injection h with h _; exact absurd h h2
      · rw [h]; rfl
    · simp only [if_true, List.cons_append, List.nil_append, floatText, h, Option.map_some]
  · simp only [if_true, List.cons_append, List.nil_append, floatText, h, Option.map_some]

/-! ### Scientific notation -/

theorem sciParts_zero (p : ℕ) : sciParts 0 p = (0, 0) := by
  unfold sciParts
  rw [if_pos rfl]

/-- Of a positive number: `p + 1` digits, the first one not zero, at most half a unit off. -/
theorem sciParts_pos {m : ℚ} (hm : 0 < m) (p : ℕ) :
    10 ^ p ≤ (sciParts m p).2 ∧ (sciParts m p).2 < 10 ^ (p + 1) ∧
    |((sciParts m p).2 : ℚ) / 10 ^ p * 10 ^ (sciParts m p).1 - m| ≤ 1 / 2 / 10 ^ p * m ∧
    ((sciParts m p).1 = Int.log 10 m ∨ (sciParts m p).1 = Int.log 10 m + 1) := by
  have hlo : (10 : ℚ) ^ (Int.log 10 m) ≤ m := by
    have := Int.zpow_log_le_self (b := 10) (by norm_num) hm
    exact_mod_cast this
  have hhi : m < (10 : ℚ) ^ (Int.log 10 m + 1) := by
    have := Int.lt_zpow_succ_log_self (b := 10) (by norm_num) m
    exact_mod_cast this
  unfold sciParts
  rw [if_neg hm.ne']
  simp only
  generalize Int.log 10 m = e at *
  have h10 : (10 : ℚ) ≠ 0 := by norm_num
  have hpos : (0 : ℚ) < 10 ^ ((p : ℤ) - e) := zpow_pos (by norm_num) _
  have hpe : (0 : ℚ) < 10 ^ e := zpow_pos (by norm_num) _
  have hpp : (0 : ℚ) < 10 ^ p := by positivity
  have hsplit : (10 : ℚ) ^ ((p : ℤ) - e) = 10 ^ p / 10 ^ e := by
    rw [zpow_sub₀ h10, zpow_natCast]
  have hq0 : 0 ≤ m * 10 ^ ((p : ℤ) - e) := by positivity
  have hnear := roundHalfEven_near hq0
  have hqlo : (10 : ℚ) ^ p ≤ m * 10 ^ ((p : ℤ) - e) := by
    rw [hsplit]
    have : (10 : ℚ) ^ p = 10 ^ e * (10 ^ p / 10 ^ e) := by field_simp
    calc (10 : ℚ) ^ p = 10 ^ e * (10 ^ p / 10 ^ e) := this
      _ ≤ m * (10 ^ p / 10 ^ e) := mul_le_mul_of_nonneg_right hlo (by positivity)
  have hqhi : m * 10 ^ ((p : ℤ) - e) < (10 : ℚ) ^ (p + 1) := by
    rw [hsplit]
    rw [zpow_add_one₀ h10] at hhi
    calc m * (10 ^ p / 10 ^ e) < 10 ^ e * 10 * (10 ^ p / 10 ^ e) :=
          mul_lt_mul_of_pos_right hhi (by positivity)
      _ = 10 ^ (p + 1) := by field_simp; ring
  have herr : |(roundHalfEven (m * 10 ^ ((p : ℤ) - e)) : ℚ) / 10 ^ p * 10 ^ e - m| ≤ 1 / 2 / 10 ^ p * m := by
    have e1 : (roundHalfEven (m * 10 ^ ((p : ℤ) - e)) : ℚ) / 10 ^ p * 10 ^ e - m =
        ((roundHalfEven (m * 10 ^ ((p : ℤ) - e)) : ℚ) - m * 10 ^ ((p : ℤ) - e)) * (10 ^ e / 10 ^ p) := by
      rw [hsplit]
      field_simp
    rw [e1, abs_mul, abs_of_pos (show (0 : ℚ) < 10 ^ e / 10 ^ p by positivity)]
    calc _ ≤ 1 / 2 * ((10 : ℚ) ^ e / 10 ^ p) := mul_le_mul_of_nonneg_right hnear (by positivity)
      _ = 1 / 2 / 10 ^ p * 10 ^ e := by ring
      _ ≤ 1 / 2 / 10 ^ p * m := mul_le_mul_of_nonneg_left hlo (by positivity)
  rw [abs_le] at hnear
  have hlow : 10 ^ p ≤ roundHalfEven (m * 10 ^ ((p : ℤ) - e)) := by
    have : ((10 ^ p : ℕ) : ℚ) < (roundHalfEven (m * 10 ^ ((p : ℤ) - e)) : ℚ) + 1 := by
      push_cast; linarith
    have : 10 ^ p < roundHalfEven (m * 10 ^ ((p : ℤ) - e)) + 1 := by exact_mod_cast this
    omega
  have hhigh : roundHalfEven (m * 10 ^ ((p : ℤ) - e)) ≤ 10 ^ (p + 1) := by
    have : (roundHalfEven (m * 10 ^ ((p : ℤ) - e)) : ℚ) < ((10 ^ (p + 1) : ℕ) : ℚ) + 1 := by
      push_cast; linarith
    have : roundHalfEven (m * 10 ^ ((p : ℤ) - e)) < 10 ^ (p + 1) + 1 := by exact_mod_cast this
    omega
  by_cases hr : roundHalfEven (m * 10 ^ ((p : ℤ) - e)) = 10 ^ (p + 1)
  · rw [if_pos hr]
    refine ⟨le_refl _, Nat.pow_lt_pow_right (by norm_num) (by omega), ?_, .inr rfl⟩
    rw [hr] at herr
    have : ((10 ^ p : ℕ) : ℚ) / 10 ^ p * 10 ^ (e + 1) = ((10 ^ (p + 1) : ℕ) : ℚ) / 10 ^ p * 10 ^ e := by
      push_cast
      rw [zpow_add_one₀ h10]
      field_simp
      ring
    rw [this]
    exact herr
  · rw [if_neg hr]
    exact ⟨hlow, by omega, herr, .inl rfl⟩

/-- A number close enough to `r / 10 ^ p * 10 ^ e` has the same digits and exponent. -/
theorem sciParts_stable {p r : ℕ} {e : ℤ} {y : ℚ} (hp : p ≤ 14) (h1 : 10 ^ p ≤ r)
    (h2 : r < 10 ^ (p + 1)) (hy : |y - (r : ℚ) / 10 ^ p * 10 ^ e| ≤ (r : ℚ) / 10 ^ p * 10 ^ e / 2 ^ 53) :
    sciParts y p = (e, r) := by
  have h10 : (10 : ℚ) ≠ 0 := by norm_num
  have hpe : (0 : ℚ) < 10 ^ e := zpow_pos (by norm_num) _
  have hpp : (0 : ℚ) < 10 ^ p := by positivity
  have hr1 : (10 : ℚ) ^ p ≤ r := by exact_mod_cast h1
  have hr2 : (r : ℚ) + 1 ≤ 10 ^ (p + 1) := by
    have : r + 1 ≤ 10 ^ (p + 1) := h2
    exact_mod_cast this
  have hbig : (10 : ℚ) ^ (p + 1) ≤ 10 ^ 15 := by
    exact pow_le_pow_right₀ (by norm_num) (by omega)
  have hbig' : (10 : ℚ) ^ 15 < 2 ^ 53 / 4 := by norm_num
  -- in units of the last digit
  set u : ℚ := 10 ^ e / 10 ^ p with hu
  have hupos : 0 < u := by positivity
  have hv : (r : ℚ) / 10 ^ p * 10 ^ e = r * u := by rw [hu]; ring
  rw [hv] at hy
  obtain ⟨t, ht⟩ : ∃ t, y = t * u := ⟨y / u, by field_simp⟩
  subst ht
  have hd : |t - r| ≤ r / 2 ^ 53 := by
    have : |t * u - r * u| = |t - r| * u := by rw [← sub_mul, abs_mul, abs_of_pos hupos]
    rw [this] at hy
    have e2 : (r : ℚ) * u / 2 ^ 53 = r / 2 ^ 53 * u := by ring
    rw [e2] at hy
    exact le_of_mul_le_mul_right hy hupos
  have hsmall : (r : ℚ) / 2 ^ 53 < 1 / 4 := by
    rw [div_lt_iff₀ (by positivity)]
    linarith
  rw [abs_le] at hd
  have ht0 : 0 < t := by
    have : (1 : ℚ) ≤ 10 ^ p := one_le_pow₀ (by norm_num)
    linarith
  have huE : t * u = t / 10 ^ p * 10 ^ e := by rw [hu]; ring
  -- the upper bound on `y`
  have hup : t * u < 10 ^ (e + 1) := by
    rw [huE, zpow_add_one₀ h10]
    have : t / 10 ^ p < 10 := by
      rw [div_lt_iff₀ hpp]
      rw [pow_succ] at hr2
      linarith
    rw [mul_comm (10 ^ e : ℚ)]
    exact mul_lt_mul_of_pos_right this hpe
  have hsplit : ∀ k : ℤ, (10 : ℚ) ^ ((p : ℤ) - k) = 10 ^ p / 10 ^ k := by
    intro k
    rw [zpow_sub₀ h10, zpow_natCast]
  unfold sciParts
  rw [if_neg (by positivity)]
  simp only
  by_cases hc : (10 : ℚ) ^ p ≤ t
  · have hlow : (10 : ℚ) ^ e ≤ t * u := by
      rw [huE]
      have : 1 ≤ t / 10 ^ p := by rw [le_div_iff₀ hpp]; linarith
      calc (10 : ℚ) ^ e = 1 * 10 ^ e := by ring
        _ ≤ t / 10 ^ p * 10 ^ e := mul_le_mul_of_nonneg_right this hpe.le
    have hlog : Int.log 10 (t * u) = e := by
      have hpos : 0 < t * u := by positivity
      have a : e ≤ Int.log 10 (t * u) :=
        (Int.zpow_le_iff_le_log (b := 10) (by norm_num) hpos).mp (by exact_mod_cast hlow)
      have b : Int.log 10 (t * u) < e + 1 :=
        (Int.lt_zpow_iff_log_lt (b := 10) (by norm_num) hpos).mp (by exact_mod_cast hup)
      omega
    rw [hlog]
    have hq : t * u * 10 ^ ((p : ℤ) - e) = t := by
      rw [hsplit, hu]; field_simp
    rw [hq, roundHalfEven_of_near (r := r) ht0.le (by rw [abs_lt]; constructor <;> linarith),
      if_neg (by omega)]
  · -- just below a power of ten
    have hrp : r = 10 ^ p := by
      have : (r : ℚ) < 10 ^ p + 1 := by linarith
      have : r < 10 ^ p + 1 := by exact_mod_cast this
      omega
    subst hrp
    push_cast at hd hsmall
    have hlow : (10 : ℚ) ^ (e - 1) ≤ t * u := by
      rw [huE, zpow_sub_one₀ h10]
      have : (10 : ℚ)⁻¹ ≤ t / 10 ^ p := by
        rw [le_div_iff₀ hpp]
        have : (1 : ℚ) ≤ 10 ^ p := one_le_pow₀ (by norm_num)
        have e3 : (10 : ℚ)⁻¹ = 1 / 10 := by norm_num
        rw [e3]
        linarith
      rw [mul_comm (10 ^ e : ℚ)]
      exact mul_le_mul_of_nonneg_right this hpe.le
    have hup' : t * u < 10 ^ e := by
      rw [huE]
      have : t / 10 ^ p < 1 := by rw [div_lt_iff₀ hpp]; linarith
      calc t / 10 ^ p * 10 ^ e < 1 * 10 ^ e := mul_lt_mul_of_pos_right this hpe
        _ = 10 ^ e := by ring
    have hlog : Int.log 10 (t * u) = e - 1 := by
      have hpos : 0 < t * u := by positivity
      have a : e - 1 ≤ Int.log 10 (t * u) :=
        (Int.zpow_le_iff_le_log (b := 10) (by norm_num) hpos).mp (by exact_mod_cast hlow)
      have b : Int.log 10 (t * u) < e :=
        (Int.lt_zpow_iff_log_lt (b := 10) (by norm_num) hpos).mp (by exact_mod_cast hup')
      omega
    rw [hlog]
    have hq : t * u * 10 ^ ((p : ℤ) - (e - 1)) = t * 10 := by
      rw [hsplit, hu, zpow_sub_one₀ h10]; field_simp
    rw [hq, roundHalfEven_of_near (r := 10 ^ (p + 1)) (by positivity) ?_, if_pos rfl]
    · simp
    · push_cast
      have h5 : (10 : ℚ) ^ (p + 1) / 2 ^ 53 < 1 / 4 := by
        rw [div_lt_iff₀ (by positivity)]
        linarith
      rw [pow_succ] at h5 ⊢
      have h6 : (10 : ℚ) ^ p * 10 / 2 ^ 53 = 10 ^ p / 2 ^ 53 * 10 := by ring
      rw [h6] at h5
      rw [abs_lt]
      constructor <;> linarith

/-! ### Shape of a formatted number -/

/-- The number a format shows for the magnitude `m`. -/
def CFmt.shown (f : CFmt) (m : ℚ) : ℚ :=
  match f.exp with
  | none => (roundHalfEven (m * 10 ^ f.prec) : ℚ) / 10 ^ f.prec
  | some _ => ((sciParts m f.prec).2 : ℚ) / 10 ^ f.prec * 10 ^ (sciParts m f.prec).1

/-- Formats with an exponent letter that Python has. -/
def CFmt.letterOk (f : CFmt) : Prop := f.exp = none ∨ f.exp = some 'e' ∨ f.exp = some 'E'

theorem CFmt.apply_shape (f : CFmt) (x : Flt) : ∃ a z b : ℕ, f.apply x =
    List.replicate a ' ' ++ (signText f.plus x.neg ++ (List.replicate z '0' ++ f.body x.mag)) ++
      List.replicate b ' ' := by
  unfold CFmt.apply
  simp only
  split
  · exact ⟨0, 0, _, by simp only [padRight, List.replicate_zero, List.nil_append]; rfl⟩
  · split
    · exact ⟨0, _, 0, by simp only [padLeft, List.replicate_zero, List.nil_append, List.append_nil]; rfl⟩
    · exact ⟨_, 0, 0, by simp only [padLeft, List.replicate_zero, List.nil_append, List.append_nil]; rfl⟩

theorem CFmt.apply_length (f : CFmt) (x : Flt) :
    (f.apply x).length = max f.width ((signText f.plus x.neg).length + (f.body x.mag).length) := by
  unfold CFmt.apply
  simp only
  split
  · simp [padRight]; omega
  · split
    · rw [List.length_append, length_padLeft]; omega
    · rw [length_padLeft, List.length_append]

/-- Visible ASCII. -/
def Visible (c : Char) : Prop := 33 ≤ c.toNat ∧ c.toNat < 128

theorem digit_visible {c : Char} (h : IsDigit c) : Visible c := by
  unfold IsDigit at h
  unfold Visible
  omega

theorem num_visible {c : Char} (h : IsNum c) : Visible c := by
  rcases h with h | rfl
  · exact digit_visible h
  · unfold Visible; decide

theorem expText_visible {c : Char} (hc : c = 'e' ∨ c = 'E') (e : ℤ) :
    ∀ a ∈ expText c e, Visible a := by
  intro a ha
  unfold expText at ha
  rw [List.mem_cons, List.mem_cons] at ha
  rcases ha with rfl | rfl | ha
  · rcases hc with rfl | rfl <;> (unfold Visible; decide)
  · split <;> (unfold Visible; decide)
  · exact digit_visible (padLeft_zero_digits _ _ a ha)

theorem CFmt.body_visible {f : CFmt} (hf : f.letterOk) (m : ℚ) : ∀ a ∈ f.body m, Visible a := by
  intro a ha
  unfold CFmt.body at ha
  rcases hf with h | h | h <;> simp only [h] at ha
  · exact num_visible (decimals_num _ _ a ha)
  · rw [List.mem_append] at ha
    rcases ha with ha | ha
    · exact num_visible (decimals_num _ _ a ha)
    · exact expText_visible (.inl rfl) _ a ha
  · rw [List.mem_append] at ha
    rcases ha with ha | ha
    · exact num_visible (decimals_num _ _ a ha)
    · exact expText_visible (.inr rfl) _ a ha

theorem sign_visible (p n : Bool) : ∀ a ∈ signText p n, Visible a := by
  intro a ha
  unfold signText at ha
  cases n <;> cases p <;> simp at ha <;> subst ha <;> unfold Visible <;> decide

theorem decimals_head (r p : ℕ) : ∃ a t, decimals r p = a :: t ∧ IsDigit a := by
  have hne := decStr_ne_nil (r / 10 ^ p)
  have hd := decStr_digits (r / 10 ^ p)
  unfold decimals
  generalize decStr (r / 10 ^ p) = s at hne hd
  cases s with
  | nil => exact absurd rfl hne
  | cons a t => exact ⟨a, _, rfl, hd a List.mem_cons_self⟩

theorem zeros_head {s : Str} (h : ∃ a t, s = a :: t ∧ IsDigit a) (z : ℕ) :
    ∃ a t, List.replicate z '0' ++ s = a :: t ∧ IsDigit a := by
  cases z with
  | zero => simpa using h
  | succ z => exact ⟨'0', _, by rw [List.replicate_succ, List.cons_append], by unfold IsDigit; decide⟩

theorem CFmt.body_head (f : CFmt) (m : ℚ) : ∃ a t, f.body m = a :: t ∧ IsDigit a := by
  unfold CFmt.body
  cases f.exp with
  | none => exact decimals_head _ _
  | some c =>
    obtain ⟨a, t, h, ha⟩ := decimals_head (sciParts m f.prec).2 f.prec
    exact ⟨a, t ++ expText c (sciParts m f.prec).1, by simp only [h, List.cons_append], ha⟩

/-- The characters between the blanks are the number shown, with the sign of `x`. -/
theorem CFmt.core_value {f : CFmt} (hf : f.letterOk) (x : Flt) (z : ℕ) :
    floatText (signText f.plus x.neg ++ (List.replicate z '0' ++ f.body x.mag)) =
      some ⟨x.neg, f.shown x.mag⟩ := by
  refine floatText_sign (zeros_head (f.body_head x.mag) z) ?_
  unfold CFmt.body CFmt.shown
  rcases hf with h | h | h <;> simp only [h]
  · exact unsignedFloat_fixed _ _ _
  · exact unsignedFloat_sci _ _ _ _ 2 (.inl rfl)
  · exact unsignedFloat_sci _ _ _ _ 2 (.inr rfl)

/-! ### Field contents -/

/-- The number the content of a field stands for: `float(text)` ignores white space around it. -/
def fieldNumber (b : Bytes) : Option Flt := floatText (latin1Dec (lstripBy bSpace (rstripB b)))

theorem visible_byte {c : Char} (h : Visible c) : bSpace (UInt8.ofNat c.toNat) = false := by
  unfold Visible at h
  unfold bSpace
  have h1 : (UInt8.ofNat c.toNat).toNat = c.toNat := by
    rw [UInt8.toNat_ofNat']; omega
  rw [Bool.or_eq_false_iff, Bool.and_eq_false_iff]
  constructor
  · rw [beq_eq_false_iff_ne]
    intro h2
    have := congrArg UInt8.toNat h2
    rw [h1] at this
    simp at this
    omega
  · right
    rw [decide_eq_false_iff_not, UInt8.le_iff_toNat_le, h1]
    simp
    omega

theorem strip_core {core : Str} (hv : ∀ a ∈ core, Visible a) (hne : core ≠ []) (a b : ℕ) :
    lstripBy bSpace (rstripB ((List.replicate a ' ' ++ core ++ List.replicate b ' ').map
      fun c => UInt8.ofNat c.toNat)) = core.map fun c => UInt8.ofNat c.toNat := by
  rw [List.map_append, List.map_append, List.map_replicate, List.map_replicate]
  have hsp : UInt8.ofNat ' '.toNat = 32 := by decide
  rw [hsp]
  unfold rstripB
  rw [rstripBy_append_of_all _ _ _ (by simp [bSpace])]
  have hlast : rstripBy bSpace (List.replicate a (32 : UInt8) ++ core.map fun c => UInt8.ofNat c.toNat) =
      List.replicate a (32 : UInt8) ++ core.map fun c => UInt8.ofNat c.toNat := by
    refine rstripBy_eq_self _ _ ?_
    intro x hx
    rw [List.getLast?_append, List.getLast?_map] at hx
    obtain ⟨c, hc⟩ : ∃ c, core.getLast? = some c := by
      cases h : core.getLast? with
      | none => exact absurd (List.getLast?_eq_none_iff.mp h) hne
      | some c => exact ⟨c, rfl⟩
    rw [hc] at hx
    simp at hx
    rw [← hx]
    exact visible_byte (hv c (List.mem_of_getLast? hc))
  rw [hlast]
  clear hlast
  unfold lstripBy
  have hdrop : ∀ l : List UInt8, (List.replicate a (32 : UInt8) ++ l).dropWhile bSpace = l.dropWhile bSpace := by
    intro l
    induction a with
    | zero => rfl
    | succ a ih =>
      rw [List.replicate_succ, List.cons_append, List.dropWhile_cons]
      rw [show bSpace 32 = true from by decide]
      simpa using ih
  rw [hdrop]
  cases core with
  | nil => exact absurd rfl hne
  | cons c r =>
    rw [List.map_cons, List.dropWhile_cons, visible_byte (hv c List.mem_cons_self)]
    simp

theorem dec_enc_visible {s : Str} (h : ∀ a ∈ s, Visible a) :
    latin1Dec (s.map fun c => UInt8.ofNat c.toNat) = s := by
  unfold latin1Dec
  rw [List.map_map]
  conv => rhs; rw [← List.map_id s]
  refine List.map_congr_left fun c hc => ?_
  have := h c hc
  unfold Visible at this
  simp only [Function.comp, id, UInt8.toNat_ofNat']
  rw [Nat.mod_eq_of_lt (by omega), Char.ofNat_toNat]

/-- A text of blanks around visible characters, as the content of a field. -/
theorem fieldNumber_core {core : Str} (hv : ∀ a ∈ core, Visible a) (hne : core ≠ []) (a b : ℕ) :
    fieldNumber ((List.replicate a ' ' ++ core ++ List.replicate b ' ').map
      fun c => UInt8.ofNat c.toNat) = floatText core := by
  unfold fieldNumber
  rw [strip_core hv hne, dec_enc_visible hv]

theorem core_ascii {core : Str} (hv : ∀ a ∈ core, Visible a) (a b : ℕ) :
    latin1Enc (List.replicate a ' ' ++ core ++ List.replicate b ' ') =
      .ok ((List.replicate a ' ' ++ core ++ List.replicate b ' ').map fun c => UInt8.ofNat c.toNat) := by
  unfold latin1Enc
  rw [if_pos]
  rw [List.all_eq_true]
  intro c hc
  rw [decide_eq_true_eq]
  rw [List.mem_append, List.mem_append] at hc
  rcases hc with (hc | hc) | hc
  · rw [(List.mem_replicate.mp hc).2]; decide
  · have := hv c hc; unfold Visible at this; omega
  · rw [(List.mem_replicate.mp hc).2]; decide

/-- Reading a content that stands for a number. -/
theorem Doubles.read {P : PyFloat} (D : Doubles P) {b : Bytes} {z : Flt} (h : fieldNumber b = some z)
    (hr : z.mag = 0 ∨ 1 / 10 ^ 250 ≤ z.mag ∧ z.mag ≤ 10 ^ 250) :
    ∃ y, pyFloatB P b = .ok y ∧ Near (D.val y) z ∧
      (1 / 10 ^ 9 ≤ z.mag → 1 / 10 ^ 9 ≤ (D.val y).mag) := by
  obtain ⟨y, h1, h2⟩ := D.parse _ _ h hr
  refine ⟨y, ?_, h2⟩
  unfold pyFloatB
  rw [← h1]
  congr 1
  unfold latin1Dec
  rw [List.map_map]
  refine List.map_congr_left fun x _ => ?_
  simp only [Function.comp]
  exact (toNat_ofNat_lt x.toNat_lt).symm

end Verif
