import Verif.PyLemmas
import Mathlib.Data.Rat.Defs
import Mathlib.Tactic.NormNum

/- The number a decimal text stands for. -/

namespace Verif

/-- Value of a string of digits. -/
def digitsValue (s : Str) : Option ℕ := parseDigits 0 false (s.map Char.toNat)

/-- Value of digits, optionally followed by a point and digits. -/
def unsignedValue (s : Str) : Option ℚ :=
  match s.dropWhile (· ≠ '.') with
  | [] => (digitsValue s).map fun a => (a : ℚ)
  | _ :: frac =>
    match digitsValue (s.takeWhile (· ≠ '.')), digitsValue frac with
    | some a, some b => some (a + b / 10 ^ frac.length)
    | _, _ => none

/-- Value of a decimal text with optional sign. -/
def decimalValue (s : Str) : Option ℚ :=
  match s with
  | '-' :: r => (unsignedValue r).map fun q => -q
  | '+' :: r => unsignedValue r
  | _ => unsignedValue s

theorem digit_ne_point {c : Char} (h : IsDigit c) : c ≠ '.' := by
  rintro rfl
  exact absurd h (by unfold IsDigit; decide)

theorem digitsValue_decStr (n : ℕ) : digitsValue (decStr n) = some n := by
  unfold digitsValue
  have := parseDigits_decStr n 0 false []
  rw [List.append_nil] at this
  rw [this]
  simp [parseDigits]

theorem digitsValue_pad (w n : ℕ) : digitsValue (padLeft '0' w (decStr n)) = some n := by
  unfold digitsValue
  exact parseDigits_padLeft w n false

theorem takeWhile_digits {s t : Str} (h : ∀ c ∈ s, IsDigit c) :
    (s ++ '.' :: t).takeWhile (· ≠ '.') = s ∧ (s ++ '.' :: t).dropWhile (· ≠ '.') = '.' :: t := by
  induction s with
  | nil => simp
  | cons a r ih =>
    have ha := digit_ne_point (h a List.mem_cons_self)
    have := ih fun c hc => h c (List.mem_cons_of_mem _ hc)
    simpa [ha] using this

theorem dropWhile_digits {s : Str} (h : ∀ c ∈ s, IsDigit c) : s.dropWhile (· ≠ '.') = [] := by
  induction s with
  | nil => rfl
  | cons a r ih =>
    have ha := digit_ne_point (h a List.mem_cons_self)
    have := ih fun c hc => h c (List.mem_cons_of_mem _ hc)
    simpa [ha] using this

theorem decimalValue_digit {a : Char} {t : Str} (ha : IsDigit a) :
    decimalValue (a :: t) = unsignedValue (a :: t) := by
  have h1 : a ≠ '-' := by rintro rfl; exact absurd ha (by unfold IsDigit; decide)
  have h2 : a ≠ '+' := by rintro rfl; exact absurd ha (by unfold IsDigit; decide)
  unfold decimalValue
  split
  · rename_i h; injection h with h _; exact absurd h h1
  · rename_i h; injection h with h _; exact absurd h h2
  · rfl

end Verif
