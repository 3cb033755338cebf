import Verif.FieldLemmas
import Mathlib.Data.Rat.Floor
import Mathlib.Tactic.Linarith
import Mathlib.Tactic.Positivity
import Mathlib.Tactic.FieldSimp
import Mathlib.Tactic.Ring

/-
Model of `float_to_fixed_width` (pynitf/nitf_field.py:20-34).  A finite float is the rational
number it stands for.  Not modelled: infinities, NaN and the sign of a negative zero.  The variant
with `maximum_precision=True` is in `MaxPrec.lean`.
-/

namespace Verif

/-- Rounding to the nearest integer, ties to even: what float formatting does with the exact
value. -/
def roundHalfEven (q : ℚ) : ℕ :=
  let f := ⌊q⌋
  let d := q - f
  if d < 1 / 2 then f.toNat
  else if 1 / 2 < d then (f + 1).toNat
  else if f % 2 = 0 then f.toNat else (f + 1).toNat

/-- `'{:.{}f}'.format(n, i)`. -/
def fixedText (n : ℚ) (i : ℕ) : Str :=
  let r := roundHalfEven (|n| * 10 ^ i)
  (if n < 0 then ['-'] else []) ++ decStr (r / 10 ^ i) ++
    if i = 0 then [] else '.' :: padLeft '0' i (decStr (r % 10 ^ i))

/-- The loop over `range(max_width - 2, -1, -1)`, from `i` decimals down; the loop variable `s` keeps
its last value. -/
def fixedLoop (n : ℚ) (w : ℕ) : ℕ → Str
  | 0 => fixedText n 0
  | i + 1 => if (fixedText n (i + 1)).length ≤ w then fixedText n (i + 1) else fixedLoop n w i

/-- `float_to_fixed_width(n, max_width)` (nitf_field.py:20-34).  For a width below 2 the loop does
not run and `s` is unbound (UnboundLocalError, a NameError). -/
def floatToFixedWidth (n : ℚ) (w : ℕ) : Except Err Str :=
  if w < 2 then .error .name
  else
    let s := fixedLoop n w (w - 2)
    if w < s.length then .error .runtime else .ok s

end Verif
