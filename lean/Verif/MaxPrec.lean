import Verif.Format

/-
`float_to_fixed_width` with its third argument, `maximum_precision` (pynitf/nitf_field.py:20-34).
The function is part of the interface; pynitf itself leaves the argument out (`fixedWidthF`).
A number is as in `Format.lean`: finite, its sign and its magnitude.
-/

namespace Verif.MaxPrec

open Verif

/-- The number a float stands for, sign included. -/
def value (x : Flt) : ℚ := if x.neg then -x.mag else x.mag

/-- The format `'{:.{}e}'` with `i` decimals (nitf_field.py:27). -/
def expFmt (i : ℕ) : CFmt := ⟨false, false, false, 0, i, some 'e'⟩

/-- The condition for the exponent (nitf_field.py:24-26).  Python compares with the float nearest to
`10 ** (5 - max_width)` when the power is negative; here it is the exact power. -/
def wantsExp (maximumPrecision : Bool) (x : Flt) (w : ℕ) : Bool :=
  maximumPrecision &&
    (decide (value x < (10 : ℚ) ^ (5 - (w : ℤ))) || decide ((10 : ℚ) ^ ((w : ℤ) - 5) < value x))

/-- `s1.format(n, i)` (nitf_field.py:23-29). -/
def text (maximumPrecision : Bool) (x : Flt) (w i : ℕ) : Str :=
  if wantsExp maximumPrecision x w then (expFmt i).apply x else fixedTextF x i

/-- The loop over `range(max_width - 2, -1, -1)` (nitf_field.py:28-31), as `fixedLoopF`. -/
def loop (t : ℕ → Str) (w : ℕ) : ℕ → Str
  | 0 => t 0
  | i + 1 => if (t (i + 1)).length ≤ w then t (i + 1) else loop t w i

/-- `float_to_fixed_width(x, w, maximum_precision)` (nitf_field.py:20-34).  As in `fixedWidthF`, a
width below 2 leaves `s` unbound. -/
def fixedWidth (maximumPrecision : Bool) (x : Flt) (w : ℕ) : Except Err Str :=
  if w < 2 then .error .name
  else
    let s := loop (text maximumPrecision x w) w (w - 2)
    if w < s.length then .error .runtime else .ok s

end Verif.MaxPrec
