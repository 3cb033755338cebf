import Verif.Fixed
import Verif.Decimal
import Verif.Tables
import Mathlib.Data.Int.Log

/-
Text of floats in fields: the `printf` formats of the field descriptions, the function
`_tre_rpc_coeff_format` and the default `float_to_fixed_width`, applied by
`NitfField._format_val` (pynitf/nitf_field.py:182-201).

A finite float is its sign and its magnitude, a rational number; so negative zero is there, but
infinities and NaN are not.
-/

namespace Verif

/-- A finite float. -/
structure Flt where
  neg : Bool
  mag : ℚ
  deriving DecidableEq

/-- A format `%[flags][width][.prec]f` or `...e`, `...E`: the formats given as `frmt` in the field
descriptions (for example pynitf/nitf_tre_sensrb.py:17-27).  `exp` is the exponent letter. -/
structure CFmt where
  left : Bool
  plus : Bool
  zero : Bool
  width : ℕ
  prec : ℕ
  exp : Option Char
  deriving DecidableEq

/-- Digits at the start of a text: their value, whether there are any, and what follows. -/
def takeNat (acc : ℕ) (any : Bool) : Str → ℕ × Bool × Str
  | [] => (acc, any, [])
  | c :: r => if c.isDigit then takeNat (acc * 10 + (c.toNat - 48)) true r else (acc, any, c :: r)

/-- The flags of a format (those that occur in pynitf). -/
def takeFlags (f : CFmt) : Str → CFmt × Str
  | '-' :: r => takeFlags { f with left := true } r
  | '+' :: r => takeFlags { f with plus := true } r
  | '0' :: r => takeFlags { f with zero := true } r
  | r => (f, r)

/-- Conversion letter, after an ignored length modifier `l`. -/
def takeConv (f : CFmt) : Str → Option CFmt
  | ['l', 'f'] => some f
  | ['f'] => some f
  | ['l', 'e'] => some { f with exp := some 'e' }
  | ['e'] => some { f with exp := some 'e' }
  | ['l', 'E'] => some { f with exp := some 'E' }
  | ['E'] => some { f with exp := some 'E' }
  | _ => none

/-- A Python `%` format with one float conversion; the precision is 6 if none is given. -/
def CFmt.ofText : Str → Option CFmt
  | '%' :: s =>
    let (f, r) := takeFlags ⟨false, false, false, 0, 6, none⟩ s
    let (w, _, r) := takeNat 0 false r
    match r with
    | '.' :: r =>
      let (p, _, r) := takeNat 0 false r
      takeConv { f with width := w, prec := p } r
    | r => takeConv { f with width := w } r
  | _ => none

/-- The number `r / 10 ^ p` with `p` decimals. -/
def decimals (r p : ℕ) : Str :=
  decStr (r / 10 ^ p) ++ if p = 0 then [] else '.' :: padLeft '0' p (decStr (r % 10 ^ p))

/-- Exponent and digits of `m` in scientific notation with `p` decimals: the digits `r` stand for
`r / 10 ^ p * 10 ^ e`. -/
def sciParts (m : ℚ) (p : ℕ) : ℤ × ℕ :=
  if m = 0 then (0, 0)
  else
    let e := Int.log 10 m
    let r := roundHalfEven (m * 10 ^ ((p : ℤ) - e))
    if r = 10 ^ (p + 1) then (e + 1, 10 ^ p) else (e, r)

/-- The exponent: at least two digits. -/
def expText (c : Char) (e : ℤ) : Str :=
  c :: (if e < 0 then '-' else '+') :: padLeft '0' 2 (decStr e.natAbs)

/-- The text without sign and padding. -/
def CFmt.body (f : CFmt) (m : ℚ) : Str :=
  match f.exp with
  | none => decimals (roundHalfEven (m * 10 ^ f.prec)) f.prec
  | some c => decimals (sciParts m f.prec).2 f.prec ++ expText c (sciParts m f.prec).1

/-- The sign. -/
def signText (plus neg : Bool) : Str := if neg then ['-'] else if plus then ['+'] else []

/-- `frmt % x` (nitf_field.py:198). -/
def CFmt.apply (f : CFmt) (x : Flt) : Str :=
  let s := signText f.plus x.neg
  if f.left then padRight ' ' f.width (s ++ f.body x.mag)
  else if f.zero then s ++ padLeft '0' (f.width - s.length) (f.body x.mag)
  else padLeft ' ' f.width (s ++ f.body x.mag)

/-- `re.sub(r'E([+-])0', r'E\1', t)` (nitf_tre_rpc.py:15). -/
def dropExpZero : Str → Str
  | 'E' :: '+' :: '0' :: r => 'E' :: '+' :: dropExpZero r
  | 'E' :: '-' :: '0' :: r => 'E' :: '-' :: dropExpZero r
  | c :: r => c :: dropExpZero r
  | [] => []

/-- The format `"%+010.6lE"` of the RPC coefficients (nitf_tre_rpc.py:13). -/
def rpcFmt : CFmt := ⟨false, true, true, 10, 6, some 'E'⟩

/-- `_tre_rpc_coeff_format` (nitf_tre_rpc.py:5-16).  The float constants 1e-9 and 1e10 are taken as
the exact numbers: no float lies between 1e-9 and the exact value. -/
def rpcCoeff (x : Flt) : Except Err Str :=
  if x.mag < 1 / 10 ^ 9 then .ok "+0.000000E+0".toList
  else if 10 ^ 10 ≤ x.mag then .error .runtime
  else .ok (dropExpZero (rpcFmt.apply x))

/-- What is behind `Fmt.other i`: the text of the format or the name of the function. -/
def formatSource (i : ℕ) : Option String := Tables.formats.lookup i

/-- `frmt % x` or `frmt(x)` for the format with number `i` (nitf_field.py:195-200). -/
def fmtText (i : ℕ) (x : Flt) : Except Err Str :=
  match formatSource i with
  | none => .error .name
  | some s =>
    if s = "nitf_tre_rpc.py:_tre_rpc_coeff_format" then rpcCoeff x
    else
      match CFmt.ofText s.toList with
      | some f => .ok (f.apply x)
      | none => .error .value

/-- `'{:.{}f}'.format(x, i)`: as `fixedText`, with the sign of negative zero. -/
def fixedTextF (x : Flt) (i : ℕ) : Str :=
  signText false x.neg ++ decimals (roundHalfEven (x.mag * 10 ^ i)) i

/-- The loop of `float_to_fixed_width` (nitf_field.py:28-31), as `fixedLoop`. -/
def fixedLoopF (x : Flt) (w : ℕ) : ℕ → Str
  | 0 => fixedTextF x 0
  | i + 1 => if (fixedTextF x (i + 1)).length ≤ w then fixedTextF x (i + 1) else fixedLoopF x w i

/-- `float_to_fixed_width(x, w)` (nitf_field.py:20-34), as `floatToFixedWidth`. -/
def fixedWidthF (x : Flt) (w : ℕ) : Except Err Str :=
  if w < 2 then .error .name
  else
    let s := fixedLoopF x w (w - 2)
    if w < s.length then .error .runtime else .ok s

/-- The number a text stands for, as Python's `float` understands it (no white space): a sign,
digits with or without a decimal point, and an exponent. -/
def unsignedFloat (s : Str) : Option ℚ :=
  match s.dropWhile fun c => c ≠ 'e' && c ≠ 'E' with
  | [] => unsignedValue s
  | _ :: t =>
    match unsignedValue (s.takeWhile fun c => c ≠ 'e' && c ≠ 'E'), parseSigned (t.map Char.toNat) with
    | some q, some e => some (q * 10 ^ e)
    | _, _ => none

/-- As `unsignedFloat`, with a sign. -/
def floatText : Str → Option Flt
  | '-' :: r => (unsignedFloat r).map fun q => ⟨true, q⟩
  | '+' :: r => (unsignedFloat r).map fun q => ⟨false, q⟩
  | s => (unsignedFloat s).map fun q => ⟨false, q⟩

/-- `y` is `z` up to the relative error of rounding to a double. -/
def Near (y z : Flt) : Prop := y.neg = z.neg ∧ |y.mag - z.mag| ≤ z.mag / 2 ^ 53

/-- What is assumed about Python's floats: they are signed numbers, formatted as above, and
`float(text)` is the number the text stands for up to the rounding of a double (in the range of
the doubles), and monotone: the double nearest to 1e-9, which is slightly larger, is not read as
something smaller.  Assumption about CPython, not about pynitf. -/
structure Doubles (P : PyFloat) where
  val : P.F → Flt
  nonneg : ∀ x, 0 ≤ (val x).mag
  fmt : ∀ i x, P.fmt i (.flt x) = fmtText i (val x)
  fixed : ∀ x (w : ℕ), P.fixedWidth x w = fixedWidthF (val x) w
  parse : ∀ s z, floatText s = some z →
    (z.mag = 0 ∨ 1 / 10 ^ 250 ≤ z.mag ∧ z.mag ≤ 10 ^ 250) →
    ∃ x, P.parse (s.map Char.toNat) = .ok x ∧ Near (val x) z ∧
      (1 / 10 ^ 9 ≤ z.mag → 1 / 10 ^ 9 ≤ (val x).mag)

end Verif
