/-
Python runtime helpers used by the pynitf model.

`bytes` is `List UInt8`, `str` is `List Char`.  Exceptions are values of `Err`
carried by `Except`; messages are not modelled.
-/

namespace Verif

/-- Python `bytes`. -/
abbrev Bytes := List UInt8
/-- Python `str` (list of code points). -/
abbrev Str := List Char

/-- Exception classes.  Messages and tracebacks are not modelled. -/
inductive Err where
  | runtime      -- RuntimeError
  | exception    -- bare `Exception` (nitf_field.py:396)
  | index        -- IndexError
  | attr         -- AttributeError
  | type         -- TypeError
  | value        -- ValueError, struct.error, OverflowError
  | key          -- KeyError
  | name         -- NameError
  | unicode      -- UnicodeEncodeError / UnicodeDecodeError
  | syntax       -- SyntaxError
  | recursion    -- RecursionError
  | notImpl      -- NotImplementedError
  | eof          -- premature end of data outside a field
  deriving DecidableEq, Repr

deriving instance DecidableEq for Except

/-- Right strip by a predicate (`bytes.rstrip(chars)` / `str.rstrip()`). -/
def rstripBy {α} (p : α → Bool) (l : List α) : List α := (l.reverse.dropWhile p).reverse

/-- Left strip by a predicate. -/
def lstripBy {α} (p : α → Bool) (l : List α) : List α := l.dropWhile p

/-- White space stripped by `bytes.rstrip()` and by `int(bytes)`:
space, `\t \n \v \f \r`. -/
def bSpace (b : UInt8) : Bool := b == 32 || (9 ≤ b && b ≤ 13)

/-- Code points for which `str.isspace` holds, i.e. which `str.rstrip()` strips. -/
def cSpaceN (n : Nat) : Bool :=
  n == 32 || (9 ≤ n && n ≤ 13) || (28 ≤ n && n ≤ 31) || n == 0x85 || n == 0xA0 ||
  n == 0x1680 || (0x2000 ≤ n && n ≤ 0x200A) || n == 0x2028 || n == 0x2029 ||
  n == 0x202F || n == 0x205F || n == 0x3000

/-- White space stripped by `str.rstrip()`. -/
def cSpace (c : Char) : Bool := cSpaceN c.toNat

/-- `bytes.rstrip()`. -/
def rstripB (b : Bytes) : Bytes := rstripBy bSpace b
/-- `str.rstrip()`. -/
def rstripU (s : Str) : Str := rstripBy cSpace s

/-- `bytes.decode("latin-1")`: never fails. -/
def latin1Dec (b : Bytes) : Str := b.map fun x => Char.ofNat x.toNat

/-- `str.encode("latin-1")`: fails on a code point above 255. -/
def latin1Enc (s : Str) : Except Err Bytes :=
  if s.all (fun c => c.toNat < 256) then .ok (s.map fun c => UInt8.ofNat c.toNat)
  else .error .unicode

/-- ASCII digit for a number below 10. -/
def digitChar (n : Nat) : Char := Char.ofNat (48 + n)

/-- Decimal digits of `n`, most significant first, with fuel. -/
def decAux : Nat → Nat → Str
  | 0, _ => []
  | f + 1, n => if n < 10 then [digitChar n] else decAux f (n / 10) ++ [digitChar (n % 10)]

/-- `"%d" % n` for a non-negative `n`. -/
def decStr (n : Nat) : Str := decAux (Nat.log2 n + 1) n

/-- `str(z)` / `"%d" % z` for an integer. -/
def intStr : Int → Str
  | .ofNat n => decStr n
  | .negSucc n => '-' :: decStr (n + 1)

/-- Left pad with a character to width `w` (never truncates). -/
def padLeft (c : Char) (w : Nat) (s : Str) : Str := List.replicate (w - s.length) c ++ s

/-- Right pad to width `w` (never truncates): `"{:ws}".format(s)` and `bytes.ljust`. -/
def padRight {α} (c : α) (w : Nat) (s : List α) : List α := s ++ List.replicate (w - s.length) c

/-- `"%0wd" % v`: zero padding after the sign, total width `w`. -/
def fmtInt (w : Nat) : Int → Str
  | .ofNat n => padLeft '0' w (decStr n)
  | .negSucc n => '-' :: padLeft '0' (w - 1) (decStr (n + 1))

/-- `"%+0wd" % v`: sign always written. -/
def fmtIntPlus (w : Nat) : Int → Str
  | .ofNat n => '+' :: padLeft '0' (w - 1) (decStr n)
  | .negSucc n => '-' :: padLeft '0' (w - 1) (decStr (n + 1))

/-- Digits of an integer literal as accepted by `int(...)`, on code points:
digits with single underscores between them.  `prev` says whether the previous
character was a digit. -/
def parseDigits (acc : Nat) (prev : Bool) : List Nat → Option Nat
  | [] => if prev then some acc else none
  | c :: cs =>
    if 48 ≤ c && c ≤ 57 then parseDigits (acc * 10 + (c - 48)) true cs
    else if c == 95 && prev then parseDigits acc false cs
    else none

/-- Integer literal with optional sign, on code points. -/
def parseSigned : List Nat → Option Int
  | 43 :: cs => (parseDigits 0 false cs).map Int.ofNat
  | 45 :: cs => (parseDigits 0 false cs).map fun n => - Int.ofNat n
  | cs => (parseDigits 0 false cs).map Int.ofNat

/-- `int(b)` for `b : bytes`: strips ASCII white space on both sides.
(The limit of 4300 digits of recent Python versions is not modelled.) -/
def pyIntB (b : Bytes) : Except Err Int :=
  match parseSigned ((lstripBy bSpace (rstripB b)).map UInt8.toNat) with
  | some z => .ok z
  | none => .error .value

/-- `int(s)` for `s : str`.  Simplification: non-ASCII decimal digits, which Python
also accepts, are rejected here. -/
def pyIntS (s : Str) : Except Err Int :=
  match parseSigned ((lstripBy cSpace (rstripU s)).map Char.toNat) with
  | some z => .ok z
  | none => .error .value

/-- Big-endian bytes of a natural number, `w` bytes. -/
def natToBytes : Nat → Nat → Bytes
  | 0, _ => []
  | w + 1, n => natToBytes w (n / 256) ++ [UInt8.ofNat (n % 256)]

/-- Big-endian value of a byte string. -/
def bytesToNat (b : Bytes) : Nat := b.foldl (fun a x => a * 256 + x.toNat) 0

end Verif
