import Verif.Py

/-
Model of DocOptSimple (pynitf/docopt_simple.py), the attribute interface to parsed command lines.
-/

namespace Verif

/-- What Python knows of decimal digits: `\d`, and the value `int` gives each.  The theorems hold for
whatever digits outside ASCII there are. -/
structure PyDigits where
  val : Char → Option Nat
  ascii : ∀ c, '0' ≤ c → c ≤ '9' → val c = some (c.toNat - 48)
  sign : val '+' = none ∧ val '-' = none ∧ val '\n' = none

/-- `[0-9]`. -/
def ascDigit (c : Char) : Bool := decide ('0' ≤ c) && decide (c ≤ '9')

/-- The regular expressions used. -/
inductive Re where
  /-- one character of a class -/
  | one (p : Char → Bool)
  | seq (a b : Re)
  | opt (a : Re)
  /-- any number of characters of a class -/
  | many (p : Char → Bool)
  /-- `$`: at the end, or before a final newline -/
  | eos

/-- The texts that can remain after any number of characters of a class. -/
def manyRems (p : Char → Bool) : List Char → List (List Char)
  | [] => [[]]
  | c :: s => (if p c then manyRems p s else []) ++ [c :: s]

/-- The texts that can remain after one character of a class. -/
def oneRems (p : Char → Bool) : List Char → List (List Char)
  | [] => []
  | c :: s => if p c then [s] else []

/-- The texts that can remain after a match at the beginning of `s`. -/
def Re.rems : Re → List Char → List (List Char)
  | .one p, s => oneRems p s
  | .seq a b, s => (a.rems s).flatMap b.rems
  | .opt a, s => a.rems s ++ [s]
  | .many p, s => manyRems p s
  | .eos, s => if s = [] ∨ s = ['\n'] then [s] else []

/-- `re.match(r, s)` succeeds. -/
def Re.matches (r : Re) (s : List Char) : Bool := !(r.rems s).isEmpty

/-- `[+-]?`. -/
def Re.sign : Re := .opt (.one fun c => c == '+' || c == '-')

/-- `X+` for a class. -/
def Re.some (p : Char → Bool) : Re := .seq (.one p) (.many p)

/-- `([eE][-+]?[0-9]+)?`. -/
def Re.exponent : Re :=
  .opt (.seq (.one fun c => c == 'e' || c == 'E') (.seq .sign (.some ascDigit)))

/-- `[+-]?\d+$` (docopt_simple.py:57). -/
def intRe (D : PyDigits) : Re := .seq .sign (.seq (.some fun c => (D.val c).isSome) .eos)

/-- `[-+]?[0-9]*\.?[0-9]+([eE][-+]?[0-9]+)?$` (docopt_simple.py:59). -/
def fltRe1 : Re :=
  .seq .sign (.seq (.many ascDigit) (.seq (.opt (.one (· == '.')))
    (.seq (.some ascDigit) (.seq .exponent .eos))))

/-- `[-+]?[0-9]+\.([eE][-+]?[0-9]+)?$` (docopt_simple.py:61). -/
def fltRe2 : Re :=
  .seq .sign (.seq (.some ascDigit) (.seq (.one (· == '.')) (.seq .exponent .eos)))

/-- A value docopt produces.  `float` is the value `float(text)`, left symbolic; `other` stands for
`None`, a bool, a count or a list. -/
inductive DocVal (α : Type) where
  | text (s : List Char)
  | other (x : α)
  | int (z : Int)
  | float (s : List Char)
  deriving DecidableEq

/-- `int(v)` for text accepted by `intRe`: sign, digits, and white space at the end ignored.
Simplified: the limit on the number of digits that newer Pythons have is not modelled. -/
def pyIntText (D : PyDigits) (s : List Char) : Int :=
  let digits (l : List Char) : Nat := l.foldl (fun n c => match D.val c with
    | some k => 10 * n + k
    | none => n) 0
  match s with
  | '-' :: r => - (digits r : Int)
  | '+' :: r => digits r
  | r => digits r

/-- `__find_type` (docopt_simple.py:53-63). -/
def findType {α : Type} (D : PyDigits) (v : DocVal α) : DocVal α :=
  match v with
  | .text s =>
    if (intRe D).matches s then .int (pyIntText D s)
    else if fltRe1.matches s then .float s
    else if fltRe2.matches s then .float s
    else .text s
  | v => v

/-- The keys tried for an attribute, in order (docopt_simple.py:30-33, 45-48). -/
def docKeys (name : List Char) : List (List Char) :=
  [name, '<' :: (name ++ ['>']), '-' :: '-' :: name,
   '-' :: '-' :: name.map fun c => if c = '_' then '-' else c]

/-- `__getattr__` (docopt_simple.py:38-51) for a name other than `args` that is no attribute of the
object itself (Python asks `__getattr__` only then).  `none` is AttributeError. -/
def docGet {α : Type} (D : PyDigits) (args : List Char → Option (DocVal α)) (name : List Char) :
    Option (DocVal α) :=
  (docKeys name).findSome? fun k => (args k).map (findType D)

/-- `__contains__` (docopt_simple.py:29-36). -/
def docHas {α : Type} (args : List Char → Option (DocVal α)) (name : List Char) : Bool :=
  (docKeys name).any fun k => (args k).isSome

end Verif
