import Verif.Enum

/-
Printing a struct: `NitfLoop.print_to_fh`, `key_to_str`, `NitfField.get_print`,
`FieldStruct.__str__` (nitf_field.py:203-209, 619-623, 662-680, 941-946).
-/

namespace Verif

variable {P : PyFloat}

/-- The text of a name coded by `n!`: the digits to base 256. -/
def nameText (nm : Name) : Str := go (Nat.log2 nm + 1) nm []
where
  go : Nat → Nat → Str → Str
    | 0, _, acc => acc
    | f + 1, n, acc => if n = 0 then acc else go f (n / 256) (Char.ofNat (n % 256) :: acc)

/-- `NitfLoop.key_to_str` (nitf_field.py:619-623). -/
def keyText (key : Key) : Str :=
  if key.length = 0 then [] else "[".toList ++ commas (key.map intStr) ++ "]".toList
where
  commas : List Str → Str
    | [] => []
    | [x] => x
    | x :: y :: r => x ++ ", ".toList ++ commas (y :: r)

/-- What printing uses besides the struct: the source text of a loop count, and `str(v)`. -/
structure Shown (F : Type) where
  shape : Expr → Str
  str : Val F → Str

/-- A line printed: the head of a loop, or a field with an index.  `width` is `max_len`, `depth` the
number of loops, `pos` the position of the field. -/
inductive Line (F : Type) where
  | head (depth : Nat) (e : Expr)
  | item (width depth pos : Nat) (nm : Name) (key : Key) (v : Val F)

/-- `s.ljust(w)`. -/
def ljust (w : Nat) (s : Str) : Str := s ++ List.replicate (w - s.length) ' '

/-- `get_print` for the value `v` (nitf_field.py:203-209). -/
def Shown.value {F : Type} (sh : Shown F) (v : Val F) : Str :=
  match v with
  | .none => "Not used".toList
  | v => sh.str v

/-- `"  " * depth`. -/
def lead (depth : Nat) : Str := List.replicate (2 * depth) ' '

/-- The text of a line up to the value. -/
def Line.label {F : Type} : Line F → Str
  | .head d _ => lead (d - 1) ++ "Loop - ".toList
  | .item w d _ nm k _ => lead d ++ ljust w (nameText nm ++ keyText k) ++ ": ".toList

/-- The text printed for a line (nitf_field.py:670-671, 678-680). -/
def Line.text {F : Type} (sh : Shown F) (l : Line F) : Str :=
  l.label ++ (match l with
    | .head _ e => sh.shape e
    | .item _ _ _ _ _ v => sh.value v) ++ "\n".toList

/-- The named fields that are rows of the loop itself. -/
def ownNames : Desc → List Name
  | .nil => []
  | .field fd r => fd.name.toList ++ ownNames r
  | .loop _ _ r => ownNames r

/-- `max(…, default=dflt)`. -/
def maxOr (dflt : Nat) : List Nat → Nat
  | [] => dflt
  | x :: r => r.foldl max x

/-- `max_len` (nitf_field.py:664-668). -/
def lineWidth (body : Desc) (ks : List Key) : Nat :=
  maxOr 10 ((ownNames body).map fun nm => (nameText nm).length) +
    maxOr 0 (ks.map fun k => (keyText k).length)

/-- The lines of one field (nitf_field.py:676-680). -/
def fieldLines (T : Tab) (S : Store P.F) (w : Nat) (sh : List Expr) (n : Nat) :
    Option Name → Except Err (List (Line P.F))
  | none => .ok []
  | some nm =>
    match keysFrom P (look P T S) sh [] with
    | .error x => .error x
    | .ok ks =>
      match valuesAt P (fun k => getItem P T S n k) ks with
      | .error x => .error x
      | .ok vs => .ok (vs.map fun kv => Line.item w sh.length n nm kv.1 kv.2)

/-- The rows of a loop (nitf_field.py:673-680); `sh` are the loop counts down to this loop, `n` is the
position of the next field. -/
def printRows (T : Tab) (S : Store P.F) : Nat → List Expr → Nat → Desc → Except Err (List (Line P.F))
  | _, _, _, .nil => .ok []
  | w, sh, n, .field fd r =>
    match fieldLines T S w sh n fd.name with
    | .error x => .error x
    | .ok l =>
      match printRows T S w sh (n + 1) r with
      | .error x => .error x
      | .ok ls => .ok (l ++ ls)
  | w, sh, n, .loop e b r =>
    match keysFrom P (look P T S) (sh ++ [e]) [] with
    | .error x => .error x
    | .ok ks =>
      match printRows T S (lineWidth b ks) (sh ++ [e]) n b with
      | .error x => .error x
      | .ok l =>
        match printRows T S w sh (n + b.count) r with
        | .error x => .error x
        | .ok ls => .ok (.head (sh.length + 1) e :: l ++ ls)

/-- The lines of `str(struct)` (nitf_field.py:941-946): the outer loop has the one key `()`. -/
def printLines (d : Desc) (S : Store P.F) : Except Err (List (Line P.F)) :=
  printRows d.tab S (lineWidth d [[]]) [] 0 d

/-- `str(struct)`. -/
def printStruct (sh : Shown P.F) (d : Desc) (S : Store P.F) : Except Err Str :=
  (printLines d S).map fun ls => (ls.map (Line.text sh)).flatten

end Verif
