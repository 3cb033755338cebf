import Verif.Items

/-
Comparing two structures: `FieldStructDiff` (nitf_field.py:953-1066).

What is logged is kept as a list of reports.  `difference_detail` lines (the differing elements of
an array) and the texts of the messages are not modelled.
-/

namespace Verif

variable (P : PyFloat)

/-- Configuration of a comparison (nitf_field.py:965-974).  `close nm` is `math.isclose` with the
relative and absolute tolerances configured for the field `nm`; `eqFun` are the user supplied
comparison functions (anything may be raised by both). -/
structure DiffConfig (F : Type) where
  exclude : List Name := []
  excludeButWarn : List Name := []
  include_ : List Name := []
  eqFun : Name → Option (Val F → Val F → Except Err Bool) := fun _ => none
  close : Name → F → F → Except Err Bool

/-- `self.field.keys()`: an OrderedDict, assigning again to a name keeps its first place
(nitf_field.py:568-569). -/
def namesFrom (seen : List Name) : Tab → List Name
  | [] => []
  | fi :: r =>
    match fi.fd.name with
    | none => namesFrom seen r
    | some nm => if nm ∈ seen then namesFrom seen r else nm :: namesFrom (nm :: seen) r

def fieldNames (d : Desc) : List Name := namesFrom [] d.tab

/-- What `getattr(obj, name)` gives for a field (nitf_field.py:846-847): the value of a scalar, or
the field object itself if it is in a loop. -/
inductive Fetched (F : Type) where
  | scalar (v : Val F)
  | array (n : Nat) (fi : FInfo)

/-- `getattr(self, f.field_name)` in `items(array_as_list=False)` (nitf_field.py:871-896).
Simplified: a field hidden by a python attribute or property of the class with the same name is
not distinguished. -/
def fetch (d : Desc) (S : Store P.F) (nm : Name) : Except Err (Fetched P.F) :=
  match resolve d.tab nm with
  | none => .error .attr
  | some n =>
    match d.tab[n]? with
    | none => .error .attr
    | some fi =>
      if fi.depth = 0 then (getItem P d.tab S n []).map .scalar else .ok (.array n fi)

/-- Operand of `math.isclose`. -/
def closeArg : Val P.F → Except Err P.F
  | .flt x => .ok x
  | .int z => .ok (P.ofInt z)
  | _ => .error .type

/-- The function `_f` of `_cmp_func` (nitf_field.py:1010-1016). -/
def closeEq (close : P.F → P.F → Except Err Bool) (a b : Val P.F) : Except Err Bool :=
  match a, b with
  | .none, .none => .ok true
  | .none, _ => .ok false
  | _, .none => .ok false
  | a, b =>
    match closeArg P a, closeArg P b with
    | .error e, _ => .error e
    | _, .error e => .error e
    | .ok x, .ok y => close x y

/-- `_cmp_func` (nitf_field.py:1003-1020); `isFloat` is the test of lines 1008-1009. -/
def cmpFun (c : DiffConfig P.F) (nm : Name) (isFloat : Bool) (a b : Val P.F) : Except Err Bool :=
  match c.eqFun nm with
  | some f => f a b
  | none => if isFloat then closeEq P (c.close nm) a b else .ok (pyEq P a b)

def Val.isFlt {F} : Val F → Bool
  | .flt _ => true
  | _ => false

/-- `for k in ...: if not f(k): return False` followed by `return True`. -/
def allIdx (f : Int → Except Err Bool) : List Int → Except Err Bool
  | [] => .ok true
  | i :: is =>
    match f i with
    | .error x => .error x
    | .ok false => .ok false
    | .ok true => allIdx f is

/-- `NitfLoop.is_shape_equal` below its test of the dimensions (nitf_field.py:647-660), for a
field in a loop: only the counts of the innermost loop are compared; for the others the loop of
the first object is followed.  An IndexError means "not equal".  For a scalar python would recurse
for ever (it is not called for one). -/
def shapeEqFrom (l1 l2 : Look P.F) : List Expr → List Expr → Key → Except Err Bool
  | [], _, _ => .error .recursion
  | e1 :: es1, es, key =>
    match evalShape P l1 e1 key with
    | .error .index => .ok false
    | .error x => .error x
    | .ok c1 =>
      if es1.isEmpty then
        match es.head?.elim (.error .recursion) (fun e2 => evalShape P l2 e2 key) with
        | .error .index => .ok false
        | .error x => .error x
        | .ok c2 => .ok (decide (c1 = c2))
      else allIdx (fun i => shapeEqFrom l1 l2 es1 es.tail (key ++ [i])) (indices c1)

/-- `NitfLoop.is_shape_equal` (nitf_field.py:647-660). -/
def shapeEq (l1 l2 : Look P.F) (es1 es2 : List Expr) : Except Err Bool :=
  if es1.length ≠ es2.length then .ok false else shapeEqFrom P l1 l2 es1 es2 []

/-- The loop of `_cmp_nitf_field` (nitf_field.py:1027-1036) over
`zip_longest(v1.items(), v2.values())`: is `diff_count` zero?  If the first runs out, the `None`
filled in for it cannot be unpacked. -/
def sameItems (cmp : Val P.F → Val P.F → Except Err Bool) :
    List (Key × Val P.F) → List (Key × Val P.F) → Except Err Bool
  | [], [] => .ok true
  | [], _ :: _ => .error .type
  | (_, a) :: r, [] =>
    match cmp a .none with
    | .error x => .error x
    | .ok e => (sameItems cmp r []).map (e && ·)
  | (_, a) :: r, (_, b) :: r' =>
    match cmp a b with
    | .error x => .error x
    | .ok e => (sameItems cmp r r').map (e && ·)

/-- `_cmp_nitf_field` (nitf_field.py:1022-1038): true if no difference is reported.  Simplified:
the two generators are run to their end before comparing, which matters only for which exception
is seen. -/
def cmpArray (cmp : Val P.F → Val P.F → Except Err Bool) (d1 d2 : Desc) (S1 S2 : Store P.F)
    (n1 n2 : Nat) (f1 f2 : FInfo) : Except Err Bool :=
  match shapeEq P (look P d1.tab S1) (look P d2.tab S2) f1.shapes f2.shapes with
  | .error x => .error x
  | .ok false => .ok false
  | .ok true =>
    match fieldItems P d1.tab S1 n1, fieldItems P d2.tab S2 n2 with
    | .error x, _ => .error x
    | _, .error x => .error x
    | .ok xs, .ok ys => sameItems P cmp xs ys

/-- The comparison of one field (nitf_field.py:1061-1065): true if no difference is reported.
Simplified: a user supplied function given a value and a field object (which takes two different
tables) raises. -/
def cmpFetched (c : DiffConfig P.F) (nm : Name) (d1 d2 : Desc) (S1 S2 : Store P.F)
    (v1 v2 : Fetched P.F) : Except Err Bool :=
  match v1, v2 with
  | .scalar a, .scalar b => cmpFun P c nm a.isFlt a b
  | .array n1 f1, .array n2 f2 =>
    cmpArray P (cmpFun P c nm (decide (f1.fd.ty = .flt))) d1 d2 S1 S2 n1 n2 f1 f2
  | .array _ _, .scalar _ => .error .attr
  | .scalar a, .array _ _ =>
    if (c.eqFun nm).isSome || a.isFlt then .error .type else .ok false

/-- A line in the log: a difference, or one that is only warned about. -/
inductive Report where
  | diff (nm : Name)
  | ignored (nm : Name)
  /-- the fields of the two objects differ, comparison stopped -/
  | fields
  deriving DecidableEq, Repr

/-- The loop of `compare_obj` (nitf_field.py:1046-1066): `is_same` and the log. -/
def compareNames (c : DiffConfig P.F) (d1 d2 : Desc) (S1 S2 : Store P.F) :
    List Name → List Name → Except Err (Bool × List Report)
  | [], [] => .ok (true, [])
  | nm :: r, nm' :: r' =>
    match fetch P d1 S1 nm, fetch P d2 S2 nm' with
    | .error x, _ => .error x
    | _, .error x => .error x
    | .ok v1, .ok v2 =>
      if nm ≠ nm' then .ok (false, [.fields])
      else if nm ∈ c.exclude then compareNames c d1 d2 S1 S2 r r'
      else if c.include_.length > 0 ∧ nm ∉ c.include_ then compareNames c d1 d2 S1 S2 r r'
      else
        match cmpFetched P c nm d1 d2 S1 S2 v1 v2 with
        | .error x => .error x
        | .ok same =>
          match compareNames c d1 d2 S1 S2 r r' with
          | .error x => .error x
          | .ok (b, log) =>
            if same then .ok (b, log)
            else if nm ∈ c.excludeButWarn then .ok (b, .ignored nm :: log)
            else .ok (false, .diff nm :: log)
  -- zip_longest fills in the name "No_field", which is no field name
  | nm :: _, [] => (fetch P d1 S1 nm).map fun _ => (false, [.fields])
  | [], nm' :: _ => (fetch P d2 S2 nm').map fun _ => (false, [.fields])

/-- `compare_obj` (nitf_field.py:1040-1066) of two structures with descriptions `d1`, `d2`. -/
def compareObj (c : DiffConfig P.F) (d1 d2 : Desc) (S1 S2 : Store P.F) :
    Except Err (Bool × List Report) :=
  compareNames P c d1 d2 S1 S2 (fieldNames d1) (fieldNames d2)

end Verif
