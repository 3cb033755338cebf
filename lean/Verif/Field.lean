import Verif.Py

/-
Model of the FieldStruct engine: `/repo/pynitf/nitf_field.py`.

A FieldStruct description (the nested Python list `desc`) is the inductive type `Desc`;
conditions, sizes, loop shapes and computed values, which are Python source strings handed to
`eval`, are the deep-embedded `Expr`.  `flatten` numbers the fields in layout order; the
dictionaries `NitfField.value_dict` / `raw_value_dict` of all fields together are one `Store`.

Floating point is a parameter (`PyFloat`): everything below holds for every implementation of
the float operations.
-/

namespace Verif

/-- Field names.  A name is the number whose base-256 digits are its characters; write
`n!"numi"`.  (Numbers keep name comparison cheap for the kernel.) -/
abbrev Name := Nat

/-- Elaboration-time coding of a name. -/
macro "n!" s:str : term =>
  let c := s.getString.foldl (fun a ch => a * 256 + ch.toNat) 0
  return Lean.Syntax.mkNumLit (toString c)

/-- Constants appearing in descriptions (`default` options and expressions). -/
inductive CVal where
  | int (z : Int)
  | str (s : String)
  | bytes (b : List Nat)
  deriving DecidableEq, Repr

/-- The Python expressions used for `condition`, `size`, loop shapes and `value` in the shipped
descriptions (evaluated by `_eval_or_exec_expr`, nitf_field.py:47-65).  `ref nm idx` is
`f.nm[i..]`, where `idx` lists the 0-based loop variables used (`i1` is 0). -/
inductive Expr where
  | const (c : CVal)
  | ref (nm : Name) (idx : List Nat)
  | eq (a b : Expr)
  | ne (a b : Expr)
  | gt (a b : Expr)
  | ge (a b : Expr)
  | and (a b : Expr)
  | band (a b : Expr)
  | isin (a : Expr) (cs : List CVal)
  | notin (a : Expr) (cs : List CVal)
  | rstrip (a : Expr)
  | ite (c a b : Expr)
  | mul (a b : Expr)
  | add (a b : Expr)
  | sub (a b : Expr)
  | fdiv (a b : Expr)
  | toInt (a : Expr)
  /-- `int((n/2)*(n+1))` -/
  | tri (a : Expr)
  deriving DecidableEq, Repr

/-- Field type `ty`. -/
inductive Ty where
  | str | int | flt | bytes
  deriving DecidableEq, Repr

/-- The class handling the field: `NitfField` or one of the `FieldData` classes
(nitf_field.py:398-528). `engrda` is `ENGRDAFieldData` (nitf_tre_engrda.py), whose values are
treated here as raw bytes. `coord` is `RCoord`/`CCoord` (nitf_tre_rsmgga.py:4-14), whose values
are also treated as raw bytes (simplified: the conversion to a pixel coordinate is left out);
these classes have no `pack`. -/
inductive Kind where
  | plain | strData | bytesData | fltData | intData (signed : Bool) | engrda | coord
  deriving DecidableEq, Repr

/-- `frmt` option. `zd w` is `"%0wd"`, `pd w` is `"%+0wd"`, `other i` is any other format
string or function (a float or text format), identified by a number. -/
inductive Fmt where
  | zd (w : Nat) | pd (w : Nat) | other (i : Nat)
  deriving DecidableEq, Repr

/-- Field size: an integer or an expression. -/
inductive Size where
  | const (n : Nat) | expr (e : Expr)
  deriving DecidableEq, Repr

/-- One field row of a description (nitf_field.py:71-124).  A `None` name is a reserved
field. `ty` is `bytes` for every `FieldData` class (nitf_field.py:407). -/
structure FieldDef where
  name : Option Name
  size : Size
  ty : Ty
  kind : Kind := .plain
  sizeOffset : Nat := 0
  sizeNotUpdated : Bool := false
  frmt : Option Fmt := none
  default : Option CVal := none
  cond : Option Expr := none
  optional : Bool := false
  optChar : Char := ' '
  hardcoded : Bool := false
  value : Option Expr := none
  deriving DecidableEq, Repr

/-- A description: rows are fields or loops (nitf_field.py:530-571). -/
inductive Desc where
  | nil
  | field (fd : FieldDef) (rest : Desc)
  | loop (shape : Expr) (body : Desc) (rest : Desc)
  deriving DecidableEq, Repr

/-- Number of fields in a description. -/
def Desc.count : Desc → Nat
  | .nil => 0
  | .field _ r => r.count + 1
  | .loop _ b r => b.count + r.count

/-- A field together with the shapes of its enclosing loops, outermost first, and for each
enclosing loop the position of the first field in it (which identifies the loop). -/
structure FInfo where
  fd : FieldDef
  shapes : List Expr
  starts : List Nat
  deriving DecidableEq, Repr

/-- `dim_size` of the field (nitf_field.py:583-588). -/
def FInfo.depth (fi : FInfo) : Nat := fi.shapes.length

/-- All fields in layout order (the order in which `NitfLoop.__init__` creates them,
nitf_field.py:556-571). -/
def flatten (n : Nat) (sh : List Expr) (st : List Nat) : Desc → List FInfo
  | .nil => []
  | .field fd r => ⟨fd, sh, st⟩ :: flatten (n + 1) sh st r
  | .loop e b r => flatten n (sh ++ [e]) (st ++ [n]) b ++ flatten (n + b.count) sh st r

/-- Table of the fields of a description. -/
abbrev Tab := List FInfo

def Desc.tab (d : Desc) : Tab := flatten 0 [] [] d

/-- Position of the field a name refers to.  `self.field[name] = fv` (nitf_field.py:569): the
last row with a given name wins. -/
def resolveFrom (nm : Name) : Nat → Tab → Option Nat
  | _, [] => none
  | n, fi :: r =>
    match resolveFrom nm (n + 1) r with
    | some m => some m
    | none => if fi.fd.name = some nm then some n else none

def resolve (T : Tab) (nm : Name) : Option Nat := resolveFrom nm 0 T

/-- Python values held by fields. -/
inductive Val (F : Type) where
  | none
  | int (z : Int)
  | str (s : Str)
  | bytes (b : Bytes)
  | flt (x : F)
  deriving DecidableEq, Repr

/-- The float operations used by the engine, as a parameter. -/
structure PyFloat where
  F : Type
  /-- `a == b` on floats -/
  beq : F → F → Bool
  /-- `float(int)` -/
  ofInt : Int → F
  /-- `int(float)` -/
  toInt : F → Except Err Int
  /-- `float(text)` on the code points of text already stripped of white space -/
  parse : List Nat → Except Err F
  /-- `str(x)` -/
  str : F → Str
  /-- `float_to_fixed_width(x, w)` (nitf_field.py:20-34); see `Verif/Fixed.lean` -/
  fixedWidth : F → Int → Except Err Str
  /-- `frmt % v` or `frmt(v)` for the opaque formats -/
  fmt : Nat → Val F → Except Err Str
  /-- `"%s" % x`, `"%d" % x` on a float -/
  toIntD : F → Except Err Int
  /-- `struct.pack(">f", x)` for a float -/
  pack32 : F → Except Err Bytes
  /-- `struct.unpack(">f", b)[0]` for 4 bytes -/
  unpack32 : Bytes → F

variable (P : PyFloat)

/-- What a `value_dict` holds: a `NitfLiteral` (nitf_field.py:36-45) or a value. -/
inductive Stored (F : Type) where
  | lit (b : Bytes)
  | val (v : Val F)
  deriving DecidableEq, Repr

/-- Entry of `value_dict` and `raw_value_dict` for one key. -/
structure Cell (F : Type) where
  val : Stored F
  raw : Option Bytes
  deriving DecidableEq, Repr

/-- Index tuple of a field. -/
abbrev Key := List Int

/-- The `value_dict` / `raw_value_dict` of every field, by field position and key. -/
abbrev Store (F : Type) := Nat → Key → Option (Cell F)

/-- Store of a freshly created FieldStruct. -/
def Store.empty {F} : Store F := fun _ _ => none

def Store.set {F} (S : Store F) (n : Nat) (k : Key) (c : Cell F) : Store F :=
  fun n' k' => if n' = n ∧ k' = k then some c else S n' k'

/-- Constant as a value. -/
def CVal.toVal {F} : CVal → Val F
  | .int z => .int z
  | .str s => .str s.toList
  | .bytes b => .bytes (b.map UInt8.ofNat)

/-- Python truth value. -/
def truthy : Val P.F → Bool
  | .none => false
  | .int z => z ≠ 0
  | .str s => s ≠ []
  | .bytes b => b ≠ []
  | .flt x => !P.beq x (P.ofInt 0)

/-- Python `==`. -/
def pyEq : Val P.F → Val P.F → Bool
  | .none, .none => true
  | .int a, .int b => a == b
  | .str a, .str b => a == b
  | .bytes a, .bytes b => a == b
  | .flt a, .flt b => P.beq a b
  | .int a, .flt b => P.beq (P.ofInt a) b
  | .flt a, .int b => P.beq a (P.ofInt b)
  | _, _ => false

/-- A Python bool as a value (`bool` is a subclass of `int`). -/
def bval {F} (b : Bool) : Val F := .int (if b then 1 else 0)

/-- Integer operand of an arithmetic expression.  Simplification: float operands, which no
shipped expression has, raise here. -/
def asInt {F} : Val F → Except Err Int
  | .int z => .ok z
  | _ => .error .type

/-- `float(v)` on text: strips white space, then parses. -/
def pyFloatB (b : Bytes) : Except Err P.F :=
  P.parse ((lstripBy bSpace (rstripB b)).map UInt8.toNat)

def pyFloatS (s : Str) : Except Err P.F :=
  P.parse ((lstripBy cSpace (rstripU s)).map Char.toNat)

/-- `int(v)`. -/
def coerceInt : Val P.F → Except Err Int
  | .int z => .ok z
  | .str s => pyIntS s
  | .bytes b => pyIntB b
  | .flt x => P.toInt x
  | .none => .error .type

/-- `str(v)`. Simplification: `str(bytes)` is never reached (bytes are decoded). -/
def pyStr : Val P.F → Str
  | .int z => intStr z
  | .str s => s
  | .bytes b => latin1Dec b
  | .flt x => P.str x
  | .none => "None".toList

/-- Field access from an expression: name and evaluated index tuple. -/
abbrev Look (F : Type) := Name → Key → Except Err (Val F)

/-- Index variables `i1..i4`; a missing one is a NameError. -/
def idxKey (key : Key) : List Nat → Except Err Key
  | [] => .ok []
  | j :: js =>
    match key[j]? with
    | none => .error .name
    | some i =>
      match idxKey key js with
      | .error e => .error e
      | .ok r => .ok (i :: r)

/-- `_eval_or_exec_expr(..., do_eval=True)` (nitf_field.py:47-65) on the expression forms of the
shipped descriptions. -/
def evalE (look : Look P.F) (key : Key) : Expr → Except Err (Val P.F)
  | .const c => .ok c.toVal
  | .ref nm idx => do look nm (← idxKey key idx)
  | .eq a b => do
      let x ← evalE look key a
      let y ← evalE look key b
      return bval (pyEq P x y)
  | .ne a b => do
      let x ← evalE look key a
      let y ← evalE look key b
      return bval (!pyEq P x y)
  | .gt a b => do
      let x ← asInt (← evalE look key a)
      let y ← asInt (← evalE look key b)
      return bval (decide (x > y))
  | .ge a b => do
      let x ← asInt (← evalE look key a)
      let y ← asInt (← evalE look key b)
      return bval (decide (x ≥ y))
  | .and a b => do
      let x ← evalE look key a
      if truthy P x then evalE look key b else return x
  | .band a b => do
      let x ← asInt (← evalE look key a)
      let y ← asInt (← evalE look key b)
      -- masks are non-negative constants and the masked fields unsigned
      if x < 0 ∨ y < 0 then throw .value else return .int (x.toNat &&& y.toNat : Nat)
  | .isin a cs => do
      let x ← evalE look key a
      return bval (cs.any fun c => pyEq P x c.toVal)
  | .notin a cs => do
      let x ← evalE look key a
      return bval (!cs.any fun c => pyEq P x c.toVal)
  | .rstrip a => do
      match ← evalE look key a with
      | .str s => return .str (rstripU s)
      | .bytes b => return .bytes (rstripB b)
      | _ => throw .attr
  | .ite c a b => do
      if truthy P (← evalE look key c) then evalE look key a else evalE look key b
  | .mul a b => do
      let x ← asInt (← evalE look key a)
      let y ← asInt (← evalE look key b)
      return .int (x * y)
  | .add a b => do
      let x ← asInt (← evalE look key a)
      let y ← asInt (← evalE look key b)
      return .int (x + y)
  | .sub a b => do
      let x ← asInt (← evalE look key a)
      let y ← asInt (← evalE look key b)
      return .int (x - y)
  | .fdiv a b => do
      let x ← asInt (← evalE look key a)
      let y ← asInt (← evalE look key b)
      if y = 0 then throw .value else return .int (Int.fdiv x y)
  | .toInt a => do
      return .int (← coerceInt P (← evalE look key a))
  | .tri a => do
      -- `n/2` and the product are exact floats for the field widths in use
      let x ← asInt (← evalE look key a)
      return .int (Int.fdiv (x * (x + 1)) 2)

/-- Condition of a field (nitf_field.py:223-232), as a truth value. -/
def evalCond (look : Look P.F) (fi : FInfo) (key : Key) : Except Err Bool :=
  match fi.fd.cond with
  | none => .ok true
  | some e => (evalE P look key e).map (truthy P)

/-- `NitfLoop.shape` (nitf_field.py:573-581): `None` counts as 0. -/
def evalShape (look : Look P.F) (e : Expr) (key : Key) : Except Err Int :=
  match evalE P look key e with
  | .error x => .error x
  | .ok .none => .ok 0
  | .ok (.int z) => .ok z
  | .ok _ => .error .type

/-- `NitfLoop.check_index` (nitf_field.py:590-600).  Slices are not modelled. -/
def checkIndex (look : Look P.F) (fi : FInfo) (key : Key) : Except Err Unit :=
  match fi.shapes.getLast? with
  | none => .ok ()
  | some e =>
    if key.length ≠ fi.depth then .error .index
    else match key.getLast? with
      | none => .error .index
      | some i =>
        if i < 0 then .error .index
        else match evalShape P look e key.dropLast with
          | .error x => .error x
          | .ok c => if i ≥ c then .error .index else .ok ()

/-- `NitfField.size` (nitf_field.py:163-173). -/
def evalSize (look : Look P.F) (fi : FInfo) (key : Key) : Except Err Int :=
  let sz : Except Err Int := match fi.fd.size with
    | .const n => .ok n
    | .expr e =>
      match evalE P look key e with
      | .error x => .error x
      | .ok v => asInt v
  match sz with
  | .error x => .error x
  | .ok z => .ok (if z ≠ 0 then z - fi.fd.sizeOffset else 0)

/-- Default of `value_dict` (nitf_field.py:105-114). -/
def defaultVal {F} (fd : FieldDef) : Val F :=
  match fd.default with
  | some c => c.toVal
  | none => if fd.optional then .none else if fd.ty = .str then .str [] else .int 0

/-- `self.value_dict[k]`. -/
def stored {F} (S : Store F) (fd : FieldDef) (n : Nat) (key : Key) : Stored F :=
  match S n key with
  | some c => c.val
  | none => .val (defaultVal fd)

/-- `t.rstrip(optional_char + b' ') == b''` (nitf_field.py:268, 380). -/
def isFill (fd : FieldDef) (b : Bytes) : Bool :=
  b.all fun x => x.toNat == fd.optChar.toNat || x == 32

/-- Conversion `self.ty(v)` of `__getitem__` (nitf_field.py:263-275), with the surrounding
`try` turning every exception into a RuntimeError. -/
def coerce (fd : FieldDef) (v : Val P.F) : Except Err (Val P.F) :=
  match fd.ty with
  | .str => .ok (.str (rstripU (pyStr P v)))
  | .int =>
    match coerceInt P v with
    | .ok z => .ok (.int z)
    | .error _ => .error .runtime
  | .flt =>
    match v with
    | .flt x => .ok (.flt x)
    | .int z => .ok (.flt (P.ofInt z))
    | .str s =>
      match pyFloatS P s with
      | .ok x => .ok (.flt x)
      | .error _ => .error .runtime
    | .bytes b =>
      match pyFloatB P b with
      | .ok x => .ok (.flt x)
      | .error _ => .error .runtime
    | .none => .error .runtime
  | .bytes =>
    match v with
    | .bytes b => .ok (.bytes b)
    | .int z => if z < 0 then .error .runtime else .ok (.bytes (List.replicate z.toNat 0))
    | _ => .error .runtime

/-- Value part of `__getitem__` for a stored value (nitf_field.py:256-275). -/
def finish (fd : FieldDef) (s : Stored P.F) : Except Err (Val P.F) :=
  match s with
  | .val .none => if fd.optional then .ok .none else coerce P fd .none
  | .val v => coerce P fd v
  | .lit b => if fd.optional && isFill fd b then .ok .none else coerce P fd (.bytes b)

/-- `NitfField.__getitem__` (nitf_field.py:249-280), the low level value. -/
def lowGet (look : Look P.F) (S : Store P.F) (fi : FInfo) (n : Nat) (key : Key) :
    Except Err (Val P.F) :=
  match fi.fd.name with
  | none => .ok (.str [])
  | some _ => do
    checkIndex P look fi key
    if ← evalCond P look fi key then
      match fi.fd.value with
      | some e =>
        match evalE P look key e with
        | .error _ => .error .runtime
        | .ok v => finish P fi.fd (.val v)
      | none => finish P fi.fd (stored S fi.fd n key)
    else return .none

/-- Big-endian two's complement value of `w` bytes. -/
def bytesToInt (signed : Bool) (b : Bytes) : Int :=
  let n := bytesToNat b
  if signed && (2 * n ≥ 256 ^ b.length) then (n : Int) - (256 ^ b.length : Nat) else n

/-- Range check and big-endian encoding of `struct.pack` / `int.to_bytes`. -/
def intToBytes (signed : Bool) (w : Nat) (z : Int) : Except Err Bytes :=
  if signed then
    if - ((256 ^ w / 2 : Nat) : Int) ≤ z ∧ z < ((256 ^ w / 2 : Nat) : Int) then
      .ok (natToBytes w (if z < 0 then (z + (256 ^ w : Nat)).toNat else z.toNat))
    else .error .value
  else if 0 ≤ z ∧ z < ((256 ^ w : Nat) : Int) then .ok (natToBytes w z.toNat)
  else .error .value

/-- Sizes for which `IntFieldData` knows a format (nitf_field.py:483-504). -/
def intSizes : List Int := [1, 2, 3, 4, 8]

/-- `unpack` of the FieldData classes (nitf_field.py:436-504). -/
def unpackKind (sz : Except Err Int) (k : Kind) (b : Bytes) : Except Err (Val P.F) :=
  match k with
  | .plain | .bytesData | .engrda | .coord => .ok (.bytes b)
  | .strData => .ok (.str (latin1Dec b))
  | .fltData => if b.length = 4 then .ok (.flt (P.unpack32 b)) else .error .value
  | .intData s =>
    match sz with
    | .error x => .error x
    | .ok z =>
      if z ∈ intSizes then
        -- `int.from_bytes` (3 bytes) takes any length, `struct.unpack` only the exact one
        if z = 3 ∨ (b.length : Int) = z then .ok (.int (bytesToInt s b)) else .error .value
      else .error .exception

/-- `self[key]`: `NitfField.__getitem__` or `FieldData.__getitem__` (nitf_field.py:417-421). -/
def getWith (look : Look P.F) (S : Store P.F) (fi : FInfo) (n : Nat) (key : Key) :
    Except Err (Val P.F) :=
  match lowGet P look S fi n key with
  | .error x => .error x
  | .ok v =>
    match fi.fd.kind, v with
    | .plain, _ => .ok v
    | _, .none => .ok .none
    | k, .bytes b => unpackKind P (evalSize P look fi key) k b
    | _, _ => .ok v

/-- `f.nm` / `f.nm[...]` inside an expression (nitf_field.py:835-847), given how to read the
field at a position.  Simplification: using a loop field without an index, or a scalar with one,
raises; Python would hand back the field object (no shipped expression does this, see
`Props/Tables.lean`). -/
def lookVia (T : Tab) (get : Nat → Key → Except Err (Val P.F)) : Look P.F := fun nm k =>
  match resolve T nm with
  | none => .error .attr
  | some m =>
    match T[m]? with
    | none => .error .attr
    | some fi => if (fi.depth = 0) ≠ (k = []) then .error .type else get m k

/-- Field value with a recursion budget: evaluating a condition, size or shape reads other
fields, which in turn evaluate their own.  Running out of budget is Python's RecursionError. -/
def getF (T : Tab) (S : Store P.F) : Nat → Nat → Key → Except Err (Val P.F)
  | 0, _, _ => .error .recursion
  | fuel + 1, n, key =>
    match T[n]? with
    | none => .error .attr
    | some fi => getWith P (lookVia P T (getF T S fuel)) S fi n key

/-- Recursion budget that suffices for every acyclic description: its number of fields plus
one. -/
def budget (T : Tab) : Nat := T.length + 1

/-- Field access at top level. -/
def look (T : Tab) (S : Store P.F) : Look P.F := lookVia P T (getF P T S (budget T))

/-- `fs.field[name][key]` for the field at position `n`. -/
def getItem (T : Tab) (S : Store P.F) (n : Nat) (key : Key) : Except Err (Val P.F) :=
  getF P T S (budget T + 1) n key

/-- The integer text of a `%d` format. -/
def asIntD : Val P.F → Except Err Int
  | .int z => .ok z
  | .flt x => P.toIntD x
  | _ => .error .type

/-- Text before padding in `_format_val` (nitf_field.py:182-201). -/
def formatCore (fd : FieldDef) (v : Val P.F) (sz : Int) : Except Err Str :=
  match fd.frmt with
  | some (.zd w) => (asIntD P v).map (fmtInt w)
  | some (.pd w) => (asIntD P v).map (fmtIntPlus w)
  | some (.other i) => P.fmt i v
  | none =>
    match fd.ty with
    | .int => (asIntD P v).map (fmtInt sz.toNat)
    | .flt =>
      match v with
      | .flt x => P.fixedWidth x sz
      | _ => .error .type
    | _ => .ok (pyStr P v)

/-- `_format_val` (nitf_field.py:182-201); a negative size is an invalid format. -/
def formatVal (fd : FieldDef) (v : Val P.F) (sz : Int) : Except Err Str :=
  if sz < 0 then .error .value
  else
    match formatCore P fd v sz with
    | .error e => .error e
    | .ok t => .ok (if fd.ty = .int then t else padRight ' ' sz.toNat t)

/-- The formatted bytes of a value that is not a literal (nitf_field.py:324-337). -/
def encodeVal (fd : FieldDef) (sz : Int) (v : Val P.F) : Except Err Bytes :=
  match fd.optional, v with
  | true, .none =>
    if sz < 0 then .error .value
    else if fd.ty = .bytes then .error .type  -- a str, which `fh.write` rejects
    else latin1Enc (List.replicate sz.toNat fd.optChar)
  | _, v =>
    match fd.ty with
    | .bytes =>
      match v with
      | .bytes b => if (b.length : Int) ≠ sz then .error .runtime else .ok b
      | _ => .error .type
    | _ =>
      match formatVal P fd v sz with
      | .error e => .error e
      | .ok t => if (t.length : Int) ≠ sz then .error .runtime else latin1Enc t

/-- `NitfField.bytes` (nitf_field.py:310-337). -/
def fieldBytes (look : Look P.F) (S : Store P.F) (fi : FInfo) (n : Nat) (key : Key) :
    Except Err Bytes :=
  match evalSize P look fi key with
  | .error e => .error e
  | .ok sz =>
    match stored S fi.fd n key with
    | .lit b =>
      let t := padRight 32 sz.toNat b
      if (t.length : Int) ≠ sz then .error .runtime else .ok t
    | .val _ =>
      match lowGet P look S fi n key with
      | .error e => .error e
      | .ok v => encodeVal P fi.fd sz v

/-- One written field: position, key, bytes.  The file position recorded in `fh_loc` is the
total length of the chunks before it. -/
structure Chunk where
  pos : Nat
  key : Key
  bytes : Bytes
  deriving DecidableEq, Repr

/-- `range(c)` as loop indices. -/
def indices (c : Int) : List Int := (List.range c.toNat).map Int.ofNat

/-- Concatenate what is produced for each index of a loop. -/
def forChunks {α} (f : Int → Except Err (List α)) : List Int → Except Err (List α)
  | [] => .ok []
  | i :: is =>
    match f i with
    | .error x => .error x
    | .ok cs =>
      match forChunks f is with
      | .error x => .error x
      | .ok cs' => .ok (cs ++ cs')

/-- `NitfLoop.write_to_file` / `NitfField.write_to_file` (nitf_field.py:339-347, 625-629).
`n` is the position of the first field of the description written and `key` the indices of the
enclosing loops. -/
def writeD (T : Tab) (S : Store P.F) : Nat → Key → Desc → Except Err (List Chunk)
  | _, _, .nil => .ok []
  | n, key, .field _ r =>
    match T[n]? with
    | none => .error .attr
    | some fi =>
      match evalCond P (look P T S) fi key with
      | .error e => .error e
      | .ok false => writeD T S (n + 1) key r
      | .ok true =>
        match fieldBytes P (look P T S) S fi n key with
        | .error e => .error e
        | .ok b =>
          match writeD T S (n + 1) key r with
          | .error e => .error e
          | .ok cs => .ok (⟨n, key, b⟩ :: cs)
  | n, key, .loop e body r =>
    match evalShape P (look P T S) e key with
    | .error x => .error x
    | .ok c =>
      match forChunks (fun i => writeD T S n (key ++ [i]) body) (indices c) with
      | .error x => .error x
      | .ok cs =>
        match writeD T S (n + body.count) key r with
        | .error x => .error x
        | .ok cs' => .ok (cs ++ cs')

/-- Bytes of a list of chunks. -/
def chunkBytes (cs : List Chunk) : Bytes := (cs.map Chunk.bytes).flatten

/-- `FieldStruct.write_to_file` (nitf_field.py:912-914): the chunks written. -/
def writeChunks (d : Desc) (S : Store P.F) : Except Err (List Chunk) := writeD P d.tab S 0 [] d

/-- `FieldStruct.write_to_file`: the bytes written. -/
def writeStruct (d : Desc) (S : Store P.F) : Except Err Bytes :=
  (writeChunks P d S).map chunkBytes

/-- Value stored by `read_from_file` (nitf_field.py:376-396) for the bytes `t`. -/
def parseField (fd : FieldDef) (lit : Bool) (t : Bytes) : Except Err (Stored P.F) :=
  if lit then .ok (.lit t)
  else if fd.optional && isFill fd t then .ok (.val .none)
  else
    match fd.ty with
    | .str => .ok (.val (.str (latin1Dec (rstripB t))))
    | .bytes => .ok (.val (.bytes t))
    | .int =>
      if rstripB t = [] then .error .exception
      else match pyIntB (rstripB t) with
        | .ok z => .ok (.val (.int z))
        | .error _ => .error .exception
    | .flt =>
      if rstripB t = [] then .error .exception
      else match pyFloatB P (rstripB t) with
        | .ok x => .ok (.val (.flt x))
        | .error _ => .error .exception

/-- `fh.read(sz)` followed by the length check (nitf_field.py:371-375).  A negative size reads
to the end and then fails the check. -/
def takeExact (sz : Int) (b : Bytes) : Except Err (Bytes × Bytes) :=
  if sz < 0 then .error .runtime
  else if b.length < sz.toNat then .error .runtime
  else .ok (b.take sz.toNat, b.drop sz.toNat)

/-- Reading one field whose condition holds (nitf_field.py:368-396). -/
def readField (look : Look P.F) (lit : Bool) (S : Store P.F) (fi : FInfo) (n : Nat) (key : Key)
    (b : Bytes) : Except Err (Store P.F × Bytes) :=
  match evalSize P look fi key with
  | .error e => .error e
  | .ok sz =>
    match takeExact sz b with
    | .error e => .error e
    | .ok (t, rest) =>
      match fi.fd.name with
      | none => .ok (S, rest)
      | some _ =>
        match parseField P fi.fd lit t with
        | .error e => .error e
        | .ok v => .ok (S.set n key ⟨v, some t⟩, rest)

/-- Run a reader for each index of a loop. -/
def forRead {F} (f : Int → Store F × Bytes → Except Err (Store F × Bytes)) :
    List Int → Store F × Bytes → Except Err (Store F × Bytes)
  | [], s => .ok s
  | i :: is, s =>
    match f i s with
    | .error x => .error x
    | .ok s' => forRead f is s'

/-- `NitfLoop.read_from_file` / `NitfField.read_from_file` (nitf_field.py:364-396, 631-635).
Simplification: on an exception the fields read so far are dropped with the result (Python
leaves them in the object). -/
def readD (T : Tab) (lit : Bool) : Nat → Key → Desc → Store P.F × Bytes →
    Except Err (Store P.F × Bytes)
  | _, _, .nil, s => .ok s
  | n, key, .field _ r, (S, b) =>
    match T[n]? with
    | none => .error .attr
    | some fi =>
      match evalCond P (look P T S) fi key with
      | .error e => .error e
      | .ok false => readD T lit (n + 1) key r (S, b)
      | .ok true =>
        match readField P (look P T S) lit S fi n key b with
        | .error e => .error e
        | .ok s => readD T lit (n + 1) key r s
  | n, key, .loop e body r, (S, b) =>
    match evalShape P (look P T S) e key with
    | .error x => .error x
    | .ok c =>
      match forRead (fun i s => readD T lit n (key ++ [i]) body s) (indices c) (S, b) with
      | .error x => .error x
      | .ok s => readD T lit (n + body.count) key r s

/-- `FieldStruct.read_from_file` (nitf_field.py:916-933) into the object with state `S`;
result: new state and the bytes left unread.  `delayed_read` is in `Verif/Delayed.lean`. -/
def readInto (d : Desc) (lit : Bool) (S : Store P.F) (b : Bytes) :
    Except Err (Store P.F × Bytes) :=
  readD P d.tab lit 0 [] d (S, b)

/-- Reading into a freshly created object. -/
def readStruct (d : Desc) (lit : Bool) (b : Bytes) : Except Err (Store P.F × Bytes) :=
  readInto P d lit Store.empty b

/-- `get_raw_bytes` (nitf_field.py:241-247). -/
def getRawBytes (T : Tab) (S : Store P.F) (n : Nat) (key : Key) : Except Err Bytes :=
  match T[n]? with
  | none => .error .attr
  | some fi =>
    match (S n key).bind Cell.raw with
    | some b => .ok b
    | none => fieldBytes P (look P T S) S fi n key

/-- `pack` of the FieldData classes (nitf_field.py:439-528).  `struct.pack` of a float field
accepts an int or a float; integer formats accept only ints (3-byte fields take `int(v)`). -/
def packKind (sz : Except Err Int) (k : Kind) (v : Val P.F) : Except Err (Val P.F) :=
  match k with
  | .plain => .ok v
  | .coord => .error .notImpl
  | .engrda =>
    match v with
    | .bytes b => .ok (.bytes b)
    | _ => .error .type
  | .strData | .bytesData =>
    match v with
    | .bytes b => .ok (.bytes b)
    | .str s => (latin1Enc s).map .bytes
    | _ => .error .attr
  | .fltData =>
    match v with
    | .flt x => (P.pack32 x).map .bytes
    | .int z => (P.pack32 (P.ofInt z)).map .bytes
    | _ => .error .value
  | .intData s =>
    match sz with
    | .error x => .error x
    | .ok z =>
      if z ∈ intSizes then
        match v with
        | .int x => (intToBytes s z.toNat x).map .bytes
        | _ =>
          if z = 3 then
            match coerceInt P v with
            | .ok x => (intToBytes s 3 x).map .bytes
            | .error e => .error e
          else .error .value
      else .error .exception

/-- `len(v)` of a packed value. -/
def byteLen {F} : Val F → Except Err Nat
  | .bytes b => .ok b.length
  | .str s => .ok s.length
  | _ => .error .type

def Val.isNone {F} : Val F → Bool
  | .none => true
  | _ => false

/-- The part of `self[key] = v` before anything is stored: packing by the FieldData class
(nitf_field.py:423-427) and the checks of `__setitem__` (282-306).  The result is the field and
the value to store.  `tre_implementation_field` is in `Verif/Implement.lean`. -/
def setCheck (T : Tab) (S : Store P.F) (n : Nat) (key : Key) (v : Val P.F) :
    Except Err (FInfo × Val P.F) :=
  match T[n]? with
  | none => .error .attr
  | some fi =>
    match packKind P (evalSize P (look P T S) fi key) fi.fd.kind v with
    | .error e => .error e
    | .ok v =>
      if fi.fd.name.isNone then .error .runtime
      else match checkIndex P (look P T S) fi key with
      | .error e => .error e
      | .ok () =>
        match evalCond P (look P T S) fi key with
        | .error e => .error e
        | .ok false => .error .runtime
        | .ok true =>
          if fi.fd.hardcoded || fi.fd.value.isSome then .error .runtime
          else if v.isNone && !fi.fd.optional then .error .runtime
          else .ok (fi, v)

/-- `self[key] = v`: `__setitem__` (nitf_field.py:282-308), `FieldData.__setitem__` (423-427)
and `_set_size` (175-180).  The new state is returned also when an exception is raised, because
Python stores the value before it checks or updates the size.  The budget bounds the chain
"setting a data field sets its size field". -/
def setF (T : Tab) : Nat → Store P.F → Nat → Key → Val P.F → Store P.F × Option Err
  | 0, S, _, _, _ => (S, some .recursion)
  | fuel + 1, S, n, key, v =>
    match setCheck P T S n key v with
    | .error e => (S, some e)
    | .ok (fi, v) =>
      let S' := S.set n key ⟨.val v, none⟩
      if fi.fd.kind = .plain then (S', none)
      else match byteLen v with
        | .error e => (S', some e)
        | .ok l =>
          if fi.fd.sizeNotUpdated then
            match evalSize P (look P T S') fi key with
            | .error e => (S', some e)
            | .ok sz => if (l : Int) ≠ sz then (S', some .runtime) else (S', none)
          else
            match fi.fd.size with
            | .expr (.ref nm idx) =>
              -- exec "f.nm[idx] = ..."
              match idxKey key idx, resolve T nm with
              | .error e, _ => (S', some e)
              -- not a field: `f.nm = n` creates a plain attribute, `f.nm[..]` fails
              | .ok k', none => (S', if k' = [] then none else some .attr)
              | .ok k', some m =>
                match T[m]? with
                | none => (S', some .attr)
                | some fm =>
                  if fm.depth ≠ 0 ∧ k' = [] then (S', some .runtime)
                  else if fm.depth = 0 ∧ k' ≠ [] then (S', some .type)
                  else setF T fuel S' m k'
                    (.int (if l = 0 then 0 else (l : Int) + fi.fd.sizeOffset))
            | _ => (S', some .syntax)

/-- `fs.field[name][key] = v` for the field at position `n`. -/
def setItem (T : Tab) (S : Store P.F) (n : Nat) (key : Key) (v : Val P.F) :
    Store P.F × Option Err :=
  setF P T (budget T) S n key v

/-- `fs.nm` / `fs.nm[key]` through the attribute interface (nitf_field.py:835-847). -/
def getAttr (d : Desc) (S : Store P.F) (nm : Name) (key : Key) : Except Err (Val P.F) :=
  match resolve d.tab nm with
  | none => .error .attr
  | some n => getItem P d.tab S n key

/-- `fs.nm = v` / `fs.nm[key] = v` (nitf_field.py:856-863).  A name that is no field becomes an
ordinary Python attribute, which is not part of the record and not modelled. -/
def setAttr (d : Desc) (S : Store P.F) (nm : Name) (key : Key) (v : Val P.F) :
    Store P.F × Option Err :=
  match resolve d.tab nm with
  | none => (S, none)
  | some n => setItem P d.tab S n key v

/-- `__deepcopy__` (nitf_field.py:819-832). -/
def deepCopy (d : Desc) (S : Store P.F) : Except Err (Store P.F) :=
  match writeStruct P d S with
  | .error e => .error e
  | .ok b => (readStruct P d false b).map (·.1)

end Verif
