import Verif.Delayed
import Verif.DesData

/-
TREs and DES whose content is held by an object of another class
(`tre_implementation_field`/`tre_implementation_class`, nitf_tre.py:28-107;
`des_implementation_field`/`des_implementation_class`, nitf_des.py:25-109).  No class of pynitf sets
them; they are there for other packages.
-/

namespace Verif.Implement

variable (P : PyFloat)

/-! ### TREs -/

/-- What `tre_string()` may return (nitf_tre.py:39-42). -/
inductive TreText where
  | bytes (b : Bytes)
  | str (s : Str)

/-- A TRE class with an implementation: the objects, their `tre_string`, the class method
`read_tre_string`, and `tre_tag` and `desc` of the TRE.  Simplified: the object is a value; changing
it in place is the same as setting the attribute to another one. -/
structure TreImpl where
  O : Type
  treString : O → Except Err TreText
  readString : Str → Except Err O
  tag : Str
  desc : Desc

variable (C : TreImpl)

/-- An object of the class: the attribute named by `tre_implementation_field` (absent as long as it
was not set) and the fields, which may still have to be read. -/
structure Obj where
  obj : Option C.O
  raw : Lazy P.F

/-- `cls()`. -/
def Obj.new : Obj P C := ⟨none, ⟨Store.empty, none⟩⟩

variable {P C}

/-- `tre_bytes` (nitf_tre.py:36-42). -/
def Obj.bytes (t : Obj P C) : Except Err Bytes :=
  match t.obj with
  | none => .error .attr
  | some o =>
    match C.treString o with
    | .error e => .error e
    | .ok (.bytes b) => .ok b
    | .ok (.str s) => .ok (utf8Enc s)

/-- `update_raw_field` (nitf_tre.py:104-107): a delayed read over the present values. -/
def Obj.update (t : Obj P C) : Obj P C × Option Err :=
  match t.bytes with
  | .error e => (t, some e)
  | .ok b => (⟨t.obj, ⟨t.raw.store, some (b, false)⟩⟩, none)

/-- `read_from_tre_bytes` (nitf_tre.py:47-53). -/
def Obj.load (t : Obj P C) (b : Bytes) : Obj P C × Option Err :=
  match utf8Dec b with
  | .error e => (t, some e)
  | .ok s =>
    match C.readString s with
    | .error e => (t, some e)
    | .ok o => Obj.update ⟨some o, t.raw⟩

/-- `read_from_file` (nitf_tre.py:58-64) at a position followed by the bytes `b`; the bytes left. -/
def Obj.read (t : Obj P C) (b : Bytes) : Obj P C × Except Err Bytes :=
  match utf8Dec (rstripB (b.take 6)) with
  | .error e => (t, .error e)
  | .ok tag =>
    if tag ≠ C.tag then (t, .error .runtime)
    else match pyIntB ((b.drop 6).take 5) with
      | .error e => (t, .error e)
      | .ok cel =>
        match t.load (fhRead cel (b.drop 11)).1 with
        | (t', some e) => (t', .error e)
        | (t', none) => (t', .ok (fhRead cel (b.drop 11)).2)

/-- `write_to_file` (nitf_tre.py:73-80). -/
def Obj.write (t : Obj P C) : Except Err Bytes :=
  match t.bytes with
  | .error e => .error e
  | .ok b =>
    if b.length > 99999 then .error .runtime
    else .ok (tagBytes C.tag ++ (lenBytes b.length ++ b))

/-- `copy.deepcopy(tre)` (nitf_field.py:819-832). -/
def Obj.copy (t : Obj P C) : Except Err (Obj P C) :=
  match t.write with
  | .error e => .error e
  | .ok w =>
    match (Obj.new P C).read w with
    | (_, .error e) => .error e
    | (t', .ok _) => .ok t'

/-- `tre.nm = v` or `tre.nm[key] = v` (nitf_field.py:282-296, 423-427, 856-863): the value is packed,
index, condition and so on are checked, and then it is refused. -/
def Obj.set (t : Obj P C) (n : Nat) (key : Key) (v : Val P.F) : Obj P C × Err :=
  match C.desc.tab[n]? with
  | none => (t, .attr)
  | some fi =>
    match forceIf P C.desc (setLooks1 fi key) t.raw with
    | (o, some e) => (⟨t.obj, o⟩, e)
    | (o, none) =>
      match packKind P (evalSize P (look P C.desc.tab o.store) fi key) fi.fd.kind v with
      | .error e => (⟨t.obj, o⟩, e)
      | .ok _ =>
        match forceIf P C.desc (setLooks2 true fi) o with
        | (o, some e) => (⟨t.obj, o⟩, e)
        | (o, none) =>
          match setCheck P C.desc.tab o.store n key v with
          | .error e => (⟨t.obj, o⟩, e)
          | .ok _ => (⟨t.obj, o⟩, .runtime)

/-- What a user does with a TRE. -/
inductive Op (P : PyFloat) (C : TreImpl) where
  | get (nm : Name) (key : Key)
  | set (nm : Name) (key : Key) (v : Val P.F)
  | raw (nm : Name) (key : Key)
  | obj (o : C.O)
  | update
  | load (b : Bytes)
  | write

/-- One operation. -/
def step (t : Obj P C) : Op P C → Obj P C × FRes P.F
  | .get nm key =>
    let r := stepL P C.desc true t.raw (.get nm key)
    (⟨t.obj, r.1⟩, r.2)
  | .set nm key v =>
    match resolve C.desc.tab nm with
    | none => (t, .done)
    | some n => ((t.set n key v).1, .exc (t.set n key v).2)
  | .raw nm key =>
    let r := stepL P C.desc true t.raw (.raw nm key)
    (⟨t.obj, r.1⟩, r.2)
  | .obj o => (⟨some o, t.raw⟩, .done)
  | .update =>
    (t.update.1, match t.update.2 with
      | some e => .exc e
      | none => .done)
  | .load b =>
    ((t.load b).1, match (t.load b).2 with
      | some e => .exc e
      | none => .done)
  | .write =>
    (t, match t.write with
      | .error e => .exc e
      | .ok b => .bytes b)

/-- The object after a sequence of operations. -/
def after : Obj P C → List (Op P C) → Obj P C
  | t, [] => t
  | t, op :: ops => after (step t op).1 ops

/-- The results of a sequence of operations. -/
def results : Obj P C → List (Op P C) → List (FRes P.F)
  | _, [] => []
  | t, op :: ops => (step t op).2 :: results (step t op).1 ops

variable (P) in
/-- One step of `read_tre_data` (nitf_tre.py:244-257) for a tag whose class has an implementation: on
any exception the record is read as a TreUnknown.  The result is the object or the unknown TRE. -/
def readArea (C : TreImpl) (b : Bytes) : Except Err ((Obj P C ⊕ Tre P.F) × Bytes) :=
  match (Obj.new P C).read b with
  | (t, .ok rest) => .ok (.inl t, rest)
  | (_, .error _) =>
    match utf8Dec (b.take 6) with
    | .error e => .error e
    | .ok _ =>
      match readUnknown P b with
      | .error e => .error e
      | .ok (t, rest) => .ok (.inr t, rest)

/-! ### DES -/

/-- A DES class with an implementation: the objects, `des_write`, the class method `des_read` (the
object and the bytes of the file left), and the DES class itself. -/
structure DesImpl where
  O : Type
  desWrite : O → Except Err Bytes
  desRead : Bytes → Except Err (O × Bytes)
  cls : DesCls

/-- An object of the class. -/
structure DObj (P : PyFloat) (D : DesImpl) where
  obj : Option D.O
  des : DesObj P.F

variable {D : DesImpl}

/-- `cls(seg=seg)`. -/
def DObj.new (P : PyFloat) (D : DesImpl) : DObj P D := ⟨none, DesObj.new D.cls⟩

/-- `write_to_file` (nitf_des.py:64-66). -/
def DObj.write (t : DObj P D) : Except Err Bytes :=
  match t.obj with
  | none => .error .attr
  | some o => D.desWrite o

/-- `update_raw_field` (nitf_des.py:104-109); `id` and `size` as in `readDes`. -/
def DObj.update (t : DObj P D) (id : Val P.F) (size : Option Int) : Except Err (DObj P D) :=
  match t.write with
  | .error e => .error e
  | .ok b =>
    match readDes P t.des id size b with
    | .error e => .error e
    | .ok none => .ok t
    | .ok (some (d, _)) => .ok ⟨t.obj, d⟩

/-- `read_from_file` (nitf_des.py:38-45) at a file position followed by the bytes `b`.  The result is
none for False, else the object and the bytes after the new position. -/
def DObj.read (t : DObj P D) (id : Val P.F) (size : Option Int) (b : Bytes) :
    Except Err (Option (DObj P D × Bytes)) :=
  if pyEq P id (.str D.cls.tag) then
    match D.desRead b with
    | .error e => .error e
    | .ok (o, rest) =>
      match DObj.update ⟨some o, t.des⟩ id size with
      | .error e => .error e
      | .ok t' => .ok (some (t', rest))
  else .ok none

/-- `des.nm = v` or `des.nm[key] = v`: `tre_implementation_field` is the only attribute looked at
(nitf_field.py:294), so the field is set as in any record. -/
def DObj.set (t : DObj P D) (nm : Name) (key : Key) (v : Val P.F) : DObj P D × Option Err :=
  let r := setAttr P t.des.cls.desc t.des.fields nm key v
  (⟨t.obj, ⟨t.des.cls, r.1, t.des.after, t.des.extra⟩⟩, r.2)

end Verif.Implement
