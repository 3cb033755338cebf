import Verif.State
import Verif.File

/- The data of DES, text, graphic and reserved segments (nitf_des.py, nitf_text.py,
nitf_segment_data_handle.py). -/

namespace Verif

variable (P : PyFloat)

/-! ### DES whose data are fields -/

/-- A subclass of NitfDesFieldStruct (nitf_des.py:14-36): `des_tag`, `desc`, `data_after_allowed`,
`data_copy`.  `des_implementation_field` is in `Verif/Implement.lean`. -/
structure DesCls where
  tag : Str
  desc : Desc
  afterAllowed : Bool := false
  copyAfter : Bool := false

/-- An object of such a class: the fields, `data_after_tre_size` and `data_to_copy`. -/
structure DesObj (F : Type) where
  cls : DesCls
  fields : Store F
  after : Option Int := none
  extra : Option Bytes := none

/-- `cls()` or `cls(seg=seg)` (nitf_des.py:31-36). -/
def DesObj.new {F : Type} (c : DesCls) : DesObj F := ⟨c, Store.empty, none, none⟩

/-- `NitfDesFieldStruct.read_from_file` (nitf_des.py:38-62) at a file position followed by the bytes
`b`.  `id` is `subheader.desid`, `size` is `_seg().data_size`, absent if `_seg` is None.  The result
is none for False, else the object and the bytes after the new position.  Simplifications: an
exception leaves no object; `seek` to before the start position goes to the start. -/
def readDes (o : DesObj P.F) (id : Val P.F) (size : Option Int) (b : Bytes) :
    Except Err (Option (DesObj P.F × Bytes)) :=
  if pyEq P id (.str o.cls.tag) then
    match readInto P o.cls.desc false o.fields b with
    | .error e => .error e
    | .ok (S, rest) =>
      let used : Int := (b.length : Int) - rest.length
      let after : Int := match size with
        | some n => n - used
        | none => 0
      if after ≠ 0 then
        if o.cls.afterAllowed then
          if o.cls.copyAfter then
            .ok (some (⟨o.cls, S, some after, some (fhRead after rest).1⟩, (fhRead after rest).2))
          else .ok (some (⟨o.cls, S, some after, o.extra⟩, b.drop (used + after).toNat))
        else .error .runtime
      else .ok (some (⟨o.cls, S, some after, o.extra⟩, rest))
  else .ok none

/-- `NitfDesFieldStruct.write_to_file` (nitf_des.py:64-70). -/
def writeDes (o : DesObj P.F) : Except Err Bytes :=
  match writeStruct P o.cls.desc o.fields with
  | .error e => .error e
  | .ok b => .ok (b ++ o.extra.getD [])

/-- `update_raw_field` (nitf_des.py:104-109), and thereby the effect of `str(des)` (lines 82-95) on
the object: the fields are written and read again.  The text itself is modelled elsewhere. -/
def printDes (o : DesObj P.F) (id : Val P.F) (size : Option Int) : Except Err (DesObj P.F) :=
  match writeDes P o with
  | .error e => .error e
  | .ok b =>
    match readDes P o id size b with
    | .error e => .error e
    | .ok none => .ok o
    | .ok (some (o', _)) => .ok o'

/-- `copy.deepcopy(des)` (nitf_field.py:819-832): a new object, whose subheader has the desid of the
class (nitf_segment_data_handle.py:156-161) and whose `_seg` is None, reads what is written. -/
def copyDes (o : DesObj P.F) : Except Err (DesObj P.F) :=
  match writeDes P o with
  | .error e => .error e
  | .ok b =>
    match readDes P (DesObj.new o.cls) (.str o.cls.tag) none b with
    | .error e => .error e
    | .ok none => .ok (DesObj.new o.cls)
    | .ok (some (o', _)) => .ok o'

/-! ### The data classes together -/

/-- A data object: NitfTextStr (nitf_text.py:11-46), NitfDesFieldStruct, the classes that keep their
bytes (NitfGraphicRaw and NitfResRaw, nitf_segment_data_handle.py:185-221; NitfDesCopy,
nitf_des.py:136-154, once read), NitfDataPlaceHolder with the size it skips
(nitf_segment_data_handle.py:223-236), or image data `I`, whose classes are modelled in
`Verif/Image.lean`. -/
inductive DataObj (F I : Type) where
  | text (t : TextStr)
  | des (o : DesObj F)
  | raw (k : SegKind) (b : Bytes)
  | holder (size : Int)
  | image (x : I)

/-- Which classes are registered: the DES classes, and the raw ones, which are not by default. -/
structure DataReg where
  des : List DesCls
  raw : SegKind → Bool := fun _ => false

/-- `write_to_file` of a data object. -/
def writeObj (img : DataIO P.F) : DataObj P.F img.D → Except Err Bytes
  | .text t => .ok t.asBytes
  | .des o => writeDes P o
  | .raw _ b => .ok b
  | .holder _ => .error .notImpl
  | .image x => img.write x

/-- The DES classes (in the order of the set), each asked to read
(`PriorityHandleSet.handle`, priority_handle_set.py:69-86).  `found` is what an earlier class of the
same priority has read; a second class that also reads is an error. -/
def readDesClasses (id : Val P.F) (size : Int) :
    Option (DesObj P.F) → Bytes → List DesCls → Except Err (Option (DesObj P.F) × Bytes)
  | found, b, [] => .ok (found, b)
  | found, b, c :: cs =>
    match readDes P (DesObj.new c) id (some size) b with
    | .error e => .error e
    | .ok none => readDesClasses id size found b cs
    | .ok (some (o, r)) =>
      if found.isSome then .error .runtime else readDesClasses id size (some o) r cs

/-- NitfDataPlaceHolder, or a raw class if registered. -/
def readOther {I : Type} (R : DataReg) (k : SegKind) (size : Int) (b : Bytes) :
    DataObj P.F I × Bytes :=
  if R.raw k then (.raw k (fhRead size b).1, (fhRead size b).2)
  else (.holder size, b.drop size.toNat)

/-- `data_handle_set.read_from_file` (nitf_segment_data_handle.py:17-38) for the registered classes:
text is always taken by NitfTextStr, a DES by the class with its desid, everything else by a raw
class or the placeholder.  The DES classes for EXT_DEF_CONTENT are not included. -/
def readObj (img : DataIO P.F) (R : DataReg) (k : SegKind) (sub : Store P.F) (size : Int)
    (b : Bytes) : Except Err (DataObj P.F img.D × Bytes) :=
  match k with
  | .image => (img.read .image sub size b).map fun r => (.image r.1, r.2)
  | .text => .ok (.text (.bytes (fhRead size b).1), (fhRead size b).2)
  | .des =>
    match getAttr P Tables.t_des_subheader sub (n!"desid") [] with
    | .error e => .error e
    | .ok id =>
      match readDesClasses P id size none b R.des with
      | .error e => .error e
      | .ok (some o, r) => .ok (.des o, r)
      | .ok (none, r) => .ok (readOther P R .des size r)
  | k => .ok (readOther P R k size b)

/-- The attribute `data`: only NitfDesCopy has one (images: see `img`). -/
def dataObj (img : DataIO P.F) : DataObj P.F img.D → Except Err Bytes
  | .raw .des b => .ok b
  | .image x => img.data x
  | _ => .error .attr

/-- The shipped data classes as the data handlers of a file. -/
def stdIO (img : DataIO P.F) (R : DataReg) : DataIO P.F where
  D := DataObj P.F img.D
  write := writeObj P img
  read := readObj P img R
  data := dataObj P img

/-- The DES classes of pynitf whose data are fields (nitf_des_cs*.py). -/
def shippedDes : List DesCls :=
  [⟨"CSATTA".toList, Tables.t_des_csatta, false, false⟩,
   ⟨"CSATTB".toList, Tables.t_des_csattb, false, false⟩,
   ⟨"CSCSDB".toList, Tables.t_des_cscsdb, false, false⟩,
   ⟨"CSEPHB".toList, Tables.t_des_csephb, false, false⟩,
   ⟨"CSSFAB".toList, Tables.t_des_cssfab, false, false⟩]

end Verif
