import Verif.Content
import Verif.File

/-
The data classes of an EXT_DEF_CONTENT DES: DesEXT_DEF_CONTENT and DesEXT_h5
(nitf_des_ext_def_content.py:123-302).  The content headers are modelled in `Verif/Content.lean`.
-/

namespace Verif

variable (P : PyFloat)

/-- The files on disk: contents by path, none if there is no such file. -/
abbrev Disk := Str → Option Bytes

/-- An object of DesEXT_h5 (`h5`) or DesEXT_DEF_CONTENT.  `owned`: `user_subheader._des` is this
object.  `hdrs` are the attributes of `user_subheader`; its two fields are not kept, they are
computed anew at each write (`writeHeaders_text` shows that their old values do not matter).
`temp_dir` and the h5py handle are not modelled. -/
structure ExtObj where
  h5 : Bool
  owned : Bool
  size : Option Int
  data : Option Bytes
  file : Option Str
  hdrs : Headers

/-- An attribute of the user subheader is assigned. -/
def ExtObj.put (o : ExtObj) (n : Bytes) (v : Option Bytes) : ExtObj :=
  { o with hdrs := fun m => if m = n then v else o.hdrs m }

/-- `DesEXT_DEF_CONTENT(data_size=n)` (nitf_des_ext_def_content.py:128-135). -/
def newExt (n : Option Int) : ExtObj := ⟨false, true, n, none, none, defaultHeaders⟩

/-- `DesEXT_h5(des_id1=…, des_id2=…)` without a file (nitf_des_ext_def_content.py:218-234). -/
def newH5 (id1 id2 : Bytes) : ExtObj :=
  (((ExtObj.put ⟨true, true, none, none, none, defaultHeaders⟩
    (lit "Content-Type") (some (lit "application/x-hdf5"))).put
    (lit "DES-ID1") (some id1)).put (lit "DES-ID2") (some id2))

/-- `attach_file` (nitf_des_ext_def_content.py:248-253).  `disp` is the text with the base name and
the creation time.  Without the file `os.stat` raises OSError (here `.eof`) after `self.file` was
set. -/
def attachFile (d : Disk) (o : ExtObj) (p : Str) (disp : Bytes) : ExtObj × Option Err :=
  match d p with
  | none => ({ o with file := some p }, some .eof)
  | some b =>
    ({ ({ o with file := some p }.put (lit "Content-Disposition") (some disp)) with
        size := some b.length }, none)

/-- `str(self._des.data_size).encode('utf-8')` (nitf_des_ext_def_content.py:92). -/
def sizeText : Option Int → Bytes
  | none => lit "None"
  | some n => utf8Enc (intStr n)

/-- The attributes after the assignment in `write_to_file` of the user subheader
(nitf_des_ext_def_content.py:90-92). -/
def ExtObj.outHdrs (o : ExtObj) : Headers :=
  if o.owned then (o.put (lit "Content-Length") (some (sizeText o.size))).hdrs else o.hdrs

/-- The user subheader as written (nitf_des_ext_def_content.py:90-94). -/
def writeExtHeader (o : ExtObj) : Except Err Bytes :=
  (writeHeaders P none o.outHdrs Store.empty).map (·.2)

/-- `write_to_file` of the two classes (nitf_des_ext_def_content.py:158-162, 284-291).  A file that
cannot be opened is an OSError (here `.eof`). -/
def writeExtData (d : Disk) (o : ExtObj) : Except Err Bytes :=
  if o.h5 then
    match o.file with
    | some p =>
      match d p with
      | some b => .ok b
      | none => .error .eof
    | none => .ok (o.data.getD [])
  else
    match o.size with
    | none => .ok []
    | some n => .ok (List.replicate n.toNat 0)

/-- The segment is written: user subheader, then data (nitf_segment.py:210-248).  The user subheader
is written into `desshf`, see `Verif/File.lean`. -/
def writeExt (d : Disk) (o : ExtObj) : Except Err (Bytes × Bytes) :=
  match writeExtHeader P o with
  | .error e => .error e
  | .ok h =>
    match writeExtData d o with
    | .error e => .error e
    | .ok b => .ok (h, b)

/-- `cls(seg=seg)` and `read_from_file` of the two classes (nitf_des_ext_def_content.py:128-135,
143-156, 218-234, 270-276).  `id` is `subheader.desid`, `a` the attributes of the user subheader that
was read, `size` is `seg.data_size`.  None for False.  `np.memmap` raises ValueError if the file is
too short or the size is negative. -/
def readExtCls (h5 : Bool) (id : Val P.F) (a : Headers) (size : Int) (b : Bytes) :
    Except Err (Option (ExtObj × Bytes)) :=
  if pyEq P id (.str "EXT_DEF_CONTENT".toList) then
    if h5 && a (lit "Content-Type") != some (lit "application/x-hdf5") then .ok none
    else if size < 0 ∨ (b.length : Int) < size then .error .value
    else .ok (some (⟨h5, false, some size, some (b.take size.toNat), none, a⟩, b.drop size.toNat))
  else .ok none

/-- The two classes in the order of their priorities, 0 and -1 (nitf_des_ext_def_content.py:297-300).
All other classes refuse this desid or have a lower priority. -/
def readExtData (id : Val P.F) (a : Headers) (size : Int) (b : Bytes) :
    Except Err (Option (ExtObj × Bytes)) :=
  match readExtCls P true id a size b with
  | .error e => .error e
  | .ok (some r) => .ok (some r)
  | .ok none => readExtCls P false id a size b

/-- A segment with desid EXT_DEF_CONTENT is read: the user subheader from the bytes `h`
(nitf_segment.py:187-199), then `size` bytes of data. -/
def readExt (h : Bytes) (size : Int) (b : Bytes) : Except Err (Option (ExtObj × Bytes)) :=
  match readHeaders P h with
  | .error e => .error e
  | .ok (a, _) => readExtData P (.str "EXT_DEF_CONTENT".toList) a size b

/-- What a user does with an object, and when: `attach_file`, or an assignment to an attribute of the
user subheader. -/
inductive ExtOp where
  | attach (p : Str) (disp : Bytes)
  | put (n : Bytes) (v : Option Bytes)

/-- One operation, the disk being `d`. -/
def extStep (o : ExtObj) (x : Disk × ExtOp) : ExtObj :=
  match x.2 with
  | .attach p disp => (attachFile x.1 o p disp).1
  | .put n v => o.put n v

def extRun (o : ExtObj) (l : List (Disk × ExtOp)) : ExtObj := l.foldl extStep o

/-- `DesExtDefContentDiff.compare_data` (nitf_des_ext_def_content.py:189-201) with the configuration
values `exclude` and `exclude_but_warn`.  `np.array_equal(None, None)` is True. -/
def extSame (exclude warn : Bool) (d1 d2 : ExtObj) : Bool :=
  if exclude then true
  else if warn then true
  else decide (d1.data = d2.data)

end Verif
