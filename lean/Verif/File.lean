import Verif.Tre
import Verif.Update
import Verif.Security

/-
Model of `/repo/pynitf/nitf_file.py` (NitfFile) and `/repo/pynitf/nitf_segment.py`: segments,
writing and reading a whole file.

Simplifications.  Hooks are left out (the default hook set is empty; `Verif/Handle.lean` has them).
Data handlers are a parameter (`DataIO`): how a data object is written, and which object the
handler set makes of the bytes at the file position; only the `TRE_OVERFLOW` handler, which the
TRE code uses, is spelled out.  No two segments share a subheader object.  A file is the list of
its bytes; writing appends at the end, `update_field` overwrites inside the header.
-/

namespace Verif

variable (P : PyFloat)

/-- The five kinds of segments, in file order. -/
inductive SegKind where
  | image | graphic | text | des | res
  deriving DecidableEq, Repr

/-- `sh_class` (nitf_segment.py:245, 283, 306, 334, 358): the description of the subheader. -/
def SegKind.desc : SegKind → Desc
  | .image => Tables.t_image_subheader
  | .graphic => Tables.t_graphic_subheader
  | .text => Tables.t_text_subheader
  | .des => Tables.t_des_subheader
  | .res => Tables.t_res_subheader

/-- `_tre_field_list`; `none` if `_type_support_tre` is false (nitf_segment.py:248-250, 286-287,
309-310, 335). -/
def SegKind.areas : SegKind → Option (List Area)
  | .image => some imageAreas
  | .graphic => some graphicAreas
  | .text => some textAreas
  | .des => none
  | .res => none

/-- `_update_file_header_field` (nitf_segment.py:246, 284, 307, 336). -/
def SegKind.lenFields : SegKind → Name × Name
  | .image => (n!"lish", n!"li")
  | .graphic => (n!"lssh", n!"ls")
  | .text => (n!"ltsh", n!"lt")
  | .des => (n!"ldsh", n!"ld")
  | .res => (n!"lresh", n!"lre")

/-- Count field of the file header (nitf_file.py:153-174, 207-211). -/
def SegKind.numField : SegKind → Name
  | .image => n!"numi"
  | .graphic => n!"nums"
  | .text => n!"numt"
  | .des => n!"numdes"
  | .res => n!"numres"

/-- Prefix of the security fields. -/
def SegKind.secPrefix : SegKind → Name
  | .image => n!"is"
  | .graphic => n!"ss"
  | .text => n!"ts"
  | .des => n!"des"
  | .res => n!"re"

/-- `str.upper(h_data)` of the first TRE area (nitf_tre.py:227, nitf_des.py:168). -/
def SegKind.oflName : SegKind → Str
  | .image => "IXSHD".toList
  | .graphic => "SXSHD".toList
  | .text => "TXSHD".toList
  | .des => []
  | .res => []

/-- Data handlers (nitf_segment_data_handle.py): `write` is `data.write_to_file`, `read k sub
size b` what `data_handle_set.read_from_file` makes of the bytes `b` at the file position, for a
segment of kind `k` with subheader `sub` and `data_size` `size`, and the bytes left; `data` is the
attribute `data` of the object. -/
structure DataIO (F : Type) where
  D : Type
  write : D → Except Err Bytes
  read : SegKind → Store F → Int → Bytes → Except Err (D × Bytes)
  data : D → Except Err Bytes

/-- `seg.data`: a `TreOverflow` (nitf_des.py:156-190) or another data object. -/
inductive SegData (D : Type) where
  | overflow (b : Bytes)
  | other (x : D)

/-- A NitfSegment (nitf_segment.py:29-58).  `linked` says that `nitf_file` is the file the segment
is in (rather than None); `user` is the user subheader with its class. -/
structure Seg (F D : Type) where
  linked : Bool
  sub : Store F
  user : Option (Desc × Store F) := none
  tres : List (Tre F) := []
  data : SegData D

/-- A NitfFile (nitf_file.py:51-74). -/
structure NFile (F D : Type) where
  header : Store F
  tres : List (Tre F) := []
  image : List (Seg F D) := []
  graphic : List (Seg F D) := []
  text : List (Seg F D) := []
  des : List (Seg F D) := []
  res : List (Seg F D) := []

/-- Registered TRE classes and user subheader classes by desid and resid
(nitf_segment_user_subheader_handle.py:28-50).  A class stands for its description. -/
structure Env where
  reg : Registry
  desUser : List (Str × Desc) := []
  resUser : List (Str × Desc) := []

variable (E : Env) (IO : DataIO P.F)

/-- A sequence of `setattr`, stopping at the first exception. -/
def setAll (d : Desc) : List (Name × Val P.F) → Store P.F → Except Err (Store P.F)
  | [], S => .ok S
  | (nm, v) :: r, S =>
    match setA P d S nm v with
    | .error e => .error e
    | .ok S' => setAll d r S'

/-- The new DES segment for overflowing TREs (nitf_tre.py:227-230): `TreOverflow(...)`
(nitf_segment_data_handle.py:160-165, nitf_des.py:159-170), then `NitfDesSegment(des,
security=...)` (nitf_segment.py:54-55), then `append` which links it (nitf_file.py:29-31). -/
def overflowSeg (ofl : Str) (segIndex : Nat) (sec : Sec P.F) (b : Bytes) :
    Except Err (Seg P.F IO.D) :=
  match setAll P Tables.t_des_subheader
      [(n!"dsver", .int 1), (n!"desid", .str "TRE_OVERFLOW".toList), (n!"desoflw", .str ofl),
       (n!"desitem", .int (segIndex + 1))] Store.empty with
  | .error e => .error e
  | .ok S =>
    match setSecurity P Tables.t_des_subheader sec S (n!"des") with
    | (_, some e) => .error e
    | (S', none) => .ok { linked := true, sub := S', data := .overflow b }

/-- `prepare_tre_write(tre_list, header, des_list, field_list, seg_index)` including the new DES
segment.  (Simplified order: the overflow field is set before, not after, the segment is made.) -/
def prepareHeader (d : Desc) (areas : List Area) (pre : Name) (ofl : Str) (segIndex : Nat)
    (tres : List (Tre P.F)) (S : Store P.F) (des : List (Seg P.F IO.D)) :
    Except Err (Store P.F × List (Seg P.F IO.D)) :=
  match prepareTreWrite P d areas des.length tres S with
  | .error e => .error e
  | .ok (S', none) => .ok (S', des)
  | .ok (S', some b) =>
    match getSecurity P d S' pre with
    | .error e => .error e
    | .ok sec =>
      match overflowSeg P IO ofl segIndex sec b with
      | .error e => .error e
      | .ok s => .ok (S', des ++ [s])

/-- `seg.prepare_tre_write` for all segments of one kind, counting from `i`
(nitf_segment.py:151-160, nitf_file.py:204-205). -/
def prepareSegs (k : SegKind) : Nat → List (Seg P.F IO.D) → List (Seg P.F IO.D) →
    Except Err (List (Seg P.F IO.D) × List (Seg P.F IO.D))
  | _, [], des => .ok ([], des)
  | i, s :: ss, des =>
    match k.areas with
    | none => .ok (s :: ss, des)
    | some areas =>
      match prepareHeader P IO k.desc areas k.secPrefix k.oflName i s.tres s.sub des with
      | .error e => .error e
      | .ok (S', des') =>
        match prepareSegs k (i + 1) ss des' with
        | .error e => .error e
        | .ok (ss', des'') => .ok ({ s with sub := S' } :: ss', des'')

/-- `dseg.subheader.desid` is not `TRE_OVERFLOW`, for a list of segments
(nitf_file.py:195-198, 223-226). -/
def dropOverflow : List (Seg P.F IO.D) → Except Err (List (Seg P.F IO.D))
  | [] => .ok []
  | s :: ss =>
    match getAttr P Tables.t_des_subheader s.sub (n!"desid") [] with
    | .error e => .error e
    | .ok (.str id) =>
      match dropOverflow ss with
      | .error e => .error e
      | .ok ss' => .ok (if id = "TRE_OVERFLOW".toList then ss' else s :: ss')
    | .ok _ => .error .attr

/-- `user_subheader_handle_set.user_subheader_cls(seg)`
(nitf_segment_user_subheader_handle.py:14-19, 32, 43). -/
def userCls (k : SegKind) (sub : Store P.F) : Except Err (Option Desc) :=
  let find (l : List (Str × Desc)) : Except Err (Val P.F) → Except Err (Option Desc)
    | .error e => .error e
    | .ok (.str id) => .ok ((l.find? fun e => e.1 == id).map (·.2))
    | .ok _ => .ok none
  match k with
  | .des => find E.desUser (getAttr P k.desc sub (n!"desid") [])
  | .res => find E.resUser (getAttr P k.desc sub (n!"resid") [])
  | _ => .ok none

/-- `subheader.user_subheader_data = v` (nitf_des_subheader.py:62-64).  Only the DES subheader has
this property; for the other kinds (also for RES) it is a plain attribute that is never
written. -/
def setUserData (k : SegKind) (sub : Store P.F) (v : Val P.F) : Except Err (Store P.F) :=
  match k with
  | .des => setA P k.desc sub (n!"desshf") v
  | _ => .ok sub

/-- `_write_user_subheader` (nitf_segment.py:201-208). -/
def writeUser (k : SegKind) (user : Option (Desc × Store P.F)) (sub : Store P.F) :
    Except Err (Store P.F) :=
  match user with
  | some (d, U) =>
    match writeStruct P d U with
    | .error e => .error e
    | .ok b => setUserData P k sub (.bytes b)
  | none => setUserData P k sub (.str [])

/-- The check at the start of `write_to_file` (nitf_segment.py:219-222). -/
def checkUser (k : SegKind) (s : Seg P.F IO.D) : Except Err Unit :=
  if s.linked then
    match userCls P E k s.sub with
    | .error e => .error e
    | .ok none => .ok ()
    | .ok (some d) => if s.user.map (·.1) = some d then .ok () else .error .runtime
  else .ok ()

/-- `data.write_to_file`; any exception becomes a RuntimeError (nitf_segment.py:228-231). -/
def writeData (x : SegData IO.D) : Except Err Bytes :=
  match x with
  | .overflow b => .ok b
  | .other x =>
    match IO.write x with
    | .error _ => .error .runtime
    | .ok b => .ok b

/-- The bytes a segment is written as, and the segment afterwards (nitf_segment.py:218-233). -/
def segBytes (k : SegKind) (s : Seg P.F IO.D) :
    Except Err (Seg P.F IO.D × Bytes × Bytes) :=
  match checkUser P E IO k s with
  | .error e => .error e
  | .ok () =>
    match writeUser P k s.user s.sub with
    | .error e => .error e
    | .ok sub =>
      match writeStruct P k.desc sub with
      | .error e => .error e
      | .ok sb =>
        match writeData P IO s.data with
        | .error e => .error e
        | .ok db => .ok ({ s with sub := sub }, sb, db)

/-- `file_header.update_field(fh, name, v, key)`, for a header written as `cs` at the start of the
file: the new header and file. -/
def updateHeader (cs : List Chunk) (nm : Name) (key : Key) (v : Nat) (st : Store P.F × Bytes) :
    Except Err (Store P.F × Bytes) :=
  match resolve Tables.t_file_header.tab nm with
  | none => .error .key
  | some n =>
    match updateField P Tables.t_file_header cs 0 st.1 ⟨st.2, st.2.length⟩ n key (.int v) with
    | (_, .error e) => .error e
    | (S', .ok fh) => .ok (S', fh.bytes)

/-- `_update_file_header(fh, i, sz_header, sz_data)`, skipped for a segment that is not linked to
the file (nitf_segment.py:180-185, 236-238). -/
def updateLengths (cs : List Chunk) (k : SegKind) (i : Nat) (linked : Bool) (lsub ldata : Nat)
    (st : Store P.F × Bytes) : Except Err (Store P.F × Bytes) :=
  if linked then
    match updateHeader P cs k.lenFields.1 [(i : Int)] lsub st with
    | .error e => .error e
    | .ok st1 => updateHeader P cs k.lenFields.2 [(i : Int)] ldata st1
  else .ok st

/-- `seg.write_to_file(fh, i)` for all segments of one kind (nitf_segment.py:210-241,
nitf_file.py:217-218): the segments afterwards, the header and the file. -/
def writeSegs (cs : List Chunk) (k : SegKind) : Nat → List (Seg P.F IO.D) →
    Store P.F × Bytes → Except Err (List (Seg P.F IO.D) × Store P.F × Bytes)
  | _, [], st => .ok ([], st)
  | i, s :: ss, (H, out) =>
    match segBytes P E IO k s with
    | .error e => .error e
    | .ok (s', sb, db) =>
      match updateLengths P cs k i s.linked sb.length db.length (H, out ++ (sb ++ db)) with
      | .error e => .error e
      | .ok st =>
        match writeSegs cs k (i + 1) ss st with
        | .error e => .error e
        | .ok (ss', st') => .ok (s' :: ss', st')

/-- `NitfFile.write` (nitf_file.py:191-226): the file object afterwards and the bytes of the
file.  On an exception the state is not returned. -/
def writeFile (f : NFile P.F IO.D) : Except Err (NFile P.F IO.D × Bytes) := do
  let des0 ← dropOverflow P IO f.des
  let (h0, des1) ← prepareHeader P IO Tables.t_file_header fileAreas (n!"fs") "XHD".toList 0
    f.tres f.header des0
  let (image1, des2) ← prepareSegs P IO .image 0 f.image des1
  let (graphic1, des3) ← prepareSegs P IO .graphic 0 f.graphic des2
  let (text1, des4) ← prepareSegs P IO .text 0 f.text des3
  let h1 ← setAll P Tables.t_file_header
    [(n!"numi", .int image1.length), (n!"nums", .int graphic1.length),
     (n!"numt", .int text1.length), (n!"numdes", .int des4.length),
     (n!"numres", .int f.res.length)] h0
  let cs ← writeChunks P Tables.t_file_header h1
  let st ← updateHeader P cs (n!"hl") [] (chunkBytes cs).length (h1, chunkBytes cs)
  let (image2, st) ← writeSegs P E IO cs .image 0 image1 st
  let (graphic2, st) ← writeSegs P E IO cs .graphic 0 graphic1 st
  let (text2, st) ← writeSegs P E IO cs .text 0 text1 st
  let (des5, st) ← writeSegs P E IO cs .des 0 des4 st
  let (res2, st) ← writeSegs P E IO cs .res 0 f.res st
  let st ← updateHeader P cs (n!"fl") [] st.2.length st
  let des6 ← dropOverflow P IO des5
  return ({ header := st.1, tres := f.tres, image := image2, graphic := graphic2, text := text2,
            des := des6, res := res2 }, st.2)

/-! ### Reading -/

/-- `fh.read(size)`: a negative size reads everything. -/
def fhRead (size : Int) (b : Bytes) : Bytes × Bytes :=
  if size < 0 then (b, []) else (b.take size.toNat, b.drop size.toNat)

/-- `hs.read_from_file(seg, fh, i)` (nitf_segment.py:178): the handler `TreOverflow` takes the DES
segments with its desid (nitf_des.py:172-177). -/
def readData (k : SegKind) (sub : Store P.F) (size : Int) (b : Bytes) :
    Except Err (SegData IO.D × Bytes) :=
  let other : Except Err (SegData IO.D × Bytes) :=
    match IO.read k sub size b with
    | .error e => .error e
    | .ok (x, r) => .ok (.other x, r)
  match k with
  | .des =>
    match getAttr P k.desc sub (n!"desid") [] with
    | .error e => .error e
    | .ok v =>
      if pyEq P v (.str "TRE_OVERFLOW".toList) then
        .ok (.overflow (fhRead size b).1, (fhRead size b).2)
      else other
  | _ => other

/-- `_read_user_subheader` (nitf_segment.py:187-199).  Only the DES subheader has the attribute
`user_subheader_data`. -/
def readUser (k : SegKind) (sub : Store P.F) : Except Err (Option (Desc × Store P.F)) :=
  match userCls P E k sub with
  | .error e => .error e
  | .ok none => .ok none
  | .ok (some d) =>
    match k with
    | .des =>
      match getAttr P k.desc sub (n!"desshf") [] with
      | .error e => .error e
      | .ok (.bytes b) =>
        match readStruct P d false b with
        | .error e => .error e
        | .ok (U, _) => .ok (some (d, U))
      | .ok _ => .error .type
    | _ => .error .attr

/-- `seg.read_from_file` of a new segment (nitf_segment.py:162-178). -/
def readSeg (k : SegKind) (size : Int) (b : Bytes) :
    Except Err (Seg P.F IO.D × Bytes) :=
  match readStruct P k.desc false b with
  | .error e => .error e
  | .ok (sub, r1) =>
    match readUser P E k sub with
    | .error e => .error e
    | .ok user =>
      match readData P IO k sub size r1 with
      | .error e => .error e
      | .ok (x, r2) => .ok ({ linked := true, sub := sub, user := user, data := x }, r2)

/-- All segments of one kind, with the data sizes from the file header. -/
def readSegs (k : SegKind) : List Int → Bytes → Except Err (List (Seg P.F IO.D) × Bytes)
  | [], b => .ok ([], b)
  | size :: r, b =>
    match readSeg P E IO k size b with
    | .error e => .error e
    | .ok (s, b1) =>
      match readSegs k r b1 with
      | .error e => .error e
      | .ok (ss, b2) => .ok (s :: ss, b2)

/-- `[f(i) for i in range(n)]` where `f(i)` is an integer field of the header. -/
def listField (f : Int → Except Err (Val P.F)) : List Int → Except Err (List Int)
  | [] => .ok []
  | i :: is =>
    match f i with
    | .error e => .error e
    | .ok v =>
      match asInt v with
      | .error e => .error e
      | .ok z =>
        match listField f is with
        | .error e => .error e
        | .ok zs => .ok (z :: zs)

/-- The sizes for the segments of a kind (nitf_file.py:153-177); both fields are evaluated. -/
def segSizes (H : Store P.F) (k : SegKind) : Except Err (List Int) :=
  match getAttr P Tables.t_file_header H k.numField [] with
  | .error e => .error e
  | .ok v =>
    match asInt v with
    | .error e => .error e
    | .ok n =>
      let list (nm : Name) :=
        listField P (fun i => getAttr P Tables.t_file_header H nm [i]) (indices n)
      match list k.lenFields.1 with
      | .error e => .error e
      | .ok _ => list k.lenFields.2

/-- `desseg.des.data` (nitf_tre.py:179). -/
def desData (s : Seg P.F IO.D) : Except Err Bytes :=
  match s.data with
  | .overflow b => .ok b
  | .other x => IO.data x

/-- `seg.read_tre(des_segment)` (nitf_segment.py:145-149). -/
def segTres (k : SegKind) (des : List (Except Err Bytes)) (s : Seg P.F IO.D) :
    Except Err (List (Tre P.F)) :=
  match k.areas with
  | none => .ok s.tres
  | some areas => readTre P E.reg k.desc des areas s.sub

/-- The same for the segments of one kind. -/
def readSegTres (k : SegKind) (des : List (Except Err Bytes)) :
    List (Seg P.F IO.D) → Except Err (List (Seg P.F IO.D))
  | [] => .ok []
  | s :: ss =>
    match segTres P E IO k des s with
    | .error e => .error e
    | .ok ts =>
      match readSegTres k des ss with
      | .error e => .error e
      | .ok ss' => .ok ({ s with tres := ts } :: ss')

/-- `NitfFile.read` (nitf_file.py:145-190) into a new NitfFile; bytes after the last segment are
ignored. -/
def readFile (b : Bytes) : Except Err (NFile P.F IO.D) := do
  let (H, r) ← readStruct P Tables.t_file_header false b
  let fl ← getAttr P Tables.t_file_header H (n!"fl") []
  if pyEq P fl (.int 999999999999) then throw .runtime
  let zi ← segSizes P H .image
  let zg ← segSizes P H .graphic
  let zt ← segSizes P H .text
  let zd ← segSizes P H .des
  let zr ← segSizes P H .res
  let (image, r) ← readSegs P E IO .image zi r
  let (graphic, r) ← readSegs P E IO .graphic zg r
  let (text, r) ← readSegs P E IO .text zt r
  let (des, r) ← readSegs P E IO .des zd r
  let (res, _) ← readSegs P E IO .res zr r
  let dd := des.map (desData P IO)
  let tres ← readTre P E.reg Tables.t_file_header dd fileAreas H
  let image ← readSegTres P E IO .image dd image
  let graphic ← readSegTres P E IO .graphic dd graphic
  let text ← readSegTres P E IO .text dd text
  return { header := H, tres := tres, image := image, graphic := graphic, text := text,
           des := des, res := res }

/-! ### Enumeration and lookup -/

/-- `enumerate(l)` from `i`. -/
def enumFrom {α} : Nat → List α → List (Nat × α)
  | _, [] => []
  | i, x :: xs => (i, x) :: enumFrom (i + 1) xs

/-- `segments(include_seg_index=True)` (nitf_file.py:228-250); the kind is part of the segment. -/
def NFile.segments {F D} (f : NFile F D) : List (SegKind × Nat × Seg F D) :=
  (enumFrom 0 f.image).map (fun x => (.image, x)) ++
  (enumFrom 0 f.graphic).map (fun x => (.graphic, x)) ++
  (enumFrom 0 f.text).map (fun x => (.text, x)) ++
  (enumFrom 0 f.des).map (fun x => (.des, x)) ++
  (enumFrom 0 f.res).map (fun x => (.res, x))

/-- `iseg_by_idlvl` (nitf_file.py:253-258), for the attribute as a function of the segment. -/
def isegByIdlvl {S} (idlvl : S → Except Err (Val P.F)) (lvl : Val P.F) : List S → Except Err S
  | [] => .error .key
  | s :: ss =>
    match idlvl s with
    | .error e => .error e
    | .ok v => if pyEq P v lvl then .ok s else isegByIdlvl idlvl lvl ss

/-- `iseg_by_iid1` (nitf_file.py:260-263). -/
def isegByIid1 {S} (iid1 : S → Except Err (Val P.F)) (x : Val P.F) : List S → Except Err (List S)
  | [] => .ok []
  | s :: ss =>
    match iid1 s with
    | .error e => .error e
    | .ok v =>
      match isegByIid1 iid1 x ss with
      | .error e => .error e
      | .ok r => .ok (if pyEq P v x then s :: r else r)

/-- `iseg_by_iid1_single` (nitf_file.py:265-273). -/
def isegByIid1Single {S} (iid1 : S → Except Err (Val P.F)) (x : Val P.F) (l : List S) :
    Except Err S :=
  match isegByIid1 P iid1 x l with
  | .error e => .error e
  | .ok [] => .error .key
  | .ok [s] => .ok s
  | .ok _ => .error .runtime

end Verif
