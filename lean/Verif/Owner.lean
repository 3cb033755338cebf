import Verif.File

/-
Several files at once: segments as objects that may be in the lists of more than one `NitfFile`, and
the weak reference `nitf_file` by which a segment being written finds the header to update
(pynitf/nitf_file.py, pynitf/nitf_segment.py, pynitf/nitf_field.py).  Files and segments are numbered
in the order of creation.
-/

namespace Verif.Owner

open Verif

variable (P : PyFloat) (IO : DataIO P.F)

/-- A `NitfFile` (nitf_file.py:51-74).  `loc` is `fh_loc` of the fields of its header
(nitf_field.py:346): where each was last written, whichever write that was.  `env` are its handle
sets.  `ref k` is the file in whose name the list of kind `k` appends (`ListNitfFileReference`,
nitf_file.py:20-31), `none` for a plain list, as after `read` (nitf_file.py:153-177).  The lists are
values: two files having the same list object is not modelled. -/
structure OFile where
  header : Store P.F
  loc : Nat → Key → Option Nat := fun _ _ => none
  tres : List (Tre P.F) := []
  env : Env
  ref : SegKind → Option Nat
  ids : SegKind → List Nat := fun _ => []

/-- A `NitfSegment` with `_nitf_file` (nitf_segment.py:48-52): `None`, or a weak reference to a file.
The component `linked` of `seg` is not used. -/
structure OSeg where
  owner : Option Nat
  seg : Seg P.F IO.D

/-- The segment with another subheader. -/
def OSeg.withSub {P : PyFloat} {IO : DataIO P.F} (s : OSeg P IO) (S : Store P.F) : OSeg P IO :=
  ⟨s.owner, { s.seg with sub := S }⟩

/-- All files and segments.  A file that has been garbage collected is `none`. -/
structure World where
  files : Nat → Option (OFile P)
  segs : Nat → Option (OSeg P IO)
  nfiles : Nat
  nsegs : Nat

/-- Nothing has been created yet. -/
def World.empty : World P IO := ⟨fun _ => none, fun _ => none, 0, 0⟩

/-- A map changed at one place. -/
def upd {α : Type} (m : Nat → Option α) (i : Nat) (a : Option α) : Nat → Option α :=
  fun j => if j = i then a else m j

variable {P IO}

def World.setFile (w : World P IO) (f : Nat) (F : OFile P) : World P IO :=
  { w with files := upd w.files f (some F) }

def World.setSeg (w : World P IO) (id : Nat) (s : OSeg P IO) : World P IO :=
  { w with segs := upd w.segs id (some s) }

/-- A new segment object; its number is `w.nsegs`. -/
def World.addSeg (w : World P IO) (s : OSeg P IO) : World P IO :=
  { w with segs := upd w.segs w.nsegs (some s), nsegs := w.nsegs + 1 }

/-- `seg.nitf_file` (nitf_segment.py:97-101): the file, `None` if it is gone. -/
def World.ownerOf (w : World P IO) (s : OSeg P IO) : Option (OFile P) :=
  s.owner.bind w.files

/-- The segment with `linked` saying whether `nitf_file` is a file. -/
def World.view (w : World P IO) (s : OSeg P IO) : Seg P.F IO.D :=
  { s.seg with linked := (w.ownerOf s).isSome }

/-- `fh.seek(off); fh.write(b)`: behind the end the gap is filled with zeros. -/
def padOver (file : Bytes) (off : Nat) (b : Bytes) : Bytes :=
  (file ++ List.replicate (off - file.length) 0).take off ++ b ++ file.drop (off + b.length)

/-- `fh.write(b)` at the position of the file. -/
def put (fh : FileH) (b : Bytes) : FileH := ⟨padOver fh.bytes fh.pos b, fh.pos + b.length⟩

/-- `file_header.update_field(fh, nm, v, key)` of file `g` (nitf_field.py:935-939, 349-362), where
`fh` may be the file that another file object is being written to. -/
def updateFile (g : Nat) (nm : Name) (key : Key) (v : Nat) (st : World P IO × FileH) :
    Except Err (World P IO × FileH) :=
  match st.1.files g with
  | none => .error .attr
  | some F =>
    match resolve Tables.t_file_header.tab nm with
    | none => .error .key
    | some n =>
      match setItem P Tables.t_file_header.tab F.header n key (.int v) with
      | (_, some e) => .error e
      | (S', none) =>
        match Tables.t_file_header.tab[n]? with
        | none => .error .key
        | some fi =>
          match evalCond P (look P Tables.t_file_header.tab S') fi key with
          | .error e => .error e
          | .ok false => .error .runtime
          | .ok true =>
            match F.loc n key with
            | none => .error .key
            | some off =>
              match fieldBytes P (look P Tables.t_file_header.tab S') S' fi n key with
              | .error e => .error e
              | .ok b =>
                .ok (st.1.setFile g { F with header := S' }, ⟨padOver st.2.bytes off b, st.2.pos⟩)

/-- The end of `write_to_file`: `_update_file_header` of the file `nitf_file` refers to
(nitf_segment.py:180-185, 236-238). -/
def updateOwner (k : SegKind) (i : Nat) (owner : Option Nat) (lsub ldata : Nat)
    (st : World P IO × FileH) : Except Err (World P IO × FileH) :=
  match owner with
  | none => .ok st
  | some g =>
    match st.1.files g with
    | none => .ok st
    | some _ =>
      match updateFile g k.lenFields.1 [(i : Int)] lsub st with
      | .error e => .error e
      | .ok st1 => updateFile g k.lenFields.2 [(i : Int)] ldata st1

/-- `seg.write_to_file(fh, i)` (nitf_segment.py:210-241).  The user subheader classes are those of
the owner. -/
def writeOne (k : SegKind) (i id : Nat) (st : World P IO × FileH) :
    Except Err (World P IO × FileH) :=
  match st.1.segs id with
  | none => .error .attr
  | some s =>
    match segBytes P (((st.1.ownerOf s).map (·.env)).getD { reg := [] }) IO k (st.1.view s) with
    | .error e => .error e
    | .ok (s', sb, db) =>
      updateOwner k i s.owner sb.length db.length
        (st.1.setSeg id { s with seg := s' }, put (put st.2 sb) db)

/-- The segments of one kind, numbered from `i` (nitf_file.py:217-218). -/
def writeIds (k : SegKind) : Nat → List Nat → World P IO × FileH → Except Err (World P IO × FileH)
  | _, [], st => .ok st
  | i, id :: ids, st =>
    match writeOne k i id st with
    | .error e => .error e
    | .ok st' => writeIds k (i + 1) ids st'

/-- `prepare_tre_write(tre_list, header, des_list, field_list, seg_index)`: the header afterwards and
the new DES segment; `ndes` is the length of `des_list`.  As in `prepareHeader` the overflow field is
set before the segment is made. -/
def prepareNew (d : Desc) (areas : List Area) (pre : Name) (ofl : Str) (segIndex : Nat)
    (tres : List (Tre P.F)) (S : Store P.F) (ndes : Nat) :
    Except Err (Store P.F × Option (Seg P.F IO.D)) :=
  match prepareTreWrite P d areas ndes tres S with
  | .error e => .error e
  | .ok (S', none) => .ok (S', none)
  | .ok (S', some b) =>
    match getSecurity P d S' pre with
    | .error e => .error e
    | .ok sec =>
      match overflowSeg P IO ofl segIndex sec b with
      | .error e => .error e
      | .ok s => .ok (S', some s)

/-- `des_list.append(seg)` of the file being written, if there is a new segment
(nitf_tre.py:230, nitf_file.py:29-31). -/
def addDes (f : Nat) (w : World P IO) (des : List Nat) : Option (Seg P.F IO.D) →
    World P IO × List Nat
  | none => (w, des)
  | some s => (w.addSeg ⟨some f, s⟩, des ++ [w.nsegs])

/-- `seg.prepare_tre_write(i, des_segment)` for the segments of one kind (nitf_segment.py:151-160,
nitf_file.py:204-205), when the file `f` is written. -/
def prepareIds (f : Nat) (k : SegKind) : Nat → List Nat → World P IO × List Nat →
    Except Err (World P IO × List Nat)
  | _, [], st => .ok st
  | i, id :: ids, (w, des) =>
    match k.areas with
    | none => .ok (w, des)
    | some areas =>
      match w.segs id with
      | none => .error .attr
      | some s =>
        match prepareNew (IO := IO) k.desc areas k.secPrefix k.oflName i s.seg.tres s.seg.sub
            des.length with
        | .error e => .error e
        | .ok (S', o) =>
          prepareIds f k (i + 1) ids
            (addDes f (w.setSeg id (s.withSub S')) des o)

/-- The DES segments that are not TRE overflow (nitf_file.py:195-198, 223-226). -/
def dropIds (w : World P IO) : List Nat → Except Err (List Nat)
  | [] => .ok []
  | id :: ids =>
    match w.segs id with
    | none => .error .attr
    | some s =>
      match getAttr P Tables.t_des_subheader s.seg.sub (n!"desid") [] with
      | .error e => .error e
      | .ok (.str t) =>
        match dropIds w ids with
        | .error e => .error e
        | .ok r => .ok (if t = "TRE_OVERFLOW".toList then r else id :: r)
      | .ok _ => .error .attr

/-- The list of one kind replaced. -/
def setIds (F : OFile P) (k : SegKind) (ref : Option Nat) (l : List Nat) : OFile P :=
  { F with ids := fun k' => if k' = k then l else F.ids k'
           ref := fun k' => if k' = k then ref else F.ref k' }

/-- `NitfFile.write` of the file `f` (nitf_file.py:191-226): the world afterwards and the bytes of
the file.  On an exception the state is not returned; `before_write_hook` is not modelled. -/
def write (f : Nat) (w : World P IO) : Except Err (World P IO × Bytes) :=
  match w.files f with
  | none => .error .attr
  | some F => do
    let des0 ← dropIds w (F.ids .des)
    let (h0, o) ← prepareNew (IO := IO) Tables.t_file_header fileAreas (n!"fs") "XHD".toList 0 F.tres
      F.header des0.length
    let st ← prepareIds f .image 0 (F.ids .image) (addDes f w des0 o)
    let st ← prepareIds f .graphic 0 (F.ids .graphic) st
    let (w1, des) ← prepareIds f .text 0 (F.ids .text) st
    let h1 ← setAll P Tables.t_file_header
      [(n!"numi", .int (F.ids .image).length), (n!"nums", .int (F.ids .graphic).length),
       (n!"numt", .int (F.ids .text).length), (n!"numdes", .int des.length),
       (n!"numres", .int (F.ids .res).length)] h0
    let cs ← writeChunks P Tables.t_file_header h1
    let F1 : OFile P := { setIds F .des (some f) des with
      header := h1
      loc := fun n key => (locOf n key 0 cs).or (F.loc n key) }
    let st ← updateFile f (n!"hl") [] (chunkBytes cs).length
      (w1.setFile f F1, ⟨chunkBytes cs, (chunkBytes cs).length⟩)
    let st ← writeIds .image 0 (F.ids .image) st
    let st ← writeIds .graphic 0 (F.ids .graphic) st
    let st ← writeIds .text 0 (F.ids .text) st
    let st ← writeIds .des 0 des st
    let st ← writeIds .res 0 (F.ids .res) st
    let (w2, fh) ← updateFile f (n!"fl") [] st.2.pos st
    let des' ← dropIds w2 des
    match w2.files f with
    | none => .error .attr
    | some F2 => return (w2.setFile f (setIds F2 .des (some f) des'), fh.bytes)

/-! ### Sessions -/

/-- What a program does with files and segments. -/
inductive Op (P : PyFloat) (IO : DataIO P.F) where
  /-- `NitfFile()` -/
  | newFile (header : Store P.F) (env : Env)
  /-- `NitfFile(name)` or `read` of a new file: the header, the TREs and the segments of each kind -/
  | readFile (header : Store P.F) (env : Env) (tres : List (Tre P.F))
      (segs : SegKind → List (Seg P.F IO.D))
  /-- a new segment object, with `nitf_file` given or not -/
  | newSeg (owner : Option Nat) (s : Seg P.F IO.D)
  /-- `f.image_segment.append(seg)` and so on -/
  | append (f : Nat) (k : SegKind) (id : Nat)
  /-- `insert`, `extend`, `del`, slices, assignment of a new list: any other change of a list; the
  new list is a plain one or a `ListNitfFileReference` of some file -/
  | list (f : Nat) (k : SegKind) (ref : Option Nat) (l : List Nat)
  /-- a file's header or TREs are changed -/
  | editFile (f : Nat) (header : Store P.F) (tres : List (Tre P.F))
  /-- a segment's content is changed -/
  | editSeg (id : Nat) (s : Seg P.F IO.D)
  /-- the last reference to a file goes away -/
  | drop (f : Nat)
  /-- `f.write(name)` -/
  | write (f : Nat)

/-- Segments as objects of the file `f`, made by `read` (nitf_file.py:153-177). -/
def addAll (f : Nat) : List (Seg P.F IO.D) → World P IO → World P IO × List Nat
  | [], w => (w, [])
  | s :: ss, w =>
    let r := addAll f ss (w.addSeg ⟨some f, s⟩)
    (r.1, w.nsegs :: r.2)

/-- One operation.  A file or segment that does not exist is an AttributeError. -/
def step (w : World P IO) : Op P IO → Except Err (World P IO)
  | .newFile H E =>
    .ok { w.setFile w.nfiles { header := H, env := E, ref := fun _ => some w.nfiles } with nfiles := w.nfiles + 1 }
  | .readFile H E tres segs =>
    let f := w.nfiles
    let r1 := addAll f (segs .image) w
    let r2 := addAll f (segs .graphic) r1.1
    let r3 := addAll f (segs .text) r2.1
    let r4 := addAll f (segs .des) r3.1
    let r5 := addAll f (segs .res) r4.1
    .ok { r5.1.setFile f
            { header := H, env := E, tres := tres, ref := fun _ => none
              ids := fun
                | .image => r1.2 | .graphic => r2.2 | .text => r3.2 | .des => r4.2 | .res => r5.2 }
          with nfiles := w.nfiles + 1 }
  | .newSeg o s => .ok (w.addSeg ⟨o, s⟩)
  | .append f k id =>
    match w.files f, w.segs id with
    | some F, some s =>
      -- nitf_file.py:29-31; a plain list does not touch the segment
      let w' := w.setFile f (setIds F k (F.ref k) (F.ids k ++ [id]))
      match F.ref k with
      | none => .ok w'
      | some g => .ok (w'.setSeg id { s with owner := some g })
    | _, _ => .error .attr
  | .list f k ref l =>
    match w.files f with
    | some F =>
      if ∀ id ∈ l, id < w.nsegs then .ok (w.setFile f (setIds F k ref l)) else .error .attr
    | none => .error .attr
  | .editFile f H tres =>
    match w.files f with
    | some F => .ok (w.setFile f { F with header := H, tres := tres })
    | none => .error .attr
  | .editSeg id s =>
    match w.segs id with
    | some o => .ok (w.setSeg id { o with seg := s })
    | none => .error .attr
  | .drop f => .ok { w with files := upd w.files f none }
  | .write f =>
    match Owner.write f w with
    | .error e => .error e
    | .ok (w', _) => .ok w'

/-- A session. -/
def run : List (Op P IO) → World P IO → Except Err (World P IO)
  | [], w => .ok w
  | o :: os, w =>
    match step w o with
    | .error e => .error e
    | .ok w' => run os w'

end Verif.Owner
