import Verif.FileRun

/-
`NitfFile.write` (pynitf/nitf_file.py:191-226) with the states the file object goes through, so that
it is known what an exception leaves behind.  `writeFile` (File.lean) is the same function without the
states in between (`C81_attempt` in Props/Attempt.lean).

Simplifications, beside those of File.lean: `prepare_tre_write` of one header or subheader is one
step, and so is putting the user subheader and its length in a DES subheader.  The states between the
assignments these make are not listed.  `prepare_tre_write` serialises all TREs before it changes
anything, so a TRE that cannot be written is found before.
-/

namespace Verif.Attempt

open Verif

variable (P : PyFloat) (E : Env) (IO : DataIO P.F)

/-- The file object, and the content of the file being written. -/
abbrev Obj := NFile P.F IO.D × Bytes

/-- A computation on the object that may raise an exception: the states the object goes through,
and the result with the state at the end, or the exception. -/
def T (α : Type) := Obj P IO → List (Obj P IO) × Except Err (α × Obj P IO)

variable {P IO}

def T.pure {α : Type} (a : α) : T P IO α := fun s => ([], .ok (a, s))

def T.bind {α β : Type} (m : T P IO α) (k : α → T P IO β) : T P IO β := fun s =>
  match m s with
  | (l, .error e) => (l, .error e)
  | (l, .ok (a, s')) => (l ++ (k a s').1, (k a s').2)

instance : Monad (T P IO) where
  pure := T.pure
  bind := T.bind

/-- The object as it is. -/
def get : T P IO (Obj P IO) := fun s => ([], .ok (s, s))

/-- The object is changed. -/
def put (s : Obj P IO) : T P IO Unit := fun _ => ([s], .ok ((), s))

/-- An exception is raised. -/
def raise {α : Type} (e : Err) : T P IO α := fun _ => ([], .error e)

/-- Something that does not change the object. -/
def lift {α : Type} (x : Except Err α) : T P IO α := fun s =>
  match x with
  | .error e => ([], .error e)
  | .ok a => ([], .ok (a, s))

/-- The file object with other segments of one kind. -/
def setSegs {F D : Type} (f : NFile F D) (k : SegKind) (l : List (Seg F D)) : NFile F D :=
  match k with
  | .image => { f with image := l }
  | .graphic => { f with graphic := l }
  | .text => { f with text := l }
  | .des => { f with des := l }
  | .res => { f with res := l }

/-- `des_segment` without the overflow segments (nitf_file.py:195-198, 223-226). -/
def dropStep : T P IO Unit := do
  let (f, out) ← get
  let des ← lift (dropOverflow P IO f.des)
  put ({ f with des := des }, out)

/-- `prepare_tre_write` of the file header (nitf_file.py:201-203). -/
def headerStep : T P IO Unit := do
  let (f, out) ← get
  let (H, des) ← lift (prepareHeader P IO Tables.t_file_header fileAreas (n!"fs") "XHD".toList 0
    f.tres f.header f.des)
  put ({ f with header := H, des := des }, out)

/-- `seg.prepare_tre_write(i, des_segment)` for the segments of one kind, those of `done` being
prepared already (nitf_file.py:204-205, nitf_segment.py:151-160). -/
def prepareEach (k : SegKind) (areas : List Area) :
    List (Seg P.F IO.D) → List (Seg P.F IO.D) → T P IO Unit
  | _, [] => pure ()
  | done, s :: ss => do
    let (f, out) ← get
    let (S', des) ← lift (prepareHeader P IO k.desc areas k.secPrefix k.oflName done.length s.tres
      s.sub f.des)
    put ({ setSegs f k (done ++ { s with sub := S' } :: ss) with des := des }, out)
    prepareEach k areas (done ++ [{ s with sub := S' }]) ss

/-- All segments of one kind. -/
def prepareKind (k : SegKind) : T P IO Unit := do
  let (f, _) ← get
  match k.areas with
  | none => pure ()
  | some areas => prepareEach k areas [] (f.segs k)

/-- The counts in the header (nitf_file.py:206-210), one after the other. -/
def countEach : List (Name × Val P.F) → T P IO Unit
  | [] => pure ()
  | (nm, v) :: r => do
    let (f, out) ← get
    let H ← lift (setA P Tables.t_file_header f.header nm v)
    put ({ f with header := H }, out)
    countEach r

def countStep : T P IO Unit := do
  let (f, _) ← get
  countEach
    [(n!"numi", .int f.image.length), (n!"nums", .int f.graphic.length),
     (n!"numt", .int f.text.length), (n!"numdes", .int f.des.length),
     (n!"numres", .int f.res.length)]

/-- `h.write_to_file(fh)` (nitf_file.py:211). -/
def headerBytes : T P IO (List Chunk) := do
  let (f, _) ← get
  let cs ← lift (writeChunks P Tables.t_file_header f.header)
  put (f, chunkBytes cs)
  pure cs

/-- `file_header.update_field(fh, nm, v, key)` (nitf_field.py:935-939, 349-362): the field is
assigned, then written; if the value cannot be written it stays assigned. -/
def updateStep (cs : List Chunk) (nm : Name) (key : Key) (v : Nat) : T P IO Unit := do
  let (f, out) ← get
  match resolve Tables.t_file_header.tab nm with
  | none => raise .key
  | some n =>
    match updateField P Tables.t_file_header cs 0 f.header ⟨out, out.length⟩ n key (.int v) with
    | (S', .error e) => do
      put ({ f with header := S' }, out)
      raise e
    | (S', .ok fh) => do
      put ({ f with header := S' }, out)
      put ({ f with header := S' }, fh.bytes)

/-- The lengths of a segment, if it is linked to the file (nitf_segment.py:180-185, 236-238). -/
def lengthStep (cs : List Chunk) (k : SegKind) (i : Nat) (linked : Bool) (lsub ldata : Nat) :
    T P IO Unit :=
  if linked then do
    updateStep cs k.lenFields.1 [(i : Int)] lsub
    updateStep cs k.lenFields.2 [(i : Int)] ldata
  else pure ()

/-- `seg.write_to_file(fh, i)` for the segments of one kind, those of `done` being written already
(nitf_file.py:216-217, nitf_segment.py:218-238). -/
def writeEach (cs : List Chunk) (k : SegKind) :
    List (Seg P.F IO.D) → List (Seg P.F IO.D) → T P IO Unit
  | _, [] => pure ()
  | done, s :: ss => do
    lift (checkUser P E IO k s)
    let sub ← lift (writeUser P k s.user s.sub)
    let (f, out) ← get
    put (setSegs f k (done ++ { s with sub := sub } :: ss), out)
    let sb ← lift (writeStruct P k.desc sub)
    let (f, out) ← get
    put (f, out ++ sb)
    let db ← lift (writeData P IO s.data)
    let (f, out) ← get
    put (f, out ++ db)
    lengthStep cs k done.length s.linked sb.length db.length
    writeEach cs k (done ++ [{ s with sub := sub }]) ss

def writeKind (cs : List Chunk) (k : SegKind) : T P IO Unit := do
  let (f, _) ← get
  writeEach E cs k [] (f.segs k)

/-- `NitfFile.write` (nitf_file.py:195-226). -/
def attempt : T P IO Unit := do
  dropStep
  headerStep
  prepareKind .image
  prepareKind .graphic
  prepareKind .text
  countStep
  let cs ← headerBytes
  updateStep cs (n!"hl") [] (chunkBytes cs).length
  writeKind E cs .image
  writeKind E cs .graphic
  writeKind E cs .text
  writeKind E cs .des
  writeKind E cs .res
  let (_, out) ← get
  updateStep cs (n!"fl") [] out.length
  dropStep

/-- `f.write(name)`: all states of `f` until it returns or raises, `f` as it was first. -/
def states (f : NFile P.F IO.D) : List (NFile P.F IO.D) :=
  f :: ((attempt E (f, [])).1).map (·.1)

/-- The state `f` is left in. -/
def left (f : NFile P.F IO.D) : NFile P.F IO.D := (states E f).getLast (by simp [states])

/-- `f.write(name)`: the bytes of the file, or the exception. -/
def outcome (f : NFile P.F IO.D) : Except Err Bytes :=
  match (attempt E (f, [])).2 with
  | .error e => .error e
  | .ok (_, _, out) => .ok out

end Verif.Attempt
