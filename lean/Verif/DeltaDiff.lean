import Verif.FileDiff
import Verif.File

/-
Making a delta of a new file with bin/nitf_json_delta and comparing with it: `create_delta`,
`write`, `read` and `notify_file_merge` of nitf_file_json.py, NitfFileMerge, and `NitfDiff.compare`
with `json_delta`.

Objects are seen as in FileDiff.lean.  That copies can be made at all, and what they hold, is C60
and C58; here a copy is whatever object arrives in the process that compares.  The hooks called for
segments that are merged are not modelled.
-/

namespace Verif.DeltaDiff

/-- A segment together with its `primary_key()` (nitf_segment.py:60-68). -/
structure KSeg (O K : Type) extends DSeg O where
  key : Option K

/-- A NitfFile. -/
structure KFile (O K : Type) where
  header : O
  tres : List O
  image : List (KSeg O K)
  graphic : List (KSeg O K)
  text : List (KSeg O K)
  des : List (KSeg O K)
  res : List (KSeg O K)

/-- The file as the comparison sees it. -/
def KFile.seen {O K : Type} (f : KFile O K) : DFile O :=
  ⟨f.header, f.tres, f.image.map KSeg.toDSeg, f.graphic.map KSeg.toDSeg, f.text.map KSeg.toDSeg,
    f.des.map KSeg.toDSeg, f.res.map KSeg.toDSeg⟩

/-- What is done to the objects.  `copy` is `copy.deepcopy`, then encoding and decoding by
jsonpickle (nitf_file_json.py:189-211); `clearFile` empties `udhd` and `xhd` (141-142), `clearSub`
the TRE areas of the subheader of a kind (63-66; a DES has none); `fieldStruct` is
`isinstance(data, NitfDesFieldStruct)` (157); `share d h u` is the data `d` after its
`_shared_header` was set to one with the subheader `h` and the user subheader `u` (185). -/
structure Ops (O : Type) where
  copy : O → O
  clearFile : O → O
  clearSub : SegKind → O → O
  fieldStruct : O → Bool
  share : O → O → Option O → O

/-- A NitfFileJson (nitf_file_json.py:121-132): the graphic and RES segments are None. -/
structure Delta (O K : Type) where
  header : O
  tres : List O
  image : List (KSeg O K)
  text : List (KSeg O K)
  des : List (KSeg O K)

section
variable {O K H : Type} [DecidableEq K]

/-- `NitfSegmentJson.create_delta`, written and read (nitf_file_json.py:57-98). -/
def deltaSeg (ops : Ops O) (k : SegKind) (incl : Bool) (s : KSeg O K) : KSeg O K :=
  { type := s.type
    subheader := ops.clearSub k (ops.copy s.subheader)
    user := s.user.map ops.copy
    tres := s.tres.map ops.copy
    data := if incl then s.data.map ops.copy else none
    key := s.key }

/-- `isinstance(dseg.data, NitfDesFieldStruct)` (nitf_file_json.py:157). -/
def desIncl (ops : Ops O) (s : KSeg O K) : Bool :=
  match s.data with
  | none => false
  | some d => ops.fieldStruct d

/-- `NitfFileJson.create_delta`, written and read (nitf_file_json.py:134-159, 189-211). -/
def deltaFile (env : DiffEnv O H) (ops : Ops O) (f : KFile O K) : Delta O K :=
  { header := ops.clearFile (ops.copy f.header)
    tres := f.tres.map ops.copy
    image := f.image.map (deltaSeg ops .image false)
    text := f.text.map (deltaSeg ops .text true)
    des := (f.des.filter fun s => !env.overflow s.subheader).map fun s =>
      deltaSeg ops .des (desIncl ops s) s }

/-- `slist` of `notify_segment_merge` (nitf_file_json.py:35-38). -/
def candidates (base : List (KSeg O K)) : Option K → List (KSeg O K)
  | none => []
  | some k => base.filter fun b => b.key = some k

/-- `notify_segment_merge` (nitf_file_json.py:30-48): the segment with its `_merge_seg`.  Data is
true when it is there: no data class has a length. -/
def notify (base : List (KSeg O K)) (s : KSeg O K) : Except Err (KSeg O K × Option (KSeg O K)) :=
  match s.data with
  | some _ => .ok (s, none)
  | none =>
    match candidates base s.key with
    | [m] => .ok (s, some m)
    | _ => .error .runtime

/-- The first loop of `notify_file_merge` over one list (nitf_file_json.py:175-177). -/
def notifyAll (base : List (KSeg O K)) :
    List (KSeg O K) → Except Err (List (KSeg O K × Option (KSeg O K)))
  | [] => .ok []
  | s :: r =>
    match notify base s with
    | .error e => .error e
    | .ok p =>
      match notifyAll base r with
      | .error e => .error e
      | .ok ps => .ok (p :: ps)

/-- `NitfSegmentJson.data` (nitf_file_json.py:50-55). -/
def dataOf (p : KSeg O K × Option (KSeg O K)) : Option O :=
  match p.1.data with
  | some d => some d
  | none => p.2.bind fun m => m.data

/-- The segment whose shared header the data of `p` has after the second loop of `notify_file_merge`
(nitf_file_json.py:179-187): its own, except that segments with the same key, and without data of
their own, share the data of the base file, so that the last of them is the owner. -/
def owner (l : List (KSeg O K × Option (KSeg O K))) (p : KSeg O K × Option (KSeg O K)) : KSeg O K :=
  match p.1.data with
  | some _ => p.1
  | none =>
    match (l.filter fun q => q.1.data.isNone && decide (q.1.key = p.1.key)).getLast? with
    | none => p.1
    | some q => q.1

/-- A segment of the merged file as the comparison sees it. -/
def mergedSeg (ops : Ops O) (l : List (KSeg O K × Option (KSeg O K)))
    (p : KSeg O K × Option (KSeg O K)) : DSeg O :=
  { p.1.toDSeg with
    data := (dataOf p).map fun d => ops.share d (owner l p).subheader (owner l p).user }

/-- `for f in self.file_list: if(f.part): return f.part`, `return []` for two files, the first
possibly with None (nitf_file_merge.py:38-78). -/
def firstOf {α : Type} (a : Option (List α)) (b : List α) : List α :=
  match a with
  | some (x :: r) => x :: r
  | _ => b

/-- `NitfFileMerge([delta, base])` (nitf_file_merge.py:19-78, nitf_file_json.py:161-187), as the
comparison sees it.  The data is used when the headers are shared, so that AttributeError is raised
when there is none. -/
def mergeFiles (ops : Ops O) (d : Delta O K) (f : KFile O K) : Except Err (DFile O) :=
  match notifyAll f.image d.image with
  | .error e => .error e
  | .ok im =>
    match notifyAll f.text d.text with
    | .error e => .error e
    | .ok tx =>
      match notifyAll f.des d.des with
      | .error e => .error e
      | .ok de =>
        if (im ++ tx ++ de).any fun p => (dataOf p).isNone then .error .attr
        else
          .ok
            { header := d.header
              tres := firstOf (some d.tres) f.tres
              image := firstOf (some (im.map (mergedSeg ops im))) (f.image.map KSeg.toDSeg)
              graphic := firstOf none (f.graphic.map KSeg.toDSeg)
              text := firstOf (some (tx.map (mergedSeg ops tx))) (f.text.map KSeg.toDSeg)
              des := firstOf (some (de.map (mergedSeg ops de))) (f.des.map KSeg.toDSeg)
              res := firstOf none (f.res.map KSeg.toDSeg) }

variable [DecidableEq H]

/-- `nitf_json_delta file1 file2 delta` (bin/nitf_json_delta:30-33), then
`NitfDiff.compare(file1, file2, delta)` (nitf_file_diff.py:68-73).  Reading a file twice gives the
same. -/
def compareDelta (it : IterOrder (DHandle H)) (hp : Heap (DHandle H)) (o : HandleSet)
    (env : DiffEnv O H) (ops : Ops O) (f1 f2 : KFile O K) : Except Err Bool :=
  match mergeFiles ops (deltaFile env ops f1) f2 with
  | .error e => .error e
  | .ok m => compareAny it hp o env (.file f1.seen) (.file m)

end

end Verif.DeltaDiff
