import Verif.File

/-
Merged files (pynitf/nitf_file_merge.py) and JSON delta files (pynitf/nitf_file_json.py).  Headers,
segments, TREs and segment data are opaque objects, compared by identity.
-/

namespace Verif

/-- The parts of a file as `NitfFileMerge` reads them; in a JSON file a part may be `None`.  A header
object is always true. -/
structure MFile (H S T : Type) where
  header : Option H
  segs : SegKind → Option (List S)
  tre : Option (List T)

/-- `for f in self.file_list: if(f.part): return f.part` and `return []`
(nitf_file_merge.py:38-78). -/
def firstPart {H S T α : Type} (get : MFile H S T → Option (List α)) : List (MFile H S T) → List α
  | [] => []
  | f :: r =>
    match get f with
    | some (x :: xs) => x :: xs
    | _ => firstPart get r

/-- `file_header` (nitf_file_merge.py:31-36). -/
def mergeHeader {H S T : Type} : List (MFile H S T) → Option H
  | [] => none
  | f :: r =>
    match f.header with
    | some h => some h
    | none => mergeHeader r

/-- `image_segment`, `graphic_segment`, `text_segment`, `des_segment` and `res_segment`
(nitf_file_merge.py:38-71). -/
def mergeSegs {H S T : Type} (fs : List (MFile H S T)) : SegKind → List S
  | .image => firstPart (fun f => f.segs .image) fs
  | .graphic => firstPart (fun f => f.segs .graphic) fs
  | .text => firstPart (fun f => f.segs .text) fs
  | .des => firstPart (fun f => f.segs .des) fs
  | .res => firstPart (fun f => f.segs .res) fs

/-- `tre_list` (nitf_file_merge.py:73-78). -/
def mergeTre {H S T : Type} (fs : List (MFile H S T)) : List T := firstPart MFile.tre fs

/-! ### JSON delta files -/

/-- A segment of the base file: `primary_key()` and `data`. -/
structure BSeg (κ δ : Type) where
  key : Option κ
  data : Option δ
  deriving DecidableEq

/-- `NitfSegmentJson` (nitf_file_json.py:9-25): `_primary_key`, `_data`, `_merge_seg` and
`_shared_header`. -/
structure JSeg (κ δ η : Type) where
  key : Option κ
  data : Option δ
  merge : Option (BSeg κ δ)
  header : η
  deriving DecidableEq

variable {κ δ η : Type} [DecidableEq κ] [DecidableEq δ]

/-- `notify_segment_merge` (nitf_file_json.py:30-48).  Segment data is true when it is there: no data
class has a length. -/
def JSeg.notify (s : JSeg κ δ η) (segs : Option (List (BSeg κ δ))) : Except Err (JSeg κ δ η) :=
  match s.data with
  | some _ => .ok s
  | none =>
    match (match s.key with
      | none => .ok []
      | some k =>
        match segs with
        | none => .error .type
        | some l => .ok (l.filter fun b => b.key = some k) : Except Err (List (BSeg κ δ))) with
    | .error e => .error e
    | .ok [m] => .ok { s with merge := some m }
    | .ok _ => .error .runtime

/-- `data` (nitf_file_json.py:50-55). -/
def JSeg.dataOf (s : JSeg κ δ η) : Option δ :=
  match s.data with
  | some d => some d
  | none => s.merge.bind BSeg.data

/-- First loop of `notify_file_merge` over one segment list. -/
def notifyList (base : Option (List (BSeg κ δ))) :
    List (JSeg κ δ η) → Except Err (List (JSeg κ δ η))
  | [] => .ok []
  | s :: r =>
    match s.notify base with
    | .error e => .error e
    | .ok s' =>
      match notifyList base r with
      | .error e => .error e
      | .ok r' => .ok (s' :: r')

/-- `s.data._shared_header = s._shared_header` for a list of segments (second loop of
`notify_file_merge`).  `hd` gives the shared header of each data object. -/
def shareHeaders : List (JSeg κ δ η) → (δ → η) → Except Err (δ → η)
  | [], hd => .ok hd
  | s :: r, hd =>
    match s.dataOf with
    | none => .error .attr
    | some d => shareHeaders r fun x => if x = d then s.header else hd x

/-- First loop of `notify_file_merge` over the kinds. -/
def notifyKinds (base : SegKind → Option (List (BSeg κ δ)))
    (segs : SegKind → Option (List (JSeg κ δ η))) :
    List SegKind → Except Err (List (SegKind × List (JSeg κ δ η)))
  | [] => .ok []
  | k :: r =>
    match (match segs k with
      | none => .ok []
      | some l => notifyList (base k) l : Except Err (List (JSeg κ δ η))) with
    | .error e => .error e
    | .ok l =>
      match notifyKinds base segs r with
      | .error e => .error e
      | .ok m => .ok ((k, l) :: m)

/-- `notify_file_merge` (nitf_file_json.py:161-187), given the other files of the list.
Simplifications: the segments of a kind that is `None` are the empty list; `base_file` is not set
from an earlier merge; the hooks called in the second loop are left out; when an exception is raised
the changes made so far are dropped. -/
def notifyMerge (others : List (SegKind → Option (List (BSeg κ δ))))
    (segs : SegKind → Option (List (JSeg κ δ η))) (hd : δ → η) :
    Except Err (List (SegKind × List (JSeg κ δ η)) × (δ → η)) :=
  match others with
  | [] => .error .attr
  | _ :: _ :: _ => .error .runtime
  | [base] =>
    match notifyKinds base segs [.image, .graphic, .text, .des, .res] with
    | .error e => .error e
    | .ok m =>
      match shareHeaders (m.flatMap (·.2)) hd with
      | .error e => .error e
      | .ok hd' => .ok (m, hd')

end Verif
