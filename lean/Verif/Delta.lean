import Verif.File
import Verif.State
import Verif.Merge

/-
Model of `create_delta` of pynitf/nitf_file_json.py.
-/

namespace Verif

variable (P : PyFloat) (IO : DataIO P.F)

/-- What `create_delta` uses of data objects: `copy.deepcopy`, and whether they are a
`NitfDesFieldStruct` or a `NitfImage`. -/
structure DataCls (D : Type) where
  copy : D → Except Err D
  fieldStruct : D → Bool
  image : D → Bool

/-- A NitfSegmentJson (nitf_file_json.py:12-25); a primary key is a tuple of values. -/
structure DeltaSeg (F D : Type) where
  sub : Store F
  user : Option (Desc × Store F)
  tres : List (Tre F)
  key : Option (List (Val F))
  data : Option (SegData D)

/-- A NitfFileJson (nitf_file_json.py:121-131); `None` for graphic and RES segments. -/
structure DeltaFile (F D : Type) where
  header : Store F
  tres : List (Tre F)
  image : List (DeltaSeg F D)
  text : List (DeltaSeg F D)
  des : List (DeltaSeg F D)

/-- `copy.deepcopy` of a list. -/
def copyList {α : Type} (f : α → Except Err α) : List α → Except Err (List α)
  | [] => .ok []
  | x :: r =>
    match f x with
    | .error e => .error e
    | .ok y =>
      match copyList f r with
      | .error e => .error e
      | .ok r' => .ok (y :: r')

/-- `setattr(header, nm, b'')` for each name (nitf_file_json.py:64-66, 139-140). -/
def clearData (d : Desc) : List Name → Store P.F → Except Err (Store P.F)
  | [], S => .ok S
  | nm :: r, S =>
    match setA P d S nm (.bytes []) with
    | .error e => .error e
    | .ok S' => clearData d r S'

/-- `copy.deepcopy` of a user subheader, which may be None. -/
def copyUser : Option (Desc × Store P.F) → Except Err (Option (Desc × Store P.F))
  | none => .ok none
  | some (d, S) => (deepCopy P d S).map fun R => some (d, R)

/-- `copy.deepcopy` of segment data. -/
def copyData {D : Type} (C : DataCls D) : SegData D → Except Err (SegData D)
  | .overflow b => .ok (.overflow b)
  | .other x => (C.copy x).map .other

/-- `user_subheader.id` or `user_subheader.des_id1` if there is such an attribute, None otherwise
(nitf_segment.py:338-342). -/
def userKey : Option (Desc × Store P.F) → Except Err (Val P.F)
  | none => .ok .none
  | some (d, S) =>
    if (resolve d.tab (n!"id")).isSome then getAttr P d S (n!"id") []
    else if (resolve d.tab (n!"des_id1")).isSome then getAttr P d S (n!"des_id1") []
    else .ok .none

/-- `primary_key` (nitf_segment.py:68, 315, 337-342, 370; nitf_segment_data_handle.py:66, 132, 186).
Simplification: graphic data is a NitfGraphic. -/
def primaryKey {D : Type} (C : DataCls D) (k : SegKind) (s : Seg P.F D) :
    Except Err (Option (List (Val P.F))) :=
  match k with
  | .image =>
    match s.data with
    | .overflow _ => .ok none
    | .other x =>
      if C.image x then do
        let a ← getAttr P k.desc s.sub (n!"iid1") []
        let b ← getAttr P k.desc s.sub (n!"idlvl") []
        .ok (some [a, b])
      else .ok none
  | .graphic => do
    let a ← getAttr P k.desc s.sub (n!"sid") []
    .ok (some [a])
  | .text => do
    let a ← getAttr P k.desc s.sub (n!"textid") []
    .ok (some [a])
  | .des => do
    let a ← getAttr P k.desc s.sub (n!"desid") []
    let b ← userKey P s.user
    .ok (some [a, b])
  | .res => .ok none

/-- `setattr(s.subheader, h_data, b'')` for the TRE areas of a segment (nitf_file_json.py:63-66). -/
def clearSub (k : SegKind) (sub : Store P.F) : Except Err (Store P.F) :=
  match k.areas with
  | none => .ok sub
  | some areas => clearData P k.desc (areas.map Area.data) sub

/-- `_data` of the delta (nitf_file_json.py:72-75). -/
def deltaData {D : Type} (C : DataCls D) (incl : Bool) (x : SegData D) :
    Except Err (Option (SegData D)) :=
  if incl then (copyData C x).map some else .ok none

/-- `NitfSegmentJson.create_delta` (nitf_file_json.py:57-77).  `short_desc` and `segment_type` are
left out. -/
def deltaSeg {D : Type} (C : DataCls D) (k : SegKind) (incl : Bool) (s : Seg P.F D) :
    Except Err (DeltaSeg P.F D) := do
  let sub ← deepCopy P k.desc s.sub
  let sub' ← clearSub P k sub
  let user ← copyUser P s.user
  let tres ← copyList (treCopy P) s.tres
  let key ← primaryKey P C k s
  let data ← deltaData C incl s.data
  .ok ⟨sub', user, tres, key, data⟩

/-- The three loops of `NitfFileJson.create_delta`. -/
def deltaSegs {D : Type} (C : DataCls D) (k : SegKind) (incl : Seg P.F D → Bool) :
    List (Seg P.F D) → Except Err (List (DeltaSeg P.F D))
  | [] => .ok []
  | s :: r =>
    match deltaSeg P C k (incl s) s with
    | .error e => .error e
    | .ok t =>
      match deltaSegs C k incl r with
      | .error e => .error e
      | .ok r' => .ok (t :: r')

/-- `isinstance(dseg.data, NitfDesFieldStruct)` (nitf_file_json.py:156). -/
def desIncluded {D : Type} (C : DataCls D) (s : Seg P.F D) : Bool :=
  match s.data with
  | .overflow _ => false
  | .other x => C.fieldStruct x

/-- `NitfFileJson.create_delta` (nitf_file_json.py:133-159); the second argument is not used.
Simplification: the TRE_OVERFLOW segments are dropped before the loop over the others. -/
def deltaFile (C : DataCls IO.D) (f : NFile P.F IO.D) : Except Err (DeltaFile P.F IO.D) := do
  let tres ← copyList (treCopy P) f.tres
  let h ← deepCopy P Tables.t_file_header f.header
  let h' ← clearData P Tables.t_file_header [n!"udhd", n!"xhd"] h
  let image ← deltaSegs P C .image (fun _ => false) f.image
  let text ← deltaSegs P C .text (fun _ => true) f.text
  let dropped ← dropOverflow P IO f.des
  let des ← deltaSegs P C .des (desIncluded P C) dropped
  .ok ⟨h', tres, image, text, des⟩

end Verif
