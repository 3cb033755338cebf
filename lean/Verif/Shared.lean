import Verif.Py

/-
The subheader and user subheader shared by a segment and its data (`NitfSharedHeader`,
pynitf/nitf_segment.py, pynitf/nitf_segment_data_handle.py, pynitf/nitf_file_json.py).  Python objects
are numbers: header objects, `NitfSharedHeader` objects, `NitfData` objects and `NitfSegment` objects
each have their own numbering, in the order in which they were created.  `H` is the content of a
header object (subheader or user subheader).
-/

namespace Verif

/-- `NitfSharedHeader` (nitf_segment.py:13-28): references to two header objects. -/
structure SharedHdr where
  sub : Nat
  user : Option Nat
  deriving DecidableEq, Repr

/-- `NitfSegment` or `NitfSegmentJson` (nitf_segment.py:34-60, nitf_file_json.py:12-25):
`_shared_header`, `data` (for a JSON segment `_data`) and `_merge_seg` (absent in other segments). -/
structure SegObj where
  shared : Nat
  data : Option Nat
  merge : Option Nat
  deriving DecidableEq, Repr

/-- The objects of a session.  For a `NitfData` object only `_shared_header` is kept. -/
structure Objs (H : Type) where
  hdrs : List H
  shared : List SharedHdr
  datas : List Nat
  segs : List SegObj

/-- A session that has no objects yet. -/
def Objs.empty {H : Type} : Objs H := ⟨[], [], [], []⟩

/-- A segment or a data object. -/
inductive Who where
  | seg (s : Nat) | data (d : Nat)
  deriving DecidableEq, Repr

variable {H : Type}

/-- `x._shared_header`. -/
def Objs.sharedOf (o : Objs H) : Who → Option Nat
  | .seg s => (o.segs[s]?).map (·.shared)
  | .data d => o.datas[d]?

/-- `x.subheader`: the header object (nitf_segment.py:77-80, nitf_segment_data_handle.py:69-72). -/
def Objs.subOf (o : Objs H) (w : Who) : Option Nat :=
  (o.sharedOf w).bind fun h => (o.shared[h]?).map (·.sub)

/-- `x.user_subheader`: the header object or `None` (nitf_segment.py:87-90,
nitf_segment_data_handle.py:79-82). -/
def Objs.userOf (o : Objs H) (w : Who) : Option (Option Nat) :=
  (o.sharedOf w).bind fun h => (o.shared[h]?).map (·.user)

/-- `seg.data` (nitf_segment.py:36; nitf_file_json.py:50-55 for a JSON segment).  Simplification: the
segment a JSON segment is merged with is not itself a JSON segment. -/
def Objs.dataOf (o : Objs H) (s : Nat) : Option Nat :=
  match o.segs[s]? with
  | none => none
  | some g =>
    match g.data with
    | some d => some d
    | none =>
      match g.merge with
      | none => none
      | some b => (o.segs[b]?).bind (·.data)

/-- What a user or the library does to the objects. -/
inductive ShareOp (H : Type) where
  /-- a new header object -/
  | header (h : H)
  /-- `NitfData()` of a class with or without `uh_class` -/
  | newData (h : H) (u : Option H)
  /-- `NitfSegment(data)`; `h` is the subheader made when there is no data -/
  | newSeg (h : H) (d : Option Nat)
  /-- `seg.read_from_file`: the handlers tried make `n` data objects; the last of them can read the
  data if `found` -/
  | read (s n : Nat) (found : Bool)
  /-- `x.subheader = v` -/
  | setSub (w : Who) (r : Nat)
  /-- `x.user_subheader = v` -/
  | setUser (w : Who) (r : Option Nat)
  /-- a field of `x.subheader` is set -/
  | change (w : Who) (f : H → H)
  /-- a field of `x.user_subheader` is set -/
  | changeUser (w : Who) (f : H → H)
  /-- `seg.data = d` -/
  | assign (s : Nat) (d : Option Nat)
  /-- `NitfSegmentJson.create_delta`; `strip` clears the TRE areas of the subheader -/
  | delta (s : Nat) (incl : Bool) (strip : H → H)
  /-- `notify_segment_merge` that found the segment `b` -/
  | found (s b : Nat)
  /-- `s.data._shared_header = s._shared_header` of `notify_file_merge` -/
  | share (s : Nat)

/-- `NitfSharedHeader.__init__` (nitf_segment.py:22-28): new header objects and a new object holding
them, whose number is `o.shared.length`. -/
def Objs.newShared (o : Objs H) (h : H) (u : Option H) : Objs H :=
  match u with
  | none => { o with hdrs := o.hdrs ++ [h], shared := o.shared ++ [⟨o.hdrs.length, none⟩] }
  | some v =>
    { o with hdrs := o.hdrs ++ [h, v],
             shared := o.shared ++ [⟨o.hdrs.length, some (o.hdrs.length + 1)⟩] }

/-- `NitfData(seg)` (nitf_segment_data_handle.py:45-56) for a segment with the shared header `h`, by
`n` handlers (nitf_segment_data_handle.py:27-38). -/
def Objs.candidates (o : Objs H) (h n : Nat) : Objs H :=
  { o with datas := o.datas ++ List.replicate n h }

/-- One operation.  An object that does not exist is an AttributeError. -/
def Objs.step (o : Objs H) : ShareOp H → Except Err (Objs H)
  | .header h => .ok { o with hdrs := o.hdrs ++ [h] }
  | .newData h u =>
    -- nitf_segment_data_handle.py:53-56
    let o' := o.newShared h u
    .ok { o' with datas := o'.datas ++ [o.shared.length] }
  | .newSeg h d =>
    -- nitf_segment.py:36-40
    match d with
    | some d =>
      match o.datas[d]? with
      | none => .error .attr
      | some sh => .ok { o with segs := o.segs ++ [⟨sh, some d, none⟩] }
    | none =>
      let o' := o.newShared h none
      .ok { o' with segs := o'.segs ++ [⟨o.shared.length, none, none⟩] }
  | .read s n found =>
    -- nitf_segment.py:161-178; without a handler an exception is raised and `data` stays
    match o.segs[s]? with
    | none => .error .attr
    | some g =>
      let o' := o.candidates g.shared n
      if found ∧ 0 < n then
        .ok { o' with segs := o'.segs.set s { g with data := some (o.datas.length + n - 1) } }
      else .ok o'
  | .setSub w r =>
    -- nitf_segment.py:82-85, nitf_segment_data_handle.py:74-77
    match o.sharedOf w with
    | none => .error .attr
    | some h =>
      if r < o.hdrs.length then
        .ok { o with shared := o.shared.modify h fun x => { x with sub := r } }
      else .error .attr
  | .setUser w r =>
    -- nitf_segment.py:92-95, nitf_segment_data_handle.py:84-87
    match o.sharedOf w with
    | none => .error .attr
    | some h =>
      if ∀ i ∈ r, i < o.hdrs.length then
        .ok { o with shared := o.shared.modify h fun x => { x with user := r } }
      else .error .attr
  | .change w f =>
    match o.subOf w with
    | none => .error .attr
    | some r => .ok { o with hdrs := o.hdrs.modify r f }
  | .changeUser w f =>
    match o.userOf w with
    | some (some r) => .ok { o with hdrs := o.hdrs.modify r f }
    | _ => .error .attr
  | .assign s d =>
    match o.segs[s]? with
    | none => .error .attr
    | some g =>
      if ∀ i ∈ d, i < o.datas.length then
        .ok { o with segs := o.segs.set s { g with data := d } }
      else .error .attr
  | .delta s incl strip =>
    -- nitf_file_json.py:57-76: copies of the header objects, and of the data with its own copy of
    -- the shared header
    match o.segs[s]? with
    | none => .error .attr
    | some g =>
      match o.shared[g.shared]? with
      | none => .error .attr
      | some x =>
        match o.hdrs[x.sub]? with
        | none => .error .attr
        | some h =>
          let u := x.user.bind fun i => o.hdrs[i]?
          let o1 := o.newShared (strip h) u
          if incl then
            match o.dataOf s with
            | none => .ok { o1 with segs := o1.segs ++ [⟨o.shared.length, none, none⟩] }
            | some d =>
              match o.datas[d]? with
              | none => .error .attr
              | some sd =>
                match o.shared[sd]? with
                | none => .error .attr
                | some y =>
                  match o.hdrs[y.sub]? with
                  | none => .error .attr
                  | some k =>
                    let o2 := o1.newShared k (y.user.bind fun i => o.hdrs[i]?)
                    .ok { o2 with
                      datas := o2.datas ++ [o.shared.length + 1]
                      segs := o2.segs ++ [⟨o.shared.length, some o.datas.length, none⟩] }
          else .ok { o1 with segs := o1.segs ++ [⟨o.shared.length, none, none⟩] }
  | .found s b =>
    -- nitf_file_json.py:30-48
    match o.segs[s]? with
    | none => .error .attr
    | some g =>
      match g.data with
      | some _ => .ok o
      | none =>
        if b < o.segs.length then
          .ok { o with segs := o.segs.set s { g with merge := some b } }
        else .error .attr
  | .share s =>
    -- nitf_file_json.py:185
    match o.segs[s]? with
    | none => .error .attr
    | some g =>
      match o.dataOf s with
      | none => .error .attr
      | some d => .ok { o with datas := o.datas.set d g.shared }

/-- A sequence of operations. -/
def Objs.run (o : Objs H) : List (ShareOp H) → Except Err (Objs H)
  | [] => .ok o
  | a :: r =>
    match o.step a with
    | .error e => .error e
    | .ok o' => o'.run r

end Verif
