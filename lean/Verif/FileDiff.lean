import Verif.Handle
import Verif.Diff
import Verif.Tre

/-
Comparing two files: nitf_file_diff.py, nitf_diff_handle.py, and the handlers the other modules
register.

The log is not modelled, only the result.  Handlers are functions of the two objects: what they
keep in themselves between calls (`is_same`, `_config`) is set again by each call before it is
read.
-/

namespace Verif

/-! ### Files and segments, with any handlers -/

/-- A segment as seen by `SegmentDiff`; `O` are the objects that are not files or segments.
`user` is `none` for a `user_subheader` that is None (nitf_segment.py:29-60). -/
structure DSeg (O : Type) where
  /-- `segment_type()` -/
  type : Nat
  subheader : O
  user : Option O
  tres : List O
  data : Option O

/-- A file as seen by `NitfFileHandle` (nitf_file.py:32-90). -/
structure DFile (O : Type) where
  header : O
  tres : List O
  image : List (DSeg O)
  graphic : List (DSeg O)
  text : List (DSeg O)
  des : List (DSeg O)
  res : List (DSeg O)

/-- Something that can be compared. -/
inductive DObj (O : Type) where
  | none
  | leaf (o : O)
  | seg (s : DSeg O)
  | file (f : DFile O)

def DObj.ofOption {O : Type} : Option O → DObj O
  | .none => .none
  | some o => .leaf o

/-- Handlers: `NitfFileHandle`, `SegmentDiff` and others. -/
inductive DHandle (H : Type) where
  | nitfFile
  | segment
  | other (h : H)
  deriving DecidableEq

/-- The configuration of a comparison of files.  `overflow o` is
`hasattr(o, "desid") and o.desid == "TRE_OVERFLOW"`; `other h` is `handle_diff` of the handler `h`,
`none` for `(False, None)`.  Simplified: the functions in `skip_obj_func` do not raise. -/
structure DiffEnv (O H : Type) where
  skipFns : List (DObj O → Bool)
  overflow : O → Bool
  other : H → DObj O → DObj O → Except Err (Option Bool)

section
variable {O H : Type}

/-- `skip_obj` (nitf_file_diff.py:27-33). -/
def skipObj : List (DObj O → Bool) → DObj O → Bool
  | [], _ => false
  | f :: r, o => if f o then true else skipObj r o

/-- `[i for i in l if not nitf_diff.skip_obj(i)]`. -/
def keptObjs (env : DiffEnv O H) (l : List (DObj O)) : List (DObj O) :=
  l.filter fun o => !skipObj env.skipFns o

/-- `for i in range(min(len(l1), len(l2))): is_same = compare_obj(l1[i], l2[i]) and is_same`
(nitf_file_diff.py:132-133, 163-165). -/
def cmpPairs (cmp : DObj O → DObj O → Except Err Bool) :
    List (DObj O) → List (DObj O) → Bool → Except Err Bool
  | a :: r, b :: r', same =>
    match cmp a b with
    | .error e => .error e
    | .ok e => cmpPairs cmp r r' (e && same)
  | _, _, same => .ok same

/-- The comparison of two lists (nitf_file_diff.py:127-133, 159-165). -/
def cmpLists (cmp : DObj O → DObj O → Except Err Bool) (l1 l2 : List (DObj O)) (same : Bool) :
    Except Err Bool :=
  cmpPairs cmp l1 l2 (if l1.length ≠ l2.length then false else same)

/-- The loop over the kinds (nitf_file_diff.py:102-133). -/
def cmpKinds (cmp : DObj O → DObj O → Except Err Bool) :
    List (List (DObj O) × List (DObj O)) → Bool → Except Err Bool
  | [], same => .ok same
  | (l1, l2) :: r, same =>
    match cmpLists cmp l1 l2 same with
    | .error e => .error e
    | .ok same => cmpKinds cmp r same

/-- The lists compared, without the objects to skip (nitf_file_diff.py:103-126). -/
def kindLists (env : DiffEnv O H) (f1 f2 : DFile O) : List (List (DObj O) × List (DObj O)) :=
  [(keptObjs env (f1.tres.map .leaf), keptObjs env (f2.tres.map .leaf)),
   (keptObjs env (f1.image.map .seg), keptObjs env (f2.image.map .seg)),
   (keptObjs env (f1.graphic.map .seg), keptObjs env (f2.graphic.map .seg)),
   (keptObjs env (f1.text.map .seg), keptObjs env (f2.text.map .seg)),
   (keptObjs env (f1.des.map .seg), keptObjs env (f2.des.map .seg)),
   (keptObjs env (f1.res.map .seg), keptObjs env (f2.res.map .seg))]

/-- `NitfFileHandle.handle_diff` of two files (nitf_file_diff.py:99-134). -/
def fileDiff (env : DiffEnv O H) (cmp : DObj O → DObj O → Except Err Bool) (f1 f2 : DFile O) :
    Except Err Bool :=
  match cmp (.leaf f1.header) (.leaf f2.header) with
  | .error e => .error e
  | .ok e => cmpKinds cmp (kindLists env f1 f2) (e && true)

/-- The user subheaders of two segments (nitf_file_diff.py:156-158). -/
def segUser (cmp : DObj O → DObj O → Except Err Bool) (s1 s2 : DSeg O) (same : Bool) :
    Except Err Bool :=
  match s1.user with
  | none => .ok same
  | some u => (cmp (.leaf u) (.ofOption s2.user)).map (· && same)

/-- `SegmentDiff.handle_diff` of two segments (nitf_file_diff.py:144-168).  `none` is
`(False, None)`. -/
def segDiff (env : DiffEnv O H) (cmp : DObj O → DObj O → Except Err Bool) (s1 s2 : DSeg O) :
    Except Err (Option Bool) :=
  if s1.type ≠ s2.type then .ok none
  else if env.overflow s1.subheader && env.overflow s2.subheader then .ok (some true)
  else
    match cmp (.leaf s1.subheader) (.leaf s2.subheader) with
    | .error e => .error e
    | .ok same =>
      match segUser cmp s1 s2 same with
      | .error e => .error e
      | .ok same =>
        match cmpLists cmp (keptObjs env (s1.tres.map .leaf)) (keptObjs env (s2.tres.map .leaf))
            same with
        | .error e => .error e
        | .ok same =>
          match cmp (.ofOption s1.data) (.ofOption s2.data) with
          | .error e => .error e
          | .ok e => .ok (some (e && same))

/-- `handle_diff` of a handler; `cmp` is `nitf_diff.compare_obj`. -/
def handleDiff (env : DiffEnv O H) (cmp : DObj O → DObj O → Except Err Bool) (h : DHandle H)
    (a b : DObj O) : Except Err (Option Bool) :=
  match h with
  | .nitfFile =>
    match a, b with
    | .file f1, .file f2 => (fileDiff env cmp f1 f2).map some
    | _, _ => .ok none
  | .segment =>
    match a, b with
    | .seg s1, .seg s2 => segDiff env cmp s1 s2
    | _, _ => .ok none
  | .other h => env.other h a b

variable [DecidableEq H]

/-- `NitfDiff.compare_obj` (nitf_file_diff.py:76-88), nested at most `n` deep.  Files contain
segments and other objects, segments contain other objects, so the depth 3 is enough
(`compareObjs_depth`). -/
def compareObjs (it : IterOrder (DHandle H)) (hp : Heap (DHandle H)) (o : HandleSet)
    (env : DiffEnv O H) : Nat → DObj O → DObj O → Except Err Bool
  | 0, _, _ => .error .recursion
  | n + 1, a, b =>
    (o.handle it (fun h (s : Unit) =>
      (handleDiff env (compareObjs it hp o env n) h a b).map fun r => (r, s)) hp ()).map (·.1)

/-- `NitfDiff.compare_obj`. -/
def compareAny (it : IterOrder (DHandle H)) (hp : Heap (DHandle H)) (o : HandleSet)
    (env : DiffEnv O H) (a b : DObj O) : Except Err Bool :=
  compareObjs it hp o env 3 a b

end

/-! ### The handlers registered by default -/

/-- Classes of structures, as far as the handlers distinguish them. -/
inductive StructCls where
  | fileHeader | imageSub | graphicSub | textSub | desSub | resSub
  | assocUser | extHeader
  | csatta | csattb | cscsdb | csephb | cssfab
  /-- any other class derived from NitfDesFieldStruct -/
  | otherDes
  deriving DecidableEq

def StructCls.all : List StructCls :=
  [.fileHeader, .imageSub, .graphicSub, .textSub, .desSub, .resSub, .assocUser, .extHeader,
   .csatta, .csattb, .cscsdb, .csephb, .cssfab, .otherDes]

/-- Classes derived from NitfDesFieldStruct. -/
def StructCls.isDes : StructCls → Bool
  | .csatta | .csattb | .cscsdb | .csephb | .cssfab | .otherDes => true
  | _ => false

/-- Objects that are compared, other than files and segments.  `tag` of a structure is the
`des_tag`, which only those derived from NitfDesFieldStruct have.  `text` holds `string`, a str or
bytes; `image` is any NitfImageWithSubset, given by its shape and `[:,:,:]`. -/
inductive Leaf (P : PyFloat) where
  | struct (c : StructCls) (tag : List Char) (d : Desc) (S : Store P.F)
  | tre (tag : List Char) (d : Desc) (S : Store P.F)
  | treUnknown (tag : List Char) (bytes : Bytes)
  | text (s : List Char ⊕ Bytes)
  | extDef (data : Bytes)
  | image (shape : List Nat) (px : List P.F)
  | imagePlaceHolder (id : Nat)
  | dataPlaceHolder (id : Nat)
  /-- an object no handler is registered for -/
  | other (id : Nat)

/-- The class of a `Leaf`. -/
inductive LeafCls where
  | struct (c : StructCls)
  | tre | treUnknown | text | extDef | image | imagePlaceHolder | dataPlaceHolder | other
  deriving DecidableEq

def Leaf.cls {P : PyFloat} : Leaf P → LeafCls
  | .struct c _ _ _ => .struct c
  | .tre _ _ _ => .tre
  | .treUnknown _ _ => .treUnknown
  | .text _ => .text
  | .extDef _ => .extDef
  | .image _ _ => .image
  | .imagePlaceHolder _ => .imagePlaceHolder
  | .dataPlaceHolder _ => .dataPlaceHolder
  | .other _ => .other

def LeafCls.all : List LeafCls :=
  StructCls.all.map .struct ++
    [.tre, .treUnknown, .text, .extDef, .image, .imagePlaceHolder, .dataPlaceHolder, .other]

/-- The handlers of the other modules.  `struct c` is the one for the class `c`
(nitf_file_header.py:97, nitf_image_subheader.py:421, nitf_graphic_subheader.py:69,
nitf_text_subheader.py:65, nitf_des_subheader.py:66, nitf_res_subheader.py:55,
nitf_des_associated_user_subheader.py:113, nitf_des_ext_def_content.py:105, nitf_des_csatta.py:47,
nitf_des_csattb.py:54, nitf_des_cscsdb.py:347, nitf_des_csephb.py:54, nitf_des_cssfab.py:164);
`struct otherDes` is `DesFieldStructDiff`, which takes all NitfDesFieldStruct (nitf_des.py:111). -/
inductive LeafHandle where
  | struct (c : StructCls)
  | tre | treUnknown | text | extDef | imageSubset | imagePlaceHolder | dataPlaceHolder
  deriving DecidableEq

/-- The `isinstance` test of the handler. -/
def LeafHandle.isa : LeafHandle → LeafCls → Bool
  | .struct .otherDes, .struct c => c.isDes
  | .struct c, .struct c' => decide (c = c')
  | .tre, .tre => true
  | .tre, .treUnknown => true
  | .treUnknown, .treUnknown => true
  | .text, .text => true
  | .extDef, .extDef => true
  | .imageSubset, .image => true
  | .imagePlaceHolder, .imagePlaceHolder => true
  | .dataPlaceHolder, .dataPlaceHolder => true
  | _, _ => false

/-- `NitfDiffHandleSet.default_handle_set()`: all calls of `add_default_handle`. -/
def defaultHandles : List (DHandle LeafHandle × Int) :=
  [(.nitfFile, 0), (.segment, 0),
   (.other (.struct .fileHeader), 0), (.other (.struct .imageSub), 0),
   (.other (.struct .graphicSub), 0), (.other (.struct .textSub), 0),
   (.other (.struct .desSub), 0), (.other (.struct .resSub), 0),
   (.other (.struct .assocUser), 0), (.other (.struct .extHeader), 0),
   (.other (.struct .csatta), 0), (.other (.struct .csattb), 0), (.other (.struct .cscsdb), 0),
   (.other (.struct .csephb), 0), (.other (.struct .cssfab), 0),
   (.other (.struct .otherDes), -1),
   (.other .tre, 0), (.other .treUnknown, 1), (.other .text, 0), (.other .extDef, 0),
   (.other .imageSubset, 0), (.other .imagePlaceHolder, 0), (.other .dataPlaceHolder, 0)]

/-- `nitf_diff.config`; `allclose` is `np.allclose`. -/
structure FileDiffConfig (P : PyFloat) where
  /-- by class: "File Header", "Image Subheader", ... -/
  struct : StructCls → DiffConfig P.F
  /-- "TRE", by tag -/
  tre : List Char → DiffConfig P.F
  /-- "DES", by tag -/
  des : List Char → DiffConfig P.F
  extExclude : Bool := false
  extWarn : Bool := false
  allclose : List P.F → List P.F → Bool

section
variable (P : PyFloat)

/-- Is `desid` of the structure "TRE_OVERFLOW"?  Simplified: an exception from reading the field is
taken as no. -/
def desidOverflow (d : Desc) (S : Store P.F) : Bool :=
  match resolve d.tab (n!"desid") with
  | none => false
  | some n =>
    match getItem P d.tab S n [] with
    | .ok (.str s) => s == "TRE_OVERFLOW".toList
    | _ => false

/-- `seg.subheader and hasattr(seg.subheader, "desid") and seg.subheader.desid == "TRE_OVERFLOW"`
(nitf_file_diff.py:149-152). -/
def leafOverflow : Leaf P → Bool
  | .struct _ _ d S => desidOverflow P d S
  | _ => false

/-- `string_as_str` (nitf_text.py:20-26). -/
def stringAsStr : List Char ⊕ Bytes → Except Err (List Char)
  | .inl s => .ok s
  | .inr b => utf8Dec b

/-- `handle_diff` of a handler below its `isinstance` test. -/
def leafOut (cfg : FileDiffConfig P) : LeafHandle → Leaf P → Leaf P → Except Err Bool
  -- nitf_des.py:117-129; the names in the log message of line 121-122 are not defined
  | .struct .otherDes, .struct _ t1 d1 S1, .struct _ t2 d2 S2 =>
    if t1 ≠ t2 then .error .name
    else (compareObj P (cfg.des t1) d1 d2 S1 S2).map (·.1)
  -- nitf_des_subheader.py:71-81
  | .struct .desSub, .struct _ _ d1 S1, .struct _ _ d2 S2 =>
    if desidOverflow P d1 S1 && desidOverflow P d2 S2 then .ok true
    else (compareObj P (cfg.struct .desSub) d1 d2 S1 S2).map (·.1)
  | .struct c, .struct _ _ d1 S1, .struct _ _ d2 S2 =>
    (compareObj P (cfg.struct c) d1 d2 S1 S2).map (·.1)
  -- nitf_tre.py:290-300; an unknown TRE has no fields
  | .tre, .tre t1 d1 S1, .tre t2 d2 S2 =>
    if t1 ≠ t2 then .ok false else (compareObj P (cfg.tre t1) d1 d2 S1 S2).map (·.1)
  | .tre, .tre t1 d1 S1, .treUnknown t2 _ =>
    if t1 ≠ t2 then .ok false else (compareObj P (cfg.tre t1) d1 .nil S1 Store.empty).map (·.1)
  | .tre, .treUnknown t1 _, .tre t2 d2 S2 =>
    if t1 ≠ t2 then .ok false else (compareObj P (cfg.tre t1) .nil d2 Store.empty S2).map (·.1)
  | .tre, .treUnknown t1 _, .treUnknown t2 _ =>
    if t1 ≠ t2 then .ok false
    else (compareObj P (cfg.tre t1) .nil .nil Store.empty Store.empty).map (·.1)
  -- nitf_tre.py:307-320; the bytes are decoded for the log
  | .treUnknown, .treUnknown t1 b1, .treUnknown t2 b2 =>
    if t1 ≠ t2 then .ok false
    else if b1 ≠ b2 then
      match utf8Dec b1, utf8Dec b2 with
      | .ok _, .ok _ => .ok false
      | .error e, _ => .error e
      | _, .error e => .error e
    else .ok true
  -- nitf_text.py:54-62
  | .text, .text s1, .text s2 =>
    match stringAsStr s1, stringAsStr s2 with
    | .ok a, .ok b => .ok (decide (a = b))
    | .error e, _ => .error e
    | _, .error e => .error e
  -- nitf_des_ext_def_content.py:190-208
  | .extDef, .extDef d1, .extDef d2 =>
    if cfg.extExclude then .ok true
    else if cfg.extWarn then .ok true
    else .ok (decide (d1 = d2))
  -- nitf_image.py:205-224
  | .imageSubset, .image sh1 p1, .image sh2 p2 =>
    if sh1 ≠ sh2 then .ok false else .ok (cfg.allclose p1 p2)
  -- nitf_image.py:90-97
  | .imagePlaceHolder, .imagePlaceHolder _, .imagePlaceHolder _ => .ok true
  -- nitf_segment_data_handle.py:244-251
  | .dataPlaceHolder, .dataPlaceHolder _, .dataPlaceHolder _ => .ok true
  | _, _, _ => .error .type

/-- `handle_diff` of the handlers of the other modules. -/
def leafDiff (cfg : FileDiffConfig P) (h : LeafHandle) :
    DObj (Leaf P) → DObj (Leaf P) → Except Err (Option Bool)
  | .leaf a, .leaf b =>
    if h.isa a.cls && h.isa b.cls then (leafOut P cfg h a b).map some else .ok none
  | _, _ => .ok none

/-- The environment of a comparison with the default handlers. -/
def defaultEnv (cfg : FileDiffConfig P) (skip : List (DObj (Leaf P) → Bool)) :
    DiffEnv (Leaf P) LeafHandle :=
  { skipFns := skip, overflow := leafOverflow P, other := leafDiff P cfg }

end

end Verif
