import Verif.FileDiff

/-
What comparing two files writes to the log: nitf_file_diff.py, nitf_diff_handle.py, and the
handlers the other modules register.

A line of the log is a message with the context that the filter of `compare_obj` attaches to it
(nitf_diff_handle.py:91-99, nitf_file_diff.py:76-88).  The filter is attached for the whole of the
outermost call, so every line has a context.  The texts of the messages are not modelled, nor are
the `difference_detail` lines (one for each differing element of an array).  When a comparison
raises, what was logged before is not kept.
-/

namespace Verif

/-- The levels used (nitf_diff_handle.py:23-27, logging.WARNING). -/
inductive LogLevel where
  | found
  | ignored
  | warning
  deriving DecidableEq, Repr

/-- The messages. -/
inductive LogMsg where
  /-- "File 1 has %d ... while file 2 has %d" (nitf_file_diff.py:129-130), "Segment 1 has %d TREs
  while Segment 2 has %d" (nitf_file_diff.py:162-163) -/
  | count (n1 n2 : Nat)
  /-- a line about a field (nitf_field.py:989-993, 1051) -/
  | field (r : Report)
  /-- "TREs tags don't match" (nitf_tre.py:295-296, 312-313) -/
  | tags (t1 t2 : List Char)
  /-- "TREs bytes don't match" (nitf_tre.py:316-318) -/
  | bytes
  /-- "Text data is not the same" (nitf_text.py:61) -/
  | text
  /-- "content is different" (nitf_des_ext_def_content.py:200) -/
  | content
  /-- the same, when only warned about (nitf_des_ext_def_content.py:197) -/
  | contentIgnored
  /-- "Image '%s' shape different" (nitf_image.py:215-216) -/
  | shape
  /-- "Image '%s' is different" (nitf_image.py:219-220) -/
  | pixels
  /-- "Skipping ..., don't know how to read it." (nitf_image.py:95-96,
  nitf_segment_data_handle.py:250) -/
  | skipped
  deriving DecidableEq, Repr

/-- The level a message is logged with. -/
def LogMsg.level : LogMsg → LogLevel
  | .field (.ignored _) => .ignored
  | .contentIgnored => .ignored
  | .skipped => .warning
  | _ => .found

/-- A line of the log. -/
structure LogLine where
  ctx : List Char
  msg : LogMsg
  deriving DecidableEq, Repr

/-- `context_filter.ctx` and what has been logged. -/
structure LogSt where
  ctx : List Char
  log : List LogLine
  deriving DecidableEq, Repr

/-- Something that logs. -/
abbrev LogM (α : Type) := LogSt → Except Err (α × LogSt)

/-- `logger.difference(...)` and the like. -/
def LogSt.add (s : LogSt) (m : LogMsg) : LogSt := { s with log := s.log ++ [⟨s.ctx, m⟩] }

/-- The start of a comparison (nitf_file_diff.py:22-25). -/
def LogSt.start : LogSt := ⟨"File level".toList, []⟩

/-- `with nitf_diff.diff_context(v, add_text)` (nitf_file_diff.py:35-51). -/
def withCtx {α : Type} (v : List Char) (add : Bool) (f : LogM α) : LogM α := fun s =>
  match f { s with ctx := if add then s.ctx ++ ' ' :: v else v } with
  | .error e => .error e
  | .ok (r, s') => .ok (r, { s' with ctx := s.ctx })

section
variable {O H : Type}

/-- The configuration of a comparison, as `DiffEnv`, with handlers that log; `desc` is
`short_desc()` of a segment. -/
structure LogEnv (O H : Type) where
  skipFns : List (DObj O → Bool)
  overflow : O → Bool
  desc : DSeg O → Except Err (List Char)
  other : H → DObj O → DObj O → LogM (Option Bool)

/-- The loop over two lists, as `cmpPairs` (nitf_file_diff.py:132-133, 164-166). -/
def cmpPairsL (cmp : DObj O → DObj O → LogM Bool) :
    List (DObj O) → List (DObj O) → Bool → LogM Bool
  | a :: r, b :: r', same => fun s =>
    match cmp a b s with
    | .error e => .error e
    | .ok (e, s) => cmpPairsL cmp r r' (e && same) s
  | _, _, same => fun s => .ok (same, s)

/-- The comparison of two lists, as `cmpLists` (nitf_file_diff.py:127-133, 161-166). -/
def cmpListsL (cmp : DObj O → DObj O → LogM Bool) (l1 l2 : List (DObj O)) (same : Bool) :
    LogM Bool := fun s =>
  if l1.length ≠ l2.length then
    cmpPairsL cmp l1 l2 false (s.add (.count l1.length l2.length))
  else cmpPairsL cmp l1 l2 same s

/-- The loop over the kinds, as `cmpKinds` (nitf_file_diff.py:102-133). -/
def cmpKindsL (cmp : DObj O → DObj O → LogM Bool) :
    List (List (DObj O) × List (DObj O)) → Bool → LogM Bool
  | [], same => fun s => .ok (same, s)
  | (l1, l2) :: r, same => fun s =>
    match cmpListsL cmp l1 l2 same s with
    | .error e => .error e
    | .ok (same, s) => cmpKindsL cmp r same s

/-- `[i for i in l if not nitf_diff.skip_obj(i)]` (nitf_file_diff.py:104-126, 159-160). -/
def keptL (env : LogEnv O H) (l : List (DObj O)) : List (DObj O) :=
  l.filter fun o => !skipObj env.skipFns o

/-- The lists compared (nitf_file_diff.py:103-126). -/
def kindListsL (env : LogEnv O H) (f1 f2 : DFile O) : List (List (DObj O) × List (DObj O)) :=
  [(keptL env (f1.tres.map .leaf), keptL env (f2.tres.map .leaf)),
   (keptL env (f1.image.map .seg), keptL env (f2.image.map .seg)),
   (keptL env (f1.graphic.map .seg), keptL env (f2.graphic.map .seg)),
   (keptL env (f1.text.map .seg), keptL env (f2.text.map .seg)),
   (keptL env (f1.des.map .seg), keptL env (f2.des.map .seg)),
   (keptL env (f1.res.map .seg), keptL env (f2.res.map .seg))]

/-- `NitfFileHandle.handle_diff` of two files (nitf_file_diff.py:95-134). -/
def fileDiffL (env : LogEnv O H) (cmp : DObj O → DObj O → LogM Bool) (f1 f2 : DFile O) :
    LogM Bool := fun s =>
  match cmp (.leaf f1.header) (.leaf f2.header) s with
  | .error e => .error e
  | .ok (e, s) => cmpKindsL cmp (kindListsL env f1 f2) (e && true) s

/-- The user subheaders of two segments (nitf_file_diff.py:156-158). -/
def segUserL (cmp : DObj O → DObj O → LogM Bool) (s1 s2 : DSeg O) (same : Bool) : LogM Bool :=
  fun s =>
  match s1.user with
  | none => .ok (same, s)
  | some u =>
    match cmp (.leaf u) (.ofOption s2.user) s with
    | .error e => .error e
    | .ok (e, s) => .ok (e && same, s)

/-- The block under the context of the segment (nitf_file_diff.py:155-168). -/
def segBodyL (env : LogEnv O H) (cmp : DObj O → DObj O → LogM Bool) (s1 s2 : DSeg O) :
    LogM Bool := fun s =>
  match cmp (.leaf s1.subheader) (.leaf s2.subheader) s with
  | .error e => .error e
  | .ok (same, s) =>
    match segUserL cmp s1 s2 same s with
    | .error e => .error e
    | .ok (same, s) =>
      match cmpListsL cmp (keptL env (s1.tres.map .leaf)) (keptL env (s2.tres.map .leaf)) same s with
      | .error e => .error e
      | .ok (same, s) =>
        match cmp (.ofOption s1.data) (.ofOption s2.data) s with
        | .error e => .error e
        | .ok (e, s) => .ok (e && same, s)

/-- `SegmentDiff.handle_diff` of two segments (nitf_file_diff.py:140-168). -/
def segDiffL (env : LogEnv O H) (cmp : DObj O → DObj O → LogM Bool) (s1 s2 : DSeg O) :
    LogM (Option Bool) := fun s =>
  if s1.type ≠ s2.type then .ok (none, s)
  else if env.overflow s1.subheader && env.overflow s2.subheader then .ok (some true, s)
  else
    match env.desc s1 with
    | .error e => .error e
    | .ok d =>
      match withCtx d false (segBodyL env cmp s1 s2) s with
      | .error e => .error e
      | .ok (e, s) => .ok (some e, s)

/-- `handle_diff` of a handler; `cmp` is `nitf_diff.compare_obj` (nitf_file_diff.py:95-170). -/
def handleDiffL (env : LogEnv O H) (cmp : DObj O → DObj O → LogM Bool) (h : DHandle H)
    (a b : DObj O) : LogM (Option Bool) := fun s =>
  match h with
  | .nitfFile =>
    match a, b with
    | .file f1, .file f2 => (fileDiffL env cmp f1 f2 s).map fun r => (some r.1, r.2)
    | _, _ => .ok (none, s)
  | .segment =>
    match a, b with
    | .seg s1, .seg s2 => segDiffL env cmp s1 s2 s
    | _, _ => .ok (none, s)
  | .other h => env.other h a b s

variable [DecidableEq H]

/-- `NitfDiff.compare_obj` (nitf_file_diff.py:76-88), nested at most `n` deep (see
`compareObjs`). -/
def compareObjsL (it : IterOrder (DHandle H)) (hp : Heap (DHandle H)) (o : HandleSet)
    (env : LogEnv O H) : Nat → DObj O → DObj O → LogM Bool
  | 0, _, _ => fun _ => .error .recursion
  | n + 1, a, b => fun s =>
    o.handle it (fun h => handleDiffL env (compareObjsL it hp o env n) h a b) hp s

/-- `NitfDiff.compare_obj` (nitf_file_diff.py:76-88). -/
def compareLog (it : IterOrder (DHandle H)) (hp : Heap (DHandle H)) (o : HandleSet)
    (env : LogEnv O H) (a b : DObj O) : LogM Bool :=
  compareObjsL it hp o env 3 a b

end

/-! ### The handlers registered by default -/

section
variable (P : PyFloat)

/-- Lines logged one after the other. -/
def LogSt.addAll (s : LogSt) (ms : List LogMsg) : LogSt := ms.foldl LogSt.add s

/-- `FieldStructDiff.compare_obj` (nitf_field.py:1040-1066) with its log. -/
def compareObjL (c : DiffConfig P.F) (d1 d2 : Desc) (S1 S2 : Store P.F) : LogM Bool := fun s =>
  match compareObj P c d1 d2 S1 S2 with
  | .error e => .error e
  | .ok (b, log) => .ok (b, s.addAll (log.map .field))

/-- The context of the handler for a class of structures, and whether it is added to the context
there is (nitf_file_header.py:103, nitf_image_subheader.py:427, nitf_graphic_subheader.py:75,
nitf_text_subheader.py:71, nitf_des_subheader.py:72, nitf_res_subheader.py:61,
nitf_des_associated_user_subheader.py:119, nitf_des_ext_def_content.py:111, nitf_des_csatta.py:53,
nitf_des_csattb.py:60, nitf_des_cscsdb.py:353, nitf_des_csephb.py:60, nitf_des_cssfab.py:170);
the last case is nitf_des.py:128, with the tag. -/
def StructCls.ctx (tag : List Char) : StructCls → List Char × Bool
  | .fileHeader => ("NITF File Header".toList, false)
  | .imageSub | .graphicSub | .textSub | .desSub | .resSub => ("Subheader".toList, true)
  | .assocUser => ("DesAssociatedUserSubheader".toList, false)
  | .extHeader => ("DesExtContentHeader".toList, false)
  | .csatta => ("DesCSATTB".toList, false)
  | .csattb => ("DesCSATTB".toList, false)
  | .cscsdb => ("DesCSCSDB".toList, false)
  | .csephb => ("DesCSEPHB".toList, false)
  | .cssfab => ("DesCSSFAB".toList, false)
  | .otherDes => ("DES '".toList ++ tag ++ ['\''], true)

/-- "TRE '%s'" (nitf_tre.py:299). -/
def treCtx (tag : List Char) : List Char := "TRE '".toList ++ tag ++ ['\'']

/-- A comparison that logs one line if it finds a difference. -/
def logIf (same : Bool) (m : LogMsg) : LogM Bool := fun s =>
  if same then .ok (true, s) else .ok (false, s.add m)

/-- `handle_diff` of a handler below its `isinstance` test, as `leafOut`. -/
def leafOutL (cfg : FileDiffConfig P) : LeafHandle → Leaf P → Leaf P → LogM Bool
  -- nitf_des.py:117-129
  | .struct .otherDes, .struct _ t1 d1 S1, .struct _ t2 d2 S2 =>
    if t1 ≠ t2 then fun _ => .error .name
    else withCtx (StructCls.ctx t1 .otherDes).1 (StructCls.ctx t1 .otherDes).2
      (compareObjL P (cfg.des t1) d1 d2 S1 S2)
  -- nitf_des_subheader.py:71-81
  | .struct .desSub, .struct _ t1 d1 S1, .struct _ _ d2 S2 =>
    if desidOverflow P d1 S1 && desidOverflow P d2 S2 then fun s => .ok (true, s)
    else withCtx (StructCls.ctx t1 .desSub).1 (StructCls.ctx t1 .desSub).2
      (compareObjL P (cfg.struct .desSub) d1 d2 S1 S2)
  | .struct c, .struct _ t1 d1 S1, .struct _ _ d2 S2 =>
    withCtx (StructCls.ctx t1 c).1 (StructCls.ctx t1 c).2
      (compareObjL P (cfg.struct c) d1 d2 S1 S2)
  -- nitf_tre.py:290-300
  | .tre, .tre t1 d1 S1, .tre t2 d2 S2 =>
    if t1 ≠ t2 then logIf false (.tags t1 t2)
    else withCtx (treCtx t1) true (compareObjL P (cfg.tre t1) d1 d2 S1 S2)
  | .tre, .tre t1 d1 S1, .treUnknown t2 _ =>
    if t1 ≠ t2 then logIf false (.tags t1 t2)
    else withCtx (treCtx t1) true (compareObjL P (cfg.tre t1) d1 .nil S1 Store.empty)
  | .tre, .treUnknown t1 _, .tre t2 d2 S2 =>
    if t1 ≠ t2 then logIf false (.tags t1 t2)
    else withCtx (treCtx t1) true (compareObjL P (cfg.tre t1) .nil d2 Store.empty S2)
  | .tre, .treUnknown t1 _, .treUnknown t2 _ =>
    if t1 ≠ t2 then logIf false (.tags t1 t2)
    else withCtx (treCtx t1) true (compareObjL P (cfg.tre t1) .nil .nil Store.empty Store.empty)
  -- nitf_tre.py:307-320
  | .treUnknown, .treUnknown t1 b1, .treUnknown t2 b2 =>
    if t1 ≠ t2 then logIf false (.tags t1 t2)
    else if b1 ≠ b2 then
      match utf8Dec b1, utf8Dec b2 with
      | .ok _, .ok _ => logIf false .bytes
      | .error e, _ => fun _ => .error e
      | _, .error e => fun _ => .error e
    else fun s => .ok (true, s)
  -- nitf_text.py:54-62
  | .text, .text s1, .text s2 =>
    withCtx "TextStr".toList true
      (match stringAsStr s1, stringAsStr s2 with
      | .ok a, .ok b => logIf (decide (a = b)) .text
      | .error e, _ => fun _ => .error e
      | _, .error e => fun _ => .error e)
  -- nitf_des_ext_def_content.py:190-208
  | .extDef, .extDef d1, .extDef d2 =>
    withCtx "DesExtDefContent".toList false
      (if cfg.extExclude then fun s => .ok (true, s)
      else if cfg.extWarn then
        fun s => .ok (true, if d1 ≠ d2 then s.add .contentIgnored else s)
      else logIf (decide (d1 = d2)) .content)
  -- nitf_image.py:205-224; simplified: reading `d1.subheader.iid1` for the message does not raise
  | .imageSubset, .image sh1 p1, .image sh2 p2 =>
    if sh1 ≠ sh2 then logIf false .shape else logIf (cfg.allclose p1 p2) .pixels
  -- nitf_image.py:90-97
  | .imagePlaceHolder, .imagePlaceHolder _, .imagePlaceHolder _ =>
    fun s => .ok (true, s.add .skipped)
  -- nitf_segment_data_handle.py:244-251
  | .dataPlaceHolder, .dataPlaceHolder _, .dataPlaceHolder _ =>
    fun s => .ok (true, s.add .skipped)
  | _, _, _ => fun _ => .error .type

/-- `handle_diff` of the handlers of the other modules, as `leafDiff`.  Some set their context before
the `isinstance` test; it is set back when they decline (nitf_file_diff.py:44-51). -/
def leafDiffL (cfg : FileDiffConfig P) (h : LeafHandle) :
    DObj (Leaf P) → DObj (Leaf P) → LogM (Option Bool)
  | .leaf a, .leaf b => fun s =>
    if h.isa a.cls && h.isa b.cls then (leafOutL P cfg h a b s).map fun r => (some r.1, r.2)
    else .ok (none, s)
  | _, _ => fun s => .ok (none, s)

/-- A field of a subheader, as `%s` shows it; `shown` is `str` of a value. -/
def leafField (shown : Val P.F → List Char) (nm : Name) : Leaf P → Except Err (List Char)
  | .struct _ _ d S =>
    match resolve d.tab nm with
    | none => .error .attr
    | some n => (getItem P d.tab S n []).map shown
  | _ => .error .attr

/-- `short_desc` (nitf_segment.py:255-256, 292-294, 318-319, 344-345, 376-377).  The types are
1 "Image", 2 "Graphics", 3 "Text", 4 "Des", 5 "Res". -/
def shortDesc (shown : Val P.F → List Char) (s : DSeg (Leaf P)) : Except Err (List Char) :=
  match s.type with
  | 1 => (leafField P shown (n!"iid1") s.subheader).map ("ImageSegment ".toList ++ ·)
  | 2 =>
    match leafField P shown (n!"sid") s.subheader, leafField P shown (n!"sname") s.subheader with
    | .error e, _ => .error e
    | _, .error e => .error e
    | .ok a, .ok b => .ok ("GraphicSegment ".toList ++ a ++ " \"".toList ++ b ++ ['"'])
  | 3 => (leafField P shown (n!"textid") s.subheader).map ("TextSegment ".toList ++ ·)
  | 4 => (leafField P shown (n!"desid") s.subheader).map ("DesSegment ".toList ++ ·)
  | _ => (leafField P shown (n!"resid") s.subheader).map ("ResSegment ".toList ++ ·)

/-- The environment of a comparison with the default handlers. -/
def defaultLogEnv (cfg : FileDiffConfig P) (skip : List (DObj (Leaf P) → Bool))
    (shown : Val P.F → List Char) : LogEnv (Leaf P) LeafHandle :=
  { skipFns := skip, overflow := leafOverflow P, desc := shortDesc P shown,
    other := leafDiffL P cfg }

end

end Verif
