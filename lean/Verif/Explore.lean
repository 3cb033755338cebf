import Verif.Py

/-
Model of `/repo/bin/explore_nitf`: the commands of the interactive program.  Files, segments and TREs are
given by what the program asks of them.  Not modelled: reading the words of a line (`shlex.split`), what
`matplotlib` draws.
-/

namespace Verif
namespace Explore

/-- Exceptions; `other` is one from printing, reading or writing an object. -/
inductive Exc where
  | index | value | key | attribute
  | other (e : Nat)
  deriving DecidableEq, Repr

/-- A TRE: `cetag_value()` and `str`. -/
structure TreObj where
  tag : Str
  str : Except Exc Str

/-- The data of an image as read by `NitfImageReadNumpy`, after `squeeze()`: type and shape. -/
structure Pic where
  dtype : Nat
  shape : List Nat
  deriving DecidableEq

/-- A segment: the attribute shown in lists (`iid1`, `txtitl`, `desid`), `str`, the TREs, what `data`
writes, and the picture, `none` for other readers. -/
structure SegObj where
  label : Str
  str : Except Exc Str
  tres : List TreObj
  data : Except Exc Bytes
  pic : Option Pic

/-- A file; a `NitfFileMerge` has the lists of segments as properties, not as instance variables
(nitf_file_merge.py:38-71). -/
structure FileObj where
  merged : Bool
  str : Except Exc Str
  tres : List TreObj
  image : List SegObj
  graphic : List SegObj
  text : List SegObj
  des : List SegObj
  res : List SegObj

/-- What the user sees. -/
inductive Event where
  /-- the help text -/
  | help
  /-- one `print` -/
  | line (t : Str)
  /-- `pydoc.pager` -/
  | page (t : Str)
  /-- `print(files)`: aliases and paths -/
  | files (l : List (Str × Str))
  | plot (index : Int)
  | plotDiff (index1 index2 : Int)
  /-- a file written -/
  | saved (path : Str) (b : Bytes)

/-- Output, and how it ended. -/
structure Out where
  shown : List Event
  exc : Option Exc

def Out.nil : Out := ⟨[], none⟩

def say (t : Str) : Out := ⟨[.line t], none⟩

def raise (e : Exc) : Out := ⟨[], some e⟩

/-- One after the other; nothing happens after an exception. -/
def Out.andThen (a : Out) (b : Out) : Out :=
  match a.exc with
  | some _ => a
  | none => ⟨a.shown ++ b.shown, b.exc⟩

/-- `for x in l: f(x)`. -/
def forEach {α : Type} (f : α → Out) : List α → Out
  | [] => .nil
  | x :: r => (f x).andThen (forEach f r)

/-- `l[i]`, counting from the end for negative numbers. -/
def pyIndex {α : Type} (l : List α) (i : Int) : Option α :=
  if 0 ≤ i then l[i.toNat]? else if -(l.length : Int) ≤ i then l[(l.length + i).toNat]? else none

/-- `print(x)` of an object. -/
def printObj : Except Exc Str → Out
  | .ok t => say t
  | .error e => raise e

/-- `"%d: %s" % (a, t)`. -/
def numbered (a : Nat) (t : Str) : Str := decStr a ++ ": ".toList ++ t

/-- `listTRESegment`, `listTREFile` (explore_nitf:73-84): the TREs with their index, and if `p` each in
full; every segment has a `tre_list` (nitf_segment.py:43-46). -/
def listTres (ts : List TreObj) (p : Bool) : Out :=
  forEach (fun x => (say (numbered x.2 x.1.tag)).andThen (if p then printObj x.1.str else .nil)) ts.zipIdx

/-- `listImageSegments`, `listTextSegments`, `listDESSegments` (explore_nitf:86-96). -/
def listSegs (ss : List SegObj) : Out :=
  forEach (fun x => say (numbered x.2 x.1.label)) ss.zipIdx

/-- `"… 0 - %d" % (n - 1)`. -/
def upTo (s : String) (n : Nat) : Out := say (s.toList ++ intStr ((n : Int) - 1))

/-- `processTRE` (explore_nitf:98-128). -/
def processTre (f : FileObj) (param : List Str) (p : Bool) : Out :=
  match param with
  | [] =>
    (listTres f.tres false).andThen
      (forEach (fun s => listTres s.tres p) (f.image ++ f.graphic ++ f.text ++ f.des ++ f.res))
  | w :: r =>
    if w = "file".toList then listTres f.tres p
    else if w = "image".toList then
      match r with
      | [] => forEach (fun s => listTres s.tres p) f.image
      | ix :: r' =>
        match pyIntS ix with
        | .error _ => raise .value
        | .ok index =>
          if index < f.image.length then
            match r' with
            | [tx] =>
              match pyIntS tx with
              | .error _ => raise .value
              | .ok tre =>
                match pyIndex f.image index with
                | none => raise .index
                | some s =>
                  if tre < s.tres.length then
                    match pyIndex s.tres tre with
                    | none => raise .index
                    | some t => printObj t.str
                  else upTo "Select TRE Index 0 - " s.tres.length
            | _ =>
              match pyIndex f.image index with
              | none => raise .index
              | some s => listTres s.tres p
          else upTo "Select Image Segment Index 0 - " f.image.length
    else .nil

/-- The condition of `is_displayable_image` (explore_nitf:133-141). -/
def displayable : Option Pic → Bool
  | none => false
  | some q => q.shape.length == 2 || (q.shape.length == 3 && q.shape[2]? == some 3)

/-- `display_image` (explore_nitf:171-182). -/
def displayImage (f : FileObj) (index : Int) : Out :=
  if index < f.image.length then
    match pyIndex f.image index with
    | none => raise .index
    | some s => if displayable s.pic then ⟨[.plot index], none⟩ else say "Cannot display image".toList
  else say ("Invalid image segment index ".toList ++ intStr index ++ ".  Select index in range 0-".toList ++
    intStr ((f.image.length : Int) - 1))

/-- `display_diff` (explore_nitf:149-169).  Simplified: the lines with the types and shapes of the two
images are not shown. -/
def displayDiff (f : FileObj) (i j : Int) : Out :=
  match pyIndex f.image i with
  | none => raise .index
  | some a =>
    match pyIndex f.image j with
    | none => raise .index
    | some b =>
      if displayable a.pic && displayable b.pic && a.pic == b.pic then ⟨[.plotDiff i j], none⟩
      else say "image pair not compatible for diff operation".toList

/-- `print image`, `print text`, `print des` (explore_nitf:244-256): `vars(f)` has no lists of segments if
the file is merged. -/
def printSegs (f : FileObj) (tar : String) (segs : List SegObj) (param : List Str) : Out :=
  if f.merged then raise .key
  else
    match param with
    | [] =>
      match segs.mapM (·.str) with
      | .error e => raise e
      | .ok ts => ⟨[.page ts.flatten], none⟩
    | ix :: _ =>
      match pyIntS ix with
      | .error _ => raise .value
      | .ok index =>
        if index < segs.length then
          match pyIndex segs index with
          | none => raise .index
          | some s =>
            match s.str with
            | .error e => raise e
            | .ok t => ⟨[.page t], none⟩
        else upTo ("Select " ++ tar ++ " Segments 0 - ") segs.length

/-- The loaded files, by alias; the last one loaded under an alias counts. -/
abbrev Files := List (Str × Str × FileObj)

def Files.get (fs : Files) (alias : Str) : Option (Str × FileObj) := (fs.find? (·.1 == alias)).map (·.2)

/-- `load_nitf` (explore_nitf:69-70). -/
def Files.put (fs : Files) (alias path : Str) (f : FileObj) : Files :=
  if fs.any (·.1 == alias) then fs.map fun x => if x.1 == alias then (alias, path, f) else x
  else fs ++ [(alias, path, f)]

/-- What is outside: reading a file, merging one with a delta, and the path the user gives for a DES to be
saved. -/
structure World where
  load : Str → Except Exc FileObj
  merge : Str → FileObj → Except Exc FileObj
  input : Str

/-- `load` (explore_nitf:190-199). -/
def cmdLoad (w : World) (fs : Files) (args : List Str) : Files × Out :=
  match args with
  | alias :: path :: r =>
    match w.load path with
    | .error e => (fs, raise e)
    | .ok f =>
      match r with
      | [] => (fs.put alias path f, .nil)
      | j :: _ =>
        match w.merge j f with
        | .error e => (fs, raise e)
        | .ok g => (fs.put alias (path ++ " + ".toList ++ j) g, .nil)
  | _ => (fs, say "load alias path_to_nitf [nitf_diff_json]".toList)

/-- `list` (explore_nitf:201-229). -/
def cmdList (fs : Files) (f : FileObj) (args : List Str) : Out :=
  match args with
  | [] => say "seg image text des tre".toList
  | tar :: param =>
    if tar = "files".toList then ⟨[.files (fs.map fun x => (x.1, x.2.1))], none⟩
    else if tar = "seg".toList then
      (say "Image Segments:".toList).andThen ((listSegs f.image).andThen
        ((say "Text Segments:".toList).andThen ((listSegs f.text).andThen
          ((say "DESs:".toList).andThen (listSegs f.des)))))
    else if tar = "image".toList then listSegs f.image
    else if tar = "text".toList then listSegs f.text
    else if tar = "des".toList then listSegs f.des
    else if tar = "tre".toList then processTre f param false
    else .nil

/-- `print` (explore_nitf:235-258): the first argument is taken before it is asked whether there is one. -/
def cmdPrint (f : FileObj) (args : List Str) : Out :=
  match args with
  | [] => raise .index
  | tar :: param =>
    if tar = "file".toList then
      match f.str with
      | .error e => raise e
      | .ok t => ⟨[.page t], none⟩
    else if tar = "image".toList then printSegs f "image" f.image param
    else if tar = "text".toList then printSegs f "text" f.text param
    else if tar = "des".toList then printSegs f "des" f.des param
    else if tar = "tre".toList then processTre f param true
    else .nil

/-- `save_des` (explore_nitf:259-274); the file is made before the segment is looked up.  Simplified: what
a segment that raises has written up to then is not kept. -/
def cmdSaveDes (w : World) (f : FileObj) (args : List Str) : Out :=
  match args with
  | [] => upTo "Select DES Segments 0-" f.des.length
  | ix :: _ =>
    match pyIntS ix with
    | .error _ => raise .value
    | .ok index =>
      if index < f.des.length then
        (say "Select path to file:".toList).andThen
          (match pyIndex f.des index with
          | none => ⟨[.saved w.input []], some .index⟩
          | some s =>
            match s.data with
            | .error e => ⟨[.saved w.input []], some e⟩
            | .ok b => ⟨[.saved w.input b], none⟩)
      else upTo "Select DES Segments 0-" f.des.length

/-- `image` (explore_nitf:280-291). -/
def cmdImage (f : FileObj) (args : List Str) : Out :=
  match args with
  | [] => (say "Specify sub command and image index".toList).andThen (raise .index)
  | [_] => raise .index
  | sub :: ix :: r =>
    match pyIntS ix with
    | .error _ => raise .value
    | .ok index =>
      if sub = "display".toList then displayImage f index
      else if sub = "diff".toList then
        match r with
        | [] => raise .index
        | jx :: _ =>
          match pyIntS jx with
          | .error _ => raise .value
          | .ok index2 =>
            -- the message refers to `f.image_segments`, which does not exist
            if index2 ≥ f.image.length then raise .attribute else displayDiff f index index2
      else .nil

/-- `processCommand` (explore_nitf:184-293) of a line with words; every command is for the file with the
alias `default`. -/
def process (w : World) (fs : Files) (words : List Str) : Files × Out :=
  match words with
  | [] => (fs, raise .index)
  | cmd :: args =>
    match fs.get "default".toList with
    | none => (fs, raise .key)
    | some (_, f) =>
      if cmd = "help".toList then (fs, ⟨[.help], none⟩)
      else if cmd = "load".toList then cmdLoad w fs args
      else if cmd = "list".toList then (fs, cmdList fs f args)
      else if cmd = "summary".toList then (fs, say "Summary functionality not yet implemented".toList)
      else if cmd = "print".toList then (fs, cmdPrint f args)
      else if cmd = "save_des".toList then (fs, cmdSaveDes w f args)
      else if cmd = "data".toList then (fs, say "Data functionality not yet implemented".toList)
      else if cmd = "image".toList then (fs, cmdImage f args)
      else (fs, say ("Unknown command: ".toList ++ cmd))

/-- The interactive loop (explore_nitf:356-365), until `exit`, the end of the lines or an exception: the
output of each line. -/
def session (w : World) : Files → List (List Str) → List Out
  | _, [] => []
  | fs, [] :: r => Out.nil :: session w fs r
  | fs, (cmd :: args) :: r =>
    if cmd = "exit".toList then []
    else
      match process w fs (cmd :: args) with
      | (fs', o) =>
        match o.exc with
        | some _ => [o]
        | none => o :: session w fs' r

/-! ### Completion of words -/

/-- `a < b` for `str`: the first characters that differ, or one is a beginning of the other. -/
def strLt : Str → Str → Bool
  | _, [] => false
  | [], _ :: _ => true
  | a :: r, b :: q => if a < b then true else if b < a then false else strLt r q

/-- Put a word before the first one that is not less. -/
def insertWord (w : Str) : List Str → List Str
  | [] => [w]
  | x :: r => if strLt x w then x :: insertWord w r else w :: x :: r

/-- `sorted` of words (explore_nitf:299). -/
def sortWords : List Str → List Str
  | [] => []
  | w :: r => insertWord w (sortWords r)

/-- `SimpleCompleter.complete(text, state)` (explore_nitf:302-323) for `state ≥ 0`, as readline calls it:
the matches kept afterwards and the answer, `none` for None.  Before a first call with 0 the object has no
matches and the attribute is missing. -/
def complete (options : List Str) (matches? : Option (List Str)) (text : Str) (state : Nat) :
    Option (List Str) × Except Exc (Option Str) :=
  let m := if state == 0 then
      some (if text.isEmpty then options else options.filter fun s => !s.isEmpty && text.isPrefixOf s)
    else matches?
  (m, match m with
    | none => .error .attribute
    | some l => .ok l[state]?)

/-- The words offered (explore_nitf:331-335). -/
def offered : List Str :=
  (["load", "alias", "path_to_nitf", "save_des", "list", "summary", "print", "data", "save_des", "image",
    "seg", "des", "tre", "file", "text", "display", "diff"] : List String).map (·.toList)

/-- readline: `complete(text, 0)`, `complete(text, 1)`, … until the answer is None or an exception, at most
`n` times. -/
def ask (options : List Str) (text : Str) : Nat → Nat → Option (List Str) → List Str
  | 0, _, _ => []
  | n + 1, k, m =>
    match complete options m text k with
    | (m', .ok (some w)) => w :: ask options text n (k + 1) m'
    | _ => []

end Explore
end Verif
