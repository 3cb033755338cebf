import Verif.Merge

/-
Printing a file: `NitfFile.__str__` and `summary` (nitf_file.py:76-144), `NitfSegment.__str__` and
`summary` (nitf_segment.py:113-147, 353-361), the hooks used there (nitf_segment_hook.py:61-75), and
the program bin/nitf_info.

The texts of headers, TREs and data are parameters (those of records are in `Print.lean`), an object
is given with what `str` and `summary` give.  No shipped class has a `des_implementation_field`, so
the text of data does not depend on `report_raw`.  Printing is taken to have no effect on the objects
(for DES see C61).
-/

namespace Verif
namespace PrintFile

/-- A text. -/
abbrev Text := List Char

/-- The exceptions. -/
inductive Fail where
  /-- AttributeError -/
  | attribute
  /-- UnicodeDecodeError -/
  | decode
  /-- anything raised elsewhere -/
  | other (n : Nat)
  deriving DecidableEq, Repr

/-- What a call gives. -/
abbrev Res (α : Type) := Except Fail α

/-- A header, TRE or data: `str(x)` and `x.summary()`. -/
structure Obj where
  id : Nat
  str : Res Text
  summary : Res Text

/-- A NitfSegmentHook as printing uses it (nitf_segment_hook.py:120-141): what it prints for a
segment, and for a TRE of a segment, with the value returned. -/
structure Hook where
  removed : Bool
  before : Nat → Res Text
  tre : Nat → Nat → Res (Text × Bool)

/-- The file object a segment belongs to: `report_raw`, `none` if there is no such attribute, and
`segment_hook_set` in the order of iteration. -/
structure Owner where
  raw : Option Bool
  hooks : List Hook

/-- The file objects. -/
abbrev Env := Nat → Owner

/-- A NitfSegment; `owner` is what `nitf_file` refers to. -/
structure Seg where
  id : Nat
  kind : SegKind
  desid : Text
  sub : Obj
  user : Option Obj
  tres : List Obj
  data : Obj
  owner : Option Nat

/-- A NitfFile. -/
structure PFile where
  header : Obj
  tres : List Obj
  segs : SegKind → List Seg

/-- One thing printed after the other. -/
def cat (a b : Res Text) : Res Text :=
  match a with
  | .error e => .error e
  | .ok x =>
    match b with
    | .error e => .error e
    | .ok y => .ok (x ++ y)

/-- A text printed as it is. -/
def say (s : String) : Res Text := .ok s.toList

/-- `print(x)`: the text and the end of the line. -/
def println (a : Res Text) : Res Text := cat a (say "\n")

/-- `_type_support_tre` (nitf_segment.py:248, 286, 309, 331, 367). -/
def supports : SegKind → Bool
  | .image => true
  | .graphic => true
  | .text => true
  | .des => false
  | .res => false

/-- `NitfSegmentHookSet.before_str_hook` (nitf_segment_hook.py:61-65). -/
def beforeStr (raw : Option Bool) (s : Nat) : List Hook → Res Text
  | [] => .ok []
  | h :: r =>
    match raw with
    | none => .error .attribute
    | some b =>
      if b && h.removed then beforeStr raw s r
      else cat (h.before s) (beforeStr raw s r)

/-- `NitfSegmentHookSet.before_str_tre_hook` (nitf_segment_hook.py:67-75); `res` is the value of the
variable. -/
def beforeTre (raw : Option Bool) (s t : Nat) : List Hook → Bool → Res (Text × Bool)
  | [], res => .ok ([], res)
  | h :: r, res =>
    match raw with
    | none => .error .attribute
    | some b =>
      if b && h.removed then beforeTre raw s t r res
      else if res then beforeTre raw s t r true
      else
        match h.tre s t with
        | .error e => .error e
        | .ok (x, took) =>
          match beforeTre raw s t r took with
          | .error e => .error e
          | .ok (y, res') => .ok (x ++ y, res')

/-- A TRE of a segment (nitf_segment.py:130-132). -/
def treStr (o : Owner) (s : Nat) (t : Obj) : Res Text :=
  match beforeTre o.raw s t.id o.hooks false with
  | .error e => .error e
  | .ok (x, true) => .ok x
  | .ok (x, false) => cat (.ok x) (println t.str)

/-- The TREs of a segment (nitf_segment.py:129-132). -/
def tresStr (o : Owner) (s : Nat) : List Obj → Res Text
  | [] => .ok []
  | t :: r => cat (treStr o s t) (tresStr o s r)

/-- The part of `__str__` about TREs (nitf_segment.py:124-132); `self.nitf_file.segment_hook_set`
when `nitf_file` is None is an AttributeError. -/
def treSection (env : Env) (s : Seg) : Res Text :=
  if supports s.kind then
    cat (say "TREs:\n")
      (match s.tres with
      | [] => say "No segment level TREs\n"
      | t :: r =>
        match s.owner with
        | none => .error .attribute
        | some o => tresStr (env o) s.id (t :: r))
  else .ok []

/-- The user subheader (nitf_segment.py:121-123); an object, if there is one, is true. -/
def userSection (s : Seg) : Res Text :=
  match s.user with
  | none => .ok []
  | some u => cat (say "User-Defined Subheader: \n") (println u.str)

/-- `NitfSegment.__str__` (nitf_segment.py:113-135) and that of DES (nitf_segment.py:353-361). -/
def segStr (env : Env) (s : Seg) : Res Text :=
  if s.kind = .des ∧ s.desid = "TRE_OVERFLOW".toList then say "TRE_OVERFLOW\n"
  else
    cat (match s.owner with
        | none => .ok []
        | some o => beforeStr (env o).raw s.id (env o).hooks)
      (cat (say "Sub header:\n") (cat (println s.sub.str) (cat (userSection s)
        (cat (treSection env s) (cat (say "Data\n") (println s.data.str))))))

/-- Summaries of TREs, printed with `end=''` (nitf_segment.py:142-143, nitf_file.py:123-124). -/
def treSummaries : List Obj → Res Text
  | [] => .ok []
  | t :: r => cat t.summary (treSummaries r)

/-- `NitfSegment.summary` (nitf_segment.py:137-147). -/
def segSummary (s : Seg) : Res Text :=
  cat s.sub.summary
    (match s.tres with
    | [] => say "No Segment level TRES\n"
    | t :: r => cat (say "Segment level TRES:\n") (treSummaries (t :: r)))

/-- The line between parts. -/
def rule : String := "-------------------------------------------------------------\n"

/-- The list of segments with their names (nitf_file.py:92-96, 127-131). -/
def kinds : List (SegKind × String) :=
  [(.image, "Image"), (.graphic, "Graphic"), (.text, "Text"), (.des, "Data Extension"),
    (.res, "Reserved Extension")]

/-- The segments of one kind, from number `i` on, of `n` (nitf_file.py:102-107, 137-142). -/
def segLoop (show' : Seg → Res Text) (name : String) (n : Nat) : Nat → List Seg → Res Text
  | _, [] => .ok []
  | i, s :: r =>
    cat (.ok (name.toList ++ " segment ".toList ++ decStr (i + 1) ++ " of ".toList ++ decStr n ++
        "\n".toList))
      (cat (show' s) (cat (say rule) (segLoop show' name n (i + 1) r)))

/-- The part about one kind (nitf_file.py:97-107, 132-142). -/
def kindPart (show' : Seg → Res Text) (name : String) (l : List Seg) : Res Text :=
  cat (if l.length = 0 then say ("No " ++ name ++ " segments\n") else say rule)
    (segLoop show' name l.length 0 l)

/-- The parts about all kinds (nitf_file.py:92-107, 127-142). -/
def kindParts (show' : Seg → Res Text) (segs : SegKind → List Seg) :
    List (SegKind × String) → Res Text
  | [] => .ok []
  | (k, name) :: r => cat (kindPart show' name (segs k)) (kindParts show' segs r)

/-- `for t in self.tre_list: print(t)` (nitf_file.py:88-89). -/
def treLines : List Obj → Res Text
  | [] => .ok []
  | t :: r => cat (println t.str) (treLines r)

/-- `NitfFile.__str__` (nitf_file.py:76-108). -/
def fileStr (env : Env) (f : PFile) : Res Text :=
  cat (say rule) (cat (say "File Header:\n") (cat (println f.header.str) (cat (say rule)
    (cat (if f.tres.length = 0 then say "No file level TREs\n"
        else cat (say "File level TRES:\n") (cat (treLines f.tres) (say rule)))
      (kindParts (segStr env) f.segs kinds)))))

/-- `NitfFile.summary` (nitf_file.py:110-143). -/
def fileSummary (f : PFile) : Res Text :=
  cat (say "NITF File Summary\n") (cat (say rule) (cat (say "File Header:\n") (cat f.header.summary
    (cat (say rule)
      (cat (if f.tres.length = 0 then say "No file level TREs\n"
          else cat (say "File level TRES:\n") (cat (treSummaries f.tres) (say rule)))
        (kindParts segSummary f.segs kinds))))))

/-! ### Particular objects -/

/-- What a text segment holds: a str, or bytes. -/
inductive TextData where
  | str (t : Text)
  | bytes (b : Bytes)

/-- `NitfTextStr.__str__` (nitf_text.py:17-26); `utf8` is `bytes.decode('utf-8')`, `none` if it
raises. -/
def textStr (utf8 : Bytes → Option Text) : TextData → Res Text
  | .str t => .ok ("NitfTextStr:\n".toList ++ t)
  | .bytes b =>
    match utf8 b with
    | none => .error .decode
    | some t => .ok ("NitfTextStr:\n".toList ++ t)

/-- `NitfFileHeader.summary` (nitf_file_header.py:90-95). -/
def headerSummary (fhdr fver ftitle : Text) (numi nums numt numdes : Nat) : Text :=
  fhdr ++ " ".toList ++ fver ++ " ".toList ++ ftitle ++ " MD5: \n".toList ++
    decStr numi ++ " Image Segments, ".toList ++ decStr nums ++ " Graphic Segments, ".toList ++
    decStr numt ++ " Text Segments, ".toList ++ decStr numdes ++ " DESs\n".toList

/-! ### The program -/

/-- The arguments of nitf_info (bin/nitf_info:9-49). -/
structure Args where
  input : Text
  json : Option Text := none
  summary : Bool := false
  reportRaw : Bool := false

/-- What the program works with: `NitfFile(f)`, whose segments belong to file object 0;
`NitfFileJson(j)` once it has been merged with the file, whose segments belong to file object 1;
the default hooks. -/
structure World where
  read : Text → Res PFile
  delta : Text → PFile → Res (MFile Obj Seg Obj)
  hooks : List Hook

/-- A file as `NitfFileMerge` sees it. -/
def PFile.parts (f : PFile) : MFile Obj Seg Obj :=
  { header := some f.header, segs := fun k => some (f.segs k), tre := some f.tres }

/-- `NitfFileMerge([delta, f])` (nitf_file_merge.py:31-78). -/
def merged (d : MFile Obj Seg Obj) (f : PFile) : PFile :=
  { header := (mergeHeader [d, f.parts]).getD f.header
    tres := mergeTre [d, f.parts]
    segs := mergeSegs [d, f.parts] }

/-- The file objects of a run; 0 is the NitfFile, 1 the NitfFileMerge. -/
def objects (hooks : List Hook) (raw0 : Bool) (raw1 : Option Bool) : Env := fun n =>
  if n = 0 then { raw := some raw0, hooks := hooks } else { raw := raw1, hooks := hooks }

/-- What is printed (bin/nitf_info:75-84).  `f.report_raw = args.report_raw` sets the attribute of
the merged file, if there is one. -/
def nitfInfo (w : World) (a : Args) : Res Text :=
  match w.read a.input with
  | .error e => .error e
  | .ok f =>
    match a.json with
    | none =>
      println (if a.summary then fileSummary f else fileStr (objects w.hooks a.reportRaw none) f)
    | some j =>
      match w.delta j f with
      | .error e => .error e
      | .ok d =>
        println (if a.summary then fileSummary (merged d f)
          else fileStr (objects w.hooks false (some a.reportRaw)) (merged d f))

end PrintFile
end Verif
