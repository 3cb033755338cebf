import Verif.Py

/-
The program `nitf_diff`: bin/nitf_diff, with the formatter of nitf_diff_handle.py and
`NitfDiff.update_config` of nitf_file_diff.py.

What the program works with (reading JSON, opening files, the comparison itself) is a parameter,
`World`.  Not modelled: `NITF_PLUGIN`, `--config-file-python`, `--help` and `--version`, and the text
of a traceback.  The logger has no handlers but those the program adds.
-/

namespace Verif
namespace DiffProg

/-- A text. -/
abbrev Text := List Char

/-- What `json.load` gives (only its top level matters). -/
inductive Json where
  | obj (items : List (Text × Text))
  | other
  deriving DecidableEq, Repr

/-- The exceptions that end the program. -/
inductive Fail where
  /-- `NameError: name 'collections' is not defined` -/
  | name
  /-- `.items()` of something that is not a dict -/
  | attribute
  /-- a file cannot be opened or read -/
  | io
  /-- anything raised by the comparison -/
  | compare
  deriving DecidableEq, Repr

/-- The arguments (bin/nitf_diff:12-78). -/
structure Args where
  file1 : Text
  file2 : Text
  jsonDelta : Option Text := none
  configJson : Option Text := none
  treWarningAsError : Bool := false
  debug : Bool := false
  verbose : Bool := false
  quiet : Bool := false
  noColor : Bool := false
  logFile : Option Text := none
  logFileOnly : Option Text := none
  deriving DecidableEq, Repr

/-- What is logged: a `logging.LogRecord`; `ctx` is there when the filter is attached
(nitf_diff_handle.py:89-97). -/
structure Record where
  level : Nat
  name : Text
  ctx : Option Text
  msg : Text
  deriving DecidableEq, Repr

/-- What the program works with: `json.load(open(f))`, whether a log can be opened,
`os.path.abspath`, and `NitfDiff.compare` with a configuration `C`: what is logged and the result. -/
structure World (C : Type) where
  config0 : C
  json : Text → Except Fail Json
  opens : Text → Bool
  abspath : Text → Text
  compare : C → Bool → Text → Text → Option Text → List Record × Except Fail Bool

/-- A `logging.Handler` with its formatter: the level, and whether to add color. -/
structure Handler where
  level : Nat
  color : Bool
  deriving DecidableEq, Repr

/-- What can be seen of a run: lines printed, lines written to the screen by the logger (stderr),
the log file with the lines added to it, the exception that ended the program (its traceback is
not among the lines), and the exit status. -/
structure Outcome where
  stdout : List Text := []
  stderr : List Text := []
  log : Option (Text × List Text) := none
  raised : Option Fail := none
  status : Nat
  deriving DecidableEq, Repr

/-- A value used as a condition: None and the empty string are False. -/
def given : Option Text → Option Text
  | some [] => none
  | o => o

/-- DIFFERENCE_FOUND (nitf_diff_handle.py:24). -/
def levelFound : Nat := 39
/-- DIFFERENCE_FOUND_BUT_IGNORED (nitf_diff_handle.py:25). -/
def levelIgnored : Nat := 38
/-- DIFFERENCE_DETAIL (nitf_diff_handle.py:27). -/
def levelDetail : Nat := 21
/-- logging.ERROR -/
def levelError : Nat := 40
/-- logging.WARNING -/
def levelWarning : Nat := 30
/-- logging.INFO -/
def levelInfo : Nat := 20
/-- logging.DEBUG -/
def levelDebug : Nat := 10

/-- The ANSI sequence with a code (nitf_diff_handle.py:35-42). -/
def ansi (code : String) : Text := '\x1b' :: '[' :: code.toList ++ ['m']

/-- `DifferenceFormatter.color_text` (nitf_diff_handle.py:33-55). -/
def colorText (addColor : Bool) (text : Text) (level : Nat) : Text :=
  if !addColor then text
  else if level = levelFound then ansi "91" ++ text ++ ansi "0"
  else if level = levelIgnored then ansi "92" ++ text ++ ansi "0"
  else if level = levelDetail then ansi "94" ++ text ++ ansi "0"
  else if level = levelWarning then ansi "93" ++ text ++ ansi "0"
  else if level = levelError then ansi "91" ++ text ++ ansi "0"
  else text

/-- The context at the start of a line (nitf_diff_handle.py:57-60). -/
def ctxText (r : Record) : Text :=
  match r.ctx with
  | some c => c ++ ": ".toList
  | none => []

/-- `DifferenceFormatter.format` (nitf_diff_handle.py:56-76). -/
def format (addColor : Bool) (r : Record) : Text :=
  if r.level = levelFound then
    colorText addColor (ctxText r ++ "Difference found: ".toList) levelFound ++ r.msg
  else if r.level = levelIgnored then
    colorText addColor (ctxText r ++ "Difference found, but ignored: ".toList) levelIgnored ++ r.msg ++
      " (not considering files different)".toList
  else if r.level = levelDetail then
    colorText addColor ("      - ".toList ++ r.msg) levelDetail
  else colorText addColor (r.name ++ ": ".toList) r.level ++ r.msg

/-- `NitfDiff._update_dict`, `update_config` (nitf_file_diff.py:53-66).  `collections` is not
imported by nitf_file_diff.py (nitf_file_diff.py:1-8), so the first item raises. -/
def updateConfig {C : Type} (c : C) : Json → Except Fail C
  | .obj [] => .ok c
  | .obj (_ :: _) => .error .name
  | .other => .error .attribute

/-- The configuration of the comparison (bin/nitf_diff:95-99). -/
def configure {C : Type} (w : World C) (a : Args) : Except Fail C :=
  match given a.configJson with
  | none => .ok w.config0
  | some f =>
    match w.json f with
    | .error e => .error e
    | .ok j => updateConfig w.config0 j

/-- `args.log_file_only or args.log_file` (bin/nitf_diff:109-110). -/
def logName (a : Args) : Option Text :=
  match given a.logFileOnly with
  | some f => some f
  | none => given a.logFile

/-- The level of the logger, and of the handler of the screen (bin/nitf_diff:120-135). -/
def screenLevel (a : Args) : Nat :=
  if a.debug then levelDebug
  else if a.verbose then levelInfo
  else if a.quiet then 1000
  else levelWarning

/-- `fh` (bin/nitf_diff:108-113). -/
def fileHandler (a : Args) : Option Handler := (logName a).map fun _ => ⟨levelInfo, false⟩

/-- `h` (bin/nitf_diff:115-135). -/
def screenHandler (a : Args) : Option Handler :=
  match given a.logFileOnly with
  | some _ => none
  | none => some ⟨screenLevel a, !a.noColor⟩

/-- What a handler writes of what is logged: the logger passes on records of at least its level,
the handler writes those of at least its own (logging.Logger.log, callHandlers). -/
def emitted (loggerLevel : Nat) (h : Option Handler) (rs : List Record) : List Text :=
  match h with
  | none => []
  | some h =>
    ((rs.filter fun r => decide (loggerLevel ≤ r.level)).filter
      fun r => decide (h.level ≤ r.level)).map (format h.color)

/-- The lines at the start of the log file (bin/nitf_diff:137-141). -/
def header {C : Type} (w : World C) (a : Args) : List Text :=
  ["Comparing file 1: ".toList ++ w.abspath a.file1,
   "Comparing file 2: ".toList ++ w.abspath a.file2] ++
  match given a.jsonDelta with
  | some j => ["JSON delta file: ".toList ++ w.abspath j]
  | none => []

/-- The program once everything is set up (bin/nitf_diff:143-155); `fh` and `h` are the handlers,
`fileLines` what is in the log file so far. -/
def finish (a : Args) (fh h : Option Handler) (fileLines : List Text)
    (result : List Record × Except Fail Bool) : Outcome :=
  let screen := emitted (screenLevel a) h result.1
  let file := fileLines ++ emitted (screenLevel a) fh result.1
  let log (more : List Text) := (logName a).map fun f => (f, file ++ more)
  match result.2 with
  | .error e => { stderr := screen, log := log [], raised := some e, status := 1 }
  | .ok false =>
    { stdout := if !a.quiet then
        [colorText (!a.noColor) "Files are different".toList levelError] else []
      stderr := screen
      log := log ["Files are different".toList]
      status := 1 }
  | .ok true =>
    { stdout := if !a.quiet then
        [colorText (!a.noColor) "Files are the same".toList levelDetail] else []
      stderr := screen
      log := log (if !a.quiet then ["Files are the same".toList] else [])
      status := 0 }

/-- bin/nitf_diff:78-155; an exception that is not caught makes the exit status 1. -/
def nitfDiff {C : Type} (w : World C) (a : Args) : Outcome :=
  match configure w a with
  | .error e => { raised := some e, status := 1 }
  | .ok c =>
    match logName a with
    | some f =>
      if !w.opens f then { raised := some .io, status := 1 }
      else finish a (fileHandler a) (screenHandler a) (header w a)
        (w.compare c a.treWarningAsError a.file1 a.file2 (given a.jsonDelta))
    | none => finish a (fileHandler a) (screenHandler a) []
        (w.compare c a.treWarningAsError a.file1 a.file2 (given a.jsonDelta))

end DiffProg
end Verif
