import Verif.Handle

/-
The default sets of handlers and hooks, and the sets made from them: priority_handle_set.py:50-67,
nitf_segment_hook.py:77-94, nitf_file.py:59-61, nitf_file_merge.py:20, nitf_file_diff.py:24.

The content of a set is a list of handlers with priorities without duplicates; that
`PriorityHandleSet` behaves like such a set, with `copy.copy` giving an independent one, is C31.  A
`NitfSegmentHookSet` is the same with a single priority.
-/

namespace Verif
namespace Defaults

/-- A handler object.  Handlers are compared by identity: `copies` are the numbers of the
`copy.deepcopy` calls the object came out of, `id` says what it does.  Handlers given to
`copy.deepcopy` are instances, as all those the package registers for comparisons are (a class would
not be copied). -/
structure HObj where
  id : Nat
  copies : List Nat := []
  deriving DecidableEq, Repr

/-- The content of a set. -/
abbrev Content := List (HObj × Int)

/-- A class of handler sets. -/
abbrev Cls := Nat

/-- The default sets, by the class that has the attribute `_default_handle_set` itself
(priority_handle_set.py:53-54, nitf_segment_hook.py:80-81), the sets made from them, and how often
`copy.deepcopy` has been called. -/
structure State where
  defs : Cls → Option Content := fun _ => none
  own : List Content := []
  deep : Nat := 0

/-- `add_handle`, `add_hook` (priority_handle_set.py:35-38, nitf_segment_hook.py:35-36). -/
def insert (x : HObj × Int) (c : Content) : Content := if x ∈ c then c else c ++ [x]

/-- `discard_handle`, `discard_hook` (priority_handle_set.py:40-44, nitf_segment_hook.py:38-39). -/
def remove (h : HObj) (c : Content) : Content := c.filter fun x => decide (x.1 ≠ h)

/-- The class whose default set `cls.default_handle_set()` gives: `hasattr` and the attribute are
looked up in the class and those it derives from, in the order `mro`; if none has it, the class
itself gets it (priority_handle_set.py:50-55, nitf_segment_hook.py:77-82). -/
def owner (mro : Cls → List Cls) (s : State) (c : Cls) : Cls :=
  ((mro c).find? fun d => (s.defs d).isSome).getD c

/-- `cls.default_handle_set()`: the set is created if it is missing
(priority_handle_set.py:50-55, nitf_segment_hook.py:77-82). -/
def ensure (mro : Cls → List Cls) (s : State) (c : Cls) : State × Content :=
  let o := owner mro s c
  match s.defs o with
  | some l => (s, l)
  | none => ({ s with defs := fun d => if d = o then some [] else s.defs d }, [])

/-- Changing the set that `cls.default_handle_set()` gives (priority_handle_set.py:57-67,
nitf_segment_hook.py:84-94). -/
def onDefault (mro : Cls → List Cls) (s : State) (c : Cls) (f : Content → Content) : State :=
  let (s', l) := ensure mro s c
  let o := owner mro s c
  { s' with defs := fun d => if d = o then some (f l) else s'.defs d }

/-- `copy.deepcopy` of a set: its handlers are copied too, so they are new objects. -/
def deepCopy (k : Nat) (l : Content) : Content :=
  l.map fun x => ({ x.1 with copies := k :: x.1.copies }, x.2)

/-- What a program can do. -/
inductive Op where
  /-- `cls.default_handle_set()` -/
  | default (c : Cls)
  /-- `cls.add_default_handle(h, p)`, `cls.add_default_hook(h)` -/
  | addDefault (c : Cls) (h : HObj) (p : Int)
  /-- `cls.discard_default_handle(h)`, `cls.discard_default_hook(h)` -/
  | discardDefault (c : Cls) (h : HObj)
  /-- `cls.default_handle_set().clear()` -/
  | clearDefault (c : Cls)
  /-- one of the sets of a new `NitfFile` or `NitfFileMerge`: `copy.copy(cls.default_...())` -/
  | file (c : Cls)
  /-- the set of a new `NitfDiff`: `copy.deepcopy(cls.default_handle_set())` -/
  | diff (c : Cls)
  /-- operations on the set of a file or `NitfDiff` -/
  | add (i : Nat) (h : HObj) (p : Int)
  | discard (i : Nat) (h : HObj)
  | clear (i : Nat)
  deriving DecidableEq, Repr

/-- One operation. -/
def step (mro : Cls → List Cls) (s : State) : Op → State
  | .default c => (ensure mro s c).1
  | .addDefault c h p => onDefault mro s c (insert (h, p))
  | .discardDefault c h => onDefault mro s c (remove h)
  | .clearDefault c => onDefault mro s c fun _ => []
  | .file c =>
    let (s, l) := ensure mro s c
    { s with own := s.own ++ [l] }
  | .diff c =>
    let (s, l) := ensure mro s c
    { s with own := s.own ++ [deepCopy s.deep l], deep := s.deep + 1 }
  | .add i h p => { s with own := s.own.modify i (insert (h, p)) }
  | .discard i h => { s with own := s.own.modify i (remove h) }
  | .clear i => { s with own := s.own.modify i fun _ => [] }

/-- A program. -/
def run (mro : Cls → List Cls) (ops : List Op) (s : State) : State := ops.foldl (step mro) s

end Defaults
end Verif
