import Verif.Py

/-
Handler sets and hooks: priority_handle_set.py, nitf_segment_hook.py.

A `PriorityHandleSet` is a dictionary from priority to a python set object.  The set objects live
in a heap so that sharing of sets between a handler set and its copy would be visible.  The content
of a set object is a list without duplicates; the order in which python iterates over a set is not
known, so everything that iterates takes a function `it` giving, for each priority and content, the
order used; the theorems hold for every `it` that permutes.
-/

namespace Verif

/-- `sorted` (insertion sort; python's is stable, here the elements are different). -/
def insertBy {α : Type} (le : α → α → Bool) (x : α) : List α → List α
  | [] => [x]
  | y :: r => if le x y then x :: y :: r else y :: insertBy le x r

def sortBy {α : Type} (le : α → α → Bool) : List α → List α
  | [] => []
  | x :: r => insertBy le x (sortBy le r)

/-- Set objects by address, and the next unused address. -/
structure Heap (H : Type) where
  sets : Nat → List H
  next : Nat

/-- A `PriorityHandleSet`: the entries of `handle_set`, priority to address of the set
(priority_handle_set.py:5-6). -/
structure HandleSet where
  dict : List (Int × Nat)
  deriving DecidableEq, Repr

/-- Iteration order: content of the set of a priority, as iterated. -/
abbrev IterOrder (H : Type) := Int → List H → List H

section
variable {H : Type} [DecidableEq H]

/-- A new object (priority_handle_set.py:5-6). -/
def HandleSet.new : HandleSet := ⟨[]⟩

/-- The address stored under a key. -/
def HandleSet.find (o : HandleSet) (p : Int) : Option Nat :=
  (o.dict.find? fun e => e.1 == p).map (·.2)

def Heap.put (hp : Heap H) (a : Nat) (l : List H) : Heap H :=
  { hp with sets := fun b => if b = a then l else hp.sets b }

/-- `self.handle_set[p]` of a defaultdict: a missing key is added with an empty set
(priority_handle_set.py:6). -/
def HandleSet.getSet (hp : Heap H) (o : HandleSet) (p : Int) : Heap H × HandleSet × Nat :=
  match o.find p with
  | some a => (hp, o, a)
  | none =>
    ({ sets := fun b => if b = hp.next then [] else hp.sets b, next := hp.next + 1 },
      ⟨o.dict ++ [(p, hp.next)]⟩, hp.next)

/-- `__contains__` (priority_handle_set.py:8-9); adds the key if it is missing. -/
def HandleSet.contains (hp : Heap H) (o : HandleSet) (x : H × Int) : Heap H × HandleSet × Bool :=
  let (hp, o, a) := o.getSet hp x.2
  (hp, o, decide (x.1 ∈ hp.sets a))

/-- `__len__` (priority_handle_set.py:11-15). -/
def HandleSet.len (hp : Heap H) (o : HandleSet) : Nat :=
  o.dict.foldl (fun res e => res + (hp.sets e.2).length) 0

/-- `sorted(self.handle_set.keys(), reverse=True)`. -/
def HandleSet.keysDesc (o : HandleSet) : List Int :=
  sortBy (fun a b => decide (a ≥ b)) (o.dict.map (·.1))

/-- `self.handle_set[k]` for a key that is present. -/
def HandleSet.at (hp : Heap H) (o : HandleSet) (k : Int) : List H :=
  match o.find k with
  | some a => hp.sets a
  | none => []

/-- `__iter__` (priority_handle_set.py:17-20). -/
def HandleSet.iter (it : IterOrder H) (hp : Heap H) (o : HandleSet) : List (H × Int) :=
  o.keysDesc.flatMap fun k => (it k (o.at hp k)).map fun h => (h, k)

/-- `add_handle` (priority_handle_set.py:35-38). -/
def HandleSet.add (hp : Heap H) (o : HandleSet) (h : H) (p : Int) : Heap H × HandleSet :=
  let (hp, o, a) := o.getSet hp p
  let l := hp.sets a
  (hp.put a (if h ∈ l then l else l ++ [h]), o)

/-- `discard_handle` (priority_handle_set.py:40-44). -/
def HandleSet.discard (hp : Heap H) (o : HandleSet) (h : H) : Heap H :=
  (sortBy (fun a b => decide (a ≤ b)) (o.dict.map (·.1))).foldl (fun hp k =>
    match o.find k with
    | some a => hp.put a ((hp.sets a).filter fun x => decide (x ≠ h))
    | none => hp) hp

/-- `clear` (priority_handle_set.py:46-48): the dictionary is emptied. -/
def HandleSet.clear (_o : HandleSet) : HandleSet := ⟨[]⟩

/-- `_from_iterable` (priority_handle_set.py:22-27). -/
def HandleSet.fromIterable (hp : Heap H) (l : List (H × Int)) : Heap H × HandleSet :=
  l.foldl (fun s x => s.2.add s.1 x.1 x.2) (hp, HandleSet.new)

/-- `__copy__` (priority_handle_set.py:29-33). -/
def HandleSet.copy (it : IterOrder H) (hp : Heap H) (o : HandleSet) : Heap H × HandleSet :=
  HandleSet.fromIterable hp (o.iter it hp)

/-- `all(elem in other for elem in l)`, with the side effect of `in`
(`collections.abc.Set.__le__`). -/
def HandleSet.allIn (hp : Heap H) (o : HandleSet) : List (H × Int) → Heap H × HandleSet × Bool
  | [] => (hp, o, true)
  | x :: r =>
    match o.contains hp x with
    | (hp, o, true) => HandleSet.allIn hp o r
    | (hp, o, false) => (hp, o, false)

/-- `a == b` (`collections.abc.Set.__eq__`): the same length, and every element of `a` in `b`. -/
def HandleSet.eq (it : IterOrder H) (hp : Heap H) (a b : HandleSet) : Bool :=
  decide (a.len hp = b.len hp) && (b.allIn hp (a.iter it hp)).2.2

variable {R σ : Type}

/-- The loop over the handles of one priority (priority_handle_set.py:76-83).  `f h s` is
`handle_h` in the state `s` (for instance the position of the open file): `none` is
`(False, None)`, `some r` is `(True, r)`. -/
def tryHandles (f : H → σ → Except Err (Option R × σ)) :
    List H → Option R → σ → Except Err (Option R × σ)
  | [], res, s => .ok (res, s)
  | h :: l, res, s =>
    match f h s with
    | .error e => .error e
    | .ok (none, s) => tryHandles f l res s
    | .ok (some r, s) =>
      match res with
      | some _ => .error .runtime
      | none => tryHandles f l (some r) s

/-- The loop over the priorities. -/
def handleLoop (f : H → σ → Except Err (Option R × σ)) (sets : Int → List H) :
    List Int → σ → Except Err (R × σ)
  | [], _ => .error .runtime
  | p :: ps, s =>
    match tryHandles f (sets p) none s with
    | .error e => .error e
    | .ok (some r, s) => .ok (r, s)
    | .ok (none, s) => handleLoop f sets ps s

/-- `handle` (priority_handle_set.py:69-86). -/
def HandleSet.handle (it : IterOrder H) (f : H → σ → Except Err (Option R × σ)) (hp : Heap H)
    (o : HandleSet) (s : σ) : Except Err (R × σ) :=
  handleLoop f (fun k => it k (o.at hp k)) o.keysDesc s

end

/-! ### Hooks -/

/-- Loop over the hooks of the set for one event and segment, in iteration order; `call h s` is the
hook method in state `s`.  `after_init_hook`, `after_append_hook`, `before_write_hook`,
`after_read_hook` (nitf_segment_hook.py:41-59). -/
def runHooks {Hook σ : Type} (call : Hook → σ → Except Err σ) : List Hook → σ → Except Err σ
  | [], s => .ok s
  | h :: r, s =>
    match call h s with
    | .error e => .error e
    | .ok s => runHooks call r s

/-- `before_str_hook` (nitf_segment_hook.py:61-65). -/
def strHooks {Hook σ : Type} (raw : Bool) (remove : Hook → Bool) (call : Hook → σ → Except Err σ) :
    List Hook → σ → Except Err σ
  | [], s => .ok s
  | h :: r, s =>
    if !(raw && remove h) then
      match call h s with
      | .error e => .error e
      | .ok s => strHooks raw remove call r s
    else strHooks raw remove call r s

/-- `before_str_tre_hook` (nitf_segment_hook.py:67-75): `res or h.before_str_tre_hook(...)` does
not call the hook when `res` is already true. -/
def strTreHooks {Hook σ : Type} (raw : Bool) (remove : Hook → Bool)
    (call : Hook → σ → Except Err (Bool × σ)) : List Hook → Bool → σ → Except Err (Bool × σ)
  | [], res, s => .ok (res, s)
  | h :: r, res, s =>
    if !(raw && remove h) then
      if res then strTreHooks raw remove call r true s
      else
        match call h s with
        | .error e => .error e
        | .ok (b, s) => strTreHooks raw remove call r b s
    else strTreHooks raw remove call r res s

/-- `for seg in self.segments(): self.segment_hook_set.before_write_hook(seg, self)`
(nitf_file.py:193-194), and `after_read_hook` (nitf_file.py:189-190).  The iteration order of the
set may differ from segment to segment: the hooks come with each segment. -/
def fileHooks {Hook Seg σ : Type} (call : Hook → Seg → σ → Except Err σ) :
    List (Seg × List Hook) → σ → Except Err σ
  | [], s => .ok s
  | (seg, hooks) :: r, s =>
    match runHooks (fun h => call h seg) hooks s with
    | .error e => .error e
    | .ok s => fileHooks call r s

/-- Printing the TREs of a segment (nitf_segment.py:129-132). -/
def strTres {Hook T σ : Type} (raw : Bool) (remove : Hook → Bool)
    (call : Hook → T → σ → Except Err (Bool × σ)) (print : T → σ → Except Err σ) :
    List (T × List Hook) → σ → Except Err σ
  | [], s => .ok s
  | (t, hooks) :: r, s =>
    match strTreHooks raw remove (fun h => call h t) hooks false s with
    | .error e => .error e
    | .ok (true, s) => strTres raw remove call print r s
    | .ok (false, s) =>
      match print t s with
      | .error e => .error e
      | .ok s => strTres raw remove call print r s

end Verif
