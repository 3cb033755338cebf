import Verif.Engrda

/-
The rest of the mapping interface of the ENGRDA TRE (pynitf/nitf_tre_engrda.py:183-213): what
`collections.abc.MutableMapping` makes of `__getitem__`, `__setitem__`, `__delitem__`, `__iter__` and
`__len__`, and the `engrda` property of segments and files.

`TreENGRDA(Tre, MutableMapping)` has the methods of `Tre` first, so `items` is `FieldStruct.items`.
-/

namespace Verif

variable (P : PyFloat)

/-- `key in t` (`Mapping.__contains__`). -/
def engIn (S : Store P.F) (key : EngKey) : Except Err Bool :=
  match engGet P S key with
  | .ok _ => .ok true
  | .error .key => .ok false
  | .error e => .error e

/-- `t.get(key, default)` (`Mapping.get`); `none` is the default. -/
def engGetOr (S : Store P.F) (key : EngKey) : Except Err (Option (EngData × Val P.F)) :=
  match engGet P S key with
  | .ok r => .ok (some r)
  | .error .key => .ok none
  | .error e => .error e

/-- `t[key] = v` (nitf_tre_engrda.py:183-186); `none` stands for a sequence not of two values. -/
def engSetItem (key : EngKey) (v : Option (EngData × Str)) : Step P.F := fun S =>
  match v with
  | none => (S, some .runtime)
  | some (data, units) => engUpdate P key data units S

/-- `t.setdefault(key, (data, units))` (`MutableMapping.setdefault`).  The result is what it returns:
the stored item, or `none` for the default. -/
def engSetDefault (key : EngKey) (data : EngData) (units : Str) (S : Store P.F) :
    Store P.F × Except Err (Option (EngData × Val P.F)) :=
  match engGet P S key with
  | .ok r => (S, .ok (some r))
  | .error .key =>
    match engUpdate P key data units S with
    | (S', none) => (S', .ok none)
    | (S', some e) => (S', .error e)
  | .error e => (S, .error e)

/-- `t.update(pairs)` (`MutableMapping.update`) for a `dict` or a list of pairs. -/
def engUpdateAll (l : List (EngKey × EngData × Str)) : Step P.F :=
  runSteps (l.map fun p => engSetItem P p.1 (some p.2))

/-- `del t[key]` (nitf_tre_engrda.py:188-189). -/
def engDel (_S : Store P.F) (_key : EngKey) : Err := .notImpl

/-- `t.pop(key)` or `t.pop(key, default)` (`MutableMapping.pop`); `dflt` says whether a default was
given, `none` in the result is the default. -/
def engPop (S : Store P.F) (key : EngKey) (dflt : Bool) : Except Err (Option (EngData × Val P.F)) :=
  match engGet P S key with
  | .ok _ => .error (engDel P S key)
  | .error .key => if dflt then .ok none else .error .key
  | .error e => .error e

/-- `list(t)` (nitf_tre_engrda.py:191-192): `_as_array` in `__iter__` is not a name there. -/
def engIter (S : Store P.F) : Except Err (List (Val P.F)) :=
  match engCount P S with
  | .error e => .error e
  | .ok n =>
    match indices n with
    | [] => .ok []
    | i :: _ =>
      match getAttr P engD S (n!"englbl") [i] with
      | .error e => .error e
      | .ok _ => .error .name

/-- `t.popitem()` (`MutableMapping.popitem`). -/
def engPopItem (S : Store P.F) : Except Err Unit :=
  match engIter P S with
  | .error e => .error e
  | .ok _ => .error .key

/-- `t.clear()` (`MutableMapping.clear`): `popitem` until there is a KeyError. -/
def engClear (S : Store P.F) : Option Err :=
  match engPopItem P S with
  | .error .key => none
  | .error e => some e
  | .ok _ => none

/-- `t.resrc` (nitf_field.py:835-847; a `TreUnknown` has no fields, nitf_tre.py:114). -/
def treResrc : Tre P.F → Except Err (Val P.F)
  | .known _ d S => getAttr P d S (n!"resrc") []
  | .unknown _ _ => .error .attr

/-- The loop of `_engrda_as_hash` (nitf_tre_engrda.py:201-210); `res` is the dictionary so far. -/
def engHashFrom (res : List (Val P.F × Tre P.F)) :
    List (Tre P.F) → Except Err (List (Val P.F × Tre P.F))
  | [] => .ok res
  | t :: ts =>
    if t.tag = "ENGRDA".toList then
      match treResrc P t with
      | .error e => .error e
      | .ok r =>
        if res.any fun p => pyEq P p.1 r then .error .runtime
        else engHashFrom (res ++ [(r, t)]) ts
    else engHashFrom res ts

/-- `f.engrda`, `seg.engrda` for the list of TREs. -/
def engHash (ts : List (Tre P.F)) : Except Err (List (Val P.F × Tre P.F)) := engHashFrom P [] ts

end Verif
