import Verif.Assoc

/-
Model of the association support of the CSEXRB TRE (pynitf/nitf_tre_csexrb.py:146-192) and of
`_add_assoc_elem` (pynitf/nitf_des_associated_user_subheader.py:70-76), which is the same text.  The
TRE is the generated table `Tables.t_tre_csexrb` (or `Tables.t_tre_csexrb_std`, the table without
the extension for push frame cameras) under the engine of `Verif/Field.lean`.
-/

namespace Verif

variable (P : PyFloat)

/-- `list(tre.nm)`: the field has `__getitem__` but no `__iter__`, so Python takes the elements
0, 1, … until there is an IndexError.  The fuel is only there for totality; running out of it is
the otherwise unused error. -/
def pyListFrom (get : Int → Except Err (Val P.F)) : Nat → Int → Except Err (List (Val P.F))
  | 0, _ => .error .recursion
  | n + 1, i =>
    match get i with
    | .error .index => .ok []
    | .error e => .error e
    | .ok v => (pyListFrom get n (i + 1)).map (v :: ·)

/-- `self.num_assoc_des`. -/
def csNum (d : Desc) (S : Store P.F) : Except Err Int := do
  asInt (← getAttr P d S (n!"num_assoc_des") [])

/-- `list(self.assoc_des_id)`. -/
def csIds (d : Desc) (S : Store P.F) : Except Err (List (Val P.F)) := do
  pyListFrom P (fun i => getAttr P d S (n!"assoc_des_id") [i]) ((← csNum P d S).toNat + 1) 0

/-- `TreCSEXRB.add_assoc_elem_id` (nitf_tre_csexrb.py:172-179). -/
def csAddId (d : Desc) (id : Val P.F) : Step P.F := fun S =>
  match csIds P d S with
  | .error e => (S, some e)
  | .ok ids =>
    if ids.any (fun v => pyEq P v id) then (S, none)
    else
      match csNum P d S with
      | .error e => (S, some e)
      | .ok n =>
        runSteps [fun S => setAttr P d S (n!"num_assoc_des") [] (.int (n + 1)),
          fun S =>
            match csNum P d S with
            | .error e => (S, some e)
            | .ok m => setAttr P d S (n!"assoc_des_id") [m - 1] id] S

/-- `TreCSEXRB.generate_uuid_if_needed` (nitf_tre_csexrb.py:163-170), given the text that
`uuid.uuid1()` gives.  The sleep is not modelled. -/
def csGenerate (d : Desc) (uuid : Str) : Step P.F := fun S =>
  match getAttr P d S (n!"image_uuid") [] with
  | .error e => (S, some e)
  | .ok v => if pyEq P v (.str []) then setAttr P d S (n!"image_uuid") [] (.str uuid) else (S, none)

/-- `TreCSEXRB.id` (nitf_tre_csexrb.py:189-191). -/
def csId (d : Desc) (S : Store P.F) : Except Err (Val P.F) := getAttr P d S (n!"image_uuid") []

/-- An object as `add_assoc_elem` sees it: its `id`, if it has that attribute, and whether it has
`generate_uuid_if_needed`. -/
structure IdObj where
  id : Option Str
  generates : Bool
  deriving DecidableEq

/-- The object after `generate_uuid_if_needed`, with the new UUID given: the id is replaced if it is
empty (nitf_tre_csexrb.py:163-170, nitf_des_associated_user_subheader.py:39-46). -/
def IdObj.generate (o : IdObj) (uuid : Str) : IdObj :=
  if o.generates ∧ o.id = some [] then { o with id := some uuid } else o

/-- `add_assoc_elem` (nitf_tre_csexrb.py:181-187, nitf_des_associated_user_subheader.py:70-76): the
object afterwards, and what is done to the record; `addId` is its `add_assoc_elem_id`. -/
def addElem (addId : Val P.F → Step P.F) (o : IdObj) (uuid : Str) (S : Store P.F) :
    IdObj × Store P.F × Option Err :=
  match (o.generate uuid).id with
  | none => (o, S, some .runtime)
  | some id => (o.generate uuid, addId (.str id) S)

/-- Objects, by number. -/
abbrev IdHeap := Nat → IdObj

/-- A sequence of `add_assoc_elem` calls, each with the number of the object and the UUID it would
be given; stops at an exception. -/
def addElems (addId : Val P.F → Step P.F) :
    List (Nat × Str) → IdHeap → Store P.F → IdHeap × Store P.F × Option Err
  | [], h, S => (h, S, none)
  | (k, u) :: r, h, S =>
    match addElem P addId (h k) u S with
    | (o', S', some e) => (fun j => if j = k then o' else h j, S', some e)
    | (o', S', none) => addElems addId r (fun j => if j = k then o' else h j) S'

/-- `TreCSEXRB.assoc_elem` (nitf_tre_csexrb.py:146-161), given the DES of the file in order. -/
def csAssocElem {α} (asid : List Str) (des : List (AssocCand α)) : List (Option α) :=
  asid.map (dictGet (des.foldl (assocStep asid) []))

end Verif
