import Verif.Image
import Verif.LoopRow

/-
Model of the support routines for DES with an associated user subheader
(pynitf/nitf_des_associated_user_subheader.py).  The subheader itself is the generated table
`Tables.t_des_associated_user_subheader` under the engine of `Verif/Field.lean`.
-/

namespace Verif

variable (P : PyFloat)

abbrev auD : Desc := Tables.t_des_associated_user_subheader

/-- `for i in range(n): if(us.nm[i] == x): return`: whether the loop returns. -/
def anyEq (get : Int → Except Err (Val P.F)) (x : Val P.F) : List Int → Except Err Bool
  | [] => .ok false
  | i :: is =>
    match get i with
    | .error e => .error e
    | .ok v => if pyEq P v x then .ok true else anyEq get x is

/-- `int(us.numais)`. -/
def numaisInt (S : Store P.F) : Except Err Int := do
  coerceInt P (← getAttr P auD S (n!"numais") [])

/-- `us.num_assoc_elem` as a range bound. -/
def numAssoc (S : Store P.F) : Except Err Int := do
  asInt (← getAttr P auD S (n!"num_assoc_elem") [])

/-- `_add_display_level` (nitf_des_associated_user_subheader.py:50-58). -/
def addDisplayLevel (lvl : Val P.F) : Step P.F := fun S =>
  match (do
      let n ← numaisInt P S
      anyEq P (fun i => getAttr P auD S (n!"aisdlvl") [i]) lvl (indices n)) with
  | .error e => (S, some e)
  | .ok true => (S, none)
  | .ok false =>
    match numaisInt P S with
    | .error e => (S, some e)
    | .ok n =>
      runSteps [fun S => setAttr P auD S (n!"numais") [] (.str (fmtInt 3 (n + 1))),
        fun S =>
          match numaisInt P S with
          | .error e => (S, some e)
          | .ok m => setAttr P auD S (n!"aisdlvl") [m - 1] lvl] S

/-- `_add_assoc_elem_id` (nitf_des_associated_user_subheader.py:60-68). -/
def addAssocElemId (id : Val P.F) : Step P.F := fun S =>
  match (do
      let n ← numAssoc P S
      anyEq P (fun i => getAttr P auD S (n!"assoc_elem_id") [i]) id (indices n)) with
  | .error e => (S, some e)
  | .ok true => (S, none)
  | .ok false =>
    match numAssoc P S with
    | .error e => (S, some e)
    | .ok n =>
      runSteps [fun S => setAttr P auD S (n!"num_assoc_elem") [] (.int (n + 1)),
        fun S =>
          match numAssoc P S with
          | .error e => (S, some e)
          | .ok m => setAttr P auD S (n!"assoc_elem_id") [m - 1] id] S

/-- The calls a user makes. -/
inductive AssocOp where
  | level (z : Int)
  | elem (id : Str)
  deriving DecidableEq

def AssocOp.run : AssocOp → Step P.F
  | .level z => addDisplayLevel P (.int z)
  | .elem id => addAssocElemId P (.str id)

/-- An object that may be associated: a DES with its `id`, if it has one, or a CSEXRB TRE with its
`image_uuid`. -/
structure AssocCand (α : Type) where
  id : Option Str
  obj : α

/-- `res[k] = v` on a dict. -/
def dictSet {α} (m : List (Str × α)) (k : Str) (v : α) : List (Str × α) :=
  (k, v) :: m.filter fun p => p.1 ≠ k

/-- `res.get(k)`. -/
def dictGet {α} (m : List (Str × α)) (k : Str) : Option α := (m.find? fun p => p.1 = k).map (·.2)

/-- The body of the loops of `_assoc_elem`. -/
def assocStep {α} (asid : List Str) (m : List (Str × α)) (c : AssocCand α) : List (Str × α) :=
  match c.id with
  | none => m
  | some id => if id ∈ asid then dictSet m id c.obj else m

/-- `_assoc_elem` (nitf_des_associated_user_subheader.py:78-97), given the ids, the DES of the file
and the CSEXRB TREs of its images in order.  The objects are opaque. -/
def assocElem {α} (asid : List Str) (des tre : List (AssocCand α)) : List (Option α) :=
  let res := tre.foldl (assocStep asid) (des.foldl (assocStep asid) [])
  asid.map (dictGet res)

end Verif
