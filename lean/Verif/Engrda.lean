import Verif.Image
import Verif.LoopRow
import Verif.Tre

/-
Model of the dictionary interface of the ENGRDA TRE (pynitf/nitf_tre_engrda.py).  The fields are
the generated table `Tables.t_tre_engrda` under the engine of `Verif/Field.lean`, where `engdata`
holds bytes; the conversion of Python values to and from those bytes is modelled here.
-/

namespace Verif

variable (P : PyFloat)

abbrev engD : Desc := Tables.t_tre_engrda

/-- A numpy array: type, shape, its memory in C order and whether it may be written to.  (For an
array stored in another order, `tobytes` gives C order, and `byteswap` acts on each element, so
nothing depends on the order.) -/
structure NpArr where
  ty : NpType
  shape : List Nat
  mem : Bytes
  writable : Bool
  deriving DecidableEq

/-- What a user hands to `add_or_update`.  `other` is an object without `shape`, such as a list or a
`bytearray`. -/
inductive EngData where
  | str (s : Str)
  | bytes (b : Bytes)
  | arr (a : NpArr)
  | other
  deriving DecidableEq

/-- A label given as `str` or as `bytes`. -/
inductive EngKey where
  | str (s : Str)
  | bytes (b : Bytes)
  deriving DecidableEq

/-- `keyv` (nitf_tre_engrda.py:142-144, 175-177). -/
def EngKey.label : EngKey → Except Err Str
  | .str s => .ok s
  | .bytes b => utf8Dec b

/-- Size of the units whose bytes `byteswap` reverses: the parts of a complex number are swapped
separately. -/
def NpType.unit (t : NpType) : Nat := if t.kind = .c then t.size / 2 else t.size

/-- The bytes of an array with the bytes of each unit reversed (`ndarray.byteswap`). -/
def swapEvery (u : Nat) (b : Bytes) : Bytes :=
  (List.range b.length).map fun i => b.getD (i / u * u + (u - 1 - i % u)) 0

/-- The `engtyp` and `engdts` chosen by `pack` (nitf_tre_engrda.py:8-55). -/
def engCode : EngData → Except Err (String × Nat)
  | .str _ => .ok ("A", 1)
  | .bytes _ => .ok ("B", 1)
  | .other => .error .attr
  | .arr a =>
    if a.ty.eq ⟨.u, 1, .big⟩ then .ok ("I", 1)
    else if a.ty.eq ⟨.i, 1, .big⟩ then .ok ("S", 1)
    else if a.ty.either .u 2 then .ok ("I", 2)
    else if a.ty.either .i 2 then .ok ("S", 2)
    else if a.ty.either .u 4 then .ok ("I", 4)
    else if a.ty.either .i 4 then .ok ("S", 4)
    else if a.ty.either .f 4 then .ok ("R", 4)
    else if a.ty.either .f 8 then .ok ("R", 8)
    else if a.ty.either .c 8 then .ok ("C", 8)
    else .error .runtime

/-- The bytes returned by `pack`.  The argument of `byteswap` is its `inplace` flag, so
`byteswap(">")` swaps whatever order the array has, and swaps the array of the caller; on a read
only array that is a ValueError. -/
def engEncode : EngData → Except Err Bytes
  | .str s => .ok (utf8Enc s)
  | .bytes b => .ok b
  | .other => .error .attr
  | .arr a =>
    if a.ty.size = 1 then .ok a.mem
    else if a.writable then .ok (swapEvery a.ty.unit a.mem)
    else .error .value

/-- The object handed to `add_or_update` after the call (see `engEncode`). -/
def engAfter : EngData → EngData
  | .arr a => .arr (if a.ty.size = 1 then a else { a with mem := swapEvery a.ty.unit a.mem })
  | d => d

/-- `ENGRDAFieldData.unpack` (nitf_tre_engrda.py:57-78), given the values of `engtyp`, `engdts`,
`engmtxr` and `engmtxc`.  The numpy type strings are those with a one digit size. -/
def engDecode (typ : Val P.F) (dts r c : Val P.F) (b : Bytes) : Except Err EngData :=
  let arr (k : NpKind) (sizes : List Int) : Except Err EngData :=
    match dts, r, c with
    | .int n, .int r, .int c =>
      if n ∈ sizes then
        -- frombuffer, then reshape; negative dimensions other than -1 are refused, and -1 cannot
        -- have been written
        if b.length % n.toNat = 0 ∧ 0 ≤ r ∧ 0 ≤ c ∧ r * c = (b.length / n.toNat : Nat) then
          .ok (.arr ⟨⟨k, n.toNat, .big⟩, [r.toNat, c.toNat], b, false⟩)
        else .error .value
      else .error .type
    | _, _, _ => .error .type
  if pyEq P typ (.str "A".toList) && pyEq P dts (.int 1) then (utf8Dec b).map .str
  else if pyEq P typ (.str "B".toList) && pyEq P dts (.int 1) then .ok (.bytes b)
  else if pyEq P typ (.str "I".toList) then arr .u [1, 2, 4, 8]
  else if pyEq P typ (.str "S".toList) then arr .i [1, 2, 4, 8]
  else if pyEq P typ (.str "R".toList) then arr .f [2, 4, 8]
  else if pyEq P typ (.str "C".toList) then arr .c [8]
  else .error .runtime

/-- `self.engdata[i]`. -/
def engDataAt (S : Store P.F) (i : Int) : Except Err EngData := do
  match ← getAttr P engD S (n!"engdata") [i] with
  | .bytes b =>
    let typ ← getAttr P engD S (n!"engtyp") [i]
    let dts ← getAttr P engD S (n!"engdts") [i]
    let r ← getAttr P engD S (n!"engmtxr") [i]
    let c ← getAttr P engD S (n!"engmtxc") [i]
    engDecode P typ dts r c b
  | _ => .error .type

/-- `_as_array` (nitf_tre_engrda.py:168-169). -/
def engItem (S : Store P.F) (i : Int) : Except Err (EngData × Val P.F) := do
  let d ← engDataAt P S i
  let u ← getAttr P engD S (n!"engdatu") [i]
  return (d, u)

/-- `range(self.recnt)`. -/
def engCount (S : Store P.F) : Except Err Int := do
  asInt (← getAttr P engD S (n!"recnt") [])

/-- `for i in range(n): if(get(i) == x): last = i` -/
def lastEq (get : Int → Except Err (Val P.F)) (x : Val P.F) : List Int → Int → Except Err Int
  | [], acc => .ok acc
  | i :: is, acc =>
    match get i with
    | .error e => .error e
    | .ok v => lastEq get x is (if pyEq P v x then i else acc)

/-- `for i in range(n): if(get(i) == x): return i` -/
def firstEq (get : Int → Except Err (Val P.F)) (x : Val P.F) : List Int → Except Err (Option Int)
  | [] => .ok none
  | i :: is =>
    match get i with
    | .error e => .error e
    | .ok v => if pyEq P v x then .ok (some i) else firstEq get x is

/-- `engmtxc`, `engmtxr` for the data (nitf_tre_engrda.py:155-165). -/
def engDims : EngData → Except Err (Nat × Nat)
  | .str s => .ok (s.length, 1)
  | .bytes b => .ok (b.length, 1)
  | .other => .error .attr
  | .arr a =>
    match a.shape with
    | [n] => .ok (n, 1)
    | [r, c] => .ok (c, r)
    | _ => .error .runtime

/-- `self.engdata[i] = data`: `pack` sets `engtyp` and `engdts` and gives the bytes to store. -/
def engSetData (i : Int) (data : EngData) : Step P.F := fun S =>
  match engCode data with
  | .error e => (S, some e)
  | .ok (t, n) =>
    runSteps [fun S => setAttr P engD S (n!"engtyp") [i] (.str t.toList),
      fun S => setAttr P engD S (n!"engdts") [i] (.int n),
      fun S =>
        match engEncode data with
        | .error e => (S, some e)
        | .ok b => setAttr P engD S (n!"engdata") [i] (.bytes b)] S

/-- The assignments to record `i` (nitf_tre_engrda.py:152-166). -/
def engSetRecord (i : Int) (label : Str) (data : EngData) (units : Str) : Step P.F :=
  runSteps [fun S => setAttr P engD S (n!"englbl") [i] (.str label),
    fun S => setAttr P engD S (n!"engdatu") [i] (.str units),
    fun S =>
      match engDims data with
      | .error e => (S, some e)
      | .ok (c, r) =>
        runSteps [fun S => setAttr P engD S (n!"engmtxc") [i] (.int c),
          fun S => setAttr P engD S (n!"engmtxr") [i] (.int r)] S,
    engSetData P i data]

/-- `add_or_update` (nitf_tre_engrda.py:134-166), also `t[key] = (data, units)` (183-186). -/
def engUpdate (key : EngKey) (data : EngData) (units : Str) : Step P.F := fun S =>
  match (do
      let label ← key.label
      let n ← engCount P S
      let i ← lastEq P (fun i => getAttr P engD S (n!"englbl") [i]) (.str label) (indices n) (-1)
      return (label, n, i)) with
  | .error e => (S, some e)
  | .ok (label, n, i) =>
    if i = -1 then
      runSteps [fun S => setAttr P engD S (n!"recnt") [] (.int (n + 1)),
        fun S =>
          match engCount P S with
          | .error e => (S, some e)
          | .ok m => engSetRecord P (m - 1) label data units S] S
    else engSetRecord P i label data units S

/-- `t[key]` (nitf_tre_engrda.py:174-181). -/
def engGet (S : Store P.F) (key : EngKey) : Except Err (EngData × Val P.F) := do
  let label ← key.label
  let n ← engCount P S
  match ← firstEq P (fun i => getAttr P engD S (n!"englbl") [i]) (.str label) (indices n) with
  | some i => engItem P S i
  | none => .error .key

/-- `len(t)` (nitf_tre_engrda.py:171-172). -/
def engLen (S : Store P.F) : Except Err Int := engCount P S

end Verif
