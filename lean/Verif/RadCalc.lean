import Verif.Image

/-
Model of `NitfRadCalc` (pynitf/nitf_image.py:454-470), the callback that computes an image from three
others while it is written, and of `NitfImageWriteDataOnDemand.write_to_file` calling it
(nitf_image.py:343-392).

Pixels and the arithmetic of numpy on them are parameters.  Not modelled: numpy images of other than
three dimensions as input.
-/

namespace Verif.RadCalc

open Verif

/-- An array of three dimensions: bands, lines and samples. -/
structure Arr (α : Type) where
  n0 : Nat
  n1 : Nat
  n2 : Nat
  px : Nat → Nat → Nat → α

/-- Length of `slice(s, s + l)` of `n` elements. -/
def sliceLen (s l n : Nat) : Nat := min (s + l) n - s

/-- `img[bs, ls, ss]` with the slices of nitf_image.py:467-469: numpy shortens a slice that reaches
beyond the array. -/
def Arr.window {α : Type} (a : Arr α) (start : Nat × Nat × Nat) (l0 l1 l2 : Nat) : Arr α :=
  ⟨sliceLen start.1 l0 a.n0, sliceLen start.2.1 l1 a.n1, sliceLen start.2.2 l2 a.n2,
    fun i j k => a.px (start.1 + i) (start.2.1 + j) (start.2.2 + k)⟩

/-- How numpy makes one dimension of two: they are equal, or one of them is 1. -/
def bdim (m n : Nat) : Except Err Nat :=
  if m = n then .ok m else if m = 1 then .ok n else if n = 1 then .ok m else .error .value

/-- The index numpy uses in a dimension of length `n`. -/
def bidx (n i : Nat) : Nat := if n = 1 then 0 else i

/-- An operation of numpy on two arrays, element by element (nitf_image.py:470). -/
def Arr.zip {α β γ : Type} (f : α → β → γ) (a : Arr α) (b : Arr β) : Except Err (Arr γ) := do
  let n0 ← bdim a.n0 b.n0
  let n1 ← bdim a.n1 b.n1
  let n2 ← bdim a.n2 b.n2
  return ⟨n0, n1, n2, fun i j k =>
    f (a.px (bidx a.n0 i) (bidx a.n1 j) (bidx a.n2 k)) (b.px (bidx b.n0 i) (bidx b.n1 j) (bidx b.n2 k))⟩

/-- `d[:,:,:] = r` for an array `d` of this shape: the new elements, as bytes (nitf_image.py:470). -/
def Arr.assign {α : Type} (cast : α → Bytes) (l0 l1 l2 : Nat) (r : Arr α) :
    Except Err (Nat → Nat → Nat → Bytes) :=
  if (r.n0 = l0 ∨ r.n0 = 1) ∧ (r.n1 = l1 ∨ r.n1 = 1) ∧ (r.n2 = l2 ∨ r.n2 = 1) then
    .ok fun i j k => cast (r.px (bidx r.n0 i) (bidx r.n1 j) (bidx r.n2 k))
  else .error .value

/-- A `NitfRadCalc`: three images, and numpy's product, sum and conversion to the pixel type
(nitf_image.py:457-464). -/
structure Calc where
  {α β γ δ ε : Type}
  dn : Arr α
  gain : Arr β
  offset : Arr γ
  mul : α → β → δ
  add : δ → γ → ε
  cast : ε → Bytes

/-- `NitfRadCalc.data_to_write` (nitf_image.py:466-470) for an array `d` of the given shape:
`d.shape[2]` raises an IndexError if there are only two dimensions. -/
def Calc.dataToWrite (c : Calc) (shape : List Nat) (start : Nat × Nat × Nat) :
    Except Err (Nat → Nat → Nat → Bytes) :=
  match shape with
  | [l0, l1, l2] => do
    let p ← Arr.zip c.mul (c.dn.window start l0 l1 l2) (c.gain.window start l0 l1 l2)
    let r ← Arr.zip c.add p (c.offset.window start l0 l1 l2)
    r.assign c.cast l0 l1 l2
  | _ => .error .index

/-- The shape of the array handed to the callback (nitf_image.py:352, 358, 365, 371, 380, 386). -/
def handed (mode : GenMode) (nb nr nc : Nat) : List Nat :=
  match mode with
  | .all => [nb, nr, nc]
  | .band => [nr, nc]
  | .rowB => [nb, nc]
  | .rowP => [nc, nb]
  | .colB => [nb, nr]
  | .colP => [nr, nb]

/-- The starts the callback is called with (nitf_image.py:353, 359-360, 366-367, 372-373, 381-382,
387-388). -/
def starts (mode : GenMode) (nb nr nc : Nat) : List (Nat × Nat × Nat) :=
  match mode with
  | .all => [(0, 0, 0)]
  | .band => (List.range nb).map fun b => (b, 0, 0)
  | .rowB | .rowP => (List.range nr).map fun r => (0, r, 0)
  | .colB | .colP => (List.range nc).map fun c => (0, 0, c)

/-- `d.tobytes()` of an array of three dimensions, in C order. -/
def toBytes (l0 l1 l2 : Nat) (d : Nat → Nat → Nat → Bytes) : Bytes :=
  (List.range l0).flatMap fun i => (List.range l1).flatMap fun j =>
    (List.range l2).flatMap fun k => d i j k

/-- The calls of `data_to_write`, each followed by the bytes of the array. -/
def Calc.run (c : Calc) (shape : List Nat) : List (Nat × Nat × Nat) → Except Err Bytes
  | [] => .ok []
  | st :: r => do
    let d ← c.dataToWrite shape st
    let rest ← c.run shape r
    return (match shape with
      | [l0, l1, l2] => toBytes l0 l1 l2 d
      | _ => []) ++ rest

/-- The data of an image of this shape and mode with the callback `c.data_to_write`
(nitf_image.py:343-392). -/
def Calc.write (c : Calc) (mode : GenMode) (nb nr nc : Nat) : Except Err Bytes :=
  c.run (handed mode nb nr nc) (starts mode nb nr nc)

end Verif.RadCalc
