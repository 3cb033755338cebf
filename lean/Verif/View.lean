import Verif.ImageCopy

/-
Model of the array `data_written` an image generated on demand has after it was written
(pynitf/nitf_image.py:338-419).
-/

namespace Verif

variable (P : PyFloat)

/-- A file being written: its contents, with the position at the end; the length of the memory map
kept for it in `mmap_cache` (nitf_image.py:257-261); how often this map was moved to other memory;
and whether the file can be mapped at all (an `io.BytesIO` cannot). -/
structure OutFile where
  bytes : Bytes
  mapped : Option Nat
  moves : Nat
  mappable : Bool

/-- `data_written`: a numpy array over the memory the map of the file has had after `moves` moves. -/
structure ImgView where
  off : Nat
  nb : Nat
  nr : Nat
  nc : Nat
  w : Nat
  strides : Option (Int × Int × Int)
  moves : Nat

/-- The memory map after the data was written (nitf_image.py:393-410): whether there will be a
`data_written`.  A file with no bytes cannot be mapped.  `moved` says whether the operating system
had to move the map to make it longer (`mremap` with `MREMAP_MAYMOVE`).  Simplification: the system
can resize maps. -/
def mapFor (moved : Bool) (f : OutFile) (can : Bool) : Except Err (OutFile × Bool) :=
  if can && f.mapped.isNone then
    if f.mappable then
      if f.bytes.length = 0 then .error .value
      else .ok ({ f with mapped := some f.bytes.length }, true)
    else .ok (f, false)
  else
    match f.mapped with
    | none => .error .key
    | some _ =>
      .ok ({ f with mapped := some f.bytes.length, moves := if moved then f.moves + 1 else f.moves },
        can)

/-- Whether the elements of an array are within a buffer (`numpy.ndarray` raises TypeError
otherwise). -/
def viewFits (v : ImgView) (len : Nat) : Bool :=
  if v.nb * v.nr * v.nc = 0 then decide (v.off ≤ len) else
    let st : Int × Int × Int := v.strides.getD ((v.nr * v.nc * v.w : Nat), (v.nc * v.w : Nat), (v.w : Nat))
    decide ((v.off : Int) + ((v.nb - 1 : Nat) * st.1 + (v.nr - 1 : Nat) * st.2.1 + (v.nc - 1 : Nat) * st.2.2) +
      v.w ≤ len)

/-- Strides of `data_written` (nitf_image.py:347, 375-376); the default otherwise. -/
def writtenStrides (mode : GenMode) (nb nc w : Nat) : Option (Int × Int × Int) :=
  match mode with
  | .rowP => some ((1 * w : Int), (nb * nc) * w, nb * w)
  | _ => none

/-- `can_have_data` (nitf_image.py:350, 355, 362, 377). -/
def GenMode.hasView : GenMode → Bool
  | .all | .band | .rowP => true
  | .rowB | .colB | .colP => false

/-- `NitfImageWriteDataOnDemand.write_to_file` (nitf_image.py:343-414), of an image with subheader
`S`; `fill` as for `imageBytes`. -/
def writeOnDemand (S : Store P.F) (mode : GenMode) (fill : Nat × Nat × Nat → List Nat → Bytes)
    (moved : Bool) (f : OutFile) : Except Err (OutFile × Option ImgView) := do
  let (b, r, c) ← imgShape P S
  let dt ← getDtype P S
  let nb ← asInt b
  let nr ← asInt r
  let nc ← asInt c
  let data := imageBytes mode nb.toNat nr.toNat nc.toNat fill
  let (f', can') ← mapFor moved { f with bytes := f.bytes ++ data } mode.hasView
  if can' then
    let v : ImgView := ⟨f.bytes.length, nb.toNat, nr.toNat, nc.toNat, dt.size,
      writtenStrides mode nb.toNat nc.toNat dt.size, f'.moves⟩
    if viewFits v (f'.mapped.getD 0) then return (f', some v) else throw .type
  else return (f', none)

/-- Place of element `[b, l, s]` in the file. -/
def ImgView.place (v : ImgView) (b l s : Nat) : Nat :=
  let st : Int × Int × Int := v.strides.getD ((v.nr * v.nc * v.w : Nat), (v.nc * v.w : Nat), (v.w : Nat))
  v.off + (b * st.1 + l * st.2.1 + s * st.2.2).toNat

/-- `data_written[b, l, s]` (nitf_image.py:338-341): the bytes of the element; `none` if the memory
of the array is no longer that of the map, when nothing can be said.  Indices are not negative. -/
def viewGet (f : OutFile) (v : ImgView) (b l s : Nat) : Option (Except Err Bytes) :=
  if v.moves = f.moves then
    if b < v.nb ∧ l < v.nr ∧ s < v.nc then
      some (.ok (arrayElem f.bytes v.off v.nr v.nc v.w v.strides b l s))
    else some (.error .index)
  else none

/-- `data_written[b, l, s] = x` where `px` are the bytes of `x` in the pixel type. -/
def viewSet (f : OutFile) (v : ImgView) (b l s : Nat) (px : Bytes) : Option (Except Err OutFile) :=
  if v.moves = f.moves then
    if b < v.nb ∧ l < v.nr ∧ s < v.nc then
      some (.ok { f with bytes := f.bytes.take (v.place b l s) ++ px ++ f.bytes.drop (v.place b l s + px.length) })
    else some (.error .index)
  else none

/-- Bytes written over earlier ones, as `update_field` does (nitf_field.py:349-363). -/
def overwriteAt (f : OutFile) (pos : Nat) (b : Bytes) : OutFile :=
  { f with bytes := f.bytes.take pos ++ b ++ f.bytes.drop (pos + b.length) }

end Verif
