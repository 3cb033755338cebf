import Verif.View
import Verif.ImageLayout
import Verif.DesData

/-
The image classes of pynitf as data handlers of a file (pynitf/nitf_image.py): images generated on
demand, images read with numpy, images passed over.  `Verif/Image.lean`, `Verif/ImageLayout.lean`
and `Verif/View.lean` have the parts.
-/

namespace Verif
namespace InFile

variable (P : PyFloat)

/-- An image object in a file.  `made`: NitfImageWriteDataOnDemand with the subheader `S`, its mode
and callback (`fill` as for `imageBytes`).  `mapped`: NitfImageReadNumpy, an array over the file it
was read from; `file` is that file from the data of the image on.  `skipped`: NitfImagePlaceHolder,
with that file and the size of the data.

Simplifications.  The file an image was read from is not changed afterwards (see C36 for what is
copied if it is); the array is memory mapped, not read into memory (`mmap=False`). -/
inductive ImgObj where
  | made (S : Store P.F) (mode : GenMode) (fill : Nat × Nat × Nat → List Nat → Bytes)
  | mapped (nb nr nc : Nat) (strides : Option (Int × Int × Int)) (dt : NpType) (file : Bytes)
  | skipped (size : Nat) (file : Bytes)

variable {P}

/-- `write_to_file` (nitf_image.py:343-392; 188-203; 70-87).  For images generated on demand only the
bytes written, `Verif/View.lean` has the rest. -/
def ImgObj.write : ImgObj P → Except Err Bytes
  | .made S mode fill => do
    let (b, r, c) ← imgShape P S
    let _ ← getDtype P S
    let nb ← asInt b
    let nr ← asInt r
    let nc ← asInt c
    return imageBytes mode nb.toNat nr.toNat nc.toNat fill
  | .mapped nb nr nc _ dt file => .ok (Layout.rewritten file 0 nb nr nc dt)
  | .skipped size file => .ok (copyImage file 0 size)

variable (P)

/-- Reading an image: NitfImageReadNumpy if it accepts the image, else NitfImagePlaceHolder
(nitf_image.py:130-186, 57-68).  An array that does not fit into the file is a TypeError.
Simplification: counts and sizes are not negative, as read from a file. -/
def readImage (sub : Store P.F) (size : Int) (b : Bytes) : Except Err (ImgObj P × Bytes) := do
  match ← readPlan P sub with
  | none => return (.skipped size.toNat b, b.drop size.toNat)
  | some plan =>
    let nb ← asInt plan.bands
    let nr ← asInt plan.rows
    let nc ← asInt plan.cols
    let v : ImgView := ⟨0, nb.toNat, nr.toNat, nc.toNat, plan.dtype.size, plan.strides, 0⟩
    if viewFits v b.length then
      return (.mapped nb.toNat nr.toNat nc.toNat plan.strides plan.dtype b,
        b.drop (Layout.positionAfter 0 nb.toNat nr.toNat nc.toNat plan.dtype))
    else throw .type

/-- The image classes as data handlers. -/
def imgIO : DataIO P.F where
  D := ImgObj P
  write := ImgObj.write
  read := fun _ sub size b => readImage P sub size b
  data := fun _ => .error .attr

variable {P}

/-- `image[b, l, s]` of an image that was read (nitf_image.py:118-119): the bytes of the element. -/
def ImgObj.pixel (b l s : Nat) : ImgObj P → Except Err Bytes
  | .mapped nb nr nc strides dt file =>
    if b < nb ∧ l < nr ∧ s < nc then .ok (arrayElem file 0 nr nc dt.size strides b l s)
    else .error .index
  | .made _ _ _ => .error .runtime
  | .skipped _ _ => .error .type

end InFile
end Verif
