import Verif.Image

/-
What `NitfImageReadNumpy` takes for the data of an image: how much of the file it passes over and how much
it copies when the image is written again (`Verif/Image.lean` has the rest).
-/

namespace Verif
namespace Layout

/-- The data taken by `NitfImageReadNumpy.read_from_file` (nitf_image.py:174-185): as many bytes as the
array has, `data.size * data.itemsize`, whatever the length of the segment. -/
def takenSize (nb nr nc : Nat) (t : NpType) : Nat := nb * nr * nc * t.size

/-- Position after the image was read (nitf_image.py:178). -/
def positionAfter (off nb nr nc : Nat) (t : NpType) : Nat := takenSize nb nr nc t + off

/-- What is written for an image that was read (nitf_image.py:188-203). -/
def rewritten (file : Bytes) (off nb nr nc : Nat) (t : NpType) : Bytes :=
  copyImage file off (takenSize nb nr nc t)

end Layout
end Verif
