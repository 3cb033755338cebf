import Verif.File

/-
`NitfData.user_subheader_size` (pynitf/nitf_segment_data_handle.py:88-97), meant for checking that a
user subheader is not too long for the DES subheader.
-/

namespace Verif.UserSize

open Verif

variable (P : PyFloat)

/-- `user_subheader_size` (nitf_segment_data_handle.py:88-97).  A user subheader is true as soon as it
is there: `FieldStruct` has neither `__bool__` nor `__len__`. -/
def userSubheaderSize (user : Option (Desc × Store P.F)) : Except Err Nat :=
  match user with
  | some (d, U) =>
    match writeStruct P d U with
    | .error e => .error e
    | .ok b => .ok b.length
  | none => .ok 0

end Verif.UserSize
