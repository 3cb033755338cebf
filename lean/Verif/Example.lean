import Verif.Update

/- Small concrete structs used to show that the hypotheses of the property theorems can be met.
Nothing here is used in a proof of a property. -/

namespace Verif

/-- A float implementation with a single float; the examples do not use floats. -/
def P0 : PyFloat where
  F := Unit
  beq := fun _ _ => true
  ofInt := fun _ => ()
  toInt := fun _ => .ok 0
  parse := fun _ => .ok ()
  str := fun _ => ['0']
  fixedWidth := fun _ w => .ok (List.replicate w.toNat '0')
  fmt := fun _ _ => .ok []
  toIntD := fun _ => .ok 0
  pack32 := fun _ => .ok [0, 0, 0, 0]
  unpack32 := fun _ => ()

instance : DecidableEq P0.F := inferInstanceAs (DecidableEq Unit)

/-- A count, a loop with a flag and an optional number present only if the flag is "Y", and
variable-length data with its length. -/
def exDesc : Desc :=
  .field { name := some (n!"num"), size := .const 2, ty := .int } <|
  .loop (.ref (n!"num") [])
    (.field { name := some (n!"flag"), size := .const 1, ty := .str } <|
     .field { name := some (n!"val"), size := .const 3, ty := .int, optional := true,
              cond := some (.eq (.ref (n!"flag") [0]) (.const (.str "Y"))) } .nil) <|
  .field { name := some (n!"len"), size := .const 3, ty := .int } <|
  .field { name := some (n!"data"), size := .expr (.ref (n!"len") []), ty := .bytes,
           kind := .bytesData } .nil

/-- num = 3, flag = Y N Y, val = 7 (absent) None, data = b"hi". -/
def exStore : Store P0.F :=
  ((((((Store.empty.set 0 [] ⟨.val (.int 3), none⟩).set 1 [0] ⟨.val (.str ['Y']), none⟩).set
    2 [0] ⟨.val (.int 7), none⟩).set 1 [1] ⟨.val (.str ['N']), none⟩).set
    1 [2] ⟨.val (.str ['Y']), none⟩).set 3 [] ⟨.val (.int 2), none⟩).set
    4 [] ⟨.val (.bytes [104, 105]), none⟩

/-- ASCII bytes of a string literal, for examples. -/
def asc (s : String) : Bytes := s.toList.map fun c => UInt8.ofNat c.toNat

def exChunks : List Chunk :=
  [⟨0, [], asc "03"⟩, ⟨1, [0], asc "Y"⟩, ⟨2, [0], asc "007"⟩, ⟨1, [1], asc "N"⟩,
   ⟨1, [2], asc "Y"⟩, ⟨2, [2], asc "   "⟩, ⟨3, [], asc "002"⟩, ⟨4, [], asc "hi"⟩]

theorem exDesc_causal : exDesc.causal = true := by decide
theorem exDesc_wf : exDesc.allFields FieldDef.wf = true := by decide
theorem exStore_writes : writeChunks P0 exDesc exStore = .ok exChunks := by decide +kernel

end Verif
