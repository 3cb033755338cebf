import Verif.Row

/-
Model of the image subheader helpers (pynitf/nitf_image_subheader.py) and of how image data is
written, read back and copied (pynitf/nitf_image.py).
-/

namespace Verif

variable (P : PyFloat)

/-- A statement that changes a header: new state, and the exception if one is raised. -/
abbrev Step (F : Type) := Store F → Store F × Option Err

/-- Statements one after the other; the first exception ends the sequence. -/
def runSteps {F} : List (Step F) → Step F
  | [], S => (S, none)
  | f :: r, S =>
    match f S with
    | (S', some e) => (S', some e)
    | (S', none) => runSteps r S'

/-- `ih.nm = v` on an image subheader. -/
def ihSet (nm : Name) (v : Val P.F) : Step P.F := fun S =>
  setAttr P Tables.t_image_subheader S nm [] v

/-- `ih.nm[i] = v`. -/
def ihSetAt (nm : Name) (i : Int) (v : Val P.F) : Step P.F := fun S =>
  setAttr P Tables.t_image_subheader S nm [i] v

/-- `ih.nm`. -/
def ihGet (S : Store P.F) (nm : Name) : Except Err (Val P.F) :=
  getAttr P Tables.t_image_subheader S nm []

/-- `number_band` (nitf_image_subheader.py:114-116). -/
def numberBand (S : Store P.F) : Except Err (Val P.F) := do
  let n ← asInt (← ihGet P S (n!"nbands"))
  if n > 0 then ihGet P S (n!"nbands") else ihGet P S (n!"xbands")

/-- `number_band` setter (nitf_image_subheader.py:118-126). -/
def setNumberBand (n : Int) : Step P.F :=
  if n < 10 then runSteps [ihSet P (n!"nbands") (.int n)]
  else runSteps [ihSet P (n!"nbands") (.int 0), ihSet P (n!"xbands") (.int n)]

/-- Kind letter of a numpy data type; `other` stands for all the rest (bool, text, records...). -/
inductive NpKind where
  | u | i | f | c | other
  deriving DecidableEq, Repr

/-- Byte order of a numpy data type. -/
inductive NpOrder where
  | little | big
  deriving DecidableEq, Repr

/-- A numpy data type: kind, item size and byte order.  Simplification: types of kind `other` are
told apart only by their size, which does not matter because none is accepted. -/
structure NpType where
  kind : NpKind
  size : Nat
  order : NpOrder
  deriving DecidableEq, Repr

/-- `==` on numpy types: byte order does not matter for single bytes. -/
def NpType.eq (a b : NpType) : Bool :=
  a.kind == b.kind && a.size == b.size && (a.size == 1 || a.order == b.order)

/-- `data_type == '<x' or data_type == '>x'`. -/
def NpType.either (t : NpType) (k : NpKind) (n : Nat) : Bool :=
  t.eq ⟨k, n, .little⟩ || t.eq ⟨k, n, .big⟩

/-- The three assignments of a branch of the `dtype` setter. -/
def setPixel (bits : Int) (pv : String) : Step P.F :=
  runSteps [ihSet P (n!"abpp") (.int bits), ihSet P (n!"nbpp") (.int bits),
    ihSet P (n!"pvtype") (.str pv.toList)]

/-- `dtype` setter (nitf_image_subheader.py:157-213). -/
def setDtype (t : NpType) : Step P.F :=
  if t.eq ⟨.u, 1, .big⟩ then setPixel P 8 "INT"
  else if t.eq ⟨.i, 1, .big⟩ then setPixel P 8 "SI"
  else if t.either .u 2 then setPixel P 16 "INT"
  else if t.either .i 2 then setPixel P 16 "SI"
  else if t.either .u 4 then setPixel P 32 "INT"
  else if t.either .i 4 then setPixel P 32 "SI"
  else if t.either .f 4 then setPixel P 32 "R"
  else if t.either .c 8 then setPixel P 64 "C"
  else if t.either .f 8 then setPixel P 64 "R"
  else if t.either .c 16 then setPixel P 128 "C"
  else fun S => (S, some .runtime)

/-- `self.nbpp == n and self.pvtype == s` of the `dtype` getter. -/
def pixelIs (nb pv : Val P.F) (n : Int) (s : String) : Bool :=
  pyEq P nb (.int n) && pyEq P pv (.str s.toList)

/-- `dtype` (nitf_image_subheader.py:128-155).  Simplification: both attributes are read once, at
the start (reading them has no effect and cannot fail for one of them only in a header whose
fields hold values of their own type). -/
def getDtype (S : Store P.F) : Except Err NpType := do
  let nb ← ihGet P S (n!"nbpp")
  let pv ← ihGet P S (n!"pvtype")
  if pixelIs P nb pv 8 "INT" then return ⟨.u, 1, .big⟩
  else if pixelIs P nb pv 8 "SI" then return ⟨.i, 1, .big⟩
  else if pixelIs P nb pv 16 "INT" then return ⟨.u, 2, .big⟩
  else if pixelIs P nb pv 16 "SI" then return ⟨.i, 2, .big⟩
  else if pixelIs P nb pv 32 "INT" then return ⟨.u, 4, .big⟩
  else if pixelIs P nb pv 32 "SI" then return ⟨.i, 4, .big⟩
  else if pixelIs P nb pv 32 "R" then return ⟨.f, 4, .big⟩
  else if pixelIs P nb pv 64 "C" then return ⟨.c, 8, .big⟩
  else if pixelIs P nb pv 64 "R" then return ⟨.f, 8, .big⟩
  else if pixelIs P nb pv 128 "C" then return ⟨.c, 16, .big⟩
  else throw .runtime

/-- The texts and display level given to `set_default_image_subheader`. -/
structure ImgTexts where
  iid1 : Str
  iid2 : Str
  idatim : Str
  irep : Str
  icat : Str
  idlvl : Int

/-- The band loop of `set_default_image_subheader` (nitf_image_subheader.py:409-412) from band `b`
on, `k` bands. -/
def bandSteps : Nat → Nat → List (Step P.F)
  | _, 0 => []
  | b, k + 1 =>
    ihSetAt P (n!"irepband") b (.str "M".toList) ::
    ihSetAt P (n!"isubcat") b (.int (b + 1)) ::
    ihSetAt P (n!"nluts") b (.int 0) :: bandSteps (b + 1) k

/-- The statements of `set_default_image_subheader` before the band loop
(nitf_image_subheader.py:390-407). -/
def defaultHead (t : ImgTexts) (nrow ncol : Nat) (dt : NpType) (nb : Nat) : List (Step P.F) :=
  [ihSet P (n!"iid1") (.str t.iid1), ihSet P (n!"iid2") (.str t.iid2),
   ihSet P (n!"idlvl") (.int t.idlvl), ihSet P (n!"isclas") (.str "U".toList),
   ihSet P (n!"irep") (.str t.irep), ihSet P (n!"icat") (.str t.icat),
   ihSet P (n!"encryp") (.int 0), ihSet P (n!"idatim") (.str t.idatim),
   ihSet P (n!"nrows") (.int nrow), ihSet P (n!"ncols") (.int ncol),
   ihSet P (n!"nbpr") (.int 1), ihSet P (n!"nbpc") (.int 1),
   ihSet P (n!"nppbh") (.int ncol), ihSet P (n!"nppbv") (.int nrow),
   setDtype P dt, setNumberBand P nb,
   ihSet P (n!"ic") (.str "NC".toList), ihSet P (n!"nicom") (.int 0)]

/-- The last three statements (nitf_image_subheader.py:415-417).  `int(numbands / 2)` goes through
a float, which is exact for the counts a header can hold. -/
def defaultTail (nb : Nat) : List (Step P.F) :=
  [ihSetAt P (n!"irepband") ((nb : Int) - 1) (.str "B".toList),
   ihSetAt P (n!"irepband") ((nb / 2 : Nat) : Int) (.str "G".toList),
   ihSetAt P (n!"irepband") 0 (.str "R".toList)]

/-- `set_default_image_subheader` (nitf_image_subheader.py:374-419). -/
def setDefaultImage (t : ImgTexts) (nrow ncol : Nat) (dt : NpType) (nb : Nat) : Step P.F :=
  runSteps (defaultHead P t nrow ncol dt nb ++ (bandSteps P 0 nb ++ defaultTail P nb))

/-- `IMAGE_GEN_MODE_*` (nitf_image.py:250-255). -/
inductive GenMode where
  | all | band | rowB | rowP | colB | colP
  deriving DecidableEq, Repr

/-- The blocking statements of `NitfImageWriteDataOnDemand.__init__` (nitf_image.py:302-326).
`raise NotImplemented()` raises a TypeError, since `NotImplemented` cannot be called. -/
def modeSteps (mode : GenMode) (nrow ncol : Nat) : List (Step P.F) :=
  match mode with
  | .all | .band => []
  | .rowP => [ihSet P (n!"nbpr") (.int 1), ihSet P (n!"nbpc") (.int nrow),
      ihSet P (n!"nppbh") (.int ncol), ihSet P (n!"nppbv") (.int 1),
      ihSet P (n!"imode") (.str "P".toList)]
  | .rowB | .colB | .colP => [fun S => (S, some .type)]

/-- The subheader of a new `NitfImageWriteDataOnDemand` (nitf_image.py:263-326).  Not modelled:
the security attribute (`Verif/Security.lean`) set in between. -/
def newImage (t : ImgTexts) (nrow ncol : Nat) (dt : NpType) (nb : Nat) (mode : GenMode) :
    Store P.F × Option Err :=
  runSteps (setDefaultImage P t nrow ncol dt nb :: modeSteps P mode nrow ncol) Store.empty

/-- How the reader will address the pixels: shape, strides in bytes, pixel type. -/
structure ReadPlan where
  bands : Val P.F
  rows : Val P.F
  cols : Val P.F
  strides : Option (Int × Int × Int)
  dtype : NpType

/-- Decision of `NitfImageReadNumpy.read_from_file` (nitf_image.py:137-166): `none` when the image
is left to another reader.  Only the RuntimeError of `dtype` is caught.  Simplification: the
attributes are read once at the start instead of as the conditions need them, which shows only if
reading one raises. -/
def readPlan (S : Store P.F) : Except Err (Option (ReadPlan P)) := do
  if !pyEq P (← ihGet P S (n!"ic")) (.str "NC".toList) then return none
  let bands ← numberBand P S
  let rows ← ihGet P S (n!"nrows")
  let cols ← ihGet P S (n!"ncols")
  let imode ← ihGet P S (n!"imode")
  let nbpr ← ihGet P S (n!"nbpr")
  let nbpc ← ihGet P S (n!"nbpc")
  let nppbh ← ihGet P S (n!"nppbh")
  let nbpp ← ihGet P S (n!"nbpp")
  let interleaved := pyEq P imode (.str "P".toList) && pyEq P nbpr (.int 1) && pyEq P nbpc rows &&
    pyEq P nppbh cols
  if !interleaved && (!pyEq P nbpr (.int 1) || !pyEq P nbpc (.int 1)) then return none
  if !interleaved && !pyEq P imode (.str "B".toList) && !pyEq P imode (.str "P".toList) then
    return none
  if pyEq P nbpp (.int 1) then return none
  match getDtype P S with
  | .error .runtime => return none
  | .error e => throw e
  | .ok dt =>
    if interleaved then
      let b ← asInt bands
      let c ← asInt cols
      return some ⟨bands, rows, cols, some (dt.size, b * c * dt.size, b * dt.size), dt⟩
    else return some ⟨bands, rows, cols, none, dt⟩

/-- The bytes of element `[b, l, s]` of the array over the file contents starting at `off`
(nitf_image.py:167-184): `numpy.ndarray(shape, dtype, buffer, strides, offset)`, whose default
strides are those of a C-contiguous array. -/
def arrayElem (file : Bytes) (off : Nat) (rows cols w : Nat) (strides : Option (Int × Int × Int))
    (b l s : Nat) : Bytes :=
  let st : Int × Int × Int := strides.getD ((rows * cols * w : Nat), (cols * w : Nat), (w : Nat))
  (file.drop (off + (b * st.1 + l * st.2.1 + s * st.2.2).toNat)).take w

/-- The image data written by `NitfImageWriteDataOnDemand.write_to_file` (nitf_image.py:343-392)
for `nb` bands, `nr` rows and `nc` columns.  The user's callback `fill start idx` gives the bytes
(`dtype.itemsize` of them) of element `idx` of the array it is handed together with
`start = (bstart, lstart, sstart)`; `tobytes` puts the elements in C order. -/
def imageBytes (mode : GenMode) (nb nr nc : Nat) (fill : Nat × Nat × Nat → List Nat → Bytes) :
    Bytes :=
  match mode with
  | .all => (List.range nb).flatMap fun b => (List.range nr).flatMap fun l =>
      (List.range nc).flatMap fun s => fill (0, 0, 0) [b, l, s]
  | .band => (List.range nb).flatMap fun b => (List.range nr).flatMap fun l =>
      (List.range nc).flatMap fun s => fill (b, 0, 0) [l, s]
  | .rowB => (List.range nr).flatMap fun r => (List.range nb).flatMap fun b =>
      (List.range nc).flatMap fun s => fill (0, r, 0) [b, s]
  | .rowP => (List.range nr).flatMap fun r => (List.range nc).flatMap fun s =>
      (List.range nb).flatMap fun b => fill (0, r, 0) [s, b]
  | .colB => (List.range nc).flatMap fun c => (List.range nb).flatMap fun b =>
      (List.range nr).flatMap fun l => fill (0, 0, c) [b, l]
  | .colP => (List.range nc).flatMap fun c => (List.range nr).flatMap fun l =>
      (List.range nb).flatMap fun b => fill (0, 0, c) [l, b]

/-- `NitfImageWriteNumpy.data_to_write` (nitf_image.py:439-440) in the given mode: `d[:,:,:]` on an
array of two dimensions is an IndexError. -/
def numpyFill (mode : GenMode) (data : Nat → Nat → Nat → Bytes) :
    Except Err (Nat × Nat × Nat → List Nat → Bytes) :=
  match mode with
  | .all => .ok fun start idx =>
      match idx with
      | [b, l, s] => data (start.1 + b) (start.2.1 + l) (start.2.2 + s)
      | _ => []
  | _ => .error .index

/-- Size of the copy buffer (nitf_image.py:76, 192). -/
def copyBuffer : Nat := 1024 * 1024

/-- The copy loop (nitf_image.py:73-87 and 189-203): `src` is what is left of the input, `left`
the counter `bytes_left`, which may go negative; the result is what is written. -/
def copyLoop (src : Bytes) (left : Int) : Bytes :=
  if 0 < left then
    let n := if left < (copyBuffer : Int) then left.toNat else copyBuffer
    src.take n ++ copyLoop (src.drop n) (left - (copyBuffer : Int))
  else []
  termination_by left.toNat
  decreasing_by
    have : 0 < copyBuffer := by decide
    omega

/-- `write_to_file` of an image that was skipped over or memory mapped: the source file is opened
again, so its contents `src` are those at the time of writing. -/
def copyImage (src : Bytes) (start size : Nat) : Bytes := copyLoop (src.drop start) size

end Verif
