import Verif.Image
import Verif.Fixed
import Verif.Decimal

/-
Model of the corner coordinates of an image, field IGEOLO (pynitf/nitf_image_subheader.py:215-234,
242-371).  Finite floats are the rational numbers they stand for.  The inexact operations of
`nitf_encode_dms_loc` are a parameter, so that their rounding is covered; all other arithmetic
(range checks, decimal parsing, the sums of the reader) is exact here.
-/

namespace Verif

variable (P : PyFloat)

/-- The operations of `nitf_encode_dms_loc` that may round: `x * 60.0` and `x + 0.5`.  (Taking off
the integer part is exact in floating point.) -/
structure DmsArith where
  mul60 : ℚ → ℚ
  addHalf : ℚ → ℚ

/-- Exact arithmetic. -/
def DmsArith.exact : DmsArith := ⟨fun x => x * 60, fun x => x + 1 / 2⟩

/-- Degrees, minutes and seconds of a number that is not negative
(nitf_image_subheader.py:263-275). -/
def dmsParts (A : DmsArith) (v : ℚ) : ℤ × ℤ × ℤ :=
  let deg := ⌊v⌋
  let x := A.mul60 (v - deg)
  let min := ⌊x⌋
  let y := A.mul60 (x - min)
  let sec := ⌊A.addHalf y⌋
  if sec = 60 then
    if min + 1 = 60 then (deg + 1, 0, 0) else (deg, min + 1, 0)
  else (deg, min, sec)

/-- `nitf_encode_dms_loc` (nitf_image_subheader.py:257-280). -/
def encodeDms (A : DmsArith) (v : ℚ) (lat : Bool) : Str :=
  let hemi : Char := if lat then (if v < 0 then 'S' else 'N') else (if v < 0 then 'W' else 'E')
  let p := dmsParts A |v|
  (if lat then fmtInt 2 p.1 else fmtInt 3 p.1) ++ fmtInt 2 p.2.1 ++ fmtInt 2 p.2.2 ++ [hemi]

/-- `"%+#0w.3f" % n`: sign always written, zero padding after it. -/
def fmtFixedPlus (w : ℕ) (n : ℚ) : Str :=
  (if n < 0 then '-' else '+') :: padLeft '0' (w - 1) (fixedText |n| 3)

/-- `buf[i:j] = t` on a bytearray, which grows or shrinks if `t` is not `j - i` long. -/
def setSlice (buf : Str) (i j : ℕ) (t : Str) : Str := buf.take i ++ t ++ buf.drop j

/-- The four corners in the order upper left, upper right, lower right, lower left; each is
(X, Y). -/
structure Corners where
  ul : ℚ × ℚ
  ur : ℚ × ℚ
  lr : ℚ × ℚ
  ll : ℚ × ℚ
  deriving DecidableEq

def Corners.list (c : Corners) : List (ℚ × ℚ) := [c.ul, c.ur, c.lr, c.ll]

/-- The range check for geographic coordinates (nitf_image_subheader.py:296-300). -/
def geoInRange (c : Corners) : Bool :=
  c.list.all fun p => decide (¬ |p.1| > 180) && decide (¬ |p.2| > 90)

/-- `check_igeolo_utm_x` and `check_igeolo_utm_y` (nitf_image_subheader.py:247-255). -/
def utmInRange (p : ℚ × ℚ) : Bool :=
  decide (¬ (⌊p.1 + 1 / 2⌋ < -100000 ∨ ⌊p.1 + 1 / 2⌋ ≥ 1000000)) &&
  decide (¬ (⌊p.2 + 1 / 2⌋ < -1000000 ∨ ⌊p.2 + 1 / 2⌋ ≥ 10000000))

/-- The UTM text of a corner (nitf_image_subheader.py:325-336). -/
def utmText (zone : ℤ) (p : ℚ × ℚ) : Str :=
  fmtInt 2 zone ++ fmtInt 6 ⌊p.2⌋ ++ fmtInt 7 ⌊p.1⌋

/-- Sixty blanks. -/
def igeoloBlank : Str := List.replicate 60 ' '

/-- Four corner texts put in their places. -/
def setCorners (f : ℚ × ℚ → Str) (c : Corners) : Str :=
  setSlice (setSlice (setSlice (setSlice igeoloBlank 0 15 (f c.ul)) 15 30 (f c.ur)) 30 45 (f c.lr))
    45 60 (f c.ll)

/-- `nitf_write_igeolo` (nitf_image_subheader.py:288-337).  `zone` is not used for geographic
coordinates. -/
def writeIgeolo (A : DmsArith) (ch : Str) (zone : ℤ) (c : Corners) : Except Err Str :=
  if ch = ['G'] then
    if !geoInRange c then .error .runtime
    else
      let b := setSlice igeoloBlank 0 7 (encodeDms A c.ul.2 true)
      let b := setSlice b 7 15 (encodeDms A c.ul.1 false)
      let b := setSlice b 15 22 (encodeDms A c.ur.2 true)
      let b := setSlice b 22 30 (encodeDms A c.ur.1 false)
      let b := setSlice b 30 37 (encodeDms A c.lr.2 true)
      let b := setSlice b 37 45 (encodeDms A c.lr.1 false)
      let b := setSlice b 45 52 (encodeDms A c.ll.2 true)
      .ok (setSlice b 52 60 (encodeDms A c.ll.1 false))
  else if ch = ['D'] then
    if !geoInRange c then .error .runtime
    else .ok (setCorners (fun p => fmtFixedPlus 7 p.2 ++ fmtFixedPlus 8 p.1) c)
  else if ch = ['N'] ∨ ch = ['S'] then
    if !c.list.all utmInRange then .error .runtime
    else .ok (setCorners (utmText zone) c)
  else .error .runtime

/-- `s[i:j]`. -/
def slice (s : Str) (i j : ℕ) : Str := (s.drop i).take (j - i)

/-- `float(t)`.  Simplification: white space around the number, exponents, infinities and NaN, none
of which the writer produces, are rejected. -/
def floatOf (t : Str) : Except Err ℚ :=
  match decimalValue t with
  | some q => .ok q
  | none => .error .value

/-- `p[i] in (a, b)` for `p` of type bytes or str: indexing bytes gives an int, which is equal to no
str. -/
def itemIn (bytes : Bool) (p : Str) (i : ℕ) (cs : List Char) : Except Err Bool :=
  match p[i]? with
  | none => .error .index
  | some c =>
    let v : Val Unit := if bytes then .int c.toNat else .str [c]
    .ok (cs.any fun d => decide (v = .str [d]))

/-- The body of the loop of `nitf_read_igeolo` (nitf_image_subheader.py:347-370). -/
def readCorner (bytes : Bool) (ch p : Str) : Except Err ((ℚ × ℚ) × Option ℤ) :=
  if ch = ['N'] ∨ ch = ['S'] then do
    let zone ← pyIntS (slice p 0 2)
    let a ← floatOf (slice p 2 8)
    let b ← floatOf (slice p 8 15)
    return ((a, b), some zone)
  else if ch = ['G'] then do
    let y := (← floatOf (slice p 0 2)) + (← floatOf (slice p 2 4)) / 60 +
      (← floatOf (slice p 4 6)) / 3600
    let y := if ← itemIn bytes p 6 ['s', 'S'] then y * -1 else y
    let x := (← floatOf (slice p 7 10)) + (← floatOf (slice p 10 12)) / 60 +
      (← floatOf (slice p 12 14)) / 3600
    let x := if ← itemIn bytes p 14 ['w', 'W'] then x * -1 else x
    return ((x, y), none)
  else do
    let y ← floatOf (slice p 0 7)
    let x ← floatOf (slice p 7 15)
    return ((x, y), none)

/-- `nitf_read_igeolo` (nitf_image_subheader.py:339-371) on bytes or on a str; the zone is that of
the last corner. -/
def readIgeolo (bytes : Bool) (ch s : Str) : Except Err (Corners × Option ℤ) :=
  if ch ≠ ['G'] ∧ ch ≠ ['N'] ∧ ch ≠ ['S'] ∧ ch ≠ ['D'] then .error .runtime
  else do
    let a ← readCorner bytes ch (slice s 0 15)
    let b ← readCorner bytes ch (slice s 15 30)
    let c ← readCorner bytes ch (slice s 30 45)
    let d ← readCorner bytes ch (slice s 45 60)
    return (⟨a.1, b.1, c.1, d.1⟩, d.2)

/-- `geolo_corner` (nitf_image_subheader.py:215-221): the text is handed on as bytes. -/
def getGeolo (S : Store P.F) : Except Err (Corners × Option ℤ) := do
  match ← ihGet P S (n!"icords"), ← ihGet P S (n!"igeolo") with
  | .str ch, .str s => readIgeolo true ch s
  | _, _ => throw .attr

/-- `geolo_corner` setter (nitf_image_subheader.py:223-234). -/
def setGeolo (A : DmsArith) (ch : Str) (zone : ℤ) (c : Corners) : Step P.F := fun S =>
  runSteps [ihSet P (n!"icords") (.str ch), fun S' =>
    match writeIgeolo A ch zone c with
    | .error e => (S', some e)
    | .ok s => ihSet P (n!"igeolo") (.str s) S'] S

end Verif
