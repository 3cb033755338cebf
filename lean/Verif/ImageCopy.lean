import Verif.ImageLemmas

/-
Model of copying an image object (pynitf/nitf_image.py:442-452) and writing the copy.
-/

namespace Verif

variable (P : PyFloat)

/-- An image object: its subheader, the mode it is written in, and what `self[:,:,:]` gives: the
bytes of each element in the pixel type of the subheader, or the exception raised (a
`NitfImagePlaceHolder` cannot be indexed, a `NitfImageWriteDataOnDemand` has no data before it is
written, nitf_image.py:338-341). -/
structure Img where
  sub : Store P.F
  mode : GenMode
  data : Except Err (Nat → Nat → Nat → Bytes)

/-- `shape` (nitf_image_subheader.py:238-239): bands, rows, columns. -/
def imgShape (S : Store P.F) : Except Err (Val P.F × Val P.F × Val P.F) := do
  let b ← numberBand P S
  let r ← ihGet P S (n!"nrows")
  let c ← ihGet P S (n!"ncols")
  return (b, r, c)

/-- `_deepcopy` (nitf_image.py:445-450).  The new object is a `NitfImageWriteNumpy` made with the
default mode; assigning the array keeps the values, and both arrays have the pixel type of the
subheader.  Simplification: `numpy.empty` does not raise for values that are counts. -/
def copyImg (i : Img P) : Except Err (Img P) := do
  let sub ← deepCopy P Tables.t_image_subheader i.sub
  let _ ← imgShape P i.sub
  let _ ← getDtype P i.sub
  let d ← i.data
  return ⟨sub, .all, .ok d⟩

/-- `write_to_file` of a `NitfImageWriteNumpy` (nitf_image.py:343-392, 439-440). -/
def writeImg (i : Img P) : Except Err Bytes := do
  let (b, r, c) ← imgShape P i.sub
  let _ ← getDtype P i.sub
  let nb ← asInt b
  let nr ← asInt r
  let nc ← asInt c
  let d ← i.data
  let fill ← numpyFill i.mode d
  return imageBytes i.mode nb.toNat nr.toNat nc.toNat fill

/-! ### Lemmas -/

variable {P}

/-- What is known about an image the reader accepts. -/
theorem readPlan_some {S : Store P.F} {p : ReadPlan P} (h : readPlan P S = .ok (some p)) :
    numberBand P S = .ok p.bands ∧ ihGet P S (n!"nrows") = .ok p.rows ∧
    ihGet P S (n!"ncols") = .ok p.cols ∧ getDtype P S = .ok p.dtype ∧
    (p.strides = none ∨ ∃ b c, asInt p.bands = .ok b ∧ asInt p.cols = .ok c ∧
      p.strides = some ((p.dtype.size : Int), b * c * p.dtype.size, b * p.dtype.size)) := by
  unfold readPlan at h
  simp only [bind, Except.bind, pure, Except.pure] at h
  repeat' split at h
  all_goals cases h
  · refine ⟨by assumption, by assumption, by assumption, by assumption,
      .inr ⟨_, _, by assumption, by assumption, rfl⟩⟩
  · exact ⟨by assumption, by assumption, by assumption, by assumption, .inl rfl⟩

end Verif
