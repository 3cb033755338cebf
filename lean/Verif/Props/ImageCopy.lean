import Verif.ImageCopy
import Verif.Props.Image
import Verif.Props.Struct
import Verif.FileLemmas

/- C71: copies of images (model in `Verif/ImageCopy.lean`). -/

namespace Verif

variable (P : PyFloat)

/-- The pixels of an image with `nb` bands, `nr` rows and `nc` columns all have `w` bytes. -/
def Pixels (d : Nat → Nat → Nat → Bytes) (nb nr nc w : Nat) : Prop :=
  ∀ b l s, b < nb → l < nr → s < nc → (d b l s).length = w

/-- What the reader finds in a file that has `data` as the data of an image. -/
def Reads (data : Bytes) (nb nr nc w : Nat) (st : Option (Int × Int × Int))
    (what : Nat → Nat → Nat → Bytes) : Prop :=
  ∀ (pre post : Bytes) (b l s : Nat), b < nb → l < nr → s < nc →
    arrayElem (pre ++ data ++ post) pre.length nr nc w st b l s = what b l s

variable {P}

/-- Copying and writing, for any image with a header the reader accepts. -/
theorem copyImg_written {i : Img P} {h : Bytes} (hw : writeStruct P ihD i.sub = .ok h)
    (hval : ∀ n k c, i.sub n k = some c → ∃ v, c.val = .val v)
    {nb nr nc : Nat} {st : Option (Int × Int × Int)} {dt : NpType}
    (hp : readPlan P i.sub = .ok (some ⟨.int nb, .int nr, .int nc, st, dt⟩))
    {d : Nat → Nat → Nat → Bytes} (hd : i.data = .ok d) (hlen : Pixels d nb nr nc dt.size) :
    ∃ c data, copyImg P i = .ok c ∧ c.data = .ok d ∧
      (∀ nm, itemsOf P ihD c.sub nm = itemsOf P ihD i.sub nm) ∧
      writeStruct P ihD c.sub = .ok h ∧ readPlan P c.sub = readPlan P i.sub ∧
      writeImg P c = .ok data ∧ data.length = nb * nr * nc * dt.size ∧
      ∀ b l s, b < nb → l < nr → s < nc →
        (data.drop (((b * nr + l) * nc + s) * dt.size)).take dt.size = d b l s := by
  obtain ⟨cs, hc, he⟩ := writeStruct_chunks P hw
  obtain ⟨R, r1, r2, r3, _⟩ := C16_deepcopy P (subheader_causal .image) (subheader_wf .image) hc
    (survives_of_values P (subheader_survives .image) hval) hval
  obtain ⟨p1, p2, p3, p4, _⟩ := readPlan_some hp
  have hq : readPlan P R = .ok (some ⟨.int nb, .int nr, .int nc, st, dt⟩) := by
    rw [C35_same_header P r2, hp]
  obtain ⟨q1, q2, q3, q4, _⟩ := readPlan_some hq
  have hcopy : copyImg P i = .ok ⟨R, .all, .ok d⟩ := by
    unfold copyImg imgShape
    rw [show deepCopy P Tables.t_image_subheader i.sub = .ok R from r1]
    simp only [p1, p2, p3, p4, hd, bind, Except.bind, pure, Except.pure]
  obtain ⟨fill, f1, f2⟩ := (C35_numpy_writer .all d).1 rfl
  simp only [given] at f2
  refine ⟨_, imageBytes .all nb nr nc fill, hcopy, rfl, r2, ?_, by rw [hp]; exact hq, ?_, ?_, ?_⟩
  · unfold writeStruct at hw ⊢
    rw [hc] at hw
    rw [show writeChunks P ihD R = .ok cs from r3]
    exact hw
  · unfold writeImg imgShape
    simp only [q1, q2, q3, q4, f1, bind, Except.bind, pure, Except.pure, asInt, Int.toNat_natCast]
  · simp only [imageBytes, f2]
    rw [length_block3 (fun b hb l hl s hs => hlen b l s hb hl hs)]
    simp [Nat.mul_left_comm, Nat.mul_comm]
  · intro b l s hb hl hs
    simp only [imageBytes, f2]
    exact block3_at (f := d) (fun b hb l hl s hs => hlen b l s hb hl hs) hb hl hs

theorem elem_bound {n1 n2 n3 i j k : Nat} (hi : i < n1) (hj : j < n2) (hk : k < n3) :
    (i * n2 + j) * n3 + k < n1 * n2 * n3 := by
  have a1 : (i + 1) * n2 ≤ n1 * n2 := Nat.mul_le_mul_right _ hi
  rw [Nat.succ_mul] at a1
  have a2 : (i * n2 + j + 1) * n3 ≤ n1 * n2 * n3 := Nat.mul_le_mul_right _ (by omega)
  rw [Nat.succ_mul] at a2
  omega

/-- C71.  An image that is written in the file with its bands one after the other, or that has only
one band, can be copied: the copy has the same header values and pixels, is written with the same
header bytes, and the reader finds in the file the pixel of the original at every band, line and
sample.  Missing: `C71_interleaved`. -/
theorem C71_copy_partial {i : Img P} {h : Bytes} (hw : writeStruct P ihD i.sub = .ok h)
    (hval : ∀ n k c, i.sub n k = some c → ∃ v, c.val = .val v)
    {nb nr nc : Nat} {st : Option (Int × Int × Int)} {dt : NpType}
    (hp : readPlan P i.sub = .ok (some ⟨.int nb, .int nr, .int nc, st, dt⟩))
    {d : Nat → Nat → Nat → Bytes} (hd : i.data = .ok d) (hlen : Pixels d nb nr nc dt.size)
    (hs : st = none ∨ nb = 1) :
    ∃ c data, copyImg P i = .ok c ∧ c.data = .ok d ∧
      (∀ nm, itemsOf P ihD c.sub nm = itemsOf P ihD i.sub nm) ∧
      writeStruct P ihD c.sub = .ok h ∧ readPlan P c.sub = readPlan P i.sub ∧
      writeImg P c = .ok data ∧ data.length = nb * nr * nc * dt.size ∧
      Reads data nb nr nc dt.size st d := by
  obtain ⟨c, data, h1, h2, h3, h4, h5, h6, h7, h8⟩ := copyImg_written hw hval hp hd hlen
  refine ⟨c, data, h1, h2, h3, h4, h5, h6, h7, ?_⟩
  intro pre post b l s hb hl hs'
  have hb0 := elem_bound hb hl hs'
  have hfit : ((b * nr + l) * nc + s) * dt.size + dt.size ≤ data.length := by
    rw [h7, ← Nat.succ_mul]
    exact Nat.mul_le_mul_right _ hb0
  rcases hs with rfl | rfl
  · exact (C35_address (mode := .all) nb nr nc dt.size b l s hfit).trans (h8 b l s hb hl hs')
  · obtain ⟨_, _, _, _, ho⟩ := readPlan_some hp
    rcases ho with ho | ⟨b', c', e1, e2, ho⟩
    · simp only at ho
      subst ho
      exact (C35_address (mode := .all) 1 nr nc dt.size b l s hfit).trans (h8 b l s hb hl hs')
    · cases e1; cases e2
      simp only at ho
      subst ho
      have hb1 : b = 0 := by omega
      subst hb1
      have := C35_address (mode := .rowP) (pre := pre) (post := post) 1 nr nc dt.size 0 l s
        (by simp only [elemNo]; simpa using hfit)
      refine this.trans ?_
      rw [← h8 0 l s hb hl hs']
      simp [elemNo]

/-- C71.  A copy of an image whose pixels are interleaved by band: the copy has the same header
values and pixels and says it is interleaved, but its data is written one band after the other, so
the reader finds at `[b, l, s]` the pixel that has this number in the other order. -/
theorem C71_interleaved {i : Img P} {h : Bytes} (hw : writeStruct P ihD i.sub = .ok h)
    (hval : ∀ n k c, i.sub n k = some c → ∃ v, c.val = .val v)
    {nb nr nc : Nat} {st : Int × Int × Int} {dt : NpType}
    (hp : readPlan P i.sub = .ok (some ⟨.int nb, .int nr, .int nc, some st, dt⟩))
    {d : Nat → Nat → Nat → Bytes} (hd : i.data = .ok d) (hlen : Pixels d nb nr nc dt.size) :
    ∃ c data, copyImg P i = .ok c ∧ c.data = .ok d ∧
      (∀ nm, itemsOf P ihD c.sub nm = itemsOf P ihD i.sub nm) ∧
      writeStruct P ihD c.sub = .ok h ∧ readPlan P c.sub = readPlan P i.sub ∧
      writeImg P c = .ok data ∧
      ∀ (pre post : Bytes) (b l s b' l' s' : Nat), b < nb → l < nr → s < nc →
        b' < nb → l' < nr → s' < nc → (b' * nr + l') * nc + s' = (l * nc + s) * nb + b →
        arrayElem (pre ++ data ++ post) pre.length nr nc dt.size (some st) b l s = d b' l' s' := by
  obtain ⟨c, data, h1, h2, h3, h4, h5, h6, h7, h8⟩ := copyImg_written hw hval hp hd hlen
  refine ⟨c, data, h1, h2, h3, h4, h5, h6, ?_⟩
  intro pre post b l s b' l' s' hb hl hs hb' hl' hs' he
  have hb0 := elem_bound hb' hl' hs'
  have hfit : ((l * nc + s) * nb + b) * dt.size + dt.size ≤ data.length := by
    rw [h7, ← Nat.succ_mul, ← he]
    exact Nat.mul_le_mul_right _ hb0
  obtain ⟨_, _, _, _, ho⟩ := readPlan_some hp
  rcases ho with ho | ⟨b1, c1, e1, e2, ho⟩
  · cases ho
  · cases e1; cases e2
    simp only [Option.some.injEq] at ho
    subst ho
    refine (C35_address (mode := .rowP) nb nr nc dt.size b l s hfit).trans ?_
    rw [← h8 b' l' s' hb' hl' hs', he]
    rfl

/-- C71.  So with two bands or more the copy is written wrongly: where the original has the first
pixel of the second band, the reader finds the second pixel of the first band. -/
theorem C71_wrong {i : Img P} {h : Bytes} (hw : writeStruct P ihD i.sub = .ok h)
    (hval : ∀ n k c, i.sub n k = some c → ∃ v, c.val = .val v)
    {nb nr nc : Nat} {st : Int × Int × Int} {dt : NpType}
    (hp : readPlan P i.sub = .ok (some ⟨.int nb, .int nr, .int nc, some st, dt⟩))
    {d : Nat → Nat → Nat → Bytes} (hd : i.data = .ok d) (hlen : Pixels d nb nr nc dt.size)
    (hb : 2 ≤ nb) (hr : 1 ≤ nr) (hc : 2 ≤ nc) (hne : d 0 0 1 ≠ d 1 0 0) :
    ∃ c data, copyImg P i = .ok c ∧ writeImg P c = .ok data ∧
      ¬ Reads data nb nr nc dt.size (some st) d := by
  obtain ⟨c, data, h1, _, _, _, _, h6, h7⟩ := C71_interleaved hw hval hp hd hlen
  refine ⟨c, data, h1, h6, fun hr' => hne ?_⟩
  rw [← h7 [] [] 1 0 0 0 0 1 (by omega) (by omega) (by omega) (by omega) (by omega) (by omega)
    (by omega)]
  exact hr' [] [] 1 0 0 (by omega) (by omega) (by omega)

/-- C71.  An image whose pixels cannot be had (a placeholder, or one computed on demand and not yet
written) cannot be copied. -/
theorem C71_no_pixels {i : Img P} {e : Err} (h : i.data = .error e) :
    ∃ e', copyImg P i = .error e' := by
  unfold copyImg
  simp only [bind, Except.bind, h]
  repeat' split
  all_goals exact ⟨_, rfl⟩

/-- C71.  An image whose header gives none of the supported pixel types can neither be copied nor
written, and so with a header that gives no shape. -/
theorem C71_no_type {i : Img P} (h : (∃ e, getDtype P i.sub = .error e) ∨
      ∃ e, imgShape P i.sub = .error e) :
    (∃ e', copyImg P i = .error e') ∧ ∃ e', writeImg P i = .error e' := by
  unfold copyImg writeImg
  simp only [bind, Except.bind]
  rcases h with ⟨e, h⟩ | ⟨e, h⟩ <;> simp only [h] <;> constructor <;> repeat' split
  all_goals first | exact ⟨_, rfl⟩ | (rename_i h1; cases h1)

example : (getDtype P0 (setPixel P0 24 "INT" Store.empty).1).toOption.isSome = false := by
  decide +kernel

/-! ### Examples -/

/-- A header for 2 bands, 1 row, 2 columns. -/
def exImgSub (m : GenMode) : Store P0.F :=
  (newImage P0 ⟨[], [], [], [], [], 0⟩ 1 2 ⟨.u, 1, .big⟩ 2 m).1

def exPixel (b _l s : Nat) : Bytes := [UInt8.ofNat (10 * (b + 1) + s)]

def exImg (m : GenMode) : Img P0 := ⟨exImgSub m, m, .ok exPixel⟩

def exStrides (m : GenMode) : Option (Option (Int × Int × Int)) :=
  match readPlan P0 (exImgSub m) with
  | .ok (some p) => some p.strides
  | _ => none

def exCopyBytes (m : GenMode) : Option Bytes :=
  match copyImg P0 (exImg m) with
  | .ok c => (writeImg P0 c).toOption
  | .error _ => none

example : exStrides .all = some none ∧ exStrides .rowP = some (some (1, 4, 2)) := by decide +kernel

example : (writeStruct P0 ihD (exImgSub .all)).toOption.isSome = true ∧
    (writeStruct P0 ihD (exImgSub .rowP)).toOption.isSome = true := by decide +kernel

-- both copies are written one band after the other
example : exCopyBytes .all = some [10, 11, 20, 21] ∧ exCopyBytes .rowP = some [10, 11, 20, 21] := by
  decide +kernel

-- the reader then finds the pixels of the first copy, but not of the second
example : arrayElem [10, 11, 20, 21] 0 1 2 1 none 1 0 0 = [20] ∧
    arrayElem [10, 11, 20, 21] 0 1 2 1 (some (1, 4, 2)) 1 0 0 = [11] := by decide +kernel

end Verif
