import Verif.ImageLayout
import Verif.Props.Image

/-
C95: the pixels of images made by other programs, compared with the layout of the NITF standard
(MIL-STD-2500C, table A-3: IMODE, NBPR, NBPC, NPPBH, NPPBV).
-/

namespace Verif
namespace Layout

variable (P : PyFloat)

/-! ### The standard -/

/-- IMODE. -/
inductive Mode where
  | B | P | R | S
  deriving DecidableEq

def Mode.text : Mode → Str
  | .B => "B".toList
  | .P => "P".toList
  | .R => "R".toList
  | .S => "S".toList

/-- Size and blocks of an image: bands, rows, columns, blocks per row and column, and the pixels per block
as they are in the header, where 0 stands for a single block of the size of the image. -/
structure Image where
  mode : Mode
  nb : Nat
  nr : Nat
  nc : Nat
  nbpr : Nat
  nbpc : Nat
  nppbh : Nat
  nppbv : Nat

variable (I : Image)

/-- Columns of a block. -/
def Image.bh : Nat := if I.nppbh = 0 then I.nc else I.nppbh

/-- Rows of a block. -/
def Image.bv : Nat := if I.nppbv = 0 then I.nr else I.nppbv

/-- There are pixels, and the blocks cover them. -/
structure Image.Ok : Prop where
  nb : 0 < I.nb
  nr : 0 < I.nr
  nc : 0 < I.nc
  across : I.nc ≤ I.nbpr * I.bh
  down : I.nr ≤ I.nbpc * I.bv

/-- Pixels of the data of all bands, with the fill at the edges of the blocks. -/
def Image.pixels : Nat := I.nbpr * I.nbpc * (I.nb * (I.bv * I.bh))

/-- The place of a pixel in the data, in pixels: the blocks follow one another row by row; in a block the
bands follow one another (B), or are together for each pixel (P) or each row (R); S has all blocks of a band
before those of the next. -/
def Image.place (b l s : Nat) : Nat :=
  let k := l / I.bv * I.nbpr + s / I.bh
  let l' := l % I.bv
  let s' := s % I.bh
  match I.mode with
  | .B => k * (I.nb * (I.bv * I.bh)) + (b * I.bv + l') * I.bh + s'
  | .P => k * (I.nb * (I.bv * I.bh)) + (l' * I.bh + s') * I.nb + b
  | .R => k * (I.nb * (I.bv * I.bh)) + (l' * I.nb + b) * I.bh + s'
  | .S => (b * (I.nbpr * I.nbpc) + k) * (I.bv * I.bh) + l' * I.bh + s'

/-- The header says so. -/
structure Says (S : Store P.F) : Prop where
  mode : ihGet P S (n!"imode") = .ok (.str I.mode.text)
  nr : ihGet P S (n!"nrows") = .ok (.int I.nr)
  nc : ihGet P S (n!"ncols") = .ok (.int I.nc)
  nbpr : ihGet P S (n!"nbpr") = .ok (.int I.nbpr)
  nbpc : ihGet P S (n!"nbpc") = .ok (.int I.nbpc)
  nppbh : ihGet P S (n!"nppbh") = .ok (.int I.nppbh)
  nb : (ihGet P S (n!"nbands") = .ok (.int I.nb) ∧ 0 < I.nb) ∨
    (ihGet P S (n!"nbands") = .ok (.int 0) ∧ ihGet P S (n!"xbands") = .ok (.int I.nb))

/-- Interleaved by pixel in blocks of one row. -/
def Image.Rows : Prop := I.mode = .P ∧ I.nbpr = 1 ∧ I.nbpc = I.nr ∧ I.nppbh = I.nc

/-- A single block, in the modes B and P. -/
def Image.Single : Prop := (I.mode = .B ∨ I.mode = .P) ∧ I.nbpr = 1 ∧ I.nbpc = 1

/-- The layouts that are read as the standard says. -/
def Image.Right : Prop :=
  I.Rows ∨
  (I.Single ∧ I.mode = .B ∧ (I.nr = 1 ∨ I.bh = I.nc) ∧ (I.nb = 1 ∨ I.bv * I.bh = I.nr * I.nc)) ∨
  (I.Single ∧ I.mode = .P ∧ (I.nr = 1 ∨ I.bh = I.nc) ∧ (I.nb = 1 ∨ (I.nr = 1 ∧ I.nc = 1)))

/-! ### What the reader does -/

/-- Place of an element of the reader's array. -/
def seenAt (rows : Prop) [Decidable rows] (b l s : Nat) : Nat :=
  if rows then (l * I.nc + s) * I.nb + b else (b * I.nr + l) * I.nc + s

instance : Decidable I.Rows := by unfold Image.Rows; infer_instance

variable {I}

theorem text_inj {a b : Mode} : a.text = b.text ↔ a = b := by
  cases a <;> cases b <;> decide

theorem dtype_size {S : Store P.F} {t : NpType} (h : getDtype P S = .ok t) : 0 < t.size := by
  unfold getDtype at h
  simp only [bind, Except.bind, pure, Except.pure, throw, throwThe, MonadExceptOf.throw] at h
  repeat' split at h
  all_goals first
    | cases h; done
    | (cases h; decide)

theorem bands_of {S : Store P.F} (hs : Says P I S) : numberBand P S = .ok (.int I.nb) := by
  unfold numberBand
  rcases hs.nb with ⟨h, h0⟩ | ⟨h, h'⟩
  · have : (I.nb : Int) > 0 := by omega
    simp only [h, asInt, bind, Except.bind, if_pos this]
  · simp [h, h', asInt, bind, Except.bind]

theorem mode_is (m : Mode) (t : Str) (ht : t = m.text) :
    pyEq P (.str I.mode.text) (.str t) = decide (I.mode = m) := by
  subst ht
  by_cases h : I.mode = m
  · simp [pyEq, h]
  · simp [pyEq, h, text_inj]

theorem int_is (a b : Int) : pyEq P (.int a) (.int b) = decide (a = b) := by
  by_cases h : a = b <;> simp [pyEq, h]

theorem plan_of {S : Store P.F} (hs : Says P I S) {plan : ReadPlan P}
    (h : readPlan P S = .ok (some plan)) :
    (I.Rows ∨ I.Single) ∧ plan.bands = .int I.nb ∧ plan.rows = .int I.nr ∧ plan.cols = .int I.nc ∧
    0 < plan.dtype.size ∧
    plan.strides = modeStrides (if I.Rows then .rowP else .all) I.nb I.nc plan.dtype.size := by
  unfold readPlan at h
  simp only [bind, Except.bind, pure, Except.pure, throw, throwThe, MonadExceptOf.throw, bands_of P hs,
    hs.mode, hs.nr, hs.nc, hs.nbpr, hs.nbpc, hs.nppbh] at h
  split at h
  · cases h
  split at h
  · cases h
  split at h
  · cases h
  rename_i nbpp hnb
  rw [mode_is P .P "P".toList rfl, mode_is P .B "B".toList rfl] at h
  simp only [int_is] at h
  have hr : (decide (I.mode = .P) && decide ((I.nbpr : Int) = 1) && decide ((I.nbpc : Int) = I.nr) &&
      decide ((I.nppbh : Int) = I.nc)) = decide I.Rows := by
    rw [Bool.eq_iff_iff]
    simp only [Bool.and_eq_true, decide_eq_true_eq]
    constructor
    · rintro ⟨⟨⟨h1, h2⟩, h3⟩, h4⟩
      exact ⟨h1, by omega, by omega, by omega⟩
    · rintro ⟨h1, h2, h3, h4⟩
      exact ⟨⟨⟨h1, by omega⟩, by omega⟩, by omega⟩
  rw [hr] at h
  clear hr
  split at h
  · cases h
  rename_i hb
  split at h
  · cases h
  rename_i hm
  split at h
  · cases h
  have hacc : I.Rows ∨ I.Single := by
    by_cases hR : I.Rows
    · exact .inl hR
    · right
      simp only [hR, decide_false, Bool.not_false, Bool.true_and, Bool.or_eq_true, Bool.not_eq_true',
        decide_eq_false_iff_not, not_or, Decidable.not_not, Bool.and_eq_true, not_and] at hb hm
      refine ⟨?_, by omega, by omega⟩
      by_cases h1 : I.mode = .B
      · exact .inl h1
      · exact .inr (hm h1)
  cases hd : getDtype P S with
  | error e =>
    rw [hd] at h
    cases e <;> cases h
  | ok dt =>
    rw [hd] at h
    have hp := dtype_size P hd
    by_cases hR : I.Rows
    · simp only [hR, decide_true, if_true, asInt] at h
      cases h
      exact ⟨hacc, rfl, rfl, rfl, hp, by simp [hR, modeStrides]⟩
    · simp only [hR, decide_false, Bool.false_eq_true, if_false] at h
      cases h
      exact ⟨hacc, rfl, rfl, rfl, hp, by simp [hR, modeStrides]⟩

/-! ### Places -/

theorem bh_pos (h : I.Ok) : 0 < I.bh := by
  rcases Nat.eq_zero_or_pos I.bh with h0 | h0
  · have h1 := h.across
    have h2 := h.nc
    simp [h0] at h1
    omega
  · exact h0

theorem bv_pos (h : I.Ok) : 0 < I.bv := by
  rcases Nat.eq_zero_or_pos I.bv with h0 | h0
  · have h1 := h.down
    have h2 := h.nr
    simp [h0] at h1
    omega
  · exact h0

theorem rows_bh (hR : I.Rows) : I.bh = I.nc := by
  unfold Image.bh
  split
  · rfl
  · exact hR.2.2.2

theorem place_rows (hR : I.Rows) {b l s : Nat} (hs : s < I.nc) :
    I.place b l s = (l * I.nc + s) * I.nb + b := by
  have hb := rows_bh hR
  simp only [Image.place, hR.1, hR.2.1, hb, Nat.div_eq_of_lt hs, Nat.mod_eq_of_lt hs, Nat.mul_one,
    Nat.add_zero]
  have e := Nat.div_add_mod l I.bv
  generalize l / I.bv = q at e ⊢
  generalize l % I.bv = r at e ⊢
  subst e
  rw [Nat.add_mul, Nat.add_mul, Nat.add_mul, Nat.add_mul]
  have : q * (I.nb * (I.bv * I.nc)) = I.bv * q * I.nc * I.nb := by
    simp only [Nat.mul_left_comm, Nat.mul_comm]
  rw [this]
  omega

theorem place_single (hS : I.Single) (h : I.Ok) {b l s : Nat} (hl : l < I.nr) (hs : s < I.nc) :
    (I.mode = .B → I.place b l s = (b * I.bv + l) * I.bh + s) ∧
    (I.mode = .P → I.place b l s = (l * I.bh + s) * I.nb + b) := by
  have h1 := h.across
  have h2 := h.down
  rw [hS.2.1, Nat.one_mul] at h1
  rw [hS.2.2, Nat.one_mul] at h2
  have hl' : l < I.bv := by omega
  have hs' : s < I.bh := by omega
  constructor <;> intro hm <;>
    simp [Image.place, hm, Nat.div_eq_of_lt hl', Nat.mod_eq_of_lt hl', Nat.div_eq_of_lt hs',
      Nat.mod_eq_of_lt hs']

/-- The reader's places are those of the standard for exactly these layouts. -/
theorem places_iff (h : I.Ok) (ha : I.Rows ∨ I.Single) :
    (∀ b l s, b < I.nb → l < I.nr → s < I.nc → I.place b l s = seenAt I I.Rows b l s) ↔ I.Right := by
  by_cases hR : I.Rows
  · refine ⟨fun _ => .inl hR, fun _ b l s _ _ hs => ?_⟩
    simp only [seenAt, if_pos hR]
    exact place_rows hR hs
  · have hS : I.Single := ha.resolve_left hR
    simp only [seenAt, if_neg hR]
    have hnb := h.nb
    have hnr := h.nr
    have hnc := h.nc
    constructor
    · intro hp
      right
      rcases hS.1 with hm | hm
      · left
        refine ⟨hS, hm, ?_, ?_⟩
        · by_cases h1 : I.nr = 1
          · exact .inl h1
          · have := hp 0 1 0 hnb (by omega) hnc
            rw [(place_single hS h (by omega) hnc).1 hm] at this
            right
            simpa using this
        · by_cases h1 : I.nb = 1
          · exact .inl h1
          · have := hp 1 0 0 (by omega) hnr hnc
            rw [(place_single hS h hnr hnc).1 hm] at this
            right
            simpa using this
      · right
        have h2 : I.nb = 1 ∨ (I.nr = 1 ∧ I.nc = 1) := by
          by_cases h1 : I.nb = 1
          · exact .inl h1
          · have := hp 1 0 0 (by omega) hnr hnc
            rw [(place_single hS h hnr hnc).2 hm] at this
            right
            simp only [Nat.zero_mul, Nat.add_zero, Nat.zero_add, Nat.one_mul] at this
            exact ⟨Nat.eq_one_of_mul_eq_one_right this.symm, Nat.eq_one_of_mul_eq_one_left this.symm⟩
        refine ⟨hS, hm, ?_, h2⟩
        by_cases h1 : I.nr = 1
        · exact .inl h1
        · right
          have h3 : I.nb = 1 := by
            rcases h2 with h2 | h2
            · exact h2
            · exact absurd h2.1 h1
          have := hp 0 1 0 hnb (by omega) hnc
          rw [(place_single hS h (by omega) hnc).2 hm, h3] at this
          simpa using this
    · rintro (hr | ⟨-, hm, h1, h2⟩ | ⟨-, hm, h1, h2⟩) b l s hb hl hs
      · exact absurd hr hR
      · rw [(place_single hS h hl hs).1 hm]
        have e1 : l * I.bh = l * I.nc := by
          rcases h1 with h1 | h1
          · have : l = 0 := by omega
            simp [this]
          · rw [h1]
        have e2 : b * I.bv * I.bh = b * I.nr * I.nc := by
          rcases h2 with h2 | h2
          · have : b = 0 := by omega
            simp [this]
          · rw [Nat.mul_assoc, h2, Nat.mul_assoc]
        rw [Nat.add_mul, Nat.add_mul, e1, e2]
      · rw [(place_single hS h hl hs).2 hm]
        have e1 : l * I.bh = l * I.nc := by
          rcases h1 with h1 | h1
          · have : l = 0 := by omega
            simp [this]
          · rw [h1]
        rcases h2 with h2 | ⟨h2, h3⟩
        · have : b = 0 := by omega
          simp [this, h2, e1]
        · have e3 : l = 0 := by omega
          have e4 : s = 0 := by omega
          simp [h2, h3, e3, e4]

theorem fits (h : I.Ok) : I.nb * I.nr * I.nc ≤ I.pixels := by
  have h1 := Nat.mul_le_mul h.down h.across
  have h2 := Nat.mul_le_mul_left I.nb h1
  have e : I.nb * (I.nbpc * I.bv * (I.nbpr * I.bh)) = I.pixels := by
    unfold Image.pixels
    simp only [Nat.mul_assoc, Nat.mul_left_comm, Nat.mul_comm]
  rw [← e, Nat.mul_assoc]
  exact h2

theorem seen_lt {b l s : Nat} (hb : b < I.nb) (hl : l < I.nr) (hs : s < I.nc) :
    seenAt I I.Rows b l s < I.nb * I.nr * I.nc := by
  have key : ∀ {n1 n2 n3 i j k : Nat}, i < n1 → j < n2 → k < n3 → (i * n2 + j) * n3 + k < n1 * n2 * n3 := by
    intro n1 n2 n3 i j k hi hj hk
    have a1 : (i + 1) * n2 ≤ n1 * n2 := Nat.mul_le_mul_right _ hi
    rw [Nat.succ_mul] at a1
    have a2 : (i * n2 + j + 1) * n3 ≤ n1 * n2 * n3 := Nat.mul_le_mul_right _ (by omega)
    rw [Nat.succ_mul] at a2
    omega
  unfold seenAt
  split
  · rw [show I.nb * I.nr * I.nc = I.nr * I.nc * I.nb by simp only [Nat.mul_left_comm, Nat.mul_comm]]
    exact key hl hs hb
  · exact key hb hl hs

theorem elem_at {S : Store P.F} (hs : Says P I S) (h : I.Ok) {plan : ReadPlan P}
    (hp : readPlan P S = .ok (some plan)) {pre data post : Bytes}
    (hd : data.length = I.pixels * plan.dtype.size) {b l s : Nat} (hb : b < I.nb) (hl : l < I.nr)
    (hc : s < I.nc) :
    arrayElem (pre ++ data ++ post) pre.length I.nr I.nc plan.dtype.size plan.strides b l s =
      (data.drop (seenAt I I.Rows b l s * plan.dtype.size)).take plan.dtype.size := by
  obtain ⟨-, -, -, -, -, hst⟩ := plan_of P hs hp
  have hlt : seenAt I I.Rows b l s < I.pixels := Nat.lt_of_lt_of_le (seen_lt hb hl hc) (fits h)
  have hfit : seenAt I I.Rows b l s * plan.dtype.size + plan.dtype.size ≤ data.length := by
    rw [hd, ← Nat.succ_mul]
    exact Nat.mul_le_mul_right _ hlt
  have e : elemNo (if I.Rows then .rowP else .all) I.nb I.nr I.nc b l s = seenAt I I.Rows b l s := by
    unfold seenAt
    split <;> rfl
  rw [hst, C35_address (mode := if I.Rows then .rowP else .all) I.nb I.nr I.nc plan.dtype.size b l s
    (by rw [e]; exact hfit), e]

/-! ### The property -/

/-- The array shows every pixel the standard has at its place, whatever the data and the rest of the
file. -/
def ShowsPixels (plan : ReadPlan P) (I : Image) : Prop :=
  ∀ pre data post : Bytes, data.length = I.pixels * plan.dtype.size →
    ∀ b l s, b < I.nb → l < I.nr → s < I.nc →
      arrayElem (pre ++ data ++ post) pre.length I.nr I.nc plan.dtype.size plan.strides b l s =
        (data.drop (I.place b l s * plan.dtype.size)).take plan.dtype.size

/-- C95.  For exactly which layouts an image that is accepted is shown as the standard says. -/
theorem C95_right_iff {S : Store P.F} (hs : Says P I S) (h : I.Ok) {plan : ReadPlan P}
    (hp : readPlan P S = .ok (some plan)) : ShowsPixels P plan I ↔ I.Right := by
  obtain ⟨ha, -, -, -, hw, -⟩ := plan_of P hs hp
  rw [← places_iff h ha]
  constructor
  · intro hsh b l s hb hl hc
    apply Classical.byContradiction
    intro hne
    let w := plan.dtype.size
    let a := seenAt I I.Rows b l s
    let data : Bytes := (List.range (I.pixels * w)).map fun i => if i = a * w then 1 else 0
    have hlen : data.length = I.pixels * w := by simp [data]
    have e1 := hsh [] data [] hlen b l s hb hl hc
    rw [elem_at P hs h hp hlen hb hl hc] at e1
    have e2 := congrArg (fun x : Bytes => x[0]?) e1
    simp only [List.getElem?_take, hw, if_true, List.getElem?_drop, Nat.add_zero] at e2
    have hlt : a * w < I.pixels * w :=
      Nat.mul_lt_mul_of_pos_right (Nat.lt_of_lt_of_le (seen_lt hb hl hc) (fits h)) hw
    have e3 : data[a * w]? = some 1 := by simp [data, hlt]
    have hne' : I.place b l s * w ≠ a * w := fun hh => hne (Nat.eq_of_mul_eq_mul_right hw hh)
    rw [e3] at e2
    have e4 : data[I.place b l s * w]? ≠ some 1 := by
      simp only [data, List.getElem?_map]
      intro hh
      cases hr : (List.range (I.pixels * w))[I.place b l s * w]? with
      | none => simp [hr] at hh
      | some y =>
        have := (List.getElem?_eq_some_iff.mp hr)
        obtain ⟨h1, h2⟩ := this
        simp at h2
        rw [hr] at hh
        simp [← h2, hne'] at hh
    exact e4 e2.symm
  · intro hpl pre data post hlen b l s hb hl hc
    rw [elem_at P hs h hp hlen hb hl hc, hpl b l s hb hl hc]

/-- C95, the part that holds.  Missing: the images of `C95_wrong`. -/
theorem C95_right_partial {S : Store P.F} (hs : Says P I S) (h : I.Ok) {plan : ReadPlan P}
    (hp : readPlan P S = .ok (some plan)) (hr : I.Right) : ShowsPixels P plan I :=
  (C95_right_iff P hs h hp).2 hr

/-- C95.  Images with more than one block, except those with a block for each row and the pixels together,
and those in the modes R and S are left to another reader. -/
theorem C95_accepted {S : Store P.F} (hs : Says P I S) {plan : ReadPlan P}
    (hp : readPlan P S = .ok (some plan)) :
    (I.Rows ∨ I.Single) ∧ plan.bands = .int I.nb ∧ plan.rows = .int I.nr ∧ plan.cols = .int I.nc := by
  obtain ⟨h1, h2, h3, h4, -⟩ := plan_of P hs hp
  exact ⟨h1, h2, h3, h4⟩

/-- C95 violated: images that are accepted and shown wrong.  One block with the pixels interleaved, of two
or more bands and pixels; and one block, of more than one row, with fill at the right. -/
theorem C95_wrong {S : Store P.F} (hs : Says P I S) (h : I.Ok) {plan : ReadPlan P}
    (hp : readPlan P S = .ok (some plan)) (hR : ¬ I.Rows)
    (hw : (I.mode = .P ∧ 1 < I.nb ∧ 1 < I.nr * I.nc) ∨ (1 < I.nr ∧ I.nc < I.bh)) :
    ¬ ShowsPixels P plan I := by
  rw [C95_right_iff P hs h hp]
  rintro (hr | ⟨-, hm, h1, h2⟩ | ⟨-, hm, h1, h2⟩)
  · exact hR hr
  · rcases hw with ⟨hm', -⟩ | ⟨h3, h4⟩
    · rw [hm] at hm'
      cases hm'
    · omega
  · rcases hw with ⟨-, h3, h4⟩ | ⟨h3, h4⟩
    · rcases h2 with h2 | ⟨h2, h5⟩
      · omega
      · rw [h2, h5] at h4
        omega
    · omega

/-- No fill: the blocks are just as large as the image. -/
def Image.NoFill (I : Image) : Prop := I.nbpr * I.bh = I.nc ∧ I.nbpc * I.bv = I.nr

theorem taken_iff (h : I.Ok) : I.nb * I.nr * I.nc = I.pixels ↔ I.NoFill := by
  have e : I.pixels = I.nb * ((I.nbpc * I.bv) * (I.nbpr * I.bh)) := by
    unfold Image.pixels
    simp only [Nat.mul_assoc, Nat.mul_left_comm, Nat.mul_comm]
  rw [e, Nat.mul_assoc]
  have h1 := h.across
  have h2 := h.down
  have h3 := h.nr
  have h4 := h.nc
  unfold Image.NoFill
  generalize I.nbpr * I.bh = x at *
  generalize I.nbpc * I.bv = y at *
  constructor
  · intro hh
    have hh := Nat.eq_of_mul_eq_mul_left h.nb hh
    have e1 : I.nr * I.nc ≤ I.nr * x := Nat.mul_le_mul_left _ h1
    have e2 : I.nr * x ≤ y * x := Nat.mul_le_mul_right _ h2
    have e3 : I.nr * I.nc = I.nr * x := by omega
    have e4 : I.nr * x = y * x := by omega
    have hx : 0 < x := by omega
    exact ⟨(Nat.eq_of_mul_eq_mul_left h3 e3).symm, (Nat.eq_of_mul_eq_mul_right hx e4).symm⟩
  · rintro ⟨rfl, rfl⟩
    rfl

/-- C95.  After the image the file is read on where the data ends, and writing the image again writes all of
its data, exactly if there is no fill.  Otherwise (`C95_wrong_fill`) what follows is read from the middle of
the image. -/
theorem C95_taken {S : Store P.F} (hs : Says P I S) (h : I.Ok) {plan : ReadPlan P}
    (hp : readPlan P S = .ok (some plan)) {pre data post : Bytes}
    (hd : data.length = I.pixels * plan.dtype.size) :
    (positionAfter pre.length I.nb I.nr I.nc plan.dtype = (pre ++ data).length ↔ I.NoFill) ∧
    (rewritten (pre ++ data ++ post) pre.length I.nb I.nr I.nc plan.dtype = data ↔ I.NoFill) := by
  obtain ⟨-, -, -, -, hw, -⟩ := plan_of P hs hp
  have key : I.nb * I.nr * I.nc * plan.dtype.size = data.length ↔ I.NoFill := by
    rw [hd, ← taken_iff h]
    exact ⟨Nat.eq_of_mul_eq_mul_right hw, fun e => by rw [e]⟩
  have hle : I.nb * I.nr * I.nc * plan.dtype.size ≤ data.length := by
    rw [hd]
    exact Nat.mul_le_mul_right _ (fits h)
  constructor
  · rw [← key, positionAfter, takenSize, List.length_append]
    omega
  · rw [← key, rewritten, takenSize, C36_copy_exact, List.append_assoc, List.drop_left,
      List.take_append_of_le_length hle]
    constructor
    · intro hh
      have := congrArg List.length hh
      rw [List.length_take] at this
      omega
    · intro hh
      rw [hh, List.take_length]

/-- C95 violated: with fill the position after the image is before the end of its data, and the copy is too
short. -/
theorem C95_wrong_fill {S : Store P.F} (hs : Says P I S) (h : I.Ok) {plan : ReadPlan P}
    (hp : readPlan P S = .ok (some plan)) (hf : ¬ I.NoFill) {pre data post : Bytes}
    (hd : data.length = I.pixels * plan.dtype.size) :
    positionAfter pre.length I.nb I.nr I.nc plan.dtype < (pre ++ data).length ∧
    (rewritten (pre ++ data ++ post) pre.length I.nb I.nr I.nc plan.dtype).length < data.length := by
  obtain ⟨-, -, -, -, hw, -⟩ := plan_of P hs hp
  have hle : I.nb * I.nr * I.nc < I.pixels :=
    Nat.lt_of_le_of_ne (fits h) fun e => hf ((taken_iff h).1 e)
  have hlt : I.nb * I.nr * I.nc * plan.dtype.size < data.length := by
    rw [hd]
    exact Nat.mul_lt_mul_of_pos_right hle hw
  constructor
  · rw [positionAfter, takenSize, List.length_append]
    omega
  · rw [rewritten, takenSize, C36_copy_exact, List.append_assoc, List.drop_left,
      List.take_append_of_le_length (Nat.le_of_lt hlt), List.length_take]
    omega

/-! ### Concrete cases -/

/-- 2 bands, 2 rows and 3 columns as this library writes them row by row. -/
example : ∃ plan, let S := (newImage P0 ⟨[], [], [], [], [], 0⟩ 2 3 ⟨.u, 1, .big⟩ 2 .rowP).1
    let I : Image := ⟨.P, 2, 2, 3, 1, 2, 3, 1⟩
    Says P0 I S ∧ I.Ok ∧ readPlan P0 S = .ok (some plan) ∧ I.Right ∧ I.NoFill := by
  refine ⟨_, ⟨?_, ?_, ?_, ?_, ?_, ?_, ?_⟩, ⟨?_, ?_, ?_, ?_, ?_⟩, rfl, .inl ⟨?_, ?_, ?_, ?_⟩, ?_, ?_⟩
  all_goals first | decide +kernel | exact Or.inl (by decide +kernel)

/-- The same with the pixels together in one block. -/
example : ∃ plan, let S := (runSteps [fun _ => newImage P0 ⟨[], [], [], [], [], 0⟩ 2 3 ⟨.u, 1, .big⟩ 2 .all,
      ihSet P0 (n!"imode") (.str "P".toList)] Store.empty).1
    let I : Image := ⟨.P, 2, 2, 3, 1, 1, 3, 2⟩
    Says P0 I S ∧ I.Ok ∧ readPlan P0 S = .ok (some plan) ∧ ¬ I.Rows ∧
      (I.mode = .P ∧ 1 < I.nb ∧ 1 < I.nr * I.nc) := by
  refine ⟨_, ⟨?_, ?_, ?_, ?_, ?_, ?_, ?_⟩, ⟨?_, ?_, ?_, ?_, ?_⟩, rfl, ?_, ?_, ?_, ?_⟩
  all_goals first | decide +kernel | exact Or.inl (by decide +kernel)

/-- One block of 4 columns for an image of 3. -/
example : ∃ plan, let S := (runSteps [fun _ => newImage P0 ⟨[], [], [], [], [], 0⟩ 2 3 ⟨.u, 1, .big⟩ 2 .all,
      ihSet P0 (n!"nppbh") (.int 4)] Store.empty).1
    let I : Image := ⟨.B, 2, 2, 3, 1, 1, 4, 2⟩
    Says P0 I S ∧ I.Ok ∧ readPlan P0 S = .ok (some plan) ∧ ¬ I.Rows ∧ (1 < I.nr ∧ I.nc < I.bh) ∧
      ¬ I.NoFill := by
  refine ⟨_, ⟨?_, ?_, ?_, ?_, ?_, ?_, ?_⟩, ⟨?_, ?_, ?_, ?_, ?_⟩, rfl, ?_, ⟨?_, ?_⟩, ?_⟩
  all_goals first | decide +kernel | exact Or.inl (by decide +kernel) | (rintro ⟨h, -⟩; exact absurd h (by decide))

end Layout
end Verif
