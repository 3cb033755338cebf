import Verif.RadCalc
import Verif.Props.View

/- C103: images computed from others while they are written (model in `Verif/RadCalc.lean`). -/

namespace Verif.RadCalc

open Verif

/-! ### Specification -/

/-- The image has enough of one dimension, or only one element, which counts for all. -/
def Enough (n l : Nat) : Prop := l ≤ n ∨ n = 1

/-- The image can be used for a result of this shape. -/
def Covers {α : Type} (a : Arr α) (nb nr nc : Nat) : Prop :=
  Enough a.n0 nb ∧ Enough a.n1 nr ∧ Enough a.n2 nc

/-- The pixel of an image used for pixel `[b, l, s]` of the result. -/
def Arr.used {α : Type} (a : Arr α) (b l s : Nat) : α :=
  a.px (if a.n0 = 1 then 0 else b) (if a.n1 = 1 then 0 else l) (if a.n2 = 1 then 0 else s)

/-- What the radiance should be. -/
def Calc.radiance (c : Calc) (b l s : Nat) : Bytes :=
  c.cast (c.add (c.mul (c.dn.used b l s) (c.gain.used b l s)) (c.offset.used b l s))

/-- What a user expects: the image is written with the radiances, in each mode an image can be made
with. -/
def AllModes : Prop :=
  ∀ (c : Calc) (mode : GenMode) (nb nr nc : Nat), mode ∈ usableModes → 1 ≤ nb → 1 ≤ nr → 1 ≤ nc →
    Covers c.dn nb nr nc → Covers c.gain nb nr nc → Covers c.offset nb nr nc →
    c.write mode nb nr nc = .ok (imageBytes mode nb nr nc (fillOf mode c.radiance))

/-! ### Lemmas -/

theorem sliceLen_zero (l n : Nat) : sliceLen 0 l n = min l n := by
  unfold sliceLen
  simp

theorem bdim_enough {l x y : Nat} (hx : x = l ∨ x = 1) (hy : y = l ∨ y = 1) :
    ∃ p, bdim x y = .ok p ∧ (p = l ∨ p = 1) := by
  unfold bdim
  split
  · exact ⟨_, rfl, hx⟩
  · split
    · exact ⟨_, rfl, hy⟩
    · split
      · exact ⟨_, rfl, hx⟩
      · omega

/-- One dimension of the whole computation. -/
theorem dim_iff {l : Nat} (hl : 1 ≤ l) (a b c : Nat) :
    (∃ p r, bdim (min l a) (min l b) = .ok p ∧ bdim p (min l c) = .ok r ∧ (r = l ∨ r = 1)) ↔
      Enough a l ∧ Enough b l ∧ Enough c l := by
  unfold bdim Enough
  constructor
  · rintro ⟨p, r, h1, h2, h3⟩
    split at h1
    · injection h1 with h1
      split at h2
      · injection h2 with h2
        omega
      · split at h2
        · injection h2 with h2
          omega
        · split at h2
          · injection h2 with h2
            omega
          · cases h2
    · split at h1
      · injection h1 with h1
        split at h2
        · injection h2 with h2
          omega
        · split at h2
          · injection h2 with h2
            omega
          · split at h2
            · injection h2 with h2
              omega
            · cases h2
      · split at h1
        · injection h1 with h1
          split at h2
          · injection h2 with h2
            omega
          · split at h2
            · injection h2 with h2
              omega
            · split at h2
              · injection h2 with h2
                omega
              · cases h2
        · cases h1
  · rintro ⟨h1, h2, h3⟩
    have v : ∀ n, l ≤ n ∨ n = 1 → min l n = l ∨ min l n = 1 := fun n h => by omega
    obtain ⟨p, e1, hp⟩ := bdim_enough (v a h1) (v b h2)
    obtain ⟨r, e2, hr⟩ := bdim_enough hp (v c h3)
    exact ⟨p, r, e1, e2, hr⟩

theorem zip_ok {α β γ : Type} {f : α → β → γ} {a : Arr α} {b : Arr β} {r : Arr γ}
    (h : Arr.zip f a b = .ok r) :
    bdim a.n0 b.n0 = .ok r.n0 ∧ bdim a.n1 b.n1 = .ok r.n1 ∧ bdim a.n2 b.n2 = .ok r.n2 ∧
    ∀ i j k, r.px i j k = f (a.px (bidx a.n0 i) (bidx a.n1 j) (bidx a.n2 k))
      (b.px (bidx b.n0 i) (bidx b.n1 j) (bidx b.n2 k)) := by
  unfold Arr.zip at h
  simp only [bind, Except.bind, pure, Except.pure] at h
  cases h0 : bdim a.n0 b.n0 with
  | error e => rw [h0] at h; cases h
  | ok m0 =>
    cases h1 : bdim a.n1 b.n1 with
    | error e => rw [h0, h1] at h; cases h
    | ok m1 =>
      cases h2 : bdim a.n2 b.n2 with
      | error e => rw [h0, h1, h2] at h; cases h
      | ok m2 =>
        rw [h0, h1, h2] at h
        injection h with h
        subst h
        exact ⟨rfl, rfl, rfl, fun _ _ _ => rfl⟩

theorem zip_of {α β γ : Type} (f : α → β → γ) {a : Arr α} {b : Arr β} {m0 m1 m2 : Nat}
    (h0 : bdim a.n0 b.n0 = .ok m0) (h1 : bdim a.n1 b.n1 = .ok m1) (h2 : bdim a.n2 b.n2 = .ok m2) :
    ∃ r, Arr.zip f a b = .ok r ∧ r.n0 = m0 ∧ r.n1 = m1 ∧ r.n2 = m2 := by
  unfold Arr.zip
  simp only [bind, Except.bind, pure, Except.pure, h0, h1, h2]
  exact ⟨_, rfl, rfl, rfl, rfl⟩

/-- An index into the product of two dimensions reaches the same element of each as the index
itself. -/
theorem bidx_bdim {m n p i : Nat} (h : bdim m n = .ok p) :
    bidx m (bidx p i) = bidx m i ∧ bidx n (bidx p i) = bidx n i := by
  unfold bdim at h
  unfold bidx
  split at h
  · injection h with h
    subst h
    subst_vars
    constructor <;> split <;> rfl
  · split at h
    · injection h with h
      subst h
      subst_vars
      constructor
      · simp
      · split <;> simp_all
    · split at h
      · injection h with h
        subst h
        subst_vars
        constructor
        · split <;> simp_all
        · simp
      · cases h

/-- The element of a dimension used: index into the window, or the only one. -/
theorem bidx_window {n l i : Nat} (hi : i < l) :
    bidx (min l n) i = if n = 1 then 0 else i := by
  unfold bidx
  by_cases h1 : n = 1
  · rw [if_pos h1, if_pos (by omega)]
  · rw [if_neg h1]
    split
    · omega
    · rfl

theorem window_used {α : Type} {a : Arr α} {nb nr nc b l s : Nat}
    (hb : b < nb) (hl : l < nr) (hs : s < nc) :
    (a.window (0, 0, 0) nb nr nc).px (bidx (a.window (0, 0, 0) nb nr nc).n0 b)
      (bidx (a.window (0, 0, 0) nb nr nc).n1 l) (bidx (a.window (0, 0, 0) nb nr nc).n2 s) =
      a.used b l s := by
  unfold Arr.window Arr.used
  simp only [sliceLen_zero, Nat.zero_add, bidx_window hb, bidx_window hl,
    bidx_window hs]

theorem data_iff (c : Calc) {nb nr nc : Nat} (hb : 1 ≤ nb) (hr : 1 ≤ nr) (hc : 1 ≤ nc) :
    (∃ d, c.dataToWrite [nb, nr, nc] (0, 0, 0) = .ok d) ↔
      Covers c.dn nb nr nc ∧ Covers c.gain nb nr nc ∧ Covers c.offset nb nr nc := by
  unfold Calc.dataToWrite
  simp only [bind, Except.bind]
  constructor
  · rintro ⟨d, h⟩
    cases hp : Arr.zip c.mul (c.dn.window (0, 0, 0) nb nr nc) (c.gain.window (0, 0, 0) nb nr nc) with
    | error e => rw [hp] at h; cases h
    | ok p =>
      rw [hp] at h
      simp only at h
      cases hq : Arr.zip c.add p (c.offset.window (0, 0, 0) nb nr nc) with
      | error e => rw [hq] at h; cases h
      | ok r =>
        rw [hq] at h
        simp only [Arr.assign] at h
        split at h
        · rename_i ha
          obtain ⟨p0, p1, p2, _⟩ := zip_ok hp
          obtain ⟨q0, q1, q2, _⟩ := zip_ok hq
          simp only [Arr.window, sliceLen_zero] at p0 p1 p2 q0 q1 q2
          have d0 := (dim_iff hb _ _ _).mp ⟨_, _, p0, q0, ha.1⟩
          have d1 := (dim_iff hr _ _ _).mp ⟨_, _, p1, q1, ha.2.1⟩
          have d2 := (dim_iff hc _ _ _).mp ⟨_, _, p2, q2, ha.2.2⟩
          exact ⟨⟨d0.1, d1.1, d2.1⟩, ⟨d0.2.1, d1.2.1, d2.2.1⟩, ⟨d0.2.2, d1.2.2, d2.2.2⟩⟩
        · cases h
  · rintro ⟨h1, h2, h3⟩
    obtain ⟨p0, r0, a0, b0, e0⟩ := (dim_iff hb _ _ _).mpr ⟨h1.1, h2.1, h3.1⟩
    obtain ⟨p1, r1, a1, b1, e1⟩ := (dim_iff hr _ _ _).mpr ⟨h1.2.1, h2.2.1, h3.2.1⟩
    obtain ⟨p2, r2, a2, b2, e2⟩ := (dim_iff hc _ _ _).mpr ⟨h1.2.2, h2.2.2, h3.2.2⟩
    obtain ⟨p, hp, g0, g1, g2⟩ := zip_of c.mul (a := c.dn.window (0, 0, 0) nb nr nc)
      (b := c.gain.window (0, 0, 0) nb nr nc) (m0 := p0) (m1 := p1) (m2 := p2)
      (by simpa only [Arr.window, sliceLen_zero] using a0)
      (by simpa only [Arr.window, sliceLen_zero] using a1)
      (by simpa only [Arr.window, sliceLen_zero] using a2)
    obtain ⟨r, hr', k0, k1, k2⟩ := zip_of c.add (a := p)
      (b := c.offset.window (0, 0, 0) nb nr nc) (m0 := r0) (m1 := r1) (m2 := r2)
      (by rw [g0]; simpa only [Arr.window, sliceLen_zero] using b0)
      (by rw [g1]; simpa only [Arr.window, sliceLen_zero] using b1)
      (by rw [g2]; simpa only [Arr.window, sliceLen_zero] using b2)
    rw [hp]
    simp only
    rw [hr']
    simp only [Arr.assign]
    rw [if_pos (by rw [k0, k1, k2]; exact ⟨e0, e1, e2⟩)]
    exact ⟨_, rfl⟩

theorem data_px {c : Calc} {nb nr nc : Nat} {d : Nat → Nat → Nat → Bytes}
    (h : c.dataToWrite [nb, nr, nc] (0, 0, 0) = .ok d) {b l s : Nat} (hb : b < nb) (hl : l < nr)
    (hs : s < nc) : d b l s = c.radiance b l s := by
  unfold Calc.dataToWrite at h
  simp only [bind, Except.bind] at h
  cases hp : Arr.zip c.mul (c.dn.window (0, 0, 0) nb nr nc) (c.gain.window (0, 0, 0) nb nr nc) with
  | error e => rw [hp] at h; cases h
  | ok p =>
    rw [hp] at h
    simp only at h
    cases hq : Arr.zip c.add p (c.offset.window (0, 0, 0) nb nr nc) with
    | error e => rw [hq] at h; cases h
    | ok r =>
      rw [hq] at h
      simp only [Arr.assign] at h
      split at h
      · injection h with h
        obtain ⟨p0, p1, p2, ppx⟩ := zip_ok hp
        obtain ⟨q0, q1, q2, qpx⟩ := zip_ok hq
        rw [← h]
        simp only
        rw [qpx, (bidx_bdim q0).1, (bidx_bdim q1).1, (bidx_bdim q2).1, (bidx_bdim q0).2,
          (bidx_bdim q1).2, (bidx_bdim q2).2, ppx, (bidx_bdim p0).1, (bidx_bdim p1).1,
          (bidx_bdim p2).1, (bidx_bdim p0).2, (bidx_bdim p1).2, (bidx_bdim p2).2,
          window_used hb hl hs, window_used hb hl hs, window_used hb hl hs]
        rfl
      · cases h

theorem flatMap_same {α β : Type} {xs : List α} {f g : α → List β} (h : ∀ x ∈ xs, f x = g x) :
    xs.flatMap f = xs.flatMap g := by
  induction xs with
  | nil => rfl
  | cons x xs ih =>
    rw [List.flatMap_cons, List.flatMap_cons, h x (by simp), ih fun y hy => h y (by simp [hy])]

theorem write_all (c : Calc) (nb nr nc : Nat) : c.write .all nb nr nc =
    (c.dataToWrite [nb, nr, nc] (0, 0, 0)).map fun d => toBytes nb nr nc d := by
  unfold Calc.write
  simp only [handed, starts, Calc.run, bind, Except.bind, pure, Except.pure, List.append_nil]
  cases c.dataToWrite [nb, nr, nc] (0, 0, 0) <;> rfl

/-! ### Theorems -/

/-- C103.  When everything is generated at once, the image can be written if and only if each of
the three images has enough bands, lines and samples, or only one. -/
theorem C103_writes_iff (c : Calc) {nb nr nc : Nat} (hb : 1 ≤ nb) (hr : 1 ≤ nr) (hc : 1 ≤ nc) :
    (∃ data, c.write .all nb nr nc = .ok data) ↔
      Covers c.dn nb nr nc ∧ Covers c.gain nb nr nc ∧ Covers c.offset nb nr nc := by
  rw [← data_iff c hb hr hc, write_all]
  constructor
  · rintro ⟨x, h⟩
    cases hd : c.dataToWrite [nb, nr, nc] (0, 0, 0) with
    | error e => rw [hd] at h; cases h
    | ok d => exact ⟨d, rfl⟩
  · rintro ⟨d, h⟩
    rw [h]
    exact ⟨_, rfl⟩

/-- C103.  What is written is the image of the radiances; C74, C97 and C100 speak about the file
with these bytes.  Missing from `AllModes`: the other modes, see `C103_other_modes`. -/
theorem C103_pixels_partial (c : Calc) {nb nr nc : Nat} {data : Bytes}
    (h : c.write .all nb nr nc = .ok data) :
    data = imageBytes .all nb nr nc (fillOf .all c.radiance) := by
  rw [write_all] at h
  cases hd : c.dataToWrite [nb, nr, nc] (0, 0, 0) with
  | error e => rw [hd] at h; cases h
  | ok d =>
    rw [hd] at h
    injection h with h
    rw [← h]
    unfold toBytes imageBytes
    refine flatMap_same fun b hb => flatMap_same fun l hl => flatMap_same fun s hs => ?_
    exact data_px hd (List.mem_range.mp hb) (List.mem_range.mp hl) (List.mem_range.mp hs)

/-- C103.  In every other mode, writing raises an IndexError: the array handed over has two
dimensions. -/
theorem C103_other_modes (c : Calc) {mode : GenMode} (hm : mode ≠ .all) {nb nr nc : Nat} (hb : 1 ≤ nb)
    (hr : 1 ≤ nr) (hc : 1 ≤ nc) : c.write mode nb nr nc = .error .index := by
  obtain ⟨b, rfl⟩ : ∃ b, nb = b + 1 := ⟨nb - 1, by omega⟩
  obtain ⟨r, rfl⟩ : ∃ r, nr = r + 1 := ⟨nr - 1, by omega⟩
  obtain ⟨k, rfl⟩ : ∃ k, nc = k + 1 := ⟨nc - 1, by omega⟩
  cases mode <;> first | exact absurd rfl hm |
    (unfold Calc.write
     simp only [handed, starts, List.range_succ_eq_map, List.map_cons, Calc.run, Calc.dataToWrite, bind,
       Except.bind])

/-- Two bands of one line of two samples; one gain for each band, one offset for all. -/
def exCalc : Calc where
  dn := ⟨2, 1, 2, fun b _ s => 10 * b + s⟩
  gain := ⟨2, 1, 1, fun b _ _ => b + 2⟩
  offset := ⟨1, 1, 1, fun _ _ _ => 7⟩
  mul := fun (a b : Nat) => a * b
  add := fun (a b : Nat) => a + b
  cast := fun n => [0, UInt8.ofNat n]

example : exCalc.write .all 2 1 2 = .ok [0, 7, 0, 9, 0, 37, 0, 40] := by decide

example : Covers exCalc.dn 2 1 2 ∧ Covers exCalc.gain 2 1 2 ∧ Covers exCalc.offset 2 1 2 := by
  unfold Covers Enough
  decide

/-- Too few bands. -/
example : exCalc.write .all 3 1 2 = .error .value := by decide

/-- C103.  So the image cannot be written in each mode an image can be made with. -/
theorem C103_not_all_modes : ¬ AllModes := by
  intro h
  have h1 : Covers exCalc.dn 2 1 2 ∧ Covers exCalc.gain 2 1 2 ∧ Covers exCalc.offset 2 1 2 := by
    unfold Covers Enough
    decide
  have := h exCalc .band 2 1 2 (by decide) (by decide) (by decide) (by decide) h1.1 h1.2.1 h1.2.2
  rw [C103_other_modes exCalc (by decide) (by decide) (by decide) (by decide)] at this
  cases this

end Verif.RadCalc
