import Verif.Igeolo
import Verif.ImageLemmas
import Verif.Props.Fixed

/- C37, C38: corner coordinates (model in `Verif/Igeolo.lean`). -/

namespace Verif

variable (P : PyFloat)

/-! ### Specification -/

/-- The rounding operations are off by at most `ε` and stay in range.  Exact arithmetic has `ε = 0`;
IEEE doubles are within 2⁻⁴⁶ for the arguments that occur. -/
structure DmsArith.Near (A : DmsArith) (ε : ℚ) : Prop where
  mul60 : ∀ x, 0 ≤ x → x < 1 → 0 ≤ A.mul60 x ∧ A.mul60 x < 60 ∧ |A.mul60 x - x * 60| ≤ ε
  addHalf : ∀ y, 0 ≤ y → y < 60 →
    0 ≤ A.addHalf y ∧ A.addHalf y < 61 ∧ |A.addHalf y - (y + 1 / 2)| ≤ ε

theorem DmsArith.exact_near : DmsArith.exact.Near 0 := by
  constructor
  · intro x h0 h1
    simp only [DmsArith.exact, sub_self, abs_zero, le_refl, and_true]
    constructor <;> linarith
  · intro y h0 h1
    simp only [DmsArith.exact, sub_self, abs_zero, le_refl, and_true]
    constructor <;> linarith

/-- The text of an angle: degrees, minutes and seconds, the latter below 60, and the letter of the
hemisphere; it is within `tol` seconds of the angle without sign. -/
def IsDms (lat : Bool) (v tol : ℚ) (t : Str) : Prop :=
  ∃ d m s : ℕ, m < 60 ∧ s < 60 ∧ d < (if lat then 100 else 1000) ∧
    t = padLeft '0' (if lat then 2 else 3) (decStr d) ++ padLeft '0' 2 (decStr m) ++
      padLeft '0' 2 (decStr s) ++
      [if lat then (if v < 0 then 'S' else 'N') else (if v < 0 then 'W' else 'E')] ∧
    |(d * 3600 + m * 60 + s : ℚ) - 3600 * (|v|)| ≤ tol

/-- Two points differ by at most `tol` in each coordinate. -/
def Within (tol : ℚ) (p q : ℚ × ℚ) : Prop := |q.1 - p.1| ≤ tol ∧ |q.2 - p.2| ≤ tol

/-- Corner by corner. -/
def Corners.Within (tol : ℚ) (c c' : Corners) : Prop :=
  Verif.Within tol c.ul c'.ul ∧ Verif.Within tol c.ur c'.ur ∧ Verif.Within tol c.lr c'.lr ∧
    Verif.Within tol c.ll c'.ll

def Corners.map (f : ℚ × ℚ → ℚ × ℚ) (c : Corners) : Corners := ⟨f c.ul, f c.ur, f c.lr, f c.ll⟩

/-- Longitude and latitude in range. -/
def GeoLegal (p : ℚ × ℚ) : Prop := |p.1| ≤ 180 ∧ |p.2| ≤ 90

/-! ### Proofs -/

theorem dmsParts_ok {A : DmsArith} {ε : ℚ} (hA : A.Near ε) {v : ℚ} (hv : 0 ≤ v) :
    0 ≤ (dmsParts A v).1 ∧ (dmsParts A v).1 ≤ ⌊v⌋ + 1 ∧
    0 ≤ (dmsParts A v).2.1 ∧ (dmsParts A v).2.1 < 60 ∧
    0 ≤ (dmsParts A v).2.2 ∧ (dmsParts A v).2.2 < 60 ∧
    |(((dmsParts A v).1 : ℚ) * 3600 + (dmsParts A v).2.1 * 60 + (dmsParts A v).2.2) - 3600 * v| ≤
      1 / 2 + 62 * ε := by
  have f1 := Int.floor_le v
  have f2 := Int.lt_floor_add_one v
  have f0 : 0 ≤ ⌊v⌋ := Int.floor_nonneg.mpr hv
  obtain ⟨a1, a2, a3⟩ := hA.mul60 (v - ⌊v⌋) (by linarith) (by linarith)
  unfold dmsParts
  simp only
  generalize A.mul60 (v - ⌊v⌋) = x at a1 a2 a3 ⊢
  have g1 := Int.floor_le x
  have g2 := Int.lt_floor_add_one x
  have g0 : 0 ≤ ⌊x⌋ := Int.floor_nonneg.mpr a1
  have g60 : ⌊x⌋ < 60 := by rw [Int.floor_lt]; exact_mod_cast a2
  obtain ⟨b1, b2, b3⟩ := hA.mul60 (x - ⌊x⌋) (by linarith) (by linarith)
  generalize A.mul60 (x - ⌊x⌋) = y at b1 b2 b3 ⊢
  obtain ⟨c1, c2, c3⟩ := hA.addHalf y b1 b2
  generalize A.addHalf y = z at c1 c2 c3 ⊢
  have k1 := Int.floor_le z
  have k2 := Int.lt_floor_add_one z
  have k0 : 0 ≤ ⌊z⌋ := Int.floor_nonneg.mpr c1
  have k61 : ⌊z⌋ < 61 := by rw [Int.floor_lt]; exact_mod_cast c2
  rw [abs_le] at a3 b3 c3
  have bound : |((⌊v⌋ : ℚ) * 3600 + ⌊x⌋ * 60 + ⌊z⌋) - 3600 * v| ≤ 1 / 2 + 62 * ε := by
    rw [abs_le]
    constructor <;> linarith
  by_cases hs : ⌊z⌋ = 60
  · rw [if_pos hs]
    have hz : ((⌊z⌋ : ℤ) : ℚ) = 60 := by rw [hs]; norm_num
    by_cases hm : ⌊x⌋ + 1 = 60
    · rw [if_pos hm]
      have hx : ((⌊x⌋ : ℤ) : ℚ) = 59 := by
        have : ⌊x⌋ = 59 := by omega
        rw [this]; norm_num
      refine ⟨by simp only; omega, by simp, by simp, by simp, by simp, by simp, ?_⟩
      rw [hz, hx] at bound
      push_cast
      have e : ((⌊v⌋ : ℚ) + 1) * 3600 + 0 * 60 + 0 - 3600 * v =
        (⌊v⌋ : ℚ) * 3600 + 59 * 60 + 60 - 3600 * v := by ring
      rw [e]
      exact bound
    · rw [if_neg hm]
      refine ⟨by simp only; omega, by simp, by simp only; omega, by simp only; omega, by simp,
        by simp, ?_⟩
      rw [hz] at bound
      push_cast
      have e : (⌊v⌋ : ℚ) * 3600 + ((⌊x⌋ : ℚ) + 1) * 60 + 0 - 3600 * v =
        (⌊v⌋ : ℚ) * 3600 + ⌊x⌋ * 60 + 60 - 3600 * v := by ring
      rw [e]
      exact bound
  · rw [if_neg hs]
    exact ⟨f0, by simp, g0, g60, k0, by simp only; omega, bound⟩

theorem fmtInt_nat (w n : ℕ) : fmtInt w (n : ℤ) = padLeft '0' w (decStr n) := rfl

theorem encodeDms_ok {A : DmsArith} {ε : ℚ} (hA : A.Near ε) {v : ℚ} (lat : Bool)
    (hv : |v| ≤ if lat then 90 else 180) : IsDms lat v (1 / 2 + 62 * ε) (encodeDms A v lat) := by
  obtain ⟨h1, h2, h3, h4, h5, h6, h7⟩ := dmsParts_ok hA (abs_nonneg v)
  have hf : ⌊|v|⌋ ≤ if lat then 90 else 180 := by
    have : (⌊|v|⌋ : ℚ) ≤ if lat then 90 else 180 := le_trans (Int.floor_le _) hv
    cases lat
    · simp only [Bool.false_eq_true, if_false] at this ⊢; exact_mod_cast this
    · simp only [if_true] at this ⊢; exact_mod_cast this
  unfold encodeDms
  simp only
  generalize dmsParts A |v| = p at *
  obtain ⟨d, m, s⟩ := p
  simp only at *
  obtain ⟨d, rfl⟩ := Int.eq_ofNat_of_zero_le h1
  obtain ⟨m, rfl⟩ := Int.eq_ofNat_of_zero_le h3
  obtain ⟨s, rfl⟩ := Int.eq_ofNat_of_zero_le h5
  refine ⟨d, m, s, by omega, by omega, ?_, ?_, ?_⟩
  · cases lat <;> simp only [Bool.false_eq_true, if_false, if_true] at hf ⊢ <;> omega
  · simp only [fmtInt_nat]
    cases lat <;> rfl
  · exact_mod_cast h7

theorem length_pad {w n : ℕ} (hw : 1 ≤ w) (h : n < 10 ^ w) :
    (padLeft '0' w (decStr n)).length = w := by
  rw [length_padLeft]
  have := (decStr_length_le n w hw).mpr h
  omega

theorem IsDms.length {lat : Bool} {v tol : ℚ} {t : Str} (h : IsDms lat v tol t) :
    t.length = if lat then 7 else 8 := by
  obtain ⟨d, m, s, hm, hs, hd, rfl, _⟩ := h
  simp only [List.length_append, List.length_singleton]
  rw [length_pad (n := m) (by omega) (by omega), length_pad (n := s) (by omega) (by omega)]
  cases lat
  · simp only [Bool.false_eq_true, if_false] at hd ⊢
    rw [length_pad (by omega) (by omega)]
  · simp only [if_true] at hd ⊢
    rw [length_pad (by omega) (by omega)]

theorem setSlice_full (pre t rest : Str) {i j : ℕ} (hi : pre.length = i)
    (hj : i + t.length = j) : setSlice (pre ++ rest) i j t = (pre ++ t) ++ rest.drop t.length := by
  unfold setSlice
  rw [← hj, ← hi, List.take_left, List.drop_append, List.drop_of_length_le (by omega)]
  simp

/-- Texts of the right lengths end up one after the other. -/
theorem setCorners_eq {f : ℚ × ℚ → Str} {c : Corners} (h : ∀ p ∈ c.list, (f p).length = 15) :
    setCorners f c = f c.ul ++ f c.ur ++ f c.lr ++ f c.ll := by
  have h1 := h c.ul (by simp [Corners.list])
  have h2 := h c.ur (by simp [Corners.list])
  have h3 := h c.lr (by simp [Corners.list])
  have h4 := h c.ll (by simp [Corners.list])
  unfold setCorners
  have e : igeoloBlank = [] ++ igeoloBlank := rfl
  rw [e, setSlice_full (i := 0) (j := 15) _ _ _ rfl (by simp [h1]),
    setSlice_full (i := 15) (j := 30) _ _ _ (by simp [h1]) (by simp [h2]),
    setSlice_full (i := 30) (j := 45) _ _ _ (by simp [h1, h2]) (by simp [h3]),
    setSlice_full (i := 45) (j := 60) _ _ _ (by simp [h1, h2, h3]) (by simp [h4])]
  rw [h1, h2, h3, h4]
  simp [igeoloBlank]

theorem slice_four {a b c d : Str} (ha : a.length = 15) (hb : b.length = 15) (hc : c.length = 15)
    (hd : d.length = 15) :
    slice (a ++ b ++ c ++ d) 0 15 = a ∧ slice (a ++ b ++ c ++ d) 15 30 = b ∧
    slice (a ++ b ++ c ++ d) 30 45 = c ∧ slice (a ++ b ++ c ++ d) 45 60 = d := by
  have e2 : a ++ b ++ c ++ d = a ++ (b ++ (c ++ d)) := by simp
  have e3 : a ++ b ++ c ++ d = (a ++ b) ++ (c ++ d) := by simp
  unfold slice
  refine ⟨?_, ?_, ?_, ?_⟩
  · rw [e2]
    simp only [List.drop_zero, Nat.sub_zero]
    rw [← ha, List.take_left]
  · rw [e2, show (15 : ℕ) = a.length from ha.symm, List.drop_left]
    rw [show 30 - a.length = b.length by simp [ha, hb], List.take_left]
  · rw [e3, show (30 : ℕ) = (a ++ b).length by simp [ha, hb], List.drop_left]
    rw [show 45 - (a ++ b).length = c.length by simp [ha, hb, hc], List.take_left]
  · rw [show (45 : ℕ) = (a ++ b ++ c).length by simp [ha, hb, hc], List.drop_left]
    rw [show 60 - (a ++ b ++ c).length = d.length by simp [ha, hb, hc, hd], List.take_length]

theorem floatOf_pad (w n : ℕ) : floatOf (padLeft '0' w (decStr n)) = .ok (n : ℚ) := by
  have hne := padLeft_ne_nil w n
  have hd := padLeft_zero_digits w n
  have hv := digitsValue_pad w n
  unfold floatOf
  generalize padLeft '0' w (decStr n) = s at *
  cases s with
  | nil => exact absurd rfl hne
  | cons a t =>
    rw [decimalValue_digit (hd a List.mem_cons_self)]
    unfold unsignedValue
    rw [dropWhile_digits hd]
    simp [hv]

/-! Reading a corner. -/

theorem slice_head {a b : Str} {n : ℕ} (h : a.length = n) : slice (a ++ b) 0 n = a := by
  subst h
  simp [slice]

theorem slice_shift {a b : Str} {k i j : ℕ} (h : a.length = k) (hi : k ≤ i) :
    slice (a ++ b) i j = slice b (i - k) (j - k) := by
  subst h
  unfold slice
  rw [List.drop_append, List.drop_of_length_le hi]
  simp only [List.nil_append]
  congr 1
  omega

/-- The parts of a geographic corner text. -/
theorem geo_slices {a b c d e f : Str} {h1 h2 : Char} (ha : a.length = 2) (hb : b.length = 2)
    (hc : c.length = 2) (hd : d.length = 3) (he : e.length = 2) (hf : f.length = 2) :
    let p := (a ++ b ++ c ++ [h1]) ++ (d ++ e ++ f ++ [h2])
    slice p 0 2 = a ∧ slice p 2 4 = b ∧ slice p 4 6 = c ∧ p[6]? = some h1 ∧ slice p 7 10 = d ∧
      slice p 10 12 = e ∧ slice p 12 14 = f ∧ p[14]? = some h2 := by
  match a, ha with
  | [a1, a2], _ =>
  match b, hb with
  | [b1, b2], _ =>
  match c, hc with
  | [c1, c2], _ =>
  match d, hd with
  | [d1, d2, d3], _ =>
  match e, he with
  | [e1, e2], _ =>
  match f, hf with
  | [f1, f2], _ =>
  simp [slice]

theorem geo_value {d m s : ℕ} {v tol : ℚ}
    (h : |(d * 3600 + m * 60 + s : ℚ) - 3600 * (|v|)| ≤ tol) :
    |((d : ℚ) + m / 60 + s / 3600) - (|v|)| ≤ tol / 3600 ∧
    |(if v < 0 then ((d : ℚ) + m / 60 + s / 3600) * -1 else (d : ℚ) + m / 60 + s / 3600) - v| ≤
      tol / 3600 := by
  have key : |((d : ℚ) + m / 60 + s / 3600) - (|v|)| ≤ tol / 3600 := by
    rw [abs_le] at h ⊢
    constructor <;> linarith
  refine ⟨key, ?_⟩
  by_cases hv : v < 0
  · rw [if_pos hv]
    rw [abs_of_neg hv, abs_le] at key
    rw [abs_le]
    constructor <;> linarith
  · rw [if_neg hv]
    rw [abs_of_nonneg (not_lt.mp hv)] at key
    exact key

/-- A corner read back: without the hemisphere from bytes, with it from a str. -/
theorem readCorner_geo {p : ℚ × ℚ} {tol : ℚ} {lat lon : Str} (h1 : IsDms true p.2 tol lat)
    (h2 : IsDms false p.1 tol lon) (bytes : Bool) :
    ∃ x y, readCorner bytes ['G'] (lat ++ lon) = .ok ((x, y), none) ∧
      |x - if bytes then |p.1| else p.1| ≤ tol / 3600 ∧
      |y - if bytes then |p.2| else p.2| ≤ tol / 3600 := by
  obtain ⟨d, m, s, hm, hs, hd, rfl, h⟩ := h1
  obtain ⟨d', m', s', hm', hs', hd', rfl, h'⟩ := h2
  simp only [if_true, Bool.false_eq_true, if_false] at hd hd' ⊢
  obtain ⟨a1, a2, a3, a4, a5, a6, a7, a8⟩ := geo_slices
    (h1 := if p.2 < 0 then 'S' else 'N') (h2 := if p.1 < 0 then 'W' else 'E')
    (length_pad (w := 2) (n := d) (by omega) (by omega))
    (length_pad (w := 2) (n := m) (by omega) (by omega))
    (length_pad (w := 2) (n := s) (by omega) (by omega))
    (length_pad (w := 3) (n := d') (by omega) (by omega))
    (length_pad (w := 2) (n := m') (by omega) (by omega))
    (length_pad (w := 2) (n := s') (by omega) (by omega))
  obtain ⟨b1, b2⟩ := geo_value h
  obtain ⟨b1', b2'⟩ := geo_value h'
  have i1 : itemIn bytes (padLeft '0' 2 (decStr d) ++ padLeft '0' 2 (decStr m) ++
      padLeft '0' 2 (decStr s) ++ [if p.2 < 0 then 'S' else 'N'] ++ (padLeft '0' 3 (decStr d') ++
      padLeft '0' 2 (decStr m') ++ padLeft '0' 2 (decStr s') ++ [if p.1 < 0 then 'W' else 'E'])) 6
      ['s', 'S'] = .ok (!bytes && decide (p.2 < 0)) := by
    unfold itemIn
    rw [a4]
    cases bytes <;> by_cases hp : p.2 < 0 <;> simp [hp]
  have i2 : itemIn bytes (padLeft '0' 2 (decStr d) ++ padLeft '0' 2 (decStr m) ++
      padLeft '0' 2 (decStr s) ++ [if p.2 < 0 then 'S' else 'N'] ++ (padLeft '0' 3 (decStr d') ++
      padLeft '0' 2 (decStr m') ++ padLeft '0' 2 (decStr s') ++ [if p.1 < 0 then 'W' else 'E'])) 14
      ['w', 'W'] = .ok (!bytes && decide (p.1 < 0)) := by
    unfold itemIn
    rw [a8]
    cases bytes <;> by_cases hp : p.1 < 0 <;> simp [hp]
  refine ⟨if (!bytes && decide (p.1 < 0)) = true then ((d' : ℚ) + m' / 60 + s' / 3600) * -1
      else (d' : ℚ) + m' / 60 + s' / 3600,
    if (!bytes && decide (p.2 < 0)) = true then ((d : ℚ) + m / 60 + s / 3600) * -1
      else (d : ℚ) + m / 60 + s / 3600, ?_, ?_, ?_⟩
  · unfold readCorner
    rw [if_neg (by decide), if_pos rfl]
    simp only [a1, a2, a3, a5, a6, a7, floatOf_pad, i1, i2, bind, Except.bind, pure, Except.pure]
  · cases bytes
    · simpa using b2'
    · simpa using b1'
  · cases bytes
    · simpa using b2
    · simpa using b1

theorem mem_list {c : Corners} {Q : ℚ × ℚ → Prop} :
    (∀ p ∈ c.list, Q p) ↔ Q c.ul ∧ Q c.ur ∧ Q c.lr ∧ Q c.ll := by
  simp [Corners.list]

theorem geoInRange_iff (c : Corners) : geoInRange c = true ↔ ∀ p ∈ c.list, GeoLegal p := by
  simp [geoInRange, GeoLegal]

/-- The text of a geographic corner. -/
def geoText (A : DmsArith) (p : ℚ × ℚ) : Str := encodeDms A p.2 true ++ encodeDms A p.1 false

theorem geoText_length {A : DmsArith} {ε : ℚ} (hA : A.Near ε) {p : ℚ × ℚ} (h : GeoLegal p) :
    (encodeDms A p.2 true).length = 7 ∧ (encodeDms A p.1 false).length = 8 :=
  ⟨(encodeDms_ok hA true (by simpa using h.2)).length,
    (encodeDms_ok hA false (by simpa using h.1)).length⟩

theorem writeIgeolo_geo {A : DmsArith} {ε : ℚ} (hA : A.Near ε) {c : Corners} (zone : ℤ)
    (h : ∀ p ∈ c.list, GeoLegal p) : writeIgeolo A ['G'] zone c =
      .ok (geoText A c.ul ++ geoText A c.ur ++ geoText A c.lr ++ geoText A c.ll) := by
  obtain ⟨h1, h2, h3, h4⟩ := mem_list.mp h
  obtain ⟨a1, b1⟩ := geoText_length hA h1
  obtain ⟨a2, b2⟩ := geoText_length hA h2
  obtain ⟨a3, b3⟩ := geoText_length hA h3
  obtain ⟨a4, b4⟩ := geoText_length hA h4
  unfold writeIgeolo
  rw [if_pos rfl, (geoInRange_iff c).mpr h]
  simp only [Bool.not_true, Bool.false_eq_true, if_false]
  have e : igeoloBlank = [] ++ igeoloBlank := rfl
  rw [e, setSlice_full (i := 0) (j := 7) _ _ _ rfl (by simp [a1]),
    setSlice_full (i := 7) (j := 15) _ _ _ (by simp [a1]) (by simp [b1]),
    setSlice_full (i := 15) (j := 22) _ _ _ (by simp [a1, b1]) (by simp [a2]),
    setSlice_full (i := 22) (j := 30) _ _ _ (by simp [a1, b1, a2]) (by simp [b2]),
    setSlice_full (i := 30) (j := 37) _ _ _ (by simp [a1, b1, a2, b2]) (by simp [a3]),
    setSlice_full (i := 37) (j := 45) _ _ _ (by simp [a1, b1, a2, b2, a3]) (by simp [b3]),
    setSlice_full (i := 45) (j := 52) _ _ _ (by simp [a1, b1, a2, b2, a3, b3]) (by simp [a4]),
    setSlice_full (i := 52) (j := 60) _ _ _ (by simp [a1, b1, a2, b2, a3, b3, a4])
      (by simp [b4])]
  simp [a1, b1, a2, b2, a3, b3, a4, b4, geoText, igeoloBlank]

/-- What each corner text is read as decides what the whole text is read as. -/
theorem readIgeolo_four {bytes : Bool} {ch : Str} (hch : ch = ['G'] ∨ ch = ['N'] ∨ ch = ['S'] ∨ ch = ['D'])
    {a b c d : Str} (ha : a.length = 15) (hb : b.length = 15) (hc : c.length = 15)
    (hd : d.length = 15) {pa pb pc pd : ℚ × ℚ} {za zb zc zd : Option ℤ}
    (ra : readCorner bytes ch a = .ok (pa, za)) (rb : readCorner bytes ch b = .ok (pb, zb))
    (rc : readCorner bytes ch c = .ok (pc, zc)) (rd : readCorner bytes ch d = .ok (pd, zd)) :
    readIgeolo bytes ch (a ++ b ++ c ++ d) = .ok (⟨pa, pb, pc, pd⟩, zd) := by
  obtain ⟨s1, s2, s3, s4⟩ := slice_four ha hb hc hd
  unfold readIgeolo
  rw [if_neg (by rcases hch with h | h | h | h <;> simp [h])]
  simp only [s1, s2, s3, s4, ra, rb, rc, rd, bind, Except.bind, pure, Except.pure]

/-! ### Decimal degrees -/

theorem unsignedValue_pad (k q m : ℕ) (hm : m < 1000) :
    unsignedValue (padLeft '0' k (decStr q) ++ '.' :: padLeft '0' 3 (decStr m)) =
      some ((q : ℚ) + m / 1000) := by
  obtain ⟨h1, h2⟩ := takeWhile_digits (s := padLeft '0' k (decStr q))
      (t := padLeft '0' 3 (decStr m)) (padLeft_zero_digits _ _)
  unfold unsignedValue
  rw [h1, h2]
  simp only [digitsValue_pad]
  rw [length_pad (by omega) (by omega)]
  norm_num

theorem padLeft_append (w : ℕ) (a b : Str) :
    padLeft '0' w (a ++ b) = padLeft '0' (w - b.length) a ++ b := by
  unfold padLeft
  rw [List.length_append, ← List.append_assoc]
  congr 3
  omega

theorem fmtFixedPlus_ok {w : ℕ} {n : ℚ} (hw : 6 ≤ w) (hn : |n| < 10 ^ (w - 5) - 1 / 2000) :
    (fmtFixedPlus w n).length = w ∧ ∃ v, floatOf (fmtFixedPlus w n) = .ok v ∧ |v - n| ≤ 1 / 2000 := by
  have hr := roundHalfEven_near (q := |n| * 10 ^ 3) (by positivity)
  have hnn : ¬ |n| < 0 := not_lt.mpr (abs_nonneg n)
  unfold fmtFixedPlus
  have e : fixedText |n| 3 = decStr (roundHalfEven (|n| * 10 ^ 3) / 1000) ++
      '.' :: padLeft '0' 3 (decStr (roundHalfEven (|n| * 10 ^ 3) % 1000)) := by
    unfold fixedText
    simp only [if_neg hnn, abs_abs]
    norm_num
  rw [e]
  generalize roundHalfEven (|n| * 10 ^ 3) = r at *
  have hmod : r % 1000 < 1000 := Nat.mod_lt _ (by omega)
  have hl3 := length_pad (w := 3) (n := r % 1000) (by omega) (by omega)
  have hrlt : r < 1000 * 10 ^ (w - 5) := by
    have : (r : ℚ) < 1000 * 10 ^ (w - 5) := by
      rw [abs_le] at hr
      norm_num at hr
      linarith
    exact_mod_cast this
  have hq : r / 1000 < 10 ^ (w - 5) := Nat.div_lt_of_lt_mul hrlt
  have hlq := (decStr_length_le (r / 1000) (w - 5) (by omega)).mpr hq
  have hval : ((r / 1000 : ℕ) : ℚ) + ((r % 1000 : ℕ) : ℚ) / 1000 = r / 1000 := by
    have : ((1000 * (r / 1000) + r % 1000 : ℕ) : ℚ) = r := by rw [Nat.div_add_mod]
    push_cast at this
    linarith
  constructor
  · rw [List.length_cons, length_padLeft, List.length_append, List.length_cons, hl3]
    omega
  · rw [padLeft_append]
    unfold floatOf
    by_cases h : n < 0
    · simp only [if_pos h, decimalValue, unsignedValue_pad _ _ _ hmod, Option.map_some]
      refine ⟨_, rfl, ?_⟩
      rw [hval]
      rw [abs_of_neg h, abs_le] at hr
      rw [abs_le]
      norm_num at hr ⊢
      constructor <;> linarith
    · simp only [if_neg h, decimalValue, unsignedValue_pad _ _ _ hmod]
      refine ⟨_, rfl, ?_⟩
      rw [hval]
      rw [abs_of_nonneg (not_lt.mp h), abs_le] at hr
      rw [abs_le]
      norm_num at hr ⊢
      constructor <;> linarith

def decText (p : ℚ × ℚ) : Str := fmtFixedPlus 7 p.2 ++ fmtFixedPlus 8 p.1

theorem decText_ok {p : ℚ × ℚ} (h : GeoLegal p) (bytes : Bool) :
    (decText p).length = 15 ∧ ∃ q, readCorner bytes ['D'] (decText p) = .ok (q, none) ∧
      Within (1 / 2000) p q := by
  obtain ⟨h1, h2⟩ := h
  obtain ⟨l1, y, f1, e1⟩ := fmtFixedPlus_ok (w := 7) (n := p.2) (by omega) (by norm_num; linarith)
  obtain ⟨l2, x, f2, e2⟩ := fmtFixedPlus_ok (w := 8) (n := p.1) (by omega) (by norm_num; linarith)
  refine ⟨by simp [decText, l1, l2], (x, y), ?_, e2, e1⟩
  unfold readCorner decText
  rw [if_neg (by decide), if_neg (by decide)]
  rw [slice_head l1, slice_shift l1 (by omega)]
  have : slice (fmtFixedPlus 8 p.1) (7 - 7) (15 - 7) = fmtFixedPlus 8 p.1 := by
    have := slice_head (a := fmtFixedPlus 8 p.1) (b := []) l2
    simpa using this
  rw [this, f1, f2]
  rfl

/-! ### UTM -/

theorem floatOf_fmtInt (w : ℕ) (z : ℤ) : floatOf (fmtInt w z) = .ok (z : ℚ) := by
  cases z with
  | ofNat n => exact_mod_cast floatOf_pad w n
  | negSucc n =>
    unfold floatOf
    simp only [fmtInt, decimalValue]
    have hd := padLeft_zero_digits (w - 1) (n + 1)
    unfold unsignedValue
    rw [dropWhile_digits hd]
    rw [digitsValue_pad, Int.cast_negSucc]
    rfl

theorem numChar_not_cSpace {c : Char} (h : IsNumChar c) : cSpace c = false := by
  rcases h with h | rfl | rfl
  · obtain ⟨h1, h2⟩ := h
    unfold cSpace cSpaceN
    generalize c.toNat = n at *
    simp
    omega
  · decide
  · decide

theorem pyIntS_fmtInt (w : ℕ) (z : ℤ) : pyIntS (fmtInt w z) = .ok z := by
  have h := numText_fmtInt w z
  have hp := parseSigned_fmtInt w z
  generalize fmtInt w z = t at *
  have hr : rstripU t = t :=
    rstripBy_eq_self _ _ fun x hx => numChar_not_cSpace (h.chars x (List.mem_of_getLast? hx))
  have hl : lstripBy cSpace t = t := by
    unfold lstripBy
    cases t with
    | nil => rfl
    | cons a t => simp [numChar_not_cSpace (h.chars a (by simp))]
  unfold pyIntS
  rw [hr, hl, hp]

theorem utmText_read {zone : ℤ} {p : ℚ × ℚ} (hz : FitsDec 2 zone) (hy : FitsDec 6 ⌊p.2⌋)
    (hx : FitsDec 7 ⌊p.1⌋) {ch : Str} (hch : ch = ['N'] ∨ ch = ['S']) (bytes : Bool) :
    (utmText zone p).length = 15 ∧
    readCorner bytes ch (utmText zone p) = .ok (((⌊p.2⌋ : ℚ), (⌊p.1⌋ : ℚ)), some zone) := by
  have l1 := (fmtInt_length 2 zone).mpr hz
  have l2 := (fmtInt_length 6 _).mpr hy
  have l3 := (fmtInt_length 7 _).mpr hx
  refine ⟨by simp [utmText, l1, l2, l3], ?_⟩
  unfold readCorner utmText
  rw [if_pos hch, List.append_assoc, slice_head l1, slice_shift l1 (by omega),
    slice_shift l1 (by omega), slice_head (by simp [l2]), slice_shift l2 (by omega)]
  have : slice (fmtInt 7 ⌊p.1⌋) (8 - 2 - 6) (15 - 2 - 6) = fmtInt 7 ⌊p.1⌋ := by
    have := slice_head (a := fmtInt 7 ⌊p.1⌋) (b := []) l3
    simpa using this
  rw [this, pyIntS_fmtInt, floatOf_fmtInt, floatOf_fmtInt]
  rfl

/-! ### In the header -/

def igeoloCond : Expr := .ne (.rstrip (.ref (n!"icords") [])) (.const (.str ""))

theorem row_icords : Row ihD (n!"icords") 30 .str none 1 := Row.of (by decide +kernel)
theorem row_igeolo : Row ihD (n!"igeolo") 31 .str (some igeoloCond) 60 := Row.of (by decide +kernel)

theorem igeolo_cond {S : Store P.F} {ch : Str} {raw : Option Bytes} (hch : rstripU ch = ch)
    (hne : ch ≠ []) (h : S 30 [] = some ⟨.val (.str ch), raw⟩) :
    ∀ fi, ihD.tab[31]? = some fi → evalCond P (look P ihD.tab S) fi [] = .ok true := by
  intro fi hfi
  obtain ⟨fi', h1, _, _, _, h5, _⟩ := row_igeolo.at_
  rw [h1] at hfi
  cases hfi
  unfold evalCond
  rw [h5]
  simp only [igeoloCond, evalE, idxKey, bind, Except.bind]
  rw [row_icords.look P ihD_causal, row_icords.get_str P h]
  simp only [hch]
  simp [CVal.toVal, pyEq, bval, truthy, Except.map, pure, Except.pure, hne]

/-- What the setter stores, and what the getter then works on. -/
theorem setGeolo_ok {A : DmsArith} {ch : Str} {zone : ℤ} {c : Corners} {t : Str} (S : Store P.F)
    (hch : rstripU ch = ch) (hne : ch ≠ []) (hw : writeIgeolo A ch zone c = .ok t) :
    ∃ S', setGeolo P A ch zone c S = (S', none) ∧ getGeolo P S' = readIgeolo true ch (rstripU t) ∧
      ihGet P S' (n!"igeolo") = .ok (.str (rstripU t)) ∧ S' 30 [] = some ⟨.val (.str ch), none⟩ ∧
      S' 31 [] = some ⟨.val (.str t), none⟩ := by
  have h30 : (S.set 30 [] ⟨.val (.str ch), none⟩) 30 [] = some ⟨.val (.str ch), none⟩ := by
    simp [Store.set]
  have hs : ihSet P (n!"igeolo") (.str t) (S.set 30 [] ⟨.val (.str ch), none⟩) =
      ((S.set 30 [] ⟨.val (.str ch), none⟩).set 31 [] ⟨.val (.str t), none⟩, none) :=
    row_igeolo.set_cond P (igeolo_cond P hch hne h30) rfl
  have h30' : ((S.set 30 [] ⟨.val (.str ch), none⟩).set 31 [] ⟨.val (.str t), none⟩) 30 [] =
      some ⟨.val (.str ch), none⟩ := by simp [Store.set]
  have g1 : ihGet P ((S.set 30 [] ⟨.val (.str ch), none⟩).set 31 [] ⟨.val (.str t), none⟩)
      (n!"icords") = .ok (.str ch) := by
    have := row_icords.get_str P h30'
    rw [hch] at this
    exact this
  have g2 : ihGet P ((S.set 30 [] ⟨.val (.str ch), none⟩).set 31 [] ⟨.val (.str t), none⟩)
      (n!"igeolo") = .ok (.str (rstripU t)) := by
    obtain ⟨fi, h1, h2, h3, h4, _⟩ := row_igeolo.at_
    have hc := igeolo_cond P hch hne h30' fi h1
    show getAttr P ihD _ _ [] = _
    unfold getAttr
    rw [row_igeolo.res]
    simp only
    rw [h2.get_plain P h3 h1 hc]
    unfold stored
    rw [show ((S.set 30 [] ⟨.val (.str ch), none⟩).set 31 [] ⟨.val (.str t), none⟩) 31 [] =
      some ⟨.val (.str t), none⟩ by simp [Store.set]]
    simp only
    rw [finish_str P h4 t]
  refine ⟨_, ?_, ?_, g2, h30', by simp [Store.set]⟩
  · unfold setGeolo runSteps
    rw [row_icords.ihSet P rfl]
    simp only [runSteps, hw]
    rw [hs]
  · unfold getGeolo
    rw [g1, g2]
    rfl

theorem rstripU_last {t : Str} {a : Char} (h : cSpace a = false) : rstripU (t ++ [a]) = t ++ [a] :=
  rstripBy_eq_self _ _ fun x hx => by
    rw [List.getLast?_append] at hx
    simp at hx
    rw [← hx]
    exact h

theorem rstripU_append {a b : Str} (hb : rstripU b = b) (hne : b ≠ []) : rstripU (a ++ b) = a ++ b :=
  rstripBy_eq_self _ _ fun x hx => by
    rw [List.getLast?_append_of_ne_nil _ hne] at hx
    rw [← hb] at hx
    exact rstripBy_getLast? _ _ _ hx

theorem encodeDms_last {A : DmsArith} (v : ℚ) (lat : Bool) :
    rstripU (encodeDms A v lat) = encodeDms A v lat := by
  unfold encodeDms
  simp only
  apply rstripU_last
  split <;> split <;> decide

theorem fmtInt_last (w : ℕ) (z : ℤ) : rstripU (fmtInt w z) = fmtInt w z :=
  rstripBy_eq_self _ _ fun _ hx =>
    numChar_not_cSpace ((numText_fmtInt w z).chars _ (List.mem_of_getLast? hx))

theorem fmtFixedPlus_last (w : ℕ) (n : ℚ) : rstripU (fmtFixedPlus w n) = fmtFixedPlus w n := by
  unfold fmtFixedPlus fixedText
  simp only [show ¬ (3 : ℕ) = 0 by omega, if_false]
  generalize roundHalfEven (|(|n|)| * 10 ^ 3) = r
  rw [padLeft_append]
  generalize padLeft '0' _ _ = a
  rw [show ∀ (x : Char) (a : Str), x :: (a ++ '.' :: padLeft '0' 3 (decStr (r % 10 ^ 3))) =
    (x :: a ++ ['.']) ++ padLeft '0' 3 (decStr (r % 10 ^ 3)) by simp]
  apply rstripU_append _ (padLeft_ne_nil _ _)
  exact rstripBy_eq_self _ _ fun x hx => numChar_not_cSpace
    (Or.inl (padLeft_zero_digits 3 (r % 10 ^ 3) x (List.mem_of_getLast? hx)))

/-! ### Properties -/

/-- C37, the text.  Corners in range are written as exactly 60 characters: for each corner the
latitude and the longitude in degrees, minutes and seconds, minutes and seconds below 60, rounded to
the nearest second, with the letter of the hemisphere.  Corners out of range are refused. -/
theorem C37_text {A : DmsArith} {ε : ℚ} (hA : A.Near ε) (zone : ℤ) (c : Corners) :
    if ∀ p ∈ c.list, |p.1| ≤ 180 ∧ |p.2| ≤ 90 then
      ∃ t : ℚ × ℚ → Str × Str,
        (∀ p ∈ c.list, IsDms true p.2 (1 / 2 + 62 * ε) (t p).1 ∧
          IsDms false p.1 (1 / 2 + 62 * ε) (t p).2 ∧ (t p).1.length = 7 ∧ (t p).2.length = 8) ∧
        writeIgeolo A ['G'] zone c = .ok ((t c.ul).1 ++ (t c.ul).2 ++ ((t c.ur).1 ++ (t c.ur).2) ++
          ((t c.lr).1 ++ (t c.lr).2) ++ ((t c.ll).1 ++ (t c.ll).2))
    else writeIgeolo A ['G'] zone c = .error .runtime := by
  split
  · rename_i h
    refine ⟨fun p => (encodeDms A p.2 true, encodeDms A p.1 false), ?_, writeIgeolo_geo hA zone h⟩
    intro p hp
    obtain ⟨h1, h2⟩ := h p hp
    have a := encodeDms_ok hA true (v := p.2) (by simpa using h2)
    have b := encodeDms_ok hA false (v := p.1) (by simpa using h1)
    exact ⟨a, b, a.length, b.length⟩
  · rename_i h
    have : geoInRange c = false := by
      rw [← Bool.not_eq_true, geoInRange_iff]
      exact h
    unfold writeIgeolo
    rw [if_pos rfl, this]
    rfl

theorem read_geo {A : DmsArith} {ε : ℚ} (hA : A.Near ε) (bytes : Bool) (zone : ℤ) {c : Corners}
    (h : ∀ p ∈ c.list, GeoLegal p) :
    ∃ t, writeIgeolo A ['G'] zone c = .ok t ∧ t.length = 60 ∧ rstripU t = t ∧
      ∃ c', readIgeolo bytes ['G'] t = .ok (c', none) ∧ Corners.Within ((1 / 2 + 62 * ε) / 3600)
        (c.map fun p => (if bytes then |p.1| else p.1, if bytes then |p.2| else p.2)) c' := by
  refine ⟨_, writeIgeolo_geo hA zone h, ?_⟩
  have one : ∀ p, GeoLegal p → (geoText A p).length = 15 ∧ ∃ q,
      readCorner bytes ['G'] (geoText A p) = .ok (q, none) ∧ Within ((1 / 2 + 62 * ε) / 3600)
        (if bytes then |p.1| else p.1, if bytes then |p.2| else p.2) q := by
    intro p hp
    obtain ⟨l1, l2⟩ := geoText_length hA hp
    obtain ⟨x, y, h1, h2, h3⟩ := readCorner_geo (encodeDms_ok hA true (v := p.2) (by simpa using hp.2))
      (encodeDms_ok hA false (v := p.1) (by simpa using hp.1)) bytes
    exact ⟨by simp [geoText, l1, l2], (x, y), h1, h2, h3⟩
  obtain ⟨h1, h2, h3, h4⟩ := mem_list.mp h
  obtain ⟨l1, q1, r1, w1⟩ := one _ h1
  obtain ⟨l2, q2, r2, w2⟩ := one _ h2
  obtain ⟨l3, q3, r3, w3⟩ := one _ h3
  obtain ⟨l4, q4, r4, w4⟩ := one _ h4
  refine ⟨by simp [l1, l2, l3, l4], ?_, ⟨q1, q2, q3, q4⟩,
    readIgeolo_four (.inl rfl) l1 l2 l3 l4 r1 r2 r3 r4, w1, w2, w3, w4⟩
  apply rstripU_append _ (by intro h; rw [h] at l4; cases l4)
  unfold geoText
  apply rstripU_append (encodeDms_last _ _)
  intro h
  have := (geoText_length hA h4).2
  rw [h] at this
  cases this

/-- C37 for the reading function applied to a str: the corners come back within half a second (plus
rounding), in every quadrant. -/
theorem C37_read_str {A : DmsArith} {ε : ℚ} (hA : A.Near ε) (zone : ℤ) {c : Corners}
    (h : ∀ p ∈ c.list, |p.1| ≤ 180 ∧ |p.2| ≤ 90) :
    ∃ t c', writeIgeolo A ['G'] zone c = .ok t ∧ t.length = 60 ∧
      readIgeolo false ['G'] t = .ok (c', none) ∧
      Corners.Within ((1 / 2 + 62 * ε) / 3600) c c' := by
  obtain ⟨t, h1, h2, _, c', h3, h4⟩ := read_geo hA false zone h
  exact ⟨t, c', h1, h2, h3, by simpa [Corners.map] using h4⟩

/-- C37 as the header property behaves: after `h.geolo_corner = ("G", corners, None)` the property
returns the corners *without sign*, because the hemisphere letter is compared with an integer.
Missing for the full claim: the sign (see `C37_hemisphere_lost`). -/
theorem C37_header_partial {A : DmsArith} {ε : ℚ} (hA : A.Near ε) (zone : ℤ) {c : Corners}
    (h : ∀ p ∈ c.list, |p.1| ≤ 180 ∧ |p.2| ≤ 90) (S : Store P.F) :
    ∃ S' c', setGeolo P A ['G'] zone c S = (S', none) ∧ getGeolo P S' = .ok (c', none) ∧
      Corners.Within ((1 / 2 + 62 * ε) / 3600) (c.map fun p => (|p.1|, |p.2|)) c' := by
  obtain ⟨t, h1, h2, hr, c', h3, h4⟩ := read_geo hA true zone h
  obtain ⟨S', s1, s2, _⟩ := setGeolo_ok P S (ch := ['G']) (by decide) (by decide) h1
  rw [hr] at s2
  exact ⟨S', c', s1, s2.trans h3, by simpa [Corners.map] using h4⟩

/-- So in the north-east quadrant the header property round-trips. -/
theorem C37_north_east {A : DmsArith} {ε : ℚ} (hA : A.Near ε) (zone : ℤ) {c : Corners}
    (h : ∀ p ∈ c.list, (0 ≤ p.1 ∧ p.1 ≤ 180) ∧ 0 ≤ p.2 ∧ p.2 ≤ 90) (S : Store P.F) :
    ∃ S' c', setGeolo P A ['G'] zone c S = (S', none) ∧ getGeolo P S' = .ok (c', none) ∧
      Corners.Within ((1 / 2 + 62 * ε) / 3600) c c' := by
  have h' : ∀ p ∈ c.list, |p.1| = p.1 ∧ |p.2| = p.2 := fun p hp =>
    ⟨abs_of_nonneg (h p hp).1.1, abs_of_nonneg (h p hp).2.1⟩
  obtain ⟨S', c', h1, h2, h3⟩ := C37_header_partial P hA zone (c := c) (fun p hp => by
    rw [(h' p hp).1, (h' p hp).2]; exact ⟨(h p hp).1.2, (h p hp).2.2⟩) S
  refine ⟨S', c', h1, h2, ?_⟩
  obtain ⟨⟨a1, b1⟩, ⟨a2, b2⟩, ⟨a3, b3⟩, a4, b4⟩ := mem_list.mp h'
  unfold Corners.Within Corners.map at h3
  simp only [a1, a2, a3, a4, b1, b2, b3, b4] at h3
  exact h3

/-- C37 fails: corners in the south-west come back in the north-east. -/
theorem C37_hemisphere_lost (S : Store P.F) :
    ∃ (c c' : Corners) (S' : Store P.F), (∀ p ∈ c.list, |p.1| ≤ 180 ∧ |p.2| ≤ 90) ∧
      setGeolo P .exact ['G'] 0 c S = (S', none) ∧ getGeolo P S' = .ok (c', none) ∧
      c.ul = (-120, -30) ∧ c'.ul = (120, 30) := by
  have hw : writeIgeolo .exact ['G'] 0 ⟨(-120, -30), (-119, -30), (-119, -31), (-120, -31)⟩ =
    .ok ("300000S1200000W300000S1190000W310000S1190000W310000S1200000W").toList := by decide +kernel
  obtain ⟨S', s1, s2, _⟩ := setGeolo_ok P S (ch := ['G']) (by decide) (by decide) hw
  refine ⟨_, ⟨(120, 30), (119, 30), (119, 31), (120, 31)⟩, S', ?_, s1, s2.trans ?_, rfl, rfl⟩
  · rw [mem_list]
    norm_num
  · decide +kernel

/-- Decimal degrees round-trip, with their sign, within half of the last digit. -/
theorem C37_decimal {A : DmsArith} (zone : ℤ) {c : Corners}
    (h : ∀ p ∈ c.list, |p.1| ≤ 180 ∧ |p.2| ≤ 90) (S : Store P.F) :
    ∃ S' c' t, setGeolo P A ['D'] zone c S = (S', none) ∧ getGeolo P S' = .ok (c', none) ∧
      ihGet P S' (n!"igeolo") = .ok (.str t) ∧ t.length = 60 ∧ Corners.Within (1 / 2000) c c' := by
  obtain ⟨h1, h2, h3, h4⟩ := mem_list.mp h
  obtain ⟨l1, q1, r1, w1⟩ := decText_ok h1 true
  obtain ⟨l2, q2, r2, w2⟩ := decText_ok h2 true
  obtain ⟨l3, q3, r3, w3⟩ := decText_ok h3 true
  obtain ⟨l4, q4, r4, w4⟩ := decText_ok h4 true
  have hw : writeIgeolo A ['D'] zone c =
      .ok (decText c.ul ++ decText c.ur ++ decText c.lr ++ decText c.ll) := by
    unfold writeIgeolo
    rw [if_neg (by decide), if_pos rfl, (geoInRange_iff c).mpr h]
    simp only [Bool.not_true, Bool.false_eq_true, if_false]
    rw [← setCorners_eq (f := decText) (mem_list.mpr ⟨l1, l2, l3, l4⟩)]
    rfl
  have hl : rstripU (decText c.ul ++ decText c.ur ++ decText c.lr ++ decText c.ll) =
      decText c.ul ++ decText c.ur ++ decText c.lr ++ decText c.ll := by
    apply rstripU_append _ (by intro h; rw [h] at l4; cases l4)
    unfold decText
    apply rstripU_append (fmtFixedPlus_last _ _)
    unfold fmtFixedPlus
    simp
  obtain ⟨S', s1, s2, s3, _⟩ := setGeolo_ok P S (ch := ['D']) (by decide) (by decide) hw
  rw [hl] at s2 s3
  exact ⟨S', _, _, s1, s2.trans (readIgeolo_four (.inr (.inr (.inr rfl))) l1 l2 l3 l4 r1 r2 r3 r4), s3,
    by simp [l1, l2, l3, l4], w1, w2, w3, w4⟩

/-- The parts of the 15 characters of a corner that are read as numbers: degrees, minutes and
seconds, or northing and easting, or decimal degrees. -/
def numberParts (ch : Str) : List (ℕ × ℕ) :=
  if ch = ['G'] then [(0, 2), (2, 4), (4, 6), (7, 10), (10, 12), (12, 14)]
  else if ch = ['D'] then [(0, 7), (7, 15)]
  else [(2, 8), (8, 15)]

theorem readCorner_parts {bytes : Bool} {ch p : Str} {r : (ℚ × ℚ) × Option ℤ}
    (hch : ch = ['G'] ∨ ch = ['N'] ∨ ch = ['S'] ∨ ch = ['D'])
    (h : readCorner bytes ch p = .ok r) :
    ∀ x ∈ numberParts ch, ∃ q, floatOf (slice p x.1 x.2) = .ok q := by
  have key : ∀ {α β : Type} {x : Except Err α} {f : α → Except Err β} {y : β},
      x.bind f = .ok y → ∃ a, x = .ok a ∧ f a = .ok y := by
    intro α β x f y h
    cases x with
    | error e => cases h
    | ok a => exact ⟨a, rfl, h⟩
  unfold readCorner at h
  rcases hch with rfl | rfl | rfl | rfl
  · rw [if_neg (by decide), if_pos rfl] at h
    obtain ⟨q1, h1, h⟩ := key h
    obtain ⟨q2, h2, h⟩ := key h
    obtain ⟨q3, h3, h⟩ := key h
    obtain ⟨q4, _, h⟩ := key h
    obtain ⟨q5, h5, h⟩ := key h
    obtain ⟨q6, h6, h⟩ := key h
    obtain ⟨q7, h7, h⟩ := key h
    intro x hx
    simp only [numberParts, if_true, List.mem_cons, List.not_mem_nil, or_false] at hx
    rcases hx with rfl | rfl | rfl | rfl | rfl | rfl
    exacts [⟨_, h1⟩, ⟨_, h2⟩, ⟨_, h3⟩, ⟨_, h5⟩, ⟨_, h6⟩, ⟨_, h7⟩]
  · rw [if_pos (by decide)] at h
    obtain ⟨q0, h0, h⟩ := key h
    obtain ⟨q1, h1, h⟩ := key h
    obtain ⟨q2, h2, h⟩ := key h
    intro x hx
    rw [show numberParts ['N'] = [(2, 8), (8, 15)] from by decide] at hx
    simp only [List.mem_cons, List.not_mem_nil, or_false] at hx
    rcases hx with rfl | rfl
    exacts [⟨_, h1⟩, ⟨_, h2⟩]
  · rw [if_pos (by decide)] at h
    obtain ⟨q0, h0, h⟩ := key h
    obtain ⟨q1, h1, h⟩ := key h
    obtain ⟨q2, h2, h⟩ := key h
    intro x hx
    rw [show numberParts ['S'] = [(2, 8), (8, 15)] from by decide] at hx
    simp only [List.mem_cons, List.not_mem_nil, or_false] at hx
    rcases hx with rfl | rfl
    exacts [⟨_, h1⟩, ⟨_, h2⟩]
  · rw [if_neg (by decide), if_neg (by decide)] at h
    obtain ⟨q1, h1, h⟩ := key h
    obtain ⟨q2, h2, h⟩ := key h
    intro x hx
    rw [show numberParts ['D'] = [(0, 7), (7, 15)] from by decide] at hx
    simp only [List.mem_cons, List.not_mem_nil, or_false] at hx
    rcases hx with rfl | rfl
    exacts [⟨_, h1⟩, ⟨_, h2⟩]

theorem floatOf_blank {t : Str} (h : ∀ c ∈ t, c = ' ') : floatOf t = .error .value := by
  have hv : decimalValue t = none := by
    cases t with
    | nil => decide
    | cons a r =>
      have ha : a = ' ' := h a (by simp)
      subst ha
      have hp : ∀ l : Str, (∀ c ∈ l, c = ' ') → l.dropWhile (· ≠ '.') = [] := by
        intro l
        induction l with
        | nil => intro _; rfl
        | cons c l ih =>
          intro hl
          rw [hl c (by simp), List.dropWhile_cons_of_pos (by decide)]
          exact ih fun c hc => hl c (by simp [hc])
      show unsignedValue (' ' :: r) = none
      unfold unsignedValue
      rw [hp _ h]
      rfl
  unfold floatOf
  rw [hv]

/-- C37: a text in which a number of a corner is blank is refused, whatever the rest is. -/
theorem C37_blank {bytes : Bool} {ch s : Str}
    (hch : ch = ['G'] ∨ ch = ['N'] ∨ ch = ['S'] ∨ ch = ['D']) {i : ℕ} (hi : i < 4) {x : ℕ × ℕ}
    (hx : x ∈ numberParts ch) (hb : ∀ c ∈ slice s (15 * i + x.1) (15 * i + x.2), c = ' ') :
    ∃ e, readIgeolo bytes ch s = .error e := by
  have h15 : ∀ x ∈ numberParts ch, x.2 ≤ 15 := by
    rcases hch with rfl | rfl | rfl | rfl <;> decide
  have hs : slice (slice s (15 * i) (15 * i + 15)) x.1 x.2 =
      slice s (15 * i + x.1) (15 * i + x.2) := by
    have := h15 x hx
    unfold slice
    rw [List.drop_take, List.take_take, List.drop_drop]
    congr 1
    omega
  have hc : ∀ r, readCorner bytes ch (slice s (15 * i) (15 * i + 15)) ≠ .ok r := by
    intro r hr
    obtain ⟨q, hq⟩ := readCorner_parts hch hr x hx
    rw [hs, floatOf_blank hb] at hq
    cases hq
  cases hr : readIgeolo bytes ch s with
  | error e => exact ⟨e, rfl⟩
  | ok r =>
    exfalso
    have key : ∀ {α β : Type} {x : Except Err α} {f : α → Except Err β} {y : β},
        x.bind f = .ok y → ∃ a, x = .ok a ∧ f a = .ok y := by
      intro α β x f y h
      cases x with
      | error e => cases h
      | ok a => exact ⟨a, rfl, h⟩
    unfold readIgeolo at hr
    rw [if_neg (by rcases hch with rfl | rfl | rfl | rfl <;> decide)] at hr
    obtain ⟨a, h1, hr⟩ := key hr
    obtain ⟨b, h2, hr⟩ := key hr
    obtain ⟨c, h3, hr⟩ := key hr
    obtain ⟨d, h4, hr⟩ := key hr
    rcases (by omega : i = 0 ∨ i = 1 ∨ i = 2 ∨ i = 3) with rfl | rfl | rfl | rfl
    exacts [hc _ h1, hc _ h2, hc _ h3, hc _ h4]

/-- The minutes of the longitude of the third corner are missing. -/
example : (10, 12) ∈ numberParts ['G'] ∧ slice
    "300000N1200000W300000N1190000W310000N119  00W310000N1200000W".toList (15 * 2 + 10) (15 * 2 + 12) =
      [' ', ' '] := by decide

/-- A point the UTM writer accepts. -/
def UtmLegal (p : ℚ × ℚ) : Prop :=
  (-100000 ≤ p.1 + 1 / 2 ∧ p.1 + 1 / 2 < 1000000) ∧
    -1000000 ≤ p.2 + 1 / 2 ∧ p.2 + 1 / 2 < 10000000

theorem utmInRange_iff (p : ℚ × ℚ) : utmInRange p = true ↔ UtmLegal p := by
  unfold utmInRange UtmLegal
  simp only [Bool.and_eq_true, decide_eq_true_eq, not_or, not_lt, not_le, ge_iff_le, Int.le_floor,
    Int.floor_lt]
  norm_num

theorem utm_x_fits {p : ℚ × ℚ} (h : UtmLegal p) : FitsDec 7 ⌊p.1⌋ := by
  obtain ⟨⟨h1, h2⟩, _⟩ := h
  have a : (-100001 : ℤ) ≤ ⌊p.1⌋ := by rw [Int.le_floor]; push_cast; linarith
  have b : ⌊p.1⌋ < 1000000 := by rw [Int.floor_lt]; push_cast; linarith
  unfold FitsDec
  omega

theorem writeIgeolo_utm {A : DmsArith} {ch : Str} (hch : ch = ['N'] ∨ ch = ['S']) (zone : ℤ)
    {c : Corners} (h : ∀ p ∈ c.list, UtmLegal p) :
    writeIgeolo A ch zone c = .ok (setCorners (utmText zone) c) := by
  have hr : c.list.all utmInRange = true := by
    rw [List.all_eq_true]
    exact fun p hp => (utmInRange_iff p).mpr (h p hp)
  unfold writeIgeolo
  rw [if_neg (by rcases hch with rfl | rfl <;> decide),
    if_neg (by rcases hch with rfl | rfl <;> decide), if_pos hch, hr]
  rfl

theorem fmtInt_long (w : ℕ) (z : ℤ) : w ≤ (fmtInt w z).length := by
  cases z <;> simp only [fmtInt, List.length_cons, length_padLeft] <;> omega

theorem utmText_last (zone : ℤ) (p : ℚ × ℚ) : rstripU (utmText zone p) = utmText zone p := by
  unfold utmText
  apply rstripU_append (fmtInt_last _ _)
  intro h
  have := fmtInt_long 7 ⌊p.1⌋
  rw [h] at this
  simp at this

theorem setSlice_length (buf t : Str) {i j : ℕ} (hi : i ≤ j) (hj : j ≤ buf.length) :
    (setSlice buf i j t).length = i + t.length + (buf.length - j) := by
  unfold setSlice
  simp only [List.length_append, List.length_take, List.length_drop]
  omega

theorem setCorners_last {f : ℚ × ℚ → Str} {c : Corners} (h : ∀ p ∈ c.list, 15 ≤ (f p).length) :
    ∃ X : Str, 60 ≤ X.length ∧ setCorners f c = X.take 45 ++ f c.ll ++ X.drop 60 := by
  obtain ⟨h1, h2, h3, h4⟩ := mem_list.mp h
  have h0 : igeoloBlank.length = 60 := by decide
  have a1 := setSlice_length igeoloBlank (f c.ul) (i := 0) (j := 15) (by omega) (by omega)
  have a2 := setSlice_length (setSlice igeoloBlank 0 15 (f c.ul)) (f c.ur) (i := 15) (j := 30)
    (by omega) (by omega)
  have a3 := setSlice_length (setSlice (setSlice igeoloBlank 0 15 (f c.ul)) 15 30 (f c.ur))
    (f c.lr) (i := 30) (j := 45) (by omega) (by omega)
  exact ⟨_, by omega, rfl⟩

theorem rstripU_length_ge {a b : Str} (h : rstripU a = a) : a.length ≤ (rstripU (a ++ b)).length := by
  rcases Classical.em (a = []) with rfl | hne
  · simp
  · induction b using List.reverseRecOn with
    | nil => simp [h]
    | append_singleton b x ih =>
      by_cases hx : cSpace x = true
      · have e : rstripU (a ++ (b ++ [x])) = rstripU (a ++ b) := by
          rw [← List.append_assoc]
          exact rstripBy_append_of_all _ _ _ (by simp [hx])
        rw [e]
        exact ih
      · rw [← List.append_assoc, rstripU_last (by simpa using hx)]
        simp

/-- C38, as far as it holds: if the northings have at most six characters, the text has 60
characters and reads back as the same zone, and as the corners floored to metres with *easting and
northing exchanged*.  Missing for the full claim: the order of the coordinates (see `C38_swapped`),
and northings of a thousand kilometres and more (see `C38_long`). -/
theorem C38_short_partial {A : DmsArith} {ch : Str} (hch : ch = ['N'] ∨ ch = ['S']) {zone : ℤ}
    (hz : 0 ≤ zone ∧ zone < 100) {c : Corners} (h : ∀ p ∈ c.list, UtmLegal p)
    (hy : ∀ p ∈ c.list, -99999 ≤ p.2 ∧ p.2 < 1000000) (S : Store P.F) :
    ∃ S' t, setGeolo P A ch zone c S = (S', none) ∧
      ihGet P S' (n!"igeolo") = .ok (.str t) ∧ t.length = 60 ∧
      getGeolo P S' = .ok (c.map fun p => ((⌊p.2⌋ : ℚ), (⌊p.1⌋ : ℚ)), some zone) := by
  have hz2 : FitsDec 2 zone := by unfold FitsDec; omega
  have one : ∀ p ∈ c.list, (utmText zone p).length = 15 ∧
      readCorner true ch (utmText zone p) = .ok (((⌊p.2⌋ : ℚ), (⌊p.1⌋ : ℚ)), some zone) := by
    intro p hp
    refine utmText_read hz2 ?_ (utm_x_fits (h p hp)) hch true
    obtain ⟨h1, h2⟩ := hy p hp
    have a : (-99999 : ℤ) ≤ ⌊p.2⌋ := by rw [Int.le_floor]; push_cast; exact h1
    have b : ⌊p.2⌋ < 1000000 := by rw [Int.floor_lt]; push_cast; exact h2
    unfold FitsDec
    omega
  obtain ⟨⟨l1, r1⟩, ⟨l2, r2⟩, ⟨l3, r3⟩, l4, r4⟩ := mem_list.mp one
  have hw := writeIgeolo_utm (A := A) hch zone h
  rw [setCorners_eq (mem_list.mpr ⟨l1, l2, l3, l4⟩)] at hw
  obtain ⟨S', s1, s2, s3, _⟩ := setGeolo_ok P S (by rcases hch with rfl | rfl <;> decide)
    (by rcases hch with rfl | rfl <;> decide) hw
  rw [rstripU_append (utmText_last _ _) (by intro h; rw [h] at l4; cases l4)] at s2 s3
  exact ⟨S', _, s1, s3, by simp [l1, l2, l3, l4],
    s2.trans (readIgeolo_four (.inr (hch.imp id .inl)) l1 l2 l3 l4 r1 r2 r3 r4)⟩

/-- C38 fails: an easting of 500 km and a northing of 900 km come back exchanged. -/
theorem C38_swapped (S : Store P.F) :
    ∃ (c : Corners) (S' : Store P.F) (c' : Corners), (∀ p ∈ c.list, UtmLegal p) ∧
      setGeolo P .exact ['N'] 33 c S = (S', none) ∧ getGeolo P S' = .ok (c', some 33) ∧
      c.ul = (500000, 900000) ∧ c'.ul = (900000, 500000) := by
  have hl : ∀ p ∈ (⟨(500000, 900000), (510000, 900000), (510000, 890000), (500000, 890000)⟩ :
      Corners).list, UtmLegal p := by
    rw [mem_list]; unfold UtmLegal; norm_num
  obtain ⟨S', t, h1, _, _, h2⟩ := C38_short_partial P (A := .exact) (ch := ['N']) (.inl rfl)
    (zone := 33) (by omega) hl (by rw [mem_list]; norm_num) S
  exact ⟨_, S', _, hl, h1, h2, rfl, by norm_num [Corners.map]⟩

/-- C38 fails for every image whose lower left corner is a thousand kilometres or more north of the
equator (or of the false origin in the south): the corners are accepted, but the header can no longer
be written, because the text is too long. -/
theorem C38_long {A : DmsArith} {ch : Str} (hch : ch = ['N'] ∨ ch = ['S']) {zone : ℤ}
    {c : Corners} (h : ∀ p ∈ c.list, UtmLegal p) (hbig : 1000000 ≤ c.ll.2) (S : Store P.F) :
    ∃ S', setGeolo P A ch zone c S = (S', none) ∧ ∃ e, writeStruct P ihD S' = .error e := by
  have ge : ∀ p, 15 ≤ (utmText zone p).length := by
    intro p
    have := fmtInt_long 2 zone
    have := fmtInt_long 6 ⌊p.2⌋
    have := fmtInt_long 7 ⌊p.1⌋
    simp only [utmText, List.length_append]
    omega
  have gt : 16 ≤ (utmText zone c.ll).length := by
    have := fmtInt_long 2 zone
    have := fmtInt_long 7 ⌊c.ll.1⌋
    have h6 := fmtInt_long 6 ⌊c.ll.2⌋
    have hne : (fmtInt 6 ⌊c.ll.2⌋).length ≠ 6 := by
      rw [Ne, fmtInt_length]
      have a : (1000000 : ℤ) ≤ ⌊c.ll.2⌋ := by rw [Int.le_floor]; push_cast; exact hbig
      unfold FitsDec
      omega
    simp only [utmText, List.length_append]
    omega
  have hlen : 60 < (rstripU (setCorners (utmText zone) c)).length := by
    obtain ⟨X, hX, e⟩ := setCorners_last (f := utmText zone) (c := c) (fun p _ => ge p)
    rw [e]
    have hu : rstripU (X.take 45 ++ utmText zone c.ll) = X.take 45 ++ utmText zone c.ll :=
      rstripU_append (utmText_last _ _) (by intro h; rw [h] at gt; simp at gt)
    have := rstripU_length_ge (b := X.drop 60) hu
    rw [List.length_append, List.length_take] at this
    omega
  obtain ⟨S', s1, _, _, s3, s4⟩ := setGeolo_ok P S (by rcases hch with rfl | rfl <;> decide)
    (by rcases hch with rfl | rfl <;> decide) (writeIgeolo_utm hch zone h)
  refine ⟨S', s1, row_igeolo.overflow_str P (by decide +kernel) ?_ ⟨_, s4⟩ hlen⟩
  exact igeolo_cond P (by rcases hch with rfl | rfl <;> decide)
    (by rcases hch with rfl | rfl <;> decide) s3

/-- If only another corner has seven digits, the text keeps its 60 characters and the easting of that
corner loses its last digit. -/
theorem C38_digit_lost (S : Store P.F) :
    ∃ (c : Corners) (S' : Store P.F) (t : Str) (c' : Corners), (∀ p ∈ c.list, UtmLegal p) ∧
      setGeolo P .exact ['N'] 33 c S = (S', none) ∧ ihGet P S' (n!"igeolo") = .ok (.str t) ∧
      t.length = 60 ∧ getGeolo P S' = .ok (c', some 33) ∧
      c.ul = (500000, 1000000) ∧ c'.ul = (100000, 50000) := by
  have hl : ∀ p ∈ (⟨(500000, 1000000), (510000, 999999), (510000, 990000), (500000, 990000)⟩ :
      Corners).list, UtmLegal p := by
    rw [mem_list]; unfold UtmLegal; norm_num
  obtain ⟨S', s1, s2, s3, _⟩ := setGeolo_ok P S (by decide) (by decide)
    (writeIgeolo_utm (A := .exact) (ch := ['N']) (.inl rfl) 33 hl)
  refine ⟨_, S', _, ⟨(100000, 50000), (999999, 510000), (990000, 510000), (990000, 500000)⟩, hl, s1,
    s3, ?_, s2.trans ?_, rfl, rfl⟩
  · decide +kernel
  · decide +kernel

/-- The hypotheses can be met, in exact arithmetic and with nontrivial values. -/
example : (∀ p ∈ (⟨(-0.5, 89.99999), (180, -90), (12.3456, 59.9999), (0, 0)⟩ : Corners).list,
    |p.1| ≤ 180 ∧ |p.2| ≤ 90) ∧
    writeIgeolo .exact ['G'] 0 ⟨(-0.5, 89.99999), (180, -90), (12.3456, 59.9999), (0, 0)⟩ =
      .ok ("900000N0003000W900000S1800000E600000N0122044E000000N0000000E").toList := by
  constructor
  · rw [mem_list]; norm_num [abs_le]
  · decide +kernel

end Verif
