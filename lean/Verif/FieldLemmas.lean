import Verif.StructLemmas

/- Lemmas behind `Props/Fields.lean`. -/

namespace Verif

theorem decAux_length_le (f : Nat) : ∀ (n w : Nat), 0 < f → n < 10 ^ f → 1 ≤ w →
    ((decAux f n).length ≤ w ↔ n < 10 ^ w) := by
  induction f with
  | zero => intro n w h; omega
  | succ f ih =>
    intro n w _ hn hw
    unfold decAux
    split
    · rename_i h
      simp only [List.length_singleton]
      have : 10 ^ 1 ≤ 10 ^ w := Nat.pow_le_pow_right (by omega) hw
      constructor
      · intro _; omega
      · intro _; exact hw
    · rename_i h
      have hf : 0 < f := by
        rcases Nat.eq_zero_or_pos f with h0 | h0
        · subst h0; simp at hn; omega
        · exact h0
      have hdiv : n / 10 < 10 ^ f := by
        rw [Nat.pow_succ] at hn
        omega
      rw [List.length_append, List.length_singleton]
      cases w with
      | zero => omega
      | succ w =>
        rcases Nat.eq_zero_or_pos w with h0 | h0
        · subst h0
          have := decAux_ne_nil f (n / 10) hf
          have : 0 < (decAux f (n / 10)).length := List.length_pos_iff.mpr this
          constructor
          · intro _; omega
          · intro h1; simp at h1; omega
        · have := ih (n / 10) w hf hdiv h0
          rw [Nat.pow_succ]
          constructor
          · intro h1
            have := this.mp (by omega)
            omega
          · intro h1
            have := this.mpr (by omega)
            omega

theorem decStr_length_le (n w : Nat) (hw : 1 ≤ w) : (decStr n).length ≤ w ↔ n < 10 ^ w :=
  decAux_length_le _ n w (by omega) (lt_pow_log2_succ n) hw

/-- An integer fits a decimal field of `w` characters (with a sign if negative). -/
def FitsDec (w : Nat) (z : Int) : Prop :=
  (0 ≤ z ∧ 1 ≤ w ∧ z < 10 ^ w) ∨ (z < 0 ∧ 2 ≤ w ∧ -z < 10 ^ (w - 1))

theorem fmtInt_length (w : Nat) (z : Int) : (fmtInt w z).length = w ↔ FitsDec w z := by
  have hcast : ∀ k : Nat, ((10 : Int) ^ k) = ((10 ^ k : Nat) : Int) := by intro k; simp
  unfold FitsDec
  cases z with
  | ofNat n =>
    simp only [fmtInt, length_padLeft]
    have hpos : 0 < (decStr n).length := List.length_pos_iff.mpr (decStr_ne_nil n)
    rw [hcast]
    constructor
    · intro h
      left
      have hw : 1 ≤ w := by omega
      refine ⟨by simp, hw, ?_⟩
      have := (decStr_length_le n w hw).mp (by omega)
      simp only [Int.ofNat_eq_natCast]
      omega
    · rintro (⟨_, hw, h⟩ | ⟨h, _⟩)
      · simp only [Int.ofNat_eq_natCast] at h
        have := (decStr_length_le n w hw).mpr (by omega)
        omega
      · simp only [Int.ofNat_eq_natCast] at h; omega
  | negSucc n =>
    simp only [fmtInt, List.length_cons, length_padLeft]
    have hpos : 0 < (decStr (n + 1)).length := List.length_pos_iff.mpr (decStr_ne_nil (n + 1))
    rw [hcast, hcast]
    constructor
    · intro h
      right
      have hw : 2 ≤ w := by omega
      refine ⟨by omega, hw, ?_⟩
      have := (decStr_length_le (n + 1) (w - 1) (by omega)).mp (by omega)
      omega
    · rintro (⟨h, _⟩ | ⟨_, hw, h⟩)
      · omega
      · have := (decStr_length_le (n + 1) (w - 1) (by omega)).mpr (by omega)
        omega

theorem snocInd {α : Type} {motive : List α → Prop} (l : List α) (nil : motive [])
    (snoc : ∀ a x, motive a → motive (a ++ [x])) : motive l := by
  have h : ∀ r : List α, motive r.reverse := by
    intro r
    induction r with
    | nil => exact nil
    | cons x r ih => rw [List.reverse_cons]; exact snoc _ _ ih
  simpa using h l.reverse

theorem bytesToNat_append (a : Bytes) (x : UInt8) :
    bytesToNat (a ++ [x]) = bytesToNat a * 256 + x.toNat := by
  simp [bytesToNat]

theorem natToBytes_length (w n : Nat) : (natToBytes w n).length = w := by
  induction w generalizing n with
  | zero => rfl
  | succ w ih => simp [natToBytes, ih]

theorem bytesToNat_natToBytes (w : Nat) : ∀ n, n < 256 ^ w → bytesToNat (natToBytes w n) = n := by
  induction w with
  | zero => intro n h; simp at h; subst h; rfl
  | succ w ih =>
    intro n h
    rw [Nat.pow_succ] at h
    simp only [natToBytes]
    rw [bytesToNat_append, ih (n / 256) (by omega)]
    simp only [UInt8.toNat_ofNat', Nat.reducePow]
    omega

theorem bytesToNat_lt (b : Bytes) : bytesToNat b < 256 ^ b.length := by
  refine snocInd (motive := fun b => bytesToNat b < 256 ^ b.length) b ?_ ?_
  · simp [bytesToNat]
  · intro a x ih
    rw [bytesToNat_append, List.length_append, List.length_singleton, Nat.pow_succ]
    have := x.toNat_lt
    omega

theorem natToBytes_bytesToNat (b : Bytes) : natToBytes b.length (bytesToNat b) = b := by
  refine snocInd (motive := fun b : Bytes => natToBytes b.length (bytesToNat b) = b) b ?_ ?_
  · rfl
  · intro a x ih
    rw [bytesToNat_append, List.length_append, List.length_singleton]
    simp only [natToBytes]
    have := x.toNat_lt
    have h1 : (bytesToNat a * 256 + x.toNat) / 256 = bytesToNat a := by omega
    have h2 : (bytesToNat a * 256 + x.toNat) % 256 = x.toNat := by omega
    rw [h1, h2, ih]
    simp

/-- The integers a binary field of `w` bytes can hold. -/
def FitsBin (signed : Bool) (w : Nat) (z : Int) : Prop :=
  if signed then -(2 ^ (8 * w - 1) : Int) ≤ z ∧ z < 2 ^ (8 * w - 1) else 0 ≤ z ∧ z < 2 ^ (8 * w)

theorem pow256 (w : Nat) : 256 ^ w = 2 ^ (8 * w) := by
  rw [show (256 : Nat) = 2 ^ 8 from rfl, ← Nat.pow_mul]

theorem half256 (w : Nat) (hw : 1 ≤ w) : 256 ^ w = 2 * 2 ^ (8 * w - 1) := by
  rw [pow256]
  conv => lhs; rw [show 8 * w = (8 * w - 1) + 1 by omega]
  rw [Nat.pow_succ]; omega

theorem intToBytes_iff (signed : Bool) {w : Nat} (hw : 1 ≤ w) (z : Int) :
    (∃ b, intToBytes signed w z = .ok b) ↔ FitsBin signed w z := by
  have hc : ∀ k : Nat, ((2 : Int) ^ k) = ((2 ^ k : Nat) : Int) := by intro k; simp
  unfold intToBytes FitsBin
  cases signed with
  | true =>
    have := half256 w hw
    have h2 : 256 ^ w / 2 = 2 ^ (8 * w - 1) := by omega
    simp only [if_true, hc, h2]
    split
    · rename_i h; exact ⟨fun _ => h, fun _ => ⟨_, rfl⟩⟩
    · rename_i h
      exact ⟨fun ⟨b, hb⟩ => (by cases hb), fun h' => absurd h' h⟩
  | false =>
    simp only [Bool.false_eq_true, if_false, hc, ← pow256]
    split
    · rename_i h; exact ⟨fun _ => h, fun _ => ⟨_, rfl⟩⟩
    · rename_i h
      exact ⟨fun ⟨b, hb⟩ => (by cases hb), fun h' => absurd h' h⟩

theorem bytesToInt_intToBytes (signed : Bool) {w : Nat} (hw : 1 ≤ w) {z : Int} {b : Bytes}
    (h : intToBytes signed w z = .ok b) : bytesToInt signed b = z ∧ b.length = w := by
  have hh := half256 w hw
  unfold intToBytes at h
  cases signed with
  | true =>
    simp only [if_true] at h
    split at h
    · rename_i hr
      injection h with h
      subst h
      refine ⟨?_, natToBytes_length _ _⟩
      unfold bytesToInt
      rw [natToBytes_length]
      simp only [Bool.true_and, decide_eq_true_eq]
      split
      · rename_i hneg
        rw [bytesToNat_natToBytes _ _ (by omega)]
        rw [if_pos (by omega)]
        omega
      · rename_i hneg
        rw [bytesToNat_natToBytes _ _ (by omega)]
        rw [if_neg (by omega)]
        omega
    · cases h
  | false =>
    simp only [Bool.false_eq_true, if_false] at h
    split at h
    · rename_i hr
      injection h with h
      subst h
      refine ⟨?_, natToBytes_length _ _⟩
      unfold bytesToInt
      simp only [Bool.false_and, Bool.false_eq_true, if_false]
      rw [bytesToNat_natToBytes _ _ (by omega)]
      omega
    · cases h

theorem intToBytes_bytesToInt (signed : Bool) {b : Bytes} (hw : 1 ≤ b.length) :
    intToBytes signed b.length (bytesToInt signed b) = .ok b := by
  have hh := half256 b.length hw
  have hlt := bytesToNat_lt b
  have hid := natToBytes_bytesToNat b
  unfold intToBytes bytesToInt
  cases signed with
  | true =>
    simp only [if_true, Bool.true_and, decide_eq_true_eq]
    split
    · rename_i hge
      rw [if_pos (by omega), if_pos (by omega)]
      have : ((bytesToNat b : Int) - ((256 ^ b.length : Nat) : Int) +
        ((256 ^ b.length : Nat) : Int)).toNat = bytesToNat b := by omega
      rw [this, hid]
    · rename_i hge
      rw [if_pos (by omega), if_neg (by omega)]
      have : ((bytesToNat b : Int)).toNat = bytesToNat b := by omega
      rw [this, hid]
  | false =>
    simp only [Bool.false_eq_true, if_false, Bool.false_and]
    rw [if_pos (by omega)]
    have : ((bytesToNat b : Int)).toNat = bytesToNat b := by omega
    rw [this, hid]

end Verif
