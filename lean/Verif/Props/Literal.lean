import Verif.Literal
import Verif.Props.Fields

/- C56: literals assigned to fields; C57: literals with a size; and the parts of C10 about literals and required fields. -/

namespace Verif

variable {P : PyFloat}

/-! ### C10 -/

/-- C10.  A literal of fill characters and blanks only in an optional field reads as None, any other
literal does not. -/
theorem C10_literal_fill {fd : FieldDef} (ho : fd.optional = true) (b : Bytes) :
    finish P fd (.lit b) = .ok .none ↔ ∀ x ∈ b, x.toNat = fd.optChar.toNat ∨ x = 32 := by
  have hiff : isFill fd b = true ↔ ∀ x ∈ b, x.toNat = fd.optChar.toNat ∨ x = 32 := by
    simp [isFill]
  rw [← hiff]
  unfold finish
  simp only [ho, Bool.true_and]
  cases hb : isFill fd b with
  | true => simp
  | false =>
    simp only [Bool.false_eq_true, if_false, iff_false]
    intro h
    unfold coerce at h
    cases hty : fd.ty <;> simp only [hty] at h
    · injection h with h; cases h
    · split at h
      · injection h with h; cases h
      · cases h
    · split at h
      · injection h with h; cases h
      · cases h
    · injection h with h; cases h

/-- C10.  A field that is not optional is never read as None, whatever its content. -/
theorem C10_required_never_none {fd : FieldDef} (ho : fd.optional = false) (lit : Bool) (b : Bytes) :
    parseField P fd lit b ≠ .ok (.val .none) := by
  intro h
  unfold parseField at h
  cases lit with
  | true => simp only [if_true] at h; injection h with h; cases h
  | false =>
    simp only [Bool.false_eq_true, if_false, ho, Bool.false_and] at h
    cases hty : fd.ty <;> simp only [hty] at h
    · injection h with h; injection h with h; cases h
    · split at h
      · cases h
      · split at h
        · injection h with h; injection h with h; cases h
        · cases h
    · split at h
      · cases h
      · split at h
        · injection h with h; injection h with h; cases h
        · cases h
    · injection h with h; injection h with h; cases h

/-- C10.  A required string field full of blanks is the empty string. -/
theorem C10_required_blank {fd : FieldDef} (ho : fd.optional = false) (hty : fd.ty = .str) (w : Nat) :
    parseField P fd false (List.replicate w 32) = .ok (.val (.str [])) := by
  unfold parseField
  simp only [Bool.false_eq_true, if_false, ho, Bool.false_and, hty]
  have : rstripB (List.replicate w 32) = [] := by
    unfold rstripB
    rw [rstripBy_nil_iff]
    simp only [List.all_eq_true]
    intro x hx
    rw [(List.mem_replicate.mp hx).2]
    decide
  rw [this]
  rfl

example : finish P0 dashField (.lit (asc "---")) = .ok .none ∧
    finish P0 dashField (.lit (asc "- 7")) = .error .runtime ∧
    parseField P0 { dashField with optional := false } false (asc "---") = .error .exception := by
  decide +kernel

/-! ### C56 -/

/-- What a literal reads as: None if the field is optional and the literal is only fill, otherwise
the literal as a value of the type of the field. -/
def literalValue (P : PyFloat) (fd : FieldDef) (b : Bytes) : Except Err (Val P.F) :=
  if fd.optional ∧ ∀ x ∈ b, x.toNat = fd.optChar.toNat ∨ x = 32 then .ok .none
  else match fd.ty with
    | .str => .ok (.str (rstripU (b.map fun x => Char.ofNat x.toNat)))
    | .bytes => .ok (.bytes b)
    | .int => match pyIntB b with
      | .ok z => .ok (.int z)
      | .error _ => .error .runtime
    | .flt => match pyFloatB P b with
      | .ok x => .ok (.flt x)
      | .error _ => .error .runtime

theorem finish_lit (fd : FieldDef) (b : Bytes) : finish P fd (.lit b) = literalValue P fd b := by
  have hiff : isFill fd b = true ↔ ∀ x ∈ b, x.toNat = fd.optChar.toNat ∨ x = 32 := by
    simp [isFill]
  unfold finish literalValue
  simp only [← hiff, Bool.and_eq_true]
  by_cases h : fd.optional = true ∧ isFill fd b = true
  · rw [if_pos h, if_pos h]
  · rw [if_neg h, if_neg h]
    unfold coerce
    cases fd.ty <;> rfl

/-- C56.  A literal accepted by a field of `w` bytes is written as it is, padded with blanks to `w`
bytes; a longer one is refused when writing. -/
theorem C56_written {d : Desc} (hd : d.causal = true) {S S' : Store P.F} {n : Nat} {key : Key}
    {b : Bytes} {fi : FInfo} (hn : d.tab[n]? = some fi) (h : setLit P d.tab S n key b = (S', none))
    {w : Nat} (hw : evalSize P (look P d.tab S) fi key = .ok (w : Int)) :
    (b.length ≤ w → fieldBytes P (look P d.tab S') S' fi n key =
      .ok (b ++ List.replicate (w - b.length) 32)) ∧
    (w < b.length → fieldBytes P (look P d.tab S') S' fi n key = .error .runtime) := by
  obtain ⟨_, _, hck, _, _, hS⟩ := setLit_ok hn h
  have hb : ∀ m k, m < n → S m k = S' m k := by rw [hS]; exact set_below S key _
  obtain ⟨_, _, h3⟩ := below_facts P (Desc.causalTab hd) hn hb (checkIndex_ok_length P hck)
  have hst : stored S' fi.fd n key = .lit b := by rw [hS, stored_set]
  have key : fieldBytes P (look P d.tab S') S' fi n key =
      if ((padRight (32 : UInt8) w b).length : Int) ≠ w then .error .runtime
      else .ok (padRight 32 w b) := by
    unfold fieldBytes
    rw [h3, hw, hst]
    simp only [Int.toNat_natCast]
  rw [key]
  have hlen : (padRight (32 : UInt8) w b).length = b.length + (w - b.length) := by simp [padRight]
  constructor
  · intro hle
    rw [if_neg (by rw [hlen]; omega)]
    rfl
  · intro hlt
    rw [if_pos (by rw [hlen]; omega)]

/-- C56.  Reading the field gives the literal as a value of the type of the field; nothing else
changes; a refused assignment changes nothing. -/
theorem C56_assigned {d : Desc} (hd : d.causal = true) {S S' : Store P.F} {n : Nat} {key : Key}
    {b : Bytes} {fi : FInfo} (hn : d.tab[n]? = some fi) (h : setLit P d.tab S n key b = (S', none)) :
    getItem P d.tab S' n key = literalValue P fi.fd b ∧
    (∀ m k, ¬ (m = n ∧ k = key) → S' m k = S m k) ∧
    (∀ m k, m < n → getItem P d.tab S' m k = getItem P d.tab S m k) := by
  obtain ⟨hk, hnm, hck, hcd, hv, hS⟩ := setLit_ok hn h
  have hb : ∀ m k, m < n → S m k = S' m k := by rw [hS]; exact set_below S key _
  obtain ⟨h1, h2, _⟩ := below_facts P (Desc.causalTab hd) hn hb (checkIndex_ok_length P hck)
  refine ⟨?_, ?_, ?_⟩
  · rw [getItem_eq P _ hn]
    unfold getWith
    rw [lowGet_present P hnm (by rw [h1]; exact hck) (by rw [h2]; exact hcd) hv, hS, stored_set,
      finish_lit]
    cases literalValue P fi.fd b with
    | error e => rfl
    | ok v => simp only [hk]
  · intro m k hne
    rw [hS]
    unfold Store.set
    rw [if_neg hne]
  · intro m k hlt
    cases hm : d.tab[m]? with
    | none => unfold getItem getF; simp only [hm]
    | some fm =>
      exact (sameAt_frame P (Desc.causalTab hd) m _ fun m' k' hm' _ => hb m' k' (by omega)).symm

/-- C56.  A refused literal leaves the struct as it was. -/
theorem C56_refused {T : Tab} {S S' : Store P.F} {n : Nat} {key : Key} {b : Bytes} {e : Err}
    (h : setLit P T S n key b = (S', some e)) : S' = S := setLit_error h

theorem isFill_pad (fd : FieldDef) (w : Nat) (b : Bytes) : isFill fd (padRight 32 w b) = isFill fd b := by
  have h : (List.replicate (w - b.length) (32 : UInt8)).all
      (fun x => x.toNat == fd.optChar.toNat || x == 32) = true := by
    rw [List.all_eq_true]
    intro x hx
    rw [(List.mem_replicate.mp hx).2]
    simp
  unfold isFill padRight
  rw [List.all_append, h, Bool.and_true]

/-- C56.  What a literal reads as is what will be read from the file it is written to, or else both
fail.  (Not for raw byte fields, where the padding is part of the value; and provided the empty text
is no float.) -/
theorem C56_read_back {fd : FieldDef} (hty : fd.ty ≠ .bytes)
    (hp : ∃ e, P.parse [] = .error e) (w : Nat) (b : Bytes) :
    (∀ v, literalValue P fd b = .ok v → ∃ s,
      parseField P fd false (b ++ List.replicate (w - b.length) 32) = .ok s ∧ finish P fd s = .ok v) ∧
    (∀ e, literalValue P fd b = .error e → ∃ e',
      parseField P fd false (b ++ List.replicate (w - b.length) 32) = .error e') := by
  have hpad : b ++ List.replicate (w - b.length) 32 = padRight 32 w b := rfl
  rw [hpad, ← finish_lit]
  have hi := isFill_pad fd w b
  have hs := rstripB_padRight w b
  unfold parseField finish
  simp only [Bool.false_eq_true, if_false, hi, hs]
  by_cases hf : (fd.optional && isFill fd b) = true
  · rw [if_pos hf, if_pos hf]
    have ho : fd.optional = true := by
      rw [Bool.and_eq_true] at hf
      exact hf.1
    refine ⟨fun v hv => ⟨_, rfl, ?_⟩, fun e he => by cases he⟩
    simp only [ho, if_true]
    exact hv
  · rw [if_neg hf, if_neg hf]
    unfold coerce
    cases h : fd.ty with
    | bytes => exact absurd h hty
    | str =>
      simp only
      refine ⟨fun v hv => ⟨_, rfl, ?_⟩, fun e he => by cases he⟩
      simp only [pyStr] at hv ⊢
      rw [← hv, rstripU_dec_rstripB]
    | int =>
      simp only [coerceInt, pyIntB_rstrip]
      by_cases hb : rstripB b = []
      · rw [if_pos hb]
        have : pyIntB b = .error .value := by
          rw [← pyIntB_rstrip, hb]
          decide
        rw [this]
        exact ⟨fun v hv => (by cases hv), fun e _ => ⟨_, rfl⟩⟩
      · rw [if_neg hb]
        cases hz : pyIntB b with
        | error e => exact ⟨fun v hv => (by cases hv), fun e _ => ⟨_, rfl⟩⟩
        | ok z =>
          refine ⟨fun v hv => ⟨_, rfl, ?_⟩, fun e he => by cases he⟩
          simpa using hv
    | flt =>
      have hst : pyFloatB P (rstripB b) = pyFloatB P b := by
        unfold pyFloatB
        rw [rstripB_idem]
      simp only [hst]
      by_cases hb : rstripB b = []
      · rw [if_pos hb]
        obtain ⟨e0, he0⟩ := hp
        have : pyFloatB P b = .error e0 := by
          unfold pyFloatB
          rw [hb]
          exact he0
        rw [this]
        exact ⟨fun v hv => (by cases hv), fun e _ => ⟨_, rfl⟩⟩
      · rw [if_neg hb]
        cases hz : pyFloatB P b with
        | error e => exact ⟨fun v hv => (by cases hv), fun e _ => ⟨_, rfl⟩⟩
        | ok z =>
          refine ⟨fun v hv => ⟨_, rfl, ?_⟩, fun e he => by cases he⟩
          simpa using hv

/-- A literal in an integer field. -/
example :
    let r := setLit P0 gridDesc.tab Store.empty 0 [] (asc "7")
    r.2 = none ∧ getItem P0 gridDesc.tab r.1 0 [] = .ok (.int 7) := by decide +kernel

/-! ### C57 -/

/-- C57, the part that holds: the literal is a prefix of the value with fewer than `trunc_size`
bytes (the whole value without a size).  Missing: nothing may be cut off a value that fits. -/
theorem C57_prefix_partial (v : Bytes) :
    mkLiteral v none = v ∧ ∀ t : Int, mkLiteral v (some t) <+: v ∧
      (1 ≤ t → ((mkLiteral v (some t)).length : Int) < t) ∧
      ((v.length : Int) < t → mkLiteral v (some t) = v) := by
  refine ⟨rfl, fun t => ?_⟩
  unfold mkLiteral
  simp only
  by_cases h : 0 ≤ t - 1
  · rw [if_pos h]
    refine ⟨List.take_prefix _ _, fun _ => ?_, fun hl => ?_⟩
    · rw [List.length_take]; omega
    · exact List.take_of_length_le (by omega)
  · rw [if_neg h]
    exact ⟨List.take_prefix _ _, fun h1 => by omega, fun hl => by omega⟩

/-- C57 fails: a value of exactly `trunc_size` bytes loses its last byte. -/
theorem C57_one_short (v : Bytes) (h : v ≠ []) : mkLiteral v (some v.length) = v.dropLast := by
  unfold mkLiteral
  simp only
  have : 0 < v.length := List.length_pos_iff.mpr h
  rw [if_pos (by omega), List.dropLast_eq_take]
  congr 1
  omega

example : mkLiteral (asc "abc") (some 3) = asc "ab" ∧ mkLiteral (asc "abc") (some 4) = asc "abc" ∧
    mkLiteral (asc "abc") (some 0) = asc "ab" := by decide

end Verif
