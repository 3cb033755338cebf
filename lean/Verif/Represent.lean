import Verif.RoundTrip

/- When the text of a field reads back as the same value. -/

namespace Verif

variable (P : PyFloat)

/-- The padded text `b` of a field parses to the value `w`, and an optional field is not mistaken
for a missing one. -/
def TextReads (fd : FieldDef) (b : Bytes) (w : Val P.F) : Prop :=
  (fd.optional = true → isFill fd b = false) ∧
  match fd.ty, w with
  | .flt, .flt x => rstripB b ≠ [] ∧ pyFloatB P b = .ok x
  | .int, .int z => pyIntB b = .ok z
  | .str, .str s => rstripU (latin1Dec b) = s
  | _, _ => False

/-- Fields whose text depends on an opaque formatter: floats and custom formats. -/
def FieldDef.opaqueText (fd : FieldDef) : Bool :=
  match fd.ty, fd.frmt with
  | .bytes, _ => false
  | .flt, _ => true
  | _, some (.other _) => true
  | _, _ => false

/-- The value `w` of a field survives being written with width `sz` and read back.
* `None` always does.
* floats and custom formats: their text must parse back.
* an optional text must contain something besides fill characters (else it means `None`).
* everything else (integers, text, bytes) always does. -/
def ValRep (fd : FieldDef) (sz : Int) (w : Val P.F) : Prop :=
  match w with
  | .none => True
  | w =>
    if fd.opaqueText then ∀ b, encodeVal P fd sz w = .ok b → TextReads P fd b w
    else if fd.ty = .str ∧ fd.optional then
      ∃ s, w = .str s ∧ ∃ c ∈ s, c ≠ ' ' ∧ c ≠ fd.optChar
    else True

/-- What is stored in a field survives. A `NitfLiteral` must itself be text the field can parse
(of exactly the right length for a binary field). -/
def StoredRep (fd : FieldDef) (sz : Int) (s : Stored P.F) (w : Val P.F) : Prop :=
  match s with
  | .val _ => ValRep P fd sz w
  | .lit b => (∃ w, finish P fd (.lit b) = .ok w) ∧ (fd.ty = .flt → rstripB b ≠ []) ∧
      (fd.ty = .bytes → (b.length : Int) = sz)

/-- Row conditions on a description under which the engine's text formats are unambiguous: the
fill character is a space or a dash, and binary fields are not optional. -/
def FieldDef.wf (fd : FieldDef) : Bool :=
  (fd.optChar == ' ' || fd.optChar == '-') && !(fd.optional && fd.ty == .bytes)

theorem isFill_replicate (fd : FieldDef) (k : Nat) {b : Bytes}
    (h : latin1Enc (List.replicate k fd.optChar) = .ok b) : isFill fd b = true := by
  rw [latin1Enc_ok_iff] at h
  obtain ⟨h1, rfl⟩ := h
  unfold isFill
  rw [List.all_eq_true]
  intro x hx
  simp only [List.map_replicate, List.mem_replicate] at hx
  obtain ⟨hk, rfl⟩ := hx
  have := h1 fd.optChar (by simp [hk])
  simp [Nat.mod_eq_of_lt this]

theorem isFill_false_of_mem {fd : FieldDef} {t : Str} {b : Bytes} (h : latin1Enc t = .ok b)
    {c : Char} (hc : c ∈ t) (h1 : c ≠ ' ') (h2 : c ≠ fd.optChar) : isFill fd b = false := by
  rw [latin1Enc_ok_iff] at h
  obtain ⟨hlt, rfl⟩ := h
  have hlt := hlt c hc
  rw [Bool.eq_false_iff]
  intro hf
  unfold isFill at hf
  rw [List.all_eq_true] at hf
  have := hf (UInt8.ofNat c.toNat) (List.mem_map.mpr ⟨c, hc, rfl⟩)
  simp only [Bool.or_eq_true, beq_iff_eq, UInt8.toNat_ofNat', Nat.mod_eq_of_lt hlt] at this
  rcases this with h | h
  · exact h2 (Char.toNat_inj.mp h)
  · have := congrArg UInt8.toNat h
    simp [Nat.mod_eq_of_lt hlt] at this
    exact h1 (Char.toNat_inj.mp this)

theorem optChar_not_digit {fd : FieldDef} (h : fd.wf = true) {c : Char} (hc : IsDigit c) :
    c ≠ ' ' ∧ c ≠ fd.optChar := by
  simp only [FieldDef.wf, Bool.and_eq_true, Bool.or_eq_true, beq_iff_eq] at h
  replace h := h.1
  constructor
  · rintro rfl; have := hc.1; simp at this
  · rintro rfl
    rcases h with h | h <;> · rw [h] at hc; have := hc.1; simp at this

theorem finish_val_of_ne_none (fd : FieldDef) {v : Val P.F} (h : v ≠ .none) :
    finish P fd (.val v) = coerce P fd v := by
  cases v <;> simp_all [finish]

/-- Parsing a text that reads as `w`. -/
theorem parse_textReads {fd : FieldDef} {b : Bytes} {w : Val P.F} (h : TextReads P fd b w) :
    ∃ v, parseField P fd false b = .ok v ∧ finish P fd v = .ok w := by
  obtain ⟨hfill, hm⟩ := h
  have hnf : (fd.optional && isFill fd b) = false := by
    cases ho : fd.optional with
    | false => rfl
    | true => rw [hfill ho]; rfl
  unfold parseField
  simp only [Bool.false_eq_true, if_false, hnf]
  cases hty : fd.ty with
  | str =>
    cases w <;> simp only [hty] at hm
    rename_i s
    refine ⟨_, rfl, ?_⟩
    simp only [finish, coerce, hty, pyStr]
    rw [rstripU_dec_rstripB, hm]
  | int =>
    cases w <;> simp only [hty] at hm
    rename_i z
    have hne : rstripB b ≠ [] := by
      intro h0
      unfold pyIntB at hm
      rw [h0] at hm
      simp [lstripBy, parseSigned, parseDigits] at hm
    simp only [hne, if_false]
    rw [pyIntB_rstrip, hm]
    refine ⟨_, rfl, ?_⟩
    simp [finish, coerce, hty, coerceInt]
  | flt =>
    cases w <;> simp only [hty] at hm
    rename_i x
    simp only [hm.1, if_false]
    have : pyFloatB P (rstripB b) = pyFloatB P b := by unfold pyFloatB; rw [rstripB_idem]
    rw [this, hm.2]
    refine ⟨_, rfl, ?_⟩
    simp [finish, coerce, hty]
  | bytes => cases w <;> simp only [hty] at hm

/-- The finished value has the type of the field. -/
theorem coerce_shape {fd : FieldDef} {v w : Val P.F} (h : coerce P fd v = .ok w) :
    match fd.ty, w with
    | .str, .str s => rstripU s = s
    | .int, .int _ => True
    | .flt, .flt _ => True
    | .bytes, .bytes _ => True
    | _, _ => False := by
  unfold coerce at h
  cases hty : fd.ty with
  | str => rw [hty] at h; injection h with h; subst h; exact rstripU_idem _
  | int =>
    rw [hty] at h; simp only at h
    split at h
    · injection h with h; subst h; trivial
    · cases h
  | flt =>
    rw [hty] at h; simp only at h
    split at h
    · injection h with h; subst h; trivial
    · injection h with h; subst h; trivial
    · split at h
      · injection h with h; subst h; trivial
      · cases h
    · split at h
      · injection h with h; subst h; trivial
      · cases h
    · cases h
  | bytes =>
    rw [hty] at h; simp only at h
    split at h
    · injection h with h; subst h; trivial
    · split at h
      · cases h
      · injection h with h; subst h; trivial
    · cases h

theorem finish_shape {fd : FieldDef} {s : Stored P.F} {w : Val P.F} (h : finish P fd s = .ok w) :
    (w = .none ∧ fd.optional = true) ∨ ∃ v, coerce P fd v = .ok w := by
  cases s with
  | lit b =>
    simp only [finish] at h
    split at h
    · rename_i h'
      simp only [Bool.and_eq_true] at h'
      injection h with h
      exact Or.inl ⟨h.symm, h'.1⟩
    · exact Or.inr ⟨_, h⟩
  | val v =>
    cases v with
    | none =>
      simp only [finish] at h
      split at h
      · rename_i h'; injection h with h; exact Or.inl ⟨h.symm, h'⟩
      · exact Or.inr ⟨_, h⟩
    | _ => exact Or.inr ⟨_, h⟩

theorem encodeVal_of_ne_none (fd : FieldDef) (sz : Int) (v : Val P.F) : v ≠ .none →
    encodeVal P fd sz v =
      match fd.ty with
      | .bytes =>
        match v with
        | .bytes b => if (b.length : Int) ≠ sz then .error .runtime else .ok b
        | _ => .error .type
      | _ =>
        match formatVal P fd v sz with
        | .error e => .error e
        | .ok t => if (t.length : Int) ≠ sz then .error .runtime else latin1Enc t := by
  intro h
  unfold encodeVal
  split
  · exact absurd rfl h
  · rfl

theorem formatVal_ok {fd : FieldDef} {v : Val P.F} {sz : Int} {t : Str}
    (h : formatVal P fd v sz = .ok t) : 0 ≤ sz ∧ ∃ t', formatCore P fd v sz = .ok t' ∧
      t = if fd.ty = .int then t' else padRight ' ' sz.toNat t' := by
  unfold formatVal at h
  by_cases h0 : sz < 0
  · rw [if_pos h0] at h; cases h
  · rw [if_neg h0] at h
    cases hfc : formatCore P fd v sz with
    | error e => rw [hfc] at h; cases h
    | ok t' =>
      rw [hfc] at h
      injection h with h
      exact ⟨by omega, t', rfl, h.symm⟩

/-- A non-literal value that survives is read back. -/
theorem parse_encodeVal {fd : FieldDef} (hwf : fd.wf = true) {sz : Int} {w : Val P.F} {b : Bytes}
    (hw : (w = .none ∧ fd.optional = true) ∨ ∃ v, coerce P fd v = .ok w)
    (hb : encodeVal P fd sz w = .ok b) (hr : ValRep P fd sz w) :
    ∃ v, parseField P fd false b = .ok v ∧ finish P fd v = .ok w := by
  rcases hw with ⟨rfl, ho⟩ | ⟨v0, hv0⟩
  · unfold encodeVal at hb
    rw [ho] at hb
    simp only at hb
    split at hb
    · cases hb
    · split at hb
      · cases hb
      · refine ⟨.val .none, ?_, by simp [finish, ho]⟩
        unfold parseField
        simp [ho, isFill_replicate fd _ hb]
  · have hshape := coerce_shape P hv0
    have hnn : w ≠ .none := by
      rintro rfl
      cases hty : fd.ty <;> rw [hty] at hshape <;> exact hshape
    by_cases hop : fd.opaqueText = true
    · have : TextReads P fd b w := by
        unfold ValRep at hr
        cases w <;> first | exact absurd rfl hnn | (simp only [hop, if_true] at hr; exact hr b hb)
      exact parse_textReads P this
    · rw [encodeVal_of_ne_none P fd sz _ hnn] at hb
      cases hty : fd.ty with
      | flt => simp [FieldDef.opaqueText, hty] at hop
      | bytes =>
        cases w <;> simp only [hty] at hshape
        rename_i bb
        simp only [hty] at hb
        split at hb
        · cases hb
        · injection hb with hb
          subst hb
          have ho : fd.optional = false := by
            simp only [FieldDef.wf, hty, Bool.and_eq_true] at hwf
            simpa using hwf.2
          unfold parseField
          simp only [Bool.false_eq_true, if_false, hty, ho, Bool.false_and]
          exact ⟨_, rfl, by simp [finish, coerce, hty]⟩
      | int =>
        cases w <;> simp only [hty] at hshape
        rename_i z
        have hfm : ∃ t, NumText t ∧ latin1Enc t = .ok b ∧ pyIntB b = .ok z := by
          simp only [hty] at hb
          cases hfv : formatVal P fd (.int z) sz with
          | error e => rw [hfv] at hb; cases hb
          | ok t =>
            rw [hfv] at hb
            have hb' : latin1Enc t = .ok b := by
              simp only at hb
              split at hb
              · cases hb
              · exact hb
            obtain ⟨_, t', hfc, hfv⟩ := formatVal_ok P hfv
            rw [hty, if_pos rfl] at hfv
            subst hfv
            · unfold formatCore at hfc
              · cases hfr : fd.frmt with
                | none =>
                  simp only [hfr, hty, asIntD, Except.map] at hfc
                  injection hfc with hfc
                  subst hfc
                  exact ⟨_, numText_fmtInt _ _, hb', (pyIntB_fmtInt hb').1⟩
                | some fr =>
                  cases fr with
                  | zd k =>
                    simp only [hfr, asIntD, Except.map] at hfc
                    injection hfc with hfc
                    subst hfc
                    exact ⟨_, numText_fmtInt _ _, hb', (pyIntB_fmtInt hb').1⟩
                  | pd k =>
                    simp only [hfr, asIntD, Except.map] at hfc
                    injection hfc with hfc
                    subst hfc
                    exact ⟨_, numText_fmtIntPlus _ _, hb', (pyIntB_fmtIntPlus hb').1⟩
                  | other i => simp [FieldDef.opaqueText, hty, hfr] at hop
        obtain ⟨t, hnt, henc, hpi⟩ := hfm
        refine parse_textReads P ⟨?_, by simp only [hty]; exact hpi⟩
        intro _
        obtain ⟨c, hc, hd⟩ := hnt.digit
        have := optChar_not_digit hwf hd
        exact isFill_false_of_mem henc hc this.1 this.2
      | str =>
        cases w <;> simp only [hty] at hshape
        rename_i s
        have hfm : ∃ t, latin1Enc (padRight ' ' sz.toNat t) = .ok b ∧ t = s := by
          simp only [hty] at hb
          cases hfv : formatVal P fd (.str s) sz with
          | error e => rw [hfv] at hb; cases hb
          | ok t =>
            rw [hfv] at hb
            have hb' : latin1Enc t = .ok b := by
              simp only at hb
              split at hb
              · cases hb
              · exact hb
            obtain ⟨_, t', hfc, hfv⟩ := formatVal_ok P hfv
            rw [hty, if_neg (by decide)] at hfv
            subst hfv
            · unfold formatCore at hfc
              · cases hfr : fd.frmt with
                | none =>
                  simp only [hfr, hty, pyStr] at hfc
                  injection hfc with hfc
                  exact ⟨t', by simpa using hb', hfc.symm⟩
                | some fr =>
                  cases fr with
                  | zd k => simp [hfr, asIntD, Except.map] at hfc
                  | pd k => simp [hfr, asIntD, Except.map] at hfc
                  | other i => simp [FieldDef.opaqueText, hty, hfr] at hop
        obtain ⟨t, henc, rfl⟩ := hfm
        refine parse_textReads P ⟨?_, ?_⟩
        · intro ho
          unfold ValRep at hr
          simp only [hop, hty, ho, and_self, if_true, Bool.false_eq_true, if_false] at hr
          obtain ⟨s', h1, c, hc, h2, h3⟩ := hr
          injection h1 with h1
          subst h1
          exact isFill_false_of_mem henc (by unfold padRight; simp [hc]) h2 h3
        · simp only [hty]
          rw [latin1Dec_enc henc, rstripU_padRight, hshape]

end Verif
