import Verif.State

/- The text of a bytes object evaluates to the object; UTF-8 decoding inverts encoding. -/

namespace Verif

theorem hexVal_hexChar : ∀ n < 16, hexVal (hexChar n) = some n := by decide

theorem hexChar_toNat : ∀ n < 16, 33 ≤ (hexChar n).toNat ∧ (hexChar n).toNat < 127 := by decide

theorem char_ofNat_toNat {n : Nat} (h : n < 128) : (Char.ofNat n).toNat = n := by
  have : ∀ n < 128, (Char.ofNat n).toNat = n := by decide
  exact this n h

theorem char_ext {c d : Char} (h : c.toNat = d.toNat) : c = d := by
  have := congrArg Char.ofNat h
  rwa [Char.ofNat_toNat, Char.ofNat_toNat] at this

theorem evalBody_byte {q : Char} (hq : q = '\'' ∨ q = '"') (x : UInt8) (r : Str) :
    evalBody q (reprByte q x ++ r) = (evalBody q r).map (x :: ·) := by
  have hx : UInt8.ofNat x.toNat = x := UInt8.ofNat_toNat
  have hq34 : q.toNat = 39 ∨ q.toNat = 34 := by rcases hq with rfl | rfl <;> simp
  have hqb : '\\' ≠ q := by rcases hq with rfl | rfl <;> decide
  have hlt : x.toNat < 256 := UInt8.toNat_lt x
  unfold reprByte
  simp only
  by_cases h1 : x.toNat = q.toNat ∨ x.toNat = 92
  · rw [if_pos h1]
    have hu : unescape (Char.ofNat x.toNat) = some x ∧ Char.ofNat x.toNat ≠ 'x' := by
      have : x.toNat = 39 ∨ x.toNat = 34 ∨ x.toNat = 92 := by omega
      rcases this with h | h | h <;>
      · rw [h] at hx ⊢
        rw [← hx]
        decide
    simp only [List.cons_append, List.nil_append]
    conv => lhs; unfold evalBody
    rw [if_neg hqb, if_pos rfl]
    simp only
    rw [if_neg hu.2, hu.1]
  rw [if_neg h1]
  have esc : ∀ (c : Char) (n : Nat), x.toNat = n → unescape c = some (UInt8.ofNat n) → c ≠ 'x' →
      evalBody q (['\\', c] ++ r) = (evalBody q r).map (x :: ·) := by
    intro c n hn hc hcx
    rw [← hn, hx] at hc
    simp only [List.cons_append, List.nil_append]
    conv => lhs; unfold evalBody
    rw [if_neg hqb, if_pos rfl]
    simp only
    rw [if_neg hcx, hc]
  by_cases h2 : x.toNat = 9
  · rw [if_pos h2]; exact esc 't' 9 h2 (by decide) (by decide)
  rw [if_neg h2]
  by_cases h3 : x.toNat = 10
  · rw [if_pos h3]; exact esc 'n' 10 h3 (by decide) (by decide)
  rw [if_neg h3]
  by_cases h4 : x.toNat = 13
  · rw [if_pos h4]; exact esc 'r' 13 h4 (by decide) (by decide)
  rw [if_neg h4]
  by_cases h5 : x.toNat < 32 ∨ 127 ≤ x.toNat
  · rw [if_pos h5]
    simp only [List.cons_append, List.nil_append]
    conv => lhs; unfold evalBody
    rw [if_neg hqb, if_pos rfl]
    simp only
    rw [if_pos trivial, hexVal_hexChar _ (by omega), hexVal_hexChar _ (by omega)]
    simp only
    have : 16 * (x.toNat / 16) + x.toNat % 16 = x.toNat := by omega
    rw [this, hx]
  · rw [if_neg h5]
    have hc := char_ofNat_toNat (n := x.toNat) (by omega)
    have ne : ∀ d : Char, d.toNat ≠ x.toNat → Char.ofNat x.toNat ≠ d := by
      intro d hd h
      rw [← h, hc] at hd
      exact hd rfl
    simp only [List.cons_append, List.nil_append]
    conv => lhs; unfold evalBody
    rw [if_neg (ne q (by omega)), if_neg (ne '\\' (by show 92 ≠ _; omega)), if_neg]
    · rw [hc, hx]
    · rintro (h | h | h)
      · exact ne '\n' (by show 10 ≠ _; omega) h
      · exact ne '\r' (by show 13 ≠ _; omega) h
      · rw [hc] at h; omega

theorem evalBody_all {q : Char} (hq : q = '\'' ∨ q = '"') (b : Bytes) :
    evalBody q (b.flatMap (reprByte q) ++ [q]) = .ok b := by
  induction b with
  | nil => simp [evalBody]
  | cons x b ih =>
    rw [List.flatMap_cons, List.append_assoc, evalBody_byte hq, ih]
    rfl

theorem evalBytes_pyRepr (b : Bytes) : evalBytes (pyRepr b) = .ok b := by
  have hq : reprQuote b = '\'' ∨ reprQuote b = '"' := by
    unfold reprQuote
    split
    · exact .inr rfl
    · exact .inl rfl
  unfold pyRepr
  simp only [evalBytes]
  rw [if_pos hq, evalBody_all hq]

theorem reprByte_printable {q : Char} (hq : q = '\'' ∨ q = '"') (x : UInt8) :
    ∀ c ∈ reprByte q x, 32 ≤ c.toNat ∧ c.toNat < 127 := by
  have hlt : x.toNat < 256 := UInt8.toNat_lt x
  have hq34 : q.toNat = 39 ∨ q.toNat = 34 := by rcases hq with rfl | rfl <;> simp
  intro c hc
  unfold reprByte at hc
  simp only at hc
  have bs : 32 ≤ ('\\').toNat ∧ ('\\').toNat < 127 := by decide
  have two : ∀ d : Char, 32 ≤ d.toNat ∧ d.toNat < 127 → c ∈ ['\\', d] → 32 ≤ c.toNat ∧ c.toNat < 127 := by
    intro d hd h
    simp only [List.mem_cons, List.not_mem_nil, or_false] at h
    rcases h with rfl | rfl
    · exact bs
    · exact hd
  split at hc
  · rename_i h
    refine two _ ?_ hc
    rw [char_ofNat_toNat (by omega)]
    omega
  split at hc
  · exact two _ (by decide) hc
  split at hc
  · exact two _ (by decide) hc
  split at hc
  · exact two _ (by decide) hc
  split at hc
  · simp only [List.mem_cons, List.not_mem_nil, or_false] at hc
    rcases hc with rfl | rfl | rfl | rfl
    · exact bs
    · decide
    · have := hexChar_toNat (x.toNat / 16) (by omega); omega
    · have := hexChar_toNat (x.toNat % 16) (by omega); omega
  · rename_i h
    simp only [List.mem_cons, List.not_mem_nil, or_false] at hc
    subst hc
    rw [char_ofNat_toNat (by omega)]
    omega

/-! ### UTF-8 -/

theorem char_valid (c : Char) : c.toNat < 0xD800 ∨ (0xDFFF < c.toNat ∧ c.toNat < 0x110000) := c.valid

theorem u8 {n : Nat} (h : n < 256) : (UInt8.ofNat n).toNat = n := by
  rw [UInt8.toNat_ofNat']; omega

theorem utf8Cont_iff (b : UInt8) : utf8Cont b = true ↔ 0x80 ≤ b.toNat ∧ b.toNat ≤ 0xBF := by
  unfold utf8Cont
  simp only [Bool.and_eq_true, decide_eq_true_eq, UInt8.le_iff_toNat_le]
  rfl

theorem utf8Dec_cons (c : Char) (r : Bytes) :
    utf8Dec (utf8Enc1 c ++ r) = (utf8Dec r).map (c :: ·) := by
  have hv := char_valid c
  have hc : Char.ofNat c.toNat = c := Char.ofNat_toNat c
  unfold utf8Enc1
  simp only
  by_cases h1 : c.toNat < 0x80
  · rw [if_pos h1]
    simp only [List.cons_append, List.nil_append]
    conv => lhs; unfold utf8Dec
    rw [if_pos (by rw [UInt8.lt_iff_toNat_lt, u8 (by omega)]; exact h1), u8 (by omega), hc]
  rw [if_neg h1]
  by_cases h2 : c.toNat < 0x800
  · rw [if_pos h2]
    simp only [List.cons_append, List.nil_append]
    conv => lhs; unfold utf8Dec
    have a := u8 (n := 0xC0 + c.toNat / 64) (by omega)
    have b := u8 (n := 0x80 + c.toNat % 64) (by omega)
    rw [if_neg (by rw [UInt8.lt_iff_toNat_lt, a]; show ¬ _ < 128; omega)]
    simp only
    rw [if_pos]
    · rw [a, b]
      have : (0xC0 + c.toNat / 64 - 0xC0) * 64 + (0x80 + c.toNat % 64 - 0x80) = c.toNat := by omega
      rw [this, hc]
    · simp only [Bool.and_eq_true, decide_eq_true_eq, utf8Cont_iff, UInt8.le_iff_toNat_le, a, b]
      refine ⟨⟨?_, ?_⟩, ?_, ?_⟩
      · show 0xC2 ≤ _; omega
      · show _ ≤ 0xDF; omega
      · omega
      · omega
  rw [if_neg h2]
  by_cases h3 : c.toNat < 0x10000
  · rw [if_pos h3]
    simp only [List.cons_append, List.nil_append]
    conv => lhs; unfold utf8Dec
    have a := u8 (n := 0xE0 + c.toNat / 4096) (by omega)
    have b := u8 (n := 0x80 + c.toNat / 64 % 64) (by omega)
    have d := u8 (n := 0x80 + c.toNat % 64) (by omega)
    have hn : (0xE0 + c.toNat / 4096 - 0xE0) * 4096 + (0x80 + c.toNat / 64 % 64 - 0x80) * 64 +
        (0x80 + c.toNat % 64 - 0x80) = c.toNat := by omega
    rw [if_neg (by rw [UInt8.lt_iff_toNat_lt, a]; show ¬ _ < 128; omega)]
    simp only
    rw [if_neg]
    · simp only [a, b, d, hn]
      rw [if_pos, hc]
      simp only [Bool.and_eq_true, decide_eq_true_eq, utf8Cont_iff, UInt8.le_iff_toNat_le, a, b, d,
        Bool.not_eq_true', decide_eq_false_iff_not, Bool.and_eq_false_iff]
      refine ⟨⟨⟨⟨⟨?_, ?_⟩, ?_, ?_⟩, ?_, ?_⟩, ?_⟩, ?_⟩
      · show 0xE0 ≤ _; omega
      · show _ ≤ 0xEF; omega
      all_goals omega
    · simp only [Bool.and_eq_true, decide_eq_true_eq, UInt8.le_iff_toNat_le, a]
      rintro ⟨⟨_, h⟩, _⟩
      have : 0xE0 + c.toNat / 4096 ≤ 0xDF := h
      omega
  · rw [if_neg h3]
    simp only [List.cons_append, List.nil_append]
    conv => lhs; unfold utf8Dec
    have a := u8 (n := 0xF0 + c.toNat / 262144) (by omega)
    have b := u8 (n := 0x80 + c.toNat / 4096 % 64) (by omega)
    have d := u8 (n := 0x80 + c.toNat / 64 % 64) (by omega)
    have e := u8 (n := 0x80 + c.toNat % 64) (by omega)
    have hn : (0xF0 + c.toNat / 262144 - 0xF0) * 262144 + (0x80 + c.toNat / 4096 % 64 - 0x80) * 4096 +
        (0x80 + c.toNat / 64 % 64 - 0x80) * 64 + (0x80 + c.toNat % 64 - 0x80) = c.toNat := by omega
    rw [if_neg (by rw [UInt8.lt_iff_toNat_lt, a]; show ¬ _ < 128; omega)]
    simp only
    rw [if_neg]
    · rw [if_neg]
      · simp only [a, b, d, e, hn]
        rw [if_pos, hc]
        simp only [Bool.and_eq_true, decide_eq_true_eq, utf8Cont_iff, UInt8.le_iff_toNat_le, a, b, d, e]
        refine ⟨⟨⟨⟨⟨⟨?_, ?_⟩, ?_, ?_⟩, ?_, ?_⟩, ?_, ?_⟩, ?_⟩, ?_⟩
        · show 0xF0 ≤ _; omega
        · show _ ≤ 0xF4; omega
        all_goals omega
      · simp only [Bool.and_eq_true, decide_eq_true_eq, UInt8.le_iff_toNat_le, a]
        rintro ⟨⟨⟨⟨⟨_, h⟩, _⟩, _⟩, _⟩, _⟩
        have : 0xF0 + c.toNat / 262144 ≤ 0xEF := h
        omega
    · simp only [Bool.and_eq_true, decide_eq_true_eq, UInt8.le_iff_toNat_le, a]
      rintro ⟨⟨_, h⟩, _⟩
      have : 0xF0 + c.toNat / 262144 ≤ 0xDF := h
      omega

theorem utf8Dec_utf8Enc (s : Str) : utf8Dec (utf8Enc s) = .ok s := by
  induction s with
  | nil => rfl
  | cons c s ih =>
    have : utf8Enc (c :: s) = utf8Enc1 c ++ utf8Enc s := rfl
    rw [this, utf8Dec_cons, ih]
    rfl

theorem char_ofNat_valid {n : Nat} (h : n < 0xD800 ∨ (0xDFFF < n ∧ n < 0x110000)) :
    (Char.ofNat n).toNat = n := by
  have hv : n.isValidChar := h
  unfold Char.ofNat
  rw [dif_pos hv]
  rfl

theorem u8_eq {a : UInt8} {n : Nat} (h : n = a.toNat) : UInt8.ofNat n = a := by
  rw [h, UInt8.ofNat_toNat]

theorem map_ok {α β : Type} {e : Except Err α} {f : α → β} {y : β} (h : e.map f = .ok y) :
    ∃ x, e = .ok x ∧ f x = y := by
  cases e with
  | error e => cases h
  | ok x => exact ⟨x, rfl, by injection h⟩

theorem utf8Enc_utf8Dec (n : Nat) : ∀ (b : Bytes) (s : Str), b.length ≤ n → utf8Dec b = .ok s →
    utf8Enc s = b := by
  induction n with
  | zero =>
    intro b s hl h
    cases b with
    | nil => unfold utf8Dec at h; injection h with h; subst h; rfl
    | cons a r => simp at hl
  | succ n ih =>
    intro b s hl h
    cases b with
    | nil => unfold utf8Dec at h; injection h with h; subst h; rfl
    | cons a r =>
      have enc : ∀ (c : Char) (t : Str), utf8Enc (c :: t) = utf8Enc1 c ++ utf8Enc t := fun _ _ => rfl
      have ha : a.toNat < 256 := UInt8.toNat_lt a
      unfold utf8Dec at h
      by_cases h1 : a < 0x80
      · rw [if_pos h1] at h
        obtain ⟨t, ht, rfl⟩ := map_ok h
        rw [UInt8.lt_iff_toNat_lt] at h1
        have h1' : a.toNat < 128 := h1
        rw [enc, ih r t (by simpa using hl) ht]
        unfold utf8Enc1
        simp only
        rw [char_ofNat_valid (by omega), if_pos h1', UInt8.ofNat_toNat]
        rfl
      rw [if_neg h1] at h
      cases r with
      | nil => cases h
      | cons b r =>
        simp only at h
        by_cases h2 : (decide (0xC2 ≤ a) && decide (a ≤ 0xDF) && utf8Cont b) = true
        · rw [if_pos h2] at h
          obtain ⟨t, ht, rfl⟩ := map_ok h
          simp only [Bool.and_eq_true, decide_eq_true_eq, utf8Cont_iff, UInt8.le_iff_toNat_le] at h2
          obtain ⟨⟨p, q⟩, u, v⟩ := h2
          have p' : 0xC2 ≤ a.toNat := p
          have q' : a.toNat ≤ 0xDF := q
          rw [enc, ih r t (by simp at hl; omega) ht]
          unfold utf8Enc1
          simp only
          rw [char_ofNat_valid (by omega), if_neg (by omega), if_pos (by omega),
            u8_eq (a := a) (by omega), u8_eq (a := b) (by omega)]
          rfl
        rw [if_neg h2] at h
        cases r with
        | nil => cases h
        | cons c r =>
          simp only at h
          split at h
          · rename_i h3
            obtain ⟨t, ht, rfl⟩ := map_ok h
            simp only [Bool.and_eq_true, decide_eq_true_eq, utf8Cont_iff, UInt8.le_iff_toNat_le,
              Bool.not_eq_true', decide_eq_false_iff_not, Bool.and_eq_false_iff] at h3
            obtain ⟨⟨⟨⟨⟨p, q⟩, u, v⟩, u2, v2⟩, w⟩, z⟩ := h3
            have p' : 0xE0 ≤ a.toNat := p
            have q' : a.toNat ≤ 0xEF := q
            rw [enc, ih r t (by simp at hl; omega) ht]
            unfold utf8Enc1
            simp only
            rw [char_ofNat_valid (by omega), if_neg (by omega), if_neg (by omega), if_pos (by omega),
              u8_eq (a := a) (by omega), u8_eq (a := b) (by omega), u8_eq (a := c) (by omega)]
            rfl
          · cases r with
            | nil => cases h
            | cons d r =>
              simp only at h
              split at h
              · rename_i h3
                obtain ⟨t, ht, rfl⟩ := map_ok h
                simp only [Bool.and_eq_true, decide_eq_true_eq, utf8Cont_iff,
                  UInt8.le_iff_toNat_le] at h3
                obtain ⟨⟨⟨⟨⟨⟨p, q⟩, u, v⟩, u2, v2⟩, u3, v3⟩, w⟩, z⟩ := h3
                have p' : 0xF0 ≤ a.toNat := p
                have q' : a.toNat ≤ 0xF4 := q
                rw [enc, ih r t (by simp at hl; omega) ht]
                unfold utf8Enc1
                simp only
                rw [char_ofNat_valid (by omega), if_neg (by omega), if_neg (by omega),
                  if_neg (by omega), u8_eq (a := a) (by omega), u8_eq (a := b) (by omega),
                  u8_eq (a := c) (by omega), u8_eq (a := d) (by omega)]
                rfl
              · cases h

end Verif
