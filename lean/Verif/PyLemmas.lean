import Verif.Py

/- Facts about the Python runtime helpers. -/

namespace Verif

/-! ### Stripping and padding -/

theorem rstripBy_append_of_all {α} (p : α → Bool) (l r : List α) (h : r.all p) :
    rstripBy p (l ++ r) = rstripBy p l := by
  unfold rstripBy
  have h' : ∀ x ∈ r.reverse, p x = true := by
    intro x hx
    exact List.all_eq_true.mp h x (List.mem_reverse.mp hx)
  rw [List.reverse_append, List.dropWhile_append_of_pos h']

theorem rstripBy_eq_self {α} (p : α → Bool) (l : List α)
    (h : ∀ x, l.getLast? = some x → p x = false) : rstripBy p l = l := by
  unfold rstripBy
  rcases List.eq_nil_or_concat l with rfl | ⟨l', x, rfl⟩
  · rfl
  · have := h x (by simp)
    simp [this]

theorem rstripBy_getLast? {α} (p : α → Bool) (l : List α) (x : α)
    (h : (rstripBy p l).getLast? = some x) : p x = false := by
  unfold rstripBy at h
  rw [List.getLast?_reverse] at h
  cases hd : l.reverse.dropWhile p with
  | nil => simp [hd] at h
  | cons a t =>
    rw [hd] at h
    simp at h
    subst h
    have := List.head?_dropWhile_not p l.reverse
    rw [hd] at this
    simpa using this

theorem rstripBy_idem {α} (p : α → Bool) (l : List α) :
    rstripBy p (rstripBy p l) = rstripBy p l :=
  rstripBy_eq_self _ _ fun x hx => rstripBy_getLast? p l x hx

theorem rstripBy_nil_iff {α} (p : α → Bool) (l : List α) : rstripBy p l = [] ↔ l.all p = true := by
  unfold rstripBy
  rw [List.reverse_eq_nil_iff, ← List.all_reverse]
  generalize l.reverse = m
  induction m with
  | nil => simp
  | cons a t ih => rw [List.dropWhile_cons]; cases h : p a <;> simp [h, ih]

theorem rstripBy_prefix {α} (p : α → Bool) (l : List α) :
    ∃ r, l = rstripBy p l ++ r ∧ r.all p = true := by
  refine ⟨(l.reverse.takeWhile p).reverse, ?_, ?_⟩
  · unfold rstripBy
    rw [← List.reverse_append, List.takeWhile_append_dropWhile, List.reverse_reverse]
  · rw [List.all_reverse]; exact List.all_takeWhile

theorem length_padRight {α} (c : α) (w : Nat) (s : List α) :
    (padRight c w s).length = max w s.length := by
  simp [padRight]; omega

theorem length_padLeft (c : Char) (w : Nat) (s : Str) :
    (padLeft c w s).length = max w s.length := by
  simp [padLeft]; omega

/-! ### Latin-1 -/

theorem latin1Enc_ok_iff (s : Str) (b : Bytes) :
    latin1Enc s = .ok b ↔ (∀ c ∈ s, c.toNat < 256) ∧ b = s.map fun c => UInt8.ofNat c.toNat := by
  unfold latin1Enc
  split
  · rename_i h
    simp at h
    constructor
    · intro e; injection e with e; exact ⟨h, e.symm⟩
    · rintro ⟨_, rfl⟩; rfl
  · rename_i h
    simp at h
    constructor
    · intro e; cases e
    · rintro ⟨h1, _⟩
      obtain ⟨c, hc, hc'⟩ := h
      have := h1 c hc; omega

theorem latin1Enc_length {s : Str} {b : Bytes} (h : latin1Enc s = .ok b) : b.length = s.length := by
  rw [latin1Enc_ok_iff] at h; simp [h.2]

theorem toNat_ofNat_lt {n : Nat} (h : n < 256) : (Char.ofNat n).toNat = n := by
  have : n.isValidChar := by left; omega
  simp [Char.ofNat, this, Char.ofNatAux, Char.toNat]

theorem latin1Dec_enc {s : Str} {b : Bytes} (h : latin1Enc s = .ok b) : latin1Dec b = s := by
  rw [latin1Enc_ok_iff] at h
  obtain ⟨h, rfl⟩ := h
  unfold latin1Dec
  rw [List.map_map]
  conv => rhs; rw [← List.map_id s]
  apply List.map_congr_left
  intro c hc
  have hc := h c hc
  simp only [Function.comp, id, UInt8.toNat_ofNat']
  rw [Nat.mod_eq_of_lt hc]
  exact Char.ofNat_toNat c

theorem latin1Enc_dec (b : Bytes) : latin1Enc (latin1Dec b) = .ok b := by
  rw [latin1Enc_ok_iff]
  constructor
  · intro c hc
    simp only [latin1Dec, List.mem_map] at hc
    obtain ⟨x, _, rfl⟩ := hc
    rw [toNat_ofNat_lt x.toNat_lt]; exact x.toNat_lt
  · unfold latin1Dec
    rw [List.map_map]
    conv => lhs; rw [← List.map_id b]
    apply List.map_congr_left
    intro x _
    simp [toNat_ofNat_lt x.toNat_lt]

/-- Encoding one character. -/
theorem latin1Enc_cons_ok {c : Char} {s : Str} {b : Bytes} (h : latin1Enc (c :: s) = .ok b) :
    ∃ b', latin1Enc s = .ok b' ∧ b = UInt8.ofNat c.toNat :: b' := by
  rw [latin1Enc_ok_iff] at h
  refine ⟨s.map fun c => UInt8.ofNat c.toNat, ?_, by simp [h.2]⟩
  rw [latin1Enc_ok_iff]
  exact ⟨fun c hc => h.1 c (by simp [hc]), rfl⟩

/-! ### Integers -/

theorem decAux_ne_nil (f n : Nat) (h : 0 < f) : decAux f n ≠ [] := by
  cases f with
  | zero => omega
  | succ f => unfold decAux; split <;> simp

def IsDigit (c : Char) : Prop := 48 ≤ c.toNat ∧ c.toNat ≤ 57

theorem digitChar_toNat {n : Nat} (h : n < 10) : (digitChar n).toNat = 48 + n :=
  toNat_ofNat_lt (by omega)

theorem digitChar_isDigit {n : Nat} (h : n < 10) : IsDigit (digitChar n) := by
  unfold IsDigit; rw [digitChar_toNat h]; omega

theorem decAux_digits (f n : Nat) : ∀ c ∈ decAux f n, IsDigit c := by
  induction f generalizing n with
  | zero => simp [decAux]
  | succ f ih =>
    unfold decAux
    split
    · rename_i h; intro c hc; simp at hc; subst hc; exact digitChar_isDigit h
    · intro c hc
      rw [List.mem_append] at hc
      rcases hc with hc | hc
      · exact ih _ c hc
      · simp at hc; subst hc; exact digitChar_isDigit (Nat.mod_lt _ (by omega))

theorem parseDigits_digit (acc : Nat) (p : Bool) (c : Nat) (cs : List Nat)
    (h : 48 ≤ c ∧ c ≤ 57) :
    parseDigits acc p (c :: cs) = parseDigits (acc * 10 + (c - 48)) true cs := by
  conv => lhs; unfold parseDigits
  simp [h.1, h.2]

theorem parseDigits_decAux (f n : Nat) (acc : Nat) (p : Bool) (cs : List Nat)
    (hf : 0 < f) (hn : n < 10 ^ f) :
    parseDigits acc p ((decAux f n).map Char.toNat ++ cs) =
      parseDigits (acc * 10 ^ (decAux f n).length + n) true cs := by
  induction f generalizing n acc p cs with
  | zero => omega
  | succ f ih =>
    unfold decAux
    split
    · rename_i h
      simp only [List.map_cons, List.map_nil, List.cons_append, List.nil_append, List.length_cons,
        List.length_nil]
      rw [parseDigits_digit _ _ _ _ (digitChar_isDigit h), digitChar_toNat h]
      congr 1; omega
    · rename_i h
      have hf' : 0 < f := by
        rcases Nat.eq_zero_or_pos f with rfl | h'
        · simp at hn; omega
        · exact h'
      have hn' : n / 10 < 10 ^ f := by
        rw [Nat.pow_succ] at hn
        exact Nat.div_lt_of_lt_mul (by omega)
      have hm : n % 10 < 10 := Nat.mod_lt _ (by omega)
      rw [List.map_append, List.append_assoc, ih (n / 10) acc p _ hf' hn']
      simp only [List.map_cons, List.map_nil, List.cons_append, List.nil_append]
      rw [parseDigits_digit _ _ _ _ (digitChar_isDigit hm), digitChar_toNat hm]
      congr 1
      rw [List.length_append]
      simp only [List.length_cons, List.length_nil]
      rw [Nat.pow_succ, ← Nat.mul_assoc]
      omega

theorem lt_pow_log2_succ (n : Nat) : n < 10 ^ (Nat.log2 n + 1) := by
  have h1 : n < 2 ^ (Nat.log2 n + 1) := Nat.lt_log2_self
  have h2 : 2 ^ (Nat.log2 n + 1) ≤ 10 ^ (Nat.log2 n + 1) := Nat.pow_le_pow_left (by omega) _
  omega

theorem parseDigits_decStr (n acc : Nat) (p : Bool) (cs : List Nat) :
    parseDigits acc p ((decStr n).map Char.toNat ++ cs) =
      parseDigits (acc * 10 ^ (decStr n).length + n) true cs :=
  parseDigits_decAux _ _ _ _ _ (by omega) (lt_pow_log2_succ n)

theorem decStr_ne_nil (n : Nat) : decStr n ≠ [] := decAux_ne_nil _ _ (by omega)

theorem decStr_digits (n : Nat) : ∀ c ∈ decStr n, IsDigit c := decAux_digits _ _

theorem parseDigits_zeros (k : Nat) (p : Bool) (cs : List Nat) (hcs : cs ≠ [] ∨ p = true ∨ 0 < k) :
    parseDigits 0 p (List.replicate k 48 ++ cs) = parseDigits 0 (p || decide (0 < k)) cs := by
  induction k generalizing p with
  | zero => simp
  | succ k ih =>
    rw [List.replicate_succ, List.cons_append, parseDigits_digit _ _ _ _ (by omega)]
    have := ih true (by simp)
    simp only [Nat.zero_mul, Nat.sub_self, Nat.add_zero]
    rw [this]; simp

theorem parseDigits_padLeft (w n : Nat) (p : Bool) :
    parseDigits 0 p ((padLeft '0' w (decStr n)).map Char.toNat) = some n := by
  unfold padLeft
  rw [List.map_append, List.map_replicate]
  have h0 : ('0' : Char).toNat = 48 := rfl
  rw [h0, parseDigits_zeros _ _ _ (Or.inl (by simp [decStr_ne_nil]))]
  have := parseDigits_decStr n 0 (p || decide (0 < w - (decStr n).length)) []
  rw [List.append_nil] at this
  rw [this]
  simp [parseDigits]

theorem padLeft_zero_digits (w n : Nat) : ∀ c ∈ padLeft '0' w (decStr n), IsDigit c := by
  intro c hc
  unfold padLeft at hc
  rw [List.mem_append] at hc
  rcases hc with hc | hc
  · rw [List.mem_replicate] at hc; obtain ⟨_, rfl⟩ := hc; exact ⟨by decide, by decide⟩
  · exact decStr_digits n c hc

theorem padLeft_ne_nil (w n : Nat) : padLeft '0' w (decStr n) ≠ [] := by
  unfold padLeft; simp [decStr_ne_nil]

theorem parseSigned_digits (cs : List Nat) (h : ∀ c ∈ cs, 48 ≤ c ∧ c ≤ 57) :
    parseSigned cs = (parseDigits 0 false cs).map Int.ofNat := by
  cases cs with
  | nil => rfl
  | cons a t =>
    have := h a (by simp)
    unfold parseSigned
    split
    · rename_i hh; injection hh with h1 _; omega
    · rename_i hh; injection hh with h1 _; omega
    · rfl

theorem parseSigned_fmtInt (w : Nat) (z : Int) :
    parseSigned ((fmtInt w z).map Char.toNat) = some z := by
  cases z with
  | ofNat n =>
    rw [parseSigned_digits]
    · simp only [fmtInt]; rw [parseDigits_padLeft]; rfl
    · intro c hc
      simp only [fmtInt, List.mem_map] at hc
      obtain ⟨x, hx, rfl⟩ := hc
      exact padLeft_zero_digits _ _ x hx
  | negSucc n =>
    simp only [fmtInt, List.map_cons]
    have : ('-' : Char).toNat = 45 := rfl
    rw [this]
    simp only [parseSigned]
    rw [parseDigits_padLeft]
    rfl

theorem parseSigned_fmtIntPlus (w : Nat) (z : Int) :
    parseSigned ((fmtIntPlus w z).map Char.toNat) = some z := by
  cases z with
  | ofNat n =>
    simp only [fmtIntPlus, List.map_cons]
    have : ('+' : Char).toNat = 43 := rfl
    rw [this]
    simp only [parseSigned]
    rw [parseDigits_padLeft]
    rfl
  | negSucc n =>
    simp only [fmtIntPlus, List.map_cons]
    have : ('-' : Char).toNat = 45 := rfl
    rw [this]
    simp only [parseSigned]
    rw [parseDigits_padLeft]
    rfl

/-- Characters that can occur in a formatted integer. -/
def IsNumChar (c : Char) : Prop := IsDigit c ∨ c = '-' ∨ c = '+'

/-- A formatted integer ends in a digit and has only digits and signs. -/
structure NumText (t : Str) : Prop where
  chars : ∀ c ∈ t, IsNumChar c
  digit : ∃ c ∈ t, IsDigit c

theorem numText_digits {s : Str} (h : ∀ c ∈ s, IsDigit c) (hne : s ≠ []) : NumText s := by
  refine ⟨fun c hc => Or.inl (h c hc), ?_⟩
  cases s with
  | nil => exact absurd rfl hne
  | cons a t => exact ⟨a, by simp, h a (by simp)⟩

theorem numText_cons {a : Char} {s : Str} (ha : a = '-' ∨ a = '+') (h : NumText s) :
    NumText (a :: s) := by
  refine ⟨?_, ?_⟩
  · intro c hc
    simp only [List.mem_cons] at hc
    rcases hc with rfl | hc
    · exact Or.inr ha
    · exact h.chars c hc
  · obtain ⟨c, hc, hd⟩ := h.digit; exact ⟨c, by simp [hc], hd⟩

theorem numText_fmtInt (w : Nat) (z : Int) : NumText (fmtInt w z) := by
  cases z with
  | ofNat n => exact numText_digits (padLeft_zero_digits _ _) (padLeft_ne_nil _ _)
  | negSucc n =>
    exact numText_cons (Or.inl rfl) (numText_digits (padLeft_zero_digits _ _) (padLeft_ne_nil _ _))

theorem numText_fmtIntPlus (w : Nat) (z : Int) : NumText (fmtIntPlus w z) := by
  cases z with
  | ofNat n =>
    exact numText_cons (Or.inr rfl) (numText_digits (padLeft_zero_digits _ _) (padLeft_ne_nil _ _))
  | negSucc n =>
    exact numText_cons (Or.inl rfl) (numText_digits (padLeft_zero_digits _ _) (padLeft_ne_nil _ _))

theorem isNumChar_lt {c : Char} (h : IsNumChar c) : c.toNat < 256 := by
  rcases h with h | rfl | rfl
  · have := h.2; omega
  · decide
  · decide

theorem isNumChar_not_space {c : Char} (h : IsNumChar c) :
    bSpace (UInt8.ofNat c.toNat) = false := by
  have hlt := isNumChar_lt h
  have hn : 33 ≤ c.toNat := by
    rcases h with h | rfl | rfl
    · have := h.1; omega
    · decide
    · decide
  unfold bSpace
  have e : (UInt8.ofNat c.toNat).toNat = c.toNat := by
    simp [Nat.mod_eq_of_lt hlt]
  have h1 : (UInt8.ofNat c.toNat == 32) = false := by
    rw [beq_eq_false_iff_ne]; intro h
    have := congrArg UInt8.toNat h
    rw [e] at this; simp at this; omega
  have h2 : decide (UInt8.ofNat c.toNat ≤ 13) = false := by
    rw [decide_eq_false_iff_not, UInt8.le_iff_toNat_le, e]
    simp; omega
  simp [h1, h2]

theorem map_toNat_ofNat {t : Str} (h : ∀ c ∈ t, c.toNat < 256) :
    (t.map fun c => UInt8.ofNat c.toNat).map UInt8.toNat = t.map Char.toNat := by
  rw [List.map_map]
  apply List.map_congr_left
  intro c hc
  simp [Nat.mod_eq_of_lt (h c hc)]

/-- Stripping does not change a formatted number. -/
theorem strip_numText {t : Str} (h : NumText t) {b : Bytes} (hb : latin1Enc t = .ok b) :
    lstripBy bSpace (rstripB b) = b ∧ rstripB b = b ∧ b ≠ [] ∧
      b.map UInt8.toNat = t.map Char.toNat := by
  rw [latin1Enc_ok_iff] at hb
  obtain ⟨hlt, rfl⟩ := hb
  have hns : ∀ x ∈ t.map (fun c => UInt8.ofNat c.toNat), bSpace x = false := by
    intro x hx
    simp only [List.mem_map] at hx
    obtain ⟨c, hc, rfl⟩ := hx
    exact isNumChar_not_space (h.chars c hc)
  have hr : rstripB (t.map fun c => UInt8.ofNat c.toNat) = t.map fun c => UInt8.ofNat c.toNat :=
    rstripBy_eq_self _ _ fun x hx => hns x (List.mem_of_getLast? hx)
  have hne : t ≠ [] := by
    obtain ⟨c, hc, _⟩ := h.digit; intro h; subst h; cases hc
  refine ⟨?_, hr, by simpa using hne, map_toNat_ofNat hlt⟩
  rw [hr]
  unfold lstripBy
  cases t with
  | nil => rfl
  | cons a t =>
    have := hns _ (List.mem_map.mpr ⟨a, by simp, rfl⟩)
    simp [this]

theorem pyIntB_fmtInt {w : Nat} {z : Int} {b : Bytes} (hb : latin1Enc (fmtInt w z) = .ok b) :
    pyIntB b = .ok z ∧ rstripB b = b ∧ b ≠ [] := by
  have h := strip_numText (numText_fmtInt w z) hb
  refine ⟨?_, h.2.1, h.2.2.1⟩
  unfold pyIntB
  rw [h.1, h.2.2.2, parseSigned_fmtInt]

theorem pyIntB_fmtIntPlus {w : Nat} {z : Int} {b : Bytes}
    (hb : latin1Enc (fmtIntPlus w z) = .ok b) : pyIntB b = .ok z ∧ rstripB b = b ∧ b ≠ [] := by
  have h := strip_numText (numText_fmtIntPlus w z) hb
  refine ⟨?_, h.2.1, h.2.2.1⟩
  unfold pyIntB
  rw [h.1, h.2.2.2, parseSigned_fmtIntPlus]

theorem rstripB_idem (b : Bytes) : rstripB (rstripB b) = rstripB b := rstripBy_idem _ _

theorem pyIntB_rstrip (b : Bytes) : pyIntB (rstripB b) = pyIntB b := by
  unfold pyIntB; rw [rstripB_idem]

/-- A space byte. -/
theorem replicate_space_all (k : Nat) : (List.replicate k (32 : UInt8)).all bSpace = true := by
  rw [List.all_eq_true]; intro x hx; rw [List.mem_replicate] at hx; rw [hx.2]; decide

theorem rstripB_padRight (w : Nat) (b : Bytes) : rstripB (padRight 32 w b) = rstripB b :=
  rstripBy_append_of_all _ _ _ (replicate_space_all _)

/-! ### Text fields -/

/-- ASCII white space is also Unicode white space. -/
theorem cSpace_of_bSpace (x : UInt8) (h : bSpace x = true) : cSpaceN x.toNat = true := by
  revert h
  unfold bSpace cSpaceN
  simp only [Bool.or_eq_true, beq_iff_eq, Bool.and_eq_true, decide_eq_true_eq,
    UInt8.le_iff_toNat_le]
  intro h
  rcases h with rfl | h
  · simp
  · simp at h; simp [h]

theorem latin1Dec_append (a b : Bytes) : latin1Dec (a ++ b) = latin1Dec a ++ latin1Dec b := by
  simp [latin1Dec]

theorem latin1Dec_replicate_space (k : Nat) :
    latin1Dec (List.replicate k 32) = List.replicate k ' ' := by
  simp [latin1Dec]

/-- Decoding commutes with the two strips used by reading and getting a text field. -/
theorem rstripU_dec_rstripB (b : Bytes) :
    rstripU (latin1Dec (rstripB b)) = rstripU (latin1Dec b) := by
  obtain ⟨r, h1, h2⟩ := rstripBy_prefix bSpace b
  conv => rhs; rw [h1]
  rw [latin1Dec_append]
  symm
  apply rstripBy_append_of_all
  rw [List.all_eq_true]
  intro c hc
  simp only [latin1Dec, List.mem_map] at hc
  obtain ⟨x, hx, rfl⟩ := hc
  have := cSpace_of_bSpace x (List.all_eq_true.mp h2 x hx)
  unfold cSpace
  rwa [toNat_ofNat_lt x.toNat_lt]

theorem rstripU_idem (s : Str) : rstripU (rstripU s) = rstripU s := rstripBy_idem _ _

theorem rstripU_padRight (w : Nat) (s : Str) : rstripU (padRight ' ' w s) = rstripU s := by
  apply rstripBy_append_of_all
  rw [List.all_eq_true]; intro x hx; rw [List.mem_replicate] at hx; rw [hx.2]; decide

end Verif
