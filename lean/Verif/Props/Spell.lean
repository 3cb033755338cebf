import Verif.Props.Sense

/- C87: what is written for a value. -/

namespace Verif.Spell

open Verif Verif.Meaning Verif.Sense

variable (P : PyFloat)

/-! ### Specification -/

/-- The code of each byte. -/
def codes (t : Bytes) : List Nat := t.map UInt8.toNat

/-- The number a row of digits denotes. -/
def decimal : List Nat → Nat
  | [] => 0
  | c :: r => (c - 48) * 10 ^ r.length + decimal r

/-- The sign in front of the digits. -/
def sign (plus : Bool) (z : Int) : List Nat := if z < 0 then [45] else if plus then [43] else []

/-- The integer `z` in decimal digits, with zeros after the sign up to the width `w` and no more. -/
def Decimal (w : Nat) (plus : Bool) (z : Int) (u : List Nat) : Prop :=
  ∃ ds, u = sign plus z ++ ds ∧ ds ≠ [] ∧ (∀ c ∈ ds, 48 ≤ c ∧ c ≤ 57) ∧ decimal ds = z.natAbs ∧
    (u.length = w ∨ w < u.length ∧ (ds.length = 1 ∨ ds.head? ≠ some 48))

/-- What `%d` takes a value for. -/
inductive Whole : Val P.F → Int → Prop
  | int (z : Int) : Whole (.int z) z
  | flt {x : P.F} {z : Int} (h : P.toIntD x = .ok z) : Whole (.flt x) z

/-- The text and then blanks; none after an integer field. -/
def Padded (fd : FieldDef) (u : List Nat) (t : Bytes) : Prop :=
  ∃ k, codes t = u ++ List.replicate k 32 ∧ (fd.ty = .int → k = 0)

/-- What the bytes `t` must be to be written for the value `v`. -/
inductive Spells (fd : FieldDef) (t : Bytes) : Val P.F → Prop
  | fill (ho : fd.optional = true) (ht : fd.ty ≠ .bytes) (h : ∀ c ∈ codes t, c = fd.optChar.toNat) :
      Spells fd t .none
  | zd {w : Nat} {v : Val P.F} {z : Int} {u : List Nat} (ht : fd.ty ≠ .bytes) (hf : fd.frmt = some (.zd w))
      (hz : Whole P v z) (hd : Decimal w false z u) (h : Padded fd u t) : Spells fd t v
  | pd {w : Nat} {v : Val P.F} {z : Int} {u : List Nat} (ht : fd.ty ≠ .bytes) (hf : fd.frmt = some (.pd w))
      (hz : Whole P v z) (hd : Decimal w true z u) (h : Padded fd u t) : Spells fd t v
  | other {i : Nat} {v : Val P.F} {s : Str} (ht : fd.ty ≠ .bytes) (hf : fd.frmt = some (.other i))
      (hv : ¬ (fd.optional = true ∧ v = .none)) (hs : P.fmt i v = .ok s)
      (h : Padded fd (s.map Char.toNat) t) : Spells fd t v
  | int {v : Val P.F} {z : Int} (ht : fd.ty = .int) (hf : fd.frmt = none)
      (hz : Whole P v z) (hd : Decimal t.length false z (codes t)) : Spells fd t v
  | flt {x : P.F} {s : Str} (ht : fd.ty = .flt) (hf : fd.frmt = none)
      (hs : P.fixedWidth x t.length = .ok s) (h : Padded fd (s.map Char.toNat) t) : Spells fd t (.flt x)
  | str {s : Str} (ht : fd.ty = .str) (hf : fd.frmt = none) (h : Padded fd (s.map Char.toNat) t) :
      Spells fd t (.str s)
  | bytes (ht : fd.ty = .bytes) : Spells fd t (.bytes t)

/-- What is written for an element: a literal and blanks, the spelling of the value it shows, or for
a `FieldData` class the data it has. -/
inductive Written (d : Desc) (S : Store P.F) (n : Nat) (fi : FInfo) (key : Key) (t : Bytes) : Prop
  | literal {l : Bytes} {k : Nat} (hs : stored S fi.fd n key = .lit l) (h : t = l ++ List.replicate k 32)
  | plain {v x : Val P.F} (hs : stored S fi.fd n key = .val x) (hk : fi.fd.kind = .plain)
      (hv : getItem P d.tab S n key = .ok v) (h : Spells P fi.fd t v)
  | data {x : Val P.F} (hs : stored S fi.fd n key = .val x) (hk : fi.fd.kind ≠ .plain)
      (hv : lowGet P (look P d.tab S) S fi n key = .ok (.bytes t))

/-- What the data of a `FieldData` class is shown as. -/
inductive Data (k : Kind) (t : Bytes) : Val P.F → Prop
  | bytes (hk : k = .bytesData ∨ k = .engrda ∨ k = .coord) : Data k t (.bytes t)
  | text {s : Str} (hk : k = .strData) (h : s.map Char.toNat = codes t) : Data k t (.str s)
  | unsigned (hk : k = .intData false) (hl : t.length ∈ [1, 2, 3, 4, 8]) : Data k t (.int (positional t))
  | signed (hk : k = .intData true) (hl : t.length ∈ [1, 2, 3, 4, 8]) : Data k t (.int (twos t))
  | single (hk : k = .fltData) (hl : t.length = 4) : Data k t (.flt (P.unpack32 t))

/-! ### Digits -/

theorem decimal_lt {l : List Nat} (h : ∀ c ∈ l, 48 ≤ c ∧ c ≤ 57) : decimal l < 10 ^ l.length := by
  induction l with
  | nil => simp [decimal]
  | cons c r ih =>
    have h1 := h c (by simp)
    have h2 := ih fun c hc => h c (by simp [hc])
    have : (c - 48) * 10 ^ r.length ≤ 9 * 10 ^ r.length := Nat.mul_le_mul_right _ (by omega)
    simp only [decimal, List.length_cons, Nat.pow_succ]
    omega

theorem decimal_append (a b : List Nat) : decimal (a ++ b) = decimal a * 10 ^ b.length + decimal b := by
  induction a with
  | nil => simp [decimal]
  | cons c r ih =>
    simp only [List.cons_append, decimal, ih, List.length_append, Nat.pow_add, Nat.add_mul]
    rw [Nat.mul_assoc]
    omega

theorem decimal_zeros (k : Nat) : decimal (List.replicate k 48) = 0 := by
  induction k with
  | zero => rfl
  | succ k ih => simp [List.replicate_succ, decimal, ih]

theorem decimal_ge {c : Nat} {r : List Nat} (h : 49 ≤ c) : 10 ^ r.length ≤ decimal (c :: r) := by
  have : 1 * 10 ^ r.length ≤ (c - 48) * 10 ^ r.length := Nat.mul_le_mul_right _ (by omega)
  simp only [decimal]
  omega

theorem decimal_inj {a b : List Nat} (ha : ∀ c ∈ a, 48 ≤ c ∧ c ≤ 57) (hb : ∀ c ∈ b, 48 ≤ c ∧ c ≤ 57)
    (hl : a.length = b.length) (h : decimal a = decimal b) : a = b := by
  induction a generalizing b with
  | nil => cases b with
    | nil => rfl
    | cons => simp at hl
  | cons x a ih =>
    cases b with
    | nil => simp at hl
    | cons y b =>
      simp only [List.length_cons, Nat.add_right_cancel_iff] at hl
      have ha' : ∀ c ∈ a, 48 ≤ c ∧ c ≤ 57 := fun c hc => ha c (by simp [hc])
      have hb' : ∀ c ∈ b, 48 ≤ c ∧ c ≤ 57 := fun c hc => hb c (by simp [hc])
      have h1 := decimal_lt ha'
      have h2 := decimal_lt hb'
      simp only [decimal, hl] at h h1
      have hp : 0 < 10 ^ b.length := Nat.pow_pos (by omega)
      have hd : x - 48 = y - 48 := by
        have e1 : ((x - 48) * 10 ^ b.length + decimal a) / 10 ^ b.length = x - 48 := by
          rw [Nat.mul_comm, Nat.mul_add_div hp, Nat.div_eq_of_lt h1]; rfl
        have e2 : ((y - 48) * 10 ^ b.length + decimal b) / 10 ^ b.length = y - 48 := by
          rw [Nat.mul_comm, Nat.mul_add_div hp, Nat.div_eq_of_lt h2]; rfl
        rw [← e1, ← e2, h]
      have hx := ha x (by simp)
      have hy := hb y (by simp)
      rw [hd] at h
      rw [ih ha' hb' hl (by omega), show x = y by omega]

/-- A row of digits longer than another, without a leading zero, denotes more. -/
theorem decimal_longer {a b : List Nat} (ha : ∀ c ∈ a, 48 ≤ c ∧ c ≤ 57) (hb : ∀ c ∈ b, 48 ≤ c ∧ c ≤ 57)
    (hne : b ≠ []) (hm : a.length = 1 ∨ a.head? ≠ some 48) (hl : b.length < a.length) : decimal b < decimal a := by
  cases a with
  | nil => simp at hl
  | cons c r =>
    have hb0 : 0 < b.length := List.length_pos_iff.mpr hne
    have hc := ha c (by simp)
    rcases hm with h | h
    · simp only [List.length_cons] at h hl; omega
    · have : c ≠ 48 := by
        intro e; subst e; simp at h
      have h1 := decimal_lt hb
      have h2 := decimal_ge (c := c) (r := r) (by omega)
      have h3 : 10 ^ b.length ≤ 10 ^ r.length :=
        Nat.pow_le_pow_right (by omega) (by simp only [List.length_cons] at hl; omega)
      omega

theorem decimal_one {w : Nat} {plus : Bool} {z : Int} {u u' : List Nat} (h : Decimal w plus z u)
    (h' : Decimal w plus z u') : u = u' := by
  obtain ⟨ds, rfl, h1, h2, h3, h4⟩ := h
  obtain ⟨ds', rfl, g1, g2, g3, g4⟩ := h'
  simp only [List.length_append] at h4 g4
  have hlen : ds.length = ds'.length := by
    rcases Nat.lt_trichotomy ds.length ds'.length with hlt | he | hlt
    · rcases g4 with g4 | ⟨g4, gm⟩
      · rcases h4 with h4 | ⟨h4, _⟩ <;> omega
      · have := decimal_longer g2 h2 h1 gm hlt
        omega
    · exact he
    · rcases h4 with h4 | ⟨h4, hm⟩
      · rcases g4 with g4 | ⟨g4, _⟩ <;> omega
      · have := decimal_longer h2 g2 g1 hm hlt
        omega
  rw [decimal_inj h2 g2 hlen (by omega)]

theorem decAux_decimal (f n : Nat) (hf : 0 < f) (hn : n < 10 ^ f) :
    decimal ((decAux f n).map Char.toNat) = n ∧
      ((decAux f n).length = 1 ∨ ((decAux f n).map Char.toNat).head? ≠ some 48) ∧
      (0 < n → ((decAux f n).map Char.toNat).head? ≠ some 48) := by
  induction f generalizing n with
  | zero => omega
  | succ f ih =>
    unfold decAux
    split
    · rename_i h
      have := digitChar_toNat h
      simp [decimal, this]
      omega
    · rename_i h
      have hf' : 0 < f := by
        rcases Nat.eq_zero_or_pos f with rfl | h'
        · simp at hn; omega
        · exact h'
      have hn' : n / 10 < 10 ^ f := by
        rw [Nat.pow_succ] at hn
        exact Nat.div_lt_of_lt_mul (by omega)
      obtain ⟨i1, _, i3⟩ := ih (n / 10) hf' hn'
      have hm : n % 10 < 10 := Nat.mod_lt _ (by omega)
      have hne := decAux_ne_nil f (n / 10) hf'
      have hh : ((decAux f (n / 10) ++ [digitChar (n % 10)]).map Char.toNat).head? ≠ some 48 := by
        rw [List.map_append]
        cases hc : decAux f (n / 10) with
        | nil => exact absurd hc hne
        | cons x r =>
          have := i3 (by omega)
          rw [hc] at this
          simpa using this
      refine ⟨?_, .inr hh, fun _ => hh⟩
      rw [List.map_append, decimal_append, i1]
      simp [decimal, digitChar_toNat hm]
      omega

theorem decStr_decimal (n : Nat) :
    decimal ((decStr n).map Char.toNat) = n ∧
      ((decStr n).length = 1 ∨ ((decStr n).map Char.toNat).head? ≠ some 48) :=
  have h := decAux_decimal (Nat.log2 n + 1) n (by omega) (lt_pow_log2_succ n)
  ⟨h.1, h.2.1⟩

theorem padLeft_decimal (sg : List Nat) (w n : Nat) :
    let ds := (padLeft '0' (w - sg.length) (decStr n)).map Char.toNat
    ds ≠ [] ∧ (∀ c ∈ ds, 48 ≤ c ∧ c ≤ 57) ∧ decimal ds = n ∧
      ((sg ++ ds).length = w ∨ w < (sg ++ ds).length ∧ (ds.length = 1 ∨ ds.head? ≠ some 48)) := by
  obtain ⟨h1, h2⟩ := decStr_decimal n
  have hp : 0 < (decStr n).length := List.length_pos_iff.mpr (decStr_ne_nil n)
  refine ⟨?_, ?_, ?_, ?_⟩
  · intro h
    exact padLeft_ne_nil _ _ (List.map_eq_nil_iff.mp h)
  · intro c hc
    obtain ⟨ch, hch, rfl⟩ := List.mem_map.mp hc
    exact padLeft_zero_digits _ _ ch hch
  · unfold padLeft
    rw [List.map_append, decimal_append, List.map_replicate]
    show decimal (List.replicate _ 48) * _ + _ = _
    rw [decimal_zeros, h1]
    omega
  · by_cases hw : (decStr n).length + sg.length ≤ w
    · left
      simp only [List.length_append, List.length_map, length_padLeft]
      omega
    · right
      have : padLeft '0' (w - sg.length) (decStr n) = decStr n := by
        unfold padLeft
        rw [show w - sg.length - (decStr n).length = 0 by omega]
        rfl
      rw [this]
      exact ⟨by simp only [List.length_append, List.length_map]; omega, by simpa using h2⟩

theorem fmtInt_decimal (w : Nat) (z : Int) : Decimal w false z ((fmtInt w z).map Char.toNat) := by
  cases z with
  | ofNat n =>
    have := padLeft_decimal [] w n
    exact ⟨_, rfl, this⟩
  | negSucc n =>
    have hs : ∀ plus, sign plus (Int.negSucc n) = [45] := fun plus => if_pos (Int.negSucc_lt_zero n)
    have := padLeft_decimal [45] w (n + 1)
    unfold Decimal
    rw [hs]
    exact ⟨_, rfl, this⟩

theorem fmtIntPlus_decimal (w : Nat) (z : Int) : Decimal w true z ((fmtIntPlus w z).map Char.toNat) := by
  cases z with
  | ofNat n =>
    have := padLeft_decimal [43] w n
    exact ⟨_, rfl, this⟩
  | negSucc n =>
    have hs : ∀ plus, sign plus (Int.negSucc n) = [45] := fun plus => if_pos (Int.negSucc_lt_zero n)
    have := padLeft_decimal [45] w (n + 1)
    unfold Decimal
    rw [hs]
    exact ⟨_, rfl, this⟩

/-! ### Values -/

theorem enc_iff (s : Str) (t : Bytes) : latin1Enc s = .ok t ↔ codes t = s.map Char.toNat := by
  constructor
  · intro h
    rw [← latin1Dec_enc h, map_toNat_dec]
    rfl
  · intro h
    unfold codes at h
    rw [← map_toNat_dec] at h
    rw [← charMap_inj h]
    exact latin1Enc_dec t

theorem codes_length (t : Bytes) : (codes t).length = t.length := by simp [codes]

theorem whole_iff (v : Val P.F) (z : Int) : asIntD P v = .ok z ↔ Whole P v z := by
  constructor
  · intro h
    cases v with
    | int y => injection h with h; subst h; exact .int _
    | flt x => exact .flt h
    | _ => cases h
  · intro h
    cases h with
    | int => rfl
    | flt h => exact h

/-- Text padded to the size of the field, encoded. -/
theorem padded_iff (fd : FieldDef) (s : Str) (t : Bytes) :
    ((((if fd.ty = .int then s else padRight ' ' (t.length : Int).toNat s).length : Nat) : Int) = t.length ∧
      latin1Enc (if fd.ty = .int then s else padRight ' ' (t.length : Int).toNat s) = .ok t) ↔
      Padded fd (s.map Char.toNat) t := by
  rw [enc_iff]
  have hsp : ∀ k, (List.replicate k ' ').map Char.toNat = List.replicate k 32 := fun k => by
    rw [List.map_replicate]; rfl
  by_cases hty : fd.ty = .int
  · simp only [hty, if_true, Padded]
    constructor
    · rintro ⟨_, h⟩
      exact ⟨0, by simpa using h, fun _ => rfl⟩
    · rintro ⟨k, h, h0⟩
      rw [h0 trivial] at h
      have h : codes t = s.map Char.toNat := by simpa using h
      refine ⟨?_, h⟩
      have := congrArg List.length h
      rw [codes_length, List.length_map] at this
      omega
  · simp only [hty, if_false, Padded, padRight, List.map_append, hsp, Int.toNat_natCast]
    constructor
    · rintro ⟨_, h⟩
      exact ⟨_, h, fun h => h.elim⟩
    · rintro ⟨k, h, _⟩
      have := congrArg List.length h
      rw [codes_length, List.length_append, List.length_map, List.length_replicate] at this
      have hk : k = t.length - s.length := by omega
      subst hk
      refine ⟨?_, h⟩
      simp only [List.length_append, List.length_replicate]
      omega

theorem encode_bytes {fd : FieldDef} {v : Val P.F} (t : Bytes) (hn : ¬ (v = .none ∧ fd.optional = true))
    (hb : fd.ty = .bytes) : encodeVal P fd t.length v = .ok t ↔ v = .bytes t := by
  unfold encodeVal
  split
  · rename_i h1
    exact absurd ⟨rfl, h1⟩ hn
  · simp only [hb]
    constructor
    · intro h
      split at h
      · split at h
        · cases h
        · injection h with h
          subst h
          rfl
      · cases h
    · rintro rfl
      simp

theorem encode_text {fd : FieldDef} {v : Val P.F} (t : Bytes) (hn : ¬ (v = .none ∧ fd.optional = true))
    (hb : fd.ty ≠ .bytes) : encodeVal P fd t.length v = .ok t ↔
      ∃ u, formatCore P fd v t.length = .ok u ∧ Padded fd (u.map Char.toNat) t := by
  have key : encodeVal P fd t.length v = .ok t ↔ ∃ u, formatCore P fd v t.length = .ok u ∧
      ((((if fd.ty = .int then u else padRight ' ' (t.length : Int).toNat u).length : Nat) : Int) = t.length ∧
      latin1Enc (if fd.ty = .int then u else padRight ' ' (t.length : Int).toNat u) = .ok t) := by
    unfold encodeVal
    split
    · rename_i h1
      exact absurd ⟨rfl, h1⟩ hn
    · rename_i v _ _ _
      unfold formatVal
      rw [if_neg (by omega)]
      cases hc : formatCore P fd v t.length with
      | error x =>
        cases hty : fd.ty with
        | bytes => exact absurd hty hb
        | _ => simp
      | ok u =>
        simp only [Except.ok.injEq, exists_eq_left']
        generalize (if fd.ty = .int then u else padRight ' ' (t.length : Int).toNat u) = y
        cases hty : fd.ty with
        | bytes => exact absurd hty hb
        | _ =>
          by_cases hl : (y.length : Int) = t.length <;> simp [hl]
  rw [key]
  simp only [padded_iff]

theorem encode_fill {fd : FieldDef} (t : Bytes) (ho : fd.optional = true) :
    encodeVal P fd t.length .none = .ok t ↔ Spells P fd t .none := by
  simp only [encodeVal, ho]
  rw [if_neg (by omega)]
  by_cases hb : fd.ty = .bytes
  · simp only [hb, if_true]
    constructor
    · intro h; cases h
    · intro h
      cases h with
      | fill _ h => exact absurd hb h
      | zd h => exact absurd hb h
      | pd h => exact absurd hb h
      | other h => exact absurd hb h
      | int h => rw [hb] at h; cases h
  · rw [if_neg hb, enc_iff]
    simp only [Int.toNat_natCast, List.map_replicate]
    constructor
    · intro h
      exact .fill ho hb fun c hc => by
        rw [h] at hc
        exact List.eq_of_mem_replicate hc
    · intro h
      cases h with
      | fill _ _ h => exact List.eq_replicate_iff.mpr ⟨codes_length t, h⟩
      | zd _ _ hz => cases hz
      | pd _ _ hz => cases hz
      | other _ _ hv => exact absurd ⟨ho, rfl⟩ hv
      | int _ _ hz => cases hz

theorem map_ok {α β : Type} {x : Except Err α} {f : α → β} {b : β} (h : x.map f = .ok b) :
    ∃ a, x = .ok a ∧ f a = b := by
  cases x with
  | error e => cases h
  | ok a => injection h with h; exact ⟨a, rfl, h⟩

theorem encode_iff {fd : FieldDef} {v : Val P.F} (t : Bytes)
    (hs : fd.ty = .str → (v = .none ∧ fd.optional = true) ∨ ∃ s, v = .str s) :
    encodeVal P fd t.length v = .ok t ↔ Spells P fd t v := by
  by_cases hn : v = .none ∧ fd.optional = true
  · obtain ⟨rfl, ho⟩ := hn
    exact encode_fill P t ho
  by_cases hb : fd.ty = .bytes
  · rw [encode_bytes P t hn hb]
    constructor
    · rintro rfl
      exact .bytes hb
    · intro h
      cases h with
      | fill _ h => exact absurd hb h
      | zd h => exact absurd hb h
      | pd h => exact absurd hb h
      | other h => exact absurd hb h
      | int h => rw [hb] at h; cases h
      | flt h => rw [hb] at h; cases h
      | str h => rw [hb] at h; cases h
      | bytes => rfl
  rw [encode_text P t hn hb]
  constructor
  · rintro ⟨u, hu, hp⟩
    unfold formatCore at hu
    cases hf : fd.frmt with
    | some f =>
      rw [hf] at hu
      cases f with
      | zd w =>
        obtain ⟨z, hz, rfl⟩ := map_ok hu
        exact .zd hb hf ((whole_iff P v z).mp hz) (fmtInt_decimal w z) hp
      | pd w =>
        obtain ⟨z, hz, rfl⟩ := map_ok hu
        exact .pd hb hf ((whole_iff P v z).mp hz) (fmtIntPlus_decimal w z) hp
      | other i => exact .other hb hf (fun h => hn ⟨h.2, h.1⟩) hu hp
    | none =>
      rw [hf] at hu
      cases hty : fd.ty with
      | bytes => exact absurd hty hb
      | int =>
        rw [hty] at hu
        obtain ⟨z, hz, rfl⟩ := map_ok hu
        refine .int hty hf ((whole_iff P v z).mp hz) ?_
        obtain ⟨k, h1, h2⟩ := hp
        rw [h1, h2 hty]
        simpa using fmtInt_decimal t.length z
      | flt =>
        rw [hty] at hu
        cases v with
        | flt x => exact .flt hty hf hu hp
        | _ => cases hu
      | str =>
        rw [hty] at hu
        rcases hs hty with h | ⟨s, rfl⟩
        · exact absurd h hn
        · injection hu with hu
          subst hu
          exact .str hty hf hp
  · intro h
    unfold formatCore
    cases h with
    | fill ho => exact absurd ⟨rfl, ho⟩ hn
    | zd ht hf hz hd h =>
      rw [hf]
      rw [decimal_one hd (fmtInt_decimal _ _)] at h
      exact ⟨_, by simp only [(whole_iff P v _).mpr hz]; rfl, h⟩
    | pd ht hf hz hd h =>
      rw [hf]
      rw [decimal_one hd (fmtIntPlus_decimal _ _)] at h
      exact ⟨_, by simp only [(whole_iff P v _).mpr hz]; rfl, h⟩
    | other ht hf hv hs h =>
      rw [hf]
      exact ⟨_, hs, h⟩
    | int ht hf hz hd =>
      rw [hf, ht]
      refine ⟨_, by simp only [(whole_iff P v _).mpr hz]; rfl, 0, ?_, fun _ => rfl⟩
      rw [decimal_one hd (fmtInt_decimal _ _)]
      simp
    | flt ht hf hs' h =>
      rw [hf, ht]
      exact ⟨_, hs', h⟩
    | str ht hf h =>
      rw [hf, ht]
      exact ⟨_, rfl, h⟩
    | bytes ht => exact absurd ht hb

theorem fieldBytes_iff {d : Desc} {S : Store P.F} {n : Nat} {fi : FInfo} {key : Key} {t : Bytes}
    (hn : d.tab[n]? = some fi) (hc : evalCond P (look P d.tab S) fi key = .ok true)
    (hk : fi.fd.kind ≠ .plain → fi.fd.ty = .bytes)
    (hz : evalSize P (look P d.tab S) fi key = .ok t.length) :
    fieldBytes P (look P d.tab S) S fi n key = .ok t ↔ Written P d S n fi key t := by
  unfold fieldBytes
  rw [hz]
  dsimp only
  cases hs : stored S fi.fd n key with
  | lit l =>
    dsimp only
    constructor
    · intro h
      split at h
      · cases h
      · injection h with h
        exact .literal hs h.symm
    · intro h
      cases h with
      | @literal _ k hs' h =>
        rw [hs] at hs'
        injection hs' with hs'
        subst hs'
        subst h
        have : (((l ++ List.replicate k (32 : UInt8)).length : Nat) : Int).toNat - l.length = k := by
          rw [Int.toNat_natCast, List.length_append, List.length_replicate]
          omega
        rw [padRight, this]
        simp
      | plain hs' => rw [hs] at hs'; cases hs'
      | data hs' => rw [hs] at hs'; cases hs'
  | val x =>
    dsimp only
    have hshape : ∀ v, lowGet P (look P d.tab S) S fi n key = .ok v →
        (fi.fd.name = none ∧ v = .str []) ∨ (v = .none ∧ fi.fd.optional = true) ∨ ∃ y, coerce P fi.fd y = .ok v := by
      intro v hv
      by_cases hnm : fi.fd.name = none
      · unfold lowGet at hv
        rw [hnm] at hv
        injection hv with hv
        exact .inl ⟨hnm, hv.symm⟩
      · obtain ⟨s, h1, _⟩ := lowGet_finish P hnm hc hv
        exact .inr (finish_shape P h1)
    have hstr : ∀ v, lowGet P (look P d.tab S) S fi n key = .ok v →
        fi.fd.ty = .str → (v = .none ∧ fi.fd.optional = true) ∨ ∃ s, v = .str s := by
      intro v hv hty
      rcases hshape v hv with ⟨_, h⟩ | h | ⟨y, h⟩
      · exact .inr ⟨_, h⟩
      · exact .inl h
      · have := coerce_shape P h
        rw [hty] at this
        cases v <;> simp only at this
        exact .inr ⟨_, rfl⟩
    have hget := getItem_eq P (S := S) key hn
    unfold getWith at hget
    constructor
    · intro h
      cases hl : lowGet P (look P d.tab S) S fi n key with
      | error e => rw [hl] at h; cases h
      | ok v =>
        rw [hl] at h hget
        dsimp only at h hget
        have hsp := (encode_iff P t (hstr v hl)).mp h
        by_cases hp : fi.fd.kind = .plain
        · rw [hp] at hget
          exact .plain hs hp hget hsp
        · refine .data hs hp ?_
          have hb := hk hp
          by_cases hnn : v = .none ∧ fi.fd.optional = true
          · obtain ⟨rfl, ho⟩ := hnn
            cases hsp with
            | fill _ h => exact absurd hb h
            | zd h => exact absurd hb h
            | pd h => exact absurd hb h
            | other h => exact absurd hb h
            | int h => rw [hb] at h; cases h
          · rw [(encode_bytes P t hnn hb).mp h] at hl
            exact hl
    · intro h
      cases h with
      | literal hs' => rw [hs] at hs'; cases hs'
      | plain hs' hp hv h =>
        cases hl : lowGet P (look P d.tab S) S fi n key with
        | error e => rw [hl] at hget; rw [hget] at hv; cases hv
        | ok w =>
          rw [hl, hp] at hget
          dsimp only at hget
          rw [hget] at hv
          injection hv with hv
          subst hv
          exact (encode_iff P t (hstr _ hl)).mpr h
      | data hs' hp hv =>
        rw [hv]
        exact (encode_bytes P t (by simp) (hk hp)).mpr rfl

theorem slot_facts {d : Desc} {S : Store P.F} {cs : List Chunk} (hl : layout P d S = .ok (cs.map Chunk.slot))
    {ch : Chunk} (hch : ch ∈ cs) : ∃ fi, d.tab[ch.pos]? = some fi ∧
      evalCond P (look P d.tab S) fi ch.key = .ok true ∧
      evalSize P (look P d.tab S) fi ch.key = .ok ch.bytes.length := by
  have hm : ch.slot ∈ cs.map Chunk.slot := List.mem_map_of_mem hch
  obtain ⟨_, _, _, fi, h1, h2, _⟩ := layoutD_from P S d 0 [] _ hl ch.slot hm
  obtain ⟨fi', g1, g2⟩ := layout_size P S d 0 [] _ hl ch.slot hm
  simp only [Chunk.slot] at h1 h2 g1 g2
  rw [h1] at g1
  injection g1 with g1
  subst g1
  exact ⟨fi, h1, h2, g2⟩

/-- The data of a field of a `FieldData` class has type `bytes`. -/
def KindsOk (d : Desc) : Prop := ∀ fi ∈ d.tab, fi.fd.kind ≠ .plain → fi.fd.ty = .bytes

/-- C87: a record is written as these pieces exactly if each piece is what is written for its element.
(`layout` says which elements there are and of which size, see C86.) -/
theorem C87_written {d : Desc} (hk : KindsOk d) {S : Store P.F} {cs : List Chunk} :
    writeChunks P d S = .ok cs ↔ layout P d S = .ok (cs.map Chunk.slot) ∧
      ∀ ch ∈ cs, ∃ fi, d.tab[ch.pos]? = some fi ∧ Written P d S ch.pos fi ch.key ch.bytes := by
  constructor
  · intro hw
    have hl := writeD_layout P S d 0 [] cs hw
    refine ⟨hl, fun ch hch => ?_⟩
    obtain ⟨fi, h1, h2, h3⟩ := slot_facts P hl hch
    exact ⟨fi, h1, (fieldBytes_iff P h1 h2 (hk fi (List.mem_of_getElem? h1)) h3).mp
      (writeD_bytes P S d 0 [] cs hw ch hch fi h1)⟩
  · rintro ⟨hl, h⟩
    refine writeD_of_slots P hl fun ch hch => ?_
    obtain ⟨fi, h1, h2⟩ := h ch hch
    obtain ⟨fi', g1, g2, g3⟩ := slot_facts P hl hch
    rw [h1] at g1
    injection g1 with g1
    subst g1
    exact ⟨fi, h1, (fieldBytes_iff P h1 g2 (hk fi (List.mem_of_getElem? h1)) g3).mpr h2⟩

/-- C87: an element inside the loops, whose condition holds, with a value that nothing of the
right size spells makes the write raise. -/
theorem C87_raises {d : Desc} (hd : d.causal = true) (hk : KindsOk d) {S : Store P.F} {n : Nat} {fi : FInfo}
    {key : Key} (hn : d.tab[n]? = some fi) (hw : Within P d S fi key) (hh : Holding P d S fi key)
    (h : ∀ t : Bytes, Sized P d S fi key t.length → ¬ Written P d S n fi key t) :
    ∃ e, writeChunks P d S = .error e := by
  cases hc : writeChunks P d S with
  | error e => exact ⟨e, rfl⟩
  | ok cs =>
    exfalso
    obtain ⟨g1, g2⟩ := C86_written P hd hc
    obtain ⟨ch, hch, rfl, rfl⟩ := (g1 n fi key hn).mpr ⟨hw, hh⟩
    obtain ⟨fi', e1, e2⟩ := g2 ch hch
    obtain ⟨fi'', e3, e4⟩ := ((C87_written P hk).mp hc).2 ch hch
    rw [hn] at e1 e3
    injection e1 with e1
    injection e3 with e3
    subst e1
    subst e3
    exact h _ e2 e4

/-- C87: the data written for a field of a `FieldData` class is that of the value it shows. -/
theorem C87_data {d : Desc} (hk : KindsOk d) {S : Store P.F} {cs : List Chunk} (hw : writeChunks P d S = .ok cs)
    {ch : Chunk} (hch : ch ∈ cs) {fi : FInfo} (hn : d.tab[ch.pos]? = some fi) {x v : Val P.F}
    (hs : stored S fi.fd ch.pos ch.key = .val x) (hp : fi.fd.kind ≠ .plain)
    (hv : getItem P d.tab S ch.pos ch.key = .ok v) : Data P fi.fd.kind ch.bytes v := by
  obtain ⟨hl, h⟩ := (C87_written P hk).mp hw
  obtain ⟨fi', h1, h2⟩ := h ch hch
  obtain ⟨fi'', g1, _, g3⟩ := slot_facts P hl hch
  rw [hn] at h1 g1
  injection h1 with h1
  injection g1 with g1
  subst h1
  subst g1
  cases h2 with
  | literal hs' => rw [hs] at hs'; cases hs'
  | plain _ hp' => exact absurd hp' hp
  | data _ _ hlow =>
    rw [getItem_eq P ch.key hn] at hv
    unfold getWith at hv
    rw [hlow] at hv
    dsimp only at hv
    generalize fi.fd.kind = k at hp hv ⊢
    cases k with
    | plain => exact absurd rfl hp
    | bytesData => injection hv with hv; subst hv; exact .bytes (.inl rfl)
    | engrda => injection hv with hv; subst hv; exact .bytes (.inr (.inl rfl))
    | coord => injection hv with hv; subst hv; exact .bytes (.inr (.inr rfl))
    | strData => injection hv with hv; subst hv; exact .text rfl (map_toNat_dec _)
    | fltData =>
      simp only [unpackKind] at hv
      split at hv
      · rename_i hl4
        injection hv with hv
        subst hv
        exact .single rfl hl4
      · cases hv
    | intData s =>
      simp only [unpackKind, g3] at hv
      split at hv
      · rename_i hm
        rw [if_pos (by simp)] at hv
        injection hv with hv
        subst hv
        have hm' : ch.bytes.length ∈ [1, 2, 3, 4, 8] := by
          simp only [intSizes, List.mem_cons, List.not_mem_nil, or_false] at hm ⊢
          omega
        cases s with
        | false => rw [bytesToInt_unsigned]; exact .unsigned rfl hm'
        | true => rw [bytesToInt_signed]; exact .signed rfl hm'
      · cases hv

/-- C87: a value has one spelling of each size. -/
theorem C87_one_spelling {fd : FieldDef} {v : Val P.F} {t t' : Bytes}
    (hs : fd.ty = .str → (v = .none ∧ fd.optional = true) ∨ ∃ s, v = .str s)
    (h : Spells P fd t v) (h' : Spells P fd t' v) (hl : t.length = t'.length) : t = t' := by
  have h1 := (encode_iff P t hs).mpr h
  rw [hl, (encode_iff P t' hs).mpr h'] at h1
  injection h1 with h1
  exact h1.symm

theorem kindsOk_shipped {t : String × Desc} (ht : t ∈ Tables.all) : KindsOk t.2 := by
  intro fi hfi hp
  have := List.all_eq_true.mp (tables_kinds t ht) fi hfi
  simp only [Bool.or_eq_true, beq_iff_eq] at this
  rcases this with h | h
  · exact absurd h hp
  · exact h

/-- C87 for the shipped tables. -/
theorem C87_shipped {t : String × Desc} (ht : t ∈ Tables.all) {S : Store P.F} {cs : List Chunk} :
    writeChunks P t.2 S = .ok cs ↔ layout P t.2 S = .ok (cs.map Chunk.slot) ∧
      ∀ ch ∈ cs, ∃ fi, t.2.tab[ch.pos]? = some fi ∧ Written P t.2 S ch.pos fi ch.key ch.bytes :=
  C87_written P (kindsOk_shipped ht)

/-! ### Concrete cases -/

/-- -7 in five columns is `-0007`; +12 with a sign is `+012`. -/
example : Decimal 5 false (-7) [45, 48, 48, 48, 55] :=
  ⟨[48, 48, 48, 55], rfl, by decide, by decide, by decide, .inl rfl⟩

example : ¬ Decimal 5 false (-7) [32, 32, 32, 45, 55] := fun h => by
  have := decimal_one h ⟨[48, 48, 48, 55], rfl, by decide, by decide, by decide, .inl rfl⟩
  revert this
  decide

example : Decimal 4 true 12 [43, 48, 49, 50] :=
  ⟨[48, 49, 50], rfl, by decide, by decide, by decide, .inl rfl⟩

example : KindsOk exDesc := by
  unfold KindsOk
  decide

/-- `num` of the example record: 3 in two columns. -/
example : Written P0 exDesc exStore 0 (exDesc.tab)[0] [] [48, 51] :=
  .plain (v := .int 3) rfl rfl (by decide +kernel)
    (.int rfl rfl (.int 3) ⟨[48, 51], rfl, by decide, by decide, by decide, .inl rfl⟩)

/-- 123 does not fit in two columns. -/
example : ∀ t : Bytes, t.length = 2 → ¬ Decimal t.length false 123 (codes t) := by
  rintro t hl ⟨ds, h1, _, h3, h4, _⟩
  have h5 : codes t = ds := h1
  have h6 := decimal_lt h3
  rw [← h5, codes_length, hl, h5, h4] at h6
  revert h6
  decide

end Verif.Spell
