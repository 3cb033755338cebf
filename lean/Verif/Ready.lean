import Verif.StandardLayout

/-
When a struct can be written, from its cells: lemmas for taking a table apart in the order of writing.
-/

namespace Verif.Ready

open Verif Verif.Standard

variable {P : PyFloat}

/-- The value fits the field of `w` characters. -/
def ValOk {F} (fd : FieldDef) (w : Nat) : Val F → Prop
  | .str s => fd.ty = .str ∧ (rstripU s).length ≤ w ∧ ∀ c ∈ rstripU s, c.toNat < 256
  | .int z => (fd.ty = .int ∧ FitsDec w z) ∨
      (fd.ty = .str ∧ 0 ≤ z ∧ (intStr z).length ≤ w)
  | .bytes b => fd.ty = .bytes ∧ b.length = w
  | .none => False
  | .flt _ => False

/-- A field of constant size without condition, format or computed value. -/
def plainField (fi : FInfo) : Bool :=
  fi.fd.name.isSome && fi.fd.cond.isNone && fi.fd.value.isNone && fi.fd.frmt.isNone &&
    fi.fd.sizeOffset == 0 && match fi.fd.size with
    | .const _ => true
    | .expr _ => false

def defaultFits (fd : FieldDef) (w : Nat) : Bool :=
  match fd.default with
  | some (.str s) => decide (fd.ty = .str) && decide ((rstripU s.toList).length ≤ w) &&
      (rstripU s.toList).all fun c => decide (c.toNat < 256)
  | some (.int z) => decide (fd.ty = .int) && decide (0 ≤ z ∧ 1 ≤ w ∧ z < 10 ^ w)
  | some (.bytes b) => decide (fd.ty = .bytes) && decide (b.length = w)
  | none => !fd.optional && (decide (fd.ty = .str) || (decide (fd.ty = .int) && decide (1 ≤ w)))

theorem defaultFits_ok {F} {fd : FieldDef} {w : Nat} (h : defaultFits fd w = true) :
    ValOk fd w (defaultVal fd : Val F) := by
  unfold defaultFits at h
  unfold defaultVal
  cases hd : fd.default with
  | none =>
    rw [hd] at h
    simp only [Bool.and_eq_true, Bool.not_eq_true', Bool.or_eq_true, decide_eq_true_eq] at h
    obtain ⟨h1, h2⟩ := h
    rw [h1]
    simp only [Bool.false_eq_true, if_false]
    rcases h2 with h2 | ⟨h2, h3⟩
    · rw [if_pos h2]
      exact ⟨h2, Nat.zero_le _, fun c hc => by cases hc⟩
    · rw [if_neg (by rw [h2]; decide)]
      exact .inl ⟨h2, .inl ⟨Int.le_refl _, h3, Int.pow_pos (by decide)⟩⟩
  | some c =>
    rw [hd] at h
    cases c with
    | str s =>
      simp only [Bool.and_eq_true, decide_eq_true_eq, List.all_eq_true] at h
      exact ⟨h.1.1, h.1.2, h.2⟩
    | int z =>
      simp only [Bool.and_eq_true, decide_eq_true_eq] at h
      exact .inl ⟨h.1, .inl h.2⟩
    | bytes b =>
      simp only [Bool.and_eq_true, decide_eq_true_eq] at h
      exact ⟨h.1, by simpa using h.2⟩

theorem mem_rstripU {s : Str} {c : Char} (h : c ∈ rstripU s) : c ∈ s := by
  unfold rstripU rstripBy at h
  rw [List.mem_reverse] at h
  exact List.mem_reverse.mp (List.dropWhile_sublist _ |>.subset h)

theorem intStr_latin {z : Int} (hz : 0 ≤ z) : ∀ c ∈ intStr z, c.toNat < 256 := by
  obtain ⟨n, rfl⟩ := Int.eq_ofNat_of_zero_le hz
  intro c hc
  have := decStr_digits n c hc
  unfold IsDigit at this
  omega

theorem rstripU_length_le (s : Str) : (rstripU s).length ≤ s.length := by
  unfold rstripU rstripBy
  rw [List.length_reverse, ← List.length_reverse (as := s)]
  exact (List.dropWhile_sublist _).length_le

theorem text_ok {fd : FieldDef} (hf : fd.frmt = none) (ht : fd.ty = .str) {w : Nat} {s : Str}
    (hl : s.length ≤ w) (hc : ∀ c ∈ s, c.toNat < 256) : ∃ b, encodeVal P fd w (.str s) = .ok b := by
  rw [encodeVal_of_ne_none P fd w _ (by simp), ht]
  simp only [formatVal, formatCore, hf, ht]
  rw [if_neg (by omega)]
  simp only [pyStr, reduceCtorEq, if_false, Int.toNat_natCast]
  rw [if_neg (by rw [length_padRight]; omega)]
  refine ⟨_, (latin1Enc_ok_iff _ _).mpr ⟨?_, rfl⟩⟩
  intro c h
  unfold padRight at h
  rcases List.mem_append.mp h with h | h
  · exact hc c h
  · rw [(List.mem_replicate.mp h).2]; decide

theorem fmtInt_latin (w : Nat) (z : Int) : ∀ c ∈ fmtInt w z, c.toNat < 256 := by
  have pad : ∀ k n, ∀ c ∈ padLeft '0' k (decStr n), c.toNat < 256 := by
    intro k n c hc
    unfold padLeft at hc
    rcases List.mem_append.mp hc with h | h
    · rw [(List.mem_replicate.mp h).2]; decide
    · have := decStr_digits n c h
      unfold IsDigit at this
      omega
  intro c hc
  cases z with
  | ofNat n => exact pad _ _ c hc
  | negSucc n =>
    simp only [fmtInt] at hc
    rcases List.mem_cons.mp hc with rfl | h
    · decide
    · exact pad _ _ c h

theorem encode_ok {fd : FieldDef} (hf : fd.frmt = none) {w : Nat} {v : Val P.F} (h : ValOk fd w v) :
    ∃ x b, finish P fd (.val v) = .ok x ∧ encodeVal P fd w x = .ok b := by
  cases v with
  | none => cases h
  | flt _ => cases h
  | str s =>
    obtain ⟨h1, h2, h3⟩ := h
    obtain ⟨b, hb⟩ := text_ok (P := P) hf h1 h2 h3
    refine ⟨_, b, ?_, hb⟩
    simp only [finish, coerce, h1, pyStr]
  | bytes b =>
    obtain ⟨h1, h2⟩ := h
    refine ⟨.bytes b, b, by simp only [finish, coerce, h1], ?_⟩
    rw [encodeVal_of_ne_none P fd w _ (by simp), h1]
    simp only
    rw [if_neg (by omega)]
  | int z =>
    rcases h with ⟨h1, h2⟩ | ⟨h1, h2, h3⟩
    · refine ⟨.int z, (fmtInt w z).map fun c => UInt8.ofNat c.toNat, ?_, ?_⟩
      · simp only [finish, coerce, h1, coerceInt]
      · rw [encodeVal_of_ne_none P fd w _ (by simp), h1]
        simp only [formatVal, formatCore, hf, h1]
        rw [if_neg (by omega)]
        simp only [asIntD, Except.map, if_true, Int.toNat_natCast]
        rw [if_neg (by rw [(fmtInt_length w z).mpr h2]; omega)]
        exact (latin1Enc_ok_iff _ _).mpr ⟨fmtInt_latin w z, rfl⟩
    · obtain ⟨b, hb⟩ := text_ok (P := P) hf h1 (w := w) (s := rstripU (intStr z))
        (Nat.le_trans (rstripU_length_le _) h3) (fun c hc => intStr_latin h2 c (mem_rstripU hc))
      refine ⟨_, b, ?_, hb⟩
      simp only [finish, coerce, h1, pyStr]

/-- The cell of a plain field holds something that fits, and its index is in range. -/
def CellOk (T : Tab) (S : Store P.F) (m : Nat) (key : Key) : Prop :=
  ∀ fi, T[m]? = some fi → checkIndex P (look P T S) fi key = .ok () ∧
    ∃ v, stored S fi.fd m key = .val v ∧ ValOk fi.fd (widthAt T m) v

theorem field_ok {T : Tab} {S : Store P.F} {m : Nat} {key : Key} {fi : FInfo} (hm : T[m]? = some fi)
    (hp : plainField fi = true) (hc : CellOk T S m key) :
    evalCond P (look P T S) fi key = .ok true ∧
      ∃ b, fieldBytes P (look P T S) S fi m key = .ok b := by
  obtain ⟨h1, v, h2, h3⟩ := hc fi hm
  simp only [plainField, Bool.and_eq_true, Option.isNone_iff_eq_none, beq_iff_eq] at hp
  obtain ⟨⟨⟨⟨⟨p1, p2⟩, p3⟩, p4⟩, p5⟩, p6⟩ := hp
  have hcond : evalCond P (look P T S) fi key = .ok true := by unfold evalCond; rw [p2]
  have hw : evalSize P (look P T S) fi key = .ok (widthAt T m : Nat) := by
    unfold evalSize widthAt
    rw [hm]
    cases hs : fi.fd.size with
    | expr e => rw [hs] at p6; cases p6
    | const w =>
      simp only [p5, hs]
      by_cases h0 : (w : Int) = 0
      · simp [h0]
      · rw [if_pos h0]; simp
  refine ⟨hcond, ?_⟩
  unfold fieldBytes
  rw [hw]
  simp only [h2]
  rw [lowGet_present P (by intro h; rw [h] at p1; cases p1) h1 hcond p3, h2]
  obtain ⟨x, b, e1, e2⟩ := encode_ok (P := P) p4 h3
  rw [e1]
  exact ⟨b, e2⟩

def readyRun (T : Tab) (n k : Nat) : Bool :=
  (List.range' n k).all fun m => match T[m]? with
    | some fi => plainField fi
    | none => false

/-- Some fields in a row. -/
theorem fwd_run {T : Tab} {S : Store P.F} {key : Key} : ∀ (k n : Nat) (d : Desc),
    readyRun T n k = true → startsPlain d k = true →
    (∀ m, n ≤ m → m < n + k → CellOk T S m key) →
    (∃ cs, writeD P T S (n + k) key (Desc.after d k) = .ok cs) → ∃ cs, writeD P T S n key d = .ok cs := by
  intro k
  induction k with
  | zero => intro n d _ _ _ h; cases d <;> exact h
  | succ k ih =>
    intro n d hr hs hc h
    cases d with
    | nil => cases hs
    | loop _ _ _ => cases hs
    | field fd r =>
      simp only [readyRun, List.range'_succ, List.all_cons, Bool.and_eq_true] at hr
      obtain ⟨hr0, hr⟩ := hr
      cases hf : T[n]? with
      | none => rw [hf] at hr0; cases hr0
      | some fi =>
        rw [hf] at hr0
        obtain ⟨h1, b, h2⟩ := field_ok hf hr0 (hc n (Nat.le_refl _) (by omega))
        obtain ⟨cs, hcs⟩ := ih (n + 1) r hr hs (fun m a b => hc m (by omega) (by omega)) (by
          rw [show n + 1 + k = n + (k + 1) by omega]; exact h)
        refine ⟨⟨n, key, b⟩ :: cs, ?_⟩
        simp only [writeD, hf, h1, h2, hcs]

/-- A field that is absent. -/
theorem fwd_skip {T : Tab} {S : Store P.F} {key : Key} {n : Nat} {fd : FieldDef} {r : Desc} {fi : FInfo}
    (hf : T[n]? = some fi) (hc : evalCond P (look P T S) fi key = .ok false)
    (h : ∃ cs, writeD P T S (n + 1) key r = .ok cs) : ∃ cs, writeD P T S n key (.field fd r) = .ok cs := by
  obtain ⟨cs, h⟩ := h
  exact ⟨cs, by simp only [writeD, hf, hc, h]⟩

/-- A field that is present. -/
theorem fwd_field {T : Tab} {S : Store P.F} {key : Key} {n : Nat} {fd : FieldDef} {r : Desc} {fi : FInfo}
    (hf : T[n]? = some fi) (hc : evalCond P (look P T S) fi key = .ok true)
    (hb : ∃ b, fieldBytes P (look P T S) S fi n key = .ok b)
    (h : ∃ cs, writeD P T S (n + 1) key r = .ok cs) : ∃ cs, writeD P T S n key (.field fd r) = .ok cs := by
  obtain ⟨cs, h⟩ := h
  obtain ⟨b, hb⟩ := hb
  exact ⟨⟨n, key, b⟩ :: cs, by simp only [writeD, hf, hc, hb, h]⟩

theorem forChunks_ok {α : Type} {f : Int → Except Err (List α)} : ∀ {is : List Int},
    (∀ i ∈ is, ∃ cs, f i = .ok cs) → ∃ cs, forChunks f is = .ok cs
  | [], _ => ⟨[], rfl⟩
  | i :: is, h => by
    obtain ⟨a, ha⟩ := h i (by simp)
    obtain ⟨b, hb⟩ := forChunks_ok (is := is) fun j hj => h j (by simp [hj])
    exact ⟨a ++ b, by simp only [forChunks, ha, hb]⟩

/-- A loop. -/
theorem fwd_loop {T : Tab} {S : Store P.F} {key : Key} {n : Nat} {e : Expr} {body r : Desc} {c : Int}
    (hs : evalShape P (look P T S) e key = .ok c)
    (hb : ∀ i : Nat, (i : Int) < c → ∃ cs, writeD P T S n (key ++ [(i : Int)]) body = .ok cs)
    (h : ∃ cs, writeD P T S (n + body.count) key r = .ok cs) :
    ∃ cs, writeD P T S n key (.loop e body r) = .ok cs := by
  obtain ⟨cs, h⟩ := h
  have : ∀ i ∈ indices c, ∃ cs, writeD P T S n (key ++ [i]) body = .ok cs := by
    intro i hi
    unfold indices at hi
    obtain ⟨j, hj, rfl⟩ := List.mem_map.mp hi
    exact hb j (by have := List.mem_range.mp hj; omega)
  obtain ⟨cs1, h1⟩ := forChunks_ok this
  exact ⟨cs1 ++ cs, by simp only [writeD, hs, h1, h]⟩

/-- The default of a field outside loops fits. -/
def defaultAt (T : Tab) (m : Nat) : Bool :=
  match T[m]? with
  | some fi => fi.shapes.isEmpty && defaultFits fi.fd (widthAt T m)
  | none => false

theorem check_top {T : Tab} {S : Store P.F} {fi : FInfo} {key : Key} (h : fi.shapes = []) :
    checkIndex P (look P T S) fi key = .ok () := by
  unfold checkIndex
  rw [h]
  rfl

theorem cell_default {T : Tab} {S : Store P.F} {m : Nat} (h : defaultAt T m = true) (hS : S m [] = none) :
    CellOk T S m [] := by
  intro fi hf
  unfold defaultAt at h
  rw [hf] at h
  simp only [Bool.and_eq_true, List.isEmpty_iff] at h
  refine ⟨check_top h.1, _, by unfold stored; rw [hS], defaultFits_ok h.2⟩

/-- A field of this type and width outside loops. -/
def typedAt (T : Tab) (m : Nat) (ty : Ty) (w : Nat) : Bool :=
  match T[m]? with
  | some fi => fi.shapes.isEmpty && decide (fi.fd.ty = ty) && decide (widthAt T m = w)
  | none => false

theorem cell_int {T : Tab} {S : Store P.F} {m w : Nat} {z : Int} {raw : Option Bytes}
    (h : typedAt T m .int w = true) (hS : S m [] = some ⟨.val (.int z), raw⟩) (hz : FitsDec w z) :
    CellOk T S m [] := by
  intro fi hf
  unfold typedAt at h
  rw [hf] at h
  simp only [Bool.and_eq_true, List.isEmpty_iff, decide_eq_true_eq] at h
  refine ⟨check_top h.1.1, .int z, by unfold stored; rw [hS], .inl ⟨h.1.2, by rw [h.2]; exact hz⟩⟩

theorem cell_str {T : Tab} {S : Store P.F} {m w : Nat} {s : Str} {raw : Option Bytes}
    (h : typedAt T m .str w = true) (hS : S m [] = some ⟨.val (.str s), raw⟩)
    (hl : (rstripU s).length ≤ w) (hc : ∀ c ∈ rstripU s, c.toNat < 256) : CellOk T S m [] := by
  intro fi hf
  unfold typedAt at h
  rw [hf] at h
  simp only [Bool.and_eq_true, List.isEmpty_iff, decide_eq_true_eq] at h
  refine ⟨check_top h.1.1, .str s, by unfold stored; rw [hS], h.1.2, by rw [h.2]; exact hl, hc⟩

/-- A data field without data. -/
def emptyAt (T : Tab) (m : Nat) (len : Name) : Bool :=
  match T[m]? with
  | some fi => fi.shapes.isEmpty && decide (fi.fd.size = .expr (.ref len [])) && fi.fd.cond.isNone &&
      fi.fd.value.isNone && fi.fd.name.isSome && decide (fi.fd.ty = .bytes) && fi.fd.default.isNone &&
      !fi.fd.optional
  | none => false

theorem empty_ok {T : Tab} {S : Store P.F} {m : Nat} {len : Name} {fi : FInfo} (hf : T[m]? = some fi)
    (h : emptyAt T m len = true) (hl : look P T S len [] = .ok (.int 0)) (hS : S m [] = none) :
    evalCond P (look P T S) fi [] = .ok true ∧
      ∃ b, fieldBytes P (look P T S) S fi m [] = .ok b := by
  unfold emptyAt at h
  rw [hf] at h
  simp only [Bool.and_eq_true, List.isEmpty_iff, decide_eq_true_eq, Option.isNone_iff_eq_none,
    Bool.not_eq_true'] at h
  obtain ⟨⟨⟨⟨⟨⟨⟨h1, h2⟩, h3⟩, h4⟩, h5⟩, h6⟩, h7⟩, h8⟩ := h
  have hcond : evalCond P (look P T S) fi [] = .ok true := by unfold evalCond; rw [h3]
  refine ⟨hcond, [], ?_⟩
  have hz : evalSize P (look P T S) fi [] = .ok 0 := by
    unfold evalSize
    rw [h2]
    simp only [evalE, idxKey, bind, Except.bind, hl, asInt]
    rfl
  have hst : stored S fi.fd m [] = .val (.int 0) := by
    unfold stored defaultVal
    rw [hS, h7, h8, h6]
    rfl
  unfold fieldBytes
  rw [hz]
  simp only [hst]
  rw [lowGet_present P (by intro h; rw [h] at h5; cases h5) (check_top h1) hcond h4, hst]
  simp only [finish, coerce, h6]
  rw [if_neg (by omega)]
  simp only
  rw [encodeVal_of_ne_none P _ _ _ (by simp), h6]
  rfl

end Verif.Ready
