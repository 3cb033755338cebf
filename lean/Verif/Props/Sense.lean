import Verif.Props.Meaning

/- C86: sizes, counts and conditions are evaluated as the Python expressions they are. -/

namespace Verif.Sense

open Verif Verif.Meaning

variable (P : PyFloat)

/-! ### Specification -/

/-- `x == y` in Python. -/
inductive Equal : Val P.F → Val P.F → Prop
  | none : Equal .none .none
  | int (z : Int) : Equal (.int z) (.int z)
  | str (s : Str) : Equal (.str s) (.str s)
  | bytes (b : Bytes) : Equal (.bytes b) (.bytes b)
  | flt {x y : P.F} (h : P.beq x y = true) : Equal (.flt x) (.flt y)
  | mixed {z : Int} {y : P.F} (h : P.beq (P.ofInt z) y = true) : Equal (.int z) (.flt y)
  | mixed' {x : P.F} {z : Int} (h : P.beq x (P.ofInt z) = true) : Equal (.flt x) (.int z)

/-- `bool(x)` in Python. -/
def Truth (v : Val P.F) : Prop :=
  v ≠ .none ∧ v ≠ .int 0 ∧ v ≠ .str [] ∧ v ≠ .bytes [] ∧ ∀ x, v = .flt x → P.beq x (P.ofInt 0) = false

/-- A constant of a table. -/
inductive Constant : CVal → Val P.F → Prop
  | int (z : Int) : Constant (.int z) (.int z)
  | str (s : String) : Constant (.str s) (.str s.toList)
  | bytes (l : List Nat) : Constant (.bytes l) (.bytes (l.map UInt8.ofNat))

/-- `True` is 1 and `False` is 0. -/
inductive Says01 (p : Prop) : Val P.F → Prop
  | yes (h : p) : Says01 p (.int 1)
  | no (h : ¬ p) : Says01 p (.int 0)

/-- The value of an expression of a table at the loop indices `key`; `val nm k v` says that the field
`nm` has the value `v` at `k`. -/
inductive Means (val : Name → Key → Val P.F → Prop) (key : Key) : Expr → Val P.F → Prop
  | const {c : CVal} {v : Val P.F} (h : Constant P c v) : Means val key (.const c) v
  | ref {nm : Name} {idx : List Nat} {k : Key} {v : Val P.F}
      (hk : idx.map (fun j => key[j]?) = k.map some) (h : val nm k v) : Means val key (.ref nm idx) v
  | eq {a b : Expr} {x y v : Val P.F} (ha : Means val key a x) (hb : Means val key b y)
      (h : Says01 P (Equal P x y) v) : Means val key (.eq a b) v
  | ne {a b : Expr} {x y v : Val P.F} (ha : Means val key a x) (hb : Means val key b y)
      (h : Says01 P (¬ Equal P x y) v) : Means val key (.ne a b) v
  | gt {a b : Expr} {x y : Int} {v : Val P.F} (ha : Means val key a (.int x)) (hb : Means val key b (.int y))
      (h : Says01 P (y < x) v) : Means val key (.gt a b) v
  | ge {a b : Expr} {x y : Int} {v : Val P.F} (ha : Means val key a (.int x)) (hb : Means val key b (.int y))
      (h : Says01 P (y ≤ x) v) : Means val key (.ge a b) v
  | andNo {a b : Expr} {x : Val P.F} (ha : Means val key a x) (h : ¬ Truth P x) : Means val key (.and a b) x
  | andYes {a b : Expr} {x y : Val P.F} (ha : Means val key a x) (h : Truth P x) (hb : Means val key b y) :
      Means val key (.and a b) y
  | band {a b : Expr} {x y r : Nat} (ha : Means val key a (.int x)) (hb : Means val key b (.int y))
      (h : ∀ i, r.testBit i = true ↔ x.testBit i = true ∧ y.testBit i = true) :
      Means val key (.band a b) (.int r)
  | isin {a : Expr} {cs : List CVal} {x v : Val P.F} (ha : Means val key a x)
      (h : Says01 P (∃ c ∈ cs, ∃ y, Constant P c y ∧ Equal P x y) v) : Means val key (.isin a cs) v
  | notin {a : Expr} {cs : List CVal} {x v : Val P.F} (ha : Means val key a x)
      (h : Says01 P (∀ c ∈ cs, ∀ y, Constant P c y → ¬ Equal P x y) v) : Means val key (.notin a cs) v
  | rstripStr {a : Expr} {s t : Str} (ha : Means val key a (.str s))
      (h : EndCut charBlanks (s.map Char.toNat) (t.map Char.toNat)) : Means val key (.rstrip a) (.str t)
  | rstripBytes {a : Expr} {s t : Bytes} (ha : Means val key a (.bytes s))
      (h : EndCut byteBlanks (s.map UInt8.toNat) (t.map UInt8.toNat)) : Means val key (.rstrip a) (.bytes t)
  | iteYes {c a b : Expr} {x v : Val P.F} (hc : Means val key c x) (h : Truth P x) (ha : Means val key a v) :
      Means val key (.ite c a b) v
  | iteNo {c a b : Expr} {x v : Val P.F} (hc : Means val key c x) (h : ¬ Truth P x) (hb : Means val key b v) :
      Means val key (.ite c a b) v
  | mul {a b : Expr} {x y : Int} (ha : Means val key a (.int x)) (hb : Means val key b (.int y)) :
      Means val key (.mul a b) (.int (x * y))
  | add {a b : Expr} {x y : Int} (ha : Means val key a (.int x)) (hb : Means val key b (.int y)) :
      Means val key (.add a b) (.int (x + y))
  | sub {a b : Expr} {x y : Int} (ha : Means val key a (.int x)) (hb : Means val key b (.int y)) :
      Means val key (.sub a b) (.int (x - y))
  | fdiv {a b : Expr} {x y q : Int} (ha : Means val key a (.int x)) (hb : Means val key b (.int y))
      (h : (0 < y ∧ q * y ≤ x ∧ x < (q + 1) * y) ∨ (y < 0 ∧ x ≤ q * y ∧ (q + 1) * y < x)) :
      Means val key (.fdiv a b) (.int q)
  | toIntInt {a : Expr} {z : Int} (ha : Means val key a (.int z)) : Means val key (.toInt a) (.int z)
  | toIntStr {a : Expr} {s : Str} {z : Int} (ha : Means val key a (.str s))
      (h : IntText charBlanks (s.map Char.toNat) z) : Means val key (.toInt a) (.int z)
  | toIntBytes {a : Expr} {b : Bytes} {z : Int} (ha : Means val key a (.bytes b))
      (h : IntText byteBlanks (b.map UInt8.toNat) z) : Means val key (.toInt a) (.int z)
  | toIntFlt {a : Expr} {x : P.F} {z : Int} (ha : Means val key a (.flt x)) (h : P.toInt x = .ok z) :
      Means val key (.toInt a) (.int z)
  | tri {a : Expr} {x r : Int} (ha : Means val key a (.int x)) (h : 2 * r = x * (x + 1)) :
      Means val key (.tri a) (.int r)

/-- The field of this name shows this value; used with indices exactly if it is in a loop. -/
def Shows (d : Desc) (S : Store P.F) (nm : Name) (k : Key) (v : Val P.F) : Prop :=
  ∃ n fi, resolve d.tab nm = some n ∧ d.tab[n]? = some fi ∧ (fi.depth = 0 ↔ k = []) ∧
    getItem P d.tab S n k = .ok v

/-- How often a loop is run. -/
def Count (d : Desc) (S : Store P.F) (e : Expr) (key : Key) (c : Int) : Prop :=
  Means P (Shows P d S) key e (.int c) ∨ Means P (Shows P d S) key e .none ∧ c = 0

/-- The indices are inside the loops around the field. -/
def Within (d : Desc) (S : Store P.F) (fi : FInfo) (key : Key) : Prop :=
  key.length = fi.shapes.length ∧ ∀ j e i, fi.shapes[j]? = some e → key[j]? = some i →
    0 ≤ i ∧ ∃ c, Count P d S e (key.take j) c ∧ i < c

/-- The condition of the field holds. -/
def Holding (d : Desc) (S : Store P.F) (fi : FInfo) (key : Key) : Prop :=
  ∀ e, fi.fd.cond = some e → ∃ v, Means P (Shows P d S) key e v ∧ Truth P v

/-- The size of the field. -/
inductive Sized (d : Desc) (S : Store P.F) (fi : FInfo) (key : Key) : Int → Prop
  | zeroConst (h : fi.fd.size = .const 0) : Sized d S fi key 0
  | const {n : Nat} (h : fi.fd.size = .const n) (hn : n ≠ 0) : Sized d S fi key (n - fi.fd.sizeOffset)
  | zero {e : Expr} (h : fi.fd.size = .expr e) (hm : Means P (Shows P d S) key e (.int 0)) : Sized d S fi key 0
  | expr {e : Expr} {z : Int} (h : fi.fd.size = .expr e) (hm : Means P (Shows P d S) key e (.int z))
      (hz : z ≠ 0) : Sized d S fi key (z - fi.fd.sizeOffset)

/-! ### Helpers -/

theorem equal_iff (x y : Val P.F) : pyEq P x y = true ↔ Equal P x y := by
  constructor
  · intro h
    cases x <;> cases y <;> simp only [pyEq, beq_iff_eq, Bool.false_eq_true] at h
    · exact .none
    · subst h; exact .int _
    · exact .mixed h
    · subst h; exact .str _
    · subst h; exact .bytes _
    · exact .mixed' h
    · exact .flt h
  · intro h
    cases h <;> simp_all [pyEq]

theorem truth_iff (v : Val P.F) : truthy P v = true ↔ Truth P v := by
  cases v <;> simp [truthy, Truth]

theorem truth_not (v : Val P.F) : truthy P v = false ↔ ¬ Truth P v := by
  rw [← truth_iff]; simp

theorem constant_iff (c : CVal) (v : Val P.F) : c.toVal = v ↔ Constant P c v := by
  constructor
  · rintro rfl
    cases c <;> constructor
  · intro h; cases h <;> rfl

theorem says01_iff {p : Prop} {b : Bool} (h : b = true ↔ p) (v : Val P.F) : bval b = v ↔ Says01 P p v := by
  constructor
  · rintro rfl
    cases b with
    | true => exact .yes (h.mp rfl)
    | false => exact .no fun hp => by cases h.mpr hp
  · intro hv
    cases hv with
    | yes hp => rw [h.mpr hp]; rfl
    | no hp =>
      cases b with
      | true => exact absurd (h.mp rfl) hp
      | false => rfl

theorem idxKey_iff (key : Key) (idx : List Nat) (k : Key) :
    idxKey key idx = .ok k ↔ idx.map (fun j => key[j]?) = k.map some := by
  induction idx generalizing k with
  | nil =>
    simp only [idxKey, List.map_nil]
    constructor
    · intro h; injection h with h; subst h; rfl
    · intro h
      cases k with
      | nil => rfl
      | cons x k => simp at h
  | cons j js ih =>
    simp only [idxKey, List.map_cons]
    constructor
    · intro h
      split at h
      · cases h
      · rename_i i hi
        split at h
        · cases h
        · rename_i r hr
          injection h with h
          subst h
          rw [List.map_cons, hi, (ih r).mp hr]
    · intro h
      cases k with
      | nil => simp at h
      | cons x k =>
        simp only [List.map_cons, List.cons.injEq] at h
        rw [h.1, (ih k).mpr h.2]

theorem asInt_iff (v : Val P.F) (z : Int) : asInt v = .ok z ↔ v = .int z := by
  cases v <;> simp [asInt]

theorem bind_iff {α β} (m : Except Err α) (f : α → Except Err β) (v : β) :
    (m >>= f) = .ok v ↔ ∃ a, m = .ok a ∧ f a = .ok v := by
  cases m <;> simp [bind, Except.bind]

theorem int_iff {look : Look P.F} {key : Key} {a : Expr} (z : Int) :
    (evalE P look key a >>= asInt) = .ok z ↔ evalE P look key a = .ok (.int z) := by
  rw [bind_iff]
  constructor
  · rintro ⟨v, h1, h2⟩
    rw [(asInt_iff P v z).mp h2] at h1
    exact h1
  · intro h
    exact ⟨_, h, rfl⟩

theorem byteMap_inj {a b : Bytes} (h : a.map UInt8.toNat = b.map UInt8.toNat) : a = b := by
  induction a generalizing b with
  | nil => cases b <;> simp at h ⊢
  | cons x a ih =>
    cases b with
    | nil => simp at h
    | cons y b =>
      simp only [List.map_cons, List.cons.injEq] at h
      rw [ih h.2, UInt8.toNat_inj.mp h.1]

theorem tri_even (x : Int) : ∃ r, x * (x + 1) = 2 * r := by
  rcases (by omega : x % 2 = 0 ∨ x % 2 = 1) with h | h
  · exact ⟨x / 2 * (x + 1), by rw [← Int.mul_assoc]; congr 1; omega⟩
  · exact ⟨x * ((x + 1) / 2), by rw [Int.mul_left_comm]; congr 1; omega⟩

theorem fdiv_pos (x q : Int) {y : Int} (hy : 0 < y) : Int.fdiv x y = q ↔ q * y ≤ x ∧ x < (q + 1) * y := by
  rw [Int.fdiv_eq_ediv_of_nonneg x (by omega), ← Int.le_ediv_iff_mul_le hy, ← Int.ediv_lt_iff_lt_mul hy]
  omega

theorem fdiv_iff (x y q : Int) : (y ≠ 0 ∧ Int.fdiv x y = q) ↔
    ((0 < y ∧ q * y ≤ x ∧ x < (q + 1) * y) ∨ (y < 0 ∧ x ≤ q * y ∧ (q + 1) * y < x)) := by
  have hneg : y < 0 → (Int.fdiv x y = q ↔ x ≤ q * y ∧ (q + 1) * y < x) := by
    intro h
    rw [← Int.neg_fdiv_neg, fdiv_pos (-x) q (y := -y) (by omega), Int.mul_neg, Int.mul_neg]
    omega
  constructor
  · rintro ⟨h0, h⟩
    rcases Int.lt_or_gt_of_ne h0 with hy | hy
    · exact .inr ⟨hy, (hneg hy).mp h⟩
    · exact .inl ⟨hy, (fdiv_pos x q hy).mp h⟩
  · rintro (⟨hy, h⟩ | ⟨hy, h⟩)
    · exact ⟨by omega, (fdiv_pos x q hy).mpr h⟩
    · exact ⟨by omega, (hneg hy).mpr h⟩

theorem eval_iff (look : Look P.F) (key : Key) (e : Expr) (v : Val P.F) :
    evalE P look key e = .ok v ↔ Means P (fun nm k v => look nm k = .ok v) key e v := by
  induction e generalizing v with
  | const c =>
    simp only [evalE]
    constructor
    · intro h; injection h with h; exact .const ((constant_iff P c v).mp h)
    · intro h; cases h with | const h => rw [(constant_iff P c v).mpr h]
  | ref nm idx =>
    simp only [evalE, bind_iff]
    constructor
    · rintro ⟨k, h1, h2⟩
      exact .ref ((idxKey_iff key idx k).mp h1) h2
    · intro h
      cases h with
      | ref hk h => exact ⟨_, (idxKey_iff key idx _).mpr hk, h⟩
  | eq a b iha ihb =>
    simp only [evalE, bind_iff, pure, Except.pure, Except.ok.injEq, iha, ihb]
    constructor
    · rintro ⟨x, hx, y, hy, h⟩
      exact .eq hx hy ((says01_iff P (equal_iff P x y) v).mp h)
    · intro h
      cases h with | eq hx hy h => exact ⟨_, hx, _, hy, (says01_iff P (equal_iff P _ _) v).mpr h⟩
  | ne a b iha ihb =>
    have hb : ∀ x y, (!pyEq P x y) = true ↔ ¬ Equal P x y := by
      intro x y; rw [← equal_iff]; simp
    simp only [evalE, bind_iff, pure, Except.pure, Except.ok.injEq, iha, ihb]
    constructor
    · rintro ⟨x, hx, y, hy, h⟩
      exact .ne hx hy ((says01_iff P (hb x y) v).mp h)
    · intro h
      cases h with | ne hx hy h => exact ⟨_, hx, _, hy, (says01_iff P (hb _ _) v).mpr h⟩
  | gt a b iha ihb =>
    simp only [evalE, bind_iff, pure, Except.pure, Except.ok.injEq, iha, ihb, asInt_iff]
    constructor
    · rintro ⟨_, hx, x, rfl, _, hy, y, rfl, h⟩
      exact .gt hx hy ((says01_iff P (by simp) v).mp h)
    · intro h
      cases h with | gt hx hy h => exact ⟨_, hx, _, rfl, _, hy, _, rfl, (says01_iff P (by simp) v).mpr h⟩
  | ge a b iha ihb =>
    simp only [evalE, bind_iff, pure, Except.pure, Except.ok.injEq, iha, ihb, asInt_iff]
    constructor
    · rintro ⟨_, hx, x, rfl, _, hy, y, rfl, h⟩
      exact .ge hx hy ((says01_iff P (by simp) v).mp h)
    · intro h
      cases h with | ge hx hy h => exact ⟨_, hx, _, rfl, _, hy, _, rfl, (says01_iff P (by simp) v).mpr h⟩
  | and a b iha ihb =>
    simp only [evalE, bind_iff, pure, Except.pure, iha]
    constructor
    · rintro ⟨x, hx, h⟩
      split at h
      · rename_i ht
        exact .andYes hx ((truth_iff P x).mp ht) ((ihb v).mp h)
      · rename_i ht
        injection h with h
        subst h
        exact .andNo hx fun h => ht ((truth_iff P _).mpr h)
    · intro h
      cases h with
      | andNo hx h =>
        refine ⟨_, hx, ?_⟩
        rw [(truth_not P _).mpr h]
        rfl
      | andYes hx h hy =>
        refine ⟨_, hx, ?_⟩
        rw [(truth_iff P _).mpr h]
        exact (ihb v).mpr hy
  | band a b iha ihb =>
    simp only [evalE, bind_iff, pure, Except.pure, iha, ihb, asInt_iff]
    constructor
    · rintro ⟨_, hx, x, rfl, _, hy, y, rfl, h⟩
      split at h
      · cases h
      · rename_i hn
        injection h with h
        subst h
        obtain ⟨x', rfl⟩ := Int.eq_ofNat_of_zero_le (a := x) (by omega)
        obtain ⟨y', rfl⟩ := Int.eq_ofNat_of_zero_le (a := y) (by omega)
        exact .band hx hy (by intro i; simp [Nat.testBit_and])
    · intro h
      cases h with
      | @band _ _ x y r hx hy h =>
        refine ⟨_, hx, _, rfl, _, hy, _, rfl, ?_⟩
        rw [if_neg (by omega)]
        have : r = x &&& y := by
          apply Nat.eq_of_testBit_eq
          intro i
          rw [Nat.testBit_and, Bool.eq_iff_iff, Bool.and_eq_true]
          exact h i
        rw [this]
        rfl
  | isin a cs iha =>
    have hb : ∀ x, (cs.any fun c => pyEq P x c.toVal) = true ↔
        ∃ c ∈ cs, ∃ y, Constant P c y ∧ Equal P x y := by
      intro x
      rw [List.any_eq_true]
      constructor
      · rintro ⟨c, hc, h⟩
        exact ⟨c, hc, _, (constant_iff P c _).mp rfl, (equal_iff P x _).mp h⟩
      · rintro ⟨c, hc, y, h1, h2⟩
        rw [← (constant_iff P c y).mpr h1] at h2
        exact ⟨c, hc, (equal_iff P x _).mpr h2⟩
    simp only [evalE, bind_iff, pure, Except.pure, Except.ok.injEq, iha]
    constructor
    · rintro ⟨x, hx, h⟩
      exact .isin hx ((says01_iff P (hb x) v).mp h)
    · intro h
      cases h with | isin hx h => exact ⟨_, hx, (says01_iff P (hb _) v).mpr h⟩
  | notin a cs iha =>
    have hb : ∀ x, (!cs.any fun c => pyEq P x c.toVal) = true ↔
        ∀ c ∈ cs, ∀ y, Constant P c y → ¬ Equal P x y := by
      intro x
      rw [Bool.not_eq_true', ← Bool.not_eq_true, List.any_eq_true]
      constructor
      · intro h c hc y h1 h2
        rw [← (constant_iff P c y).mpr h1] at h2
        exact h ⟨c, hc, (equal_iff P x _).mpr h2⟩
      · rintro h ⟨c, hc, h1⟩
        exact h c hc _ ((constant_iff P c _).mp rfl) ((equal_iff P x _).mp h1)
    simp only [evalE, bind_iff, pure, Except.pure, Except.ok.injEq, iha]
    constructor
    · rintro ⟨x, hx, h⟩
      exact .notin hx ((says01_iff P (hb x) v).mp h)
    · intro h
      cases h with | notin hx h => exact ⟨_, hx, (says01_iff P (hb _) v).mpr h⟩
  | rstrip a iha =>
    simp only [evalE, bind_iff, iha]
    constructor
    · rintro ⟨x, hx, h⟩
      cases x with
      | str s =>
        injection h with h
        subst h
        exact .rstripStr hx ((end_iff cSpace_iff s _).mpr rfl)
      | bytes s =>
        injection h with h
        subst h
        exact .rstripBytes hx ((end_iff bSpace_iff s _).mpr rfl)
      | none => cases h
      | int _ => cases h
      | flt _ => cases h
    · intro h
      cases h with
      | rstripStr hx h =>
        refine ⟨_, hx, ?_⟩
        have := charMap_inj ((end_iff cSpace_iff _ _).mp h)
        rw [this]
        rfl
      | rstripBytes hx h =>
        refine ⟨_, hx, ?_⟩
        have := byteMap_inj ((end_iff bSpace_iff _ _).mp h)
        rw [this]
        rfl
  | ite c a b ihc iha ihb =>
    simp only [evalE, bind_iff, ihc]
    constructor
    · rintro ⟨x, hx, h⟩
      split at h
      · rename_i ht
        exact .iteYes hx ((truth_iff P x).mp ht) ((iha v).mp h)
      · rename_i ht
        exact .iteNo hx (fun h => ht ((truth_iff P _).mpr h)) ((ihb v).mp h)
    · intro h
      cases h with
      | iteYes hx h hy =>
        refine ⟨_, hx, ?_⟩
        rw [(truth_iff P _).mpr h]
        exact (iha v).mpr hy
      | iteNo hx h hy =>
        refine ⟨_, hx, ?_⟩
        rw [(truth_not P _).mpr h]
        exact (ihb v).mpr hy
  | mul a b iha ihb =>
    simp only [evalE, bind_iff, pure, Except.pure, Except.ok.injEq, iha, ihb, asInt_iff]
    constructor
    · rintro ⟨_, hx, x, rfl, _, hy, y, rfl, rfl⟩
      exact .mul hx hy
    · intro h
      cases h with | mul hx hy => exact ⟨_, hx, _, rfl, _, hy, _, rfl, rfl⟩
  | add a b iha ihb =>
    simp only [evalE, bind_iff, pure, Except.pure, Except.ok.injEq, iha, ihb, asInt_iff]
    constructor
    · rintro ⟨_, hx, x, rfl, _, hy, y, rfl, rfl⟩
      exact .add hx hy
    · intro h
      cases h with | add hx hy => exact ⟨_, hx, _, rfl, _, hy, _, rfl, rfl⟩
  | sub a b iha ihb =>
    simp only [evalE, bind_iff, pure, Except.pure, Except.ok.injEq, iha, ihb, asInt_iff]
    constructor
    · rintro ⟨_, hx, x, rfl, _, hy, y, rfl, rfl⟩
      exact .sub hx hy
    · intro h
      cases h with | sub hx hy => exact ⟨_, hx, _, rfl, _, hy, _, rfl, rfl⟩
  | fdiv a b iha ihb =>
    simp only [evalE, bind_iff, pure, Except.pure, iha, ihb, asInt_iff]
    constructor
    · rintro ⟨_, hx, x, rfl, _, hy, y, rfl, h⟩
      split at h
      · cases h
      · rename_i hn
        injection h with h
        subst h
        exact .fdiv hx hy ((fdiv_iff x y _).mp ⟨hn, rfl⟩)
    · intro h
      cases h with
      | fdiv hx hy h =>
        obtain ⟨h1, h2⟩ := (fdiv_iff _ _ _).mpr h
        exact ⟨_, hx, _, rfl, _, hy, _, rfl, by rw [if_neg h1, h2]⟩
  | toInt a iha =>
    simp only [evalE, bind_iff, pure, Except.pure, Except.ok.injEq, iha]
    constructor
    · rintro ⟨x, hx, z, hz, rfl⟩
      cases x with
      | int z' => simp only [coerceInt] at hz; injection hz with hz; subst hz; exact .toIntInt hx
      | str s => exact .toIntStr hx ((intS_iff s z).mp hz)
      | bytes b => exact .toIntBytes hx ((intB_iff b z).mp hz)
      | flt x => exact .toIntFlt hx hz
      | none => cases hz
    · intro h
      cases h with
      | toIntInt hx => exact ⟨_, hx, _, rfl, rfl⟩
      | toIntStr hx h => exact ⟨_, hx, _, (intS_iff _ _).mpr h, rfl⟩
      | toIntBytes hx h => exact ⟨_, hx, _, (intB_iff _ _).mpr h, rfl⟩
      | toIntFlt hx h => exact ⟨_, hx, _, h, rfl⟩
  | tri a iha =>
    simp only [evalE, bind_iff, pure, Except.pure, Except.ok.injEq, iha, asInt_iff]
    constructor
    · rintro ⟨_, hx, x, rfl, rfl⟩
      refine .tri hx ?_
      obtain ⟨r, hr⟩ := tri_even x
      rw [hr, Int.fdiv_eq_ediv_of_nonneg _ (by omega)]
      omega
    · intro h
      cases h with
      | tri hx h => exact ⟨_, hx, _, rfl, by rw [← h, Int.fdiv_eq_ediv_of_nonneg _ (by omega)]; congr 1; omega⟩

theorem look_iff {d : Desc} (hd : d.causal = true) (S : Store P.F) (nm : Name) (k : Key) (v : Val P.F) :
    look P d.tab S nm k = .ok v ↔ Shows P d S nm k v := by
  have hC := Desc.causalTab hd
  unfold look lookVia Shows
  constructor
  · intro h
    split at h
    · cases h
    · rename_i n hn
      split at h
      · cases h
      · rename_i fi hfi
        split at h
        · cases h
        · rename_i hne
          rw [getF_budget P hC S hfi] at h
          exact ⟨n, fi, hn, hfi, by
            rw [ne_eq, Decidable.not_not] at hne
            exact hne ▸ Iff.rfl, h⟩
  · rintro ⟨n, fi, hn, hfi, hk, h⟩
    simp only [hn, hfi]
    rw [if_neg (by rw [propext hk]; simp), getF_budget P hC S hfi]
    exact h

theorem means_iff {d : Desc} (hd : d.causal = true) (S : Store P.F) (key : Key) (e : Expr) (v : Val P.F) :
    evalE P (look P d.tab S) key e = .ok v ↔ Means P (Shows P d S) key e v := by
  rw [eval_iff]
  have : (fun nm k v => look P d.tab S nm k = .ok v) = Shows P d S := by
    funext nm k v
    exact propext (look_iff P hd S nm k v)
  rw [this]

theorem count_iff {d : Desc} (hd : d.causal = true) (S : Store P.F) (key : Key) (e : Expr) (c : Int) :
    evalShape P (look P d.tab S) e key = .ok c ↔ Count P d S e key c := by
  unfold evalShape Count
  rw [← means_iff P hd, ← means_iff P hd]
  cases h : evalE P (look P d.tab S) key e with
  | error x => simp
  | ok v => cases v <;> simp [eq_comm]

theorem within_iff {d : Desc} (hd : d.causal = true) (S : Store P.F) (fi : FInfo) (key : Key) :
    InShape d.tab S fi key ↔ Within P d S fi key := by
  unfold InShape Within FInfo.depth
  constructor
  · rintro ⟨h1, h2⟩
    refine ⟨h1, fun j e i he hi => ?_⟩
    obtain ⟨e', i', c, a1, a2, a3, a4, a5⟩ := h2 j (lt_of_getElem? he)
    rw [he] at a1
    rw [hi] at a2
    injection a1 with a1
    injection a2 with a2
    subst a1 a2
    exact ⟨a4, c, (count_iff P hd S _ _ _).mp a3, a5⟩
  · rintro ⟨h1, h2⟩
    refine ⟨h1, fun j hj => ?_⟩
    obtain ⟨a, c, b1, b2⟩ := h2 j (fi.shapes[j]) (key[j]) (List.getElem?_eq_getElem hj)
      (List.getElem?_eq_getElem (by omega))
    exact ⟨_, _, c, List.getElem?_eq_getElem hj, List.getElem?_eq_getElem (by omega),
      (count_iff P hd S _ _ _).mpr b1, a, b2⟩

theorem holding_iff {d : Desc} (hd : d.causal = true) (S : Store P.F) (fi : FInfo) (key : Key) :
    evalCond P (look P d.tab S) fi key = .ok true ↔ Holding P d S fi key := by
  unfold evalCond Holding
  cases hc : fi.fd.cond with
  | none => simp
  | some e =>
    simp only [Option.some.injEq, forall_eq']
    constructor
    · intro h
      cases he : evalE P (look P d.tab S) key e with
      | error x => rw [he] at h; cases h
      | ok v =>
        rw [he] at h
        simp only [Except.map, Except.ok.injEq] at h
        exact ⟨v, (means_iff P hd S key e v).mp he, (truth_iff P v).mp h⟩
    · rintro ⟨v, h1, h2⟩
      rw [(means_iff P hd S key e v).mpr h1]
      simp only [Except.map, (truth_iff P v).mpr h2]

theorem absent_iff {d : Desc} (hd : d.causal = true) (S : Store P.F) (fi : FInfo) (key : Key) :
    evalCond P (look P d.tab S) fi key = .ok false ↔
      ∃ e v, fi.fd.cond = some e ∧ Means P (Shows P d S) key e v ∧ ¬ Truth P v := by
  unfold evalCond
  cases hc : fi.fd.cond with
  | none => simp
  | some e =>
    dsimp only
    constructor
    · intro h
      cases he : evalE P (look P d.tab S) key e with
      | error x => rw [he] at h; cases h
      | ok v =>
        rw [he] at h
        simp only [Except.map, Except.ok.injEq] at h
        exact ⟨e, v, rfl, (means_iff P hd S key e v).mp he, (truth_not P v).mp h⟩
    · rintro ⟨e', v, h0, h1, h2⟩
      injection h0 with h0
      subst h0
      rw [(means_iff P hd S key _ v).mpr h1]
      simp only [Except.map, (truth_not P v).mpr h2]

theorem sized_of {d : Desc} (hd : d.causal = true) {S : Store P.F} {fi : FInfo} {key : Key} {z : Int}
    (h : evalSize P (look P d.tab S) fi key = .ok z) : Sized P d S fi key z := by
  unfold evalSize at h
  cases hs : fi.fd.size with
  | const n =>
    simp only [hs] at h
    injection h with h
    by_cases hn : n = 0
    · subst hn
      rw [if_neg (by simp)] at h
      subst h
      exact .zeroConst hs
    · rw [if_pos (by omega)] at h
      subst h
      exact .const hs hn
  | expr e =>
    simp only [hs] at h
    cases he : evalE P (look P d.tab S) key e with
    | error x => rw [he] at h; cases h
    | ok v =>
      simp only [he] at h
      cases hv : asInt v with
      | error x => rw [hv] at h; cases h
      | ok y =>
        rw [hv] at h
        rw [(asInt_iff P v y).mp hv] at he
        have hm := (means_iff P hd S key e _).mp he
        injection h with h
        by_cases hn : y = 0
        · subst hn
          rw [if_neg (by simp)] at h
          subst h
          exact .zero hs hm
        · rw [if_pos hn] at h
          subst h
          exact .expr hs hm hn

theorem slots_iff {d : Desc} (hd : d.causal = true) {S : Store P.F} {cs : List Chunk}
    (hl : layout P d S = .ok (cs.map Chunk.slot)) :
    (∀ n fi key, d.tab[n]? = some fi →
      ((∃ ch ∈ cs, ch.pos = n ∧ ch.key = key) ↔ Within P d S fi key ∧ Holding P d S fi key)) ∧
    ∀ ch ∈ cs, ∃ fi, d.tab[ch.pos]? = some fi ∧ Sized P d S fi ch.key ch.bytes.length := by
  constructor
  · intro n fi key hn
    obtain ⟨ks, h1, _, h3⟩ := layout_keys hd hl hn
    rw [← within_iff P hd, ← mem_fieldKeys h1, ← holding_iff P hd]
    have hp : ∀ k, present (look P d.tab S) fi k = true ↔ evalCond P (look P d.tab S) fi k = .ok true := by
      intro k
      unfold present
      cases evalCond P (look P d.tab S) fi k <;> simp
    rw [← hp, ← List.mem_filter, ← h3]
    simp only [List.mem_map, List.mem_filter]
    constructor
    · rintro ⟨ch, hch, rfl, rfl⟩
      exact ⟨ch.slot, ⟨⟨ch, hch, rfl⟩, by simp [Chunk.slot]⟩, rfl⟩
    · rintro ⟨s, ⟨⟨ch, hch, rfl⟩, hpos⟩, rfl⟩
      exact ⟨ch, hch, by simpa [Chunk.slot] using hpos, rfl⟩
  · intro ch hch
    obtain ⟨fi, g1, g2⟩ := layout_size P S d 0 [] _ hl ch.slot (List.mem_map_of_mem hch)
    exact ⟨fi, g1, sized_of P hd g2⟩

/-- C86, writing: the pieces written are those of the elements within the loops whose condition
holds, each of the size its expression means. -/
theorem C86_written {d : Desc} (hd : d.causal = true) {S : Store P.F} {cs : List Chunk}
    (hw : writeChunks P d S = .ok cs) :
    (∀ n fi key, d.tab[n]? = some fi →
      ((∃ ch ∈ cs, ch.pos = n ∧ ch.key = key) ↔ Within P d S fi key ∧ Holding P d S fi key)) ∧
    ∀ ch ∈ cs, ∃ fi, d.tab[ch.pos]? = some fi ∧ Sized P d S fi ch.key ch.bytes.length :=
  slots_iff P hd (writeD_layout P S d 0 [] cs hw)

/-- C86, reading: the bytes consumed are the pieces of these elements of the record that was read. -/
theorem C86_read {d : Desc} (hd : d.causal = true) {lit : Bool} {R0 R : Store P.F}
    {b rest : Bytes} (h : readInto P d lit R0 b = .ok (R, rest)) :
    ∃ cs : List Chunk, b = (cs.map Chunk.bytes).flatten ++ rest ∧
      (∀ n fi key, d.tab[n]? = some fi →
        ((∃ ch ∈ cs, ch.pos = n ∧ ch.key = key) ↔ Within P d R fi key ∧ Holding P d R fi key)) ∧
      ∀ ch ∈ cs, ∃ fi, d.tab[ch.pos]? = some fi ∧ Sized P d R fi ch.key ch.bytes.length := by
  obtain ⟨ins, hb, _, hl, _, _⟩ := readInto_facts P hd h
  exact ⟨ins, hb, slots_iff P hd hl⟩

/-- C86, access: within the loops, a field whose condition does not hold shows None and cannot be
assigned. -/
theorem C86_absent {d : Desc} (hd : d.causal = true) {S : Store P.F} {n : Nat} {fi : FInfo} {key : Key}
    (hn : d.tab[n]? = some fi) (hnm : fi.fd.name ≠ none) (hw : Within P d S fi key) {e : Expr} {v : Val P.F}
    (hc : fi.fd.cond = some e) (hm : Means P (Shows P d S) key e v) (hv : ¬ Truth P v) :
    getItem P d.tab S n key = .ok .none ∧
      ∀ w, ∃ x, setItem P d.tab S n key w = (S, some x) :=
  have ha := (absent_iff P hd S fi key).mpr ⟨e, v, hc, hm, hv⟩
  ⟨C11_reads_none P hn hnm (checkIndex_inShape ((within_iff P hd S fi key).mpr hw)) ha,
    C11_set_raises P hn ha⟩

/-- C86, the meaning is unique. -/
theorem C86_one_value {d : Desc} (hd : d.causal = true) {S : Store P.F} {key : Key} {e : Expr} {v w : Val P.F}
    (hv : Means P (Shows P d S) key e v) (hw : Means P (Shows P d S) key e w) : v = w := by
  have h1 := (means_iff P hd S key e v).mpr hv
  rw [(means_iff P hd S key e w).mpr hw] at h1
  injection h1 with h1
  exact h1.symm

/-- C86 for the shipped tables. -/
theorem C86_shipped {t : String × Desc} (ht : t ∈ Tables.all) :
    (∀ (S : Store P.F) (cs : List Chunk), writeChunks P t.2 S = .ok cs →
      (∀ n fi key, t.2.tab[n]? = some fi →
        ((∃ ch ∈ cs, ch.pos = n ∧ ch.key = key) ↔ Within P t.2 S fi key ∧ Holding P t.2 S fi key)) ∧
      ∀ ch ∈ cs, ∃ fi, t.2.tab[ch.pos]? = some fi ∧ Sized P t.2 S fi ch.key ch.bytes.length) ∧
    ∀ (lit : Bool) (R0 R : Store P.F) (b rest : Bytes), readInto P t.2 lit R0 b = .ok (R, rest) →
      ∃ cs : List Chunk, b = (cs.map Chunk.bytes).flatten ++ rest ∧
        (∀ n fi key, t.2.tab[n]? = some fi →
          ((∃ ch ∈ cs, ch.pos = n ∧ ch.key = key) ↔ Within P t.2 R fi key ∧ Holding P t.2 R fi key)) ∧
        ∀ ch ∈ cs, ∃ fi, t.2.tab[ch.pos]? = some fi ∧ Sized P t.2 R fi ch.key ch.bytes.length :=
  ⟨fun _ _ hw => C86_written P (tables_causal t ht) hw,
    fun _ _ _ _ _ h => C86_read P (tables_causal t ht) h⟩

/-! ### Concrete cases -/

/-- In `exStore`, `flag[1]` is N, so the condition of `val[1]` means 0. -/
example : Means P0 (Shows P0 exDesc exStore) [1]
    (.eq (.ref (n!"flag") [0]) (.const (.str "Y"))) (.int 0) := by
  refine .eq (x := .str ['N']) (y := .str ['Y']) (.ref (k := [1]) rfl ?_) (.const (.str "Y")) (.no ?_)
  · exact ⟨1, (exDesc.tab)[1], by decide, rfl, by decide, by decide +kernel⟩
  · intro h; cases h

example : getItem P0 exDesc.tab exStore 2 [1] = .ok .none ∧
    ∀ w, ∃ x, setItem P0 exDesc.tab exStore 2 [1] w = (exStore, some x) := by
  refine C86_absent P0 exDesc_causal (fi := (exDesc.tab)[2]) rfl (by decide) ?_ rfl
    (v := .int 0) ?_ (by simp [Truth])
  · refine ⟨rfl, fun j e i he hi => ?_⟩
    cases j with
    | zero =>
      simp only [List.getElem?_cons_zero, Option.some.injEq] at hi
      subst hi
      refine ⟨by decide, 3, .inl ?_, by decide⟩
      have : e = .ref (n!"num") [] := by
        have h0 : ((exDesc.tab)[2]).shapes[0]? = some (.ref (n!"num") []) := rfl
        rw [h0] at he
        injection he with he
        exact he.symm
      subst this
      exact .ref (k := []) rfl ⟨0, (exDesc.tab)[0], by decide, rfl, by decide, by decide +kernel⟩
    | succ j => simp at hi
  · refine .eq (x := .str ['N']) (y := .str ['Y']) (.ref (k := [1]) rfl ?_) (.const (.str "Y")) (.no ?_)
    · exact ⟨1, (exDesc.tab)[1], by decide, rfl, by decide, by decide +kernel⟩
    · intro h; cases h

/-- Floor division and bits: `(-7) // 2 = -4`, `6 & 3 = 2`. -/
example : Means P0 (fun _ _ _ => False) [] (.fdiv (.const (.int (-7))) (.const (.int 2))) (.int (-4)) :=
  .fdiv (.const (.int _)) (.const (.int _)) (.inl (by decide))

example : evalE P0 (fun _ _ => .error .attr) [] (.band (.const (.int 6)) (.const (.int 3))) = .ok (.int 2) := by
  decide +kernel

end Verif.Sense
