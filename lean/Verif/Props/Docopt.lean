import Verif.Docopt

/- C48: the attribute interface to command lines (model in `Verif/Docopt.lean`). -/

namespace Verif

/-! ### Specification -/

def IsSign (s : List Char) : Prop := s = [] ∨ s = ['+'] ∨ s = ['-']

/-- One or more ASCII digits. -/
def IsDigits (s : List Char) : Prop := s ≠ [] ∧ ∀ c ∈ s, ascDigit c = true

def IsExp (e : List Char) : Prop :=
  e = [] ∨ ∃ c s ds, (c = 'e' ∨ c = 'E') ∧ IsSign s ∧ IsDigits ds ∧ e = c :: (s ++ ds)

/-- `12`, `12.`, `1.2` or `.2`. -/
def IsMantissa (m : List Char) : Prop :=
  IsDigits m ∨ (∃ a, IsDigits a ∧ m = a ++ ['.']) ∨
    ∃ a b, (∀ c ∈ a, ascDigit c = true) ∧ IsDigits b ∧ m = a ++ '.' :: b

/-- The value of a string of digits. -/
def placeValue (D : PyDigits) : List Char → Nat
  | [] => 0
  | c :: r => (D.val c).getD 0 * 10 ^ r.length + placeValue D r

/-- `w` looks like an integer, and is the integer `z`. -/
def IntLike (D : PyDigits) (w : List Char) (z : Int) : Prop :=
  ∃ s ds, IsSign s ∧ ds ≠ [] ∧ (∀ c ∈ ds, (D.val c).isSome = true) ∧ w = s ++ ds ∧
    z = if s = ['-'] then - (placeValue D ds : Int) else placeValue D ds

/-- `w` looks like a floating point number. -/
def FloatLike (w : List Char) : Prop :=
  ∃ s m e, IsSign s ∧ IsMantissa m ∧ IsExp e ∧ w = s ++ m ++ e

/-- `v` is `w`, perhaps with a newline at the end. -/
def UpToNewline (v w : List Char) : Prop := v = w ∨ v = w ++ ['\n']

/-- What a value given on the command line becomes. -/
inductive Converted {α : Type} (D : PyDigits) : DocVal α → DocVal α → Prop
  | int {v w z} : UpToNewline v w → IntLike D w z → Converted D (.text v) (.int z)
  | float {v w} : UpToNewline v w → FloatLike w → (∀ w', UpToNewline v w' → ∀ z, ¬ IntLike D w' z) →
      Converted D (.text v) (.float v)
  | text {v} : (∀ w, UpToNewline v w → (∀ z, ¬ IntLike D w z) ∧ ¬ FloatLike w) →
      Converted D (.text v) (.text v)
  | keep {v} : (∀ s, v ≠ .text s) → Converted D v v

/-! ### The regular expressions -/

theorem rems_one {p : Char → Bool} {s t : List Char} :
    t ∈ (Re.one p).rems s ↔ ∃ c, s = c :: t ∧ p c = true := by
  cases s with
  | nil => simp [Re.rems, oneRems]
  | cons c s =>
    simp only [Re.rems, oneRems, List.cons.injEq]
    split
    · rename_i h
      simp only [List.mem_singleton]
      exact ⟨fun e => ⟨c, ⟨rfl, e.symm⟩, h⟩, fun ⟨_, e, _⟩ => e.2.symm⟩
    · rename_i h
      simp only [List.not_mem_nil, false_iff]
      rintro ⟨c', ⟨rfl, _⟩, h'⟩
      exact h h'

theorem rems_seq {a b : Re} {s t : List Char} :
    t ∈ (Re.seq a b).rems s ↔ ∃ m, m ∈ a.rems s ∧ t ∈ b.rems m := by
  simp only [Re.rems, List.mem_flatMap]

theorem rems_opt {a : Re} {s t : List Char} : t ∈ (Re.opt a).rems s ↔ t ∈ a.rems s ∨ t = s := by
  simp [Re.rems]

theorem rems_many {p : Char → Bool} : ∀ {s t : List Char},
    t ∈ (Re.many p).rems s ↔ ∃ u, s = u ++ t ∧ ∀ c ∈ u, p c = true
  | [], t => by
    simp only [Re.rems, manyRems, List.mem_singleton]
    constructor
    · rintro rfl
      exact ⟨[], rfl, by simp⟩
    · rintro ⟨u, h, _⟩
      exact (List.append_eq_nil_iff.mp h.symm).2
  | c :: s, t => by
    simp only [Re.rems, manyRems, List.mem_append, List.mem_singleton]
    constructor
    · rintro (h | rfl)
      · split at h
        · rename_i hp
          obtain ⟨u, rfl, hu⟩ := rems_many.mp (show _ ∈ (Re.many p).rems s from h)
          exact ⟨c :: u, rfl, by simpa [hp] using hu⟩
        · cases h
      · exact ⟨[], rfl, by simp⟩
    · rintro ⟨u, h, hu⟩
      cases u with
      | nil => exact Or.inr h.symm
      | cons d u =>
        rw [List.cons_append] at h
        injection h with h1 h2
        subst h1
        left
        rw [if_pos (hu c List.mem_cons_self)]
        exact rems_many.mpr ⟨u, h2, fun x hx => hu x (List.mem_cons_of_mem _ hx)⟩

theorem rems_eos {s t : List Char} : t ∈ Re.eos.rems s ↔ t = s ∧ (s = [] ∨ s = ['\n']) := by
  simp only [Re.rems]
  split
  · rename_i h
    simp [h]
  · rename_i h
    simp [h]

theorem rems_some {p : Char → Bool} {s t : List Char} :
    t ∈ (Re.some p).rems s ↔ ∃ u, s = u ++ t ∧ u ≠ [] ∧ ∀ c ∈ u, p c = true := by
  simp only [Re.some, rems_seq, rems_one, rems_many]
  constructor
  · rintro ⟨m, ⟨c, rfl, hc⟩, u, rfl, hu⟩
    exact ⟨c :: u, rfl, by simp, by simpa [hc] using hu⟩
  · rintro ⟨u, rfl, hne, hu⟩
    cases u with
    | nil => exact absurd rfl hne
    | cons c u =>
      exact ⟨u ++ t, ⟨c, rfl, hu c List.mem_cons_self⟩, u, rfl,
        fun x hx => hu x (List.mem_cons_of_mem _ hx)⟩

theorem rems_sign {s t : List Char} : t ∈ Re.sign.rems s ↔ ∃ u, s = u ++ t ∧ IsSign u := by
  simp only [Re.sign, rems_opt, rems_one, IsSign]
  constructor
  · rintro (⟨c, rfl, hc⟩ | rfl)
    · simp only [Bool.or_eq_true, beq_iff_eq] at hc
      refine ⟨[c], rfl, ?_⟩
      rcases hc with rfl | rfl <;> simp
    · exact ⟨[], rfl, Or.inl rfl⟩
  · rintro ⟨u, rfl, rfl | rfl | rfl⟩
    · exact Or.inr rfl
    · exact Or.inl ⟨'+', rfl, rfl⟩
    · exact Or.inl ⟨'-', rfl, rfl⟩

theorem rems_exp {s t : List Char} : t ∈ Re.exponent.rems s ↔ ∃ u, s = u ++ t ∧ IsExp u := by
  simp only [Re.exponent, rems_opt, rems_seq, rems_one, rems_sign, rems_some]
  constructor
  · rintro (⟨m, ⟨c, rfl, hc⟩, m2, ⟨g, rfl, hg⟩, ds, rfl, h1, h2⟩ | rfl)
    · simp only [Bool.or_eq_true, beq_iff_eq] at hc
      exact ⟨c :: (g ++ ds), by simp, Or.inr ⟨c, g, ds, hc, hg, ⟨h1, h2⟩, rfl⟩⟩
    · exact ⟨[], rfl, Or.inl rfl⟩
  · rintro ⟨u, rfl, rfl | ⟨c, g, ds, hc, hg, hd, rfl⟩⟩
    · exact Or.inr rfl
    · exact Or.inl ⟨g ++ ds ++ t, ⟨c, rfl, by simpa using hc⟩, ds ++ t, ⟨g, by simp, hg⟩, ds, rfl,
        hd.1, hd.2⟩

theorem matches_iff {r : Re} {s : List Char} : r.matches s = true ↔ ∃ t, t ∈ r.rems s := by
  unfold Re.matches
  cases r.rems s with
  | nil => simp
  | cons a l => simp

theorem eos_up {v w t : List Char} (h : v = w ++ t) (ht : t = [] ∨ t = ['\n']) : UpToNewline v w := by
  rcases ht with rfl | rfl
  · exact Or.inl (by simpa using h)
  · exact Or.inr h

theorem UpToNewline.tail {v w : List Char} (h : UpToNewline v w) :
    ∃ t, v = w ++ t ∧ (t = [] ∨ t = ['\n']) := by
  rcases h with rfl | rfl
  · exact ⟨[], by simp, Or.inl rfl⟩
  · exact ⟨_, rfl, Or.inr rfl⟩

theorem intRe_iff (D : PyDigits) {v : List Char} :
    (intRe D).matches v = true ↔ ∃ w z, UpToNewline v w ∧ IntLike D w z := by
  rw [matches_iff]
  simp only [intRe, rems_seq, rems_sign, rems_some, rems_eos]
  constructor
  · rintro ⟨t, m, ⟨s, rfl, hs⟩, m2, ⟨ds, rfl, h1, h2⟩, rfl, ht⟩
    exact ⟨s ++ ds, _, eos_up (by simp) ht, s, ds, hs, h1, h2, rfl, rfl⟩
  · rintro ⟨w, z, hu, s, ds, hs, h1, h2, rfl, _⟩
    obtain ⟨t, rfl, ht⟩ := hu.tail
    exact ⟨t, ds ++ t, ⟨s, by simp, hs⟩, t, ⟨ds, rfl, h1, h2⟩, rfl, ht⟩

theorem fltRe_iff {v : List Char} :
    (fltRe1.matches v = true ∨ fltRe2.matches v = true) ↔ ∃ w, UpToNewline v w ∧ FloatLike w := by
  rw [matches_iff, matches_iff]
  simp only [fltRe1, fltRe2, rems_seq, rems_sign, rems_some, rems_many, rems_opt, rems_one, rems_exp,
    rems_eos]
  constructor
  · rintro (⟨t, m, ⟨s, rfl, hs⟩, m2, ⟨a, rfl, ha⟩, m3, hdot, m4, ⟨b, rfl, hb1, hb2⟩, m5,
      ⟨e, rfl, he⟩, rfl, ht⟩ |
      ⟨t, m, ⟨s, rfl, hs⟩, m2, ⟨a, rfl, ha1, ha2⟩, m3, ⟨c, rfl, hc⟩, m4, ⟨e, rfl, he⟩, rfl, ht⟩)
    · rcases hdot with ⟨c, rfl, hc⟩ | rfl
      · simp only [beq_iff_eq] at hc
        subst hc
        exact ⟨s ++ (a ++ '.' :: b) ++ e, eos_up (by simp) ht, s, _, e, hs,
          Or.inr (Or.inr ⟨a, b, ha, ⟨hb1, hb2⟩, rfl⟩), he, rfl⟩
      · refine ⟨s ++ (a ++ b) ++ e, eos_up (by simp) ht, s, _, e, hs, Or.inl ⟨by simp [hb1], ?_⟩, he,
          rfl⟩
        intro c hc
        rcases List.mem_append.mp hc with h | h
        · exact ha c h
        · exact hb2 c h
    · simp only [beq_iff_eq] at hc
      subst hc
      exact ⟨s ++ (a ++ ['.']) ++ e, eos_up (by simp) ht, s, _, e, hs,
        Or.inr (Or.inl ⟨a, ⟨ha1, ha2⟩, rfl⟩), he, rfl⟩
  · rintro ⟨w, hu, s, m, e, hs, hm, he, rfl⟩
    obtain ⟨t, rfl, ht⟩ := hu.tail
    rcases hm with hm | ⟨a, ha, rfl⟩ | ⟨a, b, ha, hb, rfl⟩
    · exact Or.inl ⟨t, m ++ e ++ t, ⟨s, by simp, hs⟩, m ++ e ++ t, ⟨[], rfl, by simp⟩, m ++ e ++ t,
        Or.inr rfl, e ++ t, ⟨m, by simp, hm.1, hm.2⟩, t, ⟨e, rfl, he⟩, rfl, ht⟩
    · exact Or.inr ⟨t, a ++ ['.'] ++ e ++ t, ⟨s, by simp, hs⟩, '.' :: (e ++ t),
        ⟨a, by simp, ha.1, ha.2⟩, e ++ t, ⟨'.', rfl, rfl⟩, t, ⟨e, rfl, he⟩, rfl, ht⟩
    · exact Or.inl ⟨t, a ++ '.' :: b ++ e ++ t, ⟨s, by simp, hs⟩, '.' :: (b ++ e ++ t),
        ⟨a, by simp, ha⟩, b ++ e ++ t, Or.inl ⟨'.', rfl, rfl⟩, e ++ t, ⟨b, by simp, hb.1, hb.2⟩, t,
        ⟨e, rfl, he⟩, rfl, ht⟩

/-! ### The value of an integer -/

/-- The loop of `int`. -/
def digitsFrom (D : PyDigits) (l : List Char) (n : Nat) : Nat :=
  l.foldl (fun n c => match D.val c with
    | some k => 10 * n + k
    | none => n) n

theorem digitsFrom_eq (D : PyDigits) {t : List Char} (ht : t = [] ∨ t = ['\n']) : ∀ (ds : List Char)
    (n : Nat), (∀ c ∈ ds, (D.val c).isSome = true) →
    digitsFrom D (ds ++ t) n = n * 10 ^ ds.length + placeValue D ds
  | [], n, _ => by
    rcases ht with rfl | rfl
    · simp [digitsFrom, placeValue]
    · simp [digitsFrom, placeValue, D.sign.2.2]
  | c :: ds, n, h => by
    obtain ⟨k, hk⟩ := Option.isSome_iff_exists.mp (h c List.mem_cons_self)
    have ih := digitsFrom_eq D ht ds (10 * n + k) fun x hx => h x (List.mem_cons_of_mem _ hx)
    have : digitsFrom D (c :: ds ++ t) n = digitsFrom D (ds ++ t) (10 * n + k) := by
      simp [digitsFrom, hk]
    rw [this, ih, placeValue, hk]
    simp only [Option.getD_some, List.length_cons, Nat.pow_succ, Nat.add_mul]
    rw [← Nat.add_assoc, Nat.mul_comm 10 n, Nat.mul_assoc, Nat.mul_comm 10 (10 ^ _)]

theorem pyIntText_eq (D : PyDigits) {v w : List Char} {z : Int} (hu : UpToNewline v w)
    (h : IntLike D w z) : pyIntText D v = z := by
  obtain ⟨s, ds, hs, hne, hd, rfl, rfl⟩ := h
  obtain ⟨t, rfl, ht⟩ := hu.tail
  have key : ∀ l, l = ds ++ t → digitsFrom D l 0 = placeValue D ds := by
    rintro l rfl
    rw [digitsFrom_eq D ht ds 0 hd]
    simp
  rcases hs with rfl | rfl | rfl
  · cases ds with
    | nil => exact absurd rfl hne
    | cons c ds =>
      have h1 : c ≠ '-' := by
        rintro rfl
        have := hd '-' List.mem_cons_self
        rw [D.sign.2.1] at this
        cases this
      have h2 : c ≠ '+' := by
        rintro rfl
        have := hd '+' List.mem_cons_self
        rw [D.sign.1] at this
        cases this
      rw [if_neg (by simp)]
      rw [← key _ rfl]
      unfold pyIntText digitsFrom
      simp only [List.nil_append, List.cons_append]
      split
      · rename_i heq; injection heq with e _; exact absurd e h1
      · rename_i heq; injection heq with e _; exact absurd e h2
      · rfl
  · rw [if_neg (by simp), ← key _ rfl]
    rfl
  · rw [if_pos rfl, ← key _ rfl]
    rfl

/-! ### C48 -/

/-- C48.  Every value is converted as specified. -/
theorem C48_converted {α : Type} (D : PyDigits) (v : DocVal α) : Converted D v (findType D v) := by
  cases v with
  | text s =>
    unfold findType
    simp only
    by_cases h1 : (intRe D).matches s = true
    · rw [if_pos h1]
      obtain ⟨w, z, hu, hz⟩ := (intRe_iff D).mp h1
      rw [pyIntText_eq D hu hz]
      exact .int hu hz
    · rw [if_neg h1]
      have hi : ∀ w, UpToNewline s w → ∀ z, ¬ IntLike D w z :=
        fun w hu z hz => h1 ((intRe_iff D).mpr ⟨w, z, hu, hz⟩)
      by_cases h2 : fltRe1.matches s = true ∨ fltRe2.matches s = true
      · have : (if fltRe1.matches s = true then DocVal.float s
            else if fltRe2.matches s = true then .float s else .text s : DocVal α) = .float s := by
          by_cases h3 : fltRe1.matches s = true
          · rw [if_pos h3]
          · rw [if_neg h3, if_pos (h2.resolve_left h3)]
        rw [this]
        obtain ⟨w, hu, hf⟩ := fltRe_iff.mp h2
        exact .float hu hf hi
      · rw [not_or] at h2
        rw [if_neg h2.1, if_neg h2.2]
        exact .text fun w hu => ⟨hi w hu, fun hf => not_or.mpr h2 (fltRe_iff.mpr ⟨w, hu, hf⟩)⟩
  | other x => exact .keep (by simp)
  | int z => exact .keep (by simp)
  | float s => exact .keep (by simp)

/-- The specification leaves no choice. -/
theorem Converted.unique {α : Type} {D : PyDigits} {v r : DocVal α} (h : Converted D v r) :
    r = findType D v := by
  have hf := C48_converted D v
  generalize findType D v = q at hf
  cases h with
  | int h1 h2 =>
    cases hf with
    | int h3 h4 => rw [← pyIntText_eq D h1 h2, ← pyIntText_eq D h3 h4]
    | float _ _ h3 => exact absurd h2 (h3 _ h1 _)
    | text h3 => exact absurd h2 ((h3 _ h1).1 _)
    | keep h3 => exact absurd rfl (h3 _)
  | float h1 h2 h3 =>
    cases hf with
    | int h4 h5 => exact absurd h5 (h3 _ h4 _)
    | float _ _ _ => rfl
    | text h4 => exact absurd h2 (h4 _ h1).2
    | keep h4 => exact absurd rfl (h4 _)
  | text h1 =>
    cases hf with
    | int h4 h5 => exact absurd h5 ((h1 _ h4).1 _)
    | float h4 h5 _ => exact absurd h5 (h1 _ h4).2
    | text _ => rfl
    | keep h4 => exact absurd rfl (h4 _)
  | keep h1 =>
    cases hf with
    | int _ _ => exact absurd rfl (h1 _)
    | float _ _ _ => exact absurd rfl (h1 _)
    | text _ => exact absurd rfl (h1 _)
    | keep _ => rfl

/-- C48.  The attribute is the first of `name`, `<name>`, `--name` and `--name` with `-` for `_` that
the command line has, converted; with none of them there is an AttributeError. -/
theorem C48_lookup {α : Type} (D : PyDigits) (args : List Char → Option (DocVal α))
    (name : List Char) :
    let k1 := name
    let k2 := "<".toList ++ name ++ ">".toList
    let k3 := "--".toList ++ name
    let k4 := "--".toList ++ name.map fun c => if c = '_' then '-' else c
    (∀ v, args k1 = some v → ∃ r, docGet D args name = some r ∧ Converted D v r) ∧
    (∀ v, args k1 = none → args k2 = some v → ∃ r, docGet D args name = some r ∧ Converted D v r) ∧
    (∀ v, args k1 = none → args k2 = none → args k3 = some v →
      ∃ r, docGet D args name = some r ∧ Converted D v r) ∧
    (∀ v, args k1 = none → args k2 = none → args k3 = none → args k4 = some v →
      ∃ r, docGet D args name = some r ∧ Converted D v r) ∧
    (args k1 = none → args k2 = none → args k3 = none → args k4 = none →
      docGet D args name = none) := by
  intro k1 k2 k3 k4
  have hk : docKeys name = [k1, k2, k3, k4] := rfl
  have hg : docGet D args name = [k1, k2, k3, k4].findSome? fun k => (args k).map (findType D) := by
    rw [← hk]; rfl
  rw [hg]
  refine ⟨?_, ?_, ?_, ?_, ?_⟩
  · intro v h
    exact ⟨findType D v, by simp [List.findSome?, h], C48_converted D v⟩
  · intro v h1 h
    exact ⟨findType D v, by simp [List.findSome?, h1, h], C48_converted D v⟩
  · intro v h1 h2 h
    exact ⟨findType D v, by simp [List.findSome?, h1, h2, h], C48_converted D v⟩
  · intro v h1 h2 h3 h
    exact ⟨findType D v, by simp [List.findSome?, h1, h2, h3, h], C48_converted D v⟩
  · intro h1 h2 h3 h4
    simp [List.findSome?, h1, h2, h3, h4]

/-- C48.  `name in options` says whether the attribute can be read. -/
theorem C48_contains {α : Type} (D : PyDigits) (args : List Char → Option (DocVal α))
    (name : List Char) : docHas args name = (docGet D args name).isSome := by
  unfold docHas docGet
  induction docKeys name with
  | nil => rfl
  | cons k ks ih =>
    rw [List.any_cons, ih]
    cases h : args k <;> simp [List.findSome?, h]

/-- C48.  Text that looks like neither, up to a final newline, is unchanged. -/
theorem C48_other_partial {α : Type} (D : PyDigits) {v : List Char}
    (hn : v.getLast? ≠ some '\n') (hi : ∀ z, ¬ IntLike D v z) (hf : ¬ FloatLike v) :
    findType (α := α) D (.text v) = .text v := by
  refine (Converted.unique (.text fun w hu => ?_)).symm
  rcases hu with rfl | rfl
  · exact ⟨hi, hf⟩
  · exact absurd (by simp) hn

/-! ### Concrete cases -/

/-- Only the ASCII digits. -/
def D0 : PyDigits where
  val c := if ascDigit c then some (c.toNat - 48) else none
  ascii c h1 h2 := by simp [ascDigit, h1, h2]
  sign := by decide

/-- Text that is not a number, being a number followed by a newline, is changed all the same. -/
theorem C48_newline :
    findType (α := Unit) D0 (.text "12\n".toList) = .int 12 ∧
      findType (α := Unit) D0 (.text "1.5\n".toList) = .float "1.5\n".toList := by decide +kernel

example : (["-12", "+007", "1.", ".5", "-1.5e+3", "1e5", "", "-", ".", "1e", "12a", "0x10", "1.2.3",
      "1_0", " 12", "nan"].map fun s => findType (α := Unit) D0 (.text s.toList)) =
    [.int (-12), .int 7, .float "1.".toList, .float ".5".toList, .float "-1.5e+3".toList,
     .float "1e5".toList, .text [], .text "-".toList, .text ".".toList, .text "1e".toList,
     .text "12a".toList, .text "0x10".toList, .text "1.2.3".toList, .text "1_0".toList,
     .text " 12".toList, .text "nan".toList] := by decide +kernel

/-- A command line with `--my-opt=3`, `<file>` and the command `file`. -/
def exArgs (k : List Char) : Option (DocVal Bool) :=
  if k = "--my-opt".toList then some (.text "3".toList)
  else if k = "<file>".toList then some (.text "a.ntf".toList)
  else if k = "file".toList then some (.other true)
  else none

example : docGet D0 exArgs "my_opt".toList = some (.int 3) ∧
    docGet D0 exArgs "file".toList = some (.other true) ∧
    docGet D0 exArgs "my".toList = none ∧ docHas exArgs "my_opt".toList = true := by decide +kernel

end Verif
