import Verif.DiffRefs
import Verif.Props.Tables

/-
C43: comparing two structures reports exactly the relevant differences.
-/

namespace Verif

variable (P : PyFloat)

/-! ### Specification -/

/-- The configuration asks for the field to be looked at: it is not excluded, and if fields to
include are given it is one of them. -/
def DiffConfig.Looked {F : Type} (c : DiffConfig F) (nm : Name) : Prop :=
  nm ∉ c.exclude ∧ (c.include_ = [] ∨ nm ∈ c.include_)

/-- A difference in the field makes the structures different. -/
def DiffConfig.Counts {F : Type} (c : DiffConfig F) (nm : Name) : Prop :=
  c.Looked nm ∧ nm ∉ c.excludeButWarn

/-- The value as a number. -/
def asNum : Val P.F → Option P.F
  | .flt x => some x
  | .int z => some (P.ofInt z)
  | _ => none

/-- Two values are the same under the comparison function of the field `nm`: the one supplied by
the user if there is one; for floating point both missing, or close; otherwise python `==`. -/
def SameValue (c : DiffConfig P.F) (nm : Name) (isFloat : Bool) (a b : Val P.F) : Prop :=
  match c.eqFun nm with
  | some f => f a b = .ok true
  | none =>
    if isFloat then
      (a = .none ∧ b = .none) ∨
        ∃ x y, asNum P a = some x ∧ asNum P b = some y ∧ c.close nm x y = .ok true
    else pyEq P a b = true

/-- A field is compared as floating point: a field in a loop by its declared type, a scalar by the
type of its value in the first structure. -/
def asFloat (fi : FInfo) (a : Val P.F) : Bool :=
  if fi.shapes = [] then a.isFlt else decide (fi.fd.ty = .flt)

/-- The field `nm` agrees in shape and in every element. -/
def Agrees (c : DiffConfig P.F) (d : Desc) (S1 S2 : Store P.F) (nm : Name) : Prop :=
  ∃ n fi, resolve d.tab nm = some n ∧ d.tab[n]? = some fi ∧
    Matches P (look P d.tab S1) (look P d.tab S2)
      (fun k => ∃ a b, getItem P d.tab S1 n k = .ok a ∧ getItem P d.tab S2 n k = .ok b ∧
        SameValue P c nm (asFloat P fi a) a b) fi.shapes []

/-- The loops around the innermost loop of the field have the same counts.  (Nothing for a scalar
or a field in a single loop.) -/
def OuterSame (d : Desc) (S1 S2 : Store P.F) (nm : Name) : Prop :=
  ∀ n fi, resolve d.tab nm = some n → d.tab[n]? = some fi →
    Matches P (look P d.tab S1) (look P d.tab S2) (fun _ => True) fi.shapes.dropLast []

variable {P}

/-! ### Proofs -/

theorem closeEq_iff (close : P.F → P.F → Except Err Bool) (a b : Val P.F) :
    closeEq P close a b = .ok true ↔ (a = .none ∧ b = .none) ∨
      ∃ x y, asNum P a = some x ∧ asNum P b = some y ∧ close x y = .ok true := by
  cases a <;> cases b <;> simp [closeEq, closeArg, asNum]

theorem cmpFun_iff (c : DiffConfig P.F) (nm : Name) (fl : Bool) (a b : Val P.F) :
    cmpFun P c nm fl a b = .ok true ↔ SameValue P c nm fl a b := by
  unfold cmpFun SameValue
  cases c.eqFun nm with
  | some f => rfl
  | none =>
    cases fl with
    | true => simp only [if_true]; exact closeEq_iff _ a b
    | false => simp

theorem equal_iff (c : DiffConfig P.F) (nm : Name) (fl : Val P.F → Bool)
    (x y : Except Err (Val P.F)) :
    (∃ a b, x = .ok a ∧ y = .ok b ∧ cmpFun P c nm (fl a) a b = .ok true) ↔
      ∃ a b, x = .ok a ∧ y = .ok b ∧ SameValue P c nm (fl a) a b := by
  simp only [cmpFun_iff]

theorem fetch_ok {d : Desc} {S : Store P.F} {nm : Name} {v : Fetched P.F}
    (h : fetch P d S nm = .ok v) : ∃ n fi, resolve d.tab nm = some n ∧ d.tab[n]? = some fi ∧
      ((fi.shapes = [] ∧ ∃ a, v = .scalar a ∧ getItem P d.tab S n [] = .ok a) ∨
        (fi.shapes ≠ [] ∧ v = .array n fi)) := by
  unfold fetch at h
  cases hr : resolve d.tab nm with
  | none => rw [hr] at h; cases h
  | some n =>
    rw [hr] at h
    simp only at h
    cases hn : d.tab[n]? with
    | none => rw [hn] at h; cases h
    | some fi =>
      rw [hn] at h
      simp only at h
      refine ⟨n, fi, rfl, hn, ?_⟩
      by_cases hd : fi.depth = 0
      · rw [if_pos hd] at h
        cases hg : getItem P d.tab S n [] with
        | error x => rw [hg] at h; cases h
        | ok a =>
          rw [hg] at h
          injection h with h
          exact .inl ⟨List.eq_nil_of_length_eq_zero hd, a, h.symm, rfl⟩
      · rw [if_neg hd] at h
        injection h with h
        exact .inr ⟨fun h0 => hd (by simp [FInfo.depth, h0]), h.symm⟩

theorem cmpFetched_iff {c : DiffConfig P.F} {d : Desc} {S1 S2 : Store P.F} {nm : Name}
    {v1 v2 : Fetched P.F} (h1 : fetch P d S1 nm = .ok v1) (h2 : fetch P d S2 nm = .ok v2) :
    (Agrees P c d S1 S2 nm → cmpFetched P c nm d d S1 S2 v1 v2 = .ok true) ∧
    (OuterSame P d S1 S2 nm → cmpFetched P c nm d d S1 S2 v1 v2 = .ok true →
      Agrees P c d S1 S2 nm) := by
  obtain ⟨n, fi, hr, hn, h1⟩ := fetch_ok h1
  obtain ⟨n', fi', hr', hn', h2⟩ := fetch_ok h2
  rw [hr] at hr'
  injection hr' with hr'
  subst hr'
  rw [hn] at hn'
  injection hn' with hn'
  subst hn'
  rcases h1 with ⟨hs, a, rfl, ha⟩ | ⟨hs, rfl⟩ <;> rcases h2 with ⟨hs', b, rfl, hb⟩ | ⟨hs', rfl⟩
  · constructor
    · rintro ⟨m, fj, e1, e2, e3⟩
      rw [hr] at e1
      injection e1 with e1
      subst e1
      rw [hn] at e2
      injection e2 with e2
      subst e2
      rw [hs] at e3
      obtain ⟨a', b', g1, g2, g3⟩ := e3
      rw [ha] at g1
      rw [hb] at g2
      injection g1 with g1
      injection g2 with g2
      subst g1 g2
      simp only [asFloat, hs, if_true] at g3
      exact (cmpFun_iff c nm _ _ _).mpr g3
    · intro _ h
      refine ⟨n, fi, hr, hn, ?_⟩
      rw [hs]
      refine ⟨a, b, ha, hb, ?_⟩
      simp only [asFloat, hs, if_true]
      exact (cmpFun_iff c nm _ _ _).mp h
  · exact absurd hs hs'
  · exact absurd hs' hs
  · have conv : ∀ k, Equal (cmpFun P c nm (decide (fi.fd.ty = .flt))) (getItem P d.tab S1 n k)
        (getItem P d.tab S2 n k) ↔ ∃ a b, getItem P d.tab S1 n k = .ok a ∧
          getItem P d.tab S2 n k = .ok b ∧ SameValue P c nm (asFloat P fi a) a b := by
      intro k
      unfold Equal asFloat
      simp only [hs, if_false, cmpFun_iff]
    constructor
    · rintro ⟨m, fj, e1, e2, e3⟩
      rw [hr] at e1
      injection e1 with e1
      subst e1
      rw [hn] at e2
      injection e2 with e2
      subst e2
      exact cmpArray_of hn hs (e3.mono fun k hk => (conv k).mpr hk)
    · intro ho h
      refine ⟨n, fi, hr, hn, ?_⟩
      exact ((cmpArray_iff hn hs (ho n fi hr hn)).mp h).mono fun k hk => (conv k).mp hk

/-- What the loop over the fields does. -/
theorem compareNames_ok {c : DiffConfig P.F} {d : Desc} {S1 S2 : Store P.F} {l : List Name}
    {b : Bool} {log : List Report} (h : compareNames P c d d S1 S2 l l = .ok (b, log)) :
    (b = true ↔ ∀ nm, .diff nm ∉ log) ∧ .fields ∉ log ∧
    (∀ nm, .diff nm ∈ log → nm ∈ l ∧ c.Counts nm) ∧
    (∀ nm, .ignored nm ∈ log → nm ∈ l ∧ c.Looked nm ∧ nm ∈ c.excludeButWarn) ∧
    ∀ nm ∈ l, ∃ v1 v2, fetch P d S1 nm = .ok v1 ∧ fetch P d S2 nm = .ok v2 ∧
      (c.Looked nm → ∃ e, cmpFetched P c nm d d S1 S2 v1 v2 = .ok e ∧
        (e = false ↔ .diff nm ∈ log ∨ .ignored nm ∈ log)) := by
  induction l generalizing b log with
  | nil =>
    simp only [compareNames, Except.ok.injEq, Prod.mk.injEq] at h
    obtain ⟨rfl, rfl⟩ := h
    simp
  | cons nm r ih =>
    simp only [compareNames] at h
    cases h1 : fetch P d S1 nm with
    | error x => rw [h1] at h; cases h
    | ok v1 =>
    cases h2 : fetch P d S2 nm with
    | error x => rw [h1, h2] at h; cases h
    | ok v2 =>
    rw [h1, h2] at h
    simp only [ne_eq, not_true, if_false] at h
    -- fields that are not looked at
    have skip : ¬ c.Looked nm → compareNames P c d d S1 S2 r r = .ok (b, log) →
        (b = true ↔ ∀ nm, .diff nm ∉ log) ∧ .fields ∉ log ∧
        (∀ nm', .diff nm' ∈ log → nm' ∈ nm :: r ∧ c.Counts nm') ∧
        (∀ nm', .ignored nm' ∈ log →
          nm' ∈ nm :: r ∧ c.Looked nm' ∧ nm' ∈ c.excludeButWarn) ∧
        ∀ nm' ∈ nm :: r, ∃ v1 v2, fetch P d S1 nm' = .ok v1 ∧ fetch P d S2 nm' = .ok v2 ∧
          (c.Looked nm' → ∃ e, cmpFetched P c nm' d d S1 S2 v1 v2 = .ok e ∧
            (e = false ↔ .diff nm' ∈ log ∨ .ignored nm' ∈ log)) := by
      intro hl hc
      obtain ⟨i1, i2, i3, i4, i5⟩ := ih hc
      refine ⟨i1, i2, fun nm' hm => ⟨List.mem_cons_of_mem _ (i3 nm' hm).1, (i3 nm' hm).2⟩,
        fun nm' hm => ⟨List.mem_cons_of_mem _ (i4 nm' hm).1, (i4 nm' hm).2⟩, ?_⟩
      intro nm' hm
      rcases List.mem_cons.mp hm with rfl | hm
      · exact ⟨v1, v2, h1, h2, fun hk => absurd hk hl⟩
      · exact i5 nm' hm
    by_cases he : nm ∈ c.exclude
    · rw [if_pos he] at h
      exact skip (fun hl => hl.1 he) h
    rw [if_neg he] at h
    by_cases hi : c.include_.length > 0 ∧ nm ∉ c.include_
    · rw [if_pos hi] at h
      refine skip (fun hl => ?_) h
      rcases hl.2 with h0 | h0
      · rw [h0] at hi; simp at hi
      · exact hi.2 h0
    rw [if_neg hi] at h
    have hl : c.Looked nm := by
      refine ⟨he, ?_⟩
      by_cases h0 : c.include_ = []
      · exact .inl h0
      · refine .inr (Classical.byContradiction fun hn => hi ⟨?_, hn⟩)
        exact List.length_pos_iff.mpr h0
    cases hcm : cmpFetched P c nm d d S1 S2 v1 v2 with
    | error x => rw [hcm] at h; cases h
    | ok same =>
    rw [hcm] at h
    simp only at h
    cases hrest : compareNames P c d d S1 S2 r r with
    | error x => rw [hrest] at h; cases h
    | ok bl =>
    obtain ⟨b', log'⟩ := bl
    obtain ⟨i1, i2, i3, i4, i5⟩ := ih hrest
    rw [hrest] at h
    simp only at h
    -- a name occurring again is compared with the same result
    have again : ∀ v v', fetch P d S1 nm = .ok v → fetch P d S2 nm = .ok v' →
        cmpFetched P c nm d d S1 S2 v v' = .ok same := by
      intro v v' g1 g2
      rw [h1] at g1
      rw [h2] at g2
      injection g1 with g1
      injection g2 with g2
      subst g1 g2
      exact hcm
    have key : ∀ {e v v'}, fetch P d S1 nm = .ok v → fetch P d S2 nm = .ok v' →
        cmpFetched P c nm d d S1 S2 v v' = .ok e → e = same := by
      intro e v v' g1 g2 g3
      rw [again v v' g1 g2] at g3
      injection g3 with g3
      exact g3.symm
    cases same with
    | true =>
      simp only [if_true, Except.ok.injEq, Prod.mk.injEq] at h
      obtain ⟨rfl, rfl⟩ := h
      refine ⟨i1, i2, fun nm' hm => ⟨List.mem_cons_of_mem _ (i3 nm' hm).1, (i3 nm' hm).2⟩,
        fun nm' hm => ⟨List.mem_cons_of_mem _ (i4 nm' hm).1, (i4 nm' hm).2⟩, ?_⟩
      intro nm' hm
      by_cases hmr : nm' ∈ r
      · exact i5 nm' hmr
      · rcases List.mem_cons.mp hm with rfl | hm
        · refine ⟨v1, v2, h1, h2, fun _ => ⟨true, hcm, ?_⟩⟩
          simp only [Bool.true_eq_false, false_iff, not_or]
          exact ⟨fun hx => hmr (i3 _ hx).1, fun hx => hmr (i4 _ hx).1⟩
        · exact absurd hm hmr
    | false =>
      simp only [Bool.false_eq_true, if_false] at h
      by_cases hw : nm ∈ c.excludeButWarn
      · rw [if_pos hw] at h
        simp only [Except.ok.injEq, Prod.mk.injEq] at h
        obtain ⟨rfl, rfl⟩ := h
        refine ⟨by simpa using i1, by simpa using i2, ?_, ?_, ?_⟩
        · intro nm' hm
          simp only [List.mem_cons, reduceCtorEq, false_or] at hm
          exact ⟨List.mem_cons_of_mem _ (i3 nm' hm).1, (i3 nm' hm).2⟩
        · intro nm' hm
          simp only [List.mem_cons, Report.ignored.injEq] at hm
          rcases hm with rfl | hm
          · exact ⟨by simp, hl, hw⟩
          · exact ⟨List.mem_cons_of_mem _ (i4 nm' hm).1, (i4 nm' hm).2⟩
        · intro nm' hm
          by_cases hnm : nm' = nm
          · subst hnm
            exact ⟨v1, v2, h1, h2, fun _ => ⟨false, hcm, by simp⟩⟩
          · obtain ⟨w1, w2, g1, g2, g3⟩ := i5 nm' ((List.mem_cons.mp hm).resolve_left hnm)
            exact ⟨w1, w2, g1, g2, fun hk => by simpa [hnm] using g3 hk⟩
      · rw [if_neg hw] at h
        simp only [Except.ok.injEq, Prod.mk.injEq] at h
        obtain ⟨rfl, rfl⟩ := h
        refine ⟨?_, by simpa using i2, ?_, ?_, ?_⟩
        · simp only [Bool.false_eq_true, false_iff]
          exact fun hx => hx nm (by simp)
        · intro nm' hm
          simp only [List.mem_cons, Report.diff.injEq] at hm
          rcases hm with rfl | hm
          · exact ⟨by simp, hl, hw⟩
          · exact ⟨List.mem_cons_of_mem _ (i3 nm' hm).1, (i3 nm' hm).2⟩
        · intro nm' hm
          simp only [List.mem_cons, reduceCtorEq, false_or] at hm
          exact ⟨List.mem_cons_of_mem _ (i4 nm' hm).1, (i4 nm' hm).2⟩
        · intro nm' hm
          by_cases hnm : nm' = nm
          · subst hnm
            exact ⟨v1, v2, h1, h2, fun _ => ⟨false, hcm, by simp⟩⟩
          · obtain ⟨w1, w2, g1, g2, g3⟩ := i5 nm' ((List.mem_cons.mp hm).resolve_left hnm)
            exact ⟨w1, w2, g1, g2, fun hk => by simpa [hnm] using g3 hk⟩

/-- C43 for a single field.  When the comparison returns, a field that is looked at and agrees in
shape and every element is not reported; one that is not reported agrees, given that the loops
around its innermost loop have the same counts. -/
theorem C43_field {c : DiffConfig P.F} {d : Desc} {S1 S2 : Store P.F} {b : Bool}
    {log : List Report} (h : compareObj P c d d S1 S2 = .ok (b, log)) {nm : Name}
    (hnm : nm ∈ fieldNames d) (hl : c.Looked nm) :
    (Agrees P c d S1 S2 nm → .diff nm ∉ log ∧ .ignored nm ∉ log) ∧
    (OuterSame P d S1 S2 nm → .diff nm ∉ log → .ignored nm ∉ log → Agrees P c d S1 S2 nm) := by
  obtain ⟨_, _, _, _, h5⟩ := compareNames_ok h
  obtain ⟨v1, v2, e1, e2, e3⟩ := h5 nm hnm
  obtain ⟨e, he, hiff⟩ := e3 hl
  obtain ⟨k1, k2⟩ := cmpFetched_iff (c := c) e1 e2
  constructor
  · intro ha
    have := k1 ha
    rw [he] at this
    injection this with this
    subst this
    simpa using hiff
  · intro ho n1 n2
    refine k2 ho ?_
    cases e with
    | true => exact he
    | false => exact absurd (hiff.mp rfl) (by simp [n1, n2])

/-- C43, what is logged.  When the comparison returns, the result is "same" exactly if no
difference is logged; only fields that count are logged as different, and only warn-only fields
are logged as ignored. -/
theorem C43_log {c : DiffConfig P.F} {d : Desc} {S1 S2 : Store P.F} {b : Bool}
    {log : List Report} (h : compareObj P c d d S1 S2 = .ok (b, log)) :
    (b = true ↔ ∀ nm, .diff nm ∉ log) ∧
    (∀ nm, .diff nm ∈ log → nm ∈ fieldNames d ∧ c.Counts nm) ∧
    (∀ nm, .ignored nm ∈ log → nm ∈ fieldNames d ∧ c.Looked nm ∧ nm ∈ c.excludeButWarn) := by
  obtain ⟨h1, _, h3, h4, _⟩ := compareNames_ok h
  exact ⟨h1, h3, h4⟩

/-- C43, for every configuration.  When the comparison returns, it returns "same" if and only if
every field that counts agrees in shape and every element.  Missing for the full claim: the
assumption that loops around the innermost loop of a field have the same counts (without it the
claim is false, `C43_outer_counts`), and that the comparison returns (`C43_raises`). -/
theorem C43_same_iff_partial {c : DiffConfig P.F} {d : Desc} {S1 S2 : Store P.F} {b : Bool}
    {log : List Report} (h : compareObj P c d d S1 S2 = .ok (b, log))
    (ho : ∀ nm ∈ fieldNames d, c.Counts nm → OuterSame P d S1 S2 nm) :
    b = true ↔ ∀ nm ∈ fieldNames d, c.Counts nm → Agrees P c d S1 S2 nm := by
  obtain ⟨h1, h3, h4⟩ := C43_log h
  rw [h1]
  constructor
  · intro hb nm hnm hc
    refine (C43_field h hnm hc.1).2 (ho nm hnm hc) (hb nm) fun hi => ?_
    exact hc.2 (h4 nm hi).2.2
  · intro ha nm hd
    obtain ⟨m1, m2⟩ := h3 nm hd
    exact ((C43_field h m1 m2.1).1 (ha nm m1 m2)).1 hd

/-- In the table, every loop around the innermost loop of a field that counts directly contains a
field that counts. -/
def Covered {F : Type} (c : DiffConfig F) (d : Desc) : Prop :=
  ∀ nm ∈ fieldNames d, c.Counts nm → ∀ n fi, resolve d.tab nm = some n → d.tab[n]? = some fi →
    ∀ j, 0 < j → j < fi.shapes.length → ∃ nm' ∈ fieldNames d, c.Counts nm' ∧
      ∃ n' fi', resolve d.tab nm' = some n' ∧ d.tab[n']? = some fi' ∧
        fi'.shapes = fi.shapes.take j

/-- C43.  If each outer loop directly contains a field that counts, no assumption about the counts
is needed: when the comparison returns, it returns "same" if and only if every field that counts
agrees in shape and every element. -/
theorem C43_same_iff {c : DiffConfig P.F} {d : Desc} (hcov : Covered c d) {S1 S2 : Store P.F}
    {b : Bool} {log : List Report} (h : compareObj P c d d S1 S2 = .ok (b, log)) :
    b = true ↔ ∀ nm ∈ fieldNames d, c.Counts nm → Agrees P c d S1 S2 nm := by
  obtain ⟨h1, h3, h4⟩ := C43_log h
  constructor
  · intro hb
    rw [h1] at hb
    have main : ∀ (len : Nat) (nm : Name), nm ∈ fieldNames d → c.Counts nm → ∀ n fi,
        resolve d.tab nm = some n → d.tab[n]? = some fi → fi.shapes.length = len →
        Agrees P c d S1 S2 nm := by
      intro len
      induction len using Nat.strongRecOn with
      | _ len ih =>
        intro nm hnm hc n fi hr hn hlen
        have ho : OuterSame P d S1 S2 nm := by
          intro n0 fi0 hr0 hn0
          rw [hr] at hr0
          injection hr0 with hr0
          subst hr0
          rw [hn] at hn0
          injection hn0 with hn0
          subst hn0
          rw [List.dropLast_eq_take]
          by_cases hj : 0 < fi.shapes.length - 1
          · obtain ⟨nm', hm', hc', n', fi', r1, r2, r3⟩ :=
              hcov nm hnm hc n fi hr hn (fi.shapes.length - 1) hj (by omega)
            obtain ⟨m, fj, q1, q2, q3⟩ := ih fi'.shapes.length
              (by rw [r3, List.length_take]; omega) nm' hm' hc' n' fi' r1 r2 rfl
            rw [r1] at q1
            injection q1 with q1
            subst q1
            rw [r2] at q2
            injection q2 with q2
            subst q2
            rw [← r3]
            exact q3.mono fun _ _ => trivial
          · have : fi.shapes.length - 1 = 0 := by omega
            rw [this]
            trivial
        exact (C43_field h hnm hc.1).2 ho (hb nm) fun hi => hc.2 (h4 nm hi).2.2
    intro nm hnm hc
    obtain ⟨_, _, _, _, h5⟩ := compareNames_ok h
    obtain ⟨v1, _, e1, _⟩ := h5 nm hnm
    obtain ⟨n, fi, hr, hn, _⟩ := fetch_ok e1
    exact main _ nm hnm hc n fi hr hn rfl
  · intro ha
    rw [h1]
    intro nm hd
    obtain ⟨m1, m2⟩ := h3 nm hd
    exact ((C43_field h m1 m2.1).1 (ha nm m1 m2)).1 hd

/-- The loop counts around innermost loops are computed from fields that count, are not floating
point and have no user supplied comparison function. -/
def CountsCompared {F : Type} (c : DiffConfig F) (d : Desc) : Prop :=
  ∀ nm ∈ fieldNames d, c.Counts nm → ∀ n fi, resolve d.tab nm = some n → d.tab[n]? = some fi →
    ∀ e ∈ fi.shapes.dropLast, ∀ r ∈ e.refs, c.Counts r.1 ∧ c.eqFun r.1 = none ∧
      ∀ m fm, resolve d.tab r.1 = some m → d.tab[m]? = some fm →
        fm.fd.ty ≠ .flt ∧ fm.fd.kind ≠ .fltData

theorem mem_namesFrom {T : Tab} {nm : Name} {n k : Nat} {seen : List Name}
    (h : resolveFrom nm k T = some n) (hs : nm ∉ seen) : nm ∈ namesFrom seen T := by
  induction T generalizing k n seen with
  | nil => cases h
  | cons fi r ih =>
    simp only [resolveFrom] at h
    simp only [namesFrom]
    cases hr : resolveFrom nm (k + 1) r with
    | some m =>
      cases hn : fi.fd.name with
      | none => exact ih hr hs
      | some nm' =>
        simp only
        by_cases he : nm' = nm
        · subst he
          rw [if_neg hs]
          simp
        · split
          · exact ih hr hs
          · exact List.mem_cons_of_mem _ (ih hr (by
              rw [List.mem_cons, not_or]
              exact ⟨fun h => he h.symm, hs⟩))
    | none =>
      rw [hr] at h
      simp only at h
      split at h
      · rename_i hn
        rw [hn]
        simp only
        rw [if_neg hs]
        simp
      · cases h

theorem mem_fieldNames {d : Desc} {nm : Name} {n : Nat} (h : resolve d.tab nm = some n) :
    nm ∈ fieldNames d := mem_namesFrom h (by simp)

/-- C43.  If the loop counts are computed from fields that count, no assumption about them is
needed: when the comparison returns, it returns "same" if and only if every field that counts
agrees in shape and every element. -/
theorem C43_same_iff_counts {c : DiffConfig P.F} {d : Desc} (hd : d.causal = true)
    (hcc : CountsCompared c d) {S1 S2 : Store P.F} {b : Bool} {log : List Report}
    (h : compareObj P c d d S1 S2 = .ok (b, log)) :
    b = true ↔ ∀ nm ∈ fieldNames d, c.Counts nm → Agrees P c d S1 S2 nm := by
  obtain ⟨h1, h3, h4⟩ := C43_log h
  obtain ⟨_, _, _, _, h5⟩ := compareNames_ok h
  constructor
  · intro hb
    rw [h1] at hb
    have main : ∀ (n : Nat) (nm : Name), nm ∈ fieldNames d → c.Counts nm →
        resolve d.tab nm = some n → Agrees P c d S1 S2 nm := by
      intro n
      induction n using Nat.strongRecOn with
      | _ n ih =>
        intro nm hnm hc hr
        refine (C43_field h hnm hc.1).2 ?_ (hb nm) fun hi => hc.2 (h4 nm hi).2.2
        intro n0 fi hr0 hn
        rw [hr] at hr0
        injection hr0 with hr0
        subst hr0
        by_cases hs : fi.shapes = []
        · rw [hs]; trivial
        -- the shapes compared equal
        obtain ⟨v1, v2, e1, e2, e3⟩ := h5 nm hnm
        obtain ⟨e, he, hiff⟩ := e3 hc.1
        have het : e = true := by
          cases e with
          | true => rfl
          | false =>
            rcases hiff.mp rfl with hx | hx
            · exact absurd hx (hb nm)
            · exact absurd (h4 nm hx).2.2 hc.2
        subst het
        have arr : ∀ {S v}, fetch P d S nm = .ok v → v = .array n fi := by
          intro S v hv
          obtain ⟨n', fi', q1, q2, q3⟩ := fetch_ok hv
          rw [hr] at q1
          injection q1 with q1
          subst q1
          rw [hn] at q2
          injection q2 with q2
          subst q2
          rcases q3 with ⟨q3, _⟩ | ⟨_, q3⟩
          · exact absurd q3 hs
          · exact q3
        have a1 := arr e1
        have a2 := arr e2
        subst a1 a2
        simp only [cmpFetched, cmpArray, shapeEq, ne_eq, not_true, if_false] at he
        refine outer_of_refs hd hn ?_ ?_
        · intro ex hex r hrr m fm hm hfm hlt
          obtain ⟨hcr, hef, hty⟩ := hcc nm hnm hc n fi hr hn ex hex r hrr
          obtain ⟨m', fm', q1, q2, q3⟩ := ih m hlt r.1 (mem_fieldNames hm) hcr hm
          rw [hm] at q1
          injection q1 with q1
          subst q1
          rw [hfm] at q2
          injection q2 with q2
          subst q2
          obtain ⟨ht, hk⟩ := hty m fm hm hfm
          refine q3.mono fun k hk' => ?_
          obtain ⟨a, b', g1, g2, g3⟩ := hk'
          have fa := getItem_notFlt hfm ht hk g1
          have fb := getItem_notFlt hfm ht hk g2
          have : asFloat P fm a = false := by
            unfold asFloat
            split
            · exact fa
            · simpa using ht
          rw [this] at g3
          simp only [SameValue, hef, Bool.false_eq_true, if_false] at g3
          have := pyEq_eq fa fb g3
          subst this
          exact ⟨a, g1, g2⟩
        · split at he
          · cases he
          · cases he
          · rename_i hsh; exact hsh
    intro nm hnm hc
    obtain ⟨v1, _, e1, _⟩ := h5 nm hnm
    obtain ⟨n, fi, hr, _, _⟩ := fetch_ok e1
    exact main n nm hnm hc hr
  · intro ha
    rw [h1]
    intro nm hd'
    obtain ⟨m1, m2⟩ := h3 nm hd'
    exact ((C43_field h m1 m2.1).1 (ha nm m1 m2)).1 hd'

/-! ### The shipped tables -/

/-- The loop counts around innermost loops of a table are computed from fields that are not floating
point and not among `ex`. -/
def countRefsOk (ex : List Name) (d : Desc) : Bool :=
  d.tab.all fun fi => fi.shapes.dropLast.all fun e => e.refs.all fun r =>
    decide (r.1 ∉ ex) &&
      match (resolve d.tab r.1).bind fun m => d.tab[m]? with
      | none => true
      | some fm => decide (fm.fd.ty ≠ .flt ∧ fm.fd.kind ≠ .fltData)

theorem countsCompared_of {F : Type} {c : DiffConfig F} {d : Desc} (hi : c.include_ = [])
    (he : ∀ nm, c.eqFun nm = none) (h : countRefsOk (c.exclude ++ c.excludeButWarn) d = true) :
    CountsCompared c d := by
  intro nm hnm hc n fi hr hn e hee r hrr
  simp only [countRefsOk, List.all_eq_true, Bool.and_eq_true, decide_eq_true_eq,
    List.mem_append, not_or] at h
  obtain ⟨⟨h1, h2⟩, h3⟩ := h fi (List.mem_of_getElem? hn) e hee r hrr
  refine ⟨⟨⟨h1, .inl hi⟩, h2⟩, he _, ?_⟩
  intro m fm hm hfm
  simp only [hm, Option.bind_some, hfm, decide_eq_true_eq] at h3
  exact h3

theorem tables_countRefs : ∀ t ∈ Tables.all, countRefsOk [] t.2 = true := by
  have : (Tables.all.all fun t => countRefsOk [] t.2) = true := by decide +kernel
  rwa [List.all_eq_true] at this

/-- C43 for the shipped tables, when nothing is excluded and the standard comparison functions are
used (any tolerances): when the comparison returns, it returns "same" if and only if every field
agrees in shape and every element. -/
theorem C43_shipped {t : String × Desc} (ht : t ∈ Tables.all) {c : DiffConfig P.F}
    (h1 : c.exclude = []) (h2 : c.excludeButWarn = []) (h3 : c.include_ = [])
    (h4 : ∀ nm, c.eqFun nm = none) {S1 S2 : Store P.F} {b : Bool} {log : List Report}
    (h : compareObj P c t.2 t.2 S1 S2 = .ok (b, log)) :
    b = true ↔ ∀ nm ∈ fieldNames t.2, Agrees P c t.2 S1 S2 nm := by
  rw [C43_same_iff_counts (tables_causal t ht) (countsCompared_of h3 h4 (by
    rw [h1, h2]; exact tables_countRefs t ht)) h]
  constructor
  · intro h nm hnm
    exact h nm hnm ⟨⟨by simp [h1], .inl h3⟩, by simp [h2]⟩
  · exact fun h nm hnm _ => h nm hnm

/-- The default configuration of the comparisons: table, excluded fields, warn-only fields
(nitf_file_header.py:110-133, nitf_image_subheader.py:434-445, nitf_graphic_subheader.py:82-93,
nitf_text_subheader.py:78-87, nitf_des_subheader.py:84-94, nitf_res_subheader.py:68-77,
nitf_des_associated_user_subheader.py:126-131, nitf_tre_csexrb.py:197-199). -/
def diffDefaults : List (Desc × List Name × List Name) :=
  [(Tables.t_file_header,
    [n!"fl", n!"hl", n!"numi", n!"lish", n!"li", n!"nums", n!"lssh", n!"ls", n!"numx", n!"numt",
      n!"ltsh", n!"lt", n!"numdes", n!"ldsh", n!"ld", n!"numres", n!"lresh", n!"lre", n!"udhdl",
      n!"udhofl", n!"udhd", n!"xhdl", n!"xhdlofl", n!"xhd"], [n!"fdt"]),
   (Tables.t_image_subheader,
    [n!"udidl", n!"udofl", n!"udid", n!"ixshdl", n!"ixofl", n!"ixshd"], []),
   (Tables.t_graphic_subheader, [n!"sxshdl", n!"sxofl", n!"sxshd"], []),
   (Tables.t_text_subheader, [n!"txshdl", n!"txsofl", n!"txshd"], []),
   (Tables.t_des_subheader, [n!"desoflw", n!"desitem", n!"desshl", n!"desshf"], []),
   (Tables.t_res_subheader, [n!"resshl", n!"resshf"], []),
   (Tables.t_des_associated_user_subheader, [n!"id", n!"assoc_elem_id"], []),
   (Tables.t_tre_csexrb, [n!"image_uuid", n!"assoc_des_id"], [])]

theorem defaults_countRefs : ∀ x ∈ diffDefaults, x.1.causal = true ∧
    countRefsOk (x.2.1 ++ x.2.2) x.1 = true := by
  have : (diffDefaults.all fun x => x.1.causal && countRefsOk (x.2.1 ++ x.2.2) x.1) = true := by
    decide +kernel
  rw [List.all_eq_true] at this
  intro x hx
  simpa using this x hx

/-- C43 for the default configurations (any tolerances): when the comparison of two headers returns,
it returns "same" if and only if every field that is neither excluded nor warn-only agrees in shape
and every element. -/
theorem C43_defaults {d : Desc} {ex warn : List Name} (hx : (d, ex, warn) ∈ diffDefaults)
    {c : DiffConfig P.F} (h1 : c.exclude = ex) (h2 : c.excludeButWarn = warn) (h3 : c.include_ = [])
    (h4 : ∀ nm, c.eqFun nm = none) {S1 S2 : Store P.F} {b : Bool} {log : List Report}
    (h : compareObj P c d d S1 S2 = .ok (b, log)) :
    b = true ↔ ∀ nm ∈ fieldNames d, nm ∉ ex → nm ∉ warn → Agrees P c d S1 S2 nm := by
  obtain ⟨hd, hr⟩ := defaults_countRefs _ hx
  subst h1 h2
  rw [C43_same_iff_counts hd (countsCompared_of h3 h4 hr) h]
  constructor
  · exact fun h nm hnm e1 e2 => h nm hnm ⟨⟨e1, .inl h3⟩, e2⟩
  · exact fun h nm hnm hc => h nm hnm hc.1.1 hc.2

theorem compareNames_fields {c : DiffConfig P.F} {d1 d2 : Desc} {S1 S2 : Store P.F} :
    ∀ {l1 l2 : List Name} {b : Bool} {log : List Report},
    compareNames P c d1 d2 S1 S2 l1 l2 = .ok (b, log) →
    (.fields ∈ log ↔ l1 ≠ l2) ∧ (l1 ≠ l2 → b = false) := by
  intro l1
  induction l1 with
  | nil =>
    intro l2 b log h
    cases l2 with
    | nil =>
      simp only [compareNames] at h
      cases h
      simp
    | cons n r =>
      simp only [compareNames] at h
      cases hf : fetch P d2 S2 n with
      | error e => rw [hf] at h; cases h
      | ok v =>
        rw [hf] at h
        cases h
        simp
  | cons n r ih =>
    intro l2 b log h
    cases l2 with
    | nil =>
      simp only [compareNames] at h
      cases hf : fetch P d1 S1 n with
      | error e => rw [hf] at h; cases h
      | ok v =>
        rw [hf] at h
        cases h
        simp
    | cons n' r' =>
      unfold compareNames at h
      cases hf : fetch P d1 S1 n with
      | error e => simp [hf] at h
      | ok v1 =>
      cases hf' : fetch P d2 S2 n' with
      | error e => simp [hf, hf'] at h
      | ok v2 =>
      simp only [hf, hf'] at h
      split at h
      · rename_i hne
        cases h
        simp [hne]
      · rename_i hne
        have hne : n = n' := Classical.not_not.mp hne
        subst hne
        have key : ∀ {b' : Bool} {log' : List Report},
            compareNames P c d1 d2 S1 S2 r r' = .ok (b', log') →
            (.fields ∈ log' ↔ n :: r ≠ n :: r') ∧ (n :: r ≠ n :: r' → b' = false) := by
          intro b' log' hh
          simpa using ih hh
        split at h
        · exact key h
        split at h
        · exact key h
        split at h
        · cases h
        split at h
        · cases h
        rename_i b' log' hrest
        obtain ⟨k1, k2⟩ := key hrest
        split at h
        · cases h
          exact ⟨k1, k2⟩
        split at h
        · cases h
          exact ⟨by simpa using k1, k2⟩
        · cases h
          exact ⟨by simpa using k1, fun _ => rfl⟩

/-- C43.  Objects with other fields, or the same in another order, are reported different, whatever the
configuration excludes, and the log says that the fields differ exactly then. -/
theorem C43_other_fields {c : DiffConfig P.F} {d1 d2 : Desc} {S1 S2 : Store P.F} {b : Bool}
    {log : List Report} (h : compareObj P c d1 d2 S1 S2 = .ok (b, log)) :
    (.fields ∈ log ↔ fieldNames d1 ≠ fieldNames d2) ∧ (fieldNames d1 ≠ fieldNames d2 → b = false) :=
  compareNames_fields h

/-! ### When the comparison returns -/

/-- Fields of a FieldData class are declared as bytes (nitf_field.py:407). -/
def FieldDef.typed (fd : FieldDef) : Bool := decide (fd.kind = .plain ∨ fd.ty = .bytes)

theorem getItem_isFlt {d : Desc} {S : Store P.F} {n : Nat} {fi : FInfo} (hn : d.tab[n]? = some fi)
    (hty : fi.fd.typed = true) (hnm : fi.fd.name ≠ none)
    (hf : fi.fd.ty = .flt ∨ fi.fd.kind = .fltData) {k : Key} {v : Val P.F}
    (h : getItem P d.tab S n k = .ok v) : v = .none ∨ ∃ x, v = .flt x := by
  have co : ∀ w x, coerce P fi.fd w = .ok x →
      (fi.fd.ty = .flt → ∃ y, x = .flt y) ∧ (fi.fd.ty = .bytes → ∃ y, x = .bytes y) := by
    intro w x hx
    unfold coerce at hx
    constructor
    · intro ht
      rw [ht] at hx
      simp only at hx
      cases w with
      | none => cases hx
      | int z => injection hx with hx; exact ⟨_, hx.symm⟩
      | flt z => injection hx with hx; exact ⟨_, hx.symm⟩
      | str s =>
        simp only at hx
        split at hx
        · injection hx with hx; exact ⟨_, hx.symm⟩
        · cases hx
      | bytes s =>
        simp only at hx
        split at hx
        · injection hx with hx; exact ⟨_, hx.symm⟩
        · cases hx
    · intro ht
      rw [ht] at hx
      simp only at hx
      cases w <;> simp only [reduceCtorEq] at hx
      · split at hx
        · cases hx
        · injection hx with hx; exact ⟨_, hx.symm⟩
      · injection hx with hx; exact ⟨_, hx.symm⟩
  have fin : ∀ s x, finish P fi.fd s = .ok x → x = .none ∨
      ((fi.fd.ty = .flt → ∃ y, x = .flt y) ∧ (fi.fd.ty = .bytes → ∃ y, x = .bytes y)) := by
    intro s x hx
    unfold finish at hx
    split at hx
    · split at hx
      · injection hx with hx; exact .inl hx.symm
      · exact .inr (co _ _ hx)
    · exact .inr (co _ _ hx)
    · split at hx
      · injection hx with hx; exact .inl hx.symm
      · exact .inr (co _ _ hx)
  rw [getItem_eq P k hn] at h
  unfold getWith at h
  cases hl : lowGet P (look P d.tab S) S fi n k with
  | error e => rw [hl] at h; cases h
  | ok w =>
    have hw : w = .none ∨
        ((fi.fd.ty = .flt → ∃ y, w = .flt y) ∧ (fi.fd.ty = .bytes → ∃ y, w = .bytes y)) := by
      unfold lowGet at hl
      split at hl
      · rename_i h0; exact absurd h0 hnm
      · cases hc : checkIndex P (look P d.tab S) fi k with
        | error e => rw [hc] at hl; cases hl
        | ok u =>
          rw [hc] at hl
          cases hcd : evalCond P (look P d.tab S) fi k with
          | error e => rw [hcd] at hl; cases hl
          | ok b =>
            rw [hcd] at hl
            cases b with
            | false => injection hl with hl; exact .inl hl.symm
            | true =>
              simp only [bind, Except.bind, if_true] at hl
              cases hv : fi.fd.value with
              | none => rw [hv] at hl; exact fin _ _ hl
              | some e =>
                rw [hv] at hl
                simp only at hl
                split at hl
                · cases hl
                · exact fin _ _ hl
    rw [hl] at h
    simp only [FieldDef.typed, decide_eq_true_eq] at hty
    rcases hw with rfl | ⟨hw1, hw2⟩
    · cases hk : fi.fd.kind <;> rw [hk] at h <;> injection h with h <;> exact .inl h.symm
    · rcases hf with hf | hf
      · obtain ⟨y, rfl⟩ := hw1 hf
        have hk : fi.fd.kind = .plain := by
          rcases hty with h | h
          · exact h
          · rw [hf] at h; cases h
        rw [hk] at h
        injection h with h
        exact .inr ⟨y, h.symm⟩
      · have ht : fi.fd.ty = .bytes := by
          rcases hty with h | h
          · rw [hf] at h; cases h
          · exact h
        obtain ⟨y, rfl⟩ := hw2 ht
        rw [hf] at h
        simp only [unpackKind] at h
        split at h
        · injection h with h; exact .inr ⟨_, h.symm⟩
        · cases h

/-- The comparison functions of the configuration do not raise (`math.isclose` does only for
negative tolerances). -/
def DiffConfig.Total {F : Type} (c : DiffConfig F) : Prop :=
  (∀ nm x y, ∃ e, c.close nm x y = .ok e) ∧
  ∀ nm f, c.eqFun nm = some f → ∀ a b, ∃ e, f a b = .ok e

theorem resolve_name {T : Tab} {nm : Name} {k n : Nat} (h : resolveFrom nm k T = some n) :
    ∃ fi, k ≤ n ∧ T[n - k]? = some fi ∧ fi.fd.name = some nm := by
  induction T generalizing k with
  | nil => cases h
  | cons fi r ih =>
    simp only [resolveFrom] at h
    cases hr : resolveFrom nm (k + 1) r with
    | some m =>
      rw [hr] at h
      injection h with h
      subst h
      obtain ⟨fi', h1, h2, h3⟩ := ih hr
      refine ⟨fi', by omega, ?_, h3⟩
      have : m - k = (m - (k + 1)) + 1 := by omega
      rw [this]
      simpa using h2
    | none =>
      rw [hr] at h
      simp only at h
      split at h
      · injection h with h
        subst h
        exact ⟨fi, by omega, by simp, by assumption⟩
      · cases h

theorem cmpFun_total {c : DiffConfig P.F} (hc : c.Total) {d : Desc} {S1 S2 : Store P.F} {nm : Name}
    {n : Nat} {fi : FInfo} (hr : resolve d.tab nm = some n) (hn : d.tab[n]? = some fi)
    (hty : fi.fd.typed = true) {k : Key} {a b : Val P.F}
    (ha : getItem P d.tab S1 n k = .ok a) (hb : getItem P d.tab S2 n k = .ok b) {fl : Bool}
    (hfl : fl = true → a.isFlt = true ∨ fi.fd.ty = .flt) :
    ∃ e, cmpFun P c nm fl a b = .ok e := by
  unfold cmpFun
  cases hf : c.eqFun nm with
  | some f => exact hc.2 nm f hf a b
  | none =>
    cases fl with
    | false => exact ⟨_, rfl⟩
    | true =>
      simp only [if_true]
      have hname : fi.fd.name ≠ none := by
        obtain ⟨fi', _, h2, h3⟩ := resolve_name hr
        rw [Nat.sub_zero, hn] at h2
        injection h2 with h2
        subst h2
        rw [h3]
        simp
      have hfloat : fi.fd.ty = .flt ∨ fi.fd.kind = .fltData := by
        rcases hfl rfl with h | h
        · apply Classical.byContradiction
          intro hno
          rw [not_or] at hno
          rw [getItem_notFlt hn hno.1 hno.2 ha] at h
          cases h
        · exact .inl h
      rcases getItem_isFlt hn hty hname hfloat ha with rfl | ⟨x, rfl⟩ <;>
        rcases getItem_isFlt hn hty hname hfloat hb with rfl | ⟨y, rfl⟩
      · exact ⟨_, rfl⟩
      · exact ⟨_, rfl⟩
      · exact ⟨_, rfl⟩
      · simpa [closeEq, closeArg] using hc.1 nm x y

theorem forChunks_ok {α : Type} {f : Int → Except Err (List α)} {is : List Int} {r : List α}
    (h : forChunks f is = .ok r) : ∀ i ∈ is, ∃ x, f i = .ok x := by
  induction is generalizing r with
  | nil => simp
  | cons i is ih =>
    simp only [forChunks] at h
    cases h1 : f i with
    | error x => rw [h1] at h; cases h
    | ok x =>
      rw [h1] at h
      simp only at h
      cases h2 : forChunks f is with
      | error y => rw [h2] at h; cases h
      | ok y =>
        intro j hj
        rcases List.mem_cons.mp hj with rfl | hj
        · exact ⟨x, h1⟩
        · exact ih h2 j hj

theorem forChunks_sub {α : Type} {f : Int → Except Err (List α)} {is : List Int} {r : List α}
    (h : forChunks f is = .ok r) : ∀ i ∈ is, ∃ x, f i = .ok x ∧ ∀ a ∈ x, a ∈ r := by
  induction is generalizing r with
  | nil => simp
  | cons i is ih =>
    simp only [forChunks] at h
    cases h1 : f i with
    | error x => rw [h1] at h; cases h
    | ok x =>
      rw [h1] at h
      simp only at h
      cases h2 : forChunks f is with
      | error y => rw [h2] at h; cases h
      | ok y =>
        rw [h2] at h
        simp only [Except.ok.injEq] at h
        subst h
        intro j hj
        rcases List.mem_cons.mp hj with rfl | hj
        · exact ⟨x, h1, fun a ha => List.mem_append_left _ ha⟩
        · obtain ⟨z, hz, hs⟩ := ih h2 j hj
          exact ⟨z, hz, fun a ha => List.mem_append_right _ (hs a ha)⟩

theorem allIdx_total {f : Int → Except Err Bool} {is : List Int} (h : ∀ i ∈ is, ∃ e, f i = .ok e) :
    ∃ e, allIdx f is = .ok e := by
  induction is with
  | nil => exact ⟨true, rfl⟩
  | cons i is ih =>
    obtain ⟨e, he⟩ := h i (by simp)
    simp only [allIdx, he]
    cases e with
    | false => exact ⟨false, rfl⟩
    | true => exact ih fun j hj => h j (by simp [hj])

theorem shapeEqFrom_total {l1 l2 : Look P.F} {es : List Expr} {key : Key} (hne : es ≠ [])
    (ho : Matches P l1 l2 (fun _ => True) es.dropLast key) {k1 k2 : List Key}
    (h1 : keysFrom P l1 es key = .ok k1) (h2 : keysFrom P l2 es key = .ok k2) :
    ∃ e, shapeEqFrom P l1 l2 es es key = .ok e := by
  induction es generalizing key k1 k2 with
  | nil => exact absurd rfl hne
  | cons e es ih =>
    simp only [keysFrom] at h1 h2
    cases e1 : evalShape P l1 e key with
    | error x => rw [e1] at h1; cases h1
    | ok c1 =>
    cases e2 : evalShape P l2 e key with
    | error x => rw [e2] at h2; cases h2
    | ok c2 =>
    rw [e1] at h1
    rw [e2] at h2
    simp only at h1 h2
    simp only [shapeEqFrom, e1]
    cases es with
    | nil => exact ⟨decide (c1 = c2), by simp [e2]⟩
    | cons e' es =>
      simp only [List.isEmpty_cons, Bool.false_eq_true, if_false, List.tail_cons]
      rw [List.dropLast_cons_of_ne_nil (by simp)] at ho
      obtain ⟨c, g1, g2, g3⟩ := ho
      rw [e1] at g1
      rw [e2] at g2
      injection g1 with g1
      injection g2 with g2
      subst g1 g2
      refine allIdx_total fun i hi => ?_
      have hb := mem_indices.mp hi
      obtain ⟨x1, hx1⟩ := forChunks_ok h1 i hi
      obtain ⟨x2, hx2⟩ := forChunks_ok h2 i hi
      exact ih (by simp) (g3 i hb.1 hb.2) hx1 hx2

/-- C43, when the comparison returns: if every field of both structures can be enumerated, the
comparison functions do not raise and the loops around innermost loops have the same counts, the
comparison raises nothing.  (Without the last it may, `C43_raises`.) -/
theorem C43_returns {c : DiffConfig P.F} (hc : c.Total) {d : Desc}
    (hty : d.allFields FieldDef.typed = true) {S1 S2 : Store P.F}
    (h1 : ∀ nm ∈ fieldNames d, ∃ xs, itemsOf P d S1 nm = .ok xs)
    (h2 : ∀ nm ∈ fieldNames d, ∃ xs, itemsOf P d S2 nm = .ok xs)
    (ho : ∀ nm ∈ fieldNames d, c.Looked nm → OuterSame P d S1 S2 nm) :
    ∃ r, compareObj P c d d S1 S2 = .ok r := by
  unfold compareObj
  generalize fieldNames d = l at h1 h2 ho
  induction l with
  | nil => exact ⟨_, rfl⟩
  | cons nm r ih =>
    obtain ⟨xs, hx⟩ := h1 nm (by simp)
    obtain ⟨ys, hy⟩ := h2 nm (by simp)
    obtain ⟨rest, hrest⟩ := ih (fun a b => h1 a (by simp [b])) (fun a b => h2 a (by simp [b]))
      (fun a b => ho a (by simp [b]))
    unfold itemsOf at hx hy
    cases hr : resolve d.tab nm with
    | none => rw [hr] at hx; cases hx
    | some n =>
    rw [hr] at hx hy
    simp only [fieldItems] at hx hy
    cases hn : d.tab[n]? with
    | none => rw [hn] at hx; cases hx
    | some fi =>
    rw [hn] at hx hy
    simp only at hx hy
    have hfty := Desc.allFields_get hty hn
    cases hk1 : keysFrom P (look P d.tab S1) fi.shapes [] with
    | error x => rw [hk1] at hx; cases hx
    | ok ks1 =>
    cases hk2 : keysFrom P (look P d.tab S2) fi.shapes [] with
    | error x => rw [hk2] at hy; cases hy
    | ok ks2 =>
    rw [hk1] at hx
    rw [hk2] at hy
    simp only at hx hy
    -- fetching, and comparing if the field is looked at
    have hf : ∃ v1 v2, fetch P d S1 nm = .ok v1 ∧ fetch P d S2 nm = .ok v2 ∧
        (c.Looked nm → ∃ e, cmpFetched P c nm d d S1 S2 v1 v2 = .ok e) := by
      by_cases hs : fi.shapes = []
      · have hd0 : fi.depth = 0 := by simp [FInfo.depth, hs]
        rw [hs] at hk1 hk2
        simp only [keysFrom, Except.ok.injEq] at hk1 hk2
        subst hk1 hk2
        simp only [valuesAt] at hx hy
        cases ha : getItem P d.tab S1 n [] with
        | error x => rw [ha] at hx; cases hx
        | ok a =>
        cases hb : getItem P d.tab S2 n [] with
        | error x => rw [hb] at hy; cases hy
        | ok b =>
        refine ⟨.scalar a, .scalar b, by simp [fetch, hr, hn, hd0, ha, Except.map],
          by simp [fetch, hr, hn, hd0, hb, Except.map], fun _ => ?_⟩
        exact cmpFun_total hc hr hn hfty ha hb fun h => .inl h
      · have hd0 : fi.depth ≠ 0 := by
          intro h; exact hs (List.eq_nil_of_length_eq_zero h)
        refine ⟨.array n fi, .array n fi, by simp [fetch, hr, hn, hd0],
          by simp [fetch, hr, hn, hd0], fun hl => ?_⟩
        have hout := ho nm (by simp) hl n fi hr hn
        obtain ⟨e, he⟩ := shapeEqFrom_total hs hout hk1 hk2
        simp only [cmpFetched, cmpArray, shapeEq, ne_eq, not_true, if_false, he]
        cases e with
        | false => exact ⟨false, rfl⟩
        | true =>
          simp only [fieldItems, hn, hk1, hk2, hx, hy]
          obtain ⟨ks, q1, q2, _⟩ := keysFrom_matches (of_shapeEqFrom hs hout he)
          rw [hk1] at q1
          rw [hk2] at q2
          injection q1 with q1
          injection q2 with q2
          subst q1 q2
          refine sameItems_total hx hy fun k hk a b ha hb => ?_
          exact cmpFun_total hc hr hn hfty ha hb fun h => .inr (by simpa using h)
    obtain ⟨v1, v2, e1, e2, e3⟩ := hf
    simp only [compareNames, e1, e2, ne_eq, not_true, if_false]
    split
    · exact ⟨rest, hrest⟩
    · rename_i hex
      split
      · exact ⟨rest, hrest⟩
      · rename_i hinc
        have hl : c.Looked nm := by
          refine ⟨hex, ?_⟩
          by_cases h0 : c.include_ = []
          · exact .inl h0
          · refine .inr (Classical.byContradiction fun hn => hinc ⟨?_, hn⟩)
            exact List.length_pos_iff.mpr h0
        obtain ⟨e, he⟩ := e3 hl
        obtain ⟨b, log⟩ := rest
        simp only [he, hrest]
        split
        · exact ⟨_, rfl⟩
        · split <;> exact ⟨_, rfl⟩

theorem Matches.self {l : Look P.F} {ok : Key → Prop} {es : List Expr} {key : Key} {ks : List Key}
    (h : keysFrom P l es key = .ok ks) (hok : ∀ k ∈ ks, ok k) : Matches P l l ok es key := by
  induction es generalizing key ks with
  | nil =>
    simp only [keysFrom, Except.ok.injEq] at h
    subst h
    exact hok key (by simp)
  | cons e es ih =>
    simp only [keysFrom] at h
    cases h1 : evalShape P l e key with
    | error x => rw [h1] at h; cases h
    | ok c =>
      rw [h1] at h
      simp only at h
      refine ⟨c, h1, h1, fun i h0 hi => ?_⟩
      obtain ⟨x, hx, hsub⟩ := forChunks_sub h i (mem_indices.mpr ⟨h0, hi⟩)
      exact ih hx fun k hk => hok k (hsub k hk)

theorem Matches.dropLast {l1 l2 : Look P.F} : ∀ {es : List Expr} {key : Key},
    Matches P l1 l2 (fun _ => True) es key → Matches P l1 l2 (fun _ => True) es.dropLast key
  | [], _, h => h
  | [_], _, _ => trivial
  | _ :: _ :: _, _, ⟨c, h1, h2, h3⟩ => ⟨c, h1, h2, fun i h0 hi => (h3 i h0 hi).dropLast⟩

/-- Every shipped table satisfies the condition of `C43_returns`. -/
theorem tables_typed : ∀ t ∈ Tables.all, t.2.allFields FieldDef.typed = true := by
  have : (Tables.all.all fun t => t.2.allFields FieldDef.typed) = true := by decide +kernel
  rwa [List.all_eq_true] at this

theorem valuesAt_mem {g : Key → Except Err (Val P.F)} {ks : List Key} {xs : List (Key × Val P.F)}
    (h : valuesAt P g ks = .ok xs) : ∀ k ∈ ks, ∃ v, g k = .ok v ∧ (k, v) ∈ xs := by
  induction ks generalizing xs with
  | nil => simp
  | cons k ks ih =>
    simp only [valuesAt] at h
    cases hg : g k with
    | error x => rw [hg] at h; cases h
    | ok v =>
      rw [hg] at h
      simp only at h
      cases hr : valuesAt P g ks with
      | error x => rw [hr] at h; cases h
      | ok r =>
        rw [hr] at h
        simp only [Except.ok.injEq] at h
        subst h
        intro k' hk'
        rcases List.mem_cons.mp hk' with rfl | hk'
        · exact ⟨v, hg, by simp⟩
        · obtain ⟨v', h1, h2⟩ := ih hr k' hk'
          exact ⟨v', h1, by simp [h2]⟩

variable (P) in
/-- The value is the same as itself under the comparison functions of the field: the user supplied
one says so, or if there is none and the value is a floating point number, it is close and equal to
itself (anything but a NaN). -/
def SelfSame (c : DiffConfig P.F) (nm : Name) (v : Val P.F) : Prop :=
  match c.eqFun nm with
  | some f => f v v = .ok true
  | none => ∀ x, v = .flt x → c.close nm x x = .ok true ∧ P.beq x x = true

theorem sameValue_self {c : DiffConfig P.F} {nm : Name} {v : Val P.F} (h : SelfSame P c nm v)
    {fl : Bool} (hfl : fl = true → v = .none ∨ ∃ x, v = .flt x) : SameValue P c nm fl v v := by
  unfold SelfSame at h
  unfold SameValue
  cases hf : c.eqFun nm with
  | some f => rw [hf] at h; exact h
  | none =>
    rw [hf] at h
    simp only at h ⊢
    cases fl with
    | true =>
      simp only [if_true]
      rcases hfl rfl with rfl | ⟨x, rfl⟩
      · exact .inl ⟨rfl, rfl⟩
      · exact .inr ⟨x, x, rfl, rfl, (h x rfl).1⟩
    | false =>
      simp only [Bool.false_eq_true, if_false]
      cases v <;> simp [pyEq]
      exact (h _ rfl).2

/-- C43: a structure compares equal to itself, with nothing logged, provided its fields can be
enumerated and hold no NaN (see `C43_nan`). -/
theorem C43_self {c : DiffConfig P.F} (hc : c.Total) {d : Desc}
    (hty : d.allFields FieldDef.typed = true) {S : Store P.F}
    (hv : ∀ nm ∈ fieldNames d, ∃ xs, itemsOf P d S nm = .ok xs ∧ ∀ x ∈ xs, SelfSame P c nm x.2) :
    compareObj P c d d S S = .ok (true, []) := by
  have hag : ∀ nm ∈ fieldNames d, Agrees P c d S S nm := by
    intro nm hnm
    obtain ⟨xs, hx, hs⟩ := hv nm hnm
    unfold itemsOf at hx
    cases hr : resolve d.tab nm with
    | none => rw [hr] at hx; cases hx
    | some n =>
    rw [hr] at hx
    simp only [fieldItems] at hx
    cases hn : d.tab[n]? with
    | none => rw [hn] at hx; cases hx
    | some fi =>
    rw [hn] at hx
    simp only at hx
    cases hk : keysFrom P (look P d.tab S) fi.shapes [] with
    | error x => rw [hk] at hx; cases hx
    | ok ks =>
    rw [hk] at hx
    simp only at hx
    have hname : fi.fd.name ≠ none := by
      obtain ⟨fi', _, h2, h3⟩ := resolve_name hr
      rw [Nat.sub_zero, hn] at h2
      injection h2 with h2
      subst h2
      rw [h3]
      simp
    refine ⟨n, fi, hr, hn, Matches.self hk fun k hkk => ?_⟩
    obtain ⟨v, hg, hm⟩ := valuesAt_mem hx k hkk
    refine ⟨v, v, hg, hg, sameValue_self (hs _ hm) fun hfl => ?_⟩
    unfold asFloat at hfl
    split at hfl
    · cases v <;> simp [Val.isFlt] at hfl
      exact .inr ⟨_, rfl⟩
    · exact getItem_isFlt hn (Desc.allFields_get hty hn) hname (.inl (by simpa using hfl)) hg
  obtain ⟨⟨b, log⟩, h⟩ := C43_returns (S1 := S) (S2 := S) hc hty
    (fun nm h => let ⟨xs, h, _⟩ := hv nm h; ⟨xs, h⟩)
    (fun nm h => let ⟨xs, h, _⟩ := hv nm h; ⟨xs, h⟩)
    (fun nm hnm _ n fi hr hn => by
      obtain ⟨n', fi', e1, e2, e3⟩ := hag nm hnm
      rw [hr] at e1
      injection e1 with e1
      subst e1
      rw [hn] at e2
      injection e2 with e2
      subst e2
      exact (e3.mono fun _ _ => trivial).dropLast)
  obtain ⟨h1, h2, h3⟩ := C43_log h
  have hlog : log = [] := by
    cases log with
    | nil => rfl
    | cons r rs =>
      cases r with
      | diff nm =>
        obtain ⟨m1, m2⟩ := h2 nm (by simp)
        exact absurd (by simp) ((C43_field h m1 m2.1).1 (hag nm m1)).1
      | ignored nm =>
        obtain ⟨m1, m2, _⟩ := h3 nm (by simp)
        exact absurd (by simp) ((C43_field h m1 m2).1 (hag nm m1)).2
      | fields =>
        exact absurd (List.mem_cons_self) (compareNames_ok h).2.1
  subst hlog
  rw [h, h1.mpr (by simp)]

/-! ### What fails, with witnesses -/

/-- Two nested loops: `na` rows of `nb` elements. -/
def nestDesc : Desc :=
  .field { name := some (n!"na"), size := .const 1, ty := .int } <|
  .field { name := some (n!"nb"), size := .const 1, ty := .int } <|
  .loop (.ref (n!"na") []) (.loop (.ref (n!"nb") [])
    (.field { name := some (n!"e"), size := .const 1, ty := .int } .nil) .nil) .nil

/-- `na` and `nb` set, and every element in the first two rows and columns 5. -/
def nestStore (na nb : Int) : Store P0.F :=
  (((((Store.empty.set 0 [] ⟨.val (.int na), none⟩).set 1 [] ⟨.val (.int nb), none⟩).set
    2 [0, 0] ⟨.val (.int 5), none⟩).set 2 [0, 1] ⟨.val (.int 5), none⟩).set
    2 [1, 0] ⟨.val (.int 5), none⟩).set 2 [1, 1] ⟨.val (.int 5), none⟩

/-- Everything compared, or everything but one field. -/
def cfgAll : DiffConfig P0.F := { close := fun _ _ _ => .ok true }
def cfgBut (nm : Name) : DiffConfig P0.F := { exclude := [nm], close := fun _ _ _ => .ok true }

/-- C43 violated: two structures with one and two rows are not reported as different, the
comparison raises (python: TypeError, unpacking the `None` filled in by `zip_longest`).  The other
way round the difference is reported. -/
theorem C43_raises :
    compareObj P0 cfgAll nestDesc nestDesc (nestStore 1 1) (nestStore 2 1) = .error .type ∧
    compareObj P0 cfgAll nestDesc nestDesc (nestStore 2 1) (nestStore 1 1) =
      .ok (false, [.diff (n!"na"), .diff (n!"e")]) := by
  decide +kernel

/-- One field `x`, a number with a point; once alone, once in a loop. -/
def aloneDesc : Desc := .field { name := some (n!"x"), size := .const 1, ty := .flt } .nil
def loopDesc : Desc := .loop (.const (.int 1)) (.field { name := some (n!"x"), size := .const 1, ty := .flt } .nil) .nil

/-- C43 violated: a number against a loop of the same name is no difference but an exception (python:
TypeError of `math.isclose`); the other way round it is an exception as well. -/
theorem C43_raises_mixed :
    fieldNames aloneDesc = fieldNames loopDesc ∧
    compareObj P0 cfgAll aloneDesc loopDesc (Store.empty.set 0 [] ⟨.val (.flt ()), none⟩)
      (Store.empty.set 0 [0] ⟨.val (.flt ()), none⟩) = .error .type ∧
    compareObj P0 cfgAll loopDesc aloneDesc (Store.empty.set 0 [0] ⟨.val (.flt ()), none⟩)
      (Store.empty.set 0 [] ⟨.val (.flt ()), none⟩) = .error .attr := by
  decide +kernel

example : ∃ r, compareObj P0 cfgAll aloneDesc nestDesc (Store.empty.set 0 [] ⟨.val (.flt ()), none⟩)
    (nestStore 1 1) = .ok r ∧ fieldNames aloneDesc ≠ fieldNames nestDesc :=
  ⟨_, rfl, by decide +kernel⟩

/-- C43 violated: with the count `na` excluded, arrays of one and two (empty) rows are reported
the same although the shapes of `e` differ. -/
theorem C43_outer_counts :
    compareObj P0 (cfgBut (n!"na")) nestDesc nestDesc (nestStore 1 0) (nestStore 2 0) =
      .ok (true, []) ∧
    (cfgBut (n!"na")).Counts (n!"e") ∧
    ¬ Agrees P0 (cfgBut (n!"na")) nestDesc (nestStore 1 0) (nestStore 2 0) (n!"e") := by
  refine ⟨by decide +kernel, ⟨⟨by decide, .inl rfl⟩, by decide⟩, ?_⟩
  rintro ⟨n, fi, h1, h2, h3⟩
  have hn : resolve nestDesc.tab (n!"e") = some 2 := by decide
  rw [hn] at h1
  injection h1 with h1
  subst h1
  have hs : (nestDesc.tab[2]?).map (·.shapes) =
      some [.ref (n!"na") [], .ref (n!"nb") []] := by decide
  rw [h2] at hs
  injection hs with hs
  change fi.shapes = _ at hs
  rw [hs] at h3
  obtain ⟨c, g1, g2, _⟩ := h3
  have e1 : evalShape P0 (look P0 nestDesc.tab (nestStore 1 0)) (.ref (n!"na") []) [] = .ok 1 := by
    decide +kernel
  have e2 : evalShape P0 (look P0 nestDesc.tab (nestStore 2 0)) (.ref (n!"na") []) [] = .ok 2 := by
    decide +kernel
  rw [e1] at g1
  rw [e2] at g2
  injection g1 with g1
  injection g2 with g2
  omega

/-- Floating point with nothing but a NaN. -/
def PNan : PyFloat := { P0 with beq := fun _ _ => false }

/-- C43 violated: a structure holding a NaN is reported different from itself. -/
theorem C43_nan :
    (compareObj PNan { close := fun _ _ _ => .ok false }
      (.field { name := some (n!"x"), size := .const 4, ty := .flt } .nil)
      (.field { name := some (n!"x"), size := .const 4, ty := .flt } .nil)
      (Store.empty.set 0 [] ⟨.val (.flt ()), none⟩) (Store.empty.set 0 [] ⟨.val (.flt ()), none⟩)) =
      .ok (false, [.diff (n!"x")]) := by
  decide +kernel

/-! ### Cases meeting the hypotheses -/

/-- C43_field, C43_log, C43_same_iff_partial, C43_same_iff_counts: a differing element found, the
same difference ignored when the field is warn-only, and unseen when it is excluded. -/
example :
    compareObj P0 cfgAll nestDesc nestDesc (nestStore 2 2)
      ((nestStore 2 2).set 2 [1, 0] ⟨.val (.int 6), none⟩) = .ok (false, [.diff (n!"e")]) ∧
    compareObj P0 { cfgAll with excludeButWarn := [(n!"e")] } nestDesc nestDesc (nestStore 2 2)
      ((nestStore 2 2).set 2 [1, 0] ⟨.val (.int 6), none⟩) = .ok (true, [.ignored (n!"e")]) ∧
    compareObj P0 (cfgBut (n!"e")) nestDesc nestDesc (nestStore 2 2)
      ((nestStore 2 2).set 2 [1, 0] ⟨.val (.int 6), none⟩) = .ok (true, []) := by
  decide +kernel

example : nestDesc.causal = true ∧ countRefsOk [] nestDesc = true := by decide

/-- C43_returns and C43_self. -/
example : nestDesc.allFields FieldDef.typed = true ∧
    itemsOf P0 nestDesc (nestStore 2 1) (n!"e") = .ok [([0, 0], .int 5), ([1, 0], .int 5)] ∧
    compareObj P0 cfgAll nestDesc nestDesc (nestStore 2 2) (nestStore 2 2) = .ok (true, []) := by
  decide +kernel

/-- C43_same_iff: `exDesc` has only single loops. -/
example : compareObj P0 cfgAll exDesc exDesc exStore
    (exStore.set 1 [1] ⟨.val (.str ['Y']), none⟩) =
      .ok (false, [.diff (n!"flag")]) := by
  decide +kernel

end Verif
