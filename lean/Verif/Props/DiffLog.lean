import Verif.DiffLog
import Verif.Props.FileDiff

/-
C73: the log of a comparison of files.
-/

set_option linter.unusedSectionVars false

namespace Verif

/-! ### Specification -/

/-- A line reporting a difference (as opposed to one that is ignored, or a warning). -/
def LogLine.Found (l : LogLine) : Prop := l.msg.level = .found

instance (l : LogLine) : Decidable l.Found := inferInstanceAs (Decidable (_ = _))

section
variable {O H : Type}

/-- What a comparison made of comparisons of parts has logged.  `cmp` is the comparison, `pairs`
are the pairs of parts, `counts` the lines about different numbers of parts that are due, `of a`
the lines that can come from comparing the part `a` with its partner. -/
structure Logs (cmp : DObj O → DObj O → Except Err Bool) (pairs : DObj O → DObj O → Prop)
    (counts : LogLine → Prop) (of : DObj O → LogLine → Prop) (new : List LogLine) (same : Bool) :
    Prop where
  /-- "different" is the result exactly if a difference is reported -/
  honest : same = false ↔ ∃ l ∈ new, l.Found
  /-- every line is about different numbers, or comes from a pair of parts -/
  lines : ∀ l ∈ new, counts l ∨ ∃ a b, pairs a b ∧ of a l
  /-- different numbers are reported -/
  due : ∀ l, counts l → l ∈ new
  /-- every pair of parts that compares different has a line of its own that says so -/
  covers : ∀ a b, pairs a b → cmp a b = .ok false → ∃ l ∈ new, l.Found ∧ of a l

/-- The state after a comparison: the context is what it was, lines have been added at the end. -/
def LogSt.Adds (s s' : LogSt) (new : List LogLine) : Prop :=
  s'.ctx = s.ctx ∧ s'.log = s.log ++ new

/-- The line about lists of different length, in the context `c`. -/
def CountLine (c : List Char) (l1 l2 : List (DObj O)) (l : LogLine) : Prop :=
  l1.length ≠ l2.length ∧ l = ⟨c, .count l1.length l2.length⟩

/-- The lines about different numbers of TREs or segments of two files. -/
def FileCounts (env : DiffEnv O H) (f1 f2 : DFile O) (c : List Char) (l : LogLine) : Prop :=
  CountLine c (env.kept (f1.tres.map .leaf)) (env.kept (f2.tres.map .leaf)) l ∨
  CountLine c (env.kept (f1.image.map .seg)) (env.kept (f2.image.map .seg)) l ∨
  CountLine c (env.kept (f1.graphic.map .seg)) (env.kept (f2.graphic.map .seg)) l ∨
  CountLine c (env.kept (f1.text.map .seg)) (env.kept (f2.text.map .seg)) l ∨
  CountLine c (env.kept (f1.des.map .seg)) (env.kept (f2.des.map .seg)) l ∨
  CountLine c (env.kept (f1.res.map .seg)) (env.kept (f2.res.map .seg)) l

/-- The pairs of objects that comparing two segments has to look at. -/
def SegPaired (env : DiffEnv O H) (s1 s2 : DSeg O) (a b : DObj O) : Prop :=
  (a = .leaf s1.subheader ∧ b = .leaf s2.subheader) ∨
  (∃ u, s1.user = some u ∧ a = .leaf u ∧ b = .ofOption s2.user) ∨
  Paired (env.kept (s1.tres.map .leaf)) (env.kept (s2.tres.map .leaf)) a b ∨
  (a = .ofOption s1.data ∧ b = .ofOption s2.data)

/-- Lines of the parts of a file.  Those of a segment are written in the context `desc` of the
segment, whatever the context of the file; `Q c a` are the lines of an object `a` that is not a
segment in the context `c`. -/
def PartLine (desc : DSeg O → Except Err (List Char))
    (Q : List Char → DObj O → LogLine → Prop) (c : List Char) : DObj O → LogLine → Prop
  | .seg s1 => fun l => ∃ d, desc s1 = .ok d ∧
      ((l.ctx = d ∧ ∃ n m, n ≠ m ∧ l.msg = .count n m) ∨ ∃ a, a.level = 0 ∧ Q d a l)
  | a => Q c a

/-- The logging comparison `env` decides as `env0`. -/
structure Erases (env : LogEnv O H) (env0 : DiffEnv O H) : Prop where
  skipFns : env.skipFns = env0.skipFns
  overflow : env.overflow = env0.overflow
  other : ∀ h a b s r s', env.other h a b s = .ok (r, s') → env0.other h a b = .ok r

/-- The handlers other than those for files and segments: when they decline they leave the log
alone; otherwise they report a difference exactly if they find one, in lines that `Q` allows. -/
def HonestHandlers (Q : List Char → DObj O → LogLine → Prop) (env : LogEnv O H) : Prop :=
  ∀ h a b s r s', env.other h a b s = .ok (r, s') →
    (r = none ∧ s' = s) ∨
    ∃ e new, r = some e ∧ s.Adds s' new ∧ (e = false ↔ ∃ l ∈ new, l.Found) ∧
      ∀ l ∈ new, Q s.ctx a l

/-- The handlers for files and segments are the usual ones. -/
def StandardLog (env : LogEnv O H) : Prop :=
  ∀ h a b s,
    ((∃ f g, a = .file f ∧ b = .file g) ∨ (∃ s t, a = .seg s ∧ b = .seg t)) →
    env.other h a b s = .ok (none, s)

/-! ### Proofs -/

theorem LogSt.Adds.refl (s : LogSt) : s.Adds s [] := ⟨rfl, by simp⟩

theorem LogSt.Adds.trans {s s1 s2 : LogSt} {n1 n2 : List LogLine} (h1 : s.Adds s1 n1)
    (h2 : s1.Adds s2 n2) : s.Adds s2 (n1 ++ n2) :=
  ⟨h2.1.trans h1.1, by rw [h2.2, h1.2, List.append_assoc]⟩

theorem LogSt.Adds.add (s : LogSt) (m : LogMsg) : s.Adds (s.add m) [⟨s.ctx, m⟩] := ⟨rfl, rfl⟩

theorem Logs.nil {cmp : DObj O → DObj O → Except Err Bool} {of : DObj O → LogLine → Prop} :
    Logs cmp (fun _ _ => False) (fun _ => False) of [] true :=
  ⟨by simp, by simp, fun _ h => h.elim, fun _ _ h => h.elim⟩

theorem Logs.append {cmp : DObj O → DObj O → Except Err Bool} {of : DObj O → LogLine → Prop}
    {p1 p2 : DObj O → DObj O → Prop} {c1 c2 : LogLine → Prop} {n1 n2 : List LogLine}
    {e1 e2 : Bool} (h1 : Logs cmp p1 c1 of n1 e1) (h2 : Logs cmp p2 c2 of n2 e2) :
    Logs cmp (fun a b => p1 a b ∨ p2 a b) (fun l => c1 l ∨ c2 l) of (n1 ++ n2) (e2 && e1) := by
  constructor
  · rw [Bool.and_eq_false_iff, h1.honest, h2.honest]
    constructor
    · rintro (⟨l, hl, hf⟩ | ⟨l, hl, hf⟩)
      · exact ⟨l, List.mem_append_right _ hl, hf⟩
      · exact ⟨l, List.mem_append_left _ hl, hf⟩
    · rintro ⟨l, hl, hf⟩
      rcases List.mem_append.mp hl with h | h
      · exact .inr ⟨l, h, hf⟩
      · exact .inl ⟨l, h, hf⟩
  · intro l hl
    rcases List.mem_append.mp hl with h | h
    · rcases h1.lines l h with h | ⟨a, b, hp, hq⟩
      · exact .inl (.inl h)
      · exact .inr ⟨a, b, .inl hp, hq⟩
    · rcases h2.lines l h with h | ⟨a, b, hp, hq⟩
      · exact .inl (.inr h)
      · exact .inr ⟨a, b, .inr hp, hq⟩
  · rintro l (h | h)
    · exact List.mem_append_left _ (h1.due l h)
    · exact List.mem_append_right _ (h2.due l h)
  · rintro a b (h | h) hab
    · obtain ⟨l, hl, hr⟩ := h1.covers a b h hab
      exact ⟨l, List.mem_append_left _ hl, hr⟩
    · obtain ⟨l, hl, hr⟩ := h2.covers a b h hab
      exact ⟨l, List.mem_append_right _ hl, hr⟩

theorem Logs.congr {cmp cmp' : DObj O → DObj O → Except Err Bool} {of of' : DObj O → LogLine → Prop}
    {p p' : DObj O → DObj O → Prop} {c c' : LogLine → Prop} {n : List LogLine} {e : Bool}
    (h : Logs cmp p c of n e) (hp : ∀ a b, p' a b ↔ p a b) (hc : ∀ l, c' l ↔ c l)
    (hcmp : ∀ a b, p a b → cmp' a b = cmp a b) (hof : ∀ a b l, p a b → (of a l → of' a l)) :
    Logs cmp' p' c' of' n e := by
  constructor
  · exact h.honest
  · intro l hl
    rcases h.lines l hl with h1 | ⟨a, b, h1, h2⟩
    · exact .inl ((hc l).mpr h1)
    · exact .inr ⟨a, b, (hp a b).mpr h1, hof a b l h1 h2⟩
  · exact fun l hl => h.due l ((hc l).mp hl)
  · intro a b hab he
    have hab := (hp a b).mp hab
    obtain ⟨l, hl, hf, ho⟩ := h.covers a b hab (by rw [← hcmp a b hab]; exact he)
    exact ⟨l, hl, hf, hof a b l hab ho⟩

/-- One comparison of two parts. -/
def OneGood (cmp : DObj O → DObj O → LogM Bool) (cmp0 : DObj O → DObj O → Except Err Bool)
    (of : List Char → DObj O → LogLine → Prop) (a b : DObj O) : Prop :=
  ∀ s e s', cmp a b s = .ok (e, s') → cmp0 a b = .ok e ∧
    ∃ new, s.Adds s' new ∧ (e = false ↔ ∃ l ∈ new, l.Found) ∧ ∀ l ∈ new, of s.ctx a l

theorem OneGood.logs {cmp : DObj O → DObj O → LogM Bool} {cmp0 : DObj O → DObj O → Except Err Bool}
    {of : List Char → DObj O → LogLine → Prop} {a b : DObj O} (h : OneGood cmp cmp0 of a b)
    {s s' : LogSt} {e : Bool} (hr : cmp a b s = .ok (e, s')) : cmp0 a b = .ok e ∧
    ∃ new, s.Adds s' new ∧
      Logs cmp0 (fun x y => x = a ∧ y = b) (fun _ => False) (of s.ctx) new e := by
  obtain ⟨h0, new, h1, h2, h3⟩ := h s e s' hr
  refine ⟨h0, new, h1, h2, fun l hl => .inr ⟨a, b, ⟨rfl, rfl⟩, h3 l hl⟩, fun _ h => h.elim, ?_⟩
  rintro x y ⟨rfl, rfl⟩ hxy
  rw [h0] at hxy
  injection hxy with hxy
  obtain ⟨l, hl, hf⟩ := h2.mp hxy
  exact ⟨l, hl, hf, h3 l hl⟩

theorem paired_cons (a b : DObj O) (r r' : List (DObj O)) (x y : DObj O) :
    Paired (a :: r) (b :: r') x y ↔ (x = a ∧ y = b) ∨ Paired r r' x y := by
  constructor
  · rintro ⟨i, h1, h2⟩
    cases i with
    | zero =>
      simp only [List.getElem?_cons_zero, Option.some.injEq] at h1 h2
      exact .inl ⟨h1.symm, h2.symm⟩
    | succ i => exact .inr ⟨i, by simpa using h1, by simpa using h2⟩
  · rintro (⟨rfl, rfl⟩ | ⟨i, h1, h2⟩)
    · exact ⟨0, rfl, rfl⟩
    · exact ⟨i + 1, by simpa using h1, by simpa using h2⟩

theorem cmpPairsL_logs {cmp : DObj O → DObj O → LogM Bool}
    {cmp0 : DObj O → DObj O → Except Err Bool} {of : List Char → DObj O → LogLine → Prop}
    {l1 l2 : List (DObj O)} (hg : ∀ a b, Paired l1 l2 a b → OneGood cmp cmp0 of a b)
    {e0 e : Bool} {s s' : LogSt} (h : cmpPairsL cmp l1 l2 e0 s = .ok (e, s')) :
    cmpPairs cmp0 l1 l2 e0 = .ok e ∧ ∃ new e1, e = (e1 && e0) ∧ s.Adds s' new ∧
      Logs cmp0 (Paired l1 l2) (fun _ => False) (of s.ctx) new e1 := by
  have base : ∀ {l1 l2 : List (DObj O)} {e0 e : Bool} {s s' : LogSt},
      (∀ a b, ¬ Paired l1 l2 a b) → (Except.ok (e0, s) : Except Err _) = .ok (e, s') →
      cmpPairs cmp0 l1 l2 e0 = .ok e0 →
      cmpPairs cmp0 l1 l2 e0 = .ok e ∧ ∃ new e1, e = (e1 && e0) ∧ s.Adds s' new ∧
        Logs cmp0 (Paired l1 l2) (fun _ => False) (of s.ctx) new e1 := by
    intro l1 l2 e0 e s s' hn h h0
    simp only [Except.ok.injEq, Prod.mk.injEq] at h
    obtain ⟨rfl, rfl⟩ := h
    exact ⟨h0, [], true, by simp, .refl _, (Logs.nil (cmp := cmp0) (of := of s.ctx)).congr (fun a b => by simp [hn a b])
      (fun _ => Iff.rfl) (fun _ _ h => h.elim) (fun _ _ _ h => h.elim)⟩
  induction l1 generalizing l2 e0 s with
  | nil =>
    refine base ?_ (by simpa only [cmpPairsL] using h) (by simp only [cmpPairs])
    rintro a b ⟨i, h1, _⟩
    simp at h1
  | cons x xs ih =>
    cases l2 with
    | nil =>
      refine base ?_ (by simpa only [cmpPairsL] using h) (by simp only [cmpPairs])
      rintro a b ⟨i, _, h2⟩
      simp at h2
    | cons y ys =>
      simp only [cmpPairsL] at h
      cases hc : cmp x y s with
      | error e => rw [hc] at h; cases h
      | ok r =>
        obtain ⟨e1, s1⟩ := r
        rw [hc] at h
        simp only at h
        obtain ⟨g0, n1, g1, g2⟩ := (hg x y ((paired_cons ..).mpr (.inl ⟨rfl, rfl⟩))).logs hc
        obtain ⟨i0, n2, e2, i1, i2, i3⟩ :=
          ih (fun a b hab => hg a b ((paired_cons ..).mpr (.inr hab))) h
        refine ⟨by simp only [cmpPairs, g0, i0], n1 ++ n2, e2 && e1, by rw [i1, Bool.and_assoc],
          g1.trans i2, ?_⟩
        rw [g1.1] at i3
        exact (g2.append i3).congr (fun a b => paired_cons ..) (fun _ => by simp)
          (fun _ _ _ => rfl) fun _ _ _ _ h => h

theorem cmpListsL_logs {cmp : DObj O → DObj O → LogM Bool}
    {cmp0 : DObj O → DObj O → Except Err Bool} {of : List Char → DObj O → LogLine → Prop}
    {l1 l2 : List (DObj O)} (hg : ∀ a b, Paired l1 l2 a b → OneGood cmp cmp0 of a b)
    {e0 e : Bool} {s s' : LogSt} (h : cmpListsL cmp l1 l2 e0 s = .ok (e, s')) :
    cmpLists cmp0 l1 l2 e0 = .ok e ∧ ∃ new e1, e = (e1 && e0) ∧ s.Adds s' new ∧
      Logs cmp0 (Paired l1 l2) (CountLine s.ctx l1 l2) (of s.ctx) new e1 := by
  unfold cmpListsL at h
  unfold cmpLists
  by_cases hl : l1.length = l2.length
  · rw [if_neg (by simpa using hl)] at h ⊢
    obtain ⟨g0, n, e1, g1, g2, g3⟩ := cmpPairsL_logs hg h
    exact ⟨g0, n, e1, g1, g2, g3.congr (fun _ _ => Iff.rfl) (fun l => by simp [CountLine, hl])
      (fun _ _ _ => rfl) fun _ _ _ _ h => h⟩
  · rw [if_pos (by simpa using hl)] at h ⊢
    obtain ⟨g0, n, e1, g1, g2, g3⟩ := cmpPairsL_logs hg h
    rw [Bool.and_false] at g1
    refine ⟨g0, [⟨s.ctx, .count l1.length l2.length⟩] ++ n, e1 && false, by simp [g1],
      (LogSt.Adds.add s _).trans g2, ?_⟩
    have g3' : Logs cmp0 (Paired l1 l2) (fun _ => False) (of s.ctx) n e1 := g3
    have hc : Logs cmp0 (fun _ _ => False)
        (fun l => l = ⟨s.ctx, .count l1.length l2.length⟩) (of s.ctx)
        [⟨s.ctx, .count l1.length l2.length⟩] false :=
      ⟨by simp [LogLine.Found, LogMsg.level], fun l hl => .inl (by simpa using hl),
        fun l hl => by simp [hl], fun _ _ h => h.elim⟩
    exact (hc.append g3').congr (fun _ _ => by simp) (fun l => by simp [CountLine, hl])
      (fun _ _ _ => rfl) fun _ _ _ _ h => h

theorem cmpKindsL_logs {cmp : DObj O → DObj O → LogM Bool}
    {cmp0 : DObj O → DObj O → Except Err Bool} {of : List Char → DObj O → LogLine → Prop}
    {ks : List (List (DObj O) × List (DObj O))}
    (hg : ∀ k ∈ ks, ∀ a b, Paired k.1 k.2 a b → OneGood cmp cmp0 of a b)
    {e0 e : Bool} {s s' : LogSt} (h : cmpKindsL cmp ks e0 s = .ok (e, s')) :
    cmpKinds cmp0 ks e0 = .ok e ∧ ∃ new e1, e = (e1 && e0) ∧ s.Adds s' new ∧
      Logs cmp0 (fun a b => ∃ k ∈ ks, Paired k.1 k.2 a b)
        (fun l => ∃ k ∈ ks, CountLine s.ctx k.1 k.2 l) (of s.ctx) new e1 := by
  induction ks generalizing e0 s with
  | nil =>
    simp only [cmpKindsL, Except.ok.injEq, Prod.mk.injEq] at h
    obtain ⟨rfl, rfl⟩ := h
    exact ⟨by simp only [cmpKinds], [], true, by simp, .refl _,
      (Logs.nil (cmp := cmp0) (of := of s.ctx)).congr (by simp) (by simp)
      (fun _ _ h => h.elim) (fun _ _ _ h => h.elim)⟩
  | cons k ks ih =>
    obtain ⟨l1, l2⟩ := k
    simp only [cmpKindsL] at h
    cases hc : cmpListsL cmp l1 l2 e0 s with
    | error e => rw [hc] at h; cases h
    | ok r =>
      obtain ⟨e1, s1⟩ := r
      rw [hc] at h
      simp only at h
      obtain ⟨g0, n1, d1, g1, g2, g3⟩ := cmpListsL_logs (hg (l1, l2) (by simp)) hc
      obtain ⟨i0, n2, d2, i1, i2, i3⟩ := ih (fun k hk => hg k (by simp [hk])) h
      rw [g2.1] at i3
      refine ⟨by simp only [cmpKinds, g0, i0], n1 ++ n2, d2 && d1,
        by rw [i1, g1, Bool.and_assoc], g2.trans i2, ?_⟩
      exact (g3.append i3).congr (fun _ _ => by simp) (fun l => by simp) (fun _ _ _ => rfl)
        fun _ _ _ _ h => h

theorem keptL_eq {env : LogEnv O H} {env0 : DiffEnv O H} (he : Erases env env0)
    (l : List (DObj O)) : keptL env l = env0.kept l := by
  unfold keptL DiffEnv.kept
  simp only [skipObj_any, he.skipFns]

theorem fileDiffL_logs {env : LogEnv O H} {env0 : DiffEnv O H} (he : Erases env env0)
    {cmp : DObj O → DObj O → LogM Bool}
    {cmp0 : DObj O → DObj O → Except Err Bool} {of : List Char → DObj O → LogLine → Prop}
    {f1 f2 : DFile O} (hg : ∀ a b, FilePaired env0 f1 f2 a b → OneGood cmp cmp0 of a b)
    {e : Bool} {s s' : LogSt} (h : fileDiffL env cmp f1 f2 s = .ok (e, s')) :
    fileDiff env0 cmp0 f1 f2 = .ok e ∧ ∃ new, s.Adds s' new ∧
      Logs cmp0 (FilePaired env0 f1 f2) (FileCounts env0 f1 f2 s.ctx) (of s.ctx) new e := by
  unfold fileDiffL at h
  cases hc : cmp (.leaf f1.header) (.leaf f2.header) s with
  | error e => rw [hc] at h; cases h
  | ok r =>
    obtain ⟨e1, s1⟩ := r
    rw [hc] at h
    simp only at h
    obtain ⟨g0, n1, g1, g2⟩ := (hg _ _ (.inl ⟨rfl, rfl⟩)).logs hc
    have hk : kindListsL env f1 f2 = kindLists env0 f1 f2 := by
      simp only [kindListsL, kindLists, keptL_eq he, keptObjs_eq]
    have hpairs : ∀ a b, (∃ k ∈ kindLists env0 f1 f2, Paired k.1 k.2 a b) →
        FilePaired env0 f1 f2 a b := by
      intro a b hab
      simp only [kindLists, keptObjs_eq, List.mem_cons, List.not_mem_nil, or_false] at hab
      obtain ⟨k, rfl | rfl | rfl | rfl | rfl | rfl, hp⟩ := hab
      · exact .inr (.inl hp)
      · exact .inr (.inr (.inl hp))
      · exact .inr (.inr (.inr (.inl hp)))
      · exact .inr (.inr (.inr (.inr (.inl hp))))
      · exact .inr (.inr (.inr (.inr (.inr (.inl hp)))))
      · exact .inr (.inr (.inr (.inr (.inr (.inr hp)))))
    rw [hk] at h
    obtain ⟨i0, n2, e2, i1, i2, i3⟩ :=
      cmpKindsL_logs (fun k hk a b hp => hg a b (hpairs a b ⟨k, hk, hp⟩)) h
    rw [g1.1] at i3
    refine ⟨by simp only [fileDiff, g0, i0], n1 ++ n2, g1.trans i2, ?_⟩
    rw [i1, Bool.and_true]
    refine (g2.append i3).congr (fun a b => ?_) (fun l => ?_) (fun _ _ _ => rfl)
      fun _ _ _ _ h => h
    · simp only [FilePaired, kindLists, keptObjs_eq, List.mem_cons, List.not_mem_nil, or_false,
        exists_eq_or_imp, exists_eq_left]
    · simp only [FileCounts, kindLists, keptObjs_eq, List.mem_cons, List.not_mem_nil, or_false,
        exists_eq_or_imp, exists_eq_left, false_or]

theorem segUserL_logs {cmp : DObj O → DObj O → LogM Bool}
    {cmp0 : DObj O → DObj O → Except Err Bool} {of : List Char → DObj O → LogLine → Prop}
    {s1 s2 : DSeg O} (hg : ∀ u, s1.user = some u → OneGood cmp cmp0 of (.leaf u) (.ofOption s2.user))
    {e0 e : Bool} {s s' : LogSt} (h : segUserL cmp s1 s2 e0 s = .ok (e, s')) :
    segUser cmp0 s1 s2 e0 = .ok e ∧ ∃ new e1, e = (e1 && e0) ∧ s.Adds s' new ∧
      Logs cmp0 (fun a b => ∃ u, s1.user = some u ∧ a = .leaf u ∧ b = .ofOption s2.user)
        (fun _ => False) (of s.ctx) new e1 := by
  unfold segUserL at h
  unfold segUser
  cases hu : s1.user with
  | none =>
    rw [hu] at h
    simp only [Except.ok.injEq, Prod.mk.injEq] at h
    obtain ⟨rfl, rfl⟩ := h
    exact ⟨rfl, [], true, by simp, .refl _, (Logs.nil (cmp := cmp0) (of := of s.ctx)).congr
      (by simp) (by simp) (fun _ _ h => h.elim) (fun _ _ _ h => h.elim)⟩
  | some u =>
    rw [hu] at h
    simp only at h
    cases hc : cmp (.leaf u) (.ofOption s2.user) s with
    | error e => rw [hc] at h; cases h
    | ok r =>
      obtain ⟨e1, t⟩ := r
      rw [hc] at h
      simp only [Except.ok.injEq, Prod.mk.injEq] at h
      obtain ⟨rfl, rfl⟩ := h
      obtain ⟨g0, n, g1, g2⟩ := (hg u hu).logs hc
      exact ⟨by simp [g0, Except.map], n, e1, rfl, g1, g2.congr (by simp) (by simp)
        (fun _ _ _ => rfl) fun _ _ _ _ h => h⟩

theorem withCtx_ok {α : Type} {v : List Char} {add : Bool} {f : LogM α} {s s' : LogSt} {r : α}
    (h : withCtx v add f s = .ok (r, s')) :
    ∃ s1, f ⟨if add then s.ctx ++ ' ' :: v else v, s.log⟩ = .ok (r, s1) ∧
      s' = ⟨s.ctx, s1.log⟩ := by
  unfold withCtx at h
  cases hf : f ⟨if add then s.ctx ++ ' ' :: v else v, s.log⟩ with
  | error e => rw [hf] at h; cases h
  | ok y =>
    obtain ⟨a, t⟩ := y
    rw [hf] at h
    simp only [Except.ok.injEq, Prod.mk.injEq] at h
    obtain ⟨rfl, rfl⟩ := h
    exact ⟨t, rfl, rfl⟩

/-- What comparing two segments of the same type has logged: nothing if both hold TRE overflow,
otherwise the lines of its parts, in the context of the segment. -/
def SegLogs (env : LogEnv O H) (env0 : DiffEnv O H) (cmp : DObj O → DObj O → Except Err Bool)
    (Q : List Char → DObj O → LogLine → Prop) (s1 s2 : DSeg O) (new : List LogLine) (same : Bool) :
    Prop :=
  (env0.overflow s1.subheader = true ∧ env0.overflow s2.subheader = true ∧ new = [] ∧
    same = true) ∨
  ∃ d, env.desc s1 = .ok d ∧
    Logs cmp (SegPaired env0 s1 s2)
      (CountLine d (env0.kept (s1.tres.map .leaf)) (env0.kept (s2.tres.map .leaf))) (Q d) new same

theorem segDiffL_logs {env : LogEnv O H} {env0 : DiffEnv O H} (he : Erases env env0)
    {cmp : DObj O → DObj O → LogM Bool}
    {cmp0 : DObj O → DObj O → Except Err Bool} {Q : List Char → DObj O → LogLine → Prop}
    {s1 s2 : DSeg O} (hg : ∀ a b, SegPaired env0 s1 s2 a b → OneGood cmp cmp0 Q a b)
    {r : Option Bool} {s s' : LogSt} (h : segDiffL env cmp s1 s2 s = .ok (r, s')) :
    segDiff env0 cmp0 s1 s2 = .ok r ∧
    ((r = none ∧ s' = s) ∨
    ∃ e new, r = some e ∧ s.Adds s' new ∧ s1.type = s2.type ∧
      SegLogs env env0 cmp0 Q s1 s2 new e) := by
  unfold segDiffL at h
  unfold segDiff
  by_cases ht : s1.type = s2.type
  · rw [if_neg (by simpa using ht)] at h ⊢
    rw [he.overflow] at h
    by_cases ho : (env0.overflow s1.subheader && env0.overflow s2.subheader) = true
    · rw [if_pos ho] at h ⊢
      simp only [Except.ok.injEq, Prod.mk.injEq] at h
      obtain ⟨rfl, rfl⟩ := h
      simp only [Bool.and_eq_true] at ho
      exact ⟨rfl, .inr ⟨true, [], rfl, .refl _, ht, .inl ⟨ho.1, ho.2, rfl, rfl⟩⟩⟩
    · rw [if_neg ho] at h ⊢
      cases hd : env.desc s1 with
      | error e => rw [hd] at h; cases h
      | ok d =>
      rw [hd] at h
      simp only at h
      generalize hw : withCtx d false (segBodyL env cmp s1 s2) s = w at h
      cases w with
      | error e => cases h
      | ok w =>
      obtain ⟨e, t⟩ := w
      simp only [Except.ok.injEq, Prod.mk.injEq] at h
      obtain ⟨rfl, rfl⟩ := h
      obtain ⟨t1, hb, rfl⟩ := withCtx_ok hw
      simp only [Bool.false_eq_true, if_false] at hb
      unfold segBodyL at hb
      cases h1 : cmp (.leaf s1.subheader) (.leaf s2.subheader) ⟨d, s.log⟩ with
      | error e => rw [h1] at hb; cases hb
      | ok r1 =>
      obtain ⟨e1, u1⟩ := r1
      rw [h1] at hb
      simp only at hb
      obtain ⟨g0, n1, g1, g2⟩ := (hg _ _ (.inl ⟨rfl, rfl⟩)).logs h1
      cases h2 : segUserL cmp s1 s2 e1 u1 with
      | error e => rw [h2] at hb; cases hb
      | ok r2 =>
      obtain ⟨e2, u2⟩ := r2
      rw [h2] at hb
      simp only at hb
      obtain ⟨i0, n2, d2, i1, i2, i3⟩ :=
        segUserL_logs (fun u hu => hg _ _ (.inr (.inl ⟨u, hu, rfl, rfl⟩))) h2
      cases h3 : cmpListsL cmp (keptL env (s1.tres.map .leaf)) (keptL env (s2.tres.map .leaf)) e2
          u2 with
      | error e => rw [h3] at hb; cases hb
      | ok r3 =>
      obtain ⟨e3, u3⟩ := r3
      rw [h3] at hb
      simp only at hb
      rw [keptL_eq he, keptL_eq he] at h3
      obtain ⟨j0, n3, d3, j1, j2, j3⟩ :=
        cmpListsL_logs (fun a b hab => hg _ _ (.inr (.inr (.inl hab)))) h3
      cases h4 : cmp (.ofOption s1.data) (.ofOption s2.data) u3 with
      | error e => rw [h4] at hb; cases hb
      | ok r4 =>
      obtain ⟨e4, u4⟩ := r4
      rw [h4] at hb
      simp only [Except.ok.injEq, Prod.mk.injEq] at hb
      obtain ⟨rfl, rfl⟩ := hb
      obtain ⟨k0, n4, k1, k2⟩ := (hg _ _ (.inr (.inr (.inr ⟨rfl, rfl⟩)))).logs h4
      rw [keptObjs_eq, keptObjs_eq]
      refine ⟨by simp only [g0, i0, j0, k0], .inr ⟨e4 && e3, n1 ++ (n2 ++ (n3 ++ n4)), rfl, ?_, ht,
        .inr ⟨d, hd, ?_⟩⟩⟩
      · exact ⟨rfl, (g1.trans (i2.trans (j2.trans k1))).2⟩
      · have c1 : u1.ctx = d := g1.1
        have c2 : u2.ctx = d := i2.1.trans c1
        have c3 : u3.ctx = d := j2.1.trans c2
        rw [c1] at i3
        rw [c2] at j3
        rw [c3] at k2
        have := g2.append (i3.append (j3.append k2))
        rw [j1, i1, ← Bool.and_assoc, ← Bool.and_assoc]
        exact this.congr (fun a b => by simp only [SegPaired]) (fun l => by simp)
          (fun _ _ _ => rfl) fun _ _ _ _ h => h
  · rw [if_pos (by simpa using ht)] at h ⊢
    simp only [Except.ok.injEq, Prod.mk.injEq] at h
    obtain ⟨rfl, rfl⟩ := h
    exact ⟨rfl, .inl ⟨rfl, rfl⟩⟩

/-! #### The handler set -/

section
variable {G R σ : Type}

theorem tryHandles_rel {f : G → σ → Except Err (Option R × σ)} {Q : σ → R → σ → Prop}
    (hf : ∀ h s x s', f h s = .ok (x, s') → (x = none ∧ s' = s) ∨ ∃ r, x = some r ∧ Q s r s') :
    ∀ (l : List G) (s s' : σ) (res x : Option R), tryHandles f l res s = .ok (x, s') →
      (x = res ∧ s' = s) ∨ (res = none ∧ ∃ r, x = some r ∧ Q s r s') := by
  intro l
  induction l with
  | nil =>
    intro s s' res x h
    simp only [tryHandles, Except.ok.injEq, Prod.mk.injEq] at h
    exact .inl ⟨h.1.symm, h.2.symm⟩
  | cons g l ih =>
    intro s s' res x h
    unfold tryHandles at h
    cases hg : f g s with
    | error e => rw [hg] at h; cases h
    | ok y =>
      obtain ⟨y, t⟩ := y
      rw [hg] at h
      rcases hf _ _ _ _ hg with ⟨rfl, rfl⟩ | ⟨r, rfl, hq⟩
      · exact ih _ _ _ _ h
      · cases res with
        | some r' => cases h
        | none =>
          simp only at h
          rcases ih _ _ _ _ h with ⟨rfl, rfl⟩ | ⟨h1, _⟩
          · exact .inr ⟨rfl, r, rfl, hq⟩
          · cases h1

theorem handle_rel [DecidableEq G] {it : IterOrder G} {f : G → σ → Except Err (Option R × σ)}
    {hp : Heap G} {o : HandleSet} {Q : σ → R → σ → Prop}
    (hf : ∀ h s x s', f h s = .ok (x, s') → (x = none ∧ s' = s) ∨ ∃ r, x = some r ∧ Q s r s')
    {s s' : σ} {r : R} (h : o.handle it f hp s = .ok (r, s')) : Q s r s' := by
  unfold HandleSet.handle at h
  generalize o.keysDesc = ks at h
  induction ks generalizing s with
  | nil => cases h
  | cons k ks ih =>
    unfold handleLoop at h
    cases ht : tryHandles f (it k (o.at hp k)) none s with
    | error e => rw [ht] at h; cases h
    | ok y =>
      obtain ⟨y, t⟩ := y
      rw [ht] at h
      rcases tryHandles_rel hf _ _ _ _ _ ht with ⟨rfl, rfl⟩ | ⟨_, r', rfl, hq⟩
      · exact ih h
      · simp only [Except.ok.injEq, Prod.mk.injEq] at h
        obtain ⟨rfl, rfl⟩ := h
        exact hq

theorem tryHandles_erase {f : G → σ → Except Err (Option R × σ)} {f0 : G → Except Err (Option R)}
    (hf : ∀ h s x s', f h s = .ok (x, s') → f0 h = .ok x) :
    ∀ (l : List G) (s s' : σ) (res x : Option R), tryHandles f l res s = .ok (x, s') →
      tryHandles (fun h (u : Unit) => (f0 h).map fun r => (r, u)) l res () = .ok (x, ()) := by
  intro l
  induction l with
  | nil =>
    intro s s' res x h
    simp only [tryHandles, Except.ok.injEq, Prod.mk.injEq] at h
    simp only [tryHandles, h.1]
  | cons g l ih =>
    intro s s' res x h
    unfold tryHandles at h ⊢
    cases hg : f g s with
    | error e => rw [hg] at h; cases h
    | ok y =>
      obtain ⟨y, t⟩ := y
      rw [hg] at h
      rw [hf _ _ _ _ hg]
      cases y with
      | none => exact ih _ _ _ _ h
      | some r =>
        cases res with
        | some r' => cases h
        | none => exact ih _ _ _ _ h

theorem handle_erase [DecidableEq G] {it : IterOrder G} {f : G → σ → Except Err (Option R × σ)}
    {f0 : G → Except Err (Option R)} {hp : Heap G} {o : HandleSet}
    (hf : ∀ h s x s', f h s = .ok (x, s') → f0 h = .ok x)
    {s s' : σ} {r : R} (h : o.handle it f hp s = .ok (r, s')) :
    o.handle it (fun h (u : Unit) => (f0 h).map fun r => (r, u)) hp () = .ok (r, ()) := by
  unfold HandleSet.handle at h ⊢
  generalize o.keysDesc = ks at h
  induction ks generalizing s with
  | nil => cases h
  | cons k ks ih =>
    unfold handleLoop at h ⊢
    cases ht : tryHandles f (it k (o.at hp k)) none s with
    | error e => rw [ht] at h; cases h
    | ok y =>
      obtain ⟨y, t⟩ := y
      rw [ht] at h
      rw [tryHandles_erase hf _ _ _ _ _ ht]
      cases y with
      | none => exact ih h
      | some r' =>
        simp only [Except.ok.injEq, Prod.mk.injEq] at h ⊢
        exact ⟨h.1, trivial⟩

end

/-! #### Files, segments, other objects -/

variable [DecidableEq H]

/-- What comparing two objects has logged: two files, two segments, or anything else. -/
def ObjLogs (env : LogEnv O H) (env0 : DiffEnv O H) (cmp : DObj O → DObj O → Except Err Bool)
    (Q : List Char → DObj O → LogLine → Prop) (c : List Char) (a b : DObj O) (new : List LogLine)
    (same : Bool) : Prop :=
  match a, b with
  | .file f1, .file f2 =>
    Logs cmp (FilePaired env0 f1 f2) (FileCounts env0 f1 f2 c) (PartLine env.desc Q c) new same
  | .seg s1, .seg s2 => s1.type = s2.type ∧ SegLogs env env0 cmp Q s1 s2 new same
  | a, _ => (same = false ↔ ∃ l ∈ new, l.Found) ∧ ∀ l ∈ new, Q c a l

theorem segPaired_level {env0 : DiffEnv O H} {s1 s2 : DSeg O} {a b : DObj O}
    (h : SegPaired env0 s1 s2 a b) : a.level = 0 := by
  rcases h with ⟨rfl, _⟩ | ⟨u, _, rfl, _⟩ | h | ⟨rfl, _⟩
  · rfl
  · rfl
  · exact kept_level h
  · exact level_ofOption _

theorem filePaired_cases {env0 : DiffEnv O H} {f1 f2 : DFile O} {a b : DObj O}
    (h : FilePaired env0 f1 f2 a b) : a.level = 0 ∨ ∃ s t, a = .seg s ∧ b = .seg t := by
  rcases h with ⟨rfl, _⟩ | h | h | h | h | h | h
  · exact .inl rfl
  · exact .inl (kept_level h)
  all_goals exact .inr (kept_seg h)

theorem objLogs_leaf {env : LogEnv O H} {env0 : DiffEnv O H}
    {cmp : DObj O → DObj O → Except Err Bool} {Q : List Char → DObj O → LogLine → Prop}
    {c : List Char} {a b : DObj O} {new : List LogLine} {same : Bool} (ha : a.level = 0)
    (h : ObjLogs env env0 cmp Q c a b new same) :
    (same = false ↔ ∃ l ∈ new, l.Found) ∧ ∀ l ∈ new, Q c a l := by
  cases a with
  | none => exact h
  | leaf o => exact h
  | seg s => cases ha
  | file f => cases ha

theorem objLogs_part {env : LogEnv O H} {env0 : DiffEnv O H}
    {cmp : DObj O → DObj O → Except Err Bool} {Q : List Char → DObj O → LogLine → Prop}
    {c : List Char} {a b : DObj O} {new : List LogLine} {same : Bool}
    (hab : a.level = 0 ∨ ∃ s t, a = .seg s ∧ b = .seg t)
    (h : ObjLogs env env0 cmp Q c a b new same) :
    (same = false ↔ ∃ l ∈ new, l.Found) ∧ ∀ l ∈ new, PartLine env.desc Q c a l := by
  rcases hab with ha | ⟨s1, s2, rfl, rfl⟩
  · cases a with
    | none => exact h
    | leaf o => exact h
    | seg s => cases ha
    | file f => cases ha
  · obtain ⟨_, h⟩ := h
    rcases h with ⟨_, _, rfl, rfl⟩ | ⟨d, hd, h⟩
    · simp
    · refine ⟨h.honest, fun l hl => ⟨d, hd, ?_⟩⟩
      rcases h.lines l hl with ⟨h1, rfl⟩ | ⟨x, y, hxy, hq⟩
      · exact .inl ⟨rfl, _, _, h1, rfl⟩
      · exact .inr ⟨x, segPaired_level hxy, hq⟩

/-- What comparing two objects does, with the usual handlers for files and segments. -/
theorem compareObjsL_good {it : IterOrder (DHandle H)} {hp : Heap (DHandle H)} {o : HandleSet}
    {env : LogEnv O H} {env0 : DiffEnv O H} {Q : List Char → DObj O → LogLine → Prop}
    (he : Erases env env0) (hq : HonestHandlers Q env) (hstd : StandardLog env) (n : Nat) :
    ∀ (a b : DObj O), a.level < n → ∀ (s s' : LogSt) (e : Bool),
    compareObjsL it hp o env n a b s = .ok (e, s') →
    compareObjs it hp o env0 n a b = .ok e ∧ ∃ new, s.Adds s' new ∧
      ObjLogs env env0 (compareAny it hp o env0) Q s.ctx a b new e := by
  induction n with
  | zero => intro a b h; omega
  | succ n ih =>
    intro a b ha s s' e h
    have hdep : ∀ x y : DObj O, x.level < n → x.level < 3 →
        compareAny it hp o env0 x y = compareObjs it hp o env0 n x y :=
      fun x y h1 h2 => compareObjs_depth it hp o env0 3 n x y h2 h1
    -- the parts
    have gfile : ∀ f1 f2, a = .file f1 → ∀ x y, FilePaired env0 f1 f2 x y →
        x.level < n ∧ x.level < 3 ∧
        OneGood (compareObjsL it hp o env n) (compareObjs it hp o env0 n)
          (PartLine env.desc Q) x y := by
      rintro f1 f2 rfl x y hxy
      have hc := filePaired_cases hxy
      have hl : x.level ≤ 1 := by
        rcases hc with h | ⟨_, _, rfl, _⟩
        · omega
        · exact Nat.le_refl _
      have hn : x.level < n := by simp only [DObj.level] at ha; omega
      refine ⟨hn, by omega, fun t e' t' hr => ?_⟩
      obtain ⟨h0, new, h1, h2⟩ := ih x y hn t t' e' hr
      exact ⟨h0, new, h1, objLogs_part hc h2⟩
    have gseg : ∀ s1 s2, a = .seg s1 → ∀ x y, SegPaired env0 s1 s2 x y →
        x.level < n ∧ x.level < 3 ∧
        OneGood (compareObjsL it hp o env n) (compareObjs it hp o env0 n) Q x y := by
      rintro s1 s2 rfl x y hxy
      have hl := segPaired_level hxy
      have hn : x.level < n := by simp only [DObj.level] at ha; omega
      refine ⟨hn, by omega, fun t e' t' hr => ?_⟩
      obtain ⟨h0, new, h1, h2⟩ := ih x y hn t t' e' hr
      exact ⟨h0, new, h1, objLogs_leaf hl h2⟩
    -- the handlers
    have key : ∀ g t x t', handleDiffL env (compareObjsL it hp o env n) g a b t = .ok (x, t') →
        handleDiff env0 (compareObjs it hp o env0 n) g a b = .ok x ∧
        ((x = none ∧ t' = t) ∨ ∃ r, x = some r ∧ ∃ new, t.Adds t' new ∧
          ObjLogs env env0 (compareAny it hp o env0) Q t.ctx a b new r) := by
      intro g t x t' hg
      cases g with
      | nitfFile =>
        by_cases hab : ∃ f1 f2, a = .file f1 ∧ b = .file f2
        · obtain ⟨f1, f2, rfl, rfl⟩ := hab
          simp only [handleDiffL] at hg
          cases hf : fileDiffL env (compareObjsL it hp o env n) f1 f2 t with
          | error e => rw [hf] at hg; cases hg
          | ok r =>
            obtain ⟨e', t1⟩ := r
            rw [hf] at hg
            simp only [Except.map, Except.ok.injEq, Prod.mk.injEq] at hg
            obtain ⟨rfl, rfl⟩ := hg
            obtain ⟨h0, new, h1, h2⟩ := fileDiffL_logs he (cmp0 := compareObjs it hp o env0 n)
              (of := PartLine env.desc Q) (fun x y hxy => (gfile f1 f2 rfl x y hxy).2.2) hf
            refine ⟨by simp only [handleDiff, h0, Except.map], .inr ⟨e', rfl, new, h1, ?_⟩⟩
            exact h2.congr (fun _ _ => Iff.rfl) (fun _ => Iff.rfl)
              (fun x y hxy => hdep x y (gfile f1 f2 rfl x y hxy).1 (gfile f1 f2 rfl x y hxy).2.1)
              fun _ _ _ _ h => h
        · have h1 : handleDiffL env (compareObjsL it hp o env n) .nitfFile a b t = .ok (none, t) := by
            unfold handleDiffL
            cases a <;> cases b <;> first | rfl | exact absurd ⟨_, _, rfl, rfl⟩ hab
          have h2 : handleDiff env0 (compareObjs it hp o env0 n) .nitfFile a b = .ok none := by
            unfold handleDiff
            cases a <;> cases b <;> first | rfl | exact absurd ⟨_, _, rfl, rfl⟩ hab
          rw [h1] at hg
          simp only [Except.ok.injEq, Prod.mk.injEq] at hg
          obtain ⟨rfl, rfl⟩ := hg
          exact ⟨h2, .inl ⟨rfl, rfl⟩⟩
      | segment =>
        by_cases hab : ∃ s1 s2, a = .seg s1 ∧ b = .seg s2
        · obtain ⟨s1, s2, rfl, rfl⟩ := hab
          simp only [handleDiffL] at hg
          obtain ⟨h0, h1⟩ := segDiffL_logs he (cmp0 := compareObjs it hp o env0 n)
              (fun x y hxy => (gseg s1 s2 rfl x y hxy).2.2) hg
          refine ⟨by simp only [handleDiff, h0], ?_⟩
          rcases h1 with h1 | ⟨e', new, rfl, h2, h3, h4⟩
          · exact .inl h1
          · refine .inr ⟨e', rfl, new, h2, h3, ?_⟩
            rcases h4 with h4 | ⟨d, hd, h4⟩
            · exact .inl h4
            · exact .inr ⟨d, hd, h4.congr (fun _ _ => Iff.rfl) (fun _ => Iff.rfl)
                (fun x y hxy => hdep x y (gseg s1 s2 rfl x y hxy).1 (gseg s1 s2 rfl x y hxy).2.1)
                fun _ _ _ _ h => h⟩
        · have h1 : handleDiffL env (compareObjsL it hp o env n) .segment a b t = .ok (none, t) := by
            unfold handleDiffL
            cases a <;> cases b <;> first | rfl | exact absurd ⟨_, _, rfl, rfl⟩ hab
          have h2 : handleDiff env0 (compareObjs it hp o env0 n) .segment a b = .ok none := by
            unfold handleDiff
            cases a <;> cases b <;> first | rfl | exact absurd ⟨_, _, rfl, rfl⟩ hab
          rw [h1] at hg
          simp only [Except.ok.injEq, Prod.mk.injEq] at hg
          obtain ⟨rfl, rfl⟩ := hg
          exact ⟨h2, .inl ⟨rfl, rfl⟩⟩
      | other g =>
        have hg' : env.other g a b t = .ok (x, t') := hg
        refine ⟨he.other _ _ _ _ _ _ hg', ?_⟩
        rcases hq _ _ _ _ _ _ hg' with h1 | ⟨e', new, rfl, h1, h2, h3⟩
        · exact .inl h1
        · refine .inr ⟨e', rfl, new, h1, ?_⟩
          by_cases hfs : (∃ f1 f2, a = .file f1 ∧ b = .file f2) ∨ ∃ s1 s2, a = .seg s1 ∧ b = .seg s2
          · have := hstd g a b t hfs
            rw [hg'] at this
            simp at this
          · unfold ObjLogs
            cases a <;> cases b <;> first
              | exact ⟨h2, h3⟩
              | exact absurd (.inl ⟨_, _, rfl, rfl⟩) hfs
              | exact absurd (.inr ⟨_, _, rfl, rfl⟩) hfs
    unfold compareObjsL at h
    have r1 := handle_erase (f0 := fun g => handleDiff env0 (compareObjs it hp o env0 n) g a b)
      (fun g t x t' hg => (key g t x t' hg).1) h
    have r2 := handle_rel (fun g t x t' hg => (key g t x t' hg).2) h
    exact ⟨by unfold compareObjs; rw [r1]; rfl, r2⟩

/-- C73.  When a comparison of two files returns, with any handlers that are themselves honest:

* it returns what the comparison without a log returns (what that is says C44);
* the context is as it was before, and lines have been added to the log, nothing else;
* the result is "different" if and only if a line of the level "difference" was added;
* for each kind of TRE or segment of which the files have different numbers there is a line saying
  so, in the context of the file;
* every pair of TREs or segments that compares different has a line of its own saying so, and all
  other lines come from such pairs.  The lines of a segment are in the context of the segment:
  its description, or what the handlers of its parts make of that.

For all files, skip functions, sets of handlers, iteration orders and contexts. -/
theorem C73_file {it : IterOrder (DHandle H)} {hp : Heap (DHandle H)} {o : HandleSet}
    {env : LogEnv O H} {env0 : DiffEnv O H} {Q : List Char → DObj O → LogLine → Prop}
    (he : Erases env env0) (hq : HonestHandlers Q env) (hstd : StandardLog env)
    {f1 f2 : DFile O} {s s' : LogSt} {same : Bool}
    (h : compareLog it hp o env (.file f1) (.file f2) s = .ok (same, s')) :
    compareAny it hp o env0 (.file f1) (.file f2) = .ok same ∧ ∃ new, s.Adds s' new ∧
      Logs (compareAny it hp o env0) (FilePaired env0 f1 f2) (FileCounts env0 f1 f2 s.ctx)
        (PartLine env.desc Q s.ctx) new same :=
  compareObjsL_good he hq hstd 3 _ _ (by simp [DObj.level]) _ _ _ h

/-- C73, segments. -/
theorem C73_segment {it : IterOrder (DHandle H)} {hp : Heap (DHandle H)} {o : HandleSet}
    {env : LogEnv O H} {env0 : DiffEnv O H} {Q : List Char → DObj O → LogLine → Prop}
    (he : Erases env env0) (hq : HonestHandlers Q env) (hstd : StandardLog env)
    {s1 s2 : DSeg O} {s s' : LogSt} {same : Bool}
    (h : compareLog it hp o env (.seg s1) (.seg s2) s = .ok (same, s')) :
    compareAny it hp o env0 (.seg s1) (.seg s2) = .ok same ∧ ∃ new, s.Adds s' new ∧
      s1.type = s2.type ∧ SegLogs env env0 (compareAny it hp o env0) Q s1 s2 new same :=
  compareObjsL_good he hq hstd 3 _ _ (by simp [DObj.level]) _ _ _ h

/-- C73, anything else. -/
theorem C73_object {it : IterOrder (DHandle H)} {hp : Heap (DHandle H)} {o : HandleSet}
    {env : LogEnv O H} {env0 : DiffEnv O H} {Q : List Char → DObj O → LogLine → Prop}
    (he : Erases env env0) (hq : HonestHandlers Q env) (hstd : StandardLog env)
    {a b : DObj O} (ha : a.level = 0) {s s' : LogSt} {same : Bool}
    (h : compareLog it hp o env a b s = .ok (same, s')) :
    compareAny it hp o env0 a b = .ok same ∧ ∃ new, s.Adds s' new ∧
      (same = false ↔ ∃ l ∈ new, l.Found) ∧ ∀ l ∈ new, Q s.ctx a l := by
  obtain ⟨h0, new, h1, h2⟩ := compareObjsL_good he hq hstd 3 _ _ (by omega) _ _ _ h
  exact ⟨h0, new, h1, objLogs_leaf ha h2⟩

end

/-! ### With the handlers registered by default -/

section
variable {P : PyFloat}

/-- Contexts that do not depend on where the objects are, by class. -/
def LeafCls.ownCtx : LeafCls → Option String
  | .struct .fileHeader => some "NITF File Header"
  | .struct .assocUser => some "DesAssociatedUserSubheader"
  | .struct .extHeader => some "DesExtContentHeader"
  | .struct .csatta => some "DesCSATTB"
  | .struct .csattb => some "DesCSATTB"
  | .struct .cscsdb => some "DesCSCSDB"
  | .struct .csephb => some "DesCSEPHB"
  | .struct .cssfab => some "DesCSSFAB"
  | .extDef => some "DesExtDefContent"
  | _ => none

/-- The lines of an object that is not a file or a segment: the context starts with the one around,
or it is that of the class of the object. -/
def LeafLine (c : List Char) (a : DObj (Leaf P)) (l : LogLine) : Prop :=
  c <+: l.ctx ∨ ∃ o n, a = .leaf o ∧ o.cls.ownCtx = some n ∧ l.ctx = n.toList

theorem compareNames_honest {c : DiffConfig P.F} {d1 d2 : Desc} {S1 S2 : Store P.F} :
    ∀ {l1 l2 : List Name} {b : Bool} {log : List Report},
    compareNames P c d1 d2 S1 S2 l1 l2 = .ok (b, log) →
    (b = false ↔ ∃ r ∈ log, (LogMsg.field r).level = .found) := by
  intro l1
  induction l1 with
  | nil =>
    intro l2 b log h
    cases l2 with
    | nil =>
      simp only [compareNames, Except.ok.injEq, Prod.mk.injEq] at h
      obtain ⟨rfl, rfl⟩ := h
      simp
    | cons y ys =>
      simp only [compareNames] at h
      cases hf : fetch P d2 S2 y with
      | error e => rw [hf] at h; cases h
      | ok v =>
        rw [hf] at h
        simp only [Except.map, Except.ok.injEq, Prod.mk.injEq] at h
        obtain ⟨rfl, rfl⟩ := h
        simp [LogMsg.level]
  | cons x xs ih =>
    intro l2 b log h
    cases l2 with
    | nil =>
      simp only [compareNames] at h
      cases hf : fetch P d1 S1 x with
      | error e => rw [hf] at h; cases h
      | ok v =>
        rw [hf] at h
        simp only [Except.map, Except.ok.injEq, Prod.mk.injEq] at h
        obtain ⟨rfl, rfl⟩ := h
        simp [LogMsg.level]
    | cons y ys =>
      unfold compareNames at h
      cases hf1 : fetch P d1 S1 x with
      | error e => rw [hf1] at h; cases h
      | ok v1 =>
      cases hf2 : fetch P d2 S2 y with
      | error e => rw [hf1, hf2] at h; cases h
      | ok v2 =>
      rw [hf1, hf2] at h
      simp only at h
      split at h
      · simp only [Except.ok.injEq, Prod.mk.injEq] at h
        obtain ⟨rfl, rfl⟩ := h
        simp [LogMsg.level]
      · split at h
        · exact ih h
        · split at h
          · exact ih h
          · split at h
            · cases h
            · split at h
              · cases h
              · rename_i hr
                have := ih hr
                split at h
                · simp only [Except.ok.injEq, Prod.mk.injEq] at h
                  obtain ⟨rfl, rfl⟩ := h
                  exact this
                · split at h
                  · simp only [Except.ok.injEq, Prod.mk.injEq] at h
                    obtain ⟨rfl, rfl⟩ := h
                    simp [this, LogMsg.level]
                  · simp only [Except.ok.injEq, Prod.mk.injEq] at h
                    obtain ⟨rfl, rfl⟩ := h
                    simp [LogMsg.level]

theorem addAll_adds (ms : List LogMsg) : ∀ s : LogSt,
    s.Adds (s.addAll ms) (ms.map fun m => ⟨s.ctx, m⟩) := by
  induction ms with
  | nil => exact fun s => .refl s
  | cons m ms ih => exact fun s => (LogSt.Adds.add s m).trans (ih (s.add m))

/-- A leaf comparison: result as `r0`, honest, all lines in contexts `C` allows. -/
def LeafGood (f : LogM Bool) (r0 : Except Err Bool) (C : List Char → List Char → Prop) : Prop :=
  ∀ s e s', f s = .ok (e, s') → r0 = .ok e ∧
    ∃ new, s.Adds s' new ∧ (e = false ↔ ∃ l ∈ new, l.Found) ∧ ∀ l ∈ new, C s.ctx l.ctx

theorem LeafGood.error {e : Err} {r0 : Except Err Bool} {C : List Char → List Char → Prop} :
    LeafGood (fun _ => .error e) r0 C := by
  intro s e s' h
  cases h

theorem LeafGood.same {C : List Char → List Char → Prop} :
    LeafGood (fun s => .ok (true, s)) (.ok true) C := by
  intro s e s' h
  simp only [Except.ok.injEq, Prod.mk.injEq] at h
  obtain ⟨rfl, rfl⟩ := h
  exact ⟨rfl, [], .refl _, by simp, by simp⟩

theorem LeafGood.note {m : LogMsg} (hm : m.level ≠ .found) :
    LeafGood (fun s => .ok (true, s.add m)) (.ok true) (· = ·) := by
  intro s e s' h
  simp only [Except.ok.injEq, Prod.mk.injEq] at h
  obtain ⟨rfl, rfl⟩ := h
  exact ⟨rfl, _, LogSt.Adds.add _ _, by simpa [LogLine.Found] using hm, by simp⟩

theorem LeafGood.logIf {b : Bool} {m : LogMsg} (hm : m.level = .found) :
    LeafGood (logIf b m) (.ok b) (· = ·) := by
  intro s e s' h
  unfold Verif.logIf at h
  cases b with
  | true => exact LeafGood.same s e s' (by simpa using h)
  | false =>
    simp only [Bool.false_eq_true, if_false, Except.ok.injEq, Prod.mk.injEq] at h
    obtain ⟨rfl, rfl⟩ := h
    exact ⟨rfl, _, LogSt.Adds.add _ _, by simpa [LogLine.Found] using hm, by simp⟩

theorem LeafGood.obj {c : DiffConfig P.F} {d1 d2 : Desc} {S1 S2 : Store P.F} :
    LeafGood (compareObjL P c d1 d2 S1 S2) ((compareObj P c d1 d2 S1 S2).map (·.1)) (· = ·) := by
  intro s e s' h
  unfold compareObjL at h
  cases hc : compareObj P c d1 d2 S1 S2 with
  | error x => rw [hc] at h; cases h
  | ok r =>
    obtain ⟨b, log⟩ := r
    rw [hc] at h
    simp only [Except.ok.injEq, Prod.mk.injEq] at h
    obtain ⟨rfl, rfl⟩ := h
    refine ⟨rfl, _, addAll_adds _ s, ?_, by simp⟩
    rw [compareNames_honest hc]
    constructor
    · rintro ⟨r, hr, hf⟩
      exact ⟨⟨s.ctx, .field r⟩, by simpa using hr, hf⟩
    · rintro ⟨l, hl, hf⟩
      simp only [List.mem_map] at hl
      obtain ⟨_, ⟨r, hr, rfl⟩, rfl⟩ := hl
      exact ⟨r, hr, hf⟩

theorem LeafGood.ctx {f : LogM Bool} {r0 : Except Err Bool} (h : LeafGood f r0 (· = ·))
    {v : List Char} {add : Bool} :
    LeafGood (withCtx v add f) r0 (fun c x => (if add then c ++ ' ' :: v else v) = x) := by
  intro s e s' hr
  obtain ⟨s1, h1, rfl⟩ := withCtx_ok hr
  obtain ⟨h0, new, h2, h3, h4⟩ := h _ _ _ h1
  exact ⟨h0, new, ⟨rfl, h2.2⟩, h3, h4⟩

theorem LeafGood.imp {f : LogM Bool} {r0 : Except Err Bool} {C C' : List Char → List Char → Prop}
    (h : LeafGood f r0 C) (hc : ∀ c x, C c x → C' c x) : LeafGood f r0 C' := by
  intro s e s' hr
  obtain ⟨h0, new, h2, h3, h4⟩ := h _ _ _ hr
  exact ⟨h0, new, h2, h3, fun l hl => hc _ _ (h4 l hl)⟩

/-- The contexts of `LeafLine`. -/
def LeafCtx (a : Leaf P) (c x : List Char) : Prop :=
  c <+: x ∨ ∃ n, a.cls.ownCtx = some n ∧ x = n.toList

theorem LeafGood.here {f : LogM Bool} {r0 : Except Err Bool} (h : LeafGood f r0 (· = ·))
    (a : Leaf P) : LeafGood f r0 (LeafCtx a) :=
  h.imp fun _ _ hx => .inl (hx ▸ List.prefix_rfl)

theorem LeafGood.below {f : LogM Bool} {r0 : Except Err Bool} (h : LeafGood f r0 (· = ·))
    (a : Leaf P) {v : List Char} : LeafGood (withCtx v true f) r0 (LeafCtx a) :=
  h.ctx.imp fun _ _ hx => .inl (by subst hx; simp)

theorem LeafGood.own {f : LogM Bool} {r0 : Except Err Bool} (h : LeafGood f r0 (· = ·))
    (a : Leaf P) {n : String} (hn : a.cls.ownCtx = some n) :
    LeafGood (withCtx n.toList false f) r0 (LeafCtx a) :=
  h.ctx.imp fun _ _ hx => .inr ⟨n, hn, by simpa using hx.symm⟩

theorem leafOutL_good (cfg : FileDiffConfig P) (h : LeafHandle) (a b : Leaf P)
    (hi : h.isa a.cls = true) :
    LeafGood (leafOutL P cfg h a b) (leafOut P cfg h a b) (LeafCtx a) := by
  cases h with
  | struct c =>
    cases a with
    | struct c1 t1 d1 S1 =>
      cases b with
      | struct c2 t2 d2 S2 =>
        have hc : c ≠ .otherDes → c = c1 := by
          intro hne
          cases c <;> first | exact absurd rfl hne | (simpa [LeafHandle.isa, Leaf.cls] using hi)
        cases c with
        | otherDes =>
          simp only [leafOutL, leafOut]
          split
          · exact .error
          · exact LeafGood.obj.below _
        | desSub =>
          simp only [leafOutL, leafOut]
          split
          · exact .same
          · exact LeafGood.obj.below _
        | imageSub => exact LeafGood.obj.below _
        | graphicSub => exact LeafGood.obj.below _
        | textSub => exact LeafGood.obj.below _
        | resSub => exact LeafGood.obj.below _
        | _ =>
          have := hc (by simp)
          subst this
          exact LeafGood.obj.own _ rfl
      | _ => cases c <;> exact .error
    | _ => simp [LeafHandle.isa, Leaf.cls] at hi
  | tre =>
    cases a with
    | tre t1 d1 S1 =>
      cases b with
      | tre t2 d2 S2 =>
        simp only [leafOutL, leafOut]
        split
        · exact (LeafGood.logIf rfl).here _
        · exact LeafGood.obj.below _
      | treUnknown t2 b2 =>
        simp only [leafOutL, leafOut]
        split
        · exact (LeafGood.logIf rfl).here _
        · exact LeafGood.obj.below _
      | _ => exact .error
    | treUnknown t1 b1 =>
      cases b with
      | tre t2 d2 S2 =>
        simp only [leafOutL, leafOut]
        split
        · exact (LeafGood.logIf rfl).here _
        · exact LeafGood.obj.below _
      | treUnknown t2 b2 =>
        simp only [leafOutL, leafOut]
        split
        · exact (LeafGood.logIf rfl).here _
        · exact LeafGood.obj.below _
      | _ => exact .error
    | _ => simp [LeafHandle.isa, Leaf.cls] at hi
  | treUnknown =>
    cases a with
    | treUnknown t1 b1 =>
      cases b with
      | treUnknown t2 b2 =>
        simp only [leafOutL, leafOut]
        split
        · exact (LeafGood.logIf rfl).here _
        · split
          · cases utf8Dec b1 <;> cases utf8Dec b2 <;>
              first | exact .error | exact (LeafGood.logIf rfl).here _
          · exact .same
      | _ => exact .error
    | _ => simp [LeafHandle.isa, Leaf.cls] at hi
  | text =>
    cases a with
    | text s1 =>
      cases b with
      | text s2 =>
        simp only [leafOutL, leafOut]
        refine LeafGood.below ?_ _
        cases stringAsStr s1 <;> cases stringAsStr s2 <;>
          first | exact .error | exact LeafGood.logIf rfl
      | _ => exact .error
    | _ => simp [LeafHandle.isa, Leaf.cls] at hi
  | extDef =>
    cases a with
    | extDef d1 =>
      cases b with
      | extDef d2 =>
        simp only [leafOutL, leafOut]
        refine LeafGood.own (n := "DesExtDefContent") ?_ _ rfl
        split
        · exact .same
        · split
          · split
            · exact .note (by simp [LogMsg.level])
            · exact .same
          · exact LeafGood.logIf rfl
      | _ => exact .error
    | _ => simp [LeafHandle.isa, Leaf.cls] at hi
  | imageSubset =>
    cases a with
    | image sh1 p1 =>
      cases b with
      | image sh2 p2 =>
        simp only [leafOutL, leafOut]
        split
        · exact (LeafGood.logIf rfl).here _
        · exact (LeafGood.logIf rfl).here _
      | _ => exact .error
    | _ => simp [LeafHandle.isa, Leaf.cls] at hi
  | imagePlaceHolder =>
    cases a with
    | imagePlaceHolder i =>
      cases b with
      | imagePlaceHolder j => exact (LeafGood.note (by simp [LogMsg.level])).here _
      | _ => exact .error
    | _ => simp [LeafHandle.isa, Leaf.cls] at hi
  | dataPlaceHolder =>
    cases a with
    | dataPlaceHolder i =>
      cases b with
      | dataPlaceHolder j => exact (LeafGood.note (by simp [LogMsg.level])).here _
      | _ => exact .error
    | _ => simp [LeafHandle.isa, Leaf.cls] at hi

theorem leafDiffL_good (cfg : FileDiffConfig P) (h : LeafHandle) (a b : DObj (Leaf P)) (s : LogSt)
    (r : Option Bool) (s' : LogSt) (hr : leafDiffL P cfg h a b s = .ok (r, s')) :
    leafDiff P cfg h a b = .ok r ∧
    ((r = none ∧ s' = s) ∨
    ∃ e new, r = some e ∧ s.Adds s' new ∧ (e = false ↔ ∃ l ∈ new, l.Found) ∧
      ∀ l ∈ new, LeafLine s.ctx a l) := by
  have decl : ∀ {a b}, leafDiffL P cfg h a b = (fun s => .ok (none, s)) →
      leafDiff P cfg h a b = .ok none → leafDiffL P cfg h a b s = .ok (r, s') →
      leafDiff P cfg h a b = .ok r ∧
      ((r = none ∧ s' = s) ∨
      ∃ e new, r = some e ∧ s.Adds s' new ∧ (e = false ↔ ∃ l ∈ new, l.Found) ∧
        ∀ l ∈ new, LeafLine s.ctx a l) := by
    intro a b h1 h2 h3
    rw [h1] at h3
    simp only [Except.ok.injEq, Prod.mk.injEq] at h3
    obtain ⟨rfl, rfl⟩ := h3
    exact ⟨h2, .inl ⟨rfl, rfl⟩⟩
  cases a with
  | leaf a =>
    cases b with
    | leaf b =>
      by_cases ht : (h.isa a.cls && h.isa b.cls) = true
      · simp only [leafDiffL, ht, if_true] at hr
        simp only [leafDiff, ht, if_true]
        cases hl : leafOutL P cfg h a b s with
        | error e => rw [hl] at hr; cases hr
        | ok y =>
          obtain ⟨e, t⟩ := y
          rw [hl] at hr
          simp only [Except.map, Except.ok.injEq, Prod.mk.injEq] at hr
          obtain ⟨rfl, rfl⟩ := hr
          simp only [Bool.and_eq_true] at ht
          obtain ⟨h0, new, h1, h2, h3⟩ := leafOutL_good cfg h a b ht.1 _ _ _ hl
          refine ⟨by rw [h0]; rfl, .inr ⟨e, new, rfl, h1, h2, fun l hl => ?_⟩⟩
          rcases h3 l hl with h | ⟨n, hn, hx⟩
          · exact .inl h
          · exact .inr ⟨a, n, rfl, hn, hx⟩
      · exact decl (by funext s; simp only [leafDiffL, ht]; rfl)
          (by simp only [leafDiff, ht]; rfl) hr
    | _ => exact decl rfl rfl hr
  | _ => exact decl rfl rfl hr

theorem default_erases (cfg : FileDiffConfig P) (skip : List (DObj (Leaf P) → Bool))
    (shown : Val P.F → List Char) :
    Erases (defaultLogEnv P cfg skip shown) (defaultEnv P cfg skip) :=
  ⟨rfl, rfl, fun h a b s r s' hr => (leafDiffL_good cfg h a b s r s' hr).1⟩

theorem default_honest (cfg : FileDiffConfig P) (skip : List (DObj (Leaf P) → Bool))
    (shown : Val P.F → List Char) : HonestHandlers LeafLine (defaultLogEnv P cfg skip shown) :=
  fun h a b s r s' hr => (leafDiffL_good cfg h a b s r s' hr).2

theorem default_standardLog (cfg : FileDiffConfig P) (skip : List (DObj (Leaf P) → Bool))
    (shown : Val P.F → List Char) : StandardLog (defaultLogEnv P cfg skip shown) := by
  rintro h a b s (⟨f, g, rfl, rfl⟩ | ⟨f, g, rfl, rfl⟩) <;> rfl

/-- C73 with the handlers registered by default.  Missing from the full claim: that every line of a
segment names the segment.  Lines about the user subheader and the data of some DES have a context
of their own instead (`LeafCls.ownCtx`), see `C73_segment_not_named`. -/
theorem C73_default_partial {it : IterOrder (DHandle LeafHandle)} {hp : Heap (DHandle LeafHandle)}
    {o : HandleSet} {cfg : FileDiffConfig P} {skip : List (DObj (Leaf P) → Bool)}
    {shown : Val P.F → List Char} {f1 f2 : DFile (Leaf P)} {s s' : LogSt} {same : Bool}
    (h : compareLog it hp o (defaultLogEnv P cfg skip shown) (.file f1) (.file f2) s =
      .ok (same, s')) :
    compareAny it hp o (defaultEnv P cfg skip) (.file f1) (.file f2) = .ok same ∧
    ∃ new, s.Adds s' new ∧
      Logs (compareAny it hp o (defaultEnv P cfg skip)) (FilePaired (defaultEnv P cfg skip) f1 f2)
        (FileCounts (defaultEnv P cfg skip) f1 f2 s.ctx)
        (PartLine (shortDesc P shown) LeafLine s.ctx) new same :=
  C73_file (default_erases cfg skip shown) (default_honest cfg skip shown)
    (default_standardLog cfg skip shown) h

/-- C73, default handlers: every line added is in one of these contexts: that of the whole file (or
one starting with it), one starting with the description of a segment of the first file, or one of
those that classes have of their own. -/
theorem C73_contexts {it : IterOrder (DHandle LeafHandle)} {hp : Heap (DHandle LeafHandle)}
    {o : HandleSet} {cfg : FileDiffConfig P} {skip : List (DObj (Leaf P) → Bool)}
    {shown : Val P.F → List Char} {f1 f2 : DFile (Leaf P)} {s s' : LogSt} {same : Bool}
    (h : compareLog it hp o (defaultLogEnv P cfg skip shown) (.file f1) (.file f2) s =
      .ok (same, s')) :
    ∀ l ∈ s'.log.drop s.log.length, s.ctx <+: l.ctx ∨
      (∃ g ∈ f1.image ++ f1.graphic ++ f1.text ++ f1.des ++ f1.res, ∃ d,
        shortDesc P shown g = .ok d ∧ d <+: l.ctx) ∨
      ∃ k : LeafCls, k.ownCtx.map String.toList = some l.ctx := by
  obtain ⟨_, new, ⟨_, hn⟩, hl⟩ := C73_default_partial h
  rw [hn, List.drop_left]
  intro l hm
  have own : ∀ {c : List Char} {a : DObj (Leaf P)}, LeafLine c a l →
      c <+: l.ctx ∨ ∃ k : LeafCls, k.ownCtx.map String.toList = some l.ctx := by
    rintro c a (h | ⟨o, n, _, h1, h2⟩)
    · exact .inl h
    · exact .inr ⟨o.cls, by simp [h1, h2]⟩
  rcases hl.lines l hm with hc | ⟨a, b, hp, hq⟩
  · left
    rcases hc with ⟨_, rfl⟩ | ⟨_, rfl⟩ | ⟨_, rfl⟩ | ⟨_, rfl⟩ | ⟨_, rfl⟩ | ⟨_, rfl⟩ <;>
      exact List.prefix_rfl
  · have segs : ∀ (g : DSeg (Leaf P)), a = .seg g →
        g ∈ f1.image ++ f1.graphic ++ f1.text ++ f1.des ++ f1.res →
        (∃ g ∈ f1.image ++ f1.graphic ++ f1.text ++ f1.des ++ f1.res, ∃ d,
          shortDesc P shown g = .ok d ∧ d <+: l.ctx) ∨
        ∃ k : LeafCls, k.ownCtx.map String.toList = some l.ctx := by
      rintro g rfl hg
      obtain ⟨d, hd, hx⟩ := hq
      rcases hx with ⟨rfl, _⟩ | ⟨x, _, hx⟩
      · exact .inl ⟨g, hg, _, hd, List.prefix_rfl⟩
      · rcases own hx with h | h
        · exact .inl ⟨g, hg, d, hd, h⟩
        · exact .inr h
    have mem : ∀ {l1 : List (DSeg (Leaf P))} {l2 : List (DObj (Leaf P))},
        Paired ((defaultEnv P cfg skip).kept (l1.map .seg)) l2 a b → ∃ g, a = .seg g ∧ g ∈ l1 := by
      rintro l1 l2 ⟨i, h1, _⟩
      have h1 := (List.mem_filter.mp (List.mem_of_getElem? h1)).1
      rw [List.mem_map] at h1
      obtain ⟨g, hg, rfl⟩ := h1
      exact ⟨g, rfl, hg⟩
    rcases hp with ⟨rfl, _⟩ | hp | hp | hp | hp | hp | hp
    · rcases own (show LeafLine s.ctx _ l from hq) with h | h
      · exact .inl h
      · exact .inr (.inr h)
    · have h0 := kept_level hp
      have hq' : LeafLine s.ctx a l := by
        cases a with
        | none => exact hq
        | leaf o => exact hq
        | seg g => cases h0
        | file f => cases h0
      rcases own hq' with h | h
      · exact .inl h
      · exact .inr (.inr h)
    all_goals
      obtain ⟨g, rfl, hg⟩ := mem hp
      exact .inr (segs g rfl (by simp [hg]))

/-- The tag, if it is a TRE. -/
def treTag : Leaf P → Option (List Char)
  | .tre t _ _ => some t
  | .treUnknown t _ => some t
  | _ => none

/-- C73, default handlers: two TREs with different tags are different, and the one line added says
which tags they have. -/
theorem C73_tags {it : IterOrder (DHandle LeafHandle)} {hp : Heap (DHandle LeafHandle)}
    {o : HandleSet} {cfg : FileDiffConfig P} {skip : List (DObj (Leaf P) → Bool)}
    {shown : Val P.F → List Char} {a b : Leaf P} {t1 t2 : List Char} (h1 : treTag a = some t1)
    (h2 : treTag b = some t2) (ht : t1 ≠ t2) {s s' : LogSt} {same : Bool}
    (h : compareLog it hp o (defaultLogEnv P cfg skip shown) (.leaf a) (.leaf b) s =
      .ok (same, s')) :
    same = false ∧ s'.ctx = s.ctx ∧ s'.log = s.log ++ [⟨s.ctx, .tags t1 t2⟩] := by
  refine handle_rel (Q := fun s r s' => r = false ∧ s'.ctx = s.ctx ∧
    s'.log = s.log ++ [⟨s.ctx, .tags t1 t2⟩]) ?_ h
  intro g s x s' hg
  cases g with
  | nitfFile => simp only [handleDiffL, Except.ok.injEq, Prod.mk.injEq] at hg; exact .inl ⟨hg.1.symm, hg.2.symm⟩
  | segment => simp only [handleDiffL, Except.ok.injEq, Prod.mk.injEq] at hg; exact .inl ⟨hg.1.symm, hg.2.symm⟩
  | other g =>
    simp only [handleDiffL, defaultLogEnv, leafDiffL] at hg
    split at hg
    · rename_i hi
      right
      have hi' : g.isa a.cls = true ∧ g.isa b.cls = true := by simpa using hi
      have done : (leafOutL P cfg g a b s) = logIf false (.tags t1 t2) s := by
        cases a <;> simp only [treTag, Option.some.injEq, reduceCtorEq] at h1 <;>
        cases b <;> simp only [treTag, Option.some.injEq, reduceCtorEq] at h2 <;>
        subst h1 <;> subst h2 <;>
        cases g with
        | struct c => cases c <;> simp [LeafHandle.isa, Leaf.cls] at hi'
        | _ => first
          | (simp [LeafHandle.isa, Leaf.cls] at hi'; done)
          | simp [leafOutL, ht]
      rw [done] at hg
      simp only [logIf, Bool.false_eq_true, if_false, Except.map, Except.ok.injEq,
        Prod.mk.injEq] at hg
      obtain ⟨rfl, rfl⟩ := hg
      exact ⟨false, rfl, rfl, rfl, rfl⟩
    · simp only [Except.ok.injEq, Prod.mk.injEq] at hg
      exact .inl ⟨hg.1.symm, hg.2.symm⟩

/-- C73, default handlers: the lines about two TREs with the same tag name the tag, after the
context around. -/
theorem C73_tre {it : IterOrder (DHandle LeafHandle)} {hp : Heap (DHandle LeafHandle)}
    {o : HandleSet} {cfg : FileDiffConfig P} {skip : List (DObj (Leaf P) → Bool)}
    {shown : Val P.F → List Char} {t : List Char} {d1 d2 : Desc} {S1 S2 : Store P.F}
    {s s' : LogSt} {same : Bool}
    (h : compareLog it hp o (defaultLogEnv P cfg skip shown) (.leaf (.tre t d1 S1))
      (.leaf (.tre t d2 S2)) s = .ok (same, s')) :
    ∃ new, s.Adds s' new ∧ ∀ l ∈ new, l.ctx = s.ctx ++ " TRE '".toList ++ t ++ "'".toList := by
  refine handle_rel (Q := fun s _ s' => ∃ new, s.Adds s' new ∧
    ∀ l ∈ new, l.ctx = s.ctx ++ " TRE '".toList ++ t ++ "'".toList) ?_ h
  intro g s x s' hg
  cases g with
  | nitfFile => simp only [handleDiffL, Except.ok.injEq, Prod.mk.injEq] at hg; exact .inl ⟨hg.1.symm, hg.2.symm⟩
  | segment => simp only [handleDiffL, Except.ok.injEq, Prod.mk.injEq] at hg; exact .inl ⟨hg.1.symm, hg.2.symm⟩
  | other g =>
    simp only [handleDiffL, defaultLogEnv, leafDiffL] at hg
    split at hg
    · rename_i hi
      right
      have hi' : g.isa (.tre : LeafCls) = true := by simpa [Leaf.cls] using hi
      have hgt : g = .tre := by
        cases g with
        | struct c => cases c <;> cases hi'
        | _ => first | rfl | cases hi'
      subst hgt
      have done : leafOutL P cfg .tre (.tre t d1 S1) (.tre t d2 S2) =
          withCtx (treCtx t) true (compareObjL P (cfg.tre t) d1 d2 S1 S2) := by
        simp [leafOutL]
      rw [done] at hg
      cases hr : withCtx (treCtx t) true (compareObjL P (cfg.tre t) d1 d2 S1 S2) s with
      | error e => rw [hr] at hg; cases hg
      | ok y =>
        obtain ⟨r, s1⟩ := y
        rw [hr] at hg
        simp only [Except.map, Except.ok.injEq, Prod.mk.injEq] at hg
        obtain ⟨rfl, rfl⟩ := hg
        obtain ⟨_, new, h2, _, h4⟩ := LeafGood.obj.ctx s r s1 hr
        refine ⟨r, rfl, new, h2, fun l hl => ?_⟩
        rw [← h4 l hl]
        simp [treCtx]
    · simp only [Except.ok.injEq, Prod.mk.injEq] at hg
      exact .inl ⟨hg.1.symm, hg.2.symm⟩

/-- The classes of subheaders of segments. -/
def subClasses : List StructCls := [.imageSub, .graphicSub, .textSub, .desSub, .resSub]

/-- C73, default handlers: the lines about two subheaders of segments say so, after the context
around (which names the segment). -/
theorem C73_subheader {it : IterOrder (DHandle LeafHandle)} {hp : Heap (DHandle LeafHandle)}
    {o : HandleSet} {cfg : FileDiffConfig P} {skip : List (DObj (Leaf P) → Bool)}
    {shown : Val P.F → List Char} {c : StructCls} (hc : c ∈ subClasses) {t1 t2 : List Char}
    {d1 d2 : Desc} {S1 S2 : Store P.F} {s s' : LogSt} {same : Bool}
    (h : compareLog it hp o (defaultLogEnv P cfg skip shown) (.leaf (.struct c t1 d1 S1))
      (.leaf (.struct c t2 d2 S2)) s = .ok (same, s')) :
    ∃ new, s.Adds s' new ∧ ∀ l ∈ new, l.ctx = s.ctx ++ " Subheader".toList := by
  refine handle_rel (Q := fun s _ s' => ∃ new, s.Adds s' new ∧
    ∀ l ∈ new, l.ctx = s.ctx ++ " Subheader".toList) ?_ h
  intro g s x s' hg
  cases g with
  | nitfFile => simp only [handleDiffL, Except.ok.injEq, Prod.mk.injEq] at hg; exact .inl ⟨hg.1.symm, hg.2.symm⟩
  | segment => simp only [handleDiffL, Except.ok.injEq, Prod.mk.injEq] at hg; exact .inl ⟨hg.1.symm, hg.2.symm⟩
  | other g =>
    simp only [handleDiffL, defaultLogEnv, leafDiffL] at hg
    split at hg
    · rename_i hi
      right
      have hi' : g.isa (.struct c) = true := by simpa [Leaf.cls] using hi
      have hgt : g = .struct c := by
        simp only [subClasses, List.mem_cons, List.not_mem_nil, or_false] at hc
        rcases hc with rfl | rfl | rfl | rfl | rfl <;>
        · cases g with
          | struct c => cases c <;> first | rfl | cases hi'
          | _ => cases hi'
      subst hgt
      have done : leafOutL P cfg (.struct c) (.struct c t1 d1 S1) (.struct c t2 d2 S2) s =
            .ok (true, s) ∨
          leafOutL P cfg (.struct c) (.struct c t1 d1 S1) (.struct c t2 d2 S2) s =
            withCtx "Subheader".toList true (compareObjL P (cfg.struct c) d1 d2 S1 S2) s := by
        simp only [subClasses, List.mem_cons, List.not_mem_nil, or_false] at hc
        rcases hc with rfl | rfl | rfl | rfl | rfl
        all_goals try exact .inr rfl
        simp only [leafOutL]
        split
        · exact .inl rfl
        · exact .inr rfl
      rcases done with done | done <;> rw [done] at hg
      · simp only [Except.map, Except.ok.injEq, Prod.mk.injEq] at hg
        obtain ⟨rfl, rfl⟩ := hg
        exact ⟨true, rfl, [], LogSt.Adds.refl s, by simp⟩
      cases hr : withCtx "Subheader".toList true (compareObjL P (cfg.struct c) d1 d2 S1 S2) s with
      | error e => rw [hr] at hg; cases hg
      | ok y =>
        obtain ⟨r, s1⟩ := y
        rw [hr] at hg
        simp only [Except.map, Except.ok.injEq, Prod.mk.injEq] at hg
        obtain ⟨rfl, rfl⟩ := hg
        obtain ⟨_, new, h2, _, h4⟩ := LeafGood.obj.ctx s r s1 hr
        refine ⟨r, rfl, new, h2, fun l hl => ?_⟩
        rw [← h4 l hl]
        simp
    · simp only [Except.ok.injEq, Prod.mk.injEq] at hg
      exact .inl ⟨hg.1.symm, hg.2.symm⟩

/-- The subheader of the segment has the field `nm`, whose value is shown as `x`. -/
def FieldShown (shown : Val P.F → List Char) (g : DSeg (Leaf P)) (nm : Name) (x : List Char) : Prop :=
  ∃ c t d S n v, g.subheader = .struct c t d S ∧ resolve d.tab nm = some n ∧
    getItem P d.tab S n [] = .ok v ∧ x = shown v

theorem leafField_shown {shown : Val P.F → List Char} {g : DSeg (Leaf P)} {nm : Name}
    {x : List Char} (h : leafField P shown nm g.subheader = .ok x) : FieldShown shown g nm x := by
  unfold leafField at h
  split at h
  · rename_i c t d S hs
    cases hr : resolve d.tab nm with
    | none => rw [hr] at h; cases h
    | some n =>
      rw [hr] at h
      dsimp only at h
      cases hv : getItem P d.tab S n [] with
      | error e => rw [hv] at h; cases h
      | ok v =>
        rw [hv] at h
        cases h
        exact ⟨c, t, d, S, n, v, hs, hr, hv, rfl⟩
  · cases h

theorem map_shown {shown : Val P.F → List Char} {g : DSeg (Leaf P)} {nm : Name} {l d : List Char}
    (h : (leafField P shown nm g.subheader).map (l ++ ·) = .ok d) :
    ∃ x, FieldShown shown g nm x ∧ d = l ++ x := by
  cases hx : leafField P shown nm g.subheader with
  | error e => rw [hx] at h; cases h
  | ok x => rw [hx] at h; cases h; exact ⟨x, leafField_shown hx, rfl⟩

/-- C73, what a segment is called in the log: its kind and its identifier (for graphics also the
name). -/
theorem C73_names {shown : Val P.F → List Char} {g : DSeg (Leaf P)} {d : List Char}
    (h : shortDesc P shown g = .ok d) :
    (g.type = 1 → ∃ x, FieldShown shown g (n!"iid1") x ∧ d = "ImageSegment ".toList ++ x) ∧
    (g.type = 2 → ∃ x y, FieldShown shown g (n!"sid") x ∧ FieldShown shown g (n!"sname") y ∧
      d = "GraphicSegment ".toList ++ x ++ " \"".toList ++ y ++ "\"".toList) ∧
    (g.type = 3 → ∃ x, FieldShown shown g (n!"textid") x ∧ d = "TextSegment ".toList ++ x) ∧
    (g.type = 4 → ∃ x, FieldShown shown g (n!"desid") x ∧ d = "DesSegment ".toList ++ x) ∧
    (g.type = 5 → ∃ x, FieldShown shown g (n!"resid") x ∧ d = "ResSegment ".toList ++ x) := by
  unfold shortDesc at h
  refine ⟨fun e => ?_, fun e => ?_, fun e => ?_, fun e => ?_, fun e => ?_⟩ <;> rw [e] at h
  · exact map_shown h
  · cases hx : leafField P shown (n!"sid") g.subheader with
    | error x => rw [hx] at h; cases h
    | ok x =>
      cases hy : leafField P shown (n!"sname") g.subheader with
      | error y => rw [hx, hy] at h; cases h
      | ok y =>
        rw [hx, hy] at h
        cases h
        exact ⟨x, y, leafField_shown hx, leafField_shown hy, rfl⟩
  · exact map_shown h
  · exact map_shown h
  · exact map_shown h

/-! ### Cases meeting the hypotheses, and what fails, with witnesses -/

/-- Comparing and looking at the log. -/
def compareLog0 (a b : DObj (Leaf P0)) : Except Err (Bool × List LogLine) :=
  (compareLog (fun _ l => l) defaultSet.1 defaultSet.2
    (defaultLogEnv P0 cfg0 [] fun v => match v with | .str s => s | _ => []) a b .start).map
    fun r => (r.1, r.2.log)

/-- C73_file, C73_default_partial, C73_contexts: a file with a TRE less, whose first TRE has other
bytes, and whose segment has other text and a TRE of a different tag. -/
example :
    compareLog0 (.file (file0 [.treUnknown ['A'] [65], .treUnknown ['B'] [66]]
        [seg0 "X" none [.treUnknown ['C'] []] (.text (.inl ['a']))]))
      (.file (file0 [.treUnknown ['A'] [67]]
        [seg0 "X" none [.treUnknown ['D'] []] (.text (.inr [98]))])) =
      .ok (false,
        [⟨"File level".toList, .count 2 1⟩, ⟨"File level".toList, .bytes⟩,
         ⟨"DesSegment X".toList, .tags ['C'] ['D']⟩,
         ⟨"DesSegment X TextStr".toList, .text⟩]) := by
  decide +kernel

/-- C73_segment, C73_object: nothing is logged about what is the same; data that cannot be read is
only warned about. -/
example :
    compareLog0 (.seg (seg0 "X" none [] (.dataPlaceHolder 1)))
      (.seg (seg0 "X" none [] (.dataPlaceHolder 2))) =
        .ok (true, [⟨"DesSegment X".toList, .skipped⟩]) ∧
    compareLog0 (.leaf (.treUnknown ['A'] [65])) (.leaf (.treUnknown ['A'] [65])) =
      .ok (true, []) ∧
    compareLog0 (.leaf (.treUnknown ['A'] [65])) (.leaf (.treUnknown ['A'] [66])) =
      .ok (false, [⟨"File level".toList, .bytes⟩]) := by
  decide +kernel

/-- C73_names, C73_tags: the hypotheses are met. -/
example : shortDesc P0 (fun v => match v with | .str s => s | _ => [])
      (seg0 "X" none [] (.text (.inl []))) = .ok "DesSegment X".toList ∧
    compareLog0 (.leaf (.treUnknown ['A'] [])) (.leaf (.tre ['B'] .nil Store.empty)) =
      .ok (false, [⟨"File level".toList, .tags ['A'] ['B']⟩]) := by
  decide +kernel

/-- C73_tre, C73_subheader: a field that differs. -/
example :
    compareLog0
        (.leaf (.tre ['B'] (.field { name := some (n!"id"), size := .const 1, ty := .str } .nil)
          (Store.empty.set 0 [] ⟨.val (.str ['u']), none⟩)))
        (.leaf (.tre ['B'] (.field { name := some (n!"id"), size := .const 1, ty := .str } .nil)
          (Store.empty.set 0 [] ⟨.val (.str ['v']), none⟩))) =
      .ok (false, [⟨"File level TRE 'B'".toList, .field (.diff (n!"id"))⟩]) ∧
    compareLog0 (.leaf (hdr0 .textSub (n!"textid") "u")) (.leaf (hdr0 .textSub (n!"textid") "v")) =
      .ok (false, [⟨"File level Subheader".toList, .field (.diff (n!"textid"))⟩]) := by
  decide +kernel

/-- C73 violated: the differing attitude data of the second of two CSATTA segments is reported in
the context "DesCSATTB": neither the segment nor even the right kind of DES is named. -/
theorem C73_segment_not_named :
    compareLog0
      (.file (file0 [] [seg0 "X" none [] (hdr0 .csatta (n!"att_type") "ORBIT"),
        seg0 "Y" none [] (hdr0 .csatta (n!"att_type") "ORBIT")]))
      (.file (file0 [] [seg0 "X" none [] (hdr0 .csatta (n!"att_type") "ORBIT"),
        seg0 "Y" none [] (hdr0 .csatta (n!"att_type") "OTHER")])) =
      .ok (false, [⟨"DesCSATTB".toList, .field (.diff (n!"att_type"))⟩]) := by
  decide +kernel

/-- C73 violated: the lines about differing user subheaders of two segments are the same, whichever
segment it is. -/
theorem C73_user_subheader_not_named :
    compareLog0
        (.seg (seg0 "X" (some (hdr0 .assocUser (n!"id") "u")) [] (.text (.inl []))))
        (.seg (seg0 "X" (some (hdr0 .assocUser (n!"id") "v")) [] (.text (.inl [])))) =
      .ok (false, [⟨"DesAssociatedUserSubheader".toList, .field (.diff (n!"id"))⟩]) ∧
    compareLog0
        (.seg (seg0 "Y" (some (hdr0 .assocUser (n!"id") "u")) [] (.text (.inl []))))
        (.seg (seg0 "Y" (some (hdr0 .assocUser (n!"id") "v")) [] (.text (.inl [])))) =
      .ok (false, [⟨"DesAssociatedUserSubheader".toList, .field (.diff (n!"id"))⟩]) := by
  decide +kernel

end

end Verif
