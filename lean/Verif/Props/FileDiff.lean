import Verif.FileDiff
import Verif.Props.Handle
import Verif.Props.Diff
import Verif.StateLemmas

/-
C44: comparing two files.
-/

set_option linter.unusedSectionVars false

namespace Verif

/-! ### Specification -/

section
variable {O H : Type}

/-- The objects no skip function asks to skip. -/
def DiffEnv.kept (env : DiffEnv O H) (l : List (DObj O)) : List (DObj O) :=
  l.filter fun o => !env.skipFns.any fun f => f o

/-- Same length, and the elements correspond pairwise. -/
def ListsSame (R : DObj O → DObj O → Prop) (l1 l2 : List (DObj O)) : Prop :=
  l1.length = l2.length ∧ ∀ (i : Nat) a b, l1[i]? = some a → l2[i]? = some b → R a b

/-- Two segments of the same type are the same: both hold TRE overflow (their TREs are compared
where they belong), or subheader, user subheader if the first has one, TREs and data are. -/
def SegSame (env : DiffEnv O H) (R : DObj O → DObj O → Prop) (s1 s2 : DSeg O) : Prop :=
  (env.overflow s1.subheader = true ∧ env.overflow s2.subheader = true) ∨
  (R (.leaf s1.subheader) (.leaf s2.subheader) ∧
    (∀ u, s1.user = some u → R (.leaf u) (.ofOption s2.user)) ∧
    ListsSame R (env.kept (s1.tres.map .leaf)) (env.kept (s2.tres.map .leaf)) ∧
    R (.ofOption s1.data) (.ofOption s2.data))

/-- Two files are the same: the headers and, kind by kind, everything that is not skipped. -/
structure FileSame (env : DiffEnv O H) (R : DObj O → DObj O → Prop) (f1 f2 : DFile O) : Prop where
  header : R (.leaf f1.header) (.leaf f2.header)
  tres : ListsSame R (env.kept (f1.tres.map .leaf)) (env.kept (f2.tres.map .leaf))
  image : ListsSame R (env.kept (f1.image.map .seg)) (env.kept (f2.image.map .seg))
  graphic : ListsSame R (env.kept (f1.graphic.map .seg)) (env.kept (f2.graphic.map .seg))
  text : ListsSame R (env.kept (f1.text.map .seg)) (env.kept (f2.text.map .seg))
  des : ListsSame R (env.kept (f1.des.map .seg)) (env.kept (f2.des.map .seg))
  res : ListsSame R (env.kept (f1.res.map .seg)) (env.kept (f2.res.map .seg))

/-- Pairs of elements at the same place, up to the end of the shorter list. -/
def Paired (l1 l2 : List (DObj O)) (a b : DObj O) : Prop :=
  ∃ i : Nat, l1[i]? = some a ∧ l2[i]? = some b

/-- The pairs of objects that comparing two files has to look at. -/
def FilePaired (env : DiffEnv O H) (f1 f2 : DFile O) (a b : DObj O) : Prop :=
  (a = .leaf f1.header ∧ b = .leaf f2.header) ∨
  Paired (env.kept (f1.tres.map .leaf)) (env.kept (f2.tres.map .leaf)) a b ∨
  Paired (env.kept (f1.image.map .seg)) (env.kept (f2.image.map .seg)) a b ∨
  Paired (env.kept (f1.graphic.map .seg)) (env.kept (f2.graphic.map .seg)) a b ∨
  Paired (env.kept (f1.text.map .seg)) (env.kept (f2.text.map .seg)) a b ∨
  Paired (env.kept (f1.des.map .seg)) (env.kept (f2.des.map .seg)) a b ∨
  Paired (env.kept (f1.res.map .seg)) (env.kept (f2.res.map .seg)) a b

/-- The handlers for files and segments are the usual ones: all other handlers in the set decline
files and segments. -/
def Standard (M : DHandle H × Int → Prop) (env : DiffEnv O H) : Prop :=
  ∀ h p, M (.other h, p) → ∀ a b,
    ((∃ f g, a = .file f ∧ b = .file g) ∨ (∃ s t, a = .seg s ∧ b = .seg t)) →
    env.other h a b = .ok none

/-! ### Proofs -/

theorem skipObj_any (fs : List (DObj O → Bool)) (o : DObj O) :
    skipObj fs o = fs.any fun f => f o := by
  induction fs with
  | nil => rfl
  | cons f r ih => simp only [skipObj, List.any_cons, ih]; cases f o <;> rfl

theorem keptObjs_eq (env : DiffEnv O H) (l : List (DObj O)) : keptObjs env l = env.kept l := by
  unfold keptObjs DiffEnv.kept
  simp only [skipObj_any]

theorem cmpPairs_ok {cmp : DObj O → DObj O → Except Err Bool} {l1 l2 : List (DObj O)}
    {same r : Bool} (h : cmpPairs cmp l1 l2 same = .ok r) :
    (∀ a b, Paired l1 l2 a b → ∃ e, cmp a b = .ok e) ∧
    (r = true ↔ same = true ∧ ∀ (i : Nat) a b, l1[i]? = some a → l2[i]? = some b → cmp a b = .ok true) := by
  induction l1 generalizing l2 same with
  | nil =>
    simp only [cmpPairs, Except.ok.injEq] at h
    subst h
    refine ⟨?_, by simp⟩
    rintro a b ⟨i, h1, _⟩
    simp at h1
  | cons x xs ih =>
    cases l2 with
    | nil =>
      simp only [cmpPairs, Except.ok.injEq] at h
      subst h
      refine ⟨?_, by simp⟩
      rintro a b ⟨i, _, h2⟩
      simp at h2
    | cons y ys =>
      simp only [cmpPairs] at h
      cases hc : cmp x y with
      | error e => rw [hc] at h; cases h
      | ok e =>
        rw [hc] at h
        obtain ⟨i1, i2⟩ := ih h
        constructor
        · rintro a b ⟨i, h1, h2⟩
          cases i with
          | zero =>
            simp only [List.getElem?_cons_zero, Option.some.injEq] at h1 h2
            subst h1 h2
            exact ⟨e, hc⟩
          | succ i => exact i1 a b ⟨i, by simpa using h1, by simpa using h2⟩
        · rw [i2]
          constructor
          · rintro ⟨hs, hall⟩
            simp only [Bool.and_eq_true] at hs
            refine ⟨hs.2, ?_⟩
            intro i a b h1 h2
            cases i with
            | zero =>
              simp only [List.getElem?_cons_zero, Option.some.injEq] at h1 h2
              subst h1 h2
              rw [hc, hs.1]
            | succ i => exact hall i a b (by simpa using h1) (by simpa using h2)
          · rintro ⟨hs, hall⟩
            have := hall 0 x y rfl rfl
            rw [hc] at this
            injection this with this
            refine ⟨by simp [this, hs], ?_⟩
            intro i a b h1 h2
            exact hall (i + 1) a b (by simpa using h1) (by simpa using h2)

theorem cmpLists_ok {cmp : DObj O → DObj O → Except Err Bool} {l1 l2 : List (DObj O)}
    {same r : Bool} (h : cmpLists cmp l1 l2 same = .ok r) :
    (∀ a b, Paired l1 l2 a b → ∃ e, cmp a b = .ok e) ∧
    (r = true ↔ same = true ∧ ListsSame (fun a b => cmp a b = .ok true) l1 l2) := by
  obtain ⟨h1, h2⟩ := cmpPairs_ok h
  refine ⟨h1, h2.trans ?_⟩
  unfold ListsSame
  by_cases hl : l1.length = l2.length <;> simp [hl]

theorem cmpKinds_ok {cmp : DObj O → DObj O → Except Err Bool}
    {ks : List (List (DObj O) × List (DObj O))} {same r : Bool}
    (h : cmpKinds cmp ks same = .ok r) :
    (∀ k ∈ ks, ∀ a b, Paired k.1 k.2 a b → ∃ e, cmp a b = .ok e) ∧
    (r = true ↔ same = true ∧ ∀ k ∈ ks, ListsSame (fun a b => cmp a b = .ok true) k.1 k.2) := by
  induction ks generalizing same with
  | nil =>
    simp only [cmpKinds, Except.ok.injEq] at h
    subst h
    simp
  | cons k ks ih =>
    obtain ⟨l1, l2⟩ := k
    simp only [cmpKinds] at h
    cases hc : cmpLists cmp l1 l2 same with
    | error e => rw [hc] at h; cases h
    | ok e =>
      rw [hc] at h
      obtain ⟨c1, c2⟩ := cmpLists_ok hc
      obtain ⟨i1, i2⟩ := ih h
      refine ⟨?_, ?_⟩
      · intro k hk
        rcases List.mem_cons.mp hk with rfl | hk
        · exact c1
        · exact i1 k hk
      · rw [i2, c2, List.forall_mem_cons, and_assoc]

/-- C44, the handler for files, whatever the comparison `cmp` of the parts does.  If it returns,
the files are the same exactly if the header and all parts are, and every pair has been compared. -/
theorem C44_file_handler {env : DiffEnv O H} {cmp : DObj O → DObj O → Except Err Bool}
    {f1 f2 : DFile O} {r : Bool} (h : fileDiff env cmp f1 f2 = .ok r) :
    (r = true ↔ FileSame env (fun a b => cmp a b = .ok true) f1 f2) ∧
    ∀ a b, FilePaired env f1 f2 a b → ∃ e, cmp a b = .ok e := by
  unfold fileDiff at h
  cases hc : cmp (.leaf f1.header) (.leaf f2.header) with
  | error e => rw [hc] at h; cases h
  | ok e =>
    rw [hc] at h
    obtain ⟨k1, k2⟩ := cmpKinds_ok h
    simp only [kindLists, keptObjs_eq, List.forall_mem_cons] at k1 k2
    obtain ⟨c1, c2, c3, c4, c5, c6, _⟩ := k1
    constructor
    · rw [k2]
      constructor
      · rintro ⟨he, s1, s2, s3, s4, s5, s6, _⟩
        simp only [Bool.and_true] at he
        subst he
        exact ⟨hc, s1, s2, s3, s4, s5, s6⟩
      · rintro ⟨s0, s1, s2, s3, s4, s5, s6⟩
        rw [hc] at s0
        injection s0 with s0
        exact ⟨by simp [s0], s1, s2, s3, s4, s5, s6, by simp⟩
    · rintro a b (⟨rfl, rfl⟩ | h1 | h1 | h1 | h1 | h1 | h1)
      · exact ⟨e, hc⟩
      · exact c1 a b h1
      · exact c2 a b h1
      · exact c3 a b h1
      · exact c4 a b h1
      · exact c5 a b h1
      · exact c6 a b h1

theorem segUser_ok {cmp : DObj O → DObj O → Except Err Bool} {s1 s2 : DSeg O} {e0 e1 : Bool}
    (h : segUser cmp s1 s2 e0 = .ok e1) :
    e1 = true ↔ e0 = true ∧
      ∀ u, s1.user = some u → cmp (.leaf u) (.ofOption s2.user) = .ok true := by
  unfold segUser at h
  cases hs : s1.user with
  | none =>
    rw [hs] at h
    injection h with h
    simp [h]
  | some u =>
    rw [hs] at h
    simp only at h
    cases hcu : cmp (.leaf u) (.ofOption s2.user) with
    | error e => rw [hcu] at h; cases h
    | ok e =>
      rw [hcu] at h
      injection h with h
      subst h
      simp only [Bool.and_eq_true]
      constructor
      · rintro ⟨rfl, h0⟩
        refine ⟨h0, fun u' hu' => ?_⟩
        injection hu' with hu'
        subst hu'
        exact hcu
      · rintro ⟨h0, hall⟩
        have := hall u rfl
        rw [hcu] at this
        injection this with this
        exact ⟨this, h0⟩

/-- C44, the handler for segments, whatever the comparison of the parts does.  It declines exactly
segments of different types; if it returns, the segments are the same exactly if all parts are. -/
theorem C44_segment_handler {env : DiffEnv O H} {cmp : DObj O → DObj O → Except Err Bool}
    {s1 s2 : DSeg O} {r : Option Bool} (h : segDiff env cmp s1 s2 = .ok r) :
    (r = none ↔ s1.type ≠ s2.type) ∧
    (r = some true ↔
      s1.type = s2.type ∧ SegSame env (fun a b => cmp a b = .ok true) s1 s2) := by
  unfold segDiff at h
  by_cases ht : s1.type = s2.type
  · rw [if_neg (by simpa using ht)] at h
    by_cases ho : env.overflow s1.subheader = true ∧ env.overflow s2.subheader = true
    · rw [if_pos (by simpa using ho)] at h
      injection h with h
      subst h
      exact ⟨by simp [ht], by simp [ht, SegSame, ho]⟩
    · rw [if_neg (by simpa using ho)] at h
      cases hc : cmp (.leaf s1.subheader) (.leaf s2.subheader) with
      | error e => rw [hc] at h; cases h
      | ok e0 =>
      rw [hc] at h
      simp only at h
      cases hu : segUser cmp s1 s2 e0 with
      | error e => rw [hu] at h; cases h
      | ok e1 =>
      rw [hu] at h
      simp only at h
      cases hl : cmpLists cmp (keptObjs env (s1.tres.map .leaf)) (keptObjs env (s2.tres.map .leaf))
          e1 with
      | error e => rw [hl] at h; cases h
      | ok e2 =>
      rw [hl] at h
      simp only at h
      cases hd : cmp (.ofOption s1.data) (.ofOption s2.data) with
      | error e => rw [hd] at h; cases h
      | ok e3 =>
      rw [hd] at h
      injection h with h
      subst h
      obtain ⟨_, l2⟩ := cmpLists_ok hl
      rw [keptObjs_eq, keptObjs_eq, segUser_ok hu] at l2
      refine ⟨by simp [ht], ?_⟩
      simp only [Option.some.injEq, Bool.and_eq_true, SegSame, ht, true_and, ho, false_or]
      rw [l2]
      constructor
      · rintro ⟨rfl, ⟨rfl, h2⟩, h3⟩
        exact ⟨hc, h2, h3, hd⟩
      · rintro ⟨h1, h2, h3, h4⟩
        rw [hc] at h1
        rw [hd] at h4
        injection h1 with h1
        injection h4 with h4
        exact ⟨h4, ⟨h1, h2⟩, h3⟩
  · rw [if_pos (by simpa using ht)] at h
    injection h with h
    subst h
    exact ⟨by simp [ht], by simp [ht]⟩

/-! #### Depth -/

/-- How deep the comparison of an object goes. -/
def DObj.level : DObj O → Nat
  | .none => 0
  | .leaf _ => 0
  | .seg _ => 1
  | .file _ => 2

theorem level_ofOption (o : Option O) : (DObj.ofOption o).level = 0 := by cases o <;> rfl

theorem cmpPairs_congr {cmp cmp' : DObj O → DObj O → Except Err Bool} {l1 l2 : List (DObj O)}
    {same : Bool} (h : ∀ a ∈ l1, ∀ b, cmp a b = cmp' a b) :
    cmpPairs cmp l1 l2 same = cmpPairs cmp' l1 l2 same := by
  induction l1 generalizing l2 same with
  | nil => rfl
  | cons x xs ih =>
    cases l2 with
    | nil => rfl
    | cons y ys =>
      simp only [cmpPairs, h x (by simp) y]
      cases cmp' x y with
      | error e => rfl
      | ok e => exact ih fun a ha b => h a (by simp [ha]) b

theorem cmpKinds_congr {cmp cmp' : DObj O → DObj O → Except Err Bool}
    {ks : List (List (DObj O) × List (DObj O))} {same : Bool}
    (h : ∀ k ∈ ks, ∀ a ∈ k.1, ∀ b, cmp a b = cmp' a b) :
    cmpKinds cmp ks same = cmpKinds cmp' ks same := by
  induction ks generalizing same with
  | nil => rfl
  | cons k ks ih =>
    obtain ⟨l1, l2⟩ := k
    simp only [cmpKinds, cmpLists]
    rw [cmpPairs_congr (h (l1, l2) (by simp))]
    cases cmpPairs cmp' l1 l2 _ with
    | error e => rfl
    | ok e => exact ih fun k hk => h k (by simp [hk])

theorem mem_keptObjs {env : DiffEnv O H} {l : List (DObj O)} {a : DObj O}
    (h : a ∈ keptObjs env l) : a ∈ l := (List.mem_filter.mp h).1

theorem handleDiff_congr {env : DiffEnv O H} {cmp cmp' : DObj O → DObj O → Except Err Bool}
    {h : DHandle H} {a b : DObj O} (hc : ∀ x, x.level < a.level → ∀ y, cmp x y = cmp' x y) :
    handleDiff env cmp h a b = handleDiff env cmp' h a b := by
  cases h with
  | other h => rfl
  | nitfFile =>
    cases a with
    | file f1 =>
      cases b with
      | file f2 =>
        simp only [handleDiff, fileDiff]
        rw [hc (.leaf f1.header) (by simp [DObj.level])]
        cases cmp' (.leaf f1.header) (.leaf f2.header) with
        | error e => rfl
        | ok e =>
          simp only
          rw [cmpKinds_congr]
          intro k hk x hx y
          refine hc x ?_ y
          simp only [kindLists, List.mem_cons, List.not_mem_nil, or_false] at hk
          rcases hk with rfl | rfl | rfl | rfl | rfl | rfl <;>
            · have := mem_keptObjs hx
              rw [List.mem_map] at this
              obtain ⟨_, _, rfl⟩ := this
              simp [DObj.level]
      | _ => rfl
    | _ => rfl
  | segment =>
    cases a with
    | seg s1 =>
      cases b with
      | seg s2 =>
        have h0 : ∀ x : DObj O, x.level = 0 → ∀ y, cmp x y = cmp' x y := fun x hx y =>
          hc x (by rw [hx]; simp [DObj.level]) y
        simp only [handleDiff, segDiff, cmpLists]
        rw [h0 (.leaf s1.subheader) rfl]
        congr 2
        cases cmp' (.leaf s1.subheader) (.leaf s2.subheader) with
        | error e => rfl
        | ok e =>
          simp only
          rw [h0 _ (level_ofOption s1.data)]
          have hl : ∀ s, cmpPairs cmp (keptObjs env (s1.tres.map .leaf))
              (keptObjs env (s2.tres.map .leaf)) s = cmpPairs cmp' (keptObjs env (s1.tres.map .leaf))
              (keptObjs env (s2.tres.map .leaf)) s := by
            intro s
            apply cmpPairs_congr
            intro x hx y
            have := mem_keptObjs hx
            rw [List.mem_map] at this
            obtain ⟨_, _, rfl⟩ := this
            exact h0 _ rfl y
          simp only [hl]
          have hu : segUser cmp s1 s2 e = segUser cmp' s1 s2 e := by
            unfold segUser
            cases s1.user with
            | none => rfl
            | some u => simp only [h0 (.leaf u) rfl]
          rw [hu]
      | _ => rfl
    | _ => rfl

variable [DecidableEq H]

/-- The nesting of the comparison never exceeds 3: a greater depth gives the same. -/
theorem compareObjs_depth (it : IterOrder (DHandle H)) (hp : Heap (DHandle H)) (o : HandleSet)
    (env : DiffEnv O H) : ∀ (n m : Nat) (a b : DObj O), a.level < n → a.level < m →
    compareObjs it hp o env n a b = compareObjs it hp o env m a b := by
  intro n
  induction n with
  | zero => intro m a b h; omega
  | succ n ih =>
    intro m a b h1 h2
    cases m with
    | zero => omega
    | succ m =>
      unfold compareObjs
      congr 2
      funext h s
      rw [handleDiff_congr fun x hx y => ih m x y (by omega) (by omega)]

/-- The result of a comparison comes from the one handler of highest priority that takes the two
objects. -/
theorem compareAny_winner {it : IterOrder (DHandle H)} (hit : ∀ k l, (it k l).Perm l)
    {hp : Heap (DHandle H)} {o : HandleSet} (w : o.WF hp) {env : DiffEnv O H} {a b : DObj O}
    {r : Bool} : compareAny it hp o env a b = .ok r ↔
      ∃ h p, Winner (o.Mem hp) (fun h => handleDiff env (compareAny it hp o env) h a b) h p r := by
  have hf : (fun h => handleDiff env (compareObjs it hp o env 2) h a b) =
      fun h => handleDiff env (compareAny it hp o env) h a b := by
    funext h
    apply handleDiff_congr
    intro x hx y
    have : a.level ≤ 2 := by cases a <;> simp [DObj.level]
    exact compareObjs_depth it hp o env 2 3 x y (by omega) (by omega)
  have hc := C30_result (σ := Unit) hit w (f := fun h =>
    handleDiff env (compareAny it hp o env) h a b) (s := ()) (s' := ()) (r := r)
  simp only [true_and] at hc
  rw [← hc, ← hf]
  unfold compareAny compareObjs
  have : (fun h (s : Unit) => (handleDiff env (compareObjs it hp o env 2) h a b).map
      fun r => (r, s)) = pureHandler (fun h => handleDiff env (compareObjs it hp o env 2) h a b) :=
    rfl
  rw [this]
  cases o.handle it (pureHandler fun h => handleDiff env (compareObjs it hp o env 2) h a b) hp () with
  | error e => simp [Except.map]
  | ok x => simp [Except.map, Prod.ext_iff]

/-- C44.  When the comparison of two files returns, the result is "same" if and only if the headers
and, kind by kind, the TREs and segments that are not skipped compare the same pairwise and are
equally many.  For all files, skip functions, sets of handlers, iteration orders and outcomes of
the handlers of the parts. -/
theorem C44_file {it : IterOrder (DHandle H)} (hit : ∀ k l, (it k l).Perm l)
    {hp : Heap (DHandle H)} {o : HandleSet} (w : o.WF hp) {env : DiffEnv O H}
    (hstd : Standard (o.Mem hp) env) {f1 f2 : DFile O} {r : Bool}
    (h : compareAny it hp o env (.file f1) (.file f2) = .ok r) :
    (r = true ↔
      FileSame env (fun a b => compareAny it hp o env a b = .ok true) f1 f2) ∧
    ∀ a b, FilePaired env f1 f2 a b → ∃ e, compareAny it hp o env a b = .ok e := by
  obtain ⟨g, p, hw⟩ := (compareAny_winner hit w).mp h
  have ha := hw.accepts
  cases g with
  | segment => simp [handleDiff] at ha
  | other g =>
    have := hstd g p hw.mem (.file f1) (.file f2) (.inl ⟨_, _, rfl, rfl⟩)
    simp [handleDiff, this] at ha
  | nitfFile =>
    simp only [handleDiff] at ha
    cases hf : fileDiff env (compareAny it hp o env) f1 f2 with
    | error e => rw [hf] at ha; cases ha
    | ok x =>
      rw [hf] at ha
      simp only [Except.map, Except.ok.injEq, Option.some.injEq] at ha
      subst ha
      exact C44_file_handler hf

/-- C44, segments.  When the comparison of two segments returns, they have the same type, and the
result is "same" if and only if both hold TRE overflow or all parts compare the same (the user
subheader only if the first segment has one, see `C44_user_subheader`). -/
theorem C44_segment {it : IterOrder (DHandle H)} (hit : ∀ k l, (it k l).Perm l)
    {hp : Heap (DHandle H)} {o : HandleSet} (w : o.WF hp) {env : DiffEnv O H}
    (hstd : Standard (o.Mem hp) env) {s1 s2 : DSeg O} {r : Bool}
    (h : compareAny it hp o env (.seg s1) (.seg s2) = .ok r) :
    s1.type = s2.type ∧
    (r = true ↔ SegSame env (fun a b => compareAny it hp o env a b = .ok true) s1 s2) := by
  obtain ⟨g, p, hw⟩ := (compareAny_winner hit w).mp h
  have ha := hw.accepts
  cases g with
  | nitfFile => simp [handleDiff] at ha
  | other g =>
    have := hstd g p hw.mem (.seg s1) (.seg s2) (.inr ⟨_, _, rfl, rfl⟩)
    simp [handleDiff, this] at ha
  | segment =>
    simp only [handleDiff] at ha
    obtain ⟨k1, k2⟩ := C44_segment_handler ha
    have ht : s1.type = s2.type := by
      apply Classical.byContradiction
      intro hne
      exact absurd (k1.mpr hne) (by simp)
    refine ⟨ht, ?_⟩
    simp only [Option.some.injEq, ht, true_and] at k2
    exact k2

/-- C44, nothing is masked: if one pair of parts compares different, or a kind has different
counts, the files are not reported the same. -/
theorem C44_not_masked {it : IterOrder (DHandle H)} (hit : ∀ k l, (it k l).Perm l)
    {hp : Heap (DHandle H)} {o : HandleSet} (w : o.WF hp) {env : DiffEnv O H}
    (hstd : Standard (o.Mem hp) env) {f1 f2 : DFile O} {a b : DObj O}
    (hp' : FilePaired env f1 f2 a b) (hab : compareAny it hp o env a b = .ok false) :
    compareAny it hp o env (.file f1) (.file f2) ≠ .ok true := by
  intro h
  have hs := (C44_file hit w hstd h).1.mp rfl
  have key : ∀ l1 l2, ListsSame (fun a b => compareAny it hp o env a b = .ok true) l1 l2 →
      Paired l1 l2 a b → False := by
    rintro l1 l2 ⟨_, h2⟩ ⟨i, h3, h4⟩
    have this : compareAny it hp o env a b = .ok true := h2 i a b h3 h4
    rw [hab] at this
    cases this
  rcases hp' with ⟨rfl, rfl⟩ | h1 | h1 | h1 | h1 | h1 | h1
  · have this : compareAny it hp o env _ _ = .ok true := hs.header
    rw [hab] at this
    cases this
  · exact key _ _ hs.tres h1
  · exact key _ _ hs.image h1
  · exact key _ _ hs.graphic h1
  · exact key _ _ hs.text h1
  · exact key _ _ hs.des h1
  · exact key _ _ hs.res h1

end

/-! ### With the handlers registered by default -/

section
variable {P : PyFloat}

/-- The handler that decides about two objects of the given classes. -/
def chosen : LeafCls → LeafCls → Option LeafHandle
  | .struct a, .struct b =>
    if a = b then some (.struct a)
    else if a.isDes && b.isDes then some (.struct .otherDes) else none
  | .treUnknown, .treUnknown => some .treUnknown
  | .tre, .tre => some .tre
  | .tre, .treUnknown => some .tre
  | .treUnknown, .tre => some .tre
  | .text, .text => some .text
  | .extDef, .extDef => some .extDef
  | .image, .image => some .imageSubset
  | .imagePlaceHolder, .imagePlaceHolder => some .imagePlaceHolder
  | .dataPlaceHolder, .dataPlaceHolder => some .dataPlaceHolder
  | _, _ => none

/-- For each pair of classes: `chosen` takes them, all other handlers that do have lower priority. -/
def chosenOk (a b : LeafCls) : Bool :=
  match chosen a b with
  | none => defaultHandles.all fun x =>
      match x.1 with
      | .other h => !(h.isa a && h.isa b)
      | _ => true
  | some h => h.isa a && h.isa b && defaultHandles.any fun x =>
      decide (x.1 = .other h) && defaultHandles.all fun y =>
        match y.1 with
        | .other h' => !(h'.isa a && h'.isa b) || decide (h' = h ∧ y.2 = x.2) || decide (y.2 < x.2)
        | _ => true

theorem StructCls.mem_all (c : StructCls) : c ∈ StructCls.all := by cases c <;> decide

theorem LeafCls.mem_all (c : LeafCls) : c ∈ LeafCls.all := by
  cases c with
  | struct c => exact List.mem_append_left _ (List.mem_map_of_mem (StructCls.mem_all c))
  | _ => decide

theorem chosen_all : ∀ a b, chosenOk a b = true := by
  have : (LeafCls.all.all fun a => LeafCls.all.all fun b => chosenOk a b) = true := by
    decide +kernel
  simp only [List.all_eq_true] at this
  exact fun a b => this a (LeafCls.mem_all a) b (LeafCls.mem_all b)

/-- C44, default handlers: for two objects that are not files or segments, the decision is that of
the one handler for their classes; where there is none the comparison raises.  There is never an
ambiguity. -/
theorem C44_dispatch {it : IterOrder (DHandle LeafHandle)} (hit : ∀ k l, (it k l).Perm l)
    {hp : Heap (DHandle LeafHandle)} {o : HandleSet} (w : o.WF hp)
    (hM : ∀ x, o.Mem hp x ↔ x ∈ defaultHandles) {cfg : FileDiffConfig P}
    {skip : List (DObj (Leaf P) → Bool)} (a b : Leaf P) (r : Bool) :
    compareAny it hp o (defaultEnv P cfg skip) (.leaf a) (.leaf b) = .ok r ↔
      ∃ h, chosen a.cls b.cls = some h ∧ leafOut P cfg h a b = .ok r := by
  rw [compareAny_winner hit w]
  have hf : ∀ h cmp, handleDiff (defaultEnv P cfg skip) cmp (.other h) (.leaf a) (.leaf b) =
      if h.isa a.cls && h.isa b.cls then (leafOut P cfg h a b).map some else .ok none :=
    fun _ _ => rfl
  have hok := chosen_all a.cls b.cls
  unfold chosenOk at hok
  constructor
  · rintro ⟨g, p, hw⟩
    have hm := (hM _).mp hw.mem
    have ha := hw.accepts
    cases g with
    | nitfFile => simp [handleDiff] at ha
    | segment => simp [handleDiff] at ha
    | other h =>
      rw [hf] at ha
      cases ht : (h.isa a.cls && h.isa b.cls) with
      | false => rw [ht] at ha; simp at ha
      | true =>
        rw [ht] at ha
        simp only [if_true] at ha
        have hout : leafOut P cfg h a b = .ok r := by
          cases hl : leafOut P cfg h a b with
          | error e => rw [hl] at ha; cases ha
          | ok x =>
            rw [hl] at ha
            simp only [Except.map, Except.ok.injEq, Option.some.injEq] at ha
            rw [ha]
        cases hc : chosen a.cls b.cls with
        | none =>
          rw [hc] at hok
          simp only [List.all_eq_true] at hok
          have := hok _ hm
          simp [ht] at this
        | some h' =>
          rw [hc] at hok
          simp only [Bool.and_eq_true, List.any_eq_true, List.all_eq_true, decide_eq_true_eq] at hok
          obtain ⟨⟨t1, t2⟩, ⟨x1, q⟩, hx, rfl, hall⟩ := hok
          have := hall _ hm
          simp only [ht, Bool.not_true, Bool.false_or, Bool.or_eq_true, decide_eq_true_eq] at this
          rcases this with ⟨rfl, _⟩ | hlt
          · exact ⟨h, rfl, hout⟩
          · have := hw.higher _ _ ((hM _).mpr hx) hlt
            simp only [hf, t1, t2, Bool.and_self, if_true] at this
            cases hl : leafOut P cfg h' a b with
            | error e => rw [hl] at this; cases this
            | ok x => rw [hl] at this; cases this
  · rintro ⟨h, hc, hout⟩
    rw [hc] at hok
    simp only [Bool.and_eq_true, List.any_eq_true, List.all_eq_true, decide_eq_true_eq] at hok
    obtain ⟨⟨t1, t2⟩, ⟨x1, q⟩, hx, rfl, hall⟩ := hok
    refine ⟨.other h, q, (hM _).mpr hx, by simp [hf, t1, t2, hout, Except.map], ?_, ?_⟩
    · intro g q' hm hlt
      have := hall _ ((hM _).mp hm)
      cases g with
      | nitfFile => rfl
      | segment => rfl
      | other g =>
        simp only [hf]
        cases ht : (g.isa a.cls && g.isa b.cls) with
        | false => simp
        | true =>
          simp only [ht, Bool.not_true, Bool.false_or, Bool.or_eq_true, decide_eq_true_eq] at this
          omega
    · intro g hm hne
      have := hall _ ((hM _).mp hm)
      cases g with
      | nitfFile => rfl
      | segment => rfl
      | other g =>
        simp only [hf]
        cases ht : (g.isa a.cls && g.isa b.cls) with
        | false => simp
        | true =>
          simp only [ht, Bool.not_true, Bool.false_or, Bool.or_eq_true, decide_eq_true_eq] at this
          rcases this with ⟨rfl, _⟩ | h'
          · exact absurd rfl hne
          · omega

variable (P) in
/-- The two structures compare the same (C43 says what that means). -/
def StructSame (c : DiffConfig P.F) (d1 d2 : Desc) (S1 S2 : Store P.F) : Prop :=
  ∃ log, compareObj P c d1 d2 S1 S2 = .ok (true, log)

variable (P) in
/-- The subheader of a segment that holds TRE overflow. -/
def HoldsOverflow (d : Desc) (S : Store P.F) : Prop :=
  getAttr P d S (n!"desid") [] = .ok (.str "TRE_OVERFLOW".toList)

/-- A text segment holds a text: as a str, or as its bytes in UTF-8. -/
def HoldsText : List Char ⊕ Bytes → List Char → Prop
  | .inl t, s => t = s
  | .inr b, s => b = utf8Enc s

theorem desidOverflow_iff {d : Desc} {S : Store P.F} :
    desidOverflow P d S = true ↔ HoldsOverflow P d S := by
  unfold desidOverflow HoldsOverflow getAttr
  cases resolve d.tab (n!"desid") with
  | none => simp
  | some n =>
    simp only
    cases getItem P d.tab S n [] with
    | error e => simp
    | ok v => cases v <;> simp

theorem stringAsStr_iff {x : List Char ⊕ Bytes} {s : List Char} :
    stringAsStr x = .ok s ↔ HoldsText x s := by
  cases x with
  | inl t => simp [stringAsStr, HoldsText]
  | inr b =>
    constructor
    · exact fun h => (utf8Enc_utf8Dec b.length b s (Nat.le_refl _) h).symm
    · intro h
      rw [show b = utf8Enc s from h]
      exact utf8Dec_utf8Enc s

/-- C44, default handlers: an object is left out of the comparison exactly when one of the functions
the user gave says so. -/
theorem C44_skipped {cfg : FileDiffConfig P} {skip : List (DObj (Leaf P) → Bool)}
    (l : List (DObj (Leaf P))) (o : DObj (Leaf P)) :
    o ∈ (defaultEnv P cfg skip).kept l ↔ o ∈ l ∧ ∀ f ∈ skip, f o = false := by
  simp [DiffEnv.kept, defaultEnv]

/-- C44, default handlers: which segments are taken to hold TRE overflow. -/
theorem C44_overflow {cfg : FileDiffConfig P} {skip : List (DObj (Leaf P) → Bool)} (l : Leaf P) :
    (defaultEnv P cfg skip).overflow l = true ↔
      ∃ c t d S, l = .struct c t d S ∧ HoldsOverflow P d S := by
  cases l with
  | struct c t d S =>
    simp only [defaultEnv, leafOverflow, desidOverflow_iff]
    constructor
    · exact fun h => ⟨c, t, d, S, rfl, h⟩
    · rintro ⟨_, _, _, _, h, h'⟩
      cases h
      exact h'
  | _ => simp [defaultEnv, leafOverflow]

example : HoldsOverflow P0 Tables.t_des_subheader (setAttr P0 Tables.t_des_subheader Store.empty
    (n!"desid") [] (.str "TRE_OVERFLOW".toList)).1 := by
  unfold HoldsOverflow
  decide +kernel

example : HoldsText (.inr [0xC3, 0xA9]) ['é'] := by
  unfold HoldsText
  decide

/-- Specification: what has to hold of two objects for them to be the same. -/
def LeafSame (cfg : FileDiffConfig P) : Leaf P → Leaf P → Prop
  | .struct c1 t1 d1 S1, .struct c2 t2 d2 S2 =>
    if c1 = c2 ∧ c1 ≠ .otherDes then
      (c1 = .desSub ∧ HoldsOverflow P d1 S1 ∧ HoldsOverflow P d2 S2) ∨
        StructSame P (cfg.struct c1) d1 d2 S1 S2
    else c1.isDes = true ∧ c2.isDes = true ∧ t1 = t2 ∧ StructSame P (cfg.des t1) d1 d2 S1 S2
  | .tre t1 d1 S1, .tre t2 d2 S2 => t1 = t2 ∧ StructSame P (cfg.tre t1) d1 d2 S1 S2
  | .tre t1 d1 S1, .treUnknown t2 _ =>
    t1 = t2 ∧ StructSame P (cfg.tre t1) d1 .nil S1 Store.empty
  | .treUnknown t1 _, .tre t2 d2 S2 =>
    t1 = t2 ∧ StructSame P (cfg.tre t1) .nil d2 Store.empty S2
  | .treUnknown t1 b1, .treUnknown t2 b2 => t1 = t2 ∧ b1 = b2
  | .text s1, .text s2 => ∃ s, HoldsText s1 s ∧ HoldsText s2 s
  | .extDef d1, .extDef d2 => cfg.extExclude = true ∨ cfg.extWarn = true ∨ d1 = d2
  | .image sh1 p1, .image sh2 p2 => sh1 = sh2 ∧ cfg.allclose p1 p2 = true
  | .imagePlaceHolder _, .imagePlaceHolder _ => True
  | .dataPlaceHolder _, .dataPlaceHolder _ => True
  | _, _ => False

theorem structSame_map {c : DiffConfig P.F} {d1 d2 : Desc} {S1 S2 : Store P.F} :
    (compareObj P c d1 d2 S1 S2).map (·.1) = .ok true ↔ StructSame P c d1 d2 S1 S2 := by
  unfold StructSame
  cases compareObj P c d1 d2 S1 S2 with
  | error e => simp [Except.map]
  | ok x => obtain ⟨b, log⟩ := x; cases b <;> simp [Except.map]

/-- C44, default handlers: the decision about two objects that are not files or segments. -/
theorem C44_leaf {it : IterOrder (DHandle LeafHandle)} (hit : ∀ k l, (it k l).Perm l)
    {hp : Heap (DHandle LeafHandle)} {o : HandleSet} (w : o.WF hp)
    (hM : ∀ x, o.Mem hp x ↔ x ∈ defaultHandles) {cfg : FileDiffConfig P}
    {skip : List (DObj (Leaf P) → Bool)} (a b : Leaf P) :
    compareAny it hp o (defaultEnv P cfg skip) (.leaf a) (.leaf b) = .ok true ↔
      LeafSame cfg a b := by
  rw [C44_dispatch hit w hM]
  cases a with
  | struct c1 t1 d1 S1 =>
    cases b with
    | struct c2 t2 d2 S2 =>
      simp only [Leaf.cls, chosen, LeafSame, ← desidOverflow_iff]
      by_cases hc : c1 = c2
      · subst hc
        simp only [if_true, Option.some.injEq, exists_eq_left', true_and]
        cases c1 <;>
          simp only [ne_eq, reduceCtorEq, not_false_eq_true, not_true, if_true, if_false,
            false_and, false_or, true_and, leafOut, structSame_map, StructCls.isDes]
        · split
          · rename_i h
            simp only [Bool.and_eq_true] at h
            simp [h]
          · rename_i h
            simp only [Bool.and_eq_true] at h
            rw [structSame_map]
            simp [h]
        · by_cases ht : t1 = t2
          · simp [ht, structSame_map]
          · simp [ht]
      · have hc' : ¬ (c1 = c2 ∧ c1 ≠ .otherDes) := fun h => hc h.1
        rw [if_neg hc, if_neg hc']
        by_cases hd : (c1.isDes && c2.isDes) = true
        · simp only [hd, if_true, Option.some.injEq, exists_eq_left', leafOut]
          simp only [Bool.and_eq_true] at hd
          by_cases ht : t1 = t2
          · simp [ht, hd, structSame_map]
          · simp [ht]
        · rw [if_neg hd]
          simp only [Bool.and_eq_true] at hd
          constructor
          · rintro ⟨h, h1, _⟩; cases h1
          · rintro ⟨h1, h2, _⟩; exact absurd ⟨h1, h2⟩ hd
    | _ => simp [Leaf.cls, chosen, LeafSame]
  | tre t1 d1 S1 =>
    cases b with
    | tre t2 d2 S2 =>
      by_cases ht : t1 = t2 <;> simp [Leaf.cls, chosen, LeafSame, leafOut, ht, structSame_map]
    | treUnknown t2 b2 =>
      by_cases ht : t1 = t2 <;> simp [Leaf.cls, chosen, LeafSame, leafOut, ht, structSame_map]
    | _ => simp [Leaf.cls, chosen, LeafSame]
  | treUnknown t1 b1 =>
    cases b with
    | tre t2 d2 S2 =>
      by_cases ht : t1 = t2 <;> simp [Leaf.cls, chosen, LeafSame, leafOut, ht, structSame_map]
    | treUnknown t2 b2 =>
      by_cases ht : t1 = t2
      · by_cases hb : b1 = b2
        · simp [Leaf.cls, chosen, LeafSame, leafOut, ht, hb]
        · simp only [Leaf.cls, chosen, LeafSame, leafOut, ht, hb, Option.some.injEq,
            exists_eq_left', ne_eq, not_true, not_false_eq_true, if_true, if_false, and_false,
            iff_false]
          cases utf8Dec b1 <;> cases utf8Dec b2 <;> simp
      · simp [Leaf.cls, chosen, LeafSame, leafOut, ht]
    | _ => simp [Leaf.cls, chosen, LeafSame]
  | text s1 =>
    cases b with
    | text s2 =>
      simp only [Leaf.cls, chosen, LeafSame, leafOut, Option.some.injEq, exists_eq_left', ← stringAsStr_iff]
      cases stringAsStr s1 <;> cases stringAsStr s2 <;> simp [eq_comm]
    | _ => simp [Leaf.cls, chosen, LeafSame]
  | extDef d1 =>
    cases b with
    | extDef d2 =>
      cases h1 : cfg.extExclude <;> cases h2 : cfg.extWarn <;>
        simp [Leaf.cls, chosen, LeafSame, leafOut, h1, h2]
    | _ => simp [Leaf.cls, chosen, LeafSame]
  | image sh1 p1 =>
    cases b with
    | image sh2 p2 =>
      by_cases hs : sh1 = sh2 <;> simp [Leaf.cls, chosen, LeafSame, leafOut, hs]
    | _ => simp [Leaf.cls, chosen, LeafSame]
  | imagePlaceHolder i =>
    cases b <;> simp [Leaf.cls, chosen, LeafSame, leafOut]
  | dataPlaceHolder i =>
    cases b <;> simp [Leaf.cls, chosen, LeafSame, leafOut]
  | other i => cases b <;> simp [Leaf.cls, chosen, LeafSame]

/-- Specification, objects that are not files or segments (or are missing, which cannot be
compared). -/
def LeafPart (cfg : FileDiffConfig P) : DObj (Leaf P) → DObj (Leaf P) → Prop
  | .leaf a, .leaf b => LeafSame cfg a b
  | _, _ => False

/-- Specification, parts of a file. -/
def PartSame (cfg : FileDiffConfig P) (env : DiffEnv (Leaf P) LeafHandle) :
    DObj (Leaf P) → DObj (Leaf P) → Prop
  | .seg s1, .seg s2 => s1.type = s2.type ∧ SegSame env (LeafPart cfg) s1 s2
  | a, b => LeafPart cfg a b

theorem default_standard {hp : Heap (DHandle LeafHandle)} {o : HandleSet}
    {cfg : FileDiffConfig P} {skip : List (DObj (Leaf P) → Bool)} :
    Standard (o.Mem hp) (defaultEnv P cfg skip) := by
  rintro h p _ a b (⟨f, g, rfl, rfl⟩ | ⟨f, g, rfl, rfl⟩) <;> rfl

theorem leafPart_iff {it : IterOrder (DHandle LeafHandle)} (hit : ∀ k l, (it k l).Perm l)
    {hp : Heap (DHandle LeafHandle)} {o : HandleSet} (w : o.WF hp)
    (hM : ∀ x, o.Mem hp x ↔ x ∈ defaultHandles) {cfg : FileDiffConfig P}
    {skip : List (DObj (Leaf P) → Bool)} {a b : DObj (Leaf P)} (ha : a.level = 0) :
    compareAny it hp o (defaultEnv P cfg skip) a b = .ok true ↔ LeafPart cfg a b := by
  have hno : ∀ a b : DObj (Leaf P), a.level = 0 → (∀ x y, a = .leaf x → b = .leaf y → False) →
      ¬ compareAny it hp o (defaultEnv P cfg skip) a b = .ok true := by
    intro a b ha hne h
    obtain ⟨g, p, hw⟩ := (compareAny_winner hit w).mp h
    have hacc := hw.accepts
    cases g <;> cases a <;> cases b <;> simp [handleDiff, defaultEnv, leafDiff, DObj.level] at hacc ha
    exact hne _ _ rfl rfl
  cases a with
  | none =>
    exact ⟨fun h => hno _ _ ha (fun _ _ h1 => by cases h1) h, fun h => h.elim⟩
  | leaf x =>
    cases b with
    | leaf y => exact C44_leaf hit w hM x y
    | none => exact ⟨fun h => hno _ _ ha (fun _ _ _ h1 => by cases h1) h, fun h => h.elim⟩
    | seg s => exact ⟨fun h => hno _ _ ha (fun _ _ _ h1 => by cases h1) h, fun h => h.elim⟩
    | file s => exact ⟨fun h => hno _ _ ha (fun _ _ _ h1 => by cases h1) h, fun h => h.elim⟩
  | seg s => cases ha
  | file f => cases ha

theorem ListsSame.congr {O : Type} {R R' : DObj O → DObj O → Prop} {l1 l2 : List (DObj O)}
    (h : ∀ a b, Paired l1 l2 a b → (R a b ↔ R' a b)) : ListsSame R l1 l2 ↔ ListsSame R' l1 l2 := by
  unfold ListsSame
  constructor
  · exact fun ⟨h1, h2⟩ => ⟨h1, fun i a b e1 e2 => (h a b ⟨i, e1, e2⟩).mp (h2 i a b e1 e2)⟩
  · exact fun ⟨h1, h2⟩ => ⟨h1, fun i a b e1 e2 => (h a b ⟨i, e1, e2⟩).mpr (h2 i a b e1 e2)⟩

theorem kept_level {O H : Type} {env : DiffEnv O H} {l : List O} {l2 : List (DObj O)} {a b : DObj O}
    (h : Paired (env.kept (l.map .leaf)) l2 a b) : a.level = 0 := by
  obtain ⟨i, h1, _⟩ := h
  have := (List.mem_filter.mp (List.mem_of_getElem? h1)).1
  rw [List.mem_map] at this
  obtain ⟨_, _, rfl⟩ := this
  rfl

theorem kept_seg {O H : Type} {env : DiffEnv O H} {l l' : List (DSeg O)} {a b : DObj O}
    (h : Paired (env.kept (l.map .seg)) (env.kept (l'.map .seg)) a b) :
    ∃ s t, a = .seg s ∧ b = .seg t := by
  obtain ⟨i, h1, h2⟩ := h
  have h1 := (List.mem_filter.mp (List.mem_of_getElem? h1)).1
  have h2 := (List.mem_filter.mp (List.mem_of_getElem? h2)).1
  rw [List.mem_map] at h1 h2
  obtain ⟨s, _, rfl⟩ := h1
  obtain ⟨t, _, rfl⟩ := h2
  exact ⟨s, t, rfl, rfl⟩

/-- C44 with the default handlers, for all files and all configurations.  When the comparison
returns, the result is "same" if and only if headers, TREs, and segments with their subheaders,
user subheaders, TREs and data are the same, down to the content of each: the fields that count
agree, unknown TREs have the same tag and bytes, texts are the same, external content is the same,
images have the same shape and are close.  What this leaves out: data no class can read is taken to
be the same (`C44_placeholder`), a user subheader that only the second segment has is not noticed
(`C44_user_subheader`). -/
theorem C44_default_partial {it : IterOrder (DHandle LeafHandle)} (hit : ∀ k l, (it k l).Perm l)
    {hp : Heap (DHandle LeafHandle)} {o : HandleSet} (w : o.WF hp)
    (hM : ∀ x, o.Mem hp x ↔ x ∈ defaultHandles) {cfg : FileDiffConfig P}
    {skip : List (DObj (Leaf P) → Bool)} {f1 f2 : DFile (Leaf P)} {r : Bool}
    (h : compareAny it hp o (defaultEnv P cfg skip) (.file f1) (.file f2) = .ok r) :
    r = true ↔ FileSame (defaultEnv P cfg skip) (PartSame cfg (defaultEnv P cfg skip)) f1 f2 := by
  obtain ⟨h1, h2⟩ := C44_file hit w default_standard h
  have hleaf : ∀ a b : DObj (Leaf P), a.level = 0 →
      (compareAny it hp o (defaultEnv P cfg skip) a b = .ok true ↔
        PartSame cfg (defaultEnv P cfg skip) a b) := by
    intro a b ha
    rw [leafPart_iff hit w hM ha]
    cases a <;> first | rfl | cases ha
  have hseg : ∀ s t : DSeg (Leaf P),
      (∃ e, compareAny it hp o (defaultEnv P cfg skip) (.seg s) (.seg t) = .ok e) →
      (compareAny it hp o (defaultEnv P cfg skip) (.seg s) (.seg t) = .ok true ↔
        PartSame cfg (defaultEnv P cfg skip) (.seg s) (.seg t)) := by
    rintro s t ⟨e, he⟩
    obtain ⟨g1, g2⟩ := C44_segment hit w default_standard he
    rw [he]
    simp only [Except.ok.injEq, g2, PartSame, g1, true_and, SegSame]
    rw [leafPart_iff hit w hM rfl, leafPart_iff hit w hM (level_ofOption _),
      ListsSame.congr (R' := LeafPart cfg) fun a b hp => leafPart_iff hit w hM (kept_level hp)]
    have : (∀ u, s.user = some u → compareAny it hp o (defaultEnv P cfg skip) (.leaf u)
        (.ofOption t.user) = .ok true) ↔
        ∀ u, s.user = some u → LeafPart cfg (.leaf u) (.ofOption t.user) :=
      forall_congr' fun u => imp_congr_right fun _ => leafPart_iff hit w hM rfl
    rw [this]
  have hl : ∀ a b, FilePaired (defaultEnv P cfg skip) f1 f2 a b →
      (compareAny it hp o (defaultEnv P cfg skip) a b = .ok true ↔
        PartSame cfg (defaultEnv P cfg skip) a b) := by
    intro a b hab
    have hr := h2 a b hab
    rcases hab with ⟨rfl, rfl⟩ | h1 | h1 | h1 | h1 | h1 | h1
    · exact hleaf _ _ rfl
    · exact hleaf _ _ (kept_level h1)
    all_goals
      obtain ⟨s, t, rfl, rfl⟩ := kept_seg h1
      exact hseg s t hr
  rw [h1]
  constructor
  · rintro ⟨q0, q1, q2, q3, q4, q5, q6⟩
    exact ⟨(hl _ _ (.inl ⟨rfl, rfl⟩)).mp q0,
      (ListsSame.congr fun a b h => hl a b (.inr (.inl h))).mp q1,
      (ListsSame.congr fun a b h => hl a b (.inr (.inr (.inl h)))).mp q2,
      (ListsSame.congr fun a b h => hl a b (.inr (.inr (.inr (.inl h))))).mp q3,
      (ListsSame.congr fun a b h => hl a b (.inr (.inr (.inr (.inr (.inl h)))))).mp q4,
      (ListsSame.congr fun a b h => hl a b (.inr (.inr (.inr (.inr (.inr (.inl h))))))).mp q5,
      (ListsSame.congr fun a b h => hl a b (.inr (.inr (.inr (.inr (.inr (.inr h))))))).mp q6⟩
  · rintro ⟨q0, q1, q2, q3, q4, q5, q6⟩
    exact ⟨(hl _ _ (.inl ⟨rfl, rfl⟩)).mpr q0,
      (ListsSame.congr fun a b h => hl a b (.inr (.inl h))).mpr q1,
      (ListsSame.congr fun a b h => hl a b (.inr (.inr (.inl h)))).mpr q2,
      (ListsSame.congr fun a b h => hl a b (.inr (.inr (.inr (.inl h))))).mpr q3,
      (ListsSame.congr fun a b h => hl a b (.inr (.inr (.inr (.inr (.inl h)))))).mpr q4,
      (ListsSame.congr fun a b h => hl a b (.inr (.inr (.inr (.inr (.inr (.inl h))))))).mpr q5,
      (ListsSame.congr fun a b h => hl a b (.inr (.inr (.inr (.inr (.inr (.inr h))))))).mpr q6⟩

/-! ### Cases meeting the hypotheses, and what fails, with witnesses -/

/-- The default handler set, as built by importing the package. -/
def defaultSet : Heap (DHandle LeafHandle) × HandleSet :=
  runOps (defaultHandles.map fun x => .add x.1 x.2) (⟨fun _ => [], 0⟩, HandleSet.new)

theorem specOps_add {H : Type} [DecidableEq H] (l : List (H × Int)) (A : H × Int → Prop)
    (x : H × Int) : specOps (l.map fun y => .add y.1 y.2) A x ↔ x ∈ l ∨ A x := by
  induction l generalizing A with
  | nil => simp [specOps]
  | cons y l ih =>
    rw [List.map_cons]
    change specOps (l.map fun y => HOp.add y.1 y.2) (HOp.spec (.add y.1 y.2) A) x ↔ _
    rw [ih]
    simp only [HOp.spec, List.mem_cons]
    constructor
    · rintro (h | h | h)
      · exact .inl (.inr h)
      · exact .inl (.inl h)
      · exact .inr h
    · rintro ((h | h) | h)
      · exact .inr (.inl h)
      · exact .inl h
      · exact .inr (.inr h)

theorem defaultSet_ok : defaultSet.2.WF defaultSet.1 ∧
    ∀ x, defaultSet.2.Mem defaultSet.1 x ↔ x ∈ defaultHandles := by
  obtain ⟨h1, h2⟩ := runOps_spec (H := DHandle LeafHandle) (defaultHandles.map fun x => .add x.1 x.2)
    (hp := ⟨fun _ => [], 0⟩) (o := HandleSet.new) (A := fun _ => False)
    (HandleSet.new_wf _) (fun x => by simp [HandleSet.Mem, HandleSet.new])
  refine ⟨h1, fun x => ?_⟩
  rw [show defaultSet.2.Mem defaultSet.1 x ↔ _ from h2 x, specOps_add]
  simp

def cfg0 : FileDiffConfig P0 :=
  { struct := fun c => if c = .desSub then 
      { cfgAll with exclude := [(n!"desoflw"), (n!"desitem"), (n!"desshl"), (n!"desshf")] } else cfgAll
    tre := fun _ => cfgAll, des := fun _ => cfgAll, allclose := fun _ _ => true }

/-- A structure with one text field, for headers. -/
def hdr0 (c : StructCls) (nm : Name) (s : String) : Leaf P0 :=
  .struct c [] (.field { name := some nm, size := .const 20, ty := .str } .nil)
    (Store.empty.set 0 [] ⟨.val (.str s.toList), none⟩)

/-- A data extension segment. -/
def seg0 (id : String) (user : Option (Leaf P0)) (tres : List (Leaf P0)) (data : Leaf P0) :
    DSeg (Leaf P0) :=
  { type := 4, subheader := hdr0 .desSub (n!"desid") id, user := user, tres := tres,
    data := some data }

def file0 (tres : List (Leaf P0)) (des : List (DSeg (Leaf P0))) : DFile (Leaf P0) :=
  { header := hdr0 .fileHeader (n!"fhdr") "NITF", tres := tres, image := [], graphic := [],
    text := [], des := des, res := [] }

def compare0 (a b : DObj (Leaf P0)) : Except Err Bool :=
  compareAny (fun _ l => l) defaultSet.1 defaultSet.2 (defaultEnv P0 cfg0 []) a b

/-- C44_file, C44_segment, C44_not_masked, C44_default_partial: two files that are the same, one
with a differing TRE followed by an equal one, one with a TRE less. -/
example :
    compare0 (.file (file0 [.treUnknown ['A'] [1], .treUnknown ['B'] [2]]
        [seg0 "X" none [] (.text (.inl ['a']))]))
      (.file (file0 [.treUnknown ['A'] [1], .treUnknown ['B'] [2]]
        [seg0 "X" none [] (.text (.inr [97]))])) = .ok true ∧
    compare0 (.file (file0 [.treUnknown ['A'] [1], .treUnknown ['B'] [2]] []))
      (.file (file0 [.treUnknown ['A'] [3], .treUnknown ['B'] [2]] [])) = .ok false ∧
    compare0 (.file (file0 [.treUnknown ['A'] [1], .treUnknown ['B'] [2]] []))
      (.file (file0 [.treUnknown ['A'] [1]] [])) = .ok false := by
  decide +kernel

/-- C44_dispatch, C44_leaf: the handler for unknown TREs goes before the one for TREs, the specific
ones for DES before the general one, which is used for two different classes. -/
example : chosen .treUnknown .treUnknown = some .treUnknown ∧
    chosen .treUnknown .tre = some .tre ∧
    chosen (.struct .csattb) (.struct .csattb) = some (.struct .csattb) ∧
    chosen (.struct .csattb) (.struct .csephb) = some (.struct .otherDes) ∧
    chosen .image .imagePlaceHolder = none := by decide

/-- C44 violated: data that no class can read is reported the same, whatever it is. -/
theorem C44_placeholder :
    compare0 (.seg (seg0 "X" none [] (.dataPlaceHolder 1)))
      (.seg (seg0 "X" none [] (.dataPlaceHolder 2))) = .ok true := by
  decide +kernel

/-- C44 violated: a user subheader that only the second segment has goes unnoticed; the other way
round the comparison raises. -/
theorem C44_user_subheader :
    compare0 (.seg (seg0 "X" none [] (.text (.inl []))))
      (.seg (seg0 "X" (some (hdr0 .assocUser (n!"id") "u")) [] (.text (.inl [])))) = .ok true ∧
    compare0 (.seg (seg0 "X" (some (hdr0 .assocUser (n!"id") "u")) [] (.text (.inl []))))
      (.seg (seg0 "X" none [] (.text (.inl [])))) = .error .runtime := by
  decide +kernel

/-- Differences that are not reported but raise: unknown TREs with different bytes that are not
utf-8, DES of different classes, segments whose data is read by different classes. -/
theorem C44_raises :
    compare0 (.leaf (.treUnknown ['A'] [255])) (.leaf (.treUnknown ['A'] [254])) =
      .error .unicode ∧
    compare0 (.leaf (.struct .csattb "CSATTB".toList .nil Store.empty))
      (.leaf (.struct .csephb "CSEPHB".toList .nil Store.empty)) = .error .name ∧
    compare0 (.leaf (.image [1, 1, 1] [()])) (.leaf (.imagePlaceHolder 1)) = .error .runtime := by
  decide +kernel

/-- A DES subheader with a user defined subheader no class is registered for: it is only kept as
bytes in the field `desshf` (nitf_segment.py:187-199). -/
def desshf0 (b : Bytes) : DSeg (Leaf P0) :=
  { type := 4, user := none, tres := [], data := some (.text (.inl []))
    subheader := .struct .desSub [] (.field { name := some (n!"desid"), size := .const 20, ty := .str }
        (.field { name := some (n!"desshf"), size := .const 3, ty := .bytes, kind := .bytesData } .nil))
      ((Store.empty.set 0 [] ⟨.val (.str ['X']), none⟩).set 1 [] ⟨.val (.bytes b), none⟩) }

/-- C44 violated: files differing in such a subheader are reported the same, because the default
configuration excludes `desshf` (nitf_des_subheader.py:92-93). -/
theorem C44_desshf :
    compare0 (.seg (desshf0 [1, 2, 3])) (.seg (desshf0 [4, 5, 6])) = .ok true := by
  decide +kernel

end

end Verif
