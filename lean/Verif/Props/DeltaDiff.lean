import Verif.DeltaDiff
import Verif.Props.FileDiff

/-
C79: comparing with a delta.
-/

set_option linter.unusedSectionVars false

namespace Verif.DeltaDiff

/-! ### Specification -/

section
variable {O K H : Type}

/-- The comparison of two objects returns "same". -/
abbrev Same [DecidableEq H] (it : IterOrder (DHandle H)) (hp : Heap (DHandle H)) (o : HandleSet)
    (env : DiffEnv O H) (a b : DObj O) : Prop :=
  compareAny it hp o env a b = .ok true

/-- Some skip function asks to skip the object. -/
def Skipped (env : DiffEnv O H) (x : DObj O) : Prop := ∃ g ∈ env.skipFns, g x = true

/-- The data of the base segment `m`, with the header of the segment `s` of the new file. -/
def golden (ops : Ops O) (k : SegKind) (s m : KSeg O K) : Option O :=
  m.data.map fun d => ops.share d (ops.clearSub k (ops.copy s.subheader)) (s.user.map ops.copy)

/-- The data of `s` as it comes back from the delta. -/
def returned (ops : Ops O) (k : SegKind) (s : KSeg O K) (d : O) : O :=
  ops.share (ops.copy d) (ops.clearSub k (ops.copy s.subheader)) (s.user.map ops.copy)

/-- A DES whose data is in the delta. -/
def InDelta (ops : Ops O) (s : KSeg O K) : Prop := ∃ d, s.data = some d ∧ ops.fieldStruct d = true

/-- What the delta holds of the file compares the same as in the file. -/
structure Faithful (R : DObj O → DObj O → Prop) (ops : Ops O) (f : KFile O K) : Prop where
  header : R (.leaf f.header) (.leaf (ops.clearFile (ops.copy f.header)))
  tres : ∀ t ∈ f.tres, R (.leaf t) (.leaf (ops.copy t))
  segs : ∀ x ∈ [(SegKind.image, f.image), (SegKind.text, f.text), (SegKind.des, f.des)],
    ∀ s ∈ x.2,
      R (.leaf s.subheader) (.leaf (ops.clearSub x.1 (ops.copy s.subheader))) ∧
      (∀ u, s.user = some u → R (.leaf u) (.leaf (ops.copy u))) ∧
      ∀ t ∈ s.tres, R (.leaf t) (.leaf (ops.copy t))
  text : ∀ s ∈ f.text, ∃ d, s.data = some d ∧ R (.leaf d) (.leaf (returned ops .text s d))
  des : ∀ s ∈ f.des, ∀ d, s.data = some d → ops.fieldStruct d = true →
    R (.leaf d) (.leaf (returned ops .des s d))

/-- The skip functions do not look at what the delta changes. -/
def SkipsAlike (env : DiffEnv O H) (ops : Ops O) : Prop :=
  ∀ g ∈ env.skipFns, (∀ t, g (.leaf (ops.copy t)) = g (.leaf t)) ∧
    ∀ k (s : DSeg O) data, g (.seg ⟨s.type, ops.clearSub k (ops.copy s.subheader),
      s.user.map ops.copy, s.tres.map ops.copy, data⟩) = g (.seg s)

/-- No segment holds TRE overflow. -/
def NoOverflow (env : DiffEnv O H) (f : KFile O K) : Prop :=
  ∀ s, s ∈ f.image ∨ s ∈ f.text ∨ s ∈ f.des → env.overflow s.subheader = false

/-- The new file has TREs and segments of each kind the base file has. -/
structure Covers (f1 f2 : KFile O K) : Prop where
  tres : f1.tres = [] → f2.tres = []
  image : f1.image = [] → f2.image = []
  text : f1.text = [] → f2.text = []
  des : f1.des = [] → f2.des = []

/-- The segments whose data is not in the delta have different keys. -/
structure DistinctKeys (ops : Ops O) (f : KFile O K) : Prop where
  image : ∀ s ∈ f.image, ∀ t ∈ f.image, s.key = t.key → s = t
  des : ∀ s ∈ f.des, ∀ t ∈ f.des, ¬ InDelta ops s → ¬ InDelta ops t → s.key = t.key → s = t

/-- There is exactly one segment with this key. -/
def OneMatch (base : List (KSeg O K)) (key : Option K) : Prop :=
  ∃ k l m r, key = some k ∧ base = l ++ m :: r ∧ m.key = some k ∧
    (∀ x ∈ l, x.key ≠ some k) ∧ ∀ x ∈ r, x.key ≠ some k

end

/-! ### Proofs -/

section
variable {O K H : Type} [DecidableEq K]

/-- The segment of the base file found for `s`. -/
def found (base : List (KSeg O K)) (s : KSeg O K) : Option (KSeg O K) :=
  match s.data with
  | some _ => none
  | none => (candidates base s.key).head?

theorem notify_ok {base : List (KSeg O K)} {s : KSeg O K} {p} :
    notify base s = .ok p ↔
      (s.data = none → ∃ m, candidates base s.key = [m]) ∧ p = (s, found base s) := by
  unfold notify found
  cases hd : s.data with
  | some d => simp [eq_comm]
  | none =>
    simp only [forall_const]
    split
    · rename_i m hm
      simp [hm, eq_comm]
    · rename_i hm
      constructor
      · intro h; cases h
      · rintro ⟨⟨m, h⟩, _⟩; exact absurd h (hm m)

theorem notify_err {base : List (KSeg O K)} {s : KSeg O K} {e} (h : notify base s = .error e) :
    e = .runtime ∧ s.data = none ∧ ¬ ∃ m, candidates base s.key = [m] := by
  unfold notify at h
  cases hd : s.data with
  | some d => rw [hd] at h; cases h
  | none =>
    rw [hd] at h
    simp only at h
    split at h
    · cases h
    · rename_i hm
      injection h with h
      exact ⟨h.symm, rfl, fun ⟨m, hc⟩ => hm m hc⟩

theorem notifyAll_ok {base l : List (KSeg O K)} {ps} :
    notifyAll base l = .ok ps ↔
      (∀ s ∈ l, s.data = none → ∃ m, candidates base s.key = [m]) ∧
        ps = l.map fun s => (s, found base s) := by
  induction l generalizing ps with
  | nil => simp [notifyAll, eq_comm]
  | cons s r ih =>
    unfold notifyAll
    cases hn : notify base s with
    | error e =>
      simp only
      obtain ⟨_, h1, h2⟩ := notify_err hn
      constructor
      · intro h; cases h
      · rintro ⟨h, _⟩
        exact absurd (h s (by simp) h1) h2
    | ok p =>
      obtain ⟨h1, rfl⟩ := notify_ok.mp hn
      cases hr : notifyAll base r with
      | error e =>
        simp only
        constructor
        · intro h; cases h
        · rintro ⟨h, _⟩
          have := (ih (ps := r.map fun s => (s, found base s))).mpr
            ⟨fun s hs => h s (by simp [hs]), rfl⟩
          rw [hr] at this; cases this
      | ok qs =>
        obtain ⟨g1, rfl⟩ := ih.mp hr
        simp only [Except.ok.injEq, List.map_cons]
        constructor
        · rintro rfl
          exact ⟨fun x hx => by
            rcases List.mem_cons.mp hx with rfl | hx
            · exact h1
            · exact g1 x hx, rfl⟩
        · rintro ⟨_, rfl⟩; rfl

theorem notifyAll_err {base l : List (KSeg O K)} {e} (h : notifyAll base l = .error e) :
    e = .runtime ∧ ∃ s ∈ l, s.data = none ∧ ¬ ∃ m, candidates base s.key = [m] := by
  induction l with
  | nil => cases h
  | cons s r ih =>
    unfold notifyAll at h
    cases hn : notify base s with
    | error e' =>
      rw [hn] at h
      obtain ⟨h1, h2, h3⟩ := notify_err hn
      injection h with h
      subst h
      exact ⟨h1, s, by simp, h2, h3⟩
    | ok p =>
      rw [hn] at h
      simp only at h
      cases hr : notifyAll base r with
      | error e' =>
        rw [hr] at h
        injection h with h
        subst h
        obtain ⟨h1, x, h2, h3⟩ := ih hr
        exact ⟨h1, x, by simp [h2], h3⟩
      | ok qs => rw [hr] at h; cases h

theorem candidates_one {base : List (KSeg O K)} {key : Option K} :
    (∃ m, candidates base key = [m]) ↔ OneMatch base key := by
  unfold candidates OneMatch
  cases key with
  | none => simp
  | some k =>
    simp only [Option.some.injEq]
    constructor
    · rintro ⟨m, hm⟩
      refine ⟨k, ?_⟩
      have h := List.filter_eq_cons_iff.mp hm
      obtain ⟨l, r, rfl, h1, h2, h3⟩ := h
      refine ⟨l, m, r, rfl, rfl, by simpa using h2, fun x hx hk => ?_, fun x hx hk => ?_⟩
      · exact absurd (h1 x hx) (by simp [hk])
      · have := List.filter_eq_nil_iff.mp h3 x hx
        exact this (by simp [hk])
    · rintro ⟨_, l, m, r, rfl, rfl, h1, h2, h3⟩
      refine ⟨m, List.filter_eq_cons_iff.mpr ⟨l, r, rfl, ?_, by simp [h1], ?_⟩⟩
      · intro x hx
        simpa using h2 x hx
      · exact List.filter_eq_nil_iff.mpr fun x hx => by simpa using h3 x hx

theorem candidates_mem {base : List (KSeg O K)} {key : Option K} {m x}
    (h : candidates base key = [m]) : x ∈ base ∧ x.key = key ↔ x = m := by
  unfold candidates at h
  cases key with
  | none => cases h
  | some k =>
    simp only at h
    have : x ∈ base.filter (fun b => decide (b.key = some k)) ↔ x ∈ [m] := by rw [h]
    simpa using this

/-- `kept` on a mapped list. -/
theorem kept_map {α : Type} {env : DiffEnv O H} {l : List α} {a : α → DObj O} :
    env.kept (l.map a) = (l.filter fun x => !env.skipFns.any fun f => f (a x)).map a := by
  unfold DiffEnv.kept
  rw [List.filter_map]
  rfl

theorem kept_both {α : Type} {env : DiffEnv O H} {l : List α} {a b : α → DObj O}
    (hs : ∀ x ∈ l, ∀ g ∈ env.skipFns, g (b x) = g (a x)) :
    env.kept (l.map b) = (l.filter fun x => !env.skipFns.any fun f => f (a x)).map b := by
  rw [kept_map]
  congr 1
  refine List.filter_congr fun x hx => ?_
  congr 1
  rw [Bool.eq_iff_iff]
  simp only [List.any_eq_true]
  constructor
  · rintro ⟨g, h1, h2⟩; exact ⟨g, h1, by rw [← hs x hx g h1]; exact h2⟩
  · rintro ⟨g, h1, h2⟩; exact ⟨g, h1, by rw [hs x hx g h1]; exact h2⟩

theorem not_skipped {α : Type} {env : DiffEnv O H} {l : List α} {a : α → DObj O} {x : α} :
    x ∈ (l.filter fun x => !env.skipFns.any fun f => f (a x)) ↔ x ∈ l ∧ ¬ Skipped env (a x) := by
  simp [Skipped]

theorem listsSame_map {α : Type} {R : DObj O → DObj O → Prop} {l : List α} {a b : α → DObj O} :
    ListsSame R (l.map a) (l.map b) ↔ ∀ x ∈ l, R (a x) (b x) := by
  unfold ListsSame
  simp only [List.length_map, true_and, List.getElem?_map, Option.map_eq_some_iff]
  constructor
  · intro h x hx
    obtain ⟨i, hi⟩ := List.mem_iff_getElem?.mp hx
    exact h i _ _ ⟨x, hi, rfl⟩ ⟨x, hi, rfl⟩
  · rintro h i _ _ ⟨x, h1, rfl⟩ ⟨y, h2, rfl⟩
    rw [h1] at h2
    cases h2
    exact h x (List.mem_of_getElem? h1)

/-- Two lists made from one: what comparing them without the skipped means. -/
theorem listsSame_kept {α : Type} {env : DiffEnv O H} {R : DObj O → DObj O → Prop} {l : List α}
    {a b : α → DObj O} (hs : ∀ x ∈ l, ∀ g ∈ env.skipFns, g (b x) = g (a x)) :
    ListsSame R (env.kept (l.map a)) (env.kept (l.map b)) ↔
      ∀ x ∈ l, ¬ Skipped env (a x) → R (a x) (b x) := by
  rw [kept_map, kept_both hs, listsSame_map]
  constructor
  · intro h x hx hn; exact h x (not_skipped.mpr ⟨hx, hn⟩)
  · intro h x hx
    obtain ⟨h1, h2⟩ := not_skipped.mp hx
    exact h x h1 h2

theorem paired_kept {α : Type} {env : DiffEnv O H} {l : List α}
    {a b : α → DObj O} (hs : ∀ x ∈ l, ∀ g ∈ env.skipFns, g (b x) = g (a x)) {x : α} (hx : x ∈ l)
    (hn : ¬ Skipped env (a x)) :
    Paired (env.kept (l.map a)) (env.kept (l.map b)) (a x) (b x) := by
  rw [kept_map, kept_both hs]
  obtain ⟨i, hi⟩ := List.mem_iff_getElem?.mp (not_skipped.mpr ⟨hx, hn⟩)
  exact ⟨i, by rw [List.getElem?_map, hi]; rfl, by rw [List.getElem?_map, hi]; rfl⟩

theorem firstOf_some {α : Type} {a b : List α} (h : a = [] → b = []) : firstOf (some a) b = a := by
  cases a with
  | nil => simp [firstOf, h rfl]
  | cons x r => rfl

/-- The owner of the data of a segment that is not in the delta is the segment itself, if no other
has its key. -/
theorem owner_self {base : List (KSeg O K)} {l : List (KSeg O K)} {s : KSeg O K}
    (hu : s.data = none → ∀ t ∈ l, t.data = none → t.key = s.key → t = s) :
    owner (l.map fun s => (s, found base s)) (s, found base s) = s := by
  unfold owner
  cases hd : s.data with
  | some d => rfl
  | none =>
    simp only
    split
    · rfl
    · rename_i q hq
      have hm := List.mem_of_getLast? hq
      simp only [List.mem_filter, List.mem_map, Bool.and_eq_true, Option.isNone_iff_eq_none,
        decide_eq_true_eq] at hm
      obtain ⟨⟨t, ht, rfl⟩, h1, h2⟩ := hm
      exact hu hd t ht h1 h2

/-- The merged segments of one kind. -/
theorem merged_map {ops : Ops O} {base l : List (KSeg O K)} {ps}
    (h : notifyAll base l = .ok ps)
    (hu : ∀ s ∈ l, s.data = none → ∀ t ∈ l, t.data = none → t.key = s.key → t = s) :
    ps.map (mergedSeg ops ps) = l.map fun s : KSeg O K =>
      { s.toDSeg with
        data := (dataOf (s, found base s)).map fun d => ops.share d s.subheader s.user } := by
  obtain ⟨_, rfl⟩ := notifyAll_ok.mp h
  rw [List.map_map]
  refine List.map_congr_left fun s hs => ?_
  simp only [Function.comp, mergedSeg, owner_self (hu s hs)]

/-- The merged form of a segment of the new file. -/
def shown (ops : Ops O) (k : SegKind) (base : List (KSeg O K)) (incl : Bool) (s : KSeg O K) :
    DSeg O :=
  ⟨s.type, ops.clearSub k (ops.copy s.subheader), s.user.map ops.copy, s.tres.map ops.copy,
    (dataOf (deltaSeg ops k incl s, found base (deltaSeg ops k incl s))).map fun d =>
      ops.share d (ops.clearSub k (ops.copy s.subheader)) (s.user.map ops.copy)⟩

theorem shown_out {ops : Ops O} {k : SegKind} {base : List (KSeg O K)} {incl : Bool}
    {s m : KSeg O K}
    (hi : (deltaSeg ops k incl s).data = none) (hm : candidates base s.key = [m]) :
    (shown ops k base incl s).data = golden ops k s m := by
  have hk : (deltaSeg ops k incl s).key = s.key := rfl
  simp only [shown, golden, dataOf, hi, found, hk, hm, List.head?_cons, Option.bind_some]

theorem shown_in {ops : Ops O} {k : SegKind} {base : List (KSeg O K)}
    {s : KSeg O K} {d : O}
    (hd : s.data = some d) :
    (shown ops k base true s).data = some (returned ops k s d) := by
  have hk : (deltaSeg ops k true s).data = some (ops.copy d) := by simp [deltaSeg, hd]
  simp only [shown, dataOf, hk, returned, Option.map_some]

end

section
variable {O K H : Type} [DecidableEq K] [DecidableEq H]
variable {it : IterOrder (DHandle H)} {hp : Heap (DHandle H)} {o : HandleSet} {env : DiffEnv O H}
  {ops : Ops O}

/-- Comparing a segment with its merged form. -/
theorem seg_iff (hit : ∀ k l, (it k l).Perm l) (w : o.WF hp) (hstd : Standard (o.Mem hp) env)
    (hskip : SkipsAlike env ops) {k : SegKind} {base : List (KSeg O K)} {incl : Bool} {s : KSeg O K}
    (ho : env.overflow s.subheader = false)
    (h1 : compareAny it hp o env (.leaf s.subheader)
      (.leaf (ops.clearSub k (ops.copy s.subheader))) = .ok true)
    (h2 : ∀ u, s.user = some u → compareAny it hp o env (.leaf u) (.leaf (ops.copy u)) = .ok true)
    (h3 : ∀ t ∈ s.tres, compareAny it hp o env (.leaf t) (.leaf (ops.copy t)) = .ok true)
    {e : Bool}
    (h : compareAny it hp o env (.seg s.toDSeg) (.seg (shown ops k base incl s)) = .ok e) :
    e = true ↔ compareAny it hp o env (.ofOption s.data)
      (.ofOption (shown ops k base incl s).data) = .ok true := by
  rw [(C44_segment hit w hstd h).2]
  unfold SegSame
  simp only [shown] at *
  constructor
  · rintro (⟨h4, _⟩ | ⟨_, _, _, h4⟩)
    · rw [ho] at h4; cases h4
    · exact h4
  · intro h4
    refine .inr ⟨h1, ?_, ?_, h4⟩
    · intro u hu
      rw [hu]
      exact h2 u hu
    · rw [List.map_map, listsSame_kept]
      · exact fun t ht _ => h3 t ht
      · exact fun t _ g hg => (hskip g hg).1 t

/-- C79, for all files, handlers and configurations.  A delta of the new file `f1` was made, and `f1`
was compared with the base file `f2` and the delta.  If the comparison returns, it says "same" if and
only if the graphic and RES segments of the two files compare the same, and the data of each image,
and of each DES not made of fields, compares the same as the data of the segment of `f2` with its
key.  Nothing else of `f2` matters.

Missing for the full claim: the files must be without TRE overflow (`C79_overflow`) and the new file
must have TREs, images, texts and DES if the base file has (`C79_removed`); the keys must be
different. -/
theorem C79_same_partial (hit : ∀ k l, (it k l).Perm l) (w : o.WF hp)
    (hstd : Standard (o.Mem hp) env) (hskip : SkipsAlike env ops) {f1 f2 : KFile O K}
    (hf : Faithful (Same it hp o env) ops f1) (hno : NoOverflow env f1) (hcov : Covers f1 f2)
    (hk : DistinctKeys ops f1) {r : Bool}
    (h : compareDelta it hp o env ops f1 f2 = .ok r) :
    r = true ↔
      ListsSame (Same it hp o env) (env.kept (f1.graphic.map fun s => .seg s.toDSeg))
        (env.kept (f2.graphic.map fun s => .seg s.toDSeg)) ∧
      ListsSame (Same it hp o env) (env.kept (f1.res.map fun s => .seg s.toDSeg))
        (env.kept (f2.res.map fun s => .seg s.toDSeg)) ∧
      (∀ s ∈ f1.image, ¬ Skipped env (.seg s.toDSeg) → ∀ m ∈ f2.image, m.key = s.key →
        Same it hp o env (.ofOption s.data) (.ofOption (golden ops .image s m))) ∧
      (∀ s ∈ f1.des, ¬ InDelta ops s → ¬ Skipped env (.seg s.toDSeg) → ∀ m ∈ f2.des,
        m.key = s.key → Same it hp o env (.ofOption s.data) (.ofOption (golden ops .des s m))) := by
  have hdes : (f1.des.filter fun s => !env.overflow s.subheader) = f1.des := by
    rw [List.filter_eq_self]
    intro s hs
    simp [hno s (.inr (.inr hs))]
  unfold compareDelta mergeFiles deltaFile at h
  simp only [hdes] at h
  cases him : notifyAll f2.image (f1.image.map (deltaSeg ops .image false)) with
  | error e => rw [him] at h; cases h
  | ok im =>
  cases htx : notifyAll f2.text (f1.text.map (deltaSeg ops .text true)) with
  | error e => rw [him, htx] at h; cases h
  | ok tx =>
  cases hde : notifyAll f2.des (f1.des.map fun s => deltaSeg ops .des (desIncl ops s) s) with
  | error e => rw [him, htx, hde] at h; cases h
  | ok de =>
  rw [him, htx, hde] at h
  simp only at h
  split at h
  · cases h
  rename_i m hm
  split at hm
  · cases hm
  injection hm with hm
  -- which DES are in the delta
  have hin : ∀ s : KSeg O K, (deltaSeg ops .des (desIncl ops s) s).data = none ↔
      ¬ InDelta ops s := by
    intro s
    cases hd : s.data with
    | none => simp [deltaSeg, desIncl, hd, InDelta]
    | some d => simp [deltaSeg, desIncl, hd, InDelta]
  -- the merged lists
  have e1 := merged_map (ops := ops) him (by
    intro s hs _ t ht _ hkey
    obtain ⟨s', hs', rfl⟩ := List.mem_map.mp hs
    obtain ⟨t', ht', rfl⟩ := List.mem_map.mp ht
    rw [hk.image t' ht' s' hs' hkey])
  have e2 := merged_map (ops := ops) htx (by
    intro s hs hd
    obtain ⟨s', hs', rfl⟩ := List.mem_map.mp hs
    obtain ⟨d, h1, _⟩ := hf.text s' hs'
    simp [deltaSeg, h1] at hd)
  have e3 := merged_map (ops := ops) hde (by
    intro s hs hsd t ht htd hkey
    obtain ⟨s', hs', rfl⟩ := List.mem_map.mp hs
    obtain ⟨t', ht', rfl⟩ := List.mem_map.mp ht
    rw [hk.des t' ht' s' hs' ((hin t').mp htd) ((hin s').mp hsd) hkey])
  rw [List.map_map] at e1 e2 e3
  have nilmap : ∀ {α β : Type} {g : α → β} {l : List α}, l.map g = [] → l = [] := by
    intro α β g l h; simpa using h
  have m1 : m.image = f1.image.map (shown ops .image f2.image false) := by
    rw [← hm]
    simp only
    rw [e1, firstOf_some]
    · rfl
    · intro h; rw [hcov.image (nilmap h)]; rfl
  have m2 : m.text = f1.text.map (shown ops .text f2.text true) := by
    rw [← hm]
    simp only
    rw [e2, firstOf_some]
    · rfl
    · intro h; rw [hcov.text (nilmap h)]; rfl
  have m3 : m.des = f1.des.map fun s => shown ops .des f2.des (desIncl ops s) s := by
    rw [← hm]
    simp only
    rw [e3, firstOf_some]
    · rfl
    · intro h; rw [hcov.des (nilmap h)]; rfl
  have m4 : m.tres = f1.tres.map ops.copy := by
    rw [← hm]
    simp only
    rw [firstOf_some]
    intro h; exact hcov.tres (nilmap h)
  have m5 : m.graphic = f2.graphic.map KSeg.toDSeg := by rw [← hm]; rfl
  have m6 : m.res = f2.res.map KSeg.toDSeg := by rw [← hm]; rfl
  have m7 : m.header = ops.clearFile (ops.copy f1.header) := by rw [← hm]
  clear e1 e2 e3 hm
  obtain ⟨hr, hpairs⟩ := C44_file hit w hstd h
  rw [hr]
  -- one kind
  have hkind : ∀ (k : SegKind) (l : List (KSeg O K)) (base : List (KSeg O K))
      (incl : KSeg O K → Bool), (k, l) ∈ [(SegKind.image, f1.image), (SegKind.text, f1.text),
        (SegKind.des, f1.des)] →
      (∀ s ∈ l, env.overflow s.subheader = false) →
      (∀ a b, Paired (env.kept (l.map fun s => .seg s.toDSeg))
        (env.kept (l.map fun s => .seg (shown ops k base (incl s) s))) a b →
        FilePaired env f1.seen m a b) →
      (ListsSame (Same it hp o env) (env.kept (l.map fun s => .seg s.toDSeg))
        (env.kept (l.map fun s => .seg (shown ops k base (incl s) s))) ↔
      ∀ s ∈ l, ¬ Skipped env (.seg s.toDSeg) →
        Same it hp o env (.ofOption s.data) (.ofOption (shown ops k base (incl s) s).data)) := by
    intro k l base incl hmem hov hpr
    have hsk : ∀ s ∈ l, ∀ g ∈ env.skipFns, g (.seg (shown ops k base (incl s) s)) =
        g (.seg s.toDSeg) := fun s _ g hg => (hskip g hg).2 k s.toDSeg _
    rw [listsSame_kept hsk]
    refine forall_congr' fun s => forall_congr' fun hs => forall_congr' fun hns => ?_
    obtain ⟨e, he⟩ := hpairs _ _ (hpr _ _ (paired_kept hsk hs hns))
    obtain ⟨a1, a2, a3⟩ := hf.segs _ hmem s hs
    have q := seg_iff (k := k) hit w hstd hskip (hov s hs) a1 a2 a3 he
    show compareAny it hp o env _ _ = .ok true ↔ _
    rw [he, Except.ok.injEq]
    exact q
  have k1 := hkind .image f1.image f2.image (fun _ => false) (by simp)
    (fun s hs => hno s (.inl hs)) (by
      intro a b hp'
      refine .inr (.inr (.inl ?_))
      simpa only [KFile.seen, m1, List.map_map, Function.comp_def] using hp')
  have k2 := hkind .text f1.text f2.text (fun _ => true) (by simp)
    (fun s hs => hno s (.inr (.inl hs))) (by
      intro a b hp'
      refine .inr (.inr (.inr (.inr (.inl ?_))))
      simpa only [KFile.seen, m2, List.map_map, Function.comp_def] using hp')
  have k3 := hkind .des f1.des f2.des (desIncl ops) (by simp)
    (fun s hs => hno s (.inr (.inr hs))) (by
      intro a b hp'
      refine .inr (.inr (.inr (.inr (.inr (.inl ?_)))))
      simpa only [KFile.seen, m3, List.map_map, Function.comp_def] using hp')
  -- what is found in the base file
  have c1 := (notifyAll_ok.mp him).1
  have c3 := (notifyAll_ok.mp hde).1
  have d1 : ∀ s ∈ f1.image, ∃ m, candidates f2.image s.key = [m] := by
    intro s hs
    obtain ⟨m, hm⟩ := c1 _ (List.mem_map_of_mem hs) rfl
    exact ⟨m, hm⟩
  have d3 : ∀ s ∈ f1.des, ¬ InDelta ops s → ∃ m, candidates f2.des s.key = [m] := by
    intro s hs hns
    obtain ⟨m, hm⟩ := c3 _ (List.mem_map_of_mem hs) ((hin s).mpr hns)
    exact ⟨m, hm⟩
  constructor
  · intro hs
    refine ⟨?_, ?_, ?_, ?_⟩
    · simpa only [KFile.seen, m5, List.map_map, Function.comp_def] using hs.graphic
    · simpa only [KFile.seen, m6, List.map_map, Function.comp_def] using hs.res
    · have := k1.mp (by simpa only [KFile.seen, m1, List.map_map, Function.comp_def] using hs.image)
      intro s hs hns x hx hxk
      obtain ⟨y, hy⟩ := d1 s hs
      have hxy := (candidates_mem hy).mp ⟨hx, hxk⟩
      subst hxy
      have h5 := this s hs hns
      rw [shown_out (incl := false) rfl hy] at h5
      exact h5
    · have := k3.mp (by simpa only [KFile.seen, m3, List.map_map, Function.comp_def] using hs.des)
      intro s hs hsd hns x hx hxk
      obtain ⟨y, hy⟩ := d3 s hs hsd
      have hxy := (candidates_mem hy).mp ⟨hx, hxk⟩
      subst hxy
      have h5 := this s hs hns
      rw [shown_out ((hin s).mpr hsd) hy] at h5
      exact h5
  · rintro ⟨g1, g2, g3, g4⟩
    refine ⟨?_, ?_, ?_, ?_, ?_, ?_, ?_⟩
    · rw [m7]; exact hf.header
    · rw [m4, KFile.seen, List.map_map, listsSame_kept]
      · exact fun t ht _ => hf.tres t ht
      · exact fun t _ g hg => (hskip g hg).1 t
    · have := k1.mpr (by
        intro s hs hns
        obtain ⟨y, hy⟩ := d1 s hs
        obtain ⟨hx, hxk⟩ := (candidates_mem hy).mpr rfl
        rw [shown_out (incl := false) rfl hy]
        exact g3 s hs hns y hx hxk)
      simpa only [KFile.seen, m1, List.map_map, Function.comp_def] using this
    · simpa only [KFile.seen, m5, List.map_map, Function.comp_def] using g1
    · have := k2.mpr (by
        intro s hs hns
        obtain ⟨d, hd, hr⟩ := hf.text s hs
        rw [shown_in hd, hd]
        exact hr)
      simpa only [KFile.seen, m2, List.map_map, Function.comp_def] using this
    · have := k3.mpr (by
        intro s hs hns
        by_cases hi : InDelta ops s
        · obtain ⟨d, hd, hfd⟩ := hi
          have : desIncl ops s = true := by simp [desIncl, hd, hfd]
          rw [this, shown_in hd, hd]
          exact hf.des s hs d hd hfd
        · obtain ⟨y, hy⟩ := d3 s hs hi
          obtain ⟨hx, hxk⟩ := (candidates_mem hy).mpr rfl
          rw [shown_out ((hin s).mpr hi) hy]
          exact g4 s hs hi hns y hx hxk)
      simpa only [KFile.seen, m3, List.map_map, Function.comp_def] using this
    · simpa only [KFile.seen, m6, List.map_map, Function.comp_def] using g2

/-- What success of the merge means. -/
theorem merge_ok {d : Delta O K} {f : KFile O K} {m : DFile O} (h : mergeFiles ops d f = .ok m) :
    ∃ im tx de, notifyAll f.image d.image = .ok im ∧ notifyAll f.text d.text = .ok tx ∧
      notifyAll f.des d.des = .ok de ∧
      m = { header := d.header
            tres := firstOf (some d.tres) f.tres
            image := firstOf (some (im.map (mergedSeg ops im))) (f.image.map KSeg.toDSeg)
            graphic := f.graphic.map KSeg.toDSeg
            text := firstOf (some (tx.map (mergedSeg ops tx))) (f.text.map KSeg.toDSeg)
            des := firstOf (some (de.map (mergedSeg ops de))) (f.des.map KSeg.toDSeg)
            res := f.res.map KSeg.toDSeg } := by
  unfold mergeFiles at h
  cases h1 : notifyAll f.image d.image with
  | error e => rw [h1] at h; cases h
  | ok im =>
  cases h2 : notifyAll f.text d.text with
  | error e => rw [h1, h2] at h; cases h
  | ok tx =>
  cases h3 : notifyAll f.des d.des with
  | error e => rw [h1, h2, h3] at h; cases h
  | ok de =>
  rw [h1, h2, h3] at h
  simp only at h
  split at h
  · cases h
  · injection h with h
    exact ⟨im, tx, de, rfl, rfl, rfl, h.symm⟩

/-- C79, data that is not found.  If an image, or a DES that is neither made of fields nor TRE
overflow, does not have its key in common with exactly one segment of its kind in the base file,
then the comparison raises RuntimeError, whatever else the files hold. -/
theorem C79_error {f1 f2 : KFile O K}
    (h : (∃ s ∈ f1.image, ¬ OneMatch f2.image s.key) ∨
      ∃ s ∈ f1.des, env.overflow s.subheader = false ∧ ¬ InDelta ops s ∧
        ¬ OneMatch f2.des s.key) :
    compareDelta it hp o env ops f1 f2 = .error .runtime := by
  unfold compareDelta
  cases hm : mergeFiles ops (deltaFile env ops f1) f2 with
  | ok m =>
    exfalso
    obtain ⟨im, tx, de, h1, _, h3, _⟩ := merge_ok hm
    rcases h with ⟨s, hs, hn⟩ | ⟨s, hs, ho, hi, hn⟩
    · exact hn (candidates_one.mp ((notifyAll_ok.mp h1).1 (deltaSeg ops .image false s)
        (List.mem_map_of_mem hs) rfl))
    · refine hn (candidates_one.mp ((notifyAll_ok.mp h3).1 (deltaSeg ops .des (desIncl ops s) s)
        (List.mem_map.mpr ⟨s, List.mem_filter.mpr ⟨hs, by simp [ho]⟩, rfl⟩) ?_))
      cases hd : s.data with
      | none => simp [deltaSeg, desIncl, hd]
      | some d =>
        have : ¬ ops.fieldStruct d = true := fun hf => hi ⟨d, hd, hf⟩
        simp [deltaSeg, desIncl, hd, this]
  | error e =>
    simp only
    unfold mergeFiles at hm
    cases h1 : notifyAll f2.image (deltaFile env ops f1).image with
    | error e' =>
      rw [h1] at hm
      injection hm with hm
      rw [← hm, (notifyAll_err h1).1]
    | ok im =>
    cases h2 : notifyAll f2.text (deltaFile env ops f1).text with
    | error e' =>
      rw [h1, h2] at hm
      injection hm with hm
      rw [← hm, (notifyAll_err h2).1]
    | ok tx =>
    cases h3 : notifyAll f2.des (deltaFile env ops f1).des with
    | error e' =>
      rw [h1, h2, h3] at hm
      injection hm with hm
      rw [← hm, (notifyAll_err h3).1]
    | ok de =>
    exfalso
    rcases h with ⟨s, hs, hn⟩ | ⟨s, hs, ho, hi, hn⟩
    · exact hn (candidates_one.mp ((notifyAll_ok.mp h1).1 (deltaSeg ops .image false s)
        (List.mem_map_of_mem hs) rfl))
    · refine hn (candidates_one.mp ((notifyAll_ok.mp h3).1 (deltaSeg ops .des (desIncl ops s) s)
        (List.mem_map.mpr ⟨s, List.mem_filter.mpr ⟨hs, by simp [ho]⟩, rfl⟩) ?_))
      cases hd : s.data with
      | none => simp [deltaSeg, desIncl, hd]
      | some d =>
        have : ¬ ops.fieldStruct d = true := fun hf => hi ⟨d, hd, hf⟩
        simp [deltaSeg, desIncl, hd, this]

theorem kept_nil (hs : env.skipFns = []) (l : List (DObj O)) : env.kept l = l := by
  simp [DiffEnv.kept, hs]

/-- C79 violated, for every new file that has DES with and without TRE overflow: with the delta made
from the file itself, the comparison never says "same".  The delta leaves out the segments of the
overflow, so that there are fewer DES than in the file. -/
theorem C79_overflow (hit : ∀ k l, (it k l).Perm l) (w : o.WF hp)
    (hstd : Standard (o.Mem hp) env) (hs : env.skipFns = []) {f1 f2 : KFile O K}
    (h1 : ∃ s ∈ f1.des, env.overflow s.subheader = true)
    (h2 : ∃ s ∈ f1.des, env.overflow s.subheader = false) :
    compareDelta it hp o env ops f1 f2 ≠ .ok true := by
  intro h
  unfold compareDelta at h
  cases hm : mergeFiles ops (deltaFile env ops f1) f2 with
  | error e => rw [hm] at h; cases h
  | ok m =>
    rw [hm] at h
    have hd := ((C44_file hit w hstd h).1.mp rfl).des
    rw [kept_nil hs, kept_nil hs] at hd
    have hl := hd.1
    rw [List.length_map, List.length_map] at hl
    obtain ⟨im, tx, de, _, _, h3, rfl⟩ := merge_ok hm
    obtain ⟨_, rfl⟩ := notifyAll_ok.mp h3
    obtain ⟨s, hs1, hs2⟩ := h2
    obtain ⟨t, ht1, ht2⟩ := h1
    simp only at hl
    rw [firstOf_some] at hl
    · simp only [KFile.seen, deltaFile, List.length_map] at hl
      have := List.length_filter_lt_length_iff_exists.mpr
        (show ∃ x ∈ f1.des, ¬ (!env.overflow x.subheader) = true from ⟨t, ht1, by simp [ht2]⟩)
      omega
    · intro hn
      have hmem : s ∈ f1.des.filter fun s => !env.overflow s.subheader :=
        List.mem_filter.mpr ⟨hs1, by simp [hs2]⟩
      simp only [deltaFile, List.map_eq_nil_iff] at hn
      rw [hn] at hmem
      cases hmem

/-- C79 violated, for all files: TREs, images, texts or DES that the base file has and the new file
no longer has any of can not be removed by a delta; the comparison never says "same". -/
theorem C79_removed (hit : ∀ k l, (it k l).Perm l) (w : o.WF hp)
    (hstd : Standard (o.Mem hp) env) (hs : env.skipFns = []) {f1 f2 : KFile O K}
    (h1 : (f1.tres = [] ∧ f2.tres ≠ []) ∨ (f1.image = [] ∧ f2.image ≠ []) ∨
      (f1.text = [] ∧ f2.text ≠ []) ∨ (f1.des = [] ∧ f2.des ≠ [])) :
    compareDelta it hp o env ops f1 f2 ≠ .ok true := by
  intro h
  unfold compareDelta at h
  cases hm : mergeFiles ops (deltaFile env ops f1) f2 with
  | error e => rw [hm] at h; cases h
  | ok m =>
    rw [hm] at h
    obtain ⟨_, q1, q2, _, q4, q5, _⟩ := (C44_file hit w hstd h).1.mp rfl
    rw [kept_nil hs, kept_nil hs] at q1 q2 q4 q5
    obtain ⟨im, tx, de, g1, g2, g3, rfl⟩ := merge_ok hm
    rcases h1 with ⟨a, b⟩ | ⟨a, b⟩ | ⟨a, b⟩ | ⟨a, b⟩
    · have := q1.1
      simp [KFile.seen, deltaFile, a, firstOf] at this
      exact b (List.length_eq_zero_iff.mp this.symm)
    · have : im = [] := by
        simp [deltaFile, a, notifyAll] at g1; exact g1
      have := q2.1
      simp [KFile.seen, firstOf, *] at this
      exact b (List.length_eq_zero_iff.mp this.symm)
    · have : tx = [] := by
        simp [deltaFile, a, notifyAll] at g2; exact g2
      have := q4.1
      simp [KFile.seen, firstOf, *] at this
      exact b (List.length_eq_zero_iff.mp this.symm)
    · have : de = [] := by
        simp [deltaFile, a, notifyAll] at g3; exact g3
      have := q5.1
      simp [KFile.seen, firstOf, *] at this
      exact b (List.length_eq_zero_iff.mp this.symm)

end

/-! ### Cases meeting the hypotheses -/

section

/-- Objects that copies leave as they are. -/
def ops0 : Ops (Leaf P0) :=
  { copy := id, clearFile := id, clearSub := fun _ => id
    fieldStruct := fun
      | .struct c _ _ _ => c.isDes
      | _ => false
    share := fun d _ _ => d }

def kseg0 (id : String) (data : Leaf P0) : KSeg (Leaf P0) (List Char) :=
  { seg0 id none [.treUnknown ['T'] [7]] data with key := some id.toList }

def kfile0 (tres : List (Leaf P0)) (des : List (KSeg (Leaf P0) (List Char))) :
    KFile (Leaf P0) (List Char) :=
  { header := hdr0 .fileHeader (n!"fhdr") "NITF", tres := tres, image := [], graphic := [],
    text := [], des := des, res := [] }

def cmp0 (f1 f2 : KFile (Leaf P0) (List Char)) : Except Err Bool :=
  compareDelta (fun _ l => l) defaultSet.1 defaultSet.2 (defaultEnv P0 cfg0 []) ops0 f1 f2

/-- A DES made of fields. -/
def fields0 (s : String) : Leaf P0 :=
  .struct .otherDes ['D'] (.field { name := some (n!"f"), size := .const 20, ty := .str } .nil)
    (Store.empty.set 0 [] ⟨.val (.str s.toList), none⟩)

/-- The new file: two TREs, a DES made of fields and another. -/
def new0 : KFile (Leaf P0) (List Char) :=
  kfile0 [.treUnknown ['A'] [1], .treUnknown ['B'] [2]]
    [kseg0 "F" (fields0 "x"), kseg0 "X" (.extDef [1, 2])]

/-- The new file of `C79_same_partial`: its hypotheses hold. -/
example : Faithful (Same (fun _ l => l) defaultSet.1 defaultSet.2 (defaultEnv P0 cfg0 [])) ops0 new0 ∧
    NoOverflow (defaultEnv P0 cfg0 []) new0 ∧ SkipsAlike (defaultEnv P0 cfg0 []) ops0 ∧
    Covers new0 (kfile0 [.treUnknown ['Z'] [9]] [kseg0 "X" (.extDef [1, 2]), kseg0 "Y" (.extDef [])]) ∧
    DistinctKeys ops0 new0 := by
  refine ⟨⟨?_, ?_, ?_, ?_, ?_⟩, ?_, ?_, ⟨?_, ?_, ?_, ?_⟩, ⟨?_, ?_⟩⟩
  · decide +kernel
  · intro t ht
    simp only [new0, kfile0, List.mem_cons, List.not_mem_nil, or_false] at ht
    rcases ht with rfl | rfl <;> decide +kernel
  · intro x hx s hs
    simp only [new0, kfile0, List.mem_cons, List.not_mem_nil, or_false] at hx
    rcases hx with rfl | rfl | rfl
    · cases hs
    · cases hs
    · simp only [List.mem_cons, List.not_mem_nil, or_false] at hs
      rcases hs with rfl | rfl
      · refine ⟨by decide +kernel, fun u hu => (by cases hu), fun t ht => ?_⟩
        simp only [kseg0, seg0, List.mem_cons, List.not_mem_nil, or_false] at ht
        subst ht; decide +kernel
      · refine ⟨by decide +kernel, fun u hu => (by cases hu), fun t ht => ?_⟩
        simp only [kseg0, seg0, List.mem_cons, List.not_mem_nil, or_false] at ht
        subst ht; decide +kernel
  · intro s hs; cases hs
  · intro s hs d hd hf
    simp only [new0, kfile0, List.mem_cons, List.not_mem_nil, or_false] at hs
    rcases hs with rfl | rfl
    · injection hd with hd; subst hd; decide +kernel
    · injection hd with hd; subst hd; cases hf
  · intro s hs
    rcases hs with hs | hs | hs
    · cases hs
    · cases hs
    · simp only [new0, kfile0, List.mem_cons, List.not_mem_nil, or_false] at hs
      rcases hs with rfl | rfl <;> decide +kernel
  · intro g hg; cases hg
  · intro h; cases h
  · intro _; rfl
  · intro _; rfl
  · intro h; cases h
  · intro s hs; cases hs
  · intro s hs t ht h1 h2 hk
    simp only [new0, kfile0, List.mem_cons, List.not_mem_nil, or_false] at hs ht
    rcases hs with rfl | rfl
    · exact absurd ⟨_, rfl, rfl⟩ h1
    · rcases ht with rfl | rfl
      · exact absurd ⟨_, rfl, rfl⟩ h2
      · rfl

/-- C79_same_partial: the base file has another TRE, no DES made of fields and one DES more; the
comparison says "same" as long as the data of the DES agrees. -/
example :
    cmp0 new0 (kfile0 [.treUnknown ['Z'] [9]]
      [kseg0 "X" (.extDef [1, 2]), kseg0 "Y" (.extDef [])]) = .ok true ∧
    cmp0 new0 (kfile0 [.treUnknown ['Z'] [9]]
      [kseg0 "X" (.extDef [1, 3]), kseg0 "Y" (.extDef [])]) = .ok false := by
  decide +kernel

/-- C79_error: no such DES, and two of them. -/
example :
    cmp0 new0 (kfile0 [] [kseg0 "Y" (.extDef [1, 2])]) = .error .runtime ∧
    cmp0 new0 (kfile0 [] [kseg0 "X" (.extDef [1, 2]), kseg0 "X" (.extDef [1, 2])]) =
      .error .runtime := by
  decide +kernel

/-- C79_overflow, C79_removed: a file compared with itself and its delta; with an overflow only, the
overflow of the base file is taken; a TRE that was removed. -/
example :
    cmp0 (kfile0 [] [kseg0 "X" (.extDef [1, 2]), kseg0 "TRE_OVERFLOW" (.extDef [])])
      (kfile0 [] [kseg0 "X" (.extDef [1, 2]), kseg0 "TRE_OVERFLOW" (.extDef [])]) = .ok false ∧
    cmp0 (kfile0 [] [kseg0 "TRE_OVERFLOW" (.extDef [])])
      (kfile0 [] [kseg0 "TRE_OVERFLOW" (.extDef [])]) = .ok true ∧
    cmp0 (kfile0 [] []) (kfile0 [.treUnknown ['A'] [1]] []) = .ok false := by
  decide +kernel

end

end Verif.DeltaDiff
