import Verif.HandleLemmas

/-
Properties of handler sets (C30, C31) and hooks (C51).

`it` is the order in which python iterates over the sets; it is only known to permute.  `Mem hp o`
is the set of (handler, priority) pairs a handler set stands for; C31 shows that this is what
membership, iteration, length and equality give.
-/

set_option linter.unusedSectionVars false

namespace Verif

variable {H R σ : Type} [DecidableEq H]

/-! ### C31 -/

/-- Operations on a handler set; `in` is one because it adds to the dictionary. -/
inductive HOp (H : Type) where
  | add (h : H) (p : Int)
  | discard (h : H)
  | clear
  | contains (h : H) (p : Int)

/-- An operation, on the model. -/
def HOp.run : HOp H → Heap H × HandleSet → Heap H × HandleSet
  | .add h p, s => s.2.add s.1 h p
  | .discard h, s => (s.2.discard s.1 h, s.2)
  | .clear, s => (s.1, s.2.clear)
  | .contains h p, s => ((s.2.contains s.1 (h, p)).1, (s.2.contains s.1 (h, p)).2.1)

/-- An operation, on the abstract set of pairs. -/
def HOp.spec : HOp H → (H × Int → Prop) → (H × Int → Prop)
  | .add h p, s => fun x => x = (h, p) ∨ s x
  | .discard h, s => fun x => s x ∧ x.1 ≠ h
  | .clear, _ => fun _ => False
  | .contains _ _, s => s

theorem HOp.run_spec (op : HOp H) {hp : Heap H} {o : HandleSet} (w : o.WF hp) :
    (op.run (hp, o)).2.WF (op.run (hp, o)).1 ∧
    HandleSet.Frame hp o (op.run (hp, o)).1 (op.run (hp, o)).2 ∧
    ∀ x, (op.run (hp, o)).2.Mem (op.run (hp, o)).1 x ↔ op.spec (o.Mem hp) x := by
  cases op with
  | add h p =>
    obtain ⟨hp', o', e, w', f', h'⟩ := HandleSet.add_spec w h p
    simp only [HOp.run, e]
    exact ⟨w', f', h'⟩
  | discard h => exact HandleSet.discard_spec w h
  | clear =>
    refine ⟨HandleSet.new_wf _, ⟨Nat.le_refl _, fun _ _ _ => rfl, ?_⟩, ?_⟩
    · intro e he; cases he
    · intro x
      constructor
      · rintro ⟨a, ha, _⟩; cases ha
      · intro h; cases h
  | contains h p =>
    obtain ⟨hp', o', b, e, w', f', h', _⟩ := HandleSet.contains_spec w (h, p)
    simp only [HOp.run, e]
    exact ⟨w', f', h'⟩

/-- A sequence of operations. -/
def runOps (ops : List (HOp H)) (s : Heap H × HandleSet) : Heap H × HandleSet :=
  ops.foldl (fun s op => op.run s) s

def specOps (ops : List (HOp H)) (s : H × Int → Prop) : H × Int → Prop :=
  ops.foldl (fun s op => op.spec s) s

theorem HOp.spec_congr (op : HOp H) {s t : H × Int → Prop} (h : ∀ x, s x ↔ t x) (x : H × Int) :
    op.spec s x ↔ op.spec t x := by
  have : s = t := funext fun x => propext (h x)
  rw [this]

theorem runOps_spec (ops : List (HOp H)) : ∀ {hp : Heap H} {o : HandleSet} {A : H × Int → Prop},
    o.WF hp → (∀ x, o.Mem hp x ↔ A x) →
    (runOps ops (hp, o)).2.WF (runOps ops (hp, o)).1 ∧
    ∀ x, (runOps ops (hp, o)).2.Mem (runOps ops (hp, o)).1 x ↔ specOps ops A x := by
  induction ops with
  | nil => intro hp o A w h; exact ⟨w, h⟩
  | cons op ops ih =>
    intro hp o A w h
    obtain ⟨w1, _, h1⟩ := op.run_spec w
    exact ih w1 fun x => (h1 x).trans (op.spec_congr h x)

/-- C31, one handler set: after any sequence of operations on a new handler set, `in` answers
membership in the abstract set; iteration gives its elements, each once, by decreasing priority;
the length is the number of elements. -/
theorem C31_refines (ops : List (HOp H)) (hp0 : Heap H) (it : IterOrder H)
    (hit : ∀ k l, (it k l).Perm l) :
    let s := runOps ops (hp0, HandleSet.new)
    let A := specOps ops (fun _ => False)
    (∀ x, (s.2.contains s.1 x).2.2 = true ↔ A x) ∧
    (∀ x, x ∈ s.2.iter it s.1 ↔ A x) ∧ (s.2.iter it s.1).Nodup ∧
    (s.2.iter it s.1).Pairwise (fun x y => y.2 ≤ x.2) ∧
    s.2.len s.1 = (s.2.iter it s.1).length := by
  intro s A
  obtain ⟨w, h⟩ := runOps_spec ops (HandleSet.new_wf hp0) (A := fun _ => False) (by
    intro x
    constructor
    · rintro ⟨a, ha, _⟩; cases ha
    · intro h; cases h)
  refine ⟨?_, ?_, HandleSet.iter_nodup hit w, HandleSet.iter_sorted _ _,
    (HandleSet.iter_length hit w).symm⟩
  · intro x
    obtain ⟨_, _, b, e, _, _, _, hb⟩ := HandleSet.contains_spec w x
    show (s.2.contains s.1 x).2.2 = true ↔ _
    rw [e]
    exact hb.trans (h x)
  · intro x
    exact (HandleSet.iter_mem hit w).trans (h x)

/-- A sequence of operations on two handler sets: `true` is the first one. -/
def runTwo : List (Bool × HOp H) → Heap H × HandleSet × HandleSet → Heap H × HandleSet × HandleSet
  | [], s => s
  | (true, op) :: r, s => runTwo r ((op.run (s.1, s.2.1)).1, (op.run (s.1, s.2.1)).2, s.2.2)
  | (false, op) :: r, s => runTwo r ((op.run (s.1, s.2.2)).1, s.2.1, (op.run (s.1, s.2.2)).2)

/-- The operations on one of them. -/
def opsOf (b : Bool) (l : List (Bool × HOp H)) : List (HOp H) :=
  (l.filter fun x => x.1 == b).map (·.2)

theorem runTwo_spec (ops : List (Bool × HOp H)) : ∀ {hp : Heap H} {o c : HandleSet}
    {A B : H × Int → Prop}, o.WF hp → c.WF hp →
    (∀ e ∈ c.dict, e.2 ∉ o.dict.map (·.2)) → (∀ e ∈ o.dict, e.2 ∉ c.dict.map (·.2)) →
    (∀ x, o.Mem hp x ↔ A x) → (∀ x, c.Mem hp x ↔ B x) →
    let s := runTwo ops (hp, o, c)
    s.2.1.WF s.1 ∧ s.2.2.WF s.1 ∧ (∀ x, s.2.1.Mem s.1 x ↔ specOps (opsOf true ops) A x) ∧
      (∀ x, s.2.2.Mem s.1 x ↔ specOps (opsOf false ops) B x) := by
  induction ops with
  | nil => intro hp o c A B w w' _ _ h h'; exact ⟨w, w', h, h'⟩
  | cons x ops ih =>
    intro hp o c A B w w' d d' h h'
    obtain ⟨b, op⟩ := x
    have flip : ∀ {a b : HandleSet}, (∀ e ∈ a.dict, e.2 ∉ b.dict.map (·.2)) →
        ∀ e ∈ b.dict, e.2 ∉ a.dict.map (·.2) := by
      intro a b hd e he hm
      obtain ⟨e', h1, h2⟩ := List.mem_map.mp hm
      exact hd e' h1 (List.mem_map.mpr ⟨e, he, h2.symm⟩)
    cases b with
    | true =>
      obtain ⟨w1, f1, h1⟩ := op.run_spec w
      obtain ⟨g1, g2, g3⟩ := f1.other w' d
      exact ih w1 g1 g3 (flip g3) (fun x => (h1 x).trans (op.spec_congr h x))
        (fun x => (g2 x).trans (h' x))
    | false =>
      obtain ⟨w1, f1, h1⟩ := op.run_spec w'
      obtain ⟨g1, g2, g3⟩ := f1.other w d'
      exact ih g1 w1 (flip g3) g3 (fun x => (g2 x).trans (h x))
        (fun x => (h1 x).trans (op.spec_congr h' x))

/-- C31, copies: a copy of a handler set compares equal to it, and after any operations on the two,
in any order, each holds what its own operations say. -/
theorem C31_copy (before : List (HOp H)) (after : List (Bool × HOp H)) (hp0 : Heap H)
    (it : IterOrder H) (hit : ∀ k l, (it k l).Perm l) :
    let s := runOps before (hp0, HandleSet.new)
    let A := specOps before (fun _ => False)
    let c := s.2.copy it s.1
    HandleSet.eq it c.1 s.2 c.2 = true ∧
    let r := runTwo after (c.1, s.2, c.2)
    (∀ x, (r.2.1.contains r.1 x).2.2 = true ↔ specOps (opsOf true after) A x) ∧
    (∀ x, (r.2.2.contains r.1 x).2.2 = true ↔ specOps (opsOf false after) A x) := by
  intro s A c
  obtain ⟨w, h⟩ := runOps_spec before (HandleSet.new_wf hp0) (A := fun _ => False) (by
    intro x
    constructor
    · rintro ⟨a, ha, _⟩; cases ha
    · intro h; cases h)
  change s.2.WF s.1 at w
  change ∀ x, s.2.Mem s.1 x ↔ A x at h
  obtain ⟨hp', o', e, w', f', h'⟩ := HandleSet.fromIterable_spec (s.2.iter it s.1)
    (HandleSet.new_wf s.1) (hp0 := s.1) (o0 := HandleSet.new)
    ⟨Nat.le_refl _, fun _ _ _ => rfl, fun e he => by cases he⟩
  have hc : c = (hp', o') := e
  have hmem : ∀ x, o'.Mem hp' x ↔ A x := by
    intro x
    rw [h' x, HandleSet.iter_mem hit w, h x]
    constructor
    · rintro (hx | ⟨a, ha, _⟩)
      · exact hx
      · cases ha
    · exact Or.inl
  obtain ⟨g1, g2, g3⟩ := f'.other w (by intro e _ hm; cases hm)
  have hdis : ∀ e ∈ o'.dict, e.2 ∉ s.2.dict.map (·.2) := by
    intro e he hm
    obtain ⟨e', h1, h2⟩ := List.mem_map.mp hm
    exact g3 e' h1 (List.mem_map.mpr ⟨e, he, h2.symm⟩)
  rw [hc]
  refine ⟨?_, ?_⟩
  · unfold HandleSet.eq
    rw [Bool.and_eq_true, decide_eq_true_eq]
    constructor
    · rw [← HandleSet.iter_length hit g1, ← HandleSet.iter_length hit w']
      refine List.Perm.length_eq ?_
      rw [List.perm_iff_count]
      intro x
      rw [(HandleSet.iter_nodup hit g1).count, (HandleSet.iter_nodup hit w').count]
      have : x ∈ s.2.iter it hp' ↔ x ∈ o'.iter it hp' := by
        rw [HandleSet.iter_mem hit g1, HandleSet.iter_mem hit w', g2, h, hmem]
      simp only [this]
    · rw [HandleSet.allIn_spec _ w']
      intro x hx
      rw [hmem, ← h, ← g2]
      exact (HandleSet.iter_mem hit g1).mp hx
  · intro r
    obtain ⟨r1, r2, r3, r4⟩ := runTwo_spec after g1 w' hdis g3
      (fun x => (g2 x).trans (h x)) hmem
    constructor
    · intro x
      obtain ⟨_, _, b, e, _, _, _, hb⟩ := HandleSet.contains_spec r1 x
      show (r.2.1.contains r.1 x).2.2 = true ↔ _
      rw [e]
      exact hb.trans (r3 x)
    · intro x
      obtain ⟨_, _, b, e, _, _, _, hb⟩ := HandleSet.contains_spec r2 x
      show (r.2.2.contains r.1 x).2.2 = true ↔ _
      rw [e]
      exact hb.trans (r4 x)

/-- Handlers 1, 2, 3 at priorities 0, 5, 0; then 2 is discarded, and 1 from the copy. -/
example :
    let it : IterOrder Nat := fun _ l => l
    let s := runOps [.add 1 0, .add 2 5, .add 3 0, .add 1 7, .discard 2] (⟨fun _ => [], 0⟩, HandleSet.new)
    let c := s.2.copy it s.1
    let r := runTwo [(false, .discard 1), (true, .add 4 5)] (c.1, s.2, c.2)
    s.2.iter it s.1 = [(1, 7), (1, 0), (3, 0)] ∧ s.2.len s.1 = 3 ∧
    r.2.1.iter it r.1 = [(1, 7), (4, 5), (1, 0), (3, 0)] ∧ r.2.2.iter it r.1 = [(3, 0)] := by
  decide +kernel

/-! ### C30 -/

theorem tryHandles_declined {f : H → σ → Except Err (Option R × σ)} {s : σ} : ∀ {l : List H}
    {res : Option R}, (∀ h ∈ l, f h s = .ok (none, s)) → tryHandles f l res s = .ok (res, s) := by
  intro l
  induction l with
  | nil => intros; rfl
  | cons h l ih =>
    intro res hl
    unfold tryHandles
    rw [hl h (by simp)]
    exact ih fun h' hm => hl h' (by simp [hm])

theorem tryHandles_unique {f : H → σ → Except Err (Option R × σ)} {s s' : σ} {h : H} {r : R}
    (hr : f h s = .ok (some r, s')) : ∀ {l : List H}, l.Nodup → h ∈ l →
    (∀ g ∈ l, g ≠ h → f g s = .ok (none, s) ∧ f g s' = .ok (none, s')) →
    tryHandles f l none s = .ok (some r, s') := by
  intro l
  induction l with
  | nil => intro _ hm _; cases hm
  | cons g l ih =>
    intro hn hm hl
    rw [List.nodup_cons] at hn
    unfold tryHandles
    by_cases hg : g = h
    · subst hg
      rw [hr]
      refine tryHandles_declined fun h' hm' => (hl h' (by simp [hm']) ?_).2
      rintro rfl
      exact hn.1 hm'
    · rw [(hl g (by simp) hg).1]
      refine ih hn.2 ?_ fun g' hm' => hl g' (by simp [hm'])
      rcases List.mem_cons.mp hm with h' | h'
      · exact absurd h'.symm hg
      · exact h'

/-- C30, the accepting handler: if `h` at priority `p` accepts, no handler of higher priority and
no other handler of priority `p` does (and handlers that decline leave the state, such as the file
position, alone), the result is that of `h`.  In whatever order the handlers were added, and
whatever the iteration order. -/
theorem C30_unique {it : IterOrder H} (hit : ∀ k l, (it k l).Perm l)
    {f : H → σ → Except Err (Option R × σ)} {hp : Heap H} {o : HandleSet} (w : o.WF hp)
    {h : H} {p : Int} {s s' : σ} {r : R} (hm : o.Mem hp (h, p)) (hr : f h s = .ok (some r, s'))
    (hhigh : ∀ g q, o.Mem hp (g, q) → p < q → f g s = .ok (none, s))
    (hsame : ∀ g, o.Mem hp (g, p) → g ≠ h → f g s = .ok (none, s) ∧ f g s' = .ok (none, s')) :
    o.handle it f hp s = .ok (r, s') := by
  have hkey : p ∈ o.keysDesc := by
    obtain ⟨a, ha, _⟩ := hm
    exact HandleSet.keysDesc_mem.mpr ⟨a, ha⟩
  have hsort := HandleSet.keysDesc_strict w.keys
  unfold HandleSet.handle
  generalize o.keysDesc = ks at hkey hsort
  induction ks with
  | nil => cases hkey
  | cons k ks ih =>
    rw [List.pairwise_cons] at hsort
    unfold handleLoop
    by_cases hk : k = p
    · subst hk
      rw [tryHandles_unique hr ((hit _ _).nodup_iff.mpr (HandleSet.at_nodup w k))
        ((hit _ _).mem_iff.mpr ((HandleSet.at_mem w).mpr hm))
        fun g hg hne => hsame g ((HandleSet.at_mem w).mp ((hit _ _).mem_iff.mp hg)) hne]
    · have hmem : p ∈ ks := by
        rcases List.mem_cons.mp hkey with h' | h'
        · exact absurd h'.symm hk
        · exact h'
      rw [tryHandles_declined fun g hg =>
        hhigh g k ((HandleSet.at_mem w).mp ((hit _ _).mem_iff.mp hg)) (hsort.1 p hmem)]
      exact ih hmem hsort.2

/-- Handlers without effect on the state. -/
def pureHandler (f : H → Except Err (Option R)) (h : H) (s : σ) : Except Err (Option R × σ) :=
  (f h).map fun r => (r, s)

theorem tryHandles_pure (f : H → Except Err (Option R)) (s : σ) : ∀ {l : List H} {res : Option R}
    {x : Option R} {s' : σ}, l.Nodup →
    tryHandles (pureHandler f) l res s = .ok (x, s') → s' = s ∧ (∀ h ∈ l, ∃ y, f h = .ok y) ∧
      ((x = res ∧ ∀ h ∈ l, f h = .ok none) ∨
        (res = none ∧ ∃ h ∈ l, ∃ r, x = some r ∧ f h = .ok (some r) ∧
          ∀ g ∈ l, g ≠ h → f g = .ok none)) := by
  intro l
  induction l with
  | nil =>
    intro res x s' _ h
    unfold tryHandles at h
    cases h
    exact ⟨rfl, by simp, Or.inl ⟨rfl, by simp⟩⟩
  | cons g l ih =>
    intro res x s' hn h
    rw [List.nodup_cons] at hn
    unfold tryHandles at h
    cases hf : f g with
    | error e => rw [show pureHandler f g s = .error e by simp [pureHandler, hf, Except.map]] at h; cases h
    | ok y =>
      rw [show pureHandler f g s = .ok (y, s) by simp [pureHandler, hf, Except.map]] at h
      cases y with
      | none =>
        simp only at h
        obtain ⟨h1, h2, h3⟩ := ih hn.2 h
        refine ⟨h1, ?_, ?_⟩
        · intro g' hg'
          rcases List.mem_cons.mp hg' with rfl | hg'
          · exact ⟨_, hf⟩
          · exact h2 g' hg'
        · rcases h3 with ⟨h3, h4⟩ | ⟨h3, h', hm, r, h4, h5, h6⟩
          · refine Or.inl ⟨h3, ?_⟩
            intro g' hg'
            rcases List.mem_cons.mp hg' with rfl | hg'
            · exact hf
            · exact h4 g' hg'
          · refine Or.inr ⟨h3, h', by simp [hm], r, h4, h5, ?_⟩
            intro g' hg' hne
            rcases List.mem_cons.mp hg' with rfl | hg'
            · exact hf
            · exact h6 g' hg' hne
      | some r =>
        cases res with
        | some _ => cases h
        | none =>
          simp only at h
          obtain ⟨h1, h2, h3⟩ := ih hn.2 h
          refine ⟨h1, ?_, ?_⟩
          · intro g' hg'
            rcases List.mem_cons.mp hg' with rfl | hg'
            · exact ⟨_, hf⟩
            · exact h2 g' hg'
          · rcases h3 with ⟨h3, h4⟩ | ⟨h3, _⟩
            · refine Or.inr ⟨rfl, g, by simp, r, h3, hf, ?_⟩
              intro g' hg' hne
              rcases List.mem_cons.mp hg' with rfl | hg'
              · exact absurd rfl hne
              · exact h4 g' hg'
            · cases h3

/-- `h` is the one handler that accepts at the highest priority at which one does: `p`; no handler
that has to be asked raises an exception. -/
structure Winner (M : H × Int → Prop) (f : H → Except Err (Option R)) (h : H) (p : Int) (r : R) :
    Prop where
  mem : M (h, p)
  accepts : f h = .ok (some r)
  higher : ∀ g q, M (g, q) → p < q → f g = .ok none
  others : ∀ g, M (g, p) → g ≠ h → f g = .ok none

/-- C30, exactly: a result is returned if and only if there is a unique accepting handler at the
highest priority at which any accepts, and it is that handler's result.  In all other cases (nobody
accepts, two accept at that priority, a handler raises) an exception is raised. -/
theorem C30_result {it : IterOrder H} (hit : ∀ k l, (it k l).Perm l)
    {f : H → Except Err (Option R)} {hp : Heap H} {o : HandleSet} (w : o.WF hp) {s s' : σ} {r : R} :
    o.handle it (pureHandler f) hp s = .ok (r, s') ↔
      s' = s ∧ ∃ h p, Winner (o.Mem hp) f h p r := by
  have hp0 : ∀ {g : H} {y : Option R}, f g = .ok y → pureHandler f g s = .ok (y, s) := by
    intro g y hg
    simp [pureHandler, hg, Except.map]
  constructor
  · intro h
    have hsort := HandleSet.keysDesc_strict w.keys
    unfold HandleSet.handle at h
    have hall : ∀ g q, o.Mem hp (g, q) → q ∈ o.keysDesc := fun g q ⟨a, ha, _⟩ =>
      HandleSet.keysDesc_mem.mpr ⟨a, ha⟩
    have key : ∀ (ks : List Int) (done : List Int), o.keysDesc = done ++ ks →
        (∀ g, ∀ q ∈ done, o.Mem hp (g, q) → f g = .ok none) →
        handleLoop (pureHandler f) (fun k => it k (o.at hp k)) ks s = .ok (r, s') →
        s' = s ∧ ∃ h p, Winner (o.Mem hp) f h p r := by
      intro ks
      induction ks with
      | nil => intro _ _ _ h; cases h
      | cons k ks ih =>
        intro done hd hdone h
        unfold handleLoop at h
        cases ht : tryHandles (pureHandler f) (it k (o.at hp k)) none s with
        | error e => rw [ht] at h; cases h
        | ok y =>
          obtain ⟨y, s1⟩ := y
          rw [ht] at h
          obtain ⟨rfl, _, h3⟩ := tryHandles_pure f s
            ((hit _ _).nodup_iff.mpr (HandleSet.at_nodup w k)) ht
          have hmem : ∀ g, g ∈ it k (o.at hp k) ↔ o.Mem hp (g, k) := fun g =>
            (hit _ _).mem_iff.trans (HandleSet.at_mem w)
          cases y with
          | none =>
            simp only at h
            refine ih (done ++ [k]) (by rw [hd, List.append_assoc]; rfl) ?_ h
            intro g q hq hm
            rcases List.mem_append.mp hq with hq | hq
            · exact hdone g q hq hm
            · simp only [List.mem_cons, List.not_mem_nil, or_false] at hq
              subst hq
              rcases h3 with ⟨_, h4⟩ | ⟨_, _, _, r', h4, _⟩
              · exact h4 g ((hmem g).mpr hm)
              · cases h4
          | some r' =>
            simp only at h
            cases h
            rcases h3 with ⟨h3, _⟩ | ⟨_, g, hg, r', h4, h5, h6⟩
            · cases h3
            · cases h4
              refine ⟨rfl, g, k, (hmem g).mp hg, h5, ?_, fun g' hm hne => h6 g' ((hmem g').mpr hm) hne⟩
              intro g' q hm hlt
              have := hall g' q hm
              rw [hd] at this hsort
              rcases List.mem_append.mp this with h' | h'
              · exact hdone g' q h' hm
              · exfalso
                rw [List.pairwise_append] at hsort
                rcases List.mem_cons.mp h' with h' | h'
                · omega
                · have := (List.pairwise_cons.mp hsort.2.1).1 q h'
                  omega
    exact key o.keysDesc [] rfl (by intro _ _ h; cases h) h
  · rintro ⟨rfl, h, p, W⟩
    exact C30_unique hit w W.mem (hp0 W.accepts) (fun g q hm hlt => hp0 (W.higher g q hm hlt))
      fun g hm hne => ⟨hp0 (W.others g hm hne), hp0 (W.others g hm hne)⟩

/-- C30, registration order: handler sets holding the same pairs return the same results, however
they came about and however python iterates. -/
theorem C30_order {it it' : IterOrder H} (hit : ∀ k l, (it k l).Perm l)
    (hit' : ∀ k l, (it' k l).Perm l) {f : H → Except Err (Option R)} {hp hp' : Heap H}
    {o o' : HandleSet} (w : o.WF hp) (w' : o'.WF hp') (hm : ∀ x, o.Mem hp x ↔ o'.Mem hp' x)
    (s : σ) (x : R × σ) :
    o.handle it (pureHandler f) hp s = .ok x ↔ o'.handle it' (pureHandler f) hp' s = .ok x := by
  obtain ⟨r, s'⟩ := x
  rw [C30_result hit w, C30_result hit' w', show o.Mem hp = o'.Mem hp' from
    funext fun x => propext (hm x)]

/-- C30 for handler sets built by any operations: those giving the same abstract set give the same
results. -/
theorem C30_history {it it' : IterOrder H} (hit : ∀ k l, (it k l).Perm l)
    (hit' : ∀ k l, (it' k l).Perm l) {f : H → Except Err (Option R)} (hp : Heap H)
    (ops ops' : List (HOp H))
    (h : ∀ x, specOps ops (fun _ => False) x ↔ specOps ops' (fun _ => False) x) (s : σ)
    (x : R × σ) :
    let a := runOps ops (hp, HandleSet.new)
    let b := runOps ops' (hp, HandleSet.new)
    a.2.handle it (pureHandler f) a.1 s = .ok x ↔ b.2.handle it' (pureHandler f) b.1 s = .ok x := by
  intro a b
  have hz : ∀ x, HandleSet.new.Mem hp x ↔ False := by
    intro x
    constructor
    · rintro ⟨a, ha, _⟩; cases ha
    · intro h; cases h
  obtain ⟨w, m⟩ := runOps_spec ops (HandleSet.new_wf hp) hz
  obtain ⟨w', m'⟩ := runOps_spec ops' (HandleSet.new_wf hp) hz
  exact C30_order hit hit' w w' (fun x => (m x).trans ((h x).trans (m' x).symm)) s x

/-- Handler 2 at priority 5 declines, 1 and 3 at 0; odd handlers accept in the second call. -/
example :
    let it : IterOrder Nat := fun _ l => l.reverse
    let s := runOps [.add 1 0, .add 2 5, .add 3 0] (⟨fun _ => [], 0⟩, HandleSet.new)
    let f (n : Nat) (h : Nat) : Except Err (Option Nat) := .ok (if h % 4 = n then some h else none)
    s.2.handle it (pureHandler (f 3)) s.1 () = .ok (3, ()) ∧
    s.2.handle it (pureHandler (f 2)) s.1 () = .ok (2, ()) ∧
    s.2.handle it (pureHandler (f 0)) s.1 () = .error .runtime ∧
    s.2.handle it (pureHandler fun h => .ok (if h % 2 = 1 then some h else none)) s.1 () =
      .error .runtime := by
  decide +kernel

/-! ### C51

The state of the model is anything the hooks change together with a log of the calls; a hook that
logs is `logged`. -/

/-- Add a log of calls to hooks. -/
def logged {Hook : Type} (call : Hook → σ → Except Err σ) (h : Hook) (s : σ × List Hook) :
    Except Err (σ × List Hook) :=
  (call h s.1).map fun t => (t, s.2 ++ [h])

theorem runHooks_log {Hook : Type} (call : Hook → σ → Except Err σ) : ∀ (l : List Hook)
    (s : σ × List Hook) {t : σ × List Hook}, runHooks (logged call) l s = .ok t →
    t.2 = s.2 ++ l := by
  intro l
  induction l with
  | nil => intro s t h; unfold runHooks at h; cases h; simp
  | cons a l ih =>
    intro s t h
    unfold runHooks at h
    cases hc : call a s.1 with
    | error e => simp [logged, hc, Except.map] at h
    | ok u =>
      simp only [logged, hc, Except.map] at h
      rw [ih _ h]
      simp

/-- C51, events: if no hook raises an exception, every hook in the set has been called exactly
once, whatever the iteration order `l` of the set. -/
theorem C51_event {Hook : Type} [DecidableEq Hook] (call : Hook → σ → Except Err σ)
    {set l : List Hook} (hset : set.Nodup) (hl : l.Perm set) {s : σ} {t : σ × List Hook}
    (h : runHooks (logged call) l (s, []) = .ok t) (x : Hook) :
    t.2.count x = if x ∈ set then 1 else 0 := by
  rw [runHooks_log call l _ h, List.nil_append, hl.count_eq, hset.count]

/-- C51, reading and writing: for every segment of the file, every hook is called exactly once, and
the segments are taken in order. -/
theorem C51_segments {Hook Seg : Type} [DecidableEq Hook] [DecidableEq Seg]
    (call : Hook → Seg → σ → Except Err σ) {set : List Hook} (hset : set.Nodup)
    {segs : List (Seg × List Hook)} (hs : ∀ x ∈ segs, x.2.Perm set)
    (hd : (segs.map (·.1)).Nodup) {s : σ} {t : σ × List (Hook × Seg)}
    (h : fileHooks (fun k g (u : σ × List (Hook × Seg)) =>
      (call k g u.1).map fun v => (v, u.2 ++ [(k, g)])) segs (s, []) = .ok t) :
    (∀ k g, t.2.count (k, g) = if k ∈ set ∧ g ∈ segs.map (·.1) then 1 else 0) ∧
    t.2.map (·.2) = segs.flatMap fun x => x.2.map fun _ => x.1 := by
  have one : ∀ (g : Seg) (l : List Hook) (u v : σ × List (Hook × Seg)),
      runHooks (fun k (u : σ × List (Hook × Seg)) =>
        (call k g u.1).map fun v => (v, u.2 ++ [(k, g)])) l u = .ok v →
      v.2 = u.2 ++ l.map fun k => (k, g) := by
    intro g l
    induction l with
    | nil => intro u v h; unfold runHooks at h; cases h; simp
    | cons a l ih =>
      intro u v h
      unfold runHooks at h
      cases hc : call a g u.1 with
      | error e => simp [hc, Except.map] at h
      | ok w =>
        simp only [hc, Except.map] at h
        rw [ih _ _ h]
        simp
  have all : ∀ (segs : List (Seg × List Hook)) (u v : σ × List (Hook × Seg)),
      fileHooks (fun k g (u : σ × List (Hook × Seg)) =>
        (call k g u.1).map fun v => (v, u.2 ++ [(k, g)])) segs u = .ok v →
      v.2 = u.2 ++ segs.flatMap fun x => x.2.map fun k => (k, x.1) := by
    intro segs
    induction segs with
    | nil => intro u v h; unfold fileHooks at h; cases h; simp
    | cons a segs ih =>
      intro u v h
      obtain ⟨g, l⟩ := a
      unfold fileHooks at h
      split at h
      · cases h
      · rename_i w hw
        rw [ih _ _ h, one g l _ _ hw]
        simp
  have hlog := all segs _ _ h
  simp only [List.nil_append] at hlog
  rw [hlog]
  clear hlog h all one
  constructor
  · intro k g
    induction segs with
    | nil => simp
    | cons a segs ih =>
      rw [List.map_cons, List.nodup_cons] at hd
      have ih := ih (fun x hx => hs x (by simp [hx])) hd.2
      rw [List.flatMap_cons, List.count_append, ih]
      have hp := hs a (by simp)
      have hcount : (a.2.map fun k => (k, a.1)).count (k, g) =
          if a.1 = g ∧ k ∈ set then 1 else 0 := by
        rw [(hp.map _).count_eq]
        by_cases hg : a.1 = g
        · subst hg
          have hn : (set.map fun k => (k, a.1)).Nodup :=
            List.pairwise_map.mpr (hset.imp fun hh e => hh (by cases e; rfl))
          rw [hn.count]
          simp
        · rw [if_neg (fun h => hg h.1)]
          refine List.count_eq_zero.mpr fun hm => ?_
          obtain ⟨_, _, e⟩ := List.mem_map.mp hm
          cases e
          exact hg rfl
      rw [hcount]
      by_cases hg : a.1 = g
      · subst hg
        simp [hd.1]
      · have : ¬ g = a.1 := fun e => hg e.symm
        rw [if_neg (fun h => hg h.1), Nat.zero_add]
        simp only [List.map_cons, List.mem_cons, this, false_or]
  · rw [List.map_flatMap]
    congr 1
    funext x
    rw [List.map_map]
    rfl

/-- C51, printing a segment: exactly the hooks not suppressed by raw reporting are called, once. -/
theorem C51_str {Hook : Type} [DecidableEq Hook] (raw : Bool) (remove : Hook → Bool)
    (call : Hook → σ → Except Err σ) {set l : List Hook} (hset : set.Nodup) (hl : l.Perm set) {s : σ}
    {t : σ × List Hook} (h : strHooks raw remove (logged call) l (s, []) = .ok t) (x : Hook) :
    t.2.count x = if x ∈ set ∧ ¬ (raw = true ∧ remove x = true) then 1 else 0 := by
  have key : ∀ (l : List Hook) (u v : σ × List Hook),
      strHooks raw remove (logged call) l u = .ok v →
      v.2 = u.2 ++ l.filter fun h => !(raw && remove h) := by
    intro l
    induction l with
    | nil => intro u v h; unfold strHooks at h; cases h; simp
    | cons a l ih =>
      intro u v h
      unfold strHooks at h
      split at h
      · rename_i hc
        cases hcall : call a u.1 with
        | error e => simp [logged, hcall, Except.map] at h
        | ok w =>
          simp only [logged, hcall, Except.map] at h
          rw [ih _ _ h, List.filter_cons_of_pos (p := fun h => !(raw && remove h)) hc]
          simp
      · rename_i hc
        rw [ih _ _ h, List.filter_cons_of_neg (p := fun h => !(raw && remove h)) hc]
  rw [key l _ _ h, List.nil_append, (hl.filter _).count_eq,
    List.Nodup.count (List.Pairwise.filter _ hset)]
  simp only [List.mem_filter]
  cases raw <;> cases hr : remove x <;> simp [hr]

/-- A hook for TREs that logs its calls together with its answer. -/
def loggedTre {Hook : Type} (call : Hook → σ → Except Err (Bool × σ)) (h : Hook)
    (s : σ × List (Hook × Bool)) : Except Err (Bool × σ × List (Hook × Bool)) :=
  (call h s.1).map fun t => (t.1, t.2, s.2 ++ [(h, t.1)])

/-- C51, printing a TRE: suppressed hooks are not called, no hook is called twice, the result is
true exactly if some called hook answered true; that hook was then the last one called, and if
none did, all hooks not suppressed were called. -/
theorem C51_tre {Hook : Type} [DecidableEq Hook] (raw : Bool) (remove : Hook → Bool)
    (call : Hook → σ → Except Err (Bool × σ)) {set l : List Hook} (hset : set.Nodup)
    (hl : l.Perm set) {s : σ} {res : Bool} {t : σ × List (Hook × Bool)}
    (h : strTreHooks raw remove (loggedTre call) l false (s, []) = .ok (res, t)) :
    (t.2.map (·.1)).Nodup ∧
    (∀ x ∈ t.2.map (·.1), x ∈ set ∧ ¬ (raw = true ∧ remove x = true)) ∧
    (res = true ↔ ∃ x, (x, true) ∈ t.2) ∧
    (∀ pre x post, t.2 = pre ++ (x, true) :: post → post = []) ∧
    (res = false → ∀ x ∈ set, ¬ (raw = true ∧ remove x = true) → x ∈ t.2.map (·.1)) := by
  have stop : ∀ (l : List Hook) (u v : σ × List (Hook × Bool)) (b : Bool),
      strTreHooks raw remove (loggedTre call) l true u = .ok (b, v) → b = true ∧ v = u := by
    intro l
    induction l with
    | nil => intro u v b h; unfold strTreHooks at h; cases h; exact ⟨rfl, rfl⟩
    | cons a l ih =>
      intro u v b h
      unfold strTreHooks at h
      split at h
      · rw [if_pos rfl] at h; exact ih _ _ _ h
      · exact ih _ _ _ h
  have key : ∀ (l : List Hook) (u v : σ × List (Hook × Bool)) (b : Bool),
      strTreHooks raw remove (loggedTre call) l false u = .ok (b, v) →
      ∃ done rest, l.filter (fun h => !(raw && remove h)) = done ++ rest ∧
        ((b = false ∧ rest = [] ∧ v.2 = u.2 ++ done.map fun h => (h, false)) ∨
         (b = true ∧ ∃ d0 x, done = d0 ++ [x] ∧
            v.2 = u.2 ++ ((d0.map fun h => (h, false)) ++ [(x, true)]))) := by
    intro l
    induction l with
    | nil =>
      intro u v b h
      unfold strTreHooks at h
      cases h
      exact ⟨[], [], rfl, Or.inl ⟨rfl, rfl, by simp⟩⟩
    | cons a l ih =>
      intro u v b h
      unfold strTreHooks at h
      split at h
      · rename_i hc
        rw [if_neg (by simp)] at h
        cases hcall : call a u.1 with
        | error e => simp [loggedTre, hcall, Except.map] at h
        | ok w =>
          obtain ⟨c, w⟩ := w
          simp only [loggedTre, hcall, Except.map] at h
          cases c with
          | true =>
            obtain ⟨rfl, rfl⟩ := stop _ _ _ _ h
            refine ⟨[a], l.filter fun h => !(raw && remove h), ?_, Or.inr ⟨rfl, [], a, rfl, by simp⟩⟩
            rw [List.filter_cons_of_pos (p := fun h => !(raw && remove h)) hc]; rfl
          | false =>
            obtain ⟨done, rest, h1, h2⟩ := ih _ _ _ h
            refine ⟨a :: done, rest, ?_, ?_⟩
            · rw [List.filter_cons_of_pos (p := fun h => !(raw && remove h)) hc, h1]; rfl
            · rcases h2 with ⟨h2, h3, h4⟩ | ⟨h2, d0, x, h3, h4⟩
              · exact Or.inl ⟨h2, h3, by rw [h4]; simp⟩
              · exact Or.inr ⟨h2, a :: d0, x, by rw [h3]; rfl, by rw [h4]; simp⟩
      · rename_i hc
        obtain ⟨done, rest, h1, h2⟩ := ih _ _ _ h
        exact ⟨done, rest, by rw [List.filter_cons_of_neg (p := fun h => !(raw && remove h)) hc]; exact h1, h2⟩
  obtain ⟨done, rest, h1, h2⟩ := key l _ _ _ h
  have hln : l.Nodup := hl.nodup_iff.mpr hset
  have hfn : (done ++ rest).Nodup := h1 ▸ hln.filter _
  have hdn : done.Nodup := (List.nodup_append.mp hfn).1
  have hmem : ∀ x ∈ done, x ∈ set ∧ ¬ (raw = true ∧ remove x = true) := by
    intro x hx
    have : x ∈ l.filter fun h => !(raw && remove h) := by
      rw [h1]; exact List.mem_append_left _ hx
    obtain ⟨h3, h4⟩ := List.mem_filter.mp this
    exact ⟨hl.mem_iff.mp h3, by revert h4; cases raw <;> cases remove x <;> simp⟩
  have hcalled : t.2.map (·.1) = done := by
    rcases h2 with ⟨_, _, h4⟩ | ⟨_, d0, x, h3, h4⟩
    · rw [h4]; simp [Function.comp_def]
    · rw [h4, h3]; simp [Function.comp_def]
  rw [hcalled]
  refine ⟨hdn, hmem, ?_, ?_, ?_⟩
  · rcases h2 with ⟨h2, _, h4⟩ | ⟨h2, d0, x, _, h4⟩
    · rw [h2, h4]; simp
    · rw [h2, h4]
      exact ⟨fun _ => ⟨x, by simp⟩, fun _ => rfl⟩
  · intro pre x post he
    rcases h2 with ⟨h2, _, h4⟩ | ⟨h2, d0, y, h3, h4⟩
    · have : (x, true) ∈ t.2 := by rw [he]; simp
      rw [h4] at this
      simp at this
    · rw [h4, List.nil_append] at he
      rcases List.eq_nil_or_concat post with hp | ⟨p0, z, hp⟩
      · exact hp
      · rw [hp] at he
        have e1 : d0.map (fun h => (h, false)) ++ [(y, true)] = (pre ++ (x, true) :: p0) ++ [z] := by
          rw [he]; simp
        have e2 := (List.append_inj' e1 rfl).1
        have : (x, true) ∈ d0.map fun h => (h, false) := by rw [e2]; simp
        simp at this
  · intro hr x hx hs
    rcases h2 with ⟨_, h3, _⟩ | ⟨h2, _⟩
    · subst h3
      rw [List.append_nil] at h1
      rw [← h1]
      exact List.mem_filter.mpr ⟨hl.mem_iff.mpr hx, by revert hs; cases raw <;> cases remove x <;> simp⟩
    · rw [h2] at hr; cases hr

theorem strTreHooks_took {Hook T σ : Type} (raw : Bool) (remove : Hook → Bool)
    (call : Hook → T → σ → Except Err (Bool × σ)) (t : T) :
    ∀ (l : List Hook) (b : Bool) {u : σ × List (T × Bool)} {res : Bool} {v : σ × List (T × Bool)},
    strTreHooks raw remove (fun h (u : σ × List (T × Bool)) => (call h t u.1).map fun r =>
      (r.1, (r.2, if r.1 then u.2 ++ [(t, true)] else u.2))) l b u = .ok (res, v) →
    v.2 = if b = false ∧ res = true then u.2 ++ [(t, true)] else u.2 := by
  intro l
  induction l with
  | nil =>
    intro b u res v h
    simp only [strTreHooks, Except.ok.injEq, Prod.mk.injEq] at h
    obtain ⟨rfl, rfl⟩ := h
    cases b <;> simp
  | cons x l ih =>
    intro b u res v h
    unfold strTreHooks at h
    split at h
    · split at h
      · rename_i hb
        rw [ih true h, hb]
      · rename_i hb
        have hb : b = false := by simpa using hb
        cases hc : call x t u.1 with
        | error e => rw [hc] at h; cases h
        | ok r =>
          rw [hc] at h
          dsimp only [Except.map] at h
          have h := ih r.1 h
          rw [h, hb]
          cases hr : r.1 with
          | false => simp
          | true =>
            rename_i h'
            have : res = true := by
              have : ∀ (l : List Hook) {u : σ × List (T × Bool)} {res : Bool}
                  {v : σ × List (T × Bool)}, strTreHooks raw remove
                  (fun h (u : σ × List (T × Bool)) => (call h t u.1).map fun r =>
                  (r.1, (r.2, if r.1 then u.2 ++ [(t, true)] else u.2))) l true u = .ok (res, v) →
                  res = true := by
                intro l
                induction l with
                | nil =>
                  intro u res v h
                  simp only [strTreHooks, Except.ok.injEq, Prod.mk.injEq] at h
                  exact h.1.symm
                | cons y l ih2 =>
                  intro u res v h
                  unfold strTreHooks at h
                  split at h
                  · exact ih2 h
                  · exact ih2 h
              rw [hr] at h'
              exact this l h'
            simp [this]
    · exact ih b h

/-- C51, printing the TREs of a segment: every TRE has its turn, in order, and exactly once: either a
hook took it or it is printed in the usual way. -/
theorem C51_tres {Hook T σ : Type} (raw : Bool) (remove : Hook → Bool)
    (call : Hook → T → σ → Except Err (Bool × σ)) (print : T → σ → Except Err σ)
    (l : List (T × List Hook)) {s : σ} {t : σ × List (T × Bool)}
    (h : strTres raw remove (fun h x (u : σ × List (T × Bool)) => (call h x u.1).map fun r =>
        (r.1, (r.2, if r.1 then u.2 ++ [(x, true)] else u.2)))
      (fun x u => (print x u.1).map fun v => (v, u.2 ++ [(x, false)])) l (s, []) = .ok t) :
    t.2.map (·.1) = l.map (·.1) := by
  suffices ∀ (l : List (T × List Hook)) (u : σ × List (T × Bool)),
      strTres raw remove (fun h x (u : σ × List (T × Bool)) => (call h x u.1).map fun r =>
        (r.1, (r.2, if r.1 then u.2 ++ [(x, true)] else u.2)))
      (fun x u => (print x u.1).map fun v => (v, u.2 ++ [(x, false)])) l u = .ok t →
      t.2.map (·.1) = u.2.map (·.1) ++ l.map (·.1) by
    simpa using this l (s, []) h
  clear h
  intro l
  induction l with
  | nil => intro u h; cases h; simp
  | cons x l ih =>
    intro u h
    obtain ⟨x, hooks⟩ := x
    unfold strTres at h
    split at h
    · cases h
    · rename_i v hv
      rw [ih _ h, strTreHooks_took raw remove call x hooks false hv]
      simp
    · rename_i v hv
      have e := strTreHooks_took raw remove call x hooks false hv
      cases hp : print x v.1 with
      | error e => rw [hp] at h; cases h
      | ok w =>
        rw [hp] at h
        rw [ih _ h, e]
        simp

/-- One TRE is taken by a hook, the next is printed. -/
example : strTres false (fun _ => false)
    (fun (h : Nat) x (u : Nat × List (Nat × Bool)) => (Except.ok (decide (h = x), u.1) : Except Err _).map
      fun r => (r.1, (r.2, if r.1 then u.2 ++ [(x, true)] else u.2)))
    (fun x u => (Except.ok u.1 : Except Err _).map fun v => (v, u.2 ++ [(x, false)]))
    [(3, [1, 3, 2]), (4, [2, 1, 3])] (0, []) = .ok (0, [(3, true), (4, false)]) := by decide

/-- Three hooks, of which the first is suppressed and the second takes the TRE. -/
example :
    strTreHooks true (fun h => h == 1) (loggedTre fun h (s : Nat) => .ok (h == 2, s + h)) [1, 2, 3]
      false (0, []) = .ok (true, 2, [(2, true)]) ∧
    runHooks (logged fun h (s : Nat) => .ok (s + h)) [1, 2, 3] (0, []) = .ok (6, [1, 2, 3]) ∧
    strHooks true (fun h => h == 1) (logged fun h (s : Nat) => .ok (s + h)) [1, 2, 3] (0, []) =
      .ok (5, [2, 3]) := by
  decide +kernel

end Verif
