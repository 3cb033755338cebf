import Verif.Defaults
import Verif.Props.Handle

/-!
C77: the sets of handlers and hooks that files and comparisons start with.
-/

namespace Verif
namespace Defaults

/-! ### Specification -/

/-- What a set of handlers holds, as a property of pairs. -/
abbrev Holds := HObj × Int → Prop

/-- What an operation on the set numbered `i` makes of what it holds. -/
def specOwn (i : Nat) (S : Holds) : Op → Holds
  | .add j h p => fun x => S x ∨ (j = i ∧ x = (h, p))
  | .discard j h => fun x => S x ∧ ¬ (j = i ∧ x.1 = h)
  | .clear j => fun x => S x ∧ j ≠ i
  | _ => S

/-- What an operation makes of the default set of the class `c`, if it is its own. -/
def specDefault (c : Cls) (S : Holds) : Op → Holds
  | .addDefault d h p => fun x => S x ∨ (d = c ∧ x = (h, p))
  | .discardDefault d h => fun x => S x ∧ ¬ (d = c ∧ x.1 = h)
  | .clearDefault d => fun x => S x ∧ d ≠ c
  | _ => S

/-- The class whose default set an operation asks for. -/
def Op.cls? : Op → Option Cls
  | .default c | .addDefault c _ _ | .discardDefault c _ | .clearDefault c | .file c | .diff c =>
    some c
  | _ => none

/-- The classes asked for by a program. -/
def Used (ops : List Op) (c : Cls) : Prop := ∃ op ∈ ops, op.cls? = some c

/-- The class `c` and the others a program uses have no used class in common that they derive
from (or are). -/
def Separate (mro : Cls → List Cls) (ops : List Op) (c : Cls) : Prop :=
  ∀ d, Used ops d → d ≠ c → ∀ e, Used ops e ∨ e = c → ¬ (e ∈ mro c ∧ e ∈ mro d)

/-- What the default set of a class holds when it is asked for. -/
def defaultOf (mro : Cls → List Cls) (s : State) (c : Cls) : Content := (ensure mro s c).2

/-- The handler given to an operation. -/
def Op.handler? : Op → Option HObj
  | .addDefault _ h _ | .discardDefault _ h | .add _ h _ | .discard _ h => some h
  | _ => none

/-- A program that names no handlers but those it has made itself. -/
def NamesOriginals (ops : List Op) : Prop := ∀ op ∈ ops, ∀ h, op.handler? = some h → h.copies = []

/-! ### Lemmas -/

theorem mem_insert {x y : HObj × Int} {c : Content} : x ∈ insert y c ↔ x ∈ c ∨ x = y := by
  unfold insert
  split
  · rename_i h
    exact ⟨.inl, fun h' => h'.elim id fun e => e ▸ h⟩
  · simp

theorem mem_remove {x : HObj × Int} {h : HObj} {c : Content} :
    x ∈ remove h c ↔ x ∈ c ∧ x.1 ≠ h := by
  simp [remove]

theorem ensure_own {mro : Cls → List Cls} {s : State} {c : Cls} :
    (ensure mro s c).1.own = s.own ∧ (ensure mro s c).1.deep = s.deep := by
  unfold ensure
  dsimp only
  split <;> exact ⟨rfl, rfl⟩

theorem onDefault_own {mro : Cls → List Cls} {s : State} {c : Cls} {f : Content → Content} :
    (onDefault mro s c f).own = s.own ∧ (onDefault mro s c f).deep = s.deep := by
  have := ensure_own (mro := mro) (s := s) (c := c)
  exact this

/-- One operation and the set `i`, which exists. -/
theorem step_own {mro : Cls → List Cls} {s : State} {i : Nat} {l : Content}
    (h : s.own[i]? = some l) (op : Op) :
    ∃ l', (step mro s op).own[i]? = some l' ∧ ∀ x, x ∈ l' ↔ specOwn i (· ∈ l) op x := by
  have hlt : i < s.own.length := by
    rcases Nat.lt_or_ge i s.own.length with h' | h'
    · exact h'
    · rw [List.getElem?_eq_none h'] at h; cases h
  have hmod : ∀ (j : Nat) (f : Content → Content),
      (s.own.modify j f)[i]? = some (if j = i then f l else l) := by
    intro j f
    rw [List.getElem?_modify, h]
    by_cases hji : j = i <;> simp [hji]
  cases op with
  | default c => exact ⟨l, by simp only [step, ensure_own.1, h], fun _ => Iff.rfl⟩
  | addDefault c g p => exact ⟨l, by simp only [step, onDefault_own.1, h], fun _ => Iff.rfl⟩
  | discardDefault c g => exact ⟨l, by simp only [step, onDefault_own.1, h], fun _ => Iff.rfl⟩
  | clearDefault c => exact ⟨l, by simp only [step, onDefault_own.1, h], fun _ => Iff.rfl⟩
  | file c =>
    refine ⟨l, ?_, fun _ => Iff.rfl⟩
    simp only [step, ensure_own.1]
    rw [List.getElem?_append_left hlt, h]
  | diff c =>
    refine ⟨l, ?_, fun _ => Iff.rfl⟩
    simp only [step, ensure_own.1]
    rw [List.getElem?_append_left hlt, h]
  | add j g p =>
    refine ⟨_, hmod j _, fun x => ?_⟩
    by_cases hji : j = i
    · simp [hji, specOwn, mem_insert]
    · simp [hji, specOwn]
  | discard j g =>
    refine ⟨_, hmod j _, fun x => ?_⟩
    by_cases hji : j = i
    · simp [hji, specOwn, mem_remove]
    · simp [hji, specOwn]
  | clear j =>
    refine ⟨_, hmod j _, fun x => ?_⟩
    by_cases hji : j = i
    · simp [hji, specOwn]
    · simp [hji, specOwn]

theorem specOwn_congr {i : Nat} {S T : Holds} (h : ∀ x, S x ↔ T x) (op : Op) (x : HObj × Int) :
    specOwn i S op x ↔ specOwn i T op x := by
  cases op <;> simp [specOwn, h]

theorem specDefault_congr {c : Cls} {S T : Holds} (h : ∀ x, S x ↔ T x) (op : Op) (x : HObj × Int) :
    specDefault c S op x ↔ specDefault c T op x := by
  cases op <;> simp [specDefault, h]

theorem foldl_congr {f : Holds → Op → Holds}
    (hf : ∀ {S T : Holds}, (∀ x, S x ↔ T x) → ∀ op x, f S op x ↔ f T op x)
    (ops : List Op) {S T : Holds} (h : ∀ x, S x ↔ T x) (x : HObj × Int) :
    ops.foldl f S x ↔ ops.foldl f T x := by
  induction ops generalizing S T with
  | nil => exact h x
  | cons op ops ih => exact ih (hf h op)

theorem run_own {mro : Cls → List Cls} (ops : List Op) {s : State} {i : Nat} {l : Content}
    (h : s.own[i]? = some l) :
    ∃ l', (run mro ops s).own[i]? = some l' ∧
      ∀ x, x ∈ l' ↔ ops.foldl (specOwn i) (· ∈ l) x := by
  induction ops generalizing s l with
  | nil => exact ⟨l, h, fun _ => Iff.rfl⟩
  | cons op ops ih =>
    obtain ⟨l1, h1, h2⟩ := step_own h op
    obtain ⟨l2, h3, h4⟩ := ih h1
    exact ⟨l2, h3, fun x => (h4 x).trans (foldl_congr (specOwn_congr) ops h2 x)⟩

/-! ### Theorems -/

section
variable {mro : Cls → List Cls}

/-- C77, files: the set of a new file holds what is registered by default when the file is made, and
from then on only what is done with this set changes it, whatever is done with the default sets and
the sets of other files and comparisons. -/
theorem C77_file (s : State) (c : Cls) (later : List Op) :
    ∃ l, (run mro (.file c :: later) s).own[s.own.length]? = some l ∧
      ∀ x, x ∈ l ↔ later.foldl (specOwn s.own.length) (· ∈ defaultOf mro s c) x := by
  refine run_own later ?_
  simp only [step, ensure_own.1, defaultOf]
  simp

/-- C77, comparisons: the set of a new `NitfDiff` holds, for each handler registered by default
when it is made, at the same priority one that does the same, and from then on only what is done
with this set changes it. -/
theorem C77_diff (s : State) (c : Cls) (later : List Op) :
    ∃ (start l : Content), (run mro (.diff c :: later) s).own[s.own.length]? = some l ∧
      (start.map fun x => (x.1.id, x.2)) = ((defaultOf mro s c).map fun x => (x.1.id, x.2)) ∧
      ∀ x, x ∈ l ↔ later.foldl (specOwn s.own.length) (· ∈ start) x := by
  have h0 : (step mro s (.diff c)).own[s.own.length]? =
      some (deepCopy s.deep (defaultOf mro s c)) := by
    simp only [step, ensure_own.1, ensure_own.2, defaultOf]
    simp
  obtain ⟨l, h1, h2⟩ := run_own (mro := mro) later h0
  exact ⟨_, l, h1, by simp [deepCopy, Function.comp_def], h2⟩

end

/-- What a default set holds, with the class it belongs to. -/
theorem owner_self {mro : Cls → List Cls} {s : State} {c : Cls}
    (h : ∀ e ∈ mro c, e ≠ c → s.defs e = none) : owner mro s c = c := by
  unfold owner
  match hf : (mro c).find? fun d => (s.defs d).isSome with
  | none => rfl
  | some d =>
    have h1 := List.find?_some hf
    have h2 := List.mem_of_find?_eq_some hf
    by_cases hd : d = c
    · exact hd
    · rw [h d h2 hd] at h1; cases h1

theorem owner_mem {mro : Cls → List Cls} {s : State} {c : Cls} (hc : c ∈ mro c) :
    owner mro s c ∈ mro c := by
  unfold owner
  match hf : (mro c).find? fun d => (s.defs d).isSome with
  | none => exact hc
  | some d => exact List.mem_of_find?_eq_some hf

theorem owner_used {mro : Cls → List Cls} {s : State} {c : Cls} :
    owner mro s c = c ∨ (s.defs (owner mro s c)).isSome := by
  unfold owner
  match hf : (mro c).find? fun d => (s.defs d).isSome with
  | none => exact .inl rfl
  | some d =>
    have := List.find?_some hf
    exact .inr this

/-- The default sets after an operation that asks for class `d`: only that of the owner changes. -/
theorem step_defs {mro : Cls → List Cls} {s : State} (op : Op) (e : Cls)
    (h : ∀ d, op.cls? = some d → e ≠ owner mro s d) : (step mro s op).defs e = s.defs e := by
  have ens : ∀ d, e ≠ owner mro s d → (ensure mro s d).1.defs e = s.defs e := by
    intro d hd
    unfold ensure
    dsimp only
    split
    · rfl
    · simp [hd]
  have ond : ∀ d (f : Content → Content), e ≠ owner mro s d →
      (onDefault mro s d f).defs e = s.defs e := by
    intro d f hd
    simp only [onDefault, if_neg hd]
    exact ens d hd
  cases op with
  | default d => exact ens d (h d rfl)
  | addDefault d g p => exact ond d _ (h d rfl)
  | discardDefault d g => exact ond d _ (h d rfl)
  | clearDefault d => exact ond d (fun _ => []) (h d rfl)
  | file d => exact ens d (h d rfl)
  | diff d => exact ens d (h d rfl)
  | add i g p => rfl
  | discard i g => rfl
  | clear i => rfl

/-- The default sets after an operation: that of the owner. -/
theorem step_defs_owner {mro : Cls → List Cls} {s : State} (op : Op) {c : Cls}
    (h : op.cls? = some c) (ho : owner mro s c = c) :
    ∃ l, (step mro s op).defs c = some l ∧
      ∀ x, x ∈ l ↔ specDefault c (· ∈ (s.defs c).getD []) op x := by
  have hl : (ensure mro s c).2 = (s.defs c).getD [] := by
    unfold ensure
    dsimp only
    rw [ho]
    match s.defs c with
    | none => rfl
    | some l => rfl
  have ens : (ensure mro s c).1.defs c = some ((s.defs c).getD []) := by
    unfold ensure
    dsimp only
    rw [ho]
    match hd : s.defs c with
    | none => simp
    | some l => simp [hd]
  have ond : ∀ f : Content → Content,
      (onDefault mro s c f).defs c = some (f ((s.defs c).getD [])) := by
    intro f
    simp only [onDefault, ho, if_true, hl]
  cases op with
  | default d => cases h; exact ⟨_, ens, fun _ => Iff.rfl⟩
  | addDefault d g p => cases h; exact ⟨_, ond _, fun x => by simp [specDefault, mem_insert]⟩
  | discardDefault d g => cases h; exact ⟨_, ond _, fun x => by simp [specDefault, mem_remove]⟩
  | clearDefault d => cases h; exact ⟨_, ond fun _ => [], fun x => by simp [specDefault]⟩
  | file d => cases h; exact ⟨_, ens, fun _ => Iff.rfl⟩
  | diff d => cases h; exact ⟨_, ens, fun _ => Iff.rfl⟩
  | add i g p => cases h
  | discard i g => cases h
  | clear i => cases h

theorem specDefault_other {c : Cls} {op : Op} (h : ∀ d, op.cls? = some d → d ≠ c) (S : Holds)
    (x : HObj × Int) : specDefault c S op x ↔ S x := by
  cases op with
  | addDefault d g p => simp [specDefault, h d rfl]
  | discardDefault d g => simp [specDefault, h d rfl]
  | clearDefault d => simp [specDefault, h d rfl]
  | _ => exact Iff.rfl

/-- C77, default sets: the default set of a class holds exactly what was registered through this
class and not taken out again, provided that the class has no ancestor in common with another that
is used whose own default set is used. -/
theorem C77_default_partial {mro : Cls → List Cls} (hm : ∀ c, c ∈ mro c) {ops : List Op} {c : Cls}
    (hs : Separate mro ops c) (x : HObj × Int) :
    x ∈ defaultOf mro (run mro ops {}) c ↔ ops.foldl (specDefault c) (fun _ => False) x := by
  -- the default sets that exist belong to classes used
  have inv : ∀ (rest done : List Op) (s : State) (S : Holds), done ++ rest = ops →
      (∀ e, (s.defs e).isSome → Used ops e) →
      (∀ y, y ∈ (s.defs c).getD [] ↔ S y) →
      (∀ e, ((run mro rest s).defs e).isSome → Used ops e) ∧
      ∀ y, y ∈ ((run mro rest s).defs c).getD [] ↔ rest.foldl (specDefault c) S y := by
    intro rest
    induction rest with
    | nil => intro done s S _ h1 h2; exact ⟨h1, h2⟩
    | cons op rest ih =>
      intro done s S hd h1 h2
      have hmem : op ∈ ops := by rw [← hd]; simp
      have hused : ∀ d, op.cls? = some d → Used ops d := fun d h => ⟨op, hmem, h⟩
      refine ih (done ++ [op]) (step mro s op) (specDefault c S op) (by simp [← hd]) ?_ ?_
      · intro e he
        by_cases hx : ∀ d, op.cls? = some d → e ≠ owner mro s d
        · rw [step_defs op e hx] at he
          exact h1 e he
        · have : ∃ d, op.cls? = some d ∧ e = owner mro s d := by
            refine Classical.byContradiction fun hn => hx fun d h1 h2 => hn ⟨d, h1, h2⟩
          obtain ⟨d, h3, h4⟩ := this
          rcases owner_used (mro := mro) (s := s) (c := d) with h5 | h5
          · rw [h4, h5]; exact hused d h3
          · rw [h4]; exact h1 _ h5
      · intro y
        by_cases hc : op.cls? = some c
        · have ho : owner mro s c = c := by
            refine owner_self fun e he hne => ?_
            match hde : s.defs e with
            | none => rfl
            | some l =>
              have hu := h1 e (by rw [hde]; rfl)
              exact absurd ⟨he, hm e⟩ (hs e hu hne e (.inl hu))
          obtain ⟨l, hl, h3⟩ := step_defs_owner op hc ho
          rw [hl, Option.getD_some, h3]
          exact specDefault_congr h2 op y
        · have h3 : ∀ d, op.cls? = some d → c ≠ owner mro s d := by
            intro d hd' he
            have hdc : d ≠ c := fun e => hc (e ▸ hd')
            have hmd : c ∈ mro d := by rw [he]; exact owner_mem (hm d)
            exact hs d (hused d hd') hdc c (.inr rfl) ⟨hm c, hmd⟩
          rw [step_defs op c h3, h2]
          exact (specDefault_other (fun d hd' (e : d = c) => hc (e ▸ hd')) S y).symm
  obtain ⟨h1, h2⟩ := inv ops [] {} (fun _ => False) rfl (by simp) (by simp)
  have ho : owner mro (run mro ops {}) c = c := by
    refine owner_self fun e he hne => ?_
    match hde : (run mro ops {}).defs e with
    | none => rfl
    | some l =>
      have hu := h1 e (by rw [hde]; rfl)
      exact absurd ⟨he, hm e⟩ (hs e hu hne e (.inl hu))
  rw [← h2 x]
  unfold defaultOf ensure
  dsimp only
  rw [ho]
  match (run mro ops {}).defs c with
  | none => exact Iff.rfl
  | some l => exact Iff.rfl

/-! ### Taking out a default handler -/

theorem ensure_both {mro : Cls → List Cls} {s : State}
    (hs : ∀ e l, s.defs e = some l → ∀ x ∈ l, x.1.copies = []) (d : Cls) :
    (∀ x ∈ (ensure mro s d).2, x.1.copies = []) ∧
      ∀ e l, (ensure mro s d).1.defs e = some l → ∀ x ∈ l, x.1.copies = [] := by
  unfold ensure
  dsimp only
  split
  · rename_i l hl
    exact ⟨hs _ l hl, hs⟩
  · refine ⟨by simp, fun e l hl => ?_⟩
    dsimp only at hl
    split at hl
    · cases hl; simp
    · exact hs e l hl

theorem ensure_originals {mro : Cls → List Cls} {s : State}
    (hs : ∀ e l, s.defs e = some l → ∀ x ∈ l, x.1.copies = []) (d : Cls) :
    ∀ x ∈ (ensure mro s d).2, x.1.copies = [] := (ensure_both hs d).1

theorem run_originals {mro : Cls → List Cls} : ∀ (ops : List Op), NamesOriginals ops → ∀ s : State,
    (∀ e l, s.defs e = some l → ∀ x ∈ l, x.1.copies = []) →
    ∀ e l, (run mro ops s).defs e = some l → ∀ x ∈ l, x.1.copies = [] := by
  have ond : ∀ (s : State), (∀ e l, s.defs e = some l → ∀ x ∈ l, x.1.copies = []) → ∀ d f,
      (∀ l, (∀ x ∈ l, x.1.copies = []) → ∀ x ∈ f l, x.1.copies = []) →
      ∀ e l, (onDefault mro s d f).defs e = some l → ∀ x ∈ l, x.1.copies = [] := by
    intro s hs d f hf e l hl
    simp only [onDefault] at hl
    split at hl
    · cases hl; exact hf _ (ensure_both hs d).1
    · exact (ensure_both hs d).2 e l hl
  intro ops
  induction ops with
  | nil => intro _ s hs; exact hs
  | cons op ops ih =>
    intro hn s hs
    refine ih (fun o ho => hn o (by simp [ho])) _ ?_
    have hop := hn op (by simp)
    cases op with
    | default d => exact (ensure_both hs d).2
    | addDefault d g p =>
      refine ond s hs d _ fun l hl x hx => ?_
      rcases mem_insert.mp hx with hx | rfl
      · exact hl x hx
      · exact hop g rfl
    | discardDefault d g => exact ond s hs d _ fun l hl x hx => hl x (mem_remove.mp hx).1
    | clearDefault d => exact ond s hs d (fun _ => []) fun l hl x hx => by cases hx
    | file d => exact (ensure_both hs d).2
    | diff d => exact (ensure_both hs d).2
    | add i g p => exact hs
    | discard i g => exact hs
    | clear i => exact hs

/-- The handlers of default sets are the ones that were registered, not copies. -/
theorem defaults_originals {mro : Cls → List Cls} {ops : List Op} (h : NamesOriginals ops) {c : Cls}
    {x : HObj × Int} (hx : x ∈ defaultOf mro (run mro ops {}) c) : x.1.copies = [] :=
  (ensure_both (run_originals ops h {} (by simp)) c).1 x hx

/-- The handlers in any set have come out of copies made so far. -/
theorem copies_below {mro : Cls → List Cls} {ops : List Op} (h : NamesOriginals ops) :
    (∀ e l, (run mro ops {}).defs e = some l → ∀ x ∈ l, ∀ k ∈ x.1.copies, k < (run mro ops {}).deep) ∧
    ∀ l ∈ (run mro ops {}).own, ∀ x ∈ l, ∀ k ∈ x.1.copies, k < (run mro ops {}).deep := by
  have hd : ∀ e l, (run mro ops {}).defs e = some l → ∀ x ∈ l, ∀ k ∈ x.1.copies,
      k < (run mro ops {}).deep := by
    intro e l hl x hx k hk
    have : x.1.copies = [] := run_originals ops h {} (by simp) e l hl x hx
    rw [this] at hk; cases hk
  refine ⟨hd, ?_⟩
  have main : ∀ (ops : List Op), NamesOriginals ops → ∀ s : State,
      (∀ e l, s.defs e = some l → ∀ x ∈ l, x.1.copies = []) →
      (∀ l ∈ s.own, ∀ x ∈ l, ∀ k ∈ x.1.copies, k < s.deep) →
      ∀ l ∈ (run mro ops s).own, ∀ x ∈ l, ∀ k ∈ x.1.copies, k < (run mro ops s).deep := by
    intro ops
    induction ops with
    | nil => intro _ s _ hs; exact hs
    | cons op ops ih =>
      intro hn s h1 h2
      refine ih (fun o ho => hn o (by simp [ho])) (step mro s op) ?_ ?_
      · exact run_originals (mro := mro) [op] (fun o ho => hn o (by
          rw [List.mem_singleton] at ho; simp [ho])) s h1
      · have hop := hn op (by simp)
        have hmod : ∀ (i : Nat) (f : Content → Content),
            (∀ l, (∀ x ∈ l, ∀ k ∈ x.1.copies, k < s.deep) → ∀ x ∈ f l, ∀ k ∈ x.1.copies,
              k < s.deep) →
            ∀ l ∈ s.own.modify i f, ∀ x ∈ l, ∀ k ∈ x.1.copies, k < s.deep := by
          intro i f hf l hl
          obtain ⟨j, hj⟩ := List.mem_iff_getElem?.mp hl
          rw [List.getElem?_modify] at hj
          obtain ⟨l0, hl0, rfl⟩ := Option.map_eq_some_iff.mp hj
          have := h2 l0 (List.mem_of_getElem? hl0)
          split
          · exact hf _ this
          · exact this
        cases op with
        | default d => simpa only [step, ensure_own.1, ensure_own.2] using h2
        | addDefault d g p => simpa only [step, onDefault_own.1, onDefault_own.2] using h2
        | discardDefault d g => simpa only [step, onDefault_own.1, onDefault_own.2] using h2
        | clearDefault d => simpa only [step, onDefault_own.1, onDefault_own.2] using h2
        | file d =>
          simp only [step, ensure_own.1, ensure_own.2, List.mem_append, List.mem_singleton]
          rintro l (hl | rfl) x hx k hk
          · exact h2 l hl x hx k hk
          · rw [ensure_originals h1 d x hx] at hk; cases hk
        | diff d =>
          simp only [step, ensure_own.1, ensure_own.2, List.mem_append, List.mem_singleton]
          rintro l (hl | rfl) x hx k hk
          · exact Nat.lt_succ_of_lt (h2 l hl x hx k hk)
          · obtain ⟨y, hy, rfl⟩ := List.mem_map.mp hx
            simp only [ensure_originals h1 d y hy, List.mem_singleton] at hk
            omega
        | add i g p =>
          refine hmod i _ fun l hl x hx k hk => ?_
          rcases mem_insert.mp hx with hx | rfl
          · exact hl x hx k hk
          · rw [hop g rfl] at hk; cases hk
        | discard i g => exact hmod i _ fun l hl x hx => hl x (mem_remove.mp hx).1
        | clear i => exact hmod i _ fun l hl x hx => by cases hx
  exact main ops h {} (by simp) (by simp)

/-- C77, the handlers in the set of a new `NitfDiff` are in no other set. -/
theorem C77_diff_new {mro : Cls → List Cls} {ops : List Op} (hn : NamesOriginals ops) (c : Cls) :
    ∃ l, (run mro (ops ++ [.diff c]) {}).own[(run mro ops {}).own.length]? = some l ∧
      ∀ x ∈ l, (∀ e d, (run mro ops {}).defs e = some d → ∀ y ∈ d, y.1 ≠ x.1) ∧
        ∀ d ∈ (run mro ops {}).own, ∀ y ∈ d, y.1 ≠ x.1 := by
  obtain ⟨h1, h2⟩ := copies_below (mro := mro) hn
  have hr : run mro (ops ++ [.diff c]) {} = step mro (run mro ops {}) (.diff c) := by
    simp [run, List.foldl_append]
  refine ⟨deepCopy (run mro ops {}).deep (defaultOf mro (run mro ops {}) c), ?_, fun x hx => ?_⟩
  · rw [hr]
    simp only [step, ensure_own.1, ensure_own.2, defaultOf]
    simp
  · obtain ⟨z, hz, rfl⟩ := List.mem_map.mp hx
    refine ⟨fun e d hd y hy he => ?_, fun d hd y hy he => ?_⟩
    · have := h1 e d hd y hy (run mro ops {}).deep (by rw [he]; simp)
      omega
    · have := h2 d hd y hy (run mro ops {}).deep (by rw [he]; simp)
      omega

/-- C77: a handler registered by default can be taken out of the set of a file. -/
theorem C77_file_discard {mro : Cls → List Cls} (s : State) (c : Cls) (h : HObj) :
    ∃ l, (run mro [.file c, .discard s.own.length h] s).own[s.own.length]? = some l ∧
      ∀ x, x ∈ l ↔ x ∈ defaultOf mro s c ∧ x.1 ≠ h := by
  obtain ⟨l, h1, h2⟩ := C77_file (mro := mro) s c [.discard s.own.length h]
  exact ⟨l, h1, fun x => by rw [h2]; simp [specOwn]⟩

/-- C77 violated ("individual ... might modify this", as it can for files): taking a handler that
is registered by default out of the set of a `NitfDiff` does nothing, whatever was done before. -/
theorem C77_diff_discard {mro : Cls → List Cls} {ops : List Op} (hn : NamesOriginals ops) (c : Cls)
    {h : HObj} {p : Int} (hd : (h, p) ∈ defaultOf mro (run mro ops {}) c) :
    let n := (run mro ops {}).own.length
    (run mro (ops ++ [.diff c, .discard n h]) {}).own[n]? =
      (run mro (ops ++ [.diff c]) {}).own[n]? := by
  intro n
  have h0 := defaults_originals hn hd
  have hcopies : h.copies = [] := h0
  simp only [run, List.foldl_append, List.foldl_cons, List.foldl_nil]
  generalize hs : List.foldl (step mro) {} ops = s
  have hn' : n = s.own.length := by rw [← hs]; rfl
  have h1 : (step mro s (.diff c)).own[n]? =
      some (deepCopy s.deep (defaultOf mro s c)) := by
    rw [hn']
    simp only [step, ensure_own.1, ensure_own.2, defaultOf]
    simp
  rw [h1]
  simp only [step] at h1 ⊢
  rw [List.getElem?_modify, h1]
  simp only [if_true, Option.map_eq_map, Option.map_some, Option.some.injEq]
  unfold remove
  rw [List.filter_eq_self]
  intro x hx
  obtain ⟨y, _, rfl⟩ := List.mem_map.mp hx
  refine decide_eq_true ?_
  intro e
  rw [← e] at hcopies
  cases hcopies

/-- C77 violated: registering with a `NitfDiff` a handler that is registered by default, which
changes nothing for a file, makes it have two that do the same: then what the handler accepts can
not be compared at all (unless a handler of higher priority accepts it). -/
theorem C77_diff_again {mro : Cls → List Cls} {ops : List Op} (hn : NamesOriginals ops) (c : Cls)
    {h : HObj} {p : Int} (hd : (h, p) ∈ defaultOf mro (run mro ops {}) c) {R : Type}
    {accepts : Nat → Except Err (Option R)} {r : R} (ha : accepts h.id = .ok (some r)) :
    let n := (run mro ops {}).own.length
    ∃ l, (run mro (ops ++ [.diff c, .add n h p]) {}).own[n]? = some l ∧
      ∀ g q r', q ≤ p → ¬ Winner (· ∈ l) (fun g : HObj => accepts g.id) g q r' := by
  intro n
  have hcopies : h.copies = [] := defaults_originals hn hd
  have hrun : run mro (ops ++ [.diff c, .add n h p]) {} =
      run mro [.diff c, .add n h p] (run mro ops {}) := by
    simp [run, List.foldl_append]
  have h0 : (step mro (run mro ops {}) (.diff c)).own[n]? =
      some (deepCopy (run mro ops {}).deep (defaultOf mro (run mro ops {}) c)) := by
    simp only [step, ensure_own.1, ensure_own.2, defaultOf, n]
    simp
  obtain ⟨l, h1, h2⟩ := step_own (mro := mro) h0 (.add n h p)
  refine ⟨l, by rw [hrun]; exact h1, ?_⟩
  have m1 : (h, p) ∈ l := (h2 _).mpr (.inr ⟨rfl, rfl⟩)
  have m2 : (({ h with copies := (run mro ops {}).deep :: h.copies }, p) : HObj × Int) ∈ l :=
    (h2 _).mpr (.inl (List.mem_map.mpr ⟨_, hd, rfl⟩))
  intro g q r' hq W
  rcases Int.lt_or_eq_of_le hq with hlt | rfl
  · have := W.higher h p m1 hlt
    simp only [ha] at this
    cases this
  · by_cases hg : g = h
    · have := W.others _ m2 (by
        intro e
        rw [hg] at e
        have := congrArg HObj.copies e
        simp at this)
      simp only [ha] at this
      cases this
    · have := W.others h m1 fun e => hg e.symm
      simp only [ha] at this
      cases this

/-! ### Cases, and what fails for classes that derive from one another -/

/-- 0 is `PriorityHandleSet`, 1 and 2 derive from it, 3 derives from 1. -/
def exMro : Cls → List Cls
  | 0 => [0]
  | 1 => [1, 0]
  | 2 => [2, 0]
  | 3 => [3, 1, 0]
  | c => [c]

example : ∀ c, c ∈ exMro c := by
  intro c
  match c with
  | 0 | 1 | 2 | 3 => decide
  | n + 4 => simp [exMro]

/-- Two classes as those of the package, with handlers registered for each, a file and a
comparison. -/
def exOps : List Op :=
  [.addDefault 1 ⟨1, []⟩ 0, .addDefault 2 ⟨2, []⟩ 0, .file 1, .addDefault 1 ⟨3, []⟩ 5, .diff 1,
   .add 0 ⟨4, []⟩ 1, .discardDefault 1 ⟨1, []⟩]

example : Separate exMro exOps 1 := by
  intro d hd hne e he h
  have hu : ∀ d, Used exOps d → d = 1 ∨ d = 2 := by
    rintro d ⟨op, ho, h⟩
    simp only [exOps, List.mem_cons, List.not_mem_nil, or_false] at ho
    rcases ho with rfl | rfl | rfl | rfl | rfl | rfl | rfl <;> simp [Op.cls?] at h <;> simp [← h]
  have hd2 : d = 2 := (hu d hd).resolve_left hne
  subst hd2
  have he' : e = 1 ∨ e = 2 := he.elim (hu e) .inl
  rcases he' with rfl | rfl
  · exact absurd h.2 (by decide)
  · exact absurd h.1 (by decide)

example : NamesOriginals exOps := by unfold NamesOriginals; decide

example :
    (run exMro exOps {}).own =
      [[(⟨1, []⟩, 0), (⟨4, []⟩, 1)], [(⟨1, [0]⟩, 0), (⟨3, [0]⟩, 5)]] ∧
    defaultOf exMro (run exMro exOps {}) 1 = [(⟨3, []⟩, 5)] ∧
    defaultOf exMro (run exMro exOps {}) 2 = [(⟨2, []⟩, 0)] := by decide

/-- C77_diff_discard, C77_diff_again: a default handler. -/
example : (⟨3, []⟩, 5) ∈ defaultOf exMro (run exMro exOps {}) 1 := by decide

/-- C77 violated: a class that derives from one that has a default set shares it, so that what is
registered for the derived class is there for the other too; if the derived class is asked first it
has a set of its own, and what is registered for the other is missing from it. -/
theorem C77_derived :
    defaultOf exMro (run exMro [.addDefault 1 ⟨1, []⟩ 0, .addDefault 3 ⟨2, []⟩ 0] {}) 1 =
      [(⟨1, []⟩, 0), (⟨2, []⟩, 0)] ∧
    defaultOf exMro (run exMro [.addDefault 3 ⟨2, []⟩ 0, .addDefault 1 ⟨1, []⟩ 0] {}) 1 =
      [(⟨1, []⟩, 0)] ∧
    defaultOf exMro (run exMro [.addDefault 3 ⟨2, []⟩ 0, .addDefault 1 ⟨1, []⟩ 0] {}) 3 =
      [(⟨2, []⟩, 0)] := by decide

/-- C77 violated: once `PriorityHandleSet` itself was asked for its default set, all classes that
were not asked yet share one set. -/
theorem C77_base :
    defaultOf exMro (run exMro [.default 0, .addDefault 1 ⟨1, []⟩ 0] {}) 2 =
      [(⟨1, []⟩, 0)] := by decide

end Defaults
end Verif
