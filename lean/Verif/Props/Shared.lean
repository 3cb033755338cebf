import Verif.Shared

/- C75: the headers of a segment and of its data (model in `Verif/Shared.lean`). -/

namespace Verif

variable {H : Type}

/-! ### Specification -/

/-- The operations of creating data and segments, reading, and setting headers or their fields:
everything but assigning `data` and delta files. -/
def ShareOp.plain : ShareOp H → Prop
  | .assign .. => False
  | .delta .. => False
  | .found .. => False
  | .share _ => False
  | _ => True

/-- A segment and its data show the same header objects. -/
def Agree (o : Objs H) (s : Nat) : Prop :=
  ∀ d, o.dataOf s = some d →
    o.subOf (.data d) = o.subOf (.seg s) ∧ o.userOf (.data d) = o.userOf (.seg s) ∧
      o.subOf (.seg s) ≠ none

/-- The content of `x.subheader`. -/
def shows (o : Objs H) (w : Who) : Option H := (o.subOf w).bind fun r => o.hdrs[r]?

/-- The content of `x.user_subheader`; `some none` when it is `None`. -/
def showsUser (o : Objs H) (w : Who) : Option (Option H) :=
  (o.userOf w).bind fun u =>
    match u with
    | none => some none
    | some r => (o.hdrs[r]?).map some

/-- The objects that a sequence of plain operations ties together: a segment made from data, and the
data objects made in reading a segment. `nd` and `ns` count the data objects and segments so far. -/
def ties : Nat → Nat → List (ShareOp H) → List (Who × Who)
  | _, _, [] => []
  | nd, ns, .newData _ _ :: r => ties (nd + 1) ns r
  | nd, ns, .newSeg _ none :: r => ties nd (ns + 1) r
  | nd, ns, .newSeg _ (some d) :: r => (.seg ns, .data d) :: ties nd (ns + 1) r
  | nd, ns, .read s n _ :: r =>
    (List.range n).map (fun i => (Who.data (nd + i), Who.seg s)) ++ ties (nd + n) ns r
  | nd, ns, _ :: r => ties nd ns r

/-- Tied together, directly or through others. -/
inductive Tied (t : List (Who × Who)) : Who → Who → Prop
  | refl (a) : Tied t a a
  | tie {a b} : (a, b) ∈ t → Tied t a b
  | symm {a b} : Tied t a b → Tied t b a
  | trans {a b c} : Tied t a b → Tied t b c → Tied t a c

/-- The headers that an operation installs are objects no segment or data object has. -/
def UsesNew (o : Objs H) : ShareOp H → Prop
  | .setSub _ r => ∀ x ∈ o.shared, x.sub ≠ r ∧ x.user ≠ some r
  | .setUser _ (some r) => ∀ x ∈ o.shared, x.sub ≠ r ∧ x.user ≠ some r
  | _ => True

/-- Each operation of the sequence installs only new headers. -/
def RunsNew (o : Objs H) : List (ShareOp H) → Prop
  | [] => True
  | a :: r => UsesNew o a ∧ ∀ o', o.step a = .ok o' → RunsNew o' r

/-- The states of all sessions. -/
def Reachable (o : Objs H) : Prop := ∃ as, Objs.empty.run as = .ok o

/-- The states of the sessions that only install new headers. -/
def ReachableNew (o : Objs H) : Prop := ∃ as, RunsNew Objs.empty as ∧ Objs.empty.run as = .ok o

/-! ### Well-formed states -/

/-- References point to objects. -/
structure WF (o : Objs H) : Prop where
  sub : ∀ x ∈ o.shared, x.sub < o.hdrs.length
  user : ∀ x ∈ o.shared, ∀ r, x.user = some r → r < o.hdrs.length
  data : ∀ h ∈ o.datas, h < o.shared.length
  seg : ∀ g ∈ o.segs, g.shared < o.shared.length
  segData : ∀ g ∈ o.segs, ∀ d, g.data = some d → d < o.datas.length

theorem WF.empty : WF (Objs.empty : Objs H) := by
  constructor <;> simp [Objs.empty]

theorem newShared_shared (o : Objs H) (h : H) (u : Option H) :
    ∃ x, (o.newShared h u).shared = o.shared ++ [x] ∧ x.sub = o.hdrs.length ∧
      (x.user = u.map fun _ => o.hdrs.length + 1) := by
  cases u <;> exact ⟨_, rfl, rfl, rfl⟩

theorem newShared_hdrs (o : Objs H) (h : H) (u : Option H) :
    (o.newShared h u).hdrs = o.hdrs ++ h :: u.toList := by
  cases u <;> rfl

theorem newShared_datas (o : Objs H) (h : H) (u : Option H) :
    (o.newShared h u).datas = o.datas := by
  cases u <;> rfl

theorem newShared_segs (o : Objs H) (h : H) (u : Option H) :
    (o.newShared h u).segs = o.segs := by
  cases u <;> rfl

theorem WF.newShared {o : Objs H} (w : WF o) (h : H) (u : Option H) : WF (o.newShared h u) := by
  obtain ⟨x, hx, h1, h2⟩ := newShared_shared o h u
  constructor
  · intro y hy
    rw [hx] at hy
    rw [newShared_hdrs]
    rcases List.mem_append.mp hy with hy | hy
    · have := w.sub y hy
      simp
      omega
    · simp at hy
      subst hy
      simp
      omega
  · intro y hy r hr
    rw [hx] at hy
    rw [newShared_hdrs]
    rcases List.mem_append.mp hy with hy | hy
    · have := w.user y hy r hr
      simp
      omega
    · simp at hy
      subst hy
      rw [h2] at hr
      cases u with
      | none => simp at hr
      | some v =>
        simp at hr
        simp
        omega
  · rw [newShared_datas, hx]
    intro d hd
    have := w.data d hd
    simp
    omega
  · rw [newShared_segs, hx]
    intro d hd
    have := w.seg d hd
    simp
    omega
  · rw [newShared_segs, newShared_datas]
    exact w.segData

theorem mem_modify {α} {l : List α} {i : Nat} {f : α → α} {x : α} (h : x ∈ l.modify i f) :
    x ∈ l ∨ ∃ y ∈ l, x = f y := by
  obtain ⟨j, hj, rfl⟩ := List.mem_iff_getElem.mp h
  rw [List.getElem_modify]
  by_cases hij : i = j
  · rw [if_pos hij]
    exact .inr ⟨_, List.getElem_mem _, rfl⟩
  · rw [if_neg hij]
    exact .inl (List.getElem_mem _)

theorem mem_set' {α} {l : List α} {i : Nat} {a x : α} (h : x ∈ l.set i a) : x ∈ l ∨ x = a :=
  List.mem_or_eq_of_mem_set h

theorem WF.step {o o' : Objs H} (w : WF o) (a : ShareOp H) (h : o.step a = .ok o') : WF o' := by
  cases a with
  | header v =>
    simp only [Objs.step, Except.ok.injEq] at h
    subst h
    exact ⟨fun x hx => by have := w.sub x hx; simp; omega,
      fun x hx r hr => by have := w.user x hx r hr; simp; omega, w.data, w.seg, w.segData⟩
  | newData v u =>
    simp only [Objs.step, Except.ok.injEq] at h
    subst h
    have w' := w.newShared v u
    obtain ⟨x, hx, -, -⟩ := newShared_shared o v u
    refine ⟨w'.sub, w'.user, ?_, w'.seg, ?_⟩
    · intro d hd
      rcases List.mem_append.mp hd with hd | hd
      · exact w'.data d hd
      · simp at hd
        subst hd
        simp [hx]
    · intro g hg d hd
      have := w'.segData g hg d hd
      simp
      omega
  | newSeg v d =>
    cases d with
    | some d =>
      simp only [Objs.step] at h
      split at h
      · exact nomatch h
      · rename_i sh hsh
        simp only [Except.ok.injEq] at h
        subst h
        have hlt : d < o.datas.length := by
          have := List.getElem?_eq_some_iff.mp hsh
          exact this.1
        refine ⟨w.sub, w.user, w.data, ?_, ?_⟩
        · intro g hg
          rcases List.mem_append.mp hg with hg | hg
          · exact w.seg g hg
          · simp at hg
            subst hg
            exact w.data _ (List.mem_of_getElem? hsh)
        · intro g hg e he
          rcases List.mem_append.mp hg with hg | hg
          · exact w.segData g hg e he
          · simp at hg
            subst hg
            simp at he
            subst he
            exact hlt
    | none =>
      simp only [Objs.step, Except.ok.injEq] at h
      subst h
      have w' := w.newShared v none
      refine ⟨w'.sub, w'.user, w'.data, ?_, ?_⟩
      · intro g hg
        rcases List.mem_append.mp hg with hg | hg
        · exact w'.seg g hg
        · simp at hg
          subst hg
          simp [Objs.newShared]
      · intro g hg e he
        rcases List.mem_append.mp hg with hg | hg
        · exact w'.segData g hg e he
        · simp at hg
          subst hg
          simp at he
  | read s n fd =>
    simp only [Objs.step] at h
    split at h
    · exact nomatch h
    · rename_i g hg
      have w1 : WF (o.candidates g.shared n) := by
        refine ⟨w.sub, w.user, ?_, w.seg, ?_⟩
        · intro d hd
          rcases List.mem_append.mp hd with hd | hd
          · exact w.data d hd
          · rw [(List.mem_replicate.mp hd).2]
            exact w.seg g (List.mem_of_getElem? hg)
        · intro k hk d hd
          have := w.segData k hk d hd
          simp [Objs.candidates]
          omega
      split at h
      · rename_i hc
        simp only [Except.ok.injEq] at h
        subst h
        refine ⟨w1.sub, w1.user, w1.data, ?_, ?_⟩
        · intro k hk
          rcases mem_set' hk with hk | hk
          · exact w1.seg k hk
          · subst hk
            exact w1.seg g (List.mem_of_getElem? hg)
        · intro k hk d hd
          rcases mem_set' hk with hk | hk
          · exact w1.segData k hk d hd
          · subst hk
            simp at hd
            simp [Objs.candidates]
            omega
      · simp only [Except.ok.injEq] at h
        subst h
        exact w1
  | setSub x r =>
    simp only [Objs.step] at h
    split at h
    · exact nomatch h
    · rename_i k hk
      split at h
      · rename_i hr
        simp only [Except.ok.injEq] at h
        subst h
        refine ⟨?_, ?_, ?_, ?_, w.segData⟩
        · intro y hy
          rcases mem_modify hy with hy | ⟨z, hz, rfl⟩
          · exact w.sub y hy
          · exact hr
        · intro y hy
          rcases mem_modify hy with hy | ⟨z, hz, rfl⟩
          · exact w.user y hy
          · exact w.user z hz
        · simpa using w.data
        · simpa using w.seg
      · exact nomatch h
  | setUser x r =>
    simp only [Objs.step] at h
    split at h
    · exact nomatch h
    · rename_i k hk
      split at h
      · rename_i hr
        simp only [Except.ok.injEq] at h
        subst h
        refine ⟨?_, ?_, ?_, ?_, w.segData⟩
        · intro y hy
          rcases mem_modify hy with hy | ⟨z, hz, rfl⟩
          · exact w.sub y hy
          · exact w.sub z hz
        · intro y hy
          rcases mem_modify hy with hy | ⟨z, hz, rfl⟩
          · exact w.user y hy
          · intro i hi
            exact hr i hi
        · simpa using w.data
        · simpa using w.seg
      · exact nomatch h
  | change x f =>
    simp only [Objs.step] at h
    split at h
    · exact nomatch h
    · simp only [Except.ok.injEq] at h
      subst h
      exact ⟨by simpa using w.sub, by simpa using w.user, w.data, w.seg, w.segData⟩
  | changeUser x f =>
    simp only [Objs.step] at h
    split at h
    · simp only [Except.ok.injEq] at h
      subst h
      exact ⟨by simpa using w.sub, by simpa using w.user, w.data, w.seg, w.segData⟩
    · exact nomatch h
  | assign s d =>
    simp only [Objs.step] at h
    split at h
    · exact nomatch h
    · rename_i g hg
      split at h
      · rename_i hd
        simp only [Except.ok.injEq] at h
        subst h
        refine ⟨w.sub, w.user, w.data, ?_, ?_⟩
        · intro k hk
          rcases mem_set' hk with hk | hk
          · exact w.seg k hk
          · subst hk
            exact w.seg g (List.mem_of_getElem? hg)
        · intro k hk e he
          rcases mem_set' hk with hk | hk
          · exact w.segData k hk e he
          · subst hk
            exact hd e he
      · exact nomatch h
  | delta s incl strip =>
    simp only [Objs.step] at h
    split at h
    · exact nomatch h
    rename_i g hg
    split at h
    · exact nomatch h
    rename_i x hx
    split at h
    · exact nomatch h
    rename_i v hv
    have w1 := w.newShared (strip v) (x.user.bind fun i => o.hdrs[i]?)
    obtain ⟨x1, hx1, -, -⟩ := newShared_shared o (strip v) (x.user.bind fun i => o.hdrs[i]?)
    have plain : ∀ o1 : Objs H, WF o1 → ∀ n, n < o1.shared.length →
        WF { o1 with segs := o1.segs ++ [⟨n, none, none⟩] } := by
      intro o1 w1 n hn
      refine ⟨w1.sub, w1.user, w1.data, ?_, ?_⟩
      · intro k hk
        rcases List.mem_append.mp hk with hk | hk
        · exact w1.seg k hk
        · simp at hk
          subst hk
          exact hn
      · intro k hk e he
        rcases List.mem_append.mp hk with hk | hk
        · exact w1.segData k hk e he
        · simp at hk
          subst hk
          simp at he
    split at h
    · split at h
      · simp only [Except.ok.injEq] at h
        subst h
        exact plain _ w1 _ (by simp [hx1])
      · split at h
        · exact nomatch h
        split at h
        · exact nomatch h
        rename_i y hy
        split at h
        · exact nomatch h
        rename_i k hk
        simp only [Except.ok.injEq] at h
        subst h
        have w2 := w1.newShared k (y.user.bind fun i => o.hdrs[i]?)
        obtain ⟨x2, hx2, -, -⟩ := newShared_shared
          (o.newShared (strip v) (x.user.bind fun i => o.hdrs[i]?)) k (y.user.bind fun i => o.hdrs[i]?)
        refine ⟨w2.sub, w2.user, ?_, ?_, ?_⟩
        · intro d hd
          rcases List.mem_append.mp hd with hd | hd
          · exact w2.data d hd
          · simp at hd
            subst hd
            simp [hx2, hx1]
        · intro j hj
          rcases List.mem_append.mp hj with hj | hj
          · exact w2.seg j hj
          · simp at hj
            subst hj
            simp [hx2, hx1]
        · intro j hj e he
          rcases List.mem_append.mp hj with hj | hj
          · have := w2.segData j hj e he
            simp
            omega
          · simp at hj
            subst hj
            simp at he
            simp [newShared_datas]
            omega
    · simp only [Except.ok.injEq] at h
      subst h
      exact plain _ w1 _ (by simp [hx1])
  | found s b =>
    simp only [Objs.step] at h
    split at h
    · exact nomatch h
    rename_i g hg
    split at h
    · simp only [Except.ok.injEq] at h
      subst h
      exact w
    · split at h
      · simp only [Except.ok.injEq] at h
        subst h
        refine ⟨w.sub, w.user, w.data, ?_, ?_⟩
        · intro k hk
          rcases mem_set' hk with hk | hk
          · exact w.seg k hk
          · subst hk
            exact w.seg g (List.mem_of_getElem? hg)
        · intro k hk e he
          rcases mem_set' hk with hk | hk
          · exact w.segData k hk e he
          · subst hk
            exact w.segData g (List.mem_of_getElem? hg) e he
      · exact nomatch h
  | share s =>
    simp only [Objs.step] at h
    split at h
    · exact nomatch h
    rename_i g hg
    split at h
    · exact nomatch h
    · simp only [Except.ok.injEq] at h
      subst h
      refine ⟨w.sub, w.user, ?_, w.seg, ?_⟩
      · intro e he
        rcases mem_set' he with he | he
        · exact w.data e he
        · subst he
          exact w.seg g (List.mem_of_getElem? hg)
      · intro k hk e he
        simpa using w.segData k hk e he

theorem WF.run {o o' : Objs H} (w : WF o) (as : List (ShareOp H)) (h : o.run as = .ok o') : WF o' := by
  induction as generalizing o with
  | nil =>
    simp only [Objs.run, Except.ok.injEq] at h
    exact h ▸ w
  | cons a r ih =>
    simp only [Objs.run] at h
    split at h
    · exact nomatch h
    · rename_i o1 h1
      exact ih (w.step a h1) h

theorem Reachable.wf {o : Objs H} (r : Reachable o) : WF o := by
  obtain ⟨as, h⟩ := r
  exact WF.empty.run as h

/-! ### Sessions of plain operations -/

/-- A segment and its data have the same shared header. -/
def SameShared (o : Objs H) : Prop :=
  ∀ g ∈ o.segs, g.merge = none ∧ ∀ d, g.data = some d → o.datas[d]? = some g.shared

theorem SameShared.step {o o' : Objs H} (w : WF o) (p : SameShared o) (a : ShareOp H) (ha : a.plain)
    (h : o.step a = .ok o') : SameShared o' := by
  cases a with
  | header v =>
    simp only [Objs.step, Except.ok.injEq] at h
    subst h
    exact p
  | newData v u =>
    simp only [Objs.step, Except.ok.injEq] at h
    subst h
    intro g hg
    simp only [newShared_segs] at hg
    refine ⟨(p g hg).1, fun d hd => ?_⟩
    have hlt := w.segData g hg d hd
    have := (p g hg).2 d hd
    simp only [newShared_datas]
    rw [List.getElem?_append_left hlt]
    exact this
  | newSeg v d =>
    cases d with
    | some d =>
      simp only [Objs.step] at h
      split at h
      · exact nomatch h
      · rename_i sh hsh
        simp only [Except.ok.injEq] at h
        subst h
        intro g hg
        rcases List.mem_append.mp hg with hg | hg
        · exact p g hg
        · simp at hg
          subst hg
          refine ⟨rfl, fun e he => ?_⟩
          simp at he
          subst he
          exact hsh
    | none =>
      simp only [Objs.step, Except.ok.injEq] at h
      subst h
      intro g hg
      rcases List.mem_append.mp hg with hg | hg
      · simp only [newShared_segs] at hg
        simpa [newShared_datas] using p g hg
      · simp at hg
        subst hg
        exact ⟨rfl, fun e he => by simp at he⟩
  | read s n fd =>
    simp only [Objs.step] at h
    split at h
    · exact nomatch h
    · rename_i g hg
      have p1 : SameShared (o.candidates g.shared n) := by
        intro k hk
        refine ⟨(p k hk).1, fun d hd => ?_⟩
        simp only [Objs.candidates]
        rw [List.getElem?_append_left (w.segData k hk d hd)]
        exact (p k hk).2 d hd
      split at h
      · rename_i hc
        simp only [Except.ok.injEq] at h
        subst h
        intro k hk
        rcases mem_set' hk with hk | hk
        · exact p1 k hk
        · subst hk
          refine ⟨(p g (List.mem_of_getElem? hg)).1, fun d hd => ?_⟩
          simp at hd
          subst hd
          simp only [Objs.candidates]
          rw [List.getElem?_append_right (by omega), List.getElem?_replicate, if_pos (by omega)]
      · simp only [Except.ok.injEq] at h
        subst h
        exact p1
  | setSub x r =>
    simp only [Objs.step] at h
    split at h
    · exact nomatch h
    · split at h
      · simp only [Except.ok.injEq] at h
        subst h
        exact p
      · exact nomatch h
  | setUser x r =>
    simp only [Objs.step] at h
    split at h
    · exact nomatch h
    · split at h
      · simp only [Except.ok.injEq] at h
        subst h
        exact p
      · exact nomatch h
  | change x f =>
    simp only [Objs.step] at h
    split at h
    · exact nomatch h
    · simp only [Except.ok.injEq] at h
      subst h
      exact p
  | changeUser x f =>
    simp only [Objs.step] at h
    split at h
    · simp only [Except.ok.injEq] at h
      subst h
      exact p
    · exact nomatch h
  | assign | delta | found | share => exact ha.elim

theorem SameShared.run {o o' : Objs H} (w : WF o) (p : SameShared o) (as : List (ShareOp H))
    (ha : ∀ a ∈ as, a.plain) (h : o.run as = .ok o') : SameShared o' := by
  induction as generalizing o with
  | nil =>
    simp only [Objs.run, Except.ok.injEq] at h
    exact h ▸ p
  | cons a r ih =>
    simp only [Objs.run] at h
    split at h
    · exact nomatch h
    · rename_i o1 h1
      exact ih (w.step a h1) (p.step w a (ha a (by simp)) h1)
        (fun b hb => ha b (List.mem_cons_of_mem _ hb)) h

theorem WF.shared_some {o : Objs H} (w : WF o) {x : Who} {h : Nat} (hx : o.sharedOf x = some h) :
    ∃ y, o.shared[h]? = some y := by
  have hlt : h < o.shared.length := by
    cases x with
    | seg s =>
      simp only [Objs.sharedOf, Option.map_eq_some_iff] at hx
      obtain ⟨g, hg, rfl⟩ := hx
      exact w.seg g (List.mem_of_getElem? hg)
    | data d => exact w.data h (List.mem_of_getElem? hx)
  exact ⟨_, List.getElem?_eq_getElem hlt⟩

/-- Shared headers agree when data and segment have the same one. -/
theorem agree_of_shared {o : Objs H} (w : WF o) {s d : Nat} {g : SegObj} (hg : o.segs[s]? = some g)
    (hd : o.datas[d]? = some g.shared) :
    o.subOf (.data d) = o.subOf (.seg s) ∧ o.userOf (.data d) = o.userOf (.seg s) ∧
      o.subOf (.seg s) ≠ none := by
  have h1 : o.sharedOf (.seg s) = some g.shared := by simp [Objs.sharedOf, hg]
  have h2 : o.sharedOf (.data d) = some g.shared := hd
  obtain ⟨y, hy⟩ := w.shared_some h1
  refine ⟨?_, ?_, ?_⟩
  · simp only [Objs.subOf, h1, h2]
  · simp only [Objs.userOf, h1, h2]
  · simp [Objs.subOf, h1, hy]

/-! ### C75 -/

/-- In every session of plain operations a segment and its data show the same subheader and user
subheader. -/
theorem C75_agree_partial (as : List (ShareOp H)) (ha : ∀ a ∈ as, a.plain) {o : Objs H}
    (h : Objs.empty.run as = .ok o) (s : Nat) : Agree o s := by
  have w := WF.empty.run as h
  have p : SameShared o := SameShared.run WF.empty (by intro g hg; simp [Objs.empty] at hg) as ha h
  intro d hd
  simp only [Objs.dataOf] at hd
  split at hd
  · exact nomatch hd
  · rename_i g hg
    have hp := p g (List.mem_of_getElem? hg)
    split at hd
    · rename_i e he
      simp only [Option.some.injEq] at hd
      subst hd
      exact agree_of_shared w hg (hp.2 _ he)
    · rw [hp.1] at hd
      exact nomatch hd

/-- Operations that set a header of `x` or a field in it. -/
inductive Through (x : Who) : ShareOp H → Prop
  | setSub (r) : Through x (.setSub x r)
  | setUser (r) : Through x (.setUser x r)
  | change (f) : Through x (.change x f)
  | changeUser (f) : Through x (.changeUser x f)

/-- What is set through one object is seen through every object with which it has its shared header:
the new subheader or user subheader, the changed field, and the other header as before. -/
theorem C75_seen {o : Objs H} (re : Reachable o) (x y : Who) (hxy : o.sharedOf x = o.sharedOf y)
    {a : ShareOp H} {o' : Objs H} (h : o.step a = .ok o') :
    (∀ r, a = .setSub x r →
      o'.subOf y = some r ∧ o'.userOf y = o.userOf y ∧ shows o' y = o.hdrs[r]?) ∧
    (∀ r, a = .setUser x r → o'.userOf y = some r ∧ o'.subOf y = o.subOf y ∧ shows o' y = shows o y) ∧
    (∀ f, a = .change x f → shows o' y = (shows o y).map f ∧ o'.userOf y = o.userOf y) ∧
    (∀ f, a = .changeUser x f → showsUser o' y = (showsUser o y).map (Option.map f)) := by
  have w := re.wf
  refine ⟨?_, ?_, ?_, ?_⟩
  · rintro r rfl
    simp only [Objs.step] at h
    split at h
    · exact nomatch h
    · rename_i k hk
      split at h
      · simp only [Except.ok.injEq] at h
        subst h
        obtain ⟨z, hz⟩ := w.shared_some hk
        have hy : ({ o with shared := o.shared.modify k fun x => { x with sub := r } } : Objs H).sharedOf y =
            some k := by
          rw [← hk, hxy]
          cases y <;> rfl
        have hy' : o.sharedOf y = some k := hxy ▸ hk
        have hs : (o.shared.modify k fun x => { x with sub := r })[k]? = some { z with sub := r } := by
          simp [hz]
        refine ⟨?_, ?_, ?_⟩
        · simp only [Objs.subOf, hy, Option.bind_some, hs, Option.map_some]
        · simp only [Objs.userOf, hy, Option.bind_some, hs, Option.map_some, hy', hz]
        · simp only [shows, Objs.subOf, hy, Option.bind_some, hs, Option.map_some]
      · exact nomatch h
  · rintro r rfl
    simp only [Objs.step] at h
    split at h
    · exact nomatch h
    · rename_i k hk
      split at h
      · simp only [Except.ok.injEq] at h
        subst h
        obtain ⟨z, hz⟩ := w.shared_some hk
        have hy : ({ o with shared := o.shared.modify k fun x => { x with user := r } } : Objs H).sharedOf y =
            some k := by
          rw [← hk, hxy]
          cases y <;> rfl
        have hy' : o.sharedOf y = some k := hxy ▸ hk
        have hs : (o.shared.modify k fun x => { x with user := r })[k]? = some { z with user := r } := by
          simp [hz]
        refine ⟨?_, ?_, ?_⟩
        · simp only [Objs.userOf, hy, Option.bind_some, hs, Option.map_some]
        · simp only [Objs.subOf, hy, Option.bind_some, hs, Option.map_some, hy', hz]
        · simp only [shows, Objs.subOf, hy, Option.bind_some, hs, Option.map_some, hy', hz]
      · exact nomatch h
  · rintro f rfl
    simp only [Objs.step] at h
    split at h
    · exact nomatch h
    · rename_i r hr
      simp only [Except.ok.injEq] at h
      subst h
      have hr' : o.subOf y = some r := by
        rw [← hr]
        simp only [Objs.subOf, hxy]
      have e1 : ({ o with hdrs := o.hdrs.modify r f } : Objs H).subOf y = o.subOf y := by
        cases y <;> rfl
      have e2 : ({ o with hdrs := o.hdrs.modify r f } : Objs H).userOf y = o.userOf y := by
        cases y <;> rfl
      refine ⟨?_, e2⟩
      simp only [shows, e1, hr', Option.bind_some, List.getElem?_modify]
      simp
  · rintro f rfl
    simp only [Objs.step] at h
    split at h
    · rename_i r hr
      simp only [Except.ok.injEq] at h
      subst h
      have hr' : o.userOf y = some (some r) := by
        rw [← hr]
        simp only [Objs.userOf, hxy]
      have e2 : ({ o with hdrs := o.hdrs.modify r f } : Objs H).userOf y = o.userOf y := by
        cases y <;> rfl
      simp only [showsUser, e2, hr', Option.bind_some, List.getElem?_modify]
      simp [Function.comp_def]
    · exact nomatch h

/-! ### Which objects share -/

/-- The ties so far are exactly the sharing so far. -/
structure TieInv (T : List (Who × Who)) (o : Objs H) : Prop where
  same : ∀ p ∈ T, ∃ x, o.sharedOf p.1 = some x ∧ o.sharedOf p.2 = some x
  tied : ∀ a b x, o.sharedOf a = some x → o.sharedOf b = some x → Tied T a b

theorem Tied.mono {T T' : List (Who × Who)} (hT : ∀ p ∈ T, p ∈ T') {a b : Who} (h : Tied T a b) :
    Tied T' a b := by
  induction h with
  | refl a => exact .refl a
  | tie h => exact .tie (hT _ h)
  | symm _ ih => exact .symm ih
  | trans _ _ ih1 ih2 => exact .trans ih1 ih2

theorem TieInv.shared {T : List (Who × Who)} {o : Objs H} (inv : TieInv T o) {a b : Who}
    (h : Tied T a b) : o.sharedOf a = o.sharedOf b := by
  induction h with
  | refl a => rfl
  | tie h =>
    obtain ⟨x, h1, h2⟩ := inv.same _ h
    exact h1.trans h2.symm
  | symm _ ih => exact ih.symm
  | trans _ _ ih1 ih2 => exact ih1.trans ih2

/-- One step of the sharing. -/
theorem TieInv.next {T : List (Who × Who)} {o o' : Objs H} (inv : TieInv T o) (N : List (Who × Who))
    (hN : ∀ p ∈ N, ∃ x, o'.sharedOf p.1 = some x ∧ o'.sharedOf p.2 = some x)
    (old : ∀ w x, o.sharedOf w = some x → o'.sharedOf w = some x)
    (new : ∀ w x, o'.sharedOf w = some x → o.sharedOf w = some x ∨
      (∃ b, (w, b) ∈ N ∧ o.sharedOf b = some x) ∨ ∀ w', o'.sharedOf w' = some x → w' = w) :
    TieInv (T ++ N) o' := by
  constructor
  · intro p hp
    rcases List.mem_append.mp hp with hp | hp
    · obtain ⟨x, h1, h2⟩ := inv.same p hp
      exact ⟨x, old _ _ h1, old _ _ h2⟩
    · exact hN p hp
  · -- every object is tied to one that was there before, or alone
    have aux : ∀ w x, o'.sharedOf w = some x →
        (∃ b, Tied (T ++ N) w b ∧ o.sharedOf b = some x) ∨ ∀ w', o'.sharedOf w' = some x → w' = w := by
      intro w x hw
      rcases new w x hw with h | ⟨b, hb, h⟩ | h
      · exact .inl ⟨w, .refl w, h⟩
      · exact .inl ⟨b, .tie (List.mem_append_right _ hb), h⟩
      · exact .inr h
    intro a b x ha hb
    rcases aux a x ha with ⟨a', h1, h2⟩ | h
    · rcases aux b x hb with ⟨b', h3, h4⟩ | h
      · exact .trans h1 (.trans ((inv.tied a' b' x h2 h4).mono fun p hp => List.mem_append_left _ hp)
          (.symm h3))
      · rw [h a ha]
        exact .refl b
    · rw [h b hb]
      exact .refl a

/-- The ties one operation adds. -/
def tiesOf (nd ns : Nat) : ShareOp H → List (Who × Who)
  | .newSeg _ (some d) => [(.seg ns, .data d)]
  | .read s n _ => (List.range n).map fun i => (Who.data (nd + i), Who.seg s)
  | _ => []

theorem TieInv.step {T : List (Who × Who)} {o o' : Objs H} (w : WF o) (inv : TieInv T o) (a : ShareOp H)
    (ha : a.plain) (h : o.step a = .ok o') :
    TieInv (T ++ tiesOf o.datas.length o.segs.length a) o' := by
  have keep : ∀ o1 : Objs H, (∀ x, o1.sharedOf x = o.sharedOf x) → TieInv (T ++ []) o1 := by
    intro o1 h1
    exact inv.next [] (by simp) (fun x k hx => (h1 x).trans hx)
      (fun x k hx => .inl ((h1 x).symm.trans hx))
  cases a with
  | header v =>
    simp only [Objs.step, Except.ok.injEq] at h
    subst h
    exact keep _ fun x => by cases x <;> rfl
  | newData v u =>
    simp only [Objs.step, Except.ok.injEq] at h
    subst h
    refine inv.next [] (by simp) ?_ ?_
    · intro x k hx
      cases x with
      | seg s => simpa [Objs.sharedOf, newShared_segs] using hx
      | data d =>
        simp only [Objs.sharedOf, newShared_datas] at hx ⊢
        rw [List.getElem?_append_left (List.getElem?_eq_some_iff.mp hx).1]
        exact hx
    · intro x k hx
      cases x with
      | seg s => exact .inl (by simpa [Objs.sharedOf, newShared_segs] using hx)
      | data d =>
        simp only [Objs.sharedOf, newShared_datas] at hx
        by_cases hd : d < o.datas.length
        · rw [List.getElem?_append_left hd] at hx
          exact .inl hx
        · have hlt := (List.getElem?_eq_some_iff.mp hx).1
          have hd' : d = o.datas.length := by
            simp at hlt
            omega
          subst hd'
          simp at hx
          subst hx
          refine .inr (.inr fun y hy => ?_)
          cases y with
          | seg s =>
            simp only [Objs.sharedOf, newShared_segs] at hy
            obtain ⟨g, hg, h2⟩ := Option.map_eq_some_iff.mp hy
            have := w.seg g (List.mem_of_getElem? hg)
            omega
          | data e =>
            simp only [Objs.sharedOf, newShared_datas] at hy
            by_cases he : e < o.datas.length
            · rw [List.getElem?_append_left he] at hy
              have := w.data _ (List.mem_of_getElem? hy)
              omega
            · have hlt := (List.getElem?_eq_some_iff.mp hy).1
              simp at hlt
              congr 1
              omega
  | newSeg v d =>
    cases d with
    | some d =>
      simp only [Objs.step] at h
      split at h
      · exact nomatch h
      · rename_i sh hsh
        simp only [Except.ok.injEq] at h
        subst h
        refine inv.next _ ?_ ?_ ?_
        · intro p hp
          simp only [tiesOf, List.mem_singleton] at hp
          subst hp
          exact ⟨sh, by simp [Objs.sharedOf], hsh⟩
        · intro x k hx
          cases x with
          | seg s =>
            simp only [Objs.sharedOf] at hx ⊢
            obtain ⟨g, hg, h2⟩ := Option.map_eq_some_iff.mp hx
            rw [List.getElem?_append_left (List.getElem?_eq_some_iff.mp hg).1]
            exact hx
          | data e => exact hx
        · intro x k hx
          cases x with
          | seg s =>
            by_cases hs : s < o.segs.length
            · simp only [Objs.sharedOf] at hx
              rw [List.getElem?_append_left hs] at hx
              exact .inl hx
            · simp only [Objs.sharedOf] at hx
              obtain ⟨g, hg, h2⟩ := Option.map_eq_some_iff.mp hx
              have hlt := (List.getElem?_eq_some_iff.mp hg).1
              have hs' : s = o.segs.length := by
                simp at hlt
                omega
              subst hs'
              simp at hg
              subst hg
              exact .inr (.inl ⟨.data d, by simp [tiesOf], h2 ▸ hsh⟩)
          | data e => exact .inl hx
    | none =>
      simp only [Objs.step, Except.ok.injEq] at h
      subst h
      refine inv.next [] (by simp) ?_ ?_
      · intro x k hx
        cases x with
        | seg s =>
          simp only [Objs.sharedOf, newShared_segs] at hx ⊢
          obtain ⟨g, hg, h2⟩ := Option.map_eq_some_iff.mp hx
          rw [List.getElem?_append_left (List.getElem?_eq_some_iff.mp hg).1]
          exact hx
        | data e => simpa [Objs.sharedOf, newShared_datas] using hx
      · intro x k hx
        cases x with
        | seg s =>
          simp only [Objs.sharedOf, newShared_segs] at hx
          by_cases hs : s < o.segs.length
          · rw [List.getElem?_append_left hs] at hx
            exact .inl hx
          · obtain ⟨g, hg, h2⟩ := Option.map_eq_some_iff.mp hx
            have hlt := (List.getElem?_eq_some_iff.mp hg).1
            have hs' : s = o.segs.length := by
              simp at hlt
              omega
            subst hs'
            simp at hg
            subst hg
            simp at h2
            subst h2
            refine .inr (.inr fun y hy => ?_)
            cases y with
            | seg t =>
              simp only [Objs.sharedOf, newShared_segs] at hy
              by_cases ht : t < o.segs.length
              · rw [List.getElem?_append_left ht] at hy
                obtain ⟨g, hg, h2⟩ := Option.map_eq_some_iff.mp hy
                have := w.seg g (List.mem_of_getElem? hg)
                omega
              · obtain ⟨g, hg, h2⟩ := Option.map_eq_some_iff.mp hy
                have hlt := (List.getElem?_eq_some_iff.mp hg).1
                simp at hlt
                congr 1
                omega
            | data e =>
              simp only [Objs.sharedOf, newShared_datas] at hy
              have := w.data _ (List.mem_of_getElem? hy)
              omega
        | data e => exact .inl (by simpa [Objs.sharedOf, newShared_datas] using hx)
  | read s n fd =>
    simp only [Objs.step] at h
    split at h
    · exact nomatch h
    · rename_i g hg
      -- setting `data` does not change what is shared
      have seg' : ∀ (t : Nat) (dd : Option Nat),
          ((o.segs.set s { g with data := dd })[t]?).map (·.shared) = (o.segs[t]?).map (·.shared) := by
        intro t dd
        rw [List.getElem?_set]
        split
        · rename_i hst
          subst hst
          split
          · simp [hg]
          · simp [hg]
            rename_i hlt
            exact absurd (List.getElem?_eq_some_iff.mp hg).1 hlt
        · rfl
      have key : ∀ o1 : Objs H, (∀ t, o1.sharedOf (.seg t) = o.sharedOf (.seg t)) →
          o1.datas = o.datas ++ List.replicate n g.shared →
          TieInv (T ++ tiesOf o.datas.length o.segs.length (.read (H := H) s n fd)) o1 := by
        intro o1 h1 h2
        refine inv.next _ ?_ ?_ ?_
        · intro p hp
          simp only [tiesOf, List.mem_map, List.mem_range] at hp
          obtain ⟨i, hi, rfl⟩ := hp
          refine ⟨g.shared, ?_, ?_⟩
          · simp only [Objs.sharedOf, h2]
            rw [List.getElem?_append_right (by omega), List.getElem?_replicate, if_pos (by omega)]
          · rw [h1]
            simp [Objs.sharedOf, hg]
        · intro x k hx
          cases x with
          | seg t => rw [h1]; exact hx
          | data e =>
            simp only [Objs.sharedOf, h2] at hx ⊢
            rw [List.getElem?_append_left (List.getElem?_eq_some_iff.mp hx).1]
            exact hx
        · intro x k hx
          cases x with
          | seg t => rw [h1] at hx; exact .inl hx
          | data e =>
            simp only [Objs.sharedOf, h2] at hx
            by_cases he : e < o.datas.length
            · rw [List.getElem?_append_left he] at hx
              exact .inl hx
            · rw [List.getElem?_append_right (by omega), List.getElem?_replicate] at hx
              split at hx
              · rename_i hlt
                refine .inr (.inl ⟨.seg s, ?_, ?_⟩)
                · simp only [tiesOf, List.mem_map, List.mem_range]
                  refine ⟨e - o.datas.length, hlt, ?_⟩
                  rw [show o.datas.length + (e - o.datas.length) = e by omega]
                · simp only [Option.some.injEq] at hx
                  subst hx
                  simp [Objs.sharedOf, hg]
              · exact nomatch hx
      split at h
      · simp only [Except.ok.injEq] at h
        subst h
        exact key _ (fun t => seg' t _) rfl
      · simp only [Except.ok.injEq] at h
        subst h
        exact key _ (fun t => rfl) rfl
  | setSub x r =>
    simp only [Objs.step] at h
    split at h
    · exact nomatch h
    · split at h
      · simp only [Except.ok.injEq] at h
        subst h
        exact keep _ fun x => by cases x <;> rfl
      · exact nomatch h
  | setUser x r =>
    simp only [Objs.step] at h
    split at h
    · exact nomatch h
    · split at h
      · simp only [Except.ok.injEq] at h
        subst h
        exact keep _ fun x => by cases x <;> rfl
      · exact nomatch h
  | change x f =>
    simp only [Objs.step] at h
    split at h
    · exact nomatch h
    · simp only [Except.ok.injEq] at h
      subst h
      exact keep _ fun x => by cases x <;> rfl
  | changeUser x f =>
    simp only [Objs.step] at h
    split at h
    · simp only [Except.ok.injEq] at h
      subst h
      exact keep _ fun x => by cases x <;> rfl
    · exact nomatch h
  | assign | delta | found | share => exact ha.elim

theorem ties_cons (nd ns : Nat) (a : ShareOp H) (r : List (ShareOp H)) (ha : a.plain) {o o' : Objs H}
    (h : o.step a = .ok o') (hd : o.datas.length = nd) (hs : o.segs.length = ns) :
    ties nd ns (a :: r) = tiesOf nd ns a ++ ties o'.datas.length o'.segs.length r := by
  subst hd hs
  cases a with
  | header v =>
    simp only [Objs.step, Except.ok.injEq] at h
    subst h
    rfl
  | newData v u =>
    simp only [Objs.step, Except.ok.injEq] at h
    subst h
    simp [ties, tiesOf, newShared_datas, newShared_segs]
  | newSeg v d =>
    cases d with
    | some d =>
      simp only [Objs.step] at h
      split at h
      · exact nomatch h
      · simp only [Except.ok.injEq] at h
        subst h
        simp [ties, tiesOf]
    | none =>
      simp only [Objs.step, Except.ok.injEq] at h
      subst h
      simp [ties, tiesOf, newShared_datas, newShared_segs]
  | read s n fd =>
    simp only [Objs.step] at h
    split at h
    · exact nomatch h
    · split at h <;>
      · simp only [Except.ok.injEq] at h
        subst h
        simp [ties, tiesOf, Objs.candidates]
  | setSub x r =>
    simp only [Objs.step] at h
    split at h
    · exact nomatch h
    · split at h
      · simp only [Except.ok.injEq] at h
        subst h
        rfl
      · exact nomatch h
  | setUser x r =>
    simp only [Objs.step] at h
    split at h
    · exact nomatch h
    · split at h
      · simp only [Except.ok.injEq] at h
        subst h
        rfl
      · exact nomatch h
  | change x f =>
    simp only [Objs.step] at h
    split at h
    · exact nomatch h
    · simp only [Except.ok.injEq] at h
      subst h
      rfl
  | changeUser x f =>
    simp only [Objs.step] at h
    split at h
    · simp only [Except.ok.injEq] at h
      subst h
      rfl
    · exact nomatch h
  | assign | delta | found | share => exact ha.elim

theorem TieInv.run {T : List (Who × Who)} {o o' : Objs H} (w : WF o) (inv : TieInv T o)
    (as : List (ShareOp H)) (ha : ∀ a ∈ as, a.plain) (h : o.run as = .ok o') :
    TieInv (T ++ ties o.datas.length o.segs.length as) o' := by
  induction as generalizing o T with
  | nil =>
    simp only [Objs.run, Except.ok.injEq] at h
    subst h
    simpa [ties] using inv
  | cons a r ih =>
    simp only [Objs.run] at h
    split at h
    · exact nomatch h
    · rename_i o1 h1
      have hp := ha a (by simp)
      have := ih (w.step a h1) (inv.step w a hp h1) (fun b hb => ha b (List.mem_cons_of_mem _ hb)) h
      rw [ties_cons _ _ a r hp h1 rfl rfl, ← List.append_assoc]
      exact this

theorem TieInv.empty : TieInv [] (Objs.empty : Objs H) := by
  constructor
  · simp
  · intro a b x ha
    cases a <;> simp [Objs.sharedOf, Objs.empty] at ha

/-- In a session of plain operations, objects have their headers in common exactly when they are tied
together: a segment with the data it was made from, and the data read for a segment with it. -/
theorem C75_ties (as : List (ShareOp H)) (ha : ∀ a ∈ as, a.plain) {o : Objs H}
    (h : Objs.empty.run as = .ok o) (x y : Who) (k : Nat) (hx : o.sharedOf x = some k) :
    o.sharedOf y = some k ↔ Tied (ties 0 0 as) x y := by
  have inv : TieInv (ties 0 0 as) o := TieInv.run WF.empty TieInv.empty as ha h
  constructor
  · exact fun hy => inv.tied x y k hx hy
  · intro t
    rw [← inv.shared t]
    exact hx

/-! ### Objects that are not tied together -/

/-- Different shared headers hold different header objects. -/
structure Apart (o : Objs H) : Prop where
  one : ∀ x ∈ o.shared, x.user ≠ some x.sub
  two : ∀ (i j : Nat) (x y : SharedHdr), o.shared[i]? = some x → o.shared[j]? = some y → i ≠ j →
    x.sub ≠ y.sub ∧ x.user ≠ some y.sub ∧ ∀ r, x.user = some r → y.user ≠ some r

theorem Apart.newShared {o : Objs H} (w : WF o) (p : Apart o) (h : H) (u : Option H) :
    Apart (o.newShared h u) := by
  obtain ⟨z, hz, h1, h2⟩ := newShared_shared o h u
  have hu : ∀ r, z.user = some r → r = o.hdrs.length + 1 := by
    intro r hr
    rw [h2] at hr
    cases u <;> simp at hr
    exact hr.symm
  constructor
  · rw [hz]
    intro x hx
    rcases List.mem_append.mp hx with hx | hx
    · exact p.one x hx
    · simp at hx
      subst hx
      intro h
      have := hu _ h
      omega
  · rw [hz]
    have get : ∀ i x, (o.shared ++ [z])[i]? = some x →
        (o.shared[i]? = some x ∧ i < o.shared.length) ∨ (x = z ∧ i = o.shared.length) := by
      intro i x hx
      have hlt := (List.getElem?_eq_some_iff.mp hx).1
      by_cases hi : i < o.shared.length
      · rw [List.getElem?_append_left hi] at hx
        exact .inl ⟨hx, hi⟩
      · have : i = o.shared.length := by
          simp at hlt
          omega
        subst this
        simp at hx
        exact .inr ⟨hx.symm, rfl⟩
    intro i j x y hx hy hij
    rcases get i x hx with ⟨hx', -⟩ | ⟨rfl, hi⟩ <;> rcases get j y hy with ⟨hy', -⟩ | ⟨rfl, hj⟩
    · exact p.two i j x y hx' hy' hij
    · have m := List.mem_of_getElem? hx'
      have b1 := w.sub x m
      refine ⟨by omega, fun h => ?_, fun r hr h => ?_⟩
      · have := w.user x m _ h
        omega
      · have := w.user x m _ hr
        have := hu r h
        omega
    · have m := List.mem_of_getElem? hy'
      have b1 := w.sub y m
      refine ⟨by omega, fun h => ?_, fun r hr h => ?_⟩
      · have := hu _ h
        omega
      · have := w.user y m _ h
        have := hu r hr
        omega
    · omega

theorem Apart.step {o o' : Objs H} (w : WF o) (p : Apart o) (a : ShareOp H)
    (hn : UsesNew o a) (h : o.step a = .ok o') : Apart o' := by
  cases a with
  | header v =>
    simp only [Objs.step, Except.ok.injEq] at h
    subst h
    exact ⟨p.one, p.two⟩
  | newData v u =>
    simp only [Objs.step, Except.ok.injEq] at h
    subst h
    have := p.newShared w v u
    exact ⟨this.one, this.two⟩
  | newSeg v d =>
    cases d with
    | some d =>
      simp only [Objs.step] at h
      split at h
      · exact nomatch h
      · simp only [Except.ok.injEq] at h
        subst h
        exact ⟨p.one, p.two⟩
    | none =>
      simp only [Objs.step, Except.ok.injEq] at h
      subst h
      have := p.newShared w v none
      exact ⟨this.one, this.two⟩
  | read s n fd =>
    simp only [Objs.step] at h
    split at h
    · exact nomatch h
    · split at h <;>
      · simp only [Except.ok.injEq] at h
        subst h
        exact ⟨p.one, p.two⟩
  | setSub x r =>
    simp only [Objs.step] at h
    split at h
    · exact nomatch h
    · rename_i k hk
      split at h
      · simp only [Except.ok.injEq] at h
        subst h
        have get : ∀ i y, (o.shared.modify k fun x => { x with sub := r })[i]? = some y →
            ∃ z, o.shared[i]? = some z ∧ y.user = z.user ∧
              ((i = k ∧ y.sub = r) ∨ (i ≠ k ∧ y.sub = z.sub)) := by
          intro i y hy
          rw [List.getElem?_modify] at hy
          cases hz : o.shared[i]? with
          | none => simp [hz] at hy
          | some z =>
            rw [hz] at hy
            by_cases hi : k = i
            · simp [hi] at hy
              subst hy
              exact ⟨z, rfl, rfl, .inl ⟨hi.symm, rfl⟩⟩
            · simp [hi] at hy
              subst hy
              exact ⟨_, rfl, rfl, .inr ⟨fun h => hi h.symm, rfl⟩⟩
        have new : ∀ z ∈ o.shared, z.sub ≠ r ∧ z.user ≠ some r := hn
        constructor
        · intro y hy
          obtain ⟨i, hi⟩ := List.getElem?_of_mem hy
          obtain ⟨z, hz, h1, ⟨-, h2⟩ | ⟨-, h2⟩⟩ := get i y hi
          · rw [h1, h2]
            exact (new z (List.mem_of_getElem? hz)).2
          · rw [h1, h2]
            exact p.one z (List.mem_of_getElem? hz)
        · intro i j y y' hy hy' hij
          obtain ⟨z, hz, h1, h2⟩ := get i y hy
          obtain ⟨z', hz', h1', h2'⟩ := get j y' hy'
          have t := p.two i j z z' hz hz' hij
          have n := new z (List.mem_of_getElem? hz)
          have n' := new z' (List.mem_of_getElem? hz')
          rw [h1, h1']
          refine ⟨?_, ?_, t.2.2⟩
          · rcases h2 with ⟨e, h2⟩ | ⟨e, h2⟩ <;> rcases h2' with ⟨e', h2'⟩ | ⟨e', h2'⟩
            · omega
            · rw [h2, h2']
              exact n'.1.symm
            · rw [h2, h2']
              exact n.1
            · rw [h2, h2']
              exact t.1
          · rcases h2' with ⟨e', h2'⟩ | ⟨e', h2'⟩
            · rw [h2']
              exact n.2
            · rw [h2']
              exact t.2.1
      · exact nomatch h
  | setUser x r =>
    simp only [Objs.step] at h
    split at h
    · exact nomatch h
    · rename_i k hk
      split at h
      · simp only [Except.ok.injEq] at h
        subst h
        have get : ∀ i y, (o.shared.modify k fun x => { x with user := r })[i]? = some y →
            ∃ z, o.shared[i]? = some z ∧ y.sub = z.sub ∧
              ((i = k ∧ y.user = r) ∨ (i ≠ k ∧ y.user = z.user)) := by
          intro i y hy
          rw [List.getElem?_modify] at hy
          cases hz : o.shared[i]? with
          | none => simp [hz] at hy
          | some z =>
            rw [hz] at hy
            by_cases hi : k = i
            · simp [hi] at hy
              subst hy
              exact ⟨z, rfl, rfl, .inl ⟨hi.symm, rfl⟩⟩
            · simp [hi] at hy
              subst hy
              exact ⟨_, rfl, rfl, .inr ⟨fun h => hi h.symm, rfl⟩⟩
        have new : ∀ q, r = some q → ∀ z ∈ o.shared, z.sub ≠ q ∧ z.user ≠ some q := by
          rintro q rfl
          exact hn
        constructor
        · intro y hy
          obtain ⟨i, hi⟩ := List.getElem?_of_mem hy
          obtain ⟨z, hz, h1, ⟨-, h2⟩ | ⟨-, h2⟩⟩ := get i y hi
          · rw [h1, h2]
            exact fun h => (new _ h z (List.mem_of_getElem? hz)).1 rfl
          · rw [h1, h2]
            exact p.one z (List.mem_of_getElem? hz)
        · intro i j y y' hy hy' hij
          obtain ⟨z, hz, h1, h2⟩ := get i y hy
          obtain ⟨z', hz', h1', h2'⟩ := get j y' hy'
          have t := p.two i j z z' hz hz' hij
          rw [h1, h1']
          refine ⟨t.1, ?_, ?_⟩
          · rcases h2 with ⟨e, h2⟩ | ⟨e, h2⟩
            · rw [h2]
              exact fun h => (new _ h z' (List.mem_of_getElem? hz')).1 rfl
            · rw [h2]
              exact t.2.1
          · intro q hq hq'
            rcases h2 with ⟨e, h2⟩ | ⟨e, h2⟩ <;> rcases h2' with ⟨e', h2'⟩ | ⟨e', h2'⟩
            · omega
            · rw [h2] at hq
              rw [h2'] at hq'
              exact (new q hq z' (List.mem_of_getElem? hz')).2 hq'
            · rw [h2] at hq
              rw [h2'] at hq'
              exact (new q hq' z (List.mem_of_getElem? hz)).2 hq
            · rw [h2] at hq
              rw [h2'] at hq'
              exact t.2.2 q hq hq'
      · exact nomatch h
  | change x f =>
    simp only [Objs.step] at h
    split at h
    · exact nomatch h
    · simp only [Except.ok.injEq] at h
      subst h
      exact ⟨p.one, p.two⟩
  | changeUser x f =>
    simp only [Objs.step] at h
    split at h
    · simp only [Except.ok.injEq] at h
      subst h
      exact ⟨p.one, p.two⟩
    · exact nomatch h
  | assign s d =>
    simp only [Objs.step] at h
    split at h
    · exact nomatch h
    · split at h
      · simp only [Except.ok.injEq] at h
        subst h
        exact ⟨p.one, p.two⟩
      · exact nomatch h
  | delta s incl strip =>
    simp only [Objs.step] at h
    split at h
    · exact nomatch h
    split at h
    · exact nomatch h
    rename_i x hx
    split at h
    · exact nomatch h
    rename_i v hv
    have w1 := w.newShared (strip v) (x.user.bind fun i => o.hdrs[i]?)
    have p1 := p.newShared w (strip v) (x.user.bind fun i => o.hdrs[i]?)
    split at h
    · split at h
      · simp only [Except.ok.injEq] at h
        subst h
        exact ⟨p1.one, p1.two⟩
      split at h
      · exact nomatch h
      split at h
      · exact nomatch h
      rename_i y hy
      split at h
      · exact nomatch h
      rename_i k hk
      simp only [Except.ok.injEq] at h
      subst h
      have p2 := p1.newShared w1 k (y.user.bind fun i => o.hdrs[i]?)
      exact ⟨p2.one, p2.two⟩
    · simp only [Except.ok.injEq] at h
      subst h
      exact ⟨p1.one, p1.two⟩
  | found s b =>
    simp only [Objs.step] at h
    split at h
    · exact nomatch h
    split at h
    · simp only [Except.ok.injEq] at h
      subst h
      exact p
    · split at h
      · simp only [Except.ok.injEq] at h
        subst h
        exact ⟨p.one, p.two⟩
      · exact nomatch h
  | share s =>
    simp only [Objs.step] at h
    split at h
    · exact nomatch h
    split at h
    · exact nomatch h
    · simp only [Except.ok.injEq] at h
      subst h
      exact ⟨p.one, p.two⟩

theorem Apart.run {o o' : Objs H} (w : WF o) (p : Apart o) (as : List (ShareOp H))
    (hn : RunsNew o as) (h : o.run as = .ok o') : Apart o' := by
  induction as generalizing o with
  | nil =>
    simp only [Objs.run, Except.ok.injEq] at h
    exact h ▸ p
  | cons a r ih =>
    simp only [Objs.run] at h
    split at h
    · exact nomatch h
    · rename_i o1 h1
      exact ih (w.step a h1) (p.step w a hn.1 h1) (hn.2 o1 h1) h

/-- Setting a header of one object leaves the headers of objects with another shared header alone. -/
theorem apart_frame {o o' : Objs H} (p : Apart o) {x y : Who} {i j : Nat} (hx : o.sharedOf x = some i)
    (hy : o.sharedOf y = some j) (hij : i ≠ j) {a : ShareOp H} (t : Through x a) (h : o.step a = .ok o') :
    o'.subOf y = o.subOf y ∧ o'.userOf y = o.userOf y ∧ shows o' y = shows o y ∧
      showsUser o' y = showsUser o y := by
  have hsub : o.subOf y = (o.shared[j]?).map (·.sub) := by simp [Objs.subOf, hy]
  have huser : o.userOf y = (o.shared[j]?).map (·.user) := by simp [Objs.userOf, hy]
  cases t with
  | setSub r =>
    simp only [Objs.step, hx] at h
    split at h
    · simp only [Except.ok.injEq] at h
      subst h
      have hy' : ({ o with shared := o.shared.modify i fun x => { x with sub := r } } : Objs H).sharedOf y =
          some j := by
        rw [← hy]
        cases y <;> rfl
      have hs : (o.shared.modify i fun x => { x with sub := r })[j]? = o.shared[j]? := by
        simp [hij]
      simp only [shows, showsUser, Objs.subOf, Objs.userOf, hy', hy, Option.bind_some, hs, and_self]
    · exact nomatch h
  | setUser r =>
    simp only [Objs.step, hx] at h
    split at h
    · simp only [Except.ok.injEq] at h
      subst h
      have hy' : ({ o with shared := o.shared.modify i fun x => { x with user := r } } : Objs H).sharedOf y =
          some j := by
        rw [← hy]
        cases y <;> rfl
      have hs : (o.shared.modify i fun x => { x with user := r })[j]? = o.shared[j]? := by
        simp [hij]
      simp only [shows, showsUser, Objs.subOf, Objs.userOf, hy', hy, Option.bind_some, hs, and_self]
    · exact nomatch h
  | change f =>
    simp only [Objs.step] at h
    split at h
    · exact nomatch h
    · rename_i r hr
      simp only [Except.ok.injEq] at h
      subst h
      simp only [Objs.subOf, hx, Option.bind_some, Option.map_eq_some_iff] at hr
      obtain ⟨z, hz, rfl⟩ := hr
      have e1 : ({ o with hdrs := o.hdrs.modify z.sub f } : Objs H).subOf y = o.subOf y := by
        cases y <;> rfl
      have e2 : ({ o with hdrs := o.hdrs.modify z.sub f } : Objs H).userOf y = o.userOf y := by
        cases y <;> rfl
      refine ⟨e1, e2, ?_, ?_⟩
      · simp only [shows, e1, hsub]
        cases hz' : o.shared[j]? with
        | none => rfl
        | some z' =>
          have t := p.two i j z z' hz hz' hij
          simp [List.getElem?_modify, t.1]
      · simp only [showsUser, e2, huser]
        cases hz' : o.shared[j]? with
        | none => rfl
        | some z' =>
          have t := p.two j i z' z hz' hz (Ne.symm hij)
          simp only [Option.map_some, Option.bind_some]
          cases hu : z'.user with
          | none => rfl
          | some q =>
            have : z.sub ≠ q := fun h => t.2.1 (by rw [hu, h])
            simp [this]
  | changeUser f =>
    simp only [Objs.step] at h
    split at h
    · rename_i r hr
      simp only [Except.ok.injEq] at h
      subst h
      simp only [Objs.userOf, hx, Option.bind_some, Option.map_eq_some_iff] at hr
      obtain ⟨z, hz, hzr⟩ := hr
      have e1 : ({ o with hdrs := o.hdrs.modify r f } : Objs H).subOf y = o.subOf y := by
        cases y <;> rfl
      have e2 : ({ o with hdrs := o.hdrs.modify r f } : Objs H).userOf y = o.userOf y := by
        cases y <;> rfl
      refine ⟨e1, e2, ?_, ?_⟩
      · simp only [shows, e1, hsub]
        cases hz' : o.shared[j]? with
        | none => rfl
        | some z' =>
          have t := p.two i j z z' hz hz' hij
          have : r ≠ z'.sub := fun h => t.2.1 (by rw [hzr, h])
          simp [this]
      · simp only [showsUser, e2, huser]
        cases hz' : o.shared[j]? with
        | none => rfl
        | some z' =>
          have t := p.two i j z z' hz hz' hij
          simp only [Option.map_some, Option.bind_some]
          cases hu : z'.user with
          | none => rfl
          | some q =>
            have : r ≠ q := fun h => t.2.2 r hzr (by rw [hu, h])
            simp [this]
    · exact nomatch h

/-- In a session of plain operations that only installs new headers, setting a header or a field
through one object changes nothing of what is seen through objects that are not tied to it. -/
theorem C75_apart (as : List (ShareOp H)) (ha : ∀ a ∈ as, a.plain) (hn : RunsNew Objs.empty as)
    {o o' : Objs H} (h : Objs.empty.run as = .ok o) {x y : Who} (hxy : ¬ Tied (ties 0 0 as) x y)
    {a : ShareOp H} (t : Through x a) (h' : o.step a = .ok o') :
    o'.subOf y = o.subOf y ∧ o'.userOf y = o.userOf y ∧ shows o' y = shows o y ∧
      showsUser o' y = showsUser o y := by
  have w := WF.empty.run as h
  have p : Apart o := Apart.run WF.empty (by constructor <;> simp [Objs.empty]) as hn h
  cases hx : o.sharedOf x with
  | none =>
    cases t <;> simp [Objs.step, Objs.subOf, Objs.userOf, hx] at h'
  | some i =>
    cases hy : o.sharedOf y with
    | some j =>
      refine apart_frame p hx hy ?_ t h'
      rintro rfl
      exact hxy ((C75_ties as ha h x y i hx).mp hy)
    | none =>
      have hy' : o'.sharedOf y = none := by
        rw [← hy]
        cases t with
        | setSub r =>
          simp only [Objs.step, hx] at h'
          split at h'
          · simp only [Except.ok.injEq] at h'
            subst h'
            cases y <;> rfl
          · exact nomatch h'
        | setUser r =>
          simp only [Objs.step, hx] at h'
          split at h'
          · simp only [Except.ok.injEq] at h'
            subst h'
            cases y <;> rfl
          · exact nomatch h'
        | change f =>
          simp only [Objs.step] at h'
          split at h'
          · exact nomatch h'
          · simp only [Except.ok.injEq] at h'
            subst h'
            cases y <;> rfl
        | changeUser f =>
          simp only [Objs.step] at h'
          split at h'
          · simp only [Except.ok.injEq] at h'
            subst h'
            cases y <;> rfl
          · exact nomatch h'
      simp [shows, showsUser, Objs.subOf, Objs.userOf, hy, hy']

/-! ### Assigning `data`, delta files -/

theorem ReachableNew.apart {o : Objs H} (r : ReachableNew o) : Apart o := by
  obtain ⟨as, hn, h⟩ := r
  exact Apart.run WF.empty (by constructor <;> simp [Objs.empty]) as hn h

theorem ReachableNew.wf {o : Objs H} (r : ReachableNew o) : WF o := by
  obtain ⟨as, hn, h⟩ := r
  exact WF.empty.run as h

/-- Data of another segment that is assigned to a segment keeps its own headers: the segment is
written with headers that its data does not show. -/
theorem C75_assign {o o' : Objs H} (re : ReachableNew o) {s d i j : Nat}
    (hs : o.sharedOf (.seg s) = some i) (hd : o.sharedOf (.data d) = some j) (hij : i ≠ j)
    (h : o.step (.assign s (some d)) = .ok o') : o'.dataOf s = some d ∧ ¬ Agree o' s := by
  have p := re.apart
  have w := re.wf
  simp only [Objs.step] at h
  split at h
  · exact nomatch h
  rename_i g hg
  split at h
  · simp only [Except.ok.injEq] at h
    subst h
    have hlt := (List.getElem?_eq_some_iff.mp hg).1
    have e : (o.segs.set s { g with data := some d })[s]? = some { g with data := some d } := by
      simp [hlt]
    have hD : Objs.dataOf { o with segs := o.segs.set s { g with data := some d } } s = some d := by
      simp [Objs.dataOf, e]
    refine ⟨hD, fun ag => ?_⟩
    have hi : g.shared = i := by simpa [Objs.sharedOf, hg] using hs
    obtain ⟨x, hx⟩ := w.shared_some hs
    obtain ⟨y, hy⟩ := w.shared_some hd
    have hd' : o.datas[d]? = some j := hd
    have := (ag d hD).1
    simp only [Objs.subOf, Objs.sharedOf, Option.map_some, Option.bind_some, hd', hy] at this
    rw [e] at this
    simp only [Option.map_some, Option.bind_some, hi, hx, Option.some.injEq] at this
    exact (p.two i j x y hx hy hij).1 this.symm
  · exact nomatch h

/-- The merge of a delta gives the data the headers of the segment of the delta, which then agrees
with its data. -/
theorem C75_merge {o o' : Objs H} (re : Reachable o) {s : Nat} (h : o.step (.share s) = .ok o') :
    Agree o' s ∧ o'.dataOf s = o.dataOf s ∧ o'.dataOf s ≠ none := by
  have w := re.wf
  have w' := w.step _ h
  simp only [Objs.step] at h
  split at h
  · exact nomatch h
  rename_i g hg
  split at h
  · exact nomatch h
  · rename_i d hd
    simp only [Except.ok.injEq] at h
    have hD : o'.dataOf s = some d := by
      rw [← hd]
      subst h
      rfl
    have hlt : d < o.datas.length := by
      simp only [Objs.dataOf, hg] at hd
      split at hd
      · rename_i e he
        simp only [Option.some.injEq] at hd
        subst hd
        exact w.segData g (List.mem_of_getElem? hg) _ he
      · split at hd
        · exact nomatch hd
        · rename_i b hb
          obtain ⟨k, hk, hk'⟩ := Option.bind_eq_some_iff.mp hd
          exact w.segData k (List.mem_of_getElem? hk) _ hk'
    refine ⟨fun e he => ?_, hD.trans hd.symm, by simp [hD]⟩
    rw [hD] at he
    simp only [Option.some.injEq] at he
    subst he
    have hg' : o'.segs[s]? = some g := by
      subst h
      exact hg
    refine agree_of_shared w' hg' ?_
    subst h
    simp [hlt]

/-- The segment of the base file that it took the data from no longer agrees with its data: it shows,
and would be written with, its old headers. -/
theorem C75_base {o o' : Objs H} (re : ReachableNew o) {s b d : Nat} {i j : Nat}
    (hs : o.sharedOf (.seg s) = some i) (hb : o.sharedOf (.seg b) = some j) (hij : i ≠ j)
    (hds : o.dataOf s = some d) (hdb : o.dataOf b = some d)
    (h : o.step (.share s) = .ok o') : o'.dataOf b = some d ∧ ¬ Agree o' b := by
  have p := re.apart
  have w := re.wf
  have m := C75_merge (by obtain ⟨as, -, h⟩ := re; exact ⟨as, h⟩) h
  have hD : o'.dataOf b = some d := by
    rw [← hdb]
    simp only [Objs.step] at h
    split at h
    · exact nomatch h
    · split at h
      · exact nomatch h
      · simp only [Except.ok.injEq] at h
        subst h
        rfl
  refine ⟨hD, fun ag => ?_⟩
  have e1 := (ag d hD).1
  have e2 := (m.1 d (m.2.1.trans hds)).1
  have e3 : o'.subOf (.seg s) = o.subOf (.seg s) ∧ o'.subOf (.seg b) = o.subOf (.seg b) := by
    simp only [Objs.step] at h
    split at h
    · exact nomatch h
    · split at h
      · exact nomatch h
      · simp only [Except.ok.injEq] at h
        subst h
        exact ⟨rfl, rfl⟩
  rw [e2, e3.1, e3.2] at e1
  obtain ⟨x, hx⟩ := w.shared_some hs
  obtain ⟨y, hy⟩ := w.shared_some hb
  simp only [Objs.subOf, hs, hb, Option.bind_some, hx, hy, Option.map_some, Option.some.injEq] at e1
  exact (p.two i j x y hx hy hij).1 e1

/-- A delta of a segment shows copies of its headers in new objects, the subheader without the TRE
areas, and nothing changes for the objects there were.  If the data is included it is a copy too; it
has yet other copies of the headers, so that segment and data do not agree before the merge. -/
theorem C75_delta {o o' : Objs H} (re : Reachable o) {s : Nat} {incl : Bool} {strip : H → H}
    (h : o.step (.delta s incl strip) = .ok o') :
    let n := o.segs.length
    shows o' (.seg n) = (shows o (.seg s)).map strip ∧ shows o' (.seg n) ≠ none ∧
    showsUser o' (.seg n) = showsUser o (.seg s) ∧
    (∀ r, o'.subOf (.seg n) = some r → o.hdrs.length ≤ r) ∧
    (∀ r, o'.userOf (.seg n) = some (some r) → o.hdrs.length ≤ r) ∧
    (∀ x, o.sharedOf x ≠ none → o'.subOf x = o.subOf x ∧ o'.userOf x = o.userOf x ∧
      shows o' x = shows o x ∧ showsUser o' x = showsUser o x) ∧
    (incl = false → o'.dataOf n = none) ∧
    (incl = true → ∀ d, o.dataOf s = some d → o'.dataOf n = some o.datas.length ∧
      shows o' (.data o.datas.length) = shows o (.data d) ∧
      showsUser o' (.data o.datas.length) = showsUser o (.data d) ∧ ¬ Agree o' n) := by
  intro n
  have w := re.wf
  simp only [Objs.step] at h
  split at h
  · exact nomatch h
  rename_i g hg
  split at h
  · exact nomatch h
  rename_i x hx
  split at h
  · exact nomatch h
  rename_i v hv
  obtain ⟨x1, hx1, h11, h12⟩ := newShared_shared o (strip v) (x.user.bind fun i => o.hdrs[i]?)
  have hU : ∀ (y : SharedHdr), y ∈ o.shared → ∀ r, y.user = some r → ∃ c, o.hdrs[r]? = some c :=
    fun y hy r hr => ⟨_, List.getElem?_eq_getElem (w.user y hy r hr)⟩
  have hxm := List.mem_of_getElem? hx
  -- what the objects there were show, for every extension of the state
  have old : ∀ o1 : Objs H, (∃ l, o1.hdrs = o.hdrs ++ l) → (∃ l, o1.shared = o.shared ++ l) →
      (∃ l, o1.datas = o.datas ++ l) → (∃ l, o1.segs = o.segs ++ l) →
      ∀ x, o.sharedOf x ≠ none → o1.subOf x = o.subOf x ∧ o1.userOf x = o.userOf x ∧
        shows o1 x = shows o x ∧ showsUser o1 x = showsUser o x := by
    rintro o1 ⟨l1, e1⟩ ⟨l2, e2⟩ ⟨l3, e3⟩ ⟨l4, e4⟩ z hz
    cases hk : o.sharedOf z with
    | none => exact absurd hk hz
    | some k =>
      have hk1 : o1.sharedOf z = some k := by
        cases z with
        | seg t =>
          simp only [Objs.sharedOf] at hk ⊢
          obtain ⟨q, hq, -⟩ := Option.map_eq_some_iff.mp hk
          rw [e4, List.getElem?_append_left (List.getElem?_eq_some_iff.mp hq).1]
          exact hk
        | data t =>
          simp only [Objs.sharedOf] at hk ⊢
          rw [e3, List.getElem?_append_left (List.getElem?_eq_some_iff.mp hk).1]
          exact hk
      obtain ⟨y, hy⟩ := w.shared_some hk
      have hy1 : o1.shared[k]? = some y := by
        rw [e2, List.getElem?_append_left (List.getElem?_eq_some_iff.mp hy).1]
        exact hy
      have hym := List.mem_of_getElem? hy
      have hs : o1.hdrs[y.sub]? = o.hdrs[y.sub]? := by
        rw [e1, List.getElem?_append_left (w.sub y hym)]
      have hu : ∀ r, y.user = some r → o1.hdrs[r]? = o.hdrs[r]? := by
        intro r hr
        rw [e1, List.getElem?_append_left (w.user y hym r hr)]
      simp only [shows, showsUser, Objs.subOf, Objs.userOf, hk, hk1, Option.bind_some, hy, hy1,
        Option.map_some, hs, true_and]
      cases hyu : y.user with
      | none => rfl
      | some r => simp only [hu r hyu]
  have showS : shows o (.seg s) = some v := by
    simp [shows, Objs.subOf, Objs.sharedOf, hg, hx, hv]
  have showU : showsUser o (.seg s) = some (x.user.bind fun i => o.hdrs[i]?) := by
    simp only [showsUser, Objs.userOf, Objs.sharedOf, hg, Option.map_some, Option.bind_some, hx]
    cases hxu : x.user with
    | none => rfl
    | some r =>
      obtain ⟨c, hc⟩ := hU x hxm r hxu
      simp [hc]
  -- what the new segment shows, for every extension of the state with the first copy
  have new : ∀ o1 : Objs H, (∃ l, o1.hdrs = (o.newShared (strip v) (x.user.bind fun i => o.hdrs[i]?)).hdrs ++ l) →
      (∃ l, o1.shared = o.shared ++ x1 :: l) → o1.sharedOf (.seg n) = some o.shared.length →
      shows o1 (.seg n) = some (strip v) ∧
      showsUser o1 (.seg n) = some (x.user.bind fun i => o.hdrs[i]?) ∧
      o1.subOf (.seg n) = some o.hdrs.length ∧
      (∀ r, o1.userOf (.seg n) = some (some r) → o.hdrs.length ≤ r) := by
    rintro o1 ⟨l1, e1⟩ ⟨l2, e2⟩ e3
    have hy1 : o1.shared[o.shared.length]? = some x1 := by
      rw [e2]
      simp
    rw [newShared_hdrs] at e1
    refine ⟨?_, ?_, ?_, ?_⟩
    · simp [shows, Objs.subOf, e3, hy1, h11, e1]
    · simp only [showsUser, Objs.userOf, e3, Option.bind_some, hy1, Option.map_some, h12]
      cases hc : x.user.bind fun i => o.hdrs[i]? with
      | none => rfl
      | some c => simp [e1, hc]
    · simp [Objs.subOf, e3, hy1, h11]
    · intro r hr
      simp only [Objs.userOf, e3, Option.bind_some, hy1, Option.map_some, h12, Option.some.injEq] at hr
      cases hc : x.user.bind fun i => o.hdrs[i]? with
      | none => simp [hc] at hr
      | some c =>
        simp [hc] at hr
        omega
  have finish : ∀ o1 : Objs H, (∃ l, o1.hdrs = (o.newShared (strip v) (x.user.bind fun i => o.hdrs[i]?)).hdrs ++ l) →
      (∃ l, o1.shared = o.shared ++ x1 :: l) → (∃ l, o1.datas = o.datas ++ l) →
      (∃ dd, o1.segs = o.segs ++ [⟨o.shared.length, dd, none⟩]) →
      shows o1 (.seg n) = (shows o (.seg s)).map strip ∧ shows o1 (.seg n) ≠ none ∧
      showsUser o1 (.seg n) = showsUser o (.seg s) ∧
      (∀ r, o1.subOf (.seg n) = some r → o.hdrs.length ≤ r) ∧
      (∀ r, o1.userOf (.seg n) = some (some r) → o.hdrs.length ≤ r) ∧
      (∀ x, o.sharedOf x ≠ none → o1.subOf x = o.subOf x ∧ o1.userOf x = o.userOf x ∧
        shows o1 x = shows o x ∧ showsUser o1 x = showsUser o x) := by
    intro o1 e1 e2 e3 e4
    obtain ⟨dd, e5⟩ := e4
    have t := new o1 e1 e2 (by simp [Objs.sharedOf, e5, n])
    rw [t.1, t.2.1, t.2.2.1, showS, showU]
    refine ⟨rfl, by simp, rfl, fun r hr => ?_, t.2.2.2, old o1 ?_ ?_ e3 ⟨_, e5⟩⟩
    · simp at hr
      omega
    · obtain ⟨l, e⟩ := e1
      rw [newShared_hdrs, List.append_assoc] at e
      exact ⟨_, e⟩
    · obtain ⟨l, e⟩ := e2
      exact ⟨_, e⟩
  have small : ∀ o1 : Objs H, o1 = { o.newShared (strip v) (x.user.bind fun i => o.hdrs[i]?) with
      segs := (o.newShared (strip v) (x.user.bind fun i => o.hdrs[i]?)).segs ++
        [⟨o.shared.length, none, none⟩] } →
      (shows o1 (.seg n) = (shows o (.seg s)).map strip ∧ shows o1 (.seg n) ≠ none ∧
      showsUser o1 (.seg n) = showsUser o (.seg s) ∧
      (∀ r, o1.subOf (.seg n) = some r → o.hdrs.length ≤ r) ∧
      (∀ r, o1.userOf (.seg n) = some (some r) → o.hdrs.length ≤ r) ∧
      (∀ x, o.sharedOf x ≠ none → o1.subOf x = o.subOf x ∧ o1.userOf x = o.userOf x ∧
        shows o1 x = shows o x ∧ showsUser o1 x = showsUser o x)) ∧ o1.dataOf n = none := by
    rintro o1 rfl
    refine ⟨finish _ ⟨[], by simp⟩ ⟨[], hx1⟩ ⟨[], by simp [newShared_datas]⟩
      ⟨none, by simp [newShared_segs]⟩, ?_⟩
    simp [Objs.dataOf, newShared_segs, n]
  split at h
  · rename_i hi
    split at h
    · rename_i hn
      simp only [Except.ok.injEq] at h
      obtain ⟨⟨t1, t2, t3, t4, t5, t6⟩, t7⟩ := small _ h.symm
      refine ⟨t1, t2, t3, t4, t5, t6, fun _ => t7, fun _ d hd => ?_⟩
      rw [hn] at hd
      exact nomatch hd
    rename_i d hd
    split at h
    · exact nomatch h
    rename_i sd hsd
    split at h
    · exact nomatch h
    rename_i y hy
    split at h
    · exact nomatch h
    rename_i k hk
    simp only [Except.ok.injEq] at h
    obtain ⟨x2, hx2, h21, h22⟩ := newShared_shared
      (o.newShared (strip v) (x.user.bind fun i => o.hdrs[i]?)) k (y.user.bind fun i => o.hdrs[i]?)
    have hH : o'.hdrs = (o.newShared (strip v) (x.user.bind fun i => o.hdrs[i]?)).hdrs ++
        k :: (y.user.bind fun i => o.hdrs[i]?).toList := by
      subst h
      exact newShared_hdrs ..
    have hS : o'.shared = o.shared ++ [x1, x2] := by
      subst h
      simp only [hx2, hx1]
      simp
    have hDs : o'.datas = o.datas ++ [o.shared.length + 1] := by
      subst h
      simp [newShared_datas]
    have hG : o'.segs = o.segs ++ [⟨o.shared.length, some o.datas.length, none⟩] := by
      subst h
      simp [newShared_segs]
    obtain ⟨t1, t2, t3, t4, t5, t6⟩ := finish o' ⟨_, hH⟩ ⟨_, hS⟩ ⟨_, hDs⟩ ⟨_, hG⟩
    have hDO : o'.dataOf n = some o.datas.length := by simp [Objs.dataOf, hG, n]
    have hsh : o'.sharedOf (.data o.datas.length) = some (o.shared.length + 1) := by
      simp [Objs.sharedOf, hDs]
    have hs2 : o'.shared[o.shared.length + 1]? = some x2 := by
      rw [hS, List.getElem?_append_right (by omega)]
      simp
    refine ⟨t1, t2, t3, t4, t5, t6, fun h => by simp [hi] at h, fun _ e he => ?_⟩
    rw [hd] at he
    simp only [Option.some.injEq] at he
    subst he
    have hlen : (o.newShared (strip v) (x.user.bind fun i => o.hdrs[i]?)).hdrs.length > o.hdrs.length := by
      simp [newShared_hdrs]
    refine ⟨hDO, ?_, ?_, fun ag => ?_⟩
    · have : shows o (.data d) = some k := by
        simp [shows, Objs.subOf, Objs.sharedOf, hsd, hy, hk]
      rw [this]
      simp [shows, Objs.subOf, hsh, hs2, h21, hH]
    · have : showsUser o (.data d) = some (y.user.bind fun i => o.hdrs[i]?) := by
        simp only [showsUser, Objs.userOf, Objs.sharedOf, hsd, Option.bind_some, hy, Option.map_some]
        cases hyu : y.user with
        | none => rfl
        | some r =>
          obtain ⟨c, hc⟩ := hU y (List.mem_of_getElem? hy) r hyu
          simp [hc]
      rw [this]
      simp only [showsUser, Objs.userOf, hsh, Option.bind_some, hs2, Option.map_some, h22]
      cases hc : y.user.bind fun i => o.hdrs[i]? with
      | none => rfl
      | some c => simp [hH, hc]
    · have e1 := (ag _ hDO).1
      have e2 : o'.subOf (.seg n) = some o.hdrs.length := (new o' ⟨_, hH⟩ ⟨_, hS⟩
        (by simp [Objs.sharedOf, hG, n])).2.2.1
      rw [e2] at e1
      simp [Objs.subOf, hsh, hs2, h21] at e1
      omega
  · rename_i hi
    simp only [Except.ok.injEq] at h
    obtain ⟨⟨t1, t2, t3, t4, t5, t6⟩, t7⟩ := small _ h.symm
    exact ⟨t1, t2, t3, t4, t5, t6, fun _ => t7, fun h => absurd h hi⟩

/-! ### Examples -/

/-- A session: data, a segment made from it, a segment read with two handlers tried, headers and
fields set through either. -/
def exPlain : List (ShareOp Nat) :=
  [.newData 1 (some 2), .newSeg 0 (some 0), .newSeg 5 none, .read 1 2 true, .change (.data 2) (· + 10),
   .header 7, .setUser (.seg 0) (some 3), .changeUser (.data 0) (· + 100), .setUser (.data 2) none]

example : ∀ a ∈ exPlain, a.plain := by
  simp [exPlain, ShareOp.plain]

/-- What the objects of the example show at the end. -/
def exShown : Except Err (List (Option Nat × Option (Option Nat))) :=
  (Objs.empty.run exPlain).map fun o =>
    [Who.seg 0, .data 0, .seg 1, .data 1, .data 2].map fun w => (shows o w, showsUser o w)

example : exShown.toOption = some
    [(some 1, some (some 107)), (some 1, some (some 107)), (some 15, some none), (some 15, some none),
     (some 15, some none)] := by decide

/-- A delta of the read segment is merged: the segment of the delta and the data show its headers,
the segment that was read shows the old ones. -/
def exMerged : Except Err (List (Option Nat)) :=
  (Objs.empty.run (exPlain ++ [.delta 1 false (· - 1), .change (.seg 2) (· + 50), .found 2 1,
    .share 2])).map fun o => [Who.seg 1, .data 2, .seg 2].map (shows o ·)

example : exMerged.toOption = some [some 15, some 64, some 64] := by decide

/-- Data assigned to another segment. -/
def exAssigned : Except Err (List (Option Nat)) :=
  (Objs.empty.run (exPlain ++ [.assign 1 (some 0)])).map fun o =>
    [Who.seg 1, .data 0].map (shows o ·)

example : exAssigned.toOption = some [some 15, some 1] := by decide

end Verif
