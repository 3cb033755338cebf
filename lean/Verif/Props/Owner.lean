import Verif.OwnerLemmas
import Verif.Props.File

/-
C80: a segment that is in several files.

`Owner.write f w = .ok (w', out)`: in the world `w` of file and segment objects the file `f` is
written successfully; afterwards the world is `w'` and the file holds the bytes `out`.
-/

namespace Verif.Owner

open Verif

variable {P : PyFloat} {IO : DataIO P.F}

/-! ### Specification -/

/-- The file object `F`, looked at alone, is the file `N`: its header, its TREs and the segments in
its lists, in order.  `linked` says whether `nitf_file` of a segment is any file at all. -/
def Alone (w : World P IO) (F : OFile P) (N : NFile P.F IO.D) : Prop :=
  F.header = N.header ∧ F.tres = N.tres ∧
  ∀ k, Each (fun id s => ∃ o, w.segs id = some o ∧ s.sub = o.seg.sub ∧ s.user = o.seg.user ∧
    s.tres = o.seg.tres ∧ s.data = o.seg.data ∧
    (s.linked = true ↔ ∃ g G, o.owner = some g ∧ w.files g = some G)) (F.ids k) (N.segs k)

/-- No segment in the lists of `F` refers to a living file other than `f`, and none is there
twice. -/
structure Unshared (w : World P IO) (f : Nat) (F : OFile P) : Prop where
  owner : ∀ k, ∀ id ∈ F.ids k, ∃ s, w.segs id = some s ∧
    ∀ g G, s.owner = some g → w.files g = some G → g = f
  nodup : ∀ k, (F.ids k).Nodup
  apart : ∀ k k', k ≠ k' → ∀ id ∈ F.ids k, id ∉ F.ids k'

/-- What `w'` has in common with `w` but for the file `f` and the segments of `F`. -/
structure OthersKept (w w' : World P IO) (f : Nat) (F : OFile P) : Prop where
  files : ∀ g, g ≠ f → w'.files g = w.files g
  segs : ∀ id s, w.segs id = some s → (∀ k, id ∉ F.ids k) → w'.segs id = some s
  owners : ∀ id s, w.segs id = some s → ∃ s', w'.segs id = some s' ∧ s'.owner = s.owner

/-! ### Worlds and files -/

theorem view_linked (w : World P IO) (o : OSeg P IO) :
    (w.view o).linked = true ↔ ∃ g G, o.owner = some g ∧ w.files g = some G := by
  unfold World.view World.ownerOf
  cases o.owner with
  | none => simp
  | some g =>
    simp only [Option.bind_some, Option.some.injEq]
    constructor
    · intro h
      obtain ⟨G, hG⟩ := Option.isSome_iff_exists.mp h
      exact ⟨g, G, rfl, hG⟩
    · rintro ⟨_, G, rfl, hG⟩
      rw [hG]
      rfl

theorem shows_alone {w : World P IO} {f : Nat} {F : OFile P} {N : NFile P.F IO.D} :
    Shows w f F N ↔ w.files f = some F ∧ Alone w F N := by
  have key : ∀ (ids : List Nat) (ss : List (Seg P.F IO.D)), Views w ids ss ↔
      Each (fun id s => ∃ o, w.segs id = some o ∧ s.sub = o.seg.sub ∧ s.user = o.seg.user ∧
        s.tres = o.seg.tres ∧ s.data = o.seg.data ∧
        (s.linked = true ↔ ∃ g G, o.owner = some g ∧ w.files g = some G)) ids ss := by
    intro ids ss
    unfold Views
    have one : ∀ id s, (∃ o, w.segs id = some o ∧ s = w.view o) ↔
        ∃ o, w.segs id = some o ∧ s.sub = o.seg.sub ∧ s.user = o.seg.user ∧
        s.tres = o.seg.tres ∧ s.data = o.seg.data ∧
        (s.linked = true ↔ ∃ g G, o.owner = some g ∧ w.files g = some G) := by
      intro id s
      refine exists_congr fun o => and_congr_right fun _ => ?_
      rw [← view_linked]
      constructor
      · rintro rfl
        exact ⟨rfl, rfl, rfl, rfl, Iff.rfl⟩
      · rintro ⟨h1, h2, h3, h4, h5⟩
        cases s
        simp only at h1 h2 h3 h4 h5
        subst h1 h2 h3 h4
        exact congrArg (fun b => Seg.mk b _ _ _ _) (Bool.eq_iff_iff.mpr h5)
    constructor <;> intro h <;> induction h with
    | nil => exact .nil
    | cons h _ ih => exact .cons (by first | exact (one _ _).mp h | exact (one _ _).mpr h) ih
  constructor
  · intro h
    exact ⟨h.file, h.header, h.tres, fun k => (key _ _).mp (h.views k)⟩
  · rintro ⟨h1, h2, h3, h4⟩
    exact ⟨h1, h2, h3, fun k => (key _ _).mpr (h4 k)⟩

/-- Every file object whose segments exist is some file looked at alone. -/
theorem exists_alone {w : World P IO} {F : OFile P}
    (h : ∀ k, ∀ id ∈ F.ids k, ∃ s, w.segs id = some s) : ∃ N, ∀ f, w.files f = some F →
      Shows w f F N := by
  have each : ∀ ids : List Nat, (∀ id ∈ ids, ∃ s, w.segs id = some s) → ∃ ss, Views w ids ss := by
    intro ids
    induction ids with
    | nil => intro _; exact ⟨[], .nil⟩
    | cons id ids ih =>
      intro h
      obtain ⟨s, hs⟩ := h id (by simp)
      obtain ⟨ss, hss⟩ := ih fun j hj => h j (by simp [hj])
      exact ⟨w.view s :: ss, .cons ⟨s, hs, rfl⟩ hss⟩
  obtain ⟨a, ha⟩ := each _ (h .image)
  obtain ⟨b, hb⟩ := each _ (h .graphic)
  obtain ⟨c, hc⟩ := each _ (h .text)
  obtain ⟨d, hd⟩ := each _ (h .des)
  obtain ⟨e, he⟩ := each _ (h .res)
  refine ⟨⟨F.header, F.tres, a, b, c, d, e⟩, fun f hf => ⟨hf, rfl, rfl, ?_⟩⟩
  intro k
  cases k <;> assumption

theorem Unshared.own {w : World P IO} {f : Nat} {F : OFile P} (h : Unshared w f F) (k : SegKind) :
    Own w f (F.ids k) := by
  intro id hid s hs g hg hal
  obtain ⟨s', h1, h2⟩ := h.owner k id hid
  rw [hs] at h1
  injection h1 with h1
  subst h1
  obtain ⟨G, hG⟩ := Option.isSome_iff_exists.mp hal
  exact h2 g G hg hG

/-! ### C80 -/

/-- C80, the part that holds (1): a file whose segments do not refer to another living file is
written exactly as if it were alone, with the same bytes or the same exception, whatever other files
and segments there are; the other files and their segments stay as they are.  What is known about
files written alone (C23 - C27, C67 - C70) thus holds for it. -/
theorem C80_alone_partial {w : World P IO} (hb : ∀ id s, w.segs id = some s → id < w.nsegs) {f : Nat}
    {F : OFile P} (hf : w.files f = some F) (hu : Unshared w f F) {N : NFile P.F IO.D}
    (hN : Alone w F N) :
    (∀ e, Owner.write f w = .error e ↔ writeFile P F.env IO N = .error e) ∧
    (∀ out, (∃ w', Owner.write f w = .ok (w', out)) ↔
      ∃ N', writeFile P F.env IO N = .ok (N', out)) ∧
    ∀ w' out, Owner.write f w = .ok (w', out) → OthersKept w w' f F ∧
      ∃ F' N', w'.files f = some F' ∧ Alone w' F' N' ∧ writeFile P F.env IO N = .ok (N', out) := by
  have hl := write_lock hb (shows_alone.mpr ⟨hf, hN⟩) hu.own ⟨hu.nodup, hu.apart⟩
  revert hl
  cases Owner.write f w <;> cases writeFile P F.env IO N <;> intro hl
  · have hl : _ = _ := hl
    subst hl
    refine ⟨fun e => ?_, fun out => ?_, fun w' out h => by cases h⟩
    · constructor <;> intro h <;> injection h with h <;> rw [h]
    · constructor <;> rintro ⟨_, h⟩ <;> cases h
  · exact hl.elim
  · exact hl.elim
  · rename_i a b
    obtain ⟨w1, out1⟩ := a
    obtain ⟨N1, out2⟩ := b
    obtain ⟨e, ⟨F', h1, _⟩, h5, h6, h7, _⟩ := hl
    simp only at e
    subst e
    refine ⟨fun e => ?_, fun out => ?_, ?_⟩
    · constructor <;> intro h <;> cases h
    · constructor
      · rintro ⟨w', h⟩
        injection h with h
        injection h with _ h
        subst h
        exact ⟨N1, rfl⟩
      · rintro ⟨w', h⟩
        injection h with h
        injection h with _ h
        subst h
        exact ⟨w1, rfl⟩
    · rintro w' out h
      injection h with h
      injection h with e1 e2
      subst e1 e2
      obtain ⟨a1, a2⟩ := shows_alone.mp h1
      exact ⟨⟨h5, fun id s hs hno => (h6 id (hb id s hs) hno).trans hs, h7⟩, F', N1, a1, a2, rfl⟩

/-! ### Sessions -/

/-- The rule: a segment is appended to a file by the list the file was made with, and only while it
is in no file; other changes of a list only remove segments or put them into another order. -/
def Careful (w : World P IO) : Op P IO → Prop
  | .append f k id => (∀ F, w.files f = some F → F.ref k ≠ none) ∧
      ∀ g G k', w.files g = some G → id ∉ G.ids k'
  | .list f k ref l => (ref = none ∨ ref = some f) ∧ l.Nodup ∧
      ∀ F, w.files f = some F → ∀ id ∈ l, id ∈ F.ids k
  | _ => True

/-- The worlds reached by following the rule. -/
inductive Followed : World P IO → Prop where
  | start : Followed (World.empty P IO)
  | step {w w' : World P IO} (o : Op P IO) : Followed w → Careful w o → step w o = .ok w' →
      Followed w'

/-- What holds in such worlds. -/
structure Tidy (w : World P IO) : Prop where
  bounded : Bounded w
  nfiles : ∀ f F, w.files f = some F → f < w.nfiles
  owner : ∀ f F k id, w.files f = some F → id ∈ F.ids k → ∃ s, w.segs id = some s ∧
    s.owner = some f
  distinct : ∀ f F, w.files f = some F → Distinct F
  ref : ∀ f F k g, w.files f = some F → F.ref k = some g → g = f

theorem Tidy.unshared {w : World P IO} (h : Tidy w) {f : Nat} {F : OFile P}
    (hf : w.files f = some F) : Unshared w f F := by
  refine ⟨fun k id hid => ?_, (h.distinct f F hf).nodup, (h.distinct f F hf).apart⟩
  obtain ⟨s, h1, h2⟩ := h.owner f F k id hf hid
  refine ⟨s, h1, fun g G hg _ => ?_⟩
  rw [h2] at hg
  injection hg with hg
  exact hg.symm

/-- A file replaced by one with fewer segments. -/
theorem Tidy.setFile {w : World P IO} (h : Tidy w) {f : Nat} {F F' : OFile P}
    (hf : w.files f = some F) (ho : ∀ k, ∀ id ∈ F'.ids k, ∃ s, w.segs id = some s ∧ s.owner = some f)
    (hd : Distinct F') (hr : ∀ k g, F'.ref k = some g → g = f) : Tidy (w.setFile f F') where
  bounded := h.bounded
  nfiles := fun g G hG => by
    by_cases hg : g = f
    · subst hg; exact h.nfiles g F hf
    · exact h.nfiles g G ((upd_other _ _ hg).symm.trans hG)
  owner := fun g G k id hG hid => by
    by_cases hg : g = f
    · subst hg
      have : some F' = some G := (upd_same _ _ _).symm.trans hG
      injection this with this
      subst this
      exact ho k id hid
    · exact h.owner g G k id ((upd_other _ _ hg).symm.trans hG) hid
  distinct := fun g G hG => by
    by_cases hg : g = f
    · subst hg
      have : some F' = some G := (upd_same _ _ _).symm.trans hG
      injection this with this
      subst this
      exact hd
    · exact h.distinct g G ((upd_other _ _ hg).symm.trans hG)
  ref := fun g G k g' hG hk => by
    by_cases hg : g = f
    · subst hg
      have : some F' = some G := (upd_same _ _ _).symm.trans hG
      injection this with this
      subst this
      exact hr k g' hk
    · exact h.ref g G k g' ((upd_other _ _ hg).symm.trans hG) hk

/-- A segment changed that keeps its owner, or is in no file. -/
theorem Tidy.setSeg {w : World P IO} (h : Tidy w) {id : Nat} {s s' : OSeg P IO}
    (hs : w.segs id = some s)
    (ho : s'.owner = s.owner ∨ ∀ g G k, w.files g = some G → id ∉ G.ids k) :
    Tidy (w.setSeg id s') where
  bounded := fun i t ht => by
    by_cases hi : i = id
    · subst hi; exact h.bounded _ _ hs
    · exact h.bounded i t ((upd_other _ _ hi).symm.trans ht)
  nfiles := h.nfiles
  owner := fun f F k i hF hi => by
    obtain ⟨t, h1, h2⟩ := h.owner f F k i hF hi
    by_cases hid : i = id
    · subst hid
      rcases ho with ho | ho
      · rw [hs] at h1
        injection h1 with h1
        subst h1
        exact ⟨s', upd_same _ _ _, ho.trans h2⟩
      · exact absurd hi (ho f F k hF)
    · exact ⟨t, (upd_other _ _ hid).trans h1, h2⟩
  distinct := h.distinct
  ref := h.ref

theorem Tidy.addSeg {w : World P IO} (h : Tidy w) (s : OSeg P IO) : Tidy (w.addSeg s) where
  bounded := fun i t ht => by
    by_cases hi : i = w.nsegs
    · subst hi; exact Nat.lt_succ_self _
    · exact Nat.lt_succ_of_lt (h.bounded i t ((upd_other _ _ hi).symm.trans ht))
  nfiles := h.nfiles
  owner := fun f F k i hF hi => by
    obtain ⟨t, h1, h2⟩ := h.owner f F k i hF hi
    exact ⟨t, (upd_other _ _ (by have := h.bounded i t h1; omega)).trans h1, h2⟩
  distinct := h.distinct
  ref := h.ref

/-- The segments of a file that is read. -/
theorem addAll_spec (f : Nat) : ∀ (ss : List (Seg P.F IO.D)) (w : World P IO), Tidy w →
    Tidy (addAll f ss w).1 ∧ (addAll f ss w).1.files = w.files ∧
    (addAll f ss w).1.nfiles = w.nfiles ∧ w.nsegs ≤ (addAll f ss w).1.nsegs ∧
    (∀ id s, w.segs id = some s → (addAll f ss w).1.segs id = some s) ∧
    (addAll f ss w).2.Nodup ∧
    ∀ id ∈ (addAll f ss w).2, w.nsegs ≤ id ∧ id < (addAll f ss w).1.nsegs ∧
      ∃ s, (addAll f ss w).1.segs id = some s ∧ s.owner = some f := by
  intro ss
  induction ss with
  | nil =>
    intro w h
    unfold addAll
    exact ⟨h, rfl, rfl, Nat.le_refl _, fun _ _ h => h, List.nodup_nil, by simp⟩
  | cons s ss ih =>
    intro w h
    obtain ⟨a1, a2, a3, a4, a5, a6, a7⟩ := ih _ (h.addSeg ⟨some f, s⟩)
    have e : (w.addSeg ⟨some f, s⟩).nsegs = w.nsegs + 1 := rfl
    rw [e] at a4 a7
    have hnew : (addAll f ss (w.addSeg ⟨some f, s⟩)).1.segs w.nsegs = some ⟨some f, s⟩ :=
      a5 _ _ (upd_same _ _ _)
    unfold addAll
    dsimp only
    refine ⟨a1, a2, a3, by omega, ?_, List.nodup_cons.mpr ⟨?_, a6⟩, ?_⟩
    · intro id t ht
      refine a5 id t ?_
      exact (upd_other _ _ (by have := h.bounded id t ht; omega)).trans ht
    · intro hm
      have := (a7 _ hm).1
      omega
    · intro id hid
      rcases List.mem_cons.mp hid with rfl | hid
      · exact ⟨Nat.le_refl _, by omega, _, hnew, rfl⟩
      · obtain ⟨b1, b2, b3⟩ := a7 id hid
        exact ⟨by omega, b2, b3⟩

/-- A new file object. -/
theorem Tidy.newFile {w : World P IO} (h : Tidy w) {f : Nat} (hf : f = w.nfiles) {F : OFile P}
    (ho : ∀ k, ∀ id ∈ F.ids k, ∃ s, w.segs id = some s ∧ s.owner = some f)
    (hd : Distinct F) (hr : ∀ k g, F.ref k = some g → g = f) :
    Tidy { w.setFile f F with nfiles := f + 1 } := by
  have cases_ : ∀ g G, (w.setFile f F).files g = some G →
      (g = f ∧ G = F) ∨ (g ≠ f ∧ w.files g = some G) := by
    intro g G hG
    by_cases hg : g = f
    · subst hg
      have : some F = some G := (upd_same _ _ _).symm.trans hG
      injection this with this
      exact Or.inl ⟨rfl, this.symm⟩
    · exact Or.inr ⟨hg, (upd_other _ _ hg).symm.trans hG⟩
  refine ⟨h.bounded, fun g G hG => ?_, fun g G k id hG hid => ?_, fun g G hG => ?_,
    fun g G k g' hG hk => ?_⟩
  · rcases cases_ g G hG with ⟨rfl, _⟩ | ⟨_, hG⟩
    · exact Nat.lt_succ_self _
    · exact Nat.lt_succ_of_lt (hf ▸ h.nfiles g G hG)
  · rcases cases_ g G hG with ⟨rfl, rfl⟩ | ⟨_, hG⟩
    · exact ho k id hid
    · exact h.owner g G k id hG hid
  · rcases cases_ g G hG with ⟨rfl, rfl⟩ | ⟨_, hG⟩
    · exact hd
    · exact h.distinct g G hG
  · rcases cases_ g G hG with ⟨rfl, rfl⟩ | ⟨_, hG⟩
    · exact hr k g' hk
    · exact h.ref g G k g' hG hk

theorem Tidy.write {w w' : World P IO} (h : Tidy w) {f : Nat} {out : Bytes}
    (hw : Owner.write f w = .ok (w', out)) : Tidy w' := by
  cases hf : w.files f with
  | none => unfold Owner.write at hw; rw [hf] at hw; cases hw
  | some F =>
    have hu := h.unshared hf
    obtain ⟨N, hN⟩ := exists_alone (w := w) (F := F) fun k id hid => by
      obtain ⟨s, hs, _⟩ := hu.owner k id hid
      exact ⟨s, hs⟩
    have hl := write_lock h.bounded (hN f hf) hu.own ⟨hu.nodup, hu.apart⟩
    rw [hw] at hl
    cases hr : writeFile P F.env IO N with
    | error e => rw [hr] at hl; exact hl.elim
    | ok b =>
      rw [hr] at hl
      obtain ⟨_, ⟨F', h1, _, h3, h4, h4r⟩, h5, h6, h7, h8, h8f, h9⟩ := hl
      simp only at h1 h5 h6 h7 h8 h8f h9
      have hsome : ∀ k, ∀ id ∈ F'.ids k, ∃ s, w'.segs id = some s ∧ s.owner = some f := by
        intro k id hid
        have old : id ∈ F.ids k → ∃ s, w'.segs id = some s ∧ s.owner = some f := by
          intro hid
          obtain ⟨s, a, b⟩ := h.owner f F k id hf hid
          obtain ⟨s', c, d⟩ := h7 id s a
          exact ⟨s', c, d.trans b⟩
        by_cases hk : k = .des
        · subst hk
          rcases h4.mem id hid with hh | hh
          · exact old hh
          · have : ∃ s, w'.segs id = some s := by
              have hv := h1.views .des
              have : ∀ (ids : List Nat) (ss : List (Seg P.F IO.D)), Views w' ids ss →
                  ∀ id ∈ ids, ∃ s, w'.segs id = some s := by
                intro ids ss hv
                unfold Views at hv
                induction hv with
                | nil => intro id hid; cases hid
                | cons hh _ ih =>
                  intro id hid
                  rcases List.mem_cons.mp hid with rfl | hid
                  · obtain ⟨o, ho, _⟩ := hh; exact ⟨o, ho⟩
                  · exact ih id hid
              exact this _ _ hv id hid
            obtain ⟨s, hs⟩ := this
            refine ⟨s, hs, h8f id s hs ?_⟩
            cases hn : w.segs id with
            | none => rfl
            | some t => have := h.bounded id t hn; omega
        · rw [h3 k hk] at hid
          exact old hid
      have cases_ : ∀ g G, w'.files g = some G →
          (g = f ∧ G = F') ∨ (g ≠ f ∧ w.files g = some G) := by
        intro g G hG
        by_cases hg : g = f
        · subst hg
          rw [h1.file] at hG
          injection hG with hG
          exact Or.inl ⟨rfl, hG.symm⟩
        · exact Or.inr ⟨hg, (h5 g hg).symm.trans hG⟩
      refine ⟨h8, fun g G hG => ?_, fun g G k id hG hid => ?_, fun g G hG => ?_,
        fun g G k g' hG hk => ?_⟩
      · rw [h9]
        rcases cases_ g G hG with ⟨rfl, _⟩ | ⟨_, hG⟩
        · exact h.nfiles g F hf
        · exact h.nfiles g G hG
      · rcases cases_ g G hG with ⟨rfl, rfl⟩ | ⟨_, hG⟩
        · exact hsome k id hid
        · obtain ⟨s, a, b⟩ := h.owner g G k id hG hid
          obtain ⟨s', c, d⟩ := h7 id s a
          exact ⟨s', c, d.trans b⟩
      · rcases cases_ g G hG with ⟨rfl, rfl⟩ | ⟨_, hG⟩
        · have one : ∀ k, k ≠ .des → ∀ id ∈ G.ids k, id ∉ G.ids .des := by
            intro k hk id hid hdes
            rw [h3 k hk] at hid
            rcases h4.mem id hdes with hh | hh
            · exact hu.apart k .des hk id hid hh
            · obtain ⟨s, hs, _⟩ := hu.owner k id hid
              have := h.bounded id s hs
              omega
          refine ⟨fun k => ?_, fun k k' hkk id hid hid' => ?_⟩
          · by_cases hk : k = .des
            · subst hk; exact h4.nodup
            · rw [h3 k hk]; exact hu.nodup k
          · by_cases hk : k = .des
            · subst hk
              exact one k' (Ne.symm hkk) id hid' hid
            · by_cases hk' : k' = .des
              · subst hk'; exact one k hk id hid hid'
              · rw [h3 k hk] at hid
                rw [h3 k' hk'] at hid'
                exact hu.apart k k' hkk id hid hid'
        · exact h.distinct g G hG
      · rcases cases_ g G hG with ⟨rfl, rfl⟩ | ⟨_, hG⟩
        · rw [h4r] at hk
          split at hk
          · injection hk with hk; exact hk.symm
          · exact h.ref g F k g' hf hk
        · exact h.ref g G k g' hG hk

theorem Tidy.empty : Tidy (World.empty P IO) := by
  refine ⟨fun _ _ h => ?_, fun _ _ h => ?_, fun _ _ _ _ h => ?_, fun _ _ h => ?_,
    fun _ _ _ _ h => ?_⟩ <;> cases h

theorem Tidy.step {w w' : World P IO} (h : Tidy w) {o : Op P IO} (hc : Careful w o)
    (hs : Owner.step w o = .ok w') : Tidy w' := by
  unfold Owner.step at hs
  cases o with
  | newFile H E =>
    injection hs with hs
    subst hs
    refine h.newFile rfl ?_ ⟨fun _ => List.nodup_nil, ?_⟩ ?_
    · intro k id hid; cases hid
    · intro k k' _ id hid; cases hid
    · intro k g hg; injection hg with hg; exact hg.symm
  | readFile H E tres segs =>
    injection hs with hs
    obtain ⟨a1, a2, a3, a4, a5, a6, a7⟩ := addAll_spec w.nfiles (segs .image) w h
    obtain ⟨b1, b2, b3, b4, b5, b6, b7⟩ := addAll_spec w.nfiles (segs .graphic) _ a1
    obtain ⟨c1, c2, c3, c4, c5, c6, c7⟩ := addAll_spec w.nfiles (segs .text) _ b1
    obtain ⟨d1, d2, d3, d4, d5, d6, d7⟩ := addAll_spec w.nfiles (segs .des) _ c1
    obtain ⟨e1, e2, e3, e4, e5, e6, e7⟩ := addAll_spec w.nfiles (segs .res) _ d1
    revert hs
    dsimp only
    generalize addAll w.nfiles (segs .image) w = r1 at *
    generalize addAll w.nfiles (segs .graphic) r1.1 = r2 at *
    generalize addAll w.nfiles (segs .text) r2.1 = r3 at *
    generalize addAll w.nfiles (segs .des) r3.1 = r4 at *
    generalize addAll w.nfiles (segs .res) r4.1 = r5 at *
    intro hs
    subst hs
    refine e1.newFile (by rw [e3, d3, c3, b3, a3]) ?_ ⟨?_, ?_⟩ ?_
    · intro k id hid
      cases k
      · obtain ⟨_, _, s, x, y⟩ := a7 id hid
        exact ⟨s, e5 _ _ (d5 _ _ (c5 _ _ (b5 _ _ x))), y⟩
      · obtain ⟨_, _, s, x, y⟩ := b7 id hid
        exact ⟨s, e5 _ _ (d5 _ _ (c5 _ _ x)), y⟩
      · obtain ⟨_, _, s, x, y⟩ := c7 id hid
        exact ⟨s, e5 _ _ (d5 _ _ x), y⟩
      · obtain ⟨_, _, s, x, y⟩ := d7 id hid
        exact ⟨s, e5 _ _ x, y⟩
      · obtain ⟨_, _, s, x, y⟩ := e7 id hid
        exact ⟨s, x, y⟩
    · intro k
      cases k <;> assumption
    · intro k k' hkk id hid hid'
      have rng : ∀ (k : SegKind) (id : Nat), id ∈ (match k with
          | .image => r1.2 | .graphic => r2.2 | .text => r3.2 | .des => r4.2 | .res => r5.2) →
          match k with
          | .image => w.nsegs ≤ id ∧ id < r1.1.nsegs
          | .graphic => r1.1.nsegs ≤ id ∧ id < r2.1.nsegs
          | .text => r2.1.nsegs ≤ id ∧ id < r3.1.nsegs
          | .des => r3.1.nsegs ≤ id ∧ id < r4.1.nsegs
          | .res => r4.1.nsegs ≤ id ∧ id < r5.1.nsegs := by
        intro k id h
        cases k
        · exact ⟨(a7 id h).1, (a7 id h).2.1⟩
        · exact ⟨(b7 id h).1, (b7 id h).2.1⟩
        · exact ⟨(c7 id h).1, (c7 id h).2.1⟩
        · exact ⟨(d7 id h).1, (d7 id h).2.1⟩
        · exact ⟨(e7 id h).1, (e7 id h).2.1⟩
      have q1 := rng k id hid
      have q2 := rng k' id hid'
      cases k <;> cases k' <;> first
        | exact hkk rfl
        | (simp only at q1 q2
           omega)
    · intro k g hg; cases hg
  | newSeg o s =>
    injection hs with hs
    subst hs
    exact h.addSeg _
  | append f k id =>
    obtain ⟨hc1, hc2⟩ := hc
    cases hf : w.files f with
    | none => simp only [hf] at hs; cases hs
    | some F =>
      cases hsg : w.segs id with
      | none => simp only [hf, hsg] at hs; cases hs
      | some s =>
        simp only [hf, hsg] at hs
        cases hr : F.ref k with
        | none => exact absurd hr (hc1 F hf)
        | some g =>
          have hg := h.ref f F k g hf hr
          subst hg
          simp only [hr] at hs
          injection hs with hs
          subst hs
          have h1 : Tidy (w.setSeg id { s with owner := some g }) :=
            h.setSeg hsg (Or.inr hc2)
          have hu := h.unshared hf
          have : (w.setFile g (setIds F k (some g) (F.ids k ++ [id]))).setSeg id
              { s with owner := some g } =
              (w.setSeg id { s with owner := some g }).setFile g
                (setIds F k (some g) (F.ids k ++ [id])) := rfl
          rw [this]
          have hid : ∀ k', ∀ j ∈ (setIds F k (some g) (F.ids k ++ [id])).ids k',
              j ∈ F.ids k' ∨ (k' = k ∧ j = id) := by
            intro k' j hj
            unfold setIds at hj
            simp only at hj
            split at hj
            · rename_i hk
              subst hk
              rcases List.mem_append.mp hj with hj | hj
              · exact Or.inl hj
              · exact Or.inr ⟨rfl, by simpa using hj⟩
            · exact Or.inl hj
          refine h1.setFile hf ?_ ⟨?_, ?_⟩ ?_
          · intro k' j hj
            rcases hid k' j hj with hj | ⟨rfl, rfl⟩
            · exact h1.owner g F k' j hf hj
            · exact ⟨_, upd_same _ _ _, rfl⟩
          · intro k'
            unfold setIds
            simp only
            split
            · refine List.nodup_append.mpr ⟨hu.nodup k, by simp, ?_⟩
              rintro a ha b hb rfl
              rw [List.mem_singleton] at hb
              subst hb
              exact hc2 g F k hf ha
            · exact hu.nodup k'
          · intro k1 k2 hkk j hj hj'
            rcases hid k1 j hj with a | ⟨rfl, rfl⟩
            · rcases hid k2 j hj' with b | ⟨rfl, rfl⟩
              · exact hu.apart k1 k2 hkk j a b
              · exact hc2 g F k1 hf a
            · rcases hid k2 j hj' with b | ⟨rfl, _⟩
              · exact hc2 g F k2 hf b
              · exact hkk rfl
          · intro k' g' hg'
            unfold setIds at hg'
            simp only at hg'
            split at hg'
            · injection hg' with hg'; exact hg'.symm
            · exact h.ref g F k' g' hf hg'
  | list f k ref l =>
    obtain ⟨hc1, hc2, hc3⟩ := hc
    cases hf : w.files f with
    | none => simp only [hf] at hs; cases hs
    | some F =>
      simp only [hf] at hs
      split at hs
      · injection hs with hs
        subst hs
        have hu := h.unshared hf
        have hid : ∀ k', ∀ j ∈ (setIds F k ref l).ids k', j ∈ F.ids k' := by
          intro k' j hj
          unfold setIds at hj
          simp only at hj
          split at hj
          · rename_i hk
            subst hk
            exact hc3 F hf j hj
          · exact hj
        refine h.setFile hf ?_ ⟨?_, ?_⟩ ?_
        · intro k' j hj
          exact h.owner f F k' j hf (hid k' j hj)
        · intro k'
          unfold setIds
          simp only
          split
          · exact hc2
          · exact hu.nodup k'
        · intro k1 k2 hkk j hj hj'
          exact hu.apart k1 k2 hkk j (hid k1 j hj) (hid k2 j hj')
        · intro k' g' hg'
          unfold setIds at hg'
          simp only at hg'
          split at hg'
          · rcases hc1 with rfl | rfl
            · cases hg'
            · injection hg' with hg'; exact hg'.symm
          · exact h.ref f F k' g' hf hg'
      · cases hs
  | editFile f H tres =>
    cases hf : w.files f with
    | none => simp only [hf] at hs; cases hs
    | some F =>
      simp only [hf] at hs
      injection hs with hs
      subst hs
      exact h.setFile hf (fun k id hid => h.owner f F k id hf hid)
        ⟨(h.distinct f F hf).nodup, (h.distinct f F hf).apart⟩ fun k g hg => h.ref f F k g hf hg
  | editSeg id s =>
    cases hsg : w.segs id with
    | none => simp only [hsg] at hs; cases hs
    | some o =>
      simp only [hsg] at hs
      injection hs with hs
      subst hs
      exact h.setSeg hsg (Or.inl rfl)
  | drop f =>
    injection hs with hs
    subst hs
    have old : ∀ g G, (upd w.files f none) g = some G → w.files g = some G := by
      intro g G hG
      by_cases hg : g = f
      · subst hg
        rw [upd_same] at hG
        cases hG
      · rwa [upd_other _ _ hg] at hG
    exact ⟨h.bounded, fun g G hG => h.nfiles g G (old g G hG),
      fun g G k id hG => h.owner g G k id (old g G hG), fun g G hG => h.distinct g G (old g G hG),
      fun g G k g' hG => h.ref g G k g' (old g G hG)⟩
  | write f =>
    simp only at hs
    cases hw : Owner.write f w with
    | error e => rw [hw] at hs; cases hs
    | ok r =>
      obtain ⟨w1, out⟩ := r
      rw [hw] at hs
      injection hs with hs
      subst hs
      exact h.write hw

theorem Followed.tidy {w : World P IO} (h : Followed w) : Tidy w := by
  induction h with
  | start => exact Tidy.empty
  | step o _ hc hs ih => exact ih.step hc hs

/-- C80, the part that holds (2): after any session that follows the rule, whatever files were made,
read, written, changed or dropped in it, the header of a file written describes all its segments, and
writing it changes no other file and no segment of another file. -/
theorem C80_session_partial {w w' : World P IO} (hw : Followed w) {f : Nat} {F : OFile P}
    (hf : w.files f = some F) (hlit : NoLit F.header) {out : Bytes}
    (h : Owner.write f w = .ok (w', out)) :
    (∀ g, g ≠ f → w'.files g = w.files g) ∧
    (∀ g G k id, g ≠ f → w.files g = some G → id ∈ G.ids k → w'.segs id = w.segs id) ∧
    ∃ (R : Store P.F) (parts : SegKind → List (Bytes × Bytes)),
      readStruct P Tables.t_file_header false out = .ok (R, partsBytes parts) ∧
      getAttr P Tables.t_file_header R (n!"fl") [] = .ok (.int (out.length : Nat)) ∧
      ∀ k, getAttr P Tables.t_file_header R k.numField [] = .ok (.int ((parts k).length : Nat)) ∧
        (k ≠ .des → Each (fun id p => ∃ s, w'.segs id = some s ∧ WrittenAs P IO k s.seg p)
          (F.ids k) (parts k)) ∧
        ∀ (i : Nat) p, (parts k)[i]? = some p →
          getAttr P Tables.t_file_header R k.lenFields.1 [(i : Int)] =
            .ok (.int (p.1.length : Nat)) ∧
          getAttr P Tables.t_file_header R k.lenFields.2 [(i : Int)] =
            .ok (.int (p.2.length : Nat)) := by
  have ht := hw.tidy
  have hu := ht.unshared hf
  obtain ⟨N, hN⟩ := exists_alone (w := w) (F := F) fun k id hid => by
    obtain ⟨s, hs, _⟩ := hu.owner k id hid
    exact ⟨s, hs⟩
  have hs := hN f hf
  have hl := write_lock ht.bounded hs hu.own ⟨hu.nodup, hu.apart⟩
  rw [h] at hl
  cases hr : writeFile P F.env IO N with
  | error e => rw [hr] at hl; exact hl.elim
  | ok b =>
    obtain ⟨N', out'⟩ := b
    rw [hr] at hl
    obtain ⟨e, ⟨F', h1, _, h3, _⟩, h5, h6, _⟩ := hl
    simp only at e h1 h5 h6
    subst e
    have hlink : ∀ k, ∀ s ∈ N.segs k, s.linked = true := by
      intro k s hs'
      have : ∀ (ids : List Nat) (ss : List (Seg P.F IO.D)), Views w ids ss →
          ∀ s ∈ ss, ∃ id ∈ ids, ∃ o, w.segs id = some o ∧ s = w.view o := by
        intro ids ss hv
        unfold Views at hv
        induction hv with
        | nil => intro s hs; cases hs
        | cons hh _ ih =>
          intro s hs
          rcases List.mem_cons.mp hs with rfl | hs
          · obtain ⟨o, ho⟩ := hh; exact ⟨_, by simp, o, ho⟩
          · obtain ⟨id, hid, o, ho⟩ := ih s hs
            exact ⟨id, by simp [hid], o, ho⟩
      obtain ⟨id, hid, o, ho, rfl⟩ := this _ _ (hs.views k) s hs'
      obtain ⟨s1, q1, q2⟩ := ht.owner f F k id hf hid
      rw [ho] at q1
      injection q1 with q1
      subst q1
      exact (view_linked w o).mpr ⟨f, F, q2, hf⟩
    obtain ⟨hb, parts, des, c1, c2, c3, c4, R, c5, c6, c7, c8⟩ :=
      C25_lengths P F.env IO hr (by rw [← hs.header]; exact hlit) hlink
    refine ⟨h5, ?_, R, parts, c5, c6, fun k => ⟨(c8 k).1, fun hk => ?_, (c8 k).2⟩⟩
    · intro g G k id hg hG hid
      obtain ⟨s, q1, q2⟩ := ht.owner g G k id hG hid
      refine h6 id (ht.bounded id s q1) fun k' hid' => ?_
      obtain ⟨s', r1, r2⟩ := ht.owner f F k' id hf hid'
      rw [q1] at r1
      injection r1 with r1
      subst r1
      rw [q2] at r2
      injection r2 with r2
      exact hg r2
    · have hv := h1.views k
      rw [h3 k hk] at hv
      have := c2 k hk
      revert hv this
      generalize F.ids k = ids
      generalize N'.segs k = ss
      generalize parts k = ps
      intro hv hp
      unfold Views at hv
      induction hv generalizing ps with
      | nil => cases hp; exact .nil
      | cons hh _ ih =>
        cases hp with
        | cons hp1 hp2 =>
          obtain ⟨o, ho, rfl⟩ := hh
          exact .cons ⟨o, ho, hp1⟩ (ih _ hp2)

/-! ### What a segment that belongs to another file does -/

/-- What any part of a write keeps, whoever the segments belong to. -/
structure Loose (f : Nat) (w w' : World P IO) : Prop where
  owners : ∀ id s, w.segs id = some s → ∃ s', w'.segs id = some s' ∧ s'.owner = s.owner
  locs : ∀ g G, g ≠ f → w.files g = some G → ∃ G', w'.files g = some G' ∧ G'.loc = G.loc

theorem Loose.refl (f : Nat) (w : World P IO) : Loose f w w :=
  ⟨fun _ s h => ⟨s, h, rfl⟩, fun _ G _ h => ⟨G, h, rfl⟩⟩

theorem Loose.trans {f : Nat} {w1 w2 w3 : World P IO} (h : Loose f w1 w2) (h' : Loose f w2 w3) :
    Loose f w1 w3 := by
  refine ⟨fun id s hs => ?_, fun g G hg hG => ?_⟩
  · obtain ⟨s1, a, b⟩ := h.owners id s hs
    obtain ⟨s2, c, d⟩ := h'.owners id s1 a
    exact ⟨s2, c, d.trans b⟩
  · obtain ⟨G1, a, b⟩ := h.locs g G hg hG
    obtain ⟨G2, c, d⟩ := h'.locs g G1 hg a
    exact ⟨G2, c, d.trans b⟩

theorem Frame.loose {f : Nat} {w w' : World P IO} {t : List Nat} (h : Frame f w w' t) :
    Loose f w w' :=
  ⟨h.owners, fun g G hg hG => ⟨G, (h.others g hg).trans hG, rfl⟩⟩

theorem updateFile_ok {g : Nat} {nm : Name} {key : Key} {v : Nat} {st st' : World P IO × FileH}
    (h : updateFile g nm key v st = .ok st') :
    ∃ G n S' o b, st.1.files g = some G ∧ resolve Tables.t_file_header.tab nm = some n ∧
      G.loc n key = some o ∧ st'.1 = st.1.setFile g { G with header := S' } ∧
      st'.2 = ⟨padOver st.2.bytes o b, st.2.pos⟩ := by
  unfold updateFile at h
  split at h
  · cases h
  · rename_i G hG
    split at h
    · cases h
    · rename_i n hn
      split at h
      · cases h
      · rename_i S' _
        split at h
        · cases h
        · split at h
          · cases h
          · cases h
          · split at h
            · cases h
            · rename_i o ho
              split at h
              · cases h
              · rename_i b _
                injection h with h
                subst h
                exact ⟨G, n, S', o, b, hG, hn, ho, rfl, rfl⟩

theorem setFile_loose (f : Nat) {w : World P IO} {g : Nat} {G G' : OFile P}
    (h : w.files g = some G) (hl : G'.loc = G.loc) : Loose f w (w.setFile g G') := by
  refine ⟨fun _ s h => ⟨s, h, rfl⟩, fun g' G1 _ hG1 => ?_⟩
  by_cases hg : g' = g
  · subst hg
    rw [h] at hG1
    injection hG1 with hG1
    subst hG1
    exact ⟨G', upd_same _ _ _, hl⟩
  · exact ⟨G1, (upd_other _ _ hg).trans hG1, rfl⟩

theorem setSelf_loose (f : Nat) (w : World P IO) (F : OFile P) : Loose f w (w.setFile f F) :=
  ⟨fun _ s h => ⟨s, h, rfl⟩, fun _ G hg hG => ⟨G, (upd_other _ _ hg).trans hG, rfl⟩⟩

theorem updateFile_loose (f : Nat) {g : Nat} {nm : Name} {key : Key} {v : Nat}
    {st st' : World P IO × FileH} (h : updateFile g nm key v st = .ok st') : Loose f st.1 st'.1 := by
  obtain ⟨G, n, S', o, b, h1, _, _, h4, _⟩ := updateFile_ok h
  rw [h4]
  exact setFile_loose f h1 rfl

theorem updateOwner_loose (f : Nat) {k : SegKind} {i : Nat} {owner : Option Nat} {a b : Nat}
    {st st' : World P IO × FileH} (h : updateOwner k i owner a b st = .ok st') :
    Loose f st.1 st'.1 := by
  unfold updateOwner at h
  split at h
  · injection h with h; subst h; exact Loose.refl _ _
  · split at h
    · injection h with h; subst h; exact Loose.refl _ _
    · split at h
      · cases h
      · rename_i h1
        exact (updateFile_loose f h1).trans (updateFile_loose f h)

theorem writeOne_loose (f : Nat) {k : SegKind} {i id : Nat} {st st' : World P IO × FileH}
    (h : writeOne k i id st = .ok st') : Loose f st.1 st'.1 := by
  unfold writeOne at h
  split at h
  · cases h
  · rename_i s hs
    split at h
    · cases h
    · exact (Frame.loose (frame_setSeg f hs _)).trans (updateOwner_loose f h)

/-- Every segment of the list was written, each in a world like the first. -/
theorem writeIds_each (f : Nat) {k : SegKind} : ∀ {ids : List Nat} {i : Nat}
    {st st' : World P IO × FileH}, writeIds k i ids st = .ok st' → Loose f st.1 st'.1 ∧
      ∀ j id, ids[j]? = some id → ∃ a b, Loose f st.1 a.1 ∧ writeOne k (i + j) id a = .ok b := by
  intro ids
  induction ids with
  | nil =>
    intro i st st' h
    unfold writeIds at h
    injection h with h
    subst h
    exact ⟨Loose.refl _ _, by simp⟩
  | cons x ids ih =>
    intro i st st' h
    unfold writeIds at h
    split at h
    · cases h
    · rename_i st1 h1
      have l1 := writeOne_loose f h1
      obtain ⟨l2, h2⟩ := ih h
      refine ⟨l1.trans l2, fun j id hj => ?_⟩
      cases j with
      | zero =>
        simp only [List.getElem?_cons_zero, Option.some.injEq] at hj
        subst hj
        exact ⟨st, st1, Loose.refl _ _, h1⟩
      | succ j =>
        obtain ⟨a, b, q1, q2⟩ := h2 j id (by simpa using hj)
        exact ⟨a, b, l1.trans q1, by rwa [show i + 1 + j = i + (j + 1) by omega] at q2⟩

theorem addDes_loose (f : Nat) {w : World P IO} (hb : Bounded w) (des : List Nat)
    (o : Option (Seg P.F IO.D)) : Loose f w (addDes f w des o).1 ∧ Bounded (addDes f w des o).1 := by
  cases o with
  | none => exact ⟨Loose.refl _ _, hb⟩
  | some s =>
    have := frame_addSeg f hb s []
    exact ⟨this.loose, this.bounded hb⟩

theorem prepareIds_loose (f : Nat) {k : SegKind} : ∀ {ids : List Nat} {i : Nat}
    {st st' : World P IO × List Nat}, Bounded st.1 → prepareIds f k i ids st = .ok st' →
    Loose f st.1 st'.1 ∧ Bounded st'.1 := by
  intro ids
  induction ids with
  | nil =>
    intro i st st' hb h
    unfold prepareIds at h
    injection h with h
    subst h
    exact ⟨Loose.refl _ _, hb⟩
  | cons x ids ih =>
    rintro i ⟨w, des⟩ st' hb h
    unfold prepareIds at h
    split at h
    · injection h with h
      subst h
      exact ⟨Loose.refl _ _, hb⟩
    · split at h
      · cases h
      · rename_i s hs
        split at h
        · cases h
        · rename_i S' o _
          have f1 := frame_setSeg f hs { s.seg with sub := S' }
          obtain ⟨l2, b2⟩ := addDes_loose f (f1.bounded hb) des o
          obtain ⟨l3, b3⟩ := ih b2 h
          exact ⟨(f1.loose.trans l2).trans l3, b3⟩

/-- C80 is false: a segment that was last appended to another file `g` (still alive) makes writing
`f` fail unless `g` has been written with as many segments of that kind. -/
theorem C80_raises {w : World P IO} (hb : ∀ id s, w.segs id = some s → id < w.nsegs) {f g : Nat}
    {F G : OFile P} (hf : w.files f = some F) (hg : w.files g = some G) (hfg : g ≠ f) {k : SegKind}
    (hk : k ≠ .des) {i id : Nat} (hi : (F.ids k)[i]? = some id) {s : OSeg P IO}
    (hs : w.segs id = some s) (ho : s.owner = some g)
    (hloc : G.loc (lenPos k) [(i : Int)] = none ∨ G.loc (dataPos k) [(i : Int)] = none) :
    ∀ r, Owner.write f w ≠ .ok r := by
  intro r h
  -- the segment is written in a world where it still belongs to `g`
  have bad : ∀ {a b : World P IO × FileH}, Loose f w a.1 → writeOne k (0 + i) id a ≠ .ok b := by
    intro a b hl h
    obtain ⟨s', hs', ho'⟩ := hl.owners id s hs
    obtain ⟨G', hG', hG'l⟩ := hl.locs g G hfg hg
    unfold writeOne at h
    simp only [hs'] at h
    split at h
    · cases h
    · unfold updateOwner at h
      rw [ho', ho] at h
      simp only [Nat.zero_add] at h
      have : ∀ x, (a.1.setSeg id x).files g = some G' := fun _ => hG'
      simp only [this] at h
      split at h
      · cases h
      · rename_i h1
        obtain ⟨G1, n1, S1, o1, b1, p1, p2, p3, p4, _⟩ := updateFile_ok h1
        obtain ⟨G2, n2, S2, o2, b2, q1, q2, q3, _⟩ := updateFile_ok h
        simp only [this] at p1
        injection p1 with p1
        subst p1
        rw [(lenField k).res] at p2
        injection p2 with p2
        subst p2
        rw [(dataField k).res] at q2
        injection q2 with q2
        subst q2
        rw [p4] at q1
        have q1 : some _ = some _ := (upd_same _ _ _).symm.trans q1
        injection q1 with q1
        subst q1
        simp only at q3
        rw [hG'l] at p3 q3
        rcases hloc with hloc | hloc
        · rw [p3] at hloc; cases hloc
        · rw [q3] at hloc; cases hloc
  unfold Owner.write at h
  simp only [hf] at h
  obtain ⟨des0, _, h⟩ := bind_ok.mp h
  obtain ⟨⟨h0, o⟩, _, h⟩ := bind_ok.mp h
  obtain ⟨l1, b1⟩ := addDes_loose f hb des0 o
  obtain ⟨st2, e2, h⟩ := bind_ok.mp h
  obtain ⟨l2, b2⟩ := prepareIds_loose f b1 e2
  obtain ⟨st3, e3, h⟩ := bind_ok.mp h
  obtain ⟨l3, b3⟩ := prepareIds_loose f b2 e3
  obtain ⟨⟨w4, des⟩, e4, h⟩ := bind_ok.mp h
  obtain ⟨l4, _⟩ := prepareIds_loose f b3 e4
  have L4 : Loose f w w4 := ((l1.trans l2).trans l3).trans l4
  obtain ⟨h1, _, h⟩ := bind_ok.mp h
  obtain ⟨cs, _, h⟩ := bind_ok.mp h
  obtain ⟨st5, e5, h⟩ := bind_ok.mp h
  have L5 : Loose f w st5.1 := (L4.trans (setSelf_loose f w4 _)).trans (updateFile_loose f e5)
  obtain ⟨st6, e6, h⟩ := bind_ok.mp h
  obtain ⟨l6, a6⟩ := writeIds_each f e6
  obtain ⟨st7, e7, h⟩ := bind_ok.mp h
  obtain ⟨l7, a7⟩ := writeIds_each f e7
  obtain ⟨st8, e8, h⟩ := bind_ok.mp h
  obtain ⟨l8, a8⟩ := writeIds_each f e8
  obtain ⟨st9, e9, h⟩ := bind_ok.mp h
  obtain ⟨l9, _⟩ := writeIds_each f e9
  obtain ⟨st10, e10, h⟩ := bind_ok.mp h
  obtain ⟨_, a10⟩ := writeIds_each f e10
  have L6 := L5.trans l6
  have L7 := L6.trans l7
  have L8 := L7.trans l8
  have L9 := L8.trans l9
  cases k with
  | image => obtain ⟨a, b, q1, q2⟩ := a6 i id hi; exact bad (L5.trans q1) q2
  | graphic => obtain ⟨a, b, q1, q2⟩ := a7 i id hi; exact bad (L6.trans q1) q2
  | text => obtain ⟨a, b, q1, q2⟩ := a8 i id hi; exact bad (L7.trans q1) q2
  | des => exact hk rfl
  | res => obtain ⟨a, b, q1, q2⟩ := a10 i id hi; exact bad (L9.trans q1) q2

/-! ### Examples and witnesses -/

/-- A DES segment with some data, a text segment. -/
def exDes (b : Bytes) : Seg P0.F exIO.D := { linked := false, sub := Store.empty, data := .other b }
def exText : Seg P0.F exIO.D := { linked := false, sub := Store.empty, data := .other (asc "hi") }

/-- Files 0 and 1; segment 0 (a DES with three bytes) is appended to file 0, segment 1 (a text) and
segment 2 (a DES with one byte) to file 1. -/
def exApart : List (Op P0 exIO) :=
  [.newFile Store.empty exEnv, .newFile Store.empty exEnv, .newSeg none (exDes [7, 8, 9]),
   .newSeg none exText, .newSeg none (exDes [5]), .append 0 .des 0, .append 1 .text 1,
   .append 1 .des 2]

/-- The same, then segment 0 is appended to file 1 as well, and file 1 written. -/
def exBoth : List (Op P0 exIO) := exApart ++ [.append 1 .des 0, .write 1]

/-- The file 0 written after a session and read again: length of the data of each DES. -/
def exRead (ops : List (Op P0 exIO)) : Except Err (List Nat) := do
  let w ← run ops (World.empty P0 exIO)
  let (_, out) ← Owner.write 0 w
  let f ← Verif.readFile P0 exEnv exIO out
  return f.des.map fun s => match s.data with | .overflow b => b.length | .other b => b.length

/-- A session following the rule: two files, a segment in each. -/
def exRule : List (Op P0 exIO) :=
  [.newFile Store.empty exEnv, .newFile Store.empty exEnv, .newSeg none exText, .newSeg none exText,
   .append 0 .text 0, .append 1 .text 1]

theorem followed_run {ops : List (Op P IO)} : ∀ {w w' : World P IO}, Followed w →
    (∀ pre o post, ops = pre ++ o :: post → ∀ v, run pre w = .ok v → Careful v o) →
    run ops w = .ok w' → Followed w' := by
  induction ops with
  | nil => intro w w' h _ hr; injection hr with hr; subst hr; exact h
  | cons o ops ih =>
    intro w w' h hc hr
    unfold run at hr
    cases hs : step w o with
    | error e => rw [hs] at hr; cases hr
    | ok v =>
      rw [hs] at hr
      refine ih (.step o h (hc [] o ops rfl w rfl) hs) (fun pre o' post he u hu => ?_) hr
      refine hc (o :: pre) o' post (by rw [he]; rfl) u ?_
      unfold run
      rw [hs]
      exact hu

/-- The hypotheses of `C80_session_partial` hold after `exRule` for file 0, and it can be written. -/
example : ∃ w F, run exRule (World.empty P0 exIO) = .ok w ∧ Followed w ∧ w.files 0 = some F ∧
    NoLit F.header ∧ (F.ids .text) = [0] := by
  refine ⟨_, _, rfl, followed_run (ops := exRule) .start ?_ rfl, rfl, NoLit.empty, rfl⟩
  intro pre o post he v hv
  -- the two appends are the only operations the rule restricts
  match pre, he with
  | [], he => injection he with he _; subst he; trivial
  | [_], he => injection he with _ he; injection he with he _; subst he; trivial
  | [_, _], he => injection he with _ he; injection he with _ he; injection he with he _; subst he; trivial
  | [_, _, _], he =>
    injection he with _ he; injection he with _ he; injection he with _ he; injection he with he _
    subst he; trivial
  | [_, _, _, _], he =>
    injection he with e0 he; injection he with e1 he; injection he with e2 he
    injection he with e3 he; injection he with he _
    subst e0 e1 e2 e3 he
    injection hv with hv
    subst hv
    refine ⟨fun F hF => ?_, fun g G k' hG => ?_⟩
    · injection hF with hF; subst hF; intro h; cases h
    · simp only [World.setFile, World.addSeg, World.empty, upd] at hG
      repeat' split at hG
      all_goals first | (injection hG with hG; subst hG; simp) | cases hG
  | [_, _, _, _, _], he =>
    injection he with e0 he; injection he with e1 he; injection he with e2 he
    injection he with e3 he; injection he with e4 he; injection he with he _
    subst e0 e1 e2 e3 e4 he
    injection hv with hv
    subst hv
    refine ⟨fun F hF => ?_, fun g G k' hG => ?_⟩
    · injection hF with hF; subst hF; intro h; cases h
    · simp only [World.setFile, World.addSeg, World.empty, upd, World.setSeg, setIds] at hG
      repeat' split at hG
      all_goals first
        | (injection hG with hG; subst hG; simp only; split <;> simp)
        | (injection hG with hG; subst hG; simp)
        | cases hG
  | _ :: _ :: _ :: _ :: _ :: _ :: pre, he =>
    injection he with _ he; injection he with _ he; injection he with _ he; injection he with _ he
    injection he with _ he; injection he with _ he
    cases pre <;> cases he

example : ((run exRule (World.empty P0 exIO)).bind (Owner.write 0)).toOption.isSome = true := by
  decide +kernel

/-- The hypotheses of `C80_raises`: the text of file 0 is appended to file 1, which has not been
written. -/
example : ∃ w F G s, run (exRule ++ [.append 1 .text 0]) (World.empty P0 exIO) = .ok w ∧
    w.files 0 = some F ∧ w.files 1 = some G ∧ (F.ids .text)[0]? = some 0 ∧ w.segs 0 = some s ∧
    s.owner = some 1 ∧ G.loc (lenPos .text) [((0 : Nat) : Int)] = none :=
  ⟨_, _, _, _, rfl, rfl, rfl, rfl, rfl, rfl, rfl⟩

/-- C80 holds when the segment is in one file only. -/
example : exRead exApart = .ok [3] := by decide +kernel

/-- C80 is false: file 0 has the one segment it had before, but it is written so that it cannot be
read: the lengths of the segment were written where file 1 has them. -/
theorem C80_corrupted : (exRead exBoth).toOption = none ∧
    ((run exBoth (World.empty P0 exIO)).bind (Owner.write 0)).toOption.isSome = true := by
  decide +kernel

/-- C80 is false: if the file to which the segment was appended last is gone, the header says that the
segment has no data. -/
theorem C80_orphan : exRead (exBoth ++ [.drop 1]) = .ok [0] := by decide +kernel

/-- The length of the data of the first DES in the header of file 1. -/
def exOther (w : World P0 exIO) : Option (Except Err (Val P0.F)) :=
  (w.files 1).map fun F => getAttr P0 Tables.t_file_header F.header (n!"ld") [0]

/-- C80 is false: writing file 0 changes file 1, whose first DES had one byte. -/
theorem C80_other_changed :
    (run exBoth (World.empty P0 exIO)).toOption.map (fun w => (exOther w).map fun v =>
      v.toOption.map fun v => pyEq P0 v (.int 1)) = some (some (some true)) ∧
    (run (exBoth ++ [.write 0]) (World.empty P0 exIO)).toOption.map (fun w => (exOther w).map fun v =>
      v.toOption.map fun v => pyEq P0 v (.int 3)) = some (some (some true)) := by
  decide +kernel

end Verif.Owner
