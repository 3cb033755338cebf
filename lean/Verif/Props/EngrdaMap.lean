import Verif.EngrdaMap
import Verif.ReadReady
import Verif.Props.Engrda
import Verif.Props.Struct
import Verif.Props.Tre

/- C84: ENGRDA as a Python mapping, and in a file (model in `Verif/EngrdaMap.lean`). -/

namespace Verif

variable (P : PyFloat)

/-! ### Specification -/

/-- The tag of the TRE. -/
def engTag : Str := "ENGRDA".toList

/-- What a program does with an ENGRDA TRE over time: store an entry, or write the TRE to a file and
go on with the one read from it. -/
inductive EngAct where
  | put (op : EngOp)
  | file

/-- A sequence of these (`none`: an exception). -/
def engActs : List EngAct → Store P.F → Option (Store P.F)
  | [], S => some S
  | .put op :: r, S =>
    match op.run P S with
    | (S', none) => engActs r S'
    | (_, some _) => none
  | .file :: r, S =>
    match treWrite P (.known engTag engD S) with
    | .error _ => none
    | .ok w =>
      match readOne P shippedRegistry w with
      | .ok (.known _ _ R, []) => engActs r R
      | _ => none

/-- The calls in a sequence. -/
def EngAct.puts : List EngAct → List EngOp
  | [] => []
  | .put op :: r => op :: puts r
  | .file :: r => puts r

/-! ### Helpers -/

theorem loopRow_reach {d : Desc} {nm : Name} {n : Nat} {k : Kind} {ty : Ty} {shape : Expr}
    (h : LoopRow d nm n k ty shape) {S : Store P.F} {c : Int}
    (hb : evalShape P (look P d.tab S) shape [] = .ok c) {i : Int} (hi : 0 ≤ i ∧ i < c) :
    Reach P d.tab S n [i] := by
  obtain ⟨fi, h1, _, h3, _⟩ := h.at_
  refine ⟨fi, h1, by simp [FInfo.depth, h3], ?_⟩
  intro j e x he hx
  rw [h3] at he
  cases j with
  | zero =>
    simp only [List.getElem?_cons_zero, Option.some.injEq] at he hx
    subst he hx
    exact ⟨hi.1, c, hb, hi.2⟩
  | succ j => simp at hx

theorem row_reach {d : Desc} {nm : Name} {n : Nat} {ty : Ty} {cond : Option Expr} {size : Nat}
    (h : Row d nm n ty cond size) (S : Store P.F) : Reach P d.tab S n [] := by
  obtain ⟨fi, h1, h2, _⟩ := h.at_
  refine ⟨fi, h1, by simp [FInfo.depth, h2.shapes], ?_⟩
  intro j e x _ hx
  simp at hx

/-- Equal in range: the same entries. -/
theorem EngIs.transfer {S R : Store P.F} {es : List EngEntry} (h : EngIs P S es)
    (hr : ∀ n key, Reach P engD.tab S n key → getItem P engD.tab R n key = getItem P engD.tab S n key) :
    EngIs P R es := by
  have hcnt : getAttr P engD R (n!"recnt") [] = getAttr P engD S (n!"recnt") [] := by
    unfold getAttr
    rw [row_recnt.res]
    exact hr _ _ (row_reach P row_recnt S)
  have hlen : engCount P S = .ok (es.length : Int) := h.len
  have hshape : evalShape P (look P engD.tab S) recShape [] = .ok (es.length : Int) := by
    unfold engCount at hlen
    cases hg : getAttr P engD S (n!"recnt") [] with
    | error e => rw [hg] at hlen; cases hlen
    | ok v =>
      rw [hg] at hlen
      simp only [bind, Except.bind] at hlen
      cases v with
      | int k =>
        simp only [asInt] at hlen
        injection hlen with hlen
        subst hlen
        exact rec_shape P hg
      | none => cases hlen
      | str _ => cases hlen
      | bytes _ => cases hlen
      | flt _ => cases hlen
  have loop : ∀ {nm n k ty}, LoopRow engD nm n k ty recShape → ∀ {i : Nat}, i < es.length →
      getAttr P engD R nm [(i : Int)] = getAttr P engD S nm [(i : Int)] := by
    intro nm n k ty hl i hi
    unfold getAttr
    rw [hl.res]
    exact hr _ _ (loopRow_reach P hl hshape (i := (i : Int)) ⟨by omega, by omega⟩)
  refine ⟨?_, h.once, ?_, ?_⟩
  · rw [← h.len]
    unfold engLen engCount
    rw [hcnt]
  · intro i e hi
    rw [loop loop_englbl (lt_of_getElem? hi)]
    exact h.label i e hi
  · intro i e hi
    have hlt := lt_of_getElem? hi
    obtain ⟨d, h1, h2⟩ := h.item i e hi
    refine ⟨d, ?_, h2⟩
    rw [← h1]
    unfold engItem engDataAt
    rw [loop loop_engdata hlt, loop loop_engtyp hlt, loop loop_engdts hlt, loop loop_engmtxr hlt,
      loop loop_engmtxc hlt, loop loop_engdatu hlt]

theorem setAttr_noLit {d : Desc} {S : Store P.F} (h : NoLit S) (nm : Name) (key : Key) (v : Val P.F) :
    NoLit (setAttr P d S nm key v).1 := by
  unfold setAttr
  split
  · exact h
  · exact setItem_noLit P h _ _ _

theorem runSteps_noLit {l : List (Step P.F)} (hl : ∀ f ∈ l, ∀ S, NoLit S → NoLit (f S).1) :
    ∀ {S : Store P.F}, NoLit S → NoLit (runSteps l S).1 := by
  induction l with
  | nil => intro S h; exact h
  | cons f r ih =>
    intro S h
    have h1 := hl f List.mem_cons_self S h
    simp only [runSteps]
    cases hf : f S with
    | mk S' e =>
      rw [hf] at h1
      cases e with
      | none => exact ih (fun g hg => hl g (List.mem_cons_of_mem _ hg)) h1
      | some e => exact h1

theorem engSetRecord_noLit (i : Int) (label : Str) (data : EngData) (units : Str) (S : Store P.F)
    (h : NoLit S) : NoLit (engSetRecord P i label data units S).1 := by
  unfold engSetRecord
  refine runSteps_noLit P ?_ h
  intro f hf S h
  simp only [List.mem_cons, List.not_mem_nil, or_false] at hf
  rcases hf with rfl | rfl | rfl | rfl
  · exact setAttr_noLit P h _ _ _
  · exact setAttr_noLit P h _ _ _
  · simp only
    split
    · exact h
    · refine runSteps_noLit P ?_ h
      intro f hf S h
      simp only [List.mem_cons, List.not_mem_nil, or_false] at hf
      rcases hf with rfl | rfl <;> exact setAttr_noLit P h _ _ _
  · unfold engSetData
    split
    · exact h
    · refine runSteps_noLit P ?_ h
      intro f hf S h
      simp only [List.mem_cons, List.not_mem_nil, or_false] at hf
      rcases hf with rfl | rfl | rfl
      · exact setAttr_noLit P h _ _ _
      · exact setAttr_noLit P h _ _ _
      · simp only
        split
        · exact h
        · exact setAttr_noLit P h _ _ _

theorem engUpdate_noLit (key : EngKey) (data : EngData) (units : Str) (S : Store P.F) (h : NoLit S) :
    NoLit (engUpdate P key data units S).1 := by
  unfold engUpdate
  split
  · exact h
  · split
    · refine runSteps_noLit P ?_ h
      intro f hf S h
      simp only [List.mem_cons, List.not_mem_nil, or_false] at hf
      rcases hf with rfl | rfl
      · exact setAttr_noLit P h _ _ _
      · simp only
        split
        · exact h
        · exact engSetRecord_noLit P _ _ _ _ _ h
    · exact engSetRecord_noLit P _ _ _ _ _ h

/-- A TRE without literals and optional text is read back. -/
theorem readOne_known {tag : Str} {d : Desc} {reg : Registry} (htag : TagOk tag)
    (hd : d.causal = true) (hwf : d.allFields FieldDef.wf = true)
    (hs : d.allFields FieldDef.alwaysSurvives = true)
    (hreg : reg.lookup (tagBytes tag) = some (tag, d)) {S : Store P.F} (hl : NoLit S) {w : Bytes}
    (hw : treWrite P (.known tag d S) = .ok w) (rest : Bytes) :
    ∃ R, readOne P reg (w ++ rest) = .ok (.known tag d R, rest) ∧
      (∀ n key, Reach P d.tab S n key → getItem P d.tab R n key = getItem P d.tab S n key) ∧
      NoLit R := by
  obtain ⟨body, h1, _, h3, h4⟩ := treWrite_frame P (t := .known tag d S) htag hw
  simp only [Tre.body] at h1
  obtain ⟨cs, hc, hb⟩ := writeStruct_chunks P h1
  obtain ⟨R, r1, _, r3⟩ := C01_write_then_read P hd hwf hc (survives_of_values P hs hl) []
  rw [List.append_nil, ← hb] at r1
  refine ⟨R, ?_, r3, (readStruct_parsed r1).noLit⟩
  have htg : latin1Dec (rstripB (tagBytes tag)) = tag := by
    rw [htag.rstrip, latin1Dec_utf8Enc htag.ascii]
  rw [h3]
  unfold readOne
  rw [h4.take6]
  simp only [Tre.tag, hreg]
  rcases readKnown_frame P (tag := tag) hd h4 rest with ⟨_, R', q1, q2⟩ | ⟨q1, _⟩
  · simp only [Tre.tag] at q1 q2
    rw [r1] at q1
    injection q1 with q1
    injection q1 with q1 _
    subst q1
    rw [q2]
  · rcases q1 with q1 | q1
    · exact absurd htg q1
    · exact absurd r1 (q1 R)

theorem engD_wf : engD.allFields FieldDef.wf = true := by decide +kernel
theorem engD_survives : engD.allFields FieldDef.alwaysSurvives = true := by decide +kernel
theorem eng_mem : ("ENGRDA", engD) ∈ Tables.tres := by
  simp [Tables.tres]

/-! ### In a file -/

/-- C84.  An ENGRDA TRE that can be written is read back with the same entries in the same order. -/
theorem C84_file {S : Store P.F} {es : List EngEntry} (h : EngIs P S es) (hl : NoLit S) {w : Bytes}
    (hw : treWrite P (.known engTag engD S) = .ok w) (rest : Bytes) :
    ∃ R, readOne P shippedRegistry (w ++ rest) = .ok (.known engTag engD R, rest) ∧ EngIs P R es ∧
      NoLit R := by
  have htag : TagOk engTag := shipped_tagOk _ eng_mem
  obtain ⟨R, r1, r2, r3⟩ := readOne_known P htag engD_causal engD_wf engD_survives
    (shippedRegistry_lookup _ eng_mem) hl hw rest
  exact ⟨R, r1, h.transfer P r2, r3⟩

theorem engActs_is {acts : List EngAct} : ∀ {es : List EngEntry}, AllStore (EngAct.puts acts) es →
    ∀ {S0 S : Store P.F} {init : List EngEntry}, EngIs P S0 init → NoLit S0 →
    engActs P acts S0 = some S → EngIs P S (es.foldl engPut init) := by
  induction acts with
  | nil =>
    intro es hf S0 S init h _ hs
    simp only [EngAct.puts] at hf
    cases hf
    simp only [engActs, Option.some.injEq] at hs
    subst hs
    exact h
  | cons a r ih =>
    intro es hf S0 S init h hl hs
    cases a with
    | put op =>
      simp only [EngAct.puts] at hf
      cases hf with
      | cons h1 hr =>
        rename_i e es
        obtain ⟨S1, u1, u2⟩ := C41_update_partial P h h1.key h1.labelOk h1.dataOk h1.unitsOk
        rw [h1.data, h1.units] at u1
        have hrun : op.run P S0 = (S1, none) := u1
        simp only [engActs, hrun] at hs
        have hl1 : NoLit S1 := by
          have := engUpdate_noLit P op.key op.data op.units S0 hl
          rw [show engUpdate P op.key op.data op.units S0 = (S1, none) from u1] at this
          exact this
        exact ih hr u2 hl1 hs
    | file =>
      simp only [EngAct.puts] at hf
      simp only [engActs] at hs
      cases hw : treWrite P (.known engTag engD S0) with
      | error e => rw [hw] at hs; cases hs
      | ok w =>
        rw [hw] at hs
        obtain ⟨R, r1, r2, r3⟩ := C84_file P h hl hw []
        rw [List.append_nil] at r1
        simp only [r1] at hs
        exact ih hf r2 r3 hs

/-- C84.  A TRE that is stored to, written, read back and stored to again any number of times answers
like a dictionary that got all the entries: the last value of each label, KeyError for others. -/
theorem C84_history_partial {acts : List EngAct} {es : List EngEntry}
    (hf : AllStore (EngAct.puts acts) es) {S : Store P.F}
    (hs : engActs P acts Store.empty = some S) :
    (∀ pre e post, es = pre ++ e :: post → (∀ e' ∈ post, e'.label ≠ e.label) →
      ∀ key : EngKey, key.Names e.label →
        ∃ d, engGet P S key = .ok (d, .str e.units) ∧ d.Same e.data) ∧
    (∀ label, label ∉ es.map EngEntry.label → ∀ key : EngKey, key.Names label →
      engGet P S key = .error .key) ∧
    engLen P S = .ok (((es.map EngEntry.label).foldl addOnce []).length : Int) :=
  (engActs_is P hf (eng_empty P) NoLit.empty hs).answers P

/-! ### The interface of a mapping -/

/-- C84.  `in` tells whether there is an entry with the label. -/
theorem C84_in {S : Store P.F} {es : List EngEntry} (h : EngIs P S es) {key : EngKey} {label : Str}
    (hk : key.Names label) : engIn P S key = .ok (decide (label ∈ es.map EngEntry.label)) := by
  unfold engIn
  by_cases hm : label ∈ es.map EngEntry.label
  · obtain ⟨e, he, hl⟩ := List.mem_map.mp hm
    obtain ⟨d, h1, _⟩ := C41_lookup P h hk he hl
    rw [h1]
    simp [hm]
  · rw [C41_absent P h hk hm]
    simp [hm]

/-- C84.  `get` gives the entry, or the default. -/
theorem C84_get {S : Store P.F} {es : List EngEntry} (h : EngIs P S es) {key : EngKey} {label : Str}
    (hk : key.Names label) :
    (∀ e ∈ es, e.label = label →
      ∃ d, engGetOr P S key = .ok (some (d, .str e.units)) ∧ d.Same e.data) ∧
    (label ∉ es.map EngEntry.label → engGetOr P S key = .ok none) := by
  unfold engGetOr
  refine ⟨fun e he hl => ?_, fun hm => ?_⟩
  · obtain ⟨d, h1, h2⟩ := C41_lookup P h hk he hl
    exact ⟨d, by rw [h1], h2⟩
  · rw [C41_absent P h hk hm]

/-- C84.  `setdefault` changes nothing if there is an entry, and returns it; otherwise it stores the
default. -/
theorem C84_setdefault_partial {S : Store P.F} {es : List EngEntry} (h : EngIs P S es) {key : EngKey}
    {label : Str} (hk : key.Names label) (hlab : ∀ c ∈ label, c.toNat < 256) {data : EngData}
    (hd : EngOk data) {units : Str} (hu : rstripU units = units) :
    (∀ e ∈ es, e.label = label → ∃ d,
      engSetDefault P key data units S = (S, .ok (some (d, .str e.units))) ∧ d.Same e.data) ∧
    (label ∉ es.map EngEntry.label → ∃ S', engSetDefault P key data units S = (S', .ok none) ∧
      EngIs P S' (es ++ [⟨label, data, units⟩])) := by
  unfold engSetDefault
  refine ⟨fun e he hl => ?_, fun hm => ?_⟩
  · obtain ⟨d, h1, h2⟩ := C41_lookup P h hk he hl
    exact ⟨d, by rw [h1], h2⟩
  · rw [C41_absent P h hk hm]
    obtain ⟨S', u1, u2⟩ := C41_update_partial P h hk hlab hd hu
    simp only [u1]
    refine ⟨S', rfl, ?_⟩
    unfold engPut at u2
    rw [if_neg hm] at u2
    exact u2

/-- C84.  `update` stores one entry after the other, as the same calls of `add_or_update`. -/
theorem C84_update (l : List EngOp) :
    engUpdateAll P (l.map fun op => (op.key, op.data, op.units)) =
      runSteps (l.map (EngOp.run P)) := by
  unfold engUpdateAll
  rw [List.map_map]
  rfl

/-- C84.  Assigning something other than a pair is refused, and changes nothing. -/
theorem C84_not_a_pair (key : EngKey) (S : Store P.F) :
    engSetItem P key none S = (S, some .runtime) := rfl

/-- C84.  `pop` of a label that is not there gives the default or a KeyError. -/
theorem C84_pop_absent {S : Store P.F} {es : List EngEntry} (h : EngIs P S es) {key : EngKey}
    {label : Str} (hk : key.Names label) (hn : label ∉ es.map EngEntry.label) :
    engPop P S key true = .ok none ∧ engPop P S key false = .error .key := by
  unfold engPop
  rw [C41_absent P h hk hn]
  exact ⟨rfl, rfl⟩

/-- C84 fails for removal: `pop` of an entry raises NotImplementedError, with or without a default. -/
theorem C84_pop_present {S : Store P.F} {es : List EngEntry} (h : EngIs P S es) {key : EngKey}
    {label : Str} (hk : key.Names label) (hm : label ∈ es.map EngEntry.label) (dflt : Bool) :
    engPop P S key dflt = .error .notImpl := by
  obtain ⟨e, he, hl⟩ := List.mem_map.mp hm
  obtain ⟨d, h1, _⟩ := C41_lookup P h hk he hl
  unfold engPop
  rw [h1]
  rfl

/-- C84 fails for iteration, and with it for `keys`, `values`, `popitem` and `clear`: with any entry
there is a NameError. -/
theorem C84_iter {S : Store P.F} {es : List EngEntry} (h : EngIs P S es) :
    engIter P S = (if es = [] then .ok [] else .error .name) ∧
    engPopItem P S = .error (if es = [] then .key else .name) ∧
    engClear P S = if es = [] then none else some .name := by
  have hi : engIter P S = if es = [] then .ok [] else .error .name := by
    unfold engIter
    rw [show engCount P S = .ok (es.length : Int) from h.len]
    simp only
    cases es with
    | nil => rfl
    | cons e r =>
      have : indices ((e :: r).length : Int) = 0 :: ((List.range' 1 r.length).map Int.ofNat) := by
        unfold indices
        rw [Int.toNat_natCast, List.range_eq_range', List.length_cons, List.range'_succ]
        rfl
      rw [this]
      simp only
      rw [show getAttr P engD S (n!"englbl") [(0 : Int)] = .ok (.str e.label) from h.label 0 e rfl]
      simp
  refine ⟨hi, ?_, ?_⟩
  · unfold engPopItem
    rw [hi]
    cases es <;> rfl
  · unfold engClear engPopItem
    rw [hi]
    cases es <;> rfl

/-! ### The `engrda` property -/

/-- The dictionary of the ENGRDA TREs among `ts`, by `resrc`. -/
structure IsHash (ts : List (Tre P.F)) (m : List (Val P.F × Tre P.F)) : Prop where
  all : m.map Prod.snd = ts.filter fun t => t.tag = "ENGRDA".toList
  key : ∀ p ∈ m, ∃ tag d S, p.2 = .known tag d S ∧ getAttr P d S (n!"resrc") [] = .ok p.1
  once : m.Pairwise fun p q => pyEq P p.1 q.1 = false

theorem treResrc_ok {t : Tre P.F} {v : Val P.F} : treResrc P t = .ok v ↔
    ∃ tag d S, t = .known tag d S ∧ getAttr P d S (n!"resrc") [] = .ok v := by
  cases t with
  | known tag d S =>
    exact ⟨fun h => ⟨tag, d, S, rfl, h⟩, fun ⟨_, _, _, h, h2⟩ => by cases h; exact h2⟩
  | unknown tag b => exact ⟨fun h => (by cases h), fun ⟨_, _, _, h, _⟩ => (by cases h)⟩

theorem engHashFrom_ok (ts : List (Tre P.F)) : ∀ (res m : List (Val P.F × Tre P.F)),
    (∀ p ∈ res, treResrc P p.2 = .ok p.1) → (res.Pairwise fun p q => pyEq P p.1 q.1 = false) →
    (engHashFrom P res ts = .ok m ↔ ∃ m', m = res ++ m' ∧
      (m'.map Prod.snd = ts.filter fun t => t.tag = "ENGRDA".toList) ∧
      (∀ p ∈ m', treResrc P p.2 = .ok p.1) ∧
      m.Pairwise fun p q => pyEq P p.1 q.1 = false) := by
  induction ts with
  | nil =>
    intro res m hr hp
    simp only [engHashFrom, List.filter_nil, List.map_eq_nil_iff]
    constructor
    · intro h
      injection h with h
      subst h
      exact ⟨[], by simp, rfl, by simp, hp⟩
    · rintro ⟨m', rfl, rfl, _⟩
      simp
  | cons t ts ih =>
    intro res m hr hp
    simp only [engHashFrom]
    by_cases ht : t.tag = "ENGRDA".toList
    · rw [if_pos ht]
      have hfil : (t :: ts).filter (fun t => t.tag = "ENGRDA".toList) =
          t :: ts.filter fun t => t.tag = "ENGRDA".toList := by
        rw [List.filter_cons, if_pos (by simpa using ht)]
      rw [hfil]
      cases hres : treResrc P t with
      | error e =>
        simp only
        constructor
        · intro h; cases h
        · rintro ⟨m', _, h2, h3, _⟩
          cases m' with
          | nil => cases h2
          | cons p m' =>
            simp only [List.map_cons, List.cons.injEq] at h2
            have := h3 p List.mem_cons_self
            rw [h2.1, hres] at this
            cases this
      | ok r =>
        simp only
        by_cases ha : res.any (fun p => pyEq P p.1 r) = true
        · rw [if_pos ha]
          constructor
          · intro h; cases h
          · rintro ⟨m', rfl, h2, h3, h4⟩
            cases m' with
            | nil => cases h2
            | cons p m' =>
              simp only [List.map_cons, List.cons.injEq] at h2
              have hp1 := h3 p List.mem_cons_self
              rw [h2.1, hres] at hp1
              injection hp1 with hp1
              obtain ⟨q, hq, hqe⟩ := List.any_eq_true.mp ha
              have := (List.pairwise_append.mp h4).2.2 q hq p List.mem_cons_self
              rw [← hp1, hqe] at this
              cases this
        · rw [if_neg ha]
          have ha' : ∀ q ∈ res, pyEq P q.1 r = false := by
            intro q hq
            cases hh : pyEq P q.1 r with
            | false => rfl
            | true => exact absurd (List.any_eq_true.mpr ⟨q, hq, hh⟩) ha
          rw [ih (res ++ [(r, t)]) m (by
              intro p hpm
              simp only [List.mem_append, List.mem_singleton] at hpm
              rcases hpm with h | rfl
              · exact hr p h
              · exact hres) (by
              rw [List.pairwise_append]
              exact ⟨hp, List.pairwise_singleton .., by simpa using ha'⟩)]
          constructor
          · rintro ⟨m', rfl, h2, h3, h4⟩
            refine ⟨(r, t) :: m', by simp, by simp [h2], ?_, h4⟩
            intro p hpm
            rcases List.mem_cons.mp hpm with rfl | h
            · exact hres
            · exact h3 p h
          · rintro ⟨m', rfl, h2, h3, h4⟩
            cases m' with
            | nil => cases h2
            | cons p m' =>
              simp only [List.map_cons, List.cons.injEq] at h2
              obtain ⟨v, t'⟩ := p
              have hp1 := h3 _ List.mem_cons_self
              simp only at hp1 h2
              rw [h2.1, hres] at hp1
              injection hp1 with hp1
              obtain ⟨h21, h22⟩ := h2
              subst h21 hp1
              exact ⟨m', by simp, h22, fun q hq => h3 q (List.mem_cons_of_mem _ hq), h4⟩
    · rw [if_neg ht]
      have hfil : (t :: ts).filter (fun t => t.tag = "ENGRDA".toList) =
          ts.filter fun t => t.tag = "ENGRDA".toList := by
        rw [List.filter_cons, if_neg (by simpa using ht)]
      rw [hfil]
      exact ih res m hr hp

/-- C84.  `engrda` of a file or segment is the dictionary of its ENGRDA TREs by `resrc`, in their
order; it is there exactly if no two of them have the same `resrc` and each has one. -/
theorem C84_hash (ts : List (Tre P.F)) (m : List (Val P.F × Tre P.F)) :
    engHash P ts = .ok m ↔ IsHash P ts m := by
  unfold engHash
  rw [engHashFrom_ok P ts [] m (by simp) List.Pairwise.nil]
  constructor
  · rintro ⟨m', rfl, h2, h3, h4⟩
    refine ⟨by simpa using h2, fun p hp => (treResrc_ok P).mp (h3 p (by simpa using hp)), by simpa using h4⟩
  · intro h
    exact ⟨m, by simp, h.all, fun p hp => (treResrc_ok P).mpr (h.key p hp), h.once⟩

/-! ### Concrete cases -/

/-- Two entries, a file, one entry replaced and one added, a second file. -/
def exActs : List EngAct :=
  [.put ⟨.str "TEMP".toList, .arr exArr, "K".toList⟩,
   .put ⟨.str "NAME".toList, .str "cam".toList, "NA".toList⟩, .file,
   .put ⟨.bytes (utf8Enc "TEMP".toList), .bytes [7, 8, 9], "".toList⟩,
   .put ⟨.str "N".toList, .str "x".toList, "".toList⟩, .file]

example : ((engActs P0 exActs Store.empty).map fun S =>
    decide (engGet P0 S (.str "TEMP".toList) = .ok (.bytes [7, 8, 9], .str []) ∧
      engGet P0 S (.str "NAME".toList) = .ok (.str "cam".toList, .str "NA".toList) ∧
      engIn P0 S (.str "OTHER".toList) = .ok false ∧ engLen P0 S = .ok 3)) = some true := by
  decide +kernel

example : AllStore (EngAct.puts exActs)
    [⟨"TEMP".toList, .arr exArr, "K".toList⟩, ⟨"NAME".toList, .str "cam".toList, "NA".toList⟩,
     ⟨"TEMP".toList, .bytes [7, 8, 9], "".toList⟩, ⟨"N".toList, .str "x".toList, "".toList⟩] := by
  refine .cons ⟨.str _, rfl, rfl, by decide, ?_, by decide⟩
    (.cons ⟨.str _, rfl, rfl, by decide, ?_, by decide⟩
      (.cons ⟨.bytes _, rfl, rfl, by decide, ?_, by decide⟩
        (.cons ⟨.str _, rfl, rfl, by decide, ?_, by decide⟩ .nil)))
  · exact ⟨by decide, ⟨2, 2, rfl, rfl⟩, .inr ⟨rfl, rfl⟩⟩
  · show ∀ c ∈ "cam".toList, c.toNat < 128
    decide
  · trivial
  · show ∀ c ∈ "x".toList, c.toNat < 128
    decide

/-- An ENGRDA TRE of the resource with this name. -/
def exEng (r : String) : Tre Unit :=
  .known engTag engD (setAttr P0 engD Store.empty (n!"resrc") [] (.str r.toList)).1

example : ((engHash P0 [exEng "CAM", .unknown "OTHER".toList [1], exEng "IMU"]).toOption.map
    fun m => m.map fun p => p.1) = some [.str "CAM".toList, .str "IMU".toList] := by decide +kernel

/-- Two of one name: no dictionary. -/
theorem C84_hash_twice : (engHash P0 [exEng "CAM", exEng "IMU", exEng "CAM"]).toOption.isNone = true := by
  decide +kernel

end Verif
