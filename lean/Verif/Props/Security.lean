import Verif.Security
import Verif.TreArea
import Verif.Example

/- C32: security information of headers (model in `Verif/Security.lean`). -/

namespace Verif

variable (P : PyFloat)

/-- The attributes of a security object that a header stores. -/
def secStored (d : Desc) (pre : Name) : List Nat :=
  ((secNames pre).filter fun f => (resolve d.tab f.1).isSome).map (·.2)

/-- The file header stores all 19 attributes, image, graphic and text subheaders all but the copy
number and number of copies, DES and RES subheaders also not the encryption. -/
theorem secStored_shipped : secHeaders.map (fun h => secStored h.1 h.2) =
    [List.range 19, List.range 16 ++ [18], List.range 16 ++ [18], List.range 16 ++ [18],
     List.range 16, List.range 16] := by decide +kernel

/-- A security object as users build it: sixteen strings (without trailing white space, which no
header field keeps) and three integers. -/
def SecOk (s : Sec P.F) : Prop :=
  (∀ a < 16, ∃ t, s a = .str t ∧ rstripU t = t) ∧ ∀ a, 16 ≤ a → ∃ z, s a = .int z

/-- What the proofs use about a header, checked on the six shipped ones. -/
def secOkB (d : Desc) (pre : Name) : Bool :=
  d.causal && ((secNames pre).all fun f =>
    match resolve d.tab f.1 with
    | none => true
    | some n =>
      match d.tab[n]? with
      | none => false
      | some fi => fi.fd.name.isSome && fi.shapes.isEmpty && fi.fd.value.isNone &&
          !fi.fd.hardcoded && fi.fd.kind == .plain && fi.fd.cond.isNone &&
          fi.fd.ty == (if f.2 < 16 then .str else .int) && !fi.fd.optional &&
          (decide (f.2 < 16) || fi.fd.default.isNone)) &&
  decide (((secNames pre).filterMap fun f => resolve d.tab f.1).Nodup) &&
  decide (((secNames pre).map (·.2)).Nodup)

theorem secHeaders_ok : ∀ h ∈ secHeaders, secOkB h.1 h.2 = true := by decide +kernel

/-- A field of a security attribute. -/
structure SecField (fi : FInfo) (a : Nat) : Prop where
  scalar : Scalar fi
  plain : fi.fd.kind = .plain
  cond : fi.fd.cond = none
  ty : fi.fd.ty = if a < 16 then .str else .int
  required : fi.fd.optional = false
  default : a < 16 ∨ fi.fd.default = none

theorem secOkB_field {d : Desc} {pre : Name} (h : secOkB d pre = true) {nm : Name} {a n : Nat}
    (hm : (nm, a) ∈ secNames pre) (hr : resolve d.tab nm = some n) :
    ∃ fi, d.tab[n]? = some fi ∧ SecField fi a := by
  unfold secOkB at h
  simp only [Bool.and_eq_true] at h
  have := List.all_eq_true.mp h.1.1.2 _ hm
  simp only [hr] at this
  cases hf : d.tab[n]? with
  | none => rw [hf] at this; cases this
  | some fi =>
    rw [hf] at this
    simp only [Bool.and_eq_true, beq_iff_eq, List.isEmpty_iff, Option.isNone_iff_eq_none,
      Bool.not_eq_true'] at this
    obtain ⟨⟨⟨⟨⟨⟨⟨⟨a1, a2⟩, a3⟩, a4⟩, a5⟩, a6⟩, a7⟩, a8⟩, a9⟩ := this
    simp only [Bool.or_eq_true, decide_eq_true_eq, Option.isNone_iff_eq_none] at a9
    refine ⟨fi, rfl, ⟨?_, a2, a3, a4⟩, a5, a6, a7, a8, a9⟩
    intro hh; rw [hh] at a1; cases a1

theorem SecField.get {fi : FInfo} {a : Nat} (h : SecField fi a) {T : Tab} {S : Store P.F} {n : Nat}
    (hn : T[n]? = some fi) : getItem P T S n [] = finish P fi.fd (stored S fi.fd n []) :=
  h.scalar.get_plain P h.plain hn (evalCond_none P h.cond _ _)

/-- Assigning an attribute always succeeds. -/
theorem SecField.set {fi : FInfo} {a : Nat} (h : SecField fi a) {T : Tab} {S : Store P.F} {n : Nat}
    (hn : T[n]? = some fi) {v : Val P.F} (hv : v.isNone = false) :
    setItem P T S n [] v = (S.set n [] ⟨.val v, none⟩, none) := by
  unfold setItem budget
  exact h.scalar.set_plain P h.plain hn (evalCond_none P h.cond _ _) hv _

/-- The value read back. -/
theorem SecField.finish {fi : FInfo} {a : Nat} (h : SecField fi a) {s : Sec P.F} (hs : SecOk P s) :
    finish P fi.fd (.val (s a)) = .ok (s a) ∧ (s a).isNone = false := by
  by_cases ha : a < 16
  · obtain ⟨t, ht, hr⟩ := hs.1 a ha
    have hty : fi.fd.ty = .str := by rw [h.ty, if_pos ha]
    rw [ht, finish_str P hty, hr]
    exact ⟨rfl, rfl⟩
  · obtain ⟨z, hz⟩ := hs.2 a (by omega)
    have hty : fi.fd.ty = .int := by rw [h.ty, if_neg ha]
    rw [hz, finish_int P hty]
    exact ⟨rfl, rfl⟩

/-- Reading: every stored attribute comes from its field, the others keep the initial value. -/
theorem getSecLoop_spec {d : Desc} {S : Store P.F} {w : Sec P.F} :
    ∀ (L : List (Name × Nat)) (s : Sec P.F), (L.map (·.2)).Nodup →
      (∀ nm a n, (nm, a) ∈ L → resolve d.tab nm = some n → getItem P d.tab S n [] = .ok (w a)) →
      ∃ t, getSecLoop P d S L s = .ok t ∧ ∀ a,
        t a = if a ∈ (L.filter fun f => (resolve d.tab f.1).isSome).map (·.2) then w a else s a := by
  intro L
  induction L with
  | nil => intro s _ _; exact ⟨s, rfl, by simp⟩
  | cons f L ih =>
    obtain ⟨nm, a0⟩ := f
    intro s hnd h
    rw [List.map_cons, List.nodup_cons] at hnd
    have hL := fun nm a n hm hr => h nm a n (List.mem_cons_of_mem _ hm) hr
    unfold getSecLoop
    cases hr : resolve d.tab nm with
    | none =>
      obtain ⟨t, t1, t2⟩ := ih s hnd.2 hL
      refine ⟨t, t1, ?_⟩
      intro a
      rw [t2 a, List.filter_cons_of_neg (by simp [hr])]
    | some n =>
      have hg := h nm a0 n (by simp) hr
      simp only [hg]
      obtain ⟨t, t1, t2⟩ := ih (s.put a0 (w a0)) hnd.2 hL
      refine ⟨t, t1, ?_⟩
      intro a
      rw [t2 a, List.filter_cons_of_pos (by simp [hr]), List.map_cons]
      by_cases ha : a = a0
      · subst ha
        simp [Sec.put]
      · simp only [Sec.put, ha, if_false, List.mem_cons, false_or]

/-- Writing: the fields of the stored attributes hold the new values, nothing else changes. -/
theorem setSecLoop_spec {d : Desc} {s : Sec P.F} (hs : SecOk P s) :
    ∀ (L : List (Name × Nat)) (S : Store P.F),
      (L.filterMap fun f => resolve d.tab f.1).Nodup →
      (∀ nm a n, (nm, a) ∈ L → resolve d.tab nm = some n →
        (∃ fi, d.tab[n]? = some fi ∧ SecField fi a) ∧ ∃ v, getItem P d.tab S n [] = .ok v) →
      ∃ S', setSecLoop P d s L S = (S', none) ∧
        (∀ nm a n, (nm, a) ∈ L → resolve d.tab nm = some n → S' n [] = some ⟨.val (s a), none⟩) ∧
        ∀ n k, (∀ nm a, (nm, a) ∈ L → resolve d.tab nm ≠ some n) → S' n k = S n k := by
  intro L
  induction L with
  | nil => intro S _ _; exact ⟨S, rfl, by simp, fun _ _ _ => rfl⟩
  | cons f L ih =>
    obtain ⟨nm, a0⟩ := f
    intro S hnd h
    have hL := fun nm a n hm hr => h nm a n (List.mem_cons_of_mem _ hm) hr
    unfold setSecLoop
    cases hr : resolve d.tab nm with
    | none =>
      rw [List.filterMap_cons_none (by simpa using hr)] at hnd
      obtain ⟨S', t1, t2, t3⟩ := ih S hnd hL
      refine ⟨S', t1, ?_, ?_⟩
      · intro nm' a n hm hr'
        rcases List.mem_cons.mp hm with he | hm
        · injection he with h1 h2
          rw [h1, hr] at hr'; cases hr'
        · exact t2 nm' a n hm hr'
      · intro n k hn
        exact t3 n k fun nm' a hm => hn nm' a (by simp [hm])
    | some n0 =>
      rw [List.filterMap_cons_some (b := n0) (by simpa using hr), List.nodup_cons] at hnd
      obtain ⟨⟨fi, hfi, hF⟩, v, hv⟩ := h nm a0 n0 (by simp) hr
      simp only [hv, hF.set P hfi (hF.finish P hs).2]
      have hne : ∀ nm a n, (nm, a) ∈ L → resolve d.tab nm = some n → n ≠ n0 := by
        intro nm a n hm hr hn
        exact hnd.1 (List.mem_filterMap.mpr ⟨(nm, a), hm, by rw [← hn]; exact hr⟩)
      obtain ⟨S', t1, t2, t3⟩ := ih (S.set n0 [] ⟨.val (s a0), none⟩) hnd.2 (by
        intro nm a n hm hr
        obtain ⟨⟨fi', hfi', hF'⟩, v', hv'⟩ := hL nm a n hm hr
        refine ⟨⟨fi', hfi', hF'⟩, v', ?_⟩
        rw [hF'.get P hfi'] at hv' ⊢
        rw [← hv']
        unfold stored Store.set
        rw [if_neg (by rintro ⟨h, _⟩; exact hne nm a n hm hr h)])
      refine ⟨S', t1, ?_, ?_⟩
      · intro nm' a n hm hr'
        rcases List.mem_cons.mp hm with he | hm
        · injection he with h1 h2
          rw [h1, hr] at hr'
          injection hr' with hr'
          subst hr'
          rw [t3 n0 [] fun nm a hm hr => hne nm a n0 hm hr rfl, h2]
          simp [Store.set]
        · exact t2 nm' a n hm hr'
      · intro n k hn
        rw [t3 n k fun nm' a hm => hn nm' a (by simp [hm])]
        unfold Store.set
        rw [if_neg]
        rintro ⟨h, _⟩
        exact hn nm a0 (by simp) (by rw [hr, h])

/-- C32.  For each of the six headers, in any state in which its security fields can be read:
setting a security object succeeds, reading it back gives the same value for every attribute the
header stores (and the initial value for the others), and no other field changes. -/
theorem C32_round_trip {d : Desc} {pre : Name} (h : (d, pre) ∈ secHeaders) {S : Store P.F}
    {s0 : Sec P.F} (hS : getSecurity P d S pre = .ok s0) {s : Sec P.F} (hs : SecOk P s) :
    ∃ S' t, setSecurity P d s S pre = (S', none) ∧ getSecurity P d S' pre = .ok t ∧
      (∀ a ∈ secStored d pre, t a = s a) ∧ (∀ a, a ∉ secStored d pre → t a = Sec.init a) ∧
      ∀ n k, (∀ f ∈ secNames pre, resolve d.tab f.1 ≠ some n) → S' n k = S n k := by
  have hok := secHeaders_ok _ h
  have hread : ∀ (L : List (Name × Nat)) (s s' : Sec P.F), getSecLoop P d S L s = .ok s' →
      ∀ nm a n, (nm, a) ∈ L → resolve d.tab nm = some n → ∃ v, getItem P d.tab S n [] = .ok v := by
    intro L
    induction L with
    | nil => intro s s' _ nm a n hm; simp at hm
    | cons f L ih =>
      obtain ⟨nm0, a0⟩ := f
      intro s s' hh nm a n hm hr
      unfold getSecLoop at hh
      cases hr0 : resolve d.tab nm0 with
      | none =>
        rw [hr0] at hh
        rcases List.mem_cons.mp hm with he | hm
        · injection he with h1 h2
          rw [h1, hr0] at hr; cases hr
        · exact ih _ _ hh nm a n hm hr
      | some n0 =>
        rw [hr0] at hh
        cases hg : getItem P d.tab S n0 [] with
        | error e => simp only [hg] at hh; cases hh
        | ok v =>
          simp only [hg] at hh
          rcases List.mem_cons.mp hm with he | hm
          · injection he with h1 h2
            rw [h1, hr0] at hr; injection hr with hr
            exact ⟨v, by rw [← hr]; exact hg⟩
          · exact ih _ _ hh nm a n hm hr
  have hok' := hok
  unfold secOkB at hok'
  simp only [Bool.and_eq_true, decide_eq_true_eq] at hok'
  obtain ⟨S', t1, t2, t3⟩ := setSecLoop_spec P hs (d := d) (secNames pre) S hok'.1.2 (by
    intro nm a n hm hr
    exact ⟨secOkB_field hok hm hr, hread _ _ _ hS nm a n hm hr⟩)
  obtain ⟨t, u1, u2⟩ := getSecLoop_spec P (d := d) (S := S') (w := s) (secNames pre) Sec.init
    hok'.2 (by
      intro nm a n hm hr
      obtain ⟨fi, hfi, hF⟩ := secOkB_field hok hm hr
      rw [hF.get P hfi]
      unfold stored
      rw [t2 nm a n hm hr]
      exact (hF.finish P hs).1)
  refine ⟨S', t, t1, u1, ?_, ?_, ?_⟩
  · intro a ha; rw [u2 a]; exact if_pos ha
  · intro a ha; rw [u2 a]; exact if_neg ha
  · intro n k hn
    exact t3 n k fun nm a hm => hn (nm, a) hm

/-- Any value of the right kind can be read. -/
theorem getSecLoop_ok {d : Desc} {S : Store P.F} : ∀ (L : List (Name × Nat)) (s : Sec P.F),
    (∀ f ∈ L, ∀ n, resolve d.tab f.1 = some n → ∃ v, getItem P d.tab S n [] = .ok v) →
    ∃ t, getSecLoop P d S L s = .ok t := by
  intro L
  induction L with
  | nil => intro s _; exact ⟨s, rfl⟩
  | cons f L ih =>
    obtain ⟨nm, a⟩ := f
    intro s h
    have hL := fun f hf => h f (List.mem_cons_of_mem _ hf)
    unfold getSecLoop
    cases hr : resolve d.tab nm with
    | none => exact ih s hL
    | some n =>
      obtain ⟨v, hv⟩ := h (nm, a) (by simp) n hr
      simp only [hv]
      exact ih _ hL

/-- C32.  The security of a new header can be read, so `C32_round_trip` applies to it. -/
theorem C32_fresh {d : Desc} {pre : Name} (h : (d, pre) ∈ secHeaders) :
    ∃ s, getSecurity P d Store.empty pre = .ok s := by
  have hok := secHeaders_ok _ h
  refine getSecLoop_ok P _ _ ?_
  intro f hm n hr
  obtain ⟨fi, hfi, hF⟩ := secOkB_field hok (a := f.2) hm hr
  rw [hF.get P hfi]
  unfold stored Store.empty
  simp only
  by_cases ha : f.2 < 16
  · have hty : fi.fd.ty = .str := by rw [hF.ty, if_pos ha]
    unfold finish coerce
    cases (defaultVal fi.fd : Val P.F) with
    | none => simp only [hF.required, hty]; exact ⟨_, rfl⟩
    | _ => simp only [hty]; exact ⟨_, rfl⟩
  · have hty : fi.fd.ty = .int := by rw [hF.ty, if_neg ha]
    have hd : (defaultVal fi.fd : Val P.F) = .int 0 := by
      rcases hF.default with h | h
      · exact absurd h ha
      · simp [defaultVal, h, hF.required, hty]
    rw [hd, finish_int P hty]
    exact ⟨_, rfl⟩

/-- C32.  Which attributes come back (numbered as in `NitfSecurity.__init__`): from the file header
all 19, from image, graphic and text subheaders all but the copy number and the number of copies
(16, 17), from DES and RES subheaders all but these and the encryption (18). -/
theorem C32_attributes {d : Desc} {pre : Name} (h : (d, pre) ∈ secHeaders) {S S' : Store P.F}
    {s0 : Sec P.F} (hS : getSecurity P d S pre = .ok s0) {s : Sec P.F} (hs : SecOk P s)
    (hset : setSecurity P d s S pre = (S', none)) : ∃ t, getSecurity P d S' pre = .ok t ∧
      (∀ a < 16, t a = s a) ∧
      (d = Tables.t_file_header → ∀ a < 19, t a = s a) ∧
      (d ≠ Tables.t_des_subheader → d ≠ Tables.t_res_subheader → t 18 = s 18) := by
  obtain ⟨S1, t, t1, t2, t3, _⟩ := C32_round_trip P h hS hs
  rw [t1] at hset
  injection hset with hset
  subst hset
  refine ⟨t, t2, ?_⟩
  have hst := secStored_shipped
  simp only [secHeaders, List.map_cons, List.map_nil, List.cons.injEq, and_true] at hst
  obtain ⟨e1, e2, e3, e4, e5, e6⟩ := hst
  have key : (∀ a < 16, a ∈ secStored d pre) ∧
      (d = Tables.t_file_header → ∀ a < 19, a ∈ secStored d pre) ∧
      (d ≠ Tables.t_des_subheader → d ≠ Tables.t_res_subheader → 18 ∈ secStored d pre) := by
    simp only [secHeaders, List.mem_cons, List.not_mem_nil, or_false, Prod.mk.injEq] at h
    have hlt : ∀ d', Tables.t_file_header.tab.length ≠ d'.tab.length → d' ≠ Tables.t_file_header :=
      fun d' hl he => hl (by rw [he])
    have r16 : ∀ a < 16, ∀ l, a ∈ List.range 16 ++ l := fun a ha l =>
      List.mem_append_left _ (List.mem_range.mpr ha)
    rcases h with ⟨rfl, rfl⟩ | ⟨rfl, rfl⟩ | ⟨rfl, rfl⟩ | ⟨rfl, rfl⟩ | ⟨rfl, rfl⟩ | ⟨rfl, rfl⟩
    · rw [e1]
      exact ⟨fun a ha => List.mem_range.mpr (by omega), fun _ a ha => List.mem_range.mpr ha,
        fun _ _ => List.mem_range.mpr (by omega)⟩
    · rw [e2]
      exact ⟨fun a ha => r16 a ha _, fun he => absurd he (hlt _ (by decide +kernel)),
        fun _ _ => by simp⟩
    · rw [e3]
      exact ⟨fun a ha => r16 a ha _, fun he => absurd he (hlt _ (by decide +kernel)),
        fun _ _ => by simp⟩
    · rw [e4]
      exact ⟨fun a ha => r16 a ha _, fun he => absurd he (hlt _ (by decide +kernel)),
        fun _ _ => by simp⟩
    · rw [e5]
      exact ⟨fun a ha => List.mem_range.mpr ha, fun he => absurd he (hlt _ (by decide +kernel)),
        fun h => absurd rfl h⟩
    · rw [e6]
      exact ⟨fun a ha => List.mem_range.mpr ha, fun he => absurd he (hlt _ (by decide +kernel)),
        fun _ h => absurd rfl h⟩
  exact ⟨fun a ha => t3 a (key.1 a ha), fun he a ha => t3 a (key.2.1 he a ha),
    fun h1 h2 => t3 18 (key.2.2 h1 h2)⟩

/-- C32.  A new header has the security of a new `NitfSecurity` object: unclassified, everything
else empty or zero. -/
theorem C32_new_header {d : Desc} {pre : Name} (h : (d, pre) ∈ secHeaders) :
    ∃ t, getSecurity P d Store.empty pre = .ok t ∧
      ∀ a, t a = if a = 0 then .str ['U'] else if a < 16 then .str [] else .int 0 := by
  have hok := secHeaders_ok _ h
  unfold secOkB at hok
  simp only [Bool.and_eq_true, decide_eq_true_eq] at hok
  have hval : (secNames pre).map (fun f => (resolve d.tab f.1).map fun n =>
        getItem P d.tab Store.empty n []) =
      (secNames pre).map (fun f => (resolve d.tab f.1).map fun _ => .ok (Sec.init f.2)) := by
    simp only [secHeaders, List.mem_cons, List.not_mem_nil, or_false, Prod.mk.injEq] at h
    rcases h with ⟨rfl, rfl⟩ | ⟨rfl, rfl⟩ | ⟨rfl, rfl⟩ | ⟨rfl, rfl⟩ | ⟨rfl, rfl⟩ | ⟨rfl, rfl⟩ <;> rfl
  obtain ⟨t, t1, t2⟩ := getSecLoop_spec P (d := d) (S := Store.empty) (w := Sec.init) (secNames pre)
    Sec.init hok.2 (by
      intro nm a n hm hr
      have := List.map_inj_left.mp hval (nm, a) hm
      simp only [hr, Option.map_some, Option.some.injEq] at this
      exact this)
  refine ⟨t, t1, fun a => ?_⟩
  rw [t2 a, ite_self]
  rfl

/-- A security object with everything set. -/
def exSec : Sec P0.F := fun a =>
  if a = 0 then .str ['S'] else if a < 16 then .str "Ab c".toList else .int (a : Int)

theorem exSec_ok : SecOk P0 exSec := by
  refine ⟨?_, ?_⟩
  · intro a ha
    by_cases h0 : a = 0
    · exact ⟨['S'], by simp [exSec, h0], by decide⟩
    · exact ⟨"Ab c".toList, by simp [exSec, h0, ha], by decide⟩
  · intro a ha
    exact ⟨a, by simp [exSec, show ¬ a = 0 by omega, show ¬ a < 16 by omega]⟩

/-- For instance, a new text subheader set to `exSec` reads back all but the copy numbers. -/
example : ((getSecurity P0 Tables.t_text_subheader
      (setSecurity P0 Tables.t_text_subheader exSec Store.empty (n!"ts")).1 (n!"ts")).map
        fun t => (List.range 19).map fun a => decide (t a = exSec a)) =
    .ok (List.replicate 16 true ++ [false, false, true]) := by decide +kernel

theorem setSecLoop_items {d : Desc} {s : Sec P.F} : ∀ (L : List (Name × Nat)) {S S' : Store P.F},
    setSecLoop P d s L S = (S', none) → ∀ nm a n, (nm, a) ∈ L → resolve d.tab nm = some n →
    ∃ S1 : Store P.F, (setItem P d.tab S1 n [] (s a)).2 = none := by
  intro L
  induction L with
  | nil => intro S S' _ nm a n hm; simp at hm
  | cons f L ih =>
    obtain ⟨nm0, a0⟩ := f
    intro S S' h nm a n hm hr
    unfold setSecLoop at h
    cases hr0 : resolve d.tab nm0 with
    | none =>
      rw [hr0] at h
      rcases List.mem_cons.mp hm with he | hm
      · injection he with h1 h2
        rw [h1, hr0] at hr; cases hr
      · exact ih h nm a n hm hr
    | some n0 =>
      simp only [hr0] at h
      cases hg : getItem P d.tab S n0 [] with
      | error e => simp [hg] at h
      | ok v =>
        simp only [hg] at h
        cases hs : setItem P d.tab S n0 [] (s a0) with
        | mk S1 o =>
          cases o with
          | some e => simp [hs] at h
          | none =>
            simp only [hs] at h
            rcases List.mem_cons.mp hm with he | hm
            · injection he with h1 h2
              rw [h1, hr0] at hr
              injection hr with hr
              exact ⟨S, by rw [← hr, h2, hs]⟩
            · exact ih h nm a n hm hr

/-- C32.  An attribute that is None is refused, if the header has a field for it. -/
theorem C32_none_refused {d : Desc} {pre : Name} (h : (d, pre) ∈ secHeaders) {S : Store P.F}
    {s : Sec P.F} {a : Nat} (ha : a ∈ secStored d pre) (hs : s a = .none) :
    (setSecurity P d s S pre).2 ≠ none := by
  intro hn
  unfold secStored at ha
  simp only [List.mem_map, List.mem_filter] at ha
  obtain ⟨⟨nm, a'⟩, ⟨hm, hr⟩, rfl⟩ := ha
  obtain ⟨n, hr⟩ := Option.isSome_iff_exists.mp hr
  obtain ⟨S1, h1⟩ := setSecLoop_items P (secNames pre) (S' := (setSecurity P d s S pre).1)
    (Prod.ext rfl hn) nm a' n hm hr
  obtain ⟨fi, hfi, hF⟩ := secOkB_field (secHeaders_ok _ h) hm hr
  simp only at hs
  rw [hs] at h1
  unfold setItem at h1
  cases hb : budget d.tab with
  | zero => rw [hb] at h1; simp [setF] at h1
  | succ k =>
    rw [hb] at h1
    unfold setF at h1
    cases hc : setCheck P d.tab S1 n [] .none with
    | error e => simp [hc] at h1
    | ok x =>
      unfold setCheck at hc
      simp only [hfi, hF.plain, packKind] at hc
      split at hc
      · cases hc
      split at hc
      · cases hc
      split at hc
      · cases hc
      · cases hc
      split at hc
      · cases hc
      · simp [Val.isNone, hF.required] at hc

/-- C32, equality.  Equal objects have the same values (in the sense of Python's `==`) for all
attributes except the code words and the encryption.  Missing from the full claim: the two. -/
theorem C32_equal_partial (s t : Sec P.F) : Sec.eq P s t = true ↔
    ∀ a < 18, a ≠ 2 → pyEq P (s a) (t a) = true := by
  unfold Sec.eq secCompared
  rw [List.all_eq_true]
  refine ⟨fun h a ha h2 => h a ?_, fun h a ha => h a ?_ ?_⟩
  · have : a = 0 ∨ a = 1 ∨ a = 3 ∨ a = 4 ∨ a = 5 ∨ a = 6 ∨ a = 7 ∨ a = 8 ∨ a = 9 ∨ a = 10 ∨
      a = 11 ∨ a = 12 ∨ a = 13 ∨ a = 14 ∨ a = 15 ∨ a = 16 ∨ a = 17 := by omega
    simpa using this
  · simp at ha; omega
  · simp at ha; omega

/-- C32 fails: two objects that differ in the code words, which every header stores, are equal. -/
theorem C32_codewords_ignored : ∃ s t : Sec P0.F, SecOk P0 s ∧ SecOk P0 t ∧ s 2 ≠ t 2 ∧
    (∀ h ∈ secHeaders, 2 ∈ secStored h.1 h.2) ∧ Sec.eq P0 s t = true := by
  refine ⟨exSec, exSec.put 2 (.str ['X']), exSec_ok, ?_, by decide, by decide +kernel, by
    decide +kernel⟩
  refine ⟨?_, ?_⟩
  · intro a ha
    by_cases h2 : a = 2
    · exact ⟨['X'], by simp [Sec.put, h2], by decide⟩
    · obtain ⟨t, t1, t2⟩ := exSec_ok.1 a ha
      exact ⟨t, by simp [Sec.put, h2, t1], t2⟩
  · intro a ha
    obtain ⟨z, hz⟩ := exSec_ok.2 a ha
    exact ⟨z, by simp [Sec.put, show ¬ a = 2 by omega, hz]⟩

end Verif
