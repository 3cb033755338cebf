import Verif.AttemptKeep
import Verif.Props.Rewrite

/- C81: a write that does not come to its end. -/

namespace Verif.Attempt

open Verif

variable {P : PyFloat} {E E' : Env} {IO : DataIO P.F}

/-! ### Specification -/

/-- The DES is a TRE_OVERFLOW DES. -/
def isOverflow (P : PyFloat) (IO : DataIO P.F) (s : Seg P.F IO.D) : Bool :=
  match getAttr P Tables.t_des_subheader s.sub (n!"desid") [] with
  | .ok (.str id) => id == "TRE_OVERFLOW".toList
  | _ => false

/-- The field `nm` of a file header holds the assigned integer `v`. -/
def Assigned (H : Store P.F) (nm : Name) (key : Key) (v : Nat) : Prop :=
  ∃ n, resolve Tables.t_file_header.tab nm = some n ∧ H n key = some ⟨.val (.int v), none⟩

/-- The lengths assigned in a file header can be written: those of the file and of the segments it
counts. -/
def LengthsFit (H : Store P.F) : Prop :=
  (∀ v, Assigned H (n!"fl") [] v → v < 1000000000000) ∧
  ∀ k c i v, Assigned H k.numField [] c → i < c →
    (Assigned H k.lenFields.1 [(i : Int)] v → v < subLimit k) ∧
    (Assigned H k.lenFields.2 [(i : Int)] v → v < dataLimit k)

/-- `f.image_segment[i].data = x`, and so on. -/
def setData (f : NFile P.F IO.D) (k : SegKind) (i : Nat) (x : SegData IO.D) : NFile P.F IO.D :=
  setSegs f k ((f.segs k).modify i fun s => { s with data := x })

/-- What became of `f` after any number of writes that were interrupted at any point. -/
inductive Interrupted (E : Env) (f : NFile P.F IO.D) : NFile P.F IO.D → Prop
  | start : Interrupted E f f
  | again {g g' : NFile P.F IO.D} : Interrupted E f g → g' ∈ states E g → Interrupted E f g'

/-! ### C81 -/

/-- The states listed by `states` are those of a write as `writeFile` has it: it gives the same
bytes or exception, and if it returns, the last state is the one `writeFile` gives. -/
theorem C81_attempt (f : NFile P.F IO.D) :
    (outcome E f = match writeFile P E IO f with
      | .error e => .error e
      | .ok (_, out) => .ok out) ∧
    ∀ f' out, writeFile P E IO f = .ok (f', out) → left E f = f' := by
  constructor
  · unfold outcome
    rw [attempt_res]
    cases writeFile P E IO f <;> rfl
  · intro f' out h
    have hr := attempt_res E f ([] : Bytes)
    rw [h] at hr
    simp only at hr
    have ht : Ends (attempt E) (f, []) _ _ := tracks_attempt E (f, [])
    unfold Ends at ht
    rw [hr] at ht
    rw [left_eq, ← ht.1]

theorem outcome_ok {f : NFile P.F IO.D} {out : Bytes} :
    outcome E f = .ok out ↔ ∃ f', writeFile P E IO f = .ok (f', out) := by
  rw [(C81_attempt f).1]
  cases writeFile P E IO f with
  | error e => simp
  | ok x => obtain ⟨f', o⟩ := x; simp

theorem outcome_error {f : NFile P.F IO.D} :
    (∃ e, outcome E f = .error e) ↔ ∃ e, writeFile P E IO f = .error e := by
  rw [(C81_attempt f).1]
  cases writeFile P E IO f with
  | error e => simp
  | ok x => obtain ⟨f', o⟩ := x; simp

theorem dropOverflow_filter : ∀ {l ds : List (Seg P.F IO.D)}, dropOverflow P IO l = .ok ds →
    ds = l.filter fun s => !isOverflow P IO s
  | [], ds, h => by
    unfold dropOverflow at h; injection h with h; subst h; rfl
  | s :: l, ds, h => by
    unfold dropOverflow at h
    split at h
    · cases h
    · rename_i id hid
      split at h
      · cases h
      · rename_i l1 hr
        have hi := dropOverflow_filter hr
        injection h with h
        rw [List.filter_cons]
        unfold isOverflow
        rw [hid]
        simp only
        split at h
        · rename_i he
          rw [if_neg (by simpa using he), ← h, hi]
          rfl
        · rename_i he
          rw [if_pos (by simpa using he), ← h, hi]
          rfl
    · cases h

theorem each_near_kept {l l' : List (Seg P.F IO.D)} (h : Each DesNear l l') :
    Each (KeptSeg .des) l l' := by
  induction h with
  | nil => exact .nil
  | cons h1 _ ih => exact .cons (near_kept h1) ih

/-- Whatever happens in a write, and whether or not it comes to its end: the file keeps its TREs and
its image, graphic, text and reserved segments with their content, TREs and user subheaders.  Only
lengths, counts and the places for TREs change in the headers.  The DES that are not TRE_OVERFLOW DES
are kept too; the others are there as before, or are dropped and may be made anew. -/
theorem C81_untouched {f g : NFile P.F IO.D} (h : g ∈ states E f) :
    g.tres = f.tres ∧ SameBut headerBook Tables.t_file_header f.header g.header ∧
    (∀ k, k ≠ .des → Each (KeptSeg k) (f.segs k) (g.segs k)) ∧
    (g.des = f.des ∨ ∃ extra, (∀ s ∈ extra, isOverflow P IO s = true) ∧
      Each (KeptSeg .des) ((f.des.filter fun s => !isOverflow P IO s) ++ extra) g.des) := by
  rcases attempt_keeps g h with rfl | ⟨d0, hd, hk⟩
  · exact ⟨rfl, .refl _ _ _, fun k _ => Each.refl (KeptSeg.refl k) _, .inl rfl⟩
  · obtain ⟨ov, h1, h2⟩ := hk.des
    refine ⟨hk.tres, hk.header, hk.segs, .inr ⟨ov, ?_, ?_⟩⟩
    · intro s hs
      unfold isOverflow
      rw [overflow_desid (h1 s hs)]
      simp
    · rw [← dropOverflow_filter hd]
      exact each_near_kept h2

theorem LengthsFit.cells {H : Store P.F} (h : LengthsFit H) (segs : SegKind → List (Seg P.F IO.D)) :
    CellFits segs H := by
  refine ⟨fun v hv => h.1 v ⟨_, flField.res, hv⟩, fun k j v hj hc => ?_⟩
  have := h.2 k _ j v ⟨_, (numField k).res, hc⟩ hj
  rw [subLimit_eq, dataLimit_eq] at this
  exact ⟨fun hv => this.1 ⟨_, (lenField k).res, hv⟩, fun hv => this.2 ⟨_, (dataField k).res, hv⟩⟩

/-- A file that can be written is as good after a write that was interrupted: it can be written
still, and the bytes are the same. -/
theorem C81_interrupted {f g : NFile P.F IO.D} {out : Bytes} (hw : outcome E f = .ok out)
    (hf : AreasClear IO f) (hg : g ∈ states E f) : outcome E g = .ok out := by
  obtain ⟨F', hw⟩ := outcome_ok.mp hw
  obtain ⟨r⟩ := writeFile_run P E IO hw
  have hw' : writeFile P E IO ((Repair.none : Repair P IO).apply f) = .ok (F', out) := by
    rw [Repair.none_apply]
    exact hw
  obtain ⟨r'⟩ := writeFile_run P E IO hw'
  have half := attempt_half (E := E) r' g hg
  rw [Repair.none_apply g] at half
  refine outcome_ok.mpr (half_writes hw' r' (by rw [Repair.none_apply]; exact hf) half ?_)
  rcases attempt_fits hw r g hg with h | h
  · exact .inl (h.trans (by rw [Repair.none_apply]))
  · refine .inr (LensFit.cells ⟨h.fl, ?_⟩)
    have hs : r'.segs1 = r.segs1 := by
      have a := (run_prepared r).symm.trans
        ((congrArg (prepareFile P IO) (Repair.none_apply f)).symm.trans (run_prepared r'))
      injection a with a
      injection a with _ a
      exact a.symm
    rw [hs]
    exact h.len

/-- The same after any number of interrupted writes. -/
theorem C81_interrupted_often {f g : NFile P.F IO.D} {out : Bytes} (hw : outcome E f = .ok out)
    (hf : CalmFile f) (hg : Interrupted E f g) : outcome E g = .ok out := by
  have : outcome E g = .ok out ∧ CalmFile g := by
    induction hg with
    | start => exact ⟨hw, hf⟩
    | @again g g' _ h ih =>
      obtain ⟨i1, i2⟩ := ih
      refine ⟨C81_interrupted i1 ⟨(calm_iff.mp i2.header).2, fun k areas ha s hs =>
        (calm_iff.mp (i2.segs k areas ha s hs)).2⟩ h, ?_⟩
      rcases attempt_keeps g' h with rfl | ⟨d0, _, hk⟩
      · exact i2
      · exact hk.calm i2
  exact this.1

/-- C81, in part: a write of `f` is given up at some point, because of an exception or otherwise; the
state of the object is then `g`.  If with the data, user subheaders and TREs of the segments
exchanged for others (`φ`), `f` could have been written, then `g` can, and the bytes are the same,
as long as `g` has no lengths that do not fit.  TREs that can be serialised are not exchanged.
The environment (the registered classes) may change as well. -/
theorem C81_retry_partial (φ : Repair P IO) {f g : NFile P.F IO.D} {out : Bytes}
    (hg : g ∈ states E f) (hw : outcome E' (φ.apply f) = .ok out) (hf : AreasClear IO (φ.apply f))
    (hl : LengthsFit g.header) : outcome E' (φ.apply g) = .ok out := by
  obtain ⟨F', hw⟩ := outcome_ok.mp hw
  obtain ⟨r⟩ := writeFile_run P E' IO hw
  exact outcome_ok.mpr (half_writes hw r hf (attempt_half r g hg) (.inr (LengthsFit.cells hl _)))

/-! ### Lengths that do not fit -/

theorem setData_segs (f : NFile P.F IO.D) (k : SegKind) (i : Nat) (x : SegData IO.D) :
    (setData f k i x).segs k = (f.segs k).modify i fun s => { s with data := x } := setSegs_segs _ _ _

theorem prepareSegs_data {k : SegKind} {x : SegData IO.D} : ∀ {l l1 d d' : List (Seg P.F IO.D)} {j : Nat}
    (i : Nat), prepareSegs P IO k j l d = .ok (l1, d') →
    prepareSegs P IO k j (l.modify i fun s => { s with data := x }) d =
      .ok (l1.modify i (fun s => { s with data := x }), d')
  | [], l1, d, d', j, i, h => by
    unfold prepareSegs at h
    injection h with h
    injection h with h1 h2
    subst h1 h2
    simp [prepareSegs]
  | s :: l, l1, d, d', j, i, h => by
    unfold prepareSegs at h
    cases ha : k.areas with
    | none =>
      rw [ha] at h
      simp only at h
      injection h with h
      injection h with h1 h2
      subst h1 h2
      cases i <;> simp [prepareSegs, ha]
    | some areas =>
      rw [ha] at h
      simp only at h
      cases hp : prepareHeader P IO k.desc areas k.secPrefix k.oflName j s.tres s.sub d with
      | error e => rw [hp] at h; cases h
      | ok y =>
        obtain ⟨S', d1⟩ := y
        rw [hp] at h
        simp only at h
        cases hr : prepareSegs P IO k (j + 1) l d1 with
        | error e => rw [hr] at h; cases h
        | ok y =>
          obtain ⟨l2, d2⟩ := y
          rw [hr] at h
          simp only at h
          injection h with h
          injection h with h1 h2
          subst h1 h2
          cases i with
          | zero => simp [prepareSegs, ha, hp, hr]
          | succ i =>
            simp only [List.modify_succ_cons]
            unfold prepareSegs
            simp only [ha, hp, prepareSegs_data i hr]

theorem each_modify {α β : Type} {R : α → β → Prop} {u : α → α} {v : β → β} {l : List α} {r : List β}
    (h : Each R l r) : ∀ (i : Nat) {a : α} {b : β}, l[i]? = some a → r[i]? = some b → R (u a) (v b) →
    Each R (l.modify i u) (r.modify i v) := by
  induction h with
  | nil => intro i a b ha; cases ha
  | @cons x l y r h1 h2 ih =>
    intro i a b ha hb hR
    cases i with
    | zero =>
      injection ha with ha
      injection hb with hb
      subst ha hb
      exact .cons hR h2
    | succ i => exact .cons h1 (ih i ha hb hR)

/-- The object cannot be written after a write that failed because of a length, even if the data is
put back: take any file that can be written and any image, graphic or text segment of it that holds
data of its own.  Give it data that is too long.  Then the write fails; and after the old data is
assigned again, or any other, all further writes fail as well. -/
theorem C81_stuck {f : NFile P.F IO.D} {out : Bytes} (hw : outcome E f = .ok out) {k : SegKind}
    (hk : k = .image ∨ k = .graphic ∨ k = .text) {i : Nat} {s : Seg P.F IO.D}
    (hs : (f.segs k)[i]? = some s) (hl : s.linked = true) {x : SegData IO.D} {b : Bytes}
    (hb : writeData P IO x = .ok b) (hlong : dataLimit k ≤ b.length) :
    (∃ e, outcome E (setData f k i x) = .error e) ∧
    ∀ (E' : Env) (y : SegData IO.D),
      ∃ e, outcome E' (setData (left E (setData f k i x)) k i y) = .error e := by
  obtain ⟨F', hw⟩ := outcome_ok.mp hw
  obtain ⟨r⟩ := writeFile_run P E IO hw
  have hfit := run_fits r
  have hsk : ∀ k' , k' ≠ k → (setData f k i x).segs k' = f.segs k' := by
    intro k' hk'
    unfold setData
    cases k <;> cases k' <;> first | exact absurd rfl hk' | rfl
  have hsegs := setData_segs f k i x
  -- prepared
  let segs : SegKind → List (Seg P.F IO.D) := fun k' =>
    if k' = k then (r.segs1 k).modify i fun s => { s with data := x } else r.segs1 k'
  let res : SegKind → List (Seg P.F IO.D × Bytes × Bytes) := fun k' =>
    if k' = k then (r.res k).modify i fun q => ({ q.1 with data := x }, q.2.1, b) else r.res k'
  have hprep : prepareFile P IO (setData f k i x) = .ok (r.h1, segs) := by
    have hn := r.nums
    unfold prepareFile
    rcases hk with rfl | rfl | rfl
    · have e : (setData f .image i x).image = f.image.modify i fun s => { s with data := x } := hsegs
      have e2 : (setData f .image i x).des = f.des := rfl
      have e3 : (setData f .image i x).tres = f.tres := rfl
      have e4 : (setData f .image i x).header = f.header := rfl
      have e5 : (setData f .image i x).graphic = f.graphic := rfl
      have e6 : (setData f .image i x).text = f.text := rfl
      have e7 : (setData f .image i x).res = f.res := rfl
      simp only [e, e2, e3, e4, e5, e6, e7, r.drop0, r.prepH, prepareSegs_data i r.prepI, r.prepG, r.prepT,
        bind, Except.bind, pure, Except.pure, List.length_modify, hn]
      congr 2
      funext k'
      cases k' <;> simp [segs, r.segsR]
    · have e : (setData f .graphic i x).graphic = f.graphic.modify i fun s => { s with data := x } := hsegs
      have e2 : (setData f .graphic i x).des = f.des := rfl
      have e3 : (setData f .graphic i x).tres = f.tres := rfl
      have e4 : (setData f .graphic i x).header = f.header := rfl
      have e5 : (setData f .graphic i x).image = f.image := rfl
      have e6 : (setData f .graphic i x).text = f.text := rfl
      have e7 : (setData f .graphic i x).res = f.res := rfl
      simp only [e, e2, e3, e4, e5, e6, e7, r.drop0, r.prepH, r.prepI, prepareSegs_data i r.prepG, r.prepT,
        bind, Except.bind, pure, Except.pure, List.length_modify, hn]
      congr 2
      funext k'
      cases k' <;> simp [segs, r.segsR]
    · have e : (setData f .text i x).text = f.text.modify i fun s => { s with data := x } := hsegs
      have e2 : (setData f .text i x).des = f.des := rfl
      have e3 : (setData f .text i x).tres = f.tres := rfl
      have e4 : (setData f .text i x).header = f.header := rfl
      have e5 : (setData f .text i x).image = f.image := rfl
      have e6 : (setData f .text i x).graphic = f.graphic := rfl
      have e7 : (setData f .text i x).res = f.res := rfl
      simp only [e, e2, e3, e4, e5, e6, e7, r.drop0, r.prepH, r.prepI, r.prepG, prepareSegs_data i r.prepT,
        bind, Except.bind, pure, Except.pure, List.length_modify, hn]
      congr 2
      funext k'
      cases k' <;> simp [segs, r.segsR]
  have hkd : k ≠ .des := by rintro rfl; rcases hk with h | h | h <;> cases h
  -- the segment
  have hpl := (prepareFile_plan (run_prepared r)).others k hkd
  obtain ⟨s1, hs1, hl1⟩ : ∃ s1, (r.segs1 k)[i]? = some s1 ∧ s1.linked = true := by
    have hlt := lt_of_getElem? hs
    rw [hpl.length] at hlt
    refine ⟨_, List.getElem?_eq_getElem hlt, ?_⟩
    exact (hpl.get _ _ _ hs (List.getElem?_eq_getElem hlt)).linked.trans hl
  have hlt := lt_of_getElem? hs1
  rw [(r.each k).length] at hlt
  obtain ⟨q, hq⟩ : ∃ q, (r.res k)[i]? = some q := ⟨_, List.getElem?_eq_getElem hlt⟩
  have hsb : segBytes P E IO k s1 = .ok q := (r.each k).get _ _ _ hs1 hq
  have hsb' : segBytes P E IO k { s1 with data := x } = .ok ({ q.1 with data := x }, q.2.1, b) := by
    have hc : checkUser P E IO k { s1 with data := x } = checkUser P E IO k s1 := rfl
    unfold segBytes at hsb ⊢
    rw [hc]
    cases h1 : checkUser P E IO k s1 with
    | error e => rw [h1] at hsb; cases hsb
    | ok _ =>
      rw [h1] at hsb
      simp only at hsb ⊢
      cases h2 : writeUser P k s1.user s1.sub with
      | error e => rw [h2] at hsb; cases hsb
      | ok sub =>
        rw [h2] at hsb
        simp only at hsb ⊢
        cases h3 : writeStruct P k.desc sub with
        | error e => rw [h3] at hsb; cases hsb
        | ok sb =>
          rw [h3] at hsb
          simp only at hsb ⊢
          rw [hb]
          cases h4 : writeData P IO s1.data with
          | error e => rw [h4] at hsb; cases hsb
          | ok db =>
            rw [h4] at hsb
            simp only at hsb ⊢
            injection hsb with hsb
            subst hsb
            rfl
  have heach : ∀ k', Each (fun s r => segBytes P E IO k' s = .ok r) (segs k') (res k') := by
    intro k'
    by_cases hkk : k' = k
    · subst hkk
      simp only [segs, res, if_true]
      exact each_modify (r.each k') i hs1 hq hsb'
    · simp only [segs, res, if_neg hkk]
      exact r.each k'
  have htl : TooLong (left E (setData f k i x)) := by
    refine attempt_tooLong (i := i) (s := { s1 with data := x })
      (r := ({ q.1 with data := x }, q.2.1, b)) hprep r.chunks hfit.headerLength heach hk ?_ ?_ hl1 (.inr hlong)
    · simp only [segs, if_true, List.getElem?_modify, hs1]
      simp
    · simp only [res, if_true, List.getElem?_modify, hq]
      simp
  refine ⟨outcome_error.mpr ?_, fun E' y => outcome_error.mpr (tooLong_raises ?_)⟩
  · cases hok : writeFile P E IO (setData f k i x) with
    | error e => exact ⟨e, rfl⟩
    | ok z =>
      exfalso
      obtain ⟨G', out'⟩ := z
      obtain ⟨r'⟩ := writeFile_run P E IO hok
      have hfit' := run_fits r'
      have hp' := run_prepared r'
      rw [hprep] at hp'
      injection hp' with hp'
      injection hp' with _ hsegs'
      have h1 : (r'.segs1 k)[i]? = some { s1 with data := x } := by
        rw [← hsegs']
        simp only [segs, if_true, List.getElem?_modify, hs1]
        simp
      have hlt' := lt_of_getElem? h1
      rw [(r'.each k).length] at hlt'
      have h2 := (r'.each k).get _ _ _ h1 (List.getElem?_eq_getElem hlt')
      have h3 := hfit'.lengths k i _ _ h1 (List.getElem?_eq_getElem hlt') hl1
      rw [hsb'] at h2
      injection h2 with h2
      rw [← h2] at h3
      have := h3.2
      simp only at this
      omega
  · obtain ⟨k', j, v, a1, a2, a3⟩ := htl
    refine ⟨k', j, v, a1, ?_, ?_⟩
    · by_cases hkk : k' = k
      · subst hkk
        rw [setData_segs, List.length_modify]
        exact a2
      · unfold setData
        cases k <;> cases k' <;> first | exact absurd rfl hkk | exact a2
    · cases k <;> exact a3

theorem left_mem (f : NFile P.F IO.D) : left E f ∈ states E f := List.getLast_mem _

/-- The condition on the overflow fields in `C81_interrupted` is needed (see `C27_stale`). -/
theorem C81_stale : ∃ (f g : NFile P0.F exIO.D) (out : Bytes), outcome exEnv f = .ok out ∧
    g ∈ states exEnv f ∧ outcome exEnv g ≠ .ok out := by
  obtain ⟨f1, f2, out1, out2, h1, h2, h3⟩ := C27_stale
  refine ⟨exStale, f1, out1, outcome_ok.mpr ⟨f1, h1⟩, (C81_attempt exStale).2 f1 out1 h1 ▸ left_mem _, ?_⟩
  intro h
  rw [outcome_ok.mpr ⟨f2, h2⟩] at h
  injection h with h
  exact h3 h.symm

/-! ### Concrete cases -/

def emptyCalmB (d : Desc) (areas : List Area) : Bool :=
  areas.all fun a =>
    (match getAttr P0 d Store.empty a.len [] with
      | .ok (.int z) => decide (0 ≤ z)
      | _ => true) &&
    match resolve d.tab a.ofl with
    | none => true
    | some o => match d.tab[o]? with
      | none => true
      | some fo => decide (stored (Store.empty : Store P0.F) fo.fd o [] = .val (.int 0))

theorem emptyCalm {d : Desc} {areas : List Area} (h : emptyCalmB d areas = true) :
    Calm P0 d areas Store.empty := by
  intro a ha
  have := List.all_eq_true.mp h a ha
  rw [Bool.and_eq_true] at this
  refine ⟨fun z hz => ?_, fun _ o fo ho hf => ?_⟩
  · have := this.1
    rw [hz] at this
    exact of_decide_eq_true this
  · have := this.2
    rw [ho] at this
    simp only [hf] at this
    exact of_decide_eq_true this

/-- A file as new, whatever its data. -/
theorem newCalm {IO : DataIO P0.F} {f : NFile P0.F IO.D} (hh : f.header = Store.empty)
    (hs : ∀ k, ∀ s ∈ f.segs k, s.sub = Store.empty) : CalmFile f := by
  refine ⟨by rw [hh]; exact emptyCalm (by decide +kernel), fun k areas ha s h => ?_⟩
  rw [hs k s h]
  refine emptyCalm ?_
  cases k with
  | des => cases ha
  | res => cases ha
  | _ => injection ha with ha; subst ha; decide +kernel

theorem exFile_calm : CalmFile exFile := by
  refine newCalm rfl ?_
  intro k s hs
  cases k with
  | text => rw [List.mem_singleton.mp hs]
  | des => rw [List.mem_singleton.mp hs]
  | _ => cases hs

theorem exFile_written : ∃ out, outcome exEnv exFile = .ok out := by
  cases h : outcome exEnv exFile with
  | ok out => exact ⟨out, rfl⟩
  | error e =>
    have : (outcome exEnv exFile).toOption.isSome = true := by decide +kernel
    rw [h] at this
    cases this

/-- The file of `Verif/Props/File.lean` goes through this many states (some of them equal); a write may be interrupted in any. -/
example : (states exEnv exFile).length = 29 := by decide +kernel

example : ∃ out, outcome exEnv exFile = .ok out ∧
    ∀ g, Interrupted exEnv exFile g → outcome exEnv g = .ok out := by
  obtain ⟨out, h⟩ := exFile_written
  exact ⟨out, h, fun g hg => C81_interrupted_often h exFile_calm hg⟩

/-- Its text is replaced by one byte too much, and then the old text is put back. -/
example : (∃ e, outcome exEnv (setData exFile .text 0 (.other (List.replicate 100000 65))) = .error e) ∧
    ∃ e, outcome exEnv (setData (left exEnv (setData exFile .text 0
      (.other (List.replicate 100000 65)))) .text 0 (.other (asc "hi"))) = .error e := by
  obtain ⟨out, h⟩ := exFile_written
  have := C81_stuck h (k := .text) (i := 0) (.inr (.inr rfl)) rfl rfl
    (x := .other (List.replicate 100000 65)) (b := List.replicate 100000 65) rfl
    (by rw [List.length_replicate]; exact Nat.le_refl _)
  exact ⟨this.1, this.2 _ _⟩

/-- Data that cannot be written when there is none. -/
def failIO : DataIO P0.F where
  D := Bytes
  write := fun b => if b = [] then .error .runtime else .ok b
  read := fun _ _ size b => .ok (fhRead size b)
  data := .ok

/-- A file with a text and a DES that has no data yet. -/
def exFails : NFile P0.F failIO.D :=
  { header := Store.empty
    tres := [.unknown "ABCDEF".toList [1, 2]]
    text := [{ linked := true, sub := Store.empty, data := .other (asc "hi") }]
    des := [{ linked := true, sub := Store.empty, data := .other [] }] }

/-- Segments without data get some. -/
def exRepair : Repair P0 failIO where
  parts := fun _ x => (x.1, (match x.2.1 with
    | .other [] => .other [7, 8, 9]
    | y => y), x.2.2)
  file := id
  keeps := fun _ _ _ _ => rfl
  keepsFile := fun _ _ _ => rfl

/-- Decides `LengthsFit`. -/
def lengthsFitB (H : Store P0.F) : Bool :=
  let okB (lim : Nat) (c : Option (Cell P0.F)) : Bool := match c with
    | some ⟨.val (.int v), _⟩ => decide (v < lim)
    | _ => true
  okB 1000000000000 (H flPos []) && [SegKind.image, .graphic, .text, .des, .res].all fun k =>
    match H (numPos k) [] with
    | some ⟨.val (.int c), _⟩ => (List.range c.toNat).all fun i =>
        okB (subLimit k) (H (lenPos k) [(i : Int)]) && okB (dataLimit k) (H (dataPos k) [(i : Int)])
    | _ => true

theorem lengthsFit_of {H : Store P0.F} (h : lengthsFitB H = true) : LengthsFit H := by
  have at_ : ∀ {nm : Name} {n : Nat} {key : Key} {v : Nat}, resolve Tables.t_file_header.tab nm = some n →
      Assigned H nm key v → H n key = some ⟨.val (.int v), none⟩ := by
    rintro nm n key v hr ⟨n', hr', h⟩
    rw [hr] at hr'
    injection hr' with hr'
    rw [hr']
    exact h
  unfold lengthsFitB at h
  simp only [Bool.and_eq_true] at h
  refine ⟨fun v hv => ?_, fun k c i v hc hi => ?_⟩
  · have := h.1
    rw [at_ flField.res hv] at this
    have := of_decide_eq_true this
    omega
  · have := List.all_eq_true.mp h.2 k (by cases k <;> simp)
    rw [at_ (numField k).res hc] at this
    simp only at this
    have := List.all_eq_true.mp this i (by simp; omega)
    rw [Bool.and_eq_true] at this
    refine ⟨fun hv => ?_, fun hv => ?_⟩
    · have := this.1
      rw [at_ (lenField k).res hv] at this
      have := of_decide_eq_true this
      omega
    · have := this.2
      rw [at_ (dataField k).res hv] at this
      have := of_decide_eq_true this
      omega

/-- The write fails at the DES, with the text written already; with data for the DES it gives the file
that would have been written at once. -/
example : outcome exEnv exFails = .error .runtime ∧
    ∃ out, outcome exEnv (exRepair.apply exFails) = .ok out ∧
      outcome exEnv (exRepair.apply (left exEnv exFails)) = .ok out := by
  refine ⟨by decide +kernel, ?_⟩
  cases h : outcome exEnv (exRepair.apply exFails) with
  | error e =>
    have : (outcome exEnv (exRepair.apply exFails)).toOption.isSome = true := by decide +kernel
    rw [h] at this
    cases this
  | ok out =>
    have hc : CalmFile (exRepair.apply exFails) := by
      refine newCalm rfl ?_
      intro k s hs
      cases k with
      | text => rw [List.mem_singleton.mp hs]; rfl
      | des => rw [List.mem_singleton.mp hs]; rfl
      | _ => cases hs
    refine ⟨out, rfl, C81_retry_partial exRepair (left_mem _) h ⟨(calm_iff.mp hc.header).2,
      fun k areas ha s hs => (calm_iff.mp (hc.segs k areas ha s hs)).2⟩
      (lengthsFit_of (by decide +kernel))⟩

end Verif.Attempt
