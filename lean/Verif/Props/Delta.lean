import Verif.Delta
import Verif.Index
import Verif.Props.Frame
import Verif.Props.State
import Verif.Props.Merge
import Verif.Props.File

/- C60: creating a JSON delta of a file. -/

namespace Verif

variable {P : PyFloat}

/-! ### Specification -/

/-- A struct that can be copied: it can be written, and its values can be read back. -/
def CanCopy (P : PyFloat) (d : Desc) (S : Store P.F) : Prop :=
  (∃ cs, writeChunks P d S = .ok cs ∧ ∀ ch ∈ cs, Survives P d S ch) ∧
  ∀ n k c, S n k = some c → ∃ v, c.val = .val v

/-- A header that can be written and holds values (no `NitfLiteral`). -/
def PlainHeader (P : PyFloat) (d : Desc) (S : Store P.F) : Prop :=
  (∃ b, writeStruct P d S = .ok b) ∧ NoLit S

/-- A header in the delta: the TRE areas are empty, all fields outside have the same values. -/
structure HeaderDelta (P : PyFloat) (d : Desc) (areas : List Area) (S R : Store P.F) : Prop where
  kept : ∀ nm, (∀ a ∈ areas, nm ≠ a.len ∧ nm ≠ a.ofl ∧ nm ≠ a.data) →
    itemsOf P d R nm = itemsOf P d S nm
  len : ∀ a ∈ areas, getAttr P d R a.len [] = .ok (.int 0)
  data : ∀ a ∈ areas, getAttr P d R a.data [] = .ok (.bytes [])

/-- What the user subheader of a DES contributes to its key: the field `id`, else the field
`des_id1`, else None. -/
inductive UserId : Option (Desc × Store P.F) → Val P.F → Prop
  | absent : UserId none .none
  | id {d : Desc} {S : Store P.F} {v : Val P.F} (h : ∃ m, resolve d.tab (n!"id") = some m)
      (hv : getAttr P d S (n!"id") [] = .ok v) : UserId (some (d, S)) v
  | des_id1 {d : Desc} {S : Store P.F} {v : Val P.F} (h0 : resolve d.tab (n!"id") = none)
      (h : ∃ m, resolve d.tab (n!"des_id1") = some m)
      (hv : getAttr P d S (n!"des_id1") [] = .ok v) : UserId (some (d, S)) v
  | other {d : Desc} {S : Store P.F} (h0 : resolve d.tab (n!"id") = none)
      (h1 : resolve d.tab (n!"des_id1") = none) : UserId (some (d, S)) .none

/-- The key by which a segment is found again: images by `iid1` and `idlvl`, texts by `textid`, DES
by `desid` and the identification of the user subheader; no key for other data of images and for
RES. -/
inductive SegKey {D : Type} (C : DataCls D) : SegKind → Seg P.F D → Option (List (Val P.F)) → Prop
  | image {s : Seg P.F D} {x : D} {a b : Val P.F} (hx : s.data = .other x) (hc : C.image x = true)
      (ha : getAttr P Tables.t_image_subheader s.sub (n!"iid1") [] = .ok a)
      (hb : getAttr P Tables.t_image_subheader s.sub (n!"idlvl") [] = .ok b) :
      SegKey C .image s (some [a, b])
  | noimage {s : Seg P.F D} (h : ∀ x, s.data = .other x → C.image x = false) : SegKey C .image s none
  | graphic {s : Seg P.F D} {a : Val P.F}
      (ha : getAttr P Tables.t_graphic_subheader s.sub (n!"sid") [] = .ok a) :
      SegKey C .graphic s (some [a])
  | text {s : Seg P.F D} {a : Val P.F}
      (ha : getAttr P Tables.t_text_subheader s.sub (n!"textid") [] = .ok a) :
      SegKey C .text s (some [a])
  | des {s : Seg P.F D} {a b : Val P.F}
      (ha : getAttr P Tables.t_des_subheader s.sub (n!"desid") [] = .ok a) (hb : UserId s.user b) :
      SegKey C .des s (some [a, b])
  | res {s : Seg P.F D} : SegKey C .res s none

/-- A DES whose data is made of fields. -/
def FieldDes {D : Type} (C : DataCls D) (s : Seg P.F D) : Prop :=
  ∃ x, s.data = .other x ∧ C.fieldStruct x = true

/-- The data kept in a delta: raw TRE bytes as they are, other data a copy. -/
def DataKept {D : Type} (C : DataCls D) : SegData D → SegData D → Prop
  | .overflow b, y => y = .overflow b
  | .other x, y => ∃ x', C.copy x = .ok x' ∧ y = .other x'

/-- A segment in the delta. -/
structure SegDelta {D : Type} (C : DataCls D) (k : SegKind) (incl : Bool) (s : Seg P.F D)
    (t : DeltaSeg P.F D) : Prop where
  sub : HeaderDelta P k.desc (k.areas.getD []) s.sub t.sub
  user : SameUser P s.user t.user
  tres : Each (SameTre P) s.tres t.tres
  key : SegKey C k s t.key
  data : if incl then ∃ y, t.data = some y ∧ DataKept C s.data y else t.data = none

/-- TREs that can be written and read back. -/
def TresCopy (P : PyFloat) (reg : Registry) (ts : List (Tre P.F)) : Prop :=
  ∀ t ∈ ts, Representable P reg t ∧ ∃ b, treWrite P t = .ok b

/-- A segment of which a delta can be made. -/
structure SegCopies {D : Type} (reg : Registry) (C : DataCls D) (k : SegKind) (incl : Bool)
    (s : Seg P.F D) : Prop where
  sub : PlainHeader P k.desc s.sub
  user : ∀ d S, s.user = some (d, S) → d.causal = true ∧ d.allFields FieldDef.wf = true ∧
    CanCopy P d S
  tres : TresCopy P reg s.tres
  key : ∃ key, SegKey C k s key
  data : incl = true → ∀ x, s.data = .other x → ∃ y, C.copy x = .ok y

/-! ### Keys -/

theorem userKey_iff {u : Option (Desc × Store P.F)} {v : Val P.F} :
    userKey P u = .ok v ↔ UserId u v := by
  constructor
  · intro h
    unfold userKey at h
    split at h
    · cases h; exact .absent
    · split at h
      · rename_i hr
        exact .id (Option.isSome_iff_exists.mp hr) h
      · rename_i hr
        have hr' := Option.not_isSome_iff_eq_none.mp hr
        split at h
        · rename_i h1
          exact .des_id1 hr' (Option.isSome_iff_exists.mp h1) h
        · rename_i h1
          cases h
          exact .other hr' (Option.not_isSome_iff_eq_none.mp h1)
  · intro h
    unfold userKey
    cases h with
    | absent => rfl
    | id h hv =>
      simp only
      rw [if_pos (Option.isSome_iff_exists.mpr h), hv]
    | des_id1 h0 h hv =>
      simp only
      rw [if_neg (by simp [h0]), if_pos (Option.isSome_iff_exists.mpr h), hv]
    | other h0 h1 =>
      simp only
      rw [if_neg (by simp [h0]), if_neg (by simp [h1])]

/-- C60, keys: the key computed for a segment is the tuple of the fields that identify it. -/
theorem C60_key {D : Type} {C : DataCls D} {k : SegKind} {s : Seg P.F D}
    {key : Option (List (Val P.F))} : primaryKey P C k s = .ok key ↔ SegKey C k s key := by
  have bindOk : ∀ {α β : Type} {x : Except Err α} {f : α → Except Err β} {y : β},
      x.bind f = .ok y ↔ ∃ a, x = .ok a ∧ f a = .ok y := by
    intro α β x f y
    cases x <;> simp [Except.bind]
  constructor
  · intro h
    unfold primaryKey at h
    cases k with
    | image =>
      simp only at h
      split at h
      · rename_i b hb
        cases h
        exact .noimage fun x hx => by rw [hb] at hx; cases hx
      · rename_i x hx
        split at h
        · rename_i hc
          simp only [bind, bindOk] at h
          obtain ⟨a, ha, b, hb, h⟩ := h
          cases h
          exact .image hx hc ha hb
        · rename_i hc
          cases h
          exact .noimage fun y hy => by rw [hx] at hy; cases hy; simpa using hc
    | graphic =>
      simp only [bind, bindOk] at h
      obtain ⟨a, ha, h⟩ := h
      cases h
      exact .graphic ha
    | text =>
      simp only [bind, bindOk] at h
      obtain ⟨a, ha, h⟩ := h
      cases h
      exact .text ha
    | des =>
      simp only [bind, bindOk] at h
      obtain ⟨a, ha, b, hb, h⟩ := h
      cases h
      exact .des ha (userKey_iff.mp hb)
    | res => cases h; exact .res
  · intro h
    unfold primaryKey
    cases h with
    | image hx hc ha hb =>
      simp only [hx, hc, if_true, bind, bindOk]
      exact ⟨_, ha, _, hb, rfl⟩
    | noimage h =>
      simp only
      split
      · rfl
      · rename_i x hx
        rw [if_neg (by simp [h x hx])]
    | graphic ha => simp only [bind, bindOk]; exact ⟨_, ha, rfl⟩
    | text ha => simp only [bind, bindOk]; exact ⟨_, ha, rfl⟩
    | des ha hb => simp only [bind, bindOk]; exact ⟨_, ha, _, userKey_iff.mpr hb, rfl⟩
    | res => rfl

theorem desIncluded_iff {D : Type} {C : DataCls D} {s : Seg P.F D} :
    desIncluded P C s = true ↔ FieldDes C s := by
  unfold desIncluded FieldDes
  cases s.data <;> simp

/-! ### Headers -/

theorem canCopy_copies {d : Desc} (hd : d.causal = true) (hwf : d.allFields FieldDef.wf = true)
    {S : Store P.F} (h : CanCopy P d S) :
    ∃ R, deepCopy P d S = .ok R ∧ ∀ nm, itemsOf P d R nm = itemsOf P d S nm := by
  obtain ⟨⟨cs, hw, hs⟩, hv⟩ := h
  obtain ⟨R, h1, h2, _⟩ := C16_deepcopy P hd hwf hw hs hv
  exact ⟨R, h1, h2⟩

theorem PlainHeader.canCopy {d : Desc} (ha : d.allFields FieldDef.alwaysSurvives = true) {S : Store P.F}
    (h : PlainHeader P d S) : CanCopy P d S := by
  obtain ⟨⟨b, hb⟩, hl⟩ := h
  obtain ⟨cs, hc, _⟩ := writeStruct_chunks P hb
  exact ⟨⟨cs, hc, survives_of_values P ha hl⟩, hl⟩

theorem clearData_spec {d : Desc} : ∀ {as : List Area} {ps : List AreaPos} (S : Store P.F),
    Each (AreaAt d.tab) as ps → (ps.flatMap AreaPos.list).Nodup →
    ∃ R, clearData P d (as.map Area.data) S = .ok R ∧
      (∀ m k, m ∉ ps.flatMap AreaPos.list → R m k = S m k) ∧
      ∀ a ∈ as, getAttr P d R a.len [] = .ok (.int 0) ∧ getAttr P d R a.data [] = .ok (.bytes []) := by
  intro as ps S h hn
  induction h generalizing S with
  | nil => exact ⟨S, rfl, fun _ _ _ => rfl, by simp⟩
  | @cons a as p ps ha _ ih =>
    rw [List.flatMap_cons, List.nodup_append] at hn
    obtain ⟨hn1, hn2, hn3⟩ := hn
    obtain ⟨R, r1, r2, r3⟩ := ih ((S.set p.n [] ⟨.val (.bytes []), none⟩).set p.m []
      ⟨.val (.int 0), none⟩) hn2
    have hm : p.m ∈ p.list := by simp [AreaPos.list]
    have hnn : p.n ∈ p.list := by simp [AreaPos.list]
    refine ⟨R, ?_, ?_, ?_⟩
    · rw [List.map_cons, clearData, ha.setData []]
      exact r1
    · intro m k hmem
      rw [List.flatMap_cons, List.mem_append] at hmem
      rw [r2 m k fun h => hmem (.inr h)]
      have h1 : m ≠ p.m := by rintro rfl; exact hmem (.inl hm)
      have h2 : m ≠ p.n := by rintro rfl; exact hmem (.inl hnn)
      simp [Store.set, h1, h2]
    · intro b hb
      rcases List.mem_cons.mp hb with rfl | hb
      · have hne := ha.ne
        have cm : R p.m [] = some ⟨.val (.int 0), none⟩ := by
          rw [r2 p.m [] fun h => hn3 _ hm _ h rfl]
          simp [Store.set]
        have cn : R p.n [] = some ⟨.val (.bytes []), none⟩ := by
          rw [r2 p.n [] fun h => hn3 _ hnn _ h rfl]
          simp [Store.set, Ne.symm hne.2.1]
        obtain ⟨fm, g1, g2, g3, g4, g5⟩ := ha.flen
        obtain ⟨fn, e1, e2, e3, e4, e5, _⟩ := ha.fdata
        constructor
        · unfold getAttr
          rw [ha.rlen]
          simp only
          rw [g2.get_plain P g3 g1 (evalCond_none P g5 _ _)]
          have : stored R fm.fd p.m [] = .val (.int 0) := by unfold stored; rw [cm]
          rw [this]
          exact finish_int P g4 0
        · unfold getAttr
          rw [ha.rdata]
          simp only
          refine e2.get_bytes P e3 e1 (evalCond_none P e5 _ _) ?_
          have : stored R fn.fd p.n [] = .val (.bytes []) := by unfold stored; rw [cn]
          rw [this]
          exact finish_bytes P e4 []
      · exact r3 b hb

theorem headerDelta_of {d : Desc} {as : List Area} {ps : List AreaPos} (hd : d.causal = true)
    (hwf : d.allFields FieldDef.wf = true) (ha : Each (AreaAt d.tab) as ps)
    (hn : (ps.flatMap AreaPos.list).Nodup) (hc : clearOf d.tab (ps.flatMap AreaPos.list) = true)
    {S : Store P.F} (h : CanCopy P d S) :
    ∃ R0 R, deepCopy P d S = .ok R0 ∧ clearData P d (as.map Area.data) R0 = .ok R ∧
      HeaderDelta P d as S R := by
  obtain ⟨R0, h1, h2⟩ := canCopy_copies hd hwf h
  obtain ⟨R, r1, r2, r3⟩ := clearData_spec (P := P) R0 ha hn
  refine ⟨R0, R, h1, r1, ?_, fun a h => (r3 a h).1, fun a h => (r3 a h).2⟩
  intro nm hnm
  rw [← h2 nm]
  unfold itemsOf
  cases hr : resolve d.tab nm with
  | none => rfl
  | some n =>
    simp only
    have hout : n ∉ ps.flatMap AreaPos.list := by
      intro hmem
      clear r1 r2 r3 hn hc
      induction ha with
      | nil => simp at hmem
      | @cons a as p ps ha _ ih =>
        rw [List.flatMap_cons, List.mem_append] at hmem
        obtain ⟨b1, b2, b3⟩ := hnm a (by simp)
        rcases hmem with hp | hp
        · have key : ∀ {nm' fi}, resolve d.tab nm' = some n → d.tab[n]? = some fi → nm = nm' := by
            intro nm' fi q1 q2
            have e1 := resolve_named hr q2
            have e2 := resolve_named q1 q2
            rw [e1] at e2
            injection e2
          obtain ⟨f1, c1, _⟩ := ha.flen
          obtain ⟨f2, c2, _⟩ := ha.fofl
          obtain ⟨f3, c3, _⟩ := ha.fdata
          simp only [AreaPos.list, List.mem_cons, List.not_mem_nil, or_false] at hp
          rcases hp with rfl | rfl | rfl
          · exact b1 (key ha.rlen c1)
          · exact b2 (key ha.rofl c2)
          · exact b3 (key ha.rdata c3)
        · exact ih (fun a h => hnm a (List.mem_cons_of_mem _ h)) hp
    refine (getItem_closed (clearOf_closed hc) (fun m fi _ hm k => ?_) hout).2
    unfold stored
    rw [r2 m k hm]

theorem each_positions {d : Desc} : ∀ {as : List Area},
    (∀ a ∈ as, areaOkB d.tab a ⟨(resolve d.tab a.len).getD 0, (resolve d.tab a.ofl).getD 0,
      (resolve d.tab a.data).getD 0⟩ = true) → Each (AreaAt d.tab) as (areaPositions d as)
  | [], _ => .nil
  | a :: as, h => .cons (areaAt_of_ok (h a (by simp)))
      (each_positions fun b hb => h b (List.mem_cons_of_mem _ hb))

/-- What is checked of the tables: the areas have the expected form, and no row outside refers to
them. -/
def deltaB (d : Desc) (as : List Area) : Bool :=
  d.causal && d.allFields FieldDef.wf &&
  as.all (fun a => areaOkB d.tab a ⟨(resolve d.tab a.len).getD 0, (resolve d.tab a.ofl).getD 0,
    (resolve d.tab a.data).getD 0⟩) &&
  decide ((areaPositions d as).flatMap AreaPos.list).Nodup &&
  clearOf d.tab ((areaPositions d as).flatMap AreaPos.list)

theorem headerDelta_ok {d : Desc} {as : List Area} (hb : deltaB d as = true) {S : Store P.F}
    (h : CanCopy P d S) :
    ∃ R0 R, deepCopy P d S = .ok R0 ∧ clearData P d (as.map Area.data) R0 = .ok R ∧
      HeaderDelta P d as S R := by
  unfold deltaB at hb
  simp only [Bool.and_eq_true, List.all_eq_true, decide_eq_true_eq] at hb
  obtain ⟨⟨⟨⟨h1, h2⟩, h3⟩, h4⟩, h5⟩ := hb
  exact headerDelta_of h1 h2 (each_positions h3) h4 h5 h

theorem file_deltaB : deltaB Tables.t_file_header fileAreas.reverse = true := by decide +kernel

theorem image_deltaB : deltaB Tables.t_image_subheader imageAreas = true := by decide +kernel

theorem text_deltaB : deltaB Tables.t_text_subheader textAreas = true := by decide +kernel

theorem des_deltaB : deltaB Tables.t_des_subheader [] = true := by decide +kernel

/-! ### Segments -/

theorem copyList_each {α : Type} {f : α → Except Err α} {R : α → α → Prop} : ∀ {l : List α},
    (∀ x ∈ l, ∃ y, f x = .ok y ∧ R x y) → ∃ l', copyList f l = .ok l' ∧ Each R l l'
  | [], _ => ⟨[], rfl, .nil⟩
  | x :: l, h => by
    obtain ⟨y, h1, h2⟩ := h x (by simp)
    obtain ⟨l', h3, h4⟩ := copyList_each (l := l) fun z hz => h z (List.mem_cons_of_mem _ hz)
    refine ⟨y :: l', ?_, .cons h2 h4⟩
    unfold copyList
    rw [h1, h3]

theorem tresCopy_each {reg : Registry} {ts : List (Tre P.F)} (h : TresCopy P reg ts) :
    ∃ us, copyList (treCopy P) ts = .ok us ∧ Each (SameTre P) ts us :=
  copyList_each fun t ht => by
    obtain ⟨h1, b, h2⟩ := h t ht
    exact C58_tre_copied P h1 h2

/-- C60, one segment: the delta of a segment has the same fields outside the TRE areas, which are
empty; the same TREs; the same user subheader; the key of the segment; a copy of the data, or
none. -/
theorem C60_segment {D : Type} {reg : Registry} {C : DataCls D} {k : SegKind}
    (hk : k = .image ∨ k = .text ∨ k = .des) {incl : Bool} {s : Seg P.F D}
    (h : SegCopies reg C k incl s) :
    ∃ t, deltaSeg P C k incl s = .ok t ∧ SegDelta C k incl s t := by
  have hsub : ∃ R0 R, deepCopy P k.desc s.sub = .ok R0 ∧
      clearSub P k R0 = .ok R ∧ HeaderDelta P k.desc (k.areas.getD []) s.sub R := by
    have hs := h.sub.canCopy (subheader_survives k)
    rcases hk with rfl | rfl | rfl
    · exact headerDelta_ok image_deltaB hs
    · exact headerDelta_ok text_deltaB hs
    · exact headerDelta_ok des_deltaB hs
  obtain ⟨R0, R, h1, h2, h3⟩ := hsub
  have huser : ∃ u, copyUser P s.user = .ok u ∧ SameUser P s.user u := by
    cases hu : s.user with
    | none => exact ⟨none, rfl, trivial⟩
    | some x =>
      obtain ⟨d, S⟩ := x
      obtain ⟨a1, a2, a3⟩ := h.user d S hu
      obtain ⟨U, b1, b2⟩ := canCopy_copies a1 a2 a3
      refine ⟨some (d, U), ?_, rfl, b2⟩
      unfold copyUser
      simp only
      rw [b1]
      rfl
  obtain ⟨u, u1, u2⟩ := huser
  obtain ⟨ts, t1, t2⟩ := tresCopy_each h.tres
  obtain ⟨key, hkey0⟩ := h.key
  have hkey := C60_key.mpr hkey0
  have hdata : ∃ x, deltaData C incl s.data = .ok x ∧
      if incl then ∃ y, x = some y ∧ DataKept C s.data y else x = none := by
    cases incl with
    | false => exact ⟨none, rfl, by simp⟩
    | true =>
      unfold deltaData
      rw [if_pos rfl]
      cases hsd : s.data with
      | overflow b =>
        refine ⟨some (.overflow b), rfl, ?_⟩
        rw [if_pos rfl]
        exact ⟨_, rfl, rfl⟩
      | other x =>
        obtain ⟨y, hy⟩ := h.data rfl x hsd
        refine ⟨some (.other y), ?_, ?_⟩
        · simp only [copyData, hy, Except.map]
        · rw [if_pos rfl]; exact ⟨_, rfl, y, hy, rfl⟩
  obtain ⟨x, x1, x2⟩ := hdata
  refine ⟨⟨R, u, ts, key, x⟩, ?_, h3, u2, t2, hkey0, x2⟩
  unfold deltaSeg
  simp only [bind, Except.bind]
  rw [h1]
  simp only
  rw [h2]
  simp only
  rw [u1]
  simp only
  rw [t1]
  simp only
  rw [hkey]
  simp only
  rw [x1]

theorem deltaSegs_each {D : Type} {reg : Registry} {C : DataCls D} {k : SegKind}
    (hk : k = .image ∨ k = .text ∨ k = .des) {incl : Seg P.F D → Bool} :
    ∀ {l : List (Seg P.F D)}, (∀ s ∈ l, SegCopies reg C k (incl s) s) →
      ∃ ts, deltaSegs P C k incl l = .ok ts ∧ Each (fun s t => SegDelta C k (incl s) s t) l ts
  | [], _ => ⟨[], rfl, .nil⟩
  | s :: l, h => by
    obtain ⟨t, h1, h2⟩ := C60_segment hk (h s (by simp))
    obtain ⟨ts, h3, h4⟩ := deltaSegs_each hk (l := l) fun z hz => h z (List.mem_cons_of_mem _ hz)
    refine ⟨t :: ts, ?_, .cons h2 h4⟩
    unfold deltaSegs
    rw [h1, h3]

/-! ### Files -/

/-- A DES segment that is not an overflow of TREs. -/
def notOverflow {D : Type} (s : Seg P.F D) : Bool :=
  match getAttr P Tables.t_des_subheader s.sub (n!"desid") [] with
  | .ok (.str id) => id != "TRE_OVERFLOW".toList
  | _ => false

theorem dropOverflow_filter (IO : DataIO P.F) : ∀ {l : List (Seg P.F IO.D)},
    (∀ s ∈ l, ∃ id, getAttr P Tables.t_des_subheader s.sub (n!"desid") [] = .ok (.str id)) →
    dropOverflow P IO l = .ok (l.filter notOverflow)
  | [], _ => rfl
  | s :: l, h => by
    obtain ⟨id, hid⟩ := h s (by simp)
    have ih := dropOverflow_filter IO (l := l) fun z hz => h z (List.mem_cons_of_mem _ hz)
    unfold dropOverflow
    rw [hid, ih]
    simp only [List.filter_cons]
    have : notOverflow s = (id != "TRE_OVERFLOW".toList) := by
      unfold notOverflow
      rw [hid]
    rw [this]
    by_cases hh : id = "TRE_OVERFLOW".toList
    · simp [hh]
    · rw [if_neg hh, if_pos (by simpa using hh)]

/-- C60.  The delta of a file of which everything can be copied: the header with empty TRE areas
and otherwise the same fields, the same TREs, and for every image, text and DES segment except the
TRE overflows, in order, its delta; texts, and DES made of fields, with a copy of their data. -/
theorem C60_file {IO : DataIO P.F} {reg : Registry} {C : DataCls IO.D} {f : NFile P.F IO.D}
    (hh : PlainHeader P Tables.t_file_header f.header) (ht : TresCopy P reg f.tres)
    (hi : ∀ s ∈ f.image, SegCopies reg C .image false s)
    (hx : ∀ s ∈ f.text, SegCopies reg C .text true s)
    (hid : ∀ s ∈ f.des, ∃ id, getAttr P Tables.t_des_subheader s.sub (n!"desid") [] =
      .ok (.str id))
    (hd : ∀ s ∈ f.des, notOverflow s = true →
      (FieldDes C s → SegCopies reg C .des true s) ∧ (¬ FieldDes C s → SegCopies reg C .des false s)) :
    ∃ D, deltaFile P IO C f = .ok D ∧
      HeaderDelta P Tables.t_file_header fileAreas f.header D.header ∧
      Each (SameTre P) f.tres D.tres ∧
      Each (SegDelta C .image false) f.image D.image ∧
      Each (SegDelta C .text true) f.text D.text ∧
      Each (fun s t => (FieldDes C s → SegDelta C .des true s t) ∧
        (¬ FieldDes C s → SegDelta C .des false s t)) (f.des.filter notOverflow) D.des := by
  obtain ⟨R0, R, h1, h2, h3⟩ := headerDelta_ok file_deltaB (hh.canCopy t_file_header_survives)
  obtain ⟨us, t1, t2⟩ := tresCopy_each ht
  obtain ⟨im, i1, i2⟩ := deltaSegs_each (incl := fun _ => false) (.inl rfl) hi
  obtain ⟨tx, x1, x2⟩ := deltaSegs_each (incl := fun _ => true) (.inr (.inl rfl)) hx
  obtain ⟨de, d1, d2⟩ := deltaSegs_each (incl := desIncluded P C) (.inr (.inr rfl))
    (l := f.des.filter notOverflow) fun s hs => by
      obtain ⟨a, b⟩ := hd s (List.mem_filter.mp hs).1 (List.mem_filter.mp hs).2
      by_cases hf : FieldDes C s
      · rw [desIncluded_iff.mpr hf]; exact a hf
      · rw [Bool.eq_false_iff.mpr fun h => hf (desIncluded_iff.mp h)]; exact b hf
  have hmem : ∀ a, a ∈ fileAreas.reverse ↔ a ∈ fileAreas := fun a => List.mem_reverse
  refine ⟨⟨R, us, im, tx, de⟩, ?_, ⟨?_, ?_, ?_⟩, t2, i2, x2, d2.imp fun s _ t h => ⟨fun hf => ?_, fun hf => ?_⟩⟩
  · unfold deltaFile
    simp only [bind, Except.bind]
    have h2' : clearData P Tables.t_file_header [n!"udhd", n!"xhd"] R0 = .ok R := h2
    rw [t1]
    simp only
    rw [h1]
    simp only
    rw [h2']
    simp only
    rw [i1]
    simp only
    rw [x1]
    simp only
    rw [dropOverflow_filter IO hid]
    simp only
    rw [d1]
  · exact fun nm hnm => h3.kept nm fun a ha => hnm a ((hmem a).mp ha)
  · exact fun a ha => h3.len a ((hmem a).mpr ha)
  · exact fun a ha => h3.data a ((hmem a).mpr ha)
  · rwa [desIncluded_iff.mpr hf] at h
  · rwa [Bool.eq_false_iff.mpr fun h => hf (desIncluded_iff.mp h)] at h

/-- Data objects that are just bytes; DES data is never included. -/
def exCls : DataCls Bytes := ⟨.ok, fun _ => false, fun _ => true⟩

/-- The hypotheses hold for the file of `Verif/Props/File.lean`. -/
example : ∃ D, deltaFile P0 exIO exCls exFile = .ok D ∧
    HeaderDelta P0 Tables.t_file_header fileAreas exFile.header D.header ∧
    Each (SegDelta (D := exIO.D) exCls .text true) exFile.text D.text := by
  have okOf : ∀ {α : Type} {x : Except Err α}, x.isOk = true → ∃ b, x = .ok b := by
    intro α x h
    cases x with
    | ok b => exact ⟨b, rfl⟩
    | error e => cases h
  obtain ⟨D, h1, h2, _, _, h5, _⟩ := C60_file (IO := exIO) (reg := []) (C := exCls) (f := exFile)
    ⟨okOf (by decide +kernel), NoLit.empty⟩
    (by
      intro t ht
      simp only [exFile, List.mem_cons, List.not_mem_nil, or_false] at ht
      subst ht
      exact ⟨⟨⟨by decide, by decide, by decide⟩, rfl⟩, okOf (by decide +kernel)⟩)
    (by intro s hs; simp [exFile] at hs)
    (by
      intro s hs
      simp only [exFile, List.mem_cons, List.not_mem_nil, or_false] at hs
      subst hs
      exact ⟨⟨okOf (by decide +kernel), NoLit.empty⟩, by intro d S h; simp at h,
        by intro t ht; simp at ht, (okOf (by decide +kernel)).imp fun _ => C60_key.mp,
        fun _ _ _ => ⟨_, rfl⟩⟩)
    (by
      intro s hs
      simp only [exFile, List.mem_cons, List.not_mem_nil, or_false] at hs
      subst hs
      exact ⟨[], by decide +kernel⟩)
    (by
      intro s hs _
      simp only [exFile, List.mem_cons, List.not_mem_nil, or_false] at hs
      subst hs
      exact ⟨fun ⟨x, _, h⟩ => (by cases h), fun _ => ⟨⟨okOf (by decide +kernel), NoLit.empty⟩,
        by intro d S h; simp at h, by intro t ht; simp at ht,
        (okOf (by decide +kernel)).imp fun _ => C60_key.mp, fun _ _ _ => ⟨_, rfl⟩⟩⟩)
  exact ⟨D, h1, h2, h5⟩

/-- The delta of that file: one TRE, one text with its data, one DES without data. -/
example : (deltaFile P0 exIO exCls exFile).toOption.map (fun D =>
      (D.tres.length, D.image.length, D.text.map (·.data.isSome), D.des.map (·.data.isSome))) =
    some (1, 0, [true], [false]) := by decide +kernel

/-! ### Merging the delta with its file -/

section merge

variable [DecidableEq P.F]

/-- The segments of a file as the merge sees them; the data objects are numbered. -/
def baseSegs {D : Type} (C : DataCls D) (k : SegKind) (l : List (Seg P.F D)) :
    List (BSeg (List (Val P.F)) Nat) :=
  (enumFrom 0 l).map fun x => ⟨((primaryKey P C k x.2).toOption).join, some x.1⟩

omit [DecidableEq P.F] in
theorem baseSegs_get {D : Type} (C : DataCls D) (k : SegKind) (l : List (Seg P.F D)) (i : Nat) :
    (baseSegs C k l)[i]? = (l[i]?).map fun s =>
      ⟨((primaryKey P C k s).toOption).join, some i⟩ := by
  have gen : ∀ (l : List (Seg P.F D)) (n i : Nat),
      (enumFrom n l)[i]? = (l[i]?).map fun s => (n + i, s) := by
    intro l
    induction l with
    | nil => intro n i; rfl
    | cons s l ih =>
      intro n i
      cases i with
      | zero => rfl
      | succ i =>
        rw [enumFrom, List.getElem?_cons_succ, List.getElem?_cons_succ, ih]
        congr 1
        funext s
        congr 1
        omega
  unfold baseSegs
  rw [List.getElem?_map, gen, Option.map_map]
  congr 1
  funext s
  simp

/-- C60.  Merged with its own file, a segment of the delta without data gets the data of the segment
it was made from, provided this has a key that no other segment of its kind has. -/
theorem C60_merged {D : Type} {C : DataCls D} {k : SegKind} {s : Seg P.F D} {t : DeltaSeg P.F D}
    (ht : SegDelta C k false s t) {l : List (Seg P.F D)} {i : Nat} (hi : l[i]? = some s)
    {key : List (Val P.F)} (hkey0 : SegKey C k s (some key))
    (huniq : ∀ (j : Nat) s', l[j]? = some s' → j ≠ i → ¬ SegKey C k s' (some key))
    {η : Type} (hd : η) :
    ∃ t', (⟨t.key, none, none, hd⟩ : JSeg (List (Val P.F)) Nat η).notify (some (baseSegs C k l)) =
      .ok t' ∧ t'.dataOf = some i := by
  have hkey := C60_key.mpr hkey0
  have hk : t.key = some key := by
    have := C60_key.mpr ht.key
    rw [hkey] at this
    injection this with this
    exact this.symm
  have hb : (baseSegs C k l)[i]? = some ⟨some key, some i⟩ := by
    rw [baseSegs_get, hi]
    simp [hkey, Except.toOption]
  obtain ⟨hlt, hget⟩ := List.getElem?_eq_some_iff.mp hb
  have hon : OnlyMatch (baseSegs C k l) key ⟨some key, some i⟩ := by
    refine ⟨(baseSegs C k l).take i, (baseSegs C k l).drop (i + 1), ?_, rfl, ?_⟩
    · rw [← hget, List.getElem_cons_drop, List.take_append_drop]
    · intro x hx hxk
      have : ∃ j, j ≠ i ∧ (baseSegs C k l)[j]? = some x := by
        rcases List.mem_append.mp hx with hx | hx
        · obtain ⟨j, hj⟩ := List.getElem?_of_mem hx
          have hj' : j < i := by
            have := (List.getElem?_eq_some_iff.mp hj).1
            rw [List.length_take] at this
            omega
          rw [List.getElem?_take_of_lt hj'] at hj
          exact ⟨j, by omega, hj⟩
        · obtain ⟨j, hj⟩ := List.getElem?_of_mem hx
          rw [List.getElem?_drop] at hj
          exact ⟨i + 1 + j, by omega, hj⟩
      obtain ⟨j, hne, hj⟩ := this
      rw [baseSegs_get] at hj
      cases hl : l[j]? with
      | none => rw [hl] at hj; cases hj
      | some s' =>
        rw [hl] at hj
        simp only [Option.map_some, Option.some.injEq] at hj
        rw [← hj] at hxk
        simp only at hxk
        cases hp : primaryKey P C k s' with
        | error e => rw [hp] at hxk; simp [Except.toOption] at hxk
        | ok o =>
          rw [hp] at hxk
          simp only [Except.toOption] at hxk
          cases o with
          | none => simp at hxk
          | some q =>
            simp only [Option.join_some, Option.some.injEq] at hxk
            exact huniq j s' hl hne (C60_key.mp (by rw [hp, hxk]))
  refine ⟨{ key := t.key, data := none, merge := some ⟨some key, some i⟩, header := hd }, ?_, rfl⟩
  exact (C50_match (s := ⟨t.key, none, none, hd⟩) rfl _ _).mpr ⟨key, _, hk, hon, rfl⟩

end merge

end Verif
