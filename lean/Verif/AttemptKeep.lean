import Verif.AttemptCalm

/- What `NitfFile.write` changes in a file object. -/

namespace Verif.Attempt

open Verif

variable {P : PyFloat} {E : Env} {IO : DataIO P.F} {α β : Type}

/-! ### Specification -/

/-- Fields of the file header that `NitfFile.write` sets: the lengths, the counts and the places for
TREs. -/
def headerBook : List Name :=
  [n!"fl", n!"hl", n!"numi", n!"nums", n!"numt", n!"numdes", n!"numres",
   n!"lish", n!"li", n!"lssh", n!"ls", n!"ltsh", n!"lt", n!"ldsh", n!"ld", n!"lresh", n!"lre",
   n!"xhdl", n!"xhdlofl", n!"xhd", n!"udhdl", n!"udhofl", n!"udhd"]

/-- Fields of a subheader that it sets: the places for TREs, and the user subheader of a DES. -/
def segBook : SegKind → List Name
  | .image => [n!"ixshdl", n!"ixofl", n!"ixshd", n!"udidl", n!"udofl", n!"udid"]
  | .graphic => [n!"sxshdl", n!"sxsofl", n!"sxshd"]
  | .text => [n!"txshdl", n!"txsofl", n!"txshd"]
  | .des => [n!"desshl", n!"desshf"]
  | .res => []

/-- All fields but those of `book` are the same. -/
def SameBut (book : List Name) (d : Desc) (S S' : Store P.F) : Prop :=
  ∀ nm n key, resolve d.tab nm = some n → nm ∉ book → S' n key = S n key

/-- The same segment, with the same content, TREs and user subheader; its subheader is the same but
for the fields of `segBook`. -/
structure KeptSeg (k : SegKind) (s s' : Seg P.F IO.D) : Prop where
  linked : s'.linked = s.linked
  user : s'.user = s.user
  tres : s'.tres = s.tres
  data : s'.data = s.data
  sub : SameBut (segBook k) k.desc s.sub s'.sub

/-- No TRE area has a negative length, and the overflow fields of unused TRE areas are 0. -/
structure CalmFile (f : NFile P.F IO.D) : Prop where
  header : Calm P Tables.t_file_header fileAreas f.header
  segs : ∀ k areas, k.areas = some areas → ∀ s ∈ f.segs k, Calm P k.desc areas s.sub

/-! ### Lemmas -/

/-- A field that is not of an area is set. -/
theorem calm_set {d : Desc} {as : List Area} (hA : AreasRows d as (as.map (areaMN d))) {n : Nat}
    (hn : ((List.zip as (as.map (areaMN d))).all fun x => !(areaCells d x.1 x.2).contains n) = true)
    {S : Store P.F} (h : Calm P d as S) (key : Key) (c : Cell P.F) : Calm P d as (S.set n key c) := by
  refine calm_cells hA h ?_
  intro a mn hz q hq
  unfold Store.set
  rw [if_neg]
  rintro ⟨rfl, _⟩
  have := List.all_eq_true.mp hn (a, mn) hz
  simp only [Bool.not_eq_true', List.contains_eq_mem, decide_eq_false_iff_not] at this
  exact this hq

theorem SameBut.refl (book : List Name) (d : Desc) (S : Store P.F) : SameBut book d S S :=
  fun _ _ _ _ _ => rfl

theorem SameBut.trans {book : List Name} {d : Desc} {S S' S'' : Store P.F} (h : SameBut book d S S')
    (h' : SameBut book d S' S'') : SameBut book d S S'' :=
  fun nm n key hr hn => (h' nm n key hr hn).trans (h nm n key hr hn)

theorem KeptSeg.refl (k : SegKind) (s : Seg P.F IO.D) : KeptSeg k s s :=
  ⟨rfl, rfl, rfl, rfl, .refl _ _ _⟩

theorem KeptSeg.trans {k : SegKind} (a b c : Seg P.F IO.D) (h : KeptSeg k a b) (h' : KeptSeg k b c) :
    KeptSeg k a c :=
  ⟨h'.linked.trans h.linked, h'.user.trans h.user, h'.tres.trans h.tres, h'.data.trans h.data,
    h.sub.trans h'.sub⟩

theorem resolve_inj {T : Tab} {a b : Name} {n : Nat} {fi : FInfo} (ha : resolve T a = some n)
    (hb : resolve T b = some n) (hn : T[n]? = some fi) : a = b := by
  have h1 := resolve_named ha hn
  have h2 := resolve_named hb hn
  rw [h1] at h2
  injection h2

/-- A field of `book` is set. -/
theorem SameBut.set {book : List Name} {d : Desc} {nm : Name} {n : Nat} {fi : FInfo}
    (hr : resolve d.tab nm = some n) (hn : d.tab[n]? = some fi) (hb : nm ∈ book) (S : Store P.F)
    (key : Key) (c : Cell P.F) : SameBut book d S (S.set n key c) := by
  intro nm' n' key' hr' hnb
  unfold Store.set
  rw [if_neg]
  rintro ⟨rfl, _⟩
  exact hnb (resolve_inj hr' hr hn ▸ hb)

/-- The areas are fields of `book`. -/
def areasInB (d : Desc) (areas : List Area) (book : List Name) : Bool :=
  (List.zip areas (areas.map (areaMN d))).all fun x => (areaCells d x.1 x.2).all fun q =>
    match d.tab[q]? with
    | none => false
    | some fi => match fi.fd.name with
      | none => false
      | some nm => book.contains nm

theorem prepare_same {d : Desc} (hd : d.causal = true) {as : List Area} {book : List Name}
    (hA : AreasRows d as (as.map (areaMN d))) (hin : areasInB d as book = true) {pre : Name} {ofl : Str}
    {i : Nat} {tres : List (Tre P.F)} {S S' : Store P.F} {des des' : List (Seg P.F IO.D)}
    (h : prepareHeader P IO d as pre ofl i tres S des = .ok (S', des')) : SameBut book d S S' := by
  intro nm n key hr hnb
  refine prepareHeader_frame hd hA h ?_
  rintro a mn hz ⟨hq, _⟩
  have := List.all_eq_true.mp (List.all_eq_true.mp hin (a, mn) hz) n hq
  cases hn : d.tab[n]? with
  | none => rw [hn] at this; cases this
  | some fi =>
    rw [hn] at this
    simp only at this
    rw [resolve_named hr hn] at this
    simp only [List.contains_eq_mem, decide_eq_true_eq] at this
    exact hnb this

theorem file_in : areasInB Tables.t_file_header fileAreas headerBook = true := by decide +kernel

theorem seg_in {k : SegKind} {areas : List Area} (h : k.areas = some areas) :
    areasInB k.desc areas (segBook k) = true := by
  cases k with
  | des => cases h
  | res => cases h
  | _ => injection h with h; subst h; decide +kernel

theorem kind_causal (k : SegKind) : k.desc.causal = true := by cases k <;> decide +kernel

theorem near_kept {s s' : Seg P.F IO.D} (h : DesNear s s') : KeptSeg .des s s' := by
  refine ⟨h.linked, h.user, h.tres, h.data, ?_⟩
  intro nm n key hr hnb
  refine h.sub n key ?_
  rintro ⟨_, hq⟩
  obtain ⟨f21, f22⟩ : (∃ fi, Tables.t_des_subheader.tab[21]? = some fi ∧ fi.fd.name = some (n!"desshl")) ∧
      ∃ fi, Tables.t_des_subheader.tab[22]? = some fi ∧ fi.fd.name = some (n!"desshf") := by
    refine ⟨⟨_, rfl, ?_⟩, ⟨_, rfl, ?_⟩⟩ <;> decide +kernel
  rcases hq with rfl | rfl
  · obtain ⟨fi, h1, h2⟩ := f21
    have := resolve_named hr h1
    rw [h2] at this
    injection this with this
    exact hnb (this ▸ by simp [segBook])
  · obtain ⟨fi, h1, h2⟩ := f22
    have := resolve_named hr h1
    rw [h2] at this
    injection this with this
    exact hnb (this ▸ by simp [segBook])

/-- `update_field` leaves what the assignment left. -/
theorem updateField_store {d : Desc} {cs : List Chunk} {start n : Nat} {S : Store P.F} {fh : FileH}
    {key : Key} {v : Val P.F} :
    (updateField P d cs start S fh n key v).1 = (setItem P d.tab S n key v).1 := by
  unfold updateField
  rcases setItem P d.tab S n key v with ⟨S', _ | e⟩
  · simp only
    cases d.tab[n]? with
    | none => rfl
    | some fi =>
      simp only
      rcases evalCond P (look P d.tab S') fi key with e | (_ | _)
      · rfl
      · rfl
      · simp only
        cases locOf n key start cs with
        | none => rfl
        | some off =>
          simp only
          cases fieldBytes P (look P d.tab S') S' fi n key <;> rfl
  · rfl

/-! ### The states -/

/-- What all states have in common. -/
structure KeptFile (f : NFile P.F IO.D) (d0 : List (Seg P.F IO.D)) (g : NFile P.F IO.D) : Prop where
  tres : g.tres = f.tres
  header : SameBut headerBook Tables.t_file_header f.header g.header
  segs : ∀ k, k ≠ .des → Each (KeptSeg k) (f.segs k) (g.segs k)
  des : ∃ ov, (∀ s ∈ ov, IsOverflow P IO s) ∧ Each DesNear (d0 ++ ov) g.des
  calm : CalmFile f → CalmFile g

/-- The field is not part of a TRE area of the file header. -/
def offArea (n : Nat) : Bool :=
  (List.zip fileAreas (fileAreas.map (areaMN Tables.t_file_header))).all fun x =>
    !(areaCells Tables.t_file_header x.1 x.2).contains n

section
variable {f : NFile P.F IO.D} {d0 : List (Seg P.F IO.D)} {inv : NFile P.F IO.D → Prop}

theorem KeptFile.setHeader {g : NFile P.F IO.D} (h : KeptFile f d0 g) {H : Store P.F}
    (hH : SameBut headerBook Tables.t_file_header g.header H)
    (hc : Calm P Tables.t_file_header fileAreas g.header → Calm P Tables.t_file_header fileAreas H) :
    KeptFile f d0 { g with header := H } :=
  ⟨h.tres, h.header.trans hH, fun k hk => by have := h.segs k hk; cases k <;> exact this, h.des,
    fun hf => ⟨hc (h.calm hf).header, fun k areas ha s hs =>
      (h.calm hf).segs k areas ha s (by cases k <;> exact hs)⟩⟩

theorem near_trans {a b c : List (Seg P.F IO.D)} (h : Each DesNear a b) (h' : Each DesNear b c) :
    Each DesNear a c := by
  refine Each.transR ?_ h h'
  intro x y z h1 h2
  exact ⟨h2.linked.trans h1.linked, h2.user.trans h1.user, h2.tres.trans h1.tres,
    h2.data.trans h1.data, fun q key hq => (h2.sub q key hq).trans (h1.sub q key hq)⟩

theorem KeptFile.more {g : NFile P.F IO.D} (h : KeptFile f d0 g) {d : Desc} {areas : List Area}
    {pre : Name} {ofl : Str} {i : Nat} {tres : List (Tre P.F)} {S S' : Store P.F}
    {des' : List (Seg P.F IO.D)}
    (hp : prepareHeader P IO d areas pre ofl i tres S g.des = .ok (S', des')) :
    KeptFile f d0 { g with des := des' } := by
  obtain ⟨ov', rfl, h2, _⟩ := prepareHeader_des hp rfl
  obtain ⟨ov, h3, h4⟩ := h.des
  refine ⟨h.tres, h.header, fun k hk => ?_, ⟨ov ++ ov', ?_, ?_⟩, fun hf => ⟨(h.calm hf).header, ?_⟩⟩
  · have := h.segs k hk
    cases k <;> first | exact absurd rfl hk | exact this
  · intro s hs
    rcases List.mem_append.mp hs with hs | hs
    · exact h3 s hs
    · exact h2 s hs
  · rw [← List.append_assoc]
    exact h4.append (Each.refl DesNear.refl _)
  · intro k areas ha s hs
    refine (h.calm hf).segs k areas ha s ?_
    cases k <;> first | cases ha; done | exact hs

theorem KeptFile.setSeg {g : NFile P.F IO.D} (h : KeptFile f d0 g) {k : SegKind}
    {done ss : List (Seg P.F IO.D)} {s s' : Seg P.F IO.D} (hg : g.segs k = done ++ s :: ss)
    (h1 : k ≠ .des → KeptSeg k s s') (h2 : k = .des → DesNear s s')
    (h3 : ∀ areas, k.areas = some areas → Calm P k.desc areas s.sub → Calm P k.desc areas s'.sub) :
    KeptFile f d0 (setSegs g k (done ++ s' :: ss)) := by
  have hrep : ∀ {R : Seg P.F IO.D → Seg P.F IO.D → Prop}, (∀ a, R a a) → R s s' →
      Each R (done ++ s :: ss) (done ++ s' :: ss) := fun hr hs =>
    (Each.refl hr _).append (.cons hs (Each.refl hr _))
  refine ⟨by cases k <;> exact h.tres, by cases k <;> exact h.header, ?_, ?_, fun hf =>
    ⟨by cases k <;> exact (h.calm hf).header, ?_⟩⟩
  · intro k' hk'
    have := h.segs k' hk'
    by_cases hkk : k' = k
    · subst hkk
      rw [setSegs_segs]
      rw [hg] at this
      exact Each.transR KeptSeg.trans this (hrep (KeptSeg.refl _) (h1 hk'))
    · cases k <;> cases k' <;> first | exact absurd rfl hkk | exact this
  · obtain ⟨ov, h3, h4⟩ := h.des
    refine ⟨ov, h3, ?_⟩
    by_cases hk : k = .des
    · subst hk
      have hg : g.des = done ++ s :: ss := hg
      rw [hg] at h4
      exact near_trans h4 (hrep DesNear.refl (h2 rfl))
    · cases k <;> first | exact absurd rfl hk | exact h4
  · intro k' areas ha x hx
    by_cases hkk : k' = k
    · subst hkk
      rw [setSegs_segs] at hx
      have old : ∀ y ∈ done ++ s :: ss, Calm P k'.desc areas y.sub := fun y hy =>
        (h.calm hf).segs k' areas ha y (by rw [hg]; exact hy)
      rcases List.mem_append.mp hx with hx | hx
      · exact old x (by simp [hx])
      · rcases List.mem_cons.mp hx with rfl | hx
        · exact h3 areas ha (old s (by simp))
        · exact old x (by simp [hx])
    · refine (h.calm hf).segs k' areas ha x ?_
      cases k <;> cases k' <;> first | exact absurd rfl hkk | exact hx

theorem keep_prepareEach {k : SegKind} {areas : List Area} (ha : k.areas = some areas)
    (hinv : ∀ g, KeptFile f d0 g → inv g) {out : Bytes} : ∀ (rest done : List (Seg P.F IO.D))
      (g : NFile P.F IO.D), KeptFile f d0 g → g.segs k = done ++ rest →
      Runs (prepareEach k areas done rest) (g, out) inv fun _ s' => KeptFile f d0 s'.1 := by
  have hk : k ≠ .des := by rintro rfl; cases ha
  intro rest
  induction rest with
  | nil => intro done g hg _; exact runs_pure hg
  | cons s ss ih =>
    intro done g hg hs
    unfold prepareEach
    refine runs_bind runs_get ?_
    rintro _ _ ⟨rfl, rfl⟩
    simp only
    refine runs_bind runs_lift ?_
    rintro ⟨S', des⟩ _ ⟨hp, rfl⟩
    simp only
    have w1 := hg.more hp
    have e : ({ setSegs g k (done ++ { s with sub := S' } :: ss) with des := des } : NFile P.F IO.D) =
        setSegs { g with des := des } k (done ++ { s with sub := S' } :: ss) := by
      cases k <;> first | exact absurd rfl hk | rfl
    have hs' : ({ g with des := des } : NFile P.F IO.D).segs k = done ++ s :: ss := by
      rw [← hs]
      cases k <;> first | exact absurd rfl hk | rfl
    have w2 := w1.setSeg (s' := { s with sub := S' }) hs' (fun _ => ⟨rfl, rfl, rfl, rfl,
      prepare_same (kind_causal k) (segAreas_rows ha) (seg_in ha) hp⟩) (fun h => absurd h hk)
      (fun areas' ha' hc => by
        rw [ha] at ha'
        injection ha' with ha'
        subst ha'
        exact prepareHeader_calm (kind_causal k) (segAreas_rows ha) hp hc)
    rw [e]
    refine runs_bind (runs_put (hinv _ w2)) ?_
    rintro _ _ rfl
    refine ih _ _ w2 ?_
    rw [setSegs_segs]
    simp

theorem keep_prepareKind (k : SegKind) (hinv : ∀ g, KeptFile f d0 g → inv g) {g : NFile P.F IO.D}
    {out : Bytes} (hg : KeptFile f d0 g) :
    Runs (prepareKind k) (g, out) inv fun _ s' => KeptFile f d0 s'.1 := by
  unfold prepareKind
  refine runs_bind runs_get ?_
  rintro _ _ ⟨rfl, rfl⟩
  simp only
  cases ha : k.areas with
  | none => exact runs_pure hg
  | some areas => exact keep_prepareEach ha hinv _ [] g hg rfl

theorem keep_updateStep {cs : List Chunk} {nm : Name} {n w : Nat} {sh : List Expr} {fi : FInfo}
    (hr : resolve Tables.t_file_header.tab nm = some n) (hz : Sized n w sh fi) (hb : nm ∈ headerBook)
    (ho : offArea n = true) (hinv : ∀ g, KeptFile f d0 g → inv g) {key : Key} {v : Nat} {g : NFile P.F IO.D} {out : Bytes}
    (hg : KeptFile f d0 g) :
    Runs (updateStep cs nm key v) (g, out) inv fun _ s' =>
      KeptFile f d0 s'.1 ∧ ∀ k, s'.1.segs k = g.segs k := by
  have hplain := (plainInt_spec hz.int).2.2.2.1
  have hset : SameBut headerBook Tables.t_file_header g.header
      (setItem P Tables.t_file_header.tab g.header n key (.int v)).1 ∧
      (Calm P Tables.t_file_header fileAreas g.header → Calm P Tables.t_file_header fileAreas
        (setItem P Tables.t_file_header.tab g.header n key (.int v)).1) := by
    unfold setItem budget
    unfold setF
    cases hc : setCheck P Tables.t_file_header.tab g.header n key (.int v) with
    | error e => exact ⟨.refl _ _ _, id⟩
    | ok x =>
      obtain ⟨fi', v'⟩ := x
      have hfi : fi' = fi := by
        unfold setCheck at hc
        rw [hz.at_] at hc
        simp only at hc
        repeat' split at hc
        all_goals first | (cases hc; done) | skip
        all_goals
          injection hc with hc
          injection hc with hc _
          exact hc.symm
      subst hfi
      simp only [hplain, if_true]
      exact ⟨.set hr hz.at_ hb _ _ _, fun h => calm_set fileAreas_rows ho h _ _⟩
  have hupd : SameBut headerBook Tables.t_file_header g.header
      (updateField P Tables.t_file_header cs 0 g.header ⟨out, out.length⟩ n key (.int v)).1 ∧
      (Calm P Tables.t_file_header fileAreas g.header → Calm P Tables.t_file_header fileAreas
        (updateField P Tables.t_file_header cs 0 g.header ⟨out, out.length⟩ n key (.int v)).1) := by
    rw [updateField_store]
    exact hset
  unfold updateStep
  refine runs_bind runs_get ?_
  rintro _ _ ⟨rfl, rfl⟩
  simp only [hr]
  rcases hu : updateField P Tables.t_file_header cs 0 g.header ⟨out, out.length⟩ n key (.int v) with
    ⟨S', _ | fh⟩
  · rw [hu] at hupd
    simp only at hupd ⊢
    exact runs_bind (runs_put (hinv _ (hg.setHeader hupd.1 hupd.2))) fun _ _ _ => runs_raise
  · rw [hu] at hupd
    simp only at hupd ⊢
    refine runs_bind (runs_put (hinv _ (hg.setHeader hupd.1 hupd.2))) ?_
    rintro _ _ rfl
    refine runs_imp (runs_put (inv := inv) (hinv _ (hg.setHeader hupd.1 hupd.2))) ?_
    rintro _ _ rfl
    exact ⟨hg.setHeader hupd.1 hupd.2, fun k => by cases k <;> rfl⟩

theorem keep_countEach (hinv : ∀ g, KeptFile f d0 g → inv g) {out : Bytes} :
    ∀ (l : List (SegKind × Nat)) (g : NFile P.F IO.D), KeptFile f d0 g →
    Runs (countEach (l.map fun x => (x.1.numField, .int x.2))) (g, out) inv fun _ s' =>
      KeptFile f d0 s'.1 := by
  intro l
  induction l with
  | nil => intro g hg; exact runs_pure hg
  | cons x l ih =>
    intro g hg
    rw [List.map_cons]
    unfold countEach
    refine runs_bind runs_get ?_
    rintro _ _ ⟨rfl, rfl⟩
    simp only
    refine runs_bind runs_lift ?_
    rintro H _ ⟨hH, rfl⟩
    rw [setA_num] at hH
    injection hH with hH
    have w := hg.setHeader (H := H) (by
      rw [← hH]
      obtain ⟨fi, z⟩ := num_sized x.1
      exact .set (numField x.1).res z.at_ (by cases x.1 <;> decide) _ _ _) (by
      rw [← hH]
      exact fun h => calm_set fileAreas_rows (by cases x.1 <;> decide +kernel) h _ _)
    refine runs_bind (runs_put (hinv _ w)) ?_
    rintro _ _ rfl
    exact ih _ w

theorem keep_lengthStep {cs : List Chunk} (hinv : ∀ g, KeptFile f d0 g → inv g) {k : SegKind} {i : Nat}
    {linked : Bool} {lsub ldata : Nat} {g : NFile P.F IO.D} {out : Bytes} (hg : KeptFile f d0 g) :
    Runs (lengthStep cs k i linked lsub ldata) (g, out) inv fun _ s' =>
      KeptFile f d0 s'.1 ∧ ∀ k, s'.1.segs k = g.segs k := by
  unfold lengthStep
  cases linked with
  | false => exact runs_pure ⟨hg, fun _ => rfl⟩
  | true =>
    simp only [if_true]
    obtain ⟨f1, z1⟩ := len_sized k
    obtain ⟨f2, z2⟩ := data_sized k
    refine runs_bind (keep_updateStep (lenField k).res z1 (by cases k <;> decide)
      (by cases k <;> decide +kernel) hinv hg) ?_
    rintro _ ⟨g', out'⟩ ⟨w1, e1⟩
    refine runs_imp (keep_updateStep (dataField k).res z2 (by cases k <;> decide)
      (by cases k <;> decide +kernel) hinv w1) ?_
    rintro _ s' ⟨w2, e2⟩
    exact ⟨w2, fun k => (e2 k).trans (e1 k)⟩

theorem user_kept {k : SegKind} {s : Seg P.F IO.D} {sub : Store P.F}
    (hu : writeUser P k s.user s.sub = .ok sub) : (k ≠ .des → KeptSeg k s { s with sub := sub }) ∧
      (k = .des → DesNear s { s with sub := sub }) := by
  constructor
  · intro hk
    have := writeUser_other P hk hu
    subst this
    exact .refl _ _
  · rintro rfl
    obtain ⟨b, _, hb⟩ := writeUser_des P hu
    refine ⟨rfl, rfl, rfl, rfl, ?_⟩
    intro q key hq
    simp only
    rw [hb]
    unfold Store.set
    rw [if_neg, if_neg]
    · rintro ⟨h1, h2⟩; exact hq ⟨h2, .inr h1⟩
    · rintro ⟨h1, h2⟩; exact hq ⟨h2, .inl h1⟩

theorem keep_writeEach {cs : List Chunk} (hinv : ∀ g, KeptFile f d0 g → inv g) (k : SegKind) :
    ∀ (rest done : List (Seg P.F IO.D)) (g : NFile P.F IO.D) (out : Bytes),
      KeptFile f d0 g → g.segs k = done ++ rest →
      Runs (writeEach E cs k done rest) (g, out) inv fun _ s' => KeptFile f d0 s'.1 := by
  intro rest
  induction rest with
  | nil => intro done g out hg _; exact runs_pure hg
  | cons s ss ih =>
    intro done g out hg hs
    unfold writeEach
    refine runs_bind runs_lift ?_
    rintro _ _ ⟨_, rfl⟩
    refine runs_bind runs_lift ?_
    rintro sub _ ⟨hu, rfl⟩
    refine runs_bind runs_get ?_
    rintro _ _ ⟨rfl, rfl⟩
    simp only
    have w1 := hg.setSeg hs (user_kept hu).1 (user_kept hu).2 fun areas ha hc => by
      have : sub = s.sub := writeUser_other P (by rintro rfl; cases ha) hu
      rw [this]
      exact hc
    refine runs_bind (runs_put (hinv _ w1)) ?_
    rintro _ _ rfl
    refine runs_bind runs_lift ?_
    rintro sb _ ⟨_, rfl⟩
    refine runs_bind runs_get ?_
    rintro _ _ ⟨rfl, rfl⟩
    simp only
    refine runs_bind (runs_put (hinv _ w1)) ?_
    rintro _ _ rfl
    refine runs_bind runs_lift ?_
    rintro db _ ⟨_, rfl⟩
    refine runs_bind runs_get ?_
    rintro _ _ ⟨rfl, rfl⟩
    simp only
    refine runs_bind (runs_put (hinv _ w1)) ?_
    rintro _ _ rfl
    refine runs_bind (keep_lengthStep hinv w1) ?_
    rintro _ ⟨g', out'⟩ ⟨w2, hsame⟩
    refine ih _ g' out' w2 ?_
    rw [hsame k, setSegs_segs]
    simp

theorem keep_writeKind {cs : List Chunk} (hinv : ∀ g, KeptFile f d0 g → inv g) (k : SegKind)
    {g : NFile P.F IO.D} {out : Bytes} (hg : KeptFile f d0 g) :
    Runs (writeKind E cs k) (g, out) inv fun _ s' => KeptFile f d0 s'.1 := by
  unfold writeKind
  refine runs_bind runs_get ?_
  rintro _ _ ⟨rfl, rfl⟩
  simp only
  exact keep_writeEach hinv k _ [] g out hg rfl

end

/-- All states: the file as it was, or with its overflow DES dropped, new ones added, and changes in
the fields of `headerBook` and `segBook` only. -/
theorem attempt_keeps {f : NFile P.F IO.D} : ∀ g ∈ states E f, g = f ∨
    ∃ d0, dropOverflow P IO f.des = .ok d0 ∧ KeptFile f d0 g := by
  have main : Runs (attempt E) (f, []) (fun g => g = f ∨
      ∃ d0, dropOverflow P IO f.des = .ok d0 ∧ KeptFile f d0 g) fun _ _ => True := by
    unfold attempt
    refine runs_bind (mid := fun _ s' => ∃ d0, dropOverflow P IO f.des = .ok d0 ∧ KeptFile f d0 s'.1) ?_ ?_
    · unfold dropStep
      refine runs_bind runs_get ?_
      rintro _ _ ⟨rfl, rfl⟩
      simp only
      refine runs_bind runs_lift ?_
      rintro d0 _ ⟨hd, rfl⟩
      have w : KeptFile f d0 { f with des := d0 } := by
        refine ⟨rfl, .refl _ _ _, fun k hk => ?_, ⟨[], by simp, ?_⟩, fun hf => ⟨hf.header, ?_⟩⟩
        · cases k <;> first | exact absurd rfl hk | exact Each.refl (KeptSeg.refl _) _
        · rw [List.append_nil]; exact Each.refl DesNear.refl _
        · intro k areas ha s hs
          refine hf.segs k areas ha s ?_
          cases k <;> first | cases ha; done | exact hs
      refine runs_imp (runs_put (.inr ⟨d0, hd, w⟩)) ?_
      rintro _ _ rfl
      exact ⟨d0, hd, w⟩
    rintro _ ⟨g, o⟩ ⟨d0, hd, w⟩
    simp only at w
    have hinv : ∀ g, KeptFile f d0 g → (g = f ∨ ∃ d0, dropOverflow P IO f.des = .ok d0 ∧
      KeptFile f d0 g) := fun g h => .inr ⟨d0, hd, h⟩
    refine runs_bind (mid := fun _ s' => KeptFile f d0 s'.1) ?_ ?_
    · unfold headerStep
      refine runs_bind runs_get ?_
      rintro _ _ ⟨rfl, rfl⟩
      simp only
      refine runs_bind runs_lift ?_
      rintro ⟨H, des⟩ _ ⟨hp, rfl⟩
      simp only
      have w' := (w.more hp).setHeader (H := H)
        (prepare_same (by decide +kernel) fileAreas_rows file_in hp)
        (prepareHeader_calm (by decide +kernel) fileAreas_rows hp)
      refine runs_imp (runs_put (hinv _ w')) ?_
      rintro _ _ rfl
      exact w'
    rintro _ ⟨g, o⟩ w
    refine runs_bind (keep_prepareKind .image hinv w) ?_
    rintro _ ⟨g, o⟩ w
    refine runs_bind (keep_prepareKind .graphic hinv w) ?_
    rintro _ ⟨g, o⟩ w
    refine runs_bind (keep_prepareKind .text hinv w) ?_
    rintro _ ⟨g, o⟩ w
    refine runs_bind (mid := fun _ s' => KeptFile f d0 s'.1) ?_ ?_
    · unfold countStep
      refine runs_bind runs_get ?_
      rintro _ _ ⟨rfl, rfl⟩
      exact keep_countEach hinv [(.image, _), (.graphic, _), (.text, _), (.des, _), (.res, _)] _ w
    rintro _ ⟨g, o⟩ w
    refine runs_bind (mid := fun _ s' => KeptFile f d0 s'.1) ?_ ?_
    · unfold headerBytes
      refine runs_bind runs_get ?_
      rintro _ _ ⟨rfl, rfl⟩
      simp only
      refine runs_bind runs_lift ?_
      rintro cs _ ⟨_, rfl⟩
      refine runs_bind (runs_put (hinv _ w)) ?_
      rintro _ _ rfl
      exact runs_pure w
    rintro cs ⟨g, o⟩ w
    obtain ⟨fi, z⟩ := hl_sized
    refine runs_bind (keep_updateStep hlField.res z (by decide) (by decide +kernel) hinv w) ?_
    rintro _ ⟨g, o⟩ ⟨w, _⟩
    refine runs_bind (keep_writeKind hinv .image w) ?_
    rintro _ ⟨g, o⟩ w
    refine runs_bind (keep_writeKind hinv .graphic w) ?_
    rintro _ ⟨g, o⟩ w
    refine runs_bind (keep_writeKind hinv .text w) ?_
    rintro _ ⟨g, o⟩ w
    refine runs_bind (keep_writeKind hinv .des w) ?_
    rintro _ ⟨g, o⟩ w
    refine runs_bind (keep_writeKind hinv .res w) ?_
    rintro _ ⟨g, o⟩ w
    refine runs_bind runs_get ?_
    rintro _ _ ⟨rfl, rfl⟩
    simp only
    obtain ⟨fi, z⟩ := fl_sized
    refine runs_bind (keep_updateStep flField.res z (by decide) (by decide +kernel) hinv w) ?_
    rintro _ ⟨g, o⟩ ⟨w, _⟩
    unfold dropStep
    refine runs_bind runs_get ?_
    rintro _ _ ⟨rfl, rfl⟩
    simp only
    refine runs_bind runs_lift ?_
    rintro ds _ ⟨hds, rfl⟩
    refine runs_imp (runs_put (hinv _ ?_)) fun _ _ _ => trivial
    obtain ⟨ov, h1, h2⟩ := w.des
    obtain ⟨ds', h3, h4⟩ := dropOverflow_near h2
      (dropOverflow_append (drop_idem hd) fun s hs => overflow_desid (h1 s hs))
    rw [hds] at h3
    injection h3 with h3
    subst h3
    refine ⟨w.tres, w.header, fun k hk => ?_, ⟨[], by simp, ?_⟩, fun hf => ⟨(w.calm hf).header, ?_⟩⟩
    · have := w.segs k hk
      cases k <;> first | exact absurd rfl hk | exact this
    · rw [List.append_nil]; exact h4
    · intro k areas ha s hs
      refine (w.calm hf).segs k areas ha s ?_
      cases k <;> first | cases ha; done | exact hs
  intro g hg
  unfold states at hg
  rcases List.mem_cons.mp hg with rfl | hg
  · exact .inl rfl
  · obtain ⟨t, ht, rfl⟩ := List.mem_map.mp hg
    exact main.1 t ht

end Verif.Attempt
