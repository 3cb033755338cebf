import Verif.Props.FileRound
import Verif.Props.TreState

/- C26 for TRE areas in any state: exactly what is read from a written file. -/

namespace Verif

variable (P : PyFloat) (E : Env) (IO : DataIO P.F) (same : IO.D → IO.D → Prop)

/-! ### Specification -/

/-- The areas of a header hold anything that can be read. -/
def AreasAny (d : Desc) (areas : List Area) (S : Store P.F) : Prop :=
  ∃ vs, HoldsAll P d S (areaPositions d areas) vs ∧
    ∀ v ∈ vs, v.Sane ∧ (0 < v.len → ∃ ts, readTreData P E.reg v.data = .ok ts)

/-- TREs that can be written and read back. -/
def TresOk (tres : List (Tre P.F)) : Prop :=
  (∃ ser, treWriteAll P tres = .ok ser ∧ ∀ b ∈ ser, b.length < 99996) ∧
    ∀ t ∈ tres, Representable P E.reg t

/-- Both.  (Unlike in `TresReady` an area may hold TREs and not be needed for the new ones.) -/
def TresAny (d : Desc) (areas : List Area) (S : Store P.F) (tres : List (Tre P.F)) : Prop :=
  AreasAny P E d areas S ∧ TresOk P E tres

/-- `us` is what is read after writing `tres` to a header that was in state `S`: the TREs that did
not fit; then, area by area, the TREs written to the area, or if there are none what was in the area
before. -/
def ReadsAs (d : Desc) (areas : List Area) (S : Store P.F) (tres us : List (Tre P.F)) : Prop :=
  ∃ vs ser dest u, ∃ gs : List (List (Tre P.F)), HoldsAll P d S (areaPositions d areas) vs ∧
    treWriteAll P tres = .ok ser ∧
    Placement areas.length ser dest ∧ us = u ++ gs.flatten ∧
    Each (SameTre P) (picks dest tres none) u ∧ gs.length = areas.length ∧
    ∀ (i : Nat) x v, gs[i]? = some x → vs[i]? = some v →
      (picks dest tres (some i) ≠ [] → Each (SameTre P) (picks dest tres (some i)) x) ∧
      (picks dest tres (some i) = [] →
        if 0 < v.len then readTreData P E.reg v.data = .ok x else x = [])

/-- The same segment to a user, TREs left aside. -/
structure SameButTres (k : SegKind) (s s' : Seg P.F IO.D) : Prop where
  sub : ∀ nm, itemsOf P k.desc s'.sub nm = itemsOf P k.desc s.sub nm
  user : SameUser P s.user s'.user
  data : SameData P IO same s.data s'.data

/-! ### Auxiliary -/

theorem any_prepared {d : Desc} {areas : List Area}
    (H : HeaderAreas d areas (areaPositions d areas)) (hreg : E.reg.Causal) {S S' : Store P.F}
    {tres : List (Tre P.F)} (hr : TresAny P E d areas S tres) {n : Nat} {o : Option Bytes}
    (hp : prepareTreWrite P d areas n tres S = .ok (S', o)) (des : List (Except Err Bytes))
    (hdes : ∀ b, o = some b → des[n]? = some (.ok b)) :
    ∃ us, readTre P E.reg d des areas S' = .ok us ∧ ReadsAs P E d areas S tres us := by
  obtain ⟨⟨vs, h1, h4⟩, ⟨ser, h2, h3⟩, h5⟩ := hr
  let old : Nat → List (Tre P.F) := fun i => match vs[i]? with
    | some v => (readTreData P E.reg v.data).toOption.getD []
    | none => []
  have hold : ∀ (i : Nat) (v : AreaVal), vs[i]? = some v → 0 < v.len →
      readTreData P E.reg v.data = .ok (old i) := by
    intro i v hv hl
    obtain ⟨ts, ht⟩ := (h4 v (List.mem_of_getElem? hv)).2 hl
    show _ = Except.ok (match vs[i]? with
      | some v => (readTreData P E.reg v.data).toOption.getD []
      | none => [])
    rw [hv]
    simp [ht, Except.toOption]
  obtain ⟨S1, o1, dest, p1, p2, p3⟩ := C23_any_state P H h1 (fun v hv => (h4 v hv).1) hreg h5 h2 h3
    hold n
  rw [p1] at hp
  injection hp with hp
  injection hp with e1 e2
  subst e1 e2
  obtain ⟨u, gs, g1, g2, g3, g4⟩ := p3 des hdes
  refine ⟨_, g1, vs, ser, dest, u, gs, h1, h2, p2, rfl, g2, g3, ?_⟩
  intro i x v hx hv
  obtain ⟨a1, a2⟩ := g4 i x v hx hv
  refine ⟨a1, fun hn => ?_⟩
  have := a2 hn
  split
  · rename_i hl
    rw [if_pos hl] at this
    rw [this]
    exact hold i v hv hl
  · rename_i hl
    rw [if_neg hl] at this
    exact this

theorem TresAny.holds {d : Desc} {areas : List Area} {S : Store P.F} {tres : List (Tre P.F)}
    (h : TresAny P E d areas S tres) : TresHold P d areas S tres := by
  obtain ⟨⟨vs, h1, _⟩, _⟩ := h
  exact ⟨vs, h1⟩

/-- After writing, the areas of the header can be read. -/
theorem any_after {d : Desc} {areas : List Area}
    (H : HeaderAreas d areas (areaPositions d areas)) (hreg : E.reg.Causal) {S S' : Store P.F}
    {tres : List (Tre P.F)} (hr : TresAny P E d areas S tres) {n : Nat} {o : Option Bytes}
    (hp : prepareTreWrite P d areas n tres S = .ok (S', o)) : AreasAny P E d areas S' := by
  obtain ⟨⟨vs, h1, h4⟩, ⟨ser, h2, h3⟩, h5⟩ := hr
  obtain ⟨ser', heads, ov, p1, p2, _, p4, p5, _⟩ := prepare_ok P H h1 hp
  rw [h2] at p1
  injection p1 with p1
  subst p1
  have hE := treWriteAll_each P h2
  have hvl : vs.length = areas.length := by rw [← Each.length h1, H.at_.1]
  obtain ⟨dest, d1, d2, d3, d4, d5, _⟩ := place_spec ser (areas.map fun _ => []) []
  rw [p2] at d3 d4 d5
  simp only [List.length_map, List.nil_append] at d3 d4 d5 d2
  have hov : ov ≠ [] → heads.head? ≠ some [] := by
    intro hov hh
    have hsz' : ∀ b ∈ ser, b ≠ [] ∧ b.length < 99996 := by
      intro b hb
      obtain ⟨t, ht, htb⟩ := hE.mem_right hb
      have := treWrite_ne_nil P htb (h5 t ht).1
      exact ⟨fun h0 => by rw [h0] at this; simp at this, h3 b hb⟩
    have ht : 0 < ser.flatten.length := by
      cases hse : ser with
      | nil => rw [hse] at p2; injection p2 with _ h2; exact absurd h2.symm hov
      | cons b bs =>
        have := List.length_pos_iff.mpr (hsz' b (by simp [hse])).1
        rw [List.flatten_cons, List.length_append]
        omega
    obtain ⟨h', e1, e2⟩ := place_reaches hsz' (List.length_pos_iff.mpr H.nonempty)
      (by omega) (by rw [← p2, List.map_const'])
    rw [← List.head?_eq_getElem?, hh] at e1
    injection e1 with e1
    exact e2 e1.symm
  have main : ∀ (i : Nat) v h, vs[i]? = some v → heads[i]? = some h →
      (v.store h).Sane ∧ (0 < (v.store h).len →
        ∃ ts, readTreData P E.reg (v.store h).data = .ok ts) := by
    intro i v h hv hh
    have hlt : i < areas.length := by rw [← d3]; exact lt_of_getElem? hh
    have hW := d4 i [] (by simp [hlt])
    rw [hh] at hW
    injection hW with hW
    simp only [List.nil_append] at hW
    obtain ⟨hg, ser', w1, w2⟩ := written_picks P hE h5 dest (some i)
    rw [← hW] at w2
    obtain ⟨us, u1, _⟩ := area_round P hreg w1 hg
    obtain ⟨s1, s2⟩ := h4 v (List.mem_of_getElem? hv)
    by_cases h0 : h = []
    · simp only [AreaVal.store, AreaVal.Sane, h0, if_true]
      refine ⟨fun hl => ?_, s2⟩
      rw [if_neg (by omega)]
      exact s1 hl
    · simp only [AreaVal.store, AreaVal.Sane, h0, if_false]
      exact ⟨fun hl => by omega, fun _ => ⟨us, by rw [w2]; exact u1⟩⟩
  refine ⟨_, p4, ?_⟩
  intro v' hv'
  unfold afterPrepare at hv'
  cases hz : List.zipWith AreaVal.store vs heads with
  | nil => rw [hz] at hv'; cases hv'
  | cons w rest =>
    have hget : ∀ (i : Nat) w, (List.zipWith AreaVal.store vs heads)[i]? = some w →
        w.Sane ∧ (0 < w.len → ∃ ts, readTreData P E.reg w.data = .ok ts) := by
      intro i w hw
      rw [List.getElem?_zipWith] at hw
      split at hw
      · rename_i a b ha hb
        injection hw with hw
        subst hw
        exact main i _ _ ha hb
      · cases hw
    rw [hz] at hv' hget
    simp only [List.mem_cons] at hv'
    rcases hv' with rfl | hv'
    · split
      · exact hget 0 w rfl
      · rename_i ho
        refine ⟨fun hl => ?_, (hget 0 w rfl).2⟩
        exfalso
        have hl : w.len ≤ 0 := hl
        cases vs with
        | nil => simp at hz
        | cons v vs =>
          cases heads with
          | nil => simp at hz
          | cons h0 heads =>
            rw [List.zipWith_cons_cons] at hz
            injection hz with hz _
            have hh : h0 ≠ [] := by intro h; exact hov ho (by simp [h])
            rw [← hz] at hl
            simp only [AreaVal.store, hh, if_false] at hl
            omega
    · obtain ⟨i, hi⟩ := List.getElem?_of_mem hv'
      exact hget (i + 1) v' (by simpa using hi)

theorem HoldsAll.cells {d : Desc} {areas : List Area}
    (H : HeaderAreas d areas (areaPositions d areas)) {S S' : Store P.F} {vs : List AreaVal}
    (h : HoldsAll P d S (areaPositions d areas) vs)
    (hc : ∀ q ∈ (areaPositions d areas).flatMap AreaPos.list, S' q [] = S q []) :
    HoldsAll P d S' (areaPositions d areas) vs := by
  refine Each.imp h ?_
  intro p hp v hv
  exact hv.congr fun q hq => hc q (List.mem_flatMap.mpr ⟨p, hp, hq⟩)

/-! ### The theorems -/

/-- C26 for TRE areas in any state.  A file is written successfully, its headers hold anything in
their TRE areas that can be read (for instance because TREs were removed since it was read).  Then
the bytes can be read; file level fields, and fields, user subheaders and data of all segments are
the same; the TREs of the file and of each image and text segment are those given by `ReadsAs`.
(`f` is the object before, `f'` after writing.) -/
theorem C26_any_areas_partial {f f' : NFile P.F IO.D} {out : Bytes}
    (h : writeFile P E IO f = .ok (f', out)) (hf : FileReadyBy P E IO (TresAny P E) f)
    (hd : ∀ k, ∀ s ∈ f'.segs k, HandlersReady P IO same k s)
    (hlen : out.length ≠ 999999999999) :
    ∃ g, readFile P E IO out = .ok g ∧
      (∀ nm, itemsOf P Tables.t_file_header g.header nm =
        itemsOf P Tables.t_file_header f'.header nm) ∧
      ReadsAs P E Tables.t_file_header fileAreas f.header f.tres g.tres ∧
      (∀ k, k ≠ .des → Each (SameButTres P IO same k) (f'.segs k) (g.segs k)) ∧
      Each (fun s s' => ReadsAs P E Tables.t_image_subheader imageAreas s.sub s.tres s'.tres)
        f.image g.image ∧
      Each (fun s s' => ReadsAs P E Tables.t_text_subheader textAreas s.sub s.tres s'.tres)
        f.text g.text ∧
      (∀ k, k ≠ .image → k ≠ .text → ∀ s ∈ g.segs k, s.tres = []) ∧
      ∃ ds os, g.des = ds ++ os ∧ Each (SameButTres P IO same .des) f'.des ds ∧
        ∀ s ∈ os, ∃ b, s.data = .overflow b := by
  obtain ⟨r⟩ := writeFile_run P E IO h
  have hf' : FileReadyBy P E IO (TresRead P E) f := hf.imp P E IO fun d areas S tres H h => by
    refine ⟨h.holds P E, fun n S' o hp des hdes => ?_⟩
    obtain ⟨us, u1, _⟩ := any_prepared P E H hf.reg h hp des hdes
    exact ⟨us, u1⟩
  obtain ⟨g, L⟩ := readFile_any P E IO same r hf' hd hlen
  obtain ⟨ov, ra, rb, d1, d2, d3, d4, d5, d6, d7⟩ := r.des_split P E IO
  have hsegs : ∀ (k : SegKind) (areas : List Area), k.areas = some areas → k ≠ .des → k ≠ .graphic →
      HeaderAreas k.desc areas (areaPositions k.desc areas) →
      (∀ s ∈ f.segs k, TresAny P E k.desc areas s.sub s.tres) →
      Each (fun s s' => ReadsAs P E k.desc areas s.sub s.tres s'.tres) (f.segs k) (g.segs k) := by
    intro k areas hka hk hng H hr
    refine (((r.prepared P E IO hk).trans (r.each k)).trans (L.segs k)).imp ?_
    rintro s0 hs0 s ⟨x, _, ⟨s1, _, hp, hsx⟩, hl⟩
    obtain ⟨sub, e1, e2, _⟩ := segBytes_ok P E IO hsx
    have e3 := writeUser_other P hk e1
    obtain ⟨n, o, p1, p2⟩ := hp.prep areas hka
    have hsub : x.1.sub = s1.sub := by rw [e2]; exact e3
    obtain ⟨us, u1, u2⟩ := any_prepared P E H hf.reg (hr s0 hs0) p1
      (g.des.map (desData P IO)) (by
        intro b hb
        obtain ⟨y, y1, y2⟩ := p2 b hb
        exact L.overflow n y b y1 y2)
    have hrd := hl.2.1 areas hka hng
    rw [hsub, u1] at hrd
    injection hrd with hrd
    subst hrd
    exact u2
  have hds := L.segs .des
  rw [d2] at hds
  obtain ⟨da, db, dab, da1, db1⟩ := Each.split hds
  refine ⟨g, L.read, L.items, ?_, ?_, hsegs .image _ rfl (by decide) (by decide) imageHeader_areas
    fun s hs => (hf.segs .image (by decide) s hs).tres, hsegs .text _ rfl (by decide) (by decide)
    textHeader_areas fun s hs => (hf.segs .text (by decide) s hs).tres, ?_, da, db, dab, ?_, ?_⟩
  · obtain ⟨o, p1, p2⟩ := prepareHeader_ok P IO r.prepH
    obtain ⟨us, u1, u2⟩ := any_prepared P E fileHeader_areas hf.reg hf.tres p1
      (g.des.map (desData P IO)) (by
        intro b hb
        rcases p2 with ⟨ho, _⟩ | ⟨b', s, ho, hdes, _, hs, _⟩
        · rw [ho] at hb; cases hb
        · rw [ho] at hb; injection hb with hb; subst hb
          refine L.overflow _ s b' ?_ hs
          refine prefix_get r.desList.2.1 ?_
          rw [hdes]; simp)
    rw [L.tres] at u1
    injection u1 with u1
    rw [u1]
    exact u2
  · intro k hk
    rw [r.after k hk]
    exact Each.map_left _ ((L.segs k).imp fun _ _ _ h => ⟨h.1.items, h.1.user, h.1.data⟩)
  · intro k k1 k2 s hs
    obtain ⟨x, _, hl⟩ := (L.segs k).mem_right hs
    exact (hl.2.2 k1 k2).2
  · rw [d6]
    exact Each.map_left _ (da1.imp fun _ _ _ h => ⟨h.1.items, h.1.user, h.1.data⟩)
  · intro s hs
    obtain ⟨x, hx, hxs, _⟩ := db1.mem_right hs
    obtain ⟨s0, hs0, hsx⟩ := d4.mem_right hx
    obtain ⟨sub, _, e2, _⟩ := segBytes_ok P E IO hsx
    obtain ⟨b, hb⟩ := (d5 s0 hs0).data
    have hdat := hxs.data
    rw [show x.1.data = .overflow b by rw [e2]; exact hb] at hdat
    cases hsd : s.data with
    | overflow c => exact ⟨c, rfl⟩
    | other y => rw [hsd] at hdat; exact absurd hdat (by simp [SameData])

/-- C26, the object written, for TRE areas in any state: as `C26_untouched_partial`. -/
theorem C26_any_untouched_partial {f f' : NFile P.F IO.D} {out : Bytes}
    (h : writeFile P E IO f = .ok (f', out)) (hf : FileReadyBy P E IO (TresAny P E) f) :
    Untouched P Tables.t_file_header (bookFields none) f.header f'.header ∧ f'.tres = f.tres ∧
    (∀ k, k ≠ .des → Each (SegUntouched P IO k) (f.segs k) (f'.segs k)) ∧
    ∃ ds, dropOverflow P IO f.des = .ok ds ∧ Each (SegUntouched P IO .des) ds f'.des :=
  file_untouched P E IO h (hf.imp P E IO fun _ _ _ _ _ h => h.holds P E)

/-- A file object in any number of steps: TRE lists are replaced, segments added, the file is
written. -/
inductive Session : NFile P.F IO.D → NFile P.F IO.D → Prop
  | start (f) : Session f f
  | write {f g g' out} : Session f g → writeFile P E IO g = .ok (g', out) → Session f g'
  | tres {f g} (ts) : Session f g → TresOk P E ts → Session f { g with tres := ts }
  | imageTres {f g a s b} (ts) : Session f g → g.image = a ++ s :: b → TresOk P E ts →
      Session f { g with image := a ++ { s with tres := ts } :: b }
  | textTres {f g a s b} (ts) : Session f g → g.text = a ++ s :: b → TresOk P E ts →
      Session f { g with text := a ++ { s with tres := ts } :: b }
  | image {f g s} : Session f g → s.linked = true → SegReadyBy P E IO (TresAny P E) .image s →
      Session f { g with image := g.image ++ [s] }
  | text {f g s} : Session f g → s.linked = true → SegReadyBy P E IO (TresAny P E) .text s →
      Session f { g with text := g.text ++ [s] }
  | des {f g s} : Session f g → s.linked = true → SegReadyBy P E IO (TresAny P E) .des s →
      Session f { g with des := g.des ++ [s] }

/-- Writing keeps a file such that `C26_any_areas_partial` applies. -/
theorem any_again {f f' : NFile P.F IO.D} {out : Bytes} (h : writeFile P E IO f = .ok (f', out))
    (hf : FileReadyBy P E IO (TresAny P E) f) : FileReadyBy P E IO (TresAny P E) f' := by
  obtain ⟨r⟩ := writeFile_run P E IO h
  obtain ⟨ov, ra, rb, d1, d2, d3, d4, d5, d6, d7⟩ := r.des_split P E IO
  have hlinked := r.linked P E IO hf.linked
  refine ⟨hf.reg, r.h0_noLit P E IO hf.header, ⟨?_, by rw [r.tres]; exact hf.tres.2⟩, ?_, ?_, ?_⟩
  · obtain ⟨o, p1, p2⟩ := prepareHeader_ok P IO r.prepH
    obtain ⟨vs, a1, a2⟩ := any_after P E fileHeader_areas hf.reg hf.tres p1
    refine ⟨vs, a1.cells P fileHeader_areas ?_, a2⟩
    intro q hq
    have hq' : q ∉ [flPos, hlPos, 31, 34, 38, 41, 44] := by
      have : ((areaPositions Tables.t_file_header fileAreas).flatMap AreaPos.list).all
          (fun q => decide (q ∉ [flPos, hlPos, 31, 34, 38, 41, 44])) = true := by decide +kernel
      exact of_decide_eq_true (List.all_eq_true.mp this q hq)
    simp only [List.mem_cons, List.not_mem_nil, or_false, not_or] at hq'
    rw [r.others q [] hq'.1 hq'.2.1 fun k => Or.inr (by simp), nums_ok P r.nums]
    simp [Store.set, hq'.2.2]
  · intro k s hs
    by_cases hk : k = .des
    · subst hk
      have hs : s ∈ f'.des := hs
      rw [d6] at hs
      obtain ⟨x, hx, rfl⟩ := List.mem_map.mp hs
      obtain ⟨s0, hs0, hsx⟩ := d3.mem_right hx
      obtain ⟨sub, _, e2, _⟩ := segBytes_ok P E IO hsx
      rw [e2]
      exact hlinked .des s0 (by rw [d1]; exact List.mem_append_left _ hs0)
    · rw [r.after k hk] at hs
      obtain ⟨x, hx, rfl⟩ := List.mem_map.mp hs
      obtain ⟨s1, hs1, hsx⟩ := (r.each k).mem_right hx
      obtain ⟨sub, _, e2, _⟩ := segBytes_ok P E IO hsx
      rw [e2]
      exact hlinked k s1 hs1
  · intro k hk s hs
    rw [r.after k hk] at hs
    obtain ⟨x, hx, rfl⟩ := List.mem_map.mp hs
    obtain ⟨s1, hs1, hsx⟩ := (r.each k).mem_right hx
    obtain ⟨s0, hs0, hp⟩ := (r.prepared P E IO hk).mem_right hs1
    have hready := hf.segs k hk s0 hs0
    obtain ⟨sub, e1, e2, _⟩ := segBytes_ok P E IO hsx
    have e3 := writeUser_other P hk e1
    rw [e2, e3]
    refine ⟨hp.noLit hready.noLit, ?_, ?_⟩
    · have hu := hready.user
      cases k with
      | des => exact absurd rfl hk
      | res =>
        have := hp.noAreas rfl
        unfold UserReady at hu ⊢
        simp only at hu ⊢
        rw [hp.user, this]; exact hu
      | _ =>
        unfold UserReady at hu ⊢
        simp only at hu ⊢
        rw [hp.user]; exact hu
    · have ht := hready.tres
      cases k with
      | des => exact absurd rfl hk
      | image =>
        obtain ⟨n, o, p1, _⟩ := hp.prep _ rfl
        exact ⟨any_after P E imageHeader_areas hf.reg ht p1, by
          simp only; rw [hp.tres]; exact ht.2⟩
      | text =>
        obtain ⟨n, o, p1, _⟩ := hp.prep _ rfl
        exact ⟨any_after P E textHeader_areas hf.reg ht p1, by
          simp only; rw [hp.tres]; exact ht.2⟩
      | graphic =>
        obtain ⟨n, o, p1, _⟩ := hp.prep _ rfl
        rw [ht.1] at p1
        simp only
        rw [prepare_graphic_none P ht.2 p1, hp.tres]
        exact ht
      | res =>
        simp only
        rw [hp.tres]
        exact ht
  · intro s hs _
    rw [d6] at hs
    obtain ⟨x, hx, rfl⟩ := List.mem_map.mp hs
    obtain ⟨s0, hs0, hsx⟩ := d3.mem_right hx
    obtain ⟨hsub, hid⟩ := dropOverflow_ok P IO r.drop0
    obtain ⟨id, i1, i2⟩ := hid s0 hs0
    have hready := hf.des s0 (hsub.subset hs0) (by
      rw [i1]; intro he; injection he with he; injection he with he; exact i2 he)
    have hde := segBytes_desid P E IO hsx
    obtain ⟨sub, e1, e2, _⟩ := segBytes_ok P E IO hsx
    rw [e2] at hde ⊢
    refine ⟨writeUser_noLit P hready.noLit e1, ?_, hready.tres⟩
    intro d U hu
    obtain ⟨c1, c2⟩ := hready.user d U hu
    refine ⟨?_, c2⟩
    rw [← c1]
    unfold userCls
    simp only at hde ⊢
    rw [show getAttr P SegKind.des.desc sub (n!"desid") [] =
      getAttr P SegKind.des.desc s0.sub (n!"desid") [] from hde]

/-- C26 over whole sessions: however often the file is written and in between its TREs are replaced
or removed and segments added, it stays such that the next file written can be read, with the
contents `C26_any_areas_partial` says. -/
theorem C26_session {f g : NFile P.F IO.D} (h : Session P E IO f g)
    (hf : FileReadyBy P E IO (TresAny P E) f) : FileReadyBy P E IO (TresAny P E) g := by
  induction h with
  | start => exact hf
  | write _ hw ih => exact any_again P E IO hw ih
  | tres ts _ ht ih => exact ⟨ih.reg, ih.header, ⟨ih.tres.1, ht⟩, ih.linked, ih.segs, ih.des⟩
  | @imageTres g a s b ts _ hs ht ih =>
    have hm : ∀ x ∈ g.segs .image, x.linked = true ∧ SegReadyBy P E IO (TresAny P E) .image x :=
      fun x hx => ⟨ih.linked .image x hx, ih.segs .image (by decide) x hx⟩
    have hi : g.segs .image = a ++ s :: b := hs
    rw [hi] at hm
    have hm' : ∀ x ∈ a ++ { s with tres := ts } :: b,
        x.linked = true ∧ SegReadyBy P E IO (TresAny P E) .image x := by
      intro x hx
      rcases List.mem_append.mp hx with hx | hx
      · exact hm x (by simp [hx])
      · rcases List.mem_cons.mp hx with rfl | hx
        · obtain ⟨h1, h2⟩ := hm s (by simp)
          exact ⟨h1, h2.noLit, h2.user, h2.tres.1, ht⟩
        · exact hm x (by simp [hx])
    refine ⟨ih.reg, ih.header, ih.tres, ?_, ?_, ih.des⟩
    · intro k x hx
      cases k with
      | image => exact (hm' x hx).1
      | graphic => exact ih.linked .graphic x hx
      | text => exact ih.linked .text x hx
      | des => exact ih.linked .des x hx
      | res => exact ih.linked .res x hx
    · intro k hk x hx
      cases k with
      | image => exact (hm' x hx).2
      | graphic => exact ih.segs .graphic hk x hx
      | text => exact ih.segs .text hk x hx
      | des => exact absurd rfl hk
      | res => exact ih.segs .res hk x hx
  | @textTres g a s b ts _ hs ht ih =>
    have hm : ∀ x ∈ g.segs .text, x.linked = true ∧ SegReadyBy P E IO (TresAny P E) .text x :=
      fun x hx => ⟨ih.linked .text x hx, ih.segs .text (by decide) x hx⟩
    have hi : g.segs .text = a ++ s :: b := hs
    rw [hi] at hm
    have hm' : ∀ x ∈ a ++ { s with tres := ts } :: b,
        x.linked = true ∧ SegReadyBy P E IO (TresAny P E) .text x := by
      intro x hx
      rcases List.mem_append.mp hx with hx | hx
      · exact hm x (by simp [hx])
      · rcases List.mem_cons.mp hx with rfl | hx
        · obtain ⟨h1, h2⟩ := hm s (by simp)
          exact ⟨h1, h2.noLit, h2.user, h2.tres.1, ht⟩
        · exact hm x (by simp [hx])
    refine ⟨ih.reg, ih.header, ih.tres, ?_, ?_, ih.des⟩
    · intro k x hx
      cases k with
      | text => exact (hm' x hx).1
      | graphic => exact ih.linked .graphic x hx
      | image => exact ih.linked .image x hx
      | des => exact ih.linked .des x hx
      | res => exact ih.linked .res x hx
    · intro k hk x hx
      cases k with
      | text => exact (hm' x hx).2
      | graphic => exact ih.segs .graphic hk x hx
      | image => exact ih.segs .image hk x hx
      | des => exact absurd rfl hk
      | res => exact ih.segs .res hk x hx
  | @image g s _ hl hs ih =>
    refine ⟨ih.reg, ih.header, ih.tres, ?_, ?_, ih.des⟩
    · intro k x hx
      cases k with
      | image =>
        rcases List.mem_append.mp (show x ∈ g.image ++ [s] from hx) with hx | hx
        · exact ih.linked .image x hx
        · rw [List.mem_singleton.mp hx]; exact hl
      | graphic => exact ih.linked .graphic x hx
      | text => exact ih.linked .text x hx
      | des => exact ih.linked .des x hx
      | res => exact ih.linked .res x hx
    · intro k hk x hx
      cases k with
      | image =>
        rcases List.mem_append.mp (show x ∈ g.image ++ [s] from hx) with hx | hx
        · exact ih.segs .image hk x hx
        · rw [List.mem_singleton.mp hx]; exact hs
      | graphic => exact ih.segs .graphic hk x hx
      | text => exact ih.segs .text hk x hx
      | des => exact absurd rfl hk
      | res => exact ih.segs .res hk x hx
  | @text g s _ hl hs ih =>
    refine ⟨ih.reg, ih.header, ih.tres, ?_, ?_, ih.des⟩
    · intro k x hx
      cases k with
      | text =>
        rcases List.mem_append.mp (show x ∈ g.text ++ [s] from hx) with hx | hx
        · exact ih.linked .text x hx
        · rw [List.mem_singleton.mp hx]; exact hl
      | graphic => exact ih.linked .graphic x hx
      | image => exact ih.linked .image x hx
      | des => exact ih.linked .des x hx
      | res => exact ih.linked .res x hx
    · intro k hk x hx
      cases k with
      | text =>
        rcases List.mem_append.mp (show x ∈ g.text ++ [s] from hx) with hx | hx
        · exact ih.segs .text hk x hx
        · rw [List.mem_singleton.mp hx]; exact hs
      | graphic => exact ih.segs .graphic hk x hx
      | image => exact ih.segs .image hk x hx
      | des => exact absurd rfl hk
      | res => exact ih.segs .res hk x hx
  | @des g s _ hl hs ih =>
    refine ⟨ih.reg, ih.header, ih.tres, ?_, ?_, ?_⟩
    · intro k x hx
      cases k with
      | des =>
        rcases List.mem_append.mp (show x ∈ g.des ++ [s] from hx) with hx | hx
        · exact ih.linked .des x hx
        · rw [List.mem_singleton.mp hx]; exact hl
      | graphic => exact ih.linked .graphic x hx
      | image => exact ih.linked .image x hx
      | text => exact ih.linked .text x hx
      | res => exact ih.linked .res x hx
    · intro k hk x hx
      cases k with
      | des => exact absurd rfl hk
      | graphic => exact ih.segs .graphic hk x hx
      | image => exact ih.segs .image hk x hx
      | text => exact ih.segs .text hk x hx
      | res => exact ih.segs .res hk x hx
    · intro x hx hd
      rcases List.mem_append.mp (show x ∈ g.des ++ [s] from hx) with hx | hx
      · exact ih.des x hx hd
      · rw [List.mem_singleton.mp hx]; exact hs

/-- C24 and C26: what `ReadsAs` means for a header all of whose TREs were removed: everything its
areas held is read. -/
theorem C24_file_keeps {d : Desc} {areas : List Area} {S : Store P.F} {us : List (Tre P.F)}
    (h : ReadsAs P E d areas S [] us) :
    ∃ vs, ∃ gs : List (List (Tre P.F)), HoldsAll P d S (areaPositions d areas) vs ∧ us = gs.flatten ∧
      gs.length = areas.length ∧ ∀ (i : Nat) x v, gs[i]? = some x → vs[i]? = some v →
        if 0 < v.len then readTreData P E.reg v.data = .ok x else x = [] := by
  obtain ⟨vs, ser, dest, u, gs, h1, _, _, h4, h5, h6, h7⟩ := h
  have hp : ∀ k, picks dest ([] : List (Tre P.F)) k = [] := by intro k; simp [picks]
  rw [hp] at h5
  cases h5
  exact ⟨vs, gs, h1, by simpa using h4, h6, fun i x v hx hv => (h7 i x v hx hv).2 (hp _)⟩

/-! ### A concrete case -/

/-- The file of `Verif/Props/File.lean` after it was written and its TRE removed. -/
def exRemoved : Except Err (NFile P0.F exIO.D) :=
  (writeFile P0 exEnv exIO exFile).map fun r => { r.1 with tres := [] }

/-- Negation of C24 and C26 for such a file: the TRE is read back from the next file written. -/
theorem C26_removed_comes_back :
    ((exRemoved.bind fun f => (writeFile P0 exEnv exIO f).bind fun r =>
      (readFile P0 exEnv exIO r.2).map fun g =>
        (f.tres.map fun t => t.tag, g.tres.map fun t => t.tag)) =
      .ok (([] : List (List Char)), ["ABCDEF".toList])) := by
  decide +kernel

theorem exFile_any : FileReadyBy P0 exEnv exIO (TresAny P0 exEnv) exFile where
  reg := by intro t ht; cases ht
  header := NoLit.empty
  tres := by
    refine ⟨⟨_, fileHeader_fresh P0, ?_⟩, ⟨[asc "ABCDEF00002" ++ [1, 2]], by decide +kernel,
      by decide +kernel⟩, ?_⟩
    · intro v hv
      simp only [List.mem_cons, List.not_mem_nil, or_false, or_self] at hv
      subst hv
      exact ⟨fun _ => by decide, fun h => absurd h (by decide)⟩
    · intro t ht
      simp only [exFile, List.mem_cons, List.not_mem_nil, or_false] at ht
      subst ht
      exact ⟨⟨by decide, by decide, by decide⟩, rfl⟩
  linked := exFile_ready.linked
  segs := by
    intro k hk s hs
    cases k <;> simp [exFile, NFile.segs] at hs
    · subst hs
      refine ⟨NoLit.empty, rfl, ⟨_, textHeader_fresh P0, ?_⟩, ⟨[], rfl, by simp⟩, by simp⟩
      intro v hv
      simp only [List.mem_cons, List.not_mem_nil, or_false, or_self] at hv
      subst hv
      exact ⟨fun _ => by decide, fun h => absurd h (by decide)⟩
    · exact absurd rfl hk
  des := by
    intro s hs _
    simp only [exFile, List.mem_cons, List.not_mem_nil, or_false] at hs
    subst hs
    exact ⟨NoLit.empty, (by intro d U h; cases h), rfl⟩

/-- The hypotheses of `C26_any_areas_partial`, `C26_any_untouched_partial` and `C26_session`: the
file is written, its TRE removed, and it is still such that the theorems apply. -/
example : ∃ f, exRemoved = .ok f ∧ f.tres = [] ∧ Session P0 exEnv exIO exFile f ∧
    FileReadyBy P0 exEnv exIO (TresAny P0 exEnv) f := by
  cases h : writeFile P0 exEnv exIO exFile with
  | error e =>
    have : (writeFile P0 exEnv exIO exFile).toOption.map (·.2.length) = some 913 := by
      decide +kernel
    rw [h] at this
    cases this
  | ok r =>
    have hs : Session P0 exEnv exIO exFile { r.1 with tres := [] } :=
      .tres [] (.write (.start _) h) ⟨⟨[], rfl, by simp⟩, by simp⟩
    exact ⟨{ r.1 with tres := [] }, by rw [exRemoved, h]; rfl, rfl, hs,
      C26_session P0 exEnv exIO hs exFile_any⟩

end Verif
