import Verif.Props.File

/- C26: reading a written file. -/

namespace Verif

variable (P : PyFloat) (E : Env) (IO : DataIO P.F) (same : IO.D → IO.D → Prop)

/-! ### Specification -/

/-- The TRE list of a header can be written and read back (the conditions of
`C23_rearranged_partial`): every area is unused or needed again, every TRE is representable, can be
serialised and fits into an area. -/
def TresReady (d : Desc) (areas : List Area) (S : Store P.F) (tres : List (Tre P.F)) : Prop :=
  ∃ vs ser, HoldsAll P d S (areaPositions d areas) vs ∧ treWriteAll P tres = .ok ser ∧
    (∀ b ∈ ser, b.length < 99996) ∧ Reusable vs ser.flatten.length ∧
    ∀ t ∈ tres, Representable P E.reg t

/-- A segment that can be written and read back, if `ok` says so of its TREs. -/
structure SegReadyBy (ok : Desc → List Area → Store P.F → List (Tre P.F) → Prop) (k : SegKind)
    (s : Seg P.F IO.D) : Prop where
  noLit : NoLit s.sub
  user : UserReady P E IO k s
  tres : match k with
    | .image => ok Tables.t_image_subheader imageAreas s.sub s.tres
    | .text => ok Tables.t_text_subheader textAreas s.sub s.tres
    | .graphic => s.tres = [] ∧
        getAttr P Tables.t_graphic_subheader s.sub (n!"sxshdl") [] = .ok (.int 0)
    | _ => s.tres = []

/-- A file that can be written and read back, if `ok` says so of the TREs of each header. -/
structure FileReadyBy (ok : Desc → List Area → Store P.F → List (Tre P.F) → Prop)
    (f : NFile P.F IO.D) : Prop where
  reg : E.reg.Causal
  header : NoLit f.header
  tres : ok Tables.t_file_header fileAreas f.header f.tres
  linked : ∀ k, ∀ s ∈ f.segs k, s.linked = true
  segs : ∀ k, k ≠ .des → ∀ s ∈ f.segs k, SegReadyBy P E IO ok k s
  des : ∀ s ∈ f.des, getAttr P Tables.t_des_subheader s.sub (n!"desid") [] ≠
    .ok (.str "TRE_OVERFLOW".toList) → SegReadyBy P E IO ok .des s

/-- A segment that can be written and read back. -/
abbrev SegReady (k : SegKind) (s : Seg P.F IO.D) : Prop := SegReadyBy P E IO (TresReady P E) k s

/-- A file that can be written and read back. -/
abbrev FileReady (f : NFile P.F IO.D) : Prop := FileReadyBy P E IO (TresReady P E) f

/-- The handlers give back the data of this segment when the subheader has the same values. -/
def HandlersReady (k : SegKind) (s : Seg P.F IO.D) : Prop :=
  ∃ x, s.data = .other x ∧ ∀ b, IO.write x = .ok b → ∀ R,
    (∀ nm, itemsOf P k.desc R nm = itemsOf P k.desc s.sub nm) →
    ∀ rest, ∃ y, IO.read k R b.length (b ++ rest) = .ok (y, rest) ∧ same x y

/-- The same TREs, possibly in another order. -/
def SameTres (ts us : List (Tre P.F)) : Prop := ∃ qs, qs.Perm ts ∧ Each (SameTre P) qs us

/-- The same segment to a user: the same (index, value) pairs for every field of the subheader,
the same user subheader, data and TREs. -/
structure SameSeg (k : SegKind) (s s' : Seg P.F IO.D) : Prop where
  sub : ∀ nm, itemsOf P k.desc s'.sub nm = itemsOf P k.desc s.sub nm
  user : SameUser P s.user s'.user
  data : SameData P IO same s.data s'.data
  tres : SameTres P s.tres s'.tres

/-! ### Auxiliary -/

theorem Each.split {α β : Type} {R : α → β → Prop} : ∀ {a1 a2 : List α} {b : List β},
    Each R (a1 ++ a2) b → ∃ b1 b2, b = b1 ++ b2 ∧ Each R a1 b1 ∧ Each R a2 b2
  | [], a2, b, h => ⟨[], b, rfl, .nil, h⟩
  | x :: a1, a2, _, h => by
    cases h with
    | cons h1 h2 =>
      obtain ⟨b1, b2, rfl, e1, e2⟩ := Each.split h2
      exact ⟨_ :: b1, b2, rfl, .cons h1 e1, e2⟩

theorem dropOverflow_all {a b : List (Seg P.F IO.D)}
    (ha : ∀ s ∈ a, ∃ id, getAttr P Tables.t_des_subheader s.sub (n!"desid") [] = .ok (.str id) ∧
      id ≠ "TRE_OVERFLOW".toList)
    (hb : ∀ s ∈ b, getAttr P Tables.t_des_subheader s.sub (n!"desid") [] =
      .ok (.str "TRE_OVERFLOW".toList)) : dropOverflow P IO (a ++ b) = .ok a := by
  induction a with
  | nil =>
    rw [List.nil_append]
    induction b with
    | nil => rfl
    | cons s b ih =>
      unfold dropOverflow
      rw [hb s (by simp)]
      simp only [ih fun x hx => hb x (by simp [hx]), if_true]
  | cons s a ih =>
    rw [List.cons_append]
    unfold dropOverflow
    obtain ⟨id, h1, h2⟩ := ha s (by simp)
    rw [h1]
    simp only [ih fun x hx => ha x (by simp [hx]), if_neg h2]

/-- The desid of a segment is not changed by writing it. -/
theorem segBytes_desid {s : Seg P.F IO.D} {r : Seg P.F IO.D × Bytes × Bytes}
    (h : segBytes P E IO .des s = .ok r) :
    getAttr P Tables.t_des_subheader r.1.sub (n!"desid") [] =
      getAttr P Tables.t_des_subheader s.sub (n!"desid") [] := by
  obtain ⟨sub, h1, h2, _⟩ := segBytes_ok P E IO h
  rw [h2]
  obtain ⟨b, _, h3⟩ := writeUser_des P h1
  simp only [h3]
  exact desid_cell P (by simp [Store.set])

/-- Which DES segments are written: those left in the file object, then overflow segments. -/
theorem WriteRun.des_split {f f' : NFile P.F IO.D} {out : Bytes} (r : WriteRun P E IO f f' out) :
    ∃ ov ra rb, r.segs1 .des = r.des0 ++ ov ∧ r.res .des = ra ++ rb ∧
      Each (fun s x => segBytes P E IO .des s = .ok x) r.des0 ra ∧
      Each (fun s x => segBytes P E IO .des s = .ok x) ov rb ∧
      (∀ s ∈ ov, IsOverflow P IO s) ∧ f'.des = ra.map (·.1) ∧
      ∀ x ∈ rb, getAttr P Tables.t_des_subheader x.1.sub (n!"desid") [] =
        .ok (.str "TRE_OVERFLOW".toList) := by
  obtain ⟨⟨ov, h1, h2⟩, _⟩ := r.desList
  have hE := r.each .des
  rw [h1] at hE
  obtain ⟨ra, rb, e0, e1, e2⟩ := Each.split hE
  have hrb : ∀ x ∈ rb, getAttr P Tables.t_des_subheader x.1.sub (n!"desid") [] =
      .ok (.str "TRE_OVERFLOW".toList) := by
    intro x hx
    obtain ⟨s, hs, hsx⟩ := e2.mem_right hx
    rw [segBytes_desid P E IO hsx]
    obtain ⟨_, _, _, _, hm⟩ := (h2 s hs).made
    exact overflowSeg_desid P IO hm
  refine ⟨ov, ra, rb, h1, e0, e1, e2, h2, ?_, hrb⟩
  have hd := r.drop1
  rw [e0, List.map_append, dropOverflow_all P IO] at hd
  · injection hd with hd; exact hd.symm
  · intro s hs
    obtain ⟨x, hx, rfl⟩ := List.mem_map.mp hs
    obtain ⟨s0, hs0, hsx⟩ := e1.mem_right hx
    obtain ⟨id, i1, i2⟩ := (dropOverflow_ok P IO r.drop0).2 s0 hs0
    exact ⟨id, by rw [segBytes_desid P E IO hsx]; exact i1, i2⟩
  · intro s hs
    obtain ⟨x, hx, rfl⟩ := List.mem_map.mp hs
    exact hrb x hx

/-- After writing TREs to the areas of a header, something can be read from them. -/
def TresRead (d : Desc) (areas : List Area) (S : Store P.F) (tres : List (Tre P.F)) : Prop :=
  (∃ vs, HoldsAll P d S (areaPositions d areas) vs) ∧
  ∀ n S' o, prepareTreWrite P d areas n tres S = .ok (S', o) →
    ∀ des : List (Except Err Bytes), (∀ b, o = some b → des[n]? = some (.ok b)) →
      ∃ us, readTre P E.reg d des areas S' = .ok us

theorem SegReadyBy.imp {ok ok' : Desc → List Area → Store P.F → List (Tre P.F) → Prop}
    {k : SegKind} {s : Seg P.F IO.D}
    (hi : ∀ d areas, HeaderAreas d areas (areaPositions d areas) → ok d areas s.sub s.tres →
      ok' d areas s.sub s.tres)
    (h : SegReadyBy P E IO ok k s) : SegReadyBy P E IO ok' k s := by
  refine ⟨h.noLit, h.user, ?_⟩
  have ht := h.tres
  cases k with
  | image => exact hi _ _ imageHeader_areas ht
  | text => exact hi _ _ textHeader_areas ht
  | graphic => exact ht
  | des => exact ht
  | res => exact ht

theorem FileReadyBy.imp {ok ok' : Desc → List Area → Store P.F → List (Tre P.F) → Prop}
    {f : NFile P.F IO.D}
    (hi : ∀ d areas S tres, HeaderAreas d areas (areaPositions d areas) → ok d areas S tres →
      ok' d areas S tres)
    (h : FileReadyBy P E IO ok f) : FileReadyBy P E IO ok' f :=
  ⟨h.reg, h.header, hi _ _ _ _ fileHeader_areas h.tres, h.linked,
    fun k hk s hs => (h.segs k hk s hs).imp P E IO fun d a => hi d a _ _,
    fun s hs hd => (h.des s hs hd).imp P E IO fun d a => hi d a _ _⟩

/-- Reading the TREs of a prepared header. -/
theorem ready_prepared {d : Desc} {areas : List Area}
    (H : HeaderAreas d areas (areaPositions d areas)) (hreg : E.reg.Causal) {S S' : Store P.F}
    {tres : List (Tre P.F)} (hr : TresReady P E d areas S tres) {n : Nat} {o : Option Bytes}
    (hp : prepareTreWrite P d areas n tres S = .ok (S', o)) :
    (∃ vs, HoldsAll P d S' (areaPositions d areas) vs) ∧
    ∀ des : List (Except Err Bytes), (∀ b, o = some b → des[n]? = some (.ok b)) →
      ∃ us, readTre P E.reg d des areas S' = .ok us ∧ SameTres P tres us := by
  obtain ⟨vs, ser, h1, h2, h3, h4, h5⟩ := hr
  obtain ⟨S1, o1, p1, qs, p2, p3⟩ := ready_readback P H h1 hreg h5 h2 h3 h4 n
  rw [p1] at hp
  injection hp with hp
  injection hp with e1 e2
  subst e1 e2
  obtain ⟨_, _, _, _, _, _, q, _⟩ := prepare_ok P H h1 p1
  refine ⟨⟨_, q⟩, ?_⟩
  intro des hd
  obtain ⟨us, u1, u2⟩ := p3 des hd
  exact ⟨us, u1, qs, p2, u2⟩

/-- `prepare_tre_write` without TREs, for a graphic segment without TREs. -/
theorem prepare_graphic_none {S S' : Store P.F} {n : Nat} {o : Option Bytes}
    (h : getAttr P Tables.t_graphic_subheader S (n!"sxshdl") [] = .ok (.int 0))
    (hp : prepareTreWrite P Tables.t_graphic_subheader graphicAreas n [] S = .ok (S', o)) :
    S' = S := by
  unfold prepareTreWrite treWriteAll graphicAreas at hp
  simp only [List.map_cons, List.map_nil, place, storeAreas, attrPos, h, asInt, Except.map] at hp
  simp at hp
  exact hp.1.symm

theorem readSegTres_written {k : SegKind} {dd : List (Except Err Bytes)}
    {Q Q' : Seg P.F IO.D × Bytes × Bytes → Seg P.F IO.D → Prop}
    {l : List (Seg P.F IO.D × Bytes × Bytes)} {ss : List (Seg P.F IO.D)} (h : Each Q l ss)
    (hq : ∀ x ∈ l, ∀ s, Q x s → ∃ ts, segTres P E IO k dd s = .ok ts ∧
      Q' x { s with tres := ts }) :
    ∃ ss', readSegTres P E IO k dd ss = .ok ss' ∧ Each Q' l ss' := by
  induction h with
  | nil => exact ⟨[], rfl, .nil⟩
  | @cons x l s ss h1 h2 ih =>
    obtain ⟨ss', a1, a2⟩ := ih fun y hy => hq y (by simp [hy])
    obtain ⟨ts, b1, b2⟩ := hq x (by simp) s h1
    refine ⟨_, ?_, .cons b2 a2⟩
    unfold readSegTres
    rw [b1]
    simp only [a1]

theorem Each.map_left {α β γ : Type} {R : α → β → Prop} (g : γ → α) {l : List γ} {bs : List β}
    (h : Each (fun x b => R (g x) b) l bs) : Each R (l.map g) bs := by
  induction h with
  | nil => exact .nil
  | cons h _ ih => exact .cons h ih

/-- What is known about a segment read from the bytes of a written one. -/
def LoadedSeg (k : SegKind) (x : Seg P.F IO.D × Bytes × Bytes) (s : Seg P.F IO.D) : Prop :=
  ReadBack P E IO same k x s ∧ SameSeg P IO same k x.1 s ∧
    ((k = .image ∨ k = .text) → ∀ areas, k.areas = some areas →
      ∃ dd, readTre P E.reg k.desc dd areas x.1.sub = .ok s.tres) ∧
    (k = .graphic → s.tres = [])

/-- What is known about the object `g` read from the bytes of a run of `NitfFile.write`. -/
structure LoadRun {f f' : NFile P.F IO.D} {out : Bytes} (r : WriteRun P E IO f f' out)
    (g : NFile P.F IO.D) : Prop where
  read : readFile P E IO out = .ok g
  items : ∀ nm, itemsOf P Tables.t_file_header g.header nm =
    itemsOf P Tables.t_file_header f'.header nm
  header : Loaded P Tables.t_file_header f'.header g.header r.cs'
  sameTres : SameTres P f.tres g.tres
  tres : ∃ dd, readTre P E.reg Tables.t_file_header dd fileAreas r.h0 = .ok g.tres
  segs : ∀ k, Each (LoadedSeg P E IO same k) (r.res k) (g.segs k)

/-- What is known about a segment read from the bytes of a written one, whatever its TRE areas
held; `dd` are the data of the DES segments read. -/
def LoadedAny (k : SegKind) (dd : List (Except Err Bytes)) (x : Seg P.F IO.D × Bytes × Bytes)
    (s : Seg P.F IO.D) : Prop :=
  ReadBack P E IO same k x s ∧
    (∀ areas, k.areas = some areas → k ≠ .graphic →
      readTre P E.reg k.desc dd areas x.1.sub = .ok s.tres) ∧
    (k ≠ .image → k ≠ .text → x.1.tres = [] ∧ s.tres = [])

/-- The same for the file. -/
structure LoadAny {f f' : NFile P.F IO.D} {out : Bytes} (r : WriteRun P E IO f f' out)
    (g : NFile P.F IO.D) : Prop where
  read : readFile P E IO out = .ok g
  items : ∀ nm, itemsOf P Tables.t_file_header g.header nm =
    itemsOf P Tables.t_file_header f'.header nm
  header : Loaded P Tables.t_file_header f'.header g.header r.cs'
  overflow : ∀ (n : Nat) s b, (r.segs1 .des)[n]? = some s → s.data = .overflow b →
    (g.des.map (desData P IO))[n]? = some (.ok b)
  tres : readTre P E.reg Tables.t_file_header (g.des.map (desData P IO)) fileAreas r.h0 = .ok g.tres
  segs : ∀ k, Each (LoadedAny P E IO same k (g.des.map (desData P IO))) (r.res k) (g.segs k)

theorem readFile_any {f f' : NFile P.F IO.D} {out : Bytes} (r : WriteRun P E IO f f' out)
    (hf : FileReadyBy P E IO (TresRead P E) f)
    (hd : ∀ k, ∀ s ∈ f'.segs k, HandlersReady P IO same k s)
    (hlen : out.length ≠ 999999999999) : ∃ g, LoadAny P E IO same r g := by
  obtain ⟨R, r1, r2, r3, r4, _, r6⟩ := r.readLengths P E IO hf.header hf.linked
  have hload := r.loadHeader P E IO hf.header r1
  obtain ⟨ov, ra, rb, d1, d2, d3, d4, d5, d6, d7⟩ := r.des_split P E IO
  have hlinked := r.linked P E IO hf.linked
  -- sizes
  have hsz : ∀ k, segSizes P R k = .ok ((r.res k).map fun x => ((x.2.2.length : Nat) : Int)) := by
    intro k
    unfold segSizes
    rw [(r6 k).1]
    simp only [asInt]
    rw [listField_each P (each_indices (fun x => ((x.2.1.length : Nat) : Int)) (r.res k)
      fun i x hx => ((r6 k).2 i x hx).1), listField_each P (each_indices
      (fun x => ((x.2.2.length : Nat) : Int)) (r.res k) fun i x hx => ((r6 k).2 i x hx).2)]
  -- each segment
  have hseg : ∀ k, ∀ x ∈ r.res k, ∀ rest,
      ∃ s', readSeg P E IO k (x.2.2.length : Nat) (x.2.1 ++ (x.2.2 ++ rest)) = .ok (s', rest) ∧
        ReadBack P E IO same k x s' ∧ s'.tres = [] := by
    intro k x hx rest
    by_cases hk : k = .des
    · subst hk
      rw [d2] at hx
      rcases List.mem_append.mp hx with hx | hx
      · obtain ⟨s, hs, hsx⟩ := d3.mem_right hx
        have hs' : s ∈ r.segs1 .des := by rw [d1]; exact List.mem_append_left _ hs
        obtain ⟨hsub, hid⟩ := dropOverflow_ok P IO r.drop0
        obtain ⟨id, i1, i2⟩ := hid s hs
        have hready := hf.des s (hsub.subset hs) (by
          rw [i1]; intro he; injection he with he; injection he with he; exact i2 he)
        refine readSeg_written P E IO same hsx (hlinked .des s hs') hready.noLit hready.user ?_ rest
        obtain ⟨y, y1, y2⟩ := hd .des x.1 (by
          show x.1 ∈ f'.des
          rw [d6]; exact List.mem_map.mpr ⟨x, hx, rfl⟩)
        unfold DataReady
        rw [y1]
        exact ⟨fun _ => ⟨id, by rw [segBytes_desid P E IO hsx]; exact i1, i2⟩, y2⟩
      · obtain ⟨s, hs, hsx⟩ := d4.mem_right hx
        have ho := d5 s hs
        refine readSeg_written P E IO same hsx ho.linked ho.noLit ?_ ?_ rest
        · intro d U hu; rw [ho.user] at hu; cases hu
        · obtain ⟨sub, _, e2, _⟩ := segBytes_ok P E IO hsx
          obtain ⟨b, hb⟩ := ho.data
          unfold DataReady
          rw [show x.1.data = .overflow b by rw [e2]; exact hb]
          exact ⟨rfl, d7 x hx⟩
    · obtain ⟨s, hs, hsx⟩ := (r.each k).mem_right hx
      obtain ⟨s0, hs0, hp⟩ := (r.prepared P E IO hk).mem_right hs
      have hready := hf.segs k hk s0 hs0
      refine readSeg_written P E IO same hsx (hlinked k s hs) (hp.noLit hready.noLit) ?_ ?_ rest
      · have hu := hready.user
        cases k with
        | des => exact absurd rfl hk
        | res =>
          have := hp.noAreas rfl
          unfold UserReady at hu ⊢
          simp only at hu ⊢
          rw [hp.user, this]; exact hu
        | _ =>
          unfold UserReady at hu ⊢
          simp only at hu ⊢
          rw [hp.user]; exact hu
      · obtain ⟨y, y1, y2⟩ := hd k x.1 (by
          rw [r.after k hk]; exact List.mem_map.mpr ⟨x, hx, rfl⟩)
        unfold DataReady
        rw [y1]
        exact ⟨fun he => absurd he hk, y2⟩
  have hread := fun k => readSegs_written P E IO (hseg k)
  let pb := fun k => ((r.res k).map (·.2)).flatMap fun p => p.1 ++ p.2
  -- run the reader
  obtain ⟨rs, rs1, rs2⟩ := hread .res []
  obtain ⟨ds, ds1, ds2⟩ := hread .des (pb .res ++ [])
  obtain ⟨tx, tx1, tx2⟩ := hread .text (pb .des ++ (pb .res ++ []))
  obtain ⟨gr, gr1, gr2⟩ := hread .graphic (pb .text ++ (pb .des ++ (pb .res ++ [])))
  obtain ⟨im, im1, im2⟩ := hread .image (pb .graphic ++ (pb .text ++ (pb .des ++ (pb .res ++ []))))
  have hdd : ∀ (n : Nat) s b, (r.segs1 .des)[n]? = some s → s.data = .overflow b →
      (ds.map (desData P IO))[n]? = some (.ok b) := by
    intro n s b hs hb
    have hlt := lt_of_getElem? hs
    have hlt2 : n < (r.res .des).length := by rw [← (r.each .des).length]; exact hlt
    have hlt3 : n < ds.length := by rw [← ds2.length]; exact hlt2
    have e1 := (r.each .des).get n _ _ hs (List.getElem?_eq_getElem hlt2)
    have e2 := ds2.get n _ _ (List.getElem?_eq_getElem hlt2) (List.getElem?_eq_getElem hlt3)
    obtain ⟨sub, _, f2, _⟩ := segBytes_ok P E IO e1
    have hdat := e2.1.data
    rw [f2] at hdat
    simp only [hb] at hdat
    rw [List.getElem?_map, List.getElem?_eq_getElem hlt3]
    simp only [Option.map_some, desData]
    cases hx : (ds[n]).data with
    | overflow c => rw [hx] at hdat; rw [show c = b from hdat]
    | other y => rw [hx] at hdat; exact absurd hdat (by simp [SameData])
  -- TREs of the file
  have hT : ∃ ts, readTre P E.reg Tables.t_file_header (ds.map (desData P IO)) fileAreas R = .ok ts ∧
      readTre P E.reg Tables.t_file_header (ds.map (desData P IO)) fileAreas r.h0 = .ok ts := by
    obtain ⟨o, p1, p2⟩ := prepareHeader_ok P IO r.prepH
    obtain ⟨⟨vs, q0⟩, q2⟩ := hf.tres
    obtain ⟨_, _, _, _, _, _, q1, _⟩ := prepare_ok P fileHeader_areas q0 p1
    rw [readTre_reach P fileHeader_areas r3, readTre_cells P fileHeader_areas (S := r.h0) q1]
    · obtain ⟨us, u1⟩ := q2 _ _ _ p1 (ds.map (desData P IO)) (by
        intro b hb
        rcases p2 with ⟨ho, _⟩ | ⟨b', s, ho, hdes, _, hs, _⟩
        · rw [ho] at hb; cases hb
        · rw [ho] at hb; injection hb with hb; subst hb
          refine hdd _ s b' ?_ hs
          refine prefix_get r.desList.2.1 ?_
          rw [hdes]; simp)
      exact ⟨us, u1, u1⟩
    · intro q hq
      have hq' : q ∉ [flPos, hlPos, 31, 34, 38, 41, 44] := by
        have : ((areaPositions Tables.t_file_header fileAreas).flatMap AreaPos.list).all
            (fun q => decide (q ∉ [flPos, hlPos, 31, 34, 38, 41, 44])) = true := by decide +kernel
        exact of_decide_eq_true (List.all_eq_true.mp this q hq)
      simp only [List.mem_cons, List.not_mem_nil, or_false, not_or] at hq'
      rw [r.others q [] hq'.1 hq'.2.1 fun k => Or.inr (by simp), nums_ok P r.nums]
      simp [Store.set, hq'.2.2]
  obtain ⟨ts, t1, t3⟩ := hT
  -- TREs of the segments
  have hback : ∀ (k : SegKind) (areas : List Area), k.areas = some areas → k ≠ .des →
      ∀ x ∈ r.res k, ∀ s, ReadBack P E IO same k x s ∧ s.tres = [] →
      ∃ us, segTres P E IO k (ds.map (desData P IO)) s = .ok us ∧
        LoadedAny P E IO same k (ds.map (desData P IO)) x { s with tres := us } := by
    intro k areas hka hk x hx s hs
    obtain ⟨hs, _⟩ := hs
    obtain ⟨s1, hs1, hsx⟩ := (r.each k).mem_right hx
    obtain ⟨s0, hs0, hp⟩ := (r.prepared P E IO hk).mem_right hs1
    have hready := hf.segs k hk s0 hs0
    obtain ⟨sub, e1, e2, _⟩ := segBytes_ok P E IO hsx
    have e3 := writeUser_other P hk e1
    obtain ⟨n, o, p1, p2⟩ := hp.prep areas hka
    have htr : x.1.tres = s0.tres := by rw [e2]; exact hp.tres
    have hsub : x.1.sub = s1.sub := by rw [e2]; exact e3
    have hreach := hs.reach
    rw [hsub] at hreach
    have hdes : ∀ b, o = some b → (ds.map (desData P IO))[n]? = some (.ok b) := by
      intro b hb
      obtain ⟨y, y1, y2⟩ := p2 b hb
      exact hdd n y b y1 y2
    have fin : ∀ us, ReadBack P E IO same k x { s with tres := us } := by
      intro us
      exact ⟨hs.items, hs.reach, hs.user, hs.data, (fun hn => by rw [hka] at hn; cases hn),
        hs.linked, hs.loaded, hs.reads, hs.userAgain⟩
    have gen : ∀ (H : HeaderAreas k.desc areas (areaPositions k.desc areas)),
        TresRead P E k.desc areas s0.sub s0.tres → (k = .image ∨ k = .text) →
        ∃ us, segTres P E IO k (ds.map (desData P IO)) s = .ok us ∧
          LoadedAny P E IO same k (ds.map (desData P IO)) x { s with tres := us } := by
      intro H hr hng
      obtain ⟨us, u1⟩ := hr.2 _ _ _ p1 _ hdes
      refine ⟨us, ?_, fin us, ?_, ?_⟩
      · unfold segTres
        rw [hka]
        simp only
        rw [readTre_reach P H hreach]
        exact u1
      · intro areas' hka' _
        rw [hka] at hka'
        injection hka' with hka'
        subst hka'
        rw [hsub]; exact u1
      · intro h1 h2
        rcases hng with h | h
        · exact absurd h h1
        · exact absurd h h2
    cases k with
    | des => exact absurd rfl hk
    | res => cases hka
    | image =>
      injection hka with hka; subst hka
      exact gen imageHeader_areas hready.tres (by simp)
    | text =>
      injection hka with hka; subst hka
      exact gen textHeader_areas hready.tres (by simp)
    | graphic =>
      injection hka with hka; subst hka
      obtain ⟨g1, g2⟩ := hready.tres
      rw [g1] at p1
      have hsame := prepare_graphic_none P g2 p1
      refine ⟨[], ?_, fin [], fun _ _ h => absurd rfl h, fun _ _ => ⟨htr.trans g1, rfl⟩⟩
      unfold segTres
      simp only [SegKind.areas]
      refine C52_no_tres_partial P E.reg _ (l := 0) ?_ (by omega)
      refine (getAttr_reach P (d := SegKind.graphic.desc) ?_ hreach).trans (by rw [hsame]; exact g2)
      · intro n fi hr hfi
        have : (match resolve SegKind.graphic.desc.tab (n!"sxshdl") with
          | none => true
          | some n => match SegKind.graphic.desc.tab[n]? with
            | none => true
            | some fi => fi.shapes.isEmpty) = true := by decide +kernel
        rw [hr] at this
        simp only [hfi] at this
        exact List.isEmpty_iff.mp this
  obtain ⟨im', imt, ime⟩ := readSegTres_written P E IO (Q' := LoadedAny P E IO same _ _) im2 (hback .image _ rfl (by decide))
  obtain ⟨gr', grt, gre⟩ := readSegTres_written P E IO (Q' := LoadedAny P E IO same _ _) gr2 (hback .graphic _ rfl (by decide))
  obtain ⟨tx', txt, txe⟩ := readSegTres_written P E IO (Q' := LoadedAny P E IO same _ _) tx2 (hback .text _ rfl (by decide))
  have hplain : ∀ (k : SegKind) x s, k.areas = none → x.1.tres = [] →
      ReadBack P E IO same k x s ∧ s.tres = [] →
      LoadedAny P E IO same k (ds.map (desData P IO)) x s := by
    intro k x s hk hx hs
    obtain ⟨hs, ht⟩ := hs
    refine ⟨hs, ?_, fun _ _ => ⟨hx, ht⟩⟩
    intro areas ha
    rw [hk] at ha
    cases ha
  refine ⟨NFile.mk R ts im' gr' tx' ds rs, ?_, r2, hload, hdd, t3, ?_⟩
  · unfold readFile
    simp only [bind_ok, Prod.exists, pure, Except.pure]
    refine ⟨R, _, r1, _, r4, ?_⟩
    rw [if_neg (by simp [pyEq]; omega)]
    simp only [bind_ok, Prod.exists]
    refine ⟨_, hsz .image, _, hsz .graphic, _, hsz .text, _, hsz .des, _, hsz .res, im, _, ?_,
      gr, _, gr1, tx, _, tx1, ds, _, ds1, rs, _, rs1, ts, t1, im', imt, gr', grt, tx', txt, rfl⟩
    rw [← im1]
    congr 1
  · intro k
    cases k with
    | image => exact ime
    | graphic => exact gre
    | text => exact txe
    | res =>
      refine Each.imp rs2 ?_
      intro x hx s hs
      obtain ⟨s1, hs1, hsx⟩ := (r.each .res).mem_right hx
      obtain ⟨s0, hs0, hp⟩ := (r.prepared P E IO (by decide : SegKind.res ≠ .des)).mem_right hs1
      obtain ⟨sub, _, e2, _⟩ := segBytes_ok P E IO hsx
      exact hplain _ _ _ rfl (by
        rw [e2]; exact hp.tres.trans (hf.segs .res (by decide) s0 hs0).tres) hs
    | des =>
      refine Each.imp ds2 ?_
      intro x hx s hs
      refine hplain _ _ _ rfl ?_ hs
      rw [d2] at hx
      rcases List.mem_append.mp hx with hx | hx
      · obtain ⟨s0, hs0, hsx⟩ := d3.mem_right hx
        obtain ⟨sub, _, e2, _⟩ := segBytes_ok P E IO hsx
        obtain ⟨hsub, hid⟩ := dropOverflow_ok P IO r.drop0
        obtain ⟨id, i1, i2⟩ := hid s0 hs0
        have hready := hf.des s0 (hsub.subset hs0) (by
          rw [i1]; intro he; injection he with he; injection he with he; exact i2 he)
        rw [e2]; exact hready.tres
      · obtain ⟨s0, hs0, hsx⟩ := d4.mem_right hx
        obtain ⟨sub, _, e2, _⟩ := segBytes_ok P E IO hsx
        rw [e2]; exact (d5 s0 hs0).tres

theorem readFile_written {f f' : NFile P.F IO.D} {out : Bytes} (r : WriteRun P E IO f f' out)
    (hf : FileReady P E IO f)
    (hd : ∀ k, ∀ s ∈ f'.segs k, HandlersReady P IO same k s)
    (hlen : out.length ≠ 999999999999) : ∃ g, LoadRun P E IO same r g := by
  have hf' : FileReadyBy P E IO (TresRead P E) f := hf.imp P E IO fun d areas S tres H h => by
    obtain ⟨vs, ser, h1, h2⟩ := id h
    refine ⟨⟨vs, h1⟩, fun n S' o hp des hdes => ?_⟩
    obtain ⟨us, u1, _⟩ := (ready_prepared P E H hf.reg h hp).2 des hdes
    exact ⟨us, u1⟩
  obtain ⟨g, L⟩ := readFile_any P E IO same r hf' hd hlen
  refine ⟨g, L.read, L.items, L.header, ?_, ⟨_, L.tres⟩, fun k => ?_⟩
  · obtain ⟨o, p1, p2⟩ := prepareHeader_ok P IO r.prepH
    obtain ⟨us, u1, u2⟩ := (ready_prepared P E fileHeader_areas hf.reg hf.tres p1).2
      (g.des.map (desData P IO)) (by
        intro b hb
        rcases p2 with ⟨ho, _⟩ | ⟨b', s, ho, hdes, _, hs, _⟩
        · rw [ho] at hb; cases hb
        · rw [ho] at hb; injection hb with hb; subst hb
          refine L.overflow _ s b' ?_ hs
          refine prefix_get r.desList.2.1 ?_
          rw [hdes]; simp)
    rw [L.tres] at u1
    injection u1 with u1
    rw [u1]
    exact u2
  · refine (L.segs k).imp ?_
    intro x hx s ⟨a1, a2, a3⟩
    have plain : k ≠ .image → k ≠ .text → LoadedSeg P E IO same k x s := by
      intro n1 n2
      obtain ⟨t1, t2⟩ := a3 n1 n2
      refine ⟨a1, ⟨a1.items, a1.user, a1.data, by rw [t1, t2]; exact ⟨[], List.Perm.refl _, .nil⟩⟩,
        ?_, fun _ => t2⟩
      rintro (h | h)
      · exact absurd h n1
      · exact absurd h n2
    have main : ∀ areas, k.areas = some areas → k ≠ .des → k ≠ .graphic →
        HeaderAreas k.desc areas (areaPositions k.desc areas) →
        (∀ s ∈ f.segs k, TresReady P E k.desc areas s.sub s.tres) →
        LoadedSeg P E IO same k x s := by
      intro areas hka hk hng H hr
      obtain ⟨s1, hs1, hsx⟩ := (r.each k).mem_right hx
      obtain ⟨s0, hs0, hp⟩ := (r.prepared P E IO hk).mem_right hs1
      obtain ⟨sub, e1, e2, _⟩ := segBytes_ok P E IO hsx
      have e3 := writeUser_other P hk e1
      obtain ⟨n, o, p1, p2⟩ := hp.prep areas hka
      have htr : x.1.tres = s0.tres := by rw [e2]; exact hp.tres
      have hsub : x.1.sub = s1.sub := by rw [e2]; exact e3
      obtain ⟨us, u1, u2⟩ := (ready_prepared P E H hf.reg (hr s0 hs0) p1).2
        (g.des.map (desData P IO)) (by
          intro b hb
          obtain ⟨y, y1, y2⟩ := p2 b hb
          exact L.overflow n y b y1 y2)
      have hrd := a2 areas hka hng
      rw [hsub, u1] at hrd
      injection hrd with hrd
      subst hrd
      refine ⟨a1, ⟨a1.items, a1.user, a1.data, by rw [htr]; exact u2⟩, ?_, fun h => absurd h hng⟩
      intro _ areas' hka'
      exact ⟨_, a2 areas' hka' hng⟩
    cases k with
    | image => exact main _ rfl (by decide) (by decide) imageHeader_areas fun s hs =>
        (hf.segs .image (by decide) s hs).tres
    | text => exact main _ rfl (by decide) (by decide) textHeader_areas fun s hs =>
        (hf.segs .text (by decide) s hs).tres
    | graphic => exact plain (by decide) (by decide)
    | des => exact plain (by decide) (by decide)
    | res => exact plain (by decide) (by decide)

/-- C26.  A file is written successfully; its contents are such that they can be read back
(`FileReady`), and the data handlers give back what they wrote (`HandlersReady`).  Then reading the
bytes gives a file with the same file level fields and TREs, and for each kind the same segments in
the same order; the DES list in addition ends with the overflow segments of the file.  (`f'` is the
object after writing; `C26_untouched_partial` relates it to `f`.)  Missing for the full claim:
graphic segments with TREs, user subheaders without registered class and of RES, TRE areas in other
states, for all of which it is false (see below and C23, C52). -/
theorem C26_round_trip_partial {f f' : NFile P.F IO.D} {out : Bytes}
    (h : writeFile P E IO f = .ok (f', out)) (hf : FileReady P E IO f)
    (hd : ∀ k, ∀ s ∈ f'.segs k, HandlersReady P IO same k s)
    (hlen : out.length ≠ 999999999999) :
    ∃ g, readFile P E IO out = .ok g ∧
      (∀ nm, itemsOf P Tables.t_file_header g.header nm =
        itemsOf P Tables.t_file_header f'.header nm) ∧
      SameTres P f.tres g.tres ∧
      (∀ k, k ≠ .des → Each (SameSeg P IO same k) (f'.segs k) (g.segs k)) ∧
      ∃ ds os, g.des = ds ++ os ∧ Each (SameSeg P IO same .des) f'.des ds ∧
        ∀ s ∈ os, (∃ b, s.data = .overflow b) ∧
          getAttr P Tables.t_des_subheader s.sub (n!"desid") [] =
            .ok (.str "TRE_OVERFLOW".toList) := by
  obtain ⟨r⟩ := writeFile_run P E IO h
  obtain ⟨g, L⟩ := readFile_written P E IO same r hf hd hlen
  obtain ⟨ov, ra, rb, d1, d2, d3, d4, d5, d6, d7⟩ := r.des_split P E IO
  have hds := L.segs .des
  rw [d2] at hds
  obtain ⟨da, db, dab, da1, db1⟩ := Each.split hds
  refine ⟨g, L.read, L.items, L.sameTres, ?_, da, db, dab, ?_, ?_⟩
  · intro k hk
    rw [r.after k hk]
    exact Each.map_left _ ((L.segs k).imp fun _ _ _ h => h.2.1)
  · rw [d6]
    exact Each.map_left _ (da1.imp fun _ _ _ h => h.2.1)
  · intro s hs
    obtain ⟨x, hx, hxs, _⟩ := db1.mem_right hs
    obtain ⟨s0, hs0, hsx⟩ := d4.mem_right hx
    obtain ⟨sub, _, e2, _⟩ := segBytes_ok P E IO hsx
    obtain ⟨b, hb⟩ := (d5 s0 hs0).data
    have hdat := hxs.data
    rw [show x.1.data = .overflow b by rw [e2]; exact hb] at hdat
    refine ⟨?_, ?_⟩
    · cases hsd : s.data with
      | overflow c => exact ⟨c, rfl⟩
      | other y => rw [hsd] at hdat; exact absurd hdat (by simp [SameData])
    · rw [← d7 x hx]
      exact getAttr_reach P (id_shapes .des _ (by simp)) hxs.reach

/-! ### What writing changes in the object -/

/-- The fields that writing updates: TRE areas, lengths and counts. -/
def bookFields : Option SegKind → List Name
  | none => fileAreas.flatMap (fun a => [a.len, a.ofl, a.data]) ++ [n!"fl", n!"hl"] ++
      SegKind.order.flatMap fun k => [k.numField, k.lenFields.1, k.lenFields.2]
  | some .des => [n!"desshl", n!"desshf"]
  | some .res => []
  | some .graphic => []
  | some k => (k.areas.getD []).flatMap fun a => [a.len, a.ofl, a.data]

/-- No cell of a field other than these was changed. -/
def Untouched (d : Desc) (names : List Name) (S S' : Store P.F) : Prop :=
  ∀ q key, (∀ nm ∈ names, resolve d.tab nm ≠ some q) → S' q key = S q key

/-- The segment is the same apart from these fields of its subheader. -/
structure SegUntouched (k : SegKind) (s s' : Seg P.F IO.D) : Prop where
  sub : Untouched P k.desc (bookFields (some k)) s.sub s'.sub
  user : s'.user = s.user
  tres : s'.tres = s.tres
  data : s'.data = s.data

/-- Positions of the areas are those of their fields. -/
theorem area_names {d : Desc} {areas : List Area} {ps : List AreaPos} (H : HeaderAreas d areas ps)
    {q : Nat} (hq : q ∈ ps.flatMap AreaPos.list) :
    ∃ nm ∈ areas.flatMap (fun a => [a.len, a.ofl, a.data]), resolve d.tab nm = some q := by
  obtain ⟨p, hp, hqp⟩ := List.mem_flatMap.mp hq
  obtain ⟨i, hi⟩ := List.getElem?_of_mem hp
  have hlt := lt_of_getElem? hi
  have hlt' : i < areas.length := by rw [H.at_.1]; exact hlt
  have ha := H.at_.2 i areas[i] p (List.getElem?_eq_getElem hlt') hi
  have hm : areas[i] ∈ areas := List.getElem_mem hlt'
  simp only [AreaPos.list, List.mem_cons, List.not_mem_nil, or_false] at hqp
  rcases hqp with rfl | rfl | rfl
  · exact ⟨_, List.mem_flatMap.mpr ⟨_, hm, by simp⟩, ha.rlen⟩
  · exact ⟨_, List.mem_flatMap.mpr ⟨_, hm, by simp⟩, ha.rofl⟩
  · exact ⟨_, List.mem_flatMap.mpr ⟨_, hm, by simp⟩, ha.rdata⟩

/-- The TRE areas of the header hold something. -/
def TresHold (d : Desc) (areas : List Area) (S : Store P.F) (_ : List (Tre P.F)) : Prop :=
  ∃ vs, HoldsAll P d S (areaPositions d areas) vs

theorem TresReady.holds {d : Desc} {areas : List Area} {S : Store P.F} {tres : List (Tre P.F)}
    (h : TresReady P E d areas S tres) : TresHold P d areas S tres := by
  obtain ⟨vs, _, h1, _⟩ := h
  exact ⟨vs, h1⟩

theorem prepare_untouched {d : Desc} {areas : List Area}
    (H : HeaderAreas d areas (areaPositions d areas)) {S S' : Store P.F} {tres : List (Tre P.F)}
    (hr : TresHold P d areas S tres) {n : Nat} {o : Option Bytes}
    (hp : prepareTreWrite P d areas n tres S = .ok (S', o)) :
    Untouched P d (areas.flatMap fun a => [a.len, a.ofl, a.data]) S S' := by
  obtain ⟨vs, h1⟩ := hr
  obtain ⟨_, _, _, _, _, _, _, _, hfr⟩ := prepare_ok P H h1 hp
  intro q key hq
  refine hfr q key ?_
  rintro ⟨hm, _⟩
  obtain ⟨nm, n1, n2⟩ := area_names H hm
  exact hq nm n1 n2

theorem Each.map_right {α β γ : Type} {R : α → β → Prop} (g : γ → β) {as : List α} {l : List γ}
    (h : Each (fun a x => R a (g x)) as l) : Each R as (l.map g) := by
  induction h with
  | nil => exact .nil
  | cons h _ ih => exact .cons h ih

theorem Each.trans {α β γ : Type} {R : α → β → Prop} {Q : β → γ → Prop} {as : List α}
    {bs : List β} {cs : List γ} (h : Each R as bs) (h' : Each Q bs cs) :
    Each (fun a c => ∃ b ∈ bs, R a b ∧ Q b c) as cs := by
  induction h generalizing cs with
  | nil => cases h'; exact .nil
  | @cons a as b bs h1 _ ih =>
    cases h' with
    | cons h2 h3 =>
      exact .cons ⟨b, by simp, h1, h2⟩ ((ih h3).imp fun a _ c ⟨b, hb, x⟩ => ⟨b, by simp [hb], x⟩)

/-- Positions of the header fields in `bookFields none`. -/
theorem book_header : resolve Tables.t_file_header.tab (n!"fl") = some flPos ∧
    resolve Tables.t_file_header.tab (n!"hl") = some hlPos ∧
    ∀ k : SegKind, resolve Tables.t_file_header.tab k.numField = some (numPos k) ∧
      resolve Tables.t_file_header.tab k.lenFields.1 = some (lenPos k) ∧
      resolve Tables.t_file_header.tab k.lenFields.2 = some (dataPos k) :=
  ⟨flField.res, hlField.res, fun k => ⟨(numField k).res, (lenField k).res, (dataField k).res⟩⟩

theorem file_untouched {f f' : NFile P.F IO.D} {out : Bytes}
    (h : writeFile P E IO f = .ok (f', out)) (hf : FileReadyBy P E IO (TresHold P) f) :
    Untouched P Tables.t_file_header (bookFields none) f.header f'.header ∧ f'.tres = f.tres ∧
    (∀ k, k ≠ .des → Each (SegUntouched P IO k) (f.segs k) (f'.segs k)) ∧
    ∃ ds, dropOverflow P IO f.des = .ok ds ∧ Each (SegUntouched P IO .des) ds f'.des := by
  obtain ⟨r⟩ := writeFile_run P E IO h
  obtain ⟨ov, ra, rb, d1, d2, d3, d4, d5, d6, d7⟩ := r.des_split P E IO
  refine ⟨?_, r.tres, ?_, r.des0, r.drop0, ?_⟩
  · intro q key hq
    have hmem : ∀ (k : SegKind), ∀ nm ∈ [k.numField, k.lenFields.1, k.lenFields.2],
        nm ∈ bookFields none := by
      intro k nm hnm
      refine List.mem_append_right _ (List.mem_flatMap.mpr ⟨k, ?_, hnm⟩)
      cases k <;> decide
    obtain ⟨b1, b2, b3⟩ := book_header
    have e1 : q ≠ flPos := fun he => hq (n!"fl") (by simp [bookFields]) (by rw [he]; exact b1)
    have e2 : q ≠ hlPos := fun he => hq (n!"hl") (by simp [bookFields]) (by rw [he]; exact b2)
    have e3 : ∀ k, q ≠ numPos k ∧ q ≠ lenPos k ∧ q ≠ dataPos k := fun k =>
      ⟨fun he => hq k.numField (hmem k _ (by simp)) (by rw [he]; exact (b3 k).1),
       fun he => hq k.lenFields.1 (hmem k _ (by simp)) (by rw [he]; exact (b3 k).2.1),
       fun he => hq k.lenFields.2 (hmem k _ (by simp)) (by rw [he]; exact (b3 k).2.2)⟩
    rw [r.others q key e1 e2 fun k => Or.inl (e3 k).2, nums_ok P r.nums]
    obtain ⟨o, p1, _⟩ := prepareHeader_ok P IO r.prepH
    rw [← prepare_untouched P fileHeader_areas hf.tres p1 q key fun nm hnm => hq nm (by
      unfold bookFields
      exact List.mem_append_left _ (List.mem_append_left _ hnm))]
    have n1 := (e3 .image).1
    have n2 := (e3 .graphic).1
    have n3 := (e3 .text).1
    have n4 := (e3 .des).1
    have n5 := (e3 .res).1
    simp only [numPos] at n1 n2 n3 n4 n5
    simp [Store.set, n1, n2, n3, n4, n5]
  · intro k hk
    rw [r.after k hk]
    refine Each.map_right _ (((r.prepared P E IO hk).trans (r.each k)).imp ?_)
    rintro s0 hs0 x ⟨s, _, hp, hsx⟩
    obtain ⟨sub, e1, e2, _⟩ := segBytes_ok P E IO hsx
    have e3 := writeUser_other P hk e1
    have hready := hf.segs k hk s0 hs0
    rw [e2, e3]
    refine ⟨?_, hp.user, hp.tres, hp.data⟩
    show Untouched P k.desc (bookFields (some k)) s0.sub s.sub
    cases k with
    | des => exact absurd rfl hk
    | res => rw [hp.noAreas rfl]; exact fun _ _ _ => rfl
    | image =>
      obtain ⟨n, o, p1, _⟩ := hp.prep _ rfl
      exact prepare_untouched P imageHeader_areas hready.tres p1
    | text =>
      obtain ⟨n, o, p1, _⟩ := hp.prep _ rfl
      exact prepare_untouched P textHeader_areas hready.tres p1
    | graphic =>
      obtain ⟨n, o, p1, _⟩ := hp.prep _ rfl
      rw [hready.tres.1] at p1
      rw [prepare_graphic_none P hready.tres.2 p1]
      exact fun _ _ _ => rfl
  · rw [d6]
    refine Each.map_right _ (d3.imp ?_)
    intro s hs x hsx
    obtain ⟨sub, e1, e2, _⟩ := segBytes_ok P E IO hsx
    obtain ⟨b, _, e3⟩ := writeUser_des P e1
    rw [e2]
    refine ⟨?_, rfl, rfl, rfl⟩
    intro q key hq
    have h22 : q ≠ 22 := fun he => hq (n!"desshf") (by simp [bookFields]) (by
      rw [he]; exact desshf_rows.1)
    have h21 : q ≠ 21 := fun he => hq (n!"desshl") (by simp [bookFields]) (by
      rw [he]; exact (desRow_of desid_row.2.2.2.2).1)
    show sub q key = s.sub q key
    rw [e3]
    simp [Store.set, h21, h22]

/-- C26, the object written: writing only touches the TRE areas, lengths and counts; user
subheaders, data and TRE lists stay; the DES list loses the overflow segments it had.  (So together
with `C26_round_trip_partial` what is read back is what was in the object before.) -/
theorem C26_untouched_partial {f f' : NFile P.F IO.D} {out : Bytes}
    (h : writeFile P E IO f = .ok (f', out)) (hf : FileReady P E IO f) :
    Untouched P Tables.t_file_header (bookFields none) f.header f'.header ∧ f'.tres = f.tres ∧
    (∀ k, k ≠ .des → Each (SegUntouched P IO k) (f.segs k) (f'.segs k)) ∧
    ∃ ds, dropOverflow P IO f.des = .ok ds ∧ Each (SegUntouched P IO .des) ds f'.des :=
  file_untouched P E IO h (hf.imp P E IO fun _ _ _ _ _ h => h.holds P E)

/-! ### A concrete case -/

theorem exFile_ready : FileReady P0 exEnv exIO exFile where
  reg := by intro t ht; cases ht
  header := NoLit.empty
  tres := by
    refine ⟨_, [asc "ABCDEF00002" ++ [1, 2]], fileHeader_fresh P0, by decide +kernel,
      by decide +kernel, Reusable.fresh (by simp), ?_⟩
    intro t ht
    simp only [exFile, List.mem_cons, List.not_mem_nil, or_false] at ht
    subst ht
    exact ⟨⟨by decide, by decide, by decide⟩, rfl⟩
  linked := by
    intro k s hs
    cases k <;> simp [exFile, NFile.segs] at hs <;> subst hs <;> rfl
  segs := by
    intro k hk s hs
    cases k <;> simp [exFile, NFile.segs] at hs
    · subst hs
      exact ⟨NoLit.empty, rfl, _, [], textHeader_fresh P0, rfl, by simp, Reusable.fresh (by simp),
        by simp⟩
    · exact absurd rfl hk
  des := by
    intro s hs _
    simp only [exFile, List.mem_cons, List.not_mem_nil, or_false] at hs
    subst hs
    exact ⟨NoLit.empty, (by intro d U h; cases h), rfl⟩

theorem exIO_ready (k : SegKind) (s : Seg P0.F exIO.D) (h : ∃ x, s.data = .other x) :
    HandlersReady P0 exIO Eq k s := by
  obtain ⟨x, hx⟩ := h
  refine ⟨x, hx, ?_⟩
  intro b hb R _ rest
  refine ⟨x, ?_, rfl⟩
  have : x = b := by
    have : (Except.ok x : Except Err Bytes) = .ok b := hb
    injection this
  subst this
  have key : ∀ y : Bytes, fhRead (y.length : Nat) (y ++ rest) = (y, rest) := by
    intro y
    have hz : ¬ ((List.length y : Nat) : Int) < 0 := by omega
    simp [fhRead, hz]
  exact congrArg Except.ok (key x)

/-- All hypotheses of `C26_round_trip_partial` and `C26_untouched_partial` hold for the file of
`Verif/Props/File.lean`. -/
example : ∃ f' out g, writeFile P0 exEnv exIO exFile = .ok (f', out) ∧
    readFile P0 exEnv exIO out = .ok g ∧ SameTres P0 exFile.tres g.tres ∧
    Each (SameSeg P0 exIO Eq .text) f'.text g.text := by
  cases h : writeFile P0 exEnv exIO exFile with
  | error e =>
    have : (writeFile P0 exEnv exIO exFile).toOption.map (·.2.length) = some 913 := by
      decide +kernel
    rw [h] at this
    cases this
  | ok r =>
    obtain ⟨f', out⟩ := r
    have hl : (writeFile P0 exEnv exIO exFile).toOption.map (·.2.length) = some 913 := by
      decide +kernel
    rw [h] at hl
    have hl : out.length = 913 := by simpa [Except.toOption] using hl
    obtain ⟨_, _, u3, ds, u4, u5⟩ := C26_untouched_partial P0 exEnv exIO h exFile_ready
    obtain ⟨g, g1, _, g3, g4, _⟩ := C26_round_trip_partial P0 exEnv exIO Eq h exFile_ready (by
      intro k s hs
      refine exIO_ready k s ?_
      by_cases hk : k = .des
      · subst hk
        obtain ⟨s0, h0, h1⟩ := u5.mem_right hs
        have := (dropOverflow_ok P0 exIO u4).1.subset h0
        simp only [exFile, List.mem_cons, List.not_mem_nil, or_false] at this
        exact ⟨[7, 8, 9], by rw [h1.data, this]⟩
      · obtain ⟨s0, h0, h1⟩ := (u3 k hk).mem_right hs
        cases k <;> simp [exFile, NFile.segs] at h0
        · exact ⟨asc "hi", by rw [h1.data, h0]⟩
        · exact absurd rfl hk) (by omega)
    exact ⟨f', out, g, rfl, g1, g3, g4 .text (by decide)⟩

/-! ### Where the full claim fails -/

/-- A file with one DES segment whose user subheader (three bytes) is of no registered kind, as it
is after reading such a file. -/
def exUserFile : NFile P0.F exIO.D :=
  { header := Store.empty, tres := []
    des := [{ linked := true
              sub := (Store.empty.set 21 [] ⟨.val (.int 3), none⟩).set 22 [] ⟨.val (.bytes [65, 66, 67]), none⟩
              data := .other [7] }] }

/-- A file with one RES segment having a user subheader. -/
def exResFile : NFile P0.F exIO.D :=
  { header := Store.empty, tres := []
    res := [{ linked := true, sub := Store.empty, user := some (Tables.t_text_subheader, Store.empty)
              data := .other [7] }] }

/-- Negation of C26 for user subheaders without a registered class: the file is written without
complaint, and its user subheader is gone. -/
theorem C26_user_lost :
    (exUserFile.des.map fun s => getAttr P0 Tables.t_des_subheader s.sub (n!"desshl") []) =
      [.ok (.int 3)] ∧
    ((writeFile P0 exEnv exIO exUserFile).bind fun r =>
      (readFile P0 exEnv exIO r.2).map fun g =>
        g.des.map fun s => getAttr P0 Tables.t_des_subheader s.sub (n!"desshl") []) =
      .ok [.ok (.int 0)] := by
  decide +kernel

/-- Negation of C26 for user subheaders of RES segments: the file is written without complaint,
and its user subheader is gone. -/
theorem C26_res_user_lost :
    ((writeFile P0 exEnv exIO exResFile).bind fun r =>
      (readFile P0 exEnv exIO r.2).map fun g =>
        g.res.map fun s => (s.user.isSome,
          getAttr P0 Tables.t_res_subheader s.sub (n!"resshl") [])) =
      .ok [(false, .ok (.int 0))] := by
  decide +kernel

end Verif
