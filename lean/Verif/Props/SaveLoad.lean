import Verif.SaveLoad

/- C67: saving a file that was loaded. -/

namespace Verif

variable (P : PyFloat) (E : Env) (IO : DataIO P.F) (same : IO.D → IO.D → Prop)

/-! ### Specification -/

/-- Every value of the file was set as a value: neither the TREs nor the user subheaders hold
bytes stored as a literal (`FileReady` says this for the headers). -/
structure NoLiterals (f : NFile P.F IO.D) : Prop where
  tres : ∀ t ∈ f.tres, t.NoLit
  segs : ∀ k, ∀ s ∈ f.segs k, ∀ t ∈ s.tres, t.NoLit
  user : ∀ s ∈ f.des, ∀ d U, s.user = some (d, U) → NoLit U

/-- No segment of the file holds TREs that did not fit into a header. -/
def NoOverflow (f : NFile P.F IO.D) : Prop :=
  ∀ s ∈ f.des, getAttr P Tables.t_des_subheader s.sub (n!"desid") [] ≠
    .ok (.str "TRE_OVERFLOW".toList)

/-! ### Proof -/

theorem header_settled {f f' g : NFile P.F IO.D} {out : Bytes} {r : WriteRun P E IO f f' out}
    (L : LoadRun P E IO same r g) (hf : FileReady P E IO f) (hn : ∀ t ∈ f.tres, t.NoLit)
    (hov : r.segs1 .des = r.des0) :
    PrepSettled Tables.t_file_header fileAreas g.tres g.header := by
  obtain ⟨o, p1, p2⟩ := prepareHeader_ok P IO r.prepH
  have ho : o = none := by
    rcases p2 with h | ⟨b, s, _, h, _⟩
    · exact h.1
    · have := r.desList.2.1.length_le
      rw [h, hov, List.length_append] at this
      simp only [List.length_cons, List.length_nil] at this
      omega
  subst ho
  obtain ⟨heads, e1, e2⟩ := again_prepared E fileHeader_areas hf.reg hf.tres hn p1
  obtain ⟨dd, hdd⟩ := L.tres
  obtain ⟨ser, s1, s2⟩ := e1 dd _ hdd
  intro n
  refine prepareTreWrite_settled t_file_header_causal fileAreas_rows s1 s2 ?_ n
  refine held_all fileHeader_areas fileAreas_rows r.chunks' L.header (e2.imp ?_)
  rintro p hp h ⟨v, v1, v2, v3⟩
  refine ⟨v, v1.congr ?_, v2, v3⟩
  intro q hq
  have hq' : q ∉ [flPos, hlPos, 31, 34, 38, 41, 44] := by
    have : ((areaPositions Tables.t_file_header fileAreas).flatMap AreaPos.list).all
        (fun q => decide (q ∉ [flPos, hlPos, 31, 34, 38, 41, 44])) = true := by decide +kernel
    exact of_decide_eq_true (List.all_eq_true.mp this q (List.mem_flatMap.mpr ⟨p, hp, hq⟩))
  simp only [List.mem_cons, List.not_mem_nil, or_false, not_or] at hq'
  rw [r.others q [] hq'.1 hq'.2.1 fun k => Or.inr (by simp), nums_ok P r.nums]
  simp [Store.set, hq'.2.2]

theorem seg_settled {f f' : NFile P.F IO.D} {out : Bytes} {r : WriteRun P E IO f f' out}
    (hf : FileReady P E IO f) (hn : NoLiterals P IO f)
    (hsame : ∀ x y, same x y → IO.write y = IO.write x)
    (hov : r.segs1 .des = r.des0)
    (hd : ∀ s ∈ r.segs1 .des, ∀ b, s.data ≠ .overflow b)
    (k : SegKind) {x : Seg P.F IO.D × Bytes × Bytes} (hx : x ∈ r.res k) {s : Seg P.F IO.D}
    (hs : LoadedSeg P E IO same k x s) : SegSettled E IO k s x.2 := by
  obtain ⟨s1, hs1, hsx⟩ := (r.each k).mem_right hx
  obtain ⟨h1, h2, h3, h4⟩ := hs
  obtain ⟨sub, q1, q2, _⟩ := segBytes_ok P E IO hsx
  refine ⟨?_, ?_⟩
  · intro areas hka
    have hk : k ≠ .des := by rintro rfl; cases hka
    obtain ⟨s0, hs0, hp⟩ := (r.prepared P E IO hk).mem_right hs1
    have hready := hf.segs k hk s0 hs0
    obtain ⟨n0, o, p1, p2⟩ := hp.prep areas hka
    have ho : o = none := by
      cases o with
      | none => rfl
      | some b =>
        obtain ⟨y, y1, y2⟩ := p2 b rfl
        exact absurd y2 (hd y (List.mem_of_getElem? y1) b)
    subst ho
    have hsub : x.1.sub = s1.sub := by
      rw [q2]; exact writeUser_other P hk q1
    obtain ⟨cs, c1, _, hL⟩ := h1.loaded
    rw [hsub] at c1 hL
    have common : ∀ (H : HeaderAreas k.desc areas (areaPositions k.desc areas)),
        TresReady P E k.desc areas s0.sub s0.tres → (k = .image ∨ k = .text) →
        PrepSettled k.desc areas s.tres s.sub := by
      intro H ht hkk
      obtain ⟨heads, e1, e2⟩ := again_prepared E H hf.reg ht (hn.segs k s0 hs0) p1
      obtain ⟨dd, hdd⟩ := h3 hkk areas hka
      rw [hsub] at hdd
      obtain ⟨ser, t1, t2⟩ := e1 dd _ hdd
      intro n
      exact prepareTreWrite_settled H.causal (segAreas_rows hka) t1 t2
        (held_all H (segAreas_rows hka) c1 hL e2) n
    have ht := hready.tres
    cases k with
    | image =>
      injection hka with hka; subst hka
      exact common imageHeader_areas ht (.inl rfl)
    | text =>
      injection hka with hka; subst hka
      exact common textHeader_areas ht (.inr rfl)
    | graphic =>
      injection hka with hka; subst hka
      rw [ht.1] at p1
      have := prepare_graphic_none P ht.2 p1
      rw [h4 rfl]
      have hz : getAttr P Tables.t_graphic_subheader s.sub (n!"sxshdl") [] = .ok (.int 0) := by
        rw [← ht.2, ← this, ← hsub]
        refine getAttr_reach P ?_ h1.reach
        intro n fi hr hfi
        have hb : (match resolve Tables.t_graphic_subheader.tab (n!"sxshdl") with
          | none => true
          | some n => match Tables.t_graphic_subheader.tab[n]? with
            | none => true
            | some fi => fi.shapes.isEmpty) = true := by decide +kernel
        rw [show resolve Tables.t_graphic_subheader.tab (n!"sxshdl") = some n from hr] at hb
        simp only [show Tables.t_graphic_subheader.tab[n]? = some fi from hfi] at hb
        simpa using hb
      intro n
      refine ⟨s.sub, ?_, .refl _ _⟩
      show prepareTreWrite P Tables.t_graphic_subheader graphicAreas n [] s.sub = _
      unfold prepareTreWrite treWriteAll graphicAreas
      simp [List.map_cons, List.map_nil, place, storeAreas, attrPos, hz, asInt, Except.map]
    | des => cases hka
    | res => cases hka
  · refine segBytes_loaded E IO hsame hsx h1 ?_
    intro d U hu
    rw [q2] at hu
    by_cases hk : k = .des
    · subst hk
      rw [hov] at hs1
      exact hn.user s1 ((dropOverflow_ok P IO r.drop0).1.subset hs1) d U hu
    · obtain ⟨s0, hs0, hp⟩ := (r.prepared P E IO hk).mem_right hs1
      have hr := (hf.segs k hk s0 hs0).user
      simp only [hp.user] at hu
      cases k with
      | des => exact absurd rfl hk
      | res =>
        simp only [UserReady] at hr
        rw [hr.1] at hu
        cases hu
      | _ => simp only [UserReady] at hr; rw [hr] at hu; cases hu

theorem load_noOverflow {f f' g : NFile P.F IO.D} {out : Bytes} {r : WriteRun P E IO f f' out}
    (L : LoadRun P E IO same r g) (hg : NoOverflow P IO g) :
    r.segs1 .des = r.des0 ∧ f'.des = (r.res .des).map (·.1) := by
  obtain ⟨ov, ra, rb, d1, d2, d3, d4, d5, d6, d7⟩ := r.des_split P E IO
  have hrb : rb = [] := by
    cases rb with
    | nil => rfl
    | cons x rb =>
      exfalso
      have hx : x ∈ r.res .des := by rw [d2]; simp
      obtain ⟨t, ht, hxt⟩ := (L.segs .des).mem_left hx
      refine hg t ht ?_
      rw [← d7 x (by simp)]
      exact getAttr_reach P (id_shapes .des _ (by simp)) hxt.1.reach
  subst hrb
  cases d4
  rw [List.append_nil] at d1 d2
  exact ⟨d1, by rw [d6, d2]⟩

theorem load_hasInt {f f' g : NFile P.F IO.D} {out : Bytes} {r : WriteRun P E IO f f' out}
    (L : LoadRun P E IO same r g) {n : Nat} {key : Key} {z : Int}
    (hch : ∃ ch ∈ r.cs', ch.pos = n ∧ ch.key = key)
    (hp : ∃ fi, Tables.t_file_header.tab[n]? = some fi ∧ plainInt fi = true)
    (hz : f'.header n key = some ⟨.val (.int z), none⟩) : HeaderInt g.header n key z := by
  obtain ⟨fi, h1, h2⟩ := hp
  obtain ⟨p1, p2, p3, p4, p5, p6⟩ := plainInt_spec h2
  intro fi' hfi
  rw [h1] at hfi; injection hfi with hfi; subst hfi
  refine L.header.int hch h1 p1 p2 p5 ?_
  unfold stored
  rw [hz]
  exact finish_int P p5 z

/-! ### C67 -/

/-- **C67, partial.**  Loading a file that the library wrote and saving it again, without any change,
gives the same bytes, and the loaded object is left as it is.  This holds for every file that can be
written and read back (the conditions of C26), whose TREs and user subheaders hold no literal bytes,
when the handlers write data that was read as the bytes it came from, and when all TREs fit into
their headers.

Missing from the full claim: the last condition; see `C67_overflow_swaps`. -/
theorem C67_load_save_partial {f f' : NFile P.F IO.D} {out : Bytes}
    (h : writeFile P E IO f = .ok (f', out)) (hf : FileReady P E IO f) (hn : NoLiterals P IO f)
    (hd : ∀ k, ∀ s ∈ f'.segs k, HandlersReady P IO same k s)
    (hsame : ∀ x y, same x y → IO.write y = IO.write x)
    (hlen : out.length ≠ 999999999999) :
    ∃ g, readFile P E IO out = .ok g ∧ (NoOverflow P IO g →
      ∃ g', writeFile P E IO g = .ok (g', out) ∧ FileEqv P IO g g') := by
  obtain ⟨r⟩ := writeFile_run P E IO h
  obtain ⟨g, L⟩ := readFile_written P E IO same r hf hd hlen
  refine ⟨g, L.read, fun hg => ?_⟩
  obtain ⟨hov, hdes⟩ := load_noOverflow P E IO same L hg
  have hnod : ∀ s ∈ r.segs1 .des, ∀ b, s.data ≠ .overflow b := by
    intro s hs b hb
    obtain ⟨x, hx, hsx⟩ := (r.each .des).mem_left hs
    obtain ⟨sub, _, q2, _⟩ := segBytes_ok P E IO hsx
    obtain ⟨y, y1, _⟩ := hd .des x.1 (by
      show x.1 ∈ f'.des
      rw [hdes]; exact List.mem_map.mpr ⟨x, hx, rfl⟩)
    rw [q2] at y1
    simp only [hb] at y1
    cases y1
  have hloc : ∀ {n key}, (∃ o, locOf n key 0 r.cs = some o) → ∃ o, locOf n key 0 r.cs' = some o := by
    intro n key h
    rwa [locOf_slots 0 r.slots]
  have hch : ∀ {n key}, (∃ o, locOf n key 0 r.cs' = some o) →
      ∃ ch ∈ r.cs', ch.pos = n ∧ ch.key = key := fun ⟨_, h⟩ => locOf_some h
  have hlinked := r.linked P E IO hf.linked
  have hout := r.out_eq
  rw [hout]
  refine writeFile_settled E IO (cs := r.cs') (parts := fun k => (r.res k).map (·.2)) ?_
    (header_settled P E IO same L hf hn.tres hov) L.header.again ?_ ?_ ?_ ?_ (hloc r.locHl)
    (hloc r.locFl) ?_
  · have := dropOverflow_all P IO (a := g.des) (b := []) ?_ (by simp)
    · rwa [List.append_nil] at this
    · intro t ht
      obtain ⟨x, hx, hxt⟩ := (L.segs .des).mem_right ht
      obtain ⟨s, hs, hsx⟩ := (r.each .des).mem_right hx
      rw [hov] at hs
      obtain ⟨id, i1, i2⟩ := (dropOverflow_ok P IO r.drop0).2 s hs
      refine ⟨id, ?_, i2⟩
      rw [← i1, ← segBytes_desid P E IO hsx]
      exact getAttr_reach P (id_shapes .des _ (by simp)) hxt.1.reach
  · intro k
    have hE := (L.segs k).imp fun x hx s hs =>
      seg_settled P E IO same hf hn hsame hov hnod k hx hs
    have flip : ∀ {xs : List (Seg P.F IO.D × Bytes × Bytes)} {ss : List (Seg P.F IO.D)},
        Each (fun x s => SegSettled E IO k s x.2) xs ss →
        Each (SegSettled E IO k) ss (xs.map (·.2)) := by
      intro xs ss h
      induction h with
      | nil => exact .nil
      | cons h1 _ ih => exact .cons h1 ih
    exact flip hE
  · intro k
    rw [← (L.segs k).length]
    obtain ⟨fi, f1, f2, f3⟩ := (numField k).at_
    obtain ⟨p1, p2, p3, p4, p5, p6⟩ := plainInt_spec f2
    exact load_hasInt P E IO same L
      (chunk_scalar t_file_header_causal r.chunks' f1 f3 (evalCond_none P p6 _ _))
      ⟨fi, f1, f2⟩ (r.count P E IO k)
  · obtain ⟨fi, f1, f2, _⟩ := hlField.at_
    exact load_hasInt P E IO same L (hch (hloc r.locHl)) ⟨fi, f1, f2⟩ r.hl
  · obtain ⟨fi, f1, f2, _⟩ := flField.at_
    rw [← hout]
    exact load_hasInt P E IO same L (hch (hloc r.locFl)) ⟨fi, f1, f2⟩ r.fl
  · intro k j p hp
    rw [List.getElem?_map] at hp
    cases hx : (r.res k)[j]? with
    | none => rw [hx] at hp; cases hp
    | some x =>
      rw [hx] at hp
      injection hp with hp
      subst hp
      have hlt : j < (r.segs1 k).length := by rw [(r.each k).length]; exact lt_of_getElem? hx
      have hs := List.getElem?_eq_getElem hlt
      have hl' := hlinked k _ (List.getElem_mem hlt)
      obtain ⟨l1, l2⟩ := r.locs k j _ hs hl'
      obtain ⟨l3, l4⟩ := r.lens k j _ x hs hx hl'
      obtain ⟨fl, a1, a2, _⟩ := (lenField k).at_
      obtain ⟨fd, b1, b2, _⟩ := (dataField k).at_
      exact ⟨⟨hloc l1, hloc l2⟩,
        load_hasInt P E IO same L (hch (hloc l1)) ⟨fl, a1, a2⟩ l3,
        load_hasInt P E IO same L (hch (hloc l2)) ⟨fd, b1, b2⟩ l4⟩

/-! ### Where the full claim fails -/

/-- Negation of the full claim: two TREs that do not fit together into the area of a text subheader.
The first is stored in the subheader and the second in an overflow segment; they are read back in the
other order; so when they are saved the second is stored in the subheader and the first in the
overflow segment. -/
theorem C67_overflow_swaps {reg : Registry} (hreg : reg.Causal) {s t : Tre P.F} {a b : Bytes}
    (hs : Representable P reg s) (ht : Representable P reg t) (ns : s.NoLit) (nt : t.NoLit)
    (ha : treWrite P s = .ok a) (hb : treWrite P t = .ok b)
    (la : a.length < 99996) (lb : b.length < 99996) (lab : ¬ a.length + b.length < 99996) :
    ∃ S1 us S2,
      prepareTreWrite P Tables.t_text_subheader textAreas 0 [s, t] Store.empty = .ok (S1, some b) ∧
      getAttr P Tables.t_text_subheader S1 (n!"txshd") [] = .ok (.bytes a) ∧
      readTre P reg Tables.t_text_subheader [.ok b] textAreas S1 = .ok us ∧
      prepareTreWrite P Tables.t_text_subheader textAreas 0 us S1 = .ok (S2, some a) ∧
      getAttr P Tables.t_text_subheader S2 (n!"txshd") [] = .ok (.bytes b) := by
  have hra := rewritable_of hs ns ha
  have hrb := rewritable_of ht nt hb
  have na := hra.ne_nil
  have nb := hrb.ne_nil
  have pl : ∀ {x y : Bytes}, x ≠ [] → x.length < 99996 → ¬ x.length + y.length < 99996 →
      place [x, y] (textAreas.map fun _ => []) [] = ([x], y) := by
    intro x y _ h1 h2
    simp [textAreas, place, placeOne, h1, h2]
  have w1 : treWriteAll P [s, t] = .ok [a, b] := by simp only [treWriteAll, ha, hb]
  obtain ⟨S1, p1, p2, _⟩ := prepare_spec P textHeader_areas (textHeader_fresh P) 0 w1 (pl na la lab)
    (by
      intro _ v hv
      simp only [List.zipWith_cons_cons, List.head?_cons, Option.mem_def, Option.some.injEq] at hv
      subst hv
      simp only [AreaVal.store, if_neg na]
      omega)
  rw [if_neg nb] at p1
  simp only [afterPrepare, List.zipWith_cons_cons, List.zipWith_nil_left, AreaVal.store, if_neg na,
    if_neg nb] at p2
  have hB : BlobsOf [.ok b] [(⟨(a.length : Int) + 3, ((0 : Nat) : Int) + 1, a⟩ : AreaVal)]
      [[b, a]] := by
    refine .cons ?_ .nil
    unfold AreaVal.blobs
    have : (a.length : Int) + 3 > 0 := by omega
    simp [this]
  obtain ⟨ub, b1, b2⟩ := rewritable_area (P := P) hreg (g := [b]) (by simpa using hrb)
  obtain ⟨ua, a1, a2⟩ := rewritable_area (P := P) hreg (g := [a]) (by simpa using hra)
  simp only [List.flatten_cons, List.flatten_nil, List.append_nil] at a1 b1
  have hread : readTre P reg Tables.t_text_subheader [.ok b] textAreas S1 = .ok (ub ++ ua) := by
    rw [readTre_holds P textHeader_areas p2 reg hB]
    simp only [List.flatten_cons, List.flatten_nil, List.append_nil, parseBlobs, b1, a1]
  obtain ⟨S2, q1, q2, _⟩ := prepare_spec P textHeader_areas p2 0 (treWriteAll_append b2 a2)
    (pl nb lb (by omega)) (by
      intro _ v hv
      simp only [List.zipWith_cons_cons, List.head?_cons, Option.mem_def, Option.some.injEq] at hv
      subst hv
      simp only [AreaVal.store, if_neg nb]
      omega)
  rw [if_neg na] at q1
  simp only [afterPrepare, List.zipWith_cons_cons, List.zipWith_nil_left, AreaVal.store, if_neg na,
    if_neg nb] at q2
  have hget : ∀ {S : Store P.F} {v : AreaVal}, HoldsAll P Tables.t_text_subheader S
      (areaPositions Tables.t_text_subheader textAreas) [v] →
      getAttr P Tables.t_text_subheader S (n!"txshd") [] = .ok (.bytes v.data) := by
    intro S v hv
    have hat := textHeader_areas.at_
    generalize areaPositions Tables.t_text_subheader textAreas = ps at hv hat
    cases hv with
    | cons h1 _ => exact (hat.2 0 _ _ rfl rfl).getData h1
  exact ⟨S1, _, S2, p1, hget p2, hread, q1, hget q2⟩

/-- A case of `C67_overflow_swaps`. -/
example : ∃ a b S1 us S2, a ≠ b ∧
    prepareTreWrite P0 Tables.t_text_subheader textAreas 0 exBig Store.empty = .ok (S1, some b) ∧
    getAttr P0 Tables.t_text_subheader S1 (n!"txshd") [] = .ok (.bytes a) ∧
    readTre P0 [] Tables.t_text_subheader [.ok b] textAreas S1 = .ok us ∧
    prepareTreWrite P0 Tables.t_text_subheader textAreas 0 us S1 = .ok (S2, some a) ∧
    getAttr P0 Tables.t_text_subheader S2 (n!"txshd") [] = .ok (.bytes b) := by
  have hw : ∀ (tag : Str) (x : UInt8), TagOk tag →
      ∃ b, treWrite P0 (.unknown tag (List.replicate 60000 x) : Tre P0.F) = .ok b ∧
        b.length = 60011 ∧ b.drop 11 = List.replicate 60000 x := by
    intro tag x htag
    obtain ⟨b, hb⟩ := (C19_too_long P0 (t := .unknown tag (List.replicate 60000 x))
      (body := List.replicate 60000 x) rfl).2 (by rw [List.length_replicate]; omega)
    obtain ⟨body', c1, c2, _, _, _, c6⟩ :=
      C19_format P0 (t := .unknown tag (List.replicate 60000 x)) htag hb
    have c1 : (Except.ok (List.replicate 60000 x) : Except Err Bytes) = .ok body' := c1
    injection c1 with c1
    refine ⟨b, hb, ?_, ?_⟩
    · rw [c2, ← c1, List.length_replicate]
    · rw [c6, ← c1]
  have t1 : TagOk "BIGTRA".toList := ⟨by decide, by decide, by decide⟩
  have t2 : TagOk "BIGTRB".toList := ⟨by decide, by decide, by decide⟩
  obtain ⟨a, a1, a2, a3⟩ := hw _ 1 t1
  obtain ⟨b, b1, b2, b3⟩ := hw _ 2 t2
  obtain ⟨S1, us, S2, h⟩ := C67_overflow_swaps P0 (reg := [])
    (s := .unknown "BIGTRA".toList (List.replicate 60000 1))
    (t := .unknown "BIGTRB".toList (List.replicate 60000 2)) (by intro e he; cases he)
    ⟨t1, rfl⟩ ⟨t2, rfl⟩ trivial trivial a1 b1 (by omega) (by omega) (by omega)
  refine ⟨a, b, S1, us, S2, ?_, h⟩
  intro hab
  rw [hab, b3] at a3
  have h0 : (List.replicate 60000 (2 : UInt8))[0]? = (List.replicate 60000 (1 : UInt8))[0]? := by
    rw [a3]
  rw [List.getElem?_replicate, List.getElem?_replicate] at h0
  simp at h0

theorem exFile_noLiterals : NoLiterals P0 exIO exFile where
  tres := by
    intro t ht
    simp only [exFile, List.mem_cons, List.not_mem_nil, or_false] at ht
    subst ht
    trivial
  segs := by
    intro k s hs t ht
    cases k <;> simp [exFile, NFile.segs] at hs <;> subst hs <;> simp at ht
  user := by
    intro s hs d U hu
    simp only [exFile, List.mem_cons, List.not_mem_nil, or_false] at hs
    subst hs
    cases hu

/-- All hypotheses of `C67_load_save_partial` hold for the file of `Verif/Props/File.lean`. -/
example : ∃ f' out g g', writeFile P0 exEnv exIO exFile = .ok (f', out) ∧
    readFile P0 exEnv exIO out = .ok g ∧ writeFile P0 exEnv exIO g = .ok (g', out) := by
  cases h : writeFile P0 exEnv exIO exFile with
  | error e =>
    have : (writeFile P0 exEnv exIO exFile).toOption.map (·.2.length) = some 913 := by
      decide +kernel
    rw [h] at this
    cases this
  | ok r =>
    obtain ⟨f', out⟩ := r
    have hl : (writeFile P0 exEnv exIO exFile).toOption.map (·.2.length) = some 913 := by
      decide +kernel
    rw [h] at hl
    have hl : out.length = 913 := by simpa [Except.toOption] using hl
    obtain ⟨_, _, u3, ds, u4, u5⟩ := C26_untouched_partial P0 exEnv exIO h exFile_ready
    obtain ⟨g, g1, g2⟩ := C67_load_save_partial P0 exEnv exIO Eq h exFile_ready exFile_noLiterals (by
      intro k s hs
      refine exIO_ready k s ?_
      by_cases hk : k = .des
      · subst hk
        obtain ⟨s0, h0, h1⟩ := u5.mem_right hs
        have := (dropOverflow_ok P0 exIO u4).1.subset h0
        simp only [exFile, List.mem_cons, List.not_mem_nil, or_false] at this
        exact ⟨[7, 8, 9], by rw [h1.data, this]⟩
      · obtain ⟨s0, h0, h1⟩ := (u3 k hk).mem_right hs
        cases k <;> simp [exFile, NFile.segs] at h0
        · exact ⟨asc "hi", by rw [h1.data, h0]⟩
        · exact absurd rfl hk) (fun x y e => by rw [e]) (by omega)
    have hno : ((writeFile P0 exEnv exIO exFile).bind fun r =>
        (readFile P0 exEnv exIO r.2).map fun g => g.des.all fun s =>
          match getAttr P0 Tables.t_des_subheader s.sub (n!"desid") [] with
          | .ok (.str id) => id != "TRE_OVERFLOW".toList
          | _ => true).toOption = some true := by decide +kernel
    rw [h] at hno
    have hno : ((readFile P0 exEnv exIO out).map fun g => g.des.all fun s =>
          match getAttr P0 Tables.t_des_subheader s.sub (n!"desid") [] with
          | .ok (.str id) => id != "TRE_OVERFLOW".toList
          | _ => true).toOption = some true := hno
    rw [g1] at hno
    obtain ⟨g', g3, _⟩ := g2 (by
      intro s hs hid
      have hno := List.all_eq_true.mp (Option.some.inj hno) s hs
      rw [hid] at hno
      simp at hno)
    exact ⟨f', out, g, g', rfl, g1, g3⟩

end Verif
