import Verif.AttemptRetry

/- A file left by an attempt to write it is written as if there had been no attempt. -/

namespace Verif.Attempt

open Verif

variable {P : PyFloat} {E : Env} {IO : DataIO P.F}

/-! ### Runs -/

theorem run_prepared {f f' : NFile P.F IO.D} {out : Bytes} (r : WriteRun P E IO f f' out) :
    prepareFile P IO f = .ok (r.h1, r.segs1) := by
  unfold prepareFile
  simp only [r.drop0, r.prepH, r.prepI, r.prepG, r.prepT, r.nums, bind, Except.bind, pure,
    Except.pure]
  congr 2
  funext k
  cases k <;> first | rfl | exact r.segsR.symm

theorem run_fits {f f' : NFile P.F IO.D} {out : Bytes} (r : WriteRun P E IO f f' out) :
    AllFits P E IO r.h1 r.segs1 r.cs r.res := by
  have hpres : ∀ n key, (∃ o, locOf n key 0 r.cs = some o) →
      ∃ ch ∈ r.cs', ch.pos = n ∧ ch.key = key := by
    rintro n key ⟨o, ho⟩
    rw [← locOf_slots 0 r.slots] at ho
    exact locOf_some ho
  refine ⟨r.chunks, r.each, ?_, ?_, ?_⟩
  · intro k i s x hs hx hl
    obtain ⟨l1, l2⟩ := r.locs k i s hs hl
    obtain ⟨v1, v2⟩ := r.lens k i s x hs hx hl
    obtain ⟨f1, z1⟩ := len_sized k
    obtain ⟨f2, z2⟩ := data_sized k
    rw [subLimit_eq, dataLimit_eq]
    exact ⟨fits_of_written z1 r.chunks' (hpres _ _ l1) v1,
      fits_of_written z2 r.chunks' (hpres _ _ l2) v2⟩
  · obtain ⟨f1, z1⟩ := hl_sized
    rw [← slots_length r.slots]
    exact fits_of_written z1 r.chunks' (hpres _ _ r.locHl) r.hl
  · obtain ⟨f1, z1⟩ := fl_sized
    have := fits_of_written z1 r.chunks' (hpres _ _ r.locFl) r.fl
    rw [← slots_length r.slots, ← List.length_append, ← r.out_eq]
    exact this

/-- The counts in a header. -/
def setNums (S : Store P.F) (n : SegKind → Nat) : Store P.F :=
  ((((S.set 31 [] ⟨.val (.int (n .image)), none⟩).set 34 [] ⟨.val (.int (n .graphic)), none⟩).set 38 []
    ⟨.val (.int (n .text)), none⟩).set 41 [] ⟨.val (.int (n .des)), none⟩).set 44 []
    ⟨.val (.int (n .res)), none⟩

theorem setNums_at (S : Store P.F) (n : SegKind → Nat) (k : SegKind) :
    setNums S n (numPos k) [] = some ⟨.val (.int (n k)), none⟩ := by
  unfold setNums
  cases k <;> simp [Store.set, numPos]

theorem setNums_off (S : Store P.F) (n : SegKind → Nat) {q : Nat} {key : Key}
    (h : ∀ k, ¬ (q = numPos k ∧ key = [])) : setNums S n q key = S q key := by
  unfold setNums Store.set
  have h1 := h .image
  have h2 := h .graphic
  have h3 := h .text
  have h4 := h .des
  have h5 := h .res
  simp only [numPos] at h1 h2 h3 h4 h5
  rw [if_neg h5, if_neg h4, if_neg h3, if_neg h2, if_neg h1]

theorem setNums_same {S S' : Store P.F} (h : SameVal P Tables.t_file_header.tab S S')
    (n : SegKind → Nat) : SameVal P Tables.t_file_header.tab (setNums S n) (setNums S' n) :=
  ((((h.set _ _ _).set _ _ _).set _ _ _).set _ _ _).set _ _ _

/-- The counts can always be set. -/
theorem setNums_all (S : Store P.F) (n : SegKind → Nat) :
    setAll P Tables.t_file_header
      [(n!"numi", .int (n .image)), (n!"nums", .int (n .graphic)), (n!"numt", .int (n .text)),
       (n!"numdes", .int (n .des)), (n!"numres", .int (n .res))] S = .ok (setNums S n) := by
  have step : ∀ (k : SegKind) (S : Store P.F) (z : Int),
      setA P Tables.t_file_header S k.numField (.int z) =
        .ok (S.set (numPos k) [] ⟨.val (.int z), none⟩) := by
    intro k S z
    obtain ⟨fi, h1, h2, h3⟩ := (numField k).at_
    obtain ⟨p1, p2, p3, p4, p5, p6⟩ := plainInt_spec h2
    have hsc : Scalar fi := ⟨p1, h3, p2, p3⟩
    unfold setA setAttr
    rw [(numField k).res]
    simp only
    unfold setItem budget
    rw [hsc.set_plain P p4 h1 (evalCond_none P p6 _ _) rfl]
  have e1 := step .image
  have e2 := step .graphic
  have e3 := step .text
  have e4 := step .des
  have e5 := step .res
  simp only [SegKind.numField] at e1 e2 e3 e4 e5
  simp only [setAll, e1, e2, e3, e4, e5]
  rfl

/-! ### The file header -/

/-- The header `X` is the prepared header `h0`, with some of the values that writing assigns. -/
structure HdrNear (segs : SegKind → List (Seg P.F IO.D)) (cs : List Chunk) (h0 X : Store P.F) :
    Prop where
  off : ∀ q key, ¬ Touch segs q key → (∀ k, ¬ (q = numPos k ∧ key = [])) → X q key = h0 q key
  hl : X hlPos [] = h0 hlPos [] ∨
    X hlPos [] = some ⟨.val (.int ((chunkBytes cs).length : Nat)), none⟩
  fl : X flPos [] = h0 flPos [] ∨ ∃ v : Nat, X flPos [] = some ⟨.val (.int v), none⟩
  len : ∀ k (j : Nat) s, (segs k)[j]? = some s → s.linked = true →
    ∀ q, q = lenPos k ∨ q = dataPos k → X q [(j : Int)] = h0 q [(j : Int)] ∨
      ((∃ v : Nat, X q [(j : Int)] = some ⟨.val (.int v), none⟩) ∧
        X (numPos k) [] = some ⟨.val (.int ((segs k).length : Nat)), none⟩)

/-- The lengths in the header have room. -/
structure CellFits (segs : SegKind → List (Seg P.F IO.D)) (X : Store P.F) : Prop where
  fl : ∀ v : Nat, X flPos [] = some ⟨.val (.int v), none⟩ → v < 10 ^ 12
  len : ∀ k (j v : Nat), j < (segs k).length →
    X (numPos k) [] = some ⟨.val (.int ((segs k).length : Nat)), none⟩ →
    (X (lenPos k) [(j : Int)] = some ⟨.val (.int v), none⟩ → v < 10 ^ (lenDigits k).1) ∧
    (X (dataPos k) [(j : Int)] = some ⟨.val (.int v), none⟩ → v < 10 ^ (lenDigits k).2)

/-- Both. -/
structure HdrFit (segs : SegKind → List (Seg P.F IO.D)) (cs : List Chunk) (h0 X : Store P.F) :
    Prop where
  off : ∀ q key, ¬ Touch segs q key → (∀ k, ¬ (q = numPos k ∧ key = [])) → X q key = h0 q key
  hl : X hlPos [] = h0 hlPos [] ∨
    X hlPos [] = some ⟨.val (.int ((chunkBytes cs).length : Nat)), none⟩
  fl : X flPos [] = h0 flPos [] ∨ ∃ v : Nat, X flPos [] = some ⟨.val (.int v), none⟩ ∧ v < 10 ^ 12
  len : ∀ k (j : Nat) s, (segs k)[j]? = some s → s.linked = true →
    (X (lenPos k) [(j : Int)] = h0 (lenPos k) [(j : Int)] ∨
      ∃ v : Nat, X (lenPos k) [(j : Int)] = some ⟨.val (.int v), none⟩ ∧ v < 10 ^ (lenDigits k).1) ∧
    (X (dataPos k) [(j : Int)] = h0 (dataPos k) [(j : Int)] ∨
      ∃ v : Nat, X (dataPos k) [(j : Int)] = some ⟨.val (.int v), none⟩ ∧ v < 10 ^ (lenDigits k).2)

theorem HdrFit.refl (segs : SegKind → List (Seg P.F IO.D)) (cs : List Chunk) (h0 : Store P.F) :
    HdrFit segs cs h0 h0 :=
  ⟨fun _ _ _ _ => rfl, .inl rfl, .inl rfl, fun _ _ _ _ _ => ⟨.inl rfl, .inl rfl⟩⟩

theorem HdrNear.fit {segs : SegKind → List (Seg P.F IO.D)} {cs : List Chunk} {h0 X : Store P.F}
    (h : HdrNear segs cs h0 X) (hf : CellFits segs X) : HdrFit segs cs h0 X := by
  refine ⟨h.off, h.hl, ?_, ?_⟩
  · rcases h.fl with h | ⟨v, h⟩
    · exact .inl h
    · exact .inr ⟨v, h, hf.fl v h⟩
  · intro k j s hs hl
    have hj := lt_of_getElem? hs
    constructor
    · rcases h.len k j s hs hl _ (.inl rfl) with h | ⟨⟨v, h⟩, hn⟩
      · exact .inl h
      · exact .inr ⟨v, h, (hf.len k j v hj hn).1 h⟩
    · rcases h.len k j s hs hl _ (.inr rfl) with h | ⟨⟨v, h⟩, hn⟩
      · exact .inl h
      · exact .inr ⟨v, h, (hf.len k j v hj hn).2 h⟩

theorem pos_notNum (k k' : SegKind) : lenPos k ≠ numPos k' ∧ dataPos k ≠ numPos k' := by
  cases k <;> cases k' <;> decide

/-- The prepared header with such values can be written, in the same layout. -/
theorem HdrFit.writes {segs : SegKind → List (Seg P.F IO.D)} {cs : List Chunk} {h0 X : Store P.F}
    (h : HdrFit segs cs h0 X) (hl : (chunkBytes cs).length < 10 ^ 6)
    (hw : writeChunks P Tables.t_file_header (setNums h0 fun k => (segs k).length) = .ok cs) :
    ∃ cs', writeChunks P Tables.t_file_header (setNums X fun k => (segs k).length) = .ok cs' ∧
      cs'.map Chunk.slot = cs.map Chunk.slot := by
  let nn := fun k => (segs k).length
  have hcells : ∀ c ∈ lengthCells nn, ∀ k, ¬ (c.1 = numPos k ∧ c.2 = []) := by
    intro c hc k
    unfold lengthCells at hc
    rcases List.mem_cons.mp hc with rfl | hc
    · rintro ⟨h, _⟩; revert h; cases k <;> decide
    rcases List.mem_cons.mp hc with rfl | hc
    · rintro ⟨h, _⟩; revert h; cases k <;> decide
    obtain ⟨k', _, hc⟩ := List.mem_flatMap.mp hc
    obtain ⟨j, _, hc⟩ := List.mem_flatMap.mp hc
    simp only [List.mem_cons, List.not_mem_nil, or_false] at hc
    rcases hc with rfl | rfl
    · exact fun h => (pos_notNum k' k).1 h.1
    · exact fun h => (pos_notNum k' k).2 h.1
  have scalar : ∀ {n w : Nat} {fi : FInfo} {nm : Name}, resolve Tables.t_file_header.tab nm = some n →
      Sized n w [] fi → Tables.t_file_header.unreferenced n = true → (∀ k, n ≠ numPos k) →
      Assignable cs (setNums h0 nn) n [] w := by
    intro n w fi nm hr hz hu hn
    exact ⟨⟨nm, [], fi, hr, hz, fun H _ => check_scalar hz _⟩, hu,
      chunk_scalar t_file_header_causal hw hz.at_ hz.shapes
        (evalCond_none P (plainInt_spec hz.int).2.2.2.2.2 _ _), hn⟩
  have loop : ∀ {k : SegKind} {n w : Nat} {fi : FInfo} {nm : Name} {j : Nat}, LenField k nm n →
      Sized n w [.ref k.numField []] fi → (∀ k, n ≠ numPos k) → j < nn k →
      Assignable cs (setNums h0 nn) n [(j : Int)] w := by
    intro k n w fi nm j hr hz hn hj
    refine ⟨⟨nm, _, fi, hr.res, hz, fun H hH => ?_⟩, hr.unref,
      chunk_loop hr hw (setNums_at h0 nn k) hj, hn⟩
    exact check_loop hz ((hH k).trans (setNums_at h0 nn k)) hj
  have hoffn : ∀ (S : Store P.F) c, c ∈ lengthCells nn → setNums S nn c.1 c.2 = S c.1 c.2 :=
    fun S c hc => setNums_off S nn (hcells c hc)
  open Classical in
  refine writes_fit hw ((lengthCells nn).filter fun c => decide (X c.1 c.2 ≠ h0 c.1 c.2)) ?_ ?_
  · rintro ⟨q, key⟩ hc
    obtain ⟨hc, hne⟩ := List.mem_filter.mp hc
    have hne : X q key ≠ h0 q key := of_decide_eq_true hne
    have ht : Touch segs q key := by
      refine Classical.byContradiction fun hn => hne (h.off q key hn ?_)
      exact hcells _ hc
    rw [hoffn X (q, key) hc]
    rcases ht with ⟨rfl, rfl⟩ | ⟨rfl, rfl⟩ | ⟨k, j, s, hs, hk, hq, rfl⟩
    · obtain ⟨fi, hz⟩ := fl_sized
      rcases h.fl with he | ⟨v, hv, hlt⟩
      · exact absurd he hne
      · exact ⟨12, v, scalar flField.res hz fl_unref (by intro k; cases k <;> decide), hv, hlt⟩
    · obtain ⟨fi, hz⟩ := hl_sized
      rcases h.hl with he | hv
      · exact absurd he hne
      · exact ⟨6, _, scalar hlField.res hz hl_unref (by intro k; cases k <;> decide), hv, hl⟩
    · have hj := lt_of_getElem? hs
      rcases hq with rfl | rfl
      · obtain ⟨fi, hz⟩ := len_sized k
        rcases (h.len k j s hs hk).1 with he | ⟨v, hv, hlt⟩
        · exact absurd he hne
        · exact ⟨_, v, loop (lenField k) hz (fun k' => (pos_notNum k k').1) hj, hv, hlt⟩
      · obtain ⟨fi, hz⟩ := data_sized k
        rcases (h.len k j s hs hk).2 with he | ⟨v, hv, hlt⟩
        · exact absurd he hne
        · exact ⟨_, v, loop (dataField k) hz (fun k' => (pos_notNum k k').2) hj, hv, hlt⟩
  · intro n fi hn key hnot
    have hsame : setNums X nn n key = setNums h0 nn n key := by
      by_cases hnum : ∃ k, n = numPos k ∧ key = []
      · obtain ⟨k, rfl, rfl⟩ := hnum
        rw [setNums_at, setNums_at]
      · have hnum : ∀ k, ¬ (n = numPos k ∧ key = []) := fun k hk => hnum ⟨k, hk⟩
        rw [setNums_off X nn hnum, setNums_off h0 nn hnum]
        refine Classical.byContradiction fun hne => hnot (List.mem_filter.mpr ⟨?_, decide_eq_true hne⟩)
        exact touch_mem (Classical.byContradiction fun ht => hne (h.off n key ht hnum))
    unfold stored
    rw [hsame]

/-! ### Two segments that are written the same way -/

/-- `s` is written with the bytes that `t` is written with. -/
def WritesAs (E : Env) (k : SegKind) (s t : Seg P.F IO.D) : Prop :=
  s.linked = t.linked ∧ ∀ x, segBytes P E IO k t = .ok x → ∃ y, segBytes P E IO k s = .ok (y, x.2)

theorem writesAs_eqv {k : SegKind} {s t : Seg P.F IO.D} (h : SegEqv P IO k s t) :
    WritesAs E k s t := by
  refine ⟨h.linked.symm, ?_⟩
  rintro ⟨x, sb, db⟩ hx
  obtain ⟨y, h1, _⟩ := segBytes_same P E IO (h.symm IO) hx
  exact ⟨y, h1⟩

theorem writesAs_refl (k : SegKind) (s : Seg P.F IO.D) : WritesAs E k s s :=
  ⟨rfl, fun x h => ⟨x.1, h⟩⟩

theorem writesAs_near {s t : Seg P.F IO.D} (h : DesNear t s) : WritesAs E .des s t :=
  ⟨h.linked, fun x hx => ⟨x.1, segBytes_near h hx⟩⟩

theorem writesAs_nears {ss ts : List (Seg P.F IO.D)} (h : Each DesNear ts ss) :
    Each (WritesAs E .des) ss ts := by
  induction h with
  | nil => exact .nil
  | cons h1 _ ih => exact .cons (writesAs_near h1) ih

theorem writesAs_list {k : SegKind} {ss ts : List (Seg P.F IO.D)} (h : Each (WritesAs E k) ss ts) :
    ∀ {xs}, Each (fun s r => segBytes P E IO k s = .ok r) ts xs →
    ∃ ys, Each (fun s r => segBytes P E IO k s = .ok r) ss ys ∧
      ys.map (·.2) = xs.map (·.2) := by
  induction h with
  | nil => intro xs hx; cases hx; exact ⟨[], .nil, rfl⟩
  | cons h1 _ ih =>
    intro xs hx
    cases hx with
    | cons x1 x2 =>
      obtain ⟨y, hy⟩ := h1.2 _ x1
      obtain ⟨ys, y1, y2⟩ := ih x2
      exact ⟨(y, _) :: ys, .cons hy y1, by simp [y2]⟩

theorem segBytes_list {k : SegKind} {ss : List (Seg P.F IO.D)} {xs : List (Seg P.F IO.D × Bytes × Bytes)}
    (h : Each (fun s r => segBytes P E IO k s = .ok r) ss xs) :
    ∀ {ys}, Each (fun s r => segBytes P E IO k s = .ok r) ss ys → xs = ys := by
  induction h with
  | nil => intro ys hy; cases hy; rfl
  | cons h1 _ ih =>
    intro ys hy
    cases hy with
    | cons y1 y2 =>
      rw [h1] at y1
      injection y1 with y1
      rw [y1, ih y2]

theorem map_get {α β : Type} {f : α → β} {l l' : List α} (h : l.map f = l'.map f) {j : Nat}
    {a b : α} (ha : l[j]? = some a) (hb : l'[j]? = some b) : f a = f b := by
  have e1 : (l.map f)[j]? = some (f a) := by rw [List.getElem?_map, ha]; rfl
  have e2 : (l'.map f)[j]? = some (f b) := by rw [List.getElem?_map, hb]; rfl
  rw [h, e2] at e1
  injection e1 with e1
  exact e1.symm

/-! ### The whole file -/

/-- A file of which a part is as in the run `r`. -/
structure Half {F F' : NFile P.F IO.D} {out : Bytes} (r : WriteRun P E IO F F' out)
    (G : NFile P.F IO.D) : Prop where
  tres : G.tres = F.tres
  des : ∃ ds, dropOverflow P IO G.des = .ok ds ∧ Each DesNear r.des0 ds
  image : Mix F.image (r.segs1 .image) G.image
  graphic : Mix F.graphic (r.segs1 .graphic) G.graphic
  text : Mix F.text (r.segs1 .text) G.text
  res : G.res = F.res
  header : G.header = F.header ∨ HdrNear r.segs1 r.cs r.h0 G.header

theorem run_h1 {F F' : NFile P.F IO.D} {out : Bytes} (r : WriteRun P E IO F F' out) :
    r.h1 = setNums r.h0 fun k => (r.segs1 k).length := by
  rw [nums_ok P r.nums, ← r.segsR]
  rfl

theorem half_header {F F' : NFile P.F IO.D} {out : Bytes} (r : WriteRun P E IO F F' out)
    (hcl : AreasClear IO F) {G : NFile P.F IO.D} (h : Half r G) (hf : G.header = F.header ∨ CellFits r.segs1 G.header)
    {ds : List (Seg P.F IO.D)} (hd : ds.length = r.des0.length) :
    ∃ R X ov1, r.des1 = r.des0 ++ ov1 ∧
      prepareHeader P IO Tables.t_file_header fileAreas (n!"fs") "XHD".toList 0 G.tres G.header ds =
        .ok (R, ds ++ ov1) ∧
      SameVal P Tables.t_file_header.tab R X ∧ HdrFit r.segs1 r.cs r.h0 X := by
  rw [h.tres]
  by_cases he : G.header = F.header
  · rw [he]
    obtain ⟨ov, o1, _, o2⟩ := prepareHeader_des r.prepH hd
    exact ⟨r.h0, r.h0, ov, o1, o2, .refl _ _, .refl _ _ _⟩
  · have hn := h.header.resolve_left he
    have hf := hf.resolve_left he
    have hcell : ∀ q, q ∉ [flPos, hlPos, 31, 34, 38, 41, 44] → G.header q [] = r.h0 q [] := by
      intro q hq
      simp only [List.mem_cons, List.not_mem_nil, or_false, not_or] at hq
      refine hn.off q [] ?_ ?_
      · rintro (⟨hq', _⟩ | ⟨hq', _⟩ | ⟨_, _, _, _, _, _, hk⟩)
        · exact hq.1 hq'
        · exact hq.2.1 hq'
        · cases hk
      · rintro k ⟨rfl, _⟩
        obtain ⟨_, _, h1, h2, h3, h4, h5⟩ := hq
        cases k
        · exact h1 rfl
        · exact h2 rfl
        · exact h3 rfl
        · exact h4 rfl
        · exact h5 rfl
    have hareas : ∀ a mn, (a, mn) ∈ List.zip fileAreas (fileAreas.map (areaMN Tables.t_file_header)) →
        ∀ q ∈ areaCells Tables.t_file_header a mn, G.header q [] = r.h0 q [] := by
      intro a mn hz q hq
      refine hcell q ?_
      have : (List.zip fileAreas (fileAreas.map (areaMN Tables.t_file_header))).all (fun x =>
          (areaCells Tables.t_file_header x.1 x.2).all fun q =>
            decide (q ∉ [flPos, hlPos, 31, 34, 38, 41, 44])) = true := by decide +kernel
      exact of_decide_eq_true (List.all_eq_true.mp (List.all_eq_true.mp this (a, mn) hz) q hq)
    have hsec : getSecurity P Tables.t_file_header G.header (n!"fs") =
        getSecurity P Tables.t_file_header r.h0 (n!"fs") := by
      refine getSecLoop_same P _ _ ?_
      intro x hx n hn
      obtain ⟨fi, hfi, hF⟩ := secOkB_field (secHeaders_ok _ (by simp [secHeaders] : (Tables.t_file_header, n!"fs") ∈ secHeaders)) (a := x.2) hx hn
      rw [hF.get P hfi, hF.get P hfi]
      unfold stored
      rw [hcell n]
      have : (secNames (n!"fs")).all (fun x => match resolve Tables.t_file_header.tab x.1 with
          | none => true
          | some q => decide (q ∉ [flPos, hlPos, 31, 34, 38, 41, 44])) = true := by decide +kernel
      have := List.all_eq_true.mp this x hx
      rw [hn] at this
      exact of_decide_eq_true this
    obtain ⟨R, ov, o1, o2, o3⟩ := prepareHeader_again IO t_file_header_causal fileAreas_rows
      (by simp) hcl.header r.prepH hareas hsec hd
    exact ⟨R, G.header, ov, o1, o2, o3, hn.fit hf⟩

/-- Writing such a file gives the same bytes. -/
theorem half_writes {F F' : NFile P.F IO.D} {out : Bytes} (hw : writeFile P E IO F = .ok (F', out))
    (r : WriteRun P E IO F F' out)
    (hcl : AreasClear IO F) {G : NFile P.F IO.D} (h : Half r G)
    (hf : G.header = F.header ∨ CellFits r.segs1 G.header) :
    ∃ G', writeFile P E IO G = .ok (G', out) := by
  obtain ⟨ds, d1, d2⟩ := h.des
  have hd := d2.length.symm
  obtain ⟨R, X, ov1, o1, p1, hRX, hX⟩ := half_header r hcl h hf hd
  obtain ⟨im, ov2, o2, p2, q2⟩ := prepareSegs_mix (k := .image) rfl h.image
    (hcl.segs .image _ rfl) r.prepI (des' := ds ++ ov1) (by rw [o1]; simp [hd])
  obtain ⟨gr, ov3, o3, p3, q3⟩ := prepareSegs_mix (k := .graphic) rfl h.graphic
    (hcl.segs .graphic _ rfl) r.prepG (des' := ds ++ ov1 ++ ov2) (by rw [o2, o1]; simp [hd])
  obtain ⟨tx, ov4, o4, p4, q4⟩ := prepareSegs_mix (k := .text) rfl h.text
    (hcl.segs .text _ rfl) r.prepT (des' := ds ++ ov1 ++ ov2 ++ ov3)
    (by rw [o3, o2, o1]; simp [hd])
  -- the segments
  let segsG : SegKind → List (Seg P.F IO.D) := fun
    | .image => im | .graphic => gr | .text => tx
    | .des => ds ++ ov1 ++ ov2 ++ ov3 ++ ov4 | .res => G.res
  have hsegs : ∀ k, Each (WritesAs E k) (segsG k) (r.segs1 k) := by
    intro k
    cases k with
    | image => exact q2.imp fun _ _ _ h => writesAs_eqv h
    | graphic => exact q3.imp fun _ _ _ h => writesAs_eqv h
    | text => exact q4.imp fun _ _ _ h => writesAs_eqv h
    | res =>
      show Each _ G.res _
      rw [h.res, r.segsR]
      exact Each.refl (writesAs_refl .res) _
    | des =>
      show Each _ (ds ++ ov1 ++ ov2 ++ ov3 ++ ov4) _
      rw [o4, o3, o2, o1]
      refine Each.append (Each.append (Each.append (Each.append ?_ ?_) ?_) ?_) ?_
      · exact writesAs_nears d2
      all_goals exact Each.refl (writesAs_refl .des) _
  have hlen : ∀ k, (segsG k).length = (r.segs1 k).length := fun k => (hsegs k).length
  have hpG : prepareFile P IO G = .ok (setNums R fun k => (r.segs1 k).length, segsG) := by
    have hn : setAll P Tables.t_file_header
        [(n!"numi", .int im.length), (n!"nums", .int gr.length), (n!"numt", .int tx.length),
         (n!"numdes", .int (ds ++ ov1 ++ ov2 ++ ov3 ++ ov4).length), (n!"numres", .int G.res.length)] R =
        .ok (setNums R fun k => (segsG k).length) := setNums_all R fun k => (segsG k).length
    have hfun : (fun k => (segsG k).length) = fun k => (r.segs1 k).length := funext hlen
    rw [hfun] at hn
    unfold prepareFile
    simp only [d1, p1, p2, p3, p4, hn, bind, Except.bind, pure, Except.pure]
    rfl
  -- the header
  have hfits := run_fits r
  have hch := r.chunks
  rw [run_h1 r] at hch
  obtain ⟨csG, c1, c2⟩ := hX.writes hfits.headerLength hch
  rw [← writeChunks_same P (setNums_same hRX _)] at c1
  -- everything can be written
  have hres : ∀ k, ∃ ys, Each (fun s x => segBytes P E IO k s = .ok x) (segsG k) ys ∧
      ys.map (·.2) = (r.res k).map (·.2) := fun k => writesAs_list (hsegs k) (r.each k)
  obtain ⟨resG, hresG⟩ := Classical.axiomOfChoice hres
  have hparts : (fun k => (resG k).map (·.2)) = fun k => (r.res k).map (·.2) :=
    funext fun k => (hresG k).2
  have hall : AllFits P E IO (setNums R fun k => (r.segs1 k).length) segsG csG resG := by
    refine ⟨c1, fun k => (hresG k).1, ?_, ?_, ?_⟩
    · intro k i s y hs hy hl
      have hi : i < (r.segs1 k).length := by rw [← hlen k]; exact lt_of_getElem? hs
      have hi' : i < (r.res k).length := by rw [← (r.each k).length]; exact hi
      have ht := List.getElem?_eq_getElem hi
      have hx := List.getElem?_eq_getElem hi'
      have hlk := ((hsegs k).get i _ _ hs ht).1
      have hy2 := map_get (hresG k).2 hy hx
      rw [hy2]
      exact hfits.lengths k i _ _ ht hx (by rw [← hlk]; exact hl)
    · rw [slots_length c2]; exact hfits.headerLength
    · rw [slots_length c2, hparts]; exact hfits.fileLength
  obtain ⟨⟨G', outG⟩, hwG⟩ := (C70_writes_iff hpG).mpr ⟨csG, resG, hall⟩
  -- the two runs
  obtain ⟨rG⟩ := writeFile_run P E IO hwG
  have hpr := run_prepared rG
  rw [hpG] at hpr
  injection hpr with hpr
  injection hpr with hh1 hs1
  have hbytes : ∀ k, (rG.res k).map (·.2) = (r.res k).map (·.2) := by
    intro k
    have e := rG.each k
    rw [← hs1] at e
    rw [segBytes_list e (hresG k).1, (hresG k).2]
  have hcsG : rG.cs = csG := by
    have := rG.chunks
    rw [← hh1, c1] at this
    injection this with this
    exact this.symm
  have hcl' : (chunkBytes rG.cs').length = (chunkBytes r.cs').length := by
    rw [slots_length rG.slots, slots_length r.slots, hcsG, slots_length c2]
  have hpb : (partsBytes fun k => (rG.res k).map (·.2)) = partsBytes fun k => (r.res k).map (·.2) :=
    congrArg partsBytes (funext hbytes)
  have hol : outG.length = out.length := by
    rw [rG.out_eq, r.out_eq, hpb, List.length_append, List.length_append, hcl']
  have htouch : ∀ q key, Touch segsG q key → Touch r.segs1 q key := by
    rintro q key (h | h | ⟨k, j, s, hs, hl, hq, hk⟩)
    · exact .inl h
    · exact .inr (.inl h)
    · have hi : j < (r.segs1 k).length := by rw [← hlen k]; exact lt_of_getElem? hs
      have ht := List.getElem?_eq_getElem hi
      refine .inr (.inr ⟨k, j, _, ht, ?_, hq, hk⟩)
      rw [← ((hsegs k).get j _ _ hs ht).1]
      exact hl
  have hfin : SameVal P Tables.t_file_header.tab G'.header F'.header := by
    intro n fi hn key
    by_cases ht : Touch r.segs1 n key
    · have : G'.header n key = F'.header n key := by
        rcases ht with ⟨rfl, rfl⟩ | ⟨rfl, rfl⟩ | ⟨k, j, s, hs, hl, hq, rfl⟩
        · rw [rG.fl, r.fl, hol]
        · rw [rG.hl, r.hl, hcl']
        · have hj := lt_of_getElem? hs
          have hjG : j < (segsG k).length := by rw [hlen k]; exact hj
          have hsG := List.getElem?_eq_getElem hjG
          have hlG : ((segsG k)[j]).linked = true := by rw [((hsegs k).get j _ _ hsG hs).1]; exact hl
          have hx := List.getElem?_eq_getElem (l := r.res k) (i := j) (by rw [← (r.each k).length]; exact hj)
          have hlr : (rG.res k).length = (r.res k).length := by
            have := congrArg List.length (hbytes k); simpa using this
          have hy := List.getElem?_eq_getElem (l := rG.res k) (i := j)
            (by rw [hlr, ← (r.each k).length]; exact hj)
          have hy2 := map_get (hbytes k) hy hx
          have lG := rG.lens k j _ _ (by rw [← hs1]; exact hsG) hy hlG
          have lF := r.lens k j _ _ hs hx hl
          rw [hy2] at lG
          rcases hq with rfl | rfl
          · rw [lG.1, lF.1]
          · rw [lG.2, lF.2]
      unfold stored
      rw [this]
    · have eG := writeFile_frame hwG hpG (q := n) (key := key) fun h => ht (htouch n key h)
      have eF := writeFile_frame hw (run_prepared r) ht
      have e1 : stored G'.header fi.fd n key =
          stored (setNums R fun k => (r.segs1 k).length) fi.fd n key := by unfold stored; rw [eG]
      have e2 : stored F'.header fi.fd n key = stored r.h1 fi.fd n key := by unfold stored; rw [eF]
      rw [e1, e2, setNums_same hRX _ n fi hn key, run_h1 r]
      have : setNums X (fun k => (r.segs1 k).length) n key =
          setNums r.h0 (fun k => (r.segs1 k).length) n key := by
        by_cases hnum : ∃ k, n = numPos k ∧ key = []
        · obtain ⟨k, rfl, rfl⟩ := hnum
          rw [setNums_at, setNums_at]
        · have hnum : ∀ k, ¬ (n = numPos k ∧ key = []) := fun k hk => hnum ⟨k, hk⟩
          rw [setNums_off _ _ hnum, setNums_off _ _ hnum]
          exact hX.off n key ht hnum
      unfold stored
      rw [this]
  have hcs' : rG.cs' = r.cs' := by
    have := rG.chunks'
    rw [writeChunks_same P hfin, r.chunks'] at this
    injection this with this
    exact this.symm
  refine ⟨G', ?_⟩
  have : outG = out := by rw [rG.out_eq, r.out_eq, hcs', hpb]
  rw [hwG, this]

end Verif.Attempt
