import Verif.ImageLemmas
import Verif.Example

/- C33-C36: image subheader helpers and image data (model in `Verif/Image.lean`). -/

namespace Verif

variable (P : PyFloat)

/-! ### C33 -/

/-- C33.  Setting `number_band` to any count from 1 on, whatever the header holds, succeeds; reading
it gives that count; counts up to 9 are in `nbands`, larger ones in `xbands` with `nbands` zero; no
other field changes. -/
theorem C33_set_get {n : Int} (hn : 1 ≤ n) (S : Store P.F) :
    ∃ S', setNumberBand P n S = (S', none) ∧ numberBand P S' = .ok (.int n) ∧
      (n ≤ 9 → ihGet P S' (n!"nbands") = .ok (.int n)) ∧
      (10 ≤ n → ihGet P S' (n!"nbands") = .ok (.int 0) ∧ ihGet P S' (n!"xbands") = .ok (.int n)) ∧
      ∀ m key, m ≠ 36 → m ≠ 37 → S' m key = S m key := by
  obtain ⟨S', h1, h2, h3⟩ := setNumberBand_ok P hn S
  refine ⟨S', h1, h2.count P, ?_, ?_, h3⟩
  · intro h; rw [h2.nbands P, if_pos h]
  · intro h; exact ⟨by rw [h2.nbands P, if_neg (by omega)], h2.xbands P h⟩

/-- C33.  The band fields then have exactly one entry per band: reading the representation or
subcategory of band `i` succeeds exactly for `0 ≤ i < n`, and every band field lists the keys
`[0], …, [n-1]`. -/
theorem C33_bands {n : Int} (hn : 1 ≤ n) {S S' : Store P.F}
    (h : setNumberBand P n S = (S', none)) :
    (∀ nm ∈ [n!"irepband", n!"isubcat"], ∀ i,
      (∃ v, getAttr P ihD S' nm [i] = .ok v) ↔ 0 ≤ i ∧ i < n) ∧
    ∀ (m : Nat) (fi : FInfo), ihD.tab[m]? = some fi → fi.shapes = [bandShape] →
      keysFrom P (look P ihD.tab S') fi.shapes [] =
        .ok ((List.range n.toNat).map fun i => [Int.ofNat i]) := by
  obtain ⟨S'', h1, h2, _⟩ := setNumberBand_ok P hn S
  rw [h] at h1
  cases h1
  constructor
  · intro nm hnm i
    simp only [List.mem_cons, List.not_mem_nil, or_false] at hnm
    rcases hnm with rfl | rfl
    · exact band_irepband.get_str P h2 i
    · exact band_isubcat.get_str P h2 i
  · intro m fi _ hs
    rw [hs]
    simp only [keysFrom, h2.shape P, indices]
    have : ∀ l : List Nat, forChunks (fun i : Int => (Except.ok [([] : Key) ++ [i]] : Except Err _))
        (l.map Int.ofNat) = .ok (l.map fun i => [Int.ofNat i]) := by
      intro l
      induction l with
      | nil => rfl
      | cons a r ih => simp only [List.map_cons, forChunks, ih]; rfl
    exact this _

/-- The fields of the band loop. -/
theorem band_fields : (List.range 60).filter (fun m => match ihD.tab[m]? with
    | some fi => fi.shapes == [bandShape]
    | none => false) = [38, 39, 40, 41, 42, 43] := by decide +kernel

/-- C33.  A count of more than five digits is accepted by the setter, but the header cannot be
written then. -/
theorem C33_too_many {n : Int} (hn : 100000 ≤ n) {S S' : Store P.F}
    (h : setNumberBand P n S = (S', none)) : ∃ e, writeStruct P ihD S' = .error e := by
  obtain ⟨S'', h1, h2, _⟩ := setNumberBand_ok P (n := n) (by omega) S
  rw [h] at h1
  cases h1
  rcases h2 with ⟨_, h, _⟩ | ⟨_, h2, h3⟩
  · omega
  · refine row_xbands.overflow P (by decide +kernel)
      (fun fi hfi => by rw [xbands_cond P h2 fi hfi]; rfl) h3 ?_
    unfold FitsDec
    omega

/-- Zero is not a band count: after a larger count it reads back as that count. -/
theorem C33_zero : numberBand P0 (setNumberBand P0 0 (setNumberBand P0 12 Store.empty).1).1 =
    .ok (.int 12) := by decide +kernel

example : numberBand P0 (setNumberBand P0 10 Store.empty).1 = .ok (.int 10) ∧
    ihGet P0 (setNumberBand P0 10 Store.empty).1 (n!"nbands") = .ok (.int 0) := by decide +kernel

/-! ### C34 -/

/-- C34.  Setting `dtype` to a supported type, in either byte order and whatever the header holds,
succeeds, reading it back gives the type in big-endian order, and only the fields `abpp`, `nbpp` and
`pvtype` change. -/
theorem C34_round_trip {t : NpType} (ht : (t.kind, t.size) ∈ pixelTypes) (S : Store P.F) :
    ∃ S', setDtype P t S = (S', none) ∧ getDtype P S' = .ok ⟨t.kind, t.size, .big⟩ ∧
      ∀ m key, m ∉ [25, 28, 51] → S' m key = S m key := by
  rw [setDtype_supported P ht, setPixel_eq]
  refine ⟨_, rfl, PixelState.dtype P ⟨⟨none, by simp [Store.set]⟩, none, by simp [Store.set]⟩ ht, ?_⟩
  intro m key hm
  simp only [List.mem_cons, List.not_mem_nil, or_false, not_or] at hm
  simp [Store.set, hm.1, hm.2.1, hm.2.2]

/-- C34.  Any other type raises and leaves the header as it was. -/
theorem C34_unsupported {t : NpType} (ht : (t.kind, t.size) ∉ pixelTypes) (S : Store P.F) :
    setDtype P t S = (S, some .runtime) := setDtype_unsupported P ht S

/-- C34.  Types that differ in more than byte order give headers that read differently. -/
theorem C34_distinct {t u : NpType} (ht : (t.kind, t.size) ∈ pixelTypes)
    (hu : (u.kind, u.size) ∈ pixelTypes) (S R : Store P.F)
    (h : getDtype P (setDtype P t S).1 = getDtype P (setDtype P u R).1) :
    t.kind = u.kind ∧ t.size = u.size := by
  obtain ⟨S', h1, h2, _⟩ := C34_round_trip P ht S
  obtain ⟨R', h3, h4, _⟩ := C34_round_trip P hu R
  rw [h1, h3] at h
  simp only [h2, h4] at h
  injection h with h
  injection h with a b
  exact ⟨a, b⟩

/-- Sixteen-byte complex pixels are accepted, but 128 bits do not fit into the two digits of the
header, so such an image can never be written. -/
theorem C34_complex128_unwritable (o : NpOrder) (S : Store P.F) :
    ∃ e, writeStruct P ihD (setDtype P ⟨.c, 16, o⟩ S).1 = .error e := by
  rw [setDtype_supported P (by cases o <;> decide), setPixel_eq]
  exact row_abpp.overflow P (by decide +kernel)
    (fun fi hfi => by
      obtain ⟨fi', h1, _, _, _, h5, _⟩ := row_abpp.at_
      rw [h1] at hfi
      cases hfi
      exact evalCond_none P h5 _ _)
    ⟨none, by simp [Store.set]; rfl⟩ (by unfold FitsDec; decide)

example : (NpKind.i, 2) ∈ pixelTypes ∧ (NpKind.i, 8) ∉ pixelTypes ∧
    (NpKind.other, 1) ∉ pixelTypes := by decide

/-! ### C35 -/

/-- What the user's callback gave for band `b`, line `l`, sample `s`: the array it fills is indexed
by band, line and sample, by line and sample, or by sample and band. -/
def given (fill : Nat × Nat × Nat → List Nat → Bytes) (b l s : Nat) : GenMode → Bytes
  | .all => fill (0, 0, 0) [b, l, s]
  | .band => fill (b, 0, 0) [l, s]
  | .rowP => fill (0, l, 0) [s, b]
  | .rowB => fill (0, l, 0) [b, s]
  | .colB => fill (0, 0, s) [b, l]
  | .colP => fill (0, 0, s) [l, b]

/-- The modes an image can be made with. -/
def usableModes : List GenMode := [.all, .band, .rowP]

/-- The strides chosen for an image made in a mode. -/
def modeStrides (mode : GenMode) (nb nc w : Nat) : Option (Int × Int × Int) :=
  match mode with
  | .rowP => some ((w : Int), nb * nc * w, nb * w)
  | _ => none

theorem newImage_ok (t : ImgTexts) (nr nc : Nat) {dt : NpType} {nb : Nat} {mode : GenMode}
    (hm : mode ∈ usableModes) (hd : (dt.kind, dt.size) ∈ pixelTypes) (hb : 1 ≤ nb) :
    ∃ S, newImage P t nr nc dt nb mode = (S, none) ∧ BandState S nb ∧
      PixelState S dt.kind dt.size ∧ HasInt S 23 nr ∧ HasInt S 24 nc ∧ HasInt S 47 1 ∧
      HasInt S 49 nc ∧
      S 34 [] = some ⟨.val (.str "NC".toList), none⟩ ∧
      match mode with
      | .rowP => HasInt S 48 nr ∧ S 46 [] = some ⟨.val (.str "P".toList), none⟩
      | _ => HasInt S 48 1 ∧ HasInt S 50 nr ∧ S 46 [] = none := by
  unfold newImage
  simp only [runSteps, setDefaultImage]
  -- up to the pixel type
  obtain ⟨S1, h1, p1, q1⟩ : ∃ S1, runSteps ((defaultHead P t nr nc dt nb).take 15) Store.empty =
      (S1, none) ∧ PixelState S1 dt.kind dt.size ∧ HasInt S1 23 nr ∧ HasInt S1 24 nc ∧
      HasInt S1 47 1 ∧ HasInt S1 48 1 ∧ HasInt S1 49 nc ∧ HasInt S1 50 nr ∧ S1 46 [] = none := by
    have hd' := setDtype_supported P hd
    simp only [defaultHead, List.take, runSteps, hd', setPixel_eq]
    refine ⟨_, rfl, ⟨⟨none, ?_⟩, none, ?_⟩, ⟨none, ?_⟩, ⟨none, ?_⟩, ⟨none, ?_⟩, ⟨none, ?_⟩,
      ⟨none, ?_⟩, ⟨none, ?_⟩, ?_⟩ <;> simp [Store.set, Store.empty]
  -- the band count and the next two statements
  obtain ⟨S2, h2, p2, k2⟩ := setNumberBand_ok P (n := nb) (by omega) S1
  let S3 := (S2.set 34 [] ⟨.val (.str "NC".toList), none⟩).set 32 [] ⟨.val (.int 0), none⟩
  have h3 : runSteps (defaultHead P t nr nc dt nb) Store.empty = (S3, none) := by
    have : defaultHead P t nr nc dt nb = (defaultHead P t nr nc dt nb).take 15 ++
        [setNumberBand P nb, ihSet P (n!"ic") (.str "NC".toList), ihSet P (n!"nicom") (.int 0)] :=
      rfl
    rw [this, runSteps_append _ _ _ _ h1]
    simp only [runSteps, h2]
    rfl
  have k3 : ∀ m key, m ≠ 34 → m ≠ 32 → S3 m key = S2 m key := by
    intro m key h h'
    simp [S3, Store.set, h, h']
  have p3 : BandState S3 nb := p2.mono (k3 _ _ (by omega) (by omega)) (k3 _ _ (by omega) (by omega))
  -- the bands
  obtain ⟨S4, h4, k4⟩ := bandRun (n := (nb : Int)) (bandSteps P 0 nb ++ defaultTail P nb) (by
    intro f hf
    rw [List.mem_append] at hf
    rcases hf with hf | hf
    · exact bandSteps_ok P nb nb 0 (by omega) f hf
    · simp only [defaultTail, List.mem_cons, List.not_mem_nil, or_false] at hf
      rcases hf with rfl | rfl | rfl
      · exact band_irepband.step P rfl (by omega) (by omega) rfl
      · exact band_irepband.step P rfl (by omega) (by omega) rfl
      · exact band_irepband.step P rfl (by omega) (by omega) rfl) S3 p3
  rw [runSteps_append _ _ _ _ h3, h4]
  simp only
  have p4 : BandState S4 nb := p3.mono (k4 _ _ rfl) (k4 _ _ rfl)
  have k : ∀ m key, bandPos m = false → m ≠ 34 → m ≠ 32 → m ≠ 36 → m ≠ 37 →
      S4 m key = S1 m key := by
    intro m key a b c d e
    rw [k4 m key a, k3 m key b c, k2 m key d e]
  have ic : S4 34 [] = some ⟨.val (.str "NC".toList), none⟩ := by
    rw [k4 34 [] rfl]; simp [S3, Store.set]
  obtain ⟨q23, q24, q47, q48, q49, q50, q46⟩ := q1
  have px : PixelState S4 dt.kind dt.size := by
    unfold PixelState HasInt at *
    rw [k 51 [] rfl (by omega) (by omega) (by omega) (by omega),
      k 25 [] rfl (by omega) (by omega) (by omega) (by omega)]
    exact p1
  unfold HasInt at q23 q24 q47 q48 q49 q50
  rw [← k _ _ rfl (by omega) (by omega) (by omega) (by omega)] at q23 q24 q47 q48 q49 q50 q46
  have base : ∃ S, runSteps [] S4 = (S, none) ∧ BandState S nb ∧
      PixelState S dt.kind dt.size ∧ HasInt S 23 nr ∧ HasInt S 24 nc ∧ HasInt S 47 1 ∧
      HasInt S 49 nc ∧ S 34 [] = some ⟨.val (.str "NC".toList), none⟩ ∧
      HasInt S 48 1 ∧ HasInt S 50 nr ∧ S 46 [] = none :=
    ⟨S4, rfl, p4, px, q23, q24, q47, q49, ic, q48, q50, q46⟩
  simp only [usableModes, List.mem_cons, List.not_mem_nil, or_false] at hm
  rcases hm with rfl | rfl | rfl
  · exact base
  · exact base
  · simp only [modeSteps, runSteps]
    refine ⟨_, rfl, p4.mono rfl rfl, ?_, ?_, ?_, ?_, ?_, ?_, ?_, ?_⟩
    · exact px
    · exact q23
    · exact q24
    · exact ⟨none, rfl⟩
    · exact ⟨none, rfl⟩
    · exact ic
    · exact ⟨none, rfl⟩
    · rfl

/-- The reader's decision for such a header. -/
theorem newImage_plan {nr nc : Nat} {dt : NpType} {nb : Nat} {mode : GenMode}
    (hm : mode ∈ usableModes) (hd : (dt.kind, dt.size) ∈ pixelTypes) {S : Store P.F}
    (h1 : BandState S nb) (h2 : PixelState S dt.kind dt.size) (h3 : HasInt S 23 nr)
    (h4 : HasInt S 24 nc) (h5 : HasInt S 47 1) (h6 : HasInt S 49 nc)
    (h7 : S 34 [] = some ⟨.val (.str "NC".toList), none⟩)
    (h8 : match mode with
      | .rowP => HasInt S 48 nr ∧ S 46 [] = some ⟨.val (.str "P".toList), none⟩
      | _ => HasInt S 48 1 ∧ HasInt S 50 nr ∧ S 46 [] = none) :
    readPlan P S = .ok (some ⟨.int nb, .int nr, .int nc, modeStrides mode nb nc dt.size,
      ⟨dt.kind, dt.size, .big⟩⟩) := by
  obtain ⟨_, h3⟩ := h3
  obtain ⟨_, h4⟩ := h4
  obtain ⟨_, h5⟩ := h5
  obtain ⟨_, h6⟩ := h6
  obtain ⟨_, h9⟩ := h2.1
  have e1 : ihGet P S (n!"ic") = .ok (.str "NC".toList) := row_ic.get_str P h7
  have e3 : ihGet P S (n!"nrows") = .ok (.int nr) := row_nrows.get_int P h3
  have e4 : ihGet P S (n!"ncols") = .ok (.int nc) := row_ncols.get_int P h4
  have e5 : ihGet P S (n!"nbpr") = .ok (.int 1) := row_nbpr.get_int P h5
  have e6 : ihGet P S (n!"nppbh") = .ok (.int nc) := row_nppbh.get_int P h6
  have e7 : ihGet P S (n!"nbpp") = .ok (.int (8 * dt.size)) := row_nbpp.get_int P h9
  have hs : ((8 * (dt.size : Int)) == 1) = false := by
    rw [beq_eq_false_iff_ne]; omega
  have ed := h2.dtype P hd
  have eb := h1.count P
  have hB : ∀ h : S 46 [] = none, ihGet P S (n!"imode") = .ok (.str "B".toList) := by
    intro h
    have := row_imode.cell P (S := Store.empty) (S' := S) h
    exact this.trans rfl
  simp only [usableModes, List.mem_cons, List.not_mem_nil, or_false] at hm
  rcases hm with rfl | rfl | rfl
  · obtain ⟨⟨_, h8⟩, _, h10⟩ := h8
    have e8 : ihGet P S (n!"nbpc") = .ok (.int 1) := row_nbpc.get_int P h8
    simp [readPlan, e1, e3, e4, e5, e6, e7, e8, ed, eb, hB h10, pyEq, bind, Except.bind, pure,
      Except.pure, hs, modeStrides]
  · obtain ⟨⟨_, h8⟩, _, h10⟩ := h8
    have e8 : ihGet P S (n!"nbpc") = .ok (.int 1) := row_nbpc.get_int P h8
    simp [readPlan, e1, e3, e4, e5, e6, e7, e8, ed, eb, hB h10, pyEq, bind, Except.bind, pure,
      Except.pure, hs, modeStrides]
  · obtain ⟨⟨_, h8⟩, h10⟩ := h8
    have e8 : ihGet P S (n!"nbpc") = .ok (.int nr) := row_nbpc.get_int P h8
    have e9 : ihGet P S (n!"imode") = .ok (.str "P".toList) := row_imode.get_str P h10
    simp [readPlan, e1, e3, e4, e5, e6, e7, e8, e9, ed, eb, pyEq, bind, Except.bind, pure,
      Except.pure, hs, modeStrides, asInt]

/-- Number of the element `[b, l, s]` in the data, as the reader's strides place it. -/
def elemNo (mode : GenMode) (nb nr nc b l s : Nat) : Nat :=
  match mode with
  | .rowP => (l * nc + s) * nb + b
  | _ => (b * nr + l) * nc + s

/-- C35.  Where the elements are: element `[b, l, s]` of the reader's array is the `elemNo`-th item
of the data. -/
theorem C35_address {mode : GenMode} (nb nr nc w : Nat) (b l s : Nat)
    {pre data post : Bytes} (h : elemNo mode nb nr nc b l s * w + w ≤ data.length) :
    arrayElem (pre ++ data ++ post) pre.length nr nc w (modeStrides mode nb nc w) b l s =
      (data.drop (elemNo mode nb nr nc b l s * w)).take w := by
  have off : ((b : Int) * ((modeStrides mode nb nc w).getD
      ((nr * nc * w : Nat), (nc * w : Nat), (w : Nat))).1 +
      l * ((modeStrides mode nb nc w).getD ((nr * nc * w : Nat), (nc * w : Nat), (w : Nat))).2.1 +
      s * ((modeStrides mode nb nc w).getD ((nr * nc * w : Nat), (nc * w : Nat), (w : Nat))).2.2) =
      ((elemNo mode nb nr nc b l s * w : Nat) : Int) := by
    cases mode <;> simp [modeStrides, elemNo] <;> grind
  unfold arrayElem
  simp only
  rw [off, Int.toNat_natCast, List.append_assoc, ← List.drop_drop, List.drop_left,
    List.drop_append_of_le_length (by omega),
    List.take_append_of_le_length (by rw [List.length_drop]; omega)]

/-- C35.  An image made with any texts, size, pixel type and number of bands has a header that the
reader accepts, and whatever the callback gives for each element, the reader's array over the file
has these bytes at each band, line and sample; the data is as long as the elements together. -/
theorem C35_read_back (t : ImgTexts) (nr nc : Nat) {dt : NpType} {nb : Nat} {mode : GenMode}
    (hm : mode ∈ usableModes) (hd : (dt.kind, dt.size) ∈ pixelTypes) (hb : 1 ≤ nb) :
    ∃ S plan, newImage P t nr nc dt nb mode = (S, none) ∧ readPlan P S = .ok (some plan) ∧
      plan.bands = .int nb ∧ plan.rows = .int nr ∧ plan.cols = .int nc ∧
      plan.dtype = ⟨dt.kind, dt.size, .big⟩ ∧
      ∀ fill : Nat × Nat × Nat → List Nat → Bytes, (∀ st idx, (fill st idx).length = dt.size) →
        (imageBytes mode nb nr nc fill).length = nb * nr * nc * dt.size ∧
        ∀ (pre post : Bytes) (b l s : Nat), b < nb → l < nr → s < nc →
          arrayElem (pre ++ imageBytes mode nb nr nc fill ++ post) pre.length nr nc
            plan.dtype.size plan.strides b l s = given fill b l s mode := by
  obtain ⟨S, h0, h1, h2, h3, h4, h5, h6, h7, h8⟩ := newImage_ok P t nr nc hm hd hb
  refine ⟨S, _, h0, newImage_plan P hm hd h1 h2 h3 h4 h5 h6 h7 h8, rfl, rfl, rfl, rfl, ?_⟩
  intro fill hf
  have hlen : (imageBytes mode nb nr nc fill).length = nb * nr * nc * dt.size := by
    simp only [usableModes, List.mem_cons, List.not_mem_nil, or_false] at hm
    rcases hm with rfl | rfl | rfl <;> simp only [imageBytes] <;>
      rw [length_block3 (fun _ _ _ _ _ _ => hf _ _)] <;> simp [Nat.mul_left_comm,
        Nat.mul_comm]
  refine ⟨hlen, ?_⟩
  intro pre post b l s hb hl hs
  have hno : elemNo mode nb nr nc b l s < nb * nr * nc := by
    have key : ∀ {n1 n2 n3 i j k : Nat}, i < n1 → j < n2 → k < n3 →
        (i * n2 + j) * n3 + k < n1 * n2 * n3 := by
      intro n1 n2 n3 i j k hi hj hk
      have a1 : (i + 1) * n2 ≤ n1 * n2 := Nat.mul_le_mul_right _ hi
      rw [Nat.succ_mul] at a1
      have a2 : (i * n2 + j + 1) * n3 ≤ n1 * n2 * n3 := Nat.mul_le_mul_right _ (by omega)
      rw [Nat.succ_mul] at a2
      omega
    cases mode <;> simp only [elemNo]
    case rowP =>
      have := key hl hs hb
      rw [show nb * nr * nc = nr * nc * nb by
        simp [Nat.mul_left_comm, Nat.mul_comm]]
      exact this
    all_goals exact key hb hl hs
  have hfit : elemNo mode nb nr nc b l s * dt.size + dt.size ≤
      (imageBytes mode nb nr nc fill).length := by
    rw [hlen, ← Nat.succ_mul]
    exact Nat.mul_le_mul_right _ hno
  simp only
  rw [C35_address nb nr nc dt.size b l s hfit]
  simp only [usableModes, List.mem_cons, List.not_mem_nil, or_false] at hm
  rcases hm with rfl | rfl | rfl <;> simp only [imageBytes, elemNo, given]
  · exact block3_at (f := fun b l s => fill (0, 0, 0) [b, l, s]) (fun _ _ _ _ _ _ => hf _ _) hb hl hs
  · exact block3_at (f := fun b l s => fill (b, 0, 0) [l, s]) (fun _ _ _ _ _ _ => hf _ _) hb hl hs
  · exact block3_at (f := fun l s b => fill (0, l, 0) [s, b]) (fun _ _ _ _ _ _ => hf _ _) hl hs hb

/-- C35.  The array elements exactly tile the data: the item at each place of the data belongs to
exactly one band, line and sample. -/
theorem C35_tiling {mode : GenMode} {nb nr nc k : Nat} (hk : k < nb * nr * nc) :
    ∃ b l s, (b < nb ∧ l < nr ∧ s < nc ∧ k = elemNo mode nb nr nc b l s) ∧
      ∀ b' l' s', b' < nb → l' < nr → s' < nc → k = elemNo mode nb nr nc b' l' s' →
        b' = b ∧ l' = l ∧ s' = s := by
  cases mode <;> simp only [elemNo]
  case rowP =>
    rw [show nb * nr * nc = nr * nc * nb by
      simp [Nat.mul_left_comm, Nat.mul_comm]] at hk
    obtain ⟨l, s, b, ⟨h1, h2, h3, h4⟩, h5⟩ := number_triples hk
    refine ⟨b, l, s, ⟨h3, h1, h2, h4⟩, ?_⟩
    intro b' l' s' hb hl hs e
    obtain ⟨a1, a2, a3⟩ := h5 l' s' b' hs hb e
    exact ⟨a3, a1, a2⟩
  all_goals
    obtain ⟨b, l, s, ⟨h1, h2, h3, h4⟩, h5⟩ := number_triples hk
    exact ⟨b, l, s, ⟨h1, h2, h3, h4⟩, fun b' l' s' _ hl hs e => h5 b' l' s' hl hs e⟩

/-- The attributes the reader looks at. -/
def planNames : List Name :=
  [n!"ic", n!"nbands", n!"xbands", n!"nrows", n!"ncols", n!"imode", n!"nbpr", n!"nbpc", n!"nppbh",
   n!"nbpp", n!"pvtype"]

theorem planNames_scalar : ∀ nm ∈ planNames, ∃ n fi, resolve ihD.tab nm = some n ∧
    ihD.tab[n]? = some fi ∧ fi.shapes = [] := by
  have : (planNames.all fun nm => match resolve ihD.tab nm with
    | none => false
    | some n => match ihD.tab[n]? with
      | none => false
      | some fi => fi.shapes.isEmpty) = true := by decide +kernel
  intro nm hnm
  have h := List.all_eq_true.mp this nm hnm
  cases hr : resolve ihD.tab nm with
  | none => rw [hr] at h; cases h
  | some n =>
    rw [hr] at h
    simp only at h
    cases hf : ihD.tab[n]? with
    | none => rw [hf] at h; cases h
    | some fi =>
      rw [hf] at h
      exact ⟨n, fi, rfl, hf, List.isEmpty_iff.mp h⟩

/-- C35.  A header read from a file with the same field values (C01, C26) is read in the same
way. -/
theorem C35_same_header {S R : Store P.F} (h : ∀ nm, itemsOf P ihD R nm = itemsOf P ihD S nm) :
    readPlan P R = readPlan P S := by
  have key : ∀ nm ∈ planNames, ihGet P R nm = ihGet P S nm := by
    intro nm hnm
    obtain ⟨n, fi, h1, h2, h3⟩ := planNames_scalar nm hnm
    have := h nm
    unfold itemsOf at this
    rw [h1] at this
    simp only [fieldItems, h2, h3, keysFrom, valuesAt] at this
    unfold ihGet getAttr
    rw [h1]
    simp only
    revert this
    cases getItem P ihD.tab R n [] <;> cases getItem P ihD.tab S n [] <;> simp
  have e1 := key (n!"ic") (by simp [planNames])
  have e2 := key (n!"nbands") (by simp [planNames])
  have e3 := key (n!"xbands") (by simp [planNames])
  have e4 := key (n!"nrows") (by simp [planNames])
  have e5 := key (n!"ncols") (by simp [planNames])
  have e6 := key (n!"imode") (by simp [planNames])
  have e7 := key (n!"nbpr") (by simp [planNames])
  have e8 := key (n!"nbpc") (by simp [planNames])
  have e9 := key (n!"nppbh") (by simp [planNames])
  have e10 := key (n!"nbpp") (by simp [planNames])
  have e11 := key (n!"pvtype") (by simp [planNames])
  unfold readPlan numberBand getDtype
  simp only [e1, e2, e3, e4, e5, e6, e7, e8, e9, e10, e11]

/-- C35.  The numpy writer writes its array in the default mode, and raises in all others. -/
theorem C35_numpy_writer (mode : GenMode) (data : Nat → Nat → Nat → Bytes) :
    (mode = .all → ∃ fill, numpyFill mode data = .ok fill ∧
      ∀ b l s, given fill b l s mode = data b l s) ∧
    (mode ≠ .all → numpyFill mode data = .error .index) := by
  constructor
  · rintro rfl
    exact ⟨_, rfl, fun b l s => by simp [given]⟩
  · intro h
    cases mode <;> first | exact absurd rfl h | rfl

/-- Images with more than 9999 rows or columns are made without complaint but cannot be written: the
block sizes set by the constructor have only four digits. -/
theorem C35_large_unwritable (t : ImgTexts) {nr nc : Nat} {dt : NpType} {nb : Nat} {mode : GenMode}
    (hm : mode ∈ usableModes) (hd : (dt.kind, dt.size) ∈ pixelTypes) (hb : 1 ≤ nb)
    (hbig : 9999 < nr ∨ 9999 < nc) :
    (newImage P t nr nc dt nb mode).2 = none ∧
    ∃ e, writeStruct P ihD (newImage P t nr nc dt nb mode).1 = .error e := by
  obtain ⟨S, h0, h1, h2, h3, h4, h5, h6, h7, h8⟩ := newImage_ok P t nr nc hm hd hb
  rw [h0]
  refine ⟨rfl, ?_⟩
  have plain : ∀ {nm m}, Row ihD nm m .int none 4 → ∀ fi, ihD.tab[m]? = some fi →
      evalCond P (look P ihD.tab S) fi [] = .ok true := by
    intro nm m hr fi hfi
    obtain ⟨fi', h1, _, _, _, h5, _⟩ := hr.at_
    rw [h1] at hfi
    cases hfi
    exact evalCond_none P h5 _ _
  have big : ∀ n : Nat, 9999 < n → ¬ FitsDec 4 (n : Int) := by
    intro n hn; unfold FitsDec; omega
  by_cases hc : 9999 < nc
  · exact row_nppbh.overflow P (by decide +kernel) (plain row_nppbh) h6 (big _ hc)
  · have hr : 9999 < nr := by omega
    simp only [usableModes, List.mem_cons, List.not_mem_nil, or_false] at hm
    rcases hm with rfl | rfl | rfl
    · exact row_nppbv.overflow P (by decide +kernel) (plain row_nppbv) h8.2.1 (big _ hr)
    · exact row_nppbv.overflow P (by decide +kernel) (plain row_nppbv) h8.2.1 (big _ hr)
    · exact row_nbpc.overflow P (by decide +kernel) (plain row_nbpc) h8.1 (big _ hr)

/-- A pixel-interleaved image in a single block (`imode` "P", one block, 2 bands, 2 rows, 1
column): the reader accepts it, but reads it as if the bands came one after the other. -/
theorem C35_one_block_interleaved :
    ∃ S : Store P0.F, ∃ plan, readPlan P0 S = .ok (some plan) ∧
      ihGet P0 S (n!"imode") = .ok (.str "P".toList) ∧
      plan.bands = .int 2 ∧ plan.rows = .int 2 ∧ plan.cols = .int 1 ∧ plan.dtype.size = 1 ∧
      -- line 0: bands 10, 11; line 1: bands 20, 21
      arrayElem [10, 11, 20, 21] 0 2 1 1 plan.strides 1 0 0 ≠ [11] := by
  refine ⟨(newImage P0 ⟨[], [], [], [], [], 0⟩ 2 1 ⟨.u, 1, .big⟩ 2 .all).1.set 46 []
    ⟨.val (.str "P".toList), none⟩, _, rfl, ?_⟩
  decide +kernel

example : let r := newImage P0 ⟨[], [], [], [], [], 0⟩ 2 3 ⟨.i, 2, .little⟩ 2 .rowP
    r.2 = none ∧ (match readPlan P0 r.1 with
      | .ok (some p) => decide (p.strides = some (2, 12, 4))
      | _ => false) = true := by decide +kernel

/-! ### C36 -/

/-- C36.  Writing an image that was skipped over copies exactly `size` bytes of the source from the
recorded position, for any size; if the source has become shorter, all it still has there. -/
theorem C36_copy_exact (src : Bytes) (start size : Nat) :
    copyImage src start size = (src.drop start).take size := by
  unfold copyImage
  rw [copyLoop_eq, Int.toNat_natCast]

/-- C36.  In particular the copy is the segment data if the source is unchanged. -/
theorem C36_segment (pre data post : Bytes) :
    copyImage (pre ++ data ++ post) pre.length data.length = data := by
  rw [C36_copy_exact, List.append_assoc, List.drop_left, List.take_left]

example : copyImage (1 :: List.replicate 1048577 7 ++ [2]) 1 1048577 = List.replicate 1048577 7 := by
  rw [C36_copy_exact, List.cons_append, List.drop_succ_cons, List.drop_zero]
  have := List.take_left (l₁ := List.replicate 1048577 (7 : UInt8)) (l₂ := [2])
  rwa [List.length_replicate] at this

end Verif
