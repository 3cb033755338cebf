import Verif.ImageLemmas
import Verif.Index

/- C96: the header that `set_default_image_subheader` makes. -/

set_option linter.unusedSectionVars false

namespace Verif.NewImage

open Verif

variable (P : PyFloat)

/-! ### Specification -/

/-- What band `b` of `nb` is said to show. -/
def letter (nb b : Nat) : String :=
  if b = 0 then "R" else if b = nb / 2 then "G" else if b + 1 = nb then "B" else "M"

/-- The attributes that are assigned. -/
def assigned : List Name :=
  [n!"iid1", n!"iid2", n!"idlvl", n!"isclas", n!"irep", n!"icat", n!"encryp", n!"idatim", n!"nrows",
   n!"ncols", n!"nbpr", n!"nbpc", n!"nppbh", n!"nppbv", n!"abpp", n!"nbpp", n!"pvtype", n!"nbands",
   n!"xbands", n!"ic", n!"nicom", n!"irepband", n!"isubcat", n!"nluts"]

/-- The header reads as it was asked for. -/
structure Reads (t : ImgTexts) (nr nc : Nat) (dt : NpType) (nb : Nat) (S : Store P.F) : Prop where
  iid1 : ihGet P S (n!"iid1") = .ok (.str (rstripU t.iid1))
  iid2 : ihGet P S (n!"iid2") = .ok (.str (rstripU t.iid2))
  idatim : ihGet P S (n!"idatim") = .ok (.str (rstripU t.idatim))
  irep : ihGet P S (n!"irep") = .ok (.str (rstripU t.irep))
  icat : ihGet P S (n!"icat") = .ok (.str (rstripU t.icat))
  idlvl : ihGet P S (n!"idlvl") = .ok (.int t.idlvl)
  isclas : ihGet P S (n!"isclas") = .ok (.str "U".toList)
  encryp : ihGet P S (n!"encryp") = .ok (.int 0)
  rows : ihGet P S (n!"nrows") = .ok (.int nr)
  cols : ihGet P S (n!"ncols") = .ok (.int nc)
  blocksAcross : ihGet P S (n!"nbpr") = .ok (.int 1)
  blocksDown : ihGet P S (n!"nbpc") = .ok (.int 1)
  blockCols : ihGet P S (n!"nppbh") = .ok (.int nc)
  blockRows : ihGet P S (n!"nppbv") = .ok (.int nr)
  uncompressed : ihGet P S (n!"ic") = .ok (.str "NC".toList)
  comments : ihGet P S (n!"nicom") = .ok (.int 0)
  pixel : getDtype P S = .ok ⟨dt.kind, dt.size, .big⟩
  bits : ihGet P S (n!"abpp") = .ok (.int (8 * dt.size))
  bands : numberBand P S = .ok (.int nb)
  shows : ∀ b, b < nb → getAttr P ihD S (n!"irepband") [(b : Int)] = .ok (.str (letter nb b).toList)
  numbered : ∀ b, b < nb → getAttr P ihD S (n!"isubcat") [(b : Int)] =
    .ok (.str (rstripU (intStr ((b : Int) + 1))))
  noLuts : ∀ b, b < nb → getAttr P ihD S (n!"nluts") [(b : Int)] = .ok (.int 0)

/-! ### Proofs -/

theorem band_get {nm : Name} {m : Nat} {ty : Ty} (h : BandRow nm m ty) {S : Store P.F} {n : Int}
    (hb : BandState S n) {i : Int} (h0 : 0 ≤ i) (hi : i < n) {v : Val P.F} {raw : Option Bytes}
    (hv : v.isNone = false) (hS : S m [i] = some ⟨.val v, raw⟩) :
    ∃ fd : FieldDef, fd.ty = ty ∧ getAttr P ihD S nm [i] = coerce P fd v := by
  obtain ⟨fi, h1, h2, h3, h4, h5, h6, h7, h8⟩ := h.at_
  refine ⟨fi.fd, h7, ?_⟩
  unfold getAttr
  rw [h.res]
  simp only
  rw [getItem_eq P _ h1]
  unfold getWith
  rw [lowGet_present P h2 (by rw [band_check P hb h3, if_pos ⟨h0, hi⟩])
    (by unfold evalCond; rw [h8]) h4]
  have : stored S fi.fd m [i] = .val v := by
    unfold stored
    rw [hS]
  rw [this]
  have e : finish P fi.fd (.val v) = coerce P fi.fd v := by
    cases v with
    | none => cases hv
    | _ => rfl
  rw [e]
  cases coerce P fi.fd v with
  | error e => rfl
  | ok x => simp only [h6]

/-- The band loop. -/
theorem bands_run (n : Int) (k : Nat) : ∀ (b : Nat) (S : Store P.F), (b : Int) + k ≤ n →
    BandState S n → ∃ S', runSteps (bandSteps P b k) S = (S', none) ∧
      (∀ i : Nat, b ≤ i → i < b + k → S' 38 [(i : Int)] = some ⟨.val (.str "M".toList), none⟩ ∧
        S' 39 [(i : Int)] = some ⟨.val (.int ((i : Int) + 1)), none⟩ ∧
        S' 42 [(i : Int)] = some ⟨.val (.int 0), none⟩) ∧
      (∀ m key, bandPos m = false → S' m key = S m key) ∧
      ∀ m, ∀ i : Nat, i < b → S' m [(i : Int)] = S m [(i : Int)] := by
  induction k with
  | zero =>
    intro b S _ _
    exact ⟨S, rfl, fun i h1 h2 => by omega, fun _ _ _ => rfl, fun _ _ _ => rfl⟩
  | succ k ih =>
    intro b S hb hS
    have h0 : (0 : Int) ≤ b := Int.natCast_nonneg b
    have h1 : (b : Int) < n := by omega
    let S1 := S.set 38 [(b : Int)] ⟨.val (.str "M".toList), none⟩
    let S2 := S1.set 39 [(b : Int)] ⟨.val (.int ((b : Int) + 1)), none⟩
    let S3 := S2.set 42 [(b : Int)] ⟨.val (.int 0), none⟩
    have e1 : BandState S1 n := hS.mono rfl rfl
    have e2 : BandState S2 n := e1.mono rfl rfl
    have e3 : BandState S3 n := e2.mono rfl rfl
    obtain ⟨S', r, p, q, s⟩ := ih (b + 1) S3 (by omega) e3
    refine ⟨S', ?_, ?_, ?_, ?_⟩
    · simp only [bandSteps, runSteps]
      rw [band_irepband.set P hS h0 h1 rfl]
      simp only
      rw [band_isubcat.set P e1 h0 h1 rfl]
      simp only
      rw [band_nluts.set P e2 h0 h1 rfl]
      exact r
    · intro i g1 g2
      by_cases hi : i = b
      · subst hi
        rw [s 38 i (by omega), s 39 i (by omega), s 42 i (by omega)]
        refine ⟨?_, ?_, ?_⟩ <;> simp [S3, S2, S1, Store.set]
      · exact p i (by omega) (by omega)
    · intro m key hm
      rw [q m key hm]
      simp only [bandPos, Bool.or_eq_false_iff, beq_eq_false_iff_ne] at hm
      simp [S3, S2, S1, Store.set, hm]
    · intro m i hi
      rw [s m i (by omega)]
      have : (i : Int) ≠ b := by omega
      simp [S3, S2, S1, Store.set, this]

/-- All band statements. -/
theorem tail_run {nb : Nat} (hb : 1 ≤ nb) {S : Store P.F} (hS : BandState S nb) :
    ∃ S', runSteps (bandSteps P 0 nb ++ defaultTail P nb) S = (S', none) ∧
      (∀ i : Nat, i < nb → S' 38 [(i : Int)] = some ⟨.val (.str (letter nb i).toList), none⟩ ∧
        S' 39 [(i : Int)] = some ⟨.val (.int ((i : Int) + 1)), none⟩ ∧
        S' 42 [(i : Int)] = some ⟨.val (.int 0), none⟩) ∧
      ∀ m key, bandPos m = false → S' m key = S m key := by
  obtain ⟨S1, r, p, q, _⟩ := bands_run P (nb : Int) nb 0 S (by omega) hS
  have e1 : BandState S1 nb := hS.mono (q _ _ rfl) (q _ _ rfl)
  let S2 := S1.set 38 [(nb : Int) - 1] ⟨.val (.str "B".toList), none⟩
  let S3 := S2.set 38 [((nb / 2 : Nat) : Int)] ⟨.val (.str "G".toList), none⟩
  have e2 : BandState S2 nb := e1.mono rfl rfl
  have e3 : BandState S3 nb := e2.mono rfl rfl
  refine ⟨S3.set 38 [0] ⟨.val (.str "R".toList), none⟩, ?_, ?_, ?_⟩
  · rw [runSteps_append _ _ _ _ r]
    simp only [defaultTail, runSteps]
    rw [band_irepband.set P e1 (by omega) (by omega) rfl]
    simp only
    rw [band_irepband.set P e2 (by omega) (by omega) rfl]
    simp only
    rw [band_irepband.set P e3 (by omega) (by omega) rfl]
  · intro i hi
    obtain ⟨p1, p2, p3⟩ := p i (by omega) (by omega)
    refine ⟨?_, ?_, ?_⟩
    · unfold letter
      by_cases h0 : i = 0
      · subst h0; simp [Store.set]
      · by_cases h1 : i = nb / 2
        · subst h1
          have : ¬ ((nb : Int) / 2 = 0) := by omega
          simp [Store.set, h0, S3, this]
        · by_cases h2 : i + 1 = nb
          · have b : ¬ ((i : Int) = (nb : Int) / 2) := by omega
            have c : (i : Int) = (nb : Int) - 1 := by omega
            simp only [if_neg h0, if_neg h1, if_pos h2]
            have d : ¬ ((nb : Int) - 1 = 0) := by omega
            have e : ¬ ((nb : Int) - 1 = (nb : Int) / 2) := by omega
            simp [Store.set, S3, S2, c, d, e]
          · have b : ¬ ((i : Int) = (nb : Int) / 2) := by omega
            have c : ¬ ((i : Int) = (nb : Int) - 1) := by omega
            simp only [if_neg h0, if_neg h1, if_neg h2]
            simp [Store.set, S3, S2, b, c, h0, p1]
    · simp [Store.set, S3, S2, p2]
    · simp [Store.set, S3, S2, p3]
  · intro m key hm
    rw [← q m key hm]
    simp only [bandPos, Bool.or_eq_false_iff, beq_eq_false_iff_ne] at hm
    simp [S3, S2, Store.set, hm]

/-- The cells the statements before the band count leave. -/
theorem head_run (t : ImgTexts) (nr nc : Nat) {dt : NpType} (hd : (dt.kind, dt.size) ∈ pixelTypes)
    (nb : Nat) (S : Store P.F) :
    ∃ S', runSteps ((defaultHead P t nr nc dt nb).take 15) S = (S', none) ∧
      S' 1 [] = some ⟨.val (.str t.iid1), none⟩ ∧ S' 4 [] = some ⟨.val (.str t.iid2), none⟩ ∧
      S' 52 [] = some ⟨.val (.int t.idlvl), none⟩ ∧ S' 5 [] = some ⟨.val (.str "U".toList), none⟩ ∧
      S' 26 [] = some ⟨.val (.str t.irep), none⟩ ∧ S' 27 [] = some ⟨.val (.str t.icat), none⟩ ∧
      S' 21 [] = some ⟨.val (.int 0), none⟩ ∧ S' 2 [] = some ⟨.val (.str t.idatim), none⟩ ∧
      S' 23 [] = some ⟨.val (.int nr), none⟩ ∧ S' 24 [] = some ⟨.val (.int nc), none⟩ ∧
      S' 47 [] = some ⟨.val (.int 1), none⟩ ∧ S' 48 [] = some ⟨.val (.int 1), none⟩ ∧
      S' 49 [] = some ⟨.val (.int nc), none⟩ ∧ S' 50 [] = some ⟨.val (.int nr), none⟩ ∧
      S' 28 [] = some ⟨.val (.int (8 * dt.size)), none⟩ ∧ PixelState S' dt.kind dt.size ∧
      ∀ m key, m ∉ [1, 4, 52, 5, 26, 27, 21, 2, 23, 24, 47, 48, 49, 50, 28, 51, 25] →
        S' m key = S m key := by
  simp only [defaultHead, List.take, runSteps, setDtype_supported P hd, setPixel_eq,
    row_iid1.ihSet P (v := .str t.iid1) rfl, row_iid2.ihSet P (v := .str t.iid2) rfl,
    row_idlvl.ihSet P (v := .int t.idlvl) rfl, row_isclas.ihSet P (v := .str "U".toList) rfl,
    row_irep.ihSet P (v := .str t.irep) rfl, row_icat.ihSet P (v := .str t.icat) rfl,
    row_encryp.ihSet P (v := .int 0) rfl, row_idatim.ihSet P (v := .str t.idatim) rfl,
    row_nrows.ihSet P (v := .int nr) rfl, row_ncols.ihSet P (v := .int nc) rfl,
    row_nbpr.ihSet P (v := .int 1) rfl, row_nbpc.ihSet P (v := .int 1) rfl,
    row_nppbh.ihSet P (v := .int nc) rfl, row_nppbv.ihSet P (v := .int nr) rfl]
  refine ⟨_, rfl, ?_, ?_, ?_, ?_, ?_, ?_, ?_, ?_, ?_, ?_, ?_, ?_, ?_, ?_, ?_,
    ⟨⟨none, ?_⟩, none, ?_⟩, ?_⟩
  all_goals first | simp [Store.set]; done | skip
  intro m key h
  simp only [List.mem_cons, List.not_mem_nil, or_false, not_or] at h
  simp [Store.set, h]

theorem letter_trim (nb b : Nat) : rstripU (letter nb b).toList = (letter nb b).toList := by
  unfold letter
  by_cases h1 : b = 0
  · rw [if_pos h1]; decide
  · rw [if_neg h1]
    by_cases h2 : b = nb / 2
    · rw [if_pos h2]; decide
    · rw [if_neg h2]
      by_cases h3 : b + 1 = nb
      · rw [if_pos h3]; decide
      · rw [if_neg h3]; decide

theorem assigned_pos {nm : Name} {m : Nat} (h : resolve ihD.tab nm = some m) (ha : nm ∉ assigned) :
    m ∉ [1, 4, 52, 5, 26, 27, 21, 2, 23, 24, 47, 48, 49, 50, 28, 51, 25, 36, 37, 34, 32, 38, 39,
      42] := by
  intro hm
  have key : ∀ k ∈ [1, 4, 52, 5, 26, 27, 21, 2, 23, 24, 47, 48, 49, 50, 28, 51, 25, 36, 37, 34, 32,
      38, 39, 42], ((ihD.tab[k]?).bind (·.fd.name)).elim false (fun x => assigned.contains x) =
        true := by decide +kernel
  have := key m hm
  cases hf : ihD.tab[m]? with
  | none => rw [hf] at this; cases this
  | some fi =>
    rw [hf] at this
    simp only [Option.bind_some] at this
    rw [resolve_named h hf] at this
    exact ha (by simpa using this)

/-- C96.  Filling in an image subheader that holds anything, for a size, a supported pixel type and
at least one band, succeeds.  The header then says what was asked for: the texts, the size as one
uncompressed block, the pixel type, the number of bands; each band has its number as subcategory,
no lookup tables, and the colour letters R, G, B at the first, middle and last band.  No other field
is touched. -/
theorem C96_filled (t : ImgTexts) (nr nc : Nat) {dt : NpType} {nb : Nat}
    (hd : (dt.kind, dt.size) ∈ pixelTypes) (hb : 1 ≤ nb) (S : Store P.F) :
    ∃ S', setDefaultImage P t nr nc dt nb S = (S', none) ∧ Reads P t nr nc dt nb S' ∧
      ∀ nm m key, resolve ihD.tab nm = some m → nm ∉ assigned → S' m key = S m key := by
  obtain ⟨S1, h1, c1, c4, c52, c5, c26, c27, c21, c2, c23, c24, c47, c48, c49, c50, c28, px, f1⟩ :=
    head_run P t nr nc hd nb S
  obtain ⟨S2, h2, p2, k2⟩ := setNumberBand_ok P (n := nb) (by omega) S1
  let S3 := (S2.set 34 [] ⟨.val (.str "NC".toList), none⟩).set 32 [] ⟨.val (.int 0), none⟩
  have h3 : runSteps (defaultHead P t nr nc dt nb) S = (S3, none) := by
    have : defaultHead P t nr nc dt nb = (defaultHead P t nr nc dt nb).take 15 ++
        [setNumberBand P nb, ihSet P (n!"ic") (.str "NC".toList), ihSet P (n!"nicom") (.int 0)] :=
      rfl
    rw [this, runSteps_append _ _ _ _ h1]
    simp only [runSteps, h2]
    rw [row_ic.ihSet P rfl]
    simp only
    rw [row_nicom.ihSet P rfl]
  have k3 : ∀ m key, m ≠ 34 → m ≠ 32 → S3 m key = S2 m key := by
    intro m key h h'
    simp [S3, Store.set, h, h']
  have p3 : BandState S3 nb := p2.mono (k3 _ _ (by omega) (by omega)) (k3 _ _ (by omega) (by omega))
  obtain ⟨S4, h4, b4, k4⟩ := tail_run P hb p3
  have p4 : BandState S4 nb := p3.mono (k4 _ _ rfl) (k4 _ _ rfl)
  have k : ∀ m key, bandPos m = false → m ≠ 34 → m ≠ 32 → m ≠ 36 → m ≠ 37 →
      S4 m key = S1 m key := by
    intro m key a b c d e
    rw [k4 m key a, k3 m key b c, k2 m key d e]
  rw [← k _ _ rfl (by omega) (by omega) (by omega) (by omega)] at c1 c4 c52 c5 c26 c27 c21 c2 c23
  rw [← k _ _ rfl (by omega) (by omega) (by omega) (by omega)] at c24 c47 c48 c49 c50 c28
  have c34 : S4 34 [] = some ⟨.val (.str "NC".toList), none⟩ := by
    rw [k4 34 [] rfl]; simp [S3, Store.set]
  have c32 : S4 32 [] = some ⟨.val (.int 0), none⟩ := by
    rw [k4 32 [] rfl]; simp [S3, Store.set]
  have px4 : PixelState S4 dt.kind dt.size := by
    unfold PixelState HasInt at *
    rw [k 51 [] rfl (by omega) (by omega) (by omega) (by omega),
      k 25 [] rfl (by omega) (by omega) (by omega) (by omega)]
    exact px
  refine ⟨S4, ?_, ⟨row_iid1.get_str P c1, row_iid2.get_str P c4, row_idatim.get_str P c2,
    row_irep.get_str P c26, row_icat.get_str P c27, row_idlvl.get_int P c52,
    row_isclas.get_str P c5, row_encryp.get_int P c21, row_nrows.get_int P c23,
    row_ncols.get_int P c24, row_nbpr.get_int P c47, row_nbpc.get_int P c48,
    row_nppbh.get_int P c49, row_nppbv.get_int P c50, row_ic.get_str P c34,
    row_nicom.get_int P c32, px4.dtype P hd, row_abpp.get_int P c28, p4.count P, ?_, ?_, ?_⟩, ?_⟩
  · unfold setDefaultImage
    rw [runSteps_append _ _ _ _ h3, h4]
  · intro b hbb
    obtain ⟨fd, h, e⟩ := band_get P band_irepband p4 (i := b) (by omega) (by omega) rfl (b4 b hbb).1
    rw [e]
    unfold coerce
    rw [h]
    simp only [pyStr, letter_trim]
  · intro b hbb
    obtain ⟨fd, h, e⟩ := band_get P band_isubcat p4 (i := b) (by omega) (by omega) rfl (b4 b hbb).2.1
    rw [e]
    unfold coerce
    rw [h]
    rfl
  · intro b hbb
    obtain ⟨fd, h, e⟩ := band_get P band_nluts p4 (i := b) (by omega) (by omega) rfl (b4 b hbb).2.2
    rw [e]
    unfold coerce
    rw [h]
    rfl
  · intro nm m key hr ha
    have := assigned_pos hr ha
    simp only [List.mem_cons, List.not_mem_nil, or_false, not_or] at this
    rw [k m key (by simp [bandPos, this]) (by simp [this]) (by simp [this]) (by simp [this])
      (by simp [this])]
    exact f1 m key (by simp [this])

theorem runSteps_stops {F} {fs : List (Step F)} {f : Step F} (hf : f ∈ fs)
    (h : ∀ S, ∃ e, (f S).2 = some e) (S : Store F) : ∃ e, (runSteps fs S).2 = some e := by
  induction fs generalizing S with
  | nil => cases hf
  | cons g r ih =>
    simp only [runSteps]
    cases hg : g S with
    | mk S1 e =>
      cases e with
      | some e => exact ⟨e, rfl⟩
      | none =>
        rcases List.mem_cons.mp hf with rfl | hf
        · obtain ⟨e, he⟩ := h S
          rw [hg] at he
          cases he
        · exact ih hf S1

/-- A negative band is refused, whatever the header holds. -/
theorem below (S : Store P.F) :
    ∃ e, (ihSetAt P (n!"irepband") (((0 : Nat) : Int) - 1) (.str "B".toList) S).2 = some e := by
  obtain ⟨fi, h1, h2, h3, h4, h5, h6, h7, h8⟩ := band_irepband.at_
  have hc : ∃ e, checkIndex P (look P ihD.tab S) fi [((0 : Nat) : Int) - 1] = .error e := by
    unfold checkIndex
    rw [h3]
    simp only [List.getLast?_singleton, FInfo.depth, h3, List.length_singleton, ne_eq,
      not_true_eq_false, if_false, List.dropLast_singleton]
    exact ⟨.index, if_pos (by omega)⟩
  obtain ⟨e, hc⟩ := hc
  refine ⟨e, ?_⟩
  unfold ihSetAt setAttr
  rw [band_irepband.res]
  simp only
  unfold setItem budget setF setCheck
  rw [h1]
  have hnm : fi.fd.name.isNone = false := by
    cases hh : fi.fd.name with
    | none => exact absurd hh h2
    | some _ => rfl
  simp only [h6, packKind, hnm, hc]
  simp

/-- C96.  A pixel type an image cannot have, or no band at all, raises. -/
theorem C96_raises (t : ImgTexts) (nr nc : Nat) {dt : NpType} {nb : Nat} (S : Store P.F)
    (h : (dt.kind, dt.size) ∉ pixelTypes ∨ nb = 0) :
    ∃ e, (setDefaultImage P t nr nc dt nb S).2 = some e := by
  unfold setDefaultImage
  by_cases hd : (dt.kind, dt.size) ∈ pixelTypes
  · have h0 : nb = 0 := h.resolve_left (fun hn => hn hd)
    subst h0
    refine runSteps_stops (f := ihSetAt P (n!"irepband") (((0 : Nat) : Int) - 1) (.str "B".toList))
      (by simp [defaultTail]) (fun S => ?_) S
    exact below P S
  · refine runSteps_stops (f := setDtype P dt) (by simp [defaultHead]) (fun S => ?_) S
    rw [setDtype_unsupported P hd]
    exact ⟨_, rfl⟩

/-- A header that held other things; three bands of two-byte integers. -/
example : ∃ S', setDefaultImage P0 ⟨"One".toList, "Two ".toList, "20160101120000".toList,
      "MULTI".toList, "VIS".toList, 3⟩ 10 20 ⟨.i, 2, .little⟩ 3
      (setAttr P0 ihD Store.empty (n!"iid1") [] (.str "Old".toList)).1 = (S', none) ∧
    ihGet P0 S' (n!"iid2") = .ok (.str "Two".toList) ∧
    getAttr P0 ihD S' (n!"irepband") [1] = .ok (.str "G".toList) ∧
    getAttr P0 ihD S' (n!"isubcat") [2] = .ok (.str "3".toList) := by
  obtain ⟨S', h, r, _⟩ := C96_filled P0 ⟨"One".toList, "Two ".toList, "20160101120000".toList,
    "MULTI".toList, "VIS".toList, 3⟩ 10 20 (dt := ⟨.i, 2, .little⟩) (nb := 3) (by decide) (by decide)
    (setAttr P0 ihD Store.empty (n!"iid1") [] (.str "Old".toList)).1
  exact ⟨S', h, r.iid2, r.shows 1 (by decide), r.numbered 2 (by decide)⟩

end Verif.NewImage
