import Verif.Ready
import Verif.Props.ImageFile
import Verif.Props.NewImage
import Verif.Props.StandardFile
import Verif.Props.WriteOk
import Verif.AttemptHalf

/-
C100: a file of new images is written exactly when they are within the limits of the format.
-/

namespace Verif.NewFile

open Verif Verif.InFile Verif.Ready Verif.NewImage Verif.Standard

variable {P : PyFloat}

/-! ### Specification -/

/-- A text that fits `w` characters. -/
def TextFits (w : Nat) (s : Str) : Prop :=
  (rstripU s).length ≤ w ∧ ∀ c ∈ rstripU s, c.toNat < 256

/-- Length of the subheader: 426 bytes, 13 more for each band, 5 more from 10 bands on. -/
def subLength (a : Asked P) : Nat := 426 + 13 * a.bands + if a.bands < 10 then 0 else 5

/-- Length of the pixels. -/
def dataLength (a : Asked P) : Nat := a.bands * a.rows * a.cols * a.dtype.size

/-- What is given for the image fits the fields of the subheader. -/
structure FieldsFit (a : Asked P) : Prop where
  iid1 : TextFits 10 a.texts.iid1
  iid2 : TextFits 80 a.texts.iid2
  idatim : TextFits 14 a.texts.idatim
  irep : TextFits 8 a.texts.irep
  icat : TextFits 8 a.texts.icat
  level : -99 ≤ a.texts.idlvl ∧ a.texts.idlvl ≤ 999
  rows : a.rows ≤ 9999
  cols : a.cols ≤ 9999
  bits : 8 * a.dtype.size ≤ 99
  bands : a.bands ≤ 99999

/-- The image is within the limits of the format. -/
structure Fits (a : Asked P) : Prop extends FieldsFit a where
  sub : subLength a < 1000000
  data : dataLength a < 10000000000

/-- A file made from scratch with these images. -/
def newFile (as : List (Asked P)) (R : DataReg) : NFile P.F (stdIO P (imgIO P) R).D :=
  { header := Store.empty, tres := [], image := as.map (·.seg R) }

/-- Its length. -/
def fileLength (as : List (Asked P)) : Nat :=
  388 + 16 * as.length + (as.map fun a => subLength a + dataLength a).sum

/-! ### Proofs -/

variable (P)

/-- The cells of a new image. -/
structure Cells (t : ImgTexts) (nr nc : Nat) (dt : NpType) (nb : Nat) (mode : GenMode) (S : Store P.F) :
    Prop where
  bands : BandState S nb
  iid1 : S 1 [] = some ⟨.val (.str t.iid1), none⟩
  idatim : S 2 [] = some ⟨.val (.str t.idatim), none⟩
  iid2 : S 4 [] = some ⟨.val (.str t.iid2), none⟩
  isclas : S 5 [] = some ⟨.val (.str "U".toList), none⟩
  encryp : S 21 [] = some ⟨.val (.int 0), none⟩
  nrows : S 23 [] = some ⟨.val (.int nr), none⟩
  ncols : S 24 [] = some ⟨.val (.int nc), none⟩
  pvtype : ∃ raw, S 25 [] = some ⟨.val (.str dt.kind.pv.toList), raw⟩
  irep : S 26 [] = some ⟨.val (.str t.irep), none⟩
  icat : S 27 [] = some ⟨.val (.str t.icat), none⟩
  abpp : S 28 [] = some ⟨.val (.int (8 * dt.size)), none⟩
  nicom : S 32 [] = some ⟨.val (.int 0), none⟩
  ic : S 34 [] = some ⟨.val (.str "NC".toList), none⟩
  nbpr : S 47 [] = some ⟨.val (.int 1), none⟩
  nbpc : ∃ z, S 48 [] = some ⟨.val (.int z), none⟩ ∧ (z = 1 ∨ z = nr)
  nppbh : S 49 [] = some ⟨.val (.int nc), none⟩
  nppbv : ∃ z, S 50 [] = some ⟨.val (.int z), none⟩ ∧ (z = 1 ∨ z = nr)
  tall : (∃ raw, S 48 [] = some ⟨.val (.int nr), raw⟩) ∨ ∃ raw, S 50 [] = some ⟨.val (.int nr), raw⟩
  nbpp : ∃ raw, S 51 [] = some ⟨.val (.int (8 * dt.size)), raw⟩
  idlvl : S 52 [] = some ⟨.val (.int t.idlvl), none⟩
  imode : S 46 [] = none ∨ S 46 [] = some ⟨.val (.str "P".toList), none⟩
  loops : ∀ i : Nat, i < nb → S 38 [(i : Int)] = some ⟨.val (.str (letter nb i).toList), none⟩ ∧
    S 39 [(i : Int)] = some ⟨.val (.int ((i : Int) + 1)), none⟩ ∧
    S 42 [(i : Int)] = some ⟨.val (.int 0), none⟩
  others : ∀ m key, m ∉ [1, 4, 52, 5, 26, 27, 21, 2, 23, 24, 47, 48, 49, 50, 28, 51, 25, 36, 37, 34, 32,
      38, 39, 42, 46] → S m key = none

theorem new_cells (t : ImgTexts) (nr nc : Nat) {dt : NpType} {nb : Nat} {mode : GenMode}
    (hm : mode ∈ usableModes) (hd : (dt.kind, dt.size) ∈ pixelTypes) (hb : 1 ≤ nb) :
    ∃ S, newImage P t nr nc dt nb mode = (S, none) ∧ Cells P t nr nc dt nb mode S := by
  obtain ⟨S1, h1, c1, c4, c52, c5, c26, c27, c21, c2, c23, c24, c47, c48, c49, c50, c28, px, f1⟩ :=
    head_run P t nr nc hd nb Store.empty
  obtain ⟨S2, h2, p2, k2⟩ := setNumberBand_ok P (n := nb) (by omega) S1
  let S3 := (S2.set 34 [] ⟨.val (.str "NC".toList), none⟩).set 32 [] ⟨.val (.int 0), none⟩
  have h3 : runSteps (defaultHead P t nr nc dt nb) Store.empty = (S3, none) := by
    have : defaultHead P t nr nc dt nb = (defaultHead P t nr nc dt nb).take 15 ++
        [setNumberBand P nb, ihSet P (n!"ic") (.str "NC".toList), ihSet P (n!"nicom") (.int 0)] :=
      rfl
    rw [this, runSteps_append _ _ _ _ h1]
    simp only [runSteps, h2]
    rw [row_ic.ihSet P rfl]
    simp only
    rw [row_nicom.ihSet P rfl]
  have k3 : ∀ m key, m ≠ 34 → m ≠ 32 → S3 m key = S2 m key := by
    intro m key h h'
    simp [S3, Store.set, h, h']
  have p3 : BandState S3 nb := p2.mono (k3 _ _ (by omega) (by omega)) (k3 _ _ (by omega) (by omega))
  obtain ⟨S4, h4, b4, k4⟩ := tail_run P hb p3
  have p4 : BandState S4 nb := p3.mono (k4 _ _ rfl) (k4 _ _ rfl)
  have k : ∀ m key, bandPos m = false → m ≠ 34 → m ≠ 32 → m ≠ 36 → m ≠ 37 →
      S4 m key = S1 m key := by
    intro m key a b c d e
    rw [k4 m key a, k3 m key b c, k2 m key d e]
  rw [← k _ _ rfl (by omega) (by omega) (by omega) (by omega)] at c1 c4 c52 c5 c26 c27 c21 c2 c23
  rw [← k _ _ rfl (by omega) (by omega) (by omega) (by omega)] at c24 c47 c48 c49 c50 c28
  have c34 : S4 34 [] = some ⟨.val (.str "NC".toList), none⟩ := by
    rw [k4 34 [] rfl]; simp [S3, Store.set]
  have c32 : S4 32 [] = some ⟨.val (.int 0), none⟩ := by
    rw [k4 32 [] rfl]; simp [S3, Store.set]
  unfold PixelState HasInt at px
  rw [← k 51 [] rfl (by omega) (by omega) (by omega) (by omega),
    ← k 25 [] rfl (by omega) (by omega) (by omega) (by omega)] at px
  have hrest : ∀ m key, m ∉ [1, 4, 52, 5, 26, 27, 21, 2, 23, 24, 47, 48, 49, 50, 28, 51, 25, 36, 37, 34,
      32, 38, 39, 42] → S4 m key = none := by
    intro m key h
    simp only [List.mem_cons, List.not_mem_nil, or_false, not_or] at h
    rw [k m key (by simp [bandPos]; omega) (by omega) (by omega) (by omega) (by omega), f1 m key (by
      simp only [List.mem_cons, List.not_mem_nil, or_false, not_or]; omega)]
    rfl
  have hfill : setDefaultImage P t nr nc dt nb Store.empty = (S4, none) := by
    unfold setDefaultImage
    rw [runSteps_append _ _ _ _ h3, h4]
  unfold newImage
  have base : (S4 46 [] = none) → Cells P t nr nc dt nb mode S4 := fun h46 =>
    { bands := p4, iid1 := c1, idatim := c2, iid2 := c4, isclas := c5, encryp := c21, nrows := c23,
      ncols := c24, pvtype := px.2, irep := c26, icat := c27, abpp := c28, nicom := c32, ic := c34,
      nbpr := c47, nbpc := ⟨1, c48, .inl rfl⟩, nppbh := c49, nppbv := ⟨_, c50, .inr rfl⟩,
      tall := .inr ⟨none, c50⟩, nbpp := px.1, idlvl := c52, imode := .inl h46, loops := b4,
      others := fun m key h => hrest m key fun hm => h (by
        simp only [List.mem_cons, List.not_mem_nil, or_false] at hm ⊢; omega) }
  have h46 : S4 46 [] = none := hrest 46 [] (by decide)
  simp only [usableModes, List.mem_cons, List.not_mem_nil, or_false] at hm
  rcases hm with rfl | rfl | rfl
  · exact ⟨S4, by simp only [runSteps, hfill, modeSteps], base h46⟩
  · exact ⟨S4, by simp only [runSteps, hfill, modeSteps], base h46⟩
  · refine ⟨((((S4.set 47 [] ⟨.val (.int 1), none⟩).set 48 [] ⟨.val (.int nr), none⟩).set 49 []
      ⟨.val (.int nc), none⟩).set 50 [] ⟨.val (.int 1), none⟩).set 46 [] ⟨.val (.str "P".toList), none⟩, by
      simp only [runSteps, hfill, modeSteps, row_nbpr.ihSet P (v := .int 1) rfl,
        row_nbpc.ihSet P (v := .int nr) rfl, row_nppbh.ihSet P (v := .int nc) rfl,
        row_nppbv.ihSet P (v := .int 1) rfl, row_imode.ihSet P (v := .str "P".toList) rfl], ?_⟩
    exact
      { bands := p4.mono rfl rfl, iid1 := c1, idatim := c2, iid2 := c4, isclas := c5, encryp := c21,
        nrows := c23, ncols := c24, pvtype := px.2, irep := c26, icat := c27, abpp := c28, nicom := c32,
        ic := c34, nbpr := by simp [Store.set], nbpc := ⟨nr, by simp [Store.set], .inr rfl⟩
        nppbh := by simp [Store.set], nppbv := ⟨1, by simp [Store.set], .inl rfl⟩
        tall := .inl ⟨none, by simp [Store.set]⟩
        nbpp := px.1, idlvl := c52, imode := .inr (by simp [Store.set]), loops := b4
        others := by
          intro m key h
          simp only [List.mem_cons, List.not_mem_nil, or_false, not_or] at h
          simp only [Store.set]
          rw [if_neg (by omega), if_neg (by omega), if_neg (by omega), if_neg (by omega),
            if_neg (by omega)]
          exact hrest m key (by simp only [List.mem_cons, List.not_mem_nil, or_false, not_or]; omega) }

variable {P}

/-- Fields of an image subheader outside loops and without condition. -/
def TopPos (m : Nat) : Prop :=
  m < 31 ∨ m = 32 ∨ m = 34 ∨ m = 36 ∨ (45 ≤ m ∧ m ≤ 56) ∨ m = 59

instance (m : Nat) : Decidable (TopPos m) := by unfold TopPos; infer_instance

theorem top_default : ∀ m, m < 62 → TopPos m → m ∉ [1, 4, 52, 5, 26, 27, 21, 2, 23, 24, 47, 48, 49, 50,
    28, 51, 25, 36, 37, 34, 32, 38, 39, 42, 46] → defaultAt ihD.tab m = true := by
  decide +kernel

theorem nat_fits {w n : Nat} (hw : 1 ≤ w) (h : n < 10 ^ w) : FitsDec w (n : Int) :=
  .inl ⟨by omega, hw, by exact_mod_cast h⟩

variable {t : ImgTexts} {nr nc : Nat} {dt : NpType} {nb : Nat} {mode : GenMode} {S : Store P.F}

theorem pv_fits (k : NpKind) : (rstripU k.pv.toList).length ≤ 3 ∧
    ∀ c ∈ rstripU k.pv.toList, c.toNat < 256 := by
  cases k <;> decide

theorem top_cells (hc : Cells P t nr nc dt nb mode S) (h1 : TextFits 10 t.iid1) (h2 : TextFits 80 t.iid2)
    (h3 : TextFits 14 t.idatim) (h4 : TextFits 8 t.irep) (h5 : TextFits 8 t.icat)
    (h6 : -99 ≤ t.idlvl ∧ t.idlvl ≤ 999) (h7 : nr ≤ 9999) (h8 : nc ≤ 9999) (h9 : dt.size ≤ 12) {m : Nat}
    (hm : TopPos m) : CellOk ihD.tab S m [] := by
  by_cases h : m ∈ [1, 4, 52, 5, 26, 27, 21, 2, 23, 24, 47, 48, 49, 50, 28, 51, 25, 36, 37, 34, 32, 38,
      39, 42, 46]
  · simp only [List.mem_cons, List.not_mem_nil, or_false] at h
    have bits : FitsDec 2 (8 * (dt.size : Int)) := .inl ⟨by omega, by decide, by omega⟩
    have four : ∀ z : Int, z = 1 ∨ z = nr → FitsDec 4 z := by
      intro z hz
      exact .inl ⟨by omega, by decide, by omega⟩
    rcases h with rfl | rfl | rfl | rfl | rfl | rfl | rfl | rfl | rfl | rfl | rfl | rfl | rfl | rfl | rfl |
      rfl | rfl | rfl | rfl | rfl | rfl | rfl | rfl | rfl | rfl
    · exact cell_str (w := 10) (by decide +kernel) hc.iid1 h1.1 h1.2
    · exact cell_str (w := 80) (by decide +kernel) hc.iid2 h2.1 h2.2
    · refine cell_int (w := 3) (by decide +kernel) hc.idlvl ?_
      by_cases h0 : 0 ≤ t.idlvl
      · exact .inl ⟨h0, by decide, by omega⟩
      · exact .inr ⟨by omega, by decide, by omega⟩
    · exact cell_str (w := 1) (by decide +kernel) hc.isclas (by decide) (by decide)
    · exact cell_str (w := 8) (by decide +kernel) hc.irep h4.1 h4.2
    · exact cell_str (w := 8) (by decide +kernel) hc.icat h5.1 h5.2
    · exact cell_int (w := 1) (by decide +kernel) hc.encryp (.inl (by decide))
    · exact cell_str (w := 14) (by decide +kernel) hc.idatim h3.1 h3.2
    · exact cell_int (w := 8) (by decide +kernel) hc.nrows (.inl ⟨by omega, by decide, by omega⟩)
    · exact cell_int (w := 8) (by decide +kernel) hc.ncols (.inl ⟨by omega, by decide, by omega⟩)
    · exact cell_int (w := 4) (by decide +kernel) hc.nbpr (.inl (by decide))
    · obtain ⟨z, q1, q2⟩ := hc.nbpc
      exact cell_int (w := 4) (by decide +kernel) q1 (four z q2)
    · exact cell_int (w := 4) (by decide +kernel) hc.nppbh (.inl ⟨by omega, by decide, by omega⟩)
    · obtain ⟨z, q1, q2⟩ := hc.nppbv
      exact cell_int (w := 4) (by decide +kernel) q1 (four z q2)
    · exact cell_int (w := 2) (by decide +kernel) hc.abpp bits
    · obtain ⟨raw, q⟩ := hc.nbpp
      exact cell_int (w := 2) (by decide +kernel) q bits
    · obtain ⟨raw, q⟩ := hc.pvtype
      exact cell_str (w := 3) (by decide +kernel) q (pv_fits _).1 (pv_fits _).2
    · rcases hc.bands with ⟨q1, q2, raw, q3⟩ | ⟨q1, ⟨raw, q3⟩, _⟩
      · exact cell_int (w := 1) (by decide +kernel) q3 (.inl ⟨by omega, by decide, by omega⟩)
      · exact cell_int (w := 1) (by decide +kernel) q3 (.inl (by decide))
    · exact absurd hm (by decide)
    · exact cell_str (w := 2) (by decide +kernel) hc.ic (by decide) (by decide)
    · exact cell_int (w := 1) (by decide +kernel) hc.nicom (.inl (by decide))
    · exact absurd hm (by decide)
    · exact absurd hm (by decide)
    · exact absurd hm (by decide)
    · rcases hc.imode with q | q
      · exact cell_default (by decide +kernel) q
      · exact cell_str (w := 1) (by decide +kernel) q (by decide) (by decide)
  · exact cell_default (top_default m (by unfold TopPos at hm; omega) hm h) (hc.others m [] h)

theorem row_icords : Row ihD (n!"icords") 30 .str none 1 := Row.of (by decide +kernel)
theorem row_udidl : Row ihD (n!"udidl") 56 .int none 5 := Row.of (by decide +kernel)
theorem row_ixshdl : Row ihD (n!"ixshdl") 59 .int none 5 := Row.of (by decide +kernel)

/-- An unset count is 0. -/
theorem unset_int {d : Desc} (hd : d.causal = true) {nm : Name} {n size : Nat} {S : Store P.F}
    (h : Row d nm n .int none size)
    (hn : ((d.tab[n]?).map fun fi => fi.fd.default.isNone && !fi.fd.optional) = some true)
    (hS : S n [] = none) : look P d.tab S nm [] = .ok (.int 0) ∧ getAttr P d S nm [] = .ok (.int 0) := by
  have : getAttr P d S nm [] = .ok (.int 0) := by
    rw [← h.get_int P (S := S.set n [] ⟨.val (.int 0), none⟩) (raw := none) (z := 0) (by simp [Store.set])]
    obtain ⟨fi, h1, h2, h3, h4, h5, _⟩ := h.at_
    rw [h1] at hn
    simp only [Option.map_some, Option.some.injEq, Bool.and_eq_true, Option.isNone_iff_eq_none,
      Bool.not_eq_true'] at hn
    unfold getAttr
    rw [h.res]
    simp only
    rw [h2.get_plain P h3 h1 (evalCond_none P h5 _ _), h2.get_plain P h3 h1 (evalCond_none P h5 _ _)]
    unfold stored defaultVal
    rw [hS, hn.1, hn.2, h4]
    simp [Store.set]
  exact ⟨by rw [h.look P hd, this], this⟩

theorem unset_str {d : Desc} (hd : d.causal = true) {nm : Name} {n size : Nat} {S : Store P.F}
    (h : Row d nm n .str none size)
    (hn : ((d.tab[n]?).map fun fi => fi.fd.default.isNone && !fi.fd.optional) = some true)
    (hS : S n [] = none) : look P d.tab S nm [] = .ok (.str []) := by
  rw [h.look P hd, show Except.ok (Val.str []) = Except.ok (Val.str (rstripU [])) from rfl,
    ← h.get_str P (S := S.set n [] ⟨.val (.str []), none⟩) (raw := none) (s := []) (by simp [Store.set])]
  obtain ⟨fi, h1, h2, h3, h4, h5, _⟩ := h.at_
  rw [h1] at hn
  simp only [Option.map_some, Option.some.injEq, Bool.and_eq_true, Option.isNone_iff_eq_none,
    Bool.not_eq_true'] at hn
  unfold getAttr
  rw [h.res]
  simp only
  rw [h2.get_plain P h3 h1 (evalCond_none P h5 _ _), h2.get_plain P h3 h1 (evalCond_none P h5 _ _)]
  unfold stored defaultVal
  rw [hS, hn.1, hn.2, h4]
  simp [Store.set]

/-- An area without TREs. -/
theorem area_fwd {d : Desc} {S : Store P.F} {n : Nat} {len : Name} {fd1 fd2 : FieldDef}
    {r : Desc} {fi1 fi2 : FInfo} (h1 : d.tab[n]? = some fi1) (h2 : d.tab[n + 1]? = some fi2)
    (hc : fi1.fd.cond = some (.ne (.ref len []) (.const (.int 0)))) (he : emptyAt d.tab (n + 1) len = true)
    (hl : look P d.tab S len [] = .ok (.int 0)) (hS : S (n + 1) [] = none)
    (h : ∃ cs, writeD P d.tab S (n + 2) [] r = .ok cs) :
    ∃ cs, writeD P d.tab S n [] (.field fd1 (.field fd2 r)) = .ok cs := by
  have e := empty_ok h2 he hl hS
  refine fwd_skip h1 ?_ (fwd_field h2 e.1 e.2 h)
  unfold evalCond
  rw [hc]
  simp [evalE, idxKey, bind, Except.bind, hl, pure, Except.pure, CVal.toVal, pyEq, bval, truthy,
    Except.map]

/-- A field in the loop over the bands. -/
def bandAt (m : Nat) (ty : Ty) (w : Nat) : Bool :=
  match ihD.tab[m]? with
  | some fi => (fi.shapes == [bandShape]) && decide (fi.fd.ty = ty) && decide (Standard.widthAt ihD.tab m = w)
  | none => false

theorem band_cell {m w : Nat} {ty : Ty} (h : bandAt m ty w = true) (hb : BandState S nb) {i : Nat}
    (hi : i < nb) {v : Val P.F} (hS : ∀ fi, ihD.tab[m]? = some fi → stored S fi.fd m [(i : Int)] = .val v)
    (hv : ∀ fd : FieldDef, fd.ty = ty → ValOk fd w v) : CellOk ihD.tab S m [(i : Int)] := by
  intro fi hf
  unfold bandAt at h
  rw [hf] at h
  simp only [Bool.and_eq_true, beq_iff_eq, decide_eq_true_eq] at h
  refine ⟨by rw [band_check P hb h.1.1, if_pos (by omega)], v, hS fi hf, ?_⟩
  rw [h.2]
  exact hv _ h.1.2

theorem nluts_look (hb : BandState S nb) {i : Nat} (hi : i < nb)
    (hS : S 42 [(i : Int)] = some ⟨.val (.int 0), none⟩) :
    look P ihD.tab S (n!"nluts") [(i : Int)] = .ok (.int 0) := by
  obtain ⟨fi, h1, h2, h3, h4, h5, h6, h7, h8⟩ := band_nluts.at_
  unfold look lookVia
  rw [band_nluts.res]
  simp only [h1]
  rw [if_neg (by simp [FInfo.depth, h3]), getF_budget P (Desc.causalTab ihD_causal) _ h1,
    getItem_eq P _ h1]
  unfold getWith
  rw [lowGet_present P h2 (by rw [band_check P hb h3, if_pos (by omega)]) (by unfold evalCond; rw [h8]) h4]
  unfold stored
  rw [hS]
  simp only [finish_int P h7, h6]

/-- One band. -/
theorem band_fwd (hc : Cells P t nr nc dt nb mode S) (hn : nb ≤ 99999) {i : Nat} (hi : i < nb)
    {body : Desc} (hbody : ∃ fd e b, startsPlain body 5 = true ∧
      Standard.Desc.after body 5 = .field fd (.loop e b .nil) ∧ e = .ref (n!"nluts") [0]) :
    ∃ cs, writeD P ihD.tab S 38 [(i : Int)] body = .ok cs := by
  obtain ⟨fd, e, b, hs, ha, rfl⟩ := hbody
  obtain ⟨l1, l2, l3⟩ := hc.loops i hi
  have hl := nluts_look hc.bands hi l3
  refine fwd_run 5 38 body (by decide +kernel) hs ?_ ?_
  · intro m h1 h2
    have : m = 38 ∨ m = 39 ∨ m = 40 ∨ m = 41 ∨ m = 42 := by omega
    rcases this with rfl | rfl | rfl | rfl | rfl
    · refine band_cell (w := 2) (ty := .str) (v := .str (letter nb i).toList) (by decide +kernel) hc.bands hi
        (fun fi _ => by unfold stored; rw [l1]) fun fd h => ⟨h, ?_⟩
      unfold letter
      repeat' split
      all_goals decide
    · refine band_cell (w := 6) (ty := .str) (v := .int ((i : Int) + 1)) (by decide +kernel) hc.bands hi
        (fun fi _ => by unfold stored; rw [l2]) fun fd h => Or.inr ⟨h, by omega, ?_⟩
      exact (decStr_length_le (i + 1) 6 (by decide)).mpr (by omega)
    · refine band_cell (w := 1) (ty := .str) (v := .str "N".toList) (by decide +kernel) hc.bands hi
        (fun fi hf => ?_) fun fd h => ⟨h, by decide, by decide⟩
      unfold stored
      rw [hc.others 40 _ (by decide)]
      have : ihD.tab[40]?.map (·.fd.default) = some (some (.str "N")) := by decide +kernel
      rw [hf] at this
      simp only [Option.map_some, Option.some.injEq] at this
      simp only [defaultVal, this]
      rfl
    · refine band_cell (w := 3) (ty := .str) (v := .str "   ".toList) (by decide +kernel) hc.bands hi
        (fun fi hf => ?_) fun fd h => ⟨h, by decide, by decide⟩
      unfold stored
      rw [hc.others 41 _ (by decide)]
      have : ihD.tab[41]?.map (·.fd.default) = some (some (.str "   ")) := by decide +kernel
      rw [hf] at this
      simp only [Option.map_some, Option.some.injEq] at this
      simp only [defaultVal, this]
      rfl
    · exact band_cell (w := 1) (ty := .int) (v := .int 0) (by decide +kernel) hc.bands hi
        (fun fi _ => by unfold stored; rw [l3]) fun fd h => Or.inl ⟨h, .inl (by decide)⟩
  · rw [ha]
    have hk : idxKey [(i : Int)] [0] = .ok [(i : Int)] := rfl
    refine fwd_skip (fi := _) (show ihD.tab[43]? = some _ from rfl) ?_ (fwd_loop (c := 0) ?_ ?_ ⟨[], rfl⟩)
    · unfold evalCond
      simp [evalE, hk, bind, Except.bind, hl, pure, Except.pure, CVal.toVal, pyEq, bval, truthy,
        Except.map]
    · unfold evalShape
      simp [evalE, hk, bind, Except.bind, hl]
    · intro j hj
      omega

/-- The field for many bands. -/
theorem xbands_fwd (hc : Cells P t nr nc dt nb mode S) (hn : nb ≤ 99999) {fd : FieldDef} {r : Desc}
    (h : ∃ cs, writeD P ihD.tab S 38 [] r = .ok cs) : ∃ cs, writeD P ihD.tab S 37 [] (.field fd r) = .ok cs := by
  obtain ⟨fi, h1, h2, h3, h4, h5, h6, h7, h8⟩ := row_xbands.at_
  rcases hc.bands with ⟨q1, q2, q3⟩ | ⟨q1, q3, raw, q4⟩
  · refine fwd_skip h1 ?_ h
    rw [xbands_cond P q3 _ h1, decide_eq_false (by omega)]
  · have hcond : evalCond P (look P ihD.tab S) fi [] = .ok true := by rw [xbands_cond P q3 _ h1]; rfl
    refine fwd_field h1 hcond ?_ h
    unfold fieldBytes
    rw [Scalar.size_const P h6 h8]
    have hs : stored S fi.fd 37 [] = .val (.int nb) := by unfold stored; rw [q4]
    simp only [hs]
    rw [h2.lowGet P hcond, hs, finish_int P h4]
    exact (encode_int_iff P h4 h7 5 nb).mpr (.inl ⟨by omega, by decide, by omega⟩)

/-- The subheader of an image within the limits can be written. -/
theorem image_fwd (hc : Cells P t nr nc dt nb mode S) (hn : nb ≤ 99999)
    (htop : ∀ m, TopPos m → CellOk ihD.tab S m []) : ∃ b, writeStruct P ihD S = .ok b := by
  have hic : look P ihD.tab S (n!"icords") [] = .ok (.str []) :=
    unset_str ihD_causal row_icords rfl (hc.others 30 _ (by decide))
  have hud := (unset_int (P := P) ihD_causal row_udidl rfl (hc.others 56 _ (by decide))).1
  have hix := (unset_int (P := P) ihD_causal row_ixshdl rfl (hc.others 59 _ (by decide))).1
  have hnc : look P ihD.tab S (n!"ic") [] = .ok (.str "NC".toList) := by
    rw [row_ic.look P ihD_causal, row_ic.get_str P hc.ic]; rfl
  have hni : look P ihD.tab S (n!"nicom") [] = .ok (.int 0) := by
    rw [row_nicom.look P ihD_causal, row_nicom.get_int P hc.nicom]
  have : ∃ cs, writeD P ihD.tab S 0 [] ihD = .ok cs := by
    refine fwd_run 31 0 _ (by decide +kernel) rfl (fun m _ h => htop m (by unfold TopPos; omega)) ?_
    refine fwd_skip (show ihD.tab[31]? = some _ from rfl) ?_ ?_
    · unfold evalCond
      simp [evalE, idxKey, bind, Except.bind, hic, pure, Except.pure, CVal.toVal, pyEq, bval, truthy,
        Except.map]
      rfl
    refine fwd_run 1 32 _ (by decide +kernel) rfl (fun m _ h => htop m (by unfold TopPos; omega)) ?_
    refine fwd_loop (c := 0) ?_ (fun j hj => by omega) ?_
    · unfold evalShape
      simp [evalE, idxKey, bind, Except.bind, hni]
    refine fwd_run 1 34 _ (by decide +kernel) rfl (fun m _ h => htop m (by unfold TopPos; omega)) ?_
    refine fwd_skip (show ihD.tab[35]? = some _ from rfl) ?_ ?_
    · unfold evalCond
      simp [evalE, idxKey, bind, Except.bind, hnc, pure, Except.pure, CVal.toVal, pyEq, bval, truthy,
        Except.map]
    refine fwd_run 1 36 _ (by decide +kernel) rfl (fun m _ h => htop m (by unfold TopPos; omega)) ?_
    refine xbands_fwd hc hn ?_
    refine fwd_loop (c := nb) (hc.bands.shape P []) ?_ ?_
    · intro i hi
      exact band_fwd hc hn (by omega) ⟨_, _, _, rfl, rfl, rfl⟩
    refine fwd_run 11 45 _ (by decide +kernel) rfl (fun m _ h => htop m (by unfold TopPos; omega)) ?_
    refine fwd_run 1 56 _ (by decide +kernel) rfl (fun m _ h => htop m (by unfold TopPos; omega)) ?_
    refine area_fwd (n := 57) rfl rfl rfl (by decide +kernel) hud (hc.others 58 _ (by decide)) ?_
    refine fwd_run 1 59 _ (by decide +kernel) rfl (fun m _ h => htop m (by unfold TopPos; omega)) ?_
    exact area_fwd (n := 60) rfl rfl rfl (by decide +kernel) hix (hc.others 61 _ (by decide)) ⟨[], rfl⟩
  obtain ⟨cs, h⟩ := this
  exact ⟨chunkBytes cs, by unfold writeStruct writeChunks; rw [h]; rfl⟩

theorem total_range (c w : Nat) (f : Int → List Piece) (hf : ∀ i : Nat, i < c → total (f i) = w) :
    total (each c f) = c * w := by
  unfold each
  rw [Int.toNat_natCast]
  induction c with
  | zero => simp [total]
  | succ n ih =>
    rw [List.range_succ, List.flatMap_append, total_append, ih fun i hi => hf i (by omega)]
    simp only [List.flatMap_cons, List.flatMap_nil, List.append_nil]
    rw [hf n (by omega), Nat.succ_mul]

theorem counts_int {d : Desc} {nm : Name} {key : Key} {c z : Int} (h : Counts P d S nm key c)
    (hz : getAttr P d S nm key = .ok (.int z)) : c = z := by
  rcases h with h | ⟨h, _⟩
  · rw [h] at hz; injection hz with hz; injection hz
  · rw [h] at hz; cases hz

/-- The length of the subheader. -/
theorem image_length (hc : Cells P t nr nc dt nb mode S) {b : Bytes} (h : writeStruct P ihD S = .ok b) :
    b.length = 426 + 13 * nb + if nb < 10 then 0 else 5 := by
  obtain ⟨q, hq, hw⟩ := C98_image_written P h
  rw [C98_total P hw]
  have d : ihD = Tables.t_image_subheader := rfl
  have q1 : q.coordinates = false := hq.coordinates.mpr ⟨[], by
    have := unset_str (P := P) ihD_causal row_icords rfl (hc.others 30 _ (by decide))
    rwa [row_icords.look P ihD_causal] at this, by simp⟩
  have q2 : q.comments = 0 := counts_int hq.comments (row_nicom.get_int P hc.nicom)
  have q3 : q.compressed = false := by
    obtain ⟨v, h1, h2⟩ := hq.compressed
    have : v = .str "NC".toList := by
      have := row_ic.get_str P hc.ic
      rw [show getAttr P ihD S (n!"ic") [] = .ok v from h1] at this
      injection this
    cases hcm : q.compressed with
    | false => rfl
    | true => exact absurd this (h2.mp hcm).1
  have q4 : q.nbands = if nb < 10 then (nb : Int) else 0 := by
    have h1 := hc.bands.nbands P
    have h2 := hq.nbands
    unfold ihGet at h1
    rw [show getAttr P Tables.t_image_subheader S (n!"nbands") [] = .ok (.int _) from h1] at h2
    injection h2 with h2
    injection h2 with h2
    rw [← h2]
    by_cases hb : nb < 10
    · rw [if_pos (by omega), if_pos hb]
    · rw [if_neg (by omega), if_neg hb]
  have hb1 : 1 ≤ nb := by rcases hc.bands with ⟨h, _⟩ | ⟨h, _⟩ <;> omega
  have q5 : (if q.nbands > 0 then q.nbands else q.xbands) = (nb : Int) := by
    rw [q4]
    by_cases hb : nb < 10
    · rw [if_pos hb, if_pos (by omega)]
    · rw [if_neg hb, if_neg (by omega)]
      exact counts_int (hq.xbands (by rw [q4, if_neg hb]; omega)) (hc.bands.xbands P (by omega))
  have q6 : q.udidl = 0 := by
    have h1 := (unset_int (P := P) ihD_causal row_udidl rfl (hc.others 56 _ (by decide))).2
    have h2 := hq.udidl
    rw [show getAttr P Tables.t_image_subheader S (n!"udidl") [] = .ok (.int 0) from h1] at h2
    injection h2 with h2; injection h2 with h2; exact h2.symm
  have q7 : q.ixshdl = 0 := by
    have h1 := (unset_int (P := P) ihD_causal row_ixshdl rfl (hc.others 59 _ (by decide))).2
    have h2 := hq.ixshdl
    rw [show getAttr P Tables.t_image_subheader S (n!"ixshdl") [] = .ok (.int 0) from h1] at h2
    injection h2 with h2; injection h2 with h2; exact h2.symm
  have q8 := total_range nb 13 (fun i =>
    row [i] [("irepband", 2), ("isubcat", 6), ("ifc", 1), ("imflt", 3), ("nluts", 1)] ++
    (if q.anyTables i then row [i] [("nelut", 5)] else []) ++
    each (q.tables i) fun j => row [i, j] [("lutd", (q.entries i).toNat)]) (by
      intro i hi
      have hl := ref_val ihD_causal (nluts_look hc.bands hi (hc.loops i hi).2.2)
      obtain ⟨t1, t2, _⟩ := hq.tables i (by omega) (by rw [q5]; omega)
      have e1 := counts_int t1 hl
      have e2 : q.anyTables i = false := by
        cases hx : q.anyTables i with
        | false => rfl
        | true => exact absurd hl (t2.mp hx)
      rw [e1, e2]
      rfl)
  unfold imageSubheader
  rw [q5, q1, q2, q3, q6, q7]
  simp only [total_append, q8, total_area (.inl rfl), total_row, security,
    List.map_append, List.map_cons, List.map_nil, List.sum_append, List.sum_cons, List.sum_nil]
  have e0 : total (each 0 fun i => row [i] [("icom", 80)]) = 0 := rfl
  rw [e0, q4]
  by_cases hb : nb < 10
  · have h0 : ¬ (nb : Int) = 0 := by omega
    rw [if_pos hb, if_pos hb, if_neg h0]
    simp [total]
    omega
  · have h0 : (0 : Int) = 0 := rfl
    rw [if_neg hb, if_neg hb, if_pos h0]
    simp [total, row]
    omega

/-! ### The file header -/

/-- The header of a new file with `n` images. -/
def newHeader (P : PyFloat) (n : Nat) : Store P.F :=
  ((((Store.empty.set 31 [] ⟨.val (.int n), none⟩).set 34 [] ⟨.val (.int 0), none⟩).set 38 []
    ⟨.val (.int 0), none⟩).set 41 [] ⟨.val (.int 0), none⟩).set 44 [] ⟨.val (.int 0), none⟩

theorem newHeader_num (n : Nat) (k : SegKind) : newHeader P n (numPos k) [] =
    some ⟨.val (.int (if k = .image then n else 0)), none⟩ := by
  unfold newHeader
  cases k <;> simp [Store.set, numPos]

theorem newHeader_other {n m : Nat} {key : Key} (h : m ∉ [31, 34, 38, 41, 44]) :
    newHeader P n m key = none := by
  simp only [List.mem_cons, List.not_mem_nil, or_false, not_or] at h
  unfold newHeader
  simp only [Store.set]
  rw [if_neg (by omega), if_neg (by omega), if_neg (by omega), if_neg (by omega), if_neg (by omega)]
  rfl

theorem head_default : ∀ m, m < 53 → (m < 31 ∨ m = 37 ∨ m = 47 ∨ m = 50) →
    defaultAt Tables.t_file_header.tab m = true := by
  decide +kernel

theorem head_cells {n : Nat} (hn : n ≤ 999) {m : Nat}
    (hm : m < 32 ∨ m = 34 ∨ m = 37 ∨ m = 38 ∨ m = 41 ∨ m = 44 ∨ m = 47 ∨ m = 50) :
    CellOk Tables.t_file_header.tab (newHeader P n) m [] := by
  by_cases h : m ∈ [31, 34, 38, 41, 44]
  · simp only [List.mem_cons, List.not_mem_nil, or_false] at h
    rcases h with rfl | rfl | rfl | rfl | rfl
    · exact cell_int (w := 3) (by decide +kernel) (newHeader_num n .image)
        (.inl ⟨by simp, by decide, by simp; omega⟩)
    · exact cell_int (w := 3) (by decide +kernel) (newHeader_num n .graphic)
        (.inl ⟨by simp, by decide, by simp⟩)
    · exact cell_int (w := 3) (by decide +kernel) (newHeader_num n .text)
        (.inl ⟨by simp, by decide, by simp⟩)
    · exact cell_int (w := 3) (by decide +kernel) (newHeader_num n .des)
        (.inl ⟨by simp, by decide, by simp⟩)
    · exact cell_int (w := 3) (by decide +kernel) (newHeader_num n .res)
        (.inl ⟨by simp, by decide, by simp⟩)
  · refine cell_default (head_default m (by omega) ?_) (newHeader_other h)
    simp only [List.mem_cons, List.not_mem_nil, or_false, not_or] at h
    omega

theorem fileD_causal : Tables.t_file_header.causal = true := by decide +kernel
theorem row_udhdl : Row Tables.t_file_header (n!"udhdl") 47 .int none 5 := Row.of (by decide +kernel)
theorem row_xhdl : Row Tables.t_file_header (n!"xhdl") 50 .int none 5 := Row.of (by decide +kernel)

theorem header_fwd {n : Nat} (hn : n ≤ 999) :
    ∃ cs, writeChunks P Tables.t_file_header (newHeader P n) = .ok cs := by
  have hu := (unset_int (P := P) fileD_causal row_udhdl rfl (newHeader_other (n := n) (by decide))).1
  have hx := (unset_int (P := P) fileD_causal row_xhdl rfl (newHeader_other (n := n) (by decide))).1
  show ∃ cs, writeD P Tables.t_file_header.tab (newHeader P n) 0 [] Tables.t_file_header = .ok cs
  refine fwd_run 31 0 _ (by decide +kernel) rfl (fun m _ h => head_cells hn (by omega)) ?_
  refine fwd_run 1 31 _ (by decide +kernel) rfl (fun m _ h => head_cells hn (by omega)) ?_
  refine fwd_loop ((numField .image).shape P (newHeader_num n .image) []) ?_ ?_
  · intro i hi
    simp only [if_true] at hi
    refine fwd_run 2 32 _ (by decide +kernel) rfl ?_ ⟨[], rfl⟩
    intro m h1 h2 fi hf
    have hm : m = 32 ∨ m = 33 := by omega
    rcases hm with rfl | rfl
    · obtain ⟨f1, z1⟩ := len_sized .image
      have : f1 = fi := by have := z1.at_; rw [show lenPos .image = 32 from rfl, hf] at this; cases this; rfl
      subst this
      refine ⟨check_loop z1 (c := n) (newHeader_num n .image) (by omega), _, by
        unfold stored; rw [newHeader_other (by decide)], ?_⟩
      exact defaultFits_ok (by
        have : (Tables.t_file_header.tab[32]?.map fun fi =>
          defaultFits fi.fd (widthAt Tables.t_file_header.tab 32)) = some true := by decide +kernel
        rw [hf] at this
        exact Option.some.inj this)
    · obtain ⟨f1, z1⟩ := data_sized .image
      have : f1 = fi := by have := z1.at_; rw [show dataPos .image = 33 from rfl, hf] at this; cases this; rfl
      subst this
      refine ⟨check_loop z1 (c := n) (newHeader_num n .image) (by omega), _, by
        unfold stored; rw [newHeader_other (by decide)], ?_⟩
      exact defaultFits_ok (by
        have : (Tables.t_file_header.tab[33]?.map fun fi =>
          defaultFits fi.fd (widthAt Tables.t_file_header.tab 33)) = some true := by decide +kernel
        rw [hf] at this
        exact Option.some.inj this)
  have none : ∀ k : SegKind, k ≠ .image → ∀ i : Nat, (i : Int) <
      (if k = .image then (n : Int) else 0) → False := by
    intro k hk i hi
    rw [if_neg hk] at hi
    omega
  refine fwd_run 1 34 _ (by decide +kernel) rfl (fun m _ h => head_cells hn (by omega)) ?_
  refine fwd_loop ((numField .graphic).shape P (newHeader_num n .graphic) [])
    (fun i hi => (none .graphic (by decide) i hi).elim) ?_
  refine fwd_run 2 37 _ (by decide +kernel) rfl (fun m _ h => head_cells hn (by omega)) ?_
  refine fwd_loop ((numField .text).shape P (newHeader_num n .text) [])
    (fun i hi => (none .text (by decide) i hi).elim) ?_
  refine fwd_run 1 41 _ (by decide +kernel) rfl (fun m _ h => head_cells hn (by omega)) ?_
  refine fwd_loop ((numField .des).shape P (newHeader_num n .des) [])
    (fun i hi => (none .des (by decide) i hi).elim) ?_
  refine fwd_run 1 44 _ (by decide +kernel) rfl (fun m _ h => head_cells hn (by omega)) ?_
  refine fwd_loop ((numField .res).shape P (newHeader_num n .res) [])
    (fun i hi => (none .res (by decide) i hi).elim) ?_
  refine fwd_run 1 47 _ (by decide +kernel) rfl (fun m _ h => head_cells hn (by omega)) ?_
  refine area_fwd (n := 48) rfl rfl rfl (by decide +kernel) hu (newHeader_other (by decide)) ?_
  refine fwd_run 1 50 _ (by decide +kernel) rfl (fun m _ h => head_cells hn (by omega)) ?_
  exact area_fwd (n := 51) rfl rfl rfl (by decide +kernel) hx (newHeader_other (by decide)) ⟨[], rfl⟩

theorem header_length {n : Nat} {cs : List Chunk}
    (h : writeChunks P Tables.t_file_header (newHeader P n) = .ok cs) :
    (chunkBytes cs).length = 388 + 16 * n := by
  have hw : writeStruct P Tables.t_file_header (newHeader P n) = .ok (chunkBytes cs) := by
    unfold writeStruct; rw [h]; rfl
  obtain ⟨a, b, c, d, e, u, x, q, hw⟩ := C98_file_written P hw
  rw [C98_total P hw]
  have num : ∀ k : SegKind, getAttr P Tables.t_file_header (newHeader P n) k.numField [] =
      .ok (.int (if k = .image then (n : Int) else 0)) := fun k => (numField k).get P (newHeader_num n k)
  have e1 := counts_int q.numi (num .image)
  have e2 := counts_int q.nums (num .graphic)
  have e3 := counts_int q.numt (num .text)
  have e4 := counts_int q.numdes (num .des)
  have e5 := counts_int q.numres (num .res)
  simp only [if_true, reduceCtorEq, if_false] at e1 e2 e3 e4 e5
  have e6 : u = 0 := by
    have h2 := q.udhdl
    rw [(unset_int (P := P) fileD_causal row_udhdl rfl (newHeader_other (n := n) (by decide))).2] at h2
    injection h2 with h2; injection h2 with h2; exact h2.symm
  have e7 : x = 0 := by
    have h2 := q.xhdl
    rw [(unset_int (P := P) fileD_causal row_xhdl rfl (newHeader_other (n := n) (by decide))).2] at h2
    injection h2 with h2; injection h2 with h2; exact h2.symm
  rw [(C98_lengths a b c d e u x 0 false (.inl e6) (.inl e7) (.inl rfl)).1, e1, e2, e3, e4, e5, e6, e7]
  simp

/-! ### Failing fields -/

theorem text_fails {d : Desc} {nm : Name} {n size : Nat} (h : Row d nm n .str none size)
    (ht : d.topAt 0 n = true) {S : Store P.F} {t : Str} {raw : Option Bytes} {b : Bytes}
    (hS : S n [] = some ⟨.val (.str t), raw⟩) (hw : writeStruct P d S = .ok b) : TextFits size t := by
  obtain ⟨fi, h1, h2, h3, h4, h5, h6, h7, h8⟩ := h.at_
  have hc : evalCond P (look P d.tab S) fi [] = .ok true := evalCond_none P h5 _ _
  refine Classical.byContradiction fun hz => ?_
  have : ∃ e, writeStruct P d S = .error e := by
    cases hl : layout P d S with
    | error e =>
      unfold writeStruct
      cases hw : writeChunks P d S with
      | error e => exact ⟨e, rfl⟩
      | ok cs =>
        have := writeD_layout P S d 0 [] cs hw
        rw [show layoutD P d.tab S 0 [] d = .error e from hl] at this
        cases this
    | ok sl =>
      obtain ⟨s, hs, hp, hk⟩ := layoutD_top P h1 hc d 0 sl ht hl
      refine write_fails P hl hs (by rw [hp]; exact h1) ?_
      intro b hb
      rw [hp, hk] at hb
      unfold fieldBytes at hb
      rw [Scalar.size_const P h6 h8] at hb
      simp only at hb
      have : stored S fi.fd n [] = .val (.str t) := by unfold stored; rw [hS]
      rw [this] at hb
      simp only at hb
      rw [h2.lowGet P hc, this, finish_str P h4] at hb
      exact hz ((encode_str_iff P h4 h7 size (rstripU t)).mp ⟨b, hb⟩)
  obtain ⟨e, he⟩ := this
  rw [he] at hw
  cases hw

theorem int_fails {d : Desc} {nm : Name} {n size : Nat} {cond : Option Expr}
    (h : Row d nm n .int cond size) (ht : d.topAt 0 n = true) {S : Store P.F} {z : Int} {b : Bytes}
    (hc : ∀ fi, d.tab[n]? = some fi → evalCond P (look P d.tab S) fi [] = .ok true)
    (hS : HasInt S n z) (hw : writeStruct P d S = .ok b) : FitsDec size z := by
  refine Classical.byContradiction fun hz => ?_
  obtain ⟨e, he⟩ := h.overflow P ht hc hS hz
  rw [he] at hw
  cases hw

theorem Row.always {d : Desc} {nm : Name} {n size : Nat} {ty : Ty} (h : Row d nm n ty none size)
    (S : Store P.F) :
    ∀ fi, d.tab[n]? = some fi → evalCond P (look P d.tab S) fi [] = .ok true := by
  intro fi hf
  obtain ⟨fi', h1, h2, h3, h4, h5, _⟩ := h.at_
  rw [hf] at h1
  cases h1
  exact evalCond_none P h5 _ _

/-- A subheader that is written fits. -/
theorem image_back (hc : Cells P t nr nc dt nb mode S) {b : Bytes} (h : writeStruct P ihD S = .ok b) :
    (TextFits 10 t.iid1 ∧ TextFits 80 t.iid2 ∧ TextFits 14 t.idatim ∧ TextFits 8 t.irep ∧
      TextFits 8 t.icat) ∧ (-99 ≤ t.idlvl ∧ t.idlvl ≤ 999) ∧ nr ≤ 9999 ∧ nc ≤ 9999 ∧ 8 * dt.size ≤ 99 ∧
      nb ≤ 99999 := by
  refine ⟨⟨text_fails row_iid1 (by decide +kernel) hc.iid1 h, text_fails row_iid2 (by decide +kernel) hc.iid2 h,
    text_fails row_idatim (by decide +kernel) hc.idatim h, text_fails row_irep (by decide +kernel) hc.irep h,
    text_fails row_icat (by decide +kernel) hc.icat h⟩, ?_, ?_, ?_, ?_, ?_⟩
  · have := int_fails row_idlvl (by decide +kernel) (Row.always row_idlvl S) ⟨_, hc.idlvl⟩ h
    unfold FitsDec at this
    omega
  · rcases hc.tall with ht | ht
    · have := int_fails row_nbpc (by decide +kernel) (Row.always row_nbpc S) ht h
      unfold FitsDec at this
      omega
    · have := int_fails row_nppbv (by decide +kernel) (Row.always row_nppbv S) ht h
      unfold FitsDec at this
      omega
  · have := int_fails row_nppbh (by decide +kernel) (Row.always row_nppbh S) ⟨_, hc.nppbh⟩ h
    unfold FitsDec at this
    omega
  · have := int_fails row_abpp (by decide +kernel) (Row.always row_abpp S) ⟨_, hc.abpp⟩ h
    unfold FitsDec at this
    omega
  · rcases hc.bands with ⟨q1, q2, q3⟩ | ⟨q1, q3, q4⟩
    · omega
    · have := int_fails row_xbands (by decide +kernel) (fun fi hf => by rw [xbands_cond P q3 fi hf]; rfl)
        q4 h
      unfold FitsDec at this
      omega

/-! ### Segments -/

theorem Asked.cells {a : Asked P} (ha : a.Ok) : ∀ R : DataReg, Cells P a.texts a.rows a.cols a.dtype
    a.bands a.mode (a.seg R).sub := by
  intro R
  obtain ⟨S, h1, h2⟩ := new_cells P a.texts a.rows a.cols ha.mode ha.dtype ha.bands
  show Cells P _ _ _ _ _ _ (newImage P a.texts a.rows a.cols a.dtype a.bands a.mode).1
  rw [h1]
  exact h2

theorem Asked.pixels {a : Asked P} (ha : a.Ok) (R : DataReg) : ∃ db,
    writeData P (stdIO P (imgIO P) R) (a.seg R).data = .ok db ∧ db.length = dataLength a := by
  obtain ⟨o, plan, data, h1, h2, h3, h4, h5⟩ := C97_new (R := R) (s := a.seg R) a.texts ha.mode ha.dtype
    ha.bands ha.fill (fun _ _ => rfl) rfl
  obtain ⟨st, _, h6, _⟩ := h5
  refine ⟨data, ?_, h6⟩
  rw [h1]
  simp only [writeData, stdIO, writeObj, imgIO, h4]

theorem Asked.segBytes {E : Env} {a : Asked P} (ha : a.Ok) (R : DataReg) (hf : FieldsFit a) :
    ∃ r, segBytes P E (stdIO P (imgIO P) R) .image (a.seg R) = .ok r := by
  have hc := Asked.cells ha R
  obtain ⟨b, hb⟩ := image_fwd hc hf.bands fun m hm => top_cells hc hf.iid1 hf.iid2 hf.idatim hf.irep
    hf.icat hf.level hf.rows hf.cols (by have := hf.bits; omega) hm
  obtain ⟨db, hd, _⟩ := Asked.pixels ha R
  unfold Verif.segBytes
  have h1 : checkUser P E (stdIO P (imgIO P) R) .image (a.seg R) = .ok () := rfl
  have h2 : writeUser P .image (a.seg R).user (a.seg R).sub = .ok (a.seg R).sub := rfl
  rw [h1, h2]
  simp only
  rw [show writeStruct P SegKind.image.desc (a.seg R).sub = .ok b from hb, hd]
  exact ⟨_, rfl⟩

theorem Asked.written {E : Env} {a : Asked P} (ha : a.Ok) {R : DataReg} {r}
    (h : Verif.segBytes P E (stdIO P (imgIO P) R) .image (a.seg R) = .ok r) :
    FieldsFit a ∧ r.2.1.length = subLength a ∧ r.2.2.length = dataLength a := by
  have hc := Asked.cells ha R
  obtain ⟨db, hd, hl⟩ := Asked.pixels ha R
  unfold Verif.segBytes at h
  have h1 : checkUser P E (stdIO P (imgIO P) R) .image (a.seg R) = .ok () := rfl
  have h2 : writeUser P .image (a.seg R).user (a.seg R).sub = .ok (a.seg R).sub := rfl
  rw [h1, h2] at h
  simp only at h
  cases hw : writeStruct P SegKind.image.desc (a.seg R).sub with
  | error e => rw [hw] at h; cases h
  | ok b =>
    rw [hw, hd] at h
    injection h with h
    subst h
    obtain ⟨⟨f1, f2, f3, f4, f5⟩, f6, f7, f8, f9, f10⟩ := image_back hc hw
    exact ⟨⟨f1, f2, f3, f4, f5, f6, f7, f8, f9, f10⟩, image_length hc hw, hl⟩

/-! ### Preparing a file without TREs -/

theorem storeAreas_none {d : Desc} {S : Store P.F} : ∀ {areas : List Area},
    (∀ a ∈ areas, getAttr P d S a.len [] = .ok (.int 0)) →
    storeAreas P d areas (areas.map fun _ => []) S = .ok S
  | [], _ => rfl
  | a :: as, h => by
    have h1 : attrPos P d S a.len = .ok false := by
      unfold attrPos
      rw [h a (by simp)]
      rfl
    simp only [List.map_cons, storeAreas, h1, Bool.false_eq_true, if_false, List.length_nil, gt_iff_lt,
      Nat.lt_irrefl]
    exact storeAreas_none fun b hb => h b (by simp [hb])

theorem prepare_none {IO : DataIO P.F} {d : Desc} {S : Store P.F} {areas : List Area} {pre : Name}
    {ofl : Str} {i : Nat} {des : List (Seg P.F IO.D)}
    (h : ∀ a ∈ areas, getAttr P d S a.len [] = .ok (.int 0)) :
    prepareHeader P IO d areas pre ofl i [] S des = .ok (S, des) := by
  unfold prepareHeader prepareTreWrite
  simp only [treWriteAll, place, storeAreas_none h, List.length_nil, gt_iff_lt, Nat.lt_irrefl, if_false]

theorem prepare_images {R : DataReg} : ∀ (i : Nat) (as : List (Asked P)),
    (∀ a ∈ as, a.Ok ∧ a.tres = []) →
    prepareSegs P (stdIO P (imgIO P) R) .image i (as.map (·.seg R)) [] = .ok (as.map (·.seg R), [])
  | _, [], _ => rfl
  | i, a :: as, h => by
    obtain ⟨ha, ht⟩ := h a (by simp)
    have hc := Asked.cells ha R
    have hp : prepareHeader P (stdIO P (imgIO P) R) SegKind.image.desc imageAreas SegKind.image.secPrefix
        SegKind.image.oflName i (a.seg R).tres (a.seg R).sub [] = .ok ((a.seg R).sub, []) := by
      rw [show (a.seg R).tres = [] from ht]
      refine prepare_none fun x hx => ?_
      simp only [imageAreas, List.mem_cons, List.not_mem_nil, or_false] at hx
      rcases hx with rfl | rfl
      · exact (unset_int (P := P) ihD_causal row_ixshdl rfl (hc.others 59 _ (by decide))).2
      · exact (unset_int (P := P) ihD_causal row_udidl rfl (hc.others 56 _ (by decide))).2
    simp only [List.map_cons, prepareSegs, show SegKind.image.areas = some imageAreas from rfl, hp,
      prepare_images (i + 1) as fun b hb => h b (by simp [hb])]

theorem prepared {R : DataReg} {as : List (Asked P)} (has : ∀ a ∈ as, a.Ok ∧ a.tres = []) :
    ∃ segs, prepareFile P (stdIO P (imgIO P) R) (newFile as R) = .ok (newHeader P as.length, segs) ∧
      segs .image = as.map (·.seg R) ∧ ∀ k, k ≠ .image → segs k = [] := by
  have h1 : prepareHeader P (stdIO P (imgIO P) R) Tables.t_file_header fileAreas (n!"fs") "XHD".toList 0
      [] Store.empty [] = .ok (Store.empty, []) := by
    refine prepare_none fun x hx => ?_
    simp only [fileAreas, List.mem_cons, List.not_mem_nil, or_false] at hx
    rcases hx with rfl | rfl
    · exact (unset_int (P := P) fileD_causal row_xhdl rfl rfl).2
    · exact (unset_int (P := P) fileD_causal row_udhdl rfl rfl).2
  have hnum : ∀ (k : SegKind) (S : Store P.F) (z : Int) (l : List (Name × Val P.F)),
      setAll P Tables.t_file_header ((k.numField, .int z) :: l) S =
        setAll P Tables.t_file_header l (S.set (numPos k) [] ⟨.val (.int z), none⟩) := by
    intro k S z l
    have hr : Row Tables.t_file_header k.numField (numPos k) .int none 3 :=
      Row.of (by cases k <;> decide +kernel)
    simp only [setAll, setA, hr.set P S (v := .int z) rfl]
  have h2 : setAll P Tables.t_file_header
      [(n!"numi", .int ((as.map (·.seg R)).length : Nat)), (n!"nums", .int ((0 : Nat) : Int)),
       (n!"numt", .int ((0 : Nat) : Int)), (n!"numdes", .int ((0 : Nat) : Int)),
       (n!"numres", .int ((0 : Nat) : Int))] Store.empty =
      .ok (newHeader P as.length) := by
    rw [List.length_map]
    rw [show (n!"numi") = SegKind.image.numField from rfl, hnum,
      show (n!"nums") = SegKind.graphic.numField from rfl, hnum,
      show (n!"numt") = SegKind.text.numField from rfl, hnum,
      show (n!"numdes") = SegKind.des.numField from rfl, hnum,
      show (n!"numres") = SegKind.res.numField from rfl, hnum]
    rfl
  refine ⟨fun
    | .image => as.map (·.seg R) | .graphic => [] | .text => [] | .des => [] | .res => [], ?_, rfl, ?_⟩
  · unfold prepareFile newFile
    simp only [dropOverflow, bind, Except.bind, h1, prepare_images 0 as has, prepareSegs, List.length_nil]
    rw [h2]
    rfl
  · intro k hk
    cases k <;> first | exact absurd rfl hk | rfl

/-! ### C100 -/

theorem each_written {E : Env} {R : DataReg} : ∀ {as : List (Asked P)} {rs},
    (∀ a ∈ as, a.Ok) →
    Each (fun s r => Verif.segBytes P E (stdIO P (imgIO P) R) .image s = .ok r) (as.map (·.seg R)) rs →
    (∀ a ∈ as, FieldsFit a) ∧ (rs.flatMap fun r => r.2.1 ++ r.2.2).length =
      (as.map fun a => subLength a + dataLength a).sum ∧
    ∀ (i : Nat) a r, as[i]? = some a → rs[i]? = some r →
      r.2.1.length = subLength a ∧ r.2.2.length = dataLength a
  | [], _, _, h => by cases h; exact ⟨by simp, rfl, by simp⟩
  | a :: as, _, ho, h => by
    cases h with
    | @cons _ _ r rs h1 h2 =>
      obtain ⟨f1, f2, f3⟩ := Asked.written (ho a (by simp)) h1
      obtain ⟨i1, i2, i3⟩ := each_written (fun b hb => ho b (by simp [hb])) h2
      refine ⟨?_, ?_, ?_⟩
      · intro b hb
        rcases List.mem_cons.mp hb with rfl | hb
        · exact f1
        · exact i1 b hb
      · simp only [List.flatMap_cons, List.length_append, List.map_cons, List.sum_cons, i2, f2, f3]
      · intro i b q hb hq
        cases i with
        | zero =>
          simp only [List.getElem?_cons_zero, Option.some.injEq] at hb hq
          subst hb hq
          exact ⟨f2, f3⟩
        | succ i => exact i3 i b q (by simpa using hb) (by simpa using hq)

theorem each_exists {α β : Type} {Q : α → β → Prop} : ∀ {as : List α}, (∀ a ∈ as, ∃ b, Q a b) →
    ∃ bs, Each Q as bs
  | [], _ => ⟨[], .nil⟩
  | a :: as, h => by
    obtain ⟨b, hb⟩ := h a (by simp)
    obtain ⟨bs, hbs⟩ := each_exists (as := as) fun x hx => h x (by simp [hx])
    exact ⟨b :: bs, .cons hb hbs⟩

theorem each_nil {α β : Type} {Q : α → β → Prop} {bs : List β} (h : Each Q [] bs) : bs = [] := by
  cases h; rfl

theorem parts_length {F D : Type} {res : SegKind → List (Seg F D × Bytes × Bytes)}
    (h : ∀ k, k ≠ .image → res k = []) :
    (partsBytes fun k => (res k).map (·.2)).length = ((res .image).flatMap fun r => r.2.1 ++ r.2.2).length := by
  unfold partsBytes
  simp only [SegKind.order, List.flatMap_cons, List.flatMap_nil, h .graphic (by decide), h .text (by decide),
    h .des (by decide), h .res (by decide), List.append_nil, List.flatMap_map]

variable {E : Env} {R : DataReg} {as : List (Asked P)}

/-- C100.  A file made from scratch with any images without TREs is written exactly when all of them
are within the limits of the format, they are at most 999, and the file is not too long. -/
theorem C100_writes_iff (has : ∀ a ∈ as, a.Ok ∧ a.tres = []) :
    (∃ r, writeFile P E (stdIO P (imgIO P) R) (newFile as R) = .ok r) ↔
      (∀ a ∈ as, Fits a) ∧ as.length ≤ 999 ∧ fileLength as < 1000000000000 := by
  obtain ⟨segs, hp, hi, ho⟩ := prepared (R := R) has
  rw [C70_writes_iff hp]
  have hok : ∀ a ∈ as, a.Ok := fun a h => (has a h).1
  constructor
  · rintro ⟨cs, res, hf⟩
    have he := hf.segments .image
    rw [hi] at he
    obtain ⟨e1, e2, e3⟩ := each_written hok he
    have hn : as.length ≤ 999 := by
      have hw : writeStruct P Tables.t_file_header (newHeader P as.length) = .ok (chunkBytes cs) := by
        unfold writeStruct; rw [hf.header]; rfl
      have hr : Row Tables.t_file_header (n!"numi") 31 .int none 3 := Row.of (by decide +kernel)
      have := int_fails hr (by decide +kernel) (Row.always hr _)
        ⟨none, newHeader_num as.length .image⟩ hw
      unfold FitsDec at this
      simp only [if_true] at this
      omega
    refine ⟨fun a ha => ?_, hn, ?_⟩
    · obtain ⟨i, hia⟩ := List.getElem?_of_mem ha
      have hs : (segs .image)[i]? = some (a.seg R) := by rw [hi, List.getElem?_map, hia]; rfl
      obtain ⟨r, hr⟩ : ∃ r, (res .image)[i]? = some r := by
        have hl := he.length
        have : i < (res .image).length := by
          have := lt_of_getElem? hs
          rw [hi] at this
          omega
        exact ⟨_, List.getElem?_eq_getElem this⟩
      obtain ⟨l1, l2⟩ := hf.lengths .image i _ r hs hr rfl
      obtain ⟨m1, m2⟩ := e3 i a r hia hr
      rw [m1] at l1
      rw [m2] at l2
      exact { toFieldsFit := e1 a ha, sub := l1, data := l2 }
    · have hl := hf.fileLength
      rw [header_length hf.header, parts_length (fun k hk => by
        have := hf.segments k
        rw [ho k hk] at this
        exact each_nil this), e2] at hl
      unfold fileLength
      omega
  · rintro ⟨h1, h2, h3⟩
    obtain ⟨cs, hcs⟩ := header_fwd (P := P) h2
    obtain ⟨rs, hrs⟩ := each_exists (as := as.map (·.seg R))
      (Q := fun s r => Verif.segBytes P E (stdIO P (imgIO P) R) .image s = .ok r) (by
        intro s hs
        obtain ⟨a, ha, rfl⟩ := List.mem_map.mp hs
        exact Asked.segBytes (hok a ha) R (h1 a ha).toFieldsFit)
    obtain ⟨_, e2, e3⟩ := each_written hok hrs
    refine ⟨cs, fun k => if k = .image then rs else [], hcs, ?_, ?_, ?_, ?_⟩
    · intro k
      by_cases hk : k = .image
      · subst hk
        simp only [if_true]
        rw [hi]
        exact hrs
      · simp only [if_neg hk]
        rw [ho k hk]
        exact .nil
    · intro k i s r hs hr _
      by_cases hk : k = .image
      · subst hk
        simp only [if_true] at hr
        rw [hi, List.getElem?_map] at hs
        cases ha : as[i]? with
        | none => rw [ha] at hs; cases hs
        | some a =>
          obtain ⟨m1, m2⟩ := e3 i a r ha hr
          have := h1 a (List.mem_of_getElem? ha)
          rw [m1, m2]
          exact ⟨this.sub, this.data⟩
      · rw [ho k hk] at hs
        simp at hs
    · rw [header_length hcs]; omega
    · rw [header_length hcs, parts_length (fun k hk => if_neg hk)]
      simp only [if_true, e2]
      exact h3

/-- C100, and then it has this length, it can be read, and each image shows the pixels asked for. -/
theorem C100_round_trip (hR : (R.des.map DesCls.tag).Nodup) (hE : E.reg.Causal)
    (has : ∀ a ∈ as, a.Ok ∧ a.tres = []) (hf : ∀ a ∈ as, Fits a) (hn : as.length ≤ 999)
    (hl : fileLength as < 999999999999) :
    ∃ f' out g, writeFile P E (stdIO P (imgIO P) R) (newFile as R) = .ok (f', out) ∧
      out.length = fileLength as ∧ readFile P E (stdIO P (imgIO P) R) out = .ok g ∧
      Each (fun s a => ∃ o, s.data = .other (.image o) ∧ ImgObj.Shows o a.content) g.image as := by
  obtain ⟨⟨f', out⟩, hw⟩ := (C100_writes_iff (E := E) (R := R) has).mpr ⟨hf, hn, by omega⟩
  have hlen : out.length = fileLength as := by
    obtain ⟨r⟩ := writeFile_run P E _ hw
    obtain ⟨segs, hp, hi, ho⟩ := prepared (R := R) has
    have hp' := Attempt.run_prepared r
    rw [hp] at hp'
    injection hp' with hp'
    injection hp' with e1 e2
    have hfit := Attempt.run_fits r
    rw [← e1, ← e2] at hfit
    have he := hfit.segments .image
    rw [hi] at he
    obtain ⟨_, e3, _⟩ := each_written (fun a h => (has a h).1) he
    rw [r.out_eq, List.length_append, slots_length r.slots, header_length hfit.header,
      parts_length (fun k hk => by
        have := hfit.segments k
        rw [ho k hk] at this
        exact each_nil this), e3]
    rfl
  obtain ⟨g, g1, g2⟩ := C97_new_file E hR hE (ts := []) ⟨[], rfl, by simp, by simp⟩ (as := as)
    (fun a ha => ⟨(has a ha).1, by rw [(has a ha).2]; exact ⟨[], rfl, by simp, by simp⟩⟩) hw (by omega)
  exact ⟨f', out, g, hw, hlen, g1, g2⟩

/-! ### Concrete cases -/

theorem exAsked_fits : ∀ a ∈ exAsked, Fits a := by
  intro a ha
  simp only [exAsked, List.mem_cons, List.not_mem_nil, or_false] at ha
  rcases ha with rfl | rfl
  all_goals
    exact { iid1 := by unfold TextFits; decide, iid2 := by unfold TextFits; decide
            idatim := by unfold TextFits; decide, irep := by unfold TextFits; decide
            icat := by unfold TextFits; decide, level := by decide, rows := by decide, cols := by decide
            bits := by decide, bands := by decide, sub := by decide, data := by decide }

example : fileLength exAsked = 1340 := rfl

/-- Two images, written and read back. -/
example : ∃ f' out g, writeFile P0 exEnv (stdIO P0 (imgIO P0) exDataReg) (newFile exAsked exDataReg) =
      .ok (f', out) ∧ out.length = 1340 ∧
    readFile P0 exEnv (stdIO P0 (imgIO P0) exDataReg) out = .ok g ∧
    Each (fun s a => ∃ o, s.data = .other (.image o) ∧ ImgObj.Shows o a.content) g.image exAsked :=
  C100_round_trip (by decide +kernel) (by intro t ht; cases ht)
    (fun a ha => ⟨(exAsked_ok a ha).1, by
      simp only [exAsked, List.mem_cons, List.not_mem_nil, or_false] at ha
      rcases ha with rfl | rfl <;> rfl⟩) exAsked_fits (by decide) (by decide)

/-- An image of ten thousand lines with one sample. -/
def exTall : Asked P0 :=
  { texts := ⟨"A".toList, "tall".toList, "20200101000000".toList, "MONO".toList, "VIS".toList, 1⟩
    rows := 10000, cols := 1, dtype := ⟨.u, 1, .big⟩, bands := 1, mode := .all, fill := fun _ _ => [7] }

/-- It can be made, but a file with it cannot be written. -/
example : exTall.Ok ∧ ¬ ∃ r, writeFile P0 exEnv (stdIO P0 (imgIO P0) exDataReg)
    (newFile [exTall] exDataReg) = .ok r := by
  have ho : exTall.Ok := ⟨by decide, by decide, by decide, fun _ _ => rfl⟩
  refine ⟨ho, fun h => ?_⟩
  have := ((C100_writes_iff (by
    intro a ha
    rw [List.mem_singleton.mp ha]
    exact ⟨ho, rfl⟩)).mp h).1 exTall (by simp)
  exact absurd this.rows (by decide)

end Verif.NewFile
