import Verif.Image
import Verif.Items

/- Facts about the image subheader used for C33-C35. -/

namespace Verif

variable (P : PyFloat)

abbrev ihD : Desc := Tables.t_image_subheader

theorem ihD_causal : ihD.causal = true := by decide +kernel

def xbandsCond : Expr := .eq (.ref (n!"nbands") []) (.const (.int 0))

/-- Length of the band loop. -/
def bandShape : Expr :=
  .ite (.gt (.ref (n!"nbands") []) (.const (.int 0))) (.ref (n!"nbands") []) (.ref (n!"xbands") [])

theorem row_nbands : Row ihD (n!"nbands") 36 .int none 1 := Row.of (by decide +kernel)
theorem row_xbands : Row ihD (n!"xbands") 37 .int (some xbandsCond) 5 := Row.of (by decide +kernel)
theorem row_abpp : Row ihD (n!"abpp") 28 .int none 2 := Row.of (by decide +kernel)
theorem row_nbpp : Row ihD (n!"nbpp") 51 .int none 2 := Row.of (by decide +kernel)
theorem row_pvtype : Row ihD (n!"pvtype") 25 .str none 3 := Row.of (by decide +kernel)
theorem row_iid1 : Row ihD (n!"iid1") 1 .str none 10 := Row.of (by decide +kernel)
theorem row_iid2 : Row ihD (n!"iid2") 4 .str none 80 := Row.of (by decide +kernel)
theorem row_idlvl : Row ihD (n!"idlvl") 52 .int none 3 := Row.of (by decide +kernel)
theorem row_isclas : Row ihD (n!"isclas") 5 .str none 1 := Row.of (by decide +kernel)
theorem row_irep : Row ihD (n!"irep") 26 .str none 8 := Row.of (by decide +kernel)
theorem row_icat : Row ihD (n!"icat") 27 .str none 8 := Row.of (by decide +kernel)
theorem row_encryp : Row ihD (n!"encryp") 21 .int none 1 := Row.of (by decide +kernel)
theorem row_idatim : Row ihD (n!"idatim") 2 .str none 14 := Row.of (by decide +kernel)
theorem row_nrows : Row ihD (n!"nrows") 23 .int none 8 := Row.of (by decide +kernel)
theorem row_ncols : Row ihD (n!"ncols") 24 .int none 8 := Row.of (by decide +kernel)
theorem row_nbpr : Row ihD (n!"nbpr") 47 .int none 4 := Row.of (by decide +kernel)
theorem row_nbpc : Row ihD (n!"nbpc") 48 .int none 4 := Row.of (by decide +kernel)
theorem row_nppbh : Row ihD (n!"nppbh") 49 .int none 4 := Row.of (by decide +kernel)
theorem row_nppbv : Row ihD (n!"nppbv") 50 .int none 4 := Row.of (by decide +kernel)
theorem row_ic : Row ihD (n!"ic") 34 .str none 2 := Row.of (by decide +kernel)
theorem row_nicom : Row ihD (n!"nicom") 32 .int none 1 := Row.of (by decide +kernel)
theorem row_imode : Row ihD (n!"imode") 46 .str none 1 := Row.of (by decide +kernel)

/-- Assignment of a plain header field. -/
theorem Row.ihSet {nm : Name} {n : Nat} {ty : Ty} {size : Nat} (h : Row ihD nm n ty none size)
    {v : Val P.F} (hv : v.isNone = false) (S : Store P.F) :
    ihSet P nm v S = (S.set n [] ⟨.val v, none⟩, none) := h.set P S hv

/-- A cell holding an integer. -/
def HasInt {F} (S : Store F) (n : Nat) (z : Int) : Prop := ∃ raw, S n [] = some ⟨.val (.int z), raw⟩

theorem xbands_cond {S : Store P.F} {z : Int} (h : HasInt S 36 z) :
    ∀ fi, ihD.tab[37]? = some fi →
      evalCond P (look P ihD.tab S) fi [] = .ok (decide (z = 0)) := by
  intro fi hfi
  obtain ⟨fi', h1, _, _, _, h5, _⟩ := row_xbands.at_
  rw [h1] at hfi
  cases hfi
  obtain ⟨raw, h⟩ := h
  unfold evalCond
  rw [h5]
  simp only [xbandsCond, evalE, idxKey, bind, Except.bind]
  rw [row_nbands.look P ihD_causal, row_nbands.get_int P h]
  by_cases hz : z = 0 <;> simp [hz, CVal.toVal, pyEq, bval, truthy, Except.map, pure, Except.pure]

/-- Where a header with `n` bands keeps the count. -/
def BandState {F} (S : Store F) (n : Int) : Prop :=
  (1 ≤ n ∧ n ≤ 9 ∧ HasInt S 36 n) ∨ (10 ≤ n ∧ HasInt S 36 0 ∧ HasInt S 37 n)

theorem BandState.nbands {S : Store P.F} {n : Int} (h : BandState S n) :
    ihGet P S (n!"nbands") = .ok (.int (if n ≤ 9 then n else 0)) := by
  rcases h with ⟨_, h2, _, h3⟩ | ⟨h1, ⟨_, h2⟩, _⟩
  · rw [if_pos h2]; exact row_nbands.get_int P h3
  · rw [if_neg (by omega)]; exact row_nbands.get_int P h2

theorem BandState.xbands {S : Store P.F} {n : Int} (h : BandState S n) (hn : 10 ≤ n) :
    ihGet P S (n!"xbands") = .ok (.int n) := by
  rcases h with ⟨_, h2, _, h3⟩ | ⟨h1, h2, _, h3⟩
  · omega
  · exact row_xbands.get_cond P (fun fi hfi => by rw [xbands_cond P h2 fi hfi]; rfl) h3

theorem BandState.count {S : Store P.F} {n : Int} (h : BandState S n) :
    numberBand P S = .ok (.int n) := by
  unfold numberBand
  rw [h.nbands]
  have h1 : 1 ≤ n := by rcases h with ⟨h, _⟩ | ⟨h, _⟩ <;> omega
  by_cases hn : n ≤ 9
  · simp only [if_pos hn, bind, Except.bind, asInt]
    rw [if_pos (by omega)]
  · simp only [if_neg hn, bind, Except.bind, asInt]
    rw [if_neg (by omega)]
    exact h.xbands P (by omega)

theorem BandState.shape {S : Store P.F} {n : Int} (h : BandState S n) (key : Key) :
    evalShape P (look P ihD.tab S) bandShape key = .ok n := by
  have hn : look P ihD.tab S (n!"nbands") [] = .ok (.int (if n ≤ 9 then n else 0)) := by
    rw [row_nbands.look P ihD_causal]; exact h.nbands P
  have h1 : 1 ≤ n := by rcases h with ⟨h, _⟩ | ⟨h, _⟩ <;> omega
  unfold evalShape
  simp only [bandShape, evalE, idxKey, bind, Except.bind, hn, asInt, pure, Except.pure, CVal.toVal]
  by_cases hn9 : n ≤ 9
  · have : n > 0 := by omega
    simp [hn9, bval, truthy, this]
  · have hx : look P ihD.tab S (n!"xbands") [] = .ok (.int n) := by
      rw [row_xbands.look P ihD_causal]; exact h.xbands P (by omega)
    simp [hn9, bval, truthy, hx]

theorem BandState.mono {F} {S S' : Store F} {n : Int} (h : BandState S n)
    (h1 : S' 36 [] = S 36 []) (h2 : S' 37 [] = S 37 []) : BandState S' n := by
  unfold BandState HasInt at *
  rw [h1, h2]
  exact h

/-- After the setter. -/
theorem setNumberBand_ok {n : Int} (hn : 1 ≤ n) (S : Store P.F) :
    ∃ S', setNumberBand P n S = (S', none) ∧ BandState S' n ∧
      ∀ m key, m ≠ 36 → m ≠ 37 → S' m key = S m key := by
  unfold setNumberBand
  by_cases h9 : n < 10
  · rw [if_pos h9]
    simp only [runSteps]
    rw [row_nbands.ihSet P rfl]
    refine ⟨_, rfl, .inl ⟨hn, by omega, none, by simp [Store.set]⟩, ?_⟩
    intro m key h1 h2
    simp [Store.set, h1]
  · rw [if_neg h9]
    simp only [runSteps]
    rw [row_nbands.ihSet P rfl]
    simp only
    have h0 : HasInt (S.set 36 [] ⟨.val (.int 0), none⟩) 36 0 := ⟨none, by simp [Store.set]⟩
    have : ihSet P (n!"xbands") (.int n) (S.set 36 [] ⟨.val (.int 0), none⟩) =
        ((S.set 36 [] ⟨.val (.int 0), none⟩).set 37 [] ⟨.val (.int n), none⟩, none) :=
      row_xbands.set_cond P (fun fi hfi => by rw [xbands_cond P h0 fi hfi]; rfl) rfl
    rw [this]
    refine ⟨_, rfl, .inr ⟨by omega, ⟨none, by simp [Store.set]⟩, ⟨none, by simp [Store.set]⟩⟩, ?_⟩
    intro m key h1 h2
    simp [Store.set, h1, h2]

/-- The fields of the band loop itself that users assign. -/
structure BandRow (nm : Name) (n : Nat) (ty : Ty) : Prop where
  res : resolve ihD.tab nm = some n
  at_ : ∃ fi, ihD.tab[n]? = some fi ∧ fi.fd.name ≠ none ∧ fi.shapes = [bandShape] ∧
    fi.fd.value = none ∧ fi.fd.hardcoded = false ∧ fi.fd.kind = .plain ∧ fi.fd.ty = ty ∧
    fi.fd.cond = none

theorem BandRow.of {nm : Name} {n : Nat} {ty : Ty}
    (h : (decide (resolve ihD.tab nm = some n) && match ihD.tab[n]? with
      | none => false
      | some fi => fi.fd.name.isSome && fi.shapes == [bandShape] && fi.fd.value.isNone &&
        !fi.fd.hardcoded && fi.fd.kind == .plain && fi.fd.ty == ty && fi.fd.cond.isNone) = true) :
    BandRow nm n ty := by
  simp only [Bool.and_eq_true, decide_eq_true_eq] at h
  refine ⟨h.1, ?_⟩
  cases hf : ihD.tab[n]? with
  | none => rw [hf] at h; exact absurd h.2 (by simp)
  | some fi =>
    rw [hf] at h
    simp only [Bool.and_eq_true, beq_iff_eq, Option.isNone_iff_eq_none, Bool.not_eq_true'] at h
    obtain ⟨_, ⟨⟨⟨⟨⟨⟨a1, a2⟩, a3⟩, a4⟩, a5⟩, a6⟩, a7⟩⟩ := h
    refine ⟨fi, rfl, ?_, a2, a3, a4, a5, a6, a7⟩
    intro hh; rw [hh] at a1; cases a1

theorem band_irepband : BandRow (n!"irepband") 38 .str := BandRow.of (by decide +kernel)
theorem band_isubcat : BandRow (n!"isubcat") 39 .str := BandRow.of (by decide +kernel)
theorem band_nluts : BandRow (n!"nluts") 42 .int := BandRow.of (by decide +kernel)

theorem band_check {S : Store P.F} {n : Int} (h : BandState S n) {fi : FInfo}
    (hs : fi.shapes = [bandShape]) (i : Int) :
    checkIndex P (look P ihD.tab S) fi [i] =
      if 0 ≤ i ∧ i < n then .ok () else .error .index := by
  unfold checkIndex
  rw [hs]
  simp only [List.getLast?_singleton, FInfo.depth, hs, List.length_singleton, ne_eq,
    not_true_eq_false, if_false, List.dropLast_singleton]
  rw [h.shape P]
  simp only
  by_cases h1 : i < 0
  · rw [if_pos h1, if_neg (by omega)]
  · rw [if_neg h1]
    by_cases h2 : i ≥ n
    · rw [if_pos h2, if_neg (by omega)]
    · rw [if_neg h2, if_pos (by omega)]

theorem BandRow.set {nm : Name} {m : Nat} {ty : Ty} (h : BandRow nm m ty) {S : Store P.F} {n : Int}
    (hb : BandState S n) {i : Int} (h0 : 0 ≤ i) (hi : i < n) {v : Val P.F} (hv : v.isNone = false) :
    ihSetAt P nm i v S = (S.set m [i] ⟨.val v, none⟩, none) := by
  obtain ⟨fi, h1, h2, h3, h4, h5, h6, h7, h8⟩ := h.at_
  unfold ihSetAt setAttr
  rw [h.res]
  simp only
  unfold setItem budget setF setCheck
  rw [h1]
  have hnm : fi.fd.name.isNone = false := by
    cases hh : fi.fd.name with
    | none => exact absurd hh h2
    | some _ => rfl
  simp only [h6, packKind, hnm, band_check P hb h3, h0, hi, and_self, if_true]
  rw [show evalCond P (look P ihD.tab S) fi [i] = .ok true by unfold evalCond; rw [h8]]
  simp [h5, h4, hv, h6]

theorem BandRow.get_str {nm : Name} {m : Nat} (h : BandRow nm m .str) {S : Store P.F} {n : Int}
    (hb : BandState S n) (i : Int) :
    (∃ v, getAttr P ihD S nm [i] = .ok v) ↔ 0 ≤ i ∧ i < n := by
  obtain ⟨fi, h1, h2, h3, h4, h5, h6, h7, h8⟩ := h.at_
  unfold getAttr
  rw [h.res]
  simp only
  rw [getItem_eq P _ h1]
  unfold getWith
  by_cases hi : 0 ≤ i ∧ i < n
  · rw [lowGet_present P h2 (by rw [band_check P hb h3, if_pos hi])
      (by unfold evalCond; rw [h8]) h4]
    have : ∀ s, ∃ v, finish P fi.fd s = .ok v := by
      intro s
      have hco : ∀ v, ∃ r, coerce P fi.fd v = .ok r := fun v => by
        unfold coerce; rw [h7]; exact ⟨_, rfl⟩
      unfold finish
      split
      · split
        · exact ⟨_, rfl⟩
        · exact hco _
      · exact hco _
      · split
        · exact ⟨_, rfl⟩
        · exact hco _
    obtain ⟨v, hv⟩ := this (stored S fi.fd m [i])
    rw [hv]
    simp only [h6]
    exact ⟨fun _ => hi, fun _ => ⟨v, rfl⟩⟩
  · have : lowGet P (look P ihD.tab S) S fi m [i] = .error .index := by
      unfold lowGet
      cases hh : fi.fd.name with
      | none => exact absurd hh h2
      | some _ =>
        simp only [band_check P hb h3, if_neg hi]
        rfl
    rw [this]
    simp [hi]

/-- Positions of the fields assigned by the band statements of `set_default_image_subheader`. -/
def bandPos (m : Nat) : Bool := m == 38 || m == 39 || m == 42

/-- Assignments to fields of existing bands succeed and touch only those fields. -/
def BandStep {F} (n : Int) (f : Step F) : Prop :=
  ∀ S, BandState S n → ∃ S', f S = (S', none) ∧ ∀ m key, bandPos m = false → S' m key = S m key

theorem BandRow.step {nm : Name} {m : Nat} {ty : Ty} (h : BandRow nm m ty) (hm : bandPos m = true)
    {n i : Int} (h0 : 0 ≤ i) (hi : i < n) {v : Val P.F} (hv : v.isNone = false) :
    BandStep n (ihSetAt P nm i v) := by
  intro S hS
  rw [h.set P hS h0 hi hv]
  refine ⟨_, rfl, fun k key hk => ?_⟩
  have : k ≠ m := fun e : k = m => by rw [e, hm] at hk; cases hk
  simp [Store.set, this]

theorem bandRun {F} {n : Int} (fs : List (Step F)) (h : ∀ f ∈ fs, BandStep n f) :
    BandStep n (runSteps fs) := by
  induction fs with
  | nil => intro S _; exact ⟨S, rfl, fun _ _ _ => rfl⟩
  | cons f r ih =>
    intro S hS
    obtain ⟨S1, h1, k1⟩ := h f List.mem_cons_self S hS
    obtain ⟨S2, h2, k2⟩ := ih (fun g hg => h g (List.mem_cons_of_mem _ hg)) S1
      (hS.mono (k1 36 [] rfl) (k1 37 [] rfl))
    refine ⟨S2, ?_, fun m key hm => by rw [k2 m key hm, k1 m key hm]⟩
    simp only [runSteps, h1, h2]

theorem bandSteps_ok (n : Int) (k : Nat) : ∀ b : Nat, (b : Int) + k ≤ n →
    ∀ f ∈ bandSteps P b k, BandStep n f := by
  induction k with
  | zero => intro b _ f hf; cases hf
  | succ k ih =>
    intro b hb f hf
    have h0 : (0 : Int) ≤ b := Int.natCast_nonneg b
    have h1 : (b : Int) < n := by omega
    simp only [bandSteps, List.mem_cons] at hf
    rcases hf with rfl | rfl | rfl | hf
    · exact band_irepband.step P rfl h0 h1 rfl
    · exact band_isubcat.step P rfl h0 h1 rfl
    · exact band_nluts.step P rfl h0 h1 rfl
    · exact ih (b + 1) (by omega) f hf

theorem runSteps_append {F} (as bs : List (Step F)) (S S' : Store F)
    (h : runSteps as S = (S', none)) : runSteps (as ++ bs) S = runSteps bs S' := by
  induction as generalizing S with
  | nil => simp only [runSteps] at h; cases h; rfl
  | cons f r ih =>
    simp only [runSteps, List.cons_append] at h ⊢
    generalize f S = x at h ⊢
    obtain ⟨S1, e⟩ := x
    cases e with
    | some e => cases h
    | none => exact ih S1 h

/-! ### Pixel types -/

/-- Pixel value type of a kind. -/
def NpKind.pv : NpKind → String
  | .u => "INT" | .i => "SI" | .f => "R" | .c => "C" | .other => ""

/-- The pixel types a NITF image can have here. -/
def pixelTypes : List (NpKind × Nat) :=
  [(.u, 1), (.i, 1), (.u, 2), (.i, 2), (.u, 4), (.i, 4), (.f, 4), (.f, 8), (.c, 8), (.c, 16)]

theorem setPixel_eq (bits : Int) (pv : String) (S : Store P.F) :
    setPixel P bits pv S = (((S.set 28 [] ⟨.val (.int bits), none⟩).set 51 []
      ⟨.val (.int bits), none⟩).set 25 [] ⟨.val (.str pv.toList), none⟩, none) := by
  unfold setPixel
  simp only [runSteps]
  rw [row_abpp.ihSet P rfl]
  simp only
  rw [row_nbpp.ihSet P rfl]
  simp only
  rw [row_pvtype.ihSet P rfl]

theorem NpType.either_iff (t : NpType) (k : NpKind) (n : Nat) :
    t.either k n = true ↔ t.kind = k ∧ t.size = n := by
  obtain ⟨k', n', o⟩ := t
  unfold NpType.either NpType.eq
  cases o <;> simp <;> grind

theorem NpType.eq_one_iff (t : NpType) (k : NpKind) :
    t.eq ⟨k, 1, .big⟩ = true ↔ t.kind = k ∧ t.size = 1 := by
  obtain ⟨k', n', o⟩ := t
  unfold NpType.eq
  simp
  intro _ h
  exact .inl h

theorem setDtype_supported {t : NpType} (h : (t.kind, t.size) ∈ pixelTypes) (S : Store P.F) :
    setDtype P t S = setPixel P (8 * t.size) t.kind.pv S := by
  obtain ⟨k, n, o⟩ := t
  simp only [pixelTypes, List.mem_cons, Prod.mk.injEq, List.not_mem_nil, or_false] at h
  rcases h with h | h | h | h | h | h | h | h | h | h <;> obtain ⟨rfl, rfl⟩ := h <;>
    cases o <;> rfl

theorem setDtype_unsupported {t : NpType} (h : (t.kind, t.size) ∉ pixelTypes) (S : Store P.F) :
    setDtype P t S = (S, some .runtime) := by
  have hno : ∀ k n, (k, n) ∈ pixelTypes → ¬ (t.kind = k ∧ t.size = n) := by
    intro k n hm ⟨h1, h2⟩
    rw [← h1, ← h2] at hm
    exact h hm
  unfold setDtype
  simp only [NpType.either_iff, NpType.eq_one_iff]
  rw [if_neg (hno _ _ (by decide)), if_neg (hno _ _ (by decide)), if_neg (hno _ _ (by decide)),
    if_neg (hno _ _ (by decide)), if_neg (hno _ _ (by decide)), if_neg (hno _ _ (by decide)),
    if_neg (hno _ _ (by decide)), if_neg (hno _ _ (by decide)), if_neg (hno _ _ (by decide)),
    if_neg (hno _ _ (by decide))]

/-- The header fields describing pixels of kind `k` and `n` bytes. -/
def PixelState {F} (S : Store F) (k : NpKind) (n : Nat) : Prop :=
  HasInt S 51 (8 * n) ∧ ∃ raw, S 25 [] = some ⟨.val (.str k.pv.toList), raw⟩

theorem PixelState.dtype {S : Store P.F} {k : NpKind} {n : Nat} (h : PixelState S k n)
    (hk : (k, n) ∈ pixelTypes) : getDtype P S = .ok ⟨k, n, .big⟩ := by
  obtain ⟨⟨r1, h1⟩, r2, h2⟩ := h
  have e1 : ihGet P S (n!"nbpp") = .ok (.int (8 * n)) := row_nbpp.get_int P h1
  have e2 : ihGet P S (n!"pvtype") = .ok (.str (rstripU k.pv.toList)) := row_pvtype.get_str P h2
  unfold getDtype
  rw [e1, e2]
  simp only [pixelTypes, List.mem_cons, Prod.mk.injEq, List.not_mem_nil, or_false] at hk
  rcases hk with h | h | h | h | h | h | h | h | h | h <;> obtain ⟨rfl, rfl⟩ := h <;> rfl

/-! ### Data layout -/

/-- Part of the `i`-th of equally long blocks. -/
theorem block_at {m n : Nat} {f : Nat → Bytes} (hf : ∀ i < n, (f i).length = m) :
    ∀ {i j k : Nat}, i < n → j + k ≤ m →
    (((List.range n).flatMap f).drop (i * m + j)).take k = ((f i).drop j).take k := by
  induction n generalizing f with
  | zero => intro i j k hi; omega
  | succ n ih =>
    intro i j k hi hk
    rw [List.range_succ_eq_map, List.flatMap_cons, List.flatMap_map]
    have h0 := hf 0 (by omega)
    cases i with
    | zero =>
      rw [Nat.zero_mul, Nat.zero_add, List.drop_append_of_le_length (by omega),
        List.take_append_of_le_length (by rw [List.length_drop]; omega)]
    | succ i =>
      have e : (i + 1) * m + j = (f 0).length + (i * m + j) := by
        rw [h0, Nat.succ_mul]; omega
      rw [e, ← List.drop_drop, List.drop_left]
      exact ih (fun i hi => hf (i + 1) (by omega)) (by omega) hk

theorem length_blocks {m n : Nat} {f : Nat → Bytes} (hf : ∀ i < n, (f i).length = m) :
    ((List.range n).flatMap f).length = n * m := by
  induction n generalizing f with
  | zero => simp
  | succ n ih =>
    rw [List.range_succ_eq_map, List.flatMap_cons, List.flatMap_map, List.length_append,
      hf 0 (by omega), ih (fun i hi => hf (i + 1) (by omega)), Nat.succ_mul]
    omega

/-- Element `(i, j, k)` of three nested loops over blocks of `w` bytes. -/
theorem block3_at {n1 n2 n3 w : Nat} {f : Nat → Nat → Nat → Bytes}
    (hf : ∀ i < n1, ∀ j < n2, ∀ k < n3, (f i j k).length = w) {i j k : Nat} (hi : i < n1)
    (hj : j < n2) (hk : k < n3) :
    (((List.range n1).flatMap fun i => (List.range n2).flatMap fun j =>
      (List.range n3).flatMap fun k => f i j k).drop (((i * n2 + j) * n3 + k) * w)).take w =
    f i j k := by
  have l3 : ∀ i < n1, ∀ j < n2, ((List.range n3).flatMap fun k => f i j k).length = n3 * w :=
    fun i hi j hj => length_blocks fun k hk => hf i hi j hj k hk
  have l2 : ∀ i < n1, ((List.range n2).flatMap fun j =>
      (List.range n3).flatMap fun k => f i j k).length = n2 * (n3 * w) :=
    fun i hi => length_blocks fun j hj => l3 i hi j hj
  have e : ((i * n2 + j) * n3 + k) * w = i * (n2 * (n3 * w)) + (j * (n3 * w) + k * w) := by
    simp only [Nat.add_mul, Nat.mul_assoc, Nat.add_assoc]
  have b1 : k * w + w ≤ n3 * w := by
    have := Nat.mul_le_mul_right w (show k + 1 ≤ n3 by omega)
    rw [Nat.succ_mul] at this
    exact this
  have b2 : j * (n3 * w) + k * w + w ≤ n2 * (n3 * w) := by
    have := Nat.mul_le_mul_right (n3 * w) (show j + 1 ≤ n2 by omega)
    rw [Nat.succ_mul] at this
    omega
  rw [e, block_at l2 hi b2, block_at (l3 i hi) hj b1]
  have := block_at (hf i hi j hj) hk (j := 0) (k := w) (by omega)
  rw [Nat.add_zero] at this
  rw [this, List.drop_zero, ← hf i hi j hj k hk, List.take_length]

theorem length_block3 {n1 n2 n3 w : Nat} {f : Nat → Nat → Nat → Bytes}
    (hf : ∀ i < n1, ∀ j < n2, ∀ k < n3, (f i j k).length = w) :
    ((List.range n1).flatMap fun i => (List.range n2).flatMap fun j =>
      (List.range n3).flatMap fun k => f i j k).length = n1 * (n2 * (n3 * w)) :=
  length_blocks fun i hi => length_blocks fun j hj => length_blocks fun k hk => hf i hi j hj k hk

/-- `(i, j, k) ↦ (i * n2 + j) * n3 + k` numbers the index triples without gaps. -/
theorem number_triples {n1 n2 n3 t : Nat} (ht : t < n1 * n2 * n3) :
    ∃ i j k, (i < n1 ∧ j < n2 ∧ k < n3 ∧ t = (i * n2 + j) * n3 + k) ∧
      ∀ i' j' k', j' < n2 → k' < n3 → t = (i' * n2 + j') * n3 + k' → i' = i ∧ j' = j ∧ k' = k := by
  have h3 : 0 < n3 := by
    rcases Nat.eq_zero_or_pos n3 with h | h
    · subst h; simp at ht
    · exact h
  have h2 : 0 < n2 := by
    rcases Nat.eq_zero_or_pos n2 with h | h
    · subst h; simp at ht
    · exact h
  have hq : t / n3 < n1 * n2 := (Nat.div_lt_iff_lt_mul h3).mpr ht
  refine ⟨t / n3 / n2, t / n3 % n2, t % n3,
    ⟨(Nat.div_lt_iff_lt_mul h2).mpr hq, Nat.mod_lt _ h2, Nat.mod_lt _ h3, ?_⟩, ?_⟩
  · rw [Nat.div_add_mod' (t / n3) n2, Nat.div_add_mod' t n3]
  · intro i j k hj hk e
    have e1 : t / n3 = i * n2 + j := by
      rw [e, Nat.mul_comm, Nat.mul_add_div h3, Nat.div_eq_of_lt hk, Nat.add_zero]
    have e2 : t % n3 = k := by
      rw [e, Nat.mul_comm, Nat.mul_add_mod, Nat.mod_eq_of_lt hk]
    rw [e1, e2, Nat.mul_comm i n2, Nat.mul_add_div h2, Nat.div_eq_of_lt hj, Nat.add_zero,
      Nat.mul_add_mod, Nat.mod_eq_of_lt hj]
    exact ⟨rfl, rfl, rfl⟩

theorem take_take_min (l : Bytes) (a b : Nat) : l.take a ++ (l.drop a).take b = l.take (a + b) := by
  rw [List.take_add]

/-- The copy loop writes the requested bytes. -/
theorem copyLoop_eq (src : Bytes) (left : Int) : copyLoop src left = src.take left.toNat := by
  have hb : 0 < copyBuffer := by decide
  suffices h : ∀ k (src : Bytes) (left : Int), left.toNat ≤ k →
      copyLoop src left = src.take left.toNat from h _ _ _ (Nat.le_refl _)
  intro k
  induction k with
  | zero =>
    intro src left h
    unfold copyLoop
    rw [if_neg (by omega), show left.toNat = 0 by omega]
    rfl
  | succ k ih =>
    intro src left h
    unfold copyLoop
    by_cases h0 : 0 < left
    · rw [if_pos h0]
      simp only
      rw [ih _ _ (by omega), take_take_min]
      congr 1
      split <;> omega
    · rw [if_neg h0, show left.toNat = 0 by omega]
      rfl

end Verif
