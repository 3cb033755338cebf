import Verif.Tables
import Verif.Tre
import Verif.TreArea
import Verif.Layout

/-
Scalar fields of a table, as facts that can be checked by evaluation, and what reading and setting
them does.
-/

namespace Verif

variable (P : PyFloat)

/-- The name is that of a plain scalar field without format, of this type, condition and size. -/
structure Row (d : Desc) (nm : Name) (n : Nat) (ty : Ty) (cond : Option Expr) (size : Nat) : Prop where
  res : resolve d.tab nm = some n
  at_ : ∃ fi, d.tab[n]? = some fi ∧ Scalar fi ∧ fi.fd.kind = .plain ∧ fi.fd.ty = ty ∧
    fi.fd.cond = cond ∧ fi.fd.size = .const size ∧ fi.fd.frmt = none ∧ fi.fd.sizeOffset = 0

def rowB (d : Desc) (nm : Name) (n : Nat) (ty : Ty) (cond : Option Expr) (size : Nat) : Bool :=
  decide (resolve d.tab nm = some n) &&
  match d.tab[n]? with
  | none => false
  | some fi => fi.fd.name.isSome && fi.shapes.isEmpty && fi.fd.value.isNone &&
      !fi.fd.hardcoded && fi.fd.kind == .plain && fi.fd.ty == ty && fi.fd.cond == cond &&
      fi.fd.size == .const size && fi.fd.frmt == none && fi.fd.sizeOffset == 0

theorem Row.of {d : Desc} {nm : Name} {n : Nat} {ty : Ty} {cond : Option Expr} {size : Nat}
    (h : rowB d nm n ty cond size = true) : Row d nm n ty cond size := by
  unfold rowB at h
  simp only [Bool.and_eq_true, decide_eq_true_eq] at h
  refine ⟨h.1, ?_⟩
  cases hf : d.tab[n]? with
  | none => rw [hf] at h; exact absurd h.2 (by simp)
  | some fi =>
    rw [hf] at h
    simp only [Bool.and_eq_true, beq_iff_eq, List.isEmpty_iff, Option.isNone_iff_eq_none,
      Bool.not_eq_true'] at h
    obtain ⟨_, ⟨⟨⟨⟨⟨⟨⟨⟨⟨a1, a2⟩, a3⟩, a4⟩, a5⟩, a6⟩, a7⟩, a8⟩, a9⟩, a10⟩⟩ := h
    refine ⟨fi, rfl, ⟨?_, a2, a3, a4⟩, a5, a6, a7, a8, a9, a10⟩
    intro hh; rw [hh] at a1; cases a1

variable {d : Desc} {nm : Name} {n : Nat} {ty : Ty} {size : Nat} {cond : Option Expr}

/-- The value depends only on the own cell. -/
theorem Row.cell (h : Row d nm n ty none size) {S S' : Store P.F} (hS : S' n [] = S n []) :
    getAttr P d S' nm [] = getAttr P d S nm [] := by
  obtain ⟨fi, h1, h2, h3, _, h5, _⟩ := h.at_
  unfold getAttr
  rw [h.res]
  simp only
  rw [h2.get_plain P h3 h1 (evalCond_none P h5 _ _), h2.get_plain P h3 h1 (evalCond_none P h5 _ _)]
  unfold stored
  rw [hS]

theorem Row.get_int (h : Row d nm n .int none size) {S : Store P.F} {z : Int} {raw : Option Bytes}
    (hS : S n [] = some ⟨.val (.int z), raw⟩) : getAttr P d S nm [] = .ok (.int z) := by
  obtain ⟨fi, h1, h2, h3, h4, h5, _⟩ := h.at_
  unfold getAttr
  rw [h.res]
  simp only
  rw [h2.get_plain P h3 h1 (evalCond_none P h5 _ _)]
  unfold stored
  rw [hS]
  exact finish_int P h4 z

theorem Row.get_str (h : Row d nm n .str none size) {S : Store P.F} {s : Str} {raw : Option Bytes}
    (hS : S n [] = some ⟨.val (.str s), raw⟩) : getAttr P d S nm [] = .ok (.str (rstripU s)) := by
  obtain ⟨fi, h1, h2, h3, h4, h5, _⟩ := h.at_
  unfold getAttr
  rw [h.res]
  simp only
  rw [h2.get_plain P h3 h1 (evalCond_none P h5 _ _)]
  unfold stored
  rw [hS]
  exact finish_str P h4 s

/-- With a condition that holds. -/
theorem Row.get_cond (h : Row d nm n .int cond size) {S : Store P.F} {z : Int} {raw : Option Bytes}
    (hc : ∀ fi, d.tab[n]? = some fi → evalCond P (look P d.tab S) fi [] = .ok true)
    (hS : S n [] = some ⟨.val (.int z), raw⟩) : getAttr P d S nm [] = .ok (.int z) := by
  obtain ⟨fi, h1, h2, h3, h4, _⟩ := h.at_
  unfold getAttr
  rw [h.res]
  simp only
  rw [h2.get_plain P h3 h1 (hc fi h1)]
  unfold stored
  rw [hS]
  exact finish_int P h4 z

theorem Row.set_cond (h : Row d nm n ty cond size) {S : Store P.F} {v : Val P.F}
    (hc : ∀ fi, d.tab[n]? = some fi → evalCond P (look P d.tab S) fi [] = .ok true)
    (hv : v.isNone = false) :
    setAttr P d S nm [] v = (S.set n [] ⟨.val v, none⟩, none) := by
  obtain ⟨fi, h1, h2, h3, _⟩ := h.at_
  unfold setAttr
  rw [h.res]
  exact h2.set_plain P h3 h1 (hc fi h1) hv _

theorem Row.set (h : Row d nm n ty none size) (S : Store P.F) {v : Val P.F}
    (hv : v.isNone = false) :
    setAttr P d S nm [] v = (S.set n [] ⟨.val v, none⟩, none) :=
  h.set_cond P (fun fi hfi => by
    obtain ⟨fi', h1, _, _, _, h5, _⟩ := h.at_
    rw [h1] at hfi
    cases hfi
    exact evalCond_none P h5 _ _) hv

/-- As seen by an expression. -/
theorem Row.look (h : Row d nm n ty cond size) (hd : d.causal = true) (S : Store P.F) :
    look P d.tab S nm [] = getAttr P d S nm [] := by
  obtain ⟨fi, h1, h2, _⟩ := h.at_
  rw [h2.look P (Desc.causalTab hd) h.res h1]
  unfold getAttr
  rw [h.res]

/-- Position `m` is a field of `d`, counted from `n`, outside all loops. -/
def Desc.topAt : Desc → Nat → Nat → Bool
  | .nil, _, _ => false
  | .field _ r, n, m => decide (m = n) || r.topAt (n + 1) m
  | .loop _ b r, n, m => r.topAt (n + b.count) m

/-- A field outside the loops whose condition holds is in the layout. -/
theorem layoutD_top {T : Tab} {S : Store P.F} {m : Nat} {fi : FInfo} {key : Key}
    (hm : T[m]? = some fi) (hc : evalCond P (Verif.look P T S) fi key = .ok true) (d : Desc) :
    ∀ (n : Nat) (sl : List Slot), d.topAt n m = true → layoutD P T S n key d = .ok sl →
      ∃ s ∈ sl, s.pos = m ∧ s.key = key := by
  induction d with
  | nil => intro n sl h; cases h
  | field fd r ih =>
    intro n sl ht h
    unfold Desc.topAt at ht
    unfold layoutD at h
    rw [Bool.or_eq_true, decide_eq_true_eq] at ht
    by_cases hmn : m = n
    · subst hmn
      rw [hm] at h
      simp only [hc] at h
      cases hs : evalSize P (Verif.look P T S) fi key with
      | error e => rw [hs] at h; cases h
      | ok sz =>
        rw [hs] at h
        simp only at h
        cases hr : layoutD P T S (m + 1) key r with
        | error e => rw [hr] at h; cases h
        | ok cs =>
          rw [hr] at h
          cases h
          exact ⟨_, List.mem_cons_self, rfl, rfl⟩
    · have ht := ht.resolve_left hmn
      cases hn : T[n]? with
      | none => rw [hn] at h; cases h
      | some fn =>
        rw [hn] at h
        simp only at h
        split at h
        · cases h
        · exact ih _ _ ht h
        · split at h
          · cases h
          · split at h
            · cases h
            · rename_i cs hcs
              cases h
              obtain ⟨s, h1, h2⟩ := ih _ _ ht hcs
              exact ⟨s, by simp [h1], h2⟩
  | loop e b r ihb ihr =>
    intro n sl ht h
    unfold Desc.topAt at ht
    unfold layoutD at h
    split at h
    · cases h
    · split at h
      · cases h
      · split at h
        · cases h
        · rename_i cs hcs
          cases h
          obtain ⟨s, h1, h2⟩ := ihr _ _ ht hcs
          exact ⟨s, List.mem_append_right _ h1, h2⟩

/-- A present integer that is too long makes writing fail. -/
theorem Row.overflow (h : Row d nm n .int cond size) (ht : d.topAt 0 n = true) {S : Store P.F}
    {z : Int} (hc : ∀ fi, d.tab[n]? = some fi → evalCond P (Verif.look P d.tab S) fi [] = .ok true)
    (hS : ∃ raw, S n [] = some ⟨.val (.int z), raw⟩) (hz : ¬ FitsDec size z) :
    ∃ e, writeStruct P d S = .error e := by
  obtain ⟨fi, h1, h2, h3, h4, h5, h6, h7, h8⟩ := h.at_
  cases hl : layout P d S with
  | error e =>
    unfold writeStruct
    cases hw : writeChunks P d S with
    | error e => exact ⟨e, rfl⟩
    | ok cs =>
      have := writeD_layout P S d 0 [] cs hw
      rw [show layoutD P d.tab S 0 [] d = .error e from hl] at this
      cases this
  | ok sl =>
    obtain ⟨s, hs, hp, hk⟩ := layoutD_top P h1 (hc fi h1) d 0 sl ht hl
    refine write_fails P hl hs (by rw [hp]; exact h1) ?_
    intro b hb
    rw [hp, hk] at hb
    obtain ⟨raw, hS⟩ := hS
    unfold fieldBytes at hb
    rw [Scalar.size_const P h6 h8] at hb
    simp only at hb
    have : stored S fi.fd n [] = .val (.int z) := by unfold stored; rw [hS]
    rw [this] at hb
    simp only at hb
    rw [h2.lowGet P (hc fi h1), this, finish_int P h4] at hb
    exact hz ((encode_int_iff P h4 h7 size z).mp ⟨b, hb⟩)

/-- A present text that is too long makes writing fail. -/
theorem Row.overflow_str (h : Row d nm n .str cond size) (ht : d.topAt 0 n = true) {S : Store P.F}
    {t : Str} (hc : ∀ fi, d.tab[n]? = some fi → evalCond P (Verif.look P d.tab S) fi [] = .ok true)
    (hS : ∃ raw, S n [] = some ⟨.val (.str t), raw⟩) (hz : size < (rstripU t).length) :
    ∃ e, writeStruct P d S = .error e := by
  obtain ⟨fi, h1, h2, h3, h4, h5, h6, h7, h8⟩ := h.at_
  cases hl : layout P d S with
  | error e =>
    unfold writeStruct
    cases hw : writeChunks P d S with
    | error e => exact ⟨e, rfl⟩
    | ok cs =>
      have := writeD_layout P S d 0 [] cs hw
      rw [show layoutD P d.tab S 0 [] d = .error e from hl] at this
      cases this
  | ok sl =>
    obtain ⟨s, hs, hp, hk⟩ := layoutD_top P h1 (hc fi h1) d 0 sl ht hl
    refine write_fails P hl hs (by rw [hp]; exact h1) ?_
    intro b hb
    rw [hp, hk] at hb
    obtain ⟨raw, hS⟩ := hS
    unfold fieldBytes at hb
    rw [Scalar.size_const P h6 h8] at hb
    simp only at hb
    have : stored S fi.fd n [] = .val (.str t) := by unfold stored; rw [hS]
    rw [this] at hb
    simp only at hb
    rw [h2.lowGet P (hc fi h1), this, finish_str P h4] at hb
    exact absurd ((encode_str_iff P h4 h7 size (rstripU t)).mp ⟨b, hb⟩).1 (by omega)

end Verif
