import Verif.Row

/- Fields in a single loop, as facts that can be checked by evaluation, and what reading and setting
their elements does. -/

namespace Verif

variable (P : PyFloat)

/-- The name is that of an unconditional field of this kind and type in one loop of this length. -/
structure LoopRow (d : Desc) (nm : Name) (n : Nat) (k : Kind) (ty : Ty) (shape : Expr) : Prop where
  res : resolve d.tab nm = some n
  at_ : ∃ fi, d.tab[n]? = some fi ∧ fi.fd.name ≠ none ∧ fi.shapes = [shape] ∧
    fi.fd.value = none ∧ fi.fd.hardcoded = false ∧ fi.fd.kind = k ∧ fi.fd.ty = ty ∧
    fi.fd.cond = none ∧ fi.fd.optional = false

theorem LoopRow.of {d : Desc} {nm : Name} {n : Nat} {k : Kind} {ty : Ty} {shape : Expr}
    (h : (decide (resolve d.tab nm = some n) && match d.tab[n]? with
      | none => false
      | some fi => fi.fd.name.isSome && fi.shapes == [shape] && fi.fd.value.isNone &&
        !fi.fd.hardcoded && fi.fd.kind == k && fi.fd.ty == ty && fi.fd.cond.isNone &&
        !fi.fd.optional) = true) :
    LoopRow d nm n k ty shape := by
  simp only [Bool.and_eq_true, decide_eq_true_eq] at h
  refine ⟨h.1, ?_⟩
  cases hf : d.tab[n]? with
  | none => rw [hf] at h; exact absurd h.2 (by simp)
  | some fi =>
    rw [hf] at h
    simp only [Bool.and_eq_true, beq_iff_eq, Option.isNone_iff_eq_none, Bool.not_eq_true'] at h
    obtain ⟨_, ⟨⟨⟨⟨⟨⟨⟨a1, a2⟩, a3⟩, a4⟩, a5⟩, a6⟩, a7⟩, a8⟩⟩ := h
    refine ⟨fi, rfl, ?_, a2, a3, a4, a5, a6, a7, a8⟩
    intro hh; rw [hh] at a1; cases a1

theorem loop_check {l : Look P.F} {k : Int} {fi : FInfo} {shape : Expr}
    (hs : fi.shapes = [shape]) (h : evalShape P l shape [] = .ok k) (i : Int) :
    checkIndex P l fi [i] = if 0 ≤ i ∧ i < k then .ok () else .error .index := by
  unfold checkIndex
  rw [hs]
  simp only [List.getLast?_singleton, FInfo.depth, hs, List.length_singleton, ne_eq,
    not_true_eq_false, if_false, List.dropLast_singleton]
  rw [h]
  simp only
  by_cases h1 : i < 0
  · rw [if_pos h1, if_neg (by omega)]
  · rw [if_neg h1]
    by_cases h2 : i ≥ k
    · rw [if_pos h2, if_neg (by omega)]
    · rw [if_neg h2, if_pos (by omega)]

variable {d : Desc} {nm : Name} {n : Nat} {ty : Ty} {shape : Expr}

/-- Assignment to an element in range. -/
theorem LoopRow.set (h : LoopRow d nm n .plain ty shape) {S : Store P.F} {k : Int}
    (hb : evalShape P (look P d.tab S) shape [] = .ok k) {i : Int} (h0 : 0 ≤ i) (hi : i < k)
    {v : Val P.F} (hv : v.isNone = false) :
    setAttr P d S nm [i] v = (S.set n [i] ⟨.val v, none⟩, none) := by
  obtain ⟨fi, h1, h2, h3, h4, h5, h6, h7, h8, _⟩ := h.at_
  unfold setAttr
  rw [h.res]
  simp only
  unfold setItem budget setF setCheck
  rw [h1]
  have hnm : fi.fd.name.isNone = false := by
    cases hh : fi.fd.name with
    | none => exact absurd hh h2
    | some _ => rfl
  simp only [h6, packKind, hnm, loop_check P h3 hb, h0, hi, and_self, if_true]
  rw [show evalCond P (look P d.tab S) fi [i] = .ok true by unfold evalCond; rw [h8]]
  simp [h5, h4, hv, h6]

/-- An index out of range. -/
theorem LoopRow.index {k' : Kind} (h : LoopRow d nm n k' ty shape) {S : Store P.F} {k : Int}
    (hb : evalShape P (look P d.tab S) shape [] = .ok k) {i : Int} (hi : ¬ (0 ≤ i ∧ i < k)) :
    getAttr P d S nm [i] = .error .index := by
  obtain ⟨fi, h1, h2, h3, h4, h5, h6, h7, h8, _⟩ := h.at_
  unfold getAttr
  rw [h.res]
  simp only
  rw [getItem_eq P _ h1]
  unfold getWith
  have : lowGet P (look P d.tab S) S fi n [i] = .error .index := by
    unfold lowGet
    cases hh : fi.fd.name with
    | none => exact absurd hh h2
    | some _ =>
      simp only [loop_check P h3 hb, if_neg hi]
      rfl
  rw [this]

/-- An element in range is what its own cell holds. -/
theorem LoopRow.get {k' : Kind} (h : LoopRow d nm n k' ty shape) {S : Store P.F} {k : Int}
    (hb : evalShape P (look P d.tab S) shape [] = .ok k) {i : Int} (hi : 0 ≤ i ∧ i < k) :
    ∃ fi, d.tab[n]? = some fi ∧ fi.fd.ty = ty ∧ fi.fd.kind = k' ∧ fi.fd.optional = false ∧
      getAttr P d S nm [i] =
      (match finish P fi.fd (stored S fi.fd n [i]) with
        | .error x => .error x
        | .ok v =>
          match fi.fd.kind, v with
          | .plain, _ => .ok v
          | _, .none => .ok .none
          | k, .bytes b => unpackKind P (evalSize P (look P d.tab S) fi [i]) k b
          | _, _ => .ok v) := by
  obtain ⟨fi, h1, h2, h3, h4, h5, h6, h7, h8, h9⟩ := h.at_
  refine ⟨fi, h1, h7, h6, h9, ?_⟩
  unfold getAttr
  rw [h.res]
  simp only
  rw [getItem_eq P _ h1]
  unfold getWith
  rw [lowGet_present P h2 (by rw [loop_check P h3 hb, if_pos hi]) (by unfold evalCond; rw [h8]) h4]
  rfl

/-- The value of a plain field depends only on the own cell. -/
theorem LoopRow.get_congr (h : LoopRow d nm n .plain ty shape) {S S' : Store P.F} {k k' : Int}
    (hb : evalShape P (look P d.tab S) shape [] = .ok k)
    (hb' : evalShape P (look P d.tab S') shape [] = .ok k') {i : Int} (hi : 0 ≤ i ∧ i < k)
    (hi' : i < k') (hS : S' n [i] = S n [i]) : getAttr P d S' nm [i] = getAttr P d S nm [i] := by
  obtain ⟨fi, h1, h2, h3, _, h4⟩ := h.get P hb hi
  obtain ⟨fi', h1', h2', h3', _, h4'⟩ := h.get P hb' ⟨hi.1, hi'⟩
  rw [h1] at h1'
  cases h1'
  rw [h4, h4', h3]
  unfold stored
  rw [hS]

/-- The same for the data fields whose value does not depend on their size. -/
theorem LoopRow.get_congr_data {kd : Kind} (h : LoopRow d nm n kd ty shape)
    (hkd : ∀ s, kd ≠ .intData s) {S S' : Store P.F} {k k' : Int}
    (hb : evalShape P (look P d.tab S) shape [] = .ok k)
    (hb' : evalShape P (look P d.tab S') shape [] = .ok k') {i : Int} (hi : 0 ≤ i ∧ i < k)
    (hi' : i < k') (hS : S' n [i] = S n [i]) : getAttr P d S' nm [i] = getAttr P d S nm [i] := by
  obtain ⟨fi, h1, h2, h3, _, h4⟩ := h.get P hb hi
  obtain ⟨fi', h1', h2', h3', _, h4'⟩ := h.get P hb' ⟨hi.1, hi'⟩
  rw [h1] at h1'
  cases h1'
  rw [h4, h4', h3]
  unfold stored
  rw [hS]
  generalize finish P fi.fd _ = r
  cases r with
  | error _ => rfl
  | ok v => cases v <;> cases kd <;> first | exact absurd rfl (hkd _) | rfl

/-- A data field holding bytes. -/
theorem LoopRow.get_bytes {kd : Kind} (h : LoopRow d nm n kd .bytes shape) (hp : kd ≠ .plain)
    (hkd : ∀ s, kd ≠ .intData s) {S : Store P.F} {k : Int}
    (hb : evalShape P (look P d.tab S) shape [] = .ok k) {i : Int} (hi : 0 ≤ i ∧ i < k) {b : Bytes}
    {raw : Option Bytes} (hS : S n [i] = some ⟨.val (.bytes b), raw⟩) :
    getAttr P d S nm [i] = unpackKind P (.ok 0) kd b := by
  obtain ⟨fi, h1, h2, h3, _, h4⟩ := h.get P hb hi
  rw [h4, h3]
  unfold stored
  rw [hS]
  simp only [finish, coerce, h2]
  cases kd <;> first | exact absurd rfl (hkd _) | exact absurd rfl hp | rfl

theorem LoopRow.get_int (h : LoopRow d nm n .plain .int shape) {S : Store P.F} {k : Int}
    (hb : evalShape P (look P d.tab S) shape [] = .ok k) {i : Int} (hi : 0 ≤ i ∧ i < k) {z : Int}
    {raw : Option Bytes} (hS : S n [i] = some ⟨.val (.int z), raw⟩) :
    getAttr P d S nm [i] = .ok (.int z) := by
  obtain ⟨fi, h1, h2, h3, _, h4⟩ := h.get P hb hi
  rw [h4, h3]
  unfold stored
  rw [hS]
  simp only
  rw [finish_int P h2]

theorem LoopRow.get_str (h : LoopRow d nm n .plain .str shape) {S : Store P.F} {k : Int}
    (hb : evalShape P (look P d.tab S) shape [] = .ok k) {i : Int} (hi : 0 ≤ i ∧ i < k) {s : Str}
    {raw : Option Bytes} (hS : S n [i] = some ⟨.val (.str s), raw⟩) :
    getAttr P d S nm [i] = .ok (.str (rstripU s)) := by
  obtain ⟨fi, h1, h2, h3, _, h4⟩ := h.get P hb hi
  rw [h4, h3]
  unfold stored
  rw [hS]
  simp only
  rw [finish_str P h2]

/-- A field in one loop seen from an expression. -/
theorem LoopRow.look {kd : Kind} (h : LoopRow d nm n kd ty shape) (hd : d.causal = true)
    (S : Store P.F) (i : Int) : look P d.tab S nm [i] = getAttr P d S nm [i] := by
  obtain ⟨fi, h1, h2, h3, _⟩ := h.at_
  unfold Verif.look lookVia getAttr
  rw [h.res]
  simp only [h1]
  rw [if_neg (by simp [FInfo.depth, h3]), getF_budget P (Desc.causalTab hd) _ h1]

end Verif
