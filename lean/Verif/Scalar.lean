import Verif.AssignLemmas

/- Fields outside all loops, accessed by name: what `getattr` and `setattr` on a header do. -/

namespace Verif

variable (P : PyFloat)

/-- A named field outside all loops, not computed and not hardcoded. -/
structure Scalar (fi : FInfo) : Prop where
  name : fi.fd.name ≠ none
  shapes : fi.shapes = []
  value : fi.fd.value = none
  soft : fi.fd.hardcoded = false

theorem Scalar.depth {fi : FInfo} (h : Scalar fi) : fi.depth = 0 := by simp [FInfo.depth, h.shapes]

theorem Scalar.check {fi : FInfo} (h : Scalar fi) (l : Look P.F) (key : Key) :
    checkIndex P l fi key = .ok () := by
  unfold checkIndex
  rw [h.shapes]
  rfl

/-- Value of a present scalar. -/
theorem Scalar.lowGet {fi : FInfo} (h : Scalar fi) {l : Look P.F} {S : Store P.F} {n : Nat}
    (hc : evalCond P l fi [] = .ok true) :
    lowGet P l S fi n [] = finish P fi.fd (stored S fi.fd n []) :=
  lowGet_present P h.name (h.check P l []) hc h.value

theorem Scalar.get_plain {fi : FInfo} (h : Scalar fi) (hk : fi.fd.kind = .plain) {T : Tab}
    {S : Store P.F} {n : Nat} (hn : T[n]? = some fi)
    (hc : evalCond P (look P T S) fi [] = .ok true) :
    getItem P T S n [] = finish P fi.fd (stored S fi.fd n []) := by
  rw [getItem_eq P _ hn]
  unfold getWith
  rw [h.lowGet P hc]
  cases finish P fi.fd (stored S fi.fd n []) with
  | error e => rfl
  | ok v => simp only [hk]

theorem Scalar.get_absent {fi : FInfo} (h : Scalar fi) {T : Tab}
    {S : Store P.F} {n : Nat} (hn : T[n]? = some fi)
    (hc : evalCond P (look P T S) fi [] = .ok false) :
    getItem P T S n [] = .ok .none := by
  rw [getItem_eq P _ hn]
  unfold getWith
  rw [lowGet_absent P h.name (h.check P _ []) hc]
  cases fi.fd.kind <;> rfl

theorem Scalar.get_bytes {fi : FInfo} (h : Scalar fi) (hk : fi.fd.kind = .bytesData) {T : Tab}
    {S : Store P.F} {n : Nat} (hn : T[n]? = some fi) {b : Bytes}
    (hc : evalCond P (look P T S) fi [] = .ok true)
    (hb : finish P fi.fd (stored S fi.fd n []) = .ok (.bytes b)) :
    getItem P T S n [] = .ok (.bytes b) := by
  rw [getItem_eq P _ hn]
  unfold getWith
  rw [h.lowGet P hc, hb]
  simp only [hk, unpackKind]

/-- A scalar seen from an expression. -/
theorem Scalar.look {fi : FInfo} (h : Scalar fi) {T : Tab} (hC : CausalTab T) {S : Store P.F}
    {nm : Name} {n : Nat} (hr : resolve T nm = some n) (hn : T[n]? = some fi) :
    look P T S nm [] = getItem P T S n [] := by
  unfold Verif.look lookVia
  rw [hr]
  simp only [hn]
  rw [if_neg (by simp [h.depth]), getF_budget P hC _ hn]

theorem Scalar.setCheck_ok {fi : FInfo} (h : Scalar fi) {T : Tab} {S : Store P.F} {n : Nat}
    (hn : T[n]? = some fi) (hc : evalCond P (Verif.look P T S) fi [] = .ok true) {v v' : Val P.F}
    (hp : packKind P (evalSize P (Verif.look P T S) fi []) fi.fd.kind v = .ok v')
    (hv : v'.isNone = false) : setCheck P T S n [] v = .ok (fi, v') := by
  unfold setCheck
  rw [hn]
  simp only [hp]
  have : fi.fd.name.isNone = false := by
    cases hh : fi.fd.name with
    | none => exact absurd hh h.name
    | some _ => rfl
  rw [this, h.check, hc]
  simp [h.soft, h.value, hv]

theorem Scalar.setCheck_absent {fi : FInfo} (h : Scalar fi) {T : Tab} {S : Store P.F} {n : Nat}
    (hn : T[n]? = some fi) (hc : evalCond P (Verif.look P T S) fi [] = .ok false) {v v' : Val P.F}
    (hp : packKind P (evalSize P (Verif.look P T S) fi []) fi.fd.kind v = .ok v') :
    setCheck P T S n [] v = .error .runtime := by
  unfold setCheck
  rw [hn]
  simp only [hp]
  have : fi.fd.name.isNone = false := by
    cases hh : fi.fd.name with
    | none => exact absurd hh h.name
    | some _ => rfl
  rw [this, h.check, hc]
  simp

/-- Setting a present plain scalar. -/
theorem Scalar.set_plain {fi : FInfo} (h : Scalar fi) (hk : fi.fd.kind = .plain) {T : Tab}
    {S : Store P.F} {n : Nat} (hn : T[n]? = some fi)
    (hc : evalCond P (Verif.look P T S) fi [] = .ok true) {v : Val P.F} (hv : v.isNone = false)
    (f : Nat) : setF P T (f + 1) S n [] v = (S.set n [] ⟨.val v, none⟩, none) := by
  unfold setF
  rw [h.setCheck_ok P hn hc (v' := v) (by rw [hk]; rfl) hv]
  simp only [hk, if_true]

theorem Scalar.set_absent {fi : FInfo} (h : Scalar fi) (hk : fi.fd.kind = .plain) {T : Tab}
    {S : Store P.F} {n : Nat} (hn : T[n]? = some fi)
    (hc : evalCond P (Verif.look P T S) fi [] = .ok false) {v : Val P.F}
    (f : Nat) : setF P T (f + 1) S n [] v = (S, some .runtime) := by
  unfold setF
  rw [h.setCheck_absent P hn hc (v' := v) (by rw [hk]; rfl)]

/-- Setting a data field whose length is in the plain scalar at `m`. -/
theorem Scalar.set_data {fi fm : FInfo} (h : Scalar fi) (hm : Scalar fm) {T : Tab}
    {S : Store P.F} {n m : Nat} {nm : Name} (hn : T[n]? = some fi) (hmn : T[m]? = some fm)
    (hk : fi.fd.kind = .bytesData) (hmk : fm.fd.kind = .plain) (hu : fi.fd.sizeNotUpdated = false)
    (hsz : fi.fd.size = .expr (.ref nm [])) (hr : resolve T nm = some m)
    (hcn : fi.fd.cond = none) (hcm : fm.fd.cond = none) (b : Bytes) :
    setItem P T S n [] (.bytes b) =
      ((S.set n [] ⟨.val (.bytes b), none⟩).set m []
        ⟨.val (.int (if b.length = 0 then 0 else (b.length : Int) + fi.fd.sizeOffset)), none⟩,
        none) := by
  have hpos : 0 < T.length := by have := lt_of_getElem? hn; omega
  obtain ⟨t, ht⟩ : ∃ t, T.length = t + 1 := ⟨T.length - 1, by omega⟩
  unfold setItem budget
  rw [ht]
  unfold setF
  rw [h.setCheck_ok P hn (v' := .bytes b) (by unfold evalCond; rw [hcn]) (by rw [hk]; rfl) rfl]
  simp only [hk, reduceCtorEq, if_false, byteLen, hu, Bool.false_eq_true, hsz, idxKey, hr, hmn,
    hm.depth, ne_eq, not_true_eq_false, false_and, and_false]
  rw [hm.set_plain P hmk hmn (by unfold evalCond; rw [hcm]) rfl]

theorem Scalar.size_const {fi : FInfo} {k : Nat} (hs : fi.fd.size = .const k)
    (ho : fi.fd.sizeOffset = 0) (l : Look P.F) (key : Key) :
    evalSize P l fi key = .ok (k : Int) := by
  unfold evalSize
  rw [hs]
  simp only [ho]
  congr 1
  split <;> simp_all

end Verif
