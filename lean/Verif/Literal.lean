import Verif.AssignLemmas

/-
`NitfLiteral` objects assigned by the user: text that goes into the file as it is, apart from
padding.
-/

namespace Verif

variable (P : PyFloat)

/-- `NitfLiteral(value, trunc_size)` for bytes (nitf_field.py:41-45).  `value[0:t-1]`: a negative
bound counts from the end. -/
def mkLiteral (value : Bytes) : Option Int → Bytes
  | none => value
  | some t =>
    if 0 ≤ t - 1 then value.take (t - 1).toNat
    else value.take (value.length - (1 - t).toNat)

/-- `self[key] = NitfLiteral(..)` (nitf_field.py:282-308).  Simplification: the `pack` of the
FieldData classes refuses any object that is not a value, with an exception that depends on the
class; here always TypeError. -/
def setLit (T : Tab) (S : Store P.F) (n : Nat) (key : Key) (b : Bytes) : Store P.F × Option Err :=
  match T[n]? with
  | none => (S, some .attr)
  | some fi =>
    if fi.fd.kind ≠ .plain then (S, some .type)
    else if fi.fd.name.isNone then (S, some .runtime)
    else match checkIndex P (look P T S) fi key with
    | .error e => (S, some e)
    | .ok () =>
      match evalCond P (look P T S) fi key with
      | .error e => (S, some e)
      | .ok false => (S, some .runtime)
      | .ok true =>
        if fi.fd.hardcoded || fi.fd.value.isSome then (S, some .runtime)
        else (S.set n key ⟨.lit b, none⟩, none)

variable {P}

theorem setLit_ok {T : Tab} {S S' : Store P.F} {n : Nat} {key : Key} {b : Bytes} {fi : FInfo}
    (hn : T[n]? = some fi) (h : setLit P T S n key b = (S', none)) :
    fi.fd.kind = .plain ∧ fi.fd.name ≠ none ∧ checkIndex P (look P T S) fi key = .ok () ∧
    evalCond P (look P T S) fi key = .ok true ∧ fi.fd.value = none ∧
    S' = S.set n key ⟨.lit b, none⟩ := by
  unfold setLit at h
  rw [hn] at h
  simp only at h
  by_cases hk : fi.fd.kind = .plain
  · rw [if_neg (by simpa using hk)] at h
    cases hnm : fi.fd.name with
    | none => rw [hnm] at h; simp at h
    | some nm =>
      rw [hnm, if_neg (by simp)] at h
      cases hc : checkIndex P (look P T S) fi key with
      | error e => rw [hc] at h; simp at h
      | ok u =>
        rw [hc] at h
        simp only at h
        cases he : evalCond P (look P T S) fi key with
        | error e => rw [he] at h; simp at h
        | ok c =>
          rw [he] at h
          cases c with
          | false => simp at h
          | true =>
            simp only at h
            cases hv : fi.fd.value with
            | some e => rw [hv] at h; simp at h
            | none =>
              rw [hv] at h
              by_cases hh : fi.fd.hardcoded = true
              · rw [if_pos (by simp [hh])] at h; simp at h
              · rw [if_neg (by simp [hh])] at h
                injection h with h1 _
                exact ⟨hk, by simp, rfl, rfl, rfl, h1.symm⟩
  · rw [if_pos hk] at h; simp at h

theorem setLit_error {T : Tab} {S S' : Store P.F} {n : Nat} {key : Key} {b : Bytes} {e : Err}
    (h : setLit P T S n key b = (S', some e)) : S' = S := by
  unfold setLit at h
  cases hn : T[n]? with
  | none => rw [hn] at h; injection h with h1 _; exact h1.symm
  | some fi =>
    rw [hn] at h
    simp only at h
    split at h
    · injection h with h1 _; exact h1.symm
    · split at h
      · injection h with h1 _; exact h1.symm
      · split at h
        · injection h with h1 _; exact h1.symm
        · split at h
          · injection h with h1 _; exact h1.symm
          · injection h with h1 _; exact h1.symm
          · split at h
            · injection h with h1 _; exact h1.symm
            · injection h with _ h2; cases h2

end Verif
