import Verif.Frame
import Verif.Props.Tables

/- C12: which fields an assignment can affect. -/

namespace Verif

variable {P : PyFloat}

/-- The fields an assignment to the field at `n` stores into: the field itself and, for data fields
that maintain their length, the length field (and so on, should that be such a field). -/
inductive Stores (T : Tab) : Nat → Nat → Prop
  | self (n : Nat) : Stores T n n
  | size {n m q : Nat} {fi : FInfo} {nm : Name} {idx : List Nat} : T[n]? = some fi →
      fi.fd.kind ≠ .plain → fi.fd.sizeNotUpdated = false → fi.fd.size = .expr (.ref nm idx) →
      resolve T nm = some m → Stores T m q → Stores T n q

theorem setF_stores {T : Tab} : ∀ (f : Nat) (S : Store P.F) (n : Nat) (key : Key) (v : Val P.F)
    (q : Nat) (k : Key), ¬ Stores T n q → (setF P T f S n key v).1 q k = S q k := by
  intro f
  induction f with
  | zero => intro S n key v q k _; rfl
  | succ f ih =>
    intro S n key v q k hq
    have hne : q ≠ n := by rintro rfl; exact hq (.self _)
    unfold setF
    cases hc : setCheck P T S n key v with
    | error e => rfl
    | ok r =>
      obtain ⟨fi, v'⟩ := r
      have hn := (setCheck_ok P hc).1
      have hset : (S.set n key ⟨.val v', none⟩) q k = S q k := by
        unfold Store.set
        rw [if_neg fun h => hne h.1]
      simp only
      by_cases hk : fi.fd.kind = .plain
      · rw [if_pos hk]; exact hset
      rw [if_neg hk]
      cases byteLen v' with
      | error e => exact hset
      | ok l =>
        simp only
        by_cases hu : fi.fd.sizeNotUpdated = true
        · rw [if_pos hu]
          cases evalSize P (look P T (S.set n key ⟨.val v', none⟩)) fi key with
          | error e => exact hset
          | ok sz =>
            simp only
            split <;> exact hset
        · rw [if_neg hu]
          have hu' : fi.fd.sizeNotUpdated = false := by simpa using hu
          cases hs : fi.fd.size with
          | const c => exact hset
          | expr e =>
            cases e with
            | ref nm idx =>
              simp only
              cases idxKey key idx with
              | error e => exact hset
              | ok k' =>
                cases hr : resolve T nm with
                | none => exact hset
                | some m =>
                  simp only
                  cases T[m]? with
                  | none => exact hset
                  | some fm =>
                    simp only
                    split
                    · exact hset
                    · split
                      · exact hset
                      · rw [ih _ m k' _ q k fun h => hq (.size hn hk hu' hs hr h)]
                        exact hset
            | _ => exact hset

/-- C12.  An assignment, accepted or refused, does not affect a field that does not depend on the
assigned field or its length field: every element has the same value and the same elements are
there.  (`Depends`: the value, presence or number of elements is computed from it, directly or
through other fields.) -/
theorem C12_unaffected {T : Tab} (S : Store P.F) (n : Nat) (key : Key) (v : Val P.F) {x : Nat}
    (hx : ∀ q, Stores T n q → ¬ Depends T x q) :
    (∀ k, getItem P T (setItem P T S n key v).1 x k = getItem P T S x k) ∧
    fieldItems P T (setItem P T S n key v).1 x = fieldItems P T S x :=
  independent (B := Stores T n) (fun m k hm => setF_stores _ S n key v m k hm) hx

theorem not_depends_of_clear {T : Tab} {bad : List Nat} (h : clearOf T bad = true) {x : Nat}
    (hx : x ∉ bad) {q : Nat} (hq : q ∈ bad) : ¬ Depends T x q := by
  intro hd
  induction hd with
  | refl n => exact hx hq
  | step hn hnm hr _ ih => exact ih (clearOf_closed h _ _ hn hx _ hnm _ hr) hq

/-- Field positions whose name is not mentioned by any other row. -/
def unmentioned (T : Tab) (n : Nat) : Bool := clearOf T [n]

/-- C12 for fields nobody refers to: assigning one changes nothing but that field. -/
theorem C12_leaf {T : Tab} {n : Nat} (hl : unmentioned T n = true) {fi : FInfo}
    (hn : T[n]? = some fi) (hk : fi.fd.kind = .plain) (S : Store P.F) (key : Key) (v : Val P.F)
    {x : Nat} (hx : x ≠ n) :
    (∀ k, getItem P T (setItem P T S n key v).1 x k = getItem P T S x k) ∧
    fieldItems P T (setItem P T S n key v).1 x = fieldItems P T S x := by
  refine C12_unaffected S n key v fun q hq => ?_
  have : q = n := by
    cases hq with
    | self => rfl
    | size h1 h2 _ _ _ _ =>
      rw [hn] at h1
      injection h1 with h1
      subst h1
      exact absurd hk h2
  subst this
  exact not_depends_of_clear hl (by simpa using hx) (by simp)

/-- In the image subheader, changing the image title or the display level affects no other field;
changing the number of comments does. -/
example :
    let T := Tables.t_image_subheader.tab
    ([n!"iid1", n!"iid2", n!"idlvl", n!"icat"].all fun nm =>
      (resolve T nm).elim false (unmentioned T)) = true ∧
    (resolve T (n!"nicom")).elim false (unmentioned T) = false := by decide +kernel

end Verif
