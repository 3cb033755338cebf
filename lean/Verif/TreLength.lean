import Verif.StandardLayout
import Verif.Props.Tre

/-
Lemmas for C99: lengths of records all of whose fields are always there, with repeated groups of such
fields.
-/

namespace Verif.Standard

open Verif Verif.Sense

variable {P : PyFloat}

def sizes (sl : List Slot) : Nat := (sl.map fun s => s.size.toNat).sum

theorem sizes_append (a b : List Slot) : sizes (a ++ b) = sizes a + sizes b := by
  unfold sizes; rw [List.map_append, List.sum_append]

/-- Total width of fields that are always there, of widths the table gives. -/
def plainTotal (T : Tab) : Nat → Desc → Option Nat
  | _, .nil => some 0
  | n, .field _ r =>
    match T[n]? with
    | none => none
    | some fi =>
      match fi.fd.cond, fi.fd.size with
      | none, .const w => if fi.fd.sizeOffset = 0 then (plainTotal T (n + 1) r).map (w + ·) else none
      | _, _ => none
  | _, .loop _ _ _ => none

/-- Total width, and the repeated groups: name of the count and width of the group. -/
def linear (T : Tab) : Nat → Desc → Option (Nat × List (Name × Nat))
  | _, .nil => some (0, [])
  | n, .field _ r =>
    match T[n]? with
    | none => none
    | some fi =>
      match fi.fd.cond, fi.fd.size with
      | none, .const w =>
        if fi.fd.sizeOffset = 0 then (linear T (n + 1) r).map fun p => (w + p.1, p.2) else none
      | _, _ => none
  | n, .loop e body r =>
    match plainTotal T n body with
    | none => none
    | some w =>
      match e with
      | .const (.int c) => (linear T (n + body.count) r).map fun p => (c.toNat * w + p.1, p.2)
      | .ref nm [] => (linear T (n + body.count) r).map fun p => (p.1, (nm, w) :: p.2)
      | _ => none

theorem plainTotal_sizes {T : Tab} {S : Store P.F} : ∀ (d : Desc) {n w : Nat} {key : Key} {sl : List Slot},
    plainTotal T n d = some w → layoutD P T S n key d = .ok sl → sizes sl = w := by
  intro d
  induction d with
  | nil =>
    intro n w key sl hw h
    injection h with h; injection hw with hw
    subst h hw; rfl
  | loop _ _ _ _ _ => intro n w key sl hw; cases hw
  | field fd r ih =>
    intro n w key sl hw h
    simp only [plainTotal] at hw
    cases hn : T[n]? with
    | none => rw [hn] at hw; cases hw
    | some fi =>
      rw [hn] at hw
      simp only at hw
      split at hw
      · rename_i hc hs
        by_cases ho : fi.fd.sizeOffset = 0
        · rw [if_pos ho] at hw
          cases hp : plainTotal T (n + 1) r with
          | none => rw [hp] at hw; cases hw
          | some w' =>
            rw [hp] at hw
            injection hw with hw
            rcases inv_opt hn h with ⟨c, _⟩ | ⟨_, sz, sl', h1, h2, rfl⟩
            · rw [cond_none hc] at c; cases c
            · have := size_const hs ho h1
              subst this
              rw [← hw, ← ih hp h2]
              simp [sizes]
        · rw [if_neg ho] at hw; cases hw
      · cases hw

theorem loop_sizes {c : Int} {g : Int → List Slot} {w : Nat} (h : ∀ i ∈ indices c, sizes (g i) = w) :
    sizes ((indices c).flatMap g) = c.toNat * w := by
  have : ∀ l : List Int, (∀ i ∈ l, sizes (g i) = w) → sizes (l.flatMap g) = l.length * w := by
    intro l
    induction l with
    | nil => intro _; simp [sizes]
    | cons a l ih =>
      intro h
      rw [List.flatMap_cons, sizes_append, h a (by simp), ih fun i hi => h i (by simp [hi])]
      rw [List.length_cons, Nat.succ_mul, Nat.add_comm]
  rw [this _ h]
  simp [indices]

theorem linear_sizes {d0 : Desc} (hd : d0.causal = true) {S : Store P.F} : ∀ (d : Desc) {n a : Nat}
    {gs : List (Name × Nat)} {sl : List Slot}, linear d0.tab n d = some (a, gs) →
    layoutD P d0.tab S n [] d = .ok sl → ∃ cs : List Int,
      Each (fun g c => Counts P d0 S g.1 [] c) gs cs ∧
      sizes sl = a + ((gs.zip cs).map fun q => q.2.toNat * q.1.2).sum := by
  intro d
  induction d with
  | nil =>
    intro n a gs sl hw h
    injection h with h; injection hw with hw; injection hw with h1 h2
    subst h h1 h2
    exact ⟨[], .nil, rfl⟩
  | field fd r ih =>
    intro n a gs sl hw h
    simp only [linear] at hw
    cases hn : d0.tab[n]? with
    | none => rw [hn] at hw; cases hw
    | some fi =>
      rw [hn] at hw
      simp only at hw
      split at hw
      · rename_i w hc hs
        by_cases ho : fi.fd.sizeOffset = 0
        · rw [if_pos ho] at hw
          cases hp : linear d0.tab (n + 1) r with
          | none => rw [hp] at hw; cases hw
          | some p =>
            rw [hp] at hw
            injection hw with hw; injection hw with h1 h2
            rcases inv_opt hn h with ⟨c, _⟩ | ⟨_, sz, sl', h3, h4, rfl⟩
            · rw [cond_none hc] at c; cases c
            · have := size_const hs ho h3
              subst this
              obtain ⟨cs, e1, e2⟩ := ih hp h4
              rw [h2] at e1 e2
              refine ⟨cs, e1, ?_⟩
              rw [← h1]
              show sizes ([_] ++ sl') = _
              rw [sizes_append, e2]
              simp [sizes, Nat.add_assoc]
        · rw [if_neg ho] at hw; cases hw
      · cases hw
  | loop e body r _ ih =>
    intro n a gs sl hw h
    simp only [linear] at hw
    cases hb : plainTotal d0.tab n body with
    | none => rw [hb] at hw; cases hw
    | some w =>
      rw [hb] at hw
      obtain ⟨c, g, sl', h1, h2, h3, rfl⟩ := inv_loop h
      have hl := loop_sizes (c := c) (g := g) (w := w) fun i hi => plainTotal_sizes body hb (h2 i hi)
      simp only at hw
      split at hw
      · rename_i k
        cases hp : linear d0.tab (n + body.count) r with
        | none => rw [hp] at hw; cases hw
        | some p =>
          rw [hp] at hw
          injection hw with hw; injection hw with h4 h5
          obtain ⟨cs, e1, e2⟩ := ih hp h3
          rw [h5] at e1 e2
          have hk : c = k := by
            simp only [evalShape, evalE, CVal.toVal] at h1
            injection h1 with h1; exact h1.symm
          refine ⟨cs, e1, ?_⟩
          rw [sizes_append, hl, e2, ← h4, hk, Nat.add_assoc]
      · rename_i nm
        cases hp : linear d0.tab (n + body.count) r with
        | none => rw [hp] at hw; cases hw
        | some p =>
          rw [hp] at hw
          injection hw with hw; injection hw with h4 h5
          obtain ⟨cs, e1, e2⟩ := ih hp h3
          refine ⟨c :: cs, ?_, ?_⟩
          · rw [← h5]
            exact .cons (counts_of hd rfl h1) e1
          · rw [sizes_append, hl, e2, ← h4, ← h5]
            simp only [List.zip_cons_cons, List.map_cons, List.sum_cons]
            omega
      · cases hw

theorem sizes_chunks (cs : List Chunk) : sizes (cs.map Chunk.slot) = (chunkBytes cs).length := by
  unfold sizes chunkBytes
  rw [List.length_flatten, List.map_map, List.map_map]
  rfl

end Verif.Standard
