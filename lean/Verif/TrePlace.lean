import Verif.TreLemmas
import Verif.TreArea

/- First-fit placement of serialised TREs, and what is read back after it. -/

namespace Verif

variable (P : PyFloat)

/-- Two lists of the same length related element by element. -/
inductive Each {α β : Type} (R : α → β → Prop) : List α → List β → Prop
  | nil : Each R [] []
  | cons {a as b bs} : R a b → Each R as bs → Each R (a :: as) (b :: bs)

theorem Each.append {α β : Type} {R : α → β → Prop} {as cs : List α} {bs ds : List β}
    (h : Each R as bs) (h2 : Each R cs ds) : Each R (as ++ cs) (bs ++ ds) := by
  induction h with
  | nil => exact h2
  | cons h _ ih => exact .cons h ih

theorem Each.length {α β : Type} {R : α → β → Prop} {as : List α} {bs : List β}
    (h : Each R as bs) : as.length = bs.length := by
  induction h with
  | nil => rfl
  | cons _ _ ih => simp [ih]

theorem Each.get {α β : Type} {R : α → β → Prop} {as : List α} {bs : List β}
    (h : Each R as bs) : ∀ (i : Nat) (a : α) (b : β), as[i]? = some a → bs[i]? = some b → R a b := by
  induction h with
  | nil => intro i a b h; simp at h
  | cons h _ ih =>
    intro i a b h1 h2
    cases i with
    | zero => simp at h1 h2; subst h1; subst h2; exact h
    | succ i => exact ih i a b (by simpa using h1) (by simpa using h2)

theorem Each.imp {α β : Type} {R Q : α → β → Prop} {as : List α} {bs : List β}
    (h : Each R as bs) (hq : ∀ a ∈ as, ∀ b, R a b → Q a b) : Each Q as bs := by
  induction h with
  | nil => exact .nil
  | cons h _ ih =>
    exact .cons (hq _ (by simp) _ h) (ih fun a ha => hq a (by simp [ha]))

theorem Each.mem_right {α β : Type} {R : α → β → Prop} {as : List α} {bs : List β}
    (h : Each R as bs) {b : β} (hb : b ∈ bs) : ∃ a ∈ as, R a b := by
  induction h with
  | nil => cases hb
  | cons h _ ih =>
    rcases List.mem_cons.mp hb with rfl | hb
    · exact ⟨_, by simp, h⟩
    · obtain ⟨a, h1, h2⟩ := ih hb
      exact ⟨a, by simp [h1], h2⟩

theorem Each.mem_left {α β : Type} {R : α → β → Prop} {as : List α} {bs : List β}
    (h : Each R as bs) {a : α} (ha : a ∈ as) : ∃ b ∈ bs, R a b := by
  induction h with
  | nil => cases ha
  | cons h _ ih =>
    rcases List.mem_cons.mp ha with rfl | ha
    · exact ⟨_, by simp, h⟩
    · obtain ⟨b, h1, h2⟩ := ih ha
      exact ⟨b, by simp [h1], h2⟩

/-- The elements of `xs` whose destination is `k`. -/
def picks {α κ : Type} [DecidableEq κ] (dest : List κ) (xs : List α) (k : κ) : List α :=
  (dest.zip xs).filterMap fun p => if p.1 = k then some p.2 else none

theorem picks_cons {α κ : Type} [DecidableEq κ] (k0 : κ) (dest : List κ) (x : α) (xs : List α)
    (k : κ) : picks (k0 :: dest) (x :: xs) k =
      if k0 = k then x :: picks dest xs k else picks dest xs k := by
  unfold picks
  rw [List.zip_cons_cons, List.filterMap_cons]
  by_cases h : k0 = k <;> simp [h]

theorem picks_map {α β κ : Type} [DecidableEq κ] (f : α → β) (dest : List κ) (xs : List α) (k : κ) :
    picks dest (xs.map f) k = (picks dest xs k).map f := by
  induction dest generalizing xs with
  | nil => rfl
  | cons k0 dest ih =>
    cases xs with
    | nil => rfl
    | cons x xs =>
      rw [List.map_cons, picks_cons, picks_cons, ih]
      split <;> rfl

theorem picks_sublist {α κ : Type} [DecidableEq κ] (dest : List κ) (xs : List α) (k : κ) :
    (picks dest xs k).Sublist xs := by
  induction dest generalizing xs with
  | nil => exact List.nil_sublist _
  | cons k0 dest ih =>
    cases xs with
    | nil => exact List.nil_sublist _
    | cons x xs =>
      rw [picks_cons]
      split
      · exact (ih xs).cons_cons x
      · exact (ih xs).cons x

theorem flatMap_pick_notMem {α κ : Type} [DecidableEq κ] {k0 : κ} (x : α) (f : κ → List α) :
    ∀ (ks : List κ), k0 ∉ ks → ks.flatMap (fun k => if k0 = k then x :: f k else f k) = ks.flatMap f
  | [], _ => rfl
  | k :: ks, h => by
    rw [List.flatMap_cons, List.flatMap_cons, if_neg (by rintro rfl; simp at h),
      flatMap_pick_notMem x f ks (by intro h'; exact h (by simp [h']))]

theorem flatMap_pick {α κ : Type} [DecidableEq κ] {k0 : κ} (x : α) (f : κ → List α) :
    ∀ (ks : List κ), ks.Nodup → k0 ∈ ks →
      (ks.flatMap fun k => if k0 = k then x :: f k else f k).Perm (x :: ks.flatMap f)
  | [], _, h => by simp at h
  | k :: ks, hnd, h => by
    rw [List.flatMap_cons, List.flatMap_cons]
    rw [List.nodup_cons] at hnd
    by_cases hk : k0 = k
    · subst hk
      rw [if_pos rfl, flatMap_pick_notMem x f ks hnd.1]
      exact List.Perm.refl _
    · rw [if_neg hk]
      have : k0 ∈ ks := by
        rcases List.mem_cons.mp h with h | h
        · exact absurd h hk
        · exact h
      exact ((flatMap_pick x f ks hnd.2 this).append_left (f k)).trans List.perm_middle

/-- Every element is in exactly one place. -/
theorem picks_perm {α κ : Type} [DecidableEq κ] {ks : List κ} (hnd : ks.Nodup) :
    ∀ (dest : List κ) (xs : List α), dest.length = xs.length → (∀ k ∈ dest, k ∈ ks) →
      (ks.flatMap (picks dest xs)).Perm xs
  | [], [], _, _ => by
    have : ks.flatMap (picks ([] : List κ) ([] : List α)) = [] := by
      rw [List.flatMap_eq_nil_iff]; intro _ _; rfl
    rw [this]
  | [], _ :: _, h, _ => by simp at h
  | _ :: _, [], h, _ => by simp at h
  | k0 :: dest, x :: xs, h, hm => by
    have hf : picks (k0 :: dest) (x :: xs) =
        fun k => if k0 = k then x :: picks dest xs k else picks dest xs k := by
      funext k; exact picks_cons k0 dest x xs k
    rw [hf]
    exact (flatMap_pick x _ ks hnd (hm k0 (by simp))).trans
      ((picks_perm hnd dest xs (by simpa using h) fun k hk => hm k (by simp [hk])).cons x)

/-- What a header area can hold. -/
def AreaFits (b : Bytes) : Prop := b.length < 99996

theorem placeOne_some {t : Bytes} : ∀ {heads heads' : List Bytes}, placeOne t heads = some heads' →
    ∃ (i : Nat) (h : Bytes), heads[i]? = some h ∧ heads' = heads.set i (h ++ t) ∧
      h.length + t.length < 99996 ∧
      ∀ (j : Nat) (g : Bytes), j < i → heads[j]? = some g → ¬ g.length + t.length < 99996
  | [], _, h => by cases h
  | h :: hs, heads', hp => by
    unfold placeOne at hp
    split at hp
    · rename_i hl
      injection hp with hp
      exact ⟨0, h, rfl, hp.symm, by omega, fun j g hj => by omega⟩
    · rename_i hl
      cases hq : placeOne t hs with
      | none => rw [hq] at hp; cases hp
      | some hs' =>
        rw [hq] at hp
        injection hp with hp
        obtain ⟨i, g, h1, h2, h3, h4⟩ := placeOne_some hq
        refine ⟨i + 1, g, by simpa using h1, ?_, h3, ?_⟩
        · rw [← hp, h2]; rfl
        · intro j g' hj hg'
          cases j with
          | zero => simp at hg'; subst hg'; omega
          | succ j => exact h4 j g' (by omega) (by simpa using hg')

theorem placeOne_none {t : Bytes} : ∀ {heads : List Bytes}, placeOne t heads = none →
    ∀ h ∈ heads, ¬ h.length + t.length < 99996
  | [], _, _, h => by simp at h
  | h :: hs, hp, g, hg => by
    unfold placeOne at hp
    split at hp
    · cases hp
    · rename_i hl
      rcases List.mem_cons.mp hg with rfl | hg
      · omega
      · refine placeOne_none ?_ g hg
        cases hq : placeOne t hs with
        | none => rfl
        | some _ => rw [hq] at hp; cases hp

theorem placeOne_none_iff {t : Bytes} {heads : List Bytes} : placeOne t heads = none ↔
    ∀ h ∈ heads, ¬ h.length + t.length < 99996 := by
  refine ⟨placeOne_none, fun h => ?_⟩
  cases hp : placeOne t heads with
  | none => rfl
  | some x =>
    obtain ⟨i, g, h1, _, h3, _⟩ := placeOne_some hp
    exact absurd h3 (h g (List.mem_of_getElem? h1))

theorem place_spec_first : ∀ (ser heads : List Bytes) (ov : Bytes), ∃ dest : List (Option Nat),
    dest.length = ser.length ∧
    (∀ k ∈ dest, ∀ i, k = some i → i < heads.length) ∧
    (place ser heads ov).1.length = heads.length ∧
    (∀ (i : Nat) (h : Bytes), heads[i]? = some h →
      (place ser heads ov).1[i]? = some (h ++ (picks dest ser (some i)).flatten)) ∧
    (place ser heads ov).2 = ov ++ (picks dest ser none).flatten ∧
    ((∀ h ∈ heads, AreaFits h) → ∀ h ∈ (place ser heads ov).1, AreaFits h) ∧
    (∀ (i j : Nat) (t h : Bytes), i < j → t ∈ picks dest ser (some j) →
      (place ser heads ov).1[i]? = some h → ¬ h.length + t.length < 99996)
  | [], heads, ov => ⟨[], rfl, by simp, rfl, by intro i h hh; simp [place, picks, hh],
      by simp [place, picks], fun h => h, by intro i j t h _ ht; simp [picks] at ht⟩
  | t :: ts, heads, ov => by
    unfold place
    cases hp : placeOne t heads with
    | none =>
      obtain ⟨dest, h1, h2, h3, h4, h5, h6, h7⟩ := place_spec_first ts heads (ov ++ t)
      refine ⟨none :: dest, by simp [h1], ?_, h3, ?_, ?_, h6, ?_⟩
      · intro k hk i hi
        rcases List.mem_cons.mp hk with rfl | hk
        · cases hi
        · exact h2 k hk i hi
      · intro i h hh
        rw [picks_cons, if_neg (by simp)]
        exact h4 i h hh
      · rw [picks_cons, if_pos rfl]
        simp only
        rw [h5]
        simp
      · intro i j t' h hij ht
        rw [picks_cons, if_neg (by simp)] at ht
        exact h7 i j t' h hij ht
    | some heads' =>
      obtain ⟨i0, g, g1, g2, g3, g4⟩ := placeOne_some hp
      obtain ⟨dest, h1, h2, h3, h4, h5, h6, h7⟩ := place_spec_first ts heads' ov
      have hlen : heads'.length = heads.length := by rw [g2]; simp
      have hi0 : i0 < heads.length := lt_of_getElem? g1
      refine ⟨some i0 :: dest, by simp [h1], ?_, by simpa [hlen] using h3, ?_, ?_, ?_, ?_⟩
      · intro k hk i hi
        rcases List.mem_cons.mp hk with rfl | hk
        · injection hi with hi; omega
        · have := h2 k hk i hi; omega
      · intro i h hh
        rw [picks_cons]
        by_cases he : i0 = i
        · subst he
          rw [g1] at hh
          injection hh with hh
          subst hh
          rw [if_pos rfl]
          have := h4 i0 (g ++ t) (by rw [g2]; simp [hi0])
          rw [this]
          simp
        · rw [if_neg (by simpa using he)]
          exact h4 i h (by rw [g2, List.getElem?_set_ne he]; exact hh)
      · rw [picks_cons, if_neg (by simp)]
        exact h5
      · intro hf
        refine h6 ?_
        intro x hx
        rw [g2] at hx
        rcases List.mem_or_eq_of_mem_set hx with hx | hx
        · exact hf x hx
        · subst hx
          unfold AreaFits
          rw [List.length_append]
          exact g3
      · intro i j t' h hij ht hh
        rw [picks_cons] at ht
        by_cases he : i0 = j
        · subst he
          rw [if_pos rfl] at ht
          rcases List.mem_cons.mp ht with rfl | ht
          · have hi : i < heads.length := by omega
            have q := h4 i heads[i] (by
              rw [g2, List.getElem?_set_ne (by omega)]; exact List.getElem?_eq_getElem hi)
            rw [q] at hh
            injection hh with hh
            have := g4 i heads[i] hij (List.getElem?_eq_getElem hi)
            rw [← hh, List.length_append]
            omega
          · exact h7 i i0 t' h hij ht hh
        · rw [if_neg (by simpa using he)] at ht
          exact h7 i j t' h hij ht hh

theorem place_spec (ser heads : List Bytes) (ov : Bytes) : ∃ dest : List (Option Nat),
    dest.length = ser.length ∧
    (∀ k ∈ dest, ∀ i, k = some i → i < heads.length) ∧
    (place ser heads ov).1.length = heads.length ∧
    (∀ (i : Nat) (h : Bytes), heads[i]? = some h →
      (place ser heads ov).1[i]? = some (h ++ (picks dest ser (some i)).flatten)) ∧
    (place ser heads ov).2 = ov ++ (picks dest ser none).flatten ∧
    ((∀ h ∈ heads, AreaFits h) → ∀ h ∈ (place ser heads ov).1, AreaFits h) := by
  obtain ⟨dest, h1, h2, h3, h4, h5, h6, _⟩ := place_spec_first ser heads ov
  exact ⟨dest, h1, h2, h3, h4, h5, h6⟩

/-- TREs that fit into none of the areas before this one, and that fit into it together, all go
there. -/
theorem place_replay {A B : List Bytes} {ov : Bytes} {rest : List Bytes} : ∀ (ts : List Bytes)
    (h : Bytes), (∀ t ∈ ts, ∀ a ∈ A, ¬ a.length + t.length < 99996) →
      (h ++ ts.flatten).length < 99996 →
      place (ts ++ rest) (A ++ h :: B) ov = place rest (A ++ (h ++ ts.flatten) :: B) ov
  | [], h, _, _ => by simp
  | t :: ts, h, hA, hl => by
    have hl' : h.length + t.length + ts.flatten.length < 99996 := by
      simp only [List.flatten_cons, List.length_append] at hl; omega
    have e : ∀ A : List Bytes, (∀ a ∈ A, ¬ a.length + t.length < 99996) →
        placeOne t (A ++ h :: B) = some (A ++ (h ++ t) :: B) := by
      intro A
      induction A with
      | nil =>
        intro _
        rw [List.nil_append, List.nil_append]
        unfold placeOne
        rw [if_pos (by omega)]
      | cons a A ih =>
        intro ha
        rw [List.cons_append, List.cons_append]
        unfold placeOne
        have := ha a (by simp)
        rw [if_neg (by omega), ih fun b hb => ha b (by simp [hb])]
        rfl
    have e2 : place (t :: ts ++ rest) (A ++ h :: B) ov = place (ts ++ rest) (A ++ (h ++ t) :: B) ov := by
      rw [List.cons_append]
      conv => lhs; unfold place
      rw [e A (hA t (by simp))]
    rw [e2, place_replay ts (h ++ t) (fun u hu => hA u (by simp [hu])) (by simpa using hl)]
    simp

/-- Groups of TREs that each fit into an area, no TRE of which fits into an area before its own. -/
theorem place_groups {ov : Bytes} : ∀ (G : List (List Bytes)) (A : List Bytes),
    (∀ g ∈ G, ∀ t ∈ g, ∀ a ∈ A, ¬ a.length + t.length < 99996) →
    G.Pairwise (fun g g' => ∀ t ∈ g', ¬ g.flatten.length + t.length < 99996) →
    (∀ g ∈ G, g.flatten.length < 99996) →
    place G.flatten (A ++ G.map fun _ => []) ov = (A ++ G.map List.flatten, ov)
  | [], A, _, _, _ => by simp [place]
  | g :: G, A, hA, hP, hF => by
    rw [List.pairwise_cons] at hP
    rw [List.flatten_cons, List.map_cons,
      place_replay g [] (hA g (by simp)) (by simpa using hF g (by simp))]
    have := place_groups (ov := ov) G (A ++ [g.flatten]) (by
      intro g' hg' t ht a ha
      rcases List.mem_append.mp ha with ha | ha
      · exact hA g' (by simp [hg']) t ht a ha
      · simp only [List.mem_cons, List.not_mem_nil, or_false] at ha
        subst ha
        exact hP.1 g' hg' t ht) hP.2 (fun g' hg' => hF g' (by simp [hg']))
    simpa using this

/-- First-fit placement is stable: taking the TREs area by area, they go to the same areas again. -/
theorem place_again {n : Nat} {ser : List Bytes} {heads : List Bytes} {ov : Bytes}
    (h : place ser (List.replicate n []) [] = (heads, ov)) :
    ∃ G : List (List Bytes), G.length = n ∧ heads = G.map List.flatten ∧
      (∀ g ∈ G, ∀ t ∈ g, t ∈ ser) ∧
      ∀ ov', place G.flatten (List.replicate n []) ov' = (heads, ov') := by
  obtain ⟨dest, h1, h2, h3, h4, h5, h6, h7⟩ := place_spec_first ser (List.replicate n []) []
  rw [h] at h3 h4 h5 h6 h7
  simp only at h3 h4 h5 h6 h7
  rw [List.length_replicate] at h3
  have hd : heads = ((List.range n).map fun i => picks dest ser (some i)).map List.flatten := by
    apply List.ext_getElem?
    intro i
    by_cases hi : i < n
    · rw [h4 i [] (by simp [hi])]
      simp [hi]
    · rw [List.getElem?_eq_none (by omega)]
      simp [hi]
  refine ⟨(List.range n).map fun i => picks dest ser (some i), by simp, hd, ?_, ?_⟩
  · intro g hg t ht
    obtain ⟨i, _, rfl⟩ := List.mem_map.mp hg
    exact (picks_sublist _ _ _).subset ht
  · intro ov'
    have := place_groups (ov := ov') ((List.range n).map fun i => picks dest ser (some i)) []
      (by simp) (by
        rw [List.pairwise_iff_getElem]
        intro i j hi hj hij t ht
        simp only [List.length_map, List.length_range] at hi hj
        simp only [List.getElem_map, List.getElem_range] at ht ⊢
        have := h7 i j t ((picks dest ser (some i)).flatten) hij ht (by rw [hd]; simp [hi])
        exact this) (by
        intro g hg
        refine h6 (by intro h hh; rw [List.eq_of_mem_replicate hh]; simp [AreaFits]) _ ?_
        rw [hd]
        exact List.mem_map.mpr ⟨g, hg, rfl⟩)
    rw [List.nil_append, List.nil_append, ← hd] at this
    rw [List.map_const', List.length_map, List.length_range] at this
    exact this

/-- If everything fits into the first area, it all goes there. -/
theorem place_first (h : Bytes) (hs : List Bytes) (ov : Bytes) : ∀ (ser : List Bytes) (h : Bytes),
    h.length + ser.flatten.length < 99996 → place ser (h :: hs) ov = ((h ++ ser.flatten) :: hs, ov)
  | [], h, _ => by simp [place]
  | t :: ts, g, hl => by
    unfold place placeOne
    rw [List.flatten_cons, List.length_append] at hl
    rw [if_pos (by omega)]
    simp only
    rw [place_first h hs ov ts (g ++ t) (by rw [List.length_append]; omega)]
    simp

/-- A list of areas with an unused one at position `A.length`: either it is used in the end, or all
went into the areas before it. -/
theorem place_before {B : List Bytes} {ov : Bytes} : ∀ (ser : List Bytes) (A : List Bytes),
    (∀ b ∈ ser, b ≠ [] ∧ b.length < 99996) → (∀ h ∈ A, AreaFits h) →
    (∃ h, (place ser (A ++ [] :: B) ov).1[A.length]? = some h ∧ h ≠ []) ∨
    A.flatten.length + ser.flatten.length ≤ A.length * 99995
  | [], A, _, hA => by
    right
    rw [List.flatten_nil, List.length_nil, Nat.add_zero]
    induction A with
    | nil => simp
    | cons h A ih =>
      have h1 := hA h (by simp)
      have h2 := ih fun x hx => hA x (by simp [hx])
      unfold AreaFits at h1
      rw [List.flatten_cons, List.length_append, List.length_cons, Nat.add_mul]
      omega
  | t :: ts, A, hs, hA => by
    obtain ⟨ht, hl⟩ := hs t (by simp)
    have hs' : ∀ b ∈ ts, b ≠ [] ∧ b.length < 99996 := fun b hb => hs b (by simp [hb])
    unfold place
    cases hp : placeOne t (A ++ [] :: B) with
    | none =>
      exact absurd (by simpa using hl) (placeOne_none hp [] (by simp))
    | some heads' =>
      obtain ⟨i, g, g1, g2, g3, g4⟩ := placeOne_some hp
      simp only
      rcases Nat.lt_trichotomy i A.length with hi | hi | hi
      · -- before
        have hgA : A[i]? = some g := by rw [← g1, List.getElem?_append_left hi]
        have e : heads' = A.set i (g ++ t) ++ [] :: B := by
          rw [g2, List.set_append_left _ _ hi]
        have hlen : (A.set i (g ++ t)).flatten.length = A.flatten.length + t.length := by
          have : ∀ (A : List Bytes) (i : Nat), A[i]? = some g →
              (A.set i (g ++ t)).flatten.length = A.flatten.length + t.length := by
            intro A
            induction A with
            | nil => intro i h; simp at h
            | cons a A ih =>
              intro i h
              cases i with
              | zero =>
                simp only [List.getElem?_cons_zero, Option.some.injEq] at h
                subst h
                simp only [List.set_cons_zero, List.flatten_cons, List.length_append]
                omega
              | succ i =>
                have := ih i (by simpa using h)
                simp only [List.set_cons_succ, List.flatten_cons, List.length_append, this]
                omega
          exact this A i hgA
        have ih := place_before (B := B) (ov := ov) ts (A.set i (g ++ t)) hs' (by
          intro x hx
          rcases List.mem_or_eq_of_mem_set hx with hx | hx
          · exact hA x hx
          · subst hx
            unfold AreaFits
            rw [List.length_append]; exact g3)
        rw [e]
        rw [List.length_set, hlen] at ih
        rcases ih with ih | ih
        · exact Or.inl ih
        · right
          rw [List.flatten_cons, List.length_append]
          omega
      · left
        subst hi
        rw [List.getElem?_append_right (Nat.le_refl _), Nat.sub_self] at g1
        simp only [List.getElem?_cons_zero, Option.some.injEq] at g1
        subst g1
        obtain ⟨dest, _, _, _, h4, _⟩ := place_spec ts heads' ov
        refine ⟨_, h4 A.length t ?_, by simp [ht]⟩
        rw [g2]; simp
      · exact absurd (by simpa using hl) (g4 A.length [] hi (by simp))

/-- Area `i` gets something if the areas before it cannot hold all. -/
theorem place_reaches {ser heads : List Bytes} {ov : Bytes} {n i : Nat}
    (hs : ∀ b ∈ ser, b ≠ [] ∧ b.length < 99996) (hi : i < n) (ht : i * 99995 < ser.flatten.length)
    (hp : place ser (List.replicate n []) [] = (heads, ov)) : ∃ h, heads[i]? = some h ∧ h ≠ [] := by
  have e : List.replicate n ([] : Bytes) =
      List.replicate i [] ++ [] :: List.replicate (n - i - 1) [] := by
    rw [← List.replicate_succ, List.replicate_append_replicate]
    congr 1
    omega
  rw [e] at hp
  have := place_before (B := List.replicate (n - i - 1) []) (ov := []) ser (List.replicate i []) hs
    (by intro h hh; rw [List.eq_of_mem_replicate hh]; unfold AreaFits; decide)
  rw [hp, List.length_replicate] at this
  rcases this with h | h
  · exact h
  · omega

theorem treWriteAll_each : ∀ {ts : List (Tre P.F)} {ser : List Bytes},
    treWriteAll P ts = .ok ser → Each (fun t b => treWrite P t = .ok b) ts ser
  | [], ser, h => by
    injection h with h; subst h; exact .nil
  | t :: ts, ser, h => by
    unfold treWriteAll at h
    cases hb : treWrite P t with
    | error e => rw [hb] at h; cases h
    | ok b =>
      rw [hb] at h
      simp only at h
      cases hbs : treWriteAll P ts with
      | error e => rw [hbs] at h; cases h
      | ok bs =>
        rw [hbs] at h
        injection h with h
        subst h
        exact .cons hb (treWriteAll_each hbs)

theorem Each.picks {α β κ : Type} [DecidableEq κ] {R : α → β → Prop} {as : List α} {bs : List β}
    (h : Each R as bs) (dest : List κ) (k : κ) :
    Each R (Verif.picks dest as k) (Verif.picks dest bs k) := by
  induction h generalizing dest with
  | nil => cases dest <;> exact .nil
  | cons h _ ih =>
    cases dest with
    | nil => exact .nil
    | cons k0 dest =>
      rw [picks_cons, picks_cons]
      split
      · exact .cons h (ih dest)
      · exact ih dest

end Verif
