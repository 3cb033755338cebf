import Verif.Handle

/-
Lemmas about handler sets: the invariant of the representation, and what the operations do to the
set of (handler, priority) pairs it stands for.
-/

set_option linter.unusedSectionVars false

namespace Verif

variable {H : Type} [DecidableEq H]

theorem insertBy_perm {α : Type} (le : α → α → Bool) (x : α) (l : List α) :
    (insertBy le x l).Perm (x :: l) := by
  induction l with
  | nil => exact List.Perm.refl _
  | cons y r ih =>
    unfold insertBy
    split
    · exact List.Perm.refl _
    · exact (List.Perm.cons y ih).trans (List.Perm.swap x y r)

theorem sortBy_perm {α : Type} (le : α → α → Bool) (l : List α) : (sortBy le l).Perm l := by
  induction l with
  | nil => exact List.Perm.refl _
  | cons x r ih => exact (insertBy_perm le x _).trans (List.Perm.cons x ih)

theorem insertBy_sorted {α : Type} {le : α → α → Bool}
    (htrans : ∀ a b c, le a b = true → le b c = true → le a c = true)
    (htotal : ∀ a b, le a b = true ∨ le b a = true) (x : α) {l : List α}
    (h : l.Pairwise fun a b => le a b = true) :
    (insertBy le x l).Pairwise fun a b => le a b = true := by
  induction l with
  | nil => exact List.pairwise_cons.mpr ⟨by simp, List.Pairwise.nil⟩
  | cons y r ih =>
    rw [List.pairwise_cons] at h
    unfold insertBy
    split
    · rename_i hxy
      refine List.pairwise_cons.mpr ⟨?_, List.pairwise_cons.mpr h⟩
      intro z hz
      rcases List.mem_cons.mp hz with rfl | hz
      · exact hxy
      · exact htrans _ _ _ hxy (h.1 z hz)
    · rename_i hxy
      refine List.pairwise_cons.mpr ⟨?_, ih h.2⟩
      intro z hz
      rcases List.mem_cons.mp ((insertBy_perm le x r).mem_iff.mp hz) with rfl | hz
      · exact (htotal z y).resolve_left hxy
      · exact h.1 z hz

theorem sortBy_sorted {α : Type} {le : α → α → Bool}
    (htrans : ∀ a b c, le a b = true → le b c = true → le a c = true)
    (htotal : ∀ a b, le a b = true ∨ le b a = true) (l : List α) :
    (sortBy le l).Pairwise fun a b => le a b = true := by
  induction l with
  | nil => exact List.Pairwise.nil
  | cons x r ih => exact insertBy_sorted htrans htotal x ih

/-- The dictionary has unique keys; its sets are allocated, not shared, and without duplicates. -/
structure HandleSet.WF (hp : Heap H) (o : HandleSet) : Prop where
  keys : (o.dict.map (·.1)).Nodup
  addrs : (o.dict.map (·.2)).Nodup
  old : ∀ e ∈ o.dict, e.2 < hp.next
  nodup : ∀ e ∈ o.dict, (hp.sets e.2).Nodup

/-- The pair is in the set. -/
def HandleSet.Mem (hp : Heap H) (o : HandleSet) (x : H × Int) : Prop :=
  ∃ a, (x.2, a) ∈ o.dict ∧ x.1 ∈ hp.sets a

theorem HandleSet.find_iff {o : HandleSet} (hk : (o.dict.map (·.1)).Nodup) {p : Int} {a : Nat} :
    o.find p = some a ↔ (p, a) ∈ o.dict := by
  unfold HandleSet.find
  generalize o.dict = l at hk
  induction l with
  | nil => simp
  | cons e r ih =>
    rw [List.map_cons, List.nodup_cons] at hk
    have ih := ih hk.2
    rw [List.find?_cons]
    by_cases he : e.1 = p
    · subst he
      simp only [beq_self_eq_true, Option.map_some, Option.some.injEq, List.mem_cons]
      constructor
      · intro h; exact Or.inl (by rw [← h])
      · rintro (h | h)
        · rw [← h]
        · exact absurd (List.mem_map.mpr ⟨_, h, rfl⟩) hk.1
    · have hb : (e.1 == p) = false := by simpa using he
      rw [hb]
      simp only [List.mem_cons]
      rw [ih]
      constructor
      · exact Or.inr
      · rintro (h | h)
        · exact absurd (by rw [← h]) he
        · exact h

theorem HandleSet.find_none {o : HandleSet} {p : Int} :
    o.find p = none ↔ ∀ a, (p, a) ∉ o.dict := by
  unfold HandleSet.find
  rw [Option.map_eq_none_iff, List.find?_eq_none]
  constructor
  · intro h a ha
    exact h _ ha (by simp)
  · rintro h ⟨q, a⟩ he hq
    have : q = p := by simpa using hq
    subst this
    exact h a he

theorem HandleSet.at_mem {hp : Heap H} {o : HandleSet} (w : o.WF hp) {k : Int} {h : H} :
    h ∈ o.at hp k ↔ o.Mem hp (h, k) := by
  unfold HandleSet.at HandleSet.Mem
  cases hf : o.find k with
  | none =>
    rw [HandleSet.find_none] at hf
    simp only [List.not_mem_nil, false_iff]
    rintro ⟨a, ha, _⟩
    exact hf a ha
  | some a =>
    have ha := (HandleSet.find_iff w.keys).mp hf
    constructor
    · intro h; exact ⟨a, ha, h⟩
    · rintro ⟨b, hb, hm⟩
      rw [(HandleSet.find_iff w.keys).mpr hb] at hf
      cases hf
      exact hm

theorem HandleSet.at_nodup {hp : Heap H} {o : HandleSet} (w : o.WF hp) (k : Int) :
    (o.at hp k).Nodup := by
  unfold HandleSet.at
  cases hf : o.find k with
  | none => exact List.nodup_nil
  | some a => exact w.nodup _ ((HandleSet.find_iff w.keys).mp hf)

theorem HandleSet.keysDesc_mem {o : HandleSet} {k : Int} :
    k ∈ o.keysDesc ↔ ∃ a, (k, a) ∈ o.dict := by
  unfold HandleSet.keysDesc
  rw [(sortBy_perm _ _).mem_iff, List.mem_map]
  constructor
  · rintro ⟨⟨q, a⟩, h, rfl⟩; exact ⟨a, h⟩
  · rintro ⟨a, h⟩; exact ⟨_, h, rfl⟩

theorem HandleSet.keysDesc_sorted (o : HandleSet) :
    o.keysDesc.Pairwise (fun a b => b ≤ a) := by
  have := sortBy_sorted (le := fun a b : Int => decide (a ≥ b))
    (by intro a b c h1 h2; simp only [decide_eq_true_eq] at *; omega)
    (by intro a b; simp only [decide_eq_true_eq]; omega) (o.dict.map (·.1))
  exact this.imp (by intro a b h; simpa using h)

theorem HandleSet.keysDesc_strict {o : HandleSet} (hk : (o.dict.map (·.1)).Nodup) :
    o.keysDesc.Pairwise (fun a b => b < a) := by
  have hn : o.keysDesc.Nodup := (sortBy_perm _ _).nodup_iff.mpr hk
  exact ((o.keysDesc_sorted).and hn).imp fun h => by
    obtain ⟨h1, h2⟩ := h
    omega

theorem HandleSet.iter_mem {it : IterOrder H} (hit : ∀ k l, (it k l).Perm l) {hp : Heap H}
    {o : HandleSet} (w : o.WF hp) {x : H × Int} : x ∈ o.iter it hp ↔ o.Mem hp x := by
  obtain ⟨h, p⟩ := x
  unfold HandleSet.iter
  simp only [List.mem_flatMap, List.mem_map, Prod.mk.injEq]
  constructor
  · rintro ⟨k, _, h', hm, rfl, rfl⟩
    exact (HandleSet.at_mem w).mp ((hit _ _).mem_iff.mp hm)
  · intro hm
    obtain ⟨a, ha, _⟩ := id hm
    exact ⟨p, HandleSet.keysDesc_mem.mpr ⟨a, ha⟩, h,
      (hit _ _).mem_iff.mpr ((HandleSet.at_mem w).mpr hm), rfl, rfl⟩

theorem HandleSet.iter_nodup {it : IterOrder H} (hit : ∀ k l, (it k l).Perm l) {hp : Heap H}
    {o : HandleSet} (w : o.WF hp) : (o.iter it hp).Nodup := by
  have hk := HandleSet.keysDesc_strict w.keys
  unfold HandleSet.iter
  generalize o.keysDesc = ks at hk
  induction ks with
  | nil => exact List.nodup_nil
  | cons k ks ih =>
    rw [List.pairwise_cons] at hk
    rw [List.flatMap_cons, List.nodup_append]
    refine ⟨?_, ih hk.2, ?_⟩
    · have hn := (hit k (o.at hp k)).nodup_iff.mpr (HandleSet.at_nodup w k)
      exact List.pairwise_map.mpr (hn.imp fun hh e => hh (by cases e; rfl))
    · rintro x hx y hy rfl
      obtain ⟨h, _, rfl⟩ := List.mem_map.mp hx
      obtain ⟨k', hk', hy⟩ := List.mem_flatMap.mp hy
      obtain ⟨h', _, he⟩ := List.mem_map.mp hy
      have := hk.1 k' hk'
      cases he
      omega

theorem HandleSet.iter_sorted {it : IterOrder H} (hp : Heap H)
    (o : HandleSet) : (o.iter it hp).Pairwise (fun x y => y.2 ≤ x.2) := by
  have hk := o.keysDesc_sorted
  unfold HandleSet.iter
  generalize o.keysDesc = ks at hk
  induction ks with
  | nil => exact List.Pairwise.nil
  | cons k ks ih =>
    rw [List.pairwise_cons] at hk
    rw [List.flatMap_cons, List.pairwise_append]
    refine ⟨?_, ih hk.2, ?_⟩
    · rw [List.pairwise_map]
      exact List.pairwise_of_forall fun _ _ => Int.le_refl _
    · intro x hx y hy
      obtain ⟨h, _, rfl⟩ := List.mem_map.mp hx
      obtain ⟨k', hk', hy⟩ := List.mem_flatMap.mp hy
      obtain ⟨h', _, he⟩ := List.mem_map.mp hy
      rw [← he]
      exact hk.1 k' hk'

theorem foldl_len {α : Type} (g : α → Nat) : ∀ (l : List α) (n : Nat),
    l.foldl (fun r e => r + g e) n = n + (l.map g).sum := by
  intro l
  induction l with
  | nil => simp
  | cons a l ih => intro n; rw [List.foldl_cons, ih, List.map_cons, List.sum_cons]; omega

theorem sum_map_perm {α : Type} (g : α → Nat) {l l' : List α} (h : l.Perm l') :
    (l.map g).sum = (l'.map g).sum := by
  induction h with
  | nil => rfl
  | cons _ _ ih => simp [ih]
  | swap => simp; omega
  | trans _ _ ih1 ih2 => rw [ih1, ih2]

theorem HandleSet.iter_length {it : IterOrder H} (hit : ∀ k l, (it k l).Perm l) {hp : Heap H}
    {o : HandleSet} (w : o.WF hp) : (o.iter it hp).length = o.len hp := by
  unfold HandleSet.iter HandleSet.len
  rw [foldl_len, List.length_flatMap, Nat.zero_add]
  have : (o.keysDesc.map fun k => ((it k (o.at hp k)).map fun h => (h, k)).length).sum =
      (o.keysDesc.map fun k => (o.at hp k).length).sum := by
    congr 1
    exact List.map_congr_left fun k _ => by rw [List.length_map, (hit _ _).length_eq]
  rw [this, sum_map_perm _ (show o.keysDesc.Perm (o.dict.map (·.1)) from sortBy_perm _ _),
    List.map_map]
  congr 1
  refine List.map_congr_left fun e he => ?_
  show (o.at hp e.1).length = _
  unfold HandleSet.at
  rw [(HandleSet.find_iff w.keys).mpr (show (e.1, e.2) ∈ o.dict from he)]

/-! ### Operations -/

/-- What an operation on `o` leaves alone: sets of other objects; and it only gains new sets. -/
structure HandleSet.Frame (hp : Heap H) (o : HandleSet) (hp' : Heap H) (o' : HandleSet) : Prop where
  next : hp.next ≤ hp'.next
  others : ∀ a, a < hp.next → a ∉ o.dict.map (·.2) → hp'.sets a = hp.sets a
  fresh : ∀ e ∈ o'.dict, e.2 ∈ o.dict.map (·.2) ∨ hp.next ≤ e.2

theorem HandleSet.Frame.trans {hp hp1 hp2 : Heap H} {o o1 o2 : HandleSet}
    (f : HandleSet.Frame hp o hp1 o1) (g : HandleSet.Frame hp1 o1 hp2 o2) :
    HandleSet.Frame hp o hp2 o2 where
  next := Nat.le_trans f.next g.next
  others := by
    intro a ha hn
    rw [g.others a (Nat.lt_of_lt_of_le ha f.next) ?_, f.others a ha hn]
    intro hm
    obtain ⟨e, he, rfl⟩ := List.mem_map.mp hm
    rcases f.fresh e he with h | h
    · exact hn h
    · omega
  fresh := by
    intro e he
    rcases g.fresh e he with h | h
    · obtain ⟨e1, h1, h2⟩ := List.mem_map.mp h
      rw [← h2]
      exact f.fresh e1 h1
    · exact Or.inr (Nat.le_trans f.next h)

theorem HandleSet.getSet_spec {hp : Heap H} {o : HandleSet} (w : o.WF hp) (p : Int) :
    ∃ hp' o' a, o.getSet hp p = (hp', o', a) ∧ o'.WF hp' ∧ (p, a) ∈ o'.dict ∧
      (∀ x, o'.Mem hp' x ↔ o.Mem hp x) ∧ HandleSet.Frame hp o hp' o' := by
  unfold HandleSet.getSet
  cases hf : o.find p with
  | some a =>
    exact ⟨hp, o, a, rfl, w, (HandleSet.find_iff w.keys).mp hf, fun _ => Iff.rfl,
      Nat.le_refl _, fun _ _ _ => rfl, fun e he => Or.inl (List.mem_map.mpr ⟨e, he, rfl⟩)⟩
  | none =>
    rw [HandleSet.find_none] at hf
    have hne : ∀ e ∈ o.dict, e.2 ≠ hp.next := fun e he => Nat.ne_of_lt (w.old e he)
    refine ⟨_, _, _, rfl, ⟨?_, ?_, ?_, ?_⟩, by simp, ?_, ?_, ?_, ?_⟩
    · rw [List.map_append, List.nodup_append]
      refine ⟨w.keys, by simp, ?_⟩
      rintro a ha b hb rfl
      simp only [List.map_cons, List.map_nil, List.mem_cons, List.not_mem_nil, or_false] at hb
      obtain ⟨e, he, rfl⟩ := List.mem_map.mp ha
      exact hf e.2 (by rw [← hb]; exact he)
    · rw [List.map_append, List.nodup_append]
      refine ⟨w.addrs, by simp, ?_⟩
      rintro a ha b hb rfl
      simp only [List.map_cons, List.map_nil, List.mem_cons, List.not_mem_nil, or_false] at hb
      obtain ⟨e, he, rfl⟩ := List.mem_map.mp ha
      exact hne e he hb
    · intro e he
      rcases List.mem_append.mp he with he | he
      · exact Nat.lt_succ_of_lt (w.old e he)
      · simp only [List.mem_cons, List.not_mem_nil, or_false] at he
        rw [he]; exact Nat.lt_succ_self _
    · intro e he
      rcases List.mem_append.mp he with he | he
      · simp only [if_neg (hne e he)]; exact w.nodup e he
      · simp only [List.mem_cons, List.not_mem_nil, or_false] at he
        rw [he]; simp
    · rintro ⟨h, q⟩
      unfold HandleSet.Mem
      constructor
      · rintro ⟨a, ha, hm⟩
        rcases List.mem_append.mp ha with ha | ha
        · simp only [if_neg (hne _ ha)] at hm
          exact ⟨a, ha, hm⟩
        · simp only [List.mem_cons, List.not_mem_nil, or_false, Prod.mk.injEq] at ha
          rw [ha.2] at hm
          simp at hm
      · rintro ⟨a, ha, hm⟩
        refine ⟨a, List.mem_append_left _ ha, ?_⟩
        simp only [if_neg (hne _ ha)]
        exact hm
    · exact Nat.le_succ _
    · intro a ha _
      simp only [if_neg (Nat.ne_of_lt ha)]
    · intro e he
      rcases List.mem_append.mp he with he | he
      · exact Or.inl (List.mem_map.mpr ⟨e, he, rfl⟩)
      · simp only [List.mem_cons, List.not_mem_nil, or_false] at he
        rw [he]; exact Or.inr (Nat.le_refl _)

theorem HandleSet.addr_key {hp : Heap H} {o : HandleSet} (w : o.WF hp) {p q : Int} {a : Nat}
    (h1 : (p, a) ∈ o.dict) (h2 : (q, a) ∈ o.dict) : p = q := by
  have hn := w.addrs
  generalize o.dict = l at h1 h2 hn
  induction l with
  | nil => cases h1
  | cons e r ih =>
    rw [List.map_cons, List.nodup_cons] at hn
    rcases List.mem_cons.mp h1 with h1 | h1 <;> rcases List.mem_cons.mp h2 with h2 | h2
    · rw [← h1] at h2; cases h2; rfl
    · exact absurd (List.mem_map.mpr ⟨_, h2, by rw [← h1]⟩) hn.1
    · exact absurd (List.mem_map.mpr ⟨_, h1, by rw [← h2]⟩) hn.1
    · exact ih h1 h2 hn.2

theorem HandleSet.key_addr {hp : Heap H} {o : HandleSet} (w : o.WF hp) {p : Int} {a b : Nat}
    (h1 : (p, a) ∈ o.dict) (h2 : (p, b) ∈ o.dict) : a = b := by
  have e1 := (HandleSet.find_iff w.keys).mpr h1
  have e2 := (HandleSet.find_iff w.keys).mpr h2
  rw [e1] at e2
  exact Option.some.inj e2

/-- Replacing the content of one set of the object. -/
theorem HandleSet.put_spec {hp : Heap H} {o : HandleSet} (w : o.WF hp) {p : Int} {a : Nat}
    (ha : (p, a) ∈ o.dict) {l : List H} (hl : l.Nodup) :
    o.WF (hp.put a l) ∧ HandleSet.Frame hp o (hp.put a l) o ∧
    ∀ h q, o.Mem (hp.put a l) (h, q) ↔ if q = p then h ∈ l else o.Mem hp (h, q) := by
  refine ⟨⟨w.keys, w.addrs, w.old, ?_⟩, ⟨Nat.le_refl _, ?_, ?_⟩, ?_⟩
  · intro e he
    simp only [Heap.put]
    split
    · exact hl
    · exact w.nodup e he
  · intro b _ hb
    simp only [Heap.put]
    rw [if_neg]
    rintro rfl
    exact hb (List.mem_map.mpr ⟨_, ha, rfl⟩)
  · intro e he
    exact Or.inl (List.mem_map.mpr ⟨e, he, rfl⟩)
  · intro h q
    unfold HandleSet.Mem
    simp only [Heap.put]
    by_cases hq : q = p
    · subst hq
      rw [if_pos rfl]
      constructor
      · rintro ⟨b, hb, hm⟩
        rw [if_pos (HandleSet.key_addr w hb ha)] at hm
        exact hm
      · intro hm
        exact ⟨a, ha, by rw [if_pos rfl]; exact hm⟩
    · rw [if_neg hq]
      constructor
      · rintro ⟨b, hb, hm⟩
        rw [if_neg (fun e : b = a => hq (HandleSet.addr_key w (e ▸ hb) ha))] at hm
        exact ⟨b, hb, hm⟩
      · rintro ⟨b, hb, hm⟩
        refine ⟨b, hb, ?_⟩
        rw [if_neg (fun e : b = a => hq (HandleSet.addr_key w (e ▸ hb) ha))]
        exact hm

theorem HandleSet.mem_at {hp : Heap H} {o : HandleSet} (w : o.WF hp) {p : Int} {a : Nat}
    (ha : (p, a) ∈ o.dict) (h : H) : h ∈ hp.sets a ↔ o.Mem hp (h, p) :=
  ⟨fun hm => ⟨a, ha, hm⟩, fun ⟨_, hb, hm⟩ => HandleSet.key_addr w hb ha ▸ hm⟩

theorem HandleSet.add_spec {hp : Heap H} {o : HandleSet} (w : o.WF hp) (h : H) (p : Int) :
    ∃ hp' o', o.add hp h p = (hp', o') ∧ o'.WF hp' ∧ HandleSet.Frame hp o hp' o' ∧
      ∀ x, o'.Mem hp' x ↔ x = (h, p) ∨ o.Mem hp x := by
  obtain ⟨hp1, o1, a, e1, w1, ha, hm, f1⟩ := HandleSet.getSet_spec w p
  unfold HandleSet.add
  simp only [e1]
  have hnd : (if h ∈ hp1.sets a then hp1.sets a else hp1.sets a ++ [h]).Nodup := by
    have := w1.nodup _ ha
    split
    · exact this
    · rename_i hn
      rw [List.nodup_append]
      refine ⟨this, by simp, ?_⟩
      rintro b hb c hc rfl
      simp only [List.mem_cons, List.not_mem_nil, or_false] at hc
      exact hn (hc ▸ hb)
  obtain ⟨w2, f2, h2⟩ := HandleSet.put_spec w1 ha hnd
  refine ⟨_, _, rfl, w2, f1.trans f2, ?_⟩
  rintro ⟨g, q⟩
  rw [h2 g q]
  by_cases hq : q = p
  · subst hq
    rw [if_pos rfl, ← hm, ← HandleSet.mem_at w1 ha]
    split
    · rename_i hin
      constructor
      · exact Or.inr
      · rintro (e | e)
        · cases e; exact hin
        · exact e
    · rw [List.mem_append, List.mem_singleton, Prod.mk.injEq]
      constructor
      · rintro (e | e)
        · exact Or.inr e
        · exact Or.inl ⟨e, rfl⟩
      · rintro (e | e)
        · exact Or.inr e.1
        · exact Or.inl e
  · rw [if_neg hq, hm]
    constructor
    · exact Or.inr
    · rintro (e | e)
      · cases e; exact absurd rfl hq
      · exact e

theorem HandleSet.discard_loop (h : H) {o : HandleSet} : ∀ (ks : List Int) {hp : Heap H}, o.WF hp →
    let hp' := ks.foldl (fun hp k =>
      match o.find k with
      | some a => hp.put a ((hp.sets a).filter fun x => decide (x ≠ h))
      | none => hp) hp
    o.WF hp' ∧ HandleSet.Frame hp o hp' o ∧
      ∀ g q, o.Mem hp' (g, q) ↔ o.Mem hp (g, q) ∧ ¬ (g = h ∧ q ∈ ks) := by
  intro ks
  induction ks with
  | nil =>
    intro hp w
    refine ⟨w, ⟨Nat.le_refl _, fun _ _ _ => rfl, fun e he => Or.inl (List.mem_map.mpr ⟨e, he, rfl⟩)⟩, ?_⟩
    simp
  | cons k ks ih =>
    intro hp w
    simp only [List.foldl_cons]
    cases hf : o.find k with
    | none =>
      simp only
      obtain ⟨w', f', h'⟩ := ih w
      refine ⟨w', f', ?_⟩
      intro g q
      rw [h' g q]
      rw [HandleSet.find_none] at hf
      constructor
      · rintro ⟨h1, h2⟩
        refine ⟨h1, ?_⟩
        rintro ⟨e, hq⟩
        rcases List.mem_cons.mp hq with hq | hq
        · obtain ⟨a, ha, _⟩ := h1
          exact hf a (hq ▸ ha)
        · exact h2 ⟨e, hq⟩
      · rintro ⟨h1, h2⟩
        exact ⟨h1, fun h3 => h2 ⟨h3.1, List.mem_cons_of_mem _ h3.2⟩⟩
    | some a =>
      simp only
      have ha := (HandleSet.find_iff w.keys).mp hf
      obtain ⟨w1, f1, h1⟩ := HandleSet.put_spec w ha
        (l := (hp.sets a).filter fun x => decide (x ≠ h)) ((w.nodup _ ha).filter _)
      obtain ⟨w2, f2, h2⟩ := ih w1
      refine ⟨w2, f1.trans f2, ?_⟩
      intro g q
      rw [h2 g q, h1 g q]
      by_cases hq : q = k
      · subst hq
        rw [if_pos rfl, List.mem_filter, HandleSet.mem_at w ha, decide_eq_true_eq]
        constructor
        · rintro ⟨⟨e1, e2⟩, _⟩
          exact ⟨e1, fun e => e2 e.1⟩
        · rintro ⟨e1, e2⟩
          exact ⟨⟨e1, fun e => e2 ⟨e, by simp⟩⟩, fun e => e2 ⟨e.1, by simp⟩⟩
      · rw [if_neg hq]
        simp [hq]

theorem HandleSet.discard_spec {hp : Heap H} {o : HandleSet} (w : o.WF hp) (h : H) :
    o.WF (o.discard hp h) ∧ HandleSet.Frame hp o (o.discard hp h) o ∧
      ∀ x, o.Mem (o.discard hp h) x ↔ o.Mem hp x ∧ x.1 ≠ h := by
  obtain ⟨w', f', h'⟩ := HandleSet.discard_loop h
    (sortBy (fun a b => decide (a ≤ b)) (o.dict.map (·.1))) w
  refine ⟨w', f', ?_⟩
  rintro ⟨g, q⟩
  refine (h' g q).trans ?_
  constructor
  · rintro ⟨h1, h2⟩
    refine ⟨h1, fun e => h2 ⟨e, ?_⟩⟩
    obtain ⟨a, ha, _⟩ := h1
    exact (sortBy_perm _ _).mem_iff.mpr (List.mem_map.mpr ⟨_, ha, rfl⟩)
  · rintro ⟨h1, h2⟩
    exact ⟨h1, fun e => h2 e.1⟩

theorem HandleSet.new_wf (hp : Heap H) : HandleSet.new.WF hp :=
  ⟨List.nodup_nil, List.nodup_nil, by simp [HandleSet.new], by simp [HandleSet.new]⟩

theorem HandleSet.contains_spec {hp : Heap H} {o : HandleSet} (w : o.WF hp) (x : H × Int) :
    ∃ hp' o' b, o.contains hp x = (hp', o', b) ∧ o'.WF hp' ∧ HandleSet.Frame hp o hp' o' ∧
      (∀ y, o'.Mem hp' y ↔ o.Mem hp y) ∧ (b = true ↔ o.Mem hp x) := by
  obtain ⟨hp1, o1, a, e1, w1, ha, hm, f1⟩ := HandleSet.getSet_spec w x.2
  unfold HandleSet.contains
  simp only [e1]
  refine ⟨_, _, _, rfl, w1, f1, hm, ?_⟩
  rw [decide_eq_true_eq, HandleSet.mem_at w1 ha]
  exact hm x

theorem HandleSet.fromIterable_spec (l : List (H × Int)) : ∀ {hp0 hp : Heap H} {o0 o : HandleSet},
    o.WF hp → HandleSet.Frame hp0 o0 hp o →
    ∃ hp' o', l.foldl (fun s x => s.2.add s.1 x.1 x.2) (hp, o) = (hp', o') ∧ o'.WF hp' ∧
      HandleSet.Frame hp0 o0 hp' o' ∧ ∀ x, o'.Mem hp' x ↔ x ∈ l ∨ o.Mem hp x := by
  induction l with
  | nil =>
    intro hp0 hp o0 o w f
    exact ⟨hp, o, rfl, w, f, by simp⟩
  | cons x l ih =>
    intro hp0 hp o0 o w f
    obtain ⟨hp1, o1, e1, w1, f1, h1⟩ := HandleSet.add_spec w x.1 x.2
    obtain ⟨hp2, o2, e2, w2, f2, h2⟩ := ih w1 (f.trans f1)
    refine ⟨hp2, o2, ?_, w2, f2, ?_⟩
    · rw [List.foldl_cons, ← e2]
      simp only [e1]
    · intro y
      rw [h2, h1, List.mem_cons]
      constructor
      · rintro (h | h | h)
        · exact Or.inl (Or.inr h)
        · exact Or.inl (Or.inl h)
        · exact Or.inr h
      · rintro ((h | h) | h)
        · exact Or.inr (Or.inl h)
        · exact Or.inl h
        · exact Or.inr (Or.inr h)

/-- The sets of an object not taking part stay as they are. -/
theorem HandleSet.Frame.other {hp hp' : Heap H} {o o' c : HandleSet} (f : HandleSet.Frame hp o hp' o')
    (wc : c.WF hp) (hd : ∀ e ∈ c.dict, e.2 ∉ o.dict.map (·.2)) :
    c.WF hp' ∧ (∀ x, c.Mem hp' x ↔ c.Mem hp x) ∧ (∀ e ∈ c.dict, e.2 ∉ o'.dict.map (·.2)) := by
  have hs : ∀ e ∈ c.dict, hp'.sets e.2 = hp.sets e.2 := fun e he =>
    f.others e.2 (wc.old e he) (hd e he)
  refine ⟨⟨wc.keys, wc.addrs, fun e he => Nat.lt_of_lt_of_le (wc.old e he) f.next,
    fun e he => by rw [hs e he]; exact wc.nodup e he⟩, ?_, ?_⟩
  · rintro ⟨h, q⟩
    unfold HandleSet.Mem
    constructor
    · rintro ⟨a, ha, hm⟩; rw [hs _ ha] at hm; exact ⟨a, ha, hm⟩
    · rintro ⟨a, ha, hm⟩; exact ⟨a, ha, by rw [hs _ ha]; exact hm⟩
  · intro e he hm
    obtain ⟨e', he', h2⟩ := List.mem_map.mp hm
    have := wc.old e he
    rcases f.fresh e' he' with h | h
    · exact hd e he (h2 ▸ h)
    · omega

theorem HandleSet.allIn_spec (l : List (H × Int)) : ∀ {hp : Heap H} {o : HandleSet}, o.WF hp →
    ((o.allIn hp l).2.2 = true ↔ ∀ x ∈ l, o.Mem hp x) := by
  induction l with
  | nil => intro hp o _; simp [HandleSet.allIn]
  | cons x l ih =>
    intro hp o w
    obtain ⟨hp1, o1, b, e1, w1, _, h1, hb⟩ := HandleSet.contains_spec w x
    unfold HandleSet.allIn
    rw [e1]
    cases b with
    | true =>
      simp only
      rw [ih w1]
      simp only [h1, List.mem_cons, forall_eq_or_imp]
      exact ⟨fun h => ⟨hb.mp rfl, h⟩, fun h => h.2⟩
    | false =>
      simp only [List.mem_cons, forall_eq_or_imp]
      constructor
      · intro h; cases h
      · intro h; exact absurd (hb.mpr h.1) (by simp)

end Verif
