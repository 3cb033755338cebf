import Verif.Csexrb
import Verif.Props.Assoc

/- C66: the DES associated with a CSEXRB TRE (model in `Verif/Csexrb.lean`). -/

namespace Verif

variable (P : PyFloat)

/-! ### Specification -/

/-- The table of the TRE, with or without the extension for push frame cameras. -/
def IsCsexrb (d : Desc) : Prop := d = Tables.t_tre_csexrb ∨ d = Tables.t_tre_csexrb_std

/-- The TRE has exactly these associated ids, and its count says so. -/
structure CsIs (d : Desc) (S : Store P.F) (ids : List Str) : Prop where
  elems : ListIs P d S (n!"assoc_des_id") (ids.map .str)
  count : getAttr P d S (n!"num_assoc_des") [] = .ok (.int ids.length)

/-! ### Proofs -/

theorem cs_causal {d : Desc} (hd : IsCsexrb d) : d.causal = true := by
  rcases hd with rfl | rfl <;> decide +kernel

theorem cs_num {d : Desc} (hd : IsCsexrb d) : Row d (n!"num_assoc_des") 1 .int none 3 := by
  rcases hd with rfl | rfl <;> exact Row.of (by decide +kernel)

theorem cs_uuid {d : Desc} (hd : IsCsexrb d) : Row d (n!"image_uuid") 0 .str none 36 := by
  rcases hd with rfl | rfl <;> exact Row.of (by decide +kernel)

theorem cs_loop {d : Desc} (hd : IsCsexrb d) :
    LoopRow d (n!"assoc_des_id") 2 .plain .str (.ref (n!"num_assoc_des") []) := by
  rcases hd with rfl | rfl <;> exact LoopRow.of (by decide +kernel)

theorem cs_shape {d : Desc} (hd : IsCsexrb d) {S : Store P.F} {k : Int}
    (h : getAttr P d S (n!"num_assoc_des") [] = .ok (.int k)) :
    evalShape P (look P d.tab S) (.ref (n!"num_assoc_des") []) [] = .ok k := by
  unfold evalShape
  simp only [evalE, idxKey, bind, Except.bind, (cs_num hd).look P (cs_causal hd), h]

theorem pyListFrom_list {get : Int → Except Err (Val P.F)} (vs : List (Val P.F)) :
    ∀ k : Nat, (∀ (i : Nat) v, vs[i]? = some v → get ((k + i : Nat) : Int) = .ok v) →
      get ((k + vs.length : Nat) : Int) = .error .index →
      pyListFrom P get (vs.length + 1) k = .ok vs := by
  induction vs with
  | nil => intro k _ h; simp only [List.length_nil, pyListFrom]; rw [show get (k : Int) = _ from h]
  | cons a r ih =>
    intro k h he
    have h0 : get (k : Int) = .ok a := h 0 a rfl
    rw [List.length_cons]
    unfold pyListFrom
    rw [h0]
    simp only
    rw [show ((k : Int) + 1) = ((k + 1 : Nat) : Int) by omega,
      ih (k + 1) (fun i v hi => by
        have := h (i + 1) v hi
        rw [show k + 1 + i = k + (i + 1) by omega]
        exact this) (by
        rw [show k + 1 + r.length = k + (a :: r).length by simp; omega]
        exact he)]
    rfl

theorem csIds_eq {d : Desc} {S : Store P.F} {ids : List Str} (h : CsIs P d S ids) :
    csIds P d S = .ok (ids.map .str) := by
  unfold csIds csNum
  simp only [bind, Except.bind, h.count, asInt, Int.toNat_natCast]
  have := pyListFrom_list P (get := fun i => getAttr P d S (n!"assoc_des_id") [i]) (ids.map .str) 0
    (fun i v hi => by rw [Nat.zero_add]; exact h.elems.1 i v hi)
    (by rw [Nat.zero_add]; exact h.elems.2)
  rw [List.length_map] at this
  exact this

/-! ### Properties -/

/-- C66 for one id (without trailing white space, as UUIDs are): it is appended if it is new, else
nothing changes.  The UUID of the image is not affected. -/
theorem C66_add {d : Desc} (hd : IsCsexrb d) {S : Store P.F} {ids : List Str} (h : CsIs P d S ids)
    {id : Str} (hid : rstripU id = id) :
    ∃ S', csAddId P d (.str id) S = (S', none) ∧ CsIs P d S' (addOnce ids id) ∧
      csId P d S' = csId P d S ∧ (id ∈ ids → S' = S) := by
  have hn : csNum P d S = .ok (ids.length : Int) := by
    unfold csNum; simp only [bind, Except.bind, h.count, asInt]
  unfold csAddId
  rw [csIds_eq P h]
  simp only [any_pyEq_str]
  unfold addOnce
  by_cases hz : id ∈ ids
  · simp only [hz, decide_true, if_true]
    exact ⟨S, rfl, h, rfl, fun _ => rfl⟩
  · simp only [hz, decide_false, if_false, hn]
    have hset := (cs_num hd).set P S (v := .int ((ids.length : Int) + 1)) rfl
    simp only [runSteps, hset]
    generalize hS1 : S.set 1 [] ⟨.val (.int ((ids.length : Int) + 1)), none⟩ = S1
    have c1 : S1 1 [] = some ⟨.val (.int ((ids.length : Int) + 1)), none⟩ := by
      rw [← hS1]; simp [Store.set]
    have g1 := (cs_num hd).get_int P c1
    have hn1 : csNum P d S1 = .ok ((ids.length : Int) + 1) := by
      unfold csNum; simp only [bind, Except.bind, g1, asInt]
    have hset2 := (cs_loop hd).set P (cs_shape P hd g1) (i := (ids.length : Int)) (by omega)
      (by omega) (v := .str id) rfl
    rw [hn1]
    simp only [Int.add_sub_cancel]
    rw [hset2]
    refine ⟨_, rfl, ?_, ?_, fun hz' => hz'.elim⟩
    · generalize hS2 : S1.set 2 [(ids.length : Int)] ⟨.val (.str id), none⟩ = S2
      have c2 : S2 1 [] = some ⟨.val (.int ((ids.length : Int) + 1)), none⟩ := by
        rw [← hS2]; simp [Store.set, c1]
      have g2 := (cs_num hd).get_int P c2
      have hb2 := cs_shape P hd g2
      constructor
      · rw [List.map_append]
        refine h.elems.snoc P (cs_loop hd) (by rw [List.length_map]; exact cs_shape P hd h.count)
          (by rw [List.length_map]; exact hb2) ?_ ?_
        · intro i hi
          rw [List.length_map] at hi
          rw [← hS2, ← hS1]
          simp [Store.set, hi]
        · rw [List.length_map]
          have := (cs_loop hd).get_str P hb2 (i := (ids.length : Int)) (by omega) (raw := none)
            (s := id) (by rw [← hS2]; simp [Store.set])
          rw [hid] at this
          exact this
      · rw [g2]; simp
    · unfold csId
      refine (cs_uuid hd).cell P ?_
      rw [← hS1]
      simp [Store.set]

/-- A new TRE has no associated ids. -/
theorem C66_new {d : Desc} (hd : IsCsexrb d) : CsIs P d Store.empty [] := by
  have e : getAttr P d (Store.empty : Store P.F) (n!"num_assoc_des") [] = .ok (.int 0) := by
    rcases hd with rfl | rfl <;> rfl
  exact ⟨⟨fun i v hi => by simp at hi, (cs_loop hd).index P (cs_shape P hd e) (by simp)⟩, e⟩

/-- C66, an object without an id: RuntimeError, and nothing changes. -/
theorem C66_no_id {o : IdObj} (ho : o.id = none) (addId : Val P.F → Step P.F) (u : Str)
    (S : Store P.F) : addElem P addId o u S = (o, S, some .runtime) := by
  unfold addElem IdObj.generate
  simp [ho]

/-- C66, the UUID of the image: an image without one gets the new one, any other is kept. -/
theorem C66_uuid {d : Desc} (hd : IsCsexrb d) {S : Store P.F} {s u : Str} (hu : rstripU u = u)
    (hs : csId P d S = .ok (.str s)) :
    ∃ S', csGenerate P d u S = (S', none) ∧
      csId P d S' = .ok (.str (if s = [] then u else s)) ∧ (s ≠ [] → S' = S) := by
  unfold csGenerate
  unfold csId at hs
  rw [hs]
  have e : pyEq P (.str s) (.str []) = (s == []) := rfl
  simp only [e]
  cases s with
  | cons a r =>
    refine ⟨S, by simp, ?_, fun _ => rfl⟩
    unfold csId
    simp [hs]
  | nil =>
    have hset := (cs_uuid hd).set P S (v := .str u) rfl
    refine ⟨S.set 0 [] ⟨.val (.str u), none⟩, by simpa using hset, ?_, fun h => (h rfl).elim⟩
    unfold csId
    have := (cs_uuid hd).get_str P (S := S.set 0 [] ⟨.val (.str u), none⟩) (s := u) (raw := none)
      (by simp [Store.set])
    rw [hu] at this
    simpa using this

theorem generate_id {o : IdObj} {u s : Str} (h : (o.generate u).id = some s) :
    s = u ∨ o.id = some s := by
  unfold IdObj.generate at h
  split at h
  · simp at h; exact .inl h.symm
  · exact .inr h

theorem generate_isSome {o : IdObj} {u : Str} (h : o.id ≠ none) : (o.generate u).id ≠ none := by
  unfold IdObj.generate
  split
  · simp
  · exact h

theorem generate_settled {o : IdObj} {u : Str} (hu : u ≠ []) (v : Str) :
    (o.generate u).generate v = o.generate u := by
  unfold IdObj.generate
  split
  · rename_i h; simp [h.1, hu]
  · rfl

/-- What the calls do to one object: the first UUID offered is taken if one is needed. -/
theorem addElems_settled {addId : Val P.F → Step P.F} (ops : List (Nat × Str)) :
    ∀ (h : IdHeap) (S : Store P.F) (k : Nat), (∀ v, (h k).generate v = h k) →
      (addElems P addId ops h S).1 k = h k := by
  induction ops with
  | nil => intro h S k _; rfl
  | cons op r ih =>
    intro h S k hk
    obtain ⟨j, u⟩ := op
    unfold addElems
    have hs : (addElem P addId (h j) u S).1 = if (h j).id = none then h j else (h j).generate u := by
      unfold addElem
      split
      · rename_i hn
        have : (h j).id = none := by
          by_cases hh : (h j).id = none
          · exact hh
          · exact absurd hn (generate_isSome hh)
        simp [this]
      · rename_i id hn
        have : (h j).id ≠ none := by
          intro hh
          unfold IdObj.generate at hn
          simp [hh] at hn
        simp [this]
    generalize hx : addElem P addId (h j) u S = x at hs
    obtain ⟨o', S', e⟩ := x
    simp only at hs
    have ho : k = j → o' = h k := by
      rintro rfl
      rw [hs, hk u]
      simp
    have hk' : (if k = j then o' else h k) = h k := by
      by_cases hkj : k = j
      · rw [if_pos hkj]; exact ho hkj
      · rw [if_neg hkj]
    cases e with
    | some e => exact hk'
    | none =>
      simp only
      rw [ih _ S' k (fun v => by simp only [hk']; exact hk v)]
      exact hk'

/-- C66 for sequences of `add_assoc_elem`: with objects that have ids (without trailing white space)
and proper UUIDs, every call succeeds, afterwards no id of these objects is empty if it could be
generated, and the TRE has the ids of the objects, each once, in the order of first addition, after
those it had. -/
theorem C66_elems {d : Desc} (hd : IsCsexrb d) (ops : List (Nat × Str)) :
    ∀ {h : IdHeap} {S : Store P.F} {ids : List Str}, CsIs P d S ids →
      (∀ op ∈ ops, op.2 ≠ [] ∧ rstripU op.2 = op.2) →
      (∀ op ∈ ops, ∃ s, (h op.1).id = some s ∧ rstripU s = s) →
      ∃ h' S', addElems P (csAddId P d) ops h S = (h', S', none) ∧
        CsIs P d S' ((ops.filterMap fun op => (h' op.1).id).foldl addOnce ids) ∧
        csId P d S' = csId P d S ∧
        (∀ op ∈ ops, (h' op.1).id ≠ none ∧
          ((h op.1).generates = true → (h' op.1).id ≠ some [])) ∧
        (∀ j s, (h j).id = some s → s ≠ [] → (h' j).id = some s) := by
  induction ops with
  | nil =>
    intro h S ids hc _ _
    exact ⟨h, S, rfl, hc, rfl, fun op hop => (by simp at hop), fun j s hs _ => hs⟩
  | cons op r ih =>
    intro h S ids hc hu hi
    obtain ⟨k, u⟩ := op
    obtain ⟨hu1, hu2⟩ := hu (k, u) List.mem_cons_self
    obtain ⟨s, hs, hss⟩ := hi (k, u) List.mem_cons_self
    simp only at hu1 hu2 hs
    have hne := generate_isSome (u := u) (o := h k) (by rw [hs]; simp)
    obtain ⟨id, hid⟩ := Option.ne_none_iff_exists'.mp hne
    have hidr : rstripU id = id := by
      rcases generate_id hid with rfl | h1
      · exact hu2
      · rw [hs] at h1; cases h1; exact hss
    obtain ⟨S1, a1, a2, a3, _⟩ := C66_add P hd hc hidr
    have hstep : addElem P (csAddId P d) (h k) u S = ((h k).generate u, S1, none) := by
      unfold addElem
      rw [hid]
      simp only [a1]
    have hgens : ∀ (o : IdObj) w, (o.generate w).generates = o.generates := by
      intro o w; unfold IdObj.generate; split <;> rfl
    generalize hh1 : (fun j => if j = k then (h k).generate u else h j : IdHeap) = h1
    have h1k : h1 k = (h k).generate u := by rw [← hh1]; simp
    have h1j : ∀ j, j ≠ k → h1 j = h j := by intro j hj; rw [← hh1]; simp [hj]
    obtain ⟨h', S', b1, b2, b3, b4, b5⟩ := ih (h := h1) (S := S1) a2
      (fun op hop => hu op (List.mem_cons_of_mem _ hop))
      (fun op hop => by
        by_cases he : op.1 = k
        · exact ⟨id, by rw [he, h1k, hid], hidr⟩
        · rw [h1j _ he]
          exact hi op (List.mem_cons_of_mem _ hop))
    have hfin : h' k = (h k).generate u := by
      have := addElems_settled P (addId := csAddId P d) r h1 S1 k (fun v => by
        rw [h1k]; exact generate_settled hu1 v)
      rw [b1] at this
      exact this.trans h1k
    refine ⟨h', S', ?_, ?_, by rw [b3, a3], ?_, ?_⟩
    · unfold addElems
      rw [hstep]
      simp only [hh1]
      exact b1
    · rw [List.filterMap_cons]
      simp only [hfin, hid, List.foldl_cons]
      exact b2
    · intro op hop
      have main : (h' k).id ≠ none ∧ ((h k).generates = true → (h' k).id ≠ some []) := by
        rw [hfin]
        refine ⟨hne, fun hg => ?_⟩
        unfold IdObj.generate
        by_cases hx : (h k).generates = true ∧ (h k).id = some []
        · rw [if_pos hx]; simpa using hu1
        · rw [if_neg hx]
          intro hy
          exact hx ⟨hg, hy⟩
      rcases List.mem_cons.mp hop with rfl | hop'
      · exact main
      · by_cases he : op.1 = k
        · rw [he]; exact main
        · have := b4 op hop'
          rw [h1j _ he] at this
          exact this
    · intro j t ht htn
      refine b5 j t ?_ htn
      by_cases he : j = k
      · subst he
        rw [h1k]
        unfold IdObj.generate
        rw [if_neg (by rw [ht]; simp [htn])]
        exact ht
      · rw [h1j _ he]; exact ht

/-- C66, finding the associated DES: one entry for each id, in the order of the ids: the last DES of
the file with that id, or nothing. -/
theorem C66_assoc_elem {α} (asid : List Str) (des : List (AssocCand α)) :
    csAssocElem asid des = asid.map fun id => lastWith id des := by
  unfold csAssocElem
  refine List.map_congr_left fun id hid => ?_
  rw [assoc_fold hid]
  simp [dictGet]

theorem lastWith_unique {cs : List (AssocCand Nat)} {id : Str} {k : Nat}
    (hmem : ⟨some id, k⟩ ∈ cs) (huniq : ∀ c ∈ cs, c.id = some id → c.obj = k) :
    lastWith id cs = some k := by
  unfold lastWith
  cases hf : cs.reverse.find? fun c => decide (c.id = some id) with
  | none =>
    have := List.find?_eq_none.mp hf ⟨some id, k⟩ (by simpa using hmem)
    simp at this
  | some c =>
    have h1 := List.mem_of_find?_eq_some hf
    have h2 := List.find?_some hf
    simp only [decide_eq_true_eq] at h2
    rw [Option.map_some, huniq c (by simpa using h1) h2]

theorem addOnce_map {α β} [DecidableEq α] [DecidableEq β] (f : α → β) (l : List α) :
    ∀ acc : List α, (∀ x ∈ acc ++ l, ∀ y ∈ acc ++ l, f x = f y → x = y) →
      (l.map f).foldl addOnce (acc.map f) = (l.foldl addOnce acc).map f := by
  induction l with
  | nil => intro acc _; rfl
  | cons a l ih =>
    intro acc h
    simp only [List.map_cons, List.foldl_cons]
    have e : addOnce (acc.map f) (f a) = (addOnce acc a).map f := by
      unfold addOnce
      by_cases ha : a ∈ acc
      · rw [if_pos ha, if_pos (List.mem_map_of_mem ha)]
      · rw [if_neg ha, if_neg, List.map_append]
        · rfl
        · intro hm
          obtain ⟨x, hx, hxe⟩ := List.mem_map.mp hm
          have := h x (by simp [hx]) a (by simp) hxe
          exact ha (this ▸ hx)
    rw [e]
    refine ih _ fun x hx y hy => h x ?_ y ?_
    · unfold addOnce at hx
      split at hx <;> simp at hx ⊢ <;> rcases hx with h | h <;> simp_all
    · unfold addOnce at hy
      split at hy <;> simp at hy ⊢ <;> rcases hy with h | h <;> simp_all

/-- C66, adding and finding: if the DES of the file have ids of their own once the objects have been
added to a new TRE, and the objects are among them, then the TRE finds exactly the objects added,
each once, in the order of first addition. -/
theorem C66_found {d : Desc} (hd : IsCsexrb d) {ops : List (Nat × Str)} {h : IdHeap}
    {des : List Nat} (hu : ∀ op ∈ ops, op.2 ≠ [] ∧ rstripU op.2 = op.2)
    (hi : ∀ op ∈ ops, ∃ s, (h op.1).id = some s ∧ rstripU s = s)
    (hin : ∀ op ∈ ops, op.1 ∈ des) :
    ∃ h' S' ids, addElems P (csAddId P d) ops h Store.empty = (h', S', none) ∧
      CsIs P d S' ids ∧
      ((∀ a ∈ des, ∀ b ∈ des, ∀ s, (h' a).id = some s → (h' b).id = some s → a = b) →
        csAssocElem ids (des.map fun k => ⟨(h' k).id, k⟩) =
          ((ops.map (·.1)).foldl addOnce []).map some) := by
  obtain ⟨h', S', b1, b2, _, b4, _⟩ := C66_elems P hd ops (h := h) (C66_new P hd) hu hi
  refine ⟨h', S', _, b1, b2, fun hdist => ?_⟩
  rw [C66_assoc_elem]
  have e : (ops.filterMap fun op => (h' op.1).id) =
      (ops.map (·.1)).map fun k => ((h' k).id).getD [] := by
    rw [List.map_map]
    clear b1 b2 hu hi hin
    induction ops with
    | nil => rfl
    | cons op r ih =>
      obtain ⟨s, hs⟩ := Option.ne_none_iff_exists'.mp (b4 op List.mem_cons_self).1
      rw [List.filterMap_cons]
      simp only [hs, List.map_cons, Function.comp, Option.getD_some]
      rw [ih fun op hop => b4 op (List.mem_cons_of_mem _ hop)]
  rw [e]
  have hsome : ∀ k ∈ ops.map (·.1), ∃ s, (h' k).id = some s ∧ k ∈ des := by
    intro k hk
    obtain ⟨op, hop, rfl⟩ := List.mem_map.mp hk
    obtain ⟨s, hs⟩ := Option.ne_none_iff_exists'.mp (b4 op hop).1
    exact ⟨s, hs, hin op hop⟩
  have := addOnce_map (fun k => ((h' k).id).getD []) (ops.map (·.1)) [] (by
    intro x hx y hy hxy
    rw [List.nil_append] at hx hy
    obtain ⟨s, hs, hsd⟩ := hsome x hx
    obtain ⟨t, ht, htd⟩ := hsome y hy
    simp only [hs, ht, Option.getD_some] at hxy
    subst hxy
    exact hdist x hsd y htd s hs ht)
  rw [show ([] : List Str) = ([] : List Nat).map fun k => ((h' k).id).getD [] from rfl, this,
    List.map_map]
  refine List.map_congr_left fun k hk => ?_
  have hk' : k ∈ ops.map (·.1) := ((foldl_addOnce _).2.1 k).mp hk
  obtain ⟨s, hs, hsd⟩ := hsome k hk'
  simp only [Function.comp, hs, Option.getD_some]
  refine lastWith_unique ?_ ?_
  · rw [List.mem_map]
    exact ⟨k, hsd, by rw [hs]⟩
  · intro c hc hcid
    obtain ⟨j, hj, rfl⟩ := List.mem_map.mp hc
    exact hdist j hj k hsd s hcid hs

/-- A case: three DES, two of them without a UUID yet; one is added twice. -/
def exHeap : IdHeap := fun
  | 0 => ⟨some [], true⟩
  | 1 => ⟨some "b".toList, true⟩
  | 2 => ⟨some [], true⟩
  | _ => ⟨none, false⟩

example :
    let r := addElems P0 (csAddId P0 Tables.t_tre_csexrb)
      [(2, "u1".toList), (1, "u2".toList), (2, "u3".toList)] exHeap Store.empty
    r.2.2 = none ∧ csIds P0 Tables.t_tre_csexrb r.2.1 = .ok [.str "u1".toList, .str "b".toList] ∧
      csAssocElem ["u1".toList, "b".toList] ([0, 1, 2].map fun k => ⟨(r.1 k).id, k⟩) =
        [some 2, some 1] := by
  decide +kernel

/-- Ids with trailing blanks are the exception, as in C39. -/
theorem C66_trailing_blank :
    let S1 := (csAddId P0 Tables.t_tre_csexrb (.str "a ".toList) Store.empty).1
    getAttr P0 Tables.t_tre_csexrb (csAddId P0 Tables.t_tre_csexrb (.str "a ".toList) S1).1
      (n!"num_assoc_des") [] = .ok (.int 2) := by
  decide +kernel

end Verif
