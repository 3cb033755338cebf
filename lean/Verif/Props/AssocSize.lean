import Verif.Props.UserSize
import Verif.Props.Assoc
import Verif.TreLength

/- C105: how many elements can be associated with a DES. -/

namespace Verif.UserSize

open Verif Verif.Split Verif.Limits Verif.Standard

variable {P : PyFloat} {E : Env} {IO : DataIO P.F}

/-! ### Specification -/

/-- The number of display levels the user subheader speaks of: none if it says `ALL`. -/
def Levels (P : PyFloat) (U : Store P.F) (k : Int) : Prop :=
  ∃ v, getAttr P auD U (n!"numais") [] = .ok v ∧
    (v = .str "ALL".toList ∧ k = 0 ∨ v ≠ .str "ALL".toList ∧ coerceInt P v = .ok k)

/-- What the count of three digits suggests: up to 999 different elements can be associated with a
DES that is in a file. -/
def Takes999 (P : PyFloat) (E : Env) (IO : DataIO P.F) : Prop :=
  ∀ ids : List Str, ids.Nodup → (∀ s ∈ ids, rstripU s = s) → ids.length ≤ 999 →
    ∃ (f f' : NFile P.F IO.D) (out : Bytes) (U : Store P.F), NoLit f.header ∧
      (∀ k, ∀ s ∈ f.segs k, s.linked = true) ∧
      runSteps (ids.map fun s => addAssocElemId P (.str s)) Store.empty = (U, none) ∧
      (∃ s ∈ f.des, s.user = some (auD, U) ∧ ¬ OverflowId P s.sub) ∧
      writeFile P E IO f = .ok (f', out)

/-! ### Lemmas -/

theorem levels_of {U : Store P.F} {k : Int}
    (h : evalShape P (look P auD.tab U) (.ite (.eq (.ref (n!"numais") []) (.const (.str "ALL")))
      (.const (.int 0)) (.toInt (.ref (n!"numais") []))) [] = .ok k) : Levels P U k := by
  have hd : auD.causal = true := by decide +kernel
  unfold evalShape at h
  simp only [evalE, idxKey, bind, Except.bind, pure, Except.pure] at h
  cases hl : look P auD.tab U (n!"numais") [] with
  | error e => rw [hl] at h; cases h
  | ok v =>
    rw [hl] at h
    refine ⟨v, ref_val hd hl, ?_⟩
    simp only [CVal.toVal, truthy_bval] at h
    by_cases hv : v = .str "ALL".toList
    · rw [if_pos (equal_str.mpr hv)] at h
      injection h with h
      exact .inl ⟨hv, h.symm⟩
    · rw [if_neg fun hc => hv (equal_str.mp hc)] at h
      refine .inr ⟨hv, ?_⟩
      cases hc : coerceInt P v with
      | error e => rw [hc] at h; cases h
      | ok z =>
        rw [hc] at h
        injection h with h
        rw [h]

theorem assoc_sizes {U : Store P.F} {sl : List Slot} (h : layout P auD U = .ok sl) :
    ∃ k n r : Int, Levels P U k ∧ Counts P auD U (n!"num_assoc_elem") [] n ∧
      getAttr P auD U (n!"reservedsubh_len") [] = .ok (.int r) ∧
      sizes sl = 46 + 3 * k.toNat + 36 * n.toNat + r.toNat := by
  have hd : auD.causal = true := by decide +kernel
  obtain ⟨s0, h0, rfl⟩ := inv_run 2 0 _ (by decide +kernel) rfl h
  obtain ⟨k, g, s1, e1, e2, h1, rfl⟩ := inv_loop h0
  obtain ⟨s2, h2, rfl⟩ := inv_run 1 3 _ (by decide +kernel) rfl h1
  obtain ⟨n, g', s3, e3, e4, h3, rfl⟩ := inv_loop h2
  obtain ⟨s4, h4, rfl⟩ := inv_run 1 5 _ (by decide +kernel) rfl h3
  obtain ⟨r, s5, e5, h5, rfl⟩ := inv_data hd (len := (n!"reservedsubh_len")) (idx := []) (k := []) rfl
    rfl rfl rfl rfl h4
  injection h5 with h5
  subst h5
  refine ⟨k, n, r, levels_of e1, counts_of hd rfl e3, e5, ?_⟩
  have l1 := loop_sizes (c := k) (g := g) (w := 3) fun i hi =>
    plainTotal_sizes (T := auD.tab) (n := 2) _ (by decide +kernel) (e2 i hi)
  have l2 := loop_sizes (c := n) (g := g') (w := 36) fun i hi =>
    plainTotal_sizes (T := auD.tab) (n := 4) _ (by decide +kernel) (e4 i hi)
  have a1 : sizes (runSlots auD.tab [] 0 2) = 39 := by decide +kernel
  have a2 : sizes (runSlots auD.tab [] 3 1) = 3 := by decide +kernel
  have a3 : sizes (runSlots auD.tab [] 5 1) = 4 := by decide +kernel
  have a4 : ∀ m, sizes [⟨m, [], r⟩] = r.toNat := fun m => by simp [Standard.sizes]
  simp only [sizes_append, l1, l2, a1, a2, a3, a4]
  omega

/-! ### Theorems -/

/-- C105.  The size of the user subheader: 46 bytes, 3 for each display level, 36 for each associated
element, and the reserved bytes. -/
theorem C105_size {U : Store P.F} {m : Nat} (h : userSubheaderSize P (some (auD, U)) = .ok m) :
    ∃ k n r : Int, Levels P U k ∧ Counts P auD U (n!"num_assoc_elem") [] n ∧
      getAttr P auD U (n!"reservedsubh_len") [] = .ok (.int r) ∧
      m = 46 + 3 * k.toNat + 36 * n.toNat + r.toNat := by
  unfold userSubheaderSize at h
  simp only at h
  cases hw : writeStruct P auD U with
  | error e => rw [hw] at h; cases h
  | ok b =>
    rw [hw] at h
    injection h with h
    unfold writeStruct at hw
    cases hc : writeChunks P auD U with
    | error e => rw [hc] at hw; cases hw
    | ok ch =>
      rw [hc] at hw
      injection hw with hw
      obtain ⟨k, n, r, h1, h2, h3, h4⟩ := assoc_sizes (writeD_layout P U auD 0 [] ch hc)
      rw [sizes_chunks, hw] at h4
      exact ⟨k, n, r, h1, h2, h3, by rw [← h, h4]⟩

/-- Two elements, one of them added twice, and a display level: 46 + 3 + 72 bytes. -/
example : userSubheaderSize P0 (some (auD, (runSteps ([AssocOp.elem "AB".toList, .level 3,
    .elem "CD".toList, .elem "AB".toList].map (AssocOp.run P0)) Store.empty).1)) = .ok 121 := by
  decide +kernel

/-- C105.  The subheader of the DES is short enough for its length in the file header if and only if
levels, elements and reserved bytes come to at most 9753 bytes.  Missing: that the file can then be
written, which depends on all other fields. -/
theorem C105_fits_partial {s s' : Seg P.F IO.D} {hd data : Bytes} {U : Store P.F}
    (hu : s.user = some (auD, U)) (h : segBytes P E IO .des s = .ok (s', hd, data))
    (ho : ¬ OverflowId P s'.sub) :
    ∃ k n r : Int, Levels P U k ∧ Counts P auD U (n!"num_assoc_elem") [] n ∧
      getAttr P auD U (n!"reservedsubh_len") [] = .ok (.int r) ∧
      (hd.length < 10 ^ 4 ↔ 3 * k.toNat + 36 * n.toNat + r.toNat ≤ 9753) := by
  obtain ⟨m, h1, h2⟩ := C104_fits_partial h ho
  rw [hu] at h1
  obtain ⟨k, n, r, g1, g2, g3, g4⟩ := C105_size h1
  refine ⟨k, n, r, g1, g2, g3, ?_⟩
  rw [h2]
  omega

/-- C105.  After any additions of display levels and elements to a new user subheader, a file with
the DES raises when it is written, if there are too many of them: more than 9753 bytes at 3 for each
level and 36 for each element.  More than 270 elements are always too many. -/
theorem C105_raises (ops : List AssocOp) (hops : ∀ s, AssocOp.elem s ∈ ops → rstripU s = s)
    (hmany : 9753 < 3 * (levelsOf ops).length + 36 * (elemsOf ops).length) {f : NFile P.F IO.D}
    (hlit : NoLit f.header) (hlink : ∀ k, ∀ s ∈ f.segs k, s.linked = true) {s : Seg P.F IO.D}
    (hs : s ∈ f.des) (ho : ¬ OverflowId P s.sub)
    (hu : s.user = some (auD, (runSteps (ops.map (AssocOp.run P)) Store.empty).1)) :
    ∃ e, writeFile P E IO f = .error e := by
  obtain ⟨U, hU, ha⟩ := C39_history P ops hops
  rw [hU] at hu
  refine C104_raises hlit hlink hs ho fun m hz => ?_
  rw [hu] at hz
  obtain ⟨k, n, r, ⟨v, hv, hk⟩, hn, _, hm⟩ := C105_size hz
  obtain ⟨t, ht, hti⟩ := ha.nlevels
  have hk' : k = (levelsOf ops).length := by
    rw [ht] at hv
    injection hv with hv
    subst hv
    rcases hk with ⟨hc, _⟩ | ⟨_, hc⟩
    · injection hc with hc
      rw [hc] at hti
      exact absurd hti (by
        rw [show pyIntS "ALL".toList = .error .value by decide +kernel]
        exact fun h => by cases h)
    · simp only [coerceInt] at hc
      rw [hti] at hc
      injection hc with hc
      exact hc.symm
  have hn' : n = (elemsOf ops).length := by
    rcases hn with hn | ⟨hn, _⟩
    · rw [ha.nelems] at hn
      injection hn with hn
      injection hn with hn
      exact hn.symm
    · rw [ha.nelems] at hn
      injection hn with hn
      cases hn
  rw [hm, hk', hn']
  simp only [Int.toNat_natCast]
  omega

theorem addOnce_new {l : List Str} : ∀ {ids : List Str}, (l ++ ids).Nodup →
    ids.foldl addOnce l = l ++ ids := by
  intro ids
  induction ids generalizing l with
  | nil => intro _; simp
  | cons x ids ih =>
    intro h
    have hx : x ∉ l := fun hx => by
      have := (List.nodup_append.mp h).2.2 x hx x (by simp)
      exact this rfl
    rw [List.foldl_cons, addOnce, if_neg hx, ih (by simpa using h)]
    simp

theorem elems_map (ids : List Str) (h : ids.Nodup) : elemsOf (ids.map AssocOp.elem) = ids := by
  unfold elemsOf
  refine (congrArg (List.foldl addOnce []) ?_).trans (addOnce_new (l := []) (by simpa using h))
  clear h
  induction ids with
  | nil => rfl
  | cons x ids ih =>
    rw [List.map_cons, List.filterMap_cons]
    simp only
    rw [ih]

/-- 271 different ids. -/
def ids271 : List Str := (List.range 271).map fun i => [Char.ofNat (65 + i / 26), Char.ofNat (65 + i % 26)]

theorem ids271_ok : ∃ ids : List Str, ids.Nodup ∧ (∀ s ∈ ids, rstripU s = s) ∧ ids.length = 271 :=
  ⟨ids271, by decide +kernel, by decide +kernel, by decide +kernel⟩

/-- C105.  So 271 elements are too many, though the count has three digits. -/
theorem C105_count_missed (E : Env) (IO : DataIO P.F) : ¬ Takes999 P E IO := by
  intro h
  obtain ⟨ids, hn, hr, hl⟩ := ids271_ok
  obtain ⟨f, f', out, U, h1, h2, h3, ⟨s, h4, h5, h6⟩, h7⟩ := h ids hn hr (by omega)
  have hm : ids.map (fun s => addAssocElemId P (.str s)) =
      (ids.map AssocOp.elem).map (AssocOp.run P) := by
    rw [List.map_map]
    rfl
  obtain ⟨e, he⟩ := C105_raises (P := P) (E := E) (ids.map AssocOp.elem)
    (fun s hs => by
      obtain ⟨x, hx, e⟩ := List.mem_map.mp hs
      injection e with e
      exact hr s (e ▸ hx)) (by
      rw [elems_map _ hn]
      omega) h1 h2 h4 h6 (by rw [← hm, h3]; exact h5)
  rw [he] at h7
  cases h7

/-- The hypotheses of `C105_raises` hold for a file with such a DES. -/
example : ∃ ids : List Str, ids.length = 271 ∧ ∃ e, writeFile P0 exEnv exIO { exFile with
    des := [{ exSeg with user := some (auD,
      (runSteps ((ids.map AssocOp.elem).map (AssocOp.run P0)) Store.empty).1) }] } = .error e := by
  obtain ⟨ids, hn, hr, hl⟩ := ids271_ok
  refine ⟨ids, hl, C105_raises (ids.map AssocOp.elem) ?_ ?_ NoLit.empty (exFile_linked rfl)
    List.mem_cons_self ?_ rfl⟩
  · intro s hs
    obtain ⟨x, hx, e⟩ := List.mem_map.mp hs
    injection e with e
    exact hr s (e ▸ hx)
  · rw [elems_map _ hn]
    omega
  · show ¬ getAttr P0 Tables.t_des_subheader Store.empty (n!"desid") [] = _
    decide +kernel

end Verif.UserSize
