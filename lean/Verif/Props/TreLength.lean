import Verif.TreLength

/-
C99: TREs have the lengths which STDI-0002 gives.
-/

namespace Verif.Standard

open Verif Verif.Sense

/-! ### Specification -/

/-- TREs of fixed length, and TREs with repeated groups of fixed length: the length without the groups,
for each group the field with the number of groups, and the length of one group. -/
def treLengths : List (String × Nat × List (String × Nat)) :=
  [("CSCRNA", 109, []), ("STDIDC", 89, []), ("USE00A", 107, []), ("CSDIDA", 70, []), ("MAPLOB", 43, []),
   ("GEOPSB", 443, []), ("ICHIPB", 224, []), ("MIMCSA", 121, []), ("PIAIMC", 362, []),
   ("RPC00B", 1041, []), ("RPC00A", 1041, []), ("RSMGIA", 591, []), ("RSMIDA", 1628, []),
   ("RSMPIA", 591, []),
   ("CSEPHA", 41, [("num_ephem", 36)]), ("PRJPSB", 113, [("numprj", 15)]),
   ("RSMAPA", 486, [("npar", 21)]), ("TMINTA", 4, [("num_time_int", 54)]),
   ("RSMPCA", 402, [("rntrms", 21), ("rdtrms", 21), ("cntrms", 21), ("cdtrms", 21)])]

/-- The length for these numbers of groups. -/
def lengthFor (a : Nat) (gs : List (String × Nat)) (cs : List Int) : Nat :=
  a + ((gs.zip cs).map fun q => q.2.toNat * q.1.2).sum

variable (P : PyFloat)

/-- These numbers of groups are shown. -/
def GroupsShown (d : Desc) (S : Store P.F) (gs : List (String × Nat)) (cs : List Int) : Prop :=
  Each (fun g c => Counts P d S (nameCode g.1.toList) [] c) gs cs

/-! ### Proofs -/

theorem lengths_checked : ∀ q ∈ treLengths, ∀ t ∈ Tables.tres, t.1 = q.1 →
    linear t.2.tab 0 t.2 = some (q.2.1, q.2.2.map fun g => (nameCode g.1.toList, g.2)) := by
  have h : (treLengths.all fun q => Tables.tres.all fun t => decide (t.1 = q.1 →
    linear t.2.tab 0 t.2 = some (q.2.1, q.2.2.map fun g => (nameCode g.1.toList, g.2)))) = true := by
    decide +kernel
  intro q hq t ht
  exact of_decide_eq_true (List.all_eq_true.mp (List.all_eq_true.mp h q hq) t ht)

theorem tags_checked : ∀ q ∈ treLengths, tagBytes q.1.toList = asc q.1 ∧ (asc q.1).length = 6 ∧
    utf8Dec (rstripB (asc q.1)) = .ok q.1.toList ∧ ∃ t ∈ Tables.tres, t.1 = q.1 := by
  have h : (treLengths.all fun q => decide (tagBytes q.1.toList = asc q.1 ∧ (asc q.1).length = 6 ∧
    utf8Dec (rstripB (asc q.1)) = .ok q.1.toList) && Tables.tres.any fun t => decide (t.1 = q.1)) = true := by
    decide +kernel
  intro q hq
  have := List.all_eq_true.mp h q hq
  rw [Bool.and_eq_true] at this
  obtain ⟨h1, h2⟩ := this
  obtain ⟨h3, h4, h5⟩ := of_decide_eq_true h1
  obtain ⟨t, ht, h6⟩ := List.any_eq_true.mp h2
  exact ⟨h3, h4, h5, t, ht, of_decide_eq_true h6⟩

theorem each_unmap {α β γ : Type} {R : α → β → Prop} {g : γ → α} : ∀ {l : List γ} {bs : List β},
    Each R (l.map g) bs → Each (fun x b => R (g x) b) l bs
  | [], _, .nil => .nil
  | _ :: _, _, .cons h hs => .cons h (each_unmap hs)

variable {P} in
theorem groups_sizes {q : String × Nat × List (String × Nat)} (hq : q ∈ treLengths) {t : String × Desc}
    (ht : t ∈ Tables.tres) (he : t.1 = q.1) {S : Store P.F} {sl : List Slot}
    (h : layout P t.2 S = .ok sl) :
    ∃ cs, GroupsShown P t.2 S q.2.2 cs ∧ sizes sl = lengthFor q.2.1 q.2.2 cs := by
  have hd : t.2.causal = true := shippedRegistry_causal _ (List.mem_map.mpr ⟨t, ht, rfl⟩)
  obtain ⟨cs, h1, h2⟩ := linear_sizes hd t.2 (lengths_checked q hq t ht he) h
  refine ⟨cs, ?_, ?_⟩
  · exact each_unmap h1
  · rw [h2]
    unfold lengthFor
    rw [List.zip_map_left, List.map_map]
    rfl

theorem lengths_pos : ∀ q ∈ treLengths, ∀ cs, lengthFor q.2.1 q.2.2 cs ≠ 0 := by
  have h : (treLengths.all fun q => decide (0 < q.2.1)) = true := by decide +kernel
  intro q hq cs
  have := of_decide_eq_true (List.all_eq_true.mp h q hq)
  unfold lengthFor
  omega

/-! ### C99 -/

/-- A TRE that is written consists of its tag, its length in five digits, and a body of the length
the standard gives for the numbers of groups that the object shows. -/
theorem C99_written {q : String × Nat × List (String × Nat)} (hq : q ∈ treLengths) {t : String × Desc}
    (ht : t ∈ Tables.tres) (he : t.1 = q.1) {S : Store P.F} {w : Bytes}
    (h : treWrite P (.known q.1.toList t.2 S) = .ok w) :
    ∃ cs, GroupsShown P t.2 S q.2.2 cs ∧ w.take 6 = asc q.1 ∧
      pyIntB ((w.drop 6).take 5) = .ok (lengthFor q.2.1 q.2.2 cs : Int) ∧
      w.length = 11 + lengthFor q.2.1 q.2.2 cs := by
  obtain ⟨e1, e2, _, _⟩ := tags_checked q hq
  unfold treWrite at h
  simp only [Tre.body, Tre.tag] at h
  cases hb : writeStruct P t.2 S with
  | error e => rw [hb] at h; cases h
  | ok b =>
    rw [hb] at h
    simp only at h
    by_cases hl : b.length > 99999
    · rw [if_pos hl] at h; cases h
    · rw [if_neg hl] at h
      injection h with h
      unfold writeStruct at hb
      cases hc : writeChunks P t.2 S with
      | error e => rw [hc] at hb; cases hb
      | ok ch =>
        rw [hc] at hb
        injection hb with hb
        obtain ⟨cs, h1, h2⟩ := groups_sizes hq ht he (writeD_layout P S t.2 0 [] ch hc)
        rw [sizes_chunks, hb] at h2
        rw [e1] at h
        have h5 : (lenBytes b.length).length = 5 := lenBytes_length (by omega)
        refine ⟨cs, h1, ?_, ?_, ?_⟩
        · rw [← h]; exact List.take_left' e2
        · rw [← h, List.drop_left' e2, List.take_left' h5, pyIntB_lenBytes, h2]
        · rw [← h, List.length_append, List.length_append, e2, h5, h2]
          omega

/-- A record with such a tag is read as an object of the class only if its length is that of the
standard, for the numbers of groups it shows; otherwise its bytes are kept as an unknown TRE. -/
theorem C99_read {q : String × Nat × List (String × Nat)} (hq : q ∈ treLengths) {b rest : Bytes}
    {x : Tre P.F} (hb : b.take 6 = asc q.1) (h : readOne P shippedRegistry b = .ok (x, rest)) :
    (∃ t ∈ Tables.tres, t.1 = q.1 ∧ ∃ R cs, x = .known q.1.toList t.2 R ∧
      GroupsShown P t.2 R q.2.2 cs ∧
      pyIntB ((b.drop 6).take 5) = .ok (lengthFor q.2.1 q.2.2 cs : Int) ∧
      b.length = 11 + lengthFor q.2.1 q.2.2 cs + rest.length) ∨
    ∃ body, x = .unknown q.1.toList body := by
  obtain ⟨e1, e2, e3, t, ht, he⟩ := tags_checked q hq
  have hlk : shippedRegistry.lookup (b.take 6) = some (t.1.toList, t.2) := by
    rw [hb, ← e1, ← he]; exact shippedRegistry_lookup t ht
  have hd : t.2.causal = true := shippedRegistry_causal _ (List.mem_map.mpr ⟨t, ht, rfl⟩)
  have unk : ∀ {y : Tre P.F} {r : Bytes}, readUnknown P b = .ok (y, r) →
      ∃ body, y = .unknown q.1.toList body := by
    intro y r hu
    unfold readUnknown at hu
    rw [hb, e3] at hu
    simp only at hu
    cases hp : pyIntB ((b.drop 6).take 5) with
    | error e => rw [hp] at hu; cases hu
    | ok cel =>
      rw [hp] at hu
      simp only at hu
      by_cases hc : cel < 0
      · rw [if_pos hc] at hu; injection hu with hu; injection hu with hu _; exact ⟨_, hu.symm⟩
      · rw [if_neg hc] at hu; injection hu with hu; injection hu with hu _; exact ⟨_, hu.symm⟩
  unfold readOne at h
  rw [hlk] at h
  simp only at h
  cases hk : readKnown P t.1.toList t.2 b with
  | error e =>
    rw [hk] at h
    simp only at h
    cases hu : utf8Dec (b.take 6) with
    | error e => rw [hu] at h; cases h
    | ok s => rw [hu] at h; exact .inr (unk h)
  | ok r =>
    rw [hk] at h
    injection h with h
    subst h
    unfold readKnown at hk
    rw [hb, e3] at hk
    simp only [he, ne_eq, not_true_eq_false, if_false] at hk
    cases hp : pyIntB ((b.drop 6).take 5) with
    | error e => rw [hp] at hk; cases hk
    | ok cel =>
      rw [hp] at hk
      simp only at hk
      cases hr : readStruct P t.2 false (b.drop 11) with
      | error e => rw [hr] at hk; cases hk
      | ok y =>
        obtain ⟨R, rest'⟩ := y
        rw [hr] at hk
        simp only at hk
        by_cases hc : (((b.drop 11).length - rest'.length : Nat) : Int) = cel
        · rw [if_neg (by simpa using hc)] at hk
          injection hk with hk
          injection hk with hk1 hk2
          subst hk2
          obtain ⟨ins, f1, _, f2, _⟩ := readInto_facts P hd hr
          obtain ⟨cs, g1, g2⟩ := groups_sizes hq ht he f2
          rw [sizes_chunks] at g2
          have hlen := congrArg List.length f1
          rw [List.length_append, g2] at hlen
          refine .inl ⟨t, ht, he, R, cs, hk1.symm, g1, ?_, ?_⟩
          · rw [← hc, hlen]; congr 1; omega
          · have h6 : 11 ≤ b.length := by
              by_cases h11 : 11 ≤ b.length
              · exact h11
              · exfalso
                rw [List.length_drop] at hlen
                have : lengthFor q.2.1 q.2.2 cs = 0 := by omega
                exact absurd this (lengths_pos q hq cs)
            rw [List.length_drop] at hlen
            omega
        · rw [if_pos (by simpa using hc)] at hk; cases hk

/-- Fixed length: no other length is ever written. -/
theorem C99_fixed {nm : String} {a : Nat} (hq : (nm, a, []) ∈ treLengths) {t : String × Desc}
    (ht : t ∈ Tables.tres) (he : t.1 = nm) {S : Store P.F} {w : Bytes}
    (h : treWrite P (.known nm.toList t.2 S) = .ok w) : w.length = 11 + a := by
  obtain ⟨cs, _, _, _, h1⟩ := C99_written P hq ht he h
  rw [h1]
  simp [lengthFor]

/-- The attitude DES: 52 bytes and 32 for each attitude. -/
theorem C99_csatta {S : Store P.F} {b : Bytes} (h : writeStruct P Tables.t_des_csatta S = .ok b) :
    ∃ c, Counts P Tables.t_des_csatta S (n!"num_att") [] c ∧ b.length = 52 + 32 * c.toNat := by
  have hl : linear Tables.t_des_csatta.tab 0 Tables.t_des_csatta = some (52, [((n!"num_att"), 32)]) := by
    decide +kernel
  unfold writeStruct at h
  cases hc : writeChunks P Tables.t_des_csatta S with
  | error e => rw [hc] at h; cases h
  | ok ch =>
    rw [hc] at h
    injection h with h
    obtain ⟨cs, h1, h2⟩ := linear_sizes (by decide +kernel) _ hl (writeD_layout P S _ 0 [] ch hc)
    rw [sizes_chunks, h] at h2
    cases h1 with
    | cons g gs =>
      cases gs
      refine ⟨_, g, ?_⟩
      rw [h2]
      simp only [List.zip_cons_cons, List.zip_nil_left, List.map_cons, List.map_nil, List.sum_cons,
        List.sum_nil]
      omega

/-! ### Example -/

/-- Two time intervals. -/
def exTimes : Store P0.F :=
  let d := Tables.t_tre_tminta
  let S := (setAttr P0 d Store.empty (n!"num_time_int") [] (.int 2)).1
  (setAttr P0 d S (n!"time_interval_index") [1] (.int 7)).1

example : ∃ w, treWrite P0 (.known "TMINTA".toList Tables.t_tre_tminta exTimes) = .ok w ∧
    w.length = 11 + lengthFor 4 [("num_time_int", 54)] [2] ∧ w.take 15 = asc "TMINTA001120002" := by
  have h : ((treWrite P0 (.known "TMINTA".toList Tables.t_tre_tminta exTimes)).toOption.map fun w =>
      (w.length, w.take 15)) = some (123, asc "TMINTA001120002") := by decide +kernel
  cases hw : treWrite P0 (.known "TMINTA".toList Tables.t_tre_tminta exTimes) with
  | error e => rw [hw] at h; cases h
  | ok w =>
    rw [hw] at h; injection h with h; injection h with h1 h2
    exact ⟨w, rfl, h1.trans (by decide +kernel), h2⟩

/-- A USE00A of 106 bytes is kept as it is. -/
example : ∃ body, (readOne P0 shippedRegistry (asc "USE00A00106" ++ List.replicate 106 32)).map
    (fun r => match r.1 with | .unknown t b => (t, b) | .known t _ _ => (t, [])) =
      .ok ("USE00A".toList, body) ∧ body.length = 106 := by
  refine ⟨List.replicate 106 32, ?_, ?_⟩ <;> decide +kernel

end Verif.Standard
