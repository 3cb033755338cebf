import Verif.AttemptStuck
import Verif.ReadClear
import Verif.ReadReady
import Verif.Props.File
import Verif.Props.Summary

/- C29: segments appended to a file that was read. -/

namespace Verif

open Verif.Attempt

variable (P : PyFloat)

/-- What a completed read says about a field inside one loop: elements outside the count are not
stored.  `R1` is the state when the loop was reached, which has the final values of all fields
before the loop. -/
theorem readD_loop {T : Tab} (hC : CausalTab T) {lit : Bool} {m n0 : Nat} {fi : FInfo} {e : Expr}
    (hm : T[m]? = some fi) (hsh : fi.shapes = [e]) (hst : fi.starts = [n0]) (d : Desc) :
    ∀ (n : Nat) (R R' : Store P.F) (b rest : Bytes),
      At T n [] [] d → n ≤ m → m < n + d.count →
      readD P T lit n [] d (R, b) = .ok (R', rest) →
      ∃ (R1 : Store P.F) (c : Int), (∀ q k, q < n0 → R1 q k = R' q k) ∧
        evalShape P (look P T R1) e [] = .ok c ∧ ∀ i, i ∉ indices c → R' m [i] = R m [i] := by
  induction d with
  | nil => intro n _ _ _ _ _ h1 h2; simp only [Desc.count] at h2; omega
  | field fd r ih =>
    intro n R R' b rest hat h1 h2 h
    obtain ⟨hn, hat'⟩ := hat.field
    simp only [readD, hn] at h
    have hmn : m ≠ n := by
      rintro rfl
      rw [hn] at hm
      injection hm with hm
      subst hm
      cases hsh
    simp only [Desc.count] at h2
    cases hc : evalCond P (look P T R) ⟨fd, [], []⟩ [] with
    | error e => rw [hc] at h; cases h
    | ok bc =>
      rw [hc] at h
      cases bc with
      | false => exact ih _ R R' b rest hat' (by omega) (by omega) h
      | true =>
        simp only at h
        cases hrf : readField P (look P T R) lit R ⟨fd, [], []⟩ n [] b with
        | error e => rw [hrf] at h; cases h
        | ok s =>
          obtain ⟨R1, b1⟩ := s
          rw [hrf] at h
          obtain ⟨t, _, hsz, _, hcase⟩ := readField_consumes P hrf
          obtain ⟨S, c, g1, g2, g3⟩ := ih _ R1 R' b1 rest hat' (by omega) (by omega) h
          refine ⟨S, c, g1, g2, fun i hi => (g3 i hi).trans ?_⟩
          rcases hcase with ⟨_, e1⟩ | ⟨_, v, _, e1⟩
          · rw [e1]
          · rw [e1, Store.set, if_neg (by omega)]
  | loop e0 body r _ ihr =>
    intro n R R' b rest hat h1 h2 h
    obtain ⟨_, hatb, hatr⟩ := hat.loop
    simp only [readD] at h
    simp only [Desc.count] at h2
    cases hs : evalShape P (look P T R) e0 [] with
    | error x => rw [hs] at h; cases h
    | ok c =>
      rw [hs] at h
      simp only at h
      cases hfr : forRead (fun i s => readD P T lit n ([] ++ [i]) body s) (indices c) (R, b) with
      | error x => rw [hfr] at h; cases h
      | ok s =>
        obtain ⟨R1, b1⟩ := s
        rw [hfr] at h
        simp only at h
        have hkeep : ∀ (is : List Int) (R R1 : Store P.F) (b b1 : Bytes),
            forRead (fun i s => readD P T lit n ([] ++ [i]) body s) is (R, b) = .ok (R1, b1) →
            ∀ q k, ¬ (n ≤ q ∧ q < n + body.count ∧ ∃ i ∈ is, [i] <+: k) → R1 q k = R q k := by
          intro is
          induction is with
          | nil => intro R R1 b b1 h; simp only [forRead] at h; cases h; intros; rfl
          | cons i is ih =>
            intro R R1 b b1 h q k hq
            simp only [forRead] at h
            cases hi : readD P T lit n ([] ++ [i]) body (R, b) with
            | error x => rw [hi] at h; cases h
            | ok s =>
              obtain ⟨Ri, bi⟩ := s
              rw [hi] at h
              simp only at h
              obtain ⟨_, _, _, hf⟩ := readD_facts P hC lit body n ([] ++ [e0]) ([] ++ [n])
                ([] ++ [i]) R Ri b bi hatb (by simp) hi
              rw [ih _ _ _ _ h q k fun ⟨a1, a2, j, hj, hp⟩ => hq ⟨a1, a2, j, by simp [hj], hp⟩,
                hf.touch q k fun ⟨a1, a2, hp⟩ => hq ⟨a1, a2, i, by simp, hp⟩]
        by_cases hin : m < n + body.count
        · obtain ⟨fi', f1, f2, f3⟩ := hatb.inside h1 hin
          rw [hm] at f1
          injection f1 with f1
          subst f1
          rw [hst] at f2
          rw [hsh] at f3
          have hn : n = n0 := by
            obtain ⟨t, ht⟩ := f2
            injection ht
          have he : e0 = e := by
            obtain ⟨t, ht⟩ := f3
            injection ht
          subst hn he
          obtain ⟨_, _, _, hf⟩ := readD_facts P hC lit r _ [] [] [] R1 R' b1 rest hatr rfl h
          refine ⟨R, c, ?_, hs, ?_⟩
          · intro q k hq
            rw [hf.touch q k (by omega), hkeep _ _ _ _ _ hfr q k (by omega)]
          · intro i hi
            rw [hf.touch m [i] (by omega), hkeep _ _ _ _ _ hfr m [i]]
            rintro ⟨_, _, j, hj, t, ht⟩
            injection ht with ht
            exact hi (ht ▸ hj)
        · obtain ⟨S, c', g1, g2, g3⟩ := ihr _ R1 R' b1 rest hatr (by omega) (by omega) h
          refine ⟨S, c', g1, g2, fun i hi => (g3 i hi).trans ?_⟩
          exact hkeep _ _ _ _ _ hfr m [i] (by omega)

/-! ### The entries of a header that is read -/

def startsB (k : SegKind) (n : Nat) : Bool :=
  match Tables.t_file_header.tab[n]? with
  | none => false
  | some fi => fi.starts == [lenPos k] && fi.fd.default.isNone && !fi.fd.optional

theorem lenStarts (k : SegKind) : startsB k (lenPos k) = true ∧ startsB k (dataPos k) = true := by
  cases k <;> exact ⟨by decide +kernel, by decide +kernel⟩

/-- An entry that is not stored is 0. -/
theorem LenField.absent {k : SegKind} {nm : Name} {n : Nat} (h : LenField k nm n)
    (hd : startsB k n = true) {S : Store P.F}
    {c : Int} {raw : Option Bytes} (hc : S (numPos k) [] = some ⟨.val (.int c), raw⟩) {i : Int}
    (h0 : 0 ≤ i) (hi : i < c) (hS : S n [i] = none) :
    getAttr P Tables.t_file_header S nm [i] = .ok (.int 0) := by
  obtain ⟨fi, h1, h2, h3⟩ := h.at_
  obtain ⟨p1, p2, p3, p4, p5, p6⟩ := plainInt_spec h2
  unfold startsB at hd
  rw [h1] at hd
  simp only [Bool.and_eq_true, beq_iff_eq, Option.isNone_iff_eq_none, Bool.not_eq_true'] at hd
  obtain ⟨⟨_, d1⟩, d2⟩ := hd
  unfold getAttr
  rw [h.res]
  simp only
  rw [getItem_eq P _ h1]
  unfold getWith
  have hci : checkIndex P (look P Tables.t_file_header.tab S) fi [i] = .ok () := by
    unfold checkIndex
    rw [h3]
    simp only [List.getLast?_singleton, FInfo.depth, h3, List.length_singleton, ne_eq,
      not_true_eq_false, if_false, List.dropLast_singleton]
    rw [if_neg (by omega), (numField k).shape P hc]
    simp only
    rw [if_neg (by omega)]
  rw [lowGet_present P p1 hci (evalCond_none P p6 _ _) p2]
  unfold stored
  rw [hS]
  simp only [defaultVal, d1, d2, p5, Bool.false_eq_true, if_false, reduceCtorEq,
    finish_int P p5 0, p4]

/-- A header that was read has no entries beyond the counts. -/
theorem readHeader_absent {b rest : Bytes} {H : Store P.F}
    (h : readStruct P Tables.t_file_header false b = .ok (H, rest)) {k : SegKind} {z : Int}
    (hz : getAttr P Tables.t_file_header H k.numField [] = .ok (.int z)) {nm : Name} {n : Nat}
    (hf : LenField k nm n) (hd : startsB k n = true) {i : Nat} (hi : z.toNat ≤ i) :
    H n [(i : Int)] = none := by
  obtain ⟨fi, h1, h2, h3⟩ := hf.at_
  unfold startsB at hd
  rw [h1] at hd
  simp only [Bool.and_eq_true, beq_iff_eq] at hd
  unfold readStruct readInto at h
  obtain ⟨R1, c, g1, g2, g3⟩ := readD_loop P (Desc.causalTab t_file_header_causal) h1 h3 hd.1.1
    Tables.t_file_header 0 _ _ _ _ (at_top _ t_file_header_causal) (Nat.zero_le _)
    (by have := lt_of_getElem? h1; rw [Desc.tab, length_flatten] at this; omega) h
  rw [g3 i ?_]
  · rfl
  have hc : c = z := by
    obtain ⟨fn, m1, m2, m3⟩ := (numField k).at_
    obtain ⟨p1, p2, p3, p4, p5, p6⟩ := plainInt_spec m2
    have hsc : Scalar fn := ⟨p1, m3, p2, p3⟩
    unfold getAttr at hz
    rw [(numField k).res] at hz
    simp only at hz
    rw [hsc.get_plain P p4 m1 (evalCond_none P p6 _ _)] at hz
    unfold evalShape at g2
    simp only [evalE, idxKey, bind, Except.bind] at g2
    rw [hsc.look P (Desc.causalTab t_file_header_causal) (numField k).res m1,
      hsc.get_plain P p4 m1 (evalCond_none P p6 _ _)] at g2
    have : R1 (numPos k) [] = H (numPos k) [] := g1 _ _ (by simp [lenPos])
    unfold stored at g2 hz
    rw [this, hz] at g2
    injection g2 with g2
    exact g2.symm
  unfold indices
  subst hc
  simp only [List.mem_map, List.mem_range, not_exists, not_and]
  intro x hx hxi
  have : x = i := by injection hxi
  omega

/-! ### The entries of a segment that is not linked -/

theorem WriteRun.prepareFile {E : Env} {IO : DataIO P.F} {f f' : NFile P.F IO.D} {out : Bytes}
    (r : WriteRun P E IO f f' out) : prepareFile P IO f = .ok (r.h1, r.segs1) := by
  unfold Verif.prepareFile
  simp only [bind, Except.bind, pure, Except.pure, r.drop0, r.prepH, r.prepI, r.prepG, r.prepT,
    r.nums]
  refine congrArg Except.ok (Prod.ext rfl ?_)
  funext k
  cases k with
  | res => exact r.segsR.symm
  | _ => rfl

/-- The entries of a segment that is not linked to the file are not changed by writing. -/
theorem WriteRun.unlinked {E : Env} {IO : DataIO P.F} {f f' : NFile P.F IO.D} {out : Bytes}
    (hw : writeFile P E IO f = .ok (f', out)) (r : WriteRun P E IO f f' out) {k : SegKind} {i : Nat}
    {s : Seg P.F IO.D} (hs : (r.segs1 k)[i]? = some s) (hl : s.linked = false) {q : Nat}
    (hq : q = lenPos k ∨ q = dataPos k) : f'.header q [(i : Int)] = f.header q [(i : Int)] := by
  rw [writeFile_frame hw (r.prepareFile P) (q := q) (key := [(i : Int)]) ?_]
  · rw [nums_ok P r.nums]
    have : ∀ (S : Store P.F) m c, (S.set m [] c) q [(i : Int)] = S q [(i : Int)] := by
      intro S m c
      simp [Store.set]
    simp only [this]
    exact prepareHeader_frame t_file_header_causal fileAreas_rows r.prepH
      (fun a mn _ h => by cases h.2)
  · rintro (⟨_, h⟩ | ⟨_, h⟩ | ⟨k', j, s', h1, h2, h3, h4⟩)
    · cases h
    · cases h
    · have hk : k' = k := by
        rcases hq with rfl | rfl <;> rcases h3 with h3 | h3 <;>
          revert h3 <;> cases k <;> cases k' <;> decide
      subst hk
      injection h4 with h4
      have : i = j := by omega
      subst this
      rw [hs] at h1
      injection h1 with h1
      rw [← h1, hl] at h2
      cases h2

/-! ### C29 -/

/-- Segments appended, in this order, to the lists of a file that was read. -/
def NFile.appendAll {F D : Type} (g : NFile F D) (l : List (SegKind × Seg F D)) : NFile F D :=
  l.foldl (fun f x => f.append true x.1 x.2) g

theorem append_segs {F D : Type} (g : NFile F D) (k k' : SegKind) (s : Seg F D) :
    (g.append true k s).segs k' =
      g.segs k' ++ if k = k' then [{ s with linked := false }] else [] := by
  cases k <;> cases k' <;> simp [NFile.append, NFile.segs]

theorem appendAll_segs {F D : Type} (l : List (SegKind × Seg F D)) (k : SegKind) :
    ∀ g : NFile F D, (g.appendAll l).header = g.header ∧ (g.appendAll l).segs k =
      g.segs k ++ (l.filter (·.1 = k)).map fun x => { x.2 with linked := false } := by
  induction l with
  | nil => intro g; simp [NFile.appendAll]
  | cons x l ih =>
    intro g
    obtain ⟨a, b⟩ := ih (g.append true x.1 x.2)
    refine ⟨a.trans (by cases x.1 <;> rfl), ?_⟩
    show ((g.append true x.1 x.2).appendAll l).segs k = _
    rw [b, append_segs]
    by_cases h : x.1 = k <;> simp [h]

/-- A subheader has at least the two bytes it starts with. -/
theorem subheader_nonempty {k : SegKind} {S : Store P.F} {b : Bytes}
    (h : writeStruct P k.desc S = .ok b) : 2 ≤ b.length := by
  obtain ⟨cs, h1, rfl⟩ := writeStruct_chunks P h
  have key : ∀ (fd : FieldDef) (r : Desc), k.desc = .field fd r → fd.cond = none →
      fd.size = .const 2 → fd.sizeOffset = 0 → 2 ≤ (chunkBytes cs).length := by
    intro fd r hd hc hs ho
    unfold writeChunks at h1
    have hat := at_top _ (subheader_causal k)
    rw [hd] at h1 hat
    obtain ⟨hn, _⟩ := hat.field
    simp only [writeD, hn, evalCond_none P (fi := ⟨fd, [], []⟩) hc] at h1
    split at h1
    · cases h1
    · rename_i b hb
      have := fieldBytes_length P hb
      unfold evalSize at this
      simp only [hs, ho] at this
      split at h1
      · cases h1
      · injection h1 with h1
        subst h1
        simp only [chunkBytes, List.map_cons, List.flatten_cons, List.length_append]
        injection this with this
        simp at this
        omega
  cases k with
  | _ => exact key _ _ rfl rfl rfl rfl

/-- C29 is false for every file that is read: whatever is appended to its segment lists, if the
file can be written then the header of the file written counts every appended segment and says
that its subheader and its data have no bytes, though the subheader written has some.  The segments
the file was read with are described.  (For DES segments, if none of the list is an overflow
segment; these are taken out and added again by writing.) -/
theorem C29_appended {E : Env} {IO : DataIO P.F} {b : Bytes} {g : NFile P.F IO.D}
    (hr : readFile P E IO b = .ok g) (l : List (SegKind × Seg P.F IO.D)) {f' : NFile P.F IO.D}
    {out : Bytes} (h : writeFile P E IO (g.appendAll l) = .ok (f', out)) :
    ∃ R parts, readStruct P Tables.t_file_header false out = .ok (R, partsBytes parts) ∧
      ∀ k, (k = .des → dropOverflow P IO (g.appendAll l).des = .ok (g.appendAll l).des) →
        (k ≠ .des → Each (WrittenAs P IO k) (f'.segs k) (parts k)) ∧
        getAttr P Tables.t_file_header R k.numField [] = .ok (.int ((parts k).length : Nat)) ∧
        (g.segs k).length + (l.filter (·.1 = k)).length ≤ (parts k).length ∧
        (k ≠ .des → (parts k).length = (g.segs k).length + (l.filter (·.1 = k)).length) ∧
        ∀ (i : Nat) p, (parts k)[i]? = some p →
          (i < (g.segs k).length →
            getAttr P Tables.t_file_header R k.lenFields.1 [(i : Int)] =
              .ok (.int (p.1.length : Nat)) ∧
            getAttr P Tables.t_file_header R k.lenFields.2 [(i : Int)] =
              .ok (.int (p.2.length : Nat))) ∧
          ((g.segs k).length ≤ i → i < (g.segs k).length + (l.filter (·.1 = k)).length →
            2 ≤ p.1.length ∧
            getAttr P Tables.t_file_header R k.lenFields.1 [(i : Int)] = .ok (.int 0) ∧
            getAttr P Tables.t_file_header R k.lenFields.2 [(i : Int)] = .ok (.int 0)) := by
  obtain ⟨r⟩ := writeFile_run P E IO h
  obtain ⟨b0, rest0, hH⟩ := (readFile_all E IO hr).header
  have hlit : NoLit (g.appendAll l).header := by
    rw [(appendAll_segs l .image g).1]
    exact (readStruct_parsed hH).noLit
  obtain ⟨R, r1, r2, r3⟩ := r.readHeader P E IO hlit
  refine ⟨R, fun k => (r.res k).map (·.2), r1, fun k hk => ?_⟩
  have hsame : ∀ {nm n key}, resolve Tables.t_file_header.tab nm = some n →
      Reach P Tables.t_file_header.tab f'.header n key →
      getAttr P Tables.t_file_header R nm key =
        getAttr P Tables.t_file_header f'.header nm key := by
    intro nm n key hr hre
    unfold getAttr
    rw [hr]
    exact r3 n key hre
  have hc := r.count P E IO k
  have hseg := (appendAll_segs l k g).2
  have hpre : ∃ ov, Each (fun s s' => s'.linked = s.linked) ((g.appendAll l).segs k ++ ov)
      (r.segs1 k) ∧ (k ≠ .des → ov = []) := by
    by_cases hd : k = .des
    · subst hd
      obtain ⟨⟨ov, h1, _⟩, _⟩ := r.desList
      have h2 := r.drop0
      rw [hk rfl] at h2
      injection h2 with h2
      rw [← h2] at h1
      have h3 : Each (fun s s' : Seg P.F IO.D => s'.linked = s.linked)
          ((g.appendAll l).segs .des ++ ov) ((g.appendAll l).segs .des ++ ov) :=
        Each.refl (R := fun s s' : Seg P.F IO.D => s'.linked = s.linked) (fun _ => rfl) _
      exact ⟨ov, by rw [h1]; exact h3, fun h => absurd rfl h⟩
    · exact ⟨[], by rw [List.append_nil]; exact (r.prepared P E IO hd).imp fun _ _ _ h => h.linked,
        fun _ => rfl⟩
  obtain ⟨ov, hpre, hov⟩ := hpre
  have hlen := hpre.length
  rw [(r.each k).length, hseg] at hlen
  simp only [List.length_append, List.length_map] at hlen
  refine ⟨?_, ?_, ?_, ?_, ?_⟩
  · intro hd
    rw [r.after k hd]
    exact r.writtenAs P E IO k
  · obtain ⟨fi, h1, _, h3⟩ := (numField k).at_
    rw [hsame (numField k).res (scalar_reach P h1 h3 _), List.length_map]
    exact (numField k).get P hc
  · rw [List.length_map]; omega
  · intro hd
    rw [hov hd, List.length_nil] at hlen
    rw [List.length_map]; omega
  intro i p hp
  rw [List.getElem?_map, Option.map_eq_some_iff] at hp
  obtain ⟨x, hx, rfl⟩ := hp
  have hlt := lt_of_getElem? hx
  have hlt' : i < (r.segs1 k).length := by rw [(r.each k).length]; exact hlt
  have hi : (i : Int) < ((r.res k).length : Nat) := by omega
  rw [hsame (lenField k).res ((lenField k).reach P hc (by omega) hi),
    hsame (dataField k).res ((dataField k).reach P hc (by omega) hi)]
  have hs1 := List.getElem?_eq_getElem hlt'
  constructor
  · intro hold
    have hgi := List.getElem?_eq_getElem hold
    have hl := hpre.get i (g.segs k)[i] _ (by
      rw [hseg, List.getElem?_append_left (by simp; omega), List.getElem?_append_left hold, hgi]) hs1
    rw [C29_read_file_partial P E IO hr k _ (List.getElem_mem hold)] at hl
    have hl := r.lens k i _ x hs1 hx hl
    exact ⟨(lenField k).get P hc (by omega) hi hl.1, (dataField k).get P hc (by omega) hi hl.2⟩
  · intro hge hlt2
    have hj : i - (g.segs k).length < (l.filter (·.1 = k)).length := by omega
    have hl := hpre.get i _ _ (by
      rw [hseg, List.getElem?_append_left (by simp; omega), List.getElem?_append_right hge,
        List.getElem?_map, List.getElem?_eq_getElem hj, Option.map_some]) hs1
    simp only at hl
    obtain ⟨_, _, hz⟩ := Summary.readFile_each (Q := fun _ => True) (fun _ => trivial) hr
    obtain ⟨z, hz, hzl⟩ := hz k
    have habs : ∀ {nm n}, LenField k nm n → startsB k n = true → n = lenPos k ∨ n = dataPos k →
        f'.header n [(i : Int)] = none := by
      intro nm n hf hd hq
      rw [r.unlinked P h hs1 hl hq, (appendAll_segs l k g).1]
      exact readHeader_absent P hH hz hf hd (by omega)
    refine ⟨?_, (lenField k).absent P (lenStarts k).1 hc (by omega) hi
      (habs (lenField k) (lenStarts k).1 (Or.inl rfl)), (dataField k).absent P (lenStarts k).2 hc
      (by omega) hi (habs (dataField k) (lenStarts k).2 (Or.inr rfl))⟩
    obtain ⟨sub, _, _, h3, _⟩ := segBytes_ok P E IO ((r.each k).get i _ _ hs1 hx)
    exact subheader_nonempty P h3

/-- The case of `exFile`, read and with a text and a DES segment appended: it can be written, and
no DES segment is an overflow segment. -/
example : (match (do
      let (_, out) ← writeFile P0 exEnv exIO exFile
      let g ← readFile P0 exEnv exIO out
      let f := g.appendAll [(.text, exNew), (.des, exNew)]
      let ds ← dropOverflow P0 exIO f.des
      let _ ← writeFile P0 exEnv exIO f
      return (f.text.length, f.des.length, ds.length) : Except Err (Nat × Nat × Nat)) with
    | .ok x => x
    | .error _ => (0, 0, 0)) = (2, 2, 2) := by
  decide +kernel

end Verif
