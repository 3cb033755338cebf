import Verif.File
import Verif.TreRound

/- Writing a file: the header updates, the segments. -/

namespace Verif

variable (P : PyFloat)

theorem bind_ok {α β : Type} {x : Except Err α} {f : α → Except Err β} {b : β} :
    (x >>= f) = .ok b ↔ ∃ a, x = .ok a ∧ f a = .ok b := by
  cases x with
  | error e => simp [bind, Except.bind]
  | ok a => simp [bind, Except.bind]

theorem locOf_some {n : Nat} {key : Key} {cs : List Chunk} :
    ∀ {off o : Nat}, locOf n key off cs = some o → ∃ ch ∈ cs, ch.pos = n ∧ ch.key = key := by
  induction cs with
  | nil => intro off o h; simp [locOf] at h
  | cons c cs ih =>
    intro off o h
    unfold locOf at h
    cases hl : locOf n key (off + c.bytes.length) cs with
    | some o' =>
      obtain ⟨ch, h1, h2⟩ := ih hl
      exact ⟨ch, by simp [h1], h2⟩
    | none =>
      rw [hl] at h
      simp only at h
      split at h
      · rename_i hc; exact ⟨c, by simp, hc⟩
      · cases h

theorem locOf_slots {n : Nat} {key : Key} : ∀ {cs cs' : List Chunk} (off : Nat),
    cs.map Chunk.slot = cs'.map Chunk.slot → locOf n key off cs = locOf n key off cs'
  | [], [], _, _ => rfl
  | [], _ :: _, _, h => by simp at h
  | _ :: _, [], _, h => by simp at h
  | c :: cs, c' :: cs', off, h => by
    simp only [List.map_cons, List.cons.injEq] at h
    obtain ⟨h1, h2⟩ := h
    have e1 : c.pos = c'.pos := congrArg Slot.pos h1
    have e2 : c.key = c'.key := congrArg Slot.key h1
    have e3 : c.bytes.length = c'.bytes.length := by
      have := congrArg Slot.size h1
      simp only [Chunk.slot] at this
      omega
    unfold locOf
    rw [e3, locOf_slots _ h2, e1, e2]

/-- What is known between two updates: the file is the header as it is now, followed by `post`;
the layout of the header has not changed since it was first written as `cs0`. -/
structure HdrInv (cs0 : List Chunk) (H : Store P.F) (out post : Bytes) : Prop where
  written : ∃ cs, writeChunks P Tables.t_file_header H = .ok cs ∧
    cs.map Chunk.slot = cs0.map Chunk.slot ∧ out = chunkBytes cs ++ post

theorem HdrInv.append {cs0 : List Chunk} {H : Store P.F} {out post : Bytes}
    (h : HdrInv P cs0 H out post) (b : Bytes) : HdrInv P cs0 H (out ++ b) (post ++ b) := by
  obtain ⟨cs, h1, h2, h3⟩ := h.written
  exact ⟨cs, h1, h2, by rw [h3, List.append_assoc]⟩

/-- One header update that succeeds. -/
theorem updateHeader_ok {cs0 : List Chunk} {nm : Name} {n : Nat} {fi : FInfo} {key : Key} {v : Nat}
    (hr : resolve Tables.t_file_header.tab nm = some n)
    (hn : Tables.t_file_header.tab[n]? = some fi) (hk : fi.fd.kind = .plain)
    (hu : Tables.t_file_header.unreferenced n = true) {H H' : Store P.F} {out out' post : Bytes}
    (hI : HdrInv P cs0 H out post) (h : updateHeader P cs0 nm key v (H, out) = .ok (H', out')) :
    H' = H.set n key ⟨.val (.int v), none⟩ ∧ HdrInv P cs0 H' out' post := by
  obtain ⟨cs, hw, hsl, hout⟩ := hI.written
  unfold updateHeader at h
  simp only [hr] at h
  cases hset : setItem P Tables.t_file_header.tab H n key (.int v) with
  | mk S' e =>
  cases e with
  | some e =>
    unfold updateField at h
    simp only [hset] at h
    cases h
  | none =>
    have hpres : ∃ ch ∈ cs, ch.pos = n ∧ ch.key = key := by
      cases hl : locOf n key 0 cs0 with
      | some o => rw [← locOf_slots 0 hsl] at hl; exact locOf_some hl
      | none =>
        exfalso
        unfold updateField at h
        simp only [hset, hn, hl] at h
        cases hc : evalCond P (look P Tables.t_file_header.tab S') fi key with
        | error e => simp only [hc] at h; cases h
        | ok b => cases b <;> simp only [hc] at h <;> cases h
    have hloc : updateField P Tables.t_file_header cs0 0 H ⟨out, out.length⟩ n key (.int v) =
        updateField P Tables.t_file_header cs 0 H ⟨out, out.length⟩ n key (.int v) := by
      unfold updateField
      rw [locOf_slots 0 hsl]
    obtain ⟨u1, u2⟩ := update_rewrite P hn (Or.inl hk) hu hw hpres hset [] post out.length
    simp only [List.length_nil, List.nil_append, ← hout] at u1 u2
    rw [hloc] at h
    obtain ⟨v', hv', hS'⟩ := setItem_store P hn (Or.inl hk) hset
    have hvv : v' = .int v := by
      unfold setCheck at hv'
      simp only [hn, hk, packKind] at hv'
      repeat' split at hv'
      all_goals first | (cases hv'; done) | (cases hv'; rfl)
    subst hvv
    cases hb : fieldBytes P (look P Tables.t_file_header.tab S') S' fi n key with
    | error e => simp only [u2 e hb] at h; cases h
    | ok b =>
      obtain ⟨cs', w1, w2, w3⟩ := u1 b hb
      simp only [w3] at h
      injection h with h
      injection h with h1 h2
      subst h1 h2
      refine ⟨hS', cs', w1, ?_, rfl⟩
      rw [← hsl]
      have l1 := writeD_layout P H _ 0 [] cs hw
      have l2 := writeD_layout P S' _ 0 [] cs' w1
      have honly : OnlyField n H S' := by
        intro m k hmn
        rw [hS']; unfold Store.set
        rw [if_neg (by rintro ⟨h, _⟩; exact hmn h)]
      rw [layoutD_unref P hu honly _ 0 [] fun _ h => h, l1] at l2
      injection l2 with l2
      exact l2.symm

/-! ### Positions in the file header -/

/-- Position of the count of a kind of segments in the file header. -/
def numPos : SegKind → Nat
  | .image => 31 | .graphic => 34 | .text => 38 | .des => 41 | .res => 44

/-- Positions of the subheader and data lengths. -/
def lenPos (k : SegKind) : Nat := numPos k + 1
def dataPos (k : SegKind) : Nat := numPos k + 2

def flPos : Nat := 29
def hlPos : Nat := 30

theorem t_file_header_causal : Tables.t_file_header.causal = true := by decide +kernel
theorem t_file_header_wf : Tables.t_file_header.allFields FieldDef.wf = true := by decide +kernel
theorem t_file_header_survives :
    Tables.t_file_header.allFields FieldDef.alwaysSurvives = true := by decide +kernel

theorem subheader_causal (k : SegKind) : k.desc.causal = true := by cases k <;> decide +kernel
theorem subheader_wf (k : SegKind) : k.desc.allFields FieldDef.wf = true := by
  cases k <;> decide +kernel
theorem subheader_survives (k : SegKind) : k.desc.allFields FieldDef.alwaysSurvives = true := by
  cases k <;> decide +kernel

/-- A plain, always present integer field. -/
def plainInt (f : FInfo) : Bool :=
  f.fd.name.isSome && f.fd.value.isNone && !f.fd.hardcoded && f.fd.kind == .plain &&
  f.fd.ty == .int && f.fd.cond.isNone

/-- Facts about a length field of the header. -/
structure LenField (k : SegKind) (nm : Name) (n : Nat) : Prop where
  res : resolve Tables.t_file_header.tab nm = some n
  at_ : ∃ fi, Tables.t_file_header.tab[n]? = some fi ∧ plainInt fi = true ∧
    fi.shapes = [.ref k.numField []]
  unref : Tables.t_file_header.unreferenced n = true

structure ScalarField (nm : Name) (n : Nat) : Prop where
  res : resolve Tables.t_file_header.tab nm = some n
  at_ : ∃ fi, Tables.t_file_header.tab[n]? = some fi ∧ plainInt fi = true ∧ fi.shapes = []

def atB (n : Nat) (sh : List Expr) : Bool :=
  match Tables.t_file_header.tab[n]? with
  | none => false
  | some fi => plainInt fi && fi.shapes == sh

theorem atB_spec {n : Nat} {sh : List Expr} (h : atB n sh = true) :
    ∃ fi, Tables.t_file_header.tab[n]? = some fi ∧ plainInt fi = true ∧ fi.shapes = sh := by
  unfold atB at h
  cases hf : Tables.t_file_header.tab[n]? with
  | none => rw [hf] at h; cases h
  | some fi =>
    rw [hf] at h
    simp only [Bool.and_eq_true, beq_iff_eq] at h
    exact ⟨fi, rfl, h⟩

theorem lenField (k : SegKind) : LenField k k.lenFields.1 (lenPos k) := by
  refine ⟨?_, atB_spec ?_, ?_⟩ <;> cases k <;> decide +kernel

theorem dataField (k : SegKind) : LenField k k.lenFields.2 (dataPos k) := by
  refine ⟨?_, atB_spec ?_, ?_⟩ <;> cases k <;> decide +kernel

theorem numField (k : SegKind) : ScalarField k.numField (numPos k) := by
  refine ⟨?_, atB_spec ?_⟩ <;> cases k <;> decide +kernel

theorem flField : ScalarField (n!"fl") flPos := by
  refine ⟨?_, atB_spec ?_⟩ <;> decide +kernel

theorem hlField : ScalarField (n!"hl") hlPos := by
  refine ⟨?_, atB_spec ?_⟩ <;> decide +kernel

theorem fl_unref : Tables.t_file_header.unreferenced flPos = true := by decide +kernel
theorem hl_unref : Tables.t_file_header.unreferenced hlPos = true := by decide +kernel

theorem plainInt_spec {f : FInfo} (h : plainInt f = true) : f.fd.name ≠ none ∧ f.fd.value = none ∧
    f.fd.hardcoded = false ∧ f.fd.kind = .plain ∧ f.fd.ty = .int ∧ f.fd.cond = none := by
  unfold plainInt at h
  simp only [Bool.and_eq_true, beq_iff_eq, Option.isNone_iff_eq_none, Bool.not_eq_true'] at h
  obtain ⟨⟨⟨⟨⟨a1, a2⟩, a3⟩, a4⟩, a5⟩, a6⟩ := h
  refine ⟨?_, a2, a3, a4, a5, a6⟩
  intro hh; rw [hh] at a1; cases a1

/-- Value of a scalar integer. -/
theorem ScalarField.get {nm : Name} {n : Nat} (h : ScalarField nm n) {S : Store P.F} {z : Int}
    {raw : Option Bytes} (hS : S n [] = some ⟨.val (.int z), raw⟩) :
    getAttr P Tables.t_file_header S nm [] = .ok (.int z) := by
  obtain ⟨fi, h1, h2, h3⟩ := h.at_
  obtain ⟨p1, p2, p3, p4, p5, p6⟩ := plainInt_spec h2
  unfold getAttr
  rw [h.res]
  simp only
  rw [Scalar.get_plain P ⟨p1, h3, p2, p3⟩ p4 h1 (evalCond_none P p6 _ _)]
  unfold stored
  rw [hS]
  exact finish_int P p5 z

/-- A count seen from the loops. -/
theorem ScalarField.shape {nm : Name} {n : Nat} (h : ScalarField nm n) {S : Store P.F} {z : Int}
    {raw : Option Bytes} (hS : S n [] = some ⟨.val (.int z), raw⟩) (key : Key) :
    evalShape P (look P Tables.t_file_header.tab S) (.ref nm []) key = .ok z := by
  obtain ⟨fi, h1, h2, h3⟩ := h.at_
  obtain ⟨p1, p2, p3, p4, p5, p6⟩ := plainInt_spec h2
  have hsc : Scalar fi := ⟨p1, h3, p2, p3⟩
  have hg := h.get P hS
  unfold getAttr at hg
  rw [h.res] at hg
  simp only at hg
  unfold evalShape
  simp only [evalE, idxKey, bind, Except.bind]
  rw [hsc.look P (Desc.causalTab t_file_header_causal) h.res h1, hg]

/-- An entry of a length field. -/
theorem LenField.get {k : SegKind} {nm : Name} {n : Nat} (h : LenField k nm n) {S : Store P.F}
    {c : Int} {raw : Option Bytes} (hc : S (numPos k) [] = some ⟨.val (.int c), raw⟩) {i z : Int}
    {raw' : Option Bytes} (h0 : 0 ≤ i) (hi : i < c) (hS : S n [i] = some ⟨.val (.int z), raw'⟩) :
    getAttr P Tables.t_file_header S nm [i] = .ok (.int z) := by
  obtain ⟨fi, h1, h2, h3⟩ := h.at_
  obtain ⟨p1, p2, p3, p4, p5, p6⟩ := plainInt_spec h2
  unfold getAttr
  rw [h.res]
  simp only
  rw [getItem_eq P _ h1]
  unfold getWith
  have hci : checkIndex P (look P Tables.t_file_header.tab S) fi [i] = .ok () := by
    unfold checkIndex
    rw [h3]
    simp only [List.getLast?_singleton, FInfo.depth, h3, List.length_singleton, ne_eq,
      not_true_eq_false, if_false, List.dropLast_singleton]
    rw [if_neg (by omega), (numField k).shape P hc]
    simp only
    rw [if_neg (by omega)]
  rw [lowGet_present P p1 hci (evalCond_none P p6 _ _) p2]
  unfold stored
  rw [hS]
  simp only [finish_int P p5 z, p4]

theorem LenField.reach {k : SegKind} {nm : Name} {n : Nat} (h : LenField k nm n) {S : Store P.F}
    {c : Int} {raw : Option Bytes} (hc : S (numPos k) [] = some ⟨.val (.int c), raw⟩) {i : Int}
    (h0 : 0 ≤ i) (hi : i < c) : Reach P Tables.t_file_header.tab S n [i] := by
  obtain ⟨fi, h1, h2, h3⟩ := h.at_
  refine ⟨fi, h1, by simp [FInfo.depth, h3], ?_⟩
  intro j e x he hx
  rw [h3] at he
  cases j with
  | succ j => simp at he
  | zero =>
    simp only [List.getElem?_cons_zero, Option.some.injEq] at he hx
    subst he hx
    exact ⟨h0, c, (numField k).shape P hc _, hi⟩

theorem scalar_reach {d : Desc} {n : Nat} {fi : FInfo} (h1 : d.tab[n]? = some fi)
    (h3 : fi.shapes = []) (S : Store P.F) : Reach P d.tab S n [] := by
  refine ⟨fi, h1, by simp [FInfo.depth, h3], ?_⟩
  intro j e x he hx
  simp at hx

/-! ### Segments -/

variable (E : Env) (IO : DataIO P.F)

/-- `writeSegs` that succeeds: every segment gives its bytes, the file grows by them, the length
fields of the linked segments are set, nothing else changes. -/
theorem writeSegs_ok {cs0 : List Chunk} {k : SegKind} :
    ∀ {ss : List (Seg P.F IO.D)} {i : Nat} {H H' : Store P.F} {out out' post : Bytes}
      {ss' : List (Seg P.F IO.D)}, HdrInv P cs0 H out post →
      writeSegs P E IO cs0 k i ss (H, out) = .ok (ss', H', out') →
      ∃ rs : List (Seg P.F IO.D × Bytes × Bytes),
        Each (fun s r => segBytes P E IO k s = .ok r) ss rs ∧ ss' = rs.map (·.1) ∧
        HdrInv P cs0 H' out' (post ++ rs.flatMap fun r => r.2.1 ++ r.2.2) ∧
        (∀ (j : Nat) s r, ss[j]? = some s → rs[j]? = some r → s.linked = true →
          H' (lenPos k) [((i + j : Nat) : Int)] = some ⟨.val (.int (r.2.1.length : Nat)), none⟩ ∧
          H' (dataPos k) [((i + j : Nat) : Int)] = some ⟨.val (.int (r.2.2.length : Nat)), none⟩) ∧
        ∀ q key, (q ≠ lenPos k ∧ q ≠ dataPos k) ∨ (∀ j : Nat, i ≤ j → key ≠ [(j : Int)]) →
          H' q key = H q key := by
  intro ss
  induction ss with
  | nil =>
    intro i H H' out out' post ss' hI h
    unfold writeSegs at h
    injection h with h
    injection h with h1 h2
    injection h2 with h2 h3
    subst h1 h2 h3
    exact ⟨[], .nil, rfl, by simpa using hI, by simp, fun _ _ _ => rfl⟩
  | cons s ss ih =>
    intro i H H' out out' post ss' hI h
    unfold writeSegs at h
    cases hb : segBytes P E IO k s with
    | error e => simp only [hb] at h; cases h
    | ok r =>
      obtain ⟨s', sb, db⟩ := r
      simp only [hb] at h
      have hI1 := hI.append P (sb ++ db)
      cases hul : updateLengths P cs0 k i s.linked sb.length db.length (H, out ++ (sb ++ db)) with
      | error e => simp only [hul] at h; cases h
      | ok st =>
        obtain ⟨H2, out2⟩ := st
        simp only [hul] at h
        -- the updates
        have hstep : HdrInv P cs0 H2 out2 (post ++ (sb ++ db)) ∧
            (s.linked = true →
              H2 (lenPos k) [(i : Int)] = some ⟨.val (.int (sb.length : Nat)), none⟩ ∧
              H2 (dataPos k) [(i : Int)] = some ⟨.val (.int (db.length : Nat)), none⟩) ∧
            ∀ q key, (q ≠ lenPos k ∧ q ≠ dataPos k) ∨ key ≠ [(i : Int)] → H2 q key = H q key := by
          unfold updateLengths at hul
          by_cases hl : s.linked = true
          · simp only [hl, if_true] at hul
            cases hu1 : updateHeader P cs0 k.lenFields.1 [(i : Int)] sb.length
                (H, out ++ (sb ++ db)) with
            | error e => simp only [hu1] at hul; cases hul
            | ok st1 =>
              obtain ⟨H1, out1⟩ := st1
              simp only [hu1] at hul
              obtain ⟨f1, a1, a2, _⟩ := (lenField k).at_
              obtain ⟨f2, b1, b2, _⟩ := (dataField k).at_
              obtain ⟨e1, I1⟩ := updateHeader_ok P (lenField k).res a1 (plainInt_spec a2).2.2.2.1
                (lenField k).unref hI1 hu1
              obtain ⟨e2, I2⟩ := updateHeader_ok P (dataField k).res b1 (plainInt_spec b2).2.2.2.1
                (dataField k).unref I1 hul
              have hne : lenPos k ≠ dataPos k := by unfold lenPos dataPos; omega
              refine ⟨I2, fun _ => ⟨?_, ?_⟩, ?_⟩
              · rw [e2, e1]; unfold Store.set
                rw [if_neg (by rintro ⟨h, _⟩; exact hne h), if_pos ⟨rfl, rfl⟩]
              · rw [e2]; unfold Store.set
                rw [if_pos ⟨rfl, rfl⟩]
              · intro q key hq
                rw [e2, e1]; unfold Store.set
                rw [if_neg, if_neg]
                · rintro ⟨h1, h2⟩
                  rcases hq with hq | hq
                  · exact hq.1 h1
                  · exact hq h2
                · rintro ⟨h1, h2⟩
                  rcases hq with hq | hq
                  · exact hq.2 h1
                  · exact hq h2
          · simp only [hl] at hul
            injection hul with hul
            injection hul with h1 h2
            subst h1 h2
            exact ⟨hI1, fun h => absurd h hl, fun _ _ _ => rfl⟩
        obtain ⟨I2, st1, st2⟩ := hstep
        cases hrec : writeSegs P E IO cs0 k (i + 1) ss (H2, out2) with
        | error e => simp only [hrec] at h; cases h
        | ok r =>
          obtain ⟨ss2, H3, out3⟩ := r
          simp only [hrec] at h
          injection h with h
          injection h with h1 h2
          injection h2 with h2 h3
          subst h1 h2 h3
          obtain ⟨rs, r1, r2, r3, r4, r5⟩ := ih I2 hrec
          refine ⟨(s', sb, db) :: rs, .cons hb r1, by simp [r2], ?_, ?_, ?_⟩
          · rw [List.flatMap_cons, ← List.append_assoc]
            exact r3
          · intro j s0 r0 hs0 hr0 hl
            cases j with
            | zero =>
              simp only [List.getElem?_cons_zero, Option.some.injEq] at hs0 hr0
              subst hs0 hr0
              have hnot : ∀ j : Nat, i + 1 ≤ j → [((i : Nat) : Int)] ≠ [(j : Int)] := by
                intro j hj he
                simp only [List.cons.injEq, and_true] at he
                omega
              rw [Nat.add_zero, r5 _ _ (Or.inr hnot), r5 _ _ (Or.inr hnot)]
              exact st1 hl
            | succ j =>
              simp only [List.getElem?_cons_succ] at hs0 hr0
              have := r4 j s0 r0 hs0 hr0 hl
              rwa [show i + 1 + j = i + (j + 1) by omega] at this
          · intro q key hq
            rw [r5 q key, st2 q key]
            · rcases hq with hq | hq
              · exact Or.inl hq
              · exact Or.inr (hq i (Nat.le_refl _))
            · rcases hq with hq | hq
              · exact Or.inl hq
              · exact Or.inr fun j hj => hq j (by omega)

end Verif
