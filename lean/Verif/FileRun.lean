import Verif.FileLemmas

/- What a successful `NitfFile.write` did, step by step. -/

namespace Verif

variable (P : PyFloat)

/-- The struct holds values only, no `NitfLiteral`. -/
def NoLit {F : Type} (S : Store F) : Prop := ∀ n k c, S n k = some c → ∃ v, c.val = .val v

theorem NoLit.stored {F : Type} {S : Store F} (h : NoLit S) (fd : FieldDef) (n : Nat) (key : Key) :
    ∃ v, Verif.stored S fd n key = .val v := by
  unfold Verif.stored
  cases hS : S n key with
  | none => exact ⟨_, rfl⟩
  | some c => exact h _ _ c hS

theorem NoLit.empty {F : Type} : NoLit (Store.empty : Store F) := by
  intro n k c h; cases h

theorem NoLit.set {F : Type} {S : Store F} (h : NoLit S) (n : Nat) (key : Key) (v : Val F)
    (raw : Option Bytes) : NoLit (S.set n key ⟨.val v, raw⟩) := by
  intro m k c hc
  unfold Store.set at hc
  split at hc
  · injection hc with hc; subst hc; exact ⟨v, rfl⟩
  · exact h m k c hc

theorem setF_noLit {T : Tab} : ∀ (fuel : Nat) {S : Store P.F} (n : Nat) (key : Key) (v : Val P.F),
    NoLit S → NoLit (setF P T fuel S n key v).1 := by
  intro fuel
  induction fuel with
  | zero => intro S n key v h; exact h
  | succ fuel ih =>
    intro S n key v h
    unfold setF
    split
    · exact h
    · rename_i fi v' _
      have h' := h.set n key v' none
      simp only
      repeat' split
      all_goals first | exact h' | exact ih _ _ _ h'

theorem setItem_noLit {T : Tab} {S : Store P.F} (h : NoLit S) (n : Nat) (key : Key) (v : Val P.F) :
    NoLit (setItem P T S n key v).1 := setF_noLit P _ n key v h

theorem setA_noLit {d : Desc} {S S' : Store P.F} (h : NoLit S) {nm : Name} {v : Val P.F}
    (hs : setA P d S nm v = .ok S') : NoLit S' := by
  unfold setA at hs
  have : NoLit (setAttr P d S nm [] v).1 := by
    unfold setAttr
    split
    · exact h
    · exact setItem_noLit P h _ _ _
  split at hs
  · rename_i heq
    injection hs with hs
    subst hs
    rw [heq] at this
    exact this
  · cases hs

theorem setAll_noLit {d : Desc} : ∀ {l : List (Name × Val P.F)} {S S' : Store P.F}, NoLit S →
    setAll P d l S = .ok S' → NoLit S'
  | [], S, S', h, hs => by unfold setAll at hs; injection hs with hs; subst hs; exact h
  | (nm, v) :: l, S, S', h, hs => by
    unfold setAll at hs
    split at hs
    · cases hs
    · rename_i S1 h1
      exact setAll_noLit (setA_noLit P h h1) hs

theorem setSecLoop_noLit {d : Desc} {s : Sec P.F} : ∀ {l : List (Name × Nat)} {S : Store P.F},
    NoLit S → NoLit (setSecLoop P d s l S).1
  | [], S, h => h
  | (nm, a) :: l, S, h => by
    unfold setSecLoop
    split
    · exact setSecLoop_noLit h
    · rename_i n _
      split
      · exact h
      · have := setItem_noLit P h n [] (s a) (T := d.tab)
        split
        · rename_i heq; rw [heq] at this; exact this
        · rename_i heq; rw [heq] at this; exact setSecLoop_noLit this

theorem storeAreas_noLit {d : Desc} : ∀ {as : List Area} {hs : List Bytes} {S S' : Store P.F},
    NoLit S → storeAreas P d as hs S = .ok S' → NoLit S' := by
  intro as
  induction as with
  | nil => intro hs S S' h hst; unfold storeAreas at hst; injection hst with hst; subst hst; exact h
  | cons a as ih =>
    intro hs S S' h hst
    cases hs with
    | nil => unfold storeAreas at hst; injection hst with hst; subst hst; exact h
    | cons b hs =>
      unfold storeAreas at hst
      split at hst
      · cases hst
      · rename_i pos _
        have step : ∀ (c : Prop) [Decidable c] (T T' : Store P.F) nm v, NoLit T →
            (if c then setA P d T nm v else .ok T) = .ok T' → NoLit T' := by
          intro c _ T T' nm v hT he
          split at he
          · exact setA_noLit P hT he
          · injection he with he; subst he; exact hT
        split at hst
        · cases hst
        · rename_i S1 h1
          have n1 := step _ _ _ _ _ h h1
          split at hst
          · cases hst
          · rename_i S2 h2
            exact ih (step _ _ _ _ _ n1 h2) hst

theorem prepareTreWrite_noLit {d : Desc} {areas : List Area} {ndes : Nat} {tres : List (Tre P.F)}
    {S S' : Store P.F} {o : Option Bytes} (h : NoLit S)
    (hp : prepareTreWrite P d areas ndes tres S = .ok (S', o)) : NoLit S' := by
  unfold prepareTreWrite at hp
  split at hp
  · cases hp
  · simp only at hp
    split at hp
    · cases hp
    · rename_i S1 h1
      have n1 := storeAreas_noLit P h h1
      split at hp
      · split at hp
        · cases hp
        · split at hp
          · cases hp
          · rename_i S2 h2
            injection hp with hp
            injection hp with hp _
            subst hp
            exact setA_noLit P n1 h2
      · injection hp with hp
        injection hp with hp _
        subst hp
        exact n1

variable (E : Env) (IO : DataIO P.F)

/-- An overflow segment as `prepare_tre_write` appends it. -/
structure IsOverflow (s : Seg P.F IO.D) : Prop where
  linked : s.linked = true
  noLit : NoLit s.sub
  user : s.user = none
  data : ∃ b, s.data = .overflow b
  tres : s.tres = []
  made : ∃ ofl i sec b, overflowSeg P IO ofl i sec b = .ok s

theorem overflowSeg_is {ofl : Str} {i : Nat} {sec : Sec P.F} {b : Bytes} {s : Seg P.F IO.D}
    (h : overflowSeg P IO ofl i sec b = .ok s) : IsOverflow P IO s ∧ s.data = .overflow b := by
  have h' := h
  unfold overflowSeg at h
  split at h
  · cases h
  · rename_i S h1
    have n1 := setAll_noLit P NoLit.empty h1
    have n2 := setSecLoop_noLit P n1 (d := Tables.t_des_subheader) (s := sec)
      (l := secNames (n!"des"))
    split at h
    · cases h
    · rename_i S' h2
      injection h with h
      subst h
      have e : (setSecLoop P Tables.t_des_subheader sec (secNames (n!"des")) S).1 = S' := by
        show (setSecurity P Tables.t_des_subheader sec S (n!"des")).1 = S'
        rw [h2]
      rw [e] at n2
      exact ⟨⟨rfl, n2, rfl, ⟨b, rfl⟩, rfl, _, _, _, _, h'⟩, rfl⟩

/-- What `prepare_tre_write` of one header did: the header, and at most one segment appended. -/
theorem prepareHeader_ok {d : Desc} {areas : List Area} {pre : Name} {ofl : Str} {i : Nat}
    {tres : List (Tre P.F)} {S S' : Store P.F} {des des' : List (Seg P.F IO.D)}
    (h : prepareHeader P IO d areas pre ofl i tres S des = .ok (S', des')) :
    ∃ o, prepareTreWrite P d areas des.length tres S = .ok (S', o) ∧
      ((o = none ∧ des' = des) ∨ ∃ b s, o = some b ∧ des' = des ++ [s] ∧ IsOverflow P IO s ∧
        s.data = .overflow b ∧ ∃ sec, getSecurity P d S' pre = .ok sec ∧
          overflowSeg P IO ofl i sec b = .ok s) := by
  unfold prepareHeader at h
  split at h
  · cases h
  · rename_i S1 h1
    injection h with h
    injection h with h2 h3
    subst h2 h3
    exact ⟨none, h1, Or.inl ⟨rfl, rfl⟩⟩
  · rename_i S1 b h1
    split at h
    · cases h
    · rename_i sec hsec
      split at h
      · cases h
      · rename_i s hs
        injection h with h
        injection h with h2 h3
        subst h2 h3
        obtain ⟨q1, q2⟩ := overflowSeg_is P IO hs
        exact ⟨some b, h1, Or.inr ⟨b, s, rfl, rfl, q1, q2, sec, hsec, hs⟩⟩

/-- The segments after `prepare_tre_write`: only the subheader may have changed.  `fin` is the DES
list in the end, which has the overflow data at the position recorded. -/
structure Prepared (k : SegKind) (fin : List (Seg P.F IO.D)) (s s' : Seg P.F IO.D) : Prop where
  linked : s'.linked = s.linked
  user : s'.user = s.user
  tres : s'.tres = s.tres
  data : s'.data = s.data
  noLit : NoLit s.sub → NoLit s'.sub
  noAreas : k.areas = none → s'.sub = s.sub
  prep : ∀ areas, k.areas = some areas → ∃ n o,
    prepareTreWrite P k.desc areas n s.tres s.sub = .ok (s'.sub, o) ∧
    ∀ b, o = some b → ∃ x, fin[n]? = some x ∧ x.data = .overflow b

theorem Prepared.refl {k : SegKind} (h : k.areas = none) (fin : List (Seg P.F IO.D))
    (s : Seg P.F IO.D) : Prepared P IO k fin s s :=
  ⟨rfl, rfl, rfl, rfl, id, fun _ => rfl, fun _ h' => by rw [h] at h'; cases h'⟩

theorem Each.refl {α : Type} {R : α → α → Prop} (h : ∀ a, R a a) : ∀ l : List α, Each R l l
  | [] => .nil
  | a :: l => .cons (h a) (Each.refl h l)

theorem prefix_get {α : Type} {l l' : List α} (h : l <+: l') {i : Nat} {x : α}
    (hx : l[i]? = some x) : l'[i]? = some x := by
  obtain ⟨t, rfl⟩ := h
  rw [List.getElem?_append_left (lt_of_getElem? hx)]
  exact hx

theorem prepareSegs_ok {k : SegKind} : ∀ {ss ss' des des' : List (Seg P.F IO.D)} {i : Nat},
    prepareSegs P IO k i ss des = .ok (ss', des') →
      (∀ fin, des' <+: fin → Each (Prepared P IO k fin) ss ss') ∧
      ∃ ov, des' = des ++ ov ∧ ∀ s ∈ ov, IsOverflow P IO s := by
  intro ss
  induction ss with
  | nil =>
    intro ss' des des' i h
    unfold prepareSegs at h
    injection h with h
    injection h with h1 h2
    subst h1 h2
    exact ⟨fun _ _ => .nil, [], by simp, by simp⟩
  | cons s ss ih =>
    intro ss' des des' i h
    unfold prepareSegs at h
    split at h
    · rename_i hk
      injection h with h
      injection h with h1 h2
      subst h1 h2
      exact ⟨fun fin _ => Each.refl (Prepared.refl P IO hk fin) _, [], by simp, by simp⟩
    · rename_i areas hk
      split at h
      · cases h
      · rename_i S1 des1 h1
        split at h
        · cases h
        · rename_i ss1 des2 h2
          injection h with h
          injection h with h3 h4
          subst h3 h4
          obtain ⟨o, p1, p2⟩ := prepareHeader_ok P IO h1
          obtain ⟨q1, ov, q2, q3⟩ := ih h2
          refine ⟨fun fin hfin => .cons ⟨rfl, rfl, rfl, rfl, fun n => prepareTreWrite_noLit P n p1,
            fun hn => (by rw [hk] at hn; cases hn), ?_⟩ (q1 fin hfin), ?_⟩
          · intro areas' hk'
            rw [hk] at hk'
            injection hk' with hk'
            subst hk'
            refine ⟨des.length, o, p1, ?_⟩
            intro b hb
            rcases p2 with ⟨ho, _⟩ | ⟨b', x, ho, hd, _, hx, _⟩
            · rw [ho] at hb; cases hb
            · rw [ho] at hb
              injection hb with hb
              subst hb
              refine ⟨x, prefix_get hfin ?_, hx⟩
              rw [q2, hd]
              simp
          · rcases p2 with ⟨_, rfl⟩ | ⟨b, s', _, rfl, ho, _⟩
            · exact ⟨ov, q2, q3⟩
            · refine ⟨s' :: ov, by rw [q2]; simp, ?_⟩
              intro x hx
              rcases List.mem_cons.mp hx with rfl | hx
              · exact ho
              · exact q3 x hx

/-! ### The counts -/

theorem ScalarField.setA {nm : Name} {n : Nat} (h : ScalarField nm n) {S S' : Store P.F} {z : Int}
    (hs : setA P Tables.t_file_header S nm (.int z) = .ok S') :
    S' = S.set n [] ⟨.val (.int z), none⟩ := by
  obtain ⟨fi, h1, h2, h3⟩ := h.at_
  obtain ⟨p1, p2, p3, p4, p5, p6⟩ := plainInt_spec h2
  unfold Verif.setA at hs
  split at hs
  · rename_i S1 heq
    injection hs with hs
    subst hs
    unfold setAttr at heq
    rw [h.res] at heq
    simp only at heq
    obtain ⟨v', hv', hS'⟩ := setItem_store P h1 (Or.inl p4) heq
    have := (setCheck_ok P hv').2.1
    rw [p4] at this
    simp only [packKind] at this
    injection this with this
    rw [hS', ← this]
  · cases hs

/-- Setting the five counts. -/
theorem nums_ok {ni ng nt nd nr : Nat} {h0 h1 : Store P.F}
    (h : setAll P Tables.t_file_header
      [(n!"numi", .int ni), (n!"nums", .int ng), (n!"numt", .int nt), (n!"numdes", .int nd),
       (n!"numres", .int nr)] h0 = .ok h1) :
    h1 = ((((h0.set 31 [] ⟨.val (.int ni), none⟩).set 34 [] ⟨.val (.int ng), none⟩).set 38 []
      ⟨.val (.int nt), none⟩).set 41 [] ⟨.val (.int nd), none⟩).set 44 []
      ⟨.val (.int nr), none⟩ := by
  have step : ∀ (k : SegKind) {l : List (Name × Val P.F)} {S S' : Store P.F} {z : Int},
      setAll P Tables.t_file_header ((k.numField, .int z) :: l) S = .ok S' →
      setAll P Tables.t_file_header l (S.set (numPos k) [] ⟨.val (.int z), none⟩) = .ok S' := by
    intro k l S S' z hh
    unfold setAll at hh
    split at hh
    · cases hh
    · rename_i S1 hs
      rw [(numField k).setA P hs] at hh
      exact hh
  have a1 := step .image h
  have a2 := step .graphic a1
  have a3 := step .text a2
  have a4 := step .des a3
  have a5 := step .res a4
  unfold setAll at a5
  injection a5 with a5
  exact a5.symm

/-! ### The whole run -/

/-- The segments of a kind. -/
def NFile.segs {F D : Type} (f : NFile F D) : SegKind → List (Seg F D)
  | .image => f.image
  | .graphic => f.graphic
  | .text => f.text
  | .des => f.des
  | .res => f.res

/-- The order of the segments in a file. -/
def SegKind.order : List SegKind := [.image, .graphic, .text, .des, .res]

/-- Bytes of all segments written. -/
def partsBytes (parts : SegKind → List (Bytes × Bytes)) : Bytes :=
  SegKind.order.flatMap fun k => (parts k).flatMap fun p => p.1 ++ p.2

/-- The intermediate values of a successful write of `f`, giving `f'` and the bytes `out`. -/
structure WriteRun (f f' : NFile P.F IO.D) (out : Bytes) where
  des0 : List (Seg P.F IO.D)
  h0 : Store P.F
  des1 : List (Seg P.F IO.D)
  des2 : List (Seg P.F IO.D)
  des3 : List (Seg P.F IO.D)
  /-- segments after `prepare_tre_write`, including the overflow segments -/
  segs1 : SegKind → List (Seg P.F IO.D)
  h1 : Store P.F
  cs : List Chunk
  cs' : List Chunk
  /-- segments after they are written, subheader bytes, data bytes -/
  res : SegKind → List (Seg P.F IO.D × Bytes × Bytes)
  drop0 : dropOverflow P IO f.des = .ok des0
  prepH : prepareHeader P IO Tables.t_file_header fileAreas (n!"fs") "XHD".toList 0
    f.tres f.header des0 = .ok (h0, des1)
  prepI : prepareSegs P IO .image 0 f.image des1 = .ok (segs1 .image, des2)
  prepG : prepareSegs P IO .graphic 0 f.graphic des2 = .ok (segs1 .graphic, des3)
  prepT : prepareSegs P IO .text 0 f.text des3 = .ok (segs1 .text, segs1 .des)
  segsR : segs1 .res = f.res
  nums : setAll P Tables.t_file_header
    [(n!"numi", .int (segs1 .image).length), (n!"nums", .int (segs1 .graphic).length),
     (n!"numt", .int (segs1 .text).length), (n!"numdes", .int (segs1 .des).length),
     (n!"numres", .int f.res.length)] h0 = .ok h1
  chunks : writeChunks P Tables.t_file_header h1 = .ok cs
  each : ∀ k, Each (fun s r => segBytes P E IO k s = .ok r) (segs1 k) (res k)
  chunks' : writeChunks P Tables.t_file_header f'.header = .ok cs'
  slots : cs'.map Chunk.slot = cs.map Chunk.slot
  out_eq : out = chunkBytes cs' ++ partsBytes fun k => (res k).map (·.2)
  tres : f'.tres = f.tres
  after : ∀ k, k ≠ .des → f'.segs k = (res k).map (·.1)
  drop1 : dropOverflow P IO ((res .des).map (·.1)) = .ok f'.des
  fl : f'.header flPos [] = some ⟨.val (.int (out.length : Nat)), none⟩
  hl : f'.header hlPos [] = some ⟨.val (.int ((chunkBytes cs').length : Nat)), none⟩
  lens : ∀ k (j : Nat) s r, (segs1 k)[j]? = some s → (res k)[j]? = some r → s.linked = true →
    f'.header (lenPos k) [(j : Int)] = some ⟨.val (.int (r.2.1.length : Nat)), none⟩ ∧
    f'.header (dataPos k) [(j : Int)] = some ⟨.val (.int (r.2.2.length : Nat)), none⟩
  others : ∀ q key, q ≠ flPos → q ≠ hlPos →
    (∀ k, (q ≠ lenPos k ∧ q ≠ dataPos k) ∨ (∀ j : Nat, key ≠ [(j : Int)])) →
    f'.header q key = h1 q key
  noLit : NoLit h1 → NoLit f'.header
  locHl : ∃ o, locOf hlPos [] 0 cs = some o
  locFl : ∃ o, locOf flPos [] 0 cs = some o
  locs : ∀ k (j : Nat) s, (segs1 k)[j]? = some s → s.linked = true →
    (∃ o, locOf (lenPos k) [(j : Int)] 0 cs = some o) ∧
    ∃ o, locOf (dataPos k) [(j : Int)] 0 cs = some o

/-- A field that was updated had been written. -/
theorem updateHeader_loc {cs : List Chunk} {nm : Name} {n : Nat} {key : Key} {v : Nat}
    (hr : resolve Tables.t_file_header.tab nm = some n) {H H' : Store P.F}
    {out out' : Bytes} (h : updateHeader P cs nm key v (H, out) = .ok (H', out')) :
    ∃ o, locOf n key 0 cs = some o := by
  unfold updateHeader at h
  simp only [hr] at h
  cases hl : locOf n key 0 cs with
  | some o => exact ⟨o, rfl⟩
  | none =>
    exfalso
    unfold updateField at h
    simp only [hl] at h
    split at h
    · cases h
    · rename_i heq
      repeat' split at heq
      all_goals
        injection heq with _ heq
        cases heq

theorem writeSegs_locs {cs : List Chunk} {k : SegKind} : ∀ {ss ss' : List (Seg P.F IO.D)} {i : Nat}
    {H H' : Store P.F} {out out' : Bytes},
    writeSegs P E IO cs k i ss (H, out) = .ok (ss', H', out') →
    ∀ (j : Nat) s, ss[j]? = some s → s.linked = true →
      (∃ o, locOf (lenPos k) [((i + j : Nat) : Int)] 0 cs = some o) ∧
      ∃ o, locOf (dataPos k) [((i + j : Nat) : Int)] 0 cs = some o := by
  intro ss
  induction ss with
  | nil => intro ss' i H H' out out' h j s hs; simp at hs
  | cons s ss ih =>
    intro ss' i H H' out out' h j t hs hl
    unfold writeSegs at h
    cases hb : segBytes P E IO k s with
    | error e => simp only [hb] at h; cases h
    | ok r =>
      obtain ⟨s', sb, db⟩ := r
      simp only [hb] at h
      cases hul : updateLengths P cs k i s.linked sb.length db.length (H, out ++ (sb ++ db)) with
      | error e => simp only [hul] at h; cases h
      | ok st =>
        obtain ⟨H2, out2⟩ := st
        simp only [hul] at h
        cases hw : writeSegs P E IO cs k (i + 1) ss (H2, out2) with
        | error e => simp only [hw] at h; cases h
        | ok r =>
          obtain ⟨ss1, H3, out3⟩ := r
          cases j with
          | succ j =>
            have := ih hw j t (by simpa using hs) hl
            rwa [show i + 1 + j = i + (j + 1) by omega] at this
          | zero =>
            simp only [List.getElem?_cons_zero, Option.some.injEq] at hs
            subst hs
            unfold updateLengths at hul
            simp only [hl, if_true] at hul
            cases hu1 : updateHeader P cs k.lenFields.1 [(i : Int)] sb.length
                (H, out ++ (sb ++ db)) with
            | error e => simp only [hu1] at hul; cases hul
            | ok st1 =>
              obtain ⟨H1, out1⟩ := st1
              simp only [hu1] at hul
              exact ⟨updateHeader_loc P (lenField k).res hu1,
                updateHeader_loc P (dataField k).res hul⟩

theorem slots_length {cs cs' : List Chunk} (h : cs.map Chunk.slot = cs'.map Chunk.slot) :
    (chunkBytes cs).length = (chunkBytes cs').length := by
  induction cs generalizing cs' with
  | nil => cases cs' with
    | nil => rfl
    | cons _ _ => simp at h
  | cons c cs ih =>
    cases cs' with
    | nil => simp at h
    | cons c' cs' =>
      simp only [List.map_cons, List.cons.injEq] at h
      have := congrArg Slot.size h.1
      simp only [Chunk.slot] at this
      have := ih h.2
      unfold chunkBytes at *
      simp only [List.map_cons, List.flatten_cons, List.length_append]
      omega

theorem updateHeader_noLit {cs : List Chunk} {nm : Name} {key : Key} {v : Nat} {H H' : Store P.F}
    {out out' : Bytes} (h : updateHeader P cs nm key v (H, out) = .ok (H', out')) (n : NoLit H) :
    NoLit H' := by
  unfold updateHeader at h
  split at h
  · cases h
  · rename_i m _
    have hs := setItem_noLit P n m key (.int v) (T := Tables.t_file_header.tab)
    unfold updateField at h
    repeat' split at h
    all_goals first | (cases h; done) | skip
    all_goals
      rename_i heq
      revert heq
    all_goals
      intro heq
      injection h with h
      injection h with h h2
      subst h
    all_goals
      repeat' split at heq
      all_goals first | (cases heq; done) | skip
      all_goals (injection heq with heq _; subst heq; simp_all)

theorem writeSegs_noLit {cs : List Chunk} {k : SegKind} : ∀ {ss ss' : List (Seg P.F IO.D)} {i : Nat}
    {H H' : Store P.F} {out out' : Bytes},
    writeSegs P E IO cs k i ss (H, out) = .ok (ss', H', out') → NoLit H → NoLit H' := by
  intro ss
  induction ss with
  | nil =>
    intro ss' i H H' out out' h n
    unfold writeSegs at h
    injection h with h
    injection h with _ h
    injection h with h _
    subst h
    exact n
  | cons s ss ih =>
    intro ss' i H H' out out' h n
    unfold writeSegs at h
    split at h
    · cases h
    · split at h
      · cases h
      · rename_i st hul
        split at h
        · cases h
        · rename_i ss1 st' hrec
          injection h with h
          injection h with _ h
          subst h
          obtain ⟨H2, out2⟩ := st
          refine ih hrec ?_
          unfold updateLengths at hul
          split at hul
          · split at hul
            · cases hul
            · rename_i st1 h1
              exact updateHeader_noLit P hul (updateHeader_noLit P h1 n)
          · injection hul with hul
            injection hul with hul _
            subst hul
            exact n

theorem hl_at : ∃ fi, Tables.t_file_header.tab[hlPos]? = some fi ∧ fi.fd.kind = .plain :=
  let ⟨fi, h1, h2, _⟩ := hlField.at_; ⟨fi, h1, (plainInt_spec h2).2.2.2.1⟩

theorem fl_at : ∃ fi, Tables.t_file_header.tab[flPos]? = some fi ∧ fi.fd.kind = .plain :=
  let ⟨fi, h1, h2, _⟩ := flField.at_; ⟨fi, h1, (plainInt_spec h2).2.2.2.1⟩

theorem pos_ne (k : SegKind) : lenPos k ≠ flPos ∧ dataPos k ≠ flPos ∧ lenPos k ≠ hlPos ∧
    dataPos k ≠ hlPos := by cases k <;> decide

theorem pos_kinds {k k' : SegKind} (h : k ≠ k') : lenPos k ≠ lenPos k' ∧ lenPos k ≠ dataPos k' ∧
    dataPos k ≠ lenPos k' ∧ dataPos k ≠ dataPos k' := by
  revert h; cases k <;> cases k' <;> decide

theorem writeFile_run {f f' : NFile P.F IO.D} {out : Bytes}
    (h : writeFile P E IO f = .ok (f', out)) : Nonempty (WriteRun P E IO f f' out) := by
  unfold writeFile at h
  simp only [bind_ok, Prod.exists, pure, Except.pure] at h
  obtain ⟨des0, e0, h0, des1, e1, im1, des2, e2, gr1, des3, e3, tx1, des4, e4, h1, e5, cs, e6, h2, o2,
    e7, im2, h3, o3, e8, gr2, h4, o4, e9, tx2, h5, o5, e10, des5, h6, o6, e11, res2, h7, o7, e12,
    h8, o8, e13, des6, e14, e15⟩ := h
  injection e15 with e15
  injection e15 with e15 e16
  subst e15 e16
  have I0 : HdrInv P cs h1 (chunkBytes cs) [] := ⟨cs, e6, rfl, by simp⟩
  obtain ⟨fh, hh1, hh2⟩ := hl_at
  obtain ⟨ff, hf1, hf2⟩ := fl_at
  obtain ⟨s2, I2⟩ := updateHeader_ok P hlField.res hh1 hh2 hl_unref I0 e7
  obtain ⟨ri, i1, i2, i3, i4, i5⟩ := writeSegs_ok P E IO I2 e8
  obtain ⟨rg, g1, g2, g3, g4, g5⟩ := writeSegs_ok P E IO i3 e9
  obtain ⟨rt, t1, t2, t3, t4, t5⟩ := writeSegs_ok P E IO g3 e10
  obtain ⟨rd, d1, d2, d3, d4, d5⟩ := writeSegs_ok P E IO t3 e11
  obtain ⟨rr, r1, r2, r3, r4, r5⟩ := writeSegs_ok P E IO d3 e12
  obtain ⟨s8, I8⟩ := updateHeader_ok P flField.res hf1 hf2 fl_unref r3 e13
  obtain ⟨cs7, c71, c72, c73⟩ := r3.written
  obtain ⟨cs', c1, c2, c3⟩ := I8.written
  have hlen : o7.length = o8.length := by
    have := slots_length (c72.trans c2.symm)
    rw [c73, c3]
    simp only [List.length_append]
    rw [this]
  have hfl : ∀ q key, q ≠ flPos → h8 q key = h7 q key := by
    intro q key hq
    rw [s8]; unfold Store.set
    rw [if_neg (by rintro ⟨h, _⟩; exact hq h)]
  have hhl : ∀ q key, q ≠ hlPos → h2 q key = h1 q key := by
    intro q key hq
    rw [s2]; unfold Store.set
    rw [if_neg (by rintro ⟨h, _⟩; exact hq h)]
  let segs1 : SegKind → List (Seg P.F IO.D)
    | .image => im1 | .graphic => gr1 | .text => tx1 | .des => des4 | .res => f.res
  let res : SegKind → List (Seg P.F IO.D × Bytes × Bytes)
    | .image => ri | .graphic => rg | .text => rt | .des => rd | .res => rr
  refine ⟨⟨des0, h0, des1, des2, des3, segs1, h1, cs, cs', res, e0, e1, e2, e3, e4, rfl, e5, e6,
    ?each, c1, c2, ?out_eq, rfl, ?after, ?drop1, ?fl, ?hl, ?lens, ?others, ?noLit,
    updateHeader_loc P hlField.res e7, updateHeader_loc P flField.res e13, ?locs⟩⟩
  case each => intro k; cases k <;> assumption
  case out_eq =>
    rw [c3]
    simp only [partsBytes, SegKind.order, List.flatMap_cons, List.flatMap_nil, List.flatMap_map,
      List.nil_append, List.append_nil, List.append_assoc, res]
  case after =>
    intro k hk
    cases k with
    | des => exact absurd rfl hk
    | _ => assumption
  case drop1 => rw [← e14, d2]
  case fl =>
    show h8 flPos [] = _
    rw [s8]; unfold Store.set
    rw [if_pos ⟨rfl, rfl⟩, hlen]
  case hl =>
    show h8 hlPos [] = _
    have nl : ∀ k, hlPos ≠ lenPos k ∧ hlPos ≠ dataPos k := fun k =>
      ⟨(pos_ne k).2.2.1.symm, (pos_ne k).2.2.2.symm⟩
    rw [hfl _ _ (by decide), r5 _ _ (Or.inl (nl _)), d5 _ _ (Or.inl (nl _)), t5 _ _ (Or.inl (nl _)),
      g5 _ _ (Or.inl (nl _)), i5 _ _ (Or.inl (nl _)), s2]
    unfold Store.set
    rw [if_pos ⟨rfl, rfl⟩, slots_length c2]
  case lens =>
    intro k j s r hs hr hl
    show h8 _ _ = _ ∧ h8 _ _ = _
    rw [hfl _ _ (pos_ne k).1, hfl _ _ (pos_ne k).2.1]
    cases k with
    | res =>
      have := r4 j s r hs hr hl
      rwa [Nat.zero_add] at this
    | des =>
      have := d4 j s r hs hr hl
      rw [Nat.zero_add] at this
      rw [r5, r5]
      · exact this
      all_goals exact Or.inl (by decide)
    | text =>
      have := t4 j s r hs hr hl
      rw [Nat.zero_add] at this
      rw [r5, r5, d5, d5]
      · exact this
      all_goals exact Or.inl (by decide)
    | graphic =>
      have := g4 j s r hs hr hl
      rw [Nat.zero_add] at this
      rw [r5, r5, d5, d5, t5, t5]
      · exact this
      all_goals exact Or.inl (by decide)
    | image =>
      have := i4 j s r hs hr hl
      rw [Nat.zero_add] at this
      rw [r5, r5, d5, d5, t5, t5, g5, g5]
      · exact this
      all_goals exact Or.inl (by decide)
  case others =>
    intro q key q1 q2 q3
    show h8 q key = _
    have q3' : ∀ k, (q ≠ lenPos k ∧ q ≠ dataPos k) ∨ ∀ j : Nat, 0 ≤ j → key ≠ [(j : Int)] :=
      fun k => (q3 k).imp id fun h j _ => h j
    rw [hfl _ _ q1, r5 _ _ (q3' _), d5 _ _ (q3' _), t5 _ _ (q3' _), g5 _ _ (q3' _),
      i5 _ _ (q3' _), hhl _ _ q2]
  case locs =>
    intro k j s hs hl
    have key : ∀ {cs : List Chunk} {k : SegKind} {ss ss' : List (Seg P.F IO.D)} {H H' : Store P.F}
        {out out' : Bytes}, writeSegs P E IO cs k 0 ss (H, out) = .ok (ss', H', out') →
        ss[j]? = some s → (∃ o, locOf (lenPos k) [(j : Int)] 0 cs = some o) ∧
        ∃ o, locOf (dataPos k) [(j : Int)] 0 cs = some o := by
      intro cs k ss ss' H H' out out' hw hs
      have := writeSegs_locs P E IO hw j s hs hl
      rwa [Nat.zero_add] at this
    cases k with
    | image => exact key e8 hs
    | graphic => exact key e9 hs
    | text => exact key e10 hs
    | des => exact key e11 hs
    | res => exact key e12 hs
  case noLit =>
    intro n1
    exact updateHeader_noLit P e13 (writeSegs_noLit P E IO e12 (writeSegs_noLit P E IO e11
      (writeSegs_noLit P E IO e10 (writeSegs_noLit P E IO e9 (writeSegs_noLit P E IO e8
        (updateHeader_noLit P e7 n1))))))

/-- The counts in the header afterwards. -/
theorem WriteRun.count {f f' : NFile P.F IO.D} {out : Bytes} (r : WriteRun P E IO f f' out)
    (k : SegKind) : f'.header (numPos k) [] =
      some ⟨.val (.int ((r.res k).length : Nat)), none⟩ := by
  have hn := nums_ok P r.nums
  rw [r.others _ _ (by cases k <;> decide) (by cases k <;> decide)
    (fun k => Or.inr fun j => by simp), hn, ← (r.each k).length]
  cases k <;> simp [Store.set, numPos, r.segsR]

theorem WriteRun.h0_noLit {f f' : NFile P.F IO.D} {out : Bytes} (r : WriteRun P E IO f f' out)
    (h : NoLit f.header) : NoLit f'.header := by
  obtain ⟨o, h1, _⟩ := prepareHeader_ok P IO r.prepH
  exact r.noLit (setAll_noLit P (prepareTreWrite_noLit P h h1) r.nums)

/-- `dropOverflow` keeps, in order, the segments that are not overflow segments. -/
theorem dropOverflow_ok : ∀ {ss ss' : List (Seg P.F IO.D)}, dropOverflow P IO ss = .ok ss' →
    ss'.Sublist ss ∧ ∀ s ∈ ss', ∃ id, getAttr P Tables.t_des_subheader s.sub (n!"desid") [] =
      .ok (.str id) ∧ id ≠ "TRE_OVERFLOW".toList
  | [], ss', h => by
    unfold dropOverflow at h; injection h with h; subst h; exact ⟨.slnil, by simp⟩
  | s :: ss, ss', h => by
    unfold dropOverflow at h
    split at h
    · cases h
    · rename_i id hid
      split at h
      · cases h
      · rename_i ss1 hr
        injection h with h
        obtain ⟨r1, r2⟩ := dropOverflow_ok hr
        split at h
        · subst h
          exact ⟨r1.cons _, r2⟩
        · rename_i hne
          subst h
          refine ⟨r1.cons_cons _, ?_⟩
          intro x hx
          rcases List.mem_cons.mp hx with rfl | hx
          · exact ⟨id, hid, hne⟩
          · exact r2 x hx
    · cases h

/-- The DES segments before they are written: those of the file that are not overflow segments,
then the new overflow segments. -/
theorem WriteRun.desList {f f' : NFile P.F IO.D} {out : Bytes} (r : WriteRun P E IO f f' out) :
    (∃ ov, r.segs1 .des = r.des0 ++ ov ∧ ∀ s ∈ ov, IsOverflow P IO s) ∧
    r.des1 <+: r.segs1 .des ∧ r.des2 <+: r.segs1 .des ∧ r.des3 <+: r.segs1 .des := by
  obtain ⟨o, _, h1⟩ := prepareHeader_ok P IO r.prepH
  obtain ⟨_, ov2, h2, h2'⟩ := prepareSegs_ok P IO r.prepI
  obtain ⟨_, ov3, h3, h3'⟩ := prepareSegs_ok P IO r.prepG
  obtain ⟨_, ov4, h4, h4'⟩ := prepareSegs_ok P IO r.prepT
  have : ∃ ov1, r.des1 = r.des0 ++ ov1 ∧ ∀ s ∈ ov1, IsOverflow P IO s := by
    rcases h1 with ⟨_, h1⟩ | ⟨b, s, _, h1, hs, _⟩
    · exact ⟨[], by rw [h1]; simp, by simp⟩
    · exact ⟨[s], h1, by intro x hx; rw [List.mem_singleton.mp hx]; exact hs⟩
  obtain ⟨ov1, h1, h1'⟩ := this
  refine ⟨⟨ov1 ++ (ov2 ++ (ov3 ++ ov4)), by rw [h4, h3, h2, h1]; simp, ?_⟩,
    ⟨ov2 ++ (ov3 ++ ov4), by rw [h4, h3, h2]; simp⟩, ⟨ov3 ++ ov4, by rw [h4, h3]; simp⟩,
    ⟨ov4, by rw [h4]⟩⟩
  intro s hs
  simp only [List.mem_append] at hs
  rcases hs with hs | hs | hs | hs
  · exact h1' s hs
  · exact h2' s hs
  · exact h3' s hs
  · exact h4' s hs

/-- The segments other than DES before they are written. -/
theorem WriteRun.prepared {f f' : NFile P.F IO.D} {out : Bytes} (r : WriteRun P E IO f f' out)
    {k : SegKind} (h : k ≠ .des) :
    Each (Prepared P IO k (r.segs1 .des)) (f.segs k) (r.segs1 k) := by
  obtain ⟨_, p1, p2, p3⟩ := r.desList
  cases k with
  | image => exact (prepareSegs_ok P IO r.prepI).1 _ p2
  | graphic => exact (prepareSegs_ok P IO r.prepG).1 _ p3
  | text => exact (prepareSegs_ok P IO r.prepT).1 _ (List.prefix_refl _)
  | des => exact absurd rfl h
  | res => rw [r.segsR]; exact Each.refl (Prepared.refl P IO rfl _) _

/-- If all segments of the file are linked, so are all those written. -/
theorem WriteRun.linked {f f' : NFile P.F IO.D} {out : Bytes} (r : WriteRun P E IO f f' out)
    (h : ∀ k, ∀ s ∈ f.segs k, s.linked = true) : ∀ k, ∀ s ∈ r.segs1 k, s.linked = true := by
  intro k s hs
  by_cases hk : k = .des
  · subst hk
    obtain ⟨⟨ov, h1, h2⟩, _⟩ := r.desList
    rw [h1] at hs
    rcases List.mem_append.mp hs with hs | hs
    · exact h .des s ((dropOverflow_ok P IO r.drop0).1.subset hs)
    · exact (h2 s hs).linked
  · obtain ⟨s0, h1, h2⟩ := (r.prepared P E IO hk).mem_right hs
    rw [h2.linked]
    exact h k s0 h1

end Verif
