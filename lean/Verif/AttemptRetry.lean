import Verif.AttemptLemmas
import Verif.Rewrite

/- Writing a file of which a part is as an earlier attempt to write it left it. -/

namespace Verif.Attempt

open Verif

variable {P : PyFloat} {E : Env} {IO : DataIO P.F}

/-! ### Segments -/

/-- Each element is the one of the first list or the one of the second. -/
inductive Mix {α : Type} : List α → List α → List α → Prop
  | nil : Mix [] [] []
  | old {a b as bs cs} : Mix as bs cs → Mix (a :: as) (b :: bs) (a :: cs)
  | new {a b as bs cs} : Mix as bs cs → Mix (a :: as) (b :: bs) (b :: cs)

/-- The same segment, but for the user subheader within the subheader. -/
structure DesNear (s s' : Seg P.F IO.D) : Prop where
  linked : s'.linked = s.linked
  user : s'.user = s.user
  tres : s'.tres = s.tres
  data : s'.data = s.data
  sub : ∀ q key, ¬ (key = [] ∧ (q = 21 ∨ q = 22)) → s'.sub q key = s.sub q key

theorem DesNear.refl (s : Seg P.F IO.D) : DesNear s s := ⟨rfl, rfl, rfl, rfl, fun _ _ _ => rfl⟩

theorem DesNear.desid {s s' : Seg P.F IO.D} (h : DesNear s s') :
    getAttr P Tables.t_des_subheader s'.sub (n!"desid") [] =
      getAttr P Tables.t_des_subheader s.sub (n!"desid") [] :=
  desid_cell P (h.sub 1 [] (by rintro ⟨_, h | h⟩ <;> cases h))

/-- What was there before does not matter. -/
theorem segBytes_near {s s' : Seg P.F IO.D} {x : Seg P.F IO.D × Bytes × Bytes} (h : DesNear s s')
    (hs : segBytes P E IO .des s = .ok x) : segBytes P E IO .des s' = .ok x := by
  obtain ⟨sub, h1, h2, h3, h4, h5⟩ := segBytes_ok P E IO hs
  obtain ⟨x1, sb, db⟩ := x
  simp only at h2 h3 h4 ⊢
  obtain ⟨b, b1, b2⟩ := writeUser_des P h1
  have hsub : writeUser P .des s'.user s'.sub = .ok sub := by
    have hset : (s'.sub.set 22 [] ⟨.val (.bytes b), none⟩).set 21 []
        ⟨.val (.int (b.length : Nat)), none⟩ = sub := by
      rw [b2]
      funext q key
      unfold Store.set
      by_cases h21 : q = 21 ∧ key = []
      · rw [if_pos h21, if_pos h21]
      · by_cases h22 : q = 22 ∧ key = []
        · rw [if_neg h21, if_neg h21, if_pos h22, if_pos h22]
        · rw [if_neg h21, if_neg h21, if_neg h22, if_neg h22]
          refine h.sub q key ?_
          rintro ⟨rfl, hq | hq⟩
          · exact h21 ⟨hq, rfl⟩
          · exact h22 ⟨hq, rfl⟩
    rw [← hset, h.user]
    unfold writeUser
    unfold userBytes at b1
    cases hu : s.user with
    | none =>
      rw [hu] at b1
      simp only at b1 ⊢
      injection b1 with b1
      subst b1
      rw [setUser_none P, setUser_des P []]
    | some x =>
      rw [hu] at b1
      simp only at b1 ⊢
      rw [b1]
      exact setUser_des P b
  have hc : checkUser P E IO .des s' = .ok () := by
    unfold checkUser at h5 ⊢
    have : userCls P E .des s'.sub = userCls P E .des s.sub := by
      unfold userCls
      simp only [SegKind.desc]
      rw [h.desid]
    rw [this, h.linked, h.user]
    exact h5
  unfold segBytes
  rw [hc]
  simp only
  rw [hsub]
  simp only
  rw [h3]
  simp only
  rw [h.data, h4]
  simp only [h.linked, h.user, h.tres, h2]

/-- The segments without the overflow ones. -/
theorem dropOverflow_near {l l' : List (Seg P.F IO.D)} (h : Each DesNear l l') :
    ∀ {ds}, dropOverflow P IO l = .ok ds →
    ∃ ds', dropOverflow P IO l' = .ok ds' ∧ Each DesNear ds ds' := by
  induction h with
  | nil => intro ds hd; unfold dropOverflow at hd; injection hd with hd; subst hd; exact ⟨[], rfl, .nil⟩
  | @cons a as b bs h1 _ ih =>
    intro ds hd
    unfold dropOverflow at hd ⊢
    rw [h1.desid]
    cases hg : getAttr P Tables.t_des_subheader a.sub (n!"desid") [] with
    | error e => rw [hg] at hd; cases hd
    | ok v =>
      rw [hg] at hd
      cases v with
      | str id =>
        simp only at hd ⊢
        cases hr : dropOverflow P IO as with
        | error e => rw [hr] at hd; cases hd
        | ok ss' =>
          rw [hr] at hd
          simp only at hd
          injection hd with hd
          obtain ⟨ds', d1, d2⟩ := ih hr
          rw [d1]
          simp only
          refine ⟨_, rfl, ?_⟩
          subst hd
          by_cases hid : id = "TRE_OVERFLOW".toList
          · rw [if_pos hid, if_pos hid]; exact d2
          · rw [if_neg hid, if_neg hid]; exact .cons h1 d2
      | _ => cases hd

theorem dropOverflow_append {l ov ds : List (Seg P.F IO.D)} (h : dropOverflow P IO l = .ok ds)
    (ho : ∀ s ∈ ov, getAttr P Tables.t_des_subheader s.sub (n!"desid") [] =
      .ok (.str "TRE_OVERFLOW".toList)) : dropOverflow P IO (l ++ ov) = .ok ds := by
  induction l generalizing ds with
  | nil =>
    unfold dropOverflow at h
    injection h with h
    subst h
    rw [List.nil_append]
    exact dropOverflow_all P IO (a := []) (by simp) ho
  | cons s l ih =>
    rw [List.cons_append]
    unfold dropOverflow at h ⊢
    cases hg : getAttr P Tables.t_des_subheader s.sub (n!"desid") [] with
    | error e => rw [hg] at h; cases h
    | ok v =>
      rw [hg] at h
      cases v with
      | str id =>
        simp only at h ⊢
        cases hr : dropOverflow P IO l with
        | error e => rw [hr] at h; cases h
        | ok ss' =>
          rw [hr] at h
          rw [ih hr]
          exact h
      | _ => cases h

theorem overflow_desid {s : Seg P.F IO.D} (h : IsOverflow P IO s) :
    getAttr P Tables.t_des_subheader s.sub (n!"desid") [] = .ok (.str "TRE_OVERFLOW".toList) := by
  obtain ⟨_, _, _, _, hm⟩ := h.made
  exact overflowSeg_desid P IO hm

/-! ### TREs -/

/-- Of the DES segments only the number matters. -/
theorem prepareHeader_des {d : Desc} {areas : List Area} {pre : Name} {ofl : Str} {i : Nat}
    {tres : List (Tre P.F)} {S S' : Store P.F} {des rdes des' : List (Seg P.F IO.D)}
    (h : prepareHeader P IO d areas pre ofl i tres S des = .ok (S', rdes))
    (hl : des'.length = des.length) :
    ∃ ov, rdes = des ++ ov ∧ (∀ s ∈ ov, IsOverflow P IO s) ∧
      prepareHeader P IO d areas pre ofl i tres S des' = .ok (S', des' ++ ov) := by
  obtain ⟨o, h1, h2⟩ := prepareHeader_ok P IO h
  unfold prepareHeader
  rw [hl, h1]
  rcases h2 with ⟨rfl, rfl⟩ | ⟨b, s, rfl, rfl, hs, _, sec, e1, e2⟩
  · exact ⟨[], by simp, by simp, by simp⟩
  · refine ⟨[s], rfl, by simpa using hs, ?_⟩
    simp only [e1, e2]

theorem prepareSegs_mix {k : SegKind} {areas : List Area} (hk : k.areas = some areas) :
    ∀ {ss ss' gs : List (Seg P.F IO.D)}, Mix ss ss' gs →
      ∀ {des rdes des' : List (Seg P.F IO.D)} {i : Nat},
      (∀ s ∈ ss, OflClear P k.desc areas s.sub) →
      prepareSegs P IO k i ss des = .ok (ss', rdes) → des'.length = des.length →
      ∃ rs ov, rdes = des ++ ov ∧ prepareSegs P IO k i gs des' = .ok (rs, des' ++ ov) ∧
        Each (SegEqv P IO k) rs ss' := by
  have key : ∀ {s s' : Seg P.F IO.D} {ss ss' des rdes : List (Seg P.F IO.D)} {i : Nat},
      prepareSegs P IO k i (s :: ss) des = .ok (s' :: ss', rdes) →
      ∃ S1 des1, prepareHeader P IO k.desc areas k.secPrefix k.oflName i s.tres s.sub des =
        .ok (S1, des1) ∧ s' = { s with sub := S1 } ∧
        prepareSegs P IO k (i + 1) ss des1 = .ok (ss', rdes) := by
    intro s s' ss ss' des rdes i h
    unfold prepareSegs at h
    simp only [hk] at h
    cases h1 : prepareHeader P IO k.desc areas k.secPrefix k.oflName i s.tres s.sub des with
    | error e => rw [h1] at h; cases h
    | ok r =>
      obtain ⟨S1, des1⟩ := r
      rw [h1] at h
      simp only at h
      cases h2 : prepareSegs P IO k (i + 1) ss des1 with
      | error e => rw [h2] at h; cases h
      | ok r =>
        obtain ⟨ss1, des2⟩ := r
        rw [h2] at h
        simp only at h
        injection h with h
        injection h with e1 e2
        injection e1 with e1 e3
        subst e1 e2 e3
        exact ⟨S1, des1, rfl, rfl, h2⟩
  intro ss ss' gs hm
  induction hm with
  | nil =>
    intro des rdes des' i _ h _
    unfold prepareSegs at h
    injection h with h
    injection h with _ e2
    subst e2
    exact ⟨[], [], by simp, by unfold prepareSegs; simp, .nil⟩
  | @old s s' ss ss' gs _ ih =>
    intro des rdes des' i hcl h hdes
    obtain ⟨S1, des1, h1, rfl, h2⟩ := key h
    obtain ⟨ov, o1, _, o2⟩ := prepareHeader_des h1 hdes
    obtain ⟨rs, ov', p1, p2, p3⟩ := ih (des' := des' ++ ov) (fun s hs => hcl s (by simp [hs])) h2
      (by rw [o1]; simp [hdes])
    refine ⟨{ s with sub := S1 } :: rs, ov ++ ov', by rw [p1, o1]; simp, ?_,
      .cons (.refl P IO k _) p3⟩
    unfold prepareSegs
    simp only [hk, o2, p2, List.append_assoc]
  | @new s s' ss ss' gs _ ih =>
    intro des rdes des' i hcl h hdes
    obtain ⟨S1, des1, h1, rfl, h2⟩ := key h
    obtain ⟨R, ov, o1, o2, o3⟩ := prepareHeader_again IO (subheader_causal k) (segAreas_rows hk)
      (by simp) (hcl s (by simp)) h1 (X := S1) (fun _ _ _ _ _ => rfl) rfl hdes
    obtain ⟨rs, ov', p1, p2, p3⟩ := ih (des' := des' ++ ov) (fun s hs => hcl s (by simp [hs])) h2
      (by rw [o1]; simp [hdes])
    refine ⟨{ s with sub := R } :: rs, ov ++ ov', by rw [p1, o1]; simp, ?_,
      .cons ⟨rfl, rfl, rfl, rfl, o3⟩ p3⟩
    unfold prepareSegs
    simp only [hk, o2, p2, List.append_assoc]

/-! ### The file header -/

/-- The cells of the file header that are assigned while the segments `segs` are written. -/
def Touch (segs : SegKind → List (Seg P.F IO.D)) (q : Nat) (key : Key) : Prop :=
  (q = flPos ∧ key = []) ∨ (q = hlPos ∧ key = []) ∨
  ∃ k, ∃ j : Nat, ∃ s, (segs k)[j]? = some s ∧ s.linked = true ∧ (q = lenPos k ∨ q = dataPos k) ∧
    key = [(j : Int)]

theorem writeSegs_frame {cs0 : List Chunk} {k : SegKind} :
    ∀ {ss : List (Seg P.F IO.D)} {i : Nat} {H H' : Store P.F} {out out' post : Bytes}
      {ss' : List (Seg P.F IO.D)}, HdrInv P cs0 H out post →
      writeSegs P E IO cs0 k i ss (H, out) = .ok (ss', H', out') →
      (∃ post', HdrInv P cs0 H' out' post') ∧
      ∀ q key, (∀ (j : Nat) s, ss[j]? = some s → s.linked = true →
          ¬ ((q = lenPos k ∨ q = dataPos k) ∧ key = [((i + j : Nat) : Int)])) →
        H' q key = H q key := by
  intro ss
  induction ss with
  | nil =>
    intro i H H' out out' post ss' hI h
    unfold writeSegs at h
    injection h with h
    injection h with h1 h2
    injection h2 with h2 h3
    subst h1 h2 h3
    exact ⟨⟨_, hI⟩, fun _ _ _ => rfl⟩
  | cons s ss ih =>
    intro i H H' out out' post ss' hI h
    unfold writeSegs at h
    cases hb : segBytes P E IO k s with
    | error e => simp only [hb] at h; cases h
    | ok r =>
      obtain ⟨s', sb, db⟩ := r
      simp only [hb] at h
      have hI1 := hI.append P (sb ++ db)
      cases hul : updateLengths P cs0 k i s.linked sb.length db.length (H, out ++ (sb ++ db)) with
      | error e => simp only [hul] at h; cases h
      | ok st =>
        obtain ⟨H2, out2⟩ := st
        simp only [hul] at h
        have hstep : HdrInv P cs0 H2 out2 (post ++ (sb ++ db)) ∧
            ∀ q key, (s.linked = true → ¬ ((q = lenPos k ∨ q = dataPos k) ∧ key = [(i : Int)])) →
              H2 q key = H q key := by
          unfold updateLengths at hul
          by_cases hl : s.linked = true
          · simp only [hl, if_true] at hul
            cases hu1 : updateHeader P cs0 k.lenFields.1 [(i : Int)] sb.length
                (H, out ++ (sb ++ db)) with
            | error e => simp only [hu1] at hul; cases hul
            | ok st1 =>
              obtain ⟨H1, out1⟩ := st1
              simp only [hu1] at hul
              obtain ⟨f1, a1, a2, _⟩ := (lenField k).at_
              obtain ⟨f2, b1, b2, _⟩ := (dataField k).at_
              obtain ⟨e1, I1⟩ := updateHeader_ok P (lenField k).res a1 (plainInt_spec a2).2.2.2.1
                (lenField k).unref hI1 hu1
              obtain ⟨e2, I2⟩ := updateHeader_ok P (dataField k).res b1 (plainInt_spec b2).2.2.2.1
                (dataField k).unref I1 hul
              refine ⟨I2, ?_⟩
              intro q key hq
              rw [e2, e1]; unfold Store.set
              rw [if_neg, if_neg]
              · rintro ⟨h1, h2⟩
                exact hq hl ⟨Or.inl h1, h2⟩
              · rintro ⟨h1, h2⟩
                exact hq hl ⟨Or.inr h1, h2⟩
          · simp only [hl] at hul
            injection hul with hul
            injection hul with h1 h2
            subst h1 h2
            exact ⟨hI1, fun _ _ _ => rfl⟩
        obtain ⟨I2, st2⟩ := hstep
        cases hrec : writeSegs P E IO cs0 k (i + 1) ss (H2, out2) with
        | error e => simp only [hrec] at h; cases h
        | ok r =>
          obtain ⟨ss2, H3, out3⟩ := r
          simp only [hrec] at h
          injection h with h
          injection h with h1 h2
          injection h2 with h2 h3
          subst h1 h2 h3
          obtain ⟨r1, r2⟩ := ih I2 hrec
          refine ⟨r1, ?_⟩
          intro q key hq
          rw [r2 q key, st2 q key]
          · intro hl
            have := hq 0 s (by simp) hl
            rwa [Nat.add_zero] at this
          · intro j s0 hs hl
            have := hq (j + 1) s0 (by simpa using hs) hl
            rwa [show i + 1 + j = i + (j + 1) by omega]

/-- Writing changes no other cell of the prepared header. -/
theorem writeFile_frame {f f' : NFile P.F IO.D} {out : Bytes} {h1 : Store P.F}
    {segs : SegKind → List (Seg P.F IO.D)} (hw : writeFile P E IO f = .ok (f', out))
    (hp : prepareFile P IO f = .ok (h1, segs)) {q : Nat} {key : Key} (hq : ¬ Touch segs q key) :
    f'.header q key = h1 q key := by
  rw [writeFile_parts, hp] at hw
  simp only [Except.bind] at hw
  unfold writePrepared at hw
  simp only [bind_ok, Prod.exists, pure, Except.pure] at hw
  obtain ⟨cs, c1, h2, o2, e7, s3, h3, o3, e8, s4, h4, o4, e9, s5, h5, o5, e10, s6, h6, o6, e11,
    s7, h7, o7, e12, h8, o8, e13, d6, e14, e15⟩ := hw
  injection e15 with e15
  injection e15 with e15 _
  rw [← e15]
  simp only
  have I0 : HdrInv P cs h1 (chunkBytes cs) [] := ⟨cs, c1, rfl, by simp⟩
  obtain ⟨fh, fh1, fh2, _⟩ := hlField.at_
  obtain ⟨ff, ff1, ff2, _⟩ := flField.at_
  obtain ⟨t2, I2⟩ := updateHeader_ok P hlField.res fh1 (plainInt_spec fh2).2.2.2.1 hl_unref I0 e7
  have hk : ∀ k (j : Nat) s, (segs k)[j]? = some s → s.linked = true →
      ¬ ((q = lenPos k ∨ q = dataPos k) ∧ key = [((0 + j : Nat) : Int)]) := by
    rintro k j s hs hl ⟨h, hk⟩
    rw [Nat.zero_add] at hk
    exact hq (Or.inr (Or.inr ⟨k, j, s, hs, hl, h, hk⟩))
  obtain ⟨⟨_, I3⟩, t3⟩ := writeSegs_frame I2 e8
  obtain ⟨⟨_, I4⟩, t4⟩ := writeSegs_frame I3 e9
  obtain ⟨⟨_, I5⟩, t5⟩ := writeSegs_frame I4 e10
  obtain ⟨⟨_, I6⟩, t6⟩ := writeSegs_frame I5 e11
  obtain ⟨⟨_, I7⟩, t7⟩ := writeSegs_frame I6 e12
  obtain ⟨t8, _⟩ := updateHeader_ok P flField.res ff1 (plainInt_spec ff2).2.2.2.1 fl_unref I7 e13
  rw [t8]
  unfold Store.set
  rw [if_neg (fun h => hq (Or.inl h)), t7 q key (hk .res), t6 q key (hk .des), t5 q key (hk .text),
    t4 q key (hk .graphic), t3 q key (hk .image), t2]
  unfold Store.set
  rw [if_neg (fun h => hq (Or.inr (Or.inl h)))]

/-- A cell whose assignment does not change what is written where. -/
structure Assignable (cs : List Chunk) (h1 : Store P.F) (q : Nat) (key : Key) (w : Nat) : Prop where
  field : ∃ nm sh fi, resolve Tables.t_file_header.tab nm = some q ∧ Sized q w sh fi ∧
    ∀ H : Store P.F, (∀ k, H (numPos k) [] = h1 (numPos k) []) →
      checkIndex P (look P Tables.t_file_header.tab H) fi key = .ok ()
  unref : Tables.t_file_header.unreferenced q = true
  present : ∃ ch ∈ cs, ch.pos = q ∧ ch.key = key
  notNum : ∀ k, q ≠ numPos k

/-- A header that differs from one that can be written only in numbers that fit. -/
theorem writes_fit {cs : List Chunk} {h1 X : Store P.F} (hw : writeChunks P Tables.t_file_header h1 = .ok cs) :
    ∀ (L : List (Nat × Key)),
      (∀ c ∈ L, ∃ w, ∃ v : Nat, Assignable cs h1 c.1 c.2 w ∧
        X c.1 c.2 = some ⟨.val (.int v), none⟩ ∧ v < 10 ^ w) →
      (∀ n fi, Tables.t_file_header.tab[n]? = some fi → ∀ key, (n, key) ∉ L →
        stored X fi.fd n key = stored h1 fi.fd n key) →
      ∃ cs', writeChunks P Tables.t_file_header X = .ok cs' ∧
        cs'.map Chunk.slot = cs.map Chunk.slot := by
  have main : ∀ (L : List (Nat × Key)) (H : Store P.F) (out post : Bytes),
      HdrInv P cs H out post → (∀ k, H (numPos k) [] = h1 (numPos k) []) →
      (∀ c ∈ L, ∃ w, ∃ v : Nat, Assignable cs h1 c.1 c.2 w ∧
        X c.1 c.2 = some ⟨.val (.int v), none⟩ ∧ v < 10 ^ w) →
      (∀ n fi, Tables.t_file_header.tab[n]? = some fi → ∀ key, (n, key) ∉ L →
        stored X fi.fd n key = stored H fi.fd n key) →
      ∃ cs', writeChunks P Tables.t_file_header X = .ok cs' ∧
        cs'.map Chunk.slot = cs.map Chunk.slot := by
    intro L
    induction L with
    | nil =>
      intro H out post hI _ _ hoff
      obtain ⟨cs', w1, w2, _⟩ := hI.written
      refine ⟨cs', ?_, w2⟩
      rw [writeChunks_same P (S' := H) fun n fi hn key => hoff n fi hn key (by simp)]
      exact w1
    | cons c L ih =>
      intro H out post hI hn hL hoff
      obtain ⟨w, v, ha, hX, hv⟩ := hL c (by simp)
      obtain ⟨nm, sh, fi, f1, f2, f3⟩ := ha.field
      obtain ⟨o, u1, _⟩ := updateHeader_succ f1 f2 ha.unref hI ha.present (f3 H hn) hv
      obtain ⟨_, I1⟩ := updateHeader_ok P f1 f2.at_ (plainInt_spec f2.int).2.2.2.1 ha.unref hI u1
      refine ih _ _ _ I1 ?_ (fun c hc => hL c (by simp [hc])) ?_
      · intro k
        unfold Store.set
        rw [if_neg (by rintro ⟨h, _⟩; exact ha.notNum k h.symm), hn]
      · intro n fi hn key hnot
        by_cases he : n = c.1 ∧ key = c.2
        · obtain ⟨rfl, rfl⟩ := he
          unfold stored Store.set
          rw [hX, if_pos ⟨rfl, rfl⟩]
        · rw [hoff n fi hn key]
          · unfold stored Store.set
            rw [if_neg he]
          · rw [List.mem_cons]
            rintro (h | h)
            · exact he ⟨congrArg Prod.fst h, congrArg Prod.snd h⟩
            · exact hnot h
  intro L hL hoff
  exact main L h1 (chunkBytes cs) [] ⟨cs, hw, rfl, by simp⟩ (fun _ => rfl) hL hoff

/-- The cells of the lengths of all segments. -/
def lengthCells (n : SegKind → Nat) : List (Nat × Key) :=
  (flPos, []) :: (hlPos, []) :: SegKind.order.flatMap fun k => (List.range (n k)).flatMap fun (j : Nat) =>
    [(lenPos k, [(j : Int)]), (dataPos k, [(j : Int)])]

theorem touch_mem {segs : SegKind → List (Seg P.F IO.D)} {q : Nat} {key : Key}
    (h : Touch segs q key) : (q, key) ∈ lengthCells fun k => (segs k).length := by
  unfold lengthCells
  rcases h with ⟨rfl, rfl⟩ | ⟨rfl, rfl⟩ | ⟨k, j, s, hs, _, hq, rfl⟩
  · simp
  · simp
  · refine List.mem_cons_of_mem _ (List.mem_cons_of_mem _ (List.mem_flatMap.mpr ⟨k, ?_, ?_⟩))
    · cases k <;> decide
    · refine List.mem_flatMap.mpr ⟨j, List.mem_range.mpr (lt_of_getElem? hs), ?_⟩
      rcases hq with rfl | rfl <;> simp

end Verif.Attempt
