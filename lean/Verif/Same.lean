import Verif.FileRun

/-
Two states of a structure with the same stored values.  A cell that was never assigned holds the
default; assigning the default explicitly changes the dictionaries but nothing that can be seen.
Every operation used by `NitfFile.write` respects this equivalence.
-/

namespace Verif

variable (P : PyFloat)

/-- The same stored value in every cell of the description. -/
def SameVal (T : Tab) (S S' : Store P.F) : Prop :=
  ∀ (n : Nat) (fi : FInfo), T[n]? = some fi → ∀ key, stored S fi.fd n key = stored S' fi.fd n key

variable {P}

theorem SameVal.refl (T : Tab) (S : Store P.F) : SameVal P T S S := fun _ _ _ _ => rfl

theorem SameVal.symm {T : Tab} {S S' : Store P.F} (h : SameVal P T S S') : SameVal P T S' S :=
  fun n fi hn key => (h n fi hn key).symm

theorem SameVal.trans {T : Tab} {S S' S'' : Store P.F} (h : SameVal P T S S')
    (h' : SameVal P T S' S'') : SameVal P T S S'' :=
  fun n fi hn key => (h n fi hn key).trans (h' n fi hn key)

theorem SameVal.set {T : Tab} {S S' : Store P.F} (h : SameVal P T S S') (n : Nat) (key : Key)
    (c : Cell P.F) : SameVal P T (S.set n key c) (S'.set n key c) := by
  intro m fi hm k
  have := h m fi hm k
  unfold stored at this ⊢
  unfold Store.set
  by_cases hc : m = n ∧ k = key
  · rw [if_pos hc, if_pos hc]
  · rw [if_neg hc, if_neg hc]; exact this

/-- Assigning the value that is already stored. -/
theorem SameVal.set_self {T : Tab} {S : Store P.F} {n : Nat} {key : Key} {c : Cell P.F}
    (h : ∀ fi, T[n]? = some fi → stored S fi.fd n key = c.val) :
    SameVal P T (S.set n key c) S := by
  intro m fi hm k
  by_cases hc : m = n ∧ k = key
  · obtain ⟨rfl, rfl⟩ := hc
    rw [h fi hm]
    simp [stored, Store.set]
  · unfold stored Store.set
    rw [if_neg hc]

variable (P)

theorem lowGet_same {l : Look P.F} {S S' : Store P.F} {fi : FInfo} {n : Nat} {key : Key}
    (h : stored S fi.fd n key = stored S' fi.fd n key) :
    lowGet P l S fi n key = lowGet P l S' fi n key := by
  unfold lowGet
  rw [h]

theorem getF_same {T : Tab} {S S' : Store P.F} (h : SameVal P T S S') :
    ∀ (f n : Nat) (key : Key), getF P T S f n key = getF P T S' f n key := by
  intro f
  induction f with
  | zero => intro n key; rfl
  | succ f ih =>
    intro n key
    have hl : getF P T S f = getF P T S' f := by funext n key; exact ih n key
    unfold getF
    rw [hl]
    cases hn : T[n]? with
    | none => rfl
    | some fi =>
      simp only
      unfold getWith
      rw [lowGet_same P (h n fi hn key)]

theorem look_same {T : Tab} {S S' : Store P.F} (h : SameVal P T S S') :
    look P T S = look P T S' := by
  unfold look
  have : getF P T S (budget T) = getF P T S' (budget T) := by
    funext n key; exact getF_same P h _ n key
  rw [this]

theorem getItem_same {T : Tab} {S S' : Store P.F} (h : SameVal P T S S') (n : Nat) (key : Key) :
    getItem P T S n key = getItem P T S' n key := getF_same P h _ n key

theorem getAttr_same {d : Desc} {S S' : Store P.F} (h : SameVal P d.tab S S') (nm : Name)
    (key : Key) : getAttr P d S nm key = getAttr P d S' nm key := by
  unfold getAttr
  split
  · rfl
  · exact getItem_same P h _ _

theorem fieldBytes_same {l : Look P.F} {S S' : Store P.F} {fi : FInfo} {n : Nat} {key : Key}
    (h : stored S fi.fd n key = stored S' fi.fd n key) :
    fieldBytes P l S fi n key = fieldBytes P l S' fi n key := by
  unfold fieldBytes
  rw [h, lowGet_same P h]

theorem writeD_same {T : Tab} {S S' : Store P.F} (h : SameVal P T S S') (d : Desc) :
    ∀ (n : Nat) (key : Key), writeD P T S n key d = writeD P T S' n key d := by
  have hl := look_same P h
  induction d with
  | nil => intro n key; rfl
  | field fd r ih =>
    intro n key
    unfold writeD
    rw [hl]
    cases hn : T[n]? with
    | none => rfl
    | some fi =>
      simp only
      rw [fieldBytes_same P (h n fi hn key), ih]
  | loop e b r ihb ihr =>
    intro n key
    unfold writeD
    rw [hl, ihr]
    have : (fun i => writeD P T S n (key ++ [i]) b) = fun i => writeD P T S' n (key ++ [i]) b := by
      funext i; exact ihb _ _
    rw [this]

theorem writeChunks_same {d : Desc} {S S' : Store P.F} (h : SameVal P d.tab S S') :
    writeChunks P d S = writeChunks P d S' := writeD_same P h d 0 []

theorem writeStruct_same {d : Desc} {S S' : Store P.F} (h : SameVal P d.tab S S') :
    writeStruct P d S = writeStruct P d S' := by
  unfold writeStruct
  rw [writeChunks_same P h]

theorem setCheck_same {T : Tab} {S S' : Store P.F} (h : SameVal P T S S') (n : Nat) (key : Key)
    (v : Val P.F) : setCheck P T S n key v = setCheck P T S' n key v := by
  unfold setCheck
  rw [look_same P h]

theorem setF_same {T : Tab} : ∀ (f : Nat) {S S' : Store P.F}, SameVal P T S S' →
    ∀ (n : Nat) (key : Key) (v : Val P.F),
      SameVal P T (setF P T f S n key v).1 (setF P T f S' n key v).1 ∧
      (setF P T f S n key v).2 = (setF P T f S' n key v).2 := by
  intro f
  induction f with
  | zero => intro S S' h n key v; exact ⟨h, rfl⟩
  | succ f ih =>
    intro S S' h n key v
    unfold setF
    rw [setCheck_same P h]
    cases setCheck P T S' n key v with
    | error e => exact ⟨h, rfl⟩
    | ok r =>
      obtain ⟨fi, w⟩ := r
      have h1 := h.set n key ⟨.val w, none⟩
      simp only
      split
      · exact ⟨h1, rfl⟩
      · split
        · exact ⟨h1, rfl⟩
        · split
          · rw [look_same P h1]
            split
            · exact ⟨h1, rfl⟩
            · split <;> exact ⟨h1, rfl⟩
          · split
            · split
              · exact ⟨h1, rfl⟩
              · exact ⟨h1, rfl⟩
              · split
                · exact ⟨h1, rfl⟩
                · split
                  · exact ⟨h1, rfl⟩
                  · split
                    · exact ⟨h1, rfl⟩
                    · exact ih h1 _ _ _
            · exact ⟨h1, rfl⟩

theorem setItem_same {T : Tab} {S S' : Store P.F} (h : SameVal P T S S') (n : Nat) (key : Key)
    (v : Val P.F) : SameVal P T (setItem P T S n key v).1 (setItem P T S' n key v).1 ∧
      (setItem P T S n key v).2 = (setItem P T S' n key v).2 := setF_same P _ h n key v

theorem setA_same {d : Desc} {S S' : Store P.F} (h : SameVal P d.tab S S') {nm : Name} {v : Val P.F}
    {R : Store P.F} (hs : setA P d S nm v = .ok R) :
    ∃ R', setA P d S' nm v = .ok R' ∧ SameVal P d.tab R R' := by
  unfold setA setAttr at hs ⊢
  cases hr : resolve d.tab nm with
  | none =>
    rw [hr] at hs
    simp only at hs ⊢
    injection hs with hs
    subst hs
    exact ⟨S', rfl, h⟩
  | some n =>
    rw [hr] at hs
    simp only at hs ⊢
    obtain ⟨h1, h2⟩ := setItem_same P h n [] v
    generalize setItem P d.tab S n [] v = x at hs h1 h2
    generalize setItem P d.tab S' n [] v = y at h1 h2
    obtain ⟨x1, x2⟩ := x
    obtain ⟨y1, y2⟩ := y
    simp only at h1 h2
    subst h2
    cases x2 with
    | none =>
      simp only at hs ⊢
      injection hs with hs
      subst hs
      exact ⟨_, rfl, h1⟩
    | some e => simp only at hs; cases hs

theorem setAll_same {d : Desc} : ∀ {l : List (Name × Val P.F)} {S S' R : Store P.F},
    SameVal P d.tab S S' → setAll P d l S = .ok R →
    ∃ R', setAll P d l S' = .ok R' ∧ SameVal P d.tab R R'
  | [], S, S', R, h, hs => by
    unfold setAll at hs; injection hs with hs; subst hs; exact ⟨S', rfl, h⟩
  | (nm, v) :: l, S, S', R, h, hs => by
    unfold setAll at hs ⊢
    cases h1 : setA P d S nm v with
    | error e => rw [h1] at hs; cases hs
    | ok S1 =>
      rw [h1] at hs
      obtain ⟨S1', e1, e2⟩ := setA_same P h h1
      rw [e1]
      exact setAll_same e2 hs

theorem attrPos_same {d : Desc} {S S' : Store P.F} (h : SameVal P d.tab S S') (nm : Name) :
    attrPos P d S nm = attrPos P d S' nm := by
  unfold attrPos
  rw [getAttr_same P h]

theorem storeAreas_same {d : Desc} : ∀ {as : List Area} {hs : List Bytes} {S S' R : Store P.F},
    SameVal P d.tab S S' → storeAreas P d as hs S = .ok R →
    ∃ R', storeAreas P d as hs S' = .ok R' ∧ SameVal P d.tab R R' := by
  intro as
  induction as with
  | nil =>
    intro hs S S' R h hst
    unfold storeAreas at hst; injection hst with hst; subst hst; exact ⟨S', by unfold storeAreas; rfl, h⟩
  | cons a as ih =>
    intro hs S S' R h hst
    cases hs with
    | nil =>
      unfold storeAreas at hst; injection hst with hst; subst hst
      exact ⟨S', by unfold storeAreas; rfl, h⟩
    | cons b hs =>
      unfold storeAreas at hst ⊢
      rw [← attrPos_same P h]
      cases hp : attrPos P d S a.len with
      | error e => rw [hp] at hst; cases hst
      | ok pos =>
        rw [hp] at hst
        simp only at hst ⊢
        have key : ∀ (c : Prop) [Decidable c] {X X' Y : Store P.F} {nm : Name} {v : Val P.F},
            SameVal P d.tab X X' → (if c then setA P d X nm v else .ok X) = .ok Y →
            ∃ Y', (if c then setA P d X' nm v else .ok X') = .ok Y' ∧ SameVal P d.tab Y Y' := by
          intro c _ X X' Y nm v hX hY
          by_cases hc : c
          · rw [if_pos hc] at hY ⊢
            exact setA_same P hX hY
          · rw [if_neg hc] at hY ⊢
            injection hY with hY
            subst hY
            exact ⟨X', rfl, hX⟩
        cases h1 : (if pos = true then setA P d S a.ofl (.int 0) else .ok S) with
        | error e => rw [h1] at hst; cases hst
        | ok S1 =>
          rw [h1] at hst
          obtain ⟨S1', e1, e2⟩ := key _ h h1
          rw [e1]
          simp only at hst ⊢
          cases h2 : (if b.length > 0 then setA P d S1 a.data (.bytes b) else .ok S1) with
          | error e => rw [h2] at hst; cases hst
          | ok S2 =>
            rw [h2] at hst
            obtain ⟨S2', e3, e4⟩ := key _ e2 h2
            rw [e3]
            exact ih e4 hst

theorem prepareTreWrite_same {d : Desc} {areas : List Area} {ndes : Nat} {tres : List (Tre P.F)}
    {S S' R : Store P.F} {o : Option Bytes} (h : SameVal P d.tab S S')
    (hp : prepareTreWrite P d areas ndes tres S = .ok (R, o)) :
    ∃ R', prepareTreWrite P d areas ndes tres S' = .ok (R', o) ∧ SameVal P d.tab R R' := by
  unfold prepareTreWrite at hp ⊢
  generalize treWriteAll P tres = w at hp
  cases w with
  | error e => cases hp
  | ok ser =>
    simp only at hp ⊢
    cases h1 : storeAreas P d areas (place ser (areas.map fun _ => []) []).1 S with
    | error e => rw [h1] at hp; cases hp
    | ok S1 =>
      rw [h1] at hp
      obtain ⟨S1', e1, e2⟩ := storeAreas_same P h h1
      rw [e1]
      simp only at hp ⊢
      split
      · rename_i hov
        rw [if_pos hov] at hp
        cases areas with
        | nil => cases hp
        | cons a as =>
          simp only at hp ⊢
          cases h2 : setA P d S1 a.ofl (.int (ndes + 1)) with
          | error e => rw [h2] at hp; cases hp
          | ok S2 =>
            rw [h2] at hp
            obtain ⟨S2', e3, e4⟩ := setA_same P e2 h2
            rw [e3]
            simp only at hp ⊢
            injection hp with hp
            injection hp with hp1 hp2
            subst hp1 hp2
            exact ⟨S2', rfl, e4⟩
      · rename_i hov
        rw [if_neg hov] at hp
        injection hp with hp
        injection hp with hp1 hp2
        subst hp1 hp2
        exact ⟨S1', rfl, e2⟩

theorem getSecLoop_same {d : Desc} {S S' : Store P.F} : ∀ (l : List (Name × Nat)) (s : Sec P.F),
    (∀ x ∈ l, ∀ n, resolve d.tab x.1 = some n → getItem P d.tab S n [] = getItem P d.tab S' n []) →
    getSecLoop P d S l s = getSecLoop P d S' l s
  | [], s, _ => rfl
  | (nm, a) :: l, s, h => by
    unfold getSecLoop
    cases hr : resolve d.tab nm with
    | none => exact getSecLoop_same l s fun x hx => h x (by simp [hx])
    | some n =>
      simp only
      rw [h (nm, a) (by simp) n hr]
      split
      · rfl
      · exact getSecLoop_same l _ fun x hx => h x (by simp [hx])

theorem getSecurity_same {d : Desc} {S S' : Store P.F} (h : SameVal P d.tab S S') (pre : Name) :
    getSecurity P d S pre = getSecurity P d S' pre :=
  getSecLoop_same P _ _ fun _ _ n _ => getItem_same P h n []

/-! ### Segments and files -/

variable (E : Env) (IO : DataIO P.F)

/-- The same segment, up to unassigned cells. -/
structure SegEqv (k : SegKind) (s s' : Seg P.F IO.D) : Prop where
  linked : s'.linked = s.linked
  user : s'.user = s.user
  tres : s'.tres = s.tres
  data : s'.data = s.data
  sub : SameVal P k.desc.tab s.sub s'.sub

theorem SegEqv.refl (k : SegKind) (s : Seg P.F IO.D) : SegEqv P IO k s s :=
  ⟨rfl, rfl, rfl, rfl, .refl _ _⟩

theorem SegEqv.trans {k : SegKind} {s s' s'' : Seg P.F IO.D} (h : SegEqv P IO k s s')
    (h' : SegEqv P IO k s' s'') : SegEqv P IO k s s'' :=
  ⟨h'.linked.trans h.linked, h'.user.trans h.user, h'.tres.trans h.tres, h'.data.trans h.data,
    h.sub.trans h'.sub⟩

/-- The same file, up to unassigned cells. -/
structure FileEqv (f f' : NFile P.F IO.D) : Prop where
  header : SameVal P Tables.t_file_header.tab f.header f'.header
  tres : f'.tres = f.tres
  segs : ∀ k, Each (SegEqv P IO k) (f.segs k) (f'.segs k)

theorem Each.transR {α : Type} {R : α → α → Prop} (hR : ∀ a b c, R a b → R b c → R a c)
    {l l' l'' : List α} (h : Each R l l') (h' : Each R l' l'') : Each R l l'' := by
  induction h generalizing l'' with
  | nil => cases h'; exact .nil
  | cons h1 _ ih =>
    cases h' with
    | cons h2 h3 => exact .cons (hR _ _ _ h1 h2) (ih h3)

theorem FileEqv.refl (f : NFile P.F IO.D) : FileEqv P IO f f :=
  ⟨.refl _ _, rfl, fun k => Each.refl (SegEqv.refl P IO k) _⟩

theorem FileEqv.trans {f f' f'' : NFile P.F IO.D} (h : FileEqv P IO f f')
    (h' : FileEqv P IO f' f'') : FileEqv P IO f f'' :=
  ⟨h.header.trans h'.header, h'.tres.trans h.tres, fun k =>
    Each.transR (R := SegEqv P IO k) (fun _ _ _ h1 h2 => h1.trans P IO h2) (h.segs k) (h'.segs k)⟩

/-- Overflow segments made are equal, the lists before are the same up to unassigned cells. -/
theorem prepareHeader_same {d : Desc} {areas : List Area} {pre : Name} {ofl : Str} {i : Nat}
    {tres : List (Tre P.F)} {S S' R : Store P.F} {des des' rdes : List (Seg P.F IO.D)}
    (h : SameVal P d.tab S S') (hd : Each (SegEqv P IO .des) des des')
    (hp : prepareHeader P IO d areas pre ofl i tres S des = .ok (R, rdes)) :
    ∃ R' rdes', prepareHeader P IO d areas pre ofl i tres S' des' = .ok (R', rdes') ∧
      SameVal P d.tab R R' ∧ Each (SegEqv P IO .des) rdes rdes' := by
  unfold prepareHeader at hp ⊢
  rw [← hd.length]
  cases h1 : prepareTreWrite P d areas des.length tres S with
  | error e => rw [h1] at hp; cases hp
  | ok r =>
    obtain ⟨S1, o⟩ := r
    rw [h1] at hp
    obtain ⟨S1', e1, e2⟩ := prepareTreWrite_same P h h1
    rw [e1]
    cases o with
    | none =>
      simp only at hp ⊢
      injection hp with hp
      injection hp with hp1 hp2
      subst hp1 hp2
      exact ⟨_, _, rfl, e2, hd⟩
    | some b =>
      simp only at hp ⊢
      rw [← getSecurity_same P e2]
      cases h3 : getSecurity P d S1 pre with
      | error e => rw [h3] at hp; cases hp
      | ok sec =>
        rw [h3] at hp
        simp only at hp ⊢
        cases h4 : overflowSeg P IO ofl i sec b with
        | error e => rw [h4] at hp; cases hp
        | ok s =>
          rw [h4] at hp
          simp only at hp ⊢
          injection hp with hp
          injection hp with hp1 hp2
          subst hp1 hp2
          exact ⟨_, _, rfl, e2, hd.append (.cons (.refl P IO _ _) .nil)⟩

theorem prepareSegs_same {k : SegKind} : ∀ {ss ss' rs des des' rdes : List (Seg P.F IO.D)} {i : Nat},
    Each (SegEqv P IO k) ss ss' → Each (SegEqv P IO .des) des des' →
    prepareSegs P IO k i ss des = .ok (rs, rdes) →
    ∃ rs' rdes', prepareSegs P IO k i ss' des' = .ok (rs', rdes') ∧
      Each (SegEqv P IO k) rs rs' ∧ Each (SegEqv P IO .des) rdes rdes' := by
  intro ss ss' rs des des' rdes i h
  induction h generalizing rs des des' rdes i with
  | nil =>
    intro hd hp
    unfold prepareSegs at hp
    injection hp with hp
    injection hp with hp1 hp2
    subst hp1 hp2
    exact ⟨[], des', by unfold prepareSegs; rfl, .nil, hd⟩
  | @cons s ss s' ss' h1 h2 ih =>
    intro hd hp
    unfold prepareSegs at hp ⊢
    cases ha : k.areas with
    | none =>
      rw [ha] at hp
      simp only at hp ⊢
      injection hp with hp
      injection hp with hp1 hp2
      subst hp1 hp2
      exact ⟨_, _, rfl, .cons h1 h2, hd⟩
    | some areas =>
      rw [ha] at hp
      simp only at hp ⊢
      cases h3 : prepareHeader P IO k.desc areas k.secPrefix k.oflName i s.tres s.sub des with
      | error e => rw [h3] at hp; cases hp
      | ok r =>
        obtain ⟨S1, des1⟩ := r
        rw [h3] at hp
        obtain ⟨S1', des1', e1, e2, e3⟩ := prepareHeader_same P IO h1.sub hd h3
        rw [h1.tres, e1]
        simp only at hp ⊢
        cases h4 : prepareSegs P IO k (i + 1) ss des1 with
        | error e => rw [h4] at hp; cases hp
        | ok r =>
          obtain ⟨rs1, rdes1⟩ := r
          rw [h4] at hp
          obtain ⟨rs1', rdes1', e4, e5, e6⟩ := ih e3 h4
          rw [e4]
          simp only at hp ⊢
          injection hp with hp
          injection hp with hp1 hp2
          subst hp1 hp2
          exact ⟨_, _, rfl, .cons ⟨h1.linked, h1.user, rfl, h1.data, e2⟩ e5, e6⟩

theorem dropOverflow_same {ss ss' rs : List (Seg P.F IO.D)} (h : Each (SegEqv P IO .des) ss ss')
    (hd : dropOverflow P IO ss = .ok rs) :
    ∃ rs', dropOverflow P IO ss' = .ok rs' ∧ Each (SegEqv P IO .des) rs rs' := by
  induction h generalizing rs with
  | nil =>
    unfold dropOverflow at hd
    injection hd with hd
    subst hd
    exact ⟨[], by unfold dropOverflow; rfl, .nil⟩
  | @cons s ss s' ss' h1 h2 ih =>
    unfold dropOverflow at hd ⊢
    have hg : getAttr P Tables.t_des_subheader s'.sub (n!"desid") [] =
        getAttr P Tables.t_des_subheader s.sub (n!"desid") [] := (getAttr_same P h1.sub _ _).symm
    rw [hg]
    split at hd
    · cases hd
    · cases h3 : dropOverflow P IO ss with
      | error e => rw [h3] at hd; cases hd
      | ok r =>
        rw [h3] at hd
        obtain ⟨r', e1, e2⟩ := ih h3
        rw [e1]
        simp only at hd ⊢
        injection hd with hd
        subst hd
        refine ⟨_, rfl, ?_⟩
        split
        · exact e2
        · exact .cons h1 e2
    · cases hd

theorem setUserData_same {k : SegKind} {S S' R : Store P.F} {v : Val P.F}
    (h : SameVal P k.desc.tab S S') (hs : setUserData P k S v = .ok R) :
    ∃ R', setUserData P k S' v = .ok R' ∧ SameVal P k.desc.tab R R' := by
  unfold setUserData at hs ⊢
  cases k with
  | des => exact setA_same P h hs
  | _ => simp only at hs ⊢; injection hs with hs; subst hs; exact ⟨S', rfl, h⟩

theorem writeUser_same {k : SegKind} {u : Option (Desc × Store P.F)} {S S' R : Store P.F}
    (h : SameVal P k.desc.tab S S') (hs : writeUser P k u S = .ok R) :
    ∃ R', writeUser P k u S' = .ok R' ∧ SameVal P k.desc.tab R R' := by
  unfold writeUser at hs ⊢
  cases u with
  | none => exact setUserData_same P h hs
  | some x =>
    obtain ⟨d, U⟩ := x
    simp only at hs ⊢
    cases hw : writeStruct P d U with
    | error e => rw [hw] at hs; cases hs
    | ok b =>
      rw [hw] at hs
      exact setUserData_same P h hs

theorem userCls_same {k : SegKind} {S S' : Store P.F} (h : SameVal P k.desc.tab S S') :
    userCls P E k S = userCls P E k S' := by
  unfold userCls
  cases k with
  | des => simp only; rw [getAttr_same P h]
  | res => simp only; rw [getAttr_same P h]
  | _ => rfl

theorem segBytes_same {k : SegKind} {s s' r : Seg P.F IO.D} {sb db : Bytes}
    (h : SegEqv P IO k s s') (hs : segBytes P E IO k s = .ok (r, sb, db)) :
    ∃ r', segBytes P E IO k s' = .ok (r', sb, db) ∧ SegEqv P IO k r r' := by
  unfold segBytes at hs ⊢
  have hc : checkUser P E IO k s' = checkUser P E IO k s := by
    unfold checkUser
    rw [h.linked, h.user, userCls_same P E h.sub]
  rw [hc, h.user, h.data]
  cases h1 : checkUser P E IO k s with
  | error e => rw [h1] at hs; cases hs
  | ok _ =>
    rw [h1] at hs
    simp only at hs ⊢
    cases h2 : writeUser P k s.user s.sub with
    | error e => rw [h2] at hs; cases hs
    | ok S1 =>
      rw [h2] at hs
      obtain ⟨S1', e1, e2⟩ := writeUser_same P h.sub h2
      rw [e1]
      simp only at hs ⊢
      rw [← writeStruct_same P e2]
      cases h3 : writeStruct P k.desc S1 with
      | error e => rw [h3] at hs; cases hs
      | ok b =>
        rw [h3] at hs
        simp only at hs ⊢
        cases h4 : writeData P IO s.data with
        | error e => rw [h4] at hs; cases hs
        | ok db' =>
          rw [h4] at hs
          simp only at hs ⊢
          injection hs with hs
          injection hs with hs1 hs2
          injection hs2 with hs2 hs3
          subst hs1 hs2 hs3
          exact ⟨_, rfl, h.linked, rfl, h.tres, rfl, e2⟩

theorem updateHeader_same {cs : List Chunk} {nm : Name} {key : Key} {v : Nat} {H H' R : Store P.F}
    {out ro : Bytes} (h : SameVal P Tables.t_file_header.tab H H')
    (hu : updateHeader P cs nm key v (H, out) = .ok (R, ro)) :
    ∃ R', updateHeader P cs nm key v (H', out) = .ok (R', ro) ∧
      SameVal P Tables.t_file_header.tab R R' := by
  unfold updateHeader at hu ⊢
  cases hr : resolve Tables.t_file_header.tab nm with
  | none => rw [hr] at hu; cases hu
  | some n =>
    rw [hr] at hu
    simp only at hu ⊢
    unfold updateField at hu ⊢
    obtain ⟨h1, h2⟩ := setItem_same P h n key (.int v)
    generalize setItem P Tables.t_file_header.tab H n key (.int v) = x at hu h1 h2
    generalize setItem P Tables.t_file_header.tab H' n key (.int v) = y at h1 h2
    obtain ⟨x1, x2⟩ := x
    obtain ⟨y1, y2⟩ := y
    simp only at h1 h2
    subst h2
    cases x2 with
    | some e => simp only at hu; cases hu
    | none =>
      simp only at hu ⊢
      cases hn : Tables.t_file_header.tab[n]? with
      | none => rw [hn] at hu; cases hu
      | some fi =>
        rw [hn] at hu
        simp only at hu ⊢
        rw [← look_same P h1, ← fieldBytes_same P (h1 n fi hn key)]
        generalize evalCond P (look P Tables.t_file_header.tab x1) fi key = c at hu
        cases c with
        | error e => simp only at hu; cases hu
        | ok c =>
          cases c with
          | false => simp only at hu; cases hu
          | true =>
            simp only at hu ⊢
            generalize locOf n key 0 cs = l at hu
            cases l with
            | none => simp only at hu; cases hu
            | some off =>
              simp only at hu ⊢
              generalize fieldBytes P (look P Tables.t_file_header.tab x1) x1 fi n key = b at hu
              cases b with
              | error e => simp only at hu; cases hu
              | ok b =>
                simp only at hu ⊢
                injection hu with hu
                injection hu with hu1 hu2
                subst hu1 hu2
                exact ⟨_, rfl, h1⟩

theorem updateLengths_same {cs : List Chunk} {k : SegKind} {i : Nat} {li : Bool} {a b : Nat}
    {H H' R : Store P.F} {out ro : Bytes} (h : SameVal P Tables.t_file_header.tab H H')
    (hu : updateLengths P cs k i li a b (H, out) = .ok (R, ro)) :
    ∃ R', updateLengths P cs k i li a b (H', out) = .ok (R', ro) ∧
      SameVal P Tables.t_file_header.tab R R' := by
  unfold updateLengths at hu ⊢
  cases li with
  | false =>
    simp only [Bool.false_eq_true, if_false] at hu ⊢
    injection hu with hu
    injection hu with hu1 hu2
    subst hu1 hu2
    exact ⟨H', rfl, h⟩
  | true =>
    simp only [if_true] at hu ⊢
    cases h1 : updateHeader P cs k.lenFields.1 [(i : Int)] a (H, out) with
    | error e => rw [h1] at hu; cases hu
    | ok r =>
      obtain ⟨R1, o1⟩ := r
      rw [h1] at hu
      obtain ⟨R1', e1, e2⟩ := updateHeader_same P h h1
      rw [e1]
      exact updateHeader_same P e2 hu

theorem writeSegs_same {cs : List Chunk} {k : SegKind} {ss ss' : List (Seg P.F IO.D)}
    (hss : Each (SegEqv P IO k) ss ss') :
    ∀ {rs : List (Seg P.F IO.D)} {i : Nat} {H H' R : Store P.F} {out ro : Bytes},
      SameVal P Tables.t_file_header.tab H H' →
      writeSegs P E IO cs k i ss (H, out) = .ok (rs, R, ro) →
      ∃ rs' R', writeSegs P E IO cs k i ss' (H', out) = .ok (rs', R', ro) ∧
        Each (SegEqv P IO k) rs rs' ∧ SameVal P Tables.t_file_header.tab R R' := by
  induction hss with
  | nil =>
    intro rs i H H' R out ro h hw
    unfold writeSegs at hw ⊢
    injection hw with hw
    injection hw with hw1 hw2
    injection hw2 with hw2 hw3
    subst hw1 hw2 hw3
    exact ⟨_, _, rfl, .nil, h⟩
  | @cons s ss s' ss' h1 _ ih =>
    intro rs i H H' R out ro h hw
    unfold writeSegs at hw ⊢
    cases h2 : segBytes P E IO k s with
    | error e => rw [h2] at hw; cases hw
    | ok r =>
      obtain ⟨t, sb, db⟩ := r
      rw [h2] at hw
      obtain ⟨t', e1, e2⟩ := segBytes_same P E IO h1 h2
      rw [e1, h1.linked]
      simp only at hw ⊢
      cases h3 : updateLengths P cs k i s.linked sb.length db.length (H, out ++ (sb ++ db)) with
      | error e => rw [h3] at hw; cases hw
      | ok st =>
        obtain ⟨R1, o1⟩ := st
        rw [h3] at hw
        obtain ⟨R1', e3, e4⟩ := updateLengths_same P h h3
        rw [e3]
        simp only at hw ⊢
        cases h4 : writeSegs P E IO cs k (i + 1) ss (R1, o1) with
        | error e => rw [h4] at hw; cases hw
        | ok r =>
          obtain ⟨rs1, R2, o2⟩ := r
          rw [h4] at hw
          obtain ⟨rs1', R2', e5, e6, e7⟩ := ih e4 h4
          rw [e5]
          simp only at hw ⊢
          injection hw with hw
          injection hw with hw1 hw2
          injection hw2 with hw2 hw3
          subst hw1 hw2 hw3
          exact ⟨_, _, rfl, .cons e2 e6, e7⟩

/-- Writing does not see the difference. -/
theorem writeFile_same {f g f' : NFile P.F IO.D} {out : Bytes} (h : FileEqv P IO f g)
    (hw : writeFile P E IO f = .ok (f', out)) :
    ∃ g', writeFile P E IO g = .ok (g', out) ∧ FileEqv P IO f' g' := by
  unfold writeFile at hw ⊢
  simp only [bind_ok, Prod.exists, pure, Except.pure] at hw ⊢
  obtain ⟨des0, e0, h0, des1, e1, im1, des2, e2, gr1, des3, e3, tx1, des4, e4, h1, e5, cs, e6, h2, o2,
    e7, im2, h3, o3, e8, gr2, h4, o4, e9, tx2, h5, o5, e10, des5, h6, o6, e11, res2, h7, o7, e12,
    h8, o8, e13, des6, e14, e15⟩ := hw
  injection e15 with e15
  injection e15 with e15 e16
  subst e15 e16
  obtain ⟨des0', a0, b0⟩ := dropOverflow_same P IO (h.segs .des) e0
  rw [← h.tres] at e1
  obtain ⟨h0', des1', a1, b1, c1⟩ := prepareHeader_same P IO h.header b0 e1
  obtain ⟨im1', des2', a2, b2, c2⟩ := prepareSegs_same P IO (h.segs .image) c1 e2
  obtain ⟨gr1', des3', a3, b3, c3⟩ := prepareSegs_same P IO (h.segs .graphic) c2 e3
  obtain ⟨tx1', des4', a4, b4, c4⟩ := prepareSegs_same P IO (h.segs .text) c3 e4
  have hres := h.segs .res
  obtain ⟨h1', a5, b5⟩ := setAll_same P b1 e5
  have lr : f.res.length = g.res.length := (h.segs .res).length
  rw [b2.length, b3.length, b4.length, c4.length, lr] at a5
  have a6 : writeChunks P Tables.t_file_header h1' = .ok cs := by
    rw [← writeChunks_same P b5]; exact e6
  obtain ⟨h2', a7, b7⟩ := updateHeader_same P b5 e7
  obtain ⟨im2', h3', a8, b8, c8⟩ := writeSegs_same P E IO b2 b7 e8
  obtain ⟨gr2', h4', a9, b9, c9⟩ := writeSegs_same P E IO b3 c8 e9
  obtain ⟨tx2', h5', a10, b10, c10⟩ := writeSegs_same P E IO b4 c9 e10
  obtain ⟨des5', h6', a11, b11, c11⟩ := writeSegs_same P E IO c4 c10 e11
  obtain ⟨res2', h7', a12, b12, c12⟩ := writeSegs_same P E IO hres c11 e12
  obtain ⟨h8', a13, b13⟩ := updateHeader_same P c12 e13
  obtain ⟨des6', a14, b14⟩ := dropOverflow_same P IO b11 e14
  refine ⟨{ header := h8', tres := g.tres, image := im2', graphic := gr2', text := tx2', des := des6', res := res2' },
    ⟨des0', a0, h0', des1', a1, im1', des2', a2, gr1', des3', a3, tx1', des4', a4, h1', a5, cs,
    a6, h2', o2, a7, im2', h3', o3, a8, gr2', h4', o4, a9, tx2', h5', o5, a10, des5', h6', o6, a11,
    res2', h7', o7, a12, h8', o8, a13, des6', a14, rfl⟩, b13, h.tres, ?_⟩
  intro k
  cases k <;> assumption

end Verif
