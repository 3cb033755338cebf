import Verif.AttemptHalf

/- The states `attempt` goes through. -/

namespace Verif.Attempt

open Verif

variable {P : PyFloat} {E : Env} {IO : DataIO P.F} {α β : Type}

/-! ### Rules -/

/-- From `s`, all states of `m` satisfy `inv`, and `post` holds if it returns. -/
def Runs (m : T P IO α) (s : Obj P IO) (inv : NFile P.F IO.D → Prop) (post : α → Obj P IO → Prop) :
    Prop :=
  (∀ t ∈ (m s).1, inv t.1) ∧ ∀ a s', (m s).2 = .ok (a, s') → post a s'

variable {inv : NFile P.F IO.D → Prop}

theorem runs_bind {m : T P IO α} {k : α → T P IO β} {s : Obj P IO} {mid : α → Obj P IO → Prop}
    {post : β → Obj P IO → Prop} (h : Runs m s inv mid)
    (hk : ∀ a s', mid a s' → Runs (k a) s' inv post) : Runs (m >>= k) s inv post := by
  unfold Runs at h ⊢
  rw [bind_eq]
  rcases hm : m s with ⟨l, _ | ⟨a, s'⟩⟩
  · rw [hm] at h
    exact ⟨h.1, by simp⟩
  · rw [hm] at h
    have h2 := hk a s' (h.2 a s' rfl)
    refine ⟨?_, h2.2⟩
    intro t ht
    rcases List.mem_append.mp ht with ht | ht
    · exact h.1 t ht
    · exact h2.1 t ht

theorem runs_imp {m : T P IO α} {s : Obj P IO} {post post' : α → Obj P IO → Prop}
    (h : Runs m s inv post) (hp : ∀ a s', post a s' → post' a s') : Runs m s inv post' :=
  ⟨h.1, fun a s' hr => hp a s' (h.2 a s' hr)⟩

theorem runs_res {m : T P IO α} {s : Obj P IO} {post : α → Obj P IO → Prop}
    (h : Runs m s inv post) : Runs m s inv fun a s' => post a s' ∧ (m s).2 = .ok (a, s') :=
  ⟨h.1, fun a s' hr => ⟨h.2 a s' hr, hr⟩⟩

theorem runs_get {s : Obj P IO} : Runs get s inv fun a s' => a = s ∧ s' = s := by
  refine ⟨(by intro t ht; cases ht), ?_⟩
  intro a s' h
  injection h with h
  injection h with h1 h2
  exact ⟨h1.symm, h2.symm⟩

theorem runs_put {s t : Obj P IO} (h : inv t.1) : Runs (put t) s inv fun _ s' => s' = t := by
  refine ⟨(by intro x hx; rw [List.mem_singleton.mp hx]; exact h), ?_⟩
  intro a s' h
  injection h with h
  injection h with h1 h2
  exact h2.symm

theorem runs_lift {x : Except Err α} {s : Obj P IO} :
    Runs (lift x) s inv fun a s' => x = .ok a ∧ s' = s := by
  cases x with
  | error e => exact ⟨(by intro t ht; cases ht), (by intro a s' h; cases h)⟩
  | ok v =>
    refine ⟨(by intro t ht; cases ht), ?_⟩
    intro a s' h
    injection h with h
    injection h with h1 h2
    exact ⟨congrArg _ h1, h2.symm⟩

theorem runs_raise {e : Err} {s : Obj P IO} {post : α → Obj P IO → Prop} :
    Runs (raise e) s inv post :=
  ⟨(by intro t ht; cases ht), (by intro a s' h; cases h)⟩

theorem runs_pure {a : α} {s : Obj P IO} {post : α → Obj P IO → Prop} (h : post a s) :
    Runs (pure a) s inv post := by
  refine ⟨(by intro t ht; cases ht), ?_⟩
  intro a' s' hh
  injection hh with hh
  injection hh with h1 h2
  subst h1 h2
  exact h

/-! ### Repairs -/

/-- A change of the data, the user subheaders and the TREs of segments.  TREs that can be
serialised are left alone. -/
structure Repair (P : PyFloat) (IO : DataIO P.F) where
  parts : SegKind → Option (Desc × Store P.F) × SegData IO.D × List (Tre P.F) →
    Option (Desc × Store P.F) × SegData IO.D × List (Tre P.F)
  file : List (Tre P.F) → List (Tre P.F)
  keeps : ∀ k x b, treWriteAll P x.2.2 = .ok b → (parts k x).2.2 = x.2.2
  keepsFile : ∀ l b, treWriteAll P l = .ok b → file l = l

def Repair.seg (φ : Repair P IO) (k : SegKind) (s : Seg P.F IO.D) : Seg P.F IO.D :=
  let p := φ.parts k (s.user, s.data, s.tres)
  { s with user := p.1, data := p.2.1, tres := p.2.2 }

def Repair.apply (φ : Repair P IO) (f : NFile P.F IO.D) : NFile P.F IO.D :=
  { header := f.header, tres := φ.file f.tres, image := f.image.map (φ.seg .image),
    graphic := f.graphic.map (φ.seg .graphic), text := f.text.map (φ.seg .text),
    des := f.des.map (φ.seg .des), res := f.res.map (φ.seg .res) }

/-- No change. -/
def Repair.none : Repair P IO := ⟨fun _ x => x, id, fun _ _ _ _ => rfl, fun _ _ _ => rfl⟩

theorem Repair.none_apply (f : NFile P.F IO.D) : (Repair.none : Repair P IO).apply f = f := by
  have : ∀ k, (Repair.none : Repair P IO).seg k = id := fun k => rfl
  unfold Repair.apply
  simp only [this, List.map_id]
  rfl

theorem Repair.segs (φ : Repair P IO) (f : NFile P.F IO.D) (k : SegKind) :
    (φ.apply f).segs k = (f.segs k).map (φ.seg k) := by cases k <;> rfl

theorem Repair.near (φ : Repair P IO) {s s' : Seg P.F IO.D} (h : DesNear s s') :
    DesNear (φ.seg .des s) (φ.seg .des s') := by
  obtain ⟨h1, h2, h3, h4, h5⟩ := h
  unfold Repair.seg
  refine ⟨h1, ?_, ?_, ?_, h5⟩ <;> simp only [h2, h3, h4]

theorem Repair.nears (φ : Repair P IO) {l l' : List (Seg P.F IO.D)} (h : Each DesNear l l') :
    Each DesNear (l.map (φ.seg .des)) (l'.map (φ.seg .des)) := by
  induction h with
  | nil => exact .nil
  | cons h1 _ ih => exact .cons (φ.near h1) ih

theorem dropOverflow_map (φ : Repair P IO) (l : List (Seg P.F IO.D)) :
    dropOverflow P IO (l.map (φ.seg .des)) =
      match dropOverflow P IO l with
      | .error e => .error e
      | .ok l' => .ok (l'.map (φ.seg .des)) := by
  induction l with
  | nil => rfl
  | cons s l ih =>
    rw [List.map_cons]
    unfold dropOverflow
    rw [ih]
    have : (φ.seg .des s).sub = s.sub := rfl
    rw [this]
    cases getAttr P Tables.t_des_subheader s.sub (n!"desid") [] with
    | error e => rfl
    | ok v =>
      cases v with
      | str id =>
        simp only
        cases dropOverflow P IO l with
        | error e => rfl
        | ok l' =>
          simp only
          split <;> simp
      | _ => rfl

theorem treWriteAll_of_prepare {d : Desc} {areas : List Area} {pre : Name} {ofl : Str} {i : Nat}
    {tres : List (Tre P.F)} {S : Store P.F} {des : List (Seg P.F IO.D)} {r}
    (h : prepareHeader P IO d areas pre ofl i tres S des = .ok r) :
    ∃ b, treWriteAll P tres = .ok b := by
  unfold prepareHeader prepareTreWrite at h
  cases ht : treWriteAll P tres with
  | ok b => exact ⟨b, rfl⟩
  | error e => rw [ht] at h; cases h

/-! ### The phases -/

/-- The DES segments of the file, and the overflow segments made so far. -/
def DesState (des : List (Seg P.F IO.D)) (φ : Repair P IO) (dF dG : List (Seg P.F IO.D)) : Prop :=
  ∃ ov, (∀ s ∈ ov, IsOverflow P IO s) ∧ dF = des.map (φ.seg .des) ++ ov ∧ dG = des ++ ov

theorem DesState.length {des : List (Seg P.F IO.D)} {φ : Repair P IO} {dF dG : List (Seg P.F IO.D)}
    (h : DesState des φ dF dG) : dG.length = dF.length := by
  obtain ⟨ov, _, rfl, rfl⟩ := h
  simp

/-- One more header with TREs. -/
theorem DesState.step {des : List (Seg P.F IO.D)} {φ : Repair P IO} {dF dG : List (Seg P.F IO.D)}
    (h : DesState des φ dF dG) {d : Desc} {areas : List Area} {pre : Name} {ofl : Str} {i : Nat}
    {tres : List (Tre P.F)} {S S1 S2 : Store P.F} {dF' dG' : List (Seg P.F IO.D)}
    (hF : prepareHeader P IO d areas pre ofl i tres S dF = .ok (S1, dF'))
    (hG : prepareHeader P IO d areas pre ofl i tres S dG = .ok (S2, dG')) :
    S2 = S1 ∧ DesState des φ dF' dG' := by
  obtain ⟨ov', o1, o2, o3⟩ := prepareHeader_des hF h.length
  rw [hG] at o3
  injection o3 with o3
  injection o3 with e1 e2
  obtain ⟨ov, h1, h2, h3⟩ := h
  refine ⟨e1, ov ++ ov', ?_, by rw [o1, h2]; simp, by rw [e2, h3]; simp⟩
  intro s hs
  rcases List.mem_append.mp hs with hs | hs
  · exact h1 s hs
  · exact o2 s hs

theorem runs_prepareEach (φ : Repair P IO) (des : List (Seg P.F IO.D)) (k : SegKind) (hk : k ≠ .des)
    (areas : List Area) (ha : k.areas = some areas) (out : Bytes) :
    ∀ (rest done : List (Seg P.F IO.D)) (f : NFile P.F IO.D) (dF rest1 dF' : List (Seg P.F IO.D)),
      prepareSegs P IO k done.length (rest.map (φ.seg k)) dF = .ok (rest1, dF') →
      DesState des φ dF f.des → f.segs k = done ++ rest →
      (∀ ys dF dG, Mix (rest.map (φ.seg k)) rest1 (ys.map (φ.seg k)) → DesState des φ dF dG →
        inv { setSegs f k (done ++ ys) with des := dG }) →
      Runs (prepareEach k areas done rest) (f, out) inv fun _ s' =>
        ∃ rs dG, s' = ({ setSegs f k (done ++ rs) with des := dG }, out) ∧
          rs.map (φ.seg k) = rest1 ∧ DesState des φ dF' dG := by
  intro rest
  induction rest with
  | nil =>
    intro done f dF rest1 dF' hp hd hf _
    simp only [List.map_nil, prepareSegs] at hp
    injection hp with hp
    injection hp with e1 e2
    subst e1 e2
    refine runs_pure ⟨[], f.des, ?_, rfl, hd⟩
    rw [← hf, setSegs_self]
  | cons s ss ih =>
    intro done f dF rest1 dF' hp hd hf hinv
    rw [List.map_cons] at hp
    unfold prepareSegs at hp
    simp only [ha] at hp
    unfold prepareEach
    refine runs_bind runs_get ?_
    rintro _ _ ⟨rfl, rfl⟩
    simp only
    refine runs_bind runs_lift ?_
    rintro ⟨S', dG'⟩ _ ⟨hG, rfl⟩
    simp only
    obtain ⟨b, hb⟩ := treWriteAll_of_prepare hG
    have htr : (φ.seg k s).tres = s.tres := φ.keeps k (s.user, s.data, s.tres) b hb
    have hsub : (φ.seg k s).sub = s.sub := rfl
    rw [htr, hsub] at hp
    cases h1 : prepareHeader P IO k.desc areas k.secPrefix k.oflName done.length s.tres s.sub dF with
    | error e => rw [h1] at hp; cases hp
    | ok r =>
    obtain ⟨S1, dF1⟩ := r
    rw [h1] at hp
    simp only at hp
    cases h2 : prepareSegs P IO k (done.length + 1) (ss.map (φ.seg k)) dF1 with
    | error e => rw [h2] at hp; cases hp
    | ok r =>
    obtain ⟨ss1, dF2⟩ := r
    rw [h2] at hp
    simp only at hp
    injection hp with hp
    injection hp with e1 e2
    subst e1 e2
    obtain ⟨rfl, hd'⟩ := hd.step h1 hG
    have hφ : φ.seg k { s with sub := S' } =
        ⟨(φ.seg k s).linked, S', (φ.seg k s).user, s.tres, (φ.seg k s).data⟩ :=
      Eq.trans rfl (congrArg (fun t =>
        (⟨(φ.seg k s).linked, S', (φ.seg k s).user, t, (φ.seg k s).data⟩ : Seg P.F IO.D)) htr)
    have hold : ∀ (l : List (Seg P.F IO.D)) (l1 : List (Seg P.F IO.D)), l.length = l1.length →
        Mix l l1 l := by
      intro l
      induction l with
      | nil => intro l1 h; cases l1 with
        | nil => exact .nil
        | cons _ _ => cases h
      | cons a l ih => intro l1 h; cases l1 with
        | nil => cases h
        | cons b l1 => exact .old (ih l1 (by simpa using h))
    have hlen : (ss.map (φ.seg k)).length = ss1.length :=
      ((prepareSegs_ok P IO h2).1 _ (List.prefix_refl _)).length
    refine runs_bind (runs_put (hinv ({ s with sub := S' } :: ss) _ _ ?_ hd')) ?_
    · rw [List.map_cons, List.map_cons, hφ]
      exact .new (hold _ _ hlen)
    rintro _ _ rfl
    have hk2 : ∀ (g : NFile P.F IO.D) l d l', ({ setSegs { setSegs g k l with des := d } k l' with des := d } : NFile P.F IO.D) =
        { setSegs g k l' with des := d } := by
      intro g l d l'
      cases k <;> first | exact absurd rfl hk | rfl
    have hk3 : ∀ (g : NFile P.F IO.D) l d d' l', ({ setSegs { setSegs g k l with des := d } k l' with des := d' } : NFile P.F IO.D) =
        { setSegs g k l' with des := d' } := by
      intro g l d d' l'
      cases k <;> first | exact absurd rfl hk | rfl
    refine runs_imp (ih (done ++ [{ s with sub := S' }]) _ dF1 ss1 dF2 ?_ hd' ?_ ?_) ?_
    · rw [List.length_append]; exact h2
    · cases k <;> first | exact absurd rfl hk | simp [setSegs, NFile.segs]
    · intro ys dF dG hm hd
      rw [hk3]
      have := hinv ({ s with sub := S' } :: ys) dF dG (by
        rw [List.map_cons, List.map_cons, hφ]
        exact .new hm) hd
      simpa using this
    · rintro _ s' ⟨rs, dG, rfl, r1, r2⟩
      refine ⟨{ s with sub := S' } :: rs, dG, ?_, by rw [List.map_cons, r1, hφ], r2⟩
      rw [hk3]
      simp

theorem setA_num (k : SegKind) (S : Store P.F) (z : Int) :
    setA P Tables.t_file_header S k.numField (.int z) =
      .ok (S.set (numPos k) [] ⟨.val (.int z), none⟩) := by
  obtain ⟨fi, h1, h2, h3⟩ := (numField k).at_
  obtain ⟨p1, p2, p3, p4, p5, p6⟩ := plainInt_spec h2
  have hsc : Scalar fi := ⟨p1, h3, p2, p3⟩
  unfold setA setAttr
  rw [(numField k).res]
  simp only
  unfold setItem budget
  rw [hsc.set_plain P p4 h1 (evalCond_none P p6 _ _) rfl]

theorem runs_countEach {h0 : Store P.F} (out : Bytes) : ∀ (l : List (SegKind × Nat)) (f : NFile P.F IO.D),
    (∀ q key, (∀ k, ¬ (q = numPos k ∧ key = [])) → f.header q key = h0 q key) →
    (∀ H : Store P.F, (∀ q key, (∀ k, ¬ (q = numPos k ∧ key = [])) → H q key = h0 q key) →
      inv { f with header := H }) →
    Runs (countEach (l.map fun x => (x.1.numField, .int x.2))) (f, out) inv fun _ _ => True := by
  intro l
  induction l with
  | nil => intro f _ _; exact runs_pure trivial
  | cons x l ih =>
    intro f hf hinv
    rw [List.map_cons]
    unfold countEach
    refine runs_bind runs_get ?_
    rintro _ _ ⟨rfl, rfl⟩
    simp only
    refine runs_bind runs_lift ?_
    rintro H _ ⟨hH, rfl⟩
    rw [setA_num] at hH
    injection hH with hH
    have hoff : ∀ q key, (∀ k, ¬ (q = numPos k ∧ key = [])) → H q key = h0 q key := by
      intro q key hq
      rw [← hH]
      unfold Store.set
      rw [if_neg (hq x.1), hf q key hq]
    refine runs_bind (runs_put (hinv H hoff)) ?_
    rintro _ _ rfl
    exact ih _ hoff fun H' hH' => hinv H' hH'

/-- An update of a cell. -/
theorem runs_updateStep {cs : List Chunk} {nm : Name} {n w : Nat} {sh : List Expr} {fi : FInfo}
    (hr : resolve Tables.t_file_header.tab nm = some n) (hz : Sized n w sh fi) {key : Key} {v : Nat}
    {f : NFile P.F IO.D} {out : Bytes}
    (hc : checkIndex P (look P Tables.t_file_header.tab f.header) fi key = .ok ())
    (hinv : inv { f with header := f.header.set n key ⟨.val (.int v), none⟩ }) :
    Runs (updateStep cs nm key v) (f, out) inv fun _ s' =>
      s'.1 = { f with header := f.header.set n key ⟨.val (.int v), none⟩ } := by
  unfold updateStep
  refine runs_bind runs_get ?_
  rintro _ _ ⟨rfl, rfl⟩
  simp only [hr]
  have hset : (updateField P Tables.t_file_header cs 0 f.header ⟨out, out.length⟩ n key (.int v)).1 =
      f.header.set n key ⟨.val (.int v), none⟩ := by
    unfold updateField
    rw [hz.setItem hc]
    simp only [hz.at_]
    repeat' split
    all_goals rfl
  rcases hu : updateField P Tables.t_file_header cs 0 f.header ⟨out, out.length⟩ n key (.int v) with
    ⟨S', _ | fh⟩
  · rw [hu] at hset
    simp only at hset ⊢
    rw [hset]
    exact runs_bind (runs_put hinv) fun _ _ _ => runs_raise
  · rw [hu] at hset
    simp only at hset ⊢
    rw [hset]
    refine runs_bind (runs_put hinv) ?_
    rintro _ _ rfl
    refine runs_imp (runs_put (inv := inv) hinv) ?_
    rintro _ _ rfl
    rfl

theorem touch_num {segs : SegKind → List (Seg P.F IO.D)} {k : SegKind} : ¬ Touch segs (numPos k) [] := by
  rintro (⟨h, _⟩ | ⟨h, _⟩ | ⟨_, _, _, _, _, _, h⟩)
  · revert h; cases k <;> decide
  · revert h; cases k <;> decide
  · cases h

/-- A length is recorded. -/
theorem HdrNear.setLen {segs : SegKind → List (Seg P.F IO.D)} {cs : List Chunk} {h0 X : Store P.F}
    (h : HdrNear segs cs h0 X)
    (hn : ∀ k, X (numPos k) [] = some ⟨.val (.int ((segs k).length : Nat)), none⟩)
    {k : SegKind} {j : Nat} {s : Seg P.F IO.D} (hs : (segs k)[j]? = some s) (hl : s.linked = true)
    {q : Nat} (hq : q = lenPos k ∨ q = dataPos k) (v : Nat) :
    HdrNear segs cs h0 (X.set q [(j : Int)] ⟨.val (.int v), none⟩) := by
  have hne : ∀ {q' : Nat} {key : Key}, ¬ (q' = q ∧ key = [(j : Int)]) →
      (X.set q [(j : Int)] ⟨.val (.int v), none⟩) q' key = X q' key := by
    intro q' key hh
    unfold Store.set
    rw [if_neg hh]
  refine ⟨?_, ?_, ?_, ?_⟩
  · intro q' key ht hk
    rw [hne, h.off q' key ht hk]
    rintro ⟨rfl, rfl⟩
    exact ht (.inr (.inr ⟨k, j, s, hs, hl, hq, rfl⟩))
  · rw [hne (by simp)]; exact h.hl
  · rw [hne (by simp)]; exact h.fl
  · intro k' j' s' hs' hl' q' hq'
    rw [hne (q' := numPos k') (by simp)]
    by_cases hc : q' = q ∧ [(j' : Int)] = [(j : Int)]
    · refine .inr ⟨⟨v, ?_⟩, hn k'⟩
      unfold Store.set
      rw [if_pos hc]
    · rw [hne hc]
      exact h.len k' j' s' hs' hl' q' hq'

theorem HdrNear.setHl {segs : SegKind → List (Seg P.F IO.D)} {cs : List Chunk} {h0 X : Store P.F}
    (h : HdrNear segs cs h0 X) :
    HdrNear segs cs h0 (X.set hlPos [] ⟨.val (.int ((chunkBytes cs).length : Nat)), none⟩) := by
  have hne : ∀ {q' : Nat} {key : Key}, ¬ (q' = hlPos ∧ key = []) →
      (X.set hlPos [] ⟨.val (.int ((chunkBytes cs).length : Nat)), none⟩) q' key = X q' key := by
    intro q' key hh
    unfold Store.set
    rw [if_neg hh]
  refine ⟨?_, .inr (by unfold Store.set; rw [if_pos ⟨rfl, rfl⟩]), ?_, ?_⟩
  · intro q' key ht hk
    rw [hne, h.off q' key ht hk]
    exact fun hh => ht (.inr (.inl hh))
  · rw [hne (by rintro ⟨h, _⟩; revert h; decide)]; exact h.fl
  · intro k' j' s' hs' hl' q' hq'
    rw [hne (by simp), hne (q' := numPos k') (by rintro ⟨h, _⟩; revert h; cases k' <;> decide)]
    exact h.len k' j' s' hs' hl' q' hq'

theorem HdrNear.setFl {segs : SegKind → List (Seg P.F IO.D)} {cs : List Chunk} {h0 X : Store P.F}
    (h : HdrNear segs cs h0 X) (v : Nat) :
    HdrNear segs cs h0 (X.set flPos [] ⟨.val (.int v), none⟩) := by
  have hne : ∀ {q' : Nat} {key : Key}, ¬ (q' = flPos ∧ key = []) →
      (X.set flPos [] ⟨.val (.int v), none⟩) q' key = X q' key := by
    intro q' key hh
    unfold Store.set
    rw [if_neg hh]
  refine ⟨?_, ?_, .inr ⟨v, by unfold Store.set; rw [if_pos ⟨rfl, rfl⟩]⟩, ?_⟩
  · intro q' key ht hk
    rw [hne, h.off q' key ht hk]
    exact fun hh => ht (.inl hh)
  · rw [hne (by rintro ⟨h, _⟩; revert h; decide)]; exact h.hl
  · intro k' j' s' hs' hl' q' hq'
    rw [hne (by simp), hne (q' := numPos k') (by rintro ⟨h, _⟩; revert h; cases k' <;> decide)]
    exact h.len k' j' s' hs' hl' q' hq'

/-- A file whose segments are being written.  `des4`: the DES segments when the header was
written. -/
structure Writing (φ : Repair P IO) (f : NFile P.F IO.D) (segs : SegKind → List (Seg P.F IO.D))
    (cs : List Chunk) (h0 : Store P.F) (des4 : List (Seg P.F IO.D)) (g : NFile P.F IO.D) : Prop where
  tres : g.tres = f.tres
  kinds : ∀ k, k ≠ .des → (g.segs k).map (φ.seg k) = segs k
  res : g.res = f.res
  des : Each DesNear des4 g.des
  links : ∀ k, (g.segs k).map (·.linked) = (segs k).map (·.linked)
  header : HdrNear segs cs h0 g.header
  counts : ∀ k, g.header (numPos k) [] = some ⟨.val (.int ((segs k).length : Nat)), none⟩

section
variable {φ : Repair P IO} {f : NFile P.F IO.D} {segs : SegKind → List (Seg P.F IO.D)}
  {cs : List Chunk} {h0 : Store P.F} {des4 : List (Seg P.F IO.D)}

theorem Writing.setHeader {g : NFile P.F IO.D} (h : Writing φ f segs cs h0 des4 g) {H : Store P.F}
    (h1 : HdrNear segs cs h0 H) (h2 : ∀ k, H (numPos k) [] = g.header (numPos k) []) :
    Writing φ f segs cs h0 des4 { g with header := H } :=
  ⟨h.tres, fun k hk => by rw [← h.kinds k hk]; cases k <;> rfl, h.res, h.des,
    fun k => by rw [← h.links k]; cases k <;> rfl, h1, fun k => by rw [← h.counts k]; exact h2 k⟩

theorem num_frame {X : Store P.F} {q : Nat} {key : Key} {c : Cell P.F}
    (h : ∀ k, ¬ (numPos k = q ∧ [] = key)) (k : SegKind) :
    (X.set q key c) (numPos k) [] = X (numPos k) [] := by
  unfold Store.set
  rw [if_neg (h k)]

theorem runs_lengthStep (hinv : ∀ g, Writing φ f segs cs h0 des4 g → inv g) {k : SegKind} {i : Nat}
    {linked : Bool} {lsub ldata : Nat} {g : NFile P.F IO.D} {out : Bytes}
    (hg : Writing φ f segs cs h0 des4 g) (hi : ((segs k).map (·.linked))[i]? = some linked) :
    Runs (lengthStep cs k i linked lsub ldata) (g, out) inv fun _ s' =>
      Writing φ f segs cs h0 des4 s'.1 ∧ ∀ k, s'.1.segs k = g.segs k := by
  unfold lengthStep
  cases linked with
  | false => exact runs_pure ⟨hg, fun _ => rfl⟩
  | true =>
    simp only [if_true]
    rw [List.getElem?_map, Option.map_eq_some_iff] at hi
    obtain ⟨s, hs, hl⟩ := hi
    have hlt := lt_of_getElem? hs
    obtain ⟨f1, z1⟩ := len_sized k
    obtain ⟨f2, z2⟩ := data_sized k
    have w1 : Writing φ f segs cs h0 des4
        { g with header := g.header.set (lenPos k) [(i : Int)] ⟨.val (.int lsub), none⟩ } :=
      hg.setHeader (hg.header.setLen hg.counts hs hl (.inl rfl) lsub) (num_frame (by simp))
    refine runs_bind (runs_updateStep (lenField k).res z1 (check_loop z1 (hg.counts k) hlt)
      (hinv _ w1)) ?_
    rintro _ ⟨g', out'⟩ hg'
    simp only at hg'
    subst hg'
    have w2 := w1.setHeader (w1.header.setLen w1.counts hs hl (.inr rfl) ldata) (num_frame (by simp))
    refine runs_imp (runs_updateStep (dataField k).res z2 (check_loop z2 (w1.counts k) hlt)
      (hinv _ w2)) ?_
    rintro _ s' hs'
    rw [hs']
    exact ⟨w2, fun k => by cases k <;> rfl⟩

theorem getElem_mid {γ : Type} (l : List γ) (a : γ) (r : List γ) : (l ++ a :: r)[l.length]? = some a := by
  simp

/-- The user subheader of a segment is put in its subheader. -/
theorem Writing.setSub {g : NFile P.F IO.D} (h : Writing φ f segs cs h0 des4 g) {k : SegKind}
    {done ss : List (Seg P.F IO.D)} {s : Seg P.F IO.D} (hg : g.segs k = done ++ s :: ss)
    {sub : Store P.F} (hu : writeUser P k s.user s.sub = .ok sub) :
    Writing φ f segs cs h0 des4 (setSegs g k (done ++ { s with sub := sub } :: ss)) := by
  by_cases hk : k = .des
  · subst hk
    have hd : g.des = done ++ s :: ss := hg
    refine ⟨h.tres, fun k hk => ?_, h.res, ?_, fun k => ?_, h.header, h.counts⟩
    · rw [← h.kinds k hk]; cases k <;> first | exact absurd rfl hk | rfl
    · have he := h.des
      rw [hd] at he
      have flip : ∀ {a b c : List (Seg P.F IO.D)}, Each DesNear a b → Each DesNear b c →
          Each DesNear a c := by
        intro a b c
        refine Each.transR ?_
        intro x y z h1 h2
        exact ⟨h2.linked.trans h1.linked, h2.user.trans h1.user, h2.tres.trans h1.tres,
          h2.data.trans h1.data, fun q key hq => (h2.sub q key hq).trans (h1.sub q key hq)⟩
      refine flip he (Each.append (Each.refl DesNear.refl _) (.cons ?_ (Each.refl DesNear.refl _)))
      obtain ⟨b, _, hb⟩ := writeUser_des P hu
      refine ⟨rfl, rfl, rfl, rfl, ?_⟩
      intro q key hq
      simp only
      rw [hb]
      unfold Store.set
      rw [if_neg, if_neg]
      · rintro ⟨h1, h2⟩; exact hq ⟨h2, .inr h1⟩
      · rintro ⟨h1, h2⟩; exact hq ⟨h2, .inl h1⟩
    · rw [← h.links k]
      cases k <;> first | rfl | (simp only [setSegs, NFile.segs, hd, List.map_append, List.map_cons])
  · have := writeUser_other P hk hu
    subst this
    have hs : ({ s with sub := s.sub } : Seg P.F IO.D) = s := rfl
    rw [hs, ← hg, setSegs_self]
    exact h

theorem runs_writeEach (hinv : ∀ g, Writing φ f segs cs h0 des4 g → inv g) (k : SegKind) :
    ∀ (rest done : List (Seg P.F IO.D)) (g : NFile P.F IO.D) (out : Bytes),
      Writing φ f segs cs h0 des4 g → g.segs k = done ++ rest →
      Runs (writeEach E cs k done rest) (g, out) inv fun _ s' => Writing φ f segs cs h0 des4 s'.1 := by
  intro rest
  induction rest with
  | nil => intro done g out hg _; exact runs_pure hg
  | cons s ss ih =>
    intro done g out hg hs
    unfold writeEach
    refine runs_bind runs_lift ?_
    rintro _ _ ⟨_, rfl⟩
    refine runs_bind runs_lift ?_
    rintro sub _ ⟨hu, rfl⟩
    refine runs_bind runs_get ?_
    rintro _ _ ⟨rfl, rfl⟩
    simp only
    have w1 := hg.setSub hs hu
    refine runs_bind (runs_put (hinv _ w1)) ?_
    rintro _ _ rfl
    refine runs_bind runs_lift ?_
    rintro sb _ ⟨_, rfl⟩
    refine runs_bind runs_get ?_
    rintro _ _ ⟨rfl, rfl⟩
    simp only
    refine runs_bind (runs_put (hinv _ w1)) ?_
    rintro _ _ rfl
    refine runs_bind runs_lift ?_
    rintro db _ ⟨_, rfl⟩
    refine runs_bind runs_get ?_
    rintro _ _ ⟨rfl, rfl⟩
    simp only
    refine runs_bind (runs_put (hinv _ w1)) ?_
    rintro _ _ rfl
    refine runs_bind (runs_lengthStep hinv w1 ?_) ?_
    · rw [← hg.links k, hs, List.getElem?_map, getElem_mid]
      rfl
    rintro _ ⟨g', out'⟩ ⟨w2, hsame⟩
    refine ih _ g' out' w2 ?_
    rw [hsame k, setSegs_segs]
    simp

theorem runs_writeKind (hinv : ∀ g, Writing φ f segs cs h0 des4 g → inv g) (k : SegKind)
    {g : NFile P.F IO.D} {out : Bytes} (hg : Writing φ f segs cs h0 des4 g) :
    Runs (writeKind E cs k) (g, out) inv fun _ s' => Writing φ f segs cs h0 des4 s'.1 := by
  unfold writeKind
  refine runs_bind runs_get ?_
  rintro _ _ ⟨rfl, rfl⟩
  simp only
  exact runs_writeEach hinv k _ [] g out hg rfl

end

/-! ### The whole -/

theorem mix_old {γ : Type} : ∀ {l l1 : List γ}, l.length = l1.length → Mix l l1 l
  | [], [], _ => .nil
  | [], _ :: _, h => by cases h
  | _ :: _, [], h => by cases h
  | _ :: l, _ :: l1, h => .old (mix_old (by simpa using h))

theorem mix_new {γ : Type} : ∀ {l l1 : List γ}, l.length = l1.length → Mix l l1 l1
  | [], [], _ => .nil
  | [], _ :: _, h => by cases h
  | _ :: _, [], h => by cases h
  | _ :: l, _ :: l1, h => .new (mix_new (by simpa using h))

theorem drop_idem {l ds : List (Seg P.F IO.D)} (h : dropOverflow P IO l = .ok ds) :
    dropOverflow P IO ds = .ok ds := by
  have := dropOverflow_all P IO (a := ds) (b := []) (dropOverflow_ok P IO h).2 (by simp)
  rwa [List.append_nil] at this

theorem prepareSegs_length {k : SegKind} {i : Nat} {l l1 d d' : List (Seg P.F IO.D)}
    (h : prepareSegs P IO k i l d = .ok (l1, d')) : l.length = l1.length :=
  ((prepareSegs_ok P IO h).1 _ (List.prefix_refl _)).length

section
variable {φ : Repair P IO} {f F' : NFile P.F IO.D} {out : Bytes}

theorem runs_prepareKind {des : List (Seg P.F IO.D)} {k : SegKind} (hk : k ≠ .des)
    {areas : List Area} (ha : k.areas = some areas) {dF rest1 dF' : List (Seg P.F IO.D)}
    {g : NFile P.F IO.D} {o : Bytes}
    (hp : prepareSegs P IO k 0 ((g.segs k).map (φ.seg k)) dF = .ok (rest1, dF'))
    (hd : DesState des φ dF g.des)
    (hinv : ∀ ys dF dG, Mix ((g.segs k).map (φ.seg k)) rest1 (ys.map (φ.seg k)) →
      DesState des φ dF dG → inv { setSegs g k ys with des := dG }) :
    Runs (prepareKind k) (g, o) inv fun _ s' =>
      ∃ rs dG, s' = ({ setSegs g k rs with des := dG }, o) ∧
        rs.map (φ.seg k) = rest1 ∧ DesState des φ dF' dG := by
  unfold prepareKind
  refine runs_bind runs_get ?_
  rintro _ _ ⟨rfl, rfl⟩
  simp only [ha]
  exact runs_prepareEach φ des k hk areas ha o _ [] g dF rest1 dF' hp hd rfl hinv

/-- Whenever writing `f` stops: with the repair the file is half way to what the repaired file
would have been. -/
theorem attempt_half {E' : Env} (r : WriteRun P E' IO (φ.apply f) F' out) :
    ∀ g ∈ states E f, Half r (φ.apply g) := by
  have lI := prepareSegs_length r.prepI
  have lG := prepareSegs_length r.prepG
  have lT := prepareSegs_length r.prepT
  have h0 : Half r (φ.apply f) :=
    ⟨rfl, ⟨_, r.drop0, Each.refl DesNear.refl _⟩, mix_old lI, mix_old lG, mix_old lT, rfl, .inl rfl⟩
  suffices h : Runs (attempt E) (f, []) (fun g => Half r (φ.apply g)) (fun _ _ => True) by
    intro g hg
    unfold states at hg
    rcases List.mem_cons.mp hg with rfl | hg
    · exact h0
    · obtain ⟨t, ht, rfl⟩ := List.mem_map.mp hg
      exact h.1 t ht
  unfold attempt
  -- overflow segments dropped
  have hdrop := r.drop0
  have e1 : (φ.apply f).des = f.des.map (φ.seg .des) := rfl
  rw [e1, dropOverflow_map] at hdrop
  cases hfd : dropOverflow P IO f.des with
  | error e => rw [hfd] at hdrop; cases hdrop
  | ok des =>
  rw [hfd] at hdrop
  simp only at hdrop
  injection hdrop with hdes
  have hdd := drop_idem hfd
  have hdrop' : ∀ {dF dG : List (Seg P.F IO.D)}, DesState des φ dF dG →
      ∃ ds, dropOverflow P IO (dG.map (φ.seg .des)) = .ok ds ∧ Each DesNear r.des0 ds := by
    rintro _ _ ⟨ov, o1, _, rfl⟩
    refine ⟨r.des0, ?_, Each.refl DesNear.refl _⟩
    rw [dropOverflow_map, dropOverflow_append hdd fun s hs => overflow_desid (o1 s hs)]
    simp only [hdes]
  have ds0 : DesState des φ r.des0 des := ⟨[], by simp, by rw [hdes]; simp, by simp⟩
  have h1 : Half r (φ.apply { f with des := des }) :=
    { h0 with des := hdrop' ds0 }
  refine runs_bind (mid := fun _ s' => s' = ({ f with des := des }, [])) ?_ ?_
  · unfold dropStep
    refine runs_bind runs_get ?_
    rintro _ _ ⟨rfl, rfl⟩
    simp only
    refine runs_bind runs_lift ?_
    rintro d _ ⟨hd, rfl⟩
    rw [hfd] at hd
    injection hd with hd
    subst hd
    exact runs_put h1
  rintro _ _ rfl
  -- TREs of the file
  refine runs_bind (mid := fun _ s' => ∃ dG, s' = ({ f with header := r.h0, des := dG }, []) ∧
    DesState des φ r.des1 dG ∧ φ.file f.tres = f.tres) ?_ ?_
  · unfold headerStep
    refine runs_bind runs_get ?_
    rintro _ _ ⟨rfl, rfl⟩
    simp only
    refine runs_bind runs_lift ?_
    rintro ⟨H, dG⟩ _ ⟨hG, rfl⟩
    simp only
    obtain ⟨b, hb⟩ := treWriteAll_of_prepare hG
    have hft := φ.keepsFile _ _ hb
    have hF := r.prepH
    have e2 : (φ.apply f).tres = φ.file f.tres := rfl
    have e3 : (φ.apply f).header = f.header := rfl
    rw [e2, e3, hft] at hF
    obtain ⟨rfl, hd⟩ := ds0.step hF hG
    refine runs_imp (runs_put ?_) ?_
    · exact { h0 with des := hdrop' hd, header := .inr ⟨fun _ _ _ _ => rfl, .inl rfl, .inl rfl,
        fun _ _ _ _ _ _ _ => .inl rfl⟩ }
    · rintro _ _ rfl
      exact ⟨dG, rfl, hd, hft⟩
  rintro _ _ ⟨d1, rfl, hd1, hft⟩
  have hnear : HdrNear r.segs1 r.cs r.h0 r.h0 :=
    ⟨fun _ _ _ _ => rfl, .inl rfl, .inl rfl, fun _ _ _ _ _ _ _ => .inl rfl⟩
  -- TREs of the segments
  refine runs_bind (runs_prepareKind (k := .image) (by decide) rfl r.prepI hd1 ?_) ?_
  · intro ys dF dG hm hd
    exact { h0 with des := hdrop' hd, header := .inr hnear, image := hm }
  rintro _ _ ⟨im, d2, rfl, him, hd2⟩
  refine runs_bind (runs_prepareKind (k := .graphic) (by decide) rfl r.prepG hd2 ?_) ?_
  · intro ys dF dG hm hd
    exact { h0 with des := hdrop' hd, header := .inr hnear, image := by rw [← him] at lI ⊢; exact mix_new lI, graphic := hm }
  rintro _ _ ⟨gr, d3, rfl, hgr, hd3⟩
  refine runs_bind (runs_prepareKind (k := .text) (by decide) rfl r.prepT hd3 ?_) ?_
  · intro ys dF dG hm hd
    exact { h0 with des := hdrop' hd, header := .inr hnear, image := by rw [← him] at lI ⊢; exact mix_new lI, graphic := by rw [← hgr] at lG ⊢; exact mix_new lG, text := hm }
  rintro _ _ ⟨tx, d4, rfl, htx, hd4⟩
  -- counts
  have hprep : ∀ H, HdrNear r.segs1 r.cs r.h0 H → Half r (φ.apply
      { header := H, tres := f.tres, image := im, graphic := gr, text := tx, des := d4, res := f.res }) := by
    intro H hH
    exact { h0 with des := hdrop' hd4, header := .inr hH, image := by rw [← him] at lI ⊢; exact mix_new lI, graphic := by rw [← hgr] at lG ⊢; exact mix_new lG, text := by rw [← htx] at lT ⊢; exact mix_new lT }
  have l1 : im.length = (r.segs1 .image).length := by rw [← him]; simp
  have l2 : gr.length = (r.segs1 .graphic).length := by rw [← hgr]; simp
  have l3 : tx.length = (r.segs1 .text).length := by rw [← htx]; simp
  have l4 : d4.length = (r.segs1 .des).length := hd4.length
  have l5 : f.res.length = (r.segs1 .res).length := by
    rw [r.segsR]; exact (List.length_map _).symm
  refine runs_bind (mid := fun _ s' => s' =
      ({ header := r.h1, tres := f.tres, image := im, graphic := gr, text := tx, des := d4, res := f.res }, [])) ?_ ?_
  · refine runs_imp (runs_res (post := fun _ _ => True) ?_) ?_
    · unfold countStep
      refine runs_bind runs_get ?_
      rintro _ _ ⟨rfl, rfl⟩
      simp only
      refine runs_countEach (h0 := r.h0) [] [(.image, im.length), (.graphic, gr.length), (.text, tx.length), (.des, d4.length), (.res, f.res.length)] _ (fun _ _ _ => rfl) ?_
      intro H hH
      refine hprep H ⟨fun q key _ h => hH q key h, .inl (hH _ _ ?_), .inl (hH _ _ ?_), ?_⟩
      · intro k; cases k <;> decide
      · intro k; cases k <;> decide
      · intro k j s _ _ q _
        exact .inl (hH _ _ (by simp))
    · rintro _ s' ⟨_, hr⟩
      rw [res_countStep] at hr
      have hn := r.nums
      have e5 : (φ.apply f).res.length = f.res.length := by exact List.length_map _
      rw [← l1, ← l2, ← l3, ← l4, e5] at hn
      simp only [setSegs] at hr
      rw [hn] at hr
      simp only at hr
      injection hr with hr
      injection hr with _ hr
      exact hr.symm
  rintro _ _ rfl
  have hoff : ∀ q key, (∀ k, ¬ (q = numPos k ∧ key = [])) → r.h1 q key = r.h0 q key := by
    intro q key h
    rw [run_h1]
    exact setNums_off _ _ h
  have hnear1 : HdrNear r.segs1 r.cs r.h0 r.h1 := by
    refine ⟨fun q key _ h => hoff q key h, .inl (hoff _ _ ?_), .inl (hoff _ _ ?_), ?_⟩
    · intro k; cases k <;> decide
    · intro k; cases k <;> decide
    · intro k j s _ _ q _
      exact .inl (hoff _ _ (by simp))
  -- the header
  refine runs_bind (mid := fun a s' => a = r.cs ∧ s'.1 =
      { header := r.h1, tres := f.tres, image := im, graphic := gr, text := tx, des := d4, res := f.res }) ?_ ?_
  · unfold headerBytes
    refine runs_bind runs_get ?_
    rintro _ _ ⟨rfl, rfl⟩
    simp only
    refine runs_bind runs_lift ?_
    rintro cs _ ⟨hcs, rfl⟩
    rw [r.chunks] at hcs
    injection hcs with hcs
    subst hcs
    refine runs_bind (runs_put (hprep _ hnear1)) ?_
    rintro _ _ rfl
    exact runs_pure ⟨rfl, rfl⟩
  rintro _ ⟨g0, o0⟩ ⟨rfl, hg0⟩
  simp only at hg0
  subst hg0
  have w0 : Writing φ f r.segs1 r.cs r.h0 d4
      { header := r.h1, tres := f.tres, image := im, graphic := gr, text := tx, des := d4, res := f.res } := by
    refine ⟨rfl, ?_, rfl, Each.refl DesNear.refl _, ?_, hnear1, ?_⟩
    · intro k hk
      cases k with
      | image => exact him
      | graphic => exact hgr
      | text => exact htx
      | des => exact absurd rfl hk
      | res => exact r.segsR.symm
    · have hl : ∀ k (l : List (Seg P.F IO.D)), (l.map (φ.seg k)).map (·.linked) = l.map (·.linked) := by
        intro k l
        rw [List.map_map]
        rfl
      intro k
      cases k with
      | image => rw [← him, hl]; rfl
      | graphic => rw [← hgr, hl]; rfl
      | text => rw [← htx, hl]; rfl
      | des =>
        obtain ⟨ov, _, o2, rfl⟩ := hd4
        rw [o2, List.map_append, hl, ← List.map_append]
        rfl
      | res =>
        rw [r.segsR]
        exact (hl _ _).symm
    · intro k
      show r.h1 (numPos k) [] = _
      rw [run_h1]
      exact setNums_at _ (fun k => (r.segs1 k).length) k
  have hinv : ∀ g, Writing φ f r.segs1 r.cs r.h0 d4 g → Half r (φ.apply g) := by
    intro g hg
    refine ⟨?_, ?_, ?_, ?_, ?_, ?_, .inr hg.header⟩
    · show φ.file g.tres = φ.file f.tres
      rw [hg.tres]
    · obtain ⟨ov, o1, _, o3⟩ := hd4
      have hd := dropOverflow_append hdd fun s hs => overflow_desid (o1 s hs)
      rw [← o3] at hd
      obtain ⟨ds', q1, q2⟩ := dropOverflow_near hg.des hd
      refine ⟨ds'.map (φ.seg .des), ?_, ?_⟩
      · show dropOverflow P IO (g.des.map (φ.seg .des)) = _
        rw [dropOverflow_map, q1]
      · rw [← hdes]
        exact φ.nears q2
    · have : (φ.apply g).image = r.segs1 .image := hg.kinds .image (by decide)
      rw [this]; exact mix_new lI
    · have : (φ.apply g).graphic = r.segs1 .graphic := hg.kinds .graphic (by decide)
      rw [this]; exact mix_new lG
    · have : (φ.apply g).text = r.segs1 .text := hg.kinds .text (by decide)
      rw [this]; exact mix_new lT
    · show g.res.map _ = f.res.map _
      rw [hg.res]
  -- its length
  obtain ⟨fh, zh⟩ := hl_sized
  have w1 := w0.setHeader w0.header.setHl (num_frame (by intro k; cases k <;> decide))
  refine runs_bind (runs_updateStep hlField.res zh (check_scalar zh _) (hinv _ w1)) ?_
  rintro _ ⟨g1, o1⟩ hg1
  simp only at hg1
  subst hg1
  -- the segments
  refine runs_bind (runs_writeKind hinv .image w1) ?_
  rintro _ ⟨g2, o2⟩ w2
  refine runs_bind (runs_writeKind hinv .graphic w2) ?_
  rintro _ ⟨g3, o3⟩ w3
  refine runs_bind (runs_writeKind hinv .text w3) ?_
  rintro _ ⟨g4, o4⟩ w4
  refine runs_bind (runs_writeKind hinv .des w4) ?_
  rintro _ ⟨g5, o5⟩ w5
  refine runs_bind (runs_writeKind hinv .res w5) ?_
  rintro _ ⟨g6, o6⟩ w6
  refine runs_bind runs_get ?_
  rintro _ _ ⟨rfl, rfl⟩
  simp only at w6 ⊢
  -- the length of the file
  obtain ⟨ff, zf⟩ := fl_sized
  have w7 := w6.setHeader (w6.header.setFl o6.length) (num_frame (by intro k; cases k <;> decide))
  refine runs_bind (runs_updateStep flField.res zf (check_scalar zf _) (hinv _ w7)) ?_
  rintro _ ⟨g7, o7⟩ hg7
  simp only at hg7
  subst hg7
  -- overflow segments dropped
  unfold dropStep
  refine runs_bind runs_get ?_
  rintro _ _ ⟨rfl, rfl⟩
  simp only
  refine runs_bind runs_lift ?_
  rintro d _ ⟨hd, rfl⟩
  refine runs_imp (runs_put ?_) fun _ _ _ => trivial
  obtain ⟨ds, q1, q2⟩ := (hinv _ w7).des
  refine { hinv _ w7 with des := ⟨ds, ?_, q2⟩ }
  have e9 : (φ.apply { g6 with header := g6.header.set flPos [] ⟨.val (.int o6.length), none⟩ }).des =
    g6.des.map (φ.seg .des) := rfl
  rw [e9, dropOverflow_map, hd] at q1
  show dropOverflow P IO (d.map (φ.seg .des)) = _
  rw [dropOverflow_map, drop_idem hd]
  exact q1

end

end Verif.Attempt
