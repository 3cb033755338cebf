import Verif.Copy

/- `FieldStruct.update_field`: changing one field of a file in place. -/

namespace Verif

variable (P : PyFloat)

/-- An open file: content and position. -/
structure FileH where
  bytes : Bytes
  pos : Nat
  deriving DecidableEq, Repr

/-- `fh.seek(off); fh.write(b)` inside existing content. -/
def overwrite (file : Bytes) (off : Nat) (b : Bytes) : Bytes :=
  file.take off ++ b ++ file.drop (off + b.length)

/-- `fh_loc[key]` (nitf_field.py:346): file offset at which a field was last written, for a
struct whose chunks `cs` were written starting at `off`. -/
def locOf (n : Nat) (key : Key) : Nat → List Chunk → Option Nat
  | _, [] => none
  | off, c :: cs =>
    match locOf n key (off + c.bytes.length) cs with
    | some o => some o
    | none => if c.pos = n ∧ c.key = key then some off else none

/-- `FieldStruct.update_field` (nitf_field.py:935-939) with `NitfField.update_file` (349-362):
assign, then rewrite the field where it was written.  `cs`, `start`: what was written before and
where. -/
def updateField (d : Desc) (cs : List Chunk) (start : Nat) (S : Store P.F) (fh : FileH)
    (n : Nat) (key : Key) (v : Val P.F) : Store P.F × Except Err FileH :=
  match setItem P d.tab S n key v with
  | (S', some e) => (S', .error e)
  | (S', none) =>
    match d.tab[n]? with
    | none => (S', .error .key)
    | some fi =>
      match evalCond P (look P d.tab S') fi key with
      | .error e => (S', .error e)
      | .ok false => (S', .error .runtime)
      | .ok true =>
        match locOf n key start cs with
        | none => (S', .error .key)
        | some off =>
          match fieldBytes P (look P d.tab S') S' fi n key with
          | .error e => (S', .error e)
          | .ok b => (S', .ok ⟨overwrite fh.bytes off b, fh.pos⟩)

/-- All field references in a description. -/
def Desc.refs : Desc → List (Name × List Nat)
  | .nil => []
  | .field fd r => fd.refs ++ r.refs
  | .loop e b r => e.refs ++ b.refs ++ r.refs

/-- No condition, size, loop count or computed value uses the field at position `n`. -/
def Desc.unreferenced (d : Desc) (n : Nat) : Bool :=
  d.refs.all fun r => decide (resolve d.tab r.1 ≠ some n)

theorem flatten_refs (n : Nat) (sh : List Expr) (st : List Nat) (d : Desc) :
    ∀ fi ∈ flatten n sh st d, (∀ r ∈ fi.fd.refs, r ∈ d.refs) ∧
      ∀ e ∈ fi.shapes, e ∈ sh ∨ ∀ r ∈ e.refs, r ∈ d.refs := by
  induction d generalizing n sh st with
  | nil => intro fi h; simp [flatten] at h
  | field fd r ih =>
    intro fi h
    simp only [flatten, List.mem_cons] at h
    simp only [Desc.refs, List.mem_append]
    rcases h with rfl | h
    · exact ⟨fun r hr => Or.inl hr, fun e he => Or.inl he⟩
    · obtain ⟨a, b⟩ := ih _ _ _ fi h
      exact ⟨fun r hr => Or.inr (a r hr), fun e he => (b e he).imp id fun h r hr => Or.inr (h r hr)⟩
  | loop e b r ihb ihr =>
    intro fi h
    simp only [flatten, List.mem_append] at h
    simp only [Desc.refs, List.mem_append]
    rcases h with h | h
    · obtain ⟨x, y⟩ := ihb _ _ _ fi h
      refine ⟨fun r hr => Or.inl (Or.inr (x r hr)), fun e' he => ?_⟩
      rcases y e' he with h | h
      · rw [List.mem_append] at h
        rcases h with h | h
        · exact Or.inl h
        · rw [List.mem_singleton] at h
          subst h
          exact Or.inr fun r hr => Or.inl (Or.inl hr)
      · exact Or.inr fun r hr => Or.inl (Or.inr (h r hr))
    · obtain ⟨a, b⟩ := ihr _ _ _ fi h
      exact ⟨fun r hr => Or.inr (a r hr), fun e he => (b e he).imp id fun h r hr => Or.inr (h r hr)⟩

/-! ### Congruence by names used -/

theorem evalE_names {l l' : Look P.F} {key : Key} (e : Expr)
    (h : ∀ r ∈ e.refs, ∀ k, l r.1 k = l' r.1 k) : evalE P l key e = evalE P l' key e := by
  induction e with
  | const c => rfl
  | ref nm idx =>
    simp only [evalE]
    cases idxKey key idx with
    | error e => rfl
    | ok k => exact h (nm, idx) (by simp [Expr.refs]) k
  | eq a b iha ihb | ne a b iha ihb | gt a b iha ihb | ge a b iha ihb | and a b iha ihb
  | band a b iha ihb | mul a b iha ihb | add a b iha ihb | sub a b iha ihb | fdiv a b iha ihb =>
    simp only [Expr.refs, List.mem_append] at h
    simp only [evalE, iha fun r hr => h r (Or.inl hr), ihb fun r hr => h r (Or.inr hr)]
  | isin a cs iha | notin a cs iha | rstrip a iha | toInt a iha | tri a iha =>
    simp only [Expr.refs] at h
    simp only [evalE, iha h]
  | ite c a b ihc iha ihb =>
    simp only [Expr.refs, List.mem_append] at h
    simp only [evalE, ihc fun r hr => h r (Or.inl hr), iha fun r hr => h r (Or.inr (Or.inl hr)),
      ihb fun r hr => h r (Or.inr (Or.inr hr))]

/-- Looks agreeing on the names a field uses. -/
def FieldAgree (fi : FInfo) (l l' : Look P.F) : Prop :=
  (∀ r ∈ fi.fd.refs, ∀ k, l r.1 k = l' r.1 k) ∧
  ∀ e ∈ fi.shapes, ∀ r ∈ e.refs, ∀ k, l r.1 k = l' r.1 k

theorem FieldAgree.cond {fi : FInfo} {l l' : Look P.F} (h : FieldAgree P fi l l') (key : Key) :
    evalCond P l fi key = evalCond P l' fi key := by
  unfold evalCond
  cases hc : fi.fd.cond with
  | none => rfl
  | some e =>
    simp only
    rw [evalE_names P e fun r hr => h.1 r (by simp [FieldDef.refs, optRefs, hc, hr])]

theorem FieldAgree.size {fi : FInfo} {l l' : Look P.F} (h : FieldAgree P fi l l') (key : Key) :
    evalSize P l fi key = evalSize P l' fi key := by
  unfold evalSize
  cases hc : fi.fd.size with
  | const c => rfl
  | expr e =>
    simp only
    rw [evalE_names P e fun r hr => h.1 r (by simp [FieldDef.refs, sizeRefs, hc, hr])]

theorem FieldAgree.lowGet {fi : FInfo} {l l' : Look P.F} (h : FieldAgree P fi l l') {n : Nat}
    {key : Key} {S S' : Store P.F} (hS : S n key = S' n key) :
    lowGet P l S fi n key = lowGet P l' S' fi n key := by
  unfold Verif.lowGet
  cases hn : fi.fd.name with
  | none => rfl
  | some nm =>
    simp only
    have h1 : checkIndex P l fi key = checkIndex P l' fi key := by
      unfold checkIndex
      cases hs : fi.shapes.getLast? with
      | none => rfl
      | some e =>
        have : ∀ k, evalShape P l e k = evalShape P l' e k := by
          intro k
          unfold evalShape
          rw [evalE_names P e fun r hr => h.2 e (List.mem_of_getLast? hs) r hr]
        simp only [this]
    rw [h1, h.cond P]
    have h2 : stored S fi.fd n key = stored S' fi.fd n key := by unfold stored; rw [hS]
    rw [h2]
    cases hv : fi.fd.value with
    | none => rfl
    | some e =>
      simp only
      rw [evalE_names P e fun r hr => h.1 r (by simp [FieldDef.refs, optRefs, hv, hr])]

theorem FieldAgree.getWith {fi : FInfo} {l l' : Look P.F} (h : FieldAgree P fi l l') {n : Nat}
    {key : Key} {S S' : Store P.F} (hS : S n key = S' n key) :
    getWith P l S fi n key = getWith P l' S' fi n key := by
  unfold Verif.getWith
  rw [h.lowGet P hS, h.size P]

theorem FieldAgree.bytes {fi : FInfo} {l l' : Look P.F} (h : FieldAgree P fi l l') {n : Nat}
    {key : Key} {S S' : Store P.F} (hS : S n key = S' n key) :
    fieldBytes P l S fi n key = fieldBytes P l' S' fi n key := by
  unfold fieldBytes
  have h2 : stored S fi.fd n key = stored S' fi.fd n key := by unfold stored; rw [hS]
  rw [h.lowGet P hS, h.size P, h2]

/-- Two stores that differ only at field `n`. -/
def OnlyField {F} (n : Nat) (S S' : Store F) : Prop := ∀ m k, m ≠ n → S' m k = S m k

theorem unref_names {d : Desc} {n : Nat} (hu : d.unreferenced n = true) {r : Name × List Nat}
    (hr : r ∈ d.refs) : resolve d.tab r.1 ≠ some n := by
  have := List.all_eq_true.mp hu r hr
  simpa using this

theorem tab_agree {d : Desc} {n : Nat} (hu : d.unreferenced n = true) {l l' : Look P.F}
    (h : ∀ nm, resolve d.tab nm ≠ some n → ∀ k, l nm k = l' nm k) {m : Nat} {fi : FInfo}
    (hm : d.tab[m]? = some fi) : FieldAgree P fi l l' := by
  obtain ⟨h1, h2⟩ := flatten_refs 0 [] [] d fi (List.mem_of_getElem? hm)
  refine ⟨fun r hr k => h r.1 (unref_names hu (h1 r hr)) k, ?_⟩
  intro e he r hr k
  rcases h2 e he with h0 | h0
  · simp at h0
  · exact h r.1 (unref_names hu (h0 r hr)) k

theorem getF_unref {d : Desc} {n : Nat} (hu : d.unreferenced n = true) {S S' : Store P.F}
    (hS : OnlyField n S S') :
    ∀ (fuel m : Nat) (k : Key), m ≠ n → getF P d.tab S' fuel m k = getF P d.tab S fuel m k := by
  intro fuel
  induction fuel with
  | zero => intros; rfl
  | succ fuel ih =>
    intro m k hmn
    unfold getF
    cases hm : d.tab[m]? with
    | none => rfl
    | some fi =>
      simp only
      refine FieldAgree.getWith P (tab_agree P hu ?_ hm) (hS m k hmn)
      intro nm hnm k
      unfold lookVia
      cases hr : resolve d.tab nm with
      | none => rfl
      | some m' =>
        simp only
        cases d.tab[m']? with
        | none => rfl
        | some fi' =>
          simp only
          rw [ih m' k (by rintro rfl; exact hnm hr)]

theorem look_unref {d : Desc} {n : Nat} (hu : d.unreferenced n = true) {S S' : Store P.F}
    (hS : OnlyField n S S') {nm : Name} (hnm : resolve d.tab nm ≠ some n) (k : Key) :
    look P d.tab S' nm k = look P d.tab S nm k := by
  unfold look lookVia
  cases hr : resolve d.tab nm with
  | none => rfl
  | some m' =>
    simp only
    cases d.tab[m']? with
    | none => rfl
    | some fi' =>
      simp only
      rw [getF_unref P hu hS _ m' k (by rintro rfl; exact hnm hr)]

/-- All fields evaluate their expressions alike. -/
theorem fieldAgree_unref {d : Desc} {n : Nat} (hu : d.unreferenced n = true) {S S' : Store P.F}
    (hS : OnlyField n S S') {m : Nat} {fi : FInfo} (hm : d.tab[m]? = some fi) :
    FieldAgree P fi (look P d.tab S') (look P d.tab S) :=
  tab_agree P hu (fun _ hnm k => look_unref P hu hS hnm k) hm

theorem layoutD_unref {D : Desc} {f : Nat} (hu : D.unreferenced f = true) {S S' : Store P.F}
    (hS : OnlyField f S S') (d : Desc) :
    ∀ (n : Nat) (key : Key), (∀ r ∈ d.refs, r ∈ D.refs) →
      layoutD P D.tab S' n key d = layoutD P D.tab S n key d := by
  induction d with
  | nil => intros; rfl
  | field fd r ih =>
    intro n key hsub
    simp only [Desc.refs, List.mem_append] at hsub
    simp only [layoutD]
    cases hn : D.tab[n]? with
    | none => rfl
    | some fi =>
      simp only
      have ha := fieldAgree_unref P hu hS hn
      rw [ha.cond P, ha.size P, ih (n + 1) key fun r hr => hsub r (Or.inr hr)]
  | loop e body r ihb ihr =>
    intro n key hsub
    simp only [Desc.refs, List.mem_append] at hsub
    simp only [layoutD]
    have : evalShape P (look P D.tab S') e key = evalShape P (look P D.tab S) e key := by
      unfold evalShape
      rw [evalE_names P e fun r hr k => look_unref P hu hS
        (unref_names hu (hsub r (Or.inl (Or.inl hr)))) k]
    rw [this]
    simp only [ihb n _ fun r hr => hsub r (Or.inl (Or.inr hr)),
      ihr (n + body.count) key fun r hr => hsub r (Or.inr hr)]

/-! ### Distinct slots -/

/-- Position and key of a slot. -/
def Slot.at (s : Slot) : Nat × Key := (s.pos, s.key)

theorem forChunks_nodup {key : Key} {f : Int → Except Err (List Slot)}
    (hf : ∀ i sl, f i = .ok sl → (sl.map Slot.at).Nodup ∧ ∀ s ∈ sl, key ++ [i] <+: s.key) :
    ∀ (is : List Int) (sl : List Slot), is.Nodup → forChunks f is = .ok sl →
      (sl.map Slot.at).Nodup := by
  intro is
  induction is with
  | nil =>
    intro sl _ h
    simp only [forChunks] at h; injection h with h; subst h; simp
  | cons i is ih =>
    intro sl hnd h
    rw [List.nodup_cons] at hnd
    simp only [forChunks] at h
    cases h1 : f i with
    | error e => rw [h1] at h; cases h
    | ok sl1 =>
      rw [h1] at h
      simp only at h
      cases h2 : forChunks f is with
      | error e => rw [h2] at h; cases h
      | ok sl2 =>
        rw [h2] at h
        simp only at h
        injection h with h
        subst h
        rw [List.map_append, List.nodup_append]
        obtain ⟨ha, hb⟩ := hf i sl1 h1
        refine ⟨ha, ih sl2 hnd.2 h2, ?_⟩
        intro a h3 b h4 hab
        subst hab
        obtain ⟨s, hs, rfl⟩ := List.mem_map.mp h3
        obtain ⟨s', hs', he⟩ := List.mem_map.mp h4
        obtain ⟨j, hj, sl', hf', hm'⟩ := forChunks_mem h2 hs'
        have hk : s'.key = s.key := congrArg Prod.snd he
        have hp := (hf j sl' hf').2 s' hm'
        rw [hk] at hp
        have := prefix_concat_inj (hb s hs) hp
        subst this
        exact hnd.1 hj

theorem layoutD_nodup {T : Tab} (S : Store P.F) (d : Desc) :
    ∀ (n : Nat) (key : Key) (sl : List Slot), layoutD P T S n key d = .ok sl →
      (sl.map Slot.at).Nodup := by
  induction d with
  | nil =>
    intro n key sl h
    simp only [layoutD] at h; injection h with h; subst h; simp
  | field fd r ih =>
    intro n key sl h
    simp only [layoutD] at h
    cases hn : T[n]? with
    | none => rw [hn] at h; cases h
    | some fi =>
      rw [hn] at h
      simp only at h
      cases hc : evalCond P (look P T S) fi key with
      | error e => rw [hc] at h; cases h
      | ok b =>
        rw [hc] at h
        cases b with
        | false => exact ih _ _ sl h
        | true =>
          simp only at h
          cases hb : evalSize P (look P T S) fi key with
          | error e => rw [hb] at h; cases h
          | ok sz =>
            rw [hb] at h
            simp only at h
            cases hw : layoutD P T S (n + 1) key r with
            | error e => rw [hw] at h; cases h
            | ok sl1 =>
              rw [hw] at h
              simp only at h
              injection h with h
              subst h
              rw [List.map_cons, List.nodup_cons]
              refine ⟨?_, ih _ _ sl1 hw⟩
              intro hm
              obtain ⟨s, hs, he⟩ := List.mem_map.mp hm
              have h1 := (layoutD_from P S r (n + 1) key sl1 hw s hs).1
              have h2 : s.pos = n := congrArg Prod.fst he
              omega
  | loop e body r ihb ihr =>
    intro n key sl h
    simp only [layoutD] at h
    cases hsh : evalShape P (look P T S) e key with
    | error x => rw [hsh] at h; cases h
    | ok c =>
      rw [hsh] at h
      simp only at h
      cases h1 : forChunks (fun i => layoutD P T S n (key ++ [i]) body) (indices c) with
      | error x => rw [h1] at h; cases h
      | ok sl1 =>
        rw [h1] at h
        simp only at h
        cases h2 : layoutD P T S (n + body.count) key r with
        | error x => rw [h2] at h; cases h
        | ok sl2 =>
          rw [h2] at h
          simp only at h
          injection h with h
          subst h
          rw [List.map_append, List.nodup_append]
          refine ⟨?_, ihr _ _ sl2 h2, ?_⟩
          · refine forChunks_nodup (key := key) ?_ (indices c) sl1 (indices_nodup c) h1
            intro i sl' hf
            exact ⟨ihb _ _ sl' hf, fun s hs => (layoutD_from P S body n _ sl' hf s hs).2.2.1⟩
          · intro a h3 b h4 hab
            subst hab
            obtain ⟨s, hs, rfl⟩ := List.mem_map.mp h3
            obtain ⟨s', hs', he⟩ := List.mem_map.mp h4
            obtain ⟨i, _, sl', hf, hm⟩ := forChunks_mem h1 hs
            have ha := (layoutD_from P S body n _ sl' hf s hm).2.1
            have hb := (layoutD_from P S r _ key sl2 h2 s' hs').1
            have : s'.pos = s.pos := congrArg Prod.fst he
            omega

/-! ### Patching -/

theorem locOf_none {n : Nat} {key : Key} {cs : List Chunk}
    (h : ∀ c ∈ cs, ¬ (c.pos = n ∧ c.key = key)) (off : Nat) : locOf n key off cs = none := by
  induction cs generalizing off with
  | nil => rfl
  | cons c cs ih =>
    simp only [locOf]
    rw [ih fun c' hc' => h c' (by simp [hc'])]
    simp only
    rw [if_neg (h c (by simp))]

theorem locOf_split {n : Nat} {key : Key} {as bs : List Chunk} {c : Chunk}
    (hc : c.pos = n ∧ c.key = key) (hb : ∀ c ∈ bs, ¬ (c.pos = n ∧ c.key = key)) (off : Nat) :
    locOf n key off (as ++ c :: bs) = some (off + (chunkBytes as).length) := by
  induction as generalizing off with
  | nil =>
    simp only [List.nil_append, locOf]
    rw [locOf_none hb]
    simp [hc, chunkBytes]
  | cons a as ih =>
    simp only [List.cons_append, locOf]
    rw [ih]
    simp only [chunkBytes_cons, List.length_append]
    congr 1
    omega

theorem overwrite_mid (pre old new post : Bytes) (h : old.length = new.length) :
    overwrite (pre ++ old ++ post) pre.length new = pre ++ new ++ post := by
  unfold overwrite
  have h1 : (pre ++ old ++ post).take pre.length = pre := by
    rw [List.append_assoc]; exact List.take_left' rfl
  have h2 : (pre ++ old ++ post).drop (pre.length + new.length) = post :=
    List.drop_left' (by simp [h])
  rw [h1, h2]

end Verif
