import Verif.Field

/-
Causal descriptions: every expression of a field or loop refers only to fields laid out before
it, in the same or an enclosing loop, with exactly the enclosing loop indices.  This is what
makes "read from front to back" possible.  `Causal` is decidable; `Props/Tables.lean` checks it
for every shipped description.

The rest of the file shows how the value of a field depends on the store.
-/

namespace Verif

/-- The field references of an expression. -/
def Expr.refs : Expr → List (Name × List Nat)
  | .const _ => []
  | .ref nm idx => [(nm, idx)]
  | .eq a b | .ne a b | .gt a b | .ge a b | .and a b | .band a b | .mul a b | .add a b
  | .sub a b | .fdiv a b => a.refs ++ b.refs
  | .isin a _ | .notin a _ | .rstrip a | .toInt a | .tri a => a.refs
  | .ite c a b => c.refs ++ (a.refs ++ b.refs)

/-- A reference is fine at position `n` inside the loops `st`: it names a field before `n` whose
enclosing loops are among `st`, indexed by exactly the indices of those loops. -/
def refOk (T : Tab) (n : Nat) (st : List Nat) (r : Name × List Nat) : Bool :=
  match resolve T r.1 with
  | none => false
  | some m =>
    match T[m]? with
    | none => false
    | some fi => decide (m < n) && fi.starts.isPrefixOf st && r.2 == List.range fi.starts.length

def exprOk (T : Tab) (n : Nat) (st : List Nat) (e : Expr) : Bool := e.refs.all (refOk T n st)

/-- The shapes of the enclosing loops are fine; `pre` are the loops outside. -/
def shapesOk (T : Tab) : List Nat → List Nat → List Expr → Bool
  | _, [], [] => true
  | pre, s :: ss, e :: es => exprOk T s pre e && shapesOk T (pre ++ [s]) ss es
  | _, _, _ => false

def sizeRefs : Size → List (Name × List Nat)
  | .const _ => []
  | .expr e => e.refs

def optRefs : Option Expr → List (Name × List Nat)
  | none => []
  | some e => e.refs

/-- All references of a field row. -/
def FieldDef.refs (fd : FieldDef) : List (Name × List Nat) :=
  optRefs fd.cond ++ (sizeRefs fd.size ++ optRefs fd.value)

def fieldOk (T : Tab) (n : Nat) (fi : FInfo) : Bool :=
  fi.fd.refs.all (refOk T n fi.starts) && shapesOk T [] fi.starts fi.shapes &&
    fi.starts.all (fun s => decide (s ≤ n))

def causalFrom (T : Tab) : Nat → Tab → Bool
  | _, [] => true
  | n, fi :: r => fieldOk T n fi && causalFrom T (n + 1) r

/-- Every loop shape is fine (also of loops without fields). -/
def loopsOk (T : Tab) : Nat → List Nat → Desc → Bool
  | _, _, .nil => true
  | n, st, .field _ r => loopsOk T (n + 1) st r
  | n, st, .loop e b r =>
    exprOk T n st e && (loopsOk T n (st ++ [n]) b && loopsOk T (n + b.count) st r)

/-- The description is causal. -/
def Desc.causal (d : Desc) : Bool := causalFrom d.tab 0 d.tab && loopsOk d.tab 0 [] d

/-- Propositional form for a table. -/
def CausalTab (T : Tab) : Prop := ∀ n fi, T[n]? = some fi → fieldOk T n fi = true

theorem causalFrom_get {T : Tab} {k : Nat} {U : Tab} (h : causalFrom T k U = true) :
    ∀ n fi, U[n]? = some fi → fieldOk T (k + n) fi = true := by
  induction U generalizing k with
  | nil => intro n fi h; simp at h
  | cons a r ih =>
    simp only [causalFrom, Bool.and_eq_true] at h
    intro n fi hn
    cases n with
    | zero => simp at hn; subst hn; exact h.1
    | succ n =>
      have := ih h.2 n fi (by simpa using hn)
      rwa [Nat.add_right_comm, Nat.add_assoc] at this

theorem Desc.causalTab {d : Desc} (h : d.causal = true) : CausalTab d.tab := by
  intro n fi hn
  simp only [Desc.causal, Bool.and_eq_true] at h
  have := causalFrom_get h.1 n fi hn
  rwa [Nat.zero_add] at this

/-! ### Dependence of evaluation on field access -/

variable (P : PyFloat)

/-- Two field accesses agree on everything a causal expression at `n` inside `st` can read when
the loop indices are `key`. -/
def LookAgree (T : Tab) (n : Nat) (st : List Nat) (key : Key) (l l' : Look P.F) : Prop :=
  ∀ nm m fi, resolve T nm = some m → T[m]? = some fi → m < n → fi.starts <+: st →
    l nm (key.take fi.starts.length) = l' nm (key.take fi.starts.length)

theorem idxKey_range (key : Key) (c : Nat) (h : c ≤ key.length) :
    idxKey key (List.range c) = .ok (key.take c) := by
  have gen : ∀ (js : List Nat) (a : Nat), (js = List.range' a js.length) →
      a + js.length ≤ key.length → idxKey key js = .ok ((key.drop a).take js.length) := by
    intro js
    induction js with
    | nil => intro a _ _; simp [idxKey]
    | cons j js ih =>
      intro a hj hl
      simp only [List.length_cons] at hj hl
      rw [List.range'_succ] at hj
      injection hj with h1 h2
      subst h1
      have hlt : j < key.length := by omega
      have := ih (j + 1) h2 (by omega)
      simp only [idxKey, List.getElem?_eq_getElem hlt, this, List.length_cons]
      rw [List.drop_eq_getElem_cons hlt, List.take_succ_cons]
  have := gen (List.range c) 0 (by simp [List.range_eq_range']) (by simpa using h)
  simpa using this

theorem evalE_congr {T : Tab} {n : Nat} {st : List Nat} {key : Key} {l l' : Look P.F}
    (hl : LookAgree P T n st key l l') (hk : st.length ≤ key.length) (e : Expr)
    (he : e.refs.all (refOk T n st) = true) : evalE P l key e = evalE P l' key e := by
  induction e with
  | const c => rfl
  | ref nm idx =>
    simp only [Expr.refs, List.all_cons, List.all_nil, Bool.and_true] at he
    unfold refOk at he
    simp only at he
    cases hr : resolve T nm with
    | none => rw [hr] at he; simp at he
    | some m =>
      rw [hr] at he
      simp only at he
      cases hm : T[m]? with
      | none => rw [hm] at he; simp at he
      | some fi =>
        rw [hm] at he
        simp only [Bool.and_eq_true, decide_eq_true_eq, beq_iff_eq, List.isPrefixOf_iff_prefix] at he
        obtain ⟨⟨h1, h2⟩, h3⟩ := he
        have hle : fi.starts.length ≤ key.length := Nat.le_trans h2.length_le hk
        simp only [evalE]
        rw [h3, idxKey_range _ _ hle]
        exact hl nm m fi hr hm h1 h2
  | eq a b iha ihb | ne a b iha ihb | gt a b iha ihb | ge a b iha ihb | and a b iha ihb
  | band a b iha ihb | mul a b iha ihb | add a b iha ihb | sub a b iha ihb | fdiv a b iha ihb =>
    simp only [Expr.refs, List.all_append, Bool.and_eq_true] at he
    simp only [evalE, iha he.1, ihb he.2]
  | isin a cs iha | notin a cs iha | rstrip a iha | toInt a iha | tri a iha =>
    simp only [Expr.refs] at he
    simp only [evalE, iha he]
  | ite c a b ihc iha ihb =>
    simp only [Expr.refs, List.all_append, Bool.and_eq_true] at he
    simp only [evalE, ihc he.1, iha he.2.1, ihb he.2.2]

theorem evalCond_congr {T : Tab} {n : Nat} {fi : FInfo} {key : Key} {l l' : Look P.F}
    (hl : LookAgree P T n fi.starts key l l') (hk : fi.starts.length ≤ key.length)
    (hf : fieldOk T n fi = true) : evalCond P l fi key = evalCond P l' fi key := by
  unfold evalCond
  cases hc : fi.fd.cond with
  | none => rfl
  | some e =>
    simp only [fieldOk, FieldDef.refs, optRefs, hc, List.all_append, Bool.and_eq_true] at hf
    simp only [evalE_congr P hl hk e hf.1.1.1]

theorem evalSize_congr {T : Tab} {n : Nat} {fi : FInfo} {key : Key} {l l' : Look P.F}
    (hl : LookAgree P T n fi.starts key l l') (hk : fi.starts.length ≤ key.length)
    (hf : fieldOk T n fi = true) : evalSize P l fi key = evalSize P l' fi key := by
  unfold evalSize
  cases hc : fi.fd.size with
  | const c => rfl
  | expr e =>
    simp only [fieldOk, FieldDef.refs, sizeRefs, hc, List.all_append, Bool.and_eq_true] at hf
    simp only [evalE_congr P hl hk e hf.1.1.2.1]

theorem evalValue_congr {T : Tab} {n : Nat} {fi : FInfo} {key : Key} {l l' : Look P.F}
    (hl : LookAgree P T n fi.starts key l l') (hk : fi.starts.length ≤ key.length)
    (hf : fieldOk T n fi = true) {e : Expr} (he : fi.fd.value = some e) :
    evalE P l key e = evalE P l' key e := by
  simp only [fieldOk, FieldDef.refs, optRefs, he, List.all_append, Bool.and_eq_true] at hf
  exact evalE_congr P hl hk e hf.1.1.2.2

theorem LookAgree.mono {T : Tab} {n n' : Nat} {st st' : List Nat} {key key' : Key}
    {l l' : Look P.F} (h : LookAgree P T n st key l l') (hn : n' ≤ n) (hs : st' <+: st)
    (hkey : key'.take st'.length = key.take st'.length) : LookAgree P T n' st' key' l l' := by
  intro nm m fi hr hm hlt hpre
  have := h nm m fi hr hm (by omega) (hpre.trans hs)
  have hle := hpre.length_le
  have e : key'.take fi.starts.length = key.take fi.starts.length := by
    have := congrArg (List.take fi.starts.length) hkey
    rwa [List.take_take, List.take_take, Nat.min_eq_left hle] at this
  rwa [e]

theorem shapesOk_get {T : Tab} {pre ss : List Nat} {es : List Expr}
    (h : shapesOk T pre ss es = true) :
    ss.length = es.length ∧
    ∀ j e, es[j]? = some e → ∃ s, ss[j]? = some s ∧ exprOk T s (pre ++ ss.take j) e = true := by
  induction ss generalizing pre es with
  | nil =>
    cases es with
    | nil => exact ⟨rfl, by simp⟩
    | cons e es => simp [shapesOk] at h
  | cons s ss ih =>
    cases es with
    | nil => simp [shapesOk] at h
    | cons e es =>
      simp only [shapesOk, Bool.and_eq_true] at h
      obtain ⟨h1, h2⟩ := ih h.2
      refine ⟨by simp [h1], ?_⟩
      intro j e' he'
      cases j with
      | zero => simp at he'; subst he'; exact ⟨s, by simp, by simpa using h.1⟩
      | succ j =>
        obtain ⟨s', hs', ho⟩ := h2 j e' (by simpa using he')
        exact ⟨s', by simpa using hs', by simpa using ho⟩

theorem fieldOk_starts {T : Tab} {n : Nat} {fi : FInfo} (hf : fieldOk T n fi = true) :
    fi.starts.length = fi.depth ∧ ∀ s ∈ fi.starts, s ≤ n := by
  simp only [fieldOk, Bool.and_eq_true] at hf
  refine ⟨(shapesOk_get hf.1.2).1, ?_⟩
  intro s hs
  have := List.all_eq_true.mp hf.2 s hs
  simpa using this

/-- The shape expression of a loop around a field depends only on earlier fields. -/
theorem evalShape_congr {T : Tab} {n : Nat} {fi : FInfo} {key : Key} {l l' : Look P.F}
    (hl : LookAgree P T n fi.starts key l l') (hf : fieldOk T n fi = true)
    {j : Nat} {e : Expr} (he : fi.shapes[j]? = some e) {key' : Key}
    (hk' : key'.take j = key.take j) (hj : j ≤ key'.length) :
    evalShape P l e key' = evalShape P l' e key' := by
  have hst := fieldOk_starts hf
  have hsh := hf
  simp only [fieldOk, Bool.and_eq_true] at hsh
  obtain ⟨s, hs, ho⟩ := (shapesOk_get hsh.1.2).2 j e he
  rw [List.nil_append] at ho
  have hjlt : j < fi.starts.length := by
    rcases Nat.lt_or_ge j fi.starts.length with h | h
    · exact h
    · rw [List.getElem?_eq_none h] at hs; cases hs
  have hlen : (fi.starts.take j).length = j := by rw [List.length_take]; omega
  have hsn : s ≤ n := hst.2 s (List.mem_of_getElem? hs)
  have hla : LookAgree P T s (fi.starts.take j) key' l l' :=
    hl.mono P hsn (List.take_prefix _ _) (by rw [hlen]; exact hk')
  unfold evalShape
  rw [evalE_congr P hla (by omega) e ho]

theorem checkIndex_congr {T : Tab} {n : Nat} {fi : FInfo} {key : Key} {l l' : Look P.F}
    (hl : LookAgree P T n fi.starts key l l') (hf : fieldOk T n fi = true) :
    checkIndex P l fi key = checkIndex P l' fi key := by
  unfold checkIndex
  cases he : fi.shapes.getLast? with
  | none => rfl
  | some e =>
    simp only
    split
    · rfl
    · rename_i hlen
      have hlen : key.length = fi.depth := by omega
      have hpos : 0 < fi.shapes.length := by
        rcases Nat.eq_zero_or_pos fi.shapes.length with h | h
        · rw [List.length_eq_zero_iff] at h; rw [h] at he; cases he
        · exact h
      have hge : fi.shapes[fi.shapes.length - 1]? = some e := by
        rw [← List.getLast?_eq_getElem?]; exact he
      unfold FInfo.depth at hlen
      have := evalShape_congr P hl hf hge (key' := key.dropLast)
        (by rw [List.dropLast_eq_take, List.take_take, hlen]; simp)
        (by rw [List.length_dropLast, hlen]; omega)
      rw [this]

theorem checkIndex_ok_length {l : Look P.F} {fi : FInfo} {key : Key}
    (h : checkIndex P l fi key = .ok ()) : fi.depth ≤ key.length := by
  unfold checkIndex at h
  cases he : fi.shapes.getLast? with
  | none =>
    rw [List.getLast?_eq_none_iff] at he
    simp [FInfo.depth, he]
  | some e =>
    rw [he] at h
    simp only at h
    split at h
    · cases h
    · omega

theorem lowGet_congr {T : Tab} {n : Nat} {fi : FInfo} {key : Key} {l l' : Look P.F}
    {S S' : Store P.F}
    (hl : LookAgree P T n fi.starts key l l') (hf : fieldOk T n fi = true)
    (hS : fi.fd.value = none → finish P fi.fd (stored S fi.fd n key) =
      finish P fi.fd (stored S' fi.fd n key)) :
    lowGet P l S fi n key = lowGet P l' S' fi n key := by
  unfold lowGet
  cases hn : fi.fd.name with
  | none => rfl
  | some nm =>
    simp only
    rw [← checkIndex_congr P hl hf]
    cases hci : checkIndex P l fi key with
    | error e => rfl
    | ok u =>
      have hk : fi.starts.length ≤ key.length := by
        rw [(fieldOk_starts hf).1]; exact checkIndex_ok_length P hci
      simp only [bind, Except.bind]
      rw [← evalCond_congr P hl hk hf]
      cases hc : evalCond P l fi key with
      | error e => rfl
      | ok b =>
        cases b with
        | false => rfl
        | true =>
          simp only [if_true]
          cases hv : fi.fd.value with
          | none => exact hS hv
          | some e => simp only [evalValue_congr P hl hk hf hv]

theorem lowGet_ok_length {l : Look P.F} {S : Store P.F} {fi : FInfo} {n : Nat} {key : Key}
    {v : Val P.F} (hn : fi.fd.name ≠ none) (h : lowGet P l S fi n key = .ok v) :
    fi.depth ≤ key.length := by
  unfold lowGet at h
  cases hnm : fi.fd.name with
  | none => exact absurd hnm hn
  | some nm =>
    rw [hnm] at h
    simp only [bind, Except.bind] at h
    cases hci : checkIndex P l fi key with
    | error e => rw [hci] at h; cases h
    | ok u => exact checkIndex_ok_length P hci

theorem getWith_congr {T : Tab} {n : Nat} {fi : FInfo} {key : Key} {l l' : Look P.F}
    {S S' : Store P.F}
    (hl : LookAgree P T n fi.starts key l l') (hf : fieldOk T n fi = true)
    (hS : fi.fd.value = none → finish P fi.fd (stored S fi.fd n key) =
      finish P fi.fd (stored S' fi.fd n key)) :
    getWith P l S fi n key = getWith P l' S' fi n key := by
  unfold getWith
  rw [← lowGet_congr P hl hf hS]
  cases hv : lowGet P l S fi n key with
  | error e => rfl
  | ok v =>
    simp only
    rcases hkd : fi.fd.name with _ | nm
    · have : v = .str [] := by
        unfold lowGet at hv; rw [hkd] at hv; injection hv with hv; exact hv.symm
      subst this
      cases fi.fd.kind <;> rfl
    · have hk : fi.starts.length ≤ key.length := by
        rw [(fieldOk_starts hf).1]; exact lowGet_ok_length P (by simp [hkd]) hv
      rw [evalSize_congr P hl hk hf]

/-! ### Dependence of field values on the store -/

/-- Field access through a table agrees if the fields visible do. -/
theorem lookAgree_via {T : Tab} {n : Nat} {st : List Nat} {key : Key}
    {g g' : Nat → Key → Except Err (Val P.F)}
    (h : ∀ m fi, T[m]? = some fi → m < n → fi.starts <+: st →
      g m (key.take fi.starts.length) = g' m (key.take fi.starts.length)) :
    LookAgree P T n st key (lookVia P T g) (lookVia P T g') := by
  intro nm m fi hr hm hlt hpre
  unfold lookVia
  rw [hr]
  simp only [hm]
  rw [h m fi hm hlt hpre]

/-- In a causal table the recursion budget does not matter once it exceeds the position. -/
theorem getF_stable {T : Tab} (hC : CausalTab T) (S : Store P.F) (m : Nat) :
    ∀ (key : Key) (f f' : Nat), m < f → m < f' → getF P T S f m key = getF P T S f' m key := by
  induction m using Nat.strongRecOn with
  | _ m ih =>
    intro key f f' hf hf'
    obtain ⟨f, rfl⟩ := Nat.exists_eq_succ_of_ne_zero (Nat.ne_of_gt (Nat.lt_of_le_of_lt (Nat.zero_le _) hf))
    obtain ⟨f', rfl⟩ := Nat.exists_eq_succ_of_ne_zero (Nat.ne_of_gt (Nat.lt_of_le_of_lt (Nat.zero_le _) hf'))
    simp only [Nat.succ_eq_add_one]
    unfold getF
    cases hm : T[m]? with
    | none => rfl
    | some fi =>
      simp only
      refine getWith_congr P (T := T) (lookAgree_via P ?_) (hC m fi hm) (fun _ => rfl)
      intro m' fi' _ hlt _
      exact ih m' hlt _ f f' (by omega) (by omega)

theorem getItem_eq {T : Tab} {S : Store P.F} {n : Nat} {fi : FInfo} (key : Key)
    (hn : T[n]? = some fi) : getItem P T S n key = getWith P (look P T S) S fi n key := by
  unfold getItem getF
  rw [hn]
  rfl

theorem lt_of_getElem? {α} {l : List α} {n : Nat} {a : α} (h : l[n]? = some a) : n < l.length := by
  rcases Nat.lt_or_ge n l.length with h' | h'
  · exact h'
  · rw [List.getElem?_eq_none h'] at h; cases h

theorem getF_budget {T : Tab} (hC : CausalTab T) (S : Store P.F) {m : Nat} {fi : FInfo}
    (hm : T[m]? = some fi) (key : Key) :
    getF P T S (budget T) m key = getItem P T S m key := by
  have := lt_of_getElem? hm
  exact getF_stable P hC S m key _ _ (by unfold budget; omega) (by unfold budget; omega)

/-- The two stores give the same value to field `m` at `key`. -/
def SameAt (T : Tab) (S R : Store P.F) (m : Nat) (key : Key) : Prop :=
  getItem P T S m key = getItem P T R m key

/-- The fields visible at position `n` inside loops `st` with indices `key` have the same
values. -/
def VisSame (T : Tab) (n : Nat) (st : List Nat) (key : Key) (S R : Store P.F) : Prop :=
  ∀ m fi, T[m]? = some fi → m < n → fi.starts <+: st →
    SameAt P T S R m (key.take fi.starts.length)

theorem VisSame.look {T : Tab} (hC : CausalTab T) {n : Nat} {st : List Nat} {key : Key}
    {S R : Store P.F} (h : VisSame P T n st key S R) :
    LookAgree P T n st key (look P T S) (look P T R) :=
  lookAgree_via P fun m fi hm hlt hpre => by
    rw [getF_budget P hC S hm, getF_budget P hC R hm]
    exact h m fi hm hlt hpre

/-- The value of a field depends only on stored values at earlier positions (and its own), under
prefixes of its index. -/
theorem sameAt_frame {T : Tab} (hC : CausalTab T) {S R : Store P.F} (m : Nat) :
    ∀ (key : Key), (∀ m' k', m' ≤ m → k' <+: key → S m' k' = R m' k') → SameAt P T S R m key := by
  induction m using Nat.strongRecOn with
  | _ m ih =>
    intro key h
    unfold SameAt
    cases hm : T[m]? with
    | none => unfold getItem getF; rw [hm]
    | some fi =>
      rw [getItem_eq P key hm, getItem_eq P key hm]
      refine getWith_congr P (T := T) (VisSame.look P hC ?_) (hC m fi hm) ?_
      · intro m' fi' _ hlt _
        refine ih m' hlt _ ?_
        intro m'' k'' h1 h2
        exact h m'' k'' (by omega) (h2.trans (List.take_prefix _ _))
      · intro _
        unfold stored
        rw [h m key (Nat.le_refl _) (List.prefix_refl _)]

/-- Own field: same visible fields and same finished value give the same field value. -/
theorem sameAt_of_vis {T : Tab} (hC : CausalTab T) {n : Nat} {fi : FInfo} {key : Key}
    {S R : Store P.F} (hn : T[n]? = some fi) (h : VisSame P T n fi.starts key S R)
    (hS : fi.fd.value = none → finish P fi.fd (stored S fi.fd n key) =
      finish P fi.fd (stored R fi.fd n key)) : SameAt P T S R n key := by
  unfold SameAt
  rw [getItem_eq P key hn, getItem_eq P key hn]
  exact getWith_congr P (h.look P hC) (hC n fi hn) hS

/-- A field whose condition fails has the same value whatever is stored. -/
theorem sameAt_of_cond_false {T : Tab} (hC : CausalTab T) {n : Nat} {fi : FInfo} {key : Key}
    {S R : Store P.F} (hn : T[n]? = some fi) (h : VisSame P T n fi.starts key S R)
    (hk : fi.starts.length ≤ key.length)
    (hc : evalCond P (look P T S) fi key = .ok false) : SameAt P T S R n key := by
  unfold SameAt
  rw [getItem_eq P key hn, getItem_eq P key hn]
  have hl := h.look P hC
  have hf := hC n fi hn
  have hc' := hc
  rw [evalCond_congr P hl hk hf] at hc'
  have hlow : lowGet P (look P T S) S fi n key = lowGet P (look P T R) R fi n key := by
    unfold lowGet
    cases hnm : fi.fd.name with
    | none => rfl
    | some nm =>
      simp only
      rw [← checkIndex_congr P hl hf]
      cases checkIndex P (Verif.look P T S) fi key with
      | error e => rfl
      | ok u => simp only [bind, Except.bind, hc, hc']; rfl
  unfold getWith
  rw [hlow, evalSize_congr P hl hk hf]

end Verif
