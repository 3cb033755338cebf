import Verif.Items
import Verif.StructLemmas

/-
Which indices of an element get checked.  `NitfLoop.check_index` (nitf_field.py:590-600) looks at the
last index only, but the count it asks for, and the condition of the field, are computed from other
fields, which check their own last index.
-/

namespace Verif

variable {P : PyFloat}

/-- References evaluated whenever the expression has a value. -/
def Expr.sure : Expr → List (Name × List Nat)
  | .const _ => []
  | .ref nm idx => [(nm, idx)]
  | .eq a b | .ne a b | .gt a b | .ge a b | .band a b | .mul a b | .add a b | .sub a b
  | .fdiv a b => a.sure ++ b.sure
  | .and a _ => a.sure
  | .isin a _ | .notin a _ | .rstrip a | .toInt a | .tri a => a.sure
  | .ite c _ _ => c.sure

theorem Expr.sure_refs (e : Expr) : ∀ r ∈ e.sure, r ∈ e.refs := by
  induction e with
  | const c => simp [Expr.sure]
  | ref nm idx => simp [Expr.sure, Expr.refs]
  | eq a b iha ihb | ne a b iha ihb | gt a b iha ihb | ge a b iha ihb
  | band a b iha ihb | mul a b iha ihb | add a b iha ihb | sub a b iha ihb | fdiv a b iha ihb =>
    intro r hr
    simp only [Expr.sure, List.mem_append] at hr
    simp only [Expr.refs, List.mem_append]
    exact hr.imp (iha r) (ihb r)
  | and a b iha ihb =>
    intro r hr
    simp only [Expr.refs, List.mem_append]
    exact .inl (iha r hr)
  | isin a cs iha | notin a cs iha | rstrip a iha | toInt a iha | tri a iha => exact iha
  | ite c a b ihc iha ihb =>
    intro r hr
    simp only [Expr.refs, List.mem_append]
    exact .inl (ihc r hr)

private theorem bind_ok {α β : Type} {x : Except Err α} {f : α → Except Err β} {v : β}
    (h : (x >>= f) = .ok v) : ∃ a, x = .ok a ∧ f a = .ok v := by
  cases x with
  | error e => cases h
  | ok a => exact ⟨a, rfl, h⟩

theorem evalE_sure {l : Look P.F} {key : Key} (e : Expr) :
    ∀ v, evalE P l key e = .ok v →
      ∀ r ∈ e.sure, ∃ k w, idxKey key r.2 = .ok k ∧ l r.1 k = .ok w := by
  induction e with
  | const c => simp [Expr.sure]
  | ref nm idx =>
    intro v h r hr
    simp only [Expr.sure, List.mem_singleton] at hr
    subst hr
    simp only [evalE] at h
    obtain ⟨k, hk, hv⟩ := bind_ok h
    exact ⟨k, v, hk, hv⟩
  | eq a b iha ihb | ne a b iha ihb =>
    intro v h r hr
    simp only [Expr.sure, List.mem_append] at hr
    simp only [evalE] at h
    obtain ⟨x, hx, h⟩ := bind_ok h
    obtain ⟨y, hy, h⟩ := bind_ok h
    exact hr.elim (iha x hx r) (ihb y hy r)
  | gt a b iha ihb | ge a b iha ihb | band a b iha ihb | mul a b iha ihb | add a b iha ihb
  | sub a b iha ihb | fdiv a b iha ihb =>
    intro v h r hr
    simp only [Expr.sure, List.mem_append] at hr
    simp only [evalE] at h
    obtain ⟨x, hx, h⟩ := bind_ok h
    obtain ⟨_, _, h⟩ := bind_ok h
    obtain ⟨y, hy, h⟩ := bind_ok h
    exact hr.elim (iha x hx r) (ihb y hy r)
  | and a b iha ihb | isin a cs iha | notin a cs iha | rstrip a iha | toInt a iha | tri a iha
  | ite c a b iha _ _ =>
    intro v h r hr
    simp only [evalE] at h
    obtain ⟨x, hx, h⟩ := bind_ok h
    exact iha x hx r hr

/-- References evaluated whenever an element of the field is read or assigned. -/
def FInfo.sure (fi : FInfo) : List (Name × List Nat) :=
  (match fi.shapes.getLast? with | none => [] | some e => e.sure) ++
  (match fi.fd.cond with | none => [] | some e => e.sure)

/-- Index number `j` of the field at position `n` is checked on every access: it is the last one, or
a field asked for on every access checks it. -/
def checks (T : Tab) : Nat → Nat → Nat → Bool
  | 0, _, _ => false
  | fuel + 1, n, j =>
    match T[n]? with
    | none => false
    | some fi =>
      decide (j + 1 = fi.depth) || fi.sure.any fun r =>
        match resolve T r.1 with
        | none => false
        | some m => checks T fuel m j

/-- Index number `j` of an element is in range: not negative, and below the count of its loop for
the indices before it. -/
def IndexOk (l : Look P.F) (fi : FInfo) (key : Key) (j : Nat) : Prop :=
  ∃ e i c, fi.shapes[j]? = some e ∧ key[j]? = some i ∧
    evalShape P l e (key.take j) = .ok c ∧ 0 ≤ i ∧ i < c

theorem checkIndex_last {l : Look P.F} {fi : FInfo} {key : Key}
    (h : checkIndex P l fi key = .ok ()) {j : Nat} (hj : j + 1 = fi.depth) :
    IndexOk l fi key j := by
  unfold checkIndex at h
  unfold FInfo.depth at hj
  have he : fi.shapes[j]? = fi.shapes.getLast? := by
    rw [List.getLast?_eq_getElem?]; congr 1; omega
  cases hs : fi.shapes.getLast? with
  | none =>
    rw [List.getLast?_eq_none_iff] at hs
    rw [hs] at hj
    simp at hj
  | some e =>
    rw [hs] at h he
    simp only at h
    split at h
    · cases h
    · rename_i hlen
      have hlen : key.length = j + 1 := by
        have : key.length = fi.depth := by simpa using hlen
        rw [this]; exact hj.symm
      have hk : key[j]? = key.getLast? := by
        rw [List.getLast?_eq_getElem?]; congr 1; omega
      cases hi : key.getLast? with
      | none => rw [hi] at h; cases h
      | some i =>
        rw [hi] at h hk
        simp only at h
        split at h
        · cases h
        · have hd : key.dropLast = key.take j := by
            rw [List.dropLast_eq_take]; congr 1; omega
          cases hc : evalShape P l e key.dropLast with
          | error x => rw [hc] at h; cases h
          | ok c =>
            rw [hc] at h
            simp only at h
            split at h
            · cases h
            · exact ⟨e, i, c, he, hk, by rw [← hd]; exact hc, by omega, by omega⟩

/-- What a successful read passed. -/
theorem getItem_checked {T : Tab} {S : Store P.F} {n : Nat} {key : Key} {v : Val P.F} {fi : FInfo}
    (hn : T[n]? = some fi) (hnm : fi.fd.name ≠ none) (h : getItem P T S n key = .ok v) :
    checkIndex P (look P T S) fi key = .ok () ∧
    ∃ b, evalCond P (look P T S) fi key = .ok b := by
  rw [getItem_eq P key hn] at h
  unfold getWith at h
  cases hl : lowGet P (look P T S) S fi n key with
  | error e => rw [hl] at h; cases h
  | ok w =>
    unfold lowGet at hl
    cases hnm' : fi.fd.name with
    | none => exact absurd hnm' hnm
    | some nm =>
      rw [hnm'] at hl
      simp only at hl
      obtain ⟨u, hu, hl⟩ := bind_ok hl
      obtain ⟨b, hb, _⟩ := bind_ok hl
      exact ⟨hu, b, hb⟩

theorem resolve_named {T : Tab} {nm : Name} {m : Nat} {fm : FInfo} (h : resolve T nm = some m)
    (hm : T[m]? = some fm) : fm.fd.name = some nm := by
  have gen : ∀ (U : Tab) (k : Nat), resolveFrom nm k U = some m →
      ∃ fi, U[m - k]? = some fi ∧ k ≤ m ∧ fi.fd.name = some nm := by
    intro U
    induction U with
    | nil => intro k h; simp [resolveFrom] at h
    | cons fi r ih =>
      intro k h
      simp only [resolveFrom] at h
      cases h1 : resolveFrom nm (k + 1) r with
      | some m' =>
        rw [h1] at h
        simp only at h
        injection h with h
        subst h
        obtain ⟨f, hf, hle, hn⟩ := ih (k + 1) h1
        refine ⟨f, ?_, by omega, hn⟩
        rw [show m' - k = (m' - (k + 1)) + 1 by omega, List.getElem?_cons_succ]
        exact hf
      | none =>
        rw [h1] at h
        simp only at h
        split at h
        · injection h with h
          subst h
          exact ⟨fi, by simp, Nat.le_refl _, by assumption⟩
        · cases h
  obtain ⟨fi, h1, _, h2⟩ := gen T 0 h
  rw [Nat.sub_zero, hm] at h1
  injection h1 with h1
  subst h1
  exact h2

/-- An access that passes the checks of `__getitem__` has all the indices `checks` names in range. -/
theorem indexOk_of_checks {d : Desc} (hd : d.causal = true) {S : Store P.F} {j : Nat} :
    ∀ (fuel n : Nat) (fi : FInfo) (key : Key), checks d.tab fuel n j = true →
      d.tab[n]? = some fi → checkIndex P (look P d.tab S) fi key = .ok () →
      (∃ b, evalCond P (look P d.tab S) fi key = .ok b) →
      IndexOk (look P d.tab S) fi key j := by
  have hC := Desc.causalTab hd
  intro fuel
  induction fuel with
  | zero => intro n fi key h; cases h
  | succ fuel ih =>
    intro n fi key h hn hck hcond
    simp only [checks, hn, Bool.or_eq_true, decide_eq_true_eq, List.any_eq_true] at h
    rcases h with h | ⟨r, hr, h⟩
    · exact checkIndex_last hck h
    · have hf := hC n fi hn
      have hfo := hf
      simp only [fieldOk, Bool.and_eq_true] at hfo
      have hdl : fi.depth ≤ key.length := checkIndex_ok_length P hck
      have hst := (fieldOk_starts hf).1
      -- the reference is evaluated, at a prefix of the key
      have main : ∃ m fm, resolve d.tab r.1 = some m ∧ d.tab[m]? = some fm ∧ m < n ∧
          fm.starts <+: fi.starts ∧
          ∃ w, look P d.tab S r.1 (key.take fm.starts.length) = .ok w := by
        have fin : ∀ (st : List Nat) (n' : Nat) (key' : Key), n' ≤ n → st <+: fi.starts →
            st.length ≤ key'.length → key' <+: key → refOk d.tab n' st r = true →
            (∃ k w, idxKey key' r.2 = .ok k ∧ look P d.tab S r.1 k = .ok w) →
            ∃ m fm, resolve d.tab r.1 = some m ∧ d.tab[m]? = some fm ∧ m < n ∧
              fm.starts <+: fi.starts ∧
              ∃ w, look P d.tab S r.1 (key.take fm.starts.length) = .ok w := by
          intro st n' key' hn' hp hl hpre hro ⟨k, w, hk, hw⟩
          unfold refOk at hro
          split at hro
          · cases hro
          · rename_i m hm
            split at hro
            · cases hro
            · rename_i fm hfm
              simp only [Bool.and_eq_true, decide_eq_true_eq, beq_iff_eq,
                List.isPrefixOf_iff_prefix] at hro
              obtain ⟨⟨hlt, hp'⟩, hidx⟩ := hro
              have hle := hp'.length_le
              rw [hidx, idxKey_range key' _ (by omega)] at hk
              injection hk with hk
              subst hk
              refine ⟨m, fm, hm, hfm, by omega, hp'.trans hp, w, ?_⟩
              obtain ⟨t, rfl⟩ := hpre
              rw [List.take_append_of_le_length (by omega)]
              exact hw
        simp only [FInfo.sure, List.mem_append] at hr
        rcases hr with hr | hr
        · cases hs : fi.shapes.getLast? with
          | none => rw [hs] at hr; simp at hr
          | some e =>
            rw [hs] at hr
            simp only at hr
            have hj : fi.shapes[fi.shapes.length - 1]? = some e := by
              rw [← List.getLast?_eq_getElem?]; exact hs
            have hne : 0 < fi.shapes.length := by
              have := lt_of_getElem? hj; omega
            obtain ⟨_, i, c, he, hi, hev, _⟩ :=
              checkIndex_last hck (j := fi.shapes.length - 1) (by unfold FInfo.depth; omega)
            rw [hj] at he
            injection he with he
            subst he
            have hval : ∃ v, evalE P (look P d.tab S) (key.take (fi.shapes.length - 1)) e = .ok v := by
              unfold evalShape at hev
              cases hx : evalE P (look P d.tab S) (key.take (fi.shapes.length - 1)) e with
              | error x => rw [hx] at hev; cases hev
              | ok v => exact ⟨v, rfl⟩
            obtain ⟨v, hv⟩ := hval
            obtain ⟨s, hss, hex⟩ := (shapesOk_get hfo.1.2).2 _ e hj
            rw [List.nil_append] at hex
            refine fin (fi.starts.take (fi.shapes.length - 1)) s
              (key.take (fi.shapes.length - 1)) ?_ (List.take_prefix _ _) ?_ (List.take_prefix _ _)
              (List.all_eq_true.mp hex r (e.sure_refs r hr)) (evalE_sure e v hv r hr)
            · exact (fieldOk_starts hf).2 s (List.mem_of_getElem? hss)
            · rw [List.length_take, List.length_take]
              unfold FInfo.depth at *
              omega
        · cases hc : fi.fd.cond with
          | none => rw [hc] at hr; simp at hr
          | some e =>
            rw [hc] at hr
            simp only at hr
            obtain ⟨b, hb⟩ := hcond
            unfold evalCond at hb
            rw [hc] at hb
            simp only at hb
            cases hx : evalE P (look P d.tab S) key e with
            | error x => rw [hx] at hb; cases hb
            | ok v =>
              refine fin fi.starts n key (Nat.le_refl _) (List.prefix_refl _) (by omega)
                (List.prefix_refl _) (List.all_eq_true.mp hfo.1.1 r ?_) (evalE_sure e v hx r hr)
              simp only [FieldDef.refs, List.mem_append, optRefs, hc]
              exact .inl (e.sure_refs r hr)
      obtain ⟨m, fm, hm, hfm, hlt, hp, w, hw⟩ := main
      rw [hm] at h
      simp only at h
      have hfn := resolve_named hm hfm
      unfold look lookVia at hw
      simp only [hm, hfm] at hw
      split at hw
      · cases hw
      · rw [getF_budget P hC S hfm] at hw
        obtain ⟨h1, h2⟩ := getItem_checked hfm (by rw [hfn]; simp) hw
        obtain ⟨e, i, c, he, hi, hev, h0, hi'⟩ := ih m fm _ h hfm h1 h2
        have hsh := flatten_shapes 0 [] [] d m n fm fi (by omega) hfm hn hp
        have hjl := lt_of_getElem? he
        have hml := (fieldOk_starts (hC m fm hfm)).1
        have hjs : j < fm.starts.length := by rw [hml]; exact hjl
        refine ⟨e, i, c, ?_, ?_, ?_, h0, hi'⟩
        · obtain ⟨t, ht⟩ := hsh
          rw [← ht, List.getElem?_append_left hjl]
          exact he
        · rw [List.getElem?_take, if_pos hjs] at hi
          exact hi
        · rw [List.take_take, Nat.min_eq_left (by omega)] at hev
          exact hev

end Verif
