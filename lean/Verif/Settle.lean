import Verif.Frame
import Verif.Props.Struct

/-
Values that change when they are written and read, but only once: rounded floats, blank text in
optional fields.  If no row refers to such a field, a struct with the values that come back is
written as the same bytes, and that struct survives.
-/

namespace Verif

variable {P : PyFloat}

/-- Loop counts of a description. -/
def Desc.counts : Desc → List Expr
  | .nil => []
  | .field _ r => r.counts
  | .loop e b r => e :: (b.counts ++ r.counts)

theorem writeD_byRefs {T : Tab} {S R : Store P.F}
    (hc : ∀ (n : Nat) fi key, T[n]? = some fi →
      evalCond P (look P T S) fi key = evalCond P (look P T R) fi key)
    (hb : ∀ (n : Nat) fi key, T[n]? = some fi →
      fieldBytes P (look P T S) S fi n key = fieldBytes P (look P T R) R fi n key)
    (d : Desc) (hs : ∀ e ∈ d.counts, ∀ key,
      evalShape P (look P T S) e key = evalShape P (look P T R) e key) :
    ∀ n key, writeD P T S n key d = writeD P T R n key d := by
  induction d with
  | nil => intro n key; rfl
  | field fd r ih =>
    intro n key
    unfold writeD
    cases hn : T[n]? with
    | none => rfl
    | some fi =>
      simp only
      rw [hc n fi key hn, hb n fi key hn, ih hs]
  | loop e b r ihb ihr =>
    intro n key
    unfold writeD
    have h1 : (fun i => writeD P T S n (key ++ [i]) b) = fun i => writeD P T R n (key ++ [i]) b := by
      funext i
      exact ihb (fun e' he => hs e' (List.mem_cons_of_mem _ (List.mem_append_left _ he))) _ _
    rw [hs e List.mem_cons_self, h1,
      ihr fun e' he => hs e' (List.mem_cons_of_mem _ (List.mem_append_right _ he))]

theorem evalCond_byName {l l' : Look P.F} {fi : FInfo} {key : Key}
    (hl : ∀ nm ∈ fi.allRefs, l nm = l' nm) : evalCond P l fi key = evalCond P l' fi key := by
  unfold evalCond
  cases hc : fi.fd.cond with
  | none => rfl
  | some e =>
    simp only
    rw [evalE_byName e fun nm hn => hl nm (row_ref (by
      simp only [FieldDef.refs, hc, optRefs, List.map_append]
      exact List.mem_append_left _ hn))]

theorem evalSize_byName {l l' : Look P.F} {fi : FInfo} {key : Key}
    (hl : ∀ nm ∈ fi.allRefs, l nm = l' nm) : evalSize P l fi key = evalSize P l' fi key := by
  unfold evalSize
  cases hc : fi.fd.size with
  | const c => rfl
  | expr e =>
    simp only
    rw [evalE_byName e fun nm hn => hl nm (row_ref (by
      simp only [FieldDef.refs, hc, sizeRefs, List.map_append]
      exact List.mem_append_right _ (List.mem_append_left _ hn)))]

theorem checkIndex_byName {l l' : Look P.F} {fi : FInfo} {key : Key}
    (hl : ∀ nm ∈ fi.allRefs, l nm = l' nm) : checkIndex P l fi key = checkIndex P l' fi key := by
  unfold checkIndex
  cases hc : fi.shapes.getLast? with
  | none => rfl
  | some e =>
    have : ∀ k, evalShape P l e k = evalShape P l' e k := fun k =>
      evalShape_byName e fun nm hn => hl nm (shape_ref (List.mem_of_getLast? hc) hn)
    simp only [this]

theorem lowGet_byName {l l' : Look P.F} {S R : Store P.F} {fi : FInfo} {n : Nat} {key : Key}
    (hl : ∀ nm ∈ fi.allRefs, l nm = l' nm) (hS : stored S fi.fd n key = stored R fi.fd n key) :
    lowGet P l S fi n key = lowGet P l' R fi n key := by
  unfold lowGet
  rw [evalCond_byName hl, checkIndex_byName hl, hS]
  cases hv : fi.fd.value with
  | none => rfl
  | some e =>
    simp only
    rw [evalE_byName (l := l) (l' := l') e fun nm hn => hl nm (row_ref (by
      simp only [FieldDef.refs, hv, optRefs, List.map_append]
      exact List.mem_append_right _ (List.mem_append_right _ hn)))]

theorem parse_val {fd : FieldDef} {b : Bytes} {v : Stored P.F}
    (hp : parseField P fd false b = .ok v) : ∃ x, v = .val x := by
  unfold parseField at hp
  simp only [Bool.false_eq_true, if_false] at hp
  split at hp
  · injection hp with hp; exact ⟨_, hp.symm⟩
  · split at hp
    · injection hp with hp; exact ⟨_, hp.symm⟩
    · injection hp with hp; exact ⟨_, hp.symm⟩
    · split at hp
      · cases hp
      · split at hp
        · injection hp with hp; exact ⟨_, hp.symm⟩
        · cases hp
    · split at hp
      · cases hp
      · split at hp
        · injection hp with hp; exact ⟨_, hp.symm⟩
        · cases hp

/-- What is written for `w` is read as a value that is written the same way and survives. -/
def SettlesTo (P : PyFloat) (fd : FieldDef) (sz : Int) (w w' : Val P.F) : Prop :=
  ∀ b, encodeVal P fd sz w = .ok b → ∃ v, parseField P fd false b = .ok (.val v) ∧
    finish P fd (.val v) = .ok w' ∧ encodeVal P fd sz w' = .ok b ∧ ValRep P fd sz w'

/-- The cell that reading what is written for a field gives. -/
def rereadCell (P : PyFloat) (T : Tab) (S : Store P.F) (m : Nat) (key : Key) : Option (Cell P.F) :=
  match T[m]? with
  | none => S m key
  | some fi =>
    match getItem P T S m key, evalSize P (look P T S) fi key with
    | .ok .none, _ => S m key
    | .ok w, .ok sz =>
      match encodeVal P fi.fd sz w with
      | .error _ => S m key
      | .ok b =>
        match parseField P fi.fd false b with
        | .error _ => S m key
        | .ok v => some ⟨v, none⟩
    | _, _ => S m key

/-- The struct with all fields in `bad` read back. -/
def settle (P : PyFloat) (T : Tab) (bad : List Nat) (S : Store P.F) : Store P.F :=
  fun m key => if bad.contains m then rereadCell P T S m key else S m key

/-- Conditions on a table and a set of positions, see above. -/
structure Loose (d : Desc) (bad : List Nat) : Prop where
  refs : ∀ (n : Nat) fi, d.tab[n]? = some fi → ∀ nm ∈ fi.allRefs, ∀ m, resolve d.tab nm = some m →
    m ∉ bad
  counts : ∀ e ∈ d.counts, ∀ nm ∈ e.refs.map (·.1), ∀ m, resolve d.tab nm = some m → m ∉ bad
  row : ∀ m ∈ bad, ∀ fi, d.tab[m]? = some fi → fi.fd.value = none ∧ fi.fd.kind = .plain ∧
    fi.fd.name ≠ none
  rest : ∀ (m : Nat) fi, d.tab[m]? = some fi → m ∉ bad → fi.fd.alwaysSurvives = true

section

variable {d : Desc} {bad : List Nat} {S : Store P.F}

theorem settle_good {m : Nat} (hm : m ∉ bad) (key : Key) :
    settle P d.tab bad S m key = S m key := by
  unfold settle
  rw [if_neg (by simpa using hm)]

theorem settle_look (hL : Loose d bad) {nm : Name} (h : ∀ m, resolve d.tab nm = some m → m ∉ bad) :
    look P d.tab S nm = look P d.tab (settle P d.tab bad S) nm := by
  funext k
  unfold look lookVia
  cases hr : resolve d.tab nm with
  | none => rfl
  | some m =>
    simp only
    have hA : ClosedSet d.tab fun n => n ∉ bad := fun n fi hn _ nm hnm m hr =>
      hL.refs n fi hn nm hnm m hr
    rw [getF_closed hA (S := S) (R := settle P d.tab bad S)
      (fun n fi _ hA k => by unfold stored; rw [settle_good hA]) _ m k (h m hr)]

theorem settle_refs (hL : Loose d bad) {n : Nat} {fi : FInfo} (hn : d.tab[n]? = some fi) :
    ∀ nm ∈ fi.allRefs, look P d.tab S nm = look P d.tab (settle P d.tab bad S) nm :=
  fun nm hnm => settle_look hL fun m hr => hL.refs n fi hn nm hnm m hr

/-- Values that come back of a field in `bad`. -/
def Settling (P : PyFloat) (d : Desc) (bad : List Nat) (S : Store P.F) : Prop :=
  ∀ m ∈ bad, ∀ fi key w sz, d.tab[m]? = some fi → getItem P d.tab S m key = .ok w → w ≠ .none →
    evalSize P (look P d.tab S) fi key = .ok sz → ∃ w', SettlesTo P fi.fd sz w w'

theorem getItem_plain {T : Tab} {S : Store P.F} {m : Nat} {fi : FInfo} {key : Key}
    (hm : T[m]? = some fi) (hk : fi.fd.kind = .plain) :
    getItem P T S m key = lowGet P (look P T S) S fi m key := by
  rw [getItem_eq P key hm]
  unfold getWith
  rw [hk]
  cases lowGet P (look P T S) S fi m key <;> rfl

theorem lowGet_stored {l : Look P.F} {S : Store P.F} {fi : FInfo} {m : Nat} {key : Key}
    (hv : fi.fd.value = none) (hn : fi.fd.name ≠ none) :
    lowGet P l S fi m key =
      match checkIndex P l fi key with
      | .error e => .error e
      | .ok _ =>
        match evalCond P l fi key with
        | .error e => .error e
        | .ok false => .ok .none
        | .ok true => finish P fi.fd (stored S fi.fd m key) := by
  unfold lowGet
  cases hnm : fi.fd.name with
  | none => exact absurd hnm hn
  | some nm =>
    simp only [hv, bind, Except.bind]
    cases checkIndex P l fi key with
    | error e => rfl
    | ok u =>
      simp only
      cases evalCond P l fi key with
      | error e => rfl
      | ok b => cases b <;> rfl

theorem getItem_finish {T : Tab} {S : Store P.F} {m : Nat} {fi : FInfo} {key : Key}
    (hm : T[m]? = some fi) (hk : fi.fd.kind = .plain) (hv : fi.fd.value = none)
    (hn : fi.fd.name ≠ none) {w : Val P.F} (hg : getItem P T S m key = .ok w) (hw : w ≠ .none) :
    finish P fi.fd (stored S fi.fd m key) = .ok w := by
  rw [getItem_plain hm hk, lowGet_stored hv hn] at hg
  cases hc : checkIndex P (look P T S) fi key with
  | error e => rw [hc] at hg; cases hg
  | ok u =>
    rw [hc] at hg
    simp only at hg
    cases hcc : evalCond P (look P T S) fi key with
    | error e => rw [hcc] at hg; cases hg
    | ok bb =>
      rw [hcc] at hg
      cases bb
      · simp only at hg
        injection hg with hg
        exact absurd hg.symm hw
      · exact hg

/-- A field of the settled struct: the same as before, or what its written bytes are read as. -/
theorem settle_field (hL : Loose d bad) (hS : Settling P d bad S) {m : Nat} {fi : FInfo}
    (hm : d.tab[m]? = some fi) (hb : m ∈ bad) (key : Key) :
    let S' := settle P d.tab bad S
    stored S' fi.fd m key = stored S fi.fd m key ∧
        (∀ w sz, getItem P d.tab S m key = .ok w → w ≠ .none →
          evalSize P (look P d.tab S) fi key = .ok sz → ∃ e, encodeVal P fi.fd sz w = .error e) ∨
      ∃ w sz b v w', getItem P d.tab S m key = .ok w ∧ w ≠ .none ∧
        evalSize P (look P d.tab S) fi key = .ok sz ∧ encodeVal P fi.fd sz w = .ok b ∧
        parseField P fi.fd false b = .ok (.val v) ∧
        stored S' fi.fd m key = .val v ∧ getItem P d.tab S' m key = .ok w' ∧
        encodeVal P fi.fd sz w' = .ok b ∧ ValRep P fi.fd sz w' := by
  intro S'
  obtain ⟨hv, hk, hn⟩ := hL.row m hb fi hm
  have hcell : S' m key = rereadCell P d.tab S m key := by
    show settle P d.tab bad S m key = _
    unfold settle
    rw [if_pos (by simpa using hb)]
  unfold rereadCell at hcell
  rw [hm] at hcell
  simp only at hcell
  cases hg : getItem P d.tab S m key with
  | error e =>
    rw [hg] at hcell
    refine .inl ⟨?_, fun w sz h => by cases h⟩
    unfold stored
    rw [hcell]
  | ok w =>
    rw [hg] at hcell
    by_cases hw : w = .none
    · subst hw
      refine .inl ⟨?_, fun w sz h h' => by injection h with h; exact absurd h.symm h'⟩
      unfold stored
      rw [hcell]
    · cases hsz : evalSize P (look P d.tab S) fi key with
      | error e =>
        rw [hsz] at hcell
        refine .inl ⟨?_, fun w sz _ _ h => by cases h⟩
        unfold stored
        rw [hcell]
        cases w <;> rfl
      | ok sz =>
        rw [hsz] at hcell
        have hcell' : S' m key =
            match encodeVal P fi.fd sz w with
            | .error _ => S m key
            | .ok b =>
              match parseField P fi.fd false b with
              | .error _ => S m key
              | .ok v => some ⟨v, none⟩ := by
          rw [hcell]
          cases w <;> first | exact absurd rfl hw | rfl
        cases he : encodeVal P fi.fd sz w with
        | error e =>
          rw [he] at hcell'
          refine .inl ⟨?_, fun w2 sz2 h _ h2 => ?_⟩
          · unfold stored
            rw [hcell']
          · injection h with h
            injection h2 with h2
            subst h h2
            exact ⟨e, he⟩
        | ok b =>
          obtain ⟨w', hst⟩ := hS m hb fi key w sz hm hg hw hsz
          obtain ⟨v, h1, h2, h3, h4⟩ := hst b he
          rw [he] at hcell'
          simp only [h1] at hcell'
          have hsto : stored S' fi.fd m key = .val v := by
            unfold stored
            rw [hcell']
          refine .inr ⟨w, sz, b, v, w', rfl, hw, rfl, he, h1, hsto, ?_, h3, h4⟩
          rw [getItem_plain hm hk, lowGet_stored hv hn]
          rw [getItem_plain hm hk, lowGet_stored hv hn] at hg
          have hr := settle_refs (P := P) (S := S) hL hm
          rw [← checkIndex_byName hr, ← evalCond_byName hr, hsto, h2]
          cases hc : checkIndex P (look P d.tab S) fi key with
          | error e => rw [hc] at hg; cases hg
          | ok u =>
            rw [hc] at hg
            simp only at hg ⊢
            cases hcc : evalCond P (look P d.tab S) fi key with
            | error e => rw [hcc] at hg; cases hg
            | ok bb =>
              rw [hcc] at hg
              cases bb
              · simp only at hg
                injection hg with hg
                exact absurd hg.symm hw
              · rfl

/-- The settled struct is written as the same bytes. -/
theorem settle_bytes (hL : Loose d bad) (hS : Settling P d bad S)
    (hval : ∀ n k c, S n k = some c → ∃ v, c.val = .val v) {m : Nat} {fi : FInfo}
    (hm : d.tab[m]? = some fi) (key : Key) :
    fieldBytes P (look P d.tab S) S fi m key =
      fieldBytes P (look P d.tab (settle P d.tab bad S)) (settle P d.tab bad S) fi m key := by
  have hr := settle_refs (P := P) (S := S) hL hm
  have same : stored (settle P d.tab bad S) fi.fd m key = stored S fi.fd m key →
      fieldBytes P (look P d.tab S) S fi m key =
      fieldBytes P (look P d.tab (settle P d.tab bad S)) (settle P d.tab bad S) fi m key := by
    intro hst
    unfold fieldBytes
    rw [evalSize_byName hr, hst, lowGet_byName hr hst.symm]
  by_cases hb : m ∈ bad
  · rcases settle_field hL hS hm hb key with ⟨hst, _⟩ | ⟨w, sz, b, v, w', h1, _, h3, h4, h5, h6, h7, h8, _⟩
    · exact same hst
    · obtain ⟨hv, hk, hn⟩ := hL.row m hb fi hm
      rw [getItem_plain hm hk] at h1 h7
      have : ∃ v0, stored S fi.fd m key = .val v0 := by
        unfold stored
        cases hc : S m key with
        | none => exact ⟨_, rfl⟩
        | some c => exact hval _ _ c hc
      obtain ⟨v0, hv0⟩ := this
      unfold fieldBytes
      rw [← evalSize_byName hr, h3, hv0, h6, h1, h7]
      simp only
      rw [h4, h8]
  · refine same ?_
    unfold stored
    rw [settle_good hb]

theorem settle_write (hL : Loose d bad) (hS : Settling P d bad S)
    (hval : ∀ n k c, S n k = some c → ∃ v, c.val = .val v) :
    writeChunks P d (settle P d.tab bad S) = writeChunks P d S := by
  symm
  refine writeD_byRefs (fun n fi key hn => evalCond_byName (settle_refs hL hn))
    (fun n fi key hn => settle_bytes hL hS hval hn key) d (fun e he key => ?_) 0 []
  exact evalShape_byName e fun nm hnm => settle_look hL (hL.counts e he nm hnm)

theorem settle_vals (hval : ∀ n k c, S n k = some c → ∃ v, c.val = .val v) :
    ∀ n k c, settle P d.tab bad S n k = some c → ∃ v, c.val = .val v := by
  intro n k c h
  unfold settle at h
  split at h
  · unfold rereadCell at h
    split at h
    · exact hval n k c h
    · split at h
      · exact hval n k c h
      · split at h
        · exact hval n k c h
        · split at h
          · exact hval n k c h
          · rename_i v hp
            injection h with h
            subst h
            exact parse_val hp
      · exact hval n k c h
  · exact hval n k c h

/-- Survival of the settled struct. -/
theorem settle_survives (hd : d.causal = true) (hL : Loose d bad) (hS : Settling P d bad S)
    (hval : ∀ n k c, S n k = some c → ∃ v, c.val = .val v) {cs : List Chunk}
    (hw : writeChunks P d S = .ok cs) :
    ∀ ch ∈ cs, Survives P d (settle P d.tab bad S) ch := by
  intro ch hch fi hfi hnm
  have hs : ∃ v, stored (settle P d.tab bad S) fi.fd ch.pos ch.key = .val v := by
    unfold stored
    cases hc : settle P d.tab bad S ch.pos ch.key with
    | none => exact ⟨_, rfl⟩
    | some c => exact settle_vals hval _ _ c hc
  obtain ⟨v0, hv0⟩ := hs
  rw [hv0]
  simp only
  intro x hx
  by_cases hb : ch.pos ∈ bad
  · obtain ⟨hv, hk, hn⟩ := hL.row _ hb fi hfi
    obtain ⟨_, fi', hfi', hcond, hfb⟩ := writeChunks_from P hd hw hch
    rw [hfi] at hfi'
    injection hfi' with hfi'
    subst hfi'
    have hsz := fieldBytes_length P hfb
    have hr := settle_refs (P := P) (S := S) hL hfi
    rcases settle_field hL hS hfi hb ch.key with
      ⟨hst, hfail⟩ | ⟨w, sz, b, v, w', h1, _, h3, h4, h5, h6, h7, h8, h9⟩
    · rw [← lowGet_byName hr hst.symm] at hx
      cases x with
      | none => trivial
      | _ =>
        exfalso
        rw [← getItem_plain hfi hk] at hx
        obtain ⟨e, he⟩ := hfail _ _ hx (by simp) hsz
        rw [getItem_plain hfi hk] at hx
        have : ∃ v0, stored S fi.fd ch.pos ch.key = .val v0 := ⟨v0, by rw [← hst, hv0]⟩
        obtain ⟨v1, hv1⟩ := this
        unfold fieldBytes at hfb
        rw [hsz, hv1, hx] at hfb
        simp only at hfb
        rw [he] at hfb
        cases hfb
    · rw [← getItem_plain hfi hk, h7] at hx
      injection hx with hx
      subst hx
      rw [hsz] at h3
      injection h3 with h3
      rw [h3]
      exact h9
  · have := hL.rest _ fi hfi hb
    simp only [FieldDef.alwaysSurvives, Bool.and_eq_true, Bool.not_eq_true'] at this
    unfold ValRep
    cases x with
    | none => trivial
    | _ =>
      simp only [this.1, Bool.false_eq_true, if_false]
      split
      · rename_i h
        have h2 := this.2
        simp [h.1, h.2] at h2
      · trivial

theorem settle_reach (hL : Loose d bad) {m : Nat} {key : Key} (h : Reach P d.tab S m key) :
    Reach P d.tab (settle P d.tab bad S) m key := by
  obtain ⟨fi, hm, hl, hs⟩ := h
  refine ⟨fi, hm, hl, fun j e i he hi => ?_⟩
  obtain ⟨h0, c, hc, hlt⟩ := hs j e i he hi
  refine ⟨h0, c, ?_, hlt⟩
  rw [← evalShape_byName e fun nm hnm =>
    settle_refs (P := P) (S := S) hL hm nm (shape_ref (List.mem_of_getElem? he) hnm)]
  exact hc

/-- Write, read, write. -/
theorem settle_round (hd : d.causal = true) (hwf : d.allFields FieldDef.wf = true)
    (hL : Loose d bad) (hS : Settling P d bad S)
    (hval : ∀ n k c, S n k = some c → ∃ v, c.val = .val v) {b : Bytes}
    (hw : writeStruct P d S = .ok b) (rest : Bytes) :
    ∃ R, readStruct P d false (b ++ rest) = .ok (R, rest) ∧ writeStruct P d R = .ok b ∧
      (∀ m, m ∉ bad → fieldItems P d.tab R m = fieldItems P d.tab S m) ∧
      ∀ m fi key, d.tab[m]? = some fi → Reach P d.tab S m key →
        match getItem P d.tab S m key with
        | .error e => getItem P d.tab R m key = .error e
        | .ok w => ∃ w', getItem P d.tab R m key = .ok w' ∧ (m ∉ bad → w' = w) ∧
            (w = .none → w' = .none) ∧
            ∀ sz, evalSize P (look P d.tab S) fi key = .ok sz →
              encodeVal P fi.fd sz w' = encodeVal P fi.fd sz w := by
  unfold writeStruct at hw
  cases hc : writeChunks P d S with
  | error e => rw [hc] at hw; cases hw
  | ok cs =>
    rw [hc] at hw
    simp only [Except.map] at hw
    injection hw with hw
    subst hw
    have hw' := settle_write hL hS hval
    rw [hc] at hw'
    have hsv := settle_survives hd hL hS hval hc
    obtain ⟨R, h1, h2⟩ := readInto_written P hd hw' false (chunkOk_of_survives P hd hwf hw' hsv)
      Store.empty rest
    have h3 := rewrite_same P hd hwf hw' hsv (fun ch _ fi _ => by
      unfold stored
      cases hcc : settle P d.tab bad S ch.pos ch.key with
      | none => exact ⟨_, rfl⟩
      | some c => exact settle_vals hval _ _ c hcc) h2 h1
    have hA : ClosedSet d.tab fun n => n ∉ bad := fun n fi hn _ nm hnm m hr =>
      hL.refs n fi hn nm hnm m hr
    have hgood := fun (m : Nat) (hm : m ∉ bad) =>
      getItem_closed (P := P) hA (S := S) (R := settle P d.tab bad S)
        (fun n fi _ hA k => by unfold stored; rw [settle_good hA]) (n := m) hm
    refine ⟨R, h1, ?_, ?_, ?_⟩
    · unfold writeStruct
      rw [h3]
      rfl
    · intro m hm
      rw [(hgood m hm).2]
      exact (fieldItems_same P (Desc.causalTab hd) h2 m).symm
    · intro m fi key hm hreach
      have hR := h2 m key (settle_reach hL hreach)
      unfold SameAt at hR
      rw [← hR]
      by_cases hb : m ∈ bad
      · obtain ⟨hv, hk, hn⟩ := hL.row _ hb fi hm
        rcases settle_field hL hS hm hb key with
          ⟨hst, _⟩ | ⟨w, sz, b, v, w', g1, g2, g3, g4, g5, g6, g7, g8, g9⟩
        · have : getItem P d.tab (settle P d.tab bad S) m key = getItem P d.tab S m key := by
            rw [getItem_plain hm hk, getItem_plain hm hk]
            exact (lowGet_byName (settle_refs hL hm) hst.symm).symm
          rw [this]
          cases getItem P d.tab S m key with
          | error e => rfl
          | ok w => exact ⟨w, rfl, fun _ => rfl, id, fun _ _ => rfl⟩
        · rw [g1, g7]
          refine ⟨w', rfl, fun h => absurd hb h, fun h => absurd h g2, fun sz' h => ?_⟩
          rw [g3] at h
          injection h with h
          subst h
          rw [g8, g4]
      · rw [← (hgood m hb).1 key]
        cases getItem P d.tab S m key with
        | error e => rfl
        | ok w => exact ⟨w, rfl, fun _ => rfl, id, fun _ _ => rfl⟩

end

end Verif
