import Verif.ReadAny
import Verif.Props.Frame
import Verif.Props.DesData
import Verif.Index

/- C82: reading into an object that has been used before. -/

namespace Verif

variable {P : PyFloat}

/-! ### Specification -/

/-- An object of the class with description `d` that has been used in some way: it was created,
assigned to, read into (with or without success; `partly` allows any change of named fields, so also
what a read stores before it fails). -/
inductive Used (P : PyFloat) (d : Desc) : Store P.F → Prop
  | new : Used P d Store.empty
  | assign {S : Store P.F} (nm : Name) (key : Key) (v : Val P.F) :
      Used P d S → Used P d (setAttr P d S nm key v).1
  | read {S S' : Store P.F} {lit : Bool} {b rest : Bytes} :
      Used P d S → readInto P d lit S b = .ok (S', rest) → Used P d S'
  | partly {S S' : Store P.F} : Used P d S →
      (∀ m k, S' m k = S m k ∨ ∃ fi, d.tab[m]? = some fi ∧ fi.fd.name ≠ none) → Used P d S'

/-- The element of field `n` at `key` is in the record: all its indices are in range, the field has a
name and its condition holds. -/
def Present (P : PyFloat) (d : Desc) (S : Store P.F) (n : Nat) (key : Key) : Prop :=
  Reach P d.tab S n key ∧ ∃ fi, d.tab[n]? = some fi ∧ fi.fd.name ≠ none ∧
    evalCond P (look P d.tab S) fi key = .ok true

/-- Two records a user cannot tell apart by the values of the fields, the raw bytes of what is in
the record, or by writing. -/
structure SameRecord (P : PyFloat) (d : Desc) (S R : Store P.F) : Prop where
  items : ∀ nm, itemsOf P d S nm = itemsOf P d R nm
  values : ∀ nm n key, resolve d.tab nm = some n → Reach P d.tab S n key →
    getAttr P d S nm key = getAttr P d R nm key
  raw : ∀ n key, Present P d S n key → getRawBytes P d.tab S n key = getRawBytes P d.tab R n key
  written : writeStruct P d S = writeStruct P d R

/-! ### Proofs -/

/-- An assignment stores into fields with names only. -/
theorem Stores.named {T : Tab} {n q : Nat} (h : Stores T n q)
    (hn : ∀ fi, T[n]? = some fi → fi.fd.name ≠ none) :
    ∀ fi, T[q]? = some fi → fi.fd.name ≠ none := by
  induction h with
  | self n => exact hn
  | size _ _ _ _ hr _ ih =>
    refine ih fun fm hm => ?_
    rw [resolve_named hr hm]
    simp

/-- Nothing is ever stored for a reserved field. -/
theorem Used.reserved {d : Desc} (hd : d.causal = true) {S : Store P.F} (h : Used P d S) :
    ∀ m k fi, d.tab[m]? = some fi → fi.fd.name = none → S m k = none := by
  induction h with
  | new => intros; rfl
  | @assign S nm key v _ ih =>
    intro m k fi hm hnm
    unfold setAttr
    cases hr : resolve d.tab nm with
    | none => exact ih m k fi hm hnm
    | some n =>
      simp only
      have hq : ¬ Stores d.tab n m := fun hs =>
        hs.named (fun fi' hn => by rw [resolve_named hr hn]; simp) fi hm hnm
      unfold setItem
      rw [setF_stores _ S n key v m k hq]
      exact ih m k fi hm hnm
  | read _ hr ih =>
    intro m k fi hm hnm
    obtain ⟨_, _, _, _, _, hres⟩ := readInto_facts P hd hr
    rw [hres m k fi hm hnm]
    exact ih m k fi hm hnm
  | @partly S S' _ hp ih =>
    intro m k fi hm hnm
    rcases hp m k with h | ⟨fi', h1, h2⟩
    · rw [h]; exact ih m k fi hm hnm
    · rw [hm] at h1
      cases h1
      exact absurd hnm h2

/-- C82.  Reading into an object that has been used before, in whatever way, and into a new one: the
same exception, or the same bytes are left in the file and the records cannot be told apart.
Missing: see `C82_raw_absent` and `C82_outer_index`. -/
theorem C82_read_again_partial {d : Desc} (hd : d.causal = true) {S : Store P.F} (hu : Used P d S)
    (lit : Bool) (b : Bytes) :
    (∃ e, readInto P d lit S b = .error e ∧ readStruct P d lit b = .error e) ∨
    ∃ S' R rest, readInto P d lit S b = .ok (S', rest) ∧ readStruct P d lit b = .ok (R, rest) ∧
      SameRecord P d S' R := by
  rcases readInto_any P hd lit S Store.empty b with h | ⟨S', R, rest, h1, h2, h3⟩
  · exact Or.inl h
  refine Or.inr ⟨S', R, rest, h1, h2, ?_⟩
  have hres : ∀ m k fi, d.tab[m]? = some fi → fi.fd.name = none → S' m k = R m k := by
    intro m k fi hm hnm
    rw [(Used.read hu h1).reserved hd m k fi hm hnm,
      (Used.read .new h2).reserved hd m k fi hm hnm]
  have hA : AllSame P d.tab S' R := fun m k hr => (h3 m k hr).1
  refine ⟨fun nm => ?_, fun nm n key hr hreach => ?_, fun n key hp => ?_, ?_⟩
  · unfold itemsOf
    cases resolve d.tab nm with
    | none => rfl
    | some n => exact fieldItems_same P (Desc.causalTab hd) hA n
  · unfold getAttr
    rw [hr]
    exact (h3 n key hreach).1
  · obtain ⟨hreach, fi, hn, hnm, hc⟩ := hp
    have hcell := (h3 n key hreach).2 fi hn hnm hc
    have hC := Desc.causalTab hd
    have hv := AllSame.visAt P hC hA hn hreach
    have hl := hv.look P hC
    have hst : stored R fi.fd n key = stored S' fi.fd n key := by
      unfold stored
      rw [hcell]
    have hlow := lowGet_congr P (S := S') (S' := R) hl (hC n fi hn) fun _ => by rw [hst]
    unfold getRawBytes
    rw [hn, ← hcell]
    simp only
    unfold fieldBytes
    rw [evalSize_congr P hl (hreach.starts P hC fi hn) (hC n fi hn), hlow, hst]
  · unfold writeStruct
    rw [writeChunks_sameThere P hd h3 hres]

/-- C82.  Every DES, TRE and header class of pynitf. -/
theorem C82_shipped {t : String × Desc} (ht : t ∈ Tables.all) {S : Store P.F} (hu : Used P t.2 S)
    (lit : Bool) (b : Bytes) :
    (∃ e, readInto P t.2 lit S b = .error e ∧ readStruct P t.2 lit b = .error e) ∨
    ∃ S' R rest, readInto P t.2 lit S b = .ok (S', rest) ∧ readStruct P t.2 lit b = .ok (R, rest) ∧
      SameRecord P t.2 S' R :=
  C82_read_again_partial (tables_causal t ht) hu lit b

/-- `data_after_tre_size` of a DES of that size, of which `r` of the bytes `b` were left. -/
def afterSize (size : Option Int) (b r : Bytes) : Int :=
  match size with
  | some n => n - ((b.length : Int) - r.length)
  | none => 0

theorem readDes_read {o : DesObj P.F} {id : Val P.F} {size : Option Int} {b r : Bytes}
    {S : Store P.F} (hid : pyEq P id (.str o.cls.tag) = true)
    (hr : readInto P o.cls.desc false o.fields b = .ok (S, r)) :
    readDes P o id size b =
      if afterSize size b r = 0 then .ok (some (⟨o.cls, S, some 0, o.extra⟩, r))
      else if o.cls.afterAllowed = true then
        if o.cls.copyAfter = true then
          .ok (some (⟨o.cls, S, some (afterSize size b r), some (fhRead (afterSize size b r) r).1⟩,
            (fhRead (afterSize size b r) r).2))
        else .ok (some (⟨o.cls, S, some (afterSize size b r), o.extra⟩,
          b.drop ((b.length : Int) - r.length + afterSize size b r).toNat))
      else .error .runtime := by
  unfold readDes
  rw [if_pos hid, hr]
  by_cases hz : afterSize size b r = 0
  · rw [if_pos hz]
    rw [← hz]
    cases size <;> simp_all [afterSize]
  · rw [if_neg hz]
    cases size <;> simp_all [afterSize]

/-- C82.  A DES object read again from a segment with more data than its fields need keeps nothing of
the old ones: it writes what it was read from, as a new object does. -/
theorem C82_des_partial {o o' : DesObj P.F} (hd : o.cls.desc.causal = true)
    (hu : Used P o.cls.desc o.fields) {id : Val P.F} {size : Option Int} {b rest : Bytes}
    (h : readDes P o id size b = .ok (some (o', rest))) :
    ∃ n, readDes P (DesObj.new o.cls) id size b = .ok (some (n, rest)) ∧ n.cls = o'.cls ∧
      n.after = o'.after ∧ SameRecord P o.cls.desc o'.fields n.fields ∧
      (o.cls.copyAfter = true → o'.after ≠ some 0 → o'.extra = n.extra) := by
  by_cases hid : pyEq P id (.str o.cls.tag) = true
  · rcases C82_read_again_partial hd hu false b with ⟨e, h1, _⟩ | ⟨S', R, r, h1, h2, hs⟩
    · unfold readDes at h
      rw [if_pos hid, h1] at h
      cases h
    · rw [readDes_read hid h1] at h
      rw [readDes_read (o := DesObj.new o.cls) hid h2]
      simp only [DesObj.new]
      by_cases hz : afterSize size b r = 0
      · rw [if_pos hz] at h
        cases h
        exact ⟨_, if_pos hz, rfl, rfl, hs, fun _ h0 => absurd rfl h0⟩
      · rw [if_neg hz] at h
        by_cases ha : o.cls.afterAllowed = true
        · rw [if_pos ha] at h
          by_cases hc : o.cls.copyAfter = true
          · rw [if_pos hc] at h
            cases h
            exact ⟨_, (if_neg hz).trans ((if_pos ha).trans (if_pos hc)), rfl, rfl, hs,
              fun _ _ => rfl⟩
          · rw [if_neg hc] at h
            cases h
            exact ⟨_, (if_neg hz).trans ((if_pos ha).trans (if_neg hc)), rfl, rfl, hs,
              fun h => absurd h hc⟩
        · rw [if_neg ha] at h
          cases h
  · unfold readDes at h
    rw [if_neg hid] at h
    cases h

/-! ### What does depend on the past -/

/-- C82 fails for the bytes after the fields of a DES: if there are none in the segment that is read,
those read before stay, and are written after the fields. -/
theorem C82_des_old_extra {o o' : DesObj P.F} {id : Val P.F} {size : Option Int} {b rest : Bytes}
    (h : readDes P o id size b = .ok (some (o', rest))) (h0 : o'.after = some 0) {x : Bytes}
    (hx : o.extra = some x) {w : Bytes} (hw : writeStruct P o.cls.desc o'.fields = .ok w) :
    o'.extra = some x ∧ writeDes P o' = .ok (w ++ x) := by
  by_cases hid : pyEq P id (.str o.cls.tag) = true
  · cases hr : readInto P o.cls.desc false o.fields b with
    | error e =>
      unfold readDes at h
      rw [if_pos hid, hr] at h
      cases h
    | ok s =>
      obtain ⟨S, r⟩ := s
      rw [readDes_read hid hr] at h
      by_cases hz : afterSize size b r = 0
      · rw [if_pos hz] at h
        cases h
        refine ⟨hx, ?_⟩
        unfold writeDes
        simp only at hw ⊢
        rw [hw, hx]
        rfl
      · rw [if_neg hz] at h
        by_cases ha : o.cls.afterAllowed = true
        · rw [if_pos ha] at h
          by_cases hc : o.cls.copyAfter = true
          · rw [if_pos hc] at h
            cases h
            exact absurd (Option.some.inj h0) hz
          · rw [if_neg hc] at h
            cases h
            exact absurd (Option.some.inj h0) hz
        · rw [if_neg ha] at h
          cases h
  · unfold readDes at h
    rw [if_neg hid] at h
    cases h

/-- A flag, and a text only if the flag is 1. -/
def condDesc : Desc :=
  .field { name := some (n!"a"), size := .const 1, ty := .int } <|
  .field { name := some (n!"b"), size := .const 2, ty := .str,
           cond := some (.eq (.ref (n!"a") []) (.const (.int 1))) } .nil

/-- C82 fails for `get_raw_bytes` of an element that is not in the record: it gives the bytes it had
in the record read before. -/
theorem C82_raw_absent :
    ((readStruct P0 condDesc false (asc "1XY")).bind fun s =>
      (readInto P0 condDesc false s.1 (asc "0")).map fun s =>
        (getAttr P0 condDesc s.1 (n!"b") [], getRawBytes P0 condDesc.tab s.1 1 [])) =
      .ok (.ok .none, .ok (asc "XY")) ∧
    (readStruct P0 condDesc false (asc "0")).map (fun s =>
        (getAttr P0 condDesc s.1 (n!"b") [], getRawBytes P0 condDesc.tab s.1 1 [])) ≠
      .ok (.ok .none, .ok (asc "XY")) := by
  decide +kernel

/-- A table with two columns. -/
def columnsDesc : Desc :=
  .field { name := some (n!"n"), size := .const 1, ty := .int } <|
  .loop (.ref (n!"n") [])
    (.loop (.const (.int 2)) (.field { name := some (n!"x"), size := .const 1, ty := .str } .nil)
      .nil) .nil

/-- C82 fails for an outer index out of range, which is not checked (C15): it gives the values of the
record read before. -/
theorem C82_outer_index :
    ((readStruct P0 columnsDesc false (asc "2abcd")).bind fun s =>
      (readInto P0 columnsDesc false s.1 (asc "0")).map fun s =>
        (getAttr P0 columnsDesc s.1 (n!"n") [], getAttr P0 columnsDesc s.1 (n!"x") [1, 0])) =
      .ok (.ok (.int 0), .ok (.str "c".toList)) ∧
    (readStruct P0 columnsDesc false (asc "0")).map (fun s =>
        (getAttr P0 columnsDesc s.1 (n!"n") [], getAttr P0 columnsDesc s.1 (n!"x") [1, 0])) =
      .ok (.ok (.int 0), .ok (.str [])) := by
  decide +kernel

/-! ### Examples -/

/-- A used object: read, assigned to, then read again with fewer elements. -/
example : ((readStruct P0 exDesc false (asc "03Y007NY   002hi")).bind fun s =>
    (readInto P0 exDesc false (setAttr P0 exDesc s.1 (n!"val") [0] (.int 9)).1
      (asc "01N000zz")).map fun s =>
        ((getAttr P0 exDesc s.1 (n!"val") [0], getAttr P0 exDesc s.1 (n!"flag") [1]),
          s.2, writeStruct P0 exDesc s.1)) =
    .ok ((.ok .none, .error .index), asc "zz", .ok (asc "01N000")) := by
  decide +kernel

example {R : Store P0.F} {r : Bytes}
    (h : readStruct P0 exDesc false (asc "03Y007NY   002hi") = .ok (R, r)) :
    Used P0 exDesc (setAttr P0 exDesc R (n!"val") [0] (.int 9)).1 := .assign _ _ _ (.read .new h)

/-- The same exception. -/
example : ((readStruct P0 exDesc false (asc "03Y007NY   002hi")).bind fun s =>
    (readInto P0 exDesc false s.1 (asc "01N0")).map fun s => s.2) =
    (readStruct P0 exDesc false (asc "01N0")).map fun s => s.2 := by
  decide +kernel

/-- A DES class that keeps the data after its fields. -/
def keepDes : DesCls := ⟨"KEEP".toList, condDesc, true, true⟩

/-- Read with two bytes after the fields, then from a segment with none: both are written. -/
example : ((readDes P0 (DesObj.new keepDes) (.str "KEEP".toList) (some 5) (asc "1XYpq")).bind
      fun r => match r with
        | none => .error .attr
        | some (o, _) =>
          (readDes P0 o (.str "KEEP".toList) (some 1) (asc "0")).bind fun r => match r with
            | none => .error .attr
            | some (o', _) => (writeDes P0 o').map fun w => (o'.after, w)) =
    .ok (some 0, asc "0pq") := by
  decide +kernel

end Verif
