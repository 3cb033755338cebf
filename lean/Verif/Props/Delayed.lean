import Verif.DelayedLemmas
import Verif.Scalar
import Verif.TreArea
import Verif.Example

/- C47: delayed reading (model in `Verif/Delayed.lean`). -/

namespace Verif

variable (P : PyFloat)

/-! ### Specification: a record read at once -/

/-- One operation on a record that has been read. -/
def stepI (d : Desc) (S : Store P.F) : FOp P.F → Store P.F × FRes P.F
  | .get nm key => (S, match getAttr P d S nm key with
    | .error e => .exc e
    | .ok v => .val v)
  | .set nm key v => ((setAttr P d S nm key v).1, match (setAttr P d S nm key v).2 with
    | some e => .exc e
    | none => .done)
  | .raw nm key => (S, match (match resolve d.tab nm with
      | none => Except.error Err.attr
      | some n => getRawBytes P d.tab S n key) with
    | .error e => .exc e
    | .ok b => .bytes b)
  | .write => (S, match writeStruct P d S with
    | .error e => .exc e
    | .ok b => .bytes b)

/-- The results of a sequence of operations. -/
def runI (d : Desc) : Store P.F → List (FOp P.F) → List (FRes P.F)
  | _, [] => []
  | S, op :: ops => (stepI P d S op).2 :: runI d (stepI P d S op).1 ops

/-- Operations that make the object read itself before they do anything: getting a value, setting
one element of a field in a loop, setting a number whose size depends on other fields, setting a
conditional field and, except in a TRE, setting a field at all. -/
inductive Looks {P : PyFloat} (d : Desc) (tre : Bool) : FOp P.F → Prop
  | get (nm : Name) (key : Key) : Looks d tre (.get nm key)
  | index {nm : Name} {n : Nat} {fi : FInfo} {key : Key} {v : Val P.F} :
      resolve d.tab nm = some n → d.tab[n]? = some fi → key ≠ [] → Looks d tre (.set nm key v)
  | packs {nm : Name} {n : Nat} {fi : FInfo} {u : Bool} {v : Val P.F} :
      resolve d.tab nm = some n → d.tab[n]? = some fi → fi.fd.kind = .intData u →
      sizeRefs fi.fd.size ≠ [] → Looks d tre (.set nm [] v)
  | cond {nm : Name} {n : Nat} {fi : FInfo} {v : Val P.F} :
      resolve d.tab nm = some n → d.tab[n]? = some fi → fi.fd.kind = .plain →
      optRefs fi.fd.cond ≠ [] → Looks d tre (.set nm [] v)
  | plain {nm : Name} {n : Nat} {fi : FInfo} {v : Val P.F} :
      tre = false → resolve d.tab nm = some n → d.tab[n]? = some fi → fi.fd.kind = .plain →
      fi.fd.hardcoded = false → fi.fd.value = none → Looks d tre (.set nm [] v)
  | data {nm : Name} {n : Nat} {fi : FInfo} {b : Bytes} :
      tre = false → resolve d.tab nm = some n → d.tab[n]? = some fi → fi.fd.kind = .bytesData →
      fi.fd.hardcoded = false → fi.fd.value = none → Looks d tre (.set nm [] (.bytes b))

/-! ### Proofs -/

theorem stepL_ready (d : Desc) (tre : Bool) (S : Store P.F) (op : FOp P.F) :
    stepL P d tre ⟨S, none⟩ op = (⟨(stepI P d S op).1, none⟩, (stepI P d S op).2) := by
  cases op with
  | get nm key =>
    simp only [stepL, force, stepI]
    cases getAttr P d S nm key <;> rfl
  | set nm key v =>
    simp only [stepL, stepI, setAttr]
    cases resolve d.tab nm with
    | none => rfl
    | some n =>
      simp only [setL_ready, setItem]
      cases (setF P d.tab (budget d.tab) S n key v).2 <;> rfl
  | raw nm key =>
    simp only [stepL, stepI]
    cases resolve d.tab nm with
    | none => rfl
    | some n =>
      simp only [getRawBytes]
      cases d.tab[n]? with
      | none => rfl
      | some fi =>
        simp only
        cases (S n key).bind Cell.raw with
        | some b => rfl
        | none =>
          simp only [forceIf_ready]
          cases fieldBytes P (look P d.tab S) S fi n key <;> rfl
  | write =>
    simp only [stepL, stepI, writeL_ready, writeStruct, writeChunks]
    cases writeD P d.tab S 0 [] d <;> rfl

/-- C47.  Once it has been read, the object behaves like one read at once. -/
theorem C47_ready (d : Desc) (tre : Bool) : ∀ (ops : List (FOp P.F)) (S : Store P.F),
    runL P d tre ⟨S, none⟩ ops = runI P d S ops
  | [], _ => rfl
  | op :: ops, S => by
    unfold runL runI
    rw [stepL_ready]
    simp only
    rw [C47_ready d tre ops]

theorem force_read {d : Desc} {lit : Bool} {b rest : Bytes} {S R : Store P.F}
    (h : readInto P d lit S b = .ok (R, rest)) : force P d ⟨S, some (b, lit)⟩ = (⟨R, none⟩, none) := by
  unfold force
  simp only [h]

theorem stepL_looks {d : Desc} {tre lit : Bool} {b rest : Bytes} {S R : Store P.F}
    (h : readInto P d lit S b = .ok (R, rest)) {op : FOp P.F} (hl : Looks d tre op) :
    stepL P d tre ⟨S, some (b, lit)⟩ op = stepL P d tre ⟨R, none⟩ op := by
  have hf := force_read P h
  have hf1 : forceIf P d true ⟨S, some (b, lit)⟩ = (⟨R, none⟩, none) := by
    unfold forceIf
    rw [if_pos rfl, hf]
  have hf0 : forceIf P d false ⟨S, some (b, lit)⟩ = (⟨S, some (b, lit)⟩, none) := rfl
  have hb : budget d.tab = d.tab.length + 1 := rfl
  cases hl with
  | get nm key =>
    simp only [stepL, hf]
    rfl
  | @index nm n fi key v hr hn hk =>
    simp only [stepL, hr]
    rw [hb]
    unfold setL
    have : setLooks1 fi key = true := by
      unfold setLooks1
      cases key with
      | nil => exact absurd rfl hk
      | cons a l => simp
    simp only [hn, this, hf1, forceIf_ready]
  | @packs nm n fi u v hr hn hk hc =>
    simp only [stepL, hr]
    rw [hb]
    unfold setL
    have : setLooks1 fi [] = true := by
      cases hh : sizeRefs fi.fd.size with
      | nil => exact absurd hh hc
      | cons a l => simp [setLooks1, packLooks, hk, hh]
    simp only [hn, this, hf1, forceIf_ready]
  | @cond nm n fi v hr hn hk hc =>
    simp only [stepL, hr]
    rw [hb]
    unfold setL
    have h1 : setLooks1 fi [] = false := by simp [setLooks1, packLooks, hk]
    have h2 : setLooks2 tre fi = true := by
      unfold setLooks2
      cases hh : optRefs fi.fd.cond with
      | nil => exact absurd hh hc
      | cons a l => simp
    simp only [hn, h1, h2, hf0, hf1, forceIf_ready, hk, packKind]
  | @plain nm n fi v ht hr hn hk hh hv =>
    simp only [stepL, hr]
    rw [hb]
    unfold setL
    have h1 : setLooks1 fi [] = false := by simp [setLooks1, packLooks, hk]
    have h2 : setLooks2 tre fi = true := by simp [setLooks2, ht, hh, hv]
    simp only [hn, h1, h2, hf0, hf1, forceIf_ready, hk, packKind]
  | @data nm n fi w ht hr hn hk hh hv =>
    simp only [stepL, hr]
    rw [hb]
    unfold setL
    have h1 : setLooks1 fi [] = false := by simp [setLooks1, packLooks, hk]
    have h2 : setLooks2 tre fi = true := by simp [setLooks2, ht, hh, hv]
    simp only [hn, h1, h2, hf0, hf1, forceIf_ready, hk, packKind]

theorem runL_looks {d : Desc} {tre lit : Bool} {b rest : Bytes} {S R : Store P.F}
    (h : readInto P d lit S b = .ok (R, rest)) {op : FOp P.F} (hl : Looks d tre op)
    (ops : List (FOp P.F)) :
    runL P d tre ⟨S, some (b, lit)⟩ (op :: ops) = runI P d R (op :: ops) := by
  rw [← C47_ready P d tre]
  unfold runL
  rw [stepL_looks P h hl]

/-- C47.  If the first thing done with the object is one of `Looks`, every result of every sequence
of operations, written bytes included, is that of an object read at once. -/
theorem C47_first_look_partial {d : Desc} {tre lit : Bool} {b rest : Bytes} {R : Store P.F}
    (h : readStruct P d lit b = .ok (R, rest)) {op : FOp P.F} (hl : Looks d tre op)
    (ops : List (FOp P.F)) :
    runL P d tre (delayed P lit b) (op :: ops) = runI P d R (op :: ops) :=
  runL_looks P h hl ops

/-! ### What is lost -/

/-- A field of a TRE that can be set without making the object read itself. -/
structure Unnoticed (d : Desc) (nm : Name) (n : Nat) : Prop where
  res : resolve d.tab nm = some n
  at_ : ∃ fi, d.tab[n]? = some fi ∧ Scalar fi ∧ fi.fd.kind = .plain ∧ fi.fd.cond = none

theorem stepL_unnoticed {d : Desc} {nm : Name} {n : Nat} (hu : Unnoticed d nm n) {S : Store P.F}
    {q : Bytes × Bool} {v : Val P.F} (hv : v.isNone = false) :
    stepL P d true ⟨S, some q⟩ (.set nm [] v) =
      (⟨S.set n [] ⟨.val v, none⟩, some q⟩, .done) := by
  obtain ⟨fi, hn, hs, hk, hc⟩ := hu.at_
  simp only [stepL, hu.res]
  rw [show budget d.tab = d.tab.length + 1 from rfl]
  unfold setL
  have h1 : setLooks1 fi [] = false := by simp [setLooks1, packLooks, hk]
  have h2 : setLooks2 true fi = false := by simp [setLooks2, optRefs, hc]
  have h3 : setCheck P d.tab S n [] v = .ok (fi, v) :=
    hs.setCheck_ok P hn (evalCond_none P hc _ _) (by rw [hk]; rfl) hv
  simp only [hn, h1, h2, h3, forceIf, Bool.false_eq_true, if_false, hk, packKind, if_true]

/-- C47 fails: whatever is set in a TRE before it is looked at (here the values `pre`) is silently
lost.  The results are those of a TRE read at once in which nothing was set. -/
theorem C47_lost {d : Desc} (hd : d.causal = true) {lit : Bool} {b rest : Bytes} {R : Store P.F}
    (h : readStruct P d lit b = .ok (R, rest)) {op : FOp P.F} (hl : Looks d true op)
    (ops : List (FOp P.F)) (pre : List (Name × Val P.F))
    (hp : ∀ p ∈ pre, p.2.isNone = false ∧ ∃ n, Unnoticed d p.1 n) :
    runL P d true (delayed P lit b) (pre.map (fun p => .set p.1 [] p.2) ++ op :: ops) =
      pre.map (fun _ => .done) ++ runI P d R (op :: ops) := by
  suffices H : ∀ S : Store P.F, AgreeTo P d.tab 0 S Store.empty →
      runL P d true ⟨S, some (b, lit)⟩ (pre.map (fun p => .set p.1 [] p.2) ++ op :: ops) =
        pre.map (fun _ => .done) ++ runI P d R (op :: ops) from
    H Store.empty fun _ _ => Or.inl rfl
  induction pre with
  | nil =>
    intro S hS
    refine runL_looks P (rest := rest) ?_ hl ops
    rw [readInto_over P hd lit b hS]
    exact h
  | cons p pre ih =>
    intro S hS
    obtain ⟨hv, n, hu⟩ := hp p List.mem_cons_self
    simp only [List.map_cons, List.cons_append]
    unfold runL
    rw [stepL_unnoticed P hu hv]
    simp only
    congr 1
    refine ih (fun p hp' => hp p (List.mem_cons_of_mem _ hp')) _ fun m k => ?_
    by_cases hmk : m = n ∧ k = []
    · obtain ⟨fi, a1, a2, _, a4⟩ := hu.at_
      exact Or.inr ⟨Nat.zero_le _, hmk.2, fi, by rw [hmk.1]; exact a1, a2.shapes, a4, a2.name⟩
    · rw [show (S.set n [] ⟨.val p.2, none⟩) m k = S m k by unfold Store.set; rw [if_neg hmk]]
      exact hS m k

/-! ### Witnesses -/

/-- A value set in a TRE before it is looked at is lost; in any other record it is kept. -/
theorem C47_set_lost :
    runL P0 exDesc true (delayed P0 false (asc "03Y007NY   002hi"))
      [.set (n!"num") [] (.int 2), .get (n!"num") []] = [.done, .val (.int 3)] ∧
    runL P0 exDesc false (delayed P0 false (asc "03Y007NY   002hi"))
      [.set (n!"num") [] (.int 2), .get (n!"num") []] = [.done, .val (.int 2)] := by
  decide +kernel

/-- Writing first reads in the middle: the count is written as 0 and three elements follow. -/
theorem C47_write_mixed (tre : Bool) :
    runL P0 exDesc tre (delayed P0 false (asc "03Y007NY   002hi")) [.write, .write] =
      [.bytes (asc "00Y007NY   002hi"), .bytes (asc "03Y007NY   002hi")] := by
  cases tre <;> decide +kernel

/-- Two numbers and no expression. -/
def flatDesc : Desc :=
  .field { name := some (n!"a"), size := .const 2, ty := .int } <|
  .field { name := some (n!"b"), size := .const 2, ty := .int } .nil

/-- Without expressions the defaults are written, and the raw bytes are those of the defaults. -/
theorem C47_write_defaults (tre : Bool) :
    runL P0 flatDesc tre (delayed P0 false (asc "0102")) [.write, .raw (n!"b") []] =
      [.bytes (asc "0000"), .bytes (asc "00")] := by
  cases tre <;> decide +kernel

example : (readStruct P0 flatDesc false (asc "0102")).toOption.isSome = true ∧
    runL P0 flatDesc true (delayed P0 false (asc "0102"))
      [.get (n!"a") [], .set (n!"a") [] (.int 7), .write, .raw (n!"b") []] =
      [.val (.int 1), .done, .bytes (asc "0702"), .bytes (asc "02")] := by decide +kernel

example : Unnoticed flatDesc (n!"a") 0 :=
  ⟨by decide +kernel, _, rfl, ⟨by decide, rfl, rfl, rfl⟩, rfl, rfl⟩

/-- A length and a number of that many bytes. -/
def numDesc : Desc :=
  .field { name := some (n!"n"), size := .const 1, ty := .int } <|
  .field { name := some (n!"x"), size := .expr (.ref (n!"n") []), kind := .intData false, ty := .bytes,
           sizeNotUpdated := true } .nil

/-- Setting the number reads the length first, in a TRE too. -/
example : Looks (P := P0) numDesc true (.set (n!"x") [] (.int 7)) ∧
    runL P0 numDesc true (delayed P0 false (asc "2" ++ [1, 2]))
      [.set (n!"x") [] (.int 7), .get (n!"n") [], .write] =
      [.done, .val (.int 2), .bytes (asc "2" ++ [0, 7])] :=
  ⟨.packs (n := 1) (u := false) (by decide +kernel) rfl rfl (by decide), by decide +kernel⟩

end Verif
