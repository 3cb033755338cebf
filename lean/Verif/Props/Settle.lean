import Verif.Settle
import Verif.Props.Format

/-
C63.  Write, read, write: the bytes of the second write are those of the first.  Values may change
on the first trip (floats are rounded, blank text in optional fields becomes `None`), not later.
-/

namespace Verif

variable {P : PyFloat}

/-- Fields whose value may change when it is written: floats, and optional text. -/
def FieldDef.loose (fd : FieldDef) : Bool := fd.ty == .flt || (fd.ty == .str && fd.optional)

/-- What the theorem asks of the values: floats in the range of `C62_stable`, and no text that
consists of fill characters only in optional fields filled with something else than blanks.  Both
hold for values `w` that are not there (`None`). -/
def Settled (D : Doubles P) (fd : FieldDef) (w : Val P.F) : Prop :=
  match w with
  | .flt x => fd.ty = .flt → Ordinary (D.val x).mag ∧
      ∀ f, fd.floatFmt = some (.printf f) → f.prec = 15 → (D.val x).mag ≤ 4
  | .str s => fd.ty = .str → fd.optional = true → fd.optChar ≠ ' ' →
      ∃ c ∈ s, c ≠ ' ' ∧ c ≠ fd.optChar
  | _ => True

/-! ### Proofs -/

def loosePos (T : Tab) : List Nat :=
  (List.range T.length).filter fun n =>
    match T[n]? with
    | some fi => fi.fd.loose
    | none => false

def looseOk (d : Desc) : Bool :=
  let bad := loosePos d.tab
  let free := fun nm => match resolve d.tab nm with | none => true | some m => !bad.contains m
  d.tab.all (fun fi => fi.allRefs.all free &&
    (if fi.fd.loose then fi.fd.value.isNone && fi.fd.kind == .plain && fi.fd.name.isSome &&
      (fi.fd.ty == .flt || fi.fd.frmt.isNone) else fi.fd.alwaysSurvives)) &&
  d.counts.all fun e => (e.refs.map (·.1)).all free

theorem tables_loose : ∀ t ∈ Tables.all, looseOk t.2 = true := by decide +kernel

theorem mem_loosePos {T : Tab} {m : Nat} {fi : FInfo} (hm : T[m]? = some fi) :
    m ∈ loosePos T ↔ fi.fd.loose = true := by
  unfold loosePos
  rw [List.mem_filter, List.mem_range, hm]
  exact ⟨fun h => h.2, fun h => ⟨lt_of_getElem? hm, h⟩⟩

theorem looseOk_row {d : Desc} (h : looseOk d = true) {m : Nat} {fi : FInfo}
    (hm : d.tab[m]? = some fi) :
    (∀ nm ∈ fi.allRefs, ∀ k, resolve d.tab nm = some k → k ∉ loosePos d.tab) ∧
    (fi.fd.loose = true → fi.fd.value = none ∧ fi.fd.kind = .plain ∧ fi.fd.name ≠ none ∧
      (fi.fd.ty = .flt ∨ fi.fd.frmt = none)) ∧
    (fi.fd.loose = false → fi.fd.alwaysSurvives = true) := by
  unfold looseOk at h
  rw [Bool.and_eq_true] at h
  have h1 := List.all_eq_true.mp h.1 fi (List.mem_of_getElem? hm)
  rw [Bool.and_eq_true] at h1
  refine ⟨fun nm hnm k hk => ?_, fun hl => ?_, fun hl => ?_⟩
  · have := List.all_eq_true.mp h1.1 nm hnm
    rw [hk] at this
    simpa using this
  · have h2 := h1.2
    rw [if_pos hl] at h2
    simp only [Bool.and_eq_true, Bool.or_eq_true, beq_iff_eq, Option.isNone_iff_eq_none] at h2
    refine ⟨h2.1.1.1, h2.1.1.2, fun hn => ?_, h2.2⟩
    rw [hn] at h2
    simp at h2
  · have h2 := h1.2
    rw [if_neg (by simp [hl])] at h2
    exact h2

theorem loose_of_ok {d : Desc} (h : looseOk d = true) : Loose d (loosePos d.tab) where
  refs n fi hn := (looseOk_row h hn).1
  counts e he nm hnm m hr := by
    unfold looseOk at h
    rw [Bool.and_eq_true] at h
    have := List.all_eq_true.mp (List.all_eq_true.mp h.2 e he) nm hnm
    rw [hr] at this
    simpa using this
  row m hm fi hfi := by
    obtain ⟨a, b, c, _⟩ := (looseOk_row h hfi).2.1 ((mem_loosePos hfi).mp hm)
    exact ⟨a, b, c⟩
  rest m fi hfi hm := (looseOk_row h hfi).2.2 (by
    by_contra hc
    exact hm ((mem_loosePos hfi).mpr (by simpa using hc)))

theorem settles_refl {fd : FieldDef} (hwf : fd.wf = true) {sz : Int} {w : Val P.F}
    (hw : (w = .none ∧ fd.optional = true) ∨ ∃ v, coerce P fd v = .ok w)
    (hr : ValRep P fd sz w) : SettlesTo P fd sz w w := by
  intro b hb
  obtain ⟨v, h1, h2⟩ := parse_encodeVal P hwf hw hb hr
  obtain ⟨x, rfl⟩ := parse_val h1
  exact ⟨x, h1, h2, hb, hr⟩

/-- Optional text. -/
theorem settles_text {fd : FieldDef} (hwf : fd.wf = true) (hty : fd.ty = .str)
    (ho : fd.optional = true) (hf : fd.frmt = none) {sz : Int} {s : Str}
    (hs : ∃ v, coerce P fd v = .ok (.str s))
    (hd : fd.optChar ≠ ' ' → ∃ c ∈ s, c ≠ ' ' ∧ c ≠ fd.optChar) :
    ∃ w', SettlesTo P fd sz (.str s) w' := by
  by_cases h : ∃ c ∈ s, c ≠ ' ' ∧ c ≠ fd.optChar
  · refine ⟨.str s, settles_refl hwf (.inr hs) ?_⟩
    unfold ValRep
    simp only [FieldDef.opaqueText, hty, hf, Bool.false_eq_true, if_false, ho, and_self, if_true]
    exact ⟨s, rfl, h⟩
  · have hc : fd.optChar = ' ' := by
      by_contra hc
      exact h (hd hc)
    obtain ⟨v, hv⟩ := hs
    have hsh := coerce_shape P hv
    simp only [hty] at hsh
    have hnil : s = [] := by
      have hall : ∀ c ∈ s, c = ' ' := by
        intro c hcs
        by_contra hne
        exact h ⟨c, hcs, hne, by rw [hc]; exact hne⟩
      rw [← hsh]
      unfold rstripU
      rw [rstripBy_nil_iff, List.all_eq_true]
      intro c hcs
      rw [hall c hcs]
      decide
    subst hnil
    refine ⟨.none, fun b hb => ⟨.none, ?_, by simp [finish, ho], ?_, trivial⟩⟩ <;>
      rw [encodeVal_of_ne_none P fd sz _ (by simp)] at hb <;>
      simp only [hty] at hb <;>
      (cases hfv : formatVal P fd (.str []) sz with
        | error e => rw [hfv] at hb; cases hb
        | ok t =>
          rw [hfv] at hb
          obtain ⟨h0, t', h1, h2⟩ := formatVal_ok P hfv
          unfold formatCore at h1
          rw [hf] at h1
          simp only [hty] at h1
          injection h1 with h1
          subst h1
          rw [if_neg (by rw [hty]; decide)] at h2
          have ht : t = List.replicate sz.toNat fd.optChar := by
            rw [h2, hc]
            simp [padRight, pyStr]
          simp only at hb
          split at hb
          · cases hb
          · rw [ht] at hb
            first
              | (unfold parseField
                 simp [ho, isFill_replicate fd _ hb])
              | (unfold encodeVal
                 rw [ho]
                 simp only
                 rw [if_neg (by omega), if_neg (by rw [hty]; decide)]
                 exact hb))

/-- Floats of the shipped tables. -/
theorem settles_float (D : Doubles P) {t : String × Desc} (ht : t ∈ Tables.all) {m : ℕ} {fi : FInfo}
    (hm : t.2.tab[m]? = some fi) (hty : fi.fd.ty = .flt) {n : ℕ} (hsz : fi.fd.size = .const n)
    {x : P.F} (hx : Settled D fi.fd (.flt x)) :
    ∃ w', SettlesTo P fi.fd n (.flt x) w' := by
  by_cases h : ∃ b, encodeVal P fi.fd n (.flt x) = .ok b
  · obtain ⟨b, hb⟩ := h
    obtain ⟨ho, hq⟩ := hx hty
    obtain ⟨y, _, hr, he⟩ := C62_stable D ht hm hty hsz ho hq hb
    refine ⟨.flt y, fun b' hb' => ?_⟩
    rw [hb] at hb'
    injection hb' with hb'
    subst hb'
    obtain ⟨v, h1, h2⟩ := parse_textReads P hr
    obtain ⟨v', rfl⟩ := parse_val h1
    refine ⟨v', h1, h2, he, ?_⟩
    unfold ValRep
    simp only [FieldDef.opaqueText, hty, if_true]
    intro b' hb'
    rw [he] at hb'
    injection hb' with hb'
    subst hb'
    exact hr
  · exact ⟨.none, fun b hb => absurd ⟨b, hb⟩ h⟩

/-- C63, up to the restriction on text below (`C63_dash_text`).  For every shipped table and every struct of values (no `NitfLiteral`) in the range above
that can be written: reading the bytes succeeds and consumes exactly them, and writing what was read
gives the same bytes.  Fields other than floats and optional text have the same elements and values;
every element of those that was there reads as a value that is written with the same characters. -/
theorem C63_second_write_partial (D : Doubles P) {t : String × Desc} (ht : t ∈ Tables.all) {S : Store P.F}
    (hval : ∀ n k c, S n k = some c → ∃ v, c.val = .val v)
    (hset : ∀ (m : ℕ) fi key w, t.2.tab[m]? = some fi → getItem P t.2.tab S m key = .ok w →
      Settled D fi.fd w) {b : Bytes}
    (hw : writeStruct P t.2 S = .ok b) (rest : Bytes) :
    ∃ R, readStruct P t.2 false (b ++ rest) = .ok (R, rest) ∧ writeStruct P t.2 R = .ok b ∧
      (∀ (m : ℕ) fi, t.2.tab[m]? = some fi → fi.fd.ty ≠ .flt → (fi.fd.ty = .str → fi.fd.optional = false) →
        fieldItems P t.2.tab R m = fieldItems P t.2.tab S m) ∧
      ∀ (m : ℕ) fi key w sz, t.2.tab[m]? = some fi → Reach P t.2.tab S m key →
        getItem P t.2.tab S m key = .ok w → evalSize P (look P t.2.tab S) fi key = .ok sz →
        ∃ w', getItem P t.2.tab R m key = .ok w' ∧ (w = .none → w' = .none) ∧
          encodeVal P fi.fd sz w' = encodeVal P fi.fd sz w := by
  have hok := tables_loose t ht
  have hS : Settling P t.2 (loosePos t.2.tab) S := by
    intro m hm fi key w sz hfi hg hw hsz
    have hl := (mem_loosePos hfi).mp hm
    obtain ⟨hv, hk, hn, hfr⟩ := (looseOk_row hok hfi).2.1 hl
    have hwf := Desc.allFields_get (tables_wf t ht) hfi
    have hse := hset m fi key w hfi hg
    have hfin := getItem_finish hfi hk hv hn hg hw
    have hshape := finish_shape P hfin
    rcases hshape with ⟨h, _⟩ | hco
    · exact absurd h hw
    · obtain ⟨v, hv'⟩ := hco
      have hcs := coerce_shape P hv'
      cases hty : fi.fd.ty with
      | flt =>
        rw [hty] at hcs
        cases w <;> simp only at hcs
        obtain ⟨n, hc1, hc2, _⟩ := C62_shipped ht hfi hty
        have : sz = n := by
          unfold evalSize at hsz
          rw [hc1, hc2] at hsz
          simp only at hsz
          injection hsz with hsz
          rw [← hsz]
          split <;> omega
        subst this
        exact settles_float D ht hfi hty hc1 hse
      | str =>
        rw [hty] at hcs
        cases w <;> simp only at hcs
        have ho : fi.fd.optional = true := by
          unfold FieldDef.loose at hl
          rw [hty] at hl
          simpa using hl
        rcases hfr with h | h
        · rw [hty] at h; cases h
        · exact settles_text hwf hty ho h ⟨v, hv'⟩ (hse hty ho)
      | int => unfold FieldDef.loose at hl; rw [hty] at hl; simp at hl
      | bytes => unfold FieldDef.loose at hl; rw [hty] at hl; simp at hl
  obtain ⟨R, h1, h2, h3, h4⟩ := settle_round (tables_causal t ht) (tables_wf t ht) (loose_of_ok hok)
    hS hval hw rest
  refine ⟨R, h1, h2, fun m fi hm hnf hns => h3 m ?_, fun m fi key w sz hm hr hg hsz => ?_⟩
  · rw [mem_loosePos hm]
    unfold FieldDef.loose
    cases hty : fi.fd.ty with
    | flt => exact absurd hty hnf
    | str => simp [hns hty]
    | int => simp
    | bytes => simp
  · have := h4 m fi key hm hr
    rw [hg] at this
    obtain ⟨w', a, _, c, e⟩ := this
    exact ⟨w', a, c, e sz hsz⟩

/-! ### Examples -/

/-- A struct with the given scalar fields. -/
def exSetAll (d : Desc) (l : List (Name × Val exactPy.F)) : Store exactPy.F :=
  l.foldl (fun S p =>
    match resolve d.tab p.1 with
    | some m => S.set m [] ⟨.val p.2, none⟩
    | none => S) Store.empty

/-- Write, read, write. -/
def writeTwice (d : Desc) (S : Store exactPy.F) : Except Err (Bytes × Bytes) :=
  match writeStruct exactPy d S with
  | .error e => .error e
  | .ok b =>
    match readStruct exactPy d false b with
    | .error e => .error e
    | .ok s =>
      match writeStruct exactPy d s.1 with
      | .error e => .error e
      | .ok b' => .ok (b, b')

/-- A SENSRB with calibration data of the given date. -/
def exSens (date : String) : Store exactPy.F := exSetAll Tables.t_tre_sensrb
  ([(n!"sensor_calibration_data", .str ['Y']), (n!"calibration_unit", .str ['m', 'm']),
    (n!"calibration_date", .str date.toList)] ++
   [n!"latitude_or_x", n!"longitude_or_y", n!"altitude_or_z", n!"sensor_x_offset",
    n!"sensor_y_offset", n!"sensor_z_offset"].map fun nm => (nm, .flt (exFlt false (1 / 3))))

/-- C63 fails without the restriction on text: a calibration date "--" is written as dashes and
blanks, read as `None`, and then written as dashes only. -/
theorem C63_dash_text : ∃ b b', writeTwice Tables.t_tre_sensrb (exSens "--") = .ok (b, b') ∧
    b ≠ b' := by
  have h : (match writeTwice Tables.t_tre_sensrb (exSens "--") with
    | .ok (b, b') => decide (b ≠ b')
    | .error _ => false) = true := by decide +kernel
  cases hc : writeTwice Tables.t_tre_sensrb (exSens "--") with
  | error e => rw [hc] at h; cases h
  | ok p =>
    obtain ⟨b, b'⟩ := p
    rw [hc] at h
    exact ⟨b, b', rfl, by simpa using h⟩

/-- A PIAIMC with a ground sample distance that is rounded and a blank sensor name. -/
def exPia : Store exactPy.F := exSetAll Tables.t_tre_piae
  [(n!"cloudcvr", .int 5), (n!"mean_gsd", .flt (exFlt false (10 / 3))), (n!"sensname", .str [' ']),
   (n!"source", .str "X".toList)]

example : (writeTwice Tables.t_tre_piae exPia).map (fun p => p.1 == p.2) = .ok true := by
  decide +kernel

/-- The hypotheses of the theorem hold for it. -/
example : ∃ R b, writeStruct exactPy Tables.t_tre_piae exPia = .ok b ∧
    readStruct exactPy Tables.t_tre_piae false b = .ok (R, []) ∧
    writeStruct exactPy Tables.t_tre_piae R = .ok b := by
  have hcell : ∀ n k c, exPia n k = some c → (n = 0 ∧ c = ⟨.val (.int 5), none⟩) ∨
      (n = 13 ∧ c = ⟨.val (.flt (exFlt false (10 / 3))), none⟩) ∨
      (n = 3 ∧ c = ⟨.val (.str [' ']), none⟩) ∨ (n = 4 ∧ c = ⟨.val (.str "X".toList), none⟩) := by
    intro n k c h
    have : exPia = ((((Store.empty.set 0 [] ⟨.val (.int 5), none⟩).set 13 []
        ⟨.val (.flt (exFlt false (10 / 3))), none⟩).set 3 [] ⟨.val (.str [' ']), none⟩).set 4 []
        ⟨.val (.str "X".toList), none⟩) := rfl
    rw [this] at h
    simp only [Store.set, Store.empty] at h
    split at h
    · rename_i h'; injection h with h; simp [h'.1, ← h]
    · split at h
      · rename_i h'; injection h with h; simp [h'.1, ← h]
      · split at h
        · rename_i h'; injection h with h; simp [h'.1, ← h]
        · split at h
          · rename_i h'; injection h with h; simp [h'.1, ← h]
          · cases h
  have hok : (writeStruct exactPy Tables.t_tre_piae exPia).toOption.isSome = true := by
    decide +kernel
  cases hw : writeStruct exactPy Tables.t_tre_piae exPia with
  | error e => rw [hw] at hok; cases hok
  | ok b =>
    have hval : ∀ n k c, exPia n k = some c → ∃ v, c.val = .val v := by
      intro n k c h
      rcases hcell n k c h with ⟨_, rfl⟩ | ⟨_, rfl⟩ | ⟨_, rfl⟩ | ⟨_, rfl⟩ <;> exact ⟨_, rfl⟩
    have hset : ∀ (m : ℕ) fi key w, Tables.t_tre_piae.tab[m]? = some fi →
        getItem exactPy Tables.t_tre_piae.tab exPia m key = .ok w → Settled exactDoubles fi.fd w := by
      intro m fi key w hm hg
      have hrow : Tables.t_tre_piae.allFields (fun fd => fd.value.isNone && fd.kind == .plain &&
          fd.name.isSome && (fd.ty != .str || fd.optChar == ' ') &&
          (fd.ty != .flt || fd.floatFmt == some (.printf ⟨false, false, true, 7, 1, none⟩) &&
            fd.default.isNone && fd.optional)) = true := by decide +kernel
      have hf := Desc.allFields_get hrow hm
      simp only [Bool.and_eq_true, Bool.or_eq_true, bne_iff_ne, ne_eq, beq_iff_eq,
        Option.isNone_iff_eq_none, Option.isSome_iff_ne_none] at hf
      cases w with
      | flt x =>
        intro hty
        have hfin := getItem_finish hm hf.1.1.1.2 hf.1.1.1.1 hf.1.1.2 hg (by simp)
        have hff := hf.2.resolve_left (by simp [hty])
        refine ⟨?_, fun f h h2 => by rw [hff.1.1] at h; cases h; cases h2⟩
        unfold stored at hfin
        cases hc : exPia m key with
        | none =>
          rw [hc] at hfin
          simp [defaultVal, hff.1.2, finish, hff.2] at hfin
        | some c =>
          rw [hc] at hfin
          have hty' : ∀ k, m = k → (Tables.t_tre_piae.tab[k]?).map (·.fd.ty) = some .flt := by
            rintro k rfl; rw [hm]; simp [hty]
          rcases hcell m key c hc with ⟨h, rfl⟩ | ⟨h, rfl⟩ | ⟨h, rfl⟩ | ⟨h, rfl⟩
          · exact absurd (hty' _ h) (by decide +kernel)
          · simp only [finish, coerce, hty] at hfin
            injection hfin with hfin
            injection hfin with hfin
            subst hfin
            right
            constructor <;> simp only [exactDoubles, exFlt] <;> norm_num
          · exact absurd (hty' _ h) (by decide +kernel)
          · exact absurd (hty' _ h) (by decide +kernel)
      | str s =>
        intro hty ho hc
        rcases hf.1.2 with h | h
        · exact absurd hty h
        · exact absurd h hc
      | _ => trivial
    obtain ⟨R, h1, h2, _⟩ := C63_second_write_partial exactDoubles
      (t := ("PIAIMC", Tables.t_tre_piae)) (by decide +kernel) hval hset hw []
    exact ⟨R, b, rfl, by simpa using h1, h2⟩

end Verif
