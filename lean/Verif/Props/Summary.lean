import Verif.Summary
import Verif.Props.Print
import Verif.Props.PrintFile
import Verif.Props.Tre
import Verif.ReadReady

/-
C93: summaries.  Whatever was read and whatever can be written has a summary, and the summary shows the
values of the attributes it names.
-/

namespace Verif
namespace Summary

variable {P : PyFloat}

/-! ### Specification -/

/-- The attribute of the record, as text. -/
def Told (d : Desc) (S : Store P.F) (nm : Name) (x : Str) : Prop :=
  ∃ v, getAttr P d S nm [] = .ok v ∧ x = pyStr P v

/-- The text is made of the texts of the format and those of the attributes, in order, and a line end. -/
inductive Shows (d : Desc) (S : Store P.F) : List (Conv × Name × String) → Str → Prop where
  | nil : Shows d S [] []
  | cons {c nm t r x y} : Told d S nm x → Shows d S r y → Shows d S ((c, nm, t) :: r) (x ++ t.toList ++ y)

/-- What one `print` of a summary shows. -/
def LineOf (d : Desc) (S : Store P.F) (f : Form) (x : Str) : Prop :=
  ∃ y, Shows d S f.args y ∧ x = f.head.toList ++ y ++ ['\n']

/-! ### The tables -/

/-- The attribute is a single field that is always there: not in a loop, without condition, not optional,
not computed; for `%d` it is an integer. -/
def plainB (d : Desc) (c : Conv) (nm : Name) : Bool :=
  match resolve d.tab nm with
  | none => false
  | some n =>
    match d.tab[n]? with
    | none => false
    | some fi => fi.shapes == [] && fi.fd.cond.isNone && fi.fd.value.isNone && !fi.fd.optional &&
        fi.fd.kind == .plain && fi.fd.name == some nm &&
        (fi.fd.ty == .int || (fi.fd.ty == .str && c == .s))

/-- All attributes of a format are such fields. -/
def formB (d : Desc) (f : Form) : Bool := f.args.all fun a => plainB d a.1 a.2.1

/-- Every single field that is always there has a value. -/
def Gets (d : Desc) (S : Store P.F) : Prop :=
  ∀ (n : Nat) fi, d.tab[n]? = some fi → fi.fd.name ≠ none → fi.shapes = [] → fi.fd.value = none →
    fi.fd.intConst = true → ∃ v, getItem P d.tab S n [] = .ok v

theorem gets_of_read {d : Desc} (hd : d.causal = true) (hu : d.allFields FieldDef.unpackOk = true)
    {b rest : Bytes} {R : Store P.F} (h : readStruct P d false b = .ok (R, rest)) : Gets d R := by
  intro n fi hn hnm hs hv hi
  have hks : fieldKeys d.tab R fi = .ok [[]] := by
    unfold fieldKeys
    rw [hs]
    rfl
  refine getItem_of_read hd h hn hnm (by simp [FieldDef.noValue, hv]) (Desc.allFields_get hu hn) ?_ hks
    (by simp)
  intro s hk k sz hz
  unfold FieldDef.intConst at hi
  rw [hk] at hi
  simp only [Bool.and_eq_true, beq_iff_eq, List.any_eq_true] at hi
  obtain ⟨h4, kk, hkk, h3⟩ := hi
  rw [Scalar.size_const P h3 h4] at hz
  cases hz
  simp only [List.mem_cons, List.not_mem_nil, or_false] at hkk
  rcases hkk with rfl | rfl | rfl | rfl | rfl <;> decide

theorem gets_of_written {d : Desc} (hd : d.causal = true) (hu : d.allFields FieldDef.unpackOk = true)
    {S : Store P.F} (hS : NoLit S) {b : Bytes} (h : writeStruct P d S = .ok b) : Gets d S := by
  intro n fi hn hnm hs _ hi
  obtain ⟨cs, hw, _⟩ := C55_bytes h
  obtain ⟨ks, h1, h2, h3⟩ := C55_written_elements hd hw hn
  have hks : ks = [[]] := by
    unfold fieldKeys at h1
    rw [hs] at h1
    injection h1 with h1
    exact h1.symm
  subst hks
  rcases (h3 [] (by simp)).2 with hc | hc
  · have hm : ([] : Key) ∈ (cs.filter fun c => c.pos == n).map Chunk.key := by
      rw [h2, List.mem_filter]
      exact ⟨by simp, by simp [present, hc]⟩
    rw [List.mem_map] at hm
    obtain ⟨c, hc1, hc2⟩ := hm
    rw [List.mem_filter, beq_iff_eq] at hc1
    obtain ⟨hc1, rfl⟩ := hc1
    obtain ⟨_, fi', g1, _, g3⟩ := writeChunks_from P hd hw hc1
    rw [hn] at g1
    cases g1
    rw [hc2] at g3
    refine getItem_of_bytes hS hn ?_ (Desc.allFields_get hu hn) g3
    intro s hk k sz hz
    unfold FieldDef.intConst at hi
    rw [hk] at hi
    simp only [Bool.and_eq_true, beq_iff_eq, List.any_eq_true] at hi
    obtain ⟨h4, kk, hkk, h3⟩ := hi
    rw [Scalar.size_const P h3 h4] at hz
    cases hz
    simp only [List.mem_cons, List.not_mem_nil, or_false] at hkk
    rcases hkk with rfl | rfl | rfl | rfl | rfl <;> decide
  · exact ⟨_, hc.2 hnm⟩

/-- An attribute that is always there has a value, which the conversion takes. -/
theorem plain_value {d : Desc} {S : Store P.F} (hg : Gets d S) {c : Conv} {nm : Name}
    (h : plainB d c nm = true) :
    ∃ v, getAttr P d S nm [] = .ok v ∧ conv P c v = .ok (pyStr P v) := by
  unfold plainB at h
  split at h
  · cases h
  · rename_i n hr
    split at h
    · cases h
    · rename_i fi hn
      simp only [Bool.and_eq_true, Bool.or_eq_true, beq_iff_eq, Option.isNone_iff_eq_none,
        Bool.not_eq_true'] at h
      obtain ⟨⟨⟨⟨⟨⟨h1, h2⟩, h3⟩, h4⟩, h5⟩, h6⟩, h7⟩ := h
      obtain ⟨v, hv⟩ := hg n fi hn (by simp [h6]) h1 h3 (by simp [FieldDef.intConst, h5])
      refine ⟨v, by simp only [getAttr, hr, hv], ?_⟩
      rw [getItem_eq P [] hn] at hv
      unfold getWith at hv
      cases hl : lowGet P (look P d.tab S) S fi n [] with
      | error e => rw [hl] at hv; cases hv
      | ok w =>
        rw [hl, h5] at hv
        injection hv with hv
        subst hv
        unfold lowGet at hl
        simp only [h6, bind, Except.bind, h3, evalCond, h2] at hl
        split at hl
        · cases hl
        · simp only [if_true] at hl
          have hco : ∃ x, coerce P fi.fd x = .ok w := by
            unfold finish at hl
            split at hl
            · rw [h4] at hl; exact ⟨_, hl⟩
            · exact ⟨_, hl⟩
            · simp only [h4, Bool.false_and, Bool.false_eq_true, if_false] at hl
              exact ⟨_, hl⟩
          obtain ⟨x, hx⟩ := hco
          unfold coerce at hx
          rcases h7 with h7 | ⟨h7, rfl⟩
          · rw [h7] at hx
            simp only at hx
            split at hx
            · cases hx
              cases c <;> rfl
            · cases hx
          · rfl

theorem values_ok {d : Desc} {S : Store P.F} (hg : Gets d S) : ∀ {as : List (Conv × Name × String)},
    (as.all fun a => plainB d a.1 a.2.1) = true → ∃ vs y, values P d S as = .ok vs ∧
      convs P (as.map fun a => (a.1, a.2.2)) vs = .ok y ∧ Shows d S as y := by
  intro as
  induction as with
  | nil => intro _; exact ⟨[], [], rfl, rfl, .nil⟩
  | cons a r ih =>
    intro h
    obtain ⟨c, nm, t⟩ := a
    simp only [List.all_cons, Bool.and_eq_true] at h
    obtain ⟨v, h1, h2⟩ := plain_value hg h.1
    obtain ⟨vs, y, h3, h4, h5⟩ := ih h.2
    refine ⟨v :: vs, _, by simp only [values, h1, h3], ?_, .cons ⟨v, h1, rfl⟩ h5⟩
    simp only [List.map_cons, convs, h2, h4]

theorem line_ok {d : Desc} {S : Store P.F} (hg : Gets d S) {f : Form} (h : formB d f = true) :
    ∃ x, line P d S f = .ok x ∧ LineOf d S f x := by
  obtain ⟨vs, y, h1, h2, h3⟩ := values_ok hg h
  exact ⟨_, by simp only [line, h1, h2]; rfl, y, h3, rfl⟩

/-! ### What the summaries say -/

/-- A format written out: the attribute in braces. -/
def template (f : Form) : String :=
  f.head ++ String.join (f.args.map fun a => "{" ++ String.ofList (nameText a.2.1) ++ "}" ++ a.2.2)

/-- C93, the summaries of the TREs that have their own. -/
theorem C93_templates : treForms.map (fun f => (f.1, template f.2)) =
    [("STDIDC", "TRE - STDIDC: {acquisition_date}, {mission}, {pass_}, {op_num}"),
     ("CSEPHA", "TRE - CSEPHA: {ephem_flag} {num_ephem} ephemeris vectors"),
     ("ENGRDA", "TRE - ENGRDA {resrc}: {recnt} Entries:"),
     ("HISTOA", "TRE - HISTOA: {nevents} events"),
     ("MATESA", "TRE - MATESA num_groups:{num_groups}"),
     ("PIXMTA", "TRE - PIXMTA {numais} Associated ISs, {nummetrics} Metrics"),
     ("PIXQLA", "TRE - PIXQLA {numais} Associated ISs, {npixqual} Quality Conditions"),
     ("SENSRB", "TRE - SENSRB Flags 1:{general_data} 2:{sensor_array_data} 3:{sensor_calibration_data} " ++
        "4:{image_formation_data} ... 7:{attitude_euler_angles} 8:{attitude_unit_vectors} " ++
        "9:{attitude_quaternion} 10:{sensor_velocity_data} 11:{point_set_data} " ++
        "12:{time_stamped_data_sets} 13:{pixel_referenced_data_sets} 14:{uncertainty_data} " ++
        "15:{additional_parameter_data} ")] := by
  decide +kernel

/-- The tags of the TREs with a summary of their own. -/
def own : List String :=
  ["STDIDC", "CSEPHA", "ENGRDA", "HISTOA", "MATESA", "PIXMTA", "PIXQLA", "SENSRB", "CSEXRB"]

/-- What the summary of a TRE is. -/
def TreLine : Tre P.F → Str → Prop
  | .unknown tag _, x => x = "TRE - ".toList ++ tag ++ ['\n']
  | .known tag d S, x =>
    (∃ f ∈ treForms, f.1.toList = tag ∧ LineOf d S f.2 x) ∨
    (tag = "CSEXRB".toList ∧ getAttr P d S (n!"number_dt") [] = .ok .none ∧
      x = "TRE - CSEXRB\n".toList) ∨
    (∃ z, tag = "CSEXRB".toList ∧ getAttr P d S (n!"number_dt") [] = .ok (.int z) ∧
      x = "TRE - CSEXRB: ".toList ++ intStr z ++ " FDTs\n".toList) ∨
    ((∀ s ∈ own, s.toList ≠ tag) ∧ x = "TRE - ".toList ++ tag ++ ['\n'])

/-- A TRE whose summary is of its own is of the class of pynitf. -/
def ClassOk : Tre P.F → Prop
  | .unknown _ _ => True
  | .known tag d _ => (∃ s ∈ own, s.toList = tag) → (tag, d) ∈ shippedRegistry

/-- The attributes of the TRE that are always there have values. -/
def TreGets : Tre P.F → Prop
  | .unknown _ _ => True
  | .known _ d S => Gets d S

theorem forms_ok : ∀ f ∈ treForms, ∀ d, (f.1.toList, d) ∈ shippedRegistry → formB d f.2 = true := by
  have : (treForms.all fun f => shippedRegistry.all fun e =>
      !(e.1 == f.1.toList) || formB e.2 f.2) = true := by decide +kernel
  intro f hf d hd
  have := List.all_eq_true.mp (List.all_eq_true.mp this f hf) _ hd
  simpa using this

theorem forms_own : ∀ f ∈ treForms, f.1 ∈ own := by decide

theorem own_forms : ∀ s ∈ own, s = "CSEXRB" ∨ ∃ f ∈ treForms, f.1 = s := by decide

theorem csexrb_desc : ∀ d, ("CSEXRB".toList, d) ∈ shippedRegistry → d = Tables.t_tre_csexrb := by
  have : (shippedRegistry.all fun e => !(e.1 == "CSEXRB".toList) ||
    decide (e.2 = Tables.t_tre_csexrb)) = true := by decide +kernel
  intro d hd
  have := List.all_eq_true.mp this _ hd
  simpa using this

/-- A binary integer is an integer or absent. -/
theorem intData_value {d : Desc} {S : Store P.F} {n : Nat} {fi : FInfo} (hn : d.tab[n]? = some fi)
    (hnm : fi.fd.name ≠ none) (hty : fi.fd.ty = .bytes) {s : Bool} (hk : fi.fd.kind = .intData s)
    {k : Key} {v : Val P.F} (h : getItem P d.tab S n k = .ok v) : v = .none ∨ ∃ z, v = .int z := by
  rw [getItem_eq P k hn] at h
  unfold getWith at h
  cases hl : lowGet P (look P d.tab S) S fi n k with
  | error e => rw [hl] at h; cases h
  | ok w =>
    have fin : ∀ st x, finish P fi.fd st = .ok x → x = .none ∨ ∃ y, x = .bytes y := by
      have co : ∀ w x, coerce P fi.fd w = .ok x → ∃ y, x = .bytes y := by
        intro w x hx
        unfold coerce at hx
        rw [hty] at hx
        simp only at hx
        cases w <;> simp only [reduceCtorEq] at hx
        · split at hx
          · cases hx
          · injection hx with hx; exact ⟨_, hx.symm⟩
        · injection hx with hx; exact ⟨_, hx.symm⟩
      intro st x hx
      unfold finish at hx
      split at hx
      · split at hx
        · injection hx with hx; exact .inl hx.symm
        · exact .inr (co _ _ hx)
      · exact .inr (co _ _ hx)
      · split at hx
        · injection hx with hx; exact .inl hx.symm
        · exact .inr (co _ _ hx)
    have hw : w = .none ∨ ∃ y, w = .bytes y := by
      unfold lowGet at hl
      split at hl
      · rename_i h0; exact absurd h0 hnm
      · cases hc : checkIndex P (look P d.tab S) fi k with
        | error e => rw [hc] at hl; cases hl
        | ok u =>
          rw [hc] at hl
          cases hcd : evalCond P (look P d.tab S) fi k with
          | error e => rw [hcd] at hl; cases hl
          | ok b =>
            rw [hcd] at hl
            cases b with
            | false => injection hl with hl; exact .inl hl.symm
            | true =>
              simp only [bind, Except.bind, if_true] at hl
              cases hv : fi.fd.value with
              | none => rw [hv] at hl; exact fin _ _ hl
              | some e =>
                rw [hv] at hl
                simp only at hl
                split at hl
                · cases hl
                · exact fin _ _ hl
    rw [hl, hk] at h
    rcases hw with rfl | ⟨y, rfl⟩
    · injection h with h; exact .inl h.symm
    · simp only [unpackKind] at h
      repeat' split at h
      all_goals first | (cases h; done) | (injection h with h; exact .inr ⟨_, h.symm⟩)

theorem csexrb_number {S : Store P.F} (hg : Gets Tables.t_tre_csexrb S) :
    getAttr P Tables.t_tre_csexrb S (n!"number_dt") [] = .ok .none ∨
      ∃ z, getAttr P Tables.t_tre_csexrb S (n!"number_dt") [] = .ok (.int z) := by
  have hB : (match resolve Tables.t_tre_csexrb.tab (n!"number_dt") with
    | none => false
    | some n => match Tables.t_tre_csexrb.tab[n]? with
      | none => false
      | some fi => fi.fd.name.isSome && fi.shapes == [] && fi.fd.value.isNone && fi.fd.intConst &&
        fi.fd.ty == .bytes && fi.fd.kind == .intData false) = true := by decide +kernel
  split at hB
  · cases hB
  · rename_i n hr
    split at hB
    · cases hB
    · rename_i fi hn
      simp only [Bool.and_eq_true, beq_iff_eq, Option.isNone_iff_eq_none, Option.isSome_iff_ne_none] at hB
      obtain ⟨⟨⟨⟨⟨h1, h2⟩, h3⟩, h4⟩, h5⟩, h6⟩ := hB
      obtain ⟨v, hv⟩ := hg n fi hn h1 h2 h3 h4
      rcases intData_value hn h1 h5 h6 hv with rfl | ⟨z, rfl⟩
      · exact .inl (by simp only [getAttr, hr, hv])
      · exact .inr ⟨z, by simp only [getAttr, hr, hv]⟩

/-- The summary of a TRE whose attributes have values. -/
theorem tre_ok {t : Tre P.F} (hc : ClassOk t) (hg : TreGets t) : ∃ x, tre P t = .ok x ∧ TreLine t x := by
  cases t with
  | unknown tag b => exact ⟨_, rfl, rfl⟩
  | known tag d S =>
    unfold tre
    cases hf : treForms.find? fun f => f.1.toList == tag with
    | some f =>
      have hm := List.mem_of_find?_eq_some hf
      have he : f.1.toList = tag := by simpa using List.find?_some hf
      have hd := hc ⟨f.1, forms_own f hm, he⟩
      obtain ⟨x, h1, h2⟩ := line_ok hg (forms_ok f hm d (by rw [he]; exact hd))
      exact ⟨x, by simp only [hf, h1], .inl ⟨f, hm, he, h2⟩⟩
    | none =>
      simp only [hf]
      split
      · rename_i ht
        subst ht
        have hd := csexrb_desc d (hc ⟨"CSEXRB", by decide, rfl⟩)
        subst hd
        rcases csexrb_number hg with h | ⟨z, h⟩
        · exact ⟨_, by simp only [h], .inr (.inl ⟨rfl, h, rfl⟩)⟩
        · refine ⟨_, ?_, .inr (.inr (.inl ⟨z, rfl, h, rfl⟩))⟩
          simp only [h, line, values, convs, conv, asIntD, Except.map, List.map_cons, List.map_nil]
          simp only [List.append_assoc, List.append_nil]
          rfl
      · rename_i ht
        refine ⟨_, rfl, .inr (.inr (.inr ⟨?_, rfl⟩))⟩
        intro s hs he
        rcases own_forms s hs with rfl | ⟨f, hm, rfl⟩
        · exact ht he.symm
        · have := List.find?_eq_none.mp hf f hm
          simp [he] at this

theorem shipped_facts : ∀ e ∈ shippedRegistry, e.2.causal = true ∧
    e.2.allFields FieldDef.unpackOk = true := by
  have : (shippedRegistry.all fun e => e.2.causal && e.2.allFields FieldDef.unpackOk) = true := by
    decide +kernel
  intro e he
  simpa using List.all_eq_true.mp this e he

/-- C93.  A TRE that can be written has a summary (its attributes hold no literals). -/
theorem C93_tre_written {t : Tre P.F} (hs : match t with
      | .known tag d S => (tag, d) ∈ shippedRegistry ∧ NoLit S
      | .unknown _ _ => True) {b : Bytes} (h : treWrite P t = .ok b) :
    ∃ x, tre P t = .ok x ∧ TreLine t x := by
  cases t with
  | unknown tag b => exact ⟨_, rfl, rfl⟩
  | known tag d S =>
    obtain ⟨h1, h2⟩ := hs
    refine tre_ok (fun _ => h1) ?_
    unfold treWrite Tre.body at h
    cases hw : writeStruct P d S with
    | error e => simp only [hw] at h; cases h
    | ok w =>
      exact gets_of_written (shipped_facts _ h1).1 (shipped_facts _ h1).2 h2 hw

/-- All classes used are those of pynitf, or have the summary of `Tre`. -/
def Registered (reg : Registry) : Prop :=
  ∀ tag d, (tag, d) ∈ reg → (tag, d) ∈ shippedRegistry ∨ ∀ s ∈ own, s.toList ≠ tag

theorem readKnown_facts {tag : Str} {d : Desc} {b rest : Bytes} {t : Tre P.F}
    (h : readKnown P tag d b = .ok (t, rest)) :
    ∃ b' R, readStruct P d false b' = .ok (R, rest) ∧ t = .known tag d R := by
  unfold readKnown at h
  split at h
  · cases h
  · split at h
    · cases h
    · split at h
      · cases h
      · simp only at h
        split at h
        · cases h
        · rename_i R rest' hr
          split at h
          · cases h
          · cases h
            exact ⟨_, _, hr, rfl⟩

/-- C93.  A TRE that was read has a summary. -/
theorem C93_tre_read {reg : Registry} (hreg : Registered reg) {b rest : Bytes} {t : Tre P.F}
    (h : readOne P reg b = .ok (t, rest)) : ∃ x, tre P t = .ok x ∧ TreLine t x := by
  have unk : ∀ {b rest : Bytes} {t : Tre P.F}, readUnknown P b = .ok (t, rest) →
      ∃ x, tre P t = .ok x ∧ TreLine t x := by
    intro b rest t h
    unfold readUnknown at h
    repeat' split at h
    all_goals first | (cases h; done) | (cases h; exact ⟨_, rfl, rfl⟩)
  unfold readOne at h
  simp only at h
  split at h
  · rename_i r hf
    cases h
    split at hf
    · rename_i tag d hl
      obtain ⟨b', R, h1, rfl⟩ := readKnown_facts hf
      have hm : (tag, d) ∈ reg := List.mem_of_find?_eq_some hl
      rcases hreg tag d hm with hm | hm
      · exact tre_ok (fun _ => hm) (gets_of_read (shipped_facts _ hm).1 (shipped_facts _ hm).2 h1)
      · refine ⟨plainTre tag, ?_, .inr (.inr (.inr ⟨hm, rfl⟩))⟩
        unfold tre
        have hn : (treForms.find? fun f => f.1.toList == tag) = none := by
          rw [List.find?_eq_none]
          intro f hf
          simpa using hm f.1 (forms_own f hf)
        have hx : tag ≠ "CSEXRB".toList := fun h => hm "CSEXRB" (by decide) h.symm
        simp only [hn, if_neg hx]
    · exact unk hf
  · split at h
    · cases h
    · exact unk h

/-- C93.  The summary of a TRE begins with its tag and ends with the end of the line. -/
theorem C93_tre_begins {t : Tre P.F} {x : Str} (h : TreLine t x) :
    ∃ y, x = "TRE - ".toList ++ t.tag ++ y ++ ['\n'] := by
  have hh : ∀ f ∈ treForms, ∃ z, f.2.head.toList = "TRE - ".toList ++ f.1.toList ++ z := by
    have : ∀ f ∈ treForms, f.2.head.toList = "TRE - ".toList ++ f.1.toList ++ f.2.head.toList.drop 12 := by
      decide +kernel
    exact fun f hf => ⟨_, this f hf⟩
  cases t with
  | unknown tag b => exact ⟨[], by rw [show x = _ from h]; simp [Tre.tag]⟩
  | known tag d S =>
    rcases h with ⟨f, hf, rfl, y, _, rfl⟩ | ⟨rfl, _, rfl⟩ | ⟨z, rfl, _, rfl⟩ | ⟨_, rfl⟩
    · obtain ⟨z, hz⟩ := hh f hf
      exact ⟨z ++ y, by rw [hz]; simp [Tre.tag]⟩
    · exact ⟨[], by simp [Tre.tag]⟩
    · exact ⟨": ".toList ++ intStr z ++ " FDTs".toList, by simp [Tre.tag]⟩
    · exact ⟨[], by simp [Tre.tag]⟩

/-! ### Headers -/

/-- What the summary of a file header is: `{fhdr} {fver} {ftitle} MD5: `, then
`{numi} Image Segments, {nums} Graphic Segments, {numt} Text Segments, {numdes} DESs`. -/
def HeaderLines (H : Store P.F) (x : Str) : Prop :=
  ∃ a b c i g t e, Told Tables.t_file_header H (n!"fhdr") a ∧ Told Tables.t_file_header H (n!"fver") b ∧
    Told Tables.t_file_header H (n!"ftitle") c ∧ Told Tables.t_file_header H (n!"numi") i ∧
    Told Tables.t_file_header H (n!"nums") g ∧ Told Tables.t_file_header H (n!"numt") t ∧
    Told Tables.t_file_header H (n!"numdes") e ∧
    x = a ++ " ".toList ++ b ++ " ".toList ++ c ++ " MD5: \n".toList ++ i ++ " Image Segments, ".toList ++
      g ++ " Graphic Segments, ".toList ++ t ++ " Text Segments, ".toList ++ e ++ " DESs\n".toList

/-- What the summary of a subheader is.  Images: `{im} {iid1} {iid2}`, then
`{nrows} X {ncols}, {bands} Band(s), {abpp}/{nbpp} bpp`, where the number of bands is `nbands`, or `xbands`
if `nbands` is 0. -/
def SubLines : SegKind → Store P.F → Str → Prop
  | .image, S, x => ∃ a b c r l n p q, Told Tables.t_image_subheader S (n!"im") a ∧
      Told Tables.t_image_subheader S (n!"iid1") b ∧ Told Tables.t_image_subheader S (n!"iid2") c ∧
      Told Tables.t_image_subheader S (n!"nrows") r ∧ Told Tables.t_image_subheader S (n!"ncols") l ∧
      (∃ z, getAttr P Tables.t_image_subheader S (n!"nbands") [] = .ok (.int z) ∧
        (z ≠ 0 → n = intStr z) ∧
        (z = 0 → ∃ y, getAttr P Tables.t_image_subheader S (n!"xbands") [] = .ok (.int y) ∧ n = intStr y)) ∧
      Told Tables.t_image_subheader S (n!"abpp") p ∧ Told Tables.t_image_subheader S (n!"nbpp") q ∧
      x = a ++ " ".toList ++ b ++ " ".toList ++ c ++ "\n".toList ++ r ++ " X ".toList ++ l ++ ", ".toList ++
        n ++ " Band(s), ".toList ++ p ++ "/".toList ++ q ++ " bpp\n".toList
  | .graphic, S, x => ∃ a b c, Told Tables.t_graphic_subheader S (n!"sy") a ∧
      Told Tables.t_graphic_subheader S (n!"sid") b ∧ Told Tables.t_graphic_subheader S (n!"sname") c ∧
      x = a ++ " ".toList ++ b ++ " ".toList ++ c ++ "\n".toList
  | .text, S, x => ∃ a b c, Told Tables.t_text_subheader S (n!"te") a ∧
      Told Tables.t_text_subheader S (n!"textid") b ∧ Told Tables.t_text_subheader S (n!"txtitl") c ∧
      x = a ++ " ".toList ++ b ++ " ".toList ++ c ++ "\n".toList
  | .des, S, x => ∃ a, Told Tables.t_des_subheader S (n!"desid") a ∧ x = a ++ " \n".toList
  | .res, S, x => ∃ a b c, Told Tables.t_res_subheader S (n!"re") a ∧
      Told Tables.t_res_subheader S (n!"resid") b ∧ Told Tables.t_res_subheader S (n!"resver") c ∧
      x = a ++ " ".toList ++ b ++ " ".toList ++ c ++ " \n".toList

theorem header_ok {H : Store P.F} (hg : Gets Tables.t_file_header H) :
    ∃ x, header P H = .ok x ∧ HeaderLines H x := by
  obtain ⟨x, h1, y, hs, rfl⟩ := line_ok hg (f := ⟨"", [(.s, n!"fhdr", " "), (.s, n!"fver", " "),
      (.s, n!"ftitle", " MD5: ")]⟩) (by decide +kernel)
  obtain ⟨x', h1', y', hs', rfl⟩ := line_ok hg (f := ⟨"", [(.d, n!"numi", " Image Segments, "),
      (.d, n!"nums", " Graphic Segments, "), (.d, n!"numt", " Text Segments, "),
      (.d, n!"numdes", " DESs")]⟩) (by decide +kernel)
  refine ⟨_, by simp only [header, h1, h1']; rfl, ?_⟩
  cases hs with
  | cons ha hs =>
  cases hs with
  | cons hb hs =>
  cases hs with
  | cons hc hs =>
  cases hs
  cases hs' with
  | cons hi hs =>
  cases hs with
  | cons hg hs =>
  cases hs with
  | cons ht hs =>
  cases hs with
  | cons he hs =>
  cases hs
  exact ⟨_, _, _, _, _, _, _, ha, hb, hc, hi, hg, ht, he, by simp⟩

/-- An integer field that is there is an integer. -/
theorem int_value {d : Desc} {S : Store P.F} {n : Nat} {fi : FInfo} (hn : d.tab[n]? = some fi)
    (hnm : fi.fd.name ≠ none) (hty : fi.fd.ty = .int) (hk : fi.fd.kind = .plain) (ho : fi.fd.optional = false)
    (hv : fi.fd.value = none) {k : Key} (hc : evalCond P (look P d.tab S) fi k = .ok true) {v : Val P.F}
    (h : getItem P d.tab S n k = .ok v) : ∃ z, v = .int z := by
  rw [getItem_eq P k hn] at h
  unfold getWith at h
  cases hl : lowGet P (look P d.tab S) S fi n k with
  | error e => rw [hl] at h; cases h
  | ok w =>
    rw [hl, hk] at h
    injection h with h
    subst h
    obtain ⟨nm, hnm'⟩ := Option.ne_none_iff_exists'.mp hnm
    unfold lowGet at hl
    simp only [hnm', bind, Except.bind, hv, hc] at hl
    split at hl
    · cases hl
    · simp only [if_true] at hl
      have hco : ∃ x, coerce P fi.fd x = .ok w := by
        unfold finish at hl
        split at hl
        · rw [ho] at hl; exact ⟨_, hl⟩
        · exact ⟨_, hl⟩
        · simp only [ho, Bool.false_and, Bool.false_eq_true, if_false] at hl
          exact ⟨_, hl⟩
      obtain ⟨x, hx⟩ := hco
      unfold coerce at hx
      rw [hty] at hx
      simp only at hx
      split at hx
      · cases hx
        exact ⟨_, rfl⟩
      · cases hx

theorem plain_int {d : Desc} {S : Store P.F} (hg : Gets d S) {nm : Name} (h : plainB d .d nm = true) :
    ∃ z, getAttr P d S nm [] = .ok (.int z) := by
  obtain ⟨v, h1, _⟩ := plain_value hg h
  unfold plainB at h
  split at h
  · cases h
  · rename_i n hr
    split at h
    · cases h
    · rename_i fi hn
      simp only [Bool.and_eq_true, Bool.or_eq_true, beq_iff_eq, Option.isNone_iff_eq_none,
        Bool.not_eq_true', reduceCtorEq, and_false, or_false] at h
      obtain ⟨⟨⟨⟨⟨⟨g1, g2⟩, g3⟩, g4⟩, g5⟩, g6⟩, g7⟩ := h
      have h1' := h1
      unfold getAttr at h1
      rw [hr] at h1
      obtain ⟨z, rfl⟩ := int_value hn (by simp [g6]) g7 g5 g4 g3 (by simp [evalCond, g2]) h1
      exact ⟨z, h1'⟩

/-- The number of bands when it is in the second field. -/
theorem xbands_ok {S : Store P.F} (hg : Gets Tables.t_image_subheader S)
    (h0 : getAttr P Tables.t_image_subheader S (n!"nbands") [] = .ok (.int 0)) :
    ∃ y, getAttr P Tables.t_image_subheader S (n!"xbands") [] = .ok (.int y) := by
  have hd : Tables.t_image_subheader.causal = true := by decide +kernel
  have hB : (match resolve Tables.t_image_subheader.tab (n!"xbands") with
    | none => false
    | some n => match Tables.t_image_subheader.tab[n]? with
      | none => false
      | some fi => fi.fd.name.isSome && fi.shapes == [] && fi.fd.value.isNone && fi.fd.intConst &&
        fi.fd.ty == .int && fi.fd.kind == .plain && !fi.fd.optional &&
        fi.fd.cond == some (.eq (.ref (n!"nbands") []) (.const (.int 0)))) = true := by decide +kernel
  have hA : (match resolve Tables.t_image_subheader.tab (n!"nbands") with
    | none => false
    | some n => match Tables.t_image_subheader.tab[n]? with
      | none => false
      | some fi => fi.depth == 0) = true := by decide +kernel
  split at hA
  · cases hA
  rename_i m hm
  split at hA
  · cases hA
  rename_i fm hfm
  rw [beq_iff_eq] at hA
  split at hB
  · cases hB
  rename_i n hr
  split at hB
  · cases hB
  rename_i fi hn
  simp only [Bool.and_eq_true, beq_iff_eq, Option.isNone_iff_eq_none, Option.isSome_iff_ne_none,
    Bool.not_eq_true'] at hB
  obtain ⟨⟨⟨⟨⟨⟨⟨h1, h2⟩, h3⟩, h4⟩, h5⟩, h6⟩, h7⟩, h8⟩ := hB
  obtain ⟨v, hv⟩ := hg n fi hn h1 h2 h3 h4
  have hlook : look P Tables.t_image_subheader.tab S (n!"nbands") [] = .ok (.int 0) := by
    unfold look lookVia
    simp only [hm, hfm, hA]
    simp only [not_true_eq_false, ne_eq, if_false]
    rw [getF_budget P (Desc.causalTab hd) S hfm]
    unfold getAttr at h0
    rw [hm] at h0
    exact h0
  have hc : evalCond P (look P Tables.t_image_subheader.tab S) fi [] = .ok true := by
    unfold evalCond
    rw [h8]
    simp only [evalE, idxKey, bind, Except.bind, hlook, CVal.toVal, pyEq]
    rfl
  obtain ⟨z, rfl⟩ := int_value hn h1 h5 h6 h7 h3 hc hv
  exact ⟨z, by simp only [getAttr, hr, hv]⟩

theorem image_ok {S : Store P.F} (hg : Gets Tables.t_image_subheader S) :
    ∃ x, image P S = .ok x ∧ SubLines .image S x := by
  obtain ⟨x, h1, y, hs, rfl⟩ := line_ok hg (f := ⟨"", [(.s, n!"im", " "), (.s, n!"iid1", " "),
      (.s, n!"iid2", "")]⟩) (by decide +kernel)
  obtain ⟨z, hz⟩ := plain_int hg (nm := n!"nbands") (by decide +kernel)
  have second : ∀ (nm : Name) (w : Int), getAttr P Tables.t_image_subheader S nm [] = .ok (.int w) →
      ∃ r l p q, line P Tables.t_image_subheader S ⟨"", [(.d, n!"nrows", " X "), (.d, n!"ncols", ", "),
          (.d, nm, " Band(s), "), (.d, n!"abpp", "/"), (.d, n!"nbpp", " bpp")]⟩ =
        .ok (r ++ " X ".toList ++ l ++ ", ".toList ++ intStr w ++ " Band(s), ".toList ++ p ++ "/".toList ++ q ++
          " bpp\n".toList) ∧
        Told Tables.t_image_subheader S (n!"nrows") r ∧ Told Tables.t_image_subheader S (n!"ncols") l ∧
        Told Tables.t_image_subheader S (n!"abpp") p ∧ Told Tables.t_image_subheader S (n!"nbpp") q := by
    intro nm w hw
    obtain ⟨a1, b1⟩ := plain_int hg (nm := n!"nrows") (by decide +kernel)
    obtain ⟨a2, b2⟩ := plain_int hg (nm := n!"ncols") (by decide +kernel)
    obtain ⟨a3, b3⟩ := plain_int hg (nm := n!"abpp") (by decide +kernel)
    obtain ⟨a4, b4⟩ := plain_int hg (nm := n!"nbpp") (by decide +kernel)
    refine ⟨intStr a1, intStr a2, intStr a3, intStr a4, ?_, ⟨_, b1, rfl⟩, ⟨_, b2, rfl⟩, ⟨_, b3, rfl⟩,
      ⟨_, b4, rfl⟩⟩
    simp only [line, values, b1, b2, b3, b4, hw, List.map_cons, List.map_nil, convs, conv, asIntD, Except.map]
    simp
  cases hs with
  | cons ha hs =>
  cases hs with
  | cons hb hs =>
  cases hs with
  | cons hc hs =>
  cases hs
  unfold image
  simp only [h1, hz]
  by_cases h0 : z = 0
  · subst h0
    obtain ⟨w, hw⟩ := xbands_ok hg hz
    obtain ⟨r, l, p, q, hl, k1, k2, k3, k4⟩ := second _ w hw
    simp only [pyEq, BEq.rfl, if_true, hw, hl]
    exact ⟨_, rfl, _, _, _, _, _, _, _, _, ha, hb, hc, k1, k2, ⟨0, hz, fun h => absurd rfl h,
      fun _ => ⟨w, hw, rfl⟩⟩, k3, k4, by simp⟩
  · obtain ⟨r, l, p, q, hl, k1, k2, k3, k4⟩ := second _ z hz
    have hne : (z == 0) = false := by simpa using h0
    simp only [pyEq, hne, Bool.false_eq_true, if_false, hz, hl]
    exact ⟨_, rfl, _, _, _, _, _, _, _, _, ha, hb, hc, k1, k2, ⟨z, hz, fun _ => rfl,
      fun h => absurd h h0⟩, k3, k4, by simp⟩

theorem sub_ok {k : SegKind} {S : Store P.F} (hg : Gets k.desc S) :
    ∃ x, sub P k S = .ok x ∧ SubLines k S x := by
  cases k with
  | image => exact image_ok hg
  | graphic =>
    obtain ⟨x, h1, y, hs, rfl⟩ := line_ok hg (f := ⟨"", [(.s, n!"sy", " "), (.s, n!"sid", " "),
      (.s, n!"sname", "")]⟩) (by decide +kernel)
    refine ⟨_, by simp only [sub, h1]; rfl, ?_⟩
    cases hs with
    | cons ha hs =>
    cases hs with
    | cons hb hs =>
    cases hs with
    | cons hc hs =>
    cases hs
    exact ⟨_, _, _, ha, hb, hc, by simp⟩
  | text =>
    obtain ⟨x, h1, y, hs, rfl⟩ := line_ok hg (f := ⟨"", [(.s, n!"te", " "), (.s, n!"textid", " "),
      (.s, n!"txtitl", "")]⟩) (by decide +kernel)
    refine ⟨_, by simp only [sub, h1]; rfl, ?_⟩
    cases hs with
    | cons ha hs =>
    cases hs with
    | cons hb hs =>
    cases hs with
    | cons hc hs =>
    cases hs
    exact ⟨_, _, _, ha, hb, hc, by simp⟩
  | des =>
    obtain ⟨x, h1, y, hs, rfl⟩ := line_ok hg (f := ⟨"", [(.s, n!"desid", " ")]⟩) (by decide +kernel)
    refine ⟨_, by simp only [sub, h1]; rfl, ?_⟩
    cases hs with
    | cons ha hs =>
    cases hs
    exact ⟨_, ha, by simp⟩
  | res =>
    obtain ⟨x, h1, y, hs, rfl⟩ := line_ok hg (f := ⟨"", [(.s, n!"re", " "), (.s, n!"resid", " "),
      (.s, n!"resver", " ")]⟩) (by decide +kernel)
    refine ⟨_, by simp only [sub, h1]; rfl, ?_⟩
    cases hs with
    | cons ha hs =>
    cases hs with
    | cons hb hs =>
    cases hs with
    | cons hc hs =>
    cases hs
    exact ⟨_, _, _, ha, hb, hc, by simp⟩

theorem header_facts : Tables.t_file_header.causal = true ∧
    Tables.t_file_header.allFields FieldDef.unpackOk = true := by decide +kernel

theorem sub_facts (k : SegKind) : k.desc.causal = true ∧
    k.desc.allFields FieldDef.unpackOk = true := by cases k <;> decide +kernel

/-- C93.  A header or subheader that was read has a summary. -/
theorem C93_header_read {b rest : Bytes} {H : Store P.F}
    (h : readStruct P Tables.t_file_header false b = .ok (H, rest)) :
    ∃ x, header P H = .ok x ∧ HeaderLines H x :=
  header_ok (gets_of_read header_facts.1 header_facts.2 h)

theorem C93_sub_read {k : SegKind} {b rest : Bytes} {S : Store P.F}
    (h : readStruct P k.desc false b = .ok (S, rest)) : ∃ x, sub P k S = .ok x ∧ SubLines k S x :=
  sub_ok (gets_of_read (sub_facts k).1 (sub_facts k).2 h)

/-- C93.  A header or subheader that can be written has a summary. -/
theorem C93_header_written {b : Bytes} {H : Store P.F} (hn : NoLit H)
    (h : writeStruct P Tables.t_file_header H = .ok b) : ∃ x, header P H = .ok x ∧ HeaderLines H x :=
  header_ok (gets_of_written header_facts.1 header_facts.2 hn h)

theorem C93_sub_written {k : SegKind} {b : Bytes} {S : Store P.F} (hn : NoLit S)
    (h : writeStruct P k.desc S = .ok b) : ∃ x, sub P k S = .ok x ∧ SubLines k S x :=
  sub_ok (gets_of_written (sub_facts k).1 (sub_facts k).2 hn h)

/-- C93.  The summaries of DES data: as the classes spell them. -/
theorem C93_des_templates : desForms.map (fun f => template f.2) =
    ["CSATTA {att_type}:  {num_att} points", "CSATTB {att_type}:  {num_att} points",
     "CSEPHB {ephem_flag}:  {num_ephem} points", "CSCSDB", "CSSFAB"] := by decide +kernel

theorem desForms_facts : ∀ f ∈ desForms, f.1.causal = true ∧ f.1.allFields FieldDef.unpackOk = true ∧
    formB f.1 f.2 = true := by
  have : (desForms.all fun f => f.1.causal && f.1.allFields FieldDef.unpackOk && formB f.1 f.2) = true := by
    decide +kernel
  intro f hf
  have := List.all_eq_true.mp this f hf
  simpa [Bool.and_eq_true, and_assoc] using this

/-- C93.  DES data that were read have a summary, and so do those that can be written. -/
theorem C93_des {f : Desc × Form} (hf : f ∈ desForms) :
    (∀ {b rest : Bytes} {S : Store P.F}, readStruct P f.1 false b = .ok (S, rest) →
      ∃ x, line P f.1 S f.2 = .ok x ∧ LineOf f.1 S f.2 x) ∧
    ∀ {b : Bytes} {S : Store P.F}, NoLit S → writeStruct P f.1 S = .ok b →
      ∃ x, line P f.1 S f.2 = .ok x ∧ LineOf f.1 S f.2 x := by
  obtain ⟨h1, h2, h3⟩ := desForms_facts f hf
  exact ⟨fun h => line_ok (gets_of_read h1 h2 h) h3, fun hn h => line_ok (gets_of_written h1 h2 hn h) h3⟩

/-! ### Files -/

/-- What the summary of a segment is: that of its subheader, then those of its TREs. -/
def SegLines {D : Type} (k : SegKind) (s : Seg P.F D) (x : Str) : Prop :=
  ∃ sub tres, SubLines k s.sub sub ∧ Each TreLine s.tres tres ∧
    x = sub ++ (if tres = [] then "No Segment level TRES\n".toList
      else "Segment level TRES:\n".toList ++ tres.flatten)

/-- Everything in the file has a value for what its summary shows. -/
structure FileGets {D : Type} (f : NFile P.F D) : Prop where
  header : Gets Tables.t_file_header f.header
  tres : ∀ t ∈ f.tres, ∃ x, tre P t = .ok x ∧ TreLine t x
  sub : ∀ k, ∀ s ∈ f.segs k, Gets k.desc s.sub
  segTres : ∀ k, ∀ s ∈ f.segs k, ∀ t ∈ s.tres, ∃ x, tre P t = .ok x ∧ TreLine t x

theorem tres_texts : ∀ {ts : List (Tre P.F)}, (∀ t ∈ ts, ∃ x, tre P t = .ok x ∧ TreLine t x) →
    ∃ xs, (ts.map fun t => obj (tre P t)).map (·.summary) = xs.map .ok ∧ Each TreLine ts xs := by
  intro ts
  induction ts with
  | nil => exact fun _ => ⟨[], rfl, .nil⟩
  | cons t ts ih =>
    intro h
    obtain ⟨x, h1, h2⟩ := h t (by simp)
    obtain ⟨xs, h3, h4⟩ := ih fun u hu => h u (by simp [hu])
    refine ⟨x :: xs, ?_, .cons h2 h4⟩
    rw [List.map_cons, List.map_cons, List.map_cons, h3, h1]
    rfl

theorem seg_ok {D : Type} {k : SegKind} {s : Seg P.F D} (hs : Gets k.desc s.sub)
    (ht : ∀ t ∈ s.tres, ∃ x, tre P t = .ok x ∧ TreLine t x) :
    ∃ x, PrintFile.segSummary (seg k s) = .ok x ∧ SegLines k s x := by
  obtain ⟨x, h1, h2⟩ := sub_ok hs
  obtain ⟨xs, h3, h4⟩ := tres_texts ht
  exact ⟨_, (PrintFile.C78_segment_summary (seg k s) _).mpr ⟨x, xs, by simp [seg, obj, h1], h3, rfl⟩,
    x, xs, h2, h4, rfl⟩

theorem segs_ok {D : Type} {k : SegKind} : ∀ {ss : List (Seg P.F D)}, (∀ s ∈ ss, Gets k.desc s.sub) →
    (∀ s ∈ ss, ∀ t ∈ s.tres, ∃ x, tre P t = .ok x ∧ TreLine t x) →
    ∃ xs, (ss.map (seg k)).map PrintFile.segSummary = xs.map .ok ∧ Each (SegLines k) ss xs := by
  intro ss
  induction ss with
  | nil => exact fun _ _ => ⟨[], rfl, .nil⟩
  | cons s ss ih =>
    intro h h'
    obtain ⟨x, h1, h2⟩ := seg_ok (h s (by simp)) (h' s (by simp))
    obtain ⟨xs, h3, h4⟩ := ih (fun u hu => h u (by simp [hu])) fun u hu => h' u (by simp [hu])
    refine ⟨x :: xs, ?_, .cons h2 h4⟩
    rw [List.map_cons, List.map_cons, List.map_cons, h3, h1]

/-- What the summary of a file is. -/
def FileLines {D : Type} (f : NFile P.F D) (x : Str) : Prop :=
  ∃ hdr tres, ∃ segs : SegKind → List Str, HeaderLines f.header hdr ∧ Each TreLine f.tres tres ∧
    (∀ k, Each (SegLines k) (f.segs k) (segs k)) ∧ x = PrintFile.summaryText hdr tres segs

/-- C93.  A file whose parts have what their summaries show has a summary. -/
theorem C93_file {D : Type} {f : NFile P.F D} (h : FileGets f) :
    ∃ x, file f = .ok x ∧ FileLines f x := by
  obtain ⟨hdr, h1, h2⟩ := header_ok h.header
  obtain ⟨tres, h3, h4⟩ := tres_texts h.tres
  have h5 : ∀ k, ∃ xs, ((f.segs k).map (seg k)).map PrintFile.segSummary = xs.map .ok ∧
      Each (SegLines k) (f.segs k) xs := fun k => segs_ok (h.sub k) (h.segTres k)
  refine ⟨_, (PrintFile.C78_summary (view f) _).mpr ⟨hdr, tres, fun k => (h5 k).choose,
    by simp [view, obj, h1], h3, ?_, rfl⟩, hdr, tres, _, h2, h4, fun k => (h5 k).choose_spec.2, rfl⟩
  intro k
  rw [← (h5 k).choose_spec.1]
  cases k <;> rfl

theorem obj_ok {x : Except Err Str} {y : PrintFile.Text} (h : (obj x).summary = .ok y) : x = .ok y := by
  cases x with
  | error e => cases h
  | ok t => injection h with h; rw [h]

theorem map_all {α β : Type} {f : α → PrintFile.Res β} {l : List α} {ys : List β}
    (h : l.map f = ys.map .ok) : ∀ a ∈ l, ∃ y, f a = .ok y := by
  intro a ha
  have : f a ∈ ys.map .ok := h ▸ List.mem_map_of_mem ha
  obtain ⟨y, _, hy⟩ := List.mem_map.mp this
  exact ⟨y, hy.symm⟩

theorem tres_all {ts : List (Tre P.F)} {ys : List PrintFile.Text}
    (h : (ts.map fun t => obj (tre P t)).map (·.summary) = ys.map .ok) :
    ∀ t ∈ ts, ∃ y, tre P t = .ok y := by
  intro t ht
  obtain ⟨y, hy⟩ := map_all h _ (List.mem_map_of_mem ht)
  exact ⟨y, obj_ok hy⟩

/-- C93.  The summary of a file hides no failure: if there is one, then the header, every subheader
and every TRE has a summary. -/
theorem C93_all {D : Type} {f : NFile P.F D} {x : PrintFile.Text} (h : file f = .ok x) :
    (∃ y, header P f.header = .ok y) ∧ (∀ t ∈ f.tres, ∃ y, tre P t = .ok y) ∧
    ∀ k, ∀ s ∈ f.segs k, (∃ y, sub P k s.sub = .ok y) ∧ ∀ t ∈ s.tres, ∃ y, tre P t = .ok y := by
  obtain ⟨hdr, tres, segs, h1, h2, h3, _⟩ := (PrintFile.C78_summary (view f) x).mp h
  refine ⟨⟨hdr, obj_ok h1⟩, tres_all h2, fun k s hs => ?_⟩
  have hm : seg k s ∈ (view f).segs k := by
    cases k <;> exact List.mem_map_of_mem hs
  obtain ⟨y, hy⟩ := map_all (h3 k) _ hm
  obtain ⟨a, b, h4, h5, _⟩ := (PrintFile.C78_segment_summary (seg k s) y).mp hy
  exact ⟨⟨a, obj_ok h4⟩, tres_all h5⟩

/-! ### Files that were read -/

section each

variable {Q : Tre P.F → Prop} {reg : Registry}
  (hQ : ∀ {b rest : Bytes} {t : Tre P.F}, readOne P reg b = .ok (t, rest) → Q t)
include hQ

theorem readAreaF_each : ∀ (f : Nat) {b : Bytes} {ts : List (Tre P.F)},
    readAreaF P reg f b = .ok ts → ∀ t ∈ ts, Q t := by
  intro f
  induction f with
  | zero =>
    intro b ts h
    cases b with
    | nil => simp only [readAreaF] at h; cases h; simp
    | cons x b => simp only [readAreaF] at h; cases h
  | succ f ih =>
    intro b ts h
    cases b with
    | nil => simp only [readAreaF] at h; cases h; simp
    | cons x b =>
      simp only [readAreaF] at h
      split at h
      · cases h
      split at h
      · cases h
      rename_i t rest ht
      split at h
      · cases h
      rename_i ts' hts
      injection h with h
      subst h
      intro u hu
      rcases List.mem_cons.mp hu with rfl | hu
      · exact hQ ht
      · exact ih hts u hu

theorem readTre_each {d : Desc} {des : List (Except Err Bytes)} {S : Store P.F} :
    ∀ (as : List Area) {ts : List (Tre P.F)}, readTre P reg d des as S = .ok ts → ∀ t ∈ ts, Q t := by
  intro as
  induction as with
  | nil => intro ts h; simp only [readTre] at h; cases h; simp
  | cons a as ih =>
    intro ts h
    simp only [readTre] at h
    split at h
    · cases h
    · exact ih h
    · split at h
      · cases h
      · rename_i t1 h1
        split at h
        · cases h
        · split at h
          · cases h
          rename_i t2 h2
          split at h
          · cases h
          rename_i t3 h3
          injection h with h
          subst h
          intro t ht
          rw [List.mem_append, List.mem_append] at ht
          rcases ht with (ht | ht) | ht
          · split at h1
            · cases h1
            split at h1
            · cases h1
            split at h1
            · split at h1
              · cases h1
              · cases h1
              · exact readAreaF_each hQ _ h1 t ht
            · injection h1 with h1
              subst h1
              cases ht
          · exact readAreaF_each hQ _ h2 t ht
          · exact ih h3 t ht
        · cases h

end each

theorem readSegs_length {E : Env} {IO : DataIO P.F} {k : SegKind} : ∀ {zs : List Int} {b : Bytes}
    {ss : List (Seg P.F IO.D)} {r : Bytes}, readSegs P E IO k zs b = .ok (ss, r) →
    ss.length = zs.length ∧ ∀ s ∈ ss, s.tres = [] := by
  intro zs
  induction zs with
  | nil =>
    intro b ss r h
    unfold readSegs at h
    cases h
    exact ⟨rfl, by simp⟩
  | cons z zs ih =>
    intro b ss r h
    unfold readSegs at h
    split at h
    · cases h
    · rename_i s b1 h1
      split at h
      · cases h
      · rename_i ss' b2 h2
        injection h with h
        injection h with h _
        subst h
        obtain ⟨i1, i2⟩ := ih h2
        refine ⟨by simp [i1], ?_⟩
        intro x hx
        rcases List.mem_cons.mp hx with rfl | hx
        · unfold readSeg at h1
          split at h1
          · cases h1
          · split at h1
            · cases h1
            · split at h1
              · cases h1
              · injection h1 with h1
                injection h1 with h1 _
                rw [← h1]
        · exact i2 x hx

theorem readSegTres_each {E : Env} {IO : DataIO P.F} {k : SegKind} {Q : Tre P.F → Prop}
    (hQ : ∀ {b rest : Bytes} {t : Tre P.F}, readOne P E.reg b = .ok (t, rest) → Q t)
    {des : List (Except Err Bytes)} : ∀ {ss ss' : List (Seg P.F IO.D)},
    readSegTres P E IO k des ss = .ok ss' → (∀ s ∈ ss, s.tres = []) →
    ss'.length = ss.length ∧ ∀ s ∈ ss', ∀ t ∈ s.tres, Q t := by
  intro ss
  induction ss with
  | nil =>
    intro ss' h _
    unfold readSegTres at h
    cases h
    exact ⟨rfl, by simp⟩
  | cons s ss ih =>
    intro ss' h hl
    unfold readSegTres at h
    split at h
    · cases h
    · rename_i ts hts
      split at h
      · cases h
      · rename_i ss1 h1
        injection h with h
        subst h
        obtain ⟨i1, i2⟩ := ih h1 fun y hy => hl y (by simp [hy])
        refine ⟨by simp [i1], ?_⟩
        intro x hx
        rcases List.mem_cons.mp hx with rfl | hx
        · unfold segTres at hts
          split at hts
          · injection hts with hts
            subst hts
            simp [hl s (by simp)]
          · exact readTre_each hQ _ hts
        · exact i2 x hx

theorem listField_length {G : Int → Except Err (Val P.F)} : ∀ {is zs : List Int},
    listField P G is = .ok zs → zs.length = is.length := by
  intro is
  induction is with
  | nil => intro zs h; cases h; rfl
  | cons i is ih =>
    intro zs h
    unfold listField at h
    split at h
    · cases h
    · split at h
      · cases h
      · split at h
        · cases h
        · rename_i hz
          cases h
          simp [ih hz]

theorem segSizes_length {H : Store P.F} {k : SegKind} {zs : List Int}
    (h : segSizes P H k = .ok zs) :
    ∃ z, getAttr P Tables.t_file_header H k.numField [] = .ok (.int z) ∧ zs.length = z.toNat := by
  unfold segSizes at h
  split at h
  · cases h
  · rename_i v hv
    split at h
    · cases h
    · rename_i z hz
      simp only at h
      split at h
      · cases h
      · cases v with
        | int y =>
          cases hz
          exact ⟨z, hv, by rw [listField_length h]; simp [indices]⟩
        | _ => cases hz

/-- What is read, TREs one by one, and how many segments there are. -/
theorem readFile_each {E : Env} {IO : DataIO P.F} {Q : Tre P.F → Prop}
    (hQ : ∀ {b rest : Bytes} {t : Tre P.F}, readOne P E.reg b = .ok (t, rest) → Q t) {b : Bytes}
    {g : NFile P.F IO.D} (h : readFile P E IO b = .ok g) :
    (∀ t ∈ g.tres, Q t) ∧ (∀ k, ∀ s ∈ g.segs k, ∀ t ∈ s.tres, Q t) ∧
    ∀ k : SegKind, ∃ z, getAttr P Tables.t_file_header g.header k.numField [] = .ok (.int z) ∧
      (g.segs k).length = z.toNat := by
  unfold readFile at h
  simp only [bind_ok, Prod.exists, pure, Except.pure] at h
  obtain ⟨H, r, e0, fl, _, h⟩ := h
  split at h
  · cases h
  simp only [bind_ok, Prod.exists] at h
  obtain ⟨zi, z1, zg, z2, zt, z3, zd, z4, zr, z5, im, r1, e1, gr, r2, e2, tx, r3, e3,
    ds, r4, e4, rs, r5, e5, ts, et, im', e6, gr', e7, tx', e8, e9⟩ := h
  injection e9 with e9
  subst e9
  have a1 := readSegTres_each (k := .image) hQ e6 (readSegs_length e1).2
  have a2 := readSegTres_each (k := .graphic) hQ e7 (readSegs_length e2).2
  have a3 := readSegTres_each (k := .text) hQ e8 (readSegs_length e3).2
  refine ⟨readTre_each hQ _ et, ?_, ?_⟩
  · intro k s hs
    cases k with
    | image => exact a1.2 s hs
    | graphic => exact a2.2 s hs
    | text => exact a3.2 s hs
    | des => rw [(readSegs_length e4).2 s hs]; simp
    | res => rw [(readSegs_length e5).2 s hs]; simp
  · intro k
    cases k with
    | image =>
      obtain ⟨z, g1, g2⟩ := segSizes_length z1
      exact ⟨z, g1, by rw [← g2, ← (readSegs_length e1).1]; exact a1.1⟩
    | graphic =>
      obtain ⟨z, g1, g2⟩ := segSizes_length z2
      exact ⟨z, g1, by rw [← g2, ← (readSegs_length e2).1]; exact a2.1⟩
    | text =>
      obtain ⟨z, g1, g2⟩ := segSizes_length z3
      exact ⟨z, g1, by rw [← g2, ← (readSegs_length e3).1]; exact a3.1⟩
    | des =>
      obtain ⟨z, g1, g2⟩ := segSizes_length z4
      exact ⟨z, g1, by rw [← g2, ← (readSegs_length e4).1]; rfl⟩
    | res =>
      obtain ⟨z, g1, g2⟩ := segSizes_length z5
      exact ⟨z, g1, by rw [← g2, ← (readSegs_length e5).1]; rfl⟩

theorem fileGets_of_read {E : Env} {IO : DataIO P.F} (hreg : Registered E.reg) {b : Bytes}
    {f : NFile P.F IO.D} (h : readFile P E IO b = .ok f) : FileGets f := by
  have h1 := readFile_all E IO h
  obtain ⟨h2, h3, _⟩ := readFile_each (fun h => C93_tre_read hreg h) h
  obtain ⟨hb, hr, hh⟩ := h1.header
  refine ⟨gets_of_read header_facts.1 header_facts.2 hh, h2, ?_, h3⟩
  intro k s hs
  obtain ⟨sb, sr, hsub⟩ := (h1.segs k s hs).sub
  exact gets_of_read (sub_facts k).1 (sub_facts k).2 hsub

/-- C93.  A file that was read has a summary. -/
theorem C93_read {E : Env} {IO : DataIO P.F} (hreg : Registered E.reg) {b : Bytes}
    {f : NFile P.F IO.D} (h : readFile P E IO b = .ok f) : ∃ x, file f = .ok x ∧ FileLines f x :=
  C93_file (fileGets_of_read hreg h)

/-- The summary of the header has these numbers of segments. -/
def CountLine (i g t e : Nat) (x : Str) : Prop :=
  ∃ a, x = a ++ " MD5: \n".toList ++ decStr i ++ " Image Segments, ".toList ++ decStr g ++
    " Graphic Segments, ".toList ++ decStr t ++ " Text Segments, ".toList ++ decStr e ++ " DESs\n".toList

/-- C93.  The numbers in the summary of a file that was read are those of its segments, if the header has no
negative numbers. -/
theorem C93_counts {E : Env} {IO : DataIO P.F} {b : Bytes} {f : NFile P.F IO.D}
    (h : readFile P E IO b = .ok f)
    (hp : ∀ (k : SegKind) z, getAttr P Tables.t_file_header f.header k.numField [] = .ok (.int z) → 0 ≤ z) :
    ∃ x, header P f.header = .ok x ∧
      CountLine f.image.length f.graphic.length f.text.length f.des.length x := by
  have h1 := readFile_all E IO h
  obtain ⟨hb, hr, hh⟩ := h1.header
  obtain ⟨x, h2, a, b, c, i, g, t, e, _, _, _, hi, hg, ht, he, rfl⟩ := C93_header_read hh
  have h3 := (readFile_each (Q := fun _ => True) (fun _ => trivial) h).2.2
  have key : ∀ (k : SegKind) y, Told (P := P) Tables.t_file_header f.header k.numField y →
      y = decStr (f.segs k).length := by
    intro k y hy
    obtain ⟨z, g1, g2⟩ := h3 k
    obtain ⟨v, g3, rfl⟩ := hy
    rw [g1] at g3
    cases g3
    have := hp k z g1
    rw [g2]
    obtain ⟨n, rfl⟩ := Int.eq_ofNat_of_zero_le this
    rfl
  refine ⟨_, h2, a ++ " ".toList ++ b ++ " ".toList ++ c, ?_⟩
  rw [key .image i hi, key .graphic g hg, key .text t ht, key .des e he]
  rfl

/-! ### Concrete cases -/

/-- The classes of pynitf. -/
theorem registered_shipped : Registered shippedRegistry := fun _ _ h => .inl h

/-- A CSEPHA with a value for `ephem_flag`; all other fields have their defaults. -/
def exCsepha : Store P0.F :=
  Store.empty.set ((resolve Tables.t_tre_csepha.tab (n!"ephem_flag")).getD 0) []
    ⟨.val (.str "PREDICTED".toList), none⟩

/-- The hypotheses of `C93_tre_written` are met. -/
example : ("CSEPHA".toList, Tables.t_tre_csepha) ∈ shippedRegistry ∧ NoLit exCsepha ∧
    (treWrite P0 (.known "CSEPHA".toList Tables.t_tre_csepha exCsepha)).toOption.map (·.length) = some 52 ∧
    tre P0 (.known "CSEPHA".toList Tables.t_tre_csepha exCsepha) =
      .ok "TRE - CSEPHA: PREDICTED 0 ephemeris vectors\n".toList :=
  ⟨by decide +kernel, NoLit.empty.set _ _ _ _, by decide +kernel, by decide +kernel⟩

/-- A fresh image subheader: one band of 8 bits. -/
example : sub P0 .image Store.empty = .ok "IM  \n0 X 0, 1 Band(s), 8/8 bpp\n".toList ∧
    (writeStruct P0 SegKind.image.desc Store.empty).toOption.map (·.length) = some 439 := by
  constructor <;> decide +kernel

/-- With 0 in `nbands` the number of bands is that in `xbands`. -/
example : sub P0 .image (setAttr P0 SegKind.image.desc
      (setAttr P0 SegKind.image.desc Store.empty (n!"nbands") [] (.int 0)).1 (n!"xbands") [] (.int 12)).1 =
    .ok "IM  \n0 X 0, 12 Band(s), 8/8 bpp\n".toList := by
  decide +kernel

/-- What was written of `exFile`, and then read, has this summary: one text segment, one DES, one TRE. -/
example : ((writeFile P0 exEnv exIO exFile).toOption.bind fun x =>
    (readFile P0 exEnv exIO x.2).toOption.map fun f => (file f).toOption) = some (some (
      "NITF File Summary\n".toList ++ PrintFile.rule.toList ++
      "File Header:\nNITF 02.10  MD5: \n".toList ++
      "0 Image Segments, 0 Graphic Segments, 1 Text Segments, 1 DESs\n".toList ++ PrintFile.rule.toList ++
      "File level TRES:\nTRE - ABCDEF\n".toList ++ PrintFile.rule.toList ++
      "No Image segments\nNo Graphic segments\n".toList ++ PrintFile.rule.toList ++
      "Text segment 1 of 1\nTE  \nNo Segment level TRES\n".toList ++ PrintFile.rule.toList ++
      PrintFile.rule.toList ++ "Data Extension segment 1 of 1\n \nNo Segment level TRES\n".toList ++
      PrintFile.rule.toList ++ "No Reserved Extension segments\n".toList)) := by
  decide +kernel

example : Registered exEnv.reg := fun _ _ h => by cases h

end Summary
end Verif
