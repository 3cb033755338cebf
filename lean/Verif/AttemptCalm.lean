import Verif.AttemptStuck

/- Headers whose unused TRE areas are clear stay so. -/

namespace Verif.Attempt

open Verif

variable {P : PyFloat} {E : Env} {IO : DataIO P.F}

/-- No length of a TRE area is negative. -/
def LensNonneg (P : PyFloat) (d : Desc) (areas : List Area) (S : Store P.F) : Prop :=
  ∀ a ∈ areas, ∀ z, getAttr P d S a.len [] = .ok (.int z) → 0 ≤ z

/-- No negative lengths, and the overflow fields of unused areas are 0. -/
def Calm (P : PyFloat) (d : Desc) (areas : List Area) (S : Store P.F) : Prop :=
  ∀ a ∈ areas, (∀ z, getAttr P d S a.len [] = .ok (.int z) → 0 ≤ z) ∧
    (attrPos P d S a.len ≠ .ok true → ∀ o fo, resolve d.tab a.ofl = some o →
      d.tab[o]? = some fo → stored S fo.fd o [] = .val (.int 0))

theorem calm_iff {d : Desc} {areas : List Area} {S : Store P.F} :
    Calm P d areas S ↔ LensNonneg P d areas S ∧ OflClear P d areas S :=
  ⟨fun h => ⟨fun a ha => (h a ha).1, fun a ha => (h a ha).2⟩, fun h a ha => ⟨h.1 a ha, h.2 a ha⟩⟩

/-- It depends on the cells of the areas only. -/
theorem calm_cells {d : Desc} {as : List Area} {ps : List (Nat × Nat)} (hA : AreasRows d as ps)
    {S S' : Store P.F} (h : Calm P d as S)
    (he : ∀ a mn, (a, mn) ∈ List.zip as ps → ∀ q ∈ areaCells d a mn, S' q [] = S q []) :
    Calm P d as S' := by
  intro a ha
  obtain ⟨m, n, hz, hrow⟩ := areasRows_zip hA a ha
  have e1 := he a (m, n) hz m (by simp [areaCells])
  rw [hrow.len_cell e1, hrow.pos_cell e1]
  refine ⟨(h a ha).1, fun hp o fo hr hf => ?_⟩
  have e2 := he a (m, n) hz o (by simp [areaCells, hr])
  have := (h a ha).2 hp o fo hr hf
  unfold stored at this ⊢
  rw [e2]
  exact this

theorem calm_tail {d : Desc} {a : Area} {as : List Area} {S : Store P.F} (h : Calm P d (a :: as) S) :
    Calm P d as S := fun b hb => h b (by simp [hb])

theorem len_stored {d : Desc} {a : Area} {m n : Nat} (h : AreaRows d a m n) {S : Store P.F} {z : Int}
    {raw : Option Bytes} (he : S m [] = some ⟨.val (.int z), raw⟩) :
    getAttr P d S a.len [] = .ok (.int z) := by
  unfold getAttr
  rw [h.rlen]
  obtain ⟨fm, h1, h2, h3, h4, h5⟩ := h.flen
  simp only
  rw [h2.get_plain P h3 h1 (evalCond_none P h5 _ _)]
  unfold stored
  rw [he]
  simp only
  rw [finish_int P h4]

theorem storeAreas_calm {d : Desc} (hd : d.causal = true) {as : List Area} {ps : List (Nat × Nat)}
    (hA : AreasRows d as ps) : ∀ {hs : List Bytes} {S S1 : Store P.F}, Calm P d as S →
      storeAreas P d as hs S = .ok S1 → Calm P d as S1 := by
  induction hA with
  | nil => intro hs S S1 _ _ a ha; cases ha
  | @cons a as m n ps h1 hnd hdis hA ih =>
    intro hs S S1 hcl h
    cases hs with
    | nil =>
      unfold storeAreas at h
      injection h with h
      subst h
      exact hcl
    | cons b hs =>
      cases hp : attrPos P d S a.len with
      | error e =>
        unfold storeAreas at h
        rw [hp] at h
        cases h
      | ok pos =>
        rw [storeAreas_cons hd h1 hp] at h
        have htail : Calm P d as (areaStep d a m n b pos S) := by
          refine calm_cells hA (calm_tail hcl) ?_
          intro b' mn hb q hq
          refine areaStep_frame d a m n _ pos S ?_
          rintro ⟨hq', _⟩
          exact hdis b' mn hb q hq' hq
        have hrest := ih htail h
        have hlater : ∀ q ∈ areaCells d a (m, n), S1 q [] = areaStep d a m n b pos S q [] := by
          intro q hq
          refine storeAreas_frame hd hA h ?_
          rintro b' mn hb ⟨hq', _⟩
          exact hdis b' mn hb q hq hq'
        obtain ⟨mm, _⟩ := areaStep_mn hnd b pos S
        have e1 := (hlater m (by simp [areaCells])).trans mm
        intro a' ha'
        rcases List.mem_cons.mp ha' with rfl | ha'
        · by_cases hb : b.length > 0
          · rw [if_pos hb] at e1
            rw [len_stored h1 e1, h1.pos_stored e1]
            refine ⟨fun z hz => ?_, fun hh => absurd ?_ hh⟩
            · injection hz with hz
              injection hz with hz
              omega
            · rw [decide_eq_true (by omega)]
          · rw [if_neg hb] at e1
            rw [h1.len_cell e1, h1.pos_cell e1]
            refine ⟨(hcl a' (by simp)).1, fun hh o fo hr hf => ?_⟩
            have := (hcl a' (by simp)).2 hh o fo hr hf
            have hpos : pos = false := by
              cases pos with
              | false => rfl
              | true => exact absurd hp hh
            have e2 := hlater o (by simp [areaCells, hr])
            rw [areaStep_ofl hnd hr, hpos] at e2
            simp only [Bool.false_eq_true, if_false] at e2
            unfold stored at this ⊢
            rw [e2]
            exact this
        · exact hrest a' ha'

theorem cond_zero {d : Desc} {a : Area} {m n : Nat} (hd : d.causal = true) (h : AreaRows d a m n)
    {S : Store P.F} (hg : getAttr P d S a.len [] = .ok (.int 0)) {fo : FInfo}
    (hc : fo.fd.cond = some (.ne (.ref a.len []) (.const (.int 0)))) :
    evalCond P (look P d.tab S) fo [] = .ok false := by
  unfold getAttr at hg
  rw [h.rlen] at hg
  simp only at hg
  obtain ⟨fm, h1, h2, _⟩ := h.flen
  unfold evalCond
  rw [hc]
  simp [evalE, idxKey, bind, Except.bind, h2.look P (Desc.causalTab hd) h.rlen h1, hg,
    CVal.toVal, pyEq, pure, Except.pure, Except.map, bval, truthy]

theorem setOfl_cond {d : Desc} {a : Area} {m n : Nat} (h : AreaRows d a m n)
    {S R : Store P.F} {z : Int} (hs : setA P d S a.ofl (.int z) = .ok R) {o : Nat} {fo : FInfo}
    (hr : resolve d.tab a.ofl = some o) (hf : d.tab[o]? = some fo) :
    evalCond P (look P d.tab S) fo [] = .ok true := by
  obtain ⟨fo', h1, h2, h3, h4⟩ := h.fofl o hr
  rw [hf] at h1
  injection h1 with h1
  subst h1
  unfold setA setAttr at hs
  rw [hr] at hs
  simp only at hs
  unfold setItem budget setF setCheck at hs
  simp only [hf] at hs
  have hnn : fo.fd.name.isNone = false := by
    cases hh : fo.fd.name with
    | none => exact absurd hh h2.name
    | some _ => rfl
  simp only [h3, packKind, h2.check P, hnn] at hs
  cases hc : evalCond P (look P d.tab S) fo [] with
  | error e => simp [hc] at hs
  | ok b =>
    cases b with
    | true => rfl
    | false => simp [hc] at hs

/-- The first length could be compared with 0, if the loop came to its end. -/
theorem storeAreas_first {d : Desc} (hd : d.causal = true) {a : Area} {as : List Area} {m n : Nat}
    {ps : List (Nat × Nat)} (hA : AreasRows d (a :: as) ((m, n) :: ps)) {b : Bytes} {hs : List Bytes}
    {S S1 : Store P.F} (h : storeAreas P d (a :: as) (b :: hs) S = .ok S1) :
    ∃ z, getAttr P d S1 a.len [] = .ok (.int z) := by
  cases hA with
  | cons h1 hnd hdis hA =>
    cases hp : attrPos P d S a.len with
    | error e =>
      unfold storeAreas at h
      rw [hp] at h
      cases h
    | ok pos =>
      rw [storeAreas_cons hd h1 hp] at h
      have e : S1 m [] = areaStep d a m n b pos S m [] := by
        refine storeAreas_frame hd hA h ?_
        rintro b' mn hb ⟨hq', _⟩
        exact hdis b' mn hb m (by simp [areaCells]) hq'
      rw [(areaStep_mn hnd b pos S).1] at e
      by_cases hb : b.length > 0
      · rw [if_pos hb] at e
        exact ⟨_, len_stored h1 e⟩
      · rw [if_neg hb] at e
        rw [h1.len_cell e]
        unfold attrPos at hp
        cases hg : getAttr P d S a.len [] with
        | error e => rw [hg] at hp; cases hp
        | ok v =>
          rw [hg] at hp
          cases v with
          | int z => exact ⟨z, rfl⟩
          | _ => simp only [asInt, Except.map] at hp; cases hp

theorem prepareHeader_calm {d : Desc} (hd : d.causal = true) {as : List Area} {ps : List (Nat × Nat)}
    (hA : AreasRows d as ps) {pre : Name} {ofl : Str} {i : Nat}
    {tres : List (Tre P.F)} {S S' : Store P.F} {des des' : List (Seg P.F IO.D)}
    (h : prepareHeader P IO d as pre ofl i tres S des = .ok (S', des')) (hcl : Calm P d as S) :
    Calm P d as S' := by
  obtain ⟨o, h1, _⟩ := prepareHeader_ok P IO h
  unfold prepareTreWrite at h1
  cases ht : treWriteAll P tres with
  | error e => rw [ht] at h1; cases h1
  | ok ser =>
    rw [ht] at h1
    simp only at h1
    have hlen : (place ser (as.map fun _ => []) []).1.length = as.length := by
      obtain ⟨_, _, _, h, _⟩ := place_spec ser (as.map fun _ => []) []
      simpa using h
    generalize place ser (as.map fun _ => []) [] = pl at h1 hlen
    obtain ⟨heads, ov⟩ := pl
    simp only at h1 hlen
    cases hs : storeAreas P d as heads S with
    | error e => rw [hs] at h1; cases h1
    | ok S1 =>
      rw [hs] at h1
      simp only at h1
      have hc1 := storeAreas_calm hd hA hcl hs
      by_cases hov : ov.length > 0
      · rw [if_pos hov] at h1
        cases hA with
        | nil => cases h1
        | @cons a as m n ps ha hnd hdis hA =>
          simp only at h1
          cases h2 : setA P d S1 a.ofl (.int (des.length + 1)) with
          | error e => rw [h2] at h1; cases h1
          | ok S2 =>
            rw [h2] at h1
            simp only at h1
            injection h1 with h1
            injection h1 with he _
            subst he
            obtain ⟨e2, _⟩ := ha.setOfl_ok hd h2
            have hm : resolve d.tab a.ofl ≠ some m := by
              intro hr
              simp [areaCells, hr] at hnd
            have em : S2 m [] = S1 m [] := by
              rw [e2]; exact setOflS_frame d a S1 _ fun h => hm h.1
            intro a' ha'
            rcases List.mem_cons.mp ha' with rfl | ha''
            · rw [ha.len_cell em, ha.pos_cell em]
              refine ⟨(hc1 a' (by simp)).1, fun hh o fo hr hf => ?_⟩
              exfalso
              cases heads with
              | nil => cases hlen
              | cons b hs' =>
                obtain ⟨z, hz⟩ := storeAreas_first hd (.cons ha hnd hdis hA) hs
                have h0 := (hc1 a' (by simp)).1 z hz
                have hz0 : z = 0 := by
                  by_cases hpos : z > 0
                  · exfalso
                    apply hh
                    unfold attrPos
                    rw [hz]
                    simp [asInt, Except.map, hpos]
                  · omega
                subst hz0
                obtain ⟨fo', g1, _, _, g4⟩ := ha.fofl o hr
                rw [hf] at g1
                injection g1 with g1
                subst g1
                have := cond_zero hd ha hz g4
                rw [setOfl_cond ha h2 hr hf] at this
                cases this
            · refine calm_cells hA (calm_tail hc1) ?_ a' ha''
              intro b' mn hz q hq
              rw [e2]
              refine setOflS_frame d a S1 _ ?_
              rintro ⟨hr, _⟩
              exact hdis b' mn hz q (by simp [areaCells, hr]) hq
      · rw [if_neg hov] at h1
        injection h1 with h1
        injection h1 with he _
        rw [← he]
        exact hc1

end Verif.Attempt
