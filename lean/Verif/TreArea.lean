import Verif.Tre
import Verif.Scalar
import Verif.Tables

/-
The TRE areas of a header as (length, overflow, data) triples: what `prepare_tre_write` does to
them and what `read_tre` gets out of them.
-/

namespace Verif

variable (P : PyFloat)

/-- Positions of the three fields of an area. -/
structure AreaPos where
  m : Nat
  o : Nat
  n : Nat

def AreaPos.list (p : AreaPos) : List Nat := [p.m, p.o, p.n]

/-- The three rows of an area in a header description:
`len` 5 digits; `ofl` 3 digits, present if `len != 0`; `data` of length `len` minus 3. -/
structure AreaAt (T : Tab) (a : Area) (p : AreaPos) : Prop where
  rlen : resolve T a.len = some p.m
  rofl : resolve T a.ofl = some p.o
  rdata : resolve T a.data = some p.n
  flen : ∃ fm, T[p.m]? = some fm ∧ Scalar fm ∧ fm.fd.kind = .plain ∧ fm.fd.ty = .int ∧
    fm.fd.cond = none
  fofl : ∃ fo, T[p.o]? = some fo ∧ Scalar fo ∧ fo.fd.kind = .plain ∧ fo.fd.ty = .int ∧
    fo.fd.cond = some (.ne (.ref a.len []) (.const (.int 0)))
  fdata : ∃ fn, T[p.n]? = some fn ∧ Scalar fn ∧ fn.fd.kind = .bytesData ∧ fn.fd.ty = .bytes ∧
    fn.fd.cond = none ∧ fn.fd.size = .expr (.ref a.len []) ∧ fn.fd.sizeOffset = 3 ∧
    fn.fd.sizeNotUpdated = false

/-- Contents of an area: the length field, the stored overflow index (visible only if the length
is not 0), the data. -/
structure AreaVal where
  len : Int
  ofl : Int
  data : Bytes
  deriving DecidableEq, Repr

/-- The header state `S` has these contents in the area. -/
structure Holds (T : Tab) (S : Store P.F) (p : AreaPos) (v : AreaVal) : Prop where
  len : ∃ fi, T[p.m]? = some fi ∧ finish P fi.fd (stored S fi.fd p.m []) = .ok (.int v.len)
  ofl : ∃ fi, T[p.o]? = some fi ∧ finish P fi.fd (stored S fi.fd p.o []) = .ok (.int v.ofl)
  data : ∃ fi, T[p.n]? = some fi ∧ finish P fi.fd (stored S fi.fd p.n []) = .ok (.bytes v.data)

theorem evalCond_none {fi : FInfo} (h : fi.fd.cond = none) (l : Look P.F) (key : Key) :
    evalCond P l fi key = .ok true := by unfold evalCond; rw [h]

variable {P} {d : Desc} {a : Area} {p : AreaPos} {S : Store P.F} {v : AreaVal}

theorem AreaAt.getLen (h : AreaAt d.tab a p) (hv : Holds P d.tab S p v) :
    getAttr P d S a.len [] = .ok (.int v.len) := by
  unfold getAttr
  rw [h.rlen]
  obtain ⟨fm, h1, h2, h3, _, h5⟩ := h.flen
  obtain ⟨fm', h1', h2'⟩ := hv.len
  rw [h1] at h1'; injection h1' with h1'; subst h1'
  simp only
  rw [h2.get_plain P h3 h1 (evalCond_none P h5 _ _), h2']

theorem AreaAt.cond (hd : d.causal = true) (h : AreaAt d.tab a p) (hv : Holds P d.tab S p v)
    {fo : FInfo} (hc : fo.fd.cond = some (.ne (.ref a.len []) (.const (.int 0)))) :
    evalCond P (look P d.tab S) fo [] = .ok (decide (v.len ≠ 0)) := by
  have hg := h.getLen hv
  unfold getAttr at hg
  rw [h.rlen] at hg
  simp only at hg
  obtain ⟨fm, h1, h2, _⟩ := h.flen
  unfold evalCond
  rw [hc]
  simp only [evalE, idxKey, bind, Except.bind, h2.look P (Desc.causalTab hd) h.rlen h1, hg,
    CVal.toVal, pyEq, pure, Except.pure, Except.map, bval, truthy]
  by_cases hz : v.len = 0 <;> simp [hz]

theorem AreaAt.getOfl (hd : d.causal = true) (h : AreaAt d.tab a p) (hv : Holds P d.tab S p v)
    (hz : v.len ≠ 0) : getAttr P d S a.ofl [] = .ok (.int v.ofl) := by
  unfold getAttr
  rw [h.rofl]
  obtain ⟨fo, h1, h2, h3, _, h5⟩ := h.fofl
  obtain ⟨fo', h1', h2'⟩ := hv.ofl
  rw [h1] at h1'; injection h1' with h1'; subst h1'
  simp only
  rw [h2.get_plain P h3 h1 (by rw [h.cond hd hv h5]; simp [hz]), h2']

theorem AreaAt.getData (h : AreaAt d.tab a p) (hv : Holds P d.tab S p v) :
    getAttr P d S a.data [] = .ok (.bytes v.data) := by
  unfold getAttr
  rw [h.rdata]
  obtain ⟨fn, h1, h2, h3, _, h5, _⟩ := h.fdata
  obtain ⟨fn', h1', h2'⟩ := hv.data
  rw [h1] at h1'; injection h1' with h1'; subst h1'
  simp only
  exact h2.get_bytes P h3 h1 (evalCond_none P h5 _ _) h2'

theorem AreaAt.setOfl (hd : d.causal = true) (h : AreaAt d.tab a p) (hv : Holds P d.tab S p v)
    (z : Int) : setA P d S a.ofl (.int z) =
      if v.len = 0 then .error .runtime else .ok (S.set p.o [] ⟨.val (.int z), none⟩) := by
  obtain ⟨fo, h1, h2, h3, _, h5⟩ := h.fofl
  have hc := h.cond hd hv h5
  unfold setA setAttr
  rw [h.rofl]
  simp only
  unfold setItem budget
  by_cases hz : v.len = 0
  · rw [if_pos hz]
    have hc' : evalCond P (look P d.tab S) fo [] = .ok false := by rw [hc]; simp [hz]
    rw [h2.set_absent P h3 h1 hc']
  · rw [if_neg hz]
    have hc' : evalCond P (look P d.tab S) fo [] = .ok true := by rw [hc]; simp [hz]
    rw [h2.set_plain P h3 h1 hc' rfl]

theorem AreaAt.setData (h : AreaAt d.tab a p) (b : Bytes) :
    setA P d S a.data (.bytes b) =
      .ok ((S.set p.n [] ⟨.val (.bytes b), none⟩).set p.m []
        ⟨.val (.int (if b.length = 0 then 0 else (b.length : Int) + 3)), none⟩) := by
  obtain ⟨fn, h1, h2, h3, _, h5, h6, h7, h8⟩ := h.fdata
  obtain ⟨fm, g1, g2, g3, _, g5⟩ := h.flen
  unfold setA setAttr
  rw [h.rdata]
  simp only
  rw [h2.set_data P g2 h1 g1 h3 g3 h8 h6 h.rlen h5 g5, h7]
  rfl

/-- Contents depend only on the three cells. -/
theorem Holds.congr {T : Tab} {S' : Store P.F} (hv : Holds P T S p v)
    (h : ∀ q ∈ p.list, S' q [] = S q []) : Holds P T S' p v := by
  have key : ∀ q ∈ p.list, ∀ fd : FieldDef, stored S' fd q [] = stored S fd q [] := by
    intro q hq fd
    unfold stored
    rw [h q hq]
  obtain ⟨⟨f1, a1, b1⟩, ⟨f2, a2, b2⟩, ⟨f3, a3, b3⟩⟩ := hv
  refine ⟨⟨f1, a1, ?_⟩, ⟨f2, a2, ?_⟩, ⟨f3, a3, ?_⟩⟩
  · rw [key _ (by simp [AreaPos.list])]; exact b1
  · rw [key _ (by simp [AreaPos.list])]; exact b2
  · rw [key _ (by simp [AreaPos.list])]; exact b3

theorem AreaAt.ne (h : AreaAt d.tab a p) : p.m ≠ p.o ∧ p.m ≠ p.n ∧ p.o ≠ p.n := by
  obtain ⟨fm, a1, a2, a3, a4, a5⟩ := h.flen
  obtain ⟨fo, b1, b2, b3, b4, b5⟩ := h.fofl
  obtain ⟨fn, c1, c2, c3, c4, c5, c6⟩ := h.fdata
  refine ⟨?_, ?_, ?_⟩ <;> intro he
  · rw [he, b1] at a1; injection a1 with a1; subst a1; rw [a5] at b5; cases b5
  · rw [he, c1] at a1; injection a1 with a1; subst a1; rw [a3] at c3; cases c3
  · rw [he, c1] at b1; injection b1 with b1; subst b1; rw [b3] at c3; cases c3

/-- What the storing loop does to an area with contents `v`, given the packed bytes `h`. -/
def AreaVal.store (v : AreaVal) (h : Bytes) : AreaVal :=
  { len := if h = [] then v.len else h.length + 3
    ofl := if v.len > 0 then 0 else v.ofl
    data := if h = [] then v.data else h }

theorem setOfl_holds (h : AreaAt d.tab a p) (hv : Holds P d.tab S p v) (z : Int)
    (raw : Option Bytes) :
    Holds P d.tab (S.set p.o [] ⟨.val (.int z), raw⟩) p { v with ofl := z } := by
  obtain ⟨hmo, hmn, hon⟩ := h.ne
  obtain ⟨⟨f1, a1, b1⟩, ⟨f2, a2, b2⟩, ⟨f3, a3, b3⟩⟩ := hv
  obtain ⟨fo, c1, c2, c3, c4, c5⟩ := h.fofl
  refine ⟨⟨f1, a1, ?_⟩, ⟨fo, c1, ?_⟩, ⟨f3, a3, ?_⟩⟩
  · rw [← b1]; simp [stored, Store.set, hmo]
  · rw [stored_set]; exact finish_int P c4 z
  · rw [← b3]; simp [stored, Store.set, Ne.symm hon]

theorem setData_holds (h : AreaAt d.tab a p) (hv : Holds P d.tab S p v) (b : Bytes) (z : Int) :
    Holds P d.tab ((S.set p.n [] ⟨.val (.bytes b), none⟩).set p.m [] ⟨.val (.int z), none⟩) p
      { v with len := z, data := b } := by
  obtain ⟨hmo, hmn, hon⟩ := h.ne
  obtain ⟨⟨f1, a1, b1⟩, ⟨f2, a2, b2⟩, ⟨f3, a3, b3⟩⟩ := hv
  obtain ⟨fm, c1, c2, c3, c4, c5⟩ := h.flen
  obtain ⟨fn, e1, e2, e3, e4, _⟩ := h.fdata
  refine ⟨⟨fm, c1, ?_⟩, ⟨f2, a2, ?_⟩, ⟨fn, e1, ?_⟩⟩
  · rw [stored_set]; exact finish_int P c4 z
  · rw [← b2]; simp [stored, Store.set, hon, Ne.symm hmo]
  · have : stored ((S.set p.n [] ⟨.val (.bytes b), none⟩).set p.m [] ⟨.val (.int z), none⟩)
        fn.fd p.n [] = .val (.bytes b) := by
      simp [stored, Store.set, Ne.symm hmn]
    rw [this]; exact finish_bytes P e4 b

/-- Areas with positions and contents. -/
inductive AreasAt (d : Desc) (S : Store P.F) : List Area → List AreaPos → List AreaVal → Prop
  | nil : AreasAt d S [] [] []
  | cons {a as p ps v vs} : AreaAt d.tab a p → Holds P d.tab S p v → AreasAt d S as ps vs →
      AreasAt d S (a :: as) (p :: ps) (v :: vs)

theorem AreasAt.congr {as : List Area} {ps : List AreaPos} {vs : List AreaVal} {S' : Store P.F}
    (h : AreasAt (P := P) d S as ps vs) (he : ∀ q ∈ ps.flatMap AreaPos.list, S' q [] = S q []) :
    AreasAt (P := P) d S' as ps vs := by
  induction h with
  | nil => exact .nil
  | cons h1 h2 _ ih =>
    rw [List.flatMap_cons] at he
    exact .cons h1 (h2.congr fun q hq => he q (List.mem_append_left _ hq))
      (ih fun q hq => he q (List.mem_append_right _ hq))

theorem attrPos_len (h : AreaAt d.tab a p) (hv : Holds P d.tab S p v) :
    attrPos P d S a.len = .ok (decide (v.len > 0)) := by
  unfold attrPos
  rw [h.getLen hv]
  rfl

theorem storeAreas_spec (hd : d.causal = true) {as : List Area} {ps : List AreaPos} :
    ∀ {vs : List AreaVal} {S : Store P.F} {hs : List Bytes},
      AreasAt (P := P) d S as ps vs → (ps.flatMap AreaPos.list).Nodup → hs.length = as.length →
      ∃ S', storeAreas P d as hs S = .ok S' ∧
        AreasAt (P := P) d S' as ps (List.zipWith AreaVal.store vs hs) ∧
        ∀ q k, ¬ (q ∈ ps.flatMap AreaPos.list ∧ k = []) → S' q k = S q k := by
  induction as generalizing ps with
  | nil =>
    intro vs S hs h _ hl
    cases h
    cases hs with
    | nil => exact ⟨S, rfl, .nil, fun _ _ _ => rfl⟩
    | cons x xs => simp at hl
  | cons a as ih =>
    intro vs S hs h hnd hl
    cases h with
    | cons h1 h2 h3 =>
      rename_i p ps v vs
      cases hs with
      | nil => simp at hl
      | cons x xs =>
        rw [List.flatMap_cons, List.nodup_append] at hnd
        obtain ⟨_, hnd2, hdis⟩ := hnd
        have hstep : ∃ S2,
            (match (if decide (v.len > 0) = true then setA P d S a.ofl (.int 0) else .ok S) with
              | .error e => .error e
              | .ok S1 => if x.length > 0 then setA P d S1 a.data (.bytes x) else .ok S1) =
                (.ok S2 : Except Err (Store P.F)) ∧
            Holds P d.tab S2 p (v.store x) ∧
            ∀ q k, ¬ (q ∈ p.list ∧ k = []) → S2 q k = S q k := by
          obtain ⟨S1, e1, e2, e3⟩ : ∃ S1, (if decide (v.len > 0) = true then
              setA P d S a.ofl (.int 0) else .ok S) = (.ok S1 : Except Err (Store P.F)) ∧
              Holds P d.tab S1 p { v with ofl := if v.len > 0 then 0 else v.ofl } ∧
              ∀ q k, ¬ (q ∈ p.list ∧ k = []) → S1 q k = S q k := by
            by_cases hp : v.len > 0
            · rw [if_pos (by simpa using hp), h1.setOfl hd h2, if_neg (by omega)]
              refine ⟨_, rfl, ?_, ?_⟩
              · rw [if_pos hp]; exact setOfl_holds h1 h2 0 none
              · intro q k hq
                unfold Store.set
                rw [if_neg]
                rintro ⟨rfl, rfl⟩
                exact hq ⟨by simp [AreaPos.list], rfl⟩
            · rw [if_neg (by simpa using hp)]
              refine ⟨_, rfl, ?_, fun _ _ _ => rfl⟩
              rw [if_neg hp]; exact h2
          rw [e1]
          simp only
          by_cases hx : x = []
          · subst hx
            rw [if_neg (by simp)]
            refine ⟨S1, rfl, ?_, e3⟩
            simpa [AreaVal.store] using e2
          · have hxl : x.length > 0 := by
              cases x with
              | nil => exact absurd rfl hx
              | cons _ _ => simp
            rw [if_pos hxl, h1.setData, if_neg (by omega)]
            refine ⟨_, rfl, ?_, ?_⟩
            · have := setData_holds h1 e2 x ((x.length : Int) + 3)
              simpa [AreaVal.store, hx] using this
            · intro q k hq
              rw [← e3 q k hq]
              unfold Store.set
              rw [if_neg, if_neg]
              · rintro ⟨rfl, rfl⟩
                exact hq ⟨by simp [AreaPos.list], rfl⟩
              · rintro ⟨rfl, rfl⟩
                exact hq ⟨by simp [AreaPos.list], rfl⟩
        obtain ⟨S2, s1, s2, s3⟩ := hstep
        have h3' : AreasAt (P := P) d S2 as ps vs := h3.congr fun q hq => s3 q [] (by
          rintro ⟨hq', _⟩
          exact hdis q hq' q hq rfl)
        obtain ⟨S', i1, i2, i3⟩ := ih (hs := xs) h3' hnd2 (by simpa using hl)
        refine ⟨S', ?_, ?_, ?_⟩
        · unfold storeAreas
          rw [attrPos_len h1 h2]
          simp only
          cases hA : (if decide (v.len > 0) = true then setA P d S a.ofl (.int 0) else .ok S) with
          | error e => rw [hA] at s1; cases s1
          | ok S1 =>
            rw [hA] at s1
            simp only at s1 ⊢
            rw [s1]
            exact i1
        · rw [List.zipWith_cons_cons]
          exact .cons h1 (s2.congr fun q hq => i3 q [] (by
            rintro ⟨hq', _⟩
            exact hdis q hq q hq' rfl)) i2
        · intro q k hq
          rw [List.flatMap_cons, List.mem_append] at hq
          rw [i3 q k fun h => hq ⟨.inr h.1, h.2⟩, s3 q k fun h => hq ⟨.inl h.1, h.2⟩]

/-- What `read_tre` reads from an area: the data blobs, overflow first. -/
def AreaVal.blobs (des : List (Except Err Bytes)) (v : AreaVal) : Except Err (List Bytes) :=
  if v.len > 0 then
    if v.ofl > 0 then
      match des[(v.ofl - 1).toNat]? with
      | none => .error .index
      | some (.error e) => .error e
      | some (.ok b) => .ok [b, v.data]
    else .ok [v.data]
  else .ok []

/-- The blobs of each area. -/
inductive BlobsOf (des : List (Except Err Bytes)) : List AreaVal → List (List Bytes) → Prop
  | nil : BlobsOf des [] []
  | cons {v vs b bs} : v.blobs des = .ok b → BlobsOf des vs bs → BlobsOf des (v :: vs) (b :: bs)

/-- Parse blobs one after the other. -/
def parseBlobs (P : PyFloat) (reg : Registry) : List Bytes → Except Err (List (Tre P.F))
  | [] => .ok []
  | b :: bs =>
    match readTreData P reg b with
    | .error e => .error e
    | .ok t =>
      match parseBlobs P reg bs with
      | .error e => .error e
      | .ok ts => .ok (t ++ ts)

theorem readTre_spec (hd : d.causal = true) (reg : Registry) (des : List (Except Err Bytes))
    {as : List Area} {ps : List AreaPos} :
    ∀ {vs : List AreaVal}, AreasAt (P := P) d S as ps vs → ∀ {bs : List (List Bytes)},
      BlobsOf des vs bs →
      readTre P reg d des as S = parseBlobs P reg bs.flatten := by
  induction as generalizing ps with
  | nil =>
    intro vs h bs hb
    cases h
    cases hb
    rfl
  | cons a as ih =>
    intro vs h bs hb
    cases h with
    | cons h1 h2 h3 =>
      rename_i p ps v vs
      cases hb with
      | cons hb1 hb2 =>
        rename_i b bs
        have hI := ih h3 hb2
        unfold readTre
        rw [attrPos_len h1 h2]
        unfold AreaVal.blobs at hb1
        by_cases hz : v.len > 0
        · rw [if_pos hz] at hb1
          simp only [hz, decide_true]
          rw [h1.getOfl hd h2 (by omega), h1.getData h2]
          simp only [asInt]
          by_cases ho : v.ofl > 0
          · rw [if_pos ho] at hb1 ⊢
            cases hdes : des[(v.ofl - 1).toNat]? with
            | none => rw [hdes] at hb1; cases hb1
            | some x =>
              rw [hdes] at hb1
              cases x with
              | error e => cases hb1
              | ok y =>
                simp only at hb1
                injection hb1 with hb1
                subst hb1
                simp only [List.flatten_cons, List.cons_append, List.nil_append, parseBlobs]
                cases readTreData P reg y with
                | error e => rfl
                | ok t1 =>
                  simp only
                  cases readTreData P reg v.data with
                  | error e => rfl
                  | ok t2 =>
                    simp only
                    rw [hI]
                    cases parseBlobs P reg bs.flatten with
                    | error e => rfl
                    | ok t3 => simp
          · rw [if_neg ho] at hb1 ⊢
            injection hb1 with hb1
            subst hb1
            simp only [List.flatten_cons, List.cons_append, List.nil_append, parseBlobs]
            cases readTreData P reg v.data with
            | error e => rfl
            | ok t2 =>
              simp only
              rw [hI]
              cases parseBlobs P reg bs.flatten with
              | error e => rfl
              | ok t3 => simp
        · rw [if_neg hz] at hb1
          injection hb1 with hb1
          subst hb1
          have : decide (v.len > 0) = false := by simpa using hz
          simp only [this]
          rw [hI]
          rfl

end Verif
