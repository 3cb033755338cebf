import Verif.Props.Split
import Verif.Props.Tre

/-
C89: the TREs of a written file are found with the format alone.

As in `Props/Split`, the readers here are written from the description of the format: where the TRE
areas of the file header and of image, graphic and text subheaders are, and how TREs follow each
other in an area.
-/

namespace Verif.Finds

open Verif Verif.Meaning Verif.Sense Verif.Spell Verif.Split

variable (P : PyFloat)

/-! ### Specification -/

/-- TREs one after the other: a tag of six bytes, the length in five digits, the body. -/
def tresIn : Nat → Bytes → Option (List (Bytes × Bytes))
  | _, [] => some []
  | 0, _ :: _ => none
  | n + 1, b@(_ :: _) => do
    let (tag, b) ← next 6 b
    let (k, b) ← number 5 b
    let (body, b) ← next k b
    let l ← tresIn n b
    some ((tag, body) :: l)

/-- The TREs of an area. -/
def tres (b : Bytes) : Option (List (Bytes × Bytes)) := tresIn b.length b

/-- A TRE area: three bytes that name the overflow segment, unless the area is not there, and the
data. -/
structure Place where
  overflow : Option Bytes
  data : Bytes
  deriving DecidableEq

/-- The length in five digits; unless it is 0, three bytes and the data. -/
def area (b : Bytes) : Option (Place × Bytes) := do
  let (n, b) ← number 5 b
  if n = 0 then some (⟨none, []⟩, b)
  else do
    let (o, b) ← next 3 b
    let (t, b) ← next (n - 3) b
    if 3 ≤ n then some (⟨some o, t⟩, b) else none

/-- The two areas of a file header: user defined, extended. -/
def fileHeader (b : Bytes) : Option (Place × Place) := do
  let (_, b) ← lens b
  let (x, b) ← area b
  let (y, b) ← area b
  if b = [] then some (x, y) else none

/-- The area of a text subheader. -/
def textHeader (b : Bytes) : Option Place := do
  let (_, b) ← next 277 b
  let (x, b) ← area b
  if b = [] then some x else none

/-- The area of a graphic subheader. -/
def graphicHeader (b : Bytes) : Option Place := do
  let (_, b) ← next 253 b
  let (x, b) ← area b
  if b = [] then some x else none

/-- The bands of an image subheader: twelve bytes, the number of look-up tables in one digit, and if
there are any their length in five digits and the tables. -/
def bands : Nat → Bytes → Option Bytes
  | 0, b => some b
  | n + 1, b => do
    let (_, b) ← next 12 b
    let (m, b) ← number 1 b
    if m = 0 then bands n b
    else do
      let (k, b) ← number 5 b
      let (_, b) ← next (m * k) b
      bands n b

/-- The number of bands: one digit, or five digits after a 0. -/
def bandCount (b : Bytes) : Option (Nat × Bytes) := do
  let (n, b) ← number 1 b
  if n = 0 then number 5 b else some (n, b)

/-- The two areas of an image subheader: user defined, extended. -/
def imageHeader (b : Bytes) : Option (Place × Place) := do
  let (_, b) ← next 371 b
  let (c, b) ← next 1 b
  let (_, b) ← next (if c = [32] then 0 else 60) b
  let (n, b) ← number 1 b
  let (_, b) ← next (80 * n) b
  let (c, b) ← next 2 b
  let (_, b) ← next (if codes c = [78, 67] ∨ codes c = [78, 77] then 0 else 4) b
  let (n, b) ← bandCount b
  let b ← bands n b
  let (_, b) ← next 40 b
  let (x, b) ← area b
  let (y, b) ← area b
  if b = [] then some (x, y) else none

/-- What is in the overflow segment an area refers to: the data of that DES; nothing if it refers to
none. -/
def overflowIn (p : Pieces) (x : Place) : Option Bytes :=
  match x.overflow with
  | none => some []
  | some t => do
    let (n, _) ← number 3 t
    if n = 0 then some [] else (p.des[n - 1]?).map (·.2)

/-- All TREs of some areas, with those in the overflow segments. -/
def allTres (p : Pieces) : List Place → Option (List (Bytes × Bytes))
  | [] => some []
  | x :: xs => do
    let o ← overflowIn p x
    let a ← tres o
    let b ← tres x.data
    let r ← allTres p xs
    some (a ++ b ++ r)

/-- The values of the three fields of an area, against what was found. -/
inductive Shown (d : Desc) (S : Store P.F) (a : Area) : Place → Prop
  | absent (h : getAttr P d S a.len [] = .ok (.int 0)) : Shown d S a ⟨none, []⟩
  | present {o : Int} {t u : Bytes} (hl : getAttr P d S a.len [] = .ok (.int (u.length + 3)))
      (ho : getAttr P d S a.ofl [] = .ok (.int o)) (hd : getAttr P d S a.data [] = .ok (.bytes u))
      (hn : t.length = 3) (ht : Decimal 3 false o (codes t)) : Shown d S a ⟨some t, u⟩

/-! ### Fields of a record that was written -/

/-- A record that was written. -/
structure Rec (d : Desc) (S : Store P.F) (cs : List Chunk) : Prop where
  causal : d.causal = true
  kinds : KindsOk d
  noLit : NoLit S
  written : writeChunks P d S = .ok cs

variable {P} {d : Desc} {S : Store P.F} {cs0 : List Chunk}

theorem Rec.chunk (R : Rec P d S cs0) {ch : Chunk} (hch : ch ∈ cs0) {fi : FInfo}
    (hn : d.tab[ch.pos]? = some fi) : evalCond P (look P d.tab S) fi ch.key = .ok true ∧
      evalSize P (look P d.tab S) fi ch.key = .ok ch.bytes.length ∧
      Spell.Written P d S ch.pos fi ch.key ch.bytes := by
  obtain ⟨h1, h2⟩ := (C87_written P R.kinds).mp R.written
  obtain ⟨fi', g1, g2⟩ := h2 ch hch
  obtain ⟨fi'', k1, k2, k3⟩ := slot_facts P h1 hch
  rw [hn] at g1 k1
  injection g1 with g1
  injection k1 with k1
  subst g1 k1
  exact ⟨k2, k3, g2⟩

theorem Rec.sizes (R : Rec P d S cs0) {cs : List Chunk} (h : ∀ ch ∈ cs, ch ∈ cs0) :
    SizesOk P d.tab S cs := fun ch hch _ hfi => (R.chunk (h ch hch) hfi).2.1

/-- What a plain field of a type shows. -/
theorem item_shape {n : Nat} {fi : FInfo} {key : Key} {v : Val P.F} (hn : d.tab[n]? = some fi)
    (hk : fi.fd.kind = .plain) (hnm : fi.fd.name ≠ none) (ho : fi.fd.optional = false)
    (hc : evalCond P (look P d.tab S) fi key = .ok true) (hg : getItem P d.tab S n key = .ok v) :
    ∃ y, coerce P fi.fd y = .ok v := by
  rw [getItem_eq P _ hn] at hg
  unfold getWith at hg
  cases hl : lowGet P (look P d.tab S) S fi n key with
  | error e => rw [hl] at hg; cases hg
  | ok w =>
    rw [hl, hk] at hg
    injection hg with hg
    subst hg
    obtain ⟨s, h1, _⟩ := lowGet_finish P hnm hc hl
    rcases finish_shape P h1 with ⟨_, h⟩ | h
    · rw [ho] at h; cases h
    · exact h

/-- A field of the kind the headers have: plain, named, not optional, no format. -/
def usual (fi : FInfo) : Bool :=
  fi.fd.kind == .plain && fi.fd.name.isSome && !fi.fd.optional && fi.fd.frmt == none

theorem usual_spec {fi : FInfo} (h : usual fi = true) : fi.fd.kind = .plain ∧ fi.fd.name ≠ none ∧
    fi.fd.optional = false ∧ fi.fd.frmt = none := by
  simp only [usual, Bool.and_eq_true, beq_iff_eq, Bool.not_eq_true'] at h
  obtain ⟨⟨⟨h1, h2⟩, h3⟩, h4⟩ := h
  refine ⟨h1, fun h => ?_, h3, h4⟩
  rw [h] at h2
  cases h2

theorem Rec.int (R : Rec P d S cs0) {ch : Chunk} (hch : ch ∈ cs0) {fi : FInfo}
    (hn : d.tab[ch.pos]? = some fi) (hu : usual fi = true) (ht : fi.fd.ty = .int) :
    ∃ z : Int, getItem P d.tab S ch.pos ch.key = .ok (.int z) ∧
      Decimal ch.bytes.length false z (codes ch.bytes) := by
  obtain ⟨u1, u2, u3, u4⟩ := usual_spec hu
  obtain ⟨h1, _, h3⟩ := R.chunk hch hn
  obtain ⟨x, hx⟩ := NoLit.stored R.noLit fi.fd ch.pos ch.key
  cases h3 with
  | literal hs _ => rw [hs] at hx; cases hx
  | data _ hk _ => exact absurd u1 hk
  | plain hs _ hv h =>
    obtain ⟨y, hy⟩ := item_shape hn u1 u2 u3 h1 hv
    have := coerce_shape P hy
    rw [ht] at this
    cases h with
    | fill ho _ _ => rw [u3] at ho; cases ho
    | zd _ hf _ _ _ => rw [u4] at hf; cases hf
    | pd _ hf _ _ _ => rw [u4] at hf; cases hf
    | other _ hf _ _ _ => rw [u4] at hf; cases hf
    | int _ _ hz hd =>
      cases hz with
      | int => exact ⟨_, hv, hd⟩
      | flt _ => exact absurd this (by simp)
    | flt ht' => rw [ht] at ht'; cases ht'
    | str ht' => rw [ht] at ht'; cases ht'
    | bytes ht' => rw [ht] at ht'; cases ht'

theorem Rec.str (R : Rec P d S cs0) {ch : Chunk} (hch : ch ∈ cs0) {fi : FInfo}
    (hn : d.tab[ch.pos]? = some fi) (hu : usual fi = true) (ht : fi.fd.ty = .str) :
    ∃ (s : Str) (k : Nat), getItem P d.tab S ch.pos ch.key = .ok (.str s) ∧ rstripU s = s ∧
      codes ch.bytes = s.map Char.toNat ++ List.replicate k 32 := by
  obtain ⟨u1, u2, u3, u4⟩ := usual_spec hu
  obtain ⟨h1, _, h3⟩ := R.chunk hch hn
  obtain ⟨x, hx⟩ := NoLit.stored R.noLit fi.fd ch.pos ch.key
  cases h3 with
  | literal hs _ => rw [hs] at hx; cases hx
  | data _ hk _ => exact absurd u1 hk
  | plain hs _ hv h =>
    obtain ⟨y, hy⟩ := item_shape hn u1 u2 u3 h1 hv
    have := coerce_shape P hy
    rw [ht] at this
    cases h with
    | fill ho _ _ => rw [u3] at ho; cases ho
    | zd _ hf _ _ _ => rw [u4] at hf; cases hf
    | pd _ hf _ _ _ => rw [u4] at hf; cases hf
    | other _ hf _ _ _ => rw [u4] at hf; cases hf
    | int ht' => rw [ht] at ht'; cases ht'
    | flt ht' => rw [ht] at ht'; cases ht'
    | str _ _ h =>
      obtain ⟨k, hk, _⟩ := h
      exact ⟨_, k, hv, this, hk⟩
    | bytes ht' => rw [ht] at ht'; cases ht'

theorem digital_of {t : Bytes} {z : Int} (h : Decimal t.length false z (codes t)) (hz : 0 ≤ z) :
    Digital t.length z.toNat t := by
  obtain ⟨ds, e1, _, e3, e4, _⟩ := h
  rw [show sign false z = [] by unfold sign; rw [if_neg (by omega)]; rfl, List.nil_append] at e1
  subst e1
  exact ⟨rfl, e3, by rw [e4]; omega⟩

/-- A single digit has no sign. -/
theorem one_digit {t : Bytes} {z : Int} (h : Decimal t.length false z (codes t)) (hl : t.length = 1) : 0 ≤ z := by
  obtain ⟨ds, e1, e2, _, _, _⟩ := h
  rcases Int.lt_or_le z 0 with hz | hz
  · exfalso
    have := congrArg List.length e1
    rw [codes_length, hl] at this
    simp only [sign, hz, if_true, List.length_append, List.length_cons, List.length_nil] at this
    have : ds = [] := List.eq_nil_of_length_eq_zero (by omega)
    exact e2 this
  · exact hz

/-- A field seen from an expression. -/
theorem Rec.look (R : Rec P d S cs0) {nm : Name} {n : Nat} {fi : FInfo} {key : Key} {v : Val P.F}
    (hr : resolve d.tab nm = some n) (hn : d.tab[n]? = some fi) (hk : fi.depth = 0 ↔ key = [])
    (hg : getItem P d.tab S n key = .ok v) : Verif.look P d.tab S nm key = .ok v :=
  (look_iff P R.causal S nm key v).mpr ⟨n, fi, hr, hn, hk, hg⟩

theorem getAttr_of {nm : Name} {n : Nat} {key : Key} {v : Val P.F} (hr : resolve d.tab nm = some n)
    (hg : getItem P d.tab S n key = .ok v) : getAttr P d S nm key = .ok v := by
  unfold getAttr
  rw [hr]
  exact hg

theorem writeD_if {T : Tab} {n : Nat} {key : Key} {fd : FieldDef} {r : Desc} {cs : List Chunk} {fi : FInfo}
    (hT : T[n]? = some fi) {c : Bool} (hc : evalCond P (look P T S) fi key = .ok c)
    (h : writeD P T S n key (.field fd r) = .ok cs) :
    if c then ∃ b cs', cs = ⟨n, key, b⟩ :: cs' ∧ writeD P T S (n + 1) key r = .ok cs'
    else writeD P T S (n + 1) key r = .ok cs := by
  unfold writeD at h
  rw [hT] at h
  simp only [hc] at h
  cases c with
  | false => exact h
  | true =>
    simp only [if_true]
    dsimp only at h
    cases hb : fieldBytes P (look P T S) S fi n key with
    | error e => rw [hb] at h; cases h
    | ok b =>
      rw [hb] at h
      cases hr : writeD P T S (n + 1) key r with
      | error e => rw [hr] at h; cases h
      | ok cs' =>
        rw [hr] at h
        injection h with h
        exact ⟨b, cs', h.symm, rfl⟩

/-! ### Areas -/

/-- The three fields of an area, as the headers have them. -/
def areaOk (d : Desc) (a : Area) (n : Nat) : Bool :=
  areaOkB d.tab a ⟨n, n + 1, n + 2⟩ &&
  (match d.tab[n]?, d.tab[n + 1]? with
    | some f, some g => usual f && f.fd.size == .const 5 && f.fd.sizeOffset == 0 &&
        usual g && g.fd.size == .const 3 && g.fd.sizeOffset == 0
    | _, _ => false)

theorem Rec.area (R : Rec P d S cs0) {a : Area} {n : Nat} (ha : areaOk d a n = true) {f1 f2 f3 : FieldDef}
    {r : Desc} {cs : List Chunk} (hsub : ∀ ch ∈ cs, ch ∈ cs0)
    (h : writeD P d.tab S n [] (.field f1 (.field f2 (.field f3 r))) = .ok cs) :
    ∃ t x cs', chunkBytes cs = t ++ chunkBytes cs' ∧ (∀ u, Finds.area (t ++ u) = some (x, u)) ∧
      Shown P d S a x ∧ (∀ ch ∈ cs', ch ∈ cs0) ∧ writeD P d.tab S (n + 3) [] r = .ok cs' := by
  unfold areaOk at ha
  rw [Bool.and_eq_true] at ha
  obtain ⟨ha1, ha2⟩ := ha
  have A := areaAt_of_ok ha1
  obtain ⟨fm, m1, m2, m3, m4, m5⟩ := A.flen
  obtain ⟨fo, o1, o2, o3, o4, o5⟩ := A.fofl
  obtain ⟨fn, n1, n2, n3, n4, n5, n6, n7, _⟩ := A.fdata
  dsimp only at m1 o1 n1
  rw [m1, o1] at ha2
  simp only [Bool.and_eq_true, beq_iff_eq] at ha2
  obtain ⟨⟨⟨⟨⟨v1, v2⟩, v3⟩, v4⟩, v5⟩, v6⟩ := ha2
  obtain ⟨b1, c1, rfl, h2⟩ := writeD_field P m1 m5 h
  have hb1 : (⟨n, [], b1⟩ : Chunk) ∈ cs0 := hsub _ (by simp)
  obtain ⟨z, hz, hdec⟩ := R.int hb1 m1 v1 m4
  have len1 : b1.length = 5 := by
    have := (R.chunk hb1 m1).2.1
    simp only [evalSize, v2, v3] at this
    injection this with this
    split at this <;> omega
  have hlook := R.look A.rlen m1 (by simp [m2.depth]) hz
  have hlen := getAttr_of A.rlen hz
  have hcond : evalCond P (Verif.look P d.tab S) fo [] = .ok (decide (z ≠ 0)) := by
    simp only [evalCond, o5, evalE, idxKey, bind, Except.bind, hlook, pure, Except.pure, Except.map, CVal.toVal]
    by_cases hz0 : z = 0
    · subst hz0
      simp [pyEq, bval, truthy]
    · simp [pyEq, bval, truthy, hz0]
  have h3 := writeD_if o1 hcond h2
  have hdat : ∀ {b3 : Bytes}, (⟨n + 2, [], b3⟩ : Chunk) ∈ cs0 →
      (z = 0 → b3 = []) ∧ (z ≠ 0 → z = b3.length + 3) ∧ getAttr P d S a.data [] = .ok (.bytes b3) := by
    intro b3 hb3
    obtain ⟨k1, k2, k3⟩ := R.chunk hb3 n1
    simp only [evalSize, n6, n7, evalE, idxKey, bind, Except.bind, hlook, asInt] at k2
    injection k2 with k2
    refine ⟨fun h0 => ?_, fun h0 => ?_, ?_⟩
    · subst h0
      simp only [ne_eq, not_true_eq_false, if_false] at k2
      exact List.eq_nil_of_length_eq_zero (by omega)
    · rw [if_pos h0] at k2
      omega
    · obtain ⟨x, hx⟩ := NoLit.stored R.noLit fn.fd (n + 2) []
      cases k3 with
      | literal hs _ => rw [hs] at hx; cases hx
      | plain _ hk _ _ => rw [n3] at hk; cases hk
      | data _ _ hv =>
        refine getAttr_of A.rdata ?_
        rw [getItem_eq P _ n1]
        unfold getWith
        dsimp only at hv
        rw [hv]
        simp only [n3, unpackKind]
  by_cases hz0 : z = 0
  · subst hz0
    simp only [ne_eq, not_true_eq_false, decide_false, Bool.false_eq_true, if_false] at h3
    obtain ⟨b3, c3, rfl, h4⟩ := writeD_field P n1 n5 h3
    have hb3 : (⟨n + 2, [], b3⟩ : Chunk) ∈ cs0 := hsub _ (by simp)
    obtain ⟨e1, _, _⟩ := hdat hb3
    have e1 := e1 rfl
    subst e1
    refine ⟨b1, ⟨none, []⟩, c3, by simp [chunkBytes], ?_, .absent hlen, fun ch hch => hsub ch (by simp [hch]), h4⟩
    intro u
    unfold Finds.area
    have := digital_of hdec (by omega)
    dsimp only at this
    rw [len1] at this
    rw [number_append this]
    simp
  · rw [decide_eq_true hz0] at h3
    obtain ⟨b2, c2, rfl, h4⟩ := h3
    obtain ⟨b3, c3, rfl, h5⟩ := writeD_field P n1 n5 h4
    have hb2 : (⟨n + 1, [], b2⟩ : Chunk) ∈ cs0 := hsub _ (by simp)
    have hb3 : (⟨n + 2, [], b3⟩ : Chunk) ∈ cs0 := hsub _ (by simp)
    obtain ⟨_, e2, e3⟩ := hdat hb3
    have e2 := e2 hz0
    obtain ⟨o, ho, hodec⟩ := R.int hb2 o1 v4 o4
    have len2 : b2.length = 3 := by
      have := (R.chunk hb2 o1).2.1
      simp only [evalSize, v5, v6] at this
      injection this with this
      split at this <;> omega
    dsimp only at hodec ho
    rw [len2] at hodec
    refine ⟨b1 ++ (b2 ++ b3), ⟨some b2, b3⟩, c3, by simp [chunkBytes], ?_,
      .present (by rw [hlen, e2]) (getAttr_of A.rofl ho) e3 len2 hodec, fun ch hch => hsub ch (by simp [hch]), h5⟩
    intro u
    unfold Finds.area
    have := digital_of hdec (by omega)
    dsimp only at this
    rw [len1] at this
    simp only [List.append_assoc]
    rw [number_append this]
    simp only [Option.bind_eq_bind, Option.bind_some]
    rw [if_neg (by omega), next_append len2]
    simp only [Option.bind_some]
    rw [next_append (by omega)]
    simp only [Option.bind_some]
    rw [if_pos (by omega)]

/-! ### Fields and loops in order -/

theorem Rec.front (R : Rec P d S cs0) {m n w : Nat} {key : Key} {e r : Desc} {cs : List Chunk}
    (hd : dropF m e = some r) (hw : width d.tab n m = some w) (hsub : ∀ ch ∈ cs, ch ∈ cs0)
    (h : writeD P d.tab S n key e = .ok cs) :
    ∃ t cs', chunkBytes cs = t ++ chunkBytes cs' ∧ t.length = w ∧ (∀ ch ∈ cs', ch ∈ cs0) ∧
      writeD P d.tab S (n + m) key r = .ok cs' := by
  obtain ⟨a, b, rfl, h2, h3⟩ := writeD_front P hd hw (R.sizes hsub) h
  exact ⟨chunkBytes a, b, chunkBytes_append' a b, h2, fun ch hch => hsub ch (by simp [hch]), h3⟩

/-- A number of `w` digits. -/
def intAt (d : Desc) (n w : Nat) : Bool :=
  match d.tab[n]? with
  | some f => usual f && f.fd.ty == .int && f.fd.size == .const w && f.fd.sizeOffset == 0
  | none => false

/-- A text of `w` bytes. -/
def strAt (d : Desc) (n w : Nat) : Bool :=
  match d.tab[n]? with
  | some f => usual f && f.fd.ty == .str && f.fd.size == .const w && f.fd.sizeOffset == 0
  | none => false

/-- The condition, the depth. -/
def condAt (d : Desc) (n : Nat) (c : Option Expr) (k : Nat) : Bool :=
  match d.tab[n]? with
  | some f => decide (f.fd.cond = c) && f.depth == k
  | none => false

theorem condAt_spec {n : Nat} {c : Option Expr} {k : Nat} (h : condAt d n c k = true) :
    ∃ fi, d.tab[n]? = some fi ∧ fi.fd.cond = c ∧ fi.depth = k := by
  unfold condAt at h
  cases hT : d.tab[n]? with
  | none => rw [hT] at h; cases h
  | some fi =>
    rw [hT] at h
    simp only [Bool.and_eq_true, beq_iff_eq, decide_eq_true_eq] at h
    exact ⟨fi, rfl, h.1, h.2⟩

theorem Rec.width1 (R : Rec P d S cs0) {ch : Chunk} (hch : ch ∈ cs0) {fi : FInfo} {w : Nat}
    (hn : d.tab[ch.pos]? = some fi) (hz : fi.fd.size = .const w) (ho : fi.fd.sizeOffset = 0) :
    ch.bytes.length = w := by
  have := (R.chunk hch hn).2.1
  simp only [evalSize, hz, ho] at this
  injection this with this
  split at this <;> omega

theorem Rec.intAt (R : Rec P d S cs0) {n w : Nat} {key : Key} {b : Bytes} (hi : intAt d n w = true)
    (hb : (⟨n, key, b⟩ : Chunk) ∈ cs0) : ∃ z : Int, getItem P d.tab S n key = .ok (.int z) ∧
      Decimal w false z (codes b) ∧ b.length = w := by
  unfold Finds.intAt at hi
  cases hT : d.tab[n]? with
  | none => rw [hT] at hi; cases hi
  | some fi =>
    rw [hT] at hi
    simp only [Bool.and_eq_true, beq_iff_eq] at hi
    obtain ⟨⟨⟨h1, h2⟩, h3⟩, h4⟩ := hi
    obtain ⟨z, hz, hd⟩ := R.int hb hT h1 h2
    have hl := R.width1 hb hT h3 h4
    dsimp only at hd hl
    rw [hl] at hd
    exact ⟨z, hz, hd, hl⟩

theorem Rec.strAt (R : Rec P d S cs0) {n w : Nat} {key : Key} {b : Bytes} (hi : strAt d n w = true)
    (hb : (⟨n, key, b⟩ : Chunk) ∈ cs0) : ∃ (s : Str) (k : Nat), getItem P d.tab S n key = .ok (.str s) ∧
      rstripU s = s ∧ codes b = s.map Char.toNat ++ List.replicate k 32 ∧ b.length = w := by
  unfold Finds.strAt at hi
  cases hT : d.tab[n]? with
  | none => rw [hT] at hi; cases hi
  | some fi =>
    rw [hT] at hi
    simp only [Bool.and_eq_true, beq_iff_eq] at hi
    obtain ⟨⟨⟨h1, h2⟩, h3⟩, h4⟩ := hi
    obtain ⟨s, k, g1, g2, g3⟩ := R.str hb hT h1 h2
    exact ⟨s, k, g1, g2, g3, R.width1 hb hT h3 h4⟩

theorem digital_at {t : Bytes} {w : Nat} {z : Int} (h : Decimal w false z (codes t)) (hl : t.length = w)
    (hz : 0 ≤ z) : Digital w z.toNat t := by
  subst hl
  exact digital_of h hz

/-- A field that is always there. -/
theorem Rec.always {n k : Nat} {key : Key} {fd : FieldDef} {r : Desc} {cs : List Chunk}
    (hc : condAt d n none k = true) (hsub : ∀ ch ∈ cs, ch ∈ cs0)
    (h : writeD P d.tab S n key (.field fd r) = .ok cs) :
    ∃ b cs', chunkBytes cs = b ++ chunkBytes cs' ∧ (⟨n, key, b⟩ : Chunk) ∈ cs0 ∧ (∀ ch ∈ cs', ch ∈ cs0) ∧
      writeD P d.tab S (n + 1) key r = .ok cs' := by
  obtain ⟨fi, h1, h2, _⟩ := condAt_spec hc
  obtain ⟨b, cs', rfl, h4⟩ := writeD_field P h1 h2 h
  exact ⟨b, cs', rfl, hsub _ (by simp), fun ch hch => hsub ch (by simp [hch]), h4⟩

/-- A field that is there on a condition. -/
theorem Rec.cond {n k : Nat} {key : Key} {fd : FieldDef} {r : Desc} {cs : List Chunk} {e : Expr}
    (hc : condAt d n (some e) k = true) {v : Val P.F} (he : evalE P (Verif.look P d.tab S) key e = .ok v)
    (hsub : ∀ ch ∈ cs, ch ∈ cs0) (h : writeD P d.tab S n key (.field fd r) = .ok cs) :
    ∃ cs', (∀ ch ∈ cs', ch ∈ cs0) ∧ writeD P d.tab S (n + 1) key r = .ok cs' ∧
      ((truthy P v = false ∧ chunkBytes cs = chunkBytes cs') ∨
        truthy P v = true ∧ ∃ b, chunkBytes cs = b ++ chunkBytes cs' ∧ (⟨n, key, b⟩ : Chunk) ∈ cs0) := by
  obtain ⟨fi, h1, h2, _⟩ := condAt_spec hc
  have hcond : evalCond P (Verif.look P d.tab S) fi key = .ok (truthy P v) := by
    simp only [evalCond, h2, he, Except.map]
  have h3 := writeD_if h1 hcond h
  cases ht : truthy P v with
  | false =>
    rw [ht] at h3
    exact ⟨cs, hsub, h3, .inl ⟨rfl, rfl⟩⟩
  | true =>
    rw [ht] at h3
    obtain ⟨b, cs', rfl, h4⟩ := h3
    exact ⟨cs', fun ch hch => hsub ch (by simp [hch]), h4, .inr ⟨rfl, b, rfl, hsub _ (by simp)⟩⟩

theorem writeD_loop {T : Tab} {n : Nat} {key : Key} {e : Expr} {body r : Desc} {cs : List Chunk}
    (h : writeD P T S n key (.loop e body r) = .ok cs) : ∃ c a b, evalShape P (look P T S) e key = .ok c ∧
      forChunks (fun i => writeD P T S n (key ++ [i]) body) (indices c) = .ok a ∧
      writeD P T S (n + body.count) key r = .ok b ∧ cs = a ++ b := by
  unfold writeD at h
  split at h
  · cases h
  · rename_i c hc
    split at h
    · cases h
    · rename_i a ha
      split at h
      · cases h
      · rename_i b hb
        injection h with h
        exact ⟨c, a, b, hc, ha, hb, h.symm⟩

theorem forChunks_width {f : Int → Except Err (List Chunk)} {w : Nat} : ∀ {l : List Int} {cs : List Chunk},
    forChunks f l = .ok cs → (∀ i a, f i = .ok a → (∀ ch ∈ a, ch ∈ cs) → (chunkBytes a).length = w) →
    (chunkBytes cs).length = l.length * w
  | [], cs, h, _ => by
    simp only [forChunks] at h
    injection h with h
    subst h
    simp [chunkBytes]
  | i :: l, cs, h, hw => by
    simp only [forChunks] at h
    split at h
    · cases h
    · rename_i a ha
      split at h
      · cases h
      · rename_i b hb
        injection h with h
        subst h
        have h1 := hw i a ha fun ch hch => by simp [hch]
        have h2 := forChunks_width hb fun i c hc hsub => hw i c hc fun ch hch => by simp [hsub ch hch]
        rw [chunkBytes_append', List.length_append, h1, h2, List.length_cons, Nat.succ_mul]
        omega

theorem indices_length (z : Int) : (indices z).length = z.toNat := by simp [indices]

/-! ### Text, graphic -/

theorem text_front : ∃ f1 f2 f3, dropF 23 Tables.t_text_subheader = some (.field f1 (.field f2 (.field f3 .nil))) ∧
    width Tables.t_text_subheader.tab 0 23 = some 277 := ⟨_, _, _, rfl, by decide +kernel⟩

theorem graphic_front : ∃ f1 f2 f3,
    dropF 29 Tables.t_graphic_subheader = some (.field f1 (.field f2 (.field f3 .nil))) ∧
    width Tables.t_graphic_subheader.tab 0 29 = some 253 := ⟨_, _, _, rfl, by decide +kernel⟩

theorem writeD_nil {T : Tab} {n : Nat} {key : Key} {cs : List Chunk} (h : writeD P T S n key .nil = .ok cs) :
    chunkBytes cs = [] := by
  simp only [writeD] at h
  injection h with h
  subst h
  rfl

/-- The area of a text subheader, and of a graphic subheader. -/
def textArea : Area := ⟨n!"txshdl", n!"txsofl", n!"txshd"⟩
def graphicArea : Area := ⟨n!"sxshdl", n!"sxofl", n!"sxshd"⟩
def udArea : Area := ⟨n!"udidl", n!"udofl", n!"udid"⟩
def ixArea : Area := ⟨n!"ixshdl", n!"ixofl", n!"ixshd"⟩
def udhArea : Area := ⟨n!"udhdl", n!"udhofl", n!"udhd"⟩
def xhArea : Area := ⟨n!"xhdl", n!"xhdlofl", n!"xhd"⟩

theorem rec_of {nm : String} (ht : (nm, d) ∈ Tables.all) (hl : NoLit S) (hw : writeChunks P d S = .ok cs0) :
    Rec P d S cs0 := ⟨tables_causal _ ht, kindsOk_shipped ht, hl, hw⟩

theorem text_mem : ("NitfTextSubheader", Tables.t_text_subheader) ∈ Tables.all := by
  simp [Tables.all, Tables.others]
theorem graphic_mem : ("NitfGraphicSubheader", Tables.t_graphic_subheader) ∈ Tables.all := by
  simp [Tables.all, Tables.others]
theorem image_mem : ("NitfImageSubheader", Tables.t_image_subheader) ∈ Tables.all := by
  simp [Tables.all, Tables.others]
theorem file_mem : ("NitfFileHeader", Tables.t_file_header) ∈ Tables.all := by
  simp [Tables.all, Tables.others]

/-- C89: the area of a text subheader that was written is found, with what the header shows. -/
theorem C89_text {b : Bytes} (hl : NoLit S) (hw : writeStruct P Tables.t_text_subheader S = .ok b) :
    ∃ x, textHeader b = some x ∧ Shown P Tables.t_text_subheader S textArea x := by
  obtain ⟨cs, hc, rfl⟩ := writeStruct_chunks P hw
  replace hw := hc
  have R := rec_of text_mem hl hw
  obtain ⟨f1, f2, f3, h1, h2⟩ := text_front
  obtain ⟨t, c1, e1, e2, e3, e4⟩ := R.front h1 h2 (fun ch h => h) hw
  obtain ⟨u, x, c2, g1, g2, g3, _, g5⟩ := R.area (a := textArea) (n := 23) (by decide +kernel) e3 e4
  refine ⟨x, ?_, g3⟩
  unfold textHeader
  rw [e1, next_append e2]
  simp only [Option.bind_eq_bind, Option.bind_some]
  rw [g1, g2]
  simp only [Option.bind_some]
  rw [if_pos (writeD_nil g5)]

/-- C89: the area of a graphic subheader. -/
theorem C89_graphic {b : Bytes} (hl : NoLit S) (hw : writeStruct P Tables.t_graphic_subheader S = .ok b) :
    ∃ x, graphicHeader b = some x ∧ Shown P Tables.t_graphic_subheader S graphicArea x := by
  obtain ⟨cs, hc, rfl⟩ := writeStruct_chunks P hw
  replace hw := hc
  have R := rec_of graphic_mem hl hw
  obtain ⟨f1, f2, f3, h1, h2⟩ := graphic_front
  obtain ⟨t, c1, e1, e2, e3, e4⟩ := R.front h1 h2 (fun ch h => h) hw
  obtain ⟨u, x, c2, g1, g2, g3, _, g5⟩ := R.area (a := graphicArea) (n := 29) (by decide +kernel) e3 e4
  refine ⟨x, ?_, g3⟩
  unfold graphicHeader
  rw [e1, next_append e2]
  simp only [Option.bind_eq_bind, Option.bind_some]
  rw [g1, g2]
  simp only [Option.bind_some]
  rw [if_pos (writeD_nil g5)]

variable (E : Env) (IO : DataIO P.F)

/-- C89: the two areas of the header of a file that was written. -/
theorem C89_file {f f' : NFile P.F IO.D} {out : Bytes} (h : writeFile P E IO f = .ok (f', out))
    (hlit : NoLit f.header) (hlink : ∀ k, ∀ s ∈ f.segs k, s.linked = true) :
    ∃ p x y, pieces out = some p ∧ fileHeader p.header = some (x, y) ∧
      Shown P Tables.t_file_header f'.header udhArea x ∧ Shown P Tables.t_file_header f'.header xhArea y := by
  obtain ⟨p, _, h1, h2, _⟩ := C88_pieces P E IO h hlit hlink
  obtain ⟨r⟩ := writeFile_run P E IO h
  obtain ⟨cs, hw, hcs⟩ := writeStruct_chunks P h2
  have : cs = r.cs' := by
    have := r.chunks'
    rw [hw] at this
    injection this
  subst this
  have R := rec_of file_mem (r.h0_noLit P E IO hlit) hw
  obtain ⟨_, _, _, _, _, _, b8, g1, g2, g3⟩ := header_lens P E IO r hlit hlink []
  simp only [List.append_nil] at g1
  obtain ⟨u, x, c2, k1, k2, k3, k4, k5⟩ := R.area (a := udhArea) (n := 47) (by decide +kernel) g2 g3
  obtain ⟨u', y, c3, l1, l2, l3, _, l5⟩ := R.area (a := xhArea) (n := 50) (by decide +kernel) k4 k5
  refine ⟨p, x, y, h1, ?_, k3, l3⟩
  unfold fileHeader
  rw [hcs, g1]
  simp only [Option.bind_eq_bind, Option.bind_some]
  rw [k1, k2]
  simp only [Option.bind_some]
  rw [l1, l2]
  simp only [Option.bind_some]
  rw [if_pos (writeD_nil l5)]

/-! ### Image -/

def bandBody (b1 b2 b3 b4 b5 b6 b7 : FieldDef) : Desc :=
  .field b1 (.field b2 (.field b3 (.field b4 (.field b5 (.field b6
    (.loop (.ref (n!"nluts") [0]) (.field b7 .nil) .nil))))))

def bandsE : Expr := .ite (.gt (.ref (n!"nbands") []) (.const (.int 0))) (.ref (n!"nbands") []) (.ref (n!"xbands") [])

theorem image_shape : ∃ f1 f2 f3 f4 f5 f6 f7 f8 b1 b2 b3 b4 b5 b6 b7 d2 x1 x2 x3 x4 x5 x6,
    dropF 30 Tables.t_image_subheader = some (.field f1 (.field f2 (.field f3 (.loop (.ref (n!"nicom") [])
      (.field f4 .nil) (.field f5 (.field f6 (.field f7 (.field f8
      (.loop bandsE (bandBody b1 b2 b3 b4 b5 b6 b7) d2))))))))) ∧
    dropF 11 d2 = some (.field x1 (.field x2 (.field x3 (.field x4 (.field x5 (.field x6 .nil)))))) :=
  ⟨_, _, _, _, _, _, _, _, _, _, _, _, _, _, _, _, _, _, _, _, _, _, rfl, rfl⟩

theorem forChunks_some {f : Int → Except Err (List Chunk)} {l : List Int} {cs : List Chunk}
    (h : forChunks f l = .ok cs) (hl : l ≠ []) : ∃ i a, f i = .ok a ∧ ∀ ch ∈ a, ch ∈ cs := by
  cases l with
  | nil => exact absurd rfl hl
  | cons i l =>
    simp only [forChunks] at h
    split at h
    · cases h
    · rename_i a ha
      split at h
      · cases h
      · injection h with h
        subst h
        exact ⟨i, a, ha, fun ch hch => by simp [hch]⟩

theorem bands_succ (n : Nat) (b : Bytes) : Finds.bands (n + 1) b = (do
    let (_, b) ← next 12 b
    let (m, b) ← number 1 b
    if m = 0 then Finds.bands n b
    else do
      let (k, b) ← number 5 b
      let (_, b) ← next (m * k) b
      Finds.bands n b) := rfl

/-- One band. -/
theorem Rec.band (R : Rec P Tables.t_image_subheader S cs0) {b1 b2 b3 b4 b5 b6 b7 : FieldDef} {i : Int}
    {cs : List Chunk} (hsub : ∀ ch ∈ cs, ch ∈ cs0)
    (h : writeD P Tables.t_image_subheader.tab S 38 [i] (bandBody b1 b2 b3 b4 b5 b6 b7) = .ok cs) (n : Nat) (u : Bytes) :
    Finds.bands (n + 1) (chunkBytes cs ++ u) = Finds.bands n u := by
  obtain ⟨t, c1, e1, e2, e3, e4⟩ := R.front (m := 4) (w := 12) rfl (by decide +kernel) hsub h
  obtain ⟨b, c2, g1, g2, g3, g4⟩ := Rec.always (n := 42) (k := 1) (by decide +kernel) e3 e4
  obtain ⟨z, z1, z2, z3⟩ := R.intAt (w := 1) (by decide +kernel) g2
  have z0 : 0 ≤ z := one_digit (by rw [z3]; exact z2) z3
  obtain ⟨fi, hfi, _, hdep⟩ := condAt_spec (d := Tables.t_image_subheader) (n := 42) (c := none) (k := 1) (by decide +kernel)
  have hlook := R.look (nm := n!"nluts") (by decide +kernel) hfi (by simp [hdep]) z1
  have hev : ∀ j, evalE P (Verif.look P Tables.t_image_subheader.tab S) (i :: j) (.ref (n!"nluts") [0]) = .ok (.int z) := by
    intro j
    simp only [evalE, idxKey, bind, Except.bind, List.getElem?_cons_zero]
    exact hlook
  obtain ⟨c3, k1, k2, k3⟩ := Rec.cond (n := 43) (k := 1) (e := .ne (.ref (n!"nluts") [0]) (.const (.int 0)))
    (v := bval (!pyEq P (.int z) (.int 0))) (by decide +kernel) (by
      simp only [evalE, idxKey, bind, Except.bind, List.getElem?_cons_zero, hlook, pure, Except.pure, CVal.toVal]) g3 g4
  obtain ⟨c, a, b', l1, l2, l3, l4⟩ := writeD_loop k2
  have hc : c = z := by
    unfold evalShape at l1
    rw [hev] at l1
    injection l1 with l1
    exact l1.symm
  subst hc
  have hb' : chunkBytes b' = [] := writeD_nil l3
  rw [bands_succ, e1, List.append_assoc, next_append e2]
  simp only [Option.bind_eq_bind, Option.bind_some]
  rw [g1, List.append_assoc, number_append (digital_at z2 z3 z0)]
  simp only [Option.bind_some]
  rcases k3 with ⟨t1, t2⟩ | ⟨t1, bb, t2, t3⟩
  · have hz : c = 0 := by
      by_cases hz : c = 0
      · exact hz
      · simp [truthy, bval, pyEq, hz] at t1
    subst hz
    have ha : a = [] := by
      simp only [indices, Int.toNat_zero, List.range_zero, List.map_nil, forChunks] at l2
      injection l2 with l2
      exact l2.symm
    rw [if_pos (by rfl), t2, l4, ha, List.nil_append, hb']
    rfl
  · have hz : c ≠ 0 := by
      rintro rfl
      simp [truthy, bval, pyEq] at t1
    obtain ⟨k, y1, y2, y3⟩ := R.intAt (n := 43) (w := 5) (by decide +kernel) t3
    obtain ⟨fi', hfi', _, hdep'⟩ := condAt_spec (d := Tables.t_image_subheader) (n := 43)
      (c := some (.ne (.ref (n!"nluts") [0]) (.const (.int 0)))) (k := 1) (by decide +kernel)
    have hlook' := R.look (nm := n!"nelut") (by decide +kernel) hfi' (by simp [hdep']) y1
    have hone : ∀ (j : Int) (x : List Chunk), writeD P Tables.t_image_subheader.tab S 44 ([i] ++ [j]) (.field b7 .nil) = .ok x →
        (∀ ch ∈ x, ch ∈ a) → ((chunkBytes x).length : Int) = k := by
      intro j x hx hsx
      obtain ⟨bj, cj, q1, q2, _, q4⟩ := Rec.always (cs0 := cs0) (n := 44) (k := 2) (by decide +kernel)
        (fun ch hch => k1 ch (by rw [l4]; simp [hsx ch hch])) hx
      have hcj := writeD_nil q4
      obtain ⟨fj, hfj, hs1, hs2⟩ : ∃ fj, Tables.t_image_subheader.tab[44]? = some fj ∧
          fj.fd.size = .expr (.ref (n!"nelut") [0]) ∧ fj.fd.sizeOffset = 0 := ⟨_, rfl, rfl, rfl⟩
      have := (R.chunk q2 hfj).2.1
      simp only [evalSize, hs1, hs2, evalE, idxKey, bind, Except.bind,
        List.cons_append, List.nil_append, List.getElem?_cons_zero, hlook', asInt] at this
      injection this with this
      rw [q1, hcj, List.append_nil]
      split at this <;> omega
    have hk : 0 ≤ k := by
      obtain ⟨j, x, hx, hsx⟩ := forChunks_some l2 (by
        intro h0
        have := congrArg List.length h0
        rw [indices_length] at this
        simp at this
        omega)
      have := hone j x hx hsx
      omega
    have hwid := forChunks_width (w := k.toNat) l2 fun j x hx hsx => by
      have := hone j x hx hsx
      omega
    rw [indices_length] at hwid
    rw [if_neg (by omega), t2, List.append_assoc, number_append (digital_at y2 y3 hk)]
    simp only [Option.bind_some]
    rw [l4, chunkBytes_append', hb', List.append_nil, next_append hwid]
    rfl

theorem Rec.bands (R : Rec P Tables.t_image_subheader S cs0) {b1 b2 b3 b4 b5 b6 b7 : FieldDef} (u : Bytes) :
    ∀ {l : List Int} {cs : List Chunk}, (∀ ch ∈ cs, ch ∈ cs0) →
    forChunks (fun i => writeD P Tables.t_image_subheader.tab S 38 ([] ++ [i]) (bandBody b1 b2 b3 b4 b5 b6 b7)) l =
      .ok cs → Finds.bands l.length (chunkBytes cs ++ u) = some u
  | [], cs, _, h => by
    simp only [forChunks] at h
    injection h with h
    subst h
    rfl
  | i :: l, cs, hsub, h => by
    simp only [forChunks] at h
    split at h
    · cases h
    · rename_i a ha
      split at h
      · cases h
      · rename_i b hb
        injection h with h
        subst h
        rw [chunkBytes_append', List.append_assoc, List.length_cons,
          R.band (fun ch hch => hsub ch (by simp [hch])) ha]
        exact R.bands u (fun ch hch => hsub ch (by simp [hch])) hb

theorem codes_inj {a b : Bytes} (h : codes a = codes b) : a = b := by
  unfold codes at h
  induction a generalizing b with
  | nil => cases b with
    | nil => rfl
    | cons => simp at h
  | cons x a ih =>
    cases b with
    | nil => simp at h
    | cons y b =>
      simp only [List.map_cons, List.cons.injEq] at h
      rw [ih h.2, UInt8.toNat_inj.mp h.1]

/-- A text of one byte is empty if and only if the byte is a blank. -/
theorem blank_iff {s : Str} {k : Nat} {b : Bytes} (hs : rstripU s = s)
    (hb : codes b = s.map Char.toNat ++ List.replicate k 32) (hl : b.length = 1) : s = [] ↔ b = [32] := by
  have hlen := congrArg List.length hb
  rw [codes_length, hl] at hlen
  simp only [List.length_append, List.length_map, List.length_replicate] at hlen
  constructor
  · rintro rfl
    have : k = 1 := by simp at hlen; omega
    subst this
    exact codes_inj hb
  · rintro rfl
    cases s with
    | nil => rfl
    | cons c s =>
      have h0 : s = [] := List.eq_nil_of_length_eq_zero (by simp at hlen; omega)
      have hk : k = 0 := by simp at hlen; omega
      subst h0 hk
      have hc : [' '].map Char.toNat = [c].map Char.toNat := by simpa [codes] using hb
      have := charMap_inj hc
      rw [← this] at hs
      exact absurd hs (by decide)

/-- A text of two letters. -/
theorem two_iff {s w : Str} {k : Nat} {b : Bytes} (hb : codes b = s.map Char.toNat ++ List.replicate k 32)
    (hl : b.length = 2) (hw : w.length = 2) (hne : (w.map Char.toNat).getLast? ≠ some 32) :
    s = w ↔ codes b = w.map Char.toNat := by
  have hlen := congrArg List.length hb
  rw [codes_length, hl] at hlen
  simp only [List.length_append, List.length_map, List.length_replicate] at hlen
  constructor
  · rintro rfl
    have : k = 0 := by omega
    subst this
    simpa using hb
  · intro h
    rw [hb] at h
    cases k with
    | zero =>
      rw [List.replicate_zero, List.append_nil] at h
      exact charMap_inj h
    | succ k =>
      rw [← h, List.replicate_succ', ← List.append_assoc, List.getLast?_append] at hne
      simp at hne

/-- C89: the two areas of an image subheader, unless its number of bands is negative. -/
theorem C89_image {b : Bytes} (hl : NoLit S) (hw : writeStruct P Tables.t_image_subheader S = .ok b)
    (hx : ∀ z : Int, getAttr P Tables.t_image_subheader S (n!"xbands") [] = .ok (.int z) → 0 ≤ z) :
    ∃ x y, imageHeader b = some (x, y) ∧ Shown P Tables.t_image_subheader S udArea x ∧
      Shown P Tables.t_image_subheader S ixArea y := by
  obtain ⟨cs, hc, rfl⟩ := writeStruct_chunks P hw
  replace hw := hc
  have R := rec_of image_mem hl hw
  obtain ⟨f1, f2, f3, f4, f5, f6, f7, f8, b1, b2, b3, b4, b5, b6, b7, d2, x1, x2, x3, x4, x5, x6, h1, h2⟩ := image_shape
  have flat : ∀ {n : Nat} {nm : Name} {c : Option Expr} {v : Val P.F}, resolve Tables.t_image_subheader.tab nm = some n →
      condAt Tables.t_image_subheader n c 0 = true → getItem P Tables.t_image_subheader.tab S n [] = .ok v →
      Verif.look P Tables.t_image_subheader.tab S nm [] = .ok v := by
    intro n nm c v hr hc hg
    obtain ⟨fi, hfi, _, hdep⟩ := condAt_spec hc
    exact R.look hr hfi (by simp [hdep]) hg
  -- front
  obtain ⟨t0, c0, p1, p2, p3, p4⟩ := R.front (w := 371) h1 (by decide +kernel) (fun ch h => h) hw
  -- coordinates
  obtain ⟨t1, c1, q1, q2, q3, q4⟩ := Rec.always (n := 30) (k := 0) (by decide +kernel) p3 p4
  obtain ⟨s1, k1, s11, s12, s13, s14⟩ := R.strAt (w := 1) (by decide +kernel) q2
  have l1 := flat (nm := n!"icords") (c := none) (by decide +kernel) (by decide +kernel) s11
  obtain ⟨c2, r1, r2, r3⟩ := Rec.cond (n := 31) (k := 0)
    (e := .ne (.rstrip (.ref (n!"icords") [])) (.const (.str "")))
    (v := bval (!pyEq P (.str s1) (.str []))) (by decide +kernel) (by
      simp only [evalE, idxKey, bind, Except.bind, l1, pure, Except.pure, CVal.toVal, s12]
      rfl) q3 q4
  have hgeo : ∃ t, chunkBytes c1 = t ++ chunkBytes c2 ∧ t.length = (if t1 = [32] then 0 else 60) := by
    have hb := blank_iff s12 s13 s14
    rcases r3 with ⟨g1, g2⟩ | ⟨g1, t, g2, g3⟩
    · refine ⟨[], g2, ?_⟩
      have : s1 = [] := by
        by_cases h0 : s1 = []
        · exact h0
        · simp [truthy, bval, pyEq, h0] at g1
      rw [if_pos (hb.mp this)]
      rfl
    · refine ⟨t, g2, ?_⟩
      have : s1 ≠ [] := by
        rintro rfl
        simp [truthy, bval, pyEq] at g1
      rw [if_neg fun h => this (hb.mpr h)]
      obtain ⟨fi, hfi, hs1, hs2⟩ : ∃ fi, Tables.t_image_subheader.tab[31]? = some fi ∧ fi.fd.size = .const 60 ∧
        fi.fd.sizeOffset = 0 := ⟨_, rfl, rfl, rfl⟩
      exact R.width1 g3 hfi hs1 hs2
  obtain ⟨t2, u1, u2⟩ := hgeo
  -- comments
  obtain ⟨t3, c3, v1, v2, v3, v4⟩ := Rec.always (n := 32) (k := 0) (by decide +kernel) r1 r2
  obtain ⟨z3, z31, z32, z33⟩ := R.intAt (w := 1) (by decide +kernel) v2
  have z30 : 0 ≤ z3 := one_digit (by rw [z33]; exact z32) z33
  have l3 := flat (nm := n!"nicom") (c := none) (by decide +kernel) (by decide +kernel) z31
  obtain ⟨n4, a4, c4, w1, w2, w3, w4⟩ := writeD_loop v4
  have : n4 = z3 := by
    simp only [evalShape, evalE, idxKey, bind, Except.bind, l3] at w1
    injection w1 with w1
    exact w1.symm
  subst this
  have len4 : (chunkBytes a4).length = 80 * n4.toNat := by
    have := forChunks_width (w := 80) w2 fun i a ha hsa => by
      obtain ⟨t, c, g1, g2, g3, g4⟩ := R.front (m := 1) (w := 80) (r := .nil) rfl (by decide +kernel)
        (fun ch hch => v3 ch (by rw [w4]; simp [hsa ch hch])) ha
      rw [g1, writeD_nil g4, List.append_nil, g2]
    rw [indices_length] at this
    omega
  have sub4 : ∀ ch ∈ c4, ch ∈ cs := fun ch hch => v3 ch (by rw [w4]; simp [hch])
  -- compression
  obtain ⟨t5, c5, y1, y2, y3, y4⟩ := Rec.always (n := 34) (k := 0) (by decide +kernel) sub4 w3
  obtain ⟨s5, k5, s51, s52, s53, s54⟩ := R.strAt (w := 2) (by decide +kernel) y2
  have l5 := flat (nm := n!"ic") (c := none) (by decide +kernel) (by decide +kernel) s51
  obtain ⟨c6, m1, m2, m3⟩ := Rec.cond (n := 35) (k := 0) (e := .notin (.ref (n!"ic") []) [.str "NC", .str "NM"])
    (v := bval (!(s5 == "NC".toList || s5 == "NM".toList))) (by decide +kernel) (by
      simp only [evalE, idxKey, bind, Except.bind, l5, pure, Except.pure, CVal.toVal, List.any_cons, List.any_nil, pyEq,
        Bool.or_false]) y3 y4
  have hcom : ∃ t, chunkBytes c5 = t ++ chunkBytes c6 ∧
      t.length = (if codes t5 = [78, 67] ∨ codes t5 = [78, 77] then 0 else 4) := by
    have hb1 : s5 = "NC".toList ↔ codes t5 = [78, 67] := two_iff s53 s54 rfl (by decide)
    have hb2 : s5 = "NM".toList ↔ codes t5 = [78, 77] := two_iff s53 s54 rfl (by decide)
    rcases m3 with ⟨g1, g2⟩ | ⟨g1, t, g2, g3⟩
    · refine ⟨[], g2, ?_⟩
      have : s5 = "NC".toList ∨ s5 = "NM".toList := by
        by_cases h1 : s5 = "NC".toList
        · exact .inl h1
        · by_cases h2 : s5 = "NM".toList
          · exact .inr h2
          · rw [show (s5 == "NC".toList) = false by simpa using h1, show (s5 == "NM".toList) = false by simpa using h2] at g1
            cases g1
      rw [if_pos (this.imp hb1.mp hb2.mp)]
      rfl
    · refine ⟨t, g2, ?_⟩
      have : ¬ (s5 = "NC".toList ∨ s5 = "NM".toList) := by
        rintro (rfl | rfl)
        · cases g1
        · cases g1
      rw [if_neg fun h => this (h.imp hb1.mpr hb2.mpr)]
      obtain ⟨fi, hfi, hs1, hs2⟩ : ∃ fi, Tables.t_image_subheader.tab[35]? = some fi ∧ fi.fd.size = .const 4 ∧
        fi.fd.sizeOffset = 0 := ⟨_, rfl, rfl, rfl⟩
      exact R.width1 g3 hfi hs1 hs2
  obtain ⟨t6, n1, n2⟩ := hcom
  -- bands
  obtain ⟨t7, c7, o1, o2, o3, o4⟩ := Rec.always (n := 36) (k := 0) (by decide +kernel) m1 m2
  obtain ⟨z7, z71, z72, z73⟩ := R.intAt (w := 1) (by decide +kernel) o2
  have z70 : 0 ≤ z7 := one_digit (by rw [z73]; exact z72) z73
  have l7 := flat (nm := n!"nbands") (c := none) (by decide +kernel) (by decide +kernel) z71
  obtain ⟨c8, i1, i2, i3⟩ := Rec.cond (n := 37) (k := 0) (e := .eq (.ref (n!"nbands") []) (.const (.int 0)))
    (v := bval (pyEq P (.int z7) (.int 0))) (by decide +kernel) (by
      simp only [evalE, idxKey, bind, Except.bind, l7, pure, Except.pure, CVal.toVal]) o3 o4
  obtain ⟨n9, a9, c9, j1, j2, j3, j4⟩ := writeD_loop i2
  have hnum : ∃ t, chunkBytes c7 = t ++ chunkBytes c8 ∧ ∀ u,
      (if z7.toNat = 0 then number 5 (t ++ u) else some (z7.toNat, t ++ u)) = some (n9.toNat, u) := by
    rcases i3 with ⟨g1, g2⟩ | ⟨g1, t, g2, g3⟩
    · refine ⟨[], g2, fun u => ?_⟩
      have hz : z7 ≠ 0 := by
        rintro rfl
        simp [truthy, bval, pyEq] at g1
      have : n9 = z7 := by
        simp only [evalShape, bandsE, evalE, idxKey, bind, Except.bind, l7, asInt, CVal.toVal, pure, Except.pure] at j1
        rw [decide_eq_true (show z7 > 0 by omega)] at j1
        simp only [bval, truthy] at j1
        injection j1 with j1
        exact j1.symm
      rw [if_neg (by omega), this]
      rfl
    · refine ⟨t, g2, fun u => ?_⟩
      have hz : z7 = 0 := by
        by_cases h0 : z7 = 0
        · exact h0
        · simp [truthy, bval, pyEq, h0] at g1
      subst hz
      obtain ⟨z8, z81, z82, z83⟩ := R.intAt (n := 37) (w := 5) (by decide +kernel) g3
      have l8 := flat (nm := n!"xbands") (c := some (.eq (.ref (n!"nbands") []) (.const (.int 0))))
        (by decide +kernel) (by decide +kernel) z81
      have h80 := hx z8 (getAttr_of (by decide +kernel) z81)
      have : n9 = z8 := by
        simp only [evalShape, bandsE, evalE, idxKey, bind, Except.bind, l7, l8, asInt, CVal.toVal, pure, Except.pure] at j1
        rw [show decide ((0 : Int) > 0) = false from rfl] at j1
        simp only [bval, truthy] at j1
        injection j1 with j1
        exact j1.symm
      rw [if_pos (by rfl), number_append (digital_at z82 z83 h80), this]
  obtain ⟨t8, e1, e2⟩ := hnum
  have hbands := fun u => R.bands u (fun ch hch => i1 ch (by rw [j4]; simp [hch])) j2
  -- the rest
  obtain ⟨t9, c10, d31, d32, d33, d34⟩ := R.front (n := 45) (w := 40) h2 (by decide +kernel)
    (fun ch hch => i1 ch (by rw [j4]; simp [hch])) j3
  obtain ⟨u, x, c11, g1, g2, g3, g4, g5⟩ := R.area (a := udArea) (n := 56) (by decide +kernel) d33 d34
  obtain ⟨u', y, c12, g1', g2', g3', g4', g5'⟩ := R.area (a := ixArea) (n := 59) (by decide +kernel) g4 g5
  refine ⟨x, y, ?_, g3, g3'⟩
  unfold imageHeader
  rw [p1, next_append p2]
  simp only [Option.bind_eq_bind, Option.bind_some]
  rw [q1, next_append s14]
  simp only [Option.bind_some]
  rw [u1, next_append u2]
  simp only [Option.bind_some]
  rw [v1, number_append (digital_at z32 z33 z30)]
  simp only [Option.bind_some]
  rw [w4, chunkBytes_append', next_append len4]
  simp only [Option.bind_some]
  rw [y1, next_append s54]
  simp only [Option.bind_some]
  rw [n1, next_append n2]
  simp only [Option.bind_some]
  have hcount : bandCount (chunkBytes c6) = some (n9.toNat, chunkBytes c8) := by
    unfold bandCount
    rw [o1, number_append (digital_at z72 z73 z70)]
    simp only [Option.bind_eq_bind, Option.bind_some]
    rw [e1]
    exact e2 _
  rw [hcount]
  simp only [Option.bind_some]
  rw [j4, chunkBytes_append', ← indices_length, hbands]
  simp only [Option.bind_some]
  rw [d31, next_append d32]
  simp only [Option.bind_some]
  rw [g1, g2]
  simp only [Option.bind_some]
  rw [g1', g2']
  simp only [Option.bind_some]
  rw [if_pos (writeD_nil g5')]

/-! ### TREs -/

/-- What is found of a TRE: the tag with blanks to six bytes, and the body. -/
def TreOf (t : Tre P.F) (p : Bytes × Bytes) : Prop :=
  codes p.1 = t.tag.map Char.toNat ++ List.replicate (6 - t.tag.length) 32 ∧ t.body P = .ok p.2

/-- A TRE that has been written. -/
structure Framed (p : Bytes × Bytes) (b : Bytes) : Prop where
  tag : p.1.length = 6
  eq : ∃ t, b = p.1 ++ (t ++ p.2) ∧ Digital 5 p.2.length t

theorem codes_utf8 {s : Str} (h : ∀ c ∈ s, c.toNat < 128) : codes (utf8Enc s) = s.map Char.toNat := by
  rw [utf8Enc_ascii h]
  unfold codes
  rw [List.map_map]
  refine List.map_congr_left fun c hc => ?_
  have := h c hc
  simp only [Function.comp, UInt8.toNat_ofNat']
  omega

theorem treWrite_framed {t : Tre P.F} (htag : TagOk t.tag) {b : Bytes} (h : treWrite P t = .ok b) :
    ∃ p, TreOf t p ∧ Framed p b := by
  obtain ⟨body, h1, _, h3, h4⟩ := treWrite_frame P htag h
  refine ⟨(tagBytes t.tag, body), ⟨?_, h1⟩, h4.tagLen, lenBytes body.length, h3, h4.lenLen, ?_, ?_⟩
  · show codes (tagBytes t.tag) = _
    unfold tagBytes padRight
    rw [codes_utf8, List.map_append, List.map_replicate]
    · rfl
    · intro c hc
      rcases List.mem_append.mp hc with hc | hc
      · exact htag.ascii c hc
      · rw [List.eq_of_mem_replicate hc]
        decide
  all_goals
    obtain ⟨_, g2, g3, _⟩ := padLeft_decimal [] 5 body.length
    have ge : codes (lenBytes body.length) = (padLeft '0' 5 (decStr body.length)).map Char.toNat := by
      unfold lenBytes
      refine codes_utf8 fun c hc => ?_
      have := g2 c.toNat (List.mem_map_of_mem hc)
      omega
    rw [ge]
  · exact g2
  · exact g3

theorem tresIn_append {p : Bytes × Bytes} {b r : Bytes} (h : Framed p b) (n : Nat) :
    tresIn (n + 1) (b ++ r) = (tresIn n r).map (p :: ·) := by
  obtain ⟨h1, t, rfl, h2⟩ := h
  have hne : ∃ c u, p.1 ++ (t ++ p.2) ++ r = c :: u := by
    cases hp : p.1 with
    | nil => rw [hp] at h1; cases h1
    | cons c u => exact ⟨c, _, rfl⟩
  obtain ⟨c, u, hcu⟩ := hne
  have : ∀ b : Bytes, b = c :: u → tresIn (n + 1) b = (do
      let (tag, b) ← next 6 b
      let (k, b) ← number 5 b
      let (body, b) ← next k b
      let l ← tresIn n b
      some ((tag, body) :: l)) := by
    rintro _ rfl
    rfl
  rw [this _ hcu, List.append_assoc, next_append h1]
  simp only [Option.bind_eq_bind, Option.bind_some]
  rw [List.append_assoc, number_append h2]
  simp only [Option.bind_some]
  rw [next_append rfl]
  simp only [Option.bind_some]
  cases tresIn n r <;> rfl

theorem tresIn_flatten : ∀ {l : List (Bytes × Bytes)} {bs : List Bytes}, Each Framed l bs → ∀ n, l.length ≤ n →
    tresIn n bs.flatten = some l
  | _, _, .nil, n, _ => by cases n <;> rfl
  | _, _, .cons h hs, n, hn => by
    cases n with
    | zero => simp at hn
    | succ n =>
      rw [List.flatten_cons, tresIn_append h, tresIn_flatten hs n (by simpa using hn)]
      rfl

theorem tres_flatten {l : List (Bytes × Bytes)} {bs : List Bytes} (h : Each Framed l bs) :
    tres bs.flatten = some l := by
  refine tresIn_flatten h _ ?_
  induction h with
  | nil => simp
  | cons h _ ih =>
    obtain ⟨h1, t, rfl, _⟩ := h
    simp only [List.length_cons, List.flatten_cons, List.length_append, h1]
    omega

theorem each_framed {ts : List (Tre P.F)} {bs : List Bytes} (htag : ∀ t ∈ ts, TagOk t.tag)
    (h : Each (fun t b => treWrite P t = .ok b) ts bs) : ∃ l, Each TreOf ts l ∧ Each Framed l bs := by
  induction h with
  | nil => exact ⟨[], .nil, .nil⟩
  | cons h _ ih =>
    obtain ⟨l, i1, i2⟩ := ih fun t ht => htag t (by simp [ht])
    obtain ⟨p, p1, p2⟩ := treWrite_framed (htag _ (by simp)) h
    exact ⟨p :: l, .cons p1 i1, .cons p2 i2⟩

/-- C89: TREs written one after the other are found, all of them and in order. -/
theorem C89_tres {ts : List (Tre P.F)} {bs : List Bytes} (htag : ∀ t ∈ ts, TagOk t.tag)
    (h : Each (fun t b => treWrite P t = .ok b) ts bs) : ∃ l, tres bs.flatten = some l ∧ Each TreOf ts l := by
  obtain ⟨l, h1, h2⟩ := each_framed htag h
  exact ⟨l, tres_flatten h2, h1⟩

/-- What is found in an area with these contents. -/
theorem Shown.val {d : Desc} (hd : d.causal = true) {a : Area} {q : AreaPos} (A : AreaAt d.tab a q) {S : Store P.F}
    {v : AreaVal} (hv : Holds P d.tab S q v) {x : Place} (hs : Shown P d S a x) :
    (v.len = 0 ∧ x = ⟨none, []⟩) ∨
      v.len ≠ 0 ∧ ∃ t, x = ⟨some t, v.data⟩ ∧ t.length = 3 ∧ Decimal 3 false v.ofl (codes t) := by
  have h1 := A.getLen hv
  have h3 := A.getData hv
  cases hs with
  | absent hl =>
    rw [h1] at hl
    injection hl with hl
    injection hl with hl
    exact .inl ⟨hl, rfl⟩
  | @present o t u hl ho hdt hn ht =>
    rw [h1] at hl
    injection hl with hl
    injection hl with hl
    have hz : v.len ≠ 0 := by omega
    rw [A.getOfl hd hv hz] at ho
    injection ho with ho
    injection ho with ho
    rw [h3] at hdt
    injection hdt with hdt
    injection hdt with hdt
    subst ho hdt
    exact .inr ⟨hz, t, rfl, hn, ht⟩

theorem overflow_number {p : Pieces} {t u : Bytes} {n : Nat} (hn : t.length = 3)
    (ht : Decimal 3 false (n : Nat) (codes t)) :
    overflowIn p ⟨some t, u⟩ = if n = 0 then some [] else (p.des[n - 1]?).map (·.2) := by
  have := number_append (r := []) (digital_at ht hn (by omega))
  rw [List.append_nil] at this
  unfold overflowIn
  dsimp only
  rw [this]
  rfl

theorem afterPrepare_get {n : Nat} {vs : List AreaVal} {heads : List Bytes} {ov : Bytes} {i : Nat} {z : AreaVal}
    (h : (List.zipWith AreaVal.store vs heads)[i]? = some z) : (afterPrepare n vs heads ov)[i]? =
      some (if i = 0 ∧ ov ≠ [] then { z with ofl := n + 1 } else z) := by
  unfold afterPrepare
  cases hz : List.zipWith AreaVal.store vs heads with
  | nil => rw [hz] at h; cases h
  | cons w ws =>
    rw [hz] at h
    cases i with
    | zero =>
      simp only [List.getElem?_cons_zero, Option.some.injEq] at h ⊢
      subst h
      by_cases ho : ov = [] <;> simp [ho]
    | succ i => simpa using h

/-- The areas of a header that has just been prepared, in a store with the same contents of the areas. -/
theorem places_of {d : Desc} {areas : List Area} {qs : List AreaPos} (H : HeaderAreas d areas qs) {S2 : Store P.F}
    {n : Nat} {heads : List Bytes} {ov : Bytes}
    (hS2 : HoldsAll P d S2 qs (afterPrepare n (qs.map fun _ => unused) heads ov))
    (hne : ov ≠ [] → ∀ v ∈ (List.zipWith AreaVal.store (qs.map fun _ => unused) heads).head?, v.len ≠ 0)
    {p : Pieces} (hov : ov ≠ [] → ∃ q, p.des[n]? = some (q, ov)) {places : List Place}
    (hp : Each (fun a x => Shown P d S2 a x) areas places) {i : Nat} {x : Place} {h : Bytes}
    (hx : places[i]? = some x) (hh : heads[i]? = some h) :
    x.data = h ∧ overflowIn p x = some (if i = 0 then ov else []) := by
  have hlen := Each.length hp
  have hlt : i < areas.length := by rw [hlen]; exact lt_of_getElem? hx
  have hlt' : i < qs.length := by rw [← H.at_.1]; exact hlt
  have ha := List.getElem?_eq_getElem hlt
  have hq := List.getElem?_eq_getElem hlt'
  have A := H.at_.2 i _ _ ha hq
  have hz : (List.zipWith AreaVal.store (qs.map fun _ => unused) heads)[i]? = some (unused.store h) := by
    rw [List.getElem?_zipWith, List.getElem?_map, hq, hh]
    rfl
  have hw := afterPrepare_get (n := n) (ov := ov) hz
  have hv := Each.get hS2 i _ _ hq hw
  rcases (Each.get hp i _ x ha hx).val H.causal A hv with ⟨h1, rfl⟩ | ⟨h1, t, rfl, h3, h4⟩
  · have hl : (unused.store h).len = 0 := by
      split at h1 <;> exact h1
    have h0 : h = [] := by
      by_cases h0 : h = []
      · exact h0
      · simp only [AreaVal.store, if_neg h0] at hl
        omega
    refine ⟨h0.symm, ?_⟩
    by_cases hi : i = 0
    · subst hi
      by_cases ho : ov = []
      · rw [ho]
        rfl
      · refine absurd hl (hne ho _ ?_)
        rw [Option.mem_def, List.head?_eq_getElem?]
        exact hz
    · rw [if_neg hi]
      rfl
  · have hl : (unused.store h).len ≠ 0 := by
      split at h1 <;> exact h1
    have h0 : h ≠ [] := by
      rintro rfl
      exact hl rfl
    by_cases hc : i = 0 ∧ ov ≠ []
    · rw [if_pos hc] at h4 ⊢
      refine ⟨by simp [AreaVal.store, h0], ?_⟩
      obtain ⟨q, hq⟩ := hov hc.2
      rw [overflow_number (n := n + 1) h3 (by simpa using h4), if_neg (by omega), if_pos hc.1]
      simp [hq]
    · rw [if_neg hc] at h4 ⊢
      refine ⟨by simp [AreaVal.store, h0], ?_⟩
      rw [overflow_number (n := 0) h3 (by simpa [AreaVal.store, unused] using h4), if_pos rfl]
      by_cases hi : i = 0
      · have : ov = [] := by
          by_cases ho : ov = []
          · exact ho
          · exact absurd ⟨hi, ho⟩ hc
        rw [if_pos hi, this]
      · rw [if_neg hi]

theorem allTres_plain {p : Pieces} : ∀ {xs : List Place} {hs : List Bytes} {ls : List (List (Bytes × Bytes))},
    Each (fun x h => x.data = h ∧ overflowIn p x = some []) xs hs → Each (fun h l => tres h = some l) hs ls →
    allTres p xs = some ls.flatten
  | _, _, _, .nil, .nil => rfl
  | _, _, _, .cons h1 h2, .cons g1 g2 => by
    unfold allTres
    rw [h1.2, h1.1, allTres_plain h2 g2, g1]
    rfl

/-- C89: the TREs of a header that had none before, in whatever way they are spread over its areas and
the overflow segment, are found, each of them once.  `places` is what the readers find in the header,
`p` what the file is taken apart into. -/
theorem C89_found {d : Desc} {areas : List Area} {qs : List AreaPos} (H : HeaderAreas d areas qs)
    {S S1 S2 : Store P.F} (hS : HoldsAll P d S qs (qs.map fun _ => unused)) {n : Nat} {ts : List (Tre P.F)}
    {o : Option Bytes} (htag : ∀ t ∈ ts, TagOk t.tag) (h : prepareTreWrite P d areas n ts S = .ok (S1, o))
    (hS2 : ∀ q ∈ qs.flatMap AreaPos.list, S2 q [] = S1 q []) {p : Pieces}
    (hov : ∀ b, o = some b → ∃ q, p.des[n]? = some (q, b)) {places : List Place}
    (hp : Each (fun a x => Shown P d S2 a x) areas places) :
    ∃ found l, allTres p places = some found ∧ Each TreOf ts l ∧ found.Perm l := by
  obtain ⟨ser, heads, ov, h1, h2, h3, h4, h5, _⟩ := prepare_ok P H hS h
  obtain ⟨dest, d1, d2, d3, d4, d5, _⟩ := place_spec ser (areas.map fun _ => []) []
  rw [h2] at d3 d4 d5
  simp only [List.length_map, List.nil_append] at d2 d3 d4 d5
  obtain ⟨l, l1, l2⟩ := each_framed htag (treWriteAll_each P h1)
  have hS2' : HoldsAll P d S2 qs (afterPrepare n (qs.map fun _ => unused) heads ov) := by
    refine each_of_get (Each.length h4) fun i q v hq hv => ?_
    refine (Each.get h4 i q v hq hv).congr fun c hc => hS2 c ?_
    exact List.mem_flatMap.mpr ⟨q, List.mem_of_getElem? hq, hc⟩
  have hx := fun i x hd => places_of H hS2' h5 (p := p) (by
    intro hne
    refine hov ov ?_
    rw [h3, if_neg hne]) hp (i := i) (x := x) (h := hd)
  have hheads : ∀ i, i < areas.length → heads[i]? = some (picks dest ser (some i)).flatten := by
    intro i hi
    simpa using d4 i [] (by simp [hi])
  have htres : ∀ i, i < areas.length → tres (picks dest ser (some i)).flatten = some (picks dest l (some i)) :=
    fun i _ => tres_flatten (l2.picks dest (some i))
  have hover : tres ov = some (picks dest l none) := by
    rw [d5]
    exact tres_flatten (l2.picks dest none)
  have hplen := Each.length hp
  have hperm := picks_perm (ks := none :: (List.range' 0 areas.length).map some) (α := Bytes × Bytes) (by
    rw [List.nodup_cons]
    refine ⟨by simp, ?_⟩
    unfold List.Nodup
    rw [List.pairwise_map]
    exact (List.nodup_range' (s := 0) (n := areas.length)).imp fun h he => h (Option.some.inj he))
    dest l (by rw [d1, Each.length l2]) (by
    intro k hk
    cases k with
    | none => simp
    | some i =>
      have := d2 _ hk i rfl
      refine List.mem_cons_of_mem _ (List.mem_map.mpr ⟨i, ?_, rfl⟩)
      rw [List.mem_range'_1]
      omega)
  rw [List.flatMap_cons, List.flatMap_map] at hperm
  cases hA : areas.length with
  | zero => exact absurd (List.eq_nil_of_length_eq_zero hA) H.nonempty
  | succ m =>
    cases places with
    | nil => rw [hA] at hplen; cases hplen
    | cons x xs =>
      cases heads with
      | nil => rw [hA] at d3; cases d3
      | cons h0 hs =>
        have e0 := hx 0 x h0 rfl rfl
        have g0 := hheads 0 (by omega)
        simp only [List.getElem?_cons_zero, Option.some.injEq] at g0
        rw [if_pos rfl] at e0
        have hxs : allTres p xs = some ((List.range' 1 m).map fun i => picks dest l (some i)).flatten := by
          simp only [List.length_cons] at hplen d3
          refine allTres_plain (hs := hs) ?_ ?_
          · refine each_of_get (by omega) fun i y hy hi hj => ?_
            have := hx (i + 1) y hy (by simpa using hi) (by simpa using hj)
            rwa [if_neg (by omega)] at this
          · refine each_of_get (by simp; omega) fun i hy ll hi hj => ?_
            have hlt := lt_of_getElem? hi
            rw [List.getElem?_map, List.getElem?_range' (by omega)] at hj
            simp only [Option.map_some, Option.some.injEq] at hj
            subst hj
            have := hheads (i + 1) (by omega)
            simp only [List.getElem?_cons_succ, hi, Option.some.injEq] at this
            rw [this, htres (i + 1) (by omega)]
            congr 3
            omega
        refine ⟨_, l, ?_, l1, hperm⟩
        unfold allTres
        rw [e0.2, e0.1, g0, htres 0 (by omega), hxs]
        simp only [Option.bind_eq_bind, Option.bind_some, hover]
        rw [hA, List.range'_succ, List.flatMap_cons]
        simp [List.flatMap]

theorem fileAreas_eq : fileAreas = [xhArea, udhArea] := by decide +kernel
theorem imageAreas_eq : imageAreas = [ixArea, udArea] := by decide +kernel
theorem textAreas_eq : textAreas = [textArea] := by decide +kernel

/-- The data of the overflow segments in the file. -/
theorem run_overflow {f f' : NFile P.F IO.D} {out : Bytes} (r : WriteRun P E IO f f' out) {n : Nat}
    {s : Seg P.F IO.D} {b : Bytes} (hs : (r.segs1 .des)[n]? = some s) (hb : s.data = .overflow b) :
    ∃ q, (runPieces P E IO r).des[n]? = some (q, b) := by
  have hlt : n < (r.res .des).length := by
    rw [← Each.length (r.each .des)]
    exact lt_of_getElem? hs
  have hx := List.getElem?_eq_getElem hlt
  obtain ⟨sub, _, _, _, e, _⟩ := segBytes_ok P E IO (Each.get (r.each .des) n _ _ hs hx)
  rw [hb] at e
  injection e with e
  refine ⟨((r.res .des)[n]).2.1, ?_⟩
  simp only [runPieces, List.getElem?_map, hx, Option.map_some, e]

/-- What is known of a segment with areas that was written. -/
theorem run_segment {f f' : NFile P.F IO.D} {out : Bytes} (r : WriteRun P E IO f f' out) {k : SegKind} (hk : k ≠ .des)
    {areas : List Area} (hka : k.areas = some areas) {i : Nat} {s s' : Seg P.F IO.D} (hs : (f.segs k)[i]? = some s)
    (hs' : (f'.segs k)[i]? = some s') :
    ∃ hd data n o, (r.res k)[i]? = some (s', hd, data) ∧ writeStruct P k.desc s'.sub = .ok hd ∧
      (NoLit s.sub → NoLit s'.sub) ∧ prepareTreWrite P k.desc areas n s.tres s.sub = .ok (s'.sub, o) ∧
      ∀ b, o = some b → ∃ q, (runPieces P E IO r).des[n]? = some (q, b) := by
  rw [r.after k hk, List.getElem?_map] at hs'
  cases hx : (r.res k)[i]? with
  | none => rw [hx] at hs'; cases hs'
  | some x =>
    rw [hx] at hs'
    injection hs' with hs'
    dsimp only at hs'
    have hlt : i < (r.segs1 k).length := by
      rw [Each.length (r.each k)]
      exact lt_of_getElem? hx
    have h1 := List.getElem?_eq_getElem hlt
    obtain ⟨sub, e1, e2, e3, _, _⟩ := segBytes_ok P E IO (Each.get (r.each k) i _ _ h1 hx)
    have e4 := writeUser_other P hk e1
    have hp := Each.get (r.prepared P E IO hk) i _ _ hs h1
    have hsub : s'.sub = ((r.segs1 k)[i]).sub := by
      rw [← hs', e2]
      exact e4
    obtain ⟨n, o, p1, p2⟩ := hp.prep areas hka
    refine ⟨x.2.1, x.2.2, n, o, by rw [← hs'], ?_, ?_, ?_, ?_⟩
    · rw [hsub, ← e4]
      exact e3
    · rw [hsub]
      exact hp.noLit
    · rw [hsub]
      exact p1
    · intro b hb
      obtain ⟨y, y1, y2⟩ := p2 b hb
      exact run_overflow E IO r y1 y2

/-- C89: the TREs of a file that had none in its header before are found in the header of the written
file and the overflow segment the header names: all of them, each once, and nothing else. -/
theorem C89_file_tres {f f' : NFile P.F IO.D} {out : Bytes} (h : writeFile P E IO f = .ok (f', out))
    (hlit : NoLit f.header) (hlink : ∀ k, ∀ s ∈ f.segs k, s.linked = true) (htag : ∀ t ∈ f.tres, TagOk t.tag)
    (hS : HoldsAll P Tables.t_file_header f.header (areaPositions Tables.t_file_header fileAreas) [unused, unused]) :
    ∃ p x y found l, pieces out = some p ∧ fileHeader p.header = some (x, y) ∧ allTres p [y, x] = some found ∧
      Each TreOf f.tres l ∧ found.Perm l := by
  obtain ⟨p, x, y, h1, h2, h3, h4⟩ := C89_file E IO h hlit hlink
  obtain ⟨r⟩ := writeFile_run P E IO h
  rw [pieces_run P E IO r hlit hlink] at h1
  injection h1 with h1
  subst h1
  obtain ⟨o, p1, p2⟩ := prepareHeader_ok P IO r.prepH
  obtain ⟨found, l, g1, g2, g3⟩ := C89_found (P := P) (S2 := f'.header) (p := runPieces P E IO r) fileHeader_areas
    (places := [y, x]) hS htag p1 (by
      intro q hq
      have hq' : q ∉ [flPos, hlPos, 31, 34, 38, 41, 44] := by
        have : ((areaPositions Tables.t_file_header fileAreas).flatMap AreaPos.list).all
            (fun q => decide (q ∉ [flPos, hlPos, 31, 34, 38, 41, 44])) = true := by decide +kernel
        exact of_decide_eq_true (List.all_eq_true.mp this q hq)
      simp only [List.mem_cons, List.not_mem_nil, or_false, not_or] at hq'
      rw [r.others q [] hq'.1 hq'.2.1 fun k => Or.inr (by simp), nums_ok P r.nums]
      simp [Store.set, hq'.2.2]) (by
      intro b hb
      rcases p2 with ⟨ho, _⟩ | ⟨b', s, ho, hdes, _, hs, _⟩
      · rw [ho] at hb; cases hb
      · rw [ho] at hb
        injection hb with hb
        subst hb
        refine run_overflow E IO r (prefix_get r.desList.2.1 ?_) hs
        rw [hdes]
        simp) (by
      rw [fileAreas_eq]
      exact .cons h4 (.cons h3 .nil))
  exact ⟨_, x, y, found, l, pieces_run P E IO r hlit hlink, h2, g1, g2, g3⟩

/-- C89, the same for the segments with text. -/
theorem C89_text_tres {f f' : NFile P.F IO.D} {out : Bytes} (h : writeFile P E IO f = .ok (f', out))
    (hlit : NoLit f.header) (hlink : ∀ k, ∀ s ∈ f.segs k, s.linked = true) {i : Nat} {s : Seg P.F IO.D}
    (hs : f.text[i]? = some s) (hsub : NoLit s.sub) (htag : ∀ t ∈ s.tres, TagOk t.tag)
    (hS : HoldsAll P Tables.t_text_subheader s.sub (areaPositions Tables.t_text_subheader textAreas) [unused]) :
    ∃ p hd data x found l, pieces out = some p ∧ p.text[i]? = some (hd, data) ∧ textHeader hd = some x ∧
      allTres p [x] = some found ∧ Each TreOf s.tres l ∧ found.Perm l := by
  obtain ⟨r⟩ := writeFile_run P E IO h
  have hlt : i < (f'.segs .text).length := by
    rw [r.after .text (by decide), List.length_map, ← Each.length (r.each .text),
      ← Each.length (r.prepared P E IO (k := .text) (by decide))]
    exact lt_of_getElem? hs
  obtain ⟨hd, data, n, o, e1, e2, e3, e4, e5⟩ := run_segment E IO r (k := .text) (by decide) rfl hs
    (List.getElem?_eq_getElem hlt)
  obtain ⟨x, x1, x2⟩ := C89_text (e3 hsub) e2
  obtain ⟨found, l, g1, g2, g3⟩ := C89_found (P := P) (p := runPieces P E IO r) textHeader_areas (places := [x]) hS htag
    e4 (fun _ _ => rfl) e5 (by
      rw [textAreas_eq]
      exact .cons x2 .nil)
  refine ⟨_, hd, data, x, found, l, pieces_run P E IO r hlit hlink, ?_, x1, g1, g2, g3⟩
  simp only [runPieces, List.getElem?_map, e1, Option.map_some]

/-- C89, the same for the segments with an image, whose `xbands` is not below zero if there is one. -/
theorem C89_image_tres {f f' : NFile P.F IO.D} {out : Bytes} (h : writeFile P E IO f = .ok (f', out))
    (hlit : NoLit f.header) (hlink : ∀ k, ∀ s ∈ f.segs k, s.linked = true) {i : Nat} {s s' : Seg P.F IO.D}
    (hs : f.image[i]? = some s) (hs' : f'.image[i]? = some s') (hsub : NoLit s.sub) (htag : ∀ t ∈ s.tres, TagOk t.tag)
    (hS : HoldsAll P Tables.t_image_subheader s.sub (areaPositions Tables.t_image_subheader imageAreas)
      [unused, unused])
    (hx : ∀ z : Int, getAttr P Tables.t_image_subheader s'.sub (n!"xbands") [] = .ok (.int z) → 0 ≤ z) :
    ∃ p hd data x y found l, pieces out = some p ∧ p.image[i]? = some (hd, data) ∧ imageHeader hd = some (x, y) ∧
      allTres p [y, x] = some found ∧ Each TreOf s.tres l ∧ found.Perm l := by
  obtain ⟨r⟩ := writeFile_run P E IO h
  obtain ⟨hd, data, n, o, e1, e2, e3, e4, e5⟩ := run_segment E IO r (k := .image) (by decide) rfl hs hs'
  obtain ⟨x, y, x1, x2, x3⟩ := C89_image (e3 hsub) e2 hx
  obtain ⟨found, l, g1, g2, g3⟩ := C89_found (P := P) (p := runPieces P E IO r) imageHeader_areas (places := [y, x]) hS
    htag e4 (fun _ _ => rfl) e5 (by
      rw [imageAreas_eq]
      exact .cons x3 (.cons x2 .nil))
  refine ⟨_, hd, data, x, y, found, l, pieces_run P E IO r hlit hlink, ?_, x1, g1, g2, g3⟩
  simp only [runPieces, List.getElem?_map, e1, Option.map_some]

/-! ### Concrete cases -/

/-- The TRE in the header of `exFile` is found, in the extended area. -/
example : ((writeFile P0 exEnv exIO exFile).toOption.bind fun x => do
    let p ← pieces x.2
    let (x, y) ← fileHeader p.header
    let l ← allTres p [y, x]
    some (x, l)) = some (⟨none, []⟩, [(asc "ABCDEF", [1, 2])]) := by
  decide +kernel

/-- The hypotheses of `C89_file_tres` hold of `exFile`. -/
example : ∃ f' out, writeFile P0 exEnv exIO exFile = .ok (f', out) ∧
    ∃ p x y found l, pieces out = some p ∧ fileHeader p.header = some (x, y) ∧ allTres p [y, x] = some found ∧
      Each TreOf exFile.tres l ∧ found.Perm l := by
  cases h : writeFile P0 exEnv exIO exFile with
  | error e =>
    have : (writeFile P0 exEnv exIO exFile).toOption.isSome = true := by decide +kernel
    rw [h] at this
    cases this
  | ok r =>
    refine ⟨r.1, r.2, rfl, C89_file_tres exEnv exIO h NoLit.empty ?_ ?_ ?_⟩
    · intro k s hs
      cases k <;> simp [exFile, NFile.segs] at hs <;> subst hs <;> rfl
    · intro t ht
      simp only [exFile, List.mem_cons, List.not_mem_nil, or_false] at ht
      subst ht
      exact ⟨by decide +kernel, by decide +kernel, by decide +kernel⟩
    · exact fileHeader_fresh P0

/-- An image subheader with a comment, two bands, the second with a lookup table of two bytes, and a
TRE. -/
def exImage : Except Err (Store P0.F) := do
  let S ← setAll P0 Tables.t_image_subheader [(n!"nicom", .int 1), (n!"ic", .str "C8".toList), (n!"nbands", .int 2)]
    Store.empty
  let S := ((S.set 42 [1] ⟨.val (.int 1), none⟩).set 43 [1] ⟨.val (.int 2), none⟩).set 44 [1, 0]
    ⟨.val (.bytes [7, 8]), none⟩
  let (S, _) ← prepareTreWrite P0 Tables.t_image_subheader imageAreas 0 [.unknown "ABCDEF".toList [1, 2]] S
  .ok S

example : (exImage.toOption.bind fun S => (writeStruct P0 Tables.t_image_subheader S).toOption.map fun b =>
    (b.length, imageHeader b)) = some (559, some (⟨none, []⟩, ⟨some (asc "000"), asc "ABCDEF00002" ++ [1, 2]⟩)) := by
  decide +kernel

/-- A TRE in the area and one in the first DES, as the three digits say; without the DES nothing is
found. -/
example : allTres ⟨[], [], [], [], [([], asc "BBBBBB00001b")], []⟩ [⟨some (asc "001"), asc "AAAAAA00002aa"⟩] =
      some [(asc "BBBBBB", asc "b"), (asc "AAAAAA", asc "aa")] ∧
    allTres ⟨[], [], [], [], [], []⟩ [⟨some (asc "001"), asc "AAAAAA00002aa"⟩] = none := by
  decide +kernel

/-- Bytes left over after the last TRE. -/
example : tres (asc "AAAAAA00002aaB") = none := by decide +kernel

end Verif.Finds
