import Verif.ReadReady

/- C68: a file that was read from any bytes, saved, loaded and saved again. -/

namespace Verif

variable (P : PyFloat) (E : Env) (IO : DataIO P.F) (same : IO.D → IO.D → Prop)

/-! ### Specification -/

/-- The TREs of a header can be saved: each can be written, read back and fits into an area, and
each area is unused or the TREs before it fill the areas before it. -/
def TresSavable (d : Desc) (areas : List Area) (S : Store P.F) (tres : List (Tre P.F)) : Prop :=
  ∃ ser, treWriteAll P tres = .ok ser ∧ (∀ b ∈ ser, b.length < 99996) ∧
    (∀ (i : Nat) (a : Area), areas[i]? = some a → getAttr P d S a.len [] = .ok (.int 0) ∨
      i * 99995 < ser.flatten.length) ∧
    ∀ t ∈ tres, Representable P E.reg t

/-- A loaded file whose TREs and user subheaders can be saved. -/
structure Savable (g : NFile P.F IO.D) : Prop where
  reg : E.reg.Causal
  tres : TresSavable P E Tables.t_file_header fileAreas g.header g.tres
  image : ∀ s ∈ g.image, TresSavable P E Tables.t_image_subheader imageAreas s.sub s.tres
  text : ∀ s ∈ g.text, TresSavable P E Tables.t_text_subheader textAreas s.sub s.tres
  graphic : ∀ s ∈ g.graphic, s.tres = [] ∧
    getAttr P Tables.t_graphic_subheader s.sub (n!"sxshdl") [] = .ok (.int 0)
  user : ∀ s ∈ g.des, ∀ d U, s.user = some (d, U) → d.causal = true ∧
    d.allFields FieldDef.wf = true ∧
    ∀ cs, writeChunks P d U = .ok cs → ∀ ch ∈ cs, Survives P d U ch

/-! ### Proof -/

variable {P}

theorem readStruct_areas {d : Desc} {areas : List Area}
    (H : HeaderAreas d areas (areaPositions d areas))
    (hA : AreasRows d areas (areas.map (areaMN d))) (hT : areasTopB d areas = true)
    (hB : areasPlainB d areas = true) {b rest : Bytes} {S : Store P.F}
    (h : readStruct P d false b = .ok (S, rest)) :
    ∃ vs, HoldsAll P d S (areaPositions d areas) vs ∧
      ∀ (i : Nat) (a : Area) (v : AreaVal), areas[i]? = some a → vs[i]? = some v →
        getAttr P d S a.len [] = .ok (.int v.len) ∧ 0 ≤ v.len ∧ (v.len = 0 → v.ofl = 0) := by
  have hpar := readStruct_parsed h
  have hex : ∀ p ∈ areaPositions d areas, ∃ v, Holds P d.tab S p v := by
    intro p hp
    obtain ⟨i, hi⟩ := List.mem_iff_getElem?.mp hp
    have hlt := lt_of_getElem? hi
    rw [← H.at_.1] at hlt
    exact hpar.holds hp hB (H.at_.2 i _ p (List.getElem?_eq_getElem hlt) hi)
  obtain ⟨vs, hvs⟩ : ∃ vs, HoldsAll P d S (areaPositions d areas) vs := by
    revert hex
    generalize areaPositions d areas = ps
    intro hex
    induction ps with
    | nil => exact ⟨[], .nil⟩
    | cons p ps ih =>
      obtain ⟨v, hv⟩ := hex p (by simp)
      obtain ⟨vs, hvs⟩ := ih fun q hq => hex q (by simp [hq])
      exact ⟨v :: vs, .cons hv hvs⟩
  refine ⟨vs, hvs, ?_⟩
  intro i a v ha hv
  have hlt := lt_of_getElem? hv
  rw [← Each.length hvs] at hlt
  have hp := List.getElem?_eq_getElem hlt
  have hat := H.at_.2 i a _ ha hp
  have hh : Holds P d.tab S _ v := Each.get hvs i _ _ hp hv
  have hmn : areaMN d a = ((areaPositions d areas)[i].m, (areaPositions d areas)[i].n) := by
    simp only [areaMN, hat.rlen, hat.rdata, Option.getD_some]
  have hTa := List.all_eq_true.mp hT a (List.mem_of_getElem? ha)
  rw [hmn] at hTa
  simp only [Bool.and_eq_true, decide_eq_true_eq] at hTa
  refine ⟨hat.getLen hh, readStruct_len H.causal hat hTa.1.1 hTa.1.2 h hh, ?_⟩
  intro h0
  obtain ⟨fo, f1, f2⟩ := hh.ofl
  obtain ⟨fo', g1, _, _, g4, _⟩ := hat.fofl
  rw [f1] at g1; injection g1 with g1; subst g1
  have := readStruct_oflClear H.causal hA hT h a (List.mem_of_getElem? ha) (by
    rw [attrPos_len hat hh, h0]
    simp) _ fo hat.rofl f1
  rw [this, finish_int P g4] at f2
  injection f2 with f2
  injection f2 with f2
  exact f2.symm

theorem tresReady_of {d : Desc} {areas : List Area}
    (H : HeaderAreas d areas (areaPositions d areas))
    (hA : AreasRows d areas (areas.map (areaMN d))) (hT : areasTopB d areas = true)
    (hB : areasPlainB d areas = true) {S : Store P.F} {tres : List (Tre P.F)}
    (h : ∃ b r, readStruct P d false b = .ok (S, r)) (ht : TresSavable P E d areas S tres) :
    TresReady P E d areas S tres := by
  obtain ⟨b, r, h⟩ := h
  obtain ⟨ser, s1, s2, s3, s4⟩ := ht
  obtain ⟨vs, v1, v2⟩ := readStruct_areas H hA hT hB h
  refine ⟨vs, ser, v1, s1, s2, ?_, s4⟩
  intro i v hv
  have hlt := lt_of_getElem? hv
  rw [← Each.length v1, ← H.at_.1] at hlt
  have ha := List.getElem?_eq_getElem hlt
  obtain ⟨e1, e2, e3⟩ := v2 i _ v ha hv
  rcases s3 i _ ha with h0 | h0
  · rw [e1] at h0
    injection h0 with h0
    injection h0 with h0
    exact .inl ⟨h0, e3 h0⟩
  · by_cases hz : v.len = 0
    · exact .inl ⟨hz, e3 hz⟩
    · exact .inr ⟨by omega, h0⟩

theorem readUser_none {k : SegKind} (hk : k ≠ .des) {S : Store P.F} {u : Option (Desc × Store P.F)}
    (h : readUser P E k S = .ok u) : u = none ∧ userCls P E k S = .ok none := by
  unfold readUser at h
  split at h
  · cases h
  · injection h with h
    rename_i h1
    exact ⟨h.symm, h1⟩
  · cases k with
    | des => exact absurd rfl hk
    | _ => cases h

/-- A loaded file meets the conditions of C26 and C67. -/
theorem read_ready {b : Bytes} {g : NFile P.F IO.D} (h : readFile P E IO b = .ok g)
    (hs : Savable P E IO g) : FileReady P E IO g ∧ NoLiterals P IO g := by
  have R := readFile_all E IO h
  have lit : ∀ k, ∀ s ∈ g.segs k, NoLit s.sub := by
    intro k s hm
    obtain ⟨b, r, hb⟩ := (R.segs k s hm).sub
    exact (readStruct_parsed hb).noLit
  have hdes : ∀ s ∈ g.des, ∀ d U, s.user = some (d, U) →
      userCls P E .des s.sub = .ok (some d) ∧ NoLit U := by
    intro s hm d U hu
    have hr := (R.segs .des s hm).user
    rw [hu] at hr
    unfold readUser at hr
    split at hr
    · cases hr
    · cases hr
    · rename_i d' hd'
      simp only at hr
      split at hr
      · cases hr
      · split at hr
        · cases hr
        · rename_i U' _ hU
          injection hr with hr
          injection hr with hr
          injection hr with hr1 hr2
          subst hr1 hr2
          exact ⟨hd', (readStruct_parsed hU).noLit⟩
      · cases hr
  refine ⟨⟨hs.reg, ?_, ?_, ?_, ?_, ?_⟩, ⟨R.tres, fun k s hm => (R.segs k s hm).tres, ?_⟩⟩
  · obtain ⟨b, r, hb⟩ := R.header
    exact (readStruct_parsed hb).noLit
  · exact tresReady_of E fileHeader_areas fileAreas_rows fileAreas_top (by decide +kernel) R.header
      hs.tres
  · exact fun k s hm => (R.segs k s hm).linked
  · intro k hk s hm
    have hr := R.segs k s hm
    obtain ⟨u1, u2⟩ := readUser_none E hk hr.user
    refine ⟨lit k s hm, ?_, ?_⟩
    · cases k with
      | des => exact absurd rfl hk
      | res => exact ⟨u1, u2⟩
      | _ => exact u1
    · cases k with
      | des => exact absurd rfl hk
      | res => exact hr.none rfl
      | image =>
        exact tresReady_of E imageHeader_areas (segAreas_rows (k := .image) rfl)
          (segAreas_top (k := .image) rfl) (by decide +kernel) hr.sub (hs.image s hm)
      | text =>
        exact tresReady_of E textHeader_areas (segAreas_rows (k := .text) rfl)
          (segAreas_top (k := .text) rfl) (by decide +kernel) hr.sub (hs.text s hm)
      | graphic => exact hs.graphic s hm
  · intro s hm _
    refine ⟨lit .des s hm, ?_, (R.segs .des s hm).none rfl⟩
    intro d U hu
    exact ⟨(hdes s hm d U hu).1, hs.user s hm d U hu⟩
  · exact fun s hm d U hu => (hdes s hm d U hu).2

/-! ### C68 -/

/-- **C68, partial.**  Whatever file was loaded (it need not have been written by the library, and
the saved file may differ from it): if it can be saved, then the saved file can be loaded, its
fields, TREs and segments have the values the loaded object had, and saving it once more gives the
same bytes.  So saving settles after one step.

Missing from the full claim: TREs that overflow (see `C67_overflow_swaps`), areas left over from the
original file (see `C68_grows`), graphic segments with TREs, TREs and user subheaders with values
that do not survive being written. -/
theorem C68_settles_partial {b : Bytes} {g g' : NFile P.F IO.D} {out : Bytes}
    (hr : readFile P E IO b = .ok g) (hs : Savable P E IO g)
    (h : writeFile P E IO g = .ok (g', out))
    (hd : ∀ k, ∀ s ∈ g'.segs k, HandlersReady P IO same k s)
    (hsame : ∀ x y, same x y → IO.write y = IO.write x)
    (hlen : out.length ≠ 999999999999) :
    ∃ g2, readFile P E IO out = .ok g2 ∧
      (∀ nm, itemsOf P Tables.t_file_header g2.header nm =
        itemsOf P Tables.t_file_header g'.header nm) ∧
      SameTres P g.tres g2.tres ∧
      (∀ k, k ≠ .des → Each (SameSeg P IO same k) (g'.segs k) (g2.segs k)) ∧
      (∃ ds os, g2.des = ds ++ os ∧ Each (SameSeg P IO same .des) g'.des ds ∧
        ∀ s ∈ os, (∃ b, s.data = .overflow b) ∧
          getAttr P Tables.t_des_subheader s.sub (n!"desid") [] =
            .ok (.str "TRE_OVERFLOW".toList)) ∧
      (NoOverflow P IO g2 →
        ∃ g3, writeFile P E IO g2 = .ok (g3, out) ∧ FileEqv P IO g2 g3) := by
  obtain ⟨hf, hn⟩ := read_ready E IO hr hs
  obtain ⟨g2, e1, e2⟩ := C67_load_save_partial P E IO same h hf hn hd hsame hlen
  obtain ⟨g2', f1, f2, f3, f4, f5⟩ := C26_round_trip_partial P E IO same h hf hd hlen
  rw [e1] at f1
  injection f1 with f1
  subst f1
  exact ⟨g2, e1, f2, f3, f4, f5, e2⟩

/-- C68, the object saved: saving a loaded file changes only the TRE areas, lengths and counts of the
object; the DES list loses the overflow segments it had.  (Together with `C68_settles_partial`: the
other fields of the file that is loaded the second time have the values loaded the first time.) -/
theorem C68_untouched_partial {b : Bytes} {g g' : NFile P.F IO.D} {out : Bytes}
    (hr : readFile P E IO b = .ok g) (hs : Savable P E IO g)
    (h : writeFile P E IO g = .ok (g', out)) :
    Untouched P Tables.t_file_header (bookFields none) g.header g'.header ∧ g'.tres = g.tres ∧
    (∀ k, k ≠ .des → Each (SegUntouched P IO k) (g.segs k) (g'.segs k)) ∧
    ∃ ds, dropOverflow P IO g.des = .ok ds ∧ Each (SegUntouched P IO .des) ds g'.des :=
  C26_untouched_partial P E IO h (read_ready E IO hr hs).1

/-! ### Where the full claim fails -/

variable (P) in
/-- The TREs of a header are read, put back unchanged, read again, and so on: the header after `n`
such rounds (`read_tre` and `prepare_tre_write`, nitf_tre.py:164-231; reading and writing the other
fields is left out). -/
def resaves (reg : Registry) (d : Desc) (areas : List Area) : Nat → Store P.F → Except Err (Store P.F)
  | 0, S => .ok S
  | n + 1, S => do
    let ts ← readTre P reg d [] areas S
    let (S', _) ← prepareTreWrite P d areas 0 ts S
    resaves reg d areas n S'

/-- Negation of the full claim: the file header of a file that has its TREs `g` in the second area
(UDHD) and none in the first (XHD).  Every time the file is loaded and saved it gets another copy of
the TREs: after `n` times there are `n + 1`. -/
theorem C68_grows {reg : Registry} (hreg : reg.Causal) {g : List Bytes} (hg : g ≠ [])
    (hw : ∀ b ∈ g, Rewritable P reg b) {S : Store P.F}
    (hS : HoldsAll P Tables.t_file_header S (areaPositions Tables.t_file_header fileAreas)
      [unused, ⟨g.flatten.length + 3, 0, g.flatten⟩]) (n : Nat)
    (hn : n * g.flatten.length < 99996) :
    ∃ S' us, resaves P reg Tables.t_file_header fileAreas n S = .ok S' ∧
      readTre P reg Tables.t_file_header [] fileAreas S' = .ok us ∧
      treWriteAll P us = .ok (List.replicate (n + 1) g).flatten := by
  have hne : g.flatten ≠ [] := by
    cases g with
    | nil => exact absurd rfl hg
    | cons b g =>
      have := (hw b (by simp)).ne_nil
      simp [this]
  -- the first area after `j` rounds
  let X : Nat → AreaVal := fun j => if j = 0 then unused else
    ⟨((List.replicate j g).flatten.flatten.length : Int) + 3, 0, (List.replicate j g).flatten.flatten⟩
  have hnej : ∀ j, j ≠ 0 → (List.replicate j g).flatten.flatten ≠ [] := by
    intro j hj
    obtain ⟨k, rfl⟩ := Nat.exists_eq_succ_of_ne_zero hj
    rw [List.replicate_succ, List.flatten_cons, List.flatten_append]
    simp [hne]
  have hread : ∀ j (S : Store P.F), HoldsAll P Tables.t_file_header S
      (areaPositions Tables.t_file_header fileAreas)
      [X j, ⟨g.flatten.length + 3, 0, g.flatten⟩] →
      ∃ us, readTre P reg Tables.t_file_header [] fileAreas S = .ok us ∧
        treWriteAll P us = .ok (List.replicate (j + 1) g).flatten := by
    intro j S hS
    obtain ⟨u1, a1, a2⟩ := rewritable_area (P := P) hreg hw
    have hrep : ∀ b ∈ (List.replicate j g).flatten, Rewritable P reg b := by
      intro b hb
      obtain ⟨l, l1, l2⟩ := List.mem_flatten.mp hb
      rw [List.eq_of_mem_replicate l1] at l2
      exact hw b l2
    obtain ⟨u2, b1, b2⟩ := rewritable_area (P := P) hreg hrep
    refine ⟨u2 ++ u1, ?_, ?_⟩
    · by_cases hj : j = 0
      · subst hj
        have hB : BlobsOf [] [X 0, ⟨(g.flatten.length : Int) + 3, 0, g.flatten⟩] [[], [g.flatten]] := by
          refine .cons ?_ (.cons ?_ .nil)
          · simp [AreaVal.blobs, X, unused]
          · have : (g.flatten.length : Int) + 3 > 0 := by omega
            simp only [AreaVal.blobs, this, if_true]
            rfl
        rw [readTre_holds P fileHeader_areas hS reg hB]
        simp only [List.replicate_zero, List.flatten_nil] at b1
        simp only [List.flatten_cons, List.flatten_nil, List.nil_append, List.append_nil, parseBlobs,
          a1]
        have : u2 = [] := by
          unfold readTreData at b1
          simp only [List.length_nil, readAreaF] at b1
          injection b1 with b1
          exact b1.symm
        rw [this, List.nil_append]
      · have hB : BlobsOf [] [X j, ⟨(g.flatten.length : Int) + 3, 0, g.flatten⟩]
            [[(List.replicate j g).flatten.flatten], [g.flatten]] := by
          refine .cons ?_ (.cons ?_ .nil)
          · have : ((List.replicate j g).flatten.flatten.length : Int) + 3 > 0 := by omega
            simp only [AreaVal.blobs, X, hj, if_false, this, if_true]
            rfl
          · have : (g.flatten.length : Int) + 3 > 0 := by omega
            simp only [AreaVal.blobs, this, if_true]
            rfl
        rw [readTre_holds P fileHeader_areas hS reg hB]
        simp only [List.flatten_cons, List.flatten_nil, List.append_nil, List.cons_append,
          List.nil_append, parseBlobs, a1, b1]
    · rw [treWriteAll_append b2 a2, List.replicate_succ', List.flatten_append]
      simp
  have hlenr : ∀ j, (List.replicate j g).flatten.flatten.length = j * g.flatten.length := by
    intro j
    induction j with
    | zero => simp
    | succ j ih =>
      rw [List.replicate_succ, List.flatten_cons, List.flatten_append, List.length_append, ih,
        Nat.succ_mul]
      omega
  have main : ∀ m j (S : Store P.F), HoldsAll P Tables.t_file_header S
      (areaPositions Tables.t_file_header fileAreas)
      [X j, ⟨g.flatten.length + 3, 0, g.flatten⟩] → (j + m) * g.flatten.length < 99996 →
      ∃ S', resaves P reg Tables.t_file_header fileAreas m S = .ok S' ∧
        HoldsAll P Tables.t_file_header S' (areaPositions Tables.t_file_header fileAreas)
          [X (j + m), ⟨g.flatten.length + 3, 0, g.flatten⟩] := by
    intro m
    induction m with
    | zero => intro j S hS _; exact ⟨S, rfl, hS⟩
    | succ m ih =>
      intro j S hS hl
      obtain ⟨us, u1, u2⟩ := hread j S hS
      have hfit : (List.replicate (j + 1) g).flatten.flatten.length < 99996 := by
        rw [hlenr]
        refine Nat.lt_of_le_of_lt (Nat.mul_le_mul_right _ ?_) hl
        omega
      have hpl : place (List.replicate (j + 1) g).flatten (fileAreas.map fun _ => []) [] =
          ([(List.replicate (j + 1) g).flatten.flatten, []], []) :=
        place_first [] [[]] [] _ [] (by simpa using hfit)
      obtain ⟨S1, p1, p2, _⟩ := prepare_spec P fileHeader_areas hS 0 u2 hpl (by simp)
      have hX : afterPrepare 0 [X j, ⟨(g.flatten.length : Int) + 3, 0, g.flatten⟩]
          [(List.replicate (j + 1) g).flatten.flatten, []] [] =
          [X (j + 1), ⟨g.flatten.length + 3, 0, g.flatten⟩] := by
        have h0 : (X j).ofl = 0 := by
          simp only [X]
          split <;> rfl
        simp only [afterPrepare, List.zipWith_cons_cons, List.zipWith_nil_left, AreaVal.store,
          if_neg (hnej (j + 1) (by omega)), if_true, h0, ite_self]
        simp only [X, Nat.succ_ne_zero, if_false]
      rw [hX] at p2
      obtain ⟨S', s1, s2⟩ := ih (j + 1) S1 p2 (by rw [show j + 1 + m = j + (m + 1) by omega]; exact hl)
      refine ⟨S', ?_, by rw [show j + (m + 1) = j + 1 + m by omega]; exact s2⟩
      unfold resaves
      simp only [bind, Except.bind, u1, p1]
      exact s1
  obtain ⟨S', s1, s2⟩ := main n 0 S hS (by rw [Nat.zero_add]; exact hn)
  rw [Nat.zero_add] at s2
  obtain ⟨us, u1, u2⟩ := hread n S' s2
  exact ⟨S', us, s1, u1, u2⟩

/-! ### Concrete cases -/

/-- The bytes of the file of `Verif/Props/File.lean`, with some bytes after the end. -/
def exForeign : Except Err Bytes := (writeFile P0 exEnv exIO exFile).map fun r => r.2 ++ [1, 2, 3]

/-- What the next example needs to know about the file read. -/
def exShape (g : NFile P0.F exIO.D) : Bool :=
  (match g.tres with
    | [.unknown tag b] => tag == "ABCDEF".toList && b == [1, 2]
    | _ => false) &&
  decide (((getAttr P0 Tables.t_file_header g.header (n!"udhdl") []).toOption) = some (.int 0)) &&
  g.image.isEmpty && g.graphic.isEmpty &&
  g.text.all (fun s => s.tres.isEmpty &&
    decide ((getAttr P0 Tables.t_text_subheader s.sub (n!"txshdl") []).toOption = some (.int 0))) &&
  g.des.all (fun s => s.user.isNone)

/-- All hypotheses of `C68_settles_partial` hold for this file. -/
theorem exShape_savable {g : NFile P0.F exIO.D} (h : exShape g = true) : Savable P0 exEnv exIO g := by
  have okk : ∀ {x : Except Err (Val P0.F)} {v}, x.toOption = some v → x = .ok v := by
    intro x v h
    cases x with
    | error e => cases h
    | ok y => injection h with h; rw [h]
  unfold exShape at h
  simp only [Bool.and_eq_true, decide_eq_true_eq, List.isEmpty_iff] at h
  obtain ⟨⟨⟨⟨⟨h1, h2⟩, h3⟩, h4⟩, h5⟩, h6⟩ := h
  refine ⟨(by intro t ht; cases ht), ?_, (by simp [h3]), ?_, (by simp [h4]), ?_⟩
  · split at h1
    · rename_i tag b ht
      simp only [Bool.and_eq_true, beq_iff_eq] at h1
      obtain ⟨rfl, rfl⟩ := h1
      refine ⟨[asc "ABCDEF00002" ++ [1, 2]], by rw [ht]; decide +kernel, by decide +kernel, ?_, ?_⟩
      · intro i a ha
        rcases i with _ | _ | i
        · exact .inr (by decide)
        · injection ha with ha
          subst ha
          exact .inl (okk h2)
        · cases ha
      · intro t htm
        rw [ht] at htm
        simp only [List.mem_cons, List.not_mem_nil, or_false] at htm
        subst htm
        exact ⟨⟨by decide, by decide, by decide⟩, rfl⟩
    · cases h1
  · intro s hs
    have := List.all_eq_true.mp h5 s hs
    simp only [Bool.and_eq_true, decide_eq_true_eq, List.isEmpty_iff] at this
    refine ⟨[], by rw [this.1]; rfl, by simp, ?_, by simp [this.1]⟩
    intro i a ha
    rcases i with _ | i
    · injection ha with ha
      subst ha
      exact .inl (okk this.2)
    · cases ha
  · intro s hs d U hu
    have := List.all_eq_true.mp h6 s hs
    rw [hu] at this
    cases this

theorem exForeign_shape : (exForeign.bind fun b => (readFile P0 exEnv exIO b).bind fun g =>
    (writeFile P0 exEnv exIO g).map fun r => (exShape g, decide (r.2 = b), r.2.length,
      SegKind.order.all fun k => (r.1.segs k).all fun s =>
        match s.data with
        | .other _ => true
        | .overflow _ => false)).toOption =
    some (true, false, 913, true) := by decide +kernel

/-- The theorem applied: the file read has bytes that are not saved, so saving changes the file, but
only once. -/
example : ∃ b g g' out g2, readFile P0 exEnv exIO b = .ok g ∧
    writeFile P0 exEnv exIO g = .ok (g', out) ∧ out ≠ b ∧ readFile P0 exEnv exIO out = .ok g2 ∧
    SameTres P0 g.tres g2.tres ∧ Each (SameSeg P0 exIO Eq .text) g'.text g2.text ∧
    (NoOverflow P0 exIO g2 → ∃ g3, writeFile P0 exEnv exIO g2 = .ok (g3, out)) := by
  have hall := exForeign_shape
  cases hb : exForeign with
  | error e => rw [hb] at hall; cases hall
  | ok b =>
    cases hg : readFile P0 exEnv exIO b with
    | error e => rw [hb] at hall; simp only [Except.bind, hg] at hall; cases hall
    | ok g =>
      cases hw : writeFile P0 exEnv exIO g with
      | error e =>
        rw [hb] at hall; simp only [Except.bind, hg, hw] at hall; cases hall
      | ok r =>
        obtain ⟨g', out⟩ := r
        rw [hb] at hall
        simp only [Except.bind, hg, hw, Except.map, Except.toOption, Option.some.injEq,
          Prod.mk.injEq, decide_eq_false_iff_not] at hall
        obtain ⟨h1, h2, h3, h4⟩ := hall
        obtain ⟨g2, e1, _, e3, e4, _, e6⟩ := C68_settles_partial exEnv exIO Eq hg
          (exShape_savable h1) hw (by
            intro k s hs
            refine exIO_ready k s ?_
            have := List.all_eq_true.mp (List.all_eq_true.mp h4 k (by cases k <;> decide)) s hs
            split at this
            · rename_i x hx; exact ⟨x, hx⟩
            · cases this) (fun x y e => by rw [e]) (by omega)
        exact ⟨b, g, g', out, g2, hg, hw, h2, e1, e3, e4 .text (by decide), fun hn =>
          (e6 hn).imp fun _ h => h.1⟩

/-- A case of `C68_grows`. -/
example : ∃ S S' us, resaves P0 [] Tables.t_file_header fileAreas 7 S = .ok S' ∧
    readTre P0 [] Tables.t_file_header [] fileAreas S' = .ok us ∧
    treWriteAll P0 us = .ok (List.replicate 8 (asc "ABC   00002hi")) := by
  obtain ⟨S, s1⟩ : ∃ S, HoldsAll P0 Tables.t_file_header S
      (areaPositions Tables.t_file_header fileAreas)
      [unused, ⟨(([asc "ABC   00002hi"] : List Bytes).flatten.length : Int) + 3, 0,
        ([asc "ABC   00002hi"] : List Bytes).flatten⟩] := by
    have hf := fileHeader_fresh P0
    have hat := fileHeader_areas.at_
    have hnd := fileHeader_areas.nodup
    generalize areaPositions Tables.t_file_header fileAreas = ps at hf hat hnd
    cases hf with
    | @cons p _ _ _ h1 h2 =>
      cases h2 with
      | @cons q _ _ _ h2 h3 =>
        cases h3
        refine ⟨_, .cons (h1.congr ?_) (.cons (setData_holds (hat.2 1 _ q rfl rfl) h2
          ([asc "ABC   00002hi"] : List Bytes).flatten _) .nil)⟩
        intro r hr
        have : r ≠ q.m ∧ r ≠ q.n := by
          simp only [List.flatMap_cons, List.flatMap_nil, List.append_nil] at hnd
          have := (List.nodup_append.mp hnd).2.2 r hr
          exact ⟨this _ (by simp [AreaPos.list]), this _ (by simp [AreaPos.list])⟩
        simp [Store.set, this.1, this.2]
  obtain ⟨S', us, h1, h2, h3⟩ := C68_grows (P := P0) (reg := []) (by intro e he; cases he)
    (g := [asc "ABC   00002hi"]) (by simp) (by
      intro b hb
      simp only [List.mem_cons, List.not_mem_nil, or_false] at hb
      subst hb
      exact rewritable_of (t := .unknown "ABC".toList (asc "hi"))
        ⟨⟨by decide, by decide, by decide⟩, rfl⟩ trivial (by decide +kernel)) s1 7 (by decide)
  exact ⟨S, S', us, h1, h2, by rw [h3]; rfl⟩

end Verif
