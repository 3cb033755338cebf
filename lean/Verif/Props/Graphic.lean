import Verif.Props.Finds

/-
C90: the TREs of graphic segments.

The library writes the number of the overflow segment of a graphic segment to an attribute `sxsofl`
that is not a field of the subheader (nitf_segment.py:287, the field is `sxofl`).  So a graphic segment
is C89 as long as its TREs fit into the area of the subheader, and loses all TREs of the overflow
segment otherwise: they are in the file, but nothing says to which segment they belong.
-/

namespace Verif.Graphic

open Verif Verif.Meaning Verif.Sense Verif.Spell Verif.Split Verif.Finds

variable {P : PyFloat}

/-- The place of the area in the table. -/
def spot : List AreaPos := areaPositions Tables.t_graphic_subheader [graphicArea]

theorem graphic_areas : HeaderAreas Tables.t_graphic_subheader [graphicArea] spot :=
  headerAreas_of (by decide +kernel) (by decide +kernel)

theorem graphic_fresh (P : PyFloat) : HoldsAll P Tables.t_graphic_subheader Store.empty spot [unused] :=
  fresh_holds' P graphic_areas (by decide +kernel)

/-! ### One area -/

theorem place_fits {ser heads : List Bytes} {ov : Bytes} (h : place ser [[]] [] = (heads, ov)) :
    ser.flatten.length < 99996 → heads = [ser.flatten] ∧ ov = [] := by
  intro hl
  have := place_replay (A := []) (B := []) (ov := []) (rest := []) ser [] (by simp) (by simpa using hl)
  simp only [List.append_nil, List.nil_append] at this
  rw [this] at h
  simp only [place] at h
  injection h with h1 h2
  exact ⟨h1.symm, h2.symm⟩

/-- Where the TREs went. -/
theorem place_lost {ser heads : List Bytes} {ov : Bytes} (h : place ser [[]] [] = (heads, ov))
    (hne : ∀ b ∈ ser, b ≠ []) {α : Type} {l : List α} (hl : l.length = ser.length) :
    ∃ dest : List (Option Nat), dest.length = ser.length ∧ heads = [(picks dest ser (some 0)).flatten] ∧
      ov = (picks dest ser none).flatten ∧ (picks dest l (some 0)).length + (picks dest l none).length = l.length ∧
      (picks dest l none = [] ↔ ser.flatten.length < 99996) := by
  obtain ⟨dest, d1, d2, d3, d4, d5, d6⟩ := place_spec ser [[]] []
  rw [h] at d3 d4 d5 d6
  simp only [List.nil_append] at d5
  have hheads : heads = [(picks dest ser (some 0)).flatten] := by
    have := d4 0 [] rfl
    cases heads with
    | nil => cases this
    | cons x xs =>
      simp only [List.getElem?_cons_zero, Option.some.injEq, List.nil_append] at this
      cases xs with
      | nil => rw [this]
      | cons y ys => simp at d3
  have hks : ∀ k ∈ dest, k ∈ [some 0, none] := by
    intro k hk
    cases k with
    | none => simp
    | some i =>
      have := d2 _ hk i rfl
      simp only [List.length_cons, List.length_nil] at this
      have : i = 0 := by omega
      subst this
      simp
  have hp := fun {β : Type} (xs : List β) (hx : dest.length = xs.length) =>
    (picks_perm (ks := [some 0, none]) (by decide) dest xs hx hks).length_eq
  simp only [List.flatMap_cons, List.flatMap_nil, List.append_nil, List.length_append] at hp
  refine ⟨dest, d1, hheads, d5, hp l (by omega), ?_⟩
  have hsame : (picks dest l none).length = (picks dest ser none).length := by
    have : Each (fun _ _ => True) l ser := each_of_get hl fun _ _ _ _ _ => trivial
    exact Each.length (this.picks dest none)
  have hnil : picks dest l none = [] ↔ picks dest ser none = [] := by
    rw [← List.length_eq_zero_iff, hsame, List.length_eq_zero_iff]
  rw [hnil]
  constructor
  · intro hn
    have hf := d6 (by simp [AreaFits]) _ (by rw [hheads]; exact List.mem_singleton_self _)
    have hperm := picks_perm (ks := [some 0, none]) (by decide) dest ser (by omega) hks
    simp only [List.flatMap_cons, List.flatMap_nil, List.append_nil, hn] at hperm
    rw [← hperm.flatten.length_eq]
    exact hf
  · intro hs
    obtain ⟨_, ho⟩ := place_fits h hs
    rw [ho] at d5
    cases hn : picks dest ser none with
    | nil => rfl
    | cons b r =>
      rw [hn, List.flatten_cons] at d5
      have hb : b ∈ ser := by
        have : b ∈ picks dest ser none := by rw [hn]; simp
        unfold picks at this
        rw [List.mem_filterMap] at this
        obtain ⟨q, q1, q2⟩ := this
        split at q2
        · injection q2 with q2
          rw [← q2]
          exact (List.of_mem_zip q1).2
        · cases q2
      exact absurd (List.append_eq_nil_iff.mp d5.symm).1 (hne b hb)

theorem picks_sublist {α κ : Type} [DecidableEq κ] (k : κ) : ∀ (dest : List κ) (xs : List α),
    (picks dest xs k).Sublist xs
  | [], xs => by simp [picks]
  | _ :: _, [] => by simp [picks]
  | k0 :: dest, x :: xs => by
    rw [picks_cons]
    split
    · exact (picks_sublist k dest xs).cons_cons x
    · exact (picks_sublist k dest xs).cons x

/-- The area after `prepare_tre_write`. -/
theorem graphic_prepared {S S' : Store P.F} {n : Nat} {ts : List (Tre P.F)} {o : Option Bytes}
    (hS : HoldsAll P Tables.t_graphic_subheader S spot [unused])
    (h : prepareTreWrite P Tables.t_graphic_subheader graphicAreas n ts S = .ok (S', o)) :
    ∃ ser heads ov, treWriteAll P ts = .ok ser ∧ place ser [[]] [] = (heads, ov) ∧
      HoldsAll P Tables.t_graphic_subheader S' spot (List.zipWith AreaVal.store [unused] heads) := by
  cases hser : treWriteAll P ts with
  | error e => unfold prepareTreWrite at h; rw [hser] at h; cases h
  | ok ser =>
    cases hpl : place ser [[]] [] with
    | mk heads ov =>
      refine ⟨ser, heads, ov, rfl, hpl, ?_⟩
      have hA := areasAt_of P graphic_areas.at_ hS
      have hlen : heads.length = [graphicArea].length := by
        obtain ⟨_, _, _, h, _⟩ := place_spec ser [[]] []
        rw [hpl] at h
        simpa using h
      obtain ⟨S1, s1, s2, s3⟩ := storeAreas_spec graphic_areas.causal hA graphic_areas.nodup hlen
      have hno : resolve Tables.t_graphic_subheader.tab (n!"sxsofl") = none := by decide +kernel
      have hset : ∀ (S : Store P.F) v, setA P Tables.t_graphic_subheader S (n!"sxsofl") v = .ok S := by
        intro S v
        simp only [setA, setAttr, hno]
      have hat : attrPos P Tables.t_graphic_subheader S (n!"sxshdl") = .ok false := by
        obtain ⟨q, hq⟩ : ∃ q, spot = [q] := ⟨_, rfl⟩
        rw [hq] at hA
        cases hA with
        | cons a1 a2 _ =>
          have := a1.getLen a2
          have : getAttr P Tables.t_graphic_subheader S (n!"sxshdl") [] = .ok (.int 0) := this
          unfold attrPos
          rw [this]
          rfl
      have hst : storeAreas P Tables.t_graphic_subheader graphicAreas heads S = .ok S1 := by
        rw [← s1]
        cases heads with
        | nil => rfl
        | cons x xs => simp only [graphicAreas, graphicArea, storeAreas, hat, Bool.false_eq_true, if_false]
      unfold prepareTreWrite at h
      rw [hser] at h
      simp only [show (graphicAreas.map fun _ => ([] : Bytes)) = [[]] from rfl, hpl, hst] at h
      have hS1 : S' = S1 := by
        split at h
        · simp only [graphicAreas, hset] at h
          injection h with h
          injection h with h
          exact h.symm
        · injection h with h
          injection h with h
          exact h.symm
      rw [hS1]
      exact s2.each

/-- Bytes in a TRE with its frame. -/
def size (t : Bytes × Bytes) : Nat := 11 + t.2.length

theorem framed_total {l : List (Bytes × Bytes)} {bs : List Bytes} (h : Each Framed l bs) :
    bs.flatten.length = (l.map size).sum ∧ ∀ b ∈ bs, b ≠ [] := by
  induction h with
  | nil => simp
  | cons h _ ih =>
    obtain ⟨h1, t, rfl, h2⟩ := h
    have h3 := h2.1
    refine ⟨?_, ?_⟩
    · simp only [List.flatten_cons, List.length_append, List.map_cons, List.sum_cons, ih.1, size, h1, h3]
      omega
    · intro b hb
      rcases List.mem_cons.mp hb with rfl | hb
      · intro he
        have := congrArg List.length he
        simp only [List.length_append, List.length_nil] at this
        omega
      · exact ih.2 b hb

variable (E : Env) (IO : DataIO P.F)

/-- C90, both sides: the readers of C89 find some of the TREs of a graphic segment, in order, and all of
them just if together they are below 99996 bytes. -/
theorem C90_graphic {f f' : NFile P.F IO.D} {out : Bytes} (h : writeFile P E IO f = .ok (f', out))
    (hlit : NoLit f.header) (hlink : ∀ k, ∀ s ∈ f.segs k, s.linked = true) {i : Nat} {s : Seg P.F IO.D}
    (hs : f.graphic[i]? = some s) (hsub : NoLit s.sub) (htag : ∀ t ∈ s.tres, TagOk t.tag)
    (hS : HoldsAll P Tables.t_graphic_subheader s.sub spot [unused]) :
    ∃ p hd data x found l, pieces out = some p ∧ p.graphic[i]? = some (hd, data) ∧ graphicHeader hd = some x ∧
      allTres p [x] = some found ∧ Each TreOf s.tres l ∧ found.Sublist l ∧
      (found = l ↔ (l.map size).sum < 99996) := by
  obtain ⟨r⟩ := writeFile_run P E IO h
  have hlt : i < (f'.segs .graphic).length := by
    rw [r.after .graphic (by decide), List.length_map, ← Each.length (r.each .graphic),
      ← Each.length (r.prepared P E IO (k := .graphic) (by decide))]
    exact lt_of_getElem? hs
  obtain ⟨hd, data, n, o, e1, e2, e3, e4, _⟩ := run_segment E IO r (k := .graphic) (by decide) rfl hs
    (List.getElem?_eq_getElem hlt)
  obtain ⟨x, x1, x2⟩ := C89_graphic (e3 hsub) e2
  obtain ⟨ser, heads, ov, g1, g2, g3⟩ := graphic_prepared hS e4
  obtain ⟨l, l1, l2⟩ := each_framed htag (treWriteAll_each P g1)
  obtain ⟨t1, t2⟩ := framed_total l2
  obtain ⟨dest, d1, d2, d3, d4, d5⟩ := place_lost g2 t2 (Each.length l2)
  obtain ⟨q, hq⟩ : ∃ q, spot = [q] := ⟨_, rfl⟩
  have hA : AreaAt Tables.t_graphic_subheader.tab graphicArea q :=
    graphic_areas.at_.2 0 _ _ rfl (by rw [hq]; rfl)
  rw [d2, hq] at g3
  have hx : x.data = (picks dest ser (some 0)).flatten ∧ overflowIn (runPieces P E IO r) x = some [] := by
    generalize (picks dest ser (some 0)).flatten = b at g3
    cases g3 with
    | cons a1 _ =>
      rcases x2.val graphic_areas.causal hA a1 with ⟨h1, rfl⟩ | ⟨h1, t, rfl, h3, h4⟩
      · refine ⟨?_, rfl⟩
        by_cases h0 : b = []
        · exact h0.symm
        · simp only [AreaVal.store, if_neg h0] at h1
          omega
      · have h0 : b ≠ [] := by
          rintro rfl
          exact h1 rfl
        refine ⟨by simp [AreaVal.store, h0], ?_⟩
        rw [overflow_number (n := 0) h3 (by simpa [AreaVal.store, unused, h0] using h4), if_pos rfl]
  refine ⟨_, hd, data, x, picks dest l (some 0), l, pieces_run P E IO r hlit hlink, ?_, x1, ?_, l1,
    picks_sublist _ _ _, ?_⟩
  · simp only [runPieces, List.getElem?_map, e1, Option.map_some]
  · unfold allTres allTres
    rw [hx.2, hx.1, tres_flatten (l2.picks dest (some 0))]
    simp [tres, tresIn]
  · rw [← t1, ← d5, ← List.length_eq_zero_iff]
    constructor
    · intro he
      rw [he] at d4
      omega
    · intro he
      exact (picks_sublist _ _ _).eq_of_length (by omega)

/-- C90 as far as it holds: TREs that fit into the subheader are found.  Missing: those that do not
(see `C90_lost`). -/
theorem C90_fits_partial {f f' : NFile P.F IO.D} {out : Bytes} (h : writeFile P E IO f = .ok (f', out))
    (hlit : NoLit f.header) (hlink : ∀ k, ∀ s ∈ f.segs k, s.linked = true) {i : Nat} {s : Seg P.F IO.D}
    (hs : f.graphic[i]? = some s) (hsub : NoLit s.sub) (htag : ∀ t ∈ s.tres, TagOk t.tag)
    (hS : HoldsAll P Tables.t_graphic_subheader s.sub spot [unused])
    (hfit : ∀ l, Each TreOf s.tres l → (l.map size).sum < 99996) :
    ∃ p hd data x l, pieces out = some p ∧ p.graphic[i]? = some (hd, data) ∧ graphicHeader hd = some x ∧
      allTres p [x] = some l ∧ Each TreOf s.tres l := by
  obtain ⟨p, hd, data, x, found, l, h1, h2, h3, h4, h5, _, h7⟩ := C90_graphic E IO h hlit hlink hs hsub htag hS
  rw [h7.mpr (hfit l h5)] at h4
  exact ⟨p, hd, data, x, l, h1, h2, h3, h4, h5⟩

/-- Negation of C90: of TREs that do not fit together into the subheader, at least one is not found. -/
theorem C90_lost {f f' : NFile P.F IO.D} {out : Bytes} (h : writeFile P E IO f = .ok (f', out))
    (hlit : NoLit f.header) (hlink : ∀ k, ∀ s ∈ f.segs k, s.linked = true) {i : Nat} {s : Seg P.F IO.D}
    (hs : f.graphic[i]? = some s) (hsub : NoLit s.sub) (htag : ∀ t ∈ s.tres, TagOk t.tag)
    (hS : HoldsAll P Tables.t_graphic_subheader s.sub spot [unused])
    (hbig : ∀ l, Each TreOf s.tres l → 99996 ≤ (l.map size).sum) :
    ∃ p hd data x found, pieces out = some p ∧ p.graphic[i]? = some (hd, data) ∧ graphicHeader hd = some x ∧
      allTres p [x] = some found ∧ found.length < s.tres.length := by
  obtain ⟨p, hd, data, x, found, l, h1, h2, h3, h4, h5, h6, h7⟩ := C90_graphic E IO h hlit hlink hs hsub htag hS
  refine ⟨p, hd, data, x, found, h1, h2, h3, h4, ?_⟩
  rw [Each.length h5]
  rcases Nat.lt_or_ge found.length l.length with hl | hl
  · exact hl
  · have := h7.mp (h6.eq_of_length_le hl)
    have := hbig l h5
    omega

/-! ### Concrete cases -/

/-- A file with a graphic segment and TREs with bodies of these lengths. -/
def exGraphic (ns : List Nat) : NFile P0.F exIO.D :=
  { header := Store.empty
    graphic := [{ linked := true, sub := Store.empty, data := .other (asc "hi"),
                  tres := ns.map fun n => .unknown "ABCDEF".toList (List.replicate n 1) }] }

def exFound (ns : List Nat) : Option (List Nat) :=
  (writeFile P0 exEnv exIO (exGraphic ns)).toOption.bind fun x => do
    let p ← pieces x.2
    let (b, _) ← p.graphic[0]?
    let y ← graphicHeader b
    let l ← allTres p [y]
    some (l.map size)

example : exFound [2, 3] = some [13, 14] := by decide +kernel

/-- The first TRE is too large for the area, the second is found. -/
example : exFound [99985, 3] = some [14] := by decide +kernel

end Verif.Graphic
