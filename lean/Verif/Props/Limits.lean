import Verif.Props.Graphic

/-
C91: what is too large for the format is not written.
C92: TREs of text and graphic segments that are too large for the subheader, but not for the area.
-/

namespace Verif.Limits

open Verif Verif.Meaning Verif.Sense Verif.Spell Verif.Split Verif.Finds Verif.Graphic

variable {P : PyFloat}

/-! ### Specification -/

/-- Bytes of the lengths of subheader and data in the file header. -/
def digits : SegKind → Nat × Nat
  | .image => (6, 10)
  | .graphic => (4, 6)
  | .text => (4, 5)
  | .des => (4, 9)
  | .res => (4, 7)

/-- All of it is within the limits of the format. -/
structure Within (p : Pieces) (b : Bytes) : Prop where
  total : b.length < 10 ^ 12
  header : p.header.length < 10 ^ 6
  count : ∀ k, (p.of k).length < 1000
  each : ∀ k, ∀ q ∈ p.of k, q.1.length < 10 ^ (digits k).1 ∧ q.2.length < 10 ^ (digits k).2

/-- One piece after the other. -/
def together (l : List (Bytes × Bytes)) : Bytes := l.flatMap fun q => q.1 ++ q.2

/-! ### The splitter -/

theorem next_some {w : Nat} {b t r : Bytes} (h : next w b = some (t, r)) : t.length = w ∧ b = t ++ r := by
  unfold next at h
  split at h
  · rename_i hw
    simp only [Option.some.injEq, Prod.mk.injEq] at h
    obtain ⟨rfl, rfl⟩ := h
    exact ⟨by simp [hw], (List.take_append_drop w b).symm⟩
  · cases h

theorem number_some {w n : Nat} {b r : Bytes} (h : number w b = some (n, r)) :
    n < 10 ^ w ∧ ∃ t, t.length = w ∧ b = t ++ r := by
  unfold number at h
  simp only [Option.bind_eq_bind, Option.bind_eq_some_iff, Prod.exists] at h
  obtain ⟨t, r', h1, h2⟩ := h
  obtain ⟨h3, h4⟩ := next_some h1
  split at h2
  · rename_i hd
    simp only [Option.some.injEq, Prod.mk.injEq] at h2
    obtain ⟨rfl, rfl⟩ := h2
    refine ⟨?_, t, h3, h4⟩
    have := decimal_lt (l := codes t) (by
      intro c hc
      unfold codes at hc
      rw [List.mem_map] at hc
      obtain ⟨x, hx, rfl⟩ := hc
      have := List.all_eq_true.mp hd x hx
      simpa using this)
    rwa [show (codes t).length = w by simp [codes, h3]] at this
  · cases h2

theorem lengths_some {w1 w2 : Nat} : ∀ {n : Nat} {b r : Bytes} {l : List (Nat × Nat)},
    lengths w1 w2 n b = some (l, r) → l.length = n ∧ ∀ x ∈ l, x.1 < 10 ^ w1 ∧ x.2 < 10 ^ w2
  | 0, b, r, l, h => by
    simp only [lengths, Option.some.injEq, Prod.mk.injEq] at h
    rw [← h.1]
    simp
  | n + 1, b, r, l, h => by
    simp only [lengths, Option.bind_eq_bind, Option.bind_eq_some_iff, Prod.exists, Option.some.injEq,
      Prod.mk.injEq] at h
    obtain ⟨x, b1, h1, y, b2, h2, l', b3, h3, rfl, rfl⟩ := h
    obtain ⟨i1, i2⟩ := lengths_some h3
    refine ⟨by simp [i1], ?_⟩
    intro z hz
    rcases List.mem_cons.mp hz with rfl | hz
    · exact ⟨(number_some h1).1, (number_some h2).1⟩
    · exact i2 z hz

theorem group_some {w1 w2 : Nat} {b r : Bytes} {l : List (Nat × Nat)} (h : group w1 w2 b = some (l, r)) :
    l.length < 1000 ∧ ∀ x ∈ l, x.1 < 10 ^ w1 ∧ x.2 < 10 ^ w2 := by
  simp only [group, Option.bind_eq_bind, Option.bind_eq_some_iff, Prod.exists] at h
  obtain ⟨n, b', h1, h2⟩ := h
  obtain ⟨i1, i2⟩ := lengths_some h2
  have := (number_some h1).1
  exact ⟨by omega, i2⟩

theorem cut_some : ∀ {l : List (Nat × Nat)} {b r : Bytes} {ps : List (Bytes × Bytes)}, cut l b = some (ps, r) →
    b = together ps ++ r ∧ ps.map (fun q => (q.1.length, q.2.length)) = l
  | [], b, r, ps, h => by
    simp only [cut, Option.some.injEq, Prod.mk.injEq] at h
    obtain ⟨rfl, rfl⟩ := h
    exact ⟨rfl, rfl⟩
  | (x, y) :: l, b, r, ps, h => by
    simp only [cut, Option.bind_eq_bind, Option.bind_eq_some_iff, Prod.exists, Option.some.injEq,
      Prod.mk.injEq] at h
    obtain ⟨s, b1, h1, t, b2, h2, ps', b3, h3, rfl, rfl⟩ := h
    obtain ⟨e1, e2⟩ := next_some h1
    obtain ⟨e3, e4⟩ := next_some h2
    obtain ⟨e5, e6⟩ := cut_some h3
    refine ⟨?_, by simp [e1, e3, e6]⟩
    rw [e2, e4, e5]
    simp [together]

theorem within_of {l : List (Nat × Nat)} {w1 w2 : Nat} (h : l.length < 1000 ∧ ∀ x ∈ l, x.1 < 10 ^ w1 ∧ x.2 < 10 ^ w2)
    {ps : List (Bytes × Bytes)} (hp : ps.map (fun q => (q.1.length, q.2.length)) = l) :
    ps.length < 1000 ∧ ∀ q ∈ ps, q.1.length < 10 ^ w1 ∧ q.2.length < 10 ^ w2 := by
  subst hp
  refine ⟨by simpa using h.1, fun q hq => ?_⟩
  exact h.2 _ (List.mem_map.mpr ⟨q, hq, rfl⟩)

/-- The pieces make up the file, and are within the limits. -/
theorem pieces_some {b : Bytes} {p : Pieces} (h : pieces b = some p) :
    Within p b ∧ b = p.header ++ together p.image ++ together p.graphic ++ together p.text ++ together p.des ++
      together p.res := by
  simp only [pieces, Option.bind_eq_bind, Option.bind_eq_some_iff, Prod.exists] at h
  obtain ⟨L, _, h0, hdr, r0, h1, i, r1, h2, g, r2, h3, t, r3, h4, d, r4, h5, e, r5, h6, h7⟩ := h
  simp only [lens, Option.bind_eq_bind, Option.bind_eq_some_iff, Prod.exists, Option.some.injEq,
    Prod.mk.injEq] at h0
  obtain ⟨_, _, _, fl, _, a1, hl, _, a2, li, _, a3, ls, _, a4, _, _, _, lt, _, a5, ld, _, a6, lr, _, a7, rfl, _⟩ := h0
  split at h7
  · rename_i hc
    injection h7 with h7
    subst h7
    obtain ⟨n1, n2⟩ := next_some h1
    obtain ⟨c1, c1'⟩ := cut_some h2
    obtain ⟨c2, c2'⟩ := cut_some h3
    obtain ⟨c3, c3'⟩ := cut_some h4
    obtain ⟨c4, c4'⟩ := cut_some h5
    obtain ⟨c5, c5'⟩ := cut_some h6
    have w1 := within_of (group_some a3) c1'
    have w2 := within_of (group_some a4) c2'
    have w3 := within_of (group_some a5) c3'
    have w4 := within_of (group_some a6) c4'
    have w5 := within_of (group_some a7) c5'
    refine ⟨⟨?_, ?_, ?_, ?_⟩, ?_⟩
    · rw [← hc.1]
      exact (number_some a1).1
    · show hdr.length < _
      rw [n1]
      exact (number_some a2).1
    · intro k
      cases k
      · exact w1.1
      · exact w2.1
      · exact w3.1
      · exact w4.1
      · exact w5.1
    · intro k
      cases k
      · exact w1.2
      · exact w2.2
      · exact w3.2
      · exact w4.2
      · exact w5.2
    · rw [n2, c1, c2, c3, c4, c5, hc.2]
      simp
  · cases h7

variable (E : Env) (IO : DataIO P.F)

/-- C91: every file that is written is within the limits of the format. -/
theorem C91_within {f f' : NFile P.F IO.D} {out : Bytes} (h : writeFile P E IO f = .ok (f', out))
    (hlit : NoLit f.header) (hlink : ∀ k, ∀ s ∈ f.segs k, s.linked = true) :
    ∃ p, pieces out = some p ∧ Within p out := by
  obtain ⟨p, _, h1, _⟩ := C88_pieces P E IO h hlit hlink
  exact ⟨p, h1, (pieces_some h1).1⟩

/-- The segments of a written file, one by one. -/
theorem run_data {f f' : NFile P.F IO.D} {out : Bytes} (r : WriteRun P E IO f f' out) {k : SegKind} (hk : k ≠ .des) :
    Each (fun s q => writeData P IO s.data = .ok q.2) (f.segs k) ((runPieces P E IO r).of k) := by
  have hof : (runPieces P E IO r).of k = (r.res k).map (·.2) := by cases k <;> rfl
  have h1 := r.prepared P E IO hk
  have h2 := r.each k
  rw [hof]
  refine each_of_get (by rw [List.length_map, Each.length h1, Each.length h2]) fun i s q hs hq => ?_
  rw [List.getElem?_map] at hq
  cases hx : (r.res k)[i]? with
  | none => rw [hx] at hq; cases hq
  | some x =>
    rw [hx] at hq
    injection hq with hq
    subst hq
    have hlt : i < (r.segs1 k).length := by
      rw [Each.length h2]
      exact lt_of_getElem? hx
    have hg := List.getElem?_eq_getElem hlt
    obtain ⟨_, _, _, _, e, _⟩ := segBytes_ok P E IO (Each.get h2 i _ _ hg hx)
    rw [(Each.get h1 i _ _ hs hg).data] at e
    exact e

/-- C91: a file with a thousand or more segments of one kind is not written. -/
theorem C91_too_many {f : NFile P.F IO.D} (hlit : NoLit f.header)
    (hlink : ∀ k, ∀ s ∈ f.segs k, s.linked = true) {k : SegKind} (hk : k ≠ .des) (hn : 1000 ≤ (f.segs k).length) :
    ∃ e, writeFile P E IO f = .error e := by
  cases h : writeFile P E IO f with
  | error e => exact ⟨e, rfl⟩
  | ok x =>
    obtain ⟨r⟩ := writeFile_run P E IO h
    have := (pieces_some (pieces_run P E IO r hlit hlink)).1.count k
    have := Each.length (run_data E IO r hk)
    omega

/-- C91: a file with a segment whose data is too long for the format is not written. -/
theorem C91_too_large {f : NFile P.F IO.D} (hlit : NoLit f.header)
    (hlink : ∀ k, ∀ s ∈ f.segs k, s.linked = true) {k : SegKind} (hk : k ≠ .des) {s : Seg P.F IO.D}
    (hs : s ∈ f.segs k) {b : Bytes} (hb : writeData P IO s.data = .ok b) (hn : 10 ^ (digits k).2 ≤ b.length) :
    ∃ e, writeFile P E IO f = .error e := by
  cases h : writeFile P E IO f with
  | error e => exact ⟨e, rfl⟩
  | ok x =>
    obtain ⟨r⟩ := writeFile_run P E IO h
    obtain ⟨i, hi⟩ := List.getElem?_of_mem hs
    have hd := run_data E IO r hk
    have hlt : i < ((runPieces P E IO r).of k).length := by
      rw [← Each.length hd]
      exact lt_of_getElem? hi
    have hg := List.getElem?_eq_getElem hlt
    have hq := Each.get hd i _ _ hi hg
    rw [hb] at hq
    injection hq with hq
    have := ((pieces_some (pieces_run P E IO r hlit hlink)).1.each k _ (List.mem_of_getElem? hg)).2
    rw [← hq] at this
    omega

/-! ### C92 -/

theorem area_some {b r : Bytes} {x : Place} (h : Finds.area b = some (x, r)) :
    b.length = (if x.data = [] then 5 + (if x.overflow = none then 0 else 3) else 8 + x.data.length) + r.length := by
  simp only [Finds.area, Option.bind_eq_bind, Option.bind_eq_some_iff, Prod.exists] at h
  obtain ⟨n, b1, h1, h2⟩ := h
  obtain ⟨_, t, e1, rfl⟩ := number_some h1
  split at h2
  · simp only [Option.some.injEq, Prod.mk.injEq] at h2
    obtain ⟨rfl, rfl⟩ := h2
    simp [e1]
  · simp only [Option.bind_eq_some_iff, Prod.exists] at h2
    obtain ⟨o, b2, h3, u, b3, h4, h5⟩ := h2
    obtain ⟨e2, rfl⟩ := next_some h3
    obtain ⟨e3, rfl⟩ := next_some h4
    split at h5
    · simp only [Option.some.injEq, Prod.mk.injEq] at h5
      obtain ⟨rfl, rfl⟩ := h5
      simp only [List.length_append, e1, e2]
      by_cases hu : u = []
      · subst hu
        simp only [if_true, List.length_nil, reduceCtorEq, if_false]
        omega
      · simp only [if_neg hu]
        omega
    · cases h5

/-- The length of a text subheader. -/
theorem text_length {b : Bytes} {x : Place} (h : textHeader b = some x) (hx : x.data ≠ []) :
    b.length = 285 + x.data.length := by
  simp only [textHeader, Option.bind_eq_bind, Option.bind_eq_some_iff, Prod.exists] at h
  obtain ⟨t, b1, h1, y, r, h2, h3⟩ := h
  obtain ⟨e1, rfl⟩ := next_some h1
  have e2 := area_some h2
  split at h3
  · rename_i hr
    injection h3 with h3
    subst h3 hr
    rw [if_neg hx] at e2
    simp only [List.length_append, e1, e2, List.length_nil]
    omega
  · cases h3

/-- The length of a graphic subheader. -/
theorem graphic_length {b : Bytes} {x : Place} (h : graphicHeader b = some x) (hx : x.data ≠ []) :
    b.length = 261 + x.data.length := by
  simp only [graphicHeader, Option.bind_eq_bind, Option.bind_eq_some_iff, Prod.exists] at h
  obtain ⟨t, b1, h1, y, r, h2, h3⟩ := h
  obtain ⟨e1, rfl⟩ := next_some h1
  have e2 := area_some h2
  split at h3
  · rename_i hr
    injection h3 with h3
    subst h3 hr
    rw [if_neg hx] at e2
    simp only [List.length_append, e1, e2, List.length_nil]
    omega
  · cases h3

/-- C92 as far as it holds: TREs of up to 9714 bytes leave the subheader of a text segment short enough
for the length in the file header.  Missing: the others, although there is an overflow segment for
them (see `C92_text_raises`). -/
theorem C92_text_partial {S : Store P.F} {b : Bytes} (hl : NoLit S)
    (hw : writeStruct P Tables.t_text_subheader S = .ok b) :
    ∃ x, textHeader b = some x ∧ Shown P Tables.t_text_subheader S textArea x ∧
      (x.data ≠ [] → (b.length < 10 ^ 4 ↔ x.data.length ≤ 9714)) := by
  obtain ⟨x, h1, h2⟩ := C89_text hl hw
  refine ⟨x, h1, h2, fun hx => ?_⟩
  rw [text_length h1 hx]
  omega

/-- The same for graphic segments. -/
theorem C92_graphic_partial {S : Store P.F} {b : Bytes} (hl : NoLit S)
    (hw : writeStruct P Tables.t_graphic_subheader S = .ok b) :
    ∃ x, graphicHeader b = some x ∧ Shown P Tables.t_graphic_subheader S graphicArea x ∧
      (x.data ≠ [] → (b.length < 10 ^ 4 ↔ x.data.length ≤ 9738)) := by
  obtain ⟨x, h1, h2⟩ := C89_graphic hl hw
  refine ⟨x, h1, h2, fun hx => ?_⟩
  rw [graphic_length h1 hx]
  omega

/-- Negation of C92: a text segment whose TREs have more than 9714 bytes, but fit into the area, makes
it impossible to write the file. -/
theorem C92_text_raises {f : NFile P.F IO.D} (hlit : NoLit f.header) (hlink : ∀ k, ∀ s ∈ f.segs k, s.linked = true)
    {s : Seg P.F IO.D} (hs : s ∈ f.text) (hsub : NoLit s.sub) (htag : ∀ t ∈ s.tres, TagOk t.tag)
    (hS : HoldsAll P Tables.t_text_subheader s.sub (areaPositions Tables.t_text_subheader textAreas) [unused])
    (hsum : ∀ l, Each TreOf s.tres l → 9714 < (l.map size).sum ∧ (l.map size).sum < 99996) :
    ∃ e, writeFile P E IO f = .error e := by
  cases h : writeFile P E IO f with
  | error e => exact ⟨e, rfl⟩
  | ok z =>
    exfalso
    obtain ⟨f', out⟩ := z
    obtain ⟨r⟩ := writeFile_run P E IO h
    obtain ⟨i, hi⟩ := List.getElem?_of_mem hs
    have hlt : i < (f'.segs .text).length := by
      rw [r.after .text (by decide), List.length_map, ← Each.length (r.each .text),
        ← Each.length (r.prepared P E IO (k := .text) (by decide))]
      exact lt_of_getElem? hi
    obtain ⟨hd, data, n, o, e1, e2, e3, e4, e5⟩ := run_segment E IO r (k := .text) (by decide) rfl hi
      (List.getElem?_eq_getElem hlt)
    obtain ⟨x, x1, x2⟩ := C89_text (e3 hsub) e2
    obtain ⟨ser, heads, ov, h1, h2, h3, h4, h5, _⟩ := prepare_ok P textHeader_areas hS e4
    obtain ⟨l, l1, l2⟩ := each_framed htag (treWriteAll_each P h1)
    obtain ⟨t1, _⟩ := framed_total l2
    obtain ⟨s1, s2⟩ := hsum l l1
    rw [← t1] at s1 s2
    obtain ⟨rfl, rfl⟩ := place_fits h2 s2
    have hx := (places_of (P := P) (p := runPieces P E IO r) (places := [x]) textHeader_areas h4 h5
      (fun hne => absurd rfl hne) (by rw [textAreas_eq]; exact .cons x2 .nil) (i := 0) (x := x) rfl rfl).1
    have hne : x.data ≠ [] := by
      intro he
      rw [← hx, he] at s1
      simp at s1
    have hlen := text_length x1 hne
    rw [hx] at hlen
    have := ((pieces_some (pieces_run P E IO r hlit hlink)).1.each .text (hd, data) (by
      refine List.mem_of_getElem? (i := i) ?_
      simp only [runPieces, Pieces.of, List.getElem?_map, e1, Option.map_some])).1
    simp only [digits] at this
    omega

/-- The same for graphic segments, from 9739 bytes on. -/
theorem C92_graphic_raises {f : NFile P.F IO.D} (hlit : NoLit f.header)
    (hlink : ∀ k, ∀ s ∈ f.segs k, s.linked = true) {s : Seg P.F IO.D} (hs : s ∈ f.graphic) (hsub : NoLit s.sub)
    (htag : ∀ t ∈ s.tres, TagOk t.tag) (hS : HoldsAll P Tables.t_graphic_subheader s.sub spot [unused])
    (hsum : ∀ l, Each TreOf s.tres l → 9738 < (l.map size).sum ∧ (l.map size).sum < 99996) :
    ∃ e, writeFile P E IO f = .error e := by
  cases h : writeFile P E IO f with
  | error e => exact ⟨e, rfl⟩
  | ok z =>
    exfalso
    obtain ⟨f', out⟩ := z
    obtain ⟨r⟩ := writeFile_run P E IO h
    obtain ⟨i, hi⟩ := List.getElem?_of_mem hs
    have hlt : i < (f'.segs .graphic).length := by
      rw [r.after .graphic (by decide), List.length_map, ← Each.length (r.each .graphic),
        ← Each.length (r.prepared P E IO (k := .graphic) (by decide))]
      exact lt_of_getElem? hi
    obtain ⟨hd, data, n, o, e1, e2, e3, e4, e5⟩ := run_segment E IO r (k := .graphic) (by decide) rfl hi
      (List.getElem?_eq_getElem hlt)
    obtain ⟨x, x1, x2⟩ := C89_graphic (e3 hsub) e2
    obtain ⟨ser, heads, ov, h1, h2, h4⟩ := graphic_prepared hS e4
    obtain ⟨l, l1, l2⟩ := each_framed htag (treWriteAll_each P h1)
    obtain ⟨t1, _⟩ := framed_total l2
    obtain ⟨s1, s2⟩ := hsum l l1
    rw [← t1] at s1 s2
    obtain ⟨rfl, rfl⟩ := place_fits h2 s2
    obtain ⟨q, hq⟩ : ∃ q, spot = [q] := ⟨_, rfl⟩
    have hA : AreaAt Tables.t_graphic_subheader.tab graphicArea q :=
      graphic_areas.at_.2 0 _ _ rfl (by rw [hq]; rfl)
    rw [hq] at h4
    have h0 : ser.flatten ≠ [] := by
      intro he
      rw [he] at s1
      simp at s1
    have hx : x.data = ser.flatten := by
      generalize ser.flatten = b at h4 h0
      cases h4 with
      | cons a1 _ =>
        rcases x2.val graphic_areas.causal hA a1 with ⟨h1, rfl⟩ | ⟨h1, t, rfl, h3, h4⟩
        · simp only [AreaVal.store, if_neg h0] at h1
          omega
        · simp [AreaVal.store, h0]
    have hlen := graphic_length x1 (by rw [hx]; exact h0)
    rw [hx] at hlen
    have := ((pieces_some (pieces_run P E IO r hlit hlink)).1.each .graphic (hd, data) (by
      refine List.mem_of_getElem? (i := i) ?_
      simp only [runPieces, Pieces.of, List.getElem?_map, e1, Option.map_some])).1
    simp only [digits] at this
    omega

/-! ### Concrete cases -/

/-- A file with a text segment and a TRE with a body of this length. -/
def exText (n : Nat) : NFile P0.F exIO.D :=
  { header := Store.empty
    text := [{ linked := true, sub := Store.empty, data := .other (asc "hi"),
               tres := [.unknown "ABCDEF".toList (List.replicate n 1)] }] }

/-- TREs with bodies the format allows. -/
example (n : Nat) (h1 : 9703 < n) (h2 : n < 99985) : ∃ e, writeFile P0 exEnv exIO (exText n) = .error e := by
  refine C92_text_raises exEnv exIO NoLit.empty ?_ List.mem_cons_self NoLit.empty ?_ (textHeader_fresh P0) ?_
  · intro k s hs
    cases k <;> simp [exText, NFile.segs] at hs
    subst hs
    rfl
  · intro t ht
    simp only [List.mem_cons, List.not_mem_nil, or_false] at ht
    subst ht
    exact (⟨by decide +kernel, by decide +kernel, by decide +kernel⟩ : TagOk "ABCDEF".toList)
  · intro l hl
    cases hl with
    | cons a1 a2 =>
      cases a2
      have := a1.2
      simp only [Tre.body] at this
      injection this with this
      simp only [List.map_cons, List.map_nil, List.sum_cons, List.sum_nil, size, ← this, List.length_replicate]
      omega

example : (writeFile P0 exEnv exIO (exText 9703)).toOption.isSome = true := by decide +kernel
example : (writeFile P0 exEnv exIO (exText 9704)).toOption.isSome = false := by decide +kernel

/-- Text of 100000 bytes and more. -/
example (b : Bytes) (hb : 100000 ≤ b.length) : ∃ e, writeFile P0 exEnv exIO { exFile with
    text := [{ linked := true, sub := Store.empty, data := .other b }] } = .error e := by
  refine C91_too_large exEnv exIO NoLit.empty ?_ (k := .text) (by decide) List.mem_cons_self (b := b) rfl
    (by simpa [digits] using hb)
  intro k s hs
  cases k <;> simp [exFile, NFile.segs] at hs <;> subst hs <;> rfl

end Verif.Limits
