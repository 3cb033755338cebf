import Verif.Props.Standard
import Verif.Props.File

/-
C98 for whole files: the numbers at the places the standard gives are the lengths of the file, of its
header, and of its segments.
-/

namespace Verif.Standard

open Verif Verif.Sense

/-! ### Specification -/

/-- The bytes from `off` on, `w` of them, say the number `z`. -/
def Says (b : Bytes) (off w : Nat) (z : Int) : Prop := pyIntB ((b.drop off).take w) = .ok z

/-- Where a file header gives the number of segments of a kind, if there are `n k` of kind `k`. -/
def countAt (n : SegKind → Nat) : SegKind → Nat
  | .image => 360
  | .graphic => 363 + 16 * n .image
  | .text => 369 + 16 * n .image + 10 * n .graphic
  | .des => 372 + 16 * n .image + 10 * n .graphic + 9 * n .text
  | .res => 375 + 16 * n .image + 10 * n .graphic + 9 * n .text + 13 * n .des

/-- The widths of the lengths of subheader and data. -/
def lengthWidths : SegKind → Nat × Nat
  | .image => (6, 10)
  | .graphic => (4, 6)
  | .text => (4, 5)
  | .des => (4, 9)
  | .res => (4, 7)

variable (P : PyFloat)

/-! ### Proofs -/

/-- This field is there at this place. -/
def At (l : List Piece) (nm : String) (key : Key) (w off : Nat) : Prop :=
  ∃ pre post, l = pre ++ (nm, key, w) :: post ∧ total pre = off

/-- A field for whole numbers, which has its own name. -/
def wholeNumber (d : Desc) (nm : String) : Bool :=
  match resolve d.tab (nameCode nm.toList) with
  | none => false
  | some n =>
    ((List.range d.tab.length).all fun m =>
      decide (m = n ∨ (d.tab[m]?).bind (·.fd.name) ≠ some (nameCode nm.toList))) &&
    match d.tab[n]? with
    | none => false
    | some fi => decide (fi.fd.ty = .int) && !fi.fd.optional && decide (fi.fd.kind = .plain) &&
        fi.fd.cond.isNone && fi.fd.value.isNone

variable {P} in
theorem number_at {d : Desc} {R : Store P.F} {b rest : Bytes} {l : List Piece} {nm : String}
    {key : Key} {w off : Nat} {z : Int} (hr : ReadAs P d false R b l) (hl : At l nm key w off)
    (hi : wholeNumber d nm = true) (hg : getAttr P d R (nameCode nm.toList) key = .ok (.int z)) :
    Says (b ++ rest) off w z := by
  obtain ⟨cs, rfl, hp, hf⟩ := hr
  obtain ⟨pre, post, rfl, rfl⟩ := hl
  obtain ⟨before, ch, after, rfl, h1, h2, h3, h4⟩ := pieces_split hp
  simp only at h2 h3 h4
  obtain ⟨fi, v, h5, h6, h7⟩ := hf ch (by simp)
  unfold wholeNumber at hi
  unfold getAttr at hg
  cases hn : resolve d.tab (nameCode nm.toList) with
  | none => rw [hn] at hi; cases hi
  | some n =>
    rw [hn] at hi hg
    simp only [Bool.and_eq_true] at hi hg
    obtain ⟨i1, i2⟩ := hi
    have hpos : ch.pos = n := by
      have := of_decide_eq_true (List.all_eq_true.mp i1 ch.pos (List.mem_range.mpr (lt_of_getElem? h5)))
      rcases this with h | h
      · exact h
      · exact absurd h2 h
    rw [hpos] at h5 h7
    rw [h5] at i2
    simp only [Bool.and_eq_true, Bool.not_eq_true', Option.isNone_iff_eq_none] at i2
    obtain ⟨⟨⟨⟨i3, i4⟩, i5⟩, i6⟩, i7⟩ := i2
    have i3 := of_decide_eq_true i3
    have i5 := of_decide_eq_true i5
    rw [getItem_eq P key h5] at hg
    have hbytes : ((chunkBytes (before ++ ch :: after) ++ rest).drop (total pre)).take w = ch.bytes := by
      rw [← pieces_total h1]
      unfold chunkBytes
      simp only [List.map_append, List.map_cons, List.flatten_append, List.flatten_cons, List.append_assoc]
      rw [List.drop_left, ← h4]
      exact List.take_left' rfl
    unfold Says
    rw [hbytes]
    unfold parseField at h6
    simp only [Bool.false_eq_true, if_false, i4, Bool.false_and, i3] at h6
    by_cases hs : rstripB ch.bytes = []
    · rw [if_pos hs] at h6; cases h6
    · rw [if_neg hs] at h6
      rw [pyIntB_rstrip] at h6
      cases hz : pyIntB ch.bytes with
      | error e => rw [hz] at h6; cases h6
      | ok y =>
        rw [hz] at h6
        injection h6 with h6
        unfold getWith at hg
        rw [i5] at hg
        simp only at hg
        have hnm : fi.fd.name ≠ none := by
          rw [hpos, h5] at h2
          simp only [Option.bind_some] at h2
          rw [h2]; simp
        cases hlow : lowGet P (look P d.tab R) R fi n key with
        | error e => rw [hlow] at hg; cases hg
        | ok u =>
          rw [hlow] at hg
          injection hg with hg
          obtain ⟨s, e1, e2⟩ := lowGet_finish P hnm (cond_none i6) hlow
          have e2 := e2 i7
          unfold stored at e2
          rw [← h3, h7] at e2
          simp only at e2
          rw [e2, ← h6] at e1
          simp only [finish, coerce, i3] at e1
          injection e1 with e1
          rw [hg] at e1
          injection e1 with e1
          rw [e1]

theorem each_split {c : Int} {f : Int → List Piece} {i : Nat} (h : i < c.toNat) :
    ∃ post, each c f = each i f ++ (f i ++ post) := by
  unfold each
  obtain ⟨k, hk⟩ : ∃ k, c.toNat = i + (1 + k) := ⟨c.toNat - i - 1, by omega⟩
  rw [hk, List.range_add, List.flatMap_append, Nat.add_comm 1 k, List.range_succ_eq_map]
  simp only [List.map_cons, List.flatMap_cons, Nat.add_zero, Int.toNat_natCast]
  exact ⟨_, rfl⟩

/-- Where the fields of a counted group are. -/
theorem group_at {l pre : List Piece} {c : Int} {num a b : String} {wa wb : Nat}
    (h : ∃ post,
      l = pre ++ (row [] [(num, 3)] ++ each c fun i => row [i] [(a, wa), (b, wb)]) ++ post) :
    At l num [] 3 (total pre) ∧ ∀ i : Nat, i < c.toNat →
      At l a [(i : Int)] wa (total pre + 3 + i * (wa + wb)) ∧
      At l b [(i : Int)] wb (total pre + 3 + i * (wa + wb) + wa) := by
  obtain ⟨post, h⟩ := h
  have hw : ∀ i : Int, total (row [i] [(a, wa), (b, wb)]) = wa + wb := by
    intro i; simp [total, row]
  refine ⟨⟨pre, (each c fun i => row [i] [(a, wa), (b, wb)]) ++ post, ?_, rfl⟩, fun i hi => ?_⟩
  · rw [h]; simp [row]
  · obtain ⟨post', hp⟩ := each_split (f := fun i => row [i] [(a, wa), (b, wb)]) hi
    rw [hp] at h
    have ht : total (pre ++ row [] [(num, 3)] ++ each (i : Int) fun i => row [i] [(a, wa), (b, wb)]) =
        total pre + 3 + i * (wa + wb) := by
      rw [total_append, total_append, total_each _ _ _ hw]
      simp [total, row]
    constructor
    · refine ⟨pre ++ row [] [(num, 3)] ++ each (i : Int) fun i => row [i] [(a, wa), (b, wb)],
        (b, [(i : Int)], wb) :: (post' ++ post), ?_, ht⟩
      rw [h]; simp [row]
    · refine ⟨pre ++ row [] [(num, 3)] ++ (each (i : Int) fun i => row [i] [(a, wa), (b, wb)]) ++
        [(a, [(i : Int)], wa)], post' ++ post, ?_, ?_⟩
      · rw [h]; simp [row]
      · rw [total_append, ht]; simp [total]

def headFront : List Piece :=
  row [] ([("fhdr", 4), ("fver", 5), ("clevel", 2), ("stype", 4), ("ostaid", 10), ("fdt", 14),
    ("ftitle", 80)] ++ security "fs" ++ [("fscop", 5), ("fscpys", 5), ("encryp", 1), ("fbkgc", 3),
    ("oname", 24), ("ophone", 18)])

theorem file_places (a : SegKind → Int) (u x : Int) :
    let l := fileHeader (a .image) (a .graphic) (a .text) (a .des) (a .res) u x
    let n := fun k => (a k).toNat
    At l "fl" [] 12 342 ∧ At l "hl" [] 6 354 ∧ ∀ k, ∃ num s d : String,
      nameCode num.toList = k.numField ∧ nameCode s.toList = k.lenFields.1 ∧
      nameCode d.toList = k.lenFields.2 ∧ wholeNumber Tables.t_file_header num = true ∧
      wholeNumber Tables.t_file_header s = true ∧ wholeNumber Tables.t_file_header d = true ∧
      At l num [] 3 (countAt n k) ∧ ∀ i, i < n k →
        At l s [(i : Int)] (lengthWidths k).1
          (countAt n k + 3 + i * ((lengthWidths k).1 + (lengthWidths k).2)) ∧
        At l d [(i : Int)] (lengthWidths k).2
          (countAt n k + 3 + i * ((lengthWidths k).1 + (lengthWidths k).2) + (lengthWidths k).1) := by
  intro l n
  have e1 := total_each (a .image) 16 (fun i => row [i] [("lish", 6), ("li", 10)]) fun i => rfl
  have e2 := total_each (a .graphic) 10 (fun i => row [i] [("lssh", 4), ("ls", 6)]) fun i => rfl
  have e3 := total_each (a .text) 9 (fun i => row [i] [("ltsh", 4), ("lt", 5)]) fun i => rfl
  have e4 := total_each (a .des) 13 (fun i => row [i] [("ldsh", 4), ("ld", 9)]) fun i => rfl
  have hf : total headFront = 342 := by decide +kernel
  have r3 : ∀ s : String, total (row [] [(s, 3)]) = 3 := fun s => by simp [total, row]
  have rf : total (row [] [("fl", 12), ("hl", 6)]) = 18 := by simp [total, row]
  have hl : l = headFront ++ row [] [("fl", 12), ("hl", 6)] ++
      (row [] [("numi", 3)] ++ each (a .image) fun i => row [i] [("lish", 6), ("li", 10)]) ++
      (row [] [("nums", 3)] ++ each (a .graphic) fun i => row [i] [("lssh", 4), ("ls", 6)]) ++
      row [] [("numx", 3)] ++
      (row [] [("numt", 3)] ++ each (a .text) fun i => row [i] [("ltsh", 4), ("lt", 5)]) ++
      (row [] [("numdes", 3)] ++ each (a .des) fun i => row [i] [("ldsh", 4), ("ld", 9)]) ++
      (row [] [("numres", 3)] ++ each (a .res) fun i => row [i] [("lresh", 4), ("lre", 7)]) ++
      (area "udhdl" "udhofl" "udhd" u ++ area "xhdl" "xhdlofl" "xhd" x) := by
    show fileHeader _ _ _ _ _ _ _ = _
    unfold fileHeader headFront
    simp only [row, List.map_append, List.append_assoc, List.map_cons, List.map_nil, List.cons_append,
      List.nil_append]
  refine ⟨⟨headFront, _, by rw [hl]; simp only [row, List.map_cons, List.map_nil, List.append_assoc,
      List.cons_append, List.nil_append]; rfl, hf⟩,
    ⟨headFront ++ [("fl", [], 12)], _, by rw [hl]; simp only [row, List.map_cons, List.map_nil,
      List.append_assoc, List.cons_append, List.nil_append]; rfl, by rw [total_append, hf]; rfl⟩, ?_⟩
  intro k
  cases k with
  | image =>
    refine ⟨"numi", "lish", "li", ?_, ?_, ?_, ?_, ?_, ?_, ?_⟩ <;> try decide +kernel
    have := group_at (l := l) (c := a .image) (num := "numi") (a := "lish") (b := "li") (wa := 6) (wb := 10)
      (pre := headFront ++ row [] [("fl", 12), ("hl", 6)]) ⟨
        (row [] [("nums", 3)] ++ each (a .graphic) fun i => row [i] [("lssh", 4), ("ls", 6)]) ++
        row [] [("numx", 3)] ++
        (row [] [("numt", 3)] ++ each (a .text) fun i => row [i] [("ltsh", 4), ("lt", 5)]) ++
        (row [] [("numdes", 3)] ++ each (a .des) fun i => row [i] [("ldsh", 4), ("ld", 9)]) ++
        (row [] [("numres", 3)] ++ each (a .res) fun i => row [i] [("lresh", 4), ("lre", 7)]) ++
        (area "udhdl" "udhofl" "udhd" u ++ area "xhdl" "xhdlofl" "xhd" x), by
        rw [hl]; simp only [List.append_assoc]⟩
    rw [show total (headFront ++ row [] [("fl", 12), ("hl", 6)]) = countAt n .image by
      simp only [total_append, hf, rf, countAt]] at this
    exact this
  | graphic =>
    refine ⟨"nums", "lssh", "ls", ?_, ?_, ?_, ?_, ?_, ?_, ?_⟩ <;> try decide +kernel
    have := group_at (l := l) (c := a .graphic) (num := "nums") (a := "lssh") (b := "ls") (wa := 4) (wb := 6)
      (pre := headFront ++ row [] [("fl", 12), ("hl", 6)] ++
      (row [] [("numi", 3)] ++ each (a .image) fun i => row [i] [("lish", 6), ("li", 10)])) ⟨
        row [] [("numx", 3)] ++
        (row [] [("numt", 3)] ++ each (a .text) fun i => row [i] [("ltsh", 4), ("lt", 5)]) ++
        (row [] [("numdes", 3)] ++ each (a .des) fun i => row [i] [("ldsh", 4), ("ld", 9)]) ++
        (row [] [("numres", 3)] ++ each (a .res) fun i => row [i] [("lresh", 4), ("lre", 7)]) ++
        (area "udhdl" "udhofl" "udhd" u ++ area "xhdl" "xhdlofl" "xhd" x), by
        rw [hl]; simp only [List.append_assoc]⟩
    rw [show total (headFront ++ row [] [("fl", 12), ("hl", 6)] ++
      (row [] [("numi", 3)] ++ each (a .image) fun i => row [i] [("lish", 6), ("li", 10)])) =
        countAt n .graphic by
      simp only [total_append, hf, rf, r3, e1, countAt, n]; omega] at this
    exact this
  | text =>
    refine ⟨"numt", "ltsh", "lt", ?_, ?_, ?_, ?_, ?_, ?_, ?_⟩ <;> try decide +kernel
    have := group_at (l := l) (c := a .text) (num := "numt") (a := "ltsh") (b := "lt") (wa := 4) (wb := 5)
      (pre := headFront ++ row [] [("fl", 12), ("hl", 6)] ++
      (row [] [("numi", 3)] ++ each (a .image) fun i => row [i] [("lish", 6), ("li", 10)]) ++
      (row [] [("nums", 3)] ++ each (a .graphic) fun i => row [i] [("lssh", 4), ("ls", 6)]) ++
      row [] [("numx", 3)]) ⟨
        (row [] [("numdes", 3)] ++ each (a .des) fun i => row [i] [("ldsh", 4), ("ld", 9)]) ++
        (row [] [("numres", 3)] ++ each (a .res) fun i => row [i] [("lresh", 4), ("lre", 7)]) ++
        (area "udhdl" "udhofl" "udhd" u ++ area "xhdl" "xhdlofl" "xhd" x), by
        rw [hl]; simp only [List.append_assoc]⟩
    rw [show total (headFront ++ row [] [("fl", 12), ("hl", 6)] ++
      (row [] [("numi", 3)] ++ each (a .image) fun i => row [i] [("lish", 6), ("li", 10)]) ++
      (row [] [("nums", 3)] ++ each (a .graphic) fun i => row [i] [("lssh", 4), ("ls", 6)]) ++
      row [] [("numx", 3)]) = countAt n .text by
      simp only [total_append, hf, rf, r3, e1, e2, countAt, n]; omega] at this
    exact this
  | des =>
    refine ⟨"numdes", "ldsh", "ld", ?_, ?_, ?_, ?_, ?_, ?_, ?_⟩ <;> try decide +kernel
    have := group_at (l := l) (c := a .des) (num := "numdes") (a := "ldsh") (b := "ld") (wa := 4) (wb := 9)
      (pre := headFront ++ row [] [("fl", 12), ("hl", 6)] ++
      (row [] [("numi", 3)] ++ each (a .image) fun i => row [i] [("lish", 6), ("li", 10)]) ++
      (row [] [("nums", 3)] ++ each (a .graphic) fun i => row [i] [("lssh", 4), ("ls", 6)]) ++
      row [] [("numx", 3)] ++
      (row [] [("numt", 3)] ++ each (a .text) fun i => row [i] [("ltsh", 4), ("lt", 5)])) ⟨
        (row [] [("numres", 3)] ++ each (a .res) fun i => row [i] [("lresh", 4), ("lre", 7)]) ++
        (area "udhdl" "udhofl" "udhd" u ++ area "xhdl" "xhdlofl" "xhd" x), by
        rw [hl]; simp only [List.append_assoc]⟩
    rw [show total (headFront ++ row [] [("fl", 12), ("hl", 6)] ++
      (row [] [("numi", 3)] ++ each (a .image) fun i => row [i] [("lish", 6), ("li", 10)]) ++
      (row [] [("nums", 3)] ++ each (a .graphic) fun i => row [i] [("lssh", 4), ("ls", 6)]) ++
      row [] [("numx", 3)] ++
      (row [] [("numt", 3)] ++ each (a .text) fun i => row [i] [("ltsh", 4), ("lt", 5)])) =
        countAt n .des by
      simp only [total_append, hf, rf, r3, e1, e2, e3, countAt, n]; omega] at this
    exact this
  | res =>
    refine ⟨"numres", "lresh", "lre", ?_, ?_, ?_, ?_, ?_, ?_, ?_⟩ <;> try decide +kernel
    have := group_at (l := l) (c := a .res) (num := "numres") (a := "lresh") (b := "lre") (wa := 4) (wb := 7)
      (pre := headFront ++ row [] [("fl", 12), ("hl", 6)] ++
      (row [] [("numi", 3)] ++ each (a .image) fun i => row [i] [("lish", 6), ("li", 10)]) ++
      (row [] [("nums", 3)] ++ each (a .graphic) fun i => row [i] [("lssh", 4), ("ls", 6)]) ++
      row [] [("numx", 3)] ++
      (row [] [("numt", 3)] ++ each (a .text) fun i => row [i] [("ltsh", 4), ("lt", 5)]) ++
      (row [] [("numdes", 3)] ++ each (a .des) fun i => row [i] [("ldsh", 4), ("ld", 9)])) ⟨
        (area "udhdl" "udhofl" "udhd" u ++ area "xhdl" "xhdlofl" "xhd" x), by
        rw [hl]⟩
    rw [show total (headFront ++ row [] [("fl", 12), ("hl", 6)] ++
      (row [] [("numi", 3)] ++ each (a .image) fun i => row [i] [("lish", 6), ("li", 10)]) ++
      (row [] [("nums", 3)] ++ each (a .graphic) fun i => row [i] [("lssh", 4), ("ls", 6)]) ++
      row [] [("numx", 3)] ++
      (row [] [("numt", 3)] ++ each (a .text) fun i => row [i] [("ltsh", 4), ("lt", 5)]) ++
      (row [] [("numdes", 3)] ++ each (a .des) fun i => row [i] [("ldsh", 4), ("ld", 9)])) =
        countAt n .res by
      simp only [total_append, hf, rf, r3, e1, e2, e3, e4, countAt, n]; omega] at this
    exact this

/-! ### C98 for files -/

variable (E : Env) (IO : DataIO P.F)

/-- Every file that is written, read by the standard alone: the file length is at 342, the header
length at 354, the numbers of segments and the lengths of their subheaders and data are at the places
that follow from the widths of table A-1, and the segments follow the header in this order. -/
theorem C98_file {f f' : NFile P.F IO.D} {out : Bytes} (h : writeFile P E IO f = .ok (f', out))
    (hlit : NoLit f.header) (hlink : ∀ k, ∀ s ∈ f.segs k, s.linked = true) :
    ∃ (hb : Bytes) (parts : SegKind → List (Bytes × Bytes)),
      out = hb ++ partsBytes parts ∧
      (∀ k, k ≠ .des → Each (Verif.WrittenAs P IO k) (f'.segs k) (parts k)) ∧
      Says out 342 12 out.length ∧ Says out 354 6 hb.length ∧
      ∀ k, let at0 := countAt (fun k => (parts k).length) k
        let w := lengthWidths k
        Says out at0 3 (parts k).length ∧
        ∀ (i : Nat) p, (parts k)[i]? = some p →
          Says out (at0 + 3 + i * (w.1 + w.2)) w.1 p.1.length ∧
          Says out (at0 + 3 + i * (w.1 + w.2) + w.1) w.2 p.2.length := by
  obtain ⟨hb, parts, des, h1, h2, _, _, R, hR, hfl, hhl, hk⟩ := C25_lengths P E IO h hlit hlink
  refine ⟨hb, parts, h1, h2, ?_⟩
  obtain ⟨b, hbb, ni, ns, nt, nd, nr, u, x, hhas, hread⟩ := C98_file_read P hR
  have count : ∀ {nm : Name} {c : Int} {m : Nat}, Counts P Tables.t_file_header R nm [] c →
      getAttr P Tables.t_file_header R nm [] = .ok (.int (m : Nat)) → c = m := by
    intro nm c m hc hg
    rcases hc with hc | ⟨hc, _⟩
    · rw [hg] at hc; injection hc with hc; injection hc with hc; exact hc.symm
    · rw [hg] at hc; injection hc with hc; cases hc
  have c1 := count hhas.numi (hk .image).1
  have c2 := count hhas.nums (hk .graphic).1
  have c3 := count hhas.numt (hk .text).1
  have c4 := count hhas.numdes (hk .des).1
  have c5 := count hhas.numres (hk .res).1
  subst c1 c2 c3 c4 c5
  obtain ⟨p1, p2, p3⟩ := file_places (fun k => ((parts k).length : Int)) u x
  rw [hbb]
  rw [hbb] at hfl
  refine ⟨number_at hread p1 (by decide +kernel) hfl, number_at hread p2 (by decide +kernel) hhl, ?_⟩
  intro k
  obtain ⟨num, s, d, q1, q2, q3, q4, q5, q6, q7, q8⟩ := p3 k
  refine ⟨number_at hread q7 q4 (by rw [q1]; exact (hk k).1), ?_⟩
  intro i p hp
  have hi : i < ((parts k).length : Int).toNat := by
    rw [Int.toNat_natCast]; exact (List.getElem?_eq_some_iff.mp hp).1
  obtain ⟨r1, r2⟩ := q8 i hi
  obtain ⟨g1, g2⟩ := (hk k).2 i p hp
  exact ⟨number_at hread r1 q5 (by rw [q2]; exact g1), number_at hread r2 q6 (by rw [q3]; exact g2)⟩

/-- The file `exFile` (a text and a DES): the number of texts is at 369 as there is no image and no
graphic; the first text subheader has 282 bytes and its length is at 372. -/
example : (writeFile P0 exEnv exIO exFile).toOption.map (fun x =>
    [pyIntB ((x.2.drop 342).take 12), pyIntB ((x.2.drop 354).take 6), pyIntB ((x.2.drop 369).take 3),
      pyIntB ((x.2.drop 372).take 4), pyIntB ((x.2.drop 381).take 3)].map Except.toOption) =
    some [some 913, some 426, some 1, some 282, some 1] := by
  decide +kernel

example : countAt (fun | .text => 1 | .des => 1 | _ => 0) .des = 381 := rfl

end Verif.Standard
