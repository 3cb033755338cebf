import Verif.FileRead

/-
Properties of whole files: C25 - C29, C49.

`DataIO` stands for the data handlers (image data, text, DES data): any functions writing and
reading the data of a segment.  `writeFile f = .ok (f', out)`: `f` is written successfully, the
file object afterwards is `f'`, the bytes of the file are `out`.
-/

namespace Verif

variable (P : PyFloat) (E : Env) (IO : DataIO P.F)

/-! ### A small file for the examples -/

/-- Data objects that are just bytes. -/
def exIO : DataIO P0.F where
  D := Bytes
  write := .ok
  read := fun _ _ size b => .ok (fhRead size b)
  data := .ok

def exEnv : Env := { reg := [] }

/-- A file with a text segment "hi" and a DES segment with three bytes of data, both with default
subheaders, and a TRE at file level. -/
def exFile : NFile P0.F exIO.D :=
  { header := Store.empty
    tres := [.unknown "ABCDEF".toList [1, 2]]
    text := [{ linked := true, sub := Store.empty, data := .other (asc "hi") }]
    des := [{ linked := true, sub := Store.empty, data := .other [7, 8, 9] }] }

/-! ### C25 -/

/-- A segment is written as these subheader bytes and these data bytes. -/
def WrittenAs (k : SegKind) (s : Seg P.F IO.D) (p : Bytes × Bytes) : Prop :=
  writeStruct P k.desc s.sub = .ok p.1 ∧ writeData P IO s.data = .ok p.2

theorem WriteRun.writtenAs {f f' : NFile P.F IO.D} {out : Bytes} (r : WriteRun P E IO f f' out)
    (k : SegKind) : Each (WrittenAs P IO k) ((r.res k).map (·.1)) ((r.res k).map (·.2)) := by
  have : ∀ l : List (Seg P.F IO.D × Bytes × Bytes), (∀ x ∈ l, WrittenAs P IO k x.1 x.2) →
      Each (WrittenAs P IO k) (l.map (·.1)) (l.map (·.2)) := by
    intro l
    induction l with
    | nil => intro _; exact .nil
    | cons x l ih =>
      intro h
      exact .cons (h x (by simp)) (ih fun y hy => h y (by simp [hy]))
  refine this _ fun x hx => ?_
  obtain ⟨s, _, hs⟩ := (r.each k).mem_right hx
  obtain ⟨sub, _, h2, h3, h4, _⟩ := segBytes_ok P E IO hs
  unfold WrittenAs
  rw [h2]
  exact ⟨h3, h4⟩

/-- C25: the header of a written file, read back, describes the file. The file is the header
followed by the segments in the order image, graphic, text, DES, RES; `fl` is the length of the
file, `hl` that of the header, and for every kind the count and, for every segment, the lengths of
its subheader and its data.  The DES segments written are those left in the file object plus the
overflow segments, which are dropped from the object after writing. -/
theorem C25_lengths {f f' : NFile P.F IO.D} {out : Bytes}
    (h : writeFile P E IO f = .ok (f', out)) (hlit : NoLit f.header)
    (hlink : ∀ k, ∀ s ∈ f.segs k, s.linked = true) :
    ∃ (hb : Bytes) (parts : SegKind → List (Bytes × Bytes)) (des : List (Seg P.F IO.D)),
      out = hb ++ partsBytes parts ∧
      (∀ k, k ≠ .des → Each (WrittenAs P IO k) (f'.segs k) (parts k)) ∧
      Each (WrittenAs P IO .des) des (parts .des) ∧ dropOverflow P IO des = .ok f'.des ∧
      ∃ R, readStruct P Tables.t_file_header false out = .ok (R, partsBytes parts) ∧
        getAttr P Tables.t_file_header R (n!"fl") [] = .ok (.int (out.length : Nat)) ∧
        getAttr P Tables.t_file_header R (n!"hl") [] = .ok (.int (hb.length : Nat)) ∧
        ∀ k, getAttr P Tables.t_file_header R k.numField [] =
            .ok (.int ((parts k).length : Nat)) ∧
          ∀ (i : Nat) p, (parts k)[i]? = some p →
            getAttr P Tables.t_file_header R k.lenFields.1 [(i : Int)] =
              .ok (.int (p.1.length : Nat)) ∧
            getAttr P Tables.t_file_header R k.lenFields.2 [(i : Int)] =
              .ok (.int (p.2.length : Nat)) := by
  obtain ⟨r⟩ := writeFile_run P E IO h
  obtain ⟨R, r1, _, _, r2, r3, r4⟩ := r.readLengths P E IO hlit hlink
  refine ⟨chunkBytes r.cs', _, _, r.out_eq, ?_, r.writtenAs P E IO .des, r.drop1, R, r1, r2, r3, ?_⟩
  · intro k hk
    rw [r.after k hk]
    exact r.writtenAs P E IO k
  · intro k
    rw [List.length_map]
    refine ⟨(r4 k).1, ?_⟩
    intro i p hp
    rw [List.getElem?_map] at hp
    obtain ⟨x, hx, hxp⟩ := Option.map_eq_some_iff.mp hp
    subst hxp
    exact (r4 k).2 i x hx

/-- The hypotheses of `C25_lengths` hold of `exFile`. -/
example : (writeFile P0 exEnv exIO exFile).toOption.map (·.2.length) = some 913 := by
  decide +kernel

example : NoLit exFile.header := NoLit.empty

example : ∀ k, ∀ s ∈ exFile.segs k, s.linked = true := by
  intro k s hs
  cases k <;> simp [exFile, NFile.segs] at hs <;> subst hs <;> rfl

/-- The lengths add up (a consequence of `C25_lengths`, for any header and parts). -/
theorem C25_total (hb : Bytes) (parts : SegKind → List (Bytes × Bytes)) :
    (hb ++ partsBytes parts).length = hb.length +
      (SegKind.order.map fun k => ((parts k).map fun p => p.1.length + p.2.length).sum).sum := by
  unfold partsBytes
  simp [List.length_append, List.length_flatMap]

/-! ### C28 -/

theorem enumFrom_eq {α : Type} (l : List α) (i : Nat) :
    (enumFrom i l).map (·.2) = l ∧ (enumFrom i l).map (·.1) = (List.range l.length).map (i + ·) ∧
    ∀ j x, (j, x) ∈ enumFrom i l ↔ ∃ m, j = i + m ∧ l[m]? = some x := by
  induction l generalizing i with
  | nil => simp [enumFrom]
  | cons a l ih =>
    obtain ⟨h1, h2, h3⟩ := ih (i + 1)
    refine ⟨by simp [enumFrom, h1], ?_, ?_⟩
    · simp only [enumFrom, List.map_cons, h2, List.length_cons, List.range_succ_eq_map,
        List.map_map, Nat.add_zero]
      congr 1
      apply List.map_congr_left
      intro x _
      simp only [Function.comp]
      omega
    · intro j x
      simp only [enumFrom, List.mem_cons, Prod.mk.injEq, h3]
      constructor
      · rintro (⟨rfl, rfl⟩ | ⟨m, rfl, h⟩)
        · exact ⟨0, by simp, by simp⟩
        · exact ⟨m + 1, by omega, by simpa using h⟩
      · rintro ⟨m, rfl, h⟩
        cases m with
        | zero => left; simp at h; exact ⟨by simp, h.symm⟩
        | succ m => right; exact ⟨m, by omega, by simpa using h⟩

theorem segments_eq {F D : Type} (f : NFile F D) :
    f.segments = SegKind.order.flatMap fun k => (enumFrom 0 (f.segs k)).map fun x => (k, x) := by
  simp [NFile.segments, SegKind.order, NFile.segs]

/-- C28, order: the segments come in the order image, graphic, text, DES, RES, within a kind in
the order of the list; each occurrence in a list appears exactly once. -/
theorem C28_order {F D : Type} (f : NFile F D) :
    f.segments.map (fun x => (x.1, x.2.2)) =
      SegKind.order.flatMap fun k => (f.segs k).map fun s => (k, s) := by
  rw [segments_eq, List.map_flatMap]
  congr 1
  funext k
  rw [List.map_map]
  conv => rhs; rw [← (enumFrom_eq (f.segs k) 0).1]
  rw [List.map_map]
  rfl

/-- C28, indices: the index with a segment is its position in the list of its kind. -/
theorem C28_index {F D : Type} (f : NFile F D) (k : SegKind) (i : Nat) (s : Seg F D) :
    (k, i, s) ∈ f.segments ↔ (f.segs k)[i]? = some s := by
  rw [segments_eq]
  simp only [List.mem_flatMap, List.mem_map, Prod.mk.injEq, Prod.exists]
  constructor
  · rintro ⟨k', _, i', s', h, rfl, rfl, rfl⟩
    obtain ⟨m, rfl, h⟩ := ((enumFrom_eq _ 0).2.2 _ _).mp h
    rwa [Nat.zero_add]
  · intro h
    refine ⟨k, by cases k <;> decide, i, s, ((enumFrom_eq _ 0).2.2 _ _).mpr ⟨i, by omega, h⟩,
      rfl, rfl, rfl⟩

/-- C28, numbering: the indices of each kind count from 0. -/
theorem C28_count {F D : Type} (f : NFile F D) (k : SegKind) :
    (f.segments.filter (·.1 = k)).map (·.2.1) = List.range (f.segs k).length := by
  have aux : ∀ k', (((enumFrom 0 (f.segs k')).map fun x => (k', x)).filter (·.1 = k)) =
      if k' = k then (enumFrom 0 (f.segs k')).map (fun x => (k', x)) else [] := by
    intro k'
    split <;> rename_i h
    · rw [List.filter_eq_self]
      intro x hx
      obtain ⟨y, _, rfl⟩ := List.mem_map.mp hx
      simpa using h
    · rw [List.filter_eq_nil_iff]
      intro x hx
      obtain ⟨y, _, rfl⟩ := List.mem_map.mp hx
      simpa using h
  have hr : ∀ l : List (Seg F D), ((enumFrom 0 l).map fun x => (k, x)).map (·.2.1) =
      List.range l.length := by
    intro l
    rw [List.map_map]
    show (enumFrom 0 l).map (·.1) = _
    rw [(enumFrom_eq l 0).2.1]
    simp
  rw [segments_eq, List.filter_flatMap]
  simp only [aux, SegKind.order, List.flatMap_cons, List.flatMap_nil]
  cases k <;> simpa using hr _

/-- The text segment has index 0 and the DES segment after it again index 0. -/
example : exFile.segments.map (fun x => (x.1, x.2.1)) = [(.text, 0), (.des, 0)] := by
  decide +kernel

/-! ### C29 -/

/-- `append` to a segment list of a file.  A new file has `ListNitfFileReference` lists, which
link the segment (nitf_file.py:29-31); `NitfFile.read` replaces them by plain lists
(nitf_file.py:153-177), whose `append` does not, so that `nitf_file` stays None
(nitf_segment.py:57).  `plain` says which. -/
def NFile.append {F D : Type} (plain : Bool) (k : SegKind) (s : Seg F D) (f : NFile F D) :
    NFile F D :=
  let s' := { s with linked := !plain }
  match k with
  | .image => { f with image := f.image ++ [s'] }
  | .graphic => { f with graphic := f.graphic ++ [s'] }
  | .text => { f with text := f.text ++ [s'] }
  | .des => { f with des := f.des ++ [s'] }
  | .res => { f with res := f.res ++ [s'] }

/-- A new text segment with four bytes. -/
def exNew : Seg P0.F exIO.D := { linked := false, sub := Store.empty, data := .other (asc "four") }

/-- Write `exFile`, read it, append `exNew` to the text segments, write again; number of text
segments and lengths of their data, from the header of the file read back. -/
def exAppended : Except Err (List (Val P0.F)) := do
  let (_, out) ← writeFile P0 exEnv exIO exFile
  let g ← readFile P0 exEnv exIO out
  let (_, out') ← writeFile P0 exEnv exIO (g.append true .text exNew)
  let (H, _) ← readStruct P0 Tables.t_file_header false out'
  let n ← getAttr P0 Tables.t_file_header H (n!"numt") []
  let a ← getAttr P0 Tables.t_file_header H (n!"lt") [0]
  let b ← getAttr P0 Tables.t_file_header H (n!"lt") [1]
  return [n, a, b]

/-- C29 is false: the header counts the appended segment but says that it has no data. -/
theorem C29_not_described : exAppended.toOption.map (·.map fun v => pyEq P0 v (.int 2)) =
      some [true, true, false] ∧
    exAppended.toOption.map (·.map fun v => pyEq P0 v (.int 0)) = some [false, false, true] := by
  decide +kernel

theorem append_linked {F D : Type} {f : NFile F D} (h : ∀ k, ∀ s ∈ f.segs k, s.linked = true)
    (k : SegKind) (s : Seg F D) : ∀ k', ∀ x ∈ (f.append false k s).segs k', x.linked = true := by
  intro k' x hx
  have : x ∈ f.segs k' ∨ x = { s with linked := true } := by
    cases k <;> cases k' <;> simp [NFile.append, NFile.segs] at hx ⊢ <;>
      first | exact hx | exact Or.inl hx
  rcases this with h' | rfl
  · exact h k' x h'
  · rfl

/-- C29, the part that holds (1): however many segments of any kinds are appended to a new file,
the header of the file written describes all of them. -/
theorem C29_new_file_partial (l : List (SegKind × Seg P.F IO.D)) (H : Store P.F) (hlit : NoLit H)
    (tres : List (Tre P.F)) {f' : NFile P.F IO.D} {out : Bytes}
    (h : writeFile P E IO (l.foldl (fun f x => f.append false x.1 x.2) { header := H, tres := tres })
      = .ok (f', out)) :
    ∃ R parts, readStruct P Tables.t_file_header false out = .ok (R, partsBytes parts) ∧
      ∀ k, getAttr P Tables.t_file_header R k.numField [] = .ok (.int ((parts k).length : Nat)) ∧
        (k ≠ .des → Each (WrittenAs P IO k) (f'.segs k) (parts k)) ∧
        ∀ (i : Nat) p, (parts k)[i]? = some p →
          getAttr P Tables.t_file_header R k.lenFields.1 [(i : Int)] =
            .ok (.int (p.1.length : Nat)) ∧
          getAttr P Tables.t_file_header R k.lenFields.2 [(i : Int)] =
            .ok (.int (p.2.length : Nat)) := by
  have hl : ∀ (l : List (SegKind × Seg P.F IO.D)) (f : NFile P.F IO.D),
      (∀ k, ∀ s ∈ f.segs k, s.linked = true) →
      (∀ k, ∀ s ∈ (l.foldl (fun f x => f.append false x.1 x.2) f).segs k, s.linked = true) ∧
      (l.foldl (fun f x => f.append false x.1 x.2) f).header = f.header := by
    intro l
    induction l with
    | nil => intro f hf; exact ⟨hf, rfl⟩
    | cons x l ih =>
      intro f hf
      obtain ⟨a, b⟩ := ih _ (append_linked hf x.1 x.2)
      refine ⟨a, b.trans ?_⟩
      cases x.1 <;> rfl
  obtain ⟨a, b⟩ := hl l { header := H, tres := tres }
    (by intro k s hs; cases k <;> simp [NFile.segs] at hs)
  obtain ⟨hb, parts, des, _, h2, h3, h4, R, h5, _, _, h6⟩ :=
    C25_lengths P E IO h (by rw [b]; exact hlit) a
  exact ⟨R, parts, h5, fun k => ⟨(h6 k).1, h2 k, (h6 k).2⟩⟩

theorem readSegs_linked {k : SegKind} : ∀ {zs : List Int} {b : Bytes}
    {ss : List (Seg P.F IO.D)} {r : Bytes}, readSegs P E IO k zs b = .ok (ss, r) →
    ∀ s ∈ ss, s.linked = true := by
  intro zs
  induction zs with
  | nil =>
    intro b ss r h
    unfold readSegs at h
    injection h with h
    injection h with h _
    subst h
    simp
  | cons z zs ih =>
    intro b ss r h
    unfold readSegs at h
    split at h
    · cases h
    · rename_i s b1 h1
      split at h
      · cases h
      · rename_i ss' b2 h2
        injection h with h
        injection h with h _
        subst h
        intro x hx
        rcases List.mem_cons.mp hx with rfl | hx
        · unfold readSeg at h1
          repeat' split at h1
          all_goals first | (cases h1; done) | skip
          injection h1 with h1
          injection h1 with h1 _
          rw [← h1]
        · exact ih h2 x hx

theorem readSegTres_linked {k : SegKind} {des : List (Except Err Bytes)} :
    ∀ {ss ss' : List (Seg P.F IO.D)}, readSegTres P E IO k des ss = .ok ss' →
    (∀ s ∈ ss, s.linked = true) → ∀ s ∈ ss', s.linked = true := by
  intro ss
  induction ss with
  | nil =>
    intro ss' h _
    unfold readSegTres at h
    injection h with h
    subst h
    simp
  | cons s ss ih =>
    intro ss' h hl
    unfold readSegTres at h
    split at h
    · cases h
    · split at h
      · cases h
      · rename_i ss1 h1
        injection h with h
        subst h
        intro x hx
        rcases List.mem_cons.mp hx with rfl | hx
        · exact hl s (by simp)
        · exact ih h1 (fun y hy => hl y (by simp [hy])) x hx

/-- C29, the part that holds (2): the segments a file was read with are linked to it, so
`C25_lengths` applies to a file that is read, changed in other ways, and written. -/
theorem C29_read_file_partial {b : Bytes} {g : NFile P.F IO.D}
    (h : readFile P E IO b = .ok g) : ∀ k, ∀ s ∈ g.segs k, s.linked = true := by
  unfold readFile at h
  simp only [bind_ok, Prod.exists, pure, Except.pure] at h
  obtain ⟨H, r, _, fl, _, h⟩ := h
  split at h
  · cases h
  simp only [bind_ok, Prod.exists] at h
  obtain ⟨zi, _, zg, _, zt, _, zd, _, zr, _, im, r1, e1, gr, r2, e2, tx, r3, e3,
    ds, r4, e4, rs, r5, e5, ts, _, im', e6, gr', e7, tx', e8, e9⟩ := h
  injection e9 with e9
  subst e9
  intro k
  cases k with
  | image => exact readSegTres_linked P E IO e6 (readSegs_linked P E IO e1)
  | graphic => exact readSegTres_linked P E IO e7 (readSegs_linked P E IO e2)
  | text => exact readSegTres_linked P E IO e8 (readSegs_linked P E IO e3)
  | des => exact readSegs_linked P E IO e4
  | res => exact readSegs_linked P E IO e5

/-! ### C49 -/

section
variable {S : Type} (attr : S → Except Err (Val P.F)) (x : Val P.F) (val : S → Val P.F)

/-- C49, display level: the first segment with the level is returned; none gives KeyError.
`val s` is the attribute of the segment. -/
theorem C49_idlvl (l : List S) (h : ∀ s ∈ l, attr s = .ok (val s)) :
    isegByIdlvl P attr x l =
      match l.find? (fun s => pyEq P (val s) x) with
      | some s => .ok s
      | none => .error .key := by
  induction l with
  | nil => rfl
  | cons s l ih =>
    unfold isegByIdlvl
    rw [h s (by simp), List.find?_cons]
    simp only
    cases pyEq P (val s) x with
    | true => rfl
    | false => exact ih fun y hy => h y (by simp [hy])

/-- C49, all segments with the name, in order. -/
theorem C49_iid1 (l : List S) (h : ∀ s ∈ l, attr s = .ok (val s)) :
    isegByIid1 P attr x l = .ok (l.filter fun s => pyEq P (val s) x) := by
  induction l with
  | nil => rfl
  | cons s l ih =>
    unfold isegByIid1
    rw [h s (by simp), ih fun y hy => h y (by simp [hy]), List.filter_cons]

/-- C49, the only segment with the name; KeyError for none, RuntimeError for several. -/
theorem C49_single (l : List S) (h : ∀ s ∈ l, attr s = .ok (val s)) :
    (∀ s, isegByIid1Single P attr x l = .ok s ↔ l.filter (fun s => pyEq P (val s) x) = [s]) ∧
    (isegByIid1Single P attr x l = .error .key ↔ ∀ s ∈ l, pyEq P (val s) x = false) ∧
    (isegByIid1Single P attr x l = .error .runtime ↔
      2 ≤ (l.filter fun s => pyEq P (val s) x).length) := by
  have e := C49_iid1 P attr x val l h
  have f : (∀ s ∈ l, pyEq P (val s) x = false) ↔ l.filter (fun s => pyEq P (val s) x) = [] := by
    simp
  rw [f]
  unfold isegByIid1Single
  rw [e]
  generalize l.filter _ = m
  match m with
  | [] => simp
  | [a] => simp
  | a :: b :: m => simp

end

/-- Three image segments with display levels 1, 2, 2. -/
def exLvls : List (Nat × Store P0.F) := [1, 2, 2].zipIdx.map fun (l, i) =>
  (i, match setA P0 Tables.t_image_subheader Store.empty (n!"idlvl") (.int (l : Nat)) with
      | .ok S => S
      | .error _ => Store.empty)

def exLvl (s : Nat × Store P0.F) : Except Err (Val P0.F) :=
  getAttr P0 Tables.t_image_subheader s.2 (n!"idlvl") []

example : exLvls.map (fun s => (exLvl s).toOption.map (pyEq P0 · (.int 2))) =
    [some false, some true, some true] := by decide +kernel

example : (isegByIdlvl P0 exLvl (.int 2) exLvls).toOption.map (·.1) = some 1 ∧
    (isegByIdlvl P0 exLvl (.int 3) exLvls).toOption.map (·.1) = none := by decide +kernel

example : (isegByIid1 P0 exLvl (.int 2) exLvls).toOption.map (·.map (·.1)) = some [1, 2] := by
  decide +kernel

end Verif
