import Verif.StandardLayout

/-
C98: the headers are laid out as MIL-STD-2500C says.  The specification is in StandardSpec.lean: the
fields with their widths as in tables A-1, A-3, A-5, A-6, A-8 and A-9 of the standard, without use of
the descriptions of the model.
-/

namespace Verif.Standard

open Verif Verif.Sense

variable (P : PyFloat)

/-- Written file headers have the fields of table A-1, in order and of these widths. -/
theorem C98_file_written {S : Store P.F} {b : Bytes}
    (h : writeStruct P Tables.t_file_header S = .ok b) :
    ∃ numi nums numt numdes numres udhdl xhdl, FileHas P S numi nums numt numdes numres udhdl xhdl ∧
      WrittenAs P Tables.t_file_header S b (fileHeader numi nums numt numdes numres udhdl xhdl) := by
  obtain ⟨sl, hl, hb⟩ := written_as (by decide +kernel) h
  obtain ⟨a1, a2, a3, a4, a5, a6, a7, q, e⟩ := file_layout hl
  exact ⟨a1, a2, a3, a4, a5, a6, a7, q, hb _ e⟩

/-- The same of what is read. -/
theorem C98_file_read {lit : Bool} {R0 R : Store P.F} {b0 rest : Bytes}
    (h : readInto P Tables.t_file_header lit R0 b0 = .ok (R, rest)) : ∃ b, b0 = b ++ rest ∧
    ∃ numi nums numt numdes numres udhdl xhdl, FileHas P R numi nums numt numdes numres udhdl xhdl ∧
      ReadAs P Tables.t_file_header lit R b (fileHeader numi nums numt numdes numres udhdl xhdl) := by
  obtain ⟨sl, b, hl, hr, hb⟩ := read_as (by decide +kernel) h
  obtain ⟨a1, a2, a3, a4, a5, a6, a7, q, e⟩ := file_layout hl
  exact ⟨b, hr, a1, a2, a3, a4, a5, a6, a7, q, hb _ e⟩

/-- Written image subheaders have the fields of table A-3. -/
theorem C98_image_written {S : Store P.F} {b : Bytes}
    (h : writeStruct P Tables.t_image_subheader S = .ok b) :
    ∃ q, ImageShows P S q ∧
      WrittenAs P Tables.t_image_subheader S b (imageSubheader q) := by
  obtain ⟨sl, hl, hb⟩ := written_as (by decide +kernel) h
  obtain ⟨q, hq, e⟩ := image_layout hl
  exact ⟨q, hq, hb _ e⟩

/-- The same of what is read. -/
theorem C98_image_read {lit : Bool} {R0 R : Store P.F} {b0 rest : Bytes}
    (h : readInto P Tables.t_image_subheader lit R0 b0 = .ok (R, rest)) : ∃ b, b0 = b ++ rest ∧
    ∃ q, ImageShows P R q ∧
      ReadAs P Tables.t_image_subheader lit R b (imageSubheader q) := by
  obtain ⟨sl, b, hl, hr, hb⟩ := read_as (by decide +kernel) h
  obtain ⟨q, hq, e⟩ := image_layout hl
  exact ⟨b, hr, q, hq, hb _ e⟩

/-- Written graphic subheaders have the fields of table A-5. -/
theorem C98_graphic_written {S : Store P.F} {b : Bytes}
    (h : writeStruct P Tables.t_graphic_subheader S = .ok b) :
    ∃ v, getAttr P Tables.t_graphic_subheader S (n!"sxshdl") [] = .ok (.int v) ∧
      WrittenAs P Tables.t_graphic_subheader S b (graphicSubheader v) := by
  obtain ⟨sl, hl, hb⟩ := written_as (by decide +kernel) h
  obtain ⟨v, hv, e⟩ := graphic_layout hl
  exact ⟨v, hv, hb _ e⟩

/-- The same of what is read. -/
theorem C98_graphic_read {lit : Bool} {R0 R : Store P.F} {b0 rest : Bytes}
    (h : readInto P Tables.t_graphic_subheader lit R0 b0 = .ok (R, rest)) : ∃ b, b0 = b ++ rest ∧
    ∃ v, getAttr P Tables.t_graphic_subheader R (n!"sxshdl") [] = .ok (.int v) ∧
      ReadAs P Tables.t_graphic_subheader lit R b (graphicSubheader v) := by
  obtain ⟨sl, b, hl, hr, hb⟩ := read_as (by decide +kernel) h
  obtain ⟨v, hv, e⟩ := graphic_layout hl
  exact ⟨b, hr, v, hv, hb _ e⟩

/-- Written text subheaders have the fields of table A-6. -/
theorem C98_text_written {S : Store P.F} {b : Bytes}
    (h : writeStruct P Tables.t_text_subheader S = .ok b) :
    ∃ v, getAttr P Tables.t_text_subheader S (n!"txshdl") [] = .ok (.int v) ∧
      WrittenAs P Tables.t_text_subheader S b (textSubheader v) := by
  obtain ⟨sl, hl, hb⟩ := written_as (by decide +kernel) h
  obtain ⟨v, hv, e⟩ := text_layout hl
  exact ⟨v, hv, hb _ e⟩

/-- The same of what is read. -/
theorem C98_text_read {lit : Bool} {R0 R : Store P.F} {b0 rest : Bytes}
    (h : readInto P Tables.t_text_subheader lit R0 b0 = .ok (R, rest)) : ∃ b, b0 = b ++ rest ∧
    ∃ v, getAttr P Tables.t_text_subheader R (n!"txshdl") [] = .ok (.int v) ∧
      ReadAs P Tables.t_text_subheader lit R b (textSubheader v) := by
  obtain ⟨sl, b, hl, hr, hb⟩ := read_as (by decide +kernel) h
  obtain ⟨v, hv, e⟩ := text_layout hl
  exact ⟨b, hr, v, hv, hb _ e⟩

/-- Written DES subheaders have the fields of table A-8. -/
theorem C98_des_written {S : Store P.F} {b : Bytes}
    (h : writeStruct P Tables.t_des_subheader S = .ok b) :
    ∃ (o : Bool) (v : Int), (o = true ↔ getAttr P Tables.t_des_subheader S (n!"desid") [] =
        .ok (.str "TRE_OVERFLOW".toList)) ∧
      getAttr P Tables.t_des_subheader S (n!"desshl") [] = .ok (.int v) ∧
      WrittenAs P Tables.t_des_subheader S b (desSubheader o v) := by
  obtain ⟨sl, hl, hb⟩ := written_as (by decide +kernel) h
  obtain ⟨o, v, ho, hv, e⟩ := des_layout hl
  exact ⟨o, v, ho, hv, hb _ e⟩

/-- The same of what is read. -/
theorem C98_des_read {lit : Bool} {R0 R : Store P.F} {b0 rest : Bytes}
    (h : readInto P Tables.t_des_subheader lit R0 b0 = .ok (R, rest)) : ∃ b, b0 = b ++ rest ∧
    ∃ (o : Bool) (v : Int), (o = true ↔ getAttr P Tables.t_des_subheader R (n!"desid") [] =
        .ok (.str "TRE_OVERFLOW".toList)) ∧
      getAttr P Tables.t_des_subheader R (n!"desshl") [] = .ok (.int v) ∧
      ReadAs P Tables.t_des_subheader lit R b (desSubheader o v) := by
  obtain ⟨sl, b, hl, hr, hb⟩ := read_as (by decide +kernel) h
  obtain ⟨o, v, ho, hv, e⟩ := des_layout hl
  exact ⟨b, hr, o, v, ho, hv, hb _ e⟩

/-- Written RES subheaders have the fields of table A-9. -/
theorem C98_res_written {S : Store P.F} {b : Bytes}
    (h : writeStruct P Tables.t_res_subheader S = .ok b) :
    ∃ v, getAttr P Tables.t_res_subheader S (n!"resshl") [] = .ok (.int v) ∧
      WrittenAs P Tables.t_res_subheader S b (resSubheader v) := by
  obtain ⟨sl, hl, hb⟩ := written_as (by decide +kernel) h
  obtain ⟨v, hv, e⟩ := res_layout hl
  exact ⟨v, hv, hb _ e⟩

/-- The same of what is read. -/
theorem C98_res_read {lit : Bool} {R0 R : Store P.F} {b0 rest : Bytes}
    (h : readInto P Tables.t_res_subheader lit R0 b0 = .ok (R, rest)) : ∃ b, b0 = b ++ rest ∧
    ∃ v, getAttr P Tables.t_res_subheader R (n!"resshl") [] = .ok (.int v) ∧
      ReadAs P Tables.t_res_subheader lit R b (resSubheader v) := by
  obtain ⟨sl, b, hl, hr, hb⟩ := read_as (by decide +kernel) h
  obtain ⟨v, hv, e⟩ := res_layout hl
  exact ⟨b, hr, v, hv, hb _ e⟩

/-! ### Lengths and places -/

/-- As many bytes as the widths say. -/
theorem C98_total {d : Desc} {S : Store P.F} {b : Bytes} {l : List Piece} (h : WrittenAs P d S b l) :
    b.length = total l := by
  obtain ⟨cs, rfl, hp, _⟩ := h
  exact pieces_total hp

/-- A field is found after the bytes of the fields before it. -/
theorem C98_place {d : Desc} {S : Store P.F} {b : Bytes} {pre post : List Piece} {nm : String}
    {key : Key} {w : Nat} (h : WrittenAs P d S b (pre ++ (nm, key, w) :: post)) :
    ∃ n fi, d.tab[n]? = some fi ∧ fi.fd.name = some (nameCode nm.toList) ∧
      fieldBytes P (look P d.tab S) S fi n key = .ok ((b.drop (total pre)).take w) := by
  obtain ⟨cs, rfl, hp, hf⟩ := h
  obtain ⟨before, ch, after, rfl, h1, h2, h3, h4⟩ := pieces_split hp
  obtain ⟨fi, h5, h6⟩ := hf ch (by simp)
  simp only at h2 h3 h4
  refine ⟨ch.pos, fi, h5, ?_, ?_⟩
  · rw [h5] at h2; exact h2
  · have : ((chunkBytes (before ++ ch :: after)).drop (total pre)).take w = ch.bytes := by
      rw [← pieces_total h1]
      unfold chunkBytes
      simp only [List.map_append, List.map_cons, List.flatten_append, List.flatten_cons]
      rw [List.drop_left, ← h4]
      exact List.take_left' rfl
    rw [this, ← h3]
    exact h6

theorem total_append (l m : List Piece) : total (l ++ m) = total l + total m := by
  unfold total; rw [List.map_append, List.sum_append]

theorem total_each (c : Int) (w : Nat) (f : Int → List Piece) (hf : ∀ i, total (f i) = w) :
    total (each c f) = c.toNat * w := by
  unfold each
  generalize c.toNat = n
  induction n with
  | zero => simp [total]
  | succ n ih =>
    rw [List.range_succ, List.flatMap_append, total_append, ih]
    simp only [List.flatMap_cons, List.flatMap_nil, List.append_nil]
    rw [hf, Nat.succ_mul]

theorem total_area {len ofl data : String} {v : Int} (hv : v = 0 ∨ 3 ≤ v) :
    total (area len ofl data v) = 5 + v.toNat := by
  unfold area
  rcases hv with rfl | hv
  · rfl
  · rw [if_neg (by omega)]
    simp only [row, total, List.map_cons, List.map_nil, List.sum_cons, List.sum_nil]
    omega

theorem total_row (key : Key) (l : List (String × Nat)) : total (row key l) = (l.map Prod.snd).sum := by
  unfold total row; rw [List.map_map]; rfl

/-- Lengths the standard gives: 388 bytes for a file header without segments and TREs, and for each
image 16 more, each graphic 10, each text 9, each DES 13, each RES 11; 258 for a graphic subheader, 282
for a text subheader, 200 for DES and RES subheaders, and 9 more for TRE overflow. -/
theorem C98_lengths (numi nums numt numdes numres udhdl xhdl v : Int) (o : Bool)
    (h1 : udhdl = 0 ∨ 3 ≤ udhdl) (h2 : xhdl = 0 ∨ 3 ≤ xhdl) (h3 : v = 0 ∨ 3 ≤ v) :
    total (fileHeader numi nums numt numdes numres udhdl xhdl) = 388 + 16 * numi.toNat +
      10 * nums.toNat + 9 * numt.toNat + 13 * numdes.toNat + 11 * numres.toNat + udhdl.toNat + xhdl.toNat ∧
    total (graphicSubheader v) = 258 + v.toNat ∧ total (textSubheader v) = 282 + v.toNat ∧
    total (desSubheader o v) = 200 + (if o then 9 else 0) + v.toNat ∧
    total (resSubheader v) = 200 + v.toNat := by
  have e1 := total_each numi 16 (fun i => row [i] [("lish", 6), ("li", 10)]) fun i => rfl
  have e2 := total_each nums 10 (fun i => row [i] [("lssh", 4), ("ls", 6)]) fun i => rfl
  have e3 := total_each numt 9 (fun i => row [i] [("ltsh", 4), ("lt", 5)]) fun i => rfl
  have e4 := total_each numdes 13 (fun i => row [i] [("ldsh", 4), ("ld", 9)]) fun i => rfl
  have e5 := total_each numres 11 (fun i => row [i] [("lresh", 4), ("lre", 7)]) fun i => rfl
  refine ⟨?_, ?_, ?_, ?_, ?_⟩
  · unfold fileHeader
    simp only [total_append, e1, e2, e3, e4, e5, total_area h1, total_area h2, total_row, security,
      List.map_append, List.map_cons, List.map_nil, List.sum_append, List.sum_cons, List.sum_nil]
    omega
  · unfold graphicSubheader
    simp only [total_append, total_area h3, total_row, security,
      List.map_append, List.map_cons, List.map_nil, List.sum_append, List.sum_cons, List.sum_nil]
    omega
  · unfold textSubheader
    simp only [total_append, total_area h3, total_row, security,
      List.map_append, List.map_cons, List.map_nil, List.sum_append, List.sum_cons, List.sum_nil]
    omega
  · unfold desSubheader
    cases o <;> simp [total_append, total_row, security] <;> omega
  · unfold resSubheader
    simp only [total_row, security,
      List.map_append, List.map_cons, List.map_nil, List.sum_append, List.sum_cons, List.sum_nil]
    omega

/-- The text which the field `nm` writes is this. -/
def Holds (d : Desc) (S : Store P.F) (nm : String) (x : Bytes) : Prop :=
  ∃ n fi, d.tab[n]? = some fi ∧ fi.fd.name = some (nameCode nm.toList) ∧
    fieldBytes P (look P d.tab S) S fi n [] = .ok x

/-- In every written file, the length of the file is at 342 (12 bytes), the length of the header at
354 (6 bytes), the number of images at 360 (3 bytes). -/
theorem C98_places {S : Store P.F} {b : Bytes} (h : writeStruct P Tables.t_file_header S = .ok b) :
    Holds P Tables.t_file_header S "fl" ((b.drop 342).take 12) ∧
    Holds P Tables.t_file_header S "hl" ((b.drop 354).take 6) ∧
    Holds P Tables.t_file_header S "numi" ((b.drop 360).take 3) := by
  obtain ⟨a1, a2, a3, a4, a5, a6, a7, _, hw⟩ := C98_file_written P h
  have front : ∃ post, fileHeader a1 a2 a3 a4 a5 a6 a7 = (row [] ([("fhdr", 4), ("fver", 5),
      ("clevel", 2), ("stype", 4), ("ostaid", 10), ("fdt", 14), ("ftitle", 80)] ++ security "fs" ++
      [("fscop", 5), ("fscpys", 5), ("encryp", 1), ("fbkgc", 3), ("oname", 24), ("ophone", 18)])) ++
      ("fl", [], 12) :: ("hl", [], 6) :: ("numi", [], 3) :: post := by
    unfold fileHeader
    simp only [row, List.map_append, List.append_assoc, List.map_cons, List.map_nil, List.cons_append,
      List.nil_append]
    exact ⟨_, rfl⟩
  obtain ⟨post, hpost⟩ := front
  rw [hpost] at hw
  have hw' := hw
  rw [List.append_cons] at hw'
  have hw'' := hw'
  rw [List.append_cons] at hw''
  refine ⟨?_, ?_, ?_⟩
  · exact C98_place P hw
  · exact C98_place P hw'
  · exact C98_place P hw''

/-! ### Examples -/

/-- A DES for TRE overflow of the second image, with a subheader of 5 bytes. -/
def exDes : Store P0.F :=
  let d := Tables.t_des_subheader
  let S := (setAttr P0 d Store.empty (n!"desid") [] (.str "TRE_OVERFLOW".toList)).1
  let S := (setAttr P0 d S (n!"desoflw") [] (.str "UDID".toList)).1
  let S := (setAttr P0 d S (n!"desitem") [] (.int 2)).1
  let S := (setAttr P0 d S (n!"desshl") [] (.int 5)).1
  (setAttr P0 d S (n!"desshf") [] (.bytes [1, 2, 3, 4, 5])).1

/-- An image of two bands, the second with two lookup tables of three bytes; it has coordinates and a
comment. -/
def exImage : Store P0.F :=
  let d := Tables.t_image_subheader
  let S := (setAttr P0 d Store.empty (n!"icords") [] (.str "G".toList)).1
  let S := (setAttr P0 d S (n!"nicom") [] (.int 1)).1
  let S := (setAttr P0 d S (n!"icom") [0] (.str "seen from above".toList)).1
  let S := (setAttr P0 d S (n!"nbands") [] (.int 2)).1
  let S := (setAttr P0 d S (n!"nluts") [1] (.int 2)).1
  let S := (setAttr P0 d S (n!"nelut") [1] (.int 3)).1
  let S := (setAttr P0 d S (n!"lutd") [1, 0] (.bytes [1, 2, 3])).1
  (setAttr P0 d S (n!"lutd") [1, 1] (.bytes [4, 5, 6])).1

/-- A file header for two images and one text. -/
def exHeader : Store P0.F :=
  let d := Tables.t_file_header
  let S := (setAttr P0 d Store.empty (n!"numi") [] (.int 2)).1
  (setAttr P0 d S (n!"numt") [] (.int 1)).1

example : ∃ b, writeStruct P0 Tables.t_des_subheader exDes = .ok b ∧ b.length = 214 := by
  have h : ((writeStruct P0 Tables.t_des_subheader exDes).toOption.map List.length) = some 214 := by
    decide +kernel
  cases hw : writeStruct P0 Tables.t_des_subheader exDes with
  | error e => rw [hw] at h; cases h
  | ok b => rw [hw] at h; injection h with h; exact ⟨b, rfl, h⟩

example : ∃ b, writeStruct P0 Tables.t_image_subheader exImage = .ok b ∧
    b.length = total (imageSubheader ⟨true, 1, false, 2, 0, fun i => if i = 1 then 2 else 0,
      fun i => i = 1, fun _ => 3, 0, 0⟩) := by
  have h : ((writeStruct P0 Tables.t_image_subheader exImage).toOption.map List.length) = some 603 := by
    decide +kernel
  cases hw : writeStruct P0 Tables.t_image_subheader exImage with
  | error e => rw [hw] at h; cases h
  | ok b =>
    rw [hw] at h; injection h with h
    exact ⟨b, rfl, h.trans (by decide +kernel)⟩

example : ∃ b, writeStruct P0 Tables.t_file_header exHeader = .ok b ∧ b.length = 429 ∧
    (b.drop 360).take 3 = asc "002" := by
  have h : ((writeStruct P0 Tables.t_file_header exHeader).toOption.map fun b =>
      (b.length, (b.drop 360).take 3)) = some (429, asc "002") := by decide +kernel
  cases hw : writeStruct P0 Tables.t_file_header exHeader with
  | error e => rw [hw] at h; cases h
  | ok b =>
    rw [hw] at h; injection h with h; injection h with h1 h2
    exact ⟨b, rfl, h1, h2⟩

end Verif.Standard
