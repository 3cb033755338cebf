import Verif.Props.NewFile

/-
C101: a file of new images and new texts is written exactly when they are within the limits of the format.
-/

namespace Verif.NewText

open Verif Verif.InFile Verif.Ready Verif.NewImage Verif.Standard Verif.NewFile

variable {P : PyFloat}

abbrev txD : Desc := Tables.t_text_subheader

/-! ### Specification -/

/-- What is given for a new text: the fields of the subheader, and the text itself, as `str` or as
`bytes`.  The attachment level may be left out. -/
structure AskedText where
  textid : Str
  txtdt : Str
  txtitl : Str
  txtfmt : Str
  level : Option Int := none
  text : TextStr

/-- `seg.subheader.nm = v` for each of them. -/
def AskedText.steps (P : PyFloat) (a : AskedText) : List (Step P.F) :=
  [fun S => setAttr P txD S (n!"textid") [] (.str a.textid),
   fun S => setAttr P txD S (n!"txtdt") [] (.str a.txtdt),
   fun S => setAttr P txD S (n!"txtitl") [] (.str a.txtitl),
   fun S => setAttr P txD S (n!"txtfmt") [] (.str a.txtfmt)] ++
  match a.level with
  | none => []
  | some z => [fun S => setAttr P txD S (n!"txtalvl") [] (.int z)]

/-- The segment `NitfTextSegment(NitfTextStr(text))` with these fields. -/
def AskedText.seg (a : AskedText) (R : DataReg) : Seg P.F (stdIO P (imgIO P) R).D :=
  { linked := true
    sub := (runSteps (a.steps P) Store.empty).1
    tres := []
    data := .other (.text a.text) }

/-- The bytes of a text: those given, or its UTF-8 encoding. -/
def textBytes : TextStr → Bytes
  | .str s => utf8Enc s
  | .bytes b => b

/-- The text is within the limits of the format. -/
structure TextOk (a : AskedText) : Prop where
  textid : TextFits 7 a.textid
  txtdt : TextFits 14 a.txtdt
  txtitl : TextFits 80 a.txtitl
  txtfmt : TextFits 3 a.txtfmt
  level : ∀ z, a.level = some z → -99 ≤ z ∧ z ≤ 999
  data : (textBytes a.text).length < 100000

/-- A file made from scratch with these images and texts. -/
def newFile (as : List (Asked P)) (ts : List AskedText) (R : DataReg) :
    NFile P.F (stdIO P (imgIO P) R).D :=
  { header := Store.empty, tres := [], image := as.map (·.seg R), text := ts.map (·.seg R) }

/-- Its length. -/
def fileLength (as : List (Asked P)) (ts : List AskedText) : Nat :=
  388 + 16 * as.length + 9 * ts.length + (as.map fun a => subLength a + dataLength a).sum +
    (ts.map fun t => 282 + (textBytes t.text).length).sum

/-- The segment shows what was given. -/
structure TextShows {R : DataReg} (s : Seg P.F (stdIO P (imgIO P) R).D) (t : AskedText) : Prop where
  textid : getAttr P txD s.sub (n!"textid") [] = .ok (.str (rstripU t.textid))
  txtdt : getAttr P txD s.sub (n!"txtdt") [] = .ok (.str (rstripU t.txtdt))
  txtitl : getAttr P txD s.sub (n!"txtitl") [] = .ok (.str (rstripU t.txtitl))
  txtfmt : getAttr P txD s.sub (n!"txtfmt") [] = .ok (.str (rstripU t.txtfmt))
  level : getAttr P txD s.sub (n!"txtalvl") [] = .ok (match t.level with
    | none => .none
    | some z => .int z)
  text : ∃ u, s.data = .other (.text u) ∧ textBytes u = textBytes t.text

theorem asBytes_eq (t : TextStr) : t.asBytes = textBytes t := by cases t <;> rfl

/-! ### The subheader of a text -/

theorem row_textid : Row txD (n!"textid") 1 .str none 7 := Row.of (by decide +kernel)
theorem row_txtalvl : Row txD (n!"txtalvl") 2 .int none 3 := Row.of (by decide +kernel)
theorem row_txtdt : Row txD (n!"txtdt") 3 .str none 14 := Row.of (by decide +kernel)
theorem row_txtitl : Row txD (n!"txtitl") 4 .str none 80 := Row.of (by decide +kernel)
theorem row_txtfmt : Row txD (n!"txtfmt") 22 .str none 3 := Row.of (by decide +kernel)
theorem row_txshdl : Row txD (n!"txshdl") 23 .int none 5 := Row.of (by decide +kernel)
theorem txD_causal : txD.causal = true := by decide +kernel

/-- Its cells. -/
structure Cells (a : AskedText) (S : Store P.F) : Prop where
  textid : S 1 [] = some ⟨.val (.str a.textid), none⟩
  txtdt : S 3 [] = some ⟨.val (.str a.txtdt), none⟩
  txtitl : S 4 [] = some ⟨.val (.str a.txtitl), none⟩
  txtfmt : S 22 [] = some ⟨.val (.str a.txtfmt), none⟩
  level : S 2 [] = a.level.map fun z => ⟨.val (.int z), none⟩
  others : ∀ m key, m ∉ [1, 2, 3, 4, 22] → S m key = none

theorem seg_cells (a : AskedText) (R : DataReg) :
    ∃ S, runSteps (a.steps P) Store.empty = (S, none) ∧ (a.seg R : Seg P.F (stdIO P (imgIO P) R).D).sub = S ∧
      Cells a S := by
  let S : Store P.F := (((Store.empty.set 1 [] ⟨.val (.str a.textid), none⟩).set 3 []
    ⟨.val (.str a.txtdt), none⟩).set 4 [] ⟨.val (.str a.txtitl), none⟩).set 22 []
    ⟨.val (.str a.txtfmt), none⟩
  have hS : ∀ m key, m ∉ [1, 3, 4, 22] → S m key = none := by
    intro m key h
    simp only [List.mem_cons, List.not_mem_nil, or_false, not_or] at h
    simp only [S, Store.set]
    rw [if_neg (by omega), if_neg (by omega), if_neg (by omega), if_neg (by omega)]
    rfl
  cases hl : a.level with
  | none =>
    have h : runSteps (a.steps P) Store.empty = (S, none) := by
      unfold AskedText.steps
      rw [hl]
      simp only [List.append_nil, runSteps, row_textid.set P _ (v := .str a.textid) rfl,
        row_txtdt.set P _ (v := .str a.txtdt) rfl, row_txtitl.set P _ (v := .str a.txtitl) rfl,
        row_txtfmt.set P _ (v := .str a.txtfmt) rfl, S]
    refine ⟨S, h, by show (runSteps _ _).1 = _; rw [h], ?_⟩
    exact { textid := by simp [S, Store.set], txtdt := by simp [S, Store.set]
            txtitl := by simp [S, Store.set], txtfmt := by simp [S, Store.set]
            level := by rw [hl]; exact hS 2 [] (by decide)
            others := fun m key h => hS m key fun h' => h (by
              simp only [List.mem_cons, List.not_mem_nil, or_false] at h' ⊢; omega) }
  | some z =>
    have h : runSteps (a.steps P) Store.empty = (S.set 2 [] ⟨.val (.int z), none⟩, none) := by
      unfold AskedText.steps
      rw [hl]
      simp only [List.cons_append, List.nil_append, runSteps, row_textid.set P _ (v := .str a.textid) rfl,
        row_txtdt.set P _ (v := .str a.txtdt) rfl, row_txtitl.set P _ (v := .str a.txtitl) rfl,
        row_txtfmt.set P _ (v := .str a.txtfmt) rfl, row_txtalvl.set P _ (v := .int z) rfl, S]
    refine ⟨_, h, by show (runSteps _ _).1 = _; rw [h], ?_⟩
    exact { textid := by simp [S, Store.set], txtdt := by simp [S, Store.set]
            txtitl := by simp [S, Store.set], txtfmt := by simp [S, Store.set]
            level := by rw [hl]; simp [Store.set]
            others := fun m key h => by
              simp only [List.mem_cons, List.not_mem_nil, or_false, not_or] at h
              show (if m = 2 ∧ key = [] then _ else S m key) = none
              rw [if_neg (by omega)]
              exact hS m key (by simp only [List.mem_cons, List.not_mem_nil, or_false, not_or]; omega) }

theorem tx_default : ∀ m, m < 24 → m ∉ [1, 2, 3, 4, 22] → defaultAt txD.tab m = true := by
  decide +kernel

variable {a : AskedText} {S : Store P.F}

theorem top_cells (hc : Cells a S) (ho : TextOk a) {m : Nat} (hm : m < 24) (h2 : m ≠ 2) :
    CellOk txD.tab S m [] := by
  by_cases h : m ∈ [1, 2, 3, 4, 22]
  · simp only [List.mem_cons, List.not_mem_nil, or_false] at h
    rcases h with rfl | rfl | rfl | rfl | rfl
    · exact cell_str (w := 7) (by decide +kernel) hc.textid ho.textid.1 ho.textid.2
    · exact absurd rfl h2
    · exact cell_str (w := 14) (by decide +kernel) hc.txtdt ho.txtdt.1 ho.txtdt.2
    · exact cell_str (w := 80) (by decide +kernel) hc.txtitl ho.txtitl.1 ho.txtitl.2
    · exact cell_str (w := 3) (by decide +kernel) hc.txtfmt ho.txtfmt.1 ho.txtfmt.2
  · exact cell_default (tx_default m hm h) (hc.others m [] h)

theorem level_bytes (hc : Cells a S) (ho : TextOk a) {fi : FInfo} (hf : txD.tab[2]? = some fi) :
    evalCond P (look P txD.tab S) fi [] = .ok true ∧
      ∃ b, fieldBytes P (look P txD.tab S) S fi 2 [] = .ok b := by
  have hp : plainField fi = true := by
    have : (txD.tab[2]?.map plainField) = some true := by decide +kernel
    rw [hf] at this
    exact Option.some.inj this
  have hl := hc.level
  cases hz : a.level with
  | some z =>
    rw [hz] at hl
    have hb := ho.level z hz
    refine field_ok hf hp (cell_int (w := 3) (by decide +kernel) hl ?_)
    by_cases h0 : 0 ≤ z
    · exact .inl ⟨h0, by decide, by omega⟩
    · exact .inr ⟨by omega, by decide, by omega⟩
  | none =>
    rw [hz] at hl
    obtain ⟨fi', r1, r2, r3, r4, r5, r6, r7, r8⟩ := row_txtalvl.at_
    rw [hf] at r1
    injection r1 with r1
    subst r1
    have hcond := evalCond_none P r5 (look P txD.tab S) []
    refine ⟨hcond, ?_⟩
    have hn : (txD.tab[2]?.map fun fi => fi.fd.default.isNone && fi.fd.optional &&
        decide (fi.fd.optChar = ' ')) = some true := by
      decide +kernel
    rw [hf] at hn
    simp only [Option.map_some, Option.some.injEq, Bool.and_eq_true, Option.isNone_iff_eq_none,
      decide_eq_true_eq] at hn
    have hst : stored S fi.fd 2 [] = .val .none := by
      unfold stored defaultVal
      rw [hl, hn.1.1, hn.1.2]
      rfl
    unfold fieldBytes
    rw [Scalar.size_const P r6 r8]
    simp only [hst]
    rw [r2.lowGet P hcond, hst]
    simp only [finish, hn.1.2, if_true]
    unfold encodeVal
    rw [hn.1.2, hn.2, r4]
    exact ⟨_, rfl⟩

theorem text_fwd (hc : Cells a S) (ho : TextOk a) : ∃ b, writeStruct P txD S = .ok b := by
  have hx := (unset_int (P := P) txD_causal row_txshdl rfl (hc.others 23 [] (by decide))).1
  have : ∃ cs, writeD P txD.tab S 0 [] txD = .ok cs := by
    refine fwd_run 2 0 _ (by decide +kernel) rfl (fun m _ h => top_cells hc ho (by omega) (by omega)) ?_
    obtain ⟨fi, hf⟩ : ∃ fi, txD.tab[2]? = some fi := ⟨_, rfl⟩
    obtain ⟨e1, e2⟩ := level_bytes hc ho hf
    refine fwd_field hf e1 e2 ?_
    refine fwd_run 21 3 _ (by decide +kernel) rfl (fun m _ h => top_cells hc ho (by omega) (by omega)) ?_
    exact area_fwd (n := 24) rfl rfl rfl (by decide +kernel) hx (hc.others 25 [] (by decide)) ⟨[], rfl⟩
  obtain ⟨cs, h⟩ := this
  exact ⟨chunkBytes cs, by unfold writeStruct writeChunks; rw [h]; rfl⟩

theorem text_length (hc : Cells a S) {b : Bytes} (h : writeStruct P txD S = .ok b) : b.length = 282 := by
  obtain ⟨v, hv, hw⟩ := C98_text_written P h
  rw [C98_total P hw]
  have e : v = 0 := by
    rw [(unset_int (P := P) txD_causal row_txshdl rfl (hc.others 23 [] (by decide))).2] at hv
    injection hv with hv; injection hv with hv; exact hv.symm
  rw [(C98_lengths 0 0 0 0 0 0 0 v false (.inl rfl) (.inl rfl) (.inl e)).2.2.1, e]
  rfl

theorem text_back (hc : Cells a S) {b : Bytes} (h : writeStruct P txD S = .ok b) :
    TextFits 7 a.textid ∧ TextFits 14 a.txtdt ∧ TextFits 80 a.txtitl ∧ TextFits 3 a.txtfmt ∧
      ∀ z, a.level = some z → -99 ≤ z ∧ z ≤ 999 := by
  refine ⟨text_fails row_textid (by decide +kernel) hc.textid h, text_fails row_txtdt (by decide +kernel) hc.txtdt h,
    text_fails row_txtitl (by decide +kernel) hc.txtitl h, text_fails row_txtfmt (by decide +kernel) hc.txtfmt h, ?_⟩
  intro z hz
  have hl := hc.level
  rw [hz] at hl
  have := int_fails row_txtalvl (by decide +kernel) (Row.always row_txtalvl S) ⟨_, hl⟩ h
  unfold FitsDec at this
  omega

variable {E : Env} {R : DataReg}

theorem segBytes_iff : (∃ r, segBytes P E (stdIO P (imgIO P) R) .text (a.seg R) = .ok r) ↔
    ∃ b, writeStruct P txD (a.seg R : Seg P.F (stdIO P (imgIO P) R).D).sub = .ok b := by
  have h1 : checkUser P E (stdIO P (imgIO P) R) .text (a.seg R) = .ok () := rfl
  have h2 : ∀ S : Store P.F, writeUser P .text none S = .ok S := fun _ => rfl
  have h3 : writeData P (stdIO P (imgIO P) R) (a.seg R).data = .ok (textBytes a.text) := by
    rw [← asBytes_eq]; rfl
  unfold segBytes
  rw [h1, show (a.seg R : Seg P.F (stdIO P (imgIO P) R).D).user = none from rfl, h2, h3]
  simp only
  rw [show SegKind.text.desc = txD from rfl]
  cases writeStruct P txD (a.seg R : Seg P.F (stdIO P (imgIO P) R).D).sub with
  | error e => simp
  | ok b => exact ⟨fun _ => ⟨b, rfl⟩, fun _ => ⟨_, rfl⟩⟩

theorem segBytes_parts {r} (h : segBytes P E (stdIO P (imgIO P) R) .text (a.seg R) = .ok r) :
    writeStruct P txD (a.seg R : Seg P.F (stdIO P (imgIO P) R).D).sub = .ok r.2.1 ∧
      r.2.2 = textBytes a.text := by
  have h1 : checkUser P E (stdIO P (imgIO P) R) .text (a.seg R) = .ok () := rfl
  have h2 : ∀ S : Store P.F, writeUser P .text none S = .ok S := fun _ => rfl
  have h3 : writeData P (stdIO P (imgIO P) R) (a.seg R).data = .ok (textBytes a.text) := by
    rw [← asBytes_eq]; rfl
  unfold segBytes at h
  rw [h1, show (a.seg R : Seg P.F (stdIO P (imgIO P) R).D).user = none from rfl, h2, h3] at h
  simp only at h
  rw [show SegKind.text.desc = txD from rfl] at h
  cases hw : writeStruct P txD (a.seg R : Seg P.F (stdIO P (imgIO P) R).D).sub with
  | error e => rw [hw] at h; cases h
  | ok b =>
    rw [hw] at h
    injection h with h
    subst h
    exact ⟨rfl, rfl⟩

/-! ### The file header -/

/-- The header of a new file with so many segments of each kind. -/
def newHeader (P : PyFloat) (c : SegKind → Nat) : Store P.F :=
  ((((Store.empty.set 31 [] ⟨.val (.int (c .image)), none⟩).set 34 [] ⟨.val (.int (c .graphic)), none⟩).set
    38 [] ⟨.val (.int (c .text)), none⟩).set 41 [] ⟨.val (.int (c .des)), none⟩).set 44 []
    ⟨.val (.int (c .res)), none⟩

variable {c : SegKind → Nat}

theorem newHeader_num (k : SegKind) : newHeader P c (numPos k) [] = some ⟨.val (.int (c k)), none⟩ := by
  unfold newHeader
  cases k <;> simp [Store.set, numPos]

theorem newHeader_other {m : Nat} {key : Key} (h : m ∉ [31, 34, 38, 41, 44]) :
    newHeader P c m key = none := by
  simp only [List.mem_cons, List.not_mem_nil, or_false, not_or] at h
  unfold newHeader
  simp only [Store.set]
  rw [if_neg (by omega), if_neg (by omega), if_neg (by omega), if_neg (by omega), if_neg (by omega)]
  rfl

theorem head_cells (hn : ∀ k, c k ≤ 999) {m : Nat}
    (hm : m < 32 ∨ m = 34 ∨ m = 37 ∨ m = 38 ∨ m = 41 ∨ m = 44 ∨ m = 47 ∨ m = 50) :
    CellOk Tables.t_file_header.tab (newHeader P c) m [] := by
  have num : ∀ k : SegKind, CellOk Tables.t_file_header.tab (newHeader P c) (numPos k) [] := by
    intro k
    refine cell_int (w := 3) (by cases k <;> decide +kernel) (newHeader_num k) ?_
    have := hn k
    exact .inl ⟨by omega, by decide, by omega⟩
  by_cases h : m ∈ [31, 34, 38, 41, 44]
  · simp only [List.mem_cons, List.not_mem_nil, or_false] at h
    rcases h with rfl | rfl | rfl | rfl | rfl
    · exact num .image
    · exact num .graphic
    · exact num .text
    · exact num .des
    · exact num .res
  · refine cell_default (head_default m (by omega) ?_) (newHeader_other h)
    simp only [List.mem_cons, List.not_mem_nil, or_false, not_or] at h
    omega

/-- The lengths of a segment. -/
theorem len_cells (k : SegKind) {i : Nat} (hi : (i : Int) < c k) {m : Nat}
    (hm : m = lenPos k ∨ m = dataPos k) :
    CellOk Tables.t_file_header.tab (newHeader P c) m [(i : Int)] := by
  have hu : newHeader P c m [(i : Int)] = none := newHeader_other (by
    rcases hm with rfl | rfl <;> cases k <;> decide)
  have hd : (Tables.t_file_header.tab[m]?.map fun fi =>
      defaultFits fi.fd (widthAt Tables.t_file_header.tab m)) = some true := by
    rcases hm with rfl | rfl <;> cases k <;> decide +kernel
  intro fi hf
  rw [hf] at hd
  have hval : ∃ v, stored (newHeader P c) fi.fd m [(i : Int)] = .val v ∧
      ValOk fi.fd (widthAt Tables.t_file_header.tab m) v :=
    ⟨_, by unfold stored; rw [hu], defaultFits_ok (Option.some.inj hd)⟩
  rcases hm with rfl | rfl
  · obtain ⟨f1, z1⟩ := len_sized k
    have : f1 = fi := by have := z1.at_; rw [hf] at this; cases this; rfl
    subst this
    exact ⟨check_loop z1 (newHeader_num k) (by omega), hval⟩
  · obtain ⟨f1, z1⟩ := data_sized k
    have : f1 = fi := by have := z1.at_; rw [hf] at this; cases this; rfl
    subst this
    exact ⟨check_loop z1 (newHeader_num k) (by omega), hval⟩

theorem header_fwd (hn : ∀ k, c k ≤ 999) :
    ∃ cs, writeChunks P Tables.t_file_header (newHeader P c) = .ok cs := by
  have hu := (unset_int (P := P) fileD_causal row_udhdl rfl (newHeader_other (c := c) (by decide))).1
  have hx := (unset_int (P := P) fileD_causal row_xhdl rfl (newHeader_other (c := c) (by decide))).1
  show ∃ cs, writeD P Tables.t_file_header.tab (newHeader P c) 0 [] Tables.t_file_header = .ok cs
  refine fwd_run 32 0 _ (by decide +kernel) rfl (fun m _ h => head_cells hn (by omega)) ?_
  refine fwd_loop ((numField .image).shape P (newHeader_num .image) [])
    (fun i hi => fwd_run 2 32 _ (by decide +kernel) rfl (fun m h1 h2 => len_cells .image hi
      (by show m = 32 ∨ m = 33; omega)) ⟨[], rfl⟩) ?_
  refine fwd_run 1 34 _ (by decide +kernel) rfl (fun m _ h => head_cells hn (by omega)) ?_
  refine fwd_loop ((numField .graphic).shape P (newHeader_num .graphic) [])
    (fun i hi => fwd_run 2 35 _ (by decide +kernel) rfl (fun m h1 h2 => len_cells .graphic hi
      (by show m = 35 ∨ m = 36; omega)) ⟨[], rfl⟩) ?_
  refine fwd_run 2 37 _ (by decide +kernel) rfl (fun m _ h => head_cells hn (by omega)) ?_
  refine fwd_loop ((numField .text).shape P (newHeader_num .text) [])
    (fun i hi => fwd_run 2 39 _ (by decide +kernel) rfl (fun m h1 h2 => len_cells .text hi
      (by show m = 39 ∨ m = 40; omega)) ⟨[], rfl⟩) ?_
  refine fwd_run 1 41 _ (by decide +kernel) rfl (fun m _ h => head_cells hn (by omega)) ?_
  refine fwd_loop ((numField .des).shape P (newHeader_num .des) [])
    (fun i hi => fwd_run 2 42 _ (by decide +kernel) rfl (fun m h1 h2 => len_cells .des hi
      (by show m = 42 ∨ m = 43; omega)) ⟨[], rfl⟩) ?_
  refine fwd_run 1 44 _ (by decide +kernel) rfl (fun m _ h => head_cells hn (by omega)) ?_
  refine fwd_loop ((numField .res).shape P (newHeader_num .res) [])
    (fun i hi => fwd_run 2 45 _ (by decide +kernel) rfl (fun m h1 h2 => len_cells .res hi
      (by show m = 45 ∨ m = 46; omega)) ⟨[], rfl⟩) ?_
  refine fwd_run 1 47 _ (by decide +kernel) rfl (fun m _ h => head_cells hn (by omega)) ?_
  refine area_fwd (n := 48) rfl rfl rfl (by decide +kernel) hu (newHeader_other (by decide)) ?_
  refine fwd_run 1 50 _ (by decide +kernel) rfl (fun m _ h => head_cells hn (by omega)) ?_
  exact area_fwd (n := 51) rfl rfl rfl (by decide +kernel) hx (newHeader_other (by decide)) ⟨[], rfl⟩

theorem header_back {cs : List Chunk} (h : writeChunks P Tables.t_file_header (newHeader P c) = .ok cs)
    (k : SegKind) : c k ≤ 999 := by
  have hw : writeStruct P Tables.t_file_header (newHeader P c) = .ok (chunkBytes cs) := by
    unfold writeStruct; rw [h]; rfl
  have hr : Row Tables.t_file_header k.numField (numPos k) .int none 3 :=
    Row.of (by cases k <;> decide +kernel)
  have := int_fails hr (by cases k <;> decide +kernel) (Row.always hr _) ⟨none, newHeader_num k⟩ hw
  unfold FitsDec at this
  omega

theorem header_length {cs : List Chunk}
    (h : writeChunks P Tables.t_file_header (newHeader P c) = .ok cs) :
    (chunkBytes cs).length = 388 + 16 * c .image + 10 * c .graphic + 9 * c .text + 13 * c .des +
      11 * c .res := by
  have hw : writeStruct P Tables.t_file_header (newHeader P c) = .ok (chunkBytes cs) := by
    unfold writeStruct; rw [h]; rfl
  obtain ⟨a, b, t, d, e, u, x, q, hw⟩ := C98_file_written P hw
  rw [C98_total P hw]
  have num : ∀ k : SegKind, getAttr P Tables.t_file_header (newHeader P c) k.numField [] =
      .ok (.int (c k)) := fun k => (numField k).get P (newHeader_num k)
  have e1 := counts_int q.numi (num .image)
  have e2 := counts_int q.nums (num .graphic)
  have e3 := counts_int q.numt (num .text)
  have e4 := counts_int q.numdes (num .des)
  have e5 := counts_int q.numres (num .res)
  have e6 : u = 0 := by
    have h2 := q.udhdl
    rw [(unset_int (P := P) fileD_causal row_udhdl rfl (newHeader_other (c := c) (by decide))).2] at h2
    injection h2 with h2; injection h2 with h2; exact h2.symm
  have e7 : x = 0 := by
    have h2 := q.xhdl
    rw [(unset_int (P := P) fileD_causal row_xhdl rfl (newHeader_other (c := c) (by decide))).2] at h2
    injection h2 with h2; injection h2 with h2; exact h2.symm
  rw [(C98_lengths a b t d e u x 0 false (.inl e6) (.inl e7) (.inl rfl)).1, e1, e2, e3, e4, e5, e6, e7]
  simp

/-! ### Preparing -/

theorem prepare_texts : ∀ (i : Nat) (ts : List AskedText),
    prepareSegs P (stdIO P (imgIO P) R) .text i (ts.map (·.seg R)) [] = .ok (ts.map (·.seg R), [])
  | _, [] => rfl
  | i, t :: ts => by
    obtain ⟨S, _, h2, hc⟩ := seg_cells (P := P) t R
    have hp : prepareHeader P (stdIO P (imgIO P) R) SegKind.text.desc textAreas SegKind.text.secPrefix
        SegKind.text.oflName i (t.seg R : Seg P.F (stdIO P (imgIO P) R).D).tres
        (t.seg R : Seg P.F (stdIO P (imgIO P) R).D).sub [] = .ok ((t.seg R).sub, []) := by
      rw [show (t.seg R : Seg P.F (stdIO P (imgIO P) R).D).tres = [] from rfl]
      refine prepare_none fun x hx => ?_
      simp only [textAreas, List.mem_cons, List.not_mem_nil, or_false] at hx
      subst hx
      rw [h2]
      exact (unset_int (P := P) txD_causal row_txshdl rfl (hc.others 23 _ (by decide))).2
    simp only [List.map_cons, prepareSegs, show SegKind.text.areas = some textAreas from rfl, hp,
      prepare_texts (i + 1) ts]

/-- How many segments of each kind. -/
def counts (n m : Nat) : SegKind → Nat
  | .image => n
  | .text => m
  | _ => 0

theorem prepared {as : List (Asked P)} {ts : List AskedText} (has : ∀ a ∈ as, a.Ok ∧ a.tres = []) :
    ∃ segs, prepareFile P (stdIO P (imgIO P) R) (newFile as ts R) =
        .ok (newHeader P (counts as.length ts.length), segs) ∧
      segs .image = as.map (·.seg R) ∧ segs .text = ts.map (·.seg R) ∧ segs .graphic = [] ∧
      segs .des = [] ∧ segs .res = [] := by
  have h1 : prepareHeader P (stdIO P (imgIO P) R) Tables.t_file_header fileAreas (n!"fs") "XHD".toList 0
      [] Store.empty [] = .ok (Store.empty, []) := by
    refine prepare_none fun x hx => ?_
    simp only [fileAreas, List.mem_cons, List.not_mem_nil, or_false] at hx
    rcases hx with rfl | rfl
    · exact (unset_int (P := P) fileD_causal row_xhdl rfl rfl).2
    · exact (unset_int (P := P) fileD_causal row_udhdl rfl rfl).2
  have hnum : ∀ (k : SegKind) (S : Store P.F) (z : Int) (l : List (Name × Val P.F)),
      setAll P Tables.t_file_header ((k.numField, .int z) :: l) S =
        setAll P Tables.t_file_header l (S.set (numPos k) [] ⟨.val (.int z), none⟩) := by
    intro k S z l
    have hr : Row Tables.t_file_header k.numField (numPos k) .int none 3 :=
      Row.of (by cases k <;> decide +kernel)
    simp only [setAll, setA, hr.set P S (v := .int z) rfl]
  have h2 : setAll P Tables.t_file_header
      [(n!"numi", .int ((as.map (·.seg R)).length : Nat)), (n!"nums", .int ((0 : Nat) : Int)),
       (n!"numt", .int ((ts.map fun t => (t.seg R : Seg P.F (stdIO P (imgIO P) R).D)).length : Nat)),
       (n!"numdes", .int ((0 : Nat) : Int)), (n!"numres", .int ((0 : Nat) : Int))] Store.empty =
      .ok (newHeader P (counts as.length ts.length)) := by
    rw [List.length_map, List.length_map]
    rw [show (n!"numi") = SegKind.image.numField from rfl, hnum,
      show (n!"nums") = SegKind.graphic.numField from rfl, hnum,
      show (n!"numt") = SegKind.text.numField from rfl, hnum,
      show (n!"numdes") = SegKind.des.numField from rfl, hnum,
      show (n!"numres") = SegKind.res.numField from rfl, hnum]
    rfl
  refine ⟨fun
    | .image => as.map (·.seg R) | .graphic => [] | .text => ts.map (·.seg R) | .des => [] | .res => [],
    ?_, rfl, rfl, rfl, rfl, rfl⟩
  unfold prepareFile newFile
  simp only [dropOverflow, bind, Except.bind, h1, prepare_images 0 as has, prepareSegs,
    prepare_texts 0 ts, List.length_nil]
  rw [h2]
  rfl

/-! ### C101 -/

theorem texts_written : ∀ {ts : List AskedText} {rs},
    Each (fun s r => segBytes P E (stdIO P (imgIO P) R) .text s = .ok r) (ts.map (·.seg R)) rs →
    (rs.flatMap fun r => r.2.1 ++ r.2.2).length = (ts.map fun t => 282 + (textBytes t.text).length).sum ∧
    ∀ (i : Nat) t r, ts[i]? = some t → rs[i]? = some r →
      (TextFits 7 t.textid ∧ TextFits 14 t.txtdt ∧ TextFits 80 t.txtitl ∧ TextFits 3 t.txtfmt ∧
        ∀ z, t.level = some z → -99 ≤ z ∧ z ≤ 999) ∧
      r.2.1.length = 282 ∧ r.2.2.length = (textBytes t.text).length
  | [], _, h => by cases h; exact ⟨rfl, by simp⟩
  | t :: ts, _, h => by
    cases h with
    | @cons _ _ r rs h1 h2 =>
      obtain ⟨i2, i3⟩ := texts_written h2
      obtain ⟨w1, w2⟩ := segBytes_parts h1
      obtain ⟨S, _, hs, hc⟩ := seg_cells (P := P) t R
      rw [hs] at w1
      have hl := text_length hc w1
      have hb := text_back hc w1
      refine ⟨?_, ?_⟩
      · simp only [List.flatMap_cons, List.length_append, List.map_cons, List.sum_cons, i2, hl, w2]
      · intro i b q hb' hq
        cases i with
        | zero =>
          simp only [List.getElem?_cons_zero, Option.some.injEq] at hb' hq
          subst hb' hq
          exact ⟨hb, hl, by rw [w2]⟩
        | succ i => exact i3 i b q (by simpa using hb') (by simpa using hq)

theorem parts_length {F D : Type} {res : SegKind → List (Seg F D × Bytes × Bytes)}
    (h1 : res .graphic = []) (h2 : res .des = []) (h3 : res .res = []) :
    (partsBytes fun k => (res k).map (·.2)).length = ((res .image).flatMap fun r => r.2.1 ++ r.2.2).length +
      ((res .text).flatMap fun r => r.2.1 ++ r.2.2).length := by
  unfold partsBytes
  simp only [SegKind.order, List.flatMap_cons, List.flatMap_nil, h1, h2, h3, List.append_nil,
    List.flatMap_map, List.length_append, List.nil_append]

variable {as : List (Asked P)} {ts : List AskedText}

/-- C101.  A file made from scratch with any images and any texts, without TREs, is written exactly when
all of them are within the limits of the format, there are at most 999 of each, and the file is not too
long. -/
theorem C101_writes_iff (has : ∀ a ∈ as, a.Ok ∧ a.tres = []) :
    (∃ r, writeFile P E (stdIO P (imgIO P) R) (newFile as ts R) = .ok r) ↔
      (∀ a ∈ as, Fits a) ∧ (∀ t ∈ ts, TextOk t) ∧ as.length ≤ 999 ∧ ts.length ≤ 999 ∧
        fileLength as ts < 1000000000000 := by
  obtain ⟨segs, hp, hi, ht, hg, hde, hre⟩ := prepared (R := R) (ts := ts) has
  rw [C70_writes_iff hp]
  have hok : ∀ a ∈ as, a.Ok := fun a h => (has a h).1
  constructor
  · rintro ⟨cs, res, hf⟩
    have he := hf.segments .image
    have hx := hf.segments .text
    rw [hi] at he
    rw [ht] at hx
    obtain ⟨e1, e2, e3⟩ := each_written hok he
    obtain ⟨x2, x3⟩ := texts_written hx
    refine ⟨fun a ha => ?_, fun t htm => ?_, header_back hf.header .image, header_back hf.header .text, ?_⟩
    · obtain ⟨i, hia⟩ := List.getElem?_of_mem ha
      have hs : (segs .image)[i]? = some (a.seg R) := by rw [hi, List.getElem?_map, hia]; rfl
      obtain ⟨r, hr⟩ : ∃ r, (res .image)[i]? = some r := by
        have hl := he.length
        have : i < (res .image).length := by
          have := lt_of_getElem? hs
          rw [hi] at this
          omega
        exact ⟨_, List.getElem?_eq_getElem this⟩
      obtain ⟨l1, l2⟩ := hf.lengths .image i _ r hs hr rfl
      obtain ⟨m1, m2⟩ := e3 i a r hia hr
      rw [m1] at l1
      rw [m2] at l2
      exact { toFieldsFit := e1 a ha, sub := l1, data := l2 }
    · obtain ⟨i, hia⟩ := List.getElem?_of_mem htm
      have hs : (segs .text)[i]? = some (t.seg R) := by rw [ht, List.getElem?_map, hia]; rfl
      obtain ⟨r, hr⟩ : ∃ r, (res .text)[i]? = some r := by
        have hl := hx.length
        have : i < (res .text).length := by
          have := lt_of_getElem? hs
          rw [ht] at this
          omega
        exact ⟨_, List.getElem?_eq_getElem this⟩
      obtain ⟨l1, l2⟩ := hf.lengths .text i _ r hs hr rfl
      obtain ⟨⟨f1, f2, f3, f4, f5⟩, m1, m2⟩ := x3 i t r hia hr
      rw [m2] at l2
      exact ⟨f1, f2, f3, f4, f5, l2⟩
    · have hl := hf.fileLength
      have g1 := hf.segments .graphic
      have g2 := hf.segments .des
      have g3 := hf.segments .res
      rw [hg] at g1
      rw [hde] at g2
      rw [hre] at g3
      rw [header_length hf.header, parts_length (each_nil g1) (each_nil g2) (each_nil g3), e2, x2] at hl
      simp only [counts] at hl
      unfold fileLength
      omega
  · rintro ⟨h1, h2, h3, h4, h5⟩
    have hcount : ∀ k, counts as.length ts.length k ≤ 999 := by
      intro k
      cases k <;> simp only [counts] <;> omega
    obtain ⟨cs, hcs⟩ := header_fwd (P := P) hcount
    obtain ⟨rs, hrs⟩ := each_exists (as := as.map (·.seg R))
      (Q := fun s r => segBytes P E (stdIO P (imgIO P) R) .image s = .ok r) (by
        intro s hs
        obtain ⟨a, ha, rfl⟩ := List.mem_map.mp hs
        exact Asked.segBytes (hok a ha) R (h1 a ha).toFieldsFit)
    obtain ⟨us, hus⟩ := each_exists (as := ts.map fun t => (t.seg R : Seg P.F (stdIO P (imgIO P) R).D))
      (Q := fun s r => segBytes P E (stdIO P (imgIO P) R) .text s = .ok r) (by
        intro s hs
        obtain ⟨t, htm, rfl⟩ := List.mem_map.mp hs
        obtain ⟨S, _, hsub, hc⟩ := seg_cells (P := P) t R
        rw [segBytes_iff, hsub]
        exact text_fwd hc (h2 t htm))
    obtain ⟨_, e2, e3⟩ := each_written hok hrs
    obtain ⟨x2, x3⟩ := texts_written hus
    refine ⟨cs, fun | .image => rs | .text => us | _ => [], hcs, ?_, ?_, ?_, ?_⟩
    · intro k
      cases k
      · rw [hi]; exact hrs
      · rw [hg]; exact .nil
      · rw [ht]; exact hus
      · rw [hde]; exact .nil
      · rw [hre]; exact .nil
    · intro k i s r hs hr _
      cases k
      · rw [hi, List.getElem?_map] at hs
        cases ha : as[i]? with
        | none => rw [ha] at hs; cases hs
        | some a =>
          obtain ⟨m1, m2⟩ := e3 i a r ha hr
          have := h1 a (List.mem_of_getElem? ha)
          rw [m1, m2]
          exact ⟨this.sub, this.data⟩
      · rw [hg] at hs; simp at hs
      · rw [ht, List.getElem?_map] at hs
        cases ha : ts[i]? with
        | none => rw [ha] at hs; cases hs
        | some t =>
          obtain ⟨_, m1, m2⟩ := x3 i t r ha hr
          have := h2 t (List.mem_of_getElem? ha)
          rw [m1, m2]
          exact ⟨by decide, this.data⟩
      · rw [hde] at hs; simp at hs
      · rw [hre] at hs; simp at hs
    · rw [header_length hcs]; simp only [counts]; omega
    · rw [header_length hcs, parts_length rfl rfl rfl]
      simp only [counts, e2, x2]
      unfold fileLength at h5
      omega

/-- New texts meet the conditions of C26. -/
theorem C101_ready (t : AskedText) :
    SegReady P E (stdIO P (imgIO P) R) .text (t.seg R) := by
  obtain ⟨S, h1, h2, hc⟩ := seg_cells (P := P) t R
  have hn : NoLit (t.seg R : Seg P.F (stdIO P (imgIO P) R).D).sub := by
    show NoLit (runSteps (t.steps P) Store.empty).1
    refine runSteps_noLit P ?_ NoLit.empty
    intro f hf
    unfold AskedText.steps at hf
    simp only [List.mem_append, List.mem_cons, List.not_mem_nil, or_false] at hf
    rcases hf with (rfl | rfl | rfl | rfl) | hf
    · exact fun S h => setAttr_noLit P h _ [] _
    · exact fun S h => setAttr_noLit P h _ [] _
    · exact fun S h => setAttr_noLit P h _ [] _
    · exact fun S h => setAttr_noLit P h _ [] _
    · cases hl : t.level with
      | none => rw [hl] at hf; cases hf
      | some z =>
        rw [hl] at hf
        rw [List.mem_singleton.mp hf]
        exact fun S h => setAttr_noLit P h _ [] _
  have ha : HoldsAll P txD (t.seg R : Seg P.F (stdIO P (imgIO P) R).D).sub
      (areaPositions txD textAreas) [unused] := by
    refine (textHeader_fresh P).cells P textHeader_areas ?_
    have hpos : (areaPositions txD textAreas).flatMap AreaPos.list = [23, 24, 25] := by decide +kernel
    rw [hpos, h2]
    intro q hq
    simp only [List.mem_cons, List.not_mem_nil, or_false] at hq
    exact hc.others q [] (by simp only [List.mem_cons, List.not_mem_nil, or_false, not_or]; omega)
  exact ⟨hn, rfl, _, [], ha, rfl, by simp, Reusable.fresh (by simp), by intro t ht; cases ht⟩

theorem kept {s s' : Seg P.F (stdIO P (imgIO P) R).D}
    (h : SegUntouched P (stdIO P (imgIO P) R) .text s s') {nm : Name}
    (hm : nm ∈ [n!"textid", n!"txtdt", n!"txtitl", n!"txtfmt", n!"txtalvl"]) :
    getAttr P txD s'.sub nm [] = getAttr P txD s.sub nm [] := by
  have hbad : ((bookFields (some .text)).all fun nm => match resolve txD.tab nm with
      | some q => [23, 24, 25].contains q
      | none => true) = true := by decide +kernel
  have hc : clearOf txD.tab [23, 24, 25] = true := by decide +kernel
  have hn : ([n!"textid", n!"txtdt", n!"txtitl", n!"txtfmt", n!"txtalvl"].all fun nm =>
      match resolve txD.tab nm with
      | some q => ![23, 24, 25].contains q
      | none => false) = true := by decide +kernel
  have h1 := List.all_eq_true.mp hn nm hm
  unfold getAttr
  cases hr : resolve txD.tab nm with
  | none => rfl
  | some n =>
    rw [hr] at h1
    refine (getItem_closed (P := P) (clearOf_closed hc) ?_ (by simpa using h1)).1 []
    intro m fi _ hm key
    have : s'.sub m key = s.sub m key := h.sub m key (by
      intro nm' hnm' he
      have h2 := List.all_eq_true.mp hbad nm' hnm'
      rw [show resolve txD.tab nm' = some m from he] at h2
      exact hm (by simpa using h2))
    unfold stored
    rw [this]

theorem same_attr {S R : Store P.F} (h : ∀ nm, itemsOf P txD R nm = itemsOf P txD S nm) {nm : Name}
    (hm : nm ∈ [n!"textid", n!"txtdt", n!"txtitl", n!"txtfmt", n!"txtalvl"]) :
    getAttr P txD R nm [] = getAttr P txD S nm [] := by
  have hn : ([n!"textid", n!"txtdt", n!"txtitl", n!"txtfmt", n!"txtalvl"].all fun nm =>
      match resolve txD.tab nm with
      | some q => match txD.tab[q]? with
        | some fi => fi.shapes.isEmpty
        | none => false
      | none => false) = true := by decide +kernel
  have h1 := List.all_eq_true.mp hn nm hm
  cases hr : resolve txD.tab nm with
  | none => rw [hr] at h1; cases h1
  | some n =>
    rw [hr] at h1
    cases hf : txD.tab[n]? with
    | none => simp only [hf] at h1; cases h1
    | some fi =>
      simp only [hf, List.isEmpty_iff] at h1
      have := h nm
      unfold itemsOf at this
      rw [hr] at this
      simp only [fieldItems, hf, h1, keysFrom, valuesAt] at this
      unfold getAttr
      rw [hr]
      simp only
      revert this
      cases getItem P txD.tab R n [] <;> cases getItem P txD.tab S n [] <;> simp

theorem shows_text {t : AskedText} {s1 s : Seg P.F (stdIO P (imgIO P) R).D}
    (hu : SegUntouched P (stdIO P (imgIO P) R) .text (t.seg R) s1)
    (hs : SameSeg P (stdIO P (imgIO P) R) (SameObj P Reread) .text s1 s) : TextShows s t := by
  obtain ⟨S, _, h2, hc⟩ := seg_cells (P := P) t R
  have key : ∀ nm ∈ [n!"textid", n!"txtdt", n!"txtitl", n!"txtfmt", n!"txtalvl"],
      getAttr P txD s.sub nm [] = getAttr P txD S nm [] := by
    intro nm hm
    rw [same_attr hs.sub hm, kept hu hm, h2]
  refine ⟨?_, ?_, ?_, ?_, ?_, ?_⟩
  · rw [key _ (by simp)]; exact row_textid.get_str P hc.textid
  · rw [key _ (by simp)]; exact row_txtdt.get_str P hc.txtdt
  · rw [key _ (by simp)]; exact row_txtitl.get_str P hc.txtitl
  · rw [key _ (by simp)]; exact row_txtfmt.get_str P hc.txtfmt
  · rw [key _ (by simp)]
    have hl := hc.level
    cases hz : t.level with
    | some z => rw [hz] at hl; exact row_txtalvl.get_int P hl
    | none =>
      rw [hz] at hl
      obtain ⟨fi, r1, r2, r3, r4, r5, _⟩ := row_txtalvl.at_
      unfold getAttr
      rw [row_txtalvl.res]
      simp only
      rw [r2.get_plain P r3 r1 (evalCond_none P r5 _ _)]
      have hn : (txD.tab[2]?.map fun fi => fi.fd.default.isNone && fi.fd.optional) = some true := by
        decide +kernel
      rw [r1] at hn
      simp only [Option.map_some, Option.some.injEq, Bool.and_eq_true, Option.isNone_iff_eq_none] at hn
      unfold stored defaultVal
      rw [hl, hn.1, hn.2]
      simp [finish, hn.2]
  · have hd := hs.data
    rw [hu.data, show (t.seg R : Seg P.F (stdIO P (imgIO P) R).D).data = .other (.text t.text) from rfl] at hd
    cases hx : s.data with
    | overflow b => rw [hx] at hd; cases hd
    | other x =>
      rw [hx] at hd
      cases x with
      | text u => exact ⟨u, rfl, by rw [← asBytes_eq, ← asBytes_eq]; exact hd⟩
      | _ => cases hd

/-- C101, and then it has this length, it can be read, each image shows the pixels asked for, and each
text shows the fields and has the bytes given. -/
theorem C101_round_trip (hR : (R.des.map DesCls.tag).Nodup) (hE : E.reg.Causal)
    (has : ∀ a ∈ as, a.Ok ∧ a.tres = []) (hf : ∀ a ∈ as, Fits a) (ht : ∀ t ∈ ts, TextOk t)
    (hn : as.length ≤ 999) (hm : ts.length ≤ 999) (hl : fileLength as ts < 999999999999) :
    ∃ f' out g, writeFile P E (stdIO P (imgIO P) R) (newFile as ts R) = .ok (f', out) ∧
      out.length = fileLength as ts ∧ readFile P E (stdIO P (imgIO P) R) out = .ok g ∧
      Each (fun s a => ∃ o, s.data = .other (.image o) ∧ ImgObj.Shows o a.content) g.image as ∧
      Each (fun s t => TextShows s t) g.text ts := by
  obtain ⟨⟨f', out⟩, hw⟩ := (C101_writes_iff (E := E) (R := R) has).mpr ⟨hf, ht, hn, hm, by omega⟩
  have hlen : out.length = fileLength as ts := by
    obtain ⟨r⟩ := writeFile_run P E _ hw
    obtain ⟨segs, hp, hi, htx, hg, hde, hre⟩ := prepared (R := R) (ts := ts) has
    have hp' := Attempt.run_prepared r
    rw [hp] at hp'
    injection hp' with hp'
    injection hp' with e1 e2
    have hfit := Attempt.run_fits r
    rw [← e1, ← e2] at hfit
    have he := hfit.segments .image
    have hx := hfit.segments .text
    have g1 := hfit.segments .graphic
    have g2 := hfit.segments .des
    have g3 := hfit.segments .res
    rw [hi] at he
    rw [htx] at hx
    rw [hg] at g1
    rw [hde] at g2
    rw [hre] at g3
    obtain ⟨_, e3, _⟩ := each_written (fun a h => (has a h).1) he
    obtain ⟨x3, _⟩ := texts_written hx
    rw [r.out_eq, List.length_append, slots_length r.slots, header_length hfit.header,
      parts_length (each_nil g1) (each_nil g2) (each_nil g3), e3, x3]
    simp only [counts]
    unfold fileLength
    omega
  have hi : Each SegHolds (as.map (·.seg R)) (as.map Asked.content) := by
    refine Each.map_left _ (Each.map_right _ (Each.same fun a ha => ?_))
    have ho := (has a ha).1
    exact C97_new a.texts ho.mode ho.dtype ho.bands ho.fill (fun _ _ => rfl) rfl
  have hr : FileReady P E (stdIO P (imgIO P) R) (newFile as ts R) := {
    reg := hE
    header := NoLit.empty
    tres := ⟨_, [], fileHeader_fresh P, rfl, by simp, Reusable.fresh (by simp), by intro t ht; cases ht⟩
    linked := by
      intro k s hs
      cases k <;> simp [NFile.segs, newFile] at hs
      · obtain ⟨a, _, rfl⟩ := hs
        rfl
      · obtain ⟨a, _, rfl⟩ := hs
        rfl
    segs := by
      intro k hk s hs
      cases k <;> simp [NFile.segs, newFile] at hs
      · obtain ⟨a, ha, rfl⟩ := hs
        exact C97_ready (has a ha).1 (by rw [(has a ha).2]; exact ⟨[], rfl, by simp, by simp⟩)
      · obtain ⟨a, ha, rfl⟩ := hs
        exact C101_ready a
    des := by intro s hs; cases hs }
  have hd : ∀ k, k ≠ .image → ∀ s ∈ (newFile as ts R).segs k, (k = .des →
      getAttr P Tables.t_des_subheader s.sub (n!"desid") [] ≠ .ok (.str "TRE_OVERFLOW".toList)) →
      ∃ x, s.data = .other x ∧ ObjReady P R (fun _ _ => False) k s.sub x := by
    intro k hk s hs _
    cases k <;> simp [NFile.segs, newFile] at hs
    · exact absurd rfl hk
    · obtain ⟨t, _, rfl⟩ := hs
      exact ⟨_, rfl, rfl⟩
  obtain ⟨g, g1, _, g3, g4⟩ := file_all E hR hw hr hi hd (by omega)
  refine ⟨f', out, g, hw, hlen, g1, Each.of_map_right _ g3, ?_⟩
  obtain ⟨u1, u2⟩ := g4 .text (by decide)
  have u3 : Each (fun s s2 => ∃ s1, SegUntouched P (stdIO P (imgIO P) R) .text s s1 ∧
      SameSeg P (stdIO P (imgIO P) R) (SameObj P Reread) .text s1 s2) (ts.map (·.seg R)) g.text :=
    (u1.trans u2).imp fun _ _ _ ⟨s1, _, a, b⟩ => ⟨s1, a, b⟩
  refine (Each.of_map_right _ (Each.flip u3)).imp ?_
  rintro s _ t ⟨s1, hu, hs⟩
  exact shows_text hu hs

/-! ### Concrete cases -/

/-- A text with an attachment level, and one given as bytes without. -/
def exTexts : List AskedText :=
  [{ textid := "T1".toList, txtdt := "20200101000000".toList, txtitl := "first".toList, txtfmt := "UT1".toList
     level := some 1, text := .str "Größe".toList },
   { textid := "T2".toList, txtdt := [], txtitl := "second".toList, txtfmt := "STA".toList
     text := .bytes [72, 105] }]

theorem exTexts_ok : ∀ t ∈ exTexts, TextOk t := by
  intro t ht
  simp only [exTexts, List.mem_cons, List.not_mem_nil, or_false] at ht
  rcases ht with rfl | rfl
  · exact { textid := by unfold TextFits; decide, txtdt := by unfold TextFits; decide
            txtitl := by unfold TextFits; decide, txtfmt := by unfold TextFits; decide
            level := by intro z hz; cases hz; decide
            data := by decide }
  · exact { textid := by unfold TextFits; decide, txtdt := by unfold TextFits; decide
            txtitl := by unfold TextFits; decide, txtfmt := by unfold TextFits; decide
            level := by intro z hz; cases hz
            data := by decide }

example : fileLength exAsked exTexts = 1340 + 18 + 282 + 7 + 282 + 2 := by decide

/-- Two images and two texts, written and read back. -/
example : ∃ f' out g, writeFile P0 exEnv (stdIO P0 (imgIO P0) exDataReg) (newFile exAsked exTexts exDataReg) =
      .ok (f', out) ∧ out.length = fileLength exAsked exTexts ∧
    readFile P0 exEnv (stdIO P0 (imgIO P0) exDataReg) out = .ok g ∧
    Each (fun s a => ∃ o, s.data = .other (.image o) ∧ ImgObj.Shows o a.content) g.image exAsked ∧
    Each (fun s t => TextShows s t) g.text exTexts :=
  C101_round_trip (by decide +kernel) (by intro t ht; cases ht)
    (fun a ha => ⟨(exAsked_ok a ha).1, by
      simp only [exAsked, List.mem_cons, List.not_mem_nil, or_false] at ha
      rcases ha with rfl | rfl <;> rfl⟩) exAsked_fits exTexts_ok (by decide) (by decide) (by decide)

/-- A text of a hundred thousand bytes cannot be written, whatever is given for it. -/
example (t : AskedText) (h : t.text = .bytes (List.replicate 100000 65)) :
    ¬ ∃ r, writeFile P0 exEnv (stdIO P0 (imgIO P0) exDataReg) (newFile [] [t] exDataReg) = .ok r := by
  intro hw
  have := ((C101_writes_iff (by intro a ha; cases ha)).mp hw).2.1 t (by simp)
  have := this.data
  rw [h] at this
  unfold textBytes at this
  rw [List.length_replicate] at this
  exact absurd this (Nat.lt_irrefl _)

end Verif.NewText
