import Verif.SaveLoad
import Verif.Props.FileRound
import Verif.Props.Fields

/- When writing a file succeeds: helper lemmas for C70. -/

namespace Verif

variable (P : PyFloat) (E : Env) (IO : DataIO P.F)

/-! ### Fields of the file header -/

/-- A plain integer field without format, of constant size `w`, at position `n`. -/
def sizedB (n w : Nat) (sh : List Expr) : Bool :=
  match Tables.t_file_header.tab[n]? with
  | none => false
  | some fi => plainInt fi && fi.shapes == sh && fi.fd.frmt == none && fi.fd.size == .const w &&
      fi.fd.sizeOffset == 0 && decide (1 ≤ w)

structure Sized (n w : Nat) (sh : List Expr) (fi : FInfo) : Prop where
  at_ : Tables.t_file_header.tab[n]? = some fi
  int : plainInt fi = true
  shapes : fi.shapes = sh
  frmt : fi.fd.frmt = none
  size : fi.fd.size = .const w
  off : fi.fd.sizeOffset = 0
  pos : 1 ≤ w

theorem sized_of {n w : Nat} {sh : List Expr} (h : sizedB n w sh = true) :
    ∃ fi, Sized n w sh fi := by
  unfold sizedB at h
  cases hf : Tables.t_file_header.tab[n]? with
  | none => rw [hf] at h; cases h
  | some fi =>
    rw [hf] at h
    simp only [Bool.and_eq_true, beq_iff_eq, decide_eq_true_eq] at h
    obtain ⟨⟨⟨⟨⟨h1, h2⟩, h3⟩, h4⟩, h6⟩, h5⟩ := h
    exact ⟨fi, hf, h1, h2, h3, h4, h6, h5⟩

variable {P}

theorem Sized.evalSize {n w : Nat} {sh : List Expr} {fi : FInfo} (h : Sized n w sh fi)
    (l : Look P.F) (key : Key) : evalSize P l fi key = .ok (w : Int) := by
  unfold Verif.evalSize
  rw [h.size, h.off]
  simp only [Int.ofNat_zero, Int.sub_zero]
  split
  · rfl
  · rename_i hh
    have := h.pos
    omega

theorem Sized.setItem {n w : Nat} {sh : List Expr} {fi : FInfo} (h : Sized n w sh fi)
    {H : Store P.F} {key : Key}
    (hc : checkIndex P (look P Tables.t_file_header.tab H) fi key = .ok ()) (v : Int) :
    setItem P Tables.t_file_header.tab H n key (.int v) =
      (H.set n key ⟨.val (.int v), none⟩, none) := by
  obtain ⟨p1, p2, p3, p4, p5, p6⟩ := plainInt_spec h.int
  have hs : setCheck P Tables.t_file_header.tab H n key (.int v) = .ok (fi, .int v) := by
    unfold setCheck
    rw [h.at_]
    have hnm : fi.fd.name.isNone = false := by
      cases hh : fi.fd.name with
      | none => exact absurd hh p1
      | some _ => rfl
    simp only [p4, packKind, hnm, hc, evalCond_none P p6, p3, p2]
    rfl
  unfold Verif.setItem budget
  unfold setF
  rw [hs]
  simp only [p4, if_true]

/-- One header update whose value fits. -/
theorem updateHeader_succ {cs0 : List Chunk} {nm : Name} {n w : Nat} {sh : List Expr} {fi : FInfo}
    (hr : resolve Tables.t_file_header.tab nm = some n) (hz : Sized n w sh fi)
    (hu : Tables.t_file_header.unreferenced n = true) {H : Store P.F} {out post : Bytes}
    {key : Key} {v : Nat} (hI : HdrInv P cs0 H out post)
    (hp : ∃ ch ∈ cs0, ch.pos = n ∧ ch.key = key)
    (hc : checkIndex P (look P Tables.t_file_header.tab H) fi key = .ok ())
    (hv : v < 10 ^ w) :
    ∃ out', updateHeader P cs0 nm key v (H, out) =
        .ok (H.set n key ⟨.val (.int v), none⟩, out') ∧ out'.length = out.length := by
  obtain ⟨cs, hw, hsl, hout⟩ := hI.written
  obtain ⟨p1, p2, p3, p4, p5, p6⟩ := plainInt_spec hz.int
  have hset := hz.setItem hc (v : Int)
  have hp' : ∃ ch ∈ cs, ch.pos = n ∧ ch.key = key := by
    obtain ⟨ch, h1, h2, h3⟩ := hp
    have hm : ch.slot ∈ cs.map Chunk.slot := by rw [hsl]; exact List.mem_map_of_mem h1
    obtain ⟨c, c1, c2⟩ := List.mem_map.mp hm
    exact ⟨c, c1, (congrArg Slot.pos c2).trans h2, (congrArg Slot.key c2).trans h3⟩
  obtain ⟨u1, _⟩ := update_rewrite P hz.at_ (Or.inl p4) hu hw hp' hset [] post out.length
  simp only [List.length_nil, List.nil_append, ← hout] at u1
  obtain ⟨b, hb⟩ := (C08_fits_iff P t_file_header_causal hz.at_ p4 p5 hz.frmt hset
    (hz.evalSize _ _)).mpr (Or.inl ⟨by omega, hz.pos, by exact_mod_cast hv⟩)
  obtain ⟨cs', w1, w2, w3⟩ := u1 b hb
  have hloc : updateField P Tables.t_file_header cs0 0 H ⟨out, out.length⟩ n key (.int v) =
      updateField P Tables.t_file_header cs 0 H ⟨out, out.length⟩ n key (.int v) := by
    unfold updateField
    rw [locOf_slots 0 hsl]
  have hres : updateHeader P cs0 nm key v (H, out) =
      .ok (H.set n key ⟨.val (.int v), none⟩, chunkBytes cs' ++ post) := by
    unfold updateHeader
    simp only [hr, hloc, w3]
  refine ⟨_, hres, ?_⟩
  obtain ⟨_, I2⟩ := updateHeader_ok P hr hz.at_ p4 hu hI hres
  obtain ⟨cs2, _, i2, i3⟩ := I2.written
  rw [i3, hout]
  simp only [List.length_append]
  rw [slots_length (i2.trans hsl.symm)]

/-! ### What is written of the header -/

theorem chunk_loop {k : SegKind} {nm : Name} {n : Nat} (h : LenField k nm n) {S : Store P.F}
    {cs : List Chunk} (hw : writeChunks P Tables.t_file_header S = .ok cs) {c : Nat}
    {raw : Option Bytes} (hc : S (numPos k) [] = some ⟨.val (.int c), raw⟩) {i : Nat} (hi : i < c) :
    ∃ ch ∈ cs, ch.pos = n ∧ ch.key = [(i : Int)] := by
  obtain ⟨fi, h1, h2, h3⟩ := h.at_
  obtain ⟨p1, p2, p3, p4, p5, p6⟩ := plainInt_spec h2
  obtain ⟨ks, k1, _, k3⟩ := layout_keys t_file_header_causal
    (writeD_layout P S Tables.t_file_header 0 [] cs hw) h1
  have hk : [(i : Int)] ∈ ks := by
    unfold fieldKeys at k1
    rw [h3] at k1
    simp only [keysFrom, (numField k).shape P hc] at k1
    have hall : ∀ (l : List Int) (ks : List Key),
        forChunks (fun i => keysFrom P (look P Tables.t_file_header.tab S) [] ([] ++ [i])) l =
          .ok ks → ∀ x ∈ l, [x] ∈ ks := by
      intro l
      induction l with
      | nil => intro ks _ x hx; cases hx
      | cons y l ih =>
        intro ks hks x hx
        simp only [forChunks, keysFrom] at hks
        split at hks
        · cases hks
        · rename_i cs1 hh
          injection hks with hks
          subst hks
          rcases List.mem_cons.mp hx with rfl | hx
          · simp
          · have := ih _ hh x hx
            simp [this]
    refine hall _ _ k1 _ ?_
    unfold indices
    refine List.mem_map.mpr ⟨i, by simpa using hi, rfl⟩
  have hp : present (look P Tables.t_file_header.tab S) fi [(i : Int)] = true := by
    unfold present
    rw [evalCond_none P p6]
  have hm : [(i : Int)] ∈ ((cs.map Chunk.slot).filter fun s => s.pos == n).map Slot.key := by
    rw [k3]
    exact List.mem_filter.mpr ⟨hk, hp⟩
  obtain ⟨sl, s1, s2⟩ := List.mem_map.mp hm
  obtain ⟨s3, s4⟩ := List.mem_filter.mp s1
  obtain ⟨ch, c1, rfl⟩ := List.mem_map.mp s3
  have s5 : ch.slot.pos = n := by simpa using s4
  exact ⟨ch, c1, s5, s2⟩

/-- The value of an integer that was written fits. -/
theorem fits_of_written {n w : Nat} {sh : List Expr} {fi : FInfo} (hz : Sized n w sh fi)
    {H : Store P.F} {cs : List Chunk} (hw : writeChunks P Tables.t_file_header H = .ok cs)
    {key : Key} (hp : ∃ ch ∈ cs, ch.pos = n ∧ ch.key = key) {v : Nat} {raw : Option Bytes}
    (hv : H n key = some ⟨.val (.int v), raw⟩) : v < 10 ^ w := by
  obtain ⟨ch, h1, rfl, rfl⟩ := hp
  obtain ⟨p1, p2, p3, p4, p5, p6⟩ := plainInt_spec hz.int
  obtain ⟨_, fi', f1, f2, f3⟩ := writeChunks_from P t_file_header_causal hw h1
  rw [hz.at_] at f1
  injection f1 with f1
  subst f1
  unfold fieldBytes at f3
  rw [hz.evalSize] at f3
  have hst : stored H fi.fd ch.pos ch.key = .val (.int v) := by unfold stored; rw [hv]
  simp only [hst] at f3
  cases hci : checkIndex P (look P Tables.t_file_header.tab H) fi ch.key with
  | error e =>
    exfalso
    unfold lowGet at f3
    cases hnm : fi.fd.name with
    | none => exact p1 hnm
    | some nm =>
      simp only [hnm, hci, bind, Except.bind] at f3
      cases f3
  | ok u =>
    rw [lowGet_present P p1 hci f2 p2, hst, finish_int P p5] at f3
    have := (encode_int_iff P p5 hz.frmt w (v : Int)).mp ⟨_, f3⟩
    rcases this with ⟨_, _, h⟩ | ⟨h, _⟩
    · exact_mod_cast h
    · omega

/-! ### The lengths of the segments -/

/-- Digits of the subheader length and data length fields of each kind of segment (the sizes of
lish/li, lssh/ls, ltsh/lt, ldsh/ld, lresh/lre in nitf_file_header.py:48-67). -/
def lenDigits : SegKind → Nat × Nat
  | .image => (6, 10) | .graphic => (4, 6) | .text => (4, 5) | .des => (4, 9) | .res => (4, 7)

theorem len_sized (k : SegKind) :
    ∃ fi, Sized (lenPos k) (lenDigits k).1 [.ref k.numField []] fi :=
  sized_of (by cases k <;> decide +kernel)

theorem data_sized (k : SegKind) :
    ∃ fi, Sized (dataPos k) (lenDigits k).2 [.ref k.numField []] fi :=
  sized_of (by cases k <;> decide +kernel)

theorem hl_sized : ∃ fi, Sized hlPos 6 [] fi := sized_of (by decide +kernel)
theorem fl_sized : ∃ fi, Sized flPos 12 [] fi := sized_of (by decide +kernel)
theorem num_sized (k : SegKind) : ∃ fi, Sized (numPos k) 3 [] fi :=
  sized_of (by cases k <;> decide +kernel)

theorem check_scalar {n w : Nat} {fi : FInfo} (h : Sized n w [] fi) (l : Look P.F) :
    checkIndex P l fi [] = .ok () := by
  unfold checkIndex
  simp [h.shapes]

theorem check_loop {k : SegKind} {n w : Nat} {fi : FInfo} (h : Sized n w [.ref k.numField []] fi)
    {S : Store P.F} {c : Nat} {raw : Option Bytes}
    (hc : S (numPos k) [] = some ⟨.val (.int c), raw⟩) {i : Nat} (hi : i < c) :
    checkIndex P (look P Tables.t_file_header.tab S) fi [(i : Int)] = .ok () := by
  unfold checkIndex
  rw [h.shapes]
  simp only [List.getLast?_singleton, FInfo.depth, h.shapes, List.length_singleton, ne_eq,
    not_true_eq_false, if_false, List.dropLast_singleton]
  rw [if_neg (by omega), (numField k).shape P hc]
  simp only
  rw [if_neg (by omega)]

theorem num_ne (k : SegKind) : numPos k ≠ lenPos k ∧ numPos k ≠ dataPos k := by
  unfold lenPos dataPos; omega

variable {E IO}

/-- All segments of a kind can be written if each of them can and its lengths fit. -/
theorem writeSegs_succ {cs0 : List Chunk} {k : SegKind} {c : Nat}
    (hp : ∀ i : Nat, i < c → (∃ ch ∈ cs0, ch.pos = lenPos k ∧ ch.key = [(i : Int)]) ∧
      ∃ ch ∈ cs0, ch.pos = dataPos k ∧ ch.key = [(i : Int)]) :
    ∀ {ss : List (Seg P.F IO.D)} {rs : List (Seg P.F IO.D × Bytes × Bytes)},
      Each (fun s r => segBytes P E IO k s = .ok r ∧ (s.linked = true →
        r.2.1.length < 10 ^ (lenDigits k).1 ∧ r.2.2.length < 10 ^ (lenDigits k).2)) ss rs →
    ∀ {i : Nat} {H : Store P.F} {out post : Bytes} {raw : Option Bytes},
      HdrInv P cs0 H out post → H (numPos k) [] = some ⟨.val (.int c), raw⟩ →
      i + ss.length ≤ c →
      ∃ r, writeSegs P E IO cs0 k i ss (H, out) = .ok r := by
  intro ss rs h
  induction h with
  | nil => intro i H out post raw _ _ _; exact ⟨_, rfl⟩
  | @cons s ss r rs h1 h2 ih =>
    intro i H out post raw hI hc hlen
    obtain ⟨s', sb, db⟩ := r
    obtain ⟨hb, hfit⟩ := h1
    simp only [List.length_cons] at hlen
    have hI1 := hI.append P (sb ++ db)
    unfold writeSegs
    simp only [hb]
    have hul : ∃ H2 out2, updateLengths P cs0 k i s.linked sb.length db.length
        (H, out ++ (sb ++ db)) = .ok (H2, out2) ∧ (∃ post2, HdrInv P cs0 H2 out2 post2) ∧
        H2 (numPos k) [] = some ⟨.val (.int c), raw⟩ := by
      unfold updateLengths
      by_cases hl : s.linked = true
      · obtain ⟨hf1, hf2⟩ := hfit hl
        simp only [hl, if_true]
        obtain ⟨f1, z1⟩ := len_sized k
        obtain ⟨f2, z2⟩ := data_sized k
        obtain ⟨o1, u1, _⟩ := updateHeader_succ (lenField k).res z1 (lenField k).unref hI1
          (hp i (by omega)).1 (check_loop z1 hc (by omega)) hf1
        obtain ⟨_, I1⟩ := updateHeader_ok P (lenField k).res z1.at_ (plainInt_spec z1.int).2.2.2.1
          (lenField k).unref hI1 u1
        have hc1 : (H.set (lenPos k) [(i : Int)] ⟨.val (.int (sb.length : Nat)), none⟩)
            (numPos k) [] = some ⟨.val (.int c), raw⟩ := by
          unfold Store.set
          rw [if_neg (by rintro ⟨h, _⟩; exact (num_ne k).1 h), hc]
        obtain ⟨o2, u2, _⟩ := updateHeader_succ (dataField k).res z2 (dataField k).unref I1
          (hp i (by omega)).2 (check_loop z2 hc1 (by omega)) hf2
        obtain ⟨_, I2⟩ := updateHeader_ok P (dataField k).res z2.at_ (plainInt_spec z2.int).2.2.2.1
          (dataField k).unref I1 u2
        refine ⟨_, o2, by simp only [u1, u2], ⟨_, I2⟩, ?_⟩
        unfold Store.set at hc1 ⊢
        rw [if_neg (by rintro ⟨h, _⟩; exact (num_ne k).2 h), hc1]
      · simp only [hl]
        exact ⟨_, _, rfl, ⟨_, hI1⟩, hc⟩
    obtain ⟨H2, out2, u, ⟨post2, I2⟩, hc2⟩ := hul
    simp only [u]
    obtain ⟨⟨ss3, H3, o3⟩, hr⟩ := ih I2 hc2 (i := i + 1) (by omega)
    exact ⟨_, by rw [hr]⟩

/-! ### Before the first byte is written -/

variable (P E IO)

/-- The first part of `NitfFile.write` (nitf_file.py:195-211), up to `h.write_to_file`: the file
header and the segments (with the overflow segments) as they will be written. -/
def prepareFile (f : NFile P.F IO.D) :
    Except Err (Store P.F × (SegKind → List (Seg P.F IO.D))) := do
  let des0 ← dropOverflow P IO f.des
  let (h0, des1) ← prepareHeader P IO Tables.t_file_header fileAreas (n!"fs") "XHD".toList 0
    f.tres f.header des0
  let (image1, des2) ← prepareSegs P IO .image 0 f.image des1
  let (graphic1, des3) ← prepareSegs P IO .graphic 0 f.graphic des2
  let (text1, des4) ← prepareSegs P IO .text 0 f.text des3
  let h1 ← setAll P Tables.t_file_header
    [(n!"numi", .int image1.length), (n!"nums", .int graphic1.length),
     (n!"numt", .int text1.length), (n!"numdes", .int des4.length),
     (n!"numres", .int f.res.length)] h0
  return (h1, fun
    | .image => image1 | .graphic => graphic1 | .text => text1 | .des => des4 | .res => f.res)

/-- The rest of `NitfFile.write` (nitf_file.py:212-226). -/
def writePrepared (tres : List (Tre P.F)) (h1 : Store P.F) (segs : SegKind → List (Seg P.F IO.D)) :
    Except Err (NFile P.F IO.D × Bytes) := do
  let cs ← writeChunks P Tables.t_file_header h1
  let st ← updateHeader P cs (n!"hl") [] (chunkBytes cs).length (h1, chunkBytes cs)
  let (image2, st) ← writeSegs P E IO cs .image 0 (segs .image) st
  let (graphic2, st) ← writeSegs P E IO cs .graphic 0 (segs .graphic) st
  let (text2, st) ← writeSegs P E IO cs .text 0 (segs .text) st
  let (des5, st) ← writeSegs P E IO cs .des 0 (segs .des) st
  let (res2, st) ← writeSegs P E IO cs .res 0 (segs .res) st
  let st ← updateHeader P cs (n!"fl") [] st.2.length st
  let des6 ← dropOverflow P IO des5
  return ({ header := st.1, tres := tres, image := image2, graphic := graphic2, text := text2,
            des := des6, res := res2 }, st.2)

/-- The two parts make up the whole. -/
theorem writeFile_parts (f : NFile P.F IO.D) :
    writeFile P E IO f = (prepareFile P IO f).bind fun p => writePrepared P E IO f.tres p.1 p.2 := by
  unfold writeFile prepareFile writePrepared
  simp only [bind, Except.bind, pure, Except.pure]
  repeat' split
  all_goals first | rfl | simp_all

variable {P E IO}

/-- What preparing a file does to its parts. -/
structure Plan (f : NFile P.F IO.D) (h1 : Store P.F) (segs : SegKind → List (Seg P.F IO.D)) :
    Prop where
  count : ∀ k, h1 (numPos k) [] = some ⟨.val (.int ((segs k).length : Nat)), none⟩
  des : ∃ des0 ov, dropOverflow P IO f.des = .ok des0 ∧ segs .des = des0 ++ ov ∧
    ∀ s ∈ ov, IsOverflow P IO s
  others : ∀ k, k ≠ .des → Each (Prepared P IO k (segs .des)) (f.segs k) (segs k)

theorem prepareFile_plan {f : NFile P.F IO.D} {h1 : Store P.F}
    {segs : SegKind → List (Seg P.F IO.D)} (h : prepareFile P IO f = .ok (h1, segs)) :
    Plan f h1 segs := by
  unfold prepareFile at h
  simp only [bind_ok, Prod.exists, pure, Except.pure] at h
  obtain ⟨des0, e0, h0, des1, e1, im1, des2, e2, gr1, des3, e3, tx1, des4, e4, h1', e5, e6⟩ := h
  injection e6 with e6
  injection e6 with e6 e7
  subst e6 e7
  obtain ⟨o, _, p1⟩ := prepareHeader_ok P IO e1
  obtain ⟨q2, ov2, p2, p2'⟩ := prepareSegs_ok P IO e2
  obtain ⟨q3, ov3, p3, p3'⟩ := prepareSegs_ok P IO e3
  obtain ⟨q4, ov4, p4, p4'⟩ := prepareSegs_ok P IO e4
  have : ∃ ov1, des1 = des0 ++ ov1 ∧ ∀ s ∈ ov1, IsOverflow P IO s := by
    rcases p1 with ⟨_, p1⟩ | ⟨b, s, _, p1, hs, _⟩
    · exact ⟨[], by rw [p1]; simp, by simp⟩
    · exact ⟨[s], p1, by intro x hx; rw [List.mem_singleton.mp hx]; exact hs⟩
  obtain ⟨ov1, p1, p1'⟩ := this
  refine ⟨?_, ⟨des0, ov1 ++ (ov2 ++ (ov3 ++ ov4)), e0, by simp [p4, p3, p2, p1], ?_⟩, ?_⟩
  · intro k
    have hn := nums_ok P e5
    rw [hn]
    cases k <;> simp [Store.set, numPos]
  · intro s hs
    simp only [List.mem_append] at hs
    rcases hs with hs | hs | hs | hs
    · exact p1' s hs
    · exact p2' s hs
    · exact p3' s hs
    · exact p4' s hs
  · intro k hk
    cases k with
    | image => exact q2 _ ⟨ov3 ++ ov4, by simp [p4, p3]⟩
    | graphic => exact q3 _ ⟨ov4, by simp [p4]⟩
    | text => exact q4 _ ⟨[], by simp⟩
    | des => exact absurd rfl hk
    | res => exact Each.refl (Prepared.refl P IO rfl _) _

end Verif
