import Verif.ImageFile
import Verif.Props.View
import Verif.Props.DesData
import Verif.Props.SaveLoad
import Verif.Props.NewImage
import Verif.Props.FileAny
import Verif.Props.EngrdaMap

/-
C97: images in files.  What the pixels of an image are, is stated for the object (`SegHolds`); the
theorems say what becomes of them when the file is written and read.
-/

namespace Verif
namespace InFile

variable {P : PyFloat}

/-! ### What an image holds -/

/-- What an image holds: pixels of a type for each band, line and sample, or bytes that are not
interpreted. -/
inductive Content where
  | pixels (nb nr nc : Nat) (dt : NpType) (px : Nat → Nat → Nat → Bytes)
  | plain (b : Bytes)

/-- An object read from a file shows this: `image[b, l, s]` is the pixel, and an IndexError outside
the image. -/
def ImgObj.Shows (o : ImgObj P) : Content → Prop
  | .pixels nb nr nc dt px => (∃ st file, o = .mapped nb nr nc st dt file) ∧
      ∀ b l s, o.pixel b l s = if b < nb ∧ l < nr ∧ s < nc then .ok (px b l s) else .error .index
  | .plain d => (∃ n file, o = .skipped n file) ∧ o.write = .ok d

/-- How the object is laid out: by its subheader, or as it was read. -/
def ImgObj.plan : ImgObj P → Except Err (Option (ReadPlan P))
  | .made S _ _ => readPlan P S
  | .mapped nb nr nc st dt _ => .ok (some ⟨.int nb, .int nr, .int nc, st, dt⟩)
  | .skipped _ _ => .ok none

/-- The data of an image with this layout is this content. -/
def Stores (plan : Option (ReadPlan P)) (data : Bytes) : Content → Prop
  | .pixels nb nr nc dt px => ∃ st, plan = some ⟨.int nb, .int nr, .int nc, st, dt⟩ ∧
      data.length = nb * nr * nc * dt.size ∧
      ∀ b l s, b < nb → l < nr → s < nc → arrayElem data 0 nr nc dt.size st b l s = px b l s
  | .plain d => plan = none ∧ data = d

/-- An image segment holds this content: its object writes it, and the subheader of the segment says
the same about the layout as the object (in the code they share it, C75). -/
def SegHolds {R : DataReg} (s : Seg P.F (stdIO P (imgIO P) R).D) (c : Content) : Prop :=
  ∃ (o : ImgObj P) (plan : Option (ReadPlan P)) (data : Bytes),
    s.data = .other (.image o) ∧ readPlan P s.sub = .ok plan ∧ o.plan = .ok plan ∧
    o.write = .ok data ∧ Stores plan data c

/-! ### Lemmas -/

theorem readPlan_names {S R : Store P.F} (key : ∀ nm ∈ planNames, ihGet P R nm = ihGet P S nm) :
    readPlan P R = readPlan P S := by
  have e1 := key (n!"ic") (by simp [planNames])
  have e2 := key (n!"nbands") (by simp [planNames])
  have e3 := key (n!"xbands") (by simp [planNames])
  have e4 := key (n!"nrows") (by simp [planNames])
  have e5 := key (n!"ncols") (by simp [planNames])
  have e6 := key (n!"imode") (by simp [planNames])
  have e7 := key (n!"nbpr") (by simp [planNames])
  have e8 := key (n!"nbpc") (by simp [planNames])
  have e9 := key (n!"nppbh") (by simp [planNames])
  have e10 := key (n!"nbpp") (by simp [planNames])
  have e11 := key (n!"pvtype") (by simp [planNames])
  unfold readPlan numberBand getDtype
  simp only [e1, e2, e3, e4, e5, e6, e7, e8, e9, e10, e11]

/-- The strides the reader uses are those of one of the modes. -/
theorem plan_mode {S : Store P.F} {nb nr nc : Nat} {st : Option (Int × Int × Int)} {dt : NpType}
    (h : readPlan P S = .ok (some ⟨.int nb, .int nr, .int nc, st, dt⟩)) :
    ∃ mode : GenMode, st = modeStrides mode nb nc dt.size := by
  obtain ⟨_, _, _, _, h5⟩ := readPlan_some h
  rcases h5 with h5 | ⟨b, c, h6, h7, h8⟩
  · exact ⟨.all, h5⟩
  · refine ⟨.rowP, ?_⟩
    simp only [asInt, Except.ok.injEq] at h6 h7
    subst h6 h7
    exact h8

/-- Elements of the array lie in the data. -/
theorem elem_prefix {mode : GenMode} {nb nr nc w : Nat} {data : Bytes}
    (hlen : data.length = nb * nr * nc * w) (post : Bytes) {b l s : Nat} (hb : b < nb) (hl : l < nr)
    (hs : s < nc) :
    arrayElem (data ++ post) 0 nr nc w (modeStrides mode nb nc w) b l s =
      arrayElem data 0 nr nc w (modeStrides mode nb nc w) b l s := by
  have h1 : elemNo mode nb nr nc b l s * w + w ≤ data.length := by
    rw [hlen, ← Nat.succ_mul]
    exact Nat.mul_le_mul_right _ (elemNo_lt hb hl hs)
  have a := C35_address (mode := mode) nb nr nc w b l s (pre := []) (post := post) h1
  have c := C35_address (mode := mode) nb nr nc w b l s (pre := []) (post := []) h1
  simp only [List.nil_append, List.length_nil, List.append_nil] at a c
  rw [a, c]

/-- What the handlers make of the data of an image. -/
theorem readImage_written {plan : Option (ReadPlan P)} {data : Bytes} {c : Content}
    {S : Store P.F} (hS : readPlan P S = .ok plan) (hc : Stores plan data c) (rest : Bytes) :
    ∃ o', readImage P S data.length (data ++ rest) = .ok (o', rest) ∧ o'.plan = .ok plan ∧
      o'.write = .ok data ∧ o'.Shows c := by
  cases c with
  | plain d =>
    obtain ⟨rfl, rfl⟩ := hc
    refine ⟨.skipped data.length (data ++ rest), ?_, rfl, ?_, ⟨_, _, rfl⟩, ?_⟩
    · unfold readImage
      simp [hS, bind, Except.bind, pure, Except.pure]
    all_goals
      simp only [ImgObj.write]
      rw [C36_copy_exact]
      simp
  | pixels nb nr nc dt px =>
    obtain ⟨st, rfl, hlen, hpx⟩ := hc
    obtain ⟨mode, rfl⟩ := plan_mode hS
    have hw : (ImgObj.mapped (P := P) nb nr nc (modeStrides mode nb nc dt.size) dt
        (data ++ rest)).write = .ok data := by
      simp only [ImgObj.write, Layout.rewritten, Layout.takenSize]
      rw [C36_copy_exact, ← hlen]
      simp
    refine ⟨.mapped nb nr nc (modeStrides mode nb nc dt.size) dt (data ++ rest), ?_, rfl, hw,
      ⟨_, _, rfl⟩, ?_⟩
    · have hv : viewFits ⟨0, nb, nr, nc, dt.size, modeStrides mode nb nc dt.size, 0⟩
          (data ++ rest).length = true := by
        have h1 := viewFits_of (mode := mode) (nb := nb) (nr := nr) (nc := nc) (w := dt.size)
          (off := 0) (mv := 0)
        unfold viewFits at h1 ⊢
        simp only [List.length_append] at h1 ⊢
        split
        · simp
        · rename_i hz
          rw [if_neg hz] at h1
          have h1 := of_decide_eq_true h1
          apply decide_eq_true
          rw [hlen]
          omega
      unfold readImage
      simp only [hS, bind, Except.bind, pure, Except.pure, asInt, Int.toNat_natCast, hv, if_true]
      rw [Layout.positionAfter, Layout.takenSize, ← hlen]
      simp
    · intro b l s
      simp only [ImgObj.pixel]
      split
      · rename_i h
        rw [elem_prefix hlen rest h.1 h.2.1 h.2.2, hpx b l s h.1 h.2.1 h.2.2]
      · rfl

/-- The same image, read again. -/
def Reread (x y : ImgObj P) : Prop :=
  y.plan = x.plan ∧ y.write = x.write ∧ ∀ plan data c, x.plan = .ok plan → x.write = .ok data →
    Stores plan data c → y.Shows c

/-- Writing does not change what the header of an image says about the layout. -/
theorem plan_untouched {IO : DataIO P.F} {s s' : Seg P.F IO.D} (h : SegUntouched P IO .image s s') :
    readPlan P s'.sub = readPlan P s.sub := by
  have hbad : ((bookFields (some .image)).all fun nm => match resolve ihD.tab nm with
      | some q => [56, 57, 58, 59, 60, 61].contains q
      | none => true) = true := by decide +kernel
  have hc : clearOf ihD.tab [56, 57, 58, 59, 60, 61] = true := by decide +kernel
  have hn : (planNames.all fun nm => match resolve ihD.tab nm with
      | some q => ![56, 57, 58, 59, 60, 61].contains q
      | none => false) = true := by decide +kernel
  refine readPlan_names fun nm hnm => ?_
  have h1 := List.all_eq_true.mp hn nm hnm
  unfold ihGet getAttr
  cases hr : resolve ihD.tab nm with
  | none => rfl
  | some n =>
    rw [hr] at h1
    refine (getItem_closed (P := P) (clearOf_closed hc) ?_ (by simpa using h1)).1 []
    intro m fi _ hm key
    have : s'.sub m key = s.sub m key := h.sub m key (by
      intro nm' hnm' he
      have h2 := List.all_eq_true.mp hbad nm' hnm'
      rw [show resolve ihD.tab nm' = some m from he] at h2
      exact hm (by simpa using h2))
    unfold stored
    rw [this]

theorem Each.flip {α β : Type} {R : α → β → Prop} {as : List α} {bs : List β} (h : Each R as bs) :
    Each (fun b a => R a b) bs as := by
  induction h with
  | nil => exact .nil
  | cons h _ ih => exact .cons h ih

theorem Each.same {α : Type} {R : α → α → Prop} {as : List α} (h : ∀ a ∈ as, R a a) :
    Each R as as := by
  induction as with
  | nil => exact .nil
  | cons a as ih => exact .cons (h a List.mem_cons_self) (ih fun x hx => h x (List.mem_cons_of_mem _ hx))

theorem Each.of_map_right {α β γ : Type} {R : α → β → Prop} (g : γ → β) :
    ∀ {l : List γ} {as : List α}, Each R as (l.map g) → Each (fun a x => R a (g x)) as l
  | [], _, .nil => .nil
  | _ :: _, _, .cons h1 h2 => .cons h1 (Each.of_map_right g h2)

/-! ### C97 -/

/-- C97, new images.  An image made with any texts, size, supported pixel type and number of bands
holds the pixels its callback gives, whatever is changed in its header afterwards apart from the
fields that describe the pixels. -/
theorem C97_new (t : ImgTexts) {nr nc : Nat} {dt : NpType} {nb : Nat} {mode : GenMode}
    (hm : mode ∈ usableModes) (hd : (dt.kind, dt.size) ∈ pixelTypes) (hb : 1 ≤ nb)
    {fill : Nat × Nat × Nat → List Nat → Bytes} (hf : ∀ st idx, (fill st idx).length = dt.size)
    {R : DataReg} {s : Seg P.F (stdIO P (imgIO P) R).D}
    (hs : ∀ nm ∈ planNames, ihGet P s.sub nm = ihGet P (newImage P t nr nc dt nb mode).1 nm)
    (ho : s.data = .other (.image (.made s.sub mode fill))) :
    SegHolds s (.pixels nb nr nc ⟨dt.kind, dt.size, .big⟩ fun b l s => given fill b l s mode) := by
  obtain ⟨S, plan, h0, h1, h2, h3, h4, h5, h6⟩ := C35_read_back P t nr nc hm hd hb
  rw [h0] at hs
  have hp : readPlan P s.sub = .ok (some plan) := by rw [readPlan_names hs, h1]
  obtain ⟨g1, g2, g3, g4, _⟩ := readPlan_some hp
  obtain ⟨l1, l2⟩ := h6 fill hf
  refine ⟨.made s.sub mode fill, some plan, imageBytes mode nb nr nc fill, ho, hp, hp, ?_, ?_⟩
  · rw [h2] at g1
    rw [h3] at g2
    rw [h4] at g3
    simp only [ImgObj.write, imgShape, g1, g2, g3, g4, bind, Except.bind, pure, Except.pure, asInt,
      Int.toNat_natCast]
  · obtain ⟨b, r, c, st, d⟩ := plan
    simp only at h2 h3 h4 h5
    subst h2 h3 h4 h5
    refine ⟨st, rfl, l1, ?_⟩
    intro b l s hb hl hs
    have := l2 [] [] b l s hb hl hs
    simpa using this

/-- What is read: the images, and the segments of the other kinds. -/
theorem file_all {R : DataReg} (E : Env) (hR : (R.des.map DesCls.tag).Nodup)
    {f f' : NFile P.F (stdIO P (imgIO P) R).D} {out : Bytes}
    (h : writeFile P E (stdIO P (imgIO P) R) f = .ok (f', out))
    (hf : FileReady P E (stdIO P (imgIO P) R) f)
    {cs : List Content} (hi : Each SegHolds f.image cs)
    (hd : ∀ k, k ≠ .image → ∀ s ∈ f.segs k, (k = .des →
      getAttr P Tables.t_des_subheader s.sub (n!"desid") [] ≠ .ok (.str "TRE_OVERFLOW".toList)) →
      ∃ x, s.data = .other x ∧ ObjReady P R (fun _ _ => False) k s.sub x)
    (hlen : out.length ≠ 999999999999) :
    ∃ g, readFile P E (stdIO P (imgIO P) R) out = .ok g ∧ Each SegHolds g.image cs ∧
      Each (fun s c => ∃ o, s.data = .other (.image o) ∧ ImgObj.Shows o c) g.image cs ∧
      ∀ k, k ≠ .des → Each (SegUntouched P (stdIO P (imgIO P) R) k) (f.segs k) (f'.segs k) ∧
        Each (SameSeg P (stdIO P (imgIO P) R) (SameObj P Reread) k) (f'.segs k) (g.segs k) := by
  obtain ⟨_, _, u0, _⟩ := C26_untouched_partial P E _ h hf
  have u1 : Each (SegUntouched P (stdIO P (imgIO P) R) .image) f.image f'.image :=
    u0 .image (by decide)
  have hi' : Each SegHolds f'.image cs := by
    refine ((Each.flip u1).trans hi).imp ?_
    rintro s' _ c ⟨s, _, hu, o, plan, data, h1, h2, h3, h4, h5⟩
    exact ⟨o, plan, data, by rw [hu.data, h1], by rw [plan_untouched hu, h2], h3, h4, h5⟩
  obtain ⟨g, g1, _, _, g0, _⟩ := C26_standard_partial P (imgIO P) Reread E hR h hf (by
    intro s hs
    obtain ⟨c, _, o, plan, data, h1, h2, h3, h4, h5⟩ := hi'.mem_left hs
    refine ⟨.image o, h1, ?_⟩
    intro b hb S hS rest
    have hb : o.write = .ok b := hb
    rw [h4] at hb
    injection hb with hb
    subst hb
    have hp : readPlan P S = .ok plan := by rw [C35_same_header P hS, h2]
    obtain ⟨o', r1, r2, r3, r4⟩ := readImage_written hp h5 rest
    refine ⟨.image o', ?_, ?_, ?_, ?_⟩
    · show readObj P (imgIO P) R .image S data.length (data ++ rest) = _
      unfold readObj
      simp only [imgIO, r1, Except.map]
      rfl
    · rw [r2, h3]
    · rw [r3, h4]
    · intro plan' data' c' e1 e2 e3
      rw [h3] at e1
      rw [h4] at e2
      injection e1 with e1
      injection e2 with e2
      subst e1 e2
      obtain ⟨o2, q1, _, _, q4⟩ := readImage_written hp e3 rest
      rw [r1] at q1
      injection q1 with q1
      injection q1 with q1
      rw [q1]
      exact q4) hd hlen
  have g4 : Each (SameSeg P (stdIO P (imgIO P) R) (SameObj P Reread) .image) f'.image g.image :=
    g0 .image (by decide)
  have key : Each (fun s c => SegHolds s c ∧ ∃ o, s.data = .other (.image o) ∧ ImgObj.Shows o c)
      g.image cs := by
    refine ((Each.flip g4).trans hi').imp ?_
    rintro s' _ c ⟨s, _, hsame, o, plan, data, h1, h2, h3, h4, h5⟩
    have hdata := hsame.data
    rw [h1] at hdata
    cases hs' : s'.data with
    | overflow b => rw [hs'] at hdata; cases hdata
    | other x =>
      rw [hs'] at hdata
      cases x with
      | image o' =>
        obtain ⟨a1, a2, a3⟩ : Reread o o' := hdata
        exact ⟨⟨o', plan, data, hs', by rw [C35_same_header P hsame.sub, h2], by rw [a1, h3],
          by rw [a2, h4], h5⟩, o', rfl, a3 plan data c h3 h4 h5⟩
      | _ => cases hdata
  exact ⟨g, g1, key.imp fun _ _ _ h => h.1, key.imp fun _ _ _ h => h.2,
    fun k hk => ⟨u0 k hk, g0 k hk⟩⟩

/-- C97.  A file is written; it can be read back (as in C26), and its images hold what `cs` says:
new images with the pixels of their callbacks (`C97_new`), images loaded from other files.  Then the
file written can be read, the images are as many and in the same order, and each shows exactly its
pixels, band by band, line by line, sample by sample, in the same type; images that are not
interpreted have the same bytes.  The images read can be put into files again in the same way. -/
theorem C97_file {R : DataReg} (E : Env) (hR : (R.des.map DesCls.tag).Nodup)
    {f f' : NFile P.F (stdIO P (imgIO P) R).D} {out : Bytes}
    (h : writeFile P E (stdIO P (imgIO P) R) f = .ok (f', out))
    (hf : FileReady P E (stdIO P (imgIO P) R) f)
    {cs : List Content} (hi : Each SegHolds f.image cs)
    (hd : ∀ k, k ≠ .image → ∀ s ∈ f.segs k, (k = .des →
      getAttr P Tables.t_des_subheader s.sub (n!"desid") [] ≠ .ok (.str "TRE_OVERFLOW".toList)) →
      ∃ x, s.data = .other x ∧ ObjReady P R (fun _ _ => False) k s.sub x)
    (hlen : out.length ≠ 999999999999) :
    ∃ g, readFile P E (stdIO P (imgIO P) R) out = .ok g ∧ Each SegHolds g.image cs ∧
      Each (fun s c => ∃ o, s.data = .other (.image o) ∧ ImgObj.Shows o c) g.image cs := by
  obtain ⟨g, g1, g2, g3, _⟩ := file_all E hR h hf hi hd hlen
  exact ⟨g, g1, g2, g3⟩

/-- An array that fits into a buffer is not longer than the buffer. -/
theorem viewFits_length {mode : GenMode} {nb nr nc w mv len : Nat}
    (h : viewFits ⟨0, nb, nr, nc, w, modeStrides mode nb nc w, mv⟩ len = true) :
    nb * nr * nc * w ≤ len := by
  unfold viewFits at h
  simp only at h
  by_cases hz : nb * nr * nc = 0
  · rw [hz]; omega
  · rw [if_neg hz, decide_eq_true_eq] at h
    have h1 : 0 < nb * nr * nc := Nat.pos_of_ne_zero hz
    have h2 : 0 < nb * nr := Nat.pos_of_mul_pos_right h1
    have hnc : 0 < nc := Nat.pos_of_mul_pos_left h1
    have hnr : 0 < nr := Nat.pos_of_mul_pos_left h2
    have hnb : 0 < nb := Nat.pos_of_mul_pos_right h2
    obtain ⟨x, rfl⟩ : ∃ x, nb = x + 1 := ⟨nb - 1, by omega⟩
    obtain ⟨y, rfl⟩ : ∃ y, nr = y + 1 := ⟨nr - 1, by omega⟩
    obtain ⟨z, rfl⟩ : ∃ z, nc = z + 1 := ⟨nc - 1, by omega⟩
    have e : (((x + 1) * (y + 1) * (z + 1) * w : Nat) : Int) ≤ len := by
      refine Int.le_trans (Int.le_of_eq ?_) h
      cases mode <;> simp [modeStrides] <;> grind
    omega

/-- C97, loaded images: an image read from a file with any contents, whose counts are not negative,
holds what it shows, so that it can be put into other files (`C97_file`). -/
theorem C97_loaded {S : Store P.F} {size : Int} {b rest : Bytes} {o : ImgObj P}
    (h : readImage P S size b = .ok (o, rest))
    (hn : ∀ nm ∈ [(n!"nbands"), (n!"xbands"), (n!"nrows"), (n!"ncols")], ∀ z,
      ihGet P S nm = .ok (.int z) → 0 ≤ z) :
    ∃ c, o.Shows c ∧ ∀ (R : DataReg) (s : Seg P.F (stdIO P (imgIO P) R).D), s.sub = S →
      s.data = .other (.image o) → SegHolds s c := by
  unfold readImage at h
  simp only [bind, Except.bind, pure, Except.pure] at h
  cases hp : readPlan P S with
  | error e => rw [hp] at h; cases h
  | ok plan =>
    rw [hp] at h
    cases plan with
    | none =>
      simp only [Except.ok.injEq, Prod.mk.injEq] at h
      obtain ⟨rfl, _⟩ := h
      refine ⟨.plain (b.take size.toNat), ⟨⟨_, _, rfl⟩, ?_⟩, ?_⟩
      · simp only [ImgObj.write]
        rw [C36_copy_exact]; simp
      · intro R s hs hd
        refine ⟨_, none, b.take size.toNat, hd, by rw [hs, hp], rfl, ?_, rfl, rfl⟩
        simp only [ImgObj.write]
        rw [C36_copy_exact]; simp
    | some plan =>
      obtain ⟨vb, vr, vc, st, dt⟩ := plan
      obtain ⟨g1, g2, g3, _, _⟩ := readPlan_some hp
      simp only at h g1 g2 g3
      cases vb with
      | int zb =>
        cases vr with
        | int zr =>
          cases vc with
          | int zc =>
            have hb : 0 ≤ zb := by
              unfold numberBand at g1
              simp only [bind, Except.bind] at g1
              split at g1
              · cases g1
              · split at g1
                · cases g1
                · split at g1
                  · exact hn (n!"nbands") (by simp) _ g1
                  · exact hn (n!"xbands") (by simp) _ g1
            have hr : 0 ≤ zr := hn (n!"nrows") (by simp) _ g2
            have hc : 0 ≤ zc := hn (n!"ncols") (by simp) _ g3
            obtain ⟨nb, rfl⟩ := Int.eq_ofNat_of_zero_le hb
            obtain ⟨nr, rfl⟩ := Int.eq_ofNat_of_zero_le hr
            obtain ⟨nc, rfl⟩ := Int.eq_ofNat_of_zero_le hc
            obtain ⟨mode, rfl⟩ := plan_mode hp
            simp only [asInt, Int.toNat_natCast] at h
            split at h
            · rename_i hv
              simp only [Except.ok.injEq, Prod.mk.injEq] at h
              obtain ⟨rfl, _⟩ := h
              have hlen := viewFits_length hv
              have hl2 : (b.take (nb * nr * nc * dt.size)).length = nb * nr * nc * dt.size := by
                rw [List.length_take]; omega
              refine ⟨.pixels nb nr nc dt fun i l s =>
                arrayElem b 0 nr nc dt.size (modeStrides mode nb nc dt.size) i l s,
                ⟨⟨_, _, rfl⟩, fun i l s => rfl⟩, ?_⟩
              intro R s hs hd
              refine ⟨_, _, b.take (nb * nr * nc * dt.size), hd, by rw [hs, hp], rfl, ?_, _, rfl,
                hl2, ?_⟩
              · simp only [ImgObj.write, Layout.rewritten, Layout.takenSize]
                rw [C36_copy_exact]; simp
              · intro i l j hi hl hj
                have e := elem_prefix (mode := mode) hl2 (b.drop (nb * nr * nc * dt.size)) hi hl hj
                rw [List.take_append_drop] at e
                exact e.symm
            · cases h
          | _ => cases h
        | _ => cases h
      | _ => cases h

/-! ### Files of new images -/

/-- What is given for a new image: the arguments of the constructor, the callback and the TREs. -/
structure Asked (P : PyFloat) where
  texts : ImgTexts
  rows : Nat
  cols : Nat
  dtype : NpType
  bands : Nat
  mode : GenMode
  fill : Nat × Nat × Nat → List Nat → Bytes
  tres : List (Tre P.F) := []

/-- The segment `NitfImageSegment(NitfImageWriteDataOnDemand(...))`. -/
def Asked.seg (a : Asked P) (R : DataReg) : Seg P.F (stdIO P (imgIO P) R).D :=
  { linked := true
    sub := (newImage P a.texts a.rows a.cols a.dtype a.bands a.mode).1
    tres := a.tres
    data := .other (.image (.made (newImage P a.texts a.rows a.cols a.dtype a.bands a.mode).1
      a.mode a.fill)) }

/-- The pixels asked for. -/
def Asked.content (a : Asked P) : Content :=
  .pixels a.bands a.rows a.cols ⟨a.dtype.kind, a.dtype.size, .big⟩ fun b l s =>
    given a.fill b l s a.mode

/-- A mode that is supported, a pixel type that is supported, at least one band, and a callback that
gives pixels of this type. -/
structure Asked.Ok (a : Asked P) : Prop where
  mode : a.mode ∈ usableModes
  dtype : (a.dtype.kind, a.dtype.size) ∈ pixelTypes
  bands : 1 ≤ a.bands
  fill : ∀ st idx, (a.fill st idx).length = a.dtype.size

/-- TREs that can be written and read back, none of them longer than an area. -/
def TresOk (E : Env) (ts : List (Tre P.F)) : Prop :=
  ∃ ser, treWriteAll P ts = .ok ser ∧ (∀ b ∈ ser, b.length < 99996) ∧
    ∀ t ∈ ts, Representable P E.reg t

theorem newImage_noLit (t : ImgTexts) (nr nc : Nat) (dt : NpType) (nb : Nat) (mode : GenMode) :
    NoLit (newImage P t nr nc dt nb mode).1 := by
  have set1 : ∀ nm v (S : Store P.F), NoLit S → NoLit (ihSet P nm v S).1 :=
    fun nm v S h => setAttr_noLit P h nm [] v
  have set2 : ∀ nm i v (S : Store P.F), NoLit S → NoLit (ihSetAt P nm i v S).1 :=
    fun nm i v S h => setAttr_noLit P h nm [i] v
  have px : ∀ n s (S : Store P.F), NoLit S → NoLit (setPixel P n s S).1 := by
    intro n s S h
    refine runSteps_noLit P ?_ h
    intro f hf
    simp only [List.mem_cons, List.not_mem_nil, or_false] at hf
    rcases hf with rfl | rfl | rfl <;> exact set1 _ _
  have bands : ∀ k b, ∀ f ∈ bandSteps P b k, ∀ S, NoLit S → NoLit (f S).1 := by
    intro k
    induction k with
    | zero => intro b f hf; cases hf
    | succ k ih =>
      intro b f hf
      simp only [bandSteps, List.mem_cons] at hf
      rcases hf with rfl | rfl | rfl | hf
      · exact set2 _ _ _
      · exact set2 _ _ _
      · exact set2 _ _ _
      · exact ih _ f hf
  have dtyp : ∀ (S : Store P.F), NoLit S → NoLit (setDtype P dt S).1 := by
    intro S h
    unfold setDtype
    repeat' split
    all_goals first | exact px _ _ _ h | exact h
  have nbs : ∀ (S : Store P.F), NoLit S → NoLit (setNumberBand P nb S).1 := by
    intro S h
    unfold setNumberBand
    split
    all_goals
      refine runSteps_noLit P ?_ h
      intro f hf
      simp only [List.mem_cons, List.not_mem_nil, or_false] at hf
    · subst hf; exact set1 _ _
    · rcases hf with rfl | rfl <;> exact set1 _ _
  unfold newImage
  refine runSteps_noLit P ?_ NoLit.empty
  intro f hf
  rcases List.mem_cons.mp hf with rfl | hf
  · intro S h
    refine runSteps_noLit P ?_ h
    intro f hf
    simp only [List.mem_append] at hf
    rcases hf with hf | hf | hf
    · simp only [defaultHead, List.mem_cons, List.not_mem_nil, or_false] at hf
      rcases hf with rfl | rfl | rfl | rfl | rfl | rfl | rfl | rfl | rfl | rfl | rfl | rfl | rfl |
        rfl | rfl | rfl | rfl | rfl
      all_goals first | exact set1 _ _ | exact dtyp | exact nbs
    · exact bands _ _ f hf
    · simp only [defaultTail, List.mem_cons, List.not_mem_nil, or_false] at hf
      rcases hf with rfl | rfl | rfl <;> exact set2 _ _ _
  · cases mode <;> simp only [modeSteps, List.mem_cons, List.not_mem_nil, or_false] at hf
    · rcases hf with rfl
      intro S h; exact h
    · rcases hf with rfl | rfl | rfl | rfl | rfl <;> exact set1 _ _
    · rcases hf with rfl
      intro S h; exact h
    · rcases hf with rfl
      intro S h; exact h

/-- The TRE areas of a new image are unused. -/
theorem newImage_areas (t : ImgTexts) (nr nc : Nat) {dt : NpType} {nb : Nat} {mode : GenMode}
    (hm : mode ∈ usableModes) (hd : (dt.kind, dt.size) ∈ pixelTypes) (hb : 1 ≤ nb) :
    HoldsAll P Tables.t_image_subheader (newImage P t nr nc dt nb mode).1
      (areaPositions Tables.t_image_subheader imageAreas) [unused, unused] := by
  refine (imageHeader_fresh P).cells P imageHeader_areas ?_
  have hpos : (areaPositions Tables.t_image_subheader imageAreas).flatMap AreaPos.list =
      [59, 60, 61, 56, 57, 58] := by decide +kernel
  rw [hpos]
  obtain ⟨S, h1, _, h2⟩ := NewImage.C96_filled P t nr nc (nb := nb) hd hb Store.empty
  have hq : ∀ q ∈ [59, 60, 61, 56, 57, 58], S q [] = none := by
    intro q hq
    simp only [List.mem_cons, List.not_mem_nil, or_false] at hq
    rcases hq with rfl | rfl | rfl | rfl | rfl | rfl
    · exact h2 (n!"ixshdl") 59 [] (by decide +kernel) (by decide +kernel)
    · exact h2 (n!"ixofl") 60 [] (by decide +kernel) (by decide +kernel)
    · exact h2 (n!"ixshd") 61 [] (by decide +kernel) (by decide +kernel)
    · exact h2 (n!"udidl") 56 [] (by decide +kernel) (by decide +kernel)
    · exact h2 (n!"udofl") 57 [] (by decide +kernel) (by decide +kernel)
    · exact h2 (n!"udid") 58 [] (by decide +kernel) (by decide +kernel)
  intro q hq'
  unfold newImage
  simp only [runSteps, h1]
  simp only [usableModes, List.mem_cons, List.not_mem_nil, or_false] at hm
  rcases hm with rfl | rfl | rfl
  · exact hq q hq'
  · exact hq q hq'
  · have e := hq q hq'
    simp only [List.mem_cons, List.not_mem_nil, or_false] at hq'
    simp only [modeSteps, runSteps]
    rcases hq' with rfl | rfl | rfl | rfl | rfl | rfl <;> exact e

/-- C97, new images can be written and read back: they meet the conditions of C26. -/
theorem C97_ready {E : Env} {R : DataReg} {a : Asked P} (ha : a.Ok) (ht : TresOk E a.tres) :
    SegReady P E (stdIO P (imgIO P) R) .image (a.seg R) := by
  obtain ⟨ser, h1, h2, h3⟩ := ht
  exact ⟨newImage_noLit _ _ _ _ _ _, rfl, _, ser,
    newImage_areas a.texts a.rows a.cols ha.mode ha.dtype ha.bands, h1, h2,
    Reusable.fresh (by simp), h3⟩

/-- C97, a file made from scratch with any images: if it is written, it can be read, and each image
shows the pixels asked for. -/
theorem C97_new_file {R : DataReg} (E : Env) (hR : (R.des.map DesCls.tag).Nodup)
    (hE : E.reg.Causal) {ts : List (Tre P.F)} (hts : TresOk E ts) {as : List (Asked P)}
    (has : ∀ a ∈ as, a.Ok ∧ TresOk E a.tres) {f' : NFile P.F (stdIO P (imgIO P) R).D} {out : Bytes}
    (h : writeFile P E (stdIO P (imgIO P) R)
      { header := Store.empty, tres := ts, image := as.map (·.seg R) } = .ok (f', out))
    (hlen : out.length ≠ 999999999999) :
    ∃ g, readFile P E (stdIO P (imgIO P) R) out = .ok g ∧
      Each (fun s a => ∃ o, s.data = .other (.image o) ∧ ImgObj.Shows o a.content) g.image as := by
  have hi : Each SegHolds (as.map (·.seg R)) (as.map Asked.content) := by
    refine Each.map_left _ (Each.map_right _ (Each.same fun a ha => ?_))
    have ho := (has a ha).1
    exact C97_new a.texts ho.mode ho.dtype ho.bands ho.fill (fun _ _ => rfl) rfl
  have hr : FileReady P E (stdIO P (imgIO P) R)
      { header := Store.empty, tres := ts, image := as.map (·.seg R) } := {
    reg := hE
    header := NoLit.empty
    tres := by
      obtain ⟨ser, h1, h2, h3⟩ := hts
      exact ⟨_, ser, fileHeader_fresh P, h1, h2, Reusable.fresh (by simp), h3⟩
    linked := by
      intro k s hs
      cases k <;> simp [NFile.segs] at hs
      obtain ⟨a, _, rfl⟩ := hs
      rfl
    segs := by
      intro k hk s hs
      cases k <;> simp [NFile.segs] at hs
      obtain ⟨a, ha, rfl⟩ := hs
      exact C97_ready (has a ha).1 (has a ha).2
    des := by intro s hs; cases hs }
  obtain ⟨g, g1, _, g3⟩ := C97_file E hR h hr hi (by
    intro k hk s hs
    cases k <;> first | exact absurd rfl hk | cases hs) hlen
  exact ⟨g, g1, Each.of_map_right _ g3⟩

/-! ### A concrete case -/

/-- Two images: one band of 2 lines with 2 samples of one byte, and 3 bands with one line of 2
samples of 2 bytes, interleaved by pixel. -/
def exAsked : List (Asked P0) :=
  [{ texts := ⟨"A".toList, "first".toList, "20200101000000".toList, "MONO".toList, "VIS".toList, 1⟩
     rows := 2, cols := 2, dtype := ⟨.u, 1, .big⟩, bands := 1, mode := .all
     fill := fun _ idx => [UInt8.ofNat (idx.foldl (fun a i => 10 * a + i) 0)] },
   { texts := ⟨"B".toList, "second".toList, "20200101000000".toList, "RGB".toList, "VIS".toList, 2⟩
     rows := 1, cols := 2, dtype := ⟨.u, 2, .little⟩, bands := 3, mode := .rowP
     fill := fun st idx => [UInt8.ofNat st.1, UInt8.ofNat (idx.foldl (fun a i => 10 * a + i) 0)] }]

theorem exAsked_ok : ∀ a ∈ exAsked, a.Ok ∧ TresOk exEnv a.tres := by
  intro a ha
  simp only [exAsked, List.mem_cons, List.not_mem_nil, or_false] at ha
  rcases ha with rfl | rfl
  · exact ⟨⟨by decide, by decide, by decide, fun _ _ => rfl⟩, [], rfl, by simp, by simp⟩
  · exact ⟨⟨by decide, by decide, by decide, fun _ _ => rfl⟩, [], rfl, by simp, by simp⟩

def exImageFile : NFile P0.F (stdIO P0 (imgIO P0) exDataReg).D :=
  { header := Store.empty, tres := [], image := exAsked.map (·.seg exDataReg) }

theorem exImageFile_written : ((writeFile P0 exEnv (stdIO P0 (imgIO P0) exDataReg) exImageFile).map
    fun r => r.2.length) = .ok 1340 := by decide +kernel

/-- The file is written and read, and shows the pixels. -/
example : ∃ f' out g, writeFile P0 exEnv (stdIO P0 (imgIO P0) exDataReg) exImageFile = .ok (f', out) ∧
    readFile P0 exEnv (stdIO P0 (imgIO P0) exDataReg) out = .ok g ∧
    Each (fun s a => ∃ o, s.data = .other (.image o) ∧ ImgObj.Shows o a.content) g.image exAsked := by
  have hw := exImageFile_written
  cases h : writeFile P0 exEnv (stdIO P0 (imgIO P0) exDataReg) exImageFile with
  | error e => rw [h] at hw; cases hw
  | ok r =>
    obtain ⟨f', out⟩ := r
    rw [h] at hw
    simp only [Except.map, Except.ok.injEq] at hw
    obtain ⟨g, g1, g2⟩ := C97_new_file exEnv (by decide +kernel) (by intro t ht; cases ht)
      ⟨[], rfl, by simp, by simp⟩ exAsked_ok h (by omega)
    exact ⟨f', out, g, rfl, g1, g2⟩

end InFile
end Verif
