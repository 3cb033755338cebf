import Verif.View
import Verif.Props.Image

/- C74: the array of a written image (model in `Verif/View.lean`). -/

namespace Verif

variable {P : PyFloat}

/-! ### Specification -/

/-- What has been written: bytes, or the pixels of an image, each given by band, line and sample. -/
inductive Part where
  | raw (b : Bytes)
  | image (mode : GenMode) (nb nr nc : Nat) (px : Nat → Nat → Nat → Bytes)

/-- A callback that gives these pixels. -/
def fillOf (mode : GenMode) (px : Nat → Nat → Nat → Bytes) : Nat × Nat × Nat → List Nat → Bytes :=
  fun start idx =>
    match mode, start, idx with
    | .all, _, [b, l, s] => px b l s
    | .band, (b, _, _), [l, s] => px b l s
    | .rowP, (_, l, _), [s, b] => px b l s
    | .rowB, (_, l, _), [b, s] => px b l s
    | .colB, (_, _, s), [b, l] => px b l s
    | .colP, (_, _, s), [l, b] => px b l s
    | _, _, _ => []

/-- The bytes of a chunk in the file. -/
def Part.bytes : Part → Bytes
  | .raw b => b
  | .image mode nb nr nc px => imageBytes mode nb nr nc (fillOf mode px)

/-- The bytes of a file made of chunks. -/
def partBytes (cs : List Part) : Bytes := cs.flatMap Part.bytes

/-- A pixel replaced. -/
def setPx (px : Nat → Nat → Nat → Bytes) (b l s : Nat) (x : Bytes) : Nat → Nat → Nat → Bytes :=
  fun b' l' s' => if b' = b ∧ l' = l ∧ s' = s then x else px b' l' s'

/-- A pixel of a chunk replaced. -/
def Part.setPixel (c : Part) (b l s : Nat) (x : Bytes) : Part :=
  match c with
  | .raw r => .raw r
  | .image mode nb nr nc px => .image mode nb nr nc (setPx px b l s x)

/-- Bytes of a chunk replaced. -/
def Part.patch (c : Part) (k : Nat) (b : Bytes) : Part :=
  match c with
  | .raw r => .raw (r.take k ++ b ++ r.drop (k + b.length))
  | c => c

/-- An image header with this shape and pixel size. -/
structure ImageIs (S : Store P.F) (nb nr nc w : Nat) : Prop where
  bands : numberBand P S = .ok (.int nb)
  rows : ihGet P S (n!"nrows") = .ok (.int nr)
  cols : ihGet P S (n!"ncols") = .ok (.int nc)
  dtype : ∃ dt, getDtype P S = .ok dt ∧ dt.size = w
  pos : 0 < w

/-- All that can be done with a file being written and the images in it, beside what it should
contain: other data is written, an image is written, a pixel is changed through the array of an
image, bytes that belong to no image are changed.  The arrays carry the number of their chunk. -/
inductive Writing : OutFile → List (Nat × ImgView) → List Part → Prop
  | start (m : Bool) : Writing ⟨[], none, 0, m⟩ [] []
  | write {f : OutFile} {vs : List (Nat × ImgView)} {cs : List Part} (b : Bytes)
      (h : Writing f vs cs) : Writing { f with bytes := f.bytes ++ b } vs (cs ++ [.raw b])
  | image {f f' : OutFile} {vs : List (Nat × ImgView)} {cs : List Part} {o : Option ImgView}
      {S : Store P.F} {nb nr nc w : Nat} {mode : GenMode}
      {fill : Nat × Nat × Nat → List Nat → Bytes} {moved : Bool}
      (h : Writing f vs cs) (hm : mode ∈ usableModes) (hi : ImageIs S nb nr nc w)
      (hf : ∀ st idx, (fill st idx).length = w)
      (hw : writeOnDemand P S mode fill moved f = .ok (f', o)) :
      Writing f' (vs ++ (o.toList.map fun v => (cs.length, v)))
        (cs ++ [.image mode nb nr nc fun b l s => given fill b l s mode])
  | pixel {f f' : OutFile} {vs : List (Nat × ImgView)} {cs : List Part} {j : Nat} {v : ImgView}
      {b l s : Nat} {px : Bytes} (h : Writing f vs cs) (hv : (j, v) ∈ vs) (hpx : px.length = v.w)
      (hw : viewSet f v b l s px = some (.ok f')) :
      Writing f' vs (cs.modify j fun c => c.setPixel b l s px)
  | patch {f : OutFile} {vs : List (Nat × ImgView)} {cs : List Part} {j k : Nat} {r b : Bytes}
      (h : Writing f vs cs) (hj : cs[j]? = some (.raw r)) (hk : k + b.length ≤ r.length) :
      Writing (overwriteAt f ((partBytes (cs.take j)).length + k) b) vs
        (cs.modify j fun c => c.patch k b)

/-- An array shows the image of its chunk. -/
def ShowsImage (f : OutFile) (v : ImgView) (c : Part) : Prop :=
  ∃ mode nb nr nc px, c = .image mode nb nr nc px ∧ v.nb = nb ∧ v.nr = nr ∧ v.nc = nc ∧
    ∀ b l s, b < nb → l < nr → s < nc → viewGet f v b l s = some (.ok (px b l s))

/-! ### Slices -/

theorem slice_ext {w N : Nat} (hw : 0 < w) {x y : Bytes} (hx : x.length = N * w)
    (hy : y.length = N * w)
    (h : ∀ j < N, (x.drop (j * w)).take w = (y.drop (j * w)).take w) : x = y := by
  apply List.ext_getElem? 
  intro i
  by_cases hi : i < N * w
  · have hj : i / w < N := Nat.div_lt_of_lt_mul (by rw [Nat.mul_comm]; exact hi)
    have := congrArg (fun l => l[i % w]?) (h (i / w) hj)
    simp only [List.getElem?_take_of_lt (Nat.mod_lt i hw), List.getElem?_drop] at this
    have e : i / w * w + i % w = i := by rw [Nat.mul_comm]; exact Nat.div_add_mod i w
    rwa [e] at this
  · rw [List.getElem?_eq_none (by omega), List.getElem?_eq_none (by omega)]

/-- Bytes replaced at a place. -/
def splice (x : Bytes) (p : Nat) (y : Bytes) : Bytes := x.take p ++ y ++ x.drop (p + y.length)

theorem splice_length {x y : Bytes} {p : Nat} (h : p + y.length ≤ x.length) :
    (splice x p y).length = x.length := by
  unfold splice
  simp only [List.length_append, List.length_take, List.length_drop]
  omega

theorem splice_slice {x y : Bytes} {w j k N : Nat} (hx : x.length = N * w) (hy : y.length = w)
    (hk : k < N) (hj : j < N) :
    ((splice x (k * w) y).drop (j * w)).take w = if j = k then y else (x.drop (j * w)).take w := by
  have b1 : (k + 1) * w ≤ N * w := Nat.mul_le_mul_right _ hk
  have b2 : (j + 1) * w ≤ N * w := Nat.mul_le_mul_right _ hj
  rw [Nat.succ_mul] at b1 b2
  unfold splice
  by_cases h : j = k
  · subst h
    rw [if_pos rfl, List.append_assoc, List.drop_append_of_le_length (by simp; omega)]
    rw [show (x.take (j * w)).drop (j * w) = [] by
      apply List.drop_eq_nil_of_le; simp; omega]
    rw [List.nil_append, List.take_append_of_le_length (by omega), List.take_of_length_le (by omega)]
  · rw [if_neg h]
    apply List.ext_getElem?
    intro i
    by_cases hi : i < w
    · rw [List.getElem?_take_of_lt hi, List.getElem?_take_of_lt hi, List.getElem?_drop,
        List.getElem?_drop]
      rcases Nat.lt_or_gt_of_ne h with h' | h'
      · have b3 : (j + 1) * w ≤ k * w := Nat.mul_le_mul_right _ h'
        rw [Nat.succ_mul] at b3
        rw [List.append_assoc, List.getElem?_append_left (by simp; omega),
          List.getElem?_take_of_lt (by omega)]
      · have b3 : (k + 1) * w ≤ j * w := Nat.mul_le_mul_right _ h'
        rw [Nat.succ_mul] at b3
        rw [List.getElem?_append_right (by simp; omega), List.getElem?_drop]
        congr 1
        simp only [List.length_append, List.length_take]
        omega
    · rw [List.getElem?_eq_none (by simp; omega), List.getElem?_eq_none (by simp; omega)]

theorem splice_middle {pre x post y : Bytes} {p : Nat} (h : p + y.length ≤ x.length) :
    splice (pre ++ x ++ post) (pre.length + p) y = pre ++ splice x p y ++ post := by
  unfold splice
  have e1 : (pre ++ x ++ post).take (pre.length + p) = pre ++ x.take p := by
    rw [List.append_assoc, List.take_append, List.take_of_length_le (by omega),
      show pre.length + p - pre.length = p by omega, List.take_append_of_le_length (by omega)]
  have e2 : (pre ++ x ++ post).drop (pre.length + p + y.length) = x.drop (p + y.length) ++ post := by
    rw [List.append_assoc, List.drop_append, List.drop_of_length_le (by omega), List.nil_append,
      show pre.length + p + y.length - pre.length = p + y.length by omega,
      List.drop_append_of_le_length (by omega)]
  rw [e1, e2]
  simp [List.append_assoc]

/-! ### Images -/

theorem given_fillOf (mode : GenMode) (px : Nat → Nat → Nat → Bytes) (b l s : Nat) :
    given (fillOf mode px) b l s mode = px b l s := by
  cases mode <;> rfl

theorem imageBytes_given (mode : GenMode) (nb nr nc : Nat)
    (fill : Nat × Nat × Nat → List Nat → Bytes) :
    imageBytes mode nb nr nc (fillOf mode fun b l s => given fill b l s mode) =
      imageBytes mode nb nr nc fill := by
  cases mode <;> rfl

/-- The pixels of a chunk have `w` bytes. -/
def PxLen (px : Nat → Nat → Nat → Bytes) (w : Nat) : Prop := ∀ b l s, (px b l s).length = w

theorem imageBytes_length {mode : GenMode} (hm : mode ∈ usableModes) {nb nr nc w : Nat}
    {px : Nat → Nat → Nat → Bytes} (hp : PxLen px w) :
    (imageBytes mode nb nr nc (fillOf mode px)).length = nb * nr * nc * w := by
  simp only [usableModes, List.mem_cons, List.not_mem_nil, or_false] at hm
  rcases hm with rfl | rfl | rfl <;> simp only [imageBytes, fillOf] <;>
    rw [length_block3 (fun _ _ _ _ _ _ => hp _ _ _)] <;> simp [Nat.mul_left_comm, Nat.mul_comm]

theorem elemNo_lt {mode : GenMode} {nb nr nc b l s : Nat} (hb : b < nb) (hl : l < nr) (hs : s < nc) :
    elemNo mode nb nr nc b l s < nb * nr * nc := by
  have key : ∀ {n1 n2 n3 i j k : Nat}, i < n1 → j < n2 → k < n3 →
      (i * n2 + j) * n3 + k < n1 * n2 * n3 := by
    intro n1 n2 n3 i j k hi hj hk
    have a1 : (i + 1) * n2 ≤ n1 * n2 := Nat.mul_le_mul_right _ hi
    rw [Nat.succ_mul] at a1
    have a2 : (i * n2 + j + 1) * n3 ≤ n1 * n2 * n3 := Nat.mul_le_mul_right _ (by omega)
    rw [Nat.succ_mul] at a2
    omega
  cases mode <;> simp only [elemNo]
  case rowP =>
    have := key hl hs hb
    rw [show nb * nr * nc = nr * nc * nb by simp [Nat.mul_left_comm, Nat.mul_comm]]
    exact this
  all_goals exact key hb hl hs

theorem imageBytes_slice {mode : GenMode} (hm : mode ∈ usableModes) {nb nr nc w : Nat}
    {px : Nat → Nat → Nat → Bytes} (hp : PxLen px w) {b l s : Nat} (hb : b < nb) (hl : l < nr)
    (hs : s < nc) :
    ((imageBytes mode nb nr nc (fillOf mode px)).drop (elemNo mode nb nr nc b l s * w)).take w =
      px b l s := by
  simp only [usableModes, List.mem_cons, List.not_mem_nil, or_false] at hm
  rcases hm with rfl | rfl | rfl <;> simp only [imageBytes, elemNo, fillOf]
  · exact block3_at (f := fun b l s => px b l s) (fun _ _ _ _ _ _ => hp _ _ _) hb hl hs
  · exact block3_at (f := fun b l s => px b l s) (fun _ _ _ _ _ _ => hp _ _ _) hb hl hs
  · exact block3_at (f := fun l s b => px b l s) (fun _ _ _ _ _ _ => hp _ _ _) hl hs hb

theorem setPx_len {px : Nat → Nat → Nat → Bytes} {w b l s : Nat} {x : Bytes} (hp : PxLen px w)
    (hx : x.length = w) : PxLen (setPx px b l s x) w := by
  intro b' l' s'
  unfold setPx
  split
  · exact hx
  · exact hp _ _ _

/-- Replacing the bytes of an element replaces that pixel and no other. -/
theorem imageBytes_set {mode : GenMode} (hm : mode ∈ usableModes) {nb nr nc w : Nat} (hw : 0 < w)
    {px : Nat → Nat → Nat → Bytes} (hp : PxLen px w) {b l s : Nat} (hb : b < nb) (hl : l < nr)
    (hs : s < nc) {x : Bytes} (hx : x.length = w) :
    splice (imageBytes mode nb nr nc (fillOf mode px)) (elemNo mode nb nr nc b l s * w) x =
      imageBytes mode nb nr nc (fillOf mode (setPx px b l s x)) := by
  have hlen := imageBytes_length (nb := nb) (nr := nr) (nc := nc) hm hp
  have hk := elemNo_lt (mode := mode) hb hl hs
  have hb1 : (elemNo mode nb nr nc b l s + 1) * w ≤ nb * nr * nc * w := Nat.mul_le_mul_right _ hk
  rw [Nat.succ_mul] at hb1
  refine slice_ext (N := nb * nr * nc) hw (by rw [splice_length (by omega), hlen])
    (imageBytes_length hm (setPx_len hp hx)) ?_
  intro j hj
  rw [splice_slice hlen hx hk hj]
  obtain ⟨b', l', s', ⟨h1, h2, h3, h4⟩, _⟩ := C35_tiling (mode := mode) hj
  obtain ⟨b0, l0, s0, _, hu⟩ := C35_tiling (mode := mode) hk
  rw [h4, imageBytes_slice hm (setPx_len hp hx) h1 h2 h3]
  unfold setPx
  by_cases he : b' = b ∧ l' = l ∧ s' = s
  · obtain ⟨rfl, rfl, rfl⟩ := he
    simp
  · rw [if_neg he, if_neg ?_, imageBytes_slice hm hp h1 h2 h3]
    intro hc
    obtain ⟨a1, a2, a3⟩ := hu b' l' s' h1 h2 h3 hc.symm
    obtain ⟨c1, c2, c3⟩ := hu b l s hb hl hs rfl
    exact he ⟨by omega, by omega, by omega⟩

theorem writtenStrides_eq (mode : GenMode) (nb nc w : Nat) :
    writtenStrides mode nb nc w = modeStrides mode nb nc w := by
  cases mode <;> simp [writtenStrides, modeStrides]

/-! ### The invariant -/

/-- An array and its chunk. -/
structure Linked (cs : List Part) (j : Nat) (v : ImgView) : Prop where
  chunk : ∃ mode px, cs[j]? = some (.image mode v.nb v.nr v.nc px) ∧ mode ∈ usableModes ∧
    PxLen px v.w ∧ v.strides = modeStrides mode v.nb v.nc v.w
  off : v.off = (partBytes (cs.take j)).length
  pos : 0 < v.w

theorem partBytes_append (a b : List Part) : partBytes (a ++ b) = partBytes a ++ partBytes b := by
  unfold partBytes; rw [List.flatMap_append]

theorem parts_split {cs : List Part} {j : Nat} {c : Part} (h : cs[j]? = some c) :
    partBytes cs = partBytes (cs.take j) ++ c.bytes ++ partBytes (cs.drop (j + 1)) := by
  obtain ⟨hlt, hg⟩ := List.getElem?_eq_some_iff.mp h
  conv => lhs; rw [← List.take_append_drop j cs, partBytes_append]
  rw [← List.getElem_cons_drop hlt, hg]
  simp [partBytes]

theorem take_modify_le {α : Type} {l : List α} {i j : Nat} (g : α → α) (h : j ≤ i) :
    (l.modify i g).take j = l.take j := by
  rw [List.take_modify, List.modify_eq_self]
  rw [List.length_take]
  omega

theorem modify_split {cs : List Part} {j : Nat} {c : Part} (h : cs[j]? = some c)
    (g : Part → Part) : partBytes (cs.modify j g) =
      partBytes (cs.take j) ++ (g c).bytes ++ partBytes (cs.drop (j + 1)) := by
  have h' : (cs.modify j g)[j]? = some (g c) := by
    rw [List.getElem?_modify_eq, h]; rfl
  rw [parts_split h']
  congr 2
  · rw [take_modify_le _ (Nat.le_refl j)]
  · rw [List.drop_modify_of_lt]
    omega

theorem linked_append {cs : List Part} {j : Nat} {v : ImgView} (h : Linked cs j v)
    (c : Part) : Linked (cs ++ [c]) j v := by
  obtain ⟨⟨mode, px, h1, h2⟩, h3, h4⟩ := h
  have hlt := (List.getElem?_eq_some_iff.mp h1).1
  refine ⟨⟨mode, px, ?_, h2⟩, ?_, h4⟩
  · rw [List.getElem?_append_left hlt]; exact h1
  · rw [h3, List.take_append_of_le_length (by omega)]

/-- Changing a chunk keeps the links if its bytes keep their number and images stay images. -/
theorem linked_modify {cs : List Part} {j : Nat} {v : ImgView} (h : Linked cs j v) {i : Nat}
    {c : Part} (hc : cs[i]? = some c) {g : Part → Part} (hl : (g c).bytes.length = c.bytes.length)
    (hg : ∀ mode nb nr nc px, c = .image mode nb nr nc px → PxLen px v.w → j = i →
      ∃ px', g c = .image mode nb nr nc px' ∧ PxLen px' v.w) :
    Linked (cs.modify i g) j v := by
  obtain ⟨⟨mode, px, h1, h2, h3, h4⟩, h5, h6⟩ := h
  refine ⟨?_, ?_, h6⟩
  · by_cases hij : j = i
    · subst hij
      rw [h1] at hc
      injection hc with hc
      obtain ⟨px', e1, e2⟩ := hg _ _ _ _ _ hc.symm h3 rfl
      refine ⟨mode, px', ?_, h2, e2, h4⟩
      rw [List.getElem?_modify_eq, h1, hc]
      simp [e1]
    · refine ⟨mode, px, ?_, h2, h3, h4⟩
      rw [List.getElem?_modify_ne _ _ (fun h => hij h.symm)]
      exact h1
  · rw [h5]
    rcases Nat.lt_or_ge i j with hlt | hge
    · have e1 : (cs.take j)[i]? = some c := by rw [List.getElem?_take_of_lt hlt]; exact hc
      have e2 : (cs.modify i g).take j = (cs.take j).modify i g := by
        rw [List.take_modify]
      rw [e2, modify_split e1, parts_split e1]
      simp [hl]
    · rw [take_modify_le _ hge]

/-- What holds at every time. -/
structure Inv (f : OutFile) (vs : List (Nat × ImgView)) (cs : List Part) : Prop where
  bytes : f.bytes = partBytes cs
  links : ∀ x ∈ vs, Linked cs x.1 x.2

theorem mapFor_bytes {moved : Bool} {f f' : OutFile} {can c : Bool}
    (h : mapFor moved f can = .ok (f', c)) : f'.bytes = f.bytes := by
  unfold mapFor at h
  repeat' split at h
  all_goals first | cases h | skip
  all_goals rfl

theorem writeOnDemand_ok {S : Store P.F} {nb nr nc w : Nat} (hi : ImageIs S nb nr nc w)
    {mode : GenMode} {fill : Nat × Nat × Nat → List Nat → Bytes} {moved : Bool} {f f' : OutFile}
    {o : Option ImgView} (h : writeOnDemand P S mode fill moved f = .ok (f', o)) :
    f'.bytes = f.bytes ++ imageBytes mode nb nr nc fill ∧
      ∀ v, o = some v → v = ⟨f.bytes.length, nb, nr, nc, w, modeStrides mode nb nc w, f'.moves⟩ := by
  obtain ⟨h1, h2, h3, ⟨dt, h4, rfl⟩, _⟩ := hi
  unfold writeOnDemand imgShape at h
  simp only [h1, h2, h3, h4, bind, Except.bind, pure, Except.pure, asInt, Int.toNat_natCast] at h
  cases hmf : mapFor moved { f with bytes := f.bytes ++ imageBytes mode nb nr nc fill } mode.hasView with
  | error e => rw [hmf] at h; cases h
  | ok r =>
    obtain ⟨g, c⟩ := r
    rw [hmf] at h
    simp only at h
    have hb := mapFor_bytes hmf
    split at h
    · split at h
      · cases h
        exact ⟨hb, fun v hv => by cases hv; rw [writtenStrides_eq]⟩
      · cases h
    · cases h
      exact ⟨hb, fun v hv => by cases hv⟩

theorem place_eq {v : ImgView} {mode : GenMode}
    (h : v.strides = modeStrides mode v.nb v.nc v.w) (b l s : Nat) :
    v.place b l s = v.off + elemNo mode v.nb v.nr v.nc b l s * v.w := by
  unfold ImgView.place
  rw [h]
  have off : ((b : Int) * ((modeStrides mode v.nb v.nc v.w).getD
      ((v.nr * v.nc * v.w : Nat), (v.nc * v.w : Nat), (v.w : Nat))).1 +
      l * ((modeStrides mode v.nb v.nc v.w).getD
        ((v.nr * v.nc * v.w : Nat), (v.nc * v.w : Nat), (v.w : Nat))).2.1 +
      s * ((modeStrides mode v.nb v.nc v.w).getD
        ((v.nr * v.nc * v.w : Nat), (v.nc * v.w : Nat), (v.w : Nat))).2.2) =
      ((elemNo mode v.nb v.nr v.nc b l s * v.w : Nat) : Int) := by
    cases mode <;> simp [modeStrides, elemNo] <;> grind
  simp only
  rw [off, Int.toNat_natCast]

theorem writing_inv {f : OutFile} {vs : List (Nat × ImgView)} {cs : List Part}
    (h : Writing (P := P) f vs cs) : Inv f vs cs := by
  induction h with
  | start m => exact ⟨rfl, by simp⟩
  | @write f vs cs b _ ih =>
    refine ⟨?_, fun x hx => linked_append (ih.links x hx) _⟩
    simp only
    rw [partBytes_append, ih.bytes]
    simp [partBytes, Part.bytes]
  | @image f f' vs cs o S nb nr nc w mode fill moved _ hm hi hf hw ih =>
    obtain ⟨h1, h2⟩ := writeOnDemand_ok hi hw
    have hp : PxLen (fun b l s => given fill b l s mode) w := by
      intro b l s
      cases mode <;> exact hf _ _
    refine ⟨?_, ?_⟩
    · rw [h1, partBytes_append, ih.bytes]
      simp [partBytes, Part.bytes, imageBytes_given]
    · intro x hx
      rcases List.mem_append.mp hx with hx | hx
      · exact linked_append (ih.links x hx) _
      · obtain ⟨v, hv, rfl⟩ := List.mem_map.mp hx
        have := h2 v (by simpa using hv)
        subst this
        refine ⟨⟨mode, _, ?_, hm, hp, rfl⟩, ?_, hi.pos⟩
        · simp
        · simp [ih.bytes]
  | @pixel f f' vs cs j v b l s px _ hv hpx hw ih =>
    have hl := ih.links _ hv
    obtain ⟨⟨mode, p, c1, c2, c3, c4⟩, c5, c6⟩ := hl
    unfold viewSet at hw
    split at hw
    · split at hw
      · rename_i hr
        obtain ⟨hb, hl', hs⟩ := hr
        simp only [Option.some.injEq, Except.ok.injEq] at hw
        have hset := imageBytes_set c2 c6 c3 hb hl' hs hpx
        have hlen := imageBytes_length (nb := v.nb) (nr := v.nr) (nc := v.nc) c2 c3
        have hk := elemNo_lt (mode := mode) hb hl' hs
        have hb1 : (elemNo mode v.nb v.nr v.nc b l s + 1) * v.w ≤ v.nb * v.nr * v.nc * v.w :=
          Nat.mul_le_mul_right _ hk
        rw [Nat.succ_mul] at hb1
        refine ⟨?_, ?_⟩
        · rw [← hw]
          show splice f.bytes (v.place b l s) px = _
          rw [modify_split c1, place_eq c4, ih.bytes, parts_split c1, c5]
          simp only [Part.bytes, Part.setPixel]
          rw [splice_middle (by rw [hlen, hpx]; omega), hset]
        · intro x hx
          refine linked_modify (ih.links x hx) c1 ?_ ?_
          · simp only [Part.setPixel, Part.bytes]
            rw [hlen, imageBytes_length c2 (setPx_len c3 hpx)]
          · intro mode' nb nr nc px' he hp' hj
            cases he
            exact ⟨_, rfl, setPx_len hp' (hpx.trans ((c3 b l s).symm.trans (hp' b l s)))⟩
      · cases hw
    · cases hw
  | @patch f vs cs j k r b _ hj hk ih =>
    refine ⟨?_, ?_⟩
    · unfold overwriteAt
      show splice f.bytes _ b = _
      rw [modify_split hj, ih.bytes, parts_split hj]
      simp only [Part.bytes, Part.patch]
      rw [splice_middle hk]
      rfl
    · intro x hx
      refine linked_modify (ih.links x hx) hj ?_ ?_
      · simp only [Part.bytes, Part.patch]
        exact splice_length hk
      · intro mode nb nr nc px he
        cases he

/-! ### C74 -/

/-- C74.  Whatever is done with a file being written, it contains exactly what was written, with
the pixels changed through the arrays of the images and nothing else changed; and the array of an
image, unless the system moved its memory, shows the image as it is in the file.  Missing: arrays
whose memory was moved, see `C74_moved`. -/
theorem C74_session_partial {f : OutFile} {vs : List (Nat × ImgView)} {cs : List Part}
    (h : Writing (P := P) f vs cs) :
    f.bytes = partBytes cs ∧
      ∀ j v, (j, v) ∈ vs → v.moves = f.moves → ∃ c, cs[j]? = some c ∧ ShowsImage f v c := by
  have hi := writing_inv h
  refine ⟨hi.bytes, ?_⟩
  intro j v hv hg
  obtain ⟨⟨mode, p, c1, c2, c3, c4⟩, c5, c6⟩ := hi.links _ hv
  refine ⟨_, c1, mode, _, _, _, p, rfl, rfl, rfl, rfl, ?_⟩
  intro b l s hb hl hs
  have hlen := imageBytes_length (nb := v.nb) (nr := v.nr) (nc := v.nc) c2 c3
  have hk := elemNo_lt (mode := mode) hb hl hs
  have hb1 : (elemNo mode v.nb v.nr v.nc b l s + 1) * v.w ≤ v.nb * v.nr * v.nc * v.w :=
    Nat.mul_le_mul_right _ hk
  rw [Nat.succ_mul] at hb1
  unfold viewGet
  rw [if_pos hg, if_pos ⟨hb, hl, hs⟩, hi.bytes, parts_split c1, c5, c4]
  simp only [Part.bytes]
  rw [C35_address v.nb v.nr v.nc v.w b l s (by rw [hlen]; exact hb1), imageBytes_slice c2 c3 hb hl hs]

theorem viewFits_of {mode : GenMode} {nb nr nc w off mv : Nat} :
    viewFits ⟨off, nb, nr, nc, w, modeStrides mode nb nc w, mv⟩ (off + nb * nr * nc * w) = true := by
  unfold viewFits
  simp only
  split
  · simp
  · rename_i hz
    have h1 : 0 < nb * nr * nc := Nat.pos_of_ne_zero hz
    have h2 : 0 < nb * nr := Nat.pos_of_mul_pos_right h1
    have hnc : 0 < nc := Nat.pos_of_mul_pos_left h1
    have hnr : 0 < nr := Nat.pos_of_mul_pos_left h2
    have hnb : 0 < nb := Nat.pos_of_mul_pos_right h2
    have hk := elemNo_lt (mode := mode) (nb := nb) (nr := nr) (nc := nc) (b := nb - 1) (l := nr - 1)
      (s := nc - 1) (by omega) (by omega) (by omega)
    have hb1 : (elemNo mode nb nr nc (nb - 1) (nr - 1) (nc - 1) + 1) * w ≤ nb * nr * nc * w :=
      Nat.mul_le_mul_right _ hk
    rw [Nat.succ_mul] at hb1
    have off : (((nb - 1 : Nat) : Int) * ((modeStrides mode nb nc w).getD
        ((nr * nc * w : Nat), (nc * w : Nat), (w : Nat))).1 +
        (nr - 1 : Nat) * ((modeStrides mode nb nc w).getD
          ((nr * nc * w : Nat), (nc * w : Nat), (w : Nat))).2.1 +
        (nc - 1 : Nat) * ((modeStrides mode nb nc w).getD
          ((nr * nc * w : Nat), (nc * w : Nat), (w : Nat))).2.2) =
        ((elemNo mode nb nr nc (nb - 1) (nr - 1) (nc - 1) * w : Nat) : Int) := by
      generalize nb - 1 = x
      generalize nr - 1 = y
      generalize nc - 1 = z
      cases mode <;> simp [modeStrides, elemNo] <;> grind
    rw [off, decide_eq_true_eq]
    omega

theorem mem_usable {mode : GenMode} (hm : mode ∈ usableModes) : mode.hasView = true := by
  simp only [usableModes, List.mem_cons, List.not_mem_nil, or_false] at hm
  rcases hm with rfl | rfl | rfl <;> rfl

/-- C74.  Every image that can be made is written with all its pixels, and has an array afterwards if
the file can be mapped. -/
theorem C74_written {S : Store P.F} {nb nr nc w : Nat} (hi : ImageIs S nb nr nc w) {mode : GenMode}
    (hm : mode ∈ usableModes) {fill : Nat × Nat × Nat → List Nat → Bytes}
    (hf : ∀ st idx, (fill st idx).length = w) (moved : Bool) {f : OutFile} (hne : f.bytes ≠ []) :
    ∃ f' o, writeOnDemand P S mode fill moved f = .ok (f', o) ∧
      f'.bytes = f.bytes ++ imageBytes mode nb nr nc fill ∧
      (o.isSome = true ↔ f.mappable = true ∨ f.mapped.isSome = true) ∧
      ∀ v, o = some v → ∀ b l s, b < nb → l < nr → s < nc →
        viewGet f' v b l s = some (.ok (given fill b l s mode)) := by
  have hrun : ∃ f' o, writeOnDemand P S mode fill moved f = .ok (f', o) ∧
      (o.isSome = true ↔ f.mappable = true ∨ f.mapped.isSome = true) := by
    obtain ⟨h1, h2, h3, ⟨dt, h4, rfl⟩, hpos⟩ := hi
    have hp : PxLen (fun b l s => given fill b l s mode) dt.size := by
      intro b l s
      cases mode <;> exact hf _ _
    have hlen := imageBytes_length (nb := nb) (nr := nr) (nc := nc) hm hp
    rw [imageBytes_given] at hlen
    have hfit : ∀ mv, viewFits ⟨f.bytes.length, nb, nr, nc, dt.size,
        writtenStrides mode nb nc dt.size, mv⟩
        (f.bytes ++ imageBytes mode nb nr nc fill).length = true := by
      intro mv
      rw [writtenStrides_eq, List.length_append, hlen]
      exact viewFits_of
    unfold writeOnDemand imgShape
    simp only [h1, h2, h3, h4, bind, Except.bind, pure, Except.pure, asInt, Int.toNat_natCast]
    unfold mapFor
    rw [mem_usable hm]
    have hl : (f.bytes ++ imageBytes mode nb nr nc fill).length ≠ 0 := by
      rw [List.length_append]
      have := List.length_pos_iff.mpr hne
      omega
    cases hmap : f.mapped with
    | none =>
      cases hmb : f.mappable with
      | true =>
        simp only [Option.isNone_none, Bool.and_self, if_true, if_neg hl, Option.getD_some, hfit]
        exact ⟨_, _, rfl, by simp⟩
      | false => exact ⟨_, _, rfl, by simp⟩
    | some n =>
      simp only [Option.isNone_some, Bool.and_false, Bool.false_eq_true, if_false, if_true,
        Option.getD_some, hfit]
      exact ⟨_, _, rfl, by simp⟩
  obtain ⟨f', o, h, ho⟩ := hrun
  obtain ⟨h1, h2⟩ := writeOnDemand_ok hi h
  refine ⟨f', o, h, h1, ho, ?_⟩
  intro v hv b l s hb hl hs
  have := h2 v hv
  subst this
  have hp : PxLen (fun b l s => given fill b l s mode) w := by
    intro b l s
    cases mode <;> exact hf _ _
  have hlen := imageBytes_length (nb := nb) (nr := nr) (nc := nc) hm hp
  have hk := elemNo_lt (mode := mode) hb hl hs
  have hb1 : (elemNo mode nb nr nc b l s + 1) * w ≤ nb * nr * nc * w := Nat.mul_le_mul_right _ hk
  rw [Nat.succ_mul] at hb1
  unfold viewGet
  rw [if_pos rfl, if_pos ⟨hb, hl, hs⟩]
  simp only
  have := C35_address (mode := mode) nb nr nc w b l s (pre := f.bytes)
    (data := imageBytes mode nb nr nc (fillOf mode fun b l s => given fill b l s mode)) (post := [])
    (by rw [hlen]; exact hb1)
  rw [List.append_nil, imageBytes_slice hm hp hb hl hs, imageBytes_given, ← h1] at this
  rw [this]

/-- Arrays exist only over the map of the file, and were made before its last move or after it. -/
theorem writing_moves {f : OutFile} {vs : List (Nat × ImgView)} {cs : List Part}
    (h : Writing (P := P) f vs cs) :
    ∀ x ∈ vs, x.2.moves ≤ f.moves ∧ f.mapped.isSome = true := by
  induction h with
  | start m => simp
  | write b _ ih => exact ih
  | @image f f' vs cs o S nb nr nc w mode fill moved _ hm hi hf hw ih =>
    have hstep : f.moves ≤ f'.moves ∧ (f.mapped.isSome = true → f'.mapped.isSome = true) ∧
        ∀ v, o = some v → v.moves = f'.moves ∧ f'.mapped.isSome = true := by
      have h2 := (writeOnDemand_ok hi hw).2
      obtain ⟨h1, h2', h3, ⟨dt, h4, rfl⟩, _⟩ := hi
      unfold writeOnDemand imgShape at hw
      simp only [h1, h2', h3, h4, bind, Except.bind, pure, Except.pure, asInt,
        Int.toNat_natCast] at hw
      cases hmf : mapFor moved { f with bytes := f.bytes ++ imageBytes mode nb nr nc fill }
          mode.hasView with
      | error e => rw [hmf] at hw; cases hw
      | ok r =>
        obtain ⟨g, c⟩ := r
        rw [hmf] at hw
        simp only at hw
        have hg : g = f' := by
          split at hw
          · split at hw
            · cases hw; rfl
            · cases hw
          · cases hw; rfl
        subst hg
        have hcm : c = false → o = none := by
          rintro rfl
          simp only [Bool.false_eq_true, if_false] at hw
          cases hw
          rfl
        unfold mapFor at hmf
        split at hmf
        · split at hmf
          · split at hmf
            · cases hmf
            · cases hmf
              exact ⟨Nat.le_refl _, fun _ => rfl, fun v hv => ⟨by rw [h2 v hv], rfl⟩⟩
          · cases hmf
            refine ⟨Nat.le_refl _, fun h => h, fun v hv => ?_⟩
            rw [hcm rfl] at hv
            cases hv
        · split at hmf
          · cases hmf
          · cases hmf
            refine ⟨?_, fun _ => rfl, fun v hv => ⟨by rw [h2 v hv], rfl⟩⟩
            simp only
            split <;> omega
    intro x hx
    rcases List.mem_append.mp hx with hx | hx
    · obtain ⟨a, b⟩ := ih x hx
      exact ⟨Nat.le_trans a hstep.1, hstep.2.1 b⟩
    · obtain ⟨v, hv, rfl⟩ := List.mem_map.mp hx
      obtain ⟨a, b⟩ := hstep.2.2 v (by simpa using hv)
      exact ⟨by simp [a], b⟩
  | @pixel f f' vs cs j v b l s px _ hv hpx hw ih =>
    unfold viewSet at hw
    split at hw
    · split at hw
      · simp only [Option.some.injEq, Except.ok.injEq] at hw
        subst hw
        exact ih
      · cases hw
    · cases hw
  | patch _ _ _ ih => exact ih

/-- C74.  As long as the system does not move the map, all images can be read and changed through
their arrays. -/
theorem C74_not_moved {f : OutFile} {vs : List (Nat × ImgView)} {cs : List Part}
    (h : Writing (P := P) f vs cs) (hm : f.moves = 0) {j : Nat} {v : ImgView} (hv : (j, v) ∈ vs) :
    ∃ c, cs[j]? = some c ∧ ShowsImage f v c :=
  (C74_session_partial h).2 j v hv (by
    have := (writing_moves h _ hv).1
    simp only at this
    omega)

/-- C74 (finding).  Writing a further image for which the map has to be moved leaves the arrays of
all earlier images with memory that is no longer mapped: nothing can be said about what they show or
what assigning to them does. -/
theorem C74_moved {f f' : OutFile} {vs : List (Nat × ImgView)} {cs : List Part}
    (h : Writing (P := P) f vs cs) {S : Store P.F} {nb nr nc w : Nat} (hi : ImageIs S nb nr nc w)
    {mode : GenMode} {fill : Nat × Nat × Nat → List Nat → Bytes} {o : Option ImgView}
    (hw : writeOnDemand P S mode fill true f = .ok (f', o)) {j : Nat} {v : ImgView}
    (hv : (j, v) ∈ vs) (b l s : Nat) (px : Bytes) :
    viewGet f' v b l s = none ∧ viewSet f' v b l s px = none := by
  obtain ⟨a, hs⟩ := writing_moves h _ hv
  simp only at a
  have hmv : f'.moves = f.moves + 1 := by
    obtain ⟨h1, h2', h3, ⟨dt, h4, rfl⟩, _⟩ := hi
    unfold writeOnDemand imgShape at hw
    simp only [h1, h2', h3, h4, bind, Except.bind, pure, Except.pure, asInt,
      Int.toNat_natCast] at hw
    unfold mapFor at hw
    obtain ⟨n, hn⟩ := Option.isSome_iff_exists.mp hs
    simp only [hn, Option.isNone_some, Bool.and_false, Bool.false_eq_true, if_false, if_true] at hw
    split at hw
    · split at hw
      · cases hw; rfl
      · cases hw
    · cases hw; rfl
  constructor
  · unfold viewGet; rw [if_neg (by omega)]
  · unfold viewSet; rw [if_neg (by omega)]

/-- C74.  In the other modes (which only an image whose mode was changed after it was made can
have) there is no array, and the write fails with a KeyError unless an image with an array was
written to the file before. -/
theorem C74_other_modes {S : Store P.F} {nb nr nc w : Nat} (hi : ImageIs S nb nr nc w)
    {mode : GenMode} (hm : mode ∉ usableModes) (fill : Nat × Nat × Nat → List Nat → Bytes)
    (moved : Bool) (f : OutFile) :
    (f.mapped = none → writeOnDemand P S mode fill moved f = .error .key) ∧
    ∀ n, f.mapped = some n → ∃ f', writeOnDemand P S mode fill moved f = .ok (f', none) ∧
      f'.bytes = f.bytes ++ imageBytes mode nb nr nc fill := by
  obtain ⟨h1, h2, h3, ⟨dt, h4, rfl⟩, hpos⟩ := hi
  have hv : mode.hasView = false := by
    cases mode <;> simp [usableModes] at hm <;> rfl
  unfold writeOnDemand imgShape
  simp only [h1, h2, h3, h4, bind, Except.bind, pure, Except.pure, asInt, Int.toNat_natCast]
  unfold mapFor
  rw [hv]
  constructor
  · intro h
    simp [h]
  · intro n h
    simp [h]

/-- C74, reading: in the file as it is at any time, the reader finds the pixels of every image it
contains, at the place its data was written. -/
theorem C74_read {f : OutFile} {vs : List (Nat × ImgView)} {cs : List Part}
    (h : Writing (P := P) f vs cs) (t : ImgTexts) {nr nc : Nat} {dt : NpType} {nb : Nat}
    {mode : GenMode} (hm : mode ∈ usableModes) (hd : (dt.kind, dt.size) ∈ pixelTypes) (hb : 1 ≤ nb)
    {j : Nat} {px : Nat → Nat → Nat → Bytes} (hj : cs[j]? = some (.image mode nb nr nc px))
    (hp : PxLen px dt.size) (post : Bytes) :
    ∃ S plan, newImage P t nr nc dt nb mode = (S, none) ∧ readPlan P S = .ok (some plan) ∧
      ∀ b l s, b < nb → l < nr → s < nc →
        arrayElem (f.bytes ++ post) (partBytes (cs.take j)).length nr nc plan.dtype.size
          plan.strides b l s = px b l s := by
  obtain ⟨S, h0, h1, h2, h3, h4, h5, h6, h7, h8⟩ := newImage_ok P t nr nc hm hd hb
  refine ⟨S, _, h0, newImage_plan P hm hd h1 h2 h3 h4 h5 h6 h7 h8, ?_⟩
  intro b l s hb hl hs
  have hlen := imageBytes_length (nb := nb) (nr := nr) (nc := nc) hm hp
  have hk := elemNo_lt (mode := mode) hb hl hs
  have hb1 : (elemNo mode nb nr nc b l s + 1) * dt.size ≤ nb * nr * nc * dt.size :=
    Nat.mul_le_mul_right _ hk
  rw [Nat.succ_mul] at hb1
  simp only
  rw [(writing_inv h).bytes, parts_split hj]
  simp only [Part.bytes]
  rw [List.append_assoc]
  rw [C35_address (mode := mode) nb nr nc dt.size b l s (by rw [hlen]; exact hb1),
    imageBytes_slice hm hp hb hl hs]

/-! ### Examples -/

/-- A header for two bands, one row, two columns of bytes. -/
def exViewSub (m : GenMode) : Store P0.F :=
  (newImage P0 ⟨[], [], [], [], [], 0⟩ 1 2 ⟨.u, 1, .big⟩ 2 m).1

/-- A callback whose pixels are 10 times the band plus the sample, counted from 1. -/
def exFill (m : GenMode) : Nat × Nat × Nat → List Nat → Bytes := fun st idx =>
  [(fillOf m (fun b _ s => [UInt8.ofNat (10 * (b + 1) + s + 1)]) st idx).headD 0]

/-- The hypotheses of `C74_written`. -/
example : ImageIs (P := P0) (exViewSub .rowP) 2 1 2 1 :=
  ⟨by decide +kernel, by decide +kernel, by decide +kernel,
    ⟨⟨.u, 1, .big⟩, by decide +kernel, rfl⟩, by decide⟩

/-- A file of three bytes, the image, one pixel changed through its array, two more bytes. -/
example : ∃ f vs cs, Writing (P := P0) f vs cs ∧ vs ≠ [] ∧
    f.bytes = [1, 2, 3, 11, 21, 12, 99, 7, 8] := by
  have hi : ImageIs (P := P0) (exViewSub .rowP) 2 1 2 1 :=
    ⟨by decide +kernel, by decide +kernel, by decide +kernel,
      ⟨⟨.u, 1, .big⟩, by decide +kernel, rfl⟩, by decide⟩
  have h1 := Writing.write (P := P0) [1, 2, 3] (.start true)
  obtain ⟨f', o, hw, hb, ho, hs⟩ := C74_written (P := P0) hi (mode := .rowP) (by decide)
    (fill := exFill .rowP) (fun _ _ => rfl) false
    (f := { (⟨[], none, 0, true⟩ : OutFile) with bytes := [] ++ [1, 2, 3] }) (by simp)
  obtain ⟨v, rfl⟩ := Option.isSome_iff_exists.mp (ho.mpr (.inl rfl))
  have hv := (writeOnDemand_ok hi hw).2 v rfl
  have h2 := Writing.image h1 (by decide) hi (fun _ _ => rfl) hw
  have hset : viewSet f' v 1 0 1 [99] = some (.ok { f' with bytes := [1, 2, 3, 11, 21, 12, 99] }) := by
    subst hv
    unfold viewSet ImgView.place
    rw [if_pos rfl, if_pos ⟨by simp, by simp, by simp⟩, hb]
    rfl
  have h3 := Writing.pixel h2 (j := 1) (v := v) (by simp) (by rw [hv]; rfl) hset
  exact ⟨_, _, _, .write [7, 8] h3, by simp, rfl⟩

/-- Two images in one file: the array of the first is lost if the map is moved. -/
example : ((writeOnDemand P0 (exViewSub .all) .all (exFill .all) false ⟨[1], none, 0, true⟩).toOption.bind
    fun r => (writeOnDemand P0 (exViewSub .band) .band (exFill .band) true r.1).toOption.bind fun q =>
      r.2.map fun v => (viewGet r.1 v 1 0 0, viewGet q.1 v 1 0 0)) =
    some (some (.ok [21]), none) := by decide +kernel

end Verif
