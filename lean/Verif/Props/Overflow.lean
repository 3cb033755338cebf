import Verif.Overflow
import Verif.Props.DesData

/- C69: the overflow segments of a written file say which header they are for. -/

namespace Verif

variable (P : PyFloat) (E : Env) (IO : DataIO P.F)

/-! ### Specification -/

/-- The headers whose TREs may overflow: the file header, image and text subheaders (by position in
their lists). -/
inductive Owner where
  | file
  | image (i : Nat)
  | text (i : Nat)

/-- The order of the headers in a file. -/
def Owner.before : Owner → Owner → Prop
  | .file, .image _ => True
  | .file, .text _ => True
  | .image i, .image j => i < j
  | .image _, .text _ => True
  | .text i, .text j => i < j
  | _, _ => False

/-- The format of the header. -/
def Owner.desc : Owner → Desc
  | .file => Tables.t_file_header
  | .image _ => Tables.t_image_subheader
  | .text _ => Tables.t_text_subheader

/-- The start of the names of its security fields. -/
def Owner.pre : Owner → Name
  | .file => n!"fs"
  | .image _ => n!"is"
  | .text _ => n!"ts"

/-- The header in a file. -/
def Owner.header {F D : Type} (f : NFile F D) : Owner → Option (Store F)
  | .file => some f.header
  | .image i => f.image[i]?.map Seg.sub
  | .text i => f.text[i]?.map Seg.sub

/-- Its list of TREs. -/
def Owner.tres {F D : Type} (f : NFile F D) : Owner → List (Tre F)
  | .file => f.tres
  | .image i => (f.image[i]?.map Seg.tres).getD []
  | .text i => (f.text[i]?.map Seg.tres).getD []

/-- Its TRE areas: the names of the length field and of the field with the number of the overflow
segment. -/
def Owner.areas : Owner → List (Name × Name)
  | .file => [(n!"xhdl", n!"xhdlofl"), (n!"udhdl", n!"udhofl")]
  | .image _ => [(n!"ixshdl", n!"ixofl"), (n!"udidl", n!"udofl")]
  | .text _ => [(n!"txshdl", n!"txsofl")]

/-- What an overflow segment for it has as desoflw. -/
def Owner.label : Owner → Str
  | .file => "XHD".toList
  | .image _ => "IXSHD".toList
  | .text _ => "TXSHD".toList

/-- What an overflow segment for it has as desitem. -/
def Owner.item : Owner → Nat
  | .file => 1
  | .image i => i + 1
  | .text i => i + 1

/-- In the file `g` (read from what `f` was written to), the segment `s`, at position `pos` of the
DES list, is the overflow segment for the header `o`. -/
structure BelongsTo (f g : NFile P.F IO.D) (pos : Nat) (o : Owner) (s : Seg P.F IO.D) : Prop where
  /-- The segment names the header. -/
  desid : getAttr P Tables.t_des_subheader s.sub (n!"desid") [] = .ok (.str "TRE_OVERFLOW".toList)
  desoflw : getAttr P Tables.t_des_subheader s.sub (n!"desoflw") [] = .ok (.str o.label)
  desitem : getAttr P Tables.t_des_subheader s.sub (n!"desitem") [] = .ok (.int o.item)
  /-- The first area of the header has the number of the segment, counted from 1. -/
  refers : ∃ H a, o.header g = some H ∧ o.areas.head? = some a ∧
    getAttr P o.desc H a.2 [] = .ok (.int (pos + 1))
  /-- The segment has the sixteen security attributes of the header. -/
  security : ∃ H t u, o.header g = some H ∧ getSecurity P o.desc H o.pre = .ok t ∧
    getSecurity P Tables.t_des_subheader s.sub (n!"des") = .ok u ∧ ∀ a < 16, u a = t a
  /-- It holds some of the TREs of the header, one after the other, and at least one. -/
  data : ∃ l ser, l ≠ [] ∧ l.Sublist (o.tres f) ∧ Each (fun t b => treWrite P t = .ok b) l ser ∧
    s.data = .overflow ser.flatten

/-! ### Proof -/

/-- The areas as in the code. -/
def Owner.codeAreas : Owner → List Area
  | .file => fileAreas
  | .image _ => imageAreas
  | .text _ => textAreas

theorem Owner.areas_eq (o : Owner) : o.areas = o.codeAreas.map fun a => (a.len, a.ofl) := by
  cases o <;> rfl

theorem Owner.headerAreas (o : Owner) :
    HeaderAreas o.desc o.codeAreas (areaPositions o.desc o.codeAreas) := by
  cases o
  · exact fileHeader_areas
  · exact imageHeader_areas
  · exact textHeader_areas

theorem Owner.sec (o : Owner) : (o.desc, o.pre) ∈ secHeaders := by
  cases o <;> simp [Owner.desc, Owner.pre, secHeaders]

variable {P E IO}

theorem each_picks {α β κ : Type} [DecidableEq κ] {R : α → β → Prop} {xs : List α} {ys : List β}
    (h : Each R xs ys) : ∀ (dest : List κ) (k : κ), Each R (picks dest xs k) (picks dest ys k) := by
  induction h with
  | nil => intro dest k; simp only [picks, List.zip_nil_right, List.filterMap_nil]; exact .nil
  | cons h1 _ ih =>
    intro dest k
    cases dest with
    | nil => exact .nil
    | cons d dest =>
      rw [picks_cons, picks_cons]
      split
      · exact .cons h1 (ih dest k)
      · exact ih dest k

/-- What `prepare_tre_write` leaves in the areas without overflow. -/
theorem prepare_rest {d : Desc} {areas : List Area}
    (H : HeaderAreas d areas (areaPositions d areas)) {S S' : Store P.F}
    {tres : List (Tre P.F)} (hr : TresReady P E d areas S tres) {n : Nat} {o : Option Bytes}
    (hp : prepareTreWrite P d areas n tres S = .ok (S', o)) {i : Nat} {a : Area}
    (ha : areas[i]? = some a) (hio : o = none ∨ i ≠ 0) :
    getAttr P d S' a.len [] = .ok (.int 0) ∨ getAttr P d S' a.ofl [] = .ok (.int 0) := by
  obtain ⟨vs, _, h1, _, _, h4, _⟩ := hr
  obtain ⟨ser, heads, ov, p1, p2, p3, p4, p5, _⟩ := prepare_ok P H h1 hp
  obtain ⟨p, w, hw, q1, q2⟩ := holdsAll_get P H p4 ha
  have hw0 : w.len = 0 ∨ w.ofl = 0 := by
    have key : ∃ v h, vs[i]? = some v ∧ w = v.store h := by
      unfold afterPrepare at hw
      cases hz : List.zipWith AreaVal.store vs heads with
      | nil => rw [hz] at hw; simp at hw
      | cons z zs =>
        rw [hz] at hw
        simp only at hw
        have hw' : (List.zipWith AreaVal.store vs heads)[i]? = some w := by
          rw [hz]
          cases i with
          | zero =>
            rcases hio with ho | ho
            · rw [ho] at p3
              have : ov = [] := by
                by_cases hov : ov = []
                · exact hov
                · rw [if_neg hov] at p3; cases p3
              simpa [this] using hw
            · exact absurd rfl ho
          | succ i => simpa using hw
        rw [List.getElem?_zipWith] at hw'
        cases hv : vs[i]? with
        | none => rw [hv] at hw'; simp at hw'
        | some v =>
          cases hh : heads[i]? with
          | none => rw [hv, hh] at hw'; simp at hw'
          | some h =>
            rw [hv, hh] at hw'
            simp only [Option.some.injEq] at hw'
            exact ⟨v, h, rfl, hw'.symm⟩
    obtain ⟨v, h, hv, rfl⟩ := key
    right
    unfold AreaVal.store
    rcases h4 i v hv with ⟨z1, z2⟩ | ⟨z1, _⟩
    · simp [z1, z2]
    · simp [z1]
  by_cases hl : w.len = 0
  · left; rw [q1.getLen q2, hl]
  · right; rw [q1.getOfl H.causal q2 hl, hw0.resolve_left hl]

variable {f f' : NFile P.F IO.D} {out : Bytes}

/-- The header after `prepare_tre_write`. -/
def WriteRun.headerOf (r : WriteRun P E IO f f' out) : Owner → Option (Store P.F)
  | .file => some r.h0
  | .image i => (r.segs1 .image)[i]?.map Seg.sub
  | .text i => (r.segs1 .text)[i]?.map Seg.sub

/-- The overflow segments made, with their headers. -/
theorem WriteRun.owners (r : WriteRun P E IO f f' out) (hf : FileReady P E IO f) :
    ∃ ov owners, r.segs1 .des = r.des0 ++ ov ∧ owners.Pairwise Owner.before ∧
      EachAt (fun pos (o : Owner) x => ∃ S S', o.header f = some S ∧ r.headerOf o = some S' ∧
        MadeFor P IO o.desc o.codeAreas o.pre o.label (o.item - 1) (o.tres f) S S' pos x)
        r.des0.length owners ov ∧
      ∀ o S S', o.header f = some S → r.headerOf o = some S' → o ∉ owners →
        ∃ n, prepareTreWrite P o.desc o.codeAreas n (o.tres f) S = .ok (S', none) := by
  obtain ⟨o, p1, p2⟩ := prepareHeader_ok P IO r.prepH
  obtain ⟨ovI, idxI, i1, i2, i3, i4⟩ := prepareSegs_made P IO (by rfl) r.prepI
  obtain ⟨ovG, idxG, g1, _, g3, _⟩ := prepareSegs_made P IO (by rfl) r.prepG
  obtain ⟨ovT, idxT, t1, t2, t3, t4⟩ := prepareSegs_made P IO (by rfl) r.prepT
  have hG : ovG = [] := by
    cases ovG with
    | nil => rfl
    | cons x xs =>
      exfalso
      cases g3 with
      | cons h _ =>
        obtain ⟨q, s, s', _, hs, _, b, sec, hp, _⟩ := h
        have h0 := (hf.segs .graphic (by decide) s (List.mem_of_getElem? hs)).tres.1
        rw [h0] at hp
        unfold prepareTreWrite treWriteAll at hp
        simp only [place] at hp
        split at hp
        · cases hp
        · simp at hp
  subst hG
  rw [List.append_nil] at g1
  have hI := EachAt.map (f := Owner.image) (R := fun pos (o : Owner) x => ∃ S S',
    o.header f = some S ∧ r.headerOf o = some S' ∧
    MadeFor P IO o.desc o.codeAreas o.pre o.label (o.item - 1) (o.tres f) S S' pos x) (i3.imp (by
      rintro m j x ⟨q, s, s', e, hs, hs', hm⟩
      rw [Nat.zero_add] at e
      subst e
      refine ⟨s.sub, s'.sub, by simp [Owner.header, hs], by simp [WriteRun.headerOf, hs'], ?_⟩
      simp only [Owner.tres, hs, Option.map_some, Option.getD_some]
      exact hm))
  have hT := EachAt.map (f := Owner.text) (R := fun pos (o : Owner) x => ∃ S S',
    o.header f = some S ∧ r.headerOf o = some S' ∧
    MadeFor P IO o.desc o.codeAreas o.pre o.label (o.item - 1) (o.tres f) S S' pos x) (t3.imp (by
      rintro m j x ⟨q, s, s', e, hs, hs', hm⟩
      rw [Nat.zero_add] at e
      subst e
      refine ⟨s.sub, s'.sub, by simp [Owner.header, hs], by simp [WriteRun.headerOf, hs'], ?_⟩
      simp only [Owner.tres, hs, Option.map_some, Option.getD_some]
      exact hm))
  have hIT : EachAt (fun pos (o : Owner) x => ∃ S S',
      o.header f = some S ∧ r.headerOf o = some S' ∧
      MadeFor P IO o.desc o.codeAreas o.pre o.label (o.item - 1) (o.tres f) S S' pos x)
      r.des1.length (idxI.map Owner.image ++ idxT.map Owner.text) (ovI ++ ovT) := by
    refine hI.append ?_
    rw [g1, i1, List.length_append] at hT
    exact hT
  have hpw : (idxI.map Owner.image ++ idxT.map Owner.text).Pairwise Owner.before := by
    refine List.pairwise_append.mpr ⟨List.pairwise_map.mpr i2, List.pairwise_map.mpr t2, ?_⟩
    intro a ha b hb
    obtain ⟨_, _, rfl⟩ := List.mem_map.mp ha
    obtain ⟨_, _, rfl⟩ := List.mem_map.mp hb
    trivial
  have hrest : ∀ (l : List Owner) o S S', (∀ x ∈ idxI.map Owner.image ++ idxT.map Owner.text,
      x ∈ l) → o ≠ .file → o.header f = some S → r.headerOf o = some S' → o ∉ l →
      ∃ n, prepareTreWrite P o.desc o.codeAreas n (o.tres f) S = .ok (S', none) := by
    intro l o S S' hl hne hS hS' ho
    cases o with
    | file => exact absurd rfl hne
    | image i =>
      simp only [Owner.header, WriteRun.headerOf, Option.map_eq_some_iff] at hS hS'
      obtain ⟨s, hs, rfl⟩ := hS
      obtain ⟨s', hs', rfl⟩ := hS'
      simp only [Owner.tres, hs, Option.map_some, Option.getD_some]
      refine i4 i s s' hs hs' ?_
      rw [Nat.zero_add]
      intro hi
      exact ho (hl _ (List.mem_append_left _ (List.mem_map.mpr ⟨i, hi, rfl⟩)))
    | text i =>
      simp only [Owner.header, WriteRun.headerOf, Option.map_eq_some_iff] at hS hS'
      obtain ⟨s, hs, rfl⟩ := hS
      obtain ⟨s', hs', rfl⟩ := hS'
      simp only [Owner.tres, hs, Option.map_some, Option.getD_some]
      refine t4 i s s' hs hs' ?_
      rw [Nat.zero_add]
      intro hi
      exact ho (hl _ (List.mem_append_right _ (List.mem_map.mpr ⟨i, hi, rfl⟩)))
  rcases p2 with ⟨ho, hd⟩ | ⟨b, x, ho, hd, _, _, sec, g1', g2'⟩
  · refine ⟨ovI ++ ovT, idxI.map Owner.image ++ idxT.map Owner.text, ?_, hpw, ?_, ?_⟩
    · rw [t1, g1, i1, hd, List.append_assoc]
    · rw [← hd]; exact hIT
    · intro o' S S' hS hS' hn
      by_cases hne : o' = .file
      · subst hne
        injection hS with hS
        injection hS' with hS'
        subst hS hS'
        exact ⟨_, by rw [← ho]; exact p1⟩
      · exact hrest _ o' S S' (fun _ h => h) hne hS hS' hn
  · refine ⟨x :: (ovI ++ ovT), .file :: (idxI.map Owner.image ++ idxT.map Owner.text), ?_, ?_,
      .cons ⟨_, _, rfl, rfl, b, sec, by rw [← ho]; exact p1, g1', g2'⟩ ?_, ?_⟩
    · rw [t1, g1, i1, hd]; simp
    · refine List.pairwise_cons.mpr ⟨?_, hpw⟩
      intro a ha
      rcases List.mem_append.mp ha with ha | ha
      · obtain ⟨_, _, rfl⟩ := List.mem_map.mp ha; trivial
      · obtain ⟨_, _, rfl⟩ := List.mem_map.mp ha; trivial
    · rw [hd] at hIT; simpa using hIT
    · intro o' S S' hS hS' hn
      have hne : o' ≠ .file := fun h => hn (by rw [h]; simp)
      exact hrest _ o' S S' (fun _ h => List.mem_cons_of_mem _ h) hne hS hS' hn

/-- The cells of a DES subheader after it is written. -/
theorem des_written {x : Seg P.F IO.D} {y : Seg P.F IO.D × Bytes × Bytes}
    (h : segBytes P E IO .des x = .ok y) : y.1.data = x.data ∧
      ∀ q, q ≠ 21 → q ≠ 22 → y.1.sub q [] = x.sub q [] := by
  obtain ⟨sub, h1, h2, _⟩ := segBytes_ok P E IO h
  obtain ⟨b, _, h3⟩ := writeUser_des P h1
  rw [h2]
  refine ⟨rfl, ?_⟩
  intro q h21 h22
  show sub q [] = _
  rw [h3]
  simp [Store.set, h21, h22]

/-- The marks of an overflow segment read back. -/
theorem marks_read {x : Seg P.F IO.D} {y : Seg P.F IO.D × Bytes × Bytes} {s : Seg P.F IO.D}
    (hy : segBytes P E IO .des x = .ok y) (hs : ReachSame P Tables.t_des_subheader y.1.sub s.sub)
    {ofl : Str} (hofl : rstripU ofl = ofl) {i : Nat} {sec : Sec P.F} (hsec : SecOk P sec) {b : Bytes}
    (hx : overflowSeg P IO ofl i sec b = .ok x) :
    getAttr P Tables.t_des_subheader s.sub (n!"desid") [] = .ok (.str "TRE_OVERFLOW".toList) ∧
    getAttr P Tables.t_des_subheader s.sub (n!"desoflw") [] = .ok (.str ofl) ∧
    getAttr P Tables.t_des_subheader s.sub (n!"desitem") [] = .ok (.int (i + 1)) ∧
    ∃ u, getSecurity P Tables.t_des_subheader s.sub (n!"des") = .ok u ∧ ∀ a < 16, u a = sec a := by
  obtain ⟨_, w2⟩ := des_written hy
  obtain ⟨c19, c20, _⟩ := overflowSeg_cells P IO hx
  have hid : getAttr P Tables.t_des_subheader y.1.sub (n!"desid") [] =
      .ok (.str "TRE_OVERFLOW".toList) := by
    rw [segBytes_desid P E IO hy]; exact overflowSeg_desid P IO hx
  obtain ⟨m1, m2⟩ := des_marks P hid (by rw [w2 19 (by decide) (by decide)]; exact c19)
    (by rw [w2 20 (by decide) (by decide)]; exact c20)
  have hsh : ∀ {nm : Name} {n : Nat}, desRowB nm n = true → ∀ n fi,
      resolve Tables.t_des_subheader.tab nm = some n → Tables.t_des_subheader.tab[n]? = some fi →
      fi.shapes = [] := by
    intro nm n hb m fi hr hfi
    obtain ⟨h1, fi', h2, h3, _⟩ := desRow_of hb
    rw [h1] at hr; injection hr with hr; subst hr
    rw [h2] at hfi; injection hfi with hfi; subst hfi
    exact h3.shapes
  have hm : (Tables.t_des_subheader, n!"des") ∈ secHeaders := by simp [secHeaders]
  refine ⟨?_, ?_, ?_, ?_⟩
  · rw [getAttr_reach P (hsh desid_row.1) hs]; exact hid
  · rw [getAttr_reach P (hsh desid_row.2.2.1) hs, m1, hofl]
  · rw [getAttr_reach P (hsh desid_row.2.2.2.1) hs, m2]
  · obtain ⟨u, u1, u2⟩ := overflowSeg_security P IO hsec hx
    refine ⟨u, ?_, u2⟩
    rw [← u1]
    refine (getSecurity_congr P fun f hf => getAttr_reach P (sec_shapes hm f hf) hs).trans ?_
    apply getSecurity_congr
    intro f hf
    refine sec_cell P hm hf ?_
    intro n hn
    have hfr : (secNames (n!"des")).all (fun f => [21, 22].all fun q =>
        decide (resolve Tables.t_des_subheader.tab f.1 ≠ some q)) = true := by decide +kernel
    have hne : ∀ q ∈ [21, 22], n ≠ q := by
      rintro q hq rfl
      exact of_decide_eq_true (List.all_eq_true.mp (List.all_eq_true.mp hfr f hf) n hq) hn
    exact w2 n (hne 21 (by simp)) (hne 22 (by simp))

/-- The names of the fields of a header that this is about. -/
def Owner.names (o : Owner) : List Name :=
  o.codeAreas.flatMap (fun a => [a.len, a.ofl]) ++ (secNames o.pre).map (·.1)

theorem Owner.shapes (o : Owner) : ∀ nm ∈ o.names, ∀ n fi, resolve o.desc.tab nm = some n →
    o.desc.tab[n]? = some fi → fi.shapes = [] := by
  intro nm hnm
  rcases List.mem_append.mp hnm with h | h
  · obtain ⟨a, ha, hn⟩ := List.mem_flatMap.mp h
    obtain ⟨i, hi⟩ := List.getElem?_of_mem ha
    have H := o.headerAreas
    have hlt := lt_of_getElem? hi
    have hp := H.at_.2 i a _ hi (List.getElem?_eq_getElem (by rw [← H.at_.1]; exact hlt))
    refine hp.shapes nm ?_
    simp only [List.mem_cons, List.not_mem_nil, or_false] at hn ⊢
    rcases hn with h | h <;> simp [h]
  · obtain ⟨f, hf, rfl⟩ := List.mem_map.mp h
    exact sec_shapes o.sec f hf

variable {same : IO.D → IO.D → Prop}

/-- The header read has the values of the header prepared. -/
theorem LoadRun.header_same {r : WriteRun P E IO f f' out} {g : NFile P.F IO.D}
    (L : LoadRun P E IO same r g) (hf : FileReady P E IO f) {o : Owner} {S' H : Store P.F}
    (h1 : r.headerOf o = some S') (h2 : o.header g = some H) :
    ∀ nm ∈ o.names, getAttr P o.desc H nm [] = getAttr P o.desc S' nm [] := by
  have hseg : ∀ k, k ≠ SegKind.des → ∀ (i : Nat) s s', (r.segs1 k)[i]? = some s →
      (g.segs k)[i]? = some s' → ReachSame P k.desc s.sub s'.sub := by
    intro k hk i s s' hs hs'
    have hlt : i < (r.res k).length := by rw [(L.segs k).length]; exact lt_of_getElem? hs'
    have hx := Each.get (r.each k) i _ _ hs (List.getElem?_eq_getElem hlt)
    have hl := Each.get (L.segs k) i _ _ (List.getElem?_eq_getElem hlt) hs'
    obtain ⟨sub, e1, e2, _⟩ := segBytes_ok P E IO hx
    have := hl.1.reach
    rw [e2] at this
    rw [writeUser_other P hk e1] at this
    exact this
  intro nm hnm
  cases o with
  | image i =>
    simp only [WriteRun.headerOf, Owner.header, Option.map_eq_some_iff] at h1 h2
    obtain ⟨s, hs, rfl⟩ := h1
    obtain ⟨s', hs', rfl⟩ := h2
    exact getAttr_reach P (Owner.shapes (.image i) nm hnm)
      (hseg .image (by decide) i s s' hs hs')
  | text i =>
    simp only [WriteRun.headerOf, Owner.header, Option.map_eq_some_iff] at h1 h2
    obtain ⟨s, hs, rfl⟩ := h1
    obtain ⟨s', hs', rfl⟩ := h2
    exact getAttr_reach P (Owner.shapes (.text i) nm hnm)
      (hseg .text (by decide) i s s' hs hs')
  | file =>
    injection h1 with h1
    injection h2 with h2
    subst h1 h2
    refine (getAttr_items P (Owner.shapes .file nm hnm) (L.items nm)).trans ?_
    have hcell : ∀ q, q ∉ [flPos, hlPos, 31, 34, 38, 41, 44] → f'.header q [] = r.h0 q [] := by
      intro q hq
      simp only [List.mem_cons, List.not_mem_nil, or_false, not_or] at hq
      rw [r.others q [] hq.1 hq.2.1 fun k => Or.inr (by simp), nums_ok P r.nums]
      simp [Store.set, hq.2.2]
    rcases List.mem_append.mp hnm with h | h
    · obtain ⟨o, p1, _⟩ := prepareHeader_ok P IO r.prepH
      obtain ⟨⟨vs, q1⟩, _⟩ := ready_prepared P E fileHeader_areas hf.reg hf.tres p1
      obtain ⟨a, ha, hn⟩ := List.mem_flatMap.mp h
      obtain ⟨i, hi⟩ := List.getElem?_of_mem ha
      have hA := areasAt_of P fileHeader_areas.at_ q1
      have hps : ((areaPositions Tables.t_file_header fileAreas).flatMap AreaPos.list).all
          (fun q => decide (q ∉ [flPos, hlPos, 31, 34, 38, 41, 44])) = true := by decide +kernel
      have hA' := (hA.congr (S' := f'.header) fun q hq =>
        hcell q (of_decide_eq_true (List.all_eq_true.mp hps q hq))).each
      obtain ⟨p, v, v1, v2, v3⟩ := holdsAll_get P fileHeader_areas q1 hi
      obtain ⟨p', v', v1', v2', v3'⟩ := holdsAll_get P fileHeader_areas hA' hi
      have hpp : p' = p := by
        have e1 := v2.rlen; have e2 := v2'.rlen
        rw [e1] at e2
        have e3 := v2.rofl; have e4 := v2'.rofl
        rw [e3] at e4
        have e5 := v2.rdata; have e6 := v2'.rdata
        rw [e5] at e6
        injection e2 with e2; injection e4 with e4; injection e6 with e6
        cases p; cases p'; simp_all
      rw [v1] at v1'; injection v1' with v1'; subst v1' hpp
      refine area_same P fileHeader_areas.causal v2 v3 v3' nm ?_
      simp only [List.mem_cons, List.not_mem_nil, or_false] at hn ⊢
      rcases hn with h | h <;> simp [h]
    · obtain ⟨fd, hfd, rfl⟩ := List.mem_map.mp h
      refine sec_cell P (Owner.sec .file) hfd ?_
      intro n hn
      refine hcell n ?_
      intro hq
      have hfr : (secNames (n!"fs")).all (fun f => [flPos, hlPos, 31, 34, 38, 41, 44].all fun q =>
          decide (resolve Tables.t_file_header.tab f.1 ≠ some q)) = true := by decide +kernel
      exact of_decide_eq_true (List.all_eq_true.mp (List.all_eq_true.mp hfr fd hfd) n hq) hn

theorem FileReady.ownerTres (hf : FileReady P E IO f) {o : Owner} {S : Store P.F}
    (h : o.header f = some S) : TresReady P E o.desc o.codeAreas S (o.tres f) := by
  cases o with
  | file => injection h with h; subst h; exact hf.tres
  | image i =>
    simp only [Owner.header, Option.map_eq_some_iff] at h
    obtain ⟨s, hs, rfl⟩ := h
    simp only [Owner.tres, hs, Option.map_some, Option.getD_some]
    exact (hf.segs .image (by decide) s (List.mem_of_getElem? hs)).tres
  | text i =>
    simp only [Owner.header, Option.map_eq_some_iff] at h
    obtain ⟨s, hs, rfl⟩ := h
    simp only [Owner.tres, hs, Option.map_some, Option.getD_some]
    exact (hf.segs .text (by decide) s (List.mem_of_getElem? hs)).tres

theorem isSome_lt {α : Type} (l : List α) (i : Nat) : l[i]?.isSome = decide (i < l.length) := by
  by_cases h : i < l.length
  · rw [List.getElem?_eq_getElem h]; simp [h]
  · rw [List.getElem?_eq_none (by omega)]; simp [h]

theorem LoadRun.header_exists {r : WriteRun P E IO f f' out} {g : NFile P.F IO.D}
    (L : LoadRun P E IO same r g) (o : Owner) :
    ((o.header f).isSome = (r.headerOf o).isSome) ∧ (r.headerOf o).isSome = (o.header g).isSome := by
  have h1 : ∀ k, k ≠ SegKind.des → (f.segs k).length = (r.segs1 k).length := fun k hk =>
    Each.length (r.prepared P E IO hk)
  have h2 : ∀ k, (r.segs1 k).length = (g.segs k).length := fun k =>
    (Each.length (r.each k)).trans (Each.length (L.segs k))
  cases o with
  | file => exact ⟨rfl, rfl⟩
  | image i =>
    have a : f.image.length = _ := h1 .image (by decide)
    have b : _ = g.image.length := h2 .image
    simp [Owner.header, WriteRun.headerOf, isSome_lt, a, b]
  | text i =>
    have a : f.text.length = _ := h1 .text (by decide)
    have b : _ = g.text.length := h2 .text
    simp [Owner.header, WriteRun.headerOf, isSome_lt, a, b]

variable (P E IO) (same)

/-- C69.  A file that can be written and read back (as in C26) is written and read.  In the file read
the overflow segments are the last DES segments.  There is one for each of certain headers, in the
order of the headers in the file; it names the header, has its security attributes and holds the
TREs that did not fit, and the first area of the header has its number.  No other area of any
header refers to an overflow segment. -/
theorem C69_overflow {f f' : NFile P.F IO.D} {out : Bytes}
    (h : writeFile P E IO f = .ok (f', out)) (hf : FileReady P E IO f)
    (hd : ∀ k, ∀ s ∈ f'.segs k, HandlersReady P IO same k s)
    (hlen : out.length ≠ 999999999999) :
    ∃ (g : NFile P.F IO.D) (ds os : List (Seg P.F IO.D)) (owners : List Owner),
      readFile P E IO out = .ok g ∧ g.des = ds ++ os ∧
      ds.length = f'.des.length ∧ owners.Pairwise Owner.before ∧ owners.length = os.length ∧
      (∀ (m : Nat) (s : Seg P.F IO.D) (o : Owner), os[m]? = some s → owners[m]? = some o →
        BelongsTo P IO f g (ds.length + m) o s) ∧
      ∀ (o : Owner) (H : Store P.F), o.header g = some H →
        ∀ (i : Nat) (a : Name × Name), o.areas[i]? = some a →
          o ∈ owners ∧ i = 0 ∨ getAttr P o.desc H a.1 [] = .ok (.int 0) ∨
            getAttr P o.desc H a.2 [] = .ok (.int 0) := by
  obtain ⟨r⟩ := writeFile_run P E IO h
  obtain ⟨g, L⟩ := readFile_written P E IO same r hf hd hlen
  obtain ⟨ov, ra, rb, d1, d2, d3, d4, d5, d6, d7⟩ := r.des_split P E IO
  obtain ⟨ov', owners, o1, o2, o3, o4⟩ := r.owners hf
  have hov : ov' = ov := by
    rw [d1] at o1
    exact (List.append_cancel_left o1).symm
  subst hov
  have hds := L.segs .des
  rw [d2] at hds
  obtain ⟨da, db, dab, da1, db1⟩ := Each.split hds
  have hl0 : da.length = r.des0.length := by rw [← Each.length da1, ← Each.length d3]
  refine ⟨g, da, db, owners, L.read, dab, ?_, o2, ?_, ?_, ?_⟩
  · rw [d6, List.length_map, Each.length da1]
  · rw [o3.length, Each.length d4, Each.length db1]
  · intro m s o hs ho
    have hm : m < db.length := lt_of_getElem? hs
    have hmb : m < rb.length := by rw [Each.length db1]; exact hm
    have hmo : m < ov'.length := by rw [Each.length d4]; exact hmb
    have hx := Each.get d4 m _ _ (List.getElem?_eq_getElem hmo) (List.getElem?_eq_getElem hmb)
    have hy := Each.get db1 m _ _ (List.getElem?_eq_getElem hmb) hs
    obtain ⟨S, S', hS, hS', b, sec, q1, q2, q3⟩ := o3.get m o _ ho (List.getElem?_eq_getElem hmo)
    obtain ⟨H, hH⟩ : ∃ H, o.header g = some H := by
      have := (L.header_exists o).2
      rw [hS', Option.isSome_some] at this
      exact Option.isSome_iff_exists.mp this.symm
    have hsame := L.header_same hf hS' hH
    have hlab : rstripU o.label = o.label := by
      cases o
      · exact (by decide : rstripU "XHD".toList = "XHD".toList)
      · exact (by decide : rstripU "IXSHD".toList = "IXSHD".toList)
      · exact (by decide : rstripU "TXSHD".toList = "TXSHD".toList)
    have hsec := getSecurity_ok P o.sec q2
    obtain ⟨m1, m2, m3, u, u1, u2⟩ := marks_read hx hy.1.reach hlab hsec q3
    have hitem : ((o.item - 1 : Nat) : Int) + 1 = (o.item : Nat) := by
      cases o <;> simp [Owner.item]
    obtain ⟨_, vs, hvs⟩ : ∃ x : Unit, ∃ vs, HoldsAll P o.desc S
        (areaPositions o.desc o.codeAreas) vs := by
      obtain ⟨vs, _, hv, _⟩ := hf.ownerTres hS
      exact ⟨(), vs, hv⟩
    obtain ⟨ser, dest, c1, c2, _, c4, c5⟩ := C22_placement P o.headerAreas hvs q1
    have hne : content ser dest none ≠ [] := fun h0 => by have := c4 h0; cases this
    obtain ⟨e1, a, ea, e2⟩ := c5 hne
    injection e1 with e1
    refine ⟨m1, m2, by rw [m3, hitem], ?_, ?_, ?_⟩
    · refine ⟨H, (a.len, a.ofl), hH, by rw [o.areas_eq, List.head?_map, List.head?_eq_getElem?, ea]; rfl, ?_⟩
      rw [hsame a.ofl (List.mem_append_left _ (List.mem_flatMap.mpr
        ⟨a, List.mem_of_getElem? ea, by simp⟩)), e2, hl0]
    · refine ⟨H, sec, u, hH, ?_, u1, u2⟩
      rw [← q2]
      exact getSecurity_congr P fun fd hfd =>
        hsame fd.1 (List.mem_append_right _ (List.mem_map.mpr ⟨fd, hfd, rfl⟩))
    · refine ⟨picks dest (o.tres f) none, picks dest ser none, ?_, picks_sublist _ _ _,
        each_picks c1 dest none, ?_⟩
      · intro h0
        have := Each.length (each_picks c1 dest (none : Option Nat))
        rw [h0] at this
        refine hne ?_
        unfold content
        have h1 : picks dest ser none = [] :=
          List.eq_nil_of_length_eq_zero (by simpa using this.symm)
        rw [h1]
        rfl
      · have hdat := hy.1.data
        rw [(des_written hx).1, (overflowSeg_cells P IO q3).2.2.1] at hdat
        cases hsd : s.data with
        | overflow c => rw [hsd] at hdat; rw [show c = b from hdat, e1]; rfl
        | other y => rw [hsd] at hdat; exact absurd hdat (by simp [SameData])
  · intro o H hH i a ha
    obtain ⟨S', hS'⟩ : ∃ S', r.headerOf o = some S' := by
      have := (L.header_exists o).2
      rw [hH, Option.isSome_some] at this
      exact Option.isSome_iff_exists.mp this
    obtain ⟨S, hS⟩ : ∃ S, o.header f = some S := by
      have := (L.header_exists o).1
      rw [hS', Option.isSome_some] at this
      exact Option.isSome_iff_exists.mp this
    rw [o.areas_eq, List.getElem?_map, Option.map_eq_some_iff] at ha
    obtain ⟨ar, har, rfl⟩ := ha
    have hsame := L.header_same hf hS' hH
    have hmem : ∀ nm ∈ [ar.len, ar.ofl], nm ∈ o.names := fun nm hnm =>
      List.mem_append_left _ (List.mem_flatMap.mpr ⟨ar, List.mem_of_getElem? har, hnm⟩)
    rw [hsame ar.len (hmem _ (by simp)), hsame ar.ofl (hmem _ (by simp))]
    by_cases hin : o ∈ owners
    · by_cases hi : i = 0
      · exact Or.inl ⟨hin, hi⟩
      · obtain ⟨pos, x, S1, S1', g1, g2, b, sec, q1, _⟩ := o3.mem_left hin
        rw [hS] at g1; injection g1 with g1; subst g1
        rw [hS'] at g2; injection g2 with g2; subst g2
        exact Or.inr (prepare_rest o.headerAreas (hf.ownerTres hS) q1 har (Or.inr hi))
    · obtain ⟨n, q1⟩ := o4 o S S' hS hS' hin
      exact Or.inr (prepare_rest o.headerAreas (hf.ownerTres hS) q1 har (Or.inl rfl))

/-- C69 for one header: the segment made when TREs do not fit, for a header in any state. -/
theorem C69_new_segment (o : Owner) {S S' : Store P.F} {vs : List AreaVal}
    (hS : HoldsAll P o.desc S (areaPositions o.desc o.codeAreas) vs) {tres : List (Tre P.F)}
    {des des' : List (Seg P.F IO.D)}
    (h : prepareHeader P IO o.desc o.codeAreas o.pre o.label (o.item - 1) tres S des =
      .ok (S', des')) :
    des' = des ∨ ∃ s, des' = des ++ [s] ∧
      getAttr P Tables.t_des_subheader s.sub (n!"desid") [] = .ok (.str "TRE_OVERFLOW".toList) ∧
      getAttr P Tables.t_des_subheader s.sub (n!"desoflw") [] = .ok (.str o.label) ∧
      getAttr P Tables.t_des_subheader s.sub (n!"desitem") [] = .ok (.int o.item) ∧
      (∃ a, o.areas.head? = some a ∧
        getAttr P o.desc S' a.2 [] = .ok (.int ((des.length : Nat) + 1))) ∧
      (∃ t u, getSecurity P o.desc S' o.pre = .ok t ∧
        getSecurity P Tables.t_des_subheader s.sub (n!"des") = .ok u ∧ ∀ a < 16, u a = t a) ∧
      ∃ l ser, l ≠ [] ∧ l.Sublist tres ∧ Each (fun t b => treWrite P t = .ok b) l ser ∧
        s.data = .overflow ser.flatten := by
  obtain ⟨ob, p1, p2⟩ := prepareHeader_ok P IO h
  rcases p2 with ⟨_, hd⟩ | ⟨b, s, ho, hd, _, hdat, sec, g1, g2⟩
  · exact Or.inl hd
  · right
    refine ⟨s, hd, overflowSeg_desid P IO g2, ?_⟩
    obtain ⟨c1, c2, _⟩ := overflowSeg_cells P IO g2
    obtain ⟨m1, m2⟩ := des_marks P (overflowSeg_desid P IO g2) c1 c2
    have hlab : rstripU o.label = o.label := by
      cases o
      · exact (by decide : rstripU "XHD".toList = "XHD".toList)
      · exact (by decide : rstripU "IXSHD".toList = "IXSHD".toList)
      · exact (by decide : rstripU "TXSHD".toList = "TXSHD".toList)
    have hitem : ((o.item - 1 : Nat) : Int) + 1 = (o.item : Nat) := by
      cases o <;> simp [Owner.item]
    obtain ⟨u, u1, u2⟩ := overflowSeg_security P IO (getSecurity_ok P o.sec g1) g2
    rw [ho] at p1
    obtain ⟨ser, dest, e1, e2, _, e4, e5⟩ := C22_placement P o.headerAreas hS p1
    have hne : content ser dest none ≠ [] := fun h0 => by have := e4 h0; cases this
    obtain ⟨f1, a, fa, f2⟩ := e5 hne
    injection f1 with f1
    refine ⟨by rw [m1, hlab], by rw [m2, hitem], ⟨(a.len, a.ofl), ?_, f2⟩, ⟨sec, u, g1, u1, u2⟩,
      picks dest tres none, picks dest ser none, ?_, picks_sublist _ _ _, each_picks e1 dest none, ?_⟩
    · rw [o.areas_eq, List.head?_map, List.head?_eq_getElem?, fa]; rfl
    · intro h0
      have := Each.length (each_picks e1 dest (none : Option Nat))
      rw [h0] at this
      have h1 : picks dest ser none = [] :=
        List.eq_nil_of_length_eq_zero (by simpa using this.symm)
      exact hne (by unfold content; rw [h1]; rfl)
    · rw [hdat, f1]; rfl

/-! ### Concrete cases -/

/-- A case of `C69_new_segment`: two large TREs of the third text segment, the only area of which
takes one of them; two DES segments come before. -/
example (des : List (Seg P0.F exIO.D)) (hl : des.length = 2) : ∃ S' s,
    prepareHeader P0 exIO Tables.t_text_subheader textAreas (n!"ts") "TXSHD".toList 2 exBig
      Store.empty des = .ok (S', des ++ [s]) ∧
    getAttr P0 Tables.t_des_subheader s.sub (n!"desoflw") [] = .ok (.str "TXSHD".toList) ∧
    getAttr P0 Tables.t_des_subheader s.sub (n!"desitem") [] = .ok (.int 3) ∧
    getAttr P0 Tables.t_text_subheader S' (n!"txsofl") [] = .ok (.int 3) := by
  have hw : ∀ (tag : Str) (x : UInt8), TagOk tag →
      ∃ b, treWrite P0 (.unknown tag (List.replicate 60000 x) : Tre P0.F) = .ok b ∧
        b.length = 60011 := by
    intro tag x htag
    obtain ⟨b, hb⟩ := (C19_too_long P0 (t := .unknown tag (List.replicate 60000 x))
      (body := List.replicate 60000 x) rfl).2 (by rw [List.length_replicate]; omega)
    obtain ⟨body', c1, c2, _⟩ :=
      C19_format P0 (t := .unknown tag (List.replicate 60000 x)) htag hb
    have c1 : (Except.ok (List.replicate 60000 x) : Except Err Bytes) = .ok body' := c1
    injection c1 with c1
    exact ⟨b, hb, by rw [c2, ← c1, List.length_replicate]⟩
  obtain ⟨a, a1, a2⟩ := hw "BIGTRA".toList 1 ⟨by decide, by decide, by decide⟩
  obtain ⟨b, b1, b2⟩ := hw "BIGTRB".toList 2 ⟨by decide, by decide, by decide⟩
  have nb : b ≠ [] := fun h => by rw [h] at b2; simp at b2
  have na : a ≠ [] := fun h => by rw [h] at a2; simp at a2
  have hser : treWriteAll P0 exBig = .ok [a, b] := by simp only [exBig, treWriteAll, a1, b1]
  have hpl : place [a, b] (textAreas.map fun _ => []) [] = ([a], b) := by
    simp [textAreas, place, placeOne, a2, b2]
  obtain ⟨S1, p1, p2, p3⟩ := prepare_spec P0 textHeader_areas (textHeader_fresh P0) des.length hser
    hpl (by intro _ v hv; simp at hv; subst hv; simp [AreaVal.store, na]; omega)
  rw [if_neg nb] at p1
  have hsec : getSecurity P0 Tables.t_text_subheader S1 (n!"ts") =
      getSecurity P0 Tables.t_text_subheader Store.empty (n!"ts") := by
    apply getSecurity_congr
    intro fd hfd
    refine sec_cell P0 (Owner.sec (.text 0)) hfd ?_
    intro n hn
    refine p3 n [] ?_
    rintro ⟨hq, _⟩
    have hfr : (secNames (n!"ts")).all (fun f =>
        ((areaPositions Tables.t_text_subheader textAreas).flatMap AreaPos.list).all fun q =>
          decide (resolve Tables.t_text_subheader.tab f.1 ≠ some q)) = true := by decide +kernel
    exact of_decide_eq_true (List.all_eq_true.mp (List.all_eq_true.mp hfr fd hfd) n hq) hn
  have hmade : ∃ t s, getSecurity P0 Tables.t_text_subheader Store.empty (n!"ts") = .ok t ∧
      overflowSeg P0 exIO "TXSHD".toList 2 t b = .ok s := by
    have hs : (match getSecurity P0 Tables.t_text_subheader Store.empty (n!"ts") with
        | .error _ => false
        | .ok t => match setAll P0 Tables.t_des_subheader
            [(n!"dsver", .int 1), (n!"desid", .str "TRE_OVERFLOW".toList),
             (n!"desoflw", .str "TXSHD".toList), (n!"desitem", .int ((2 : Nat) + 1))] Store.empty with
          | .error _ => false
          | .ok S => (setSecurity P0 Tables.t_des_subheader t S (n!"des")).2.isNone) = true := by
      decide +kernel
    cases ht : getSecurity P0 Tables.t_text_subheader Store.empty (n!"ts") with
    | error e => rw [ht] at hs; cases hs
    | ok t =>
      simp only [ht] at hs
      refine ⟨t, ?_⟩
      unfold overflowSeg
      split at hs
      · cases hs
      · rename_i S hS
        rw [hS]
        simp only
        cases hset : setSecurity P0 Tables.t_des_subheader t S (n!"des") with
        | mk S' e =>
          rw [hset] at hs
          cases e with
          | some e => cases hs
          | none => exact ⟨_, trivial, rfl⟩
  obtain ⟨t, s, ht, hs⟩ := hmade
  have hp : prepareHeader P0 exIO Tables.t_text_subheader textAreas (n!"ts") "TXSHD".toList 2 exBig
      Store.empty des = .ok (S1, des ++ [s]) := by
    unfold prepareHeader
    rw [p1]
    simp only [hsec, ht, hs]
  rcases C69_new_segment P0 exIO (.text 2) (textHeader_fresh P0) hp with h | ⟨s', h, _, h2, h3, ⟨ar, h4, h5⟩, _⟩
  · exact absurd (congrArg List.length h) (by simp)
  · have := List.append_cancel_left h
    injection this with this _
    subst this
    refine ⟨S1, s, hp, h2, h3, ?_⟩
    have : ar = (n!"txshdl", n!"txsofl") := by
      simp only [Owner.areas, List.head?_cons, Option.some.injEq] at h4
      exact h4.symm
    subst this
    rw [hl] at h5
    exact h5

end Verif
