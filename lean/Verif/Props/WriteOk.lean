import Verif.WriteOk
import Verif.Props.DesData

/- C70: exactly when a file can be written. -/

namespace Verif

variable {P : PyFloat} {E : Env} {IO : DataIO P.F}

/-! ### Specification -/

/-- Largest subheader of each kind of segment that its length field can count, plus one. -/
def subLimit : SegKind → Nat
  | .image => 1000000
  | _ => 10000

/-- Largest data of each kind of segment that its length field can count, plus one. -/
def dataLimit : SegKind → Nat
  | .image => 10000000000
  | .graphic => 1000000
  | .text => 100000
  | .des => 1000000000
  | .res => 10000000

/-- Every part of a prepared file can be written by itself and all lengths fit: the header as the
chunks `cs`, the segments as `res` (segment afterwards, subheader bytes, data bytes). -/
structure AllFits (P : PyFloat) (E : Env) (IO : DataIO P.F) (h1 : Store P.F)
    (segs : SegKind → List (Seg P.F IO.D)) (cs : List Chunk)
    (res : SegKind → List (Seg P.F IO.D × Bytes × Bytes)) : Prop where
  header : writeChunks P Tables.t_file_header h1 = .ok cs
  segments : ∀ k, Each (fun s r => segBytes P E IO k s = .ok r) (segs k) (res k)
  lengths : ∀ k (i : Nat) s r, (segs k)[i]? = some s → (res k)[i]? = some r → s.linked = true →
    r.2.1.length < subLimit k ∧ r.2.2.length < dataLimit k
  headerLength : (chunkBytes cs).length < 1000000
  fileLength : (chunkBytes cs).length + (partsBytes fun k => (res k).map (·.2)).length <
    1000000000000

theorem subLimit_eq (k : SegKind) : subLimit k = 10 ^ (lenDigits k).1 := by cases k <;> rfl
theorem dataLimit_eq (k : SegKind) : dataLimit k = 10 ^ (lenDigits k).2 := by cases k <;> rfl

theorem Each.and_get {α β : Type} {R : α → β → Prop} {Q : α → β → Prop} :
    ∀ {as : List α} {bs : List β}, Each R as bs →
      (∀ (i : Nat) a b, as[i]? = some a → bs[i]? = some b → Q a b) →
      Each (fun a b => R a b ∧ Q a b) as bs
  | _, _, .nil, _ => .nil
  | _, _, .cons h1 h2, h => .cons ⟨h1, h 0 _ _ rfl rfl⟩
      (Each.and_get h2 fun i a b ha hb => h (i + 1) a b ha hb)

/-! ### C70 -/

/-- What is known after a part of the segments has been written. -/
theorem writeSegs_step {cs : List Chunk} {h1 H : Store P.F} {out post : Bytes} {k : SegKind}
    {c : Nat} (hw : writeChunks P Tables.t_file_header h1 = .ok cs)
    (hcnt : h1 (numPos k) [] = some ⟨.val (.int c), none⟩)
    {ss : List (Seg P.F IO.D)} {rs : List (Seg P.F IO.D × Bytes × Bytes)} (hss : ss.length = c)
    (h : Each (fun s r => segBytes P E IO k s = .ok r) ss rs)
    (hl : ∀ (i : Nat) s r, ss[i]? = some s → rs[i]? = some r → s.linked = true →
      r.2.1.length < subLimit k ∧ r.2.2.length < dataLimit k)
    (hI : HdrInv P cs H out post) (hn : ∀ k, H (numPos k) [] = h1 (numPos k) []) :
    ∃ H' out', writeSegs P E IO cs k 0 ss (H, out) = .ok (rs.map (·.1), H', out') ∧
      HdrInv P cs H' out' (post ++ rs.flatMap fun r => r.2.1 ++ r.2.2) ∧
      ∀ k, H' (numPos k) [] = h1 (numPos k) [] := by
  have hp : ∀ i : Nat, i < c → (∃ ch ∈ cs, ch.pos = lenPos k ∧ ch.key = [(i : Int)]) ∧
      ∃ ch ∈ cs, ch.pos = dataPos k ∧ ch.key = [(i : Int)] := fun i hi =>
    ⟨chunk_loop (lenField k) hw hcnt hi, chunk_loop (dataField k) hw hcnt hi⟩
  have hE := h.and_get hl
  simp only [subLimit_eq, dataLimit_eq] at hE
  obtain ⟨⟨ss', H', out'⟩, hr⟩ := writeSegs_succ hp hE hI ((hn k).trans hcnt)
    (i := 0) (by omega)
  obtain ⟨rs', r1, r2, r3, r4, r5⟩ := writeSegs_ok P E IO hI hr
  have : rs' = rs := by
    clear r2 r3 r4 r5 hr hE hl hss
    induction h generalizing rs' with
    | nil => cases r1; rfl
    | cons g1 g2 ih =>
      cases r1 with
      | cons q1 q2 =>
        rw [g1] at q1
        injection q1 with q1
        rw [q1, ih _ q2]
  subst this
  subst r2
  refine ⟨H', out', hr, r3, fun k' => ?_⟩
  rw [r5 _ _ (Or.inr fun j _ => by simp), hn]

/-- C70.  Once a file is prepared, writing it succeeds exactly when the header and every segment
can be written by themselves, and the length of the header, the subheader and data lengths of
every segment of the file, and the total length all fit their header fields. -/
theorem C70_writes_iff {f : NFile P.F IO.D} {h1 : Store P.F}
    {segs : SegKind → List (Seg P.F IO.D)} (hp : prepareFile P IO f = .ok (h1, segs)) :
    (∃ r, writeFile P E IO f = .ok r) ↔ ∃ cs res, AllFits P E IO h1 segs cs res := by
  have plan := prepareFile_plan hp
  constructor
  · rintro ⟨⟨f', out⟩, hw⟩
    obtain ⟨r⟩ := writeFile_run P E IO hw
    have hpr : prepareFile P IO f = .ok (r.h1, r.segs1) := by
      unfold prepareFile
      simp only [r.drop0, r.prepH, r.prepI, r.prepG, r.prepT, r.nums, bind, Except.bind, pure,
        Except.pure]
      congr 2
      funext k
      cases k <;> first | rfl | exact r.segsR.symm
    rw [hp] at hpr
    injection hpr with hpr
    injection hpr with e1 e2
    subst e1 e2
    have hpres : ∀ n key, (∃ o, locOf n key 0 r.cs = some o) →
        ∃ ch ∈ r.cs', ch.pos = n ∧ ch.key = key := by
      rintro n key ⟨o, ho⟩
      rw [← locOf_slots 0 r.slots] at ho
      exact locOf_some ho
    refine ⟨r.cs, r.res, r.chunks, r.each, ?_, ?_, ?_⟩
    · intro k i s x hs hx hl
      obtain ⟨l1, l2⟩ := r.locs k i s hs hl
      obtain ⟨v1, v2⟩ := r.lens k i s x hs hx hl
      obtain ⟨f1, z1⟩ := len_sized k
      obtain ⟨f2, z2⟩ := data_sized k
      rw [subLimit_eq, dataLimit_eq]
      exact ⟨fits_of_written z1 r.chunks' (hpres _ _ l1) v1,
        fits_of_written z2 r.chunks' (hpres _ _ l2) v2⟩
    · obtain ⟨f1, z1⟩ := hl_sized
      rw [← slots_length r.slots]
      exact fits_of_written z1 r.chunks' (hpres _ _ r.locHl) r.hl
    · obtain ⟨f1, z1⟩ := fl_sized
      have := fits_of_written z1 r.chunks' (hpres _ _ r.locFl) r.fl
      rw [← slots_length r.slots, ← List.length_append, ← r.out_eq]
      exact this
  · rintro ⟨cs, res, a⟩
    have I0 : HdrInv P cs h1 (chunkBytes cs) [] := ⟨cs, a.header, rfl, by simp⟩
    obtain ⟨fh, zh⟩ := hl_sized
    obtain ⟨ff, zf⟩ := fl_sized
    have pres : ∀ {n w : Nat} {fi : FInfo}, Sized n w [] fi →
        ∃ ch ∈ cs, ch.pos = n ∧ ch.key = [] := fun {n w fi} z =>
      chunk_scalar t_file_header_causal a.header z.at_ z.shapes
        (evalCond_none P (plainInt_spec z.int).2.2.2.2.2 _ _)
    obtain ⟨o2, e7, _⟩ := updateHeader_succ hlField.res zh hl_unref I0 (pres zh)
      (check_scalar zh _) (v := (chunkBytes cs).length) a.headerLength
    obtain ⟨_, I2⟩ := updateHeader_ok P hlField.res zh.at_ (plainInt_spec zh.int).2.2.2.1 hl_unref
      I0 e7
    have n2 : ∀ k, (h1.set hlPos [] ⟨.val (.int ((chunkBytes cs).length : Nat)), none⟩) (numPos k) [] =
        h1 (numPos k) [] := by
      intro k
      unfold Store.set
      rw [if_neg]
      rintro ⟨h, _⟩
      revert h
      cases k <;> decide
    have step := fun {H : Store P.F} {out post : Bytes} (k : SegKind)
        (hI : HdrInv P cs H out post) (hn : ∀ k, H (numPos k) [] = h1 (numPos k) []) =>
      writeSegs_step (E := E) (IO := IO) a.header (plan.count k) rfl (a.segments k)
        (a.lengths k) hI hn
    obtain ⟨h3, o3, e8, I3, n3⟩ := step .image I2 n2
    obtain ⟨h4, o4, e9, I4, n4⟩ := step .graphic I3 n3
    obtain ⟨h5, o5, e10, I5, n5⟩ := step .text I4 n4
    obtain ⟨h6, o6, e11, I6, n6⟩ := step .des I5 n5
    obtain ⟨h7, o7, e12, I7, n7⟩ := step .res I6 n6
    have hlen : o7.length < 10 ^ 12 := by
      obtain ⟨cs7, _, c2, c3⟩ := I7.written
      have := a.fileLength
      rw [c3, List.length_append, slots_length c2]
      simp only [partsBytes, SegKind.order, List.flatMap_cons, List.flatMap_nil, List.flatMap_map,
        List.append_nil, List.length_append] at this
      simp only [List.nil_append, List.append_assoc, List.length_append]
      omega
    obtain ⟨o8, e13, _⟩ := updateHeader_succ flField.res zf fl_unref I7 (pres zf)
      (check_scalar zf _) (v := o7.length) hlen
    have hdrop : ∃ des6, dropOverflow P IO ((res .des).map (·.1)) = .ok des6 := by
      obtain ⟨des0, ov, d1, d2, d3⟩ := plan.des
      have hE := a.segments .des
      rw [d2] at hE
      obtain ⟨b1, b2, q, q1, q2⟩ := hE.split
      rw [q, List.map_append]
      refine ⟨_, dropOverflow_all P IO ?_ ?_⟩
      · intro s hs
        obtain ⟨x, x1, rfl⟩ := List.mem_map.mp hs
        obtain ⟨s0, y1, y2⟩ := q1.mem_right x1
        rw [segBytes_desid P E IO y2]
        exact (dropOverflow_ok P IO d1).2 s0 y1
      · intro s hs
        obtain ⟨x, x1, rfl⟩ := List.mem_map.mp hs
        obtain ⟨s0, y1, y2⟩ := q2.mem_right x1
        rw [segBytes_desid P E IO y2]
        obtain ⟨_, _, _, _, hm⟩ := (d3 s0 y1).made
        exact overflowSeg_desid P IO hm
    obtain ⟨des6, e14⟩ := hdrop
    have hh : writeFile P E IO f = writePrepared P E IO f.tres h1 segs := by
      rw [writeFile_parts, hp]
      rfl
    rw [hh]
    unfold writePrepared
    simp only [a.header, e7, e8, e9, e10, e11, e12, e13, e14, bind, Except.bind, pure, Except.pure]
    exact ⟨_, rfl⟩

/-- C70.  When preparing fails, writing fails with the same exception. -/
theorem C70_prepare_raises {f : NFile P.F IO.D} {e : Err} (h : prepareFile P IO f = .error e) :
    writeFile P E IO f = .error e := by
  rw [writeFile_parts, h]
  rfl

/-- A segment of the file that is not an overflow segment is among those prepared. -/
theorem Plan.mem {f : NFile P.F IO.D} {h1 : Store P.F} {segs : SegKind → List (Seg P.F IO.D)}
    (plan : Plan f h1 segs) {k : SegKind} {s : Seg P.F IO.D} (hs : s ∈ f.segs k)
    (hk : k = .des → getAttr P Tables.t_des_subheader s.sub (n!"desid") [] ≠
      .ok (.str "TRE_OVERFLOW".toList)) :
    ∃ s' ∈ segs k, s'.linked = s.linked ∧ s'.data = s.data := by
  by_cases hd : k = .des
  · subst hd
    obtain ⟨des0, ov, d1, d2, _⟩ := plan.des
    refine ⟨s, ?_, rfl, rfl⟩
    rw [d2]
    exact List.mem_append_left _ (dropOverflow_keeps P d1 s hs (hk rfl))
  · obtain ⟨s', h1, h2⟩ := (plan.others k hd).mem_left hs
    exact ⟨s', h1, h2.linked, h2.data⟩

/-- C70.  A file with a segment whose data is too long for the length field of its kind (a text of
100000 bytes, a graphic of a million, a DES of 10⁹, an image of 10¹⁰) is not written with a wrong
length: writing raises. -/
theorem C70_data_too_long {f : NFile P.F IO.D} {k : SegKind} {s : Seg P.F IO.D}
    (hs : s ∈ f.segs k) (hl : s.linked = true)
    (hk : k = .des → getAttr P Tables.t_des_subheader s.sub (n!"desid") [] ≠
      .ok (.str "TRE_OVERFLOW".toList))
    {b : Bytes} (hb : writeData P IO s.data = .ok b) (hlong : dataLimit k ≤ b.length) :
    ∃ e, writeFile P E IO f = .error e := by
  cases hw : writeFile P E IO f with
  | error e => exact ⟨e, rfl⟩
  | ok r =>
    exfalso
    cases hp : prepareFile P IO f with
    | error e => rw [C70_prepare_raises hp] at hw; cases hw
    | ok p =>
      obtain ⟨h1, segs⟩ := p
      obtain ⟨cs, res, a⟩ := (C70_writes_iff hp).mp ⟨r, hw⟩
      obtain ⟨s', m1, m2, m3⟩ := (prepareFile_plan hp).mem hs hk
      obtain ⟨i, hi⟩ := List.mem_iff_getElem?.mp m1
      obtain ⟨x, hx⟩ : ∃ x, (res k)[i]? = some x := by
        have h1 := lt_of_getElem? hi
        rw [(a.segments k).length] at h1
        exact ⟨_, List.getElem?_eq_getElem h1⟩
      have hsx := Each.get (a.segments k) i _ _ hi hx
      obtain ⟨_, _, _, _, h4, _⟩ := segBytes_ok P E IO hsx
      have := (a.lengths k i s' x hi hx (m2.trans hl)).2
      rw [m3, hb] at h4
      injection h4 with h4
      rw [h4] at hlong
      omega

/-- C70.  A file with more than 999 segments of one kind is not written. -/
theorem C70_too_many {f : NFile P.F IO.D} {k : SegKind} (hk : k ≠ .des)
    (hmany : 999 < (f.segs k).length) : ∃ e, writeFile P E IO f = .error e := by
  cases hw : writeFile P E IO f with
  | error e => exact ⟨e, rfl⟩
  | ok r =>
    exfalso
    cases hp : prepareFile P IO f with
    | error e => rw [C70_prepare_raises hp] at hw; cases hw
    | ok p =>
      obtain ⟨h1, segs⟩ := p
      obtain ⟨cs, res, a⟩ := (C70_writes_iff hp).mp ⟨r, hw⟩
      have plan := prepareFile_plan hp
      obtain ⟨fi, z⟩ := num_sized k
      have := fits_of_written z a.header
        (chunk_scalar t_file_header_causal a.header z.at_ z.shapes
          (evalCond_none P (plainInt_spec z.int).2.2.2.2.2 _ _)) (plan.count k)
      rw [← (plan.others k hk).length] at this
      omega

/-- Removing overflow segments removes no other segment. -/
theorem dropOverflow_length {l ss : List (Seg P.F IO.D)} (hs : l.Sublist ss) :
    ∀ {ss'}, dropOverflow P IO ss = .ok ss' →
    (∀ s ∈ l, getAttr P Tables.t_des_subheader s.sub (n!"desid") [] ≠
      .ok (.str "TRE_OVERFLOW".toList)) → l.length ≤ ss'.length := by
  induction hs with
  | slnil => intro ss' _ _; simp
  | @cons l ss s _ ih =>
    intro ss' h hl
    unfold dropOverflow at h
    split at h
    · cases h
    · split at h
      · cases h
      · rename_i id hid _ ss1 h1
        have := ih h1 hl
        injection h with h
        subst h
        split
        · exact this
        · simp only [List.length_cons]; omega
    · cases h
  | @cons_cons l ss s _ ih =>
    intro ss' h hl
    unfold dropOverflow at h
    split at h
    · cases h
    · split at h
      · cases h
      · rename_i id hid _ ss1 h1
        have := ih h1 fun x hx => hl x (List.mem_cons_of_mem _ hx)
        injection h with h
        subst h
        split
        · rename_i e
          exact absurd (by rw [hid, e]) (hl s (by simp))
        · simp only [List.length_cons]; omega
    · cases h

/-- C70.  A file with more than 999 DES segments, not counting TRE overflow (which is made anew), is
not written. -/
theorem C70_too_many_des {f : NFile P.F IO.D} {l : List (Seg P.F IO.D)} (hl : l.Sublist f.des)
    (hno : ∀ s ∈ l, getAttr P Tables.t_des_subheader s.sub (n!"desid") [] ≠
      .ok (.str "TRE_OVERFLOW".toList))
    (hmany : 999 < l.length) : ∃ e, writeFile P E IO f = .error e := by
  cases hw : writeFile P E IO f with
  | error e => exact ⟨e, rfl⟩
  | ok r =>
    exfalso
    cases hp : prepareFile P IO f with
    | error e => rw [C70_prepare_raises hp] at hw; cases hw
    | ok p =>
      obtain ⟨h1, segs⟩ := p
      obtain ⟨cs, res, a⟩ := (C70_writes_iff hp).mp ⟨r, hw⟩
      have plan := prepareFile_plan hp
      obtain ⟨fi, z⟩ := num_sized .des
      have := fits_of_written z a.header
        (chunk_scalar t_file_header_causal a.header z.at_ z.shapes
          (evalCond_none P (plainInt_spec z.int).2.2.2.2.2 _ _)) (plan.count .des)
      obtain ⟨des0, ov, hd, e, _⟩ := plan.des
      have h2 := dropOverflow_length hl hd hno
      rw [e, List.length_append] at this
      omega

/-! ### Examples -/

/-- The example file is prepared and written, so all its parts fit. -/
example : ∃ h1 segs cs res, prepareFile P0 exIO exFile = .ok (h1, segs) ∧
    AllFits P0 exEnv exIO h1 segs cs res ∧ (segs .text).length = 1 ∧ (segs .des).length = 1 := by
  have hw : ∃ r, writeFile P0 exEnv exIO exFile = .ok r := by
    cases h : writeFile P0 exEnv exIO exFile with
    | ok r => exact ⟨r, rfl⟩
    | error e =>
      have : (writeFile P0 exEnv exIO exFile).toOption.isSome = true := by decide +kernel
      rw [h] at this
      cases this
  have hlen : ((prepareFile P0 exIO exFile).toOption.map fun p =>
      ((p.2 .text).length, (p.2 .des).length)) = some (1, 1) := by decide +kernel
  cases hp : prepareFile P0 exIO exFile with
  | error e => rw [hp] at hlen; cases hlen
  | ok p =>
    obtain ⟨h1, segs⟩ := p
    obtain ⟨cs, res, a⟩ := (C70_writes_iff hp).mp hw
    rw [hp] at hlen
    have hlen : ((segs .text).length, (segs .des).length) = (1, 1) := Option.some.inj hlen
    injection hlen with l1 l2
    exact ⟨h1, segs, cs, res, rfl, a, l1, l2⟩

/-- A text one byte too long. -/
def exLongSeg : Seg P0.F exIO.D :=
  { linked := true, sub := Store.empty, data := .other (List.replicate 100000 65) }

def exLongText : NFile P0.F exIO.D := { header := Store.empty, tres := [], text := [exLongSeg] }

example : ∃ e, writeFile P0 exEnv exIO exLongText = .error e :=
  C70_data_too_long (k := .text) (s := exLongSeg) (b := List.replicate 100000 65)
    (List.mem_singleton.mpr rfl) rfl (by intro h; cases h) rfl
    (by rw [List.length_replicate]; exact Nat.le_refl _)

/-- One image too many. -/
def exManyImages : NFile P0.F exIO.D :=
  { header := Store.empty, tres := []
    image := List.replicate 1000 { linked := true, sub := Store.empty, data := .other [1] } }

example : ∃ e, writeFile P0 exEnv exIO exManyImages = .error e :=
  C70_too_many (k := .image) (by decide) (by
    show 999 < (List.replicate 1000 _).length
    rw [List.length_replicate]; omega)

example : ∃ e, writeFile P0 exEnv exIO { exFile with
    des := List.replicate 1000 { linked := true, sub := Store.empty, data := .other [1] } } =
      .error e :=
  C70_too_many_des (List.Sublist.refl _) (by
    intro s hs
    rw [(List.mem_replicate.mp hs).2]
    decide +kernel) (by
    show 999 < (List.replicate 1000 _).length
    rw [List.length_replicate]; omega)

end Verif
