import Verif.Owner
import Verif.WriteOk

/- Writing one of several files, compared with writing it alone. -/

namespace Verif.Owner

open Verif

variable {P : PyFloat} {IO : DataIO P.F}

/-- Two computations go the same way. -/
def Lock {α β : Type} (R : α → β → Prop) : Except Err α → Except Err β → Prop
  | .ok a, .ok b => R a b
  | .error e, .error e' => e = e'
  | _, _ => False

theorem Lock.bind {α β γ δ : Type} {R : α → β → Prop} {S : γ → δ → Prop} {x : Except Err α}
    {y : Except Err β} {f : α → Except Err γ} {g : β → Except Err δ} (h : Lock R x y)
    (hf : ∀ a b, x = .ok a → y = .ok b → R a b → Lock S (f a) (g b)) :
    Lock S (x >>= f) (y >>= g) := by
  cases x <;> cases y
  · exact h
  · exact h.elim
  · exact h.elim
  · exact hf _ _ rfl rfl h

theorem Lock.imp {α β : Type} {R S : α → β → Prop} {x : Except Err α} {y : Except Err β}
    (h : Lock R x y) (hi : ∀ a b, R a b → S a b) : Lock S x y := by
  cases x <;> cases y
  · exact h
  · exact h.elim
  · exact h.elim
  · exact hi _ _ h

/-- The same computation on both sides. -/
theorem Lock.same {α : Type} (x : Except Err α) : Lock Eq x x := by
  cases x
  · exact (rfl : _ = _)
  · exact (rfl : _ = _)

theorem upd_same {α : Type} (m : Nat → Option α) (i : Nat) (a : Option α) : upd m i a i = a := by
  unfold upd; rw [if_pos rfl]

theorem upd_other {α : Type} (m : Nat → Option α) {i j : Nat} (a : Option α) (h : j ≠ i) :
    upd m i a j = m j := by
  unfold upd; rw [if_neg h]

/-- Every segment object has a number below `nsegs`. -/
def Bounded (w : World P IO) : Prop := ∀ id s, w.segs id = some s → id < w.nsegs

/-- What a part of writing the file `f` leaves alone. -/
structure Frame (f : Nat) (w w' : World P IO) (touched : List Nat) : Prop where
  kept : ∀ id, id < w.nsegs → id ∉ touched → w'.segs id = w.segs id
  owners : ∀ id s, w.segs id = some s → ∃ s', w'.segs id = some s' ∧ s'.owner = s.owner
  bounded : Bounded w → Bounded w'
  grow : w.nsegs ≤ w'.nsegs
  alive : ∀ g, (w'.files g).isSome = (w.files g).isSome
  others : ∀ g, g ≠ f → w'.files g = w.files g
  fresh : ∀ id s, w'.segs id = some s → w.segs id = none → s.owner = some f
  nfiles : w'.nfiles = w.nfiles

theorem Frame.refl (f : Nat) (w : World P IO) (t : List Nat) : Frame f w w t where
  kept := fun _ _ _ => rfl
  owners := fun _ s h => ⟨s, h, rfl⟩
  bounded := id
  grow := Nat.le_refl _
  alive := fun _ => rfl
  others := fun _ _ => rfl
  fresh := fun _ _ h h' => by rw [h'] at h; cases h
  nfiles := rfl

theorem Frame.mono {f : Nat} {w w' : World P IO} {t t' : List Nat} (h : Frame f w w' t)
    (hs : ∀ x ∈ t, x ∈ t') : Frame f w w' t' :=
  { h with kept := fun i hi ht => h.kept i hi fun hh => ht (hs _ hh) }

theorem Frame.trans {f : Nat} {w1 w2 w3 : World P IO} {t : List Nat} (h : Frame f w1 w2 t)
    (h' : Frame f w2 w3 t) : Frame f w1 w3 t where
  kept := fun i hi ht => (h'.kept i (Nat.lt_of_lt_of_le hi h.grow) ht).trans (h.kept i hi ht)
  owners := fun i s hs => by
    obtain ⟨s1, a, b⟩ := h.owners i s hs
    obtain ⟨s2, c, d⟩ := h'.owners i s1 a
    exact ⟨s2, c, d.trans b⟩
  bounded := h'.bounded ∘ h.bounded
  grow := Nat.le_trans h.grow h'.grow
  alive := fun g => (h'.alive g).trans (h.alive g)
  others := fun g hg => (h'.others g hg).trans (h.others g hg)
  fresh := fun i s hs hn => by
    cases h2 : w2.segs i with
    | some s1 =>
      obtain ⟨s2, c, d⟩ := h'.owners i s1 h2
      rw [hs] at c
      injection c with c
      subst c
      rw [d]
      exact h.fresh i s1 h2 hn
    | none => exact h'.fresh i s hs h2
  nfiles := h'.nfiles.trans h.nfiles

/-! ### Segments as seen in a world -/

theorem isSome_bind_congr {α β : Type} (o : Option α) {m m' : α → Option β}
    (h : ∀ a, (m' a).isSome = (m a).isSome) : (o.bind m').isSome = (o.bind m).isSome := by
  cases o with
  | none => rfl
  | some a => exact h a

theorem view_alive {w w' : World P IO} (h : ∀ g, (w'.files g).isSome = (w.files g).isSome)
    (s : OSeg P IO) : w'.view s = w.view s := by
  unfold World.view World.ownerOf
  rw [isSome_bind_congr s.owner h]

/-- The list of segments seen through a list of objects. -/
def Views (w : World P IO) (ids : List Nat) (ss : List (Seg P.F IO.D)) : Prop :=
  Each (fun id s => ∃ o, w.segs id = some o ∧ s = w.view o) ids ss

theorem Views.mono {w w' : World P IO} {ids : List Nat} {ss : List (Seg P.F IO.D)}
    (h : Views w ids ss) (ha : ∀ g, (w'.files g).isSome = (w.files g).isSome)
    (hk : ∀ id ∈ ids, w'.segs id = w.segs id) : Views w' ids ss := by
  unfold Views at *
  induction h with
  | nil => exact .nil
  | cons h _ ih =>
    obtain ⟨o, h1, h2⟩ := h
    refine .cons ⟨o, (hk _ (by simp)).trans h1, h2.trans (view_alive ha o).symm⟩
      (ih fun id hid => hk id (by simp [hid]))

theorem Views.lt {w : World P IO} (hb : Bounded w) {ids : List Nat} {ss : List (Seg P.F IO.D)}
    (h : Views w ids ss) : ∀ id ∈ ids, id < w.nsegs := by
  unfold Views at h
  induction h with
  | nil => intro id hid; cases hid
  | cons h _ ih =>
    intro id hid
    rcases List.mem_cons.mp hid with rfl | hid
    · obtain ⟨o, h1, _⟩ := h; exact hb _ _ h1
    · exact ih id hid

theorem Views.frame {f : Nat} {w w' : World P IO} {ids t : List Nat} {ss : List (Seg P.F IO.D)}
    (h : Views w ids ss) (hb : Bounded w) (hf : Frame f w w' t) (hd : ∀ id ∈ ids, id ∉ t) :
    Views w' ids ss :=
  h.mono hf.alive fun id hid => hf.kept id (h.lt hb id hid) (hd id hid)

/-- No segment of the list refers to another file that is alive. -/
def Own (w : World P IO) (f : Nat) (ids : List Nat) : Prop :=
  ∀ id ∈ ids, ∀ s, w.segs id = some s → ∀ g, s.owner = some g → (w.files g).isSome = true → g = f

theorem Own.frame {f : Nat} {w w' : World P IO} {ids t : List Nat} (h : Own w f ids)
    (hf : Frame f w w' t) : Own w' f ids := by
  intro id hid s' hs' g hg hal
  rw [hf.alive] at hal
  cases hs : w.segs id with
  | none =>
    have := hf.fresh id s' hs' hs
    rw [hg] at this
    injection this
  | some s =>
    obtain ⟨s1, a, b⟩ := hf.owners id s hs
    rw [hs'] at a
    injection a with a
    subst a
    exact h id hid s hs g (b ▸ hg) hal

theorem frame_setSeg (f : Nat) {w : World P IO} {id : Nat} {s : OSeg P IO}
    (hs : w.segs id = some s) (x : Seg P.F IO.D) :
    Frame f w (w.setSeg id { s with seg := x }) [id] where
  kept := fun i _ hi => upd_other _ _ (by simpa using hi)
  owners := fun i t ht => by
    by_cases h : i = id
    · subst h
      rw [hs] at ht
      injection ht with ht
      subst ht
      exact ⟨_, upd_same _ _ _, rfl⟩
    · exact ⟨t, (upd_other _ _ h).trans ht, rfl⟩
  bounded := fun hb i t ht => by
    by_cases h : i = id
    · subst h; exact hb _ _ hs
    · exact hb i t ((upd_other _ _ h).symm.trans ht)
  grow := Nat.le_refl _
  alive := fun _ => rfl
  others := fun _ _ => rfl
  fresh := fun i t ht hn => by
    by_cases h : i = id
    · subst h; rw [hs] at hn; cases hn
    · rw [show (w.setSeg id { s with seg := x }).segs i = w.segs i from upd_other _ _ h, hn] at ht
      cases ht
  nfiles := rfl

theorem frame_addSeg (f : Nat) {w : World P IO} (hb : Bounded w) (x : Seg P.F IO.D) (t : List Nat) :
    Frame f w (w.addSeg ⟨some f, x⟩) t where
  kept := fun i hi _ => upd_other _ _ (by omega)
  owners := fun i s hs => ⟨s, (upd_other _ _ (by have := hb i s hs; omega)).trans hs, rfl⟩
  bounded := fun hb i t ht => by
    by_cases h : i = w.nsegs
    · subst h; exact Nat.lt_succ_self _
    · exact Nat.lt_succ_of_lt (hb i t ((upd_other _ _ h).symm.trans ht))
  grow := Nat.le_succ _
  alive := fun _ => rfl
  others := fun _ _ => rfl
  fresh := fun i s hs hn => by
    by_cases h : i = w.nsegs
    · subst h
      rw [show (w.addSeg ⟨some f, x⟩).segs w.nsegs = some ⟨some f, x⟩ from upd_same _ _ _] at hs
      injection hs with hs
      subst hs
      rfl
    · rw [show (w.addSeg ⟨some f, x⟩).segs i = w.segs i from upd_other _ _ h, hn] at hs
      cases hs
  nfiles := rfl

theorem frame_setFile {f : Nat} {w : World P IO} {F F' : OFile P} (h : w.files f = some F)
    (t : List Nat) : Frame f w (w.setFile f F') t where
  kept := fun _ _ _ => rfl
  owners := fun _ s h => ⟨s, h, rfl⟩
  bounded := id
  grow := Nat.le_refl _
  alive := fun g => by
    by_cases hg : g = f
    · subst hg
      rw [show (w.setFile g F').files g = some F' from upd_same _ _ _, h]
      rfl
    · rw [show (w.setFile f F').files g = w.files g from upd_other _ _ hg]
  others := fun g hg => upd_other _ _ hg
  fresh := fun _ _ h h' => by rw [show (w.setFile f F').segs = w.segs from rfl, h'] at h; cases h
  nfiles := rfl

/-! ### Dropping overflow segments and placing TREs -/

theorem dropIds_lock {w : World P IO} {ids : List Nat} {ss : List (Seg P.F IO.D)}
    (h : Views w ids ss) :
    Lock (fun ids' ss' => Views w ids' ss' ∧ ids'.Sublist ids) (dropIds w ids)
      (dropOverflow P IO ss) := by
  unfold Views at h
  induction h with
  | nil => exact ⟨.nil, .slnil⟩
  | @cons id ids s ss hh hrest ih =>
    obtain ⟨o, h1, h2⟩ := hh
    unfold dropIds dropOverflow
    have e : s.sub = o.seg.sub := by rw [h2]; rfl
    simp only [h1, e]
    cases hg : getAttr P Tables.t_des_subheader o.seg.sub (n!"desid") [] with
    | error e => exact rfl
    | ok v =>
      cases v with
      | str t =>
        simp only
        revert ih
        cases dropIds w ids <;> cases dropOverflow P IO ss <;> intro ih
        · exact ih
        · exact ih.elim
        · exact ih.elim
        · obtain ⟨i1, i2⟩ := ih
          simp only
          split
          · exact ⟨i1, i2.cons _⟩
          · exact ⟨.cons ⟨o, h1, h2⟩ i1, i2.cons_cons _⟩
      | none => exact rfl
      | int _ => exact rfl
      | bytes _ => exact rfl
      | flt _ => exact rfl

theorem prepareHeader_eq (d : Desc) (areas : List Area) (pre : Name) (ofl : Str) (i : Nat)
    (tres : List (Tre P.F)) (S : Store P.F) (des : List (Seg P.F IO.D)) :
    prepareHeader P IO d areas pre ofl i tres S des =
      match prepareNew (IO := IO) d areas pre ofl i tres S des.length with
      | .error e => .error e
      | .ok (S', o) => .ok (S', des ++ o.toList) := by
  unfold prepareHeader prepareNew
  cases prepareTreWrite P d areas des.length tres S with
  | error e => rfl
  | ok r =>
    obtain ⟨S', o⟩ := r
    cases o with
    | none => simp
    | some b =>
      simp only
      cases getSecurity P d S' pre with
      | error e => rfl
      | ok sec =>
        simp only
        cases overflowSeg P IO ofl i sec b <;> rfl

theorem prepareNew_linked {d : Desc} {areas : List Area} {pre : Name} {ofl : Str} {i : Nat}
    {tres : List (Tre P.F)} {S S' : Store P.F} {n : Nat} {s : Seg P.F IO.D}
    (h : prepareNew (IO := IO) d areas pre ofl i tres S n = .ok (S', some s)) : s.linked = true := by
  unfold prepareNew at h
  split at h
  · cases h
  · cases h
  · split at h
    · cases h
    · split at h
      · cases h
      · rename_i hs
        injection h with h
        injection h with _ h
        injection h with h
        subst h
        exact (overflowSeg_is P IO hs).1.linked

/-- What a new DES segment adds. -/
theorem addDes_views {f : Nat} {w : World P IO} (hb : Bounded w) (hf : (w.files f).isSome = true)
    {des : List Nat} {ds : List (Seg P.F IO.D)} (hv : Views w des ds)
    {o : Option (Seg P.F IO.D)} (ho : ∀ s, o = some s → s.linked = true) (t : List Nat) :
    Views (addDes f w des o).1 (addDes f w des o).2 (ds ++ o.toList) ∧
    Frame f w (addDes f w des o).1 t ∧ (addDes f w des o).1.files = w.files ∧
    ∃ new, (addDes f w des o).2 = des ++ new ∧ new.Nodup ∧ ∀ id ∈ new, w.nsegs ≤ id := by
  cases o with
  | none =>
    refine ⟨?_, Frame.refl _ _ _, rfl, [], ?_, List.nodup_nil, by simp⟩ <;> simp [addDes, hv]
  | some s =>
    have fr := frame_addSeg f hb s t
    refine ⟨Each.append (hv.mono fr.alive fun id hid => upd_other _ _ ?_) (.cons ?_ .nil), fr, rfl,
      [w.nsegs], rfl, by simp, by simp⟩
    · have := hv.lt hb id hid; omega
    · refine ⟨⟨some f, s⟩, upd_same _ _ _, ?_⟩
      unfold World.view World.ownerOf
      have : ((addDes f w des (some s)).1.files f).isSome = true := hf
      simp only [Option.bind_some]
      have hl := ho s rfl
      cases s
      simp only at hl
      subst hl
      exact congrArg (fun b => Seg.mk b _ _ _ _) this.symm

/-- The invariant of `prepareIds`. -/
structure PrepRel (f : Nat) (w : World P IO) (ids des : List Nat)
    (a : World P IO × List Nat) (b : List (Seg P.F IO.D) × List (Seg P.F IO.D)) : Prop where
  views : Views a.1 ids b.1
  desViews : Views a.1 a.2 b.2
  frame : Frame f w a.1 ids
  files : a.1.files = w.files
  new : ∃ new, a.2 = des ++ new ∧ new.Nodup ∧ ∀ id ∈ new, w.nsegs ≤ id

theorem prepareIds_lock {f : Nat} {k : SegKind} {ids : List Nat} : ∀ {i : Nat} {w : World P IO}
    {des : List Nat} {ss ds : List (Seg P.F IO.D)}, Bounded w → (w.files f).isSome = true →
    Views w ids ss → Views w des ds → ids.Nodup → (∀ id ∈ ids, id ∉ des) →
    Lock (PrepRel f w ids des) (prepareIds f k i ids (w, des)) (prepareSegs P IO k i ss ds) := by
  induction ids with
  | nil =>
    intro i w des ss ds hb hf hv hd hn hx
    cases hv
    unfold prepareIds prepareSegs
    exact ⟨.nil, hd, Frame.refl _ _ _, rfl, [], by simp, List.nodup_nil, by simp⟩
  | cons id ids ih =>
    intro i w des ss ds hb hf hv hd hn hx
    have hv' := hv
    cases hv with
    | @cons _ _ s ss hh hrest =>
    obtain ⟨o, h1, h2⟩ := hh
    unfold prepareIds prepareSegs
    cases ha : k.areas with
    | none =>
      exact ⟨hv', hd, Frame.refl _ _ _, rfl, [], by simp, List.nodup_nil, by simp⟩
    | some areas =>
      have e1 : s.sub = o.seg.sub := by rw [h2]; rfl
      have e2 : s.tres = o.seg.tres := by rw [h2]; rfl
      simp only [h1, prepareHeader_eq, e1, e2, hd.length]
      cases hp : prepareNew (IO := IO) k.desc areas k.secPrefix k.oflName i o.seg.tres o.seg.sub
          ds.length with
      | error e => exact rfl
      | ok r =>
        obtain ⟨S', x⟩ := r
        simp only
        have hn' := List.nodup_cons.mp hn
        have f1 : Frame f w (w.setSeg id (o.withSub S')) [id] := frame_setSeg f h1 _
        have hb1 := f1.bounded hb
        have v1 : Views (w.setSeg id (o.withSub S')) ids ss :=
          Views.frame hrest hb f1 fun j hj => by
            simp only [List.mem_singleton]
            rintro rfl
            exact hn'.1 hj
        have d1 : Views (w.setSeg id (o.withSub S')) des ds :=
          Views.frame hd hb f1 fun j hj => by
            simp only [List.mem_singleton]
            rintro rfl
            exact hx j (by simp) hj
        obtain ⟨a1, a2, a3, new, a4, a5, a6⟩ := addDes_views (f := f) hb1 hf d1 (o := x)
          (fun s hs => prepareNew_linked (hs ▸ hp)) []
        have v2 := Views.frame v1 hb1 a2 (by simp)
        have hb2 := a2.bounded hb1
        have lt1 := Views.lt hb1 v1
        have := ih (i := i + 1) hb2 (by rw [a3]; exact hf) v2 a1 hn'.2 (by
          intro j hj
          rw [a4, List.mem_append]
          rintro (h | h)
          · exact hx j (by simp [hj]) h
          · have := a6 j h; have := lt1 j hj; omega)
        revert this
        generalize addDes f (w.setSeg id (o.withSub S')) des x = q at *
        obtain ⟨wq, dq⟩ := q
        cases prepareIds f k (i + 1) ids (wq, dq) <;>
          cases prepareSegs P IO k (i + 1) ss (ds ++ x.toList) <;> intro hl
        · exact hl
        · exact hl.elim
        · exact hl.elim
        · rename_i r r'
          obtain ⟨wr, dr⟩ := r
          obtain ⟨sr, er⟩ := r'
          obtain ⟨g1, g2, g3, g4, new', g5, g6, g7⟩ := hl
          simp only at g1 g2 g3 g4 g5 g6 g7 a1 a2 a3 a4 hb2 ⊢
          have hid1 : id < wq.nsegs := Nat.lt_of_lt_of_le (hb _ _ h1) a2.grow
          refine ⟨@Each.cons _ _ _ _ _ _ _ ⟨o.withSub S', ?_, ?_⟩ g1, g2, ?_, ?_, ?_⟩
          · rw [g3.kept id hid1 hn'.1, a2.kept id (hb _ _ h1) (by simp)]
            exact upd_same _ _ _
          · have : ∀ g, (wr.files g).isSome = (w.files g).isSome := fun g => by rw [g4, a3]; rfl
            rw [h2, show (wr, dr).fst.view (o.withSub S') = w.view (o.withSub S') from
              view_alive this _]
            rfl
          · exact ((f1.mono (by simp)).trans (a2.mono (by simp))).trans
              (g3.mono fun x hx => by simp [hx])
          · exact g4.trans a3
          · refine ⟨new ++ new', by rw [g5, a4, List.append_assoc], ?_, ?_⟩
            · refine List.nodup_append.mpr ⟨a5, g6, ?_⟩
              rintro a ha b hb' rfl
              have h3 := g7 a hb'
              have h4 : ∀ x ∈ dq, x < wq.nsegs := Views.lt hb2 a1
              have := h4 a (by rw [a4]; simp [ha])
              omega
            · intro j hj
              rcases List.mem_append.mp hj with h | h
              · exact a6 j h
              · exact Nat.le_trans a2.grow (g7 j h)

/-! ### Updating the header -/

theorem padOver_eq {file : Bytes} {off : Nat} (h : off ≤ file.length) (b : Bytes) :
    padOver file off b = overwrite file off b := by
  unfold padOver overwrite
  rw [show off - file.length = 0 by omega, List.replicate_zero, List.append_nil]

theorem put_end (out b : Bytes) : put ⟨out, out.length⟩ b = ⟨out ++ b, (out ++ b).length⟩ := by
  unfold put
  rw [padOver_eq (Nat.le_refl _)]
  unfold overwrite
  rw [List.take_length, List.drop_eq_nil_of_le (by omega), List.append_nil, List.length_append]

theorem locOf_le {n : Nat} {key : Key} : ∀ {cs : List Chunk} {off o : Nat},
    locOf n key off cs = some o → o ≤ off + (chunkBytes cs).length := by
  intro cs
  induction cs with
  | nil => intro off o h; simp [locOf] at h
  | cons c cs ih =>
    intro off o h
    unfold locOf at h
    have e : (chunkBytes (c :: cs)).length = c.bytes.length + (chunkBytes cs).length := by
      unfold chunkBytes; simp
    rw [e]
    cases hl : locOf n key (off + c.bytes.length) cs with
    | some o' =>
      rw [hl] at h
      simp only [Option.some.injEq] at h
      have := ih hl
      omega
    | none =>
      rw [hl] at h
      simp only at h
      split at h
      · injection h with h; omega
      · cases h

theorem locOf_of_mem {n : Nat} {key : Key} : ∀ {cs : List Chunk} {off : Nat},
    (∃ ch ∈ cs, ch.pos = n ∧ ch.key = key) → ∃ o, locOf n key off cs = some o := by
  intro cs
  induction cs with
  | nil => rintro off ⟨ch, h, _⟩; cases h
  | cons c cs ih =>
    rintro off ⟨ch, h, hp⟩
    unfold locOf
    cases hl : locOf n key (off + c.bytes.length) cs with
    | some o => exact ⟨o, rfl⟩
    | none =>
      simp only
      rcases List.mem_cons.mp h with rfl | h
      · exact ⟨off, if_pos hp⟩
      · obtain ⟨o, ho⟩ := ih (off := off + c.bytes.length) ⟨ch, h, hp⟩
        rw [ho] at hl
        cases hl

theorem HdrInv.same_length {cs : List Chunk} {H H' : Store P.F} {out out' post : Bytes}
    (h : HdrInv P cs H out post) (h' : HdrInv P cs H' out' post) : out'.length = out.length := by
  obtain ⟨c1, _, s1, e1⟩ := h.written
  obtain ⟨c2, _, s2, e2⟩ := h'.written
  rw [e1, e2, List.length_append, List.length_append, slots_length (s2.trans s1.symm)]

theorem HdrInv.loc_le {cs : List Chunk} {H : Store P.F} {out post : Bytes}
    (h : HdrInv P cs H out post) {n : Nat} {key : Key} {o : Nat} (hl : locOf n key 0 cs = some o) :
    o ≤ out.length := by
  obtain ⟨c1, _, s1, e1⟩ := h.written
  have := locOf_le hl
  rw [e1, List.length_append, slots_length s1]
  omega

/-- The file object `f`, its header `H` having been written as `cs`, is being written as `out`. -/
structure Open (f : Nat) (F : OFile P) (cs : List Chunk) (w : World P IO) (H : Store P.F)
    (out post : Bytes) : Prop where
  file : w.files f = some { F with header := H }
  loc : ∀ n key o, locOf n key 0 cs = some o → F.loc n key = some o
  inv : HdrInv P cs H out post

theorem updateFile_lock {f : Nat} {F : OFile P} {cs : List Chunk} {w : World P IO} {H : Store P.F}
    {out post : Bytes} (ho : Open f F cs w H out post) {nm : Name} {n : Nat} {fi : FInfo}
    {key : Key} {v : Nat} (hr : resolve Tables.t_file_header.tab nm = some n)
    (hn : Tables.t_file_header.tab[n]? = some fi) (hk : fi.fd.kind = .plain)
    (hu : Tables.t_file_header.unreferenced n = true) (hl : ∃ o, locOf n key 0 cs = some o) :
    Lock (fun a b => a = (w.setFile f { F with header := b.1 }, ⟨b.2, b.2.length⟩) ∧
        Open f F cs a.1 b.1 b.2 post)
      (updateFile f nm key v (w, ⟨out, out.length⟩)) (updateHeader P cs nm key v (H, out)) := by
  obtain ⟨o, hl⟩ := hl
  have hle := HdrInv.loc_le ho.inv hl
  have hlo := ho.loc _ _ _ hl
  cases hh : updateHeader P cs nm key v (H, out) with
  | ok st =>
    obtain ⟨H', out'⟩ := st
    obtain ⟨_, hI⟩ := updateHeader_ok P hr hn hk hu ho.inv hh
    have hlen := HdrInv.same_length ho.inv hI
    unfold updateHeader updateField at hh
    simp only [hr, hn, hl] at hh
    unfold updateFile
    simp only [ho.file, hr, hn, hlo]
    cases hs : setItem P Tables.t_file_header.tab H n key (.int v) with
    | mk S' e =>
    rw [hs] at hh
    cases e with
    | some e => cases hh
    | none =>
      simp only at hh ⊢
      cases hc : evalCond P (look P Tables.t_file_header.tab S') fi key with
      | error e => rw [hc] at hh; cases hh
      | ok b =>
        rw [hc] at hh
        cases b with
        | false => cases hh
        | true =>
          simp only at hh ⊢
          cases hb : fieldBytes P (look P Tables.t_file_header.tab S') S' fi n key with
          | error e => rw [hb] at hh; cases hh
          | ok b =>
            rw [hb] at hh
            simp only at hh ⊢
            injection hh with hh
            injection hh with e1 e2
            subst e1 e2
            rw [padOver_eq hle]
            refine ⟨?_, upd_same _ _ _, ho.loc, hI⟩
            rw [← hlen]
  | error e =>
    unfold updateHeader updateField at hh
    simp only [hr, hn, hl] at hh
    unfold updateFile
    simp only [ho.file, hr, hn, hlo]
    cases hs : setItem P Tables.t_file_header.tab H n key (.int v) with
    | mk S' e' =>
    rw [hs] at hh
    cases e' with
    | some e' => injection hh
    | none =>
      simp only at hh ⊢
      cases hc : evalCond P (look P Tables.t_file_header.tab S') fi key with
      | error e => rw [hc] at hh; injection hh
      | ok b =>
        rw [hc] at hh
        cases b with
        | false => injection hh
        | true =>
          simp only at hh ⊢
          cases hb : fieldBytes P (look P Tables.t_file_header.tab S') S' fi n key with
          | error e => rw [hb] at hh; injection hh
          | ok b => rw [hb] at hh; cases hh

theorem Open.frame {f : Nat} {F : OFile P} {cs : List Chunk} {w : World P IO} {H : Store P.F}
    {out post : Bytes} (h : Open f F cs w H out post) (F' : OFile P) (t : List Nat) :
    Frame f w (w.setFile f F') t := frame_setFile h.file t

/-! ### Writing segments -/

/-- The user subheader classes do not matter for a segment that is in no file. -/
theorem segBytes_unlinked {k : SegKind} {s : Seg P.F IO.D} (h : s.linked = false) (E E' : Env) :
    segBytes P E IO k s = segBytes P E' IO k s := by
  unfold segBytes checkUser
  rw [h]
  rfl

/-- The length fields of the first `c` segments of kind `k` are in the header written. -/
def LocsUpTo (cs : List Chunk) (k : SegKind) (c : Nat) : Prop :=
  ∀ i : Nat, i < c → (∃ o, locOf (lenPos k) [(i : Int)] 0 cs = some o) ∧
    ∃ o, locOf (dataPos k) [(i : Int)] 0 cs = some o

/-- The invariant of `writeIds`. -/
structure WriteRel (f : Nat) (F : OFile P) (cs : List Chunk) (w : World P IO) (ids : List Nat)
    (a : World P IO × FileH) (b : List (Seg P.F IO.D) × Store P.F × Bytes) : Prop where
  handle : a.2 = ⟨b.2.2, b.2.2.length⟩
  isOpen : ∃ post, Open f F cs a.1 b.2.1 b.2.2 post
  views : Views a.1 ids b.1
  frame : Frame f w a.1 ids

theorem updateOwner_lock {f : Nat} {F : OFile P} {cs : List Chunk} {w : World P IO} {H : Store P.F}
    {out post : Bytes} (ho : Open f F cs w H out post) {k : SegKind} {i : Nat}
    (hl : (∃ o, locOf (lenPos k) [(i : Int)] 0 cs = some o) ∧
      ∃ o, locOf (dataPos k) [(i : Int)] 0 cs = some o)
    {s : OSeg P IO} (hown : ∀ g, s.owner = some g → (w.files g).isSome = true → g = f)
    {lsub ldata : Nat} :
    Lock (fun a b => a.2 = ⟨b.2, b.2.length⟩ ∧ Open f F cs a.1 b.1 b.2 post ∧
        a.1.segs = w.segs ∧ Frame f w a.1 [])
      (updateOwner k i s.owner lsub ldata (w, ⟨out, out.length⟩))
      (updateLengths P cs k i (w.ownerOf s).isSome lsub ldata (H, out)) := by
  unfold updateOwner updateLengths World.ownerOf
  cases hg : s.owner with
  | none => exact ⟨rfl, ho, rfl, Frame.refl _ _ _⟩
  | some g =>
    simp only [Option.bind_some]
    rcases Option.eq_none_or_eq_some (w.files g) with hw | ⟨G, hw⟩
    · simp only [hw]
      exact ⟨rfl, ho, rfl, Frame.refl _ _ _⟩
    · have : g = f := hown g hg (by rw [hw]; rfl)
      subst this
      simp only [hw, Option.isSome_some, if_true]
      obtain ⟨f1, a1, a2, _⟩ := (lenField k).at_
      obtain ⟨f2, b1, b2, _⟩ := (dataField k).at_
      have l1 := updateFile_lock ho (v := lsub) (lenField k).res a1 (plainInt_spec a2).2.2.2.1
        (lenField k).unref hl.1
      revert l1
      cases updateFile g k.lenFields.1 [(i : Int)] lsub (w, ⟨out, out.length⟩) <;>
        cases updateHeader P cs k.lenFields.1 [(i : Int)] lsub (H, out) <;> intro l1
      · exact l1
      · exact l1.elim
      · exact l1.elim
      · rename_i st st'
        obtain ⟨e1, o1⟩ := l1
        obtain ⟨H1, out1⟩ := st'
        subst e1
        simp only at o1 ⊢
        have l2 := updateFile_lock o1 (v := ldata) (dataField k).res b1
          (plainInt_spec b2).2.2.2.1 (dataField k).unref hl.2
        revert l2
        cases updateFile g k.lenFields.2 [(i : Int)] ldata
            (w.setFile g { F with header := H1 }, ⟨out1, out1.length⟩) <;>
          cases updateHeader P cs k.lenFields.2 [(i : Int)] ldata (H1, out1) <;> intro l2
        · exact l2
        · exact l2.elim
        · exact l2.elim
        · obtain ⟨e2, o2⟩ := l2
          subst e2
          exact ⟨rfl, o2, rfl, (ho.frame _ _).trans (o1.frame _ _)⟩

theorem writeIds_lock {f : Nat} {F : OFile P} {cs : List Chunk} {k : SegKind} {ids : List Nat} :
    ∀ {i : Nat} {w : World P IO} {ss : List (Seg P.F IO.D)} {H : Store P.F} {out post : Bytes},
    Bounded w → Open f F cs w H out post → Views w ids ss → Own w f ids → ids.Nodup →
    LocsUpTo cs k (i + ids.length) →
    Lock (WriteRel f F cs w ids) (writeIds k i ids (w, ⟨out, out.length⟩))
      (writeSegs P F.env IO cs k i ss (H, out)) := by
  induction ids with
  | nil =>
    intro i w ss H out post hb ho hv _ _ _
    cases hv
    unfold writeIds writeSegs
    exact ⟨rfl, ⟨_, ho⟩, .nil, Frame.refl _ _ _⟩
  | cons id ids ih =>
    intro i w ss H out post hb ho hv hown hn hl
    cases hv with
    | @cons _ _ s ss hh hrest =>
    obtain ⟨o, h1, h2⟩ := hh
    subst h2
    have hn' := List.nodup_cons.mp hn
    have hown1 := hown id (by simp) o h1
    unfold writeIds writeSegs writeOne
    simp only [h1]
    have hE : segBytes P (((w.ownerOf o).map (·.env)).getD { reg := [] }) IO k (w.view o) =
        segBytes P F.env IO k (w.view o) := by
      cases hg : w.ownerOf o with
      | none => exact segBytes_unlinked (by unfold World.view; rw [hg]; rfl) _ _
      | some G =>
        have : G.env = F.env := by
          unfold World.ownerOf at hg
          cases hgg : o.owner with
          | none => rw [hgg] at hg; cases hg
          | some g =>
            rw [hgg] at hg
            have hg' : w.files g = some G := hg
            have := hown1 g hgg (by rw [hg']; rfl)
            subst this
            rw [ho.file] at hg'
            injection hg' with hg'
            rw [← hg']
        simp only [Option.map_some, Option.getD_some, this]
    rw [hE]
    cases hs : segBytes P F.env IO k (w.view o) with
    | error e => exact rfl
    | ok r =>
      obtain ⟨s', sb, db⟩ := r
      simp only
      have hs' : s'.linked = (w.ownerOf o).isSome := by
        obtain ⟨_, _, hh, _⟩ := segBytes_ok P F.env IO hs
        simp only at hh
        rw [hh]
        rfl
      rw [put_end, put_end, List.append_assoc]
      have f1 : Frame f w (w.setSeg id { o with seg := s' }) [id] := frame_setSeg f h1 _
      have ho1 : Open f F cs (w.setSeg id { o with seg := s' }) H (out ++ (sb ++ db))
          (post ++ (sb ++ db)) := ⟨ho.file, ho.loc, ho.inv.append P _⟩
      have l1 := updateOwner_lock ho1 (k := k) (i := i) (hl i (by simp only [List.length_cons]; omega))
        (s := o) hown1 (lsub := sb.length) (ldata := db.length)
      rw [show (w.setSeg id { o with seg := s' }).ownerOf o = w.ownerOf o from rfl] at l1
      rw [show (w.view o).linked = (w.ownerOf o).isSome from rfl]
      revert l1
      cases updateOwner k i o.owner sb.length db.length
          (w.setSeg id { o with seg := s' }, ⟨out ++ (sb ++ db), (out ++ (sb ++ db)).length⟩) <;>
        cases updateLengths P cs k i (w.ownerOf o).isSome sb.length db.length
          (H, out ++ (sb ++ db)) <;> intro l1
      · exact l1
      · exact l1.elim
      · exact l1.elim
      · rename_i st st'
        obtain ⟨w2, fh2⟩ := st
        obtain ⟨H2, out2⟩ := st'
        obtain ⟨e2, o2, sg2, fr2⟩ := l1
        simp only at e2 o2 sg2 fr2 ⊢
        subst e2
        have fr12 : Frame f w w2 [id] := f1.trans (fr2.mono (by simp))
        have hb2 := fr12.bounded hb
        have v2 : Views w2 ids ss := Views.frame hrest hb fr12 fun j hj => by
          simp only [List.mem_singleton]
          rintro rfl
          exact hn'.1 hj
        have hown2 : Own w2 f ids := Own.frame (fun j hj => hown j (by simp [hj])) fr12
        have l2 := ih (i := i + 1) hb2 o2 v2 hown2 hn'.2 (by
          intro j hj
          exact hl j (by simp only [List.length_cons]; omega))
        revert l2
        cases writeIds k (i + 1) ids (w2, ⟨out2, out2.length⟩) <;>
          cases writeSegs P F.env IO cs k (i + 1) ss (H2, out2) <;> intro l2
        · exact l2
        · exact l2.elim
        · exact l2.elim
        · rename_i r r'
          obtain ⟨w3, fh3⟩ := r
          obtain ⟨ss3, H3, out3⟩ := r'
          obtain ⟨r1, r2, r3, r4⟩ := l2
          simp only at r1 r2 r3 r4 ⊢
          have fr13 : Frame f w w3 (id :: ids) :=
            (fr12.mono (by simp)).trans (r4.mono fun x hx => by simp [hx])
          refine ⟨r1, r2, @Each.cons _ _ _ _ _ _ _ ⟨{ o with seg := s' }, ?_, ?_⟩ r3, fr13⟩
          · rw [r4.kept id (Nat.lt_of_lt_of_le (hb _ _ h1) fr12.grow) hn'.1, sg2]
            exact upd_same _ _ _
          · rw [view_alive (w := w) fr13.alive]
            unfold World.view
            have : w.ownerOf { o with seg := s' } = w.ownerOf o := rfl
            rw [this, ← hs']

/-! ### The whole file -/

/-- The file `f` of the world is the file `N`. -/
structure Shows (w : World P IO) (f : Nat) (F : OFile P) (N : NFile P.F IO.D) : Prop where
  file : w.files f = some F
  header : F.header = N.header
  tres : F.tres = N.tres
  views : ∀ k, Views w (F.ids k) (N.segs k)

/-- No segment is twice in the lists of a file. -/
structure Distinct (F : OFile P) : Prop where
  nodup : ∀ k, (F.ids k).Nodup
  apart : ∀ k k', k ≠ k' → ∀ id ∈ F.ids k, id ∉ F.ids k'

/-- The DES list while the file is written: segments of the file and new ones. -/
structure DesOk (w : World P IO) (F : OFile P) (des : List Nat) : Prop where
  mem : ∀ id ∈ des, id ∈ F.ids .des ∨ w.nsegs ≤ id
  nodup : des.Nodup

/-- What writing one of several files has in common with writing it alone. -/
structure FileRel (f : Nat) (F : OFile P) (w : World P IO) (a : World P IO × Bytes)
    (b : NFile P.F IO.D × Bytes) : Prop where
  bytes : a.2 = b.2
  shows : ∃ F', Shows a.1 f F' b.1 ∧ F'.env = F.env ∧ (∀ k, k ≠ .des → F'.ids k = F.ids k) ∧
    DesOk w F (F'.ids .des) ∧ ∀ k, F'.ref k = if k = .des then some f else F.ref k
  others : ∀ g, g ≠ f → a.1.files g = w.files g
  segs : ∀ id, id < w.nsegs → (∀ k, id ∉ F.ids k) → a.1.segs id = w.segs id
  owners : ∀ id s, w.segs id = some s → ∃ s', a.1.segs id = some s' ∧ s'.owner = s.owner
  bounded : Bounded a.1
  fresh : ∀ id s, a.1.segs id = some s → w.segs id = none → s.owner = some f
  nfiles : a.1.nfiles = w.nfiles

theorem prepare_step {f : Nat} {w : World P IO} {F : OFile P} (hal : (w.files f).isSome = true)
    (hd : Distinct F) (hlt : ∀ k, ∀ id ∈ F.ids k, id < w.nsegs) {k : SegKind} (hk : k ≠ .des)
    {w1 : World P IO} {des : List Nat} {ss ds : List (Seg P.F IO.D)} (hb : Bounded w1)
    (hfl : w1.files = w.files) (hg : w.nsegs ≤ w1.nsegs) (hv : Views w1 (F.ids k) ss)
    (hvd : Views w1 des ds) (hdo : DesOk w F des) :
    Lock (fun a b => PrepRel f w1 (F.ids k) des a b ∧ DesOk w F a.2)
      (prepareIds f k 0 (F.ids k) (w1, des)) (prepareSegs P IO k 0 ss ds) := by
  refine (prepareIds_lock hb (by rw [hfl]; exact hal) hv hvd (hd.nodup k) ?_).imp ?_
  · intro id hid hdes
    rcases hdo.mem id hdes with h | h
    · exact hd.apart k .des hk id hid h
    · have := hlt k id hid
      omega
  · rintro ⟨w2, des2⟩ ⟨ss2, ds2⟩ h
    refine ⟨h, ?_⟩
    obtain ⟨new, h1, h2, h3⟩ := h.new
    simp only at h1 ⊢
    rw [h1]
    refine ⟨?_, List.nodup_append.mpr ⟨hdo.nodup, h2, ?_⟩⟩
    · intro id hid
      rcases List.mem_append.mp hid with h | h
      · exact hdo.mem id h
      · exact Or.inr (Nat.le_trans hg (h3 id h))
    · rintro a ha b hb' rfl
      have := hvd.lt hb a ha
      have := h3 a hb'
      omega

/-- What is known between two kinds of segments being written: `L` are the segment objects, `SS`
the segments. -/
structure Writing (f : Nat) (F : OFile P) (cs : List Chunk) (w0 : World P IO)
    (L : SegKind → List Nat) (SS : SegKind → List (Seg P.F IO.D)) (w : World P IO)
    (H : Store P.F) (out : Bytes) : Prop where
  bounded : Bounded w
  isOpen : ∃ post, Open f F cs w H out post
  views : ∀ k, Views w (L k) (SS k)
  own : ∀ k, Own w f (L k)
  frame : Frame f w0 w (SegKind.order.flatMap L)

theorem write_step {f : Nat} {F : OFile P} {cs : List Chunk} {w0 w : World P IO}
    {L : SegKind → List Nat} {SS : SegKind → List (Seg P.F IO.D)} {H : Store P.F} {out : Bytes}
    (h : Writing f F cs w0 L SS w H out) (hn : ∀ k, (L k).Nodup)
    (ha : ∀ k k', k ≠ k' → ∀ id ∈ L k, id ∉ L k') (k : SegKind)
    (hl : LocsUpTo cs k (L k).length) :
    Lock (fun a b => a.2 = ⟨b.2.2, b.2.2.length⟩ ∧
        Writing f F cs w0 L (fun k' => if k' = k then b.1 else SS k') a.1 b.2.1 b.2.2)
      (writeIds k 0 (L k) (w, ⟨out, out.length⟩))
      (writeSegs P F.env IO cs k 0 (SS k) (H, out)) := by
  obtain ⟨post, ho⟩ := h.isOpen
  refine (writeIds_lock h.bounded ho (h.views k) (h.own k) (hn k) (by simpa using hl)).imp ?_
  rintro ⟨w', fh⟩ ⟨ss, H', out'⟩ ⟨r1, r2, r3, r4⟩
  simp only at r1 r2 r3 r4 ⊢
  refine ⟨r1, r4.bounded h.bounded, r2, ?_, fun k' => (h.own k').frame r4,
    h.frame.trans (r4.mono ?_)⟩
  · intro k'
    by_cases hk : k' = k
    · subst hk
      rw [if_pos rfl]
      exact r3
    · rw [if_neg hk]
      exact (h.views k').frame h.bounded r4 (ha k' k hk)
  · intro x hx
    exact List.mem_flatMap.mpr ⟨k, by cases k <;> decide, hx⟩

theorem write_lock {f : Nat} {w : World P IO} {F : OFile P} {N : NFile P.F IO.D}
    (hb : Bounded w) (hs : Shows w f F N) (hown : ∀ k, Own w f (F.ids k)) (hd : Distinct F) :
    Lock (FileRel f F w) (Owner.write f w) (writeFile P F.env IO N) := by
  have hal : (w.files f).isSome = true := by rw [hs.file]; rfl
  unfold Owner.write writeFile
  simp only [hs.file]
  refine Lock.bind (dropIds_lock (hs.views .des)) ?_
  rintro des0 ds0 - - ⟨v0, sub0⟩
  rw [prepareHeader_eq, ← hs.tres, ← hs.header, ← v0.length]
  cases hp : prepareNew (IO := IO) Tables.t_file_header fileAreas (n!"fs") "XHD".toList 0 F.tres
      F.header des0.length with
  | error e => exact rfl
  | ok r =>
  obtain ⟨h0, o⟩ := r
  obtain ⟨v1, fr1, fl1, new1, dn1, nd1, ge1⟩ := addDes_views (f := f) hb hal v0 (o := o)
    (fun s hs => prepareNew_linked (hs ▸ hp)) []
  -- the DES list holds segments of the file and new ones
  have hd0 : ∀ id ∈ des0, id ∈ F.ids .des := fun id hid => sub0.subset hid
  have hlt : ∀ k, ∀ id ∈ F.ids k, id < w.nsegs := fun k => (hs.views k).lt hb
  have do1 : DesOk w F (addDes f w des0 o).2 := by
    rw [dn1]
    refine ⟨?_, List.nodup_append.mpr ⟨sub0.nodup (hd.nodup .des), nd1, ?_⟩⟩
    · intro id hid
      rcases List.mem_append.mp hid with h | h
      · exact Or.inl (hd0 id h)
      · exact Or.inr (ge1 id h)
    · rintro a ha b hb' rfl
      have := hlt .des a (hd0 a ha)
      have := ge1 a hb'
      omega
  show Lock _ (prepareIds f .image 0 (F.ids .image) (addDes f w des0 o) >>= _)
    (prepareSegs P IO .image 0 N.image (ds0 ++ o.toList) >>= _)
  generalize addDes f w des0 o = st1 at v1 fr1 fl1 do1
  obtain ⟨w1, des1⟩ := st1
  simp only at v1 fr1 fl1 do1
  have b1 := fr1.bounded hb
  have ap : ∀ k k', k ≠ k' → ∀ id ∈ F.ids k, id ∉ F.ids k' := hd.apart
  have V1 : ∀ k, Views w1 (F.ids k) (N.segs k) := fun k => (hs.views k).frame hb fr1 (by simp)
  refine Lock.bind (prepare_step hal hd hlt (k := .image) (by decide) b1 fl1 fr1.grow (V1 .image) v1
    do1) ?_
  rintro ⟨w2, des2⟩ ⟨im1, ds2⟩ - - ⟨⟨vi2, v2, fr2, fl2, -⟩, do2⟩
  simp only at vi2 v2 fr2 fl2 do2 ⊢
  have b2 := fr2.bounded b1
  refine Lock.bind (prepare_step hal hd hlt (k := .graphic) (by decide) b2 (fl2.trans fl1)
    (Nat.le_trans fr1.grow fr2.grow)
    ((V1 .graphic).frame b1 fr2 (ap _ _ (by decide))) v2 do2) ?_
  rintro ⟨w3, des3⟩ ⟨gr1, ds3⟩ - - ⟨⟨vg3, v3, fr3, fl3, -⟩, do3⟩
  simp only at vg3 v3 fr3 fl3 do3 ⊢
  have b3 := fr3.bounded b2
  refine Lock.bind (prepare_step hal hd hlt (k := .text) (by decide) b3 (fl3.trans (fl2.trans fl1))
    (Nat.le_trans fr1.grow (Nat.le_trans fr2.grow fr3.grow))
    (((V1 .text).frame b1 fr2 (ap _ _ (by decide))).frame b2 fr3 (ap _ _ (by decide))) v3 do3) ?_
  rintro ⟨w4, des4⟩ ⟨te1, ds4⟩ - - ⟨⟨vt4, v4, fr4, fl4, -⟩, do4⟩
  simp only at vt4 v4 fr4 fl4 do4 ⊢
  have b4 := fr4.bounded b3
  have vi4 := (vi2.frame b2 fr3 (ap _ _ (by decide))).frame b3 fr4 (ap _ _ (by decide))
  have vg4 := vg3.frame b3 fr4 (ap _ _ (by decide))
  have vr4 := (((V1 .res).frame b1 fr2 (ap _ _ (by decide))).frame b2 fr3 (ap _ _ (by decide))).frame
    b3 fr4 (ap _ _ (by decide))
  rw [← vi4.length, ← vg4.length, ← vt4.length, ← v4.length,
    show N.res.length = (F.ids .res).length from vr4.length.symm]
  refine Lock.bind (Lock.same _) ?_
  rintro h1 _ hh1 - rfl
  refine Lock.bind (Lock.same _) ?_
  rintro cs _ hcs - rfl
  -- the lists written
  let L : SegKind → List Nat := fun
    | .image => F.ids .image | .graphic => F.ids .graphic | .text => F.ids .text | .des => des4
    | .res => F.ids .res
  let SS : SegKind → List (Seg P.F IO.D) := fun
    | .image => im1 | .graphic => gr1 | .text => te1 | .des => ds4 | .res => N.res
  have hLk : ∀ k, k ≠ .des → L k = F.ids k := by
    intro k hk; cases k <;> first | rfl | exact absurd rfl hk
  have hLn : ∀ k, (L k).Nodup := by
    intro k
    by_cases hk : k = .des
    · subst hk; exact do4.nodup
    · rw [hLk k hk]; exact hd.nodup k
  have hLa : ∀ k k', k ≠ k' → ∀ id ∈ L k, id ∉ L k' := by
    have one : ∀ k, k ≠ .des → ∀ id ∈ F.ids k, id ∉ des4 := by
      intro k hk id hid hdes
      rcases do4.mem id hdes with h | h
      · exact ap k .des hk id hid h
      · have := hlt k id hid
        omega
    intro k k' hkk id hid hid'
    by_cases hk : k = .des
    · subst hk
      rw [hLk k' (Ne.symm hkk)] at hid'
      exact one k' (Ne.symm hkk) id hid' hid
    · rw [hLk k hk] at hid
      by_cases hk' : k' = .des
      · subst hk'; exact one k hk id hid hid'
      · rw [hLk k' hk'] at hid'
        exact ap k k' hkk id hid hid'
  have hcount : ∀ k, h1 (numPos k) [] = some ⟨.val (.int ((L k).length : Nat)), none⟩ := by
    intro k
    rw [nums_ok P hh1]
    cases k <;> simp [numPos, Store.set, L]
  have hlocs : ∀ k, LocsUpTo cs k (L k).length := fun k i hi =>
    ⟨locOf_of_mem (chunk_loop (lenField k) hcs (hcount k) hi),
      locOf_of_mem (chunk_loop (dataField k) hcs (hcount k) hi)⟩
  obtain ⟨fih, zh⟩ := hl_sized
  obtain ⟨fif, zf⟩ := fl_sized
  have pres : ∀ {n w : Nat} {fi : FInfo}, Sized n w [] fi → ∃ o, locOf n [] 0 cs = some o :=
    fun {n w fi} z => locOf_of_mem (chunk_scalar t_file_header_causal hcs z.at_ z.shapes
      (evalCond_none P (plainInt_spec z.int).2.2.2.2.2 _ _))
  have fr04 : Frame f w w4 (SegKind.order.flatMap L) := by
    have m : ∀ k, k ≠ .des → ∀ x ∈ F.ids k, x ∈ SegKind.order.flatMap L := fun k hk x hx =>
      List.mem_flatMap.mpr ⟨k, by cases k <;> decide, by rw [hLk k hk]; exact hx⟩
    exact (((fr1.mono (by simp)).trans (fr2.mono (m _ (by decide)))).trans
      (fr3.mono (m _ (by decide)))).trans (fr4.mono (m _ (by decide)))
  have hF4 : w4.files f = some F := by rw [fl4, fl3, fl2, fl1]; exact hs.file
  have hownD : ∀ k, Own w f (L k) := by
    intro k id hid s hs' g hg hal'
    by_cases hk : k = .des
    · subst hk
      rcases do4.mem id hid with h | h
      · exact hown .des id h s hs' g hg hal'
      · have := hb id s hs'
        omega
    · rw [hLk k hk] at hid
      exact hown k id hid s hs' g hg hal'
  have hV4 : ∀ k, Views w4 (L k) (SS k) := by
    intro k
    cases k
    · exact vi4
    · exact vg4
    · exact vt4
    · exact v4
    · exact vr4
  generalize hF1 : ({ setIds F .des (some f) des4 with
      header := h1
      loc := fun n key => (locOf n key 0 cs).or (F.loc n key) } : OFile P) = F1
  have hF1e : F1.env = F.env := by rw [← hF1]; rfl
  have hF1l : ∀ n key o, locOf n key 0 cs = some o → F1.loc n key = some o := by
    intro n key o h
    rw [← hF1]
    simp only [h, Option.some_or]
  have hF1h : F1.header = h1 := by rw [← hF1]
  have hF1t : F1.tres = F.tres := by rw [← hF1]; rfl
  have hF1i : F1.ids = L := by
    rw [← hF1]
    funext k
    cases k <;> rfl
  have fr5 : Frame f w (w4.setFile f F1) (SegKind.order.flatMap L) :=
    fr04.trans (frame_setFile hF4 _)
  have ho5 : Open f F1 cs (w4.setFile f F1) h1 (chunkBytes cs) [] :=
    ⟨by rw [← hF1h]; exact upd_same _ _ _, hF1l, cs, hcs, rfl, by simp⟩
  rw [← hF1e]
  refine Lock.bind (updateFile_lock ho5 hlField.res zh.at_ (plainInt_spec zh.int).2.2.2.1 hl_unref
    (pres zh)) ?_
  rintro st ⟨H6, out6⟩ - - ⟨e6, ho6⟩
  subst e6
  simp only at ho6 ⊢
  have fr6 := fr5.trans (ho5.frame { F1 with header := H6 } _)
  have W6 : Writing f F1 cs w L SS ((w4.setFile f F1).setFile f { F1 with header := H6 }) H6 out6 :=
    ⟨fr6.bounded hb, ⟨_, ho6⟩, fun k => (hV4 k).mono (fun g => (fr6.alive g).trans (fr04.alive g).symm)
      fun _ _ => rfl, fun k => (hownD k).frame fr6, fr6⟩
  generalize (w4.setFile f F1).setFile f { F1 with header := H6 } = w6 at W6
  refine Lock.bind (write_step W6 hLn hLa .image (hlocs _)) ?_
  rintro ⟨w7, fh7⟩ ⟨im2, H7, out7⟩ - - ⟨e7, W7⟩
  simp only at e7 W7 ⊢
  subst e7
  refine Lock.bind (write_step W7 hLn hLa .graphic (hlocs _)) ?_
  rintro ⟨w8, fh8⟩ ⟨gr2, H8, out8⟩ - - ⟨e8, W8⟩
  simp only at e8 W8 ⊢
  subst e8
  refine Lock.bind (write_step W8 hLn hLa .text (hlocs _)) ?_
  rintro ⟨w9, fh9⟩ ⟨te2, H9, out9⟩ - - ⟨e9, W9⟩
  simp only at e9 W9 ⊢
  subst e9
  refine Lock.bind (write_step W9 hLn hLa .des (hlocs _)) ?_
  rintro ⟨w10, fh10⟩ ⟨de2, H10, out10⟩ - - ⟨e10, W10⟩
  simp only at e10 W10 ⊢
  subst e10
  refine Lock.bind (write_step W10 hLn hLa .res (hlocs _)) ?_
  rintro ⟨w11, fh11⟩ ⟨re2, H11, out11⟩ - - ⟨e11, W11⟩
  simp only at e11 W11 ⊢
  subst e11
  obtain ⟨post, ho11⟩ := W11.isOpen
  refine Lock.bind (updateFile_lock ho11 flField.res zf.at_ (plainInt_spec zf.int).2.2.2.1 fl_unref
    (pres zf)) ?_
  rintro st ⟨H12, out12⟩ - - ⟨e12, ho12⟩
  subst e12
  simp only at ho12 ⊢
  have fr12 := W11.frame.trans (ho11.frame { F1 with header := H12 } _)
  have V12 : ∀ k, Views (w11.setFile f { F1 with header := H12 }) (L k)
      (match k with | .image => im2 | .graphic => gr2 | .text => te2 | .des => de2 | .res => re2) := by
    intro k
    have := (W11.views k).mono (w' := w11.setFile f { F1 with header := H12 })
      (ho11.frame { F1 with header := H12 } []).alive fun _ _ => rfl
    cases k <;> exact this
  refine Lock.bind (dropIds_lock (V12 .des)) ?_
  rintro des' ds' - - ⟨v13, sub13⟩
  simp only [ho12.file]
  have do13 : DesOk w F des' :=
    ⟨fun id hid => do4.mem id (sub13.subset hid), sub13.nodup do4.nodup⟩
  have fr13 := fr12.trans (frame_setFile ho12.file
    (F' := setIds { F1 with header := H12 } .des (some f) des') _)
  refine ⟨rfl, ⟨_, ⟨upd_same _ _ _, rfl, ?_, ?_⟩, ?_, ?_, ?_, ?_⟩, fr13.others, ?_, fr13.owners,
    fr13.bounded hb, fr13.fresh, fr13.nfiles⟩
  · show F1.tres = F.tres
    exact hF1t
  · intro k
    have al := (frame_setFile ho12.file
      (F' := setIds { F1 with header := H12 } .des (some f) des') []).alive
    by_cases hk : k = .des
    · subst hk
      exact v13.mono al fun _ _ => rfl
    · have := (V12 k).mono al fun _ _ => rfl
      have e : (setIds { F1 with header := H12 } .des (some f) des').ids k = L k := by
        unfold setIds
        simp only [if_neg hk, hF1i]
      rw [e]
      cases k <;> first | exact this | exact absurd rfl hk
  · exact hF1e
  · intro k hk
    unfold setIds
    simp only [if_neg hk, hF1i]
    exact hLk k hk
  · exact do13
  · intro k
    unfold setIds
    by_cases hk : k = .des
    · simp only [if_pos hk]
    · simp only [if_neg hk]
      rw [← hF1]
      unfold setIds
      simp only [if_neg hk]
  · intro id hid hno
    refine fr13.kept id hid ?_
    intro hm
    obtain ⟨k, _, hk⟩ := List.mem_flatMap.mp hm
    by_cases hkd : k = .des
    · subst hkd
      rcases do4.mem id hk with h | h
      · exact hno _ h
      · omega
    · rw [hLk k hkd] at hk
      exact hno _ hk

end Verif.Owner
