import Verif.Implement
import Verif.ReadAny
import Verif.StateLemmas
import Verif.Props.Delayed
import Verif.Props.Tre
import Verif.Props.DesData
import Verif.Example

/- C83: TREs and DES whose content is held by an object of another class
(model in `Verif/Implement.lean`). -/

namespace Verif.Implement

variable {P : PyFloat} {C : TreImpl} {D : DesImpl}

/-! ### Specification -/

/-- The text `read_tre_string` is given for what `tre_string` returned. -/
inductive TextOf : TreText → Str → Prop
  | str (s : Str) : TextOf (.str s) s
  | bytes {b : Bytes} {s : Str} : utf8Dec b = .ok s → TextOf (.bytes b) s

/-- The bytes of what `tre_string` returned. -/
def TreText.encoded : TreText → Bytes
  | .bytes b => b
  | .str s => utf8Enc s

/-- The implementation class can read what it writes for `o`. -/
def Faithful (C : TreImpl) (o : C.O) : Prop :=
  ∃ x s, C.treString o = .ok x ∧ TextOf x s ∧ C.readString s = .ok o

/-- What a user is shown for a field of an ordinary TRE with the values `R`. -/
def shownIn (P : PyFloat) (d : Desc) (R : Store P.F) (p : Name × Key) : FRes P.F :=
  match getAttr P d R p.1 p.2 with
  | .error e => .exc e
  | .ok v => .val v

/-- An index inside the loops of a field of `R`. -/
def InRecord (P : PyFloat) (d : Desc) (R : Store P.F) (p : Name × Key) : Prop :=
  ∃ n, resolve d.tab p.1 = some n ∧ Reach P d.tab R n p.2

/-- Operations that give the TRE another object. -/
def Op.givesObject : Op P C → Bool
  | .obj _ => true
  | .load _ => true
  | _ => false

/-- The fields have been read, or can be. -/
def Sound (t : Obj P C) : Prop :=
  ∀ b lit, t.raw.pending = some (b, lit) → ∃ R r, readInto P C.desc lit t.raw.store b = .ok (R, r)

/-! ### Helpers -/

theorem bytes_some {t : Obj P C} {o : C.O} {x : TreText} (ho : t.obj = some o)
    (hx : C.treString o = .ok x) : t.bytes = .ok x.encoded := by
  unfold Obj.bytes
  rw [ho]
  simp only [hx]
  cases x <;> rfl

theorem bytes_of_obj {t t' : Obj P C} (h : t'.obj = t.obj) : t'.bytes = t.bytes := by
  unfold Obj.bytes
  rw [h]

theorem write_of_obj {t t' : Obj P C} (h : t'.obj = t.obj) : t'.write = t.write := by
  unfold Obj.write
  rw [bytes_of_obj h]

theorem set_obj (t : Obj P C) (n : Nat) (key : Key) (v : Val P.F) : (t.set n key v).1.obj = t.obj := by
  unfold Obj.set
  repeat (first | rfl | split)

theorem update_obj (t : Obj P C) : t.update.1.obj = t.obj := by
  unfold Obj.update
  split <;> rfl

theorem step_obj (t : Obj P C) (op : Op P C) (h : op.givesObject = false) :
    (step t op).1.obj = t.obj := by
  cases op with
  | get nm key => rfl
  | set nm key v =>
    simp only [step]
    cases resolve C.desc.tab nm with
    | none => rfl
    | some n => exact set_obj t n key v
  | raw nm key => rfl
  | obj o => simp [Op.givesObject] at h
  | update => exact update_obj t
  | load b => simp [Op.givesObject] at h
  | write => rfl

/-- A written record is that of an unknown TRE with the bytes of the object. -/
theorem write_unknown (t : Obj P C) {b : Bytes} (hb : t.bytes = .ok b) :
    t.write = treWrite P (.unknown C.tag b) := by
  unfold Obj.write treWrite
  simp only [hb, Tre.body, Tre.tag]

theorem fhRead_exact (b rest : Bytes) : fhRead (b.length : Int) (b ++ rest) = (b, rest) := by
  unfold fhRead
  rw [if_neg (by omega)]
  simp

/-- Reading a written record. -/
theorem read_frame (htag : TagOk C.tag) {b w : Bytes}
    (hw : treWrite P (.unknown C.tag b) = .ok w) (t : Obj P C) (rest : Bytes) :
    t.read (w ++ rest) = match t.load b with
      | (t', some e) => (t', .error e)
      | (t', none) => (t', .ok rest) := by
  obtain ⟨body, h1, _, h3, h4⟩ := treWrite_frame P (t := .unknown C.tag b) htag hw
  simp only [Tre.body] at h1
  injection h1 with h1
  subst h1
  subst h3
  unfold Obj.read
  rw [h4.take6, h4.take5, h4.drop11, h4.dec, h4.lenVal]
  simp only [Tre.tag, htag.rstrip, latin1Dec_utf8Enc htag.ascii, ne_eq, not_true_eq_false,
    if_false, fhRead_exact]
  cases t.load b with
  | mk t' e => cases e <;> rfl

theorem load_of_text {o : C.O} {x : TreText} {s : Str} (t : Obj P C) (hx : TextOf x s)
    (hr : C.readString s = .ok o) : t.load x.encoded = Obj.update ⟨some o, t.raw⟩ := by
  unfold Obj.load
  cases hx with
  | str s =>
    simp only [TreText.encoded]
    rw [utf8Dec_utf8Enc]
    simp only [hr]
  | bytes hb =>
    simp only [TreText.encoded]
    rw [hb]
    simp only [hr]

/-! ### What is written -/

/-- C83.  A TRE is written exactly if it has an object whose bytes can be had and are at most 99999;
the record is the tag, the length and these bytes. -/
theorem C83_format (t : Obj P C) (w : Bytes) : t.write = .ok w ↔
    ∃ o x, t.obj = some o ∧ C.treString o = .ok x ∧ x.encoded.length ≤ 99999 ∧
      w = tagBytes C.tag ++ (lenBytes x.encoded.length ++ x.encoded) := by
  constructor
  · intro h
    cases ho : t.obj with
    | none =>
      unfold Obj.write Obj.bytes at h
      rw [ho] at h
      cases h
    | some o =>
      cases hx : C.treString o with
      | error e =>
        unfold Obj.write Obj.bytes at h
        rw [ho] at h
        simp only [hx] at h
        cases h
      | ok x =>
        unfold Obj.write at h
        rw [bytes_some ho hx] at h
        simp only at h
        split at h
        · cases h
        · rename_i hl
          injection h with h
          exact ⟨o, x, rfl, hx, by omega, h.symm⟩
  · rintro ⟨o, x, ho, hx, hl, rfl⟩
    unfold Obj.write
    rw [bytes_some ho hx]
    simp only
    rw [if_neg (by omega)]

/-- C83.  Whatever is done with the fields in between, what is written is the object. -/
theorem C83_written (t : Obj P C) (ops : List (Op P C))
    (h : ∀ op ∈ ops, op.givesObject = false) : (after t ops).write = t.write := by
  induction ops generalizing t with
  | nil => rfl
  | cons op ops ih =>
    unfold after
    rw [ih _ fun op' h' => h op' (List.mem_cons_of_mem _ h')]
    exact write_of_obj (step_obj t op (h op List.mem_cons_self))

/-! ### The fields -/

/-- Forcing what `Sound` says. -/
theorem force_sound {t : Obj P C} (h : Sound t) :
    ∃ R, force P C.desc t.raw = (⟨R, none⟩, none) := by
  unfold Sound at h
  generalize t.raw = l at h
  obtain ⟨S, q⟩ := l
  cases q with
  | none => exact ⟨S, rfl⟩
  | some q =>
    obtain ⟨b, lit⟩ := q
    obtain ⟨R, r, hr⟩ := h b lit rfl
    exact ⟨R, force_read P hr⟩

theorem get_ready (t : Obj P C) {S : Store P.F} (ht : t.raw = ⟨S, none⟩) (p : Name × Key) :
    step t (.get p.1 p.2) = (t, shownIn P C.desc S p) := by
  unfold step stepL
  rw [ht]
  simp only [force, shownIn]
  cases getAttr P C.desc S p.1 p.2 <;> simp only [← ht]

theorem get_forced (t : Obj P C) {S : Store P.F}
    (hf : force P C.desc t.raw = (⟨S, none⟩, none)) (p : Name × Key) :
    step t (.get p.1 p.2) = (⟨t.obj, ⟨S, none⟩⟩, shownIn P C.desc S p) := by
  unfold step stepL
  simp only [hf, shownIn]
  cases getAttr P C.desc S p.1 p.2 <;> rfl

theorem results_gets (t : Obj P C) {S : Store P.F}
    (hf : force P C.desc t.raw = (⟨S, none⟩, none)) (ps : List (Name × Key)) :
    results t (ps.map fun p => .get p.1 p.2) = ps.map (shownIn P C.desc S) := by
  have ready : ∀ (ps : List (Name × Key)) (t : Obj P C), t.raw = ⟨S, none⟩ →
      results t (ps.map fun p => .get p.1 p.2) = ps.map (shownIn P C.desc S) := by
    intro ps
    induction ps with
    | nil => intros; rfl
    | cons p ps ih =>
      intro t ht
      simp only [List.map_cons]
      unfold results
      rw [get_ready t ht p]
      simp only
      rw [ih t ht]
  cases ps with
  | nil => rfl
  | cons p ps =>
    simp only [List.map_cons]
    unfold results
    rw [get_forced t hf p]
    simp only
    rw [ready ps _ rfl]

/-- C83.  After `update_raw_field`, and so after every read, the fields show what those of an ordinary
TRE read from the bytes of the object show, whatever the TRE was used for before. -/
theorem C83_fields (hd : C.desc.causal = true) {t t' : Obj P C} (hu : t.update = (t', none))
    {b rest : Bytes} (hb : t.bytes = .ok b) {R : Store P.F}
    (hr : readStruct P C.desc false b = .ok (R, rest)) (ps : List (Name × Key))
    (hp : ∀ p ∈ ps, InRecord P C.desc R p) :
    results t' (ps.map fun p => .get p.1 p.2) = ps.map (shownIn P C.desc R) := by
  unfold Obj.update at hu
  rw [hb] at hu
  injection hu with hu _
  subst hu
  rcases readInto_any P hd false Store.empty t.raw.store b with ⟨e, h1, _⟩ | ⟨R', S', r, h1, h2, h3⟩
  · unfold readStruct at hr
    rw [h1] at hr
    cases hr
  · unfold readStruct at hr
    rw [h1] at hr
    injection hr with hr
    injection hr with hr1 hr2
    subst hr1
    rw [results_gets _ (S := S') (force_read P h2)]
    refine List.map_congr_left fun p hpm => ?_
    obtain ⟨n, hn, hreach⟩ := hp p hpm
    unfold shownIn getAttr
    rw [hn]
    simp only
    rw [show getItem P C.desc.tab S' n p.2 = getItem P C.desc.tab R' n p.2 from
      ((h3 n p.2 hreach).1).symm]

/-- C83.  No field can be assigned: there is an exception, the object is the same, and so is
everything the fields show. -/
theorem C83_refused {t : Obj P C} (hs : Sound t) {nm : Name} {n : Nat}
    (hn : resolve C.desc.tab nm = some n) (key : Key) (v : Val P.F) :
    (∃ e, (step t (.set nm key v)).2 = .exc e) ∧ (step t (.set nm key v)).1.obj = t.obj ∧
    ∀ ps : List (Name × Key),
      results (step t (.set nm key v)).1 (ps.map fun p => .get p.1 p.2) =
        results t (ps.map fun p => .get p.1 p.2) := by
  have hset : step t (.set nm key v) = ((t.set n key v).1, .exc (t.set n key v).2) := by
    simp only [step, hn]
  rw [hset]
  refine ⟨⟨_, rfl⟩, set_obj t n key v, fun ps => ?_⟩
  obtain ⟨R, hR⟩ := force_sound hs
  have hif : ∀ c, forceIf P C.desc c t.raw = (t.raw, none) ∨
      forceIf P C.desc c t.raw = (⟨R, none⟩, none) := by
    intro c
    unfold forceIf
    cases c
    · exact Or.inl rfl
    · exact Or.inr hR
  have hif2 : ∀ c, forceIf P C.desc c ⟨R, none⟩ = (⟨R, none⟩, none) :=
    fun c => forceIf_ready P C.desc c R
  have key' : (t.set n key v).1.raw = t.raw ∨ (t.set n key v).1.raw = ⟨R, none⟩ := by
    unfold Obj.set
    cases C.desc.tab[n]? with
    | none => exact Or.inl rfl
    | some fi =>
      simp only
      rcases hif (setLooks1 fi key) with h | h
      · rw [h]
        simp only
        split
        · exact Or.inl rfl
        · rcases hif (setLooks2 true fi) with h' | h'
          · rw [h']
            simp only
            split <;> exact Or.inl rfl
          · rw [h']
            simp only
            split <;> exact Or.inr rfl
      · rw [h]
        simp only
        split
        · exact Or.inr rfl
        · rw [hif2]
          simp only
          split <;> exact Or.inr rfl
  rw [results_gets t hR ps]
  rcases key' with h | h
  · exact results_gets _ (by rw [h]; exact hR) ps
  · exact results_gets _ (by rw [h]; rfl) ps

/-! ### Write and read -/

/-- C83.  A record is read back with the same object, is written alike again, and exactly its bytes
are used. -/
theorem C83_round_trip (htag : TagOk C.tag) {t : Obj P C} {o : C.O} (ho : t.obj = some o)
    (hf : Faithful C o) {w : Bytes} (hw : t.write = .ok w) (t0 : Obj P C) (rest : Bytes) :
    ∃ t', t0.read (w ++ rest) = (t', .ok rest) ∧ t'.obj = some o ∧ t'.write = .ok w ∧
      Obj.update ⟨some o, t0.raw⟩ = (t', none) := by
  obtain ⟨x, s, hx, hxs, hr⟩ := hf
  have hb := bytes_some ho hx
  have hb0 : (⟨some o, t0.raw⟩ : Obj P C).bytes = .ok x.encoded := bytes_some rfl hx
  rw [write_unknown t hb] at hw
  rw [read_frame htag hw, load_of_text t0 hxs hr]
  unfold Obj.update
  rw [hb0]
  simp only
  refine ⟨_, rfl, rfl, ?_, rfl⟩
  rw [write_unknown _ (show (⟨some o, _⟩ : Obj P C).bytes = .ok x.encoded from bytes_some rfl hx)]
  exact hw

/-- C83.  A copy has the same object. -/
theorem C83_copy (htag : TagOk C.tag) {t : Obj P C} {o : C.O} (ho : t.obj = some o)
    (hf : Faithful C o) {w : Bytes} (hw : t.write = .ok w) :
    ∃ t', t.copy = .ok t' ∧ t'.obj = some o ∧ t'.write = .ok w := by
  obtain ⟨t', h1, h2, h3, _⟩ := C83_round_trip htag ho hf hw (Obj.new P C) []
  rw [List.append_nil] at h1
  unfold Obj.copy
  rw [hw]
  simp only [h1]
  exact ⟨t', rfl, h2, h3⟩

/-- C83.  A program that has only the ordinary class for the tag reads the same record as a TRE with
the fields that are shown for the object. -/
theorem C83_plain_reader (htag : TagOk C.tag) (hd : C.desc.causal = true) {t : Obj P C} {b w : Bytes}
    (hb : t.bytes = .ok b) (hw : t.write = .ok w) {R : Store P.F}
    (hr : readStruct P C.desc false b = .ok (R, [])) {reg : Registry}
    (hreg : reg.lookup (tagBytes C.tag) = some (C.tag, C.desc)) (rest : Bytes) :
    readOne P reg (w ++ rest) = .ok (.known C.tag C.desc R, rest) := by
  rw [write_unknown t hb] at hw
  obtain ⟨body, h1, _, h3, h4⟩ := treWrite_frame P (t := .unknown C.tag b) htag hw
  simp only [Tre.body] at h1
  injection h1 with h1
  subst h1
  subst h3
  have : (latin1Dec (rstripB (tagBytes C.tag))) = C.tag := by
    rw [htag.rstrip, latin1Dec_utf8Enc htag.ascii]
  unfold readOne
  rw [h4.take6]
  simp only [Tre.tag, hreg]
  rcases readKnown_frame P (tag := C.tag) hd h4 rest with ⟨_, R', q1, q2⟩ | ⟨q1, _⟩
  · simp only [Tre.tag] at q1 q2
    rw [hr] at q1
    injection q1 with q1
    injection q1 with q1 _
    subst q1
    rw [q2]
  · rcases q1 with q1 | q1
    · exact absurd this q1
    · exact absurd hr (q1 R)

/-- No object can be made from the bytes of a record: they are no text, or `read_tre_string` raises
an exception. -/
def NoObject (C : TreImpl) (b : Bytes) : Prop :=
  ∀ s o, utf8Dec b = .ok s → C.readString s ≠ .ok o

/-- C83.  If the object cannot be made from the bytes of a record, the TRE is kept as an unknown one
with these bytes. -/
theorem C83_fallback (htag : TagOk C.tag) {b w : Bytes}
    (hw : treWrite P (.unknown C.tag b) = .ok w) (hl : NoObject C b) (rest : Bytes) :
    readArea P C (w ++ rest) = .ok (.inr (.unknown C.tag b), rest) := by
  have hu := C19_unknown_round_trip P htag hw rest
  have hdec : ∃ s, utf8Dec ((w ++ rest).take 6) = .ok s := by
    obtain ⟨body, _, _, h3, h4⟩ := treWrite_frame P (t := .unknown C.tag b) htag hw
    rw [h3, h4.take6]
    exact ⟨_, utf8Dec_ascii h4.ascii⟩
  obtain ⟨s, hs⟩ := hdec
  have hload : ∃ t' e, (Obj.new P C).load b = (t', some e) := by
    unfold Obj.load
    cases h1 : utf8Dec b with
    | error e => exact ⟨_, e, rfl⟩
    | ok x =>
      simp only
      cases h2 : C.readString x with
      | error e => exact ⟨_, e, rfl⟩
      | ok o => exact absurd h2 (hl x o h1)
  obtain ⟨t', e, hload⟩ := hload
  unfold readArea
  rw [read_frame htag hw, hload]
  simp only [hs, hu]

/-- C83.  The record of another TRE is refused, and nothing is changed. -/
theorem C83_other_tag {tag : Str} (htag : TagOk tag) (hne : tag ≠ C.tag) {b w : Bytes}
    (hw : treWrite P (.unknown tag b) = .ok w) (t : Obj P C) (rest : Bytes) :
    t.read (w ++ rest) = (t, .error .runtime) := by
  obtain ⟨body, h1, _, h3, h4⟩ := treWrite_frame P (t := .unknown tag b) htag hw
  subst h3
  unfold Obj.read
  rw [h4.take6, h4.dec]
  simp only [Tre.tag, htag.rstrip, latin1Dec_utf8Enc htag.ascii]
  rw [if_pos hne]

/-! ### What goes wrong -/

/-- C83 fails for an object that gives bytes that are not UTF-8: they are written, but the record is
not read back as the object. -/
theorem C83_not_text (htag : TagOk C.tag) {t : Obj P C} {o : C.O} (ho : t.obj = some o) {b : Bytes}
    (hx : C.treString o = .ok (.bytes b)) {e : Err} (hb : utf8Dec b = .error e)
    (hl : b.length ≤ 99999) (rest : Bytes) :
    ∃ w, t.write = .ok w ∧ readArea P C (w ++ rest) = .ok (.inr (.unknown C.tag b), rest) := by
  have hbytes : t.bytes = .ok b := bytes_some ho hx
  have hw : t.write = .ok (tagBytes C.tag ++ (lenBytes b.length ++ b)) := by
    unfold Obj.write
    rw [hbytes]
    simp only
    rw [if_neg (by omega)]
  refine ⟨_, hw, ?_⟩
  rw [write_unknown t hbytes] at hw
  refine C83_fallback htag hw ?_ rest
  intro s o h
  rw [hb] at h
  cases h

/-- C83 fails for the fields after the object was changed: until `update_raw_field` is called they
show the values from before, while the new object is written. -/
theorem C83_stale (t : Obj P C) (o : C.O) {x : TreText} (hx : C.treString o = .ok x)
    (ps : List (Name × Key)) :
    results (step t (.obj o)).1 (ps.map fun p => .get p.1 p.2) =
      results t (ps.map fun p => .get p.1 p.2) ∧
    (step t (.obj o)).1.bytes = .ok x.encoded := by
  refine ⟨?_, bytes_some rfl hx⟩
  have gen : ∀ (ps : List (Name × Key)) (t t' : Obj P C), t.raw = t'.raw →
      results t' (ps.map fun p => .get p.1 p.2) = results t (ps.map fun p => .get p.1 p.2) := by
    intro ps
    induction ps with
    | nil => intros; rfl
    | cons p ps ih =>
      intro t t' h
      simp only [List.map_cons]
      unfold results
      simp only [step, h]
      congr 1
      exact ih _ _ rfl
  exact gen ps t _ rfl

/-- C83 fails if the bytes of the object are no record of the table: the first look at a field is an
exception, but after it the fields show the values from before. -/
theorem C83_second_look {t t' : Obj P C} (hu : t.update = (t', none)) {b : Bytes}
    (hb : t.bytes = .ok b) {e : Err} (hr : readInto P C.desc false t.raw.store b = .error e)
    (p q : Name × Key) :
    results t' [.get p.1 p.2, .get q.1 q.2] = [.exc e, shownIn P C.desc t.raw.store q] := by
  unfold Obj.update at hu
  rw [hb] at hu
  injection hu with hu _
  subst hu
  have h1 : step (⟨t.obj, ⟨t.raw.store, some (b, false)⟩⟩ : Obj P C) (.get p.1 p.2) =
      (⟨t.obj, ⟨t.raw.store, none⟩⟩, .exc e) := by
    simp only [step, stepL, force, hr]
  unfold results
  rw [h1]
  simp only
  unfold results
  rw [get_ready _ rfl q]
  rfl

/-- C83 fails for a truncated record: no check is made that as many bytes are there as the record
says, so it is accepted if the class accepts what is left. -/
theorem C83_truncated (htag : TagOk C.tag) {n : Nat} (hn : n ≤ 99999) {b : Bytes} (hb : b.length < n)
    {s : Str} (hs : utf8Dec b = .ok s) {o : C.O} (ho : C.readString s = .ok o) {x : TreText}
    (hx : C.treString o = .ok x) (t : Obj P C) :
    ∃ t', t.read (tagBytes C.tag ++ (lenBytes n ++ b)) = (t', .ok []) ∧ t'.obj = some o := by
  have h6 : (tagBytes C.tag).length = 6 := htag.length
  have h5 : (lenBytes n).length = 5 := lenBytes_length hn
  have e1 : (tagBytes C.tag ++ (lenBytes n ++ b)).take 6 = tagBytes C.tag := by
    rw [← h6, List.take_left]
  have e2 : ((tagBytes C.tag ++ (lenBytes n ++ b)).drop 6).take 5 = lenBytes n := by
    rw [← h6, List.drop_left, ← h5, List.take_left]
  have e3 : (tagBytes C.tag ++ (lenBytes n ++ b)).drop 11 = b := by
    rw [show 11 = 6 + 5 from rfl, ← List.drop_drop, ← h6, List.drop_left, ← h5, List.drop_left]
  have e4 : utf8Dec (rstripB (tagBytes C.tag)) = .ok C.tag := by
    rw [htag.rstrip, utf8Dec_utf8Enc]
  have e5 : fhRead (n : Int) b = (b, []) := by
    unfold fhRead
    rw [if_neg (by omega)]
    simp only [Int.toNat_natCast]
    rw [List.take_of_length_le (by omega), List.drop_of_length_le (by omega)]
  have hl : t.load b = (⟨some o, ⟨t.raw.store, some (x.encoded, false)⟩⟩, none) := by
    unfold Obj.load
    rw [hs]
    simp only [ho]
    unfold Obj.update
    rw [bytes_some (t := (⟨some o, t.raw⟩ : Obj P C)) rfl hx]
  unfold Obj.read
  rw [e1, e2, e3, e4, pyIntB_lenBytes]
  simp only [ne_eq, not_true_eq_false, if_false, e5, hl]
  exact ⟨_, rfl, rfl⟩

/-! ### DES -/

/-- C83.  A DES is written as its object writes itself; reading what it wrote gives the same object,
and the fields of an ordinary DES read from the same bytes. -/
theorem C83_des_round_trip {o : D.O} {b rest : Bytes} (hw : D.desWrite o = .ok b)
    (hr : D.desRead (b ++ rest) = .ok (o, rest)) {size : Option Int} {d : DesObj P.F} {r : Bytes}
    (hd : readDes P (DesObj.new D.cls) (.str D.cls.tag) size b = .ok (some (d, r))) :
    ∃ t', (DObj.new P D).read (.str D.cls.tag) size (b ++ rest) = .ok (some (t', rest)) ∧
      t'.obj = some o ∧ t'.des = d ∧ t'.write = .ok b := by
  unfold DObj.read
  rw [if_pos ((pyEq_str P).mpr rfl), hr]
  simp only [DObj.update, DObj.write, hw, DObj.new, hd]
  exact ⟨_, rfl, rfl, rfl, hw⟩

/-- C83.  Another desid is not read. -/
theorem C83_des_other {id : Str} (h : id ≠ D.cls.tag) (t : DObj P D) (size : Option Int) (b : Bytes) :
    t.read (.str id) size b = .ok none := by
  unfold DObj.read
  rw [if_neg (by rw [pyEq_str]; exact h)]

/-- C83 fails for the fields of a DES: they can be assigned, like those of any record, but what is
written is the object as it was. -/
theorem C83_des_ignored (t : DObj P D) (nm : Name) (key : Key) (v : Val P.F) :
    (t.set nm key v).1.write = t.write ∧
    (t.set nm key v).2 = (setAttr P t.des.cls.desc t.des.fields nm key v).2 ∧
    ∀ nm' key', getAttr P t.des.cls.desc (t.set nm key v).1.des.fields nm' key' =
      getAttr P t.des.cls.desc (setAttr P t.des.cls.desc t.des.fields nm key v).1 nm' key' :=
  ⟨rfl, rfl, fun _ _ => rfl⟩

/-- C83 fails for `update_raw_field` of a DES read from a file after its object changed in length: it
raises an exception, although the DES can be written. -/
theorem C83_des_length {t : DObj P D} {o : D.O} {b : Bytes} (ho : t.obj = some o)
    (hw : D.desWrite o = .ok b) (hc : t.des.cls = D.cls) (ha : D.cls.afterAllowed = false)
    {S : Store P.F} (hr : readInto P D.cls.desc false t.des.fields b = .ok (S, [])) {n : Int}
    (hn : n ≠ b.length) :
    t.update (.str D.cls.tag) (some n) = .error .runtime ∧ t.write = .ok b := by
  have hwr : t.write = .ok b := by
    unfold DObj.write
    rw [ho]
    exact hw
  refine ⟨?_, hwr⟩
  have := C61_wrong_size P (o := t.des) (n := n) (used := b) (rest := []) (S := S)
    (by rw [hc]; exact ha) (by rw [hc, List.append_nil]; exact hr) hn
  rw [hc, List.append_nil] at this
  unfold DObj.update
  rw [hwr]
  simp only [this]

/-- C83.  The position after reading a DES is where `des_read` stopped. -/
theorem C83_des_position {t t' : DObj P D} {id : Val P.F} {size : Option Int} {b rest : Bytes}
    (h : t.read id size b = .ok (some (t', rest))) :
    ∃ o, D.desRead b = .ok (o, rest) ∧ t'.obj = some o := by
  unfold DObj.read at h
  split at h
  · cases hr : D.desRead b with
    | error e => rw [hr] at h; cases h
    | ok s =>
      obtain ⟨o, r⟩ := s
      rw [hr] at h
      simp only at h
      cases hu : DObj.update (⟨some o, t.des⟩ : DObj P D) id size with
      | error e => rw [hu] at h; cases h
      | ok u =>
        rw [hu] at h
        simp only at h
        injection h with h
        injection h with h
        injection h with h1 h2
        subst h1 h2
        refine ⟨o, rfl, ?_⟩
        unfold DObj.update at hu
        split at hu
        · cases hu
        · split at hu
          · cases hu
          · cases hu; rfl
          · cases hu; rfl
  · cases h

/-! ### Examples -/

/-- A number of letters and the letters. -/
def lettersDesc : Desc :=
  .field { name := some (n!"n"), size := .const 1, ty := .int } <|
  .loop (.ref (n!"n") []) (.field { name := some (n!"x"), size := .const 1, ty := .str } .nil) .nil

/-- Objects that are words of at most nine letters. -/
@[reducible] def letters : TreImpl where
  O := Str
  treString := fun s =>
    if s.length > 9 then .error .runtime else .ok (.str (Nat.digitChar s.length :: s))
  readString := fun s => .ok (s.drop 1)
  tag := "LETTER".toList
  desc := lettersDesc

instance : DecidableEq letters.O := inferInstanceAs (DecidableEq Str)

/-- A TRE for the word "ab". -/
def exWord : Obj P0 letters := ⟨some "ab".toList, ⟨Store.empty, none⟩⟩

example : exWord.write = .ok (asc "LETTER000032ab") := by decide +kernel

example : Faithful letters "ab".toList := ⟨_, _, rfl, .str _, rfl⟩

example : TagOk letters.tag := by constructor <;> decide

example : letters.desc.causal = true := by decide

/-- Before `update_raw_field` the fields show nothing, after it the word; the object is another one
after that, but not the fields; assignment is refused. -/
example : results exWord [.get (n!"n") [], .update, .get (n!"n") [], .get (n!"x") [1],
      .obj "xyz".toList, .get (n!"x") [0], .set (n!"x") [0] (.str ['q']), .get (n!"x") [0], .write,
      .update, .get (n!"x") [2]] =
    [.val (.int 0), .done, .val (.int 2), .val (.str ['b']), .done, .val (.str ['a']),
      .exc .runtime, .val (.str ['a']), .bytes (asc "LETTER000043xyz"), .done,
      .val (.str ['z'])] := by
  decide +kernel

/-- C83 fails for `get_raw_bytes`, which does not read the delayed fields (C47): after
`update_raw_field` it gives the bytes from before until a field has been looked at. -/
theorem C83_raw_stale :
    results exWord [.update, .raw (n!"n") [], .get (n!"n") [], .raw (n!"n") []] =
      [.done, .bytes (asc "0"), .val (.int 2), .bytes (asc "2")] := by
  decide +kernel

/-- The word "ab" written as "3ab": a record that the table cannot read. -/
def badLetters : TreImpl where
  O := Str
  treString := fun s => .ok (.str ('3' :: s))
  readString := fun s => .ok (s.drop 1)
  tag := "LETTER".toList
  desc := lettersDesc

/-- `C83_second_look` in a case. -/
example : results (⟨some "ab".toList, ⟨Store.empty, none⟩⟩ : Obj P0 badLetters)
      [.update, .get (n!"n") [], .get (n!"n") []] =
    [.done, .exc .runtime, .val (.int 0)] := by
  decide +kernel

/-- A truncated record is read as another word. -/
example : ((Obj.new P0 letters).read (asc "LETTER000043xy")).1.obj = some "xy".toList := by
  decide +kernel

/-- The DES class of the words. -/
@[reducible] def lettersDes : DesImpl where
  O := Str
  desWrite := fun s => .ok (utf8Enc (Nat.digitChar s.length :: s))
  desRead := fun b =>
    match utf8Dec (b.take 3) with
    | .error e => .error e
    | .ok s => .ok (s.drop 1, b.drop 3)
  cls := ⟨"LETTERS".toList, lettersDesc, false, false⟩

/-- A DES of two letters, with other bytes after it in the file. -/
example : ((DObj.new P0 lettersDes).read (.str "LETTERS".toList) (some 3) (asc "2abzz")).map
      (fun r => r.map fun s => (s.1.obj, getAttr P0 lettersDesc s.1.des.fields (n!"x") [1], s.2)) =
    .ok (some (some "ab".toList, .ok (.str ['b']), asc "zz")) := by
  decide +kernel

/-- C83 fails for the fields of a DES, in a case: the assignment is accepted, the field shows the new
letter, and the old one is written. -/
theorem C83_des_ignored_case :
    ((DObj.new P0 lettersDes).read (.str "LETTERS".toList) (some 3) (asc "2ab")).map
      (fun r => r.map fun s => s.1.set (n!"x") [0] (.str ['q']) |>.2.isNone) = .ok (some true) ∧
    ((DObj.new P0 lettersDes).read (.str "LETTERS".toList) (some 3) (asc "2ab")).map
      (fun r => r.map fun s => getAttr P0 lettersDesc
        (s.1.set (n!"x") [0] (.str ['q'])).1.des.fields (n!"x") [0]) = .ok (some (.ok (.str ['q']))) ∧
    ((DObj.new P0 lettersDes).read (.str "LETTERS".toList) (some 3) (asc "2ab")).map
      (fun r => r.map fun s => (s.1.set (n!"x") [0] (.str ['q'])).1.write.toOption) =
      .ok (some (some (asc "2ab"))) := by
  refine ⟨?_, ?_, ?_⟩ <;> decide +kernel

/-- C83 fails for the position in the file after reading a DES: that `des_read` used `data_size` bytes
is not checked.  Here it uses three bytes of a DES of two. -/
theorem C83_des_overrun :
    ((DObj.new P0 { lettersDes with desWrite := fun s => .ok (utf8Enc ('1' :: s.take 1)) }).read
        (.str "LETTERS".toList) (some 2) (asc "1abc")).map
      (fun r => r.map fun s => s.2) = .ok (some (asc "c")) := by
  decide +kernel

end Verif.Implement
