import Verif.AttemptDone

/- The state a file object is left in, and lengths that do not fit. -/

namespace Verif.Attempt

open Verif

variable {P : PyFloat} {E : Env} {IO : DataIO P.F} {α β : Type}

/-- The last of the states. -/
def last (s : Obj P IO) (l : List (Obj P IO)) : Obj P IO := (s :: l).getLast (by simp)

theorem last_append (s : Obj P IO) (l1 l2 : List (Obj P IO)) :
    last s (l1 ++ l2) = last (last s l1) l2 := by
  unfold last
  cases l2 with
  | nil => simp
  | cons a l2 =>
    rw [List.getLast_cons (by simp), List.getLast_cons (by simp), List.getLast_append_of_ne_nil _ (by simp)]

theorem left_eq (f : NFile P.F IO.D) : left E f = (last (f, []) (attempt E (f, [])).1).1 := by
  unfold left last states
  rw [← List.getLast_map (f := Prod.fst) (h := by simp)]
  rfl

/-- From `s`: `post` holds if `m` returns, and `err` of the state it leaves if it raises. -/
def Ends (m : T P IO α) (s : Obj P IO) (post : α → Obj P IO → Prop) (err : NFile P.F IO.D → Prop) :
    Prop :=
  match (m s).2 with
  | .error _ => err (last s (m s).1).1
  | .ok (a, s') => s' = last s (m s).1 ∧ post a s'

variable {post : β → Obj P IO → Prop} {err : NFile P.F IO.D → Prop}

theorem ends_bind {m : T P IO α} {k : α → T P IO β} {s : Obj P IO} {mid : α → Obj P IO → Prop}
    (h : Ends m s mid err) (hk : ∀ a s', mid a s' → Ends (k a) s' post err) :
    Ends (m >>= k) s post err := by
  unfold Ends at h ⊢
  rw [bind_eq]
  rcases hm : m s with ⟨l, _ | ⟨a, s'⟩⟩
  · rw [hm] at h
    exact h
  · rw [hm] at h
    simp only at h ⊢
    obtain ⟨h1, h2⟩ := h
    have h3 := hk a s' h2
    unfold Ends at h3
    rw [last_append, ← h1]
    exact h3

theorem ends_imp {m : T P IO β} {s : Obj P IO} {post' : β → Obj P IO → Prop}
    (h : Ends m s post err) (hp : ∀ a s', post a s' → post' a s') : Ends m s post' err := by
  unfold Ends at h ⊢
  split at h
  · exact h
  · exact ⟨h.1, hp _ _ h.2⟩

/-- Where the result is known. -/
theorem ends_res {m : T P IO α} {s : Obj P IO} (h : Ends m s (fun _ _ => True) fun _ => True)
    {a : α} {s' : Obj P IO} (hr : (m s).2 = .ok (a, s')) :
    Ends m s (fun b t => b = a ∧ t = s') err := by
  unfold Ends at h ⊢
  rw [hr] at h ⊢
  exact ⟨h.1, rfl, rfl⟩

theorem ends_get {s : Obj P IO} : Ends get s (fun a s' => a = s ∧ s' = s) err := ⟨rfl, rfl, rfl⟩

theorem ends_put {s t : Obj P IO} : Ends (put t) s (fun _ s' => s' = t) err := ⟨rfl, rfl⟩

theorem ends_pure {b : β} {s : Obj P IO} (h : post b s) : Ends (pure b) s post err := ⟨rfl, h⟩

theorem ends_raise {e : Err} {s : Obj P IO} (h : err s.1) : Ends (raise e) s post err := h

theorem ends_lift_ok {x : Except Err α} {a : α} {s : Obj P IO} (h : x = .ok a) :
    Ends (lift x) s (fun b s' => b = a ∧ s' = s) err := by
  subst h
  exact ⟨rfl, rfl, rfl⟩

theorem ends_lift {x : Except Err α} {s : Obj P IO} :
    Ends (lift x) s (fun b s' => x = .ok b ∧ s' = s) fun _ => True := by
  cases x with
  | error e => exact trivial
  | ok a => exact ⟨rfl, rfl, rfl⟩

/-! ### All states are recorded -/

/-- The state at the end is the last one recorded. -/
abbrev Tracks (m : T P IO α) : Prop := ∀ s, Ends m s (fun _ _ => True) fun _ => True

theorem tracks_bind {m : T P IO α} {k : α → T P IO β} (h : Tracks m) (hk : ∀ a, Tracks (k a)) :
    Tracks (m >>= k) := fun s => ends_bind (h s) fun a s' _ => hk a s'

theorem tracks_get : Tracks (get : T P IO (Obj P IO)) := fun _ => ends_imp ends_get fun _ _ _ => trivial
theorem tracks_put (t : Obj P IO) : Tracks (put t) := fun _ => ends_imp ends_put fun _ _ _ => trivial
theorem tracks_pure (a : α) : Tracks (pure a : T P IO α) := fun _ => ends_pure trivial
theorem tracks_raise (e : Err) : Tracks (raise e : T P IO α) := fun _ => ends_raise trivial
theorem tracks_lift (x : Except Err α) : Tracks (lift x : T P IO α) :=
  fun _ => ends_imp ends_lift fun _ _ _ => trivial

theorem tracks_dropStep : Tracks (dropStep : T P IO Unit) :=
  tracks_bind tracks_get fun _ => tracks_bind (tracks_lift _) fun _ => tracks_put _

theorem tracks_headerStep : Tracks (headerStep : T P IO Unit) :=
  tracks_bind tracks_get fun _ => tracks_bind (tracks_lift _) fun _ => tracks_put _

theorem tracks_prepareEach (k : SegKind) (areas : List Area) : ∀ rest done : List (Seg P.F IO.D),
    Tracks (prepareEach k areas done rest)
  | [], _ => tracks_pure _
  | s :: ss, done => by
    unfold prepareEach
    exact tracks_bind tracks_get fun _ => tracks_bind (tracks_lift _) fun _ =>
      tracks_bind (tracks_put _) fun _ => tracks_prepareEach k areas ss _

theorem tracks_prepareKind (k : SegKind) : Tracks (prepareKind k : T P IO Unit) := by
  unfold prepareKind
  refine tracks_bind tracks_get fun _ => ?_
  split
  split
  · exact tracks_pure _
  · exact tracks_prepareEach _ _ _ _

theorem tracks_countEach : ∀ l, Tracks (countEach l : T P IO Unit)
  | [] => tracks_pure _
  | (nm, v) :: r => by
    unfold countEach
    exact tracks_bind tracks_get fun _ => tracks_bind (tracks_lift _) fun _ =>
      tracks_bind (tracks_put _) fun _ => tracks_countEach r

theorem tracks_countStep : Tracks (countStep : T P IO Unit) :=
  tracks_bind tracks_get fun _ => tracks_countEach _

theorem tracks_headerBytes : Tracks (headerBytes : T P IO (List Chunk)) :=
  tracks_bind tracks_get fun _ => tracks_bind (tracks_lift _) fun _ => tracks_bind (tracks_put _)
    fun _ => tracks_pure _

theorem tracks_updateStep (cs : List Chunk) (nm : Name) (key : Key) (v : Nat) :
    Tracks (updateStep cs nm key v : T P IO Unit) := by
  unfold updateStep
  refine tracks_bind tracks_get fun _ => ?_
  split
  split
  · exact tracks_raise _
  · split
    · exact tracks_bind (tracks_put _) fun _ => tracks_raise _
    · exact tracks_bind (tracks_put _) fun _ => tracks_put _

theorem tracks_lengthStep (cs : List Chunk) (k : SegKind) (i : Nat) (linked : Bool) (n m : Nat) :
    Tracks (lengthStep cs k i linked n m : T P IO Unit) := by
  unfold lengthStep
  split
  · exact tracks_bind (tracks_updateStep _ _ _ _) fun _ => tracks_updateStep _ _ _ _
  · exact tracks_pure _

theorem tracks_writeEach (E : Env) (cs : List Chunk) (k : SegKind) :
    ∀ rest done : List (Seg P.F IO.D), Tracks (writeEach E cs k done rest)
  | [], _ => tracks_pure _
  | s :: ss, done => by
    unfold writeEach
    exact tracks_bind (tracks_lift _) fun _ => tracks_bind (tracks_lift _) fun _ =>
      tracks_bind tracks_get fun _ => tracks_bind (tracks_put _) fun _ =>
      tracks_bind (tracks_lift _) fun _ => tracks_bind tracks_get fun _ =>
      tracks_bind (tracks_put _) fun _ => tracks_bind (tracks_lift _) fun _ =>
      tracks_bind tracks_get fun _ => tracks_bind (tracks_put _) fun _ =>
      tracks_bind (tracks_lengthStep _ _ _ _ _ _) fun _ => tracks_writeEach E cs k ss _

theorem tracks_writeKind (E : Env) (cs : List Chunk) (k : SegKind) :
    Tracks (writeKind E cs k : T P IO Unit) :=
  tracks_bind tracks_get fun _ => tracks_writeEach E cs k _ _

theorem tracks_attempt (E : Env) : Tracks (attempt E : T P IO Unit) :=
  tracks_bind tracks_dropStep fun _ => tracks_bind tracks_headerStep fun _ =>
  tracks_bind (tracks_prepareKind _) fun _ => tracks_bind (tracks_prepareKind _) fun _ =>
  tracks_bind (tracks_prepareKind _) fun _ => tracks_bind tracks_countStep fun _ =>
  tracks_bind tracks_headerBytes fun _ => tracks_bind (tracks_updateStep _ _ _ _) fun _ =>
  tracks_bind (tracks_writeKind _ _ _) fun _ => tracks_bind (tracks_writeKind _ _ _) fun _ =>
  tracks_bind (tracks_writeKind _ _ _) fun _ => tracks_bind (tracks_writeKind _ _ _) fun _ =>
  tracks_bind (tracks_writeKind _ _ _) fun _ => tracks_bind tracks_get fun _ =>
  tracks_bind (tracks_updateStep _ _ _ _) fun _ => tracks_dropStep

/-! ### Lengths that do not fit -/

/-- The header holds a length that does not fit, of an image, graphic, text or reserved segment. -/
def TooLong (g : NFile P.F IO.D) : Prop :=
  ∃ (k : SegKind) (i v : Nat), k ≠ .des ∧ i < (g.segs k).length ∧
    ((g.header (lenPos k) [(i : Int)] = some ⟨.val (.int v), none⟩ ∧ subLimit k ≤ v) ∨
     (g.header (dataPos k) [(i : Int)] = some ⟨.val (.int v), none⟩ ∧ dataLimit k ≤ v))

/-- The header while the segments are written: it was written, and counts the segments. -/
structure HdrRun (segs : SegKind → List (Seg P.F IO.D)) (cs : List Chunk) (H : Store P.F) (out : Bytes) :
    Prop where
  inv : ∃ pst, HdrInv P cs H out pst
  counts : ∀ k, H (numPos k) [] = some ⟨.val (.int ((segs k).length : Nat)), none⟩

theorem HdrRun.append {segs : SegKind → List (Seg P.F IO.D)} {cs : List Chunk} {H : Store P.F}
    {out : Bytes} (h : HdrRun segs cs H out) (b : Bytes) : HdrRun segs cs H (out ++ b) := by
  obtain ⟨pst, hi⟩ := h.inv
  exact ⟨⟨_, hi.append P b⟩, h.counts⟩

section
variable {segs : SegKind → List (Seg P.F IO.D)} {cs : List Chunk}

/-- An update of a cell: it fits, or the header is left with it. -/
theorem ends_updateStep {nm : Name} {n w : Nat} {sh : List Expr} {fi : FInfo}
    (hr : resolve Tables.t_file_header.tab nm = some n) (hz : Sized n w sh fi)
    (hu : Tables.t_file_header.unreferenced n = true) {key : Key} {v : Nat}
    {g : NFile P.F IO.D} {out : Bytes} (hg : HdrRun segs cs g.header out)
    (hne : ∀ k, ¬ (numPos k = n ∧ [] = key))
    (hp : ∃ ch ∈ cs, ch.pos = n ∧ ch.key = key)
    (hc : checkIndex P (look P Tables.t_file_header.tab g.header) fi key = .ok ())
    (herr : 10 ^ w ≤ v → err { g with header := g.header.set n key ⟨.val (.int v), none⟩ }) :
    Ends (updateStep cs nm key v) (g, out) (fun _ s' =>
      s'.1 = { g with header := g.header.set n key ⟨.val (.int v), none⟩ } ∧
        HdrRun segs cs s'.1.header s'.2 ∧ v < 10 ^ w) err := by
  obtain ⟨pst, hI⟩ := hg.inv
  have hset := (runs_updateStep (cs := cs) (f := g) (out := out) (v := v)
    (inv := fun h => h = { g with header := g.header.set n key ⟨.val (.int v), none⟩ }) hr hz hc rfl)
  have htr := tracks_updateStep cs nm key v (g, out)
  unfold Ends at htr ⊢
  have hres := res_updateStep cs nm key v g out
  cases h : updateHeader P cs nm key v (g.header, out) with
  | ok r =>
    obtain ⟨H', out'⟩ := r
    rw [h] at hres
    simp only at hres
    rw [hres] at htr ⊢
    simp only at htr ⊢
    obtain ⟨rfl, I'⟩ := updateHeader_ok P hr hz.at_ (plainInt_spec hz.int).2.2.2.1 hu hI h
    refine ⟨htr.1, rfl, ⟨⟨_, I'⟩, ?_⟩, ?_⟩
    · intro k
      rw [num_frame hne]
      exact hg.counts k
    · obtain ⟨cs', c1, c2, _⟩ := I'.written
      have hp' : ∃ ch ∈ cs', ch.pos = n ∧ ch.key = key := by
        obtain ⟨ch, h1, h2, h3⟩ := hp
        have hm : ch.slot ∈ cs'.map Chunk.slot := by rw [c2]; exact List.mem_map_of_mem h1
        obtain ⟨c, c1, c2⟩ := List.mem_map.mp hm
        exact ⟨c, c1, (congrArg Slot.pos c2).trans h2, (congrArg Slot.key c2).trans h3⟩
      refine fits_of_written hz c1 hp' (raw := none) ?_
      unfold Store.set
      rw [if_pos ⟨rfl, rfl⟩]
  | error e =>
    rw [h] at hres
    simp only at hres
    rw [hres]
    simp only
    have hv : 10 ^ w ≤ v := by
      rcases Nat.lt_or_ge v (10 ^ w) with hv | hv
      · obtain ⟨o', h', _⟩ := updateHeader_succ hr hz hu hI hp hc hv
        rw [h] at h'
        cases h'
      · exact hv
    -- the state was recorded
    have hrec : (updateStep cs nm key v (g, out)).1 ≠ [] := by
      unfold updateStep at hres ⊢
      rw [bind_eq] at hres ⊢
      simp only [get, hr] at hres ⊢
      rcases hu : updateField P Tables.t_file_header cs 0 g.header ⟨out, out.length⟩ n key (.int v) with
        ⟨S', _ | fh⟩
      · simp only
        rw [bind_eq]
        simp [put]
      · simp only
        rw [bind_eq]
        simp [put]
    have hlast : last (g, out) (updateStep cs nm key v (g, out)).1 ∈ (updateStep cs nm key v (g, out)).1 := by
      unfold last
      rw [List.getLast_cons hrec]
      exact List.getLast_mem hrec
    rw [hset.1 _ hlast]
    exact herr hv

theorem ends_lengthStep {k : SegKind} (hk : k ≠ .des) {i : Nat} {linked : Bool} {lsub ldata : Nat}
    (hcs : ∃ H, writeChunks P Tables.t_file_header H = .ok cs ∧
      ∀ k, H (numPos k) [] = some ⟨.val (.int ((segs k).length : Nat)), none⟩)
    (hi : i < (segs k).length) {g : NFile P.F IO.D} {out : Bytes} (hg : HdrRun segs cs g.header out)
    (hgi : i < (g.segs k).length) :
    Ends (lengthStep cs k i linked lsub ldata) (g, out) (fun _ s' =>
      HdrRun segs cs s'.1.header s'.2 ∧ (∀ k, s'.1.segs k = g.segs k) ∧
        (linked = true → lsub < subLimit k ∧ ldata < dataLimit k)) TooLong := by
  unfold lengthStep
  cases linked with
  | false => exact ends_pure ⟨hg, fun _ => rfl, by intro h; cases h⟩
  | true =>
    simp only [if_true]
    obtain ⟨H0, w0, c0⟩ := hcs
    obtain ⟨f1, z1⟩ := len_sized k
    obtain ⟨f2, z2⟩ := data_sized k
    refine ends_bind (ends_updateStep (segs := segs) (lenField k).res z1 (lenField k).unref hg (by simp)
      (chunk_loop (lenField k) w0 (c0 k) hi) (check_loop z1 (hg.counts k) hi) ?_) ?_
    · intro hv
      refine ⟨k, i, lsub, hk, by cases k <;> exact hgi, .inl ⟨?_, by rw [subLimit_eq]; exact hv⟩⟩
      show (g.header.set _ _ _) _ _ = _
      unfold Store.set
      rw [if_pos ⟨rfl, rfl⟩]
    rintro _ ⟨g', o'⟩ ⟨hg', r', b1⟩
    simp only at hg' r'
    subst hg'
    refine ends_imp (ends_updateStep (segs := segs) (dataField k).res z2 (dataField k).unref r' (by simp)
      (chunk_loop (dataField k) w0 (c0 k) hi) (check_loop z2 (r'.counts k) hi) ?_) ?_
    · intro hv
      refine ⟨k, i, ldata, hk, by cases k <;> exact hgi, .inr ⟨?_, by rw [dataLimit_eq]; exact hv⟩⟩
      show ((Store.set _ _ _ _).set _ _ _) _ _ = _
      unfold Store.set
      rw [if_pos ⟨rfl, rfl⟩]
    rintro _ s' ⟨hs', r'', b2⟩
    refine ⟨r'', fun k => by rw [hs']; cases k <;> rfl, fun _ => ?_⟩
    rw [subLimit_eq, dataLimit_eq]
    exact ⟨b1, b2⟩

theorem ends_writeEach {k : SegKind} (hk : k ≠ .des)
    (hcs : ∃ H, writeChunks P Tables.t_file_header H = .ok cs ∧
      ∀ k, H (numPos k) [] = some ⟨.val (.int ((segs k).length : Nat)), none⟩) :
    ∀ (rest done : List (Seg P.F IO.D)) (res : List (Seg P.F IO.D × Bytes × Bytes)) (g : NFile P.F IO.D) (out : Bytes),
      Each (fun s r => segBytes P E IO k s = .ok r) rest res →
      HdrRun segs cs g.header out → g.segs k = done ++ rest →
      done.length + rest.length = (segs k).length →
      Ends (writeEach E cs k done rest) (g, out) (fun _ s' =>
        HdrRun segs cs s'.1.header s'.2 ∧ (∀ k', k' ≠ k → s'.1.segs k' = g.segs k') ∧
        Each (fun s r => s.linked = true → r.2.1.length < subLimit k ∧ r.2.2.length < dataLimit k)
          rest res) TooLong := by
  intro rest
  induction rest with
  | nil =>
    intro done res g out he hg _ _
    cases he
    exact ends_pure ⟨hg, fun _ _ => rfl, .nil⟩
  | cons s ss ih =>
    intro done res g out he hg hs hl
    cases he with
    | @cons _ _ r rs h1 h2 =>
    obtain ⟨sub, u1, u2, u3, u4, u5⟩ := segBytes_ok P E IO h1
    have hh : ∀ (g : NFile P.F IO.D) l, (setSegs g k l).header = g.header := by
      intro g l; cases k <;> rfl
    simp only [List.length_cons] at hl
    unfold writeEach
    refine ends_bind (ends_lift_ok u5) ?_
    rintro _ _ ⟨_, rfl⟩
    refine ends_bind (ends_lift_ok u1) ?_
    rintro sub _ ⟨rfl, rfl⟩
    refine ends_bind ends_get ?_
    rintro _ _ ⟨rfl, rfl⟩
    simp only
    refine ends_bind ends_put ?_
    rintro _ _ rfl
    refine ends_bind (ends_lift_ok u3) ?_
    rintro _ _ ⟨rfl, rfl⟩
    refine ends_bind ends_get ?_
    rintro _ _ ⟨rfl, rfl⟩
    simp only
    refine ends_bind ends_put ?_
    rintro _ _ rfl
    refine ends_bind (ends_lift_ok u4) ?_
    rintro _ _ ⟨rfl, rfl⟩
    refine ends_bind ends_get ?_
    rintro _ _ ⟨rfl, rfl⟩
    simp only
    refine ends_bind ends_put ?_
    rintro _ _ rfl
    have w1 : HdrRun segs cs (setSegs g k (done ++ { s with sub := sub } :: ss)).header
        (out ++ r.2.1 ++ r.2.2) := by
      rw [hh]
      exact (hg.append _).append _
    refine ends_bind (ends_lengthStep hk hcs (by omega) w1 (by rw [setSegs_segs]; simp)) ?_
    rintro _ ⟨g', o'⟩ ⟨w2, hsame, hfit⟩
    refine ends_imp (ih (done ++ [{ s with sub := sub }]) rs g' o' h2 w2 ?_ (by simp; omega)) ?_
    · have := hsame k
      simp only at this
      rw [this, setSegs_segs]
      simp
    rintro _ s' ⟨q1, q2, q3⟩
    refine ⟨q1, ?_, .cons hfit q3⟩
    intro k' hk'
    rw [q2 k' hk']
    have := hsame k'
    simp only at this
    rw [this]
    cases k <;> cases k' <;> first | exact absurd rfl hk' | rfl

theorem ends_writeKind {k : SegKind} (hk : k ≠ .des)
    (hcs : ∃ H, writeChunks P Tables.t_file_header H = .ok cs ∧
      ∀ k, H (numPos k) [] = some ⟨.val (.int ((segs k).length : Nat)), none⟩)
    {res : List (Seg P.F IO.D × Bytes × Bytes)} {g : NFile P.F IO.D} {out : Bytes}
    (he : Each (fun s r => segBytes P E IO k s = .ok r) (segs k) res)
    (hg : HdrRun segs cs g.header out) (hs : g.segs k = segs k) :
    Ends (writeKind E cs k) (g, out) (fun _ s' =>
        HdrRun segs cs s'.1.header s'.2 ∧ (∀ k', k' ≠ k → s'.1.segs k' = g.segs k') ∧
        Each (fun s r => s.linked = true → r.2.1.length < subLimit k ∧ r.2.2.length < dataLimit k)
          (segs k) res) TooLong := by
  unfold writeKind
  refine ends_bind ends_get ?_
  rintro _ _ ⟨rfl, rfl⟩
  simp only
  rw [hs]
  exact ends_writeEach hk hcs _ [] _ g out he hg hs (by simp)

end

/-- If everything can be written but for a length of an image, graphic or text that does not fit,
the header is left with a length that does not fit. -/
theorem attempt_tooLong {f : NFile P.F IO.D} {h1 : Store P.F} {segs : SegKind → List (Seg P.F IO.D)}
    (hp : prepareFile P IO f = .ok (h1, segs)) {cs : List Chunk}
    (hc : writeChunks P Tables.t_file_header h1 = .ok cs) (hl : (chunkBytes cs).length < 1000000)
    {res : SegKind → List (Seg P.F IO.D × Bytes × Bytes)}
    (hs : ∀ k, Each (fun s r => segBytes P E IO k s = .ok r) (segs k) (res k))
    {k : SegKind} (hk : k = .image ∨ k = .graphic ∨ k = .text) {i : Nat} {s : Seg P.F IO.D}
    {r : Seg P.F IO.D × Bytes × Bytes} (hi : (segs k)[i]? = some s) (hr : (res k)[i]? = some r)
    (hlk : s.linked = true) (hlong : subLimit k ≤ r.2.1.length ∨ dataLimit k ≤ r.2.2.length) :
    TooLong (left E f) := by
  have plan := prepareFile_plan hp
  have hcs : ∃ H, writeChunks P Tables.t_file_header H = .ok cs ∧
      ∀ k, H (numPos k) [] = some ⟨.val (.int ((segs k).length : Nat)), none⟩ := ⟨h1, hc, plan.count⟩
  have hfalse : Each (fun s r => s.linked = true → r.2.1.length < subLimit k ∧
      r.2.2.length < dataLimit k) (segs k) (res k) → False := by
    intro he
    have := he.get _ _ _ hi hr hlk
    omega
  unfold prepareFile at hp
  simp only [Verif.bind_ok, Prod.exists, pure, Except.pure] at hp
  obtain ⟨des0, e0, h0, des1, e1, im1, des2, e2, gr1, des3, e3, tx1, des4, e4, h1', e5, e6⟩ := hp
  injection e6 with e6
  injection e6 with e6 e7
  subst e6 e7
  suffices h : Ends (attempt E) (f, ([] : Bytes)) (fun _ _ => False) TooLong by
    unfold Ends at h
    rw [left_eq]
    cases hh : (attempt E (f, ([] : Bytes))).2 with
    | error e => rw [hh] at h; exact h
    | ok x => rw [hh] at h; exact h.2.elim
  unfold attempt
  refine ends_bind (ends_res (tracks_dropStep _) (a := ()) (s' := ({ f with des := des0 }, []))
    (by rw [res_dropStep, e0])) ?_
  rintro _ _ ⟨_, rfl⟩
  refine ends_bind (ends_res (tracks_headerStep _) (a := ()) (s' := ({ f with header := h0, des := des1 }, []))
    (by rw [res_headerStep]; simp only [e1])) ?_
  rintro _ _ ⟨_, rfl⟩
  refine ends_bind (ends_res (tracks_prepareKind _ _) (a := ())
    (s' := ({ f with header := h0, image := im1, des := des2 }, []))
    (by rw [res_prepareKind .image (by decide)]; simp only [NFile.segs, e2]; rfl)) ?_
  rintro _ _ ⟨_, rfl⟩
  refine ends_bind (ends_res (tracks_prepareKind _ _) (a := ())
    (s' := ({ f with header := h0, image := im1, graphic := gr1, des := des3 }, []))
    (by rw [res_prepareKind .graphic (by decide)]; simp only [NFile.segs, e3]; rfl)) ?_
  rintro _ _ ⟨_, rfl⟩
  refine ends_bind (ends_res (tracks_prepareKind _ _) (a := ())
    (s' := ({ f with header := h0, image := im1, graphic := gr1, text := tx1, des := des4 }, []))
    (by rw [res_prepareKind .text (by decide)]; simp only [NFile.segs, e4]; rfl)) ?_
  rintro _ _ ⟨_, rfl⟩
  refine ends_bind (ends_res (tracks_countStep _) (a := ())
    (s' := ({ f with header := h1', image := im1, graphic := gr1, text := tx1, des := des4 }, []))
    (by rw [res_countStep]; simp only [e5])) ?_
  rintro _ _ ⟨_, rfl⟩
  refine ends_bind (ends_res (tracks_headerBytes _) (a := cs)
    (s' := ({ f with header := h1', image := im1, graphic := gr1, text := tx1, des := des4 }, chunkBytes cs))
    (by rw [res_headerBytes]; simp only [hc])) ?_
  rintro cs _ ⟨rfl, rfl⟩
  have run0 : HdrRun (fun
    | .image => im1 | .graphic => gr1 | .text => tx1 | .des => des4 | .res => f.res) cs h1' (chunkBytes cs) :=
    ⟨⟨[], cs, hc, rfl, by simp⟩, plan.count⟩
  obtain ⟨fh, zh⟩ := hl_sized
  refine ends_bind (ends_updateStep (g := { f with header := h1', image := im1, graphic := gr1, text := tx1, des := des4 })
    hlField.res zh hl_unref run0
    (by intro k; cases k <;> decide) (chunk_scalar t_file_header_causal hc zh.at_ zh.shapes
        (evalCond_none P (plainInt_spec zh.int).2.2.2.2.2 _ _)) (check_scalar zh _) ?_) ?_
  · intro h
    exact absurd h (by omega)
  rintro _ ⟨g1, o1⟩ ⟨hg1, run1, _⟩
  simp only at hg1 run1
  subst hg1
  refine ends_bind (ends_writeKind (k := .image) (by decide) hcs (hs .image) run1 rfl) ?_
  rintro _ ⟨g2, o2⟩ ⟨run2, same2, fit2⟩
  refine ends_bind (ends_writeKind (k := .graphic) (by decide) hcs (hs .graphic) run2
    (same2 .graphic (by decide))) ?_
  rintro _ ⟨g3, o3⟩ ⟨run3, same3, fit3⟩
  refine ends_bind (ends_writeKind (k := .text) (by decide) hcs (hs .text) run3
    ((same3 .text (by decide)).trans (same2 .text (by decide)))) ?_
  rintro _ ⟨g4, o4⟩ ⟨run4, same4, fit4⟩
  exfalso
  rcases hk with rfl | rfl | rfl
  · exact hfalse fit2
  · exact hfalse fit3
  · exact hfalse fit4

theorem storeAreas_frame {d : Desc} (hd : d.causal = true) {as : List Area} {ps : List (Nat × Nat)}
    (hA : AreasRows d as ps) : ∀ {hs : List Bytes} {S S1 : Store P.F},
      storeAreas P d as hs S = .ok S1 → ∀ {q : Nat} {k : Key},
      (∀ a mn, (a, mn) ∈ List.zip as ps → ¬ (q ∈ areaCells d a mn ∧ k = [])) → S1 q k = S q k := by
  induction hA with
  | nil =>
    intro hs S S1 h q k _
    unfold storeAreas at h
    injection h with h
    subst h
    rfl
  | @cons a as m n ps h1 hnd hdis hA ih =>
    intro hs S S1 h q k hq
    cases hs with
    | nil =>
      unfold storeAreas at h
      injection h with h
      subst h
      rfl
    | cons b hs =>
      cases hp : attrPos P d S a.len with
      | error e =>
        unfold storeAreas at h
        rw [hp] at h
        cases h
      | ok pos =>
        rw [storeAreas_cons hd h1 hp] at h
        rw [ih h fun a' mn hz => hq a' mn (by rw [List.zip_cons_cons]; exact List.mem_cons_of_mem _ hz)]
        exact areaStep_frame d a m n b pos S (hq a (m, n) (by simp))

/-- `prepare_tre_write` changes only the TRE areas of the header. -/
theorem prepareHeader_frame {d : Desc} (hd : d.causal = true) {as : List Area} {ps : List (Nat × Nat)}
    (hA : AreasRows d as ps) {pre : Name} {ofl : Str} {i : Nat}
    {tres : List (Tre P.F)} {S S' : Store P.F} {des des' : List (Seg P.F IO.D)}
    (h : prepareHeader P IO d as pre ofl i tres S des = .ok (S', des')) {q : Nat} {k : Key}
    (hq : ∀ a mn, (a, mn) ∈ List.zip as ps → ¬ (q ∈ areaCells d a mn ∧ k = [])) : S' q k = S q k := by
  obtain ⟨o, h1, _⟩ := prepareHeader_ok P IO h
  unfold prepareTreWrite at h1
  cases ht : treWriteAll P tres with
  | error e => rw [ht] at h1; cases h1
  | ok ser =>
    rw [ht] at h1
    simp only at h1
    generalize place ser (as.map fun _ => []) [] = pl at h1
    obtain ⟨heads, ov⟩ := pl
    simp only at h1
    cases hs : storeAreas P d as heads S with
    | error e => rw [hs] at h1; cases h1
    | ok S1 =>
      rw [hs] at h1
      simp only at h1
      have hf := storeAreas_frame hd hA hs hq
      by_cases hov : ov.length > 0
      · rw [if_pos hov] at h1
        cases hA with
        | nil => cases h1
        | @cons a as m n ps ha hnd hdis hA =>
          simp only at h1
          cases h2 : setA P d S1 a.ofl (.int (des.length + 1)) with
          | error e => rw [h2] at h1; cases h1
          | ok S2 =>
            rw [h2] at h1
            simp only at h1
            injection h1 with h1
            injection h1 with he _
            subst he
            obtain ⟨e2, _⟩ := ha.setOfl_ok hd h2
            rw [e2, setOflS_frame d a S1 _ ?_, hf]
            rintro ⟨hr, hk⟩
            exact hq a (m, n) (by simp) ⟨by simp [areaCells, hr], hk⟩
      · rw [if_neg hov] at h1
        injection h1 with h1
        injection h1 with he _
        rw [← he, hf]

/-- Such a file cannot be written. -/
theorem tooLong_raises {G : NFile P.F IO.D} (h : TooLong G) : ∃ e, writeFile P E IO G = .error e := by
  cases hw : writeFile P E IO G with
  | error e => exact ⟨e, rfl⟩
  | ok x =>
    exfalso
    obtain ⟨F', out⟩ := x
    obtain ⟨r⟩ := writeFile_run P E IO hw
    obtain ⟨k, i, v, hk, hi, hv⟩ := h
    have plan := prepareFile_plan (run_prepared r)
    have hlen : i < (r.segs1 k).length := by rw [← (plan.others k hk).length]; exact hi
    have hcell : ∀ q, r.h1 q [(i : Int)] = G.header q [(i : Int)] := by
      intro q
      rw [run_h1, setNums_off _ _ (by simp)]
      exact prepareHeader_frame t_file_header_causal fileAreas_rows r.prepH fun _ _ _ h => by cases h.2
    obtain ⟨f1, z1⟩ := len_sized k
    obtain ⟨f2, z2⟩ := data_sized k
    rcases hv with ⟨h1, h2⟩ | ⟨h1, h2⟩
    · rw [← hcell] at h1
      have := fits_of_written z1 r.chunks (chunk_loop (lenField k) r.chunks (plan.count k) hlen) h1
      rw [subLimit_eq] at h2
      omega
    · rw [← hcell] at h1
      have := fits_of_written z2 r.chunks (chunk_loop (dataField k) r.chunks (plan.count k) hlen) h1
      rw [dataLimit_eq] at h2
      omega

end Verif.Attempt
