import Verif.AttemptTrace

/- Lengths in the header while a file is written that can be written. -/

namespace Verif.Attempt

open Verif

variable {P : PyFloat} {E : Env} {IO : DataIO P.F} {α β : Type}

/-- The lengths in the header have room, whatever the counts are. -/
structure LensFit (segs : SegKind → List (Seg P.F IO.D)) (X : Store P.F) : Prop where
  fl : ∀ v : Nat, X flPos [] = some ⟨.val (.int v), none⟩ → v < 10 ^ 12
  len : ∀ k (j v : Nat), j < (segs k).length →
    (X (lenPos k) [(j : Int)] = some ⟨.val (.int v), none⟩ → v < 10 ^ (lenDigits k).1) ∧
    (X (dataPos k) [(j : Int)] = some ⟨.val (.int v), none⟩ → v < 10 ^ (lenDigits k).2)

theorem LensFit.cells {segs : SegKind → List (Seg P.F IO.D)} {X : Store P.F} (h : LensFit segs X) :
    CellFits segs X := ⟨h.fl, fun k j v hj _ => h.len k j v hj⟩

theorem LensFit.congr {segs : SegKind → List (Seg P.F IO.D)} {X Y : Store P.F} (h : LensFit segs X)
    (h1 : Y flPos [] = X flPos []) (h2 : ∀ q (j : Nat), Y q [(j : Int)] = X q [(j : Int)]) :
    LensFit segs Y := by
  refine ⟨by rw [h1]; exact h.fl, ?_⟩
  intro k j v hj
  rw [h2, h2]
  exact h.len k j v hj

theorem lenPos_ne_dataPos : ∀ k k' : SegKind, lenPos k ≠ dataPos k' := by
  intro k k'
  cases k <;> cases k' <;> decide

theorem lenPos_inj {k k' : SegKind} (h : lenPos k = lenPos k') : k = k' := by
  cases k <;> cases k' <;> first | rfl | (exact absurd h (by decide))

theorem dataPos_inj {k k' : SegKind} (h : dataPos k = dataPos k') : k = k' := by
  cases k <;> cases k' <;> first | rfl | (exact absurd h (by decide))

theorem int_cell {n m : Nat} (h : (some ⟨.val (.int n), none⟩ : Option (Cell P.F)) =
    some ⟨.val (.int m), none⟩) : n = m := by
  injection h with h
  injection h with h
  injection h with h
  injection h with h
  omega

theorem LensFit.setLen {segs : SegKind → List (Seg P.F IO.D)} {X : Store P.F} (h : LensFit segs X)
    {k : SegKind} {i n : Nat} (hn : n < 10 ^ (lenDigits k).1) :
    LensFit segs (X.set (lenPos k) [(i : Int)] ⟨.val (.int n), none⟩) := by
  refine ⟨?_, ?_⟩
  · intro v hv
    unfold Store.set at hv
    rw [if_neg (by simp)] at hv
    exact h.fl v hv
  · intro k' j v hj
    unfold Store.set
    refine ⟨?_, ?_⟩
    · by_cases hc : lenPos k' = lenPos k ∧ [(j : Int)] = [(i : Int)]
      · rw [if_pos hc]
        intro hv
        rw [← int_cell hv, lenPos_inj hc.1]
        exact hn
      · rw [if_neg hc]
        exact (h.len k' j v hj).1
    · rw [if_neg fun hc => lenPos_ne_dataPos k k' hc.1.symm]
      exact (h.len k' j v hj).2

theorem LensFit.setData {segs : SegKind → List (Seg P.F IO.D)} {X : Store P.F} (h : LensFit segs X)
    {k : SegKind} {i n : Nat} (hn : n < 10 ^ (lenDigits k).2) :
    LensFit segs (X.set (dataPos k) [(i : Int)] ⟨.val (.int n), none⟩) := by
  refine ⟨?_, ?_⟩
  · intro v hv
    unfold Store.set at hv
    rw [if_neg (by simp)] at hv
    exact h.fl v hv
  · intro k' j v hj
    unfold Store.set
    refine ⟨?_, ?_⟩
    · rw [if_neg fun hc => lenPos_ne_dataPos k' k hc.1]
      exact (h.len k' j v hj).1
    · by_cases hc : dataPos k' = dataPos k ∧ [(j : Int)] = [(i : Int)]
      · rw [if_pos hc]
        intro hv
        rw [← int_cell hv, dataPos_inj hc.1]
        exact hn
      · rw [if_neg hc]
        exact (h.len k' j v hj).2

theorem LensFit.setFl {segs : SegKind → List (Seg P.F IO.D)} {X : Store P.F} (h : LensFit segs X)
    {n : Nat} (hn : n < 10 ^ 12) :
    LensFit segs (X.set flPos [] ⟨.val (.int n), none⟩) := by
  refine ⟨?_, ?_⟩
  · intro v hv
    unfold Store.set at hv
    rw [if_pos ⟨rfl, rfl⟩] at hv
    rw [← int_cell hv]
    exact hn
  · intro k j v hj
    unfold Store.set
    rw [if_neg (by simp), if_neg (by simp)]
    exact h.len k j v hj

/-! ### Steps -/

theorem bind_ok {m : T P IO α} {k : α → T P IO β} {s : Obj P IO} {x : β × Obj P IO}
    (h : ((m >>= k) s).2 = .ok x) : ∃ a s', (m s).2 = .ok (a, s') ∧ (k a s').2 = .ok x := by
  rw [bind_eq] at h
  rcases hm : m s with ⟨l, _ | ⟨a, s'⟩⟩
  · rw [hm] at h; cases h
  · rw [hm] at h
    exact ⟨a, s', rfl, h⟩

/-- The states of two computations, if the first one returns. -/
theorem all_bind {inv : NFile P.F IO.D → Prop} {m : T P IO α} {k : α → T P IO β} {s : Obj P IO}
    {a : α} {s' : Obj P IO} (hm : (m s).2 = .ok (a, s')) (h1 : ∀ t ∈ (m s).1, inv t.1)
    (h2 : ∀ t ∈ (k a s').1, inv t.1) : ∀ t ∈ ((m >>= k) s).1, inv t.1 := by
  rw [bind_eq]
  rcases hm' : m s with ⟨l, r⟩
  rw [hm'] at hm h1
  simp only at hm
  subst hm
  simp only
  intro t ht
  rcases List.mem_append.mp ht with ht | ht
  · exact h1 t ht
  · exact h2 t ht

theorem runs_prepare_header {inv : NFile P.F IO.D → Prop} {H : Store P.F}
    (hinv : ∀ g, g.header = H → inv g) (k : SegKind) {g : NFile P.F IO.D} {out : Bytes}
    (hg : g.header = H) : ∀ t ∈ (prepareKind k (g, out)).1, inv t.1 := by
  have each : ∀ (areas : List Area) (rest done : List (Seg P.F IO.D)) (g : NFile P.F IO.D),
      g.header = H → Runs (prepareEach k areas done rest) (g, out) inv fun _ _ => True := by
    intro areas rest
    induction rest with
    | nil => intro done g _; exact runs_pure trivial
    | cons s ss ih =>
      intro done g hg
      unfold prepareEach
      refine runs_bind runs_get ?_
      rintro _ _ ⟨rfl, rfl⟩
      simp only
      refine runs_bind runs_lift ?_
      rintro ⟨S', des⟩ _ ⟨_, rfl⟩
      simp only
      have hh : ({ setSegs g k (done ++ { s with sub := S' } :: ss) with des := des } :
          NFile P.F IO.D).header = H := by
        rw [← hg]; cases k <;> rfl
      refine runs_bind (runs_put (hinv _ hh)) ?_
      rintro _ _ rfl
      exact ih _ _ hh
  have : Runs (prepareKind k) (g, out) inv fun _ _ => True := by
    unfold prepareKind
    refine runs_bind runs_get ?_
    rintro _ _ ⟨rfl, rfl⟩
    simp only
    cases k.areas with
    | none => exact runs_pure trivial
    | some areas => exact each areas _ [] g hg
  exact this.1

section
variable {f F' : NFile P.F IO.D} {out : Bytes} {inv : NFile P.F IO.D → Prop}

/-- The header while the segments are written. -/
structure HdrOk (segs : SegKind → List (Seg P.F IO.D)) (H : Store P.F) : Prop where
  fit : LensFit segs H
  counts : ∀ k, H (numPos k) [] = some ⟨.val (.int ((segs k).length : Nat)), none⟩

theorem HdrOk.set {segs : SegKind → List (Seg P.F IO.D)} {H : Store P.F} (h : HdrOk segs H)
    {q : Nat} {key : Key} {c : Cell P.F} (h1 : LensFit segs (H.set q key c))
    (h2 : ∀ k, ¬ (numPos k = q ∧ [] = key)) : HdrOk segs (H.set q key c) :=
  ⟨h1, fun k => by rw [num_frame h2]; exact h.counts k⟩

theorem runs_lengthStep_fit (r : WriteRun P E IO f F' out)
    (hinv : ∀ g : NFile P.F IO.D, LensFit r.segs1 g.header → inv g) {k : SegKind} {i : Nat}
    {linked : Bool} {lsub ldata : Nat} (hlt : i < (r.segs1 k).length)
    (hs : linked = true → lsub < 10 ^ (lenDigits k).1 ∧ ldata < 10 ^ (lenDigits k).2)
    {g : NFile P.F IO.D} {o : Bytes} (hg : HdrOk r.segs1 g.header) :
    Runs (lengthStep r.cs k i linked lsub ldata) (g, o) inv fun _ s' =>
      HdrOk r.segs1 s'.1.header ∧ ∀ k', s'.1.segs k' = g.segs k' := by
  unfold lengthStep
  cases linked with
  | false => exact runs_pure ⟨hg, fun _ => rfl⟩
  | true =>
    simp only [if_true]
    obtain ⟨b1, b2⟩ := hs rfl
    obtain ⟨f1, z1⟩ := len_sized k
    obtain ⟨f2, z2⟩ := data_sized k
    have w1 := hg.set (hg.fit.setLen (k := k) (i := i) b1) (by simp)
    refine runs_bind (runs_updateStep (lenField k).res z1 (check_loop z1 (hg.counts k) hlt)
      (hinv _ w1.fit)) ?_
    rintro _ ⟨g', o'⟩ hg'
    simp only at hg'
    subst hg'
    have w2 := w1.set (w1.fit.setData (k := k) (i := i) b2) (by simp)
    refine runs_imp (runs_updateStep (dataField k).res z2 (check_loop z2 (w1.counts k) hlt)
      (hinv _ w2.fit)) ?_
    rintro _ s' hs'
    rw [hs']
    exact ⟨w2, fun k => by cases k <;> rfl⟩

theorem runs_writeEach_fit (r : WriteRun P E IO f F' out)
    (hinv : ∀ g : NFile P.F IO.D, LensFit r.segs1 g.header → inv g) (k : SegKind) :
    ∀ (rest done pre : List (Seg P.F IO.D)) (g : NFile P.F IO.D) (o : Bytes),
      HdrOk r.segs1 g.header → r.segs1 k = pre ++ rest → pre.length = done.length →
      Runs (writeEach E r.cs k done rest) (g, o) inv fun _ s' =>
        HdrOk r.segs1 s'.1.header ∧ ∀ k', k' ≠ k → s'.1.segs k' = g.segs k' := by
  intro rest
  induction rest with
  | nil => intro done pre g o hg _ _; exact runs_pure ⟨hg, fun _ _ => rfl⟩
  | cons s ss ih =>
    intro done pre g o hg hs hl
    have hget : (r.segs1 k)[done.length]? = some s := by rw [hs, ← hl]; exact getElem_mid _ _ _
    have hlt := lt_of_getElem? hget
    have hh : ∀ (g : NFile P.F IO.D) l, (setSegs g k l).header = g.header := by
      intro g l; cases k <;> rfl
    unfold writeEach
    refine runs_bind runs_lift ?_
    rintro _ _ ⟨_, rfl⟩
    refine runs_bind runs_lift ?_
    rintro sub _ ⟨hu, rfl⟩
    refine runs_bind runs_get ?_
    rintro _ _ ⟨rfl, rfl⟩
    simp only
    have w1 : HdrOk r.segs1 (setSegs g k (done ++ { s with sub := sub } :: ss)).header := by
      rw [hh]; exact hg
    refine runs_bind (runs_put (hinv _ w1.fit)) ?_
    rintro _ _ rfl
    refine runs_bind runs_lift ?_
    rintro sb _ ⟨hsb, rfl⟩
    refine runs_bind runs_get ?_
    rintro _ _ ⟨rfl, rfl⟩
    simp only
    refine runs_bind (runs_put (hinv _ w1.fit)) ?_
    rintro _ _ rfl
    refine runs_bind runs_lift ?_
    rintro db _ ⟨hdb, rfl⟩
    refine runs_bind runs_get ?_
    rintro _ _ ⟨rfl, rfl⟩
    simp only
    refine runs_bind (runs_put (hinv _ w1.fit)) ?_
    rintro _ _ rfl
    refine runs_bind (runs_lengthStep_fit r hinv hlt ?_ w1) ?_
    · intro hlk
      have hlen := (r.each k).length
      obtain ⟨x, hx⟩ : ∃ x, (r.res k)[done.length]? = some x := by
        rw [hlen] at hlt
        exact ⟨_, List.getElem?_eq_getElem hlt⟩
      have hseg := (r.each k).get _ _ _ hget hx
      obtain ⟨sub', u1, _, u2, u3, _⟩ := segBytes_ok P E IO hseg
      rw [hu] at u1
      injection u1 with u1
      subst u1
      rw [hsb] at u2
      injection u2 with u2
      rw [hdb] at u3
      injection u3 with u3
      have := (run_fits r).lengths k _ s x hget hx hlk
      rw [subLimit_eq, dataLimit_eq, ← u2, ← u3] at this
      exact this
    rintro _ ⟨g', o'⟩ ⟨w2, hsame⟩
    refine runs_imp (ih _ (pre ++ [s]) g' o' w2 (by rw [hs]; simp) (by simp [hl])) ?_
    rintro _ s' ⟨q1, q2⟩
    refine ⟨q1, ?_⟩
    intro k' hk'
    rw [q2 k' hk', hsame k']
    cases k <;> cases k' <;> first | exact absurd rfl hk' | rfl

theorem runs_writeKind_fit (r : WriteRun P E IO f F' out)
    (hinv : ∀ g : NFile P.F IO.D, LensFit r.segs1 g.header → inv g) (k : SegKind)
    {g : NFile P.F IO.D} {o : Bytes} (hg : HdrOk r.segs1 g.header) (hs : g.segs k = r.segs1 k) :
    Runs (writeKind E r.cs k) (g, o) inv fun _ s' =>
      HdrOk r.segs1 s'.1.header ∧ ∀ k', k' ≠ k → s'.1.segs k' = g.segs k' := by
  unfold writeKind
  refine runs_bind runs_get ?_
  rintro _ _ ⟨rfl, rfl⟩
  simp only
  exact runs_writeEach_fit r hinv k _ [] [] g o hg hs.symm rfl

/-- The lengths in the header fit all the time, if the file can be written. -/
theorem attempt_fits (hw : writeFile P E IO f = .ok (F', out)) (r : WriteRun P E IO f F' out) :
    ∀ g ∈ states E f, g.header = f.header ∨ LensFit r.segs1 g.header := by
  have hn1 : r.h1 = setNums r.h0 fun k => (r.segs1 k).length := run_h1 r
  have hcnt : ∀ k, r.h1 (numPos k) [] = some ⟨.val (.int ((r.segs1 k).length : Nat)), none⟩ := by
    intro k
    rw [hn1]
    exact setNums_at _ (fun k => (r.segs1 k).length) k
  have fit1 : LensFit r.segs1 r.h1 := by
    obtain ⟨ff, zf⟩ := fl_sized
    refine ⟨?_, ?_⟩
    · intro v hv
      obtain ⟨o, ho⟩ := r.locFl
      exact fits_of_written zf r.chunks (locOf_some ho) hv
    · intro k j v hj
      obtain ⟨f1, z1⟩ := len_sized k
      obtain ⟨f2, z2⟩ := data_sized k
      exact ⟨fun hv => fits_of_written z1 r.chunks (chunk_loop (lenField k) r.chunks (hcnt k) hj) hv,
        fun hv => fits_of_written z2 r.chunks (chunk_loop (dataField k) r.chunks (hcnt k) hj) hv⟩
  have hoff : ∀ q key, (∀ k, ¬ (q = numPos k ∧ key = [])) → r.h1 q key = r.h0 q key := by
    intro q key h
    rw [hn1]
    exact setNums_off _ _ h
  have fit0 : ∀ H : Store P.F, (∀ q key, (∀ k, ¬ (q = numPos k ∧ key = [])) → H q key = r.h0 q key) →
      LensFit r.segs1 H := by
    intro H hH
    refine fit1.congr ?_ ?_
    · rw [hH, hoff] <;> (intro k; cases k <;> decide)
    · intro q j
      rw [hH, hoff] <;> simp
  have hinv : ∀ g : NFile P.F IO.D, LensFit r.segs1 g.header →
      g.header = f.header ∨ LensFit r.segs1 g.header := fun g h => .inr h
  suffices h : ∀ t ∈ (attempt E (f, [])).1, t.1.header = f.header ∨ LensFit r.segs1 t.1.header by
    intro g hg
    unfold states at hg
    rcases List.mem_cons.mp hg with rfl | hg
    · exact .inl rfl
    · obtain ⟨t, ht, rfl⟩ := List.mem_map.mp hg
      exact h t ht
  have hok := attempt_res E f []
  rw [hw] at hok
  simp only at hok
  unfold attempt at hok ⊢
  -- the steps before the header is written
  have s1 : (dropStep (f, ([] : Bytes))).2 = .ok ((), { f with des := r.des0 }, []) := by
    rw [res_dropStep, r.drop0]
  have s2 : (headerStep (({ f with des := r.des0 } : NFile P.F IO.D), ([] : Bytes))).2 =
      .ok ((), { f with header := r.h0, des := r.des1 }, []) := by
    rw [res_headerStep]
    simp only [r.prepH]
  have s3 : (prepareKind .image (({ f with header := r.h0, des := r.des1 } : NFile P.F IO.D),
      ([] : Bytes))).2 =
      .ok ((), { f with header := r.h0, image := r.segs1 .image, des := r.des2 }, []) := by
    rw [res_prepareKind .image (by decide)]
    simp only [NFile.segs, r.prepI]
    rfl
  have s4 : (prepareKind .graphic (({ f with header := r.h0, image := r.segs1 .image, des := r.des2 } :
      NFile P.F IO.D), ([] : Bytes))).2 =
      .ok ((), { f with header := r.h0, image := r.segs1 .image, graphic := r.segs1 .graphic, des := r.des3 }, []) := by
    rw [res_prepareKind .graphic (by decide)]
    simp only [NFile.segs, r.prepG]
    rfl
  have s5 : (prepareKind .text (({ f with header := r.h0, image := r.segs1 .image, graphic := r.segs1 .graphic, des := r.des3 } :
      NFile P.F IO.D), ([] : Bytes))).2 =
      .ok ((), { f with header := r.h0, image := r.segs1 .image, graphic := r.segs1 .graphic, text := r.segs1 .text, des := r.segs1 .des }, []) := by
    rw [res_prepareKind .text (by decide)]
    simp only [NFile.segs, r.prepT]
    rfl
  have s6 : (countStep (({ f with header := r.h0, image := r.segs1 .image, graphic := r.segs1 .graphic, text := r.segs1 .text, des := r.segs1 .des } : NFile P.F IO.D), ([] : Bytes))).2 =
      .ok ((), { f with header := r.h1, image := r.segs1 .image, graphic := r.segs1 .graphic, text := r.segs1 .text, des := r.segs1 .des }, []) := by
    rw [res_countStep]
    simp only [r.nums]
  have s7 : (headerBytes (({ f with header := r.h1, image := r.segs1 .image, graphic := r.segs1 .graphic, text := r.segs1 .text, des := r.segs1 .des } : NFile P.F IO.D), ([] : Bytes))).2 =
      .ok (r.cs, { f with header := r.h1, image := r.segs1 .image, graphic := r.segs1 .graphic, text := r.segs1 .text, des := r.segs1 .des }, chunkBytes r.cs) := by
    rw [res_headerBytes]
    simp only [r.chunks]
  refine all_bind (inv := fun g => g.header = f.header ∨ LensFit r.segs1 g.header) s1 ?_ ?_
  · have : Runs dropStep (f, ([] : Bytes)) (fun g => g.header = f.header ∨ LensFit r.segs1 g.header)
        fun _ _ => True := by
      unfold dropStep
      refine runs_bind runs_get ?_
      rintro _ _ ⟨rfl, rfl⟩
      simp only
      refine runs_bind runs_lift ?_
      rintro d _ ⟨_, rfl⟩
      exact runs_imp (runs_put (.inl rfl)) fun _ _ _ => trivial
    exact this.1
  obtain ⟨_, _, e, hok⟩ := bind_ok hok
  rw [s1] at e
  injection e with e
  injection e with _ e
  subst e
  refine all_bind (inv := fun g => g.header = f.header ∨ LensFit r.segs1 g.header) s2 ?_ ?_
  · have : Runs headerStep (({ f with des := r.des0 } : NFile P.F IO.D), ([] : Bytes))
        (fun g => g.header = f.header ∨ LensFit r.segs1 g.header) fun _ _ => True := by
      unfold headerStep
      refine runs_bind runs_get ?_
      rintro _ _ ⟨rfl, rfl⟩
      simp only
      refine runs_bind runs_lift ?_
      rintro ⟨H, d⟩ _ ⟨hH, rfl⟩
      rw [r.prepH] at hH
      injection hH with hH
      injection hH with hH _
      subst hH
      exact runs_imp (runs_put (.inr (fit0 _ fun _ _ _ => rfl))) fun _ _ _ => trivial
    exact this.1
  obtain ⟨_, _, e, hok⟩ := bind_ok hok
  rw [s2] at e
  injection e with e
  injection e with _ e
  subst e
  have hH0 : ∀ g : NFile P.F IO.D, g.header = r.h0 → g.header = f.header ∨ LensFit r.segs1 g.header :=
    fun g hg => .inr (fit0 _ fun _ _ _ => by rw [hg])
  refine all_bind (inv := fun g => g.header = f.header ∨ LensFit r.segs1 g.header) s3 (runs_prepare_header hH0 .image rfl) ?_
  obtain ⟨_, _, e, hok⟩ := bind_ok hok
  rw [s3] at e
  injection e with e
  injection e with _ e
  subst e
  refine all_bind (inv := fun g => g.header = f.header ∨ LensFit r.segs1 g.header) s4 (runs_prepare_header hH0 .graphic rfl) ?_
  obtain ⟨_, _, e, hok⟩ := bind_ok hok
  rw [s4] at e
  injection e with e
  injection e with _ e
  subst e
  refine all_bind (inv := fun g => g.header = f.header ∨ LensFit r.segs1 g.header) s5 (runs_prepare_header hH0 .text rfl) ?_
  obtain ⟨_, _, e, hok⟩ := bind_ok hok
  rw [s5] at e
  injection e with e
  injection e with _ e
  subst e
  refine all_bind (inv := fun g => g.header = f.header ∨ LensFit r.segs1 g.header) s6 ?_ ?_
  · have : Runs countStep (({ f with header := r.h0, image := r.segs1 .image, graphic := r.segs1 .graphic, text := r.segs1 .text, des := r.segs1 .des } : NFile P.F IO.D), ([] : Bytes))
        (fun g => g.header = f.header ∨ LensFit r.segs1 g.header) fun _ _ => True := by
      unfold countStep
      refine runs_bind runs_get ?_
      rintro _ _ ⟨rfl, rfl⟩
      simp only
      exact runs_countEach (h0 := r.h0) [] [(.image, (r.segs1 .image).length), (.graphic, (r.segs1 .graphic).length), (.text, (r.segs1 .text).length), (.des, (r.segs1 .des).length), (.res, f.res.length)] _ (fun _ _ _ => rfl)
        fun H hH => .inr (fit0 H hH)
    exact this.1
  obtain ⟨_, _, e, hok⟩ := bind_ok hok
  rw [s6] at e
  injection e with e
  injection e with _ e
  subst e
  refine all_bind (inv := fun g => g.header = f.header ∨ LensFit r.segs1 g.header) s7 ?_ ?_
  · have : Runs headerBytes (({ f with header := r.h1, image := r.segs1 .image, graphic := r.segs1 .graphic, text := r.segs1 .text, des := r.segs1 .des } : NFile P.F IO.D), ([] : Bytes))
        (fun g => g.header = f.header ∨ LensFit r.segs1 g.header) fun _ _ => True := by
      unfold headerBytes
      refine runs_bind runs_get ?_
      rintro _ _ ⟨rfl, rfl⟩
      simp only
      refine runs_bind runs_lift ?_
      rintro d _ ⟨_, rfl⟩
      refine runs_bind (runs_put (.inr fit1)) ?_
      rintro _ _ rfl
      exact runs_pure trivial
    exact this.1
  obtain ⟨_, _, e, hok⟩ := bind_ok hok
  rw [s7] at e
  injection e with e
  injection e with e1 e
  subst e e1
  -- the header length and the segments
  have ok1 : HdrOk r.segs1 r.h1 := ⟨fit1, hcnt⟩
  have ok2 : HdrOk r.segs1 (r.h1.set hlPos [] ⟨.val (.int ((chunkBytes r.cs).length : Nat)), none⟩) := by
    refine ok1.set (fit1.congr ?_ ?_) (by intro k; cases k <;> decide)
    · unfold Store.set
      rw [if_neg (by rintro ⟨h, _⟩; revert h; decide)]
    · intro q j
      unfold Store.set
      rw [if_neg (by simp)]
  obtain ⟨fh, zh⟩ := hl_sized
  have r1 := runs_updateStep (cs := r.cs) (inv := fun g => g.header = f.header ∨ LensFit r.segs1 g.header)
    (f := { f with header := r.h1, image := r.segs1 .image, graphic := r.segs1 .graphic, text := r.segs1 .text, des := r.segs1 .des })
    (out := chunkBytes r.cs) hlField.res zh (check_scalar zh _) (hinv _ ok2.fit)
  obtain ⟨_, ⟨g1, o1⟩, e, hok⟩ := bind_ok hok
  have q1 := r1.2 _ _ e
  simp only at q1
  subst q1
  refine all_bind (inv := fun g => g.header = f.header ∨ LensFit r.segs1 g.header) e r1.1 ?_
  obtain ⟨_, ⟨g2, o2⟩, e, hok⟩ := bind_ok hok
  have r2 := runs_writeKind_fit (o := o1) r hinv .image
    (g := { f with header := r.h1.set hlPos [] ⟨.val (.int ((chunkBytes r.cs).length : Nat)), none⟩, image := r.segs1 .image, graphic := r.segs1 .graphic, text := r.segs1 .text, des := r.segs1 .des })
    ok2 rfl
  obtain ⟨p1, t1⟩ := r2.2 _ _ e
  refine all_bind (inv := fun g => g.header = f.header ∨ LensFit r.segs1 g.header) e r2.1 ?_
  simp only at p1 t1
  obtain ⟨_, ⟨g3, o3⟩, e, hok⟩ := bind_ok hok
  have r3 := runs_writeKind_fit (o := o2) r hinv .graphic (g := g2) p1 (by rw [t1 .graphic (by decide)]; first | rfl | exact r.segsR.symm)
  obtain ⟨p2, t2⟩ := r3.2 _ _ e
  refine all_bind (inv := fun g => g.header = f.header ∨ LensFit r.segs1 g.header) e r3.1 ?_
  simp only at p2 t2
  obtain ⟨_, ⟨g4, o4⟩, e, hok⟩ := bind_ok hok
  have r4 := runs_writeKind_fit (o := o3) r hinv .text (g := g3) p2 (by rw [t2 .text (by decide), t1 .text (by decide)]; first | rfl | exact r.segsR.symm)
  obtain ⟨p3, t3⟩ := r4.2 _ _ e
  refine all_bind (inv := fun g => g.header = f.header ∨ LensFit r.segs1 g.header) e r4.1 ?_
  simp only at p3 t3
  obtain ⟨_, ⟨g5, o5⟩, e, hok⟩ := bind_ok hok
  have r5 := runs_writeKind_fit (o := o4) r hinv .des (g := g4) p3 (by rw [t3 .des (by decide), t2 .des (by decide), t1 .des (by decide)]; first | rfl | exact r.segsR.symm)
  obtain ⟨p4, t4⟩ := r5.2 _ _ e
  refine all_bind (inv := fun g => g.header = f.header ∨ LensFit r.segs1 g.header) e r5.1 ?_
  simp only at p4 t4
  obtain ⟨_, ⟨g6, o6⟩, e, hok⟩ := bind_ok hok
  have r6 := runs_writeKind_fit (o := o5) r hinv .res (g := g5) p4 (by rw [t4 .res (by decide), t3 .res (by decide), t2 .res (by decide), t1 .res (by decide)]; first | rfl | exact r.segsR.symm)
  obtain ⟨p5, t5⟩ := r6.2 _ _ e
  refine all_bind (inv := fun g => g.header = f.header ∨ LensFit r.segs1 g.header) e r6.1 ?_
  simp only at p5 t5
  obtain ⟨_, _, e, hok⟩ := bind_ok hok
  rw [res_get] at e
  injection e with e
  injection e with e1 e2
  subst e1 e2
  refine all_bind (inv := fun g => g.header = f.header ∨ LensFit r.segs1 g.header) (a := (g6, o6)) (s' := (g6, o6)) rfl (by intro t ht; cases ht) ?_
  simp only at hok ⊢
  -- the length of the file
  obtain ⟨ff, zf⟩ := fl_sized
  obtain ⟨_, ⟨g7, o7⟩, e, hok⟩ := bind_ok hok
  have hg7 := (runs_updateStep (cs := r.cs) (inv := fun _ => True) (f := g6) (out := o6) flField.res zf
    (check_scalar zf _) trivial).2 _ _ e
  simp only at hg7
  have hF : F'.header flPos [] = some ⟨.val (.int (o6.length : Nat)), none⟩ := by
    rw [res_dropStep] at hok
    cases hd : dropOverflow P IO g7.des with
    | error x => rw [hd] at hok; cases hok
    | ok d =>
      rw [hd] at hok
      simp only at hok
      injection hok with hok
      injection hok with _ hok
      injection hok with hok _
      rw [← hok, hg7]
      show (g6.header.set flPos [] _) flPos [] = _
      unfold Store.set
      rw [if_pos ⟨rfl, rfl⟩]
  have hlt : o6.length < 10 ^ 12 := by
    obtain ⟨o, ho⟩ := r.locFl
    rw [← locOf_slots 0 r.slots] at ho
    exact fits_of_written zf r.chunks' (locOf_some ho) hF
  have ok7 := p5.set (p5.fit.setFl hlt) (by intro k; cases k <;> decide)
  have r7 := runs_updateStep (cs := r.cs) (inv := fun g => g.header = f.header ∨ LensFit r.segs1 g.header)
    (f := g6) (out := o6) flField.res zf (check_scalar zf _) (hinv _ ok7.fit)
  refine all_bind (inv := fun g => g.header = f.header ∨ LensFit r.segs1 g.header) e r7.1 ?_
  have : Runs dropStep (g7, o7) (fun g => g.header = f.header ∨ LensFit r.segs1 g.header)
      fun _ _ => True := by
    unfold dropStep
    refine runs_bind runs_get ?_
    rintro _ _ ⟨rfl, rfl⟩
    simp only
    refine runs_bind runs_lift ?_
    rintro d _ ⟨_, rfl⟩
    refine runs_imp (runs_put ?_) fun _ _ _ => trivial
    rw [hg7]
    exact .inr ok7.fit
  exact this.1

end

end Verif.Attempt
