import Verif.Merge

/- C42: merged files; C50: JSON delta segments (model in `Verif/Merge.lean`). -/

namespace Verif

section merge

variable {H S T : Type}

/-! ### Specification -/

/-- A part that is missing or empty. -/
def NoPart {α} (o : Option (List α)) : Prop := o = none ∨ o = some []

/-- `l` is the part of the first file that has a non-empty one; it is empty if no file has one. -/
def FirstPart {α : Type} (get : MFile H S T → Option (List α)) (fs : List (MFile H S T)) (l : List α) :
    Prop :=
  (∃ pre f post, fs = pre ++ f :: post ∧ (∀ g ∈ pre, NoPart (get g)) ∧ get f = some l ∧ l ≠ []) ∨
    ((∀ g ∈ fs, NoPart (get g)) ∧ l = [])

/-! ### C42 -/

theorem firstPart_spec {α : Type} (get : MFile H S T → Option (List α)) (fs : List (MFile H S T)) :
    FirstPart get fs (firstPart get fs) := by
  induction fs with
  | nil => exact .inr ⟨by simp, rfl⟩
  | cons f r ih =>
    unfold firstPart
    have skip : NoPart (get f) → FirstPart get (f :: r) (firstPart get r) := by
      intro hf
      rcases ih with ⟨pre, g, post, h1, h2, h3, h4⟩ | ⟨h1, h2⟩
      · refine .inl ⟨f :: pre, g, post, by rw [h1]; rfl, ?_, h3, h4⟩
        intro x hx
        rcases List.mem_cons.mp hx with rfl | hx
        · exact hf
        · exact h2 x hx
      · refine .inr ⟨?_, h2⟩
        intro x hx
        rcases List.mem_cons.mp hx with rfl | hx
        · exact hf
        · exact h1 x hx
    cases hg : get f with
    | none => exact skip (.inl hg)
    | some l =>
      cases l with
      | nil => exact skip (.inr hg)
      | cons x xs => exact .inl ⟨[], f, r, rfl, by simp, hg, by simp⟩

/-- Merged segments of every kind come from the first file that has some. -/
theorem C42_segments (fs : List (MFile H S T)) (k : SegKind) :
    FirstPart (fun f => f.segs k) fs (mergeSegs fs k) := by
  cases k <;> exact firstPart_spec _ fs

/-- So do the TREs. -/
theorem C42_tre (fs : List (MFile H S T)) : FirstPart MFile.tre fs (mergeTre fs) :=
  firstPart_spec _ fs

/-- The header is that of the first file with one. -/
theorem C42_header (fs : List (MFile H S T)) :
    (∃ pre f post, fs = pre ++ f :: post ∧ (∀ g ∈ pre, g.header = none) ∧ f.header ≠ none ∧
      mergeHeader fs = f.header) ∨ ((∀ g ∈ fs, g.header = none) ∧ mergeHeader fs = none) := by
  induction fs with
  | nil => exact .inr ⟨by simp, rfl⟩
  | cons f r ih =>
    unfold mergeHeader
    cases hf : f.header with
    | some h =>
      exact .inl ⟨[], f, r, rfl, by simp, by rw [hf]; simp, by simp [hf]⟩
    | none =>
      simp only
      rcases ih with ⟨pre, g, post, h1, h2, h3, h4⟩ | ⟨h1, h2⟩
      · refine .inl ⟨f :: pre, g, post, by rw [h1]; rfl, ?_, h3, h4⟩
        intro x hx
        rcases List.mem_cons.mp hx with rfl | hx
        · exact hf
        · exact h2 x hx
      · refine .inr ⟨?_, h2⟩
        intro x hx
        rcases List.mem_cons.mp hx with rfl | hx
        · exact hf
        · exact h1 x hx

/-- The specification determines the part. -/
theorem FirstPart.unique {α : Type} {get : MFile H S T → Option (List α)} {fs : List (MFile H S T)}
    {l l' : List α} (h : FirstPart get fs l) (h' : FirstPart get fs l') : l = l' := by
  have aux : ∀ {fs : List (MFile H S T)} {l : List α}, FirstPart get fs l →
      l = firstPart get fs := by
    intro fs l h
    rcases h with ⟨pre, f, post, rfl, h2, h3, h4⟩ | ⟨h1, h2⟩
    · induction pre with
      | nil =>
        simp only [List.nil_append, firstPart, h3]
        cases l with
        | nil => exact absurd rfl h4
        | cons _ _ => rfl
      | cons g pre ih =>
        have := ih fun x hx => h2 x (List.mem_cons_of_mem _ hx)
        rcases h2 g (by simp) with hg | hg <;> simp only [List.cons_append, firstPart, hg] <;>
          exact this
    · subst h2
      induction fs with
      | nil => rfl
      | cons g r ih =>
        have := ih fun x hx => h1 x (List.mem_cons_of_mem _ hx)
        rcases h1 g (by simp) with hg | hg <;> simp only [firstPart, hg] <;> exact this
  rw [aux h, aux h']

/-- Files after the first one with a non-empty part do not matter. -/
theorem C42_rest (pre : List (MFile H S T)) (f : MFile H S T) (post post' : List (MFile H S T)) :
    (∀ k, ¬ NoPart (f.segs k) →
      mergeSegs (pre ++ f :: post) k = mergeSegs (pre ++ f :: post') k) ∧
    (¬ NoPart f.tre → mergeTre (pre ++ f :: post) = mergeTre (pre ++ f :: post')) ∧
    (f.header ≠ none → mergeHeader (pre ++ f :: post) = mergeHeader (pre ++ f :: post')) := by
  have key : ∀ {α : Type} (get : MFile H S T → Option (List α)), ¬ NoPart (get f) →
      firstPart get (pre ++ f :: post) = firstPart get (pre ++ f :: post') := by
    intro α get hf
    induction pre with
    | nil =>
      simp only [List.nil_append, firstPart]
      cases hg : get f with
      | none => exact absurd (.inl hg) hf
      | some l =>
        cases l with
        | nil => exact absurd (.inr hg) hf
        | cons _ _ => rfl
    | cons g pre ih =>
      simp only [List.cons_append, firstPart]
      rw [ih]
  refine ⟨fun k hk => ?_, fun h => key _ h, fun hf => ?_⟩
  · cases k <;> exact key _ hk
  · clear key
    induction pre with
    | nil =>
      simp only [List.nil_append, mergeHeader]
      cases hg : f.header with
      | none => exact absurd hg hf
      | some _ => rfl
    | cons g pre ih =>
      simp only [List.cons_append, mergeHeader]
      rw [ih]

/-- A delta file with one image merged with a full file. -/
example :
    let delta : MFile Nat String Nat := ⟨some 1, fun k => if k = .image then some ["new"] else none, some []⟩
    let base : MFile Nat String Nat := ⟨some 2, fun _ => some ["old"], some [7]⟩
    mergeHeader [delta, base] = some 1 ∧ mergeSegs [delta, base] .image = ["new"] ∧
      mergeSegs [delta, base] .des = ["old"] ∧ mergeTre [delta, base] = [7] := by decide

end merge

/-! ### C50 -/

section json

variable {κ δ η : Type} [DecidableEq κ] [DecidableEq δ]

/-- Exactly one segment of the list has the key. -/
def OnlyMatch (l : List (BSeg κ δ)) (k : κ) (m : BSeg κ δ) : Prop :=
  ∃ pre post, l = pre ++ m :: post ∧ m.key = some k ∧ ∀ x ∈ pre ++ post, x.key ≠ some k

theorem filter_single_iff (l : List (BSeg κ δ)) (k : κ) (m : BSeg κ δ) :
    (l.filter fun b => b.key = some k) = [m] ↔ OnlyMatch l k m := by
  constructor
  · intro h
    induction l with
    | nil => cases h
    | cons a r ih =>
      rw [List.filter_cons] at h
      split at h
      · rename_i ha
        simp only [List.cons.injEq] at h
        refine ⟨[], r, by rw [h.1]; rfl, by rw [← h.1]; simpa using ha, ?_⟩
        intro x hx hk
        have : x ∈ r.filter fun b => b.key = some k := List.mem_filter.mpr ⟨by simpa using hx, by simpa using hk⟩
        rw [h.2] at this
        cases this
      · rename_i ha
        obtain ⟨pre, post, h1, h2, h3⟩ := ih h
        refine ⟨a :: pre, post, by rw [h1]; rfl, h2, ?_⟩
        intro x hx
        rcases List.mem_cons.mp hx with rfl | hx
        · simpa using ha
        · exact h3 x hx
  · rintro ⟨pre, post, rfl, h2, h3⟩
    have none : ∀ q : List (BSeg κ δ), (∀ x ∈ q, x.key ≠ some k) →
        (q.filter fun b => b.key = some k) = [] := by
      intro q hq
      rw [List.filter_eq_nil_iff]
      intro x hx
      simpa using hq x hx
    rw [List.filter_append, List.filter_cons, none pre fun x hx => h3 x (by simp [hx]),
      none post fun x hx => h3 x (by simp [hx])]
    simp [h2]

/-- A segment with its own data is left alone. -/
theorem C50_own {s : JSeg κ δ η} {d : δ} (h : s.data = some d) (segs : Option (List (BSeg κ δ))) :
    s.notify segs = .ok s ∧ s.dataOf = some d := by
  unfold JSeg.notify JSeg.dataOf
  simp [h]

/-- A segment without data is matched exactly when one base segment has its key, and then takes the
data of that segment. -/
theorem C50_match {s : JSeg κ δ η} (h : s.data = none) (l : List (BSeg κ δ)) (s' : JSeg κ δ η) :
    s.notify (some l) = .ok s' ↔
      ∃ k m, s.key = some k ∧ OnlyMatch l k m ∧ s' = { s with merge := some m } := by
  unfold JSeg.notify
  simp only [h]
  cases hk : s.key with
  | none => simp
  | some k =>
    simp only [Option.some.injEq]
    constructor
    · intro hh
      split at hh
      · cases hh
      · rename_i m hm
        simp only [Except.ok.injEq] at hm hh
        exact ⟨k, m, rfl, (filter_single_iff l k m).mp hm, hh.symm⟩
      · cases hh
    · rintro ⟨k', m, rfl, hm, rfl⟩
      rw [(filter_single_iff l k m).mpr hm]

/-- Otherwise it raises. -/
theorem C50_refused {s : JSeg κ δ η} (h : s.data = none) (l : List (BSeg κ δ))
    (hn : ∀ k m, s.key = some k → ¬ OnlyMatch l k m) : s.notify (some l) = .error .runtime := by
  cases hr : s.notify (some l) with
  | ok s' =>
    obtain ⟨k, m, h1, h2, _⟩ := (C50_match h l s').mp hr
    exact absurd h2 (hn k m h1)
  | error e =>
    unfold JSeg.notify at hr
    simp only [h] at hr
    cases hk : s.key with
    | none => rw [hk] at hr; simp at hr; rw [hr]
    | some k =>
      rw [hk] at hr
      simp only at hr
      split at hr
      · rename_i heq; cases heq
      · cases hr
      · cases hr; rfl

/-- After a match the data is that of the base segment. -/
theorem C50_data {s : JSeg κ δ η} (h : s.data = none) {l : List (BSeg κ δ)} {s' : JSeg κ δ η}
    (hs : s.notify (some l) = .ok s') :
    ∃ k m, s.key = some k ∧ OnlyMatch l k m ∧ s'.dataOf = m.data ∧ s'.key = s.key ∧
      s'.header = s.header := by
  obtain ⟨k, m, h1, h2, rfl⟩ := (C50_match h l s').mp hs
  refine ⟨k, m, h1, h2, ?_, rfl, rfl⟩
  unfold JSeg.dataOf
  simp [h]

/-- The outcome for one segment of a delta file. -/
inductive Matched (base : Option (List (BSeg κ δ))) : JSeg κ δ η → JSeg κ δ η → Prop
  | own {s : JSeg κ δ η} {d : δ} : s.data = some d → Matched base s s
  | base {s : JSeg κ δ η} {l : List (BSeg κ δ)} {k : κ} {m : BSeg κ δ} :
      s.data = none → base = some l → s.key = some k → OnlyMatch l k m →
      Matched base s { s with merge := some m }

theorem matched_of_notify {base : Option (List (BSeg κ δ))} {s s' : JSeg κ δ η}
    (h : s.notify base = .ok s') : Matched base s s' := by
  cases hd : s.data with
  | some d =>
    rw [(C50_own hd base).1] at h
    cases h
    exact .own hd
  | none =>
    cases base with
    | some l =>
      obtain ⟨k, m, h1, h2, rfl⟩ := (C50_match hd l s').mp h
      exact .base hd rfl h1 h2
    | none =>
      unfold JSeg.notify at h
      simp only [hd] at h
      cases hk : s.key with
      | none => rw [hk] at h; cases h
      | some k => rw [hk] at h; cases h

theorem notifyList_spec {base : Option (List (BSeg κ δ))} (l : List (JSeg κ δ η)) :
    ∀ {l' : List (JSeg κ δ η)}, notifyList base l = .ok l' →
      l'.length = l.length ∧ ∀ (i : Nat) s s', l[i]? = some s → l'[i]? = some s' →
        Matched base s s' := by
  induction l with
  | nil =>
    intro l' h
    unfold notifyList at h
    cases h
    exact ⟨rfl, by simp⟩
  | cons a r ih =>
    intro l' h
    unfold notifyList at h
    cases ha : a.notify base with
    | error e => rw [ha] at h; cases h
    | ok a' =>
      rw [ha] at h
      simp only at h
      cases hr : notifyList base r with
      | error e => rw [hr] at h; cases h
      | ok r' =>
        rw [hr] at h
        cases h
        obtain ⟨h1, h2⟩ := ih hr
        refine ⟨by simp [h1], ?_⟩
        intro i s s' hs hs'
        cases i with
        | zero => simp at hs hs'; subst hs; subst hs'; exact matched_of_notify ha
        | succ i => exact h2 i s s' (by simpa using hs) (by simpa using hs')

theorem notifyKinds_spec {base : SegKind → Option (List (BSeg κ δ))}
    {segs : SegKind → Option (List (JSeg κ δ η))} (ks : List SegKind) :
    ∀ {m}, notifyKinds base segs ks = .ok m → m.map (·.1) = ks ∧
      ∀ k l', (k, l') ∈ m → l'.length = ((segs k).getD []).length ∧
        ∀ (i : Nat) s s', ((segs k).getD [])[i]? = some s → l'[i]? = some s' →
          Matched (base k) s s' := by
  induction ks with
  | nil => intro m h; unfold notifyKinds at h; cases h; simp
  | cons k r ih =>
    intro m h
    unfold notifyKinds at h
    have hkl : ∀ l, (match segs k with
        | none => .ok []
        | some l => notifyList (base k) l : Except Err (List (JSeg κ δ η))) = .ok l →
        l.length = ((segs k).getD []).length ∧
        ∀ (i : Nat) s s', ((segs k).getD [])[i]? = some s → l[i]? = some s' →
          Matched (base k) s s' := by
      intro l hl
      cases hs : segs k with
      | none => rw [hs] at hl; cases hl; exact ⟨rfl, by simp⟩
      | some q => rw [hs] at hl; exact notifyList_spec q hl
    split at h
    · cases h
    · rename_i l hl
      cases hr : notifyKinds base segs r with
      | error e => rw [hr] at h; cases h
      | ok m' =>
        rw [hr] at h
        cases h
        obtain ⟨h1, h2⟩ := ih hr
        refine ⟨by simp [h1], ?_⟩
        intro k' l' hm
        rcases List.mem_cons.mp hm with he | hm
        · cases he; exact hkl _ hl
        · exact h2 k' l' hm

theorem shareHeaders_spec (l : List (JSeg κ δ η)) : ∀ {hd hd' : δ → η},
    shareHeaders l hd = .ok hd' →
      (∀ s ∈ l, s.dataOf ≠ none) ∧
      (∀ pre s post d, l = pre ++ s :: post → s.dataOf = some d →
        (∀ x ∈ post, x.dataOf ≠ some d) → hd' d = s.header) ∧
      ∀ d, (∀ s ∈ l, s.dataOf ≠ some d) → hd' d = hd d := by
  induction l with
  | nil =>
    intro hd hd' h
    unfold shareHeaders at h
    cases h
    exact ⟨by simp, by simp, fun _ _ => rfl⟩
  | cons a r ih =>
    intro hd hd' h
    unfold shareHeaders at h
    cases ha : a.dataOf with
    | none => rw [ha] at h; cases h
    | some e =>
      rw [ha] at h
      obtain ⟨h1, h2, h3⟩ := ih h
      refine ⟨?_, ?_, ?_⟩
      · intro s hs
        rcases List.mem_cons.mp hs with rfl | hs
        · rw [ha]; simp
        · exact h1 s hs
      · intro pre s post d hl hd0 hpost
        cases pre with
        | nil =>
          simp only [List.nil_append, List.cons.injEq] at hl
          obtain ⟨rfl, rfl⟩ := hl
          rw [ha] at hd0
          cases hd0
          rw [h3 e hpost]
          simp
        | cons b pre =>
          simp only [List.cons_append, List.cons.injEq] at hl
          exact h2 pre s post d hl.2 hd0 hpost
      · intro d hd0
        rw [h3 d fun s hs => hd0 s (List.mem_cons_of_mem _ hs)]
        have : d ≠ e := fun hh => hd0 a (by simp) (by rw [ha, hh])
        simp [this]

/-- C50, whole files: when merging a delta file with one other file succeeds, each of its segments
keeps its own data or takes that of the only base segment of the same kind with its key; all have
data then, and the data objects refer to the headers of the delta file. -/
theorem C50_file {base : SegKind → Option (List (BSeg κ δ))}
    {segs : SegKind → Option (List (JSeg κ δ η))} {hd hd' : δ → η} {m}
    (h : notifyMerge [base] segs hd = .ok (m, hd')) :
    m.map (·.1) = [.image, .graphic, .text, .des, .res] ∧
    (∀ k l', (k, l') ∈ m → l'.length = ((segs k).getD []).length ∧
      ∀ (i : Nat) s s', ((segs k).getD [])[i]? = some s → l'[i]? = some s' →
        Matched (base k) s s' ∧ s'.dataOf ≠ none) ∧
    (∀ pre s post d, m.flatMap (·.2) = pre ++ s :: post → s.dataOf = some d →
      (∀ x ∈ post, x.dataOf ≠ some d) → hd' d = s.header) ∧
    (∀ d, (∀ s ∈ m.flatMap (·.2), s.dataOf ≠ some d) → hd' d = hd d) := by
  unfold notifyMerge at h
  simp only at h
  cases hn : notifyKinds base segs [.image, .graphic, .text, .des, .res] with
  | error e => rw [hn] at h; cases h
  | ok m' =>
    rw [hn] at h
    simp only at h
    cases hs : shareHeaders (m'.flatMap (·.2)) hd with
    | error e => rw [hs] at h; cases h
    | ok q =>
      rw [hs] at h
      cases h
      obtain ⟨a1, a2⟩ := notifyKinds_spec _ hn
      obtain ⟨b1, b2, b3⟩ := shareHeaders_spec _ hs
      refine ⟨a1, fun k l' hm => ⟨(a2 k l' hm).1, fun i s s' hi hi' => ⟨(a2 k l' hm).2 i s s' hi hi', ?_⟩⟩,
        b2, b3⟩
      exact b1 s' (List.mem_flatMap.mpr ⟨(k, l'), hm, List.mem_of_getElem? hi'⟩)

/-- Merging with no or with several other files raises. -/
theorem C50_two_files (others : List (SegKind → Option (List (BSeg κ δ))))
    (h : others.length ≠ 1) (segs : SegKind → Option (List (JSeg κ δ η))) (hd : δ → η) :
    ∃ e, notifyMerge others segs hd = .error e := by
  match others with
  | [] => exact ⟨_, rfl⟩
  | [_] => simp at h
  | _ :: _ :: _ => exact ⟨_, rfl⟩

/-- An image without data and a text with data; the base has two images. -/
example :
    let base : SegKind → Option (List (BSeg String Nat)) := fun k =>
      if k = .image then some [⟨some "a", some 10⟩, ⟨some "b", some 11⟩] else some []
    let segs : SegKind → Option (List (JSeg String Nat Nat)) := fun k =>
      if k = .image then some [⟨some "b", none, none, 100⟩]
      else if k = .text then some [⟨some "t", some 5, none, 101⟩] else none
    ∃ hd, notifyMerge [base] segs (fun _ => 0) = .ok ([(.image, [⟨some "b", none,
      some ⟨some "b", some 11⟩, 100⟩]), (.graphic, []), (.text, [⟨some "t", some 5, none, 101⟩]),
      (.des, []), (.res, [])], hd) ∧ hd 11 = 100 ∧ hd 5 = 101 ∧ hd 10 = 0 := by
  exact ⟨_, rfl, rfl, rfl, rfl⟩

/-- Two base segments with the key. -/
example : ({ key := some 1, data := none, merge := none, header := 0 } : JSeg Nat Nat Nat).notify
    (some [⟨some 1, some 2⟩, ⟨some 1, some 3⟩]) = .error .runtime := rfl

end json

end Verif
