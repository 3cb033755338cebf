import Verif.PrintFile

/-
C78: printing a file (model in `Verif/PrintFile.lean`).
-/

namespace Verif
namespace PrintFile

/-! ### Specification -/

/-- The text of a segment with its title and the line after it; `i` counts from 0. -/
def segBlock (name : String) (n i : Nat) (x : Text) : Text :=
  name.toList ++ " segment ".toList ++ decStr (i + 1) ++ " of ".toList ++ decStr n ++ "\n".toList ++
    x ++ rule.toList

/-- The texts `xs` of the segments of one kind. -/
def kindText (name : String) (xs : List Text) : Text :=
  if xs = [] then "No ".toList ++ name.toList ++ " segments\n".toList
  else rule.toList ++ (xs.zipIdx.map fun p => segBlock name xs.length p.2 p.1).flatten

/-- The texts of all segments, kind by kind, in the order of the file. -/
def kindsText (xs : SegKind → List Text) : Text :=
  kindText "Image" (xs .image) ++ kindText "Graphic" (xs .graphic) ++ kindText "Text" (xs .text) ++
    kindText "Data Extension" (xs .des) ++ kindText "Reserved Extension" (xs .res)

/-- The texts of the TREs of a file. -/
def fileTres (xs : List Text) : Text :=
  if xs = [] then "No file level TREs\n".toList
  else "File level TRES:\n".toList ++ xs.flatten ++ rule.toList

/-- A text as a line. -/
def line (x : Text) : Text := x ++ ['\n']

/-- The full text of a file from the texts of its parts. -/
def fileText (hdr : Text) (tres : List Text) (segs : SegKind → List Text) : Text :=
  rule.toList ++ "File Header:\n".toList ++ line hdr ++ rule.toList ++ fileTres (tres.map line) ++
    kindsText segs

/-- The summary of a file from the summaries of its parts. -/
def summaryText (hdr : Text) (tres : List Text) (segs : SegKind → List Text) : Text :=
  "NITF File Summary\n".toList ++ rule.toList ++ "File Header:\n".toList ++ hdr ++ rule.toList ++
    fileTres tres ++ kindsText segs

/-- `xs` occur in the text one after the other. -/
inductive InOrder : List Text → Text → Prop where
  | nil (t : Text) : InOrder [] t
  | cons (gap x : Text) {xs : List Text} {t : Text} : InOrder xs t → InOrder (x :: xs) (gap ++ x ++ t)

/-- The five kinds in the order of the file. -/
def allKinds : List SegKind := [.image, .graphic, .text, .des, .res]

/-- The hooks that take part in printing. -/
def active (raw : Bool) (hooks : List Hook) : List Hook := hooks.filter fun h => !(raw && h.removed)

/-- How a TRE is shown: the hooks are asked in turn, each may print something; the first that takes
the TRE ends this, if none does the TRE itself is printed. -/
inductive TreShown (s : Nat) (t : Obj) : List Hook → Text → Prop where
  | own {x : Text} : t.str = .ok x → TreShown s t [] (line x)
  | took {h : Hook} {r : List Hook} {x : Text} : h.tre s t.id = .ok (x, true) →
      TreShown s t (h :: r) x
  | passed {h : Hook} {r : List Hook} {x y : Text} : h.tre s t.id = .ok (x, false) →
      TreShown s t r y → TreShown s t (h :: r) (x ++ y)

/-- Every TRE of the list is shown, one after the other. -/
inductive TresShown (s : Nat) (act : List Hook) : List Obj → Text → Prop where
  | nil : TresShown s act [] []
  | cons {t : Obj} {r : List Obj} {x y : Text} : TreShown s t act x → TresShown s act r y →
      TresShown s act (t :: r) (x ++ y)

/-- The part of the text of a segment about its TREs. -/
def TreText (s : Seg) (act : List Hook) (x : Text) : Prop :=
  if s.kind ∈ [SegKind.image, .graphic, .text] then
    (s.tres = [] → x = "TREs:\nNo segment level TREs\n".toList) ∧
      (s.tres ≠ [] → ∃ y, x = "TREs:\n".toList ++ y ∧ TresShown s.id act s.tres y)
  else x = []

/-- The part of the text of a segment about its user subheader. -/
def UserText (s : Seg) (x : Text) : Prop :=
  match s.user with
  | none => x = []
  | some u => ∃ y, u.str = .ok y ∧ x = "User-Defined Subheader: \n".toList ++ line y

/-- The segment holding overflowing TREs. -/
def Seg.Overflow (s : Seg) : Prop := s.kind = .des ∧ s.desid = "TRE_OVERFLOW".toList

/-! ### Helpers -/

theorem cat_ok {a b : Res Text} {t : Text} :
    cat a b = .ok t ↔ ∃ x y, a = .ok x ∧ b = .ok y ∧ t = x ++ y := by
  unfold cat
  cases a with
  | error e => simp
  | ok x =>
    cases b with
    | error e => simp
    | ok y =>
      constructor
      · intro h; cases h; exact ⟨x, y, rfl, rfl, rfl⟩
      · rintro ⟨x', y', h1, h2, h3⟩; cases h1; cases h2; rw [h3]

theorem cat_error {a b : Res Text} {e : Fail} (h : cat a b = .error e) :
    a = .error e ∨ b = .error e := by
  unfold cat at h
  cases a with
  | error e' => left; exact h
  | ok x =>
    cases b with
    | error e' => right; exact h
    | ok y => cases h

theorem say_ok {s : String} {t : Text} : say s = .ok t ↔ t = s.toList := by
  unfold say
  constructor
  · intro h; cases h; rfl
  · intro h; rw [h]

theorem cat_say {s : String} {b : Res Text} {t : Text} :
    cat (say s) b = .ok t ↔ ∃ y, b = .ok y ∧ t = s.toList ++ y := by
  rw [cat_ok]
  constructor
  · rintro ⟨x, y, h1, h2, h3⟩
    rw [say_ok] at h1
    exact ⟨y, h2, by rw [h3, h1]⟩
  · rintro ⟨y, h1, h2⟩
    exact ⟨s.toList, y, rfl, h1, h2⟩

theorem println_ok {a : Res Text} {t : Text} : println a = .ok t ↔ ∃ x, a = .ok x ∧ t = line x := by
  unfold println
  rw [cat_ok]
  constructor
  · rintro ⟨x, y, h1, h2, h3⟩
    rw [say_ok] at h2
    exact ⟨x, h1, by rw [h3, h2]; rfl⟩
  · rintro ⟨x, h1, h2⟩
    exact ⟨x, "\n".toList, h1, rfl, h2⟩

theorem println_error {a : Res Text} {e : Fail} (h : println a = .error e) : a = .error e := by
  rcases cat_error h with h | h
  · exact h
  · cases h

theorem treLines_ok : ∀ {l : List Obj} {t : Text}, treLines l = .ok t ↔
    ∃ xs : List Text, l.map (·.str) = xs.map .ok ∧ t = (xs.map line).flatten := by
  intro l
  induction l with
  | nil =>
    intro t
    unfold treLines
    constructor
    · intro h; cases h; exact ⟨[], rfl, rfl⟩
    · rintro ⟨xs, h1, h2⟩
      cases xs with
      | nil => rw [h2]; rfl
      | cons x xs => simp at h1
  | cons o l ih =>
    intro t
    unfold treLines
    rw [cat_ok]
    constructor
    · rintro ⟨x, y, h1, h2, h3⟩
      obtain ⟨x', h5, rfl⟩ := println_ok.mp h1
      obtain ⟨xs, h4, rfl⟩ := ih.mp h2
      exact ⟨x' :: xs, by simp [h5, h4], by rw [h3]; rfl⟩
    · rintro ⟨xs, h1, h2⟩
      cases xs with
      | nil => simp at h1
      | cons x xs =>
        simp only [List.map_cons, List.cons.injEq] at h1
        exact ⟨line x, (xs.map line).flatten, println_ok.mpr ⟨x, h1.1, rfl⟩, ih.mpr ⟨xs, h1.2, rfl⟩,
          by rw [h2]; rfl⟩

theorem treSummaries_ok : ∀ {l : List Obj} {t : Text}, treSummaries l = .ok t ↔
    ∃ xs : List Text, l.map (·.summary) = xs.map .ok ∧ t = xs.flatten := by
  intro l
  induction l with
  | nil =>
    intro t
    unfold treSummaries
    constructor
    · intro h; cases h; exact ⟨[], rfl, rfl⟩
    · rintro ⟨xs, h1, h2⟩
      cases xs with
      | nil => rw [h2]; rfl
      | cons x xs => simp at h1
  | cons o l ih =>
    intro t
    unfold treSummaries
    rw [cat_ok]
    constructor
    · rintro ⟨x, y, h1, h2, h3⟩
      obtain ⟨xs, h4, rfl⟩ := ih.mp h2
      exact ⟨x :: xs, by simp [h1, h4], by rw [h3]; rfl⟩
    · rintro ⟨xs, h1, h2⟩
      cases xs with
      | nil => simp at h1
      | cons x xs =>
        simp only [List.map_cons, List.cons.injEq] at h1
        exact ⟨x, xs.flatten, h1.1, ih.mpr ⟨xs, h1.2, rfl⟩, by rw [h2]; rfl⟩

theorem segLoop_ok (show' : Seg → Res Text) (name : String) (n : Nat) :
    ∀ {l : List Seg} {i : Nat} {t : Text}, segLoop show' name n i l = .ok t ↔
    ∃ xs : List Text, l.map show' = xs.map .ok ∧
      t = ((xs.zipIdx i).map fun p => segBlock name n p.2 p.1).flatten := by
  intro l
  induction l with
  | nil =>
    intro i t
    unfold segLoop
    constructor
    · intro h; cases h; exact ⟨[], rfl, rfl⟩
    · rintro ⟨xs, h1, h2⟩
      cases xs with
      | nil => rw [h2]; rfl
      | cons x xs => simp at h1
  | cons o l ih =>
    intro i t
    unfold segLoop
    rw [cat_ok]
    constructor
    · rintro ⟨x, y, h1, h2, h3⟩
      cases h1
      obtain ⟨z, y', h4, h5, rfl⟩ := cat_ok.mp h2
      obtain ⟨r, w, h6, h7, rfl⟩ := cat_ok.mp h5
      rw [say_ok] at h6
      obtain ⟨xs, h8, rfl⟩ := ih.mp h7
      refine ⟨z :: xs, by simp [h4, h8], ?_⟩
      rw [h3, h6]
      simp [segBlock, List.zipIdx_cons, List.append_assoc]
    · rintro ⟨xs, h1, h2⟩
      cases xs with
      | nil => simp at h1
      | cons x xs =>
        simp only [List.map_cons, List.cons.injEq] at h1
        refine ⟨_, _, rfl, cat_ok.mpr ⟨x, _, h1.1, cat_ok.mpr ⟨_, _, rfl, ih.mpr ⟨xs, h1.2, rfl⟩,
          rfl⟩, rfl⟩, ?_⟩
        rw [h2]
        simp [segBlock, List.zipIdx_cons, List.append_assoc]

theorem kindPart_ok (show' : Seg → Res Text) (name : String) {l : List Seg} {t : Text} :
    kindPart show' name l = .ok t ↔
    ∃ xs : List Text, l.map show' = xs.map .ok ∧ t = kindText name xs := by
  unfold kindPart
  rw [cat_ok]
  have len : ∀ {xs : List Text}, l.map show' = xs.map .ok → l.length = xs.length := by
    intro xs h
    have := congrArg List.length h
    simpa using this
  constructor
  · rintro ⟨x, y, h1, h2, h3⟩
    obtain ⟨xs, h4, rfl⟩ := (segLoop_ok show' name l.length).mp h2
    refine ⟨xs, h4, ?_⟩
    have hl := len h4
    rw [h3]
    unfold kindText
    by_cases hx : xs = []
    · subst hx
      rw [if_pos (by simpa using hl), say_ok] at h1
      rw [if_pos rfl, h1]
      simp
    · rw [if_neg (by rw [hl]; simpa using hx), say_ok] at h1
      rw [if_neg hx, h1, hl]
  · rintro ⟨xs, h1, h2⟩
    have hl := len h1
    unfold kindText at h2
    by_cases hx : xs = []
    · subst hx
      rw [if_pos rfl] at h2
      refine ⟨_, [], by rw [if_pos (by simpa using hl)]; rfl,
        (segLoop_ok show' name l.length).mpr ⟨[], h1, rfl⟩, ?_⟩
      rw [h2]
      simp
    · rw [if_neg hx] at h2
      refine ⟨_, _, by rw [if_neg (by rw [hl]; simpa using hx)]; rfl,
        (segLoop_ok show' name l.length).mpr ⟨xs, h1, rfl⟩, ?_⟩
      rw [h2, hl]

theorem kindParts_ok (show' : Seg → Res Text) (segs : SegKind → List Seg) {t : Text} :
    kindParts show' segs kinds = .ok t ↔
    ∃ xs : SegKind → List Text, (∀ k, (segs k).map show' = (xs k).map .ok) ∧ t = kindsText xs := by
  unfold kinds
  simp only [kindParts]
  constructor
  · intro h
    obtain ⟨t1, u1, h1, g1, rfl⟩ := cat_ok.mp h
    obtain ⟨t2, u2, h2, g2, rfl⟩ := cat_ok.mp g1
    obtain ⟨t3, u3, h3, g3, rfl⟩ := cat_ok.mp g2
    obtain ⟨t4, u4, h4, g4, rfl⟩ := cat_ok.mp g3
    obtain ⟨t5, u5, h5, g5, rfl⟩ := cat_ok.mp g4
    cases g5
    obtain ⟨x1, a1, rfl⟩ := (kindPart_ok _ _).mp h1
    obtain ⟨x2, a2, rfl⟩ := (kindPart_ok _ _).mp h2
    obtain ⟨x3, a3, rfl⟩ := (kindPart_ok _ _).mp h3
    obtain ⟨x4, a4, rfl⟩ := (kindPart_ok _ _).mp h4
    obtain ⟨x5, a5, rfl⟩ := (kindPart_ok _ _).mp h5
    refine ⟨fun k => match k with
      | .image => x1 | .graphic => x2 | .text => x3 | .des => x4 | .res => x5, ?_, ?_⟩
    · intro k
      cases k <;> assumption
    · simp [kindsText, List.append_assoc]
  · rintro ⟨xs, h1, rfl⟩
    have g : ∀ name k, kindPart show' name (segs k) = .ok (kindText name (xs k)) :=
      fun name k => (kindPart_ok _ _).mpr ⟨xs k, h1 k, rfl⟩
    rw [g, g, g, g, g]
    simp [cat, kindsText, List.append_assoc]

theorem tresPart_ok (show' : List Obj → Res Text) {l : List Obj} {t : Text} :
    (if l.length = 0 then say "No file level TREs\n"
      else cat (say "File level TRES:\n") (cat (show' l) (say rule))) = .ok t ↔
    (l = [] ∧ t = "No file level TREs\n".toList) ∨
      (l ≠ [] ∧ ∃ x, show' l = .ok x ∧ t = "File level TRES:\n".toList ++ x ++ rule.toList) := by
  by_cases hl : l = []
  · subst hl
    simp [say_ok]
  · rw [if_neg (by simpa using hl)]
    constructor
    · intro h
      obtain ⟨a, b, h1, h2, rfl⟩ := cat_ok.mp h
      obtain ⟨x, c, h3, h4, rfl⟩ := cat_ok.mp h2
      rw [say_ok] at h1 h4
      exact .inr ⟨hl, x, h3, by rw [h1, h4]; simp [List.append_assoc]⟩
    · rintro (⟨h, -⟩ | ⟨-, x, h1, h2⟩)
      · exact absurd h hl
      · rw [h1, h2]
        simp [cat, say, List.append_assoc]

/-! ### C78: the text of a file -/

/-- C78, full text: a file can be printed exactly if its header, its TREs and its segments can, and
then the text consists of theirs, each once and in order, with the titles and numbers. -/
theorem C78_file (env : Env) (f : PFile) (t : Text) :
    fileStr env f = .ok t ↔
    ∃ (hdr : Text) (tres : List Text) (segs : SegKind → List Text),
      f.header.str = .ok hdr ∧ f.tres.map (·.str) = tres.map .ok ∧
      (∀ k, (f.segs k).map (segStr env) = (segs k).map .ok) ∧ t = fileText hdr tres segs := by
  unfold fileStr
  constructor
  · intro h
    obtain ⟨u1, g1, e1⟩ := cat_say.mp h
    obtain ⟨u2, g2, e2⟩ := cat_say.mp g1
    obtain ⟨u3, u4, h3, g3, e3⟩ := cat_ok.mp g2
    obtain ⟨u5, g4, e4⟩ := cat_say.mp g3
    obtain ⟨u6, u7, h5, h6, e5⟩ := cat_ok.mp g4
    obtain ⟨hdr, k3, e6⟩ := println_ok.mp h3
    obtain ⟨segs, k6, e7⟩ := (kindParts_ok _ _).mp h6
    rw [e1, e2, e3, e4, e5, e6, e7]
    rcases (tresPart_ok treLines).mp h5 with ⟨hl, e⟩ | ⟨hl, x, h7, e⟩
    · refine ⟨hdr, [], segs, k3, by rw [hl]; rfl, k6, ?_⟩
      rw [e]
      unfold fileText fileTres
      rw [if_pos (by rfl)]
      generalize rule.toList = r
      generalize "File Header:\n".toList = c
      generalize "No file level TREs\n".toList = b
      simp only [List.append_assoc]
    · obtain ⟨xs, h8, e'⟩ := treLines_ok.mp h7
      rw [e'] at e
      refine ⟨hdr, xs, segs, k3, h8, k6, ?_⟩
      have hx : xs.map line ≠ [] := by
        intro hx
        rw [List.map_eq_nil_iff] at hx
        rw [hx] at h8
        exact hl (List.map_eq_nil_iff.mp h8)
      rw [e]
      unfold fileText fileTres
      rw [if_neg hx]
      generalize rule.toList = r
      generalize "File Header:\n".toList = c
      generalize "File level TRES:\n".toList = b
      simp only [List.append_assoc]
  · rintro ⟨hdr, tres, segs, h1, h2, h3, rfl⟩
    have h4 := (kindParts_ok (segStr env) f.segs).mpr ⟨segs, h3, rfl⟩
    have h5 : (if f.tres.length = 0 then say "No file level TREs\n"
        else cat (say "File level TRES:\n") (cat (treLines f.tres) (say rule))) =
        .ok (fileTres (tres.map line)) := by
      rw [tresPart_ok treLines]
      by_cases hl : f.tres = []
      · left
        rw [hl] at h2
        have : tres = [] := by simpa using h2.symm
        subst this
        exact ⟨hl, rfl⟩
      · right
        refine ⟨hl, _, treLines_ok.mpr ⟨tres, h2, rfl⟩, ?_⟩
        have hx : tres.map line ≠ [] := by
          intro hx
          rw [List.map_eq_nil_iff] at hx
          rw [hx] at h2
          exact hl (List.map_eq_nil_iff.mp h2)
        unfold fileTres
        rw [if_neg hx]
    refine cat_say.mpr ⟨_, cat_say.mpr ⟨_, cat_ok.mpr ⟨_, _, println_ok.mpr ⟨hdr, h1, rfl⟩,
      cat_say.mpr ⟨_, cat_ok.mpr ⟨_, _, h5, h4, rfl⟩, rfl⟩, rfl⟩, rfl⟩, ?_⟩
    unfold fileText
    generalize rule.toList = r
    generalize "File Header:\n".toList = c
    simp only [List.append_assoc]

/-- C78, summary: likewise for the summaries. -/
theorem C78_summary (f : PFile) (t : Text) :
    fileSummary f = .ok t ↔
    ∃ (hdr : Text) (tres : List Text) (segs : SegKind → List Text),
      f.header.summary = .ok hdr ∧ f.tres.map (·.summary) = tres.map .ok ∧
      (∀ k, (f.segs k).map segSummary = (segs k).map .ok) ∧ t = summaryText hdr tres segs := by
  unfold fileSummary
  constructor
  · intro h
    obtain ⟨u0, g0, e0⟩ := cat_say.mp h
    obtain ⟨u1, g1, e1⟩ := cat_say.mp g0
    obtain ⟨u2, g2, e2⟩ := cat_say.mp g1
    obtain ⟨hdr, u3, h3, g3, e3⟩ := cat_ok.mp g2
    obtain ⟨u4, g4, e4⟩ := cat_say.mp g3
    obtain ⟨u5, u6, h5, h6, e5⟩ := cat_ok.mp g4
    obtain ⟨segs, k6, e6⟩ := (kindParts_ok _ _).mp h6
    rw [e0, e1, e2, e3, e4, e5, e6]
    rcases (tresPart_ok treSummaries).mp h5 with ⟨hl, e⟩ | ⟨hl, x, h7, e⟩
    · refine ⟨hdr, [], segs, h3, by rw [hl]; rfl, k6, ?_⟩
      rw [e]
      unfold summaryText fileTres
      rw [if_pos rfl]
      generalize "NITF File Summary\n".toList = a
      generalize rule.toList = r
      generalize "File Header:\n".toList = c
      generalize "No file level TREs\n".toList = b
      simp only [List.append_assoc]
    · obtain ⟨xs, h8, e'⟩ := treSummaries_ok.mp h7
      rw [e'] at e
      refine ⟨hdr, xs, segs, h3, h8, k6, ?_⟩
      have hx : xs ≠ [] := by
        intro hx
        rw [hx] at h8
        exact hl (List.map_eq_nil_iff.mp h8)
      rw [e]
      unfold summaryText fileTres
      rw [if_neg hx]
      generalize "NITF File Summary\n".toList = a
      generalize rule.toList = r
      generalize "File Header:\n".toList = c
      generalize "File level TRES:\n".toList = b
      simp only [List.append_assoc]
  · rintro ⟨hdr, tres, segs, h1, h2, h3, rfl⟩
    have h4 := (kindParts_ok segSummary f.segs).mpr ⟨segs, h3, rfl⟩
    have h5 : (if f.tres.length = 0 then say "No file level TREs\n"
        else cat (say "File level TRES:\n") (cat (treSummaries f.tres) (say rule))) =
        .ok (fileTres tres) := by
      rw [tresPart_ok treSummaries]
      by_cases hl : f.tres = []
      · left
        rw [hl] at h2
        have : tres = [] := by simpa using h2.symm
        subst this
        exact ⟨hl, rfl⟩
      · right
        refine ⟨hl, _, treSummaries_ok.mpr ⟨tres, h2, rfl⟩, ?_⟩
        have hx : tres ≠ [] := by
          intro hx
          rw [hx] at h2
          exact hl (List.map_eq_nil_iff.mp h2)
        unfold fileTres
        rw [if_neg hx]
    refine cat_say.mpr ⟨_, cat_say.mpr ⟨_, cat_say.mpr ⟨_, cat_ok.mpr ⟨hdr, _, h1,
      cat_say.mpr ⟨_, cat_ok.mpr ⟨_, _, h5, h4, rfl⟩, rfl⟩, rfl⟩, rfl⟩, rfl⟩, ?_⟩
    unfold summaryText
    generalize "NITF File Summary\n".toList = a
    generalize rule.toList = r
    generalize "File Header:\n".toList = c
    simp only [List.append_assoc]

/-- C78, summary of a segment: that of its subheader, then those of its TREs. -/
theorem C78_segment_summary (s : Seg) (t : Text) :
    segSummary s = .ok t ↔
    ∃ (sub : Text) (tres : List Text), s.sub.summary = .ok sub ∧
      s.tres.map (·.summary) = tres.map .ok ∧
      t = sub ++ (if tres = [] then "No Segment level TRES\n".toList
        else "Segment level TRES:\n".toList ++ tres.flatten) := by
  unfold segSummary
  rw [cat_ok]
  cases hl : s.tres with
  | nil =>
    constructor
    · rintro ⟨x, y, h1, h2, h3⟩
      rw [say_ok] at h2
      exact ⟨x, [], h1, rfl, by rw [h3, h2, if_pos rfl]⟩
    · rintro ⟨sub, tres, h1, h2, h3⟩
      have : tres = [] := by simpa using h2.symm
      subst this
      exact ⟨sub, _, h1, rfl, h3⟩
  | cons o l =>
    constructor
    · rintro ⟨x, y, h1, h2, h3⟩
      obtain ⟨a, b, h4, h5, rfl⟩ := cat_ok.mp h2
      rw [say_ok] at h4
      obtain ⟨xs, h6, rfl⟩ := treSummaries_ok.mp h5
      refine ⟨x, xs, h1, h6, ?_⟩
      rw [if_neg (by rintro rfl; simp at h6), h3, h4]
    · rintro ⟨sub, tres, h1, h2, h3⟩
      rw [if_neg (by rintro rfl; simp at h2)] at h3
      exact ⟨sub, _, h1, cat_ok.mpr ⟨_, _, rfl, treSummaries_ok.mpr ⟨tres, h2, rfl⟩, rfl⟩, h3⟩

theorem InOrder.before (g : Text) {xs : List Text} {t : Text} (h : InOrder xs t) :
    InOrder xs (g ++ t) := by
  cases h with
  | nil t => exact .nil _
  | cons gap x h =>
    rw [← List.append_assoc, ← List.append_assoc]
    exact .cons (g ++ gap) x h

theorem InOrder.append {xs ys : List Text} {t u : Text} (h : InOrder xs t) (h' : InOrder ys u) :
    InOrder (xs ++ ys) (t ++ u) := by
  induction h with
  | nil t => exact h'.before t
  | cons gap x h ih =>
    rw [List.append_assoc]
    exact .cons gap x ih

theorem InOrder.after {xs : List Text} {t : Text} (h : InOrder xs t) (g : Text) :
    InOrder xs (t ++ g) := by
  simpa using h.append (InOrder.nil g)

theorem InOrder.one (x : Text) : InOrder [x] x := by
  simpa using InOrder.cons [] x (InOrder.nil [])

theorem inOrder_kind (name : String) (xs : List Text) : InOrder xs (kindText name xs) := by
  unfold kindText
  by_cases hx : xs = []
  · subst hx; exact .nil _
  · rw [if_neg hx]
    apply InOrder.before
    have : ∀ (n : Nat) (xs : List Text) (i : Nat),
        InOrder xs ((xs.zipIdx i).map fun p => segBlock name n p.2 p.1).flatten := by
      intro n xs
      induction xs with
      | nil => intro i; exact .nil _
      | cons x xs ih =>
        intro i
        have h1 : InOrder [x] (segBlock name n i x) :=
          ((InOrder.one x).before _).after _
        simpa [List.zipIdx_cons] using h1.append (ih (i + 1))
    exact this _ xs 0

/-- C78, nothing is left out: the texts of the header, of every TRE of the file and of every segment
occur in this order, one after the other. -/
theorem C78_order (env : Env) (f : PFile) {t : Text} (h : fileStr env f = .ok t) :
    ∃ (parts : List Text), InOrder parts t ∧
      parts.map .ok = [f.header.str] ++ f.tres.map (·.str) ++
        (allKinds.flatMap f.segs).map (segStr env) := by
  obtain ⟨hdr, tres, segs, h1, h2, h3, rfl⟩ := (C78_file env f t).mp h
  refine ⟨[hdr] ++ tres ++ allKinds.flatMap segs, ?_, ?_⟩
  · unfold fileText
    have h4 : InOrder [hdr] (rule.toList ++ "File Header:\n".toList ++ line hdr ++ rule.toList) := by
      apply InOrder.after
      apply InOrder.before
      exact (InOrder.one hdr).after _
    have h5 : InOrder tres (fileTres (tres.map line)) := by
      unfold fileTres
      by_cases hx : tres.map line = []
      · rw [List.map_eq_nil_iff] at hx; subst hx; exact .nil _
      · rw [if_neg hx]
        apply InOrder.after
        apply InOrder.before
        clear h2 hx h
        induction tres with
        | nil => exact .nil _
        | cons x xs ih =>
          rw [List.map_cons, List.flatten_cons]
          exact ((InOrder.one x).after ['\n']).append ih
    have h6 : InOrder (allKinds.flatMap segs) (kindsText segs) := by
      unfold kindsText allKinds
      have g := fun name k => inOrder_kind name (segs k)
      simpa [List.append_assoc] using ((((g "Image" .image).append (g "Graphic" .graphic)).append
        (g "Text" .text)).append (g "Data Extension" .des)).append (g "Reserved Extension" .res)
    exact (h4.append h5).append h6
  · simp only [List.map_append, List.map_cons, List.map_nil, h1, h2, allKinds, List.flatMap_cons,
      List.flatMap_nil, h3]

theorem kindParts_error (show' : Seg → Res Text) (segs : SegKind → List Seg) {e : Fail} :
    ∀ {l : List (SegKind × String)}, kindParts show' segs l = .error e →
    ∃ k, ∃ s ∈ segs k, show' s = .error e := by
  have loop : ∀ (name : String) (n : Nat) (l : List Seg) (i : Nat),
      segLoop show' name n i l = .error e → ∃ s ∈ l, show' s = .error e := by
    intro name n l
    induction l with
    | nil => intro i h; cases h
    | cons s l ih =>
      intro i h
      unfold segLoop at h
      rcases cat_error h with h | h
      · cases h
      · rcases cat_error h with h | h
        · exact ⟨s, List.mem_cons_self, h⟩
        · rcases cat_error h with h | h
          · cases h
          · obtain ⟨x, hx, h⟩ := ih _ h
            exact ⟨x, List.mem_cons_of_mem _ hx, h⟩
  intro l
  induction l with
  | nil => intro h; cases h
  | cons p l ih =>
    obtain ⟨k, name⟩ := p
    intro h
    unfold kindParts at h
    rcases cat_error h with h | h
    · unfold kindPart at h
      rcases cat_error h with h | h
      · split at h <;> cases h
      · exact ⟨k, loop _ _ _ _ h⟩
    · exact ih h

/-- C78, failure: if a file cannot be printed the exception is one raised by printing a part. -/
theorem C78_error (env : Env) (f : PFile) {e : Fail} (h : fileStr env f = .error e) :
    f.header.str = .error e ∨ (∃ t ∈ f.tres, t.str = .error e) ∨
      ∃ k, ∃ s ∈ f.segs k, segStr env s = .error e := by
  unfold fileStr at h
  rcases cat_error h with h | h
  · cases h
  rcases cat_error h with h | h
  · cases h
  rcases cat_error h with h | h
  · exact .inl (println_error h)
  rcases cat_error h with h | h
  · cases h
  rcases cat_error h with h | h
  · right; left
    split at h
    · cases h
    · rcases cat_error h with h | h
      · cases h
      rcases cat_error h with h | h
      · generalize f.tres = l at h
        induction l with
        | nil => cases h
        | cons t l ih =>
          unfold treLines at h
          rcases cat_error h with h | h
          · exact ⟨t, List.mem_cons_self, println_error h⟩
          · obtain ⟨x, hx, h⟩ := ih h
            exact ⟨x, List.mem_cons_of_mem _ hx, h⟩
      · cases h
  · exact .inr (.inr (kindParts_error _ _ h))

/-! ### C78: the text of a segment -/

theorem beforeStr_ok (b : Bool) (s : Nat) : ∀ {l : List Hook} {t : Text},
    beforeStr (some b) s l = .ok t ↔
    ∃ xs : List Text, (active b l).map (fun h => h.before s) = xs.map .ok ∧ t = xs.flatten := by
  intro l
  induction l with
  | nil =>
    intro t
    unfold beforeStr active
    constructor
    · intro h; cases h; exact ⟨[], rfl, rfl⟩
    · rintro ⟨xs, h1, h2⟩
      cases xs with
      | nil => rw [h2]; rfl
      | cons x xs => simp at h1
  | cons h l ih =>
    intro t
    conv => lhs; lhs; unfold beforeStr
    dsimp only
    by_cases hb : (b && h.removed) = true
    · rw [if_pos hb, ih]
      have : active b (h :: l) = active b l := by
        unfold active
        rw [List.filter_cons_of_neg]
        simp [hb]
      rw [this]
    · rw [if_neg hb]
      have : active b (h :: l) = h :: active b l := by
        unfold active
        rw [List.filter_cons_of_pos]
        cases b <;> simp_all
      rw [this, cat_ok]
      constructor
      · rintro ⟨x, y, h1, h2, h3⟩
        obtain ⟨xs, h4, rfl⟩ := ih.mp h2
        exact ⟨x :: xs, by simp [h1, h4], by rw [h3]; rfl⟩
      · rintro ⟨xs, h1, h2⟩
        cases xs with
        | nil => simp at h1
        | cons x xs =>
          simp only [List.map_cons, List.cons.injEq] at h1
          exact ⟨x, xs.flatten, h1.1, ih.mpr ⟨xs, h1.2, rfl⟩, by rw [h2]; rfl⟩

theorem beforeTre_true (b : Bool) (s t : Nat) : ∀ (l : List Hook),
    beforeTre (some b) s t l true = .ok ([], true) := by
  intro l
  induction l with
  | nil => rfl
  | cons h l ih =>
    unfold beforeTre
    dsimp only
    split
    · exact ih
    · rw [if_pos rfl]; exact ih

theorem treStr_ok (b : Bool) (s : Nat) (t : Obj) : ∀ {l : List Hook} {x : Text},
    treStr { raw := some b, hooks := l } s t = .ok x ↔ TreShown s t (active b l) x := by
  intro l
  induction l with
  | nil =>
    intro x
    unfold treStr active
    simp only [beforeTre, List.filter_nil]
    rw [cat_ok]
    constructor
    · rintro ⟨y, z, h1, h2, rfl⟩
      cases h1
      obtain ⟨w, h3, rfl⟩ := println_ok.mp h2
      exact .own h3
    · intro h
      cases h with
      | own h => exact ⟨[], _, rfl, println_ok.mpr ⟨_, h, rfl⟩, rfl⟩
  | cons h l ih =>
    intro x
    by_cases hb : (b && h.removed) = true
    · have : active b (h :: l) = active b l := by
        unfold active
        rw [List.filter_cons_of_neg]
        simp [hb]
      rw [this, ← ih]
      unfold treStr
      dsimp only
      conv => lhs; unfold beforeTre
      dsimp only
      rw [if_pos hb]
    · have : active b (h :: l) = h :: active b l := by
        unfold active
        rw [List.filter_cons_of_pos]
        cases b <;> simp_all
      rw [this]
      have e : beforeTre (some b) s t.id (h :: l) false =
          match h.tre s t.id with
          | .error e => .error e
          | .ok (x, took) =>
            match beforeTre (some b) s t.id l took with
            | .error e => .error e
            | .ok (y, res') => .ok (x ++ y, res') := by
        conv => lhs; unfold beforeTre
        dsimp only
        rw [if_neg hb]
        rfl
      unfold treStr
      dsimp only
      rw [e]
      cases hh : h.tre s t.id with
      | error e =>
        constructor
        · intro h'; cases h'
        · intro h'
          cases h' with
          | took h1 => rw [hh] at h1; cases h1
          | passed h1 => rw [hh] at h1; cases h1
      | ok p =>
        obtain ⟨y, took⟩ := p
        cases took with
        | true =>
          simp only [beforeTre_true, List.append_nil]
          constructor
          · intro h'; cases h'; exact .took hh
          · intro h'
            cases h' with
            | took h1 => rw [hh] at h1; cases h1; rfl
            | passed h1 => rw [hh] at h1; cases h1
        | false =>
          have ih' := @ih
          unfold treStr at ih'
          dsimp only at ih' ⊢
          cases hr : beforeTre (some b) s t.id l false with
          | error e =>
            rw [hr] at ih'
            dsimp only at ih' ⊢
            constructor
            · intro h'; cases h'
            · intro h'
              cases h' with
              | took h1 => rw [hh] at h1; cases h1
              | passed h1 h2 => exact absurd (ih'.mpr h2) (by simp)
          | ok q =>
            obtain ⟨z, res⟩ := q
            rw [hr] at ih'
            dsimp only at ih' ⊢
            cases res with
            | true =>
              dsimp only at ih' ⊢
              constructor
              · intro h'; cases h'; exact .passed hh (ih'.mp rfl)
              · intro h'
                cases h' with
                | took h1 => rw [hh] at h1; cases h1
                | passed h1 h2 =>
                  rw [hh] at h1; cases h1
                  have := ih'.mpr h2
                  cases this
                  rfl
            | false =>
              dsimp only at ih' ⊢
              constructor
              · intro h'
                obtain ⟨a, c, h1, h2, rfl⟩ := cat_ok.mp h'
                cases h1
                rw [List.append_assoc]
                exact .passed hh (ih'.mp (cat_ok.mpr ⟨z, c, rfl, h2, rfl⟩))
              · intro h'
                cases h' with
                | took h1 => rw [hh] at h1; cases h1
                | passed h1 h2 =>
                  rw [hh] at h1; cases h1
                  obtain ⟨a, c, h3, h4, rfl⟩ := cat_ok.mp (ih'.mpr h2)
                  cases h3
                  exact cat_ok.mpr ⟨_, c, rfl, h4, by rw [List.append_assoc]⟩

theorem tresStr_ok (b : Bool) (hooks : List Hook) (s : Nat) : ∀ {l : List Obj} {x : Text},
    tresStr { raw := some b, hooks := hooks } s l = .ok x ↔ TresShown s (active b hooks) l x := by
  intro l
  induction l with
  | nil =>
    intro x
    unfold tresStr
    constructor
    · intro h; cases h; exact .nil
    · intro h; cases h; rfl
  | cons t l ih =>
    intro x
    unfold tresStr
    rw [cat_ok]
    constructor
    · rintro ⟨a, c, h1, h2, rfl⟩
      exact .cons ((treStr_ok b s t).mp h1) (ih.mp h2)
    · intro h
      cases h with
      | cons h1 h2 => exact ⟨_, _, (treStr_ok b s t).mpr h1, ih.mpr h2, rfl⟩

/-- C78, text of a segment: a segment of a file (with a value for `report_raw`) can be printed exactly
if the hooks, its headers, its TREs and its data can.  The text is made of what the hooks print, the
subheader, the user subheader, the TREs, each shown once, and the data. -/
theorem C78_segment_partial (env : Env) (s : Seg) {o : Nat} {b : Bool} (ho : s.owner = some o)
    (hb : (env o).raw = some b) (hs : ¬ s.Overflow) (t : Text) :
    segStr env s = .ok t ↔
    ∃ (pre : List Text) (sub user tres data : Text),
      (active b (env o).hooks).map (fun h => h.before s.id) = pre.map .ok ∧
      s.sub.str = .ok sub ∧ UserText s user ∧ TreText s (active b (env o).hooks) tres ∧
      s.data.str = .ok data ∧
      t = pre.flatten ++ "Sub header:\n".toList ++ line sub ++ user ++ tres ++ "Data\n".toList ++
        line data := by
  have user_ok : ∀ {x : Text}, userSection s = .ok x ↔ UserText s x := by
    intro x
    unfold userSection UserText
    cases s.user with
    | none =>
      dsimp only
      constructor
      · intro h; cases h; rfl
      · rintro rfl; rfl
    | some u =>
      dsimp only
      rw [cat_ok]
      constructor
      · rintro ⟨a, c, h1, h2, rfl⟩
        rw [say_ok] at h1
        obtain ⟨y, h3, rfl⟩ := println_ok.mp h2
        exact ⟨y, h3, by rw [h1]⟩
      · rintro ⟨y, h1, rfl⟩
        exact ⟨_, _, rfl, println_ok.mpr ⟨y, h1, rfl⟩, rfl⟩
  have heo : env o = { raw := some b, hooks := (env o).hooks } := by
    rw [← hb]
  have tre_ok : ∀ {x : Text}, treSection env s = .ok x ↔ TreText s (active b (env o).hooks) x := by
    intro x
    unfold treSection TreText
    have hsup : supports s.kind = true ↔ s.kind ∈ [SegKind.image, .graphic, .text] := by
      cases s.kind <;> decide
    by_cases hk : supports s.kind = true
    · rw [if_pos hk, if_pos (hsup.mp hk), cat_ok]
      cases hl : s.tres with
      | nil =>
        constructor
        · rintro ⟨a, c, h1, h2, rfl⟩
          dsimp only at h2
          rw [say_ok] at h1 h2
          exact ⟨fun _ => by rw [h1, h2]; decide, fun h => absurd rfl h⟩
        · rintro ⟨h1, -⟩
          exact ⟨_, _, rfl, rfl, by rw [h1 rfl]; decide⟩
      | cons u l =>
        dsimp only
        rw [ho]
        dsimp only
        have hee : ∀ {y : Text}, tresStr (env o) s.id (u :: l) = .ok y ↔
            TresShown s.id (active b (env o).hooks) (u :: l) y := by
          intro y
          have := tresStr_ok b (env o).hooks s.id (l := u :: l) (x := y)
          rwa [← heo] at this
        constructor
        · rintro ⟨a, c, h1, h2, rfl⟩
          rw [say_ok] at h1
          exact ⟨fun h => absurd h (by simp), fun _ => ⟨c, by rw [h1], hee.mp h2⟩⟩
        · rintro ⟨-, h2⟩
          obtain ⟨y, hy, h3⟩ := h2 (by simp)
          exact ⟨_, _, rfl, hee.mpr h3, hy⟩
    · rw [if_neg hk, if_neg fun h => hk (hsup.mpr h)]
      constructor
      · intro h; cases h; rfl
      · rintro rfl; rfl
  unfold Seg.Overflow at hs
  unfold segStr
  rw [if_neg hs, ho]
  dsimp only
  rw [hb]
  constructor
  · intro h
    obtain ⟨_, _, h1, g10, rfl⟩ := cat_ok.mp h
    obtain ⟨_, _, h2, g11, rfl⟩ := cat_ok.mp g10
    obtain ⟨_, _, h3, g12, rfl⟩ := cat_ok.mp g11
    obtain ⟨user, _, h4, g13, rfl⟩ := cat_ok.mp g12
    obtain ⟨tres, _, h5, g14, rfl⟩ := cat_ok.mp g13
    obtain ⟨_, _, h6, h7, rfl⟩ := cat_ok.mp g14
    obtain ⟨pre, k1, rfl⟩ := (beforeStr_ok b s.id).mp h1
    rw [say_ok] at h2 h6
    obtain ⟨sub, k3, rfl⟩ := println_ok.mp h3
    obtain ⟨data, k7, rfl⟩ := println_ok.mp h7
    refine ⟨pre, sub, user, tres, data, k1, k3, user_ok.mp h4, tre_ok.mp h5, k7, ?_⟩
    rw [h2, h6]
    simp only [List.append_assoc]
  · rintro ⟨pre, sub, user, tres, data, h1, h2, h3, h4, h5, rfl⟩
    rw [(beforeStr_ok b s.id).mpr ⟨pre, h1, rfl⟩, h2, user_ok.mpr h3, tre_ok.mpr h4, h5]
    simp [println, cat, say, line, List.append_assoc]

/-- C78, overflow segments: their TREs are shown where they belong, the segment is only named. -/
theorem C78_overflow (env : Env) (s : Seg) (h : s.Overflow) :
    segStr env s = .ok "TRE_OVERFLOW\n".toList := by
  unfold Seg.Overflow at h
  unfold segStr
  rw [if_pos h]
  rfl

/-- C78, TREs: a TRE no hook takes is shown by its own text, exactly if it can be printed. -/
theorem C78_tre (s : Nat) (t : Obj) {act : List Hook}
    (h : ∀ k ∈ act, k.tre s t.id = .ok ([], false)) (x : Text) :
    TreShown s t act x ↔ ∃ y, t.str = .ok y ∧ x = line y := by
  induction act generalizing x with
  | nil =>
    constructor
    · intro h; cases h with | own h => exact ⟨_, h, rfl⟩
    · rintro ⟨y, h, rfl⟩; exact .own h
  | cons k act ih =>
    have hk := h k List.mem_cons_self
    have ih := ih fun k' hk' => h k' (List.mem_cons_of_mem _ hk')
    constructor
    · intro h'
      cases h' with
      | took h1 => rw [hk] at h1; cases h1
      | passed h1 h2 => rw [hk] at h1; cases h1; simpa using (ih _).mp h2
    · intro h'
      simpa using TreShown.passed hk ((ih _).mpr h')

/-! ### C78: raw reports -/

/-- The file objects with other hooks for object `o`. -/
def withHooks (env : Env) (o : Nat) (hooks : List Hook) : Env := fun n =>
  if n = o then { env n with hooks := hooks } else env n

theorem beforeStr_raw (s : Nat) (l : List Hook) :
    beforeStr (some true) s (l.filter fun h => !h.removed) = beforeStr (some true) s l := by
  induction l with
  | nil => rfl
  | cons h l ih =>
    by_cases hr : h.removed = true
    · rw [List.filter_cons_of_neg (by simp [hr]), ih]
      conv => rhs; unfold beforeStr
      simp [hr]
    · rw [List.filter_cons_of_pos (by simpa using hr)]
      conv => lhs; unfold beforeStr
      conv => rhs; unfold beforeStr
      simp [hr, ih]

theorem beforeTre_raw (s t : Nat) (l : List Hook) : ∀ (res : Bool),
    beforeTre (some true) s t (l.filter fun h => !h.removed) res = beforeTre (some true) s t l res := by
  induction l with
  | nil => intro res; rfl
  | cons h l ih =>
    intro res
    by_cases hr : h.removed = true
    · rw [List.filter_cons_of_neg (by simp [hr]), ih]
      conv => rhs; unfold beforeTre
      simp [hr]
    · rw [List.filter_cons_of_pos (by simpa using hr)]
      conv => lhs; unfold beforeTre
      conv => rhs; unfold beforeTre
      simp [hr, ih]

theorem segStr_raw (env : Env) (o : Nat) (h : (env o).raw = some true) (s : Seg) :
    segStr env s = segStr (withHooks env o ((env o).hooks.filter fun k => !k.removed)) s := by
  have tre : ∀ (l : List Obj), tresStr (env o) s.id l =
      tresStr { env o with hooks := (env o).hooks.filter fun k => !k.removed } s.id l := by
    intro l
    induction l with
    | nil => rfl
    | cons t l ih =>
      unfold tresStr
      rw [ih]
      congr 1
      unfold treStr
      dsimp only
      rw [h, beforeTre_raw]
  unfold segStr
  split
  · rfl
  · cases ho : s.owner with
    | none =>
      dsimp only
      have : treSection env s =
          treSection (withHooks env o ((env o).hooks.filter fun k => !k.removed)) s := by
        unfold treSection
        rw [ho]
      rw [this]
    | some p =>
      dsimp only
      by_cases hp : p = o
      · subst hp
        have hw : withHooks env p ((env p).hooks.filter fun k => !k.removed) p =
            { env p with hooks := (env p).hooks.filter fun k => !k.removed } := by
          unfold withHooks
          rw [if_pos rfl]
        have : treSection env s =
            treSection (withHooks env p ((env p).hooks.filter fun k => !k.removed)) s := by
          unfold treSection
          rw [ho]
          dsimp only
          rw [hw]
          cases s.tres with
          | nil => rfl
          | cons t l => dsimp only; rw [tre]
        rw [this, hw]
        dsimp only
        rw [h, beforeStr_raw]
      · have hw : withHooks env o ((env o).hooks.filter fun k => !k.removed) p = env p := by
          unfold withHooks
          rw [if_neg hp]
        have : treSection env s =
            treSection (withHooks env o ((env o).hooks.filter fun k => !k.removed)) s := by
          unfold treSection
          rw [ho]
          dsimp only
          rw [hw]
        rw [this, hw]

/-- C78, raw: with `report_raw` set, the hooks that allow it might as well not be there. -/
theorem C78_raw (env : Env) (o : Nat) (h : (env o).raw = some true) (f : PFile) :
    fileStr env f = fileStr (withHooks env o ((env o).hooks.filter fun k => !k.removed)) f := by
  have : segStr env = segStr (withHooks env o ((env o).hooks.filter fun k => !k.removed)) :=
    funext (segStr_raw env o h)
  unfold fileStr
  rw [this]

/-- C78, no hooks: the text does not depend on `report_raw`, which need not even be set. -/
theorem C78_no_hooks (env env' : Env) (h : ∀ o, (env o).hooks = []) (h' : ∀ o, (env' o).hooks = [])
    (f : PFile) : fileStr env f = fileStr env' f := by
  have : segStr env = segStr env' := by
    funext s
    have tre : ∀ (o : Nat) (l : List Obj), tresStr (env o) s.id l = tresStr (env' o) s.id l := by
      intro o l
      induction l with
      | nil => rfl
      | cons t l ih =>
        unfold tresStr
        rw [ih]
        congr 1
        unfold treStr
        rw [h, h']
        rfl
    have e1 : treSection env s = treSection env' s := by
      unfold treSection
      cases s.tres with
      | nil => rfl
      | cons t l =>
        cases s.owner with
        | none => rfl
        | some o => dsimp only; rw [tre]
    unfold segStr
    rw [e1]
    cases s.owner with
    | none => rfl
    | some o =>
      dsimp only
      rw [h, h']
      rfl
  unfold fileStr
  rw [this]

/-! ### C78: the program nitf_info -/

/-- C78, the program without a delta: the summary or the text of the file.  With `--report-raw` and
hooks that allow it this is the text without any hooks. -/
theorem C78_info_partial (w : World) (a : Args) (hj : a.json = none) {f : PFile}
    (hf : w.read a.input = .ok f) :
    (a.summary = true → nitfInfo w a = println (fileSummary f)) ∧
    (a.summary = false → a.reportRaw = false →
      nitfInfo w a = println (fileStr (objects w.hooks false none) f)) ∧
    (a.summary = false → a.reportRaw = true → (∀ h ∈ w.hooks, h.removed = true) →
      (∀ k, ∀ s ∈ f.segs k, s.owner = some 0) →
      nitfInfo w a = println (fileStr (objects [] false none) f)) := by
  have e : nitfInfo w a = println (if a.summary then fileSummary f
      else fileStr (objects w.hooks a.reportRaw none) f) := by
    unfold nitfInfo
    rw [hf, hj]
  refine ⟨fun h => ?_, fun h hr => ?_, fun h hr hh hs => ?_⟩
  · rw [e, h]; rfl
  · rw [e, h, hr]; rfl
  · rw [e, h, hr]
    rw [if_neg (by simp)]
    congr 1
    rw [C78_raw _ 0 (by rfl)]
    have hflt : w.hooks.filter (fun k => !k.removed) = [] := by
      rw [List.filter_eq_nil_iff]
      intro k hk
      simp [hh k hk]
    have hseg : ∀ k, ∀ s ∈ f.segs k,
        segStr (withHooks (objects w.hooks true none) 0
          ((objects w.hooks true none 0).hooks.filter fun k => !k.removed)) s =
        segStr (objects [] false none) s := by
      intro k s hk
      have ho := hs k s hk
      have h0 : withHooks (objects w.hooks true none) 0
          ((objects w.hooks true none 0).hooks.filter fun k => !k.removed) 0 =
          { raw := some true, hooks := [] } := by
        unfold withHooks objects
        simp [hflt]
      have h1 : objects [] false none 0 = { raw := some false, hooks := [] } := rfl
      have tre : ∀ (l : List Obj), tresStr { raw := some true, hooks := [] } s.id l =
          tresStr { raw := some false, hooks := [] } s.id l := by
        intro l
        induction l with
        | nil => rfl
        | cons t l ih =>
          unfold tresStr
          rw [ih]
          rfl
      unfold segStr treSection
      rw [ho]
      dsimp only
      rw [h0, h1]
      cases s.tres with
      | nil => rfl
      | cons t l => dsimp only; rw [tre]; rfl
    unfold fileStr
    congr 5
    have loop : ∀ (name : String) (n : Nat) (k : SegKind) (l : List Seg), (∀ s ∈ l, s ∈ f.segs k) →
        ∀ i, segLoop (segStr (withHooks (objects w.hooks true none) 0
          ((objects w.hooks true none 0).hooks.filter fun k => !k.removed))) name n i l =
        segLoop (segStr (objects [] false none)) name n i l := by
      intro name n k l
      induction l with
      | nil => intro _ i; rfl
      | cons s l ih =>
        intro hl i
        unfold segLoop
        rw [hseg k s (hl s List.mem_cons_self), ih fun x hx => hl x (List.mem_cons_of_mem _ hx)]
    have all : ∀ (l : List (SegKind × String)),
        kindParts (segStr (withHooks (objects w.hooks true none) 0
          ((objects w.hooks true none 0).hooks.filter fun k => !k.removed))) f.segs l =
        kindParts (segStr (objects [] false none)) f.segs l := by
      intro l
      induction l with
      | nil => rfl
      | cons p l ih =>
        obtain ⟨k, name⟩ := p
        unfold kindParts kindPart
        rw [ih, loop name _ k (f.segs k) (fun s hs => hs)]
    exact all kinds

/-- What is shown of a list: the one of the delta, if it has entries, else the one of the file. -/
def overList {α : Type} : Option (List α) → List α → List α
  | some (x :: r), _ => x :: r
  | some [], l => l
  | none, l => l

/-- The file as changed by the delta. -/
def overFile (d : MFile Obj Seg Obj) (f : PFile) : PFile :=
  { header := match d.header with
      | some h => h
      | none => f.header
    tres := overList d.tre f.tres
    segs := fun k => overList (d.segs k) (f.segs k) }

theorem firstPart_over {α : Type} (get : MFile Obj Seg Obj → Option (List α))
    (d : MFile Obj Seg Obj) (f : PFile) {l : List α} (hl : get f.parts = some l) :
    firstPart get [d, f.parts] = overList (get d) l := by
  have h2 : firstPart get [f.parts] = l := by
    unfold firstPart
    rw [hl]
    cases l <;> rfl
  unfold firstPart
  rw [h2]
  cases get d with
  | none => rfl
  | some m => cases m <;> rfl

/-- C78, the program with a delta: the summary or the text of the file as changed by the delta. -/
theorem C78_info_delta (w : World) (a : Args) {j : Text} (hj : a.json = some j) {f : PFile}
    (hf : w.read a.input = .ok f) {d : MFile Obj Seg Obj} (hd : w.delta j f = .ok d) :
    (a.summary = true → nitfInfo w a = println (fileSummary (overFile d f))) ∧
    (a.summary = false →
      nitfInfo w a = println (fileStr (objects w.hooks false (some a.reportRaw)) (overFile d f))) := by
  have hm : merged d f = overFile d f := by
    unfold merged overFile
    congr 1
    · unfold mergeHeader
      cases d.header <;> rfl
    · exact firstPart_over (·.tre) d f rfl
    · funext k
      cases k <;> exact firstPart_over (fun g => g.segs _) d f rfl
  unfold nitfInfo
  rw [hf, hj]
  dsimp only
  rw [hd]
  dsimp only
  rw [hm]
  exact ⟨fun h => by rw [h]; rfl, fun h => by rw [h]; rfl⟩

/-- C78, the summary of the file header gives the four numbers, each with its kind. -/
theorem C78_header (fhdr fver ftitle : Text) (numi nums numt numdes : Nat) :
    InOrder [fhdr, fver, ftitle, decStr numi ++ " Image Segments".toList,
      decStr nums ++ " Graphic Segments".toList, decStr numt ++ " Text Segments".toList,
      decStr numdes ++ " DESs".toList] (headerSummary fhdr fver ftitle numi nums numt numdes) := by
  have h : headerSummary fhdr fver ftitle numi nums numt numdes =
      [] ++ fhdr ++ (" ".toList ++ fver ++ (" ".toList ++ ftitle ++ (" MD5: \n".toList ++
        (decStr numi ++ " Image Segments".toList) ++ (", ".toList ++
        (decStr nums ++ " Graphic Segments".toList) ++ (", ".toList ++
        (decStr numt ++ " Text Segments".toList) ++ (", ".toList ++
        (decStr numdes ++ " DESs".toList) ++ "\n".toList)))))) := by
    unfold headerSummary
    have e1 : " Image Segments, ".toList = " Image Segments".toList ++ ", ".toList := by decide +kernel
    have e2 : " Graphic Segments, ".toList = " Graphic Segments".toList ++ ", ".toList := by
      decide +kernel
    have e3 : " Text Segments, ".toList = " Text Segments".toList ++ ", ".toList := by decide +kernel
    have e4 : " DESs\n".toList = " DESs".toList ++ "\n".toList := by decide +kernel
    rw [e1, e2, e3, e4]
    generalize " Image Segments".toList = a1
    generalize " Graphic Segments".toList = a2
    generalize " Text Segments".toList = a3
    generalize " DESs".toList = a4
    generalize " MD5: \n".toList = a5
    generalize ", ".toList = a6
    generalize "\n".toList = a7
    generalize " ".toList = a8
    simp only [List.append_assoc, List.nil_append]
  rw [h]
  exact .cons _ _ (.cons _ _ (.cons _ _ (.cons _ _ (.cons _ _ (.cons _ _ (.cons _ _ (.nil _)))))))

/-! ### Examples and negations -/

section examples

/-- An object with a text. -/
def obj (n : Nat) (s : String) : Obj := { id := n, str := say s, summary := say (s ++ "\n") }

/-- An image segment with one TRE. -/
def exImage (owner : Option Nat) : Seg :=
  { id := 1, kind := .image, desid := [], sub := obj 2 "im", user := none, tres := [obj 3 "TRE - A"],
    data := obj 4 "pixels", owner := owner }

/-- A file with this segment. -/
def exFile : PFile :=
  { header := obj 0 "hdr", tres := []
    segs := fun k => if k = .image then [exImage (some 0)] else [] }

/-- A hook that shows TRE 3 in its own way. -/
def exHook : Hook :=
  { removed := true, before := fun _ => .ok [],
    tre := fun _ t => if t = 3 then .ok ("object\n".toList, true) else .ok ([], false) }

/-- The hypotheses of `C78_file` are met and the text is as expected. -/
example : fileStr (objects [exHook] false none) exFile = .ok (
    "-------------------------------------------------------------\nFile Header:\nhdr\n".toList ++
    "-------------------------------------------------------------\nNo file level TREs\n".toList ++
    "-------------------------------------------------------------\nImage segment 1 of 1\n".toList ++
    "Sub header:\nim\nTREs:\nobject\nData\npixels\n".toList ++
    "-------------------------------------------------------------\nNo Graphic segments\n".toList ++
    "No Text segments\nNo Data Extension segments\nNo Reserved Extension segments\n".toList) := by
  decide +kernel

/-- With raw reports the TRE is shown itself. -/
example : segStr (objects [exHook] true none) (exImage (some 0)) =
    .ok "Sub header:\nim\nTREs:\nTRE - A\nData\npixels\n".toList := by
  decide +kernel

/-- The hypotheses of `C78_segment_partial` are met. -/
example : ∃ t, segStr (objects [exHook] false none) (exImage (some 0)) = .ok t ∧
    ¬ (exImage (some 0)).Overflow :=
  ⟨"Sub header:\nim\nTREs:\nobject\nData\npixels\n".toList, by decide +kernel, by
    unfold Seg.Overflow; decide⟩

/-- A segment with TREs that is in no file cannot be printed, although every part can: for example a
segment whose file object no longer exists (nitf_segment.py:130). -/
theorem C78_no_file : ∃ (env : Env) (s : Seg) (sub data : Text), ¬ s.Overflow ∧
    s.sub.str = .ok sub ∧ s.data.str = .ok data ∧ s.user = none ∧
    (∀ t ∈ s.tres, ∃ x, t.str = .ok x) ∧ segStr env s = .error .attribute :=
  ⟨objects [] false none, exImage none, "im".toList, "pixels".toList,
    by unfold Seg.Overflow; decide, rfl, rfl, rfl, by
      intro t ht
      simp only [exImage, List.mem_singleton] at ht
      subst ht
      exact ⟨_, rfl⟩, by decide +kernel⟩

/-- Without TREs such a segment is printed. -/
example : segStr (objects [] false none) { exImage none with tres := [] } =
    .ok "Sub header:\nim\nTREs:\nNo segment level TREs\nData\npixels\n".toList := by
  decide +kernel

/-- A NitfFileMerge has no `report_raw` until the caller sets it: with any hook, the segments of a
delta cannot be printed (nitf_file_merge.py:19-29, nitf_segment_hook.py:64, 73). -/
theorem C78_merge_report_raw : ∃ (env : Env) (f : PFile), (env 1).raw = none ∧
    (∀ t, fileStr (withHooks env 1 []) f ≠ .error t) ∧ fileStr env f = .error .attribute :=
  ⟨objects [exHook] false none,
    { exFile with segs := fun k => if k = .image then [exImage (some 1)] else [] }, rfl,
    by
      intro t
      have : ∃ x, fileStr (withHooks (objects [exHook] false none) 1 [])
          { exFile with segs := fun k => if k = .image then [exImage (some 1)] else [] } = .ok x :=
        ⟨_, rfl⟩
      obtain ⟨x, hx⟩ := this
      rw [hx]
      simp,
    by decide +kernel⟩

/-- The world of the next theorem: the delta has no image segments. -/
def exWorld : World :=
  { read := fun _ => .ok exFile
    delta := fun _ _ => .ok { header := some (obj 5 "hdr2"), segs := fun _ => some [], tre := none }
    hooks := [exHook] }

/-- The hypotheses of `C78_info_delta` are met: the header is that of the delta, the segments are
those of the file. -/
example : ∃ d, exWorld.delta [] exFile = .ok d ∧ (overFile d exFile).header.str = say "hdr2" ∧
    (overFile d exFile).segs .image = exFile.segs .image ∧ exFile.segs .image ≠ [] :=
  ⟨_, rfl, rfl, rfl, by decide⟩

/-- `nitf_info --report-raw` with a delta does not report raw what comes from the file itself:
`report_raw` is set on the merged file only (bin/nitf_info:77-80). -/
theorem C78_info_raw_merge : ∃ (w : World) (a : Args) (f : PFile) (d : MFile Obj Seg Obj) (j : Text),
    w.read a.input = .ok f ∧ a.json = some j ∧ w.delta j f = .ok d ∧ a.reportRaw = true ∧
    (∀ h ∈ w.hooks, h.removed = true) ∧
    ∃ t u, nitfInfo w a = .ok t ∧
      println (fileStr (objects [] false (some true)) (merged d f)) = .ok u ∧ t ≠ u :=
  ⟨exWorld, { input := [], json := some [], reportRaw := true }, exFile,
    { header := some (obj 5 "hdr2"), segs := fun _ => some [], tre := none }, [], rfl, rfl, rfl, rfl,
    by
      intro h hh
      simp only [exWorld, List.mem_singleton] at hh
      subst hh
      rfl,
    _, _, rfl, rfl, by decide +kernel⟩

/-- Text data that is not UTF-8 cannot be printed, nor a file with it: NITF text is often ECS, with
bytes above 127 (nitf_text.py:17-26). -/
theorem C78_text_fails (utf8 : Bytes → Option Text) {b : Bytes} (hb : utf8 b = none) (env : Env)
    (s : Seg) (hs : s.kind = .text) (hd : s.data.str = textStr utf8 (.bytes b)) (f : PFile)
    (hm : s ∈ f.segs .text) : ∀ t, fileStr env f ≠ .ok t := by
  intro t h
  obtain ⟨hdr, tres, segs, -, -, h3, -⟩ := (C78_file env f t).mp h
  have hmem : segStr env s ∈ (segs .text).map .ok := by
    rw [← h3]
    exact List.mem_map.mpr ⟨s, hm, rfl⟩
  obtain ⟨x, -, hx⟩ := List.mem_map.mp hmem
  have hx := hx.symm
  unfold segStr at hx
  rw [if_neg (by rw [hs]; simp)] at hx
  obtain ⟨_, _, -, g15, -⟩ := cat_ok.mp hx
  obtain ⟨_, _, -, g16, -⟩ := cat_ok.mp g15
  obtain ⟨_, _, -, g17, -⟩ := cat_ok.mp g16
  obtain ⟨_, _, -, g18, -⟩ := cat_ok.mp g17
  obtain ⟨_, _, -, g19, -⟩ := cat_ok.mp g18
  obtain ⟨_, _, -, g20, -⟩ := cat_ok.mp g19
  obtain ⟨y, hx, -⟩ := println_ok.mp g20
  rw [hd] at hx
  simp only [textStr, hb] at hx
  cases hx

/-- Text that is a str, or bytes that can be decoded, is printed as it is. -/
theorem C78_text (utf8 : Bytes → Option Text) (d : TextData) (x : Text) :
    textStr utf8 d = .ok ("NitfTextStr:\n".toList ++ x) ↔
      d = .str x ∨ ∃ b, d = .bytes b ∧ utf8 b = some x := by
  cases d with
  | str t =>
    simp only [textStr]
    constructor
    · intro h
      have := (Except.ok.inj h)
      rw [List.append_cancel_left_eq] at this
      left; rw [this]
    · rintro (h | ⟨b, h, -⟩)
      · cases h; rfl
      · cases h
  | bytes b =>
    simp only [textStr]
    constructor
    · intro h
      right
      refine ⟨b, rfl, ?_⟩
      cases hu : utf8 b with
      | none => rw [hu] at h; cases h
      | some t =>
        rw [hu] at h
        have := Except.ok.inj h
        rw [List.append_cancel_left_eq] at this
        rw [this]
    · rintro (h | ⟨b', h, h'⟩)
      · cases h
      · cases h
        rw [h']

/-- The numbers of segments in the summary are those in the header, which are only set when the file
is written: a summary can say that there is no image and list one (nitf_file_header.py:93-94). -/
theorem C78_counts : ∃ (f : PFile), (f.segs .image).length = 1 ∧
    f.header.summary = .ok (headerSummary "NITF".toList "02.10".toList [] 0 0 0 0) ∧
    ∃ t, fileSummary f = .ok t ∧
      InOrder ["0 Image Segments".toList, "Image segment 1 of 1".toList] t :=
  ⟨{ exFile with header :=
      { id := 0, str := .ok [],
        summary := .ok (headerSummary "NITF".toList "02.10".toList [] 0 0 0 0) } },
    rfl, rfl, _, rfl,
    by
      have e : ∀ (a x b y c : Text), InOrder [x, y] (a ++ x ++ (b ++ y ++ c)) := fun a x b y c =>
        .cons a x (.cons b y (.nil c))
      refine (congrArg (InOrder _) ?_).mp (e
        ("NITF File Summary\n".toList ++ rule.toList ++ "File Header:\nNITF 02.10  MD5: \n".toList) _
        (", 0 Graphic Segments, 0 Text Segments, 0 DESs\n".toList ++ rule.toList ++
          "No file level TREs\n".toList ++ rule.toList) _
        ("\nim\nSegment level TRES:\nTRE - A\n".toList ++ rule.toList ++
          ("No Graphic segments\nNo Text segments\nNo Data Extension segments\n" ++
            "No Reserved Extension segments\n").toList))
      decide +kernel⟩

end examples

end PrintFile
end Verif
