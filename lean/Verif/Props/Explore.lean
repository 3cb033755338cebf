import Verif.Explore

/-
C94: the commands of explore_nitf.
-/

namespace Verif
namespace Explore

/-! ### Specification -/

/-- The word is the number, for `int`. -/
def Num (w : Str) (z : Int) : Prop := pyIntS w = .ok z

/-- The file that commands are for. -/
def Default (fs : Files) (f : FileObj) : Prop := ∃ path, fs.get "default".toList = some (path, f)

/-- Lines, one for each element: its index, a colon, its name. -/
def Listing (names : List Str) (shown : List Event) : Prop :=
  shown.length = names.length ∧
    ∀ (i : Nat) (t : Str), names[i]? = some t → shown[i]? = some (.line (decStr i ++ ": ".toList ++ t))

/-- Everything in the file can be printed, and the DES can be written. -/
structure Printable (f : FileObj) : Prop where
  whole : ∃ t, f.str = .ok t
  tres : ∀ t ∈ f.tres, ∃ x, t.str = .ok x
  segs : ∀ s ∈ f.image ++ f.graphic ++ f.text ++ f.des ++ f.res,
    (∃ t, s.str = .ok t) ∧ ∀ t ∈ s.tres, ∃ x, t.str = .ok x
  data : ∀ s ∈ f.des, ∃ b, s.data = .ok b

/-- The commands of the help text, for a file, with indices in range. -/
inductive Documented (f : FileObj) : List Str → Prop where
  | help : Documented f ["help".toList]
  | listFiles : Documented f ["list".toList, "files".toList]
  | listSeg : Documented f ["list".toList, "seg".toList]
  | listImage : Documented f ["list".toList, "image".toList]
  | listText : Documented f ["list".toList, "text".toList]
  | listDes : Documented f ["list".toList, "des".toList]
  | listTre : Documented f ["list".toList, "tre".toList]
  | listTreFile : Documented f ["list".toList, "tre".toList, "file".toList]
  | listTreImage : Documented f ["list".toList, "tre".toList, "image".toList]
  | listTreImageAt {w : Str} {i : Nat} : Num w i → i < f.image.length →
      Documented f ["list".toList, "tre".toList, "image".toList, w]
  | summary (r : List Str) : Documented f ("summary".toList :: r)
  | printFile : Documented f ["print".toList, "file".toList]
  | printImage : Documented f ["print".toList, "image".toList]
  | printImageAt {w : Str} {i : Nat} : Num w i → i < f.image.length →
      Documented f ["print".toList, "image".toList, w]
  | printText : Documented f ["print".toList, "text".toList]
  | printTextAt {w : Str} {i : Nat} : Num w i → i < f.text.length →
      Documented f ["print".toList, "text".toList, w]
  | printDes : Documented f ["print".toList, "des".toList]
  | printDesAt {w : Str} {i : Nat} : Num w i → i < f.des.length →
      Documented f ["print".toList, "des".toList, w]
  | printTreFile : Documented f ["print".toList, "tre".toList, "file".toList]
  | printTreImage : Documented f ["print".toList, "tre".toList, "image".toList]
  | printTreImageAt {w : Str} {i : Nat} : Num w i → i < f.image.length →
      Documented f ["print".toList, "tre".toList, "image".toList, w]
  | printTreImageTre {w v : Str} {i j : Nat} {s : SegObj} : Num w i → f.image[i]? = some s → Num v j →
      j < s.tres.length → Documented f ["print".toList, "tre".toList, "image".toList, w, v]
  | data (r : List Str) : Documented f ("data".toList :: r)
  | saveDes {w : Str} {i : Nat} : Num w i → i < f.des.length → Documented f ["save_des".toList, w]
  | imageDisplay {w : Str} {i : Nat} : Num w i → i < f.image.length →
      Documented f ["image".toList, "display".toList, w]
  | imageDiff {w v : Str} {i j : Nat} : Num w i → i < f.image.length → Num v j → j < f.image.length →
      Documented f ["image".toList, "diff".toList, w, v]

/-! ### Lists -/

theorem forEach_ok {α : Type} {f : α → Out} : ∀ {l : List α}, (∀ x ∈ l, (f x).exc = none) →
    (forEach f l).exc = none ∧ (forEach f l).shown = l.flatMap fun x => (f x).shown := by
  intro l
  induction l with
  | nil => exact fun _ => ⟨rfl, rfl⟩
  | cons x r ih =>
    intro h
    have h1 := h x (by simp)
    obtain ⟨h2, h3⟩ := ih fun y hy => h y (by simp [hy])
    simp only [forEach, Out.andThen, h1, List.flatMap_cons]
    exact ⟨h2, by rw [h3]⟩

theorem andThen_ok {a b : Out} (ha : a.exc = none) (hb : b.exc = none) :
    (a.andThen b).exc = none ∧ (a.andThen b).shown = a.shown ++ b.shown := by
  simp only [Out.andThen, ha]
  exact ⟨hb, trivial⟩

theorem flatMap_line (g : Str × Nat → Str) : ∀ l : List (Str × Nat),
    (l.flatMap fun x => [Event.line (g x)]) = l.map fun x => Event.line (g x) := by
  intro l
  induction l with
  | nil => rfl
  | cons x r ih => simp [ih]

theorem listing {α : Type} (name : α → Str) (l : List α) :
    Listing (l.map name) (l.zipIdx.map fun x => Event.line (numbered x.2 (name x.1))) := by
  refine ⟨by simp, ?_⟩
  intro i t h
  simp only [List.getElem?_map, List.getElem?_zipIdx, Option.map_map] at h ⊢
  cases hl : l[i]? with
  | none => simp [hl] at h
  | some x =>
    simp only [hl, Option.map_some, Option.some.injEq] at h
    simp [numbered, h]

theorem listSegs_ok (ss : List SegObj) :
    (listSegs ss).exc = none ∧ Listing (ss.map (·.label)) (listSegs ss).shown := by
  obtain ⟨h1, h2⟩ := forEach_ok (f := fun x : SegObj × Nat => say (numbered x.2 x.1.label)) (l := ss.zipIdx)
    fun _ _ => rfl
  refine ⟨h1, ?_⟩
  have : (listSegs ss).shown = ss.zipIdx.map fun x => Event.line (numbered x.2 x.1.label) := by
    unfold listSegs
    rw [h2]
    simp only [say]
    induction ss.zipIdx with
    | nil => rfl
    | cons x r ih => simp [ih]
  rw [this]
  exact listing _ ss

theorem listTres_tags (ts : List TreObj) :
    (listTres ts false).exc = none ∧ Listing (ts.map (·.tag)) (listTres ts false).shown := by
  obtain ⟨h1, h2⟩ := forEach_ok (f := fun x : TreObj × Nat => (say (numbered x.2 x.1.tag)).andThen
    (if false then printObj x.1.str else .nil)) (l := ts.zipIdx) fun _ _ => rfl
  refine ⟨h1, ?_⟩
  have : (listTres ts false).shown = ts.zipIdx.map fun x => Event.line (numbered x.2 x.1.tag) := by
    unfold listTres
    rw [h2]
    simp only [say, Out.andThen, Out.nil, Bool.false_eq_true, if_false, List.append_nil]
    induction ts.zipIdx with
    | nil => rfl
    | cons x r ih => simp [ih]
  rw [this]
  exact listing _ ts

theorem listTres_exc {ts : List TreObj} {p : Bool} (h : ∀ t ∈ ts, ∃ x, t.str = .ok x) :
    (listTres ts p).exc = none := by
  refine (forEach_ok ?_).1
  intro x hx
  have hm : x.1 ∈ ts := by
    obtain ⟨t, i⟩ := x
    rw [List.mem_zipIdx_iff_getElem?] at hx
    exact List.mem_of_getElem? hx
  obtain ⟨y, hy⟩ := h x.1 hm
  cases p <;> simp [Out.andThen, say, printObj, hy, Out.nil]

/-! ### Indices -/

theorem pyIndex_nat {α : Type} (l : List α) (i : Nat) : pyIndex l (i : Int) = l[i]? := by
  simp [pyIndex]

theorem pyIndex_neg {α : Type} (l : List α) {k : Nat} (h0 : 0 < k) (hk : k ≤ l.length) :
    pyIndex l (-(k : Int)) = l[l.length - k]? := by
  have h1 : ¬ (0 ≤ -(k : Int)) := by omega
  have h2 : -(l.length : Int) ≤ -(k : Int) := by omega
  simp only [pyIndex, if_neg h1, if_pos h2]
  congr 1
  omega

theorem pyIndex_below {α : Type} (l : List α) {z : Int} (h : z < -(l.length : Int)) :
    pyIndex l z = none := by
  have h1 : ¬ (0 ≤ z) := by omega
  have h2 : ¬ (-(l.length : Int) ≤ z) := by omega
  simp only [pyIndex, if_neg h1, if_neg h2]

/-! ### Commands -/

variable {w : World} {fs : Files} {f : FileObj}

/-- C94.  `list image`, `list text` and `list des` show each segment on a line with its index. -/
theorem C94_list (h : Default fs f) :
    (∃ o, process w fs ["list".toList, "image".toList] = (fs, o) ∧ o.exc = none ∧
      Listing (f.image.map (·.label)) o.shown) ∧
    (∃ o, process w fs ["list".toList, "text".toList] = (fs, o) ∧ o.exc = none ∧
      Listing (f.text.map (·.label)) o.shown) ∧
    (∃ o, process w fs ["list".toList, "des".toList] = (fs, o) ∧ o.exc = none ∧
      Listing (f.des.map (·.label)) o.shown) := by
  obtain ⟨path, h⟩ := h
  refine ⟨⟨listSegs f.image, ?_, listSegs_ok _⟩, ⟨listSegs f.text, ?_, listSegs_ok _⟩,
    ⟨listSegs f.des, ?_, listSegs_ok _⟩⟩ <;>
  · simp only [process, h]
    rfl

/-- C94.  `list tre file` shows each TRE of the file on a line with its index; `list tre image i` those of
image segment `i`. -/
theorem C94_list_tre (h : Default fs f) :
    (∃ o, process w fs ["list".toList, "tre".toList, "file".toList] = (fs, o) ∧ o.exc = none ∧
      Listing (f.tres.map (·.tag)) o.shown) ∧
    ∀ (v : Str) (i : Nat) s, Num v i → f.image[i]? = some s →
      ∃ o, process w fs ["list".toList, "tre".toList, "image".toList, v] = (fs, o) ∧ o.exc = none ∧
        Listing (s.tres.map (·.tag)) o.shown := by
  obtain ⟨path, h⟩ := h
  refine ⟨⟨listTres f.tres false, ?_, listTres_tags _⟩, ?_⟩
  · simp only [process, h]
    rfl
  · intro v i s hv hs
    refine ⟨listTres s.tres false, ?_, listTres_tags _⟩
    have hi : i < f.image.length := (List.getElem?_eq_some_iff.mp hs).1
    have hc : (i : Int) < f.image.length := by omega
    unfold Num at hv
    simp only [process, h]
    show (fs, processTre f ["image".toList, v] false) = _
    have e : processTre f ["image".toList, v] false = listTres s.tres false := by
      have hne : "image".toList ≠ "file".toList := by decide
      simp only [processTre, if_neg hne, if_true, hv, if_pos hc, pyIndex_nat, hs]
    rw [e]

/-- The segments a word stands for in `print`. -/
def kindSegs (f : FileObj) (tar : String) : Option (List SegObj) :=
  if tar = "image" then some f.image else if tar = "text" then some f.text
  else if tar = "des" then some f.des else none

theorem cmdPrint_segs {tar : String} {ss : List SegObj} (hk : kindSegs f tar = some ss) (param : List Str) :
    cmdPrint f (tar.toList :: param) = printSegs f tar ss param := by
  unfold kindSegs at hk
  split at hk
  · rename_i h
    subst h
    cases hk
    rfl
  · split at hk
    · rename_i h
      subst h
      cases hk
      rfl
    · split at hk
      · rename_i h
        subst h
        cases hk
        rfl
      · cases hk

theorem process_print (h : Default fs f) (args : List Str) :
    process w fs ("print".toList :: args) = (fs, cmdPrint f args) := by
  obtain ⟨path, h⟩ := h
  simp only [process, h]
  rfl

/-- C94.  `print image i`, `print text i`, `print des i`: the segment with this index, in full, or a line
with the allowed range.  From the end if the number is negative; an exception below that. -/
theorem C94_print_at (h : Default fs f) (hm : f.merged = false) {tar : String} {ss : List SegObj}
    (hk : kindSegs f tar = some ss) {v : Str} {z : Int} (hv : Num v z) :
    ∃ o, process w fs ["print".toList, tar.toList, v] = (fs, o) ∧
      (∀ (i : Nat) s t, z = i → ss[i]? = some s → s.str = .ok t → o = ⟨[.page t], none⟩) ∧
      ((ss.length : Int) ≤ z → o = ⟨[.line ("Select ".toList ++ tar.toList ++ " Segments 0 - ".toList ++
        intStr ((ss.length : Int) - 1))], none⟩) ∧
      (∀ (k : Nat) s t, 0 < k → k ≤ ss.length → z = -k → ss[ss.length - k]? = some s → s.str = .ok t →
        o = ⟨[.page t], none⟩) ∧
      (z < -(ss.length : Int) → o = ⟨[], some .index⟩) := by
  refine ⟨_, by rw [process_print h, cmdPrint_segs hk], ?_⟩
  unfold Num at hv
  simp only [printSegs, hm, Bool.false_eq_true, if_false, hv]
  refine ⟨?_, ?_, ?_, ?_⟩
  · rintro i s t rfl hs ht
    have hi : i < ss.length := (List.getElem?_eq_some_iff.mp hs).1
    rw [if_pos (by omega)]
    simp only [pyIndex_nat, hs, ht]
  · intro hz
    rw [if_neg (by omega)]
    simp [upTo, say]
  · rintro k s t h0 hk rfl hs ht
    rw [if_pos (by omega)]
    simp only [pyIndex_neg ss h0 hk, hs, ht]
  · intro hz
    rw [if_pos (by omega)]
    simp only [pyIndex_below ss hz, raise]

/-- C94.  `save_des i` writes just the data of DES `i` to the path the user gives. -/
theorem C94_save_des (h : Default fs f) {v : Str} {i : Nat} {s : SegObj} {b : Bytes} (hv : Num v i)
    (hs : f.des[i]? = some s) (hb : s.data = .ok b) :
    process w fs ["save_des".toList, v] =
      (fs, ⟨[.line "Select path to file:".toList, .saved w.input b], none⟩) := by
  obtain ⟨path, h⟩ := h
  have hi : i < f.des.length := (List.getElem?_eq_some_iff.mp hs).1
  have hc : (i : Int) < f.des.length := by omega
  unfold Num at hv
  simp only [process, h]
  show (fs, cmdSaveDes w f [v]) = _
  simp only [cmdSaveDes, hv, if_pos hc, pyIndex_nat, hs, hb]
  rfl

theorem mapM_ok : ∀ {ss : List SegObj}, (∀ s ∈ ss, ∃ t, s.str = .ok t) →
    ∃ ts, ss.mapM (·.str) = .ok ts := by
  intro ss
  induction ss with
  | nil => exact fun _ => ⟨[], rfl⟩
  | cons s r ih =>
    intro h
    obtain ⟨t, ht⟩ := h s (by simp)
    obtain ⟨ts, hts⟩ := ih fun x hx => h x (by simp [hx])
    exact ⟨t :: ts, by rw [List.mapM_cons, ht, hts]; rfl⟩

theorem printSegs_exc (hm : f.merged = false) {tar : String} {ss : List SegObj}
    (hp : ∀ s ∈ ss, ∃ t, s.str = .ok t) :
    (printSegs f tar ss []).exc = none ∧
    ∀ (v : Str) (i : Nat), Num v i → (printSegs f tar ss [v]).exc = none := by
  constructor
  · obtain ⟨ts, hts⟩ := mapM_ok hp
    simp only [printSegs, hm, Bool.false_eq_true, if_false, hts]
  · intro v i hv
    unfold Num at hv
    simp only [printSegs, hm, Bool.false_eq_true, if_false, hv]
    split
    · rename_i hlt
      have hi : i < ss.length := by omega
      rw [pyIndex_nat, List.getElem?_eq_getElem hi]
      obtain ⟨t, ht⟩ := hp _ (List.getElem_mem hi)
      simp only [ht]
    · rfl

theorem displayDiff_exc {i j : Nat} (hi : i < f.image.length) (hj : j < f.image.length) :
    (displayDiff f i j).exc = none := by
  unfold displayDiff
  simp only [pyIndex_nat, List.getElem?_eq_getElem hi, List.getElem?_eq_getElem hj]
  split <;> rfl

/-- C94, the part that holds: the commands of the help text with indices in range, for a file that is not
merged and can be printed, do not raise and leave the files as they are.  Missing: other commands
(`C94_print_alone`, `C94_image_alone`, `C94_diff_range`, `C94_not_a_number`), merged files
(`C94_merged`). -/
theorem C94_documented_partial (h : Default fs f) (hm : f.merged = false) (hp : Printable f)
    {words : List Str} (hd : Documented f words) :
    ∃ o, process w fs words = (fs, o) ∧ o.exc = none := by
  obtain ⟨path, h⟩ := h
  have segStr : ∀ ss : List SegObj, (∀ s ∈ ss, s ∈ f.image ++ f.graphic ++ f.text ++ f.des ++ f.res) →
      ∀ s ∈ ss, ∃ t, s.str = .ok t := fun ss hss s hs => (hp.segs s (hss s hs)).1
  have im : ∀ s ∈ f.image, s ∈ f.image ++ f.graphic ++ f.text ++ f.des ++ f.res := by simp +contextual
  have tx : ∀ s ∈ f.text, s ∈ f.image ++ f.graphic ++ f.text ++ f.des ++ f.res := by simp +contextual
  have ds : ∀ s ∈ f.des, s ∈ f.image ++ f.graphic ++ f.text ++ f.des ++ f.res := by simp +contextual
  have treSegs : ∀ p, (forEach (fun s : SegObj => listTres s.tres p) f.image).exc = none := fun p =>
    (forEach_ok fun s hs => listTres_exc (hp.segs s (im s hs)).2).1
  have treAt : ∀ p (v : Str) (i : Nat), Num v i → i < f.image.length →
      (processTre f ["image".toList, v] p).exc = none := by
    intro p v i hv hi
    have hc : (i : Int) < f.image.length := by omega
    unfold Num at hv
    have hne : "image".toList ≠ "file".toList := by decide
    simp only [processTre, if_neg hne, if_true, hv, if_pos hc, pyIndex_nat, List.getElem?_eq_getElem hi]
    exact listTres_exc (hp.segs _ (im _ (List.getElem_mem hi))).2
  cases hd with
  | help => exact ⟨_, by simp only [process, h]; rfl, rfl⟩
  | listFiles => exact ⟨_, by simp only [process, h]; rfl, rfl⟩
  | listSeg =>
    refine ⟨_, by simp only [process, h]; rfl, ?_⟩
    exact (andThen_ok (a := say _) rfl (andThen_ok (listSegs_ok _).1
      (andThen_ok (a := say _) rfl (andThen_ok (listSegs_ok _).1
      (andThen_ok (a := say _) rfl (listSegs_ok _).1).1).1).1).1).1
  | listImage => exact ⟨_, by simp only [process, h]; rfl, (listSegs_ok _).1⟩
  | listText => exact ⟨_, by simp only [process, h]; rfl, (listSegs_ok _).1⟩
  | listDes => exact ⟨_, by simp only [process, h]; rfl, (listSegs_ok _).1⟩
  | listTre =>
    refine ⟨_, by simp only [process, h]; rfl, ?_⟩
    exact (andThen_ok (listTres_tags _).1 (forEach_ok fun s _ => (listTres_tags _).1).1).1
  | listTreFile => exact ⟨_, by simp only [process, h]; rfl, (listTres_tags _).1⟩
  | listTreImage => exact ⟨_, by simp only [process, h]; rfl, treSegs false⟩
  | listTreImageAt hv hi => exact ⟨_, by simp only [process, h]; rfl, treAt false _ _ hv hi⟩
  | summary r => exact ⟨_, by simp only [process, h]; rfl, rfl⟩
  | printFile =>
    obtain ⟨t, ht⟩ := hp.whole
    exact ⟨cmdPrint f ["file".toList], by simp only [process, h]; rfl, by
      simp only [cmdPrint, if_true, ht]⟩
  | printImage => exact ⟨_, by simp only [process, h]; rfl, (printSegs_exc (tar := "image") hm (segStr _ im)).1⟩
  | printImageAt hv hi =>
    exact ⟨_, by simp only [process, h]; rfl, (printSegs_exc (tar := "image") hm (segStr _ im)).2 _ _ hv⟩
  | printText => exact ⟨_, by simp only [process, h]; rfl, (printSegs_exc (tar := "text") hm (segStr _ tx)).1⟩
  | printTextAt hv hi =>
    exact ⟨_, by simp only [process, h]; rfl, (printSegs_exc (tar := "text") hm (segStr _ tx)).2 _ _ hv⟩
  | printDes => exact ⟨_, by simp only [process, h]; rfl, (printSegs_exc (tar := "des") hm (segStr _ ds)).1⟩
  | printDesAt hv hi =>
    exact ⟨_, by simp only [process, h]; rfl, (printSegs_exc (tar := "des") hm (segStr _ ds)).2 _ _ hv⟩
  | printTreFile => exact ⟨_, by simp only [process, h]; rfl, listTres_exc hp.tres⟩
  | printTreImage => exact ⟨_, by simp only [process, h]; rfl, treSegs true⟩
  | printTreImageAt hv hi => exact ⟨_, by simp only [process, h]; rfl, treAt true _ _ hv hi⟩
  | @printTreImageTre a b i j s hv hs hb hj =>
    refine ⟨processTre f ["image".toList, a, b] true, by simp only [process, h]; rfl, ?_⟩
    have hi : i < f.image.length := (List.getElem?_eq_some_iff.mp hs).1
    have hc : (i : Int) < f.image.length := by omega
    have hc' : (j : Int) < s.tres.length := by omega
    unfold Num at hv hb
    have hne : "image".toList ≠ "file".toList := by decide
    simp only [processTre, if_neg hne, if_true, hv, hb, if_pos hc, if_pos hc', pyIndex_nat, hs,
      List.getElem?_eq_getElem hj]
    obtain ⟨x, hx⟩ := (hp.segs s (im s (List.mem_of_getElem? hs))).2 _ (List.getElem_mem hj)
    simp only [hx, printObj, say]
  | data r => exact ⟨_, by simp only [process, h]; rfl, rfl⟩
  | @saveDes v i hv hi =>
    obtain ⟨b, hb⟩ := hp.data _ (List.getElem_mem hi)
    exact ⟨_, C94_save_des ⟨path, h⟩ hv (List.getElem?_eq_getElem hi) hb, rfl⟩
  | @imageDisplay v i hv hi =>
    refine ⟨cmdImage f ["display".toList, v], by simp only [process, h]; rfl, ?_⟩
    have hc : (i : Int) < f.image.length := by omega
    unfold Num at hv
    simp only [cmdImage, hv, if_true, displayImage, if_pos hc, pyIndex_nat, List.getElem?_eq_getElem hi]
    split <;> rfl
  | @imageDiff a b i j hv hi hb hj =>
    refine ⟨cmdImage f ["diff".toList, a, b], by simp only [process, h]; rfl, ?_⟩
    unfold Num at hv hb
    unfold cmdImage
    simp only [hv]
    rw [if_neg (by decide), if_pos trivial]
    simp only [hb]
    rw [if_neg (by omega)]
    exact displayDiff_exc hi hj

/-- C94.  A session of such commands goes on to its end. -/
theorem C94_session_partial (h : Default fs f) (hm : f.merged = false) (hp : Printable f)
    {ls : List (List Str)} (hd : ∀ l ∈ ls, l = [] ∨ Documented f l) :
    (session w fs ls).length = ls.length ∧ ∀ o ∈ session w fs ls, o.exc = none := by
  induction ls with
  | nil => exact ⟨rfl, by simp [session]⟩
  | cons l r ih =>
    obtain ⟨i1, i2⟩ := ih fun x hx => hd x (by simp [hx])
    rcases hd l (by simp) with rfl | hl
    · refine ⟨by simp [session, i1], ?_⟩
      intro o ho
      simp only [session, List.mem_cons] at ho
      rcases ho with rfl | ho
      · rfl
      · exact i2 o ho
    · obtain ⟨o, ho, he⟩ := C94_documented_partial (w := w) h hm hp hl
      have hex : ∃ c a, l = c :: a ∧ c ≠ "exit".toList := by
        cases hl <;> exact ⟨_, _, rfl, by decide⟩
      obtain ⟨c, a, rfl, hc⟩ := hex
      have e : session w fs ((c :: a) :: r) = o :: session w fs r := by
        simp only [session, if_neg hc, ho, he]
      rw [e]
      refine ⟨by simp [i1], ?_⟩
      intro x hx
      rcases List.mem_cons.mp hx with rfl | hx
      · exact he
      · exact i2 x hx

/-! ### Only the default file counts -/

theorem get_put_other (fs : Files) {a b : Str} (h : a ≠ b) (path : Str) (g : FileObj) :
    (fs.put a path g).get b = fs.get b := by
  have hab : (a == b) = false := by simpa using h
  unfold Files.put
  split
  · unfold Files.get
    congr 1
    rename_i hany
    clear hany
    induction fs with
    | nil => rfl
    | cons x r ih =>
      rw [List.map_cons, List.find?_cons, List.find?_cons]
      by_cases hx : x.1 = a
      · have h1 : (x.1 == a) = true := by simpa using hx
        have h2 : (x.1 == b) = false := by rw [hx]; exact hab
        rw [if_pos h1, h2]
        simp only [hab]
        exact ih
      · have h1 : ¬ (x.1 == a) = true := by simpa using hx
        rw [if_neg h1, ih]
  · unfold Files.get
    rw [List.find?_append]
    simp [hab]

theorem get_put_same (fs : Files) (a path : Str) (g : FileObj) :
    (fs.put a path g).get a = some (path, g) := by
  unfold Files.put
  split
  · rename_i h
    unfold Files.get
    induction fs with
    | nil => simp at h
    | cons x r ih =>
      by_cases hx : x.1 = a
      · simp [hx]
      · have hx' : (x.1 == a) = false := by simpa using hx
        simp only [List.any_cons, hx', Bool.false_or] at h
        simp only [List.map_cons, hx', List.find?_cons]
        simpa [hx'] using ih h
  · rename_i h
    unfold Files.get
    rw [List.find?_append]
    have : fs.find? (·.1 == a) = none := by
      rw [List.find?_eq_none]
      intro x hx hxa
      exact h (List.any_eq_true.mpr ⟨x, hx, hxa⟩)
    simp [this]

/-- Two sets of files with the same default. -/
def SameDefault (fs fs' : Files) : Prop := fs.get "default".toList = fs'.get "default".toList

theorem SameDefault.put {fs fs' : Files} (h : SameDefault fs fs') (a path : Str) (g : FileObj) :
    SameDefault (fs.put a path g) (fs'.put a path g) := by
  unfold SameDefault at *
  by_cases ha : a = "default".toList
  · subst ha
    rw [get_put_same, get_put_same]
  · rw [get_put_other _ ha, get_put_other _ ha, h]

/-- A line that shows the table of files. -/
def ShowsFiles (l : List Str) : Prop := ∃ r, l = "list".toList :: "files".toList :: r

theorem process_same {fs fs' : Files} (h : SameDefault fs fs') {l : List Str} (hl : ¬ ShowsFiles l) :
    (process w fs l).2 = (process w fs' l).2 ∧ SameDefault (process w fs l).1 (process w fs' l).1 := by
  cases l with
  | nil => exact ⟨rfl, h⟩
  | cons c args =>
    have hget : fs.get "default".toList = fs'.get "default".toList := h
    unfold process
    cases hd : fs'.get "default".toList with
    | none =>
      rw [hd] at hget
      simp only [hget]
      exact ⟨trivial, h⟩
    | some x =>
      rw [hd] at hget
      simp only [hget]
      by_cases hc : c = "load".toList
      · subst hc
        rw [if_neg (by decide), if_pos rfl, if_neg (by decide), if_pos rfl]
        unfold cmdLoad
        split
        · split
          · exact ⟨rfl, h⟩
          · split
            · exact ⟨rfl, h.put _ _ _⟩
            · split
              · exact ⟨rfl, h⟩
              · exact ⟨rfl, h.put _ _ _⟩
        · exact ⟨rfl, h⟩
      · by_cases hli : c = "list".toList
        · subst hli
          rw [if_neg (by decide), if_neg (by decide), if_pos rfl, if_neg (by decide), if_neg (by decide),
            if_pos rfl]
          refine ⟨?_, h⟩
          show cmdList fs x.2 args = cmdList fs' x.2 args
          cases args with
          | nil => rfl
          | cons t r =>
            have ht : t ≠ "files".toList := fun e => hl ⟨r, by rw [e]⟩
            simp only [cmdList, if_neg ht]
        · simp only [if_neg hc, if_neg hli]
          repeat' split
          all_goals exact ⟨rfl, h⟩

theorem session_same : ∀ {ls : List (List Str)} {fs fs' : Files}, SameDefault fs fs' →
    (∀ l ∈ ls, ¬ ShowsFiles l) → session w fs ls = session w fs' ls := by
  intro ls
  induction ls with
  | nil => intro _ _ _ _; rfl
  | cons l r ih =>
    intro fs fs' h hl
    cases l with
    | nil =>
      simp only [session]
      rw [ih h fun x hx => hl x (by simp [hx])]
    | cons c args =>
      obtain ⟨h1, h2⟩ := process_same (w := w) h (hl (c :: args) (by simp))
      simp only [session]
      split
      · rfl
      · rw [h1]
        split
        · rfl
        · rw [ih h2 fun x hx => hl x (by simp [hx])]

/-- C94 violated ("load alias path_to_nitf"): a file loaded under any alias but `default` is never used.
The rest of every session goes on as if it had not been loaded; only `list files` shows it. -/
theorem C94_load_useless (h : Default fs f) {a path : Str} (ha : a ≠ "default".toList) {g : FileObj}
    (hg : w.load path = .ok g) {ls : List (List Str)} (hl : ∀ l ∈ ls, ¬ ShowsFiles l) :
    session w fs (["load".toList, a, path] :: ls) = Out.nil :: session w fs ls := by
  obtain ⟨p, h⟩ := h
  have e : process w fs ["load".toList, a, path] = (fs.put a path g, Out.nil) := by
    simp only [process, h]
    show cmdLoad w fs [a, path] = _
    simp only [cmdLoad, hg]
  have ne : "load".toList ≠ "exit".toList := by decide
  have hn : Out.nil.exc = none := rfl
  simp only [session, if_neg ne, e, hn]
  rw [session_same (w := w) (fs := fs.put a path g) (fs' := fs) (get_put_other _ ha _ _) hl]

/-- C94.  A file loaded as `default` is used from then on. -/
theorem C94_load_default (h : Default fs f) {path : Str} {g : FileObj} (hg : w.load path = .ok g) :
    ∃ fs', process w fs ["load".toList, "default".toList, path] = (fs', Out.nil) ∧ Default fs' g := by
  obtain ⟨p, h⟩ := h
  refine ⟨fs.put "default".toList path g, ?_, path, get_put_same _ _ _ _⟩
  simp only [process, h]
  show cmdLoad w fs ["default".toList, path] = _
  simp only [cmdLoad, hg]

/-! ### Commands that end the program -/

/-- C94 violated: `print` without more ends the program, though it is meant to show what can be printed. -/
theorem C94_print_alone (h : Default fs f) :
    process w fs ["print".toList] = (fs, ⟨[], some .index⟩) := process_print h []

/-- C94 violated: likewise `image`, also with a sub command only. -/
theorem C94_image_alone (h : Default fs f) :
    (process w fs ["image".toList]).2.exc = some .index ∧
    ∀ s, (process w fs ["image".toList, s]).2.exc = some .index := by
  obtain ⟨p, h⟩ := h
  exact ⟨by simp only [process, h]; rfl, fun s => by simp only [process, h]; rfl⟩

/-- C94 violated: `image diff i j` with `j` too large ends the program, for every file: the message names
an attribute that does not exist. -/
theorem C94_diff_range (h : Default fs f) {a b : Str} {i j : Int} (ha : Num a i) (hb : Num b j)
    (hj : (f.image.length : Int) ≤ j) :
    process w fs ["image".toList, "diff".toList, a, b] = (fs, ⟨[], some .attribute⟩) := by
  obtain ⟨p, h⟩ := h
  unfold Num at ha hb
  simp only [process, h]
  show (fs, cmdImage f ["diff".toList, a, b]) = _
  unfold cmdImage
  simp only [ha]
  rw [if_neg (by decide), if_pos trivial]
  simp only [hb]
  rw [if_pos (by omega)]
  rfl

/-- C94 violated: the segments of a merged file cannot be printed. -/
theorem C94_merged (h : Default fs f) (hm : f.merged = true) {tar : String} {ss : List SegObj}
    (hk : kindSegs f tar = some ss) (param : List Str) :
    process w fs ("print".toList :: tar.toList :: param) = (fs, ⟨[], some .key⟩) := by
  rw [process_print h, cmdPrint_segs hk]
  simp only [printSegs, hm, if_true, raise]

/-- C94 violated: a word that is not a number ends the program. -/
theorem C94_not_a_number (h : Default fs f) (hm : f.merged = false) {tar : String} {ss : List SegObj}
    (hk : kindSegs f tar = some ss) {v : Str} {e : Err} (hv : pyIntS v = .error e) :
    process w fs ["print".toList, tar.toList, v] = (fs, ⟨[], some .value⟩) := by
  rw [process_print h, cmdPrint_segs hk]
  simp only [printSegs, hm, Bool.false_eq_true, if_false, hv, raise]

/-- C94 violated: `print tre` prints no TRE of the file, it lists them as `list tre` does. -/
theorem C94_print_tre (h : Default fs f)
    (hs : f.image ++ f.graphic ++ f.text ++ f.des ++ f.res = []) :
    process w fs ["print".toList, "tre".toList] = process w fs ["list".toList, "tre".toList] := by
  obtain ⟨p, h⟩ := h
  simp only [process, h]
  show (fs, processTre f [] true) = (fs, processTre f [] false)
  simp only [processTre, hs]
  rfl

/-! ### Pictures -/

/-- What can be drawn: an array with two dimensions, or with three of which the last has 3 values. -/
def Drawable (p : Option Pic) : Prop :=
  ∃ d shape, p = some ⟨d, shape⟩ ∧ ((∃ a b, shape = [a, b]) ∨ ∃ a b, shape = [a, b, 3])

theorem displayable_iff (p : Option Pic) : displayable p = true ↔ Drawable p := by
  unfold Drawable
  cases p with
  | none => simp [displayable]
  | some q =>
    obtain ⟨d, shape⟩ := q
    constructor
    · intro h
      refine ⟨d, shape, rfl, ?_⟩
      rcases shape with _ | ⟨a, _ | ⟨b, _ | ⟨c, _ | ⟨e, r⟩⟩⟩⟩
      · simp [displayable] at h
      · simp [displayable] at h
      · exact .inl ⟨a, b, rfl⟩
      · simp only [displayable, List.length_cons, List.length_nil] at h
        refine .inr ⟨a, b, ?_⟩
        simpa using h
      · simp [displayable] at h
    · rintro ⟨d', shape', he, ⟨a, b, rfl⟩ | ⟨a, b, rfl⟩⟩
      · cases he
        rfl
      · cases he
        rfl

/-- C94.  `image display i` draws the i-th image if it can be drawn, and says so otherwise. -/
theorem C94_display (h : Default fs f) {v : Str} {i : Nat} {s : SegObj} (hv : Num v i)
    (hs : f.image[i]? = some s) :
    (Drawable s.pic → process w fs ["image".toList, "display".toList, v] = (fs, ⟨[.plot i], none⟩)) ∧
    (¬ Drawable s.pic → process w fs ["image".toList, "display".toList, v] =
      (fs, ⟨[.line "Cannot display image".toList], none⟩)) := by
  obtain ⟨p, h⟩ := h
  have hi : i < f.image.length := (List.getElem?_eq_some_iff.mp hs).1
  have hc : (i : Int) < f.image.length := by omega
  unfold Num at hv
  have e : process w fs ["image".toList, "display".toList, v] =
      (fs, if displayable s.pic then ⟨[.plot i], none⟩ else say "Cannot display image".toList) := by
    simp only [process, h]
    show (fs, cmdImage f ["display".toList, v]) = _
    simp only [cmdImage, hv, if_true, displayImage, if_pos hc, pyIndex_nat, hs]
  rw [← displayable_iff, e]
  constructor
  · intro hd
    rw [if_pos hd]
  · intro hd
    rw [if_neg hd]
    rfl

/-- C94.  `image diff i j` draws the difference of the two images exactly if both can be drawn and they
have the same type and shape. -/
theorem C94_diff (h : Default fs f) {a b : Str} {i j : Nat} {s t : SegObj} (ha : Num a i) (hb : Num b j)
    (hs : f.image[i]? = some s) (ht : f.image[j]? = some t) :
    (Drawable s.pic ∧ s.pic = t.pic →
      process w fs ["image".toList, "diff".toList, a, b] = (fs, ⟨[.plotDiff i j], none⟩)) ∧
    (¬ (Drawable s.pic ∧ s.pic = t.pic) → process w fs ["image".toList, "diff".toList, a, b] =
      (fs, ⟨[.line "image pair not compatible for diff operation".toList], none⟩)) := by
  obtain ⟨p, h⟩ := h
  have hj : j < f.image.length := (List.getElem?_eq_some_iff.mp ht).1
  unfold Num at ha hb
  have e : process w fs ["image".toList, "diff".toList, a, b] =
      (fs, if displayable s.pic && displayable t.pic && s.pic == t.pic then ⟨[.plotDiff i j], none⟩
        else say "image pair not compatible for diff operation".toList) := by
    simp only [process, h]
    show (fs, cmdImage f ["diff".toList, a, b]) = _
    unfold cmdImage
    simp only [ha]
    rw [if_neg (by decide), if_pos trivial]
    simp only [hb]
    rw [if_neg (by omega)]
    simp only [displayDiff, pyIndex_nat, hs, ht]
  have hc : (displayable s.pic && displayable t.pic && s.pic == t.pic) = true ↔
      Drawable s.pic ∧ s.pic = t.pic := by
    simp only [Bool.and_eq_true, displayable_iff, beq_iff_eq]
    exact ⟨fun ⟨⟨x, _⟩, y⟩ => ⟨x, y⟩, fun ⟨x, y⟩ => ⟨⟨x, y ▸ x⟩, y⟩⟩
  rw [e, ← hc]
  constructor
  · intro hd
    rw [if_pos hd]
  · intro hd
    rw [if_neg hd]
    rfl

/-! ### Completion -/

theorem strLt_iff : ∀ a b : Str, strLt a b = true ↔ a < b := by
  intro a
  induction a with
  | nil => intro b; cases b <;> simp [strLt]
  | cons x r ih =>
    intro b
    cases b with
    | nil => simp [strLt]
    | cons y q =>
      rw [List.cons_lt_cons_iff]
      unfold strLt
      by_cases h1 : x < y
      · simp [h1]
      · by_cases h2 : y < x
        · have : x ≠ y := by rintro rfl; exact h1 h2
          simp [h1, h2, this]
        · have : x = y := Char.le_antisymm (Char.not_lt.mp h2) (Char.not_lt.mp h1)
          subst this
          simp [ih, Char.lt_irrefl]

/-- In the order of `str`, words may occur repeatedly. -/
def Sorted (l : List Str) : Prop := l.Pairwise fun a b => ¬ b < a

theorem insertWord_perm (w : Str) : ∀ l, (insertWord w l).Perm (w :: l) := by
  intro l
  induction l with
  | nil => exact .refl _
  | cons x r ih =>
    unfold insertWord
    split
    · exact (ih.cons x).trans (.swap _ _ _)
    · exact .refl _

theorem insertWord_sorted {w : Str} : ∀ {l}, Sorted l → Sorted (insertWord w l) := by
  intro l
  induction l with
  | nil => intro _; simp [insertWord, Sorted]
  | cons x r ih =>
    intro h
    obtain ⟨h1, h2⟩ := List.pairwise_cons.mp h
    unfold insertWord
    split
    · rename_i hx
      rw [strLt_iff] at hx
      refine List.pairwise_cons.mpr ⟨?_, ih h2⟩
      intro y hy
      rcases List.mem_cons.mp ((insertWord_perm w r).mem_iff.mp hy) with rfl | hy
      · exact List.lt_asymm hx
      · exact h1 y hy
    · rename_i hx
      rw [strLt_iff] at hx
      refine List.pairwise_cons.mpr ⟨?_, h⟩
      intro y hy
      rcases List.mem_cons.mp hy with rfl | hy
      · exact hx
      · have hxy := List.not_lt.mp (h1 y hy)
        have hwx := List.not_lt.mp hx
        exact List.not_lt.mpr (List.le_trans hwx hxy)

theorem sortWords_spec : ∀ l, (sortWords l).Perm l ∧ Sorted (sortWords l) := by
  intro l
  induction l with
  | nil => exact ⟨.refl _, .nil⟩
  | cons w r ih => exact ⟨(insertWord_perm w _).trans (ih.1.cons w), insertWord_sorted ih.2⟩

theorem ask_drop {options : List Str} {text : Str} {l : List Str} : ∀ (n k : Nat),
    l.length < k + 1 + n → ask options text n (k + 1) (some l) = l.drop (k + 1) := by
  intro n
  induction n with
  | zero =>
    intro k h
    rw [List.drop_eq_nil_of_le (by omega)]
    rfl
  | succ n ih =>
    intro k h
    have : complete options (some l) text (k + 1) = (some l, .ok l[k + 1]?) := by simp [complete]
    simp only [ask, this]
    cases hk : l[k + 1]? with
    | none =>
      rw [List.drop_eq_nil_of_le (List.getElem?_eq_none_iff.mp hk)]
    | some x =>
      simp only
      rw [ih (k + 1) (by omega)]
      obtain ⟨hlt, rfl⟩ := List.getElem?_eq_some_iff.mp hk
      rw [List.drop_eq_getElem_cons hlt]

/-- C94.  Completion offers, in order and each as often as it is among the options, exactly the options that
begin with the text, whatever was completed before. -/
theorem C94_completion (options : List Str) (text : Str) (m : Option (List Str)) {n : Nat}
    (hn : options.length < n) :
    (ask (sortWords options) text n 0 m).Perm (options.filter fun s => text.isPrefixOf s) ∧
    Sorted (ask (sortWords options) text n 0 m) := by
  obtain ⟨hp, hs⟩ := sortWords_spec options
  generalize sortWords options = o at hp hs
  have e : ask o text n 0 m = o.filter fun s => text.isPrefixOf s := by
    have hl : (if text.isEmpty then o else o.filter fun s => !s.isEmpty && text.isPrefixOf s) =
        o.filter fun s => text.isPrefixOf s := by
      cases text with
      | nil => exact (List.filter_eq_self.mpr fun _ _ => rfl).symm
      | cons c t =>
        simp only [List.isEmpty_cons, Bool.false_eq_true, if_false]
        apply List.filter_congr
        intro s _
        cases s <;> simp
    obtain ⟨n, rfl⟩ : ∃ k, n = k + 1 := ⟨n - 1, by omega⟩
    have hc : complete o m text 0 = (some (o.filter fun s => text.isPrefixOf s),
        .ok (o.filter fun s => text.isPrefixOf s)[0]?) := by
      simp only [complete, beq_self_eq_true, if_true, hl]
    have hlen : (o.filter fun s => text.isPrefixOf s).length ≤ o.length := List.length_filter_le _ _
    rw [hp.length_eq] at hlen
    simp only [ask, hc]
    generalize o.filter (fun s => text.isPrefixOf s) = l at hlen
    cases l with
    | nil => rfl
    | cons x r =>
      simp only [List.getElem?_cons_zero]
      rw [ask_drop n 0 (by simp only [List.length_cons] at hlen ⊢; omega)]
      rfl
  rw [e]
  exact ⟨hp.filter _, hs.filter _⟩

/-- C94 violated: `help`, `exit` and `files` are not completed, and `save_des` is offered twice. -/
theorem C94_completion_missing :
    ask (sortWords offered) "he".toList 18 0 none = [] ∧ ask (sortWords offered) "ex".toList 18 0 none = [] ∧
    ask (sortWords offered) "files".toList 18 0 none = [] ∧
    ask (sortWords offered) "sa".toList 18 0 none = ["save_des".toList, "save_des".toList] := by
  decide +kernel

/-! ### Concrete cases -/

def exSeg (t : String) : SegObj :=
  { label := t.toList, str := .ok ("segment ".toList ++ t.toList),
    tres := [{ tag := "USE00A".toList, str := .ok "use".toList }], data := .ok [1, 2],
    pic := some ⟨1, [4, 5]⟩ }

def exFileObj : FileObj :=
  { merged := false, str := .ok "file".toList, tres := [{ tag := "STDIDC".toList, str := .ok "std".toList }],
    image := [exSeg "a", exSeg "b"], graphic := [], text := [], des := [exSeg "d"], res := [] }

def exWorld : World :=
  { load := fun _ => .ok exFileObj, merge := fun _ f => .ok { f with merged := true }, input := "out".toList }

def exFiles : Files := [("default".toList, "x.ntf".toList, exFileObj)]

/-- The hypotheses of the theorems above. -/
example : Default exFiles exFileObj ∧ exFileObj.merged = false ∧ Printable exFileObj ∧
    Num "1".toList ((1 : Nat) : Int) ∧ kindSegs exFileObj "image" = some exFileObj.image := by
  refine ⟨⟨_, rfl⟩, rfl, ⟨⟨_, rfl⟩, ?_, ?_, ?_⟩, by unfold Num; decide +kernel, rfl⟩
  · simp [exFileObj]
  · simp [exFileObj, exSeg]
  · simp [exFileObj, exSeg]

example : Documented exFileObj ["print".toList, "tre".toList, "image".toList, "1".toList, "0".toList] :=
  .printTreImageTre (i := 1) (j := 0) (s := exSeg "b") (by unfold Num; decide +kernel) rfl
    (by unfold Num; decide +kernel) (by decide)

/-- `print image -1` shows the last image, though the range is said to begin with 0. -/
example : (process exWorld exFiles ["print".toList, "image".toList, "-1".toList]).2 =
    ⟨[.page "segment b".toList], none⟩ := by
  simp only [process, exFiles]
  rfl

/-- Both pictures can be drawn, and they have the same type and shape. -/
example : Drawable (exSeg "a").pic ∧ (exSeg "a").pic = (exSeg "b").pic ∧ ¬ Drawable (some ⟨1, [4, 5, 2]⟩) :=
  ⟨⟨1, [4, 5], rfl, .inl ⟨4, 5, rfl⟩⟩, rfl, by rw [← displayable_iff]; decide⟩

example : ask (sortWords offered) "d".toList 18 0 none =
    ["data", "des", "diff", "display"].map (·.toList) := by decide +kernel

example : exWorld.load [] = .ok exFileObj ∧ ¬ ShowsFiles ["list".toList, "image".toList] :=
  ⟨rfl, by rintro ⟨r, h⟩; simp at h⟩

end Explore
end Verif
