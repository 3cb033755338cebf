import Verif.Props.UserSize

/- C106: segments are written with user subheaders of the class registered for their id. -/

namespace Verif.UserSize

open Verif

variable {P : PyFloat} {E : Env} {IO : DataIO P.F}

/-! ### Specification -/

/-- The class with description `d` is registered for this id. -/
def Registered (l : List (Str × Desc)) (id : Str) (d : Desc) : Prop :=
  ∃ a b, l = a ++ (id, d) :: b ∧ ∀ e ∈ a, e.1 ≠ id

/-- The id of a DES or RES. -/
def HasId (P : PyFloat) (k : SegKind) (S : Store P.F) (id : Str) : Prop :=
  k = .des ∧ getAttr P Tables.t_des_subheader S (n!"desid") [] = .ok (.str id) ∨
  k = .res ∧ getAttr P Tables.t_res_subheader S (n!"resid") [] = .ok (.str id)

/-- The classes registered for this kind of segment. -/
def classes (E : Env) : SegKind → List (Str × Desc)
  | .des => E.desUser
  | .res => E.resUser
  | _ => []

/-! ### Lemmas -/

theorem find_registered {l : List (Str × Desc)} {id : Str} {d : Desc} (h : Registered l id d) :
    (l.find? fun e => e.1 == id).map (·.2) = some d := by
  obtain ⟨a, b, rfl, ha⟩ := h
  rw [List.find?_append, List.find?_eq_none.mpr fun e he => by simpa using ha e he]
  simp

theorem find_free {l : List (Str × Desc)} {id : Str} (h : ∀ d, ¬ Registered l id d) :
    (l.find? fun e => e.1 == id).map (·.2) = none := by
  cases hf : l.find? fun e => e.1 == id with
  | none => rfl
  | some e =>
    obtain ⟨h1, a, b, h2, h3⟩ := List.find?_eq_some_iff_append.mp hf
    have : e.1 = id := by simpa using h1
    refine absurd ⟨a, b, ?_, fun x hx => by simpa using h3 x hx⟩ (h e.2)
    rw [h2, ← this]

theorem cls_of {k : SegKind} {S : Store P.F} {id : Str} (h : HasId P k S id) :
    userCls P E k S = .ok (((classes E k).find? fun e => e.1 == id).map (·.2)) := by
  rcases h with ⟨rfl, h⟩ | ⟨rfl, h⟩
  · simp only [userCls, classes]
    rw [show SegKind.des.desc = Tables.t_des_subheader from rfl, h]
  · simp only [userCls, classes]
    rw [show SegKind.res.desc = Tables.t_res_subheader from rfl, h]

/-! ### Theorems -/

/-- C106.  Writing a segment of a file raises a RuntimeError, before anything is written, if a class is
registered for its id and the user subheader is missing or of another class. -/
theorem C106_runtime {k : SegKind} {s : Seg P.F IO.D} {id : Str} {d : Desc} (hl : s.linked = true)
    (hid : HasId P k s.sub id) (hd : Registered (classes E k) id d)
    (hu : ∀ U, s.user ≠ some (d, U)) : segBytes P E IO k s = .error .runtime := by
  unfold segBytes checkUser
  rw [if_pos hl, cls_of hid, find_registered hd]
  simp only
  rw [if_neg]
  intro hc
  obtain ⟨⟨d', U⟩, h1, h2⟩ := Option.map_eq_some_iff.mp hc
  simp only at h2
  subst h2
  exact hu U h1

/-- C106.  In a file that is written, every DES and RES with an id for which a class is registered has a
user subheader of this class. -/
theorem C106_class {f f' : NFile P.F IO.D} {out : Bytes} (h : writeFile P E IO f = .ok (f', out))
    (hlink : ∀ k, ∀ s ∈ f.segs k, s.linked = true) {k : SegKind} {s : Seg P.F IO.D} (hs : s ∈ f.segs k)
    (ho : k = .des → ¬ OverflowId P s.sub) {id : Str} {d : Desc} (hid : HasId P k s.sub id)
    (hd : Registered (classes E k) id d) : ∃ U, s.user = some (d, U) := by
  refine Classical.byContradiction fun hc => ?_
  have hb := C106_runtime (E := E) (IO := IO) (hlink k s hs) hid hd fun U hU => hc ⟨U, hU⟩
  obtain ⟨r⟩ := writeFile_run P E IO h
  have h1 : s ∈ r.segs1 k := by
    rcases hid with ⟨rfl, _⟩ | ⟨rfl, _⟩
    · obtain ⟨⟨ov, hov, _⟩, _⟩ := r.desList
      rw [hov]
      exact List.mem_append_left _ (drop_mem r.drop0 s hs (ho rfl))
    · rw [r.segsR]
      exact hs
  obtain ⟨x, _, hx⟩ := (r.each k).mem_left h1
  rw [hb] at hx
  cases hx

/-- C106.  With an id for which no class is registered, any user subheader is taken: the segment is
written as it is outside of a file. -/
theorem C106_free {k : SegKind} {s : Seg P.F IO.D} {id : Str} (hid : HasId P k s.sub id)
    (hd : ∀ d, ¬ Registered (classes E k) id d) :
    (segBytes P E IO k s).map (·.2) = (segBytes P E IO k { s with linked := false }).map (·.2) := by
  have h1 : checkUser P E IO k s = .ok () := by
    unfold checkUser
    rw [cls_of hid, find_free hd]
    simp
  have h2 : checkUser P E IO k { s with linked := false } = .ok () := by
    unfold checkUser
    simp
  unfold segBytes
  rw [h1, h2]
  simp only
  cases writeUser P k s.user s.sub with
  | error e => rfl
  | ok sub =>
    simp only
    cases writeStruct P k.desc sub with
    | error e => rfl
    | ok sb =>
      simp only
      cases writeData P IO s.data with
      | error e => rfl
      | ok db => rfl

/-- The class of the associated user subheader is registered for the id `CSATTB`. -/
def exClasses : Env :=
  { reg := [], desUser := [("OTHER".toList, Tables.t_des_csatta),
      ("CSATTB".toList, Tables.t_des_associated_user_subheader)] }

/-- A DES with this id. -/
def exCsattb : Seg P0.F exIO.D :=
  { exSeg with
    sub := match setA P0 Tables.t_des_subheader Store.empty (n!"desid") (.str "CSATTB".toList) with
      | .ok S => S
      | .error _ => Store.empty }

theorem exCsattb_id : HasId P0 .des exCsattb.sub "CSATTB".toList := .inl ⟨rfl, by decide +kernel⟩

theorem exCsattb_registered : Registered (classes exClasses .des) "CSATTB".toList
    Tables.t_des_associated_user_subheader :=
  ⟨[("OTHER".toList, Tables.t_des_csatta)], [], rfl, by decide⟩

/-- It is written with its user subheader and not without one. -/
example : (writeFile P0 exClasses exIO { exFile with des := [exCsattb] }).toOption.isSome = true ∧
    (writeFile P0 exClasses exIO { exFile with des := [{ exCsattb with user := none }] }).toOption.isSome =
      false := by
  decide +kernel

example : segBytes P0 exClasses exIO .des { exCsattb with user := none } = .error .runtime :=
  C106_runtime rfl exCsattb_id exCsattb_registered fun U h => by cases h

end Verif.UserSize
