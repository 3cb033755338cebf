import Verif.UserSize
import Verif.Row
import Verif.Props.Limits
import Verif.Props.Standard

/- C104: how long the user subheader of a DES may be. -/

namespace Verif.UserSize

open Verif Verif.Split Verif.Limits Verif.Standard

variable {P : PyFloat} {E : Env} {IO : DataIO P.F}

/-! ### Specification -/

/-- The id of the DES is that of TRE overflow. -/
def OverflowId (P : PyFloat) (S : Store P.F) : Prop :=
  getAttr P Tables.t_des_subheader S (n!"desid") [] = .ok (.str "TRE_OVERFLOW".toList)

/-- What `user_subheader_size` is there for: a user subheader within the limit of the length field,
9999, can be in a file. -/
def LimitIs9999 (P : PyFloat) (E : Env) (IO : DataIO P.F) : Prop :=
  ∀ (user : Option (Desc × Store P.F)) (n : Nat), userSubheaderSize P user = .ok n → n ≤ 9999 →
    ∃ (f f' : NFile P.F IO.D) (out : Bytes), NoLit f.header ∧
      (∀ k, ∀ s ∈ f.segs k, s.linked = true) ∧ (∃ s ∈ f.des, s.user = user ∧ ¬ OverflowId P s.sub) ∧
      writeFile P E IO f = .ok (f', out)

/-! ### Lemmas -/

theorem desshl_row : Row Tables.t_des_subheader (n!"desshl") 21 .int none 4 :=
  Row.of (by decide +kernel)

theorem size_of_bytes {user : Option (Desc × Store P.F)} {b : Bytes} (h : userBytes P user = .ok b) :
    userSubheaderSize P user = .ok b.length := by
  unfold userBytes at h
  unfold userSubheaderSize
  split at h
  · injection h with h
    subst h
    rfl
  · simp only [h]

theorem total_des (o : Bool) (v : Int) :
    total (desSubheader o v) = 200 + (if o then 9 else 0) + v.toNat := by
  unfold desSubheader
  cases o <;> simp [total_append, total_row, security] <;> omega

theorem drop_mem : ∀ {ss ss' : List (Seg P.F IO.D)}, dropOverflow P IO ss = .ok ss' →
    ∀ s ∈ ss, ¬ OverflowId P s.sub → s ∈ ss'
  | [], _, _, s, hs, _ => by cases hs
  | a :: ss, ss', h, s, hs, hn => by
    unfold dropOverflow at h
    split at h
    · cases h
    · rename_i id hid
      split at h
      · cases h
      · rename_i ss1 hr
        injection h with h
        subst h
        rcases List.mem_cons.mp hs with rfl | hs
        · rw [if_neg]
          · exact List.mem_cons_self
          · intro he
            exact hn (by unfold OverflowId; rw [hid, he])
        · have := drop_mem hr s hs hn
          split
          · exact this
          · exact List.mem_cons_of_mem _ this
    · cases h

/-! ### Theorems -/

/-- C104.  When a DES segment is written, `user_subheader_size` is what its field `desshl` says, at
most 9999, and the subheader has 200 bytes besides (209 for TRE overflow). -/
theorem C104_size {s s' : Seg P.F IO.D} {hd data : Bytes}
    (h : segBytes P E IO .des s = .ok (s', hd, data)) :
    ∃ n, userSubheaderSize P s.user = .ok n ∧ n ≤ 9999 ∧
      getAttr P Tables.t_des_subheader s'.sub (n!"desshl") [] = .ok (.int (n : Nat)) ∧
      (OverflowId P s'.sub → hd.length = 209 + n) ∧ (¬ OverflowId P s'.sub → hd.length = 200 + n) := by
  obtain ⟨sub, h1, h2, h3, _, _⟩ := segBytes_ok P E IO h
  obtain ⟨b, hb, hsub⟩ := writeUser_des P h1
  have hs' : s'.sub = sub := by
    have : s' = { s with sub := sub } := h2
    rw [this]
  have hcell : sub 21 [] = some ⟨.val (.int (b.length : Nat)), none⟩ := by
    rw [hsub]
    simp [Store.set]
  have hget := desshl_row.get_int (P := P) hcell
  have hw : writeStruct P Tables.t_des_subheader sub = .ok hd := h3
  have hfit : FitsDec 4 (b.length : Nat) := by
    refine Classical.byContradiction fun hc => ?_
    obtain ⟨e, he⟩ := desshl_row.overflow (P := P) (S := sub) (by decide +kernel)
      (fun fi hfi => by
        obtain ⟨fi', g1, _, _, _, g5, _⟩ := desshl_row.at_
        rw [hfi] at g1
        injection g1 with g1
        subst g1
        exact evalCond_none P g5 _ _) ⟨none, hcell⟩ hc
    rw [he] at hw
    cases hw
  obtain ⟨o, v, ho, hv, hwa⟩ := C98_des_written P hw
  have hlen := C98_total P hwa
  rw [total_des] at hlen
  have e : (Val.int v : Val P.F) = .int (b.length : Nat) := by
    rw [hv] at hget
    injection hget
  injection e with e
  refine ⟨b.length, size_of_bytes hb, ?_, ?_, ?_, ?_⟩
  · unfold FitsDec at hfit
    omega
  · rw [hs']
    exact hget
  · intro hov
    rw [hs'] at hov
    rw [ho.mpr hov] at hlen
    simp only [if_true] at hlen
    omega
  · intro hov
    rw [hs'] at hov
    have : o = false := by
      cases o
      · rfl
      · exact absurd (ho.mp rfl) hov
    rw [this] at hlen
    simp at hlen
    omega

/-- C104.  Whenever `user_subheader_size` gives a number, of any size, the user subheader can be put into
every DES subheader, and `desshl` then is this number. -/
theorem C104_put {user : Option (Desc × Store P.F)} {n : Nat} (h : userSubheaderSize P user = .ok n)
    (S : Store P.F) : ∃ S', writeUser P .des user S = .ok S' ∧
      getAttr P Tables.t_des_subheader S' (n!"desshl") [] = .ok (.int (n : Nat)) := by
  have key : ∃ b, userBytes P user = .ok b ∧ b.length = n := by
    unfold userSubheaderSize at h
    unfold userBytes
    split at h
    · split at h
      · cases h
      · rename_i b hb
        injection h with h
        exact ⟨b, hb, h⟩
    · injection h with h
      exact ⟨[], rfl, h⟩
  obtain ⟨b, hb, rfl⟩ := key
  refine ⟨(S.set 22 [] ⟨.val (.bytes b), none⟩).set 21 [] ⟨.val (.int (b.length : Nat)), none⟩, ?_,
    desshl_row.get_int (P := P) (raw := none) (by simp [Store.set])⟩
  unfold userBytes at hb
  unfold writeUser
  split at hb
  · injection hb with hb
    subst hb
    simp only
    rw [setUser_none, setUser_des]
  · simp only [hb]
    rw [setUser_des]

/-- C104.  A DES segment whose user subheader cannot be written or has more than 9999 bytes is not
written. -/
theorem C104_too_long {s : Seg P.F IO.D} (hn : ∀ n, userSubheaderSize P s.user = .ok n → 9999 < n) :
    ∃ e, segBytes P E IO .des s = .error e := by
  cases h : segBytes P E IO .des s with
  | error e => exact ⟨e, rfl⟩
  | ok r =>
    obtain ⟨s', hd, data⟩ := r
    obtain ⟨n, h1, h2, _⟩ := C104_size h
    have := hn n h1
    omega

/-- C104 as far as it holds: user subheaders of up to 9799 bytes leave the subheader of the DES short
enough for its length in the file header.  Missing: those of 9800 to 9999 bytes (`C104_raises`). -/
theorem C104_fits_partial {s s' : Seg P.F IO.D} {hd data : Bytes}
    (h : segBytes P E IO .des s = .ok (s', hd, data)) (ho : ¬ OverflowId P s'.sub) :
    ∃ n, userSubheaderSize P s.user = .ok n ∧ (hd.length < 10 ^ 4 ↔ n ≤ 9799) := by
  obtain ⟨n, h1, _, _, _, h2⟩ := C104_size h
  refine ⟨n, h1, ?_⟩
  rw [h2 ho]
  omega

/-- C104.  Every file with a DES whose user subheader cannot be written or has more than 9799 bytes
raises when it is written. -/
theorem C104_raises {f : NFile P.F IO.D} (hlit : NoLit f.header)
    (hlink : ∀ k, ∀ s ∈ f.segs k, s.linked = true) {s : Seg P.F IO.D} (hs : s ∈ f.des)
    (ho : ¬ OverflowId P s.sub) (hn : ∀ n, userSubheaderSize P s.user = .ok n → 9799 < n) :
    ∃ e, writeFile P E IO f = .error e := by
  cases h : writeFile P E IO f with
  | error e => exact ⟨e, rfl⟩
  | ok z =>
    exfalso
    obtain ⟨f', out⟩ := z
    obtain ⟨r⟩ := writeFile_run P E IO h
    have h0 : s ∈ r.des0 := drop_mem r.drop0 s hs ho
    obtain ⟨⟨ov, hov, _⟩, _⟩ := r.desList
    have h1 : s ∈ r.segs1 .des := by
      rw [hov]
      exact List.mem_append_left _ h0
    obtain ⟨x, hx, hseg⟩ := (r.each .des).mem_left h1
    obtain ⟨s', hd, data⟩ := x
    obtain ⟨m, g1, _, _, g3, g4⟩ := C104_size hseg
    have h9 := hn m g1
    have hlen := ((pieces_some (pieces_run P E IO r hlit hlink)).1.each .des (hd, data) (by
      simp only [runPieces, Pieces.of]
      exact List.mem_map.mpr ⟨_, hx, rfl⟩)).1
    simp only [digits] at hlen
    by_cases hc : OverflowId P s'.sub
    · have := g3 hc
      omega
    · have := g4 hc
      omega

/-- The user subheader of the DES of GLAS/GFM with 9754 reserved bytes. -/
def exUser : Desc × Store P0.F :=
  (Tables.t_des_associated_user_subheader,
    match setA P0 Tables.t_des_associated_user_subheader Store.empty (n!"reservedsubh")
      (.bytes (List.replicate 9754 0)) with
    | .ok S => S
    | .error _ => Store.empty)

theorem exUser_size : userSubheaderSize P0 (some exUser) = .ok 9800 := by decide +kernel

/-- C104.  So the limit is not what the length field suggests. -/
theorem C104_limit_missed (E : Env) (IO : DataIO P0.F) : ¬ LimitIs9999 P0 E IO := by
  intro h
  obtain ⟨f, f', out, h1, h2, ⟨s, h3, h4, h5⟩, h6⟩ := h (some exUser) 9800 exUser_size (by omega)
  obtain ⟨e, he⟩ := C104_raises (E := E) h1 h2 h3 h5 fun n hn => by
    rw [h4, exUser_size] at hn
    injection hn with hn
    omega
  rw [he] at h6
  cases h6

/-- A DES with a user subheader of 49 bytes, three of them reserved: 249 bytes. -/
def exSeg : Seg P0.F exIO.D :=
  { linked := true, sub := Store.empty, data := .other [7, 8, 9]
    user := some (Tables.t_des_associated_user_subheader,
      match setA P0 Tables.t_des_associated_user_subheader Store.empty (n!"reservedsubh")
        (.bytes [1, 2, 3]) with
      | .ok S => S
      | .error _ => Store.empty) }

example : userSubheaderSize P0 exSeg.user = .ok 49 ∧
    (segBytes P0 exEnv exIO .des exSeg).toOption.map (fun r => (r.2.1.length, r.2.2)) =
      some (249, [7, 8, 9]) := by
  decide +kernel

/-- A file with a DES whose user subheader has this many reserved bytes. -/
def exReserved (n : Nat) : NFile P0.F exIO.D :=
  { exFile with
    des := [{ exSeg with
      user := some (Tables.t_des_associated_user_subheader,
        match setA P0 Tables.t_des_associated_user_subheader Store.empty (n!"reservedsubh")
          (.bytes (List.replicate n 0)) with
        | .ok S => S
        | .error _ => Store.empty) }] }

example : (writeFile P0 exEnv exIO (exReserved 9753)).toOption.isSome = true := by decide +kernel
example : (writeFile P0 exEnv exIO (exReserved 9754)).toOption.isSome = false := by decide +kernel

theorem exFile_linked {s0 : Seg P0.F exIO.D} (h0 : s0.linked = true) :
    ∀ k, ∀ s ∈ NFile.segs { exFile with des := [s0] } k, s.linked = true := by
  intro k s hs
  cases k <;> simp [exFile, NFile.segs] at hs <;> subst hs <;> first | rfl | exact h0

/-- The hypotheses of `C104_raises` hold for it. -/
example : ∃ e, writeFile P0 exEnv exIO (exReserved 9754) = .error e := by
  refine C104_raises NoLit.empty (exFile_linked rfl) (s := { exSeg with user := some exUser })
    List.mem_cons_self ?_ ?_
  · unfold OverflowId
    decide +kernel
  · intro n hn
    rw [exUser_size] at hn
    injection hn with hn
    omega

end Verif.UserSize
