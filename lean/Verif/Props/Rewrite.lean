import Verif.ReadClear
import Verif.Props.File

/- C27: writing the same file object again. -/

namespace Verif

/-- Calling `write` `n` times on the same object: the object afterwards and the bytes of each
file. -/
def writeTimes (P : PyFloat) (E : Env) (IO : DataIO P.F) :
    Nat → NFile P.F IO.D → Except Err (NFile P.F IO.D × List Bytes)
  | 0, f => .ok (f, [])
  | n + 1, f =>
    match writeFile P E IO f with
    | .error e => .error e
    | .ok (f1, out) =>
      match writeTimes P E IO n f1 with
      | .error e => .error e
      | .ok (f2, outs) => .ok (f2, out :: outs)

variable {P : PyFloat} (E : Env) (IO : DataIO P.F)

/-- C27, first half: after any write, no DES segment of the object is an overflow segment. -/
theorem C27_no_overflow {f f' : NFile P.F IO.D} {out : Bytes}
    (h : writeFile P E IO f = .ok (f', out)) :
    ∀ s ∈ f'.des, ∃ id, getAttr P Tables.t_des_subheader s.sub (n!"desid") [] = .ok (.str id) ∧
      id ≠ "TRE_OVERFLOW".toList := by
  obtain ⟨r⟩ := writeFile_run P E IO h
  exact (dropOverflow_ok P IO r.drop1).2

/-- C27.  The DES segments that are not overflow segments all stay, in order, with their user subheaders,
TREs and data; only their subheader may change (the user subheader is stored in it). -/
theorem C27_des_kept {f f' : NFile P.F IO.D} {out : Bytes}
    (h : writeFile P E IO f = .ok (f', out)) :
    Each (fun s s' => s'.linked = s.linked ∧ s'.user = s.user ∧ s'.tres = s.tres ∧ s'.data = s.data)
      (f.des.filter fun s =>
        match getAttr P Tables.t_des_subheader s.sub (n!"desid") [] with
        | .ok (.str id) => decide (id ≠ "TRE_OVERFLOW".toList)
        | _ => true) f'.des := by
  obtain ⟨r⟩ := writeFile_run P E IO h
  obtain ⟨ov, ra, rb, d1, d2, d3, d4, d5, d6, d7⟩ := r.des_split P E IO
  have hfil : r.des0 = f.des.filter fun s =>
      match getAttr P Tables.t_des_subheader s.sub (n!"desid") [] with
      | .ok (.str id) => decide (id ≠ "TRE_OVERFLOW".toList)
      | _ => true := by
    have := r.drop0
    clear d1 d2 d3 d4 d5 d6 d7
    revert this
    generalize r.des0 = ds
    generalize f.des = ss
    induction ss generalizing ds with
    | nil => intro h; unfold dropOverflow at h; injection h with h; subst h; rfl
    | cons s ss ih =>
      intro h
      unfold dropOverflow at h
      split at h
      · cases h
      · rename_i id hid
        split at h
        · cases h
        · rename_i ss1 hr
          injection h with h
          have := ih _ hr
          rw [List.filter_cons, hid]
          simp only [decide_not, Bool.not_eq_true', decide_eq_false_iff_not] at this ⊢
          split at h
          · rename_i he
            subst h
            rw [if_neg (by simpa using he)]
            exact this
          · rename_i he
            subst h
            rw [if_pos he, this]
      · cases h
  rw [← hfil, d6]
  refine Each.map_right _ (d3.imp ?_)
  intro s _ x hx
  unfold segBytes at hx
  split at hx
  · cases hx
  · split at hx
    · cases hx
    · split at hx
      · cases hx
      · split at hx
        · cases hx
        · cases hx
          exact ⟨rfl, rfl, rfl, rfl⟩

/-- Every write of an object after the first gives the same bytes as the first, if no TRE area
that is not in use had a stale overflow number before the first. -/
theorem C27_any_number_partial {f f' : NFile P.F IO.D} {out : Bytes}
    (h : writeFile P E IO f = .ok (f', out)) (hf : AreasClear IO f) (n : Nat) :
    ∃ f2, writeTimes P E IO (n + 1) f = .ok (f2, List.replicate (n + 1) out) := by
  obtain ⟨f1, h1, hs⟩ := writeFile_again E IO h hf
  have : ∀ (n : Nat) (g : NFile P.F IO.D), FileEqv P IO f' g →
      ∃ f2, writeTimes P E IO n g = .ok (f2, List.replicate n out) := by
    intro n
    induction n with
    | zero => intro g _; exact ⟨g, rfl⟩
    | succ n ih =>
      intro g hg
      obtain ⟨g', e1, e2⟩ := writeFile_same P E IO hg h1
      obtain ⟨f2, e3⟩ := ih g' (hs.trans P IO e2)
      exact ⟨f2, by simp [writeTimes, e1, e3, List.replicate_succ]⟩
  obtain ⟨f2, e⟩ := this n f' (FileEqv.refl P IO f')
  exact ⟨f2, by simp [writeTimes, h, e, List.replicate_succ]⟩

/-- The second write. -/
theorem C27_write_again_partial {f f' : NFile P.F IO.D} {out : Bytes}
    (h : writeFile P E IO f = .ok (f', out)) (hf : AreasClear IO f) :
    ∃ f'', writeFile P E IO f' = .ok (f'', out) ∧ FileEqv P IO f' f'' :=
  writeFile_again E IO h hf

/-- For an object that was read from a file, without condition: whatever TREs, segments and
fields were changed in between, as long as the header and the subheaders of the segments are
those that were read. -/
theorem C27_read {b : Bytes} {g f f' : NFile P.F IO.D} {out : Bytes}
    (hr : readFile P E IO b = .ok g) (hh : f.header = g.header)
    (hs : ∀ k, ∀ s ∈ f.segs k, ∃ s' ∈ g.segs k, s.sub = s'.sub)
    (h : writeFile P E IO f = .ok (f', out)) (n : Nat) :
    ∃ f2, writeTimes P E IO (n + 1) f = .ok (f2, List.replicate (n + 1) out) := by
  have hc := readFile_clear E IO hr
  refine C27_any_number_partial E IO h ⟨by rw [hh]; exact hc.header, ?_⟩ n
  intro k areas hk s hm
  obtain ⟨s', h1, h2⟩ := hs k s hm
  rw [h2]
  exact hc.segs k areas hk s' h1

/-- For an object in which the overflow fields were never assigned (the library assigns them only
while writing), without other condition: a new object, with whatever fields, TREs and segments. -/
theorem C27_new {f f' : NFile P.F IO.D} {out : Bytes}
    (hh : ∀ a ∈ fileAreas, ∀ o, resolve Tables.t_file_header.tab a.ofl = some o →
      f.header o [] = none)
    (hs : ∀ k areas, k.areas = some areas → ∀ s ∈ f.segs k, ∀ a ∈ areas, ∀ o,
      resolve k.desc.tab a.ofl = some o → s.sub o [] = none)
    (h : writeFile P E IO f = .ok (f', out)) (n : Nat) :
    ∃ f2, writeTimes P E IO (n + 1) f = .ok (f2, List.replicate (n + 1) out) := by
  have key : ∀ (d : Desc) (areas : List Area) (S : Store P.F), areasTopB d areas = true →
      (∀ a ∈ areas, ∀ o, resolve d.tab a.ofl = some o → S o [] = none) → OflClear P d areas S := by
    intro d areas S hT hS a ha _ o fo ho hfo
    have hB := List.all_eq_true.mp hT a ha
    generalize areaMN d a = mn at hB
    obtain ⟨m, n⟩ := mn
    rw [ho] at hB
    simp only [hfo, Bool.and_eq_true, decide_eq_true_eq, Option.isNone_iff_eq_none,
      Bool.not_eq_true', beq_iff_eq] at hB
    obtain ⟨_, _, ⟨hdef, hopt⟩, hty⟩ := hB
    unfold stored
    rw [hS a ha o ho]
    simp [defaultVal, hdef, hopt, hty]
  exact C27_any_number_partial E IO h ⟨key _ _ _ fileAreas_top hh, fun k areas hk s hm =>
    key _ _ _ (segAreas_top hk) (hs k areas hk s hm)⟩ n

/-! ### A concrete case, and what fails -/

/-- The file header after `xhd = b'\x01'`, `xhdlofl = 1`, `xhd = b''`. -/
def exStaleHeader : Except Err (Store P0.F) :=
  setAll P0 Tables.t_file_header
    [(n!"xhd", .bytes [1]), (n!"xhdlofl", .int 1), (n!"xhd", .bytes [])] exFile.header

/-- The example file with that header: an unused area with a stale overflow number. -/
def exStale : NFile P0.F exIO.D :=
  { exFile with header := exStaleHeader.toOption.getD exFile.header }

example : exStaleHeader.toOption.isSome = true := by decide +kernel

/-- C27 does not hold for every object: with a stale overflow number in an unused area, the first
write stores the TREs in the area and keeps the number (nitf_tre.py:208-216 clears the number
before storing, but only if the area was in use), the second clears it. -/
theorem C27_stale : ∃ f1 f2 out1 out2, writeFile P0 exEnv exIO exStale = .ok (f1, out1) ∧
    writeFile P0 exEnv exIO f1 = .ok (f2, out2) ∧ out1 ≠ out2 := by
  have key : ((writeTimes P0 exEnv exIO 2 exStale).toOption.map fun x => decide
      (x.2[0]? ≠ x.2[1]?)) = some true := by decide +kernel
  cases h1 : writeFile P0 exEnv exIO exStale with
  | error e => simp [writeTimes, h1, Except.toOption] at key
  | ok r1 =>
    cases h2 : writeFile P0 exEnv exIO r1.1 with
    | error e => simp [writeTimes, h1, h2, Except.toOption] at key
    | ok r2 =>
      refine ⟨r1.1, r2.1, r1.2, r2.2, rfl, h2, ?_⟩
      simpa [writeTimes, h1, h2, Except.toOption] using key

/-- The example file meets the hypotheses of `C27_new`; three writes. -/
example : ∃ f2 out, writeTimes P0 exEnv exIO 3 exFile = .ok (f2, [out, out, out]) := by
  cases h : writeFile P0 exEnv exIO exFile with
  | error e =>
    have : (writeFile P0 exEnv exIO exFile).toOption.isSome = true := by decide +kernel
    rw [h] at this; cases this
  | ok r =>
    obtain ⟨f2, h2⟩ := C27_new exEnv exIO (f := exFile) (f' := r.1) (out := r.2)
      (fun _ _ _ _ => rfl)
      (by
        intro k areas hk s hs
        cases k with
        | image => cases hs
        | graphic => cases hs
        | text => rw [List.mem_singleton.mp hs]; intros; rfl
        | des => cases hk
        | res => cases hk) h 2
    exact ⟨f2, r.2, h2⟩

end Verif
