import Verif.FieldLemmas

/- Lemmas about assignment and presence of fields, behind `Props/Fields.lean`. -/

namespace Verif

variable (P : PyFloat)

theorem lowGet_present {l : Look P.F} {S : Store P.F} {fi : FInfo} {n : Nat} {key : Key}
    (hnm : fi.fd.name ≠ none) (hck : checkIndex P l fi key = .ok ())
    (hc : evalCond P l fi key = .ok true) (hv : fi.fd.value = none) :
    lowGet P l S fi n key = finish P fi.fd (stored S fi.fd n key) := by
  unfold lowGet
  cases h : fi.fd.name with
  | none => exact absurd h hnm
  | some nm =>
    simp only [hck, hc, hv, bind, Except.bind, if_true]

theorem lowGet_absent {l : Look P.F} {S : Store P.F} {fi : FInfo} {n : Nat} {key : Key}
    (hnm : fi.fd.name ≠ none) (hck : checkIndex P l fi key = .ok ())
    (hc : evalCond P l fi key = .ok false) : lowGet P l S fi n key = .ok .none := by
  unfold lowGet
  cases h : fi.fd.name with
  | none => exact absurd h hnm
  | some nm =>
    simp only [hck, hc, bind, Except.bind]
    rfl

/-- Two stores that agree below `n` look the same to a field at `n`. -/
theorem vis_of_below {T : Tab} (hC : CausalTab T) {n : Nat} {S S' : Store P.F}
    (h : ∀ m k, m < n → S m k = S' m k) (st : List Nat) (key : Key) : VisSame P T n st key S S' := by
  intro m fi _ hlt _
  exact sameAt_frame P hC m _ fun m' k' hm' _ => h m' k' (by omega)

theorem below_facts {T : Tab} (hC : CausalTab T) {n : Nat} {fi : FInfo} (hn : T[n]? = some fi)
    {S S' : Store P.F} (h : ∀ m k, m < n → S m k = S' m k) {key : Key}
    (hk : fi.depth ≤ key.length) :
    checkIndex P (look P T S') fi key = checkIndex P (look P T S) fi key ∧
    evalCond P (look P T S') fi key = evalCond P (look P T S) fi key ∧
    evalSize P (look P T S') fi key = evalSize P (look P T S) fi key := by
  have hl := (vis_of_below P hC h fi.starts key).look P hC
  have hf := hC n fi hn
  have hs := (fieldOk_starts hf).1
  exact ⟨(checkIndex_congr P hl hf).symm, (evalCond_congr P hl (by omega) hf).symm,
    (evalSize_congr P hl (by omega) hf).symm⟩

theorem set_below {F : Type} (S : Store F) {n : Nat} (key : Key) (c : Cell F) :
    ∀ m k, m < n → S m k = (S.set n key c) m k := by
  intro m k h
  unfold Store.set
  rw [if_neg (by rintro ⟨h', _⟩; omega)]

theorem stored_set {F : Type} (S : Store F) (fd : FieldDef) (n : Nat) (key : Key) (c : Cell F) :
    stored (S.set n key c) fd n key = c.val := by
  simp [stored, Store.set]

/-- Everything about a field just stored by an accepted assignment. -/
theorem assigned {T : Tab} (hC : CausalTab T) {S : Store P.F} {n : Nat} {key : Key}
    {v v' : Val P.F} {fi : FInfo} (h : setCheck P T S n key v = .ok (fi, v')) {S' : Store P.F}
    (hS : S' = S.set n key ⟨.val v', none⟩) :
    checkIndex P (look P T S') fi key = .ok () ∧ evalCond P (look P T S') fi key = .ok true ∧
    evalSize P (look P T S') fi key = evalSize P (look P T S) fi key ∧
    lowGet P (look P T S') S' fi n key = finish P fi.fd (.val v') := by
  obtain ⟨hn, _, hnm, hck, hcd, _, hv, _⟩ := setCheck_ok P h
  have hb : ∀ m k, m < n → S m k = S' m k := by rw [hS]; exact set_below S key _
  obtain ⟨h1, h2, h3⟩ := below_facts P hC hn hb (checkIndex_ok_length P hck)
  rw [hck] at h1
  rw [hcd] at h2
  refine ⟨h1, h2, h3, ?_⟩
  rw [lowGet_present P hnm h1 h2 hv, hS, stored_set]

/-- The bytes of a field just stored. -/
theorem assigned_bytes {T : Tab} (hC : CausalTab T) {S : Store P.F} {n : Nat} {key : Key}
    {v v' u : Val P.F} {fi : FInfo} (h : setCheck P T S n key v = .ok (fi, v')) {S' : Store P.F}
    (hS : S' = S.set n key ⟨.val v', none⟩) (hu : finish P fi.fd (.val v') = .ok u) {sz : Int}
    (hsz : evalSize P (look P T S) fi key = .ok sz) :
    fieldBytes P (look P T S') S' fi n key = encodeVal P fi.fd sz u := by
  obtain ⟨_, _, h3, h4⟩ := assigned P hC h hS
  unfold fieldBytes
  rw [h3, hsz]
  simp only
  have : stored S' fi.fd n key = .val v' := by rw [hS, stored_set]
  rw [this]
  simp only
  rw [h4, hu]

theorem finish_int {fd : FieldDef} (hty : fd.ty = .int) (z : Int) :
    finish P fd (.val (.int z)) = .ok (.int z) := by
  simp [finish, coerce, hty, coerceInt]

theorem finish_str {fd : FieldDef} (hty : fd.ty = .str) (s : Str) :
    finish P fd (.val (.str s)) = .ok (.str (rstripU s)) := by
  simp [finish, coerce, hty, pyStr]

theorem finish_bytes {fd : FieldDef} (hty : fd.ty = .bytes) (b : Bytes) :
    finish P fd (.val (.bytes b)) = .ok (.bytes b) := by
  simp [finish, coerce, hty]

/-- An integer is formatted exactly when it fits. -/
theorem encode_int_iff {fd : FieldDef} (hty : fd.ty = .int) (hf : fd.frmt = none) (w : Nat) (z : Int) :
    (∃ b, encodeVal P fd w (.int z) = .ok b) ↔ FitsDec w z := by
  rw [encodeVal_of_ne_none P fd _ _ (by intro h; cases h)]
  simp only [hty, formatVal, formatCore, hf, asIntD, Except.map]
  rw [if_neg (by omega)]
  simp only [if_true, Int.toNat_natCast]
  rw [← fmtInt_length]
  constructor
  · rintro ⟨b, hb⟩
    split at hb
    · cases hb
    · rename_i h; simp only [ne_eq, Decidable.not_not] at h; omega
  · intro h
    rw [if_neg (by rw [h]; simp)]
    refine ⟨_, (latin1Enc_ok_iff _ _).mpr ⟨?_, rfl⟩⟩
    intro c hc
    exact isNumChar_lt ((numText_fmtInt w z).chars c hc)

/-- A string is formatted exactly when it is short enough and Latin-1. -/
theorem encode_str_iff {fd : FieldDef} (hty : fd.ty = .str) (hf : fd.frmt = none) (w : Nat)
    (s : Str) : (∃ b, encodeVal P fd w (.str s) = .ok b) ↔
      s.length ≤ w ∧ ∀ c ∈ s, c.toNat < 256 := by
  rw [encodeVal_of_ne_none P fd _ _ (by intro h; cases h)]
  simp only [hty, formatVal, formatCore, hf, pyStr]
  rw [if_neg (by omega)]
  simp only [reduceCtorEq, if_false, Int.toNat_natCast, length_padRight]
  constructor
  · rintro ⟨b, hb⟩
    split at hb
    · cases hb
    · rename_i h
      refine ⟨by omega, ?_⟩
      intro c hc
      exact ((latin1Enc_ok_iff _ _).mp hb).1 c (by simp [padRight, hc])
  · rintro ⟨h, hc⟩
    rw [if_neg (by omega)]
    refine ⟨_, (latin1Enc_ok_iff _ _).mpr ⟨?_, rfl⟩⟩
    intro c hcm
    simp only [padRight, List.mem_append, List.mem_replicate] at hcm
    rcases hcm with hcm | hcm
    · exact hc c hcm
    · rw [hcm.2]; decide

/-- A slot that a present field has in the layout means a failing field fails the write. -/
theorem write_fails {d : Desc} {S : Store P.F} {sl : List Slot}
    (hl : layout P d S = .ok sl) {s : Slot} (hs : s ∈ sl) {fi : FInfo}
    (hfi : d.tab[s.pos]? = some fi)
    (hbad : ∀ b, fieldBytes P (look P d.tab S) S fi s.pos s.key ≠ .ok b) :
    ∃ e, writeStruct P d S = .error e := by
  unfold writeStruct
  cases hw : writeChunks P d S with
  | error e => exact ⟨e, rfl⟩
  | ok cs =>
    exfalso
    have h1 := writeD_layout P S d 0 [] cs hw
    rw [show layoutD P d.tab S 0 [] d = .ok sl from hl] at h1
    injection h1 with h1
    subst h1
    obtain ⟨ch, hch, rfl⟩ := List.mem_map.mp hs
    exact hbad _ (writeD_bytes P S d 0 [] cs hw ch hch fi hfi)

/-- After an accepted assignment to a data field with a size field. -/
theorem setItem_sized {T : Tab} {S S' : Store P.F} {n : Nat} {key : Key} {v : Val P.F}
    {fi fm : FInfo} {nm : Name} {idx : List Nat} {m : Nat} (hn : T[n]? = some fi)
    (hk : fi.fd.kind ≠ .plain) (hu : fi.fd.sizeNotUpdated = false)
    (hsz : fi.fd.size = .expr (.ref nm idx)) (hr : resolve T nm = some m) (hm : T[m]? = some fm)
    (hmk : fm.fd.kind = .plain)
    (h : setItem P T S n key v = (S', none)) :
    ∃ v' l k' w, setCheck P T S n key v = .ok (fi, v') ∧ byteLen v' = .ok l ∧
      idxKey key idx = .ok k' ∧ ((fm.depth = 0) = (k' = [])) ∧
      setCheck P T (S.set n key ⟨.val v', none⟩) m k'
        (.int (if l = 0 then 0 else (l : Int) + fi.fd.sizeOffset)) = .ok (fm, w) ∧
      S' = (S.set n key ⟨.val v', none⟩).set m k' ⟨.val w, none⟩ := by
  unfold setItem at h
  have hb : budget T = T.length + 1 := rfl
  have hpos : 0 < T.length := by have := lt_of_getElem? hn; omega
  rw [hb] at h
  unfold setF at h
  cases hc : setCheck P T S n key v with
  | error e => rw [hc] at h; cases h
  | ok r =>
    obtain ⟨fi', v'⟩ := r
    have hfi : fi' = fi := by
      have := (setCheck_ok P hc).1
      rw [hn] at this
      injection this with this
      exact this.symm
    subst hfi
    rw [hc] at h
    simp only at h
    rw [if_neg hk] at h
    cases hl : byteLen v' with
    | error e => rw [hl] at h; cases h
    | ok l =>
      rw [hl] at h
      simp only [hu, Bool.false_eq_true, if_false, hsz] at h
      cases hk' : idxKey key idx with
      | error e => rw [hk', hr] at h; cases h
      | ok k' =>
        rw [hk', hr] at h
        simp only [hm] at h
        split at h
        · cases h
        · rename_i h1
          split at h
          · cases h
          · rename_i h2
            obtain ⟨t, ht⟩ : ∃ t, T.length = t + 1 := ⟨T.length - 1, by omega⟩
            rw [ht] at h
            unfold setF at h
            cases hc2 : setCheck P T (S.set n key ⟨.val v', none⟩) m k'
                (.int (if l = 0 then 0 else (l : Int) + fi'.fd.sizeOffset)) with
            | error e => rw [hc2] at h; cases h
            | ok r2 =>
              obtain ⟨fm', w⟩ := r2
              have hfm : fm' = fm := by
                have := (setCheck_ok P hc2).1
                rw [hm] at this
                injection this with this
                exact this.symm
              subst hfm
              rw [hc2] at h
              simp only at h
              rw [if_pos hmk] at h
              injection h with h _
              refine ⟨v', l, k', w, rfl, hl, rfl, ?_, hc2, h.symm⟩
              apply propext
              constructor
              · intro h0
                exact Decidable.byContradiction fun hne => h2 ⟨h0, hne⟩
              · intro h0
                exact Decidable.byContradiction fun hne => h1 ⟨hne, h0⟩

end Verif
