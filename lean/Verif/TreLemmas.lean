import Verif.Tre
import Verif.FieldLemmas

/- Lemmas about TRE framing, behind `Props/Tre.lean`. -/

namespace Verif

variable (P : PyFloat)

/-! ### UTF-8 on ASCII -/

theorem utf8Enc1_ascii {c : Char} (h : c.toNat < 128) : utf8Enc1 c = [UInt8.ofNat c.toNat] := by
  unfold utf8Enc1
  simp only
  rw [if_pos h]

theorem utf8Enc_ascii {s : Str} (h : ∀ c ∈ s, c.toNat < 128) :
    utf8Enc s = s.map fun c => UInt8.ofNat c.toNat := by
  induction s with
  | nil => rfl
  | cons c s ih =>
    have h1 := utf8Enc1_ascii (h c (by simp))
    have h2 := ih fun c hc => h c (by simp [hc])
    unfold utf8Enc at h2 ⊢
    rw [List.flatMap_cons, h1, h2]
    rfl

theorem utf8Dec_ascii {b : Bytes} (h : ∀ x ∈ b, x.toNat < 128) :
    utf8Dec b = .ok (latin1Dec b) := by
  induction b with
  | nil => rfl
  | cons x b ih =>
    have h1 : x < 0x80 := by
      have := h x (by simp)
      rw [UInt8.lt_iff_toNat_lt]
      exact this
    unfold utf8Dec
    rw [if_pos h1, ih fun y hy => h y (by simp [hy])]
    rfl

theorem latin1Enc_of_ascii {s : Str} (h : ∀ c ∈ s, c.toNat < 128) :
    latin1Enc s = .ok (utf8Enc s) := by
  rw [latin1Enc_ok_iff, utf8Enc_ascii h]
  exact ⟨fun c hc => by have := h c hc; omega, rfl⟩

theorem utf8Enc_ascii_lt {s : Str} (h : ∀ c ∈ s, c.toNat < 128) :
    ∀ x ∈ utf8Enc s, x.toNat < 128 := by
  rw [utf8Enc_ascii h]
  intro x hx
  obtain ⟨c, hc, rfl⟩ := List.mem_map.mp hx
  have := h c hc
  rw [UInt8.toNat_ofNat']
  omega

theorem utf8Enc_length {s : Str} (h : ∀ c ∈ s, c.toNat < 128) : (utf8Enc s).length = s.length := by
  rw [utf8Enc_ascii h, List.length_map]

/-! ### The length field -/

theorem isDigit_ascii {c : Char} (h : IsDigit c) : c.toNat < 128 := by
  unfold IsDigit at h; omega

theorem lenBytes_eq (n : Nat) : latin1Enc (fmtInt 5 (.ofNat n)) = .ok (lenBytes n) := by
  unfold lenBytes fmtInt
  exact latin1Enc_of_ascii fun c hc => isDigit_ascii (padLeft_zero_digits 5 n c hc)

theorem pyIntB_lenBytes (n : Nat) : pyIntB (lenBytes n) = .ok (n : Int) :=
  (pyIntB_fmtInt (lenBytes_eq n)).1

theorem lenBytes_length {n : Nat} (h : n ≤ 99999) : (lenBytes n).length = 5 := by
  have h1 := latin1Enc_length (lenBytes_eq n)
  rw [h1, fmtInt_length]
  unfold FitsDec
  simp
  omega

/-! ### Tags -/

/-- A tag that survives being written in 6 characters: at most 6 ASCII characters, not ending in
white space. -/
structure TagOk (tag : Str) : Prop where
  len : tag.length ≤ 6
  ascii : ∀ c ∈ tag, c.toNat < 128
  trim : rstripB (utf8Enc tag) = utf8Enc tag

theorem utf8Enc_append (a b : Str) : utf8Enc (a ++ b) = utf8Enc a ++ utf8Enc b := by
  unfold utf8Enc; rw [List.flatMap_append]

theorem utf8Enc_spaces (k : Nat) :
    utf8Enc (List.replicate k ' ') = List.replicate k (32 : UInt8) := by
  rw [utf8Enc_ascii (by intro c hc; rw [(List.mem_replicate.mp hc).2]; decide), List.map_replicate]
  rfl

theorem tagBytes_eq (tag : Str) :
    tagBytes tag = utf8Enc tag ++ List.replicate (6 - tag.length) (32 : UInt8) := by
  unfold tagBytes padRight
  rw [utf8Enc_append, utf8Enc_spaces]

theorem TagOk.length {tag : Str} (h : TagOk tag) : (tagBytes tag).length = 6 := by
  rw [tagBytes_eq, List.length_append, utf8Enc_length h.ascii, List.length_replicate]
  have := h.len
  omega

theorem TagOk.lt {tag : Str} (h : TagOk tag) : ∀ x ∈ tagBytes tag, x.toNat < 128 := by
  rw [tagBytes_eq]
  intro x hx
  rcases List.mem_append.mp hx with hx | hx
  · exact utf8Enc_ascii_lt h.ascii x hx
  · rw [(List.mem_replicate.mp hx).2]; decide

theorem TagOk.rstrip {tag : Str} (h : TagOk tag) : rstripB (tagBytes tag) = utf8Enc tag := by
  rw [tagBytes_eq]
  unfold rstripB
  rw [rstripBy_append_of_all _ _ _ (replicate_space_all _)]
  exact h.trim

theorem latin1Dec_utf8Enc {tag : Str} (h : ∀ c ∈ tag, c.toNat < 128) :
    latin1Dec (utf8Enc tag) = tag := latin1Dec_enc (latin1Enc_of_ascii h)

/-! ### Frames -/

/-- A framed TRE as it appears in an area: 6 tag bytes, 5 length bytes, body. -/
structure Frame where
  tag : Bytes
  len : Bytes
  body : Bytes

def Frame.bytes (f : Frame) : Bytes := f.tag ++ (f.len ++ f.body)

/-- Intact framing: ASCII tag, and the length bytes give the length of the body. -/
structure Frame.Ok (f : Frame) : Prop where
  tagLen : f.tag.length = 6
  ascii : ∀ x ∈ f.tag, x.toNat < 128
  lenLen : f.len.length = 5
  lenVal : pyIntB f.len = .ok (f.body.length : Int)

theorem rstripBy_subset {α} (p : α → Bool) (l : List α) : ∀ x ∈ rstripBy p l, x ∈ l := by
  intro x hx
  unfold rstripBy at hx
  have := List.dropWhile_sublist p (l := l.reverse)
  exact List.mem_reverse.mp (this.mem (List.mem_reverse.mp hx))

theorem Frame.Ok.take6 {f : Frame} (h : f.Ok) (rest : Bytes) :
    (f.bytes ++ rest).take 6 = f.tag := by
  unfold Frame.bytes
  rw [List.append_assoc, List.take_append_of_le_length (by rw [h.tagLen]; omega),
    List.take_of_length_le (by rw [h.tagLen]; omega)]

theorem Frame.Ok.drop6 {f : Frame} (h : f.Ok) (rest : Bytes) :
    (f.bytes ++ rest).drop 6 = f.len ++ (f.body ++ rest) := by
  unfold Frame.bytes
  rw [List.append_assoc, ← h.tagLen, List.drop_left, List.append_assoc]

theorem Frame.Ok.take5 {f : Frame} (h : f.Ok) (rest : Bytes) :
    ((f.bytes ++ rest).drop 6).take 5 = f.len := by
  rw [h.drop6, ← h.lenLen, List.take_left]

theorem Frame.Ok.drop11 {f : Frame} (h : f.Ok) (rest : Bytes) :
    (f.bytes ++ rest).drop 11 = f.body ++ rest := by
  have : (f.bytes ++ rest).drop 11 = ((f.bytes ++ rest).drop 6).drop 5 := by
    rw [List.drop_drop]
  rw [this, h.drop6, ← h.lenLen, List.drop_left]

theorem Frame.Ok.dec {f : Frame} (h : f.Ok) :
    utf8Dec (rstripB f.tag) = .ok (latin1Dec (rstripB f.tag)) :=
  utf8Dec_ascii fun x hx => h.ascii x (rstripBy_subset _ _ x hx)

/-- Reading a frame as an unknown TRE. -/
theorem readUnknown_frame {f : Frame} (h : f.Ok) (rest : Bytes) :
    readUnknown P (f.bytes ++ rest) =
      .ok (.unknown (latin1Dec (rstripB f.tag)) f.body, rest) := by
  unfold readUnknown
  rw [h.take6, h.dec]
  simp only
  rw [h.take5, h.lenVal, h.drop11]
  simp only
  rw [if_neg (by omega)]
  simp

/-- A struct read is determined by what it consumes. -/
theorem readStruct_suffix {d : Desc} (hd : d.causal = true) {b rest : Bytes} {R : Store P.F}
    {rest' : Bytes} (h : readStruct P d false (b ++ rest) = .ok (R, rest'))
    (hl : ((b ++ rest).length - rest'.length : Nat) = b.length) :
    rest' = rest ∧ readStruct P d false b = .ok (R, []) := by
  obtain ⟨ins, hb, hc, _⟩ := readInto_facts P hd h
  have hl2 : (chunkBytes ins).length = b.length := by
    have := congrArg List.length hb
    simp only [List.length_append] at this hl
    omega
  obtain ⟨h1, h2⟩ := List.append_inj hb.symm hl2
  refine ⟨h2, ?_⟩
  have := hc.any []
  rw [List.append_nil, h1] at this
  exact this

theorem readStruct_extend {d : Desc} (hd : d.causal = true) {b : Bytes} {R : Store P.F}
    (h : readStruct P d false b = .ok (R, [])) (rest : Bytes) :
    readStruct P d false (b ++ rest) = .ok (R, rest) := by
  obtain ⟨ins, hb, hc, _⟩ := readInto_facts P hd h
  rw [List.append_nil] at hb
  rw [hb]
  exact hc.any rest

/-- How `read_tre_data` interprets a frame. -/
def interp (reg : Registry) (f : Frame) : Tre P.F :=
  match reg.lookup f.tag with
  | none => .unknown (latin1Dec (rstripB f.tag)) f.body
  | some (tag, d) =>
    if latin1Dec (rstripB f.tag) ≠ tag then .unknown (latin1Dec (rstripB f.tag)) f.body
    else match readStruct P d false f.body with
      | .ok (R, []) => .known tag d R
      | _ => .unknown (latin1Dec (rstripB f.tag)) f.body

/-- Registered descriptions are causal. -/
def Registry.Causal (reg : Registry) : Prop := ∀ e ∈ reg, e.2.causal = true

theorem Registry.Causal.lookup {reg : Registry} (h : reg.Causal) {name : Bytes} {tag : Str}
    {d : Desc} (hl : reg.lookup name = some (tag, d)) : d.causal = true :=
  h _ (List.mem_of_find?_eq_some hl)

theorem readKnown_frame {tag : Str} {d : Desc} (hd : d.causal = true) {f : Frame} (h : f.Ok)
    (rest : Bytes) :
    (latin1Dec (rstripB f.tag) = tag ∧ ∃ R, readStruct P d false f.body = .ok (R, []) ∧
      readKnown P tag d (f.bytes ++ rest) = .ok (.known tag d R, rest)) ∨
    ((latin1Dec (rstripB f.tag) ≠ tag ∨ ∀ R, readStruct P d false f.body ≠ .ok (R, [])) ∧
      ∃ e, readKnown P tag d (f.bytes ++ rest) = .error e) := by
  unfold readKnown
  rw [h.take6, h.dec]
  simp only
  by_cases ht : latin1Dec (rstripB f.tag) = tag
  · rw [if_neg (by simpa using ht), h.take5, h.lenVal, h.drop11]
    simp only
    cases hr : readStruct P d false f.body with
    | ok r =>
      obtain ⟨R, r'⟩ := r
      by_cases hr' : r' = []
      · subst hr'
        left
        refine ⟨ht, R, rfl, ?_⟩
        rw [readStruct_extend P hd hr rest]
        simp only [List.length_append, Nat.add_sub_cancel, ne_eq, not_true_eq_false, if_false]
      · right
        refine ⟨.inr (by intro R' h'; injection h' with h'; injection h' with _ h'; exact hr' h'), ?_⟩
        cases hx : readStruct P d false (f.body ++ rest) with
        | error e => exact ⟨e, rfl⟩
        | ok x =>
          obtain ⟨R2, r2⟩ := x
          simp only
          split
          · exact ⟨_, rfl⟩
          · rename_i hl
            exfalso
            have := (readStruct_suffix P hd hx (by
              simp only [ne_eq, Decidable.not_not] at hl; omega)).2
            rw [hr] at this
            injection this with this
            injection this with _ this
            exact hr' this
    | error e0 =>
      right
      refine ⟨.inr (by intro R' h'; cases h'), ?_⟩
      cases hx : readStruct P d false (f.body ++ rest) with
      | error e => exact ⟨e, rfl⟩
      | ok x =>
        obtain ⟨R2, r2⟩ := x
        simp only
        split
        · exact ⟨_, rfl⟩
        · rename_i hl
          exfalso
          have := (readStruct_suffix P hd hx (by
            simp only [ne_eq, Decidable.not_not] at hl; omega)).2
          rw [hr] at this
          cases this
  · right
    refine ⟨.inl ht, ?_⟩
    rw [if_pos (by simpa using ht)]
    exact ⟨_, rfl⟩

theorem readOne_frame {reg : Registry} (hreg : reg.Causal) {f : Frame} (h : f.Ok) (rest : Bytes) :
    readOne P reg (f.bytes ++ rest) = .ok (interp P reg f, rest) := by
  have hu := readUnknown_frame P h rest
  have hn : utf8Dec f.tag = .ok (latin1Dec f.tag) := utf8Dec_ascii h.ascii
  unfold readOne interp
  rw [h.take6]
  cases hl : reg.lookup f.tag with
  | none => simp only [hu]
  | some r =>
    obtain ⟨tag, d⟩ := r
    simp only
    rcases readKnown_frame P (tag := tag) (hreg.lookup hl) h rest with ⟨h1, R, h2, h3⟩ | ⟨h1, e, h2⟩
    · rw [h3, if_neg (by simpa using h1), h2]
    · rw [h2, hn]
      simp only
      rw [hu]
      congr 2
      rcases h1 with h1 | h1
      · rw [if_pos (by simpa using h1)]
      · split
        · rfl
        · cases hs : readStruct P d false f.body with
          | error e => rfl
          | ok x =>
            obtain ⟨R, r'⟩ := x
            cases r' with
            | nil => exact absurd hs (h1 R)
            | cons a l => rfl

theorem Frame.Ok.len_bytes {f : Frame} (h : f.Ok) : 11 ≤ f.bytes.length := by
  unfold Frame.bytes
  simp only [List.length_append, h.tagLen, h.lenLen]
  omega

theorem readAreaF_frames {reg : Registry} (hreg : reg.Causal) (fs : List Frame)
    (h : ∀ f ∈ fs, f.Ok) : ∀ n, fs.length ≤ n →
      readAreaF P reg n (fs.flatMap Frame.bytes) = .ok (fs.map (interp P reg)) := by
  induction fs with
  | nil => intro n _; cases n <;> rfl
  | cons f fs ih =>
    intro n hn
    have hf := h f (by simp)
    cases n with
    | zero => simp at hn
    | succ n =>
      rw [List.flatMap_cons]
      have hlen : 11 ≤ (f.bytes ++ fs.flatMap Frame.bytes).length := by
        rw [List.length_append]; have := hf.len_bytes; omega
      cases hb : f.bytes ++ fs.flatMap Frame.bytes with
      | nil => rw [hb] at hlen; simp at hlen
      | cons x xs =>
        unfold readAreaF
        rw [← hb, if_neg (by omega), readOne_frame P hreg hf]
        simp only
        rw [ih (fun g hg => h g (by simp [hg])) n (by simpa using hn)]
        rfl

theorem readTreData_frames {reg : Registry} (hreg : reg.Causal) (fs : List Frame)
    (h : ∀ f ∈ fs, f.Ok) :
    readTreData P reg (fs.flatMap Frame.bytes) = .ok (fs.map (interp P reg)) := by
  refine readAreaF_frames P hreg fs h _ ?_
  induction fs with
  | nil => simp
  | cons f fs ih =>
    rw [List.flatMap_cons, List.length_append, List.length_cons]
    have := (h f (by simp)).len_bytes
    have := ih fun g hg => h g (by simp [hg])
    omega

/-- A written TRE is a frame. -/
theorem treWrite_frame {t : Tre P.F} (htag : TagOk t.tag) {b : Bytes} (h : treWrite P t = .ok b) :
    ∃ body, t.body P = .ok body ∧ body.length ≤ 99999 ∧
      b = (Frame.mk (tagBytes t.tag) (lenBytes body.length) body).bytes ∧
      (Frame.mk (tagBytes t.tag) (lenBytes body.length) body).Ok := by
  unfold treWrite at h
  cases hb : t.body P with
  | error e => rw [hb] at h; cases h
  | ok body =>
    rw [hb] at h
    simp only at h
    split at h
    · cases h
    · rename_i hl
      injection h with h
      refine ⟨body, rfl, by omega, h.symm, htag.length, htag.lt, lenBytes_length (by omega),
        pyIntB_lenBytes _⟩

end Verif
