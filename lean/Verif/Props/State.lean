import Verif.StateLemmas
import Verif.Props.Tre

/-
C58: the state of a struct or TRE (what pickling and the JSON delta store) is printable ASCII text
from which the object is restored.  C59: a copy of text data.
-/

namespace Verif

variable (P : PyFloat)

/-! ### C58 -/

/-- C58.  The text of a bytes object gives the bytes back, for every bytes object. -/
theorem C58_text_of_bytes (b : Bytes) : evalBytes (pyRepr b) = .ok b := evalBytes_pyRepr b

/-- C58.  That text consists of printable ASCII characters, whatever the bytes. -/
theorem C58_text_printable (b : Bytes) : ∀ c ∈ pyRepr b, 32 ≤ c.toNat ∧ c.toNat < 127 := by
  have hq : reprQuote b = '\'' ∨ reprQuote b = '"' := by
    unfold reprQuote
    split
    · exact .inr rfl
    · exact .inl rfl
  have hq' : 32 ≤ (reprQuote b).toNat ∧ (reprQuote b).toNat < 127 := by
    rcases hq with h | h <;> rw [h] <;> decide
  intro c hc
  unfold pyRepr at hc
  simp only [List.mem_cons, List.mem_append, List.mem_flatMap, List.not_mem_nil, or_false] at hc
  rcases hc with rfl | rfl | ⟨x, _, hx⟩ | rfl
  · decide
  · exact hq'
  · exact reprByte_printable hq x c hx
  · exact hq'

example : pyRepr (asc "it's" ++ [0, 255, 10, 92]) = "b\"it's\\x00\\xff\\n\\\\\"".toList := by
  decide +kernel

/-- C58.  Restoring an object of a class with a description from its state is copying it: the same
object, or the same error. -/
theorem C58_restore_is_copy (d : Desc) (S : Store P.F) :
    (getState P d S).bind (setState P (some d)) = deepCopy P d S := by
  unfold getState deepCopy
  cases h : writeStruct P d S with
  | error e => rfl
  | ok b =>
    show setState P (some d) (pyRepr b) = _
    unfold setState
    rw [evalBytes_pyRepr]

/-- C58, partial (missing: objects made with an explicit description, and values that cannot be read
back).  An object of representable values is restored from its state with the same values, and its
state is then the same text. -/
theorem C58_restored_partial {d : Desc} (hd : d.causal = true)
    (hwf : d.allFields FieldDef.wf = true) {S : Store P.F} {cs : List Chunk}
    (hw : writeChunks P d S = .ok cs) (hrep : ∀ ch ∈ cs, Survives P d S ch)
    (hval : ∀ n k c, S n k = some c → ∃ v, c.val = .val v) :
    ∃ s R, getState P d S = .ok s ∧ setState P (some d) s = .ok R ∧
      (∀ nm, itemsOf P d R nm = itemsOf P d S nm) ∧ getState P d R = .ok s := by
  obtain ⟨R, h1, h2, h3, _⟩ := C16_deepcopy P hd hwf hw hrep hval
  have ws : ∀ X : Store P.F, writeChunks P d X = .ok cs →
      getState P d X = .ok (pyRepr (chunkBytes cs)) := by
    intro X hX
    unfold getState writeStruct
    rw [hX]
    rfl
  refine ⟨_, R, ws S hw, ?_, h2, ws R h3⟩
  have := C58_restore_is_copy P d S
  rw [ws S hw, h1] at this
  exact this

/-- Violation: an object made from an explicit description has a state but cannot be restored from
it (copying it works). -/
theorem C58_explicit_description : ∃ s, getState P0 exDesc exStore = .ok s ∧
    setState P0 none s = .error .attr ∧ (deepCopy P0 exDesc exStore).isOk = true := by
  refine ⟨"b'03Y007NY   002hi'".toList, by decide +kernel, ?_, by decide +kernel⟩
  unfold setState
  rw [show evalBytes "b'03Y007NY   002hi'".toList = .ok (asc "03Y007NY   002hi") by decide +kernel]

/-- C58.  A known TRE is restored from its state, tag included. -/
theorem C58_tre_restored {tag : Str} (htag : TagOk tag) {d : Desc} (hd : d.causal = true)
    (hwf : d.allFields FieldDef.wf = true) {S : Store P.F} {cs : List Chunk}
    (hw : writeChunks P d S = .ok cs) (hrep : ∀ ch ∈ cs, Survives P d S ch) {s : Str}
    (h : treGetState P (.known tag d S) = .ok s) :
    ∃ R, treSetState P (.known tag d) s = .ok (.known tag d R) ∧
      SameTre P (.known tag d S) (.known tag d R) := by
  unfold treGetState at h
  obtain ⟨b, hb, rfl⟩ := map_ok h
  obtain ⟨R, r1, r2⟩ := C19_known_round_trip P htag hd hwf hw hrep hb []
  rw [List.append_nil] at r1
  refine ⟨R, ?_, rfl, rfl, r2⟩
  unfold treSetState
  rw [evalBytes_pyRepr]
  simp only
  rw [r1]
  rfl

/-- Violation: no unknown TRE that can be written is restored from its state. -/
theorem C58_unknown_tre (tag : Str) (body : Bytes) {s : Str}
    (h : treGetState P (.unknown tag body) = .ok s) :
    treSetState P (Tre.unknown tag body : Tre P.F).cls s = .error .type := by
  unfold treGetState at h
  obtain ⟨b, hb, rfl⟩ := map_ok h
  unfold treSetState Tre.cls
  rw [evalBytes_pyRepr]

example : ∃ s, treGetState P0 (.unknown "ABC".toList [1, 39]) = .ok s ∧
    s = "b\"ABC   00002\\x01'\"".toList := ⟨_, by decide +kernel, rfl⟩

/-- C58.  Copying a TRE (known or not) gives the same TRE. -/
theorem C58_tre_copied {reg : Registry} {t : Tre P.F} (ht : Representable P reg t) {b : Bytes}
    (hb : treWrite P t = .ok b) : ∃ u, treCopy P t = .ok u ∧ SameTre P t u := by
  obtain ⟨htag, hr⟩ := ht
  unfold treCopy
  rw [hb]
  cases t with
  | unknown tag body =>
    have := C19_unknown_round_trip P htag hb []
    rw [List.append_nil] at this
    refine ⟨.unknown tag body, ?_, rfl, rfl⟩
    simp only [Tre.cls]
    rw [this]
    rfl
  | known tag d S =>
    obtain ⟨_, hd, hwf, hs⟩ := hr
    obtain ⟨body, h1, _, _, _⟩ := treWrite_frame P (t := .known tag d S) htag hb
    obtain ⟨cs, hc, _⟩ := writeStruct_chunks P h1
    obtain ⟨R, r1, r2⟩ := C19_known_round_trip P htag hd hwf hc (hs cs hc) hb []
    rw [List.append_nil] at r1
    simp only [Tre.tag] at r1
    refine ⟨.known tag d R, ?_, rfl, rfl, r2⟩
    simp only [Tre.cls]
    rw [r1]
    rfl

/-! ### C59 -/

/-- C59.  Text encoded as UTF-8 decodes to itself, and only the encoding of a text decodes to it:
what `string_as_bytes` writes is determined by the text. -/
theorem C59_utf8 (s : Str) (b : Bytes) : utf8Dec b = .ok s ↔ b = utf8Enc s := by
  constructor
  · intro h
    exact (utf8Enc_utf8Dec b.length b s (Nat.le_refl _) h).symm
  · intro h
    rw [h]
    exact utf8Dec_utf8Enc s

/-- C59.  Text data given as `str` has the string that was given, and the bytes written decode to
it. -/
theorem C59_written (s : Str) :
    (TextStr.str s).asStr = .ok s ∧ (TextStr.bytes (TextStr.str s).asBytes).asStr = .ok s :=
  ⟨rfl, utf8Dec_utf8Enc s⟩

/-- C59, partial (missing: data that is not UTF-8).  A copy has the same string and the same
bytes. -/
theorem C59_copy_partial (t : TextStr) {s : Str} (h : t.asStr = .ok s) :
    ∃ u, t.copy = .ok u ∧ u.asStr = .ok s ∧ u.asBytes = t.asBytes := by
  refine ⟨.str s, ?_, rfl, ?_⟩
  · unfold TextStr.copy
    rw [h]
    rfl
  · cases t with
    | str s' => injection h with h; rw [h]
    | bytes b => exact utf8Enc_utf8Dec b.length b s (Nat.le_refl _) h

/-- C59.  Copying fails exactly for bytes that are the UTF-8 encoding of no text. -/
theorem C59_copy_fails (t : TextStr) :
    (∃ e, t.copy = .error e) ↔ ∃ b, t = .bytes b ∧ ∀ s, b ≠ utf8Enc s := by
  constructor
  · rintro ⟨e, h⟩
    cases t with
    | str s => cases h
    | bytes b =>
      refine ⟨b, rfl, ?_⟩
      intro s hs
      have : TextStr.copy (.bytes b) = .ok (.str s) := by
        show (utf8Dec b).map _ = _
        rw [(C59_utf8 s b).mpr hs]
        rfl
      rw [this] at h
      cases h
  · rintro ⟨b, rfl, h⟩
    show ∃ e, (utf8Dec b).map TextStr.str = .error e
    cases hd : utf8Dec b with
    | error e => exact ⟨e, rfl⟩
    | ok s => exact absurd ((C59_utf8 s b).mp hd) (h s)

/-- Violation: ECS (Latin-1) text, which the text format allows, cannot be copied. -/
theorem C59_not_utf8 : (TextStr.bytes [0x63, 0x61, 0x66, 0xE9]).copy = .error .unicode := by
  decide +kernel

example : (TextStr.bytes [0x63, 0xC3, 0xA9, 0xE2, 0x82, 0xAC]).copy =
    .ok (.str ['c', 'é', '€']) := by decide +kernel

end Verif
