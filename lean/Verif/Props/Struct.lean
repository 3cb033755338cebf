import Verif.StructLemmas
import Verif.Example

/-
Properties of whole field structures: C01 - C07, C16.

`P : PyFloat` is an arbitrary implementation of the float operations.  `Desc.causal` says that
sizes, counts and conditions refer to earlier fields (shown for all shipped tables in
`Props/Tables.lean`); `FieldDef.wf` that fill characters are ' ' or '-' and that binary fields are
not optional (also shown there).
-/

namespace Verif

variable (P : PyFloat)

/-! ### C01 -/

/-- C01.  If every written value is representable (`Survives`), reading the written bytes into a
fresh struct succeeds, consumes exactly them, and every field gives the same (index, value)
pairs, or the same exception.  `Reach` instances also agree one by one. -/
theorem C01_write_then_read {d : Desc} (hd : d.causal = true)
    (hwf : d.allFields FieldDef.wf = true) {S : Store P.F} {cs : List Chunk}
    (hw : writeChunks P d S = .ok cs) (hrep : ∀ ch ∈ cs, Survives P d S ch) (rest : Bytes) :
    ∃ R, readStruct P d false (chunkBytes cs ++ rest) = .ok (R, rest) ∧
      (∀ nm, itemsOf P d R nm = itemsOf P d S nm) ∧
      ∀ n key, Reach P d.tab S n key → getItem P d.tab R n key = getItem P d.tab S n key := by
  obtain ⟨R, h1, h2⟩ := readInto_written P hd hw false (chunkOk_of_survives P hd hwf hw hrep)
    Store.empty rest
  refine ⟨R, h1, ?_, fun n key hr => (h2 n key hr).symm⟩
  intro nm
  unfold itemsOf
  cases resolve d.tab nm with
  | none => rfl
  | some n => exact (fieldItems_same P (Desc.causalTab hd) h2 n).symm

/-- A field that reads back whatever was assigned: no float, no custom format, not an optional
string. -/
def FieldDef.alwaysSurvives (fd : FieldDef) : Bool :=
  !fd.opaqueText && !(fd.ty == .str && fd.optional)

theorem survives_of_values {d : Desc} (ha : d.allFields FieldDef.alwaysSurvives = true)
    {S : Store P.F} (hval : ∀ n k c, S n k = some c → ∃ v, c.val = .val v) {cs : List Chunk} :
    ∀ ch ∈ cs, Survives P d S ch := by
  intro ch _ fi hfi _
  have hs : ∃ v, stored S fi.fd ch.pos ch.key = .val v := by
    unfold stored
    cases hS : S ch.pos ch.key with
    | none => exact ⟨_, rfl⟩
    | some c => exact hval _ _ c hS
  obtain ⟨v, hv⟩ := hs
  rw [hv]
  simp only
  intro w _
  have := Desc.allFields_get ha hfi
  simp only [FieldDef.alwaysSurvives, Bool.and_eq_true, Bool.not_eq_true'] at this
  unfold ValRep
  cases w with
  | none => trivial
  | _ =>
    simp only [this.1, Bool.false_eq_true, if_false]
    split
    · rename_i h
      have h2 := this.2
      simp [h.1, h.2] at h2
    · trivial

/-- C01 without a representability hypothesis: for tables of integers, plain strings and binary
data, and structs holding values (no `NitfLiteral`), success of the write is enough. -/
theorem C01_text_tables {d : Desc} (hd : d.causal = true)
    (hwf : d.allFields FieldDef.wf = true) (ha : d.allFields FieldDef.alwaysSurvives = true)
    {S : Store P.F} (hval : ∀ n k c, S n k = some c → ∃ v, c.val = .val v) {b : Bytes}
    (hw : writeStruct P d S = .ok b) (rest : Bytes) :
    ∃ R, readStruct P d false (b ++ rest) = .ok (R, rest) ∧
      (∀ nm, itemsOf P d R nm = itemsOf P d S nm) := by
  unfold writeStruct at hw
  cases hc : writeChunks P d S with
  | error e => rw [hc] at hw; cases hw
  | ok cs =>
    rw [hc] at hw
    simp only [Except.map] at hw
    injection hw with hw
    subst hw
    have hrep : ∀ ch ∈ cs, Survives P d S ch := survives_of_values P ha hval
    obtain ⟨R, h1, h2, _⟩ := C01_write_then_read P hd hwf hc hrep rest
    exact ⟨R, h1, h2⟩

example : ∃ R, readStruct P0 exDesc false (chunkBytes exChunks ++ asc "more") =
      .ok (R, asc "more") ∧ ∀ nm, itemsOf P0 exDesc R nm = itemsOf P0 exDesc exStore nm := by
  refine C01_text_tables P0 exDesc_causal exDesc_wf (by decide) ?_
    (by unfold writeStruct; rw [exStore_writes]; rfl) _
  intro n k c h
  unfold exStore at h
  simp only [Store.set, Store.empty] at h
  repeat' split at h
  all_goals first | (injection h with h; subst h; exact ⟨_, rfl⟩) | cases h

/-- The values meant above, for the example. -/
example : itemsOf P0 exDesc exStore (n!"val") =
    .ok [([0], .int 7), ([1], .none), ([2], .none)] := by decide +kernel

/-! ### C02 -/

/-- C02.  Reading with `nitf_literal=True` and writing again gives back the bytes consumed, for
every table without reserved (unnamed) fields. -/
theorem C02_literal_identity_partial {d : Desc} (hd : d.causal = true)
    (hnr : d.allFields (fun fd => fd.name.isSome) = true) {b rest : Bytes} {R : Store P.F}
    (h : readStruct P d true b = .ok (R, rest)) :
    ∃ c, writeStruct P d R = .ok c ∧ b = c ++ rest := by
  have hres : d.allFields FieldDef.reservedOk = true := by
    unfold Desc.allFields at hnr ⊢
    rw [List.all_eq_true] at hnr ⊢
    intro fi hfi
    have := hnr fi hfi
    simp only at this
    simp [FieldDef.reservedOk, this]
  obtain ⟨ins, hb, hw⟩ := literal_write P hd hres h
  · refine ⟨chunkBytes ins, ?_, hb⟩
    have : ins.map (blank d.tab) = ins := by
      conv => rhs; rw [← List.map_id ins]
      refine List.map_congr_left fun ch _ => ?_
      unfold blank
      split
      · rename_i fi hfi
        have := Desc.allFields_get hnr hfi
        rw [if_neg (by rw [Option.isNone_iff_eq_none]; intro h0; rw [h0] at this; cases this)]
        rfl
      · rfl
    rw [this] at hw
    unfold writeStruct
    rw [hw]
    rfl

/-- C02 with reserved fields (only the CSDE table has any): the rewritten record has the same
layout, every named field has its original bytes, and reserved fields become blanks. -/
theorem C02_literal_reserved_blanked {d : Desc} (hd : d.causal = true)
    (hres : d.allFields FieldDef.reservedOk = true) {b rest : Bytes} {R : Store P.F}
    (h : readStruct P d true b = .ok (R, rest)) :
    ∃ ins, b = chunkBytes ins ++ rest ∧ writeChunks P d R = .ok (ins.map (blank d.tab)) :=
  literal_write P hd hres h

/-- A record with a reserved field. -/
def reservedDesc : Desc :=
  .field { name := some (n!"a"), size := .const 2, ty := .int } <|
  .field { name := none, size := .const 3, ty := .str } .nil

/-- C02 fails as stated for tables with reserved fields: their content is lost. -/
theorem C02_reserved_lost :
    ∃ (b : Bytes) (R : Store P0.F) (c : Bytes), reservedDesc.causal = true ∧
      readStruct P0 reservedDesc true b = .ok (R, []) ∧
      writeStruct P0 reservedDesc R = .ok c ∧ b ≠ c := by
  refine ⟨asc " 5xyz", Store.empty.set 0 [] ⟨.lit (asc " 5"), some (asc " 5")⟩, asc " 5   ",
    by decide, by rfl, by decide +kernel, by decide +kernel⟩

/-- Odd formatting (leading blanks, dashes) survives a literal copy. -/
example : ∃ R c, readStruct P0 exDesc true (asc " 1Y+ 7  0") = .ok (R, []) ∧
    writeStruct P0 exDesc R = .ok c ∧ asc " 1Y+ 7  0" = c := by
  cases h : readStruct P0 exDesc true (asc " 1Y+ 7  0") with
  | error e =>
    have : (readStruct P0 exDesc true (asc " 1Y+ 7  0")).toBool = true := by decide +kernel
    rw [h] at this; cases this
  | ok s =>
    obtain ⟨R, rest⟩ := s
    have hr : (readStruct P0 exDesc true (asc " 1Y+ 7  0")).map (·.2) = .ok [] := by
      decide +kernel
    rw [h] at hr
    injection hr with hr
    simp only at hr
    subst hr
    obtain ⟨c, h1, h2⟩ := C02_literal_identity_partial P0 exDesc_causal (by decide) h
    exact ⟨R, c, rfl, h1, by simpa using h2⟩

/-! ### C03, C05 -/

/-- C03.  A read that succeeds takes a definite front part of its input; with any other bytes
after that part it gives the same object and leaves exactly those other bytes. -/
theorem C03_exact_consumption {d : Desc} (hd : d.causal = true) {lit : Bool} {R0 R : Store P.F}
    {b rest : Bytes} (h : readInto P d lit R0 b = .ok (R, rest)) :
    ∃ c, b = c ++ rest ∧ ∀ rest', readInto P d lit R0 (c ++ rest') = .ok (R, rest') := by
  obtain ⟨ins, hb, hc, _⟩ := readInto_facts P hd h
  exact ⟨_, hb, hc.any⟩

/-- C03.  Two structs written one after the other are read back one after the other. -/
theorem C03_end_to_end {d d' : Desc} (hd : d.causal = true) (hd' : d'.causal = true)
    (hwf : d.allFields FieldDef.wf = true) (hwf' : d'.allFields FieldDef.wf = true)
    {S S' : Store P.F} {cs cs' : List Chunk}
    (hw : writeChunks P d S = .ok cs) (hrep : ∀ ch ∈ cs, Survives P d S ch)
    (hw' : writeChunks P d' S' = .ok cs') (hrep' : ∀ ch ∈ cs', Survives P d' S' ch)
    (rest : Bytes) :
    ∃ R R', readStruct P d false (chunkBytes cs ++ (chunkBytes cs' ++ rest)) =
        .ok (R, chunkBytes cs' ++ rest) ∧
      readStruct P d' false (chunkBytes cs' ++ rest) = .ok (R', rest) ∧
      (∀ nm, itemsOf P d R nm = itemsOf P d S nm) ∧
      (∀ nm, itemsOf P d' R' nm = itemsOf P d' S' nm) := by
  obtain ⟨R, h1, h2, _⟩ := C01_write_then_read P hd hwf hw hrep (chunkBytes cs' ++ rest)
  obtain ⟨R', h1', h2', _⟩ := C01_write_then_read P hd' hwf' hw' hrep' rest
  exact ⟨R, R', h1, h1', h2, h2'⟩

/-- C05.  If a read consumes `c`, the same read from any proper prefix of `c` raises (a
RuntimeError). -/
theorem C05_truncated_rejected {d : Desc} (hd : d.causal = true) {lit : Bool} {R0 R : Store P.F}
    {c rest : Bytes} (h : readInto P d lit R0 (c ++ rest) = .ok (R, rest)) (c' : Bytes)
    (hp : c' <+: c) (hne : c' ≠ c) : readInto P d lit R0 c' = .error .runtime := by
  obtain ⟨ins, hb, hc, _⟩ := readInto_facts P hd h
  rw [List.append_cancel_right hb] at hp hne
  exact hc.short c' hp hne

example : readStruct P0 exDesc false (asc "03Y007NY   002hiX") =
      .ok ((readStruct P0 exDesc false (asc "03Y007NY   002hi")).toOption.get!.1, asc "X") ∧
    (readStruct P0 exDesc false (asc "03Y007NY   002h")) = .error .runtime := by
  constructor
  · have h : (readStruct P0 exDesc false (asc "03Y007NY   002hi")).map (·.2) = .ok [] := by
      decide +kernel
    cases hr : readStruct P0 exDesc false (asc "03Y007NY   002hi") with
    | error e => rw [hr] at h; cases h
    | ok s =>
      obtain ⟨R, r⟩ := s
      rw [hr] at h
      injection h with h
      simp only at h
      subst h
      obtain ⟨c, h1, h2⟩ := C03_exact_consumption P0 exDesc_causal hr
      rw [List.append_nil] at h1
      have := h2 (asc "X")
      rw [← h1] at this
      exact this
  · have h : (readStruct P0 exDesc false (asc "03Y007NY   002h")).isOk = false := by
      decide +kernel
    cases hr : readStruct P0 exDesc false (asc "03Y007NY   002h") with
    | ok s => rw [hr] at h; cases h
    | error e =>
      have h' : (readStruct P0 exDesc false (asc "03Y007NY   002h")).map (fun _ => ()) =
          .error .runtime := by decide +kernel
      rw [hr] at h'
      injection h' with h'
      rw [h']

/-! ### C04 -/

/-- C04.  When a struct is written, the fields written are exactly the field instances of its
layout (every present field, in order), each with exactly the number of bytes its size says. -/
theorem C04_fixed_width {d : Desc} {S : Store P.F} {cs : List Chunk}
    (hw : writeChunks P d S = .ok cs) :
    layout P d S = .ok (cs.map Chunk.slot) ∧
    ∀ ch ∈ cs, ∃ fi, d.tab[ch.pos]? = some fi ∧
      evalSize P (look P d.tab S) fi ch.key = .ok (ch.bytes.length : Int) := by
  have hl := writeD_layout P S d 0 [] cs hw
  refine ⟨hl, ?_⟩
  intro ch hch
  obtain ⟨_, _, _, fi, h1, _, h3⟩ :=
    layoutD_from P S d 0 [] _ hl ch.slot (List.mem_map.mpr ⟨ch, hch, rfl⟩)
  exact ⟨fi, h1, h3⟩

/-- C04.  A value whose text is longer or shorter than the field makes the whole write fail: if
some present field cannot be formatted to its size there is no output. -/
theorem C04_misfit_raises {d : Desc} {S : Store P.F} {sl : List Slot}
    (hl : layout P d S = .ok sl) {s : Slot} (hs : s ∈ sl) {fi : FInfo}
    (hfi : d.tab[s.pos]? = some fi)
    (hbad : ∀ b, fieldBytes P (look P d.tab S) S fi s.pos s.key ≠ .ok b) :
    ∃ e, writeStruct P d S = .error e := by
  unfold writeStruct
  cases hw : writeChunks P d S with
  | error e => exact ⟨e, rfl⟩
  | ok cs =>
    exfalso
    have h1 := writeD_layout P S d 0 [] cs hw
    rw [show layoutD P d.tab S 0 [] d = .ok sl from hl] at h1
    injection h1 with h1
    subst h1
    obtain ⟨ch, hch, rfl⟩ := List.mem_map.mp hs
    exact hbad _ (writeD_bytes P S d 0 [] cs hw ch hch fi hfi)

/-- The text of a value never fits a field of another width. -/
theorem C04_no_truncation {fd : FieldDef} {sz : Int} {v : Val P.F} {b : Bytes}
    (h : encodeVal P fd sz v = .ok b) : (b.length : Int) = sz := encodeVal_length P h

/-- 1000 does not fit the 3 byte field `val`. -/
example : writeStruct P0 exDesc (exStore.set 2 [0] ⟨.val (.int 1000), none⟩) =
    .error .runtime := by decide +kernel

/-! ### C06 -/

/-- C06.  After a read, the input is the concatenation of the slots of the struct, and the raw
bytes of every (named) field instance are its slot. -/
theorem C06_raw_bytes {d : Desc} (hd : d.causal = true) {lit : Bool} {R0 R : Store P.F}
    {b rest : Bytes} (h : readInto P d lit R0 b = .ok (R, rest)) :
    ∃ ins, b = chunkBytes ins ++ rest ∧ layout P d R = .ok (ins.map Chunk.slot) ∧
      ∀ ch ∈ ins, ∀ fi, d.tab[ch.pos]? = some fi → fi.fd.name ≠ none →
        getRawBytes P d.tab R ch.pos ch.key = .ok ch.bytes := by
  obtain ⟨ins, hb, _, hl, hc, _⟩ := readInto_facts P hd h
  refine ⟨ins, hb, hl, ?_⟩
  intro ch hch fi hfi hnm
  obtain ⟨v, _, hv⟩ := hc ch hch fi hfi hnm
  unfold getRawBytes
  rw [hfi, hv]
  rfl

/-- C06.  Once a field has been assigned, its raw bytes are the bytes that would be written. -/
theorem C06_raw_after_assign {d : Desc} {S S' : Store P.F} {n : Nat} {key : Key} {v : Val P.F}
    {fi : FInfo} (hn : d.tab[n]? = some fi)
    (hk : fi.fd.kind = .plain ∨ fi.fd.sizeNotUpdated = true)
    (h : setItem P d.tab S n key v = (S', none)) :
    getRawBytes P d.tab S' n key = fieldBytes P (look P d.tab S') S' fi n key := by
  obtain ⟨v', _, hS⟩ := setItem_store P hn hk h
  unfold getRawBytes
  rw [hn]
  simp only [hS, Store.set, and_self, if_true, Option.bind_some]

example : (readStruct P0 exDesc false (asc "01Y +7000")).map
    (fun s => getRawBytes P0 exDesc.tab s.1 2 [0]) = .ok (.ok (asc " +7")) := by decide +kernel

example : (readStruct P0 exDesc false (asc "01Y +7000")).map (fun s =>
      getRawBytes P0 exDesc.tab (setItem P0 exDesc.tab s.1 2 [0] (.int 9)).1 2 [0]) =
    .ok (.ok (asc "009")) := by decide +kernel

/-! ### C07 -/

/-- C07.  A struct has been written at offset `pre.length` of a file; nothing in the table depends
on the field `n`, and it is present at `key`.  If the new value is accepted and fits, then
`update_field` leaves in the file exactly what writing the struct again would give (differing
from the old content in that field only), everything around it and the file position unchanged. -/
theorem C07_update_is_rewrite {d : Desc} {S S' : Store P.F} {n : Nat} {key : Key}
    {v : Val P.F} {fi : FInfo} (hn : d.tab[n]? = some fi)
    (hk : fi.fd.kind = .plain ∨ fi.fd.sizeNotUpdated = true) (hu : d.unreferenced n = true)
    {cs : List Chunk} (hw : writeChunks P d S = .ok cs)
    (hpres : ∃ ch ∈ cs, ch.pos = n ∧ ch.key = key)
    (hset : setItem P d.tab S n key v = (S', none)) {cs' : List Chunk}
    (hfit : writeChunks P d S' = .ok cs') (pre post : Bytes) (pos : Nat) :
    updateField P d cs pre.length S ⟨pre ++ chunkBytes cs ++ post, pos⟩ n key v =
      (S', .ok ⟨pre ++ chunkBytes cs' ++ post, pos⟩) ∧
    ∃ b, cs' = cs.map fun ch =>
      if ch.pos = n ∧ ch.key = key then { ch with bytes := b } else ch := by
  obtain ⟨h1, h2⟩ := update_rewrite P hn hk hu hw hpres hset pre post pos
  cases hb : fieldBytes P (look P d.tab S') S' fi n key with
  | ok b =>
    obtain ⟨cs'', hw'', hcs, hup⟩ := h1 b hb
    rw [hfit] at hw''
    injection hw'' with hw''
    subst hw''
    exact ⟨hup, b, hcs⟩
  | error e =>
    exfalso
    obtain ⟨v', _, hS'⟩ := setItem_store P hn hk hset
    have honly : OnlyField n S S' := by
      intro m k hmn
      rw [hS']; unfold Store.set
      rw [if_neg (by rintro ⟨h, _⟩; exact hmn h)]
    have hl := writeD_layout P S d 0 [] cs hw
    have hl' := writeD_layout P S' d 0 [] cs' hfit
    rw [layoutD_unref P hu honly d 0 [] fun _ h => h, hl] at hl'
    injection hl' with hl'
    obtain ⟨ch, hch, hp, hkk⟩ := hpres
    have : ch.slot ∈ cs'.map Chunk.slot := by
      rw [← hl']; exact List.mem_map.mpr ⟨ch, hch, rfl⟩
    obtain ⟨ch', hch', he⟩ := List.mem_map.mp this
    have hp' : ch'.pos = n := by rw [← hp]; exact congrArg Slot.pos he
    have hk' : ch'.key = key := by rw [← hkk]; exact congrArg Slot.key he
    have := writeD_bytes P S' d 0 [] cs' hfit ch' hch' fi (by rw [hp']; exact hn)
    rw [hp', hk', hb] at this
    cases this

/-- C07.  A value that does not fit leaves the file alone: `update_field` raises. -/
theorem C07_misfit_raises {d : Desc} {S S' : Store P.F} {n : Nat} {key : Key}
    {v : Val P.F} {fi : FInfo} (hn : d.tab[n]? = some fi)
    (hk : fi.fd.kind = .plain ∨ fi.fd.sizeNotUpdated = true) (hu : d.unreferenced n = true)
    {cs : List Chunk} (hw : writeChunks P d S = .ok cs)
    (hpres : ∃ ch ∈ cs, ch.pos = n ∧ ch.key = key)
    (hset : setItem P d.tab S n key v = (S', none)) {e : Err}
    (hfit : writeChunks P d S' = .error e) (pre post : Bytes) (pos : Nat) :
    ∃ e', updateField P d cs pre.length S ⟨pre ++ chunkBytes cs ++ post, pos⟩ n key v =
      (S', .error e') := by
  obtain ⟨h1, h2⟩ := update_rewrite P hn hk hu hw hpres hset pre post pos
  cases hb : fieldBytes P (look P d.tab S') S' fi n key with
  | ok b =>
    obtain ⟨cs'', hw'', _, _⟩ := h1 b hb
    rw [hfit] at hw''
    cases hw''
  | error e' => exact ⟨e', h2 e' hb⟩

example : (updateField P0 exDesc exChunks 2 exStore
      ⟨asc "ab" ++ chunkBytes exChunks ++ asc "tail", 21⟩ 2 [2] (.int 42)).2 =
    .ok ⟨asc "ab03Y007NY042002hitail", 21⟩ := by decide +kernel

/-! ### C16 -/

/-- C16.  Copying (`copy.deepcopy`, and likewise pickling, both go through the written bytes) a
struct of representable values gives a struct with the same values that writes the same bytes,
and copying the copy gives the very same state. -/
theorem C16_deepcopy {d : Desc} (hd : d.causal = true)
    (hwf : d.allFields FieldDef.wf = true) {S : Store P.F} {cs : List Chunk}
    (hw : writeChunks P d S = .ok cs) (hrep : ∀ ch ∈ cs, Survives P d S ch)
    (hval : ∀ n k c, S n k = some c → ∃ v, c.val = .val v) :
    ∃ R, deepCopy P d S = .ok R ∧ (∀ nm, itemsOf P d R nm = itemsOf P d S nm) ∧
      writeChunks P d R = .ok cs ∧ deepCopy P d R = .ok R := by
  obtain ⟨R, h1, h2⟩ := readInto_written P hd hw false (chunkOk_of_survives P hd hwf hw hrep)
    Store.empty []
  have hcopy : ∀ X : Store P.F, writeChunks P d X = .ok cs → deepCopy P d X = .ok R := by
    intro X hX
    rw [List.append_nil] at h1
    unfold deepCopy writeStruct
    rw [hX]
    simp only [Except.map]
    unfold readStruct
    rw [h1]
  have hRw : writeChunks P d R = .ok cs := by
    refine rewrite_same P hd hwf hw hrep ?_ h2 h1
    intro ch _ fi _
    unfold stored
    cases hS : S ch.pos ch.key with
    | none => exact ⟨_, rfl⟩
    | some c => exact hval _ _ c hS
  refine ⟨R, hcopy S hw, ?_, hRw, hcopy R hRw⟩
  intro nm
  unfold itemsOf
  cases resolve d.tab nm with
  | none => rfl
  | some n => exact (fieldItems_same P (Desc.causalTab hd) h2 n).symm

/-- C16 needs values: a struct holding `NitfLiteral`s is copied to one with the same values, but
which is written in the standard format. -/
theorem C16_literal_reformatted :
    ∃ S : Store P0.F, writeStruct P0 exDesc S = .ok (asc " 0000") ∧
      ((deepCopy P0 exDesc S).bind (writeStruct P0 exDesc)) = .ok (asc "00000") := by
  exact ⟨Store.empty.set 0 [] ⟨.lit (asc " 0"), none⟩, by decide +kernel, by decide +kernel⟩

example : ((deepCopy P0 exDesc exStore).bind (writeStruct P0 exDesc)) =
    .ok (chunkBytes exChunks) := by decide +kernel

end Verif
