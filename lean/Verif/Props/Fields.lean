import Verif.Props.Struct
import Verif.AssignLemmas

/-
Properties of single fields: C08 - C15, C17.  They hold in every table; `d.causal` is shown for
all shipped tables in `Props/Tables.lean`.
-/

namespace Verif

variable (P : PyFloat)

/-- A written file of exactly one field, used in examples. -/
def oneField (fd : FieldDef) : Desc := .field fd .nil

/-! ### C08

`FitsDec w z`: the decimal text of `z`, with a leading `-` if negative, has at most `w`
characters; see `fitsDec_text`. -/

/-- The specification is what it says. -/
theorem fitsDec_text (w : Nat) (z : Int) : FitsDec w z ↔ (intStr z).length ≤ w := by
  unfold FitsDec
  have hcast : ∀ k : Nat, ((10 : Int) ^ k) = ((10 ^ k : Nat) : Int) := by intro k; simp
  rw [hcast, hcast]
  cases z with
  | ofNat n =>
    simp only [intStr, Int.ofNat_eq_natCast]
    have hpos : 0 < (decStr n).length := List.length_pos_iff.mpr (decStr_ne_nil n)
    constructor
    · rintro (⟨_, hw, h⟩ | ⟨h, _⟩)
      · exact (decStr_length_le n w hw).mpr (by omega)
      · omega
    · intro h
      have := (decStr_length_le n w (by omega)).mp h
      exact Or.inl ⟨by omega, by omega, by omega⟩
  | negSucc n =>
    simp only [intStr, List.length_cons]
    have hpos : 0 < (decStr (n + 1)).length := List.length_pos_iff.mpr (decStr_ne_nil (n + 1))
    constructor
    · rintro (⟨h, _⟩ | ⟨_, hw, h⟩)
      · omega
      · have := (decStr_length_le (n + 1) (w - 1) (by omega)).mpr (by omega)
        omega
    · intro h
      have := (decStr_length_le (n + 1) (w - 1) (by omega)).mp (by omega)
      exact Or.inr ⟨by omega, by omega, by omega⟩

/-- C08.  An integer assigned to an integer field of `w` bytes can be formatted exactly if it
fits. -/
theorem C08_fits_iff {d : Desc} (hd : d.causal = true) {S S' : Store P.F} {n : Nat} {key : Key}
    {fi : FInfo} (hn : d.tab[n]? = some fi) (hk : fi.fd.kind = .plain) (hty : fi.fd.ty = .int)
    (hf : fi.fd.frmt = none) {z : Int} (hset : setItem P d.tab S n key (.int z) = (S', none))
    {w : Nat} (hw : evalSize P (look P d.tab S) fi key = .ok (w : Int)) :
    (∃ b, fieldBytes P (look P d.tab S') S' fi n key = .ok b) ↔ FitsDec w z := by
  obtain ⟨v', hc, hS⟩ := setItem_store P hn (Or.inl hk) hset
  have hp := (setCheck_ok P hc).2.1
  rw [hk] at hp
  simp only [packKind] at hp
  injection hp with hp
  subst hp
  rw [assigned_bytes P (Desc.causalTab hd) hc hS (finish_int P hty z) hw]
  exact encode_int_iff P hty hf w z

/-- C08.  If it does not fit, writing the structure raises (whenever the field is in the
record at all). -/
theorem C08_overflow_raises {d : Desc} (hd : d.causal = true) {S S' : Store P.F} {n : Nat}
    {key : Key} {fi : FInfo} (hn : d.tab[n]? = some fi) (hk : fi.fd.kind = .plain)
    (hty : fi.fd.ty = .int) (hf : fi.fd.frmt = none) {z : Int}
    (hset : setItem P d.tab S n key (.int z) = (S', none)) {w : Nat}
    (hw : evalSize P (look P d.tab S) fi key = .ok (w : Int)) (hfit : ¬ FitsDec w z)
    {sl : List Slot} (hl : layout P d S' = .ok sl) (hpres : ∃ s ∈ sl, s.pos = n ∧ s.key = key) :
    ∃ e, writeStruct P d S' = .error e := by
  obtain ⟨s, hs, rfl, rfl⟩ := hpres
  refine write_fails P hl hs hn fun b hb => hfit ?_
  exact (C08_fits_iff P hd hn hk hty hf hset hw).mp ⟨b, hb⟩

/-- C08.  Whatever integer was assigned (with any of the integer formats), if the structure can
be written then reading it back gives that integer, of either sign. -/
theorem C08_read_back {d : Desc} (hd : d.causal = true) (hwf : d.allFields FieldDef.wf = true)
    {S S' : Store P.F} {n : Nat} {key : Key} {fi : FInfo} (hn : d.tab[n]? = some fi)
    (hk : fi.fd.kind = .plain) (hty : fi.fd.ty = .int) {z : Int}
    (hset : setItem P d.tab S n key (.int z) = (S', none)) {cs : List Chunk}
    (hw : writeChunks P d S' = .ok cs) (hrep : ∀ ch ∈ cs, Survives P d S' ch)
    (hpres : ∃ ch ∈ cs, ch.pos = n ∧ ch.key = key) (rest : Bytes) :
    ∃ R, readStruct P d false (chunkBytes cs ++ rest) = .ok (R, rest) ∧
      getItem P d.tab R n key = .ok (.int z) := by
  obtain ⟨R, h1, _, h2⟩ := C01_write_then_read P hd hwf hw hrep rest
  refine ⟨R, h1, ?_⟩
  obtain ⟨ch, hch, rfl, rfl⟩ := hpres
  rw [h2 _ _ (writeChunks_from P hd hw hch).1, getItem_eq P _ hn]
  obtain ⟨v', hc, hS⟩ := setItem_store P hn (Or.inl hk) hset
  have hp := (setCheck_ok P hc).2.1
  rw [hk] at hp
  simp only [packKind] at hp
  injection hp with hp
  subst hp
  unfold getWith
  rw [(assigned P (Desc.causalTab hd) hc hS).2.2.2, finish_int P hty]
  simp only [hk]

/-- -99 fits 3 characters, -100 and 1000 do not. -/
example : FitsDec 3 (-99) ∧ ¬ FitsDec 3 (-100) ∧ FitsDec 3 999 ∧ ¬ FitsDec 3 1000 := by
  simp only [fitsDec_text]; decide +kernel

example : let S' := (setItem P0 exDesc.tab exStore 2 [0] (.int (-42))).1
    (writeStruct P0 exDesc S').bind (fun b => (readStruct P0 exDesc false b).bind
      fun r => getItem P0 exDesc.tab r.1 2 [0]) = .ok (.int (-42)) := by decide +kernel

example : writeStruct P0 exDesc (setItem P0 exDesc.tab exStore 2 [0] (.int (-100))).1 =
    .error .runtime := by decide +kernel

/-! ### C09 -/

/-- C09.  A string assigned to a string field of `w` bytes can be written exactly if, without its
trailing white space, it has at most `w` characters, all Latin-1. -/
theorem C09_fits_iff {d : Desc} (hd : d.causal = true) {S S' : Store P.F} {n : Nat} {key : Key}
    {fi : FInfo} (hn : d.tab[n]? = some fi) (hk : fi.fd.kind = .plain) (hty : fi.fd.ty = .str)
    (hf : fi.fd.frmt = none) {s : Str} (hset : setItem P d.tab S n key (.str s) = (S', none))
    {w : Nat} (hw : evalSize P (look P d.tab S) fi key = .ok (w : Int)) :
    (∃ b, fieldBytes P (look P d.tab S') S' fi n key = .ok b) ↔
      (rstripU s).length ≤ w ∧ ∀ c ∈ rstripU s, c.toNat < 256 := by
  obtain ⟨v', hc, hS⟩ := setItem_store P hn (Or.inl hk) hset
  have hp := (setCheck_ok P hc).2.1
  rw [hk] at hp
  simp only [packKind] at hp
  injection hp with hp
  subst hp
  rw [assigned_bytes P (Desc.causalTab hd) hc hS (finish_str P hty s) hw]
  exact encode_str_iff P hty hf w _

/-- C09.  A longer or non Latin-1 string makes the write raise. -/
theorem C09_misfit_raises {d : Desc} (hd : d.causal = true) {S S' : Store P.F} {n : Nat}
    {key : Key} {fi : FInfo} (hn : d.tab[n]? = some fi) (hk : fi.fd.kind = .plain)
    (hty : fi.fd.ty = .str) (hf : fi.fd.frmt = none) {s : Str}
    (hset : setItem P d.tab S n key (.str s) = (S', none)) {w : Nat}
    (hw : evalSize P (look P d.tab S) fi key = .ok (w : Int))
    (hfit : w < (rstripU s).length ∨ ∃ c ∈ rstripU s, 256 ≤ c.toNat)
    {sl : List Slot} (hl : layout P d S' = .ok sl) (hpres : ∃ t ∈ sl, t.pos = n ∧ t.key = key) :
    ∃ e, writeStruct P d S' = .error e := by
  obtain ⟨t, ht, rfl, rfl⟩ := hpres
  refine write_fails P hl ht hn fun b hb => ?_
  have := (C09_fits_iff P hd hn hk hty hf hset hw).mp ⟨b, hb⟩
  rcases hfit with h | ⟨c, h1, h2⟩
  · omega
  · have := this.2 c h1
    omega

/-- C09.  If the structure can be written, the string is read back without its trailing white
space and otherwise unchanged. -/
theorem C09_read_back {d : Desc} (hd : d.causal = true) (hwf : d.allFields FieldDef.wf = true)
    {S S' : Store P.F} {n : Nat} {key : Key} {fi : FInfo} (hn : d.tab[n]? = some fi)
    (hk : fi.fd.kind = .plain) (hty : fi.fd.ty = .str) {s : Str}
    (hset : setItem P d.tab S n key (.str s) = (S', none)) {cs : List Chunk}
    (hw : writeChunks P d S' = .ok cs) (hrep : ∀ ch ∈ cs, Survives P d S' ch)
    (hpres : ∃ ch ∈ cs, ch.pos = n ∧ ch.key = key) (rest : Bytes) :
    ∃ R, readStruct P d false (chunkBytes cs ++ rest) = .ok (R, rest) ∧
      getItem P d.tab R n key = .ok (.str (rstripU s)) := by
  obtain ⟨R, h1, _, h2⟩ := C01_write_then_read P hd hwf hw hrep rest
  refine ⟨R, h1, ?_⟩
  obtain ⟨ch, hch, rfl, rfl⟩ := hpres
  rw [h2 _ _ (writeChunks_from P hd hw hch).1, getItem_eq P _ hn]
  obtain ⟨v', hc, hS⟩ := setItem_store P hn (Or.inl hk) hset
  have hp := (setCheck_ok P hc).2.1
  rw [hk] at hp
  simp only [packKind] at hp
  injection hp with hp
  subst hp
  unfold getWith
  rw [(assigned P (Desc.causalTab hd) hc hS).2.2.2, finish_str P hty]
  simp only [hk]

example : rstripU "  a b \t ".toList = "  a b".toList := by decide +kernel

example : (setItem P0 exDesc.tab exStore 1 [0] (.str "Q ".toList)).2 = none ∧
    writeStruct P0 exDesc (setItem P0 exDesc.tab exStore 1 [0] (.str "Q ".toList)).1 =
      .ok (asc "03QNY   002hi") ∧
    writeStruct P0 exDesc (setItem P0 exDesc.tab exStore 1 [0] (.str "QQ".toList)).1 =
      .error .runtime ∧
    writeStruct P0 exDesc (setItem P0 exDesc.tab exStore 1 [0] (.str "π".toList)).1 =
      .error .unicode := by decide +kernel

/-! ### C10 -/

/-- C10.  None in an optional field of `w` bytes is written as `w` fill characters. -/
theorem C10_none_written {d : Desc} (hd : d.causal = true) {S S' : Store P.F} {n : Nat}
    {key : Key} {fi : FInfo} (hn : d.tab[n]? = some fi) (hk : fi.fd.kind = .plain)
    (hty : fi.fd.ty ≠ .bytes) (hc : fi.fd.optChar.toNat < 256)
    (hset : setItem P d.tab S n key .none = (S', none)) {w : Nat}
    (hw : evalSize P (look P d.tab S) fi key = .ok (w : Int)) :
    fi.fd.optional = true ∧ getItem P d.tab S' n key = .ok .none ∧
    fieldBytes P (look P d.tab S') S' fi n key =
      .ok (List.replicate w (UInt8.ofNat fi.fd.optChar.toNat)) := by
  obtain ⟨v', hc', hS⟩ := setItem_store P hn (Or.inl hk) hset
  obtain ⟨_, hp, _, _, _, _, _, ho⟩ := setCheck_ok P hc'
  rw [hk] at hp
  simp only [packKind] at hp
  injection hp with hp
  subst hp
  have ho := ho rfl
  have hfin : finish P fi.fd (.val .none) = .ok .none := by simp [finish, ho]
  refine ⟨ho, ?_, ?_⟩
  · rw [getItem_eq P _ hn]
    unfold getWith
    rw [(assigned P (Desc.causalTab hd) hc' hS).2.2.2, hfin]
    simp only [hk]
  · rw [assigned_bytes P (Desc.causalTab hd) hc' hS hfin hw]
    unfold encodeVal
    simp only [ho]
    rw [if_neg (by omega), if_neg hty, latin1Enc_ok_iff]
    refine ⟨?_, by simp⟩
    intro c hcm
    rw [(List.mem_replicate.mp hcm).2]
    exact hc

/-- C10.  The content of an optional field is read as None exactly if it consists of fill
characters and blanks only; any other content is never read as None. -/
theorem C10_none_iff_fill {fd : FieldDef} (ho : fd.optional = true) (b : Bytes) :
    parseField P fd false b = .ok (.val .none) ↔
      ∀ x ∈ b, x.toNat = fd.optChar.toNat ∨ x = 32 := by
  have hiff : isFill fd b = true ↔ ∀ x ∈ b, x.toNat = fd.optChar.toNat ∨ x = 32 := by
    simp [isFill]
  rw [← hiff]
  unfold parseField
  simp only [Bool.false_eq_true, if_false, ho, Bool.true_and]
  cases hb : isFill fd b with
  | true => simp
  | false =>
    simp only [Bool.false_eq_true, if_false, iff_false]
    intro h
    cases hty : fd.ty <;> simp only [hty] at h
    · injection h with h; injection h with h; cases h
    · split at h
      · cases h
      · split at h
        · injection h with h; injection h with h; cases h
        · cases h
    · split at h
      · cases h
      · split at h
        · injection h with h; injection h with h; cases h
        · cases h
    · injection h with h; injection h with h; cases h

/-- C10.  So a None that was written is read back as None. -/
theorem C10_none_read_back {fd : FieldDef} (ho : fd.optional = true)
    (hc : fd.optChar.toNat < 256) (w : Nat) :
    parseField P fd false (List.replicate w (UInt8.ofNat fd.optChar.toNat)) =
      .ok (.val .none) := by
  rw [C10_none_iff_fill P ho]
  intro x hx
  left
  rw [(List.mem_replicate.mp hx).2, UInt8.toNat_ofNat']
  omega

/-- C10.  An optional element that was never set, in a field without a default of its own, is None
and is written as fill characters. -/
theorem C10_unset {T : Tab} {S : Store P.F} {n : Nat} {key : Key} {fi : FInfo}
    (hn : T[n]? = some fi) (hk : fi.fd.kind = .plain) (hnm : fi.fd.name ≠ none)
    (ho : fi.fd.optional = true) (hty : fi.fd.ty ≠ .bytes) (hc : fi.fd.optChar.toNat < 256)
    (hd : fi.fd.default = none) (hv : fi.fd.value = none)
    (hck : checkIndex P (look P T S) fi key = .ok ())
    (hcond : evalCond P (look P T S) fi key = .ok true)
    {w : Nat} (hw : evalSize P (look P T S) fi key = .ok (w : Int)) (hS : S n key = none) :
    getItem P T S n key = .ok .none ∧
    fieldBytes P (look P T S) S fi n key =
      .ok (List.replicate w (UInt8.ofNat fi.fd.optChar.toNat)) := by
  have hst : stored S fi.fd n key = .val .none := by
    unfold stored
    rw [hS]
    simp [defaultVal, hd, ho]
  have hl : lowGet P (look P T S) S fi n key = .ok .none := by
    rw [lowGet_present P hnm hck hcond hv, hst]
    simp [finish, ho]
  refine ⟨?_, ?_⟩
  · rw [getItem_eq P _ hn]
    unfold getWith
    rw [hl]
    simp only [hk]
  · unfold fieldBytes
    rw [hw]
    simp only [hst, hl]
    unfold encodeVal
    simp only [ho]
    rw [if_neg (by omega), if_neg hty, latin1Enc_ok_iff]
    refine ⟨?_, by simp⟩
    intro c hcm
    rw [(List.mem_replicate.mp hcm).2]
    exact hc

/-- C10.  The value of an element that was never set: the default of the field, else the empty text
or zero. -/
theorem C10_unset_value {T : Tab} {S : Store P.F} {n : Nat} {key : Key} {fi : FInfo}
    (hn : T[n]? = some fi) (hk : fi.fd.kind = .plain) (hnm : fi.fd.name ≠ none)
    (hv : fi.fd.value = none) (hck : checkIndex P (look P T S) fi key = .ok ())
    (hcond : evalCond P (look P T S) fi key = .ok true) (hS : S n key = none) :
    (∀ z, fi.fd.ty = .int → fi.fd.default = some (.int z) → getItem P T S n key = .ok (.int z)) ∧
    (fi.fd.ty = .int → fi.fd.default = none → fi.fd.optional = false →
      getItem P T S n key = .ok (.int 0)) ∧
    (∀ t, fi.fd.ty = .str → fi.fd.default = some (.str t) →
      getItem P T S n key = .ok (.str (rstripU t.toList))) ∧
    (fi.fd.ty = .str → fi.fd.default = none → fi.fd.optional = false →
      getItem P T S n key = .ok (.str [])) ∧
    (fi.fd.ty = .flt → fi.fd.default = none → fi.fd.optional = false →
      getItem P T S n key = .ok (.flt (P.ofInt 0))) := by
  have hg : getItem P T S n key = finish P fi.fd (.val (defaultVal fi.fd)) := by
    rw [getItem_eq P _ hn]
    unfold getWith
    rw [lowGet_present P hnm hck hcond hv]
    have : stored S fi.fd n key = .val (defaultVal fi.fd) := by unfold stored; rw [hS]
    rw [this]
    cases finish P fi.fd (.val (defaultVal fi.fd)) with
    | error e => rfl
    | ok v => simp only [hk]
  rw [hg]
  refine ⟨?_, ?_, ?_, ?_, ?_⟩
  · intro z ht hdef; simp [defaultVal, hdef, CVal.toVal, finish, coerce, ht, coerceInt]
  · intro ht hdef ho; simp [defaultVal, hdef, ho, ht, finish, coerce, coerceInt]
  · intro t ht hdef; simp [defaultVal, hdef, CVal.toVal, finish, coerce, ht, pyStr]
  · intro ht hdef ho
    simp [defaultVal, hdef, ho, ht, finish, coerce, pyStr, rstripU, rstripBy]
  · intro ht hdef ho; simp [defaultVal, hdef, ho, ht, finish, coerce]

/-- An optional integer field filled with '-'. -/
def dashField : FieldDef :=
  { name := some 1, size := .const 3, ty := .int, optional := true, optChar := '-' }

example : (writeStruct P0 (.field dashField .nil) .empty).map (·.length) = .ok 3 ∧
    writeStruct P0 (.field dashField .nil) .empty = .ok (asc "---") ∧
    getItem P0 (Desc.field dashField .nil).tab .empty 0 [] = .ok .none := by decide +kernel

example : parseField P0 dashField false (asc "- -") = .ok (.val .none) ∧
    parseField P0 dashField false (asc "--7") ≠ .ok (.val .none) := by decide +kernel

example : writeStruct P0 exDesc (setItem P0 exDesc.tab exStore 2 [0] .none).1 =
    .ok (asc "03Y   NY   002hi") := by decide +kernel

/-! ### C11 -/

/-- C11.  A field whose condition is false reads as None. -/
theorem C11_reads_none {d : Desc} {S : Store P.F} {n : Nat} {key : Key} {fi : FInfo}
    (hn : d.tab[n]? = some fi) (hnm : fi.fd.name ≠ none)
    (hck : checkIndex P (look P d.tab S) fi key = .ok ())
    (hc : evalCond P (look P d.tab S) fi key = .ok false) :
    getItem P d.tab S n key = .ok .none := by
  rw [getItem_eq P _ hn]
  unfold getWith
  rw [lowGet_absent P hnm hck hc]
  cases fi.fd.kind <;> rfl

/-- C11.  No bytes are written for it, and every field that is written has a true condition. -/
theorem C11_writes_nothing {d : Desc} {S : Store P.F} {cs : List Chunk}
    (hw : writeChunks P d S = .ok cs) {n : Nat} {key : Key} {fi : FInfo}
    (hn : d.tab[n]? = some fi) (hc : evalCond P (look P d.tab S) fi key = .ok false) :
    ∀ ch ∈ cs, ¬ (ch.pos = n ∧ ch.key = key) := by
  rintro ch hch ⟨rfl, rfl⟩
  have hl := writeD_layout P S d 0 [] cs hw
  obtain ⟨_, _, _, fi', h1, h2, _⟩ :=
    layoutD_from P S d 0 [] _ hl ch.slot (List.mem_map.mpr ⟨ch, hch, rfl⟩)
  simp only [Chunk.slot] at h1 h2
  rw [hn] at h1
  injection h1 with h1
  subst h1
  rw [hc] at h2
  cases h2

/-- C11.  No bytes are consumed for it: the input of a successful read splits into the pieces of
fields whose condition is true (in the structure read). -/
theorem C11_consumes_nothing {d : Desc} (hd : d.causal = true) {lit : Bool} {R0 R : Store P.F}
    {b rest : Bytes} (h : readInto P d lit R0 b = .ok (R, rest)) :
    ∃ ins : List Chunk, b = chunkBytes ins ++ rest ∧ layout P d R = .ok (ins.map Chunk.slot) ∧
      ∀ n key fi, d.tab[n]? = some fi → evalCond P (look P d.tab R) fi key = .ok false →
        ∀ ch ∈ ins, ¬ (ch.pos = n ∧ ch.key = key) := by
  obtain ⟨ins, hb, _, hl, _⟩ := readInto_facts P hd h
  refine ⟨ins, hb, hl, ?_⟩
  rintro n key fi hn hc ch hch ⟨rfl, rfl⟩
  obtain ⟨_, _, _, fi', h1, h2, _⟩ :=
    layoutD_from P R d 0 [] _ hl ch.slot (List.mem_map.mpr ⟨ch, hch, rfl⟩)
  simp only [Chunk.slot] at h1 h2
  rw [hn] at h1
  injection h1 with h1
  subst h1
  rw [hc] at h2
  cases h2

theorem setItem_of_check_error {T : Tab} {S : Store P.F} {n : Nat} {key : Key} {v : Val P.F}
    {e : Err} (h : setCheck P T S n key v = .error e) : setItem P T S n key v = (S, some e) := by
  unfold setItem budget setF
  rw [h]

/-- C11.  Assigning to it raises and changes nothing. -/
theorem C11_set_raises {d : Desc} {S : Store P.F} {n : Nat} {key : Key} {fi : FInfo}
    (hn : d.tab[n]? = some fi) (hc : evalCond P (look P d.tab S) fi key = .ok false)
    (v : Val P.F) : ∃ e, setItem P d.tab S n key v = (S, some e) := by
  cases h : setCheck P d.tab S n key v with
  | error e => exact ⟨e, setItem_of_check_error P h⟩
  | ok r =>
    exfalso
    obtain ⟨fi', v'⟩ := r
    obtain ⟨h1, _, _, _, h2, _⟩ := setCheck_ok P h
    rw [hn] at h1
    injection h1 with h1
    subst h1
    rw [hc] at h2
    cases h2

/-- In `exStore` the flag at index 1 is N, so `val[1]` is absent. -/
example : (∃ fi, exDesc.tab[2]? = some fi ∧
      evalCond P0 (look P0 exDesc.tab exStore) fi [1] = .ok false) ∧
    getItem P0 exDesc.tab exStore 2 [1] = .ok .none ∧
    (setItem P0 exDesc.tab exStore 2 [1] (.int 5)).2 = some .runtime := by
  refine ⟨⟨_, rfl, by decide +kernel⟩, by decide +kernel, by decide +kernel⟩

/-! ### C12 -/

/-- What a field returns for an assigned (and packed) value: conversion to the field's type. -/
def asFieldType (fi : FInfo) (sz : Except Err Int) (v : Val P.F) : Except Err (Val P.F) :=
  match finish P fi.fd (.val v) with
  | .error e => .error e
  | .ok u =>
    match fi.fd.kind, u with
    | .plain, _ => .ok u
    | _, .none => .ok .none
    | k, .bytes b => unpackKind P sz k b
    | _, _ => .ok u

/-- C12, fields without a maintained length.  The assigned value is returned, converted to the
field's type; every other (field, index) keeps its stored value, and every field before it in
the record, as well as every other instance of the same field, still returns what it did. -/
theorem C12_set_get {d : Desc} (hd : d.causal = true) {S S' : Store P.F} {n : Nat} {key : Key}
    {v : Val P.F} {fi : FInfo} (hn : d.tab[n]? = some fi)
    (hk : fi.fd.kind = .plain ∨ fi.fd.sizeNotUpdated = true)
    (h : setItem P d.tab S n key v = (S', none)) :
    (∃ v', packKind P (evalSize P (look P d.tab S) fi key) fi.fd.kind v = .ok v' ∧
      getItem P d.tab S' n key =
        asFieldType P fi (evalSize P (look P d.tab S) fi key) v') ∧
    (∀ m k, ¬ (m = n ∧ k = key) → S' m k = S m k) ∧
    (∀ m k, m < n → getItem P d.tab S' m k = getItem P d.tab S m k) ∧
    (∀ k, k ≠ key → getItem P d.tab S' n k = getItem P d.tab S n k) := by
  obtain ⟨v', hc, hS⟩ := setItem_store P hn hk h
  obtain ⟨_, hp, _⟩ := setCheck_ok P hc
  have hother : ∀ m k, ¬ (m = n ∧ k = key) → S' m k = S m k := by
    intro m k hne
    rw [hS]
    unfold Store.set
    rw [if_neg hne]
  refine ⟨⟨v', hp, ?_⟩, hother, ?_, ?_⟩
  · rw [getItem_eq P _ hn]
    obtain ⟨_, _, hsz, hlow⟩ := assigned P (Desc.causalTab hd) hc hS
    unfold getWith asFieldType
    rw [hlow, hsz]
    rfl
  · intro m k hlt
    refine (sameAt_frame P (Desc.causalTab hd) m k ?_).symm
    intro m' k' hm' _
    exact (hother m' k' (by rintro ⟨h, _⟩; omega)).symm
  · intro k hk'
    refine (sameAt_of_vis P (Desc.causalTab hd) hn
      (vis_of_below P (Desc.causalTab hd) (fun m k h => (hother m k (by rintro ⟨h', _⟩; omega)).symm)
        _ _) ?_).symm
    intro _
    have : S' n k = S n k := hother n k (by rintro ⟨_, h⟩; exact hk' h)
    unfold stored
    rw [this]

/-- Integers and strings in fields of their own type. -/
theorem C12_plain_value {d : Desc} (hd : d.causal = true) {S S' : Store P.F} {n : Nat}
    {key : Key} {v : Val P.F} {fi : FInfo} (hn : d.tab[n]? = some fi) (hk : fi.fd.kind = .plain)
    (h : setItem P d.tab S n key v = (S', none)) :
    (∀ z, fi.fd.ty = .int → v = .int z → getItem P d.tab S' n key = .ok (.int z)) ∧
    (∀ s, fi.fd.ty = .str → v = .str s → getItem P d.tab S' n key = .ok (.str (rstripU s))) ∧
    (∀ x, fi.fd.ty = .flt → v = .flt x → getItem P d.tab S' n key = .ok (.flt x)) := by
  obtain ⟨⟨v', hp, hg⟩, _⟩ := C12_set_get P hd hn (Or.inl hk) h
  rw [hk] at hp
  simp only [packKind] at hp
  injection hp with hp
  subst hp
  rw [hg]
  unfold asFieldType
  refine ⟨?_, ?_, ?_⟩
  · rintro z hty rfl
    rw [finish_int P hty]; simp only [hk]
  · rintro s hty rfl
    rw [finish_str P hty]; simp only [hk]
  · rintro x hty rfl
    simp only [finish, coerce, hty, hk]

/-- C12, data fields with a maintained length: besides the field itself only the length field
changes. -/
theorem C12_sized_local {T : Tab} {S S' : Store P.F} {n : Nat} {key : Key}
    {v : Val P.F} {fi fm : FInfo} {nm : Name} {idx : List Nat} {m : Nat}
    (hn : T[n]? = some fi) (hk : fi.fd.kind ≠ .plain) (hu : fi.fd.sizeNotUpdated = false)
    (hsz : fi.fd.size = .expr (.ref nm idx)) (hr : resolve T nm = some m)
    (hm : T[m]? = some fm) (hmk : fm.fd.kind = .plain)
    (h : setItem P T S n key v = (S', none)) :
    ∃ k', idxKey key idx = .ok k' ∧
      ∀ q k, ¬ (q = n ∧ k = key) → ¬ (q = m ∧ k = k') → S' q k = S q k := by
  obtain ⟨v', l, k', w, _, _, hk', _, _, hS⟩ := setItem_sized P hn hk hu hsz hr hm hmk h
  refine ⟨k', hk', ?_⟩
  intro q k h1 h2
  rw [hS]
  unfold Store.set
  rw [if_neg h2, if_neg h1]

example : getItem P0 exDesc.tab (setItem P0 exDesc.tab exStore 2 [0] (.int 5)).1 2 [0] =
      .ok (.int 5) ∧
    getItem P0 exDesc.tab (setItem P0 exDesc.tab exStore 2 [0] (.int 5)).1 2 [2] = .ok .none := by
  decide +kernel

/-! ### C13 -/

/-- C13.  After an accepted assignment of `data` to a data field whose length is held in another
field, the declared size of the data field is the length of the data (offset and empty data
included), the data is stored, and it is what the field returns (a text field: decoded) as long as
it is in the record. -/
theorem C13_size_consistent {d : Desc} (hd : d.causal = true) {S S' : Store P.F} {n : Nat}
    {key : Key} {data : Bytes} {fi fm : FInfo} {nm : Name} {idx : List Nat} {m : Nat}
    (hn : d.tab[n]? = some fi) (hk : fi.fd.kind = .bytesData ∨ fi.fd.kind = .strData)
    (hty : fi.fd.ty = .bytes) (hu : fi.fd.sizeNotUpdated = false)
    (hsz : fi.fd.size = .expr (.ref nm idx)) (hr : resolve d.tab nm = some m)
    (hm : d.tab[m]? = some fm) (hmk : fm.fd.kind = .plain) (hmt : fm.fd.ty = .int)
    (h : setItem P d.tab S n key (.bytes data) = (S', none)) :
    evalSize P (look P d.tab S') fi key = .ok (data.length : Int) ∧
    stored S' fi.fd n key = .val (.bytes data) ∧
    (checkIndex P (look P d.tab S') fi key = .ok () →
      evalCond P (look P d.tab S') fi key = .ok true →
      getItem P d.tab S' n key =
        .ok (if fi.fd.kind = .strData then .str (latin1Dec data) else .bytes data) ∧
      fieldBytes P (look P d.tab S') S' fi n key = .ok data) := by
  have hC := Desc.causalTab hd
  have hknp : fi.fd.kind ≠ .plain := by rcases hk with hk | hk <;> rw [hk] <;> intro h <;> cases h
  obtain ⟨v', l, k', w, hc1, hl, hk', hdep, hc2, hS⟩ :=
    setItem_sized P hn hknp hu hsz hr hm hmk h
  obtain ⟨_, hp1, hnm, _, _, _, hval, _⟩ := setCheck_ok P hc1
  have hp1 : Except.ok (.bytes data) = Except.ok (ε := Err) v' := by
    rcases hk with hk | hk <;> rw [hk] at hp1 <;> simpa only [packKind] using hp1
  injection hp1 with hp1
  subst hp1
  simp only [byteLen] at hl
  injection hl with hl
  subst hl
  obtain ⟨_, hp2, _⟩ := setCheck_ok P hc2
  rw [hmk] at hp2
  simp only [packKind] at hp2
  injection hp2 with hp2
  subst hp2
  have hlt : m < n := by
    have hf := hC n fi hn
    simp only [fieldOk, FieldDef.refs, sizeRefs, hsz, Expr.refs, List.all_append,
      Bool.and_eq_true, List.all_cons, List.all_nil, Bool.and_true] at hf
    have := hf.1.1.2.1
    unfold refOk at this
    simp only [hr, hm, Bool.and_eq_true, decide_eq_true_eq] at this
    exact this.1.1
  have hget : getItem P d.tab S' m k' =
      .ok (.int (if data.length = 0 then 0 else (data.length : Int) + fi.fd.sizeOffset)) := by
    rw [getItem_eq P _ hm]
    unfold getWith
    rw [(assigned P hC hc2 hS).2.2.2, finish_int P hmt]
    simp only [hmk]
  have hlook : look P d.tab S' nm k' = getItem P d.tab S' m k' := by
    unfold look lookVia
    rw [hr]
    simp only [hm]
    rw [if_neg (by simp [hdep]), getF_budget P hC _ hm]
  have hsize : evalSize P (look P d.tab S') fi key = .ok (data.length : Int) := by
    unfold evalSize
    simp only [hsz, evalE, hk', bind, Except.bind, hlook, hget, asInt]
    congr 1
    split <;> split <;> omega
  have hst : stored S' fi.fd n key = .val (.bytes data) := by
    rw [hS]
    unfold stored
    have : ((S.set n key ⟨.val (.bytes data), none⟩).set m k'
        ⟨.val (.int (if data.length = 0 then 0 else (data.length : Int) + fi.fd.sizeOffset)), none⟩)
        n key = some ⟨.val (.bytes data), none⟩ := by
      unfold Store.set
      rw [if_neg (by rintro ⟨h, _⟩; omega), if_pos ⟨rfl, rfl⟩]
    rw [this]
  refine ⟨hsize, hst, ?_⟩
  intro hck hcd
  have hlow : lowGet P (look P d.tab S') S' fi n key = .ok (.bytes data) := by
    rw [lowGet_present P hnm hck hcd hval, hst, finish_bytes P hty]
  constructor
  · rw [getItem_eq P _ hn]
    unfold getWith
    rw [hlow]
    rcases hk with hk | hk <;> simp [hk, unpackKind]
  · unfold fieldBytes
    rw [hsize]
    simp only
    rw [hst]
    simp only
    rw [hlow]
    simp only
    rw [encodeVal_of_ne_none P _ _ _ (by intro h; cases h)]
    simp [hty]

/-- C13.  Text can be assigned to a data field: it stands for its ISO-8859-1 bytes.  Text with other
characters is refused and nothing changes. -/
theorem C13_text {T : Tab} {S : Store P.F} {n : Nat} {key : Key} {s : Str} {fi : FInfo}
    (hn : T[n]? = some fi) (hk : fi.fd.kind = .bytesData ∨ fi.fd.kind = .strData) :
    (∀ b, latin1Enc s = .ok b →
      setItem P T S n key (.str s) = setItem P T S n key (.bytes b) ∧ latin1Dec b = s) ∧
    ∀ e, latin1Enc s = .error e → setItem P T S n key (.str s) = (S, some e) := by
  constructor
  · intro b hb
    refine ⟨?_, latin1Dec_enc hb⟩
    unfold setItem budget setF
    have : setCheck P T S n key (.str s) = setCheck P T S n key (.bytes b) := by
      unfold setCheck
      rw [hn]
      rcases hk with hk | hk <;> simp only [hk, packKind, hb, Except.map]
    rw [this]
  · intro e he
    unfold setItem budget setF
    have : setCheck P T S n key (.str s) = .error e := by
      unfold setCheck
      rw [hn]
      rcases hk with hk | hk <;> simp only [hk, packKind, he, Except.map]
    rw [this]

example : writeStruct P0 exDesc (setItem P0 exDesc.tab exStore 4 [] (.str "h\u00e9".toList)).1 =
      .ok (asc "03Y007NY   002h" ++ [0xe9]) ∧
    (setItem P0 exDesc.tab exStore 4 [] (.str "h\u2013".toList)).2 = some .unicode := by
  decide +kernel

/-- C13.  A fixed-size data field accepts only data of its size. -/
theorem C13_fixed_size {T : Tab} {S S' : Store P.F} {n : Nat} {key : Key} {data : Bytes}
    {fi : FInfo} (hn : T[n]? = some fi) (hk : fi.fd.kind = .bytesData)
    (hu : fi.fd.sizeNotUpdated = true)
    (h : setItem P T S n key (.bytes data) = (S', none)) :
    evalSize P (look P T S') fi key = .ok (data.length : Int) := by
  obtain ⟨v', hc, hS⟩ := setItem_store P hn (Or.inr hu) h
  obtain ⟨_, hp, _⟩ := setCheck_ok P hc
  rw [hk] at hp
  simp only [packKind] at hp
  injection hp with hp
  subst hp
  unfold setItem budget setF at h
  rw [hc] at h
  simp only [hk, reduceCtorEq, if_false, byteLen, hu, if_true] at h
  rw [← hS] at h
  cases hz : evalSize P (look P T S') fi key with
  | error e => rw [hz] at h; cases h
  | ok sz =>
    rw [hz] at h
    simp only at h
    split at h
    · cases h
    · rename_i hne
      simp only [ne_eq, Decidable.not_not] at hne
      rw [hne]

/-- A record with fixed-size binary data. -/
def fixedDesc : Desc :=
  oneField { name := some (n!"data"), size := .const 2, ty := .bytes, kind := .bytesData,
             sizeNotUpdated := true }

/-- C13: but data of another size, although rejected with an exception, is stored all the same
(the check comes after the assignment), and the structure can then no longer be written. -/
theorem C13_rejected_but_stored :
    (setItem P0 fixedDesc.tab Store.empty 0 [] (.bytes [1, 2, 3])).2 = some .runtime ∧
    getItem P0 fixedDesc.tab (setItem P0 fixedDesc.tab Store.empty 0 [] (.bytes [1, 2, 3])).1 0 [] =
      .ok (.bytes [1, 2, 3]) ∧
    writeStruct P0 fixedDesc (setItem P0 fixedDesc.tab Store.empty 0 [] (.bytes [1, 2, 3])).1 =
      .error .runtime := by
  decide +kernel

example : writeStruct P0 exDesc (setItem P0 exDesc.tab exStore 4 [] (.bytes (asc "hello"))).1 =
      .ok (asc "03Y007NY   005hello") ∧
    writeStruct P0 exDesc (setItem P0 exDesc.tab exStore 4 [] (.bytes [])).1 =
      .ok (asc "03Y007NY   000") := by decide +kernel

/-! ### C14

`FitsBin s w z`: `z` is in the two's complement (signed) or natural (unsigned) range of `w`
bytes. -/

/-- C14.  In the supported widths an integer is accepted exactly if it is in range, and unpacking
the packed bytes gives it back. -/
theorem C14_pack_unpack (s : Bool) {w : Nat} (hw : (w : Int) ∈ ([1, 2, 3, 4, 8] : List Int)) (z : Int) :
    ((∃ v, packKind P (.ok w) (.intData s) (.int z) = .ok v) ↔ FitsBin s w z) ∧
    ∀ v, packKind P (.ok w) (.intData s) (.int z) = .ok v →
      ∃ b, v = .bytes b ∧ b.length = w ∧ unpackKind P (.ok w) (.intData s) b = .ok (.int z) := by
  replace hw : (w : Int) ∈ intSizes := hw
  have hw1 : 1 ≤ w := by
    simp only [intSizes, List.mem_cons, List.not_mem_nil, or_false] at hw
    omega
  simp only [packKind, hw, if_true, Int.toNat_natCast]
  constructor
  · rw [← intToBytes_iff s hw1 z]
    constructor
    · rintro ⟨v, hv⟩
      cases h : intToBytes s w z with
      | error e => rw [h] at hv; cases hv
      | ok b => exact ⟨b, rfl⟩
    · rintro ⟨b, hb⟩
      exact ⟨.bytes b, by rw [hb]; rfl⟩
  · intro v hv
    cases h : intToBytes s w z with
    | error e => rw [h] at hv; cases hv
    | ok b =>
      rw [h] at hv
      simp only [Except.map] at hv
      injection hv with hv
      obtain ⟨h1, h2⟩ := bytesToInt_intToBytes s hw1 h
      refine ⟨b, hv.symm, h2, ?_⟩
      simp only [unpackKind, hw, if_true]
      rw [if_pos (Or.inr (by omega)), h1]

/-- C14.  Unpacking any bytes of the field's width succeeds, and packing the result gives the
same bytes. -/
theorem C14_unpack_pack (s : Bool) {b : Bytes} (hw : (b.length : Int) ∈ ([1, 2, 3, 4, 8] : List Int)) :
    ∃ z, unpackKind P (.ok b.length) (.intData s) b = .ok (.int z) ∧
      packKind P (.ok b.length) (.intData s) (.int z) = .ok (.bytes b) := by
  replace hw : (b.length : Int) ∈ intSizes := hw
  have hw1 : 1 ≤ b.length := by
    simp only [intSizes, List.mem_cons, List.not_mem_nil, or_false] at hw
    omega
  refine ⟨bytesToInt s b, ?_, ?_⟩
  · simp only [unpackKind, hw, if_true]
    rw [if_pos (Or.inr trivial)]
  · simp only [packKind, hw, if_true, Int.toNat_natCast]
    rw [intToBytes_bytesToInt s hw1]
    rfl

/-- C14.  Other widths raise. -/
theorem C14_other_widths (s : Bool) {sz : Int} (hw : sz ∉ ([1, 2, 3, 4, 8] : List Int)) (v : Val P.F)
    (b : Bytes) :
    packKind P (.ok sz) (.intData s) v = .error .exception ∧
    unpackKind P (.ok sz) (.intData s) b = .error .exception := by
  replace hw : sz ∉ intSizes := hw
  simp [packKind, unpackKind, hw]

/-- C14 on a structure: the integer assigned to a binary integer field is returned. -/
theorem C14_field {d : Desc} (hd : d.causal = true) {S S' : Store P.F} {n : Nat} {key : Key}
    {z : Int} {fi : FInfo} {s : Bool} (hn : d.tab[n]? = some fi) (hk : fi.fd.kind = .intData s)
    (hty : fi.fd.ty = .bytes) (hu : fi.fd.sizeNotUpdated = true)
    (h : setItem P d.tab S n key (.int z) = (S', none)) :
    getItem P d.tab S' n key = .ok (.int z) := by
  obtain ⟨⟨v', hp, hg⟩, _⟩ := C12_set_get P hd hn (Or.inr hu) h
  rw [hg]
  rw [hk] at hp
  cases hsz : evalSize P (look P d.tab S) fi key with
  | error e => rw [hsz] at hp; cases hp
  | ok sz =>
    rw [hsz] at hp
    by_cases hw : sz ∈ intSizes
    · obtain ⟨w, rfl⟩ : ∃ w : Nat, sz = w := by
        simp only [intSizes, List.mem_cons, List.not_mem_nil, or_false] at hw
        exact ⟨sz.toNat, by omega⟩
      obtain ⟨b, rfl, _, hun⟩ := (C14_pack_unpack P s hw z).2 v' hp
      unfold asFieldType
      rw [finish_bytes P hty]
      simp only [hk]
      exact hun
    · rw [(C14_other_widths P s hw (.int z) []).1] at hp
      cases hp

example : packKind P0 (.ok 3) (.intData true) (.int (-2)) = .ok (.bytes [255, 255, 254]) ∧
    FitsBin true 3 (-8388608) ∧ ¬ FitsBin true 3 8388608 ∧ FitsBin false 3 16777215 := by
  refine ⟨by decide +kernel, ?_, ?_, ?_⟩ <;> simp [FitsBin]

/-! ### C15 -/

/-- C15, what the code checks: a tuple of the wrong length, a negative last index, or a last index
beyond the count at the leading indices raises IndexError, when read and when assigned. -/
theorem C15_last_index_partial {d : Desc} {S : Store P.F} {n : Nat} {key : Key} {fi : FInfo}
    (hn : d.tab[n]? = some fi) (hnm : fi.fd.name ≠ none) {e : Expr}
    (he : fi.shapes.getLast? = some e)
    (hbad : key.length ≠ fi.depth ∨ ∃ i, key.getLast? = some i ∧ (i < 0 ∨
      ∃ c, evalShape P (look P d.tab S) e key.dropLast = .ok c ∧ c ≤ i)) :
    getItem P d.tab S n key = .error .index ∧
    ∀ v, ∃ e', setItem P d.tab S n key v = (S, some e') := by
  have hck : checkIndex P (look P d.tab S) fi key = .error .index := by
    unfold checkIndex
    rw [he]
    simp only
    by_cases hlen : key.length = fi.depth
    · rw [if_neg (by simpa using hlen)]
      rcases hbad with h | ⟨i, hi, h⟩
      · exact absurd hlen h
      · rw [hi]
        simp only
        rcases h with h | ⟨c, hc, hle⟩
        · rw [if_pos h]
        · split
          · rfl
          · rw [hc]; simp only; rw [if_pos (by omega)]
    · rw [if_pos hlen]
  constructor
  · rw [getItem_eq P _ hn]
    unfold getWith lowGet
    cases hnm' : fi.fd.name with
    | none => exact absurd hnm' hnm
    | some nm => simp only [hck, bind, Except.bind]
  · intro v
    cases h : setCheck P d.tab S n key v with
    | error e' => exact ⟨e', setItem_of_check_error P h⟩
    | ok r =>
      exfalso
      obtain ⟨fi', v'⟩ := r
      obtain ⟨h1, _, _, h2, _⟩ := setCheck_ok P h
      rw [hn] at h1
      injection h1 with h1
      subst h1
      rw [hck] at h2
      cases h2

/-- Two nested loops with counts that do not depend on each other. -/
def gridDesc : Desc :=
  .field { name := some (n!"nr"), size := .const 1, ty := .int } <|
  .field { name := some (n!"nc"), size := .const 1, ty := .int } <|
  .loop (.ref (n!"nr") []) (.loop (.ref (n!"nc") [])
    (.field { name := some (n!"x"), size := .const 1, ty := .int } .nil) .nil) .nil

/-- C15 fails as stated: leading indices are not checked.  In a 1 x 1 grid, element [7, 0] can be
assigned and read. -/
theorem C15_leading_index_unchecked :
    ∃ S : Store P0.F, getItem P0 gridDesc.tab S 0 [] = .ok (.int 1) ∧
      getItem P0 gridDesc.tab S 1 [] = .ok (.int 1) ∧
      (setItem P0 gridDesc.tab S 2 [7, 0] (.int 5)).2 = none ∧
      getItem P0 gridDesc.tab (setItem P0 gridDesc.tab S 2 [7, 0] (.int 5)).1 2 [7, 0] =
        .ok (.int 5) := by
  refine ⟨(Store.empty.set 0 [] ⟨.val (.int 1), none⟩).set 1 [] ⟨.val (.int 1), none⟩, ?_⟩
  decide +kernel

example : getItem P0 exDesc.tab exStore 2 [3] = .error .index ∧
    getItem P0 exDesc.tab exStore 2 [-1] = .error .index ∧
    getItem P0 exDesc.tab exStore 2 [0, 0] = .error .index := by decide +kernel

/-! ### C17 -/

/-- C17.  Assigning anything to a hard-coded, computed or reserved field raises and changes
nothing. -/
theorem C17_not_assignable {T : Tab} {S : Store P.F} {n : Nat} {key : Key} {fi : FInfo}
    (hn : T[n]? = some fi)
    (h : fi.fd.hardcoded = true ∨ fi.fd.value ≠ none ∨ fi.fd.name = none) (v : Val P.F) :
    ∃ e, setItem P T S n key v = (S, some e) := by
  cases hc : setCheck P T S n key v with
  | error e => exact ⟨e, setItem_of_check_error P hc⟩
  | ok r =>
    exfalso
    obtain ⟨fi', v'⟩ := r
    obtain ⟨h1, _, h2, _, _, h3, h4, _⟩ := setCheck_ok P hc
    rw [hn] at h1
    injection h1 with h1
    subst h1
    rcases h with h | h | h
    · rw [h] at h3; cases h3
    · exact h h4
    · exact h2 h

/-- The first field of the DES subheader. -/
def deField : FieldDef :=
  { name := some (n!"de"), size := .const 2, ty := .str, default := some (.str "DE"),
    hardcoded := true }

example : (setItem P0 (oneField deField).tab Store.empty 0 [] (.str ['X', 'X'])).2 =
    some .runtime := by decide +kernel

end Verif
