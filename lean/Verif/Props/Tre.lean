import Verif.TreRound

/-
Properties of TREs: C19 - C24, C40, C52.

`reg : Registry` is the set of registered TRE classes; the shipped one is `shippedRegistry`.
`Representable` says that a TRE can be read back at all (its tag is up to six ASCII characters,
its class is the registered one, its values fit their fields); `SameTre` that two TREs have the
same tag and the same bytes or the same field values.
-/

namespace Verif

variable (P : PyFloat)

/-! ### The shipped classes and headers -/

/-- The TRE classes registered by the library. -/
def shippedRegistry : Registry := Tables.tres.map fun t => (t.1.toList, t.2)

theorem mem_all_of_tres {t : String × Desc} (h : t ∈ Tables.tres) : t ∈ Tables.all := by
  unfold Tables.all
  simp [h]

theorem shippedRegistry_causal : shippedRegistry.Causal := by
  intro e he
  obtain ⟨t, ht, rfl⟩ := List.mem_map.mp he
  exact tables_causal t (mem_all_of_tres ht)

/-- Each shipped class is found under its own tag. -/
theorem shippedRegistry_lookup : ∀ t ∈ Tables.tres,
    shippedRegistry.lookup (tagBytes t.1.toList) = some (t.1.toList, t.2) := by
  have : (Tables.tres.all fun t => decide (shippedRegistry.lookup (tagBytes t.1.toList) =
      some (t.1.toList, t.2))) = true := by decide +kernel
  intro t ht
  exact of_decide_eq_true (List.all_eq_true.mp this t ht)

theorem shipped_tagOk : ∀ t ∈ Tables.tres, TagOk t.1.toList := by
  have : (Tables.tres.all fun t => decide (t.1.toList.length ≤ 6) &&
      t.1.toList.all (fun c => decide (c.toNat < 128)) &&
      decide (rstripB (utf8Enc t.1.toList) = utf8Enc t.1.toList)) = true := by decide +kernel
  intro t ht
  have := List.all_eq_true.mp this t ht
  simp only [Bool.and_eq_true, decide_eq_true_eq, List.all_eq_true] at this
  exact ⟨this.1.1, this.1.2, this.2⟩

/-- Positions of the areas of a header description. -/
def areaPositions (d : Desc) (areas : List Area) : List AreaPos :=
  areas.map fun a => ⟨(resolve d.tab a.len).getD 0, (resolve d.tab a.ofl).getD 0,
    (resolve d.tab a.data).getD 0⟩

def headerAreasB (d : Desc) (areas : List Area) : Bool :=
  areas.all (fun a => areaOkB d.tab a ⟨(resolve d.tab a.len).getD 0, (resolve d.tab a.ofl).getD 0,
    (resolve d.tab a.data).getD 0⟩) &&
  decide ((areaPositions d areas).flatMap AreaPos.list).Nodup && !areas.isEmpty

theorem headerAreas_of {d : Desc} {areas : List Area} (hd : d.causal = true)
    (h : headerAreasB d areas = true) : HeaderAreas d areas (areaPositions d areas) := by
  unfold headerAreasB at h
  simp only [Bool.and_eq_true, List.all_eq_true, decide_eq_true_eq, Bool.not_eq_true',
    List.isEmpty_eq_false_iff] at h
  refine ⟨hd, ⟨by simp [areaPositions], ?_⟩, h.1.2, h.2⟩
  intro i a p ha hp
  unfold areaPositions at hp
  rw [List.getElem?_map, ha] at hp
  injection hp with hp
  subst hp
  exact areaAt_of_ok (h.1.1 a (List.mem_of_getElem? ha))

/-- The file header, image and text subheaders have TRE areas of the form assumed below, under the
names the library uses for them. -/
theorem fileHeader_areas : HeaderAreas Tables.t_file_header fileAreas
    (areaPositions Tables.t_file_header fileAreas) :=
  headerAreas_of (by decide +kernel) (by decide +kernel)

theorem imageHeader_areas : HeaderAreas Tables.t_image_subheader imageAreas
    (areaPositions Tables.t_image_subheader imageAreas) :=
  headerAreas_of (by decide +kernel) (by decide +kernel)

theorem textHeader_areas : HeaderAreas Tables.t_text_subheader textAreas
    (areaPositions Tables.t_text_subheader textAreas) :=
  headerAreas_of (by decide +kernel) (by decide +kernel)

/-- Contents of an unused area. -/
def unused : AreaVal := ⟨0, 0, []⟩

/-- The areas of a freshly created header are unused. -/
theorem fresh_holds {d : Desc} {areas : List Area} {ps : List AreaPos} (H : HeaderAreas d areas ps)
    (hdef : ∀ p ∈ ps, ∀ q ∈ p.list, ∀ fi, d.tab[q]? = some fi →
      fi.fd.default = none ∧ fi.fd.optional = false) :
    HoldsAll P d Store.empty ps (ps.map fun _ => unused) := by
  have hat : ∀ p ∈ ps, ∃ a, AreaAt d.tab a p := by
    intro p hp
    obtain ⟨i, hi⟩ := List.mem_iff_getElem?.mp hp
    have hlt : i < areas.length := by rw [H.at_.1]; exact lt_of_getElem? hi
    exact ⟨areas[i], H.at_.2 i _ p (List.getElem?_eq_getElem hlt) hi⟩
  have aux : ∀ qs : List AreaPos, (∀ p ∈ qs, (∃ a, AreaAt d.tab a p) ∧
      ∀ q ∈ p.list, ∀ fi, d.tab[q]? = some fi →
        fi.fd.default = none ∧ fi.fd.optional = false) →
      Each (Holds P d.tab Store.empty) qs (qs.map fun _ => unused) := by
    intro qs
    induction qs with
    | nil => intro _; exact .nil
    | cons p qs ih =>
      intro h
      obtain ⟨⟨a, ha⟩, hdf⟩ := h p (by simp)
      refine .cons ?_ (ih fun p hp => h p (by simp [hp]))
      obtain ⟨f1, a1, _, _, a4, _⟩ := ha.flen
      obtain ⟨f2, b1, _, _, b4, _⟩ := ha.fofl
      obtain ⟨f3, c1, _, _, c4, _⟩ := ha.fdata
      refine ⟨⟨f1, a1, ?_⟩, ⟨f2, b1, ?_⟩, ⟨f3, c1, ?_⟩⟩
      · have := hdf p.m (by simp [AreaPos.list]) f1 a1
        have hs : stored (Store.empty : Store P.F) f1.fd p.m [] = .val (.int 0) := by
          simp [stored, Store.empty, defaultVal, this, a4]
        rw [hs]; exact finish_int P a4 0
      · have := hdf p.o (by simp [AreaPos.list]) f2 b1
        have hs : stored (Store.empty : Store P.F) f2.fd p.o [] = .val (.int 0) := by
          simp [stored, Store.empty, defaultVal, this, b4]
        rw [hs]; exact finish_int P b4 0
      · have := hdf p.n (by simp [AreaPos.list]) f3 c1
        have hs : stored (Store.empty : Store P.F) f3.fd p.n [] = .val (.int 0) := by
          simp [stored, Store.empty, defaultVal, this, c4]
        rw [hs]
        simp [finish, coerce, c4, unused]
  exact aux ps fun p hp => ⟨hat p hp, hdef p hp⟩

def freshB (d : Desc) (areas : List Area) : Bool :=
  ((areaPositions d areas).flatMap AreaPos.list).all fun q =>
    match d.tab[q]? with
    | none => true
    | some fi => fi.fd.default.isNone && !fi.fd.optional

theorem fresh_holds' {d : Desc} {areas : List Area}
    (H : HeaderAreas d areas (areaPositions d areas)) (h : freshB d areas = true) :
    HoldsAll P d Store.empty (areaPositions d areas)
      ((areaPositions d areas).map fun _ => unused) := by
  refine fresh_holds P H fun p hp q hq fi hfi => ?_
  have := List.all_eq_true.mp h q (List.mem_flatMap.mpr ⟨p, hp, hq⟩)
  rw [hfi] at this
  simp only [Bool.and_eq_true, Option.isNone_iff_eq_none, Bool.not_eq_true'] at this
  exact this

theorem fileHeader_fresh : HoldsAll P Tables.t_file_header Store.empty
    (areaPositions Tables.t_file_header fileAreas) [unused, unused] :=
  fresh_holds' P fileHeader_areas (by decide +kernel)

theorem imageHeader_fresh : HoldsAll P Tables.t_image_subheader Store.empty
    (areaPositions Tables.t_image_subheader imageAreas) [unused, unused] :=
  fresh_holds' P imageHeader_areas (by decide +kernel)

theorem textHeader_fresh : HoldsAll P Tables.t_text_subheader Store.empty
    (areaPositions Tables.t_text_subheader textAreas) [unused] :=
  fresh_holds' P textHeader_areas (by decide +kernel)

/-! ### C19 -/

/-- C19, format: 6 bytes with the tag padded by blanks, 5 decimal digits with the length of the
body, the body. -/
theorem C19_format {t : Tre P.F} (htag : TagOk t.tag) {b : Bytes} (h : treWrite P t = .ok b) :
    ∃ body, t.body P = .ok body ∧ b.length = 11 + body.length ∧
      b.take 6 = (t.tag ++ List.replicate (6 - t.tag.length) ' ').map (fun c => UInt8.ofNat c.toNat) ∧
      (∀ x ∈ (b.drop 6).take 5, 48 ≤ x.toNat ∧ x.toNat ≤ 57) ∧
      pyIntB ((b.drop 6).take 5) = .ok body.length ∧ b.drop 11 = body := by
  obtain ⟨body, h1, h2, h3, h4⟩ := treWrite_frame P htag h
  refine ⟨body, h1, ?_, ?_, ?_, ?_, ?_⟩
  · rw [h3]
    unfold Frame.bytes
    simp only [List.length_append, h4.tagLen, h4.lenLen]
    omega
  · have := h4.take6 []
    rw [List.append_nil] at this
    rw [h3, this]
    show utf8Enc _ = _
    unfold padRight
    refine utf8Enc_ascii ?_
    intro c hc
    rcases List.mem_append.mp hc with hc | hc
    · exact htag.ascii c hc
    · rw [(List.mem_replicate.mp hc).2]; decide
  · have := h4.take5 []
    rw [List.append_nil] at this
    rw [h3, this]
    simp only
    have hd := padLeft_zero_digits 5 body.length
    unfold lenBytes
    rw [utf8Enc_ascii fun c hc => isDigit_ascii (hd c hc)]
    intro x hx
    obtain ⟨c, hc, rfl⟩ := List.mem_map.mp hx
    have := hd c hc
    unfold IsDigit at this
    rw [UInt8.toNat_ofNat_of_lt' (by show c.toNat < 256; omega)]
    exact this
  · have := h4.take5 []
    rw [List.append_nil] at this
    rw [h3, this]
    exact h4.lenVal
  · have := h4.drop11 []
    rw [List.append_nil, List.append_nil] at this
    rw [h3, this]

/-- C19: a TRE is written exactly if its body can be written and is at most 99999 bytes. -/
theorem C19_too_long {t : Tre P.F} {body : Bytes} (h : t.body P = .ok body) :
    (99999 < body.length → treWrite P t = .error .runtime) ∧
    (body.length ≤ 99999 → ∃ b, treWrite P t = .ok b) := by
  unfold treWrite
  rw [h]
  simp only
  constructor
  · intro hl; rw [if_pos hl]
  · intro hl; rw [if_neg (by omega)]; exact ⟨_, rfl⟩

/-- C19: an unknown TRE is read back with the same tag and bytes, consuming exactly what was
written. -/
theorem C19_unknown_round_trip {tag : Str} (htag : TagOk tag) {body b : Bytes}
    (h : treWrite P (.unknown tag body) = .ok b) (rest : Bytes) :
    readUnknown P (b ++ rest) = .ok (.unknown tag body, rest) := by
  obtain ⟨body', h1, _, h3, h4⟩ := treWrite_frame P (t := .unknown tag body) htag h
  simp only [Tre.body] at h1
  injection h1 with h1
  subst h1
  rw [h3, readUnknown_frame P h4]
  simp only [Tre.tag, htag.rstrip, latin1Dec_utf8Enc htag.ascii]

/-- C19: a known TRE is read back by its class with the same field values, consuming exactly what
was written. -/
theorem C19_known_round_trip {tag : Str} (htag : TagOk tag) {d : Desc} (hd : d.causal = true)
    (hwf : d.allFields FieldDef.wf = true) {S : Store P.F} {cs : List Chunk}
    (hw : writeChunks P d S = .ok cs) (hrep : ∀ ch ∈ cs, Survives P d S ch) {b : Bytes}
    (h : treWrite P (.known tag d S) = .ok b) (rest : Bytes) :
    ∃ R, readKnown P tag d (b ++ rest) = .ok (.known tag d R, rest) ∧
      ∀ nm, itemsOf P d R nm = itemsOf P d S nm := by
  obtain ⟨body, h1, _, h3, h4⟩ := treWrite_frame P (t := .known tag d S) htag h
  simp only [Tre.body] at h1
  obtain ⟨cs', hc, hb⟩ := writeStruct_chunks P h1
  rw [hw] at hc
  injection hc with hc
  subst hc
  obtain ⟨R, r1, r2, _⟩ := C01_write_then_read P hd hwf hw hrep []
  rw [List.append_nil, ← hb] at r1
  refine ⟨R, ?_, r2⟩
  rw [h3]
  rcases readKnown_frame P (tag := tag) hd h4 rest with ⟨_, R', q1, q2⟩ | ⟨q1, _⟩
  · simp only at q1
    rw [r1] at q1
    injection q1 with q1
    injection q1 with q1
    subst q1
    exact q2
  · exfalso
    rcases q1 with q1 | q1
    · exact q1 (by simp only [Tre.tag, htag.rstrip, latin1Dec_utf8Enc htag.ascii])
    · exact q1 R r1

/-- C19: whatever the input, the class accepts it only if the tag is its own and the declared
length is the number of bytes its fields consume. -/
theorem C19_length_checked {tag : Str} {d : Desc} {b rest : Bytes} {t : Tre P.F}
    (h : readKnown P tag d b = .ok (t, rest)) :
    utf8Dec (rstripB (b.take 6)) = .ok tag ∧ ∃ R, t = .known tag d R ∧
      readStruct P d false (b.drop 11) = .ok (R, rest) ∧
      pyIntB ((b.drop 6).take 5) = .ok ((b.drop 11).length - rest.length : Nat) := by
  unfold readKnown at h
  cases h1 : utf8Dec (rstripB (b.take 6)) with
  | error e => rw [h1] at h; cases h
  | ok tag' =>
    rw [h1] at h
    simp only at h
    split at h
    · cases h
    · rename_i htag
      cases h2 : pyIntB ((b.drop 6).take 5) with
      | error e => rw [h2] at h; cases h
      | ok cel =>
        rw [h2] at h
        simp only at h
        cases h3 : readStruct P d false (b.drop 11) with
        | error e => rw [h3] at h; cases h
        | ok r =>
          obtain ⟨R, r⟩ := r
          rw [h3] at h
          simp only at h
          split at h
          · cases h
          · rename_i hl
            injection h with h
            injection h with ha hb
            subst hb
            simp only [ne_eq, Decidable.not_not] at htag hl
            exact ⟨by rw [htag], R, ha.symm, rfl, by rw [hl]⟩

/-- Tags that are not ASCII are outside C19: the tag is padded to six characters, not bytes, so
the frame is shifted by one byte; reading it back gives an empty body and leaves two bytes. -/
theorem C19_non_ascii_tag : ∃ b : Bytes, treWrite P0 (.unknown "É".toList [7]) = .ok b ∧
    (readUnknown P0 b).map (fun r => (r.1.tag, r.1.body P0, r.2)) =
      .ok ("É".toList, .ok [], [49, 7]) :=
  ⟨[0xC3, 0x89, 32, 32, 32, 32, 32, 48, 48, 48, 48, 49, 7], by decide +kernel,
    by decide +kernel⟩

/-- A concrete case for the theorems above: an STDIDC-like tag of fewer than six characters. -/
example : TagOk "ABC".toList ∧
    treWrite P0 (.unknown "ABC".toList [1, 2, 3]) = .ok (asc "ABC   00003" ++ [1, 2, 3]) ∧
    (readUnknown P0 (asc "ABC   00003" ++ [1, 2, 3, 9])).map (fun r => (r.1.tag, r.2)) =
      .ok ("ABC".toList, [9]) := by
  refine ⟨⟨by decide, by decide, by decide⟩, by decide +kernel, by decide +kernel⟩

/-! ### C20 -/

/-- C20.  The area written for a list of TREs is read back as the same list, in order. -/
theorem C20_area_round_trip {reg : Registry} (hreg : reg.Causal) {ts : List (Tre P.F)}
    (hg : ∀ t ∈ ts, Representable P reg t) {ser : List Bytes} (h : treWriteAll P ts = .ok ser) :
    ∃ us, readTreData P reg ser.flatten = .ok us ∧ Each (SameTre P) ts us :=
  area_round P hreg (treWriteAll_each P h) hg

/-- Every TRE of a shipped class whose values fit their fields is representable. -/
theorem C20_shipped_representable {t : String × Desc} (ht : t ∈ Tables.tres) {S : Store P.F}
    (hrep : ∀ cs, writeChunks P t.2 S = .ok cs → ∀ ch ∈ cs, Survives P t.2 S ch) :
    Representable P shippedRegistry (.known t.1.toList t.2 S) :=
  ⟨shipped_tagOk t ht, shippedRegistry_lookup t ht, tables_causal t (mem_all_of_tres ht),
    tables_wf t (mem_all_of_tres ht), hrep⟩

/-- C20 for the shipped classes. -/
theorem C20_shipped {ts : List (Tre P.F)} (hg : ∀ t ∈ ts, Representable P shippedRegistry t)
    {ser : List Bytes} (h : treWriteAll P ts = .ok ser) :
    ∃ us, readTreData P shippedRegistry ser.flatten = .ok us ∧ Each (SameTre P) ts us :=
  C20_area_round_trip P shippedRegistry_causal hg h

/-- Two classes, one a prefix table, and a list mixing known and unknown TREs. -/
def exReg : Registry := [("EXAMPL".toList, exDesc)]

def exTres : List (Tre P0.F) :=
  [.unknown "ABC".toList [1, 2], .known "EXAMPL".toList exDesc exStore, .unknown "XYZXYZ".toList []]

theorem exTres_representable : ∀ t ∈ exTres, Representable P0 exReg t := by
  intro t ht
  simp only [exTres, List.mem_cons, List.not_mem_nil, or_false] at ht
  rcases ht with rfl | rfl | rfl
  · exact ⟨⟨by decide, by decide, by decide⟩, by decide +kernel⟩
  · refine ⟨⟨by decide, by decide, by decide⟩, by decide +kernel, exDesc_causal, exDesc_wf, ?_⟩
    intro cs hcs ch hch fi hfi hnm
    rw [exStore_writes] at hcs
    injection hcs with hcs
    subst hcs
    have hall : ∀ f ∈ exDesc.tab, f.fd.opaqueText = false ∧ (f.fd.ty = .str → f.fd.optional = false) := by
      decide
    obtain ⟨h1, h2⟩ := hall fi (List.mem_of_getElem? hfi)
    have hs : ∃ v, stored exStore fi.fd ch.pos ch.key = .val v := by
      unfold stored
      cases hS : exStore ch.pos ch.key with
      | none => exact ⟨_, rfl⟩
      | some c =>
        unfold exStore at hS
        simp only [Store.set, Store.empty] at hS
        repeat' split at hS
        all_goals first | (injection hS with hS; subst hS; exact ⟨_, rfl⟩) | cases hS
    obtain ⟨v, hv⟩ := hs
    rw [hv]
    simp only
    intro w _
    unfold ValRep
    cases w with
    | none => trivial
    | _ =>
      simp only [h1, Bool.false_eq_true, if_false]
      split
      · rename_i h
        rw [h2 h.1] at h
        cases h.2
      · trivial
  · exact ⟨⟨by decide, by decide, by decide⟩, by decide +kernel⟩

example : ∃ ser, treWriteAll P0 exTres = .ok ser ∧ ser.flatten =
    asc "ABC   00002" ++ [1, 2] ++ asc "EXAMPL0001603Y007NY   002hi" ++ asc "XYZXYZ00000" := by
  exact ⟨[asc "ABC   00002" ++ [1, 2], asc "EXAMPL0001603Y007NY   002hi", asc "XYZXYZ00000"],
    by decide +kernel, by decide +kernel⟩

/-! ### C21 -/

/-- What becomes of a frame with tag `tag`: parsed by its class if the class can parse exactly its
body, otherwise kept as an unknown TRE with its tag and its exact bytes. -/
def KeptAs (reg : Registry) (f : Frame) (u : Tre P.F) : Prop :=
  u.tag = latin1Dec (rstripB f.tag) ∧
  match u with
  | .known tag d R => reg.lookup f.tag = some (tag, d) ∧ readStruct P d false f.body = .ok (R, [])
  | .unknown tag body => body = f.body ∧
      ∀ d, reg.lookup f.tag = some (tag, d) → ∀ R, readStruct P d false f.body ≠ .ok (R, [])

theorem keptAs_interp (reg : Registry) (f : Frame) : KeptAs P reg f (interp P reg f) := by
  unfold interp
  cases hl : reg.lookup f.tag with
  | none => exact ⟨rfl, rfl, by intro d h; rw [hl] at h; cases h⟩
  | some r =>
    obtain ⟨tag, d⟩ := r
    simp only
    split
    · rename_i ht
      refine ⟨rfl, rfl, ?_⟩
      intro d' h
      rw [hl] at h
      injection h with h
      injection h with h _
      exact absurd h.symm ht
    · rename_i ht
      simp only [ne_eq, Decidable.not_not] at ht
      split
      · rename_i R hr
        exact ⟨by simp only [Tre.tag]; exact ht.symm, hl, hr⟩
      · rename_i hr
        refine ⟨rfl, rfl, ?_⟩
        intro d' h R h'
        rw [hl] at h
        injection h with h
        injection h with _ h
        subst h
        exact hr R h'

/-- C21.  Any area with intact framing is read completely; each TRE is parsed by its class or kept
byte for byte, whatever its neighbours contain. -/
theorem C21_nothing_lost {reg : Registry} (hreg : reg.Causal) (fs : List Frame)
    (h : ∀ f ∈ fs, f.Ok) :
    ∃ us, readTreData P reg (fs.flatMap Frame.bytes) = .ok us ∧ Each (KeptAs P reg) fs us := by
  refine ⟨_, readTreData_frames P hreg fs h, ?_⟩
  clear h
  induction fs with
  | nil => exact .nil
  | cons f fs ih => exact .cons (keptAs_interp P reg f) ih

/-- C21: a frame kept as an unknown TRE is written back byte for byte, if its tag and length were
written in the usual way (tag padded with blanks, five digits). -/
theorem C21_unknown_rewritten {reg : Registry} {f : Frame} {tag : Str} (htag : TagOk tag)
    (h1 : f.tag = tagBytes tag) (h2 : f.len = lenBytes f.body.length) (h3 : f.body.length ≤ 99999)
    {t : Str} {body : Bytes} (hk : KeptAs P reg f (.unknown t body)) :
    treWrite P (.unknown t body) = .ok f.bytes := by
  obtain ⟨ht, hb, _⟩ := hk
  simp only [Tre.tag, h1, htag.rstrip, latin1Dec_utf8Enc htag.ascii] at ht
  subst ht
  subst hb
  unfold treWrite
  simp only [Tre.body, Tre.tag]
  rw [if_neg (by omega)]
  unfold Frame.bytes
  rw [h1, h2]

/-- A frame of a registered class with a body the class cannot parse, between two others. -/
example : ((readTreData P0 exReg (asc "EXAMPL0001603Y007NY   002hi" ++ asc "EXAMPL00002zz" ++
      asc "ABC   00001a")).map fun l => l.map fun t => (match t with
        | .known tag _ _ => (true, tag, [])
        | .unknown tag b => (false, tag, b) : Bool × Str × Bytes)) =
    .ok [(true, "EXAMPL".toList, []), (false, "EXAMPL".toList, asc "zz"),
      (false, "ABC".toList, asc "a")] := by decide +kernel

/-! ### C22 -/

/-- Specification of a placement of the serialisations `ser` into `n` header areas and an
overflow: `dest` assigns each one a place (`some i` for area `i`, `none` for the overflow), and
`content` of a place is the concatenation, in order, of what is assigned to it. -/
structure Placement (n : Nat) (ser : List Bytes) (dest : List (Option Nat)) : Prop where
  each : dest.length = ser.length
  area : ∀ k ∈ dest, ∀ i, k = some i → i < n

/-- Content of a place. -/
def content (ser : List Bytes) (dest : List (Option Nat)) (k : Option Nat) : Bytes :=
  (picks dest ser k).flatten

theorem holdsAll_get {d : Desc} {areas : List Area} {ps : List AreaPos} (H : HeaderAreas d areas ps)
    {S : Store P.F} {vs : List AreaVal} (hS : HoldsAll P d S ps vs) {i : Nat} {a : Area}
    (ha : areas[i]? = some a) : ∃ p v, vs[i]? = some v ∧ AreaAt d.tab a p ∧ Holds P d.tab S p v := by
  have h1 : i < ps.length := by rw [← H.at_.1]; exact lt_of_getElem? ha
  have h2 : i < vs.length := by rw [← Each.length hS]; exact h1
  refine ⟨ps[i], vs[i], List.getElem?_eq_getElem h2,
    H.at_.2 i a _ ha (List.getElem?_eq_getElem h1), ?_⟩
  exact Each.get hS i _ _ (List.getElem?_eq_getElem h1) (List.getElem?_eq_getElem h2)

/-- C22.  Whatever the state of the header, if the call succeeds then every TRE has gone whole to
exactly one place, in order; the header area that got some holds exactly them, and its length
field gives their length plus 3, which is below 99999; the new overflow segment holds the rest, and the
first area refers to it. -/
theorem C22_placement {d : Desc} {areas : List Area} {ps : List AreaPos}
    (H : HeaderAreas d areas ps) {S S' : Store P.F} {vs : List AreaVal}
    (hS : HoldsAll P d S ps vs) {ndes : Nat} {tres : List (Tre P.F)} {o : Option Bytes}
    (h : prepareTreWrite P d areas ndes tres S = .ok (S', o)) :
    ∃ ser dest, Each (fun t b => treWrite P t = .ok b) tres ser ∧
      Placement areas.length ser dest ∧
      (∀ (i : Nat) (a : Area), areas[i]? = some a → content ser dest (some i) ≠ [] →
        (content ser dest (some i)).length + 3 < 99999 ∧
        getAttr P d S' a.data [] = .ok (.bytes (content ser dest (some i))) ∧
        getAttr P d S' a.len [] = .ok (.int ((content ser dest (some i)).length + 3))) ∧
      (content ser dest none = [] → o = none) ∧
      (content ser dest none ≠ [] → o = some (content ser dest none) ∧
        ∃ a, areas[0]? = some a ∧ getAttr P d S' a.ofl [] = .ok (.int (ndes + 1))) := by
  cases hser : treWriteAll P tres with
  | error e => unfold prepareTreWrite at h; rw [hser] at h; cases h
  | ok ser =>
    obtain ⟨dest, d1, d2, d3, d4, d5, d6⟩ := place_spec ser (areas.map fun _ => []) []
    cases hpl : place ser (areas.map fun _ => []) [] with
    | mk heads ov =>
    rw [hpl] at d3 d4 d5 d6
    simp only [List.length_map, List.nil_append] at d2 d3 d4 d5 d6
    by_cases hc : ov ≠ [] ∧ ∀ v ∈ (List.zipWith AreaVal.store vs heads).head?, v.len = 0
    · rw [prepare_raises P H hS ndes hser hpl hc.1 hc.2] at h
      cases h
    · have hc' : ov ≠ [] → ∀ v ∈ (List.zipWith AreaVal.store vs heads).head?, v.len ≠ 0 := by
        intro h1 v hv h2
        refine hc ⟨h1, ?_⟩
        intro v' hv'
        rw [Option.mem_def] at hv hv'
        rw [hv] at hv'
        injection hv' with hv'
        rw [← hv']; exact h2
      obtain ⟨S2, p1, p2, _⟩ := prepare_spec P H hS ndes hser hpl hc'
      rw [p1] at h
      injection h with h
      injection h with ha hb
      subst ha
      have hvl : vs.length = areas.length := by rw [← Each.length hS, H.at_.1]
      have hat : ∀ (i : Nat) (a : Area), areas[i]? = some a →
          ∃ v p, vs[i]? = some v ∧ AreaAt d.tab a p ∧
            Holds P d.tab S2 p (if i = 0 ∧ ov ≠ [] then
              { v.store (content ser dest (some i)) with ofl := ndes + 1 }
              else v.store (content ser dest (some i))) := by
        intro i a hi
        obtain ⟨p, w, hw, h1, h2⟩ := holdsAll_get P H p2 hi
        have hlt : i < areas.length := lt_of_getElem? hi
        have hv : vs[i]? = some (vs[i]'(by omega)) := List.getElem?_eq_getElem (by omega)
        refine ⟨vs[i]'(by omega), p, hv, h1, ?_⟩
        have hz : (List.zipWith AreaVal.store vs heads)[i]? =
            some ((vs[i]'(by omega)).store (content ser dest (some i))) := by
          rw [List.getElem?_zipWith, hv, d4 i [] (by simp [hlt])]
          rfl
        unfold afterPrepare at hw
        cases hzz : List.zipWith AreaVal.store vs heads with
        | nil => rw [hzz] at hz; simp at hz
        | cons z zs =>
          rw [hzz] at hw hz
          simp only at hw
          cases i with
          | zero =>
            simp only [List.getElem?_cons_zero, Option.some.injEq] at hw hz
            rw [← hw, hz] at h2
            by_cases hov : ov = []
            · simpa [hov] using h2
            · simpa [hov] using h2
          | succ i =>
            simp only [List.getElem?_cons_succ] at hw hz
            rw [hz] at hw
            injection hw with hw
            rw [← hw] at h2
            simpa using h2
      refine ⟨ser, dest, treWriteAll_each P hser, ⟨d1, d2⟩, ?_, ?_, ?_⟩
      · intro i a hi hne
        obtain ⟨v, p, hv, h1, h2⟩ := hat i a hi
        have hlt : i < areas.length := lt_of_getElem? hi
        have hfit := d6 (by
          intro x hx
          obtain ⟨_, _, rfl⟩ := List.mem_map.mp hx
          unfold AreaFits; decide) _ (List.mem_of_getElem? (d4 i [] (by simp [hlt])))
        unfold AreaFits at hfit
        rw [List.nil_append] at hfit
        refine ⟨?_, ?_, ?_⟩
        · unfold content; omega
        · rw [h1.getData h2]
          congr 2
          split <;> simp [AreaVal.store, hne]
        · rw [h1.getLen h2]
          congr 2
          split <;> simp [AreaVal.store, hne]
      · intro h0
        rw [← hb, if_pos (by rw [d5]; exact h0)]
      · intro h0
        have hov : ov ≠ [] := by rw [d5]; exact h0
        refine ⟨by rw [← hb, if_neg hov, d5]; rfl, ?_⟩
        cases hA : areas with
        | nil => exact absurd hA H.nonempty
        | cons a as =>
          obtain ⟨v, p, hv, h1, h2⟩ := hat 0 a (by rw [hA]; rfl)
          refine ⟨a, rfl, ?_⟩
          rw [if_pos ⟨rfl, hov⟩] at h2
          rw [h1.getOfl H.causal h2]
          simp only
          refine hc' hov _ ?_
          rw [Option.mem_def, List.head?_eq_getElem?, List.getElem?_zipWith, hv,
            d4 0 [] (by simp [hA])]
          rfl

/-- C22: the content of all places together is the content of all TREs: nothing lost, nothing
twice. -/
theorem C22_nothing_lost {n : Nat} {ser : List Bytes} {dest : List (Option Nat)}
    (h : Placement n ser dest) :
    (picks dest ser none ++ (List.range' 0 n).flatMap fun i => picks dest ser (some i)).Perm ser := by
  have := picks_perm (ks := none :: (List.range' 0 n).map some) (α := Bytes) (by
    rw [List.nodup_cons]
    refine ⟨by simp, ?_⟩
    unfold List.Nodup
    rw [List.pairwise_map]
    exact (List.nodup_range' (s := 0) (n := n)).imp fun h he => h (Option.some.inj he))
    dest ser h.each (by
    intro k hk
    cases k with
    | none => simp
    | some i =>
      have := h.area _ hk i rfl
      refine List.mem_cons_of_mem _ (List.mem_map.mpr ⟨i, ?_, rfl⟩)
      rw [List.mem_range'_1]
      omega)
  rwa [List.flatMap_cons, List.flatMap_map] at this

/-- The call does not succeed for every list: if the areas are unused and all TREs are too large
for a header area, there is overflow but no place to refer to it from, and the call raises.  (The
overflow index may only be set if the length of the first area is not 0.) -/
theorem C22_all_large_raises {d : Desc} {areas : List Area} {ps : List AreaPos}
    (H : HeaderAreas d areas ps) {S : Store P.F} (hS : HoldsAll P d S ps (ps.map fun _ => unused))
    (ndes : Nat) {tag : Str} (htag : TagOk tag) {body : Bytes}
    (hb : 99985 ≤ body.length ∧ body.length ≤ 99999) :
    prepareTreWrite P d areas ndes [.unknown tag body] S = .error .runtime := by
  obtain ⟨b, hbw⟩ := (C19_too_long P (t := .unknown tag body) rfl).2 hb.2
  obtain ⟨body', h1, h2, _⟩ := C19_format P (t := .unknown tag body) htag hbw
  simp only [Tre.body] at h1
  injection h1 with h1
  subst h1
  have hser : treWriteAll P [(.unknown tag body : Tre P.F)] = .ok [b] := by
    simp [treWriteAll, hbw]
  have hpl : place [b] (areas.map fun _ => []) [] = (areas.map fun _ => [], b) := by
    have : placeOne b (areas.map fun _ => []) = none := by
      rw [placeOne_none_iff]
      intro h hh
      obtain ⟨_, _, rfl⟩ := List.mem_map.mp hh
      simp
      omega
    simp [place, this]
  refine prepare_raises P H hS ndes hser hpl ?_ ?_
  · intro h0; rw [h0] at h2; simp at h2; omega
  · intro v hv
    cases hA : areas with
    | nil => exact absurd hA H.nonempty
    | cons a as =>
      cases hp : ps with
      | nil => have := H.at_.1; rw [hA, hp] at this; simp at this
      | cons p ps' =>
        rw [hA, hp] at hv
        simp only [List.map_cons, List.zipWith_cons_cons, List.head?_cons, Option.mem_def,
          Option.some.injEq] at hv
        subst hv
        rfl

/-- The case above for a new file header. -/
example (ndes : Nat) : prepareTreWrite P Tables.t_file_header fileAreas ndes
    [.unknown "BIGTRE".toList (List.replicate 99990 0)] Store.empty = .error .runtime :=
  C22_all_large_raises P fileHeader_areas (fileHeader_fresh P) ndes
    ⟨by decide, by decide, by decide⟩ (by rw [List.length_replicate]; omega)

/-! ### C23 -/

/-- The areas `vs` of a header can take TREs of `total` bytes: each is unused, or it is in use and
`total` is more than the areas before it can hold (so it is going to be used again). -/
def Reusable (vs : List AreaVal) (total : Nat) : Prop :=
  ∀ (i : Nat) (v : AreaVal), vs[i]? = some v →
    v.len = 0 ∧ v.ofl = 0 ∨ 0 < v.len ∧ i * 99995 < total

theorem Reusable.fresh {vs : List AreaVal} (h : ∀ v ∈ vs, v = unused) {n : Nat} : Reusable vs n := by
  intro i v hv
  rw [h v (List.mem_of_getElem? hv)]
  exact Or.inl ⟨rfl, rfl⟩

theorem each_of_get {α β : Type} {R : α → β → Prop} : ∀ {as : List α} {bs : List β},
    as.length = bs.length → (∀ (i : Nat) a b, as[i]? = some a → bs[i]? = some b → R a b) →
    Each R as bs
  | [], [], _, _ => .nil
  | [], _ :: _, h, _ => by simp at h
  | _ :: _, [], h, _ => by simp at h
  | a :: as, b :: bs, h, hR => .cons (hR 0 a b rfl rfl)
      (each_of_get (by simpa using h) fun i a b h1 h2 => hR (i + 1) a b (by simpa using h1)
        (by simpa using h2))

/-- `C23_rearranged_partial` for any DES list that has the overflow data in its place. -/
theorem ready_readback {d : Desc} {areas : List Area} {ps : List AreaPos}
    (H : HeaderAreas d areas ps) {S : Store P.F} {vs : List AreaVal}
    (hS : HoldsAll P d S ps vs)
    {reg : Registry} (hreg : reg.Causal) {tres : List (Tre P.F)}
    (hg : ∀ t ∈ tres, Representable P reg t) {ser : List Bytes}
    (hser : treWriteAll P tres = .ok ser) (hsz : ∀ b ∈ ser, b.length < 99996)
    (hv : Reusable vs ser.flatten.length) (ndes : Nat) :
    ∃ S' o, prepareTreWrite P d areas ndes tres S = .ok (S', o) ∧
      ∃ qs, qs.Perm tres ∧ ∀ des : List (Except Err Bytes),
        (∀ b, o = some b → des[ndes]? = some (.ok b)) →
        ∃ us, readTre P reg d des areas S' = .ok us ∧ Each (SameTre P) qs us := by
  have hsz' : ∀ b ∈ ser, b ≠ [] ∧ b.length < 99996 := by
    intro b hb
    obtain ⟨t, ht, htb⟩ := (treWriteAll_each P hser).mem_right hb
    have := treWrite_ne_nil P htb (hg t ht).1
    exact ⟨fun h0 => by rw [h0] at this; simp at this, hsz b hb⟩
  cases hpl : place ser (areas.map fun _ => []) [] with
  | mk heads ov =>
  have hpl' : place ser (List.replicate areas.length []) [] = (heads, ov) := by
    rw [← hpl]; congr 1
    exact (List.map_const' ..).symm
  have hlen : heads.length = areas.length := by
    obtain ⟨_, _, _, h, _⟩ := place_spec ser (areas.map fun _ => []) []
    rw [hpl] at h
    simpa using h
  have hvl : vs.length = areas.length := by rw [← Each.length hS, H.at_.1]
  have hpos : 0 < areas.length := by
    cases hA : areas with
    | nil => exact absurd hA H.nonempty
    | cons _ _ => simp
  refine prepare_readback_gen P H hS hreg hg hser ndes hpl
    (each_of_get (by omega) ?_) ?_
  · intro i v h h1 h2
    have hi : i < areas.length := by rw [← hvl]; exact lt_of_getElem? h1
    rcases hv i v h1 with h3 | ⟨h3, h4⟩
    · exact ⟨fun _ => by omega, fun _ => by omega⟩
    · obtain ⟨h', e1, e2⟩ := place_reaches hsz' hi h4 hpl'
      rw [h2] at e1
      injection e1 with e1
      subst e1
      exact ⟨fun h => absurd h e2, fun _ => by omega⟩
  · intro hov hh
    have ht : 0 < ser.flatten.length := by
      cases hse : ser with
      | nil => rw [hse] at hpl; injection hpl with _ h2; exact absurd h2.symm hov
      | cons b bs =>
        have := (hsz' b (by simp [hse])).1
        have := List.length_pos_iff.mpr this
        rw [List.flatten_cons, List.length_append]
        omega
    obtain ⟨h', e1, e2⟩ := place_reaches hsz' hpos (by omega) hpl'
    rw [← List.head?_eq_getElem?, hh] at e1
    injection e1 with e1
    exact e2 e1.symm

/-- C23.  Every area is unused, or in use and needed again (`Reusable`); no TRE is larger than an
area.  Then the call succeeds, and reading the header (with the overflow segment, if any, added to
the DES list) gives a rearrangement of the list.  Missing for the full claim: other states of the
header, for which it is false (`C23_stale_area`), and TREs larger than an area
(`C22_all_large_raises`). -/
theorem C23_rearranged_partial {d : Desc} {areas : List Area} {ps : List AreaPos}
    (H : HeaderAreas d areas ps) {S : Store P.F} {vs : List AreaVal}
    (hS : HoldsAll P d S ps vs)
    {reg : Registry} (hreg : reg.Causal) {tres : List (Tre P.F)}
    (hg : ∀ t ∈ tres, Representable P reg t) {ser : List Bytes}
    (hser : treWriteAll P tres = .ok ser) (hsz : ∀ b ∈ ser, b.length < 99996)
    (hv : Reusable vs ser.flatten.length) (des : List (Except Err Bytes)) :
    ∃ S' o, prepareTreWrite P d areas des.length tres S = .ok (S', o) ∧
      ∃ qs us, qs.Perm tres ∧
        readTre P reg d (des ++ o.toList.map .ok) areas S' = .ok us ∧ Each (SameTre P) qs us := by
  obtain ⟨S', o, h1, qs, h2, h3⟩ := ready_readback P H hS hreg hg hser hsz hv des.length
  obtain ⟨us, h4, h5⟩ := h3 (des ++ o.toList.map .ok) (by intro b hb; simp [hb])
  exact ⟨S', o, h1, qs, us, h2, h4, h5⟩

/-- C23 for the shipped headers: TREs written to a new file header, image subheader or text
subheader are read back. -/
theorem C23_new_header_partial {d : Desc} {areas : List Area}
    (h : (d, areas) ∈ [(Tables.t_file_header, fileAreas), (Tables.t_image_subheader, imageAreas),
      (Tables.t_text_subheader, textAreas)])
    {reg : Registry} (hreg : reg.Causal) {tres : List (Tre P.F)}
    (hg : ∀ t ∈ tres, Representable P reg t) {ser : List Bytes}
    (hser : treWriteAll P tres = .ok ser) (hsz : ∀ b ∈ ser, b.length < 99996)
    (des : List (Except Err Bytes)) :
    ∃ S' o, prepareTreWrite P d areas des.length tres Store.empty = .ok (S', o) ∧
      ∃ qs us, qs.Perm tres ∧
        readTre P reg d (des ++ o.toList.map .ok) areas S' = .ok us ∧ Each (SameTre P) qs us := by
  simp only [List.mem_cons, List.not_mem_nil, or_false, Prod.mk.injEq] at h
  rcases h with ⟨rfl, rfl⟩ | ⟨rfl, rfl⟩ | ⟨rfl, rfl⟩
  · exact C23_rearranged_partial P fileHeader_areas (fileHeader_fresh P) hreg hg hser hsz
      (Reusable.fresh (by simp)) des
  · exact C23_rearranged_partial P imageHeader_areas (imageHeader_fresh P) hreg hg hser hsz
      (Reusable.fresh (by simp)) des
  · exact C23_rearranged_partial P textHeader_areas (textHeader_fresh P) hreg hg hser hsz
      (Reusable.fresh (by simp)) des

/-- C23, order: if in addition everything fits into the first area, there is no overflow and the
same list is read back, in the same order. -/
theorem C23_in_order_partial {d : Desc} {areas : List Area} {ps : List AreaPos}
    (H : HeaderAreas d areas ps) {S : Store P.F} {vs : List AreaVal}
    (hS : HoldsAll P d S ps vs)
    {reg : Registry} (hreg : reg.Causal) {tres : List (Tre P.F)}
    (hg : ∀ t ∈ tres, Representable P reg t) {ser : List Bytes}
    (hser : treWriteAll P tres = .ok ser) (hfit : ser.flatten.length < 99996)
    (hv : Reusable vs ser.flatten.length) (des : List (Except Err Bytes)) :
    ∃ S', prepareTreWrite P d areas des.length tres S = .ok (S', none) ∧
      ∃ us, readTre P reg d des areas S' = .ok us ∧ Each (SameTre P) tres us := by
  obtain ⟨v0, us, hvu⟩ : ∃ v0 us, vs = v0 :: us := by
    cases vs with
    | nil =>
      have := Each.length hS
      rw [← H.at_.1] at this
      exact absurd (List.length_eq_zero_iff.mp this) H.nonempty
    | cons v vs => exact ⟨v, vs, rfl⟩
  subst hvu
  revert us
  intro vs hS hv
  have h0 : 0 < v0.len ∨ v0.len = 0 ∧ v0.ofl = 0 := by
    rcases hv 0 v0 rfl with h | h
    · exact Or.inr h
    · exact Or.inl h.1
  have hvs : ∀ v ∈ vs, v.len = 0 ∧ v.ofl = 0 := by
    intro v hm
    obtain ⟨i, hi⟩ := List.mem_iff_getElem?.mp hm
    rcases hv (i + 1) v (by simpa using hi) with h | h
    · exact h
    · omega
  have hne : 0 < v0.len → tres ≠ [] := by
    intro h1 h2
    subst h2
    injection hser with hser
    subst hser
    rcases hv 0 v0 rfl with h | h
    · omega
    · simp at h
  have hE := treWriteAll_each P hser
  cases hA : areas with
  | nil => exact absurd hA H.nonempty
  | cons a as =>
    have hpl : place ser ((a :: as).map fun _ => []) [] =
        (ser.flatten :: as.map fun _ => [], []) := by
      rw [List.map_cons, place_first [] _ [] ser [] (by simpa using hfit)]
      simp
    rw [hA] at H
    obtain ⟨S', p1, p2, _⟩ := prepare_spec P H hS des.length hser hpl (by simp)
    rw [if_pos rfl] at p1
    refine ⟨S', p1, ?_⟩
    have hF : Fresh v0 ser.flatten := by
      refine ⟨?_, ?_⟩
      · intro hz
        have hW : Written P reg tres [] := ⟨hg, ser, hE, hz.symm⟩
        have := written_nil P hW
        rcases h0 with h0 | h0
        · exact absurd this (hne h0)
        · omega
      · intro hv
        rcases h0 with h0 | h0 <;> omega
    have hvl : vs.length = as.length := by
      have := Each.length hS; have h2 := H.at_.1; simp only [List.length_cons] at *; omega
    have hB : ∀ (ws : List AreaVal) (bs : List Area), (∀ v ∈ ws, v.len = 0 ∧ v.ofl = 0) →
        ws.length = bs.length →
        BlobsOf des (List.zipWith AreaVal.store ws (bs.map fun _ => [])) (ws.map fun _ => []) := by
      intro ws
      induction ws with
      | nil => intro bs _ _; cases bs <;> exact .nil
      | cons w ws ih =>
        intro bs hw hl
        cases bs with
        | nil => simp at hl
        | cons b bs =>
          have := hw w (by simp)
          refine .cons ?_ (ih bs (fun v hv => hw v (by simp [hv])) (by simpa using hl))
          simpa using store_blobs (v := w) (h := []) ⟨fun _ => by omega, fun _ => by omega⟩ des
    have hap : afterPrepare des.length (v0 :: vs) (ser.flatten :: as.map fun _ => []) [] =
        v0.store ser.flatten :: List.zipWith AreaVal.store vs (as.map fun _ => []) := by
      unfold afterPrepare
      rw [List.zipWith_cons_cons]
      simp
    rw [hap] at p2
    rw [readTre_holds P H p2 reg (.cons (store_blobs hF des) (hB vs as hvs hvl))]
    have hnil : (vs.map fun _ => ([] : List Bytes)).flatten = [] := by simp
    rw [List.flatten_cons, hnil, List.append_nil]
    obtain ⟨us, u1, u2⟩ := area_round P hreg hE hg
    by_cases hz : ser.flatten = []
    · rw [if_pos hz]
      have hW : Written P reg tres [] := ⟨hg, ser, hE, hz.symm⟩
      have := written_nil P hW
      subst this
      exact ⟨[], rfl, .nil⟩
    · rw [if_neg hz]
      unfold parseBlobs
      rw [u1]
      exact ⟨us, by simp [parseBlobs], u2⟩

/-- A case of the theorem: a new file header and three TREs. -/
example : ∃ S', prepareTreWrite P0 Tables.t_file_header fileAreas 0 exTres Store.empty =
      .ok (S', none) ∧
    ∃ us, readTre P0 exReg Tables.t_file_header [] fileAreas S' = .ok us ∧
      Each (SameTre P0) exTres us :=
  C23_in_order_partial P0 fileHeader_areas (fileHeader_fresh P0) (by intro e he; simp [exReg] at he; subst he; exact exDesc_causal)
    exTres_representable
    (ser := [asc "ABC   00002" ++ [1, 2], asc "EXAMPL0001603Y007NY   002hi", asc "XYZXYZ00000"])
    (by decide +kernel) (by decide +kernel) (Reusable.fresh (by simp)) []

/-- Two TREs that do not fit into one area. -/
def exBig : List (Tre P0.F) :=
  [.unknown "BIGTRA".toList (List.replicate 60000 1), .unknown "BIGTRB".toList (List.replicate 60000 2)]

/-- A case of `C23_rearranged_partial` with both areas in use: two TREs are written to a new file
header (one into each area) and then written again. -/
example : ∃ S1 o1 S2 o2 qs us,
    prepareTreWrite P0 Tables.t_file_header fileAreas 0 exBig Store.empty = .ok (S1, o1) ∧
    prepareTreWrite P0 Tables.t_file_header fileAreas 0 exBig S1 = .ok (S2, o2) ∧
    qs.Perm exBig ∧
    readTre P0 [] Tables.t_file_header (o2.toList.map .ok) fileAreas S2 = .ok us ∧
    Each (SameTre P0) qs us := by
  have hg : ∀ t ∈ exBig, Representable P0 [] t := by
    intro t ht
    simp only [exBig, List.mem_cons, List.not_mem_nil, or_false] at ht
    rcases ht with rfl | rfl
    · exact ⟨⟨by decide, by decide, by decide⟩, rfl⟩
    · exact ⟨⟨by decide, by decide, by decide⟩, rfl⟩
  have hw : ∀ t ∈ exBig, ∃ b, treWrite P0 t = .ok b ∧ b.length = 60011 := by
    intro t ht
    have hb : ∃ body, t.body P0 = .ok body ∧ body.length = 60000 := by
      simp only [exBig, List.mem_cons, List.not_mem_nil, or_false] at ht
      rcases ht with rfl | rfl
      · exact ⟨_, rfl, List.length_replicate⟩
      · exact ⟨_, rfl, List.length_replicate⟩
    obtain ⟨body, b1, b2⟩ := hb
    obtain ⟨b, hb⟩ := (C19_too_long P0 b1).2 (by omega)
    obtain ⟨body', c1, c2, _⟩ := C19_format P0 (hg t ht).1 hb
    rw [b1] at c1
    injection c1 with c1
    subst c1
    exact ⟨b, hb, by omega⟩
  obtain ⟨b1, w1, l1⟩ := hw _ (List.mem_cons_self : _ ∈ exBig)
  obtain ⟨b2, w2, l2⟩ := hw _ (List.mem_cons_of_mem _ List.mem_cons_self : _ ∈ exBig)
  have hser : treWriteAll P0 exBig = .ok [b1, b2] := by
    simp only [exBig, treWriteAll, w1, w2]
  have hpl : place [b1, b2] (fileAreas.map fun _ => []) [] = ([b1, b2], []) := by
    simp [fileAreas, place, placeOne, l1, l2]
  obtain ⟨S1, p1, p2, _⟩ := prepare_spec P0 fileHeader_areas (fileHeader_fresh P0) 0 hser hpl
    (by simp)
  obtain ⟨S2, o2, q1, qs, us, q2, q3, q4⟩ := C23_rearranged_partial P0 fileHeader_areas p2
    (reg := []) (by intro e he; cases he) hg hser
    (by intro b hb; simp at hb; rcases hb with rfl | rfl <;> omega) (by
      have hz : b1 ≠ [] ∧ b2 ≠ [] :=
        ⟨fun h => by rw [h] at l1; simp at l1, fun h => by rw [h] at l2; simp at l2⟩
      intro i v hv
      right
      simp only [afterPrepare, List.zipWith_cons_cons, List.zipWith_nil_left, if_true,
        AreaVal.store, hz.1, hz.2, if_false] at hv
      rcases i with _ | _ | i
      · simp at hv; subst hv; simp [l1, l2]
      · simp at hv; subst hv; simp [l1, l2]
      · simp at hv) []
  exact ⟨S1, _, S2, o2, qs, us, p1, q1, q2, by simpa using q3, q4⟩

/-- A file header with one TRE in its second area (UDHD), as read from a file. -/
def staleHeader : Except Err (Store P0.F) :=
  setA P0 Tables.t_file_header Store.empty (n!"udhd") (.bytes (asc "ABC   00002hi"))

/-- Tags of the TREs read. -/
def tagsOf (r : Except Err (List (Tre P0.F))) : Except Err (List Str) := r.map fun l => l.map Tre.tag

/-- Negation of C23 for arbitrary header states: a header with a TRE in its second area is read,
the list is written back unchanged, and reading again gives the TRE twice. -/
theorem C23_stale_area :
    tagsOf (do
        let S ← staleHeader
        readTre P0 [] Tables.t_file_header [] fileAreas S) =
      .ok ["ABC".toList] ∧
    tagsOf (do
         let S ← staleHeader
         let ts ← readTre P0 [] Tables.t_file_header [] fileAreas S
         let (S', _) ← prepareTreWrite P0 Tables.t_file_header fileAreas 0 ts S
         readTre P0 [] Tables.t_file_header [] fileAreas S') =
      .ok ["ABC".toList, "ABC".toList] := by
  constructor <;> decide +kernel

/-! ### C24 -/

/-- C24.  An area that gets TREs holds exactly these afterwards, and a reference to an old
overflow segment is dropped.  Missing: areas that get none are not cleared, see
`C24_never_cleared`. -/
theorem C24_replaced_partial {d : Desc} {areas : List Area} {ps : List AreaPos}
    (H : HeaderAreas d areas ps) {S S' : Store P.F} {vs : List AreaVal}
    (hS : HoldsAll P d S ps vs) {ndes : Nat} {tres : List (Tre P.F)} {ser : List Bytes}
    (hser : treWriteAll P tres = .ok ser) (hfit : ser.flatten.length < 99996)
    (hne : ser.flatten ≠ []) (h : prepareTreWrite P d areas ndes tres S = .ok (S', none)) :
    ∀ a, areas[0]? = some a → getAttr P d S' a.data [] = .ok (.bytes ser.flatten) ∧
      getAttr P d S' a.len [] = .ok (.int (ser.flatten.length + 3)) ∧
      ∀ v, vs[0]? = some v → 0 < v.len → getAttr P d S' a.ofl [] = .ok (.int 0) := by
  intro a ha
  cases hA : areas with
  | nil => rw [hA] at ha; simp at ha
  | cons a' as =>
    have hpl : place ser (areas.map fun _ => []) [] =
        (ser.flatten :: as.map fun _ => [], []) := by
      rw [hA, List.map_cons, place_first [] _ [] ser [] (by simpa using hfit)]
      simp
    obtain ⟨S2, p1, p2, _⟩ := prepare_spec P H hS ndes hser hpl (by simp)
    rw [h] at p1
    injection p1 with p1
    injection p1 with p1
    subst p1
    obtain ⟨p, v, hv, h1, h2⟩ := holdsAll_get P H p2 ha
    unfold afterPrepare at hv
    cases hvs : vs with
    | nil => rw [hvs] at hv; simp at hv
    | cons v0 vs =>
      rw [hvs, List.zipWith_cons_cons] at hv
      simp only [if_true, List.getElem?_cons_zero, Option.some.injEq] at hv
      subst hv
      refine ⟨?_, ?_, ?_⟩
      · rw [h1.getData h2]; simp [AreaVal.store, hne]
      · rw [h1.getLen h2]; simp [AreaVal.store, hne]
      · intro w hw hl
        simp only [List.getElem?_cons_zero, Option.some.injEq] at hw
        subst hw
        rw [h1.getOfl H.causal h2 (by simp only [AreaVal.store, hne, if_false]; omega)]
        simp [AreaVal.store, hl]

/-- Negation of C24, for every header and every state: writing an empty list of TREs leaves the
data of every area, and its length, as they were. -/
theorem C24_never_cleared {d : Desc} {areas : List Area} {ps : List AreaPos}
    (H : HeaderAreas d areas ps) {S : Store P.F} {vs : List AreaVal}
    (hS : HoldsAll P d S ps vs) (ndes : Nat) :
    ∃ S', prepareTreWrite P d areas ndes [] S = .ok (S', none) ∧ ∀ a ∈ areas,
      getAttr P d S' a.data [] = getAttr P d S a.data [] ∧
      getAttr P d S' a.len [] = getAttr P d S a.len [] := by
  obtain ⟨S', p1, p2, _⟩ := prepare_spec P H hS ndes (tres := []) (ser := []) rfl
    (heads := areas.map fun _ => []) (ov := []) rfl (by simp)
  refine ⟨S', by simpa using p1, ?_⟩
  intro a ha
  obtain ⟨i, hi⟩ := List.mem_iff_getElem?.mp ha
  obtain ⟨p, v, hv, h1, h2⟩ := holdsAll_get P H hS hi
  obtain ⟨p', w, hw, h1', h2'⟩ := holdsAll_get P H p2 hi
  have hst : w = v.store [] := by
    unfold afterPrepare at hw
    have hz : (List.zipWith AreaVal.store vs (areas.map fun _ => []))[i]? = some (v.store []) := by
      rw [List.getElem?_zipWith, hv, List.getElem?_map, hi]
      rfl
    cases hzz : List.zipWith AreaVal.store vs (areas.map fun _ => []) with
    | nil => rw [hzz] at hz; simp at hz
    | cons z zs =>
      rw [hzz] at hw hz
      simp only [if_true] at hw
      rw [hz] at hw
      injection hw with hw
      exact hw.symm
  subst hst
  rw [h1.getData h2, h1.getLen h2, h1'.getData h2', h1'.getLen h2']
  exact ⟨rfl, rfl⟩

/-- A header with a TRE, from which the TRE is removed: it is still there. -/
theorem C24_still_there :
    tagsOf (do
         let S ← staleHeader
         let (S', _) ← prepareTreWrite P0 Tables.t_file_header fileAreas 0 [] S
         readTre P0 [] Tables.t_file_header [] fileAreas S') =
      .ok ["ABC".toList] := by
  decide +kernel

/-! ### C40 -/

/-- C40: `find_tre` returns the longest sublist of TREs with the tag. -/
theorem C40_find_tre {F : Type} (l : List (Tre F)) (tag : Str) :
    (findTre l tag).Sublist l ∧ (∀ t ∈ findTre l tag, t.tag = tag) ∧
      ∀ s : List (Tre F), s.Sublist l → (∀ t ∈ s, t.tag = tag) → s.Sublist (findTre l tag) := by
  refine ⟨List.filter_sublist, ?_, ?_⟩
  · intro t ht
    have := (List.mem_filter.mp ht).2
    simpa using this
  · intro s hs ht
    have h1 : s.filter (fun t => t.tag == tag) = s := by
      rw [List.filter_eq_self]
      intro t h
      simpa using ht t h
    rw [← h1]
    exact hs.filter _

theorem findTre_none {F : Type} {l : List (Tre F)} {tag : Str} :
    findTre l tag = [] ↔ ∀ t ∈ l, t.tag ≠ tag := by
  unfold findTre
  rw [List.filter_eq_nil_iff]
  simp

theorem findTre_split {F : Type} {tag : Str} {t : Tre F} {r : List (Tre F)} :
    ∀ {l : List (Tre F)}, findTre l tag = t :: r →
      ∃ a b, l = a ++ t :: b ∧ t.tag = tag ∧ (∀ u ∈ a, u.tag ≠ tag) ∧ findTre b tag = r
  | [], h => by cases h
  | u :: l, h => by
    unfold findTre at h
    rw [List.filter_cons] at h
    by_cases hu : u.tag = tag
    · rw [if_pos (by simpa using hu)] at h
      injection h with h1 h2
      subst h1
      exact ⟨[], l, rfl, hu, by simp, h2⟩
    · rw [if_neg (by simpa using hu)] at h
      obtain ⟨a, b, h1, h2, h3, h4⟩ := findTre_split (l := l) h
      refine ⟨u :: a, b, by rw [h1]; rfl, h2, ?_, h4⟩
      intro v hv
      rcases List.mem_cons.mp hv with rfl | hv
      · exact hu
      · exact h3 v hv

/-- `l` has exactly one TRE with the tag, namely `t`. -/
def OnlyOne {F : Type} (l : List (Tre F)) (tag : Str) (t : Tre F) : Prop :=
  ∃ a b, l = a ++ t :: b ∧ t.tag = tag ∧ (∀ u ∈ a, u.tag ≠ tag) ∧ ∀ u ∈ b, u.tag ≠ tag

/-- `l` has at least two TREs with the tag (at different places). -/
def TwoOrMore {F : Type} (l : List (Tre F)) (tag : Str) : Prop :=
  ∃ a t b u c, l = a ++ t :: b ++ u :: c ∧ t.tag = tag ∧ u.tag = tag

/-- C40: the three cases of `find_one_tre` and `find_exactly_one_tre`. -/
theorem C40_find_one {F : Type} (l : List (Tre F)) (tag : Str) :
    ((∀ t ∈ l, t.tag ≠ tag) ∧ findOneTre l tag = .ok none ∧
      findExactlyOneTre l tag = .error .runtime) ∨
    (∃ t, OnlyOne l tag t ∧ findOneTre l tag = .ok (some t) ∧ findExactlyOneTre l tag = .ok t) ∨
    (TwoOrMore l tag ∧ findOneTre l tag = .error .runtime ∧
      findExactlyOneTre l tag = .error .runtime) := by
  unfold findExactlyOneTre findOneTre
  cases h : findTre l tag with
  | nil => exact .inl ⟨findTre_none.mp h, rfl, rfl⟩
  | cons t r =>
    obtain ⟨a, b, h1, h2, h3, h4⟩ := findTre_split h
    cases r with
    | nil => exact .inr (.inl ⟨t, ⟨a, b, h1, h2, h3, findTre_none.mp h4⟩, rfl, rfl⟩)
    | cons u r =>
      obtain ⟨a', b', g1, g2, _⟩ := findTre_split h4
      exact .inr (.inr ⟨⟨a, t, a', u, b', by rw [h1, g1]; simp, h2, g2⟩, rfl, rfl⟩)

/-- The three cases exclude each other. -/
theorem C40_cases_exclusive {F : Type} (l : List (Tre F)) (tag : Str) :
    (∀ t, OnlyOne l tag t → ∃ t ∈ l, t.tag = tag) ∧
    (TwoOrMore l tag → ∃ t ∈ l, t.tag = tag) ∧
    (∀ t, OnlyOne l tag t → ¬ TwoOrMore l tag) := by
  refine ⟨?_, ?_, ?_⟩
  · rintro t ⟨a, b, rfl, h, _⟩
    exact ⟨t, by simp, h⟩
  · rintro ⟨a, t, b, u, c, rfl, h, _⟩
    exact ⟨t, by simp, h⟩
  · rintro t ⟨a, b, h1, h2, h3, h4⟩ ⟨a', t', b', u', c', g1, g2, g3⟩
    have e1 : (l.filter fun t => t.tag == tag).length = 1 := by
      rw [h1, List.filter_append, List.filter_cons_of_pos (by simpa using h2),
        List.filter_eq_nil_iff.mpr (by simpa using h3),
        List.filter_eq_nil_iff.mpr (by simpa using h4)]
      rfl
    rw [g1] at e1
    simp [List.filter_append, List.filter_cons_of_pos, g2, g3] at e1
    omega

example : findOneTre exTres "ABC".toList = .ok (some (.unknown "ABC".toList [1, 2])) ∧
    OnlyOne exTres "ABC".toList (.unknown "ABC".toList [1, 2]) := by
  refine ⟨rfl, [], _, rfl, rfl, by simp, ?_⟩
  intro u hu
  simp only [List.mem_cons, List.not_mem_nil, or_false] at hu
  rcases hu with rfl | rfl <;> decide

/-! ### C52 -/

/-- Negation of C52: reading the TREs of any graphic segment that has some raises an
AttributeError, because the library looks for the overflow index under a name ("sxsofl") which the
subheader does not have. -/
theorem C52_unreadable (reg : Registry) (des : List (Except Err Bytes)) {S : Store P.F} {l : Int}
    (h : getAttr P Tables.t_graphic_subheader S (n!"sxshdl") [] = .ok (.int l)) (hl : 0 < l) :
    readTre P reg Tables.t_graphic_subheader des graphicAreas S = .error .attr := by
  have hno : resolve Tables.t_graphic_subheader.tab (n!"sxsofl") = none := by decide +kernel
  unfold graphicAreas readTre attrPos
  simp only [h, asInt, Except.map, gt_iff_lt, hl, decide_true]
  simp only [getAttr, hno]

/-- A graphic subheader with a TRE. -/
example : ((setA P0 Tables.t_graphic_subheader Store.empty (n!"sxshd")
      (.bytes (asc "ABC   00002hi"))).bind fun S =>
    getAttr P0 Tables.t_graphic_subheader S (n!"sxshdl") []) = .ok (.int 16) := by decide +kernel

/-- C52 for graphic segments without TREs, the only ones that can be read. -/
theorem C52_no_tres_partial (reg : Registry) (des : List (Except Err Bytes)) {S : Store P.F} {l : Int}
    (h : getAttr P Tables.t_graphic_subheader S (n!"sxshdl") [] = .ok (.int l)) (hl : l ≤ 0) :
    readTre P reg Tables.t_graphic_subheader des graphicAreas S = .ok [] := by
  unfold graphicAreas readTre attrPos
  have : decide (l > 0) = false := by simpa using hl
  simp only [h, asInt, Except.map, this]
  rfl

end Verif
