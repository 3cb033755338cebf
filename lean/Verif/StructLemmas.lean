import Verif.Update

/- Lemmas behind `Props/Struct.lean`. -/

namespace Verif

variable (P : PyFloat)

/-- A reserved (unnamed) row is plain text without a format. -/
def FieldDef.reservedOk (fd : FieldDef) : Bool :=
  fd.name.isSome || (fd.ty == .str && fd.frmt == none && !fd.optional)

/-- A chunk with the content of reserved fields blanked. -/
def blank (T : Tab) (ch : Chunk) : Chunk :=
  match T[ch.pos]? with
  | some fi => if fi.fd.name.isNone then { ch with bytes := List.replicate ch.bytes.length 32 } else ch
  | none => ch

theorem blank_slot (T : Tab) (ch : Chunk) : (blank T ch).slot = ch.slot := by
  unfold blank
  split
  · split
    · simp [Chunk.slot]
    · rfl
  · rfl

theorem latin1Enc_spaces (k : Nat) :
    latin1Enc (List.replicate k ' ') = .ok (List.replicate k 32) := by
  rw [latin1Enc_ok_iff]
  refine ⟨?_, ?_⟩
  · intro c hc
    rw [List.mem_replicate] at hc
    rw [hc.2]; decide
  · simp [List.map_replicate]

theorem reserved_bytes {l : Look P.F} {S : Store P.F} {fi : FInfo} {n : Nat} {key : Key} {k : Nat}
    (hn : fi.fd.name = none) (hr : fi.fd.reservedOk = true) (hS : S n key = none)
    (hsz : evalSize P l fi key = .ok (k : Int)) :
    fieldBytes P l S fi n key = .ok (List.replicate k 32) := by
  simp only [FieldDef.reservedOk, hn, Option.isSome_none, Bool.false_or, Bool.and_eq_true,
    beq_iff_eq, Bool.not_eq_true'] at hr
  obtain ⟨⟨h1, h2⟩, h3⟩ := hr
  unfold fieldBytes
  rw [hsz]
  simp only [stored, hS, lowGet, hn]
  unfold encodeVal
  simp only [h3, h1, formatVal, formatCore, h2]
  rw [if_neg (by omega)]
  simp only [pyStr, padRight, List.length_nil, Nat.sub_zero, List.nil_append, reduceCtorEq,
    if_false, Int.toNat_natCast, List.length_replicate, ne_eq, not_true_eq_false]
  exact latin1Enc_spaces k

/-- Literal read then write. -/
theorem literal_write {d : Desc} (hd : d.causal = true)
    (hres : d.allFields FieldDef.reservedOk = true) {b rest : Bytes} {R : Store P.F}
    (h : readStruct P d true b = .ok (R, rest)) :
    ∃ ins, b = chunkBytes ins ++ rest ∧ writeChunks P d R = .ok (ins.map (blank d.tab)) := by
  obtain ⟨ins, hb, _, hl, hcell, hr⟩ := readInto_facts P hd h
  refine ⟨ins, hb, ?_⟩
  unfold layout at hl
  refine writeD_of_slots P ?_ ?_
  · rw [hl, List.map_map]
    congr 1
    refine List.map_congr_left fun ch _ => ?_
    exact (blank_slot _ _).symm
  · intro ch' hch'
    obtain ⟨ch, hch, rfl⟩ := List.mem_map.mp hch'
    obtain ⟨_, _, _, fi, hfi, _, hsz⟩ :=
      layoutD_from P R d 0 [] _ hl ch.slot (List.mem_map.mpr ⟨ch, hch, rfl⟩)
    simp only [Chunk.slot] at hfi hsz
    cases hnm : fi.fd.name with
    | none =>
      have hb : blank d.tab ch = { ch with bytes := List.replicate ch.bytes.length 32 } := by
        simp only [blank, hfi, hnm, Option.isNone_none, if_true]
      rw [hb]
      refine ⟨fi, hfi, ?_⟩
      refine reserved_bytes P hnm (Desc.allFields_get hres hfi) ?_ hsz
      exact hr ch.pos ch.key fi hfi hnm
    | some nm =>
      have hb : blank d.tab ch = ch := by
        simp only [blank, hfi, hnm, Option.isNone_some, Bool.false_eq_true, if_false]
      rw [hb]
      refine ⟨fi, hfi, ?_⟩
      obtain ⟨v, hp, hc⟩ := hcell ch hch fi hfi (by simp [hnm])
      simp only [parseField, if_true] at hp
      injection hp with hp
      subst hp
      unfold fieldBytes
      rw [hsz]
      simp only [stored, hc, padRight, Int.toNat_natCast, Nat.sub_self, List.replicate_zero,
        List.append_nil, ne_eq, not_true_eq_false, if_false]

theorem Reach.of_slot {d : Desc} (hd : d.causal = true) {S : Store P.F} {cs : List Chunk}
    (hw : writeChunks P d S = .ok cs) {ch : Chunk} (hch : ch ∈ cs) :
    Reach P d.tab S ch.pos ch.key := (writeChunks_from P hd hw hch).1

/-- Visible fields agree at a reachable instance. -/
theorem AllSame.visAt {d : Desc} (hC : CausalTab d.tab) {S R : Store P.F}
    (h : AllSame P d.tab S R) {m : Nat} {fi : FInfo} (hm : d.tab[m]? = some fi) {key : Key}
    (hr : Reach P d.tab S m key) : VisSame P d.tab m fi.starts key S R := by
  obtain ⟨fi', hm', hl, hsh⟩ := hr
  rw [hm] at hm'
  injection hm' with hm'
  subst hm'
  have := AllSame.vis P hC h hm (key := key) (n := m) (j := key.length) (Nat.le_refl _)
    (Nat.le_refl _) (fun i e x _ he hx => hsh i e x he hx)
  rwa [List.take_of_length_le] at this
  rw [(fieldOk_starts (hC m fi hm)).1, hl]
  exact Nat.le_refl _

/-- The value under the field class: what `bytes` formats. -/
theorem lowGet_eq {d : Desc} (hC : CausalTab d.tab) {S R : Store P.F} {m : Nat} {fi : FInfo}
    (hm : d.tab[m]? = some fi) {key : Key}
    (hv : VisSame P d.tab m fi.starts key S R)
    (hS : fi.fd.value = none → fi.fd.name ≠ none →
      finish P fi.fd (stored S fi.fd m key) = finish P fi.fd (stored R fi.fd m key)) :
    lowGet P (look P d.tab S) S fi m key = lowGet P (look P d.tab R) R fi m key := by
  cases hnm : fi.fd.name with
  | none => unfold lowGet; rw [hnm]
  | some nm =>
    exact lowGet_congr P (hv.look P hC) (hC m fi hm) fun h => hS h (by simp [hnm])

/-- Reading what was written and writing again gives the same bytes. -/
theorem rewrite_same {d : Desc} (hd : d.causal = true) (hwf : d.allFields FieldDef.wf = true)
    {S : Store P.F} {cs : List Chunk} (hw : writeChunks P d S = .ok cs)
    (hs : ∀ ch ∈ cs, Survives P d S ch)
    (hnl : ∀ ch ∈ cs, ∀ fi, d.tab[ch.pos]? = some fi →
      ∃ v, stored S fi.fd ch.pos ch.key = .val v)
    {R : Store P.F} {rest : Bytes} (hA : AllSame P d.tab S R)
    (hR : readStruct P d false (chunkBytes cs ++ rest) = .ok (R, rest)) :
    writeChunks P d R = .ok cs := by
  have hC := Desc.causalTab hd
  obtain ⟨ins, hb, _, hl, hcell, hres⟩ := readInto_facts P hd hR
  have hl' : layout P d R = layout P d S :=
    layoutD_same P hC hA d 0 [] [] [] (at_top d hd) rfl (by intro m fi _ h; omega) (by simp)
  have hlS := writeD_layout P S d 0 [] cs hw
  have heq : ins = cs := by
    refine chunks_eq ?_ (List.append_cancel_right hb).symm
    rw [hl', show layout P d S = .ok (cs.map Chunk.slot) from hlS] at hl
    injection hl with hl
    exact hl.symm
  subst heq
  have hok := chunkOk_of_survives P hd hwf hw hs
  refine writeD_of_slots P hl ?_
  intro ch hch
  obtain ⟨hreach, fi, hfi, hc, hfb⟩ := writeChunks_from P hd hw hch
  refine ⟨fi, hfi, ?_⟩
  have hv := AllSame.visAt P hC hA hfi hreach
  have hlk := hv.look P hC
  obtain ⟨_, _, hkl, _⟩ := hreach
  rename_i hfi' _
  rw [hfi] at hfi'
  injection hfi' with hfi'
  subst hfi'
  have hk : fi.starts.length ≤ ch.key.length := by
    rw [(fieldOk_starts (hC _ fi hfi)).1, hkl]; exact Nat.le_refl _
  obtain ⟨v0, hv0⟩ := hnl ch hch fi hfi
  -- what R stores is a value, and finishes alike
  have hRs : ∃ v', stored R fi.fd ch.pos ch.key = .val v' ∧ (fi.fd.value = none → fi.fd.name ≠ none →
      finish P fi.fd (stored S fi.fd ch.pos ch.key) =
        finish P fi.fd (stored R fi.fd ch.pos ch.key)) := by
    cases hnm : fi.fd.name with
    | none =>
      have := hres ch.pos ch.key fi hfi hnm
      simp only [stored, this, Store.empty]
      exact ⟨_, rfl, fun _ h => absurd rfl h⟩
    | some nm =>
      obtain ⟨v, hp, hcl⟩ := hcell ch hch fi hfi (by simp [hnm])
      obtain ⟨v', hp', hf⟩ := hok ch hch fi hfi (by simp [hnm])
      rw [hp] at hp'
      injection hp' with hp'
      subst hp'
      have hval : ∃ x, v = .val x := by
        unfold parseField at hp
        simp only [Bool.false_eq_true, if_false] at hp
        split at hp
        · injection hp with hp; exact ⟨_, hp.symm⟩
        · split at hp
          · injection hp with hp; exact ⟨_, hp.symm⟩
          · injection hp with hp; exact ⟨_, hp.symm⟩
          · split at hp
            · cases hp
            · split at hp
              · injection hp with hp; exact ⟨_, hp.symm⟩
              · cases hp
          · split at hp
            · cases hp
            · split at hp
              · injection hp with hp; exact ⟨_, hp.symm⟩
              · cases hp
      obtain ⟨x, rfl⟩ := hval
      have hst : stored R fi.fd ch.pos ch.key = .val x := by simp only [stored, hcl]
      exact ⟨x, hst, fun h _ => by rw [hst]; exact hf h⟩
  obtain ⟨v', hv', hfin⟩ := hRs
  have hlow := lowGet_eq P hC hfi hv hfin
  rw [← hfb]
  unfold fieldBytes
  rw [← evalSize_congr P hlk hk (hC _ fi hfi), hv', hv0, hlow]

/-- `R` was read from what `S` was written to: it is written the same way, and holds in every piece
written a parsed value that reads like the one of `S`. -/
structure Loaded (d : Desc) (S R : Store P.F) (cs : List Chunk) : Prop where
  again : writeChunks P d R = .ok cs
  cell : ∀ ch ∈ cs, ∀ fi, d.tab[ch.pos]? = some fi → fi.fd.name ≠ none → fi.fd.value = none →
    ∃ v, stored R fi.fd ch.pos ch.key = v ∧ parseField P fi.fd false ch.bytes = .ok v ∧
      finish P fi.fd (stored S fi.fd ch.pos ch.key) = finish P fi.fd v

theorem loaded_of {d : Desc} (hd : d.causal = true) (hwf : d.allFields FieldDef.wf = true)
    {S : Store P.F} {cs : List Chunk} (hw : writeChunks P d S = .ok cs)
    (hs : ∀ ch ∈ cs, Survives P d S ch)
    (hnl : ∀ ch ∈ cs, ∀ fi, d.tab[ch.pos]? = some fi →
      ∃ v, stored S fi.fd ch.pos ch.key = .val v)
    {R : Store P.F} {rest : Bytes}
    (hR : readStruct P d false (chunkBytes cs ++ rest) = .ok (R, rest)) : Loaded P d S R cs := by
  have hok := chunkOk_of_survives P hd hwf hw hs
  obtain ⟨R', h1, hA⟩ := readInto_written P hd hw false hok Store.empty rest
  have he : R' = R := by
    unfold readStruct at hR
    rw [h1] at hR
    injection hR with hR
    injection hR
  subst he
  refine ⟨rewrite_same P hd hwf hw hs hnl hA hR, ?_⟩
  have hC := Desc.causalTab hd
  obtain ⟨ins, hb, _, hl, hcell, hres⟩ := readInto_facts P hd hR
  have hl' : layout P d R' = layout P d S :=
    layoutD_same P hC hA d 0 [] [] [] (at_top d hd) rfl (by intro m fi _ h; omega) (by simp)
  have hlS := writeD_layout P S d 0 [] cs hw
  have heq : ins = cs := by
    refine chunks_eq ?_ (List.append_cancel_right hb).symm
    rw [hl', show layout P d S = .ok (cs.map Chunk.slot) from hlS] at hl
    injection hl with hl
    exact hl.symm
  subst heq
  intro ch hch fi hfi hnm hval
  obtain ⟨v, hp, hcl⟩ := hcell ch hch fi hfi hnm
  obtain ⟨v', hp', hf⟩ := hok ch hch fi hfi hnm
  rw [hp] at hp'
  injection hp' with hp'
  subst hp'
  exact ⟨v, by simp only [stored, hcl], hp, hf hval⟩

/-- Each chunk is what the field's `bytes` gives. -/
theorem writeD_bytes {T : Tab} (S : Store P.F) (d : Desc) :
    ∀ (n : Nat) (key : Key) (cs : List Chunk), writeD P T S n key d = .ok cs →
      ∀ ch ∈ cs, ∀ fi, T[ch.pos]? = some fi →
        fieldBytes P (look P T S) S fi ch.pos ch.key = .ok ch.bytes := by
  induction d with
  | nil =>
    intro n key cs h ch hch
    simp only [writeD] at h; injection h with h; subst h; cases hch
  | field fd r ih =>
    intro n key cs h ch hch fi hfi
    simp only [writeD] at h
    cases hn : T[n]? with
    | none => rw [hn] at h; cases h
    | some fi' =>
      rw [hn] at h
      simp only at h
      cases hc : evalCond P (look P T S) fi' key with
      | error e => rw [hc] at h; cases h
      | ok b =>
        rw [hc] at h
        cases b with
        | false => exact ih _ _ cs h ch hch fi hfi
        | true =>
          simp only at h
          cases hb : fieldBytes P (look P T S) S fi' n key with
          | error e => rw [hb] at h; cases h
          | ok b =>
            rw [hb] at h
            simp only at h
            cases hw : writeD P T S (n + 1) key r with
            | error e => rw [hw] at h; cases h
            | ok cs1 =>
              rw [hw] at h
              simp only at h
              injection h with h
              subst h
              rw [List.mem_cons] at hch
              rcases hch with rfl | hch
              · simp only at hfi ⊢
                rw [hn] at hfi
                injection hfi with hfi
                subst hfi
                exact hb
              · exact ih _ _ cs1 hw ch hch fi hfi
  | loop e body r ihb ihr =>
    intro n key cs h ch hch fi hfi
    simp only [writeD] at h
    cases hsh : evalShape P (look P T S) e key with
    | error x => rw [hsh] at h; cases h
    | ok c =>
      rw [hsh] at h
      simp only at h
      cases h1 : forChunks (fun i => writeD P T S n (key ++ [i]) body) (indices c) with
      | error x => rw [h1] at h; cases h
      | ok cs1 =>
        rw [h1] at h
        simp only at h
        cases h2 : writeD P T S (n + body.count) key r with
        | error x => rw [h2] at h; cases h
        | ok cs2 =>
          rw [h2] at h
          simp only at h
          injection h with h
          subst h
          rw [List.mem_append] at hch
          rcases hch with hch | hch
          · obtain ⟨i, _, cs', hf, hm⟩ := forChunks_mem h1 hch
            exact ihb _ _ cs' hf ch hm fi hfi
          · exact ihr _ _ cs2 h2 ch hch fi hfi

/-- What an accepted assignment passed. -/
theorem setCheck_ok {T : Tab} {S : Store P.F} {n : Nat} {key : Key} {v v' : Val P.F} {fi : FInfo}
    (h : setCheck P T S n key v = .ok (fi, v')) :
    T[n]? = some fi ∧ packKind P (evalSize P (look P T S) fi key) fi.fd.kind v = .ok v' ∧
    fi.fd.name ≠ none ∧ checkIndex P (look P T S) fi key = .ok () ∧
    evalCond P (look P T S) fi key = .ok true ∧ fi.fd.hardcoded = false ∧ fi.fd.value = none ∧
    (v' = .none → fi.fd.optional = true) := by
  unfold setCheck at h
  cases hn : T[n]? with
  | none => rw [hn] at h; cases h
  | some f =>
    rw [hn] at h
    simp only at h
    cases hp : packKind P (evalSize P (look P T S) f key) f.fd.kind v with
    | error e => rw [hp] at h; cases h
    | ok w =>
      rw [hp] at h
      simp only at h
      split at h
      · cases h
      · rename_i hname
        cases hc : checkIndex P (look P T S) f key with
        | error e => rw [hc] at h; cases h
        | ok u =>
          rw [hc] at h
          simp only at h
          cases hcd : evalCond P (look P T S) f key with
          | error e => rw [hcd] at h; cases h
          | ok b =>
            rw [hcd] at h
            cases b with
            | false => cases h
            | true =>
              simp only at h
              split at h
              · cases h
              · rename_i hh
                split at h
                · cases h
                · rename_i ho
                  injection h with h
                  injection h with h1 h2
                  subst h1 h2
                  simp only [Bool.or_eq_true, not_or, Bool.not_eq_true,
                    Option.isSome_eq_false_iff, Option.isNone_iff_eq_none] at hh
                  refine ⟨rfl, hp, by simpa using hname, hc, hcd, hh.1, hh.2, ?_⟩
                  intro hv
                  subst hv
                  simpa [Val.isNone] using ho

/-- The state after a plain assignment. -/
theorem setItem_store {T : Tab} {S S' : Store P.F} {n : Nat} {key : Key} {v : Val P.F}
    {fi : FInfo} (hn : T[n]? = some fi) (hk : fi.fd.kind = .plain ∨ fi.fd.sizeNotUpdated = true)
    (h : setItem P T S n key v = (S', none)) :
    ∃ v', setCheck P T S n key v = .ok (fi, v') ∧ S' = S.set n key ⟨.val v', none⟩ := by
  unfold setItem at h
  have hb : budget T = T.length + 1 := rfl
  rw [hb] at h
  unfold setF at h
  cases hc : setCheck P T S n key v with
  | error e => rw [hc] at h; cases h
  | ok r =>
    obtain ⟨fi', v'⟩ := r
    have hfi : fi' = fi := by
      have := (setCheck_ok P hc).1
      rw [hn] at this
      injection this with this
      exact this.symm
    subst hfi
    rw [hc] at h
    simp only at h
    refine ⟨v', rfl, ?_⟩
    split at h
    · injection h with h _; exact h.symm
    · rename_i hkind
      cases hl : byteLen v' with
      | error e => rw [hl] at h; cases h
      | ok l =>
        rw [hl] at h
        simp only at h
        rcases hk with hk | hk
        · contradiction
        · rw [if_pos hk] at h
          split at h
          · cases h
          · split at h
            · cases h
            · injection h with h _; exact h.symm

/-- In-place update equals re-serialising. -/
theorem update_rewrite {d : Desc} {S S' : Store P.F} {n : Nat} {key : Key}
    {v : Val P.F} {fi : FInfo} (hn : d.tab[n]? = some fi)
    (hk : fi.fd.kind = .plain ∨ fi.fd.sizeNotUpdated = true) (hu : d.unreferenced n = true)
    {cs : List Chunk} (hw : writeChunks P d S = .ok cs)
    (hpres : ∃ ch ∈ cs, ch.pos = n ∧ ch.key = key)
    (hset : setItem P d.tab S n key v = (S', none)) (pre post : Bytes) (pos : Nat) :
    (∀ b, fieldBytes P (look P d.tab S') S' fi n key = .ok b →
      ∃ cs', writeChunks P d S' = .ok cs' ∧
        cs' = cs.map (fun ch => if ch.pos = n ∧ ch.key = key then { ch with bytes := b } else ch) ∧
        updateField P d cs pre.length S ⟨pre ++ chunkBytes cs ++ post, pos⟩ n key v =
          (S', .ok ⟨pre ++ chunkBytes cs' ++ post, pos⟩)) ∧
    (∀ e, fieldBytes P (look P d.tab S') S' fi n key = .error e →
      updateField P d cs pre.length S ⟨pre ++ chunkBytes cs ++ post, pos⟩ n key v =
        (S', .error e)) := by
  obtain ⟨v', _, hS'⟩ := setItem_store P hn hk hset
  have honly : OnlyField n S S' := by
    intro m k hmn
    rw [hS']
    unfold Store.set
    rw [if_neg (by rintro ⟨h, _⟩; exact hmn h)]
  have hlay := writeD_layout P S d 0 [] cs hw
  have hlay' : layoutD P d.tab S' 0 [] d = .ok (cs.map Chunk.slot) := by
    rw [layoutD_unref P hu honly d 0 [] fun _ h => h]; exact hlay
  obtain ⟨c0, hc0, hc0p⟩ := hpres
  obtain ⟨as, bs, rfl⟩ := List.append_of_mem hc0
  have hnd := layoutD_nodup P S d 0 [] _ hlay
  rw [List.map_append, List.map_append, List.map_cons, List.map_cons, List.nodup_append] at hnd
  obtain ⟨_, hnd2, hnd3⟩ := hnd
  rw [List.nodup_cons] at hnd2
  have hat : c0.slot.at = (n, key) := by simp only [Chunk.slot, Slot.at, hc0p.1, hc0p.2]
  have hbs : ∀ c ∈ bs, ¬ (c.pos = n ∧ c.key = key) := by
    intro c hc hp
    refine hnd2.1 (List.mem_map.mpr ⟨c.slot, List.mem_map.mpr ⟨c, hc, rfl⟩, ?_⟩)
    rw [hat]; simp only [Chunk.slot, Slot.at, hp.1, hp.2]
  have has : ∀ c ∈ as, ¬ (c.pos = n ∧ c.key = key) := by
    intro c hc hp
    refine hnd3 (n, key) (List.mem_map.mpr ⟨c.slot, List.mem_map.mpr ⟨c, hc, rfl⟩, ?_⟩)
      c0.slot.at (by simp) hat.symm
    simp only [Chunk.slot, Slot.at, hp.1, hp.2]
  have hloc := locOf_split (as := as) hc0p hbs pre.length
  have hsl : ∀ s ∈ (as ++ c0 :: bs).map Chunk.slot, _ := fun s hs =>
    layoutD_from P S' d 0 [] _ hlay' s hs
  have hc0s := hsl c0.slot (List.mem_map.mpr ⟨c0, hc0, rfl⟩)
  obtain ⟨_, _, _, fi', hfi', hcond, hsz⟩ := hc0s
  simp only [Chunk.slot, hc0p.1, hc0p.2] at hfi' hcond hsz
  rw [hn] at hfi'
  injection hfi' with hfi'
  subst hfi'
  constructor
  · intro b hb
    have hblen : c0.bytes.length = b.length := by
      have := fieldBytes_length P hb
      rw [hsz] at this
      injection this with this
      omega
    refine ⟨_, ?_, rfl, ?_⟩
    · refine writeD_of_slots P ?_ ?_
      · rw [hlay', List.map_map]
        congr 1
        refine List.map_congr_left fun ch hch => ?_
        simp only [Function.comp]
        split
        · rename_i h
          have : ch = c0 := by
            rw [List.mem_append, List.mem_cons] at hch
            rcases hch with hch | hch | hch
            · exact absurd h (has ch hch)
            · exact hch
            · exact absurd h (hbs ch hch)
          subst this
          simp only [Chunk.slot, hblen]
        · rfl
      · intro ch' hch'
        obtain ⟨ch, hch, rfl⟩ := List.mem_map.mp hch'
        split
        · rename_i h
          simp only [h.1, h.2]
          exact ⟨fi, hn, hb⟩
        · rename_i h
          obtain ⟨cs', hcs'⟩ : ∃ cs', writeChunks P d S = .ok cs' := ⟨_, hw⟩
          have hlay1 := layoutD_from P S d 0 [] _ hlay ch.slot (List.mem_map.mpr ⟨ch, hch, rfl⟩)
          obtain ⟨_, _, _, fi2, hfi2, _, _⟩ := hlay1
          refine ⟨fi2, hfi2, ?_⟩
          have ha := fieldAgree_unref P hu honly hfi2
          rw [ha.bytes P (S' := S)]
          · exact writeD_bytes P S d 0 [] _ hw ch hch fi2 hfi2
          · rw [hS']
            unfold Store.set
            rw [if_neg h]
    · unfold updateField
      rw [hset]
      simp only [hn, hcond, hloc, hb]
      congr 3
      rw [chunkBytes_append, chunkBytes_cons]
      have e1 : pre ++ (chunkBytes as ++ (c0.bytes ++ chunkBytes bs)) ++ post =
          (pre ++ chunkBytes as) ++ c0.bytes ++ (chunkBytes bs ++ post) := by
        simp only [List.append_assoc]
      rw [e1, ← List.length_append, overwrite_mid _ _ _ _ hblen]
      rw [List.map_append, List.map_cons, chunkBytes_append, chunkBytes_cons, if_pos hc0p]
      rw [List.map_congr_left (g := id) (l := as), List.map_congr_left (g := id) (l := bs)]
      · simp only [List.map_id, List.append_assoc]
      · intro c hc; rw [if_neg (hbs c hc)]; rfl
      · intro c hc; rw [if_neg (has c hc)]; rfl
  · intro e he
    unfold updateField
    rw [hset]
    simp only [hn, hcond, hloc, he]

end Verif
