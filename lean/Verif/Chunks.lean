import Verif.Represent

/- Where the written chunks come from, and when they read back. -/

namespace Verif

variable (P : PyFloat)

/-- `key` continues `k0` by indices inside the loops around the field. -/
structure ChunkFrom (T : Tab) (S : Store P.F) (n c : Nat) (key : Key) (ch : Chunk) : Prop where
  lo : n ≤ ch.pos
  hi : ch.pos < n + c
  pre : key <+: ch.key
  src : ∃ fi, T[ch.pos]? = some fi ∧ ch.key.length = fi.depth ∧
    evalCond P (look P T S) fi ch.key = .ok true ∧
    fieldBytes P (look P T S) S fi ch.pos ch.key = .ok ch.bytes ∧
    ∀ (j : Nat) e i, key.length ≤ j → fi.shapes[j]? = some e → ch.key[j]? = some i →
      0 ≤ i ∧ ∃ c, evalShape P (look P T S) e (ch.key.take j) = .ok c ∧ i < c

theorem forChunks_mem {α} {f : Int → Except Err (List α)} {is : List Int} {cs : List α}
    (h : forChunks f is = .ok cs) {ch : α} (hc : ch ∈ cs) :
    ∃ i ∈ is, ∃ cs', f i = .ok cs' ∧ ch ∈ cs' := by
  induction is generalizing cs with
  | nil => simp [forChunks] at h; subst h; cases hc
  | cons i is ih =>
    simp only [forChunks] at h
    cases h1 : f i with
    | error e => rw [h1] at h; cases h
    | ok cs1 =>
      rw [h1] at h
      simp only at h
      cases h2 : forChunks f is with
      | error e => rw [h2] at h; cases h
      | ok cs2 =>
        rw [h2] at h
        injection h with h
        subst h
        rw [List.mem_append] at hc
        rcases hc with hc | hc
        · exact ⟨i, by simp, cs1, h1, hc⟩
        · obtain ⟨j, hj, r⟩ := ih h2 hc
          exact ⟨j, by simp [hj], r⟩

theorem writeD_from {T : Tab} (S : Store P.F) (d : Desc) :
    ∀ (n : Nat) (sh : List Expr) (st : List Nat) (key : Key) (cs : List Chunk),
      At T n sh st d → key.length = st.length →
      writeD P T S n key d = .ok cs → ∀ ch ∈ cs, ChunkFrom P T S n d.count key ch := by
  induction d with
  | nil =>
    intro n sh st key cs _ _ hw ch hch
    simp only [writeD] at hw; injection hw with hw; subst hw; cases hch
  | field fd r ih =>
    intro n sh st key cs hat hk hw ch hch
    obtain ⟨hn, hat'⟩ := hat.field
    simp only [writeD, hn] at hw
    have hrest : ∀ cs1, writeD P T S (n + 1) key r = .ok cs1 → ch ∈ cs1 →
        ChunkFrom P T S n (Desc.field fd r).count key ch := by
      intro cs1 h1 hm
      obtain ⟨a, b, c, d⟩ := ih (n + 1) sh st key cs1 hat' hk h1 ch hm
      exact ⟨by omega, by simp only [Desc.count]; omega, c, d⟩
    cases hc : evalCond P (look P T S) ⟨fd, sh, st⟩ key with
    | error e => rw [hc] at hw; cases hw
    | ok b =>
      rw [hc] at hw
      cases b with
      | false => exact hrest cs hw hch
      | true =>
        simp only at hw
        cases hb : fieldBytes P (look P T S) S ⟨fd, sh, st⟩ n key with
        | error e => rw [hb] at hw; cases hw
        | ok b =>
          rw [hb] at hw
          simp only at hw
          cases hw1 : writeD P T S (n + 1) key r with
          | error e => rw [hw1] at hw; cases hw
          | ok cs1 =>
            rw [hw1] at hw
            injection hw with hw
            subst hw
            rw [List.mem_cons] at hch
            rcases hch with rfl | hch
            · refine ⟨Nat.le_refl _, by simp [Desc.count], List.prefix_refl _, _, hn,
                by simp [FInfo.depth, hk, hat.len], hc, hb, ?_⟩
              intro j e i hj he hi
              simp only at hi
              have := lt_of_getElem? hi
              omega
            · exact hrest cs1 hw1 hch
  | loop e body r ihb ihr =>
    intro n sh st key cs hat hk hw ch hch
    obtain ⟨heok, hatb, hatr⟩ := hat.loop
    simp only [writeD] at hw
    cases hsh : evalShape P (look P T S) e key with
    | error x => rw [hsh] at hw; cases hw
    | ok c =>
      rw [hsh] at hw
      simp only at hw
      cases hw1 : forChunks (fun i => writeD P T S n (key ++ [i]) body) (indices c) with
      | error x => rw [hw1] at hw; cases hw
      | ok cs1 =>
        rw [hw1] at hw
        simp only at hw
        cases hw2 : writeD P T S (n + body.count) key r with
        | error x => rw [hw2] at hw; cases hw
        | ok cs2 =>
          rw [hw2] at hw
          injection hw with hw
          subst hw
          rw [List.mem_append] at hch
          rcases hch with hch | hch
          · obtain ⟨i, hi, cs', hf, hm⟩ := forChunks_mem hw1 hch
            obtain ⟨a, b, hp, fi, h1, h2, h3, h4, h5⟩ :=
              ihb n (sh ++ [e]) (st ++ [n]) (key ++ [i]) cs' hatb (by simp [hk]) hf ch hm
            refine ⟨a, by simp only [Desc.count]; omega, (List.prefix_append _ _).trans hp,
              fi, h1, h2, h3, h4, ?_⟩
            intro j e' i' hj he' hi'
            rcases Nat.lt_or_ge key.length j with hlt | hge
            · exact h5 j e' i' (by simp; omega) he' hi'
            · have hj : j = key.length := by omega
              subst hj
              obtain ⟨t, ht⟩ := hp
              rw [← ht] at hi' ⊢
              obtain ⟨fi', h1', _, hsp⟩ := hatb.inside a (by omega)
              rw [h1] at h1'
              injection h1' with h1'
              subst h1'
              have hee : e' = e := by
                obtain ⟨t', ht'⟩ := hsp
                rw [← ht', List.getElem?_append_left (by simp [hk, hat.len])] at he'
                rw [hk, ← hat.len] at he'
                simpa using he'.symm
              have hii : i' = i := by simpa using hi'.symm
              subst hee hii
              have := mem_indices.mp hi
              refine ⟨this.1, c, ?_, this.2⟩
              simpa using hsh
          · obtain ⟨a, b, hp, d⟩ := ihr (n + body.count) sh st key cs2 hatr hk hw2 ch hch
            exact ⟨by omega, by simp only [Desc.count]; omega, hp, d⟩

/-- What a whole-struct chunk is. -/
theorem writeChunks_from {d : Desc} (hd : d.causal = true) {S : Store P.F} {cs : List Chunk}
    (hw : writeChunks P d S = .ok cs) {ch : Chunk} (hch : ch ∈ cs) :
    Reach P d.tab S ch.pos ch.key ∧
    ∃ fi, d.tab[ch.pos]? = some fi ∧ evalCond P (look P d.tab S) fi ch.key = .ok true ∧
      fieldBytes P (look P d.tab S) S fi ch.pos ch.key = .ok ch.bytes := by
  obtain ⟨_, _, _, fi, h1, h2, h3, h4, h5⟩ :=
    writeD_from P S d 0 [] [] [] cs (at_top d hd) rfl hw ch hch
  exact ⟨⟨fi, h1, h2, fun j e i he hi => h5 j e i (Nat.zero_le _) he hi⟩, fi, h1, h3, h4⟩

/-- The row of the field at a position of a struct satisfies a row check. -/
def Desc.allFields (p : FieldDef → Bool) (d : Desc) : Bool := d.tab.all fun fi => p fi.fd

theorem Desc.allFields_get {p : FieldDef → Bool} {d : Desc} (h : d.allFields p = true) {n : Nat}
    {fi : FInfo} (hn : d.tab[n]? = some fi) : p fi.fd = true :=
  List.all_eq_true.mp h fi (List.mem_of_getElem? hn)

theorem coerce_bytes_pad {fd : FieldDef} {sz : Nat} {b : Bytes}
    (hb : fd.ty = .bytes → b.length = sz) :
    coerce P fd (.bytes (padRight 32 sz b)) = coerce P fd (.bytes b) := by
  unfold coerce
  cases hty : fd.ty with
  | str =>
    simp only [pyStr]
    rw [← rstripU_dec_rstripB, rstripB_padRight, rstripU_dec_rstripB]
  | int =>
    simp only [coerceInt]
    rw [← pyIntB_rstrip, rstripB_padRight, pyIntB_rstrip]
  | flt =>
    simp only
    unfold pyFloatB
    rw [rstripB_padRight]
  | bytes =>
    have := hb hty
    simp [padRight, this]

theorem isFill_padRight (fd : FieldDef) (w : Nat) (b : Bytes) :
    isFill fd (padRight 32 w b) = isFill fd b := by
  unfold isFill padRight
  rw [List.all_append]
  have : ((List.replicate (w - b.length) (32 : UInt8)).all
      fun x => x.toNat == fd.optChar.toNat || x == 32) = true := by
    rw [List.all_eq_true]; intro x hx; rw [List.mem_replicate] at hx; simp [hx.2]
  rw [this, Bool.and_true]

/-- A literal that survives is read back. -/
theorem parse_literal {fd : FieldDef} {sz : Int} {b : Bytes} {w : Val P.F}
    (hw : finish P fd (.lit b) = .ok w) (hf : fd.ty = .flt → rstripB b ≠ [])
    (hb : fd.ty = .bytes → (b.length : Int) = sz) :
    ∃ v, parseField P fd false (padRight 32 sz.toNat b) = .ok v ∧ finish P fd v = .ok w := by
  simp only [finish] at hw
  unfold parseField
  simp only [Bool.false_eq_true, if_false]
  rw [isFill_padRight]
  cases hfill : (fd.optional && isFill fd b) with
  | true =>
    rw [hfill] at hw
    simp only [if_true] at hw ⊢
    refine ⟨_, rfl, ?_⟩
    simp only [Bool.and_eq_true] at hfill
    simp only [finish, hfill.1, if_true]
    exact hw
  | false =>
    rw [hfill] at hw
    simp only [Bool.false_eq_true, if_false] at hw ⊢
    unfold coerce at hw
    cases hty : fd.ty with
    | str =>
      rw [hty] at hw
      refine ⟨_, rfl, ?_⟩
      simp only [finish, coerce, hty]
      simp only [pyStr] at hw ⊢
      rw [rstripB_padRight, rstripU_dec_rstripB]
      exact hw
    | int =>
      rw [hty] at hw
      simp only [coerceInt] at hw
      cases hz : pyIntB b with
      | error e => rw [hz] at hw; cases hw
      | ok z =>
        rw [hz] at hw
        have hne : rstripB b ≠ [] := by
          intro h0
          unfold pyIntB at hz
          rw [h0] at hz
          simp [lstripBy, parseSigned, parseDigits] at hz
        rw [rstripB_padRight]
        simp only [hne, if_false]
        rw [pyIntB_rstrip, hz]
        refine ⟨_, rfl, ?_⟩
        simp only [finish, coerce, hty, coerceInt]
        exact hw
    | flt =>
      rw [hty] at hw
      simp only at hw
      have hp : pyFloatB P (rstripB b) = pyFloatB P b := by unfold pyFloatB; rw [rstripB_idem]
      cases hz : pyFloatB P b with
      | error e => rw [hz] at hw; cases hw
      | ok z =>
        rw [hz] at hw
        rw [rstripB_padRight]
        simp only [hf hty, if_false]
        rw [hp, hz]
        refine ⟨_, rfl, ?_⟩
        simp only [finish, coerce, hty]
        exact hw
    | bytes =>
      rw [hty] at hw
      refine ⟨_, rfl, ?_⟩
      have hb := hb hty
      have : padRight 32 sz.toNat b = b := by
        have : sz.toNat = b.length := by omega
        simp [padRight, this]
      rw [this]
      simp only [finish, coerce, hty]
      exact hw

/-- The low-level value of a written field. -/
theorem fieldBytes_val {l : Look P.F} {S : Store P.F} {fi : FInfo} {n : Nat} {key : Key}
    {b : Bytes} (h : fieldBytes P l S fi n key = .ok b) :
    (∃ t, stored S fi.fd n key = .lit t ∧ b = padRight 32 b.length t) ∨
    (∃ v w, stored S fi.fd n key = .val v ∧ lowGet P l S fi n key = .ok w ∧
      encodeVal P fi.fd (b.length : Int) w = .ok b) := by
  have hsz := fieldBytes_length P h
  unfold fieldBytes at h
  rw [hsz] at h
  simp only at h
  cases hs : stored S fi.fd n key with
  | lit t =>
    rw [hs] at h
    simp only at h
    split at h
    · cases h
    · injection h with h
      refine Or.inl ⟨t, rfl, ?_⟩
      simpa using h.symm
  | val v =>
    rw [hs] at h
    simp only at h
    cases hl : lowGet P l S fi n key with
    | error e => rw [hl] at h; cases h
    | ok w =>
      rw [hl] at h
      exact Or.inr ⟨v, w, rfl, rfl, h⟩

/-- `lowGet` when the condition holds. -/
theorem lowGet_finish {l : Look P.F} {S : Store P.F} {fi : FInfo} {n : Nat} {key : Key}
    {w : Val P.F} (hn : fi.fd.name ≠ none) (hc : evalCond P l fi key = .ok true)
    (h : lowGet P l S fi n key = .ok w) :
    ∃ s, finish P fi.fd s = .ok w ∧
      (fi.fd.value = none → s = stored S fi.fd n key) := by
  unfold lowGet at h
  cases hnm : fi.fd.name with
  | none => exact absurd hnm hn
  | some nm =>
    rw [hnm] at h
    simp only [bind, Except.bind] at h
    cases hci : checkIndex P l fi key with
    | error e => rw [hci] at h; cases h
    | ok u =>
      rw [hci, hc] at h
      simp only [if_true] at h
      cases hv : fi.fd.value with
      | none => rw [hv] at h; exact ⟨_, h, fun _ => rfl⟩
      | some e =>
        rw [hv] at h
        simp only at h
        split at h
        · cases h
        · exact ⟨_, h, by simp⟩

/-- A written field survives the trip through its bytes; see `ValRep`.  A `NitfLiteral` must
itself be text that the field can parse (of exactly the right length for a binary field). -/
def Survives (d : Desc) (S : Store P.F) (ch : Chunk) : Prop :=
  ∀ fi, d.tab[ch.pos]? = some fi → fi.fd.name ≠ none →
    match stored S fi.fd ch.pos ch.key with
    | .lit b => (∃ w, finish P fi.fd (.lit b) = .ok w) ∧ (fi.fd.ty = .flt → rstripB b ≠ []) ∧
        (fi.fd.ty = .bytes → b.length = ch.bytes.length)
    | .val _ => ∀ w, lowGet P (look P d.tab S) S fi ch.pos ch.key = .ok w →
        ValRep P fi.fd ch.bytes.length w

theorem chunkOk_of_survives {d : Desc} (hd : d.causal = true)
    (hwf : d.allFields FieldDef.wf = true) {S : Store P.F} {cs : List Chunk}
    (hw : writeChunks P d S = .ok cs) (hs : ∀ ch ∈ cs, Survives P d S ch) :
    ∀ ch ∈ cs, ChunkOk P false d.tab S ch := by
  intro ch hch fi hfi hnm
  obtain ⟨_, fi', hfi', hc, hb⟩ := writeChunks_from P hd hw hch
  rw [hfi] at hfi'
  injection hfi' with hfi'
  subst hfi'
  have hsv := hs ch hch fi hfi hnm
  rcases fieldBytes_val P hb with ⟨t, ht, hbt⟩ | ⟨v, w, hv, hl, he⟩
  · rw [ht] at hsv
    simp only at hsv
    obtain ⟨⟨w, hw⟩, h2, h3⟩ := hsv
    obtain ⟨v, hv1, hv2⟩ := parse_literal P (sz := (ch.bytes.length : Int)) hw h2
      (fun h => by rw [h3 h])
    rw [Int.toNat_natCast, ← hbt] at hv1
    exact ⟨v, hv1, fun _ => by rw [ht, hw, hv2]⟩
  · rw [hv] at hsv
    simp only at hsv
    obtain ⟨s, hs1, hs2⟩ := lowGet_finish P hnm hc hl
    obtain ⟨v', h1, h2⟩ := parse_encodeVal P (Desc.allFields_get hwf hfi)
      (finish_shape P hs1) he (hsv w hl)
    exact ⟨v', h1, fun hval => by rw [← hs2 hval, hs1, h2]⟩

end Verif
