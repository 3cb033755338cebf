import Verif.Chunks

/- The slots of a struct: which fields are present at which indices, with which sizes; and what
reading does to the slots. -/

namespace Verif

variable (P : PyFloat)

/-- A field instance and its size. -/
structure Slot where
  pos : Nat
  key : Key
  size : Int
  deriving DecidableEq, Repr

def Chunk.slot (c : Chunk) : Slot := ⟨c.pos, c.key, c.bytes.length⟩

/-- The field instances of a struct in layout order: for every loop index in range, the fields
whose condition holds, with their declared size. (Specification; compare `writeD`.) -/
def layoutD (T : Tab) (S : Store P.F) : Nat → Key → Desc → Except Err (List Slot)
  | _, _, .nil => .ok []
  | n, key, .field _ r =>
    match T[n]? with
    | none => .error .attr
    | some fi =>
      match evalCond P (look P T S) fi key with
      | .error e => .error e
      | .ok false => layoutD T S (n + 1) key r
      | .ok true =>
        match evalSize P (look P T S) fi key with
        | .error e => .error e
        | .ok sz =>
          match layoutD T S (n + 1) key r with
          | .error e => .error e
          | .ok cs => .ok (⟨n, key, sz⟩ :: cs)
  | n, key, .loop e body r =>
    match evalShape P (look P T S) e key with
    | .error x => .error x
    | .ok c =>
      match forChunks (fun i => layoutD T S n (key ++ [i]) body) (indices c) with
      | .error x => .error x
      | .ok cs =>
        match layoutD T S (n + body.count) key r with
        | .error x => .error x
        | .ok cs' => .ok (cs ++ cs')

/-- The slots of a whole struct. -/
def layout (d : Desc) (S : Store P.F) : Except Err (List Slot) := layoutD P d.tab S 0 [] d

theorem forChunks_map {α β} {f : Int → Except Err (List α)} {g : Int → Except Err (List β)}
    {h : α → β} (hfg : ∀ i cs, f i = .ok cs → g i = .ok (cs.map h)) {is : List Int} {cs : List α}
    (hf : forChunks f is = .ok cs) : forChunks g is = .ok (cs.map h) := by
  induction is generalizing cs with
  | nil => simp only [forChunks] at hf ⊢; injection hf with hf; subst hf; rfl
  | cons i is ih =>
    simp only [forChunks] at hf ⊢
    cases h1 : f i with
    | error e => rw [h1] at hf; cases hf
    | ok cs1 =>
      rw [h1] at hf
      simp only at hf
      rw [hfg i cs1 h1]
      cases h2 : forChunks f is with
      | error e => rw [h2] at hf; cases hf
      | ok cs2 =>
        rw [h2] at hf
        simp only at hf ⊢
        rw [ih h2]
        injection hf with hf
        subst hf
        simp

/-- Writing fills exactly the slots. -/
theorem writeD_layout {T : Tab} (S : Store P.F) (d : Desc) :
    ∀ (n : Nat) (key : Key) (cs : List Chunk), writeD P T S n key d = .ok cs →
      layoutD P T S n key d = .ok (cs.map Chunk.slot) := by
  induction d with
  | nil =>
    intro n key cs h
    simp only [writeD] at h; injection h with h; subst h; rfl
  | field fd r ih =>
    intro n key cs h
    simp only [writeD, layoutD] at h ⊢
    cases hn : T[n]? with
    | none => rw [hn] at h; cases h
    | some fi =>
      rw [hn] at h
      simp only at h ⊢
      cases hc : evalCond P (look P T S) fi key with
      | error e => rw [hc] at h; cases h
      | ok b =>
        rw [hc] at h
        cases b with
        | false => exact ih (n + 1) key cs h
        | true =>
          simp only at h ⊢
          cases hb : fieldBytes P (look P T S) S fi n key with
          | error e => rw [hb] at h; cases h
          | ok b =>
            rw [hb] at h
            simp only at h
            rw [fieldBytes_length P hb]
            cases hw : writeD P T S (n + 1) key r with
            | error e => rw [hw] at h; cases h
            | ok cs1 =>
              rw [hw] at h
              simp only at h ⊢
              rw [ih (n + 1) key cs1 hw]
              injection h with h
              subst h
              rfl
  | loop e body r ihb ihr =>
    intro n key cs h
    simp only [writeD, layoutD] at h ⊢
    cases hs : evalShape P (look P T S) e key with
    | error x => rw [hs] at h; cases h
    | ok c =>
      rw [hs] at h
      simp only at h ⊢
      cases h1 : forChunks (fun i => writeD P T S n (key ++ [i]) body) (indices c) with
      | error x => rw [h1] at h; cases h
      | ok cs1 =>
        rw [h1] at h
        simp only at h
        rw [forChunks_map (h := Chunk.slot) (fun i cs hf => ihb n (key ++ [i]) cs hf) h1]
        cases h2 : writeD P T S (n + body.count) key r with
        | error x => rw [h2] at h; cases h
        | ok cs2 =>
          rw [h2] at h
          simp only at h ⊢
          rw [ihr _ key cs2 h2]
          injection h with h
          subst h
          simp

/-- Conversely, if every slot can be formatted the struct can be written. -/
theorem layoutD_write {T : Tab} (S : Store P.F) (f : Slot → Bytes) (d : Desc) :
    ∀ (n : Nat) (key : Key) (sl : List Slot), layoutD P T S n key d = .ok sl →
      (∀ s ∈ sl, ∀ fi, T[s.pos]? = some fi →
        fieldBytes P (look P T S) S fi s.pos s.key = .ok (f s)) →
      writeD P T S n key d = .ok (sl.map fun s => ⟨s.pos, s.key, f s⟩) := by
  induction d with
  | nil =>
    intro n key sl h _
    simp only [layoutD] at h; injection h with h; subst h; rfl
  | field fd r ih =>
    intro n key sl h hf
    simp only [writeD, layoutD] at h ⊢
    cases hn : T[n]? with
    | none => rw [hn] at h; cases h
    | some fi =>
      rw [hn] at h
      simp only at h ⊢
      cases hc : evalCond P (look P T S) fi key with
      | error e => rw [hc] at h; cases h
      | ok b =>
        rw [hc] at h
        cases b with
        | false => exact ih (n + 1) key sl h hf
        | true =>
          simp only at h ⊢
          cases hb : evalSize P (look P T S) fi key with
          | error e => rw [hb] at h; cases h
          | ok sz =>
            rw [hb] at h
            simp only at h
            cases hw : layoutD P T S (n + 1) key r with
            | error e => rw [hw] at h; cases h
            | ok sl1 =>
              rw [hw] at h
              simp only at h
              injection h with h
              subst h
              rw [hf ⟨n, key, sz⟩ (by simp) fi hn, ih (n + 1) key sl1 hw fun s hs => hf s (by simp [hs])]
              rfl
  | loop e body r ihb ihr =>
    intro n key sl h hf
    simp only [writeD, layoutD] at h ⊢
    cases hs : evalShape P (look P T S) e key with
    | error x => rw [hs] at h; cases h
    | ok c =>
      rw [hs] at h
      simp only at h ⊢
      cases h1 : forChunks (fun i => layoutD P T S n (key ++ [i]) body) (indices c) with
      | error x => rw [h1] at h; cases h
      | ok sl1 =>
        rw [h1] at h
        simp only at h
        cases h2 : layoutD P T S (n + body.count) key r with
        | error x => rw [h2] at h; cases h
        | ok sl2 =>
          rw [h2] at h
          simp only at h
          injection h with h
          subst h
          have hb : forChunks (fun i => writeD P T S n (key ++ [i]) body) (indices c) =
              .ok (sl1.map fun s => (⟨s.pos, s.key, f s⟩ : Chunk)) := by
            have hf1 : ∀ s ∈ sl1, ∀ fi, T[s.pos]? = some fi →
                fieldBytes P (look P T S) S fi s.pos s.key = .ok (f s) :=
              fun s hs => hf s (by simp [hs])
            clear hf h2
            generalize indices c = is at h1
            induction is generalizing sl1 with
            | nil => simp only [forChunks] at h1 ⊢; injection h1 with h1; subst h1; rfl
            | cons i is ih =>
              simp only [forChunks] at h1 ⊢
              cases h3 : layoutD P T S n (key ++ [i]) body with
              | error e => rw [h3] at h1; cases h1
              | ok sl3 =>
                rw [h3] at h1
                simp only at h1
                cases h4 : forChunks (fun i => layoutD P T S n (key ++ [i]) body) is with
                | error e => rw [h4] at h1; cases h1
                | ok sl4 =>
                  rw [h4] at h1
                  simp only at h1
                  injection h1 with h1
                  subst h1
                  rw [ihb n (key ++ [i]) sl3 h3 fun s hs => hf1 s (by simp [hs]),
                    ih sl4 (fun s hs => hf1 s (by simp [hs])) h4]
                  simp
          rw [hb, ihr _ key sl2 h2 fun s hs => hf s (by simp [hs])]
          simp

/-! ### Reading -/

theorem takeExact_ok {sz : Int} {b t rest : Bytes} (h : takeExact sz b = .ok (t, rest)) :
    b = t ++ rest ∧ (t.length : Int) = sz := by
  unfold takeExact at h
  split at h
  · cases h
  · split at h
    · cases h
    · injection h with h
      injection h with h1 h2
      subst h1 h2
      refine ⟨(List.take_append_drop _ _).symm, ?_⟩
      rw [List.length_take]
      omega

theorem takeExact_short {sz : Int} {t c : Bytes} (ht : (t.length : Int) = sz)
    (hc : c.length < t.length) : takeExact sz c = .error .runtime := by
  unfold takeExact
  rw [if_neg (by omega), if_pos (by omega)]

/-- Reading takes a definite front part of the input, whatever follows, and fails with a
RuntimeError on every proper prefix of it. -/
structure Consumes {F} (rd : Store F × Bytes → Except Err (Store F × Bytes)) (R R' : Store F)
    (c : Bytes) : Prop where
  any : ∀ rest, rd (R, c ++ rest) = .ok (R', rest)
  short : ∀ c', c' <+: c → c' ≠ c → rd (R, c') = .error .runtime

theorem prefix_append_cases {c' a b : Bytes} (h : c' <+: a ++ b) (hne : c' ≠ a ++ b) :
    (c' <+: a ∧ c' ≠ a) ∨ ∃ b', c' = a ++ b' ∧ b' <+: b ∧ b' ≠ b := by
  rcases Nat.lt_or_ge c'.length a.length with hl | hl
  · left
    refine ⟨List.prefix_of_prefix_length_le h (List.prefix_append _ _) (by omega), ?_⟩
    intro he; subst he; omega
  · right
    have ha : a <+: c' := List.prefix_of_prefix_length_le (List.prefix_append _ _) h hl
    obtain ⟨b', rfl⟩ := ha
    refine ⟨b', rfl, ?_, ?_⟩
    · exact (List.prefix_append_right_inj a).mp h
    · intro he; subst he; exact hne rfl

theorem Consumes.seq {F} {f g : Store F × Bytes → Except Err (Store F × Bytes)}
    {R R1 R2 : Store F} {a b : Bytes} (hf : Consumes f R R1 a) (hg : Consumes g R1 R2 b) :
    Consumes (fun s => match f s with | .error e => .error e | .ok s' => g s') R R2 (a ++ b) := by
  constructor
  · intro rest
    simp only [List.append_assoc, hf.any, hg.any]
  · intro c' h hne
    rcases prefix_append_cases h hne with ⟨h1, h2⟩ | ⟨b', rfl, h1, h2⟩
    · simp only [hf.short c' h1 h2]
    · simp only [hf.any, hg.short b' h1 h2]

theorem readField_consumes {l : Look P.F} {lit : Bool} {R R' : Store P.F} {fi : FInfo} {n : Nat}
    {key : Key} {b rest : Bytes} (h : readField P l lit R fi n key b = .ok (R', rest)) :
    ∃ t, b = t ++ rest ∧ evalSize P l fi key = .ok (t.length : Int) ∧
      Consumes (fun s => readField P l lit s.1 fi n key s.2) R R' t ∧
      ((fi.fd.name = none ∧ R' = R) ∨ (fi.fd.name ≠ none ∧
        ∃ v, parseField P fi.fd lit t = .ok v ∧ R' = R.set n key ⟨v, some t⟩)) := by
  unfold readField at h
  cases hsz : evalSize P l fi key with
  | error e => rw [hsz] at h; cases h
  | ok sz =>
    rw [hsz] at h
    simp only at h
    cases ht : takeExact sz b with
    | error e => rw [ht] at h; cases h
    | ok tr =>
      obtain ⟨t, r⟩ := tr
      rw [ht] at h
      simp only at h
      obtain ⟨hb, hlen⟩ := takeExact_ok ht
      have hshort : ∀ c', c' <+: t → c' ≠ t → readField P l lit R fi n key c' = .error .runtime := by
        intro c' hp hne
        unfold readField
        rw [hsz]
        simp only
        rw [takeExact_short hlen]
        rcases Nat.lt_or_ge c'.length t.length with hl | hl
        · exact hl
        · exact absurd (hp.eq_of_length_le hl) hne
      cases hnm : fi.fd.name with
      | none =>
        rw [hnm] at h
        simp only at h
        injection h with h
        injection h with h1 h2
        subst h1 h2
        refine ⟨t, hb, by rw [hlen], ⟨?_, hshort⟩, Or.inl ⟨rfl, rfl⟩⟩
        intro rest
        unfold readField
        rw [hsz]
        simp only
        rw [← hlen, takeExact_append]
        simp only [hnm]
      | some nm =>
        rw [hnm] at h
        simp only at h
        cases hp : parseField P fi.fd lit t with
        | error e => rw [hp] at h; cases h
        | ok v =>
          rw [hp] at h
          simp only at h
          injection h with h
          injection h with h1 h2
          subst h1 h2
          refine ⟨t, hb, by rw [hlen], ⟨?_, hshort⟩, Or.inr ⟨by simp, v, hp, rfl⟩⟩
          intro rest
          unfold readField
          rw [hsz]
          simp only
          rw [← hlen, takeExact_append]
          simp only [hnm, hp]

/-- What a successful read did, in terms of slots.  `R''` is any store that has the final values
wherever they matter. -/
structure ReadFacts (T : Tab) (lit : Bool) (n : Nat) (key : Key) (d : Desc)
    (R R' : Store P.F) (ins : List Chunk) : Prop where
  touch : Touch n d.count key R R'
  /-- layout as seen by the final store -/
  slots : ∀ R'' : Store P.F, (∀ m k, m < n + d.count → (k <+: key ∨ key <+: k) → R'' m k = R' m k) →
    layoutD P T R'' n key d = .ok (ins.map Chunk.slot)
  /-- each named slot stores its parsed text and raw bytes -/
  cells : ∀ ch ∈ ins, ∀ fi, T[ch.pos]? = some fi → fi.fd.name ≠ none →
    ∃ v, parseField P fi.fd lit ch.bytes = .ok v ∧ R' ch.pos ch.key = some ⟨v, some ch.bytes⟩
  /-- slots are inside -/
  inside : ∀ ch ∈ ins, n ≤ ch.pos ∧ ch.pos < n + d.count ∧ key <+: ch.key
  /-- reserved fields are never stored -/
  reserved : ∀ m k fi, T[m]? = some fi → fi.fd.name = none → R' m k = R m k

theorem readD_facts {T : Tab} (hC : CausalTab T) (lit : Bool) (d : Desc) :
    ∀ (n : Nat) (sh : List Expr) (st : List Nat) (key : Key) (R R' : Store P.F) (b rest : Bytes),
      At T n sh st d → key.length = st.length →
      readD P T lit n key d (R, b) = .ok (R', rest) →
      ∃ ins, b = chunkBytes ins ++ rest ∧
        Consumes (readD P T lit n key d) R R' (chunkBytes ins) ∧
        ReadFacts P T lit n key d R R' ins := by
  induction d with
  | nil =>
    intro n sh st key R R' b rest _ _ h
    simp only [readD] at h
    injection h with h
    injection h with h1 h2
    subst h1 h2
    refine ⟨[], by simp [chunkBytes], ⟨by intro r; simp [readD, chunkBytes], ?_⟩,
      ⟨Touch.refl _ _ _ _, by intro _ _; simp [layoutD], by simp, by simp, by simp⟩⟩
    intro c' h hne
    simp [chunkBytes] at h hne
    exact absurd h hne
  | field fd r ih =>
    intro n sh st key R R' b rest hat hk h
    obtain ⟨hn, hat'⟩ := hat.field
    simp only [readD, hn] at h
    have hfi := hC n _ hn
    cases hc : evalCond P (look P T R) ⟨fd, sh, st⟩ key with
    | error e => rw [hc] at h; cases h
    | ok bc =>
      rw [hc] at h
      -- visible fields agree between R and any later store
      have hvis : ∀ R'' : Store P.F, (∀ m k, m < n → k <+: key → R'' m k = R m k) →
          VisSame P T n st key R R'' := by
        intro R'' hR m fi _ hlt _
        refine sameAt_frame P hC m _ fun m' k' h1 h2 => ?_
        exact (hR m' k' (by omega) (h2.trans (List.take_prefix _ _))).symm
      cases bc with
      | false =>
        simp only at h
        obtain ⟨ins, hb, hcon, hf⟩ := ih (n + 1) sh st key R R' b rest hat' hk h
        refine ⟨ins, hb, ?_, ?_⟩
        · refine ⟨?_, ?_⟩
          · intro rest'; simp only [readD, hn, hc]; exact hcon.any rest'
          · intro c' h1 h2; simp only [readD, hn, hc]; exact hcon.short c' h1 h2
        · refine ⟨hf.touch.mono (by omega) (by simp [Desc.count]; omega) (List.prefix_refl _),
            ?_, hf.cells, ?_, hf.reserved⟩
          · intro R'' hR
            simp only [layoutD, hn]
            have hv := hvis R'' fun m k hlt hp => by
              rw [hR m k (by simp [Desc.count]; omega) (Or.inl hp)]
              exact hf.touch m k (by omega)
            rw [← evalCond_congr P (fi := ⟨fd, sh, st⟩) (hv.look P hC) (by simp only; omega) hfi, hc]
            exact hf.slots R'' fun m k hlt hp => hR m k (by simp [Desc.count]; omega) hp
          · intro ch hch
            have := hf.inside ch hch
            simp only [Desc.count]
            exact ⟨by omega, by omega, this.2.2⟩
      | true =>
        simp only at h
        cases hrf : readField P (look P T R) lit R ⟨fd, sh, st⟩ n key b with
        | error e => rw [hrf] at h; cases h
        | ok s =>
          obtain ⟨R1, b1⟩ := s
          rw [hrf] at h
          simp only at h
          obtain ⟨t, hbt, hsz, hcon1, hcase⟩ := readField_consumes P hrf
          obtain ⟨ins, hb, hcon, hf⟩ := ih (n + 1) sh st key R1 R' b1 rest hat' hk h
          have ht1 : Touch n 1 key R R1 := by
            rcases hcase with ⟨_, h1⟩ | ⟨_, v, _, h1⟩
            · rw [h1]; exact Touch.refl _ _ _ _
            · rw [h1]; exact Touch.set _ _ _ _
          refine ⟨⟨n, key, t⟩ :: ins, ?_, ?_, ?_⟩
          · rw [hbt, hb, chunkBytes_cons, List.append_assoc]
          · rw [chunkBytes_cons]
            refine ⟨?_, ?_⟩
            · intro rest'
              have := hcon1.any (chunkBytes ins ++ rest')
              simp only at this
              simp only [readD, hn, hc, List.append_assoc]
              rw [this]
              exact hcon.any rest'
            · intro c' h1 h2
              simp only [readD, hn, hc]
              rcases prefix_append_cases h1 h2 with ⟨h3, h4⟩ | ⟨b', rfl, h3, h4⟩
              · have := hcon1.short c' h3 h4
                simp only at this
                rw [this]
              · have := hcon1.any b'
                simp only at this
                rw [this]
                exact hcon.short b' h3 h4
          · refine ⟨?_, ?_, ?_, ?_, ?_⟩
            · exact (ht1.mono (Nat.le_refl _) (by simp [Desc.count]) (List.prefix_refl _)).trans
                (hf.touch.mono (by omega) (by simp [Desc.count]; omega) (List.prefix_refl _))
            · intro R'' hR
              simp only [layoutD, hn]
              have hv := hvis R'' fun m k hlt hp => by
                rw [hR m k (by simp [Desc.count]; omega) (Or.inl hp), hf.touch m k (by omega)]
                exact ht1 m k (by omega)
              have hl := hv.look P hC
              rw [← evalCond_congr P (fi := ⟨fd, sh, st⟩) hl (by simp only; omega) hfi, hc,
                ← evalSize_congr P (fi := ⟨fd, sh, st⟩) hl (by simp only; omega) hfi, hsz]
              simp only
              rw [hf.slots R'' fun m k hlt hp => hR m k (by simp [Desc.count]; omega) hp]
              rfl
            · intro ch hch fi' hfi' hnm
              rw [List.mem_cons] at hch
              rcases hch with rfl | hch
              · rw [hn] at hfi'
                injection hfi' with hfi'
                subst hfi'
                rcases hcase with ⟨h0, _⟩ | ⟨_, v, hp, h1⟩
                · exact absurd h0 hnm
                · refine ⟨v, hp, ?_⟩
                  rw [hf.touch n key (by omega), h1]
                  simp [Store.set]
              · exact hf.cells ch hch fi' hfi' hnm
            · intro ch hch
              rw [List.mem_cons] at hch
              simp only [Desc.count]
              rcases hch with rfl | hch
              · exact ⟨Nat.le_refl _, by simp, List.prefix_refl _⟩
              · have := hf.inside ch hch
                exact ⟨by omega, by omega, this.2.2⟩
            · intro m k fi' hm hnm
              rw [hf.reserved m k fi' hm hnm]
              rcases hcase with ⟨_, h1⟩ | ⟨h0, v, _, h1⟩
              · rw [h1]
              · rw [h1]
                unfold Store.set
                split
                · rename_i hh
                  rw [hh.1, hn] at hm
                  injection hm with hm
                  subst hm
                  exact absurd hnm h0
                · rfl
  | loop e body r ihb ihr =>
    intro n sh st key R R' b rest hat hk h
    obtain ⟨heok, hatb, hatr⟩ := hat.loop
    simp only [readD] at h
    cases hsh : evalShape P (look P T R) e key with
    | error x => rw [hsh] at h; cases h
    | ok c =>
      rw [hsh] at h
      simp only at h
      cases hfr : forRead (fun i s => readD P T lit n (key ++ [i]) body s) (indices c) (R, b) with
      | error x => rw [hfr] at h; cases h
      | ok s =>
        obtain ⟨R1, b1⟩ := s
        rw [hfr] at h
        simp only at h
        -- the iterations
        have hiter : ∀ (is : List Int), is.Nodup → ∀ (R R1 : Store P.F) (b b1 : Bytes),
            forRead (fun i s => readD P T lit n (key ++ [i]) body s) is (R, b) = .ok (R1, b1) →
            ∃ ins, b = chunkBytes ins ++ b1 ∧
              Consumes (forRead (fun i s => readD P T lit n (key ++ [i]) body s) is) R R1
                (chunkBytes ins) ∧
              (∀ m k, ¬ (n ≤ m ∧ m < n + body.count ∧ ∃ i ∈ is, key ++ [i] <+: k) →
                R1 m k = R m k) ∧
              (∀ R'' : Store P.F,
                (∀ m k, m < n + body.count → (k <+: key ∨ key <+: k) → R'' m k = R1 m k) →
                forChunks (fun i => layoutD P T R'' n (key ++ [i]) body) is =
                  .ok (ins.map Chunk.slot)) ∧
              (∀ ch ∈ ins, ∀ fi, T[ch.pos]? = some fi → fi.fd.name ≠ none →
                ∃ v, parseField P fi.fd lit ch.bytes = .ok v ∧
                  R1 ch.pos ch.key = some ⟨v, some ch.bytes⟩) ∧
              (∀ ch ∈ ins, n ≤ ch.pos ∧ ch.pos < n + body.count ∧ ∃ i ∈ is, key ++ [i] <+: ch.key) ∧
              (∀ m k fi, T[m]? = some fi → fi.fd.name = none → R1 m k = R m k) := by
          intro is
          induction is with
          | nil =>
            intro _ R R1 b b1 h
            simp only [forRead] at h
            injection h with h
            injection h with h1 h2
            subst h1 h2
            refine ⟨[], by simp [chunkBytes], ⟨by intro r; simp [forRead, chunkBytes], ?_⟩,
              by simp, by intro _ _; simp [forChunks], by simp, by simp, by simp⟩
            intro c' h hne
            simp [chunkBytes] at h hne
            exact absurd h hne
          | cons i is ihis =>
            intro hnd R R1 b b1 h
            rw [List.nodup_cons] at hnd
            simp only [forRead] at h
            cases h1 : readD P T lit n (key ++ [i]) body (R, b) with
            | error x => rw [h1] at h; cases h
            | ok s =>
              obtain ⟨Ri, bi⟩ := s
              rw [h1] at h
              simp only at h
              obtain ⟨ins1, hb1, hc1, hf1⟩ := ihb n (sh ++ [e]) (st ++ [n]) (key ++ [i]) R Ri b bi
                hatb (by simp [hk]) h1
              obtain ⟨ins2, hb2, hc2, ht2, hs2, hcell2, hin2, hres2⟩ := ihis hnd.2 Ri R1 bi b1 h
              refine ⟨ins1 ++ ins2, by rw [hb1, hb2, chunkBytes_append, List.append_assoc], ?_, ?_,
                ?_, ?_, ?_, ?_⟩
              · have := hc1.seq hc2
                rw [chunkBytes_append]
                exact ⟨fun r => this.any r, fun c' a b => this.short c' a b⟩
              · intro m k hno
                rw [ht2 m k fun ⟨a, b, j, hj, hp⟩ => hno ⟨a, b, j, by simp [hj], hp⟩]
                exact hf1.touch m k fun ⟨a, b, hp⟩ => hno ⟨a, b, i, by simp, hp⟩
              · intro R'' hR
                simp only [forChunks]
                rw [hf1.slots R'' ?_]
                · simp only
                  rw [hs2 R'' hR]
                  simp
                · intro m k hlt hp
                  have hcmp : k <+: key ∨ key <+: k := by
                    rcases hp with hp | hp
                    · rw [List.prefix_concat_iff] at hp
                      rcases hp with hp | hp
                      · right; rw [hp]; exact List.prefix_append _ _
                      · left; exact hp
                    · right; exact (List.prefix_append _ _).trans hp
                  rw [hR m k hlt hcmp]
                  refine ht2 m k ?_
                  rintro ⟨_, _, j, hj, hpj⟩
                  have : i = j := by
                    rcases hp with hp | hp
                    · exact (prefix_concat_inj (hpj.trans hp) (List.prefix_refl _)).symm
                    · exact prefix_concat_inj hp hpj
                  subst this
                  exact hnd.1 hj
              · intro ch hch fi hfi hnm
                rw [List.mem_append] at hch
                rcases hch with hch | hch
                · obtain ⟨v, hp, hcell⟩ := hf1.cells ch hch fi hfi hnm
                  refine ⟨v, hp, ?_⟩
                  rw [ht2, hcell]
                  rintro ⟨_, _, j, hj, hpj⟩
                  have := prefix_concat_inj (hf1.inside ch hch).2.2 hpj
                  subst this
                  exact hnd.1 hj
                · exact hcell2 ch hch fi hfi hnm
              · intro ch hch
                rw [List.mem_append] at hch
                rcases hch with hch | hch
                · obtain ⟨a, b, hp⟩ := hf1.inside ch hch
                  exact ⟨a, b, i, by simp, hp⟩
                · obtain ⟨a, b, j, hj, hp⟩ := hin2 ch hch
                  exact ⟨a, b, j, by simp [hj], hp⟩
              · intro m k fi hm hnm
                rw [hres2 m k fi hm hnm, hf1.reserved m k fi hm hnm]
        obtain ⟨ins1, hb1, hc1, ht1, hs1, hcell1, hin1, hres1⟩ :=
          hiter (indices c) (indices_nodup c) R R1 b b1 hfr
        obtain ⟨ins2, hb2, hc2, hf2⟩ := ihr (n + body.count) sh st key R1 R' b1 rest hatr hk h
        have ht1' : Touch n body.count key R R1 := by
          intro m k hno
          refine ht1 m k ?_
          rintro ⟨a, b, i, _, hp⟩
          exact hno ⟨a, b, (List.prefix_append _ _).trans hp⟩
        refine ⟨ins1 ++ ins2, by rw [hb1, hb2, chunkBytes_append, List.append_assoc], ?_, ?_⟩
        · rw [chunkBytes_append]
          refine ⟨?_, ?_⟩
          · intro rest'
            simp only [readD, hsh, List.append_assoc]
            rw [hc1.any]
            exact hc2.any rest'
          · intro c' h1 h2
            simp only [readD, hsh]
            rcases prefix_append_cases h1 h2 with ⟨h3, h4⟩ | ⟨b', rfl, h3, h4⟩
            · rw [hc1.short c' h3 h4]
            · rw [hc1.any]
              exact hc2.short b' h3 h4
        · refine ⟨?_, ?_, ?_, ?_, ?_⟩
          · exact (ht1'.mono (Nat.le_refl _) (by simp [Desc.count]) (List.prefix_refl _)).trans
              (hf2.touch.mono (by omega) (by simp [Desc.count]; omega) (List.prefix_refl _))
          · intro R'' hR
            simp only [layoutD]
            have hv : VisSame P T n st key R R'' := by
              intro m fi _ hlt _
              refine sameAt_frame P hC m _ fun m' k' h1 h2 => ?_
              rw [hR m' k' (by simp [Desc.count]; omega)
                (Or.inl (h2.trans (List.take_prefix _ _))), hf2.touch m' k' (by omega),
                ht1' m' k' (by omega)]
            rw [← hv.evalShape P hC heok (by omega), hsh]
            simp only
            rw [hs1 R'' ?_]
            · simp only
              rw [hf2.slots R'' fun m k hlt hp => hR m k (by simp [Desc.count]; omega) hp]
              simp
            · intro m k hlt hp
              rw [hR m k (by simp [Desc.count]; omega) hp]
              exact hf2.touch m k (by omega)
          · intro ch hch fi hfi hnm
            rw [List.mem_append] at hch
            rcases hch with hch | hch
            · obtain ⟨v, hp, hcell⟩ := hcell1 ch hch fi hfi hnm
              refine ⟨v, hp, ?_⟩
              have := hin1 ch hch
              rw [hf2.touch ch.pos ch.key (by omega), hcell]
            · exact hf2.cells ch hch fi hfi hnm
          · intro ch hch
            rw [List.mem_append] at hch
            simp only [Desc.count]
            rcases hch with hch | hch
            · obtain ⟨a, b, i, _, hp⟩ := hin1 ch hch
              exact ⟨a, by omega, (List.prefix_append _ _).trans hp⟩
            · have := hf2.inside ch hch
              exact ⟨by omega, by omega, this.2.2⟩
          · intro m k fi hm hnm
            rw [hf2.reserved m k fi hm hnm, hres1 m k fi hm hnm]

end Verif
