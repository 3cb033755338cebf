import Verif.Traverse

/- Writing and then reading a FieldStruct. Helper lemmas for `Props/Struct.lean`. -/

namespace Verif

variable (P : PyFloat)

/-- The index `key` is inside every loop around field `m` (of the object `S`). -/
def Reach (T : Tab) (S : Store P.F) (m : Nat) (key : Key) : Prop :=
  ∃ fi, T[m]? = some fi ∧ key.length = fi.depth ∧
    ∀ (j : Nat) e i, fi.shapes[j]? = some e → key[j]? = some i →
      0 ≤ i ∧ ∃ c, evalShape P (look P T S) e (key.take j) = .ok c ∧ i < c

/-- The bytes written for a field are read back to a value that the field reports alike. -/
def ChunkOk (lit : Bool) (T : Tab) (S : Store P.F) (ch : Chunk) : Prop :=
  ∀ fi, T[ch.pos]? = some fi → fi.fd.name ≠ none →
    ∃ v, parseField P fi.fd lit ch.bytes = .ok v ∧
      (fi.fd.value = none →
        finish P fi.fd (stored S fi.fd ch.pos ch.key) = finish P fi.fd v)

theorem encodeVal_length {fd : FieldDef} {sz : Int} {v : Val P.F} {b : Bytes}
    (h : encodeVal P fd sz v = .ok b) : (b.length : Int) = sz := by
  unfold encodeVal at h
  split at h
  · split at h
    · cases h
    · split at h
      · cases h
      · have := latin1Enc_length h
        rw [List.length_replicate] at this
        omega
  · split at h
    · split at h
      · split at h
        · cases h
        · injection h with h; subst h; omega
      · cases h
    · split at h
      · cases h
      · split at h
        · cases h
        · have := latin1Enc_length h; omega

theorem fieldBytes_length {l : Look P.F} {S : Store P.F} {fi : FInfo} {n : Nat} {key : Key}
    {b : Bytes} (h : fieldBytes P l S fi n key = .ok b) :
    evalSize P l fi key = .ok (b.length : Int) := by
  unfold fieldBytes at h
  split at h
  · cases h
  · rename_i sz hsz
    rw [hsz]
    split at h
    · simp only at h
      split at h
      · cases h
      · injection h with h; subst h; simp only [ne_eq, Decidable.not_not] at *
        rename_i h'; rw [h']
    · split at h
      · cases h
      · rw [encodeVal_length P h]

theorem takeExact_append (b rest : Bytes) : takeExact (b.length : Int) (b ++ rest) = .ok (b, rest) := by
  unfold takeExact
  rw [if_neg (by omega), if_neg (by simp)]
  simp

theorem chunkBytes_cons (c : Chunk) (cs : List Chunk) :
    chunkBytes (c :: cs) = c.bytes ++ chunkBytes cs := by simp [chunkBytes]

theorem chunkBytes_append (a b : List Chunk) :
    chunkBytes (a ++ b) = chunkBytes a ++ chunkBytes b := by simp [chunkBytes]

/-- Fields `[n, n+c)` under index prefix `key` read back with equal values. -/
def Post (T : Tab) (S R : Store P.F) (n c : Nat) (key : Key) : Prop :=
  ∀ m, n ≤ m → m < n + c → ∀ k, key <+: k → Reach P T S m k → SameAt P T S R m k

/-- One field. -/
theorem readField_written {T : Tab} (hC : CausalTab T) {lit : Bool} {n : Nat} {fi : FInfo}
    {key : Key} {S R : Store P.F} (hn : T[n]? = some fi)
    (hk : key.length = fi.starts.length) (hv : VisSame P T n fi.starts key S R)
    {b : Bytes} (hb : fieldBytes P (look P T S) S fi n key = .ok b)
    (hok : ChunkOk P lit T S ⟨n, key, b⟩) (rest : Bytes) :
    ∃ R', readField P (look P T R) lit R fi n key (b ++ rest) = .ok (R', rest) ∧
      Touch n 1 key R R' ∧ SameAt P T S R' n key := by
  have hsz := fieldBytes_length P hb
  rw [evalSize_congr P (hv.look P hC) (by omega) (hC n fi hn)] at hsz
  unfold readField
  rw [hsz]
  simp only
  rw [takeExact_append]
  simp only
  cases hnm : fi.fd.name with
  | none =>
    refine ⟨R, rfl, Touch.refl _ _ _ _, ?_⟩
    unfold SameAt
    rw [getItem_eq P key hn, getItem_eq P key hn]
    unfold getWith lowGet
    rw [hnm]
    cases fi.fd.kind <;> rfl
  | some nm =>
    obtain ⟨v, h1, h2⟩ := hok fi hn (by simp [hnm])
    rw [h1]
    refine ⟨_, rfl, Touch.set _ _ _ _, ?_⟩
    refine sameAt_of_vis P hC hn (hv.frame P hC ?_) ?_
    · intro m k hlt
      exact Touch.set n key R _ m k (by omega)
    · intro hval
      rw [h2 hval]
      unfold stored Store.set
      simp

/-- Loop iterations. -/
theorem forRead_written {T : Tab} {S : Store P.F} {lit : Bool} {n : Nat}
    {st : List Nat} {key : Key} {body : Desc} (hC : CausalTab T) (hk : key.length = st.length)
    (ih : ∀ (i : Int) (R : Store P.F) (cs : List Chunk),
      VisSame P T n (st ++ [n]) (key ++ [i]) S R →
      writeD P T S n (key ++ [i]) body = .ok cs → (∀ ch ∈ cs, ChunkOk P lit T S ch) →
      ∀ rest, ∃ R', readD P T lit n (key ++ [i]) body (R, chunkBytes cs ++ rest) = .ok (R', rest) ∧
        Touch n body.count (key ++ [i]) R R' ∧ Post P T S R' n body.count (key ++ [i])) :
    ∀ (is : List Int), is.Nodup → ∀ (R : Store P.F) (cs : List Chunk),
      VisSame P T n st key S R →
      forChunks (fun i => writeD P T S n (key ++ [i]) body) is = .ok cs →
      (∀ ch ∈ cs, ChunkOk P lit T S ch) → ∀ rest, ∃ R',
        forRead (fun i s => readD P T lit n (key ++ [i]) body s) is (R, chunkBytes cs ++ rest) =
          .ok (R', rest) ∧
        (∀ m k, ¬ (n ≤ m ∧ m < n + body.count ∧ ∃ i ∈ is, key ++ [i] <+: k) → R' m k = R m k) ∧
        ∀ i ∈ is, Post P T S R' n body.count (key ++ [i]) := by
  intro is
  induction is with
  | nil =>
    intro _ R cs _ hw _ rest
    simp only [forChunks] at hw
    injection hw with hw
    subst hw
    exact ⟨R, by simp [forRead, chunkBytes], by simp, by simp⟩
  | cons i is ihis =>
    intro hnd R cs hv hw hok rest
    rw [List.nodup_cons] at hnd
    simp only [forChunks] at hw
    cases hw1 : writeD P T S n (key ++ [i]) body with
    | error e => rw [hw1] at hw; cases hw
    | ok cs1 =>
      rw [hw1] at hw
      simp only at hw
      cases hw2 : forChunks (fun i => writeD P T S n (key ++ [i]) body) is with
      | error e => rw [hw2] at hw; cases hw
      | ok cs2 =>
        rw [hw2] at hw
        simp only at hw
        injection hw with hw
        subst hw
        rw [chunkBytes_append, List.append_assoc]
        obtain ⟨R1, hr1, ht1, hp1⟩ := ih i R cs1 (hv.enter P hC hk i) hw1
          (fun ch h => hok ch (by simp [h])) (chunkBytes cs2 ++ rest)
        have hv1 : VisSame P T n st key S R1 := hv.frame P hC fun m k hlt =>
          ht1 m k (by omega)
        obtain ⟨R2, hr2, ht2, hp2⟩ := ihis hnd.2 R1 cs2 hv1 hw2
          (fun ch h => hok ch (by simp [h])) rest
        refine ⟨R2, ?_, ?_, ?_⟩
        · simp only [forRead, hr1]; exact hr2
        · intro m k hn
          rw [ht2 m k (fun ⟨a, b, j, hj, hp⟩ => hn ⟨a, b, j, by simp [hj], hp⟩)]
          exact ht1 m k (fun ⟨a, b, hp⟩ => hn ⟨a, b, i, by simp, hp⟩)
        · intro j hj
          simp only [List.mem_cons] at hj
          rcases hj with rfl | hj
          · intro m h1 h2 k hkp hreach
            refine (hp1 m h1 h2 k hkp hreach).trans ?_
            refine sameAt_frame P hC m k ?_
            intro m' k' _ hk'
            symm
            refine ht2 m' k' ?_
            rintro ⟨_, _, j', hj', hp'⟩
            have := prefix_concat_inj hkp (hp'.trans hk')
            subst this
            exact hnd.1 hj'
          · exact hp2 j hj

theorem indices_nodup (c : Int) : (indices c).Nodup := by
  unfold indices
  refine List.Pairwise.map _ ?_ (List.nodup_range (n := c.toNat))
  intro a b h h'
  exact h (Int.ofNat.inj h')

theorem mem_indices {c i : Int} : i ∈ indices c ↔ 0 ≤ i ∧ i < c := by
  unfold indices
  simp only [List.mem_map, List.mem_range]
  constructor
  · rintro ⟨a, h, rfl⟩; exact ⟨Int.natCast_nonneg a, by simp only [Int.ofNat_eq_natCast]; omega⟩
  · rintro ⟨h1, h2⟩; exact ⟨i.toNat, by omega, by simp only [Int.ofNat_eq_natCast]; omega⟩

theorem readD_written {T : Tab} (hC : CausalTab T) (S : Store P.F) (lit : Bool) (d : Desc) :
    ∀ (n : Nat) (sh : List Expr) (st : List Nat) (key : Key) (R : Store P.F) (cs : List Chunk),
      At T n sh st d → key.length = st.length → VisSame P T n st key S R →
      writeD P T S n key d = .ok cs → (∀ ch ∈ cs, ChunkOk P lit T S ch) →
      ∀ rest, ∃ R', readD P T lit n key d (R, chunkBytes cs ++ rest) = .ok (R', rest) ∧
        Touch n d.count key R R' ∧ Post P T S R' n d.count key := by
  induction d with
  | nil =>
    intro n sh st key R cs _ _ _ hw _ rest
    simp only [writeD] at hw
    injection hw with hw
    subst hw
    refine ⟨R, by simp [readD, chunkBytes], Touch.refl _ _ _ _, ?_⟩
    intro m h1 h2; simp [Desc.count] at h2; omega
  | field fd r ih =>
    intro n sh st key R cs hat hk hv hw hok rest
    obtain ⟨hn, hat'⟩ := hat.field
    have hstep : ∀ R1 cs1, Touch n 1 key R R1 → SameAt P T S R1 n key →
        writeD P T S (n + 1) key r = .ok cs1 → (∀ ch ∈ cs1, ChunkOk P lit T S ch) →
        ∃ R', readD P T lit (n + 1) key r (R1, chunkBytes cs1 ++ rest) = .ok (R', rest) ∧
          Touch n (Desc.field fd r).count key R R' ∧
          Post P T S R' n (Desc.field fd r).count key := by
      intro R1 cs1 ht1 hs1 hw1 hok1
      have hv1 : VisSame P T n st key S R1 := hv.frame P hC fun m k hlt => ht1 m k (by omega)
      obtain ⟨R2, hr2, ht2, hp2⟩ := ih (n + 1) sh st key R1 cs1 hat' hk
        (hv1.step P hn hk hs1) hw1 hok1 rest
      refine ⟨R2, hr2, ?_, ?_⟩
      · exact (ht1.mono (Nat.le_refl _) (by simp [Desc.count]) (List.prefix_refl _)).trans
          (ht2.mono (by omega) (by simp [Desc.count]; omega) (List.prefix_refl _))
      · intro m h1 h2 k hkp hreach
        rcases Nat.eq_or_lt_of_le h1 with rfl | hlt
        · have hkk : k = key := by
            obtain ⟨fi, hfi, hl, _⟩ := hreach
            rw [hn] at hfi
            injection hfi with hfi
            subst hfi
            have hlen : key.length = k.length := by
              rw [hl, hk]; simp [FInfo.depth, hat.len]
            exact (hkp.eq_of_length hlen).symm
          subst hkk
          refine hs1.trans ?_
          refine sameAt_frame P hC n k fun m' k' h _ => ?_
          exact (ht2 m' k' (by omega)).symm
        · exact hp2 m (by omega) (by simp [Desc.count] at h2; omega) k hkp hreach
    simp only [writeD, hn] at hw
    simp only [readD, hn]
    have hfi := hC n _ hn
    have hl := hv.look P hC
    have hcc := evalCond_congr P (fi := ⟨fd, sh, st⟩) hl (by simp only; omega) hfi
    rw [← hcc]
    cases hc : evalCond P (look P T S) ⟨fd, sh, st⟩ key with
    | error e => rw [hc] at hw; cases hw
    | ok b =>
      rw [hc] at hw
      cases b with
      | false =>
        simp only at hw ⊢
        exact hstep R cs (Touch.refl _ _ _ _)
          (sameAt_of_cond_false P hC hn hv (by simp only; omega) hc) hw hok
      | true =>
        simp only at hw ⊢
        cases hb : fieldBytes P (look P T S) S ⟨fd, sh, st⟩ n key with
        | error e => rw [hb] at hw; cases hw
        | ok b =>
          rw [hb] at hw
          simp only at hw
          cases hw1 : writeD P T S (n + 1) key r with
          | error e => rw [hw1] at hw; cases hw
          | ok cs1 =>
            rw [hw1] at hw
            simp only at hw
            injection hw with hw
            subst hw
            rw [chunkBytes_cons, List.append_assoc]
            obtain ⟨R1, hr1, ht1, hs1⟩ := readField_written P hC (lit := lit) hn hk hv hb
              (hok _ (by simp)) (chunkBytes cs1 ++ rest)
            simp only [hr1]
            exact hstep R1 cs1 ht1 hs1 hw1 (fun ch h => hok ch (by simp [h]))
  | loop e body r ihb ihr =>
    intro n sh st key R cs hat hk hv hw hok rest
    obtain ⟨heok, hatb, hatr⟩ := hat.loop
    simp only [writeD] at hw
    simp only [readD]
    rw [← hv.evalShape P hC heok (by omega)]
    cases hsh : evalShape P (look P T S) e key with
    | error x => rw [hsh] at hw; cases hw
    | ok c =>
      rw [hsh] at hw
      simp only at hw ⊢
      cases hw1 : forChunks (fun i => writeD P T S n (key ++ [i]) body) (indices c) with
      | error x => rw [hw1] at hw; cases hw
      | ok cs1 =>
        rw [hw1] at hw
        simp only at hw
        cases hw2 : writeD P T S (n + body.count) key r with
        | error x => rw [hw2] at hw; cases hw
        | ok cs2 =>
          rw [hw2] at hw
          simp only at hw
          injection hw with hw
          subst hw
          rw [chunkBytes_append, List.append_assoc]
          obtain ⟨R1, hr1, ht1, hp1⟩ := forRead_written P (lit := lit) hC hk
            (fun i R cs hv hw hok rest =>
              ihb n (sh ++ [e]) (st ++ [n]) (key ++ [i]) R cs hatb (by simp [hk]) hv hw hok rest)
            (indices c) (indices_nodup c) R cs1 hv hw1 (fun ch h => hok ch (by simp [h]))
            (chunkBytes cs2 ++ rest)
          simp only [hr1]
          have ht1' : Touch n body.count key R R1 := by
            intro m k hn
            refine ht1 m k ?_
            rintro ⟨a, b, i, _, hp⟩
            exact hn ⟨a, b, (List.prefix_append _ _).trans hp⟩
          have hv1 : VisSame P T n st key S R1 := hv.frame P hC fun m k hlt => ht1' m k (by omega)
          obtain ⟨R2, hr2, ht2, hp2⟩ := ihr (n + body.count) sh st key R1 cs2 hatr hk
            (hv1.skip P hat) hw2 (fun ch h => hok ch (by simp [h])) rest
          refine ⟨R2, hr2, ?_, ?_⟩
          · exact (ht1'.mono (Nat.le_refl _) (by simp [Desc.count]) (List.prefix_refl _)).trans
              (ht2.mono (by omega) (by simp [Desc.count]; omega) (List.prefix_refl _))
          · intro m h1 h2 k hkp hreach
            rcases Nat.lt_or_ge m (n + body.count) with hlt | hge
            · obtain ⟨fi, hfi, hst, hshp⟩ := hatb.inside h1 hlt
              have hreach' := hreach
              obtain ⟨fi', hfi', hlen, hall⟩ := hreach
              rw [hfi] at hfi'
              injection hfi' with hfi'
              subst hfi'
              -- the index of this loop
              have hsl : sh.length < fi.shapes.length := by
                have := hshp.length_le; simp at this; omega
              have hkl : sh.length < k.length := by rw [hlen]; exact hsl
              have he : fi.shapes[sh.length]? = some e := by
                obtain ⟨t, ht⟩ := hshp
                rw [← ht]; simp
              obtain ⟨hi0, c', hc', hic⟩ := hall sh.length e k[sh.length] he
                (List.getElem?_eq_getElem hkl)
              have hkey : k.take sh.length = key := by
                obtain ⟨t, rfl⟩ := hkp
                rw [hat.len, ← hk]; simp
              rw [hkey, hsh] at hc'
              injection hc' with hc'
              subst hc'
              have hpre : key ++ [k[sh.length]] <+: k := by
                rw [← hkey, List.take_append_getElem]
                exact List.take_prefix _ _
              have := hp1 k[sh.length] (mem_indices.mpr ⟨hi0, hic⟩) m h1 hlt k hpre hreach'
              refine this.trans ?_
              refine sameAt_frame P hC m k fun m' k' h _ => ?_
              exact (ht2 m' k' (by omega)).symm
            · exact hp2 m hge (by simp [Desc.count] at h2; omega) k hkp hreach

end Verif
