import Verif.Layout
import Verif.Items

/- Lemmas about literal copies and about copying structs. -/

namespace Verif

variable (P : PyFloat)

/-- Where the slots come from. -/
theorem layoutD_from {T : Tab} (S : Store P.F) (d : Desc) :
    ∀ (n : Nat) (key : Key) (sl : List Slot), layoutD P T S n key d = .ok sl →
      ∀ s ∈ sl, n ≤ s.pos ∧ s.pos < n + d.count ∧ key <+: s.key ∧
        ∃ fi, T[s.pos]? = some fi ∧ evalCond P (look P T S) fi s.key = .ok true ∧
        evalSize P (look P T S) fi s.key = .ok s.size := by
  induction d with
  | nil =>
    intro n key sl h s hs
    simp only [layoutD] at h; injection h with h; subst h; cases hs
  | field fd r ih =>
    intro n key sl h s hs
    have hrest : ∀ sl1, layoutD P T S (n + 1) key r = .ok sl1 → s ∈ sl1 →
        n ≤ s.pos ∧ s.pos < n + (Desc.field fd r).count ∧ key <+: s.key ∧
        ∃ fi, T[s.pos]? = some fi ∧ evalCond P (look P T S) fi s.key = .ok true ∧
        evalSize P (look P T S) fi s.key = .ok s.size := by
      intro sl1 h1 hm
      obtain ⟨a, b, c, d⟩ := ih (n + 1) key sl1 h1 s hm
      exact ⟨by omega, by simp only [Desc.count]; omega, c, d⟩
    simp only [layoutD] at h
    cases hn : T[n]? with
    | none => rw [hn] at h; cases h
    | some fi =>
      rw [hn] at h
      simp only at h
      cases hc : evalCond P (look P T S) fi key with
      | error e => rw [hc] at h; cases h
      | ok b =>
        rw [hc] at h
        cases b with
        | false => exact hrest sl h hs
        | true =>
          simp only at h
          cases hb : evalSize P (look P T S) fi key with
          | error e => rw [hb] at h; cases h
          | ok sz =>
            rw [hb] at h
            simp only at h
            cases hw : layoutD P T S (n + 1) key r with
            | error e => rw [hw] at h; cases h
            | ok sl1 =>
              rw [hw] at h
              simp only at h
              injection h with h
              subst h
              rw [List.mem_cons] at hs
              rcases hs with rfl | hs
              · exact ⟨Nat.le_refl _, by simp [Desc.count], List.prefix_refl _, fi, hn, hc, hb⟩
              · exact hrest sl1 hw hs
  | loop e body r ihb ihr =>
    intro n key sl h s hs
    simp only [layoutD] at h
    cases hsh : evalShape P (look P T S) e key with
    | error x => rw [hsh] at h; cases h
    | ok c =>
      rw [hsh] at h
      simp only at h
      cases h1 : forChunks (fun i => layoutD P T S n (key ++ [i]) body) (indices c) with
      | error x => rw [h1] at h; cases h
      | ok sl1 =>
        rw [h1] at h
        simp only at h
        cases h2 : layoutD P T S (n + body.count) key r with
        | error x => rw [h2] at h; cases h
        | ok sl2 =>
          rw [h2] at h
          simp only at h
          injection h with h
          subst h
          rw [List.mem_append] at hs
          rcases hs with hs | hs
          · obtain ⟨i, _, sl', hf, hm⟩ := forChunks_mem h1 hs
            obtain ⟨a, b, hp, d⟩ := ihb n (key ++ [i]) sl' hf s hm
            exact ⟨a, by simp only [Desc.count]; omega, (List.prefix_append _ _).trans hp, d⟩
          · obtain ⟨a, b, hp, d⟩ := ihr _ key sl2 h2 s hs
            exact ⟨by omega, by simp only [Desc.count]; omega, hp, d⟩

/-- Writing, from the slots and the bytes of each. -/
theorem writeD_of_slots {T : Tab} {S : Store P.F} {d : Desc} {n : Nat} {key : Key}
    {cs : List Chunk} (h : layoutD P T S n key d = .ok (cs.map Chunk.slot))
    (hf : ∀ ch ∈ cs, ∃ fi, T[ch.pos]? = some fi ∧
      fieldBytes P (look P T S) S fi ch.pos ch.key = .ok ch.bytes) :
    writeD P T S n key d = .ok cs := by
  let f : Slot → Bytes := fun s =>
    match T[s.pos]? with
    | none => []
    | some fi =>
      match fieldBytes P (look P T S) S fi s.pos s.key with
      | .ok b => b
      | .error _ => []
  have hfs : ∀ ch ∈ cs, f ch.slot = ch.bytes := by
    intro ch hch
    obtain ⟨fi, h1, h2⟩ := hf ch hch
    simp only [f, Chunk.slot, h1, h2]
  rw [layoutD_write P S f d n key _ h ?_]
  · congr 1
    rw [List.map_map]
    conv => rhs; rw [← List.map_id cs]
    refine List.map_congr_left fun ch hch => ?_
    simp only [Function.comp, hfs ch hch, id]
    rfl
  · intro s hs fi hfi
    obtain ⟨ch, hch, rfl⟩ := List.mem_map.mp hs
    obtain ⟨fi', h1, h2⟩ := hf ch hch
    rw [hfs ch hch]
    have : fi' = fi := by
      have := h1.symm.trans (show T[ch.pos]? = some fi from hfi)
      injection this
    subst this
    exact h2

/-- Chunks in the same slots with the same total are the same. -/
theorem chunks_eq : ∀ {as bs : List Chunk}, as.map Chunk.slot = bs.map Chunk.slot →
    chunkBytes as = chunkBytes bs → as = bs
  | [], [], _, _ => rfl
  | [], _ :: _, h, _ => by simp at h
  | _ :: _, [], h, _ => by simp at h
  | a :: as, b :: bs, h, hb => by
    simp only [List.map_cons] at h
    injection h with h1 h2
    rw [chunkBytes_cons, chunkBytes_cons] at hb
    have hl : a.bytes.length = b.bytes.length := by
      have := congrArg Slot.size h1
      simp only [Chunk.slot] at this
      omega
    obtain ⟨hb1, hb2⟩ := List.append_inj hb hl
    rw [chunks_eq h2 hb2]
    have : a = b := by
      have hp := congrArg Slot.pos h1
      have hk := congrArg Slot.key h1
      cases a; cases b
      simp only [Chunk.slot] at hp hk hb1
      subst hp hk hb1
      rfl
    rw [this]

theorem forChunks_congr {α} {f g : Int → Except Err (List α)} {is : List Int}
    (h : ∀ i ∈ is, f i = g i) : forChunks f is = forChunks g is := by
  induction is with
  | nil => rfl
  | cons i is ih =>
    simp only [forChunks]
    rw [h i (by simp), ih fun j hj => h j (by simp [hj])]

/-- Structs whose reachable fields agree have the same layout. -/
theorem layoutD_same {T : Tab} (hC : CausalTab T) {S R : Store P.F} (hA : AllSame P T S R)
    (d : Desc) :
    ∀ (n : Nat) (sh : List Expr) (st : List Nat) (key : Key),
      At T n sh st d → key.length = st.length → VisSame P T n st key S R →
      (∀ (i : Nat) e x, sh[i]? = some e → key[i]? = some x →
        0 ≤ x ∧ ∃ c, evalShape P (look P T S) e (key.take i) = .ok c ∧ x < c) →
      layoutD P T R n key d = layoutD P T S n key d := by
  induction d with
  | nil => intros; rfl
  | field fd r ih =>
    intro n sh st key hat hk hv hr
    obtain ⟨hn, hat'⟩ := hat.field
    have hfi := hC n _ hn
    have hl := hv.look P hC
    simp only [layoutD, hn]
    rw [← evalCond_congr P (fi := ⟨fd, sh, st⟩) hl (by simp only; omega) hfi,
      ← evalSize_congr P (fi := ⟨fd, sh, st⟩) hl (by simp only; omega) hfi,
      ih (n + 1) sh st key hat' hk
        (hv.step P hn hk (hA n key ⟨_, hn, by simp [FInfo.depth, hk, hat.len], hr⟩)) hr]
  | loop e body r ihb ihr =>
    intro n sh st key hat hk hv hr
    obtain ⟨heok, hatb, hatr⟩ := hat.loop
    simp only [layoutD]
    rw [← hv.evalShape P hC heok (by omega)]
    cases hsh : evalShape P (look P T S) e key with
    | error x => rfl
    | ok c =>
      simp only
      rw [ihr _ sh st key hatr hk (hv.skip P hat) hr]
      rw [forChunks_congr (g := fun i => layoutD P T S n (key ++ [i]) body)]
      intro i hi
      refine ihb n (sh ++ [e]) (st ++ [n]) (key ++ [i]) hatb (by simp [hk]) (hv.enter P hC hk i) ?_
      intro j e' x he' hx
      rcases Nat.lt_or_ge j key.length with hl | hg
      · rw [List.getElem?_append_left hl] at hx
        rw [List.getElem?_append_left (by rw [hat.len]; omega)] at he'
        rw [List.take_append_of_le_length (by omega)]
        exact hr j e' x he' hx
      · have hj : j = key.length := by
          have := lt_of_getElem? hx; simp at this; omega
        subst hj
        have h1 : sh.length = key.length := by rw [hat.len, hk]
        have : e' = e := by
          rw [← h1] at he'; simpa using he'.symm
        subst this
        have : x = i := by simpa using hx.symm
        subst this
        have := mem_indices.mp hi
        exact ⟨this.1, c, by simpa using hsh, this.2⟩

/-- Everything a completed read of a whole struct establishes. -/
theorem readInto_facts {d : Desc} (hd : d.causal = true) {lit : Bool} {R0 R : Store P.F}
    {b rest : Bytes} (h : readInto P d lit R0 b = .ok (R, rest)) :
    ∃ ins, b = chunkBytes ins ++ rest ∧ Consumes (readD P d.tab lit 0 [] d) R0 R (chunkBytes ins) ∧
      layout P d R = .ok (ins.map Chunk.slot) ∧
      (∀ ch ∈ ins, ∀ fi, d.tab[ch.pos]? = some fi → fi.fd.name ≠ none →
        ∃ v, parseField P fi.fd lit ch.bytes = .ok v ∧
          R ch.pos ch.key = some ⟨v, some ch.bytes⟩) ∧
      (∀ m k fi, d.tab[m]? = some fi → fi.fd.name = none → R m k = R0 m k) := by
  obtain ⟨ins, hb, hcon, hf⟩ := readD_facts P (Desc.causalTab hd) lit d 0 [] [] [] R0 R b rest
    (at_top d hd) rfl h
  exact ⟨ins, hb, hcon, hf.slots R (fun _ _ _ _ => rfl), hf.cells, hf.reserved⟩

/-- Writing a struct and reading it back: the store read agrees with the one written. -/
theorem readInto_written {d : Desc} (hd : d.causal = true) {S : Store P.F} {cs : List Chunk}
    (hw : writeChunks P d S = .ok cs) (lit : Bool) (hok : ∀ ch ∈ cs, ChunkOk P lit d.tab S ch)
    (R0 : Store P.F) (rest : Bytes) :
    ∃ R, readInto P d lit R0 (chunkBytes cs ++ rest) = .ok (R, rest) ∧ AllSame P d.tab S R := by
  obtain ⟨R, h1, _, h3⟩ := readD_written P (Desc.causalTab hd) S lit d 0 [] [] [] R0 cs
    (at_top d hd) rfl (by intro m fi _ h; omega) hw hok rest
  refine ⟨R, h1, ?_⟩
  intro m k hr
  obtain ⟨fi, hm, hl, hsh⟩ := hr
  have : m < 0 + d.count := by
    have := lt_of_getElem? hm
    unfold Desc.tab at this
    rw [length_flatten] at this
    omega
  exact h3 m (Nat.zero_le _) this k (List.nil_prefix) ⟨fi, hm, hl, hsh⟩

end Verif
