import Verif.Props.Tre

/- C23, C24: what is read after TREs are written to a header in any state. -/

namespace Verif

variable (P : PyFloat)

/-- An area that is not in use refers to no overflow segment. -/
def AreaVal.Sane (v : AreaVal) : Prop := v.len ≤ 0 → v.ofl ≤ 0

theorem parseBlobs_append {reg : Registry} {as bs : List Bytes} {ts us : List (Tre P.F)}
    (h1 : parseBlobs P reg as = .ok ts) (h2 : parseBlobs P reg bs = .ok us) :
    parseBlobs P reg (as ++ bs) = .ok (ts ++ us) := by
  induction as generalizing ts with
  | nil => cases h1; exact h2
  | cons a as ih =>
    rw [List.cons_append]
    unfold parseBlobs at h1 ⊢
    cases ha : readTreData P reg a with
    | error e => rw [ha] at h1; cases h1
    | ok t =>
      rw [ha] at h1
      simp only at h1 ⊢
      cases hb : parseBlobs P reg as with
      | error e => rw [hb] at h1; cases h1
      | ok r =>
        rw [hb] at h1
        cases h1
        rw [ih hb]
        simp

theorem parseBlobs_one {reg : Registry} {b : Bytes} {ts : List (Tre P.F)}
    (h : readTreData P reg b = .ok ts) : parseBlobs P reg [b] = .ok ts := by
  simp [parseBlobs, h]

/-- What is read from an area after writing `h` to it. -/
theorem store_parse {reg : Registry} (hreg : reg.Causal) {v : AreaVal} (hs : v.Sane) {h : Bytes}
    {ts : List (Tre P.F)} (hw : Written P reg ts h) {old : List (Tre P.F)}
    (ho : 0 < v.len → readTreData P reg v.data = .ok old) (des : List (Except Err Bytes)) :
    ∃ b x, (v.store h).blobs des = .ok b ∧ parseBlobs P reg b = .ok x ∧
      (ts ≠ [] → Each (SameTre P) ts x) ∧ (ts = [] → x = if 0 < v.len then old else []) := by
  obtain ⟨hg, ser, w1, w2⟩ := hw
  obtain ⟨us, u1, u2⟩ := area_round P hreg w1 hg
  rw [← w2] at u1
  by_cases hh : h = []
  · have ht : ts = [] := written_nil P (reg := reg) (by rw [← hh]; exact ⟨hg, ser, w1, w2⟩)
    unfold AreaVal.blobs AreaVal.store
    simp only [hh, if_true]
    by_cases hv : 0 < v.len
    · refine ⟨[v.data], old, ?_, parseBlobs_one P (ho hv), fun h => absurd ht h, fun _ => by
        rw [if_pos hv]⟩
      rw [if_pos hv, if_neg (by simp [hv])]
    · refine ⟨[], [], by rw [if_neg hv], rfl, fun h => absurd ht h, fun _ => by rw [if_neg hv]⟩
  · have ht : ts ≠ [] := by
      intro h0
      subst h0
      cases w1
      exact hh w2
    refine ⟨[h], us, ?_, parseBlobs_one P u1, fun _ => u2, fun h => absurd h ht⟩
    unfold AreaVal.blobs AreaVal.store
    simp only [hh, if_false]
    rw [if_pos (by omega), if_neg]
    split
    · omega
    · have := hs (by omega); omega

/-- The same for all areas but the first. -/
theorem rest_parse {reg : Registry} (hreg : reg.Causal) (des : List (Except Err Bytes))
    (grp old : Nat → List (Tre P.F)) :
    ∀ (vs : List AreaVal) (heads : List Bytes) (k : Nat),
      Each (fun v _ => v.Sane) vs heads →
      (∀ (i : Nat) (h : Bytes), heads[i]? = some h → Written P reg (grp (k + i)) h) →
      (∀ (i : Nat) (v : AreaVal), vs[i]? = some v → 0 < v.len →
        readTreData P reg v.data = .ok (old (k + i))) →
      ∃ (bs : List (List Bytes)) (gs : List (List (Tre P.F))),
        BlobsOf des (List.zipWith AreaVal.store vs heads) bs ∧
        parseBlobs P reg bs.flatten = .ok gs.flatten ∧ gs.length = vs.length ∧
        ∀ (i : Nat) x v, gs[i]? = some x → vs[i]? = some v →
          (grp (k + i) ≠ [] → Each (SameTre P) (grp (k + i)) x) ∧
          (grp (k + i) = [] → x = if 0 < v.len then old (k + i) else []) := by
  intro vs heads k hE
  induction hE generalizing k with
  | nil => intro _ _; exact ⟨[], [], .nil, rfl, rfl, by simp⟩
  | @cons v vs h heads hf _ ih =>
    intro hW hO
    obtain ⟨bs, gs, b1, b2, b3, b4⟩ := ih (k + 1)
      (by
        intro i h' hi
        have := hW (i + 1) h' (by simpa using hi)
        rwa [show k + (i + 1) = k + 1 + i by omega] at this)
      (by
        intro i v' hi
        have := hO (i + 1) v' (by simpa using hi)
        rwa [show k + (i + 1) = k + 1 + i by omega] at this)
    obtain ⟨b, x, p1, p2, p3, p4⟩ := store_parse P hreg hf (hW 0 h rfl) (hO 0 v rfl) des
    refine ⟨b :: bs, x :: gs, .cons p1 b1, ?_, by simp [b3], ?_⟩
    · rw [List.flatten_cons, List.flatten_cons]
      exact parseBlobs_append P p2 b2
    · intro i y w hy hw
      cases i with
      | zero =>
        simp only [List.getElem?_cons_zero, Option.some.injEq] at hy hw
        subst hy; subst hw
        exact ⟨p3, p4⟩
      | succ i =>
        rw [show k + (i + 1) = k + 1 + i by omega]
        exact b4 i y w (by simpa using hy) (by simpa using hw)

/-- C23, C24: exactly what is read after writing, for a header in any state.  `old i` are the TREs
the data of area `i` parses to, if that area is in use.  The TREs of the new overflow segment come
first; then, area by area, the new TREs of the area if it got any, and otherwise the TREs that were
in it before.  An old overflow segment is not read any more. -/
theorem C23_any_state {d : Desc} {areas : List Area} {ps : List AreaPos}
    (H : HeaderAreas d areas ps) {S : Store P.F} {vs : List AreaVal} (hS : HoldsAll P d S ps vs)
    (hsane : ∀ v ∈ vs, v.Sane)
    {reg : Registry} (hreg : reg.Causal) {tres : List (Tre P.F)}
    (hg : ∀ t ∈ tres, Representable P reg t) {ser : List Bytes}
    (hser : treWriteAll P tres = .ok ser) (hsz : ∀ b ∈ ser, b.length < 99996)
    {old : Nat → List (Tre P.F)}
    (hold : ∀ (i : Nat) (v : AreaVal), vs[i]? = some v → 0 < v.len →
      readTreData P reg v.data = .ok (old i)) (ndes : Nat) :
    ∃ S' o dest, prepareTreWrite P d areas ndes tres S = .ok (S', o) ∧
      Placement areas.length ser dest ∧
      ∀ des : List (Except Err Bytes), (∀ b, o = some b → des[ndes]? = some (.ok b)) →
        ∃ (u : List (Tre P.F)) (gs : List (List (Tre P.F))),
          readTre P reg d des areas S' = .ok (u ++ gs.flatten) ∧
          Each (SameTre P) (picks dest tres none) u ∧ gs.length = areas.length ∧
          ∀ (i : Nat) x v, gs[i]? = some x → vs[i]? = some v →
            (picks dest tres (some i) ≠ [] → Each (SameTre P) (picks dest tres (some i)) x) ∧
            (picks dest tres (some i) = [] → x = if 0 < v.len then old i else []) := by
  have hE := treWriteAll_each P hser
  have hsz' : ∀ b ∈ ser, b ≠ [] ∧ b.length < 99996 := by
    intro b hb
    obtain ⟨t, ht, htb⟩ := hE.mem_right hb
    have := treWrite_ne_nil P htb (hg t ht).1
    exact ⟨fun h0 => by rw [h0] at this; simp at this, hsz b hb⟩
  have hvl : vs.length = areas.length := by rw [← Each.length hS, H.at_.1]
  have hpos : 0 < areas.length := List.length_pos_iff.mpr H.nonempty
  obtain ⟨dest, d1, d2, d3, d4, d5, _⟩ := place_spec ser (areas.map fun _ => []) []
  cases hpl : place ser (areas.map fun _ => []) [] with
  | mk heads ov =>
  rw [hpl] at d3 d4 d5
  simp only [List.length_map, List.nil_append] at d3 d4 d5 d2
  have hpl' : place ser (List.replicate areas.length []) [] = (heads, ov) := by
    rw [← hpl, List.map_const']
  have hov : ov ≠ [] → heads.head? ≠ some [] := by
    intro hov hh
    have ht : 0 < ser.flatten.length := by
      cases hse : ser with
      | nil => rw [hse] at hpl; injection hpl with _ h2; exact absurd h2.symm hov
      | cons b bs =>
        have := List.length_pos_iff.mpr (hsz' b (by simp [hse])).1
        rw [List.flatten_cons, List.length_append]
        omega
    obtain ⟨h', e1, e2⟩ := place_reaches hsz' hpos (by omega) hpl'
    rw [← List.head?_eq_getElem?, hh] at e1
    injection e1 with e1
    exact e2 e1.symm
  have hW : ∀ (i : Nat) (h : Bytes), heads[i]? = some h →
      Written P reg (picks dest tres (some i)) h := by
    intro i h hi
    have hlt : i < areas.length := by rw [← d3]; exact lt_of_getElem? hi
    have := d4 i [] (by simp [hlt])
    rw [hi] at this
    injection this with this
    rw [this]
    exact written_picks P hE hg dest (some i)
  have hWo : Written P reg (picks dest tres none) ov := by
    rw [d5]; exact written_picks P hE hg dest none
  have hF : Each (fun (v : AreaVal) (_ : Bytes) => v.Sane) vs heads :=
    each_of_get (by omega) fun i v h h1 _ => hsane v (List.mem_of_getElem? h1)
  obtain ⟨S', p1, p2, _⟩ := prepare_spec P H hS ndes hser hpl (by
    intro ho v hv
    cases hF with
    | nil => simp at hv
    | @cons v0 vs h0 heads hf _ =>
      rw [List.zipWith_cons_cons] at hv
      simp only [List.head?_cons, Option.mem_def, Option.some.injEq] at hv
      subst hv
      have : h0 ≠ [] := by intro h; exact hov ho (by simp [h])
      unfold AreaVal.store
      simp only [this, if_false]
      omega)
  refine ⟨S', _, dest, p1, ⟨d1, fun k hk i hi => d2 k hk i hi⟩, ?_⟩
  intro des hdes
  by_cases ho : ov = []
  · obtain ⟨bs, gs, b1, b2, b3, b4⟩ := rest_parse P hreg des
      (fun i => picks dest tres (some i)) old vs heads 0 hF (by
        intro i h hi; rw [Nat.zero_add]; exact hW i h hi)
        (by intro i v hi; rw [Nat.zero_add]; exact hold i v hi)
    have hap : afterPrepare ndes vs heads ov = List.zipWith AreaVal.store vs heads := by
      unfold afterPrepare
      cases List.zipWith AreaVal.store vs heads with
      | nil => rfl
      | cons v r => simp [ho]
    rw [hap] at p2
    rw [ho] at hWo
    refine ⟨[], gs, ?_, by rw [written_nil P hWo]; exact .nil, by omega, ?_⟩
    · rw [readTre_holds P H p2 reg b1]; exact b2
    · intro i x v hx hv
      have := b4 i x v hx hv
      rwa [Nat.zero_add] at this
  · have hdes := hdes ov (by rw [if_neg ho])
    obtain ⟨wg, wser, w1, w2⟩ := hWo
    obtain ⟨u, u1, u2⟩ := area_round P hreg w1 wg
    rw [← w2] at u1
    cases hF with
    | nil => simp at d3; exact absurd d3.symm (by simpa using H.nonempty)
    | @cons v0 vs h0 heads hf hF =>
      have hh : h0 ≠ [] := by intro h; exact hov ho (by simp [h])
      obtain ⟨bs, gs, b1, b2, b3, b4⟩ := rest_parse P hreg des
        (fun i => picks dest tres (some i)) old vs heads 1 hF (by
          intro i h hi
          rw [Nat.add_comm 1 i]
          exact hW (i + 1) h (by simpa using hi))
        (by
          intro i v hi
          rw [Nat.add_comm 1 i]
          exact hold (i + 1) v (by simpa using hi))
      obtain ⟨zg, zser, z1, z2⟩ := hW 0 h0 rfl
      obtain ⟨x0, x1, x2⟩ := area_round P hreg z1 zg
      rw [← z2] at x1
      have hx0 : picks dest tres (some 0) ≠ [] := by
        intro h
        rw [h] at z1
        cases z1
        exact hh z2
      unfold afterPrepare at p2
      rw [List.zipWith_cons_cons] at p2
      simp only [ho, if_false] at p2
      have hb0 : ({ v0.store h0 with ofl := (ndes : Int) + 1 } : AreaVal).blobs
          des = .ok [ov, h0] := by
        unfold AreaVal.blobs AreaVal.store
        simp only [hh, if_false]
        rw [if_pos (by omega), if_pos (by omega)]
        rw [show ((ndes : Int) + 1 - 1).toNat = ndes by omega, hdes]
      refine ⟨u, x0 :: gs, ?_, u2, by simp only [List.length_cons] at hvl ⊢; omega, ?_⟩
      · rw [readTre_holds P H p2 reg (.cons hb0 b1), List.flatten_cons, List.flatten_cons,
          ← List.append_assoc]
        exact parseBlobs_append P (parseBlobs_append P (parseBlobs_one P u1) (parseBlobs_one P x1)) b2
      · intro i x v hx hv
        cases i with
        | zero =>
          simp only [List.getElem?_cons_zero, Option.some.injEq] at hx
          subst hx
          exact ⟨fun _ => x2, fun h => absurd h hx0⟩
        | succ i =>
          have := b4 i x v (by simpa using hx) (by simpa using hv)
          rwa [Nat.add_comm 1 i] at this

/-- C24: exactly what is left when all TREs are removed from a header: everything its areas held,
in order; only what was in an overflow segment is gone. -/
theorem C24_remove_all {d : Desc} {areas : List Area} {ps : List AreaPos}
    (H : HeaderAreas d areas ps) {S : Store P.F} {vs : List AreaVal} (hS : HoldsAll P d S ps vs)
    (hsane : ∀ v ∈ vs, v.Sane) {reg : Registry} (hreg : reg.Causal)
    {old : List (List (Tre P.F))} (hlen : old.length = areas.length)
    (hold : ∀ (i : Nat) (v : AreaVal) x, vs[i]? = some v → old[i]? = some x →
      (0 < v.len → readTreData P reg v.data = .ok x) ∧ (v.len ≤ 0 → x = []))
    (ndes : Nat) (des : List (Except Err Bytes)) :
    ∃ S', prepareTreWrite P d areas ndes [] S = .ok (S', none) ∧
      readTre P reg d des areas S' = .ok old.flatten := by
  have hvl : vs.length = areas.length := by rw [← Each.length hS, H.at_.1]
  have hget : ∀ (i : Nat) (v : AreaVal), vs[i]? = some v → ∃ x, old[i]? = some x := by
    intro i v hv
    have := lt_of_getElem? hv
    exact ⟨old[i]'(by omega), List.getElem?_eq_getElem _⟩
  obtain ⟨S', o, dest, h1, h2, h3⟩ := C23_any_state P H hS hsane hreg (tres := []) (by simp)
    (ser := []) rfl (by simp) (old := fun i => old[i]?.getD []) (by
      intro i v hv hl
      obtain ⟨x, hx⟩ := hget i v hv
      simp only [hx, Option.getD_some]
      exact (hold i v x hv hx).1 hl) ndes
  obtain ⟨S2, p1, _⟩ := C24_never_cleared P H hS ndes
  rw [h1] at p1
  injection p1 with p1
  injection p1 with p1 p2
  subst p1; subst p2
  obtain ⟨u, gs, g1, g2, g3, g4⟩ := h3 des (by simp)
  have hp : ∀ k, picks dest ([] : List (Tre P.F)) k = [] := by intro k; simp [picks]
  rw [hp] at g2
  cases g2
  refine ⟨S', h1, ?_⟩
  rw [g1, List.nil_append]
  congr 2
  refine List.ext_getElem? fun i => ?_
  by_cases hi : i < areas.length
  · have e1 : i < gs.length := by omega
    have e2 : i < vs.length := by omega
    have e3 : i < old.length := by omega
    rw [List.getElem?_eq_getElem e1, List.getElem?_eq_getElem e3]
    have h4 := (g4 i _ _ (List.getElem?_eq_getElem e1) (List.getElem?_eq_getElem e2)).2 (hp _)
    rw [h4]
    simp only [List.getElem?_eq_getElem e3, Option.getD_some]
    split
    · rfl
    · exact congrArg some ((hold i _ _ (List.getElem?_eq_getElem e2)
        (List.getElem?_eq_getElem e3)).2 (by omega)).symm
  · rw [List.getElem?_eq_none (by omega), List.getElem?_eq_none (by omega)]

/-- C24, negation for every list: any TREs that fit into the first area of a new header are written,
then all are removed and the header is written again; they are all still there. -/
theorem C24_removed_still_there {d : Desc} {areas : List Area} {ps : List AreaPos}
    (H : HeaderAreas d areas ps) {S : Store P.F} {vs : List AreaVal} (hS : HoldsAll P d S ps vs)
    (hnew : ∀ v ∈ vs, v = unused) {reg : Registry} (hreg : reg.Causal) {tres : List (Tre P.F)}
    (hg : ∀ t ∈ tres, Representable P reg t) {ser : List Bytes}
    (hser : treWriteAll P tres = .ok ser) (hfit : ser.flatten.length < 99996)
    (des : List (Except Err Bytes)) :
    ∃ S1 S2, prepareTreWrite P d areas des.length tres S = .ok (S1, none) ∧
      prepareTreWrite P d areas des.length [] S1 = .ok (S2, none) ∧
      ∃ us, readTre P reg d des areas S2 = .ok us ∧ Each (SameTre P) tres us := by
  have hE := treWriteAll_each P hser
  obtain ⟨us, u1, u2⟩ := area_round P hreg hE hg
  have hvl : vs.length = areas.length := by rw [← Each.length hS, H.at_.1]
  cases hA : areas with
  | nil => exact absurd hA H.nonempty
  | cons a as =>
  cases hV : vs with
  | nil => rw [hA, hV] at hvl; simp at hvl
  | cons v0 vt =>
  have hpl : place ser (areas.map fun _ => []) [] = (ser.flatten :: as.map fun _ => [], []) := by
    rw [hA, List.map_cons, place_first [] _ [] ser [] (by simpa using hfit)]
    simp
  obtain ⟨S1, p1, p2, _⟩ := prepare_spec P H hS des.length hser hpl (by simp)
  have hap : afterPrepare des.length vs (ser.flatten :: as.map fun _ => []) [] =
      v0.store ser.flatten :: vt := by
    unfold afterPrepare
    rw [hV, List.zipWith_cons_cons]
    simp only [if_true]
    congr 1
    refine List.ext_getElem? fun i => ?_
    rw [List.getElem?_zipWith]
    have hl : vt.length = as.length := by rw [hA, hV] at hvl; simpa using hvl
    cases hi : vt[i]? with
    | none => simp
    | some v =>
      have : i < as.length := by rw [← hl]; exact lt_of_getElem? hi
      rw [List.getElem?_map, List.getElem?_eq_getElem this]
      have hu := hnew v (by rw [hV]; exact List.mem_cons_of_mem _ (List.mem_of_getElem? hi))
      subst hu
      rfl
  rw [hap] at p2
  have h0 : v0 = unused := hnew v0 (by simp [hV])
  have hl : vt.length = as.length := by rw [hA, hV] at hvl; simpa using hvl
  by_cases hn : ser.flatten = []
  · have ht : tres = [] := written_nil P (reg := reg) ⟨hg, ser, hE, hn.symm⟩
    subst ht
    obtain ⟨S2, q1, q2⟩ := C24_remove_all P H p2 (by
        intro v hv _
        rw [hn, h0] at hv
        rcases List.mem_cons.mp hv with rfl | hv
        · decide
        · rw [hnew v (by rw [hV]; exact List.mem_cons_of_mem _ hv)]; decide) hreg
      (old := areas.map fun _ => []) (by simp) (by
        intro i v x hv hx
        have hx : x = [] := by
          rw [List.getElem?_map] at hx
          cases h : areas[i]? with
          | none => rw [h] at hx; cases hx
          | some _ => rw [h] at hx; cases hx; rfl
        refine ⟨fun hl => ?_, fun _ => hx⟩
        rw [hn, h0] at hv
        have hv := List.mem_of_getElem? hv
        exfalso
        rcases List.mem_cons.mp hv with rfl | hv
        · revert hl; decide
        · rw [hnew v (by rw [hV]; exact List.mem_cons_of_mem _ hv)] at hl; revert hl; decide)
      des.length des
    rw [← hA]
    refine ⟨S1, S2, by simpa using p1, q1, [], ?_, .nil⟩
    rw [q2]
    congr 1
    simp
  · obtain ⟨S2, q1, q2⟩ := C24_remove_all P H p2 (by
        intro v hv
        rcases List.mem_cons.mp hv with rfl | hv
        · rw [h0]
          intro _
          simp only [AreaVal.store, unused]
          decide
        · rw [hnew v (by rw [hV]; exact List.mem_cons_of_mem _ hv)]; intro _; decide) hreg
      (old := us :: as.map fun _ => []) (by simp [hA]) (by
        intro i v x hv hx
        cases i with
        | zero =>
          simp only [List.getElem?_cons_zero, Option.some.injEq] at hv hx
          subst hv; subst hx
          refine ⟨fun _ => ?_, fun h => ?_⟩
          · simp only [AreaVal.store, hn, if_false]; exact u1
          · simp only [AreaVal.store, hn, if_false] at h; omega
        | succ i =>
          simp only [List.getElem?_cons_succ] at hv hx
          rw [hnew v (by rw [hV]; exact List.mem_cons_of_mem _ (List.mem_of_getElem? hv))]
          refine ⟨fun h => absurd h (by decide), fun _ => ?_⟩
          rw [List.getElem?_map] at hx
          cases h : as[i]? with
          | none => rw [h] at hx; cases hx
          | some _ => rw [h] at hx; cases hx; rfl)
      des.length des
    rw [← hA]
    refine ⟨S1, S2, by simpa using p1, q1, us, ?_, u2⟩
    rw [q2]
    congr 1
    simp

/-- Two TREs in a new file header: written, removed, and still there. -/
example (des : List (Except Err Bytes)) :
    ∃ S1 S2, prepareTreWrite P Tables.t_file_header fileAreas des.length
        [.unknown "ABC".toList (asc "a"), .unknown "XYZ".toList (asc "bc")] Store.empty =
          .ok (S1, none) ∧
      prepareTreWrite P Tables.t_file_header fileAreas des.length [] S1 = .ok (S2, none) ∧
      ∃ us, readTre P [] Tables.t_file_header des fileAreas S2 = .ok us ∧
        Each (SameTre P)
          [.unknown "ABC".toList (asc "a"), .unknown "XYZ".toList (asc "bc")] us :=
  C24_removed_still_there P fileHeader_areas (fileHeader_fresh P) (by simp) (by intro _ h; cases h)
    (by
      intro t ht
      simp only [List.mem_cons, List.not_mem_nil, or_false] at ht
      rcases ht with rfl | rfl
      · exact ⟨(⟨by decide, by decide, by decide⟩ : TagOk "ABC".toList), rfl⟩
      · exact ⟨(⟨by decide, by decide, by decide⟩ : TagOk "XYZ".toList), rfl⟩)
    (ser := [asc "ABC   00001a", asc "XYZ   00002bc"]) rfl (by decide) des

end Verif
