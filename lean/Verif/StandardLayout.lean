import Verif.StandardSpec

/-
Lemmas for C98: what the tables of the headers lay out.
-/

namespace Verif.Standard

open Verif Verif.Sense

variable {P : PyFloat}

/-! ### Taking a layout apart -/

/-- The width of a field without expressions. -/
def widthAt (T : Tab) (m : Nat) : Nat :=
  match T[m]? with
  | some fi => match fi.fd.size with
    | .const w => w
    | .expr _ => 0
  | none => 0

def plainRun (T : Tab) (n k : Nat) : Bool :=
  (List.range' n k).all fun m => match T[m]? with
    | some fi => fi.fd.cond.isNone && fi.fd.sizeOffset == 0 && match fi.fd.size with
      | .const _ => true
      | .expr _ => false
    | none => false

def runSlots (T : Tab) (key : Key) (n k : Nat) : List Slot :=
  (List.range' n k).map fun m => ⟨m, key, widthAt T m⟩

/-- What is left after `k` fields. -/
def Desc.after : Desc → Nat → Desc
  | d, 0 => d
  | .field _ r, k + 1 => Desc.after r k
  | d, _ => d

def startsPlain : Desc → Nat → Bool
  | _, 0 => true
  | .field _ r, k + 1 => startsPlain r k
  | _, _ => false

theorem inv_run {T : Tab} {S : Store P.F} {key : Key} : ∀ (k n : Nat) (d : Desc) {sl : List Slot},
    plainRun T n k = true → startsPlain d k = true → layoutD P T S n key d = .ok sl →
    ∃ sl', layoutD P T S (n + k) key (Desc.after d k) = .ok sl' ∧ sl = runSlots T key n k ++ sl' := by
  intro k
  induction k with
  | zero => intro n d sl _ _ h; exact ⟨sl, by cases d <;> exact h, rfl⟩
  | succ k ih =>
    intro n d sl hp hs h
    cases d with
    | nil => cases hs
    | loop _ _ _ => cases hs
    | field fd r =>
      simp only [plainRun, List.range'_succ, List.all_cons, Bool.and_eq_true] at hp
      obtain ⟨hp0, hp⟩ := hp
      simp only [layoutD] at h
      cases hf : T[n]? with
      | none => rw [hf] at hp0; cases hp0
      | some fi =>
        rw [hf] at hp0 h
        simp only [Bool.and_eq_true, Option.isNone_iff_eq_none, beq_iff_eq] at hp0
        obtain ⟨⟨h1, h2⟩, h3⟩ := hp0
        have hc : evalCond P (look P T S) fi key = .ok true := by
          unfold evalCond
          rw [h1]
        cases hz : fi.fd.size with
        | expr e => rw [hz] at h3; cases h3
        | const w =>
          have hsz : evalSize P (look P T S) fi key = .ok (w : Int) := by
            unfold evalSize
            rw [hz, h2]
            simp only
            by_cases h0 : (w : Int) = 0
            · simp [h0]
            · rw [if_pos h0]; simp
          simp only [hc, hsz] at h
          cases hr : layoutD P T S (n + 1) key r with
          | error e => rw [hr] at h; cases h
          | ok s1 =>
            rw [hr] at h
            injection h with h
            obtain ⟨s2, g1, g2⟩ := ih (n + 1) r hp hs hr
            refine ⟨s2, ?_, ?_⟩
            · rw [show n + (k + 1) = n + 1 + k from by omega]
              exact g1
            · rw [← h, g2]
              have hw : widthAt T n = w := by simp only [widthAt, hf, hz]
              simp only [runSlots, List.range'_succ, List.map_cons, hw, List.cons_append]

theorem inv_opt {T : Tab} {S : Store P.F} {key : Key} {n : Nat} {fd : FieldDef} {r : Desc}
    {sl : List Slot} {fi : FInfo} (hf : T[n]? = some fi)
    (h : layoutD P T S n key (.field fd r) = .ok sl) :
    (evalCond P (look P T S) fi key = .ok false ∧ layoutD P T S (n + 1) key r = .ok sl) ∨
    (evalCond P (look P T S) fi key = .ok true ∧ ∃ sz sl', evalSize P (look P T S) fi key = .ok sz ∧
      layoutD P T S (n + 1) key r = .ok sl' ∧ sl = ⟨n, key, sz⟩ :: sl') := by
  simp only [layoutD, hf] at h
  cases hc : evalCond P (look P T S) fi key with
  | error e => rw [hc] at h; cases h
  | ok b =>
    rw [hc] at h
    cases b with
    | false => exact .inl ⟨rfl, h⟩
    | true =>
      simp only at h
      cases hz : evalSize P (look P T S) fi key with
      | error e => rw [hz] at h; cases h
      | ok sz =>
        rw [hz] at h
        simp only at h
        cases hr : layoutD P T S (n + 1) key r with
        | error e => rw [hr] at h; cases h
        | ok s1 =>
          rw [hr] at h
          injection h with h
          exact .inr ⟨rfl, sz, s1, rfl, rfl, h.symm⟩

theorem forChunks_inv {α : Type} {f : Int → Except Err (List α)} : ∀ {is : List Int} {l : List α},
    forChunks f is = .ok l → ∃ g : Int → List α, (∀ i ∈ is, f i = .ok (g i)) ∧ l = is.flatMap g := by
  intro is
  induction is with
  | nil =>
    intro l h
    injection h with h
    exact ⟨fun _ => [], by simp, by simp [← h]⟩
  | cons i is ih =>
    intro l h
    simp only [forChunks] at h
    cases h1 : f i with
    | error e => rw [h1] at h; cases h
    | ok a =>
      rw [h1] at h
      simp only at h
      cases h2 : forChunks f is with
      | error e => rw [h2] at h; cases h
      | ok b =>
        rw [h2] at h
        injection h with h
        refine ⟨fun j => match f j with
          | .ok x => x
          | .error _ => [], ?_, ?_⟩
        · obtain ⟨g, g1, _⟩ := ih h2
          intro j hj
          rcases List.mem_cons.mp hj with rfl | hj
          · simp only [h1]
          · simp only [g1 j hj]
        · obtain ⟨g, g1, g2⟩ := ih h2
          have e : (is.flatMap fun j => match f j with
              | .ok x => x
              | .error _ => []) = is.flatMap g := by
            simp only [List.flatMap]
            congr 1
            refine List.map_congr_left fun j hj => ?_
            simp only [g1 j hj]
          rw [List.flatMap_cons, e, ← g2, ← h, h1]

theorem inv_loop {T : Tab} {S : Store P.F} {key : Key} {n : Nat} {e : Expr} {body r : Desc}
    {sl : List Slot} (h : layoutD P T S n key (.loop e body r) = .ok sl) :
    ∃ (c : Int) (g : Int → List Slot) (sl' : List Slot), evalShape P (look P T S) e key = .ok c ∧
      (∀ i ∈ indices c, layoutD P T S n (key ++ [i]) body = .ok (g i)) ∧
      layoutD P T S (n + body.count) key r = .ok sl' ∧ sl = (indices c).flatMap g ++ sl' := by
  simp only [layoutD] at h
  cases hc : evalShape P (look P T S) e key with
  | error x => rw [hc] at h; cases h
  | ok c =>
    rw [hc] at h
    simp only at h
    cases h1 : forChunks (fun i => layoutD P T S n (key ++ [i]) body) (indices c) with
    | error x => rw [h1] at h; cases h
    | ok a =>
      rw [h1] at h
      simp only at h
      cases h2 : layoutD P T S (n + body.count) key r with
      | error x => rw [h2] at h; cases h
      | ok b =>
        rw [h2] at h
        injection h with h
        obtain ⟨g, g1, g2⟩ := forChunks_inv h1
        exact ⟨c, g, b, rfl, g1, rfl, by rw [← h, g2]⟩

/-- What is shown of a slot. -/
def seen (d : Desc) (s : Slot) : Option Name × Key × Nat :=
  ((d.tab[s.pos]?).bind (·.fd.name), s.key, s.size.toNat)

def coded (p : Piece) : Option Name × Key × Nat := (some (nameCode p.1.toList), p.2.1, p.2.2)

theorem pieces_iff {d : Desc} {cs : List Chunk} {l : List Piece} :
    Pieces d cs l ↔ (cs.map Chunk.slot).map (seen d) = l.map coded := by
  unfold Pieces
  rw [List.map_map]
  have : (seen d ∘ Chunk.slot) = fun ch : Chunk =>
      ((d.tab[ch.pos]?).bind (·.fd.name), ch.key, ch.bytes.length) := by
    funext ch
    simp [seen, Chunk.slot]
  rw [this]
  rfl

theorem each_seen {d : Desc} {c : Int} {g : Int → List Slot} {f : Int → List Piece}
    (h : ∀ i ∈ indices c, (g i).map (seen d) = (f i).map coded) :
    ((indices c).flatMap g).map (seen d) = (each c f).map coded := by
  unfold each
  have : ∀ l : List Nat, (∀ i ∈ l.map Int.ofNat, (g i).map (seen d) = (f i).map coded) →
      ((l.map Int.ofNat).flatMap g).map (seen d) = (l.flatMap fun i : Nat => f i).map coded := by
    intro l
    induction l with
    | nil => intro _; rfl
    | cons a l ih =>
      intro h
      simp only [List.map_cons, List.flatMap_cons, List.map_append]
      rw [ih fun i hi => h i (by simp only [List.map_cons, List.mem_cons]; exact .inr hi)]
      congr 1
      exact h (Int.ofNat a) (by simp)
  exact this _ h

/-- The value of a reference. -/
theorem ref_val {d : Desc} (hd : d.causal = true) {S : Store P.F} {nm : Name} {key : Key}
    {v : Val P.F} (h : look P d.tab S nm key = .ok v) : getAttr P d S nm key = .ok v := by
  obtain ⟨n, fi, h1, _, _, h4⟩ := (look_iff P hd S nm key v).mp h
  unfold getAttr
  rw [h1]
  exact h4

theorem counts_of {d : Desc} (hd : d.causal = true) {S : Store P.F} {nm : Name} {idx : List Nat}
    {key k : Key} (hk : idxKey key idx = .ok k) {c : Int}
    (h : evalShape P (look P d.tab S) (.ref nm idx) key = .ok c) : Counts P d S nm k c := by
  unfold evalShape at h
  simp only [evalE, hk, bind, Except.bind] at h
  cases hl : look P d.tab S nm k with
  | error e => rw [hl] at h; cases h
  | ok v =>
    rw [hl] at h
    have := ref_val hd hl
    cases v with
    | none => injection h with h; exact .inr ⟨this, h.symm⟩
    | int z => injection h with h; subst h; exact .inl this
    | _ => cases h

/-- The two fields of an area behind its length. -/
theorem inv_area {d : Desc} (hd : d.causal = true) {S : Store P.F} {n : Nat} {len : Name}
    {f1 f2 : FieldDef} {r : Desc} {sl : List Slot} {a b : FInfo}
    (ha : d.tab[n]? = some a) (hb : d.tab[n + 1]? = some b)
    (ca : a.fd.cond = some (.ne (.ref len []) (.const (.int 0)))) (sa : a.fd.size = .const 3)
    (oa : a.fd.sizeOffset = 0) (cb : b.fd.cond = none) (sb : b.fd.size = .expr (.ref len []))
    (ob : b.fd.sizeOffset = 3)
    (h : layoutD P d.tab S n [] (.field f1 (.field f2 r)) = .ok sl) :
    ∃ v sl', getAttr P d S len [] = .ok (.int v) ∧ layoutD P d.tab S (n + 2) [] r = .ok sl' ∧
      sl = (if v = 0 then [⟨n + 1, [], 0⟩] else [⟨n, [], 3⟩, ⟨n + 1, [], v - 3⟩]) ++ sl' := by
  have key : ∀ {sl1 : List Slot}, layoutD P d.tab S (n + 1) [] (.field f2 r) = .ok sl1 →
      ∃ v sl', look P d.tab S len [] = .ok (.int v) ∧ layoutD P d.tab S (n + 2) [] r = .ok sl' ∧
        sl1 = ⟨n + 1, [], if v = 0 then 0 else v - 3⟩ :: sl' := by
    intro sl1 h1
    rcases inv_opt hb h1 with ⟨h2, _⟩ | ⟨_, sz, s2, h3, h4, h5⟩
    · unfold evalCond at h2; rw [cb] at h2; cases h2
    · unfold evalSize at h3
      rw [sb, ob] at h3
      simp only [evalE, idxKey, bind, Except.bind] at h3
      cases hl : look P d.tab S len [] with
      | error e => rw [hl] at h3; cases h3
      | ok w =>
        rw [hl] at h3
        cases w with
        | int v =>
          simp only [asInt, Except.ok.injEq] at h3
          refine ⟨v, s2, rfl, h4, ?_⟩
          rw [h5, ← h3]
          by_cases h0 : v = 0
          · simp [h0]
          · simp [h0]
        | _ => cases h3
  have cond : ∀ v, look P d.tab S len [] = .ok (.int v) →
      evalCond P (look P d.tab S) a [] = .ok (decide (v ≠ 0)) := by
    intro v hv
    unfold evalCond
    rw [ca]
    simp only [evalE, idxKey, bind, Except.bind, hv, Except.map, pure, Except.pure, CVal.toVal,
      pyEq, bval, truthy]
    by_cases h0 : v = 0
    · simp [h0]
    · simp [h0]
  rcases inv_opt ha h with ⟨h1, h2⟩ | ⟨h1, sz, s1, h3, h4, h5⟩
  · obtain ⟨v, s2, g1, g2, g3⟩ := key h2
    rw [cond v g1] at h1
    have h0 : v = 0 := by simpa using h1
    exact ⟨v, s2, ref_val hd g1, g2, by rw [g3, h0]; rfl⟩
  · obtain ⟨v, s2, g1, g2, g3⟩ := key h4
    rw [cond v g1] at h1
    have h0 : v ≠ 0 := by simpa using h1
    have hs : sz = 3 := by
      unfold evalSize at h3
      rw [sa, oa] at h3
      injection h3 with h3
      rw [← h3]
      rfl
    refine ⟨v, s2, ref_val hd g1, g2, ?_⟩
    rw [h5, g3, hs]
    simp [h0]

/-- Fields with names and widths of the specification. -/
def runIs (d : Desc) (n : Nat) (l : List (String × Nat)) : Bool :=
  ((List.range' n l.length).map fun m => ((d.tab[m]?).bind (·.fd.name), widthAt d.tab m)) =
    l.map fun p => (some (nameCode p.1.toList), p.2)

theorem run_seen {d : Desc} {n k : Nat} {l : List (String × Nat)} {key : Key}
    (h : runIs d n l = true) (hk : l.length = k) :
    (runSlots d.tab key n k).map (seen d) = (row key l).map coded := by
  subst hk
  have h := of_decide_eq_true h
  have e := congrArg (List.map fun q : Option Name × Nat => (q.1, key, q.2)) h
  simp only [List.map_map] at e
  unfold runSlots row
  simp only [List.map_map]
  exact e

theorem area_seen {d : Desc} {n : Nat} {len ofl data : String} (hl : runIs d n [(len, 5)] = true)
    (ho : ((d.tab[n + 1]?).bind (·.fd.name)) = some (nameCode ofl.toList))
    (hd : ((d.tab[n + 1 + 1]?).bind (·.fd.name)) = some (nameCode data.toList)) (v : Int) :
    (runSlots d.tab [] n 1).map (seen d) ++
      (if v = 0 then [⟨n + 1 + 1, [], 0⟩] else [⟨n + 1, [], 3⟩, ⟨n + 1 + 1, [], v - 3⟩] :
        List Slot).map (seen d) = (area len ofl data v).map coded := by
  have h1 : (runSlots d.tab [] n 1).map (seen d) = (row [] [(len, 5)]).map coded := run_seen hl rfl
  rw [h1]
  unfold area
  by_cases h0 : v = 0
  · rw [if_pos h0, if_pos h0]
    simp [row, coded, seen, hd]
  · rw [if_neg h0, if_neg h0]
    simp [row, coded, seen, hd, ho]

/-- A repeated row. -/
theorem body_seen {d : Desc} {S : Store P.F} {n : Nat} {l : List (String × Nat)} {body : Desc}
    (hr : runIs d n l = true) (hp : plainRun d.tab n l.length = true)
    (hs : startsPlain body l.length = true) (ha : Desc.after body l.length = .nil) {c : Int}
    {g : Int → List Slot} {key : Key}
    (h : ∀ i ∈ indices c, layoutD P d.tab S n (key ++ [i]) body = .ok (g i)) :
    ((indices c).flatMap g).map (seen d) = (each c fun i => row (key ++ [i]) l).map coded := by
  refine each_seen fun i hi => ?_
  obtain ⟨s', h1, h2⟩ := inv_run l.length n body hp hs (h i hi)
  rw [ha] at h1
  injection h1 with h1
  rw [h2, ← h1, List.append_nil]
  exact run_seen hr rfl

/-! ### The headers -/

theorem text_layout {S : Store P.F} {sl : List Slot} (h : layout P Tables.t_text_subheader S = .ok sl) :
    ∃ v, getAttr P Tables.t_text_subheader S (n!"txshdl") [] = .ok (.int v) ∧
      sl.map (seen Tables.t_text_subheader) = (textSubheader v).map coded := by
  have hd : Tables.t_text_subheader.causal = true := by decide +kernel
  obtain ⟨s0, h0, rfl⟩ := inv_run 23 0 _ (by decide +kernel) rfl h
  obtain ⟨s1, h1, rfl⟩ := inv_run 1 23 _ (by decide +kernel) rfl h0
  obtain ⟨v, s2, g, h2, rfl⟩ := inv_area hd (len := (n!"txshdl")) rfl rfl rfl rfl rfl rfl rfl rfl h1
  injection h2 with h2
  subst h2
  refine ⟨v, g, ?_⟩
  unfold textSubheader
  rw [List.append_nil, List.map_append, List.map_append, List.map_append]
  congr 1
  exact area_seen (by decide +kernel) (by decide +kernel) (by decide +kernel) v

theorem graphic_layout {S : Store P.F} {sl : List Slot}
    (h : layout P Tables.t_graphic_subheader S = .ok sl) :
    ∃ v, getAttr P Tables.t_graphic_subheader S (n!"sxshdl") [] = .ok (.int v) ∧
      sl.map (seen Tables.t_graphic_subheader) = (graphicSubheader v).map coded := by
  have hd : Tables.t_graphic_subheader.causal = true := by decide +kernel
  obtain ⟨s0, h0, rfl⟩ := inv_run 29 0 _ (by decide +kernel) rfl h
  obtain ⟨s1, h1, rfl⟩ := inv_run 1 29 _ (by decide +kernel) rfl h0
  obtain ⟨v, s2, g, h2, rfl⟩ := inv_area hd (len := (n!"sxshdl")) rfl rfl rfl rfl rfl rfl rfl rfl h1
  injection h2 with h2
  subst h2
  refine ⟨v, g, ?_⟩
  unfold graphicSubheader
  rw [List.append_nil, List.map_append, List.map_append, List.map_append]
  congr 1
  exact area_seen (by decide +kernel) (by decide +kernel) (by decide +kernel) v

theorem file_layout {S : Store P.F} {sl : List Slot} (h : layout P Tables.t_file_header S = .ok sl) :
    ∃ a b c d e u x, FileHas P S a b c d e u x ∧
      sl.map (seen Tables.t_file_header) = (fileHeader a b c d e u x).map coded := by
  have hd : Tables.t_file_header.causal = true := by decide +kernel
  obtain ⟨s0, h0, rfl⟩ := inv_run 31 0 _ (by decide +kernel) rfl h
  obtain ⟨s1, h1, rfl⟩ := inv_run 1 31 _ (by decide +kernel) rfl h0
  obtain ⟨a, ga, s2, ha, ea, h2, rfl⟩ := inv_loop h1
  obtain ⟨s3, h3, rfl⟩ := inv_run 1 34 _ (by decide +kernel) rfl h2
  obtain ⟨b, gb, s4, hb, eb, h4, rfl⟩ := inv_loop h3
  obtain ⟨s5, h5, rfl⟩ := inv_run 1 37 _ (by decide +kernel) rfl h4
  obtain ⟨s5', h5', rfl⟩ := inv_run 1 38 _ (by decide +kernel) rfl h5
  obtain ⟨c, gc, s6, hc, ec, h6, rfl⟩ := inv_loop h5'
  obtain ⟨s7, h7, rfl⟩ := inv_run 1 41 _ (by decide +kernel) rfl h6
  obtain ⟨d, gd, s8, hdes, ed, h8, rfl⟩ := inv_loop h7
  obtain ⟨s9, h9, rfl⟩ := inv_run 1 44 _ (by decide +kernel) rfl h8
  obtain ⟨e, ge, s10, he, ee, h10, rfl⟩ := inv_loop h9
  obtain ⟨s11, h11, rfl⟩ := inv_run 1 47 _ (by decide +kernel) rfl h10
  obtain ⟨u, s12, gu, h12, rfl⟩ := inv_area hd (len := (n!"udhdl")) rfl rfl rfl rfl rfl rfl rfl rfl h11
  obtain ⟨s13, h13, rfl⟩ := inv_run 1 50 _ (by decide +kernel) rfl h12
  obtain ⟨x, s14, gx, h14, rfl⟩ := inv_area hd (len := (n!"xhdl")) rfl rfl rfl rfl rfl rfl rfl rfl h13
  injection h14 with h14
  subst h14
  refine ⟨a, b, c, d, e, u, x, ⟨counts_of hd rfl ha, counts_of hd rfl hb, counts_of hd rfl hc,
    counts_of hd rfl hdes, counts_of hd rfl he, gu, gx⟩, ?_⟩
  clear h h0 h1 h2 h3 h4 h5 h5' h6 h7 h8 h9 h10 h11 h12 h13
  have one : ∀ (n : Nat) (nm : String) (w : Nat), runIs Tables.t_file_header n [(nm, w)] = true →
      (runSlots Tables.t_file_header.tab [] n 1).map (seen Tables.t_file_header) =
        (row [] [(nm, w)]).map coded := fun n nm w h => run_seen h rfl
  have e0 := run_seen (d := Tables.t_file_header) (n := 0) (k := 31) (key := [])
    (show runIs Tables.t_file_header 0 ([("fhdr", 4), ("fver", 5), ("clevel", 2), ("stype", 4),
      ("ostaid", 10), ("fdt", 14), ("ftitle", 80)] ++ security "fs" ++ [("fscop", 5), ("fscpys", 5),
      ("encryp", 1), ("fbkgc", 3), ("oname", 24), ("ophone", 18), ("fl", 12), ("hl", 6)]) = true by
      decide +kernel) (by decide +kernel)
  have e1 := body_seen (l := [("lish", 6), ("li", 10)]) (by decide +kernel) (by decide +kernel) rfl rfl ea
  have e2 := body_seen (l := [("lssh", 4), ("ls", 6)]) (by decide +kernel) (by decide +kernel) rfl rfl eb
  have e3 := body_seen (l := [("ltsh", 4), ("lt", 5)]) (by decide +kernel) (by decide +kernel) rfl rfl ec
  have e4 := body_seen (l := [("ldsh", 4), ("ld", 9)]) (by decide +kernel) (by decide +kernel) rfl rfl ed
  have e5 := body_seen (l := [("lresh", 4), ("lre", 7)]) (by decide +kernel) (by decide +kernel) rfl rfl ee
  have e6 := area_seen (d := Tables.t_file_header) (n := 47) (len := "udhdl") (ofl := "udhofl")
    (data := "udhd") (by decide +kernel) (by decide +kernel) (by decide +kernel) u
  have e7 := area_seen (d := Tables.t_file_header) (n := 50) (len := "xhdl") (ofl := "xhdlofl")
    (data := "xhd") (by decide +kernel) (by decide +kernel) (by decide +kernel) x
  unfold fileHeader
  simp only [List.map_append, List.append_nil, List.append_assoc] at e0 ⊢
  rw [e0, one 31 "numi" 3 (by decide +kernel), e1, one 34 "nums" 3 (by decide +kernel), e2,
    one 37 "numx" 3 (by decide +kernel), one 38 "numt" 3 (by decide +kernel), e3,
    one 41 "numdes" 3 (by decide +kernel), e4, one 44 "numres" 3 (by decide +kernel), e5, e7]
  rw [← List.append_assoc ((runSlots _ _ _ _).map _), e6]
  rfl

theorem size_const {T : Tab} {S : Store P.F} {fi : FInfo} {key : Key} {w : Nat} {sz : Int}
    (hs : fi.fd.size = .const w) (ho : fi.fd.sizeOffset = 0)
    (h : evalSize P (look P T S) fi key = .ok sz) : sz = w := by
  unfold evalSize at h
  rw [hs, ho] at h
  simp only at h
  injection h with h
  rw [← h]
  by_cases h0 : (w : Int) = 0
  · simp [h0]
  · rw [if_pos h0]; simp

theorem cond_none {T : Tab} {S : Store P.F} {fi : FInfo} {key : Key} (hc : fi.fd.cond = none) :
    evalCond P (look P T S) fi key = .ok true := by
  unfold evalCond
  rw [hc]

/-- A `FieldData` whose size another field has. -/
theorem inv_data {d : Desc} (hd : d.causal = true) {S : Store P.F} {n : Nat} {len : Name}
    {idx : List Nat} {key k : Key} (hk : idxKey key idx = .ok k) {f : FieldDef} {r : Desc}
    {sl : List Slot} {a : FInfo} (ha : d.tab[n]? = some a) (ca : a.fd.cond = none)
    (sa : a.fd.size = .expr (.ref len idx)) (oa : a.fd.sizeOffset = 0)
    (h : layoutD P d.tab S n key (.field f r) = .ok sl) :
    ∃ v sl', getAttr P d S len k = .ok (.int v) ∧ layoutD P d.tab S (n + 1) key r = .ok sl' ∧
      sl = ⟨n, key, v⟩ :: sl' := by
  rcases inv_opt ha h with ⟨h1, _⟩ | ⟨_, sz, s1, h3, h4, h5⟩
  · rw [cond_none ca] at h1; cases h1
  · unfold evalSize at h3
    rw [sa, oa] at h3
    simp only [evalE, hk, bind, Except.bind] at h3
    cases hl : look P d.tab S len k with
    | error e => rw [hl] at h3; cases h3
    | ok w =>
      rw [hl] at h3
      cases w with
      | int v =>
        simp only [asInt, Except.ok.injEq] at h3
        refine ⟨v, s1, ref_val hd hl, h4, ?_⟩
        rw [h5, ← h3]
        by_cases h0 : v = 0
        · simp [h0]
        · simp [h0]
      | _ => cases h3

theorem truthy_bval (b : Bool) : truthy P (bval b) = b := by cases b <;> rfl

theorem equal_str {v : Val P.F} {s : Str} : pyEq P v (.str s) = true ↔ v = .str s := by
  cases v <;> simp [pyEq]

theorem cond_eq_str {d : Desc} (hd : d.causal = true) {S : Store P.F} {fi : FInfo} {nm : Name}
    {s : String} {b : Bool} (hc : fi.fd.cond = some (.eq (.ref nm []) (.const (.str s))))
    (h : evalCond P (look P d.tab S) fi [] = .ok b) :
    ∃ v, getAttr P d S nm [] = .ok v ∧ (b = true ↔ v = .str s.toList) := by
  unfold evalCond at h
  rw [hc] at h
  simp only [evalE, idxKey, bind, Except.bind, pure, Except.pure] at h
  cases hl : look P d.tab S nm [] with
  | error e => rw [hl] at h; cases h
  | ok v =>
    rw [hl] at h
    simp only [Except.map, truthy_bval, Except.ok.injEq] at h
    exact ⟨v, ref_val hd hl, by rw [← h]; exact equal_str⟩

theorem des_layout {S : Store P.F} {sl : List Slot} (h : layout P Tables.t_des_subheader S = .ok sl) :
    ∃ (o : Bool) (v : Int), (o = true ↔ getAttr P Tables.t_des_subheader S (n!"desid") [] =
        .ok (.str "TRE_OVERFLOW".toList)) ∧
      getAttr P Tables.t_des_subheader S (n!"desshl") [] = .ok (.int v) ∧
      sl.map (seen Tables.t_des_subheader) = (desSubheader o v).map coded := by
  have hd : Tables.t_des_subheader.causal = true := by decide +kernel
  obtain ⟨s0, h0, rfl⟩ := inv_run 19 0 _ (by decide +kernel) rfl h
  have e0 := run_seen (d := Tables.t_des_subheader) (n := 0) (k := 19) (key := [])
    (l := [("de", 2), ("desid", 25), ("dsver", 2)] ++ security "des") (by decide +kernel)
    (by decide +kernel)
  have last : ∀ {s : List Slot}, layoutD P Tables.t_des_subheader.tab S 21 []
      (Desc.after Tables.t_des_subheader 21) = .ok s → ∃ v,
      getAttr P Tables.t_des_subheader S (n!"desshl") [] = .ok (.int v) ∧
      s.map (seen Tables.t_des_subheader) = (row [] [("desshl", 4), ("desshf", v.toNat)]).map coded := by
    intro s hs
    obtain ⟨s1, h1, rfl⟩ := inv_run 1 21 _ (by decide +kernel) rfl hs
    obtain ⟨v, s2, g, h2, rfl⟩ := inv_data hd (len := (n!"desshl")) (idx := []) (k := []) rfl rfl rfl
      rfl rfl h1
    injection h2 with h2
    subst h2
    refine ⟨v, g, ?_⟩
    have := run_seen (d := Tables.t_des_subheader) (n := 21) (k := 1) (key := [])
      (l := [("desshl", 4)]) (by decide +kernel) rfl
    have hn : ((Tables.t_des_subheader.tab[21 + 1]?).bind (·.fd.name)) =
      some (nameCode "desshf".toList) := by decide +kernel
    rw [List.map_append, this]
    simp [row, coded, seen, hn]
  have det : ∀ {b b' : Bool} {v v' : Val P.F}, getAttr P Tables.t_des_subheader S (n!"desid") [] = .ok v →
      getAttr P Tables.t_des_subheader S (n!"desid") [] = .ok v' →
      (b = true ↔ v = .str "TRE_OVERFLOW".toList) → (b' = true ↔ v' = .str "TRE_OVERFLOW".toList) →
      b = b' := by
    intro b b' v v' h1 h2 h3 h4
    rw [h1] at h2
    injection h2 with h2
    subst h2
    cases b <;> cases b' <;> simp_all
  rcases inv_opt (n := 19) rfl h0 with ⟨c1, h1⟩ | ⟨c1, z1, s1, w1, h1, rfl⟩
  · obtain ⟨v1, g1, i1⟩ := cond_eq_str hd (nm := (n!"desid")) rfl c1
    rcases inv_opt (n := 20) rfl h1 with ⟨c2, h2⟩ | ⟨c2, z2, s2, w2, h2, rfl⟩
    · obtain ⟨v, gv, ev⟩ := last h2
      refine ⟨false, v, ?_, gv, ?_⟩
      · rw [g1, i1]
        exact ⟨fun h => by rw [h], fun h => by injection h⟩
      · rw [List.map_append, e0, ev]
        unfold desSubheader
        simp only [List.map_append, List.append_assoc]
        try rfl
    · obtain ⟨v2, g2, i2⟩ := cond_eq_str hd (nm := (n!"desid")) rfl c2
      cases det g1 g2 i1 i2
  · obtain ⟨v1, g1, i1⟩ := cond_eq_str hd (nm := (n!"desid")) rfl c1
    rcases inv_opt (n := 20) rfl h1 with ⟨c2, h2⟩ | ⟨c2, z2, s2, w2, h2, rfl⟩
    · obtain ⟨v2, g2, i2⟩ := cond_eq_str hd (nm := (n!"desid")) rfl c2
      cases det g1 g2 i1 i2
    · obtain ⟨v, gv, ev⟩ := last h2
      refine ⟨true, v, ?_, gv, ?_⟩
      · rw [g1, i1]
        exact ⟨fun h => by rw [h], fun h => by injection h⟩
      · have q1 := size_const (w := 6) rfl rfl w1
        have q2 := size_const (w := 3) rfl rfl w2
        subst q1 q2
        have e1 : seen Tables.t_des_subheader ⟨19, [], (6 : Nat)⟩ = coded ("desoflw", [], 6) := by
          decide +kernel
        have e2 : seen Tables.t_des_subheader ⟨20, [], (3 : Nat)⟩ = coded ("desitem", [], 3) := by
          decide +kernel
        rw [List.map_append, e0, List.map_cons, List.map_cons, ev]
        unfold desSubheader
        simp only [List.map_append, List.append_assoc]
        rw [show seen Tables.t_des_subheader ⟨0 + 19, [], (6 : Nat)⟩ = coded ("desoflw", [], 6) from e1]
        rw [e2]
        rfl

theorem res_layout {S : Store P.F} {sl : List Slot} (h : layout P Tables.t_res_subheader S = .ok sl) :
    ∃ v, getAttr P Tables.t_res_subheader S (n!"resshl") [] = .ok (.int v) ∧
      sl.map (seen Tables.t_res_subheader) = (resSubheader v).map coded := by
  have hd : Tables.t_res_subheader.causal = true := by decide +kernel
  obtain ⟨s0, h0, rfl⟩ := inv_run 20 0 _ (by decide +kernel) rfl h
  obtain ⟨v, s2, g, h2, rfl⟩ := inv_data hd (len := (n!"resshl")) (idx := []) (k := []) rfl rfl rfl
    rfl rfl h0
  injection h2 with h2
  subst h2
  refine ⟨v, g, ?_⟩
  have := run_seen (d := Tables.t_res_subheader) (n := 0) (k := 20) (key := [])
    (l := [("re", 2), ("resid", 25), ("resver", 2)] ++ security "re" ++ [("resshl", 4)])
    (by decide +kernel) (by decide +kernel)
  have hn : ((Tables.t_res_subheader.tab[0 + 20]?).bind (·.fd.name)) =
    some (nameCode "resshf".toList) := by decide +kernel
  rw [List.map_append, this]
  unfold resSubheader
  simp only [row, List.map_append, List.append_assoc, List.map_cons, List.map_nil, seen, coded, hn]
  rfl

theorem cond_blank {d : Desc} (hd : d.causal = true) {S : Store P.F} {fi : FInfo} {nm : Name} {b : Bool}
    (hc : fi.fd.cond = some (.ne (.rstrip (.ref nm [])) (.const (.str ""))))
    (h : evalCond P (look P d.tab S) fi [] = .ok b) :
    b = false ↔ ∃ s, getAttr P d S nm [] = .ok (.str s) ∧ ∀ ch ∈ s, cSpace ch = true := by
  unfold evalCond at h
  rw [hc] at h
  simp only [evalE, idxKey, bind, Except.bind, pure, Except.pure] at h
  cases hl : look P d.tab S nm [] with
  | error e => rw [hl] at h; cases h
  | ok v =>
    rw [hl] at h
    have g := ref_val hd hl
    cases v with
    | str s =>
      simp only [Except.map, truthy_bval, Except.ok.injEq] at h
      rw [← h, g]
      simp only [Bool.not_eq_false']
      rw [show (CVal.str "").toVal = (Val.str [] : Val P.F) from rfl, equal_str]
      constructor
      · intro e
        injection e with e
        exact ⟨s, rfl, List.all_eq_true.mp ((rstripBy_nil_iff _ _).mp e)⟩
      · rintro ⟨s', e, h'⟩
        injection e with e; injection e with e
        subst e
        exact congrArg _ ((rstripBy_nil_iff _ _).mpr (List.all_eq_true.mpr h'))
    | bytes t =>
      simp only [Except.map, truthy_bval, Except.ok.injEq] at h
      rw [← h, g]
      simp [pyEq, CVal.toVal]
    | _ => cases h

theorem cond_other {d : Desc} (hd : d.causal = true) {S : Store P.F} {fi : FInfo} {nm : Name}
    {s t : String} {b : Bool} (hc : fi.fd.cond = some (.notin (.ref nm []) [.str s, .str t]))
    (h : evalCond P (look P d.tab S) fi [] = .ok b) :
    ∃ v, getAttr P d S nm [] = .ok v ∧ (b = true ↔ v ≠ .str s.toList ∧ v ≠ .str t.toList) := by
  unfold evalCond at h
  rw [hc] at h
  simp only [evalE, idxKey, bind, Except.bind, pure, Except.pure] at h
  cases hl : look P d.tab S nm [] with
  | error e => rw [hl] at h; cases h
  | ok v =>
    rw [hl] at h
    simp only [Except.map, truthy_bval, Except.ok.injEq] at h
    refine ⟨v, ref_val hd hl, ?_⟩
    rw [← h]
    have e1 := equal_str (P := P) (v := v) (s := s.toList)
    have e2 := equal_str (P := P) (v := v) (s := t.toList)
    simp only [List.any_cons, List.any_nil, Bool.or_false, CVal.toVal, Bool.not_eq_true',
      Bool.or_eq_false_iff]
    rw [← Bool.not_eq_true, ← Bool.not_eq_true, e1, e2]

/-- The number of bands, from the two counts. -/
theorem bands_of {d : Desc} (hd : d.causal = true) {S : Store P.F} {a b : Name} {c : Int}
    (h : evalShape P (look P d.tab S) (.ite (.gt (.ref a []) (.const (.int 0))) (.ref a []) (.ref b [])) []
      = .ok c) : ∃ n, getAttr P d S a [] = .ok (.int n) ∧ (0 < n → c = n) ∧
      (n ≤ 0 → Counts P d S b [] c) := by
  have hb := counts_of (P := P) hd (S := S) (nm := b) (idx := []) (key := []) (k := []) rfl (c := c)
  unfold evalShape at h hb
  simp only [evalE, idxKey, bind, Except.bind, pure, Except.pure] at h hb
  cases hl : look P d.tab S a [] with
  | error e => rw [hl] at h; cases h
  | ok v =>
    rw [hl] at h
    cases v with
    | int n =>
      simp only [asInt, CVal.toVal, truthy_bval] at h
      refine ⟨n, ref_val hd hl, ?_, ?_⟩
      · intro hn
        rw [if_pos (by simpa using hn)] at h
        injection h with h
        exact h.symm
      · intro hn
        rw [if_neg (by simpa using hn)] at h
        exact hb h
    | _ => cases h

theorem cond_zero {d : Desc} (hd : d.causal = true) {S : Store P.F} {fi : FInfo} {nm : Name} {n : Int}
    {b : Bool} (hc : fi.fd.cond = some (.eq (.ref nm []) (.const (.int 0))))
    (h : evalCond P (look P d.tab S) fi [] = .ok b) (hn : getAttr P d S nm [] = .ok (.int n)) :
    b = decide (n = 0) := by
  unfold evalCond at h
  rw [hc] at h
  simp only [evalE, idxKey, bind, Except.bind, pure, Except.pure] at h
  cases hl : look P d.tab S nm [] with
  | error e => rw [hl] at h; cases h
  | ok v =>
    rw [hl] at h
    have g := ref_val hd hl
    rw [hn] at g
    injection g with g
    subst g
    simp only [Except.map, truthy_bval, Except.ok.injEq] at h
    rw [← h]
    by_cases h0 : n = 0 <;> simp [pyEq, CVal.toVal, h0]

theorem cond_some {d : Desc} (hd : d.causal = true) {S : Store P.F} {fi : FInfo} {nm : Name} {i c : Int}
    {b : Bool} (hc : fi.fd.cond = some (.ne (.ref nm [0]) (.const (.int 0))))
    (h : evalCond P (look P d.tab S) fi [i] = .ok b) (hn : Counts P d S nm [i] c) :
    b = true ↔ getAttr P d S nm [i] ≠ .ok (.int 0) := by
  unfold evalCond at h
  rw [hc] at h
  have hk : idxKey [i] [0] = .ok [i] := rfl
  simp only [evalE, hk, bind, Except.bind, pure, Except.pure] at h
  cases hl : look P d.tab S nm [i] with
  | error e => rw [hl] at h; cases h
  | ok v =>
    rw [hl] at h
    have g := ref_val hd hl
    simp only [Except.map, truthy_bval, Except.ok.injEq] at h
    rw [← h]
    rcases hn with hn | ⟨hn, _⟩
    · rw [hn] at g
      injection g with g
      subst g
      rw [hn]
      simp [pyEq, CVal.toVal]
    · rw [hn] at g
      injection g with g
      subst g
      rw [hn]
      simp [pyEq, CVal.toVal]

theorem chosen {α : Type} [Inhabited α] {I : List Int} {R : Int → α → Prop}
    (h : ∀ i ∈ I, ∃ x, R i x) : ∃ f : Int → α, ∀ i ∈ I, R i (f i) := by
  have : ∀ i, ∃ x, i ∈ I → R i x := by
    intro i
    by_cases hi : i ∈ I
    · obtain ⟨x, hx⟩ := h i hi
      exact ⟨x, fun _ => hx⟩
    · exact ⟨default, fun h => absurd h hi⟩
  exact Classical.axiomOfChoice this

theorem name_seen {d : Desc} {n : Nat} {key : Key} {z : Int} {w : Nat} {nm : String}
    (hn : ((d.tab[n]?).bind (·.fd.name)) = some (nameCode nm.toList)) (hz : z.toNat = w) :
    seen d ⟨n, key, z⟩ = coded (nm, key, w) := by
  unfold seen coded
  simp only
  rw [hn, hz]

/-- One band of an image subheader. -/
theorem band_layout {S : Store P.F} {i : Int} {sl : List Slot} {body : Desc}
    (h : layoutD P Tables.t_image_subheader.tab S 38 [i] body = .ok sl)
    (he : ∃ f g h l, startsPlain body 5 = true ∧ Desc.after body 5 = .field f (.loop l (.field g .nil) h)
      ∧ h = .nil ∧ l = .ref (n!"nluts") [0]) :
    ∃ (t : Int) (a : Bool) (e : Int), Counts P Tables.t_image_subheader S (n!"nluts") [i] t ∧
      (a = true ↔ getAttr P Tables.t_image_subheader S (n!"nluts") [i] ≠ .ok (.int 0)) ∧
      (0 < t → getAttr P Tables.t_image_subheader S (n!"nelut") [i] = .ok (.int e)) ∧
      sl.map (seen Tables.t_image_subheader) =
        (row [i] [("irepband", 2), ("isubcat", 6), ("ifc", 1), ("imflt", 3), ("nluts", 1)] ++
          (if a then row [i] [("nelut", 5)] else []) ++
          each t fun j => row [i, j] [("lutd", e.toNat)]).map coded := by
  have hd : Tables.t_image_subheader.causal = true := by decide +kernel
  obtain ⟨f, g, hh, l, h1, h2, rfl, rfl⟩ := he
  obtain ⟨s0, h0, rfl⟩ := inv_run 5 38 _ (by decide +kernel) h1 h
  rw [h2] at h0
  have e0 := run_seen (d := Tables.t_image_subheader) (n := 38) (k := 5) (key := [i])
    (l := [("irepband", 2), ("isubcat", 6), ("ifc", 1), ("imflt", 3), ("nluts", 1)])
    (by decide +kernel) (by decide +kernel)
  have tabs : ∀ {s : List Slot}, layoutD P Tables.t_image_subheader.tab S 44 [i]
      (.loop (.ref (n!"nluts") [0]) (.field g .nil) .nil) = .ok s →
      ∃ t e, Counts P Tables.t_image_subheader S (n!"nluts") [i] t ∧
      (0 < t → getAttr P Tables.t_image_subheader S (n!"nelut") [i] = .ok (.int e)) ∧
      s.map (seen Tables.t_image_subheader) =
        (each t fun j => row [i, j] [("lutd", e.toNat)]).map coded := by
    intro s hs
    obtain ⟨t, gs, s', ht, hg, hs', rfl⟩ := inv_loop hs
    injection hs' with hs'
    subst hs'
    have hone : ∀ j ∈ indices t, ∃ v, getAttr P Tables.t_image_subheader S (n!"nelut") [i] = .ok (.int v) ∧
        gs j = [⟨44, [i, j], v⟩] := by
      intro j hj
      obtain ⟨v, s2, gv, h3, h4⟩ := inv_data hd (n := 44) (len := (n!"nelut")) (idx := [0])
        (key := [i] ++ [j]) (k := [i]) rfl rfl rfl rfl rfl (hg j hj)
      injection h3 with h3
      subst h3
      exact ⟨v, gv, h4⟩
    by_cases hp : 0 < t
    · have hm : (0 : Int) ∈ indices t := by
        unfold indices
        exact List.mem_map.mpr ⟨0, List.mem_range.mpr (by omega), rfl⟩
      obtain ⟨e, ge, _⟩ := hone 0 hm
      refine ⟨t, e, counts_of hd rfl ht, fun _ => ge, ?_⟩
      rw [List.append_nil]
      refine each_seen fun j hj => ?_
      obtain ⟨v, gv, hv⟩ := hone j hj
      rw [ge] at gv
      injection gv with gv; injection gv with gv
      subst gv
      rw [hv]
      simp only [List.map_cons, List.map_nil, row]
      rw [name_seen (nm := "lutd") (by decide +kernel) rfl]
    · refine ⟨t, 0, counts_of hd rfl ht, fun h => absurd h hp, ?_⟩
      have : indices t = [] := by
        unfold indices
        rw [Int.toNat_of_nonpos (by omega)]
        rfl
      rw [List.append_nil]
      exact each_seen fun j hj => by rw [this] at hj; cases hj
  rcases inv_opt (n := 43) rfl h0 with ⟨c1, h1⟩ | ⟨c1, z1, s1, w1, h1, rfl⟩
  · obtain ⟨t, e, ct, ce, es⟩ := tabs h1
    refine ⟨t, false, e, ct, cond_some hd rfl c1 ct, ce, ?_⟩
    rw [List.map_append, e0, es]
    simp
  · obtain ⟨t, e, ct, ce, es⟩ := tabs h1
    refine ⟨t, true, e, ct, cond_some hd rfl c1 ct, ce, ?_⟩
    have := size_const (w := 5) rfl rfl w1
    subst this
    rw [List.map_append, e0, List.map_cons, es, name_seen (nm := "nelut") (w := 5) (by decide +kernel) rfl]
    simp [row]

/-- A field which may be absent, of a width which the table gives. -/
theorem inv_maybe {d : Desc} {S : Store P.F} {key : Key} {n : Nat} {fd : FieldDef} {r : Desc}
    {sl : List Slot} {fi : FInfo} {w : Nat} {nm : String} (hf : d.tab[n]? = some fi)
    (hs : fi.fd.size = .const w) (ho : fi.fd.sizeOffset = 0)
    (hn : ((d.tab[n]?).bind (·.fd.name)) = some (nameCode nm.toList))
    (h : layoutD P d.tab S n key (.field fd r) = .ok sl) :
    ∃ (b : Bool) (s1 t1 : List Slot), evalCond P (look P d.tab S) fi key = .ok b ∧
      layoutD P d.tab S (n + 1) key r = .ok s1 ∧ sl = t1 ++ s1 ∧
      t1.map (seen d) = (if b then row key [(nm, w)] else []).map coded := by
  rcases inv_opt hf h with ⟨c, h1⟩ | ⟨c, z, s1, hz, h1, rfl⟩
  · exact ⟨false, sl, [], c, h1, rfl, rfl⟩
  · have := size_const hs ho hz
    subst this
    exact ⟨true, s1, [_], c, h1, rfl, by
      rw [List.map_cons, name_seen (nm := nm) (w := w) hn rfl]; rfl⟩

theorem image_layout {S : Store P.F} {sl : List Slot}
    (h : layout P Tables.t_image_subheader S = .ok sl) :
    ∃ q, ImageShows P S q ∧
      sl.map (seen Tables.t_image_subheader) = (imageSubheader q).map coded := by
  have hd : Tables.t_image_subheader.causal = true := by decide +kernel
  obtain ⟨s0, h0, rfl⟩ := inv_run 31 0 _ (by decide +kernel) rfl h
  have e0 := run_seen (d := Tables.t_image_subheader) (n := 0) (k := 31) (key := [])
    (l := [("im", 2), ("iid1", 10), ("idatim", 14), ("tgtid", 17), ("iid2", 80)] ++ security "is" ++
    [("encryp", 1), ("isorce", 42), ("nrows", 8), ("ncols", 8), ("pvtype", 3), ("irep", 8),
     ("icat", 8), ("abpp", 2), ("pjust", 1), ("icords", 1)]) (by decide +kernel)
    (by decide +kernel)
  obtain ⟨co, s1, t1, c1, h1, rfl, e1⟩ := inv_maybe (n := 31) (w := 60) (nm := "igeolo") rfl rfl rfl
    (by decide +kernel) h0
  have p1 := cond_blank hd (nm := (n!"icords")) rfl c1
  obtain ⟨s2, h2, rfl⟩ := inv_run 1 32 _ (by decide +kernel) rfl h1
  have e2 := run_seen (d := Tables.t_image_subheader) (n := 32) (k := 1) (key := [])
    (l := [("nicom", 1)]) (by decide +kernel) (by decide +kernel)
  obtain ⟨ni, g3, s3, c3, h3, h3', rfl⟩ := inv_loop h2
  have p3 := counts_of hd (nm := (n!"nicom")) rfl c3
  have e3 := body_seen (l := [("icom", 80)]) (by decide +kernel) (by decide +kernel) rfl rfl h3
  obtain ⟨s4, h4, rfl⟩ := inv_run 1 34 _ (by decide +kernel) rfl h3'
  have e4 := run_seen (d := Tables.t_image_subheader) (n := 34) (k := 1) (key := [])
    (l := [("ic", 2)]) (by decide +kernel) (by decide +kernel)
  obtain ⟨cm, s5, t5, c5, h5, rfl, e5⟩ := inv_maybe (n := 35) (w := 4) (nm := "comrat") rfl rfl rfl
    (by decide +kernel) h4
  have p5 := cond_other hd (nm := (n!"ic")) (s := "NC") (t := "NM") rfl c5
  obtain ⟨s6, h6, rfl⟩ := inv_run 1 36 _ (by decide +kernel) rfl h5
  have e6 := run_seen (d := Tables.t_image_subheader) (n := 36) (k := 1) (key := [])
    (l := [("nbands", 1)]) (by decide +kernel) (by decide +kernel)
  obtain ⟨xb, s7, t7, c7, h7, rfl, e7⟩ := inv_maybe (n := 37) (w := 5) (nm := "xbands") rfl rfl rfl
    (by decide +kernel) h6
  obtain ⟨nb, g8, s8, c8, h8, h8', rfl⟩ := inv_loop h7
  obtain ⟨n, pn, pn1, pn2⟩ := bands_of hd c8
  have x7 := cond_zero hd rfl c7 pn
  have hband : ∀ i ∈ indices nb, ∃ x : Int × Bool × Int,
      Counts P Tables.t_image_subheader S (n!"nluts") [i] x.1 ∧
      (x.2.1 = true ↔ getAttr P Tables.t_image_subheader S (n!"nluts") [i] ≠ .ok (.int 0)) ∧
      (0 < x.1 → getAttr P Tables.t_image_subheader S (n!"nelut") [i] = .ok (.int x.2.2)) ∧
      (g8 i).map (seen Tables.t_image_subheader) =
        (row [i] [("irepband", 2), ("isubcat", 6), ("ifc", 1), ("imflt", 3), ("nluts", 1)] ++
          (if x.2.1 then row [i] [("nelut", 5)] else []) ++
          each x.1 fun j => row [i, j] [("lutd", x.2.2.toNat)]).map coded := by
    intro i hi
    obtain ⟨t, a, e, q⟩ := band_layout (h8 i hi) ⟨_, _, _, _, rfl, rfl, rfl, rfl⟩
    exact ⟨(t, a, e), q⟩
  obtain ⟨fb, hfb⟩ := chosen hband
  have e8 := each_seen (d := Tables.t_image_subheader) (g := g8) fun i hi => (hfb i hi).2.2.2
  obtain ⟨s9, h9, rfl⟩ := inv_run 11 45 _ (by decide +kernel) rfl h8'
  have e9 := run_seen (d := Tables.t_image_subheader) (n := 45) (k := 11) (key := [])
    (l := [("isync", 1), ("imode", 1), ("nbpr", 4), ("nbpc", 4), ("nppbh", 4), ("nppbv", 4),
    ("nbpp", 2), ("idlvl", 3), ("ialvl", 3), ("iloc", 10), ("imag", 4)]) (by decide +kernel)
    (by decide +kernel)
  obtain ⟨s10, h10, rfl⟩ := inv_run 1 56 _ (by decide +kernel) rfl h9
  obtain ⟨ud, s11, pud, h11, rfl⟩ := inv_area hd (n := 57) (len := (n!"udidl")) rfl rfl rfl rfl rfl rfl
    rfl rfl h10
  obtain ⟨s12, h12, rfl⟩ := inv_run 1 59 _ (by decide +kernel) rfl h11
  obtain ⟨ix, s13, pix, h13, rfl⟩ := inv_area hd (n := 60) (len := (n!"ixshdl")) rfl rfl rfl rfl rfl rfl
    rfl rfl h12
  injection h13 with h13
  subst h13
  have e10 := area_seen (d := Tables.t_image_subheader) (n := 56) (len := "udidl") (ofl := "udofl")
    (data := "udid") (by decide +kernel) (by decide +kernel) (by decide +kernel) ud
  have e12 := area_seen (d := Tables.t_image_subheader) (n := 59) (len := "ixshdl") (ofl := "ixofl")
    (data := "ixshd") (by decide +kernel) (by decide +kernel) (by decide +kernel) ix
  have hcount : (if n > 0 then n else nb) = nb := by
    by_cases hn : 0 < n
    · rw [if_pos hn, pn1 hn]
    · rw [if_neg hn]
  refine ⟨⟨co, ni, cm, n, nb, fun i => (fb i).1, fun i => (fb i).2.1, fun i => (fb i).2.2, ud, ix⟩,
    ⟨p1, p3, p5, pn, pn2, ?_, pud, pix⟩, ?_⟩
  · intro i h0 hi
    rw [hcount] at hi
    have hm : i ∈ indices nb := by
      unfold indices
      refine List.mem_map.mpr ⟨i.toNat, List.mem_range.mpr (by omega), ?_⟩
      simp only [Int.ofNat_eq_natCast]
      omega
    obtain ⟨q1, q2, q3, _⟩ := hfb i hm
    exact ⟨q1, q2, q3⟩
  · unfold imageSubheader
    simp only [List.map_append] at e10 e12 e8 e3 ⊢
    rw [← e10, ← e12, hcount]
    simp only [e0, e1, e2, e3, e4, e5, e6, e7, e8, e9, List.append_assoc]
    have hx : xb = decide (n = 0) := x7
    subst hx
    simp

/-! ### From layouts to bytes -/

theorem written_as {d : Desc} (hd : d.causal = true) {S : Store P.F} {b : Bytes}
    (h : writeStruct P d S = .ok b) : ∃ sl, layout P d S = .ok sl ∧
      ∀ l, sl.map (seen d) = l.map coded → WrittenAs P d S b l := by
  unfold writeStruct at h
  cases hw : writeChunks P d S with
  | error e => rw [hw] at h; cases h
  | ok cs =>
    rw [hw] at h
    injection h with h
    refine ⟨cs.map Chunk.slot, writeD_layout P S d 0 [] cs hw, fun l hl => ⟨cs, h.symm, pieces_iff.mpr hl, ?_⟩⟩
    intro ch hch
    obtain ⟨_, fi, h1, _, h2⟩ := writeChunks_from P hd hw hch
    exact ⟨fi, h1, h2⟩

theorem Pieces.named {d : Desc} {cs : List Chunk} {l : List Piece} (h : Pieces d cs l) {ch : Chunk}
    (hch : ch ∈ cs) : ∃ fi, d.tab[ch.pos]? = some fi ∧ fi.fd.name ≠ none := by
  unfold Pieces at h
  have hm := List.mem_map_of_mem (f := fun ch : Chunk =>
    ((d.tab[ch.pos]?).bind (·.fd.name), ch.key, ch.bytes.length)) hch
  rw [h] at hm
  obtain ⟨p, _, hp⟩ := List.mem_map.mp hm
  have := congrArg Prod.fst hp
  simp only at this
  cases ht : d.tab[ch.pos]? with
  | none => rw [ht] at this; cases this
  | some fi =>
    rw [ht] at this
    refine ⟨fi, rfl, fun hn => ?_⟩
    simp only [Option.bind_some] at this
    rw [hn] at this
    cases this

theorem read_as {d : Desc} (hd : d.causal = true) {lit : Bool} {R0 R : Store P.F} {b rest : Bytes}
    (h : readInto P d lit R0 b = .ok (R, rest)) : ∃ sl x, layout P d R = .ok sl ∧ b = x ++ rest ∧
      ∀ l, sl.map (seen d) = l.map coded → ReadAs P d lit R x l := by
  obtain ⟨ins, h1, _, h2, h3, _⟩ := readInto_facts P hd h
  refine ⟨_, chunkBytes ins, h2, h1, fun l hl => ?_⟩
  have hp := pieces_iff.mpr hl
  refine ⟨ins, rfl, hp, fun ch hch => ?_⟩
  obtain ⟨fi, hfi, hne⟩ := hp.named hch
  obtain ⟨v, hv, hR⟩ := h3 ch hch fi hfi hne
  exact ⟨fi, v, hfi, hv, hR⟩

theorem pieces_total {d : Desc} {cs : List Chunk} {l : List Piece} (h : Pieces d cs l) :
    (chunkBytes cs).length = total l := by
  have := congrArg (List.map fun q : Option Name × Key × Nat => q.2.2) h
  simp only [List.map_map] at this
  unfold chunkBytes total
  rw [List.length_flatten, List.map_map]
  exact congrArg List.sum this

theorem pieces_split {d : Desc} {pre post : List Piece} {p : Piece} : ∀ {cs : List Chunk},
    Pieces d cs (pre ++ p :: post) → ∃ before ch after, cs = before ++ ch :: after ∧
      Pieces d before pre ∧ (d.tab[ch.pos]?).bind (·.fd.name) = some (nameCode p.1.toList) ∧
      ch.key = p.2.1 ∧ ch.bytes.length = p.2.2 := by
  induction pre with
  | nil =>
    intro cs h
    cases cs with
    | nil => cases h
    | cons ch cs =>
      unfold Pieces at h
      simp only [List.nil_append, List.map_cons, List.cons.injEq, Prod.mk.injEq] at h
      exact ⟨[], ch, cs, rfl, rfl, h.1.1, h.1.2.1, h.1.2.2⟩
  | cons q pre ih =>
    intro cs h
    cases cs with
    | nil => cases h
    | cons ch cs =>
      unfold Pieces at h
      rw [List.cons_append, List.map_cons, List.map_cons, List.cons.injEq] at h
      obtain ⟨before, c, after, rfl, h1, h2⟩ := ih (cs := cs) h.2
      refine ⟨ch :: before, c, after, rfl, ?_, h2⟩
      unfold Pieces at h1 ⊢
      rw [List.map_cons, List.map_cons, h.1, h1]

end Verif.Standard
