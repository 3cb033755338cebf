import Verif.Props.Spell
import Verif.Props.File

/-
C88: a written file can be taken apart with the format alone.

The specification is a small splitter written from the description of the NITF 2.1 file header: at
byte 342 the length of the file in twelve digits, then the length of the header in six, then for each
kind of segment a count of three digits and the lengths of subheader and data.  It uses nothing of
the model: no table, no field, no expression.
-/

namespace Verif.Split

open Verif Verif.Meaning Verif.Sense Verif.Spell

variable (P : PyFloat) (E : Env) (IO : DataIO P.F)

/-! ### Specification -/

/-- The next `w` bytes, and what follows. -/
def next (w : Nat) (b : Bytes) : Option (Bytes × Bytes) :=
  if w ≤ b.length then some (b.take w, b.drop w) else none

/-- A number written in `w` decimal digits. -/
def number (w : Nat) (b : Bytes) : Option (Nat × Bytes) := do
  let (t, r) ← next w b
  if t.all (fun x => 48 ≤ x.toNat && x.toNat ≤ 57) then some (decimal (codes t), r) else none

/-- `n` times the length of a subheader in `w1` digits and the length of the data in `w2` digits. -/
def lengths (w1 w2 : Nat) : Nat → Bytes → Option (List (Nat × Nat) × Bytes)
  | 0, b => some ([], b)
  | n + 1, b => do
    let (x, b) ← number w1 b
    let (y, b) ← number w2 b
    let (l, b) ← lengths w1 w2 n b
    some ((x, y) :: l, b)

/-- The lengths of the segments of one kind, after their number. -/
def group (w1 w2 : Nat) (b : Bytes) : Option (List (Nat × Nat) × Bytes) := do
  let (n, b) ← number 3 b
  lengths w1 w2 n b

/-- Segments with these lengths. -/
def cut : List (Nat × Nat) → Bytes → Option (List (Bytes × Bytes) × Bytes)
  | [], b => some ([], b)
  | (x, y) :: l, b => do
    let (s, b) ← next x b
    let (t, b) ← next y b
    let (r, b) ← cut l b
    some ((s, t) :: r, b)

/-- What the file header says about the file: its length, the length of the header, and the lengths of
subheader and data of every segment. -/
structure Lens where
  fl : Nat
  hl : Nat
  image : List (Nat × Nat)
  graphic : List (Nat × Nat)
  text : List (Nat × Nat)
  des : List (Nat × Nat)
  res : List (Nat × Nat)

/-- The lengths in the file header, and what follows them. -/
def lens (b : Bytes) : Option (Lens × Bytes) := do
  let (_, b) ← next 342 b
  let (fl, b) ← number 12 b
  let (hl, b) ← number 6 b
  let (li, b) ← group 6 10 b
  let (ls, b) ← group 4 6 b
  let (_, b) ← next 3 b
  let (lt, b) ← group 4 5 b
  let (ld, b) ← group 4 9 b
  let (lr, b) ← group 4 7 b
  some (⟨fl, hl, li, ls, lt, ld, lr⟩, b)

/-- What a file consists of: its header, and subheader and data of each segment. -/
structure Pieces where
  header : Bytes
  image : List (Bytes × Bytes)
  graphic : List (Bytes × Bytes)
  text : List (Bytes × Bytes)
  des : List (Bytes × Bytes)
  res : List (Bytes × Bytes)
  deriving DecidableEq

/-- Take a file apart; nothing if the lengths do not add up. -/
def pieces (b : Bytes) : Option Pieces := do
  let (l, _) ← lens b
  let (hdr, r) ← next l.hl b
  let (image, r) ← cut l.image r
  let (graphic, r) ← cut l.graphic r
  let (text, r) ← cut l.text r
  let (des, r) ← cut l.des r
  let (res, r) ← cut l.res r
  if l.fl = b.length ∧ r = [] then some ⟨hdr, image, graphic, text, des, res⟩ else none

/-- The segments of one kind. -/
def Pieces.of (p : Pieces) : SegKind → List (Bytes × Bytes)
  | .image => p.image | .graphic => p.graphic | .text => p.text | .des => p.des | .res => p.res

/-! ### The splitter on bytes that have been put together -/

theorem next_append {t r : Bytes} {w : Nat} (h : t.length = w) : next w (t ++ r) = some (t, r) := by
  subst h
  unfold next
  rw [if_pos (by simp)]
  simp

theorem next_of {b t r : Bytes} {w : Nat} (hb : b = t ++ r) (h : t.length = w) : next w b = some (t, r) := by
  rw [hb]
  exact next_append h

/-- The bytes are the number `n` in `w` digits. -/
def Digital (w n : Nat) (t : Bytes) : Prop :=
  t.length = w ∧ (∀ c ∈ codes t, 48 ≤ c ∧ c ≤ 57) ∧ decimal (codes t) = n

theorem number_append {w n : Nat} {t r : Bytes} (h : Digital w n t) : number w (t ++ r) = some (n, r) := by
  obtain ⟨h1, h2, h3⟩ := h
  unfold number
  rw [next_append h1]
  simp only [Option.bind_eq_bind, Option.bind_some]
  rw [if_pos, h3]
  rw [List.all_eq_true]
  intro x hx
  have := h2 x.toNat (List.mem_map_of_mem hx)
  simp [this.1, this.2]

/-- The bytes are these lengths. -/
inductive Lengths (w1 w2 : Nat) : List (Nat × Nat) → Bytes → Prop
  | nil : Lengths w1 w2 [] []
  | cons {x y : Nat} {l : List (Nat × Nat)} {s t u : Bytes} (hs : Digital w1 x s) (ht : Digital w2 y t)
      (h : Lengths w1 w2 l u) : Lengths w1 w2 ((x, y) :: l) (s ++ t ++ u)

theorem lengths_append {w1 w2 : Nat} {l : List (Nat × Nat)} {t r : Bytes} (h : Lengths w1 w2 l t) :
    lengths w1 w2 l.length (t ++ r) = some (l, r) := by
  induction h with
  | nil => rfl
  | cons hs ht h ih =>
    simp only [List.length_cons, lengths, List.append_assoc]
    rw [number_append hs]
    simp only [Option.bind_eq_bind, Option.bind_some]
    rw [number_append ht]
    simp only [Option.bind_some]
    rw [ih]
    simp only [Option.bind_some]

theorem group_append {w1 w2 : Nat} {l : List (Nat × Nat)} {s t r : Bytes} (hs : Digital 3 l.length s)
    (h : Lengths w1 w2 l t) : group w1 w2 (s ++ (t ++ r)) = some (l, r) := by
  unfold group
  rw [number_append hs]
  simp only [Option.bind_eq_bind, Option.bind_some]
  exact lengths_append h

/-- The lengths of segments. -/
def sizes (l : List (Bytes × Bytes)) : List (Nat × Nat) := l.map fun p => (p.1.length, p.2.length)

theorem cut_append (l : List (Bytes × Bytes)) (r : Bytes) :
    cut (sizes l) ((l.flatMap fun p => p.1 ++ p.2) ++ r) = some (l, r) := by
  induction l with
  | nil => rfl
  | cons p l ih =>
    simp only [sizes, List.map_cons, List.flatMap_cons, cut, List.append_assoc]
    rw [next_append rfl]
    simp only [Option.bind_eq_bind, Option.bind_some]
    rw [next_append rfl]
    simp only [Option.bind_some]
    rw [show (l.map fun p => (p.1.length, p.2.length)) = sizes l from rfl, ih]
    simp only [Option.bind_some]

/-! ### The header in pieces -/

/-- The fields in front of a description, all in order. -/
def dropF : Nat → Desc → Option Desc
  | 0, d => some d
  | m + 1, .field _ r => dropF m r
  | _, _ => none

/-- Total size of `m` fields, if they are always there and of fixed size. -/
def width (T : Tab) : Nat → Nat → Option Nat
  | _, 0 => some 0
  | n, m + 1 =>
    match T[n]? with
    | none => none
    | some fi =>
      match fi.fd.cond, fi.fd.size, fi.fd.sizeOffset with
      | none, .const w, 0 => (width T (n + 1) m).map (w + ·)
      | _, _, _ => none

/-- A count and a loop over two fields. -/
def dropGroup : Desc → Option (Expr × Desc)
  | .field _ (.loop e (.field _ (.field _ .nil)) r) => some (e, r)
  | _ => none

theorem writeD_field {T : Tab} {S : Store P.F} {n : Nat} {key : Key} {fd : FieldDef} {r : Desc}
    {cs : List Chunk} {fi : FInfo} (hT : T[n]? = some fi) (hc : fi.fd.cond = none)
    (h : writeD P T S n key (.field fd r) = .ok cs) :
    ∃ b cs', cs = ⟨n, key, b⟩ :: cs' ∧ writeD P T S (n + 1) key r = .ok cs' := by
  unfold writeD at h
  rw [hT] at h
  simp only [evalCond, hc] at h
  cases hb : fieldBytes P (look P T S) S fi n key with
  | error e => rw [hb] at h; cases h
  | ok b =>
    rw [hb] at h
    cases hr : writeD P T S (n + 1) key r with
    | error e => rw [hr] at h; cases h
    | ok cs' =>
      rw [hr] at h
      injection h with h
      exact ⟨b, cs', h.symm, rfl⟩

theorem chunkBytes_append' (a b : List Chunk) : chunkBytes (a ++ b) = chunkBytes a ++ chunkBytes b := by
  simp [chunkBytes]

/-- Every chunk has the size its field has. -/
def SizesOk (T : Tab) (S : Store P.F) (cs : List Chunk) : Prop :=
  ∀ ch ∈ cs, ∀ fi, T[ch.pos]? = some fi → evalSize P (look P T S) fi ch.key = .ok ch.bytes.length

theorem writeD_front {T : Tab} {S : Store P.F} : ∀ {m n w : Nat} {key : Key} {d r : Desc} {cs : List Chunk},
    dropF m d = some r → width T n m = some w → SizesOk P T S cs → writeD P T S n key d = .ok cs →
    ∃ a b, cs = a ++ b ∧ (chunkBytes a).length = w ∧ writeD P T S (n + m) key r = .ok b
  | 0, n, w, key, d, r, cs, hd, hw, _, h => by
    simp only [dropF, Option.some.injEq] at hd
    simp only [width, Option.some.injEq] at hw
    subst hd hw
    exact ⟨[], cs, rfl, rfl, h⟩
  | m + 1, n, w, key, d, r, cs, hd, hw, hs, h => by
    cases d with
    | nil => simp [dropF] at hd
    | loop => simp [dropF] at hd
    | field fd d =>
      simp only [dropF] at hd
      unfold width at hw
      cases hT : T[n]? with
      | none => rw [hT] at hw; cases hw
      | some fi =>
        rw [hT] at hw
        dsimp only at hw
        split at hw
        · rename_i w1 hc hz ho
          obtain ⟨w2, hw2, hw3⟩ := Option.map_eq_some_iff.mp hw
          obtain ⟨b, cs', h1, h2⟩ := writeD_field P hT hc h
          subst h1
          obtain ⟨a', b', g1, g2, g3⟩ := writeD_front hd hw2 (fun ch hch => hs ch (by simp [hch])) h2
          refine ⟨⟨n, key, b⟩ :: a', b', by rw [g1]; rfl, ?_, by rw [← g3]; congr 1; omega⟩
          have := hs ⟨n, key, b⟩ (by simp) fi hT
          simp only [evalSize, hz, ho] at this
          injection this with this
          have hb : b.length = w1 := by
            split at this <;> omega
          simp only [chunkBytes, List.map_cons, List.flatten_cons, List.length_append] at g2 ⊢
          omega
        · cases hw

/-- Integers in digits, as they are written. -/
theorem digital {d : Desc} {S : Store P.F} {cs : List Chunk} (hk : KindsOk d) (hw : writeChunks P d S = .ok cs)
    (hl : NoLit S) {ch : Chunk} (hch : ch ∈ cs) {fi : FInfo} (hn : d.tab[ch.pos]? = some fi)
    (hp : fi.fd.kind = .plain) (hf : fi.fd.frmt = none) {w : Nat}
    (hz : fi.fd.size = .const w) (ho : fi.fd.sizeOffset = 0) {c : Nat}
    (hg : getItem P d.tab S ch.pos ch.key = .ok (.int c)) : Digital w c ch.bytes := by
  obtain ⟨h1, h2⟩ := (C87_written P hk).mp hw
  obtain ⟨fi', g1, g2⟩ := h2 ch hch
  obtain ⟨fi'', k1, _, k3⟩ := slot_facts P h1 hch
  rw [hn] at g1 k1
  injection g1 with g1
  injection k1 with k1
  subst g1 k1
  have hb : ch.bytes.length = w := by
    simp only [evalSize, hz, ho] at k3
    injection k3 with k3
    split at k3 <;> omega
  obtain ⟨x, hx⟩ := NoLit.stored hl fi.fd ch.pos ch.key
  cases g2 with
  | literal hs _ => rw [hs] at hx; cases hx
  | data _ hk' _ => exact absurd hp hk'
  | plain hs _ hv h =>
    rw [hg] at hv
    injection hv with hv
    subst hv
    have key : Decimal ch.bytes.length false (c : Int) (codes ch.bytes) := by
      cases h with
      | zd _ hf' _ _ _ => rw [hf] at hf'; cases hf'
      | pd _ hf' _ _ _ => rw [hf] at hf'; cases hf'
      | other _ hf' _ _ _ => rw [hf] at hf'; cases hf'
      | int _ _ hz hd => cases hz; exact hd
    obtain ⟨ds, e1, _, e3, e4, _⟩ := key
    rw [show sign false (c : Int) = [] by unfold sign; rw [if_neg (by omega)]; rfl, List.nil_append] at e1
    subst e1
    exact ⟨hb, e3, by rw [e4]; omega⟩

/-- Digits the format gives to the two lengths of a segment. -/
def wide : SegKind → Nat × Nat
  | .image => (6, 10) | .graphic => (4, 6) | .text => (4, 5) | .des => (4, 9) | .res => (4, 7)

/-- The field has `w` bytes and is always there. -/
def fixedAt (n w : Nat) : Bool :=
  match Tables.t_file_header.tab[n]? with
  | none => false
  | some fi => fi.fd.kind == .plain && fi.fd.frmt == none && fi.fd.size == .const w &&
      fi.fd.sizeOffset == 0 && fi.fd.cond == none

theorem fixedAt_spec {n w : Nat} (h : fixedAt n w = true) : ∃ fi, Tables.t_file_header.tab[n]? = some fi ∧
    fi.fd.kind = .plain ∧ fi.fd.frmt = none ∧ fi.fd.size = .const w ∧ fi.fd.sizeOffset = 0 ∧
    fi.fd.cond = none := by
  unfold fixedAt at h
  cases hT : Tables.t_file_header.tab[n]? with
  | none => rw [hT] at h; cases h
  | some fi =>
    rw [hT] at h
    simp only [Bool.and_eq_true, beq_iff_eq] at h
    obtain ⟨⟨⟨⟨h1, h2⟩, h3⟩, h4⟩, h5⟩ := h
    exact ⟨fi, rfl, h1, h2, h3, h4, h5⟩

theorem fixedAt_count (k : SegKind) : fixedAt (numPos k) 3 = true := by cases k <;> decide +kernel
theorem fixedAt_len (k : SegKind) : fixedAt (lenPos k) (wide k).1 = true := by cases k <;> decide +kernel
theorem fixedAt_data (k : SegKind) : fixedAt (dataPos k) (wide k).2 = true := by cases k <;> decide +kernel

theorem header_kinds : KindsOk Tables.t_file_header := by
  have : (Tables.t_file_header.tab.all fun fi => fi.fd.kind == .plain || fi.fd.ty == .bytes) = true := by
    decide +kernel
  intro fi hfi hp
  have := List.all_eq_true.mp this fi hfi
  simp only [Bool.or_eq_true, beq_iff_eq] at this
  exact this.resolve_left hp

/-- One number of the header. -/
theorem writeD_number {S : Store P.F} {cs0 : List Chunk} (hw : writeChunks P Tables.t_file_header S = .ok cs0)
    (hl : NoLit S) {n w c : Nat} {key : Key} {fd : FieldDef} {r : Desc} {cs : List Chunk}
    (hn : fixedAt n w = true) (hsub : ∀ ch ∈ cs, ch ∈ cs0)
    (hg : getItem P Tables.t_file_header.tab S n key = .ok (.int c))
    (h : writeD P Tables.t_file_header.tab S n key (.field fd r) = .ok cs) :
    ∃ t cs', chunkBytes cs = t ++ chunkBytes cs' ∧ Digital w c t ∧ (∀ ch ∈ cs', ch ∈ cs0) ∧
      writeD P Tables.t_file_header.tab S (n + 1) key r = .ok cs' := by
  obtain ⟨fi, h1, h2, h3, h4, h5, h6⟩ := fixedAt_spec hn
  obtain ⟨b, cs', e1, e2⟩ := writeD_field P h1 h6 h
  subst e1
  exact ⟨b, cs', rfl, digital P header_kinds hw hl (hsub ⟨n, key, b⟩ (by simp)) h1 h2 h3 h4 h5 hg,
    fun ch hch => hsub ch (by simp [hch]), e2⟩

/-- A loop over two numbers. -/
theorem writeD_pairs {S : Store P.F} {cs0 : List Chunk} (hw : writeChunks P Tables.t_file_header S = .ok cs0)
    (hl : NoLit S) {n w1 w2 : Nat} {f1 f2 : FieldDef} (h1 : fixedAt n w1 = true) (h2 : fixedAt (n + 1) w2 = true) :
    ∀ (l : List (Nat × Nat)) (j : Nat) {cs : List Chunk}, (∀ ch ∈ cs, ch ∈ cs0) →
      (∀ (i : Nat) x, l[i]? = some x →
        getItem P Tables.t_file_header.tab S n [((j + i : Nat) : Int)] = .ok (.int x.1) ∧
        getItem P Tables.t_file_header.tab S (n + 1) [((j + i : Nat) : Int)] = .ok (.int x.2)) →
      forChunks (fun i => writeD P Tables.t_file_header.tab S n ([] ++ [i]) (.field f1 (.field f2 .nil)))
        ((List.range' j l.length).map Int.ofNat) = .ok cs → Lengths w1 w2 l (chunkBytes cs)
  | [], j, cs, _, _, h => by
    simp only [List.length_nil, List.range'_zero, List.map_nil, forChunks] at h
    injection h with h
    subst h
    exact .nil
  | x :: l, j, cs, hsub, hg, h => by
    simp only [List.length_cons, List.range'_succ, List.map_cons, forChunks] at h
    split at h
    · cases h
    · rename_i a ha
      split at h
      · cases h
      · rename_i b hb
        injection h with h
        subst h
        have g := hg 0 x rfl
        have ha' : ∀ ch ∈ a, ch ∈ cs0 := fun ch hch => hsub ch (by simp [hch])
        obtain ⟨t, a1, p1, p2, p3, p4⟩ := writeD_number P hw hl h1 ha' g.1 ha
        obtain ⟨t', a2, q1, q2, _, q4⟩ := writeD_number P hw hl h2 p3 g.2 p4
        simp only [writeD] at q4
        injection q4 with q4
        subst q4
        rw [chunkBytes_append', p1, q1]
        rw [show t ++ (t' ++ chunkBytes []) ++ chunkBytes b = t ++ t' ++ chunkBytes b by simp [chunkBytes]]
        refine .cons p2 q2 (writeD_pairs hw hl h1 h2 l (j + 1) (fun ch hch => hsub ch (by simp [hch])) ?_ hb)
        intro i y hy
        have := hg (i + 1) y (by simpa using hy)
        rwa [show j + (i + 1) = j + 1 + i by omega] at this

/-- The count and the lengths of one kind of segments. -/
theorem header_group {f f' : NFile P.F IO.D} {out : Bytes} (r : WriteRun P E IO f f' out)
    (hlit : NoLit f.header) (hlink : ∀ k, ∀ s ∈ f.segs k, s.linked = true) (k : SegKind) {d d' : Desc}
    (hd : dropGroup d = some (.ref k.numField [], d')) {cs : List Chunk} (hsub : ∀ ch ∈ cs, ch ∈ r.cs')
    (h : writeD P Tables.t_file_header.tab f'.header (numPos k) [] d = .ok cs) :
    ∃ s t cs1, chunkBytes cs = s ++ (t ++ chunkBytes cs1) ∧ Digital 3 (r.res k).length s ∧
      Lengths (wide k).1 (wide k).2 (sizes ((r.res k).map (·.2))) t ∧ (∀ ch ∈ cs1, ch ∈ r.cs') ∧
      writeD P Tables.t_file_header.tab f'.header (numPos k + 3) [] d' = .ok cs1 := by
  have hl := r.h0_noLit P E IO hlit
  have hc := r.count P E IO k
  unfold dropGroup at hd
  split at hd
  · rename_i f0 e f1 f2 d1
    simp only [Option.some.injEq, Prod.mk.injEq] at hd
    obtain ⟨rfl, rfl⟩ := hd
    have hget : ∀ {nm n key v}, resolve Tables.t_file_header.tab nm = some n →
        getAttr P Tables.t_file_header f'.header nm key = .ok v →
        getItem P Tables.t_file_header.tab f'.header n key = .ok v := by
      intro nm n key v h1 h2
      unfold getAttr at h2
      rwa [h1] at h2
    obtain ⟨s, cs1, p1, p2, p3, p4⟩ := writeD_number P r.chunks' hl (fixedAt_count k) hsub
      (hget (numField k).res ((numField k).get P hc)) h
    unfold writeD at p4
    rw [(numField k).shape P hc] at p4
    dsimp only at p4
    split at p4
    · cases p4
    · rename_i a ha
      split at p4
      · cases p4
      · rename_i b hb
        injection p4 with p4
        subst p4
        refine ⟨s, chunkBytes a, b, by rw [p1, chunkBytes_append'], p2, ?_,
          fun ch hch => p3 ch (by simp [hch]), hb⟩
        refine writeD_pairs P r.chunks' hl (fixedAt_len k) (fixedAt_data k) _ 0 (f1 := f1) (f2 := f2)
          (fun ch hch => p3 ch (by simp [hch])) ?_ ?_
        · intro i x hx
          simp only [sizes, List.map_map, List.getElem?_map] at hx
          obtain ⟨y, hy, hyx⟩ := Option.map_eq_some_iff.mp hx
          subst hyx
          have hlt := lt_of_getElem? hy
          have hlt' : i < (r.segs1 k).length := by rw [(r.each k).length]; exact hlt
          have hll := r.lens k i _ y (List.getElem?_eq_getElem hlt') hy
            (r.linked P E IO hlink k _ (List.getElem_mem hlt'))
          have hi : (i : Int) < ((r.res k).length : Nat) := by omega
          rw [Nat.zero_add]
          exact ⟨hget (lenField k).res ((lenField k).get P hc (by omega) hi hll.1),
            hget (dataField k).res ((dataField k).get P hc (by omega) hi hll.2)⟩
        · rw [← ha]
          unfold indices
          simp only [sizes, List.length_map]
          rw [show (((r.res k).length : Nat) : Int).toNat = (r.res k).length by omega, List.range_eq_range']
          rfl
  · cases hd

/-! ### C88 -/

/-- The lengths in the header of a written file; what follows them are the six fields of the two TRE
areas. -/
theorem header_lens {f f' : NFile P.F IO.D} {out : Bytes} (r : WriteRun P E IO f f' out)
    (hlit : NoLit f.header) (hlink : ∀ k, ∀ s ∈ f.segs k, s.linked = true) (rest : Bytes) :
    ∃ e1 e2 e3 e4 e5 e6 b8, lens (chunkBytes r.cs' ++ rest) = some (⟨out.length, (chunkBytes r.cs').length,
        sizes ((r.res .image).map (·.2)), sizes ((r.res .graphic).map (·.2)), sizes ((r.res .text).map (·.2)),
        sizes ((r.res .des).map (·.2)), sizes ((r.res .res).map (·.2))⟩, chunkBytes b8 ++ rest) ∧
      (∀ ch ∈ b8, ch ∈ r.cs') ∧ writeD P Tables.t_file_header.tab f'.header 47 []
        (.field e1 (.field e2 (.field e3 (.field e4 (.field e5 (.field e6 .nil)))))) = .ok b8 := by
  have hl := r.h0_noLit P E IO hlit
  have hw := r.chunks'
  have hget : ∀ {nm n key v}, resolve Tables.t_file_header.tab nm = some n →
      getAttr P Tables.t_file_header f'.header nm key = .ok v →
      getItem P Tables.t_file_header.tab f'.header n key = .ok v := by
    intro nm n key v h1 h2
    unfold getAttr at h2
    rwa [h1] at h2
  have hs : SizesOk P Tables.t_file_header.tab f'.header r.cs' := by
    intro ch hch fi hfi
    obtain ⟨fi', k1, _, k3⟩ := slot_facts P (writeD_layout P f'.header _ 0 [] _ hw) hch
    rw [hfi] at k1
    injection k1 with k1
    rw [k1]
    exact k3
  obtain ⟨d1, hd1, f1, d2, hd2, f2, d3, hd3, d4, hd4, d5, hd5, d6, hd6, d7, hd7, d8, hd8, d9, hd9, e1, e2, e3, e4, e5, e6, he⟩ :
      ∃ d1, dropF 29 Tables.t_file_header = some d1 ∧ ∃ f1 d2, d1 = .field f1 d2 ∧ ∃ f2 d3, d2 = .field f2 d3 ∧
      ∃ d4, dropGroup d3 = some (.ref (SegKind.numField .image) [], d4) ∧
      ∃ d5, dropGroup d4 = some (.ref (SegKind.numField .graphic) [], d5) ∧
      ∃ d6, dropF 1 d5 = some d6 ∧
      ∃ d7, dropGroup d6 = some (.ref (SegKind.numField .text) [], d7) ∧
      ∃ d8, dropGroup d7 = some (.ref (SegKind.numField .des) [], d8) ∧
      ∃ d9, dropGroup d8 = some (.ref (SegKind.numField .res) [], d9) ∧
      ∃ e1 e2 e3 e4 e5 e6, d9 = .field e1 (.field e2 (.field e3 (.field e4 (.field e5 (.field e6 .nil))))) :=
    ⟨_, rfl, _, _, rfl, _, _, rfl, _, rfl, _, rfl, _, rfl, _, rfl, _, rfl, _, rfl, _, _, _, _, _, _, rfl⟩
  obtain ⟨a, b, p1, p2, p3⟩ := writeD_front P hd1 (w := 342) (n := 0) (by decide +kernel) hs hw
  have sub : ∀ ch ∈ b, ch ∈ r.cs' := fun ch hch => by rw [p1]; simp [hch]
  subst hd2
  obtain ⟨tfl, b1, q1, q2, q3, q4⟩ := writeD_number P hw hl (w := 12) (by decide +kernel) sub
    (hget flField.res (flField.get P r.fl)) p3
  subst hd3
  obtain ⟨thl, b2, s1, s2, s3, s4⟩ := writeD_number P hw hl (w := 6) (by decide +kernel) q3
    (hget hlField.res (hlField.get P r.hl)) q4
  obtain ⟨i1, i2, b3, t1, t2, t3, t4, t5⟩ := header_group P E IO r hlit hlink .image hd4 s3 s4
  obtain ⟨g1, g2, b4, u1, u2, u3, u4, u5⟩ := header_group P E IO r hlit hlink .graphic hd5 t4 t5
  obtain ⟨x1, b5, v1, v2, v3⟩ := writeD_front P hd6 (w := 3) (by decide +kernel)
    (fun ch hch => hs ch (u4 ch hch)) u5
  obtain ⟨j1, j2, b6, w1, w2, w3, w4, w5⟩ := header_group P E IO r hlit hlink .text hd7
    (fun ch hch => u4 ch (by rw [v1]; simp [hch])) v3
  obtain ⟨k1, k2, b7, y1, y2, y3, y4, y5⟩ := header_group P E IO r hlit hlink .des hd8 w4 w5
  obtain ⟨l1, l2, b8, z1, z2, z3, z4, z5⟩ := header_group P E IO r hlit hlink .res hd9 y4 y5
  have len : ∀ k, (sizes ((r.res k).map (·.2))).length = (r.res k).length := fun k => by simp [sizes]
  have hfront : chunkBytes r.cs' ++ rest = chunkBytes a ++ (tfl ++ (thl ++ (i1 ++ (i2 ++ (g1 ++ (g2 ++
      (chunkBytes x1 ++ (j1 ++ (j2 ++ (k1 ++ (k2 ++ (l1 ++ (l2 ++ (chunkBytes b8 ++ rest)))))))))))))) := by
    rw [p1, chunkBytes_append', q1, s1, t1, u1, v1, chunkBytes_append', w1, y1, z1]
    simp only [List.append_assoc]
  refine ⟨e1, e2, e3, e4, e5, e6, b8, ?_, z4, by rw [← he]; exact z5⟩
  unfold lens
  rw [hfront]
  rw [next_append p2]
  simp only [Option.bind_eq_bind, Option.bind_some]
  rw [number_append q2]
  simp only [Option.bind_some]
  rw [number_append s2]
  simp only [Option.bind_some]
  rw [group_append (by rw [len]; exact t2) (show Lengths 6 10 _ _ from t3)]
  simp only [Option.bind_some]
  rw [group_append (by rw [len]; exact u2) (show Lengths 4 6 _ _ from u3)]
  simp only [Option.bind_some]
  rw [next_append v2]
  simp only [Option.bind_some]
  rw [group_append (by rw [len]; exact w2) (show Lengths 4 5 _ _ from w3)]
  simp only [Option.bind_some]
  rw [group_append (by rw [len]; exact y2) (show Lengths 4 9 _ _ from y3)]
  simp only [Option.bind_some]
  rw [group_append (by rw [len]; exact z2) (show Lengths 4 7 _ _ from z3)]
  simp only [Option.bind_some]

/-- What the splitter finds, in terms of a run of the writer. -/
def runPieces {f f' : NFile P.F IO.D} {out : Bytes} (r : WriteRun P E IO f f' out) : Pieces :=
  ⟨chunkBytes r.cs', (r.res .image).map (·.2), (r.res .graphic).map (·.2), (r.res .text).map (·.2),
    (r.res .des).map (·.2), (r.res .res).map (·.2)⟩

theorem pieces_run {f f' : NFile P.F IO.D} {out : Bytes} (r : WriteRun P E IO f f' out)
    (hlit : NoLit f.header) (hlink : ∀ k, ∀ s ∈ f.segs k, s.linked = true) :
    pieces out = some (runPieces P E IO r) := by
  have hout := r.out_eq
  generalize hrest : partsBytes (fun k => (r.res k).map (·.2)) = rest at hout
  obtain ⟨_, _, _, _, _, _, b8, hlens, _, _⟩ := header_lens P E IO r hlit hlink rest
  have hparts : rest =
      (((r.res .image).map (·.2)).flatMap fun p => p.1 ++ p.2) ++
      ((((r.res .graphic).map (·.2)).flatMap fun p => p.1 ++ p.2) ++
      ((((r.res .text).map (·.2)).flatMap fun p => p.1 ++ p.2) ++
      ((((r.res .des).map (·.2)).flatMap fun p => p.1 ++ p.2) ++
      ((((r.res .res).map (·.2)).flatMap fun p => p.1 ++ p.2) ++ [])))) := by
    simp only [← hrest, partsBytes, SegKind.order, List.flatMap_cons, List.flatMap_nil]
  unfold pieces runPieces
  rw [show lens out = _ from (congrArg lens hout).trans hlens]
  simp only [Option.bind_eq_bind, Option.bind_some]
  rw [next_of hout rfl, hparts]
  simp only [Option.bind_some]
  rw [cut_append]
  simp only [Option.bind_some]
  rw [cut_append]
  simp only [Option.bind_some]
  rw [cut_append]
  simp only [Option.bind_some]
  rw [cut_append]
  simp only [Option.bind_some]
  rw [cut_append]
  simp only [Option.bind_some]
  rw [if_pos ⟨trivial, trivial⟩]

/-- C88: a file that was written is taken apart by the splitter into its header and, for every kind,
the subheader and the data of every segment. -/
theorem C88_pieces {f f' : NFile P.F IO.D} {out : Bytes} (h : writeFile P E IO f = .ok (f', out))
    (hlit : NoLit f.header) (hlink : ∀ k, ∀ s ∈ f.segs k, s.linked = true) :
    ∃ p des, pieces out = some p ∧ writeStruct P Tables.t_file_header f'.header = .ok p.header ∧
      (∀ k, k ≠ .des → Each (WrittenAs P IO k) (f'.segs k) (p.of k)) ∧
      Each (WrittenAs P IO .des) des p.des ∧ dropOverflow P IO des = .ok f'.des := by
  obtain ⟨r⟩ := writeFile_run P E IO h
  refine ⟨runPieces P E IO r, (r.res .des).map (·.1), pieces_run P E IO r hlit hlink, ?_, ?_,
    r.writtenAs P E IO .des, r.drop1⟩
  · simp only [writeStruct, r.chunks', Except.map, runPieces]
  · intro k hk
    rw [r.after k hk]
    have := r.writtenAs P E IO k
    cases k <;> exact this

/-- C88, the first bytes: a file whose header says so begins with `NITF02.10`. -/
theorem C88_magic {f f' : NFile P.F IO.D} {out : Bytes} (h : writeFile P E IO f = .ok (f', out))
    (hlit : NoLit f.header)
    (h1 : getAttr P Tables.t_file_header f'.header (n!"fhdr") [] = .ok (.str "NITF".toList))
    (h2 : getAttr P Tables.t_file_header f'.header (n!"fver") [] = .ok (.str "02.10".toList)) :
    (codes out).take 9 = [78, 73, 84, 70, 48, 50, 46, 49, 48] := by
  obtain ⟨r⟩ := writeFile_run P E IO h
  have hl := r.h0_noLit P E IO hlit
  have hw := r.chunks'
  have hget : ∀ {nm n key v}, resolve Tables.t_file_header.tab nm = some n →
      getAttr P Tables.t_file_header f'.header nm key = .ok v →
      getItem P Tables.t_file_header.tab f'.header n key = .ok v := by
    intro nm n key v h1 h2
    unfold getAttr at h2
    rwa [h1] at h2
  obtain ⟨f1, f2, d, hd⟩ : ∃ f1 f2 d, Tables.t_file_header = .field f1 (.field f2 d) := ⟨_, _, _, rfl⟩
  have text : ∀ {n w : Nat} {b : Bytes} {s : Str}, fixedAt n w = true → ⟨n, [], b⟩ ∈ r.cs' →
      getItem P Tables.t_file_header.tab f'.header n [] = .ok (.str s) → s.length = w →
      codes b = s.map Char.toNat := by
    intro n w b s hn hch hg hlen
    obtain ⟨fi, k1, k2, k3, k4, k5, k6⟩ := fixedAt_spec hn
    obtain ⟨g1, g2⟩ := (C87_written P header_kinds).mp hw
    obtain ⟨fi', e1, e2⟩ := g2 _ hch
    obtain ⟨fi'', e3, _, e4⟩ := slot_facts P g1 hch
    rw [k1] at e1 e3
    injection e1 with e1
    injection e3 with e3
    subst e1 e3
    have hb : b.length = w := by
      simp only [evalSize, k4, k5] at e4
      injection e4 with e4
      split at e4 <;> omega
    obtain ⟨x, hx⟩ := NoLit.stored hl fi.fd n []
    cases e2 with
    | literal hs _ => rw [hs] at hx; cases hx
    | data _ hk' _ => exact absurd k2 hk'
    | plain hs _ hv hsp =>
      rw [hg] at hv
      injection hv with hv
      subst hv
      cases hsp with
      | zd _ hf' _ _ _ => rw [k3] at hf'; cases hf'
      | pd _ hf' _ _ _ => rw [k3] at hf'; cases hf'
      | other _ hf' _ _ _ => rw [k3] at hf'; cases hf'
      | int _ _ hz _ => cases hz
      | str _ _ hp =>
        obtain ⟨k, q1, _⟩ := hp
        have : k = 0 := by
          have := congrArg List.length q1
          simp only [codes_length, List.length_append, List.length_map, List.length_replicate] at this
          omega
        rw [q1, this]
        simp
  have hw' : writeD P Tables.t_file_header.tab f'.header 0 [] (.field f1 (.field f2 d)) = .ok r.cs' := by
    rw [← hd]; exact hw
  obtain ⟨fi1, t1, _, _, _, _, t2⟩ := fixedAt_spec (n := 0) (w := 4) (by decide +kernel)
  obtain ⟨fi2, u1, _, _, _, _, u2⟩ := fixedAt_spec (n := 1) (w := 5) (by decide +kernel)
  obtain ⟨b1, c1, p1, p2⟩ := writeD_field P t1 t2 hw'
  obtain ⟨b2, c2, q1, q2⟩ := writeD_field P u1 u2 p2
  have e1 := text (n := 0) (w := 4) (by decide +kernel) (by rw [p1]; exact List.mem_cons_self) (hget (by decide +kernel) h1) rfl
  have e2 := text (n := 1) (w := 5) (by decide +kernel) (b := b2) (by rw [p1, q1]; simp) (hget (by decide +kernel) h2) rfl
  have : codes out = codes b1 ++ (codes b2 ++ codes (chunkBytes c2 ++ partsBytes fun k => (r.res k).map (·.2))) := by
    refine (congrArg codes r.out_eq).trans ?_
    rw [p1, q1]
    simp only [codes, chunkBytes, List.map_cons, List.flatten_cons, List.map_append, List.append_assoc]
  rw [this, e1, e2]
  rfl

/-! ### Concrete cases -/

/-- `exFile` is taken apart: a header of 426 bytes, a text segment with two bytes of data and a DES
with three. -/
example : (((writeFile P0 exEnv exIO exFile).toOption.bind fun x => pieces x.2).map fun p =>
    decide (p.header.length = 426 ∧ p.image = [] ∧ p.graphic = [] ∧ p.text.map (·.2) = [asc "hi"] ∧
      p.des.map (·.2) = [[7, 8, 9]] ∧ p.res = [])) = some true := by
  decide +kernel

/-- A byte too many or too few, and it is no file. -/
example : ((writeFile P0 exEnv exIO exFile).toOption.map fun x =>
    (pieces (x.2 ++ [0]), pieces x.2.dropLast)) = some (none, none) := by
  decide +kernel

end Verif.Split
