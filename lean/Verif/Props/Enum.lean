import Verif.Enum
import Verif.Props.Index
import Verif.Props.Struct

/- Enumeration: C54, C55. -/

namespace Verif

variable {P : PyFloat}

theorem mem_valuesAt {g : Key → Except Err (Val P.F)} : ∀ {ks : List Key} {vs : List (Key × Val P.F)},
    valuesAt P g ks = .ok vs →
      vs.map (·.1) = ks ∧ ∀ k v, (k, v) ∈ vs ↔ k ∈ ks ∧ g k = .ok v := by
  intro ks
  induction ks with
  | nil =>
    intro vs h
    simp only [valuesAt] at h
    injection h with h
    subst h
    simp
  | cons a ks ih =>
    intro vs h
    simp only [valuesAt] at h
    cases h1 : g a with
    | error e => rw [h1] at h; cases h
    | ok w =>
      rw [h1] at h
      simp only at h
      cases h2 : valuesAt P g ks with
      | error e => rw [h2] at h; cases h
      | ok r =>
        rw [h2] at h
        injection h with h
        subst h
        obtain ⟨i1, i2⟩ := ih h2
        refine ⟨by simp [i1], fun k v => ?_⟩
        simp only [List.mem_cons, Prod.mk.injEq, i2]
        constructor
        · rintro (⟨rfl, rfl⟩ | ⟨b1, b2⟩)
          · exact ⟨.inl rfl, h1⟩
          · exact ⟨.inr b1, b2⟩
        · rintro ⟨rfl | b1, b2⟩
          · rw [h1] at b2
            injection b2 with b2
            exact .inl ⟨rfl, b2.symm⟩
          · exact .inr ⟨b1, b2⟩

/-- The index is inside the loops around the field. -/
def InShape (T : Tab) (S : Store P.F) (fi : FInfo) (k : Key) : Prop :=
  k.length = fi.depth ∧ ∀ j < fi.depth, IndexOk (look P T S) fi k j

theorem mem_fieldKeys {T : Tab} {S : Store P.F} {fi : FInfo} {ks : List Key}
    (h : fieldKeys T S fi = .ok ks) (k : Key) : k ∈ ks ↔ InShape T S fi k := by
  unfold fieldKeys at h
  rw [mem_keysFrom fi.shapes [] ks h k]
  simp only [List.nil_prefix, List.length_nil, Nat.zero_add, true_and, InShape, FInfo.depth]
  refine and_congr_right fun hl => ⟨fun h j hj => ?_, fun h j e he => ?_⟩
  · obtain ⟨e, he⟩ : ∃ e, fi.shapes[j]? = some e := ⟨_, List.getElem?_eq_getElem hj⟩
    obtain ⟨i, c, h1, h2, h3, h4⟩ := h j e he
    exact ⟨e, i, c, he, h1, h2, h3, h4⟩
  · obtain ⟨e', i, c, h0, h1, h2, h3, h4⟩ := h j (lt_of_getElem? he)
    rw [he] at h0
    injection h0 with h0
    subst h0
    exact ⟨i, c, h1, h2, h3, h4⟩

/-- C54.  Enumerating a field (`items()`, `values()` of the field) gives exactly the elements with
all indices in range, each with the value reading it gives, in row-major order (hence each once). -/
theorem C54_items_exact {T : Tab} {S : Store P.F} {n : Nat} {fi : FInfo} (hn : T[n]? = some fi)
    {its : List (Key × Val P.F)} (h : fieldItems P T S n = .ok its) :
    (∀ k v, (k, v) ∈ its ↔ InShape T S fi k ∧ getItem P T S n k = .ok v) ∧
    (its.map (·.1)).Pairwise Before := by
  unfold fieldItems at h
  rw [hn] at h
  simp only at h
  cases hk : keysFrom P (look P T S) fi.shapes [] with
  | error e => rw [hk] at h; cases h
  | ok ks =>
    rw [hk] at h
    simp only at h
    obtain ⟨h1, h2⟩ := mem_valuesAt h
    refine ⟨fun k v => ?_, by rw [h1]; exact keysFrom_sorted _ _ _ hk⟩
    rw [h2, mem_fieldKeys (ks := ks) hk]

/-- C54.  The nested list (`to_list()`) exists exactly if the enumeration does; it has the same
scalars in the same order, and indexing it reaches a scalar exactly at the enumerated indices, where
it is the value of the element. -/
theorem C54_to_list {T : Tab} {S : Store P.F} {n : Nat} :
    ((∃ x, toList T S n = .ok x) ↔ ∃ its, fieldItems P T S n = .ok its) ∧
    ∀ x its, toList T S n = .ok x → fieldItems P T S n = .ok its →
      x.leaves = its.map (·.2) ∧ ∀ k v, x.sub k = some (.leaf v) ↔ (k, v) ∈ its := by
  unfold toList fieldItems
  cases hn : T[n]? with
  | none => simp
  | some fi =>
    simp only
    obtain ⟨f1, f2⟩ := toListFrom_leaves (l := look P T S) (get := fun k => getItem P T S n k)
      fi.shapes []
    constructor
    · constructor
      · rintro ⟨x, hx⟩
        obtain ⟨ks, vs, h1, h2, _⟩ := f1 x hx
        exact ⟨vs, by rw [h1]; exact h2⟩
      · rintro ⟨vs, hv⟩
        cases hk : keysFrom P (look P T S) fi.shapes [] with
        | error e => rw [hk] at hv; cases hv
        | ok ks =>
          rw [hk] at hv
          exact f2 ks vs hk hv
    · intro x its hx hi
      obtain ⟨ks, vs, h1, h2, h3⟩ := f1 x hx
      rw [h1] at hi
      simp only at hi
      rw [h2] at hi
      injection hi with hi
      subst hi
      refine ⟨h3, fun k v => ?_⟩
      obtain ⟨_, hm⟩ := mem_valuesAt h2
      constructor
      · intro hk
        have hin := toListFrom_mem _ [] x hx k v hk ks h1
        rw [List.nil_append] at hin
        obtain ⟨w, hw, hs⟩ := toListFrom_sub _ [] x hx k ks h1 (by rwa [List.nil_append])
        rw [List.nil_append] at hw
        rw [hk] at hs
        injection hs with hs
        injection hs with hs
        subst hs
        exact (hm k v).mpr ⟨hin, hw⟩
      · intro hk
        obtain ⟨hin, hv⟩ := (hm k v).mp hk
        obtain ⟨w, hw, hs⟩ := toListFrom_sub _ [] x hx k ks h1 (by rwa [List.nil_append])
        rw [List.nil_append, hv] at hw
        injection hw with hw
        subst hw
        exact hs

/-- C54.  `items()` of a struct gives every field name once, in the order of first appearance in the
table, with the nested list of the last field of that name. -/
theorem C54_struct_items {d : Desc} {S : Store P.F} {its : List (Name × Nest P.F)}
    (h : structItems d S = .ok its) :
    its.map (·.1) = fieldNames d ∧ (fieldNames d).Nodup ∧
    (∀ nm, nm ∈ fieldNames d ↔ ∃ fi ∈ d.tab, fi.fd.name = some nm) ∧
    ∀ nm x, (nm, x) ∈ its → ∃ n fi, d.tab[n]? = some fi ∧ fi.fd.name = some nm ∧
      (∀ m fm, n < m → d.tab[m]? = some fm → fm.fd.name ≠ some nm) ∧ toList d.tab S n = .ok x := by
  have gen : ∀ (nms : List Name) (its : List (Name × Nest P.F)), structItems.go d S nms = .ok its →
      its.map (·.1) = nms ∧ ∀ nm x, (nm, x) ∈ its → ∃ n, resolve d.tab nm = some n ∧
        toList d.tab S n = .ok x := by
    intro nms
    induction nms with
    | nil =>
      intro its h
      simp only [structItems.go] at h
      injection h with h
      subst h
      simp
    | cons nm r ih =>
      intro its h
      simp only [structItems.go] at h
      cases h1 : resolve d.tab nm with
      | none => rw [h1] at h; cases h
      | some n =>
        rw [h1] at h
        simp only at h
        cases h2 : toList d.tab S n with
        | error e => rw [h2] at h; cases h
        | ok v =>
          rw [h2] at h
          simp only at h
          cases h3 : structItems.go d S r with
          | error e => rw [h3] at h; cases h
          | ok vs =>
            rw [h3] at h
            injection h with h
            subst h
            obtain ⟨i1, i2⟩ := ih vs h3
            refine ⟨by simp [i1], ?_⟩
            intro nm' x hx
            rw [List.mem_cons] at hx
            rcases hx with hx | hx
            · injection hx with e1 e2
              subst e1 e2
              exact ⟨n, h1, h2⟩
            · exact i2 nm' x hx
  obtain ⟨h1, h2⟩ := gen _ _ h
  obtain ⟨h3, h4⟩ := namesFrom_spec d.tab []
  refine ⟨h1, h3, fun nm => by unfold fieldNames; rw [h4 nm]; simp, ?_⟩
  intro nm x hx
  obtain ⟨n, hr, hl⟩ := h2 nm x hx
  obtain ⟨_, ⟨fi, g1, g2⟩, g3⟩ := (resolveFrom_last nm d.tab 0 n).mp hr
  exact ⟨n, fi, g1, g2, g3, hl⟩

/-- C54 for the shipped tables whose indices are all checked: an element can be read exactly if it
is enumerated. -/
theorem C54_shipped {t : String × Desc} (ht : t ∈ Tables.all) (hu : t.1 ∉ uncheckedTables)
    {S : Store P.F} {n : Nat} {fi : FInfo} (hn : t.2.tab[n]? = some fi) (hnm : fi.fd.name ≠ none)
    {its : List (Key × Val P.F)} (h : fieldItems P t.2.tab S n = .ok its) (hdep : 0 < fi.depth)
    (k : Key) (v : Val P.F) : (k, v) ∈ its ↔ getItem P t.2.tab S n k = .ok v := by
  rw [(C54_items_exact hn h).1 k v]
  refine ⟨fun h => h.2, fun hv => ⟨?_, hv⟩⟩
  refine Classical.byContradiction fun hbad => ?_
  obtain ⟨e, he⟩ := (C15_shipped_partial ht hu hn hnm hdep hbad).1
  rw [hv] at he
  cases he

example : fieldItems P0 exDesc.tab exStore 2 =
    .ok [([0], .int 7), ([1], .none), ([2], .none)] := by decide +kernel

example : (toList (P := P0) gridDesc.tab ((Store.empty.set 0 [] ⟨.val (.int 2), none⟩).set 1 []
      ⟨.val (.int 3), none⟩) 2).map Nest.leaves = .ok (List.replicate 6 (.int 0)) := by
  decide +kernel

theorem checkIndex_inShape {T : Tab} {S : Store P.F} {fi : FInfo} {k : Key} (hin : InShape T S fi k) :
    checkIndex P (look P T S) fi k = .ok () := by
  obtain ⟨hlen, hidx⟩ := hin
  unfold checkIndex
  cases hs : fi.shapes.getLast? with
  | none => rfl
  | some e =>
    have hpos : 0 < fi.depth := by
      unfold FInfo.depth
      cases hsh : fi.shapes with
      | nil => rw [hsh] at hs; cases hs
      | cons a b => simp
    obtain ⟨e', i, c, a1, a2, a3, a4, a5⟩ := hidx (fi.depth - 1) (by omega)
    have e1 : e' = e := by
      rw [List.getLast?_eq_getElem?] at hs
      unfold FInfo.depth at a1
      rw [hs] at a1
      injection a1 with a1
      exact a1.symm
    subst e1
    have e2 : k.getLast? = some i := by
      rw [List.getLast?_eq_getElem?, hlen]
      exact a2
    have e3 : k.dropLast = k.take (fi.depth - 1) := by
      rw [List.dropLast_eq_take, hlen]
    simp only [e2, e3, a3]
    rw [if_neg (by simpa using hlen), if_neg (by omega), if_neg (by omega)]

/-- C55.  What is written of a field are exactly its enumerated elements whose condition holds, each
once and in the order of enumeration; the others read as `None`.  (`cs` is the sequence of pieces
written, `C55_bytes`.) -/
theorem C55_written_elements {d : Desc} (hd : d.causal = true) {S : Store P.F} {cs : List Chunk}
    (hw : writeChunks P d S = .ok cs) {n : Nat} {fi : FInfo} (hn : d.tab[n]? = some fi) :
    ∃ ks, fieldKeys d.tab S fi = .ok ks ∧
      (cs.filter fun c => c.pos == n).map Chunk.key = ks.filter (present (look P d.tab S) fi) ∧
      ∀ k ∈ ks, InShape d.tab S fi k ∧ (evalCond P (look P d.tab S) fi k = .ok true ∨
        evalCond P (look P d.tab S) fi k = .ok false ∧
          (fi.fd.name ≠ none → getItem P d.tab S n k = .ok .none)) := by
  obtain ⟨ks, h1, h2, h3⟩ := layout_keys hd (writeD_layout P S d 0 [] cs hw) hn
  refine ⟨ks, h1, ?_, ?_⟩
  · rw [← h3, List.filter_map, List.map_map]
    rfl
  · intro k hk
    have hin := (mem_fieldKeys h1 k).mp hk
    refine ⟨hin, ?_⟩
    obtain ⟨b, hb⟩ := h2 k hk
    cases b with
    | true => exact .inl hb
    | false =>
      refine .inr ⟨hb, fun hnm => C11_reads_none P hn hnm ?_ hb⟩
      exact checkIndex_inShape hin

/-- The bytes written are the pieces one after the other. -/
theorem C55_bytes {d : Desc} {S : Store P.F} {b : Bytes} (h : writeStruct P d S = .ok b) :
    ∃ cs, writeChunks P d S = .ok cs ∧ b = (cs.map Chunk.bytes).flatten := by
  unfold writeStruct at h
  cases hw : writeChunks P d S with
  | error e => rw [hw] at h; cases h
  | ok cs =>
    rw [hw] at h
    simp only [Except.map] at h
    injection h with h
    exact ⟨cs, rfl, h.symm⟩

/-- C55 for reading: the bytes consumed are pieces for exactly the elements enumerated by the struct
that was read and present in it. -/
theorem C55_read_elements {d : Desc} (hd : d.causal = true) {lit : Bool} {R0 R : Store P.F}
    {b rest : Bytes} (h : readInto P d lit R0 b = .ok (R, rest)) :
    ∃ ins : List Chunk, b = (ins.map Chunk.bytes).flatten ++ rest ∧
      ∀ n fi, d.tab[n]? = some fi → ∃ ks, fieldKeys d.tab R fi = .ok ks ∧
        (ins.filter fun c => c.pos == n).map Chunk.key = ks.filter (present (look P d.tab R) fi) := by
  obtain ⟨ins, hb, hl, _⟩ := C06_raw_bytes P hd h
  refine ⟨ins, hb, fun n fi hn => ?_⟩
  obtain ⟨ks, h1, _, h3⟩ := layout_keys hd hl hn
  refine ⟨ks, h1, ?_⟩
  rw [← h3, List.filter_map, List.map_map]
  rfl

/-- A case of C55: `val` is enumerated at three indices and written at two. -/
example : fieldKeys (P := P0) exDesc.tab exStore (exDesc.tab.getD 2 ⟨{ name := none, size := .const 0, ty := .str }, [], []⟩) =
      .ok [[0], [1], [2]] ∧
    (exChunks.filter fun c => c.pos == 2).map Chunk.key = [[0], [2]] := by decide +kernel

end Verif
