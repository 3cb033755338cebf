import Verif.Tables
import Verif.Props.Struct

/-
C18: the descriptions shipped with the library are well formed, and what this gives for them.
`Verif.Tables.all` is generated from the sources by tools/gen_tables.py.
-/

namespace Verif

variable (P : PyFloat)

/-- Specification: at position `n`, inside the loops `st` (each identified by the position of its
first field), the reference `r` is to a field earlier in the record, which is inside no other
loops, and it is indexed by exactly the loop variables of the loops the field is in. -/
def RefersBack (T : Tab) (n : Nat) (st : List Nat) (r : Name × List Nat) : Prop :=
  ∃ m fm, resolve T r.1 = some m ∧ T[m]? = some fm ∧ m < n ∧ fm.starts <+: st ∧
    r.2 = List.range fm.starts.length

theorem refersBack_of_refOk {T : Tab} {n : Nat} {st : List Nat} {r : Name × List Nat}
    (h : refOk T n st r = true) : RefersBack T n st r := by
  unfold refOk at h
  split at h
  · cases h
  · rename_i m hm
    split at h
    · cases h
    · rename_i fi hfi
      simp only [Bool.and_eq_true, decide_eq_true_eq, beq_iff_eq, List.isPrefixOf_iff_prefix] at h
      exact ⟨m, fi, hm, hfi, h.1.1, h.1.2, h.2⟩

/-- Every shipped description is causal. -/
theorem tables_causal : ∀ t ∈ Tables.all, t.2.causal = true := by
  have : (Tables.all.all fun t => t.2.causal) = true := by decide +kernel
  rwa [List.all_eq_true] at this

theorem tables_wf : ∀ t ∈ Tables.all, t.2.allFields FieldDef.wf = true := by
  have : (Tables.all.all fun t => t.2.allFields FieldDef.wf) = true := by decide +kernel
  rwa [List.all_eq_true] at this

theorem tables_reservedOk : ∀ t ∈ Tables.all, t.2.allFields FieldDef.reservedOk = true := by
  have : (Tables.all.all fun t => t.2.allFields FieldDef.reservedOk) = true := by decide +kernel
  rwa [List.all_eq_true] at this

theorem causal_fieldOk {d : Desc} (hd : d.causal = true) {n : Nat} {fi : FInfo}
    (hn : d.tab[n]? = some fi) : fieldOk d.tab n fi = true := by
  unfold Desc.causal at hd
  rw [Bool.and_eq_true] at hd
  have := causalFrom_get hd.1 n fi hn
  rwa [Nat.zero_add] at this

/-- C18.  In every shipped table, the condition, size and computed value of every field refer
only to earlier fields visible at its loop index. -/
theorem C18_references_earlier : ∀ t ∈ Tables.all, ∀ (n : Nat) (fi : FInfo),
    t.2.tab[n]? = some fi → ∀ r ∈ fi.fd.refs, RefersBack t.2.tab n fi.starts r := by
  intro t ht n fi hn r hr
  have h := causal_fieldOk (tables_causal t ht) hn
  simp only [fieldOk, Bool.and_eq_true, List.all_eq_true] at h
  exact refersBack_of_refOk (h.1.1 r hr)

/-- C18.  In every shipped table, the count of every loop refers only to fields before the loop,
visible at the indices of the loops around it. -/
theorem C18_loop_counts_earlier : ∀ t ∈ Tables.all, ∀ (n : Nat) (fi : FInfo),
    t.2.tab[n]? = some fi → ∀ (k s : Nat) (e : Expr), fi.starts[k]? = some s →
      fi.shapes[k]? = some e → s ≤ n ∧ ∀ r ∈ e.refs, RefersBack t.2.tab s (fi.starts.take k) r := by
  intro t ht n fi hn k s e hs he
  have h := causal_fieldOk (tables_causal t ht) hn
  simp only [fieldOk, Bool.and_eq_true, List.all_eq_true, decide_eq_true_eq] at h
  refine ⟨h.2 s (List.mem_of_getElem? hs), ?_⟩
  intro r hr
  obtain ⟨s', hs', this⟩ := (shapesOk_get h.1.2).2 k e he
  rw [hs, Option.some.injEq] at hs'
  subst hs'
  rw [List.nil_append] at this
  exact refersBack_of_refOk (List.all_eq_true.mp this r hr)

/-- The field of a name (as listed in a table) is not the one the name gives access to. -/
def hiddenNames (d : Desc) : List Name :=
  (d.tab.zipIdx.filterMap fun x =>
    match x.1.fd.name with
    | none => none
    | some nm => if resolve d.tab nm = some x.2 then none else some nm)

theorem mem_hiddenNames {d : Desc} {n : Nat} {fi : FInfo} {nm : Name} (hn : d.tab[n]? = some fi)
    (hnm : fi.fd.name = some nm) (h : resolve d.tab nm ≠ some n) : nm ∈ hiddenNames d := by
  unfold hiddenNames
  rw [List.mem_filterMap]
  exact ⟨(fi, n), List.mem_zipIdx_iff_getElem?.mpr hn, by simp only [hnm, h, if_false]⟩

/-- C18 (names), exact form: the only fields of the shipped tables that cannot be reached by
their name are `pixel_reference_value` in SENSRB and `tsrc` in CSCSDB.  Missing for the full
claim: it is false for these two, see `C18_names_not_distinct`. -/
theorem C18_names_distinct_partial : ∀ t ∈ Tables.all, ∀ (n : Nat) (fi : FInfo) (nm : Name),
    t.2.tab[n]? = some fi → fi.fd.name = some nm →
      resolve t.2.tab nm = some n ∨
      (t.1 = "SENSRB" ∧ nm = n!"pixel_reference_value") ∨ (t.1 = "DesCSCSDB" ∧ nm = n!"tsrc") := by
  have h : (Tables.all.all fun t => (hiddenNames t.2).all fun nm =>
      decide ((t.1 = "SENSRB" ∧ nm = n!"pixel_reference_value") ∨
        (t.1 = "DesCSCSDB" ∧ nm = n!"tsrc"))) = true := by decide +kernel
  rw [List.all_eq_true] at h
  intro t ht n fi nm hn hnm
  by_cases hr : resolve t.2.tab nm = some n
  · exact .inl hr
  · have := List.all_eq_true.mp (h t ht) nm (mem_hiddenNames hn hnm hr)
    exact .inr (decide_eq_true_eq.mp this)

/-- Negation of the distinctness claim: SENSRB and CSCSDB have a name used for several fields, all
but the last of which are unreachable. -/
theorem C18_names_not_distinct :
    (∃ n m fi fj, n ≠ m ∧ Tables.t_tre_sensrb.tab[n]? = some fi ∧
      Tables.t_tre_sensrb.tab[m]? = some fj ∧ fi.fd.name = some (n!"pixel_reference_value") ∧
      fj.fd.name = fi.fd.name ∧
      resolve Tables.t_tre_sensrb.tab (n!"pixel_reference_value") = some m) ∧
    (∃ n m fi fj, n ≠ m ∧ Tables.t_des_cscsdb.tab[n]? = some fi ∧
      Tables.t_des_cscsdb.tab[m]? = some fj ∧ fi.fd.name = some (n!"tsrc") ∧
      fj.fd.name = fi.fd.name ∧ resolve Tables.t_des_cscsdb.tab (n!"tsrc") = some m) := by
  have h1 : ∃ fi fj, Tables.t_tre_sensrb.tab[145]? = some fi ∧
      Tables.t_tre_sensrb.tab[172]? = some fj ∧ fi.fd.name = some (n!"pixel_reference_value") ∧
      fj.fd.name = fi.fd.name := ⟨_, _, rfl, rfl, rfl, rfl⟩
  have h2 : ∃ fi fj, Tables.t_des_cscsdb.tab[62]? = some fi ∧
      Tables.t_des_cscsdb.tab[63]? = some fj ∧ fi.fd.name = some (n!"tsrc") ∧
      fj.fd.name = fi.fd.name := ⟨_, _, rfl, rfl, rfl, rfl⟩
  obtain ⟨fi, fj, a1, a2, a3, a4⟩ := h1
  obtain ⟨gi, gj, b1, b2, b3, b4⟩ := h2
  exact ⟨⟨145, 172, fi, fj, by decide, a1, a2, a3, a4, by decide +kernel⟩,
    ⟨62, 63, gi, gj, by decide, b1, b2, b3, b4, by decide +kernel⟩⟩

/-- The statements above range over 50 tables with more than 1600 fields. -/
example : 50 ≤ Tables.all.length ∧ 1600 ≤ (Tables.all.map fun t => t.2.count).sum := by
  decide +kernel

/-! ### The struct level properties for every shipped table -/

/-- C01 for the shipped tables. -/
theorem C01_shipped {t : String × Desc} (ht : t ∈ Tables.all) {S : Store P.F} {cs : List Chunk}
    (hw : writeChunks P t.2 S = .ok cs) (hrep : ∀ ch ∈ cs, Survives P t.2 S ch) (rest : Bytes) :
    ∃ R, readStruct P t.2 false (chunkBytes cs ++ rest) = .ok (R, rest) ∧
      (∀ nm, itemsOf P t.2 R nm = itemsOf P t.2 S nm) ∧
      ∀ n key, Reach P t.2.tab S n key → getItem P t.2.tab R n key = getItem P t.2.tab S n key :=
  C01_write_then_read P (tables_causal t ht) (tables_wf t ht) hw hrep rest

/-- Shipped tables without float fields and without optional text fields filled with a
character that a value may consist of: every written struct survives. -/
def textTables : List String :=
  ["CAMSDA", "CSDIDA", "ENGRDA", "GEOPSB", "MATESA", "MICIDA", "MTIMFA", "PIXQLA", "TMINTA",
   "DesAssociatedUserSubheader", "DesExtContentHeader", "NitfDesSubheader", "NitfFileHeader",
   "NitfGraphicSubheader", "NitfImageSubheader", "NitfResSubheader", "NitfTextSubheader"]

theorem textTables_survive : ∀ t ∈ Tables.all, t.1 ∈ textTables →
    t.2.allFields FieldDef.alwaysSurvives = true := by
  have : (Tables.all.all fun t => !(textTables.contains t.1) ||
    t.2.allFields FieldDef.alwaysSurvives) = true := by decide +kernel
  rw [List.all_eq_true] at this
  intro t ht hm
  have := this t ht
  simpa [hm] using this

/-- C01 for the file header, all subheaders and the text-only tables: whatever was written is
read back, without any condition on the values. -/
theorem C01_shipped_text {t : String × Desc} (ht : t ∈ Tables.all) (hm : t.1 ∈ textTables)
    {S : Store P.F} (hval : ∀ n k c, S n k = some c → ∃ v, c.val = .val v) {b : Bytes}
    (hw : writeStruct P t.2 S = .ok b) (rest : Bytes) :
    ∃ R, readStruct P t.2 false (b ++ rest) = .ok (R, rest) ∧
      (∀ nm, itemsOf P t.2 R nm = itemsOf P t.2 S nm) :=
  C01_text_tables P (tables_causal t ht) (tables_wf t ht) (textTables_survive t ht hm) hval hw rest

/-- C02 for the shipped tables other than STDIDC and USE00A, which have reserved fields. -/
theorem C02_shipped_partial {t : String × Desc} (ht : t ∈ Tables.all)
    (h1 : t.1 ≠ "STDIDC") (h2 : t.1 ≠ "USE00A") {b rest : Bytes} {R : Store P.F}
    (h : readStruct P t.2 true b = .ok (R, rest)) :
    ∃ c, writeStruct P t.2 R = .ok c ∧ b = c ++ rest := by
  have hn : (Tables.all.all fun t => t.1 == "STDIDC" || t.1 == "USE00A" ||
    t.2.allFields (fun fd => fd.name.isSome)) = true := by decide +kernel
  rw [List.all_eq_true] at hn
  have := hn t ht
  have e1 : (t.1 == "STDIDC") = false := by simpa using h1
  have e2 : (t.1 == "USE00A") = false := by simpa using h2
  rw [e1, e2] at this
  exact C02_literal_identity_partial P (tables_causal t ht) (by simpa using this) h

/-- C02 for every shipped table: the literal copy differs from the input at most in the content
of reserved fields. -/
theorem C02_shipped_reserved {t : String × Desc} (ht : t ∈ Tables.all) {b rest : Bytes}
    {R : Store P.F} (h : readStruct P t.2 true b = .ok (R, rest)) :
    ∃ ins, b = chunkBytes ins ++ rest ∧
      writeChunks P t.2 R = .ok (ins.map (blank t.2.tab)) :=
  C02_literal_reserved_blanked P (tables_causal t ht) (tables_reservedOk t ht) h

/-- C03 for the shipped tables. -/
theorem C03_shipped {t : String × Desc} (ht : t ∈ Tables.all) {lit : Bool} {R0 R : Store P.F}
    {b rest : Bytes} (h : readInto P t.2 lit R0 b = .ok (R, rest)) :
    ∃ c, b = c ++ rest ∧ ∀ rest', readInto P t.2 lit R0 (c ++ rest') = .ok (R, rest') :=
  C03_exact_consumption P (tables_causal t ht) h

/-- C05 for the shipped tables. -/
theorem C05_shipped {t : String × Desc} (ht : t ∈ Tables.all) {lit : Bool} {R0 R : Store P.F}
    {c rest : Bytes} (h : readInto P t.2 lit R0 (c ++ rest) = .ok (R, rest)) (c' : Bytes)
    (hp : c' <+: c) (hne : c' ≠ c) : readInto P t.2 lit R0 c' = .error .runtime :=
  C05_truncated_rejected P (tables_causal t ht) h c' hp hne

/-- C06 for the shipped tables. -/
theorem C06_shipped {t : String × Desc} (ht : t ∈ Tables.all) {lit : Bool} {R0 R : Store P.F}
    {b rest : Bytes} (h : readInto P t.2 lit R0 b = .ok (R, rest)) :
    ∃ ins, b = chunkBytes ins ++ rest ∧ layout P t.2 R = .ok (ins.map Chunk.slot) ∧
      ∀ ch ∈ ins, ∀ fi, t.2.tab[ch.pos]? = some fi → fi.fd.name ≠ none →
        getRawBytes P t.2.tab R ch.pos ch.key = .ok ch.bytes :=
  C06_raw_bytes P (tables_causal t ht) h

/-- C16 for the shipped tables. -/
theorem C16_shipped {t : String × Desc} (ht : t ∈ Tables.all) {S : Store P.F} {cs : List Chunk}
    (hw : writeChunks P t.2 S = .ok cs) (hrep : ∀ ch ∈ cs, Survives P t.2 S ch)
    (hval : ∀ n k c, S n k = some c → ∃ v, c.val = .val v) :
    ∃ R, deepCopy P t.2 S = .ok R ∧ (∀ nm, itemsOf P t.2 R nm = itemsOf P t.2 S nm) ∧
      writeChunks P t.2 R = .ok cs ∧ deepCopy P t.2 R = .ok R :=
  C16_deepcopy P (tables_causal t ht) (tables_wf t ht) hw hrep hval

/-! ### Variable length fields -/

/-- The size of the field at `n` is directly the value of an ordinary integer field with the same
loop index, so that assigning data updates the length that goes with it. -/
def OwnLength (T : Tab) (fi : FInfo) : Prop :=
  ∃ nm idx m fm, fi.fd.size = .expr (.ref nm idx) ∧ resolve T nm = some m ∧ T[m]? = some fm ∧
    fm.fd.kind = .plain ∧ fm.fd.ty = .int ∧ fm.fd.hardcoded = false ∧ fm.fd.value = none ∧
    fm.starts = fi.starts

def ownLength (T : Tab) (fi : FInfo) : Bool :=
  match fi.fd.size with
  | .expr (.ref nm _) =>
    match resolve T nm with
    | some m =>
      match T[m]? with
      | some fm => fm.fd.kind == .plain && fm.fd.ty == .int && !fm.fd.hardcoded &&
          fm.fd.value == none && fm.starts == fi.starts
      | none => false
    | none => false
  | _ => false

theorem ownLength_iff {T : Tab} {fi : FInfo} (h : ownLength T fi = true) : OwnLength T fi := by
  unfold ownLength at h
  split at h
  · rename_i nm idx hs
    split at h
    · rename_i m hm
      split at h
      · rename_i fm hfm
        simp only [Bool.and_eq_true, beq_iff_eq, Bool.not_eq_true'] at h
        exact ⟨nm, idx, m, fm, hs, hm, hfm, h.1.1.1.1, h.1.1.1.2, h.1.1.2, h.1.2, h.2⟩
      · cases h
    · cases h
  · cases h

/-- C13 applies to the shipped tables: every variable length field has its own length field,
except the lookup tables of an image band (`lutd`: one length for all tables of a band) and the
grid coordinates of RSMGGA (which cannot be assigned). -/
theorem C13_shipped_lengths : ∀ t ∈ Tables.all, ∀ (n : Nat) (fi : FInfo),
    t.2.tab[n]? = some fi → fi.fd.kind ≠ .plain → fi.fd.sizeNotUpdated = false →
      OwnLength t.2.tab fi ∨ (t.1 = "NitfImageSubheader" ∧ fi.fd.name = some (n!"lutd")) ∨
      (t.1 = "RSMGGA" ∧ fi.fd.kind = .coord) := by
  have h : (Tables.all.all fun t => t.2.tab.all fun fi => fi.fd.kind == .plain ||
      fi.fd.sizeNotUpdated || ownLength t.2.tab fi ||
      decide ((t.1 = "NitfImageSubheader" ∧ fi.fd.name = some (n!"lutd")) ∨
        (t.1 = "RSMGGA" ∧ fi.fd.kind = .coord))) = true := by decide +kernel
  intro t ht n fi hn hk hu
  rw [List.all_eq_true] at h
  have := List.all_eq_true.mp (h t ht) fi (List.mem_of_getElem? hn)
  simp only [Bool.or_eq_true, beq_iff_eq, decide_eq_true_eq] at this
  rcases this with ((h1 | h1) | h1) | h1
  · exact absurd h1 hk
  · rw [hu] at h1; cases h1
  · exact .inl (ownLength_iff h1)
  · exact .inr h1

/-- TRE tags are distinct, and six characters long. -/
theorem C18_tre_tags : (Tables.tres.map (·.1)).Nodup ∧ ∀ t ∈ Tables.tres, t.1.length = 6 := by
  decide +kernel

end Verif
