import Verif.IllumaLemmas
import Verif.TreLemmas
import Verif.Example

/- C72: the ILLUMA TRE. -/

namespace Verif

variable (P : PyFloat)

/-- Specification: every attribute of `A` that is set can be written as a number, and the number of
its text is read. -/
def Numbers (A : Illums P.F) : Prop :=
  ∀ p ∈ illumaFields, ∀ t, (A p.2).text P = some t →
    PlainText t ∧ ∃ v, pyFloatS P t = .ok v

theorem illumaFields_ok : (∀ p ∈ illumaFields, PlainName p.1) ∧ (illumaFields.map (·.1)).Nodup ∧
    (illumaFields.map (·.2)).Nodup := by decide +kernel

theorem illumaItems_plain {A : Illums P.F} (hA : Numbers P A) :
    ∀ p ∈ illumaItems P A illumaFields, PlainName p.1 ∧ PlainText p.2 := by
  intro p hp
  obtain ⟨q, hq, h⟩ := List.mem_filterMap.mp hp
  cases ht : (A q.2).text P with
  | none => rw [ht] at h; cases h
  | some t =>
    rw [ht] at h
    cases h
    exact ⟨illumaFields_ok.1 q hq, (hA q hq t ht).1⟩

/-- C72.  The body written for `A` is read into an object `B` in any state: attributes that are set
in `A` become the float that their text stands for; attributes that are not set in `A`, and
everything else, stay as they are. -/
theorem C72_written_read {A : Illums P.F} (hA : Numbers P A) (B : Illums P.F) :
    ∃ C, illumaRead P (illumaBytes P A) B = .ok C ∧
      (∀ p ∈ illumaFields, match (A p.2).text P with
        | none => C p.2 = B p.2
        | some t => ∃ v, pyFloatS P t = .ok v ∧ C p.2 = .flt v) ∧
      ∀ a, a ∉ illumaFields.map (·.2) → C a = B a := by
  obtain ⟨m, attrs, _, h1, h2, h3, h4⟩ := illumaBytes_doc P A
  obtain ⟨tag, text, h5⟩ := illumaDoc_parse h1 h2 (illumaItems_plain P hA)
  have hk : ∀ x, kidTag (nsDecls attrs) x = inNs illumaNs x := by
    intro x
    unfold kidTag
    rw [h3]
    exact if_neg (by decide +kernel)
  have hfind : ∀ p ∈ illumaFields, illumaFind
      (.mk tag text (itemKids (nsDecls attrs) (illumaItems P A illumaFields))) p.1 =
      ((A p.2).text P).map fun t => .mk (inNs illumaNs p.1) (some t) [] := by
    intro p hp
    have hplain : (Elem.mk tag text (itemKids (nsDecls attrs)
        (illumaItems P A illumaFields))).find p.1 = none := by
      unfold Elem.find
      rw [List.find?_eq_none]
      intro e he
      obtain ⟨q, _, rfl⟩ := List.mem_map.mp he
      simp only [Elem.tag, hk, beq_iff_eq]
      intro h
      have : '{' ∈ p.1 := by rw [← h]; simp [inNs]
      exact ((illumaFields_ok.1 p hp).2 '{' this).2.2.2.2.2.2 rfl
    unfold illumaFind
    rw [hplain]
    simp only
    unfold Elem.find
    simp only [Elem.kids]
    rw [itemKids_find]
    have : (fun q : Str × Str => kidTag (nsDecls attrs) q.1 == inNs illumaNs p.1) =
        fun q => q.1 == p.1 := by
      funext q
      rw [hk]
      by_cases h : q.1 = p.1
      · simp [h]
      · have h' : inNs illumaNs q.1 ≠ inNs illumaNs p.1 := fun e => h (inNs_inj e)
        rw [beq_eq_false_iff_ne.mpr h, beq_eq_false_iff_ne.mpr h']
    rw [this, illumaItems_find P illumaFields_ok.2.1 p hp]
    cases (A p.2).text P with
    | none => rfl
    | some t => simp [hk]
  let g : Str → Option Str := fun x => match illumaFields.find? (fun p => p.1 == x) with
    | none => none
    | some p => (A p.2).text P
  have hgp : ∀ p ∈ illumaFields, g p.1 = (A p.2).text P := by
    intro p hp
    have : illumaFields.find? (fun q => q.1 == p.1) = some p := by
      revert p hp
      decide +kernel
    simp only [g, this]
  obtain ⟨C, c1, c2, c3⟩ := illumaLoad_spec P (g := g)
    (root := .mk tag text (itemKids (nsDecls attrs) (illumaItems P A illumaFields)))
    illumaFields B illumaFields_ok.2.2 (by
      intro p hp
      have hf := hfind p hp
      rw [hgp p hp]
      cases ht : (A p.2).text P with
      | none => rw [ht] at hf; exact hf
      | some t =>
        rw [ht] at hf
        obtain ⟨_, v, hv⟩ := hA p hp t ht
        exact ⟨_, _, v, hf, hv⟩)
  refine ⟨C, ?_, ?_, c3⟩
  · unfold illumaRead
    rw [h4, h5]
    exact c1
  · intro p hp
    have := c2 p hp
    rwa [hgp p hp] at this

/-- Floats are read back from their text; the text of a float has no markup. -/
def FloatText (x : P.F) : Prop := PlainText (P.str x) ∧ pyFloatS P (P.str x) = .ok x

/-- The TRE around a body, followed by `rest`. -/
theorem illumaReadTre_frame {A : Illums P.F} {b : Bytes} (h : illumaWriteTre P A = .ok b)
    (rest : Bytes) : illumaReadTre P (b ++ rest) = (illumaRead P (illumaBytes P A) illumaNew).map
      fun C => (C, rest) := by
  have hT : TagOk "ILLUMA".toList := ⟨by decide, by decide, by decide⟩
  unfold illumaWriteTre at h
  simp only at h
  by_cases hl : (illumaBytes P A).length > 99999
  · rw [if_pos hl] at h; cases h
  rw [if_neg hl] at h
  injection h with h
  subst h
  have e1 := hT.length
  have e2 := lenBytes_length (n := (illumaBytes P A).length) (by omega)
  unfold illumaReadTre
  have d1 : (tagBytes "ILLUMA".toList ++ (lenBytes (illumaBytes P A).length ++ illumaBytes P A) ++
      rest).take 6 = tagBytes "ILLUMA".toList := by
    rw [List.append_assoc, List.take_append_of_le_length (by omega), List.take_of_length_le (by omega)]
  have d2 : (tagBytes "ILLUMA".toList ++ (lenBytes (illumaBytes P A).length ++ illumaBytes P A) ++
      rest).drop 6 = lenBytes (illumaBytes P A).length ++ (illumaBytes P A ++ rest) := by
    rw [List.append_assoc, ← e1, List.drop_left, List.append_assoc]
  have d3 : (tagBytes "ILLUMA".toList ++ (lenBytes (illumaBytes P A).length ++ illumaBytes P A) ++
      rest).drop 11 = illumaBytes P A ++ rest := by
    rw [show (11 : Nat) = 6 + 5 from rfl, ← List.drop_drop, d2, ← e2, List.drop_left]
  rw [d1, d2, d3, hT.rstrip, utf8Dec_utf8Enc]
  simp only [ne_eq, not_true_eq_false, if_false]
  rw [List.take_append_of_le_length (by omega), List.take_of_length_le (by omega), pyIntB_lenBytes]
  simp only [Int.toNat_natCast]
  rw [if_neg (by omega), List.take_left]
  cases illumaRead P (illumaBytes P A) illumaNew with
  | error e => rfl
  | ok C => simp [Except.map]

/-- C72, for the values the TRE is made for: a TRE whose attributes are floats or not set is read
back with exactly these values, and reading stops at its end.  Missing: documents without the
namespace, see `C72_no_namespace`. -/
theorem C72_round_trip_partial {A : Illums P.F}
    (hA : ∀ p ∈ illumaFields, A p.2 = .unset ∨ ∃ x, A p.2 = .flt x ∧ FloatText P x) {b : Bytes}
    (h : illumaWriteTre P A = .ok b) (rest : Bytes) :
    ∃ C, illumaReadTre P (b ++ rest) = .ok (C, rest) ∧ ∀ p ∈ illumaFields, C p.2 = A p.2 := by
  have hN : Numbers P A := by
    intro p hp t ht
    rcases hA p hp with h | ⟨x, h, hx⟩
    · rw [h] at ht; cases ht
    · rw [h] at ht; cases ht; exact ⟨hx.1, x, hx.2⟩
  obtain ⟨C, c1, c2, _⟩ := C72_written_read P hN illumaNew
  refine ⟨C, ?_, ?_⟩
  · rw [illumaReadTre_frame P h, c1]; rfl
  · intro p hp
    have hc := c2 p hp
    rcases hA p hp with h | ⟨x, h, hx⟩
    · rw [h] at hc ⊢; exact hc
    · rw [h] at hc ⊢
      obtain ⟨v, v1, v2⟩ := hc
      rw [hx.2] at v1
      cases v1
      exact v2

/-- C72: an attribute set to an int comes back as a float. -/
theorem C72_int_becomes_float {A : Illums P.F} (hA : Numbers P A) {p : Str × Str}
    (hp : p ∈ illumaFields) {z : Int} (hz : A p.2 = .int z) :
    ∃ C v, illumaRead P (illumaBytes P A) illumaNew = .ok C ∧ pyFloatS P (intStr z) = .ok v ∧
      C p.2 = .flt v := by
  obtain ⟨C, c1, c2, _⟩ := C72_written_read P hA illumaNew
  have := c2 p hp
  rw [hz] at this
  obtain ⟨v, v1, v2⟩ := this
  exact ⟨C, v, c1, v1, v2⟩

/-- C72: it cannot be written exactly if its body is longer than 99999 bytes. -/
theorem C72_writable (A : Illums P.F) :
    (∃ b, illumaWriteTre P A = .ok b) ↔ (illumaBytes P A).length ≤ 99999 := by
  unfold illumaWriteTre
  simp only
  constructor
  · rintro ⟨b, h⟩
    by_cases hl : (illumaBytes P A).length > 99999
    · rw [if_pos hl] at h; cases h
    · omega
  · intro h
    exact ⟨_, if_neg (by omega)⟩

theorem nsDecls_prefix {pre u : Str} (hp : pre ≠ []) : ∀ {attrs : List (Str × Str)},
    attrs.lookup ("xmlns:".toList ++ pre) = some u → (nsDecls attrs).lookup pre = some u
  | [], h => by cases h
  | (n, v) :: attrs, h => by
    have ex : "xmlns:".toList = ['x', 'm', 'l', 'n', 's', ':'] := by decide +kernel
    have ex' : "xmlns".toList = ['x', 'm', 'l', 'n', 's'] := by decide +kernel
    have hd : ("xmlns:".toList).isPrefixOf n = true → n = "xmlns:".toList ++ n.drop 6 := by
      intro h
      obtain ⟨t, rfl⟩ := List.isPrefixOf_iff_prefix.mp h
      rw [ex]
      simp
    rw [List.lookup_cons] at h
    unfold nsDecls
    rw [List.filterMap_cons]
    have ih := @nsDecls_prefix pre u hp attrs
    unfold nsDecls at ih
    by_cases hn : n = "xmlns:".toList ++ pre
    · have hne : ¬ n = "xmlns".toList := by rw [hn, ex, ex']; simp
      have hpf : ("xmlns:".toList).isPrefixOf n = true := by
        rw [hn]; exact List.isPrefixOf_iff_prefix.mpr (List.prefix_append _ _)
      have hdr : n.drop 6 = pre := by rw [hn, ex]; simp
      dsimp only
      rw [if_neg hne, if_pos hpf]
      dsimp only
      rw [hdr, List.lookup_cons, beq_self_eq_true]
      rw [hn, beq_self_eq_true] at h
      exact h
    · have hb : ("xmlns:".toList ++ pre == n) = false := by
        rw [beq_eq_false_iff_ne]; exact fun e => hn e.symm
      rw [hb] at h
      dsimp only at h ⊢
      by_cases hx : n = "xmlns".toList
      · rw [if_pos hx]
        dsimp only
        rw [List.lookup_cons, show (pre == []) = false from by rw [beq_eq_false_iff_ne]; exact hp]
        exact ih h
      · rw [if_neg hx]
        by_cases hy : ("xmlns:".toList).isPrefixOf n = true
        · rw [if_pos hy]
          dsimp only
          have hne : (pre == n.drop 6) = false := by
            rw [beq_eq_false_iff_ne]
            intro e
            exact hn (by rw [e]; exact hd hy)
          rw [List.lookup_cons, hne]
          exact ih h
        · rw [if_neg hy]
          exact ih h

/-- C72, prefixes: when the start tag of the root binds a prefix to the namespace of the schema, a
child with this prefix has the tag that is looked for, whatever its name. -/
theorem C72_prefix {pre x : Str} {attrs : List (Str × Str)} (hp : pre ≠ []) (hc : ':' ∉ pre)
    (h : attrs.lookup ("xmlns:".toList ++ pre) = some illumaNs) {root : Pending}
    (hr : root.env = nsDecls attrs) :
    ∃ f, openElem [root] (pre ++ ':' :: x) [] = .ok f ∧ f.tag = inNs illumaNs x := by
  have ht : xmlTag (nsDecls attrs) (pre ++ ':' :: x) = .ok (inNs illumaNs x) := by
    have hw := takeWhile_allTrue (p := fun c => c != ':') (l := pre) fun c hcm => by
      rw [bne_iff_ne]; rintro rfl; exact hc hcm
    have h1 : (pre ++ ':' :: x).takeWhile (fun c => c != ':') = pre := by
      rw [List.takeWhile_append, hw.1]; simp
    have h2 : (pre ++ ':' :: x).dropWhile (fun c => c != ':') = ':' :: x := by
      rw [List.dropWhile_append, hw.2]; simp
    unfold xmlTag
    rw [if_pos (by simp), h1, h2, nsDecls_prefix hp h]
    rfl
  refine ⟨⟨pre ++ ':' :: x, nsDecls attrs, inNs illumaNs x, [], []⟩, ?_, rfl⟩
  unfold openElem
  dsimp only
  rw [hr]
  have : nsDecls ([] : List (Str × Str)) ++ nsDecls attrs = nsDecls attrs := rfl
  rw [this, ht]
  rfl

/-- C72, any bytes: only a TRE whose tag is ILLUMA is read. -/
theorem C72_tag {b : Bytes} {r : Illums P.F × Bytes} (h : illumaReadTre P b = .ok r) :
    utf8Dec (rstripB (b.take 6)) = .ok "ILLUMA".toList := by
  unfold illumaReadTre at h
  split at h
  · cases h
  · rename_i tag ht
    split at h
    · cases h
    · rename_i hn
      rw [ht, Decidable.not_not.mp hn]

/-- C72, any document: it can be read exactly if every one of the elements that are found has a text
and this is a number; an empty element makes the whole TRE unreadable. -/
theorem C72_readable {bt : Bytes} {root : Elem} (hx : xmlParse bt = .ok root) (B : Illums P.F) :
    (∃ C, illumaRead P bt B = .ok C) ↔ ∀ p ∈ illumaFields, ∀ e, illumaFind root p.1 = some e →
      ∃ t v, e.text = some t ∧ pyFloatS P t = .ok v := by
  unfold illumaRead
  rw [hx]
  dsimp only
  generalize illumaFields = fs
  induction fs generalizing B with
  | nil => exact ⟨fun _ p hp => (by cases hp), fun _ => ⟨B, rfl⟩⟩
  | cons p fs ih =>
    conv => lhs; unfold illumaLoad
    rw [List.forall_mem_cons]
    cases hf : illumaFind root p.1 with
    | none => rw [← ih B]; simp
    | some e =>
      dsimp only
      cases ht : e.text with
      | none => simp [ht]
      | some t =>
        dsimp only
        cases hv : pyFloatS P t with
        | error x => simp [ht, hv]
        | ok v => simp only [ih]; simp [ht, hv]

/-- Negation of C72 for documents without the namespace, which the reader means to accept
(nitf_tre_illuma.py:71-73): whatever is in the document, nothing is read and nothing is reported. -/
theorem C72_no_namespace {items : List (Str × Str)}
    (hi : ∀ p ∈ items, PlainName p.1 ∧ PlainText p.2) (B : Illums P.F) :
    illumaRead P (utf8Enc (illumaDoc "ILLUMA".toList items)) B = .ok B := by
  obtain ⟨tag, text, h⟩ := illumaDoc_parse (m := "ILLUMA".toList) (attrs := []) (by decide +kernel)
    (by decide +kernel) hi
  have hk : ∀ x, kidTag (nsDecls []) x = x := fun x => rfl
  have hns : ∀ x, (Elem.mk tag text (itemKids (nsDecls []) items)).find (inNs illumaNs x) = none := by
    intro x
    unfold Elem.find
    rw [List.find?_eq_none]
    intro e he
    obtain ⟨q, hq, rfl⟩ := List.mem_map.mp he
    simp only [Elem.tag, hk, beq_iff_eq]
    intro h
    have : '{' ∈ q.1 := by rw [h]; simp [inNs]
    exact ((hi q hq).1.2 '{' this).2.2.2.2.2.2 rfl
  have hf : ∀ x, illumaFind (.mk tag text (itemKids (nsDecls []) items)) x = none := by
    intro x
    unfold illumaFind
    cases hx : (Elem.mk tag text (itemKids (nsDecls []) items)).find x with
    | none => exact hns x
    | some e =>
      have he := List.mem_of_find?_eq_some hx
      obtain ⟨q, _, rfl⟩ := List.mem_map.mp he
      exact hns x
  have hl : ∀ fs A, illumaLoad P (.mk tag text (itemKids (nsDecls []) items)) fs A = .ok A := by
    intro fs
    induction fs with
    | nil => intro A; rfl
    | cons p fs ih =>
      intro A
      unfold illumaLoad
      rw [hf p.1]
      exact ih A
  unfold illumaRead
  rw [h]
  exact hl illumaFields B

/-! ### Concrete cases -/

/-- Floats that are written as the one number 30.5. -/
def P30 : PyFloat := { P0 with
  str := fun _ => "30.5".toList
  parse := fun s => if s = "30.5".toList.map Char.toNat then .ok () else .error .value }

/-- A TRE with two of the attributes. -/
def exIllum : Illums P30.F := fun a =>
  if a = "sol_az".toList ∨ a = "art_il_max".toList then .flt () else .unset

/-- It is written and read back. -/
example (rest : Bytes) : ∃ b C, illumaWriteTre P30 exIllum = .ok b ∧
    illumaReadTre P30 (b ++ rest) = .ok (C, rest) ∧ C "sol_az".toList = .flt () ∧
    C "sol_el".toList = .unset ∧ C "art_il_max".toList = .flt () := by
  obtain ⟨b, hb⟩ := (C72_writable P30 exIllum).mpr (by decide +kernel)
  obtain ⟨C, c1, c2⟩ := C72_round_trip_partial P30 (A := exIllum) (by
    have hx : FloatText P30 () := ⟨by decide, rfl⟩
    intro p hp
    unfold exIllum
    split
    · exact Or.inr ⟨(), rfl, hx⟩
    · exact Or.inl rfl) hb rest
  refine ⟨b, C, hb, c1, ?_, ?_, ?_⟩
  · exact c2 ("solAz".toList, "sol_az".toList) (by decide)
  · exact c2 ("solEl".toList, "sol_el".toList) (by decide)
  · exact c2 ("artIlMax".toList, "art_il_max".toList) (by decide)

/-- A document without namespace: the value is lost. -/
example : illumaRead P30 (utf8Enc (illumaDoc "ILLUMA".toList [("solAz".toList, "30.5".toList)]))
    illumaNew = .ok illumaNew :=
  C72_no_namespace P30 (by decide) illumaNew

/-- What is read of one attribute. -/
def illumGot (a : String) (r : Except Err (Illums P30.F)) : Except Err (Illum Unit) :=
  r.map fun C => C a.toList

/-- The same with the namespace bound to a prefix: the value is read. -/
example : illumGot "sol_az" (illumaRead P30 (utf8Enc ("<i:ILLUMA xmlns:i=\"http://namespaces.ic.gov/NSGPDD/2012/v1.0/ILLUMA\"><i:solAz>30.5</i:solAz></i:ILLUMA>".toList)) illumaNew) =
    .ok (.flt ()) := by
  decide +kernel

/-- Without the namespace a value is found only if its element has children. -/
example : illumGot "sol_az" (illumaRead P30 (utf8Enc
    ("<ILLUMA><solAz>30.5<x/></solAz></ILLUMA>".toList)) illumaNew) = .ok (.flt ()) := by
  decide +kernel

/-- An empty element raises a TypeError, text that is not a number a ValueError, and a text with
markup, which is written as it is, a ParseError. -/
example : illumGot "sol_az" (illumaRead P30 (utf8Enc ("<ILLUMA xmlns=\"http://namespaces.ic.gov/NSGPDD/2012/v1.0/ILLUMA\"><solAz/></ILLUMA>".toList)) illumaNew) = .error .type ∧
    illumGot "sol_az" (illumaRead P30 (utf8Enc ("<ILLUMA xmlns=\"http://namespaces.ic.gov/NSGPDD/2012/v1.0/ILLUMA\"><solAz>x</solAz></ILLUMA>".toList)) illumaNew) = .error .value ∧
    illumGot "sol_az" (illumaRead P30 (illumaBytes P30 fun _ => .str "1<2".toList) illumaNew) =
      .error .syntax := by
  refine ⟨by decide +kernel, by decide +kernel, by decide +kernel⟩

theorem xmlAttrs_val (nm : Str) {q : Char} (r : Str) : ∀ {v acc : Str}, q ∉ v → '&' ∉ v →
    xmlAttrs (v ++ q :: r) (.val nm q acc) =
      (xmlAttrs r .gap).map ((nm, acc.reverse ++ v) :: ·) := by
  intro v
  induction v with
  | nil => intro acc _ _; simp [xmlAttrs]
  | cons c v ih =>
    intro acc hq ha
    rw [List.mem_cons, not_or] at hq ha
    rw [List.cons_append, xmlAttrs, if_neg (Ne.symm hq.1), if_neg (Ne.symm ha.1), ih hq.2 ha.2]
    simp

theorem xmlAttrs_name (r : Str) : ∀ {nm acc : Str}, '=' ∉ nm →
    xmlAttrs (nm ++ '=' :: r) (.name acc) = xmlAttrs r (.eq (rstripBy xmlSpace (acc.reverse ++ nm))) := by
  intro nm
  induction nm with
  | nil => intro acc _; simp [xmlAttrs]
  | cons c nm ih =>
    intro acc h
    rw [List.mem_cons, not_or] at h
    rw [List.cons_append, xmlAttrs, if_neg (Ne.symm h.1), ih h.2]
    simp

/-- C72: attributes of the root (the namespaces among them) are the same in quotation marks of
either kind; the other kind may occur in the value. -/
theorem C72_quotes {nm v : Str} {q : Char} (hn : nm ≠ []) (hs : ∀ c ∈ nm, xmlSpace c = false ∧ c ≠ '=')
    (hq : q = '"' ∨ q = '\'') (hv : q ∉ v) (ha : '&' ∉ v) (r : Str) :
    xmlAttrs (' ' :: nm ++ '=' :: q :: v ++ q :: r) .gap = (xmlAttrs r .gap).map ((nm, v) :: ·) := by
  obtain ⟨c, nm, rfl⟩ := List.exists_cons_of_ne_nil hn
  have hc := hs c List.mem_cons_self
  have h1 : xmlAttrs (' ' :: (c :: nm) ++ '=' :: q :: v ++ q :: r) .gap =
      xmlAttrs (nm ++ '=' :: (q :: v ++ q :: r)) (.name [c]) := by
    simp [xmlAttrs, hc.1, show xmlSpace ' ' = true from rfl]
  have hst : rstripBy xmlSpace (c :: nm) = c :: nm := rstripBy_none fun a h => (hs a h).1
  rw [h1, xmlAttrs_name _ fun h => (hs _ (List.mem_cons_of_mem _ h)).2 rfl]
  rw [show [c].reverse ++ nm = c :: nm from rfl, hst, List.cons_append, xmlAttrs]
  have hnsp : xmlSpace q = false := by rcases hq with rfl | rfl <;> rfl
  rw [if_neg (by rw [hnsp]; decide), if_pos hq, xmlAttrs_val (c :: nm) r hv ha]
  rfl

example : xmlAttrs " xmlns='http://a\"b'".toList .gap = .ok [("xmlns".toList, "http://a\"b".toList)] ∧
    xmlAttrs " xmlns=\"http://a'b\"".toList .gap = .ok [("xmlns".toList, "http://a'b".toList)] := by
  decide +kernel

end Verif
