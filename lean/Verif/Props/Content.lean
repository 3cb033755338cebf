import Verif.Content
import Verif.FileRead
import Verif.Row
import Verif.Example
import Verif.Props.Fields
import Verif.Props.Struct

/- C46: content headers of an EXT_DEF_CONTENT DES (model in `Verif/Content.lean`). -/

namespace Verif

variable (P : PyFloat)

/-! ### Specification -/

/-- `x` directly followed by `y` occurs in `b`. -/
def Has (x y : UInt8) (b : Bytes) : Prop := ∃ p q, b = p ++ x :: y :: q

/-- The attributes of a header, by the names they have in the block. -/
def attributes : List Bytes :=
  [lit "Content-Type", lit "Content-Use", lit "Content-Encoding", lit "Content-Range",
   lit "Content-Length", lit "Content-Description", lit "Content-Disposition",
   lit "Canonical-ID", lit "DES-ID1", lit "DES-ID2"]

/-- The values the block can carry: no `": "` and no line end inside a value, no CR or LF at the end
of the last one, and `None` only where a new header has `None`. -/
structure Plain (a : Headers) : Prop where
  colon : ∀ n ∈ attributes, ∀ v, a n = some v → ¬ Has 58 32 v
  line : ∀ n ∈ attributes, ∀ v, a n = some v → ¬ Has 13 10 v
  last : ∀ v, a (lit "DES-ID2") = some v → ∀ x, v.getLast? = some x → x ≠ 13 ∧ x ≠ 10
  missing : ∀ n ∈ attributes, a n = none → n = lit "Content-Encoding" ∨ n = lit "Content-Range"

/-- The attribute values after `write_to_file`: the length is that of the DES, if there is one. -/
def withLength (size : Option Nat) (a : Headers) : Headers :=
  match size with
  | none => a
  | some n => fun x => if x = lit "Content-Length" then some (utf8Enc (decStr n)) else a x

/-! ### Splitting -/

theorem Has.cons {x y a : UInt8} {b : Bytes} (h : Has x y b) : Has x y (a :: b) := by
  obtain ⟨p, q, rfl⟩ := h
  exact ⟨a :: p, q, rfl⟩

theorem split2_none {x y : UInt8} : ∀ {b : Bytes}, ¬ Has x y b → split2 x y b = [b]
  | [], _ => rfl
  | [_], _ => rfl
  | a :: b :: r, h => by
    have h1 : ¬ (a = x ∧ b = y) := by
      rintro ⟨rfl, rfl⟩
      exact h ⟨[], r, rfl⟩
    have h2 : ¬ Has x y (b :: r) := fun hh => h hh.cons
    unfold split2
    rw [if_neg h1, split2_none h2]

theorem split2_sep {x y : UInt8} (hxy : x ≠ y) (r : Bytes) :
    ∀ {u : Bytes}, ¬ Has x y u → split2 x y (u ++ x :: y :: r) = u :: split2 x y r
  | [], _ => by simp [split2]
  | [a], _ => by
    show split2 x y (a :: x :: y :: r) = _
    rw [split2, if_neg (by rintro ⟨_, h⟩; exact hxy h)]
    rw [show split2 x y (x :: y :: r) = [] :: split2 x y r by simp [split2]]
  | a :: b :: u, h => by
    have h1 : ¬ (a = x ∧ b = y) := by
      rintro ⟨rfl, rfl⟩
      exact h ⟨[], u, rfl⟩
    have h2 : ¬ Has x y (b :: u) := fun hh => h hh.cons
    show split2 x y (a :: b :: (u ++ x :: y :: r)) = _
    rw [split2, if_neg h1]
    have := split2_sep hxy r h2
    rw [List.cons_append] at this
    rw [this]

theorem Has.of_append {x y : UInt8} {v : Bytes} : ∀ {p : Bytes}, x ∉ p → Has x y (p ++ v) → Has x y v
  | [], _, h => h
  | a :: p, hp, h => by
    obtain ⟨q, r, hq⟩ := h
    cases q with
    | nil =>
      rw [List.nil_append, List.cons_append] at hq
      injection hq with h1 _
      exact absurd h1.symm (by intro hh; exact hp (by rw [hh]; exact List.mem_cons_self))
    | cons c q =>
      rw [List.cons_append, List.cons_append] at hq
      injection hq with _ h2
      exact Has.of_append (fun hh => hp (List.mem_cons_of_mem _ hh)) ⟨q, r, h2⟩

theorem split2_join : ∀ {ls : List Bytes}, ls ≠ [] → (∀ l ∈ ls, ¬ Has 13 10 l) →
    split2 13 10 (joinWith (lit "\r\n") ls) = ls
  | [], h, _ => absurd rfl h
  | [x], _, h => split2_none (h x (by simp))
  | x :: y :: r, _, h => by
    rw [joinWith, List.append_assoc, show lit "\r\n" = [13, 10] by decide, List.cons_append,
      List.cons_append, List.nil_append, split2_sep (by decide) _ (h x (by simp)),
      ← show lit "\r\n" = [13, 10] by decide,
      split2_join (by simp) fun l hl => h l (List.mem_cons_of_mem _ hl)]

theorem joinWith_snoc (sep x : Bytes) : ∀ ls : List Bytes, ∃ p, joinWith sep (ls ++ [x]) = p ++ x
  | [] => ⟨[], rfl⟩
  | [y] => ⟨y ++ sep, by simp [joinWith]⟩
  | y :: z :: r => by
    obtain ⟨p, hp⟩ := joinWith_snoc sep x (z :: r)
    refine ⟨y ++ sep ++ p, ?_⟩
    simp only [List.cons_append] at hp ⊢
    rw [joinWith, hp]
    simp

/-! ### Parsing what was formatted -/

theorem names_ascii : ∀ n ∈ headerNames, (58 : UInt8) ∉ n ∧ (13 : UInt8) ∉ n ++ lit ": " := by
  decide +kernel

theorem names_nodup : headerNames.Nodup := by decide +kernel

theorem parseLines_snippets (a : Headers) : ∀ (ns : List Bytes) (d : Headers), ns.Nodup →
    (∀ n ∈ ns, n ∈ headerNames) → (∀ n ∈ ns, ∀ v, a n = some v → ¬ Has 58 32 v) →
    ∃ r, parseLines (ns.filterMap (snippet a)) d = .ok r ∧
      (∀ n ∈ ns, r n = (a n).or (d n)) ∧ ∀ n, n ∉ ns → r n = d n := by
  intro ns
  induction ns with
  | nil => intro d _ _ _; exact ⟨d, rfl, by simp, fun _ _ => rfl⟩
  | cons m ns ih =>
    intro d hnd hin hc
    have hm := hin m List.mem_cons_self
    have hnd' := List.nodup_cons.mp hnd
    cases ha : a m with
    | none =>
      obtain ⟨r, h1, h2, h3⟩ := ih d hnd'.2 (fun n h => hin n (List.mem_cons_of_mem _ h))
        fun n h => hc n (List.mem_cons_of_mem _ h)
      refine ⟨r, ?_, ?_, fun n hn => h3 n fun hh => hn (List.mem_cons_of_mem _ hh)⟩
      · rw [List.filterMap_cons_none (by simp [snippet, ha])]
        exact h1
      · intro n hn
        rcases List.mem_cons.mp hn with rfl | hn
        · rw [h3 _ hnd'.1, ha]; rfl
        · exact h2 n hn
    | some v =>
      obtain ⟨r, h1, h2, h3⟩ := ih (setSnippet d m v) hnd'.2
        (fun n h => hin n (List.mem_cons_of_mem _ h)) fun n h => hc n (List.mem_cons_of_mem _ h)
      have hs : split2 58 32 (m ++ lit ": " ++ v) = [m, v] := by
        rw [List.append_assoc, show lit ": " = [58, 32] by decide, List.cons_append,
          List.cons_append, List.nil_append, split2_sep (by decide) _
            (by rintro ⟨p, q, rfl⟩; exact (names_ascii _ hm).1 (by simp)),
          split2_none (hc m List.mem_cons_self v ha)]
      refine ⟨r, ?_, ?_, ?_⟩
      · rw [List.filterMap_cons_some (b := m ++ lit ": " ++ v) (by simp [snippet, ha]), parseLines, hs]
        exact h1
      · intro n hn
        rcases List.mem_cons.mp hn with rfl | hn'
        · rw [h3 _ hnd'.1, ha]
          simp [setSnippet, hm]
        · rw [h2 n hn']
          have : n ≠ m := by rintro rfl; exact hnd'.1 hn'
          simp [setSnippet, this]
      · intro n hn
        rw [h3 n fun hh => hn (List.mem_cons_of_mem _ hh)]
        have : n ≠ m := by rintro rfl; exact hn List.mem_cons_self
        simp [setSnippet, this]

theorem default_none : ∀ n, n = lit "Content-Encoding" ∨ n = lit "Content-Range" →
    defaultHeaders n = none := by
  intro n h
  simp [defaultHeaders, h]

/-- C46.  Formatting the values and parsing the text into a new header gives the values back. -/
theorem C46_text_partial {a : Headers} (h : Plain a) :
    ∃ r, parseHeaders defaultHeaders (headerText a) = .ok r ∧ ∀ n ∈ attributes, r n = a n := by
  have hat : attributes = headerNames := by decide +kernel
  have hcolon := h.colon
  have hline := h.line
  have hmissing := h.missing
  rw [hat] at hcolon hline hmissing ⊢
  have hd2 : lit "DES-ID2" ∈ headerNames := by decide +kernel
  obtain ⟨v, hv⟩ : ∃ v, a (lit "DES-ID2") = some v := by
    cases hh : a (lit "DES-ID2") with
    | some v => exact ⟨v, rfl⟩
    | none => exact absurd (hmissing _ hd2 hh) (by decide +kernel)
  have hsplit : headerNames = headerNames.dropLast ++ [lit "DES-ID2"] := by decide +kernel
  have hls : headerNames.filterMap (snippet a) =
      headerNames.dropLast.filterMap (snippet a) ++ [lit "DES-ID2" ++ lit ": " ++ v] := by
    conv => lhs; rw [hsplit]
    rw [List.filterMap_append]
    simp [snippet, hv]
  obtain ⟨p, hp⟩ := joinWith_snoc (lit "\r\n") (lit "DES-ID2" ++ lit ": " ++ v)
    (headerNames.dropLast.filterMap (snippet a))
  have hstrip : rstripBy (fun x => x == 13 || x == 10) (headerText a) =
      joinWith (lit "\r\n") (headerNames.filterMap (snippet a)) := by
    unfold headerText
    rw [rstripBy_append_of_all _ _ _ (by decide)]
    apply rstripBy_eq_self
    intro x hx
    rw [hls, hp, show lit "DES-ID2" ++ lit ": " ++ v = lit "DES-ID2:" ++ ([32] ++ v) by
      rw [← List.append_assoc]; congr 1] at hx
    rcases List.eq_nil_or_concat v with rfl | ⟨w, y, rfl⟩
    · rw [List.append_nil, ← List.append_assoc, List.getLast?_append] at hx
      simp at hx
      subst hx
      decide
    · rw [List.concat_eq_append] at hx hv
      simp only [← List.append_assoc] at hx
      rw [List.getLast?_append] at hx
      simp at hx
      subst hx
      have := h.last _ hv y (by simp)
      simp [this.1, this.2]
  unfold parseHeaders
  rw [hstrip, split2_join (by rw [hls]; simp)]
  · obtain ⟨r, h1, h2, _⟩ := parseLines_snippets a headerNames defaultHeaders names_nodup
      (fun _ h => h) hcolon
    refine ⟨r, h1, fun n hn => ?_⟩
    rw [h2 n hn]
    cases ha : a n with
    | some v => rfl
    | none => exact default_none n (hmissing n hn ha)
  · intro l hl
    obtain ⟨n, hn, hs⟩ := List.mem_filterMap.mp hl
    unfold snippet at hs
    cases ha : a n with
    | none => rw [ha] at hs; cases hs
    | some w =>
      rw [ha] at hs
      injection hs with hs
      subst hs
      intro hh
      exact hline n hn w ha (hh.of_append (names_ascii n hn).2)

/-! ### The restriction is exact -/

theorem split2_pieces {x y : UInt8} : ∀ b : Bytes, ∃ h t, split2 x y b = h :: t ∧ h <+: b ∧ ¬ Has x y h ∧
    ∀ l ∈ t, l <:+: b ∧ ¬ Has x y l
  | [] => ⟨[], [], rfl, List.prefix_refl _, by rintro ⟨p, q, h⟩; simp at h, by simp⟩
  | [a] => ⟨[a], [], rfl, List.prefix_refl _, by
      rintro ⟨p, q, h⟩
      have := congrArg List.length h
      simp at this
      omega, by simp⟩
  | a :: b :: r => by
    unfold split2
    split
    · obtain ⟨h, t, e, h1, h2, h3⟩ := split2_pieces (x := x) (y := y) r
      refine ⟨[], h :: t, by rw [e], List.nil_prefix, by rintro ⟨p, q, h⟩; simp at h, ?_⟩
      have hr : r <:+: a :: b :: r := ⟨[a, b], [], by simp⟩
      intro l hl
      rcases List.mem_cons.mp hl with rfl | hl
      · exact ⟨h1.isInfix.trans hr, h2⟩
      · exact ⟨(h3 l hl).1.trans hr, (h3 l hl).2⟩
    · rename_i hab
      obtain ⟨h, t, e, h1, h2, h3⟩ := split2_pieces (x := x) (y := y) (b :: r)
      refine ⟨a :: h, t, by rw [e], (List.prefix_cons_inj a).mpr h1, ?_, ?_⟩
      · rintro ⟨p, q, hq⟩
        cases p with
        | nil =>
          rw [List.nil_append] at hq
          injection hq with e1 e2
          rw [e2] at h1
          obtain ⟨z, hz⟩ := h1
          injection hz with e3 _
          exact hab ⟨e1, e3.symm⟩
        | cons c p =>
          injection hq with _ e2
          exact h2 ⟨p, q, e2⟩
      · intro l hl
        exact ⟨(h3 l hl).1.trans ⟨[a], [], by simp⟩, (h3 l hl).2⟩

theorem split2_mem {x y : UInt8} {b l : Bytes} (h : l ∈ split2 x y b) : l <:+: b ∧ ¬ Has x y l := by
  obtain ⟨hd, t, e, h1, h2, h3⟩ := split2_pieces (x := x) (y := y) b
  rw [e] at h
  rcases List.mem_cons.mp h with rfl | h
  · exact ⟨h1.isInfix, h2⟩
  · exact h3 l h

theorem Has.of_infix {x y : UInt8} {a b : Bytes} (h : a <:+: b) (ha : Has x y a) : Has x y b := by
  obtain ⟨u, w, rfl⟩ := h
  obtain ⟨p, q, rfl⟩ := ha
  exact ⟨u ++ p, q ++ w, by simp⟩

theorem parseLines_val : ∀ {ls : List Bytes} {d r : Headers}, parseLines ls d = .ok r → ∀ n,
    r n = d n ∨ ∃ ln ∈ ls, ∃ k v, split2 58 32 ln = [k, v] ∧ r n = some v := by
  intro ls
  induction ls with
  | nil => intro d r h n; cases h; exact .inl rfl
  | cons ln ls ih =>
    intro d r h n
    unfold parseLines at h
    split at h
    · rename_i k v hs
      rcases ih h n with e | ⟨l, hl, e⟩
      · rw [e]
        unfold setSnippet
        split
        · exact .inr ⟨ln, List.mem_cons_self, k, v, hs, rfl⟩
        · exact .inl rfl
      · exact .inr ⟨l, List.mem_cons_of_mem _ hl, e⟩
    · cases h

theorem joinWith_last (sep : Bytes) : ∀ ls : List Bytes, ∃ p, ∀ x, joinWith sep (ls ++ [x]) = p ++ x
  | [] => ⟨[], fun _ => rfl⟩
  | [y] => ⟨y ++ sep, fun x => by simp [joinWith]⟩
  | y :: z :: r => by
    obtain ⟨p, hp⟩ := joinWith_last sep (z :: r)
    refine ⟨y ++ sep ++ p, fun x => ?_⟩
    have := hp x
    simp only [List.cons_append] at this ⊢
    rw [joinWith, this]
    simp

/-- C46, exactly: the values come back if and only if the block can carry them. -/
theorem C46_exact (a : Headers) :
    (∃ r, parseHeaders defaultHeaders (headerText a) = .ok r ∧ ∀ n ∈ attributes, r n = a n) ↔
      Plain a := by
  refine ⟨?_, C46_text_partial⟩
  rintro ⟨r, hr, hra⟩
  have hval : ∀ n ∈ attributes, ∀ v, a n = some v → ¬ Has 58 32 v ∧ ¬ Has 13 10 v := by
    intro n hn v hv
    rw [← hra n hn] at hv
    rcases parseLines_val hr n with e | ⟨ln, hl, k, w, hs, e⟩
    · rw [e] at hv
      have : v.length ≤ 1 := by
        unfold defaultHeaders at hv
        split at hv
        · cases hv
        · split at hv
          · cases hv
            decide
          · split at hv
            · cases hv
              decide
            · cases hv
      constructor <;>
      · rintro ⟨p, q, rfl⟩
        simp at this
        omega
    · rw [e] at hv
      cases hv
      have h1 := split2_mem (x := 58) (y := 32) (b := ln) (l := v) (by rw [hs]; simp)
      exact ⟨h1.2, fun hh => (split2_mem hl).2 (hh.of_infix h1.1)⟩
  have hmiss : ∀ n ∈ attributes, a n = none → n = lit "Content-Encoding" ∨ n = lit "Content-Range" := by
    intro n hn hv
    rw [← hra n hn] at hv
    rcases parseLines_val hr n with e | ⟨_, _, _, _, _, e⟩
    · rw [e] at hv
      have hat : attributes = headerNames := by decide +kernel
      rw [hat] at hn
      unfold defaultHeaders at hv
      split at hv
      · assumption
      · split at hv
        · cases hv
        · cases hv
    · rw [e] at hv
      cases hv
  refine ⟨fun n hn v hv => (hval n hn v hv).1, fun n hn v hv => (hval n hn v hv).2, ?_, hmiss⟩
  intro v hv x hx
  let q : UInt8 → Bool := fun x => x == 13 || x == 10
  let a' : Headers := fun n => if n = lit "DES-ID2" then some (rstripBy q v) else a n
  have hd2 : lit "DES-ID2" ∈ attributes := by decide +kernel
  obtain ⟨w, hw, hall⟩ : ∃ w, v = rstripBy q v ++ w ∧ w.all q = true := rstripBy_prefix q v
  have hinf : rstripBy q v <:+: v := ⟨[], w, by simpa using hw.symm⟩
  have hlast : ∀ c, (rstripBy q v).getLast? = some c → q c = false := rstripBy_getLast? q v
  have hp : Plain a' := by
    refine ⟨?_, ?_, ?_, ?_⟩
    · intro n hn u hu
      simp only [a'] at hu
      split at hu
      · cases hu
        exact fun hh => (hval _ hd2 v hv).1 (hh.of_infix hinf)
      · exact (hval n hn u hu).1
    · intro n hn u hu
      simp only [a'] at hu
      split at hu
      · cases hu
        exact fun hh => (hval _ hd2 v hv).2 (hh.of_infix hinf)
      · exact (hval n hn u hu).2
    · intro u hu c hc
      simp only [a', if_true] at hu
      cases hu
      have := hlast c hc
      simpa [q] using this
    · intro n hn hu
      simp only [a'] at hu
      split at hu
      · cases hu
      · exact hmiss n hn hu
  have hsplit : headerNames = headerNames.dropLast ++ [lit "DES-ID2"] := by decide +kernel
  have hnot : lit "DES-ID2" ∉ headerNames.dropLast := by decide +kernel
  have hpre : ∀ b : Headers, (∀ n, n ≠ lit "DES-ID2" → b n = a n) →
      headerNames.dropLast.filterMap (snippet b) = headerNames.dropLast.filterMap (snippet a) := by
    intro b hb
    have : ∀ ns : List Bytes, lit "DES-ID2" ∉ ns → ns.filterMap (snippet b) = ns.filterMap (snippet a) := by
      intro ns
      induction ns with
      | nil => intro _; rfl
      | cons m ns ih =>
        intro hm
        have hne : m ≠ lit "DES-ID2" := by rintro rfl; exact hm List.mem_cons_self
        have e : snippet b m = snippet a m := by simp [snippet, hb m hne]
        simp only [List.filterMap_cons, e, ih fun h => hm (List.mem_cons_of_mem _ h)]
    exact this _ hnot
  obtain ⟨p, hp1⟩ : ∃ p, ∀ b : Headers, (∀ n, n ≠ lit "DES-ID2" → b n = a n) → ∀ u,
      b (lit "DES-ID2") = some u → headerText b = p ++ u ++ lit "\r\n" := by
    obtain ⟨p, hp⟩ := joinWith_last (lit "\r\n") (headerNames.dropLast.filterMap (snippet a))
    refine ⟨p ++ (lit "DES-ID2" ++ lit ": "), ?_⟩
    intro b hb u hu
    have e : headerNames.filterMap (snippet b) =
        headerNames.dropLast.filterMap (snippet a) ++ [lit "DES-ID2" ++ lit ": " ++ u] := by
      conv => lhs; rw [hsplit]
      rw [List.filterMap_append, hpre b hb]
      simp [snippet, hu]
    unfold headerText
    rw [e, hp]
    simp only [List.append_assoc]
  have e1 := hp1 a (fun _ _ => rfl) v hv
  have e2 := hp1 a' (fun n hn => by simp [a', hn]) (rstripBy q v) (by simp [a'])
  have es : rstripBy q (headerText a) = rstripBy q (headerText a') := by
    rw [e1, e2]
    conv => lhs; rw [hw]
    rw [rstripBy_append_of_all _ _ _ (by decide), rstripBy_append_of_all _ _ (lit "\r\n") (by decide),
      ← List.append_assoc, rstripBy_append_of_all _ _ _ hall]
  obtain ⟨r', hr', hra'⟩ := C46_text_partial hp
  have : r = r' := by
    unfold parseHeaders at hr hr'
    rw [es] at hr
    rw [hr] at hr'
    cases hr'
    rfl
  subst this
  have ev := (hra _ hd2).symm.trans (hra' _ hd2)
  rw [hv] at ev
  simp only [a', if_true, Option.some.injEq] at ev
  rw [ev] at hx
  simpa [q] using hlast x hx

/-! ### Through the file -/

theorem ch_causal : chD.causal = true := by decide +kernel
theorem ch_wf : chD.allFields FieldDef.wf = true := by decide +kernel
theorem ch_survives : chD.allFields FieldDef.alwaysSurvives = true := by decide +kernel

theorem ch_len : Row chD (n!"content_headers_len") 0 .int none 4 := Row.of (by decide +kernel)

theorem ch_text : ∃ fi, resolve chD.tab (n!"content_headers") = some 1 ∧ chD.tab[1]? = some fi ∧
    fi.fd.kind = .bytesData ∧ fi.fd.ty = .bytes ∧ fi.fd.sizeNotUpdated = false ∧
    fi.fd.size = .expr (.ref (n!"content_headers_len") []) ∧ fi.fd.cond = none ∧ fi.shapes = [] ∧
    fi.fd.value = none ∧ fi.fd.hardcoded = false ∧ fi.fd.sizeOffset = 0 ∧ fi.fd.name ≠ none :=
  ⟨_, by decide +kernel, rfl, rfl, rfl, rfl, rfl, rfl, rfl, rfl, rfl, rfl, by decide⟩

/-- After the assignment the header text is read back from the record. -/
theorem content_set {S S' : Store P.F} {t : Bytes}
    (h : setAttr P chD S (n!"content_headers") [] (.bytes t) = (S', none)) :
    getAttr P chD S' (n!"content_headers") [] = .ok (.bytes t) := by
  obtain ⟨fi, hr, hf, hk, hty, hu, hsz, hc, hsh, _⟩ := ch_text
  obtain ⟨fm, hm, _, hmk, hmt, _⟩ := ch_len.at_
  unfold setAttr at h
  rw [hr] at h
  have := (C13_size_consistent P ch_causal hf (.inl hk) hty hu hsz ch_len.res hm hmk hmt h).2.2
    (by unfold checkIndex; simp [hsh]) (evalCond_none P hc _ _)
  unfold getAttr
  rw [hr]
  simpa [hk] using this.1

/-- C46.  Whenever `write_to_file` succeeds, `read_from_file` on its output followed by anything
takes exactly that output and gives every attribute the value it had when written. -/
theorem C46_file_partial {size : Option Nat} {a a' : Headers} {S : Store P.F} {b : Bytes}
    (hS : NoLit S) (hp : Plain (withLength size a))
    (h : writeHeaders P size a S = .ok (a', b)) (rest : Bytes) :
    a' = withLength size a ∧
      ∃ r, readHeaders P (b ++ rest) = .ok (r, rest) ∧ ∀ n ∈ attributes, r n = a' n := by
  have hw : writeHeaders P size a S =
      match setAttr P chD S (n!"content_headers") [] (.bytes (headerText (withLength size a))) with
      | (_, some e) => .error e
      | (S', none) => (writeStruct P chD S').map fun b => (withLength size a, b) := rfl
  rw [hw] at h
  cases hs : setAttr P chD S (n!"content_headers") []
      (.bytes (headerText (withLength size a))) with
  | mk S' o =>
    rw [hs] at h
    cases o with
    | some e => cases h
    | none =>
      simp only at h
      have hn : NoLit S' := by
        have := setItem_noLit P (T := chD.tab) hS 1 []
          (.bytes (headerText (withLength size a)))
        unfold setAttr at hs
        rw [ch_text.choose_spec.1] at hs
        simp only at hs
        rw [hs] at this
        exact this
      unfold writeStruct at h
      cases hcs : writeChunks P chD S' with
      | error e => rw [hcs] at h; cases h
      | ok cs =>
        rw [hcs] at h
        simp only [Except.map, Except.ok.injEq, Prod.mk.injEq] at h
        obtain ⟨rfl, rfl⟩ := h
        refine ⟨rfl, ?_⟩
        obtain ⟨R, r1, _, r3⟩ := C01_write_then_read P ch_causal ch_wf hcs
          (survives_of_values P ch_survives hn) rest
        have hg : getAttr P chD R (n!"content_headers") [] =
            .ok (.bytes (headerText (withLength size a))) := by
          rw [getAttr_reach P (fun n fi hr hf => by
            obtain ⟨fi', hr', hf', _, _, _, _, _, hsh, _⟩ := ch_text
            rw [hr'] at hr
            cases hr
            rw [hf'] at hf
            cases hf
            exact hsh) r3]
          exact content_set P hs
        obtain ⟨r, q1, q2⟩ := C46_text_partial hp
        refine ⟨r, ?_, q2⟩
        unfold readHeaders
        rw [r1]
        simp only [hg, q1, Except.map]

theorem content_setAttr (S : Store P.F) (t : Bytes) :
    setAttr P chD S (n!"content_headers") [] (.bytes t) =
      ((S.set 1 [] ⟨.val (.bytes t), none⟩).set 0 [] ⟨.val (.int t.length), none⟩, none) := by
  obtain ⟨fi, hr, hf, hk, hty, hu, hsz, hc, hsh, hv, hh, ho, hnm⟩ := ch_text
  obtain ⟨fm, hm, hsc, hmk, _, hmc, _⟩ := ch_len.at_
  have hfi : Scalar fi := ⟨hnm, hsh, hv, hh⟩
  unfold setAttr
  rw [hr]
  simp only
  unfold setItem
  rw [show budget chD.tab = 1 + 1 + 1 from rfl]
  unfold setF
  rw [hfi.setCheck_ok P hf (evalCond_none P hc _ _) (v' := .bytes t) (by rw [hk]; rfl) rfl]
  simp only [hk, reduceCtorEq, if_false, byteLen, hu, Bool.false_eq_true, hsz, idxKey, ch_len.res, hm,
    hsc.depth, ne_eq, not_true, false_and, and_false, ho]
  rw [hsc.set_plain P hmk hm (evalCond_none P hmc _ _) rfl]
  congr 6
  split <;> omega

/-- C46.  Writing succeeds exactly when the text fits the four digits of its length field. -/
theorem C46_writes (size : Option Nat) (a : Headers) (S : Store P.F) :
    (∃ r, writeHeaders P size a S = .ok r) ↔ (headerText (withLength size a)).length ≤ 9999 := by
  have hw : writeHeaders P size a S =
      match setAttr P chD S (n!"content_headers") [] (.bytes (headerText (withLength size a))) with
      | (_, some e) => .error e
      | (S', none) => (writeStruct P chD S').map fun b => (withLength size a, b) := rfl
  rw [hw]
  have hs := content_setAttr P S (headerText (withLength size a))
  generalize headerText (withLength size a) = t at hs ⊢
  rw [hs]
  simp only
  obtain ⟨fi, hr, hf, hk, hty, hu, hsz, hc, hsh, hv, hh, ho, hnm⟩ := ch_text
  obtain ⟨fm, hm, hsc, hmk, hmt, hmc, hms, hmf, hmo⟩ := ch_len.at_
  unfold setAttr at hs
  rw [hr] at hs
  have hb1 := ((C13_size_consistent P ch_causal hf (.inl hk) hty hu hsz ch_len.res hm hmk hmt hs).2.2
    (by unfold checkIndex; simp [hsh]) (evalCond_none P hc _ _)).2
  generalize hS' : (S.set 1 [] ⟨.val (.bytes t), none⟩).set 0 []
    ⟨.val (.int (t.length : Int)), none⟩ = S' at hb1
  have h0 : S' 0 [] = some ⟨.val (.int (t.length : Int)), none⟩ := by rw [← hS']; simp [Store.set]
  have hb0 : fieldBytes P (look P chD.tab S') S' fm 0 [] =
      encodeVal P fm.fd (4 : Nat) (.int t.length) := by
    unfold fieldBytes
    rw [Scalar.size_const P hms hmo]
    have : stored S' fm.fd 0 [] = .val (.int t.length) := by unfold stored; rw [h0]
    rw [this]
    simp only
    rw [hsc.lowGet P (evalCond_none P hmc _ _), this, finish_int P hmt]
  have hfit : FitsDec 4 (t.length : Int) ↔ t.length ≤ 9999 := by
    unfold FitsDec
    omega
  rw [← hfit, ← encode_int_iff P hmt hmf 4 t.length, ← hb0]
  have hwc : writeChunks P chD S' = writeD P chD.tab S' 0 [] chD := rfl
  unfold writeStruct
  rw [hwc]
  unfold chD Tables.t_des_ext_def_content at hm hf hb0 hb1 ⊢
  simp only [writeD, hm, hf, evalCond_none P hmc, evalCond_none P hc, hb1]
  cases fieldBytes P (look P _ S') S' fm 0 [] with
  | error e => simp [Except.map]
  | ok b => simp [Except.map]

/-! ### Where the full statement fails -/

/-- The attribute `m` after the values were formatted and parsed again. -/
def reread (a : Headers) (m : Bytes) : Except Err (Option Bytes) :=
  (parseHeaders defaultHeaders (headerText a)).map fun r => r m

/-- A new header with one attribute set. -/
def withValue (n : Bytes) (v : Option Bytes) : Headers := fun m => if m = n then v else defaultHeaders m

/-- A value containing `": "` makes the block unreadable. -/
theorem C46_colon :
    reread (withValue (lit "Content-Description") (some (lit "DEM: tile 3")))
      (lit "Content-Description") = .error .value := by decide +kernel

/-- A value with a line end in it makes the block unreadable. -/
theorem C46_newline :
    reread (withValue (lit "Content-Description") (some (lit "a\r\nb")))
      (lit "Content-Description") = .error .value := by decide +kernel

/-- A line end and `": "` in a value change another attribute. -/
theorem C46_injection :
    reread (withValue (lit "DES-ID1") (some (lit "a\r\nContent-Type: x"))) (lit "Content-Type") =
      .ok (some (lit "x")) := by decide +kernel

/-- CR or LF at the end of the last value is lost. -/
theorem C46_last_line_end :
    reread (withValue (lit "DES-ID2") (some (lit "abc\n"))) (lit "DES-ID2") =
      .ok (some (lit "abc")) := by decide +kernel

/-- `None` in an attribute with another default comes back as that default. -/
theorem C46_none :
    reread (withValue (lit "Content-Length") none) (lit "Content-Length") =
      .ok (some (lit "0")) := by decide +kernel

/-! ### A concrete case -/

def exHeaders : Headers := fun n =>
  if n = lit "Content-Type" then some (lit "application/x-hdf5")
  else if n = lit "Content-Encoding" then some (lit "gzip")
  else if n = lit "DES-ID1" then some (lit "a:b")
  else defaultHeaders n

example : headerText (withLength (some 12) exHeaders) =
    lit ("Content-Type: application/x-hdf5\r\nContent-Use: \r\nContent-Encoding: gzip\r\n" ++
      "Content-Length: 12\r\nContent-Description: \r\nContent-Disposition: \r\n" ++
      "Canonical-ID: \r\nDES-ID1: a:b\r\nDES-ID2: \r\n") := by decide +kernel

theorem Has.mem {x y : UInt8} {b : Bytes} (h : Has x y b) : x ∈ b ∧ y ∈ b := by
  obtain ⟨p, q, rfl⟩ := h
  simp

example : Plain (withLength (some 12) exHeaders) := by
  have h : ∀ n ∈ headerNames, ∀ v ∈ withLength (some 12) exHeaders n,
      (32 : UInt8) ∉ v ∧ (13 : UInt8) ∉ v := by decide +kernel
  refine ⟨fun n hn v hv hh => (h n hn v hv).1 hh.mem.2, fun n hn v hv hh => (h n hn v hv).2 hh.mem.1,
    ?_, by decide +kernel⟩
  intro v hv
  rw [show withLength (some 12) exHeaders (lit "DES-ID2") = some [] by decide +kernel] at hv
  cases hv
  intro x hx
  cases hx

example : (readHeaders P0 (lit "0020DES-ID1: abc\r\nX: y\r\nrest")).map (fun r => (r.1 (lit "DES-ID1"), r.2)) =
    .ok (some (lit "abc"), lit "rest") := by decide +kernel

end Verif
