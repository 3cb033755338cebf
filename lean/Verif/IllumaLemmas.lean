import Verif.Illuma

namespace Verif

/-! ### Cutting -/

theorem xmlCut_text {s r acc : Str} (hs : ∀ c ∈ s, c ≠ '<') :
    xmlCut (s ++ '<' :: r) (.text acc) = (xmlCut r (.mark [] none)).map fun l =>
      if acc.reverse ++ s = [] then l else .text (acc.reverse ++ s) :: l := by
  induction s generalizing acc with
  | nil =>
    rw [List.nil_append]
    conv => lhs; unfold xmlCut
    rw [if_pos rfl]
    simp
  | cons c s ih =>
    rw [List.cons_append]
    conv => lhs; unfold xmlCut
    rw [if_neg (hs c (by simp)), ih (fun c hc => hs c (by simp [hc]))]
    simp

theorem xmlCut_mark {s r acc : Str} (hs : ∀ c ∈ s, c ≠ '>' ∧ c ≠ '"' ∧ c ≠ '\'') :
    xmlCut (s ++ '>' :: r) (.mark acc none) =
      (xmlCut r (.text [])).map (.mark (acc.reverse ++ s) :: ·) := by
  induction s generalizing acc with
  | nil =>
    rw [List.nil_append]
    conv => lhs; unfold xmlCut
    rw [if_pos rfl]
    simp
  | cons c s ih =>
    obtain ⟨h1, h2, h3⟩ := hs c (by simp)
    rw [List.cons_append]
    conv => lhs; unfold xmlCut
    rw [if_neg h1, if_neg (by simp [h2, h3]), ih (fun c hc => hs c (by simp [hc]))]
    simp

/-- Characters of a name or of a number. -/
def PlainText (t : Str) : Prop :=
  t ≠ [] ∧ ∀ c ∈ t, 32 < c.toNat ∧ c.toNat < 127 ∧ c ≠ '<' ∧ c ≠ '>' ∧ c ≠ '&'

instance (t : Str) : Decidable (PlainText t) := by unfold PlainText; infer_instance

/-- A name that can be a tag. -/
def PlainName (x : Str) : Prop :=
  PlainText x ∧ ∀ c ∈ x, c ≠ '"' ∧ c ≠ '\'' ∧ c ≠ '/' ∧ c ≠ '?' ∧ c ≠ '!' ∧ c ≠ ':' ∧ c ≠ '{'

instance (t : Str) : Decidable (PlainName t) := by unfold PlainName; infer_instance

theorem map_map_except {α β γ : Type} (f : α → β) (g : β → γ) (x : Except Err α) :
    (x.map f).map g = x.map fun a => g (f a) := by cases x <;> rfl

theorem xmlCut_item {x t r : Str} (hx : PlainName x) (ht : PlainText t) :
    xmlCut (illumaItem x t ++ r) (.text []) = (xmlCut r (.text [])).map
      ([.text "  ".toList, .mark x, .text t, .mark ('/' :: x)] ++ ·) := by
  have e : illumaItem x t ++ r = "  ".toList ++ '<' :: (x ++ '>' :: (t ++ '<' :: (('/' :: x) ++
      '>' :: r))) := by
    simp [illumaItem]
  rw [e, xmlCut_text (by decide +kernel), xmlCut_mark (fun c hc => ⟨(hx.1.2 c hc).2.2.2.1, (hx.2 c hc).1,
    (hx.2 c hc).2.1⟩), xmlCut_text (fun c hc => (ht.2 c hc).2.2.1), xmlCut_mark (by
      intro c hc
      rcases List.mem_cons.mp hc with rfl | hc
      · decide
      · exact ⟨(hx.1.2 c hc).2.2.2.1, (hx.2 c hc).1, (hx.2 c hc).2.1⟩)]
  simp only [map_map_except]
  have h2 : "  ".toList ≠ [] := by decide +kernel
  simp only [ht.1, h2, if_false, List.reverse_nil, List.nil_append, List.cons_append]

/-! ### Tokens -/

theorem xmlToks_append {ps qs : List Piece} {ts : List Tok} (h : xmlToks ps = .ok ts) :
    xmlToks (ps ++ qs) = (xmlToks qs).map (ts ++ ·) := by
  induction ps generalizing ts with
  | nil =>
    cases h
    cases hq : xmlToks qs <;> simp [hq, Except.map]
  | cons p ps ih =>
    rw [List.cons_append]
    unfold xmlToks at h
    conv => lhs; unfold xmlToks
    cases hp : xmlTok p with
    | error e => rw [hp] at h; cases h
    | ok t =>
      rw [hp] at h
      simp only at h ⊢
      cases hs : xmlToks ps with
      | error e => rw [hs] at h; cases h
      | ok us =>
        rw [hs] at h
        cases h
        rw [ih hs, map_map_except]
        rfl

theorem plain_noSpace {x : Str} (hx : PlainText x) : ∀ c ∈ x, (!xmlSpace c) = true := by
  intro c hc
  have h := (hx.2 c hc).1
  simp only [xmlSpace, Bool.not_eq_true', Bool.or_eq_false_iff, beq_eq_false_iff_ne]
  refine ⟨⟨⟨?_, ?_⟩, ?_⟩, ?_⟩ <;> (rintro rfl; revert h; decide)

theorem takeWhile_allTrue {α : Type} {p : α → Bool} {l : List α} (h : ∀ a ∈ l, p a = true) :
    l.takeWhile p = l ∧ l.dropWhile p = [] := by
  induction l with
  | nil => simp
  | cons a l ih =>
    have := ih fun b hb => h b (by simp [hb])
    simp [h a (by simp), this]

theorem xmlTok_name {x : Str} (hx : PlainName x) : xmlTok (.mark x) = .ok (.start x []) := by
  have hs := takeWhile_allTrue (plain_noSpace hx.1)
  cases hx' : x with
  | nil => exact absurd hx' hx.1.1
  | cons c x' =>
    have hc := hx.2 c (by simp [hx'])
    have hl : x.getLast? ≠ some '/' := by
      intro h
      exact (hx.2 '/' (List.mem_of_getLast? h)).2.2.1 rfl
    rw [hx'] at hs hl
    unfold xmlTok
    split
    · rename_i h; cases h
    · rename_i h; injection h with h; injection h with h; exact absurd h hc.2.2.2.1
    · rename_i h; injection h with h; injection h with h; exact absurd h hc.2.2.2.2.1
    · rename_i h; injection h with h; injection h with h; exact absurd h hc.2.2.1
    · rename_i h
      injection h with h
      subst h
      rw [if_neg hl, hs.1, hs.2]
      rfl

theorem rstripBy_none {α : Type} {p : α → Bool} {l : List α} (h : ∀ a ∈ l, p a = false) :
    rstripBy p l = l := by
  unfold rstripBy
  rw [show l.reverse.dropWhile p = l.reverse from ?_, List.reverse_reverse]
  cases hr : l.reverse with
  | nil => rfl
  | cons a r =>
    have : a ∈ l := by rw [← List.mem_reverse, hr]; simp
    simp [h a this]

theorem xmlTok_stop {x : Str} (hx : PlainName x) : xmlTok (.mark ('/' :: x)) = .ok (.stop x) := by
  unfold xmlTok
  simp only
  rw [rstripBy_none fun c hc => by
    have := plain_noSpace hx.1 c hc
    simpa using this]

theorem xmlToks_item {x t : Str} (hx : PlainName x) (ht : PlainText t) :
    xmlToks [.text "  ".toList, .mark x, .text t, .mark ('/' :: x)] =
      .ok [.text "  ".toList, .start x [], .text t, .stop x] := by
  have h1 : xmlTok (.text "  ".toList) = .ok (.text "  ".toList) := by decide +kernel
  have h2 : xmlTok (.text t) = .ok (.text t) := by
    unfold xmlTok
    simp only
    rw [if_neg]
    intro h
    exact (ht.2 _ h).2.2.2.2 rfl
  simp only [xmlToks, h1, h2, xmlTok_name hx, xmlTok_stop hx, Except.map]

/-! ### The tree -/

theorem xmlTag_plain {env : NsEnv} {x : Str} (hx : PlainName x) :
    xmlTag env x = .ok (match env.lookup [] with
      | none => x
      | some u => if u = [] then x else inNs u x) := by
  unfold xmlTag
  rw [if_neg (fun h => (hx.2 _ h).2.2.2.2.2.1 rfl)]
  cases env.lookup [] <;> rfl

/-- The tag of a child with name `x`. -/
def kidTag (env : NsEnv) (x : Str) : Str :=
  match env.lookup [] with
  | none => x
  | some u => if u = [] then x else inNs u x

theorem xmlBuild_item {x t : Str} (hx : PlainName x) (ht : PlainText t) (f : Pending)
    (ts : List Tok) : ∃ s, xmlBuild ([.text "  ".toList, .start x [], .text t, .stop x] ++ ts) [f] none =
      xmlBuild ts [{ f with text := s, kids := .mk (kidTag f.env x) (some t) [] :: f.kids }] none := by
  have ht' : t ≠ [] := ht.1
  refine ⟨(if f.kids = [] then { f with text := f.text ++ "  ".toList } else f).text, ?_⟩
  simp only [List.cons_append, List.nil_append, xmlBuild]
  rw [if_neg (by simp)]
  unfold openElem
  have he : (if f.kids = [] then { f with text := f.text ++ "  ".toList } else f).env = f.env := by
    split <;> rfl
  have hk : (if f.kids = [] then { f with text := f.text ++ "  ".toList } else f).kids = f.kids := by
    split <;> rfl
  have hn : (if f.kids = [] then { f with text := f.text ++ "  ".toList } else f).name = f.name := by
    split <;> rfl
  have hg : (if f.kids = [] then { f with text := f.text ++ "  ".toList } else f).tag = f.tag := by
    split <;> rfl
  generalize (if f.kids = [] then { f with text := f.text ++ "  ".toList } else f) = g at *
  simp only [nsDecls, List.filterMap_nil, List.nil_append, xmlTag_plain hx, Except.map]
  simp only [if_true, if_neg (fun h : x ≠ x => h rfl), Pending.close, ht', if_false,
    List.reverse_nil]
  cases g
  simp only at he hk hn hg
  subst he; subst hk; subst hn; subst hg
  rfl

/-- The children made from a list of items. -/
def itemKids (env : NsEnv) (items : List (Str × Str)) : List Elem :=
  items.map fun p => .mk (kidTag env p.1) (some p.2) []

/-- A document: items between what is read up to the first one and the closing tag. -/
theorem xmlDoc_items {items : List (Str × Str)}
    (hi : ∀ p ∈ items, PlainName p.1 ∧ PlainText p.2) (z : Str) {zp : List Piece} {zt : List Tok}
    (hz : xmlCut z (.text []) = .ok zp) (hzt : xmlToks zp = .ok zt) :
    ∃ ps ts, xmlCut (items.flatMap (fun p => illumaItem p.1 p.2) ++ z) (.text []) = .ok ps ∧
      xmlToks ps = .ok ts ∧ ∀ f : Pending, ∃ s, xmlBuild ts [f] none =
        xmlBuild zt [{ f with text := s, kids := (itemKids f.env items).reverse ++ f.kids }] none := by
  induction items with
  | nil => exact ⟨zp, zt, by simpa using hz, hzt, fun f => ⟨f.text, rfl⟩⟩
  | cons p items ih =>
    obtain ⟨ps, ts, h1, h2, h3⟩ := ih fun q hq => hi q (by simp [hq])
    obtain ⟨hx, ht⟩ := hi p (by simp)
    refine ⟨[.text "  ".toList, .mark p.1, .text p.2, .mark ('/' :: p.1)] ++ ps,
      [.text "  ".toList, .start p.1 [], .text p.2, .stop p.1] ++ ts, ?_, ?_, fun f => ?_⟩
    · rw [List.flatMap_cons, List.append_assoc, xmlCut_item hx ht, h1]
      rfl
    · rw [xmlToks_append (xmlToks_item hx ht), h2]
      rfl
    · obtain ⟨s, hs⟩ := xmlBuild_item hx ht f ts
      rw [hs]
      obtain ⟨s', hs'⟩ := h3 { f with text := s, kids := .mk (kidTag f.env p.1) (some p.2) [] :: f.kids }
      refine ⟨s', ?_⟩
      rw [hs']
      simp [itemKids]

/-! ### Documents -/

/-- Quotes are closed, and `>` is only inside of them. -/
def quoteOk : Str → Option Char → Bool
  | [], q => q.isNone
  | c :: r, none => c != '>' && quoteOk r (if c = '"' ∨ c = '\'' then some c else none)
  | c :: r, some q => quoteOk r (if c = q then none else some q)

theorem xmlCut_quoted {s r acc : Str} {q : Option Char} (hs : quoteOk s q = true) :
    xmlCut (s ++ '>' :: r) (.mark acc q) =
      (xmlCut r (.text [])).map (.mark (acc.reverse ++ s) :: ·) := by
  induction s generalizing acc q with
  | nil =>
    cases q with
    | some q => simp [quoteOk] at hs
    | none =>
      rw [List.nil_append]
      conv => lhs; unfold xmlCut
      rw [if_pos rfl]
      simp
  | cons c s ih =>
    rw [List.cons_append]
    conv => lhs; unfold xmlCut
    cases q with
    | none =>
      simp only [quoteOk, Bool.and_eq_true, bne_iff_ne] at hs
      simp only [if_neg hs.1]
      by_cases hq : c = '"' ∨ c = '\''
      · rw [if_pos hq, ih (by rw [if_pos hq] at hs; exact hs.2)]; simp
      · rw [if_neg hq, ih (by rw [if_neg hq] at hs; exact hs.2)]; simp
    | some q =>
      simp only [quoteOk] at hs
      simp only
      rw [ih hs]
      simp

theorem utf8Enc_append (a b : Str) : utf8Enc (a ++ b) = utf8Enc a ++ utf8Enc b := by
  simp [utf8Enc]

/-- A document with the root element `<m>`, whose children are `items`. -/
def illumaDoc (m : Str) (items : List (Str × Str)) : Str :=
  illumaProlog ++ '<' :: (m ++ '>' :: (items.flatMap (fun p => illumaItem p.1 p.2) ++ illumaClose))

theorem illumaDoc_parse {m : Str} {attrs : List (Str × Str)} (hm : quoteOk m none = true)
    (ht : xmlTok (.mark m) = .ok (.start "ILLUMA".toList attrs)) {items : List (Str × Str)}
    (hi : ∀ p ∈ items, PlainName p.1 ∧ PlainText p.2) :
    ∃ tag text, xmlParse (utf8Enc (illumaDoc m items)) =
      .ok (.mk tag text (itemKids (nsDecls attrs) items)) := by
  have hN : PlainName "ILLUMA".toList := by decide +kernel
  obtain ⟨ps, ts, h1, h2, h3⟩ := xmlDoc_items hi illumaClose
    (zp := [.mark "/ILLUMA".toList]) (zt := [.stop "ILLUMA".toList]) (by decide +kernel) (by decide +kernel)
  have ep : illumaProlog = '<' :: ("?xml version=\"1.0\" encoding=\"UTF-8\" ?".toList ++ ['>']) := by
    decide +kernel
  have hc : xmlCut (illumaDoc m items) (.text []) =
      .ok (.mark "?xml version=\"1.0\" encoding=\"UTF-8\" ?".toList :: .mark m :: ps) := by
    unfold illumaDoc
    rw [ep, List.cons_append, List.append_assoc]
    have := @xmlCut_text [] ("?xml version=\"1.0\" encoding=\"UTF-8\" ?".toList ++ (['>'] ++
      '<' :: (m ++ '>' :: (items.flatMap (fun p => illumaItem p.1 p.2) ++ illumaClose)))) []
      (by simp)
    rw [List.nil_append] at this
    rw [this, List.singleton_append, xmlCut_quoted (by decide +kernel)]
    have := @xmlCut_text [] (m ++ '>' ::
      (items.flatMap (fun p => illumaItem p.1 p.2) ++ illumaClose)) [] (by simp)
    rw [List.nil_append] at this
    rw [this, xmlCut_quoted hm, h1]
    simp [Except.map]
  have hk : xmlToks (.mark "?xml version=\"1.0\" encoding=\"UTF-8\" ?".toList :: .mark m :: ps) =
      .ok (.instr :: .start "ILLUMA".toList attrs :: ts) := by
    have hp : xmlTok (.mark "?xml version=\"1.0\" encoding=\"UTF-8\" ?".toList) = .ok .instr := by
      decide +kernel
    simp only [xmlToks, hp, ht, h2, Except.map]
  have hb : ∀ f : Pending, f.name = "ILLUMA".toList → ∃ text, xmlBuild ts [f] none =
      .ok (.mk f.tag text ((itemKids f.env items).reverse ++ f.kids).reverse) := by
    intro f hf
    obtain ⟨s, hs⟩ := h3 f
    refine ⟨if s = [] then none else some s, ?_⟩
    rw [hs]
    simp only [xmlBuild, hf, Pending.close]
    rw [if_neg (by simp)]
  obtain ⟨text, h4⟩ := hb ⟨"ILLUMA".toList, nsDecls attrs ++ [], kidTag (nsDecls attrs ++ [])
    "ILLUMA".toList, [], []⟩ rfl
  refine ⟨kidTag (nsDecls attrs ++ []) "ILLUMA".toList, text, ?_⟩
  unfold xmlParse
  rw [utf8Dec_utf8Enc]
  simp only [hc, hk]
  unfold xmlBuild
  unfold xmlBuild
  simp only [openElem, xmlTag_plain hN, Except.map]
  rw [if_neg (by simp)]
  refine h4.trans ?_
  simp only [List.append_nil, List.reverse_reverse]

/-! ### Loading -/

theorem inNs_inj {u x y : Str} (h : inNs u x = inNs u y) : x = y := by
  simpa [inNs] using h

theorem itemKids_find {env : NsEnv} (items : List (Str × Str)) (t : Str) :
    (itemKids env items).find? (fun e => e.tag == t) =
      (items.find? fun p => kidTag env p.1 == t).map fun p =>
        .mk (kidTag env p.1) (some p.2) [] := by
  unfold itemKids
  rw [List.find?_map]
  rfl

variable (P : PyFloat)

/-- The loop, given what it finds. -/
theorem illumaLoad_spec {root : Elem} {g : Str → Option Str} : ∀ (fs : List (Str × Str))
    (A : Illums P.F), (fs.map (·.2)).Nodup →
    (∀ p ∈ fs, match g p.1 with
      | none => illumaFind root p.1 = none
      | some t => ∃ tag k v, illumaFind root p.1 = some (.mk tag (some t) k) ∧
          pyFloatS P t = .ok v) →
    ∃ C, illumaLoad P root fs A = .ok C ∧
      (∀ p ∈ fs, match g p.1 with
        | none => C p.2 = A p.2
        | some t => ∃ v, pyFloatS P t = .ok v ∧ C p.2 = .flt v) ∧
      ∀ a, a ∉ fs.map (·.2) → C a = A a
  | [], A, _, _ => ⟨A, rfl, by simp, by simp⟩
  | p :: fs, A, hn, hg => by
    rw [List.map_cons, List.nodup_cons] at hn
    have hp := hg p (by simp)
    have hr : ∀ q ∈ fs, q.2 ≠ p.2 := fun q hq h => hn.1 (List.mem_map.mpr ⟨q, hq, h⟩)
    cases hgp : g p.1 with
    | none =>
      rw [hgp] at hp
      simp only at hp
      obtain ⟨C, c1, c2, c3⟩ := illumaLoad_spec fs A hn.2 fun q hq => hg q (by simp [hq])
      refine ⟨C, ?_, ?_, ?_⟩
      · unfold illumaLoad; rw [hp]; exact c1
      · intro q hq
        rcases List.mem_cons.mp hq with rfl | hq
        · rw [hgp]; exact c3 _ hn.1
        · exact c2 q hq
      · intro a ha
        exact c3 a fun h => ha (by simp only [List.map_cons]; exact List.mem_cons_of_mem _ h)
    | some t =>
      rw [hgp] at hp
      obtain ⟨tag, k, v, h1, h2⟩ := hp
      obtain ⟨C, c1, c2, c3⟩ := illumaLoad_spec fs (fun a => if a = p.2 then .flt v else A a) hn.2
        fun q hq => hg q (by simp [hq])
      refine ⟨C, ?_, ?_, ?_⟩
      · unfold illumaLoad; rw [h1]; simp only [Elem.text, h2]; exact c1
      · intro q hq
        rcases List.mem_cons.mp hq with rfl | hq
        · rw [hgp]
          refine ⟨v, h2, ?_⟩
          rw [c3 _ hn.1, if_pos rfl]
        · have := c2 q hq
          cases hgq : g q.1 with
          | none =>
            rw [hgq] at this
            simp only at this ⊢
            rw [this, if_neg (hr q hq)]
          | some t' => rw [hgq] at this; exact this
      · intro a ha
        rw [c3 a fun h => ha (by simp only [List.map_cons]; exact List.mem_cons_of_mem _ h),
          if_neg]
        intro h
        exact ha (by simp [h])

/-- The items of the document written. -/
def illumaItems (A : Illums P.F) (fs : List (Str × Str)) : List (Str × Str) :=
  fs.filterMap fun p => ((A p.2).text P).map fun t => (p.1, t)

theorem illumaItems_find {A : Illums P.F} : ∀ {fs : List (Str × Str)}, (fs.map (·.1)).Nodup →
    ∀ p ∈ fs, (illumaItems P A fs).find? (fun q => q.1 == p.1) =
      ((A p.2).text P).map fun t => (p.1, t)
  | [], _, p, hp => by cases hp
  | r :: fs, hn, p, hp => by
    rw [List.map_cons, List.nodup_cons] at hn
    unfold illumaItems
    rw [List.filterMap_cons]
    rcases List.mem_cons.mp hp with rfl | hp
    · cases ht : (A p.2).text P with
      | some t => simp
      | none =>
        simp only [Option.map_none]
        rw [List.find?_eq_none]
        intro q hq
        obtain ⟨s, hs, hq⟩ := List.mem_filterMap.mp hq
        cases hst : (A s.2).text P with
        | none => rw [hst] at hq; cases hq
        | some t' =>
          rw [hst] at hq
          cases hq
          simp only [beq_iff_eq]
          intro h
          exact hn.1 (List.mem_map.mpr ⟨s, hs, h⟩)
    · have ih := illumaItems_find (A := A) hn.2 p hp
      have hne : r.1 ≠ p.1 := fun h => hn.1 (List.mem_map.mpr ⟨p, hp, h.symm⟩)
      cases ht : (A r.2).text P with
      | none => exact ih
      | some t =>
        simp only [Option.map_some]
        rw [List.find?_cons_of_neg (by simpa using hne)]
        exact ih

theorem illumaBytes_doc (A : Illums P.F) : ∃ m attrs, illumaOpen = '<' :: (m ++ ['>']) ∧
    quoteOk m none = true ∧ xmlTok (.mark m) = .ok (.start "ILLUMA".toList attrs) ∧
    (nsDecls attrs).lookup [] = some illumaNs ∧
    illumaBytes P A = utf8Enc (illumaDoc m (illumaItems P A illumaFields)) := by
  refine ⟨(illumaOpen.drop 1).dropLast, [("xmlns".toList, illumaNs),
    ("xmlns:xs".toList, "http://www.w3.org/2001/XMLSchema".toList),
    ("xmlns:ism".toList, "urn:us:gov:ic:ism".toList)], by decide +kernel, by decide +kernel,
    by decide +kernel, by decide +kernel, ?_⟩
  have e : illumaOpen = '<' :: ((illumaOpen.drop 1).dropLast ++ ['>']) := by decide +kernel
  have hf : ∀ fs : List (Str × Str), (fs.flatMap fun p => illumaPart p.1 ((A p.2).text P)) =
      utf8Enc ((illumaItems P A fs).flatMap fun p => illumaItem p.1 p.2) := by
    intro fs
    induction fs with
    | nil => rfl
    | cons p fs ih =>
      rw [List.flatMap_cons, ih]
      unfold illumaItems
      rw [List.filterMap_cons]
      cases (A p.2).text P with
      | none => rfl
      | some t => simp only [illumaPart, Option.map_some, List.flatMap_cons, utf8Enc_append]
  unfold illumaBytes
  rw [hf]
  unfold illumaDoc
  generalize (illumaOpen.drop 1).dropLast = m at e ⊢
  rw [e]
  generalize illumaProlog = a
  generalize illumaClose = z
  rw [← utf8Enc_append, ← utf8Enc_append, ← utf8Enc_append]
  simp

end Verif
