import Verif.StateLemmas

/-
The ILLUMA TRE, whose body is an XML document (nitf_tre_illuma.py).

`xml.etree.ElementTree` is a library; `xmlParse` models it on documents made of processing
instructions, elements, attributes and character data.  Documents with comments, CDATA sections, a
DOCTYPE or references (`&...;`) are outside of the model (`notImpl`).  Of the rules for well formed
documents it has: matching tags, one root element, no text outside of it, bound prefixes.  It does
not have: the characters allowed in names and in text, distinct attributes, normalised line ends,
encodings other than UTF-8, the predefined prefix `xml`.
-/

namespace Verif

/-! ### XML -/

/-- A document is cut into character data and what is between `<` and `>`. -/
inductive Piece where
  | text (s : Str)
  | mark (s : Str)
  deriving DecidableEq

/-- State of the cutter: in character data, or in markup (in a quoted value if `q` is set).  `acc`
is what has been read of it, in reverse. -/
inductive Cut where
  | text (acc : Str)
  | mark (acc : Str) (q : Option Char)

/-- Cut a document into pieces. -/
def xmlCut : Str → Cut → Except Err (List Piece)
  | [], .text acc => .ok (if acc = [] then [] else [.text acc.reverse])
  | [], .mark _ _ => .error .syntax
  | c :: r, .text acc =>
    if c = '<' then
      (xmlCut r (.mark [] none)).map fun l => if acc = [] then l else .text acc.reverse :: l
    else xmlCut r (.text (c :: acc))
  | c :: r, .mark acc none =>
    if c = '>' then (xmlCut r (.text [])).map (.mark acc.reverse :: ·)
    else if c = '"' ∨ c = '\'' then xmlCut r (.mark (c :: acc) (some c))
    else xmlCut r (.mark (c :: acc) none)
  | c :: r, .mark acc (some q) => xmlCut r (.mark (c :: acc) (if c = q then none else some q))

/-- A token. -/
inductive Tok where
  | text (s : Str)
  | start (name : Str) (attrs : List (Str × Str))
  | empty (name : Str) (attrs : List (Str × Str))
  | stop (name : Str)
  | instr
  deriving DecidableEq

/-- White space of XML. -/
def xmlSpace (c : Char) : Bool := c == ' ' || c == '\t' || c == '\n' || c == '\r'

/-- State of the reader of attributes. -/
inductive AttrSt where
  | gap
  | name (acc : Str)
  | eq (name : Str)
  | val (name : Str) (q : Char) (acc : Str)

/-- `name="value" ...`. -/
def xmlAttrs : Str → AttrSt → Except Err (List (Str × Str))
  | [], .gap => .ok []
  | [], _ => .error .syntax
  | c :: r, .gap => if xmlSpace c then xmlAttrs r .gap else xmlAttrs r (.name [c])
  | c :: r, .name acc =>
    if c = '=' then xmlAttrs r (.eq (rstripBy xmlSpace acc.reverse)) else xmlAttrs r (.name (c :: acc))
  | c :: r, .eq nm =>
    if xmlSpace c then xmlAttrs r (.eq nm)
    else if c = '"' ∨ c = '\'' then xmlAttrs r (.val nm c [])
    else .error .syntax
  | c :: r, .val nm q acc =>
    if c = q then (xmlAttrs r .gap).map ((nm, acc.reverse) :: ·)
    else if c = '&' then .error .notImpl
    else xmlAttrs r (.val nm q (c :: acc))

/-- The token of a piece. -/
def xmlTok : Piece → Except Err Tok
  | .text s => if '&' ∈ s then .error .notImpl else .ok (.text s)
  | .mark ('?' :: _) => .ok .instr
  | .mark ('!' :: _) => .error .notImpl
  | .mark ('/' :: s) => .ok (.stop (rstripBy xmlSpace s))
  | .mark s =>
    if s.getLast? = some '/' then
      (xmlAttrs (s.dropLast.dropWhile fun c => !xmlSpace c) .gap).map
        (.empty (s.dropLast.takeWhile fun c => !xmlSpace c))
    else (xmlAttrs (s.dropWhile fun c => !xmlSpace c) .gap).map
        (.start (s.takeWhile fun c => !xmlSpace c))

/-- The tokens of the pieces. -/
def xmlToks : List Piece → Except Err (List Tok)
  | [] => .ok []
  | p :: ps =>
    match xmlTok p with
    | .error e => .error e
    | .ok t => (xmlToks ps).map (t :: ·)

/-- An element: tag (with the namespace in braces), `text` (the characters before the first child,
`None` if there are none) and the children.  Attributes and the text after an element are not kept. -/
inductive Elem where
  | mk (tag : Str) (text : Option Str) (kids : List Elem)

def Elem.tag : Elem → Str
  | .mk t _ _ => t
def Elem.text : Elem → Option Str
  | .mk _ t _ => t
def Elem.kids : Elem → List Elem
  | .mk _ _ k => k

/-- Namespaces in scope: prefix (empty for the default) and URI. -/
abbrev NsEnv := List (Str × Str)

/-- The declarations among the attributes. -/
def nsDecls (attrs : List (Str × Str)) : NsEnv :=
  attrs.filterMap fun a =>
    if a.1 = "xmlns".toList then some ([], a.2)
    else if "xmlns:".toList.isPrefixOf a.1 then some (a.1.drop 6, a.2)
    else none

/-- `{uri}name`. -/
def inNs (uri name : Str) : Str := '{' :: uri ++ '}' :: name

/-- The tag of an element with the given name. -/
def xmlTag (env : NsEnv) (name : Str) : Except Err Str :=
  if ':' ∈ name then
    match env.lookup (name.takeWhile fun c => c != ':') with
    | none => .error .syntax
    | some u => .ok (inNs u ((name.dropWhile fun c => c != ':').drop 1))
  else
    match env.lookup [] with
    | none => .ok name
    | some u => .ok (if u = [] then name else inNs u name)

/-- An element not closed yet; `kids` in reverse. -/
structure Pending where
  name : Str
  env : NsEnv
  tag : Str
  text : Str
  kids : List Elem

def Pending.close (f : Pending) : Elem :=
  .mk f.tag (if f.text = [] then none else some f.text) f.kids.reverse

/-- Open an element below `stack`. -/
def openElem (stack : List Pending) (name : Str) (attrs : List (Str × Str)) : Except Err Pending :=
  let env := nsDecls attrs ++ (match stack with
    | [] => []
    | f :: _ => f.env)
  (xmlTag env name).map fun tag => ⟨name, env, tag, [], []⟩

/-- Build the tree.  `root` is the root element once it is closed. -/
def xmlBuild : List Tok → List Pending → Option Elem → Except Err Elem
  | [], [], some e => .ok e
  | [], _, _ => .error .syntax
  | .instr :: r, st, root => xmlBuild r st root
  | .text s :: r, [], root => if s.all xmlSpace then xmlBuild r [] root else .error .syntax
  | .text s :: r, f :: st, root =>
    xmlBuild r ((if f.kids = [] then { f with text := f.text ++ s } else f) :: st) root
  | .start n as :: r, st, root =>
    if st = [] ∧ root.isSome then .error .syntax
    else match openElem st n as with
      | .error e => .error e
      | .ok f => xmlBuild r (f :: st) root
  | .empty n as :: r, st, root =>
    if st = [] ∧ root.isSome then .error .syntax
    else match openElem st n as with
      | .error e => .error e
      | .ok f =>
        match st with
        | [] => xmlBuild r [] (some f.close)
        | g :: st => xmlBuild r ({ g with kids := f.close :: g.kids } :: st) root
  | .stop n :: r, st, root =>
    match st with
    | [] => .error .syntax
    | f :: st =>
      if f.name ≠ n then .error .syntax
      else match st with
        | [] => xmlBuild r [] (some f.close)
        | g :: st => xmlBuild r ({ g with kids := f.close :: g.kids } :: st) root

/-- `ET.fromstring(bt)`: the root element.  `ET.ParseError` is a `SyntaxError`. -/
def xmlParse (bt : Bytes) : Except Err Elem :=
  match utf8Dec bt with
  | .error _ => .error .syntax
  | .ok s =>
    match xmlCut s (.text []) with
    | .error e => .error e
    | .ok ps =>
      match xmlToks ps with
      | .error e => .error e
      | .ok ts => xmlBuild ts [] none

/-- `root.find(tag)`: the first child with the tag. -/
def Elem.find (root : Elem) (tag : Str) : Option Elem := root.kids.find? fun e => e.tag == tag

/-! ### The TRE -/

/-- `TreILLUMA.field_list` (nitf_tre_illuma.py:39-49): XML name and attribute name. -/
def illumaFields : List (Str × Str) :=
  [("solAz".toList, "sol_az".toList), ("solEl".toList, "sol_el".toList),
   ("comSolIl".toList, "com_sol_il".toList), ("lunEl".toList, "lun_el".toList),
   ("lunPhAng".toList, "lun_ph_ang".toList), ("lunAz".toList, "lun_az".toList),
   ("comLunIl".toList, "com_lun_il".toList), ("comTotNatIl".toList, "com_tot_nat_il".toList),
   ("solLunDisAd".toList, "sol_lun_dis_ad".toList), ("artIlMin".toList, "art_il_min".toList),
   ("artIlMax".toList, "art_il_max".toList)]

/-- `self.ns["xmlns"]` (nitf_tre_illuma.py:54). -/
def illumaNs : Str := "http://namespaces.ic.gov/NSGPDD/2012/v1.0/ILLUMA".toList

/-- The value of an attribute.  (Python accepts any object; others are not modelled.) -/
inductive Illum (F : Type) where
  | unset
  | int (z : Int)
  | flt (x : F)
  | str (s : Str)
  deriving DecidableEq

/-- The attributes of the object, by name. -/
abbrev Illums (F : Type) := Str → Illum F

variable (P : PyFloat)

/-- `f"{val}"`, `none` for `None`. -/
def Illum.text : Illum P.F → Option Str
  | .unset => none
  | .int z => some (intStr z)
  | .flt x => some (P.str x)
  | .str s => some s

/-- `__init__` (nitf_tre_illuma.py:51-54). -/
def illumaNew {F : Type} : Illums F := fun _ => .unset

/-- The constant parts of the document (nitf_tre_illuma.py:59-60, 65). -/
def illumaProlog : Str := "<?xml version=\"1.0\" encoding=\"UTF-8\" ?>".toList
def illumaOpen : Str := "<ILLUMA xmlns=\"http://namespaces.ic.gov/NSGPDD/2012/v1.0/ILLUMA\"     xmlns:xs=\"http://www.w3.org/2001/XMLSchema\" xmlns:ism=\"urn:us:gov:ic:ism\">".toList
def illumaClose : Str := "</ILLUMA>".toList

/-- `"  <{xml_name}>{val}</{xml_name}>"` (nitf_tre_illuma.py:64). -/
def illumaItem (x t : Str) : Str :=
  "  <".toList ++ x ++ ">".toList ++ t ++ "</".toList ++ x ++ ">".toList

/-- The bytes added for one attribute (nitf_tre_illuma.py:62-64). -/
def illumaPart (x : Str) : Option Str → Bytes
  | none => []
  | some t => utf8Enc (illumaItem x t)

/-- `tre_bytes` (nitf_tre_illuma.py:56-66). -/
def illumaBytes (A : Illums P.F) : Bytes :=
  utf8Enc illumaProlog ++ utf8Enc illumaOpen ++
    (illumaFields.flatMap fun p => illumaPart p.1 ((A p.2).text P)) ++ utf8Enc illumaClose

/-- `root.find(xml_name) or root.find(f"xmlns:{xml_name}", self.ns)` (nitf_tre_illuma.py:73).  An
element without children is false, whatever its text. -/
def illumaFind (root : Elem) (x : Str) : Option Elem :=
  match root.find x with
  | some e => if e.kids.isEmpty then root.find (inNs illumaNs x) else some e
  | none => root.find (inNs illumaNs x)

/-- The loop of `read_from_tre_bytes` (nitf_tre_illuma.py:70-75). -/
def illumaLoad (root : Elem) : List (Str × Str) → Illums P.F → Except Err (Illums P.F)
  | [], A => .ok A
  | p :: ps, A =>
    match illumaFind root p.1 with
    | none => illumaLoad root ps A
    | some e =>
      match e.text with
      | none => .error .type
      | some t =>
        match pyFloatS P t with
        | .error x => .error x
        | .ok v => illumaLoad root ps fun a => if a = p.2 then .flt v else A a

/-- `read_from_tre_bytes` (nitf_tre_illuma.py:68-75). -/
def illumaRead (bt : Bytes) (A : Illums P.F) : Except Err (Illums P.F) :=
  match xmlParse bt with
  | .error e => .error e
  | .ok root => illumaLoad P root illumaFields A

/-- `write_to_file` (nitf_tre.py:73-80). -/
def illumaWriteTre (A : Illums P.F) : Except Err Bytes :=
  let b := illumaBytes P A
  if b.length > 99999 then .error .runtime
  else .ok (tagBytes "ILLUMA".toList ++ (lenBytes b.length ++ b))

/-- `read_from_file` (nitf_tre_illuma.py:77-82) of a new object: the object and the bytes left. -/
def illumaReadTre (b : Bytes) : Except Err (Illums P.F × Bytes) :=
  match utf8Dec (rstripB (b.take 6)) with
  | .error e => .error e
  | .ok tag =>
    if tag ≠ "ILLUMA".toList then .error .runtime
    else match pyIntB ((b.drop 6).take 5) with
      | .error e => .error e
      | .ok cel =>
        let body := if cel < 0 then b.drop 11 else (b.drop 11).take cel.toNat
        match illumaRead P body illumaNew with
        | .error e => .error e
        | .ok A => .ok (A, (b.drop 11).drop body.length)

end Verif
