import Verif.Tre
import Verif.Tables

/-
Model of the content headers of an EXT_DEF_CONTENT DES (pynitf/nitf_des_ext_def_content.py).
-/

namespace Verif

variable (P : PyFloat)

abbrev chD : Desc := Tables.t_des_ext_def_content

/-- The bytes of an ASCII literal. -/
def lit (s : String) : Bytes := s.toList.map fun c => UInt8.ofNat c.toNat

/-- The names in `hlist` (nitf_des_ext_def_content.py:39-49), in order. -/
def headerNames : List Bytes :=
  [lit "Content-Type", lit "Content-Use", lit "Content-Encoding", lit "Content-Range",
   lit "Content-Length", lit "Content-Description", lit "Content-Disposition",
   lit "Canonical-ID", lit "DES-ID1", lit "DES-ID2"]

/-- The attributes `content_type` … `des_id2`, by the name `hlist` gives them; `none` is `None`. -/
abbrev Headers := Bytes → Option Bytes

/-- `DesExtContentHeader.__init__` (nitf_des_ext_def_content.py:51-62). -/
def defaultHeaders : Headers := fun n =>
  if n = lit "Content-Encoding" ∨ n = lit "Content-Range" then none
  else if n = lit "Content-Length" then some (lit "0")
  else if n ∈ headerNames then some []
  else none

/-- `sep.join(parts)`. -/
def joinWith (sep : Bytes) : List Bytes → Bytes
  | [] => []
  | [x] => x
  | x :: y :: r => x ++ sep ++ joinWith sep (y :: r)

/-- `_snippet` (nitf_des_ext_def_content.py:66-70). -/
def snippet (a : Headers) (n : Bytes) : Option Bytes := (a n).map fun v => n ++ lit ": " ++ v

/-- `bytes` (nitf_des_ext_def_content.py:77-79). -/
def headerText (a : Headers) : Bytes :=
  joinWith (lit "\r\n") (headerNames.filterMap (snippet a)) ++ lit "\r\n"

/-- `b.split(x + y)` for a separator of two different bytes. -/
def split2 (x y : UInt8) : Bytes → List Bytes
  | [] => [[]]
  | [a] => [[a]]
  | a :: b :: r =>
    if a = x ∧ b = y then [] :: split2 x y r
    else
      match split2 x y (b :: r) with
      | [] => [[a]]
      | h :: t => (a :: h) :: t

/-- `_set_snippet` (nitf_des_ext_def_content.py:72-75). -/
def setSnippet (a : Headers) (k v : Bytes) : Headers := fun n =>
  if n = k ∧ k ∈ headerNames then some v else a n

/-- The loop of `parse`. -/
def parseLines : List Bytes → Headers → Except Err Headers
  | [], a => .ok a
  | ln :: r, a =>
    match split2 58 32 ln with
    | [k, v] => parseLines r (setSnippet a k v)
    | _ => .error .value

/-- `parse` (nitf_des_ext_def_content.py:81-84). -/
def parseHeaders (a : Headers) (t : Bytes) : Except Err Headers :=
  parseLines (split2 13 10 (rstripBy (fun x => x == 13 || x == 10) t)) a

/-- `write_to_file` (nitf_des_ext_def_content.py:90-94) on the object with attributes `a` and record
`S`; `size` is `data_size` of the DES if the header belongs to one. -/
def writeHeaders (size : Option Nat) (a : Headers) (S : Store P.F) : Except Err (Headers × Bytes) :=
  let a := match size with
    | none => a
    | some n => fun x => if x = lit "Content-Length" then some (utf8Enc (decStr n)) else a x
  match setAttr P chD S (n!"content_headers") [] (.bytes (headerText a)) with
  | (_, some e) => .error e
  | (S', none) => (writeStruct P chD S').map fun b => (a, b)

/-- `read_from_file` (nitf_des_ext_def_content.py:86-88) on a new object. -/
def readHeaders (b : Bytes) : Except Err (Headers × Bytes) :=
  match readStruct P chD false b with
  | .error e => .error e
  | .ok (R, rest) =>
    match getAttr P chD R (n!"content_headers") [] with
    | .error e => .error e
    | .ok (.bytes t) => (parseHeaders defaultHeaders t).map fun a => (a, rest)
    | .ok _ => .error .attr

end Verif
