import Verif.Props.Sense
import Verif.Props.Print

/-
C98: the headers are laid out as MIL-STD-2500C says (tables A-1, A-3, A-5, A-6, A-8, A-9).  The
specification below lists the fields with their widths, as in these tables; it does not use the
descriptions of the model.
-/

namespace Verif.Standard

open Verif Verif.Sense

/-- A piece of a header: field, loop indices, number of bytes. -/
abbrev Piece := String × Key × Nat

/-- Fields that follow each other at these loop indices. -/
def row (key : Key) (l : List (String × Nat)) : List Piece := l.map fun p => (p.1, key, p.2)

/-- What is repeated `c` times, numbered from 0. -/
def each (c : Int) (f : Int → List Piece) : List Piece :=
  (List.range c.toNat).flatMap fun i : Nat => f i

/-- The security fields; their names start with letters that depend on the header. -/
def security (pre : String) : List (String × Nat) :=
  [("clas", 1), ("clsy", 2), ("code", 11), ("ctlh", 2), ("rel", 20), ("dctp", 2), ("dcdt", 8),
   ("dcxm", 4), ("dg", 1), ("dgdt", 8), ("cltx", 43), ("catp", 1), ("caut", 40), ("crsn", 1),
   ("srdt", 8), ("ctln", 15)].map fun p => (pre ++ p.1, p.2)

/-- An area for TREs: its length `v` in 5 digits, and if this is not 0, the number of the overflow
segment in 3 digits and the data, which the length includes together. -/
def area (len ofl data : String) (v : Int) : List Piece :=
  if v = 0 then row [] [(len, 5), (data, 0)]
  else row [] [(len, 5), (ofl, 3), (data, (v - 3).toNat)]

/-- Table A-1, the file header, for these numbers of segments and lengths of TRE areas. -/
def fileHeader (numi nums numt numdes numres udhdl xhdl : Int) : List Piece :=
  row [] ([("fhdr", 4), ("fver", 5), ("clevel", 2), ("stype", 4), ("ostaid", 10), ("fdt", 14),
    ("ftitle", 80)] ++ security "fs" ++ [("fscop", 5), ("fscpys", 5), ("encryp", 1), ("fbkgc", 3),
    ("oname", 24), ("ophone", 18), ("fl", 12), ("hl", 6)]) ++
  (row [] [("numi", 3)] ++ each numi fun i => row [i] [("lish", 6), ("li", 10)]) ++
  (row [] [("nums", 3)] ++ each nums fun i => row [i] [("lssh", 4), ("ls", 6)]) ++
  row [] [("numx", 3)] ++
  (row [] [("numt", 3)] ++ each numt fun i => row [i] [("ltsh", 4), ("lt", 5)]) ++
  (row [] [("numdes", 3)] ++ each numdes fun i => row [i] [("ldsh", 4), ("ld", 9)]) ++
  (row [] [("numres", 3)] ++ each numres fun i => row [i] [("lresh", 4), ("lre", 7)]) ++
  area "udhdl" "udhofl" "udhd" udhdl ++ area "xhdl" "xhdlofl" "xhd" xhdl

/-- What decides how an image subheader is laid out: whether there are coordinates and a compression
rate, the number of comments, the two counts of bands, the lookup tables of each band (their number,
whether there are any, and their size), the lengths of TRE areas. -/
structure ImageHas where
  coordinates : Bool
  comments : Int
  compressed : Bool
  nbands : Int
  xbands : Int
  tables : Int → Int
  anyTables : Int → Bool
  entries : Int → Int
  udidl : Int
  ixshdl : Int

/-- Table A-3, the image subheader. -/
def imageSubheader (q : ImageHas) : List Piece :=
  row [] ([("im", 2), ("iid1", 10), ("idatim", 14), ("tgtid", 17), ("iid2", 80)] ++ security "is" ++
    [("encryp", 1), ("isorce", 42), ("nrows", 8), ("ncols", 8), ("pvtype", 3), ("irep", 8),
     ("icat", 8), ("abpp", 2), ("pjust", 1), ("icords", 1)]) ++
  (if q.coordinates then row [] [("igeolo", 60)] else []) ++
  (row [] [("nicom", 1)] ++ each q.comments fun i => row [i] [("icom", 80)]) ++
  (row [] [("ic", 2)] ++ if q.compressed then row [] [("comrat", 4)] else []) ++
  (row [] [("nbands", 1)] ++ if q.nbands = 0 then row [] [("xbands", 5)] else []) ++
  (each (if q.nbands > 0 then q.nbands else q.xbands) fun i =>
    row [i] [("irepband", 2), ("isubcat", 6), ("ifc", 1), ("imflt", 3), ("nluts", 1)] ++
    (if q.anyTables i then row [i] [("nelut", 5)] else []) ++
    each (q.tables i) fun j => row [i, j] [("lutd", (q.entries i).toNat)]) ++
  row [] [("isync", 1), ("imode", 1), ("nbpr", 4), ("nbpc", 4), ("nppbh", 4), ("nppbv", 4),
    ("nbpp", 2), ("idlvl", 3), ("ialvl", 3), ("iloc", 10), ("imag", 4)] ++
  area "udidl" "udofl" "udid" q.udidl ++ area "ixshdl" "ixofl" "ixshd" q.ixshdl

/-- Table A-5, the graphic subheader. -/
def graphicSubheader (sxshdl : Int) : List Piece :=
  row [] ([("sy", 2), ("sid", 10), ("sname", 20)] ++ security "ss" ++
    [("encryp", 1), ("sfmt", 1), ("sstruct", 13), ("sdlvl", 3), ("salvl", 3), ("sloc", 10),
     ("sbnd1", 10), ("scolor", 1), ("sbnd2", 10), ("sres2", 2)]) ++
  area "sxshdl" "sxofl" "sxshd" sxshdl

/-- Table A-6, the text subheader. -/
def textSubheader (txshdl : Int) : List Piece :=
  row [] ([("te", 2), ("textid", 7), ("txtalvl", 3), ("txtdt", 14), ("txtitl", 80)] ++
    security "ts" ++ [("encryp", 1), ("txtfmt", 3)]) ++
  area "txshdl" "txsofl" "txshd" txshdl

/-- Table A-8, the DES subheader; TRE overflow says where the TREs belong. -/
def desSubheader (overflow : Bool) (desshl : Int) : List Piece :=
  row [] ([("de", 2), ("desid", 25), ("dsver", 2)] ++ security "des") ++
  (if overflow then row [] [("desoflw", 6), ("desitem", 3)] else []) ++
  row [] [("desshl", 4), ("desshf", desshl.toNat)]

/-- Table A-9, the RES subheader. -/
def resSubheader (resshl : Int) : List Piece :=
  row [] ([("re", 2), ("resid", 25), ("resver", 2)] ++ security "re" ++
    [("resshl", 4), ("resshf", resshl.toNat)])

/-- The pieces of a record, in order, are these. -/
def Pieces (d : Desc) (cs : List Chunk) (l : List Piece) : Prop :=
  cs.map (fun ch => ((d.tab[ch.pos]?).bind (·.fd.name), ch.key, ch.bytes.length)) =
    l.map fun p => (some (nameCode p.1.toList), p.2.1, p.2.2)

variable (P : PyFloat)

/-- This count is shown; None counts as 0. -/
def Counts (d : Desc) (S : Store P.F) (nm : Name) (key : Key) (c : Int) : Prop :=
  getAttr P d S nm key = .ok (.int c) ∨ getAttr P d S nm key = .ok .none ∧ c = 0

/-- The file header `S` has these numbers. -/
structure FileHas (S : Store P.F) (numi nums numt numdes numres udhdl xhdl : Int) : Prop where
  numi : Counts P Tables.t_file_header S (n!"numi") [] numi
  nums : Counts P Tables.t_file_header S (n!"nums") [] nums
  numt : Counts P Tables.t_file_header S (n!"numt") [] numt
  numdes : Counts P Tables.t_file_header S (n!"numdes") [] numdes
  numres : Counts P Tables.t_file_header S (n!"numres") [] numres
  udhdl : getAttr P Tables.t_file_header S (n!"udhdl") [] = .ok (.int udhdl)
  xhdl : getAttr P Tables.t_file_header S (n!"xhdl") [] = .ok (.int xhdl)

/-- The image subheader `S` has this. -/
structure ImageShows (S : Store P.F) (q : ImageHas) : Prop where
  coordinates : q.coordinates = false ↔ ∃ s,
    getAttr P Tables.t_image_subheader S (n!"icords") [] = .ok (.str s) ∧ ∀ ch ∈ s, cSpace ch = true
  comments : Counts P Tables.t_image_subheader S (n!"nicom") [] q.comments
  compressed : ∃ v, getAttr P Tables.t_image_subheader S (n!"ic") [] = .ok v ∧
    (q.compressed = true ↔ v ≠ .str "NC".toList ∧ v ≠ .str "NM".toList)
  nbands : getAttr P Tables.t_image_subheader S (n!"nbands") [] = .ok (.int q.nbands)
  xbands : q.nbands ≤ 0 → Counts P Tables.t_image_subheader S (n!"xbands") [] q.xbands
  tables : ∀ i, 0 ≤ i → i < (if q.nbands > 0 then q.nbands else q.xbands) →
    Counts P Tables.t_image_subheader S (n!"nluts") [i] (q.tables i) ∧
    (q.anyTables i = true ↔ getAttr P Tables.t_image_subheader S (n!"nluts") [i] ≠ .ok (.int 0)) ∧
    (0 < q.tables i → getAttr P Tables.t_image_subheader S (n!"nelut") [i] = .ok (.int (q.entries i)))
  udidl : getAttr P Tables.t_image_subheader S (n!"udidl") [] = .ok (.int q.udidl)
  ixshdl : getAttr P Tables.t_image_subheader S (n!"ixshdl") [] = .ok (.int q.ixshdl)

/-- The bytes `b` of a written record consist of these pieces; each is what its field writes. -/
def WrittenAs (d : Desc) (S : Store P.F) (b : Bytes) (l : List Piece) : Prop :=
  ∃ cs, b = chunkBytes cs ∧ Pieces d cs l ∧ ∀ ch ∈ cs, ∃ fi, d.tab[ch.pos]? = some fi ∧
    fieldBytes P (look P d.tab S) S fi ch.pos ch.key = .ok ch.bytes

/-- The bytes `b` read consist of these pieces; each field holds what its piece says. -/
def ReadAs (d : Desc) (lit : Bool) (R : Store P.F) (b : Bytes) (l : List Piece) : Prop :=
  ∃ cs, b = chunkBytes cs ∧ Pieces d cs l ∧ ∀ ch ∈ cs, ∃ fi v, d.tab[ch.pos]? = some fi ∧
    parseField P fi.fd lit ch.bytes = .ok v ∧ R ch.pos ch.key = some ⟨v, some ch.bytes⟩

/-- Number of bytes. -/
def total (l : List Piece) : Nat := (l.map fun p => p.2.2).sum

end Verif.Standard
