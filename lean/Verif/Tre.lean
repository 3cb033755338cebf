import Verif.Field

/-
Model of `/repo/pynitf/nitf_tre.py`: TRE framing, the registry of TRE classes, reading a TRE area,
distributing TREs over the header areas and the overflow segment.

Not modelled here: `tre_implementation_field` (no shipped TRE sets it; see `Verif/Implement.lean`)
and TRE classes that are not FieldStructs (ILLUMA, which is XML).
-/

namespace Verif

variable (P : PyFloat)

/-! ### UTF-8 -/

/-- Continuation byte. -/
def utf8Cont (b : UInt8) : Bool := 0x80 ≤ b && b ≤ 0xBF

/-- One character of `str.encode("utf-8")`. -/
def utf8Enc1 (c : Char) : Bytes :=
  let n := c.toNat
  if n < 0x80 then [UInt8.ofNat n]
  else if n < 0x800 then [UInt8.ofNat (0xC0 + n / 64), UInt8.ofNat (0x80 + n % 64)]
  else if n < 0x10000 then
    [UInt8.ofNat (0xE0 + n / 4096), UInt8.ofNat (0x80 + n / 64 % 64), UInt8.ofNat (0x80 + n % 64)]
  else
    [UInt8.ofNat (0xF0 + n / 262144), UInt8.ofNat (0x80 + n / 4096 % 64),
     UInt8.ofNat (0x80 + n / 64 % 64), UInt8.ofNat (0x80 + n % 64)]

/-- `str.encode("utf-8")`.  (`Char` has no surrogates, so this never fails.) -/
def utf8Enc (s : Str) : Bytes := s.flatMap utf8Enc1

/-- `bytes.decode("utf-8")`. -/
def utf8Dec : Bytes → Except Err Str
  | [] => .ok []
  | a :: r =>
    if a < 0x80 then (utf8Dec r).map (Char.ofNat a.toNat :: ·)
    else match r with
      | [] => .error .unicode
      | b :: r2 =>
        if 0xC2 ≤ a && a ≤ 0xDF && utf8Cont b then
          (utf8Dec r2).map (Char.ofNat ((a.toNat - 0xC0) * 64 + (b.toNat - 0x80)) :: ·)
        else match r2 with
          | [] => .error .unicode
          | c :: r3 =>
            let n3 := (a.toNat - 0xE0) * 4096 + (b.toNat - 0x80) * 64 + (c.toNat - 0x80)
            if 0xE0 ≤ a && a ≤ 0xEF && utf8Cont b && utf8Cont c && 0x800 ≤ n3 &&
                !(0xD800 ≤ n3 && n3 ≤ 0xDFFF) then
              (utf8Dec r3).map (Char.ofNat n3 :: ·)
            else match r3 with
              | [] => .error .unicode
              | d :: r4 =>
                let n4 := (a.toNat - 0xF0) * 262144 + (b.toNat - 0x80) * 4096 +
                  (c.toNat - 0x80) * 64 + (d.toNat - 0x80)
                if 0xF0 ≤ a && a ≤ 0xF4 && utf8Cont b && utf8Cont c && utf8Cont d &&
                    0x10000 ≤ n4 && n4 ≤ 0x10FFFF then
                  (utf8Dec r4).map (Char.ofNat n4 :: ·)
                else .error .unicode

/-! ### TRE objects -/

/-- A TRE object: an instance of a registered class (tag, description, field values) or a
`TreUnknown` (nitf_tre.py:28-140). -/
inductive Tre (F : Type) where
  | known (tag : Str) (d : Desc) (S : Store F)
  | unknown (tag : Str) (body : Bytes)

/-- `t.tre_tag`. -/
def Tre.tag {F} : Tre F → Str
  | .known t _ _ => t
  | .unknown t _ => t

/-- `Tre.tre_bytes` (nitf_tre.py:36-46) / `TreUnknown.tre_bytes`. -/
def Tre.body : Tre P.F → Except Err Bytes
  | .known _ d S => writeStruct P d S
  | .unknown _ b => .ok b

/-- Tag as written: `"{:6s}".format(tag).encode("utf-8")` (nitf_tre.py:74). -/
def tagBytes (tag : Str) : Bytes := utf8Enc (padRight ' ' 6 tag)

/-- Length as written: `"{:0>5d}".format(v).encode("utf-8")` (nitf_tre.py:79). -/
def lenBytes (n : Nat) : Bytes := utf8Enc (padLeft '0' 5 (decStr n))

/-- `Tre.write_to_file` (nitf_tre.py:73-80), `TreUnknown.write_to_file` (125-131). -/
def treWrite (t : Tre P.F) : Except Err Bytes :=
  match t.body P with
  | .error e => .error e
  | .ok b =>
    if b.length > 99999 then .error .runtime
    else .ok (tagBytes t.tag ++ (lenBytes b.length ++ b))

/-- `Tre.read_from_file` of the class for `tag` (nitf_tre.py:58-72), without delayed read.  The
result is the object and the bytes left. -/
def readKnown (tag : Str) (d : Desc) (b : Bytes) : Except Err (Tre P.F × Bytes) :=
  match utf8Dec (rstripB (b.take 6)) with
  | .error e => .error e
  | .ok tag' =>
    if tag' ≠ tag then .error .runtime
    else match pyIntB ((b.drop 6).take 5) with
      | .error e => .error e
      | .ok cel =>
        let body := b.drop 11
        match readStruct P d false body with
        | .error e => .error e
        | .ok (R, rest) =>
          if ((body.length - rest.length : Nat) : Int) ≠ cel then .error .runtime
          else .ok (.known tag d R, rest)

/-- `TreUnknown.read_from_file` (nitf_tre.py:121-124).  `fh.read` of a negative size reads all,
and of a too large size whatever is left. -/
def readUnknown (b : Bytes) : Except Err (Tre P.F × Bytes) :=
  match utf8Dec (rstripB (b.take 6)) with
  | .error e => .error e
  | .ok tag =>
    match pyIntB ((b.drop 6).take 5) with
    | .error e => .error e
    | .ok cel =>
      let body := b.drop 11
      if cel < 0 then .ok (.unknown tag body, [])
      else .ok (.unknown tag (body.take cel.toNat), body.drop cel.toNat)

/-- `TreTagToCls.tre_to_cls`: registered tags and descriptions, latest registration first
(nitf_tre.py:142-159). -/
abbrev Registry := List (Str × Desc)

/-- `add_cls` (nitf_tre.py:154-158). -/
def Registry.addCls (reg : Registry) (tag : Str) (d : Desc) : Registry := (tag, d) :: reg

/-- `tre_name in self.tre_to_cls` and the class found (nitf_tre.py:149-152); the keys are the
encoded tags. -/
def Registry.lookup (reg : Registry) (name : Bytes) : Option (Str × Desc) :=
  reg.find? fun e => utf8Enc e.1 == name

/-- One iteration of `read_tre_data` (nitf_tre.py:244-257): try the class for the tag; on any
exception warn (decoding the name for the message) and read as `TreUnknown`. -/
def readOne (reg : Registry) (b : Bytes) : Except Err (Tre P.F × Bytes) :=
  let first := match reg.lookup (b.take 6) with
    | some (tag, d) => readKnown P tag d b
    | none => readUnknown P b
  match first with
  | .ok r => .ok r
  | .error _ =>
    match utf8Dec (b.take 6) with
    | .error e => .error e
    | .ok _ => readUnknown P b

/-- The loop of `read_tre_data` (nitf_tre.py:233-258).  Every iteration takes at least 6 bytes,
so the length of the data bounds the number of iterations. -/
def readAreaF (reg : Registry) : Nat → Bytes → Except Err (List (Tre P.F))
  | _, [] => .ok []
  | 0, _ :: _ => .error .recursion
  | f + 1, b@(_ :: _) =>
    if b.length < 6 then .error .runtime
    else match readOne P reg b with
      | .error e => .error e
      | .ok (t, rest) =>
        match readAreaF reg f rest with
        | .error e => .error e
        | .ok ts => .ok (t :: ts)

/-- `read_tre_data(data)`. -/
def readTreData (reg : Registry) (data : Bytes) : Except Err (List (Tre P.F)) :=
  readAreaF P reg data.length data

/-! ### Placement -/

/-- The inner `for fh in head_fh` loop (nitf_tre.py:201-205): add `t` to the first area with
room; `none` if there is none. -/
def placeOne (t : Bytes) : List Bytes → Option (List Bytes)
  | [] => none
  | h :: hs =>
    if h.length + t.length < 99999 - 3 then some ((h ++ t) :: hs)
    else (placeOne t hs).map (h :: ·)

/-- The loop over the TREs (nitf_tre.py:196-207) on their serialisations: contents of the header
areas and of the overflow. -/
def place : List Bytes → List Bytes → Bytes → List Bytes × Bytes
  | [], heads, ov => (heads, ov)
  | t :: ts, heads, ov =>
    match placeOne t heads with
    | some heads' => place ts heads' ov
    | none => place ts heads (ov ++ t)

/-- A TRE area of a header: names of the length, overflow and data fields. -/
structure Area where
  len : Name
  ofl : Name
  data : Name
  deriving DecidableEq, Repr

/-- `setattr` as part of a sequence of statements. -/
def setA (d : Desc) (S : Store P.F) (nm : Name) (v : Val P.F) : Except Err (Store P.F) :=
  match setAttr P d S nm [] v with
  | (S', none) => .ok S'
  | (_, some e) => .error e

/-- `x > 0` for an attribute (`None > 0` is a TypeError). -/
def attrPos (d : Desc) (S : Store P.F) (nm : Name) : Except Err Bool :=
  match getAttr P d S nm [] with
  | .error e => .error e
  | .ok v => (asInt v).map fun z => decide (z > 0)

/-- The loop storing the areas (nitf_tre.py:208-216). -/
def storeAreas (d : Desc) : List Area → List Bytes → Store P.F → Except Err (Store P.F)
  | [], _, S => .ok S
  | _ :: _, [], S => .ok S
  | a :: as, h :: hs, S =>
    match attrPos P d S a.len with
    | .error e => .error e
    | .ok pos =>
      match (if pos then setA P d S a.ofl (.int 0) else .ok S) with
      | .error e => .error e
      | .ok S1 =>
        match (if h.length > 0 then setA P d S1 a.data (.bytes h) else .ok S1) with
        | .error e => .error e
        | .ok S2 => storeAreas d as hs S2

/-- Serialise a list of TREs. -/
def treWriteAll : List (Tre P.F) → Except Err (List Bytes)
  | [] => .ok []
  | t :: ts =>
    match treWrite P t with
    | .error e => .error e
    | .ok b =>
      match treWriteAll ts with
      | .error e => .error e
      | .ok bs => .ok (b :: bs)

/-- `prepare_tre_write` (nitf_tre.py:185-231).  `ndes` is the number of DES segments before the
call.  Result: the header and the data of the TRE_OVERFLOW segment appended to the DES list, if
any.  When an exception is raised the (partly changed) header is not returned. -/
def prepareTreWrite (d : Desc) (areas : List Area) (ndes : Nat) (tres : List (Tre P.F))
    (S : Store P.F) : Except Err (Store P.F × Option Bytes) :=
  match treWriteAll P tres with
  | .error e => .error e
  | .ok ser =>
    let (heads, ov) := place ser (areas.map fun _ => []) []
    match storeAreas P d areas heads S with
    | .error e => .error e
    | .ok S1 =>
      if ov.length > 0 then
        match areas with
        | [] => .error .index
        | a :: _ =>
          match setA P d S1 a.ofl (.int (ndes + 1)) with
          | .error e => .error e
          | .ok S2 => .ok (S2, some ov)
      else .ok (S1, none)

/-- `read_tre` (nitf_tre.py:163-183).  `des` gives, for each DES segment, its `des.data` (or the
exception raised by getting it). -/
def readTre (reg : Registry) (d : Desc) (des : List (Except Err Bytes)) :
    List Area → Store P.F → Except Err (List (Tre P.F))
  | [], _ => .ok []
  | a :: as, S =>
    match attrPos P d S a.len with
    | .error e => .error e
    | .ok false => readTre reg d des as S
    | .ok true =>
      let over : Except Err (List (Tre P.F)) :=
        match getAttr P d S a.ofl [] with
        | .error e => .error e
        | .ok v =>
          match asInt v with
          | .error e => .error e
          | .ok k =>
            if k > 0 then
              match des[(k - 1).toNat]? with
              | none => .error .index
              | some (.error e) => .error e
              | some (.ok data) => readTreData P reg data
            else .ok []
      match over with
      | .error e => .error e
      | .ok t1 =>
        match getAttr P d S a.data [] with
        | .error e => .error e
        | .ok (.bytes data) =>
          match readTreData P reg data with
          | .error e => .error e
          | .ok t2 =>
            match readTre reg d des as S with
            | .error e => .error e
            | .ok t3 => .ok (t1 ++ t2 ++ t3)
        | .ok _ => .error .type

/-- Areas of the file header (nitf_file.py:184-186, 201-203). -/
def fileAreas : List Area :=
  [⟨n!"xhdl", n!"xhdlofl", n!"xhd"⟩, ⟨n!"udhdl", n!"udhofl", n!"udhd"⟩]

/-- Areas of an image segment (nitf_segment.py:249-250). -/
def imageAreas : List Area :=
  [⟨n!"ixshdl", n!"ixofl", n!"ixshd"⟩, ⟨n!"udidl", n!"udofl", n!"udid"⟩]

/-- Areas of a graphic segment (nitf_segment.py:287), as written there. -/
def graphicAreas : List Area := [⟨n!"sxshdl", n!"sxsofl", n!"sxshd"⟩]

/-- Areas of a text segment (nitf_segment.py:310). -/
def textAreas : List Area := [⟨n!"txshdl", n!"txsofl", n!"txshd"⟩]

/-! ### Lookup by tag (nitf_tre.py:260-278) -/

/-- `_find_tre`. -/
def findTre {F} (l : List (Tre F)) (tag : Str) : List (Tre F) := l.filter fun t => t.tag == tag

/-- `_find_one_tre`. -/
def findOneTre {F} (l : List (Tre F)) (tag : Str) : Except Err (Option (Tre F)) :=
  match findTre l tag with
  | [] => .ok none
  | [t] => .ok (some t)
  | _ => .error .runtime

/-- `_find_exactly_one_tre`. -/
def findExactlyOneTre {F} (l : List (Tre F)) (tag : Str) : Except Err (Tre F) :=
  match findOneTre l tag with
  | .error e => .error e
  | .ok none => .error .runtime
  | .ok (some t) => .ok t

end Verif
