import Verif.Tre

/-
Pickling: `FieldStruct.__getstate__` / `__setstate__` (nitf_field.py:898-910), which store the
written bytes as the text of a Python bytes literal, and the same for text data (nitf_text.py:39-43).
-/

namespace Verif

variable (P : PyFloat)

/-! ### Text of a bytes object -/

/-- A hexadecimal digit, lower case. -/
def hexChar (n : Nat) : Char := if n < 10 then Char.ofNat (48 + n) else Char.ofNat (87 + n)

/-- Value of a hexadecimal digit. -/
def hexVal (c : Char) : Option Nat :=
  let n := c.toNat
  if 48 ≤ n ∧ n ≤ 57 then some (n - 48)
  else if 97 ≤ n ∧ n ≤ 102 then some (n - 87)
  else if 65 ≤ n ∧ n ≤ 70 then some (n - 55)
  else none

/-- One byte in the text of a bytes object delimited by `q`. -/
def reprByte (q : Char) (x : UInt8) : Str :=
  let n := x.toNat
  if n = q.toNat ∨ n = 92 then ['\\', Char.ofNat n]
  else if n = 9 then ['\\', 't']
  else if n = 10 then ['\\', 'n']
  else if n = 13 then ['\\', 'r']
  else if n < 32 ∨ 127 ≤ n then ['\\', 'x', hexChar (n / 16), hexChar (n % 16)]
  else [Char.ofNat n]

/-- The quote: double if there are single quotes in the bytes and no double ones. -/
def reprQuote (b : Bytes) : Char := if (39 : UInt8) ∈ b ∧ (34 : UInt8) ∉ b then '"' else '\''

/-- `str(b)` for a bytes object (nitf_field.py:905). -/
def pyRepr (b : Bytes) : Str :=
  'b' :: reprQuote b :: (b.flatMap (reprByte (reprQuote b)) ++ [reprQuote b])

/-- Escapes of one character. -/
def unescape (c : Char) : Option UInt8 :=
  if c = '\\' then some 92
  else if c = '\'' then some 39
  else if c = '"' then some 34
  else if c = 't' then some 9
  else if c = 'n' then some 10
  else if c = 'r' then some 13
  else none

/-- The rest of a bytes literal after the opening quote `q`; nothing may follow the closing one.
Simplification: escapes that `str` never produces (octal, `\a`, line continuation, ...) are refused. -/
def evalBody (q : Char) : Str → Except Err Bytes
  | [] => .error .syntax
  | c :: r =>
    if c = q then (if r = [] then .ok [] else .error .syntax)
    else if c = '\\' then
      match r with
      | [] => .error .syntax
      | e :: r2 =>
        if e = 'x' then
          match r2 with
          | a :: b :: r3 =>
            match hexVal a, hexVal b with
            | some u, some v => (evalBody q r3).map (UInt8.ofNat (16 * u + v) :: ·)
            | _, _ => .error .syntax
          | _ => .error .syntax
        else match unescape e with
          | some x => (evalBody q r2).map (x :: ·)
          | none => .error .syntax
    else if c = '\n' ∨ c = '\r' ∨ 128 ≤ c.toNat then .error .syntax
    else (evalBody q r).map (UInt8.ofNat c.toNat :: ·)

/-- `eval(s)` where `s` is a bytes literal (nitf_field.py:908).  Simplification: other expressions,
which `eval` would run, and triple quotes are refused. -/
def evalBytes : Str → Except Err Bytes
  | 'b' :: q :: r => if q = '\'' ∨ q = '"' then evalBody q r else .error .syntax
  | _ => .error .syntax

/-! ### State of a struct -/

/-- `__getstate__` (nitf_field.py:898-905). -/
def getState (d : Desc) (S : Store P.F) : Except Err Str := (writeStruct P d S).map pyRepr

/-- `__setstate__` (nitf_field.py:907-910) of a class whose `desc` is `cls`; a plain FieldStruct has
none, and `self.__init__()` raises AttributeError. -/
def setState (cls : Option Desc) (s : Str) : Except Err (Store P.F) :=
  match evalBytes s with
  | .error e => .error e
  | .ok b =>
    match cls with
    | none => .error .attr
    | some d => (readStruct P d false b).map (·.1)

/-- `__getstate__` of a TRE: `write_to_file` is that of the TRE, tag and length included. -/
def treGetState (t : Tre P.F) : Except Err Str := (treWrite P t).map pyRepr

/-- The class of a TRE object: a class with tag and description, or `TreUnknown`. -/
inductive TreCls where
  | known (tag : Str) (d : Desc)
  | unknown

def Tre.cls {F} : Tre F → TreCls
  | .known tag d _ => .known tag d
  | .unknown _ _ => .unknown

/-- `__setstate__` of a TRE; `TreUnknown.__init__` needs an argument (nitf_tre.py:113), so
`self.__init__()` raises TypeError. -/
def treSetState (c : TreCls) (s : Str) : Except Err (Tre P.F) :=
  match evalBytes s with
  | .error e => .error e
  | .ok b =>
    match c with
    | .known tag d => (readKnown P tag d b).map (·.1)
    | .unknown => .error .type

/-- `__deepcopy__` of a TRE (nitf_field.py:820-832) with `write_to_file` and `read_from_file` of
nitf_tre.py.  A `TreUnknown` is made with the description as tag, which reading replaces. -/
def treCopy (t : Tre P.F) : Except Err (Tre P.F) :=
  match treWrite P t with
  | .error e => .error e
  | .ok b =>
    match t.cls with
    | .known tag d => (readKnown P tag d b).map (·.1)
    | .unknown => (readUnknown P b).map (·.1)

/-! ### Text data -/

/-- `string` of a NitfTextStr: str or bytes. -/
inductive TextStr where
  | str (s : Str)
  | bytes (b : Bytes)
  deriving DecidableEq

/-- `string_as_str` (nitf_text.py:20-26). -/
def TextStr.asStr : TextStr → Except Err Str
  | .str s => .ok s
  | .bytes b => utf8Dec b

/-- `string_as_bytes` (nitf_text.py:28-34). -/
def TextStr.asBytes : TextStr → Bytes
  | .str s => utf8Enc s
  | .bytes b => b

/-- `copy.deepcopy` and pickling through `__getstate__` and `__setstate__` (nitf_text.py:39-43). -/
def TextStr.copy (t : TextStr) : Except Err TextStr := t.asStr.map .str

end Verif
