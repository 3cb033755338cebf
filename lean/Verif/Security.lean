import Verif.Tables

/- Model of `/repo/pynitf/nitf_security.py`. -/

namespace Verif

variable (P : PyFloat)

/-- A `NitfSecurity` object (nitf_security.py:8-27): its 19 attributes, numbered in the order of
`__init__`. -/
abbrev Sec (F : Type) := Nat → Val F

/-- Number of attributes. -/
def secCount : Nat := 19

/-- `NitfSecurity()` (nitf_security.py:8-27). -/
def Sec.init {F} : Sec F := fun i =>
  if i = 0 then .str ['U'] else if i < 16 then .str [] else .int 0

/-- Name `prefix + suffix`, for a suffix of `len` characters. -/
def nameCat (pre suf : Name) (len : Nat) : Name := pre * 256 ^ len + suf

/-- The pairs (field name suffix, attribute) of `get_security` and `set_security`
(nitf_security.py:37-55, 67-85): suffix, its length, attribute. -/
def secFields : List (Name × Nat × Nat) :=
  [(n!"clas", 4, 0), (n!"clsy", 4, 1), (n!"code", 4, 2), (n!"ctlh", 4, 3), (n!"rel", 3, 4),
   (n!"dctp", 4, 5), (n!"dcdt", 4, 6), (n!"dcxm", 4, 7), (n!"dg", 2, 8), (n!"dgdt", 4, 9),
   (n!"cltx", 4, 10), (n!"catp", 4, 11), (n!"caut", 4, 12), (n!"crsn", 4, 13),
   (n!"srdt", 4, 14), (n!"ctln", 4, 15), (n!"cop", 3, 16), (n!"cpys", 4, 17)]

/-- All (field name, attribute) pairs for a prefix, `encryp` last (nitf_security.py:58, 89). -/
def secNames (pre : Name) : List (Name × Nat) :=
  secFields.map (fun f => (nameCat pre f.1 f.2.1, f.2.2)) ++ [(n!"encryp", 18)]

/-- `setattr(res, attribute, v)`. -/
def Sec.put {F} (s : Sec F) (a : Nat) (v : Val F) : Sec F := fun i => if i = a then v else s i

/-- The loop of `get_security`: `hasattr` is false exactly for names that are no fields;
exceptions other than AttributeError propagate. -/
def getSecLoop (d : Desc) (S : Store P.F) : List (Name × Nat) → Sec P.F → Except Err (Sec P.F)
  | [], s => .ok s
  | (nm, a) :: r, s =>
    match resolve d.tab nm with
    | none => getSecLoop d S r s
    | some n =>
      match getItem P d.tab S n [] with
      | .error e => .error e
      | .ok v => getSecLoop d S r (s.put a v)

/-- `NitfSecurity.get_security(elem, prefix)` (nitf_security.py:29-60). -/
def getSecurity (d : Desc) (S : Store P.F) (pre : Name) : Except Err (Sec P.F) :=
  getSecLoop P d S (secNames pre) Sec.init

/-- The loop of `set_security`.  (`hasattr` evaluates the attribute, so an exception other than
AttributeError propagates before the assignment.)  The state is returned also on an exception. -/
def setSecLoop (d : Desc) (s : Sec P.F) : List (Name × Nat) → Store P.F → Store P.F × Option Err
  | [], S => (S, none)
  | (nm, a) :: r, S =>
    match resolve d.tab nm with
    | none => setSecLoop d s r S
    | some n =>
      match getItem P d.tab S n [] with
      | .error e => (S, some e)
      | .ok _ =>
        match setItem P d.tab S n [] (s a) with
        | (S', some e) => (S', some e)
        | (S', none) => setSecLoop d s r S'

/-- `s.set_security(elem, prefix)` (nitf_security.py:62-90). -/
def setSecurity (d : Desc) (s : Sec P.F) (S : Store P.F) (pre : Name) : Store P.F × Option Err :=
  setSecLoop P d s (secNames pre) S

/-- Attributes compared by `__eq__` (nitf_security.py:114-136), as written there. -/
def secCompared : List Nat := [0, 1, 3, 4, 5, 6, 7, 8, 9, 10, 11, 12, 13, 14, 15, 16, 17]

/-- `NitfSecurity.__eq__`. -/
def Sec.eq (s t : Sec P.F) : Bool := secCompared.all fun i => pyEq P (s i) (t i)

/-- The prefixes used by the six headers (nitf_file_header.py:84, nitf_image_subheader.py:97,
nitf_graphic_subheader.py:57, nitf_text_subheader.py:54, nitf_des_subheader.py:45,
nitf_res_subheader.py:44). -/
def secHeaders : List (Desc × Name) :=
  [(Tables.t_file_header, n!"fs"), (Tables.t_image_subheader, n!"is"),
   (Tables.t_graphic_subheader, n!"ss"), (Tables.t_text_subheader, n!"ts"),
   (Tables.t_des_subheader, n!"des"), (Tables.t_res_subheader, n!"re")]

end Verif
