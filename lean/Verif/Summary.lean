import Verif.File
import Verif.PrintFile

/-
The `summary` methods of headers, subheaders and TREs, and through them `NitfFile.summary` of a file
(nitf_file.py:110-143).  DES data have `summary` methods too, but only users call them.

`"…" % (…)` evaluates all values first and then formats them.  Every value is an attribute of the record.
-/

namespace Verif
namespace Summary

variable (P : PyFloat)

/-- `%s` and `%d`. -/
inductive Conv where
  | s | d
  deriving DecidableEq, Repr

/-- A format with its values: the text up to the first conversion, and for each conversion the attribute
and the text after it. -/
structure Form where
  head : String
  args : List (Conv × Name × String)

/-- The tuple of values. -/
def values (d : Desc) (S : Store P.F) : List (Conv × Name × String) → Except Err (List (Val P.F))
  | [] => .ok []
  | (_, nm, _) :: r =>
    match getAttr P d S nm [] with
    | .error e => .error e
    | .ok v =>
      match values d S r with
      | .error e => .error e
      | .ok vs => .ok (v :: vs)

/-- One conversion; `%d` takes only numbers. -/
def conv : Conv → Val P.F → Except Err Str
  | .s, v => .ok (pyStr P v)
  | .d, v => (asIntD P v).map intStr

/-- The conversions with the texts after them. -/
def convs : List (Conv × String) → List (Val P.F) → Except Err Str
  | (c, t) :: r, v :: vs =>
    match conv P c v with
    | .error e => .error e
    | .ok x =>
      match convs r vs with
      | .error e => .error e
      | .ok y => .ok (x ++ t.toList ++ y)
  | _, _ => .ok []

/-- `print("…" % (…))`. -/
def line (d : Desc) (S : Store P.F) (f : Form) : Except Err Str :=
  match values P d S f.args with
  | .error e => .error e
  | .ok vs => (convs P (f.args.map fun a => (a.1, a.2.2)) vs).map fun x => f.head.toList ++ x ++ ['\n']

/-- The TREs with a `summary` of one line: STDIDC (nitf_tre_csde.py:41-46), CSEPHA
(nitf_tre_csepha.py:31-35), ENGRDA (nitf_tre_engrda.py:128-132), HISTOA (nitf_tre_histoa.py:60-63),
MATESA (nitf_tre_matesa.py:37-40), PIXMTA (nitf_tre_pixmta.py:44-48), PIXQLA (nitf_tre_pixqla.py:31-35),
SENSRB (nitf_tre_sensrb.py:253-263). -/
def treForms : List (String × Form) :=
  [("STDIDC", ⟨"TRE - STDIDC: ", [(.s, n!"acquisition_date", ", "), (.s, n!"mission", ", "),
      (.s, n!"pass_", ", "), (.d, n!"op_num", "")]⟩),
   ("CSEPHA", ⟨"TRE - CSEPHA: ", [(.s, n!"ephem_flag", " "), (.d, n!"num_ephem", " ephemeris vectors")]⟩),
   ("ENGRDA", ⟨"TRE - ENGRDA ", [(.s, n!"resrc", ": "), (.d, n!"recnt", " Entries:")]⟩),
   ("HISTOA", ⟨"TRE - HISTOA: ", [(.d, n!"nevents", " events")]⟩),
   ("MATESA", ⟨"TRE - MATESA num_groups:", [(.d, n!"num_groups", "")]⟩),
   ("PIXMTA", ⟨"TRE - PIXMTA ", [(.s, n!"numais", " Associated ISs, "), (.d, n!"nummetrics", " Metrics")]⟩),
   ("PIXQLA", ⟨"TRE - PIXQLA ", [(.s, n!"numais", " Associated ISs, "),
      (.d, n!"npixqual", " Quality Conditions")]⟩),
   ("SENSRB", ⟨"TRE - SENSRB Flags 1:", [(.s, n!"general_data", " 2:"), (.s, n!"sensor_array_data", " 3:"),
      (.s, n!"sensor_calibration_data", " 4:"), (.s, n!"image_formation_data", " ... 7:"),
      (.s, n!"attitude_euler_angles", " 8:"), (.s, n!"attitude_unit_vectors", " 9:"),
      (.s, n!"attitude_quaternion", " 10:"), (.s, n!"sensor_velocity_data", " 11:"),
      (.d, n!"point_set_data", " 12:"), (.d, n!"time_stamped_data_sets", " 13:"),
      (.d, n!"pixel_referenced_data_sets", " 14:"), (.d, n!"uncertainty_data", " 15:"),
      (.d, n!"additional_parameter_data", " ")]⟩)]

/-- `Tre.summary` (nitf_tre.py:100-103). -/
def plainTre (tag : Str) : Str := "TRE - ".toList ++ tag ++ ['\n']

/-- The summary of a TRE; the class is given by the tag.  CSEXRB: nitf_tre_csexrb.py:138-144. -/
def tre : Tre P.F → Except Err Str
  | .unknown tag _ => .ok (plainTre tag)
  | .known tag d S =>
    match treForms.find? fun f => f.1.toList == tag with
    | some f => line P d S f.2
    | none =>
      if tag = "CSEXRB".toList then
        match getAttr P d S (n!"number_dt") [] with
        | .error e => .error e
        | .ok .none => .ok "TRE - CSEXRB\n".toList
        | .ok _ => line P d S ⟨"TRE - CSEXRB: ", [(.d, n!"number_dt", " FDTs")]⟩
      else .ok (plainTre tag)

/-- `NitfFileHeader.summary` (nitf_file_header.py:90-95). -/
def header (H : Store P.F) : Except Err Str :=
  match line P Tables.t_file_header H ⟨"", [(.s, n!"fhdr", " "), (.s, n!"fver", " "),
      (.s, n!"ftitle", " MD5: ")]⟩ with
  | .error e => .error e
  | .ok x =>
    (line P Tables.t_file_header H ⟨"", [(.d, n!"numi", " Image Segments, "),
      (.d, n!"nums", " Graphic Segments, "), (.d, n!"numt", " Text Segments, "),
      (.d, n!"numdes", " DESs")]⟩).map (x ++ ·)

/-- `NitfImageSubheader.summary` (nitf_image_subheader.py:103-112); the attribute with the number of bands
is fetched before the other values. -/
def image (S : Store P.F) : Except Err Str :=
  match line P Tables.t_image_subheader S ⟨"", [(.s, n!"im", " "), (.s, n!"iid1", " "), (.s, n!"iid2", "")]⟩ with
  | .error e => .error e
  | .ok x =>
    match getAttr P Tables.t_image_subheader S (n!"nbands") [] with
    | .error e => .error e
    | .ok v =>
      let bands : Name := if pyEq P v (.int 0) then n!"xbands" else n!"nbands"
      match getAttr P Tables.t_image_subheader S bands [] with
      | .error e => .error e
      | .ok _ =>
        (line P Tables.t_image_subheader S ⟨"", [(.d, n!"nrows", " X "), (.d, n!"ncols", ", "),
          (.d, bands, " Band(s), "), (.d, n!"abpp", "/"), (.d, n!"nbpp", " bpp")]⟩).map (x ++ ·)

/-- The summary of a subheader: image above, graphic (nitf_graphic_subheader.py:63-66), text
(nitf_text_subheader.py:60-63), DES (nitf_des_subheader.py:51-54), RES (nitf_res_subheader.py:50-53). -/
def sub : SegKind → Store P.F → Except Err Str
  | .image, S => image P S
  | .graphic, S => line P SegKind.graphic.desc S ⟨"", [(.s, n!"sy", " "), (.s, n!"sid", " "), (.s, n!"sname", "")]⟩
  | .text, S => line P SegKind.text.desc S ⟨"", [(.s, n!"te", " "), (.s, n!"textid", " "), (.s, n!"txtitl", "")]⟩
  | .des, S => line P SegKind.des.desc S ⟨"", [(.s, n!"desid", " ")]⟩
  | .res, S => line P SegKind.res.desc S ⟨"", [(.s, n!"re", " "), (.s, n!"resid", " "), (.s, n!"resver", " ")]⟩

/-- DES data with a `summary`: CSATTA (nitf_des_csatta.py:40-43), CSATTB (nitf_des_csattb.py:44-47), CSEPHB
(nitf_des_csephb.py:43-47), CSCSDB (nitf_des_cscsdb.py:336-339), CSSFAB (nitf_des_cssfab.py:153-156). -/
def desForms : List (Desc × Form) :=
  [(Tables.t_des_csatta, ⟨"CSATTA ", [(.s, n!"att_type", ":  "), (.d, n!"num_att", " points")]⟩),
   (Tables.t_des_csattb, ⟨"CSATTB ", [(.s, n!"att_type", ":  "), (.d, n!"num_att", " points")]⟩),
   (Tables.t_des_csephb, ⟨"CSEPHB ", [(.s, n!"ephem_flag", ":  "), (.d, n!"num_ephem", " points")]⟩),
   (Tables.t_des_cscsdb, ⟨"CSCSDB", []⟩),
   (Tables.t_des_cssfab, ⟨"CSSFAB", []⟩)]

/-- An object with a summary, for `PrintFile`; `str` is not used for summaries. -/
def obj (x : Except Err Str) : PrintFile.Obj :=
  { id := 0, str := .ok [], summary := match x with
      | .ok t => .ok t
      | .error _ => .error (.other 0) }

variable {P}

/-- A segment as `PrintFile` sees it. -/
def seg {D : Type} (k : SegKind) (s : Seg P.F D) : PrintFile.Seg :=
  { id := 0, kind := k, desid := [], sub := obj (sub P k s.sub), user := none,
    tres := s.tres.map fun t => obj (tre P t), data := obj (.ok []), owner := none }

/-- A file as `PrintFile` sees it. -/
def view {D : Type} (f : NFile P.F D) : PrintFile.PFile :=
  { header := obj (header P f.header), tres := f.tres.map fun t => obj (tre P t),
    segs := fun k => (match k with
      | .image => f.image
      | .graphic => f.graphic
      | .text => f.text
      | .des => f.des
      | .res => f.res).map (seg k) }

/-- `NitfFile.summary` (nitf_file.py:110-143). -/
def file {D : Type} (f : NFile P.F D) : PrintFile.Res PrintFile.Text := PrintFile.fileSummary (view f)

end Summary
end Verif
