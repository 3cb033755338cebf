import Verif.Tables.T1
import Verif.Tables.T2
import Verif.Tables.T3
import Verif.Tables.T4

/- Generated by tools/gen_tables.py; do not edit. -/

namespace Verif.Tables

open Verif

/-- Format strings and functions behind `Fmt.other i`. -/
def formats : List (Nat × String) := [
  (0, "%08.5lf"),
  (1, "%013.9lf"),
  (2, "%016.9lf"),
  (3, "%+18.15lf"),
  (4, "%+15.14le"),
  (5, "%15.9lf"),
  (6, "%13.9lf"),
  (7, "%11.8lf"),
  (8, "%05.3lf"),
  (9, "%7.6lf"),
  (10, "%09.6lf"),
  (11, "%15.14le"),
  (12, "%+012.2lf"),
  (13, "%011.8lf"),
  (14, "%015.9lf"),
  (15, "%+010.6lf"),
  (16, "%+010.7lf"),
  (17, "%+012.5lf"),
  (18, "%011.5lf"),
  (19, "%+011.7lf"),
  (20, "%+21.14E"),
  (21, "%07.2f"),
  (22, "%+09.5f"),
  (23, "%+010.5f"),
  (24, "%+08.1f"),
  (25, "%05.1lf"),
  (26, "%05.2lf"),
  (27, "%+04.2lf"),
  (28, "%+05.1lf"),
  (29, "%03.1lf"),
  (30, "%+016.9lf"),
  (31, "%012.1lf"),
  (32, "%5.1lf"),
  (33, "%07.3lf"),
  (34, "%06.3lf"),
  (35, "%-7.3lf"),
  (36, "%02.1lf"),
  (37, "%+015.1lf"),
  (38, "%010.5f"),
  (39, "%012.3f"),
  (40, "%016.10lf"),
  (41, "%+010.6f"),
  (42, "%+011.6f"),
  (43, "%+014.7E"),
  (44, "%05.1f"),
  (45, "%+05.1f"),
  (46, "%+06.1f"),
  (47, "%7.5f"),
  (48, "%07.1lf"),
  (49, "%+14.7E"),
  (50, "%+15.8E"),
  (51, "%07.2lf"),
  (52, "%+08.4lf"),
  (53, "%+09.4lf"),
  (54, "nitf_tre_rpc.py:_tre_rpc_coeff_format"),
  (55, "%21.14E"),
  (56, "%014.8f"),
  (57, "%010.3f"),
  (58, "%08lf"),
  (59, "%08.3lf"),
  (60, "%09.5lf"),
  (61, "%08le"),
  (62, "%09.2lf"),
  (63, "%010.8f"),
  (64, "%012.6lf"),
  (65, "%011.2lf"),
  (66, "%012.2lf"),
  (67, "%010.5lf"),
  (68, "%010.7lf"),
  (69, "%010.6lf"),
  (70, "%011.6lf"),
  (71, "%06.1lf"),
  (72, "%08.1lf")]

/-- TRE tags and descriptions: every class with a `tre_tag` and a `desc`
(registered by `tre_tag_to_cls.add_cls` in each file). -/
def tres : List (String × Desc) := [
  ("BANDSB", t_tre_bandsb),
  ("CAMSDA", t_tre_camsda),
  ("CSCRNA", t_tre_cscrna),
  ("STDIDC", t_tre_csde_1),
  ("USE00A", t_tre_csde_2),
  ("CSDIDA", t_tre_csdida),
  ("CSEPHA", t_tre_csepha),
  ("CSEXRB", t_tre_csexrb),
  ("ENGRDA", t_tre_engrda),
  ("MAPLOB", t_tre_geosde_1),
  ("GEOPSB", t_tre_geosde_2),
  ("PRJPSB", t_tre_geosde_3),
  ("HISTOA", t_tre_histoa),
  ("ICHIPB", t_tre_ichipb),
  ("ILLUMB", t_tre_illumb),
  ("MATESA", t_tre_matesa),
  ("MICIDA", t_tre_micida),
  ("MIMCSA", t_tre_mimcsa),
  ("MTIMFA", t_tre_mtimfa),
  ("MTIMSA", t_tre_mtimsa),
  ("PIAIMC", t_tre_piae),
  ("PIXMTA", t_tre_pixmta),
  ("PIXQLA", t_tre_pixqla),
  ("RPC00B", t_tre_rpc),
  ("RPC00A", t_tre_rpc),
  ("RSMAPA", t_tre_rsmapa),
  ("RSMAPB", t_tre_rsmapb),
  ("RSMDCA", t_tre_rsmdca),
  ("RSMECB", t_tre_rsmecb),
  ("RSMGGA", t_tre_rsmgga),
  ("RSMGIA", t_tre_rsmgia),
  ("RSMIDA", t_tre_rsmida),
  ("RSMPCA", t_tre_rsmpca),
  ("RSMPIA", t_tre_rsmpia),
  ("SENSRB", t_tre_sensrb),
  ("TMINTA", t_tre_tminta)]

/-- The other FieldStruct classes: headers, subheaders, user subheaders, DES. -/
def others : List (String × Desc) := [
  ("DesAssociatedUserSubheader", t_des_associated_user_subheader),
  ("DesCSATTA", t_des_csatta),
  ("DesCSATTB", t_des_csattb),
  ("DesCSCSDB", t_des_cscsdb),
  ("DesCSEPHB", t_des_csephb),
  ("DesCSSFAB", t_des_cssfab),
  ("DesExtContentHeader", t_des_ext_def_content),
  ("NitfDesSubheader", t_des_subheader),
  ("NitfFileHeader", t_file_header),
  ("NitfGraphicSubheader", t_graphic_subheader),
  ("NitfImageSubheader", t_image_subheader),
  ("NitfResSubheader", t_res_subheader),
  ("NitfTextSubheader", t_text_subheader)]

/-- Variants depending on a module level flag. -/
def variants : List (String × Desc) := [
  ("CSEXRB", t_tre_csexrb_std)]

/-- Every description shipped with the library. -/
def all : List (String × Desc) := tres ++ others ++ variants

end Verif.Tables
