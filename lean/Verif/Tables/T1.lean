import Verif.Field

/- Generated by tools/gen_tables.py from the `desc` lists of /repo/pynitf; do not edit. -/

namespace Verif.Tables

open Verif

/-- nitf_des_csephb.py:19-35. -/
def t_des_csephb : Desc :=
  .field { name := some (n!"qual_flag_eph"), size := .const 1, ty := .int } <|
  .field { name := some (n!"interp_type_eph"), size := .const 1, ty := .int } <|
  .field { name := some (n!"interp_order_eph"), size := .const 1, ty := .int, cond := some (.eq (.ref (n!"interp_type_eph") []) (.const (.int 2))) } <|
  .field { name := some (n!"ephem_flag"), size := .const 1, ty := .int } <|
  .field { name := some (n!"eci_ecf_ephem"), size := .const 1, ty := .int } <|
  .field { name := some (n!"dt_ephem"), size := .const 13, ty := .flt, frmt := some (.other 1) } <|
  .field { name := some (n!"date_ephem"), size := .const 8, ty := .int } <|
  .field { name := some (n!"t0_ephem"), size := .const 16, ty := .flt, frmt := some (.other 2) } <|
  .field { name := some (n!"num_ephem"), size := .const 5, ty := .int } <|
  .loop (.ref (n!"num_ephem") []) (
    .field { name := some (n!"ephem_x"), size := .const 12, ty := .flt, frmt := some (.other 12) } <|
    .field { name := some (n!"ephem_y"), size := .const 12, ty := .flt, frmt := some (.other 12) } <|
    .field { name := some (n!"ephem_z"), size := .const 12, ty := .flt, frmt := some (.other 12) } <|
    .nil) <|
  .field { name := some (n!"reserved_len"), size := .const 9, ty := .int } <|
  .field { name := some (n!"reserved"), size := .expr (.ref (n!"reserved_len") []), ty := .bytes, kind := .bytesData } <|
  .nil

/-- nitf_des_ext_def_content.py:28-32. -/
def t_des_ext_def_content : Desc :=
  .field { name := some (n!"content_headers_len"), size := .const 4, ty := .int } <|
  .field { name := some (n!"content_headers"), size := .expr (.ref (n!"content_headers_len") []), ty := .bytes, kind := .bytesData } <|
  .nil

/-- nitf_res_subheader.py:12-35. -/
def t_res_subheader : Desc :=
  .field { name := some (n!"re"), size := .const 2, ty := .str, default := some (.str "RE"), hardcoded := true } <|
  .field { name := some (n!"resid"), size := .const 25, ty := .str } <|
  .field { name := some (n!"resver"), size := .const 2, ty := .int } <|
  .field { name := some (n!"reclas"), size := .const 1, ty := .str, default := some (.str "U") } <|
  .field { name := some (n!"reclsy"), size := .const 2, ty := .str } <|
  .field { name := some (n!"recode"), size := .const 11, ty := .str } <|
  .field { name := some (n!"rectlh"), size := .const 2, ty := .str } <|
  .field { name := some (n!"rerel"), size := .const 20, ty := .str } <|
  .field { name := some (n!"redctp"), size := .const 2, ty := .str } <|
  .field { name := some (n!"redcdt"), size := .const 8, ty := .str } <|
  .field { name := some (n!"redcxm"), size := .const 4, ty := .str } <|
  .field { name := some (n!"redg"), size := .const 1, ty := .str } <|
  .field { name := some (n!"redgdt"), size := .const 8, ty := .str } <|
  .field { name := some (n!"recltx"), size := .const 43, ty := .str } <|
  .field { name := some (n!"recatp"), size := .const 1, ty := .str } <|
  .field { name := some (n!"recaut"), size := .const 40, ty := .str } <|
  .field { name := some (n!"recrsn"), size := .const 1, ty := .str } <|
  .field { name := some (n!"resrdt"), size := .const 8, ty := .str } <|
  .field { name := some (n!"rectln"), size := .const 15, ty := .str } <|
  .field { name := some (n!"resshl"), size := .const 4, ty := .int } <|
  .field { name := some (n!"resshf"), size := .expr (.ref (n!"resshl") []), ty := .bytes, kind := .bytesData } <|
  .nil

/-- nitf_tre_camsda.py:12-28. -/
def t_tre_camsda : Desc :=
  .field { name := some (n!"num_camera_sets"), size := .const 3, ty := .int } <|
  .field { name := some (n!"num_camera_sets_in_tre"), size := .const 3, ty := .int } <|
  .field { name := some (n!"first_camera_set_in_tre"), size := .const 3, ty := .int } <|
  .loop (.ref (n!"num_camera_sets_in_tre") []) (
    .field { name := some (n!"num_cameras_in_set"), size := .const 3, ty := .int } <|
    .loop (.ref (n!"num_cameras_in_set") [0]) (
      .field { name := some (n!"camera_id"), size := .const 36, ty := .str } <|
      .field { name := some (n!"camera_desc"), size := .const 80, ty := .str } <|
      .field { name := some (n!"layer_id"), size := .const 36, ty := .str } <|
      .field { name := some (n!"idlvl"), size := .const 3, ty := .int } <|
      .field { name := some (n!"ialvl"), size := .const 3, ty := .int } <|
      .field { name := some (n!"iloc"), size := .const 10, ty := .str, default := some (.str "0000000000") } <|
      .field { name := some (n!"nrows"), size := .const 8, ty := .int } <|
      .field { name := some (n!"ncols"), size := .const 8, ty := .int } <|
      .nil) <|
    .nil) <|
  .nil

/-- nitf_tre_csde.py:61-87. -/
def t_tre_csde_2 : Desc :=
  .field { name := some (n!"angle_to_north"), size := .const 3, ty := .int } <|
  .field { name := some (n!"mean_gsd"), size := .const 5, ty := .flt, frmt := some (.other 25) } <|
  .field { name := none, size := .const 1, ty := .str } <|
  .field { name := some (n!"dynamic_range"), size := .const 5, ty := .int, optional := true } <|
  .field { name := none, size := .const 3, ty := .str } <|
  .field { name := none, size := .const 1, ty := .str } <|
  .field { name := none, size := .const 3, ty := .str } <|
  .field { name := some (n!"obl_ang"), size := .const 5, ty := .flt, frmt := some (.other 26), optional := true } <|
  .field { name := some (n!"roll_ang"), size := .const 6, ty := .flt, frmt := some (.other 27), optional := true } <|
  .field { name := none, size := .const 12, ty := .str } <|
  .field { name := none, size := .const 15, ty := .str } <|
  .field { name := none, size := .const 4, ty := .str } <|
  .field { name := none, size := .const 1, ty := .str } <|
  .field { name := none, size := .const 3, ty := .str } <|
  .field { name := none, size := .const 1, ty := .str } <|
  .field { name := none, size := .const 1, ty := .str } <|
  .field { name := some (n!"n_ref"), size := .const 2, ty := .int } <|
  .field { name := some (n!"rev_num"), size := .const 5, ty := .int } <|
  .field { name := some (n!"n_seg"), size := .const 3, ty := .int } <|
  .field { name := some (n!"max_lp_seg"), size := .const 6, ty := .int, optional := true } <|
  .field { name := none, size := .const 6, ty := .str } <|
  .field { name := none, size := .const 6, ty := .str } <|
  .field { name := some (n!"sun_el"), size := .const 5, ty := .flt, frmt := some (.other 28) } <|
  .field { name := some (n!"sun_az"), size := .const 5, ty := .flt, frmt := some (.other 25) } <|
  .nil

/-- nitf_tre_csepha.py:15-25. -/
def t_tre_csepha : Desc :=
  .field { name := some (n!"ephem_flag"), size := .const 12, ty := .str } <|
  .field { name := some (n!"dt_ephem"), size := .const 5, ty := .flt, frmt := some (.other 29) } <|
  .field { name := some (n!"date_ephem"), size := .const 8, ty := .int } <|
  .field { name := some (n!"t0_ephem"), size := .const 13, ty := .str } <|
  .field { name := some (n!"num_ephem"), size := .const 3, ty := .int } <|
  .loop (.ref (n!"num_ephem") []) (
    .field { name := some (n!"ephem_x"), size := .const 12, ty := .flt, frmt := some (.other 12) } <|
    .field { name := some (n!"ephem_y"), size := .const 12, ty := .flt, frmt := some (.other 12) } <|
    .field { name := some (n!"ephem_z"), size := .const 12, ty := .flt, frmt := some (.other 12) } <|
    .nil) <|
  .nil

/-- nitf_tre_mtimfa.py:12-25. -/
def t_tre_mtimfa : Desc :=
  .field { name := some (n!"layer_id"), size := .const 36, ty := .str } <|
  .field { name := some (n!"camera_set_index"), size := .const 3, ty := .int } <|
  .field { name := some (n!"time_interval_index"), size := .const 6, ty := .int } <|
  .field { name := some (n!"num_cameras_defined"), size := .const 3, ty := .int } <|
  .loop (.ref (n!"num_cameras_defined") []) (
    .field { name := some (n!"camera_id"), size := .const 36, ty := .str } <|
    .field { name := some (n!"num_temp_blocks"), size := .const 3, ty := .int } <|
    .loop (.ref (n!"num_temp_blocks") [0]) (
      .field { name := some (n!"start_timestamp"), size := .const 24, ty := .str } <|
      .field { name := some (n!"end_timestamp"), size := .const 24, ty := .str } <|
      .field { name := some (n!"image_seg_index"), size := .const 3, ty := .int } <|
      .nil) <|
    .nil) <|
  .nil

/-- nitf_tre_rsmapa.py:17-72. -/
def t_tre_rsmapa : Desc :=
  .field { name := some (n!"iid"), size := .const 80, ty := .str, optional := true } <|
  .field { name := some (n!"edition"), size := .const 40, ty := .str } <|
  .field { name := some (n!"tid"), size := .const 40, ty := .str, optional := true } <|
  .field { name := some (n!"npar"), size := .const 2, ty := .int } <|
  .field { name := some (n!"xuol"), size := .const 21, ty := .flt, frmt := some (.other 55) } <|
  .field { name := some (n!"yuol"), size := .const 21, ty := .flt, frmt := some (.other 55) } <|
  .field { name := some (n!"zuol"), size := .const 21, ty := .flt, frmt := some (.other 55) } <|
  .field { name := some (n!"xuxl"), size := .const 21, ty := .flt, frmt := some (.other 55) } <|
  .field { name := some (n!"xuyl"), size := .const 21, ty := .flt, frmt := some (.other 55) } <|
  .field { name := some (n!"xuzl"), size := .const 21, ty := .flt, frmt := some (.other 55) } <|
  .field { name := some (n!"yuxl"), size := .const 21, ty := .flt, frmt := some (.other 55) } <|
  .field { name := some (n!"yuyl"), size := .const 21, ty := .flt, frmt := some (.other 55) } <|
  .field { name := some (n!"yuzl"), size := .const 21, ty := .flt, frmt := some (.other 55) } <|
  .field { name := some (n!"zuxl"), size := .const 21, ty := .flt, frmt := some (.other 55) } <|
  .field { name := some (n!"zuyl"), size := .const 21, ty := .flt, frmt := some (.other 55) } <|
  .field { name := some (n!"zuzl"), size := .const 21, ty := .flt, frmt := some (.other 55) } <|
  .field { name := some (n!"ir0"), size := .const 2, ty := .int, optional := true } <|
  .field { name := some (n!"irx"), size := .const 2, ty := .int, optional := true } <|
  .field { name := some (n!"iry"), size := .const 2, ty := .int, optional := true } <|
  .field { name := some (n!"irz"), size := .const 2, ty := .int, optional := true } <|
  .field { name := some (n!"irxx"), size := .const 2, ty := .int, optional := true } <|
  .field { name := some (n!"irxy"), size := .const 2, ty := .int, optional := true } <|
  .field { name := some (n!"irxz"), size := .const 2, ty := .int, optional := true } <|
  .field { name := some (n!"iryy"), size := .const 2, ty := .int, optional := true } <|
  .field { name := some (n!"iryz"), size := .const 2, ty := .int, optional := true } <|
  .field { name := some (n!"irzz"), size := .const 2, ty := .int, optional := true } <|
  .field { name := some (n!"ic0"), size := .const 2, ty := .int, optional := true } <|
  .field { name := some (n!"icx"), size := .const 2, ty := .int, optional := true } <|
  .field { name := some (n!"icy"), size := .const 2, ty := .int, optional := true } <|
  .field { name := some (n!"icz"), size := .const 2, ty := .int, optional := true } <|
  .field { name := some (n!"icxx"), size := .const 2, ty := .int, optional := true } <|
  .field { name := some (n!"icxy"), size := .const 2, ty := .int, optional := true } <|
  .field { name := some (n!"icxz"), size := .const 2, ty := .int, optional := true } <|
  .field { name := some (n!"icyy"), size := .const 2, ty := .int, optional := true } <|
  .field { name := some (n!"icyz"), size := .const 2, ty := .int, optional := true } <|
  .field { name := some (n!"iczz"), size := .const 2, ty := .int, optional := true } <|
  .field { name := some (n!"gx0"), size := .const 2, ty := .int, optional := true } <|
  .field { name := some (n!"gy0"), size := .const 2, ty := .int, optional := true } <|
  .field { name := some (n!"gz0"), size := .const 2, ty := .int, optional := true } <|
  .field { name := some (n!"gxr"), size := .const 2, ty := .int, optional := true } <|
  .field { name := some (n!"gyr"), size := .const 2, ty := .int, optional := true } <|
  .field { name := some (n!"gzr"), size := .const 2, ty := .int, optional := true } <|
  .field { name := some (n!"gs"), size := .const 2, ty := .int, optional := true } <|
  .field { name := some (n!"gxx"), size := .const 2, ty := .int, optional := true } <|
  .field { name := some (n!"gxy"), size := .const 2, ty := .int, optional := true } <|
  .field { name := some (n!"gxz"), size := .const 2, ty := .int, optional := true } <|
  .field { name := some (n!"gyx"), size := .const 2, ty := .int, optional := true } <|
  .field { name := some (n!"gyy"), size := .const 2, ty := .int, optional := true } <|
  .field { name := some (n!"gyz"), size := .const 2, ty := .int, optional := true } <|
  .field { name := some (n!"gzx"), size := .const 2, ty := .int, optional := true } <|
  .field { name := some (n!"gzy"), size := .const 2, ty := .int, optional := true } <|
  .field { name := some (n!"gzz"), size := .const 2, ty := .int, optional := true } <|
  .loop (.ref (n!"npar") []) (
    .field { name := some (n!"parval"), size := .const 21, ty := .flt, frmt := some (.other 55) } <|
    .nil) <|
  .nil

/-- nitf_tre_rsmpca.py:19-75. -/
def t_tre_rsmpca : Desc :=
  .field { name := some (n!"iid"), size := .const 80, ty := .str, optional := true } <|
  .field { name := some (n!"edition"), size := .const 40, ty := .str } <|
  .field { name := some (n!"rsn"), size := .const 3, ty := .int } <|
  .field { name := some (n!"csn"), size := .const 3, ty := .int } <|
  .field { name := some (n!"rfep"), size := .const 21, ty := .flt, frmt := some (.other 20), optional := true } <|
  .field { name := some (n!"cfep"), size := .const 21, ty := .flt, frmt := some (.other 20), optional := true } <|
  .field { name := some (n!"rnrmo"), size := .const 21, ty := .flt, frmt := some (.other 20) } <|
  .field { name := some (n!"cnrmo"), size := .const 21, ty := .flt, frmt := some (.other 20) } <|
  .field { name := some (n!"xnrmo"), size := .const 21, ty := .flt, frmt := some (.other 20) } <|
  .field { name := some (n!"ynrmo"), size := .const 21, ty := .flt, frmt := some (.other 20) } <|
  .field { name := some (n!"znrmo"), size := .const 21, ty := .flt, frmt := some (.other 20) } <|
  .field { name := some (n!"rnrmsf"), size := .const 21, ty := .flt, frmt := some (.other 20) } <|
  .field { name := some (n!"cnrmsf"), size := .const 21, ty := .flt, frmt := some (.other 20) } <|
  .field { name := some (n!"xnrmsf"), size := .const 21, ty := .flt, frmt := some (.other 20) } <|
  .field { name := some (n!"ynrmsf"), size := .const 21, ty := .flt, frmt := some (.other 20) } <|
  .field { name := some (n!"znrmsf"), size := .const 21, ty := .flt, frmt := some (.other 20) } <|
  .field { name := some (n!"rnpwrx"), size := .const 1, ty := .int } <|
  .field { name := some (n!"rnpwry"), size := .const 1, ty := .int } <|
  .field { name := some (n!"rnpwrz"), size := .const 1, ty := .int } <|
  .field { name := some (n!"rntrms"), size := .const 3, ty := .int } <|
  .loop (.ref (n!"rntrms") []) (
    .field { name := some (n!"rnpcf"), size := .const 21, ty := .flt, frmt := some (.other 20) } <|
    .nil) <|
  .field { name := some (n!"rdpwrx"), size := .const 1, ty := .int } <|
  .field { name := some (n!"rdpwry"), size := .const 1, ty := .int } <|
  .field { name := some (n!"rdpwrz"), size := .const 1, ty := .int } <|
  .field { name := some (n!"rdtrms"), size := .const 3, ty := .int } <|
  .loop (.ref (n!"rdtrms") []) (
    .field { name := some (n!"rdpcf"), size := .const 21, ty := .flt, frmt := some (.other 20) } <|
    .nil) <|
  .field { name := some (n!"cnpwrx"), size := .const 1, ty := .int } <|
  .field { name := some (n!"cnpwry"), size := .const 1, ty := .int } <|
  .field { name := some (n!"cnpwrz"), size := .const 1, ty := .int } <|
  .field { name := some (n!"cntrms"), size := .const 3, ty := .int } <|
  .loop (.ref (n!"cntrms") []) (
    .field { name := some (n!"cnpcf"), size := .const 21, ty := .flt, frmt := some (.other 20) } <|
    .nil) <|
  .field { name := some (n!"cdpwrx"), size := .const 1, ty := .int } <|
  .field { name := some (n!"cdpwry"), size := .const 1, ty := .int } <|
  .field { name := some (n!"cdpwrz"), size := .const 1, ty := .int } <|
  .field { name := some (n!"cdtrms"), size := .const 3, ty := .int } <|
  .loop (.ref (n!"cdtrms") []) (
    .field { name := some (n!"cdpcf"), size := .const 21, ty := .flt, frmt := some (.other 20) } <|
    .nil) <|
  .nil

/-- nitf_tre_rsmpia.py:19-46. -/
def t_tre_rsmpia : Desc :=
  .field { name := some (n!"iid"), size := .const 80, ty := .str, optional := true } <|
  .field { name := some (n!"edition"), size := .const 40, ty := .str } <|
  .field { name := some (n!"r0"), size := .const 21, ty := .flt, frmt := some (.other 20) } <|
  .field { name := some (n!"rx"), size := .const 21, ty := .flt, frmt := some (.other 20) } <|
  .field { name := some (n!"ry"), size := .const 21, ty := .flt, frmt := some (.other 20) } <|
  .field { name := some (n!"rz"), size := .const 21, ty := .flt, frmt := some (.other 20) } <|
  .field { name := some (n!"rxx"), size := .const 21, ty := .flt, frmt := some (.other 20) } <|
  .field { name := some (n!"rxy"), size := .const 21, ty := .flt, frmt := some (.other 20) } <|
  .field { name := some (n!"rxz"), size := .const 21, ty := .flt, frmt := some (.other 20) } <|
  .field { name := some (n!"ryy"), size := .const 21, ty := .flt, frmt := some (.other 20) } <|
  .field { name := some (n!"ryz"), size := .const 21, ty := .flt, frmt := some (.other 20) } <|
  .field { name := some (n!"rzz"), size := .const 21, ty := .flt, frmt := some (.other 20) } <|
  .field { name := some (n!"c0"), size := .const 21, ty := .flt, frmt := some (.other 20) } <|
  .field { name := some (n!"cx"), size := .const 21, ty := .flt, frmt := some (.other 20) } <|
  .field { name := some (n!"cy"), size := .const 21, ty := .flt, frmt := some (.other 20) } <|
  .field { name := some (n!"cz"), size := .const 21, ty := .flt, frmt := some (.other 20) } <|
  .field { name := some (n!"cxx"), size := .const 21, ty := .flt, frmt := some (.other 20) } <|
  .field { name := some (n!"cxy"), size := .const 21, ty := .flt, frmt := some (.other 20) } <|
  .field { name := some (n!"cxz"), size := .const 21, ty := .flt, frmt := some (.other 20) } <|
  .field { name := some (n!"cyy"), size := .const 21, ty := .flt, frmt := some (.other 20) } <|
  .field { name := some (n!"cyz"), size := .const 21, ty := .flt, frmt := some (.other 20) } <|
  .field { name := some (n!"czz"), size := .const 21, ty := .flt, frmt := some (.other 20) } <|
  .field { name := some (n!"rnis"), size := .const 3, ty := .int } <|
  .field { name := some (n!"cnis"), size := .const 3, ty := .int } <|
  .field { name := some (n!"tnis"), size := .const 3, ty := .int } <|
  .field { name := some (n!"rssiz"), size := .const 21, ty := .flt, frmt := some (.other 20) } <|
  .field { name := some (n!"cssiz"), size := .const 21, ty := .flt, frmt := some (.other 20) } <|
  .nil

/-- nitf_tre_sensrb.py:29-247. -/
def t_tre_sensrb : Desc :=
  .field { name := some (n!"general_data"), size := .const 1, ty := .str, default := some (.str "N") } <|
  .field { name := some (n!"sensor"), size := .const 25, ty := .str, cond := some (.eq (.ref (n!"general_data") []) (.const (.str "Y"))) } <|
  .field { name := some (n!"sensor_uri"), size := .const 32, ty := .str, cond := some (.eq (.ref (n!"general_data") []) (.const (.str "Y"))), optional := true, optChar := '-' } <|
  .field { name := some (n!"platform"), size := .const 25, ty := .str, cond := some (.eq (.ref (n!"general_data") []) (.const (.str "Y"))) } <|
  .field { name := some (n!"platform_uri"), size := .const 32, ty := .str, cond := some (.eq (.ref (n!"general_data") []) (.const (.str "Y"))), optional := true, optChar := '-' } <|
  .field { name := some (n!"operation_domain"), size := .const 10, ty := .str, cond := some (.eq (.ref (n!"general_data") []) (.const (.str "Y"))) } <|
  .field { name := some (n!"content_level"), size := .const 1, ty := .int, cond := some (.eq (.ref (n!"general_data") []) (.const (.str "Y"))) } <|
  .field { name := some (n!"geodetic_system"), size := .const 5, ty := .str, cond := some (.eq (.ref (n!"general_data") []) (.const (.str "Y"))) } <|
  .field { name := some (n!"geodetic_type"), size := .const 1, ty := .str, cond := some (.eq (.ref (n!"general_data") []) (.const (.str "Y"))) } <|
  .field { name := some (n!"elevation_datum"), size := .const 3, ty := .str, cond := some (.eq (.ref (n!"general_data") []) (.const (.str "Y"))) } <|
  .field { name := some (n!"length_unit"), size := .const 2, ty := .str, cond := some (.eq (.ref (n!"general_data") []) (.const (.str "Y"))) } <|
  .field { name := some (n!"angular_unit"), size := .const 3, ty := .str, cond := some (.eq (.ref (n!"general_data") []) (.const (.str "Y"))) } <|
  .field { name := some (n!"start_date"), size := .const 8, ty := .int, cond := some (.eq (.ref (n!"general_data") []) (.const (.str "Y"))) } <|
  .field { name := some (n!"start_time"), size := .const 14, ty := .flt, cond := some (.eq (.ref (n!"general_data") []) (.const (.str "Y"))), frmt := some (.other 56) } <|
  .field { name := some (n!"end_date"), size := .const 8, ty := .int, cond := some (.eq (.ref (n!"general_data") []) (.const (.str "Y"))) } <|
  .field { name := some (n!"end_time"), size := .const 14, ty := .flt, cond := some (.eq (.ref (n!"general_data") []) (.const (.str "Y"))), frmt := some (.other 56) } <|
  .field { name := some (n!"generation_count"), size := .const 2, ty := .int, frmt := some (.zd 2), cond := some (.eq (.ref (n!"general_data") []) (.const (.str "Y"))) } <|
  .field { name := some (n!"generation_date"), size := .const 8, ty := .int, cond := some (.eq (.ref (n!"general_data") []) (.const (.str "Y"))), optional := true, optChar := '-' } <|
  .field { name := some (n!"generation_time"), size := .const 10, ty := .flt, cond := some (.eq (.ref (n!"general_data") []) (.const (.str "Y"))), frmt := some (.other 57), optional := true, optChar := '-' } <|
  .field { name := some (n!"sensor_array_data"), size := .const 1, ty := .str, default := some (.str "N") } <|
  .field { name := some (n!"detection"), size := .const 20, ty := .str, cond := some (.eq (.ref (n!"sensor_array_data") []) (.const (.str "Y"))) } <|
  .field { name := some (n!"row_detectors"), size := .const 8, ty := .int, cond := some (.eq (.ref (n!"sensor_array_data") []) (.const (.str "Y"))), frmt := some (.zd 8) } <|
  .field { name := some (n!"column_detectors"), size := .const 8, ty := .int, cond := some (.eq (.ref (n!"sensor_array_data") []) (.const (.str "Y"))), frmt := some (.zd 8) } <|
  .field { name := some (n!"row_metric"), size := .const 8, ty := .flt, cond := some (.eq (.ref (n!"sensor_array_data") []) (.const (.str "Y"))), frmt := some (.other 58), optional := true, optChar := '-' } <|
  .field { name := some (n!"column_metric"), size := .const 8, ty := .flt, cond := some (.eq (.ref (n!"sensor_array_data") []) (.const (.str "Y"))), frmt := some (.other 58), optional := true, optChar := '-' } <|
  .field { name := some (n!"focal_length"), size := .const 8, ty := .flt, cond := some (.eq (.ref (n!"sensor_array_data") []) (.const (.str "Y"))), frmt := some (.other 58), optional := true, optChar := '-' } <|
  .field { name := some (n!"row_fov"), size := .const 8, ty := .flt, cond := some (.eq (.ref (n!"sensor_array_data") []) (.const (.str "Y"))), frmt := some (.other 59), optional := true, optChar := '-' } <|
  .field { name := some (n!"column_fov"), size := .const 8, ty := .flt, cond := some (.eq (.ref (n!"sensor_array_data") []) (.const (.str "Y"))), frmt := some (.other 59), optional := true, optChar := '-' } <|
  .field { name := some (n!"calibrated"), size := .const 1, ty := .str, cond := some (.eq (.ref (n!"sensor_array_data") []) (.const (.str "Y"))) } <|
  .field { name := some (n!"sensor_calibration_data"), size := .const 1, ty := .str, default := some (.str "N") } <|
  .field { name := some (n!"calibration_unit"), size := .const 2, ty := .str, cond := some (.eq (.ref (n!"sensor_calibration_data") []) (.const (.str "Y"))) } <|
  .field { name := some (n!"principal_point_offset_x"), size := .const 9, ty := .flt, cond := some (.eq (.ref (n!"sensor_calibration_data") []) (.const (.str "Y"))), frmt := some (.other 60), optional := true, optChar := '-' } <|
  .field { name := some (n!"principal_point_offset_y"), size := .const 9, ty := .flt, cond := some (.eq (.ref (n!"sensor_calibration_data") []) (.const (.str "Y"))), frmt := some (.other 60), optional := true, optChar := '-' } <|
  .field { name := some (n!"radial_distort_1"), size := .const 12, ty := .flt, cond := some (.eq (.ref (n!"sensor_calibration_data") []) (.const (.str "Y"))), frmt := some (.other 61), optional := true, optChar := '-' } <|
  .field { name := some (n!"radial_distort_2"), size := .const 12, ty := .flt, cond := some (.eq (.ref (n!"sensor_calibration_data") []) (.const (.str "Y"))), frmt := some (.other 61), optional := true, optChar := '-' } <|
  .field { name := some (n!"radial_distort_3"), size := .const 12, ty := .flt, cond := some (.eq (.ref (n!"sensor_calibration_data") []) (.const (.str "Y"))), frmt := some (.other 61), optional := true, optChar := '-' } <|
  .field { name := some (n!"radial_distort_limit"), size := .const 9, ty := .flt, cond := some (.eq (.ref (n!"sensor_calibration_data") []) (.const (.str "Y"))), frmt := some (.other 62), optional := true, optChar := '-' } <|
  .field { name := some (n!"decent_distort_1"), size := .const 12, ty := .flt, cond := some (.eq (.ref (n!"sensor_calibration_data") []) (.const (.str "Y"))), frmt := some (.other 61), optional := true, optChar := '-' } <|
  .field { name := some (n!"decent_distort_2"), size := .const 12, ty := .flt, cond := some (.eq (.ref (n!"sensor_calibration_data") []) (.const (.str "Y"))), frmt := some (.other 61), optional := true, optChar := '-' } <|
  .field { name := some (n!"affinity_distort_1"), size := .const 12, ty := .flt, cond := some (.eq (.ref (n!"sensor_calibration_data") []) (.const (.str "Y"))), frmt := some (.other 61), optional := true, optChar := '-' } <|
  .field { name := some (n!"affinity_distort_2"), size := .const 12, ty := .flt, cond := some (.eq (.ref (n!"sensor_calibration_data") []) (.const (.str "Y"))), frmt := some (.other 61), optional := true, optChar := '-' } <|
  .field { name := some (n!"calibration_date"), size := .const 8, ty := .str, cond := some (.eq (.ref (n!"sensor_calibration_data") []) (.const (.str "Y"))), optional := true, optChar := '-' } <|
  .field { name := some (n!"image_formation_data"), size := .const 1, ty := .str, default := some (.str "N") } <|
  .field { name := some (n!"method"), size := .const 15, ty := .str, cond := some (.eq (.ref (n!"image_formation_data") []) (.const (.str "Y"))) } <|
  .field { name := some (n!"mode"), size := .const 3, ty := .str, cond := some (.eq (.ref (n!"image_formation_data") []) (.const (.str "Y"))) } <|
  .field { name := some (n!"row_count"), size := .const 8, ty := .int, cond := some (.eq (.ref (n!"image_formation_data") []) (.const (.str "Y"))), frmt := some (.zd 8) } <|
  .field { name := some (n!"column_count"), size := .const 8, ty := .int, cond := some (.eq (.ref (n!"image_formation_data") []) (.const (.str "Y"))), frmt := some (.zd 8) } <|
  .field { name := some (n!"row_set"), size := .const 8, ty := .int, cond := some (.eq (.ref (n!"image_formation_data") []) (.const (.str "Y"))), frmt := some (.zd 8) } <|
  .field { name := some (n!"column_set"), size := .const 8, ty := .int, cond := some (.eq (.ref (n!"image_formation_data") []) (.const (.str "Y"))), frmt := some (.zd 8) } <|
  .field { name := some (n!"row_rate"), size := .const 10, ty := .flt, frmt := some (.other 63), cond := some (.eq (.ref (n!"image_formation_data") []) (.const (.str "Y"))) } <|
  .field { name := some (n!"column_rate"), size := .const 10, ty := .flt, frmt := some (.other 63), cond := some (.eq (.ref (n!"image_formation_data") []) (.const (.str "Y"))) } <|
  .field { name := some (n!"first_pixel_row"), size := .const 8, ty := .int, cond := some (.eq (.ref (n!"image_formation_data") []) (.const (.str "Y"))), frmt := some (.zd 8) } <|
  .field { name := some (n!"first_pixel_column"), size := .const 8, ty := .int, cond := some (.eq (.ref (n!"image_formation_data") []) (.const (.str "Y"))), frmt := some (.zd 8) } <|
  .field { name := some (n!"transform_params"), size := .const 1, ty := .int, cond := some (.eq (.ref (n!"image_formation_data") []) (.const (.str "Y"))) } <|
  .field { name := some (n!"transform_param_1"), size := .const 12, ty := .str, cond := some (.and (.eq (.ref (n!"image_formation_data") []) (.const (.str "Y"))) (.ge (.ref (n!"transform_params") []) (.const (.int 1)))) } <|
  .field { name := some (n!"transform_param_2"), size := .const 12, ty := .str, cond := some (.and (.eq (.ref (n!"image_formation_data") []) (.const (.str "Y"))) (.ge (.ref (n!"transform_params") []) (.const (.int 2)))) } <|
  .field { name := some (n!"transform_param_3"), size := .const 12, ty := .str, cond := some (.and (.eq (.ref (n!"image_formation_data") []) (.const (.str "Y"))) (.ge (.ref (n!"transform_params") []) (.const (.int 3)))) } <|
  .field { name := some (n!"transform_param_4"), size := .const 12, ty := .str, cond := some (.and (.eq (.ref (n!"image_formation_data") []) (.const (.str "Y"))) (.ge (.ref (n!"transform_params") []) (.const (.int 4)))) } <|
  .field { name := some (n!"transform_param_5"), size := .const 12, ty := .str, cond := some (.and (.eq (.ref (n!"image_formation_data") []) (.const (.str "Y"))) (.ge (.ref (n!"transform_params") []) (.const (.int 5)))) } <|
  .field { name := some (n!"transform_param_6"), size := .const 12, ty := .str, cond := some (.and (.eq (.ref (n!"image_formation_data") []) (.const (.str "Y"))) (.ge (.ref (n!"transform_params") []) (.const (.int 6)))) } <|
  .field { name := some (n!"transform_param_7"), size := .const 12, ty := .str, cond := some (.and (.eq (.ref (n!"image_formation_data") []) (.const (.str "Y"))) (.ge (.ref (n!"transform_params") []) (.const (.int 7)))) } <|
  .field { name := some (n!"transform_param_8"), size := .const 12, ty := .str, cond := some (.and (.eq (.ref (n!"image_formation_data") []) (.const (.str "Y"))) (.ge (.ref (n!"transform_params") []) (.const (.int 8)))) } <|
  .field { name := some (n!"reference_time"), size := .const 12, ty := .flt, frmt := some (.other 64), optional := true, optChar := '-' } <|
  .field { name := some (n!"reference_row"), size := .const 8, ty := .flt, frmt := some (.other 59), optional := true, optChar := '-' } <|
  .field { name := some (n!"reference_column"), size := .const 8, ty := .flt, frmt := some (.other 59), optional := true, optChar := '-' } <|
  .field { name := some (n!"latitude_or_x"), size := .const 11, ty := .flt, frmt := some (.other 65) } <|
  .field { name := some (n!"longitude_or_y"), size := .const 12, ty := .flt, frmt := some (.other 66) } <|
  .field { name := some (n!"altitude_or_z"), size := .const 11, ty := .flt, frmt := some (.other 65) } <|
  .field { name := some (n!"sensor_x_offset"), size := .const 8, ty := .flt, frmt := some (.other 59) } <|
  .field { name := some (n!"sensor_y_offset"), size := .const 8, ty := .flt, frmt := some (.other 59) } <|
  .field { name := some (n!"sensor_z_offset"), size := .const 8, ty := .flt, frmt := some (.other 59) } <|
  .field { name := some (n!"attitude_euler_angles"), size := .const 1, ty := .str, default := some (.str "N") } <|
  .field { name := some (n!"sensor_angle_model"), size := .const 1, ty := .int, cond := some (.eq (.ref (n!"attitude_euler_angles") []) (.const (.str "Y"))) } <|
  .field { name := some (n!"sensor_angle_1"), size := .const 10, ty := .flt, frmt := some (.other 67), cond := some (.eq (.ref (n!"attitude_euler_angles") []) (.const (.str "Y"))) } <|
  .field { name := some (n!"sensor_angle_2"), size := .const 9, ty := .flt, frmt := some (.other 60), cond := some (.eq (.ref (n!"attitude_euler_angles") []) (.const (.str "Y"))) } <|
  .field { name := some (n!"sensor_angle_3"), size := .const 10, ty := .flt, frmt := some (.other 67), cond := some (.eq (.ref (n!"attitude_euler_angles") []) (.const (.str "Y"))) } <|
  .field { name := some (n!"platform_relative"), size := .const 1, ty := .str, cond := some (.eq (.ref (n!"attitude_euler_angles") []) (.const (.str "Y"))) } <|
  .field { name := some (n!"platform_heading"), size := .const 9, ty := .flt, frmt := some (.other 60), cond := some (.eq (.ref (n!"attitude_euler_angles") []) (.const (.str "Y"))), optional := true, optChar := '-' } <|
  .field { name := some (n!"platform_pitch"), size := .const 9, ty := .flt, frmt := some (.other 60), cond := some (.eq (.ref (n!"attitude_euler_angles") []) (.const (.str "Y"))), optional := true, optChar := '-' } <|
  .field { name := some (n!"platform_roll"), size := .const 10, ty := .flt, frmt := some (.other 67), cond := some (.eq (.ref (n!"attitude_euler_angles") []) (.const (.str "Y"))), optional := true, optChar := '-' } <|
  .field { name := some (n!"attitude_unit_vectors"), size := .const 1, ty := .str, default := some (.str "N") } <|
  .field { name := some (n!"icx_north_or_x"), size := .const 10, ty := .flt, cond := some (.eq (.ref (n!"attitude_unit_vectors") []) (.const (.str "Y"))), frmt := some (.other 68) } <|
  .field { name := some (n!"icx_east_or_y"), size := .const 10, ty := .flt, cond := some (.eq (.ref (n!"attitude_unit_vectors") []) (.const (.str "Y"))), frmt := some (.other 68) } <|
  .field { name := some (n!"icx_down_or_z"), size := .const 10, ty := .flt, cond := some (.eq (.ref (n!"attitude_unit_vectors") []) (.const (.str "Y"))), frmt := some (.other 68) } <|
  .field { name := some (n!"icy_north_or_x"), size := .const 10, ty := .flt, cond := some (.eq (.ref (n!"attitude_unit_vectors") []) (.const (.str "Y"))), frmt := some (.other 68) } <|
  .field { name := some (n!"icy_east_or_y"), size := .const 10, ty := .flt, cond := some (.eq (.ref (n!"attitude_unit_vectors") []) (.const (.str "Y"))), frmt := some (.other 68) } <|
  .field { name := some (n!"icy_down_or_z"), size := .const 10, ty := .flt, cond := some (.eq (.ref (n!"attitude_unit_vectors") []) (.const (.str "Y"))), frmt := some (.other 68) } <|
  .field { name := some (n!"icz_north_or_x"), size := .const 10, ty := .flt, cond := some (.eq (.ref (n!"attitude_unit_vectors") []) (.const (.str "Y"))), frmt := some (.other 68) } <|
  .field { name := some (n!"icz_east_or_y"), size := .const 10, ty := .flt, cond := some (.eq (.ref (n!"attitude_unit_vectors") []) (.const (.str "Y"))), frmt := some (.other 68) } <|
  .field { name := some (n!"icz_down_or_z"), size := .const 10, ty := .flt, cond := some (.eq (.ref (n!"attitude_unit_vectors") []) (.const (.str "Y"))), frmt := some (.other 68) } <|
  .field { name := some (n!"attitude_quaternion"), size := .const 1, ty := .str, default := some (.str "N") } <|
  .field { name := some (n!"attitude_q1"), size := .const 10, ty := .flt, cond := some (.eq (.ref (n!"attitude_quaternion") []) (.const (.str "Y"))), frmt := some (.other 68) } <|
  .field { name := some (n!"attitude_q2"), size := .const 10, ty := .flt, cond := some (.eq (.ref (n!"attitude_quaternion") []) (.const (.str "Y"))), frmt := some (.other 68) } <|
  .field { name := some (n!"attitude_q3"), size := .const 10, ty := .flt, cond := some (.eq (.ref (n!"attitude_quaternion") []) (.const (.str "Y"))), frmt := some (.other 68) } <|
  .field { name := some (n!"attitude_q4"), size := .const 10, ty := .flt, cond := some (.eq (.ref (n!"attitude_quaternion") []) (.const (.str "Y"))), frmt := some (.other 68) } <|
  .field { name := some (n!"sensor_velocity_data"), size := .const 1, ty := .str, default := some (.str "N") } <|
  .field { name := some (n!"velocity_north_or_x"), size := .const 9, ty := .flt, cond := some (.eq (.ref (n!"sensor_velocity_data") []) (.const (.str "Y"))), frmt := some (.other 62) } <|
  .field { name := some (n!"velocity_east_or_y"), size := .const 9, ty := .flt, cond := some (.eq (.ref (n!"sensor_velocity_data") []) (.const (.str "Y"))), frmt := some (.other 62) } <|
  .field { name := some (n!"velocity_down_or_z"), size := .const 9, ty := .flt, cond := some (.eq (.ref (n!"sensor_velocity_data") []) (.const (.str "Y"))), frmt := some (.other 62) } <|
  .field { name := some (n!"point_set_data"), size := .const 2, ty := .int } <|
  .loop (.ref (n!"point_set_data") []) (
    .field { name := some (n!"point_set_type"), size := .const 25, ty := .str } <|
    .field { name := some (n!"point_count"), size := .const 3, ty := .int } <|
    .loop (.ref (n!"point_count") [0]) (
      .field { name := some (n!"p_row"), size := .const 8, ty := .int } <|
      .field { name := some (n!"p_column"), size := .const 8, ty := .int } <|
      .field { name := some (n!"p_latitude"), size := .const 10, ty := .flt, frmt := some (.other 69), optional := true, optChar := '-' } <|
      .field { name := some (n!"p_longitude"), size := .const 11, ty := .flt, frmt := some (.other 70), optional := true, optChar := '-' } <|
      .field { name := some (n!"p_elevation"), size := .const 6, ty := .flt, frmt := some (.other 71), optional := true, optChar := '-' } <|
      .field { name := some (n!"p_range"), size := .const 8, ty := .flt, frmt := some (.other 72), optional := true, optChar := '-' } <|
      .nil) <|
    .nil) <|
  .field { name := some (n!"time_stamped_data_sets"), size := .const 2, ty := .int } <|
  .loop (.ref (n!"time_stamped_data_sets") []) (
    .field { name := some (n!"time_stamp_type"), size := .const 3, ty := .str } <|
    .field { name := some (n!"time_stamp_count"), size := .const 4, ty := .int } <|
    .loop (.ref (n!"time_stamp_count") [0]) (
      .field { name := some (n!"time_stamp_time"), size := .const 12, ty := .flt, frmt := some (.other 64) } <|
      .field { name := some (n!"time_stamp_value_06a"), size := .const 11, ty := .flt, cond := some (.eq (.ref (n!"time_stamp_type") [0]) (.const (.str "06a"))), frmt := some (.other 65) } <|
      .field { name := some (n!"time_stamp_value_06b"), size := .const 12, ty := .flt, cond := some (.eq (.ref (n!"time_stamp_type") [0]) (.const (.str "06b"))), frmt := some (.other 66) } <|
      .field { name := some (n!"time_stamp_value_06c"), size := .const 11, ty := .flt, cond := some (.eq (.ref (n!"time_stamp_type") [0]) (.const (.str "06c"))), frmt := some (.other 65) } <|
      .field { name := some (n!"time_stamp_value_06d"), size := .const 8, ty := .flt, cond := some (.eq (.ref (n!"time_stamp_type") [0]) (.const (.str "06d"))), frmt := some (.other 59) } <|
      .field { name := some (n!"time_stamp_value_06e"), size := .const 8, ty := .flt, cond := some (.eq (.ref (n!"time_stamp_type") [0]) (.const (.str "06e"))), frmt := some (.other 59) } <|
      .field { name := some (n!"time_stamp_value_06f"), size := .const 8, ty := .flt, cond := some (.eq (.ref (n!"time_stamp_type") [0]) (.const (.str "06f"))), frmt := some (.other 59) } <|
      .field { name := some (n!"time_stamp_value_07b"), size := .const 10, ty := .int, cond := some (.eq (.ref (n!"time_stamp_type") [0]) (.const (.str "07b"))) } <|
      .field { name := some (n!"time_stamp_value_07c"), size := .const 9, ty := .int, cond := some (.eq (.ref (n!"time_stamp_type") [0]) (.const (.str "07c"))) } <|
      .field { name := some (n!"time_stamp_value_07d"), size := .const 10, ty := .int, cond := some (.eq (.ref (n!"time_stamp_type") [0]) (.const (.str "07d"))) } <|
      .field { name := some (n!"time_stamp_value_07f"), size := .const 9, ty := .int, cond := some (.eq (.ref (n!"time_stamp_type") [0]) (.const (.str "07f"))) } <|
      .field { name := some (n!"time_stamp_value_07g"), size := .const 9, ty := .int, cond := some (.eq (.ref (n!"time_stamp_type") [0]) (.const (.str "07g"))) } <|
      .field { name := some (n!"time_stamp_value_07h"), size := .const 10, ty := .int, cond := some (.eq (.ref (n!"time_stamp_type") [0]) (.const (.str "07h"))) } <|
      .field { name := some (n!"time_stamp_value_08a"), size := .const 10, ty := .int, cond := some (.eq (.ref (n!"time_stamp_type") [0]) (.const (.str "08a"))) } <|
      .field { name := some (n!"time_stamp_value_08b"), size := .const 10, ty := .int, cond := some (.eq (.ref (n!"time_stamp_type") [0]) (.const (.str "08b"))) } <|
      .field { name := some (n!"time_stamp_value_08c"), size := .const 10, ty := .int, cond := some (.eq (.ref (n!"time_stamp_type") [0]) (.const (.str "08c"))) } <|
      .field { name := some (n!"time_stamp_value_08d"), size := .const 10, ty := .int, cond := some (.eq (.ref (n!"time_stamp_type") [0]) (.const (.str "08d"))) } <|
      .field { name := some (n!"time_stamp_value_08e"), size := .const 10, ty := .int, cond := some (.eq (.ref (n!"time_stamp_type") [0]) (.const (.str "08e"))) } <|
      .field { name := some (n!"time_stamp_value_08f"), size := .const 10, ty := .int, cond := some (.eq (.ref (n!"time_stamp_type") [0]) (.const (.str "08f"))) } <|
      .field { name := some (n!"time_stamp_value_08g"), size := .const 10, ty := .int, cond := some (.eq (.ref (n!"time_stamp_type") [0]) (.const (.str "08g"))) } <|
      .field { name := some (n!"time_stamp_value_08h"), size := .const 10, ty := .int, cond := some (.eq (.ref (n!"time_stamp_type") [0]) (.const (.str "08h"))) } <|
      .field { name := some (n!"time_stamp_value_08i"), size := .const 10, ty := .int, cond := some (.eq (.ref (n!"time_stamp_type") [0]) (.const (.str "08i"))) } <|
      .field { name := some (n!"time_stamp_value_09a"), size := .const 10, ty := .flt, cond := some (.eq (.ref (n!"time_stamp_type") [0]) (.const (.str "09a"))), frmt := some (.other 38) } <|
      .field { name := some (n!"time_stamp_value_09b"), size := .const 10, ty := .flt, cond := some (.eq (.ref (n!"time_stamp_type") [0]) (.const (.str "09b"))), frmt := some (.other 38) } <|
      .field { name := some (n!"time_stamp_value_09c"), size := .const 10, ty := .flt, cond := some (.eq (.ref (n!"time_stamp_type") [0]) (.const (.str "09c"))), frmt := some (.other 38) } <|
      .field { name := some (n!"time_stamp_value_09d"), size := .const 10, ty := .flt, cond := some (.eq (.ref (n!"time_stamp_type") [0]) (.const (.str "09d"))), frmt := some (.other 38) } <|
      .field { name := some (n!"time_stamp_value_10a"), size := .const 9, ty := .int, cond := some (.eq (.ref (n!"time_stamp_type") [0]) (.const (.str "10a"))) } <|
      .field { name := some (n!"time_stamp_value_10b"), size := .const 9, ty := .int, cond := some (.eq (.ref (n!"time_stamp_type") [0]) (.const (.str "10b"))) } <|
      .field { name := some (n!"time_stamp_value_10c"), size := .const 9, ty := .int, cond := some (.eq (.ref (n!"time_stamp_type") [0]) (.const (.str "10c"))) } <|
      .nil) <|
    .nil) <|
  .field { name := some (n!"pixel_referenced_data_sets"), size := .const 2, ty := .int } <|
  .loop (.ref (n!"pixel_referenced_data_sets") []) (
    .field { name := some (n!"pixel_reference_type"), size := .const 3, ty := .str } <|
    .field { name := some (n!"pixel_reference_count"), size := .const 4, ty := .int } <|
    .loop (.ref (n!"pixel_reference_count") [0]) (
      .field { name := some (n!"pixel_reference_row"), size := .const 8, ty := .int } <|
      .field { name := some (n!"pixel_reference_column"), size := .const 8, ty := .int } <|
      .field { name := some (n!"pixel_reference_value"), size := .const 11, ty := .int, cond := some (.eq (.ref (n!"pixel_reference_type") [0]) (.const (.str "06a"))) } <|
      .field { name := some (n!"pixel_reference_value"), size := .const 12, ty := .int, cond := some (.eq (.ref (n!"pixel_reference_type") [0]) (.const (.str "06b"))) } <|
      .field { name := some (n!"pixel_reference_value"), size := .const 11, ty := .int, cond := some (.eq (.ref (n!"pixel_reference_type") [0]) (.const (.str "06c"))) } <|
      .field { name := some (n!"pixel_reference_value"), size := .const 8, ty := .int, cond := some (.eq (.ref (n!"pixel_reference_type") [0]) (.const (.str "06d"))) } <|
      .field { name := some (n!"pixel_reference_value"), size := .const 8, ty := .int, cond := some (.eq (.ref (n!"pixel_reference_type") [0]) (.const (.str "06e"))) } <|
      .field { name := some (n!"pixel_reference_value"), size := .const 8, ty := .int, cond := some (.eq (.ref (n!"pixel_reference_type") [0]) (.const (.str "06f"))) } <|
      .field { name := some (n!"pixel_reference_value"), size := .const 10, ty := .int, cond := some (.eq (.ref (n!"pixel_reference_type") [0]) (.const (.str "07b"))) } <|
      .field { name := some (n!"pixel_reference_value"), size := .const 9, ty := .int, cond := some (.eq (.ref (n!"pixel_reference_type") [0]) (.const (.str "07c"))) } <|
      .field { name := some (n!"pixel_reference_value"), size := .const 10, ty := .int, cond := some (.eq (.ref (n!"pixel_reference_type") [0]) (.const (.str "07d"))) } <|
      .field { name := some (n!"pixel_reference_value"), size := .const 9, ty := .int, cond := some (.eq (.ref (n!"pixel_reference_type") [0]) (.const (.str "07f"))) } <|
      .field { name := some (n!"pixel_reference_value"), size := .const 9, ty := .int, cond := some (.eq (.ref (n!"pixel_reference_type") [0]) (.const (.str "07g"))) } <|
      .field { name := some (n!"pixel_reference_value"), size := .const 10, ty := .int, cond := some (.eq (.ref (n!"pixel_reference_type") [0]) (.const (.str "07h"))) } <|
      .field { name := some (n!"pixel_reference_value"), size := .const 10, ty := .int, cond := some (.eq (.ref (n!"pixel_reference_type") [0]) (.const (.str "08a"))) } <|
      .field { name := some (n!"pixel_reference_value"), size := .const 10, ty := .int, cond := some (.eq (.ref (n!"pixel_reference_type") [0]) (.const (.str "08b"))) } <|
      .field { name := some (n!"pixel_reference_value"), size := .const 10, ty := .int, cond := some (.eq (.ref (n!"pixel_reference_type") [0]) (.const (.str "08c"))) } <|
      .field { name := some (n!"pixel_reference_value"), size := .const 10, ty := .int, cond := some (.eq (.ref (n!"pixel_reference_type") [0]) (.const (.str "08d"))) } <|
      .field { name := some (n!"pixel_reference_value"), size := .const 10, ty := .int, cond := some (.eq (.ref (n!"pixel_reference_type") [0]) (.const (.str "08e"))) } <|
      .field { name := some (n!"pixel_reference_value"), size := .const 10, ty := .int, cond := some (.eq (.ref (n!"pixel_reference_type") [0]) (.const (.str "08f"))) } <|
      .field { name := some (n!"pixel_reference_value"), size := .const 10, ty := .int, cond := some (.eq (.ref (n!"pixel_reference_type") [0]) (.const (.str "08g"))) } <|
      .field { name := some (n!"pixel_reference_value"), size := .const 10, ty := .int, cond := some (.eq (.ref (n!"pixel_reference_type") [0]) (.const (.str "08h"))) } <|
      .field { name := some (n!"pixel_reference_value"), size := .const 10, ty := .int, cond := some (.eq (.ref (n!"pixel_reference_type") [0]) (.const (.str "08i"))) } <|
      .field { name := some (n!"pixel_reference_value"), size := .const 10, ty := .int, cond := some (.eq (.ref (n!"pixel_reference_type") [0]) (.const (.str "09a"))) } <|
      .field { name := some (n!"pixel_reference_value"), size := .const 10, ty := .int, cond := some (.eq (.ref (n!"pixel_reference_type") [0]) (.const (.str "09b"))) } <|
      .field { name := some (n!"pixel_reference_value"), size := .const 10, ty := .int, cond := some (.eq (.ref (n!"pixel_reference_type") [0]) (.const (.str "09c"))) } <|
      .field { name := some (n!"pixel_reference_value"), size := .const 10, ty := .int, cond := some (.eq (.ref (n!"pixel_reference_type") [0]) (.const (.str "09d"))) } <|
      .field { name := some (n!"pixel_reference_value"), size := .const 9, ty := .int, cond := some (.eq (.ref (n!"pixel_reference_type") [0]) (.const (.str "10a"))) } <|
      .field { name := some (n!"pixel_reference_value"), size := .const 9, ty := .int, cond := some (.eq (.ref (n!"pixel_reference_type") [0]) (.const (.str "10b"))) } <|
      .field { name := some (n!"pixel_reference_value"), size := .const 9, ty := .int, cond := some (.eq (.ref (n!"pixel_reference_type") [0]) (.const (.str "10c"))) } <|
      .nil) <|
    .nil) <|
  .field { name := some (n!"uncertainty_data"), size := .const 3, ty := .int } <|
  .loop (.ref (n!"uncertainty_data") []) (
    .field { name := some (n!"uncertainty_first_type"), size := .const 11, ty := .str } <|
    .field { name := some (n!"uncertainty_second_type"), size := .const 11, ty := .str, optional := true, optChar := '-' } <|
    .field { name := some (n!"uncertainty_value"), size := .const 10, ty := .str } <|
    .nil) <|
  .field { name := some (n!"additional_parameter_data"), size := .const 3, ty := .int } <|
  .loop (.ref (n!"additional_parameter_data") []) (
    .field { name := some (n!"parameter_name"), size := .const 25, ty := .str } <|
    .field { name := some (n!"parameter_size"), size := .const 3, ty := .int } <|
    .field { name := some (n!"parameter_count"), size := .const 4, ty := .int } <|
    .loop (.ref (n!"parameter_count") [0]) (
      .field { name := some (n!"parameter_value"), size := .expr (.ref (n!"parameter_size") [0]), ty := .bytes, kind := .bytesData, sizeNotUpdated := true } <|
      .nil) <|
    .nil) <|
  .nil

end Verif.Tables
