import Verif.Field

/- Generated by tools/gen_tables.py from the `desc` lists of /repo/pynitf; do not edit. -/

namespace Verif.Tables

open Verif

/-- nitf_des_csatta.py:19-30. -/
def t_des_csatta : Desc :=
  .field { name := some (n!"att_type"), size := .const 12, ty := .str } <|
  .field { name := some (n!"dt_att"), size := .const 14, ty := .str } <|
  .field { name := some (n!"date_att"), size := .const 8, ty := .int } <|
  .field { name := some (n!"t0_att"), size := .const 13, ty := .str } <|
  .field { name := some (n!"num_att"), size := .const 5, ty := .int } <|
  .loop (.ref (n!"num_att") []) (
    .field { name := some (n!"att_q1"), size := .const 8, ty := .flt, frmt := some (.other 0) } <|
    .field { name := some (n!"att_q2"), size := .const 8, ty := .flt, frmt := some (.other 0) } <|
    .field { name := some (n!"att_q3"), size := .const 8, ty := .flt, frmt := some (.other 0) } <|
    .field { name := some (n!"att_q4"), size := .const 8, ty := .flt, frmt := some (.other 0) } <|
    .nil) <|
  .nil

/-- nitf_des_subheader.py:12-37. -/
def t_des_subheader : Desc :=
  .field { name := some (n!"de"), size := .const 2, ty := .str, default := some (.str "DE"), hardcoded := true } <|
  .field { name := some (n!"desid"), size := .const 25, ty := .str } <|
  .field { name := some (n!"dsver"), size := .const 2, ty := .int } <|
  .field { name := some (n!"desclas"), size := .const 1, ty := .str, default := some (.str "U") } <|
  .field { name := some (n!"desclsy"), size := .const 2, ty := .str } <|
  .field { name := some (n!"descode"), size := .const 11, ty := .str } <|
  .field { name := some (n!"desctlh"), size := .const 2, ty := .str } <|
  .field { name := some (n!"desrel"), size := .const 20, ty := .str } <|
  .field { name := some (n!"desdctp"), size := .const 2, ty := .str } <|
  .field { name := some (n!"desdcdt"), size := .const 8, ty := .str } <|
  .field { name := some (n!"desdcxm"), size := .const 4, ty := .str } <|
  .field { name := some (n!"desdg"), size := .const 1, ty := .str } <|
  .field { name := some (n!"desdgdt"), size := .const 8, ty := .str } <|
  .field { name := some (n!"descltx"), size := .const 43, ty := .str } <|
  .field { name := some (n!"descatp"), size := .const 1, ty := .str } <|
  .field { name := some (n!"descaut"), size := .const 40, ty := .str } <|
  .field { name := some (n!"descrsn"), size := .const 1, ty := .str } <|
  .field { name := some (n!"dessrdt"), size := .const 8, ty := .str } <|
  .field { name := some (n!"desctln"), size := .const 15, ty := .str } <|
  .field { name := some (n!"desoflw"), size := .const 6, ty := .str, cond := some (.eq (.ref (n!"desid") []) (.const (.str "TRE_OVERFLOW"))) } <|
  .field { name := some (n!"desitem"), size := .const 3, ty := .int, cond := some (.eq (.ref (n!"desid") []) (.const (.str "TRE_OVERFLOW"))) } <|
  .field { name := some (n!"desshl"), size := .const 4, ty := .int } <|
  .field { name := some (n!"desshf"), size := .expr (.ref (n!"desshl") []), ty := .bytes, kind := .bytesData } <|
  .nil

/-- nitf_file_header.py:13-76. -/
def t_file_header : Desc :=
  .field { name := some (n!"fhdr"), size := .const 4, ty := .str, default := some (.str "NITF"), hardcoded := true } <|
  .field { name := some (n!"fver"), size := .const 5, ty := .str, default := some (.str "02.10"), hardcoded := true } <|
  .field { name := some (n!"clevel"), size := .const 2, ty := .int, default := some (.int 3) } <|
  .field { name := some (n!"stype"), size := .const 4, ty := .str, default := some (.str "BF01"), hardcoded := true } <|
  .field { name := some (n!"ostaid"), size := .const 10, ty := .str } <|
  .field { name := some (n!"fdt"), size := .const 14, ty := .str } <|
  .field { name := some (n!"ftitle"), size := .const 80, ty := .str } <|
  .field { name := some (n!"fsclas"), size := .const 1, ty := .str, default := some (.str "U") } <|
  .field { name := some (n!"fsclsy"), size := .const 2, ty := .str } <|
  .field { name := some (n!"fscode"), size := .const 11, ty := .str } <|
  .field { name := some (n!"fsctlh"), size := .const 2, ty := .str } <|
  .field { name := some (n!"fsrel"), size := .const 20, ty := .str } <|
  .field { name := some (n!"fsdctp"), size := .const 2, ty := .str } <|
  .field { name := some (n!"fsdcdt"), size := .const 8, ty := .str } <|
  .field { name := some (n!"fsdcxm"), size := .const 4, ty := .str } <|
  .field { name := some (n!"fsdg"), size := .const 1, ty := .str } <|
  .field { name := some (n!"fsdgdt"), size := .const 8, ty := .str } <|
  .field { name := some (n!"fscltx"), size := .const 43, ty := .str } <|
  .field { name := some (n!"fscatp"), size := .const 1, ty := .str } <|
  .field { name := some (n!"fscaut"), size := .const 40, ty := .str } <|
  .field { name := some (n!"fscrsn"), size := .const 1, ty := .str } <|
  .field { name := some (n!"fssrdt"), size := .const 8, ty := .str } <|
  .field { name := some (n!"fsctln"), size := .const 15, ty := .str } <|
  .field { name := some (n!"fscop"), size := .const 5, ty := .int } <|
  .field { name := some (n!"fscpys"), size := .const 5, ty := .int } <|
  .field { name := some (n!"encryp"), size := .const 1, ty := .int } <|
  .field { name := some (n!"fbkgc"), size := .const 3, ty := .bytes, default := some (.bytes [0, 0, 0]) } <|
  .field { name := some (n!"oname"), size := .const 24, ty := .str } <|
  .field { name := some (n!"ophone"), size := .const 18, ty := .str } <|
  .field { name := some (n!"fl"), size := .const 12, ty := .int } <|
  .field { name := some (n!"hl"), size := .const 6, ty := .int } <|
  .field { name := some (n!"numi"), size := .const 3, ty := .int } <|
  .loop (.ref (n!"numi") []) (
    .field { name := some (n!"lish"), size := .const 6, ty := .int } <|
    .field { name := some (n!"li"), size := .const 10, ty := .int } <|
    .nil) <|
  .field { name := some (n!"nums"), size := .const 3, ty := .int } <|
  .loop (.ref (n!"nums") []) (
    .field { name := some (n!"lssh"), size := .const 4, ty := .int } <|
    .field { name := some (n!"ls"), size := .const 6, ty := .int } <|
    .nil) <|
  .field { name := some (n!"numx"), size := .const 3, ty := .int } <|
  .field { name := some (n!"numt"), size := .const 3, ty := .int } <|
  .loop (.ref (n!"numt") []) (
    .field { name := some (n!"ltsh"), size := .const 4, ty := .int } <|
    .field { name := some (n!"lt"), size := .const 5, ty := .int } <|
    .nil) <|
  .field { name := some (n!"numdes"), size := .const 3, ty := .int } <|
  .loop (.ref (n!"numdes") []) (
    .field { name := some (n!"ldsh"), size := .const 4, ty := .int } <|
    .field { name := some (n!"ld"), size := .const 9, ty := .int } <|
    .nil) <|
  .field { name := some (n!"numres"), size := .const 3, ty := .int } <|
  .loop (.ref (n!"numres") []) (
    .field { name := some (n!"lresh"), size := .const 4, ty := .int } <|
    .field { name := some (n!"lre"), size := .const 7, ty := .int } <|
    .nil) <|
  .field { name := some (n!"udhdl"), size := .const 5, ty := .int } <|
  .field { name := some (n!"udhofl"), size := .const 3, ty := .int, cond := some (.ne (.ref (n!"udhdl") []) (.const (.int 0))) } <|
  .field { name := some (n!"udhd"), size := .expr (.ref (n!"udhdl") []), ty := .bytes, kind := .bytesData, sizeOffset := 3 } <|
  .field { name := some (n!"xhdl"), size := .const 5, ty := .int } <|
  .field { name := some (n!"xhdlofl"), size := .const 3, ty := .int, cond := some (.ne (.ref (n!"xhdl") []) (.const (.int 0))) } <|
  .field { name := some (n!"xhd"), size := .expr (.ref (n!"xhdl") []), ty := .bytes, kind := .bytesData, sizeOffset := 3 } <|
  .nil

/-- nitf_tre_bandsb.py:22-123. -/
def t_tre_bandsb : Desc :=
  .field { name := some (n!"count"), size := .const 5, ty := .int } <|
  .field { name := some (n!"radiometric_quantity"), size := .const 24, ty := .str } <|
  .field { name := some (n!"radiometric_quantity_unit"), size := .const 1, ty := .str } <|
  .field { name := some (n!"cube_scale_factor"), size := .const 4, ty := .bytes, kind := .fltData, sizeNotUpdated := true } <|
  .field { name := some (n!"cube_additive_factor"), size := .const 4, ty := .bytes, kind := .fltData, sizeNotUpdated := true } <|
  .field { name := some (n!"row_gsd_nrs"), size := .const 7, ty := .str } <|
  .field { name := some (n!"row_gsd_nrs_unit"), size := .const 1, ty := .str } <|
  .field { name := some (n!"col_gsd_ncs"), size := .const 7, ty := .str } <|
  .field { name := some (n!"col_gsd_ncs_unit"), size := .const 1, ty := .str } <|
  .field { name := some (n!"spt_resp_row_nom"), size := .const 7, ty := .str } <|
  .field { name := some (n!"spt_resp_unit_row_nom"), size := .const 1, ty := .str } <|
  .field { name := some (n!"spt_resp_col_nom"), size := .const 7, ty := .str } <|
  .field { name := some (n!"spt_resp_unit_col_nom"), size := .const 1, ty := .str } <|
  .field { name := some (n!"data_fld_1"), size := .const 48, ty := .bytes, kind := .bytesData, sizeNotUpdated := true } <|
  .field { name := some (n!"existence_mask"), size := .const 4, ty := .bytes, kind := .intData false, sizeNotUpdated := true } <|
  .field { name := some (n!"radiometric_adjustment_surface"), size := .const 24, ty := .str, cond := some (.band (.ref (n!"existence_mask") []) (.const (.int 2147483648))) } <|
  .field { name := some (n!"atmospheric_adjustment_altitude"), size := .const 4, ty := .bytes, kind := .fltData, sizeNotUpdated := true, cond := some (.band (.ref (n!"existence_mask") []) (.const (.int 2147483648))) } <|
  .field { name := some (n!"diameter"), size := .const 7, ty := .flt, cond := some (.band (.ref (n!"existence_mask") []) (.const (.int 1073741824))), frmt := some (.other 21) } <|
  .field { name := some (n!"data_fld_2"), size := .const 32, ty := .bytes, kind := .bytesData, sizeNotUpdated := true, cond := some (.band (.ref (n!"existence_mask") []) (.const (.int 536870912))) } <|
  .field { name := some (n!"wave_length_unit"), size := .const 1, ty := .str, cond := some (.band (.ref (n!"existence_mask") []) (.const (.int 33030144))) } <|
  .loop (.ref (n!"count") []) (
    .field { name := some (n!"bandid"), size := .const 50, ty := .str, cond := some (.band (.ref (n!"existence_mask") []) (.const (.int 268435456))) } <|
    .field { name := some (n!"bad_band"), size := .const 1, ty := .int, cond := some (.band (.ref (n!"existence_mask") []) (.const (.int 134217728))) } <|
    .field { name := some (n!"niirs"), size := .const 3, ty := .flt, cond := some (.band (.ref (n!"existence_mask") []) (.const (.int 67108864))) } <|
    .field { name := some (n!"focal_len"), size := .const 5, ty := .int, cond := some (.band (.ref (n!"existence_mask") []) (.const (.int 33554432))) } <|
    .field { name := some (n!"cwave"), size := .const 7, ty := .flt, cond := some (.band (.ref (n!"existence_mask") []) (.const (.int 16777216))) } <|
    .field { name := some (n!"fwhm"), size := .const 7, ty := .flt, cond := some (.band (.ref (n!"existence_mask") []) (.const (.int 8388608))) } <|
    .field { name := some (n!"fwhm_unc"), size := .const 7, ty := .flt, cond := some (.band (.ref (n!"existence_mask") []) (.const (.int 4194304))) } <|
    .field { name := some (n!"nom_wave"), size := .const 7, ty := .flt, cond := some (.band (.ref (n!"existence_mask") []) (.const (.int 2097152))) } <|
    .field { name := some (n!"nom_wave_unc"), size := .const 7, ty := .flt, cond := some (.band (.ref (n!"existence_mask") []) (.const (.int 1048576))) } <|
    .field { name := some (n!"lbound"), size := .const 7, ty := .flt, cond := some (.band (.ref (n!"existence_mask") []) (.const (.int 524288))) } <|
    .field { name := some (n!"ubound"), size := .const 7, ty := .flt, cond := some (.band (.ref (n!"existence_mask") []) (.const (.int 524288))) } <|
    .field { name := some (n!"scale_factor"), size := .const 4, ty := .bytes, kind := .fltData, sizeNotUpdated := true, cond := some (.band (.ref (n!"existence_mask") []) (.const (.int 262144))) } <|
    .field { name := some (n!"additive_factor"), size := .const 4, ty := .bytes, kind := .fltData, sizeNotUpdated := true, cond := some (.band (.ref (n!"existence_mask") []) (.const (.int 262144))) } <|
    .field { name := some (n!"start_time"), size := .const 16, ty := .str, cond := some (.band (.ref (n!"existence_mask") []) (.const (.int 131072))) } <|
    .field { name := some (n!"int_time"), size := .const 6, ty := .int, cond := some (.band (.ref (n!"existence_mask") []) (.const (.int 65536))) } <|
    .field { name := some (n!"caldrk"), size := .const 6, ty := .flt, cond := some (.band (.ref (n!"existence_mask") []) (.const (.int 32768))) } <|
    .field { name := some (n!"calibration_sensitivity"), size := .const 5, ty := .flt, cond := some (.band (.ref (n!"existence_mask") []) (.const (.int 32768))) } <|
    .field { name := some (n!"row_gsd"), size := .const 7, ty := .flt, cond := some (.band (.ref (n!"existence_mask") []) (.const (.int 16384))) } <|
    .field { name := some (n!"row_gsd_unc"), size := .const 7, ty := .flt, cond := some (.band (.ref (n!"existence_mask") []) (.const (.int 8192))) } <|
    .field { name := some (n!"row_gsd_unit"), size := .const 1, ty := .str, cond := some (.band (.ref (n!"existence_mask") []) (.const (.int 16384))) } <|
    .field { name := some (n!"col_gsd"), size := .const 7, ty := .flt, cond := some (.band (.ref (n!"existence_mask") []) (.const (.int 16384))) } <|
    .field { name := some (n!"col_gsd_unc"), size := .const 7, ty := .flt, cond := some (.band (.ref (n!"existence_mask") []) (.const (.int 8192))) } <|
    .field { name := some (n!"col_gsd_unit"), size := .const 1, ty := .str, cond := some (.band (.ref (n!"existence_mask") []) (.const (.int 16384))) } <|
    .field { name := some (n!"bknoise"), size := .const 5, ty := .flt, cond := some (.band (.ref (n!"existence_mask") []) (.const (.int 4096))) } <|
    .field { name := some (n!"scnnoise"), size := .const 5, ty := .flt, cond := some (.band (.ref (n!"existence_mask") []) (.const (.int 4096))) } <|
    .field { name := some (n!"spt_resp_function_row"), size := .const 7, ty := .flt, cond := some (.band (.ref (n!"existence_mask") []) (.const (.int 2048))) } <|
    .field { name := some (n!"spt_resp_unc_row"), size := .const 7, ty := .flt, cond := some (.band (.ref (n!"existence_mask") []) (.const (.int 1024))) } <|
    .field { name := some (n!"spt_resp_unit_row"), size := .const 1, ty := .str, cond := some (.band (.ref (n!"existence_mask") []) (.const (.int 2048))) } <|
    .field { name := some (n!"spt_resp_function_col"), size := .const 7, ty := .flt, cond := some (.band (.ref (n!"existence_mask") []) (.const (.int 2048))) } <|
    .field { name := some (n!"spt_resp_unc_col"), size := .const 7, ty := .flt, cond := some (.band (.ref (n!"existence_mask") []) (.const (.int 1024))) } <|
    .field { name := some (n!"spt_resp_unit_col"), size := .const 1, ty := .str, cond := some (.band (.ref (n!"existence_mask") []) (.const (.int 2048))) } <|
    .field { name := some (n!"data_fld_3"), size := .const 16, ty := .bytes, kind := .bytesData, sizeNotUpdated := true, cond := some (.band (.ref (n!"existence_mask") []) (.const (.int 512))) } <|
    .field { name := some (n!"data_fld_4"), size := .const 24, ty := .bytes, kind := .bytesData, sizeNotUpdated := true, cond := some (.band (.ref (n!"existence_mask") []) (.const (.int 256))) } <|
    .field { name := some (n!"data_fld_5"), size := .const 32, ty := .bytes, kind := .bytesData, sizeNotUpdated := true, cond := some (.band (.ref (n!"existence_mask") []) (.const (.int 128))) } <|
    .field { name := some (n!"data_fld_6"), size := .const 48, ty := .bytes, kind := .bytesData, sizeNotUpdated := true, cond := some (.band (.ref (n!"existence_mask") []) (.const (.int 64))) } <|
    .nil) <|
  .field { name := some (n!"num_aux_b"), size := .const 2, ty := .int, cond := some (.band (.ref (n!"existence_mask") []) (.const (.int 1))) } <|
  .field { name := some (n!"num_aux_c"), size := .const 2, ty := .int, cond := some (.band (.ref (n!"existence_mask") []) (.const (.int 1))) } <|
  .loop (.ite (.band (.ref (n!"existence_mask") []) (.const (.int 1))) (.ref (n!"num_aux_b") []) (.const (.int 0))) (
    .field { name := some (n!"bapf"), size := .const 1, ty := .str, cond := some (.band (.ref (n!"existence_mask") []) (.const (.int 1))) } <|
    .field { name := some (n!"ubap"), size := .const 7, ty := .str, cond := some (.band (.ref (n!"existence_mask") []) (.const (.int 1))) } <|
    .loop (.ite (.band (.ref (n!"existence_mask") []) (.const (.int 1))) (.ref (n!"count") []) (.const (.int 0))) (
      .field { name := some (n!"apn_band"), size := .const 10, ty := .int, cond := some (.eq (.ref (n!"bapf") [0]) (.const (.str "I"))) } <|
      .field { name := some (n!"apr_band"), size := .const 4, ty := .bytes, kind := .fltData, sizeNotUpdated := true, cond := some (.eq (.ref (n!"bapf") [0]) (.const (.str "R"))) } <|
      .field { name := some (n!"apa_band"), size := .const 20, ty := .int, cond := some (.eq (.ref (n!"bapf") [0]) (.const (.str "A"))) } <|
      .nil) <|
    .nil) <|
  .loop (.ref (n!"num_aux_c") []) (
    .field { name := some (n!"capf"), size := .const 1, ty := .str } <|
    .field { name := some (n!"ucap"), size := .const 7, ty := .str } <|
    .field { name := some (n!"apn_cube"), size := .const 10, ty := .int, cond := some (.eq (.ref (n!"capf") [0]) (.const (.str "I"))) } <|
    .field { name := some (n!"apr_cube"), size := .const 4, ty := .bytes, kind := .fltData, sizeNotUpdated := true, cond := some (.eq (.ref (n!"capf") [0]) (.const (.str "R"))) } <|
    .field { name := some (n!"apa_cube"), size := .const 20, ty := .int, cond := some (.eq (.ref (n!"capf") [0]) (.const (.str "A"))) } <|
    .nil) <|
  .nil

/-- nitf_tre_cscrna.py:19-32. -/
def t_tre_cscrna : Desc :=
  .field { name := some (n!"predict_corners"), size := .const 1, ty := .str } <|
  .field { name := some (n!"ulcnr_lat"), size := .const 9, ty := .flt, frmt := some (.other 22) } <|
  .field { name := some (n!"ulcnr_long"), size := .const 10, ty := .flt, frmt := some (.other 23) } <|
  .field { name := some (n!"ulcnr_ht"), size := .const 8, ty := .flt, frmt := some (.other 24) } <|
  .field { name := some (n!"urcnr_lat"), size := .const 9, ty := .flt, frmt := some (.other 22) } <|
  .field { name := some (n!"urcnr_long"), size := .const 10, ty := .flt, frmt := some (.other 23) } <|
  .field { name := some (n!"urcnr_ht"), size := .const 8, ty := .flt, frmt := some (.other 24) } <|
  .field { name := some (n!"lrcnr_lat"), size := .const 9, ty := .flt, frmt := some (.other 22) } <|
  .field { name := some (n!"lrcnr_long"), size := .const 10, ty := .flt, frmt := some (.other 23) } <|
  .field { name := some (n!"lrcnr_ht"), size := .const 8, ty := .flt, frmt := some (.other 24) } <|
  .field { name := some (n!"llcnr_lat"), size := .const 9, ty := .flt, frmt := some (.other 22) } <|
  .field { name := some (n!"llcnr_long"), size := .const 10, ty := .flt, frmt := some (.other 23) } <|
  .field { name := some (n!"llcnr_ht"), size := .const 8, ty := .flt, frmt := some (.other 24) } <|
  .nil

/-- nitf_tre_csdida.py:13-30. -/
def t_tre_csdida : Desc :=
  .field { name := some (n!"day"), size := .const 2, ty := .int } <|
  .field { name := some (n!"month"), size := .const 3, ty := .str } <|
  .field { name := some (n!"year"), size := .const 4, ty := .int } <|
  .field { name := some (n!"platform_code"), size := .const 2, ty := .str } <|
  .field { name := some (n!"vehicle_id"), size := .const 2, ty := .int } <|
  .field { name := some (n!"pass_"), size := .const 2, ty := .int } <|
  .field { name := some (n!"operation"), size := .const 3, ty := .int } <|
  .field { name := some (n!"sensor_id"), size := .const 2, ty := .str } <|
  .field { name := some (n!"product_id"), size := .const 2, ty := .str } <|
  .field { name := some (n!"reserved_1"), size := .const 4, ty := .str, default := some (.str "0000") } <|
  .field { name := some (n!"time"), size := .const 14, ty := .int } <|
  .field { name := some (n!"process_time"), size := .const 14, ty := .int } <|
  .field { name := some (n!"reserved_2"), size := .const 2, ty := .int, default := some (.int 0) } <|
  .field { name := some (n!"reserved_3"), size := .const 2, ty := .int, default := some (.int 1) } <|
  .field { name := some (n!"reserved_4"), size := .const 1, ty := .str, default := some (.str "N") } <|
  .field { name := some (n!"reserved_5"), size := .const 1, ty := .str, default := some (.str "N") } <|
  .field { name := some (n!"software_version_number"), size := .const 10, ty := .str } <|
  .nil

/-- nitf_tre_csexrb.py:32-131, with `allow_extensions` (nitf_tre.py:22) true. -/
def t_tre_csexrb : Desc :=
  .field { name := some (n!"image_uuid"), size := .const 36, ty := .str } <|
  .field { name := some (n!"num_assoc_des"), size := .const 3, ty := .int } <|
  .loop (.ref (n!"num_assoc_des") []) (
    .field { name := some (n!"assoc_des_id"), size := .const 36, ty := .str } <|
    .nil) <|
  .field { name := some (n!"platform_id"), size := .const 6, ty := .str } <|
  .field { name := some (n!"payload_id"), size := .const 6, ty := .str } <|
  .field { name := some (n!"sensor_id"), size := .const 6, ty := .str } <|
  .field { name := some (n!"sensor_type"), size := .const 1, ty := .str } <|
  .field { name := some (n!"ground_ref_point_x"), size := .const 12, ty := .flt, frmt := some (.other 12), optional := true } <|
  .field { name := some (n!"ground_ref_point_y"), size := .const 12, ty := .flt, frmt := some (.other 12), optional := true } <|
  .field { name := some (n!"ground_ref_point_z"), size := .const 12, ty := .flt, frmt := some (.other 12), optional := true } <|
  .field { name := some (n!"day_first_line_image"), size := .const 8, ty := .str, cond := some (.isin (.ref (n!"sensor_type") []) [(.str "S"), (.str "P")]) } <|
  .field { name := some (n!"time_first_line_image"), size := .const 15, ty := .flt, cond := some (.isin (.ref (n!"sensor_type") []) [(.str "S"), (.str "P")]), frmt := some (.other 14) } <|
  .field { name := some (n!"time_image_duration"), size := .const 16, ty := .flt, cond := some (.isin (.ref (n!"sensor_type") []) [(.str "S"), (.str "P")]), frmt := some (.other 30) } <|
  .field { name := some (n!"time_stamp_loc"), size := .const 1, ty := .int, cond := some (.eq (.ref (n!"sensor_type") []) (.const (.str "F"))) } <|
  .field { name := some (n!"reference_frame_num"), size := .const 9, ty := .int, cond := some (.and (.eq (.ref (n!"sensor_type") []) (.const (.str "F"))) (.eq (.ref (n!"time_stamp_loc") []) (.const (.int 0)))) } <|
  .field { name := some (n!"base_timestamp"), size := .const 24, ty := .str, cond := some (.and (.eq (.ref (n!"sensor_type") []) (.const (.str "F"))) (.eq (.ref (n!"time_stamp_loc") []) (.const (.int 0)))) } <|
  .field { name := some (n!"dt_multiplier"), size := .const 8, ty := .bytes, kind := .intData false, cond := some (.and (.eq (.ref (n!"sensor_type") []) (.const (.str "F"))) (.eq (.ref (n!"time_stamp_loc") []) (.const (.int 0)))), sizeNotUpdated := true } <|
  .field { name := some (n!"dt_size"), size := .const 1, ty := .bytes, kind := .intData false, cond := some (.and (.eq (.ref (n!"sensor_type") []) (.const (.str "F"))) (.eq (.ref (n!"time_stamp_loc") []) (.const (.int 0)))), sizeNotUpdated := true } <|
  .field { name := some (n!"number_frames"), size := .const 4, ty := .bytes, kind := .intData false, cond := some (.and (.eq (.ref (n!"sensor_type") []) (.const (.str "F"))) (.eq (.ref (n!"time_stamp_loc") []) (.const (.int 0)))), sizeNotUpdated := true } <|
  .field { name := some (n!"number_dt"), size := .const 4, ty := .bytes, kind := .intData false, cond := some (.and (.eq (.ref (n!"sensor_type") []) (.const (.str "F"))) (.eq (.ref (n!"time_stamp_loc") []) (.const (.int 0)))), sizeNotUpdated := true } <|
  .loop (.ite (.and (.eq (.ref (n!"sensor_type") []) (.const (.str "F"))) (.eq (.ref (n!"time_stamp_loc") []) (.const (.int 0)))) (.ref (n!"number_dt") []) (.const (.int 0))) (
    .field { name := some (n!"dt"), size := .expr (.ref (n!"dt_size") []), ty := .bytes, kind := .intData false, sizeNotUpdated := true } <|
    .nil) <|
  .field { name := some (n!"max_gsd"), size := .const 12, ty := .flt, frmt := some (.other 31), optional := true } <|
  .field { name := some (n!"along_scan_gsd"), size := .const 12, ty := .flt, frmt := some (.other 31), optional := true } <|
  .field { name := some (n!"cross_scan_gsd"), size := .const 12, ty := .flt, frmt := some (.other 31), optional := true } <|
  .field { name := some (n!"geo_scan_gsd"), size := .const 12, ty := .flt, frmt := some (.other 31), optional := true } <|
  .field { name := some (n!"a_s_vert_gsd"), size := .const 12, ty := .flt, frmt := some (.other 31), optional := true } <|
  .field { name := some (n!"c_s_vert_gsd"), size := .const 12, ty := .flt, frmt := some (.other 31), optional := true } <|
  .field { name := some (n!"geo_mean_vert_gsd"), size := .const 12, ty := .flt, frmt := some (.other 31), optional := true } <|
  .field { name := some (n!"geo_beta_angle"), size := .const 5, ty := .flt, frmt := some (.other 32), optional := true } <|
  .field { name := some (n!"dynamic_range"), size := .const 5, ty := .int, optional := true } <|
  .field { name := some (n!"num_lines"), size := .const 7, ty := .int } <|
  .field { name := some (n!"num_samples"), size := .const 5, ty := .int } <|
  .field { name := some (n!"angle_to_north"), size := .const 7, ty := .flt, frmt := some (.other 33), optional := true } <|
  .field { name := some (n!"obliquity_angle"), size := .const 6, ty := .flt, frmt := some (.other 34), optional := true } <|
  .field { name := some (n!"az_of_obliquity"), size := .const 7, ty := .flt, frmt := some (.other 33), optional := true } <|
  .field { name := some (n!"atm_refr_flag"), size := .const 1, ty := .int, default := some (.int 1) } <|
  .field { name := some (n!"vel_aber_flag"), size := .const 1, ty := .int, default := some (.int 1) } <|
  .field { name := some (n!"grd_cover"), size := .const 1, ty := .int, default := some (.int 9) } <|
  .field { name := some (n!"snow_depth_category"), size := .const 1, ty := .int, default := some (.int 9) } <|
  .field { name := some (n!"sun_azimuth"), size := .const 7, ty := .flt, frmt := some (.other 35), optional := true } <|
  .field { name := some (n!"sun_elevation"), size := .const 7, ty := .flt, frmt := some (.other 33), optional := true } <|
  .field { name := some (n!"predicted_niirs"), size := .const 3, ty := .flt, frmt := some (.other 36), optional := true } <|
  .field { name := some (n!"circl_err"), size := .const 5, ty := .flt, frmt := some (.other 25), optional := true } <|
  .field { name := some (n!"linear_err"), size := .const 5, ty := .flt, frmt := some (.other 25), optional := true } <|
  .field { name := some (n!"cloud_cover"), size := .const 3, ty := .int, optional := true } <|
  .field { name := some (n!"rolling_shutter_flag"), size := .const 1, ty := .int, cond := some (.eq (.ref (n!"sensor_type") []) (.const (.str "F"))), optional := true } <|
  .field { name := some (n!"ue_time_flag"), size := .const 1, ty := .int, optional := true } <|
  .field { name := some (n!"reserved_len"), size := .const 5, ty := .int } <|
  .field { name := some (n!"reserved"), size := .expr (.ref (n!"reserved_len") []), ty := .bytes, kind := .bytesData } <|
  .nil

/-- nitf_tre_geosde.py:85-92. -/
def t_tre_geosde_3 : Desc :=
  .field { name := some (n!"prn"), size := .const 80, ty := .str } <|
  .field { name := some (n!"pco"), size := .const 2, ty := .str, default := some (.str "TC") } <|
  .field { name := some (n!"numprj"), size := .const 1, ty := .int } <|
  .loop (.ref (n!"numprj") []) (
    .field { name := some (n!"prj"), size := .const 15, ty := .flt } <|
    .nil) <|
  .field { name := some (n!"xor"), size := .const 15, ty := .int } <|
  .field { name := some (n!"yor"), size := .const 15, ty := .int } <|
  .nil

/-- nitf_tre_ichipb.py:14-53. -/
def t_tre_ichipb : Desc :=
  .field { name := some (n!"xfrm_flag"), size := .const 2, ty := .int, frmt := some (.zd 2) } <|
  .field { name := some (n!"scale_factor"), size := .const 10, ty := .flt, frmt := some (.other 38) } <|
  .field { name := some (n!"anamrph_corr"), size := .const 2, ty := .int, frmt := some (.zd 2) } <|
  .field { name := some (n!"scanblk_num"), size := .const 2, ty := .int, frmt := some (.zd 2) } <|
  .field { name := some (n!"op_row_11"), size := .const 12, ty := .flt, frmt := some (.other 39) } <|
  .field { name := some (n!"op_col_11"), size := .const 12, ty := .flt, frmt := some (.other 39) } <|
  .field { name := some (n!"op_row_12"), size := .const 12, ty := .flt, frmt := some (.other 39) } <|
  .field { name := some (n!"op_col_12"), size := .const 12, ty := .flt, frmt := some (.other 39) } <|
  .field { name := some (n!"op_row_21"), size := .const 12, ty := .flt, frmt := some (.other 39) } <|
  .field { name := some (n!"op_col_21"), size := .const 12, ty := .flt, frmt := some (.other 39) } <|
  .field { name := some (n!"op_row_22"), size := .const 12, ty := .flt, frmt := some (.other 39) } <|
  .field { name := some (n!"op_col_22"), size := .const 12, ty := .flt, frmt := some (.other 39) } <|
  .field { name := some (n!"fi_row_11"), size := .const 12, ty := .flt, frmt := some (.other 39) } <|
  .field { name := some (n!"fi_col_11"), size := .const 12, ty := .flt, frmt := some (.other 39) } <|
  .field { name := some (n!"fi_row_12"), size := .const 12, ty := .flt, frmt := some (.other 39) } <|
  .field { name := some (n!"fi_col_12"), size := .const 12, ty := .flt, frmt := some (.other 39) } <|
  .field { name := some (n!"fi_row_21"), size := .const 12, ty := .flt, frmt := some (.other 39) } <|
  .field { name := some (n!"fi_col_21"), size := .const 12, ty := .flt, frmt := some (.other 39) } <|
  .field { name := some (n!"fi_row_22"), size := .const 12, ty := .flt, frmt := some (.other 39) } <|
  .field { name := some (n!"fi_col_22"), size := .const 12, ty := .flt, frmt := some (.other 39) } <|
  .field { name := some (n!"fi_row"), size := .const 8, ty := .int, frmt := some (.zd 8) } <|
  .field { name := some (n!"fi_col"), size := .const 8, ty := .int, frmt := some (.zd 8) } <|
  .nil

/-- nitf_tre_micida.py:13-22. -/
def t_tre_micida : Desc :=
  .field { name := some (n!"miis_core_id_version"), size := .const 2, ty := .int, frmt := some (.zd 2), default := some (.int 1), hardcoded := true } <|
  .field { name := some (n!"num_camera_ids"), size := .const 3, ty := .int } <|
  .loop (.ref (n!"num_camera_ids") []) (
    .field { name := some (n!"cameras_id"), size := .const 36, ty := .str } <|
    .field { name := some (n!"core_id_length"), size := .const 3, ty := .int } <|
    .field { name := some (n!"camera_core_id"), size := .expr (.ref (n!"core_id_length") [0]), ty := .bytes, kind := .strData } <|
    .nil) <|
  .nil

/-- nitf_tre_mtimsa.py:13-40. -/
def t_tre_mtimsa : Desc :=
  .field { name := some (n!"image_seg_index"), size := .const 3, ty := .int } <|
  .field { name := some (n!"geocoords_static"), size := .const 2, ty := .int } <|
  .field { name := some (n!"layer_id"), size := .const 36, ty := .str } <|
  .field { name := some (n!"camera_set_index"), size := .const 3, ty := .int } <|
  .field { name := some (n!"camera_id"), size := .const 36, ty := .str } <|
  .field { name := some (n!"time_interval_index"), size := .const 6, ty := .int } <|
  .field { name := some (n!"temp_block_index"), size := .const 3, ty := .int } <|
  .field { name := some (n!"nominal_frame_rate"), size := .const 13, ty := .flt } <|
  .field { name := some (n!"reference_frame_num"), size := .const 9, ty := .int } <|
  .field { name := some (n!"base_timestamp"), size := .const 24, ty := .str } <|
  .field { name := some (n!"dt_multiplier"), size := .const 8, ty := .bytes, kind := .intData false, sizeNotUpdated := true } <|
  .field { name := some (n!"dt_size"), size := .const 1, ty := .bytes, kind := .intData false, sizeNotUpdated := true } <|
  .field { name := some (n!"number_frames"), size := .const 4, ty := .bytes, kind := .intData false, sizeNotUpdated := true } <|
  .field { name := some (n!"number_dt"), size := .const 4, ty := .bytes, kind := .intData false, sizeNotUpdated := true } <|
  .loop (.ref (n!"number_dt") []) (
    .field { name := some (n!"dt"), size := .expr (.ref (n!"dt_size") []), ty := .bytes, kind := .intData false, sizeNotUpdated := true } <|
    .nil) <|
  .nil

/-- nitf_tre_rsmdca.py:17-79. -/
def t_tre_rsmdca : Desc :=
  .field { name := some (n!"iid"), size := .const 80, ty := .str, optional := true } <|
  .field { name := some (n!"edition"), size := .const 40, ty := .str } <|
  .field { name := some (n!"tid"), size := .const 40, ty := .str, optional := true } <|
  .field { name := some (n!"npar"), size := .const 2, ty := .int } <|
  .field { name := some (n!"nimge"), size := .const 3, ty := .int } <|
  .field { name := some (n!"npart"), size := .const 5, ty := .int } <|
  .loop (.ref (n!"nimge") []) (
    .field { name := some (n!"iidi"), size := .const 80, ty := .str } <|
    .field { name := some (n!"npari"), size := .const 2, ty := .int } <|
    .nil) <|
  .field { name := some (n!"xuol"), size := .const 21, ty := .flt, frmt := some (.other 55) } <|
  .field { name := some (n!"yuol"), size := .const 21, ty := .flt, frmt := some (.other 55) } <|
  .field { name := some (n!"zuol"), size := .const 21, ty := .flt, frmt := some (.other 55) } <|
  .field { name := some (n!"xuxl"), size := .const 21, ty := .flt, frmt := some (.other 55) } <|
  .field { name := some (n!"xuyl"), size := .const 21, ty := .flt, frmt := some (.other 55) } <|
  .field { name := some (n!"xuzl"), size := .const 21, ty := .flt, frmt := some (.other 55) } <|
  .field { name := some (n!"yuxl"), size := .const 21, ty := .flt, frmt := some (.other 55) } <|
  .field { name := some (n!"yuyl"), size := .const 21, ty := .flt, frmt := some (.other 55) } <|
  .field { name := some (n!"yuzl"), size := .const 21, ty := .flt, frmt := some (.other 55) } <|
  .field { name := some (n!"zuxl"), size := .const 21, ty := .flt, frmt := some (.other 55) } <|
  .field { name := some (n!"zuyl"), size := .const 21, ty := .flt, frmt := some (.other 55) } <|
  .field { name := some (n!"zuzl"), size := .const 21, ty := .flt, frmt := some (.other 55) } <|
  .field { name := some (n!"ir0"), size := .const 2, ty := .int, optional := true } <|
  .field { name := some (n!"irx"), size := .const 2, ty := .int, optional := true } <|
  .field { name := some (n!"iry"), size := .const 2, ty := .int, optional := true } <|
  .field { name := some (n!"irz"), size := .const 2, ty := .int, optional := true } <|
  .field { name := some (n!"irxx"), size := .const 2, ty := .int, optional := true } <|
  .field { name := some (n!"irxy"), size := .const 2, ty := .int, optional := true } <|
  .field { name := some (n!"irxz"), size := .const 2, ty := .int, optional := true } <|
  .field { name := some (n!"iryy"), size := .const 2, ty := .int, optional := true } <|
  .field { name := some (n!"iryz"), size := .const 2, ty := .int, optional := true } <|
  .field { name := some (n!"irzz"), size := .const 2, ty := .int, optional := true } <|
  .field { name := some (n!"ic0"), size := .const 2, ty := .int, optional := true } <|
  .field { name := some (n!"icx"), size := .const 2, ty := .int, optional := true } <|
  .field { name := some (n!"icy"), size := .const 2, ty := .int, optional := true } <|
  .field { name := some (n!"icz"), size := .const 2, ty := .int, optional := true } <|
  .field { name := some (n!"icxx"), size := .const 2, ty := .int, optional := true } <|
  .field { name := some (n!"icxy"), size := .const 2, ty := .int, optional := true } <|
  .field { name := some (n!"icxz"), size := .const 2, ty := .int, optional := true } <|
  .field { name := some (n!"icyy"), size := .const 2, ty := .int, optional := true } <|
  .field { name := some (n!"icyz"), size := .const 2, ty := .int, optional := true } <|
  .field { name := some (n!"iczz"), size := .const 2, ty := .int, optional := true } <|
  .field { name := some (n!"gx0"), size := .const 2, ty := .int, optional := true } <|
  .field { name := some (n!"gy0"), size := .const 2, ty := .int, optional := true } <|
  .field { name := some (n!"gz0"), size := .const 2, ty := .int, optional := true } <|
  .field { name := some (n!"gxr"), size := .const 2, ty := .int, optional := true } <|
  .field { name := some (n!"gyr"), size := .const 2, ty := .int, optional := true } <|
  .field { name := some (n!"gzr"), size := .const 2, ty := .int, optional := true } <|
  .field { name := some (n!"gs"), size := .const 2, ty := .int, optional := true } <|
  .field { name := some (n!"gxx"), size := .const 2, ty := .int, optional := true } <|
  .field { name := some (n!"gxy"), size := .const 2, ty := .int, optional := true } <|
  .field { name := some (n!"gxz"), size := .const 2, ty := .int, optional := true } <|
  .field { name := some (n!"gyx"), size := .const 2, ty := .int, optional := true } <|
  .field { name := some (n!"gyy"), size := .const 2, ty := .int, optional := true } <|
  .field { name := some (n!"gyz"), size := .const 2, ty := .int, optional := true } <|
  .field { name := some (n!"gzx"), size := .const 2, ty := .int, optional := true } <|
  .field { name := some (n!"gzy"), size := .const 2, ty := .int, optional := true } <|
  .field { name := some (n!"gzz"), size := .const 2, ty := .int, optional := true } <|
  .loop (.fdiv (.mul (.add (.ref (n!"npart") []) (.const (.int 1))) (.ref (n!"npart") [])) (.const (.int 2))) (
    .field { name := some (n!"dercov"), size := .const 21, ty := .flt, frmt := some (.other 55) } <|
    .nil) <|
  .nil

/-- nitf_tre_rsmecb.py:17-186. -/
def t_tre_rsmecb : Desc :=
  .field { name := some (n!"iid"), size := .const 80, ty := .str, optional := true } <|
  .field { name := some (n!"edition"), size := .const 40, ty := .str } <|
  .field { name := some (n!"tid"), size := .const 40, ty := .str, optional := true } <|
  .field { name := some (n!"inclic"), size := .const 1, ty := .str } <|
  .field { name := some (n!"incluc"), size := .const 1, ty := .str } <|
  .field { name := some (n!"nparo"), size := .const 2, ty := .int, cond := some (.eq (.ref (n!"inclic") []) (.const (.str "Y"))) } <|
  .field { name := some (n!"ign"), size := .const 2, ty := .int, cond := some (.eq (.ref (n!"inclic") []) (.const (.str "Y"))) } <|
  .field { name := some (n!"cvdate"), size := .const 8, ty := .str, cond := some (.eq (.ref (n!"inclic") []) (.const (.str "Y"))) } <|
  .field { name := some (n!"npar"), size := .const 2, ty := .int, cond := some (.eq (.ref (n!"inclic") []) (.const (.str "Y"))) } <|
  .field { name := some (n!"aptyp"), size := .const 1, ty := .str, cond := some (.eq (.ref (n!"inclic") []) (.const (.str "Y"))) } <|
  .field { name := some (n!"loctyp"), size := .const 1, ty := .str, cond := some (.eq (.ref (n!"inclic") []) (.const (.str "Y"))) } <|
  .field { name := some (n!"nsfx"), size := .const 21, ty := .flt, frmt := some (.other 55), cond := some (.eq (.ref (n!"inclic") []) (.const (.str "Y"))) } <|
  .field { name := some (n!"nsfy"), size := .const 21, ty := .flt, frmt := some (.other 55), cond := some (.eq (.ref (n!"inclic") []) (.const (.str "Y"))) } <|
  .field { name := some (n!"nsfz"), size := .const 21, ty := .flt, frmt := some (.other 55), cond := some (.eq (.ref (n!"inclic") []) (.const (.str "Y"))) } <|
  .field { name := some (n!"noffx"), size := .const 21, ty := .flt, frmt := some (.other 55), cond := some (.eq (.ref (n!"inclic") []) (.const (.str "Y"))) } <|
  .field { name := some (n!"noffy"), size := .const 21, ty := .flt, frmt := some (.other 55), cond := some (.eq (.ref (n!"inclic") []) (.const (.str "Y"))) } <|
  .field { name := some (n!"noffz"), size := .const 21, ty := .flt, frmt := some (.other 55), cond := some (.eq (.ref (n!"inclic") []) (.const (.str "Y"))) } <|
  .field { name := some (n!"xuol"), size := .const 21, ty := .flt, frmt := some (.other 55), cond := some (.and (.eq (.ref (n!"inclic") []) (.const (.str "Y"))) (.eq (.ref (n!"loctyp") []) (.const (.str "R")))) } <|
  .field { name := some (n!"yuol"), size := .const 21, ty := .flt, frmt := some (.other 55), cond := some (.and (.eq (.ref (n!"inclic") []) (.const (.str "Y"))) (.eq (.ref (n!"loctyp") []) (.const (.str "R")))) } <|
  .field { name := some (n!"zuol"), size := .const 21, ty := .flt, frmt := some (.other 55), cond := some (.and (.eq (.ref (n!"inclic") []) (.const (.str "Y"))) (.eq (.ref (n!"loctyp") []) (.const (.str "R")))) } <|
  .field { name := some (n!"xuxl"), size := .const 21, ty := .flt, frmt := some (.other 55), cond := some (.and (.eq (.ref (n!"inclic") []) (.const (.str "Y"))) (.eq (.ref (n!"loctyp") []) (.const (.str "R")))) } <|
  .field { name := some (n!"xuyl"), size := .const 21, ty := .flt, frmt := some (.other 55), cond := some (.and (.eq (.ref (n!"inclic") []) (.const (.str "Y"))) (.eq (.ref (n!"loctyp") []) (.const (.str "R")))) } <|
  .field { name := some (n!"xuzl"), size := .const 21, ty := .flt, frmt := some (.other 55), cond := some (.and (.eq (.ref (n!"inclic") []) (.const (.str "Y"))) (.eq (.ref (n!"loctyp") []) (.const (.str "R")))) } <|
  .field { name := some (n!"yuxl"), size := .const 21, ty := .flt, frmt := some (.other 55), cond := some (.and (.eq (.ref (n!"inclic") []) (.const (.str "Y"))) (.eq (.ref (n!"loctyp") []) (.const (.str "R")))) } <|
  .field { name := some (n!"yuyl"), size := .const 21, ty := .flt, frmt := some (.other 55), cond := some (.and (.eq (.ref (n!"inclic") []) (.const (.str "Y"))) (.eq (.ref (n!"loctyp") []) (.const (.str "R")))) } <|
  .field { name := some (n!"yuzl"), size := .const 21, ty := .flt, frmt := some (.other 55), cond := some (.and (.eq (.ref (n!"inclic") []) (.const (.str "Y"))) (.eq (.ref (n!"loctyp") []) (.const (.str "R")))) } <|
  .field { name := some (n!"zuxl"), size := .const 21, ty := .flt, frmt := some (.other 55), cond := some (.and (.eq (.ref (n!"inclic") []) (.const (.str "Y"))) (.eq (.ref (n!"loctyp") []) (.const (.str "R")))) } <|
  .field { name := some (n!"zuyl"), size := .const 21, ty := .flt, frmt := some (.other 55), cond := some (.and (.eq (.ref (n!"inclic") []) (.const (.str "Y"))) (.eq (.ref (n!"loctyp") []) (.const (.str "R")))) } <|
  .field { name := some (n!"zuzl"), size := .const 21, ty := .flt, frmt := some (.other 55), cond := some (.and (.eq (.ref (n!"inclic") []) (.const (.str "Y"))) (.eq (.ref (n!"loctyp") []) (.const (.str "R")))) } <|
  .field { name := some (n!"apbase"), size := .const 1, ty := .str, cond := some (.eq (.ref (n!"inclic") []) (.const (.str "Y"))) } <|
  .field { name := some (n!"nisap"), size := .const 2, ty := .int, cond := some (.and (.eq (.ref (n!"inclic") []) (.const (.str "Y"))) (.eq (.ref (n!"aptyp") []) (.const (.str "I")))) } <|
  .field { name := some (n!"nisapr"), size := .const 2, ty := .int, cond := some (.and (.eq (.ref (n!"inclic") []) (.const (.str "Y"))) (.eq (.ref (n!"aptyp") []) (.const (.str "I")))) } <|
  .loop (.ref (n!"nisapr") []) (
    .field { name := some (n!"xpwrr"), size := .const 1, ty := .int } <|
    .field { name := some (n!"ypwrr"), size := .const 1, ty := .int } <|
    .field { name := some (n!"zpwrr"), size := .const 1, ty := .int } <|
    .nil) <|
  .field { name := some (n!"nisapc"), size := .const 2, ty := .int, cond := some (.and (.eq (.ref (n!"inclic") []) (.const (.str "Y"))) (.eq (.ref (n!"aptyp") []) (.const (.str "I")))) } <|
  .loop (.ref (n!"nisapc") []) (
    .field { name := some (n!"xpwrc"), size := .const 1, ty := .int } <|
    .field { name := some (n!"ypwrc"), size := .const 1, ty := .int } <|
    .field { name := some (n!"zpwrc"), size := .const 1, ty := .int } <|
    .nil) <|
  .field { name := some (n!"ngsap"), size := .const 2, ty := .int, cond := some (.and (.eq (.ref (n!"inclic") []) (.const (.str "Y"))) (.eq (.ref (n!"aptyp") []) (.const (.str "G")))) } <|
  .loop (.ref (n!"ngsap") []) (
    .field { name := some (n!"gsapid"), size := .const 4, ty := .str } <|
    .nil) <|
  .field { name := some (n!"nbasis"), size := .const 2, ty := .int, cond := some (.and (.eq (.ref (n!"inclic") []) (.const (.str "Y"))) (.eq (.ref (n!"apbase") []) (.const (.str "Y")))) } <|
  .loop (.ref (n!"npar") []) (
    .loop (.ref (n!"nbasis") []) (
      .field { name := some (n!"ael"), size := .const 21, ty := .flt, frmt := some (.other 55) } <|
      .nil) <|
    .nil) <|
  .loop (.ref (n!"ign") []) (
    .field { name := some (n!"numopg"), size := .const 2, ty := .int } <|
    .loop (.fdiv (.mul (.add (.ref (n!"numopg") [0]) (.const (.int 1))) (.ref (n!"numopg") [0])) (.const (.int 2))) (
      .field { name := some (n!"errcvg"), size := .const 21, ty := .flt, frmt := some (.other 55) } <|
      .nil) <|
    .field { name := some (n!"tcdf"), size := .const 1, ty := .int } <|
    .field { name := some (n!"acsmc"), size := .const 1, ty := .str } <|
    .field { name := some (n!"ncseg"), size := .const 1, ty := .int, cond := some (.eq (.ref (n!"acsmc") [0]) (.const (.str "N"))) } <|
    .loop (.ref (n!"ncseg") [0]) (
      .field { name := some (n!"corseg"), size := .const 21, ty := .flt, frmt := some (.other 55) } <|
      .field { name := some (n!"tauseg"), size := .const 21, ty := .flt, frmt := some (.other 55) } <|
      .nil) <|
    .field { name := some (n!"ac"), size := .const 21, ty := .flt, frmt := some (.other 55), cond := some (.and (.eq (.ref (n!"inclic") []) (.const (.str "Y"))) (.eq (.ref (n!"acsmc") [0]) (.const (.str "Y")))) } <|
    .field { name := some (n!"alpc"), size := .const 21, ty := .flt, frmt := some (.other 55), cond := some (.and (.eq (.ref (n!"inclic") []) (.const (.str "Y"))) (.eq (.ref (n!"acsmc") [0]) (.const (.str "Y")))) } <|
    .field { name := some (n!"betc"), size := .const 21, ty := .flt, frmt := some (.other 55), cond := some (.and (.eq (.ref (n!"inclic") []) (.const (.str "Y"))) (.eq (.ref (n!"acsmc") [0]) (.const (.str "Y")))) } <|
    .field { name := some (n!"tc"), size := .const 21, ty := .flt, frmt := some (.other 55), cond := some (.and (.eq (.ref (n!"inclic") []) (.const (.str "Y"))) (.eq (.ref (n!"acsmc") [0]) (.const (.str "Y")))) } <|
    .nil) <|
  .loop (.ref (n!"npar") []) (
    .loop (.ref (n!"nparo") []) (
      .field { name := some (n!"map"), size := .const 21, ty := .flt, frmt := some (.other 55) } <|
      .nil) <|
    .nil) <|
  .field { name := some (n!"urr"), size := .const 21, ty := .flt, frmt := some (.other 55), cond := some (.eq (.ref (n!"incluc") []) (.const (.str "Y"))) } <|
  .field { name := some (n!"urc"), size := .const 21, ty := .flt, frmt := some (.other 55), cond := some (.eq (.ref (n!"incluc") []) (.const (.str "Y"))) } <|
  .field { name := some (n!"ucc"), size := .const 21, ty := .flt, frmt := some (.other 55), cond := some (.eq (.ref (n!"incluc") []) (.const (.str "Y"))) } <|
  .field { name := some (n!"uacsmc"), size := .const 1, ty := .str, cond := some (.eq (.ref (n!"incluc") []) (.const (.str "Y"))) } <|
  .field { name := some (n!"uncsr"), size := .const 1, ty := .int, cond := some (.and (.eq (.ref (n!"incluc") []) (.const (.str "Y"))) (.eq (.ref (n!"uacsmc") []) (.const (.str "N")))) } <|
  .loop (.ref (n!"uncsr") []) (
    .field { name := some (n!"ucorsr"), size := .const 21, ty := .flt, frmt := some (.other 55) } <|
    .field { name := some (n!"utausr"), size := .const 21, ty := .flt, frmt := some (.other 55) } <|
    .nil) <|
  .field { name := some (n!"uncsc"), size := .const 1, ty := .int, cond := some (.and (.eq (.ref (n!"incluc") []) (.const (.str "Y"))) (.eq (.ref (n!"uacsmc") []) (.const (.str "N")))) } <|
  .loop (.ref (n!"uncsc") []) (
    .field { name := some (n!"ucorsc"), size := .const 21, ty := .flt, frmt := some (.other 55) } <|
    .field { name := some (n!"utausc"), size := .const 21, ty := .flt, frmt := some (.other 55) } <|
    .nil) <|
  .field { name := some (n!"uacr"), size := .const 21, ty := .flt, frmt := some (.other 55), cond := some (.and (.eq (.ref (n!"incluc") []) (.const (.str "Y"))) (.eq (.ref (n!"uacsmc") []) (.const (.str "Y")))) } <|
  .field { name := some (n!"ualpcr"), size := .const 21, ty := .flt, frmt := some (.other 55), cond := some (.and (.eq (.ref (n!"incluc") []) (.const (.str "Y"))) (.eq (.ref (n!"uacsmc") []) (.const (.str "Y")))) } <|
  .field { name := some (n!"ubetcr"), size := .const 21, ty := .flt, frmt := some (.other 55), cond := some (.and (.eq (.ref (n!"incluc") []) (.const (.str "Y"))) (.eq (.ref (n!"uacsmc") []) (.const (.str "Y")))) } <|
  .field { name := some (n!"utcr"), size := .const 21, ty := .flt, frmt := some (.other 55), cond := some (.and (.eq (.ref (n!"incluc") []) (.const (.str "Y"))) (.eq (.ref (n!"uacsmc") []) (.const (.str "Y")))) } <|
  .field { name := some (n!"uacc"), size := .const 21, ty := .flt, frmt := some (.other 55), cond := some (.and (.eq (.ref (n!"incluc") []) (.const (.str "Y"))) (.eq (.ref (n!"uacsmc") []) (.const (.str "Y")))) } <|
  .field { name := some (n!"ualpcc"), size := .const 21, ty := .flt, frmt := some (.other 55), cond := some (.and (.eq (.ref (n!"incluc") []) (.const (.str "Y"))) (.eq (.ref (n!"uacsmc") []) (.const (.str "Y")))) } <|
  .field { name := some (n!"ubetcc"), size := .const 21, ty := .flt, frmt := some (.other 55), cond := some (.and (.eq (.ref (n!"incluc") []) (.const (.str "Y"))) (.eq (.ref (n!"uacsmc") []) (.const (.str "Y")))) } <|
  .field { name := some (n!"utcc"), size := .const 21, ty := .flt, frmt := some (.other 55), cond := some (.and (.eq (.ref (n!"incluc") []) (.const (.str "Y"))) (.eq (.ref (n!"uacsmc") []) (.const (.str "Y")))) } <|
  .nil

end Verif.Tables
