import Verif.Field

/- Generated by tools/gen_tables.py from the `desc` lists of /repo/pynitf; do not edit. -/

namespace Verif.Tables

open Verif

/-- nitf_des_csattb.py:19-36. -/
def t_des_csattb : Desc :=
  .field { name := some (n!"qual_flag_att"), size := .const 1, ty := .int } <|
  .field { name := some (n!"interp_type_att"), size := .const 1, ty := .int } <|
  .field { name := some (n!"interp_order_att"), size := .const 1, ty := .int, cond := some (.eq (.ref (n!"interp_type_att") []) (.const (.int 2))) } <|
  .field { name := some (n!"att_type"), size := .const 1, ty := .int } <|
  .field { name := some (n!"eci_ecf_att"), size := .const 1, ty := .int } <|
  .field { name := some (n!"dt_att"), size := .const 13, ty := .flt, frmt := some (.other 1) } <|
  .field { name := some (n!"date_att"), size := .const 8, ty := .int } <|
  .field { name := some (n!"t0_att"), size := .const 16, ty := .flt, frmt := some (.other 2) } <|
  .field { name := some (n!"num_att"), size := .const 5, ty := .int } <|
  .loop (.ref (n!"num_att") []) (
    .field { name := some (n!"q1"), size := .const 18, ty := .flt, frmt := some (.other 3) } <|
    .field { name := some (n!"q2"), size := .const 18, ty := .flt, frmt := some (.other 3) } <|
    .field { name := some (n!"q3"), size := .const 18, ty := .flt, frmt := some (.other 3) } <|
    .field { name := some (n!"q4"), size := .const 18, ty := .flt, frmt := some (.other 3) } <|
    .nil) <|
  .field { name := some (n!"reserved_len"), size := .const 9, ty := .int } <|
  .field { name := some (n!"reserved"), size := .expr (.ref (n!"reserved_len") []), ty := .bytes, kind := .bytesData } <|
  .nil

/-- nitf_des_cssfab.py:19-145. -/
def t_des_cssfab : Desc :=
  .field { name := some (n!"sensor_type"), size := .const 1, ty := .str } <|
  .field { name := some (n!"band_type"), size := .const 1, ty := .str } <|
  .field { name := some (n!"band_wavelength"), size := .const 11, ty := .flt, frmt := some (.other 13) } <|
  .field { name := some (n!"n_bands"), size := .const 5, ty := .int, frmt := some (.zd 5) } <|
  .loop (.ref (n!"n_bands") []) (
    .field { name := some (n!"band_index"), size := .const 5, ty := .int, frmt := some (.zd 5) } <|
    .field { name := some (n!"irepband"), size := .const 2, ty := .str } <|
    .field { name := some (n!"isubcat"), size := .const 6, ty := .str } <|
    .nil) <|
  .field { name := some (n!"num_fl_pts"), size := .const 3, ty := .int, frmt := some (.zd 3) } <|
  .field { name := some (n!"fl_interp"), size := .const 1, ty := .int } <|
  .field { name := some (n!"foc_length_date"), size := .const 8, ty := .str } <|
  .loop (.ref (n!"num_fl_pts") []) (
    .field { name := some (n!"foc_length_time"), size := .const 15, ty := .flt, frmt := some (.other 14) } <|
    .field { name := some (n!"foc_length"), size := .const 11, ty := .flt, frmt := some (.other 13) } <|
    .nil) <|
  .field { name := some (n!"ppoff_x"), size := .const 10, ty := .flt, frmt := some (.other 15) } <|
  .field { name := some (n!"ppoff_y"), size := .const 10, ty := .flt, frmt := some (.other 15) } <|
  .field { name := some (n!"ppoff_z"), size := .const 10, ty := .flt, frmt := some (.other 15) } <|
  .field { name := some (n!"angoff_x"), size := .const 10, ty := .flt, frmt := some (.other 16) } <|
  .field { name := some (n!"angoff_y"), size := .const 10, ty := .flt, frmt := some (.other 16) } <|
  .field { name := some (n!"angoff_z"), size := .const 10, ty := .flt, frmt := some (.other 16) } <|
  .field { name := some (n!"smpl_num_first"), size := .const 12, ty := .flt, frmt := some (.other 17), cond := some (.eq (.ref (n!"sensor_type") []) (.const (.str "S"))) } <|
  .field { name := some (n!"delta_smpl_pair"), size := .const 11, ty := .flt, frmt := some (.other 18), cond := some (.eq (.ref (n!"sensor_type") []) (.const (.str "S"))) } <|
  .field { name := some (n!"num_fa_pairs"), size := .const 3, ty := .int, frmt := some (.zd 3), cond := some (.eq (.ref (n!"sensor_type") []) (.const (.str "S"))) } <|
  .loop (.ite (.eq (.ref (n!"sensor_type") []) (.const (.str "S"))) (.ref (n!"num_fa_pairs") []) (.const (.int 0))) (
    .field { name := some (n!"start_falign_x"), size := .const 11, ty := .flt, frmt := some (.other 19) } <|
    .field { name := some (n!"start_falign_y"), size := .const 11, ty := .flt, frmt := some (.other 19) } <|
    .field { name := some (n!"end_falign_x"), size := .const 11, ty := .flt, frmt := some (.other 19) } <|
    .field { name := some (n!"end_falign_y"), size := .const 11, ty := .flt, frmt := some (.other 19) } <|
    .nil) <|
  .field { name := some (n!"num_sets_fa_data"), size := .const 1, ty := .int, cond := some (.eq (.ref (n!"sensor_type") []) (.const (.str "F"))) } <|
  .field { name := some (n!"field_angle_type"), size := .const 1, ty := .int, cond := some (.eq (.ref (n!"sensor_type") []) (.const (.str "F"))) } <|
  .field { name := some (n!"fa_interp"), size := .const 1, ty := .int, cond := some (.eq (.ref (n!"sensor_type") []) (.const (.str "F"))) } <|
  .loop (.ite (.and (.eq (.ref (n!"sensor_type") []) (.const (.str "F"))) (.eq (.ref (n!"field_angle_type") []) (.const (.int 0)))) (.ref (n!"num_sets_fa_data") []) (.const (.int 0))) (
    .field { name := some (n!"fl_cal"), size := .const 11, ty := .flt, frmt := some (.other 13) } <|
    .field { name := some (n!"number_fir_line"), size := .const 12, ty := .flt, frmt := some (.other 17) } <|
    .field { name := some (n!"delta_line"), size := .const 11, ty := .flt, frmt := some (.other 18) } <|
    .field { name := some (n!"num_fa_blocks_line"), size := .const 3, ty := .int, frmt := some (.zd 3) } <|
    .field { name := some (n!"number_fir_samp"), size := .const 12, ty := .flt, frmt := some (.other 17) } <|
    .field { name := some (n!"delta_samp"), size := .const 11, ty := .flt, frmt := some (.other 18) } <|
    .field { name := some (n!"num_fa_blocks_samp"), size := .const 3, ty := .int, frmt := some (.zd 3) } <|
    .loop (.ite (.and (.eq (.ref (n!"sensor_type") []) (.const (.str "F"))) (.eq (.ref (n!"field_angle_type") []) (.const (.int 0)))) (.ref (n!"num_fa_blocks_line") [0]) (.const (.int 0))) (
      .loop (.ite (.and (.eq (.ref (n!"sensor_type") []) (.const (.str "F"))) (.eq (.ref (n!"field_angle_type") []) (.const (.int 0)))) (.ref (n!"num_fa_blocks_samp") [0]) (.const (.int 0))) (
        .field { name := some (n!"fa_x1"), size := .const 11, ty := .flt, frmt := some (.other 19) } <|
        .field { name := some (n!"fa_y1"), size := .const 11, ty := .flt, frmt := some (.other 19) } <|
        .field { name := some (n!"fa_x2"), size := .const 11, ty := .flt, frmt := some (.other 19) } <|
        .field { name := some (n!"fa_y2"), size := .const 11, ty := .flt, frmt := some (.other 19) } <|
        .field { name := some (n!"fa_x3"), size := .const 11, ty := .flt, frmt := some (.other 19) } <|
        .field { name := some (n!"fa_y3"), size := .const 11, ty := .flt, frmt := some (.other 19) } <|
        .field { name := some (n!"fa_x4"), size := .const 11, ty := .flt, frmt := some (.other 19) } <|
        .field { name := some (n!"fa_y4"), size := .const 11, ty := .flt, frmt := some (.other 19) } <|
        .nil) <|
      .nil) <|
    .nil) <|
  .field { name := some (n!"num_fp_arrays_line"), size := .const 3, ty := .int, cond := some (.and (.eq (.ref (n!"sensor_type") []) (.const (.str "F"))) (.eq (.ref (n!"field_angle_type") []) (.const (.int 1)))) } <|
  .field { name := some (n!"num_fp_arrays_samp"), size := .const 3, ty := .int, cond := some (.and (.eq (.ref (n!"sensor_type") []) (.const (.str "F"))) (.eq (.ref (n!"field_angle_type") []) (.const (.int 1)))) } <|
  .loop (.ite (.and (.eq (.ref (n!"sensor_type") []) (.const (.str "F"))) (.eq (.ref (n!"field_angle_type") []) (.const (.int 1)))) (.ref (n!"num_fp_arrays_line") []) (.const (.int 0))) (
    .loop (.ite (.and (.eq (.ref (n!"sensor_type") []) (.const (.str "F"))) (.eq (.ref (n!"field_angle_type") []) (.const (.int 1)))) (.ref (n!"num_fp_arrays_samp") []) (.const (.int 0))) (
      .field { name := some (n!"ls_fid_trans_t0"), size := .const 21, ty := .flt, frmt := some (.other 20) } <|
      .field { name := some (n!"ls_fid_trans_t1"), size := .const 21, ty := .flt, frmt := some (.other 20) } <|
      .field { name := some (n!"ls_fid_trans_t2"), size := .const 21, ty := .flt, frmt := some (.other 20) } <|
      .field { name := some (n!"ls_fid_trans_t3"), size := .const 21, ty := .flt, frmt := some (.other 20) } <|
      .field { name := some (n!"ls_fid_trans_t4"), size := .const 21, ty := .flt, frmt := some (.other 20) } <|
      .field { name := some (n!"ls_fid_trans_t5"), size := .const 21, ty := .flt, frmt := some (.other 20) } <|
      .field { name := some (n!"ls_fid_trans_t6"), size := .const 21, ty := .flt, frmt := some (.other 20) } <|
      .field { name := some (n!"ls_fid_trans_t7"), size := .const 21, ty := .flt, frmt := some (.other 20) } <|
      .nil) <|
    .nil) <|
  .loop (.ite (.and (.eq (.ref (n!"sensor_type") []) (.const (.str "F"))) (.eq (.ref (n!"field_angle_type") []) (.const (.int 1)))) (.ref (n!"num_sets_fa_data") []) (.const (.int 0))) (
    .field { name := some (n!"fl_cal_iop"), size := .const 11, ty := .flt, frmt := some (.other 13) } <|
    .field { name := some (n!"ppo_x0"), size := .const 21, ty := .flt, frmt := some (.other 20) } <|
    .field { name := some (n!"ppo_y0"), size := .const 21, ty := .flt, frmt := some (.other 20) } <|
    .field { name := some (n!"rld_k0"), size := .const 21, ty := .flt, frmt := some (.other 20) } <|
    .field { name := some (n!"rld_k1"), size := .const 21, ty := .flt, frmt := some (.other 20) } <|
    .field { name := some (n!"rld_k2"), size := .const 21, ty := .flt, frmt := some (.other 20) } <|
    .field { name := some (n!"rld_k3"), size := .const 21, ty := .flt, frmt := some (.other 20) } <|
    .field { name := some (n!"dcd_p1"), size := .const 21, ty := .flt, frmt := some (.other 20) } <|
    .field { name := some (n!"dcd_p2"), size := .const 21, ty := .flt, frmt := some (.other 20) } <|
    .field { name := some (n!"dcd_p3"), size := .const 21, ty := .flt, frmt := some (.other 20) } <|
    .field { name := some (n!"ad_a1"), size := .const 21, ty := .flt, frmt := some (.other 20) } <|
    .field { name := some (n!"ad_a2"), size := .const 21, ty := .flt, frmt := some (.other 20) } <|
    .field { name := some (n!"radius_of_validity"), size := .const 21, ty := .flt, frmt := some (.other 20) } <|
    .nil) <|
  .field { name := some (n!"telescope_optics_flag"), size := .const 1, ty := .int, cond := some (.eq (.ref (n!"sensor_type") []) (.const (.str "F"))) } <|
  .field { name := some (n!"num_tele_sets_fa_data"), size := .const 1, ty := .int, cond := some (.and (.eq (.ref (n!"sensor_type") []) (.const (.str "F"))) (.eq (.ref (n!"telescope_optics_flag") []) (.const (.int 1)))) } <|
  .field { name := some (n!"n_frames"), size := .const 4, ty := .bytes, kind := .intData false, sizeNotUpdated := true, cond := some (.and (.eq (.ref (n!"sensor_type") []) (.const (.str "F"))) (.eq (.ref (n!"telescope_optics_flag") []) (.const (.int 1)))) } <|
  .loop (.ite (.and (.eq (.ref (n!"sensor_type") []) (.const (.str "F"))) (.eq (.ref (n!"telescope_optics_flag") []) (.const (.int 1)))) (.ref (n!"n_frames") []) (.const (.int 0))) (
    .field { name := some (n!"tele_trans_t0"), size := .const 21, ty := .flt, frmt := some (.other 20) } <|
    .field { name := some (n!"tele_trans_t1"), size := .const 21, ty := .flt, frmt := some (.other 20) } <|
    .field { name := some (n!"tele_trans_t2"), size := .const 21, ty := .flt, frmt := some (.other 20) } <|
    .field { name := some (n!"tele_trans_t3"), size := .const 21, ty := .flt, frmt := some (.other 20) } <|
    .field { name := some (n!"tele_trans_t4"), size := .const 21, ty := .flt, frmt := some (.other 20) } <|
    .field { name := some (n!"tele_trans_t5"), size := .const 21, ty := .flt, frmt := some (.other 20) } <|
    .field { name := some (n!"tele_trans_t6"), size := .const 21, ty := .flt, frmt := some (.other 20) } <|
    .field { name := some (n!"tele_trans_t7"), size := .const 21, ty := .flt, frmt := some (.other 20) } <|
    .nil) <|
  .loop (.ite (.and (.eq (.ref (n!"sensor_type") []) (.const (.str "F"))) (.eq (.ref (n!"telescope_optics_flag") []) (.const (.int 1)))) (.ref (n!"num_tele_sets_fa_data") []) (.const (.int 0))) (
    .field { name := some (n!"fl_cal_iop_tele"), size := .const 11, ty := .flt, frmt := some (.other 13) } <|
    .field { name := some (n!"ppo_x0_tele"), size := .const 21, ty := .flt, frmt := some (.other 20) } <|
    .field { name := some (n!"ppo_y0_tele"), size := .const 21, ty := .flt, frmt := some (.other 20) } <|
    .field { name := some (n!"rld_k0_tele"), size := .const 21, ty := .flt, frmt := some (.other 20) } <|
    .field { name := some (n!"rld_k1_tele"), size := .const 21, ty := .flt, frmt := some (.other 20) } <|
    .field { name := some (n!"rld_k2_tele"), size := .const 21, ty := .flt, frmt := some (.other 20) } <|
    .field { name := some (n!"rld_k3_tele"), size := .const 21, ty := .flt, frmt := some (.other 20) } <|
    .field { name := some (n!"dcd_p1_tele"), size := .const 21, ty := .flt, frmt := some (.other 20) } <|
    .field { name := some (n!"dcd_p2_tele"), size := .const 21, ty := .flt, frmt := some (.other 20) } <|
    .field { name := some (n!"dcd_p3_tele"), size := .const 21, ty := .flt, frmt := some (.other 20) } <|
    .field { name := some (n!"ad_a1_tele"), size := .const 21, ty := .flt, frmt := some (.other 20) } <|
    .field { name := some (n!"ad_a2_tele"), size := .const 21, ty := .flt, frmt := some (.other 20) } <|
    .field { name := some (n!"radius_of_validity_tele"), size := .const 21, ty := .flt, frmt := some (.other 20) } <|
    .nil) <|
  .field { name := some (n!"reserved_len"), size := .const 9, ty := .int, default := some (.int 0) } <|
  .field { name := some (n!"reserved"), size := .expr (.ref (n!"reserved_len") []), ty := .bytes, kind := .bytesData } <|
  .nil

/-- nitf_image_subheader.py:15-89. -/
def t_image_subheader : Desc :=
  .field { name := some (n!"im"), size := .const 2, ty := .str, default := some (.str "IM"), hardcoded := true } <|
  .field { name := some (n!"iid1"), size := .const 10, ty := .str } <|
  .field { name := some (n!"idatim"), size := .const 14, ty := .str } <|
  .field { name := some (n!"tgtid"), size := .const 17, ty := .str } <|
  .field { name := some (n!"iid2"), size := .const 80, ty := .str } <|
  .field { name := some (n!"isclas"), size := .const 1, ty := .str, default := some (.str "U") } <|
  .field { name := some (n!"isclsy"), size := .const 2, ty := .str } <|
  .field { name := some (n!"iscode"), size := .const 11, ty := .str } <|
  .field { name := some (n!"isctlh"), size := .const 2, ty := .str } <|
  .field { name := some (n!"isrel"), size := .const 20, ty := .str } <|
  .field { name := some (n!"isdctp"), size := .const 2, ty := .str } <|
  .field { name := some (n!"isdcdt"), size := .const 8, ty := .str } <|
  .field { name := some (n!"isdcxm"), size := .const 4, ty := .str } <|
  .field { name := some (n!"isdg"), size := .const 1, ty := .str } <|
  .field { name := some (n!"isdgdt"), size := .const 8, ty := .str } <|
  .field { name := some (n!"iscltx"), size := .const 43, ty := .str } <|
  .field { name := some (n!"iscatp"), size := .const 1, ty := .str } <|
  .field { name := some (n!"iscaut"), size := .const 40, ty := .str } <|
  .field { name := some (n!"iscrsn"), size := .const 1, ty := .str } <|
  .field { name := some (n!"issrdt"), size := .const 8, ty := .str } <|
  .field { name := some (n!"isctln"), size := .const 15, ty := .str } <|
  .field { name := some (n!"encryp"), size := .const 1, ty := .int } <|
  .field { name := some (n!"isorce"), size := .const 42, ty := .str } <|
  .field { name := some (n!"nrows"), size := .const 8, ty := .int } <|
  .field { name := some (n!"ncols"), size := .const 8, ty := .int } <|
  .field { name := some (n!"pvtype"), size := .const 3, ty := .str, default := some (.str "INT") } <|
  .field { name := some (n!"irep"), size := .const 8, ty := .str, default := some (.str "MONO") } <|
  .field { name := some (n!"icat"), size := .const 8, ty := .str, default := some (.str "VIS") } <|
  .field { name := some (n!"abpp"), size := .const 2, ty := .int, default := some (.int 8) } <|
  .field { name := some (n!"pjust"), size := .const 1, ty := .str, default := some (.str "R") } <|
  .field { name := some (n!"icords"), size := .const 1, ty := .str } <|
  .field { name := some (n!"igeolo"), size := .const 60, ty := .str, cond := some (.ne (.rstrip (.ref (n!"icords") [])) (.const (.str ""))) } <|
  .field { name := some (n!"nicom"), size := .const 1, ty := .int } <|
  .loop (.ref (n!"nicom") []) (
    .field { name := some (n!"icom"), size := .const 80, ty := .str } <|
    .nil) <|
  .field { name := some (n!"ic"), size := .const 2, ty := .str, default := some (.str "NC") } <|
  .field { name := some (n!"comrat"), size := .const 4, ty := .str, cond := some (.notin (.ref (n!"ic") []) [(.str "NC"), (.str "NM")]) } <|
  .field { name := some (n!"nbands"), size := .const 1, ty := .int, default := some (.int 1) } <|
  .field { name := some (n!"xbands"), size := .const 5, ty := .int, cond := some (.eq (.ref (n!"nbands") []) (.const (.int 0))) } <|
  .loop (.ite (.gt (.ref (n!"nbands") []) (.const (.int 0))) (.ref (n!"nbands") []) (.ref (n!"xbands") [])) (
    .field { name := some (n!"irepband"), size := .const 2, ty := .str, default := some (.str "M") } <|
    .field { name := some (n!"isubcat"), size := .const 6, ty := .str } <|
    .field { name := some (n!"ifc"), size := .const 1, ty := .str, default := some (.str "N"), hardcoded := true } <|
    .field { name := some (n!"imflt"), size := .const 3, ty := .str, default := some (.str "   "), hardcoded := true } <|
    .field { name := some (n!"nluts"), size := .const 1, ty := .int } <|
    .field { name := some (n!"nelut"), size := .const 5, ty := .int, cond := some (.ne (.ref (n!"nluts") [0]) (.const (.int 0))) } <|
    .loop (.ref (n!"nluts") [0]) (
      .field { name := some (n!"lutd"), size := .expr (.ref (n!"nelut") [0]), ty := .bytes, kind := .bytesData } <|
      .nil) <|
    .nil) <|
  .field { name := some (n!"isync"), size := .const 1, ty := .int, default := some (.int 0), hardcoded := true } <|
  .field { name := some (n!"imode"), size := .const 1, ty := .str, default := some (.str "B") } <|
  .field { name := some (n!"nbpr"), size := .const 4, ty := .int, default := some (.int 1) } <|
  .field { name := some (n!"nbpc"), size := .const 4, ty := .int, default := some (.int 1) } <|
  .field { name := some (n!"nppbh"), size := .const 4, ty := .int } <|
  .field { name := some (n!"nppbv"), size := .const 4, ty := .int } <|
  .field { name := some (n!"nbpp"), size := .const 2, ty := .int, default := some (.int 8) } <|
  .field { name := some (n!"idlvl"), size := .const 3, ty := .int } <|
  .field { name := some (n!"ialvl"), size := .const 3, ty := .int } <|
  .field { name := some (n!"iloc"), size := .const 10, ty := .str, default := some (.str "0000000000") } <|
  .field { name := some (n!"imag"), size := .const 4, ty := .str, default := some (.str "1.0") } <|
  .field { name := some (n!"udidl"), size := .const 5, ty := .int } <|
  .field { name := some (n!"udofl"), size := .const 3, ty := .int, cond := some (.ne (.ref (n!"udidl") []) (.const (.int 0))) } <|
  .field { name := some (n!"udid"), size := .expr (.ref (n!"udidl") []), ty := .bytes, kind := .bytesData, sizeOffset := 3 } <|
  .field { name := some (n!"ixshdl"), size := .const 5, ty := .int } <|
  .field { name := some (n!"ixofl"), size := .const 3, ty := .int, cond := some (.ne (.ref (n!"ixshdl") []) (.const (.int 0))) } <|
  .field { name := some (n!"ixshd"), size := .expr (.ref (n!"ixshdl") []), ty := .bytes, kind := .bytesData, sizeOffset := 3 } <|
  .nil

/-- nitf_text_subheader.py:12-46. -/
def t_text_subheader : Desc :=
  .field { name := some (n!"te"), size := .const 2, ty := .str, default := some (.str "TE"), hardcoded := true } <|
  .field { name := some (n!"textid"), size := .const 7, ty := .str } <|
  .field { name := some (n!"txtalvl"), size := .const 3, ty := .int, optional := true } <|
  .field { name := some (n!"txtdt"), size := .const 14, ty := .str } <|
  .field { name := some (n!"txtitl"), size := .const 80, ty := .str } <|
  .field { name := some (n!"tsclas"), size := .const 1, ty := .str, default := some (.str "U") } <|
  .field { name := some (n!"tsclsy"), size := .const 2, ty := .str } <|
  .field { name := some (n!"tscode"), size := .const 11, ty := .str } <|
  .field { name := some (n!"tsctlh"), size := .const 2, ty := .str } <|
  .field { name := some (n!"tsrel"), size := .const 20, ty := .str } <|
  .field { name := some (n!"tsdctp"), size := .const 2, ty := .str } <|
  .field { name := some (n!"tsdcdt"), size := .const 8, ty := .str } <|
  .field { name := some (n!"tsdcxm"), size := .const 4, ty := .str } <|
  .field { name := some (n!"tsdg"), size := .const 1, ty := .str } <|
  .field { name := some (n!"tsdgdt"), size := .const 8, ty := .str } <|
  .field { name := some (n!"tscltx"), size := .const 43, ty := .str } <|
  .field { name := some (n!"tscatp"), size := .const 1, ty := .str } <|
  .field { name := some (n!"tscaut"), size := .const 40, ty := .str } <|
  .field { name := some (n!"tscrsn"), size := .const 1, ty := .str } <|
  .field { name := some (n!"tssrdt"), size := .const 8, ty := .str } <|
  .field { name := some (n!"tsctln"), size := .const 15, ty := .str } <|
  .field { name := some (n!"encryp"), size := .const 1, ty := .int } <|
  .field { name := some (n!"txtfmt"), size := .const 3, ty := .str } <|
  .field { name := some (n!"txshdl"), size := .const 5, ty := .int } <|
  .field { name := some (n!"txsofl"), size := .const 3, ty := .int, cond := some (.ne (.ref (n!"txshdl") []) (.const (.int 0))) } <|
  .field { name := some (n!"txshd"), size := .expr (.ref (n!"txshdl") []), ty := .bytes, kind := .bytesData, sizeOffset := 3 } <|
  .nil

/-- nitf_tre_geosde.py:47-61. -/
def t_tre_geosde_2 : Desc :=
  .field { name := some (n!"typ"), size := .const 3, ty := .str, default := some (.str "MAP") } <|
  .field { name := some (n!"uni"), size := .const 3, ty := .str, default := some (.str "M") } <|
  .field { name := some (n!"dag"), size := .const 80, ty := .str, default := some (.str "World Geodetic System 1984") } <|
  .field { name := some (n!"dcd"), size := .const 4, ty := .str, default := some (.str "WGE") } <|
  .field { name := some (n!"ell"), size := .const 80, ty := .str, default := some (.str "World Geodetic System 1984") } <|
  .field { name := some (n!"elc"), size := .const 3, ty := .str, default := some (.str "WE") } <|
  .field { name := some (n!"dvr"), size := .const 80, ty := .str, default := some (.str "Geodetic") } <|
  .field { name := some (n!"vdcdvr"), size := .const 4, ty := .str, default := some (.str "GEOD") } <|
  .field { name := some (n!"sda"), size := .const 80, ty := .str, default := some (.str "Mean Sea") } <|
  .field { name := some (n!"vdcsda"), size := .const 4, ty := .str, default := some (.str "MSL") } <|
  .field { name := some (n!"zor"), size := .const 15, ty := .int } <|
  .field { name := some (n!"grd"), size := .const 3, ty := .str } <|
  .field { name := some (n!"grn"), size := .const 80, ty := .str } <|
  .field { name := some (n!"xna"), size := .const 4, ty := .int } <|
  .nil

/-- nitf_tre_histoa.py:15-54. -/
def t_tre_histoa : Desc :=
  .field { name := some (n!"systype"), size := .const 20, ty := .str } <|
  .field { name := some (n!"pc"), size := .const 12, ty := .str } <|
  .field { name := some (n!"pe"), size := .const 4, ty := .str } <|
  .field { name := some (n!"remap_flag"), size := .const 1, ty := .str } <|
  .field { name := some (n!"lutid"), size := .const 2, ty := .int } <|
  .field { name := some (n!"nevents"), size := .const 2, ty := .int } <|
  .loop (.ref (n!"nevents") []) (
    .field { name := some (n!"pdate"), size := .const 14, ty := .str } <|
    .field { name := some (n!"psite"), size := .const 10, ty := .str } <|
    .field { name := some (n!"pas"), size := .const 10, ty := .str } <|
    .field { name := some (n!"nipcom"), size := .const 1, ty := .int } <|
    .loop (.ref (n!"nipcom") [0]) (
      .field { name := some (n!"ipcom"), size := .const 80, ty := .str } <|
      .nil) <|
    .field { name := some (n!"ibpp"), size := .const 2, ty := .int } <|
    .field { name := some (n!"ipvtype"), size := .const 3, ty := .str } <|
    .field { name := some (n!"inbwc"), size := .const 10, ty := .str } <|
    .field { name := some (n!"disp_flag"), size := .const 1, ty := .str } <|
    .field { name := some (n!"rot_flag"), size := .const 1, ty := .int } <|
    .field { name := some (n!"rot_angle"), size := .const 8, ty := .flt, cond := some (.eq (.ref (n!"rot_flag") [0]) (.const (.int 1))) } <|
    .field { name := some (n!"asym_flag"), size := .const 1, ty := .str } <|
    .field { name := some (n!"zoomrow"), size := .const 7, ty := .flt, cond := some (.eq (.ref (n!"asym_flag") [0]) (.const (.str "1"))) } <|
    .field { name := some (n!"zoomcol"), size := .const 7, ty := .flt, cond := some (.eq (.ref (n!"asym_flag") [0]) (.const (.str "1"))) } <|
    .field { name := some (n!"proj_flag"), size := .const 1, ty := .int } <|
    .field { name := some (n!"sharp_flag"), size := .const 1, ty := .int } <|
    .field { name := some (n!"sharpfam"), size := .const 2, ty := .int, cond := some (.eq (.ref (n!"sharp_flag") [0]) (.const (.int 1))) } <|
    .field { name := some (n!"sharpmem"), size := .const 2, ty := .int, cond := some (.eq (.ref (n!"sharp_flag") [0]) (.const (.int 1))) } <|
    .field { name := some (n!"mag_flag"), size := .const 1, ty := .int } <|
    .field { name := some (n!"mag_level"), size := .const 7, ty := .flt, cond := some (.eq (.ref (n!"mag_flag") [0]) (.const (.int 1))) } <|
    .field { name := some (n!"dra_flag"), size := .const 1, ty := .int } <|
    .field { name := some (n!"dra_mult"), size := .const 7, ty := .flt, cond := some (.eq (.ref (n!"dra_flag") [0]) (.const (.int 1))) } <|
    .field { name := some (n!"dra_sub"), size := .const 5, ty := .int, cond := some (.eq (.ref (n!"dra_flag") [0]) (.const (.int 1))) } <|
    .field { name := some (n!"ttc_flag"), size := .const 1, ty := .int } <|
    .field { name := some (n!"ttcfam"), size := .const 2, ty := .int, cond := some (.eq (.ref (n!"ttc_flag") [0]) (.const (.int 1))) } <|
    .field { name := some (n!"ttcmem"), size := .const 2, ty := .int, cond := some (.eq (.ref (n!"ttc_flag") [0]) (.const (.int 1))) } <|
    .field { name := some (n!"devlut_flag"), size := .const 1, ty := .int } <|
    .field { name := some (n!"obpp"), size := .const 2, ty := .int } <|
    .field { name := some (n!"opvtype"), size := .const 3, ty := .str } <|
    .field { name := some (n!"outbwc"), size := .const 10, ty := .str } <|
    .nil) <|
  .nil

/-- nitf_tre_illumb.py:16-72. -/
def t_tre_illumb : Desc :=
  .field { name := some (n!"num_bands"), size := .const 4, ty := .int, frmt := some (.zd 4) } <|
  .field { name := some (n!"band_unit"), size := .const 40, ty := .str } <|
  .loop (.ref (n!"num_bands") []) (
    .field { name := some (n!"lbound"), size := .const 16, ty := .flt, frmt := some (.other 40) } <|
    .field { name := some (n!"ubound"), size := .const 16, ty := .flt, frmt := some (.other 40) } <|
    .nil) <|
  .field { name := some (n!"num_others"), size := .const 2, ty := .int, frmt := some (.zd 2) } <|
  .loop (.ref (n!"num_others") []) (
    .field { name := some (n!"other_name"), size := .const 40, ty := .str } <|
    .nil) <|
  .field { name := some (n!"num_coms"), size := .const 1, ty := .int } <|
  .loop (.ref (n!"num_coms") []) (
    .field { name := some (n!"comment"), size := .const 80, ty := .str } <|
    .nil) <|
  .field { name := some (n!"geo_datum"), size := .const 80, ty := .str, default := some (.str "World Geodetic System 1984") } <|
  .field { name := some (n!"geo_datum_code"), size := .const 4, ty := .str, default := some (.str "WGE") } <|
  .field { name := some (n!"ellipsoid_name"), size := .const 80, ty := .str, default := some (.str "World Geodetic System 1984") } <|
  .field { name := some (n!"ellipsoid_code"), size := .const 3, ty := .str, default := some (.str "WE") } <|
  .field { name := some (n!"vertical_datum_ref"), size := .const 80, ty := .str, default := some (.str "Geodetic") } <|
  .field { name := some (n!"vertical_ref_code"), size := .const 4, ty := .str, default := some (.str "GEOD") } <|
  .field { name := some (n!"existence_mask"), size := .const 3, ty := .bytes, kind := .intData false, sizeNotUpdated := true } <|
  .field { name := some (n!"rad_quantity"), size := .const 40, ty := .str, cond := some (.band (.ref (n!"existence_mask") []) (.const (.int 8388608))) } <|
  .field { name := some (n!"radq_unit"), size := .const 40, ty := .str, cond := some (.band (.ref (n!"existence_mask") []) (.const (.int 8388608))) } <|
  .field { name := some (n!"num_illum_sets"), size := .const 3, ty := .int, frmt := some (.zd 3) } <|
  .loop (.ref (n!"num_illum_sets") []) (
    .field { name := some (n!"datetime"), size := .const 14, ty := .str } <|
    .field { name := some (n!"target_lat"), size := .const 10, ty := .flt, frmt := some (.other 41) } <|
    .field { name := some (n!"target_lon"), size := .const 11, ty := .flt, frmt := some (.other 42) } <|
    .field { name := some (n!"target_hgt"), size := .const 14, ty := .flt, frmt := some (.other 43) } <|
    .field { name := some (n!"sun_azimuth"), size := .const 5, ty := .flt, frmt := some (.other 44), cond := some (.band (.ref (n!"existence_mask") []) (.const (.int 4194304))) } <|
    .field { name := some (n!"sun_elev"), size := .const 5, ty := .flt, frmt := some (.other 45), cond := some (.band (.ref (n!"existence_mask") []) (.const (.int 4194304))) } <|
    .field { name := some (n!"moon_azimuth"), size := .const 5, ty := .flt, frmt := some (.other 44), cond := some (.band (.ref (n!"existence_mask") []) (.const (.int 2097152))) } <|
    .field { name := some (n!"moon_elev"), size := .const 5, ty := .flt, frmt := some (.other 45), cond := some (.band (.ref (n!"existence_mask") []) (.const (.int 2097152))) } <|
    .field { name := some (n!"moon_phase_angle"), size := .const 6, ty := .flt, frmt := some (.other 46), cond := some (.band (.ref (n!"existence_mask") []) (.const (.int 1048576))) } <|
    .field { name := some (n!"moon_illum_percent"), size := .const 3, ty := .int, frmt := some (.zd 3), cond := some (.band (.ref (n!"existence_mask") []) (.const (.int 524288))) } <|
    .loop (.ite (.band (.ref (n!"existence_mask") []) (.const (.int 262144))) (.ref (n!"num_others") []) (.const (.int 0))) (
      .field { name := some (n!"other_azimuth"), size := .const 5, ty := .flt, frmt := some (.other 44) } <|
      .field { name := some (n!"other_elev"), size := .const 5, ty := .flt, frmt := some (.other 45) } <|
      .nil) <|
    .field { name := some (n!"sensor_azimuth"), size := .const 5, ty := .flt, frmt := some (.other 44), cond := some (.band (.ref (n!"existence_mask") []) (.const (.int 131072))) } <|
    .field { name := some (n!"sensor_elev"), size := .const 5, ty := .flt, frmt := some (.other 45), cond := some (.band (.ref (n!"existence_mask") []) (.const (.int 131072))) } <|
    .field { name := some (n!"cats_angle"), size := .const 5, ty := .flt, frmt := some (.other 44), cond := some (.band (.ref (n!"existence_mask") []) (.const (.int 65536))) } <|
    .field { name := some (n!"sun_glint_lat"), size := .const 10, ty := .flt, frmt := some (.other 41), cond := some (.band (.ref (n!"existence_mask") []) (.const (.int 32768))) } <|
    .field { name := some (n!"sun_glint_lon"), size := .const 11, ty := .flt, frmt := some (.other 42), cond := some (.band (.ref (n!"existence_mask") []) (.const (.int 32768))) } <|
    .field { name := some (n!"catm_angle"), size := .const 5, ty := .flt, frmt := some (.other 44), cond := some (.band (.ref (n!"existence_mask") []) (.const (.int 16384))) } <|
    .field { name := some (n!"moon_glint_lat"), size := .const 10, ty := .flt, frmt := some (.other 41), cond := some (.band (.ref (n!"existence_mask") []) (.const (.int 8192))) } <|
    .field { name := some (n!"moon_glint_lon"), size := .const 11, ty := .flt, frmt := some (.other 42), cond := some (.band (.ref (n!"existence_mask") []) (.const (.int 8192))) } <|
    .field { name := some (n!"sol_lun_dist_adjust"), size := .const 7, ty := .flt, frmt := some (.other 47), cond := some (.band (.ref (n!"existence_mask") []) (.const (.int 1024))) } <|
    .loop (.ref (n!"num_bands") []) (
      .field { name := some (n!"sun_illum_method"), size := .const 1, ty := .str, cond := some (.band (.ref (n!"existence_mask") []) (.const (.int 4096))) } <|
      .field { name := some (n!"sun_illum"), size := .const 16, ty := .flt, frmt := some (.other 40), cond := some (.band (.ref (n!"existence_mask") []) (.const (.int 4096))) } <|
      .field { name := some (n!"moon_illum_method"), size := .const 1, ty := .str, cond := some (.band (.ref (n!"existence_mask") []) (.const (.int 2048))) } <|
      .field { name := some (n!"moon_illum"), size := .const 16, ty := .flt, frmt := some (.other 40), cond := some (.band (.ref (n!"existence_mask") []) (.const (.int 2048))) } <|
      .field { name := some (n!"tot_sunmoon_illum"), size := .const 16, ty := .flt, frmt := some (.other 40), cond := some (.band (.ref (n!"existence_mask") []) (.const (.int 1024))) } <|
      .loop (.ite (.band (.ref (n!"existence_mask") []) (.const (.int 512))) (.ref (n!"num_others") []) (.const (.int 0))) (
        .field { name := some (n!"other_illum_method"), size := .const 1, ty := .str } <|
        .field { name := some (n!"other_illum"), size := .const 16, ty := .flt, frmt := some (.other 40) } <|
        .nil) <|
      .field { name := some (n!"art_illum_method"), size := .const 1, ty := .str, cond := some (.band (.ref (n!"existence_mask") []) (.const (.int 256))) } <|
      .field { name := some (n!"art_illum_min"), size := .const 16, ty := .flt, frmt := some (.other 40), cond := some (.band (.ref (n!"existence_mask") []) (.const (.int 256))) } <|
      .nil) <|
    .field { name := some (n!"art_illum_max"), size := .const 16, ty := .flt, frmt := some (.other 40), cond := some (.band (.ref (n!"existence_mask") []) (.const (.int 256))) } <|
    .nil) <|
  .nil

/-- nitf_tre_matesa.py:14-31. -/
def t_tre_matesa : Desc :=
  .field { name := some (n!"cur_source"), size := .const 42, ty := .str } <|
  .field { name := some (n!"cur_mate_type"), size := .const 16, ty := .str } <|
  .field { name := some (n!"cur_file_id_len"), size := .const 4, ty := .int } <|
  .field { name := some (n!"cur_file_id"), size := .expr (.ref (n!"cur_file_id_len") []), ty := .bytes, kind := .strData } <|
  .field { name := some (n!"num_groups"), size := .const 4, ty := .int } <|
  .loop (.ref (n!"num_groups") []) (
    .field { name := some (n!"relationship"), size := .const 24, ty := .str } <|
    .field { name := some (n!"num_mates"), size := .const 4, ty := .int } <|
    .loop (.ref (n!"num_mates") [0]) (
      .field { name := some (n!"source"), size := .const 42, ty := .str } <|
      .field { name := some (n!"mate_type"), size := .const 16, ty := .str } <|
      .field { name := some (n!"mate_id_len"), size := .const 4, ty := .int } <|
      .field { name := some (n!"mate_id"), size := .expr (.ref (n!"mate_id_len") [0, 1]), ty := .bytes, kind := .strData } <|
      .nil) <|
    .nil) <|
  .nil

/-- nitf_tre_pixmta.py:18-38. -/
def t_tre_pixmta : Desc :=
  .field { name := some (n!"numais"), size := .const 3, ty := .str } <|
  .loop (.ite (.eq (.ref (n!"numais") []) (.const (.str "ALL"))) (.const (.int 0)) (.toInt (.ref (n!"numais") []))) (
    .field { name := some (n!"aisdlvl"), size := .const 3, ty := .int } <|
    .nil) <|
  .field { name := some (n!"origin_x"), size := .const 14, ty := .flt, frmt := some (.other 49) } <|
  .field { name := some (n!"origin_y"), size := .const 14, ty := .flt, frmt := some (.other 49) } <|
  .field { name := some (n!"scale_x"), size := .const 14, ty := .flt, frmt := some (.other 49) } <|
  .field { name := some (n!"scale_y"), size := .const 14, ty := .flt, frmt := some (.other 49) } <|
  .field { name := some (n!"sample_mode"), size := .const 1, ty := .str } <|
  .field { name := some (n!"nummetrics"), size := .const 5, ty := .int } <|
  .field { name := some (n!"perband"), size := .const 1, ty := .str } <|
  .loop (.ref (n!"nummetrics") []) (
    .field { name := some (n!"description"), size := .const 40, ty := .str } <|
    .field { name := some (n!"unit"), size := .const 40, ty := .str } <|
    .field { name := some (n!"fittype"), size := .const 1, ty := .str } <|
    .field { name := some (n!"numcoef"), size := .const 1, ty := .int, cond := some (.eq (.ref (n!"fittype") [0]) (.const (.str "P"))) } <|
    .loop (.ite (.eq (.ref (n!"fittype") [0]) (.const (.str "D"))) (.const (.int 0)) (.toInt (.ref (n!"numcoef") [0]))) (
      .field { name := some (n!"coef"), size := .const 15, ty := .flt, frmt := some (.other 50) } <|
      .nil) <|
    .nil) <|
  .field { name := some (n!"reserved_len"), size := .const 5, ty := .int } <|
  .field { name := some (n!"reserved"), size := .expr (.ref (n!"reserved_len") []), ty := .bytes, kind := .bytesData } <|
  .nil

/-- nitf_tre_pixqla.py:15-24. -/
def t_tre_pixqla : Desc :=
  .field { name := some (n!"numais"), size := .const 3, ty := .str } <|
  .loop (.ite (.eq (.ref (n!"numais") []) (.const (.str "ALL"))) (.const (.int 0)) (.toInt (.ref (n!"numais") []))) (
    .field { name := some (n!"aisdlvl"), size := .const 3, ty := .int } <|
    .nil) <|
  .field { name := some (n!"npixqual"), size := .const 4, ty := .int } <|
  .field { name := some (n!"pq_bit_value"), size := .const 1, ty := .str, default := some (.str "1"), hardcoded := true } <|
  .loop (.ref (n!"npixqual") []) (
    .field { name := some (n!"pq_condition"), size := .const 40, ty := .str } <|
    .nil) <|
  .nil

/-- nitf_tre_rsmgia.py:20-47. -/
def t_tre_rsmgia : Desc :=
  .field { name := some (n!"iid"), size := .const 80, ty := .str, optional := true } <|
  .field { name := some (n!"edition"), size := .const 40, ty := .str } <|
  .field { name := some (n!"gr0"), size := .const 21, ty := .flt, frmt := some (.other 20) } <|
  .field { name := some (n!"grx"), size := .const 21, ty := .flt, frmt := some (.other 20) } <|
  .field { name := some (n!"gry"), size := .const 21, ty := .flt, frmt := some (.other 20) } <|
  .field { name := some (n!"grz"), size := .const 21, ty := .flt, frmt := some (.other 20) } <|
  .field { name := some (n!"grxx"), size := .const 21, ty := .flt, frmt := some (.other 20) } <|
  .field { name := some (n!"grxy"), size := .const 21, ty := .flt, frmt := some (.other 20) } <|
  .field { name := some (n!"grxz"), size := .const 21, ty := .flt, frmt := some (.other 20) } <|
  .field { name := some (n!"gryy"), size := .const 21, ty := .flt, frmt := some (.other 20) } <|
  .field { name := some (n!"gryz"), size := .const 21, ty := .flt, frmt := some (.other 20) } <|
  .field { name := some (n!"grzz"), size := .const 21, ty := .flt, frmt := some (.other 20) } <|
  .field { name := some (n!"gc0"), size := .const 21, ty := .flt, frmt := some (.other 20) } <|
  .field { name := some (n!"gcx"), size := .const 21, ty := .flt, frmt := some (.other 20) } <|
  .field { name := some (n!"gcy"), size := .const 21, ty := .flt, frmt := some (.other 20) } <|
  .field { name := some (n!"gcz"), size := .const 21, ty := .flt, frmt := some (.other 20) } <|
  .field { name := some (n!"gcxx"), size := .const 21, ty := .flt, frmt := some (.other 20) } <|
  .field { name := some (n!"gcxy"), size := .const 21, ty := .flt, frmt := some (.other 20) } <|
  .field { name := some (n!"gcxz"), size := .const 21, ty := .flt, frmt := some (.other 20) } <|
  .field { name := some (n!"gcyy"), size := .const 21, ty := .flt, frmt := some (.other 20) } <|
  .field { name := some (n!"gcyz"), size := .const 21, ty := .flt, frmt := some (.other 20) } <|
  .field { name := some (n!"gczz"), size := .const 21, ty := .flt, frmt := some (.other 20) } <|
  .field { name := some (n!"grnis"), size := .const 3, ty := .int } <|
  .field { name := some (n!"gcnis"), size := .const 3, ty := .int } <|
  .field { name := some (n!"gtnis"), size := .const 3, ty := .int } <|
  .field { name := some (n!"grssiz"), size := .const 21, ty := .flt, frmt := some (.other 20) } <|
  .field { name := some (n!"gcssiz"), size := .const 21, ty := .flt, frmt := some (.other 20) } <|
  .nil

/-- nitf_tre_rsmida.py:20-102. -/
def t_tre_rsmida : Desc :=
  .field { name := some (n!"iid"), size := .const 80, ty := .str } <|
  .field { name := some (n!"edition"), size := .const 40, ty := .str } <|
  .field { name := some (n!"isid"), size := .const 40, ty := .str } <|
  .field { name := some (n!"sid"), size := .const 40, ty := .str } <|
  .field { name := some (n!"stid"), size := .const 40, ty := .str } <|
  .field { name := some (n!"year"), size := .const 4, ty := .int, optional := true } <|
  .field { name := some (n!"month"), size := .const 2, ty := .int, optional := true } <|
  .field { name := some (n!"day"), size := .const 2, ty := .int, optional := true } <|
  .field { name := some (n!"hour"), size := .const 2, ty := .int, optional := true } <|
  .field { name := some (n!"minute"), size := .const 2, ty := .int, optional := true } <|
  .field { name := some (n!"second"), size := .const 9, ty := .flt, optional := true, frmt := some (.other 10) } <|
  .field { name := some (n!"nrg"), size := .const 8, ty := .int, optional := true } <|
  .field { name := some (n!"ncg"), size := .const 8, ty := .int, optional := true } <|
  .field { name := some (n!"trg"), size := .const 21, ty := .flt, optional := true, frmt := some (.other 20) } <|
  .field { name := some (n!"tcg"), size := .const 21, ty := .flt, optional := true, frmt := some (.other 20) } <|
  .field { name := some (n!"grndd"), size := .const 1, ty := .str } <|
  .field { name := some (n!"xuor"), size := .const 21, ty := .flt, optional := true, frmt := some (.other 20) } <|
  .field { name := some (n!"yuor"), size := .const 21, ty := .flt, optional := true, frmt := some (.other 20) } <|
  .field { name := some (n!"zuor"), size := .const 21, ty := .flt, optional := true, frmt := some (.other 20) } <|
  .field { name := some (n!"xuxr"), size := .const 21, ty := .flt, optional := true, frmt := some (.other 20) } <|
  .field { name := some (n!"xuyr"), size := .const 21, ty := .flt, optional := true, frmt := some (.other 20) } <|
  .field { name := some (n!"xuzr"), size := .const 21, ty := .flt, optional := true, frmt := some (.other 20) } <|
  .field { name := some (n!"yuxr"), size := .const 21, ty := .flt, optional := true, frmt := some (.other 20) } <|
  .field { name := some (n!"yuyr"), size := .const 21, ty := .flt, optional := true, frmt := some (.other 20) } <|
  .field { name := some (n!"yuzr"), size := .const 21, ty := .flt, optional := true, frmt := some (.other 20) } <|
  .field { name := some (n!"zuxr"), size := .const 21, ty := .flt, optional := true, frmt := some (.other 20) } <|
  .field { name := some (n!"zuyr"), size := .const 21, ty := .flt, optional := true, frmt := some (.other 20) } <|
  .field { name := some (n!"zuzr"), size := .const 21, ty := .flt, optional := true, frmt := some (.other 20) } <|
  .field { name := some (n!"v1x"), size := .const 21, ty := .flt, frmt := some (.other 20) } <|
  .field { name := some (n!"v1y"), size := .const 21, ty := .flt, frmt := some (.other 20) } <|
  .field { name := some (n!"v1z"), size := .const 21, ty := .flt, frmt := some (.other 20) } <|
  .field { name := some (n!"v2x"), size := .const 21, ty := .flt, frmt := some (.other 20) } <|
  .field { name := some (n!"v2y"), size := .const 21, ty := .flt, frmt := some (.other 20) } <|
  .field { name := some (n!"v2z"), size := .const 21, ty := .flt, frmt := some (.other 20) } <|
  .field { name := some (n!"v3x"), size := .const 21, ty := .flt, frmt := some (.other 20) } <|
  .field { name := some (n!"v3y"), size := .const 21, ty := .flt, frmt := some (.other 20) } <|
  .field { name := some (n!"v3z"), size := .const 21, ty := .flt, frmt := some (.other 20) } <|
  .field { name := some (n!"v4x"), size := .const 21, ty := .flt, frmt := some (.other 20) } <|
  .field { name := some (n!"v4y"), size := .const 21, ty := .flt, frmt := some (.other 20) } <|
  .field { name := some (n!"v4z"), size := .const 21, ty := .flt, frmt := some (.other 20) } <|
  .field { name := some (n!"v5x"), size := .const 21, ty := .flt, frmt := some (.other 20) } <|
  .field { name := some (n!"v5y"), size := .const 21, ty := .flt, frmt := some (.other 20) } <|
  .field { name := some (n!"v5z"), size := .const 21, ty := .flt, frmt := some (.other 20) } <|
  .field { name := some (n!"v6x"), size := .const 21, ty := .flt, frmt := some (.other 20) } <|
  .field { name := some (n!"v6y"), size := .const 21, ty := .flt, frmt := some (.other 20) } <|
  .field { name := some (n!"v6z"), size := .const 21, ty := .flt, frmt := some (.other 20) } <|
  .field { name := some (n!"v7x"), size := .const 21, ty := .flt, frmt := some (.other 20) } <|
  .field { name := some (n!"v7y"), size := .const 21, ty := .flt, frmt := some (.other 20) } <|
  .field { name := some (n!"v7z"), size := .const 21, ty := .flt, frmt := some (.other 20) } <|
  .field { name := some (n!"v8x"), size := .const 21, ty := .flt, frmt := some (.other 20) } <|
  .field { name := some (n!"v8y"), size := .const 21, ty := .flt, frmt := some (.other 20) } <|
  .field { name := some (n!"v8z"), size := .const 21, ty := .flt, frmt := some (.other 20) } <|
  .field { name := some (n!"grpx"), size := .const 21, ty := .flt, optional := true, frmt := some (.other 20) } <|
  .field { name := some (n!"grpy"), size := .const 21, ty := .flt, optional := true, frmt := some (.other 20) } <|
  .field { name := some (n!"grpz"), size := .const 21, ty := .flt, optional := true, frmt := some (.other 20) } <|
  .field { name := some (n!"fullr"), size := .const 8, ty := .int, optional := true } <|
  .field { name := some (n!"fullc"), size := .const 8, ty := .int, optional := true } <|
  .field { name := some (n!"minr"), size := .const 8, ty := .int } <|
  .field { name := some (n!"maxr"), size := .const 8, ty := .int } <|
  .field { name := some (n!"minc"), size := .const 8, ty := .int } <|
  .field { name := some (n!"maxc"), size := .const 8, ty := .int } <|
  .field { name := some (n!"ie0"), size := .const 21, ty := .flt, optional := true, frmt := some (.other 20) } <|
  .field { name := some (n!"ier"), size := .const 21, ty := .flt, optional := true, frmt := some (.other 20) } <|
  .field { name := some (n!"iec"), size := .const 21, ty := .flt, optional := true, frmt := some (.other 20) } <|
  .field { name := some (n!"ierr"), size := .const 21, ty := .flt, optional := true, frmt := some (.other 20) } <|
  .field { name := some (n!"ierc"), size := .const 21, ty := .flt, optional := true, frmt := some (.other 20) } <|
  .field { name := some (n!"iecc"), size := .const 21, ty := .flt, optional := true, frmt := some (.other 20) } <|
  .field { name := some (n!"ia0"), size := .const 21, ty := .flt, optional := true, frmt := some (.other 20) } <|
  .field { name := some (n!"iar"), size := .const 21, ty := .flt, optional := true, frmt := some (.other 20) } <|
  .field { name := some (n!"iac"), size := .const 21, ty := .flt, optional := true, frmt := some (.other 20) } <|
  .field { name := some (n!"iarr"), size := .const 21, ty := .flt, optional := true, frmt := some (.other 20) } <|
  .field { name := some (n!"iarc"), size := .const 21, ty := .flt, optional := true, frmt := some (.other 20) } <|
  .field { name := some (n!"iacc"), size := .const 21, ty := .flt, optional := true, frmt := some (.other 20) } <|
  .field { name := some (n!"spx"), size := .const 21, ty := .flt, optional := true, frmt := some (.other 20) } <|
  .field { name := some (n!"svx"), size := .const 21, ty := .flt, optional := true, frmt := some (.other 20) } <|
  .field { name := some (n!"sax"), size := .const 21, ty := .flt, optional := true, frmt := some (.other 20) } <|
  .field { name := some (n!"spy"), size := .const 21, ty := .flt, optional := true, frmt := some (.other 20) } <|
  .field { name := some (n!"svy"), size := .const 21, ty := .flt, optional := true, frmt := some (.other 20) } <|
  .field { name := some (n!"say"), size := .const 21, ty := .flt, optional := true, frmt := some (.other 20) } <|
  .field { name := some (n!"spz"), size := .const 21, ty := .flt, optional := true, frmt := some (.other 20) } <|
  .field { name := some (n!"svz"), size := .const 21, ty := .flt, optional := true, frmt := some (.other 20) } <|
  .field { name := some (n!"saz"), size := .const 21, ty := .flt, optional := true, frmt := some (.other 20) } <|
  .nil

/-- nitf_tre_tminta.py:12-18. -/
def t_tre_tminta : Desc :=
  .field { name := some (n!"num_time_int"), size := .const 4, ty := .int } <|
  .loop (.ref (n!"num_time_int") []) (
    .field { name := some (n!"time_interval_index"), size := .const 6, ty := .int } <|
    .field { name := some (n!"start_timestamp"), size := .const 24, ty := .str } <|
    .field { name := some (n!"end_timestamp"), size := .const 24, ty := .str } <|
    .nil) <|
  .nil

end Verif.Tables
