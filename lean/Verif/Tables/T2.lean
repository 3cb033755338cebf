import Verif.Field

/- Generated by tools/gen_tables.py from the `desc` lists of /repo/pynitf; do not edit. -/

namespace Verif.Tables

open Verif

/-- nitf_des_associated_user_subheader.py:12-21. -/
def t_des_associated_user_subheader : Desc :=
  .field { name := some (n!"id"), size := .const 36, ty := .str } <|
  .field { name := some (n!"numais"), size := .const 3, ty := .str, default := some (.str "0") } <|
  .loop (.ite (.eq (.ref (n!"numais") []) (.const (.str "ALL"))) (.const (.int 0)) (.toInt (.ref (n!"numais") []))) (
    .field { name := some (n!"aisdlvl"), size := .const 3, ty := .int } <|
    .nil) <|
  .field { name := some (n!"num_assoc_elem"), size := .const 3, ty := .int } <|
  .loop (.ref (n!"num_assoc_elem") []) (
    .field { name := some (n!"assoc_elem_id"), size := .const 36, ty := .str } <|
    .nil) <|
  .field { name := some (n!"reservedsubh_len"), size := .const 4, ty := .int } <|
  .field { name := some (n!"reservedsubh"), size := .expr (.ref (n!"reservedsubh_len") []), ty := .bytes, kind := .bytesData } <|
  .nil

/-- nitf_des_cscsdb.py:19-328. -/
def t_des_cscsdb : Desc :=
  .field { name := some (n!"cov_version_date"), size := .const 8, ty := .str } <|
  .field { name := some (n!"core_sets"), size := .const 1, ty := .int } <|
  .loop (.ref (n!"core_sets") []) (
    .field { name := some (n!"ref_frame_position"), size := .const 1, ty := .int } <|
    .field { name := some (n!"ref_frame_attitude"), size := .const 1, ty := .int } <|
    .field { name := some (n!"num_groups"), size := .const 1, ty := .int } <|
    .loop (.ref (n!"num_groups") [0]) (
      .field { name := some (n!"corr_ref_date"), size := .const 8, ty := .str } <|
      .field { name := some (n!"corr_ref_time"), size := .const 16, ty := .flt, frmt := some (.other 2) } <|
      .field { name := some (n!"num_adj_parm"), size := .const 1, ty := .int } <|
      .loop (.ref (n!"num_adj_parm") [0, 1]) (
        .field { name := some (n!"adj_parm_id"), size := .const 1, ty := .int } <|
        .nil) <|
      .field { name := some (n!"basic_sub_alloc"), size := .const 1, ty := .int } <|
      .loop (.ite (.eq (.ref (n!"basic_sub_alloc") [0, 1]) (.const (.int 1))) (.tri (.ref (n!"num_adj_parm") [0, 1])) (.const (.int 0))) (
        .field { name := some (n!"errcov_c1"), size := .const 21, ty := .flt, frmt := some (.other 4) } <|
        .nil) <|
      .field { name := some (n!"basic_pf_flag"), size := .const 1, ty := .int, cond := some (.eq (.ref (n!"basic_sub_alloc") [0, 1]) (.const (.int 1))) } <|
      .field { name := some (n!"num_basic_pf"), size := .const 2, ty := .int, cond := some (.and (.eq (.ref (n!"basic_sub_alloc") [0, 1]) (.const (.int 1))) (.eq (.ref (n!"basic_pf_flag") [0, 1]) (.const (.int 1)))) } <|
      .loop (.ite (.and (.eq (.ref (n!"basic_sub_alloc") [0, 1]) (.const (.int 1))) (.eq (.ref (n!"basic_pf_flag") [0, 1]) (.const (.int 1)))) (.ref (n!"num_basic_pf") [0, 1]) (.const (.int 0))) (
        .field { name := some (n!"basic_pf_spdcf"), size := .const 2, ty := .int } <|
        .field { name := some (n!"num_pairings_basic_pf"), size := .const 2, ty := .int } <|
        .loop (.ref (n!"num_pairings_basic_pf") [0, 1, 2]) (
          .field { name := some (n!"basic_pf_sdpcf_sensor"), size := .const 6, ty := .str } <|
          .nil) <|
        .nil) <|
      .field { name := some (n!"basic_pl_flag"), size := .const 1, ty := .int, cond := some (.eq (.ref (n!"basic_sub_alloc") [0, 1]) (.const (.int 1))) } <|
      .field { name := some (n!"num_basic_pl"), size := .const 2, ty := .int, cond := some (.and (.eq (.ref (n!"basic_sub_alloc") [0, 1]) (.const (.int 1))) (.eq (.ref (n!"basic_pl_flag") [0, 1]) (.const (.int 1)))) } <|
      .loop (.ite (.and (.eq (.ref (n!"basic_sub_alloc") [0, 1]) (.const (.int 1))) (.eq (.ref (n!"basic_pl_flag") [0, 1]) (.const (.int 1)))) (.ref (n!"num_basic_pl") [0, 1]) (.const (.int 0))) (
        .field { name := some (n!"basic_pl_spdcf"), size := .const 2, ty := .int } <|
        .field { name := some (n!"num_pairings_basic_pl"), size := .const 2, ty := .int } <|
        .loop (.ref (n!"num_pairings_basic_pl") [0, 1, 2]) (
          .field { name := some (n!"basic_pl_sdpcf_sensor"), size := .const 6, ty := .str } <|
          .nil) <|
        .nil) <|
      .field { name := some (n!"basic_sr_flag"), size := .const 1, ty := .int, cond := some (.eq (.ref (n!"basic_sub_alloc") [0, 1]) (.const (.int 1))) } <|
      .field { name := some (n!"basic_sr_spdcf"), size := .const 2, ty := .int, cond := some (.and (.eq (.ref (n!"basic_sub_alloc") [0, 1]) (.const (.int 1))) (.eq (.ref (n!"basic_sr_flag") [0, 1]) (.const (.int 1)))) } <|
      .field { name := some (n!"post_sub_alloc"), size := .const 1, ty := .int } <|
      .field { name := some (n!"post_start_date"), size := .const 8, ty := .str, cond := some (.eq (.ref (n!"post_sub_alloc") [0, 1]) (.const (.int 1))) } <|
      .field { name := some (n!"post_start_time"), size := .const 15, ty := .flt, cond := some (.eq (.ref (n!"post_sub_alloc") [0, 1]) (.const (.int 1))), frmt := some (.other 5) } <|
      .field { name := some (n!"post_dt"), size := .const 13, ty := .flt, cond := some (.eq (.ref (n!"post_sub_alloc") [0, 1]) (.const (.int 1))), frmt := some (.other 6) } <|
      .field { name := some (n!"num_posts"), size := .const 3, ty := .int, cond := some (.eq (.ref (n!"post_sub_alloc") [0, 1]) (.const (.int 1))) } <|
      .field { name := some (n!"common_posts_cov"), size := .const 1, ty := .int, cond := some (.eq (.ref (n!"post_sub_alloc") [0, 1]) (.const (.int 1))) } <|
      .loop (.ite (.and (.eq (.ref (n!"post_sub_alloc") [0, 1]) (.const (.int 1))) (.eq (.ref (n!"common_posts_cov") [0, 1]) (.const (.int 1)))) (.tri (.ref (n!"num_adj_parm") [0, 1])) (.const (.int 0))) (
        .field { name := some (n!"errcov_c2"), size := .const 21, ty := .flt, frmt := some (.other 4) } <|
        .nil) <|
      .loop (.ite (.and (.eq (.ref (n!"post_sub_alloc") [0, 1]) (.const (.int 1))) (.eq (.ref (n!"common_posts_cov") [0, 1]) (.const (.int 0)))) (.ref (n!"num_posts") [0, 1]) (.const (.int 0))) (
        .loop (.ite (.and (.eq (.ref (n!"post_sub_alloc") [0, 1]) (.const (.int 1))) (.eq (.ref (n!"common_posts_cov") [0, 1]) (.const (.int 0)))) (.tri (.ref (n!"num_adj_parm") [0, 1])) (.const (.int 0))) (
          .field { name := some (n!"errcov_c2_1"), size := .const 21, ty := .flt, frmt := some (.other 4) } <|
          .nil) <|
        .nil) <|
      .field { name := some (n!"post_interp"), size := .const 1, ty := .int, cond := some (.eq (.ref (n!"post_sub_alloc") [0, 1]) (.const (.int 1))) } <|
      .field { name := some (n!"post_pf_flag"), size := .const 1, ty := .int, cond := some (.eq (.ref (n!"post_sub_alloc") [0, 1]) (.const (.int 1))) } <|
      .field { name := some (n!"num_post_pf"), size := .const 1, ty := .int, cond := some (.and (.eq (.ref (n!"post_sub_alloc") [0, 1]) (.const (.int 1))) (.eq (.ref (n!"post_pf_flag") [0, 1]) (.const (.int 1)))) } <|
      .loop (.ref (n!"num_post_pf") [0, 1]) (
        .field { name := some (n!"post_pf_spdcf"), size := .const 2, ty := .int, cond := some (.and (.eq (.ref (n!"post_sub_alloc") [0, 1]) (.const (.int 1))) (.eq (.ref (n!"post_pf_flag") [0, 1]) (.const (.int 1)))) } <|
        .field { name := some (n!"num_pairings_post_pf"), size := .const 2, ty := .int, cond := some (.and (.eq (.ref (n!"post_sub_alloc") [0, 1]) (.const (.int 1))) (.eq (.ref (n!"post_pf_flag") [0, 1]) (.const (.int 1)))) } <|
        .loop (.ref (n!"num_pairings_post_pf") [0, 1, 2]) (
          .field { name := some (n!"post_pf_spdcf_sensor"), size := .const 6, ty := .str } <|
          .nil) <|
        .nil) <|
      .field { name := some (n!"post_pl_flag"), size := .const 1, ty := .int, cond := some (.eq (.ref (n!"post_sub_alloc") [0, 1]) (.const (.int 1))) } <|
      .field { name := some (n!"num_post_pl"), size := .const 1, ty := .int, cond := some (.and (.eq (.ref (n!"post_sub_alloc") [0, 1]) (.const (.int 1))) (.eq (.ref (n!"post_pl_flag") [0, 1]) (.const (.int 1)))) } <|
      .loop (.ref (n!"num_post_pl") [0, 1]) (
        .field { name := some (n!"post_pl_spdcf"), size := .const 2, ty := .int, cond := some (.and (.eq (.ref (n!"post_sub_alloc") [0, 1]) (.const (.int 1))) (.eq (.ref (n!"post_pl_flag") [0, 1]) (.const (.int 1)))) } <|
        .field { name := some (n!"num_pairings_post_pl"), size := .const 2, ty := .int, cond := some (.and (.eq (.ref (n!"post_sub_alloc") [0, 1]) (.const (.int 1))) (.eq (.ref (n!"post_pl_flag") [0, 1]) (.const (.int 1)))) } <|
        .loop (.ref (n!"num_pairings_post_pl") [0, 1, 2]) (
          .field { name := some (n!"post_pl_spdcf_sensor"), size := .const 6, ty := .str } <|
          .nil) <|
        .nil) <|
      .field { name := some (n!"post_sr_flag"), size := .const 1, ty := .int, cond := some (.eq (.ref (n!"post_sub_alloc") [0, 1]) (.const (.int 1))) } <|
      .field { name := some (n!"post_sr_spdcf"), size := .const 2, ty := .int, cond := some (.and (.eq (.ref (n!"post_sub_alloc") [0, 1]) (.const (.int 1))) (.eq (.ref (n!"post_sr_flag") [0, 1]) (.const (.int 1)))) } <|
      .field { name := some (n!"post_corr"), size := .const 1, ty := .int, cond := some (.and (.eq (.ref (n!"post_sub_alloc") [0, 1]) (.const (.int 1))) (.eq (.ref (n!"post_sr_flag") [0, 1]) (.const (.int 1)))) } <|
      .nil) <|
    .nil) <|
  .field { name := some (n!"io_cal_ap"), size := .const 1, ty := .int } <|
  .field { name := some (n!"num_sets_cal_ap"), size := .const 2, ty := .int, cond := some (.eq (.ref (n!"io_cal_ap") []) (.const (.int 1))) } <|
  .loop (.ite (.eq (.ref (n!"io_cal_ap") []) (.const (.int 1))) (.ref (n!"num_sets_cal_ap") []) (.const (.int 0))) (
    .field { name := some (n!"focal_length_cal"), size := .const 11, ty := .flt, frmt := some (.other 7) } <|
    .nil) <|
  .field { name := some (n!"ncal_cpg"), size := .const 2, ty := .int, cond := some (.eq (.ref (n!"io_cal_ap") []) (.const (.int 1))) } <|
  .loop (.ite (.eq (.ref (n!"io_cal_ap") []) (.const (.int 1))) (.ref (n!"ncal_cpg") []) (.const (.int 0))) (
    .field { name := some (n!"corr_ref_date_io"), size := .const 8, ty := .str } <|
    .field { name := some (n!"corr_ref_time_io"), size := .const 16, ty := .flt, frmt := some (.other 2) } <|
    .field { name := some (n!"n1cal"), size := .const 2, ty := .int } <|
    .loop (.ite (.eq (.ref (n!"io_cal_ap") []) (.const (.int 1))) (.ref (n!"n1cal") [0]) (.const (.int 0))) (
      .field { name := some (n!"cal_ap_id"), size := .const 2, ty := .int } <|
      .nil) <|
    .loop (.ite (.eq (.ref (n!"io_cal_ap") []) (.const (.int 1))) (.ref (n!"num_sets_cal_ap") []) (.const (.int 0))) (
      .loop (.ite (.eq (.ref (n!"io_cal_ap") []) (.const (.int 1))) (.tri (.ref (n!"n1cal") [0])) (.const (.int 0))) (
        .field { name := some (n!"errcov_c3"), size := .const 21, ty := .flt, frmt := some (.other 4) } <|
        .nil) <|
      .nil) <|
    .field { name := some (n!"cal_interp"), size := .const 1, ty := .int } <|
    .field { name := some (n!"spdcf_id_time"), size := .const 2, ty := .int } <|
    .field { name := some (n!"spdcf_id_fl"), size := .const 2, ty := .int } <|
    .nil) <|
  .field { name := some (n!"ts_cal_ap"), size := .const 1, ty := .int } <|
  .field { name := some (n!"num_ts_grp"), size := .const 1, ty := .int, cond := some (.eq (.ref (n!"ts_cal_ap") []) (.const (.int 1))) } <|
  .field { name := some (n!"corr_ref_date_ts1"), size := .const 8, ty := .str, cond := some (.and (.eq (.ref (n!"ts_cal_ap") []) (.const (.int 1))) (.eq (.ref (n!"num_ts_grp") []) (.const (.int 1)))) } <|
  .field { name := some (n!"corr_ref_time_ts1"), size := .const 16, ty := .flt, frmt := some (.other 2), cond := some (.and (.eq (.ref (n!"ts_cal_ap") []) (.const (.int 1))) (.eq (.ref (n!"num_ts_grp") []) (.const (.int 1)))) } <|
  .field { name := some (n!"tsrr"), size := .const 21, ty := .flt, frmt := some (.other 4), cond := some (.and (.eq (.ref (n!"ts_cal_ap") []) (.const (.int 1))) (.eq (.ref (n!"num_ts_grp") []) (.const (.int 1)))) } <|
  .field { name := some (n!"tsrc"), size := .const 21, ty := .flt, frmt := some (.other 4), cond := some (.and (.eq (.ref (n!"ts_cal_ap") []) (.const (.int 1))) (.eq (.ref (n!"num_ts_grp") []) (.const (.int 1)))) } <|
  .field { name := some (n!"tsrc"), size := .const 21, ty := .flt, frmt := some (.other 4), cond := some (.and (.eq (.ref (n!"ts_cal_ap") []) (.const (.int 1))) (.eq (.ref (n!"num_ts_grp") []) (.const (.int 1)))) } <|
  .field { name := some (n!"ts_spdcf1"), size := .const 2, ty := .int, cond := some (.and (.eq (.ref (n!"ts_cal_ap") []) (.const (.int 1))) (.eq (.ref (n!"num_ts_grp") []) (.const (.int 1)))) } <|
  .field { name := some (n!"corr_ref_date_tsp2"), size := .const 8, ty := .str, cond := some (.and (.eq (.ref (n!"ts_cal_ap") []) (.const (.int 1))) (.eq (.ref (n!"num_ts_grp") []) (.const (.int 2)))) } <|
  .field { name := some (n!"corr_ref_time_tsp2"), size := .const 16, ty := .flt, frmt := some (.other 2), cond := some (.and (.eq (.ref (n!"ts_cal_ap") []) (.const (.int 1))) (.eq (.ref (n!"num_ts_grp") []) (.const (.int 2)))) } <|
  .field { name := some (n!"ts_pos_cov2"), size := .const 21, ty := .flt, frmt := some (.other 4), cond := some (.and (.eq (.ref (n!"ts_cal_ap") []) (.const (.int 1))) (.eq (.ref (n!"num_ts_grp") []) (.const (.int 2)))) } <|
  .field { name := some (n!"ts_pos_spdcf2"), size := .const 2, ty := .int, cond := some (.and (.eq (.ref (n!"ts_cal_ap") []) (.const (.int 1))) (.eq (.ref (n!"num_ts_grp") []) (.const (.int 2)))) } <|
  .field { name := some (n!"corr_ref_date_tsa2"), size := .const 8, ty := .str, cond := some (.and (.eq (.ref (n!"ts_cal_ap") []) (.const (.int 1))) (.eq (.ref (n!"num_ts_grp") []) (.const (.int 2)))) } <|
  .field { name := some (n!"corr_ref_time_tsa2"), size := .const 16, ty := .flt, frmt := some (.other 2), cond := some (.and (.eq (.ref (n!"ts_cal_ap") []) (.const (.int 1))) (.eq (.ref (n!"num_ts_grp") []) (.const (.int 2)))) } <|
  .field { name := some (n!"ts_att_cov2"), size := .const 21, ty := .flt, frmt := some (.other 4), cond := some (.and (.eq (.ref (n!"ts_cal_ap") []) (.const (.int 1))) (.eq (.ref (n!"num_ts_grp") []) (.const (.int 2)))) } <|
  .field { name := some (n!"ts_att_spdcf2"), size := .const 2, ty := .int, cond := some (.and (.eq (.ref (n!"ts_cal_ap") []) (.const (.int 1))) (.eq (.ref (n!"num_ts_grp") []) (.const (.int 2)))) } <|
  .field { name := some (n!"corr_ref_date_ts3"), size := .const 8, ty := .str, cond := some (.and (.eq (.ref (n!"ts_cal_ap") []) (.const (.int 1))) (.eq (.ref (n!"num_ts_grp") []) (.const (.int 3)))) } <|
  .field { name := some (n!"corr_ref_time_ts3"), size := .const 16, ty := .flt, frmt := some (.other 2), cond := some (.and (.eq (.ref (n!"ts_cal_ap") []) (.const (.int 1))) (.eq (.ref (n!"num_ts_grp") []) (.const (.int 3)))) } <|
  .field { name := some (n!"ts_pos_cov3"), size := .const 21, ty := .flt, frmt := some (.other 4), cond := some (.and (.eq (.ref (n!"ts_cal_ap") []) (.const (.int 1))) (.eq (.ref (n!"num_ts_grp") []) (.const (.int 3)))) } <|
  .field { name := some (n!"ts_pos_att_cov3"), size := .const 21, ty := .flt, frmt := some (.other 4), cond := some (.and (.eq (.ref (n!"ts_cal_ap") []) (.const (.int 1))) (.eq (.ref (n!"num_ts_grp") []) (.const (.int 3)))) } <|
  .field { name := some (n!"ts_pos_fl_cov3"), size := .const 21, ty := .flt, frmt := some (.other 4), cond := some (.and (.eq (.ref (n!"ts_cal_ap") []) (.const (.int 1))) (.eq (.ref (n!"num_ts_grp") []) (.const (.int 3)))) } <|
  .field { name := some (n!"ts_att_cov3"), size := .const 21, ty := .flt, frmt := some (.other 4), cond := some (.and (.eq (.ref (n!"ts_cal_ap") []) (.const (.int 1))) (.eq (.ref (n!"num_ts_grp") []) (.const (.int 3)))) } <|
  .field { name := some (n!"ts_att_fl_cov3"), size := .const 21, ty := .flt, frmt := some (.other 4), cond := some (.and (.eq (.ref (n!"ts_cal_ap") []) (.const (.int 1))) (.eq (.ref (n!"num_ts_grp") []) (.const (.int 3)))) } <|
  .field { name := some (n!"ts_fl_cov3"), size := .const 21, ty := .flt, frmt := some (.other 4), cond := some (.and (.eq (.ref (n!"ts_cal_ap") []) (.const (.int 1))) (.eq (.ref (n!"num_ts_grp") []) (.const (.int 3)))) } <|
  .field { name := some (n!"ts_spdcf3"), size := .const 2, ty := .int, cond := some (.and (.eq (.ref (n!"ts_cal_ap") []) (.const (.int 1))) (.eq (.ref (n!"num_ts_grp") []) (.const (.int 3)))) } <|
  .field { name := some (n!"corr_ref_date_tspa4"), size := .const 8, ty := .str, cond := some (.and (.eq (.ref (n!"ts_cal_ap") []) (.const (.int 1))) (.eq (.ref (n!"num_ts_grp") []) (.const (.int 4)))) } <|
  .field { name := some (n!"corr_ref_time_tspa4"), size := .const 16, ty := .flt, frmt := some (.other 2), cond := some (.and (.eq (.ref (n!"ts_cal_ap") []) (.const (.int 1))) (.eq (.ref (n!"num_ts_grp") []) (.const (.int 4)))) } <|
  .field { name := some (n!"ts_pos_cov4"), size := .const 21, ty := .flt, frmt := some (.other 4), cond := some (.and (.eq (.ref (n!"ts_cal_ap") []) (.const (.int 1))) (.eq (.ref (n!"num_ts_grp") []) (.const (.int 4)))) } <|
  .field { name := some (n!"ts_pos_att_cov4"), size := .const 21, ty := .flt, frmt := some (.other 4), cond := some (.and (.eq (.ref (n!"ts_cal_ap") []) (.const (.int 1))) (.eq (.ref (n!"num_ts_grp") []) (.const (.int 4)))) } <|
  .field { name := some (n!"ts_att_cov4"), size := .const 21, ty := .flt, frmt := some (.other 4), cond := some (.and (.eq (.ref (n!"ts_cal_ap") []) (.const (.int 1))) (.eq (.ref (n!"num_ts_grp") []) (.const (.int 4)))) } <|
  .field { name := some (n!"ts_pa_spdcf4"), size := .const 2, ty := .int, cond := some (.and (.eq (.ref (n!"ts_cal_ap") []) (.const (.int 1))) (.eq (.ref (n!"num_ts_grp") []) (.const (.int 4)))) } <|
  .field { name := some (n!"corr_ref_date_tsfl4"), size := .const 8, ty := .str, cond := some (.and (.eq (.ref (n!"ts_cal_ap") []) (.const (.int 1))) (.eq (.ref (n!"num_ts_grp") []) (.const (.int 4)))) } <|
  .field { name := some (n!"corr_ref_time_tsfl4"), size := .const 16, ty := .flt, frmt := some (.other 2), cond := some (.and (.eq (.ref (n!"ts_cal_ap") []) (.const (.int 1))) (.eq (.ref (n!"num_ts_grp") []) (.const (.int 4)))) } <|
  .field { name := some (n!"ts_fl_cov4"), size := .const 21, ty := .flt, frmt := some (.other 4), cond := some (.and (.eq (.ref (n!"ts_cal_ap") []) (.const (.int 1))) (.eq (.ref (n!"num_ts_grp") []) (.const (.int 4)))) } <|
  .field { name := some (n!"ts_fl_spdcf4"), size := .const 2, ty := .int, cond := some (.and (.eq (.ref (n!"ts_cal_ap") []) (.const (.int 1))) (.eq (.ref (n!"num_ts_grp") []) (.const (.int 4)))) } <|
  .field { name := some (n!"corr_ref_date_tsp5"), size := .const 8, ty := .str, cond := some (.and (.eq (.ref (n!"ts_cal_ap") []) (.const (.int 1))) (.eq (.ref (n!"num_ts_grp") []) (.const (.int 5)))) } <|
  .field { name := some (n!"corr_ref_time_tsp5"), size := .const 16, ty := .flt, frmt := some (.other 2), cond := some (.and (.eq (.ref (n!"ts_cal_ap") []) (.const (.int 1))) (.eq (.ref (n!"num_ts_grp") []) (.const (.int 5)))) } <|
  .field { name := some (n!"ts_pos_cov5"), size := .const 21, ty := .flt, frmt := some (.other 4), cond := some (.and (.eq (.ref (n!"ts_cal_ap") []) (.const (.int 1))) (.eq (.ref (n!"num_ts_grp") []) (.const (.int 5)))) } <|
  .field { name := some (n!"ts_pos_spdcf5"), size := .const 2, ty := .int, cond := some (.and (.eq (.ref (n!"ts_cal_ap") []) (.const (.int 1))) (.eq (.ref (n!"num_ts_grp") []) (.const (.int 5)))) } <|
  .field { name := some (n!"corr_ref_date_tsa5"), size := .const 8, ty := .str, cond := some (.and (.eq (.ref (n!"ts_cal_ap") []) (.const (.int 1))) (.eq (.ref (n!"num_ts_grp") []) (.const (.int 5)))) } <|
  .field { name := some (n!"corr_ref_time_tsa5"), size := .const 16, ty := .flt, frmt := some (.other 2), cond := some (.and (.eq (.ref (n!"ts_cal_ap") []) (.const (.int 1))) (.eq (.ref (n!"num_ts_grp") []) (.const (.int 5)))) } <|
  .field { name := some (n!"ts_att_cov5"), size := .const 21, ty := .flt, frmt := some (.other 4), cond := some (.and (.eq (.ref (n!"ts_cal_ap") []) (.const (.int 1))) (.eq (.ref (n!"num_ts_grp") []) (.const (.int 5)))) } <|
  .field { name := some (n!"ts_att_spdcf5"), size := .const 2, ty := .int, cond := some (.and (.eq (.ref (n!"ts_cal_ap") []) (.const (.int 1))) (.eq (.ref (n!"num_ts_grp") []) (.const (.int 5)))) } <|
  .field { name := some (n!"corr_ref_date_tsfl5"), size := .const 8, ty := .str, cond := some (.and (.eq (.ref (n!"ts_cal_ap") []) (.const (.int 1))) (.eq (.ref (n!"num_ts_grp") []) (.const (.int 5)))) } <|
  .field { name := some (n!"corr_ref_time_tsfl5"), size := .const 16, ty := .flt, frmt := some (.other 2), cond := some (.and (.eq (.ref (n!"ts_cal_ap") []) (.const (.int 1))) (.eq (.ref (n!"num_ts_grp") []) (.const (.int 5)))) } <|
  .field { name := some (n!"ts_fl_cov5"), size := .const 21, ty := .flt, frmt := some (.other 4), cond := some (.and (.eq (.ref (n!"ts_cal_ap") []) (.const (.int 1))) (.eq (.ref (n!"num_ts_grp") []) (.const (.int 5)))) } <|
  .field { name := some (n!"ts_fl_spdcf5"), size := .const 2, ty := .int, cond := some (.and (.eq (.ref (n!"ts_cal_ap") []) (.const (.int 1))) (.eq (.ref (n!"num_ts_grp") []) (.const (.int 5)))) } <|
  .field { name := some (n!"ue_flag"), size := .const 1, ty := .int } <|
  .field { name := some (n!"line_dimension"), size := .const 3, ty := .int, cond := some (.eq (.ref (n!"ue_flag") []) (.const (.int 1))) } <|
  .field { name := some (n!"sample_dimension"), size := .const 2, ty := .int, cond := some (.eq (.ref (n!"ue_flag") []) (.const (.int 1))) } <|
  .loop (.ref (n!"line_dimension") []) (
    .loop (.ref (n!"sample_dimension") []) (
      .field { name := some (n!"urr"), size := .const 21, ty := .flt, frmt := some (.other 4) } <|
      .field { name := some (n!"urc"), size := .const 21, ty := .flt, frmt := some (.other 4) } <|
      .field { name := some (n!"ucc"), size := .const 21, ty := .flt, frmt := some (.other 4) } <|
      .nil) <|
    .nil) <|
  .field { name := some (n!"line_spdcf"), size := .const 2, ty := .int, cond := some (.eq (.ref (n!"ue_flag") []) (.const (.int 1))) } <|
  .field { name := some (n!"sample_spdcf"), size := .const 2, ty := .int, cond := some (.eq (.ref (n!"ue_flag") []) (.const (.int 1))) } <|
  .field { name := some (n!"spdcf_flag"), size := .const 1, ty := .int } <|
  .field { name := some (n!"num_spdcf"), size := .const 2, ty := .int, cond := some (.eq (.ref (n!"spdcf_flag") []) (.const (.int 1))) } <|
  .loop (.ref (n!"num_spdcf") []) (
    .field { name := some (n!"spdcf_id"), size := .const 2, ty := .int } <|
    .field { name := some (n!"spdcf_p"), size := .const 2, ty := .int } <|
    .loop (.ref (n!"spdcf_p") [0]) (
      .field { name := some (n!"spdcf_fam"), size := .const 1, ty := .int } <|
      .field { name := some (n!"spdcf_weight"), size := .const 5, ty := .flt, frmt := some (.other 8) } <|
      .field { name := some (n!"fp_a"), size := .const 8, ty := .flt, cond := some (.eq (.ref (n!"spdcf_fam") [0, 1]) (.const (.int 0))), frmt := some (.other 9) } <|
      .field { name := some (n!"fp_alpha"), size := .const 8, ty := .flt, cond := some (.eq (.ref (n!"spdcf_fam") [0, 1]) (.const (.int 0))), frmt := some (.other 9) } <|
      .field { name := some (n!"fp_beta"), size := .const 9, ty := .flt, cond := some (.eq (.ref (n!"spdcf_fam") [0, 1]) (.const (.int 0))), frmt := some (.other 10) } <|
      .field { name := some (n!"fp_t"), size := .const 21, ty := .flt, cond := some (.eq (.ref (n!"spdcf_fam") [0, 1]) (.const (.int 0))), frmt := some (.other 11) } <|
      .field { name := some (n!"num_segs"), size := .const 2, ty := .int, cond := some (.eq (.ref (n!"spdcf_fam") [0, 1]) (.const (.int 1))) } <|
      .loop (.ref (n!"num_segs") [0, 1]) (
        .field { name := some (n!"pl_max_cor"), size := .const 8, ty := .flt, frmt := some (.other 9) } <|
        .field { name := some (n!"pl_tau_max_cor"), size := .const 21, ty := .flt, frmt := some (.other 11) } <|
        .nil) <|
      .field { name := some (n!"dc_a"), size := .const 8, ty := .flt, cond := some (.eq (.ref (n!"spdcf_fam") [0, 1]) (.const (.int 2))), frmt := some (.other 9) } <|
      .field { name := some (n!"dc_t"), size := .const 21, ty := .flt, cond := some (.eq (.ref (n!"spdcf_fam") [0, 1]) (.const (.int 2))), frmt := some (.other 11) } <|
      .field { name := some (n!"dc_p"), size := .const 21, ty := .flt, cond := some (.eq (.ref (n!"spdcf_fam") [0, 1]) (.const (.int 2))), frmt := some (.other 11) } <|
      .nil) <|
    .nil) <|
  .field { name := some (n!"direct_covariance_flag"), size := .const 1, ty := .int } <|
  .field { name := some (n!"dc_type"), size := .const 1, ty := .int, cond := some (.eq (.ref (n!"direct_covariance_flag") []) (.const (.int 1))) } <|
  .field { name := some (n!"num_para"), size := .const 4, ty := .int, cond := some (.eq (.ref (n!"dc_type") []) (.const (.int 0))) } <|
  .loop (.ref (n!"num_para") []) (
    .field { name := some (n!"ad"), size := .const 21, ty := .flt, frmt := some (.other 11) } <|
    .nil) <|
  .loop (.ite (.eq (.ref (n!"dc_type") []) (.const (.int 0))) (.tri (.ref (n!"num_para") [])) (.const (.int 0))) (
    .field { name := some (n!"errcov_c4"), size := .const 21, ty := .flt, frmt := some (.other 11) } <|
    .nil) <|
  .field { name := some (n!"reserved_len"), size := .const 9, ty := .int, default := some (.int 0) } <|
  .field { name := some (n!"reserved"), size := .expr (.ref (n!"reserved_len") []), ty := .bytes, kind := .bytesData } <|
  .nil

/-- nitf_graphic_subheader.py:15-49. -/
def t_graphic_subheader : Desc :=
  .field { name := some (n!"sy"), size := .const 2, ty := .str, default := some (.str "SY"), hardcoded := true } <|
  .field { name := some (n!"sid"), size := .const 10, ty := .str } <|
  .field { name := some (n!"sname"), size := .const 20, ty := .str } <|
  .field { name := some (n!"ssclas"), size := .const 1, ty := .str, default := some (.str "U") } <|
  .field { name := some (n!"ssclsy"), size := .const 2, ty := .str } <|
  .field { name := some (n!"sscode"), size := .const 11, ty := .str } <|
  .field { name := some (n!"ssctlh"), size := .const 2, ty := .str } <|
  .field { name := some (n!"ssrel"), size := .const 20, ty := .str } <|
  .field { name := some (n!"ssdctp"), size := .const 2, ty := .str } <|
  .field { name := some (n!"ssdcdt"), size := .const 8, ty := .str } <|
  .field { name := some (n!"ssdcxm"), size := .const 4, ty := .str } <|
  .field { name := some (n!"ssdg"), size := .const 1, ty := .str } <|
  .field { name := some (n!"ssdgdt"), size := .const 8, ty := .str } <|
  .field { name := some (n!"sscltx"), size := .const 43, ty := .str } <|
  .field { name := some (n!"sscatp"), size := .const 1, ty := .str } <|
  .field { name := some (n!"sscaut"), size := .const 40, ty := .str } <|
  .field { name := some (n!"sscrsn"), size := .const 1, ty := .str } <|
  .field { name := some (n!"sssrdt"), size := .const 8, ty := .str } <|
  .field { name := some (n!"ssctln"), size := .const 15, ty := .str } <|
  .field { name := some (n!"encryp"), size := .const 1, ty := .int } <|
  .field { name := some (n!"sfmt"), size := .const 1, ty := .str } <|
  .field { name := some (n!"sstruct"), size := .const 13, ty := .int } <|
  .field { name := some (n!"sdlvl"), size := .const 3, ty := .int } <|
  .field { name := some (n!"salvl"), size := .const 3, ty := .int } <|
  .field { name := some (n!"sloc"), size := .const 10, ty := .str, default := some (.str "0000000000") } <|
  .field { name := some (n!"sbnd1"), size := .const 10, ty := .int } <|
  .field { name := some (n!"scolor"), size := .const 1, ty := .str } <|
  .field { name := some (n!"sbnd2"), size := .const 10, ty := .int } <|
  .field { name := some (n!"sres2"), size := .const 2, ty := .int } <|
  .field { name := some (n!"sxshdl"), size := .const 5, ty := .int } <|
  .field { name := some (n!"sxofl"), size := .const 3, ty := .int, cond := some (.ne (.ref (n!"sxshdl") []) (.const (.int 0))) } <|
  .field { name := some (n!"sxshd"), size := .expr (.ref (n!"sxshdl") []), ty := .bytes, kind := .bytesData, sizeOffset := 3 } <|
  .nil

/-- nitf_tre_csde.py:17-35. -/
def t_tre_csde_1 : Desc :=
  .field { name := some (n!"acquisition_date"), size := .const 14, ty := .str } <|
  .field { name := some (n!"mission"), size := .const 14, ty := .str } <|
  .field { name := some (n!"pass_"), size := .const 2, ty := .str } <|
  .field { name := some (n!"op_num"), size := .const 3, ty := .int } <|
  .field { name := some (n!"start_segment"), size := .const 2, ty := .str } <|
  .field { name := some (n!"repro_num"), size := .const 2, ty := .int } <|
  .field { name := some (n!"replay_regen"), size := .const 3, ty := .str } <|
  .field { name := some (n!"blank_fill"), size := .const 1, ty := .str } <|
  .field { name := some (n!"start_column"), size := .const 3, ty := .int } <|
  .field { name := some (n!"start_row"), size := .const 5, ty := .int } <|
  .field { name := some (n!"end_segment"), size := .const 2, ty := .str } <|
  .field { name := some (n!"end_column"), size := .const 3, ty := .int } <|
  .field { name := some (n!"end_row"), size := .const 5, ty := .int } <|
  .field { name := some (n!"country"), size := .const 2, ty := .str, optional := true } <|
  .field { name := some (n!"wac"), size := .const 4, ty := .int, optional := true } <|
  .field { name := some (n!"location"), size := .const 11, ty := .str } <|
  .field { name := none, size := .const 5, ty := .str } <|
  .field { name := none, size := .const 8, ty := .str } <|
  .nil

/-- nitf_tre_csexrb.py:32-131, with `allow_extensions` (nitf_tre.py:22) false. -/
def t_tre_csexrb_std : Desc :=
  .field { name := some (n!"image_uuid"), size := .const 36, ty := .str } <|
  .field { name := some (n!"num_assoc_des"), size := .const 3, ty := .int } <|
  .loop (.ref (n!"num_assoc_des") []) (
    .field { name := some (n!"assoc_des_id"), size := .const 36, ty := .str } <|
    .nil) <|
  .field { name := some (n!"platform_id"), size := .const 6, ty := .str } <|
  .field { name := some (n!"payload_id"), size := .const 6, ty := .str } <|
  .field { name := some (n!"sensor_id"), size := .const 6, ty := .str } <|
  .field { name := some (n!"sensor_type"), size := .const 1, ty := .str } <|
  .field { name := some (n!"ground_ref_point_x"), size := .const 12, ty := .flt, frmt := some (.other 12), optional := true } <|
  .field { name := some (n!"ground_ref_point_y"), size := .const 12, ty := .flt, frmt := some (.other 12), optional := true } <|
  .field { name := some (n!"ground_ref_point_z"), size := .const 12, ty := .flt, frmt := some (.other 12), optional := true } <|
  .field { name := some (n!"day_first_line_image"), size := .const 8, ty := .str, cond := some (.isin (.ref (n!"sensor_type") []) [(.str "S")]) } <|
  .field { name := some (n!"time_first_line_image"), size := .const 15, ty := .flt, cond := some (.isin (.ref (n!"sensor_type") []) [(.str "S")]), frmt := some (.other 14) } <|
  .field { name := some (n!"time_image_duration"), size := .const 16, ty := .flt, cond := some (.isin (.ref (n!"sensor_type") []) [(.str "S")]), frmt := some (.other 30) } <|
  .field { name := some (n!"time_stamp_loc"), size := .const 1, ty := .int, cond := some (.eq (.ref (n!"sensor_type") []) (.const (.str "F"))) } <|
  .field { name := some (n!"reference_frame_num"), size := .const 9, ty := .int, cond := some (.and (.eq (.ref (n!"sensor_type") []) (.const (.str "F"))) (.eq (.ref (n!"time_stamp_loc") []) (.const (.int 0)))) } <|
  .field { name := some (n!"base_timestamp"), size := .const 24, ty := .str, cond := some (.and (.eq (.ref (n!"sensor_type") []) (.const (.str "F"))) (.eq (.ref (n!"time_stamp_loc") []) (.const (.int 0)))) } <|
  .field { name := some (n!"dt_multiplier"), size := .const 8, ty := .bytes, kind := .intData false, cond := some (.and (.eq (.ref (n!"sensor_type") []) (.const (.str "F"))) (.eq (.ref (n!"time_stamp_loc") []) (.const (.int 0)))), sizeNotUpdated := true } <|
  .field { name := some (n!"dt_size"), size := .const 1, ty := .bytes, kind := .intData false, cond := some (.and (.eq (.ref (n!"sensor_type") []) (.const (.str "F"))) (.eq (.ref (n!"time_stamp_loc") []) (.const (.int 0)))), sizeNotUpdated := true } <|
  .field { name := some (n!"number_frames"), size := .const 4, ty := .bytes, kind := .intData false, cond := some (.and (.eq (.ref (n!"sensor_type") []) (.const (.str "F"))) (.eq (.ref (n!"time_stamp_loc") []) (.const (.int 0)))), sizeNotUpdated := true } <|
  .field { name := some (n!"number_dt"), size := .const 4, ty := .bytes, kind := .intData false, cond := some (.and (.eq (.ref (n!"sensor_type") []) (.const (.str "F"))) (.eq (.ref (n!"time_stamp_loc") []) (.const (.int 0)))), sizeNotUpdated := true } <|
  .loop (.ite (.and (.eq (.ref (n!"sensor_type") []) (.const (.str "F"))) (.eq (.ref (n!"time_stamp_loc") []) (.const (.int 0)))) (.ref (n!"number_dt") []) (.const (.int 0))) (
    .field { name := some (n!"dt"), size := .expr (.ref (n!"dt_size") []), ty := .bytes, kind := .intData false, sizeNotUpdated := true } <|
    .nil) <|
  .field { name := some (n!"max_gsd"), size := .const 12, ty := .flt, frmt := some (.other 31), optional := true } <|
  .field { name := some (n!"along_scan_gsd"), size := .const 12, ty := .flt, frmt := some (.other 31), optional := true } <|
  .field { name := some (n!"cross_scan_gsd"), size := .const 12, ty := .flt, frmt := some (.other 31), optional := true } <|
  .field { name := some (n!"geo_scan_gsd"), size := .const 12, ty := .flt, frmt := some (.other 31), optional := true } <|
  .field { name := some (n!"a_s_vert_gsd"), size := .const 12, ty := .flt, frmt := some (.other 31), optional := true } <|
  .field { name := some (n!"c_s_vert_gsd"), size := .const 12, ty := .flt, frmt := some (.other 31), optional := true } <|
  .field { name := some (n!"geo_mean_vert_gsd"), size := .const 12, ty := .flt, frmt := some (.other 31), optional := true } <|
  .field { name := some (n!"geo_beta_angle"), size := .const 5, ty := .flt, frmt := some (.other 32), optional := true } <|
  .field { name := some (n!"dynamic_range"), size := .const 5, ty := .int, optional := true } <|
  .field { name := some (n!"num_lines"), size := .const 7, ty := .int } <|
  .field { name := some (n!"num_samples"), size := .const 5, ty := .int } <|
  .field { name := some (n!"angle_to_north"), size := .const 7, ty := .flt, frmt := some (.other 33), optional := true } <|
  .field { name := some (n!"obliquity_angle"), size := .const 6, ty := .flt, frmt := some (.other 34), optional := true } <|
  .field { name := some (n!"az_of_obliquity"), size := .const 7, ty := .flt, frmt := some (.other 33), optional := true } <|
  .field { name := some (n!"atm_refr_flag"), size := .const 1, ty := .int, default := some (.int 1) } <|
  .field { name := some (n!"vel_aber_flag"), size := .const 1, ty := .int, default := some (.int 1) } <|
  .field { name := some (n!"grd_cover"), size := .const 1, ty := .int, default := some (.int 9) } <|
  .field { name := some (n!"snow_depth_category"), size := .const 1, ty := .int, default := some (.int 9) } <|
  .field { name := some (n!"sun_azimuth"), size := .const 7, ty := .flt, frmt := some (.other 35), optional := true } <|
  .field { name := some (n!"sun_elevation"), size := .const 7, ty := .flt, frmt := some (.other 33), optional := true } <|
  .field { name := some (n!"predicted_niirs"), size := .const 3, ty := .flt, frmt := some (.other 36), optional := true } <|
  .field { name := some (n!"circl_err"), size := .const 5, ty := .flt, frmt := some (.other 25), optional := true } <|
  .field { name := some (n!"linear_err"), size := .const 5, ty := .flt, frmt := some (.other 25), optional := true } <|
  .field { name := some (n!"cloud_cover"), size := .const 3, ty := .int, optional := true } <|
  .field { name := some (n!"rolling_shutter_flag"), size := .const 1, ty := .int, cond := some (.eq (.ref (n!"sensor_type") []) (.const (.str "F"))), optional := true } <|
  .field { name := some (n!"ue_time_flag"), size := .const 1, ty := .int, optional := true } <|
  .field { name := some (n!"reserved_len"), size := .const 5, ty := .int } <|
  .field { name := some (n!"reserved"), size := .expr (.ref (n!"reserved_len") []), ty := .bytes, kind := .bytesData } <|
  .nil

/-- nitf_tre_engrda.py:104-122. -/
def t_tre_engrda : Desc :=
  .field { name := some (n!"resrc"), size := .const 20, ty := .str } <|
  .field { name := some (n!"recnt"), size := .const 3, ty := .int } <|
  .loop (.ref (n!"recnt") []) (
    .field { name := some (n!"engln"), size := .const 2, ty := .int } <|
    .field { name := some (n!"englbl"), size := .expr (.ref (n!"engln") [0]), ty := .bytes, kind := .strData } <|
    .field { name := some (n!"engmtxc"), size := .const 4, ty := .int } <|
    .field { name := some (n!"engmtxr"), size := .const 4, ty := .int } <|
    .field { name := some (n!"engtyp"), size := .const 1, ty := .str } <|
    .field { name := some (n!"engdts"), size := .const 1, ty := .int } <|
    .field { name := some (n!"engdatu"), size := .const 2, ty := .str } <|
    .field { name := some (n!"engdatc"), size := .const 8, ty := .int, value := some (.mul (.ref (n!"engmtxc") [0]) (.ref (n!"engmtxr") [0])) } <|
    .field { name := some (n!"engdata"), size := .expr (.mul (.ref (n!"engdatc") [0]) (.ref (n!"engdts") [0])), ty := .bytes, kind := .engrda, sizeNotUpdated := true } <|
    .nil) <|
  .nil

/-- nitf_tre_geosde.py:18-23. -/
def t_tre_geosde_1 : Desc :=
  .field { name := some (n!"uniloa"), size := .const 3, ty := .str, default := some (.str "M") } <|
  .field { name := some (n!"lod"), size := .const 5, ty := .int } <|
  .field { name := some (n!"lad"), size := .const 5, ty := .int } <|
  .field { name := some (n!"lso"), size := .const 15, ty := .flt, frmt := some (.other 37) } <|
  .field { name := some (n!"pso"), size := .const 15, ty := .flt, frmt := some (.other 37) } <|
  .nil

/-- nitf_tre_mimcsa.py:12-20. -/
def t_tre_mimcsa : Desc :=
  .field { name := some (n!"layer_id"), size := .const 36, ty := .str } <|
  .field { name := some (n!"nominal_frame_rate"), size := .const 13, ty := .flt } <|
  .field { name := some (n!"min_frame_rate"), size := .const 13, ty := .flt } <|
  .field { name := some (n!"max_frame_rate"), size := .const 13, ty := .flt } <|
  .field { name := some (n!"t_rset"), size := .const 2, ty := .int } <|
  .field { name := some (n!"mi_req_decoder"), size := .const 2, ty := .str, default := some (.str "NC") } <|
  .field { name := some (n!"mi_req_profile"), size := .const 36, ty := .str } <|
  .field { name := some (n!"mi_req_level"), size := .const 6, ty := .str } <|
  .nil

/-- nitf_tre_piae.py:14-33. -/
def t_tre_piae : Desc :=
  .field { name := some (n!"cloudcvr"), size := .const 3, ty := .int, optional := true } <|
  .field { name := some (n!"srp"), size := .const 1, ty := .str, optional := true } <|
  .field { name := some (n!"sensormode"), size := .const 12, ty := .str, optional := true } <|
  .field { name := some (n!"sensname"), size := .const 18, ty := .str, optional := true } <|
  .field { name := some (n!"source"), size := .const 255, ty := .str, optional := true } <|
  .field { name := some (n!"comgen"), size := .const 2, ty := .int, optional := true, optChar := '-' } <|
  .field { name := some (n!"subqual"), size := .const 1, ty := .str, optional := true } <|
  .field { name := some (n!"piamsnnum"), size := .const 7, ty := .str, optional := true } <|
  .field { name := some (n!"camspecs"), size := .const 32, ty := .str, optional := true } <|
  .field { name := some (n!"projid"), size := .const 2, ty := .str, optional := true } <|
  .field { name := some (n!"generation"), size := .const 1, ty := .int, optional := true, optChar := '-' } <|
  .field { name := some (n!"esd"), size := .const 1, ty := .str, optional := true } <|
  .field { name := some (n!"othercond"), size := .const 2, ty := .str, optional := true } <|
  .field { name := some (n!"mean_gsd"), size := .const 7, ty := .flt, frmt := some (.other 48), optional := true } <|
  .field { name := some (n!"idatum"), size := .const 3, ty := .str, optional := true } <|
  .field { name := some (n!"iellip"), size := .const 3, ty := .str, optional := true } <|
  .field { name := some (n!"preproc"), size := .const 2, ty := .str, optional := true } <|
  .field { name := some (n!"iproj"), size := .const 2, ty := .str, optional := true } <|
  .field { name := some (n!"sattrack"), size := .const 8, ty := .int, optional := true } <|
  .nil

/-- nitf_tre_rpc.py:29-50. -/
def t_tre_rpc : Desc :=
  .field { name := some (n!"success"), size := .const 1, ty := .int } <|
  .field { name := some (n!"err_bias"), size := .const 7, ty := .flt, frmt := some (.other 51) } <|
  .field { name := some (n!"err_rand"), size := .const 7, ty := .flt, frmt := some (.other 51) } <|
  .field { name := some (n!"line_off"), size := .const 6, ty := .int } <|
  .field { name := some (n!"samp_off"), size := .const 5, ty := .int } <|
  .field { name := some (n!"lat_off"), size := .const 8, ty := .flt, frmt := some (.other 52) } <|
  .field { name := some (n!"long_off"), size := .const 9, ty := .flt, frmt := some (.other 53) } <|
  .field { name := some (n!"height_off"), size := .const 5, ty := .int } <|
  .field { name := some (n!"line_scale"), size := .const 6, ty := .int } <|
  .field { name := some (n!"samp_scale"), size := .const 5, ty := .int } <|
  .field { name := some (n!"lat_scale"), size := .const 8, ty := .flt, frmt := some (.other 52) } <|
  .field { name := some (n!"long_scale"), size := .const 9, ty := .flt, frmt := some (.other 53) } <|
  .field { name := some (n!"height_scale"), size := .const 5, ty := .int, frmt := some (.pd 5) } <|
  .loop (.const (.int 20)) (
    .field { name := some (n!"line_num_coeff"), size := .const 12, ty := .flt, frmt := some (.other 54) } <|
    .nil) <|
  .loop (.const (.int 20)) (
    .field { name := some (n!"line_den_coeff"), size := .const 12, ty := .flt, frmt := some (.other 54) } <|
    .nil) <|
  .loop (.const (.int 20)) (
    .field { name := some (n!"samp_num_coeff"), size := .const 12, ty := .flt, frmt := some (.other 54) } <|
    .nil) <|
  .loop (.const (.int 20)) (
    .field { name := some (n!"samp_den_coeff"), size := .const 12, ty := .flt, frmt := some (.other 54) } <|
    .nil) <|
  .nil

/-- nitf_tre_rsmapb.py:18-68. -/
def t_tre_rsmapb : Desc :=
  .field { name := some (n!"iid"), size := .const 80, ty := .str, optional := true } <|
  .field { name := some (n!"edition"), size := .const 40, ty := .str } <|
  .field { name := some (n!"tid"), size := .const 40, ty := .str } <|
  .field { name := some (n!"npar"), size := .const 2, ty := .int } <|
  .field { name := some (n!"aptyp"), size := .const 1, ty := .str } <|
  .field { name := some (n!"loctyp"), size := .const 1, ty := .str } <|
  .field { name := some (n!"nsfx"), size := .const 21, ty := .flt, frmt := some (.other 20) } <|
  .field { name := some (n!"nsfy"), size := .const 21, ty := .flt, frmt := some (.other 20) } <|
  .field { name := some (n!"nsfz"), size := .const 21, ty := .flt, frmt := some (.other 20) } <|
  .field { name := some (n!"noffx"), size := .const 21, ty := .flt, frmt := some (.other 20) } <|
  .field { name := some (n!"noffy"), size := .const 21, ty := .flt, frmt := some (.other 20) } <|
  .field { name := some (n!"noffz"), size := .const 21, ty := .flt, frmt := some (.other 20) } <|
  .field { name := some (n!"xuol"), size := .const 21, ty := .flt, frmt := some (.other 20) } <|
  .field { name := some (n!"yuol"), size := .const 21, ty := .flt, frmt := some (.other 20) } <|
  .field { name := some (n!"zuol"), size := .const 21, ty := .flt, frmt := some (.other 20) } <|
  .field { name := some (n!"xuxl"), size := .const 21, ty := .flt, frmt := some (.other 20) } <|
  .field { name := some (n!"xuyl"), size := .const 21, ty := .flt, frmt := some (.other 20) } <|
  .field { name := some (n!"xuzl"), size := .const 21, ty := .flt, frmt := some (.other 20) } <|
  .field { name := some (n!"yuxl"), size := .const 21, ty := .flt, frmt := some (.other 20) } <|
  .field { name := some (n!"yuyl"), size := .const 21, ty := .flt, frmt := some (.other 20) } <|
  .field { name := some (n!"yuzl"), size := .const 21, ty := .flt, frmt := some (.other 20) } <|
  .field { name := some (n!"zuxl"), size := .const 21, ty := .flt, frmt := some (.other 20) } <|
  .field { name := some (n!"zuyl"), size := .const 21, ty := .flt, frmt := some (.other 20) } <|
  .field { name := some (n!"zuzl"), size := .const 21, ty := .flt, frmt := some (.other 20) } <|
  .field { name := some (n!"apbase"), size := .const 1, ty := .str } <|
  .field { name := some (n!"nisap"), size := .const 2, ty := .int, cond := some (.eq (.ref (n!"aptyp") []) (.const (.str "I"))) } <|
  .field { name := some (n!"nisapr"), size := .const 2, ty := .int, cond := some (.eq (.ref (n!"aptyp") []) (.const (.str "I"))) } <|
  .loop (.ite (.eq (.ref (n!"aptyp") []) (.const (.str "G"))) (.const (.int 0)) (.toInt (.ref (n!"nisapr") []))) (
    .field { name := some (n!"xpwrr"), size := .const 1, ty := .int, cond := some (.eq (.ref (n!"aptyp") []) (.const (.str "I"))) } <|
    .field { name := some (n!"ypwrr"), size := .const 1, ty := .int, cond := some (.eq (.ref (n!"aptyp") []) (.const (.str "I"))) } <|
    .field { name := some (n!"zpwrr"), size := .const 1, ty := .int, cond := some (.eq (.ref (n!"aptyp") []) (.const (.str "I"))) } <|
    .nil) <|
  .field { name := some (n!"nisapc"), size := .const 2, ty := .int, cond := some (.eq (.ref (n!"aptyp") []) (.const (.str "I"))) } <|
  .loop (.ite (.eq (.ref (n!"aptyp") []) (.const (.str "G"))) (.const (.int 0)) (.toInt (.ref (n!"nisapc") []))) (
    .field { name := some (n!"xpwrc"), size := .const 1, ty := .int, cond := some (.eq (.ref (n!"aptyp") []) (.const (.str "I"))) } <|
    .field { name := some (n!"ypwrc"), size := .const 1, ty := .int, cond := some (.eq (.ref (n!"aptyp") []) (.const (.str "I"))) } <|
    .field { name := some (n!"zpwrc"), size := .const 1, ty := .int, cond := some (.eq (.ref (n!"aptyp") []) (.const (.str "I"))) } <|
    .nil) <|
  .field { name := some (n!"ngsap"), size := .const 2, ty := .int, cond := some (.eq (.ref (n!"aptyp") []) (.const (.str "G"))) } <|
  .loop (.ite (.eq (.ref (n!"aptyp") []) (.const (.str "I"))) (.const (.int 0)) (.toInt (.ref (n!"ngsap") []))) (
    .field { name := some (n!"gsapid"), size := .const 4, ty := .str, cond := some (.eq (.ref (n!"aptyp") []) (.const (.str "G"))) } <|
    .nil) <|
  .loop (.ite (.eq (.ref (n!"apbase") []) (.const (.str "N"))) (.const (.int 0)) (.ite (.eq (.ref (n!"aptyp") []) (.const (.str "I"))) (.toInt (.mul (.ref (n!"npar") []) (.ref (n!"nisap") []))) (.toInt (.mul (.ref (n!"npar") []) (.ref (n!"ngsap") []))))) (
    .field { name := some (n!"ael"), size := .const 21, ty := .flt, frmt := some (.other 20), cond := some (.eq (.ref (n!"apbase") []) (.const (.str "Y"))) } <|
    .nil) <|
  .loop (.ref (n!"npar") []) (
    .field { name := some (n!"parval"), size := .const 21, ty := .flt, frmt := some (.other 20) } <|
    .nil) <|
  .nil

/-- nitf_tre_rsmgga.py:32-64. -/
def t_tre_rsmgga : Desc :=
  .field { name := some (n!"iid"), size := .const 80, ty := .str, optional := true } <|
  .field { name := some (n!"edition"), size := .const 40, ty := .str } <|
  .field { name := some (n!"ggrsn"), size := .const 3, ty := .int } <|
  .field { name := some (n!"ggcsn"), size := .const 3, ty := .int } <|
  .field { name := some (n!"ggrfep"), size := .const 21, ty := .flt, frmt := some (.other 20), optional := true } <|
  .field { name := some (n!"ggcfep"), size := .const 21, ty := .flt, frmt := some (.other 20), optional := true } <|
  .field { name := some (n!"intord"), size := .const 1, ty := .int, optional := true } <|
  .field { name := some (n!"npln"), size := .const 3, ty := .int } <|
  .field { name := some (n!"deltaz"), size := .const 21, ty := .flt, frmt := some (.other 20) } <|
  .field { name := some (n!"deltax"), size := .const 21, ty := .flt, frmt := some (.other 20) } <|
  .field { name := some (n!"deltay"), size := .const 21, ty := .flt, frmt := some (.other 20) } <|
  .field { name := some (n!"zpln1"), size := .const 21, ty := .flt, frmt := some (.other 20) } <|
  .field { name := some (n!"xipln1"), size := .const 21, ty := .flt, frmt := some (.other 20) } <|
  .field { name := some (n!"yipln1"), size := .const 21, ty := .flt, frmt := some (.other 20) } <|
  .field { name := some (n!"refrow"), size := .const 9, ty := .int } <|
  .field { name := some (n!"refcol"), size := .const 9, ty := .int } <|
  .field { name := some (n!"tnumrd"), size := .const 2, ty := .int } <|
  .field { name := some (n!"tnumcd"), size := .const 2, ty := .int } <|
  .field { name := some (n!"fnumrd"), size := .const 1, ty := .int } <|
  .field { name := some (n!"fnumcd"), size := .const 1, ty := .int } <|
  .loop (.sub (.ref (n!"npln") []) (.const (.int 1))) (
    .field { name := some (n!"ixo"), size := .const 4, ty := .int } <|
    .field { name := some (n!"iyo"), size := .const 4, ty := .int } <|
    .nil) <|
  .loop (.ref (n!"npln") []) (
    .field { name := some (n!"nxpts"), size := .const 3, ty := .int } <|
    .field { name := some (n!"nypts"), size := .const 3, ty := .int } <|
    .loop (.mul (.ref (n!"nxpts") [0]) (.ref (n!"nypts") [0])) (
      .field { name := some (n!"rcoord"), size := .expr (.ref (n!"tnumrd") []), ty := .bytes, kind := .coord } <|
      .field { name := some (n!"ccoord"), size := .expr (.ref (n!"tnumcd") []), ty := .bytes, kind := .coord } <|
      .nil) <|
    .nil) <|
  .nil

end Verif.Tables
