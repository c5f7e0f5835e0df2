/-!
Model of `rtl/pcie_s10_cfg.v` and `rtl/pcie_ptile_cfg.v`: they watch the configuration bus of the Intel H-, L- and P-tile
cores, on which the core shows one word of the configuration of one function in each cycle, and keep the fields of the
words in registers. One step is one clock edge.

The assignments of the code are listed in tables, in the order of the code, and applied by one function. An output is a
vector of bits with one slice for each function; as in Verilog, an assignment to bits beyond the end of the vector has no
effect, and the last of several assignments to the same bit counts. Outputs that a module does not have are given width 0.
-/
namespace Verif.Model

/-- The outputs, without the prefix `cfg_` (`rtl/pcie_s10_cfg.v` lines 55-104, `rtl/pcie_ptile_cfg.v` lines 53-143); `o_` is put
in front of a name that begins with a digit. -/
inductive CmOut where
  | memory_space_en | ido_cpl_en | perr_en | serr_en | fatal_err_rpt_en | nonfatal_err_rpt_en | corr_err_rpt_en
  | unsupported_req_rpt_en | bus_master_en | ext_tag_en | max_read_request_size | max_payload_size | ido_request_en
  | no_snoop_en | relaxed_ordering_en | device_num | bus_num | pm_no_soft_rst | rcb_ctrl | irq_disable
  | pcie_cap_irq_msg_num | sys_pwr_ctrl | sys_atten_ind_ctrl | sys_pwr_ind_ctrl | num_vf | atomic_egress_block
  | ats_stu | ats_cache_en | ari_forward_en | atomic_request_en | tph_st_mode | tph_en | vf_en | an_link_speed
  | start_vf_index | msi_address | msi_mask | send_f_err | send_nf_err | send_cor_err | aer_irq_msg_num
  | msi_ext_data_en | msix_func_mask | msix_enable | multiple_msi_enable | o_64bit_msi | msi_enable | msi_data
  | aer_uncor_err_mask | aer_corr_err_mask | aer_uncor_err_severity | acs_egress_ctrl_vec | acs_func_grp_en
  | acs_p2p_direct_tranl_en | acs_egress_ctrl_en | acs_up_forward_en | acs_p2p_compl_redirect_en
  | acs_p2p_req_redirect_en | acs_at_blocking_en | acs_validation_en | o_10b_tag_req_en | vf_10b_tag_req_en
  | prs_response_failure | prs_uprgi | prs_stopped | prs_reset | prs_enable | ari_func_grp
  | prs_outstanding_allocation | disable_ltr_clr_msg | ltr_m_en | fc_ph_cdts_inf | fc_pd_cdts_inf | fc_ch_cdts_inf
  | fc_cd_cdts_inf | end2end_tlp_pfx_blck | pf_pasid_en | pf_pasid_execute_perm_en | pf_pasid_priv_mode_en
  | atten_button_pressed_en | cfg_pwr_fault_det_en | mrl_sensor_chged_en | pre_det_chged_en | hp_int_en
  | cmd_cpled_int_en | dll_state_change_en | hp_slot_ctrl_access | br_ctrl_serren | ltr_max_latency | tc_enable
  | an_link_width
deriving DecidableEq, Repr

/-- An assignment `cfg_out[tl_cfg_func*WIDTH+off +: cnt] <= tl_cfg_ctl[lo+n-1:lo]` under the address `add`. -/
structure CmEntry where
  out : CmOut
  add : Nat
  off : Nat
  cnt : Nat
  lo : Nat
  n : Nat
deriving DecidableEq, Repr

/-- A module: the width of the slices of its outputs, its assignments, and the number of address bits that it looks at. -/
structure CmTile where
  width : CmOut → Nat
  entries : List CmEntry
  bits : Nat

/-- Widths of the outputs (`rtl/pcie_s10_cfg.v` lines 55-104). -/
def s10Width : CmOut → Nat
  | .atomic_egress_block | .msi_ext_data_en | .acs_egress_ctrl_vec | .acs_func_grp_en
  | .acs_p2p_direct_tranl_en | .acs_egress_ctrl_en | .acs_up_forward_en | .acs_p2p_compl_redirect_en
  | .acs_p2p_req_redirect_en | .acs_at_blocking_en | .acs_validation_en | .o_10b_tag_req_en
  | .vf_10b_tag_req_en | .prs_response_failure | .prs_uprgi | .prs_stopped | .prs_reset | .prs_enable
  | .ari_func_grp | .prs_outstanding_allocation | .disable_ltr_clr_msg | .ltr_m_en | .fc_ph_cdts_inf
  | .fc_pd_cdts_inf | .fc_ch_cdts_inf | .fc_cd_cdts_inf | .end2end_tlp_pfx_blck | .pf_pasid_en
  | .pf_pasid_execute_perm_en | .pf_pasid_priv_mode_en | .atten_button_pressed_en | .cfg_pwr_fault_det_en
  | .mrl_sensor_chged_en | .pre_det_chged_en | .hp_int_en | .cmd_cpled_int_en | .dll_state_change_en
  | .hp_slot_ctrl_access | .br_ctrl_serren | .ltr_max_latency | .tc_enable => 0
  | .sys_atten_ind_ctrl | .sys_pwr_ind_ctrl | .tph_en => 2
  | .max_read_request_size | .max_payload_size | .tph_st_mode | .multiple_msi_enable => 3
  | .an_link_speed => 4
  | .device_num | .pcie_cap_irq_msg_num | .ats_stu | .aer_irq_msg_num => 5
  | .an_link_width => 6
  | .bus_num => 8
  | .start_vf_index => 11
  | .num_vf | .msi_data => 16
  | .msi_mask | .aer_uncor_err_mask | .aer_corr_err_mask | .aer_uncor_err_severity => 32
  | .msi_address => 64
  | _ => 1

/-- Widths of the outputs (`rtl/pcie_ptile_cfg.v` lines 53-143). -/
def ptileWidth : CmOut → Nat
  | .sys_atten_ind_ctrl | .sys_pwr_ind_ctrl | .tph_en => 2
  | .max_read_request_size | .max_payload_size | .tph_st_mode | .multiple_msi_enable | .ari_func_grp => 3
  | .an_link_speed => 4
  | .device_num | .pcie_cap_irq_msg_num | .ats_stu | .aer_irq_msg_num => 5
  | .an_link_width => 6
  | .bus_num | .acs_egress_ctrl_vec | .tc_enable => 8
  | .start_vf_index => 11
  | .num_vf => 16
  | .msi_mask | .msi_data | .aer_uncor_err_mask | .aer_corr_err_mask | .aer_uncor_err_severity
  | .prs_outstanding_allocation | .ltr_max_latency => 32
  | .msi_address => 64
  | _ => 1

/-- Assignments for the L-tile (`rtl/pcie_s10_cfg.v` lines 110-170). -/
def s10EntriesL : List CmEntry :=
  [⟨.ido_request_en, 0, 0, 1, 31, 1⟩, ⟨.no_snoop_en, 0, 0, 1, 30, 1⟩, ⟨.relaxed_ordering_en, 0, 0, 1, 29, 1⟩,
   ⟨.device_num, 0, 0, 5, 24, 5⟩, ⟨.bus_num, 0, 0, 8, 16, 8⟩, ⟨.memory_space_en, 0, 0, 1, 15, 1⟩,
   ⟨.ido_cpl_en, 0, 0, 1, 14, 1⟩, ⟨.an_link_width, 0, 0, 6, 8, 6⟩, ⟨.bus_master_en, 0, 0, 1, 7, 1⟩,
   ⟨.ext_tag_en, 0, 0, 1, 6, 1⟩, ⟨.max_read_request_size, 0, 0, 3, 3, 3⟩, ⟨.max_payload_size, 0, 0, 3, 0, 3⟩,
   ⟨.send_f_err, 1, 0, 1, 31, 1⟩, ⟨.send_nf_err, 1, 0, 1, 30, 1⟩, ⟨.send_cor_err, 1, 0, 1, 29, 1⟩,
   ⟨.aer_irq_msg_num, 1, 0, 5, 24, 5⟩, ⟨.an_link_width, 1, 0, 6, 18, 6⟩, ⟨.pm_no_soft_rst, 1, 0, 1, 17, 1⟩,
   ⟨.rcb_ctrl, 1, 0, 1, 16, 1⟩, ⟨.irq_disable, 1, 0, 1, 13, 1⟩, ⟨.pcie_cap_irq_msg_num, 1, 0, 5, 8, 5⟩,
   ⟨.sys_pwr_ctrl, 1, 0, 1, 4, 1⟩, ⟨.sys_atten_ind_ctrl, 1, 0, 2, 2, 2⟩, ⟨.sys_pwr_ind_ctrl, 1, 0, 2, 0, 2⟩,
   ⟨.start_vf_index, 2, 0, 11, 24, 8⟩, ⟨.num_vf, 2, 0, 16, 16, 8⟩, ⟨.an_link_speed, 2, 0, 4, 12, 4⟩,
   ⟨.ats_stu, 2, 0, 5, 7, 5⟩, ⟨.ats_cache_en, 2, 0, 1, 6, 1⟩, ⟨.ari_forward_en, 2, 0, 1, 5, 1⟩,
   ⟨.atomic_request_en, 2, 0, 1, 4, 1⟩, ⟨.tph_st_mode, 2, 0, 3, 2, 2⟩, ⟨.tph_en, 2, 0, 2, 1, 1⟩, ⟨.vf_en, 2, 0, 1, 0, 1⟩,
   ⟨.msi_address, 3, 0, 32, 0, 32⟩, ⟨.msi_address, 4, 32, 32, 0, 32⟩, ⟨.msi_mask, 5, 0, 32, 0, 32⟩,
   ⟨.msi_data, 6, 0, 16, 16, 16⟩, ⟨.msix_func_mask, 6, 0, 1, 6, 1⟩, ⟨.msix_enable, 6, 0, 1, 5, 1⟩,
   ⟨.multiple_msi_enable, 6, 0, 3, 2, 3⟩, ⟨.o_64bit_msi, 6, 0, 1, 1, 1⟩, ⟨.msi_enable, 6, 0, 1, 0, 1⟩,
   ⟨.an_link_speed, 7, 0, 4, 6, 4⟩, ⟨.an_link_width, 7, 0, 6, 0, 6⟩]

/-- Assignments for the H-tile (`rtl/pcie_s10_cfg.v` lines 174-243). -/
def s10EntriesH : List CmEntry :=
  [⟨.ido_request_en, 0, 0, 1, 31, 1⟩, ⟨.no_snoop_en, 0, 0, 1, 30, 1⟩, ⟨.relaxed_ordering_en, 0, 0, 1, 29, 1⟩,
   ⟨.device_num, 0, 0, 5, 24, 5⟩, ⟨.bus_num, 0, 0, 8, 16, 8⟩, ⟨.memory_space_en, 0, 0, 1, 15, 1⟩,
   ⟨.ido_cpl_en, 0, 0, 1, 14, 1⟩, ⟨.perr_en, 0, 0, 1, 13, 1⟩, ⟨.serr_en, 0, 0, 1, 12, 1⟩,
   ⟨.fatal_err_rpt_en, 0, 0, 1, 11, 1⟩, ⟨.nonfatal_err_rpt_en, 0, 0, 1, 10, 1⟩, ⟨.corr_err_rpt_en, 0, 0, 1, 9, 1⟩,
   ⟨.unsupported_req_rpt_en, 0, 0, 1, 8, 1⟩, ⟨.bus_master_en, 0, 0, 1, 7, 1⟩, ⟨.ext_tag_en, 0, 0, 1, 6, 1⟩,
   ⟨.max_read_request_size, 0, 0, 3, 3, 3⟩, ⟨.max_payload_size, 0, 0, 3, 0, 3⟩, ⟨.num_vf, 1, 0, 16, 16, 16⟩,
   ⟨.pm_no_soft_rst, 1, 0, 1, 15, 1⟩, ⟨.rcb_ctrl, 1, 0, 1, 14, 1⟩, ⟨.irq_disable, 1, 0, 1, 13, 1⟩,
   ⟨.pcie_cap_irq_msg_num, 1, 0, 5, 8, 5⟩, ⟨.sys_pwr_ctrl, 1, 0, 1, 4, 1⟩, ⟨.sys_atten_ind_ctrl, 1, 0, 2, 2, 2⟩,
   ⟨.sys_pwr_ind_ctrl, 1, 0, 2, 0, 2⟩, ⟨.an_link_speed, 2, 0, 4, 28, 4⟩, ⟨.start_vf_index, 2, 0, 11, 17, 11⟩,
   ⟨.ats_stu, 2, 0, 5, 9, 5⟩, ⟨.ats_cache_en, 2, 0, 1, 8, 1⟩, ⟨.ari_forward_en, 2, 0, 1, 7, 1⟩,
   ⟨.atomic_request_en, 2, 0, 1, 6, 1⟩, ⟨.tph_st_mode, 2, 0, 3, 3, 3⟩, ⟨.tph_en, 2, 0, 2, 1, 2⟩, ⟨.vf_en, 2, 0, 1, 0, 1⟩,
   ⟨.msi_address, 3, 0, 32, 0, 32⟩, ⟨.msi_address, 4, 32, 32, 0, 32⟩, ⟨.msi_mask, 5, 0, 32, 0, 32⟩,
   ⟨.msi_data, 6, 0, 16, 16, 16⟩, ⟨.send_f_err, 6, 0, 1, 15, 1⟩, ⟨.send_nf_err, 6, 0, 1, 14, 1⟩,
   ⟨.send_cor_err, 6, 0, 1, 13, 1⟩, ⟨.aer_irq_msg_num, 6, 0, 5, 8, 5⟩, ⟨.msix_func_mask, 6, 0, 1, 6, 1⟩,
   ⟨.msix_enable, 6, 0, 1, 5, 1⟩, ⟨.multiple_msi_enable, 6, 0, 3, 2, 3⟩, ⟨.o_64bit_msi, 6, 0, 1, 1, 1⟩,
   ⟨.msi_enable, 6, 0, 1, 0, 1⟩, ⟨.aer_uncor_err_mask, 7, 0, 32, 0, 32⟩, ⟨.aer_corr_err_mask, 8, 0, 32, 0, 32⟩,
   ⟨.aer_uncor_err_severity, 9, 0, 32, 0, 32⟩]

/-- Assignments for the P-tile (`rtl/pcie_ptile_cfg.v` lines 148-308). -/
def ptileEntries : List CmEntry :=
  [⟨.memory_space_en, 0, 0, 1, 15, 1⟩, ⟨.ido_cpl_en, 0, 0, 1, 14, 1⟩, ⟨.perr_en, 0, 0, 1, 13, 1⟩,
   ⟨.serr_en, 0, 0, 1, 12, 1⟩, ⟨.fatal_err_rpt_en, 0, 0, 1, 11, 1⟩, ⟨.nonfatal_err_rpt_en, 0, 0, 1, 10, 1⟩,
   ⟨.corr_err_rpt_en, 0, 0, 1, 9, 1⟩, ⟨.unsupported_req_rpt_en, 0, 0, 1, 8, 1⟩, ⟨.bus_master_en, 0, 0, 1, 7, 1⟩,
   ⟨.ext_tag_en, 0, 0, 1, 6, 1⟩, ⟨.max_read_request_size, 0, 0, 3, 3, 3⟩, ⟨.max_payload_size, 0, 0, 3, 0, 3⟩,
   ⟨.ido_request_en, 1, 0, 1, 15, 1⟩, ⟨.no_snoop_en, 1, 0, 1, 14, 1⟩, ⟨.relaxed_ordering_en, 1, 0, 1, 13, 1⟩,
   ⟨.device_num, 1, 0, 5, 8, 5⟩, ⟨.bus_num, 1, 0, 8, 0, 8⟩, ⟨.pm_no_soft_rst, 2, 0, 1, 15, 1⟩, ⟨.rcb_ctrl, 2, 0, 1, 14, 1⟩,
   ⟨.irq_disable, 2, 0, 1, 13, 1⟩, ⟨.pcie_cap_irq_msg_num, 2, 0, 5, 8, 5⟩, ⟨.sys_pwr_ctrl, 2, 0, 1, 4, 1⟩,
   ⟨.sys_atten_ind_ctrl, 2, 0, 2, 2, 2⟩, ⟨.sys_pwr_ind_ctrl, 2, 0, 2, 0, 2⟩, ⟨.num_vf, 3, 0, 16, 0, 16⟩,
   ⟨.atomic_egress_block, 4, 0, 1, 14, 1⟩, ⟨.ats_stu, 4, 0, 5, 9, 5⟩, ⟨.ats_cache_en, 4, 0, 1, 8, 1⟩,
   ⟨.ari_forward_en, 4, 0, 1, 7, 1⟩, ⟨.atomic_request_en, 4, 0, 1, 6, 1⟩, ⟨.tph_st_mode, 4, 0, 3, 3, 3⟩,
   ⟨.tph_en, 4, 0, 2, 1, 2⟩, ⟨.vf_en, 4, 0, 1, 0, 1⟩, ⟨.an_link_speed, 5, 0, 4, 12, 4⟩, ⟨.start_vf_index, 5, 0, 11, 1, 11⟩,
   ⟨.msi_address, 6, 0, 16, 0, 16⟩, ⟨.msi_address, 7, 16, 16, 0, 16⟩, ⟨.msi_address, 8, 32, 16, 0, 16⟩,
   ⟨.msi_address, 9, 48, 16, 0, 16⟩, ⟨.msi_mask, 10, 0, 16, 0, 16⟩, ⟨.msi_mask, 11, 16, 16, 0, 16⟩,
   ⟨.send_f_err, 12, 0, 1, 15, 1⟩, ⟨.send_nf_err, 12, 0, 1, 14, 1⟩, ⟨.send_cor_err, 12, 0, 1, 13, 1⟩,
   ⟨.aer_irq_msg_num, 12, 0, 5, 8, 5⟩, ⟨.msi_ext_data_en, 12, 0, 1, 7, 1⟩, ⟨.msix_func_mask, 12, 0, 1, 6, 1⟩,
   ⟨.msix_enable, 12, 0, 1, 5, 1⟩, ⟨.multiple_msi_enable, 12, 0, 3, 2, 3⟩, ⟨.o_64bit_msi, 12, 0, 1, 1, 1⟩,
   ⟨.msi_enable, 12, 0, 1, 0, 1⟩, ⟨.msi_data, 13, 0, 16, 0, 16⟩, ⟨.aer_uncor_err_mask, 14, 0, 16, 0, 16⟩,
   ⟨.aer_uncor_err_mask, 15, 32, 16, 0, 16⟩, ⟨.aer_corr_err_mask, 16, 0, 16, 0, 16⟩,
   ⟨.aer_corr_err_mask, 17, 32, 16, 0, 16⟩, ⟨.aer_uncor_err_severity, 18, 0, 16, 0, 16⟩,
   ⟨.aer_uncor_err_severity, 19, 32, 16, 0, 16⟩, ⟨.acs_egress_ctrl_vec, 20, 0, 8, 8, 8⟩,
   ⟨.acs_func_grp_en, 20, 0, 1, 7, 1⟩, ⟨.acs_p2p_direct_tranl_en, 20, 0, 1, 6, 1⟩, ⟨.acs_egress_ctrl_en, 20, 0, 1, 5, 1⟩,
   ⟨.acs_up_forward_en, 20, 0, 1, 4, 1⟩, ⟨.acs_p2p_compl_redirect_en, 20, 0, 1, 3, 1⟩,
   ⟨.acs_p2p_req_redirect_en, 20, 0, 1, 2, 1⟩, ⟨.acs_at_blocking_en, 20, 0, 1, 1, 1⟩, ⟨.acs_validation_en, 20, 0, 1, 0, 1⟩,
   ⟨.o_10b_tag_req_en, 21, 0, 1, 14, 1⟩, ⟨.vf_10b_tag_req_en, 21, 0, 1, 13, 1⟩, ⟨.prs_response_failure, 21, 0, 1, 12, 1⟩,
   ⟨.prs_uprgi, 21, 0, 1, 11, 1⟩, ⟨.prs_stopped, 21, 0, 1, 10, 1⟩, ⟨.prs_reset, 21, 0, 1, 9, 1⟩,
   ⟨.prs_enable, 21, 0, 1, 8, 1⟩, ⟨.ari_func_grp, 21, 0, 3, 0, 3⟩, ⟨.prs_outstanding_allocation, 22, 0, 16, 0, 16⟩,
   ⟨.prs_outstanding_allocation, 23, 16, 16, 0, 16⟩, ⟨.disable_ltr_clr_msg, 24, 0, 1, 9, 1⟩, ⟨.ltr_m_en, 24, 0, 1, 8, 1⟩,
   ⟨.fc_ph_cdts_inf, 24, 0, 1, 7, 1⟩, ⟨.fc_pd_cdts_inf, 24, 0, 1, 6, 1⟩, ⟨.fc_ch_cdts_inf, 24, 0, 1, 5, 1⟩,
   ⟨.fc_cd_cdts_inf, 24, 0, 1, 4, 1⟩, ⟨.end2end_tlp_pfx_blck, 24, 0, 1, 3, 1⟩, ⟨.pf_pasid_en, 24, 0, 1, 2, 1⟩,
   ⟨.pf_pasid_execute_perm_en, 24, 0, 1, 1, 1⟩, ⟨.pf_pasid_priv_mode_en, 24, 0, 1, 0, 1⟩,
   ⟨.atten_button_pressed_en, 25, 0, 1, 8, 1⟩, ⟨.cfg_pwr_fault_det_en, 25, 0, 1, 7, 1⟩,
   ⟨.mrl_sensor_chged_en, 25, 0, 1, 6, 1⟩, ⟨.pre_det_chged_en, 25, 0, 1, 5, 1⟩, ⟨.hp_int_en, 25, 0, 1, 4, 1⟩,
   ⟨.cmd_cpled_int_en, 25, 0, 1, 3, 1⟩, ⟨.dll_state_change_en, 25, 0, 1, 2, 1⟩, ⟨.hp_slot_ctrl_access, 25, 0, 1, 1, 1⟩,
   ⟨.br_ctrl_serren, 25, 0, 1, 0, 1⟩, ⟨.ltr_max_latency, 26, 0, 16, 0, 16⟩, ⟨.ltr_max_latency, 27, 16, 16, 0, 16⟩,
   ⟨.tc_enable, 28, 0, 8, 8, 8⟩, ⟨.an_link_width, 28, 0, 6, 0, 6⟩, ⟨.msi_data, 29, 16, 16, 0, 16⟩]

/-- `pcie_s10_cfg` with `L_TILE = 1` (address bits 3 to 0, line 110). -/
def tileL : CmTile := ⟨s10Width, s10EntriesL, 4⟩

/-- `pcie_s10_cfg` with `L_TILE = 0` (address bits 4 to 0, line 174). -/
def tileH : CmTile := ⟨s10Width, s10EntriesH, 5⟩

/-- `pcie_ptile_cfg` (address bits 4 to 0, line 148). -/
def tileP : CmTile := ⟨ptileWidth, ptileEntries, 5⟩

/-- Inputs of one clock cycle (`rtl/pcie_s10_cfg.v` lines 42-50, `rtl/pcie_ptile_cfg.v` lines 40-48). -/
structure CmIn where
  rst : Bool := false
  ctl : Nat
  add : Nat
  func : Nat

/-- The outputs, bit by bit. -/
abbrev Cm := CmOut → Nat → Bool

/-- An assignment concerns bit `b` of output `o`. -/
def cmHit (t : CmTile) (i : CmIn) (o : CmOut) (b : Nat) (e : CmEntry) : Bool :=
  e.out == o && e.add == i.add % 2 ^ t.bits && decide (i.func * t.width o + e.off ≤ b ∧ b < i.func * t.width o + e.off + e.cnt)

/-- One clock edge (`rtl/pcie_s10_cfg.v` lines 107-301, `rtl/pcie_ptile_cfg.v` lines 146-412). `pf` is `PF_COUNT`. -/
def cmStep (t : CmTile) (pf : Nat) (s : Cm) (i : CmIn) : Cm := fun o b =>
  if i.rst then false
  else if i.func < pf ∧ b < pf * t.width o then
    match (t.entries.filter (cmHit t i o b)).getLast? with
    | none => s o b
    | some e =>
      let k := b - (i.func * t.width o + e.off)
      decide (k < e.n) && i.ctl.testBit (e.lo + k)
  else s o b

end Verif.Model
