import Verif.Model.CfgMonitor
/-! Specification of the configuration monitors: where each field of the configuration is found. -/
namespace Verif.Spec
open Verif.Model

/-- Bits `top` to `bot` of a field of one function are bits `hi` to `lo` of the word at address `add`; if there are fewer bits
in the word, the field is filled up with zeros. -/
structure CmPiece where
  add : Nat
  hi : Nat
  lo : Nat
  bot : Nat
  top : Nat
deriving DecidableEq, Repr

/-- The fields of the L-tile. -/
def cmFieldsL : CmOut → List CmPiece
  | .memory_space_en => [⟨0x00, 15, 15, 0, 0⟩]
  | .ido_cpl_en => [⟨0x00, 14, 14, 0, 0⟩]
  | .bus_master_en => [⟨0x00, 7, 7, 0, 0⟩]
  | .ext_tag_en => [⟨0x00, 6, 6, 0, 0⟩]
  | .max_read_request_size => [⟨0x00, 5, 3, 0, 2⟩]
  | .max_payload_size => [⟨0x00, 2, 0, 0, 2⟩]
  | .ido_request_en => [⟨0x00, 31, 31, 0, 0⟩]
  | .no_snoop_en => [⟨0x00, 30, 30, 0, 0⟩]
  | .relaxed_ordering_en => [⟨0x00, 29, 29, 0, 0⟩]
  | .device_num => [⟨0x00, 28, 24, 0, 4⟩]
  | .bus_num => [⟨0x00, 23, 16, 0, 7⟩]
  | .pm_no_soft_rst => [⟨0x01, 17, 17, 0, 0⟩]
  | .rcb_ctrl => [⟨0x01, 16, 16, 0, 0⟩]
  | .irq_disable => [⟨0x01, 13, 13, 0, 0⟩]
  | .pcie_cap_irq_msg_num => [⟨0x01, 12, 8, 0, 4⟩]
  | .sys_pwr_ctrl => [⟨0x01, 4, 4, 0, 0⟩]
  | .sys_atten_ind_ctrl => [⟨0x01, 3, 2, 0, 1⟩]
  | .sys_pwr_ind_ctrl => [⟨0x01, 1, 0, 0, 1⟩]
  | .num_vf => [⟨0x02, 23, 16, 0, 15⟩]
  | .ats_stu => [⟨0x02, 11, 7, 0, 4⟩]
  | .ats_cache_en => [⟨0x02, 6, 6, 0, 0⟩]
  | .ari_forward_en => [⟨0x02, 5, 5, 0, 0⟩]
  | .atomic_request_en => [⟨0x02, 4, 4, 0, 0⟩]
  | .tph_st_mode => [⟨0x02, 3, 2, 0, 2⟩]
  | .tph_en => [⟨0x02, 1, 1, 0, 1⟩]
  | .vf_en => [⟨0x02, 0, 0, 0, 0⟩]
  | .an_link_speed => [⟨0x02, 15, 12, 0, 3⟩, ⟨0x07, 9, 6, 0, 3⟩]
  | .start_vf_index => [⟨0x02, 31, 24, 0, 10⟩]
  | .msi_address => [⟨0x03, 31, 0, 0, 31⟩, ⟨0x04, 31, 0, 32, 63⟩]
  | .msi_mask => [⟨0x05, 31, 0, 0, 31⟩]
  | .send_f_err => [⟨0x01, 31, 31, 0, 0⟩]
  | .send_nf_err => [⟨0x01, 30, 30, 0, 0⟩]
  | .send_cor_err => [⟨0x01, 29, 29, 0, 0⟩]
  | .aer_irq_msg_num => [⟨0x01, 28, 24, 0, 4⟩]
  | .msix_func_mask => [⟨0x06, 6, 6, 0, 0⟩]
  | .msix_enable => [⟨0x06, 5, 5, 0, 0⟩]
  | .multiple_msi_enable => [⟨0x06, 4, 2, 0, 2⟩]
  | .o_64bit_msi => [⟨0x06, 1, 1, 0, 0⟩]
  | .msi_enable => [⟨0x06, 0, 0, 0, 0⟩]
  | .msi_data => [⟨0x06, 31, 16, 0, 15⟩]
  | .an_link_width => [⟨0x00, 13, 8, 0, 5⟩, ⟨0x01, 23, 18, 0, 5⟩, ⟨0x07, 5, 0, 0, 5⟩]
  | _ => []

/-- The fields of the H-tile. -/
def cmFieldsH : CmOut → List CmPiece
  | .memory_space_en => [⟨0x00, 15, 15, 0, 0⟩]
  | .ido_cpl_en => [⟨0x00, 14, 14, 0, 0⟩]
  | .perr_en => [⟨0x00, 13, 13, 0, 0⟩]
  | .serr_en => [⟨0x00, 12, 12, 0, 0⟩]
  | .fatal_err_rpt_en => [⟨0x00, 11, 11, 0, 0⟩]
  | .nonfatal_err_rpt_en => [⟨0x00, 10, 10, 0, 0⟩]
  | .corr_err_rpt_en => [⟨0x00, 9, 9, 0, 0⟩]
  | .unsupported_req_rpt_en => [⟨0x00, 8, 8, 0, 0⟩]
  | .bus_master_en => [⟨0x00, 7, 7, 0, 0⟩]
  | .ext_tag_en => [⟨0x00, 6, 6, 0, 0⟩]
  | .max_read_request_size => [⟨0x00, 5, 3, 0, 2⟩]
  | .max_payload_size => [⟨0x00, 2, 0, 0, 2⟩]
  | .ido_request_en => [⟨0x00, 31, 31, 0, 0⟩]
  | .no_snoop_en => [⟨0x00, 30, 30, 0, 0⟩]
  | .relaxed_ordering_en => [⟨0x00, 29, 29, 0, 0⟩]
  | .device_num => [⟨0x00, 28, 24, 0, 4⟩]
  | .bus_num => [⟨0x00, 23, 16, 0, 7⟩]
  | .pm_no_soft_rst => [⟨0x01, 15, 15, 0, 0⟩]
  | .rcb_ctrl => [⟨0x01, 14, 14, 0, 0⟩]
  | .irq_disable => [⟨0x01, 13, 13, 0, 0⟩]
  | .pcie_cap_irq_msg_num => [⟨0x01, 12, 8, 0, 4⟩]
  | .sys_pwr_ctrl => [⟨0x01, 4, 4, 0, 0⟩]
  | .sys_atten_ind_ctrl => [⟨0x01, 3, 2, 0, 1⟩]
  | .sys_pwr_ind_ctrl => [⟨0x01, 1, 0, 0, 1⟩]
  | .num_vf => [⟨0x01, 31, 16, 0, 15⟩]
  | .ats_stu => [⟨0x02, 13, 9, 0, 4⟩]
  | .ats_cache_en => [⟨0x02, 8, 8, 0, 0⟩]
  | .ari_forward_en => [⟨0x02, 7, 7, 0, 0⟩]
  | .atomic_request_en => [⟨0x02, 6, 6, 0, 0⟩]
  | .tph_st_mode => [⟨0x02, 5, 3, 0, 2⟩]
  | .tph_en => [⟨0x02, 2, 1, 0, 1⟩]
  | .vf_en => [⟨0x02, 0, 0, 0, 0⟩]
  | .an_link_speed => [⟨0x02, 31, 28, 0, 3⟩]
  | .start_vf_index => [⟨0x02, 27, 17, 0, 10⟩]
  | .msi_address => [⟨0x03, 31, 0, 0, 31⟩, ⟨0x04, 31, 0, 32, 63⟩]
  | .msi_mask => [⟨0x05, 31, 0, 0, 31⟩]
  | .send_f_err => [⟨0x06, 15, 15, 0, 0⟩]
  | .send_nf_err => [⟨0x06, 14, 14, 0, 0⟩]
  | .send_cor_err => [⟨0x06, 13, 13, 0, 0⟩]
  | .aer_irq_msg_num => [⟨0x06, 12, 8, 0, 4⟩]
  | .msix_func_mask => [⟨0x06, 6, 6, 0, 0⟩]
  | .msix_enable => [⟨0x06, 5, 5, 0, 0⟩]
  | .multiple_msi_enable => [⟨0x06, 4, 2, 0, 2⟩]
  | .o_64bit_msi => [⟨0x06, 1, 1, 0, 0⟩]
  | .msi_enable => [⟨0x06, 0, 0, 0, 0⟩]
  | .msi_data => [⟨0x06, 31, 16, 0, 15⟩]
  | .aer_uncor_err_mask => [⟨0x07, 31, 0, 0, 31⟩]
  | .aer_corr_err_mask => [⟨0x08, 31, 0, 0, 31⟩]
  | .aer_uncor_err_severity => [⟨0x09, 31, 0, 0, 31⟩]
  | _ => []

/-- The fields of the P-tile. The AER masks and severities are 32 bit registers whose upper halves are at the odd
addresses 0x0F, 0x11 and 0x13. -/
def cmFieldsP : CmOut → List CmPiece
  | .memory_space_en => [⟨0x00, 15, 15, 0, 0⟩]
  | .ido_cpl_en => [⟨0x00, 14, 14, 0, 0⟩]
  | .perr_en => [⟨0x00, 13, 13, 0, 0⟩]
  | .serr_en => [⟨0x00, 12, 12, 0, 0⟩]
  | .fatal_err_rpt_en => [⟨0x00, 11, 11, 0, 0⟩]
  | .nonfatal_err_rpt_en => [⟨0x00, 10, 10, 0, 0⟩]
  | .corr_err_rpt_en => [⟨0x00, 9, 9, 0, 0⟩]
  | .unsupported_req_rpt_en => [⟨0x00, 8, 8, 0, 0⟩]
  | .bus_master_en => [⟨0x00, 7, 7, 0, 0⟩]
  | .ext_tag_en => [⟨0x00, 6, 6, 0, 0⟩]
  | .max_read_request_size => [⟨0x00, 5, 3, 0, 2⟩]
  | .max_payload_size => [⟨0x00, 2, 0, 0, 2⟩]
  | .ido_request_en => [⟨0x01, 15, 15, 0, 0⟩]
  | .no_snoop_en => [⟨0x01, 14, 14, 0, 0⟩]
  | .relaxed_ordering_en => [⟨0x01, 13, 13, 0, 0⟩]
  | .device_num => [⟨0x01, 12, 8, 0, 4⟩]
  | .bus_num => [⟨0x01, 7, 0, 0, 7⟩]
  | .pm_no_soft_rst => [⟨0x02, 15, 15, 0, 0⟩]
  | .rcb_ctrl => [⟨0x02, 14, 14, 0, 0⟩]
  | .irq_disable => [⟨0x02, 13, 13, 0, 0⟩]
  | .pcie_cap_irq_msg_num => [⟨0x02, 12, 8, 0, 4⟩]
  | .sys_pwr_ctrl => [⟨0x02, 4, 4, 0, 0⟩]
  | .sys_atten_ind_ctrl => [⟨0x02, 3, 2, 0, 1⟩]
  | .sys_pwr_ind_ctrl => [⟨0x02, 1, 0, 0, 1⟩]
  | .num_vf => [⟨0x03, 15, 0, 0, 15⟩]
  | .atomic_egress_block => [⟨0x04, 14, 14, 0, 0⟩]
  | .ats_stu => [⟨0x04, 13, 9, 0, 4⟩]
  | .ats_cache_en => [⟨0x04, 8, 8, 0, 0⟩]
  | .ari_forward_en => [⟨0x04, 7, 7, 0, 0⟩]
  | .atomic_request_en => [⟨0x04, 6, 6, 0, 0⟩]
  | .tph_st_mode => [⟨0x04, 5, 3, 0, 2⟩]
  | .tph_en => [⟨0x04, 2, 1, 0, 1⟩]
  | .vf_en => [⟨0x04, 0, 0, 0, 0⟩]
  | .an_link_speed => [⟨0x05, 15, 12, 0, 3⟩]
  | .start_vf_index => [⟨0x05, 11, 1, 0, 10⟩]
  | .msi_address => [⟨0x06, 15, 0, 0, 15⟩, ⟨0x07, 15, 0, 16, 31⟩, ⟨0x08, 15, 0, 32, 47⟩, ⟨0x09, 15, 0, 48, 63⟩]
  | .msi_mask => [⟨0x0A, 15, 0, 0, 15⟩, ⟨0x0B, 15, 0, 16, 31⟩]
  | .send_f_err => [⟨0x0C, 15, 15, 0, 0⟩]
  | .send_nf_err => [⟨0x0C, 14, 14, 0, 0⟩]
  | .send_cor_err => [⟨0x0C, 13, 13, 0, 0⟩]
  | .aer_irq_msg_num => [⟨0x0C, 12, 8, 0, 4⟩]
  | .msi_ext_data_en => [⟨0x0C, 7, 7, 0, 0⟩]
  | .msix_func_mask => [⟨0x0C, 6, 6, 0, 0⟩]
  | .msix_enable => [⟨0x0C, 5, 5, 0, 0⟩]
  | .multiple_msi_enable => [⟨0x0C, 4, 2, 0, 2⟩]
  | .o_64bit_msi => [⟨0x0C, 1, 1, 0, 0⟩]
  | .msi_enable => [⟨0x0C, 0, 0, 0, 0⟩]
  | .msi_data => [⟨0x0D, 15, 0, 0, 15⟩, ⟨0x1D, 15, 0, 16, 31⟩]
  | .aer_uncor_err_mask => [⟨0x0E, 15, 0, 0, 15⟩, ⟨0x0F, 15, 0, 16, 31⟩]
  | .aer_corr_err_mask => [⟨0x10, 15, 0, 0, 15⟩, ⟨0x11, 15, 0, 16, 31⟩]
  | .aer_uncor_err_severity => [⟨0x12, 15, 0, 0, 15⟩, ⟨0x13, 15, 0, 16, 31⟩]
  | .acs_egress_ctrl_vec => [⟨0x14, 15, 8, 0, 7⟩]
  | .acs_func_grp_en => [⟨0x14, 7, 7, 0, 0⟩]
  | .acs_p2p_direct_tranl_en => [⟨0x14, 6, 6, 0, 0⟩]
  | .acs_egress_ctrl_en => [⟨0x14, 5, 5, 0, 0⟩]
  | .acs_up_forward_en => [⟨0x14, 4, 4, 0, 0⟩]
  | .acs_p2p_compl_redirect_en => [⟨0x14, 3, 3, 0, 0⟩]
  | .acs_p2p_req_redirect_en => [⟨0x14, 2, 2, 0, 0⟩]
  | .acs_at_blocking_en => [⟨0x14, 1, 1, 0, 0⟩]
  | .acs_validation_en => [⟨0x14, 0, 0, 0, 0⟩]
  | .o_10b_tag_req_en => [⟨0x15, 14, 14, 0, 0⟩]
  | .vf_10b_tag_req_en => [⟨0x15, 13, 13, 0, 0⟩]
  | .prs_response_failure => [⟨0x15, 12, 12, 0, 0⟩]
  | .prs_uprgi => [⟨0x15, 11, 11, 0, 0⟩]
  | .prs_stopped => [⟨0x15, 10, 10, 0, 0⟩]
  | .prs_reset => [⟨0x15, 9, 9, 0, 0⟩]
  | .prs_enable => [⟨0x15, 8, 8, 0, 0⟩]
  | .ari_func_grp => [⟨0x15, 2, 0, 0, 2⟩]
  | .prs_outstanding_allocation => [⟨0x16, 15, 0, 0, 15⟩, ⟨0x17, 15, 0, 16, 31⟩]
  | .disable_ltr_clr_msg => [⟨0x18, 9, 9, 0, 0⟩]
  | .ltr_m_en => [⟨0x18, 8, 8, 0, 0⟩]
  | .fc_ph_cdts_inf => [⟨0x18, 7, 7, 0, 0⟩]
  | .fc_pd_cdts_inf => [⟨0x18, 6, 6, 0, 0⟩]
  | .fc_ch_cdts_inf => [⟨0x18, 5, 5, 0, 0⟩]
  | .fc_cd_cdts_inf => [⟨0x18, 4, 4, 0, 0⟩]
  | .end2end_tlp_pfx_blck => [⟨0x18, 3, 3, 0, 0⟩]
  | .pf_pasid_en => [⟨0x18, 2, 2, 0, 0⟩]
  | .pf_pasid_execute_perm_en => [⟨0x18, 1, 1, 0, 0⟩]
  | .pf_pasid_priv_mode_en => [⟨0x18, 0, 0, 0, 0⟩]
  | .atten_button_pressed_en => [⟨0x19, 8, 8, 0, 0⟩]
  | .cfg_pwr_fault_det_en => [⟨0x19, 7, 7, 0, 0⟩]
  | .mrl_sensor_chged_en => [⟨0x19, 6, 6, 0, 0⟩]
  | .pre_det_chged_en => [⟨0x19, 5, 5, 0, 0⟩]
  | .hp_int_en => [⟨0x19, 4, 4, 0, 0⟩]
  | .cmd_cpled_int_en => [⟨0x19, 3, 3, 0, 0⟩]
  | .dll_state_change_en => [⟨0x19, 2, 2, 0, 0⟩]
  | .hp_slot_ctrl_access => [⟨0x19, 1, 1, 0, 0⟩]
  | .br_ctrl_serren => [⟨0x19, 0, 0, 0, 0⟩]
  | .ltr_max_latency => [⟨0x1A, 15, 0, 0, 15⟩, ⟨0x1B, 15, 0, 16, 31⟩]
  | .tc_enable => [⟨0x1C, 15, 8, 0, 7⟩]
  | .an_link_width => [⟨0x1C, 5, 0, 0, 5⟩]

/-- Bit `k` of a field of function `f` after a history: the last word that the core showed for this function at an address
where the field has a piece with this bit decides; 0 if there was none. `v` is the value before. -/
def cmBit (bits : Nat) (ps : List CmPiece) (f k : Nat) : List CmIn → Bool → Bool
  | [], v => v
  | i :: is, v =>
    cmBit bits ps f k is <|
      if i.func = f then
        match (ps.filter fun p => p.add == i.add % 2 ^ bits && decide (p.bot ≤ k ∧ k ≤ p.top)).getLast? with
        | none => v
        | some p => decide (p.lo + (k - p.bot) ≤ p.hi) && i.ctl.testBit (p.lo + (k - p.bot))
      else v

/-- The outputs after a history. -/
def cmRun (t : CmTile) (pf : Nat) : Cm → List CmIn → Cm
  | s, [] => s
  | s, i :: is => cmRun t pf (cmStep t pf s i) is

/-- The outputs of the P-tile for which the claim holds: all but the AER masks and severities. -/
def cmNotAer : CmOut → Bool
  | .aer_uncor_err_mask | .aer_corr_err_mask | .aer_uncor_err_severity => false
  | _ => true

end Verif.Spec
