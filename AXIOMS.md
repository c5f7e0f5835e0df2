# Axioms of each property theorem

Output of `#print axioms`, grouped. The theorems are those named in MANIFEST.json.

## no axioms

* `Verif.Props.C52_route_fails`
* `Verif.Props.C52_cq64_drop_fails`
* `Verif.Props.C52_cq64_reset_fails`

## `propext`

* `Verif.Props.C06_lower_address_fails`
* `Verif.Props.C09_cfg_roundtrip_fails`
* `Verif.Props.C12_request_size_fails`
* `Verif.Props.C16_cap_chain_fails`
* `Verif.Props.C23_message_fails`
* `Verif.Props.C25_reuse_fails`
* `Verif.Props.C26_us_accepts`
* `Verif.Props.C28_geometry_fails`
* `Verif.Props.C33_pulse`
* `Verif.Props.C34_length_fails`
* `Verif.Props.C36_no_status`
* `Verif.Props.C39_accept`
* `Verif.Props.C43_exact_fails`
* `Verif.Props.C43_lost_fails`
* `Verif.Props.C44_accounting_fails`
* `Verif.Props.C45_cap_write_fails`
* `Verif.Props.C49_read_progress`
* `Verif.Props.C51_limit_fails`
* `Verif.Props.C51_saturation_fails`
* `Verif.Props.C52_enable`
* `Verif.Props.C55_s10_fails`
* `Verif.Props.C58_byte_stream_fails`
* `Verif.Props.C58_zero_length_fails`
* `Verif.Props.C61_duplicate_fails`
* `Verif.Props.C62_duplicate_fails`
* `Verif.Props.C63_reset_fails`
* `Verif.Props.C64_tags_fails`
* `Verif.Props.C67_message_fails`
* `Verif.Props.C68_message_fails`
* `Verif.Props.C71_overwritten_fails`
* `Verif.Props.C71_length_fails`
* `Verif.Props.C73_wrap_fails`
* `Verif.Props.C75_stable`
* `Verif.Props.C75_wrap_fails`
* `Verif.Props.C76_message_fails`
* `Verif.Props.C88_status_fails`
* `Verif.Props.C89_late_fails`
* `Verif.Props.C91_aer_fails`
* `Verif.Props.C95_message_fails`
* `Verif.Props.C99_stable`
* `Verif.Props.C107_func_fails`
* `Verif.Props.C110_stable`
* `Verif.Props.C112_latency_partial`

## `Quot.sound`, `propext`

* `Verif.Props.C04_set_be_frame`
* `Verif.Props.C09_4dw_roundtrip_fails`
* `Verif.Props.C13_delivers_concat`
* `Verif.Props.C15_cap_disjoint_fails`
* `Verif.Props.C18_bar_decode_fails`
* `Verif.Props.C20_alloc_region_fails`
* `Verif.Props.C23_unsupported_fails`
* `Verif.Props.C24_range_fails`
* `Verif.Props.C25_free_tag_partial`
* `Verif.Props.C26_dword_parity`
* `Verif.Props.C26_dword_parity_if`
* `Verif.Props.C26_parity_if`
* `Verif.Props.C26_us_update`
* `Verif.Props.C26_if_update`
* `Verif.Props.C26_if_accepts`
* `Verif.Props.C26_us_rejects`
* `Verif.Props.C26_if_rejects`
* `Verif.Props.C27_abort_fails`
* `Verif.Props.C29_cq_byte_enables`
* `Verif.Props.C30_valid`
* `Verif.Props.C33_conservation`
* `Verif.Props.C33_drain`
* `Verif.Props.C34_class`
* `Verif.Props.C35_word`
* `Verif.Props.C36_descriptor`
* `Verif.Props.C37_select`
* `Verif.Props.C39_write`
* `Verif.Props.C39_done`
* `Verif.Props.C40_mps4096_fails`
* `Verif.Props.C41_transferred_fails`
* `Verif.Props.C42_interval_partial`
* `Verif.Props.C42_handover`
* `Verif.Props.C42_ticks`
* `Verif.Props.C42_interval_fails`
* `Verif.Props.C43_reset`
* `Verif.Props.C43_sent_fails`
* `Verif.Props.C44_bounded`
* `Verif.Props.C44_accounting_partial`
* `Verif.Props.C46_link_capabilities_fails`
* `Verif.Props.C46_pcie_fields_partial`
* `Verif.Props.C47_ext_cap_fails`
* `Verif.Props.C48_secondary_status_fails`
* `Verif.Props.C48_bridge_control_fails`
* `Verif.Props.C49_write_progress`
* `Verif.Props.C56_byte_stream_fails`
* `Verif.Props.C56_zero_length_fails`
* `Verif.Props.C59_packet_length`
* `Verif.Props.C60_mrrs4096_fails`
* `Verif.Props.C60_length_fails`
* `Verif.Props.C70_split_fails`
* `Verif.Props.C74_replaced_fails`
* `Verif.Props.C74_lower_fails`
* `Verif.Props.C75_length_fails`
* `Verif.Props.C75_power_fails`
* `Verif.Props.C77_unsupported_fails`
* `Verif.Props.C80_checks`
* `Verif.Props.C82_stable_one`
* `Verif.Props.C82_stable_several`
* `Verif.Props.C87_stable`
* `Verif.Props.C87_hang`
* `Verif.Props.C94_order_fails`
* `Verif.Props.C95_rc_error`
* `Verif.Props.C95_cq_header_partial`
* `Verif.Props.C95_io_fails`
* `Verif.Props.C96_byte_enables_fails`
* `Verif.Props.C98_locked_fails`
* `Verif.Props.C98_large_fails`
* `Verif.Props.C98_address32_fails`
* `Verif.Props.C98_config_fails`
* `Verif.Props.C98_message_fails`
* `Verif.Props.C101_reads`
* `Verif.Props.C101_writes`
* `Verif.Props.C102_no_status`
* `Verif.Props.C103_no_status`
* `Verif.Props.C104_no_status`
* `Verif.Props.C113_credits_fails`
* `Verif.Props.C115_write`
* `Verif.Props.C115_done`

## `Classical.choice`, `Quot.sound`, `propext`

* `Verif.Props.C01_id_roundtrip`
* `Verif.Props.C01_int_roundtrip`
* `Verif.Props.C01_id_injective`
* `Verif.Props.C02_byte_mask_update`
* `Verif.Props.C02_full_write`
* `Verif.Props.C03_align_least`
* `Verif.Props.C04_set_be_exact`
* `Verif.Props.C04_set_be_wellformed`
* `Verif.Props.C05_byte_count_recovered`
* `Verif.Props.C06_lower_address_partial`
* `Verif.Props.C07_payload_padded`
* `Verif.Props.C07_payload_enabled_bytes`
* `Verif.Props.C08_completion_roundtrip`
* `Verif.Props.C08_completion_layout`
* `Verif.Props.C09_read_3dw_roundtrip_fails`
* `Verif.Props.C09_cfg_roundtrip_partial`
* `Verif.Props.C09_pack_3dw_layout_partial`
* `Verif.Props.C09_pack_4dw_layout_partial`
* `Verif.Props.C10_root_complex_mem_write`
* `Verif.Props.C10_function_mem_write`
* `Verif.Props.C10_bus_master_disabled`
* `Verif.Props.C11_mem_read_any_completer`
* `Verif.Props.C11_mem_read_endpoint`
* `Verif.Props.C11_mem_read_local`
* `Verif.Props.C12_multi_chunk_read_fails`
* `Verif.Props.C12_single_chunk_read_partial`
* `Verif.Props.C12_root_complex_conforming`
* `Verif.Props.C13_endpoint_completions`
* `Verif.Props.C13_root_complex_completions`
* `Verif.Props.C14_endpoint_write`
* `Verif.Props.C14_root_complex_write`
* `Verif.Props.C14_dma_write_end_to_end`
* `Verif.Props.C15_cap_disjoint_partial`
* `Verif.Props.C15_cap_auto_partial`
* `Verif.Props.C16_cap_chain_partial`
* `Verif.Props.C16_ext_cap_chain_partial`
* `Verif.Props.C17_config_write`
* `Verif.Props.C17_read_only_history`
* `Verif.Props.C18_mem32_sizing`
* `Verif.Props.C18_io_sizing`
* `Verif.Props.C18_mem64_sizing`
* `Verif.Props.C18_bar_decode_partial`
* `Verif.Props.C19_msi`
* `Verif.Props.C19_msi_no_bus_master`
* `Verif.Props.C20_alloc_region_partial`
* `Verif.Props.C21_placement`
* `Verif.Props.C21_bridge_windows`
* `Verif.Props.C21_windows_nested`
* `Verif.Props.C22_unique`
* `Verif.Props.C22_ranges`
* `Verif.Props.C22_siblings`
* `Verif.Props.C22_identifiers`
* `Verif.Props.C23_upstream_partial`
* `Verif.Props.C23_downstream`
* `Verif.Props.C23_switch_port_partial`
* `Verif.Props.C24_numbers_partial`
* `Verif.Props.C24_append`
* `Verif.Props.C24_config_read`
* `Verif.Props.C24_config_write`
* `Verif.Props.C24_config_other`
* `Verif.Props.C25_reuse_partial`
* `Verif.Props.C27_lossless`
* `Verif.Props.C27_complete`
* `Verif.Props.C27_progress`
* `Verif.Props.C28_write_accepts`
* `Verif.Props.C28_write_partial`
* `Verif.Props.C28_write_all_partial`
* `Verif.Props.C28_write_completed_partial`
* `Verif.Props.C28_write_progress_partial`
* `Verif.Props.C28_read_partial`
* `Verif.Props.C28_read_accepts`
* `Verif.Props.C28_read_progress_partial`
* `Verif.Props.C28_write_then_read_partial`
* `Verif.Props.C29_cq_roundtrip_partial`
* `Verif.Props.C29_rq_roundtrip_partial`
* `Verif.Props.C29_cc_roundtrip_partial`
* `Verif.Props.C29_rc_roundtrip_partial`
* `Verif.Props.C29_cq_layout`
* `Verif.Props.C29_rq_layout`
* `Verif.Props.C29_cc_layout`
* `Verif.Props.C29_rc_layout`
* `Verif.Props.C29_rc_byte_enables`
* `Verif.Props.C29_kinds`
* `Verif.Props.C29_poisoned_fails`
* `Verif.Props.C30_encoded`
* `Verif.Props.C31_onehot`
* `Verif.Props.C31_held`
* `Verif.Props.C31_requested`
* `Verif.Props.C31_priority`
* `Verif.Props.C32_no_starvation`
* `Verif.Props.C32_choices`
* `Verif.Props.C34_totals_partial`
* `Verif.Props.C34_exact_partial`
* `Verif.Props.C35_merge`
* `Verif.Props.C35_drain`
* `Verif.Props.C36_merge`
* `Verif.Props.C36_drain`
* `Verif.Props.C36_status`
* `Verif.Props.C37_forwarded`
* `Verif.Props.C37_order`
* `Verif.Props.C37_answers`
* `Verif.Props.C37_drain`
* `Verif.Props.C38_forwarded`
* `Verif.Props.C38_order`
* `Verif.Props.C38_drain`
* `Verif.Props.C39_reads`
* `Verif.Props.C39_drain`
* `Verif.Props.C39_stable`
* `Verif.Props.C40_exact_partial`
* `Verif.Props.C41_status_partial`
* `Verif.Props.C41_acknowledged_partial`
* `Verif.Props.C42_not_lost`
* `Verif.Props.C42_no_spurious`
* `Verif.Props.C43_exact_partial`
* `Verif.Props.C43_no_spurious_partial`
* `Verif.Props.C43_message`
* `Verif.Props.C43_sent_partial`
* `Verif.Props.C45_cap_write_partial`
* `Verif.Props.C47_ext_cap_partial`
* `Verif.Props.C48_bridge_write_partial`
* `Verif.Props.C49_reads`
* `Verif.Props.C49_writes`
* `Verif.Props.C49_drain`
* `Verif.Props.C50_sequence`
* `Verif.Props.C51_inflight_partial`
* `Verif.Props.C52_route_partial`
* `Verif.Props.C52_cq64_partial`
* `Verif.Props.C53_s10_cause`
* `Verif.Props.C53_us_cause`
* `Verif.Props.C53_s10_held`
* `Verif.Props.C53_us_onehot`
* `Verif.Props.C54_s10_partial`
* `Verif.Props.C54_us_partial`
* `Verif.Props.C54_s10_fails`
* `Verif.Props.C55_s10_partial`
* `Verif.Props.C55_us_partial`
* `Verif.Props.C56_stream_partial`
* `Verif.Props.C56_keep_partial`
* `Verif.Props.C57_status_partial`
* `Verif.Props.C57_ram_partial`
* `Verif.Props.C57_drain_partial`
* `Verif.Props.C58_writes_partial`
* `Verif.Props.C59_status_partial`
* `Verif.Props.C59_done_partial`
* `Verif.Props.C59_drain_partial`
* `Verif.Props.C60_requests_partial`
* `Verif.Props.C61_tags_partial`
* `Verif.Props.C62_errors_partial`
* `Verif.Props.C63_writes_partial`
* `Verif.Props.C64_status_partial`
* `Verif.Props.C64_once_partial`
* `Verif.Props.C64_delivered_partial`
* `Verif.Props.C65_inside_partial`
* `Verif.Props.C65_copy_partial`
* `Verif.Props.C66_transfers`
* `Verif.Props.C66_order`
* `Verif.Props.C66_stable`
* `Verif.Props.C67_completions_partial`
* `Verif.Props.C68_errors_partial`
* `Verif.Props.C69_completed_partial`
* `Verif.Props.C69_ready`
* `Verif.Props.C70_memory_partial`
* `Verif.Props.C71_bursts_partial`
* `Verif.Props.C71_data_partial`
* `Verif.Props.C71_legal_partial`
* `Verif.Props.C71_stable_partial`
* `Verif.Props.C72_errors_partial`
* `Verif.Props.C73_done_partial`
* `Verif.Props.C73_ready_partial`
* `Verif.Props.C74_data_partial`
* `Verif.Props.C74_parts`
* `Verif.Props.C75_bursts_partial`
* `Verif.Props.C75_legal_partial`
* `Verif.Props.C76_errors_partial`
* `Verif.Props.C77_done_partial`
* `Verif.Props.C77_ready_partial`
* `Verif.Props.C78_route`
* `Verif.Props.C78_tlps`
* `Verif.Props.C79_delivery`
* `Verif.Props.C79_stable`
* `Verif.Props.C79_ready`
* `Verif.Props.C79_progress`
* `Verif.Props.C80_bar`
* `Verif.Props.C81_order_one`
* `Verif.Props.C81_whole_one`
* `Verif.Props.C81_order_several`
* `Verif.Props.C81_whole_several`
* `Verif.Props.C82_ready_one`
* `Verif.Props.C82_level_one`
* `Verif.Props.C82_ready_several`
* `Verif.Props.C82_level_several`
* `Verif.Props.C83_drain_one`
* `Verif.Props.C83_ready_one_partial`
* `Verif.Props.C83_long_fails`
* `Verif.Props.C83_drain_several`
* `Verif.Props.C83_ready_several_partial`
* `Verif.Props.C83_long_several_fails`
* `Verif.Props.C84_route_one`
* `Verif.Props.C84_route_several`
* `Verif.Props.C84_tlps_several`
* `Verif.Props.C84_tlps_one`
* `Verif.Props.C84_bar_several`
* `Verif.Props.C84_bar_one`
* `Verif.Props.C85_delivery_one_partial`
* `Verif.Props.C85_delivery_several_partial`
* `Verif.Props.C85_slack_one`
* `Verif.Props.C85_slack_several`
* `Verif.Props.C85_progress_one_partial`
* `Verif.Props.C85_progress_several_partial`
* `Verif.Props.C85_long_one_fails`
* `Verif.Props.C85_long_several_fails`
* `Verif.Props.C86_merge_partial`
* `Verif.Props.C86_merge_fails`
* `Verif.Props.C87_drain_partial`
* `Verif.Props.C88_status_partial`
* `Verif.Props.C89_outputs`
* `Verif.Props.C89_reads`
* `Verif.Props.C89_protocol`
* `Verif.Props.C90_fresh`
* `Verif.Props.C91_ltile`
* `Verif.Props.C91_htile`
* `Verif.Props.C91_ptile_partial`
* `Verif.Props.C92_writes_partial`
* `Verif.Props.C92_done_partial`
* `Verif.Props.C92_length_partial`
* `Verif.Props.C93_data_partial`
* `Verif.Props.C93_bursts_partial`
* `Verif.Props.C93_done_partial`
* `Verif.Props.C93_legal_partial`
* `Verif.Props.C94_ready_partial`
* `Verif.Props.C94_order_partial`
* `Verif.Props.C94_block_fails`
* `Verif.Props.C95_rc_header`
* `Verif.Props.C96_packets_partial`
* `Verif.Props.C97_progress_partial`
* `Verif.Props.C98_cc_desc_partial`
* `Verif.Props.C98_rq_desc_partial`
* `Verif.Props.C99_packets`
* `Verif.Props.C100_progress`
* `Verif.Props.C101_seq`
* `Verif.Props.C102_routing`
* `Verif.Props.C102_drain`
* `Verif.Props.C103_routing`
* `Verif.Props.C103_drain`
* `Verif.Props.C104_merge`
* `Verif.Props.C104_drain`
* `Verif.Props.C105_route_one`
* `Verif.Props.C105_route_several`
* `Verif.Props.C105_delivery_one_partial`
* `Verif.Props.C105_delivery_several_partial`
* `Verif.Props.C106_no_loss_one_partial`
* `Verif.Props.C106_no_loss_several_partial`
* `Verif.Props.C106_latency26_partial`
* `Verif.Props.C106_latency27_fails`
* `Verif.Props.C107_func_one_partial`
* `Verif.Props.C107_func_several_partial`
* `Verif.Props.C108_route_one`
* `Verif.Props.C108_route_several`
* `Verif.Props.C108_delivery_one_partial`
* `Verif.Props.C108_delivery_several_partial`
* `Verif.Props.C109_no_loss_one`
* `Verif.Props.C109_no_loss_several`
* `Verif.Props.C109_latency_256`
* `Verif.Props.C109_latency_512`
* `Verif.Props.C110_merge_partial`
* `Verif.Props.C110_drain_partial`
* `Verif.Props.C111_status_partial`
* `Verif.Props.C111_pause_partial`
* `Verif.Props.C111_credits_partial`
* `Verif.Props.C112_gapless_partial`
* `Verif.Props.C112_ptile_gapless_partial`
* `Verif.Props.C112_merge_partial`
* `Verif.Props.C113_check_partial`
* `Verif.Props.C113_reads_partial`
* `Verif.Props.C114_drain_partial`
* `Verif.Props.C115_reads`
* `Verif.Props.C115_drain`
* `Verif.Props.C115_stable`
