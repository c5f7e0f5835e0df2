{
 "claims": [
  {
   "property": "C01",
   "status": "proved",
   "theorems": [
    "Verif.Props.C01_id_roundtrip",
    "Verif.Props.C01_int_roundtrip",
    "Verif.Props.C01_id_injective"
   ],
   "note": "All in-range IDs and all 16-bit values."
  },
  {
   "property": "C02",
   "status": "proved",
   "theorems": [
    "Verif.Props.C02_byte_mask_update",
    "Verif.Props.C02_full_write"
   ],
   "note": "Bit-level characterisation for unbounded integers, all masks."
  },
  {
   "property": "C03",
   "status": "proved",
   "theorems": [
    "Verif.Props.C03_align_least"
   ],
   "note": "Masks of the form 2^k-1, the only ones the function is meant for."
  },
  {
   "property": "C04",
   "status": "proved",
   "theorems": [
    "Verif.Props.C04_set_be_exact",
    "Verif.Props.C04_set_be_wellformed",
    "Verif.Props.C04_set_be_frame"
   ],
   "note": "All addresses, lengths >= 1."
  },
  {
   "property": "C05",
   "status": "proved",
   "theorems": [
    "Verif.Props.C05_byte_count_recovered"
   ],
   "note": "All addresses, lengths >= 1."
  },
  {
   "property": "C06",
   "status": "partial",
   "theorems": [
    "Verif.Props.C06_lower_address_fails",
    "Verif.Props.C06_lower_address_partial"
   ],
   "note": "False of the code (operator precedence in get_lower_address); negation proved, and the exact value the code returns."
  },
  {
   "property": "C07",
   "status": "proved",
   "theorems": [
    "Verif.Props.C07_payload_padded",
    "Verif.Props.C07_payload_enabled_bytes"
   ],
   "note": "All addresses and byte strings."
  },
  {
   "property": "C08",
   "status": "proved",
   "theorems": [
    "Verif.Props.C08_completion_roundtrip",
    "Verif.Props.C08_completion_layout"
   ],
   "note": "Round trip and layout for every well-formed completion."
  },
  {
   "property": "C09",
   "status": "partial",
   "theorems": [
    "Verif.Props.C09_cfg_roundtrip_fails",
    "Verif.Props.C09_read_3dw_roundtrip_fails",
    "Verif.Props.C09_4dw_roundtrip_fails",
    "Verif.Props.C09_cfg_roundtrip_partial",
    "Verif.Props.C09_pack_3dw_layout_partial",
    "Verif.Props.C09_pack_4dw_layout_partial"
   ],
   "note": "False of the code: register number lost, 3DW reads raise IndexError, 4DW address words wrong; negations proved. Proved part: configuration requests up to the register number, layout of packed 3DW requests."
  },
  {
   "property": "C10",
   "status": "proved",
   "theorems": [
    "Verif.Props.C10_root_complex_mem_write",
    "Verif.Props.C10_function_mem_write",
    "Verif.Props.C10_bus_master_disabled"
   ],
   "note": "RootComplex.mem_write (outside its own regions) and Function.mem_write: all addresses, data, payload settings."
  },
  {
   "property": "C11",
   "status": "proved",
   "theorems": [
    "Verif.Props.C11_mem_read_any_completer",
    "Verif.Props.C11_mem_read_endpoint",
    "Verif.Props.C11_mem_read_local"
   ],
   "note": "Against every rule-following completer and concretely against MemoryEndpoint regions; completions of one request arrive in order; tag choice is abstracted."
  },
  {
   "property": "C12",
   "status": "partial",
   "theorems": [
    "Verif.Props.C12_multi_chunk_read_fails",
    "Verif.Props.C12_request_size_fails",
    "Verif.Props.C12_single_chunk_read_partial",
    "Verif.Props.C12_root_complex_conforming"
   ],
   "note": "False of the code: Function.mem_read passes the total length to set_be. Proved that every multi-chunk read fails against a rule-following completer; single-chunk reads proved correct."
  },
  {
   "property": "C13",
   "status": "proved",
   "theorems": [
    "Verif.Props.C13_endpoint_completions",
    "Verif.Props.C13_root_complex_completions",
    "Verif.Props.C13_delivers_concat"
   ],
   "note": "All legal byte enables, lengths and payload settings, endpoint and root complex."
  },
  {
   "property": "C14",
   "status": "proved",
   "theorems": [
    "Verif.Props.C14_endpoint_write",
    "Verif.Props.C14_root_complex_write",
    "Verif.Props.C14_dma_write_end_to_end"
   ],
   "note": "All byte-enable patterns; bytearray regions of endpoints and mmap regions of the root complex; plus device write end to end."
  },
  {
   "property": "C15",
   "status": "partial",
   "theorems": [
    "Verif.Props.C15_cap_disjoint_fails",
    "Verif.Props.C15_cap_disjoint_partial",
    "Verif.Props.C15_cap_auto_partial"
   ],
   "note": "False for odd lengths and offsets (two witnesses). Proved for every sequence of registrations with even sizes and offsets, and for automatic placement of lengths >= 2."
  },
  {
   "property": "C16",
   "status": "partial",
   "theorems": [
    "Verif.Props.C16_cap_chain_fails",
    "Verif.Props.C16_cap_chain_partial",
    "Verif.Props.C16_ext_cap_chain_partial"
   ],
   "note": "False for a single capability (next pointer never set, reading the header raises). Proved for every registration history giving two or more capabilities inside configuration space, standard and extended lists."
  },
  {
   "property": "C17",
   "status": "proved",
   "theorems": [
    "Verif.Props.C17_config_write",
    "Verif.Props.C17_read_only_history"
   ],
   "note": "All header states with byte-sized fields, all registers 0-15, data and masks; whole configuration space unchanged elsewhere; read-only registers constant over every history. The interrupt pin is writable in the code (read-only in the PCI specification); the attribute table states this."
  },
  {
   "property": "C18",
   "status": "partial",
   "theorems": [
    "Verif.Props.C18_mem32_sizing",
    "Verif.Props.C18_io_sizing",
    "Verif.Props.C18_mem64_sizing",
    "Verif.Props.C18_bar_decode_partial",
    "Verif.Props.C18_bar_decode_fails"
   ],
   "note": "Sizing proved for all sizes and BAR kinds. Decoding proved for every list of BARs up to 2 GB each; false for 32-bit BARs above 4 GB, 64-bit BARs of 4 GB or more, and decode enables (witnesses)."
  },
  {
   "property": "C19",
   "status": "proved",
   "theorems": [
    "Verif.Props.C19_msi",
    "Verif.Props.C19_msi_no_bus_master"
   ],
   "note": "Every history of MSI register writes."
  },
  {
   "property": "C20",
   "status": "partial",
   "theorems": [
    "Verif.Props.C20_alloc_region_fails",
    "Verif.Props.C20_alloc_region_partial"
   ],
   "note": "False of the code (limit is the last used address); negation proved; even sizes proved disjoint and aligned. Exact arithmetic for log2."
  },
  {
   "property": "C21",
   "status": "proved",
   "theorems": [
    "Verif.Props.C21_placement",
    "Verif.Props.C21_bridge_windows",
    "Verif.Props.C21_windows_nested"
   ],
   "note": "About the device tree reported by enumerate, for any hardware below the root complex. Alignment is stated for BAR sizes that are powers of two."
  },
  {
   "property": "C22",
   "status": "proved",
   "theorems": [
    "Verif.Props.C22_unique",
    "Verif.Props.C22_ranges",
    "Verif.Props.C22_siblings",
    "Verif.Props.C22_identifiers"
   ],
   "note": "About the device tree reported by enumerate, for any hardware below the root complex."
  },
  {
   "property": "C23",
   "status": "partial",
   "theorems": [
    "Verif.Props.C23_upstream_partial",
    "Verif.Props.C23_unsupported_fails",
    "Verif.Props.C23_downstream",
    "Verif.Props.C23_switch_port_partial",
    "Verif.Props.C23_message_fails"
   ],
   "note": "Routing decisions of bridges and switch ports proved for every TLP kind against a window/ID specification. The code sends no unsupported-request completion for unroutable requests at a bridge (C23_unsupported_fails), and switch ports select ID-routed messages by requester instead of destination (C23_message_fails)."
  },
  {
   "property": "C24",
   "status": "partial",
   "theorems": [
    "Verif.Props.C24_numbers_partial",
    "Verif.Props.C24_range_fails",
    "Verif.Props.C24_append",
    "Verif.Props.C24_config_read",
    "Verif.Props.C24_config_write",
    "Verif.Props.C24_config_other"
   ],
   "note": "Numbers unique and ascending for every history; below 8 only if the caller's explicit numbers are (add_function does not check: C24_range_fails). Configuration requests reach exactly the matching function."
  },
  {
   "property": "C25",
   "status": "partial",
   "theorems": [
    "Verif.Props.C25_free_tag_partial",
    "Verif.Props.C25_reuse_fails",
    "Verif.Props.C25_reuse_partial"
   ],
   "note": "get_free_tag only looks at queues of received completions, so unanswered tags are reused after wrapping (C25_reuse_fails). Proved: no completion is waiting for the tag returned, None iff all busy, and no reuse within a window of events smaller than the number of tags."
  },
  {
   "property": "C26",
   "status": "proved",
   "theorems": [
    "Verif.Props.C26_dword_parity",
    "Verif.Props.C26_dword_parity_if",
    "Verif.Props.C26_parity_if",
    "Verif.Props.C26_us_update",
    "Verif.Props.C26_if_update",
    "Verif.Props.C26_us_accepts",
    "Verif.Props.C26_if_accepts",
    "Verif.Props.C26_us_rejects",
    "Verif.Props.C26_if_rejects"
   ],
   "note": "Both dword_parity functions, the wide parity function, update_parity and check_parity of USPcieFrame and PcieIfFrame."
  },
  {
   "property": "C27",
   "status": "proved",
   "theorems": [
    "Verif.Props.C27_lossless",
    "Verif.Props.C27_complete",
    "Verif.Props.C27_progress",
    "Verif.Props.C27_abort_fails"
   ],
   "note": "Proved for every segment count and width > 0, every history of sends, coroutine steps and clock edges with any pauses, and every frame that fits the signals and whose payload has the length its header announces. tlp_abort is not on the bus: C27_abort_fails records it."
  },
  {
   "property": "C28",
   "status": "partial",
   "theorems": [
    "Verif.Props.C28_write_accepts",
    "Verif.Props.C28_write_partial",
    "Verif.Props.C28_write_all_partial",
    "Verif.Props.C28_write_completed_partial",
    "Verif.Props.C28_write_progress_partial",
    "Verif.Props.C28_geometry_fails",
    "Verif.Props.C28_read_partial",
    "Verif.Props.C28_read_accepts",
    "Verif.Props.C28_read_progress_partial",
    "Verif.Props.C28_write_then_read_partial"
   ],
   "note": "Proved for every geometry whose total byte lane count is a power of two, every history of calls, clock edges with arbitrary pauses and response steps: memory is linearizable to a flat memory, finished reads return the flat contents, nothing gets stuck. Missing: other byte lane counts, for which C28_geometry_fails shows a write landing at another address (address_width is rounded up). Reads are modelled against a memory that does not change during the read history."
  },
  {
   "property": "C29",
   "status": "partial",
   "theorems": [
    "Verif.Props.C29_cq_roundtrip_partial",
    "Verif.Props.C29_rq_roundtrip_partial",
    "Verif.Props.C29_cc_roundtrip_partial",
    "Verif.Props.C29_rc_roundtrip_partial",
    "Verif.Props.C29_cq_layout",
    "Verif.Props.C29_rq_layout",
    "Verif.Props.C29_cc_layout",
    "Verif.Props.C29_rc_layout",
    "Verif.Props.C29_cq_byte_enables",
    "Verif.Props.C29_rc_byte_enables",
    "Verif.Props.C29_kinds",
    "Verif.Props.C29_poisoned_fails"
   ],
   "note": "All four descriptors: round trip of the carried fields, bit layout, byte enables, parity, accepted kinds. Suffix _partial because the poisoned bit that the descriptor formats have is never packed: C29_poisoned_fails. Message and atomic requests are not packed by the code (C29_kinds)."
  },
  {
   "property": "C30",
   "status": "proved",
   "theorems": [
    "Verif.Props.C30_valid",
    "Verif.Props.C30_encoded"
   ],
   "note": "All widths > 0 and all inputs, both priorities."
  },
  {
   "property": "C31",
   "status": "proved",
   "theorems": [
    "Verif.Props.C31_onehot",
    "Verif.Props.C31_held",
    "Verif.Props.C31_requested",
    "Verif.Props.C31_priority"
   ],
   "note": "All port counts > 0, parameters and histories (including resets)."
  },
  {
   "property": "C32",
   "status": "proved",
   "theorems": [
    "Verif.Props.C32_no_starvation",
    "Verif.Props.C32_choices"
   ],
   "note": "After any history, among PORTS successive choices made while the port keeps requesting, one is that port; a non-blocking arbiter makes a choice in every such cycle."
  },
  {
   "property": "C33",
   "status": "proved",
   "theorems": [
    "Verif.Props.C33_conservation",
    "Verif.Props.C33_pulse",
    "Verif.Props.C33_drain"
   ],
   "note": "All widths and histories in which the backlog fits the counter; the pulse is registered, so it is emitted in the cycle after the count is nonzero."
  },
  {
   "property": "C34",
   "status": "partial",
   "theorems": [
    "Verif.Props.C34_totals_partial",
    "Verif.Props.C34_exact_partial",
    "Verif.Props.C34_class",
    "Verif.Props.C34_length_fails"
   ],
   "note": "The statement is false for TLPs of more than 512 DWORDs (C34_length_fails: only 9 of 10 length bits are used). Proved for all headers of at most 512 DWORDs and any number of segments; the header class for all types."
  },
  {
   "property": "C35",
   "status": "proved",
   "theorems": [
    "Verif.Props.C35_merge",
    "Verif.Props.C35_drain",
    "Verif.Props.C35_word"
   ],
   "note": "Every accepted frame is emitted whole, in per-port order, each once (C35_merge); everything is emitted when the output is ready (C35_drain); each output word is the input word with tid/tdest/tuser extended as configured (C35_word)."
  },
  {
   "property": "C36",
   "status": "proved",
   "theorems": [
    "Verif.Props.C36_merge",
    "Verif.Props.C36_drain",
    "Verif.Props.C36_descriptor",
    "Verif.Props.C36_status",
    "Verif.Props.C36_no_status"
   ],
   "note": "Descriptors are merged without loss or reordering per port with the port number in the tag (C36_merge, C36_drain, C36_descriptor); a status goes to exactly the port in its tag with that port's tag (C36_status, C36_no_status)."
  },
  {
   "property": "C37",
   "status": "proved",
   "theorems": [
    "Verif.Props.C37_forwarded",
    "Verif.Props.C37_order",
    "Verif.Props.C37_answers",
    "Verif.Props.C37_drain",
    "Verif.Props.C37_select"
   ],
   "note": "The select value must name a port, which is automatic when PORTS is a power of two (C37_select); otherwise such a command is accepted and never forwarded (recorded in DESIGN)."
  },
  {
   "property": "C38",
   "status": "proved",
   "theorems": [
    "Verif.Props.C38_forwarded",
    "Verif.Props.C38_order",
    "Verif.Props.C38_drain"
   ],
   "note": "Hypotheses: the select value names a port (automatic when PORTS is a power of two), and no port reports more completions than it took commands."
  },
  {
   "property": "C39",
   "status": "proved",
   "theorems": [
    "Verif.Props.C39_reads",
    "Verif.Props.C39_drain",
    "Verif.Props.C39_accept",
    "Verif.Props.C39_stable",
    "Verif.Props.C39_write",
    "Verif.Props.C39_done"
   ],
   "note": "One segment of dma_psdpram, any width, address width and pipeline depth; the segments do not interact."
  },
  {
   "property": "C40",
   "status": "partial",
   "theorems": [
    "Verif.Props.C40_exact_partial",
    "Verif.Props.C40_mps4096_fails"
   ],
   "note": "Proved for every history, timing and descriptor mix with max_payload_size up to 2048 bytes (mps <= 4), end to end: data comes from the RAMs or the immediate. With 4096 bytes (mps = 5) the property is false: C40_mps4096_fails."
  },
  {
   "property": "C41",
   "status": "partial",
   "theorems": [
    "Verif.Props.C41_status_partial",
    "Verif.Props.C41_acknowledged_partial",
    "Verif.Props.C41_transferred_fails"
   ],
   "note": "Statuses are exactly the tags of a prefix of the accepted descriptors, and all their TLPs have been put on the interface (C41_status_partial); with sequence numbers enabled they have been transferred and acknowledged (C41_acknowledged_partial). Without sequence numbers the last transfer may still wait for ready: C41_transferred_fails. mps <= 4 as in C40. That every descriptor eventually gets its status is not proved."
  },
  {
   "property": "C42",
   "status": "partial",
   "theorems": [
    "Verif.Props.C42_interval_partial",
    "Verif.Props.C42_not_lost",
    "Verif.Props.C42_no_spurious",
    "Verif.Props.C42_handover",
    "Verif.Props.C42_ticks",
    "Verif.Props.C42_interval_fails"
   ],
   "note": "Proved: no request is lost (C42_not_lost, source number width up to 14), nothing is presented without a request, interrupts are handed over in order once, and the minimum interval is kept whenever the deadline does not wrap in the 17-bit time counter (C42_interval_partial). When it wraps the interval is violated by the RTL, whose comparison is 32 bits wide (C42_interval_fails)."
  },
  {
   "property": "C43",
   "status": "partial",
   "theorems": [
    "Verif.Props.C43_reset",
    "Verif.Props.C43_exact_partial",
    "Verif.Props.C43_no_spurious_partial",
    "Verif.Props.C43_message",
    "Verif.Props.C43_sent_partial",
    "Verif.Props.C43_exact_fails",
    "Verif.Props.C43_lost_fails",
    "Verif.Props.C43_sent_fails"
   ],
   "note": "Proved for requests below vector 32 (every module with at most 32 vectors): pending bits equal the unanswered requests whenever the module is ready, no spurious message, every pending vector is sent if all pending vectors are unmasked; message contents for every width. Fails for vectors 32 and up (C43_exact_fails, C43_lost_fails), and a pending masked vector starves the others (C43_sent_fails)."
  },
  {
   "property": "C44",
   "status": "partial",
   "theorems": [
    "Verif.Props.C44_bounded",
    "Verif.Props.C44_accounting_partial",
    "Verif.Props.C44_accounting_fails"
   ],
   "note": "Bound proved for all histories. Exact accounting is false when limits are time multiplexed (C44_accounting_fails: the increment register is not cleared) and is proved when the limit is presented in every cycle. WIDTH at most 30."
  },
  {
   "property": "C45",
   "status": "partial",
   "theorems": [
    "Verif.Props.C45_cap_write_partial",
    "Verif.Props.C45_cap_write_fails"
   ],
   "note": "Proved for every capability placement except four bits of the PCI Express capability and Link Control 2 with an equalization request; failures proved with witnesses."
  },
  {
   "property": "C46",
   "status": "partial",
   "theorems": [
    "Verif.Props.C46_link_capabilities_fails",
    "Verif.Props.C46_pcie_fields_partial"
   ],
   "note": "Link width, ASPM and latency fields are shifted the wrong way (proved zero for every state); other fields proved."
  },
  {
   "property": "C47",
   "status": "partial",
   "theorems": [
    "Verif.Props.C47_ext_cap_fails",
    "Verif.Props.C47_ext_cap_partial"
   ],
   "note": "Automatically placed extended capabilities are unreachable (witness); proved for registers 256-1023."
  },
  {
   "property": "C48",
   "status": "partial",
   "theorems": [
    "Verif.Props.C48_bridge_write_partial",
    "Verif.Props.C48_secondary_status_fails",
    "Verif.Props.C48_bridge_control_fails"
   ],
   "note": "Every register of the type 1 header except 15 and the secondary status behaves per bit as specified. Register 15 (bridge control) raises AttributeError (C48_bridge_control_fails) and secondary status cannot be cleared (C48_secondary_status_fails)."
  },
  {
   "property": "C49",
   "status": "proved",
   "theorems": [
    "Verif.Props.C49_reads",
    "Verif.Props.C49_writes",
    "Verif.Props.C49_drain",
    "Verif.Props.C49_write_progress",
    "Verif.Props.C49_read_progress"
   ],
   "note": "AXI lite interface of pcie_msix: answers in order and exact, writes exact, responses counted, progress for both channels, drain."
  },
  {
   "property": "C50",
   "status": "proved",
   "theorems": [
    "Verif.Props.C50_sequence"
   ],
   "note": "For every configuration and history."
  },
  {
   "property": "C51",
   "status": "partial",
   "theorems": [
    "Verif.Props.C51_inflight_partial",
    "Verif.Props.C51_limit_fails",
    "Verif.Props.C51_saturation_fails"
   ],
   "note": "The bound proved is TX_LIMIT + 1, for TX_LIMIT + 1 not a power of two. TX_LIMIT itself is exceeded (C51_limit_fails), and for TX_LIMIT = 2^k - 1 the counter saturates and the excess grows (C51_saturation_fails)."
  },
  {
   "property": "C52",
   "status": "partial",
   "theorems": [
    "Verif.Props.C52_route_partial",
    "Verif.Props.C52_enable",
    "Verif.Props.C52_route_fails",
    "Verif.Props.C52_cq64_partial",
    "Verif.Props.C52_cq64_drop_fails",
    "Verif.Props.C52_cq64_reset_fails"
   ],
   "note": "Proved for histories in which nothing is dropped, for the wide modules also with drops when the outputs are always ready. With drops under back-pressure the code loses a word; the 64-bit module emits the last word of a dropped packet and keeps a word across reset: negations proved."
  },
  {
   "property": "C53",
   "status": "proved",
   "theorems": [
    "Verif.Props.C53_s10_cause",
    "Verif.Props.C53_us_cause",
    "Verif.Props.C53_s10_held",
    "Verif.Props.C53_us_onehot"
   ],
   "note": "Both shims. The one-hot pulse of the UltraScale shim and the held request of the Stratix 10 shim are separate theorems."
  },
  {
   "property": "C54",
   "status": "partial",
   "theorems": [
    "Verif.Props.C54_s10_partial",
    "Verif.Props.C54_us_partial",
    "Verif.Props.C54_s10_fails"
   ],
   "note": "Time bound n*(a+1)+3 proved for both shims. An edge that comes while a message of the same vector is in flight gets no message of its own: negation proved."
  },
  {
   "property": "C55",
   "status": "partial",
   "theorems": [
    "Verif.Props.C55_s10_partial",
    "Verif.Props.C55_us_partial",
    "Verif.Props.C55_s10_fails"
   ],
   "note": "Proved when MSI is enabled two cycles before the request. A grant that survives a period with MSI disabled is signalled although masked: negation proved."
  },
  {
   "property": "C56",
   "status": "partial",
   "theorems": [
    "Verif.Props.C56_stream_partial",
    "Verif.Props.C56_keep_partial",
    "Verif.Props.C56_byte_stream_fails",
    "Verif.Props.C56_zero_length_fails"
   ],
   "note": "Proved for streams of at least two bytes (or as wide as the RAM) and descriptors of length at least 1; false for the excluded cases, with witnesses. The RAM contents are fixed for the whole history: reuse of a buffer after its status is not covered. An address not aligned to the stream width is rounded down, as in srcPacket."
  },
  {
   "property": "C57",
   "status": "partial",
   "theorems": [
    "Verif.Props.C57_status_partial",
    "Verif.Props.C57_ram_partial",
    "Verif.Props.C57_drain_partial"
   ],
   "note": "Proved for the configurations of C56 and descriptors of length at least 1, with RAM contents fixed for the history. Missing: one-byte streams narrower than the RAM and descriptors of length 0, for which nothing is proved either way."
  },
  {
   "property": "C58",
   "status": "partial",
   "theorems": [
    "Verif.Props.C58_writes_partial",
    "Verif.Props.C58_byte_stream_fails",
    "Verif.Props.C58_zero_length_fails"
   ],
   "note": "Proved for streams of at least two bytes and descriptors of length at least 1. False for length 0 and for a one-byte stream with several parts per RAM row (C58_zero_length_fails, C58_byte_stream_fails)."
  },
  {
   "property": "C59",
   "status": "partial",
   "theorems": [
    "Verif.Props.C59_status_partial",
    "Verif.Props.C59_done_partial",
    "Verif.Props.C59_drain_partial",
    "Verif.Props.C59_packet_length"
   ],
   "note": "Same exclusions as C58. The RAM is assumed to have no write outstanding at the reset and never to report more writes than it has taken. C59_packet_length says what the demanded length is for an ordinary packet."
  },
  {
   "property": "C60",
   "status": "partial",
   "theorems": [
    "Verif.Props.C60_requests_partial",
    "Verif.Props.C60_mrrs4096_fails",
    "Verif.Props.C60_length_fails"
   ],
   "note": "For mrrs \u2264 4 and descriptors whose length plus offset in the first DWORD fits in max(LEN_WIDTH,13) bits. False for a maximum request size of 4096 bytes and for longer descriptors, by witness."
  },
  {
   "property": "C61",
   "status": "partial",
   "theorems": [
    "Verif.Props.C61_tags_partial",
    "Verif.Props.C61_duplicate_fails"
   ],
   "note": "Every history with well-formed completions, maximum read request size at most 2048 bytes and descriptors whose length fits. Missing: a completion for a tag finished in the cycle before, refuted by C61_duplicate_fails."
  },
  {
   "property": "C62",
   "status": "partial",
   "theorems": [
    "Verif.Props.C62_errors_partial",
    "Verif.Props.C62_duplicate_fails"
   ],
   "note": "Under the same conditions. Missing: a completion for a tag finished in the cycle before, refuted by C62_duplicate_fails."
  },
  {
   "property": "C63",
   "status": "partial",
   "theorems": [
    "Verif.Props.C63_writes_partial",
    "Verif.Props.C63_reset_fails"
   ],
   "note": "Whole-module model, all configurations and histories after two cycles of reset. Missing: reset of one cycle (defect shown by C63_reset_fails), and the cases missing from C60 and C61."
  },
  {
   "property": "C64",
   "status": "partial",
   "theorems": [
    "Verif.Props.C64_status_partial",
    "Verif.Props.C64_once_partial",
    "Verif.Props.C64_delivered_partial",
    "Verif.Props.C64_tags_fails"
   ],
   "note": "C64_status_partial: the statuses given are those of the first completions, in their order, and the RAM has reported all that these had to write. C64_once_partial: each descriptor completes once, exactly when all its requests are answered. C64_delivered_partial: bounded time. Missing: fewer than 32 tags, where C64_tags_fails shows an early success status followed by a second one; the cases excluded by C60, C61 and C63."
  },
  {
   "property": "C65",
   "status": "partial",
   "theorems": [
    "Verif.Props.C65_inside_partial",
    "Verif.Props.C65_copy_partial"
   ],
   "note": "C65_copy_partial: statuses are for different descriptors, carry their tags, and a status without error means that each byte has been written by a command the RAM has taken and reported. C65_inside_partial: no write outside the buffers. Missing: fewer than 32 tags, and the cases excluded by C60, C61 and C63."
  },
  {
   "property": "C66",
   "status": "proved",
   "theorems": [
    "Verif.Props.C66_transfers",
    "Verif.Props.C66_order",
    "Verif.Props.C66_stable"
   ],
   "note": "Whole-module model. Transfers on the three AXI channels are those of the requests; order between reads and writes; stability of valid and payload."
  },
  {
   "property": "C67",
   "status": "partial",
   "theorems": [
    "Verif.Props.C67_completions_partial",
    "Verif.Props.C67_message_fails"
   ],
   "note": "All requests but messages. With messages the property fails: C67_message_fails (operator precedence in line 442). Completions without data carry byte count 0 and lower address 0, as the specification in Spec/AxilMin.lean says."
  },
  {
   "property": "C68",
   "status": "partial",
   "theorems": [
    "Verif.Props.C68_errors_partial",
    "Verif.Props.C68_message_fails"
   ],
   "note": "All requests but messages; with messages it fails: C68_message_fails."
  },
  {
   "property": "C69",
   "status": "partial",
   "theorems": [
    "Verif.Props.C69_completed_partial",
    "Verif.Props.C69_ready"
   ],
   "note": "The bound for readiness is proved without restriction; the bound for completions for requests other than messages, as in C67."
  },
  {
   "property": "C70",
   "status": "partial",
   "theorems": [
    "Verif.Props.C70_memory_partial",
    "Verif.Props.C70_split_fails"
   ],
   "note": "Proved for TLPs that need one burst of at most AXI_MAX_BURST_LEN transfers. For longer TLPs the property is false: C70_split_fails."
  },
  {
   "property": "C71",
   "status": "partial",
   "theorems": [
    "Verif.Props.C71_bursts_partial",
    "Verif.Props.C71_data_partial",
    "Verif.Props.C71_legal_partial",
    "Verif.Props.C71_stable_partial",
    "Verif.Props.C71_overwritten_fails",
    "Verif.Props.C71_length_fails"
   ],
   "note": "Proved for TLPs that need one burst. False for longer ones: C71_overwritten_fails, C71_length_fails."
  },
  {
   "property": "C72",
   "status": "partial",
   "theorems": [
    "Verif.Props.C72_errors_partial"
   ],
   "note": "Proved for histories in which all memory writes need one burst only; not proved for others."
  },
  {
   "property": "C73",
   "status": "partial",
   "theorems": [
    "Verif.Props.C73_done_partial",
    "Verif.Props.C73_ready_partial",
    "Verif.Props.C73_wrap_fails"
   ],
   "note": "Proved for TLPs that need one burst. False for longer ones: C73_wrap_fails (default burst length, 64 bits)."
  },
  {
   "property": "C74",
   "status": "partial",
   "theorems": [
    "Verif.Props.C74_data_partial",
    "Verif.Props.C74_parts",
    "Verif.Props.C74_replaced_fails",
    "Verif.Props.C74_lower_fails"
   ],
   "note": "Proved for histories in which the settings are constant, the AXI slave answers in order, requests are no messages or prefixes, reads are one word, do not cross a 4 KB boundary and need at most 256 transfers, and unsupported requests come alone. Lower address of completions without data not compared. C74_replaced_fails and C74_lower_fails show what goes wrong else."
  },
  {
   "property": "C75",
   "status": "partial",
   "theorems": [
    "Verif.Props.C75_bursts_partial",
    "Verif.Props.C75_legal_partial",
    "Verif.Props.C75_stable",
    "Verif.Props.C75_wrap_fails",
    "Verif.Props.C75_length_fails",
    "Verif.Props.C75_power_fails"
   ],
   "note": "Same histories; C75_stable for all states. Burst length at most the maximum for aligned starts and powers of two, one more else. C75_wrap_fails, C75_length_fails and C75_power_fails show the rest is false."
  },
  {
   "property": "C76",
   "status": "partial",
   "theorems": [
    "Verif.Props.C76_errors_partial",
    "Verif.Props.C76_message_fails"
   ],
   "note": "No messages; C76_message_fails shows that messages are reported as correctable errors and answered."
  },
  {
   "property": "C77",
   "status": "partial",
   "theorems": [
    "Verif.Props.C77_done_partial",
    "Verif.Props.C77_ready_partial",
    "Verif.Props.C77_unsupported_fails"
   ],
   "note": "Same histories as C74: 2294 cycles. C77_unsupported_fails: with an unsupported request among reads the module hangs forever."
  },
  {
   "property": "C78",
   "status": "proved",
   "theorems": [
    "Verif.Props.C78_route",
    "Verif.Props.C78_tlps"
   ],
   "note": "any number of ports and segments per word; the configuration with output FIFOs is C84"
  },
  {
   "property": "C79",
   "status": "proved",
   "theorems": [
    "Verif.Props.C79_delivery",
    "Verif.Props.C79_stable",
    "Verif.Props.C79_ready",
    "Verif.Props.C79_progress"
   ],
   "note": "any number of ports and segments per word; the configuration with output FIFOs is C85"
  },
  {
   "property": "C80",
   "status": "proved",
   "theorems": [
    "Verif.Props.C80_checks",
    "Verif.Props.C80_bar"
   ],
   "note": "any number of ports and segments per word; the configuration with output FIFOs is C84"
  },
  {
   "property": "C81",
   "status": "partial",
   "theorems": [
    "Verif.Props.C81_order_one",
    "Verif.Props.C81_whole_one",
    "Verif.Props.C81_order_several",
    "Verif.Props.C81_whole_several"
   ],
   "note": "one segment per word, and any power of two of segments per word with the same number on both sides; different numbers of segments on the two sides are not modelled"
  },
  {
   "property": "C82",
   "status": "partial",
   "theorems": [
    "Verif.Props.C82_stable_one",
    "Verif.Props.C82_ready_one",
    "Verif.Props.C82_level_one",
    "Verif.Props.C82_stable_several",
    "Verif.Props.C82_ready_several",
    "Verif.Props.C82_level_several"
   ],
   "note": "one segment per word, and any power of two of segments per word with the same number on both sides; different numbers of segments on the two sides are not modelled"
  },
  {
   "property": "C83",
   "status": "partial",
   "theorems": [
    "Verif.Props.C83_drain_one",
    "Verif.Props.C83_ready_one_partial",
    "Verif.Props.C83_long_fails",
    "Verif.Props.C83_drain_several",
    "Verif.Props.C83_ready_several_partial",
    "Verif.Props.C83_long_several_fails"
   ],
   "note": "TLPs accepted completely come out; ready again unless the unfinished TLP fills the FIFO, where it hangs (C83_long_fails, C83_long_several_fails); one segment per word, and any power of two with the same number on both sides"
  },
  {
   "property": "C84",
   "status": "proved",
   "theorems": [
    "Verif.Props.C84_route_one",
    "Verif.Props.C84_route_several",
    "Verif.Props.C84_tlps_several",
    "Verif.Props.C84_tlps_one",
    "Verif.Props.C84_bar_several",
    "Verif.Props.C84_bar_one"
   ],
   "note": "composition of the demultiplexer with the models of the TLP FIFO; different numbers of segments at the two sides of the FIFO are not modelled"
  },
  {
   "property": "C85",
   "status": "partial",
   "theorems": [
    "Verif.Props.C85_delivery_one_partial",
    "Verif.Props.C85_delivery_several_partial",
    "Verif.Props.C85_slack_one",
    "Verif.Props.C85_slack_several",
    "Verif.Props.C85_progress_one_partial",
    "Verif.Props.C85_progress_several_partial",
    "Verif.Props.C85_long_one_fails",
    "Verif.Props.C85_long_several_fails"
   ],
   "note": "for TLPs with fewer segments than the FIFO of their port less two words; a longer TLP stops the whole demultiplexer for good (C85_long_one_fails, C85_long_several_fails)"
  },
  {
   "property": "C86",
   "status": "partial",
   "theorems": [
    "Verif.Props.C86_merge_partial",
    "Verif.Props.C86_merge_fails"
   ],
   "note": "Proved for at most two segments per word with any words, and for any number of segments with words without free lanes. For three or more segments with partly filled words it is false: C86_merge_fails."
  },
  {
   "property": "C87",
   "status": "partial",
   "theorems": [
    "Verif.Props.C87_stable",
    "Verif.Props.C87_drain_partial",
    "Verif.Props.C87_hang"
   ],
   "note": "Stability in every state. Draining for words whose valid lanes come first (and no free lanes above two segments per word) when whole TLPs have been accepted; C87_hang: a word that ends within a TLP and has a free lane stops the module for ever."
  },
  {
   "property": "C88",
   "status": "partial",
   "theorems": [
    "Verif.Props.C88_status_partial",
    "Verif.Props.C88_status_fails"
   ],
   "note": "Proved for words without free lanes (always so with one segment per word). With free lanes it is false: C88_status_fails."
  },
  {
   "property": "C89",
   "status": "partial",
   "theorems": [
    "Verif.Props.C89_outputs",
    "Verif.Props.C89_reads",
    "Verif.Props.C89_protocol",
    "Verif.Props.C89_late_fails"
   ],
   "note": "C89_outputs, C89_reads and C89_protocol hold for every history in which the core sets done only while read is asserted (UcObeys). Read stays asserted for one cycle after done, so a core that takes this as another read and answers it later breaks the mapping: C89_late_fails."
  },
  {
   "property": "C90",
   "status": "proved",
   "theorems": [
    "Verif.Props.C90_fresh"
   ],
   "note": "C90_fresh, for every history in which the core answers within d cycles and sets done only while read is asserted."
  },
  {
   "property": "C91",
   "status": "partial",
   "theorems": [
    "Verif.Props.C91_ltile",
    "Verif.Props.C91_htile",
    "Verif.Props.C91_ptile_partial",
    "Verif.Props.C91_aer_fails"
   ],
   "note": "C91_ltile and C91_htile for all outputs; C91_ptile_partial for all P-tile outputs but the AER masks and the AER severity, for which the property is false: their upper halves are written at offset 32 instead of 16 (C91_aer_fails)."
  },
  {
   "property": "C92",
   "status": "partial",
   "theorems": [
    "Verif.Props.C92_writes_partial",
    "Verif.Props.C92_done_partial",
    "Verif.Props.C92_length_partial"
   ],
   "note": "proved for TLPs marked and sized correctly whose writes need one burst (longer ones: see C70); composition of the demultiplexer with the master for writes"
  },
  {
   "property": "C93",
   "status": "partial",
   "theorems": [
    "Verif.Props.C93_data_partial",
    "Verif.Props.C93_bursts_partial",
    "Verif.Props.C93_done_partial",
    "Verif.Props.C93_legal_partial"
   ],
   "note": "proved for memory reads inside a 4 KB page and completions; without unsupported requests and messages (see C74, C76, C77)"
  },
  {
   "property": "C94",
   "status": "partial",
   "theorems": [
    "Verif.Props.C94_ready_partial",
    "Verif.Props.C94_order_partial",
    "Verif.Props.C94_order_fails",
    "Verif.Props.C94_block_fails"
   ],
   "note": "progress proved; a read is proved to see a write only if 96 cycles with ready write channels lie between; in general a read overtakes a write (C94_order_fails), and reads whose completions are not accepted block writes forever (C94_block_fails)"
  },
  {
   "property": "C95",
   "status": "partial",
   "theorems": [
    "Verif.Props.C95_rc_header",
    "Verif.Props.C95_rc_error",
    "Verif.Props.C95_cq_header_partial",
    "Verif.Props.C95_io_fails",
    "Verif.Props.C95_message_fails"
   ],
   "note": "Proved for completions and for memory, IO and atomic requests; fails for IO requests (4DW format) and messages (message code lost). Poisoned requests have no bit in the descriptor."
  },
  {
   "property": "C96",
   "status": "partial",
   "theorems": [
    "Verif.Props.C96_packets_partial",
    "Verif.Props.C96_byte_enables_fails"
   ],
   "note": "All widths from 128 bits, with and without straddling, any schedule. Restricted, with straddling CQ, to words in which a packet starts in the upper half only beside one in the lower half; the rest is refuted (wrong byte enables). 64-bit interfaces are not modelled."
  },
  {
   "property": "C97",
   "status": "partial",
   "theorems": [
    "Verif.Props.C97_progress_partial"
   ],
   "note": "Same restriction as C96."
  },
  {
   "property": "C98",
   "status": "partial",
   "theorems": [
    "Verif.Props.C98_cc_desc_partial",
    "Verif.Props.C98_rq_desc_partial",
    "Verif.Props.C98_locked_fails",
    "Verif.Props.C98_large_fails",
    "Verif.Props.C98_address32_fails",
    "Verif.Props.C98_config_fails",
    "Verif.Props.C98_message_fails"
   ],
   "note": "Completer completion and requester request descriptors. Partial: not for locked completions, byte count 4096, 1024 DWORDs (C98_locked_fails, C98_large_fails), requests with 32-bit addresses (C98_address32_fails), configuration requests and messages (C98_config_fails, C98_message_fails)."
  },
  {
   "property": "C99",
   "status": "proved",
   "theorems": [
    "Verif.Props.C99_packets",
    "Verif.Props.C99_stable"
   ],
   "note": "CC and RQ at all widths and with straddling at 512 bits, any behaviour of the core and the FIFOs. The FIFOs at the inputs are not part of the model: what they show is an input (segments of the TLPs in order)."
  },
  {
   "property": "C100",
   "status": "proved",
   "theorems": [
    "Verif.Props.C100_progress"
   ],
   "note": "Bound: number of segments on the stream plus 2 cycles."
  },
  {
   "property": "C101",
   "status": "proved",
   "theorems": [
    "Verif.Props.C101_reads",
    "Verif.Props.C101_writes",
    "Verif.Props.C101_seq"
   ],
   "note": "In any state, per port. Sequence numbers as the core returns them."
  },
  {
   "property": "C102",
   "status": "proved",
   "theorems": [
    "Verif.Props.C102_routing",
    "Verif.Props.C102_drain",
    "Verif.Props.C102_no_status"
   ],
   "note": "Composition of the descriptor multiplexer and the RAM write demultiplexer, all segments. The DMA interface is the environment: it uses the RAM selects and tags of the descriptors it was given."
  },
  {
   "property": "C103",
   "status": "proved",
   "theorems": [
    "Verif.Props.C103_routing",
    "Verif.Props.C103_drain",
    "Verif.Props.C103_no_status"
   ],
   "note": "Composition of the descriptor multiplexer and the RAM read demultiplexer, all segments. Descriptors with an immediate require IMM_ENABLE."
  },
  {
   "property": "C104",
   "status": "proved",
   "theorems": [
    "Verif.Props.C104_merge",
    "Verif.Props.C104_drain",
    "Verif.Props.C104_no_status"
   ],
   "note": "Same multiplexer structure as dma_if_desc_mux, with the fields of this module."
  },
  {
   "property": "C105",
   "status": "partial",
   "theorems": [
    "Verif.Props.C105_route_one",
    "Verif.Props.C105_route_several",
    "Verif.Props.C105_delivery_one_partial",
    "Verif.Props.C105_delivery_several_partial"
   ],
   "note": "Routing, order and contents for every history (one and several segments); delivery for TLPs of at most words - 2 words of the FIFO (as C85). The function number is C107. TLP_SEG_COUNT = SEG_COUNT."
  },
  {
   "property": "C106",
   "status": "partial",
   "theorems": [
    "Verif.Props.C106_no_loss_one_partial",
    "Verif.Props.C106_no_loss_several_partial",
    "Verif.Props.C106_latency26_partial",
    "Verif.Props.C106_latency27_fails"
   ],
   "note": "No row is lost if the watermark leaves room for the ready latency and two more rows; with the parameters of the module that covers a ready latency of 26 cycles. For 27 cycles a loss is proved (C106_latency27_fails), for 128 and 256 bits."
  },
  {
   "property": "C107",
   "status": "partial",
   "theorems": [
    "Verif.Props.C107_func_one_partial",
    "Verif.Props.C107_func_several_partial",
    "Verif.Props.C107_func_fails"
   ],
   "note": "The module reads two bits per segment instead of three: right for functions 0 to 3 in segment 0 only (C107_func_one_partial, C107_func_several_partial); function 4 comes out as 0 (C107_func_fails)."
  },
  {
   "property": "C108",
   "status": "partial",
   "theorems": [
    "Verif.Props.C108_route_one",
    "Verif.Props.C108_route_several",
    "Verif.Props.C108_delivery_one_partial",
    "Verif.Props.C108_delivery_several_partial"
   ],
   "note": "Order, contents and routing are proved for one and for several segments per row (the latter for sources that leave no gap in a TLP). Delivery is proved for TLPs with at most words-2 rows of payload. As many segments at the outputs as at the input (TLP_SEG_COUNT = SEG_COUNT)."
  },
  {
   "property": "C109",
   "status": "proved",
   "theorems": [
    "Verif.Props.C109_no_loss_one",
    "Verif.Props.C109_no_loss_several",
    "Verif.Props.C109_latency_256",
    "Verif.Props.C109_latency_512"
   ],
   "note": "For every latency that fits the watermark; for the module's own parameters up to 18 cycles with 256 and 512 bits."
  },
  {
   "property": "C110",
   "status": "partial",
   "theorems": [
    "Verif.Props.C110_merge_partial",
    "Verif.Props.C110_stable",
    "Verif.Props.C110_drain_partial"
   ],
   "note": "One segment per word (IN_TLP_SEG_COUNT = OUT_TLP_SEG_COUNT = 1), any number of ports, both arbitrations, any FIFO size, any history. Missing: several segments per word."
  },
  {
   "property": "C111",
   "status": "partial",
   "theorems": [
    "Verif.Props.C111_status_partial",
    "Verif.Props.C111_pause_partial",
    "Verif.Props.C111_credits_partial"
   ],
   "note": "One segment per word. Sequence reports and pause for every history; credit counts for defined headers with at most 512 DWORDs of payload (longer ones are counted wrongly, see C34_length_fails). Missing: several segments per word."
  },
  {
   "property": "C112",
   "status": "partial",
   "theorems": [
    "Verif.Props.C112_gapless_partial",
    "Verif.Props.C112_latency_partial",
    "Verif.Props.C112_ptile_gapless_partial",
    "Verif.Props.C112_merge_partial"
   ],
   "note": "One segment per word. Proved for the multiplexer with any number of ports (C112_gapless_partial) and for the P-Tile adapter: merge, ready latency of three cycles, no gap in the middle of a TLP. Missing: more than one segment per word."
  },
  {
   "property": "C113",
   "status": "partial",
   "theorems": [
    "Verif.Props.C113_check_partial",
    "Verif.Props.C113_reads_partial",
    "Verif.Props.C113_credits_fails"
   ],
   "note": "C113_credits_fails: with time-multiplexed limits the counters add the last increment in every cycle, and six read requests are sent under a limit of five. Proved for all histories: a TLP starts only if the credit outputs two cycles before its selection show the margin the code asks for (C113_check_partial); and, when the limit for non-posted headers is presented in every cycle, never falls and stays within the first limit of what has been sent, no more read requests are sent than the last limit allows (C113_reads_partial). Missing: posted and completion credits. One segment per word."
  },
  {
   "property": "C114",
   "status": "partial",
   "theorems": [
    "Verif.Props.C114_drain_partial"
   ],
   "note": "Proved for one segment per word, any FIFO size and any history. Missing: more than one segment per word."
  },
  {
   "property": "C115",
   "status": "proved",
   "theorems": [
    "Verif.Props.C115_reads",
    "Verif.Props.C115_drain",
    "Verif.Props.C115_stable",
    "Verif.Props.C115_write",
    "Verif.Props.C115_done"
   ],
   "note": "For every pipeline depth and every interleaving of the clock edges. Reads at the same instant as a write of the same word get the old word in the model."
  }
 ]
}