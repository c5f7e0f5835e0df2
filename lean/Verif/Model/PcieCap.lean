import Verif.Model.Util
/-!
Model of the PCI Express capability registers (`PCIECapability` in `tb/pcie.py`, lines 851-1344).
One definition per register. `initiate_function_level_reset` and `initiate_retrain_link` do nothing
in the code (lines 1339-1343) and are left out.
-/
namespace Verif.Model

/-- `1 << k` if the flag is set: `if flag: val |= 1 << k`. -/
def flag (b : Bool) (k : Nat) : Nat := if b then 1 <<< k else 0

/-- `data & 1 << k != 0`. -/
def bitSet (data k : Nat) : Bool := data &&& (1 <<< k) != 0

/-- `tb/pcie.py` lines 855-1025, the attributes set by `PCIECapability.__init__`. -/
structure PcieCapState where
  pcie_capability_version : Nat := 2
  pcie_device_type : Nat := 0
  pcie_slot_implemented : Bool := false
  interrupt_message_number : Nat := 0
  max_payload_size_supported : Nat := 0x5
  phantom_functions_supported : Nat := 0
  extended_tag_supported : Bool := true
  endpoint_l0s_acceptable_latency : Nat := 0x7
  endpoint_l1_acceptable_latency : Nat := 0x7
  role_based_error_reporting : Bool := true
  captured_slot_power_limit_value : Nat := 0
  captured_slot_power_limit_scale : Nat := 0
  function_level_reset_capability : Bool := false
  correctable_error_reporting_enable : Bool := false
  non_fatal_error_reporting_enable : Bool := false
  fatal_error_reporting_enable : Bool := false
  unsupported_request_reporting_enable : Bool := false
  enable_relaxed_ordering : Bool := true
  max_payload_size : Nat := 0x0
  extended_tag_field_enable : Bool := false
  phantom_functions_enable : Bool := false
  aux_power_pm_enable : Bool := false
  enable_no_snoop : Bool := true
  max_read_request_size : Nat := 0x2
  correctable_error_detected : Bool := false
  nonfatal_error_detected : Bool := false
  fatal_error_detected : Bool := false
  unsupported_request_detected : Bool := false
  aux_power_detected : Bool := false
  transactions_pending : Bool := false
  max_link_speed : Nat := 0
  max_link_width : Nat := 0
  aspm_support : Nat := 0
  l0s_exit_latency : Nat := 0
  l1_exit_latency : Nat := 0
  clock_power_management : Bool := false
  surprise_down_error_reporting_capability : Bool := false
  data_link_layer_link_active_reporting_capable : Bool := false
  link_bandwidth_notification_capability : Bool := false
  aspm_optionality_compliance : Bool := false
  port_number : Nat := 0
  aspm_control : Nat := 0
  read_completion_boundary : Bool := false
  link_disable : Bool := false
  common_clock_configuration : Bool := false
  extended_synch : Bool := false
  enable_clock_power_management : Bool := false
  hardware_autonomous_width_disable : Bool := false
  link_bandwidth_management_interrupt_enable : Bool := false
  link_autonomous_bandwidth_interrupt_enable : Bool := false
  current_link_speed : Nat := 0
  negotiated_link_width : Nat := 0
  link_training : Bool := false
  slot_clock_configuration : Bool := false
  data_link_layer_link_active : Bool := false
  link_bandwidth_management_status : Bool := false
  link_autonomous_bandwidth_status : Bool := false
  attention_button_present : Bool := false
  power_controller_present : Bool := false
  mrl_sensor_present : Bool := false
  attention_indicator_present : Bool := false
  power_indicator_present : Bool := false
  hot_plug_surprise : Bool := false
  hot_plug_capable : Bool := false
  slot_power_limit_value : Nat := 0
  slot_power_limit_scale : Nat := 0
  electromechanical_interlock_present : Bool := false
  no_command_completed_support : Bool := false
  physical_slot_number : Nat := 0
  attention_button_pressed_enable : Bool := false
  power_fault_detected_enable : Bool := false
  mrl_sensor_changed_enable : Bool := false
  presence_detect_changed_enable : Bool := false
  command_completed_interrupt_enable : Bool := false
  hot_plug_interrupt_enable : Bool := false
  attention_indicator_control : Nat := 0
  power_indicator_control : Nat := 0
  power_controller_control : Bool := false
  electromechanical_interlock_control : Bool := false
  data_link_layer_state_changed_enable : Bool := false
  attention_button_pressed : Bool := false
  power_fault_detected : Bool := false
  mrl_sensor_changed : Bool := false
  presence_detect_changed : Bool := false
  command_completed : Bool := false
  mrl_sensor_state : Bool := false
  presence_detect_state : Bool := false
  electromechanical_interlock_status : Bool := false
  data_link_layer_state_changed : Bool := false
  system_error_on_correctable_error_enable : Bool := false
  system_error_on_non_fatal_error_enable : Bool := false
  system_error_on_fatal_error_enable : Bool := false
  pme_interrupt_enable : Bool := false
  crs_software_visibility_enable : Bool := false
  crs_software_visibility : Bool := false
  pme_requester_id : Nat := 0
  pme_status : Bool := false
  pme_pending : Bool := false
  completion_timeout_ranges_supported : Nat := 0
  completion_timeout_disable_supported : Bool := false
  ari_forwarding_supported : Bool := false
  atomic_op_forwarding_supported : Bool := false
  atomic_op_32_bit_completer_supported : Bool := false
  atomic_op_64_bit_completer_supported : Bool := false
  cas_128_bit_completer_supported : Bool := false
  no_ro_enabled_pr_pr_passing : Bool := false
  ltr_mechanism_supported : Bool := false
  tph_completer_supported : Nat := 0
  obff_supported : Nat := 0
  extended_fmt_field_supported : Bool := false
  end_end_tlp_prefix_supported : Bool := false
  max_end_end_tlp_prefix : Nat := 0
  completion_timeout_value : Nat := 0
  completion_timeout_disable : Bool := false
  ari_forwarding_enable : Bool := false
  atomic_op_requester_enable : Bool := false
  atomic_op_egress_blocking : Bool := false
  ido_request_enable : Bool := false
  ido_completion_enable : Bool := false
  ltr_mechanism_enable : Bool := false
  obff_enable : Nat := 0
  end_end_tlp_prefix_blocking : Bool := false
  supported_link_speeds : Nat := 0
  crosslink_supported : Bool := false
  target_link_speed : Nat := 0
  enter_compliance : Bool := false
  hardware_autonomous_speed_disable : Bool := false
  selectable_de_emphasis : Bool := false
  transmit_margin : Nat := 0
  enter_modified_compliance : Bool := false
  compliance_sos : Bool := false
  compliance_preset_de_emphasis : Nat := 0
  current_de_emphasis_level : Bool := false
  equalization_complete : Bool := false
  equalization_phase_1_successful : Bool := false
  equalization_phase_2_successful : Bool := false
  equalization_phase_3_successful : Bool := false
  link_equalization_request : Bool := false

/-- `tb/pcie.py` lines 1057-1063, reading register 0. -/
def readPcieCap0 (s : PcieCapState) : Nat :=
  (2 <<< 16) |||
  ((s.pcie_device_type &&& 0xf) <<< 20) |||
  flag s.pcie_slot_implemented 24 |||
  ((s.interrupt_message_number &&& 0x1f) <<< 25)

/-- `tb/pcie.py` lines 1064-1075, reading register 1. -/
def readPcieCap1 (s : PcieCapState) : Nat :=
  (s.max_payload_size_supported &&& 0x7) |||
  ((s.phantom_functions_supported &&& 0x3) <<< 3) |||
  flag s.extended_tag_supported 5 |||
  ((s.endpoint_l0s_acceptable_latency &&& 0x7) <<< 6) |||
  ((s.endpoint_l1_acceptable_latency &&& 7) <<< 9) |||
  flag s.role_based_error_reporting 15 |||
  ((s.captured_slot_power_limit_value &&& 0xff) <<< 18) |||
  ((s.captured_slot_power_limit_scale &&& 0x3) <<< 26) |||
  flag s.function_level_reset_capability 28

/-- `tb/pcie.py` lines 1076-1097, reading register 2. -/
def readPcieCap2 (s : PcieCapState) : Nat :=
  flag s.correctable_error_reporting_enable 0 |||
  flag s.non_fatal_error_reporting_enable 1 |||
  flag s.fatal_error_reporting_enable 2 |||
  flag s.unsupported_request_reporting_enable 3 |||
  flag s.enable_relaxed_ordering 4 |||
  ((s.max_payload_size &&& 0x7) <<< 5) |||
  flag s.extended_tag_field_enable 8 |||
  flag s.phantom_functions_enable 9 |||
  flag s.aux_power_pm_enable 10 |||
  flag s.enable_no_snoop 11 |||
  ((s.max_read_request_size &&& 0x7) <<< 12) |||
  flag s.correctable_error_detected 16 |||
  flag s.nonfatal_error_detected 17 |||
  flag s.fatal_error_detected 18 |||
  flag s.unsupported_request_detected 19 |||
  flag s.aux_power_detected 20 |||
  flag s.transactions_pending 21

/-- `tb/pcie.py` lines 1098-1111, reading register 3. -/
def readPcieCap3 (s : PcieCapState) : Nat :=
  (s.max_link_speed &&& 0xf) |||
  ((s.max_link_width &&& 0x3f) >>> 4) |||
  ((s.aspm_support &&& 0x3) >>> 10) |||
  ((s.l0s_exit_latency &&& 0x7) >>> 12) |||
  ((s.l1_exit_latency &&& 0x7) >>> 15) |||
  flag s.clock_power_management 18 |||
  flag s.surprise_down_error_reporting_capability 19 |||
  flag s.data_link_layer_link_active_reporting_capable 20 |||
  flag s.link_bandwidth_notification_capability 21 |||
  flag s.aspm_optionality_compliance 22 |||
  ((s.port_number &&& 0xff) <<< 24)

/-- `tb/pcie.py` lines 1112-1131, reading register 4. -/
def readPcieCap4 (s : PcieCapState) : Nat :=
  (s.aspm_control &&& 0x3) |||
  flag s.read_completion_boundary 3 |||
  flag s.link_disable 4 |||
  flag s.common_clock_configuration 6 |||
  flag s.extended_synch 7 |||
  flag s.enable_clock_power_management 8 |||
  flag s.hardware_autonomous_width_disable 9 |||
  flag s.link_bandwidth_management_interrupt_enable 10 |||
  flag s.link_autonomous_bandwidth_interrupt_enable 11 |||
  ((s.current_link_speed &&& 0xf) <<< 16) |||
  ((s.negotiated_link_width &&& 0x3f) <<< 20) |||
  flag s.link_training 27 |||
  flag s.slot_clock_configuration 28 |||
  flag s.data_link_layer_link_active 29 |||
  flag s.link_bandwidth_management_status 30 |||
  flag s.link_autonomous_bandwidth_status 31

/-- `tb/pcie.py` lines 1132-1147, reading register 5. -/
def readPcieCap5 (s : PcieCapState) : Nat :=
  flag s.attention_button_present 0 |||
  flag s.power_controller_present 1 |||
  flag s.mrl_sensor_present 2 |||
  flag s.attention_indicator_present 3 |||
  flag s.power_indicator_present 4 |||
  flag s.hot_plug_surprise 5 |||
  flag s.hot_plug_capable 6 |||
  ((s.slot_power_limit_value &&& 0xff) <<< 7) |||
  ((s.slot_power_limit_scale &&& 0x3) <<< 15) |||
  flag s.electromechanical_interlock_present 17 |||
  flag s.no_command_completed_support 18 |||
  ((s.physical_slot_number &&& 0x1fff) <<< 19)

/-- `tb/pcie.py` lines 1148-1172, reading register 6. -/
def readPcieCap6 (s : PcieCapState) : Nat :=
  flag s.attention_button_pressed_enable 0 |||
  flag s.power_fault_detected_enable 1 |||
  flag s.mrl_sensor_changed_enable 2 |||
  flag s.presence_detect_changed_enable 3 |||
  flag s.command_completed_interrupt_enable 4 |||
  flag s.hot_plug_interrupt_enable 5 |||
  ((s.attention_indicator_control &&& 0x3) <<< 6) |||
  ((s.power_indicator_control &&& 0x3) <<< 8) |||
  flag s.power_controller_control 10 |||
  flag s.electromechanical_interlock_control 11 |||
  flag s.data_link_layer_state_changed_enable 12 |||
  flag s.attention_button_pressed 16 |||
  flag s.power_fault_detected 17 |||
  flag s.mrl_sensor_changed 18 |||
  flag s.presence_detect_changed 19 |||
  flag s.command_completed 20 |||
  flag s.mrl_sensor_state 21 |||
  flag s.presence_detect_state 22 |||
  flag s.electromechanical_interlock_status 23 |||
  flag s.data_link_layer_state_changed 24

/-- `tb/pcie.py` lines 1173-1183, reading register 7. -/
def readPcieCap7 (s : PcieCapState) : Nat :=
  flag s.system_error_on_correctable_error_enable 0 |||
  flag s.system_error_on_non_fatal_error_enable 1 |||
  flag s.system_error_on_fatal_error_enable 2 |||
  flag s.pme_interrupt_enable 3 |||
  flag s.crs_software_visibility_enable 4 |||
  flag s.crs_software_visibility 16

/-- `tb/pcie.py` lines 1184-1189, reading register 8. -/
def readPcieCap8 (s : PcieCapState) : Nat :=
  (s.pme_requester_id &&& 0xffff) |||
  flag s.pme_status 16 |||
  flag s.pme_pending 17

/-- `tb/pcie.py` lines 1190-1206, reading register 9. -/
def readPcieCap9 (s : PcieCapState) : Nat :=
  (s.completion_timeout_ranges_supported &&& 0xf) |||
  flag s.completion_timeout_disable_supported 4 |||
  flag s.ari_forwarding_supported 5 |||
  flag s.atomic_op_forwarding_supported 6 |||
  flag s.atomic_op_32_bit_completer_supported 7 |||
  flag s.atomic_op_64_bit_completer_supported 8 |||
  flag s.cas_128_bit_completer_supported 9 |||
  flag s.no_ro_enabled_pr_pr_passing 10 |||
  flag s.ltr_mechanism_supported 11 |||
  ((s.tph_completer_supported &&& 0x3) <<< 12) |||
  ((s.obff_supported &&& 0x3) <<< 18) |||
  flag s.extended_fmt_field_supported 20 |||
  flag s.end_end_tlp_prefix_supported 21 |||
  ((s.max_end_end_tlp_prefix &&& 0x3) <<< 22)

/-- `tb/pcie.py` lines 1207-1220, reading register 10. -/
def readPcieCap10 (s : PcieCapState) : Nat :=
  (s.completion_timeout_value &&& 0xf) |||
  flag s.completion_timeout_disable 4 |||
  flag s.ari_forwarding_enable 5 |||
  flag s.atomic_op_requester_enable 6 |||
  flag s.atomic_op_egress_blocking 7 |||
  flag s.ido_request_enable 8 |||
  flag s.ido_completion_enable 9 |||
  flag s.ltr_mechanism_enable 10 |||
  ((s.obff_enable &&& 0x3) <<< 13) |||
  flag s.end_end_tlp_prefix_blocking 15

/-- `tb/pcie.py` lines 1221-1225, reading register 11. -/
def readPcieCap11 (s : PcieCapState) : Nat :=
  ((s.supported_link_speeds &&& 0x7f) <<< 1) |||
  flag s.crosslink_supported 8

/-- `tb/pcie.py` lines 1226-1243, reading register 12. -/
def readPcieCap12 (s : PcieCapState) : Nat :=
  (s.target_link_speed &&& 0xf) |||
  flag s.enter_compliance 4 |||
  flag s.hardware_autonomous_speed_disable 5 |||
  flag s.selectable_de_emphasis 6 |||
  ((s.transmit_margin &&& 0x7) <<< 7) |||
  flag s.enter_modified_compliance 10 |||
  flag s.compliance_sos 11 |||
  ((s.compliance_preset_de_emphasis &&& 0xf) <<< 12) |||
  flag s.current_de_emphasis_level 16 |||
  flag s.equalization_complete 17 |||
  flag s.equalization_phase_1_successful 18 |||
  flag s.equalization_phase_2_successful 19 |||
  flag s.equalization_phase_3_successful 20 |||
  flag s.link_equalization_request 21

/-- `tb/pcie.py` lines 1056-1245, `read_pcie_cap_register(reg)`. -/
def readPcieCap (s : PcieCapState) (reg : Nat) : Nat :=
  match reg with
  | 0 => readPcieCap0 s
  | 1 => readPcieCap1 s
  | 2 => readPcieCap2 s
  | 3 => readPcieCap3 s
  | 4 => readPcieCap4 s
  | 5 => readPcieCap5 s
  | 6 => readPcieCap6 s
  | 7 => readPcieCap7 s
  | 8 => readPcieCap8 s
  | 9 => readPcieCap9 s
  | 10 => readPcieCap10 s
  | 11 => readPcieCap11 s
  | 12 => readPcieCap12 s
  | _ => 0

/-- `tb/pcie.py` lines 1248-1268, writing register 2. -/
def writePcieCap2 (s : PcieCapState) (data mask : Nat) : PcieCapState :=
  { s with
    correctable_error_reporting_enable := if mask &&& 0x1 ≠ 0 then bitSet data 0 else s.correctable_error_reporting_enable
    non_fatal_error_reporting_enable := if mask &&& 0x1 ≠ 0 then bitSet data 1 else s.non_fatal_error_reporting_enable
    fatal_error_reporting_enable := if mask &&& 0x1 ≠ 0 then bitSet data 2 else s.fatal_error_reporting_enable
    unsupported_request_reporting_enable := if mask &&& 0x1 ≠ 0 then bitSet data 3 else s.unsupported_request_reporting_enable
    enable_relaxed_ordering := if mask &&& 0x1 ≠ 0 then bitSet data 4 else s.enable_relaxed_ordering
    max_payload_size := if mask &&& 0x1 ≠ 0 then (data >>> 5) &&& 0x7 else s.max_payload_size
    extended_tag_field_enable := if mask &&& 0x2 ≠ 0 then bitSet data 8 else s.extended_tag_field_enable
    phantom_functions_enable := if mask &&& 0x2 ≠ 0 then bitSet data 9 else s.phantom_functions_enable
    aux_power_pm_enable := if mask &&& 0x2 ≠ 0 then bitSet data 10 else s.aux_power_pm_enable
    enable_no_snoop := if mask &&& 0x2 ≠ 0 then bitSet data 11 else s.enable_no_snoop
    max_read_request_size := if mask &&& 0x2 ≠ 0 then (data >>> 12) &&& 0x7 else s.max_read_request_size
    correctable_error_detected := if mask &&& 0x4 ≠ 0 ∧ bitSet data 16 then false else s.correctable_error_detected
    nonfatal_error_detected := if mask &&& 0x4 ≠ 0 ∧ bitSet data 17 then false else s.nonfatal_error_detected
    fatal_error_detected := if mask &&& 0x4 ≠ 0 ∧ bitSet data 18 then false else s.fatal_error_detected
    unsupported_request_detected := if mask &&& 0x4 ≠ 0 ∧ bitSet data 19 then false else s.unsupported_request_detected
    aux_power_detected := if mask &&& 0x4 ≠ 0 ∧ bitSet data 20 then false else s.aux_power_detected
    transactions_pending := if mask &&& 0x4 ≠ 0 ∧ bitSet data 21 then false else s.transactions_pending }

/-- `tb/pcie.py` lines 1269-1282, writing register 4. -/
def writePcieCap4 (s : PcieCapState) (data mask : Nat) : PcieCapState :=
  { s with
    aspm_control := if mask &&& 0x1 ≠ 0 then data &&& 3 else s.aspm_control
    read_completion_boundary := if mask &&& 0x1 ≠ 0 then bitSet data 4 else s.read_completion_boundary
    common_clock_configuration := if mask &&& 0x1 ≠ 0 then bitSet data 6 else s.common_clock_configuration
    extended_synch := if mask &&& 0x1 ≠ 0 then bitSet data 7 else s.extended_synch
    enable_clock_power_management := if mask &&& 0x2 ≠ 0 then bitSet data 8 else s.enable_clock_power_management
    hardware_autonomous_width_disable := if mask &&& 0x2 ≠ 0 then bitSet data 9 else s.hardware_autonomous_width_disable
    link_bandwidth_management_interrupt_enable := if mask &&& 0x2 ≠ 0 then bitSet data 10 else s.link_bandwidth_management_interrupt_enable
    link_autonomous_bandwidth_interrupt_enable := if mask &&& 0x2 ≠ 0 then bitSet data 11 else s.link_autonomous_bandwidth_interrupt_enable
    link_bandwidth_management_status := if mask &&& 0x8 ≠ 0 ∧ bitSet data 30 then false else s.link_bandwidth_management_status
    link_autonomous_bandwidth_status := if mask &&& 0x8 ≠ 0 ∧ bitSet data 31 then false else s.link_autonomous_bandwidth_status }

/-- `tb/pcie.py` lines 1283-1302, writing register 6. -/
def writePcieCap6 (s : PcieCapState) (data mask : Nat) : PcieCapState :=
  { s with
    attention_button_pressed_enable := if mask &&& 0x1 ≠ 0 then bitSet data 0 else s.attention_button_pressed_enable
    power_fault_detected_enable := if mask &&& 0x1 ≠ 0 then bitSet data 1 else s.power_fault_detected_enable
    mrl_sensor_changed_enable := if mask &&& 0x1 ≠ 0 then bitSet data 2 else s.mrl_sensor_changed_enable
    presence_detect_changed_enable := if mask &&& 0x1 ≠ 0 then bitSet data 3 else s.presence_detect_changed_enable
    command_completed_interrupt_enable := if mask &&& 0x1 ≠ 0 then bitSet data 4 else s.command_completed_interrupt_enable
    hot_plug_interrupt_enable := if mask &&& 0x1 ≠ 0 then bitSet data 5 else s.hot_plug_interrupt_enable
    attention_indicator_control := if mask &&& 0x1 ≠ 0 then (data >>> 6) &&& 0x3 else s.attention_indicator_control
    power_indicator_control := if mask &&& 0x2 ≠ 0 then (data >>> 8) &&& 0x3 else s.power_indicator_control
    power_controller_control := if mask &&& 0x2 ≠ 0 then bitSet data 10 else s.power_controller_control
    electromechanical_interlock_control := if mask &&& 0x2 ≠ 0 then bitSet data 11 else s.electromechanical_interlock_control
    data_link_layer_state_changed_enable := if mask &&& 0x2 ≠ 0 then bitSet data 12 else s.data_link_layer_state_changed_enable
    attention_button_pressed := if mask &&& 0x4 ≠ 0 ∧ bitSet data 16 then false else s.attention_button_pressed
    power_fault_detected := if mask &&& 0x4 ≠ 0 ∧ bitSet data 17 then false else s.power_fault_detected
    mrl_sensor_changed := if mask &&& 0x4 ≠ 0 ∧ bitSet data 18 then false else s.mrl_sensor_changed
    presence_detect_changed := if mask &&& 0x4 ≠ 0 ∧ bitSet data 19 then false else s.presence_detect_changed
    command_completed := if mask &&& 0x4 ≠ 0 ∧ bitSet data 20 then false else s.command_completed
    data_link_layer_state_changed := if mask &&& 0x8 ≠ 0 ∧ bitSet data 24 then false else s.data_link_layer_state_changed }

/-- `tb/pcie.py` lines 1303-1309, writing register 7. -/
def writePcieCap7 (s : PcieCapState) (data mask : Nat) : PcieCapState :=
  { s with
    system_error_on_correctable_error_enable := if mask &&& 0x1 ≠ 0 then bitSet data 0 else s.system_error_on_correctable_error_enable
    system_error_on_non_fatal_error_enable := if mask &&& 0x1 ≠ 0 then bitSet data 1 else s.system_error_on_non_fatal_error_enable
    system_error_on_fatal_error_enable := if mask &&& 0x1 ≠ 0 then bitSet data 2 else s.system_error_on_fatal_error_enable
    pme_interrupt_enable := if mask &&& 0x1 ≠ 0 then bitSet data 3 else s.pme_interrupt_enable
    crs_software_visibility_enable := if mask &&& 0x1 ≠ 0 then bitSet data 4 else s.crs_software_visibility_enable }

/-- `tb/pcie.py` lines 1310-1312, writing register 8. -/
def writePcieCap8 (s : PcieCapState) (data mask : Nat) : PcieCapState :=
  { s with
    pme_status := if mask &&& 0x4 ≠ 0 ∧ bitSet data 16 then false else s.pme_status }

/-- `tb/pcie.py` lines 1313-1324, writing register 10. -/
def writePcieCap10 (s : PcieCapState) (data mask : Nat) : PcieCapState :=
  { s with
    completion_timeout_value := if mask &&& 0x1 ≠ 0 then data &&& 0xf else s.completion_timeout_value
    completion_timeout_disable := if mask &&& 0x1 ≠ 0 then bitSet data 4 else s.completion_timeout_disable
    ari_forwarding_enable := if mask &&& 0x1 ≠ 0 then bitSet data 5 else s.ari_forwarding_enable
    atomic_op_requester_enable := if mask &&& 0x1 ≠ 0 then bitSet data 6 else s.atomic_op_requester_enable
    atomic_op_egress_blocking := if mask &&& 0x1 ≠ 0 then bitSet data 7 else s.atomic_op_egress_blocking
    ido_request_enable := if mask &&& 0x2 ≠ 0 then bitSet data 8 else s.ido_request_enable
    ido_completion_enable := if mask &&& 0x2 ≠ 0 then bitSet data 9 else s.ido_completion_enable
    ltr_mechanism_enable := if mask &&& 0x2 ≠ 0 then bitSet data 10 else s.ltr_mechanism_enable
    obff_enable := if mask &&& 0x2 ≠ 0 then (data >>> 13) &&& 0x3 else s.obff_enable
    end_end_tlp_prefix_blocking := if mask &&& 0x2 ≠ 0 then bitSet data 15 else s.end_end_tlp_prefix_blocking }

/-- `tb/pcie.py` lines 1326-1337, writing register 12. The `UnboundLocalError` of line 1337 is in `writePcieCap`. -/
def writePcieCap12 (s : PcieCapState) (data mask : Nat) : PcieCapState :=
  { s with
    target_link_speed := if mask &&& 0x1 ≠ 0 then data &&& 0xf else s.target_link_speed
    enter_compliance := if mask &&& 0x1 ≠ 0 then bitSet data 4 else s.enter_compliance
    hardware_autonomous_speed_disable := if mask &&& 0x1 ≠ 0 then bitSet data 5 else s.hardware_autonomous_speed_disable
    transmit_margin := if mask &&& 0x2 ≠ 0 then ((if mask &&& 0x1 ≠ 0 then (s.transmit_margin &&& 0x6) ||| ((data >>> 7) &&& 0x1) else s.transmit_margin) &&& 0x1) ||| ((data >>> 7) &&& 0x6) else if mask &&& 0x1 ≠ 0 then (s.transmit_margin &&& 0x6) ||| ((data >>> 7) &&& 0x1) else s.transmit_margin
    enter_modified_compliance := if mask &&& 0x2 ≠ 0 then bitSet data 10 else s.enter_modified_compliance
    compliance_sos := if mask &&& 0x2 ≠ 0 then bitSet data 11 else s.compliance_sos
    compliance_preset_de_emphasis := if mask &&& 0x2 ≠ 0 then (data >>> 12) &&& 0xff else s.compliance_preset_de_emphasis }

/-- `tb/pcie.py` lines 1247-1337, `write_pcie_cap_register(reg, data, mask)`. Line 1337 reads the
local variable `val` before assignment: writing register 12 raises when `link_equalization_request` is set. -/
def writePcieCap (s : PcieCapState) (reg data mask : Nat) : Option PcieCapState :=
  match reg with
  | 2 => some (writePcieCap2 s data mask)
  | 4 => some (writePcieCap4 s data mask)
  | 6 => some (writePcieCap6 s data mask)
  | 7 => some (writePcieCap7 s data mask)
  | 8 => some (writePcieCap8 s data mask)
  | 10 => some (writePcieCap10 s data mask)
  | 12 => if s.link_equalization_request then none else some (writePcieCap12 s data mask)
  | _ => some s

end Verif.Model
