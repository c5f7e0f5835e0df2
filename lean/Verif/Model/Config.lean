import Verif.Model.Cap
import Verif.Model.PcieCap
/-!
Model of the configuration space of an endpoint function in `tb/pcie.py`: the type 0 header
(`Function` and `Endpoint`), the power management, MSI and MSI-X capabilities, and the routing of
capability registers.

The read and write callbacks of a capability are identified by its capability ID: `PM_CAP_ID`,
`MSI_CAP_ID`, `PCIE_CAP_ID`, `MSIX_CAP_ID` (lines 116-124).
-/
namespace Verif.Model

/-- `tb/pcie.py` line 121. -/
def PM_CAP_ID : Nat := 0x01
/-- `tb/pcie.py` line 116. -/
def MSI_CAP_ID : Nat := 0x05
/-- `tb/pcie.py` line 124. -/
def PCIE_CAP_ID : Nat := 0x10
/-- `tb/pcie.py` line 118. -/
def MSIX_CAP_ID : Nat := 0x11

/-- `tb/pcie.py` lines 825-828, the attributes of `PMCapability`. -/
structure PmState where
  pm_capabilities : Nat := 0
  pm_control_status : Nat := 0
  pm_data : Nat := 0

/-- `tb/pcie.py` lines 842-844, `read_pm_cap_register`; `none` is `None`. -/
def readPmCap (s : PmState) (reg : Nat) : Option Nat :=
  if reg = 0 then some (s.pm_capabilities <<< 16)
  else if reg = 1 then some ((s.pm_data <<< 24) ||| s.pm_control_status)
  else none

/-- `tb/pcie.py` lines 1351-1359, the attributes of `MSICapability`. -/
structure MsiState where
  enable : Bool := false
  multiple_message_capable : Nat := 0
  multiple_message_enable : Nat := 0
  addr64_capable : Bool := false
  per_vector_mask_capable : Bool := false
  message_address : Nat := 0
  message_data : Nat := 0
  mask_bits : Nat := 0
  pending_bits : Nat := 0

/-- `tb/pcie.py` lines 1420-1444, `read_msi_cap_register`; `none` is `None`. -/
def readMsiCap (s : MsiState) (reg : Nat) : Option Nat :=
  if reg = 0 then
    some (flag s.enable 16 |||
      ((s.multiple_message_capable &&& 0x7) <<< 17) |||
      ((s.multiple_message_enable &&& 0x7) <<< 20) |||
      flag s.addr64_capable 23 |||
      flag s.per_vector_mask_capable 24)
  else if reg = 1 then some (s.message_address &&& 0xfffffffc)
  else if reg = 2 ∧ s.addr64_capable then some ((s.message_address >>> 32) &&& 0xffffffff)
  else if reg = (if s.addr64_capable then 3 else 2) then some (s.message_data &&& 0xffff)
  else if reg = (if s.addr64_capable then 4 else 3) ∧ s.per_vector_mask_capable then
    some (s.mask_bits &&& 0xffffffff)
  else if reg = (if s.addr64_capable then 5 else 4) ∧ s.per_vector_mask_capable then
    some (s.pending_bits &&& 0xffffffff)
  else none

/-- `tb/pcie.py` lines 1446-1462, `write_msi_cap_register`. -/
def writeMsiCap (s : MsiState) (reg data mask : Nat) : MsiState :=
  if reg = 0 then
    { s with
      enable := if mask &&& 0x4 ≠ 0 then bitSet data 16 else s.enable
      multiple_message_enable := if mask &&& 0x4 ≠ 0 then (data >>> 20) &&& 0x7 else s.multiple_message_enable }
  else if reg = 1 then
    { s with message_address := byteMaskUpdate s.message_address mask data &&& 0xfffffffffffffffc }
  else if reg = 2 ∧ s.addr64_capable then
    { s with
      message_address := byteMaskUpdate s.message_address (mask <<< 4) (data <<< 32) &&& 0xfffffffffffffffc }
  else if reg = (if s.addr64_capable then 3 else 2) then
    { s with message_data := byteMaskUpdate s.message_data (mask &&& 0x3) data &&& 0xffff }
  else if reg = (if s.addr64_capable then 4 else 3) ∧ s.per_vector_mask_capable then
    { s with mask_bits := byteMaskUpdate s.mask_bits mask data &&& 0xffffffff }
  else s

/-- `tb/pcie.py` lines 1481-1487, the attributes of `MSIXCapability`. -/
structure MsixState where
  table_size : Nat := 0
  function_mask : Bool := false
  enable : Bool := false
  table_bir : Nat := 0
  table_offset : Nat := 0
  pba_bir : Nat := 0
  pba_offset : Nat := 0

/-- `tb/pcie.py` lines 1503-1519, `read_msix_cap_register`; `none` is `None`. -/
def readMsixCap (s : MsixState) (reg : Nat) : Option Nat :=
  if reg = 0 then
    some (((s.table_size &&& 0x7ff) <<< 16) ||| flag s.function_mask 30 ||| flag s.enable 31)
  else if reg = 1 then some ((s.table_bir &&& 0x7) ||| (s.table_offset &&& 0xfffffff8))
  else if reg = 2 then some ((s.pba_bir &&& 0x7) ||| (s.pba_offset &&& 0xfffffff8))
  else none

/-- `tb/pcie.py` lines 1521-1525, `write_msix_cap_register`. -/
def writeMsixCap (s : MsixState) (reg data mask : Nat) : MsixState :=
  if reg = 0 then
    { s with
      function_mask := if mask &&& 0x8 ≠ 0 then bitSet data 30 else s.function_mask
      enable := if mask &&& 0x8 ≠ 0 then bitSet data 31 else s.enable }
  else s

/-- The configuration state of an endpoint function: `tb/pcie.py` lines 1553-1585 (`Function`) and
2124-2129 (`Endpoint`), and the states of its capabilities. -/
structure ConfigState where
  vendor_id : Nat := 0
  device_id : Nat := 0
  bus_master_enable : Bool := false
  parity_error_response : Bool := false
  serr_enable : Bool := false
  interrupt_disable : Bool := false
  interrupt_status : Bool := false
  capabilities_list : Bool := true
  master_data_parity_error : Bool := false
  signaled_target_abort : Bool := false
  received_target_abort : Bool := false
  received_master_abort : Bool := false
  signaled_system_error : Bool := false
  detected_parity_error : Bool := false
  rev_id : Nat := 0
  class_code : Nat := 0
  cache_ln : Nat := 0
  lat_timer : Nat := 0
  header_type : Nat := 0
  bist : Nat := 0
  bar : List Nat := [0, 0, 0, 0, 0, 0]
  bar_mask : List Nat := [0, 0, 0, 0, 0, 0]
  cardbus_cis : Nat := 0
  subsystem_vendor_id : Nat := 0
  subsystem_id : Nat := 0
  expansion_rom_addr : Nat := 0
  cap_ptr : Nat := 0
  intr_pin : Nat := 0
  intr_line : Nat := 0
  capabilities : List Cap := []
  ext_capabilities : List Cap := []
  pm : PmState := {}
  pcie : PcieCapState := {}
  msi : MsiState := {}
  msix : MsixState := {}

/-- The read callbacks (`tb/pcie.py` lines 830, 1018, 1361, 1489). -/
def readCapCallback (s : ConfigState) (cap reg : Nat) : Option Nat :=
  if cap = PM_CAP_ID then readPmCap s.pm reg
  else if cap = MSI_CAP_ID then readMsiCap s.msi reg
  else if cap = PCIE_CAP_ID then some (readPcieCap s.pcie reg)
  else if cap = MSIX_CAP_ID then readMsixCap s.msix reg
  else none

/-- The write callbacks (`tb/pcie.py` lines 830, 1018, 1361, 1489; `write_pm_cap_register`, lines
846-848, does nothing). -/
def writeCapCallback (s : ConfigState) (cap reg data mask : Nat) : Option ConfigState :=
  if cap = PM_CAP_ID then some s
  else if cap = MSI_CAP_ID then some { s with msi := writeMsiCap s.msi reg data mask }
  else if cap = PCIE_CAP_ID then (writePcieCap s.pcie reg data mask).map fun p => { s with pcie := p }
  else if cap = MSIX_CAP_ID then some { s with msix := writeMsixCap s.msix reg data mask }
  else none

/-- `tb/pcie.py` lines 1641-1657, the command and status registers. -/
def readCommandStatus (s : ConfigState) : Nat :=
  flag s.bus_master_enable 2 |||
  flag s.parity_error_response 6 |||
  flag s.serr_enable 8 |||
  flag s.interrupt_disable 10 |||
  flag s.interrupt_status 19 |||
  flag s.capabilities_list 20 |||
  flag s.master_data_parity_error 24 |||
  flag s.signaled_target_abort 27 |||
  flag s.received_target_abort 28 |||
  flag s.received_master_abort 29 |||
  flag s.signaled_system_error 30 |||
  flag s.detected_parity_error 31

/-- `tb/pcie.py` lines 1638-1664, `Function.read_config_register`. No extended capability has a
callback in `tb/pcie.py`; their registers other than headers are modelled as `None`. -/
def readFunctionConfig (s : ConfigState) (reg : Nat) : Option Nat :=
  if reg = 0 then some ((s.device_id <<< 16) ||| s.vendor_id)
  else if reg = 1 then some (readCommandStatus s)
  else if reg = 2 then some ((s.class_code <<< 8) ||| s.rev_id)
  else if reg = 3 then
    some ((s.bist <<< 24) ||| (s.header_type <<< 16) ||| (s.lat_timer <<< 8) ||| s.cache_ln)
  else if reg = 13 then some s.cap_ptr
  else if reg = 15 then some ((s.intr_pin <<< 8) ||| s.intr_line)
  else if 16 ≤ reg ∧ reg < 256 then readCapRegister (readCapCallback s) s.capabilities reg
  else if 256 ≤ reg ∧ reg < 4096 then readExtCapRegister (fun _ _ => none) s.ext_capabilities reg
  else some 0

/-- `tb/pcie.py` lines 2172-2185, `Endpoint.read_config_register`. -/
def readConfig (s : ConfigState) (reg : Nat) : Option Nat :=
  if 4 ≤ reg ∧ reg < 10 then some (s.bar.getD (reg - 4) 0)
  else if reg = 10 then some s.cardbus_cis
  else if reg = 11 then some ((s.subsystem_id <<< 16) ||| s.subsystem_vendor_id)
  else if reg = 12 then some s.expansion_rom_addr
  else if reg = 13 then some s.cap_ptr
  else if reg = 14 then some 0
  else if reg = 15 then some ((s.intr_pin <<< 8) ||| s.intr_line)
  else readFunctionConfig s reg

/-- `tb/pcie.py` lines 1667-1679, writing the command and status registers. -/
def writeCommandStatus (s : ConfigState) (data mask : Nat) : ConfigState :=
  { s with
    bus_master_enable := if mask &&& 0x1 ≠ 0 then bitSet data 2 else s.bus_master_enable
    parity_error_response := if mask &&& 0x1 ≠ 0 then bitSet data 6 else s.parity_error_response
    serr_enable := if mask &&& 0x2 ≠ 0 then bitSet data 8 else s.serr_enable
    interrupt_disable := if mask &&& 0x2 ≠ 0 then bitSet data 10 else s.interrupt_disable
    master_data_parity_error := if mask &&& 0x8 ≠ 0 ∧ bitSet data 24 then false else s.master_data_parity_error
    signaled_target_abort := if mask &&& 0x8 ≠ 0 ∧ bitSet data 27 then false else s.signaled_target_abort
    received_target_abort := if mask &&& 0x8 ≠ 0 ∧ bitSet data 28 then false else s.received_target_abort
    received_master_abort := if mask &&& 0x8 ≠ 0 ∧ bitSet data 29 then false else s.received_master_abort
    signaled_system_error := if mask &&& 0x8 ≠ 0 ∧ bitSet data 30 then false else s.signaled_system_error
    detected_parity_error := if mask &&& 0x8 ≠ 0 ∧ bitSet data 31 then false else s.detected_parity_error }

/-- `tb/pcie.py` lines 1666-1688, `Function.write_config_register`. Writes to extended capabilities
(no callbacks in `tb/pcie.py`) are modelled as having no effect. -/
def writeFunctionConfig (s : ConfigState) (reg data mask : Nat) : Option ConfigState :=
  if reg = 1 then some (writeCommandStatus s data mask)
  else if reg = 3 then
    some { s with
      cache_ln := byteMaskUpdate s.cache_ln (mask &&& 1) data
      lat_timer := byteMaskUpdate s.lat_timer ((mask >>> 1) &&& 1) (data >>> 8)
      bist := byteMaskUpdate s.bist ((mask >>> 3) &&& 1) (data >>> 24) }
  else if reg = 15 then
    some { s with
      intr_line := byteMaskUpdate s.intr_line (mask &&& 1) data
      intr_pin := byteMaskUpdate s.intr_pin ((mask >>> 1) &&& 1) (data >>> 8) }
  else if 16 ≤ reg ∧ reg < 256 then
    match writeCapTarget s.capabilities reg with
    | some (cap, r) => writeCapCallback s cap r data mask
    | none => some s
  else some s

/-- `tb/pcie.py` lines 2187-2199, `Endpoint.write_config_register`. -/
def writeConfig (s : ConfigState) (reg data mask : Nat) : Option ConfigState :=
  if 4 ≤ reg ∧ reg < 10 then
    some { s with
      bar := s.bar.set (reg - 4) (byteMaskUpdate (s.bar.getD (reg - 4) 0) mask data
        (some (s.bar_mask.getD (reg - 4) 0))) }
  else if reg = 12 then some { s with expansion_rom_addr := byteMaskUpdate s.expansion_rom_addr mask data }
  else if reg = 15 then
    some { s with
      intr_line := byteMaskUpdate s.intr_line (mask &&& 1) data
      intr_pin := byteMaskUpdate s.intr_pin ((mask >>> 1) &&& 1) (data >>> 8) }
  else writeFunctionConfig s reg data mask

end Verif.Model
