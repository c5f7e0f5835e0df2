import Verif.Model.Bar
/-!
Model of `Bridge` in `tb/pcie.py` (lines 2486-2778): type 1 configuration registers and TLP
routing. A bridge is a `Function`, whose attributes are in `fn`.
-/
namespace Verif.Model

/-- `tb/pcie.py` lines 2488-2518, the attributes of `Bridge`. `id` is
`(bus_num, device_num, function_num)` of `Function` (line 1588). -/
structure Bridge where
  id : PcieId := ⟨0, 0, 0⟩
  fn : ConfigState := { header_type := 1, bar := [0, 0], bar_mask := [0, 0] }
  root : Bool := false
  pri_bus_num : Nat := 0
  sec_bus_num : Nat := 0
  sub_bus_num : Nat := 0
  sec_lat_timer : Nat := 0
  io_base : Nat := 0
  io_limit : Nat := 0xfff
  sec_status : Nat := 0
  mem_base : Nat := 0
  mem_limit : Nat := 0xfffff
  prefetchable_mem_base : Nat := 0
  prefetchable_mem_limit : Nat := 0xfffff
  bridge_control : Nat := 0

/-- `tb/pcie.py` lines 2559-2572, `Bridge.read_config_register`. -/
def Bridge.readConfig (b : Bridge) (reg : Nat) : Option Nat :=
  if reg = 4 then some (b.fn.bar.getD 0 0)
  else if reg = 5 then some (b.fn.bar.getD 1 0)
  else if reg = 6 then
    some ((b.sec_lat_timer <<< 24) ||| (b.sub_bus_num <<< 16) ||| (b.sec_bus_num <<< 8) ||| b.pri_bus_num)
  else if reg = 7 then
    some ((b.sec_status <<< 16) ||| (b.io_limit &&& 0xf000) ||| ((b.io_base &&& 0xf000) >>> 8))
  else if reg = 8 then
    some ((b.mem_limit &&& 0xfff00000) ||| ((b.mem_base &&& 0xfff00000) >>> 16))
  else if reg = 9 then
    some ((b.prefetchable_mem_limit &&& 0xfff00000) ||| ((b.prefetchable_mem_base &&& 0xfff00000) >>> 16))
  else if reg = 10 then some (b.prefetchable_mem_base >>> 32)
  else if reg = 11 then some (b.prefetchable_mem_limit >>> 32)
  else if reg = 12 then
    some ((b.io_limit &&& 0xffff0000) ||| ((b.io_base &&& 0xffff0000) >>> 16))
  else if reg = 13 then some b.fn.cap_ptr
  else if reg = 14 then some b.fn.expansion_rom_addr
  else if reg = 15 then
    some ((b.bridge_control <<< 16) ||| (b.fn.intr_pin <<< 8) ||| b.fn.intr_line)
  else readFunctionConfig b.fn reg

/-- `tb/pcie.py` lines 2574-2609, `Bridge.write_config_register`. Register 4 also falls through to
`Function.write_config_register`, which does nothing for it. Writing register 15 reads the
attribute `min_gnt` (line 2606), which no class defines: `AttributeError`, after the interrupt
line and pin have been updated; the model keeps only the exception. -/
def Bridge.writeConfig (b : Bridge) (reg data mask : Nat) : Option Bridge :=
  if reg = 4 ∨ reg = 5 then
    some { b with fn := { b.fn with
      bar := b.fn.bar.set (reg - 4) (byteMaskUpdate (b.fn.bar.getD (reg - 4) 0) mask data
        (some (b.fn.bar_mask.getD (reg - 4) 0))) } }
  else if reg = 6 then
    some { b with
      pri_bus_num := byteMaskUpdate b.pri_bus_num (mask &&& 1) data
      sec_bus_num := byteMaskUpdate b.sec_bus_num ((mask >>> 1) &&& 1) (data >>> 8)
      sub_bus_num := byteMaskUpdate b.sub_bus_num ((mask >>> 2) &&& 1) (data >>> 16)
      sec_lat_timer := byteMaskUpdate b.sec_lat_timer ((mask >>> 3) &&& 1) (data >>> 24) }
  else if reg = 7 then
    some { b with
      io_base := byteMaskUpdate b.io_base ((mask &&& 1) <<< 1) (data <<< 8) (some 0xf000)
      io_limit := byteMaskUpdate b.io_limit (mask &&& 2) data (some 0xf000) ||| 0xfff
      sec_status := byteMaskUpdate b.sec_status ((mask >>> 2) &&& 1) 0 (some ((data >>> 16) &&& 0xf900)) }
  else if reg = 8 then
    some { b with
      mem_base := byteMaskUpdate b.mem_base ((mask &&& 3) <<< 2) (data <<< 16) (some 0xfff00000)
      mem_limit := byteMaskUpdate b.mem_limit (mask &&& 0xc) data (some 0xfff00000) ||| 0xfffff }
  else if reg = 9 then
    some { b with
      prefetchable_mem_base :=
        byteMaskUpdate b.prefetchable_mem_base ((mask &&& 3) <<< 2) (data <<< 16) (some 0xfff00000)
      prefetchable_mem_limit :=
        byteMaskUpdate b.prefetchable_mem_limit (mask &&& 0xc) data (some 0xfff00000) ||| 0xfffff }
  else if reg = 10 then
    some { b with prefetchable_mem_base := byteMaskUpdate b.prefetchable_mem_base (mask <<< 4) (data <<< 32) }
  else if reg = 11 then
    some { b with prefetchable_mem_limit := byteMaskUpdate b.prefetchable_mem_limit (mask <<< 4) (data <<< 32) }
  else if reg = 12 then
    some { b with
      io_base := byteMaskUpdate b.io_base ((mask &&& 3) <<< 2) (data <<< 16)
      io_limit := byteMaskUpdate b.io_limit (mask &&& 0xc) data }
  else if reg = 14 then
    some { b with fn := { b.fn with expansion_rom_addr := byteMaskUpdate b.fn.expansion_rom_addr mask data } }
  else if reg = 15 then none
  else (writeFunctionConfig b.fn reg data mask).map fun f => { b with fn := f }

/-- What a bridge does with a TLP: hand it to its own `handle_tlp`, forward it through
`route_downstream_tlp(tlp, from_downstream)` or `upstream_send`, or drop it (`pass`). -/
inductive RouteAction where
  | handle
  | down (t : Tlp) (from_downstream : Bool)
  | up
  | drop
deriving DecidableEq

/-! The TLP classes tested in `upstream_recv` (lines 2621-2692), `downstream_recv` (lines 2711-2771)
and `route_downstream_tlp` (lines 2802-2860). -/

/-- Line 2621. -/
def Tlp.isCfg0 (t : Tlp) : Bool := t.fmt_type == TLP_CFG_READ_0 || t.fmt_type == TLP_CFG_WRITE_0
/-- Line 2623. -/
def Tlp.isCfg1 (t : Tlp) : Bool := t.fmt_type == TLP_CFG_READ_1 || t.fmt_type == TLP_CFG_WRITE_1
/-- Lines 2636-2637. -/
def Tlp.isCpl (t : Tlp) : Bool :=
  t.fmt_type == TLP_CPL || t.fmt_type == TLP_CPL_DATA ||
    t.fmt_type == TLP_CPL_LOCKED || t.fmt_type == TLP_CPL_LOCKED_DATA
/-- Line 2647. -/
def Tlp.isMsgId (t : Tlp) : Bool := t.fmt_type == TLP_MSG_ID || t.fmt_type == TLP_MSG_DATA_ID
/-- Line 2657. -/
def Tlp.isIo (t : Tlp) : Bool := t.fmt_type == TLP_IO_READ || t.fmt_type == TLP_IO_WRITE
/-- Lines 2667-2668. -/
def Tlp.isMem (t : Tlp) : Bool :=
  t.fmt_type == TLP_MEM_READ || t.fmt_type == TLP_MEM_READ_64 ||
    t.fmt_type == TLP_MEM_WRITE || t.fmt_type == TLP_MEM_WRITE_64
/-- Line 2678. -/
def Tlp.isMsgToRc (t : Tlp) : Bool := t.fmt_type == TLP_MSG_TO_RC || t.fmt_type == TLP_MSG_DATA_TO_RC
/-- Line 2682. -/
def Tlp.isMsgBcast (t : Tlp) : Bool := t.fmt_type == TLP_MSG_BCAST || t.fmt_type == TLP_MSG_DATA_BCAST
/-- Line 2685. -/
def Tlp.isMsgLocal (t : Tlp) : Bool := t.fmt_type == TLP_MSG_LOCAL || t.fmt_type == TLP_MSG_DATA_LOCAL
/-- Line 2689. -/
def Tlp.isMsgGather (t : Tlp) : Bool := t.fmt_type == TLP_MSG_GATHER || t.fmt_type == TLP_MSG_DATA_GATHER

/-- The condition `self.match_bar(addr, io)` used as a truth value: `none` if it raises. -/
def hitsBar (s : ConfigState) (addr : Nat) (io : Bool) : Option Bool :=
  (matchBar addr io 0 s.bar s.bar_mask).map fun l => !l.isEmpty

/-- Line 2625 and others, `self.sec_bus_num <= bus <= self.sub_bus_num`. -/
def Bridge.busBehind (b : Bridge) (bus : Nat) : Bool := b.sec_bus_num ≤ bus && bus ≤ b.sub_bus_num
/-- Line 2662 and others, `self.io_base <= addr <= self.io_limit`. -/
def Bridge.ioBehind (b : Bridge) (addr : Nat) : Bool := b.io_base ≤ addr && addr ≤ b.io_limit
/-- Line 2673 and others, the memory and the prefetchable memory window. -/
def Bridge.memBehind (b : Bridge) (addr : Nat) : Bool :=
  (b.mem_base ≤ addr && addr ≤ b.mem_limit) ||
    (b.prefetchable_mem_base ≤ addr && addr ≤ b.prefetchable_mem_limit)

/-- Lines 2626-2631, type 1 to type 0. -/
def Tlp.toType0 (t : Tlp) : Tlp :=
  if t.fmt_type = TLP_CFG_READ_1 then t.setFmtType TLP_CFG_READ_0
  else if t.fmt_type = TLP_CFG_WRITE_1 then t.setFmtType TLP_CFG_WRITE_0
  else t

/-- `tb/pcie.py` lines 2616-2695, `Bridge.upstream_recv`. `none` is an exception (including the
assertion `tlp.check()`). -/
def Bridge.upstreamRecv (b : Bridge) (t : Tlp) : Option RouteAction :=
  if ¬ t.check then none
  else if t.isCfg0 then some .handle
  else if t.isCfg1 then
    if b.busBehind t.dest_id.bus then
      some (.down (if t.dest_id.bus = b.sec_bus_num then t.toType0 else t) false)
    else some .drop
  else if t.isCpl then
    if ¬ b.root ∧ t.requester_id = b.id then some .handle
    else if b.busBehind t.requester_id.bus then some (.down t false)
    else some .drop
  else if t.isMsgId then
    if ¬ b.root ∧ t.dest_id = b.id then some .handle
    else if b.busBehind t.dest_id.bus then some (.down t false)
    else some .drop
  else if t.isIo then do
    if ← hitsBar b.fn t.address true then some .handle
    else if b.ioBehind t.address then some (.down t false)
    else some .drop
  else if t.isMem then do
    if ← hitsBar b.fn t.address false then some .handle
    else if b.memBehind t.address then some (.down t false)
    else some .drop
  else if t.isMsgToRc then some .drop
  else if t.isMsgBcast then some (.down t false)
  else if t.isMsgLocal then some .drop
  else if t.isMsgGather then some .drop
  else none

/-- `tb/pcie.py` lines 2706-2774, `Bridge.downstream_recv` (and `send`, lines 2776-2778). -/
def Bridge.downstreamRecv (b : Bridge) (t : Tlp) : Option RouteAction :=
  if ¬ t.check then none
  else if t.isCfg0 ∨ t.isCfg1 then some .drop
  else if t.isCpl then
    if ¬ b.root ∧ t.requester_id = b.id then some .handle
    else if b.busBehind t.requester_id.bus then
      if b.root ∧ t.requester_id.bus = b.pri_bus_num ∧ t.requester_id.device = 0 then some .up
      else some (.down t true)
    else some .up
  else if t.isMsgId then
    if ¬ b.root ∧ t.dest_id = b.id then some .handle
    else if b.busBehind t.dest_id.bus then
      if b.root ∧ t.dest_id.bus = b.pri_bus_num ∧ t.dest_id.device = 0 then some .up
      else some (.down t true)
    else some .up
  else if t.isIo then do
    if ← hitsBar b.fn t.address true then some .handle
    else if b.ioBehind t.address then some (.down t true)
    else some .up
  else if t.isMem then do
    if ← hitsBar b.fn t.address false then some .handle
    else if b.memBehind t.address then some (.down t true)
    else some .up
  else if t.isMsgToRc then some .up
  else if t.isMsgBcast then some .drop
  else if t.isMsgLocal then some .drop
  else none

/-- One iteration of the loop in `SwitchUpstreamPort.route_downstream_tlp`, `tb/pcie.py` lines
2800-2863, for a port that is a bridge: does the TLP go to this port? `none` is an exception.
The address of ID routed messages is compared using `requester_id` in line 2826. Broadcast
messages are handled separately. -/
def Bridge.claims (b : Bridge) (t : Tlp) : Option Bool :=
  if t.isCfg0 then some (t.dest_id.device == b.id.device && t.dest_id.function == b.id.function)
  else if t.isCfg1 then some (b.busBehind t.dest_id.bus)
  else if t.isCpl then some (decide (t.requester_id = b.id) || b.busBehind t.requester_id.bus)
  else if t.isMsgId then some (decide (t.dest_id = b.id) || b.busBehind t.requester_id.bus)
  else if t.isIo then (hitsBar b.fn t.address true).map fun h => h || b.ioBehind t.address
  else if t.isMem then (hitsBar b.fn t.address false).map fun h => h || b.memBehind t.address
  else if t.isMsgToRc ∨ t.isMsgBcast ∨ t.isMsgLocal ∨ t.isMsgGather then some false
  else none

end Verif.Model
