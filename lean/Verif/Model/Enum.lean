import Verif.Model.Tags
import Verif.Model.Config
/-!
Model of configuration accesses and bus enumeration by `RootComplex` in `tb/pcie.py`.

The hardware below the root complex is a parameter: a state `σ` and a function that takes a TLP sent
by the root complex and gives the new state and the completions that come back (`Bus`). `none` is an
exception (or a wait without end). Theorems hold for every such hardware; `Model/Fabric.lean` is one.
-/
namespace Verif.Model

/-- What lies below the root complex. -/
abbrev Bus (σ : Type) := σ → Tlp → Option (σ × List Tlp)

/-- `tb/pcie.py` lines 3215-3272, the attributes of `RootComplex` that these functions use, with the
state of the hardware below. -/
structure Rc (σ : Type) where
  net : σ
  tags : TagState := {}
  io_base : Nat := 0x80000000
  io_limit : Nat := 0x80000000
  mem_base : Nat := 0x80000000
  mem_limit : Nat := 0x80000000
  prefetchable_mem_base : Nat := 0x8000000000000000
  prefetchable_mem_limit : Nat := 0x8000000000000000
  max_payload_size : Nat := 0
  max_read_request_size : Nat := 2
  extended_tag_field_enable : Bool := true
  region_limit : Nat := 0
  msi_addr : Option Nat := none
  msi_msg_limit : Nat := 0

/-- A computation of the root complex; `none` is an exception. -/
abbrev Sim (σ α : Type) := StateT (Rc σ) Option α

/-- An exception. -/
def Sim.fail {σ α : Type} : Sim σ α := fun _ => none

/-- A value that may be an exception. -/
def Sim.ofOption {σ α : Type} (o : Option α) : Sim σ α := fun rc => o.map fun a => (a, rc)

/-- Lines 3374-3378 `downstream_send`, and lines 3389-3393: completions that come back are appended
to the queue of their tag. -/
def Sim.send {σ : Type} (bus : Bus σ) (t : Tlp) : Sim σ Unit := fun rc => do
  if ¬ t.check then none
  else
    let (net, cpls) ← bus rc.net t
    some ((), { rc with
      net := net
      tags := cpls.foldl (fun tags c => (tags.step 32 (.arrive c.tag c)).1) rc.tags })

/-- Lines 3416-3425, `get_free_tag`. With `None` as tag the request cannot be completed: the
lookup in `recv_cpl` raises `TypeError`. -/
def Sim.freeTag {σ : Type} : Sim σ Nat := fun rc =>
  match getFreeTag 32 rc.tags with
  | (tags, some t) => some (t, { rc with tags := tags })
  | (_, none) => none

/-- Lines 3402-3414, `recv_cpl`: the oldest completion of the tag. If there is none, `None` after the
timeout, or an endless wait without timeout. -/
def Sim.recvCpl {σ : Type} (tag : Nat) (timeout : Bool) : Sim σ (Option Tlp) := fun rc =>
  match rc.tags.queues tag with
  | c :: _ => some (some c, { rc with tags := (rc.tags.step 32 (.take tag)).1 })
  | [] => if timeout then some (none, rc) else none

/-- Lines 3651-3661, the request of one iteration of `config_read`. -/
def configReadTlp (dev : PcieId) (addr len tag : Nat) : Tlp :=
  { (({} : Tlp).setFmtType TLP_CFG_READ_1).setBe addr len with
    tag := tag, dest_id := dev, register_number := addr >>> 2 }

/-- Lines 3667-3671, the four bytes obtained from a completion (or its absence). -/
def configReadData : Option Tlp → Option (List UInt8)
  | none => some [0xff, 0xff, 0xff, 0xff]
  | some cpl =>
    if cpl.status ≠ CPL_STATUS_SC then some [0xff, 0xff, 0xff, 0xff]
    else if cpl.length = 1 then cpl.data[0]?.bind bytesOfDword
    else none

/-- Lines 3651-3676, the loop of `config_read`; `k` bounds the number of iterations, each of which
reads at least one byte. -/
def configReadLoop {σ : Type} (bus : Bus σ) (dev : PcieId) (timeout : Bool) :
    Nat → Nat → Nat → Sim σ (List UInt8)
  | 0, _, _ => pure []
  | k + 1, addr, rem =>
    if rem = 0 then pure []
    else do
      let first_pad := addr % 4
      let len := min rem (4 - first_pad)
      let tag ← Sim.freeTag
      Sim.send bus (configReadTlp dev addr len tag)
      let cpl ← Sim.recvCpl tag timeout
      let d ← Sim.ofOption (configReadData cpl)
      let rest ← configReadLoop bus dev timeout k (addr + len) (rem - len)
      pure (d.drop first_pad ++ rest)

/-- `tb/pcie.py` lines 3647-3678, `config_read`. -/
def configRead {σ : Type} (bus : Bus σ) (dev : PcieId) (addr length : Nat) (timeout : Bool := false) :
    Sim σ (List UInt8) := do
  let data ← configReadLoop bus dev timeout length addr length
  pure (data.take length)

/-- Lines 3715-3725, the request of one iteration of `config_write`. -/
def configWriteTlp (dev : PcieId) (addr tag : Nat) (data : List UInt8) : Option Tlp :=
  ((({} : Tlp).setFmtType TLP_CFG_WRITE_1).setBeData addr data).map fun t =>
    { t with tag := tag, dest_id := dev, register_number := addr >>> 2 }

/-- Lines 3714-3732, the loop of `config_write`. -/
def configWriteLoop {σ : Type} (bus : Bus σ) (dev : PcieId) : Nat → Nat → List UInt8 → Sim σ Unit
  | 0, _, _ => pure ()
  | k + 1, addr, data =>
    if data = [] then pure ()
    else do
      let len := min data.length (4 - addr % 4)
      let tag ← Sim.freeTag
      let t ← Sim.ofOption (configWriteTlp dev addr tag (data.take len))
      Sim.send bus t
      let _ ← Sim.recvCpl tag false
      configWriteLoop bus dev k (addr + len) (data.drop len)

/-- `tb/pcie.py` lines 3711-3732, `config_write` (no caller in this file passes a timeout). -/
def configWrite {σ : Type} (bus : Bus σ) (dev : PcieId) (addr : Nat) (data : List UInt8) : Sim σ Unit :=
  configWriteLoop bus dev data.length addr data

/-- `int.from_bytes(data, 'little')`. -/
def leToNat : List UInt8 → Nat
  | [] => 0
  | b :: bs => b.toNat + 256 * leToNat bs

/-- The `w` low bytes of a number, least significant first. -/
def leBytes : Nat → Nat → List UInt8
  | 0, _ => []
  | w + 1, v => UInt8.ofNat (v % 256) :: leBytes w (v / 256)

/-- `v.to_bytes(w, 'little')`, and `struct.pack` with `B`, `<H`, `<L`; an exception if the value does
not fit. -/
def toBytes (w v : Nat) : Option (List UInt8) := if v < 256 ^ w then some (leBytes w v) else none

/-- Lines 3680-3709, `config_read_byte`, `_word`, `_dword`: `w` bytes as a number. -/
def configReadNum {σ : Type} (bus : Bus σ) (w : Nat) (dev : PcieId) (addr : Nat) (timeout : Bool := false) :
    Sim σ Nat := do
  let data ← configRead bus dev addr w timeout
  pure (leToNat data)

/-- Lines 3734-3761, `config_write_word`, `_dword`. -/
def configWriteNum {σ : Type} (bus : Bus σ) (w : Nat) (dev : PcieId) (addr v : Nat) : Sim σ Unit := do
  let data ← Sim.ofOption (toBytes w v)
  configWrite bus dev addr data

/-! ### The tree built by enumeration -/

/-- `tb/pcie.py` lines 3117-3147, the attributes of `TreeItem` except `children`. -/
structure TreeInfo where
  bus_num : Nat := 0
  device_num : Nat := 0
  function_num : Nat := 0
  vendor_id : Nat := 0
  device_id : Nat := 0
  sec_bus_num : Nat := 0
  sub_bus_num : Nat := 0
  bar : List (Option Nat) := List.replicate 6 none
  bar_size : List (Option Nat) := List.replicate 6 none
  io_base : Nat := 0
  io_limit : Nat := 0
  mem_base : Nat := 0
  mem_limit : Nat := 0
  prefetchable_mem_base : Nat := 0
  prefetchable_mem_limit : Nat := 0
  capabilities : List (Nat × Nat) := []
  msi_addr : Option Nat := none
  msi_data : Option Nat := none
deriving DecidableEq, Repr

/-- `tb/pcie.py` lines 3117-3147, `TreeItem`. -/
inductive TreeItem where
  | mk (info : TreeInfo) (children : List TreeItem)

/-- The attributes of an item. -/
def TreeItem.info : TreeItem → TreeInfo
  | .mk i _ => i

/-- The attribute `children`. -/
def TreeItem.children : TreeItem → List TreeItem
  | .mk _ c => c

/-- Line 3199-3200, `get_id`. -/
def TreeInfo.id (ti : TreeInfo) : PcieId := ⟨ti.bus_num, ti.device_num, ti.function_num⟩

/-- Lines 3158-3162, `get_capability_offset`. -/
def TreeInfo.capabilityOffset (ti : TreeInfo) (cap_id : Nat) : Option Nat :=
  (ti.capabilities.find? fun c => c.1 == cap_id).map (·.2)

/-- Lines 3760-3772 and 3798-3800, `capability_read_dword`. The item is the one being set up;
`self.tree.find_dev(dev)` finds it because the identifiers in the tree are distinct. -/
def capReadDword {σ : Type} (bus : Bus σ) (ti : TreeInfo) (cap_id addr : Nat) : Sim σ Nat :=
  match ti.capabilityOffset cap_id with
  | some (offset + 1) => configReadNum bus 4 ti.id (addr + (offset + 1))
  | _ => Sim.fail

/-- Lines 3806-3817 and 3839-3840, `capability_write_dword`. -/
def capWriteDword {σ : Type} (bus : Bus σ) (ti : TreeInfo) (cap_id addr v : Nat) : Sim σ Unit := do
  let data ← Sim.ofOption (toBytes 4 v)
  match ti.capabilityOffset cap_id with
  | some (offset + 1) => configWrite bus ti.id (addr + (offset + 1)) data
  | _ => Sim.fail

/-- Lines 3282-3296 for the region of message signalled interrupts (line 4127). -/
def allocMsiRegion {σ : Type} : Sim σ Nat := fun rc =>
  match rc.msi_addr with
  | some a => some (a, rc)
  | none =>
    let addr := align rc.region_limit 3
    some (addr, { rc with region_limit := addr + 3, msi_addr := some addr })

/-- Lines 4150-4162, the upper address and the message data. -/
def writeMsiData {σ : Type} (bus : Bus σ) (ti : TreeInfo) (msi_64bit msi_addr msg : Nat) : Sim σ Unit :=
  if msi_64bit ≠ 0 then do
    capWriteDword bus ti MSI_CAP_ID 8 ((msi_addr >>> 32) &&& 0xffffffff)
    capWriteDword bus ti MSI_CAP_ID 12 msg
  else capWriteDword bus ti MSI_CAP_ID 8 msg

/-- `tb/pcie.py` lines 4125-4173, `configure_msi` of the item being set up. The dictionaries
`msi_signals` and `msi_callbacks` get the 32 keys from the old to the new `msi_msg_limit`. -/
def configureMsi {σ : Type} (bus : Bus σ) (ti : TreeInfo) : Sim σ TreeInfo := do
  let msi_addr ← allocMsiRegion
  if ti.capabilityOffset MSI_CAP_ID = none then pure ti
  else if ti.msi_addr ≠ none ∧ ti.msi_data ≠ none then pure ti
  else do
    let msg_ctrl ← capReadDword bus ti MSI_CAP_ID 0
    let msi_64bit := (msg_ctrl >>> 23) &&& 1
    let msi_mmcap := (msg_ctrl >>> 17) &&& 7
    capWriteDword bus ti MSI_CAP_ID 4 (msi_addr &&& 0xfffffffc)
    let rc ← get
    writeMsiData bus ti msi_64bit msi_addr rc.msi_msg_limit
    capWriteDword bus ti MSI_CAP_ID 0 (andNot msg_ctrl (7 <<< 20) ||| (1 <<< 16) ||| (msi_mmcap <<< 20))
    let rc ← get
    let ti := { ti with msi_addr := some msi_addr, msi_data := some rc.msi_msg_limit }
    set { rc with msi_msg_limit := rc.msi_msg_limit + 32 }
    pure ti

/-! ### Enumeration -/

/-- Lines 4313-4314, 4358-4359, 4386-4387: record an allocated BAR. -/
def TreeInfo.setBar (ti : TreeInfo) (bar val size : Nat) : TreeInfo :=
  { ti with bar := ti.bar.set bar (some val), bar_size := ti.bar_size.set bar (some size) }

/-- Lines 4301-4322, an I/O BAR that reads as `val`. -/
def allocIoBar {σ : Type} (bus : Bus σ) (ti : TreeInfo) (bar val : Nat) : Sim σ TreeInfo := do
  let mask := andNot 0xffffffff val ||| 3
  let size := mask + 1
  let rc ← get
  let base := align rc.io_limit mask
  let val := (val &&& 3) ||| base
  set { rc with io_limit := base + size }
  configWriteNum bus 4 ti.id (0x10 + bar * 4) val
  pure (ti.setBar bar val size)

/-- Lines 4369-4393, a 32-bit memory BAR that reads as `val`. -/
def allocMem32Bar {σ : Type} (bus : Bus σ) (ti : TreeInfo) (bar val : Nat) : Sim σ TreeInfo := do
  let mask := andNot 0xffffffff val ||| 15
  let size := mask + 1
  let rc ← get
  let base := align rc.mem_limit mask
  let val := (val &&& 15) ||| base
  set { rc with mem_limit := base + size }
  configWriteNum bus 4 ti.id (0x10 + bar * 4) val
  pure (ti.setBar bar val size)

/-- Lines 4328-4366, a 64-bit memory BAR whose lower half reads as `val`. -/
def allocMem64Bar {σ : Type} (bus : Bus σ) (ti : TreeInfo) (bar val : Nat) : Sim σ TreeInfo := do
  configWriteNum bus 4 ti.id (0x10 + (bar + 1) * 4) 0xffffffff
  let val2 ← configReadNum bus 4 ti.id (0x10 + (bar + 1) * 4)
  let val := val ||| (val2 <<< 32)
  let mask := andNot 0xffffffffffffffff val ||| 15
  let size := mask + 1
  let rc ← get
  let base := align (if val &&& 8 ≠ 0 then rc.prefetchable_mem_limit else rc.mem_limit) mask
  if val &&& 8 ≠ 0 then set { rc with prefetchable_mem_limit := base + size }
  else set { rc with mem_limit := base + size }
  let val := (val &&& 15) ||| base
  configWriteNum bus 4 ti.id (0x10 + bar * 4) (val &&& 0xffffffff)
  configWriteNum bus 4 ti.id (0x10 + (bar + 1) * 4) ((val >>> 32) &&& 0xffffffff)
  pure (ti.setBar bar val size)

/-- Lines 4287-4395, the loop over the BARs of a function; `k` bounds the number of iterations. -/
def configureBars {σ : Type} (bus : Bus σ) (bar_cnt : Nat) : Nat → Nat → TreeInfo → Sim σ TreeInfo
  | 0, _, ti => pure ti
  | k + 1, bar, ti =>
    if bar_cnt ≤ bar then pure ti
    else do
      configWriteNum bus 4 ti.id (0x10 + bar * 4) 0xffffffff
      let val ← configReadNum bus 4 ti.id (0x10 + bar * 4)
      if val = 0 then configureBars bus bar_cnt k (bar + 1) ti
      else if val &&& 1 ≠ 0 then do
        let ti ← allocIoBar bus ti bar val
        configureBars bus bar_cnt k (bar + 1) ti
      else if val &&& 4 ≠ 0 then
        if bar_cnt - 1 ≤ bar then Sim.fail
        else do
          let ti ← allocMem64Bar bus ti bar val
          configureBars bus bar_cnt k (bar + 2) ti
      else do
        let ti ← allocMem32Bar bus ti bar val
        configureBars bus bar_cnt k (bar + 1) ti

/-- Lines 4404-4409, the walk over the capability list. `k` bounds the number of capabilities; a
longer walk is treated as endless. -/
def walkCaps {σ : Type} (bus : Bus σ) (dev : PcieId) : Nat → Nat → Sim σ (List (Nat × Nat))
  | 0, ptr => if ptr = 0 then pure [] else Sim.fail
  | k + 1, ptr =>
    if ptr = 0 then pure []
    else do
      let val ← configRead bus dev ptr 2
      let id ← Sim.ofOption val[0]?
      let next ← Sim.ofOption val[1]?
      let rest ← walkCaps bus dev k (next.toNat &&& 0xfc)
      pure ((id.toNat, ptr) :: rest)

/-- Lines 4414-4424, maximum payload size, maximum read request size and extended tags. -/
def setupDeviceControl {σ : Type} (bus : Bus σ) (ti : TreeInfo) : Sim σ Unit := do
  let dev_cap ← capReadDword bus ti PCIE_CAP_ID 4
  let dev_ctrl_sta ← capReadDword bus ti PCIE_CAP_ID 8
  let rc ← get
  let max_payload := min 5 (min rc.max_payload_size (dev_cap &&& 7))
  let ext_tag := if rc.extended_tag_field_enable && decide (dev_cap &&& (1 <<< 5) ≠ 0) then 1 else 0
  let max_read_req := min 5 rc.max_read_request_size
  capWriteDword bus ti PCIE_CAP_ID 8
    ((dev_ctrl_sta &&& 0x8e1f) ||| (max_payload <<< 5) ||| (ext_tag <<< 8) ||| (max_read_req <<< 12))

/-- `struct.pack(fmt, a, b)` for two numbers of `w` bytes. -/
def packTwo (w a b : Nat) : Option (List UInt8) := do
  let x ← toBytes w a
  let y ← toBytes w b
  some (x ++ y)

/-- Lines 4440 and 4449: `bytearray([bus, sec_bus, sub_bus])`, `ValueError` beyond 255. -/
def busBytes (pri sec sub : Nat) : Option (List UInt8) := do
  let a ← toBytes 1 pri
  let b ← toBytes 1 sec
  let c ← toBytes 1 sub
  some (a ++ b ++ c)

/-- Lines 4452-4468, the base and limit registers of a bridge. -/
def setupWindows {σ : Type} (bus : Bus σ) (ti : TreeInfo) : Sim σ Unit := do
  configWrite bus ti.id 0x1c (← Sim.ofOption (packTwo 1 ((ti.io_base >>> 8) &&& 0xf0) ((ti.io_limit >>> 8) &&& 0xf0)))
  configWrite bus ti.id 0x30 (← Sim.ofOption (packTwo 2 (ti.io_base >>> 16) (ti.io_limit >>> 16)))
  configWrite bus ti.id 0x20 (← Sim.ofOption (packTwo 2 ((ti.mem_base >>> 16) &&& 0xfff0) ((ti.mem_limit >>> 16) &&& 0xfff0)))
  configWrite bus ti.id 0x24 (← Sim.ofOption (packTwo 2 ((ti.prefetchable_mem_base >>> 16) &&& 0xfff0)
    ((ti.prefetchable_mem_limit >>> 16) &&& 0xfff0)))
  configWrite bus ti.id 0x28 (← Sim.ofOption (toBytes 4 (ti.prefetchable_mem_base >>> 32)))
  configWrite bus ti.id 0x2c (← Sim.ofOption (toBytes 4 (ti.prefetchable_mem_limit >>> 32)))

/-- The arguments of `enumerate` (line 4488). `caps` bounds the capability walk. -/
structure EnumOpts where
  enable_bus_mastering : Bool := false
  configure_msi : Bool := false
  caps : Nat := 64

/-- The local variables of `enumerate_segment`: the next secondary bus, the highest bus assigned, and
`tree.children`. -/
structure SegState where
  sec_bus : Nat
  sub_bus : Nat
  children : List TreeItem := []

/-- Lines 4217-4220 and 4474-4477, align the limits. -/
def alignLimits {σ : Type} : Sim σ Unit := modify fun rc =>
  { rc with
    io_limit := align rc.io_limit 0xfff
    mem_limit := align rc.mem_limit 0xfffff
    prefetchable_mem_limit := align rc.prefetchable_mem_limit 0xfffff }

/-- Lines 4426-4429, bus mastering. -/
def enableBusMaster {σ : Type} (bus : Bus σ) (opts : EnumOpts) (ti : TreeInfo) : Sim σ Unit :=
  if opts.enable_bus_mastering then do
    let val ← configReadNum bus 2 ti.id 4
    configWriteNum bus 2 ti.id 4 (val ||| 4)
  else pure ()

/-- Lines 4431-4433, message signalled interrupts. -/
def setupMsi {σ : Type} (bus : Bus σ) (opts : EnumOpts) (ti : TreeInfo) : Sim σ TreeInfo :=
  if opts.configure_msi then configureMsi bus ti else pure ti

/-- Lines 4262-4433, set up one function up to its own registers (everything but the bus behind a
bridge). The result says whether it is a bridge. -/
def setupFunction {σ : Type} (bus : Bus σ) (opts : EnumOpts) (b d f : Nat) (val : List UInt8) :
    Sim σ (TreeInfo × Bool) := do
  let ti : TreeInfo :=
    { bus_num := b
      device_num := d
      function_num := f
      vendor_id := leToNat (val.take 2)
      device_id := leToNat (val.drop 2) }
  let ht ← configReadNum bus 1 ti.id 0xe true
  let bridge := decide (ht &&& 0x7f = 1)
  let bar_cnt := if bridge then 2 else 6
  let ti ← configureBars bus bar_cnt bar_cnt 0 ti
  let ptr ← configReadNum bus 1 ti.id 0x34
  let caps ← walkCaps bus ti.id opts.caps (ptr &&& 0xfc)
  let ti := { ti with capabilities := caps }
  setupDeviceControl bus ti
  enableBusMaster bus opts ti
  let ti ← setupMsi bus opts ti
  pure (ti, bridge)

/-- Lines 4255-4470, one function. `rec` enumerates the bus behind a bridge. -/
def enumFunction {σ : Type} (bus : Bus σ) (opts : EnumOpts) (rec : Nat → TreeInfo → Sim σ TreeItem)
    (b d f : Nat) (st : SegState) : Sim σ SegState := do
  let val ← configRead bus ⟨b, d, f⟩ 0 4 true
  if val = [0xff, 0xff, 0xff, 0xff] then pure st
  else do
    let (ti, bridge) ← setupFunction bus opts b d f val
    if bridge then do
      configWrite bus ti.id 0x18 (← Sim.ofOption (busBytes b st.sec_bus 255))
      let item ← rec st.sec_bus ti
      let sub_bus := item.info.sub_bus_num
      configWrite bus ti.id 0x18 (← Sim.ofOption (busBytes b st.sec_bus sub_bus))
      setupWindows bus item.info
      pure { sec_bus := sub_bus + 1, sub_bus := sub_bus, children := st.children ++ [item] }
    else
      pure { st with children := st.children ++ [.mk ti []] }

/-- Lines 4255-4470, the loop over the functions of a device. -/
def enumFunctions {σ : Type} (bus : Bus σ) (opts : EnumOpts) (rec : Nat → TreeInfo → Sim σ TreeItem)
    (b d : Nat) : List Nat → SegState → Sim σ SegState
  | [], st => pure st
  | f :: fs, st => do
    let st ← enumFunction bus opts rec b d f st
    enumFunctions bus opts rec b d fs st

/-- Lines 4232-4470, the loop over the devices of a bus. -/
def enumDevices {σ : Type} (bus : Bus σ) (opts : EnumOpts) (rec : Nat → TreeInfo → Sim σ TreeItem)
    (b : Nat) : List Nat → SegState → Sim σ SegState
  | [], st => pure st
  | d :: ds, st =>
    if b = 0 ∧ d = 0 then enumDevices bus opts rec b ds st
    else do
      let val ← configReadNum bus 4 ⟨b, d, 0⟩ 0 true
      if val = 0xffffffff then enumDevices bus opts rec b ds st
      else do
        let ht ← configReadNum bus 1 ⟨b, d, 0⟩ 0xe true
        let st ← enumFunctions bus opts rec b d (List.range (if ht &&& 0x80 ≠ 0 then 8 else 1)) st
        enumDevices bus opts rec b ds st

/-- `tb/pcie.py` lines 4211-4486, `enumerate_segment` for the item `ti` and bus `b`; the returned
`sub_bus` is the `sub_bus_num` of the resulting item. `k` bounds the depth: the bus number grows with
each level and `bytearray` in line 4440 raises for bus numbers above 255, so `k = 257 - b` is
never exhausted. The limits in lines 4479-4481 are one less than a base address of at least 0x80000000. -/
def enumSegment {σ : Type} (bus : Bus σ) (opts : EnumOpts) : Nat → Nat → TreeInfo → Sim σ TreeItem
  | 0, _, _ => Sim.fail
  | k + 1, b, ti => do
    alignLimits
    let rc ← get
    let ti := { ti with
      sec_bus_num := b
      io_base := rc.io_limit
      mem_base := rc.mem_limit
      prefetchable_mem_base := rc.prefetchable_mem_limit }
    let st ← enumDevices bus opts (enumSegment bus opts k) b (List.range 32) { sec_bus := b + 1, sub_bus := b }
    alignLimits
    let rc ← get
    let ti := { ti with
      sub_bus_num := st.sub_bus
      io_limit := rc.io_limit - 1
      mem_limit := rc.mem_limit - 1
      prefetchable_mem_limit := rc.prefetchable_mem_limit - 1 }
    pure (.mk ti st.children)

/-- `tb/pcie.py` lines 4488-4504, `enumerate`: the tree. The windows of the host bridge that it sets
afterwards are `[io_base, io_limit]` etc. of the resulting root complex state. -/
def enumerate {σ : Type} (bus : Bus σ) (opts : EnumOpts) : Sim σ TreeItem := do
  modify fun rc => { rc with
    io_limit := rc.io_base
    mem_limit := rc.mem_base
    prefetchable_mem_limit := rc.prefetchable_mem_base }
  enumSegment bus opts 257 0 {}

end Verif.Model
