import Verif.Basic.Lanes
import Verif.Model.DmaPsdpRam
/-!
Model of `rtl/pcie_msix.v`: the interrupt state machine with the pending bit array, and the AXI lite
interface with the vector table. One step is one clock edge. A table word is a function from byte lane to
byte, a word of the pending bit array a number below 2^64.
-/
namespace Verif.Model

/-- Parameters of `rtl/pcie_msix.v` (lines 36-46): `IRQ_INDEX_WIDTH`, `AXIL_ADDR_WIDTH`, the logarithm of the
number of bytes of the AXI lite data bus (`AXIL_STRB_WIDTH` = 1, 2, 4 or 8), `TLP_FORCE_64_BIT_ADDR`. -/
structure MsixCfg where
  idxW : Nat
  addrW : Nat
  strbLog : Nat
  force64 : Bool
deriving DecidableEq, Repr

/-- `rtl/pcie_msix.v` lines 139-143. -/
inductive MsixIrqState
  | idle | readTbl1 | readTbl2 | sendTlp
deriving DecidableEq, Repr

/-- A TLP on the output: the four header DWORDs (`tx_wr_req_tlp_hdr`, most significant first) and the
data DWORD. -/
structure MsixTlp where
  dw0 : Nat
  dw1 : Nat
  dw2 : Nat
  dw3 : Nat
  data : Nat
deriving DecidableEq, Repr

/-- Registers of the interrupt part: `rtl/pcie_msix.v` lines 145-204; `vec_mask_reg` is never used. -/
structure MsixIrq where
  state : MsixIrqState
  irqIndex : Nat
  vecAddr : Nat
  vecData : Nat
  irqReady : Bool
  tlp : MsixTlp
  tlpValid : Bool
  enable : Bool
  mask : Bool
  pba : Nat → Nat
  tblRd : RamWord
  pbaRd : Nat

/-- Registers of the AXI lite part with the table: `rtl/pcie_msix.v` lines 173-204. -/
structure MsixAxil where
  tbl : Nat → RamWord
  lastRead : Bool
  wready : Bool
  bvalid : Bool
  arready : Bool
  rdata : RamWord
  rvalid : Bool
  tblValid : Bool
  pbaValid : Bool
  shift : Nat
  tblRd : RamWord
  pbaRd : RamWord

/-- The module. -/
structure Msix where
  irq : MsixIrq
  axil : MsixAxil

/-- Inputs in one cycle: `rtl/pcie_msix.v` lines 49-98. -/
structure MsixIn where
  rst : Bool := false
  irqIndex : Nat := 0
  irqValid : Bool := false
  tlpReady : Bool := true
  requesterId : Nat := 0
  enable : Bool := true
  mask : Bool := false
  awaddr : Nat := 0
  awvalid : Bool := false
  wdata : RamWord := fun _ => 0
  wstrb : Nat → Bool := fun _ => false
  wvalid : Bool := false
  bready : Bool := true
  araddr : Nat := 0
  arvalid : Bool := false
  rready : Bool := true

/-- The number of a table word as a little endian number of its first `n` bytes. -/
def wordNat (w : RamWord) : Nat → Nat
  | 0 => 0
  | n + 1 => wordNat w n + (w n).toNat * 256 ^ n

/-- Address of the pending bit word that is written: `pba_mem_addr = irq_index_reg >> 5` (line 249), in the
`PBA_ADDR_WIDTH` bits of `pba_mem_addr`; `none` when there is no such word. For `IRQ_INDEX_WIDTH <= 6` the range
`[-1:0]` gives `pba_mem_addr` two bits, and there is one word. -/
def msixPbaWrAddr (c : MsixCfg) (idx : Nat) : Option Nat :=
  if 6 < c.idxW then some (idx / 32 % 2 ^ (c.idxW - 6))
  else if idx / 32 % 4 = 0 then some 0 else none

/-- Writing the pending bit array, `rtl/pcie_msix.v` lines 419-421 with the address of line 249. -/
def msixPbaWrite (c : MsixCfg) (p : Nat → Nat) (idx v : Nat) : Nat → Nat :=
  match msixPbaWrAddr c idx with
  | some a => fun b => if b = a then v else p b
  | none => p

/-- The TLP header, `rtl/pcie_msix.v` lines 264-298; `vec_addr_reg[63:2]` is `addr / 4`. -/
def msixHdr (c : MsixCfg) (addr rid data : Nat) : MsixTlp :=
  if addr / 4 / 2 ^ 30 != 0 || c.force64 then
    { dw0 := 3 * 2 ^ 29 + 1, dw1 := rid % 2 ^ 16 * 2 ^ 16 + 15, dw2 := addr / 2 ^ 32 % 2 ^ 32,
      dw3 := addr / 4 % 2 ^ 30 * 4, data := data }
  else
    { dw0 := 2 * 2 ^ 29 + 1, dw1 := rid % 2 ^ 16 * 2 ^ 16 + 15, dw2 := addr / 4 % 2 ^ 30 * 4,
      dw3 := 0, data := data }

/-- `rtl/pcie_msix.v` line 337: `(irq_index_reg & (~0 << 6)) + 64`. -/
def msixNextGroup (c : MsixCfg) (idx : Nat) : Nat := (idx / 64 * 64 + 64) % 2 ^ c.idxW

/-- `rtl/pcie_msix.v` lines 241-395 without reset: the interrupt state machine; `tbl` is the table. -/
def msixIrqNext (c : MsixCfg) (tbl : Nat → RamWord) (s : MsixIrq) (i : MsixIn) : MsixIrq :=
  let d := { s with irqReady := false, tlpValid := s.tlpValid && !i.tlpReady, enable := i.enable, mask := i.mask }
  match s.state with
  | .idle =>
    if i.irqValid && s.irqReady then
      { d with
        irqIndex := i.irqIndex % 2 ^ c.idxW
        tblRd := tbl (i.irqIndex % 2 ^ c.idxW * 2)
        pbaRd := s.pba (i.irqIndex % 2 ^ c.idxW / 64)
        state := .readTbl1 }
    else if !i.irqValid && s.enable && !s.mask then
      if s.pbaRd.testBit (s.irqIndex % 64) then
        { d with tblRd := tbl (s.irqIndex * 2), pbaRd := s.pba (s.irqIndex / 64), state := .readTbl1 }
      else
        let n := if s.pbaRd != 0 then (s.irqIndex + 1) % 2 ^ c.idxW else msixNextGroup c s.irqIndex
        { d with irqReady := true, irqIndex := n, pbaRd := s.pba (n / 64), state := .idle }
    else { d with irqReady := true, state := .idle }
  | .readTbl1 =>
    { d with tblRd := tbl (s.irqIndex * 2 + 1), vecAddr := wordNat s.tblRd 8 / 4 * 4, state := .readTbl2 }
  | .readTbl2 =>
    if s.enable && !s.mask && !(wordNat s.tblRd 8).testBit 32 then
      { d with vecData := wordNat s.tblRd 4, state := .sendTlp }
    else
      { d with
        vecData := wordNat s.tblRd 4
        pba := msixPbaWrite c s.pba s.irqIndex (setBit s.pbaRd (s.irqIndex % 64))
        irqReady := true
        state := .idle }
  | .sendTlp =>
    if !s.tlpValid || i.tlpReady then
      { d with
        tlp := msixHdr c s.vecAddr i.requesterId s.vecData
        tlpValid := true
        pba := msixPbaWrite c s.pba s.irqIndex (clearBit s.pbaRd (s.irqIndex % 64))
        irqIndex := (s.irqIndex + 1) % 2 ^ c.idxW
        irqReady := true
        state := .idle }
    else { d with state := .sendTlp }

/-- `rtl/pcie_msix.v` lines 397-432: one clock edge of the interrupt part. -/
def msixIrqStep (c : MsixCfg) (tbl : Nat → RamWord) (s : MsixIrq) (i : MsixIn) : MsixIrq :=
  let n := msixIrqNext c tbl s i
  if i.rst then { n with state := .idle, irqReady := false, tlpValid := false } else n

/-- `write_eligible`, `rtl/pcie_msix.v` line 456; `s_axil_awready` and `s_axil_wready` are equal. -/
def msixWriteEligible (s : MsixAxil) (i : MsixIn) : Bool :=
  i.awvalid && i.wvalid && (!s.bvalid || i.bready) && !s.wready

/-- `read_eligible`, `rtl/pcie_msix.v` line 457. -/
def msixReadEligible (s : MsixAxil) (i : MsixIn) : Bool :=
  i.arvalid && (!s.rvalid || i.rready || !(s.tblValid || s.pbaValid)) && !s.arready

/-- `rtl/pcie_msix.v` line 479: the write is done in this cycle. -/
def msixDoWrite (s : MsixAxil) (i : MsixIn) : Bool := msixWriteEligible s i && (!msixReadEligible s i || s.lastRead)

/-- `rtl/pcie_msix.v` line 489: the read is done in this cycle. -/
def msixDoRead (s : MsixAxil) (i : MsixIn) : Bool := !msixDoWrite s i && msixReadEligible s i

/-- `rtl/pcie_msix.v` lines 486 and 496: the address is in the table, not in the pending bit array. -/
def msixIsTbl (c : MsixCfg) (addr : Nat) : Bool := !addr.testBit (c.addrW - 1)

/-- `s_axil_awaddr_index`, `s_axil_araddr_index`: lines 206 and 209. -/
def msixIndex (c : MsixCfg) (addr : Nat) : Nat := addr / 8 % 2 ^ (c.idxW + 1)

/-- `s_axil_awaddr_word`, `s_axil_araddr_word`: lines 207 and 210. -/
def msixWord (c : MsixCfg) (addr : Nat) : Nat := addr / 2 ^ c.strbLog % 2 ^ (3 - c.strbLog)

/-- `rtl/pcie_msix.v` lines 438-439 and 524-528: the table after a write. Byte `l` of the 64-bit word has
enable bit `l - word * AXIL_STRB_WIDTH` of `s_axil_wstrb` and gets byte `l % AXIL_STRB_WIDTH` of `s_axil_wdata`. -/
def msixTblWrite (c : MsixCfg) (tbl : Nat → RamWord) (i : MsixIn) : Nat → RamWord := fun a l =>
  if a = msixIndex c i.awaddr ∧ l < 8 ∧ l / 2 ^ c.strbLog = msixWord c i.awaddr ∧ i.wstrb (l % 2 ^ c.strbLog) = true
  then i.wdata (l % 2 ^ c.strbLog) else tbl a l

/-- A pending bit word by bytes. -/
def pbaBytes (v : Nat) : RamWord := fun l => UInt8.ofNat (v / 256 ^ l)

/-- `rtl/pcie_msix.v` lines 459-477: a word that was read moves to the output. -/
def msixRMove (s : MsixAxil) (i : MsixIn) : Bool := (s.tblValid || s.pbaValid) && (!s.rvalid || i.rready)

/-- `rtl/pcie_msix.v` lines 435-547: one clock edge of the AXI lite part. `pba_mem` words that do not
exist read as the model's `pba` does there. -/
def msixAxilStep (c : MsixCfg) (pba : Nat → Nat) (s : MsixAxil) (i : MsixIn) : MsixAxil :=
  { tbl := if msixDoWrite s i && msixIsTbl c i.awaddr then msixTblWrite c s.tbl i else s.tbl
    lastRead := !i.rst && (if msixDoWrite s i then false else if msixDoRead s i then true else s.lastRead)
    wready := !i.rst && msixDoWrite s i
    bvalid := !i.rst && (msixDoWrite s i || s.bvalid && !i.bready)
    arready := !i.rst && msixDoRead s i
    rdata := if msixRMove s i then
        fun l => (if s.tblValid then s.tblRd else s.pbaRd) (s.shift * 2 ^ c.strbLog + l)
      else s.rdata
    rvalid := !i.rst && (msixRMove s i || s.rvalid && !i.rready)
    tblValid := !i.rst && (if msixDoRead s i && msixIsTbl c i.araddr then true else s.tblValid && !msixRMove s i)
    pbaValid := !i.rst && (if msixDoRead s i && !msixIsTbl c i.araddr then true else s.pbaValid && !msixRMove s i)
    shift := if msixDoRead s i then msixWord c i.araddr else s.shift
    tblRd := if msixDoRead s i && msixIsTbl c i.araddr then s.tbl (msixIndex c i.araddr) else s.tblRd
    pbaRd := if msixDoRead s i && !msixIsTbl c i.araddr then pbaBytes (pba (msixIndex c i.araddr)) else s.pbaRd }

/-- One clock edge. -/
def msixStep (c : MsixCfg) (s : Msix) (i : MsixIn) : Msix :=
  { irq := msixIrqStep c s.axil.tbl s.irq i, axil := msixAxilStep c s.irq.pba s.axil i }

/-- A history. -/
def msixRun (c : MsixCfg) : Msix → List MsixIn → Msix
  | s, [] => s
  | s, i :: is => msixRun c (msixStep c s i) is

/-- An interrupt request is accepted (`irq_valid && irq_ready`). -/
def msixAccepts (s : Msix) (i : MsixIn) : Bool := i.irqValid && s.irq.irqReady

/-- A TLP is newly presented on the output at this edge: the output is valid after it, and was not valid
before or is taken at it. -/
def msixPresents (c : MsixCfg) (s : Msix) (i : MsixIn) : Bool :=
  (msixStep c s i).irq.tlpValid && (!s.irq.tlpValid || i.tlpReady)

end Verif.Model
