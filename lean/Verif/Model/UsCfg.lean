/-!
Model of `rtl/pcie_us_cfg.v`: it reads the Device Control register of all functions, one after the other, through the
configuration management interface of the UltraScale core, and outputs fields of what it read. One step is one clock edge.

Simplifications: the outputs are functions of the function number, one value for each slice of the output vectors; words
are natural numbers. The parameters `READ_*`, which the code does not use apart from an unused constant, are left out.
-/
namespace Verif.Model

/-- Parameters of `rtl/pcie_us_cfg.v` lines 36-43 (`F_COUNT` is `PF_COUNT+VF_COUNT`). -/
structure UcCfg where
  pf : Nat
  vf : Nat
  vfOffset : Nat
  capOffset : Nat

/-- `F_COUNT`, `rtl/pcie_us_cfg.v` line 39. -/
def UcCfg.fcount (c : UcCfg) : Nat := c.pf + c.vf

/-- Registers of `rtl/pcie_us_cfg.v` lines 73-87. `ext f`, `mrrs f`, `mps f` are the slices of function `f` of
`ext_tag_enable_reg`, `max_read_request_size_reg` and `max_payload_size_reg`. `write_data` and `byte_enable`, which never
change, are left out. -/
structure Uc where
  ext : Nat → Bool := fun _ => false
  mrrs : Nat → Nat := fun _ => 0
  mps : Nat → Nat := fun _ => 0
  addr : Nat := 0
  fn : Nat := 0
  write : Bool := false
  read : Bool := false
  data : Nat := 0
  done : Bool := false
  delay : Nat := 255
  cnt : Nat := 0

/-- Inputs of one clock cycle: `rst`, `cfg_mgmt_read_data`, `cfg_mgmt_read_write_done` (`rtl/pcie_us_cfg.v` lines 46-67). -/
structure UcIn where
  rst : Bool := false
  data : Nat := 0
  done : Bool := false

/-- The word address of the Device Control register: `DEV_CTRL_OFFSET >> 2` as a 10 bit value, where `DEV_CTRL_OFFSET` is
`PCIE_CAP_OFFSET + 12'h008` (`rtl/pcie_us_cfg.v` lines 71 and 118). -/
def ucAddr (c : UcCfg) : Nat := ((c.capOffset + 8) / 4) % 1024

/-- A read is finished: `delay_reg` is 0 and `cfg_mgmt_read_write_done_reg` is set (`rtl/pcie_us_cfg.v` lines 115-120). -/
def ucFin (s : Uc) : Bool := s.delay == 0 && s.done

/-- One clock edge (`rtl/pcie_us_cfg.v` lines 100-174). -/
def ucStep (c : UcCfg) (s : Uc) (i : UcIn) : Uc :=
  let fin := ucFin s
  { ext := fun f => if i.rst then false else if fin && f == s.cnt then s.data.testBit 8 else s.ext f
    mrrs := fun f => if i.rst then 0 else if fin && f == s.cnt then (s.data >>> 12) % 8 else s.mrrs f
    mps := fun f => if i.rst then 0 else if fin && f == s.cnt then (s.data >>> 5) % 8 else s.mps f
    addr := if i.rst then 0 else if s.delay = 0 then ucAddr c else s.addr
    fn :=
      if i.rst then 0
      else if fin then
        (if s.cnt = c.fcount - 1 then 0 else if s.cnt = c.pf - 1 then c.vfOffset % 256 else (s.fn + 1) % 256)
      else s.fn
    write := if i.rst then false else s.write && !i.done
    read := if i.rst then false else if s.delay = 0 then !s.done else s.read && !i.done
    data := i.data
    done := if i.rst then false else i.done
    delay := if i.rst then 255 else if s.delay = 0 then (if s.done then 255 else 0) else s.delay - 1
    cnt := if i.rst then 0 else if fin then (if s.cnt = c.fcount - 1 then 0 else (s.cnt + 1) % 256) else s.cnt }

end Verif.Model
