import Verif.Model.Bridge
/-!
Model of the PCIe fabric of `tb/pcie.py`: functions in devices (`Device`), ports of a switch
(`Switch`, `SwitchUpstreamPort`, `SwitchDownstreamPort`, `RootPort`, `HostBridge`), and the path
of a TLP through them.

A TLP entering a component produces the component's new state and a list of outcomes. Links
(`Port`, lines 724-787) are modelled as delivering every TLP; their delays are not modelled.
-/
namespace Verif.Model

/-- An endpoint function: its identifier and configuration space. -/
structure Func where
  id : PcieId := ⟨0, 0, 0⟩
  cfg : ConfigState := {}

/-- What happens to a TLP: a TLP leaves the component upstream, or is handed to `handle_tlp` of the
function or bridge `id` (configuration requests are carried out at once and do not appear here),
or is turned around by a bridge that finds its target behind itself. -/
inductive Out where
  | reply (t : Tlp)
  | deliver (id : PcieId) (t : Tlp)
  | turned (id : PcieId) (t : Tlp)
deriving DecidableEq

/-- `tb/pcie.py` lines 1826-1851, `handle_config_0_tlp`, for a component with identifier `id` and
the given `read_config_register` and `write_config_register`. Results: the identifier with
the captured bus number, the new state if written, and the completion. `None` register
values (a completion that cannot be packed) and exceptions are `none`. -/
def handleConfig0 {σ : Type} (id : PcieId) (s : σ) (read : σ → Nat → Option Nat)
    (write : σ → Nat → Nat → Nat → Option σ) (t : Tlp) : Option (PcieId × σ × List Tlp) :=
  if t.dest_id.device = id.device ∧ t.dest_id.function = id.function then
    let id : PcieId := { id with bus := t.dest_id.bus }
    if t.fmt_type = TLP_CFG_READ_0 then do
      let v ← read s t.register_number
      let cpl := ({} : Tlp).setCompletionData t id
      some (id, s, [{ cpl with data := [v], byte_count := 4, length := 1 }])
    else do
      let d ← t.data[0]?
      let s ← write s t.register_number d t.first_be
      some (id, s, [({} : Tlp).setCompletion t id])
  else some (id, s, [])

/-! ### Devices -/

/-- `tb/pcie.py` lines 2924-2933, attributes of `Device`. -/
structure Device where
  bus_num : Nat := 0
  device_num : Nat := 0
  functions : List Func := []

/-- `list.sort(key=...)`: stable. -/
def insertBy {α : Type} (key : α → Nat) (x : α) : List α → List α
  | [] => [x]
  | y :: ys => if key x ≤ key y then x :: y :: ys else y :: insertBy key x ys

/-- `list.sort(key=...)`: stable. -/
def sortBy {α : Type} (key : α → Nat) : List α → List α
  | [] => []
  | x :: xs => insertBy key x (sortBy key xs)

/-- The key `x.function_num`. -/
def Func.num (f : Func) : Nat := f.id.function

/-- The loop of `next_free_function_number`, lines 2949-2951: the first index `x` at which the
number differs from `x`; the length if there is none. -/
def firstGap : Nat → List Func → Nat
  | x, [] => x
  | x, f :: fs => if f.num ≠ x then x else firstGap (x + 1) fs

/-- `tb/pcie.py` lines 2945-2954, `Device.next_free_function_number`, on sorted functions. -/
def nextFreeFunction (fs : List Func) : Option Nat :=
  let fs := sortBy Func.num fs
  let x := firstGap 0 fs
  if x < fs.length then some x
  else if fs.length < 8 then some fs.length
  else none

/-- `tb/pcie.py` lines 2956-2966, `Device.add_function`; `none` if the number is in use. -/
def Device.addFunction (d : Device) (f : Func) : Option Device :=
  if d.functions.any (fun g => g.num == f.num) then none
  else
    let fs := sortBy Func.num (d.functions ++ [f])
    let fs := if fs.length > 1 then
        fs.map fun g => { g with cfg := { g.cfg with header_type := g.cfg.header_type ||| 0x80 } }
      else fs
    some { d with functions := fs }

/-- `tb/pcie.py` lines 2968-2970, `Device.append_function`. With eight functions the number is
`None`, and sorting by it raises `TypeError`. -/
def Device.appendFunction (d : Device) (f : Func) : Option Device := do
  let n ← nextFreeFunction d.functions
  d.addFunction { f with id := { f.id with function := n } }

/-- Lines 2990-2993 and 3014-3017: hand a configuration request to the function with the given
number; `none` in the inner option if there is none. -/
def configFunction (n : Nat) (t : Tlp) : List Func → Option (Option (List Func × List Tlp))
  | [] => some none
  | f :: fs =>
    if f.num = n then do
      let (id, cfg, cpls) ← handleConfig0 f.id f.cfg readConfig writeConfig t
      some (some ({ id := id, cfg := cfg } :: fs, cpls))
    else do
      let r ← configFunction n t fs
      some (r.map fun (fs, cpls) => (f :: fs, cpls))

/-- Lines 3026-3029 and 3044-3047: the first function one of whose BARs matches. -/
def matchFunction (addr : Nat) (io : Bool) : List Func → Option (Option Func)
  | [] => some none
  | f :: fs => do
    if ← hitsBar f.cfg addr io then some (some f) else matchFunction addr io fs

/-- `tb/pcie.py` lines 2978-3057, `Device.upstream_recv`. -/
def Device.recv (d : Device) (t : Tlp) : Option (Device × List Out) :=
  if ¬ t.check then none
  else if t.isCfg0 then
    if t.dest_id.device = d.device_num then do
      let bus := t.dest_id.bus
      let fs := d.functions.map fun f => { f with id := { f.id with bus := bus } }
      let d := { d with bus_num := bus, functions := fs }
      match ← configFunction t.dest_id.function t fs with
      | some (fs, cpls) => some ({ d with functions := fs }, cpls.map .reply)
      | none => some (d, [.reply (urCompletion t ⟨d.bus_num, d.device_num, 0⟩)])
    else some (d, [.reply (urCompletion t ⟨d.bus_num, d.device_num, 0⟩)])
  else if t.isCpl then
    if t.requester_id.bus = d.bus_num ∧ t.requester_id.device = d.device_num then
      match d.functions.find? fun f => f.num == t.requester_id.function with
      | some f => some (d, [.deliver f.id t])
      | none => some (d, [])
    else some (d, [])
  else if t.isIo then do
    match ← matchFunction t.address true d.functions with
    | some f => some (d, [.deliver f.id t])
    | none => some (d, [.reply (urCompletion t ⟨d.bus_num, d.device_num, 0⟩)])
  else if t.isMem then do
    match ← matchFunction t.address false d.functions with
    | some f => some (d, [.deliver f.id t])
    | none =>
      if t.fmt_type = TLP_MEM_READ ∨ t.fmt_type = TLP_MEM_READ_64 then
        some (d, [.reply (urCompletion t ⟨d.bus_num, d.device_num, 0⟩)])
      else some (d, [])
  else none

/-! ### Switches and the network -/

mutual
/-- What is attached below a port: nothing, a device, or the upstream port of a switch with its
downstream ports. The root complex is `switch host ports` with its host bridge and root ports. -/
inductive Net where
  | empty
  | device (d : Device)
  | switch (up : Bridge) (ports : Ports)
/-- The ports of a switch in the order of `downstream_port.other` (connection order), each with
what is attached to it. -/
inductive Ports where
  | nil
  | cons (b : Bridge) (below : Net) (rest : Ports)
end

/-- Where a TLP sent upstream by a component below bridge `b` goes: lines 2706-2774. -/
def Bridge.passUp (b : Bridge) : Out → Option (List Out)
  | .reply t => do
    match ← b.downstreamRecv t with
    | .handle => some [.deliver b.id t]
    | .down t _ => some [.turned b.id t]
    | .up => some [.reply t]
    | .drop => some []
  | o => some [o]

/-- All outcomes of the components below a bridge. -/
def Bridge.passUpAll (b : Bridge) : List Out → Option (List Out)
  | [] => some []
  | o :: os => do
    let x ← b.passUp o
    let y ← b.passUpAll os
    some (x ++ y)

/-- `handle_tlp` of a bridge (lines 1787-1796): configuration requests are carried out. -/
def Bridge.handle (b : Bridge) (t : Tlp) : Option (Bridge × List Out) :=
  if t.isCfg0 then do
    let (id, b, cpls) ← handleConfig0 b.id b Bridge.readConfig Bridge.writeConfig t
    some ({ b with id := id }, cpls.map .reply)
  else some (b, [.deliver b.id t])

mutual
/-- A TLP arriving from upstream at whatever is attached to a port. Nothing attached: `Port`
raises "Port not connected" (line 780). For a switch: `upstream_recv` of its upstream port, and
`route_downstream_tlp`, lines 2795-2875. -/
def Net.recv : Net → Tlp → Option (Net × List Out)
  | .empty, _ => none
  | .device d, t => do
    let (d, os) ← d.recv t
    some (.device d, os)
  | .switch up ports, t => do
    match ← up.upstreamRecv t with
    | .handle => do
      let (up, os) ← up.handle t
      some (.switch up ports, os)
    | .down t _ => do
      if t.isMsgBcast then
        let (ports, os) ← ports.broadcast t
        let os ← up.passUpAll os
        -- without any port `ok` stays false and a completion is sent
        match ports with
        | .nil => some (.switch up ports, [.reply (urCompletion t ⟨up.id.bus, up.id.device, 0⟩)])
        | _ => some (.switch up ports, os)
      else
        match ← ports.route t with
        | some (ports, os) => do
          let os ← up.passUpAll os
          some (.switch up ports, os)
        | none => some (.switch up ports, [.reply (urCompletion t ⟨up.id.bus, up.id.device, 0⟩)])
    | _ => some (.switch up ports, [])

/-- `upstream_recv` of a downstream port `b` with `below` attached to it. -/
def Ports.route : Ports → Tlp → Option (Option (Ports × List Out))
  | .nil, _ => some none
  | .cons b below rest, t => do
    if ← b.claims t then
      -- `p.ext_recv(TLP(tlp))`: `Bridge.upstream_recv` of the port
      match ← b.upstreamRecv t.copy with
      | .handle => do
        let (b, os) ← b.handle t.copy
        some (some (.cons b below rest, os))
      | .down t _ => do
        let (below, os) ← below.recv t
        let os ← b.passUpAll os
        some (some (.cons b below rest, os))
      | _ => some (some (.cons b below rest, []))
    else do
      let r ← rest.route t
      some (r.map fun (rest, os) => (.cons b below rest, os))

/-- Lines 2850-2853, a broadcast message goes to every port. -/
def Ports.broadcast : Ports → Tlp → Option (Ports × List Out)
  | .nil, _ => some (.nil, [])
  | .cons b below rest, t => do
    match ← b.upstreamRecv t.copy with
    | .down t' _ => do
      let (below, os) ← below.recv t'
      let os ← b.passUpAll os
      let (rest, os') ← rest.broadcast t
      some (.cons b below rest, os ++ os')
    | _ => do
      let (rest, os') ← rest.broadcast t
      some (.cons b below rest, os')
end

/-- `tb/pcie.py` lines 3080-3091, `Switch.next_free_device_number` on the sorted device numbers of
the endpoints. -/
def nextFreeDeviceLoop : Nat → List Nat → Option Nat
  | d, [] => if d < 32 then some d else none
  | d, e :: es => if e > d then some d else nextFreeDeviceLoop (e + 1) es

/-- `tb/pcie.py` lines 3080-3091, `Switch.next_free_device_number`. All endpoints have function
number 0 (line 3102), so sorting by device number suffices. -/
def nextFreeDevice (min_dev : Nat) (devs : List Nat) : Option Nat :=
  if devs = [] then some min_dev else nextFreeDeviceLoop min_dev (sortBy (fun x => x) devs)

end Verif.Model
