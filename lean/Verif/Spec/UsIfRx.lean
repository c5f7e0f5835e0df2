import Verif.Model.UsIfRx
import Verif.Spec.Us
/-!
Specification for the UltraScale RC and CQ interfaces (C95-C97): TLPs, how they are laid out on the AXI stream (Xilinx
PG156, PG213) and how they are to appear at the output.
-/
namespace Verif.Spec
open Verif.Model

/-- A packet on the AXI stream: descriptor, byte enables of the first (low half) and of the last DWORD, payload DWORDs. -/
structure UrxTlp where
  desc : List Nat
  be : Nat
  payload : List Nat
deriving DecidableEq, Repr

/-- The part of a packet that occupies one segment of a word. -/
structure UrxSeg where
  first : Bool
  last : Bool
  dws : List Nat
  be : Nat
deriving DecidableEq, Repr

/-- How many pieces of at most `W` DWORDs `n` DWORDs need; at least one. -/
def urxCount (W n : Nat) : Nat := (n - 1) / W + 1

/-- A packet on the AXI stream: descriptor and payload, `W` DWORDs per segment. -/
def urxInSegs (W : Nat) (t : UrxTlp) : List UrxSeg :=
  let x := t.desc ++ t.payload
  (List.range (urxCount W x.length)).map fun i =>
    { first := i == 0, last := i + 1 == urxCount W x.length, dws := (x.drop (W * i)).take W, be := t.be }

/-- The packet as TLP segments: header, error code etc. with the first one, the payload packed from lane 0, `W` DWORDs per
segment, strobes exactly on the lanes with payload. A TLP without payload has one segment without strobes. -/
def urxOutSegs (c : UrxCfg) (t : UrxTlp) : List UrxOut :=
  (List.range (urxCount c.W t.payload.length)).map fun i =>
    { sop := i == 0, eop := i + 1 == urxCount c.W t.payload.length
      info := if i = 0 then some (c.conv (fun k => t.desc.getD k 0) t.be) else none
      lanes := (List.range c.W).map fun j => t.payload[c.W * i + j]? }

/-- The contents of a word of the AXI stream: for each segment the part of a packet in it, if any. -/
abbrev UrxSlots := List (Option UrxSeg)

/-- The rules for placing packets: a word has `S` segments, the first one is used, and a packet that does not end in a
segment goes on in the next one. -/
structure UrxSlotsOk (S : Nat) (w : UrxSlots) : Prop where
  len : w.length = S
  used : ∃ a, w[0]? = some (some a)
  consecutive : ∀ s a, w[s]? = some (some a) → a.last = false → s + 1 < S → ∃ b, w[s + 1]? = some (some b)

/-- The segments of a word in which packets start. -/
def urxStarts (w : UrxSlots) : List Nat :=
  (List.range w.length).filter fun s => match w[s]? with
    | some (some a) => a.first
    | _ => false

/-- The lanes in which packets end. -/
def urxEnds (W : Nat) (w : UrxSlots) : List Nat :=
  (List.range w.length).filterMap fun s => match w[s]? with
    | some (some a) => if a.last then some (W * s + (a.dws.length - 1)) else none
    | _ => none

/-- The byte enables of the packets that start in a word. -/
def urxBes (w : UrxSlots) : List Nat :=
  w.filterMap fun x => match x with
    | some a => if a.first then some a.be else none
    | none => none

/-- Entry `k` of a list announced in `tuser`: bit `v` says that there is one, `n` bits from `lo` on hold it. -/
def UrxMark (i : UrxIn) (l : List Nat) (k v lo n : Nat) : Prop :=
  i.user v 1 = (if k < l.length then 1 else 0) ∧ ∀ x, l[k]? = some x → i.user lo n = x

/-- The cycle `i` carries a word with contents `w`. Without straddling one packet at a time: `tkeep` marks the used lanes,
`tlast` the last word, and the byte enables come with the first word. With straddling `tuser` lists the packets that start
and those that end in this word, in order: `is_sof`, `is_sop`, `is_eof`, `is_eop`, positions of starts in units of 4 lanes,
of ends in lanes, and the byte enables of the packets in the order in which they start. Only the CQ interface, whose
descriptors have 4 DWORDs, has byte enables. -/
def UrxCarry (c : UrxCfg) (i : UrxIn) (w : UrxSlots) : Prop :=
  (∀ s a, w[s]? = some (some a) → ∀ j, j < a.dws.length → i.tdata (c.W * s + j) = a.dws.getD j 0) ∧
  match c.mode with
  | .plain => ∀ a, w[0]? = some (some a) → (∀ j, j < c.W → i.tkeep j = decide (j < a.dws.length)) ∧ i.tlast = a.last ∧
      (a.first = true → c.D = 4 → i.user 0 8 = a.be)
  | .plain512 => ∀ a, w[0]? = some (some a) → (∀ j, j < c.W → i.tkeep j = decide (j < a.dws.length)) ∧ i.tlast = a.last ∧
      (a.first = true → i.user 0 4 + i.user 8 4 * 16 = a.be)
  | .rc256 =>
      i.user 32 1 = (if 0 < (urxStarts w).length then 1 else 0) ∧
      i.user 33 1 = (if 1 < (urxStarts w).length then 1 else 0) ∧
      ∀ k, k < 2 → UrxMark i (urxEnds c.W w) k (34 + k * 4) (35 + k * 4) 3
  | .rc512 =>
      (∀ k, k < 4 → UrxMark i (urxStarts w) k (64 + k) (68 + k * 2) 2) ∧
      ∀ k, k < 4 → UrxMark i (urxEnds c.W w) k (76 + k) (80 + k * 4) 4
  | .cq512 =>
      (∀ k, k < 2 → UrxMark i ((urxStarts w).map (2 * ·)) k (80 + k) (82 + k * 2) 2) ∧
      (∀ k, k < 2 → UrxMark i (urxEnds c.W w) k (86 + k) (88 + k * 4) 4) ∧
      ∀ k b, k < 2 → (urxBes w)[k]? = some b → i.user (k * 4) 4 + i.user (8 + k * 4) 4 * 16 = b

/-- The configurations of the RC module: 128 bits and more without straddling (one segment), or straddling at 256 and 512
bits. -/
def rcCfg (W : Nat) : UrxCfg := ⟨W, 1, 3, .plain, rcConv⟩
def rcCfg256 : UrxCfg := ⟨4, 2, 3, .rc256, rcConv⟩
def rcCfg512 : UrxCfg := ⟨4, 4, 3, .rc512, rcConv⟩

/-- The configurations of the CQ module: without straddling up to 256 bits and with 512 bits, and straddling at 512 bits. -/
def cqCfg (W : Nat) : UrxCfg := ⟨W, 1, 4, .plain, cqConv⟩
def cqCfg512 : UrxCfg := ⟨16, 1, 4, .plain512, cqConv⟩
def cqCfg512s : UrxCfg := ⟨8, 2, 4, .cq512, cqConv⟩

/-- A configuration of one of the two modules with at least 128 bits. -/
inductive UrxCfgOk : UrxCfg → Prop
  | rc (W) : 4 ≤ W → UrxCfgOk (rcCfg W)
  | rc256 : UrxCfgOk rcCfg256
  | rc512 : UrxCfgOk rcCfg512
  | cq (W) : 4 ≤ W → UrxCfgOk (cqCfg W)
  | cq512 : UrxCfgOk cqCfg512
  | cq512s : UrxCfgOk cqCfg512s

/-- The cycles `is` carry the words `ws`, one each. -/
def UrxCarries (c : UrxCfg) : List UrxIn → List UrxSlots → Prop
  | [], [] => True
  | i :: is, w :: ws => UrxCarry c i w ∧ UrxCarries c is ws
  | _, _ => False

/-- The history `is` delivers the words `ws`, the beginning of the packets `ts`. -/
structure UrxFeed (c : UrxCfg) (is : List UrxIn) (ws : List UrxSlots) (ts : List UrxTlp) : Prop where
  norst : ∀ i ∈ is, i.rst = false
  carry : UrxCarries c (urxTaken is) ws
  ok : ∀ w ∈ ws, UrxSlotsOk c.S w
  desc : ∀ t ∈ ts, t.desc.length = c.D
  part : (ws.flatten.filterMap id) <+: ts.flatMap (urxInSegs c.W)

/-- With straddling in the CQ interface a packet starts in the upper half of a word only if one starts in the lower half. -/
def UrxPaired (c : UrxCfg) (ws : List UrxSlots) : Prop :=
  c.mode = .cq512 → ∀ w ∈ ws, ∀ b, w[1]? = some (some b) → b.first = true → ∃ a, w[0]? = some (some a) ∧ a.first = true

/-- The number of cycles in which the FIFO is ready. -/
def urxReadyCount (is : List UrxIn) : Nat := (is.filter (·.ready)).length

/-! ### Descriptors -/

/-- DWORD `k` of a 128-bit TLP header; DWORD 0 is the one sent first. -/
def hdrDw (hdr k : Nat) : Nat := hdr / 2 ^ (32 * (3 - k)) % 2 ^ 32

/-- The requester completion descriptor of a completion (PG213, requester completion descriptor format). -/
structure RcDesc (t : TlpUs) (d0 d1 d2 : Nat) : Prop where
  lower_address : bits d0 11 0 = t.lower_address
  error_code : bits d0 15 12 = t.error_code
  byte_count : bits d0 28 16 = t.byte_count
  locked : bits d0 29 29 = (if t.type = 0x0B then 1 else 0)
  length : bits d1 10 0 = t.length
  status : bits d1 13 11 = t.status
  poisoned : bits d1 14 14 = t.ep
  requester_id : bits d1 31 16 = idBits t.requester_id
  tag : bits d2 7 0 = t.tag
  completer_id : bits d2 23 8 = idBits t.completer_id
  tc : bits d2 27 25 = t.tc
  attr : bits d2 30 28 = t.attr

/-- Error code of the descriptor (PG213) and the code for the same condition on the TLP interface: none, poisoned, bad
completion status, length mismatch, requester or attribute mismatch, address mismatch, unknown tag, function level reset,
timeout. -/
def rcErrors : List (Nat × Nat) := [(0, 0), (1, 1), (2, 2), (3, 4), (4, 3), (5, 5), (6, 6), (8, 8), (9, 15)]

/-- Request type code, whether there is a payload, and TLP type: memory read and write, IO read and write, fetch and add,
swap, compare and swap, locked read (PG213, completer request descriptor; PCIe base specification, table 2-3). -/
def cqKinds : List (Nat × Bool × Nat) :=
  [(0, false, 0), (1, true, 0), (2, false, 2), (3, true, 2), (4, true, 12), (5, true, 13), (6, true, 14), (7, false, 1)]

/-- The completer request descriptor of a request other than a message, with the byte enables from the side band. -/
structure CqDesc (t : TlpUs) (data : Bool) (d0 d1 d2 d3 be : Nat) : Prop where
  at_ : bits d0 1 0 = t.at_
  address : d0 / 4 * 4 + d1 * 2 ^ 32 = t.address
  length : bits d2 10 0 = t.length
  kind : (bits d2 14 11, data, t.type) ∈ cqKinds
  requester_id : bits d2 31 16 = idBits t.requester_id
  tag : bits d3 7 0 = t.tag
  function : bits d3 15 8 = t.completer_id.function
  bar_id : bits d3 18 16 = t.bar_id
  tc : bits d3 27 25 = t.tc
  attr : bits d3 30 28 = t.attr
  dwords : d0 < 2 ^ 32 ∧ d1 < 2 ^ 32
  first_be : bits be 3 0 = t.first_be
  last_be : bits be 7 4 = t.last_be

end Verif.Spec
