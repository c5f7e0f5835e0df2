import Verif.Model.UsIfTx
import Verif.Spec.UsIfRx
/-!
Specification for the UltraScale CC and RQ interfaces (C98-C101). Packets on the AXI stream, their division into segments
and the placement of segments in words are those of `Spec.UsIfRx` (`UrxTlp`, `urxInSegs`, `UrxSlotsOk`); they are the same
in both directions (Xilinx PG156, PG213).
-/
namespace Verif.Spec
open Verif.Model

/-- A TLP at the input: header (128 bits), sequence number, payload DWORDs. -/
structure UtxTlp where
  hdr : Nat
  seq : Nat := 0
  payload : List Nat
deriving DecidableEq, Repr

/-- The packet for a TLP from port `p`: the descriptor, and for requests (`be`) the byte enables from the header, above them
the sequence number, whose highest bit (`Q - 1`) tells reads (port 0) from writes. -/
def utxPacket (c : UtxCfg) (p : Nat) (t : UtxTlp) : UrxTlp where
  desc := (List.range c.D).map (c.conv t.hdr)
  be := if c.D = 4 then bits (hdrDw t.hdr 1) 7 0 + 256 * (t.seq + if p = 0 then 2 ^ (c.Q - 1) else 0) else 0
  payload := t.payload

/-- The segments of TLPs in order: TLP and number of the segment. -/
def utxPieces (W : Nat) (ts : List UtxTlp) : List (UtxTlp × Nat) :=
  ts.flatMap fun t => (List.range (urxCount W t.payload.length)).map fun n => (t, n)

/-- `g` is segment `n` of `t`: header and sequence number come with the first segment, the payload is packed from lane 0 on,
strobes mark it, the last segment is marked. -/
structure UtxIs (W : Nat) (t : UtxTlp) (n : Nat) (g : UtxSeg) : Prop where
  sop : g.sop = (n == 0)
  eop : g.eop = (n + 1 == urxCount W t.payload.length)
  hdr : n = 0 → g.hdr = t.hdr ∧ g.seq = t.seq
  strb : ∀ j, j < W → g.strb j = decide (W * n + j < t.payload.length)
  data : ∀ j, j < W → W * n + j < t.payload.length → g.data j = t.payload.getD (W * n + j) 0

/-- The FIFOs deliver the TLPs `ts p`: in every cycle each shows some of the segments not read so far, in order. `pos p`
segments have been read before. There is no reset. -/
def UtxFeed (c : UtxCfg) (ts : Nat → List UtxTlp) : Utx → (Nat → Nat) → List UtxIn → Prop
  | _, _, [] => True
  | st, pos, i :: is => i.rst = false ∧
    (∀ p, p < c.P → ∀ k, k < i.avail p → ∃ t n, (utxPieces c.W (ts p))[pos p + k]? = some (t, n) ∧
      UtxIs c.W t n (i.view p k)) ∧
    UtxFeed c ts (utxStep c st i) (fun p => pos p + utxRead c st i p) is

/-- How many segments of each port have been read after a history, `pos` before it. -/
def utxPosAfter (c : UtxCfg) : Utx → (Nat → Nat) → List UtxIn → (Nat → Nat)
  | _, pos, [] => pos
  | st, pos, i :: is => utxPosAfter c (utxStep c st i) (fun p => pos p + utxRead c st i p) is

/-- The FIFOs always show as many of the segments not read so far as fit. -/
def UtxFull (c : UtxCfg) (ts : Nat → List UtxTlp) : Utx → (Nat → Nat) → List UtxIn → Prop
  | _, _, [] => True
  | st, pos, i :: is =>
    (∀ p, p < c.P → min c.S ((utxPieces c.W (ts p)).length - pos p) ≤ i.avail p) ∧
    UtxFull c ts (utxStep c st i) (fun p => pos p + utxRead c st i p) is

/-- What TLPs have to satisfy: read requests have no payload, sequence numbers leave the highest bit free. -/
def UtxTlpsOk (c : UtxCfg) (ts : Nat → List UtxTlp) : Prop :=
  c.D = 4 → (∀ t ∈ ts 0, t.payload = []) ∧ ∀ p, ∀ t ∈ ts p, t.seq < 2 ^ (c.Q - 1)

/-- Entry `k` of a list announced in `tuser`: bit `v` says that there is one, `n` bits from `lo` on hold it. -/
def UtxMark (o : UtxWord) (l : List Nat) (k v lo n : Nat) : Prop :=
  o.user v 1 = (if k < l.length then 1 else 0) ∧ ∀ x, l[k]? = some x → o.user lo n = x

/-- The word `o` of the AXI stream has contents `w`: data in the lanes of the segments, `tkeep` on exactly these lanes.
Without straddling `tlast` marks the last word of a packet; with straddling `tuser` lists the packets that start and those
that end, with positions of starts in units of 4 lanes and of ends in lanes. Requests have byte enables and sequence number
in `tuser` of the word in which they start. The bit `discontinue` is never set. -/
def UtxCarry (c : UtxCfg) (o : UtxWord) (w : UrxSlots) : Prop :=
  (∀ s a, w[s]? = some (some a) → ∀ j, j < a.dws.length → o.tdata (c.W * s + j) = a.dws.getD j 0) ∧
  (∀ s, s < c.S → ∀ j, j < c.W → o.tkeep (c.W * s + j) = ((w.getD s none).elim false fun a => decide (j < a.dws.length))) ∧
  match c.mode, c.rq with
  | .plain, false => (∀ a, w[0]? = some (some a) → o.tlast = a.last) ∧ o.user 0 1 = 0
  | .plain, true => (∀ a, w[0]? = some (some a) → o.tlast = a.last ∧ (a.first = true → o.user 0 8 = a.be % 256 ∧
      o.user 24 4 + (if c.Q = 6 then o.user 60 2 * 16 else 0) = a.be / 256)) ∧ o.user 11 1 = 0
  | .plain512, false => (∀ a, w[0]? = some (some a) → o.tlast = a.last) ∧ o.user 16 1 = 0
  | .plain512, true => (∀ a, w[0]? = some (some a) → o.tlast = a.last ∧ (a.first = true →
      o.user 0 4 + o.user 8 4 * 16 = a.be % 256 ∧ o.user 61 6 = a.be / 256)) ∧ o.user 36 1 = 0
  | .straddle, false =>
      (∀ k, k < 2 → UtxMark o ((urxStarts w).map (2 * ·)) k k (2 + k * 2) 2) ∧
      (∀ k, k < 2 → UtxMark o (urxEnds c.W w) k (6 + k) (8 + k * 4) 4) ∧ o.user 16 1 = 0
  | .straddle, true =>
      (∀ k, k < 2 → UtxMark o ((urxStarts w).map (2 * ·)) k (20 + k) (22 + k * 2) 2) ∧
      (∀ k, k < 2 → UtxMark o (urxEnds c.W w) k (26 + k) (28 + k * 4) 4) ∧
      (∀ k b, k < 2 → (urxBes w)[k]? = some b → o.user (k * 4) 4 + o.user (8 + k * 4) 4 * 16 = b % 256 ∧
        o.user (61 + k * 6) 6 = b / 256) ∧ o.user 36 1 = 0

/-- The words `os` have the contents `ws`, one each. -/
def UtxCarries (c : UtxCfg) : List UtxWord → List UrxSlots → Prop
  | [], [] => True
  | o :: os, w :: ws => UtxCarry c o w ∧ UtxCarries c os ws
  | _, _ => False

/-- The configurations of the CC module: without straddling (64 bits, 128 bits and more, 512 bits) and straddling at 512
bits. -/
def ccCfg (W : Nat) : UtxCfg := ⟨W, 1, 3, 0, .plain, ccConv⟩
def ccCfg512 : UtxCfg := ⟨16, 1, 3, 0, .plain512, ccConv⟩
def ccCfg512s : UtxCfg := ⟨8, 2, 3, 0, .straddle, ccConv⟩

/-- The configurations of the RQ module; sequence numbers have 4 or 6 bits, with 512 bits always 6. -/
def rqCfg (W Q : Nat) : UtxCfg := ⟨W, 1, 4, Q, .plain, rqConv⟩
def rqCfg512 : UtxCfg := ⟨16, 1, 4, 6, .plain512, rqConv⟩
def rqCfg512s : UtxCfg := ⟨8, 2, 4, 6, .straddle, rqConv⟩

/-- A configuration of one of the two modules. -/
inductive UtxCfgOk : UtxCfg → Prop
  | cc (W) : W = 2 ∨ 4 ≤ W → UtxCfgOk (ccCfg W)
  | cc512 : UtxCfgOk ccCfg512
  | cc512s : UtxCfgOk ccCfg512s
  | rq (W Q) : W = 2 ∨ 4 ≤ W → Q = 4 ∨ Q = 6 → UtxCfgOk (rqCfg W Q)
  | rq512 : UtxCfgOk rqCfg512
  | rq512s : UtxCfgOk rqCfg512s

/-- `os` merges beginnings of the streams `ts p`: TLPs with the port they come from, the TLPs of each port in order. -/
def UtxMerge (c : UtxCfg) (ts : Nat → List UtxTlp) (os : List (Nat × UtxTlp)) : Prop :=
  (∀ x ∈ os, x.1 < c.P) ∧ ∀ p, p < c.P → (os.filter (·.1 == p)).map (·.2) <+: ts p

/-- The packets of merged TLPs, in segments. -/
def utxSegs (c : UtxCfg) (os : List (Nat × UtxTlp)) : List UrxSeg :=
  os.flatMap fun x => urxInSegs c.W (utxPacket c x.1 x.2)

/-- The number of segments that the TLPs occupy on the AXI stream. -/
def utxTotal (c : UtxCfg) (ts : Nat → List UtxTlp) : Nat :=
  (((List.range c.P).flatMap ts).map fun t => urxCount c.W (c.D + t.payload.length)).sum

/-- The sink takes a word and there are plenty of credits. -/
def UtxGo (i : UtxIn) : Prop := i.tready = true ∧ 8 < i.ph ∧ 512 < i.pd ∧ 8 < i.nph

/-! ### Descriptors -/

/-- The completer completion descriptor of a completion (PG213, completer completion descriptor format): 13 bits of byte count
and 11 bits of DWORD count, so that 4096 bytes and 1024 DWORDs have their own codes. The completer ID is the core's. -/
structure CcDesc (t : TlpUs) (d0 d1 d2 : Nat) : Prop where
  lower_address : bits d0 6 0 = t.lower_address
  at_ : bits d0 9 8 = t.at_
  byte_count : bits d0 28 16 = t.byte_count
  locked : bits d0 29 29 = (if t.type = 0x0B then 1 else 0)
  length : bits d1 10 0 = t.length
  status : bits d1 13 11 = t.status
  poisoned : bits d1 14 14 = t.ep
  requester_id : bits d1 31 16 = idBits t.requester_id
  tag : bits d2 7 0 = t.tag
  completer_id : bits d2 23 8 = idBits t.completer_id
  tc : bits d2 27 25 = t.tc
  attr : bits d2 30 28 = t.attr
  reserved : bits d0 7 7 = 0 ∧ bits d0 15 10 = 0 ∧ bits d0 31 30 = 0 ∧ bits d1 15 15 = 0
  disabled : bits d2 24 24 = 0 ∧ bits d2 31 31 = 0
  dwords : d0 < 2 ^ 32 ∧ d1 < 2 ^ 32 ∧ d2 < 2 ^ 32

/-- TLP type, whether there is a payload, and request type code: memory read and write, IO read and write, fetch and add,
swap, compare and swap, locked read, configuration read and write of type 0 and 1 (PG213, requester request descriptor; PCIe
base specification, table 2-3). -/
def rqKinds : List (Nat × Bool × Nat) :=
  [(0, false, 0), (0, true, 1), (2, false, 2), (2, true, 3), (12, true, 4), (13, true, 5), (14, true, 6), (1, false, 7),
   (4, false, 8), (4, true, 10), (5, false, 9), (5, true, 11)]

/-- The requester request descriptor of a request with an address (PG213). The requester ID is the core's. -/
structure RqDesc (t : TlpUs) (d0 d1 d2 d3 : Nat) : Prop where
  at_ : bits d0 1 0 = t.at_
  address : bits d0 31 2 * 4 + d1 * 2 ^ 32 = t.address
  length : bits d2 10 0 = t.length
  kind : (t.type, decide (t.fmt = 2 ∨ t.fmt = 3), bits d2 14 11) ∈ rqKinds
  poisoned : bits d2 15 15 = t.ep
  requester_id : bits d2 31 16 = idBits t.requester_id
  tag : bits d3 7 0 = t.tag
  tc : bits d3 27 25 = t.tc
  attr : bits d3 30 28 = t.attr
  disabled : bits d3 23 8 = 0 ∧ bits d3 24 24 = 0 ∧ bits d3 31 31 = 0
  dwords : d0 < 2 ^ 32 ∧ d1 < 2 ^ 32 ∧ d2 < 2 ^ 32 ∧ d3 < 2 ^ 32

end Verif.Spec
