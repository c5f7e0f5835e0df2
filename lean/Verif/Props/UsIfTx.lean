import Verif.Proofs.UsIfTxHdr
import Verif.Proofs.UsIfTxRun
/-!
C98 (UltraScale descriptors from headers), C99 (packets on the UltraScale CC and RQ interfaces), C100 (progress of those
interfaces), C101 (credits and sequence numbers of requests).
-/
namespace Verif.Props
open Verif Verif.Model Verif.Proofs Verif.Spec

/-! ### C98: descriptors -/

/-- C98: the completer completion descriptor made from the header of a completion has all its fields. Partial: not for locked
completions, byte count 4096 and 1024 DWORDs, see below. -/
theorem C98_cc_desc_partial (t : TlpUs) (hdr : Nat) (h0 : Dw0Layout t.toTlp (hdrDw hdr 0))
    (h1 : CplLayout t.toTlp (hdrDw hdr 1) (hdrDw hdr 2)) (ht : t.type = 0x0A) (hl : t.length < 1024) (hb : t.byte_count < 4096) :
    CcDesc t (ccConv hdr 0) (ccConv hdr 1) (ccConv hdr 2) :=
  cc_desc t hdr h0 h1 ht hl hb

/-- C98: the requester request descriptor made from the header of a memory read or write, a locked read or an atomic
operation has all its fields. Partial: only for headers with 64-bit addresses, see below. -/
theorem C98_rq_desc_partial (t : TlpUs) (hdr : Nat) (h0 : Dw0Layout t.toTlp (hdrDw hdr 0)) (h1 : ReqDw1Layout t.toTlp (hdrDw hdr 1))
    (ha : hdrDw hdr 2 * 2 ^ 32 + hdrDw hdr 3 = t.address) (h4 : 4 ∣ t.address) (hf : t.fmt = 1 ∨ t.fmt = 3)
    (hk : (t.type = 0 ∨ t.type = 1 ∧ t.fmt = 1 ∨ (t.type = 12 ∨ t.type = 13 ∨ t.type = 14) ∧ t.fmt = 3))
    (hl : 0 < t.length ∧ t.length ≤ 1024) :
    RqDesc t (rqConv hdr 0) (rqConv hdr 1) (rqConv hdr 2) (rqConv hdr 3) :=
  rq_desc t hdr h0 h1 ha h4 hf hk hl

/-- A header of four DWORDs. -/
private def exHdr (a b c d : Nat) : Nat := ((a * 2 ^ 32 + b) * 2 ^ 32 + c) * 2 ^ 32 + d

/-- C98 fails for locked completions: the bit that tells the core so is not set, whatever the header. -/
theorem C98_locked_fails (t : TlpUs) (hdr : Nat) (ht : t.type = 0x0B) : ¬ CcDesc t (ccConv hdr 0) (ccConv hdr 1) (ccConv hdr 2) := by
  intro h
  have := h.locked
  rw [ht, if_pos rfl] at this
  unfold bits ccConv at this
  simp only [] at this
  have a1 := utxBits_lt hdr 32 7
  have a2 := utxBits_lt hdr 106 2
  have a3 := utxBits_lt hdr 64 12
  omega

/-- C98 fails for completions with byte count 4096 or 1024 DWORDs: both are 0 in the descriptor, which has one bit more for
them than the header. -/
theorem C98_large_fails (t : TlpUs) (hdr : Nat) (ht : t.byte_count = 4096 ∨ t.length = 1024) :
    ¬ CcDesc t (ccConv hdr 0) (ccConv hdr 1) (ccConv hdr 2) := by
  intro h
  have h1 := h.byte_count
  have h2 := h.length
  unfold bits ccConv at h1 h2
  simp only [] at h1 h2
  have a1 := utxBits_lt hdr 32 7
  have a2 := utxBits_lt hdr 106 2
  have a3 := utxBits_lt hdr 64 12
  have a4 := utxBits_lt hdr 96 10
  have a5 := utxBits_lt hdr 77 3
  have a6 := utxBits_lt hdr 110 1
  omega

/-- C98 fails for headers with 32-bit addresses, which have the address in DWORD 2 and no DWORD 3: it comes out as the upper
half of the address. -/
theorem C98_address32_fails (t : TlpUs) (hdr : Nat) (h2 : hdrDw hdr 2 = t.address) (_ : hdrDw hdr 3 = 0) (ha : 0 < t.address) :
    ¬ RqDesc t (rqConv hdr 0) (rqConv hdr 1) (rqConv hdr 2) (rqConv hdr 3) := by
  intro h
  have key : ∀ a b d : Nat, d = a → b * 4 + d * 2 ^ 32 = a → a = 0 := by
    clear h h2 ha
    intro a b d h1 h2
    have h3 := Nat.mul_le_mul_left d (show 2 ≤ 2 ^ 32 from by decide)
    generalize d * 2 ^ 32 = e at h2 h3
    omega
  have e : rqConv hdr 1 = hdrDw hdr 2 := rfl
  exact absurd (key _ _ _ (e.trans h2) h.address) (Nat.ne_of_gt ha)

/-- C98 fails for configuration requests: the ID of the target, in the upper half of header DWORD 2, belongs in bits 119..104
of the descriptor (PG213); they are 0, whatever the header. -/
theorem C98_config_fails (hdr : Nat) : bits (rqConv hdr 3) 23 8 = 0 := by
  unfold bits rqConv
  simp only []
  have a1 := utxBits_lt hdr 72 8
  have a2 := utxBits_lt hdr 116 3
  have a3 := utxBits_lt hdr 108 2
  have a4 := utxBits_lt hdr 114 1
  omega

/-- Messages have no request type of their own: every message (types 16 to 23) comes out as memory write. -/
theorem C98_message_fails : ∀ fmt, fmt < 4 → ∀ type, 16 ≤ type → type < 24 → rqType fmt type = 1 := by
  intro fmt hf type h1 h2
  have h : type = 16 ∨ type = 17 ∨ type = 18 ∨ type = 19 ∨ type = 20 ∨ type = 21 ∨ type = 22 ∨ type = 23 := by omega
  have hf : fmt = 0 ∨ fmt = 1 ∨ fmt = 2 ∨ fmt = 3 := by omega
  rcases hf with rfl | rfl | rfl | rfl <;> rcases h with rfl | rfl | rfl | rfl | rfl | rfl | rfl | rfl <;> decide

/-- A completion and its header meet the hypotheses. -/
private def exCplTlp : TlpUs :=
  { fmt := 2, type := 10, length := 3, byte_count := 12, lower_address := 0x40, tag := 0x21, tc := 1, attr := 5, ep := 1,
    status := 0, requester_id := ⟨1, 2, 3⟩, completer_id := ⟨4, 5, 6⟩ }

private def exCplHdr : Nat :=
  exHdr (2 * 2 ^ 29 + 10 * 2 ^ 24 + 2 ^ 20 + 2 ^ 18 + 2 ^ 14 + 2 ^ 12 + 3) (0x042e * 2 ^ 16 + 12) (0x0113 * 2 ^ 16 + 0x21 * 2 ^ 8 + 0x40) 0

example : Dw0Layout exCplTlp.toTlp (hdrDw exCplHdr 0) ∧ CplLayout exCplTlp.toTlp (hdrDw exCplHdr 1) (hdrDw exCplHdr 2) ∧
    exCplTlp.type = 0x0A ∧ exCplTlp.length < 1024 ∧ exCplTlp.byte_count < 4096 := by
  unfold Dw0Layout CplLayout
  decide +kernel

/-- A memory write of 1024 DWORDs to a 64-bit address. -/
private def exWrTlp : TlpUs :=
  { fmt := 3, type := 0, length := 1024, address := 0x123456784, first_be := 0xc, last_be := 3, tag := 0x21,
    tc := 1, attr := 5, requester_id := ⟨1, 2, 3⟩ }

private def exWrHdr : Nat :=
  exHdr (3 * 2 ^ 29 + 2 ^ 20 + 2 ^ 18 + 2 ^ 12) (0x0113 * 2 ^ 16 + 0x21 * 2 ^ 8 + 0x3c) 1 0x23456784

example : Dw0Layout exWrTlp.toTlp (hdrDw exWrHdr 0) ∧ ReqDw1Layout exWrTlp.toTlp (hdrDw exWrHdr 1) ∧
    hdrDw exWrHdr 2 * 2 ^ 32 + hdrDw exWrHdr 3 = exWrTlp.address := by
  unfold Dw0Layout ReqDw1Layout
  decide +kernel

/-! ### C99: packets -/

/-- C99: after reset, whatever the core does, the words transferred hold a beginning of the packets of the TLPs, in the order of
each port: for each TLP the descriptor and the payload without gap, `tkeep` on exactly these lanes, and a side band that
tells starts, ends, byte enables and sequence number. TLPs of the two ports of the RQ module are not mixed. Holds for
CC and RQ at 64, 128, 256 and 512 bits and for both with straddling at 512 bits. -/
theorem C99_packets (c : UtxCfg) (hc : UtxCfgOk c) (ts : Nat → List UtxTlp) (hok : UtxTlpsOk c ts) (s : Utx) (r : UtxIn)
    (hr : r.rst = true) (is : List UtxIn) (hf : UtxFeed c ts (utxStep c s r) (fun _ => 0) is) :
    ∃ ws os, UtxCarries c (utxSent c (utxStep c s r) is) ws ∧ (∀ w ∈ ws, UrxSlotsOk c.S w) ∧
      ws.flatten.filterMap id <+: utxSegs c os ∧ UtxMerge c ts os :=
  utx_safe hc hok s r hr hf

/-- C99: a word that has not been taken stays, in any state. -/
theorem C99_stable (c : UtxCfg) (st : Utx) (i : UtxIn) (hr : i.rst = false) (hv : st.tvalid = true) (ht : i.tready = false) :
    (utxStep c st i).tvalid = true ∧ (utxStep c st i).word = st.word :=
  utx_stable hr hv ht

/-! ### C100: progress -/

/-- C100: if the core takes words and there are credits, all TLPs of both ports have been transferred after as many cycles as they
have segments, and two more. -/
theorem C100_progress (c : UtxCfg) (hc : UtxCfgOk c) (ts : Nat → List UtxTlp) (hok : UtxTlpsOk c ts) (s : Utx) (r : UtxIn)
    (hr : r.rst = true) (is js : List UtxIn) (hf : UtxFeed c ts (utxStep c s r) (fun _ => 0) (is ++ js))
    (hfl : UtxFull c ts (utxRun c (utxStep c s r) is) (utxPosAfter c (utxStep c s r) (fun _ => 0) is) js)
    (hgo : ∀ j ∈ js, UtxGo j) (hlen : utxTotal c ts + 2 ≤ js.length) :
    ∃ ws os, UtxCarries c (utxSent c (utxStep c s r) (is ++ js)) ws ∧ (∀ w ∈ ws, UrxSlotsOk c.S w) ∧
      ws.flatten.filterMap id = utxSegs c os ∧ (∀ x ∈ os, x.1 < c.P) ∧ ∀ p, p < c.P → (os.filter (·.1 == p)).map (·.2) = ts p :=
  utx_progress hc hok s r hr hf hfl hgo hlen

/-! ### C101: credits and sequence numbers -/

/-- C101: no read request is started in the cycle after one with 8 or less non-posted header credits: nothing is read from its
FIFO and no packet of port 0 is under way then. -/
theorem C101_reads (c : UtxCfg) (hc : c.D = 4) (st : Utx) (i i' : UtxIn) (hi : i'.rst = false) (hn : i.nph ≤ 8)
    (hf : ¬ ((utxStep c st i).frame = true ∧ (utxStep c st i).port = 0)) :
    utxRead c (utxStep c st i) i' 0 = 0 ∧
      ¬ ((utxStep c (utxStep c st i) i').frame = true ∧ (utxStep c (utxStep c st i) i').port = 0) := by
  have h : utxCredit c (utxStep c st i) 0 = false := by
    unfold utxCredit
    rw [show c.rq = true from by unfold UtxCfg.rq; rw [hc]; rfl]
    show decide (i.nph > 8) = false
    exact decide_eq_false (by omega)
  exact ⟨(utx_credit h hf).1, (utx_credit h hf).2 hi⟩

/-- C101: no write request is started in the cycle after one with 8 or less posted header credits, or with posted data credits
for two payloads of maximum size or less. The maximum size is that of the cycle before: 8 credits (128 bytes) doubled for each
step of the setting, which counts up to 5 (4096 bytes). -/
theorem C101_writes (c : UtxCfg) (hc : c.D = 4) (st : Utx) (i0 i i' : UtxIn) (hi : i'.rst = false)
    (hn : i.ph ≤ 8 ∨ i.pd ≤ 2 * (8 * 2 ^ min i0.mps 5))
    (hf : ¬ ((utxStep c (utxStep c st i0) i).frame = true ∧ (utxStep c (utxStep c st i0) i).port = 1)) :
    utxRead c (utxStep c (utxStep c st i0) i) i' 1 = 0 ∧
      ¬ ((utxStep c (utxStep c (utxStep c st i0) i) i').frame = true ∧ (utxStep c (utxStep c (utxStep c st i0) i) i').port = 1) := by
  have h : utxCredit c (utxStep c (utxStep c st i0) i) 1 = false := by
    unfold utxCredit
    rw [show c.rq = true from by unfold UtxCfg.rq; rw [hc]; rfl]
    show (decide (i.ph > 8) && decide (i.pd > 8 * 2 ^ (if i0.mps > 5 then 5 else i0.mps) * 2)) = false
    have hm : (if i0.mps > 5 then 5 else i0.mps) = min i0.mps 5 := by split <;> omega
    rw [hm, Bool.and_eq_false_iff]
    rcases hn with hn | hn
    · left; exact decide_eq_false (by omega)
    · right; exact decide_eq_false (by omega)
  exact ⟨(utx_credit h hf).1, (utx_credit h hf).2 hi⟩

/-- C101: the sequence number that the core returns for a packet (that of `utxPacket`) comes back at the port that the TLP came
from, with the number given there, and not at the other one. -/
theorem C101_seq (Q seq p : Nat) (h : seq < 2 ^ (Q - 1)) (valid : Bool) :
    rqSeqOut (Q - 1) Q (seq + if p = 0 then 2 ^ (Q - 1) else 0) valid = ((seq, valid && p == 0), (seq, valid && p != 0)) :=
  rq_seq h valid

/-! ### Examples -/

local instance utxDecEx (o : Option (UtxTlp × Nat)) (p : UtxTlp → Nat → Prop) [∀ t n, Decidable (p t n)] :
    Decidable (∃ t n, o = some (t, n) ∧ p t n) :=
  match o with
  | some (t, n) => decidable_of_iff (p t n) ⟨fun h => ⟨t, n, rfl, h⟩, fun ⟨_, _, e, h⟩ => by cases e; exact h⟩
  | none => isFalse (fun ⟨_, _, h, _⟩ => by cases h)

local instance (W : Nat) (t : UtxTlp) (n : Nat) (g : UtxSeg) : Decidable (UtxIs W t n g) :=
  decidable_of_iff (g.sop = (n == 0) ∧ g.eop = (n + 1 == urxCount W t.payload.length) ∧ (n = 0 → g.hdr = t.hdr ∧ g.seq = t.seq) ∧
    (∀ j, j < W → g.strb j = decide (W * n + j < t.payload.length)) ∧
    ∀ j, j < W → W * n + j < t.payload.length → g.data j = t.payload.getD (W * n + j) 0)
    ⟨fun h => ⟨h.1, h.2.1, h.2.2.1, h.2.2.2.1, h.2.2.2.2⟩, fun h => ⟨h.1, h.2, h.3, h.4, h.5⟩⟩

local instance utxDecFeed (c : UtxCfg) (ts : Nat → List UtxTlp) : (st : Utx) → (pos : Nat → Nat) → (is : List UtxIn) →
    Decidable (UtxFeed c ts st pos is)
  | _, _, [] => isTrue trivial
  | st, pos, i :: is => @instDecidableAnd _ _ inferInstance (@instDecidableAnd _ _ inferInstance
      (utxDecFeed c ts (utxStep c st i) (fun p => pos p + utxRead c st i p) is))

local instance utxDecFull (c : UtxCfg) (ts : Nat → List UtxTlp) : (st : Utx) → (pos : Nat → Nat) → (is : List UtxIn) →
    Decidable (UtxFull c ts st pos is)
  | _, _, [] => isTrue trivial
  | st, pos, i :: is => @instDecidableAnd _ _ inferInstance
      (utxDecFull c ts (utxStep c st i) (fun p => pos p + utxRead c st i p) is)

/-- Requests for the example: a read and two writes of 7 and 2 DWORDs. -/
private def exRqTs (p : Nat) : List UtxTlp :=
  if p = 0 then [⟨exHdr 0x20000004 0x011321ff 1 0x1000, 5, []⟩]
  else [⟨exHdr 0x60000007 0x011322ff 1 0x2000, 6, [1, 2, 3, 4, 5, 6, 7]⟩, ⟨exHdr 0x60000002 0x011323ff 1 0x3000, 7, [8, 9]⟩]

/-- Segment `n` of a TLP at the output of a FIFO. -/
private def exSeg (W : Nat) (x : UtxTlp × Nat) : UtxSeg :=
  { hdr := x.1.hdr, seq := x.1.seq, sop := x.2 == 0, eop := x.2 + 1 == urxCount W x.1.payload.length
    data := fun j => x.1.payload.getD (W * x.2 + j) 0, strb := fun j => decide (W * x.2 + j < x.1.payload.length) }

/-- A cycle: the FIFOs have delivered `a` and `b` segments and show the next `m` and `n`. -/
private def exTx (tready : Bool) (a m b n : Nat) : UtxIn :=
  { tready := tready, avail := fun p => if p = 0 then m else n, ph := 16, pd := 600, nph := 16
    view := fun p k => exSeg 8 (((utxPieces 8 (exRqTs p))[(if p = 0 then a else b) + k]?).getD (⟨0, 0, []⟩, 0)) }

/-- The history with straddling at 512 bits: there are no credits in the first cycle; a word waits. -/
private def exTxIn : List UtxIn := [exTx true 0 1 0 0, exTx true 0 1 0 1, exTx false 1 0 0 1]
private def exTxIn' : List UtxIn :=
  [exTx true 1 0 0 2, exTx true 1 0 2 0, exTx true 1 0 2 0, exTx true 1 0 2 0, exTx true 1 0 2 0, exTx true 1 0 2 0]

/-- C99 and C100 apply to it. -/
example : UtxTlpsOk rqCfg512s exRqTs ∧
    UtxFeed rqCfg512s exRqTs (utxStep rqCfg512s {} { rst := true }) (fun _ => 0) (exTxIn ++ exTxIn') ∧
    UtxFull rqCfg512s exRqTs (utxRun rqCfg512s (utxStep rqCfg512s {} { rst := true }) exTxIn)
      (utxPosAfter rqCfg512s (utxStep rqCfg512s {} { rst := true }) (fun _ => 0) exTxIn) exTxIn' ∧
    (∀ j ∈ exTxIn', UtxGo j) ∧ utxTotal rqCfg512s exRqTs + 2 ≤ exTxIn'.length := by
  refine ⟨fun _ => ⟨by decide, fun p t ht => ?_⟩, by decide +kernel, by decide +kernel, ?_, by decide +kernel⟩
  · unfold exRqTs at ht
    split at ht
    · rw [List.mem_singleton.1 ht]; decide
    · rcases List.mem_cons.1 ht with rfl | ht
      · decide
      · rw [List.mem_singleton.1 ht]; decide
  · intro j hj
    have : j.tready = true ∧ j.ph = 16 ∧ j.pd = 600 ∧ j.nph = 16 := by
      simp only [exTxIn', List.mem_cons, List.not_mem_nil, or_false] at hj
      rcases hj with rfl | rfl | rfl | rfl | rfl | rfl <;> exact ⟨rfl, rfl, rfl, rfl⟩
    obtain ⟨h1, h2, h3, h4⟩ := this
    exact ⟨h1, by omega, by omega, by omega⟩

/-- What is transferred: the read and the beginning of the first write in one word, the end of it and the second write in the next
one. -/
example : (utxSent rqCfg512s (utxStep rqCfg512s {} { rst := true }) (exTxIn ++ exTxIn')).map
      (fun o => ((List.range 16).map fun l => if o.tkeep l then o.tdata l else 0, o.user 20 2, o.user 26 2)) =
    [([0x1000, 1, 0x1130004, 0x21, 0, 0, 0, 0, 0x2000, 1, 0x1130807, 0x22, 1, 2, 3, 4], 3, 1),
     ([5, 6, 7, 0, 0, 0, 0, 0, 0x3000, 1, 0x1130802, 0x23, 8, 9, 0, 0], 1, 3)] := by
  decide +kernel

/-- A state and inputs for C101: no packet is under way; the read in the FIFO is held back, as is the write. -/
example : ({ haveNp := true, haveP := true } : Utx).frame = false ∧
    (utxStep rqCfg512s { haveNp := true, haveP := true } { nph := 8, ph := 16, pd := 16, mps := 0 }).frame = false ∧
    utxRead rqCfg512s (utxStep rqCfg512s {} { nph := 8, ph := 8 }) (exTx true 0 1 0 1) 0 = 0 ∧
    utxRead rqCfg512s (utxStep rqCfg512s {} { nph := 9, ph := 8 }) (exTx true 0 1 0 1) 0 = 1 := by
  decide +kernel

end Verif.Props
