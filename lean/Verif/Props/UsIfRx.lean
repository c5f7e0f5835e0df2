import Verif.Proofs.UsIfRxHdr
import Verif.Proofs.UsIfRxRun
/-!
C95 (headers from UltraScale descriptors), C96 (packets from the UltraScale RC and CQ interfaces), C97 (progress of those
interfaces).
-/
namespace Verif.Props
open Verif Verif.Model Verif.Proofs Verif.Spec

/-- C95: the header made from the requester completion descriptor of a completion has the layout of the PCIe specification,
with all fields that the descriptor carries; fields without a place in the descriptor (processing hints, digest, address type,
byte count modified) are 0. -/
theorem C95_rc_header (t : TlpUs) (d0 d1 d2 be : Nat) (h : RcDesc t d0 d1 d2)
    (hk : (t.fmt = 0 ∧ t.length = 0 ∨ t.fmt = 2 ∧ 0 < t.length) ∧ (t.type = 0x0A ∨ t.type = 0x0B))
    (hla : t.lower_address < 128) :
    let hdr := (rcConv (fun k => [d0, d1, d2].getD k 0) be).hdr
    Dw0Layout { t.toTlp with th := 0, td := 0, at_ := 0 } (hdrDw hdr 0) ∧
    CplLayout { t.toTlp with bcm := 0 } (hdrDw hdr 1) (hdrDw hdr 2) ∧ hdrDw hdr 3 = 0 ∧ hdr < 2 ^ 128 :=
  rc_header t d0 d1 d2 be _ rfl rfl rfl _ rfl h hk hla

/-- C95: every error condition of the descriptor is reported by its own code; reserved codes are reported as no error. -/
theorem C95_rc_error (t : TlpUs) (d0 d1 d2 be : Nat) (h : RcDesc t d0 d1 d2) :
    (∀ e, (t.error_code, e) ∈ rcErrors → (rcConv (fun k => [d0, d1, d2].getD k 0) be).error = e) ∧
    (t.error_code ∉ rcErrors.map Prod.fst → (rcConv (fun k => [d0, d1, d2].getD k 0) be).error = 0) := by
  have h1 : urxBits (fun k => [d0, d1, d2].getD k 0) 0 12 4 = t.error_code := h.error_code
  have h2 := rc_error (fun k => [d0, d1, d2].getD k 0) be
  rw [h1] at h2
  have uniq : ∀ x ∈ rcErrors, ∀ y ∈ rcErrors, x.1 = y.1 → x = y := by decide
  rcases h2 with h2 | h2
  · refine ⟨fun e he => ?_, fun hn => absurd (List.mem_map.2 ⟨_, h2, rfl⟩) hn⟩
    have := uniq _ h2 _ he rfl
    exact congrArg Prod.snd this
  · exact ⟨fun e he => absurd (List.mem_map.2 ⟨_, he, rfl⟩) h2.1, fun _ => h2.2⟩

/-- C95: the header made from the completer request descriptor of a request other than a message: the layout of the PCIe
specification, always in the format with a 64-bit address, with BAR and function beside it. Partial: this format is wrong
for IO requests and the header of messages is wrong, see below. -/
theorem C95_cq_header_partial (t : TlpUs) (data : Bool) (d0 d1 d2 d3 be : Nat) (h : CqDesc t data d0 d1 d2 d3 be) :
    let m := cqConv (fun k => [d0, d1, d2, d3].getD k 0) be
    Dw0Layout { t.toTlp with fmt := if data then 3 else 1, th := 0, td := 0, ep := 0 } (hdrDw m.hdr 0) ∧
    ReqDw1Layout t.toTlp (hdrDw m.hdr 1) ∧ hdrDw m.hdr 2 * 2 ^ 32 + hdrDw m.hdr 3 = t.address ∧ m.hdr < 2 ^ 128 ∧
    m.bar = t.bar_id ∧ m.func = t.completer_id.function :=
  cq_header t data d0 d1 d2 d3 be _ rfl rfl rfl rfl _ rfl h

/-- C95 fails for IO requests, which PCIe has with 32-bit addresses only (format 0 and 2, PCIe base specification 2.2.7): the
format of the header is 1 or 3 for every IO request. -/
theorem C95_io_fails (t : TlpUs) (data : Bool) (d0 d1 d2 d3 be : Nat) (h : CqDesc t data d0 d1 d2 d3 be) (_ : t.type = 2) :
    bits (hdrDw (cqConv (fun k => [d0, d1, d2, d3].getD k 0) be).hdr 0) 31 29 ≠ (if data then 2 else 0) := by
  have := (C95_cq_header_partial t data d0 d1 d2 d3 be h).1.2.1
  rw [this]
  cases data <;> simp

/-- C95 fails for messages (request type 12): the message code, bits 111..104 of the descriptor, belongs in the last byte of
header DWORD 1 (PCIe base specification 2.2.8); it is dropped from the header and presented as function number. -/
theorem C95_message_fails : ∃ (d : List Nat) (be : Nat), d.length = 4 ∧ bits (d.getD 2 0) 14 11 = 12 ∧ bits (d.getD 3 0) 15 8 = 0x50 ∧
    bits (hdrDw (cqConv (fun k => d.getD k 0) be).hdr 1) 7 0 = 0 ∧ (cqConv (fun k => d.getD k 0) be).func = 0x50 :=
  ⟨[0, 0, 12 * 2 ^ 11, 0x50 * 2 ^ 8], 0, by decide +kernel⟩

example : RcDesc
    { fmt := 2, type := 10, length := 3, byte_count := 12, lower_address := 0x40, tag := 0x21, tc := 1, attr := 5, ep := 1,
      status := 0, requester_id := ⟨1, 2, 3⟩, completer_id := ⟨4, 5, 6⟩, error_code := 1 }
    (0x40 + 1 * 2 ^ 12 + 12 * 2 ^ 16) (3 + 2 ^ 14 + 0x0113 * 2 ^ 16) (0x21 + 0x042e * 2 ^ 8 + 2 ^ 25 + 5 * 2 ^ 28) := by
  constructor <;> decide

example : CqDesc
    { type := 0, length := 2, at_ := 1, address := 0x123456784, first_be := 0xc, last_be := 3, tag := 0x21,
      tc := 1, attr := 5, requester_id := ⟨1, 2, 3⟩, completer_id := ⟨0, 0, 7⟩, bar_id := 2 } true
    0x23456785 1 (2 + 1 * 2 ^ 11 + 0x0113 * 2 ^ 16) (0x21 + 7 * 2 ^ 8 + 2 * 2 ^ 16 + 2 ^ 25 + 5 * 2 ^ 28) 0x3c := by
  constructor <;> decide

/-- C96: after reset, whatever the FIFO does, the TLP segments that leave are a beginning of the packets that arrive, in
order: each packet with the header and side band of its descriptor, with its payload packed from lane 0 of its segments, with
strobes on the payload lanes only, marked at its start and end. Holds for RC and CQ at 128 bits and more, without straddling
and with (RC at 256 and 512 bits, CQ at 512 bits). Partial: with straddling CQ, a packet may start in the upper half of a
word only beside one that starts in the lower half (see below); 64-bit interfaces are not covered. -/
theorem C96_packets_partial (c : UrxCfg) (hc : UrxCfgOk c) (s : Urx) (r : UrxIn) (hr : r.rst = true) (is : List UrxIn)
    (ws : List UrxSlots) (ts : List UrxTlp) (hf : UrxFeed c is ws ts) (hp : UrxPaired c ws) :
    urxOuts c (urxStep c s r) is <+: ts.flatMap (urxOutSegs c) :=
  urx_safe hc s r hr hf hp

/-- C97: every packet leaves: the packets that have arrived completely are at the FIFO after it has been ready twice more. -/
theorem C97_progress_partial (c : UrxCfg) (hc : UrxCfgOk c) (s : Urx) (r : UrxIn) (hr : r.rst = true) (is js : List UrxIn)
    (ws : List UrxSlots) (ts us : List UrxTlp) (hf : UrxFeed c (is ++ js) ws ts) (hp : UrxPaired c ws) (hus : us <+: ts)
    (hd : us.flatMap (urxInSegs c.W) <+: (ws.take (urxTaken is).length).flatten.filterMap id)
    (hj : 2 ≤ urxReadyCount js) : us.flatMap (urxOutSegs c) <+: urxOuts c (urxStep c s r) (is ++ js) :=
  urx_progress hc s r hr hf hp hus hd hj

/-! ### Examples -/

local instance urxDecOpt (o : Option (Option UrxSeg)) (p : UrxSeg → Prop) [DecidablePred p] :
    Decidable (∀ a, o = some (some a) → p a) :=
  match o with
  | some (some a) => decidable_of_iff (p a) ⟨fun h _ e => by cases e; exact h, fun h => h a rfl⟩
  | some none => isTrue (fun _ h => by cases h)
  | none => isTrue (fun _ h => by cases h)

local instance urxDecNat (o : Option Nat) (p : Nat → Prop) [DecidablePred p] : Decidable (∀ a, o = some a → p a) :=
  match o with
  | some a => decidable_of_iff (p a) ⟨fun h _ e => by cases e; exact h, fun h => h a rfl⟩
  | none => isTrue (fun _ h => by cases h)

local instance urxDecSlots (w : UrxSlots) (p : Nat → UrxSeg → Prop) [∀ s, DecidablePred (p s)] :
    Decidable (∀ s a, w[s]? = some (some a) → p s a) :=
  decidable_of_iff (∀ s, s < w.length → ∀ a, w[s]? = some (some a) → p s a) <| by
    refine ⟨fun h s a hs => ?_, fun h s _ => h s⟩
    refine h s ?_ a hs
    rcases Nat.lt_or_ge s w.length with h' | h'
    · exact h'
    · rw [List.getElem?_eq_none h'] at hs; exact absurd hs (by simp)

local instance urxDecEx (o : Option (Option UrxSeg)) (p : UrxSeg → Prop) [DecidablePred p] :
    Decidable (∃ a, o = some (some a) ∧ p a) :=
  match o with
  | some (some a) => decidable_of_iff (p a) ⟨fun h => ⟨a, rfl, h⟩, fun ⟨_, e, h⟩ => by cases e; exact h⟩
  | some none => isFalse (fun ⟨_, h, _⟩ => by cases h)
  | none => isFalse (fun ⟨_, h, _⟩ => by cases h)

local instance urxDecEx' (o : Option (Option UrxSeg)) : Decidable (∃ a, o = some (some a)) :=
  match o with
  | some (some a) => isTrue ⟨a, rfl⟩
  | some none => isFalse (fun ⟨_, h⟩ => by cases h)
  | none => isFalse (fun ⟨_, h⟩ => by cases h)

local instance (i : UrxIn) (l : List Nat) (k v lo n : Nat) : Decidable (UrxMark i l k v lo n) := by
  unfold UrxMark; infer_instance

local instance (c : UrxCfg) (i : UrxIn) (w : UrxSlots) : Decidable (UrxCarry c i w) := by
  unfold UrxCarry
  refine @instDecidableAnd _ _ inferInstance ?_
  cases c.mode <;> simp only [] <;> try infer_instance
  refine @instDecidableAnd _ _ inferInstance (@instDecidableAnd _ _ inferInstance ?_)
  exact decidable_of_iff (∀ k, k < 2 → ∀ b, (urxBes w)[k]? = some b → i.user (k * 4) 4 + i.user (8 + k * 4) 4 * 16 = b)
    ⟨fun h k b h1 h2 => h k h1 b h2, fun h k h1 b h2 => h k b h1 h2⟩

local instance urxDecCarries (c : UrxCfg) : (is : List UrxIn) → (ws : List UrxSlots) → Decidable (UrxCarries c is ws)
  | [], [] => isTrue trivial
  | [], _ :: _ => isFalse id
  | _ :: _, [] => isFalse id
  | i :: is, w :: ws => @instDecidableAnd _ _ inferInstance (urxDecCarries c is ws)

local instance (S : Nat) (w : UrxSlots) : Decidable (UrxSlotsOk S w) :=
  decidable_of_iff (w.length = S ∧ (∃ a, w[0]? = some (some a)) ∧
    ∀ s a, w[s]? = some (some a) → a.last = false → s + 1 < S → ∃ b, w[s + 1]? = some (some b))
    ⟨fun h => ⟨h.1, h.2.1, h.2.2⟩, fun h => ⟨h.1, h.2, h.3⟩⟩

local instance (c : UrxCfg) (is : List UrxIn) (ws : List UrxSlots) (ts : List UrxTlp) : Decidable (UrxFeed c is ws ts) :=
  decidable_of_iff ((∀ i ∈ is, i.rst = false) ∧ UrxCarries c (urxTaken is) ws ∧ (∀ w ∈ ws, UrxSlotsOk c.S w) ∧
    (∀ t ∈ ts, t.desc.length = c.D) ∧ (ws.flatten.filterMap id) <+: ts.flatMap (urxInSegs c.W))
    ⟨fun h => ⟨h.1, h.2.1, h.2.2.1, h.2.2.2.1, h.2.2.2.2⟩, fun h => ⟨h.1, h.2, h.3, h.4, h.5⟩⟩

/-- Completions for the example: with 3, 0 and 5 DWORDs of payload. -/
private def exRc : List UrxTlp :=
  [⟨[0x000c0000, 0x01130003, 0x00042e21], 0, [11, 12, 13]⟩, ⟨[0x00040000, 0x01130000, 0x00042e22], 0, []⟩,
   ⟨[0x00140000, 0x01130005, 0x00042e23], 0, [21, 22, 23, 24, 25]⟩]

/-- Their words at 256 bits with straddling: the third one starts in the second half of the second word. -/
private def exRcWords : List UrxSlots :=
  let s := exRc.flatMap (urxInSegs 4)
  [[s[0]?, s[1]?], [s[2]?, s[3]?], [s[4]?, none]]

/-- A cycle with a word. -/
private def exIn (ready : Bool) (W : Nat) (w : UrxSlots) (tuser : Nat) : UrxIn :=
  { ready := ready, tvalid := true, tuser := tuser
    tdata := fun l => match w[l / W]? with | some (some a) => a.dws.getD (l % W) 0 | _ => 0 }

/-- The history: words wait while the FIFO is not ready; there is a pause in the middle of the third packet. -/
private def exRcIn : List UrxIn :=
  [exIn false 4 exRcWords[0] (2 ^ 32 + 2 ^ 34 + 5 * 2 ^ 35), exIn true 4 exRcWords[0] (2 ^ 32 + 2 ^ 34 + 5 * 2 ^ 35),
   exIn true 4 exRcWords[1] (2 ^ 32 + 2 ^ 33 + 2 ^ 34 + 2 * 2 ^ 35), { ready := true }, { ready := false },
   exIn true 4 exRcWords[2] (2 ^ 34 + 3 * 2 ^ 35)]

/-- C96 and C97 apply to it. -/
example : UrxFeed rcCfg256 (exRcIn ++ [{ ready := true }, { ready := false }, { ready := true }]) exRcWords exRc ∧ UrxPaired rcCfg256 exRcWords ∧
    exRc.flatMap (urxInSegs 4) <+: (exRcWords.take (urxTaken exRcIn).length).flatten.filterMap id ∧
    2 ≤ urxReadyCount [{ ready := true }, { ready := false }, { ready := true }] := by
  refine ⟨by decide +kernel, (fun h => by cases h), by decide +kernel, by decide⟩

/-- What comes out. -/
example : (urxOuts rcCfg256 (urxStep rcCfg256 {} { rst := true }) (exRcIn ++ [{ ready := true }, { ready := false }, { ready := true }])).map
      (fun o => (o.sop, o.eop, o.info.isSome, o.lanes)) =
    [(true, true, true, [some 11, some 12, some 13, none]), (true, true, true, [none, none, none, none]),
     (true, false, true, [some 21, some 22, some 23, some 24]), (false, true, false, [some 25, none, none, none])] := by
  decide +kernel

/-- Requests for the example: a write of 16 DWORDs and one of 2 DWORDs. -/
private def exCq : List UrxTlp :=
  [⟨[0x1000, 0, 0x01130810, 0x21], 0xff, List.range 16⟩, ⟨[0x2000, 0, 0x01130802, 0x22], 0xff, [1, 2]⟩]

/-- Their words at 512 bits with straddling: the second one starts in the upper half of the second word. -/
private def exCqWords : List UrxSlots :=
  let s := exCq.flatMap (urxInSegs 8)
  [[s[0]?, s[1]?], [s[2]?, s[3]?]]

private def exCqIn : List UrxIn :=
  [exIn true 8 exCqWords[0] (0xf + 0xf * 2 ^ 8 + 2 ^ 80),
   exIn true 8 exCqWords[1] (0xf + 0xf * 2 ^ 8 + 2 ^ 80 + 2 * 2 ^ 82 + 3 * 2 ^ 86 + 3 * 2 ^ 88 + 13 * 2 ^ 92),
   { ready := true }, { ready := true }]

/-- C96 fails without the restriction: with straddling at 512 bits, the byte enables of a CQ packet that starts in the upper half of a
word are taken from the side band fields for the second packet of the word. If it is the first to start there, because the
lower half holds the end of the packet before, its header has wrong byte enables (here 0 instead of 0xff). -/
theorem C96_byte_enables_fails : ∃ is ws ts, UrxFeed cqCfg512s is ws ts ∧
    ¬ urxOuts cqCfg512s (urxStep cqCfg512s {} { rst := true }) is <+: ts.flatMap (urxOutSegs cqCfg512s) ∧
    ((urxOuts cqCfg512s (urxStep cqCfg512s {} { rst := true }) is).filterMap (·.info)).map
      (fun m => bits (hdrDw m.hdr 1) 7 0) = [0xff, 0] :=
  ⟨exCqIn, exCqWords, exCq, by decide +kernel, by decide +kernel, by decide +kernel⟩

/-- The same packets in three words, so that no packet starts beside the end of another: C96 applies. -/
private def exCqWords' : List UrxSlots :=
  let s := exCq.flatMap (urxInSegs 8)
  [[s[0]?, s[1]?], [s[2]?, none], [s[3]?, none]]

private def exCqIn' : List UrxIn :=
  [exIn true 8 exCqWords'[0] (0xf + 0xf * 2 ^ 8 + 2 ^ 80),
   exIn true 8 exCqWords'[1] (2 ^ 86 + 3 * 2 ^ 88),
   exIn true 8 exCqWords'[2] (0xf + 0xf * 2 ^ 8 + 2 ^ 80 + 2 ^ 86 + 5 * 2 ^ 88), { ready := true }, { ready := true }]

example : UrxFeed cqCfg512s exCqIn' exCqWords' exCq ∧ UrxPaired cqCfg512s exCqWords' :=
  ⟨by decide +kernel, fun _ => by decide +kernel⟩

end Verif.Props
