import Verif.Proofs.AxisDemux
/-! C52: the PCIe AXI stream demultiplexers deliver whole packets to the selected output. -/
namespace Verif.Props
open Verif Verif.Model Verif.Spec Verif.Proofs

/-- **C52**, word-parallel demultiplexers. After a reset, for every history in which nothing is dropped, or in which
the outputs are always ready: what output `p` has handed over is, word for word and in order, what the accepted
packets destined for `p` consist of, except for at most two words that are still inside. Missing from the full
property: histories with dropped packets and back-pressure, for which it fails (`C52_route_fails`). -/
theorem C52_route_partial {α : Type} (c : ADemuxCfg α) (s : ADemux α) (r : ADemuxIn α) (hr : r.rst = true)
    (is : List (ADemuxIn α)) (hi : ∀ i ∈ is, i.rst = false)
    (hs : NothingDropped c.ports is ∨ AlwaysReady c.ports is) (p : Nat) :
    ∃ inside, inside.length ≤ 2 ∧
      routedFirst c.ports c.last p none (adAccepted c (adStep c s r) is) = adForwarded c p (adStep c s r) is ++ inside := by
  obtain ⟨h, hf, hq⟩ := ad_reset c s r hr
  have e := ad_run c p is (adStep c s r) hi h (hs.imp (fun hn => ⟨h.idle hf, hn⟩) id)
  rw [adCur, hf, skidPort, hq] at e
  exact ⟨_, skidPort_length p _, by simpa [ofPort] using e⟩

/-- **C52**: nothing is accepted in a cycle without `enable`, in both variants. -/
theorem C52_enable {α : Type} (c : ADemuxCfg α) (is : List (ADemuxIn α)) (i : ADemuxIn α) :
    (∀ s : ADemux α, i ∈ adAccepted c s is → i.enable = true ∧ i.tvalid = true) ∧
    (∀ s : CqDemux α, i ∈ cqAccepted c s is → i.enable = true ∧ i.tvalid = true) := by
  constructor
  · induction is with
    | nil => intro s h; simp [adAccepted] at h
    | cons x is ih =>
      intro s h
      rw [adAccepted] at h
      rcases List.mem_append.mp h with h | h
      · split at h
        · rename_i ha
          rw [List.mem_singleton.mp h]
          simp [adAccept, adReady] at ha
          exact ⟨ha.2.2, ha.1⟩
        · simp at h
      · exact ih _ h
  · induction is with
    | nil => intro s h; simp [cqAccepted] at h
    | cons x is ih =>
      intro s h
      rw [cqAccepted] at h
      rcases List.mem_append.mp h with h | h
      · split at h
        · rename_i ha
          rw [List.mem_singleton.mp h]
          simp [cqAccept, cqReady] at ha
          exact ⟨ha.2.2, ha.1⟩
        · simp at h
      · exact ih _ h

/-- Words of the examples: a number and the last flag. -/
def demuxExCfg : ADemuxCfg (Nat × Bool) := ⟨2, fun w => w.2⟩

def demuxExReset : ADemuxIn (Nat × Bool) :=
  { rst := true, tvalid := false, word := (0, false), select := fun _ => false, mready := fun _ => false }

def demuxEx0 : ADemux (Nat × Bool) := adStep demuxExCfg { skid := { out := (0, (0, false)), temp := (0, (0, false)) } } demuxExReset

/-- One cycle with word `w` offered for output `d`, or to be dropped. -/
def demuxExIn (v : Bool) (w : Nat × Bool) (d : Option Nat) (rdy : Bool) : ADemuxIn (Nat × Bool) :=
  { tvalid := v, word := w, select := fun k => d == some k, mready := fun _ => rdy }

/-- A packet for output 1 waits because the output is not ready; a packet is dropped; the next packet, for output 0, has
two words. -/
def demuxExLoss : List (ADemuxIn (Nat × Bool)) :=
  [demuxExIn false (0, false) none false, demuxExIn true (1, true) (some 1) false, demuxExIn true (2, false) none false,
   demuxExIn true (3, true) none false, demuxExIn true (4, false) (some 0) false, demuxExIn false (0, false) none true,
   demuxExIn true (5, true) (some 0) true] ++
  List.replicate 5 (demuxExIn false (0, false) none true)

/-- **C52 fails** in general. When a packet is dropped while an output is not ready, the input is ready in the cycle
after the last word of the dropped packet, and the first word of the next packet is accepted and lost: here the words 4
and 5 of a packet for output 0 are accepted, and only word 5 comes out, with everything drained. -/
theorem C52_route_fails :
    routedFirst 2 (fun w => w.2) 0 none (adAccepted demuxExCfg demuxEx0 demuxExLoss) = [(4, false), (5, true)] ∧
    adForwarded demuxExCfg 0 demuxEx0 demuxExLoss = [(5, true)] ∧
    (adRun demuxExCfg demuxEx0 demuxExLoss).skid.outV = false ∧
    (adRun demuxExCfg demuxEx0 demuxExLoss).skid.tempV = false := by decide +kernel

/-- Non-vacuity of `C52_route_partial`: two packets for different outputs under back-pressure. -/
def demuxExOk : List (ADemuxIn (Nat × Bool)) :=
  [demuxExIn false (0, false) none false, demuxExIn true (1, false) (some 1) false, demuxExIn true (2, true) (some 0) false,
   demuxExIn false (0, false) none true, demuxExIn false (0, false) none true, demuxExIn true (3, true) (some 0) true] ++
  List.replicate 4 (demuxExIn false (0, false) none true)

example : NothingDropped 2 demuxExOk := by
  intro i hi hv
  simp [demuxExOk, List.replicate] at hi
  rcases hi with rfl | rfl | rfl | rfl | rfl | rfl <;> first | (simp [demuxExIn] at hv; done) | (simp [demuxExIn, packetDest]; done) | (simp [demuxExIn, packetDest]; decide)

example : adForwarded demuxExCfg 1 demuxEx0 demuxExOk = [(1, false), (2, true)] ∧
    adForwarded demuxExCfg 0 demuxEx0 demuxExOk = [(3, true)] := by decide +kernel

/-- **C52**, 64-bit completer request demultiplexer. From the state at power-up (no word in the first register), after
a reset, for every history in which nothing is dropped and every packet has at least two words: what output `p` has
handed over is what the accepted packets destined for `p` consist of, where the controls at the second word decide,
except for at most three words that are still inside. Missing: dropped packets (`C52_cq64_drop_fails`) and a reset
during traffic (`C52_cq64_reset_fails`). -/
theorem C52_cq64_partial {α : Type} (c : ADemuxCfg α) (s : CqDemux α) (h0 : s.tempV = false) (r : ADemuxIn α)
    (hr : r.rst = true) (hv : r.tvalid = false) (is : List (ADemuxIn α)) (hi : ∀ i ∈ is, i.rst = false)
    (hs : NothingDropped c.ports is) (ht : TwoWords c.last false (cqAccepted c (cqStep c s r) is)) (p : Nat) :
    ∃ inside, inside.length ≤ 3 ∧
      routedSecond c.ports c.last p none (cqAccepted c (cqStep c s r) is) =
        cqForwarded c p (cqStep c s r) is ++ inside := by
  obtain ⟨h, hf, hq⟩ := cq_reset c s r hr
  have hz : cqPend (cqStep c s r) = [] := by
    have : (cqStep c s r).tempV = false := by simp [cqStep, cqAccept, hv, h0]
    simp [cqPend, this]
  have e := cq_run c p is (cqStep c s r) hi h hs (by rw [hf, hz]; exact ht)
  rw [cqCur, hf, skidPort, hq, hz] at e
  refine ⟨_, ?_, by simpa [ofPort] using e⟩
  rw [List.length_append]
  have h1 := skidPort_length p (cqRun c (cqStep c s r) is).skid
  have h2 : (routedSecond c.ports c.last p (cqCur (cqRun c (cqStep c s r) is)) (cqPend (cqRun c (cqStep c s r) is))).length ≤ 1 := by
    unfold cqPend
    cases (cqRun c (cqStep c s r) is).tempV <;> cases cqCur (cqRun c (cqStep c s r) is) <;> simp [routedSecond]
    split <;> simp
  omega

/-- Power-up state of the 64-bit demultiplexer after a reset. -/
def cqEx0 : CqDemux (Nat × Bool) :=
  cqStep demuxExCfg { skid := { out := (0, (0, false)), temp := (0, (0, false)) }, temp := (0, false) } demuxExReset

/-- A dropped packet of two words, and, after a pause, a packet of two words for output 1. -/
def cqExDrop : List (ADemuxIn (Nat × Bool)) :=
  [demuxExIn false (0, false) none true, demuxExIn true (1, false) none true, demuxExIn true (2, true) none true,
   demuxExIn false (0, false) none true, demuxExIn false (0, false) none true,
   demuxExIn true (3, false) (some 1) true, demuxExIn true (4, true) (some 1) true] ++
  List.replicate 5 (demuxExIn false (0, false) none true)

/-- **C52 fails** for the 64-bit completer request demultiplexer with dropped packets, even when the outputs are always
ready: the last word of a dropped packet stays in the first register and is sent, as a packet of its own, when the
first word of the next packet arrives. -/
theorem C52_cq64_drop_fails :
    routedSecond 2 (fun w => w.2) 1 none (cqAccepted demuxExCfg cqEx0 cqExDrop) = [(3, false), (4, true)] ∧
    cqForwarded demuxExCfg 1 cqEx0 cqExDrop = [(2, true), (3, false), (4, true)] := by decide +kernel

/-- **C52 fails** for the 64-bit completer request demultiplexer when it is reset during traffic: the word in the first
register survives the reset (word 9), and takes the place of the first word of the next packet. -/
theorem C52_cq64_reset_fails :
    ∃ (s : CqDemux (Nat × Bool)) (is : List (ADemuxIn (Nat × Bool))),
      s = cqRun demuxExCfg cqEx0 [demuxExIn false (0, false) none true, demuxExIn true (9, false) none true] ∧
      cqAccepted demuxExCfg (cqStep demuxExCfg s demuxExReset) is =
        [demuxExIn true (3, false) (some 1) true, demuxExIn true (4, true) (some 1) true].map id ∧
      cqForwarded demuxExCfg 1 (cqStep demuxExCfg s demuxExReset) is = [(9, false), (3, false), (4, true)] := by
  refine ⟨_, [demuxExIn false (0, false) none true, demuxExIn true (3, false) (some 1) true,
    demuxExIn true (4, true) (some 1) true] ++ List.replicate 5 (demuxExIn false (0, false) none true), rfl, ?_, ?_⟩
  · rfl
  · decide +kernel

/-- Non-vacuity of `C52_cq64_partial`: two packets of two words, with back-pressure in the middle. -/
def cqExOk : List (ADemuxIn (Nat × Bool)) :=
  [demuxExIn false (0, false) none true, demuxExIn true (1, false) (some 1) true, demuxExIn true (2, true) (some 1) false,
   demuxExIn true (3, false) (some 0) true, demuxExIn false (0, false) none true, demuxExIn true (4, true) (some 0) true] ++
  List.replicate 6 (demuxExIn false (0, false) none true)

example : TwoWords demuxExCfg.last false (cqAccepted demuxExCfg cqEx0 cqExOk) ∧
    cqForwarded demuxExCfg 1 cqEx0 cqExOk = [(1, false), (2, true)] ∧
    cqForwarded demuxExCfg 0 cqEx0 cqExOk = [(3, false), (4, true)] := by
  have e : cqAccepted demuxExCfg cqEx0 cqExOk =
      [demuxExIn true (1, false) (some 1) true, demuxExIn true (2, true) (some 1) false,
       demuxExIn true (3, false) (some 0) true, demuxExIn true (4, true) (some 0) true] := rfl
  refine ⟨?_, ?_⟩
  · rw [e]; simp [TwoWords, demuxExCfg, demuxExIn]
  · decide +kernel

end Verif.Props
