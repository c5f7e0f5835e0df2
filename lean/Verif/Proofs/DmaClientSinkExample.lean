import Verif.Spec.DmaClientSink
/-! Checkable histories of the AXI stream DMA sink, for examples. -/
namespace Verif.Proofs
open Verif Verif.Model Verif.Spec

/-- A state before reset. -/
def sinkState0 : Sink where
  st := .drop
  addr := 3
  keepMask := 1
  off := 1
  length := 9
  count := 4
  lastC := true
  tag := 7
  ready := true
  tready := true
  fifo := { wr := 5, rd := 1, mem := fun _ => ⟨0, 0, 0, fun _ => false, false⟩ }
  half := true
  active := 9
  av := false
  stV := true
  stLen := 1
  stTag := 2
  stIds := 3
  out := fun _ => { ring := { wr := 7, rd := 2, mem := fun _ => ⟨0, 0, fun _ => 0⟩ }, half := true, valid := true,
                    out := ⟨0, 0, fun _ => 0⟩ }
  doneC := fun _ => 3
  doneR := fun _ => true

/-- An input cycle with a word on the stream and a descriptor, and no delays. -/
def sinkExIn (valid : Bool) (addr len tag : Nat) (tvalid : Bool) (byte keep : Nat) (last : Bool) : SinkIn :=
  { enable := true, valid := valid, ramAddr := addr, len := len, tag := tag, tvalid := tvalid
    data := fun b => UInt8.ofNat (byte + b), keep := keep, last := last, ids := tag + 10
    cmdReady := fun _ => true, done := fun _ => false }

/-- A history with a RAM that reports each write as soon as it can. -/
def sinkRamHistory (c : SrcCfg) : (Nat → Nat) → Sink → List SinkIn → List SinkIn
  | _, _, [] => []
  | pend, s, i :: is =>
    let i' := { i with done := fun k => decide (0 < pend k) }
    i' :: sinkRamHistory c (sinkPendNext s i' pend) (sinkStep c s i') is

theorem sinkRamHistory_ok (c : SrcCfg) (is : List SinkIn) (pend : Nat → Nat) (s : Sink) :
    SinkRamOk c pend s (sinkRamHistory c pend s is) := by
  induction is generalizing pend s with
  | nil => trivial
  | cons i is ih => exact ⟨fun k _ h => of_decide_eq_true h, ih _ _⟩

theorem sinkRamHistory_rst (c : SrcCfg) (is : List SinkIn) (pend : Nat → Nat) (s : Sink) (h : ∀ i ∈ is, i.rst = false) :
    ∀ i ∈ sinkRamHistory c pend s is, i.rst = false := by
  induction is generalizing pend s with
  | nil => intro i hi; cases hi
  | cons i is ih =>
    intro x hx
    simp only [sinkRamHistory, List.mem_cons] at hx
    rcases hx with rfl | hx
    · exact h i List.mem_cons_self
    · exact ih _ _ (fun y hy => h y (List.mem_cons_of_mem _ hy)) x hx

theorem sinkRamHistory_quiet (c : SrcCfg) (is : List SinkIn) (pend : Nat → Nat) (s : Sink)
    (h : ∀ i ∈ is, i.enable = true ∧ i.valid = false ∧ i.tvalid = false ∧ ∀ k, i.cmdReady k = true) :
    SinkQuiet c pend s (sinkRamHistory c pend s is) := by
  induction is generalizing pend s with
  | nil => trivial
  | cons i is ih =>
    refine ⟨?_, ih _ _ fun j hj => h j (List.mem_cons_of_mem _ hj)⟩
    obtain ⟨h0, h1, h2, h3⟩ := h i List.mem_cons_self
    exact ⟨h0, h1, h2, fun k _ => ⟨h3 k, fun hp => decide_eq_true hp⟩⟩

theorem sinkRamHistory_append (c : SrcCfg) (a b : List SinkIn) (pend : Nat → Nat) (s : Sink) :
    sinkRamHistory c pend s (a ++ b) = sinkRamHistory c pend s a ++
      sinkRamHistory c (sinkPendRun c pend s (sinkRamHistory c pend s a)) (sinkRun c s (sinkRamHistory c pend s a)) b := by
  induction a generalizing pend s with
  | nil => rfl
  | cons i a ih => simp only [List.cons_append, sinkRamHistory, sinkPendRun, sinkRun, ih]

theorem sinkRamHistory_length (c : SrcCfg) (a : List SinkIn) (pend : Nat → Nat) (s : Sink) :
    (sinkRamHistory c pend s a).length = a.length := by
  induction a generalizing pend s with
  | nil => rfl
  | cons i a ih => simp [sinkRamHistory, ih]

end Verif.Proofs
