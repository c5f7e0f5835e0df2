import Verif.Spec.DmaClientSource
/-! Checkable histories of the AXI stream DMA source, for examples. -/
namespace Verif.Proofs
open Verif Verif.Model Verif.Spec

/-- A state before reset. -/
def srcState0 : Src where
  reading := false
  rdAddr := 0
  rdMask := fun _ => false
  rdCount := 0
  ready := false
  cmdV := false
  cmdAddr := 0
  cmdOff := 0
  cmdCount := 0
  cmdTag := 0
  cmdIds := 0
  sending := false
  addr := 0
  mask := fun _ => false
  off := 0
  count := 0
  lastC := false
  ids := 0
  stV := false
  stTag := 0
  ramV := fun _ => false
  ramAddr := fun _ => 0
  out := { ring := { wr := 0, rd := 0, mem := fun _ => ⟨fun _ => 0, 0, false, 0⟩ }, half := false, valid := false,
           out := ⟨fun _ => 0, 0, false, 0⟩ }

/-- An input cycle without delays. -/
def srcExIn (valid : Bool) (addr len tag : Nat) : SrcIn :=
  { enable := true, valid := valid, ramAddr := addr, len := len, tag := tag, ids := tag + 10, tready := true
    cmdReady := fun _ => true, respValid := fun _ => false, respData := fun _ => 0 }

/-- An input with the responses of a RAM that answers each command as soon as it can. -/
def srcRamInput (c : SrcCfg) (mem : Nat → UInt8) (pend : Nat → List Nat) (i : SrcIn) : SrcIn :=
  { i with
    respValid := fun k => !(pend k).isEmpty
    respData := fun l =>
      match pend (l / c.segBytes) with
      | [] => 0
      | q :: _ => mem (q * c.rowBytes + l) }

/-- A history with such a RAM. -/
def srcRamHistory (c : SrcCfg) (mem : Nat → UInt8) : (Nat → List Nat) → Src → List SrcIn → List SrcIn
  | _, _, [] => []
  | pend, s, i :: is =>
    let i' := srcRamInput c mem pend i
    i' :: srcRamHistory c mem (srcPendNext c s i' pend) (srcStep c s i') is

theorem srcRamHistory_ok (c : SrcCfg) (mem : Nat → UInt8) (is : List SrcIn) (pend : Nat → List Nat) (s : Src) :
    SrcRamOk c mem pend s (srcRamHistory c mem pend s is) := by
  induction is generalizing pend s with
  | nil => trivial
  | cons i is ih =>
    refine ⟨?_, ih _ _⟩
    intro k hk hv
    cases hp : pend k with
    | nil => simp [srcRamInput, hp] at hv
    | cons q qs =>
      refine ⟨q, by simp, fun b hb => ?_⟩
      have : (k * c.segBytes + b) / c.segBytes = k := by
        rw [Nat.mul_comm, Nat.mul_add_div (show 0 < c.segBytes from Nat.two_pow_pos _), Nat.div_eq_of_lt hb, Nat.add_zero]
      simp only [srcRamInput, this, hp]

theorem srcRamHistory_inputs {c : SrcCfg} {mem : Nat → UInt8} {P : SrcIn → Prop} (is : List SrcIn)
    (pend : Nat → List Nat) (s : Src) (hP : ∀ i p, P i → P (srcRamInput c mem p i)) (h : ∀ i ∈ is, P i) :
    ∀ i ∈ srcRamHistory c mem pend s is, P i := by
  induction is generalizing pend s with
  | nil => simp [srcRamHistory]
  | cons i is ih =>
    intro j hj
    simp only [srcRamHistory, List.mem_cons] at hj
    rcases hj with rfl | hj
    · exact hP _ _ (h i List.mem_cons_self)
    · exact ih _ _ (fun x hx => h x (List.mem_cons_of_mem _ hx)) j hj

theorem srcRamHistory_quiet (c : SrcCfg) (mem : Nat → UInt8) (is : List SrcIn) (pend : Nat → List Nat) (s : Src)
    (h : ∀ i ∈ is, i.valid = false ∧ i.tready = true ∧ ∀ k, i.cmdReady k = true) :
    SrcQuiet c pend s (srcRamHistory c mem pend s is) := by
  induction is generalizing pend s with
  | nil => trivial
  | cons i is ih =>
    refine ⟨?_, ih _ _ fun j hj => h j (List.mem_cons_of_mem _ hj)⟩
    obtain ⟨h1, h2, h3⟩ := h i List.mem_cons_self
    refine ⟨h1, h2, fun k _ => ⟨h3 k, fun hp => ?_⟩⟩
    simp [srcRamInput, hp]

theorem srcRamHistory_append (c : SrcCfg) (mem : Nat → UInt8) (a b : List SrcIn) (pend : Nat → List Nat) (s : Src) :
    srcRamHistory c mem pend s (a ++ b) = srcRamHistory c mem pend s a ++
      srcRamHistory c mem (srcPendRun c pend s (srcRamHistory c mem pend s a))
        (srcRun c s (srcRamHistory c mem pend s a)) b := by
  induction a generalizing pend s with
  | nil => rfl
  | cons i a ih => simp only [List.cons_append, srcRamHistory, srcPendRun, srcRun, ih]

theorem srcRamHistory_length (c : SrcCfg) (mem : Nat → UInt8) (a : List SrcIn) (pend : Nat → List Nat) (s : Src) :
    (srcRamHistory c mem pend s a).length = a.length := by
  induction a generalizing pend s with
  | nil => rfl
  | cons i a ih => simp [srcRamHistory, ih]

end Verif.Proofs
