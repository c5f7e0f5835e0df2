import Verif.Model.ArbMux
/-! The two-entry output register is a queue. -/
namespace Verif.Proofs
open Verif Verif.Model

/-- The words held. -/
def skidQ {β : Type} (s : Skid β) : List β :=
  (if s.outV then [s.out] else []) ++ (if s.tempV then [s.temp] else [])

/-- Invariant of the output register. -/
def SkidOk {β : Type} (s : Skid β) : Prop :=
  (s.ready = true → s.tempV = false) ∧ (s.tempV = true → s.outV = true)

theorem skid_step {β : Type} (s : Skid β) (vin : Bool) (x : β) (tr : Bool) (h : SkidOk s)
    (hv : vin = true → s.ready = true) :
    SkidOk (skidStep false s vin x tr) ∧
    (if s.outV && tr then [s.out] else []) ++ skidQ (skidStep false s vin x tr) =
      skidQ s ++ (if vin then [x] else []) := by
  obtain ⟨r, ov, o, tv, t⟩ := s
  unfold SkidOk at h ⊢
  unfold skidStep skidQ
  cases r <;> cases ov <;> cases tv <;> cases vin <;> cases tr <;> simp_all

theorem skid_ready {β : Type} (s : Skid β) (vin : Bool) (x : β) :
    (skidStep false s vin x true).ready = true := by
  unfold skidStep; simp

theorem skid_out {β : Type} (s : Skid β) (vin : Bool) (x : β) (h : s.ready = true) :
    (skidStep false s vin x true).outV = vin ∧ (skidStep false s vin x true).tempV = s.tempV := by
  unfold skidStep; simp [h]

theorem skid_rst {β : Type} (s : Skid β) (vin : Bool) (x : β) (tr : Bool) :
    SkidOk (skidStep true s vin x tr) ∧ skidQ (skidStep true s vin x tr) = [] := by
  unfold skidStep SkidOk skidQ; simp

theorem skidQ_length {β : Type} (s : Skid β) : (skidQ s).length ≤ 2 := by
  obtain ⟨r, ov, o, tv, t⟩ := s
  unfold skidQ
  cases ov <;> cases tv <;> simp

end Verif.Proofs
