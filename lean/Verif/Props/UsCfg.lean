import Verif.Proofs.UsCfg
/-! C89, C90: the configuration reader for the UltraScale core. -/
namespace Verif.Props
open Verif Verif.Model Verif.Spec Verif.Proofs

/-- **C89**: after a reset, for every history in which the core sets `done` only while a read is requested: the outputs of
each function are the bits 8, 14..12 and 7..5 of what was read last for that function (0 if nothing was), two cycles after
the core delivered it. -/
theorem C89_outputs (c : UcCfg) (hc : UcOk c) (s : Uc) (r : UcIn) (hr : r.rst = true) (is : List UcIn) (i : UcIn)
    (hi : ∀ x ∈ is ++ [i], x.rst = false) (ho : UcObeys c (ucStep c s r) (is ++ [i])) (f : Nat) (hf : f < c.fcount) :
    let d := ucLatest c f (ucReads c false (ucStep c s r) is)
    let s' := ucRun c (ucStep c s r) (is ++ [i])
    s'.ext f = d.testBit 8 ∧ s'.mrrs f = (d >>> 12) % 8 ∧ s'.mps f = (d >>> 5) % 8 := by
  have h := ucInv_run c hc is (fun x hx => hi x (List.mem_append_left _ hx)) _ (uc_append c _ is _ ho).1 false []
    (ucInv_init c hc s r hr false)
  have := uc_out c hc _ i (hi i (by simp)) _ _ h f hf
  simp only [ucRun_append, ucRun]
  simpa using this

/-- **C89**: every read that the core finishes asks for the Device Control register, which is at byte offset 8 of the PCIe
capability, of one of the functions. -/
theorem C89_reads (c : UcCfg) (hc : UcOk c) (s : Uc) (r : UcIn) (hr : r.rst = true) (is : List UcIn)
    (hi : ∀ x ∈ is, x.rst = false) (ho : UcObeys c (ucStep c s r) is) :
    ∀ x ∈ ucReads c false (ucStep c s r) is, x.addr = ((c.capOffset + 8) / 4) % 1024 ∧ ∃ f < c.fcount, x.fn = ucNum c f := by
  have key : ∀ (is : List UcIn), (∀ x ∈ is, x.rst = false) → ∀ (s : Uc), UcObeys c s is → ∀ b rs, UcInv c s b rs →
      ∀ x ∈ ucReads c b s is, x.addr = ucAddr c ∧ ∃ f < c.fcount, x.fn = ucNum c f := by
    intro is
    induction is with
    | nil => intro _ s _ b rs _ x hx; simp [ucReads] at hx
    | cons i is ih =>
      intro hi s ho b rs h x hx
      rw [ucReads_cons] at hx
      rcases List.mem_append.mp hx with hx | hx
      · unfold ucNew at hx
        split at hx
        · rename_i hc'
          simp only [Bool.and_eq_true] at hc'
          simp only [List.mem_singleton] at hx
          subst hx
          exact ⟨h.addr hc'.1.1, s.cnt, h.cnt, h.fn⟩
        · simp at hx
      · exact ih (fun j hj => hi j (List.mem_cons_of_mem _ hj)) _ ho.2 _ _
          (ucInv_step c hc s i (hi i (List.mem_cons_self ..)) ho.1 b rs h) x hx
  exact key is hi _ ho false [] (ucInv_init c hc s r hr false)

/-- **C89**: the module never writes, and a read that is requested stays requested, with the same address and function
number, until the core has set `done`. -/
theorem C89_protocol (c : UcCfg) (hc : UcOk c) (s : Uc) (r : UcIn) (hr : r.rst = true) (is : List UcIn)
    (hi : ∀ x ∈ is, x.rst = false) (ho : UcObeys c (ucStep c s r) is) (i : UcIn) (hr' : i.rst = false) :
    let s' := ucRun c (ucStep c s r) is
    s'.write = false ∧ (s'.read = true → s'.done = false →
      (ucStep c s' i).read = true ∧ (ucStep c s' i).addr = s'.addr ∧ (ucStep c s' i).fn = s'.fn) := by
  have h := ucInv_run c hc is hi _ ho false [] (ucInv_init c hc s r hr false)
  intro s'
  refine ⟨h.write, fun hrd hd => ?_⟩
  have hz : s'.delay = 0 := by
    apply Classical.byContradiction
    intro hn
    have := h.idle (Nat.pos_of_ne_zero hn)
    rw [this] at hrd; cases hrd
  refine ⟨by simp [ucStep, hr', hz, hd], ?_, by simp [ucStep, hr', ucFin, hd]⟩
  rw [h.addr hrd]
  simp [ucStep, hr', hz]

/-- **C90**: if the core answers each read within `d` cycles, every function is read anew in any period of
`(d + 260) * (number of functions)` cycles, whatever happened before. -/
theorem C90_fresh (c : UcCfg) (hc : UcOk c) (s : Uc) (r : UcIn) (hr : r.rst = true) (is js : List UcIn) (d : Nat)
    (hi : ∀ x ∈ is ++ js, x.rst = false) (ho : UcObeys c (ucStep c s r) (is ++ js))
    (ha : UcAnswers c d 0 (ucStep c s r) (is ++ js)) (hl : (d + 260) * c.fcount ≤ js.length) (f : Nat) (hf : f < c.fcount) :
    ∃ rs, ucReads c false (ucStep c s r) (is ++ js) = ucReads c false (ucStep c s r) is ++ rs ∧ ∃ x ∈ rs, x.fn = ucNum c f := by
  have h := ucInv_run c hc is (fun x hx => hi x (List.mem_append_left _ hx)) _ (uc_append c _ is _ ho).1 false []
    (ucInv_init c hc s r hr false)
  obtain ⟨w, hw⟩ := ucAnswers_append c d 0 _ is js ha
  have heff : ucEff c (ucRun c (ucStep c s r) is) < c.fcount := by
    have hcnt := h.cnt
    unfold ucEff ucSucc
    split
    · split <;> omega
    · exact hcnt
  obtain ⟨n, hn, hs⟩ := ucSuccN_all c _ f heff hf
  obtain ⟨x, hx, hx2, -⟩ := uc_fresh c hc d n js (fun x hx => hi x (List.mem_append_right _ hx)) _ (uc_append c _ is _ ho).2 _ _ h w
    hw (Nat.le_trans (by rw [Nat.mul_comm]; exact Nat.mul_le_mul_left _ hn) hl)
  exact ⟨_, ucReads_append c false _ is js, x, hx, by rw [hx2, hs]⟩

/-! ### Concrete cases -/

/-- Two physical functions and two virtual functions from number 64 on. -/
def ucEx : UcCfg := ⟨2, 2, 64, 0xC0⟩

/-- A cycle without an answer. -/
def ucNo : UcIn := { done := false }

/-- 256 cycles without answer, one with, and one more. -/
def ucTurn (d : Nat) : List UcIn := List.replicate 256 ucNo ++ [{ data := d, done := true }] ++ [ucNo]

/-- The settings of the example are right; four answers give four reads, of the functions 0, 1, 64 and 65, and the outputs
show them. -/
example : UcOk ucEx ∧
    ucReads ucEx false (ucStep ucEx {} { rst := true }) (ucTurn 0x5120 ++ ucTurn 0x2040 ++ ucTurn 0x100 ++ ucTurn 0x10) =
      [⟨0, 50, 0x5120⟩, ⟨1, 50, 0x2040⟩, ⟨64, 50, 0x100⟩, ⟨65, 50, 0x10⟩] := by
  refine ⟨by unfold UcOk ucEx; decide, by decide +kernel⟩

example : let s := ucRun ucEx (ucStep ucEx {} { rst := true }) (ucTurn 0x5120 ++ ucTurn 0x2040)
    (s.ext 0, s.mrrs 0, s.mps 0, s.ext 1, s.mrrs 1, s.mps 1) = (true, 5, 1, false, 2, 2) := by decide +kernel

/-- The hypotheses on the core hold for the history of the example. -/
instance ucObeysDec (c : UcCfg) : ∀ s is, Decidable (UcObeys c s is)
  | _, [] => .isTrue trivial
  | s, i :: is => by unfold UcObeys; exact @instDecidableAnd _ _ _ (ucObeysDec c _ is)

instance ucAnswersDec (c : UcCfg) (d : Nat) : ∀ w s is, Decidable (UcAnswers c d w s is)
  | _, _, [] => .isTrue trivial
  | w, s, i :: is => by
    unfold UcAnswers
    have := ucAnswersDec c d (w + 1) (ucStep c s i) is
    have := ucAnswersDec c d 0 (ucStep c s i) is
    infer_instance

example : UcObeys ucEx (ucStep ucEx {} { rst := true }) (ucTurn 0x5120 ++ ucTurn 0x2040) ∧
    UcAnswers ucEx 2 0 (ucStep ucEx {} { rst := true }) (ucTurn 0x5120 ++ ucTurn 0x2040) := by decide +kernel

/-- **C89 fails** if the core answers again later: `cfg_mgmt_read` is still set in the cycle after `done`. A core that takes
this for another read of function 0 and answers it 255 cycles later has its answer stored for function 1, which was never
read. -/
theorem C89_late_fails :
    let s := ucRun ucEx (ucStep ucEx {} { rst := true }) (List.replicate 256 ucNo ++ [{ data := 0x5120, done := true }])
    let s' := ucRun ucEx s (List.replicate 255 ucNo ++ [{ data := 0x5120, done := true }, ucNo])
    s.read = true ∧ s.fn = 0 ∧ s'.mrrs 1 = 5 ∧
      ucReads ucEx true s (List.replicate 255 ucNo ++ [{ data := 0x5120, done := true }, ucNo]) = [] := by decide +kernel

end Verif.Props
