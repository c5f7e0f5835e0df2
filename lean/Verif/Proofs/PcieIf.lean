import Verif.Spec.PcieIf
/-! Helper lemmas for the segmented PCIe interface source and sink. -/
namespace Verif.Proofs
open Verif Verif.Model Verif.Spec

/-! ### Bits and lanes -/

theorem and_shl_one (x o : Nat) : (x &&& (1 <<< o) ≠ 0) ↔ x.testBit o = true := by
  rw [Nat.one_shiftLeft]
  constructor
  · intro h
    apply Classical.byContradiction
    intro hc
    apply h
    apply Nat.eq_of_testBit_eq
    intro i
    rw [Nat.testBit_and, Nat.testBit_two_pow, Nat.zero_testBit]
    by_cases hi : o = i
    · subst hi; simp at hc; simp [hc]
    · simp [hi]
  · intro h hc
    have := congrArg (Nat.testBit · o) hc
    simp [Nat.testBit_and, Nat.testBit_two_pow, h] at this

theorem testBit_orBit (x s j : Nat) : (x ||| (1 <<< s)).testBit j = (x.testBit j || decide (s = j)) := by
  rw [Nat.testBit_or, Nat.one_shiftLeft, Nat.testBit_two_pow]

theorem getLane_zero (w j : Nat) : getLane w j 0 = 0 := by simp [getLane]

theorem getLane_or (w s j x v : Nat) (h : v < 2 ^ w) : getLane w j (x ||| (v <<< (s * w))) =
    if j = s then getLane w j x ||| v else getLane w j x := by
  apply Nat.eq_of_testBit_eq
  intro i
  have hv : ∀ k, w ≤ k → v.testBit k = false := by
    intro k hk
    apply Nat.testBit_lt_two_pow
    have := Nat.pow_le_pow_right (show 0 < 2 by omega) hk
    omega
  rw [testBit_getLane, Nat.testBit_or, Nat.testBit_shiftLeft]
  by_cases hj : j = s
  · subst hj
    rw [if_pos rfl, Nat.testBit_or, testBit_getLane, Nat.mul_comm j w]
    by_cases hi : i < w
    · simp [hi]
    · simp [hi, hv i (by omega)]
  · rw [if_neg hj, testBit_getLane]
    by_cases hi : i < w
    · rcases Nat.lt_or_gt_of_ne hj with h1 | h1
      · have := Nat.mul_le_mul_left w (show j + 1 ≤ s by omega)
        rw [Nat.mul_succ] at this
        rw [Nat.mul_comm s w]
        simp [show ¬ w * s ≤ w * j + i by omega]
      · have := Nat.mul_le_mul_left w (show s + 1 ≤ j by omega)
        rw [Nat.mul_succ] at this
        rw [Nat.mul_comm s w, hv (w * j + i - w * s) (by omega)]
        simp
    · simp [hi]

/-- Values packed into lanes of `w` bits. -/
def packL (w : Nat) : List Nat → Nat
  | [] => 0
  | x :: xs => x ||| (packL w xs <<< w)

theorem packL_lt (w : Nat) (xs : List Nat) (h : ∀ x ∈ xs, x < 2 ^ w) : packL w xs < 2 ^ (w * xs.length) := by
  induction xs with
  | nil => simp [packL]
  | cons x xs ih =>
    have h1 := ih (fun y hy => h y (List.mem_cons_of_mem _ hy))
    have h2 := h x List.mem_cons_self
    rw [packL, List.length_cons, Nat.mul_succ]
    apply Nat.or_lt_two_pow
    · exact Nat.lt_of_lt_of_le h2 (Nat.pow_le_pow_right (by omega) (by omega))
    · rw [Nat.shiftLeft_eq, Nat.pow_add]
      exact Nat.mul_lt_mul_of_pos_right h1 (Nat.two_pow_pos w)

theorem packL_get (w : Nat) (xs : List Nat) (h : ∀ x ∈ xs, x < 2 ^ w) (k : Nat) :
    (packL w xs >>> (w * k)) &&& (2 ^ w - 1) = xs.getD k 0 := by
  rw [Nat.and_two_pow_sub_one_eq_mod]
  induction xs generalizing k with
  | nil => simp [packL]
  | cons x xs ih =>
    have h2 := h x List.mem_cons_self
    have h1 : ∀ x ∈ xs, x < 2 ^ w := fun y hy => h y (List.mem_cons_of_mem _ hy)
    have hp : packL w (x :: xs) = x + packL w xs * 2 ^ w := by
      rw [packL, Nat.or_comm, Nat.shiftLeft_eq, Nat.mul_comm, ← Nat.two_pow_add_eq_or_of_lt h2]
      rw [Nat.add_comm]
    cases k with
    | zero =>
      rw [hp, Nat.mul_zero, Nat.shiftRight_zero, Nat.add_mul_mod_self_right, Nat.mod_eq_of_lt h2]
      rfl
    | succ k =>
      have e : packL w (x :: xs) >>> (w * (k + 1)) = packL w xs >>> (w * k) := by
        rw [hp, Nat.mul_succ, Nat.add_comm (w * k), Nat.shiftRight_add, Nat.shiftRight_eq_div_pow _ w,
          Nat.add_mul_div_right _ _ (Nat.two_pow_pos w), Nat.div_eq_of_lt h2, Nat.zero_add]
      rw [e, ih h1]
      rfl

/-! ### One segment as the sink sees it -/

structure SegInfo where
  data : Nat
  strb : Nat
  sop : Bool
  eop : Bool
  valid : Bool
  error : Nat
  hdr : Nat
  prfx : Nat
  seq : Nat
  vfActive : Bool
  func : Nat
  vf : Nat
  bar : Nat
  dataPar : Nat
  hdrPar : Nat
  prfxPar : Nat

def SegInfo.zero : SegInfo := ⟨0, 0, false, false, false, 0, 0, 0, 0, false, 0, 0, 0, 0, 0, 0⟩

def viewSeg (g : IfGeo) (j : Nat) (t : Txn) : SegInfo :=
  ⟨getLane (32 * g.lanes) j t.data, getLane g.lanes j t.strb, t.sop.testBit j, t.eop.testBit j,
    t.valid.testBit j, getLane 4 j t.error, getLane 128 j t.hdr, getLane 32 j t.tlp_prfx,
    getLane g.seqWidth j t.seq, t.vf_active.testBit j, getLane 8 j t.func_num, getLane 11 j t.vf_num,
    getLane 3 j t.bar_id, getLane (4 * g.lanes) j t.data_par, getLane 16 j t.hdr_par,
    getLane 4 j t.tlp_prfx_par⟩

theorem viewSeg_empty (g : IfGeo) (j : Nat) : viewSeg g j {} = SegInfo.zero := by
  simp [viewSeg, SegInfo.zero, getLane_zero]

/-- DWORDs sent in the segment that starts at offset `off`. -/
def chunk (g : IfGeo) (f : TxFrame) (off : Nat) : Nat := min g.lanes (f.data.length - off)

/-- What a segment of frame `f` carries. -/
def segInfo (g : IfGeo) (f : TxFrame) (off : Nat) (first : Bool) : SegInfo :=
  { data := packL 32 ((f.data.drop off).take (chunk g f off))
    strb := packL 1 (List.replicate (chunk g f off) 1)
    sop := first
    eop := decide (off + chunk g f off ≥ f.data.length)
    valid := true
    error := f.error
    hdr := if first then f.hdr else 0
    prfx := if first then f.tlp_prfx else 0
    seq := f.seq
    vfActive := f.vf_num.isSome
    func := f.func_num
    vf := f.vf_num.getD 0
    bar := f.bar_id
    dataPar := packL 4 ((f.parity.drop off).take (chunk g f off))
    hdrPar := if first then f.hdr_par else 0
    prfxPar := if first then f.tlp_prfx_par else 0 }

/-! ### Source -/

theorem txDataLoop_spec (g : IfGeo) (f : TxFrame) (seg n k off : Nat) (t : Txn)
    (h1 : off + n ≤ f.data.length) (h2 : f.parity.length = f.data.length) :
    txDataLoop g f seg n k off t = some ({ t with
      data := t.data ||| (packL 32 ((f.data.drop off).take n) <<< (32 * (k + seg * g.lanes)))
      data_par := t.data_par ||| (packL 4 ((f.parity.drop off).take n) <<< (4 * (k + seg * g.lanes)))
      strb := t.strb ||| (packL 1 (List.replicate n 1) <<< (k + seg * g.lanes)) }, off + n) := by
  induction n generalizing k off t with
  | zero => simp [txDataLoop, packL]
  | succ n ih =>
    unfold txDataLoop
    have e1 : f.data[off]? = some f.data[off] := List.getElem?_eq_getElem (by omega)
    have e2 : f.parity[off]? = some f.parity[off] := List.getElem?_eq_getElem (by omega)
    rw [e1, e2]
    simp only [Option.bind_eq_bind, Option.bind_some]
    rw [ih (k + 1) (off + 1) _ (by omega)]
    have d1 : (f.data.drop off).take (n + 1) = f.data[off] :: (f.data.drop (off + 1)).take n := by
      rw [← List.getElem_cons_drop (by omega : off < f.data.length), List.take_succ_cons]
    have d2 : (f.parity.drop off).take (n + 1) = f.parity[off] :: (f.parity.drop (off + 1)).take n := by
      rw [← List.getElem_cons_drop (by omega : off < f.parity.length), List.take_succ_cons]
    rw [d1, d2, List.replicate_succ]
    simp only [packL, Nat.shiftLeft_or_distrib, ← Nat.shiftLeft_add, Nat.or_assoc, Option.some.injEq,
      Prod.mk.injEq]
    have s1 : 32 + 32 * (k + seg * g.lanes) = 32 * (k + 1 + seg * g.lanes) := by omega
    have s2 : 4 + 4 * (k + seg * g.lanes) = 4 * (k + 1 + seg * g.lanes) := by omega
    have s3 : 1 + (k + seg * g.lanes) = k + 1 + seg * g.lanes := by omega
    rw [s1, s2, s3]
    exact ⟨rfl, by omega⟩

/-- What a frame in progress satisfies. -/
def CurOk (g : IfGeo) : TxCur → Prop
  | none => True
  | some (f, off, first) => Sendable g f ∧
    (if first then off = 0 else 0 < off ∧ off < f.data.length)

theorem chunk_le (g : IfGeo) (f : TxFrame) (off : Nat) (h : off ≤ f.data.length) :
    off + chunk g f off ≤ f.data.length := by
  unfold chunk; omega

/-- The frame in progress after a segment. -/
def curAfter (g : IfGeo) (f : TxFrame) (off : Nat) : TxCur :=
  if off + chunk g f off ≥ f.data.length then none else some (f, off + chunk g f off, false)

theorem chunk_zero (g : IfGeo) (f : TxFrame) (off : Nat) (h : f.data = []) : chunk g f off = 0 := by
  simp [chunk, h]

/-- The transaction after a segment. -/
def txnAfter (g : IfGeo) (f : TxFrame) (off : Nat) (first : Bool) (seg : Nat) (t : Txn) : Txn :=
  let t1 := txMeta g f seg (if first then txFirst f seg t else t)
  { t1 with
    valid := t1.valid ||| (if f.data ≠ [] then 1 <<< seg else 0)
    data := t1.data ||| (packL 32 ((f.data.drop off).take (chunk g f off)) <<< (seg * (32 * g.lanes)))
    data_par := t1.data_par ||| (packL 4 ((f.parity.drop off).take (chunk g f off)) <<< (seg * (4 * g.lanes)))
    strb := t1.strb ||| (packL 1 (List.replicate (chunk g f off) 1) <<< (seg * g.lanes))
    eop := t1.eop ||| (if off + chunk g f off ≥ f.data.length then 1 <<< seg else 0) }

theorem txSeg_eq (g : IfGeo) (f : TxFrame) (off : Nat) (first : Bool) (seg : Nat) (t : Txn)
    (ho : off ≤ f.data.length) (hp : f.parity.length = f.data.length) :
    txSeg g f off first seg t = some (txnAfter g f off first seg t, curAfter g f off) := by
  unfold txSeg txData
  by_cases hd : f.data = []
  · have hz := chunk_zero g f off hd
    have hpe : f.parity = [] := List.eq_nil_of_length_eq_zero (by rw [hp, hd]; rfl)
    simp only [hd, ne_eq, not_true_eq_false, if_false, Option.bind_eq_bind, Option.bind_some]
    simp [txEnd, txnAfter, curAfter, hz, hd, packL]
  · have hc := chunk_le g f off ho
    simp only [hd, ne_eq, not_false_eq_true, if_true]
    rw [show min g.lanes (f.data.length - off) = chunk g f off from rfl,
      txDataLoop_spec g f seg _ 0 off _ hc hp]
    simp only [Option.bind_eq_bind, Option.bind_some, Nat.zero_add]
    have s1 : 32 * (seg * g.lanes) = seg * (32 * g.lanes) := by
      rw [← Nat.mul_assoc, ← Nat.mul_assoc, Nat.mul_comm 32]
    have s2 : 4 * (seg * g.lanes) = seg * (4 * g.lanes) := by
      rw [← Nat.mul_assoc, ← Nat.mul_assoc, Nat.mul_comm 4]
    rw [s1, s2]
    unfold txEnd txnAfter curAfter
    by_cases he : off + chunk g f off ≥ f.data.length
    · simp [he, hd]
    · simp [he, hd]

theorem take_mem_lt {xs : List Nat} {b off n : Nat} (h : ∀ x ∈ xs, x < b) :
    ∀ x ∈ (xs.drop off).take n, x < b :=
  fun x hx => h x (List.mem_of_mem_drop (List.mem_of_mem_take hx))

theorem packL_chunk_lt {w m : Nat} {xs : List Nat} (h : ∀ x ∈ xs, x < 2 ^ w) (hm : xs.length ≤ m) :
    packL w xs < 2 ^ (w * m) :=
  Nat.lt_of_lt_of_le (packL_lt w xs h)
    (Nat.pow_le_pow_right (by omega) (Nat.mul_le_mul_left _ hm))

theorem viewSeg_txnAfter (g : IfGeo) (f : TxFrame) (off : Nat) (first : Bool) (seg : Nat) (t : Txn)
    (hf : Sendable g f) (hfirst : first = false → f.data ≠ []) (j : Nat) :
    viewSeg g j (txnAfter g f off first seg t) =
      if j = seg then
        (let a := viewSeg g j t
         let b := segInfo g f off first
         ⟨a.data ||| b.data, a.strb ||| b.strb, a.sop || b.sop, a.eop || b.eop, a.valid || b.valid,
          a.error ||| b.error, a.hdr ||| b.hdr, a.prfx ||| b.prfx, a.seq ||| b.seq,
          a.vfActive || b.vfActive, a.func ||| b.func, a.vf ||| b.vf, a.bar ||| b.bar,
          a.dataPar ||| b.dataPar, a.hdrPar ||| b.hdrPar, a.prfxPar ||| b.prfxPar⟩)
      else viewSeg g j t := by
  have hdl : ((f.data.drop off).take (chunk g f off)).length ≤ g.lanes := by
    rw [List.length_take]; unfold chunk; omega
  have hpl : ((f.parity.drop off).take (chunk g f off)).length ≤ g.lanes := by
    rw [List.length_take]; unfold chunk; omega
  have b1 := packL_chunk_lt (take_mem_lt (off := off) (n := chunk g f off) hf.data) hdl
  have b2 := packL_chunk_lt (take_mem_lt (off := off) (n := chunk g f off) hf.parity) hpl
  have b3 : packL 1 (List.replicate (chunk g f off) 1) < 2 ^ g.lanes := by
    have := packL_chunk_lt (w := 1) (m := g.lanes) (xs := List.replicate (chunk g f off) 1)
      (by intro x hx; rw [List.mem_replicate] at hx; omega) (by rw [List.length_replicate]; unfold chunk; omega)
    simpa using this
  have hv := hf.vf
  have z0 : ∀ w : Nat, (0 : Nat) < 2 ^ w := Nat.two_pow_pos
  unfold txnAfter txMeta txFirst segInfo viewSeg
  generalize packL 32 ((f.data.drop off).take (chunk g f off)) = D1 at *
  generalize packL 4 ((f.parity.drop off).take (chunk g f off)) = D2 at *
  generalize packL 1 (List.replicate (chunk g f off) 1) = D3 at *
  by_cases hj : j = seg
  · subst hj
    cases first <;> cases hvf : f.vf_num <;> by_cases hd : f.data = [] <;>
      by_cases he : f.data.length ≤ off + chunk g f off <;>
      simp [getLane_or, b1, b2, b3, hf.prfx, hf.prfxPar, hf.hdr, hf.hdrPar, hf.bar, hf.func, hf.error,
        hf.seq, testBit_orBit, hd, he] <;>
      first
        | exact absurd hd (hfirst rfl)
        | (rw [getLane_or _ _ _ _ _ (hv _ hvf)]; simp)
        | skip
  · cases first <;> cases hvf : f.vf_num <;> by_cases hd : f.data = [] <;>
      by_cases he : f.data.length ≤ off + chunk g f off <;>
      simp [getLane_or, b1, b2, b3, hf.prfx, hf.prfxPar, hf.hdr, hf.hdrPar, hf.bar, hf.func, hf.error,
        hf.seq, Nat.one_shiftLeft, Nat.testBit_two_pow, hd, he, hj, Ne.symm hj] <;>
      first
        | (rw [getLane_or _ _ _ _ _ (hv _ hvf)]; simp [hj])
        | skip

theorem viewSeg_fresh (g : IfGeo) (f : TxFrame) (off : Nat) (first : Bool) (seg : Nat) (t : Txn)
    (hf : Sendable g f) (hfirst : first = false → f.data ≠ []) (hz : viewSeg g seg t = SegInfo.zero) :
    viewSeg g seg (txnAfter g f off first seg t) = segInfo g f off first := by
  rw [viewSeg_txnAfter g f off first seg t hf hfirst, if_pos rfl, hz]
  simp [SegInfo.zero, segInfo]

end Verif.Proofs
