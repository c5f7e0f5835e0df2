import Verif.Proofs.PsdpWrite
import Verif.Proofs.MemRead
/-! Helper lemmas for the segmented RAM: the read path over any history of events. -/
namespace Verif.Proofs
open Verif Verif.Model Verif.Spec

/-! ### One word -/

theorem wordFold_testBit (mem : Mem) (a n init i : Nat) :
    ((List.range n).foldr (fun j acc => (mem (a + j)).toNat <<< (8 * j) ||| acc) init).testBit i =
      (init.testBit i || (decide (i / 8 < n) && (mem (a + i / 8)).toNat.testBit (i % 8))) := by
  induction n generalizing init with
  | zero => simp
  | succ n ih =>
    rw [List.range_succ, List.foldr_append, List.foldr_cons, List.foldr_nil, ih, Nat.testBit_or,
      Nat.testBit_shiftLeft]
    by_cases h1 : i / 8 = n
    · have e : i - 8 * n = i % 8 := by omega
      simp [h1, e, show 8 * n ≤ i by omega, Bool.or_comm]
    · by_cases h2 : i / 8 < n
      · simp [h2, show ¬ 8 * n ≤ i by omega, show i / 8 < n + 1 by omega]
      · have hb : (mem (a + n)).toNat.testBit (i - 8 * n) = false := by
          apply Nat.testBit_lt_two_pow
          have := u8_lt (mem (a + n))
          have : 2 ^ 8 ≤ 2 ^ (i - 8 * n) := Nat.pow_le_pow_right (by omega) (by omega)
          omega
        simp [h2, hb, show ¬ i / 8 < n + 1 by omega]

theorem ramRead_lt (g : SegGeo) (mem : Mem) (seg a : Nat) : ramRead g mem seg a < 2 ^ (8 * g.segBytes) := by
  apply Nat.lt_pow_two_of_testBit
  intro i hi
  unfold ramRead
  rw [wordFold_testBit]
  simp only [Nat.zero_testBit, Bool.false_or]
  rw [decide_eq_false (by omega)]
  rfl

theorem ramRead_slice (g : SegGeo) (mem : Mem) (seg a start stop : Nat) (h : stop ≤ g.segBytes) :
    segSlice start stop (ramRead g mem seg a) =
      load mem ((a * g.segCount + seg) * g.segBytes + start) (stop - start) := by
  unfold segSlice load ramRead
  apply List.map_congr_left
  intro i hi
  rw [List.mem_range] at hi
  have e : ∀ y : Nat, y &&& 0xff = y % 256 := fun y => Nat.and_two_pow_sub_one_eq_mod y 8
  rw [e]
  apply ofNat_toNat_bits
  intro j hj
  rw [Nat.testBit_shiftRight, wordFold_testBit]
  have e1 : ((start + i) * 8 + j) / 8 = start + i := by omega
  have e2 : ((start + i) * 8 + j) % 8 = j := by omega
  rw [e1, e2]
  simp [show start + i < g.segBytes by omega, Nat.add_assoc]

/-! ### Commands -/

/-- A submitted read: address and length. -/
abbrev RCmd := Nat × Nat

theorem readLoop_eq (g : SegGeo) (A n k seg : Nat) (hW : 0 < g.segBytes)
    (hseg : seg = (A / g.segBytes + k) % g.segCount) :
    readLoop g A n k seg = (List.range' k n).map fun i =>
      ((A / g.segBytes + i) % g.segCount, (A / g.segBytes + i) / g.segCount) := by
  induction n generalizing k seg with
  | zero => rfl
  | succ n ih =>
    unfold readLoop
    rw [ih (k + 1) _ (by rw [hseg, Nat.mod_add_mod, Nat.add_assoc]), List.range'_succ, List.map_cons]
    congr 1
    rw [hseg]
    congr 1
    unfold SegGeo.byteLanes
    rw [← Nat.div_div_eq_div_mul, Nat.add_mul_div_right _ _ hW]

theorem readOps_eq (g : SegGeo) (A len : Nat) (hW : 0 < g.segBytes) :
    readOps g A len = (List.range' 0 (segmentsOf g A len)).map fun i =>
      ((A / g.segBytes + i) % g.segCount, (A / g.segBytes + i) / g.segCount) :=
  readLoop_eq g A _ 0 _ hW rfl

theorem readOps_length (g : SegGeo) (A len : Nat) (hW : 0 < g.segBytes) :
    (readOps g A len).length = segmentsOf g A len := by
  rw [readOps_eq g A len hW]; simp

theorem readOps_get (g : SegGeo) (A len k : Nat) (hW : 0 < g.segBytes)
    (hk : k < (readOps g A len).length) : (readOps g A len)[k] =
      ((A / g.segBytes + k) % g.segCount, (A / g.segBytes + k) / g.segCount) := by
  simp [readOps_eq g A len hW]

def cmdReads (g : SegGeo) (c : RCmd) : List (Nat × Nat) := readOps g c.1 c.2
def allReads (g : SegGeo) (C : List RCmd) : List (Nat × Nat) := C.flatMap (cmdReads g)

/-- The bytes of the read lie within the RAM. -/
def InRamRd (g : SegGeo) (c : RCmd) : Prop := c.1 + c.2 ≤ 2 ^ g.segAddrW * g.byteLanes

theorem word_addr_lt (g : SegGeo) (A len i : Nat) (hS : 0 < g.segCount) (hW : 0 < g.segBytes)
    (hr : A + len ≤ 2 ^ g.segAddrW * g.byteLanes) (hi : i < segmentsOf g A len) :
    (A / g.segBytes + i) / g.segCount < 2 ^ g.segAddrW := by
  have har := segments_arith g.segBytes A len hW
  simp only at har
  rw [← segmentsOf] at har
  obtain ⟨a1, a2, a3, -⟩ := har.2 (by omega)
  rw [Nat.div_lt_iff_lt_mul hS]
  apply Nat.lt_of_mul_lt_mul_right (a := g.segBytes)
  have e : 2 ^ g.segAddrW * g.segCount * g.segBytes = 2 ^ g.segAddrW * g.byteLanes := by
    unfold SegGeo.byteLanes; rw [Nat.mul_assoc, Nat.mul_comm g.segCount]
  rw [e, Nat.add_mul]
  have hA := Nat.div_add_mod A g.segBytes
  have hi2 : i * g.segBytes ≤ g.segBytes * (segmentsOf g A len - 1) := by
    rw [Nat.mul_comm g.segBytes]; exact Nat.mul_le_mul_right _ (by omega)
  rw [Nat.mul_comm] at hA
  omega

theorem enqueueReads_eq (q : Nat → List Nat) (ops : List (Nat × Nat)) (s : Nat) :
    enqueueReads q ops s = q s ++ opsAt s ops := by
  induction ops generalizing q with
  | nil => simp [enqueueReads]
  | cons o ops ih =>
    obtain ⟨seg, op⟩ := o
    unfold enqueueReads
    rw [ih, opsAt_cons]
    unfold updAt
    by_cases h : s = seg
    · subst h; simp
    · simp [h, Ne.symm h]

/-! ### One clock edge -/

/-- What the read path keeps for one segment. -/
structure RdView where
  q : List Nat
  valid : Bool
  addr : Nat
  resp : List Nat
  ready : Bool
  pipe : Option Nat
  rvalid : Bool
  rdata : Nat

def rdView (g : SegGeo) (i : Nat) (s : RdSys) : RdView :=
  ⟨s.segQ i, s.valid.testBit i, getLane g.segAddrW i s.addr, s.respQ i, s.ready.testBit i, s.pipe i,
    s.respValid.testBit i, getLane (8 * g.segBytes) i s.respData⟩

/-- The master's half of an edge, seen from one segment: `rr` is `rd_resp_ready`. -/
def rdMaster (g : SegGeo) (pause rr ready rvalid : Bool) (rdata : Nat) (v : RdView) : RdView :=
  let v' := if ready || !v.valid then
      match v.q, pause with
      | a :: rest, false => { v with q := rest, valid := true, addr := a % 2 ^ g.segAddrW }
      | _, _ => { v with valid := false }
    else v
  if rr && rvalid then { v' with resp := v'.resp ++ [rdata] } else v'

def rdRam1 (g : SegGeo) (rr : Bool) (v : RdView) : RdView :=
  if rr || !v.rvalid then
    match v.pipe with
    | some d => { v with rdata := d % 2 ^ (8 * g.segBytes), rvalid := true, pipe := none }
    | none => { v with rvalid := false }
  else v

def rdRam2 (g : SegGeo) (mem : Mem) (i : Nat) (valid : Bool) (addr : Nat) (v : RdView) : RdView :=
  if v.ready && valid then { v with pipe := some (ramRead g mem i addr) } else v

def rdRam3 (v : RdView) : RdView := { v with ready := !v.rvalid || v.pipe.isNone }

/-- The RAM's half of an edge, seen from one segment. -/
def rdRam (g : SegGeo) (mem : Mem) (i : Nat) (rr valid : Bool) (addr : Nat) (v : RdView) : RdView :=
  rdRam3 (rdRam2 g mem i valid addr (rdRam1 g rr v))

theorem masterReadSeg_respReady (g : SegGeo) (pause : Bool) (ready rv rd : Nat) (s : RdSys) (i : Nat) :
    (masterReadSeg g pause ready rv rd s i).respReady = s.respReady ∧
    (masterReadSeg g pause ready rv rd s i).respCmds = s.respCmds ∧
    (masterReadSeg g pause ready rv rd s i).finished = s.finished := by
  unfold masterReadSeg
  cases hq : s.segQ i <;> cases pause <;> cases ready.testBit i <;> cases hv : s.valid.testBit i <;>
    cases hr : s.respReady.testBit i <;> cases rv.testBit i <;> simp [hr]

theorem masterReadSeg_view (g : SegGeo) (pause : Bool) (ready rv rd : Nat) (s : RdSys) (i j : Nat) :
    rdView g j (masterReadSeg g pause ready rv rd s i) =
      if j = i then rdMaster g pause (s.respReady.testBit j) (ready.testBit j) (rv.testBit j)
        (getLane (8 * g.segBytes) j rd) (rdView g j s)
      else rdView g j s := by
  by_cases hj : j = i
  · subst hj
    rw [if_pos rfl]
    unfold masterReadSeg rdMaster rdView
    simp only
    cases hq : s.segQ j <;> cases pause <;> cases ready.testBit j <;> cases hv : s.valid.testBit j <;>
      cases hr : s.respReady.testBit j <;> cases rv.testBit j <;>
      simp [hq, hv, hr, updAt, getLane_setLane]
  · rw [if_neg hj]
    unfold masterReadSeg rdView
    simp only
    cases hq : s.segQ i <;> cases pause <;> cases ready.testBit i <;> cases hv : s.valid.testBit i <;>
      cases hr : s.respReady.testBit i <;> cases rv.testBit i <;>
      simp [hr, updAt, getLane_setLane_ne, hj, Ne.symm hj]

theorem ramReadSeg_view (g : SegGeo) (mem : Mem) (rr valid addr : Nat) (s : RdSys) (i j : Nat) :
    rdView g j (ramReadSeg g mem rr valid addr s i) =
      if j = i then rdRam g mem j (rr.testBit j) (valid.testBit j) (getLane g.segAddrW j addr)
        (rdView g j s)
      else rdView g j s := by
  by_cases hj : j = i
  · subst hj
    rw [if_pos rfl]
    unfold ramReadSeg rdRam rdRam3 rdRam2 rdRam1 rdView
    simp only
    cases hp : s.pipe j <;> cases rr.testBit j <;> cases hv : s.respValid.testBit j <;>
      cases hr : s.ready.testBit j <;> cases valid.testBit j <;>
      simp [hp, hv, hr, updAt, getLane_setLane]
  · rw [if_neg hj]
    unfold ramReadSeg rdView
    simp only
    cases hp : s.pipe i <;> cases rr.testBit i <;> cases hv : s.respValid.testBit i <;>
      cases hr : s.ready.testBit i <;> cases valid.testBit i <;>
      simp [hp, hv, hr, updAt, getLane_setLane_ne, hj, Ne.symm hj]

/-- One edge, seen from one segment: the master's fields come from the master's half, the RAM's
from the RAM's half. -/
def rdEdgeView (g : SegGeo) (mem : Mem) (i : Nat) (mp rp rr : Bool) (v : RdView) : RdView :=
  let m := rdMaster g mp rr v.ready v.rvalid v.rdata v
  let r := rdRam g mem i rr v.valid v.addr v
  { m with
    ready := if rp then false else r.ready
    pipe := r.pipe
    rvalid := r.rvalid
    rdata := r.rdata }

theorem rdEdge_view (g : SegGeo) (mem : Mem) (mp rp : Bool) (s : RdSys) (i : Nat) (hi : i < g.segCount) :
    rdView g i (rdEdge g mem mp rp s) =
      rdEdgeView g mem i mp rp (s.respReady.testBit i) (rdView g i s) := by
  have hrr : ∀ n, ((List.range n).foldl (masterReadSeg g mp s.ready s.respValid s.respData) s).respReady =
      s.respReady := fun n => foldl_keep (fun s : RdSys => s.respReady) _
        (fun st i => (masterReadSeg_respReady g mp _ _ _ st i).1) _ s
  -- the master's fold, carrying `respReady` along
  have hm := foldl_local (fun j s => (rdView g j s, s.respReady))
    (masterReadSeg g mp s.ready s.respValid s.respData)
    (fun j p => (rdMaster g mp (p.2.testBit j) (s.ready.testBit j) (s.respValid.testBit j)
      (getLane (8 * g.segBytes) j s.respData) p.1, p.2))
    (fun st i j => by
      simp only
      rw [masterReadSeg_view, (masterReadSeg_respReady g mp _ _ _ st i).1]
      split <;> rfl) g.segCount s i
  rw [if_pos hi] at hm
  have hm1 := congrArg Prod.fst hm
  simp only at hm1
  have hr := foldl_local (rdView g) (ramReadSeg g mem s.respReady s.valid s.addr)
    (fun j v => rdRam g mem j (s.respReady.testBit j) (s.valid.testBit j)
      (getLane g.segAddrW j s.addr) v)
    (fun st i j => ramReadSeg_view g mem s.respReady s.valid s.addr st i j) g.segCount s i
  rw [if_pos hi] at hr
  unfold rdEdge rdEdgeView
  generalize (List.range g.segCount).foldl (masterReadSeg g mp s.ready s.respValid s.respData) s = M at *
  generalize (List.range g.segCount).foldl (ramReadSeg g mem s.respReady s.valid s.addr) s = R at *
  have e1 : (rdView g i s).ready = s.ready.testBit i := rfl
  have e2 : (rdView g i s).rvalid = s.respValid.testBit i := rfl
  have e3 : (rdView g i s).rdata = getLane (8 * g.segBytes) i s.respData := rfl
  have e4 : (rdView g i s).valid = s.valid.testBit i := rfl
  have e5 : (rdView g i s).addr = getLane g.segAddrW i s.addr := rfl
  rw [e1, e2, e3, e4, e5]
  simp only [← hm1, ← hr]
  cases rp <;> simp [rdView]

theorem rdEdge_keep (g : SegGeo) (mem : Mem) (mp rp : Bool) (s : RdSys) :
    (rdEdge g mem mp rp s).respCmds = s.respCmds ∧ (rdEdge g mem mp rp s).finished = s.finished := by
  have := foldl_keep (fun s : RdSys => (s.respCmds, s.finished))
    (masterReadSeg g mp s.ready s.respValid s.respData)
    (fun st i => by
      have h := masterReadSeg_respReady g mp s.ready s.respValid s.respData st i
      simp [h.2.1, h.2.2]) (List.range g.segCount) s
  simp only [Prod.mk.injEq] at this
  exact this

/-! ### Invariant -/

/-- Words of one segment that are on their way: received, on the response bus, in the pipeline,
requested, and queued. -/
def rdFlow (g : SegGeo) (mem : Mem) (i : Nat) (v : RdView) : List Nat :=
  v.resp ++ (if v.rvalid then [v.rdata] else []) ++ v.pipe.toList ++
    ((if v.valid then [v.addr] else []) ++ v.q).map (ramRead g mem i)

/-- The pipeline is never overwritten: when the RAM is ready its stage is free or about to be. -/
def rdOk (v : RdView) : Prop := v.ready = true → v.pipe = none ∨ v.rvalid = false

theorem rdEdgeView_flow (g : SegGeo) (mem : Mem) (i : Nat) (mp rp rr : Bool) (v : RdView)
    (hok : rdOk v) (hp : ∀ d, v.pipe = some d → d < 2 ^ (8 * g.segBytes))
    (hq : ∀ a ∈ v.q, a < 2 ^ g.segAddrW) :
    rdFlow g mem i (rdEdgeView g mem i mp rp rr v) = rdFlow g mem i v ∧
      rdOk (rdEdgeView g mem i mp rp rr v) := by
  obtain ⟨q, valid, addr, resp, ready, pipe, rvalid, rdata⟩ := v
  simp only [rdOk] at hok
  simp only at hp hq
  unfold rdEdgeView rdMaster rdRam rdRam3 rdRam2 rdRam1 rdFlow rdOk
  cases pipe with
  | none =>
    cases q with
    | nil => cases mp <;> cases rp <;> cases rr <;> cases ready <;> cases valid <;> cases rvalid <;> simp
    | cons a q =>
      have ha := Nat.mod_eq_of_lt (hq a List.mem_cons_self)
      cases mp <;> cases rp <;> cases rr <;> cases ready <;> cases valid <;> cases rvalid <;> simp [ha]
  | some d =>
    have hd := Nat.mod_eq_of_lt (hp d rfl)
    cases q with
    | nil =>
      cases mp <;> cases rp <;> cases rr <;> cases ready <;> cases valid <;> cases rvalid <;>
        simp_all
    | cons a q =>
      have ha := Nat.mod_eq_of_lt (hq a List.mem_cons_self)
      cases mp <;> cases rp <;> cases rr <;> cases ready <;> cases valid <;> cases rvalid <;>
        simp_all

/-- Pending reads: the first has received `k` words, which hold the first bytes of its result. -/
def rdPend (g : SegGeo) (mem : Mem) : List RCmd → Nat → List (Nat × Nat × Nat × Nat × Nat × List UInt8)
  | [], _ => []
  | c :: cs, k => (c.1, c.2, segmentsOf g c.1 c.2 - k, (c.1 / g.segBytes + k) % g.segCount, k,
      load mem c.1 (min c.2 (k * g.segBytes - c.1 % g.segBytes))) ::
      cs.map fun c => (c.1, c.2, segmentsOf g c.1 c.2, firstSeg g c.1, 0, [])

/-- The word addresses still to be received. -/
def rdRest (g : SegGeo) : List RCmd → Nat → List (Nat × Nat)
  | [], _ => []
  | c :: cs, k => (cmdReads g c).drop k ++ allReads g cs

def rdHeadOk (g : SegGeo) : List RCmd → Nat → Prop
  | [], k => k = 0
  | c :: _, k => k ≤ segmentsOf g c.1 c.2

structure RdInv (g : SegGeo) (mem : Mem) (D P : List RCmd) (k : Nat) (s : RdSys) : Prop where
  ram : ∀ c ∈ D ++ P, InRamRd g c
  flow : ∀ i, i < g.segCount →
    rdFlow g mem i (rdView g i s) = (opsAt i (rdRest g P k)).map (ramRead g mem i)
  qs : ∀ i, i < g.segCount → ∀ a ∈ s.segQ i, a < 2 ^ g.segAddrW
  pipe : ∀ i, i < g.segCount → ∀ d, s.pipe i = some d → d < 2 ^ (8 * g.segBytes)
  ok : ∀ i, i < g.segCount → rdOk (rdView g i s)
  pend : s.respCmds = rdPend g mem P k
  head : rdHeadOk g P k
  fin : s.finished = D.map fun c => load mem c.1 c.2

theorem rdInv_init (g : SegGeo) (mem : Mem) : RdInv g mem [] [] 0 {} := by
  refine ⟨by simp, ?_, ?_, ?_, ?_, rfl, rfl, rfl⟩
  · intro i _; simp [rdFlow, rdView, rdRest]
  · intro i _ a ha; simp at ha
  · intro i _ d hd; simp at hd
  · intro i _ h; simp [rdView] at h

theorem rdEdgeView_q (g : SegGeo) (mem : Mem) (i : Nat) (mp rp rr : Bool) (v : RdView) :
    ∀ a ∈ (rdEdgeView g mem i mp rp rr v).q, a ∈ v.q := by
  intro a
  unfold rdEdgeView rdMaster
  cases hq : v.q <;> cases mp <;> cases v.ready <;> cases v.valid <;> cases rr <;> cases v.rvalid <;>
    simp [hq] <;> (try (intro h; exact Or.inr h))

theorem rdEdgeView_pipe (g : SegGeo) (mem : Mem) (i : Nat) (mp rp rr : Bool) (v : RdView) (d : Nat)
    (h : (rdEdgeView g mem i mp rp rr v).pipe = some d) (hp : ∀ d, v.pipe = some d → d < 2 ^ (8 * g.segBytes)) :
    d < 2 ^ (8 * g.segBytes) := by
  obtain ⟨q, valid, addr, resp, ready, pipe, rvalid, rdata⟩ := v
  simp only at hp
  unfold rdEdgeView rdRam rdRam3 rdRam2 rdRam1 at h
  have hl := ramRead_lt g mem i addr
  cases pipe with
  | none =>
    cases ready <;> cases valid <;> cases rr <;> cases rvalid <;> simp at h <;> omega
  | some e =>
    have := hp e rfl
    cases ready <;> cases valid <;> cases rr <;> cases rvalid <;> simp at h <;> omega

theorem rdInv_edge (g : SegGeo) (mem : Mem) (D P : List RCmd) (k : Nat) (s : RdSys) (mp rp : Bool)
    (h : RdInv g mem D P k s) : RdInv g mem D P k (rdEdge g mem mp rp s) := by
  obtain ⟨k1, k2⟩ := rdEdge_keep g mem mp rp s
  refine ⟨h.ram, ?_, ?_, ?_, ?_, by rw [k1]; exact h.pend, h.head, by rw [k2]; exact h.fin⟩
  · intro i hi
    rw [rdEdge_view g mem mp rp s i hi, (rdEdgeView_flow g mem i mp rp _ _ (h.ok i hi) (h.pipe i hi) (h.qs i hi)).1]
    exact h.flow i hi
  · intro i hi a ha
    have e : (rdEdge g mem mp rp s).segQ i = (rdView g i (rdEdge g mem mp rp s)).q := rfl
    rw [e, rdEdge_view g mem mp rp s i hi] at ha
    exact h.qs i hi a (rdEdgeView_q _ _ _ _ _ _ _ a ha)
  · intro i hi d hd
    have e : (rdEdge g mem mp rp s).pipe i = (rdView g i (rdEdge g mem mp rp s)).pipe := rfl
    rw [e, rdEdge_view g mem mp rp s i hi] at hd
    exact rdEdgeView_pipe _ _ _ _ _ _ _ d hd (h.pipe i hi)
  · intro i hi
    rw [rdEdge_view g mem mp rp s i hi]
    exact (rdEdgeView_flow g mem i mp rp _ _ (h.ok i hi) (h.pipe i hi) (h.qs i hi)).2

theorem rdInv_submit (g : SegGeo) (mem : Mem) (D P : List RCmd) (k : Nat) (s s' : RdSys)
    (aw A len : Nat) (hS : 0 < g.segCount) (hW : 0 < g.segBytes) (hr : InRamRd g (A, len))
    (h : RdInv g mem D P k s) (hs : rdSubmit g aw A len s = some s') :
    RdInv g mem D (P ++ [(A, len)]) k s' := by
  unfold rdSubmit at hs
  split at hs
  · simp at hs
  · simp only [Option.some.injEq] at hs
    subst hs
    have hrest : rdRest g (P ++ [(A, len)]) k = rdRest g P k ++ readOps g A len := by
      cases P with
      | nil => rw [show k = 0 from h.head]; simp [rdRest, allReads, cmdReads]
      | cons c cs => simp [rdRest, allReads, cmdReads]
    refine ⟨?_, ?_, ?_, h.pipe, h.ok, ?_, ?_, h.fin⟩
    · intro c hc
      rw [← List.append_assoc, List.mem_append] at hc
      rcases hc with hc | hc
      · exact h.ram c hc
      · rw [List.mem_singleton] at hc; rw [hc]; exact hr
    · intro i hi
      rw [hrest, opsAt_append, List.map_append, ← h.flow i hi]
      simp [rdFlow, rdView, enqueueReads_eq]
      rfl
    · intro i hi a ha
      have ha' : a ∈ enqueueReads s.segQ (readOps g A len) i := ha
      rw [enqueueReads_eq, List.mem_append] at ha'
      rcases ha' with ha' | ha'
      · exact h.qs i hi a ha'
      · rw [opsAt, List.mem_map] at ha'
        obtain ⟨o, ho, rfl⟩ := ha'
        rw [List.mem_filter] at ho
        obtain ⟨j, hj, rfl⟩ := List.getElem_of_mem ho.1
        rw [readOps_get g A len j hW hj]
        rw [readOps_length g A len hW] at hj
        exact word_addr_lt g A len j hS hW hr hj
    · show s.respCmds ++ _ = _
      rw [h.pend]
      cases P with
      | nil => rw [show k = 0 from h.head]; simp [rdPend, firstSeg, load]
      | cons c cs => simp [rdPend]
    · cases P with
      | nil => rw [show k = 0 from h.head]; simp [rdHeadOk]
      | cons c cs => exact h.head

/-- One more word extends the result by exactly its bytes. -/
theorem load_step (g : SegGeo) (mem : Mem) (A len k : Nat) (hW : 0 < g.segBytes)
    (hk : k < segmentsOf g A len) :
    load mem A (min len (k * g.segBytes - A % g.segBytes)) ++
      segSlice (if k = 0 then A % g.segBytes else 0)
        (if segmentsOf g A len - k - 1 = 0 then (A + len - 1) % g.segBytes + 1 else g.segBytes)
        (ramRead g mem ((A / g.segBytes + k) % g.segCount) ((A / g.segBytes + k) / g.segCount)) =
    load mem A (min len ((k + 1) * g.segBytes - A % g.segBytes)) := by
  have har := segments_arith g.segBytes A len hW
  simp only at har
  rw [← segmentsOf] at har
  have har2 := har.2 (by omega)
  generalize hN : segmentsOf g A len = N at *
  obtain ⟨a1, a2, a3, a4⟩ := har2
  have hA : g.segBytes * (A / g.segBytes) + A % g.segBytes = A := Nat.div_add_mod _ _
  have ho := Nat.mod_lt A hW
  have hNW : g.segBytes * N = g.segBytes * (N - 1) + g.segBytes := by
    conv => lhs; rw [show N = N - 1 + 1 by omega, Nat.mul_succ]
  have hkW : k * g.segBytes ≤ g.segBytes * (N - 1) := by
    rw [Nat.mul_comm g.segBytes]; exact Nat.mul_le_mul_right _ (by omega)
  have hk1 : k ≠ N - 1 → k * g.segBytes + g.segBytes ≤ g.segBytes * (N - 1) := by
    intro h
    rw [Nat.mul_comm g.segBytes, ← Nat.succ_mul]
    exact Nat.mul_le_mul_right _ (by omega)
  have hk0 : k ≠ 0 → g.segBytes ≤ k * g.segBytes := by
    intro h
    have := Nat.mul_le_mul_right g.segBytes (show 1 ≤ k by omega)
    omega
  have hkl : k = N - 1 → k * g.segBytes = g.segBytes * (N - 1) := by
    intro h; rw [h, Nat.mul_comm]
  have hz : k = 0 → k * g.segBytes = 0 := by intro h; rw [h, Nat.zero_mul]
  rw [ramRead_slice _ _ _ _ _ _ (by split <;> omega)]
  rw [Nat.mul_comm ((A / g.segBytes + k) / g.segCount), Nat.div_add_mod, Nat.add_mul,
    Nat.mul_comm (A / g.segBytes), Nat.succ_mul]
  generalize k * g.segBytes = KW at *
  generalize g.segBytes * (N - 1) = LW at *
  generalize hst : (if k = 0 then A % g.segBytes else 0) = start
  generalize hsp : (if N - k - 1 = 0 then (A + len - 1) % g.segBytes + 1 else g.segBytes) = stop
  have e1 : g.segBytes * (A / g.segBytes) + KW + start = A + min len (KW - A % g.segBytes) := by
    subst hst; split <;> omega
  have e2 : min len (KW + g.segBytes - A % g.segBytes) =
      min len (KW - A % g.segBytes) + (stop - start) := by
    subst hst hsp; split <;> split <;> omega
  rw [e1, e2, load_append]

theorem load_full (g : SegGeo) (A len : Nat) (hW : 0 < g.segBytes) :
    min len (segmentsOf g A len * g.segBytes - A % g.segBytes) = len := by
  have har := segments_arith g.segBytes A len hW
  simp only at har
  rw [← segmentsOf] at har
  by_cases h0 : segmentsOf g A len = 0
  · have := har.1 h0; omega
  · obtain ⟨a1, a2, -, -⟩ := har.2 (by omega)
    rw [Nat.mul_comm]
    omega

theorem rdInv_resp (g : SegGeo) (mem : Mem) (D P : List RCmd) (k : Nat) (s : RdSys)
    (hS : 0 < g.segCount) (hW : 0 < g.segBytes) (h : RdInv g mem D P k s) :
    ∃ D' P' k', D' ++ P' = D ++ P ∧ RdInv g mem D' P' k' (rdResp g s) := by
  unfold rdResp
  rw [h.pend]
  cases P with
  | nil => exact ⟨D, [], k, rfl, h⟩
  | cons c cs =>
    simp only [rdPend]
    have hk : k ≤ segmentsOf g c.1 c.2 := h.head
    cases hn : segmentsOf g c.1 c.2 - k with
    | zero =>
      refine ⟨D ++ [c], cs, 0, by simp, ?_⟩
      simp only
      have hkk : k = segmentsOf g c.1 c.2 := by omega
      have hd : (cmdReads g c).drop k = [] := by
        apply List.drop_eq_nil_of_le
        rw [cmdReads, readOps_length g c.1 c.2 hW]; omega
      refine ⟨by simpa using h.ram, ?_, h.qs, h.pipe, h.ok, ?_, ?_, ?_⟩
      · intro i hi
        have := h.flow i hi
        simp only [rdRest, hd, List.nil_append] at this
        rw [show rdRest g cs 0 = allReads g cs from by cases cs <;> simp [rdRest, allReads], ← this]
        rfl
      · show cs.map _ = _
        cases cs with
        | nil => rfl
        | cons d ds => simp [rdPend, firstSeg, load]
      · cases cs with
        | nil => rfl
        | cons d ds => exact Nat.zero_le _
      · show s.finished ++ _ = _
        rw [h.fin, List.map_append, hkk, load_full g c.1 c.2 hW]
        rfl
    | succ n =>
      simp only
      have hx := Nat.mod_lt (c.1 / g.segBytes + k) hS
      have hkl : k < (cmdReads g c).length := by
        rw [cmdReads, readOps_length g c.1 c.2 hW]; omega
      have hget : (cmdReads g c)[k] = ((c.1 / g.segBytes + k) % g.segCount,
        (c.1 / g.segBytes + k) / g.segCount) := readOps_get g c.1 c.2 k hW hkl
      have hrest : rdRest g (c :: cs) k = ((c.1 / g.segBytes + k) % g.segCount,
        (c.1 / g.segBytes + k) / g.segCount) :: rdRest g (c :: cs) (k + 1) := by
        simp only [rdRest]
        rw [← List.getElem_cons_drop hkl, hget]; rfl
      cases hq : s.respQ ((c.1 / g.segBytes + k) % g.segCount) with
      | nil => exact ⟨D, c :: cs, k, rfl, h⟩
      | cons w ws =>
        simp only
        have hw : w = ramRead g mem ((c.1 / g.segBytes + k) % g.segCount)
            ((c.1 / g.segBytes + k) / g.segCount) := by
          have := h.flow _ hx
          rw [hrest, opsAt_cons, if_pos rfl] at this
          simp [rdFlow, rdView, hq] at this
          exact this.1
        refine ⟨D, c :: cs, k + 1, rfl, h.ram, ?_, h.qs, h.pipe, h.ok, ?_, ?_, h.fin⟩
        · intro i hi
          have := h.flow i hi
          rw [hrest, opsAt_cons] at this
          by_cases hii : i = (c.1 / g.segBytes + k) % g.segCount
          · rw [if_pos hii.symm] at this
            rw [← hii] at hq
            simp [rdFlow, rdView, hq] at this
            simp [rdFlow, rdView, updAt, hii]
            rw [← hii]
            exact this.2
          · rw [if_neg (Ne.symm hii), List.nil_append] at this
            rw [← this]
            simp [rdFlow, rdView, updAt, hii]
            rfl
        · show (c.1, c.2, n, _, k + 1, _) :: _ = _
          have hls := load_step g mem c.1 c.2 k hW (by omega)
          rw [show segmentsOf g c.1 c.2 - k - 1 = n by omega] at hls
          simp only [rdPend, List.cons.injEq, and_true, Prod.mk.injEq, true_and]
          refine ⟨by omega, ?_, ?_⟩
          · rw [Nat.mod_add_mod, Nat.add_assoc]
          · rw [← hls, hw]
        · show k + 1 ≤ _
          omega

theorem rdInv_run (g : SegGeo) (mem : Mem) (aw : Nat) (hS : 0 < g.segCount) (hW : 0 < g.segBytes)
    (es : List RdEvent) (D P : List RCmd) (k : Nat) (s s' : RdSys)
    (h : RdInv g mem D P k s) (hr : ∀ c ∈ rdSubmitted es, InRamRd g c)
    (hs : rdRun g aw mem s es = some s') :
    ∃ D' P' k', D' ++ P' = D ++ P ++ rdSubmitted es ∧ RdInv g mem D' P' k' s' := by
  induction es generalizing D P k s with
  | nil =>
    simp only [rdRun, Option.some.injEq] at hs
    subst hs
    exact ⟨D, P, k, by simp [rdSubmitted], h⟩
  | cons e es ih =>
    simp only [rdRun, Option.bind_eq_bind, Option.bind_eq_some_iff] at hs
    obtain ⟨s1, h1, h2⟩ := hs
    cases e with
    | submit A len =>
      have hi := rdInv_submit g mem D P k s s1 aw A len hS hW (hr _ (by simp [rdSubmitted])) h h1
      obtain ⟨D', P', k', e1, e2⟩ := ih _ _ _ _ hi (fun c hc => hr c (by simp [rdSubmitted, hc])) h2
      exact ⟨D', P', k', by rw [e1]; simp [rdSubmitted], e2⟩
    | edge mp rp =>
      simp only [rdStep, Option.some.injEq] at h1
      subst h1
      exact ih _ _ _ _ (rdInv_edge g mem D P k s mp rp h) hr h2
    | resp =>
      simp only [rdStep, Option.some.injEq] at h1
      subst h1
      obtain ⟨D1, P1, k1, e0, hi⟩ := rdInv_resp g mem D P k s hS hW h
      obtain ⟨D', P', k', e1, e2⟩ := ih _ _ _ _ hi hr h2
      exact ⟨D', P', k', by rw [e1, e0]; rfl, e2⟩

theorem rdRun_some (g : SegGeo) (aw : Nat) (mem : Mem) (es : List RdEvent) (s : RdSys) :
    (rdRun g aw mem s es).isSome ↔ ∀ c ∈ rdSubmitted es, c.1 < 2 ^ aw ∧ c.1 + c.2 ≤ 2 ^ aw := by
  induction es generalizing s with
  | nil => simp [rdRun, rdSubmitted]
  | cons e es ih =>
    cases e with
    | submit A len =>
      simp only [rdRun, rdStep, rdSubmit, rdSubmitted, List.forall_mem_cons]
      split
      · simp; omega
      · simp only [Option.bind_eq_bind, Option.bind_some, ih]
        constructor
        · intro h; exact ⟨by omega, h⟩
        · intro h; exact h.2
    | edge mp rp => simp only [rdRun, rdStep, Option.bind_eq_bind, Option.bind_some, ih, rdSubmitted]
    | resp => simp only [rdRun, rdStep, Option.bind_eq_bind, Option.bind_some, ih, rdSubmitted]

/-! ### Progress -/

def rdEdges (n : Nat) : List RdEvent := List.replicate n (.edge false false)

theorem rdRun_append (g : SegGeo) (aw : Nat) (mem : Mem) (es fs : List RdEvent) (s : RdSys) :
    rdRun g aw mem s (es ++ fs) = (rdRun g aw mem s es).bind fun s => rdRun g aw mem s fs := by
  induction es generalizing s with
  | nil => rfl
  | cons e es ih =>
    simp only [List.cons_append, rdRun, Option.bind_eq_bind, Option.bind_assoc]
    congr 1
    funext s
    exact ih s

/-- Words of one segment not yet received, weighted by how far they have to go. -/
def rdWeight (v : RdView) : Nat :=
  4 * v.q.length + 3 * v.valid.toNat + 2 * v.pipe.toList.length + v.rvalid.toNat

/-- Condition after an edge without pauses. -/
def RdGo (g : SegGeo) (s : RdSys) : Prop := ∀ i, i < g.segCount → s.respReady.testBit i = true ∧
  (s.ready.testBit i = (!s.respValid.testBit i || (s.pipe i).isNone))

theorem rdGo_edge (g : SegGeo) (mem : Mem) (s : RdSys) : RdGo g (rdEdge g mem false false s) := by
  intro i hi
  refine ⟨by show (2 ^ g.segCount - 1).testBit i = true; rw [testBit_laneMask]; simp [hi], ?_⟩
  have h := rdEdge_view g mem false false s i hi
  have e1 : (rdEdge g mem false false s).ready.testBit i = (rdView g i (rdEdge g mem false false s)).ready := rfl
  have e2 : (rdEdge g mem false false s).respValid.testBit i =
    (rdView g i (rdEdge g mem false false s)).rvalid := rfl
  have e3 : (rdEdge g mem false false s).pipe i = (rdView g i (rdEdge g mem false false s)).pipe := rfl
  rw [e1, e2, e3, h]
  rfl

theorem rdWeight_edge (g : SegGeo) (mem : Mem) (i : Nat) (v : RdView)
    (hg : v.ready = (!v.rvalid || v.pipe.isNone)) :
    rdWeight (rdEdgeView g mem i false false true v) ≤ rdWeight v - 1 := by
  obtain ⟨q, valid, addr, resp, ready, pipe, rvalid, rdata⟩ := v
  simp only at hg
  unfold rdEdgeView rdMaster rdRam rdRam3 rdRam2 rdRam1 rdWeight
  cases pipe <;> cases q <;> cases valid <;> cases rvalid <;> simp at hg <;> subst hg <;> simp <;> omega

theorem rdDrain_edges (g : SegGeo) (aw : Nat) (mem : Mem) (L : Nat) (s : RdSys) (hg : RdGo g s)
    (hL : ∀ i, i < g.segCount → rdWeight (rdView g i s) ≤ L) :
    ∃ s', rdRun g aw mem s (rdEdges L) = some s' ∧
      ∀ i, i < g.segCount → rdWeight (rdView g i s') = 0 := by
  induction L generalizing s with
  | zero => exact ⟨s, rfl, fun i hi => by have := hL i hi; omega⟩
  | succ L ih =>
    refine (ih (rdEdge g mem false false s) (rdGo_edge g mem s) ?_)
    intro i hi
    rw [rdEdge_view g mem false false s i hi, (hg i hi).1]
    have := rdWeight_edge g mem i (rdView g i s) (hg i hi).2
    have := hL i hi
    omega

def rdMeasure (s : RdSys) : Nat := (s.respCmds.map fun p => p.2.2.1 + 1).sum

/-- Nothing on its way. -/
def RdQuiet (g : SegGeo) (s : RdSys) : Prop := ∀ i, i < g.segCount → rdWeight (rdView g i s) = 0

theorem rdResp_measure (g : SegGeo) (mem : Mem) (D P : List RCmd) (k : Nat) (s : RdSys)
    (hS : 0 < g.segCount) (hW : 0 < g.segBytes) (h : RdInv g mem D P k s)
    (hq : RdQuiet g s) (hP : s.respCmds ≠ []) :
    rdMeasure (rdResp g s) + 1 = rdMeasure s ∧ RdQuiet g (rdResp g s) := by
  cases P with
  | nil => exact absurd h.pend (by simpa [rdPend] using hP)
  | cons c cs =>
    have hp := h.pend
    simp only [rdPend] at hp
    have hk : k ≤ segmentsOf g c.1 c.2 := h.head
    unfold rdMeasure rdResp
    rw [hp]
    cases hn : segmentsOf g c.1 c.2 - k with
    | zero =>
      simp only
      exact ⟨by simp; omega, hq⟩
    | succ n =>
      simp only
      have hx := Nat.mod_lt (c.1 / g.segBytes + k) hS
      have hkl : k < (cmdReads g c).length := by
        rw [cmdReads, readOps_length g c.1 c.2 hW]; omega
      have hget : (cmdReads g c)[k] = ((c.1 / g.segBytes + k) % g.segCount,
        (c.1 / g.segBytes + k) / g.segCount) := readOps_get g c.1 c.2 k hW hkl
      have hrest : rdRest g (c :: cs) k = ((c.1 / g.segBytes + k) % g.segCount,
        (c.1 / g.segBytes + k) / g.segCount) :: rdRest g (c :: cs) (k + 1) := by
        simp only [rdRest]
        rw [← List.getElem_cons_drop hkl, hget]; rfl
      have hfl := h.flow _ hx
      rw [hrest, opsAt_cons, if_pos rfl] at hfl
      have hqx := hq _ hx
      generalize hi : (c.1 / g.segBytes + k) % g.segCount = i at *
      have hv : rdFlow g mem i (rdView g i s) = s.respQ i := by
        have hq2 := hqx
        simp only [rdWeight] at hq2
        have q1 : (rdView g i s).q = [] := List.eq_nil_of_length_eq_zero (by omega)
        have q2 : (rdView g i s).valid = false := by
          cases hv : (rdView g i s).valid
          · rfl
          · rw [hv] at hq2; simp at hq2
        have q3 : (rdView g i s).pipe.toList = [] := List.eq_nil_of_length_eq_zero (by omega)
        have q4 : (rdView g i s).rvalid = false := by
          cases hv : (rdView g i s).rvalid
          · rfl
          · rw [hv] at hq2; simp at hq2
        unfold rdFlow
        rw [q1, q2, q3, q4]
        simp [rdView]
      rw [hv] at hfl
      rw [hfl]
      simp only [List.singleton_append, List.map_cons]
      refine ⟨by simp; omega, ?_⟩
      intro j hj
      exact hq j hj

theorem rdDrain_resps (g : SegGeo) (mem : Mem) (aw : Nat) (hS : 0 < g.segCount) (hW : 0 < g.segBytes)
    (M : Nat) (D P : List RCmd) (k : Nat) (s : RdSys)
    (h : RdInv g mem D P k s) (hq : RdQuiet g s) (hM : rdMeasure s = M) :
    ∃ s', rdRun g aw mem s (List.replicate M .resp) = some s' ∧
      s'.finished = (D ++ P).map fun c => load mem c.1 c.2 := by
  induction M generalizing D P k s with
  | zero =>
    refine ⟨s, rfl, ?_⟩
    cases P with
    | nil => rw [h.fin, List.append_nil]
    | cons c cs =>
      have hp := h.pend
      simp only [rdMeasure, hp, rdPend, List.map_cons, List.sum_cons] at hM
      omega
  | succ M ih =>
    have hne : s.respCmds ≠ [] := by
      intro h0; simp [rdMeasure, h0] at hM
    obtain ⟨h1, h2⟩ := rdResp_measure g mem D P k s hS hW h hq hne
    obtain ⟨D', P', k', e, h3⟩ := rdInv_resp g mem D P k s hS hW h
    obtain ⟨s', r1, r2⟩ := ih D' P' k' _ h3 h2 (by omega)
    exact ⟨s', r1, by rw [r2, e]⟩

theorem rdSubmitted_edges (n : Nat) : rdSubmitted (rdEdges n) = [] := by
  induction n with
  | zero => rfl
  | succ n ih => exact ih

theorem rdDrain (g : SegGeo) (mem : Mem) (aw : Nat) (hS : 0 < g.segCount) (hW : 0 < g.segBytes)
    (D P : List RCmd) (k : Nat) (s : RdSys) (h : RdInv g mem D P k s) :
    ∃ n M s', rdRun g aw mem s (rdEdges n ++ List.replicate M .resp) = some s' ∧
      s'.finished = (D ++ P).map fun c => load mem c.1 c.2 := by
  obtain ⟨L, hL⟩ := exists_bound (fun i => rdWeight (rdView g i (rdEdge g mem false false s))) g.segCount
  obtain ⟨s1, r1, q1⟩ := rdDrain_edges g aw mem L _ (rdGo_edge g mem s) hL
  have r1' : rdRun g aw mem s (rdEdges (L + 1)) = some s1 := r1
  obtain ⟨D', P', k', e, hi⟩ := rdInv_run g mem aw hS hW _ D P k s s1 h
    (by rw [rdSubmitted_edges]; simp) r1'
  obtain ⟨s2, r2, c2⟩ := rdDrain_resps g mem aw hS hW _ D' P' k' s1 hi q1 rfl
  refine ⟨L + 1, rdMeasure s1, s2, ?_, ?_⟩
  · rw [rdRun_append, r1', Option.bind_some]; exact r2
  · rw [c2, e, rdSubmitted_edges, List.append_nil]

end Verif.Proofs
