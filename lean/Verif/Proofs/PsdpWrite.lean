import Verif.Proofs.Psdp
import Verif.Spec.Psdp
/-! Helper lemmas for the segmented RAM: the write path over any history of events. -/
namespace Verif.Proofs
open Verif Verif.Model Verif.Spec

/-! ### Lists -/

/-- A fold over segments in which step `i` changes only view `i`. -/
theorem foldl_local {σ α : Type} (view : Nat → σ → α) (step : σ → Nat → σ) (f : Nat → α → α)
    (h : ∀ st i j, view j (step st i) = if j = i then f j (view j st) else view j st) (n : Nat)
    (st : σ) (j : Nat) : view j ((List.range n).foldl step st) =
      if j < n then f j (view j st) else view j st := by
  induction n with
  | zero => simp
  | succ n ih =>
    rw [List.range_succ, List.foldl_append, List.foldl_cons, List.foldl_nil, h, ih]
    by_cases hj : j = n
    · subst hj; simp
    · by_cases h2 : j < n
      · simp [hj, h2, show j < n + 1 by omega]
      · simp [hj, h2, show ¬ j < n + 1 by omega]

/-- A fold that keeps something keeps it. -/
theorem foldl_keep {σ α : Type} (view : σ → α) (step : σ → Nat → σ)
    (h : ∀ st i, view (step st i) = view st) (l : List Nat) (st : σ) :
    view (l.foldl step st) = view st := by
  induction l generalizing st with
  | nil => rfl
  | cons a l ih => rw [List.foldl_cons, ih, h]

/-- The operations for segment `s`. -/
def opsAt {β : Type} (s : Nat) (l : List (Nat × β)) : List β := (l.filter (·.1 = s)).map (·.2)

@[simp] theorem opsAt_nil {β : Type} (s : Nat) : opsAt s ([] : List (Nat × β)) = [] := rfl

theorem opsAt_append {β : Type} (s : Nat) (l r : List (Nat × β)) :
    opsAt s (l ++ r) = opsAt s l ++ opsAt s r := by
  simp [opsAt]

theorem opsAt_cons {β : Type} (s : Nat) (o : Nat × β) (l : List (Nat × β)) :
    opsAt s (o :: l) = (if o.1 = s then [o.2] else []) ++ opsAt s l := by
  unfold opsAt
  rw [List.filter_cons]
  by_cases h : o.1 = s <;> simp [h]

/-- A prefix of the operations of segment `s` that contains those of a prefix `a` of all operations
is the operations of segment `s` in some longer prefix. -/
theorem opsAt_prefix {β : Type} (s : Nat) (a b : List (Nat × β)) (E R : List β)
    (h : E ++ R = opsAt s (a ++ b)) (hl : (opsAt s a).length ≤ E.length) :
    ∃ u v, b = u ++ v ∧ E = opsAt s (a ++ u) := by
  induction b generalizing a with
  | nil =>
    refine ⟨[], [], rfl, ?_⟩
    have := congrArg List.length h
    simp only [List.append_nil, List.length_append] at this h
    have hR : R = [] := List.eq_nil_of_length_eq_zero (by omega)
    subst hR
    simpa using h
  | cons o b ih =>
    by_cases heq : (opsAt s a).length = E.length
    · refine ⟨[], o :: b, rfl, ?_⟩
      rw [opsAt_append] at h
      rw [List.append_nil]
      exact (List.append_inj h heq.symm).1
    · have hl2 : (opsAt s (a ++ [o])).length ≤ E.length := by
        rw [opsAt_append, List.length_append, opsAt_cons, opsAt_nil, List.append_nil]
        split <;> simp <;> omega
      obtain ⟨u, v, h1, h2⟩ := ih (a ++ [o]) (by simpa using h) hl2
      exact ⟨o :: u, v, by simp [h1], by simpa using h2⟩

theorem enqueueOps_eq (q : Nat → List SegWrite) (ops : List (Nat × SegWrite)) (s : Nat) :
    enqueueOps q ops s = q s ++ opsAt s ops := by
  induction ops generalizing q with
  | nil => simp [enqueueOps]
  | cons o ops ih =>
    obtain ⟨seg, op⟩ := o
    unfold enqueueOps
    rw [ih, opsAt_cons]
    unfold updAt
    by_cases h : s = seg
    · subst h; simp
    · simp [h, Ne.symm h]

/-! ### Commands and what they do at one address -/

/-- A submitted write. -/
abbrev WCmd := Nat × List UInt8

def cmdOps (g : SegGeo) (c : WCmd) : List (Nat × SegWrite) := (writeOps g c.1 c.2).getD []
def allOps (g : SegGeo) (C : List WCmd) : List (Nat × SegWrite) := C.flatMap (cmdOps g)

theorem allOps_append (g : SegGeo) (C D : List WCmd) : allOps g (C ++ D) = allOps g C ++ allOps g D := by
  simp [allOps]

theorem cmdOps_spec (g : SegGeo) (c : WCmd) (hW : 0 < g.segBytes) :
    writeOps g c.1 c.2 = some (cmdOps g c) ∧ (cmdOps g c).length = segmentsOf g c.1 c.2.length ∧
      OpsFrom g c.1 c.2 0 (cmdOps g c) := by
  obtain ⟨ops, h1, h2, h3⟩ := writeOps_spec g c.1 c.2 hW
  simp [cmdOps, h1, h2, h3]

theorem opsFrom_get {g : SegGeo} {A : Nat} {data : List UInt8} {ops : List (Nat × SegWrite)} {k : Nat}
    (h : OpsFrom g A data k ops) (i : Nat) (hi : i < ops.length) : OpFor g A data (k + i) ops[i] := by
  induction ops generalizing k i with
  | nil => simp at hi
  | cons o ops ih =>
    cases i with
    | zero => exact h.1
    | succ i =>
      have := ih h.2 i (by simpa using hi)
      rw [show k + 1 + i = k + (i + 1) by omega] at this
      exact this

/-- The byte at `x` after an operation, given the byte before. -/
def byteOp (g : SegGeo) (x : Nat) (v : UInt8) (o : Nat × SegWrite) : UInt8 :=
  ramWrite g (fun _ => v) o.1 o.2.addr o.2.data o.2.be x

/-- The byte at `x` after a write, given the byte before. -/
def byteCmd (x : Nat) (v : UInt8) (c : WCmd) : UInt8 := store (fun _ => v) c.1 c.2 x

theorem store_byte (m : Mem) (c : WCmd) (x : Nat) : store m c.1 c.2 x = byteCmd x (m x) c := rfl

theorem byteOp_opFor (g : SegGeo) (c : WCmd) (k x : Nat) (v : UInt8) (o : Nat × SegWrite)
    (hS : 0 < g.segCount) (hW : 0 < g.segBytes) (h : OpFor g c.1 c.2 k o) :
    byteOp g x v o = if x / g.segBytes = c.1 / g.segBytes + k then byteCmd x v c else v :=
  ramWrite_opFor g _ _ _ k x o hS hW h

theorem opsFrom_fold (g : SegGeo) (c : WCmd) (x : Nat) (hS : 0 < g.segCount) (hW : 0 < g.segBytes)
    (ops : List (Nat × SegWrite)) (k : Nat) (v : UInt8) (h : OpsFrom g c.1 c.2 k ops) :
    ops.foldl (byteOp g x) v = if c.1 / g.segBytes + k ≤ x / g.segBytes ∧
      x / g.segBytes < c.1 / g.segBytes + k + ops.length then byteCmd x v c else v := by
  induction ops generalizing k v with
  | nil => rw [if_neg (by simp only [List.length_nil]; omega)]; rfl
  | cons o ops ih =>
    rw [List.foldl_cons, ih (k + 1) _ h.2, byteOp_opFor g c k x v o hS hW h.1, List.length_cons]
    by_cases h1 : x / g.segBytes = c.1 / g.segBytes + k
    · rw [if_pos h1, if_neg (by omega), if_pos (by omega)]
    · rw [if_neg h1]
      by_cases h2 : c.1 / g.segBytes + k ≤ x / g.segBytes ∧
        x / g.segBytes < c.1 / g.segBytes + k + (ops.length + 1)
      · rw [if_pos h2, if_pos (by omega)]
      · rw [if_neg h2, if_neg (by omega)]

theorem opsFrom_append {g : SegGeo} {A : Nat} {data : List UInt8} {u v : List (Nat × SegWrite)} {k : Nat}
    (h : OpsFrom g A data k (u ++ v)) : OpsFrom g A data k u := by
  induction u generalizing k with
  | nil => trivial
  | cons o u ih => exact ⟨h.1, ih h.2⟩

/-- All operations of a command together perform the write. -/
theorem cmdOps_fold (g : SegGeo) (c : WCmd) (x : Nat) (v : UInt8) (hS : 0 < g.segCount)
    (hW : 0 < g.segBytes) : (cmdOps g c).foldl (byteOp g x) v = byteCmd x v c := by
  obtain ⟨-, h2, h3⟩ := cmdOps_spec g c hW
  rw [opsFrom_fold g c x hS hW _ 0 v h3, h2]
  have har := segments_arith g.segBytes c.1 c.2.length hW
  simp only at har
  rw [← segmentsOf] at har
  generalize hN : segmentsOf g c.1 c.2.length = N at *
  by_cases h : c.1 ≤ x ∧ x < c.1 + c.2.length
  · rw [if_pos]
    have hN0 : 0 < N := Nat.pos_of_ne_zero (fun h0 => by have := har.1 h0; omega)
    obtain ⟨a1, a2, -, -⟩ := har.2 hN0
    refine ⟨by rw [Nat.add_zero]; exact Nat.div_le_div_right h.1, ?_⟩
    rw [Nat.add_zero, Nat.div_lt_iff_lt_mul hW, Nat.add_mul, Nat.mul_comm N]
    have := Nat.div_add_mod c.1 g.segBytes
    rw [Nat.mul_comm] at this
    omega
  · have : byteCmd x v c = v := by
      unfold byteCmd store; rw [if_neg h]
    rw [this]; split <;> rfl

/-- A prefix of the operations of a command performs all of it or nothing at address `x`. -/
theorem cmdOps_prefix (g : SegGeo) (c : WCmd) (x : Nat) (v : UInt8) (hS : 0 < g.segCount)
    (hW : 0 < g.segBytes) (u w : List (Nat × SegWrite)) (h : cmdOps g c = u ++ w) :
    u.foldl (byteOp g x) v = byteCmd x v c ∨ u.foldl (byteOp g x) v = v := by
  obtain ⟨-, -, h3⟩ := cmdOps_spec g c hW
  rw [h] at h3
  rw [opsFrom_fold g c x hS hW u 0 v (opsFrom_append h3)]
  split
  · exact Or.inl rfl
  · exact Or.inr rfl

theorem allOps_fold (g : SegGeo) (x : Nat) (hS : 0 < g.segCount) (hW : 0 < g.segBytes)
    (C : List WCmd) (v : UInt8) : (allOps g C).foldl (byteOp g x) v = C.foldl (byteCmd x) v := by
  induction C generalizing v with
  | nil => rfl
  | cons c C ih =>
    rw [show allOps g (c :: C) = cmdOps g c ++ allOps g C from by simp [allOps], List.foldl_append,
      cmdOps_fold g c x v hS hW, ih, List.foldl_cons]

/-- A prefix of all operations performs some prefix of the commands at address `x`. -/
theorem allOps_prefix (g : SegGeo) (x : Nat) (hS : 0 < g.segCount) (hW : 0 < g.segBytes)
    (C : List WCmd) (v : UInt8) (u w : List (Nat × SegWrite)) (h : allOps g C = u ++ w) :
    ∃ n, n ≤ C.length ∧ u.foldl (byteOp g x) v = (C.take n).foldl (byteCmd x) v := by
  induction C generalizing v u with
  | nil =>
    have : u = [] := by
      have := congrArg List.length h
      simp [allOps] at this
      exact List.eq_nil_of_length_eq_zero (by omega)
    exact ⟨0, by simp, by simp [this]⟩
  | cons c C ih =>
    rw [show allOps g (c :: C) = cmdOps g c ++ allOps g C from by simp [allOps]] at h
    rcases List.append_eq_append_iff.mp h with ⟨a, h1, h2⟩ | ⟨a, h1, h2⟩
    · obtain ⟨n, hn, e⟩ := ih (byteCmd x v c) a h2
      refine ⟨n + 1, by simpa using hn, ?_⟩
      rw [h1, List.foldl_append, cmdOps_fold g c x v hS hW, e, List.take_succ_cons, List.foldl_cons]
    · rcases cmdOps_prefix g c x v hS hW u a h1 with e | e
      · exact ⟨1, by simp, by simp [e]⟩
      · exact ⟨0, by simp, by simp [e]⟩

/-- Operations of other segments do not touch `x`. -/
theorem byteOp_other (g : SegGeo) (x : Nat) (v : UInt8) (o : Nat × SegWrite) (hS : 0 < g.segCount)
    (hW : 0 < g.segBytes) (hbe : o.2.be < 2 ^ g.segBytes) (hseg : o.1 < g.segCount)
    (h : o.1 ≠ x / g.segBytes % g.segCount) : byteOp g x v o = v := by
  unfold byteOp
  rw [ramWrite_spec g _ _ _ _ _ x hS hbe, if_neg]
  intro hc
  apply h
  have hlt : x - (o.2.addr * g.segCount + o.1) * g.segBytes < g.segBytes := by
    apply Classical.byContradiction
    intro hc2
    have := Nat.pow_le_pow_right (show 0 < 2 by omega) (Nat.le_of_not_lt hc2)
    have h3 := hc.2
    rw [Nat.testBit_lt_two_pow (by omega)] at h3
    exact absurd h3 (by simp)
  have e : x = (x - (o.2.addr * g.segCount + o.1) * g.segBytes) +
      g.segBytes * (o.2.addr * g.segCount + o.1) := by
    rw [Nat.mul_comm g.segBytes]; omega
  rw [e, Nat.add_mul_div_left _ _ hW, Nat.div_eq_of_lt hlt, Nat.zero_add, Nat.mul_comm,
    Nat.mul_add_mod, Nat.mod_eq_of_lt hseg]

/-- An operation that fits its lanes. -/
structure OpWf (g : SegGeo) (o : Nat × SegWrite) : Prop where
  seg : o.1 < g.segCount
  addr : o.2.addr < 2 ^ g.segAddrW
  data : o.2.data < 2 ^ (8 * g.segBytes)
  be : o.2.be < 2 ^ g.segBytes

theorem opsAt_fold (g : SegGeo) (x : Nat) (hS : 0 < g.segCount) (hW : 0 < g.segBytes)
    (l : List (Nat × SegWrite)) (v : UInt8) (h : ∀ o ∈ l, OpWf g o) :
    (opsAt (x / g.segBytes % g.segCount) l).foldl
      (fun v o => byteOp g x v (x / g.segBytes % g.segCount, o)) v = l.foldl (byteOp g x) v := by
  induction l generalizing v with
  | nil => rfl
  | cons o l ih =>
    rw [opsAt_cons, List.foldl_append, List.foldl_cons]
    have hl : ∀ o ∈ l, OpWf g o := fun o ho => h o (List.mem_cons_of_mem _ ho)
    have ho := h o List.mem_cons_self
    by_cases hs : o.1 = x / g.segBytes % g.segCount
    · rw [if_pos hs, List.foldl_cons, List.foldl_nil, ih _ hl, ← hs]
    · rw [if_neg hs, List.foldl_nil, ih _ hl, byteOp_other g x v o hS hW ho.be ho.seg hs]

/-- The bytes of the command lie within the RAM. -/
def InRam (g : SegGeo) (c : WCmd) : Prop := c.1 + c.2.length ≤ 2 ^ g.segAddrW * g.byteLanes

theorem cmdOps_wf (g : SegGeo) (c : WCmd) (hS : 0 < g.segCount) (hW : 0 < g.segBytes)
    (hr : InRam g c) : ∀ o ∈ cmdOps g c, OpWf g o := by
  obtain ⟨-, h2, h3⟩ := cmdOps_spec g c hW
  intro o ho
  obtain ⟨i, hi, rfl⟩ := List.getElem_of_mem ho
  have h := opsFrom_get h3 i hi
  rw [Nat.zero_add] at h
  refine ⟨by rw [h.seg]; exact Nat.mod_lt _ hS, ?_, h.dataLt, opFor_be_lt h⟩
  rw [h.addr]
  have har := segments_arith g.segBytes c.1 c.2.length hW
  simp only at har
  rw [← segmentsOf, ← h2] at har
  obtain ⟨a1, a2, a3, -⟩ := har.2 (by omega)
  rw [Nat.div_lt_iff_lt_mul hS]
  apply Nat.lt_of_mul_lt_mul_right (a := g.segBytes)
  have e : 2 ^ g.segAddrW * g.segCount * g.segBytes = 2 ^ g.segAddrW * g.byteLanes := by
    unfold SegGeo.byteLanes; rw [Nat.mul_assoc, Nat.mul_comm g.segCount]
  rw [e, Nat.add_mul]
  have hA := Nat.div_add_mod c.1 g.segBytes
  have hi2 : i * g.segBytes ≤ g.segBytes * ((cmdOps g c).length - 1) := by
    rw [Nat.mul_comm g.segBytes]; exact Nat.mul_le_mul_right _ (by omega)
  rw [Nat.mul_comm] at hA
  unfold InRam at hr
  omega

/-! ### One clock edge -/

/-- The operation presented on segment `s`. -/
def inflight (g : SegGeo) (s : WrSys) (i : Nat) : List SegWrite :=
  if s.valid.testBit i then
    [⟨getLane g.segAddrW i s.addr, getLane (8 * g.segBytes) i s.data, getLane g.segBytes i s.be⟩]
  else []

/-- What the master keeps for one segment. -/
structure SegView where
  q : List SegWrite
  valid : Bool
  addr : Nat
  data : Nat
  be : Nat
  resp : Nat

def segView (g : SegGeo) (i : Nat) (s : WrSys) : SegView :=
  ⟨s.segQ i, s.valid.testBit i, getLane g.segAddrW i s.addr, getLane (8 * g.segBytes) i s.data,
    getLane g.segBytes i s.be, s.respQ i⟩

/-- One edge at the master, seen from one segment. -/
def segStep (g : SegGeo) (pause ready done : Bool) (v : SegView) : SegView :=
  let v' := if ready || !v.valid then
      match v.q, pause with
      | op :: rest, false =>
        { v with
          q := rest
          valid := true
          addr := op.addr % 2 ^ g.segAddrW
          data := op.data % 2 ^ (8 * g.segBytes)
          be := op.be % 2 ^ g.segBytes }
      | _, _ => { v with valid := false }
    else v
  if done then { v' with resp := v'.resp + 1 } else v'

theorem masterWriteSeg_view (g : SegGeo) (pause : Bool) (ready done : Nat) (s : WrSys) (i j : Nat) :
    segView g j (masterWriteSeg g pause ready done s i) =
      if j = i then segStep g pause (ready.testBit j) (done.testBit j) (segView g j s)
      else segView g j s := by
  by_cases hj : j = i
  · subst hj
    rw [if_pos rfl]
    unfold masterWriteSeg segStep segView
    simp only
    cases hq : s.segQ j <;> cases pause <;> cases ready.testBit j <;> cases hv : s.valid.testBit j <;>
      cases done.testBit j <;>
      simp [hq, hv, updAt, getLane_setLane]
  · rw [if_neg hj]
    unfold masterWriteSeg segView
    simp only
    cases hq : s.segQ i <;> cases pause <;> cases ready.testBit i <;> cases hv : s.valid.testBit i <;>
      cases done.testBit i <;>
      simp [updAt, getLane_setLane_ne, hj, Ne.symm hj]

theorem masterWriteSeg_keep (g : SegGeo) (pause : Bool) (ready done : Nat) (s : WrSys) (i : Nat) :
    ((masterWriteSeg g pause ready done s i).respCmds, (masterWriteSeg g pause ready done s i).completed) =
      (s.respCmds, s.completed) := by
  unfold masterWriteSeg
  cases hq : s.segQ i <;> cases pause <;> cases ready.testBit i <;> cases hv : s.valid.testBit i <;>
      cases done.testBit i <;> simp

theorem wrEdge_view (g : SegGeo) (mp rp : Bool) (s : WrSys) (j : Nat) (hj : j < g.segCount) :
    segView g j (wrEdge g mp rp s) =
      segStep g mp (s.ready.testBit j) (s.done.testBit j) (segView g j s) := by
  have := foldl_local (segView g) (masterWriteSeg g mp s.ready s.done)
    (fun j v => segStep g mp (s.ready.testBit j) (s.done.testBit j) v)
    (fun st i j => masterWriteSeg_view g mp s.ready s.done st i j) g.segCount s j
  rw [if_pos hj] at this
  exact this

theorem wrEdge_keep (g : SegGeo) (mp rp : Bool) (s : WrSys) :
    (wrEdge g mp rp s).respCmds = s.respCmds ∧ (wrEdge g mp rp s).completed = s.completed := by
  have := foldl_keep (fun s : WrSys => (s.respCmds, s.completed)) (masterWriteSeg g mp s.ready s.done)
    (fun st i => masterWriteSeg_keep g mp s.ready s.done st i) (List.range g.segCount) s
  simp only [Prod.mk.injEq] at this
  exact this

/-- The operation performed at the RAM on segment `i` at this edge. -/
def fired (g : SegGeo) (s : WrSys) (i : Nat) : List SegWrite :=
  if s.ready.testBit i then inflight g s i else []

theorem ramWrite_byte (g : SegGeo) (m : Mem) (seg a d be x : Nat) (hS : 0 < g.segCount)
    (hbe : be < 2 ^ g.segBytes) :
    ramWrite g m seg a d be x = byteOp g x (m x) (seg, ⟨a, d, be⟩) := by
  unfold byteOp
  rw [ramWrite_spec g _ _ _ _ _ x hS hbe, ramWrite_spec g _ _ _ _ _ x hS hbe]

theorem wrEdge_ram (g : SegGeo) (s : WrSys) (hS : 0 < g.segCount) (hW : 0 < g.segBytes) (n : Nat)
    (hn : n ≤ g.segCount) :
    let r := (List.range n).foldl (ramWriteSeg g s.ready s.valid s.addr s.data s.be) (s.mem, 0)
    (∀ x, r.1 x = if x / g.segBytes % g.segCount < n then
      (fired g s (x / g.segBytes % g.segCount)).foldl
        (fun v o => byteOp g x v (x / g.segBytes % g.segCount, o)) (s.mem x) else s.mem x) ∧
    (∀ i, r.2.testBit i = (decide (i < n) && (s.ready.testBit i && s.valid.testBit i))) := by
  induction n with
  | zero => simp
  | succ n ih =>
    obtain ⟨h1, h2⟩ := ih (by omega)
    simp only [List.range_succ, List.foldl_append, List.foldl_cons, List.foldl_nil] at *
    generalize (List.range n).foldl (ramWriteSeg g s.ready s.valid s.addr s.data s.be) (s.mem, 0) = r at *
    unfold ramWriteSeg
    by_cases hf : (s.ready.testBit n && s.valid.testBit n) = true
    · rw [if_pos hf]
      simp only [Bool.and_eq_true] at hf
      have hfire : fired g s n = [⟨getLane g.segAddrW n s.addr, getLane (8 * g.segBytes) n s.data,
          getLane g.segBytes n s.be⟩] := by
        simp [fired, inflight, hf]
      refine ⟨fun x => ?_, fun i => ?_⟩
      · show ramWrite _ _ _ _ _ _ x = _
        rw [ramWrite_byte g _ _ _ _ _ x hS (getLane_lt _ _ _), h1 x]
        by_cases hx : x / g.segBytes % g.segCount = n
        · rw [if_neg (by omega), if_pos (by omega), hx, hfire]; rfl
        · rw [byteOp_other g x _ _ hS hW (getLane_lt _ _ _) (by simp; omega) (by simp; omega)]
          by_cases hx2 : x / g.segBytes % g.segCount < n
          · rw [if_pos hx2, if_pos (by omega)]
          · rw [if_neg hx2, if_neg (by omega)]
      · show (setBit r.2 n).testBit i = _
        rw [testBit_setBit, h2]
        by_cases hi : i = n
        · subst hi; simp [hf]
        · by_cases h3 : i < n
          · simp [h3, show i < n + 1 by omega, Ne.symm hi]
          · simp [h3, show ¬ i < n + 1 by omega, Ne.symm hi]
    · rw [if_neg hf]
      have hfire : fired g s n = [] := by
        simp only [fired, inflight]
        simp only [Bool.and_eq_true] at hf
        split
        · rw [if_neg (by intro h; exact hf ⟨by assumption, h⟩)]
        · rfl
      refine ⟨fun x => ?_, fun i => ?_⟩
      · show r.1 x = _
        rw [h1]
        by_cases hx : x / g.segBytes % g.segCount = n
        · rw [if_neg (by omega), if_pos (by omega), hx, hfire]; rfl
        · by_cases hx2 : x / g.segBytes % g.segCount < n
          · rw [if_pos hx2, if_pos (by omega)]
          · rw [if_neg hx2, if_neg (by omega)]
      · show r.2.testBit i = _
        rw [h2]
        by_cases hi : i = n
        · subst hi
          have : (s.ready.testBit i && s.valid.testBit i) = false := by simpa using hf
          simp [this]
        · by_cases h3 : i < n
          · simp [h3, show i < n + 1 by omega]
          · simp [h3, show ¬ i < n + 1 by omega]

theorem wrEdge_mem (g : SegGeo) (mp rp : Bool) (s : WrSys) (hS : 0 < g.segCount) (hW : 0 < g.segBytes)
    (x : Nat) : (wrEdge g mp rp s).mem x = (fired g s (x / g.segBytes % g.segCount)).foldl
        (fun v o => byteOp g x v (x / g.segBytes % g.segCount, o)) (s.mem x) := by
  have := (wrEdge_ram g s hS hW g.segCount (by omega)).1 x
  rw [if_pos (Nat.mod_lt _ hS)] at this
  exact this

theorem wrEdge_done (g : SegGeo) (mp rp : Bool) (s : WrSys) (hS : 0 < g.segCount) (hW : 0 < g.segBytes)
    (i : Nat) (hi : i < g.segCount) :
    (wrEdge g mp rp s).done.testBit i = (s.ready.testBit i && s.valid.testBit i) := by
  have := (wrEdge_ram g s hS hW g.segCount (by omega)).2 i
  rw [decide_eq_true hi, Bool.true_and] at this
  exact this

/-! ### Invariant -/

/-- Pending responses of the commands `P`, the first of which has `k` acknowledged operations. -/
def pendList (g : SegGeo) : List WCmd → Nat → List (Nat × Nat)
  | [], _ => []
  | c :: cs, k => (segmentsOf g c.1 c.2.length - k, (c.1 / g.segBytes + k) % g.segCount) ::
      cs.map fun c => (segmentsOf g c.1 c.2.length, firstSeg g c.1)

/-- The acknowledged operations of the first pending command. -/
def ackHead (g : SegGeo) : List WCmd → Nat → List (Nat × SegWrite)
  | [], _ => []
  | c :: _, k => (cmdOps g c).take k

def headOk (g : SegGeo) : List WCmd → Nat → Prop
  | [], k => k = 0
  | c :: _, k => k ≤ segmentsOf g c.1 c.2.length

/-- Invariant of the write path: `D` are the completed commands, `P` the pending ones, `E` the
operations performed by each segment so far. -/
structure WrInv (g : SegGeo) (m0 : Mem) (D P : List WCmd) (k : Nat) (E : Nat → List SegWrite)
    (s : WrSys) : Prop where
  ram : ∀ c ∈ D ++ P, InRam g c
  flow : ∀ i, i < g.segCount → E i ++ inflight g s i ++ s.segQ i = opsAt i (allOps g (D ++ P))
  mem : ∀ x, s.mem x = (E (x / g.segBytes % g.segCount)).foldl
    (fun v o => byteOp g x v (x / g.segBytes % g.segCount, o)) (m0 x)
  ack : ∀ i, i < g.segCount → (E i).length = (opsAt i (allOps g D ++ ackHead g P k)).length +
    s.respQ i + (s.done.testBit i).toNat
  completed : s.completed = D.length
  pend : s.respCmds = pendList g P k
  head : headOk g P k

theorem wrInv_init (g : SegGeo) (m0 : Mem) : WrInv g m0 [] [] 0 (fun _ => []) { mem := m0 } :=
  ⟨by simp, by intro i _; simp [inflight, allOps], by simp, by intro i _; simp [allOps, ackHead],
    rfl, rfl, rfl⟩

theorem allOps_wf (g : SegGeo) (C : List WCmd) (hS : 0 < g.segCount) (hW : 0 < g.segBytes)
    (hr : ∀ c ∈ C, InRam g c) : ∀ o ∈ allOps g C, OpWf g o := by
  intro o ho
  rw [allOps, List.mem_flatMap] at ho
  obtain ⟨c, hc, ho⟩ := ho
  exact cmdOps_wf g c hS hW (hr c hc) o ho

theorem wrInv_edge (g : SegGeo) (m0 : Mem) (D P : List WCmd) (k : Nat) (E : Nat → List SegWrite)
    (s : WrSys) (mp rp : Bool) (hS : 0 < g.segCount) (hW : 0 < g.segBytes)
    (h : WrInv g m0 D P k E s) :
    WrInv g m0 D P k (fun i => E i ++ fired g s i) (wrEdge g mp rp s) := by
  obtain ⟨k1, k2⟩ := wrEdge_keep g mp rp s
  refine ⟨h.ram, ?_, ?_, ?_, by rw [k2]; exact h.completed, by rw [k1]; exact h.pend, h.head⟩
  · intro i hi
    have hv := wrEdge_view g mp rp s i hi
    have hf := h.flow i hi
    have hq : ∀ op rest, s.segQ i = op :: rest → OpWf g (i, op) := by
      intro op rest hq
      have hm : op ∈ opsAt i (allOps g (D ++ P)) := by
        rw [← hf, hq]; simp
      rw [opsAt, List.mem_map] at hm
      obtain ⟨o, ho, e⟩ := hm
      rw [List.mem_filter] at ho
      have hw := allOps_wf g _ hS hW h.ram o ho.1
      have : o = (i, op) := by
        obtain ⟨a, b⟩ := o
        simp at e ho
        simp [e, ho.2]
      rw [← this]; exact hw
    rw [← hf]
    have e1 : (wrEdge g mp rp s).segQ i = (segView g i (wrEdge g mp rp s)).q := rfl
    have e2 : inflight g (wrEdge g mp rp s) i = if (segView g i (wrEdge g mp rp s)).valid then
        [⟨(segView g i (wrEdge g mp rp s)).addr, (segView g i (wrEdge g mp rp s)).data,
          (segView g i (wrEdge g mp rp s)).be⟩] else [] := rfl
    rw [e1, e2, hv]
    unfold segStep fired inflight segView
    simp only
    cases hqq : s.segQ i with
    | nil => cases mp <;> cases s.ready.testBit i <;> cases s.valid.testBit i <;>
        cases s.done.testBit i <;> simp
    | cons op rest =>
      have hw := hq op rest hqq
      cases mp <;> cases s.ready.testBit i <;> cases s.valid.testBit i <;>
        cases s.done.testBit i <;>
        simp [Nat.mod_eq_of_lt hw.addr, Nat.mod_eq_of_lt hw.data, Nat.mod_eq_of_lt hw.be]
  · intro x
    rw [wrEdge_mem g mp rp s hS hW x, h.mem x, List.foldl_append]
  · intro i hi
    have hv := wrEdge_view g mp rp s i hi
    have ha := h.ack i hi
    have e1 : (wrEdge g mp rp s).respQ i = (segView g i (wrEdge g mp rp s)).resp := rfl
    have e2 : (segStep g mp (s.ready.testBit i) (s.done.testBit i) (segView g i s)).resp =
        s.respQ i + (s.done.testBit i).toNat := by
      unfold segStep segView
      cases s.segQ i <;> cases mp <;> cases s.ready.testBit i <;> cases s.valid.testBit i <;>
        cases s.done.testBit i <;> simp
    have e3 : (fired g s i).length = (s.ready.testBit i && s.valid.testBit i).toNat := by
      unfold fired inflight
      cases s.ready.testBit i <;> cases s.valid.testBit i <;> simp
    rw [e1, hv, e2, wrEdge_done g mp rp s hS hW i hi, List.length_append, ha, e3]
    omega

theorem wrInv_submit (g : SegGeo) (m0 : Mem) (D P : List WCmd) (k : Nat) (E : Nat → List SegWrite)
    (s s' : WrSys) (aw A : Nat) (data : List UInt8) (hW : 0 < g.segBytes)
    (hr : InRam g (A, data)) (h : WrInv g m0 D P k E s) (hs : wrSubmit g aw A data s = some s') :
    WrInv g m0 D (P ++ [(A, data)]) k E s' := by
  unfold wrSubmit at hs
  split at hs
  · simp at hs
  · obtain ⟨h1, h2, h3⟩ := cmdOps_spec g (A, data) hW
    rw [h1] at hs
    simp only [Option.bind_eq_bind, Option.bind_some, Option.some.injEq] at hs
    subst hs
    have hack : ackHead g (P ++ [(A, data)]) k = ackHead g P k := by
      cases P with
      | nil => rw [show k = 0 from h.head]; simp [ackHead]
      | cons c cs => rfl
    refine ⟨?_, ?_, h.mem, ?_, h.completed, ?_, ?_⟩
    · intro c hc
      rw [← List.append_assoc, List.mem_append] at hc
      rcases hc with hc | hc
      · exact h.ram c hc
      · rw [List.mem_singleton] at hc; rw [hc]; exact hr
    · intro i hi
      show E i ++ inflight g s i ++ enqueueOps s.segQ _ i = _
      rw [enqueueOps_eq, ← List.append_assoc, h.flow i hi, ← List.append_assoc D, allOps_append g (D ++ P),
        opsAt_append]
      simp [allOps]
    · intro i hi
      rw [hack]; exact h.ack i hi
    · show s.respCmds ++ _ = _
      rw [h.pend]
      cases P with
      | nil => rw [show k = 0 from h.head]; simp [pendList, firstSeg]
      | cons c cs => simp [pendList]
    · cases P with
      | nil => rw [show k = 0 from h.head]; simp [headOk]
      | cons c cs => exact h.head

theorem wrInv_resp (g : SegGeo) (m0 : Mem) (D P : List WCmd) (k : Nat) (E : Nat → List SegWrite)
    (s : WrSys) (hW : 0 < g.segBytes) (h : WrInv g m0 D P k E s) :
    ∃ D' P' k', D' ++ P' = D ++ P ∧ WrInv g m0 D' P' k' E (wrResp g s) := by
  unfold wrResp
  rw [h.pend]
  cases P with
  | nil => exact ⟨D, [], k, rfl, h⟩
  | cons c cs =>
    simp only [pendList]
    obtain ⟨c1, c2, c3⟩ := cmdOps_spec g c hW
    have hk : k ≤ segmentsOf g c.1 c.2.length := h.head
    cases hn : segmentsOf g c.1 c.2.length - k with
    | zero =>
      refine ⟨D ++ [c], cs, 0, by simp, ?_⟩
      simp only
      have hfull : (cmdOps g c).take k = cmdOps g c := List.take_of_length_le (by omega)
      refine ⟨by simpa using h.ram, by rw [List.append_assoc]; exact h.flow, h.mem, ?_, ?_, ?_, ?_⟩
      · intro i hi
        have := h.ack i hi
        simp only [ackHead, hfull] at this
        rw [show (E i).length = _ from this]
        have e : ackHead g cs 0 = [] := by cases cs <;> simp [ackHead]
        rw [e, allOps_append, List.append_nil]
        simp [allOps]
      · show s.completed + 1 = _
        rw [h.completed]; simp
      · show cs.map _ = _
        cases cs with
        | nil => rfl
        | cons d ds => simp [pendList, firstSeg]
      · cases cs with
        | nil => rfl
        | cons d ds => exact Nat.zero_le _
    | succ n =>
      simp only
      split
      · exact ⟨D, c :: cs, k, rfl, h⟩
      · rename_i hq
        have hkl : k < (cmdOps g c).length := by omega
        have hop := opsFrom_get c3 k hkl
        rw [Nat.zero_add] at hop
        refine ⟨D, c :: cs, k + 1, rfl, h.ram, h.flow, h.mem, ?_, h.completed, ?_, ?_⟩
        · intro i hi
          have := h.ack i hi
          simp only [ackHead] at this ⊢
          rw [List.take_succ_eq_append_getElem hkl, ← List.append_assoc, opsAt_append, opsAt_cons, opsAt_nil,
            List.append_nil, List.length_append, this, hop.seg]
          show _ = _ + updAt s.respQ ((c.1 / g.segBytes + k) % g.segCount) _ i + _
          unfold updAt
          by_cases hii : i = (c.1 / g.segBytes + k) % g.segCount
          · rw [if_pos hii, if_pos hii.symm, ← hii]
            rw [← hii] at hq
            simp only [List.length_singleton]
            omega
          · rw [if_neg hii, if_neg (Ne.symm hii)]; simp
        · show (n, _) :: _ = _
          simp only [pendList, List.cons.injEq, and_true, Prod.mk.injEq]
          refine ⟨by omega, ?_⟩
          rw [Nat.mod_add_mod, Nat.add_assoc]
        · show k + 1 ≤ _
          omega

theorem wrInv_run (g : SegGeo) (m0 : Mem) (aw : Nat) (hS : 0 < g.segCount) (hW : 0 < g.segBytes)
    (es : List WrEvent) (D P : List WCmd) (k : Nat) (E : Nat → List SegWrite) (s s' : WrSys)
    (h : WrInv g m0 D P k E s) (hr : ∀ c ∈ submitted es, InRam g c)
    (hs : wrRun g aw s es = some s') :
    ∃ D' P' k' E', D' ++ P' = D ++ P ++ submitted es ∧ WrInv g m0 D' P' k' E' s' := by
  induction es generalizing D P k E s with
  | nil =>
    simp only [wrRun, Option.some.injEq] at hs
    subst hs
    exact ⟨D, P, k, E, by simp [submitted], h⟩
  | cons e es ih =>
    simp only [wrRun, Option.bind_eq_bind, Option.bind_eq_some_iff] at hs
    obtain ⟨s1, h1, h2⟩ := hs
    cases e with
    | submit A data =>
      have hi := wrInv_submit g m0 D P k E s s1 aw A data hW (hr _ (by simp [submitted])) h h1
      obtain ⟨D', P', k', E', e1, e2⟩ := ih _ _ _ _ _ hi
        (fun c hc => hr c (by simp [submitted, hc])) h2
      exact ⟨D', P', k', E', by rw [e1]; simp [submitted], e2⟩
    | edge mp rp =>
      simp only [wrStep, Option.some.injEq] at h1
      subst h1
      exact ih _ _ _ _ _ (wrInv_edge g m0 D P k E s mp rp hS hW h) hr h2
    | resp =>
      simp only [wrStep, Option.some.injEq] at h1
      subst h1
      obtain ⟨D1, P1, k1, e0, hi⟩ := wrInv_resp g m0 D P k E s hW h
      obtain ⟨D', P', k', E', e1, e2⟩ := ih _ _ _ _ _ hi hr h2
      exact ⟨D', P', k', E', by rw [e1, e0]; rfl, e2⟩

theorem wrInv_value (g : SegGeo) (m0 : Mem) (D P : List WCmd) (k : Nat) (E : Nat → List SegWrite)
    (s : WrSys) (hS : 0 < g.segCount) (hW : 0 < g.segBytes) (h : WrInv g m0 D P k E s) (x : Nat) :
    ∃ n, s.completed ≤ n ∧ n ≤ (D ++ P).length ∧
      s.mem x = ((D ++ P).take n).foldl (byteCmd x) (m0 x) := by
  have hx := Nat.mod_lt (x / g.segBytes) hS
  have hfl := h.flow _ hx
  have hack := h.ack _ hx
  have hmem := h.mem x
  have hofo := opsAt_fold g x hS hW
  generalize x / g.segBytes % g.segCount = i at *
  rw [List.append_assoc, allOps_append] at hfl
  rw [opsAt_append, List.length_append] at hack
  obtain ⟨u, v, h1, h2⟩ := opsAt_prefix i (allOps g D) (allOps g P) (E i) _ hfl (by omega)
  have hwf := allOps_wf g _ hS hW h.ram
  rw [allOps_append, h1] at hwf
  rw [h2, hofo _ _ (fun o ho => hwf o (by
    rw [List.mem_append] at ho ⊢; rcases ho with ho | ho
    · exact Or.inl ho
    · exact Or.inr (by simp [ho]))), List.foldl_append, allOps_fold g x hS hW] at hmem
  obtain ⟨n, hn, e⟩ := allOps_prefix g x hS hW P (D.foldl (byteCmd x) (m0 x)) u v h1
  refine ⟨D.length + n, by rw [h.completed]; omega, by simp; omega, ?_⟩
  rw [hmem, e, List.take_length_add_append, List.foldl_append]

theorem foldl_store (cs : List WCmd) (m : Mem) (x : Nat) :
    cs.foldl (fun m c => store m c.1 c.2) m x = cs.foldl (byteCmd x) (m x) := by
  induction cs generalizing m with
  | nil => rfl
  | cons c cs ih => rw [List.foldl_cons, ih]; rfl

theorem wrRun_some (g : SegGeo) (aw : Nat) (hW : 0 < g.segBytes) (es : List WrEvent) (s : WrSys) :
    (wrRun g aw s es).isSome ↔ ∀ c ∈ submitted es, c.1 < 2 ^ aw ∧ c.1 + c.2.length ≤ 2 ^ aw := by
  induction es generalizing s with
  | nil => simp [wrRun, submitted]
  | cons e es ih =>
    cases e with
    | submit A data =>
      obtain ⟨h1, h2, h3⟩ := cmdOps_spec g (A, data) hW
      simp only [wrRun, wrStep, wrSubmit, submitted, List.forall_mem_cons]
      split
      · simp; omega
      · rw [show writeOps g A data = some (cmdOps g (A, data)) from h1]
        simp only [Option.bind_eq_bind, Option.bind_some, ih]
        constructor
        · intro h; exact ⟨by omega, h⟩
        · intro h; exact h.2
    | edge mp rp => simp only [wrRun, wrStep, Option.bind_eq_bind, Option.bind_some, ih, submitted]
    | resp => simp only [wrRun, wrStep, Option.bind_eq_bind, Option.bind_some, ih, submitted]

/-! ### Progress -/

/-- `n` clock edges without pauses. -/
def edges (n : Nat) : List WrEvent := List.replicate n (.edge false false)

theorem wrRun_append (g : SegGeo) (aw : Nat) (es fs : List WrEvent) (s : WrSys) :
    wrRun g aw s (es ++ fs) = (wrRun g aw s es).bind fun s => wrRun g aw s fs := by
  induction es generalizing s with
  | nil => rfl
  | cons e es ih =>
    simp only [List.cons_append, wrRun, Option.bind_eq_bind, Option.bind_assoc]
    congr 1
    funext s
    exact ih s

def AllReady (g : SegGeo) (s : WrSys) : Prop := ∀ i, i < g.segCount → s.ready.testBit i = true

/-- Nothing queued, presented or being acknowledged. -/
def Quiet (g : SegGeo) (s : WrSys) : Prop :=
  ∀ i, i < g.segCount → s.segQ i = [] ∧ s.valid.testBit i = false ∧ s.done.testBit i = false

theorem edge_allReady (g : SegGeo) (s : WrSys) : AllReady g (wrEdge g false false s) := by
  intro i hi
  show (2 ^ g.segCount - 1).testBit i = true
  rw [testBit_laneMask]; simp [hi]

theorem edge_queue (g : SegGeo) (s : WrSys) (h : AllReady g s) (i : Nat) (hi : i < g.segCount) :
    (wrEdge g false false s).segQ i = (s.segQ i).tail ∧
    (s.segQ i = [] → (wrEdge g false false s).valid.testBit i = false) := by
  have hv := wrEdge_view g false false s i hi
  have e1 : (wrEdge g false false s).segQ i = (segView g i (wrEdge g false false s)).q := rfl
  have e2 : (wrEdge g false false s).valid.testBit i = (segView g i (wrEdge g false false s)).valid := rfl
  rw [e1, e2, hv, h i hi]
  unfold segStep segView
  cases s.segQ i <;> cases s.done.testBit i <;> simp

theorem drain_edges (g : SegGeo) (aw : Nat) (hS : 0 < g.segCount) (hW : 0 < g.segBytes) (L : Nat)
    (s : WrSys) (h : AllReady g s) (hq : ∀ i, i < g.segCount → (s.segQ i).length ≤ L) :
    ∃ s', wrRun g aw s (edges (L + 2)) = some s' ∧ Quiet g s' := by
  induction L generalizing s with
  | zero =>
    refine ⟨_, rfl, fun i hi => ?_⟩
    have hq0 : s.segQ i = [] := List.eq_nil_of_length_eq_zero (by have := hq i hi; omega)
    obtain ⟨a1, a2⟩ := edge_queue g s h i hi
    obtain ⟨b1, b2⟩ := edge_queue g _ (edge_allReady g s) i hi
    have a1' : (wrEdge g false false s).segQ i = [] := by rw [a1, hq0]; rfl
    refine ⟨by rw [b1, a1']; rfl, b2 a1', ?_⟩
    rw [wrEdge_done g _ _ _ hS hW i hi, a2 hq0, Bool.and_false]
  | succ L ih =>
    obtain ⟨s', h1, h2⟩ := ih (wrEdge g false false s) (edge_allReady g s) (fun i hi => by
      rw [(edge_queue g s h i hi).1, List.length_tail]; have := hq i hi; omega)
    exact ⟨s', h1, h2⟩

def wrMeasure (s : WrSys) : Nat := (s.respCmds.map fun p => p.1 + 1).sum

theorem wrResp_measure (g : SegGeo) (m0 : Mem) (D P : List WCmd) (k : Nat) (E : Nat → List SegWrite)
    (s : WrSys) (hS : 0 < g.segCount) (hW : 0 < g.segBytes) (h : WrInv g m0 D P k E s)
    (hq : Quiet g s) (hP : s.respCmds ≠ []) :
    wrMeasure (wrResp g s) + 1 = wrMeasure s ∧ Quiet g (wrResp g s) := by
  cases P with
  | nil => exact absurd h.pend (by simpa [pendList] using hP)
  | cons c cs =>
    have hp := h.pend
    simp only [pendList] at hp
    obtain ⟨c1, c2, c3⟩ := cmdOps_spec g c hW
    have hk : k ≤ segmentsOf g c.1 c.2.length := h.head
    unfold wrMeasure wrResp
    rw [hp]
    cases hn : segmentsOf g c.1 c.2.length - k with
    | zero =>
      simp only
      exact ⟨by simp; omega, hq⟩
    | succ n =>
      simp only
      have hkl : k < (cmdOps g c).length := by omega
      have hop := opsFrom_get c3 k hkl
      rw [Nat.zero_add] at hop
      have hx := Nat.mod_lt (c.1 / g.segBytes + k) hS
      obtain ⟨q1, q2, q3⟩ := hq _ hx
      have hfl := h.flow _ hx
      have hack := h.ack _ hx
      have hseg := hop.seg
      generalize (c.1 / g.segBytes + k) % g.segCount = i at *
      have hif : inflight g s i = [] := by simp [inflight, q2]
      rw [hif, q1, List.append_nil, List.append_nil, allOps_append] at hfl
      rw [q3] at hack
      have hne : s.respQ i ≠ 0 := by
        intro h0
        rw [hfl, h0, opsAt_append, opsAt_append] at hack
        simp only [ackHead, List.length_append, Bool.toNat_false] at hack
        have e : allOps g (c :: cs) = (cmdOps g c).take k ++ ((cmdOps g c)[k] ::
            ((cmdOps g c).drop (k + 1) ++ allOps g cs)) := by
          rw [← List.cons_append, List.getElem_cons_drop, ← List.append_assoc, List.take_append_drop]
          simp [allOps]
        rw [e, opsAt_append, opsAt_cons, if_pos hseg] at hack
        simp only [List.length_append, List.length_singleton] at hack
        omega
      rw [if_neg hne]
      exact ⟨by simp; omega, hq⟩

theorem drain_resps (g : SegGeo) (m0 : Mem) (aw : Nat) (hS : 0 < g.segCount) (hW : 0 < g.segBytes)
    (M : Nat) (D P : List WCmd) (k : Nat) (E : Nat → List SegWrite) (s : WrSys)
    (h : WrInv g m0 D P k E s) (hq : Quiet g s) (hM : wrMeasure s = M) :
    ∃ s', wrRun g aw s (List.replicate M .resp) = some s' ∧ s'.completed = (D ++ P).length := by
  induction M generalizing D P k s with
  | zero =>
    refine ⟨s, rfl, ?_⟩
    cases P with
    | nil => rw [h.completed, List.append_nil]
    | cons c cs =>
      have hp := h.pend
      simp only [wrMeasure, hp, pendList, List.map_cons, List.sum_cons] at hM
      omega
  | succ M ih =>
    have hne : s.respCmds ≠ [] := by
      intro h0; simp [wrMeasure, h0] at hM
    obtain ⟨h1, h2⟩ := wrResp_measure g m0 D P k E s hS hW h hq hne
    obtain ⟨D', P', k', e, h3⟩ := wrInv_resp g m0 D P k E s hW h
    obtain ⟨s', r1, r2⟩ := ih D' P' k' _ h3 h2 (by omega)
    exact ⟨s', r1, by rw [r2, e]⟩

theorem submitted_replicate_edge (n : Nat) : submitted (edges n) = [] := by
  induction n with
  | zero => rfl
  | succ n ih => exact ih

theorem exists_bound (f : Nat → Nat) (n : Nat) : ∃ L, ∀ i, i < n → f i ≤ L := by
  induction n with
  | zero => exact ⟨0, by simp⟩
  | succ n ih =>
    obtain ⟨L, h⟩ := ih
    refine ⟨max L (f n), fun i hi => ?_⟩
    by_cases hn : i = n
    · subst hn; omega
    · have := h i (by omega); omega

theorem wrDrain (g : SegGeo) (m0 : Mem) (aw : Nat) (hS : 0 < g.segCount) (hW : 0 < g.segBytes)
    (D P : List WCmd) (k : Nat) (E : Nat → List SegWrite) (s : WrSys) (h : WrInv g m0 D P k E s) :
    ∃ n M s', wrRun g aw s (edges n ++ List.replicate M .resp) = some s' ∧
      s'.completed = (D ++ P).length := by
  obtain ⟨L, hL⟩ := exists_bound (fun i => ((wrEdge g false false s).segQ i).length) g.segCount
  obtain ⟨s1, r1, q1⟩ := drain_edges g aw hS hW L _ (edge_allReady g s) hL
  have r1' : wrRun g aw s (edges (L + 3)) = some s1 := r1
  obtain ⟨D', P', k', E', e, hi⟩ := wrInv_run g m0 aw hS hW _ D P k E s s1 h
    (by rw [submitted_replicate_edge]; simp) r1'
  obtain ⟨s2, r2, c2⟩ := drain_resps g m0 aw hS hW _ D' P' k' E' s1 hi q1 rfl
  refine ⟨L + 3, wrMeasure s1, s2, ?_, ?_⟩
  · rw [wrRun_append, r1', Option.bind_some]; exact r2
  · rw [c2, e, submitted_replicate_edge, List.append_nil]

end Verif.Proofs
