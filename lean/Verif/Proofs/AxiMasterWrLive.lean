import Verif.Proofs.AxiMasterWrMem
/-! Errors, stability and progress of the AXI master for writes. -/
namespace Verif.Proofs
open Verif Verif.Model Verif.Spec

theorem axwRun_append (c : AxwCfg) (a b : List AxwIn) : ∀ s, axwRun c s (a ++ b) = axwRun c (axwRun c s a) b := by
  induction a with
  | nil => intro s; rfl
  | cons i is ih => intro s; exact ih _

theorem axwTrace_append (c : AxwCfg) (a b : List AxwIn) : ∀ s, axwTrace c s (a ++ b) = axwTrace c s a ++ axwTrace c (axwRun c s a) b := by
  induction a with
  | nil => intro s; rfl
  | cons i is ih => intro s; show (s, i) :: axwTrace c _ (is ++ b) = _; rw [ih]; rfl

theorem axwTaken_append (c : AxwCfg) (a b : List AxwIn) (s : Axw) : axwTaken c s (a ++ b) = axwTaken c s a ++ axwTaken c (axwRun c s a) b := by
  unfold axwTaken; rw [axwTrace_append, List.filterMap_append]

theorem axwWs_append (c : AxwCfg) (a b : List AxwIn) (s : Axw) : axwWs c s (a ++ b) = axwWs c s a ++ axwWs c (axwRun c s a) b := by
  unfold axwWs; rw [axwTrace_append, List.filterMap_append]

theorem axwAws_append (c : AxwCfg) (a b : List AxwIn) (s : Axw) : axwAws c s (a ++ b) = axwAws c s a ++ axwAws c (axwRun c s a) b := by
  unfold axwAws; rw [axwTrace_append, List.filterMap_append]

/-- The data transfers generated are a part of those of the TLPs. -/
theorem axw_body_prefix (c : AxwCfg) (s : Axw) (ws : List AxwIn) (P : List (List (Option UInt8) × Bool)) (h : AxwBody c s ws P) :
    P <+: (axwAll ws).flatMap (tlpBeats c) := by
  cases h with
  | idle _ _ out => rw [out]; exact List.prefix_rfl
  | waitEnd _ _ _ _ out => rw [out]; exact List.prefix_rfl
  | transfer pre w g n all good x out =>
    rw [out, all, List.flatMap_append]
    refine (List.prefix_append_right_inj _).2 ?_
    rw [List.flatMap_cons, List.flatMap_nil, List.append_nil]
    exact List.take_prefix _ _

theorem axwSplit_mono (b : List AxwIn) : ∀ a, (axwSplit a).1 <+: (axwSplit (a ++ b)).1 := by
  induction b with
  | nil => intro a; rw [List.append_nil]; exact List.prefix_rfl
  | cons x xs ih =>
    intro a
    rw [show a ++ x :: xs = (a ++ [x]) ++ xs by simp]
    refine List.IsPrefix.trans ?_ (ih _)
    rw [axwSplit_append]
    split
    · exact List.prefix_append _ _
    · exact List.prefix_rfl

theorem axwSplit_prefix (a b : List AxwIn) : (axwSplit a).1 <+: axwAll (a ++ b) :=
  (axwSplit_mono b a).trans (List.prefix_append _ _)

theorem flatMap_prefix {α β : Type} (f : α → List β) {a b : List α} (h : a <+: b) : a.flatMap f <+: b.flatMap f := by
  obtain ⟨t, rfl⟩ := h
  rw [List.flatMap_append]
  exact List.prefix_append _ _

/-! ### Errors -/

theorem axw_err (c : AxwCfg) (s : Axw) (i : AxwIn) (ws : List AxwIn) (P : List (List (Option UInt8) × Bool)) (A : List (Nat × Nat))
    (hr : i.rst = false) (h : AxwInv c s ws P A) (hok : AxwInOk c (ws ++ axwTakeNow s i)) :
    (axwStep c s i).err = (s.ready && i.valid && decide ((axwSplit ws).2 = []) && !tlpDoWrite i.hdr) := by
  have he : (axwStep c s i).err = (axwHead s i && !axwGood i.hdr) := by rw [axwStep_norst c s i hr]; rfl
  rw [he]
  unfold axwTakeNow at hok
  cases ht : (s.ready && i.valid) with
  | false =>
    have : axwHead s i = false := by
      unfold axwHead
      rw [Bool.and_assoc (s.st == .idle), ht]; simp
    rw [this]; simp
  | true =>
    rw [ht, if_pos rfl] at hok
    have h1 := axwInOk_append c ws i hok
    cases h.body with
    | idle st cur out =>
      rw [cur] at h1
      have hsop : i.sop = true := h1.2.1
      have hh : axwHead s i = true := by
        unfold axwHead
        rw [Bool.and_assoc (s.st == .idle), ht, st, hsop]; rfl
      rw [hh, axwGood_eq i.hdr h1.2.2.1]
      simp [cur]
    | waitEnd w st cur =>
      have hh : axwHead s i = false := by unfold axwHead; rw [st]; rfl
      have : (axwSplit ws).2 ≠ [] := by intro e; rw [e] at cur; cases cur
      rw [hh]; simp [this]
    | transfer pre w g n all good x =>
      have hh : axwHead s i = false := by unfold axwHead; rw [x.st]; rfl
      rw [hh]
      have hne : (axwSplit ws).2 ≠ [] := by
        intro hcur
        have h2 := axw_all_grow c s i ws pre w g n h1.1 all good x
        unfold axwTakeNow axwGrow at h2
        rw [ht, if_pos rfl, axwAll_append, hcur] at h2
        have h3 := List.append_inj' h2 rfl
        have h4 := (List.cons.inj h3.2).1
        have h5 := x.head
        cases g with
        | nil => cases h5
        | cons y ys => simp at h4
      simp [hne]

/-! ### Progress -/

/-- The cycles until all data transfers of the words taken are generated. -/
def axwLag (s : Axw) : Nat := if s.st = .transfer ∧ s.inC = 0 then s.outC + 1 else 0

theorem axw_lag (c : AxwCfg) (hc : AxwCfgOk c) (s : Axw) (ws : List AxwIn) (P : List (List (Option UInt8) × Bool)) (hok : AxwInOk c ws) (h : AxwBody c s ws P) :
    ((axwSplit ws).1.flatMap (tlpBeats c)).length ≤ P.length + axwLag s ∧ axwLag s ≤ 2 := by
  unfold axwLag
  cases h with
  | idle st cur out =>
    rw [if_neg (by rw [st]; intro h; cases h.1), out, axwAll_idle ws cur]
    exact ⟨Nat.le_refl _, by omega⟩
  | waitEnd w st cur bad out =>
    have hne : (axwSplit ws).2 ≠ [] := by intro e; rw [e] at cur; cases cur
    rw [if_neg (by rw [st]; intro h; cases h.1), out, axwAll_cur ws hne, List.flatMap_append, List.length_append]
    exact ⟨by omega, by omega⟩
  | transfer pre w g n all good x out =>
    obtain ⟨w1, w2, w3, w4⟩ := axw_words_beats c hc w.hdr
    have hlt := x.lt
    have hin := x.inC
    have hoc := x.outC
    have hb : (tlpBeats c g).length = tlpBeatCount c w.hdr := by rw [tlpBeats_eq c g w x.head good]; simp
    have hPl : P.length = (pre.flatMap (tlpBeats c)).length + n := by
      rw [out, List.length_append, List.length_take, hb]; omega
    have hn : g.length ≤ n + 1 ∧ (s.first = true → g.length = 1) := by
      rcases Bool.eq_false_or_eq_true s.first with hf | hf
      · have := x.fst hf; exact ⟨by omega, fun _ => this.2⟩
      · have := x.nfst hf; refine ⟨by omega, fun h => ?_⟩; rw [hf] at h; cases h
    by_cases h0 : s.inC = 0
    · rw [if_pos ⟨x.st, h0⟩]
      constructor
      · have hcur := axw_xfer_len c ws pre w g hok all good x.head (by omega)
        rw [axwAll_idle ws hcur] at all
        rw [all, List.flatMap_append, List.length_append, List.flatMap_cons, List.flatMap_nil, List.append_nil, hb]
        omega
      · rcases Bool.eq_false_or_eq_true s.first with hf | hf
        · have := x.fst hf; omega
        · have := x.nfst hf; omega
    · rw [if_neg (fun h => h0 h.2)]
      refine ⟨?_, by omega⟩
      by_cases hcur : (axwSplit ws).2 = []
      · exfalso
        rw [axwAll_idle ws hcur] at all
        have h1 := hok.1 g (by rw [all]; simp)
        have hh := x.head
        cases g with
        | nil => cases hh
        | cons y ys =>
          cases hh
          have h2 := h1.2.2 good
          simp only [if_true] at h2
          omega
      · rw [axwAll_cur ws hcur] at all
        have h1 := List.append_inj' all rfl
        rw [h1.1]
        omega

/-- While something is to be generated, something is generated. -/
theorem axw_lag_go (c : AxwCfg) (s : Axw) (i : AxwIn) (ws : List AxwIn) (P : List (List (Option UInt8) × Bool)) (h : AxwBody c s ws P)
    (hl : 0 < axwLag s) : axwGo s i = true := by
  unfold axwLag at hl
  split at hl
  · next hh =>
    cases h with
    | idle st => rw [st] at hh; cases hh.1
    | waitEnd _ st => rw [st] at hh; cases hh.1
    | transfer _ _ _ _ _ _ x =>
      have : s.inA = false := by rw [x.inA, hh.2]; rfl
      unfold axwGo; rw [x.st, this]; simp
  · omega

theorem outQ_valid {α : Type} (s : OutFifo α) (vin : Bool) (x : α) (h : RingOk 5 s.ring) :
    (outQ 5 s ≠ [] → s.valid = false → (outFifoStep 5 false s vin x true).valid = true) := by
  intro hq hv
  have he := ring_empty 5 s.ring h
  unfold outQ at hq
  rw [hv] at hq
  have hpos : ringCount 5 s.ring ≠ 0 := by
    intro h0
    have := ringList_length 5 s.ring
    rw [h0, List.length_eq_zero_iff] at this
    rw [this] at hq
    simp at hq
  show (if false then false else if !ringEmpty s.ring && (!s.valid || true) then true else s.valid && !true) = true
  rw [he]
  simp [hpos]

/-- The distance until `N` data transfers are done. -/
def axwDist (N sent gen : Nat) (v : Bool) : Nat := 2 * (N - sent) + (if v then 0 else 1) + (N - gen)

/-- With an interface that is always ready, the first `N` data transfers are done in time. -/
theorem axw_done_gen (c : AxwCfg) (hc : AxwCfgOk c) (N : Nat) (is : List AxwIn) : ∀ (s : Axw) (ws : List AxwIn) (B : List (List (Option UInt8) × Bool)) (A : List (Nat × Nat)),
    (∀ i ∈ is, i.rst = false ∧ i.wReady = true) → AxwInv c s ws (B ++ axwQ c s) (A ++ axwPend s) →
    AxwInOk c (ws ++ axwTaken c s is) → AxwFits c (ws ++ axwTaken c s is) → N ≤ ((axwSplit ws).1.flatMap (tlpBeats c)).length →
    axwDist N B.length (B.length + (axwQ c s).length) s.out.valid ≤ is.length → N ≤ B.length + (axwWs c s is).length := by
  induction is with
  | nil =>
    intro s ws B A _ _ _ _ _ hd
    simp only [List.length_nil, Nat.le_zero] at hd
    unfold axwDist at hd
    omega
  | cons i is ih =>
    intro s ws B A hr h hok hfit hN hd
    by_cases hdone : N ≤ B.length
    · omega
    obtain ⟨hri, hwi⟩ := hr i (by simp)
    rw [axwTaken_cons, ← List.append_assoc] at hok hfit
    have hok1 := axwInOk_prefix c _ _ hok
    have hs := axw_inv_step c hc s i ws _ _ hri h hok1 (axwFits_prefix c _ _ hfit)
    have hlag := axw_lag c hc s ws _ (axwInOk_prefix c _ _ hok1) h.body
    have hq := axw_queue c s i ws _ _ hri h
    have hql := congrArg List.length hq
    simp only [List.length_append, List.length_map] at hql
    rw [List.append_assoc, hq, List.append_assoc A, axw_pend c s i ws _ _ hri h, ← List.append_assoc, ← List.append_assoc] at hs
    rw [axwWs_cons, List.length_append]
    have hN' : N ≤ ((axwSplit (ws ++ axwTakeNow s i)).1.flatMap (tlpBeats c)).length := by
      unfold axwTakeNow
      split
      · rw [axwSplit_append]
        split
        · rw [List.flatMap_append, List.length_append]; omega
        · exact hN
      · rw [List.append_nil]; exact hN
    have key := ih (axwStep c s i) _ _ _ (fun j hj => hr j (by simp [hj])) hs hok hfit hN'
    rw [List.length_append, List.length_map] at key
    have hwl : (axwWNow s i).length = s.out.valid.toNat := by
      unfold axwWNow; rw [hwi, Bool.and_true]
      cases s.out.valid <;> rfl
    have hgl : (axwGenNow c s i).length = (axwGo s i).toNat := by
      unfold axwGenNow; cases axwGo s i <;> rfl
    rw [hwl, hgl] at hql
    rw [hwl] at key ⊢
    have hcnt := h.cnt
    have hval : axwQ c s ≠ [] → s.out.valid = false → (axwStep c s i).out.valid = true := by
      intro hne hv
      have e : (axwStep c s i).out = outFifoStep 5 false s.out (axwGo s i) (axwBeat c s i) i.wReady := by
        rw [axwStep_norst c s i hri]; rfl
      rw [e, hwi]
      exact outQ_valid s.out _ _ h.ring (by intro e; unfold axwQ at hne; rw [e] at hne; exact hne rfl) hv
    have hgo : B.length + (axwQ c s).length < N → axwGo s i = true := by
      intro hlt
      refine axw_lag_go c s i ws _ h.body ?_
      have := hlag.1
      rw [List.length_append] at this
      omega
    rw [← Nat.add_assoc]
    apply key
    rw [List.length_cons] at hd
    unfold axwDist at hd ⊢
    generalize hql' : (axwQ c (axwStep c s i)).length = q' at *
    generalize hqe : (axwQ c s).length = q at *
    have hne : 0 < q → axwQ c s ≠ [] := by
      intro h0 e; rw [e] at hqe; simp at hqe; omega
    cases hv : s.out.valid with
    | true =>
      rw [hv] at hd hql
      simp only [Bool.toNat_true, if_true] at *
      by_cases hlt : B.length + q < N
      · have hg := hgo hlt
        rw [hg, Bool.toNat_true] at hql
        split <;> omega
      · have := Bool.toNat_le (axwGo s i)
        split <;> omega
    | false =>
      rw [hv] at hd hql
      simp only [Bool.toNat_false, Bool.false_eq_true, if_false, Nat.add_zero, Nat.zero_add] at *
      by_cases hlt : B.length + q < N
      · have hg := hgo hlt
        rw [hg, Bool.toNat_true] at hql
        split <;> omega
      · rw [hval (hne (by omega)) hv]
        have := Bool.toNat_le (axwGo s i)
        simp only [if_true]
        omega

/-- The number of data transfers that are generated without more input. -/
def axwDue (s : Axw) : Nat := if s.st = .transfer then if s.inC = 0 then s.outC + 1 else if s.first then 1 else 0 else 0

theorem axw_due_le (c : AxwCfg) (hc : AxwCfgOk c) (s : Axw) (ws : List AxwIn) (P : List (List (Option UInt8) × Bool)) (hok : AxwInOk c ws) (h : AxwBody c s ws P) :
    axwDue s ≤ 2 := by
  have := (axw_lag c hc s ws P hok h).2
  unfold axwLag at this
  unfold axwDue
  split
  · split
    · next h1 h2 => rw [if_pos ⟨h1, h2⟩] at this; exact this
    · split <;> omega
  · omega

/-- Without input, what is due is generated. -/
theorem axw_due_step (c : AxwCfg) (hc : AxwCfgOk c) (s : Axw) (i : AxwIn) (ws : List AxwIn) (P : List (List (Option UInt8) × Bool)) (A : List (Nat × Nat))
    (hri : i.rst = false) (h : AxwInv c s ws P A) (hrd : s.ready = false) :
    axwGo s i = decide (0 < axwDue s) ∧ axwDue (axwStep c s i) = axwDue s - 1 ∧
    (axwDue s = 0 → s.out.half = false → i.awReady = true → (axwStep c s i).ready = true) := by
  have hh : axwHead s i = false := by unfold axwHead; rw [hrd]; simp
  have hm := axw_no_more c s i ws P A h
  have hst' : (axwStep c s i).st = axwStNext s i := by rw [axwStep_norst c s i hri]; rfl
  have hrd' : (axwStep c s i).ready = axwReadyNext c s i := by rw [axwStep_norst c s i hri]; rfl
  cases h.body with
  | idle st =>
    have hg : axwGo s i = false := by unfold axwGo; rw [st]; rfl
    have hd : axwDue s = 0 := by unfold axwDue; rw [if_neg (by rw [st]; decide)]
    have hs : (axwStep c s i).st = .idle := by rw [hst']; unfold axwStNext; rw [st, hh]; rfl
    refine ⟨by rw [hg, hd]; rfl, by rw [hd]; unfold axwDue; rw [if_neg (by rw [hs]; decide)], fun _ hf ha => ?_⟩
    rw [hrd']; unfold axwReadyNext axwSpace; rw [st, hh, hf, ha]; simp
  | waitEnd _ st =>
    have hg : axwGo s i = false := by unfold axwGo; rw [st]; rfl
    have hd : axwDue s = 0 := by unfold axwDue; rw [if_neg (by rw [st]; decide)]
    have hs : (axwStep c s i).st = .waitEnd := by rw [hst']; unfold axwStNext; rw [st, hrd]; rfl
    refine ⟨by rw [hg, hd]; rfl, by rw [hd]; unfold axwDue; rw [if_neg (by rw [hs]; decide)], fun _ hf ha => ?_⟩
    rw [hrd']; unfold axwReadyNext; rw [st, hrd]; rfl
  | transfer pre w g n all good x =>
    obtain ⟨w1, w2, w3, w4⟩ := axw_words_beats c hc w.hdr
    have hlt := x.lt
    have hin := x.inC
    have hoc := x.outC
    have hsm := x.small
    have hg : axwGo s i = (!s.inA || s.first) := by unfold axwGo; rw [x.st, hrd]; simp
    have hs : (axwStep c s i).st = if axwGo s i && s.last then .idle else .transfer := by
      rw [hst']; unfold axwStNext; rw [x.st, x.op]; simp
    have einC : (axwStep c s i).inC = if axwGo s i && s.inA && !s.first then (s.inC + 2 ^ 13 - 1) % 2 ^ 13 else s.inC := by
      rw [axwStep_norst c s i hri]; show axwInNext c s i = _; unfold axwInNext; rw [hm, hh]; rfl
    have eoutC : (axwStep c s i).outC = if axwGo s i then (s.outC + 2 ^ 13 - 1) % 2 ^ 13 else s.outC := by
      rw [axwStep_norst c s i hri]; show axwOutNext c s i = _; unfold axwOutNext; rw [hm, hh]; rfl
    have efirst : (axwStep c s i).first = if axwGo s i then false else s.first := by
      rw [axwStep_norst c s i hri]
      show (if axwHead s i then true else if axwGo s i then false else s.first) = _
      rw [hh]; rfl
    by_cases h0 : s.inC = 0
    · have hA : s.inA = false := by rw [x.inA, h0]; rfl
      have hgt : axwGo s i = true := by rw [hg, hA]; rfl
      have hd : axwDue s = s.outC + 1 := by unfold axwDue; rw [if_pos x.st, if_pos h0]
      refine ⟨by rw [hgt, hd]; simp, ?_, fun h1 => by omega⟩
      rw [hd, Nat.add_sub_cancel]
      rw [hgt, hA] at einC
      rw [hgt] at eoutC hs
      have hl := x.last
      by_cases hz : s.outC = 0
      · rw [hz] at hl
        rw [hl] at hs
        unfold axwDue
        rw [if_neg (by rw [hs]; decide), hz]
      · have hl : s.last = false := by rw [hl]; simpa using hz
        rw [hl] at hs
        unfold axwDue
        rw [if_pos (by rw [hs]; rfl), if_pos (by rw [einC]; exact h0), eoutC]
        simp only [if_true]
        omega
    · have hA : s.inA = true := by rw [x.inA]; simpa using h0
      rcases Bool.eq_false_or_eq_true s.first with hf | hf
      · have hgt : axwGo s i = true := by rw [hg, hf]; simp
        have hd : axwDue s = 1 := by unfold axwDue; rw [if_pos x.st, if_neg h0, if_pos hf]
        refine ⟨by rw [hgt, hd]; rfl, ?_, fun h1 => by omega⟩
        rw [hd, Nat.sub_self]
        rw [hgt] at efirst
        rw [hgt, hf] at einC
        unfold axwDue
        split
        · rw [if_neg (by rw [einC]; simpa using h0), if_neg (by rw [efirst]; simp)]
        · rfl
      · have hgt : axwGo s i = false := by rw [hg, hf, hA]; rfl
        have hd : axwDue s = 0 := by unfold axwDue; rw [if_pos x.st, if_neg h0, if_neg (by rw [hf]; simp)]
        refine ⟨by rw [hgt, hd]; rfl, ?_, fun _ hf' _ => ?_⟩
        · rw [hd]
          rw [hgt] at einC efirst
          unfold axwDue
          split
          · rw [if_neg (by rw [einC]; simpa using h0), if_neg (by rw [efirst]; simp [hf])]
          · rfl
        · rw [hrd']; unfold axwReadyNext
          rw [x.st, hgt, hf', hA, hf]; rfl

/-- With an interface that is always ready, the module gets ready for input in time. -/
theorem axw_ready_gen (c : AxwCfg) (hc : AxwCfgOk c) (is : List AxwIn) : ∀ (s : Axw) (ws : List AxwIn) (P : List (List (Option UInt8) × Bool)) (A : List (Nat × Nat)),
    (∀ i ∈ is, i.rst = false ∧ i.wReady = true ∧ i.awReady = true) → AxwInv c s ws P A → AxwInOk c ws → AxwFits c ws →
    2 * (ringCount 5 s.out.ring + 2 * axwDue s) + s.out.half.toNat < is.length →
    ∃ n, n ≤ is.length ∧ (axwRun c s (is.take n)).ready = true := by
  induction is with
  | nil => intro s ws P A _ _ _ _ hd; simp at hd
  | cons i is ih =>
    intro s ws P A hr h hok hfit hd
    rcases Bool.eq_false_or_eq_true s.ready with hrd | hrd
    · exact ⟨0, by omega, hrd⟩
    obtain ⟨hri, hwi, hai⟩ := hr i (by simp)
    obtain ⟨hgo, hdue, hrdy⟩ := axw_due_step c hc s i ws P A hri h hrd
    have htk : axwTakeNow s i = [] := by unfold axwTakeNow; rw [hrd]; rfl
    have hcnt := h.cnt
    obtain ⟨r, -, hring, -, hcount, -⟩ := outFifo_ring_lt 5 s.out (axwGo s i) (axwBeat c s i) i.wReady h.ring (by omega)
    have e : (axwStep c s i).out = outFifoStep 5 false s.out (axwGo s i) (axwBeat c s i) i.wReady := by
      rw [axwStep_norst c s i hri]; rfl
    rw [ring_empty 5 _ h.ring, hwi, hgo] at hcount
    simp only [Bool.or_true, Bool.and_true] at hcount
    have hc' : ringCount 5 (axwStep c s i).out.ring = ringCount 5 r := by rw [e, hring]
    have hhalf : (axwStep c s i).out.half = decide (ringCount 5 s.out.ring ≥ 16) := by rw [e]; rfl
    by_cases hnow : axwDue s = 0 ∧ s.out.half = false
    · exact ⟨1, by simp, hrdy hnow.1 hnow.2 hai⟩
    have hs := axw_inv_step c hc s i ws P A hri h (by rw [htk, List.append_nil]; exact hok) (by rw [htk, List.append_nil]; exact hfit)
    rw [htk, List.append_nil] at hs
    obtain ⟨n, hn, hn'⟩ := ih (axwStep c s i) ws _ _ (fun j hj => hr j (by simp [hj])) hs hok hfit (by
      rw [hc', hhalf, hdue]
      rw [List.length_cons] at hd
      generalize ringCount 5 s.out.ring = k at *
      generalize ringCount 5 r = k' at *
      generalize axwDue s = d at *
      have b1 := Bool.toNat_le (decide (k ≥ 16))
      by_cases hk0 : k = 0
      · subst hk0
        by_cases hd0 : d = 0
        · subst hd0
          simp at hnow
          rw [hnow] at hd
          simp at hcount hd ⊢
          omega
        · have : decide (0 < d) = true := by simp; omega
          rw [this] at hcount
          simp at hcount ⊢
          omega
      · have : (!decide (k = 0)) = true := by simpa using hk0
        rw [this] at hcount
        by_cases hd0 : d = 0
        · subst hd0
          simp at hcount
          omega
        · have : decide (0 < d) = true := by simp; omega
          rw [this] at hcount
          simp at hcount
          omega)
    exact ⟨n + 1, by simp; omega, hn'⟩

end Verif.Proofs
