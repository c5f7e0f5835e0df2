import Verif.Proofs.ArbMux
/-! Histories of the arbitrated multiplexer. -/
namespace Verif.Proofs
open Verif Verif.Model Verif.Spec

theorem mux_reset {α β : Type} (c : MuxCfg α β) (s : Mux α β) (i : MuxIn α) (hr : i.rst = true) :
    MuxInv c (muxStep c s i) [] (fun _ => []) [] := by
  constructor
  · simpa [muxStep, hr] using (skid_rst s.skid _ _ i.tready).1
  · simpa [muxStep, hr] using (skid_rst s.skid _ _ i.tready).2
  · intro p _; simp [muxStep, hr, ofPort]
  · simp
  · intro k a b h; simp at h
  · intro a h; simp at h
  · simp [muxStep, arbStep, hr, GrantOk]
  · simp [muxStep, arbStep, hr]

theorem mux_run {α β : Type} (c : MuxCfg α β) (hp : 0 < c.ports) (is : List (MuxIn α)) (s : Mux α β)
    (t : List (Nat × α)) (acc : Nat → List α) (em : List β) (hr : ∀ i ∈ is, i.rst = false)
    (h : MuxInv c s t acc em) :
    ∃ t', MuxInv c (muxRun c s is) t' (fun p => acc p ++ muxAccepted c p s is) (em ++ muxEmitted c s is) := by
  induction is generalizing s t acc em with
  | nil => exact ⟨t, by simpa [muxRun, muxAccepted, muxEmitted] using h⟩
  | cons i is ih =>
    have h1 := mux_step c hp s i t acc em (hr i List.mem_cons_self) h
    obtain ⟨t', h2⟩ := ih _ _ _ _ (fun j hj => hr j (List.mem_cons_of_mem _ hj)) h1
    refine ⟨t', ?_⟩
    simpa [muxRun, muxAccepted, muxEmitted, List.append_assoc] using h2

theorem muxRun_append {α β : Type} (c : MuxCfg α β) (a b : List (MuxIn α)) (s : Mux α β) :
    muxRun c s (a ++ b) = muxRun c (muxRun c s a) b := by
  induction a generalizing s with
  | nil => rfl
  | cons i a ih => exact ih _

theorem muxAccepted_append {α β : Type} (c : MuxCfg α β) (p : Nat) (a b : List (MuxIn α)) (s : Mux α β) :
    muxAccepted c p s (a ++ b) = muxAccepted c p s a ++ muxAccepted c p (muxRun c s a) b := by
  induction a generalizing s with
  | nil => rfl
  | cons i a ih => simp [muxAccepted, muxRun, ih]

theorem muxEmitted_append {α β : Type} (c : MuxCfg α β) (a b : List (MuxIn α)) (s : Mux α β) :
    muxEmitted c s (a ++ b) = muxEmitted c s a ++ muxEmitted c (muxRun c s a) b := by
  induction a generalizing s with
  | nil => rfl
  | cons i a ih => simp [muxEmitted, muxRun, ih]

/-- Number of occupied input registers. -/
def occupied (n : Nat) (v : Nat → Bool) : Nat := (List.range n).countP v

theorem occupied_succ (n : Nat) (v : Nat → Bool) : occupied (n + 1) v = occupied n v + (v n).toNat := by
  simp [occupied, List.range_succ, List.countP_append]
  cases v n <;> simp

theorem occupied_le (n : Nat) (v w : Nat → Bool) (h : ∀ p, w p = true → v p = true) :
    occupied n w ≤ occupied n v := List.countP_mono_left fun p _ hp => h p hp

theorem occupied_lt (n : Nat) (v w : Nat → Bool) (h : ∀ p, w p = true → v p = true) (p : Nat) (hp : p < n)
    (h1 : v p = true) (h2 : w p = false) : occupied n w < occupied n v := by
  induction n with
  | zero => omega
  | succ n ih =>
    rw [occupied_succ, occupied_succ]
    have hle := occupied_le n v w h
    by_cases he : p = n
    · subst he; rw [h1, h2]; simp; omega
    · have := ih (by omega)
      cases hw : w n with
      | false => simp; omega
      | true => rw [h n hw]; simp; omega

theorem occupied_zero (n : Nat) (v : Nat → Bool) (h : occupied n v = 0) (p : Nat) (hp : p < n) : v p = false := by
  cases hv : v p with
  | false => rfl
  | true =>
    have := occupied_lt n v (fun _ => false) (by simp) p hp hv rfl
    omega

/-- Work left in a multiplexer that gets no input. -/
def muxWork {α β : Type} (c : MuxCfg α β) (s : Mux α β) : Nat :=
  3 * occupied c.ports s.valid + (if s.arb.valid then 0 else 1) + s.skid.outV.toNat

theorem mux_work {α β : Type} (c : MuxCfg α β) (hp : 0 < c.ports) (s : Mux α β) (i : MuxIn α)
    (t : List (Nat × α)) (acc : Nat → List α) (em : List β) (hr : i.rst = false)
    (hq : ∀ p, i.tvalid p = false) (ht : i.tready = true) (h : MuxInv c s t acc em)
    (hc : ∀ p < c.ports, Complete c.last (acc p)) (hrd : s.skid.ready = true) :
    (muxStep c s i).skid.ready = true ∧
    ((∀ p < c.ports, s.valid p = false) ∧ s.skid.outV = false ∨
      muxWork c (muxStep c s i) < muxWork c s ∨
      (∀ p < c.ports, (muxStep c s i).valid p = false) ∧ (muxStep c s i).skid.outV = false) := by
  refine ⟨by simp [muxStep, hr, ht, skid_ready], ?_⟩
  have hout : (muxStep c s i).skid.outV = muxIntValid s := by
    simp [muxStep, hr, ht, (skid_out s.skid _ _ hrd).1]
  have hval : ∀ p, (muxStep c s i).valid p = (if muxReady s p then false else s.valid p) := by
    intro p; simp [muxStep, hr, hq]
  have hmono : ∀ p, (muxStep c s i).valid p = true → s.valid p = true := by
    intro p hv; rw [hval] at hv; split at hv
    · simp at hv
    · exact hv
  have hocc := occupied_le c.ports _ _ hmono
  have hgb := fun p => grant_bit h.ok p
  cases hv : s.arb.valid with
  | true =>
    have henc : s.arb.encoded < c.ports := by
      rcases h.ok with ⟨h1, -, -⟩ | ⟨-, h3, -⟩
      · rw [h1] at hv; simp at hv
      · exact h3
    have hreg : s.valid s.arb.encoded = true := by
      rcases h.useful hv with hu | ⟨a, ha, hl⟩
      · exact hu
      · cases hu : s.valid s.arb.encoded with
        | true => rfl
        | false =>
          exfalso
          have e := (h.lock a ha hl).2
          have hacc := h.inp s.arb.encoded henc
          rw [hu] at hacc
          simp only [Bool.false_eq_true, if_false, List.append_nil] at hacc
          have := hc s.arb.encoded henc a.2 (by
            rw [hacc]
            obtain ⟨l, rfl⟩ := List.getLast?_eq_some_iff.mp ha
            rw [ofPort_append]
            simp [ofPort, e])
          rw [hl] at this; simp at this
    have hdec := occupied_lt c.ports _ _ hmono s.arb.encoded henc hreg (by
      rw [hval]; simp [muxReady, hgb, hv, hrd])
    right; left
    unfold muxWork
    rw [hv]
    have := Bool.toNat_le (muxStep c s i).skid.outV
    simp only [if_true]
    split <;> omega
  | false =>
    have hnv : muxIntValid s = false := by simp [muxIntValid, hv]
    rw [hnv] at hout
    have hkeep : ∀ p, (muxStep c s i).valid p = s.valid p := by
      intro p; rw [hval]; simp only [muxReady, hgb, hv]; simp
    by_cases hall : ∀ p < c.ports, s.valid p = false
    · right; right
      exact ⟨fun p hp => by rw [hkeep, hall p hp], hout⟩
    · right; left
      have hex : ∃ p < c.ports, s.valid p = true := by
        apply Classical.byContradiction
        intro hn
        exact hall fun p hp => by
          cases hvp : s.valid p with
          | false => rfl
          | true => exact absurd ⟨p, hp, hvp⟩ hn
      obtain ⟨p, hpp, hvp⟩ := hex
      have hnext : (muxStep c s i).arb.valid = true := by
        have e : (muxStep c s i).arb = arbChoose c.arb s.arb ⟨i.rst, muxRequest c s i, muxAck c s⟩ := by
          have := mux_hold (c := c) i h.ok
          rw [hv] at this
          simp only [muxStep, arbStep]
          rw [this]; simp [hr]
        rw [e]
        have hreq : (muxRequest c s i).testBit p = true := by
          rw [muxRequest, testBit_vec, hgb, hv]; simp [hpp, hvp]
        rcases choose_cases c.arb hp s.arb ⟨i.rst, muxRequest c s i, muxAck c s⟩ with ⟨h0, -⟩ | ⟨-, -, k, -, e⟩ | ⟨-, -, k, -, e⟩
        · have := h0 p hpp
          simp only [hreq] at this
          simp at this
        · rw [e]
        · rw [e]
      unfold muxWork
      rw [hnext, hv, hout]
      have := Bool.toNat_le s.skid.outV
      simp only [if_true, Bool.false_eq_true, if_false, Bool.toNat_false]
      omega

theorem mux_drain_aux {α β : Type} (c : MuxCfg α β) (hp : 0 < c.ports) (is : List (MuxIn α)) (s : Mux α β)
    (t : List (Nat × α)) (acc : Nat → List α) (em : List β)
    (hr : ∀ i ∈ is, i.rst = false ∧ (∀ p, i.tvalid p = false) ∧ i.tready = true) (h : MuxInv c s t acc em)
    (hc : ∀ p < c.ports, Complete c.last (acc p)) (hrd : s.skid.ready = true)
    (hlen : ((∀ p < c.ports, s.valid p = false) ∧ s.skid.outV = false) ∨ muxWork c s < is.length) :
    ∃ t', MuxInv c (muxRun c s is) t' acc (em ++ muxEmitted c s is) ∧
      (∀ p < c.ports, (muxRun c s is).valid p = false) ∧ (muxRun c s is).skid.outV = false := by
  induction is generalizing s t em with
  | nil =>
    rcases hlen with hd | hlen
    · exact ⟨t, by simpa [muxRun, muxEmitted] using h, hd⟩
    · simp at hlen
  | cons i is ih =>
    obtain ⟨hr1, hr2, hr3⟩ := hr i List.mem_cons_self
    have h1 := mux_step c hp s i t acc em hr1 h
    simp only [hr2, Bool.false_and, Bool.false_eq_true, if_false, List.append_nil] at h1
    obtain ⟨w1, w2⟩ := mux_work c hp s i t acc em hr1 hr2 hr3 h hc hrd
    have hdone : ((∀ p < c.ports, (muxStep c s i).valid p = false) ∧ (muxStep c s i).skid.outV = false) ∨
        muxWork c (muxStep c s i) < is.length := by
      rcases w2 with ⟨a, b⟩ | w2 | w2
      · left
        refine ⟨fun p hp => by simp [muxStep, hr1, hr2, a p hp], ?_⟩
        have hnv : muxIntValid s = false := by
          rcases h.ok with ⟨h1, -, -⟩ | ⟨-, h3, -⟩
          · simp [muxIntValid, h1]
          · simp [muxIntValid, a _ h3]
        simp [muxStep, hr1, hr3, (skid_out s.skid _ _ hrd).1, hnv]
      · rcases hlen with ⟨a, b⟩ | hlen
        · left
          refine ⟨fun p hp => by simp [muxStep, hr1, hr2, a p hp], ?_⟩
          have hnv : muxIntValid s = false := by
            rcases h.ok with ⟨h1, -, -⟩ | ⟨-, h3, -⟩
            · simp [muxIntValid, h1]
            · simp [muxIntValid, a _ h3]
          simp [muxStep, hr1, hr3, (skid_out s.skid _ _ hrd).1, hnv]
        · right; simp at hlen; omega
      · exact Or.inl w2
    obtain ⟨t', a, b⟩ := ih _ _ _ (fun j hj => hr j (List.mem_cons_of_mem _ hj)) h1 w1 hdone
    exact ⟨t', by simpa [muxRun, muxEmitted, List.append_assoc] using a, by simpa [muxRun] using b⟩

theorem occupied_bound (n : Nat) (v : Nat → Bool) : occupied n v ≤ n := by
  have := List.countP_le_length (p := v) (l := List.range n)
  simpa [occupied] using this

theorem mux_drain {α β : Type} (c : MuxCfg α β) (hp : 0 < c.ports) (is : List (MuxIn α)) (s : Mux α β)
    (t : List (Nat × α)) (acc : Nat → List α) (em : List β)
    (hr : ∀ i ∈ is, i.rst = false ∧ (∀ p, i.tvalid p = false) ∧ i.tready = true) (h : MuxInv c s t acc em)
    (hc : ∀ p < c.ports, Complete c.last (acc p)) (hlen : 3 * c.ports + 4 ≤ is.length) :
    ∃ t', em ++ muxEmitted c s is = t'.map (fun x => c.conv x.1 x.2) ∧ (∀ x ∈ t', x.1 < c.ports) ∧
      FramesWhole c.last t' ∧ ∀ p < c.ports, ofPort p t' = acc p := by
  cases is with
  | nil => simp at hlen
  | cons i is =>
    obtain ⟨hr1, hr2, hr3⟩ := hr i List.mem_cons_self
    have h1 := mux_step c hp s i t acc em hr1 h
    simp only [hr2, Bool.false_and, Bool.false_eq_true, if_false, List.append_nil] at h1
    have hb : muxWork c (muxStep c s i) < is.length := by
      have := occupied_bound c.ports (muxStep c s i).valid
      have := Bool.toNat_le (muxStep c s i).skid.outV
      simp only [List.length_cons] at hlen
      unfold muxWork; split <;> omega
    obtain ⟨t', a, b, d⟩ := mux_drain_aux c hp is _ _ _ _ (fun j hj => hr j (List.mem_cons_of_mem _ hj)) h1 hc
      (by simp [muxStep, hr1, hr3, skid_ready]) (Or.inr hb)
    refine ⟨t', ?_, a.ports, a.whole, fun p hp => ?_⟩
    · have := a.out
      have ht : (muxRun c (muxStep c s i) is).skid.tempV = false := by
        cases ht : (muxRun c (muxStep c s i) is).skid.tempV with
        | false => rfl
        | true => have := a.sk.2 ht; rw [d] at this; simp at this
      simp only [skidQ, d, ht] at this
      simpa [muxEmitted, List.append_assoc] using this
    · have := a.inp p hp
      rw [b p hp] at this
      simpa using this.symm

end Verif.Proofs
