import Verif.Proofs.TlpMuxRun
/-! Lemmas on the TLP multiplexer: progress. -/
namespace Verif.Proofs
open Verif Verif.Model Verif.Spec

/-- The port that is selected has a whole TLP to offer: something is committed. -/
theorem tmx_commits (c : TmxCfg) (s : Tmx) (i : TmxIn) (hp : s.port < c.ports)
    (ho : ∀ p < c.ports, s.off p < c.segs) (hr : s.skid.ready = true) (p m : Nat)
    (hpp : p < c.ports) (ha : tmxArb c (tmxVar0 c s i) = (p, true)) (hps : i.pause p = false) (hm : m < c.segs)
    (hv : ∀ j ≤ m, tmxFullV c s i p (s.off p + j) = true) (he : (tmxFull c s i p (s.off p + m)).eop = true) :
    0 < (tmxVar1 c s i).n := by
  have key : ∀ g ≤ c.segs, 0 < (tmxVarN c s i g).n ∨ (TmxLive c s i (tmxVarN c s i g) g ∧
      tmxArb c (tmxVarN c s i g) = (p, true) ∧ tmxCnt p (tmxVarN c s i g).sel = g ∧ g ≤ m) := by
    intro g hg
    induction g with
    | zero => exact .inr ⟨tmxLive_init c s i hp, ha, rfl, Nat.zero_le _⟩
    | succ g ih =>
      rw [tmxVarN_succ, hr]
      rcases ih (by omega) with h | ⟨hL, h1, h2, h3⟩
      · left
        simp only [tmxSeg]; split <;> omega
      · have hoff := ho p hpp
        have hpv : (tmxVarN c s i g).pv p 0 = true := by
          rw [hL.pv, h2, Nat.add_zero, tmxPv0 c s i p g (by omega), hps, hv g h3]; rfl
        have hpe : (tmxVarN c s i g).pe p 0 = (tmxFull c s i p (s.off p + g)).eop := by
          rw [hL.pe, h2, Nat.add_zero, tmxPe0 c s i p g (by omega)]
        have hL' := tmxLive_take c s i _ g hL (by omega) ho (by rw [h1]) (by rw [h1]; exact hpp)
          (fun e => by unfold tmxArb; rw [if_pos e]) (by rw [h1]; exact hpv)
        cases hE : (tmxVarN c s i g).pe p 0 with
        | true =>
          left
          simp only [tmxSeg, h1, hL.abort, hpv, hE]; simp
        | false =>
          by_cases hg1 : g = c.segs - 1
          · left
            have hd : decide (g = c.segs - 1) = true := by simpa using hg1
            simp only [tmxSeg, h1, hL.abort, hpv, hE, hd]; simp
          · right
            refine ⟨hL', ?_, ?_, ?_⟩
            · have e1 : (tmxSeg c true (tmxVarN c s i g) g).frame = true := by simp [tmxSeg, h1, hE]
              have e2 : (tmxSeg c true (tmxVarN c s i g) g).port = p := by simp [tmxSeg, h1]
              rw [tmxArb, e1, e2]; rfl
            · simp only [tmxSeg, h1]
              rw [tmxCnt_snoc, h2]; simp
            · apply Classical.byContradiction
              intro hn
              rw [hpe, show g = m by omega, he] at hE; cases hE
  rcases key c.segs (Nat.le_refl _) with h | ⟨-, -, -, h⟩
  · exact h
  · omega

def TmxRegPacked (c : TmxCfg) (s : Tmx) : Prop :=
  ∀ p < c.ports, ∀ k j, s.off p ≤ j → j ≤ k → k < c.segs → (s.reg p).valid k = true → (s.reg p).valid j = true

theorem tmxRegPacked_step (c : TmxCfg) (s : Tmx) (i : TmxIn) (hr : i.rst = false) (O : List (Nat × TlpSeg)) (h : TmxRes c s i O)
    (hk : TmxOk c s) (hf : TmxRegPacked c s) (hi : ∀ p < c.ports, TmxPacked c (i.word p)) :
    TmxRegPacked c (tmxStep c s i) := by
  intro p hp k j h1 h2 h3 h4
  rw [tmxStep_off c s i hr] at h1
  rw [tmxStep_valid c s i hr] at h4 ⊢
  have hge := h.ge p
  cases hrd : tmxReady c s i p with
  | true => rw [hrd, if_pos rfl] at h4; exact hi p hp k j h2 h3 h4
  | false =>
    rw [hrd] at h4
    simp only [Bool.false_eq_true, if_false] at h4 ⊢
    cases tmx_case c s i O h hk p hp with
    | past _ r _ => rw [r] at hrd; cases hrd
    | load _ r _ => rw [r] at hrd; cases hrd
    | keep h5 r o =>
      rw [o] at h1
      simp only [tmxKeep, Bool.and_eq_true, decide_eq_true_eq] at h4 ⊢
      exact ⟨hf p hp k j (by omega) h2 h3 h4.1, h1⟩

/-- While a port is selected, it has segments left or its TLP is not finished. -/
def TmxBusy (c : TmxCfg) (s : Tmx) (t : List (Nat × TlpSeg)) : Prop :=
  s.frame = true → tmxPend c s s.port ≠ [] ∨ ∃ x, t.getLast? = some x ∧ x.2.eop = false

theorem tmxPend_mem (c : TmxCfg) (s : Tmx) (p k : Nat) (h1 : s.off p ≤ k) (h2 : k < c.segs) (h3 : (s.reg p).valid k = true) :
    tmxPend c s p ≠ [] := by
  unfold tmxPend
  rw [Ne, List.map_eq_nil_iff, List.filter_eq_nil_iff]
  intro h
  refine h k ?_ h3
  simp only [List.mem_range']
  exact ⟨k - s.off p, by omega, by omega⟩

theorem tmxBusy_step (c : TmxCfg) (s : Tmx) (i : TmxIn) (hr : i.rst = false) (O : List (Nat × TlpSeg)) (h : TmxRes c s i O)
    (hk : TmxOk c s) (hf : TmxRegPacked c s) (t : List (Nat × TlpSeg)) (hb : TmxBusy c s t) :
    TmxBusy c (tmxStep c s i) (t ++ O) := by
  intro hfr
  have e1 : (tmxStep c s i).frame = (tmxVar1 c s i).frameN := by simp [tmxStep, hr]
  have e2 : (tmxStep c s i).port = (tmxVar1 c s i).portN := by simp [tmxStep, hr]
  rw [e1] at hfr
  have hpp := h.port
  rcases h.frame hfr with ⟨x, hx, he⟩ | ⟨hO, h1, h2⟩ | ⟨h1, h2, h3, h4⟩
  · right
    exact ⟨x, by rw [List.getLast?_append, hx]; rfl, he⟩
  · rcases hb h1 with h3 | h3
    · left
      rw [e2, h2]
      have := tmx_port c s i hr O h hk s.port hk.port
      rw [hO] at this
      simp only [ofPort, List.filter_nil, List.map_nil, List.nil_append] at this
      rw [this]
      simp [h3]
    · right; rw [hO, List.append_nil]; exact h3
  · left
    rw [e2]
    generalize (tmxVar1 c s i).portN = l at *
    have ho := hk.off l hpp
    have hl : s.off l = 1 := by
      apply Classical.byContradiction
      intro hn
      have h0 : s.off l = 0 := by omega
      rw [h0, tmxFullV, if_pos (by omega)] at h2 h3
      rw [hf l hpp 1 0 (by omega) (by omega) (by omega) h3] at h2
      cases h2
    rw [hl] at h3 h4
    have r : tmxReady c s i l = true := by rw [tmxReady_iff]; intro k a b; omega
    refine tmxPend_mem c _ l 0 ?_ (by omega) ?_
    · rw [tmxStep_off c s i hr]
      simp [tmxOff, h4, h1]
    · rw [tmxStep_valid c s i hr, r, if_pos rfl]
      rw [tmxFullV, if_neg (by omega), h1] at h3
      exact h3

theorem tmx_inv_more (c : TmxCfg) (h0 : 0 < c.ports) (h1 : 0 < c.segs) (is : List TmxIn) (hi : ∀ i ∈ is, i.rst = false) (s : Tmx)
    (hw : c.segs ≤ 2 ∨ TmxRegFull c s ∧ ∀ i ∈ is, ∀ p < c.ports, TmxFull c (i.word p)) (t : List (Nat × TlpSeg))
    (hpk : ∀ i ∈ is, ∀ p < c.ports, TmxPacked c (i.word p)) (hrp : TmxRegPacked c s) (hb : TmxBusy c s t)
    (A : Nat → List TlpSeg) (T : List TlpSeg) (hI : TmxInv c s t A T) :
    ∃ u, TmxInv c (tmxRun c s is) (t ++ u) (fun p => A p ++ tmxAccepted c p s is) (T ++ tmxTaken c s is) ∧
      TmxRegPacked c (tmxRun c s is) ∧ TmxBusy c (tmxRun c s is) (t ++ u) := by
  induction is generalizing s t A T with
  | nil => exact ⟨[], by simpa [tmxRun, tmxAccepted, tmxTaken] using ⟨hI, hrp, hb⟩⟩
  | cons i is ih =>
    have hr := hi i (List.mem_cons_self ..)
    obtain ⟨O, hO⟩ := tmxRes_all c s i h0 h1 hI.ok.port hI.ok.off
      (hw.imp id fun h => tmxClosed_of c s i hI.ok h.1 (h.2 i (List.mem_cons_self ..)))
    obtain ⟨u, hu⟩ := ih (fun j hj => hi j (List.mem_cons_of_mem _ hj)) (tmxStep c s i)
      (hw.imp id fun h => ⟨tmxRegFull_step c s i hr O hO hI.ok h.1 (h.2 i (List.mem_cons_self ..)),
        fun j hj => h.2 j (List.mem_cons_of_mem _ hj)⟩) (t ++ O) (fun j hj => hpk j (List.mem_cons_of_mem _ hj))
      (tmxRegPacked_step c s i hr O hO hI.ok hrp (hpk i (List.mem_cons_self ..)))
      (tmxBusy_step c s i hr O hO hI.ok hrp t hb) _ _ (tmxInv_step c s i hr h1 O hO t A T hI)
    refine ⟨O ++ u, ?_⟩
    simp only [tmxRun, tmxAccepted, tmxTaken]
    simpa only [List.append_assoc] using hu

/-! ### Draining -/

def tmxWork (c : TmxCfg) (s : Tmx) : Nat := ((List.range c.ports).map fun p => (tmxPend c s p).length).sum

theorem tmx_sum_le (l : List Nat) (f g : Nat → Nat) (h : ∀ x ∈ l, f x ≤ g x) : (l.map f).sum ≤ (l.map g).sum := by
  induction l with
  | nil => simp
  | cons a l ih =>
    have := ih fun x hx => h x (List.mem_cons_of_mem _ hx)
    have := h a (List.mem_cons_self ..)
    simp; omega

theorem tmx_sum_lt (l : List Nat) (f g : Nat → Nat) (h : ∀ x ∈ l, f x ≤ g x) (y : Nat) (hy : y ∈ l) (hl : f y < g y) :
    (l.map f).sum < (l.map g).sum := by
  induction l with
  | nil => simp at hy
  | cons a l ih =>
    have h1 := tmx_sum_le l f g fun x hx => h x (List.mem_cons_of_mem _ hx)
    have h2 := h a (List.mem_cons_self ..)
    simp only [List.map_cons, List.sum_cons]
    rcases List.mem_cons.mp hy with rfl | hy
    · omega
    · have := ih (fun x hx => h x (List.mem_cons_of_mem _ hx)) hy
      omega

theorem tmx_sum_zero (l : List Nat) (f : Nat → Nat) (h : (l.map f).sum = 0) (x : Nat) (hx : x ∈ l) : f x = 0 := by
  apply Classical.byContradiction
  intro hn
  have := tmx_sum_lt l (fun _ => 0) f (fun _ _ => Nat.zero_le _) x hx (by omega)
  omega

theorem tmxWork_le (c : TmxCfg) (s : Tmx) : tmxWork c s ≤ c.ports * c.segs := by
  have h := tmx_sum_le (List.range c.ports) (fun p => (tmxPend c s p).length) (fun _ => c.segs) (by
    intro p _
    unfold tmxPend
    rw [List.length_map]
    refine Nat.le_trans (List.length_filter_le ..) ?_
    rw [List.length_range']; omega)
  have e : ((List.range c.ports).map fun _ => c.segs).sum = c.ports * c.segs := by
    rw [List.map_const']; simp
  rw [e] at h; exact h

theorem tmxClosed_quiet (c : TmxCfg) (s : Tmx) (i : TmxIn) (hk : TmxOk c s) (hf : TmxRegPacked c s) (hq : TmxQuiet c i) :
    TmxClosed c s i := by
  intro p hp k k' h1 h2 h3
  have ho := hk.off p hp
  obtain ⟨q1, q2⟩ := hq.2.2 p hp
  rw [tmxPv0 c s i p k (by omega), q1] at h3
  rw [tmxPv0 c s i p k' (by omega), q1]
  simp only [Bool.not_false, Bool.true_and] at h3 ⊢
  by_cases hk' : s.off p + k' < c.segs
  · rw [tmxFullV, if_pos (by omega)] at h3 ⊢
    cases e : (s.reg p).valid (s.off p + k') with
    | false => rfl
    | true => rw [hf p hp _ (s.off p + k) (by omega) (by omega) hk' e] at h3; cases h3
  · rw [tmxFullV, if_neg hk']; exact q2 _ (by omega)

/-- The pending segments of a port with a packed register: lanes from the offset on, the last with an end flag. -/
theorem tmxPend_last (c : TmxCfg) (s : Tmx) (p : Nat) (hp : p < c.ports) (hf : TmxRegPacked c s) (hne : tmxPend c s p ≠ [])
    (hl : ∀ x, (tmxPend c s p).getLast? = some x → x.eop = true) :
    ∃ m, s.off p + m < c.segs ∧ (∀ j ≤ m, (s.reg p).valid (s.off p + j) = true) ∧ ((s.reg p).seg (s.off p + m)).eop = true := by
  unfold tmxPend at hne hl
  generalize hL : (List.range' (s.off p) (c.segs - s.off p)).filter (s.reg p).valid = L at hne hl
  have hne' : L ≠ [] := by intro e; rw [e] at hne; exact hne rfl
  obtain ⟨y, hy⟩ : ∃ y, L.getLast? = some y := by
    cases e : L.getLast? with
    | none => exact absurd (List.getLast?_eq_none_iff.mp e) hne'
    | some y => exact ⟨y, rfl⟩
  have hm : y ∈ L := List.mem_of_getLast? hy
  rw [← hL] at hm
  obtain ⟨h1, h2⟩ := List.mem_filter.mp hm
  simp [List.mem_range'] at h1
  obtain ⟨m, h3, rfl⟩ := h1
  exact ⟨m, by omega, fun j hj => hf p hp _ _ (by omega) (by omega) (by omega) h2, hl _ (by rw [List.getLast?_map, hy]; rfl)⟩

theorem tmx_work (c : TmxCfg) (h0 : 0 < c.ports) (h1 : 0 < c.segs) (s : Tmx) (i : TmxIn) (hq : TmxQuiet c i)
    (t : List (Nat × TlpSeg)) (A : Nat → List TlpSeg) (T : List TlpSeg) (hI : TmxInv c s t A T) (hf : TmxRegPacked c s)
    (hb : TmxBusy c s t) (hc : ∀ p < c.ports, Complete (fun x : TlpSeg => x.eop) (A p)) (hrd : s.skid.ready = true) :
    ∃ O, TmxRes c s i O ∧ (tmxWork c s ≠ 0 → O ≠ []) := by
  have hclosed := tmxClosed_quiet c s i hI.ok hf hq
  have hcom : ∃ C, TmxCom c s i (tmxVar1 c s i) C ∧ (tmxVar1 c s i).sel.length = c.segs := by
    rcases tmx_loop c s i h0 hI.ok.port hI.ok.off hrd hclosed c.segs (Nat.le_refl _) with h | h
    · obtain ⟨C, hC⟩ := h.com; exact ⟨C, hC, h.len⟩
    · obtain ⟨C, hC⟩ := h.com; exact ⟨C, hC, h.len⟩
  obtain ⟨C, hC, hlen⟩ := hcom
  refine ⟨_, tmxRes_com c s i h1 C hC hlen hrd, ?_⟩
  intro hw hO
  have hC0 : C = [] := by simpa using hO
  have hn : (tmxVar1 c s i).n = 0 := by rw [hC.n, hC0]; rfl
  -- some port has something to send
  obtain ⟨p0, hp0, hne0⟩ : ∃ p, p < c.ports ∧ tmxPend c s p ≠ [] := by
    apply Classical.byContradiction
    intro hx
    apply hw
    have := tmx_sum_le (List.range c.ports) (fun p => (tmxPend c s p).length) (fun _ => 0) (by
      intro p hp
      have : tmxPend c s p = [] := Classical.byContradiction fun h => hx ⟨p, List.mem_range.mp hp, h⟩
      simp [this])
    unfold tmxWork
    rw [List.map_const'] at this
    simp at this ⊢
    exact this
  have hlast : ∀ p < c.ports, tmxPend c s p ≠ [] → ∀ x, (tmxPend c s p).getLast? = some x → x.eop = true := by
    intro p hp hne x hx
    refine hc p hp x ?_
    rw [hI.inp p hp, List.getLast?_append, hx]; rfl
  have hpend : ∀ p < c.ports, tmxPend c s p ≠ [] → ∃ m, m < c.segs ∧ (∀ j ≤ m, tmxFullV c s i p (s.off p + j) = true) ∧
      (tmxFull c s i p (s.off p + m)).eop = true := by
    intro p hp hne
    obtain ⟨m, a, b, d⟩ := tmxPend_last c s p hp hf hne (hlast p hp hne)
    refine ⟨m, by omega, fun j hj => ?_, ?_⟩
    · rw [tmxFullV, if_pos (by omega)]; exact b j hj
    · rw [tmxFull, if_pos (by omega)]; exact d
  have hpv : ∀ p < c.ports, tmxPend c s p ≠ [] → (tmxVar0 c s i).pv p 0 = true := by
    intro p hp hne
    obtain ⟨m, -, b, -⟩ := hpend p hp hne
    have := hI.ok.off p hp
    rw [tmxPv0 c s i p 0 (by omega), (hq.2.2 p hp).1, b 0 (Nat.zero_le _)]; rfl
  have hfin : ∀ p, p < c.ports → tmxArb c (tmxVar0 c s i) = (p, true) → tmxPend c s p ≠ [] → False := by
    intro p hp ha hne
    obtain ⟨m, a, b, d⟩ := hpend p hp hne
    have := tmx_commits c s i hI.ok.port hI.ok.off hrd p m hp ha (hq.2.2 p hp).1 a b d
    omega
  cases hfr : s.frame with
  | true =>
    refine hfin s.port hI.ok.port (by simp [tmxArb, tmxVar0, hfr]) ?_
    rcases hb hfr with h | ⟨x, hx, he⟩
    · exact h
    · intro hemp
      obtain ⟨-, h3⟩ := hI.last x hx he
      have h4 := hI.inp s.port hI.ok.port
      rw [hemp, List.append_nil] at h4
      have h5 : (ofPort s.port t).getLast? = some x.2 := by
        obtain ⟨l, rfl⟩ : ∃ l, t = l ++ [x] := by
          rcases List.eq_nil_or_concat t with e | ⟨l, y, e⟩
          · rw [e] at hx; simp at hx
          · rw [List.concat_eq_append] at e
            rw [e] at hx; simp at hx
            exact ⟨l, by rw [e, hx]⟩
        simp [ofPort, h3]
      have := hc s.port hI.ok.port x.2 (by rw [h4]; exact h5)
      simp only at this
      rw [he] at this; cases this
  | false =>
    have ha : tmxArb c (tmxVar0 c s i) =
        tmxScan c (fun p => (tmxVar0 c s i).pv p 0) c.ports (tmxFirst c s.port) s.port := by
      simp [tmxArb, tmxVar0, hfr]
    have hfl := tmxFirst_lt c h0 _ hI.ok.port
    obtain ⟨e1, e2⟩ := tmxScan_found c h0 (fun p => (tmxVar0 c s i).pv p 0) c.ports _ _ hfl hI.ok.port
    have e3 : (tmxScan c (fun p => (tmxVar0 c s i).pv p 0) c.ports (tmxFirst c s.port) s.port).2 = true := by
      cases e : (tmxScan c (fun p => (tmxVar0 c s i).pv p 0) c.ports (tmxFirst c s.port) s.port).2 with
      | true => rfl
      | false =>
        have := tmxScan_idle c _ _ _ hfl e p0 hp0
        rw [hpv p0 hp0 hne0] at this; cases this
    have e4 := e2 e3
    rw [← ha] at e1 e3 e4
    refine hfin _ e1 (Prod.ext rfl e3) ?_
    have ho := hI.ok.off _ e1
    have e5 := e4
    rw [tmxPv0 c s i _ 0 (by omega)] at e5
    simp only [Nat.add_zero, Bool.and_eq_true] at e5
    have e6 := e5.2
    rw [tmxFullV, if_pos (by omega)] at e6
    exact tmxPend_mem c s _ _ (Nat.le_refl _) ho e6

theorem tmxQuiet_packed {c : TmxCfg} {i : TmxIn} (hq : TmxQuiet c i) (p : Nat) (hp : p < c.ports) : TmxPacked c (i.word p) := by
  intro k j _ h2 h3
  rw [(hq.2.2 p hp).2 k h2] at h3; cases h3

theorem tmxQuiet_items {c : TmxCfg} {i : TmxIn} (hq : TmxQuiet c i) (p : Nat) (hp : p < c.ports) : tmxItems c (i.word p) = [] :=
  tmxItems_none c _ fun k hk => (hq.2.2 p hp).2 k hk

theorem tmxInv_acc {c : TmxCfg} {s : Tmx} {t : List (Nat × TlpSeg)} {A B : Nat → List TlpSeg} {T : List TlpSeg}
    (h : TmxInv c s t A T) (e : ∀ p < c.ports, A p = B p) : TmxInv c s t B T :=
  ⟨h.ok, h.ports, h.whole, h.last, fun p hp => by rw [← e p hp]; exact h.inp p hp, h.out⟩

theorem tmx_quiet_step (c : TmxCfg) (h1 : 0 < c.segs) (s : Tmx) (i : TmxIn) (hq : TmxQuiet c i)
    (t : List (Nat × TlpSeg)) (A : Nat → List TlpSeg) (T : List TlpSeg) (hI : TmxInv c s t A T) (O : List (Nat × TlpSeg))
    (hO : TmxRes c s i O) :
    TmxInv c (tmxStep c s i) (t ++ O) A (T ++ tmxShown c s) ∧ tmxWork c (tmxStep c s i) ≤ tmxWork c s ∧
      (O ≠ [] → tmxWork c (tmxStep c s i) < tmxWork c s) := by
  have hi := tmxInv_step c s i hq.1 h1 O hO t A T hI
  rw [hq.2.1, if_pos rfl] at hi
  have hpe : ∀ p < c.ports, ofPort p O ++ tmxPend c (tmxStep c s i) p = tmxPend c s p := by
    intro p hp
    rw [tmx_port c s i hq.1 O hO hI.ok p hp, tmxQuiet_items hq p hp]; simp
  have hle : ∀ p ∈ List.range c.ports, (tmxPend c (tmxStep c s i) p).length ≤ (tmxPend c s p).length := by
    intro p hp
    rw [← hpe p (List.mem_range.mp hp)]; simp
  refine ⟨tmxInv_acc hi fun p hp => by rw [tmxQuiet_items hq p hp]; simp, tmx_sum_le _ _ _ hle, ?_⟩
  intro hne
  cases hO' : O with
  | nil => exact absurd hO' hne
  | cons x l =>
    have hx := hO.ports x (by rw [hO']; exact List.mem_cons_self ..)
    refine tmx_sum_lt _ _ _ hle x.1 (List.mem_range.mpr hx) ?_
    rw [← hpe x.1 hx, hO']
    simp [ofPort]; omega

theorem tmx_drain_aux (c : TmxCfg) (h0 : 0 < c.ports) (h1 : 0 < c.segs) (is : List TmxIn) (hq : ∀ i ∈ is, TmxQuiet c i) (s : Tmx)
    (t : List (Nat × TlpSeg)) (A : Nat → List TlpSeg) (T : List TlpSeg) (hI : TmxInv c s t A T) (hf : TmxRegPacked c s)
    (hb : TmxBusy c s t) (hc : ∀ p < c.ports, Complete (fun x : TlpSeg => x.eop) (A p)) (hrd : s.skid.ready = true)
    (hl : (tmxWork c s = 0 ∧ s.skid.outV = false) ∨ tmxWork c s < is.length) :
    ∃ u, TmxInv c (tmxRun c s is) (t ++ u) A (T ++ tmxTaken c s is) ∧ tmxWork c (tmxRun c s is) = 0 ∧
      (tmxRun c s is).skid.outV = false := by
  induction is generalizing s t T with
  | nil =>
    rcases hl with h | h
    · exact ⟨[], by simpa [tmxRun, tmxTaken] using ⟨hI, h⟩⟩
    · simp at h
  | cons i is ih =>
    have hqi := hq i (List.mem_cons_self ..)
    obtain ⟨O, hO, hw⟩ := tmx_work c h0 h1 s i hqi t A T hI hf hb hc hrd
    obtain ⟨hI', hle, hlt⟩ := tmx_quiet_step c h1 s i hqi t A T hI O hO
    have e3 : (tmxStep c s i).skid = skidStep false s.skid ((List.range c.segs).any (tmxOut c s i).valid) (tmxOut c s i) true := by
      simp [tmxStep, hqi.1, hqi.2.1]
    have hrd' : (tmxStep c s i).skid.ready = true := by rw [e3]; exact skid_ready ..
    have hdone : tmxWork c s = 0 → tmxWork c (tmxStep c s i) = 0 ∧ (tmxStep c s i).skid.outV = false := by
      intro hz
      refine ⟨by omega, ?_⟩
      have hOn : O = [] := by
        cases hO' : O with
        | nil => rfl
        | cons x l => have := hlt (by rw [hO']; simp); omega
      have := hO.out
      rw [hOn] at this
      rw [e3, (skid_out s.skid _ _ hrd).1]
      exact tmx_vin c _ this
    have hl' : (tmxWork c (tmxStep c s i) = 0 ∧ (tmxStep c s i).skid.outV = false) ∨ tmxWork c (tmxStep c s i) < is.length := by
      by_cases hz : tmxWork c s = 0
      · exact .inl (hdone hz)
      · right
        have := hlt (hw hz)
        rcases hl with ⟨a, -⟩ | h
        · exact absurd a hz
        · simp at h; omega
    obtain ⟨u, hu⟩ := ih (fun j hj => hq j (List.mem_cons_of_mem _ hj)) _ _ _ hI'
      (tmxRegPacked_step c s i hqi.1 O hO hI.ok hf fun p hp => tmxQuiet_packed hqi p hp)
      (tmxBusy_step c s i hqi.1 O hO hI.ok hf t hb) hrd' hl'
    refine ⟨O ++ u, ?_⟩
    simp only [tmxRun, tmxTaken, hqi.2.1, if_true]
    simpa only [List.append_assoc] using hu

theorem tmx_drain (c : TmxCfg) (h0 : 0 < c.ports) (h1 : 0 < c.segs) (is : List TmxIn) (hq : ∀ i ∈ is, TmxQuiet c i) (s : Tmx)
    (t : List (Nat × TlpSeg)) (A : Nat → List TlpSeg) (T : List TlpSeg) (hI : TmxInv c s t A T) (hf : TmxRegPacked c s)
    (hb : TmxBusy c s t) (hc : ∀ p < c.ports, Complete (fun x : TlpSeg => x.eop) (A p))
    (hl : c.ports * c.segs + 2 ≤ is.length) :
    ∃ t', T ++ tmxTaken c s is = t'.map (·.2) ∧ (∀ x ∈ t', x.1 < c.ports) ∧
      FramesWhole (fun x : TlpSeg => x.eop) t' ∧ ∀ p < c.ports, ofPort p t' = A p := by
  cases is with
  | nil => simp at hl
  | cons i is =>
    have hqi := hq i (List.mem_cons_self ..)
    obtain ⟨O, hO⟩ := tmxRes_all c s i h0 h1 hI.ok.port hI.ok.off (.inr (tmxClosed_quiet c s i hI.ok hf hqi))
    obtain ⟨hI', -, -⟩ := tmx_quiet_step c h1 s i hqi t A T hI O hO
    have hrd : (tmxStep c s i).skid.ready = true := by simp [tmxStep, hqi.1, hqi.2.1, skid_ready]
    have hwl := tmxWork_le c (tmxStep c s i)
    simp only [List.length_cons] at hl
    obtain ⟨u, hu, hz, hov⟩ := tmx_drain_aux c h0 h1 is (fun j hj => hq j (List.mem_cons_of_mem _ hj)) _ _ _ _ hI'
      (tmxRegPacked_step c s i hqi.1 O hO hI.ok hf fun p hp => tmxQuiet_packed hqi p hp)
      (tmxBusy_step c s i hqi.1 O hO hI.ok hf t hb) hc hrd (.inr (by omega))
    refine ⟨t ++ O ++ u, ?_, hu.ports, hu.whole, fun p hp => ?_⟩
    · have := hu.out
      have ht : (tmxRun c (tmxStep c s i) is).skid.tempV = false := by
        cases ht : (tmxRun c (tmxStep c s i) is).skid.tempV with
        | false => rfl
        | true => have := hu.ok.skid.2 ht; rw [hov] at this; cases this
      simp only [skidQ, hov, ht] at this
      rw [this]
      simp [tmxTaken, hqi.2.1, List.append_assoc]
    · have h2 := hu.inp p hp
      have h3 := tmx_sum_zero _ _ hz p (List.mem_range.mpr hp)
      rw [List.length_eq_zero_iff.mp h3, List.append_nil] at h2
      exact h2.symm

end Verif.Proofs
