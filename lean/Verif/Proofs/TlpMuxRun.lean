import Verif.Proofs.TlpMux
import Verif.Proofs.Skid
/-! Lemmas on the TLP multiplexer: histories. -/
namespace Verif.Proofs
open Verif Verif.Model Verif.Spec

/-- The segments of port `p` in its register that have not been selected. -/
def tmxPend (c : TmxCfg) (s : Tmx) (p : Nat) : List TlpSeg :=
  ((List.range' (s.off p) (c.segs - s.off p)).filter (s.reg p).valid).map (s.reg p).seg

structure TmxOk (c : TmxCfg) (s : Tmx) : Prop where
  port : s.port < c.ports
  off : ∀ p < c.ports, s.off p < c.segs
  empty : ∀ p < c.ports, (∀ k < c.segs, (s.reg p).valid k = false) → s.off p = 0
  skid : SkidOk s.skid

/-- The registers hold all lanes from the offset on, or none. -/
def TmxRegFull (c : TmxCfg) (s : Tmx) : Prop :=
  ∀ p < c.ports, (∀ k, s.off p ≤ k → k < c.segs → (s.reg p).valid k = true) ∨ (∀ k < c.segs, (s.reg p).valid k = false)

theorem tmxReady_iff (c : TmxCfg) (s : Tmx) (i : TmxIn) (p : Nat) :
    tmxReady c s i p = true ↔ ∀ k, (tmxVar1 c s i).offN p ≤ k → k < c.segs → (s.reg p).valid k = false := by
  simp only [tmxReady, tmxKeep, List.all_eq_true, List.mem_range]
  constructor
  · intro h k h1 h2
    have := h k h2
    simpa [h1] using this
  · intro h k h2
    by_cases h1 : (tmxVar1 c s i).offN p ≤ k
    · simp [h k h1 h2]
    · simp [h1]

theorem tmxAny_iff (c : TmxCfg) (w : TmxWord) : (List.range c.segs).any w.valid = false ↔ ∀ k < c.segs, w.valid k = false := by
  simp [List.any_eq_false]

/-- What happens to the register of one port. -/
inductive TmxCase (c : TmxCfg) (s : Tmx) (i : TmxIn) (p : Nat) : Prop
  | past (h : c.segs ≤ (tmxVar1 c s i).offN p) (r : tmxReady c s i p = true)
      (o : tmxOff c s i p = (tmxVar1 c s i).offN p - c.segs)
  | load (h : (tmxVar1 c s i).offN p < c.segs) (r : tmxReady c s i p = true) (o : tmxOff c s i p = 0)
  | keep (h : (tmxVar1 c s i).offN p < c.segs) (r : tmxReady c s i p = false)
      (o : tmxOff c s i p = (tmxVar1 c s i).offN p)

theorem tmx_case (c : TmxCfg) (s : Tmx) (i : TmxIn) (O : List (Nat × TlpSeg)) (h : TmxRes c s i O) (hk : TmxOk c s) (p : Nat)
    (hp : p < c.ports) : TmxCase c s i p := by
  by_cases h1 : c.segs ≤ (tmxVar1 c s i).offN p
  · exact .past h1 ((tmxReady_iff c s i p).mpr fun k a b => by omega) (by simp [tmxOff, h1])
  · have h2 : (tmxVar1 c s i).offN p < c.segs := by omega
    cases hr : tmxReady c s i p with
    | false => exact .keep h2 hr (by simp [tmxOff, h1, hr])
    | true =>
      refine .load h2 hr ?_
      cases ha : (List.range c.segs).any (s.reg p).valid with
      | true => simp [tmxOff, h1, hr, ha]
      | false =>
        have he := (tmxAny_iff c (s.reg p)).mp ha
        have := h.empty p hp he (hk.empty p hp he)
        simp [tmxOff, this, ha]

theorem tmxStep_off (c : TmxCfg) (s : Tmx) (i : TmxIn) (hr : i.rst = false) (p : Nat) :
    (tmxStep c s i).off p = tmxOff c s i p := by simp [tmxStep, hr]

theorem tmxStep_valid (c : TmxCfg) (s : Tmx) (i : TmxIn) (hr : i.rst = false) (p k : Nat) :
    ((tmxStep c s i).reg p).valid k = if tmxReady c s i p then (i.word p).valid k else tmxKeep c s i p k := by
  simp [tmxStep, hr]

theorem tmxStep_seg (c : TmxCfg) (s : Tmx) (i : TmxIn) (p : Nat) :
    ((tmxStep c s i).reg p).seg = if tmxReady c s i p then (i.word p).seg else (s.reg p).seg := by
  simp [tmxStep]

/-- The lanes of a port between two positions of the window. -/
def tmxLanes (v : Nat → Bool) (f : Nat → TlpSeg) (a b : Nat) : List TlpSeg := ((List.range' a (b - a)).filter v).map f

theorem tmxLanes_append (v : Nat → Bool) (f : Nat → TlpSeg) (a b d : Nat) (h1 : a ≤ b) (h2 : b ≤ d) :
    tmxLanes v f a d = tmxLanes v f a b ++ tmxLanes v f b d := by
  unfold tmxLanes
  rw [← List.map_append, ← List.filter_append]
  have h := List.range'_append (s := a) (m := b - a) (n := d - b) (step := 1)
  rw [Nat.one_mul, show a + (b - a) = b by omega, show b - a + (d - b) = d - a by omega] at h
  rw [h]

theorem tmxLanes_congr (v v' : Nat → Bool) (f f' : Nat → TlpSeg) (a b : Nat) (hv : ∀ k, a ≤ k → k < b → v k = v' k)
    (hf : ∀ k, a ≤ k → k < b → f k = f' k) : tmxLanes v f a b = tmxLanes v' f' a b := by
  unfold tmxLanes
  have hm : ∀ k ∈ List.range' a (b - a), a ≤ k ∧ k < b := by
    intro k hk; simp [List.mem_range'] at hk; omega
  rw [List.filter_congr (q := v') fun k hk => hv k (hm k hk).1 (hm k hk).2]
  exact List.map_congr_left fun k hk => hf k (hm k (List.mem_filter.mp hk).1).1 (hm k (List.mem_filter.mp hk).1).2

theorem tmxLanes_shift (v : Nat → Bool) (f : Nat → TlpSeg) (a b d : Nat) :
    tmxLanes v f (d + a) (d + b) = tmxLanes (fun k => v (d + k)) (fun k => f (d + k)) a b := by
  unfold tmxLanes
  rw [show d + b - (d + a) = b - a by omega, List.range'_eq_map_range, List.range'_eq_map_range (s := a), List.filter_map,
    List.filter_map, List.map_map, List.map_map]
  rw [List.filter_congr (q := (fun k => v (d + k)) ∘ fun x => a + x) (by intro x _; simp [Nat.add_assoc])]
  exact List.map_congr_left fun x _ => by simp [Nat.add_assoc]

theorem tmxLanes_none (v : Nat → Bool) (f : Nat → TlpSeg) (a b : Nat) (h : ∀ k, a ≤ k → k < b → v k = false) :
    tmxLanes v f a b = [] := by
  unfold tmxLanes
  rw [List.filter_eq_nil_iff.mpr]
  · rfl
  · intro k hk; simp [List.mem_range'] at hk; simp [h k (by omega) (by omega)]

theorem tmxItems_lanes (c : TmxCfg) (w : TmxWord) : tmxItems c w = tmxLanes w.valid w.seg 0 c.segs := by
  unfold tmxItems tmxLanes; rw [List.range_eq_range']; simp

/-- Nothing is lost in one cycle: selected, then left, is what was left, then accepted. -/
theorem tmx_port (c : TmxCfg) (s : Tmx) (i : TmxIn) (hr : i.rst = false) (O : List (Nat × TlpSeg)) (h : TmxRes c s i O)
    (hk : TmxOk c s) (p : Nat) (hp : p < c.ports) :
    ofPort p O ++ tmxPend c (tmxStep c s i) p =
      tmxPend c s p ++ (if tmxReady c s i p then tmxItems c (i.word p) else []) := by
  have hO : ofPort p O = tmxLanes (tmxFullV c s i p) (tmxFull c s i p) (s.off p) ((tmxVar1 c s i).offN p) := h.per p
  have hP : tmxPend c s p = tmxLanes (tmxFullV c s i p) (tmxFull c s i p) (s.off p) c.segs := by
    refine tmxLanes_congr _ _ _ _ _ _ ?_ ?_ <;> intro k _ hk <;> simp [tmxFullV, tmxFull, hk]
  have hP' : tmxPend c (tmxStep c s i) p = tmxLanes ((tmxStep c s i).reg p).valid ((tmxStep c s i).reg p).seg
    (tmxOff c s i p) c.segs := by rw [← tmxStep_off c s i hr]; rfl
  have hI : tmxItems c (i.word p) = tmxLanes (tmxFullV c s i p) (tmxFull c s i p) c.segs (c.segs + c.segs) := by
    rw [tmxItems_lanes]
    have := tmxLanes_shift (tmxFullV c s i p) (tmxFull c s i p) 0 c.segs c.segs
    rw [Nat.add_zero] at this
    rw [this]
    refine tmxLanes_congr _ _ _ _ _ _ ?_ ?_ <;> intro k _ hk <;> simp [tmxFullV, tmxFull] <;> omega
  have hge := h.ge p
  have hle := h.le p
  have hof := hk.off p hp
  rw [hO, hP, hP', hI]
  cases tmx_case c s i O h hk p hp with
  | past h1 r o =>
    have e : tmxLanes ((tmxStep c s i).reg p).valid ((tmxStep c s i).reg p).seg (tmxOff c s i p) c.segs =
        tmxLanes (tmxFullV c s i p) (tmxFull c s i p) ((tmxVar1 c s i).offN p) (c.segs + c.segs) := by
      have := tmxLanes_shift (tmxFullV c s i p) (tmxFull c s i p) (tmxOff c s i p) c.segs c.segs
      rw [o, show c.segs + ((tmxVar1 c s i).offN p - c.segs) = (tmxVar1 c s i).offN p by omega] at this
      rw [this, o]
      refine tmxLanes_congr _ _ _ _ _ _ ?_ ?_ <;> intro k _ hk
      · rw [tmxStep_valid c s i hr, r]; simp [tmxFullV]; omega
      · rw [tmxStep_seg, r]; simp [tmxFull]; omega
    rw [e, r, if_pos rfl, ← tmxLanes_append _ _ _ _ _ (by omega) (by omega), ← tmxLanes_append _ _ _ _ _ (by omega) (by omega)]
  | load h1 r o =>
    have e : tmxLanes ((tmxStep c s i).reg p).valid ((tmxStep c s i).reg p).seg (tmxOff c s i p) c.segs =
        tmxLanes (tmxFullV c s i p) (tmxFull c s i p) c.segs (c.segs + c.segs) := by
      rw [← hI, tmxItems_lanes, o]
      refine tmxLanes_congr _ _ _ _ _ _ ?_ ?_ <;> intro k _ hk
      · rw [tmxStep_valid c s i hr, r]; simp
      · rw [tmxStep_seg, r]; simp
    rw [e, r, if_pos rfl, tmxLanes_append _ _ (s.off p) ((tmxVar1 c s i).offN p) c.segs hge (by omega),
      tmxLanes_none _ _ ((tmxVar1 c s i).offN p) c.segs, List.append_nil]
    intro k a b
    rw [tmxFullV, if_pos b]; exact (tmxReady_iff c s i p).mp r k a b
  | keep h1 r o =>
    have e : tmxLanes ((tmxStep c s i).reg p).valid ((tmxStep c s i).reg p).seg (tmxOff c s i p) c.segs =
        tmxLanes (tmxFullV c s i p) (tmxFull c s i p) ((tmxVar1 c s i).offN p) c.segs := by
      rw [o]
      refine tmxLanes_congr _ _ _ _ _ _ ?_ ?_ <;> intro k a hk
      · rw [tmxStep_valid c s i hr, r]; simp [tmxFullV, hk, tmxKeep, a]
      · rw [tmxStep_seg, r]; simp [tmxFull, hk]
    rw [e, r, ← tmxLanes_append _ _ _ _ _ hge (by omega)]
    simp

theorem tmx_vin (c : TmxCfg) (w : TmxWord) (h : tmxItems c w = []) : (List.range c.segs).any w.valid = false := by
  rw [tmxAny_iff]
  intro k hk
  unfold tmxItems at h
  rw [List.map_eq_nil_iff, List.filter_eq_nil_iff] at h
  simpa using h k (List.mem_range.mpr hk)

theorem tmxOk_step (c : TmxCfg) (s : Tmx) (i : TmxIn) (hr : i.rst = false) (O : List (Nat × TlpSeg)) (h : TmxRes c s i O)
    (hk : TmxOk c s) (h1 : 0 < c.segs) : TmxOk c (tmxStep c s i) := by
  refine ⟨?_, ?_, ?_, ?_⟩
  · simp only [tmxStep, hr]; exact h.port
  · intro p hp
    rw [tmxStep_off c s i hr]
    have := hk.off p hp
    have := h.le p
    cases tmx_case c s i O h hk p hp <;> omega
  · intro p hp he
    rw [tmxStep_off c s i hr]
    have h5 := h.ge p
    have hof := hk.off p hp
    cases tmx_case c s i O h hk p hp with
    | load _ _ o => exact o
    | past h2 r o =>
      rw [o]
      apply Classical.byContradiction
      intro hne
      have := h.beyond p c.segs (Nat.le_refl _) (by omega) (by omega)
      have e := he 0 h1
      rw [tmxStep_valid c s i hr, r, if_pos rfl] at e
      rw [tmxFullV, if_neg (by omega), Nat.sub_self, e] at this
      cases this
    | keep h2 r o =>
      exfalso
      have : tmxReady c s i p = true := by
        rw [tmxReady_iff]
        intro k a b
        have e := he k b
        rw [tmxStep_valid c s i hr, r] at e
        simpa [tmxKeep, a] using e
      rw [r] at this; cases this
  · simp only [tmxStep, hr]
    refine (skid_step s.skid _ _ i.ready hk.skid ?_).1
    intro hv
    cases e : s.skid.ready with
    | true => rfl
    | false =>
      have h3 := h.ready e
      have h4 := h.out
      rw [h3] at h4
      rw [tmx_vin c _ h4] at hv; cases hv

theorem tmxRegFull_step (c : TmxCfg) (s : Tmx) (i : TmxIn) (hr : i.rst = false) (O : List (Nat × TlpSeg)) (h : TmxRes c s i O)
    (hk : TmxOk c s) (hf : TmxRegFull c s) (hi : ∀ p < c.ports, TmxFull c (i.word p)) : TmxRegFull c (tmxStep c s i) := by
  intro p hp
  rw [tmxStep_off c s i hr]
  have hge := h.ge p
  have loaded : tmxReady c s i p = true → (∀ k, tmxOff c s i p ≤ k → k < c.segs → ((tmxStep c s i).reg p).valid k = true) ∨
      (∀ k < c.segs, ((tmxStep c s i).reg p).valid k = false) := by
    intro r
    rcases hi p hp with h2 | h2
    · left; intro k _ hk; rw [tmxStep_valid c s i hr, r, if_pos rfl]; exact h2 k hk
    · right; intro k hk; rw [tmxStep_valid c s i hr, r, if_pos rfl]; exact h2 k hk
  cases tmx_case c s i O h hk p hp with
  | past _ r _ => exact loaded r
  | load _ r _ => exact loaded r
  | keep h2 r o =>
    rcases hf p hp with h3 | h3
    · left
      intro k a b
      rw [tmxStep_valid c s i hr, r]
      rw [o] at a
      simp [tmxKeep, a, h3 k (by omega) b]
    · right
      intro k hk
      rw [tmxStep_valid c s i hr, r]
      simp [tmxKeep, h3 k hk]

theorem tmxClosed_of (c : TmxCfg) (s : Tmx) (i : TmxIn) (hk : TmxOk c s) (hf : TmxRegFull c s)
    (hi : ∀ p < c.ports, TmxFull c (i.word p)) : TmxClosed c s i := by
  intro p hp k k' h1 h2 h3
  have ho := hk.off p hp
  rw [tmxPv0 c s i p k (by omega)] at h3
  rw [tmxPv0 c s i p k' (by omega)]
  cases hps : i.pause p with
  | true => rfl
  | false =>
    rw [hps] at h3
    simp only [Bool.not_false, Bool.true_and] at h3 ⊢
    rcases hf p hp with h4 | h4
    · by_cases hk : s.off p + k < c.segs
      · rw [tmxFullV, if_pos hk, h4 _ (by omega) hk] at h3; cases h3
      · rw [tmxFullV, if_neg hk] at h3
        rw [tmxFullV, if_neg (by omega)]
        rcases hi p hp with h5 | h5
        · rw [h5 _ (by omega)] at h3; cases h3
        · exact h5 _ (by omega)
    · have h0 := hk.empty p hp h4
      rw [h0, Nat.zero_add, tmxFullV, if_pos h2]; exact h4 k' h2

/-- The invariant: `t` is what has gone into the output registers, `A` what the ports have handed over, `T` what was
taken. -/
structure TmxInv (c : TmxCfg) (s : Tmx) (t : List (Nat × TlpSeg)) (A : Nat → List TlpSeg) (T : List TlpSeg) : Prop where
  ok : TmxOk c s
  ports : ∀ x ∈ t, x.1 < c.ports
  whole : FramesWhole (fun x : TlpSeg => x.eop) t
  last : ∀ x, t.getLast? = some x → x.2.eop = false → s.frame = true ∧ s.port = x.1
  inp : ∀ p < c.ports, A p = ofPort p t ++ tmxPend c s p
  out : t.map (·.2) = T ++ (skidQ s.skid).flatMap (tmxItems c)

theorem framesWhole_append {α : Type} (l : α → Bool) (t u : List (Nat × α)) (ht : FramesWhole l t) (hu : FramesWhole l u)
    (h : ∀ x y, t.getLast? = some x → u.head? = some y → l x.2 = false → y.1 = x.1) : FramesWhole l (t ++ u) := by
  intro k a b ha hb hl
  by_cases h1 : k + 1 < t.length
  · rw [List.getElem?_append_left (by omega)] at ha hb
    exact ht k a b ha hb hl
  · by_cases h2 : k < t.length
    · have e : k + 1 = t.length := by omega
      rw [List.getElem?_append_left h2] at ha
      rw [List.getElem?_append_right (by omega), e, Nat.sub_self] at hb
      refine h a b ?_ ?_ hl
      · rw [List.getLast?_eq_getElem?, ← e]; exact ha
      · rw [List.head?_eq_getElem?]; exact hb
    · rw [List.getElem?_append_right (by omega)] at ha hb
      rw [show k + 1 - t.length = k - t.length + 1 by omega] at hb
      exact hu _ a b ha hb hl

theorem ofPort_append' {α : Type} (p : Nat) (t u : List (Nat × α)) : ofPort p (t ++ u) = ofPort p t ++ ofPort p u := by
  simp [ofPort]

theorem tmxInv_step (c : TmxCfg) (s : Tmx) (i : TmxIn) (hr : i.rst = false) (h1 : 0 < c.segs) (O : List (Nat × TlpSeg))
    (h : TmxRes c s i O) (t : List (Nat × TlpSeg)) (A : Nat → List TlpSeg) (T : List TlpSeg) (hI : TmxInv c s t A T) :
    TmxInv c (tmxStep c s i) (t ++ O) (fun p => A p ++ if tmxReady c s i p then tmxItems c (i.word p) else [])
      (T ++ if i.ready then tmxShown c s else []) := by
  have hok := tmxOk_step c s i hr O h hI.ok h1
  refine ⟨hok, ?_, ?_, ?_, ?_, ?_⟩
  · intro x hx
    rcases List.mem_append.mp hx with hx | hx
    · exact hI.ports x hx
    · exact h.ports x hx
  · refine framesWhole_append _ _ _ hI.whole h.whole ?_
    intro x y hx hy he
    obtain ⟨h2, h3⟩ := hI.last x hx he
    rw [h.first h2 y hy, h3]
  · intro x hx he
    simp only [tmxStep, hr, Bool.false_eq_true, if_false]
    cases hO : O with
    | nil =>
      rw [hO, List.append_nil] at hx
      obtain ⟨h2, h3⟩ := hI.last x hx he
      rw [← h3]; exact h.keep hO h2
    | cons y l =>
      refine h.last x ?_ he
      rw [List.getLast?_append, hO] at hx
      rw [hO]
      simpa using hx
  · intro p hp
    show A p ++ _ = _
    rw [ofPort_append', hI.inp p hp, List.append_assoc, List.append_assoc, tmx_port c s i hr O h hI.ok p hp]
  · have hv : (List.range c.segs).any (tmxOut c s i).valid = true → s.skid.ready = true := by
      intro hv
      cases e : s.skid.ready with
      | true => rfl
      | false =>
        have h4 := h.out
        rw [h.ready e] at h4
        rw [tmx_vin c _ h4] at hv; cases hv
    have hs := (skid_step s.skid _ (tmxOut c s i) i.ready hI.ok.skid hv).2
    have hs' := congrArg (List.flatMap (tmxItems c)) hs
    rw [List.flatMap_append, List.flatMap_append] at hs'
    have e1 : List.flatMap (tmxItems c) (if s.skid.outV && i.ready then [s.skid.out] else []) =
        if i.ready then tmxShown c s else [] := by
      unfold tmxShown
      cases s.skid.outV <;> cases i.ready <;> simp
    have e2 : List.flatMap (tmxItems c) (if (List.range c.segs).any (tmxOut c s i).valid then [tmxOut c s i] else []) =
        O.map (·.2) := by
      rw [← h.out]
      cases e : (List.range c.segs).any (tmxOut c s i).valid with
      | true => simp
      | false => simp; exact tmxItems_none c _ ((tmxAny_iff c _).mp e)
    rw [e1, e2] at hs'
    have e3 : (tmxStep c s i).skid = skidStep false s.skid ((List.range c.segs).any (tmxOut c s i).valid) (tmxOut c s i) i.ready := by
      simp [tmxStep, hr]
    rw [List.map_append, hI.out, e3, List.append_assoc, List.append_assoc, hs']

theorem tmxInv_init (c : TmxCfg) (s : Tmx) (r : TmxIn) (hr : r.rst = true) (h0 : 0 < c.ports) (h1 : 0 < c.segs) :
    TmxInv c (tmxStep c s r) [] (fun _ => []) [] ∧ TmxRegFull c (tmxStep c s r) := by
  refine ⟨⟨⟨?_, ?_, ?_, ?_⟩, by simp, fun k a b ha => by simp at ha, by simp, ?_, ?_⟩, ?_⟩
  · simp [tmxStep, hr, h0]
  · simp [tmxStep, hr, h1]
  · simp [tmxStep, hr]
  · simp only [tmxStep, hr]; exact (skid_rst s.skid _ _ r.ready).1
  · intro p hp
    simp only [tmxPend, tmxStep, hr, if_true]
    rw [List.filter_eq_nil_iff.mpr (by simp)]; rfl
  · simp only [tmxStep, hr, (skid_rst s.skid _ _ r.ready).2]; rfl
  · intro p hp; right; simp [tmxStep, hr]

theorem tmxInv_run (c : TmxCfg) (h0 : 0 < c.ports) (h1 : 0 < c.segs) (is : List TmxIn) (hi : ∀ i ∈ is, i.rst = false) (s : Tmx)
    (hw : c.segs ≤ 2 ∨ TmxRegFull c s ∧ ∀ i ∈ is, ∀ p < c.ports, TmxFull c (i.word p)) (t : List (Nat × TlpSeg))
    (A : Nat → List TlpSeg) (T : List TlpSeg) (hI : TmxInv c s t A T) :
    ∃ u, TmxInv c (tmxRun c s is) (t ++ u) (fun p => A p ++ tmxAccepted c p s is) (T ++ tmxTaken c s is) := by
  induction is generalizing s t A T with
  | nil => exact ⟨[], by simpa [tmxRun, tmxAccepted, tmxTaken] using hI⟩
  | cons i is ih =>
    have hr := hi i (List.mem_cons_self ..)
    obtain ⟨O, hO⟩ := tmxRes_all c s i h0 h1 hI.ok.port hI.ok.off
      (hw.imp id fun h => tmxClosed_of c s i hI.ok h.1 (h.2 i (List.mem_cons_self ..)))
    obtain ⟨u, hu⟩ := ih (fun j hj => hi j (List.mem_cons_of_mem _ hj)) (tmxStep c s i)
      (hw.imp id fun h => ⟨tmxRegFull_step c s i hr O hO hI.ok h.1 (h.2 i (List.mem_cons_self ..)),
        fun j hj => h.2 j (List.mem_cons_of_mem _ hj)⟩) _ _ _ (tmxInv_step c s i hr h1 O hO t A T hI)
    refine ⟨O ++ u, ?_⟩
    simp only [tmxRun, tmxAccepted, tmxTaken]
    simpa only [List.append_assoc] using hu

end Verif.Proofs
