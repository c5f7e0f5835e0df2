import Verif.Proofs.UsIfRx
/-! Proofs about the UltraScale RC and CQ interfaces: decoding the framing. -/
namespace Verif.Proofs
open Verif.Model Verif.Spec

/-- `urxAlt` with empty segments: while a packet is open, the next segment is used. -/
def urxRec : Bool → UrxSlots → Prop
  | _, [] => True
  | o, none :: t => o = false ∧ urxRec false t
  | o, some a :: t => a.first = !o ∧ urxRec (!a.last) t

theorem urxRec_of (o : Bool) (w : UrxSlots)
    (hc : ∀ s a, w[s]? = some (some a) → a.last = false → s + 1 < w.length → ∃ b, w[s + 1]? = some (some b))
    (ha : urxAlt o (w.filterMap id)) (ho : o = true → w = [] ∨ ∃ b, w[0]? = some (some b)) : urxRec o w := by
  induction w generalizing o with
  | nil => trivial
  | cons x t ih =>
    have hc' : ∀ s a, t[s]? = some (some a) → a.last = false → s + 1 < t.length → ∃ b, t[s + 1]? = some (some b) :=
      fun s a hs hl hlt => by
        have := hc (s + 1) a (by simpa using hs) hl (by simpa using hlt)
        simpa using this
    cases x with
    | none =>
      have : o = false := by
        cases o with
        | false => rfl
        | true => have := ho rfl; simp at this
      subst this
      exact ⟨rfl, ih false hc' ha (by simp)⟩
    | some a =>
      refine ⟨ha.1, ih _ hc' ha.2 ?_⟩
      intro hl
      cases t with
      | nil => exact Or.inl rfl
      | cons y t => right; simpa using hc 0 a rfl (by simpa using hl) (by simp)

/-- Whether a packet is open after the segments, `o` before. -/
def urxAfterO (o : Bool) (A : List UrxSeg) : Bool :=
  match A.getLast? with
  | none => o
  | some a => !a.last

theorem urxAfterO_cons (o : Bool) (a : UrxSeg) (t : List UrxSeg) : urxAfterO o (a :: t) = urxAfterO (!a.last) t := by
  unfold urxAfterO
  cases t with
  | nil => rfl
  | cons b t =>
    simp only [List.getLast?_cons_cons, List.getLast?_cons]
    rfl

/-- The lanes on which packets start and end, from the contents of the word. -/
structure UrxMarks (W : Nat) (w : UrxSlots) (sop eop : Nat → Bool) : Prop where
  sop : ∀ l, sop l = true ↔ ∃ (s : Nat) (a : UrxSeg), w[s]? = some (some a) ∧ a.first = true ∧ l = W * s
  eop : ∀ l, eop l = true ↔
    ∃ (s : Nat) (a : UrxSeg), w[s]? = some (some a) ∧ a.last = true ∧ l = W * s + (a.dws.length - 1)

theorem urx_lane_inj {W s s' j j' : Nat} (hj : j < W) (hj' : j' < W) (h : W * s + j = W * s' + j') : s = s' ∧ j = j' := by
  have h1 := urx_div (s := s) hj
  have h2 := urx_div (s := s') hj'
  have h3 := urx_mod (s := s) hj
  have h4 := urx_mod (s := s') hj'
  rw [h] at h1 h3
  exact ⟨h1.symm.trans h2, h3.symm.trans h4⟩

section
variable {c : UrxCfg} {w : UrxSlots} {sop eop : Nat → Bool}

theorem urxMarks_sop (hm : UrxMarks c.W w sop eop) (hW : 0 < c.W) {s j : Nat} (hj : j < c.W) :
    sop (c.W * s + j) = true ↔ j = 0 ∧ ∃ a, w[s]? = some (some a) ∧ a.first = true := by
  rw [hm.sop]
  constructor
  · rintro ⟨s', a, h1, h2, h3⟩
    obtain ⟨rfl, h4⟩ := urx_lane_inj (j' := 0) hj hW h3
    exact ⟨h4, a, h1, h2⟩
  · rintro ⟨rfl, a, h1, h2⟩
    exact ⟨s, a, h1, h2, rfl⟩

theorem urxMarks_eop (hm : UrxMarks c.W w sop eop) (hok : ∀ (s : Nat) a, w[s]? = some (some a) → UrxSegOk c a)
    {s j : Nat} (hj : j < c.W) :
    eop (c.W * s + j) = true ↔ ∃ a, w[s]? = some (some a) ∧ a.last = true ∧ j + 1 = a.dws.length := by
  rw [hm.eop]
  constructor
  · rintro ⟨s', a, h1, h2, h3⟩
    have o := hok s' a h1
    have := o.le
    have := o.pos
    obtain ⟨rfl, h4⟩ := urx_lane_inj hj (by omega) h3
    exact ⟨a, h1, h2, by omega⟩
  · rintro ⟨a, h1, h2, h3⟩
    exact ⟨s, a, h1, h2, by omega⟩

/-- Lanes of a used segment. -/
theorem urx_open_some (hm : UrxMarks c.W w sop eop) (hW : 0 < c.W)
    (hok : ∀ (s : Nat) a, w[s]? = some (some a) → UrxSegOk c a) {s : Nat} {a : UrxSeg} (ha : w[s]? = some (some a))
    (ho : a.first = false → urxOpen sop eop (c.W * s) = true) (j : Nat) (hj : j < c.W) :
    urxOpen sop eop (c.W * s + (j + 1)) = decide (j + 1 < a.dws.length ∨ a.last = false) := by
  have o := hok s a ha
  have hp := o.pos
  have hle := o.le
  have heop : ∀ j, j < c.W → eop (c.W * s + j) = decide (a.last = true ∧ j + 1 = a.dws.length) := by
    intro j hj
    rw [Bool.eq_iff_iff, urxMarks_eop hm hok hj]
    simp only [decide_eq_true_eq]
    constructor
    · rintro ⟨b, h1, h2⟩
      rw [ha] at h1
      simp only [Option.some.injEq] at h1
      subst h1; exact h2
    · exact fun h => ⟨a, ha, h⟩
  induction j with
  | zero =>
    have h1 : (urxOpen sop eop (c.W * s) || sop (c.W * s)) = true := by
      cases hf : a.first with
      | false => rw [ho hf]; rfl
      | true =>
        rw [show sop (c.W * s) = true from (urxMarks_sop hm hW (j := 0) hW).2 ⟨rfl, a, ha, hf⟩, Bool.or_true]
    show ((urxOpen sop eop (c.W * s) || sop (c.W * s)) && !eop (c.W * s)) = _
    rw [h1, show eop (c.W * s) = _ from heop 0 hW]
    cases hl : a.last with
    | false => simp
    | true =>
      rw [Bool.eq_iff_iff]
      simp
      omega
  | succ j ih =>
    have ih' := ih (by omega)
    have h2 : sop (c.W * s + (j + 1)) = false := by
      rw [Bool.eq_false_iff]
      intro h
      have := ((urxMarks_sop hm hW (s := s) (j := j + 1) (by omega)).1 h).1
      omega
    show ((urxOpen sop eop (c.W * s + (j + 1)) || sop (c.W * s + (j + 1))) && !eop (c.W * s + (j + 1))) = _
    rw [ih', h2, heop (j + 1) hj]
    cases hl : a.last with
    | false => simp
    | true =>
      rw [Bool.eq_iff_iff]
      simp
      omega

theorem urx_strb_some (hm : UrxMarks c.W w sop eop) (hW : 0 < c.W)
    (hok : ∀ (s : Nat) a, w[s]? = some (some a) → UrxSegOk c a) {s : Nat} {a : UrxSeg} (ha : w[s]? = some (some a))
    (ho : a.first = false → urxOpen sop eop (c.W * s) = true) (j : Nat) (hj : j < c.W) :
    (urxOpen sop eop (c.W * s + j) || sop (c.W * s + j)) = decide (j < a.dws.length) := by
  have o := hok s a ha
  have hp := o.pos
  cases j with
  | zero =>
    rw [show decide (0 < a.dws.length) = true by simpa using hp]
    cases hf : a.first with
    | false => rw [show c.W * s + 0 = c.W * s from rfl, ho hf]; rfl
    | true => rw [(urxMarks_sop hm hW (j := 0) hW).2 ⟨rfl, a, ha, hf⟩, Bool.or_true]
  | succ j =>
    rw [urx_open_some hm hW hok ha ho j (by omega)]
    have h2 : sop (c.W * s + (j + 1)) = false := by
      rw [Bool.eq_false_iff]
      intro h
      have := ((urxMarks_sop hm hW (s := s) (j := j + 1) (by omega)).1 h).1
      omega
    rw [h2, Bool.or_false]
    cases hl : a.last with
    | false => simp; have := o.full hl; omega
    | true => simp

theorem urx_open_none (hm : UrxMarks c.W w sop eop) (hW : 0 < c.W) {s : Nat} (ha : w[s]? = some none)
    (ho : urxOpen sop eop (c.W * s) = false) (j : Nat) (hj : j ≤ c.W) :
    urxOpen sop eop (c.W * s + j) = false ∧ (j < c.W → sop (c.W * s + j) = false) := by
  have hs : ∀ j, j < c.W → sop (c.W * s + j) = false := by
    intro j hj
    rw [Bool.eq_false_iff]
    intro h
    obtain ⟨_, a, h1, _⟩ := (urxMarks_sop hm hW hj).1 h
    rw [ha] at h1
    exact absurd h1 (by simp)
  refine ⟨?_, hs j⟩
  induction j with
  | zero => exact ho
  | succ j ih =>
    show ((urxOpen sop eop (c.W * s + j) || sop (c.W * s + j)) && _) = false
    rw [ih (by omega), hs j (by omega)]; rfl

/-- All segments of a word, by induction over the segments from `k` on. -/
theorem urx_open_all (hm : UrxMarks c.W w sop eop) (hW : 0 < c.W)
    (hok : ∀ (s : Nat) a, w[s]? = some (some a) → UrxSegOk c a) (v : UrxSlots) (k : Nat) (o : Bool)
    (hv : ∀ s, v[s]? = w[k + s]?) (hr : urxRec o v) (h1 : o = true → urxOpen sop eop (c.W * k) = true)
    (h2 : v[0]? = some none → urxOpen sop eop (c.W * k) = false) (h3 : v = [] → urxOpen sop eop (c.W * k) = o) :
    (∀ s a, v[s]? = some (some a) → a.first = false → urxOpen sop eop (c.W * (k + s)) = true) ∧
    (∀ s, v[s]? = some none → urxOpen sop eop (c.W * (k + s)) = false) ∧
    urxOpen sop eop (c.W * (k + v.length)) = urxAfterO o (v.filterMap id) := by
  induction v generalizing k o with
  | nil => exact ⟨by simp, by simp, h3 rfl⟩
  | cons x t ih =>
    have hx : w[k]? = some x := by have := hv 0; simpa using this.symm
    have hv' : ∀ s, t[s]? = w[k + 1 + s]? := by
      intro s
      have := hv (s + 1)
      rw [List.getElem?_cons_succ] at this
      rw [this]; congr 1; omega
    have hmul : c.W * (k + 1) = c.W * k + c.W := by rw [Nat.mul_add, Nat.mul_one]
    have hlen : c.W * (k + (x :: t).length) = c.W * (k + 1 + t.length) := by
      rw [List.length_cons]; congr 1; omega
    cases x with
    | none =>
      obtain ⟨rfl, hr⟩ := hr
      have hk := h2 rfl
      have hopen : urxOpen sop eop (c.W * (k + 1)) = false := by
        rw [hmul]; exact (urx_open_none hm hW hx hk c.W (Nat.le_refl _)).1
      obtain ⟨i1, i2, i3⟩ := ih (k + 1) false hv' hr (by simp) (fun _ => hopen) (fun _ => hopen)
      refine ⟨?_, ?_, ?_⟩
      · intro s a hs hf
        cases s with
        | zero => simp at hs
        | succ s => have := i1 s a (by simpa using hs) hf; rw [show k + (s + 1) = k + 1 + s by omega]; exact this
      · intro s hs
        cases s with
        | zero => exact hk
        | succ s => have := i2 s (by simpa using hs); rw [show k + (s + 1) = k + 1 + s by omega]; exact this
      · rw [hlen, i3]; rfl
    | some a =>
      obtain ⟨hf, hr⟩ := hr
      have hk : a.first = false → urxOpen sop eop (c.W * k) = true := by
        intro h; apply h1; rw [h] at hf; simpa using hf.symm
      have hopen : urxOpen sop eop (c.W * (k + 1)) = !a.last := by
        have := urx_open_some hm hW hok hx hk (c.W - 1) (by omega)
        rw [show c.W - 1 + 1 = c.W by omega] at this
        rw [hmul, this]
        have o := hok k a hx
        have hle := o.le
        cases hl : a.last with
        | false => simp
        | true => simp; omega
      obtain ⟨i1, i2, i3⟩ := ih (k + 1) (!a.last) hv' hr (fun h => hopen.trans h)
        (fun h => by
          cases t with
          | nil => simp at h
          | cons y t => simp at h; subst h; rw [hopen]; exact hr.1)
        (fun _ => hopen)
      refine ⟨?_, ?_, ?_⟩
      · intro s b hs hfb
        cases s with
        | zero => simp at hs; subst hs; exact hk hfb
        | succ s => have := i1 s b (by simpa using hs) hfb; rw [show k + (s + 1) = k + 1 + s by omega]; exact this
      · intro s hs
        cases s with
        | zero => simp at hs
        | succ s => have := i2 s (by simpa using hs); rw [show k + (s + 1) = k + 1 + s by omega]; exact this
      · rw [hlen, i3]
        show _ = urxAfterO o (a :: t.filterMap id)
        rw [urxAfterO_cons]

end

theorem urxAny_iff (W s : Nat) (f : Nat → Bool) : urxAny W s f = true ↔ ∃ j, j < W ∧ f (W * s + j) = true := by
  unfold urxAny
  rw [List.any_eq_true]
  simp only [List.mem_range]

theorem urxAfterO_used (o : Bool) {w : UrxSlots} (h : ∃ b, w[0]? = some (some b)) :
    urxAfterO o (w.filterMap id) = urxAfter (w.filterMap id) := by
  obtain ⟨b, hb⟩ := h
  cases w with
  | nil => simp at hb
  | cons x t =>
    simp at hb
    subst hb
    show urxAfterO o (b :: _) = urxAfter (b :: _)
    unfold urxAfterO urxAfter
    rw [List.getLast?_cons]

/-- Straddling: the decoded word has the contents. -/
theorem urx_decode_straddle {c : UrxCfg} (hst : c.mode.straddle = true) (hW : 0 < c.W) (o : Bool) (i : UrxIn) (w : UrxSlots)
    (htv : i.tvalid = true) (hm : UrxMarks c.W w (urxStrbSop c.mode o i) (urxStrbEop c.mode i))
    (hok : ∀ (s : Nat) a, w[s]? = some (some a) → UrxSegOk c a) (hs : UrxSlotsOk c.S w) (ha : urxAlt o (w.filterMap id))
    (hd : ∀ s a, w[s]? = some (some a) → ∀ j, j < a.dws.length → i.tdata (c.W * s + j) = a.dws.getD j 0)
    (hbe : ∀ s a, w[s]? = some (some a) → a.first = true → ∀ d, c.conv d (urxBe c.mode i s) = c.conv d a.be) : UrxDecodeOk c o i w := by
  have hr : urxRec o w := urxRec_of o w (fun s a h1 h2 h3 => hs.consecutive s a h1 h2 (by rw [← hs.len]; exact h3)) ha
    (fun _ => Or.inr hs.used)
  obtain ⟨b, hb⟩ := hs.used
  obtain ⟨k1, k2, k3⟩ := urx_open_all hm hW hok w 0 o (fun s => by rw [Nat.zero_add]) hr (fun _ => rfl)
    (fun h => by rw [hb] at h; exact absurd h (by simp)) (fun h => by rw [h] at hb; exact absurd hb (by simp))
  simp only [Nat.zero_add] at k1 k2 k3
  refine ⟨⟨hs.len, ?_, ?_, hok, hs.consecutive⟩, hs.used, ?_⟩
  · intro s hn
    unfold urxDecode
    rw [if_pos hst]
    simp only [htv, Bool.true_and]
    rw [Bool.eq_false_iff]
    intro h
    obtain ⟨j, hj, h⟩ := (urxAny_iff _ _ _).1 h
    obtain ⟨h1, h2⟩ := urx_open_none hm hW hn (k2 s hn) j (by omega)
    rw [h1, h2 hj] at h
    exact absurd h (by simp)
  · intro s a hsa
    have hstrb := urx_strb_some hm hW hok hsa (k1 s a hsa)
    have ok := hok s a hsa
    have hpos := ok.pos
    have hle := ok.le
    unfold urxDecode
    rw [if_pos hst]
    refine ⟨?_, ?_, ?_, hstrb, hd s a hsa, ?_, hbe s a hsa⟩
    · simp only [htv, Bool.true_and]
      exact (urxAny_iff _ _ _).2 ⟨0, hW, by rw [hstrb 0 hW]; simpa using hpos⟩
    · show urxAny _ _ _ = _
      rw [Bool.eq_iff_iff, urxAny_iff]
      constructor
      · rintro ⟨j, hj, h⟩
        obtain ⟨_, x, hx, hf⟩ := (urxMarks_sop hm hW hj).1 h
        rw [hsa] at hx; simp at hx; subst hx; exact hf
      · intro hf
        exact ⟨0, hW, (urxMarks_sop hm hW hW).2 ⟨rfl, a, hsa, hf⟩⟩
    · show urxAny _ _ _ = _
      rw [Bool.eq_iff_iff, urxAny_iff]
      constructor
      · rintro ⟨j, hj, h⟩
        obtain ⟨x, hx, hf, _⟩ := (urxMarks_eop hm hok hj).1 h
        rw [hsa] at hx; simp at hx; subst hx; exact hf
      · intro hf
        exact ⟨a.dws.length - 1, by omega, (urxMarks_eop hm hok (by omega)).2 ⟨a, hsa, hf, by omega⟩⟩
    · intro j hj
      show urxStrbEop c.mode i (c.W * s + j) = _
      rw [Bool.eq_iff_iff, urxMarks_eop hm hok hj]
      simp only [Bool.and_eq_true, decide_eq_true_eq]
      constructor
      · rintro ⟨x, hx, h⟩
        rw [hsa] at hx; simp at hx; subst hx; exact h
      · exact fun h => ⟨a, hsa, h⟩
  · unfold urxFrame
    rw [if_pos hst, ← hs.len, k3]
    exact urxAfterO_used o hs.used

/-- No straddling: one segment. -/
theorem urx_decode_plain {c : UrxCfg} (hst : c.mode.straddle = false) (hS : c.S = 1) (o : Bool) (i : UrxIn)
    (w : UrxSlots) (htv : i.tvalid = true)
    (hk : ∀ a, w[0]? = some (some a) → (∀ j, j < c.W → i.tkeep j = decide (j < a.dws.length)) ∧ i.tlast = a.last)
    (hok : ∀ (s : Nat) a, w[s]? = some (some a) → UrxSegOk c a) (hs : UrxSlotsOk c.S w) (ha : urxAlt o (w.filterMap id))
    (hd : ∀ s a, w[s]? = some (some a) → ∀ j, j < a.dws.length → i.tdata (c.W * s + j) = a.dws.getD j 0)
    (hbe : ∀ s a, w[s]? = some (some a) → a.first = true → ∀ d, c.conv d (urxBe c.mode i s) = c.conv d a.be) : UrxDecodeOk c o i w := by
  have hl := hs.len
  obtain ⟨a, h0⟩ := hs.used
  have hw : w = [some a] := by
    rw [hS] at hl
    cases w with
    | nil => simp at h0
    | cons x t =>
      simp at h0
      subst h0
      cases t with
      | nil => rfl
      | cons y t => simp at hl
  obtain ⟨hkeep, hlast⟩ := hk a h0
  have O := hok 0 a h0
  have hpos := O.pos
  have hle := O.le
  have hfirst : a.first = !o := by rw [hw] at ha; exact ha.1
  have hget : ∀ s b, w[s]? = some (some b) → s = 0 ∧ b = a := by
    intro s b h
    rw [hw] at h
    cases s with
    | zero => simp at h; exact ⟨rfl, h.symm⟩
    | succ s => simp at h
  refine ⟨⟨hl, ?_, ?_, hok, hs.consecutive⟩, hs.used, ?_⟩
  · intro s h
    rw [hw] at h
    cases s with
    | zero => simp at h
    | succ s => simp at h
  · intro s b hb
    obtain ⟨rfl, rfl⟩ := hget s b hb
    unfold urxDecode
    rw [if_neg (by simp [hst])]
    refine ⟨by simp [htv], by simp [hfirst], by simp [hlast], ?_, hd 0 b hb, ?_, hbe 0 b hb⟩
    · intro j hj
      simp only [htv, Bool.true_and, Nat.mul_zero, Nat.zero_add]
      exact hkeep j hj
    · intro j hj
      simp only [Nat.mul_zero, Nat.zero_add, htv, Bool.true_and]
      unfold urxLastLane
      rw [hS, Nat.mul_one, hlast, Bool.eq_iff_iff]
      simp only []
      rw [hkeep j hj]
      simp only [Bool.and_eq_true, decide_eq_true_eq, List.all_eq_true, List.mem_range, Bool.or_eq_true, Bool.not_eq_true']
      constructor
      · rintro ⟨⟨⟨h1, _⟩, h2⟩, h3⟩
        refine ⟨h1, ?_⟩
        rcases Nat.lt_or_ge (j + 1) b.dws.length with h | h
        · have := h3 (j + 1) (by omega)
          rw [hkeep (j + 1) (by omega)] at this
          simp at this
          omega
        · omega
      · rintro ⟨h1, h2⟩
        refine ⟨⟨⟨h1, hj⟩, by omega⟩, ?_⟩
        intro k hk
        rcases Nat.lt_or_ge j k with h | h
        · right; rw [hkeep k hk]; simp; omega
        · exact Or.inl h
  · unfold urxFrame
    rw [if_neg (by simp [hst]), hw, hlast]
    rfl

end Verif.Proofs
