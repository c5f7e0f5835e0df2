import Verif.Proofs.UsIfRxDec
/-! Proofs about the UltraScale RC and CQ interfaces: the framings, histories. -/
namespace Verif.Proofs
open Verif.Model Verif.Spec

/-! ### The lists in `tuser` -/

theorem urx_marks_any {i : UrxIn} {l : List Nat} {N : Nat} {v lo : Nat → Nat} {n : Nat} (hN : l.length ≤ N)
    (h : ∀ k, k < N → UrxMark i l k (v k) (lo k) n) (P : Nat → Bool) :
    ((List.range N).any fun k => i.user (v k) 1 == 1 && P (i.user (lo k) n)) = true ↔ ∃ x, x ∈ l ∧ P x = true := by
  rw [List.any_eq_true]
  simp only [List.mem_range, Bool.and_eq_true, beq_iff_eq]
  constructor
  · rintro ⟨k, hk, h1, h2⟩
    obtain ⟨h3, h4⟩ := h k hk
    rw [h1] at h3
    have hkl : k < l.length := by
      rcases Nat.lt_or_ge k l.length with h | h
      · exact h
      · rw [if_neg (by omega)] at h3; omega
    have h5 := h4 l[k] (List.getElem?_eq_getElem hkl)
    rw [h5] at h2
    exact ⟨_, List.getElem_mem hkl, h2⟩
  · rintro ⟨x, hx, hP⟩
    obtain ⟨k, hk, rfl⟩ := List.getElem_of_mem hx
    obtain ⟨h3, h4⟩ := h k (by omega)
    rw [if_pos hk] at h3
    exact ⟨k, by omega, h3, by rw [h4 l[k] (List.getElem?_eq_getElem hk)]; exact hP⟩

theorem urx_mem_starts {w : UrxSlots} {s : Nat} : s ∈ urxStarts w ↔ ∃ a, w[s]? = some (some a) ∧ a.first = true := by
  unfold urxStarts
  rw [List.mem_filter, List.mem_range]
  constructor
  · rintro ⟨_, h⟩
    split at h
    · exact ⟨_, by assumption, h⟩
    · exact absurd h (by simp)
  · rintro ⟨a, h, hf⟩
    refine ⟨?_, by rw [h]; exact hf⟩
    rcases Nat.lt_or_ge s w.length with h' | h'
    · exact h'
    · rw [List.getElem?_eq_none h'] at h; exact absurd h (by simp)

theorem urx_mem_ends {W : Nat} {w : UrxSlots} {l : Nat} :
    l ∈ urxEnds W w ↔ ∃ (s : Nat) (a : UrxSeg), w[s]? = some (some a) ∧ a.last = true ∧ l = W * s + (a.dws.length - 1) := by
  unfold urxEnds
  rw [List.mem_filterMap]
  simp only [List.mem_range]
  constructor
  · rintro ⟨s, _, h⟩
    split at h
    · next a ha =>
      cases hl : a.last with
      | false => rw [hl] at h; simp at h
      | true => rw [hl] at h; simp at h; exact ⟨s, a, ha, hl, h.symm⟩
    · exact absurd h (by simp)
  · rintro ⟨s, a, h, hf, rfl⟩
    refine ⟨s, ?_, by rw [h]; simp [hf]⟩
    rcases Nat.lt_or_ge s w.length with h' | h'
    · exact h'
    · rw [List.getElem?_eq_none h'] at h; exact absurd h (by simp)

theorem urx_starts_le (w : UrxSlots) : (urxStarts w).length ≤ w.length := by
  have := List.length_filter_le (fun s => match w[s]? with | some (some a) => a.first | _ => false) (List.range w.length)
  rw [List.length_range] at this
  exact this

theorem urx_ends_le (W : Nat) (w : UrxSlots) : (urxEnds W w).length ≤ w.length := by
  have := List.length_filterMap_le (fun s => match w[s]? with
    | some (some a) => if a.last then some (W * s + (a.dws.length - 1)) else none
    | _ => none) (List.range w.length)
  rw [List.length_range] at this
  exact this

/-! ### The framings -/

theorem urx_marks_rc512 {i : UrxIn} {w : UrxSlots} (o : Bool) (hs : UrxSlotsOk 4 w) (h : UrxCarry rcCfg512 i w) :
    UrxMarks 4 w (urxStrbSop .rc512 o i) (urxStrbEop .rc512 i) := by
  obtain ⟨_, h1, h2⟩ := h
  have hl := hs.len
  constructor
  · intro l
    have := urx_marks_any (by have := urx_starts_le w; omega) h1 (fun x => l == x * 4)
    unfold urxStrbSop
    simp only []
    rw [this]
    simp only [urx_mem_starts, beq_iff_eq]
    constructor
    · rintro ⟨x, ⟨a, h1, h2⟩, rfl⟩
      exact ⟨x, a, h1, h2, by omega⟩
    · rintro ⟨x, a, h1, h2, rfl⟩
      exact ⟨x, ⟨a, h1, h2⟩, by omega⟩
  · intro l
    have := urx_marks_any (by have := urx_ends_le 4 w; exact Nat.le_trans this (by omega)) h2 (fun x => l == x)
    unfold urxStrbEop
    simp only []
    rw [this, ← urx_mem_ends]
    simp only [beq_iff_eq]
    exact ⟨fun ⟨x, h1, h2⟩ => h2 ▸ h1, fun h => ⟨l, h, rfl⟩⟩

theorem urx_marks_cq512 {i : UrxIn} {w : UrxSlots} (o : Bool) (hs : UrxSlotsOk 2 w) (h : UrxCarry cqCfg512s i w) :
    UrxMarks 8 w (urxStrbSop .cq512 o i) (urxStrbEop .cq512 i) := by
  obtain ⟨_, h1, h2, _⟩ := h
  have hl := hs.len
  constructor
  · intro l
    have := urx_marks_any (by have := urx_starts_le w; rw [List.length_map]; omega) h1 (fun x => l == x * 4)
    unfold urxStrbSop
    simp only []
    rw [this]
    simp only [List.mem_map, urx_mem_starts, beq_iff_eq]
    constructor
    · rintro ⟨x, ⟨y, ⟨a, h1, h2⟩, rfl⟩, rfl⟩
      exact ⟨y, a, h1, h2, by omega⟩
    · rintro ⟨x, a, h1, h2, rfl⟩
      exact ⟨2 * x, ⟨x, ⟨a, h1, h2⟩, rfl⟩, by omega⟩
  · intro l
    have := urx_marks_any (by have := urx_ends_le 8 w; exact Nat.le_trans this (by omega)) h2 (fun x => l == x)
    unfold urxStrbEop
    simp only []
    rw [this, ← urx_mem_ends]
    simp only [beq_iff_eq]
    exact ⟨fun ⟨x, h1, h2⟩ => h2 ▸ h1, fun h => ⟨l, h, rfl⟩⟩

theorem urx_starts_two (a : UrxSeg) (x : Option UrxSeg) :
    (urxStarts [some a, x]).length = (if a.first then 1 else 0) + x.elim 0 fun b => if b.first then 1 else 0 := by
  unfold urxStarts
  cases hfa : a.first <;> cases x with
  | none => simp [List.range_succ, List.filter_cons, hfa]
  | some b => cases hfb : b.first <;> simp [List.range_succ, List.filter_cons, hfa, hfb]

theorem urx_marks_rc256 {i : UrxIn} {w : UrxSlots} {o : Bool} (hs : UrxSlotsOk 2 w) (ha : urxAlt o (w.filterMap id))
    (h : UrxCarry rcCfg256 i w) : UrxMarks 4 w (urxStrbSop .rc256 o i) (urxStrbEop .rc256 i) := by
  obtain ⟨_, h1, h1', h2⟩ := h
  have hl := hs.len
  constructor
  · intro l
    obtain ⟨a, h0⟩ := hs.used
    have hw : ∃ x, w = [some a, x] := by
      match w, hl, h0 with
      | [y, x], _, h0 => simp at h0; exact ⟨x, by rw [h0]⟩
    obtain ⟨x, rfl⟩ := hw
    have hf : a.first = !o := ha.1
    have hR : (∃ (s : Nat) (b : UrxSeg), [some a, x][s]? = some (some b) ∧ b.first = true ∧ l = 4 * s) ↔
        (a.first = true ∧ l = 0) ∨ (∃ b, x = some b ∧ b.first = true ∧ l = 4) := by
      constructor
      · rintro ⟨s, b, h1, h2, h3⟩
        match s, h1 with
        | 0, h1 => simp at h1; subst h1; exact Or.inl ⟨h2, by omega⟩
        | 1, h1 => simp at h1; exact Or.inr ⟨b, h1, h2, by omega⟩
      · rintro (⟨h1, h2⟩ | ⟨b, rfl, h2, h3⟩)
        · exact ⟨0, a, rfl, h1, by omega⟩
        · exact ⟨1, b, rfl, h2, by omega⟩
    rw [hR]
    unfold urxStrbSop
    simp only [Bool.or_eq_true, Bool.and_eq_true, beq_iff_eq]
    rw [urx_starts_two] at h1 h1'
    rw [h1, h1']
    cases o with
    | false =>
      rw [hf]
      cases x with
      | none => simp
      | some b => cases hfb : b.first <;> simp [hfb]
    | true =>
      rw [hf]
      cases x with
      | none => simp
      | some b => cases hfb : b.first <;> simp [hfb]
  · intro l
    have := urx_marks_any (by have := urx_ends_le 4 w; exact Nat.le_trans this (by omega)) h2 (fun x => l == x)
    unfold urxStrbEop
    simp only []
    rw [this, ← urx_mem_ends]
    simp only [beq_iff_eq]
    exact ⟨fun ⟨x, h1, h2⟩ => h2 ▸ h1, fun h => ⟨l, h, rfl⟩⟩

theorem rcConv_be (d : Nat → Nat) (x y : Nat) : rcConv d x = rcConv d y := rfl

/-- Every framing is decoded. -/
theorem urx_decode {c : UrxCfg} (hc : UrxCfgOk c) (o : Bool) (i : UrxIn) (w : UrxSlots) (htv : i.tvalid = true)
    (hcar : UrxCarry c i w) (hok : ∀ (s : Nat) a, w[s]? = some (some a) → UrxSegOk c a) (hs : UrxSlotsOk c.S w)
    (ha : urxAlt o (w.filterMap id)) (hp : UrxPaired c [w]) : UrxDecodeOk c o i w := by
  cases hc with
  | rc W hW =>
    refine urx_decode_plain rfl rfl o i w htv (fun a h => ?_) hok hs ha hcar.1 (fun _ _ _ _ _ => rfl)
    obtain ⟨h1, h2, _⟩ := hcar.2 a h
    exact ⟨h1, h2⟩
  | rc256 =>
    exact urx_decode_straddle rfl (by decide) o i w htv (urx_marks_rc256 hs ha hcar) hok hs ha hcar.1 (fun _ _ _ _ _ => rfl)
  | rc512 =>
    exact urx_decode_straddle rfl (by decide) o i w htv (urx_marks_rc512 o hs hcar) hok hs ha hcar.1 (fun _ _ _ _ _ => rfl)
  | cq W hW =>
    refine urx_decode_plain rfl rfl o i w htv (fun a h => ?_) hok hs ha hcar.1 (fun s a h hf d => ?_)
    · obtain ⟨h1, h2, _⟩ := hcar.2 a h
      exact ⟨h1, h2⟩
    · have hs0 : s = 0 := by
        have : s < w.length := by
          rcases Nat.lt_or_ge s w.length with h' | h'
          · exact h'
          · rw [List.getElem?_eq_none h'] at h; exact absurd h (by simp)
        rw [hs.len] at this
        exact Nat.lt_one_iff.1 this
      subst hs0
      have := (hcar.2 a h).2.2 hf rfl
      show cqConv d (i.user 0 8) = _
      rw [this]; rfl
  | cq512 =>
    refine urx_decode_plain rfl rfl o i w htv (fun a h => ?_) hok hs ha hcar.1 (fun s a h hf d => ?_)
    · obtain ⟨h1, h2, _⟩ := hcar.2 a h
      exact ⟨h1, h2⟩
    · have hs0 : s = 0 := by
        have : s < w.length := by
          rcases Nat.lt_or_ge s w.length with h' | h'
          · exact h'
          · rw [List.getElem?_eq_none h'] at h; exact absurd h (by simp)
        rw [hs.len] at this
        exact Nat.lt_one_iff.1 this
      subst hs0
      have := (hcar.2 a h).2.2 hf
      show cqConv d (i.user 8 4 * 16 + i.user 0 4) = _
      rw [Nat.add_comm, this]; rfl
  | cq512s =>
    refine urx_decode_straddle rfl (by decide) o i w htv (urx_marks_cq512 o hs hcar) hok hs ha hcar.1 (fun s a h hf d => ?_)
    have hlen : w.length = 2 := hs.len
    have hp' := hp rfl w (by simp)
    obtain ⟨_, _, _, hb⟩ := hcar
    have hcq : urxBe .cq512 i s = a.be := by
      match w, hlen, h, hp', hb with
      | [x, y], _, h, hp', hb =>
        match s, h with
        | 0, h =>
          simp at h
          subst h
          have := hb 0 a.be (by omega) (by simp [urxBes, hf])
          show i.user 8 4 * 16 + i.user 0 4 = a.be
          rw [← this, Nat.add_comm]
        | 1, h =>
          simp at h
          subst h
          obtain ⟨b, hb1, hb2⟩ := hp' a rfl hf
          simp at hb1
          subst hb1
          have := hb 1 a.be (by omega) (by simp [urxBes, hf, hb2])
          show i.user 12 4 * 16 + i.user 4 4 = a.be
          rw [← this, Nat.add_comm]
    show cqConv d (urxBe .cq512 i s) = cqConv d a.be
    rw [hcq]

/-! ### The packets as segments -/

theorem urxCfgOk_facts {c : UrxCfg} (hc : UrxCfgOk c) : UrxLocal c ∧ c.D ≤ c.W ∧ 0 < c.D := by
  have hr : ∀ d d' be, (∀ k, k < 3 → d k = d' k) → rcConv d be = rcConv d' be := by
    intro d d' be h
    unfold rcConv urxBits
    rw [h 0 (by omega), h 1 (by omega), h 2 (by omega)]
  have hq : ∀ d d' be, (∀ k, k < 4 → d k = d' k) → cqConv d be = cqConv d' be := by
    intro d d' be h
    unfold cqConv urxBits
    rw [h 0 (by omega), h 1 (by omega), h 2 (by omega), h 3 (by omega)]
  cases hc with
  | rc W hW => exact ⟨hr, by show 3 ≤ W; omega, Nat.succ_pos _⟩
  | rc256 => exact ⟨hr, by decide, by decide⟩
  | rc512 => exact ⟨hr, by decide, by decide⟩
  | cq W hW => exact ⟨hq, hW, Nat.succ_pos _⟩
  | cq512 => exact ⟨hq, by decide, by decide⟩
  | cq512s => exact ⟨hq, by decide, by decide⟩

theorem urxAlt_append (o : Bool) (A B : List UrxSeg) : urxAlt o (A ++ B) ↔ urxAlt o A ∧ urxAlt (urxAfterO o A) B := by
  induction A generalizing o with
  | nil => simp [urxAlt, urxAfterO]
  | cons a t ih => rw [List.cons_append, urxAlt, urxAlt, ih, urxAfterO_cons, and_assoc]

theorem urxAfterO_false (A : List UrxSeg) : urxAfterO false A = urxAfter A := rfl

theorem urx_inSegs_alt_from (W : Nat) (x : List Nat) (be n k m : Nat) (h : k + m = n) (hm : 0 < m) :
    let f : Nat → UrxSeg := fun i => { first := i == 0, last := i + 1 == n, dws := (x.drop (W * i)).take W, be := be }
    urxAlt (decide (k ≠ 0)) ((List.range' k m).map f) ∧ ((List.range' k m).map f).getLast? = some (f (n - 1)) := by
  induction m generalizing k with
  | zero => omega
  | succ m ih =>
    intro f
    rw [List.range'_succ, List.map_cons]
    cases m with
    | zero =>
      refine ⟨⟨?_, trivial⟩, ?_⟩
      · show (k == 0) = _
        cases k <;> simp
      · simp [List.range', show n - 1 = k by omega]
    | succ m =>
      obtain ⟨i1, i2⟩ := ih (k + 1) (by omega) (by omega)
      refine ⟨⟨?_, ?_⟩, ?_⟩
      · show (k == 0) = _
        cases k <;> simp
      · have : (!(f k).last) = decide (k + 1 ≠ 0) := by
          show (!(k + 1 == n)) = _
          have : (k + 1 == n) = false := by rw [beq_eq_false_iff_ne]; omega
          rw [this]; simp
        rw [this]; exact i1
      · rw [List.getLast?_cons, show ((List.range' (k + 1) (m + 1)).map f).getLast? = some (f (n - 1)) from i2]; rfl

theorem urx_inSegs_alt (W : Nat) (t : UrxTlp) : urxAlt false (urxInSegs W t) ∧ urxAfterO false (urxInSegs W t) = false := by
  unfold urxInSegs
  simp only []
  rw [List.range_eq_range']
  have hpos : 0 < urxCount W (t.desc ++ t.payload).length := Nat.succ_pos _
  obtain ⟨h1, h2⟩ := urx_inSegs_alt_from W (t.desc ++ t.payload) t.be _ 0 _ (Nat.zero_add _) hpos
  refine ⟨h1, ?_⟩
  unfold urxAfterO
  rw [h2]
  simp only [Bool.not_eq_false', beq_iff_eq]
  omega

theorem urx_packets_alt (W : Nat) (ts : List UrxTlp) :
    urxAlt false (ts.flatMap (urxInSegs W)) ∧ urxAfter (ts.flatMap (urxInSegs W)) = false := by
  induction ts with
  | nil => exact ⟨trivial, rfl⟩
  | cons t ts ih =>
    obtain ⟨h1, h2⟩ := urx_inSegs_alt W t
    rw [List.flatMap_cons]
    refine ⟨(urxAlt_append _ _ _).2 ⟨h1, by rw [h2]; exact ih.1⟩, ?_⟩
    by_cases hn : ts.flatMap (urxInSegs W) = []
    · rw [hn, List.append_nil]; exact h2
    · rw [urxAfter_append hn]; exact ih.2

theorem urx_inSegs_ok {c : UrxCfg} (hD : c.D ≤ c.W) (h0 : 0 < c.D) {t : UrxTlp} (ht : t.desc.length = c.D) {a : UrxSeg}
    (ha : a ∈ urxInSegs c.W t) : UrxSegOk c a := by
  have hW : 0 < c.W := by omega
  unfold urxInSegs at ha
  simp only [List.mem_map, List.mem_range] at ha
  obtain ⟨i, hi, rfl⟩ := ha
  generalize hx : t.desc ++ t.payload = x at *
  have hxl : c.D ≤ x.length := by rw [← hx, List.length_append, ht]; omega
  have h1 := (urxCount_lt hW).1 hi
  have h1' : c.W * i < x.length := by
    rcases h1 with rfl | h1
    · rw [Nat.mul_zero]; omega
    · exact h1
  constructor
  · simp only [List.length_take, List.length_drop]; omega
  · simp only [List.length_take, List.length_drop]; omega
  · intro hl
    simp only [beq_eq_false_iff_ne] at hl
    have h2 := (urxCount_lt (n := x.length) (k := i + 1) hW).1 (by omega)
    have h3 : c.W * (i + 1) < x.length := by
      rcases h2 with h2 | h2
      · omega
      · exact h2
    rw [Nat.mul_add, Nat.mul_one] at h3
    simp only [List.length_take, List.length_drop]; omega
  · intro hf
    simp only [beq_iff_eq] at hf
    subst hf
    simp only [List.length_take, List.length_drop, Nat.mul_zero]; omega

theorem urx_packets_ok {c : UrxCfg} (hD : c.D ≤ c.W) (h0 : 0 < c.D) {ts : List UrxTlp}
    (ht : ∀ t ∈ ts, t.desc.length = c.D) {a : UrxSeg} (ha : a ∈ ts.flatMap (urxInSegs c.W)) : UrxSegOk c a := by
  obtain ⟨t, h1, h2⟩ := List.mem_flatMap.1 ha
  exact urx_inSegs_ok hD h0 (ht t h1) h2

/-! ### Histories -/

/-- After reset. -/
theorem urx_reset (c : UrxCfg) (st : Urx) (r : UrxIn) (hr : r.rst = true) : UrxInv c (urxStep c st r) [] [] [] := by
  refine ⟨⟨List.replicate c.S none, ⟨List.length_replicate, ?_, ?_, ?_, ?_⟩, ?_⟩, ?_, ?_, ?_⟩
  · intro s _; simp [urxStep, hr]
  · intro s a h; rw [List.getElem?_replicate] at h; split at h <;> simp at h
  · intro s a h; rw [List.getElem?_replicate] at h; split at h <;> simp at h
  · intro s a h; rw [List.getElem?_replicate] at h; split at h <;> simp at h
  · generalize c.S = n
    induction n with
    | zero => rfl
    | succ n ih => rw [List.replicate_succ, List.filterMap_cons]; exact ih
  · unfold urxPort urxStep
    simp [hr, urxGl]
  · intro _ a h; simp at h
  · simp [urxStep, hr, urxAfter]

/-- What each history guarantees from a state with the invariant. `B` are the segments accepted so far. -/
theorem urx_run {c : UrxCfg} (hc : UrxCfgOk c) (ts : List UrxTlp) (hts : ∀ t ∈ ts, t.desc.length = c.D)
    (is : List UrxIn) (ws : List UrxSlots) {st : Urx} {A0 Q : List UrxSeg} {E : List UrxOut} (h : UrxInv c st A0 Q E)
    (hn : ∀ i ∈ is, i.rst = false) (hcar : UrxCarries c (urxTaken is) ws) (hok : ∀ w ∈ ws, UrxSlotsOk c.S w)
    (hpair : UrxPaired c ws) (hpart : A0 ++ Q ++ ws.flatten.filterMap id <+: ts.flatMap (urxInSegs c.W)) :
    ∃ A0' Q', A0' ++ Q' = A0 ++ Q ++ ws.flatten.filterMap id ∧
      UrxInv c (urxRun c st is) A0' Q' (E ++ urxOuts c st is) ∧ A0 <+: A0' ∧
      (0 < urxReadyCount is → ∀ T, T <+: A0 ++ Q → urxClosed T → T <+: A0') := by
  obtain ⟨hl, hD, h0⟩ := urxCfgOk_facts hc
  induction is generalizing st A0 Q E ws with
  | nil =>
    cases ws with
    | nil => exact ⟨A0, Q, by simp, by simpa [urxRun, urxOuts] using h, List.prefix_refl _, by simp [urxReadyCount]⟩
    | cons w ws => exact absurd hcar (by simp [urxTaken, UrxCarries])
  | cons i is ih =>
    have hi := hn i (by simp)
    have hstep : ∃ w ws', (ws.flatten.filterMap id = (if i.ready && i.tvalid then w.filterMap id else []) ++ ws'.flatten.filterMap id) ∧
        UrxCarries c (urxTaken is) ws' ∧ (∀ v ∈ ws', v ∈ ws) ∧
        (i.ready = true → i.tvalid = true → UrxDecodeOk c st.frame i w) := by
      by_cases htk : (i.ready && i.tvalid) = true
      · have hT : urxTaken (i :: is) = i :: urxTaken is := by unfold urxTaken; exact List.filter_cons_of_pos (by simpa using htk)
        rw [hT] at hcar
        cases ws with
        | nil => exact absurd hcar (by simp [UrxCarries])
        | cons w ws' =>
          obtain ⟨hc1, hc2⟩ := hcar
          refine ⟨w, ws', by rw [if_pos htk, List.flatten_cons, List.filterMap_append], hc2, fun v hv => by simp [hv], ?_⟩
          intro _ htv
          have hsub : A0 ++ Q ++ w.filterMap id <+: ts.flatMap (urxInSegs c.W) := by
            refine List.IsPrefix.trans ?_ hpart
            rw [List.flatten_cons, List.filterMap_append, ← List.append_assoc]
            exact List.prefix_append _ _
          obtain ⟨R, hR⟩ := hsub
          have hfr := h.frame
          refine urx_decode hc st.frame i w htv hc1 ?_ (hok w (by simp)) ?_ (fun hm v hv => hpair hm v (by simp at hv; simp [hv]))
          · intro s a hsa
            refine urx_packets_ok hD h0 hts ?_
            rw [← hR]
            have : a ∈ w.filterMap id := List.mem_filterMap.2 ⟨some a, List.mem_of_getElem? hsa, rfl⟩
            simp [this]
          · have h1 := (urx_packets_alt c.W ts).1
            rw [← hR] at h1
            have h2 := ((urxAlt_append _ _ _).1 ((urxAlt_append _ _ _).1 h1).1).2
            rw [urxAfterO_false, ← hfr] at h2
            exact h2
      · have hT : urxTaken (i :: is) = urxTaken is := by unfold urxTaken; exact List.filter_cons_of_neg (by simpa using htk)
        rw [hT] at hcar
        exact ⟨[], ws, by rw [if_neg htk]; rfl, hcar, fun v hv => hv, fun h1 h2 => absurd (by rw [h1, h2]; rfl) htk⟩
    obtain ⟨w, ws', hws, hcar', hmem, hdec⟩ := hstep
    obtain ⟨A1, Q1, e1, inv1, t1, p1⟩ := urx_step hl hD h0 h hi hdec
    have e1' : A1 ++ Q1 ++ ws'.flatten.filterMap id = A0 ++ Q ++ ws.flatten.filterMap id := by
      rw [e1, hws, List.append_assoc]
    obtain ⟨A2, Q2, e2, inv2, p2, t2⟩ := ih ws' inv1 (fun j hj => hn j (by simp [hj])) hcar' (fun v hv => hok v (hmem v hv))
      (fun hm v hv => hpair hm v (hmem v hv)) (by rw [e1']; exact hpart)
    refine ⟨A2, Q2, e2.trans e1', ?_, p1.trans p2, ?_⟩
    · rw [urxRun, urxOuts, ← List.append_assoc]; exact inv2
    · intro hrc T hT hTc
      by_cases hrd : i.ready = true
      · exact (t1 hrd T hT hTc).trans p2
      · refine t2 ?_ T (hT.trans (by rw [e1]; exact List.prefix_append _ _)) hTc
        unfold urxReadyCount at hrc ⊢
        rwa [List.filter_cons_of_neg hrd] at hrc

theorem urxGl_prefix {c : UrxCfg} {A B : List UrxSeg} (h : A <+: B) (n : Option UrxSeg) (m : Option UrxSeg)
    (hc : urxClosed A ∨ ∃ b, n = some b ∧ A ++ [b] <+: B) : urxGl c A n <+: urxGl c B m := by
  obtain ⟨R, rfl⟩ := h
  rw [urxGl_append]
  rcases hc with hc | ⟨b, rfl, hb⟩
  · rw [urxGl_closed hc n _]; exact List.prefix_append _ _
  · have := (List.prefix_append_right_inj A).1 hb
    obtain ⟨R', rfl⟩ := this
    exact List.prefix_append _ _

theorem urxCarries_append {c : UrxCfg} {a b : List UrxIn} {ws : List UrxSlots} (h : UrxCarries c (a ++ b) ws) :
    UrxCarries c a (ws.take a.length) ∧ UrxCarries c b (ws.drop a.length) := by
  induction a generalizing ws with
  | nil => exact ⟨by simp [UrxCarries], by simpa using h⟩
  | cons i a ih =>
    cases ws with
    | nil => exact absurd h (by simp [UrxCarries])
    | cons w ws => obtain ⟨h1, h2⟩ := h; obtain ⟨h3, h4⟩ := ih h2; exact ⟨⟨h1, h3⟩, h4⟩

theorem urxTaken_append (a b : List UrxIn) : urxTaken (a ++ b) = urxTaken a ++ urxTaken b := List.filter_append ..

theorem urxOuts_append (c : UrxCfg) (st : Urx) (a b : List UrxIn) :
    urxOuts c st (a ++ b) = urxOuts c st a ++ urxOuts c (urxRun c st a) b := by
  induction a generalizing st with
  | nil => rfl
  | cons i a ih => rw [List.cons_append, urxOuts, urxOuts, urxRun, ih, List.append_assoc]

theorem urx_ready_split (is : List UrxIn) (h : 2 ≤ urxReadyCount is) :
    ∃ x i y, is = x ++ i :: y ∧ 0 < urxReadyCount x ∧ i.ready = true := by
  induction is with
  | nil => simp [urxReadyCount] at h
  | cons i is ih =>
    by_cases hi : i.ready = true
    · have h1 : 0 < (is.filter (·.ready)).length := by
        unfold urxReadyCount at h
        rw [List.filter_cons_of_pos hi, List.length_cons] at h
        exact Nat.lt_of_succ_lt_succ h
      obtain ⟨j, hj⟩ := List.exists_mem_of_length_pos h1
      obtain ⟨hj1, hj2⟩ := List.mem_filter.1 hj
      obtain ⟨x, y, rfl⟩ := List.append_of_mem hj1
      refine ⟨i :: x, j, y, rfl, ?_, hj2⟩
      unfold urxReadyCount; rw [List.filter_cons_of_pos hi]; simp
    · obtain ⟨x, j, y, rfl, hx, hj⟩ := ih (by unfold urxReadyCount at h ⊢; rwa [List.filter_cons_of_neg hi] at h)
      refine ⟨i :: x, j, y, rfl, ?_, hj⟩
      unfold urxReadyCount at hx ⊢; rwa [List.filter_cons_of_neg hi]

theorem urxInv_prefix {c : UrxCfg} {st : Urx} {A0 Q B : List UrxSeg} {E : List UrxOut} (h : UrxInv c st A0 Q E)
    (hB : A0 ++ Q <+: B) (n : Option UrxSeg) : E ++ urxPort c st <+: urxGl c B n := by
  rw [h.out]
  refine urxGl_prefix ((List.prefix_append _ _).trans hB) _ _ ?_
  cases Q with
  | nil => exact Or.inl (h.closed rfl)
  | cons b t => exact Or.inr ⟨b, rfl, (List.IsPrefix.trans ⟨t, by simp⟩ hB)⟩

theorem urx_flatMap_prefix {α β : Type} {a b : List α} (f : α → List β) (h : a <+: b) : a.flatMap f <+: b.flatMap f := by
  obtain ⟨r, rfl⟩ := h
  rw [List.flatMap_append]; exact List.prefix_append _ _

/-- Nothing but the packets, in order. -/
theorem urx_safe {c : UrxCfg} (hc : UrxCfgOk c) (st : Urx) (r : UrxIn) (hr : r.rst = true) {is : List UrxIn}
    {ws : List UrxSlots} {ts : List UrxTlp} (hf : UrxFeed c is ws ts) (hp : UrxPaired c ws) :
    urxOuts c (urxStep c st r) is <+: ts.flatMap (urxOutSegs c) := by
  obtain ⟨hl, hD, h0⟩ := urxCfgOk_facts hc
  obtain ⟨A, Q, e, inv, _, _⟩ := urx_run hc ts hf.desc is ws (urx_reset c st r hr) hf.norst hf.carry hf.ok hp
    (by simpa using hf.part)
  have := urxInv_prefix inv (B := ts.flatMap (urxInSegs c.W)) (by rw [e]; simpa using hf.part) none
  rw [urx_packets c hl hD h0 ts hf.desc, List.nil_append] at this
  exact (List.prefix_append _ _).trans this

/-- All of them, soon. -/
theorem urx_progress {c : UrxCfg} (hc : UrxCfgOk c) (st : Urx) (r : UrxIn) (hr : r.rst = true) {is js : List UrxIn}
    {ws : List UrxSlots} {ts us : List UrxTlp} (hf : UrxFeed c (is ++ js) ws ts) (hp : UrxPaired c ws) (hus : us <+: ts)
    (hd : us.flatMap (urxInSegs c.W) <+: (ws.take (urxTaken is).length).flatten.filterMap id)
    (hj : 2 ≤ urxReadyCount js) : us.flatMap (urxOutSegs c) <+: urxOuts c (urxStep c st r) (is ++ js) := by
  obtain ⟨hl, hD, h0⟩ := urxCfgOk_facts hc
  obtain ⟨x, i, y, rfl, hx, hi⟩ := urx_ready_split js hj
  have hcar := hf.carry
  rw [urxTaken_append] at hcar
  obtain ⟨c1, c2⟩ := urxCarries_append hcar
  rw [urxTaken_append] at c2
  obtain ⟨c2, _⟩ := urxCarries_append c2
  generalize hw1 : ws.take (urxTaken is).length = w1 at *
  generalize hw2 : (ws.drop (urxTaken is).length).take (urxTaken x).length = w2 at *
  have hws : ∃ w3, ws = w1 ++ (w2 ++ w3) := ⟨_, by rw [← hw1, ← hw2, List.take_append_drop, List.take_append_drop]⟩
  obtain ⟨w3, hws⟩ := hws
  have hpart := hf.part
  have hfl : ws.flatten.filterMap id = w1.flatten.filterMap id ++ (w2.flatten.filterMap id ++ w3.flatten.filterMap id) := by
    rw [hws]; simp [List.filterMap_append]
  rw [hfl] at hpart
  have m1 : ∀ w ∈ w1, w ∈ ws := fun w h => by rw [hws]; simp [h]
  have m2 : ∀ w ∈ w2, w ∈ ws := fun w h => by rw [hws]; simp [h]
  obtain ⟨A1, Q1, e1, inv1, _, _⟩ := urx_run hc ts hf.desc is w1 (urx_reset c st r hr)
    (fun j h => hf.norst j (by simp [h])) c1 (fun w h => hf.ok w (m1 w h)) (fun hm w h => hp hm w (m1 w h))
    (by simp only [List.nil_append]; exact (List.prefix_append _ _).trans hpart)
  simp only [List.nil_append] at e1 inv1
  obtain ⟨A2, Q2, e2, inv2, _, t2⟩ := urx_run hc ts hf.desc x w2 inv1
    (fun j h => hf.norst j (by simp [h])) c2 (fun w h => hf.ok w (m2 w h)) (fun hm w h => hp hm w (m2 w h))
    (by
      rw [e1]
      rw [← List.append_assoc] at hpart
      exact (List.prefix_append _ _).trans hpart)
  have hcl : urxClosed (us.flatMap (urxInSegs c.W)) := by
    intro a ha
    have := (urx_packets_alt c.W us).2
    unfold urxAfter at this
    rw [ha] at this
    simpa using this
  have hT := t2 hx _ (by rw [e1]; exact hd) hcl
  have hG : us.flatMap (urxOutSegs c) <+: urxGl c A2 Q2.head? := by
    rw [← urx_packets c hl hD h0 us (fun t h => hf.desc t (hus.subset h)) none]
    exact urxGl_prefix hT _ _ (Or.inl hcl)
  rw [← inv2.out] at hG
  refine hG.trans ?_
  rw [urxOuts_append, urxOuts_append]
  rw [← List.append_assoc]
  refine (List.prefix_append_right_inj _).2 ?_
  rw [urxOuts, if_pos hi]
  exact List.prefix_append _ _

end Verif.Proofs
