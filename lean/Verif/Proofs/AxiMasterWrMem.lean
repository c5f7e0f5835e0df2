import Verif.Proofs.AxiMasterWrInv
/-! The data transfers of the AXI master for writes write the bytes of the TLPs. -/
namespace Verif.Proofs
open Verif Verif.Model Verif.Spec

theorem filterMap_shift {α : Type} (o M : Nat) (f : Nat → Option α) (N : Nat) :
    (List.range N).filterMap (fun p => if o ≤ p ∧ p - o < M then f (p - o) else none) = (List.range (min (N - o) M)).filterMap f := by
  induction N with
  | zero => simp
  | succ N ih =>
    rw [List.range_succ, List.filterMap_append, ih]
    by_cases h1 : o ≤ N ∧ N - o < M
    · rw [show min (N + 1 - o) M = min (N - o) M + 1 by omega, List.range_succ, List.filterMap_append]
      congr 1
      rw [List.filterMap_cons, if_pos h1, List.filterMap_cons, show min (N - o) M = N - o by omega]; rfl
    · rw [show min (N + 1 - o) M = min (N - o) M by omega, List.filterMap_cons, if_neg h1]
      simp

theorem axw_filterMap_range {α : Type} (f g : Nat → Option α) (N : Nat) (h : ∀ p, p < N → f p = g p) :
    (List.range N).filterMap f = (List.range N).filterMap g := by
  induction N with
  | zero => rfl
  | succ N ih =>
    rw [List.range_succ, List.filterMap_append, List.filterMap_append, ih (fun p hp => h p (by omega)), List.filterMap_cons, List.filterMap_cons,
      h N (by omega)]
    rfl

/-- The bytes written by a TLP with first word `w`. -/
def tlpWriteAt (c : AxwCfg) (h : TlpHdr) (g : List AxwIn) (q : Nat) : Option (Nat × UInt8) :=
  if hdrEnables h q then some (axwTlpAddr c h + q, tlpByte (2 ^ c.tb) g q) else none

theorem tlpWrites_eq (c : AxwCfg) (g : List AxwIn) (w : AxwIn) (hw : g.head? = some w) (hd : tlpDoWrite w.hdr = true) :
    tlpWrites c g = (List.range (4 * hdrLen w.hdr)).filterMap (tlpWriteAt c w.hdr g) := by
  cases g with
  | nil => cases hw
  | cons x xs => cases hw; unfold tlpWrites; simp only [hd, if_true]; rfl

theorem tlpWrites_none (c : AxwCfg) (g : List AxwIn) (hb : tlpBurst c g = none) : tlpWrites c g = [] ∧ tlpBeats c g = [] := by
  cases g with
  | nil => exact ⟨rfl, rfl⟩
  | cons x xs =>
    unfold tlpBurst at hb
    cases hd : tlpDoWrite x.hdr with
    | true => simp [hd] at hb
    | false => unfold tlpWrites tlpBeats; simp [hd]

/-- What the first data transfers of a TLP write. -/
theorem burstWrites_beats (c : AxwCfg) (g : List AxwIn) (w : AxwIn) (hw : g.head? = some w) (hd : tlpDoWrite w.hdr = true) (xs : List AxwBeat)
    (hx : xs.map (axwView (2 ^ c.tb)) = (tlpBeats c g).take xs.length) :
    burstWrites (2 ^ c.tb) (axwTlpAddr c w.hdr) xs =
      (List.range (min (xs.length * 2 ^ c.tb - axwTlpAddr c w.hdr % 2 ^ c.tb) (4 * hdrLen w.hdr))).filterMap (tlpWriteAt c w.hdr g) := by
  have hW : 0 < 2 ^ c.tb := Nat.pow_pos (by decide)
  rw [← filterMap_shift]
  unfold burstWrites
  refine axw_filterMap_range _ _ _ fun p hp => ?_
  have hj : p / 2 ^ c.tb < xs.length := Nat.div_lt_of_lt_mul (by rw [Nat.mul_comm]; exact hp)
  have hk : p % 2 ^ c.tb < 2 ^ c.tb := Nat.mod_lt _ hW
  have hg := List.getElem?_eq_getElem hj
  generalize xs[p / 2 ^ c.tb] = b at hg
  rw [hg]
  -- the view of the data transfer
  have hv : (xs.map (axwView (2 ^ c.tb)))[p / 2 ^ c.tb]? = some (axwView (2 ^ c.tb) b) := by rw [List.getElem?_map, hg]; rfl
  rw [hx, List.getElem?_take_of_lt hj, tlpBeats_eq c g w hw hd, List.getElem?_map] at hv
  cases hr : (List.range (tlpBeatCount c w.hdr))[p / 2 ^ c.tb]? with
  | none => rw [hr] at hv; cases hv
  | some j =>
    rw [hr] at hv
    have hjj : j = p / 2 ^ c.tb := by
      rw [List.getElem?_eq_some_iff] at hr
      obtain ⟨_, h⟩ := hr
      rw [List.getElem_range] at h
      exact h.symm
    have hv := congrArg Prod.fst (Option.some.inj hv)
    have hv : ((tlpBeatAt c w.hdr g j).1)[p % 2 ^ c.tb]? = ((axwView (2 ^ c.tb) b).1)[p % 2 ^ c.tb]? := by rw [hv]
    unfold tlpBeatAt axwView at hv
    simp only [List.getElem?_map, List.getElem?_range hk, Option.map_some, Option.some.injEq] at hv
    have hp' : j * 2 ^ c.tb + p % 2 ^ c.tb = p := by rw [hjj, Nat.mul_comm]; exact Nat.div_add_mod p _
    rw [hp'] at hv
    have ha : axwTlpAddr c w.hdr / 2 ^ c.tb * 2 ^ c.tb + axwTlpAddr c w.hdr % 2 ^ c.tb = axwTlpAddr c w.hdr := by
      rw [Nat.mul_comm]; exact Nat.div_add_mod _ _
    unfold tlpWriteAt
    dsimp only
    by_cases h1 : axwTlpAddr c w.hdr % 2 ^ c.tb ≤ p ∧ p - axwTlpAddr c w.hdr % 2 ^ c.tb < 4 * hdrLen w.hdr
    · rw [if_pos h1]
      by_cases h2 : hdrEnables w.hdr (p - axwTlpAddr c w.hdr % 2 ^ c.tb) = true
      · rw [if_pos ⟨h1.1, h1.2, h2⟩] at hv
        rw [if_pos h2]
        split at hv
        · next h3 =>
          rw [if_pos h3, Option.some.inj hv]
          congr 2
          omega
        · cases hv
      · rw [if_neg (fun h => h2 h.2.2)] at hv
        rw [if_neg h2]
        split at hv
        · cases hv
        · next h3 => rw [if_neg h3]
    · rw [if_neg (fun h => h1 ⟨h.1, h.2.1⟩)] at hv
      rw [if_neg h1]
      split at hv
      · cases hv
      · next h3 => rw [if_neg h3]

theorem tlpBurst_some (c : AxwCfg) (g : List AxwIn) (b : Nat × Nat) (hb : tlpBurst c g = some b) :
    ∃ w, g.head? = some w ∧ tlpDoWrite w.hdr = true ∧ b = (axwTlpAddr c w.hdr, tlpBeatCount c w.hdr - 1) := by
  cases g with
  | nil => cases hb
  | cons x xs =>
    unfold tlpBurst at hb
    cases hd : tlpDoWrite x.hdr with
    | true =>
      simp only [hd, if_true] at hb
      exact ⟨x, rfl, hd, (Option.some.inj hb).symm⟩
    | false => simp [hd] at hb

theorem range_prefix (a b : Nat) (h : a ≤ b) : List.range a <+: List.range b := by
  obtain ⟨k, rfl⟩ := Nat.exists_eq_add_of_le h
  rw [List.range_add]
  exact List.prefix_append _ _

theorem axiWrites_nil (b : Nat) (as : List (Nat × Nat)) : axiWrites b as [] = [] := by
  induction as with
  | nil => rfl
  | cons a as ih => rw [axiWrites, List.take_nil, List.drop_nil, ih]; simp [burstWrites]

/-- A burst with all its data transfers writes the bytes of the TLP. -/
theorem burstWrites_full (c : AxwCfg) (hc : AxwCfgOk c) (g : List AxwIn) (w : AxwIn) (hw : g.head? = some w) (hd : tlpDoWrite w.hdr = true)
    (xs : List AxwBeat) (hx : xs.map (axwView (2 ^ c.tb)) = tlpBeats c g) :
    burstWrites (2 ^ c.tb) (axwTlpAddr c w.hdr) xs = tlpWrites c g := by
  have hl : xs.length = tlpBeatCount c w.hdr := by
    have := congrArg List.length hx
    rw [List.length_map, tlpBeats_eq c g w hw hd] at this
    simpa using this
  have hlb : (tlpBeats c g).length = xs.length := by rw [← hx, List.length_map]
  rw [burstWrites_beats c g w hw hd xs (by rw [hx, List.take_of_length_le (by omega)]), tlpWrites_eq c g w hw hd, hl]
  congr 2
  obtain ⟨hb, hdw⟩ := axw_bytes c hc
  have h1 := (axw_beatCount c hc w.hdr (tlpBeatCount c w.hdr))
  have h2 := (axwOff_eq c hc w.hdr).1
  unfold axwO at h1
  rw [h2, show tlpBeatCount c w.hdr * 2 ^ c.tb = 4 * (tlpBeatCount c w.hdr * c.dws) by rw [hb, Nat.mul_left_comm]]
  omega

/-- Transfers for the TLPs write bytes of the TLPs, in order. -/
theorem axi_writes_prefix (c : AxwCfg) (hc : AxwCfgOk c) (gs : List (List AxwIn)) : ∀ (as : List (Nat × Nat)) (xs : List AxwBeat),
    as <+: gs.filterMap (tlpBurst c) → xs.map (axwView (2 ^ c.tb)) <+: gs.flatMap (tlpBeats c) →
    axiWrites (2 ^ c.tb) as xs <+: gs.flatMap (tlpWrites c) := by
  induction gs with
  | nil =>
    intro as xs h1 h2
    rw [List.filterMap_nil, List.prefix_nil] at h1
    subst h1
    exact List.nil_prefix
  | cons g gs ih =>
    intro as xs h1 h2
    rw [List.filterMap_cons] at h1
    rw [List.flatMap_cons] at h2 ⊢
    cases hb : tlpBurst c g with
    | none =>
      obtain ⟨e1, e2⟩ := tlpWrites_none c g hb
      rw [hb] at h1
      rw [e2] at h2
      rw [e1]
      exact ih as xs h1 h2
    | some b =>
      rw [hb] at h1
      obtain ⟨w, hw, hd, rfl⟩ := tlpBurst_some c g b hb
      cases as with
      | nil => exact List.nil_prefix
      | cons a as =>
        obtain ⟨rfl, h1p⟩ := List.cons_prefix_cons.1 h1
        rw [axiWrites]
        have hn := (axw_words_beats c hc w.hdr)
        rw [show tlpBeatCount c w.hdr - 1 + 1 = tlpBeatCount c w.hdr by omega]
        have hlen : (tlpBeats c g).length = tlpBeatCount c w.hdr := by rw [tlpBeats_eq c g w hw hd]; simp
        rw [List.prefix_iff_eq_take, List.length_map, List.take_append, hlen] at h2
        by_cases hl : tlpBeatCount c w.hdr ≤ xs.length
        · rw [List.take_of_length_le (by omega)] at h2
          have ht : (xs.take (tlpBeatCount c w.hdr)).map (axwView (2 ^ c.tb)) = tlpBeats c g := by
            rw [List.map_take, h2, List.take_append_of_le_length (by omega), List.take_of_length_le (by omega)]
          have hdr : (xs.drop (tlpBeatCount c w.hdr)).map (axwView (2 ^ c.tb)) <+: gs.flatMap (tlpBeats c) := by
            rw [List.map_drop, h2, List.drop_append_of_le_length (by omega), List.drop_of_length_le (by omega), List.nil_append]
            exact List.take_prefix _ _
          rw [burstWrites_full c hc g w hw hd _ ht]
          exact List.prefix_append_right_inj _ |>.2 (ih as _ h1p hdr)
        · rw [show xs.length - tlpBeatCount c w.hdr = 0 by omega, List.take_zero, List.append_nil] at h2
          rw [List.drop_of_length_le (by omega), axiWrites_nil, List.append_nil, List.take_of_length_le (by omega)]
          rw [burstWrites_beats c g w hw hd xs h2, tlpWrites_eq c g w hw hd]
          exact ((range_prefix _ _ (Nat.min_le_right _ _)).filterMap _).trans (List.prefix_append _ _)

/-- If all transfers for the TLPs are done, their bytes are written. -/
theorem axi_writes_all (c : AxwCfg) (hc : AxwCfgOk c) (gs : List (List AxwIn)) : ∀ (as : List (Nat × Nat)) (xs : List AxwBeat),
    gs.filterMap (tlpBurst c) <+: as → gs.flatMap (tlpBeats c) <+: xs.map (axwView (2 ^ c.tb)) →
    gs.flatMap (tlpWrites c) <+: axiWrites (2 ^ c.tb) as xs := by
  induction gs with
  | nil => intro as xs _ _; exact List.nil_prefix
  | cons g gs ih =>
    intro as xs h1 h2
    rw [List.filterMap_cons] at h1
    rw [List.flatMap_cons] at h2 ⊢
    cases hb : tlpBurst c g with
    | none =>
      obtain ⟨e1, e2⟩ := tlpWrites_none c g hb
      rw [hb] at h1
      rw [e2] at h2
      rw [e1]
      exact ih as xs h1 h2
    | some b =>
      rw [hb] at h1
      obtain ⟨w, hw, hd, rfl⟩ := tlpBurst_some c g b hb
      cases as with
      | nil => cases List.prefix_nil.1 h1
      | cons a as =>
        obtain ⟨rfl, h1p⟩ := List.cons_prefix_cons.1 h1
        rw [axiWrites]
        have hn := (axw_words_beats c hc w.hdr)
        rw [show tlpBeatCount c w.hdr - 1 + 1 = tlpBeatCount c w.hdr by omega]
        have hlen : (tlpBeats c g).length = tlpBeatCount c w.hdr := by rw [tlpBeats_eq c g w hw hd]; simp
        obtain ⟨t, ht⟩ := h2
        have htk : (xs.take (tlpBeatCount c w.hdr)).map (axwView (2 ^ c.tb)) = tlpBeats c g := by
          rw [List.map_take, ← ht, List.append_assoc, List.take_append_of_le_length (by omega), List.take_of_length_le (by omega)]
        have hdr : gs.flatMap (tlpBeats c) <+: (xs.drop (tlpBeatCount c w.hdr)).map (axwView (2 ^ c.tb)) := by
          rw [List.map_drop, ← ht, List.append_assoc, List.drop_append_of_le_length (by omega), List.drop_of_length_le (by omega), List.nil_append]
          exact List.prefix_append _ _
        rw [burstWrites_full c hc g w hw hd _ htk]
        exact List.prefix_append_right_inj _ |>.2 (ih as _ h1p hdr)

end Verif.Proofs
