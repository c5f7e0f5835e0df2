import Verif.Proofs.Bar
import Verif.Spec.BarSetup
/-! Configuring and programming all BARs of a function (C18). -/
namespace Verif.Proofs
open Verif Verif.Model Verif.Spec

theorem set_replicate_append (pre : List Nat) (n x : Nat) (hn : 0 < n) :
    (pre ++ List.replicate n 0).set pre.length x = pre ++ x :: List.replicate (n - 1) 0 := by
  obtain ⟨n, rfl⟩ : ∃ k, n = k + 1 := ⟨n - 1, by omega⟩
  rw [List.set_append_right _ _ (Nat.le_refl _)]
  simp [List.replicate_succ]

theorem set_cons_append (pre : List Nat) (y x : Nat) (l : List Nat) :
    (pre ++ y :: l).set pre.length x = pre ++ x :: l := by
  rw [List.set_append_right _ _ (Nat.le_refl _)]
  simp

theorem getD_append_len (pre : List Nat) (y : Nat) (l : List Nat) : (pre ++ y :: l).getD pre.length 0 = y := by
  simp [List.getD_eq_getElem?_getD]

theorem setupBars_spec : ∀ (ds : List BarDesc) (i : Nat) (pb pm : List Nat) (n : Nat) (s : ConfigState),
    (∀ d ∈ ds, d.Valid) → pb.length = i → pm.length = i → i + n = 6 →
    s.bar = pb ++ List.replicate n 0 → s.bar_mask = pm ++ List.replicate n 0 →
    (ds.flatMap BarDesc.values).length ≤ n →
    ∃ s', setupBars i ds s = some s' ∧
      s'.bar = pb ++ ds.flatMap BarDesc.values ++ List.replicate (n - (ds.flatMap BarDesc.values).length) 0 ∧
      s'.bar_mask = pm ++ ds.flatMap BarDesc.masks ++ List.replicate (n - (ds.flatMap BarDesc.values).length) 0
  | [], i, pb, pm, n, s, _, _, _, _, hb, hm, _ => ⟨s, rfl, by simpa using hb, by simpa using hm⟩
  | d :: ds, i, pb, pm, n, s, hv, hi1, hi2, h6, hb, hm, hlen => by
    have hd := hv d List.mem_cons_self
    have hv' : ∀ d ∈ ds, d.Valid := fun x hx => hv x (List.mem_cons_of_mem _ hx)
    have hbl : s.bar.length = 6 := by rw [hb]; simp; omega
    have hml : s.bar_mask.length = 6 := by rw [hm]; simp; omega
    have e2 : ∀ n, n - 1 - 1 = n - 2 := by omega
    cases d with
    | unused =>
      simp only [List.flatMap_cons, BarDesc.values, BarDesc.masks, List.length_append, List.length_cons,
        List.length_nil] at hlen ⊢
      obtain ⟨n', rfl⟩ : ∃ k, n = k + 1 := ⟨n - 1, by omega⟩
      obtain ⟨s', g1, g2, g3⟩ := setupBars_spec ds (i + 1) (pb ++ [0]) (pm ++ [0]) n' s hv' (by simp [hi1]) (by simp [hi2])
        (by omega) (by rw [hb]; simp [List.replicate_succ]) (by rw [hm]; simp [List.replicate_succ]) (by omega)
      refine ⟨s', g1, ?_, ?_⟩
      · rw [g2]; simp only [List.append_assoc, List.cons_append, List.nil_append]
        congr 3; congr 1; omega
      · rw [g3]; simp only [List.append_assoc, List.cons_append, List.nil_append]
        congr 3; congr 1; omega
    | io k base =>
      obtain ⟨d1, d2, d3, d4⟩ := hd
      simp only [List.flatMap_cons, BarDesc.values, BarDesc.masks, List.length_append, List.length_cons,
        List.length_nil] at hlen ⊢
      obtain ⟨n', rfl⟩ : ∃ k, n = k + 1 := ⟨n - 1, by omega⟩
      have hk : max 2 k = k := by omega
      have hc := configure_io s.bar s.bar_mask i (2 ^ k) (by omega) (Nat.two_pow_pos _)
        (Nat.pow_le_pow_right (by decide) (by omega)) false
      rw [ceilLog2_pow, hk] at hc
      have hp := pow2 d1
      have hval : byteMaskUpdate 1 0xf base (some (2 ^ 32 - 2 ^ k)) = base + 1 := by
        rw [bar_written k 1 base (by omega) (by omega) (by decide) d4]
        have := base_flags k base 0 d3 (by omega)
        rw [Nat.add_zero] at this
        omega
      have hw := writeConfig_bar { s with bar := s.bar.set i 1, bar_mask := s.bar_mask.set i (2 ^ 32 - 2 ^ k) } i base (by omega)
      simp only [getD_set_self _ _ _ (by omega : i < s.bar.length), getD_set_self _ _ _ (by omega : i < s.bar_mask.length),
        hval, List.set_set] at hw
      obtain ⟨s', g1, g2, g3⟩ := setupBars_spec ds (i + 1) (pb ++ [base + 1]) (pm ++ [2 ^ 32 - 2 ^ k]) n' 
        { s with bar := s.bar.set i (base + 1), bar_mask := s.bar_mask.set i (2 ^ 32 - 2 ^ k) } hv' (by simp [hi1]) (by simp [hi2])
        (by omega) (by show s.bar.set i _ = _; rw [hb, ← hi1, set_replicate_append _ _ _ (by omega)]; simp)
        (by show s.bar_mask.set i _ = _; rw [hm, ← hi2, set_replicate_append _ _ _ (by omega)]; simp) (by omega)
      refine ⟨s', ?_, ?_, ?_⟩
      · show (configureBar _ _ _ _ _ _ _).bind _ = _
        rw [hc]
        show (writeConfig _ _ _ _).bind _ = _
        rw [hw]; exact g1
      · rw [g2]; simp only [List.append_assoc, List.cons_append, List.nil_append]
        congr 3; congr 1; omega
      · rw [g3]; simp only [List.append_assoc, List.cons_append, List.nil_append]
        congr 3; congr 1; omega
    | mem32 k base pf =>
      obtain ⟨d1, d2, d3, d4⟩ := hd
      simp only [List.flatMap_cons, BarDesc.values, BarDesc.masks, List.length_append, List.length_cons,
        List.length_nil] at hlen ⊢
      obtain ⟨n', rfl⟩ : ∃ k, n = k + 1 := ⟨n - 1, by omega⟩
      have hk : max 4 k = k := by omega
      have hc := configure_mem32 s.bar s.bar_mask i (2 ^ k) (by omega) (Nat.two_pow_pos _)
        (Nat.pow_le_pow_right (by decide) (by omega)) pf
      rw [ceilLog2_pow, hk] at hc
      have hp := pow4 d1
      have hf : (if pf then 8 else 0 : Nat) < 16 := by cases pf <;> decide
      generalize (if pf then 8 else 0 : Nat) = f at hc hf ⊢
      have hval : byteMaskUpdate f 0xf base (some (2 ^ 32 - 2 ^ k)) = base + f := by
        rw [bar_written k f base (by omega) (by omega) (by omega) d4]
        have := base_flags k base 0 d3 (by omega)
        rw [Nat.add_zero] at this
        omega
      have hw := writeConfig_bar { s with bar := s.bar.set i f, bar_mask := s.bar_mask.set i (2 ^ 32 - 2 ^ k) } i base (by omega)
      simp only [getD_set_self _ _ _ (by omega : i < s.bar.length), getD_set_self _ _ _ (by omega : i < s.bar_mask.length),
        hval, List.set_set] at hw
      obtain ⟨s', g1, g2, g3⟩ := setupBars_spec ds (i + 1) (pb ++ [base + f]) (pm ++ [2 ^ 32 - 2 ^ k]) n' 
        { s with bar := s.bar.set i (base + f), bar_mask := s.bar_mask.set i (2 ^ 32 - 2 ^ k) } hv' (by simp [hi1]) (by simp [hi2])
        (by omega) (by show s.bar.set i _ = _; rw [hb, ← hi1, set_replicate_append _ _ _ (by omega)]; simp)
        (by show s.bar_mask.set i _ = _; rw [hm, ← hi2, set_replicate_append _ _ _ (by omega)]; simp) (by omega)
      refine ⟨s', ?_, ?_, ?_⟩
      · show (configureBar _ _ _ _ _ _ _).bind _ = _
        rw [hc]
        show (writeConfig _ _ _ _).bind _ = _
        rw [hw]; exact g1
      · rw [g2]; simp only [List.append_assoc, List.cons_append, List.nil_append]
        congr 3; congr 1; omega
      · rw [g3]; simp only [List.append_assoc, List.cons_append, List.nil_append]
        congr 3; congr 1; omega
    | mem64 k base pf =>
      obtain ⟨d1, d2, d3, d4⟩ := hd
      simp only [List.flatMap_cons, BarDesc.values, BarDesc.masks, List.length_append, List.length_cons,
        List.length_nil] at hlen ⊢
      obtain ⟨n', rfl⟩ : ∃ k, n = k + 2 := ⟨n - 2, by omega⟩
      have hk : min 32 (max 4 k) = k := by omega
      have hk0 : k - 32 = 0 := by omega
      have hc := configure_mem64 s.bar s.bar_mask i (2 ^ k) (by omega) (Nat.two_pow_pos _)
        (Nat.pow_le_pow_right (by decide) (by omega)) pf
      rw [ceilLog2_pow, hk, hk0] at hc
      have hp := pow4 d1
      have hf : (if pf then 8 else 0 : Nat) < 12 := by cases pf <;> decide
      generalize (if pf then 8 else 0 : Nat) = f at hc hf ⊢
      have hb32 : 2 ^ k ∣ base % 2 ^ 32 := (Nat.dvd_mod_iff (Nat.pow_dvd_pow 2 (by omega))).2 d3
      have hval : byteMaskUpdate (4 + f) 0xf (base % 2 ^ 32) (some (2 ^ 32 - 2 ^ k)) = base % 2 ^ 32 + 4 + f := by
        rw [bar_written k (4 + f) _ (by omega) (by omega) (by omega) (by omega)]
        have := base_flags k (base % 2 ^ 32) 0 hb32 (by omega)
        rw [Nat.add_zero] at this
        omega
      have hval2 : byteMaskUpdate 0 0xf (base / 2 ^ 32) (some (2 ^ 32 - 2 ^ 0)) = base / 2 ^ 32 := by
        rw [bar_written 0 0 _ (by omega) (by decide) (by omega) (by omega)]
        omega
      have g1' : ∀ (l : List Nat) (x y : Nat), i < l.length → ((l.set i x).set (i + 1) y).getD i 0 = x := by
        intro l x y hl
        rw [List.set_comm _ _ (by omega), getD_set_self _ _ _ (by simpa using hl)]
      have g2' : ∀ (l : List Nat) (x y : Nat), i + 1 < l.length → ((l.set i x).set (i + 1) y).getD (i + 1) 0 = y := by
        intro l x y hl
        rw [getD_set_self _ _ _ (by simpa using hl)]
      have hw := writeConfig_bar { s with bar := (s.bar.set i (4 + f)).set (i + 1) 0, bar_mask := (s.bar_mask.set i (2 ^ 32 - 2 ^ k)).set (i + 1) (2 ^ 32 - 2 ^ 0) } i (base % 2 ^ 32) (by omega)
      simp only [g1' _ _ _ (by omega : i < s.bar.length), g1' _ _ _ (by omega : i < s.bar_mask.length), hval,
        List.set_comm _ _ (by omega : i + 1 ≠ i), List.set_set] at hw
      have hw2 := writeConfig_bar { s with bar := (s.bar.set i (base % 2 ^ 32 + 4 + f)).set (i + 1) 0, bar_mask := (s.bar_mask.set i (2 ^ 32 - 2 ^ k)).set (i + 1) (2 ^ 32 - 2 ^ 0) } (i + 1) (base / 2 ^ 32) (by omega)
      simp only [g2' _ _ _ (by omega : i + 1 < s.bar.length), g2' _ _ _ (by omega : i + 1 < s.bar_mask.length), hval2,
        List.set_set] at hw2
      have hset : ∀ (p : List Nat) (x y : Nat), p.length = i →
          ((p ++ List.replicate (n' + 2) 0).set i x).set (i + 1) y = (p ++ [x, y]) ++ List.replicate n' 0 := by
        intro p x y hp
        subst hp
        rw [set_replicate_append _ _ _ (by omega)]
        have : p ++ x :: List.replicate (n' + 2 - 1) 0 = (p ++ [x]) ++ List.replicate (n' + 1) 0 := by simp
        rw [this]
        have e : p.length + 1 = (p ++ [x]).length := by simp
        rw [e, set_replicate_append _ _ _ (by omega)]
        simp
      obtain ⟨s', g1, g2, g3⟩ := setupBars_spec ds (i + 2) (pb ++ [base % 2 ^ 32 + 4 + f, base / 2 ^ 32])
        (pm ++ [2 ^ 32 - 2 ^ k, 2 ^ 32 - 2 ^ 0]) n'
        { s with bar := (s.bar.set i (base % 2 ^ 32 + 4 + f)).set (i + 1) (base / 2 ^ 32), bar_mask := (s.bar_mask.set i (2 ^ 32 - 2 ^ k)).set (i + 1) (2 ^ 32 - 2 ^ 0) } hv' (by simp [hi1]) (by simp [hi2])
        (by omega) (by show (s.bar.set i _).set _ _ = _; rw [hb, hset _ _ _ hi1])
        (by show (s.bar_mask.set i _).set _ _ = _; rw [hm, hset _ _ _ hi2]) (by omega)
      refine ⟨s', ?_, ?_, ?_⟩
      · show (configureBar _ _ _ _ _ _ _).bind _ = _
        rw [hc]
        show (writeConfig _ _ _ _).bind _ = _
        rw [hw]
        show (writeConfig _ _ _ _).bind _ = _
        rw [hw2]; exact g1
      · rw [g2]; simp only [List.append_assoc, List.cons_append, List.nil_append]
        congr 4; congr 1; omega
      · rw [g3]; simp only [List.append_assoc, List.cons_append, List.nil_append]
        congr 4; congr 1; omega

theorem flatMap_unused (n : Nat) :
    (List.replicate n BarDesc.unused).flatMap BarDesc.values = List.replicate n 0 ∧
    (List.replicate n BarDesc.unused).flatMap BarDesc.masks = List.replicate n 0 := by
  induction n with
  | zero => exact ⟨rfl, rfl⟩
  | succ n ih => simp [List.replicate_succ, List.flatMap_cons, ih.1, ih.2, BarDesc.values, BarDesc.masks]

theorem barHits_pad (addr : Nat) (io : Bool) (n : Nat) : ∀ (ds : List BarDesc) (i : Nat),
    barHits addr io i (ds ++ List.replicate n .unused) = barHits addr io i ds
  | [], i => by
    induction n generalizing i with
    | zero => rfl
    | succ n ih =>
      have := ih (i + 1)
      simp only [List.nil_append] at this ⊢
      cases io <;> simp [List.replicate_succ, barHits, BarDesc.window, BarDesc.values, this]
  | d :: ds, i => by
    simp only [List.cons_append, barHits]
    rw [barHits_pad addr io n ds]

theorem matchBar_pad (addr : Nat) (io : Bool) (ds : List BarDesc) (i n : Nat) (hv : ∀ d ∈ ds, d.Valid)
    (ha : addr < 2 ^ 64) (h : addr < 2 ^ 32 ∨ ∀ d ∈ ds, ∀ k b p, d ≠ .mem32 k b p ∧ d ≠ .io k b) :
    matchBar addr io i ([] ++ ds.flatMap BarDesc.values ++ List.replicate n 0)
      ([] ++ ds.flatMap BarDesc.masks ++ List.replicate n 0) = some (barHits addr io i ds) := by
  have := matchBar_spec addr io (ds ++ List.replicate n .unused) i ?_ ha ?_
  · rw [List.flatMap_append, List.flatMap_append, (flatMap_unused n).1, (flatMap_unused n).2, barHits_pad] at this
    exact this
  · intro d hd
    rcases List.mem_append.1 hd with hd | hd
    · exact hv d hd
    · rw [(List.mem_replicate.1 hd).2]; trivial
  · rcases h with h | h
    · exact Or.inl h
    · right
      intro d hd k b p
      rcases List.mem_append.1 hd with hd | hd
      · exact h d hd k b p
      · rw [(List.mem_replicate.1 hd).2]; exact ⟨by simp, by simp⟩

end Verif.Proofs
