import Verif.Proofs.Enum
/-! Enumeration: allocation of BAR windows. -/
namespace Verif.Proofs
open Verif Verif.Model Verif.Spec

theorem align_ge (v m : Nat) : v ≤ align v m := by
  unfold align
  have : v &&& m ≤ m := Nat.and_le_right
  split <;> omega

theorem align_low (v m k : Nat) (hm : m % 2 ^ k = 2 ^ k - 1) : align v m % 2 ^ k = 0 := by
  have hp := Nat.two_pow_pos k
  have h1 : (v &&& m) % 2 ^ k = v % 2 ^ k := by
    rw [Nat.and_mod_two_pow, hm, and_mod, Nat.mod_mod]
  have h2 : v &&& m ≤ v := Nat.and_le_left
  have h3 : v &&& m ≤ m := Nat.and_le_right
  unfold align
  split
  · have hv := Nat.div_add_mod v (2 ^ k)
    have hw := Nat.div_add_mod (v &&& m) (2 ^ k)
    have hmm := Nat.div_add_mod m (2 ^ k)
    rw [hm] at hmm
    rw [h1] at hw
    have e : v + m + 1 - (v &&& m) = 2 ^ k * (v / 2 ^ k + m / 2 ^ k + 1) - 2 ^ k * ((v &&& m) / 2 ^ k) := by
      rw [Nat.mul_add, Nat.mul_add, Nat.mul_one]
      omega
    rw [e, ← Nat.mul_sub]
    exact Nat.mul_mod_right _ _
  · rename_i h
    have h : v &&& m = 0 := Classical.byContradiction h
    rw [h] at h1
    rw [← h1, Nat.zero_mod]

theorem or_low (x k : Nat) : (x ||| (2 ^ k - 1)) % 2 ^ k = 2 ^ k - 1 := by
  rw [Nat.or_mod_two_pow]
  have hp := Nat.two_pow_pos k
  rw [Nat.mod_eq_of_lt (show 2 ^ k - 1 < 2 ^ k by omega)]
  apply Nat.eq_of_testBit_eq
  intro i
  rw [Nat.testBit_or, Nat.testBit_two_pow_sub_one, Nat.testBit_mod_two_pow]
  by_cases h : i < k <;> simp [h]

/-- Flags and a base address without overlap. -/
theorem flags_or (f b k : Nat) (hf : f < 2 ^ k) (hb : b % 2 ^ k = 0) : f ||| b = b + f := by
  have : b = (b / 2 ^ k) <<< k := by
    rw [Nat.shiftLeft_eq]
    have := Nat.div_add_mod b (2 ^ k)
    rw [Nat.mul_comm]; omega
  rw [this, or_shift f _ k hf, Nat.shiftLeft_eq, Nat.add_comm]

/-- A window placed between the limits `lo` and `hi`; if its size is a power of two it is aligned. -/
def WinOk (lo hi : Lim) (w : Win) : Prop :=
  (∀ sp, lo sp ≤ hi sp) ∧ lo w.space ≤ w.base ∧ w.base + w.size ≤ hi w.space ∧ 0 < w.size ∧
    (∀ k, w.size = 2 ^ k → w.size ∣ w.base)

/-- Windows placed one after the other between `lo` and `hi`. -/
def laidW : Lim → Lim → List Win → Prop
  | lo, hi, [] => ∀ sp, lo sp ≤ hi sp
  | lo, hi, w :: ws => ∃ mid, WinOk lo mid w ∧ laidW mid hi ws

theorem laidW_le : ∀ (ws : List Win) (lo hi : Lim), laidW lo hi ws → ∀ sp, lo sp ≤ hi sp
  | [], _, _, h => h
  | _ :: ws, _, _, ⟨_, h1, h2⟩ => fun sp => Nat.le_trans (h1.1 sp) (laidW_le ws _ _ h2 sp)

theorem laidW_append : ∀ (xs ys : List Win) (lo mid hi : Lim), laidW lo mid xs → laidW mid hi ys →
    laidW lo hi (xs ++ ys)
  | [], [], _, _, _, h1, h2 => fun sp => Nat.le_trans (h1 sp) (h2 sp)
  | [], y :: ys, lo, mid, hi, h1, ⟨m, h2, h3⟩ =>
    ⟨m, ⟨fun sp => Nat.le_trans (h1 sp) (h2.1 sp), Nat.le_trans (h1 _) h2.2.1, h2.2.2⟩, h3⟩
  | x :: xs, ys, lo, mid, hi, ⟨m, h1, h2⟩, h3 => ⟨m, h1, laidW_append xs ys m mid hi h2 h3⟩

theorem laidW_mono (ws : List Win) (lo lo' hi hi' : Lim) (h : laidW lo hi ws) (h1 : ∀ sp, lo' sp ≤ lo sp)
    (h2 : ∀ sp, hi sp ≤ hi' sp) : laidW lo' hi' ws := by
  have a := laidW_append [] ws lo' lo hi h1 h
  have b := laidW_append ws [] lo' hi hi' a h2
  simpa using b

/-- Only the first `n` BARs are recorded. -/
def BarsUpTo (n : Nat) (ti : TreeInfo) : Prop :=
  ∃ pb ps : List (Option Nat), pb.length = n ∧ ps.length = n ∧ ti.bar = pb ++ List.replicate (6 - n) none ∧
    ti.bar_size = ps ++ List.replicate (6 - n) none

theorem set_repl (pre : List (Option Nat)) (n : Nat) (x : Option Nat) (hn : 0 < n) :
    (pre ++ List.replicate n none).set pre.length x = pre ++ x :: List.replicate (n - 1) none := by
  obtain ⟨n, rfl⟩ : ∃ m, n = m + 1 := ⟨n - 1, by omega⟩
  simp [List.replicate_succ]

theorem zip_none (n : Nat) : ((List.replicate n (none : Option Nat)).zip (List.replicate n none)).filterMap
    barWindow = [] := by
  induction n with
  | zero => rfl
  | succ n ih => simp [List.replicate_succ, barWindow, ih]

theorem ownWindows_upTo (ti : TreeInfo) (pb ps : List (Option Nat)) (n : Nat) (h : pb.length = ps.length)
    (h1 : ti.bar = pb ++ List.replicate n none) (h2 : ti.bar_size = ps ++ List.replicate n none) :
    ownWindows ti = (pb.zip ps).filterMap barWindow := by
  unfold ownWindows
  rw [h1, h2, List.zip_append h, List.filterMap_append, zip_none, List.append_nil]

theorem barsUpTo_skip (n : Nat) (ti : TreeInfo) (hn : n < 6) (h : BarsUpTo n ti) : BarsUpTo (n + 1) ti := by
  obtain ⟨pb, ps, h1, h2, h3, h4⟩ := h
  refine ⟨pb ++ [none], ps ++ [none], by simp [h1], by simp [h2], ?_, ?_⟩
  · rw [h3, show 6 - n = (6 - (n + 1)) + 1 by omega, List.replicate_succ]; simp
  · rw [h4, show 6 - n = (6 - (n + 1)) + 1 by omega, List.replicate_succ]; simp

theorem setBar_spec (n v size : Nat) (ti : TreeInfo) (hn : n < 6) (h : BarsUpTo n ti) :
    BarsUpTo (n + 1) (ti.setBar n v size) ∧
      ownWindows (ti.setBar n v size) = ownWindows ti ++ [⟨barSpace v, barAddress v, size⟩] := by
  obtain ⟨pb, ps, h1, h2, h3, h4⟩ := h
  have e1 : (ti.setBar n v size).bar = (pb ++ [some v]) ++ List.replicate (6 - (n + 1)) none := by
    show ti.bar.set n (some v) = _
    rw [h3]
    subst h1
    rw [set_repl _ _ _ (by omega)]; simp; omega
  have e2 : (ti.setBar n v size).bar_size = (ps ++ [some size]) ++ List.replicate (6 - (n + 1)) none := by
    show ti.bar_size.set n (some size) = _
    rw [h4]
    subst h2
    rw [set_repl _ _ _ (by omega)]; simp; omega
  refine ⟨⟨pb ++ [some v], ps ++ [some size], by simp [h1], by simp [h2], e1, e2⟩, ?_⟩
  rw [ownWindows_upTo _ _ _ _ (by simp [h1, h2]) e1 e2, ownWindows_upTo ti pb ps _ (by omega) h3 h4,
    List.zip_append (by omega), List.filterMap_append]
  rfl

/-- The fields not touched by BAR allocation. -/
def SameId (ti ti' : TreeInfo) : Prop :=
  ti'.bus_num = ti.bus_num ∧ ti'.device_num = ti.device_num ∧ ti'.function_num = ti.function_num ∧
    ti'.sec_bus_num = ti.sec_bus_num

theorem sameId_setBar (ti : TreeInfo) (n v s : Nat) : SameId ti (ti.setBar n v s) := ⟨rfl, rfl, rfl, rfl⟩

/-- What allocating one BAR does. -/
def AllocPost {σ} (s : Rc σ) (bar : Nat) (ti ti' : TreeInfo) (s' : Rc σ) (n : Nat) : Prop :=
  SameId ti ti' ∧ BarsUpTo (bar + n) ti' ∧ ∃ w, ownWindows ti' = ownWindows ti ++ [w] ∧ WinOk (limOf s) (limOf s') w

theorem testBit_flags (b f k i : Nat) (hi : i < k) (hb : b % 2 ^ k = 0) : (b + f).testBit i = f.testBit i := by
  have h1 : ((b + f) % 2 ^ k).testBit i = (b + f).testBit i := by simp [Nat.testBit_mod_two_pow, hi]
  have h2 : (f % 2 ^ k).testBit i = f.testBit i := by simp [Nat.testBit_mod_two_pow, hi]
  rw [← h1, ← h2, Nat.add_mod, hb, Nat.zero_add, Nat.mod_mod]

theorem mod_testBit (v k i : Nat) (h : i < k) : (v % 2 ^ k).testBit i = v.testBit i := by
  simp [Nat.testBit_mod_two_pow, h]

theorem and_bit (v i : Nat) : (v &&& 2 ^ i ≠ 0) ↔ v.testBit i = true := by
  have := and_one_shift_ne_zero v i
  rwa [Nat.one_shiftLeft] at this

theorem aligned_of_pow (lim mask k : Nat) (h : mask + 1 = 2 ^ k) : mask + 1 ∣ align lim mask := by
  have : mask = 2 ^ k - 1 := by omega
  rw [h, this]
  exact (align_spec lim k).2

theorem allocIoBar_post {σ} (bus : Bus σ) (ti : TreeInfo) (bar val : Nat) (s : Rc σ) (hb : bar < 6)
    (hu : BarsUpTo bar ti) (hv : val &&& 1 ≠ 0) :
    Post (allocIoBar bus ti bar val) s fun ti' s' => AllocPost s bar ti ti' s' 1 := by
  unfold allocIoBar
  refine Post.bind (Post.get ?_)
  refine Post.bind (Post.set ?_)
  refine Post.bind ((configWriteNum_keeps bus 4 _ _ _ _).mono fun _ s2 e2 => ?_)
  refine Post.pure ?_
  generalize hm : andNot 0xffffffff val ||| 3 = mask at *
  have hlow : align s.io_limit mask % 2 ^ 2 = 0 := align_low _ _ 2 (by rw [← hm]; exact or_low _ 2)
  have hval : val &&& 3 ||| align s.io_limit mask = align s.io_limit mask + val % 4 := by
    rw [and_3, flags_or _ _ 2 (Nat.mod_lt _ (by decide)) hlow]
  obtain ⟨h1, h2⟩ := setBar_spec bar (val &&& 3 ||| align s.io_limit mask) (mask + 1) ti hb hu
  refine ⟨sameId_setBar _ _ _ _, h1, _, h2, ?_⟩
  have hb0 : (val &&& 3 ||| align s.io_limit mask).testBit 0 = true := by
    rw [hval, testBit_flags _ _ 2 0 (by decide) hlow]
    exact (mod_testBit val 2 0 (by decide)).trans ((and_bit val 0).1 hv)
  have hsp : barSpace (val &&& 3 ||| align s.io_limit mask) = .io := by simp [barSpace, hb0]
  have hba : barAddress (val &&& 3 ||| align s.io_limit mask) = align s.io_limit mask := by
    rw [barAddress, if_pos hb0, hval]
    have : val % 4 < 4 := Nat.mod_lt _ (by decide)
    have : align s.io_limit mask % 4 = 0 := hlow
    omega
  have hge := align_ge s.io_limit mask
  rw [hsp, hba, WinOk, e2]
  refine ⟨?_, hge, Nat.le_refl _, by show 0 < mask + 1; omega, fun k hk => aligned_of_pow _ _ k hk⟩
  intro sp
  cases sp <;> simp only [limOf] <;> omega

theorem mem_flags (lim mask val : Nat) (hm : mask % 2 ^ 4 = 2 ^ 4 - 1) (h0 : val &&& 1 = 0) :
    barAddress ((val &&& 15) ||| align lim mask) = align lim mask ∧
      barSpace ((val &&& 15) ||| align lim mask) = if val &&& 4 ≠ 0 ∧ val &&& 8 ≠ 0 then .pref else .mem := by
  have hlow : align lim mask % 2 ^ 4 = 0 := align_low _ _ 4 hm
  have hval : val &&& 15 ||| align lim mask = align lim mask + val % 16 := by
    rw [and_15, flags_or _ _ 4 (Nat.mod_lt _ (by decide)) hlow]
  have hbit : ∀ i, i < 4 → (val &&& 15 ||| align lim mask).testBit i = val.testBit i := by
    intro i hi
    rw [hval, testBit_flags _ _ 4 i hi hlow]
    exact mod_testBit val 4 i hi
  have hb0 : val.testBit 0 = false := by
    cases h : val.testBit 0
    · rfl
    · exact absurd h0 ((and_bit val 0).2 h)
  constructor
  · rw [barAddress, hbit 0 (by decide), hb0, hval]
    have : val % 16 < 16 := Nat.mod_lt _ (by decide)
    have : align lim mask % 16 = 0 := hlow
    simp; omega
  · rw [barSpace, hbit 0 (by decide), hbit 2 (by decide), hbit 3 (by decide), hb0]
    have h2 := and_bit val 2
    have h3 := and_bit val 3
    simp only [Nat.reducePow] at h2 h3
    simp only [h2, h3]
    cases val.testBit 2 <;> cases val.testBit 3 <;> simp

theorem allocMem32Bar_post {σ} (bus : Bus σ) (ti : TreeInfo) (bar val : Nat) (s : Rc σ) (hb : bar < 6)
    (hu : BarsUpTo bar ti) (h0 : val &&& 1 = 0) (h4 : val &&& 4 = 0) :
    Post (allocMem32Bar bus ti bar val) s fun ti' s' => AllocPost s bar ti ti' s' 1 := by
  unfold allocMem32Bar
  refine Post.bind (Post.get ?_)
  refine Post.bind (Post.set ?_)
  refine Post.bind ((configWriteNum_keeps bus 4 _ _ _ _).mono fun _ s2 e2 => ?_)
  refine Post.pure ?_
  generalize hm : andNot 0xffffffff val ||| 15 = mask at *
  obtain ⟨hba, hsp⟩ := mem_flags s.mem_limit mask val (by rw [← hm]; exact or_low _ 4) h0
  rw [if_neg (by simp [h4])] at hsp
  obtain ⟨h1, h2⟩ := setBar_spec bar (val &&& 15 ||| align s.mem_limit mask) (mask + 1) ti hb hu
  refine ⟨sameId_setBar _ _ _ _, h1, _, h2, ?_⟩
  have hge := align_ge s.mem_limit mask
  rw [hsp, hba, WinOk, e2]
  refine ⟨?_, hge, Nat.le_refl _, by show 0 < mask + 1; omega, fun k hk => aligned_of_pow _ _ k hk⟩
  intro sp
  cases sp <;> simp only [limOf] <;> omega

theorem low_bits (v w i : Nat) (hi : i < 32) : ((v ||| w <<< 32) &&& 2 ^ i = 0) ↔ v &&& 2 ^ i = 0 := by
  have h1 := and_bit (v ||| w <<< 32) i
  have h2 := and_bit v i
  rw [Nat.testBit_or, Nat.testBit_shiftLeft] at h1
  simp [show ¬ (32 ≤ i) by omega] at h1
  constructor
  · intro h; exact Classical.byContradiction fun hn => (h1.2 (h2.1 hn)) h
  · intro h; exact Classical.byContradiction fun hn => (h2.2 (h1.1 hn)) h

theorem allocMem64Bar_post {σ} (bus : Bus σ) (ti : TreeInfo) (bar val : Nat) (s : Rc σ) (hb : bar < 5)
    (hu : BarsUpTo bar ti) (h0 : val &&& 1 = 0) (h4 : val &&& 4 ≠ 0) :
    Post (allocMem64Bar bus ti bar val) s fun ti' s' => AllocPost s bar ti ti' s' 2 := by
  unfold allocMem64Bar
  refine Post.bind ((configWriteNum_keeps bus 4 _ _ _ s).mono fun _ s1 e1 => ?_)
  refine Post.bind ((configReadNum_keeps bus 4 _ _ _ s1).mono fun val2 s2 e2 => ?_)
  have h0' : (val ||| val2 <<< 32) &&& 1 = 0 := (low_bits val val2 0 (by decide)).2 h0
  have h4' : (val ||| val2 <<< 32) &&& 4 ≠ 0 := fun h => h4 ((low_bits val val2 2 (by decide)).1 h)
  generalize val ||| val2 <<< 32 = v at *
  refine Post.bind (Post.get ?_)
  generalize hm : andNot 0xffffffffffffffff v ||| 15 = mask at *
  have hlm : mask % 2 ^ 4 = 2 ^ 4 - 1 := by rw [← hm]; exact or_low _ 4
  have finish : ∀ (s3 : Rc σ) (base lim : Nat), base = align lim mask →
      WinOk (limOf s2) (limOf s3) ⟨if v &&& 4 ≠ 0 ∧ v &&& 8 ≠ 0 then .pref else .mem, base, mask + 1⟩ →
      Post (do
        configWriteNum bus 4 ti.id (0x10 + bar * 4) (((v &&& 15) ||| base) &&& 0xffffffff)
        configWriteNum bus 4 ti.id (0x10 + (bar + 1) * 4) ((((v &&& 15) ||| base) >>> 32) &&& 0xffffffff)
        pure (ti.setBar bar ((v &&& 15) ||| base) (mask + 1))) s3 (fun ti' s' => AllocPost s bar ti ti' s' 2) := by
    intro s3 base lim hbase hw
    refine Post.bind ((configWriteNum_keeps bus 4 _ _ _ s3).mono fun _ s4 e4 => ?_)
    refine Post.bind ((configWriteNum_keeps bus 4 _ _ _ s4).mono fun _ s5 e5 => ?_)
    refine Post.pure ?_
    obtain ⟨hba, hsp⟩ := mem_flags lim mask v hlm h0'
    rw [← hbase] at hba hsp
    obtain ⟨h1, h2⟩ := setBar_spec bar (v &&& 15 ||| base) (mask + 1) ti (by omega) hu
    refine ⟨sameId_setBar _ _ _ _, barsUpTo_skip _ _ (by omega) h1, _, h2, ?_⟩
    rw [hba, hsp, e5, e4, ← e1, ← e2]
    exact hw
  dsimp only
  split
  · rename_i h8
    refine Post.bind (Post.set ?_)
    refine finish _ _ _ rfl ?_
    rw [if_pos ⟨h4', h8⟩]
    have hge := align_ge s2.prefetchable_mem_limit mask
    refine ⟨?_, hge, Nat.le_refl _, by show 0 < mask + 1; omega, fun k hk => aligned_of_pow _ _ k hk⟩
    intro sp
    cases sp <;> simp only [limOf] <;> omega
  · rename_i h8
    refine Post.bind (Post.set ?_)
    refine finish _ _ _ rfl ?_
    rw [if_neg (fun h => h8 h.2)]
    have hge := align_ge s2.mem_limit mask
    refine ⟨?_, hge, Nat.le_refl _, by show 0 < mask + 1; omega, fun k hk => aligned_of_pow _ _ k hk⟩
    intro sp
    cases sp <;> simp only [limOf] <;> omega

theorem configureBars_post {σ} (bus : Bus σ) (bar_cnt : Nat) (hc : bar_cnt ≤ 6) (k : Nat) :
    ∀ (bar : Nat) (ti : TreeInfo) (s : Rc σ), bar ≤ 6 → BarsUpTo bar ti →
    Post (configureBars bus bar_cnt k bar ti) s fun ti' s' =>
      SameId ti ti' ∧ ∃ ws, ownWindows ti' = ownWindows ti ++ ws ∧ laidW (limOf s) (limOf s') ws := by
  induction k with
  | zero =>
    intro bar ti s hb hu
    exact Post.pure ⟨⟨rfl, rfl, rfl, rfl⟩, [], by simp, fun _ => Nat.le_refl _⟩
  | succ k ih =>
    intro bar ti s hb hu
    rw [configureBars]
    split
    · exact Post.pure ⟨⟨rfl, rfl, rfl, rfl⟩, [], by simp, fun _ => Nat.le_refl _⟩
    refine Post.bind ((configWriteNum_keeps bus 4 _ _ _ s).mono fun _ s1 e1 => ?_)
    refine Post.bind ((configReadNum_keeps bus 4 _ _ _ s1).mono fun val s2 e2 => ?_)
    have e12 : limOf s2 = limOf s := by rw [e2, e1]
    have chain : ∀ (ti1 : TreeInfo) (s3 : Rc σ) (n : Nat), bar + n ≤ 6 → AllocPost s2 bar ti ti1 s3 n →
        Post (configureBars bus bar_cnt k (bar + n) ti1) s3 fun ti' s' =>
          SameId ti ti' ∧ ∃ ws, ownWindows ti' = ownWindows ti ++ ws ∧ laidW (limOf s) (limOf s') ws := by
      intro ti1 s3 n hn ⟨hid, hup, w, hw, hok⟩
      refine (ih (bar + n) ti1 s3 hn hup).mono fun ti' s' ⟨hid', ws, h1, h2⟩ => ?_
      refine ⟨⟨hid'.1.trans hid.1, hid'.2.1.trans hid.2.1, hid'.2.2.1.trans hid.2.2.1, hid'.2.2.2.trans hid.2.2.2⟩,
        w :: ws, by rw [h1, hw]; simp, ⟨limOf s3, by rw [← e12]; exact hok, h2⟩⟩
    split
    · refine (ih (bar + 1) ti s2 (by omega) (barsUpTo_skip _ _ (by omega) hu)).mono fun ti' s' h => ?_
      rw [e12] at h
      exact h
    split
    · rename_i h1
      exact Post.bind ((allocIoBar_post bus ti bar val s2 (by omega) hu h1).mono fun ti1 s3 h =>
        chain ti1 s3 1 (by omega) h)
    rename_i h0
    have h0 : val &&& 1 = 0 := Classical.byContradiction h0
    split
    · rename_i h4
      split
      · exact Post.fail
      · exact Post.bind ((allocMem64Bar_post bus ti bar val s2 (by omega) hu h0 h4).mono fun ti1 s3 h =>
          chain ti1 s3 2 (by omega) h)
    · rename_i h4
      have h4 : val &&& 4 = 0 := Classical.byContradiction h4
      exact Post.bind ((allocMem32Bar_post bus ti bar val s2 (by omega) hu h0 h4).mono fun ti1 s3 h =>
        chain ti1 s3 1 (by omega) h)

end Verif.Proofs
