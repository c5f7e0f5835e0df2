import Verif.Proofs.EnumBars
/-! Enumeration: the invariant of the tree. -/
namespace Verif.Proofs
open Verif Verif.Model Verif.Spec

def leL (a b : Lim) : Prop := ∀ sp, a sp ≤ b sp

theorem leL.trans {a b c : Lim} (h : leL a b) (h' : leL b c) : leL a c := fun sp => Nat.le_trans (h sp) (h' sp)
theorem leL.refl (a : Lim) : leL a a := fun _ => Nat.le_refl _

/-- First address after the range of a bridge. -/
def winEnd (ti : TreeInfo) : Lim := fun sp => winLimit ti sp + 1

mutual
/-- Everything of the item is placed between `lo` and `hi`, first its own BARs, then the range of its
secondary bus. -/
def laidItem (lo hi : Lim) : TreeItem → Prop
  | .mk ti cs => ∃ mid, laidW lo mid (ownWindows ti) ∧
      ((ti.sec_bus_num = 0 ∧ cs = [] ∧ leL mid hi) ∨
        (ti.sec_bus_num ≠ 0 ∧ leL mid (winBase ti) ∧ laidList (winBase ti) (winEnd ti) cs ∧ leL (winEnd ti) hi ∧
          WinAligned ti))
/-- The items are placed one after the other between `lo` and `hi`. -/
def laidList (lo hi : Lim) : List TreeItem → Prop
  | [] => leL lo hi
  | c :: cs => ∃ mid, laidItem lo mid c ∧ laidList mid hi cs
end

mutual
/-- The item is on bus `pri`, and the buses behind it are those above `lo` up to `hi`. -/
def busItem (pri lo hi : Nat) : TreeItem → Prop
  | .mk ti cs => ti.bus_num = pri ∧
      ((ti.sec_bus_num = 0 ∧ cs = [] ∧ hi = lo) ∨
        (ti.sec_bus_num = lo + 1 ∧ ti.sub_bus_num = hi ∧ busList (lo + 1) (lo + 1) hi cs))
/-- The items are on bus `pri`, and the buses behind them are those above `lo` up to `hi`. -/
def busList (pri lo hi : Nat) : List TreeItem → Prop
  | [] => hi = lo
  | c :: cs => ∃ mid, busItem pri lo mid c ∧ busList pri mid hi cs
end

/-- Position of a function on its bus. -/
def devfn (t : TreeItem) : Nat := t.info.device_num * 8 + t.info.function_num

mutual
/-- On every bus the functions are found in ascending order. -/
def ascItem : TreeItem → Prop
  | .mk _ cs => (cs.map devfn).Pairwise (· < ·) ∧ (∀ c ∈ cs, c.info.device_num < 32 ∧ c.info.function_num < 8) ∧ ascList cs
/-- `ascItem` for all items of a list. -/
def ascList : List TreeItem → Prop
  | [] => True
  | c :: cs => ascItem c ∧ ascList cs
end

theorem laidList_snoc (cs : List TreeItem) (c : TreeItem) (mid hi : Lim) :
    ∀ lo, laidList lo mid cs → laidItem mid hi c → laidList lo hi (cs ++ [c]) := by
  induction cs with
  | nil =>
    intro lo h1 h2
    rw [laidList] at h1
    refine ⟨hi, ?_, leL.refl _⟩
    cases c with
    | mk ti cs =>
      rw [laidItem] at h2 ⊢
      obtain ⟨m, a, b⟩ := h2
      exact ⟨m, laidW_mono _ _ _ _ _ a h1 (leL.refl _), b⟩
  | cons x xs ih =>
    intro lo h1 h2
    rw [laidList] at h1
    obtain ⟨m, a, b⟩ := h1
    rw [List.cons_append, laidList]
    exact ⟨m, a, ih m b h2⟩

mutual
theorem laidItem_le : ∀ (t : TreeItem) (lo hi : Lim), laidItem lo hi t → leL lo hi
  | .mk ti cs, lo, hi, h => by
    rw [laidItem] at h
    obtain ⟨mid, h1, h2⟩ := h
    have h1 : leL lo mid := laidW_le _ _ _ h1
    rcases h2 with ⟨_, _, h⟩ | ⟨_, h2, h3, h4, _⟩
    · exact h1.trans h
    · exact ((h1.trans h2).trans (laidList_le cs _ _ h3)).trans h4
theorem laidList_le : ∀ (cs : List TreeItem) (lo hi : Lim), laidList lo hi cs → leL lo hi
  | [], lo, hi, h => by rw [laidList] at h; exact h
  | c :: cs, lo, hi, h => by
    rw [laidList] at h
    obtain ⟨mid, h1, h2⟩ := h
    exact (laidItem_le c _ _ h1).trans (laidList_le cs _ _ h2)
end

theorem laidW_mid (ws : List Win) (lo hi : Lim) (h : laidW lo hi ws) : leL lo hi := laidW_le ws lo hi h

theorem laidList_mono_hi (cs : List TreeItem) (hi hi' : Lim) (hh : leL hi hi') :
    ∀ lo, laidList lo hi cs → laidList lo hi' cs := by
  induction cs with
  | nil => intro lo h; rw [laidList] at h ⊢; exact h.trans hh
  | cons x xs ih =>
    intro lo h
    rw [laidList] at h ⊢
    obtain ⟨m, a, b⟩ := h
    exact ⟨m, a, ih m b⟩

theorem busList_snoc (pri : Nat) (cs : List TreeItem) (c : TreeItem) (mid hi : Nat) :
    ∀ lo, busList pri lo mid cs → busItem pri mid hi c → busList pri lo hi (cs ++ [c]) := by
  induction cs with
  | nil =>
    intro lo h1 h2
    rw [busList] at h1
    subst h1
    rw [List.nil_append, busList]
    exact ⟨hi, h2, by rw [busList]⟩
  | cons x xs ih =>
    intro lo h1 h2
    rw [busList] at h1
    obtain ⟨m, a, b⟩ := h1
    rw [List.cons_append, busList]
    exact ⟨m, a, ih m b h2⟩

theorem ascList_append (xs ys : List TreeItem) : ascList (xs ++ ys) ↔ ascList xs ∧ ascList ys := by
  induction xs with
  | nil => simp [ascList]
  | cons x xs ih => simp [ascList, ih, and_assoc]

/-! ### One function -/

theorem alignLimits_post {σ} (s : Rc σ) : Post (alignLimits : Sim σ Unit) s fun _ s' =>
    leL (limOf s) (limOf s') ∧ 2 ^ 12 ∣ limOf s' .io ∧ 2 ^ 20 ∣ limOf s' .mem ∧ 2 ^ 20 ∣ limOf s' .pref := by
  refine Post.modify ⟨?_, (align_spec _ 12).2, (align_spec _ 20).2, (align_spec _ 20).2⟩
  intro sp
  cases sp <;> exact align_ge _ _

theorem ownWindows_none (ti : TreeInfo) (h : ti.bar = List.replicate 6 none)
    (h' : ti.bar_size = List.replicate 6 none) : ownWindows ti = [] := by
  rw [ownWindows_upTo ti [] [] 6 rfl (by simpa using h) (by simpa using h')]
  rfl

theorem setupMsi_post {σ} (bus : Bus σ) (opts : EnumOpts) (ti : TreeInfo) (s : Rc σ) :
    Post (setupMsi bus opts ti) s fun ti' s' => limOf s' = limOf s ∧ SameBars ti ti' := by
  unfold setupMsi
  split
  · exact configureMsi_post bus ti s
  · exact Post.pure ⟨rfl, rfl, rfl, rfl, rfl, rfl, rfl⟩

theorem setupFunction_post {σ} (bus : Bus σ) (opts : EnumOpts) (b d f : Nat) (val : List UInt8) (s : Rc σ) :
    Post (setupFunction bus opts b d f val) s fun r s' =>
      r.1.bus_num = b ∧ r.1.device_num = d ∧ r.1.function_num = f ∧ r.1.sec_bus_num = 0 ∧
        laidW (limOf s) (limOf s') (ownWindows r.1) := by
  unfold setupFunction
  refine Post.bind ((configReadNum_keeps bus 1 _ _ _ s).mono fun ht s1 e1 => ?_)
  have hcnt : (if decide (ht &&& 0x7f = 1) = true then 2 else 6) ≤ 6 := by split <;> decide
  refine Post.bind ((configureBars_post bus _ hcnt _ 0 _ s1 (by decide) ⟨[], [], rfl, rfl, rfl, rfl⟩).mono
    fun ti s2 ⟨hid, ws, hw, hl⟩ => ?_)
  have hw : ownWindows ti = ws := hw.trans (congrArg (· ++ ws) (ownWindows_none _ rfl rfl))
  refine Post.bind ((configReadNum_keeps bus 1 _ _ _ s2).mono fun ptr s3 e3 => ?_)
  refine Post.bind ((walkCaps_keeps bus _ _ _ s3).mono fun caps s4 e4 => ?_)
  refine Post.bind ((setupDeviceControl_keeps bus _ s4).mono fun _ s5 e5 => ?_)
  refine Post.bind ((enableBusMaster_keeps bus opts _ s5).mono fun _ s6 e6 => ?_)
  refine Post.bind ((setupMsi_post bus opts _ s6).mono fun ti' s7 ⟨e7, hb⟩ => ?_)
  refine Post.pure ⟨hb.2.2.1.trans hid.1, hb.2.2.2.1.trans hid.2.1, hb.2.2.2.2.1.trans hid.2.2.1,
    hb.2.2.2.2.2.trans hid.2.2.2, ?_⟩
  have : ownWindows ti' = ws := by
    rw [← hw]
    unfold ownWindows
    rw [hb.1, hb.2.1]
  dsimp only
  rw [this, e7, e6, e5, e4, e3, ← e1]
  exact hl

/-- Result of enumerating bus `b` for the item `ti0`. -/
def SegPost {σ} (s : Rc σ) (b : Nat) (ti0 : TreeInfo) (item : TreeItem) (s' : Rc σ) : Prop :=
  ∃ ti cs, item = .mk ti cs ∧ ti.bus_num = ti0.bus_num ∧ ti.device_num = ti0.device_num ∧
    ti.function_num = ti0.function_num ∧ ownWindows ti = ownWindows ti0 ∧ ti.sec_bus_num = b ∧
    leL (limOf s) (winBase ti) ∧ laidList (winBase ti) (winEnd ti) cs ∧ limOf s' = winEnd ti ∧
    busList b b ti.sub_bus_num cs ∧ ascItem item ∧ (b = 0 → ∀ c ∈ cs, 8 ≤ devfn c) ∧
    WinAligned ti ∧ ti.sub_bus_num < 256

/-- Progress of the enumeration of bus `b`: the first function of the bus not yet looked at is `pos`. -/
structure SegInv {σ} (b : Nat) (base : Lim) (pos : Nat) (st : SegState) (s : Rc σ) : Prop where
  laid : laidList base (limOf s) st.children
  bus : busList b b st.sub_bus st.children
  sec : st.sec_bus = st.sub_bus + 1
  asc : (st.children.map devfn).Pairwise (· < ·)
  rng : ∀ c ∈ st.children, c.info.device_num < 32 ∧ c.info.function_num < 8
  sub : ascList st.children
  below : ∀ c ∈ st.children, devfn c < pos
  pos : ∀ sp, 0 < limOf s sp
  first : b = 0 → ∀ c ∈ st.children, 8 ≤ devfn c
  small : st.sub_bus < 256

theorem SegInv.next {σ} {b : Nat} {base : Lim} {p : Nat} {st : SegState} {s : Rc σ} (h : SegInv b base p st s)
    (p' : Nat) (hp : p ≤ p') (s' : Rc σ) (e : limOf s' = limOf s) : SegInv b base p' st s' :=
  ⟨by rw [e]; exact h.laid, h.bus, h.sec, h.asc, h.rng, h.sub, fun c hc => Nat.lt_of_lt_of_le (h.below c hc) hp,
    by rw [e]; exact h.pos, h.first, h.small⟩

theorem SegInv.append {σ} {b : Nat} {base : Lim} {p : Nat} {st : SegState} {s : Rc σ} (h : SegInv b base p st s)
    (c : TreeItem) (s' : Rc σ) (sub : Nat) (hd : c.info.device_num < 32) (hf : c.info.function_num < 8)
    (hp : devfn c = p) (hl : laidItem (limOf s) (limOf s') c) (hle : leL (limOf s) (limOf s'))
    (hb : busItem b st.sub_bus sub c) (ha : ascItem c) (h8 : b = 0 → 8 ≤ p)
    (hs : sub < 256) :
    SegInv b base (p + 1) { sec_bus := sub + 1, sub_bus := sub, children := st.children ++ [c] } s' := by
  refine ⟨laidList_snoc _ _ _ _ _ h.laid hl, busList_snoc _ _ _ _ _ _ h.bus hb, rfl, ?_, ?_, ?_, ?_, ?_, ?_, hs⟩
  · simp only [List.map_append, List.pairwise_append, List.map_cons, List.map_nil]
    refine ⟨h.asc, by simp, ?_⟩
    intro x hx y hy
    simp only [List.mem_singleton] at hy
    obtain ⟨z, hz, rfl⟩ := List.mem_map.1 hx
    rw [hy, hp]
    exact h.below z hz
  · intro x hx
    rcases List.mem_append.1 hx with hx | hx
    · exact h.rng x hx
    · simp only [List.mem_singleton] at hx; subst hx; exact ⟨hd, hf⟩
  · rw [ascList_append]
    exact ⟨h.sub, by rw [ascList, ascList]; exact ⟨ha, trivial⟩⟩
  · intro x hx
    rcases List.mem_append.1 hx with hx | hx
    · have := h.below x hx; omega
    · simp only [List.mem_singleton] at hx; subst hx; omega
  · intro sp
    exact Nat.lt_of_lt_of_le (h.pos sp) (hle sp)
  · intro h0 x hx
    rcases List.mem_append.1 hx with hx | hx
    · exact h.first h0 x hx
    · simp only [List.mem_singleton] at hx; subst hx; have := h8 h0; omega

theorem toBytes_lt (w v : Nat) (x : List UInt8) (h : toBytes w v = some x) : v < 256 ^ w := by
  unfold toBytes at h
  split at h
  · assumption
  · cases h

theorem busBytes_lt (pri sec sub : Nat) (x : List UInt8) (h : busBytes pri sec sub = some x) : sec < 256 ∧ sub < 256 := by
  unfold busBytes at h
  cases ha : toBytes 1 pri with
  | none => rw [ha] at h; cases h
  | some a =>
    cases hb : toBytes 1 sec with
    | none => rw [ha, hb] at h; cases h
    | some b =>
      cases hc : toBytes 1 sub with
      | none => rw [ha, hb, hc] at h; cases h
      | some c => exact ⟨toBytes_lt 1 _ _ hb, toBytes_lt 1 _ _ hc⟩

theorem enumFunction_post {σ} (bus : Bus σ) (opts : EnumOpts) (rec : Nat → TreeInfo → Sim σ TreeItem)
    (hrec : ∀ b ti s, b < 256 → (∀ sp, 0 < limOf s sp) → Post (rec b ti) s fun item s' => SegPost s b ti item s')
    (b d f : Nat) (hbd : ¬ (b = 0 ∧ d = 0)) (hd : d < 32) (hf : f < 8) (base : Lim) (st : SegState) (s : Rc σ)
    (hi : SegInv b base (d * 8 + f) st s) :
    Post (enumFunction bus opts rec b d f st) s fun st' s' => SegInv b base (d * 8 + f + 1) st' s' := by
  unfold enumFunction
  refine Post.bind ((configRead_keeps bus _ _ _ _ s).mono fun val s1 e1 => ?_)
  split
  · exact Post.pure (hi.next _ (by omega) s1 e1)
  refine Post.bind ((setupFunction_post bus opts b d f val s1).mono fun r s2 h => ?_)
  obtain ⟨ti, bridge⟩ := r
  obtain ⟨h1, h2, h3, h4, hl⟩ := h
  dsimp only at h1 h2 h3 h4 hl ⊢
  rw [e1] at hl
  have hle : leL (limOf s) (limOf s2) := laidW_le _ _ _ hl
  have hsub := hi.sec
  split
  · refine Post.bind (Post.ofOption fun _ hbb => ?_)
    refine Post.bind ((configWrite_keeps bus _ _ _ s2).mono fun _ s3 e3 => ?_)
    refine Post.bind ((hrec st.sec_bus ti s3 (busBytes_lt _ _ _ _ hbb).1 fun sp => by rw [e3]; exact Nat.lt_of_lt_of_le (hi.pos sp) (hle sp)).mono
      fun item s4 h => ?_)
    obtain ⟨ti', cs, rfl, g1, g2, g3, g4, g5, g6, g7, g8, g9, g10, -, g11, g12⟩ := h
    refine Post.bind (Post.ofOption fun _ _ => ?_)
    refine Post.bind ((configWrite_keeps bus _ _ _ s4).mono fun _ s5 e5 => ?_)
    refine Post.bind ((setupWindows_keeps bus _ s5).mono fun _ s6 e6 => ?_)
    refine Post.pure ?_
    have e64 : limOf s6 = winEnd ti' := by rw [e6, e5, g8]
    have hwe : leL (winBase ti') (winEnd ti') := laidList_le _ _ _ g7
    refine hi.append (.mk ti' cs) s6 ti'.sub_bus_num ?_ ?_ ?_ ?_ ?_ ?_ g10 (by omega) g12
    · show ti'.device_num < 32; omega
    · show ti'.function_num < 8; omega
    · show ti'.device_num * 8 + ti'.function_num = _; omega
    · rw [laidItem, g4]
      refine ⟨limOf s2, hl, Or.inr ⟨by omega, ?_, g7, by rw [e64]; exact leL.refl _, g11⟩⟩
      rw [← e3]; exact g6
    · rw [e64]
      rw [e3] at g6
      exact (hle.trans g6).trans hwe
    · rw [busItem]
      refine ⟨by omega, Or.inr ⟨by omega, rfl, ?_⟩⟩
      rw [← hsub]; exact g9
  · refine Post.pure ?_
    have := hi.append (.mk ti []) s2 st.sub_bus (by show ti.device_num < 32; omega) (by show ti.function_num < 8; omega)
      (by show ti.device_num * 8 + ti.function_num = _; omega)
      (by rw [laidItem]; exact ⟨_, hl, Or.inl ⟨h4, rfl, leL.refl _⟩⟩) hle
      (by rw [busItem]; exact ⟨h1, Or.inl ⟨h4, rfl, rfl⟩⟩) (by rw [ascItem]; simp [ascList]) (by omega) hi.small
    rw [← hsub] at this
    exact this

theorem enumFunctions_post {σ} (bus : Bus σ) (opts : EnumOpts) (rec : Nat → TreeInfo → Sim σ TreeItem)
    (hrec : ∀ b ti s, b < 256 → (∀ sp, 0 < limOf s sp) → Post (rec b ti) s fun item s' => SegPost s b ti item s')
    (b d : Nat) (hbd : ¬ (b = 0 ∧ d = 0)) (hd : d < 32) (base : Lim) (n : Nat) :
    ∀ (f : Nat) (st : SegState) (s : Rc σ), f + n ≤ 8 → SegInv b base (d * 8 + f) st s →
    Post (enumFunctions bus opts rec b d (List.range' f n) st) s fun st' s' => SegInv b base (d * 8 + 8) st' s' := by
  induction n with
  | zero =>
    intro f st s hf hi
    exact Post.pure (hi.next _ (by omega) s rfl)
  | succ n ih =>
    intro f st s hf hi
    rw [List.range'_succ, enumFunctions]
    refine Post.bind ((enumFunction_post bus opts rec hrec b d f hbd hd (by omega) base st s hi).mono fun st' s' h => ?_)
    exact ih (f + 1) st' s' (by omega) h

theorem enumDevices_post {σ} (bus : Bus σ) (opts : EnumOpts) (rec : Nat → TreeInfo → Sim σ TreeItem)
    (hrec : ∀ b ti s, b < 256 → (∀ sp, 0 < limOf s sp) → Post (rec b ti) s fun item s' => SegPost s b ti item s')
    (b : Nat) (base : Lim) (n : Nat) :
    ∀ (d : Nat) (st : SegState) (s : Rc σ), d + n ≤ 32 → SegInv b base (d * 8) st s →
    Post (enumDevices bus opts rec b (List.range' d n) st) s fun st' s' => SegInv b base 256 st' s' := by
  induction n with
  | zero =>
    intro d st s hd hi
    exact Post.pure (hi.next _ (by omega) s rfl)
  | succ n ih =>
    intro d st s hd hi
    rw [List.range'_succ, enumDevices]
    split
    · exact ih (d + 1) st s (by omega) (hi.next _ (by omega) s rfl)
    rename_i hbd
    refine Post.bind ((configReadNum_keeps bus 4 _ _ _ s).mono fun val s1 e1 => ?_)
    split
    · exact ih (d + 1) st s1 (by omega) (hi.next _ (by omega) s1 e1)
    refine Post.bind ((configReadNum_keeps bus 1 _ _ _ s1).mono fun ht s2 e2 => ?_)
    have hn : (if ht &&& 0x80 ≠ 0 then 8 else 1) ≤ 8 := by split <;> decide
    rw [List.range_eq_range']
    refine Post.bind ((enumFunctions_post bus opts rec hrec b d hbd (by omega) base _ 0 st s2 (by omega)
      (hi.next _ (by omega) s2 (e2.trans e1))).mono fun st' s' h => ?_)
    exact ih (d + 1) st' s' (by omega) (h.next _ (by omega) s' rfl)

theorem enumSegment_post {σ} (bus : Bus σ) (opts : EnumOpts) (k : Nat) :
    ∀ (b : Nat) (ti : TreeInfo) (s : Rc σ), b < 256 → (∀ sp, 0 < limOf s sp) →
    Post (enumSegment bus opts k b ti) s fun item s' => SegPost s b ti item s' := by
  induction k with
  | zero => intro b ti s _ _; exact Post.fail
  | succ k ih =>
    intro b ti s hb hs
    rw [enumSegment]
    refine Post.bind ((alignLimits_post s).mono fun _ s1 ⟨h1, a1, a2, a3⟩ => ?_)
    refine Post.bind (Post.get ?_)
    rw [List.range_eq_range']
    refine Post.bind ((enumDevices_post bus opts (enumSegment bus opts k) ih b (limOf s1) 32 0 _ s1 (by decide)
      ⟨by rw [laidList]; exact leL.refl _, by rw [busList], rfl, by simp, by simp, by simp [ascList], by simp,
        fun sp => Nat.lt_of_lt_of_le (hs sp) (h1 sp), by simp, hb⟩).mono fun st s2 hi => ?_)
    refine Post.bind ((alignLimits_post s2).mono fun _ s3 ⟨h3, b1, b2, b3⟩ => ?_)
    refine Post.bind (Post.get ?_)
    refine Post.pure ?_
    have hpos : ∀ sp, 0 < limOf s3 sp := fun sp => Nat.lt_of_lt_of_le (hi.pos sp) (h3 sp)
    have hbase : ∀ ti : TreeInfo, ti.io_base = s1.io_limit → ti.mem_base = s1.mem_limit →
        ti.prefetchable_mem_base = s1.prefetchable_mem_limit → winBase ti = limOf s1 := by
      intro ti x y z; funext sp; cases sp <;> assumption
    have hend : ∀ ti : TreeInfo, ti.io_limit = s3.io_limit - 1 → ti.mem_limit = s3.mem_limit - 1 →
        ti.prefetchable_mem_limit = s3.prefetchable_mem_limit - 1 → winEnd ti = limOf s3 := by
      intro ti x y z; funext sp
      have := hpos sp
      cases sp <;> simp only [winEnd, winLimit, limOf] at * <;> omega
    refine ⟨_, _, rfl, rfl, rfl, rfl, rfl, rfl, ?_⟩
    rw [hbase _ rfl rfl rfl, hend _ rfl rfl rfl]
    refine ⟨h1, laidList_mono_hi _ _ _ h3 _ hi.laid, rfl, hi.bus, ?_, hi.first, ?_, hi.small⟩
    · rw [ascItem]
      exact ⟨hi.asc, hi.rng, hi.sub⟩
    · unfold WinAligned
      rw [hbase _ rfl rfl rfl]
      have := hend { ti with
        sec_bus_num := b, io_base := s1.io_limit, mem_base := s1.mem_limit
        prefetchable_mem_base := s1.prefetchable_mem_limit
        sub_bus_num := st.sub_bus, io_limit := s3.io_limit - 1, mem_limit := s3.mem_limit - 1
        prefetchable_mem_limit := s3.prefetchable_mem_limit - 1 } rfl rfl rfl
      have c := fun sp => congrFun this sp
      unfold winEnd at c
      rw [c, c, c]
      exact ⟨a1, a2, a3, b1, b2, b3⟩

/-! ### Consequences -/

mutual
theorem laidItem_windows : ∀ (t : TreeItem) (lo hi : Lim), laidItem lo hi t → laidW lo hi (windows t)
  | .mk ti cs, lo, hi, h => by
    rw [laidItem] at h
    obtain ⟨mid, h1, h2⟩ := h
    rw [windows]
    rcases h2 with ⟨_, rfl, h⟩ | ⟨_, h2, h3, h4, _⟩
    · exact laidW_append _ _ _ _ _ h1 h
    · exact laidW_append _ _ _ _ _ h1 (laidW_mono _ _ _ _ _ (laidList_windows cs _ _ h3) h2 h4)
theorem laidList_windows : ∀ (cs : List TreeItem) (lo hi : Lim), laidList lo hi cs → laidW lo hi (windowsBelow cs)
  | [], lo, hi, h => by rw [laidList] at h; exact h
  | c :: cs, lo, hi, h => by
    rw [laidList] at h
    obtain ⟨mid, h1, h2⟩ := h
    rw [windowsBelow]
    exact laidW_append _ _ _ _ _ (laidItem_windows c _ _ h1) (laidList_windows cs _ _ h2)
end

theorem laidW_mem (ws : List Win) : ∀ (lo hi : Lim), laidW lo hi ws → ∀ w ∈ ws,
    lo w.space ≤ w.base ∧ w.base + w.size ≤ hi w.space ∧ 0 < w.size ∧ ∀ k, w.size = 2 ^ k → w.size ∣ w.base := by
  induction ws with
  | nil => intro _ _ _ w hw; cases hw
  | cons v vs ih =>
    intro lo hi ⟨mid, h1, h2⟩ w hw
    have hle := laidW_le _ _ _ h2
    rcases List.mem_cons.1 hw with rfl | hw
    · exact ⟨h1.2.1, Nat.le_trans h1.2.2.1 (hle _), h1.2.2.2⟩
    · obtain ⟨a, b⟩ := ih _ _ h2 w hw
      exact ⟨Nat.le_trans (h1.1 _) a, b⟩

theorem laidW_disjoint (ws : List Win) : ∀ (lo hi : Lim), laidW lo hi ws → ws.Pairwise Win.disjoint := by
  induction ws with
  | nil => intros; exact .nil
  | cons v vs ih =>
    intro lo hi ⟨mid, h1, h2⟩
    refine .cons (fun w hw => ?_) (ih _ _ h2)
    by_cases e : v.space = w.space
    · exact Or.inr (Or.inl (Nat.le_trans h1.2.2.1 (e ▸ (laidW_mem _ _ _ h2 w hw).1)))
    · exact Or.inl e

/-- The BARs before, behind and after a bridge. -/
def Nested (n : TreeItem) (lo hi : Lim) (ws : List Win) : Prop :=
  ∃ pre post, ws = pre ++ windowsBelow n.children ++ post ∧ laidW lo (winBase n.info) pre ∧
    laidList (winBase n.info) (winEnd n.info) n.children ∧ laidW (winEnd n.info) hi post ∧ WinAligned n.info

mutual
theorem laidItem_nested : ∀ (t n : TreeItem) (lo hi : Lim), laidItem lo hi t → n ∈ nodes t → isBridge n →
    Nested n lo hi (windows t)
  | .mk ti cs, n, lo, hi, h, hn, hb => by
    rw [laidItem] at h
    obtain ⟨mid, h1, h2⟩ := h
    rw [nodes] at hn
    rw [windows]
    rcases h2 with ⟨h0, rfl, h⟩ | ⟨_, h2, h3, h4, h5⟩
    · rcases List.mem_cons.1 hn with rfl | hn
      · exact absurd h0 hb
      · simp [nodesBelow] at hn
    · rcases List.mem_cons.1 hn with rfl | hn
      · exact ⟨ownWindows ti, [], by simp [TreeItem.children], laidW_mono _ _ _ _ _ h1 (leL.refl _) h2, h3, h4, h5⟩
      · obtain ⟨pre, post, e, a, b, c, d⟩ := laidList_nested cs n _ _ h3 hn hb
        refine ⟨ownWindows ti ++ pre, post, by rw [e]; simp, ?_, b, laidW_mono _ _ _ _ _ c (leL.refl _) h4, d⟩
        exact laidW_append _ _ _ _ _ h1 (laidW_mono _ _ _ _ _ a h2 (leL.refl _))
theorem laidList_nested : ∀ (cs : List TreeItem) (n : TreeItem) (lo hi : Lim), laidList lo hi cs →
    n ∈ nodesBelow cs → isBridge n → Nested n lo hi (windowsBelow cs)
  | [], n, lo, hi, h, hn, hb => by simp [nodesBelow] at hn
  | c :: cs, n, lo, hi, h, hn, hb => by
    rw [laidList] at h
    obtain ⟨mid, h1, h2⟩ := h
    rw [windowsBelow]
    rw [nodesBelow] at hn
    rcases List.mem_append.1 hn with hn | hn
    · obtain ⟨pre, post, e, a, b, d, f⟩ := laidItem_nested c n _ _ h1 hn hb
      exact ⟨pre, post ++ windowsBelow cs, by rw [e]; simp, a, b,
        laidW_append _ _ _ _ _ d (laidList_windows cs _ _ h2), f⟩
    · obtain ⟨pre, post, e, a, b, d, f⟩ := laidList_nested cs n _ _ h2 hn hb
      exact ⟨windows c ++ pre, post, by rw [e]; simp, laidW_append _ _ _ _ _ (laidItem_windows c _ _ h1) a, b, d, f⟩
end

/-- Sibling bridges have ranges one after the other. -/
theorem laidList_siblings (cs : List TreeItem) : ∀ (lo hi : Lim), laidList lo hi cs →
    (cs.filter fun c => c.info.sec_bus_num != 0).Pairwise (fun a b => leL (winEnd a.info) (winBase b.info)) ∧
    ∀ c ∈ cs, isBridge c → leL lo (winBase c.info) ∧ leL (winEnd c.info) hi := by
  induction cs with
  | nil => intros; simp
  | cons c cs ih =>
    intro lo hi h
    rw [laidList] at h
    obtain ⟨mid, h1, h2⟩ := h
    obtain ⟨i1, i2⟩ := ih _ _ h2
    have hlo := laidItem_le _ _ _ h1
    have hhi := laidList_le _ _ _ h2
    have hc : isBridge c → leL lo (winBase c.info) ∧ leL (winEnd c.info) mid := by
      intro hb
      cases c with
      | mk ti ds =>
        rw [laidItem] at h1
        obtain ⟨m, a, b⟩ := h1
        rcases b with ⟨b, _⟩ | ⟨_, b, _, d, _⟩
        · exact absurd b hb
        · exact ⟨leL.trans (laidW_le _ _ _ a) b, d⟩
    constructor
    · rw [List.filter_cons]
      split
      · rename_i hb
        have hb : isBridge c := by simpa [isBridge] using hb
        refine .cons ?_ i1
        intro x hx
        obtain ⟨x1, x2⟩ := List.mem_filter.1 hx
        exact (hc hb).2.trans (i2 x x1 (by simpa [isBridge] using x2)).1
      · exact i1
    · intro x hx hb
      rcases List.mem_cons.1 hx with rfl | hx
      · exact ⟨(hc hb).1, (hc hb).2.trans hhi⟩
      · exact ⟨hlo.trans (i2 x hx hb).1, (i2 x hx hb).2⟩

/-! #### Buses -/

mutual
theorem busItem_buses : ∀ (t : TreeItem) (pri lo hi : Nat), busItem pri lo hi t →
    lo ≤ hi ∧ buses false t = List.range' (lo + 1) (hi - lo)
  | .mk ti cs, pri, lo, hi, h => by
    rw [busItem] at h
    obtain ⟨_, h⟩ := h
    rw [buses]
    rcases h with ⟨h0, rfl, rfl⟩ | ⟨h0, h1, h2⟩
    · simp [h0, busesBelow]
    · obtain ⟨a, b⟩ := busList_buses cs _ _ _ h2
      refine ⟨by omega, ?_⟩
      rw [b, h0]
      have : hi - lo = (hi - (lo + 1)) + 1 := by omega
      rw [this, List.range'_succ]
      simp
theorem busList_buses : ∀ (cs : List TreeItem) (pri lo hi : Nat), busList pri lo hi cs →
    lo ≤ hi ∧ busesBelow cs = List.range' (lo + 1) (hi - lo)
  | [], pri, lo, hi, h => by
    rw [busList] at h
    subst h
    simp [busesBelow]
  | c :: cs, pri, lo, hi, h => by
    rw [busList] at h
    obtain ⟨mid, h1, h2⟩ := h
    obtain ⟨a, b⟩ := busItem_buses c _ _ _ h1
    obtain ⟨d, e⟩ := busList_buses cs _ _ _ h2
    refine ⟨by omega, ?_⟩
    rw [busesBelow, b, e, show hi - lo = (mid - lo) + (hi - mid) by omega]
    have : mid + 1 = lo + 1 + 1 * (mid - lo) := by omega
    rw [this, List.range'_append]
end

mutual
/-- Every node of a numbered item. -/
theorem busItem_node : ∀ (t n : TreeItem) (pri lo hi : Nat), busItem pri lo hi t → n ∈ nodes t →
    ∃ p l h, busItem p l h n ∧ h ≤ hi ∧ ((n = t ∧ p = pri) ∨ (lo < p ∧ p ≤ hi))
  | .mk ti cs, n, pri, lo, hi, h, hn => by
    rw [nodes] at hn
    rcases List.mem_cons.1 hn with rfl | hn
    · exact ⟨pri, lo, hi, h, Nat.le_refl _, Or.inl ⟨rfl, rfl⟩⟩
    · rw [busItem] at h
      obtain ⟨_, h⟩ := h
      rcases h with ⟨_, rfl, _⟩ | ⟨h0, h1, h2⟩
      · simp [nodesBelow] at hn
      · have hle := (busList_buses cs _ _ _ h2).1
        obtain ⟨p, l, q, a, b, c⟩ := busList_node cs n _ _ _ h2 hn
        exact ⟨p, l, q, a, b, Or.inr (by omega)⟩
theorem busList_node : ∀ (cs : List TreeItem) (n : TreeItem) (pri lo hi : Nat), busList pri lo hi cs →
    n ∈ nodesBelow cs → ∃ p l h, busItem p l h n ∧ h ≤ hi ∧ (p = pri ∨ (lo < p ∧ p ≤ hi))
  | [], n, pri, lo, hi, h, hn => by simp [nodesBelow] at hn
  | c :: cs, n, pri, lo, hi, h, hn => by
    rw [busList] at h
    obtain ⟨mid, h1, h2⟩ := h
    rw [nodesBelow] at hn
    have l1 := (busItem_buses c _ _ _ h1).1
    have l2 := (busList_buses cs _ _ _ h2).1
    rcases List.mem_append.1 hn with hn | hn
    · obtain ⟨p, l, q, a, b, d⟩ := busItem_node c n _ _ _ h1 hn
      exact ⟨p, l, q, a, by omega, by omega⟩
    · obtain ⟨p, l, q, a, b, d⟩ := busList_node cs n _ _ _ h2 hn
      exact ⟨p, l, q, a, b, by omega⟩
end

theorem busItem_bus (t : TreeItem) (pri lo hi : Nat) (h : busItem pri lo hi t) : t.info.bus_num = pri := by
  cases t with
  | mk ti cs => rw [busItem] at h; exact h.1

theorem busList_bus (cs : List TreeItem) (pri hi : Nat) : ∀ lo, busList pri lo hi cs →
    ∀ c ∈ cs, c.info.bus_num = pri := by
  induction cs with
  | nil => intro _ _ c hc; cases hc
  | cons x xs ih =>
    intro lo h c hc
    rw [busList] at h
    obtain ⟨mid, h1, h2⟩ := h
    rcases List.mem_cons.1 hc with rfl | hc
    · exact busItem_bus _ _ _ _ h1
    · exact ih mid h2 c hc

/-- Identifiers of functions determine bus, device and function. -/
theorem id_ne (a b : TreeItem) (ha : a.info.device_num < 32 ∧ a.info.function_num < 8)
    (hb : b.info.device_num < 32 ∧ b.info.function_num < 8) (h : a.info.bus_num ≠ b.info.bus_num ∨ devfn a ≠ devfn b) :
    a.info.id ≠ b.info.id := by
  intro e
  simp only [TreeInfo.id, PcieId.mk.injEq] at e
  unfold devfn at h
  omega

mutual
theorem ascItem_node : ∀ (t n : TreeItem), ascItem t → n ∈ nodes t → n = t ∨ (n.info.device_num < 32 ∧ n.info.function_num < 8)
  | .mk ti cs, n, h, hn => by
    rw [nodes] at hn
    rcases List.mem_cons.1 hn with hn | hn
    · exact Or.inl hn
    · rw [ascItem] at h
      exact Or.inr (ascList_node cs n h.2.1 h.2.2 hn)
theorem ascList_node : ∀ (cs : List TreeItem) (n : TreeItem), (∀ c ∈ cs, c.info.device_num < 32 ∧ c.info.function_num < 8) →
    ascList cs → n ∈ nodesBelow cs → n.info.device_num < 32 ∧ n.info.function_num < 8
  | [], n, _, _, hn => by simp [nodesBelow] at hn
  | c :: cs, n, h, ha, hn => by
    rw [ascList] at ha
    rw [nodesBelow] at hn
    rcases List.mem_append.1 hn with hn | hn
    · rcases ascItem_node c n ha.1 hn with rfl | h'
      · exact h _ (by simp)
      · exact h'
    · exact ascList_node cs n (fun x hx => h x (by simp [hx])) ha.2 hn
end

mutual
theorem ids_nodup_item : ∀ (t : TreeItem) (pri lo hi : Nat), busItem pri lo hi t → pri ≤ lo → ascItem t →
    t.info.device_num < 32 ∧ t.info.function_num < 8 → (nodes t).Pairwise (fun a b => a.info.id ≠ b.info.id)
  | .mk ti cs, pri, lo, hi, h, hp, ha, hr => by
    have ht := h
    rw [busItem] at h
    rw [ascItem] at ha
    rw [nodes]
    rcases h with ⟨hb, ⟨_, rfl, _⟩ | ⟨h0, h1, h2⟩⟩
    · simp [nodesBelow]
    · refine .cons ?_ (ids_nodup_list cs _ _ _ h2 (Nat.le_refl _) ha.1 ha.2.1 ha.2.2)
      intro n hn
      refine id_ne _ _ hr (ascList_node cs n ha.2.1 ha.2.2 hn) (Or.inl ?_)
      obtain ⟨p, l, q, a, b, d⟩ := busList_node cs n _ _ _ h2 hn
      have := busItem_bus _ _ _ _ a
      have : (TreeItem.mk ti cs).info.bus_num = pri := hb
      omega
theorem ids_nodup_list : ∀ (cs : List TreeItem) (pri lo hi : Nat), busList pri lo hi cs → pri ≤ lo →
    (cs.map devfn).Pairwise (· < ·) → (∀ c ∈ cs, c.info.device_num < 32 ∧ c.info.function_num < 8) → ascList cs →
    (nodesBelow cs).Pairwise (fun a b => a.info.id ≠ b.info.id)
  | [], pri, lo, hi, _, _, _, _, _ => by simp [nodesBelow]
  | c :: cs, pri, lo, hi, h, hp, ha, hr, has => by
    rw [busList] at h
    obtain ⟨mid, h1, h2⟩ := h
    rw [nodesBelow, List.pairwise_append]
    rw [ascList] at has
    have l1 := (busItem_buses c _ _ _ h1).1
    simp only [List.map_cons, List.pairwise_cons] at ha
    refine ⟨ids_nodup_item c _ _ _ h1 hp has.1 (hr c (by simp)),
      ids_nodup_list cs _ _ _ h2 (by omega) ha.2 (fun x hx => hr x (by simp [hx])) has.2, ?_⟩
    intro a han b hbn
    have hra : a.info.device_num < 32 ∧ a.info.function_num < 8 := by
      rcases ascItem_node c a has.1 han with rfl | h
      · exact hr _ (by simp)
      · exact h
    refine id_ne _ _ hra (ascList_node cs b (fun x hx => hr x (by simp [hx])) has.2 hbn) ?_
    obtain ⟨p, l, q, a1, a2, a3⟩ := busItem_node c a _ _ _ h1 han
    have ea := busItem_bus _ _ _ _ a1
    obtain ⟨p', l', q', b1, b2, b3⟩ := busList_node cs b _ _ _ h2 hbn
    have eb := busItem_bus _ _ _ _ b1
    by_cases he : a.info.bus_num = b.info.bus_num
    · right
      have hpp : p = pri ∧ a = c := by
        rcases a3 with ⟨h, h'⟩ | h
        · exact ⟨h', h⟩
        · omega
      obtain ⟨hpp, rfl⟩ := hpp
      have hb' : b ∈ cs := busList_onbus cs b pri mid hi (by omega) h2 hbn (by omega)
      have := ha.1 (devfn b) (List.mem_map.2 ⟨b, hb', rfl⟩)
      omega
    · exact Or.inl he
theorem busList_onbus : ∀ (cs : List TreeItem) (n : TreeItem) (pri lo hi : Nat), pri ≤ lo → busList pri lo hi cs →
    n ∈ nodesBelow cs → n.info.bus_num = pri → n ∈ cs
  | [], n, pri, lo, hi, _, h, hn, _ => by simp [nodesBelow] at hn
  | c :: cs, n, pri, lo, hi, hp, h, hn, he => by
    rw [busList] at h
    obtain ⟨mid, h1, h2⟩ := h
    rw [nodesBelow] at hn
    have l1 := (busItem_buses c _ _ _ h1).1
    rcases List.mem_append.1 hn with hn | hn
    · obtain ⟨p, l, q, a1, a2, a3⟩ := busItem_node c n _ _ _ h1 hn
      have ea := busItem_bus _ _ _ _ a1
      rcases a3 with ⟨h, h'⟩ | h
      · simp [h]
      · omega
    · exact List.mem_cons_of_mem _ (busList_onbus cs n pri mid hi (by omega) h2 hn he)
end

mutual
theorem busItem_node_le : ∀ (t n : TreeItem) (pri lo hi : Nat), pri ≤ lo → busItem pri lo hi t → n ∈ nodes t →
    ∃ p l q, busItem p l q n ∧ p ≤ l
  | .mk ti cs, n, pri, lo, hi, hp, h, hn => by
    rw [nodes] at hn
    rcases List.mem_cons.1 hn with rfl | hn
    · exact ⟨pri, lo, hi, h, hp⟩
    · rw [busItem] at h
      rcases h with ⟨_, ⟨_, rfl, _⟩ | ⟨h0, h1, h2⟩⟩
      · simp [nodesBelow] at hn
      · exact busList_node_le cs n _ _ _ (Nat.le_refl _) h2 hn
theorem busList_node_le : ∀ (cs : List TreeItem) (n : TreeItem) (pri lo hi : Nat), pri ≤ lo → busList pri lo hi cs →
    n ∈ nodesBelow cs → ∃ p l q, busItem p l q n ∧ p ≤ l
  | [], n, pri, lo, hi, hp, h, hn => by simp [nodesBelow] at hn
  | c :: cs, n, pri, lo, hi, hp, h, hn => by
    rw [busList] at h
    obtain ⟨mid, h1, h2⟩ := h
    rw [nodesBelow] at hn
    have l1 := (busItem_buses c _ _ _ h1).1
    rcases List.mem_append.1 hn with hn | hn
    · exact busItem_node_le c n _ _ _ hp h1 hn
    · exact busList_node_le cs n _ _ _ (by omega) h2 hn
end

theorem busList_split (pri hi : Nat) (xs : List TreeItem) (ys : List TreeItem) : ∀ lo, busList pri lo hi (xs ++ ys) →
    ∃ mid, busList pri lo mid xs ∧ busList pri mid hi ys := by
  induction xs with
  | nil => intro lo h; exact ⟨lo, by rw [busList], h⟩
  | cons x xs ih =>
    intro lo h
    rw [List.cons_append, busList] at h
    obtain ⟨m, h1, h2⟩ := h
    obtain ⟨mid, a, b⟩ := ih m h2
    exact ⟨mid, by rw [busList]; exact ⟨m, h1, a⟩, b⟩

theorem busItem_bridge (t : TreeItem) (pri lo hi : Nat) (h : busItem pri lo hi t) (hb : isBridge t) :
    t.info.sec_bus_num = lo + 1 ∧ t.info.sub_bus_num = hi := by
  cases t with
  | mk ti cs =>
    rw [busItem] at h
    rcases h with ⟨_, ⟨h0, _⟩ | ⟨h0, h1, h2⟩⟩
    · exact absurd h0 hb
    · exact ⟨h0, h1⟩

theorem busList_siblings (pri lo hi : Nat) (pre mid post : List TreeItem) (a b : TreeItem)
    (h : busList pri lo hi (pre ++ a :: mid ++ b :: post)) (ha : isBridge a) (hb : isBridge b) :
    a.info.sub_bus_num < b.info.sec_bus_num := by
  rw [List.append_assoc] at h
  obtain ⟨m1, _, h⟩ := busList_split _ _ _ _ _ h
  rw [List.cons_append, busList] at h
  obtain ⟨m2, h1, h⟩ := h
  obtain ⟨m3, h2, h⟩ := busList_split _ _ _ _ _ h
  rw [busList] at h
  obtain ⟨m4, h3, _⟩ := h
  have := busItem_bridge _ _ _ _ h1 ha
  have := busItem_bridge _ _ _ _ h3 hb
  have := (busList_buses _ _ _ _ h2).1
  omega

end Verif.Proofs
