import Verif.Proofs.BarSetup
import Verif.Proofs.ConfigSpace
import Verif.Props.Cap
/-!
C17 (header writes), C18 (BAR sizing and decoding), C19 (MSI), C45 (capability register writes),
C46 (link capabilities), C47 (extended capabilities).
-/
namespace Verif.Props
open Verif Verif.Model Verif.Spec Verif.Proofs

/-! ### C17 -/

/-- C17: a configuration write to any of the 16 header registers succeeds; the register written
changes bit by bit as its attributes and the byte enables say (`writtenBit`), and no other
register of the configuration space changes. -/
theorem C17_config_write (s : ConfigState) (h : HeaderWf s) (reg data mask : Nat) (hreg : reg < 16) :
    ∃ s' v v', writeConfig s reg data mask = some s' ∧ HeaderWf s' ∧ s'.bar_mask = s.bar_mask ∧
      readConfig s reg = some v ∧ readConfig s' reg = some v' ∧
      (∀ i, i < 32 → v'.testBit i = writtenBit (headerAttr s.bar_mask reg) v data mask i) ∧
      (∀ r, r ≠ reg → readConfig s' r = readConfig s r) := by
  obtain ⟨s', h1, h2, h3, h4, h5⟩ := header_write s h reg data mask hreg
  obtain ⟨v, v', e1, e2, _, e4⟩ := h4 reg hreg
  refine ⟨s', v, v', h1, h2, h3, e1, e2, e4 rfl, fun r hr => ?_⟩
  by_cases hr16 : r < 16
  · obtain ⟨w, w', f1, f2, f3, _⟩ := h4 r hr16
    rw [f1, f2, f3 hr]
  · exact h5 r (by omega)

/-- C17: a read-only register (vendor ID, class code, subsystem ID, capability pointer, …) keeps
its value under every sequence of configuration header writes. -/
theorem C17_read_only_history (ws : List (Nat × Nat × Nat)) (hws : ∀ w ∈ ws, w.1 < 16) (s s' : ConfigState)
    (h : HeaderWf s) (hs : ws.foldlM (fun s w => writeConfig s w.1 w.2.1 w.2.2) s = some s') :
    HeaderWf s' ∧ ∀ r v v', r ∈ [0, 2, 10, 11, 13, 14] → readConfig s r = some v → readConfig s' r = some v' →
      ∀ i, i < 32 → v'.testBit i = v.testBit i := by
  induction ws generalizing s with
  | nil =>
    simp only [List.foldlM_nil] at hs
    cases hs
    refine ⟨h, fun r v v' _ h1 h2 i _ => ?_⟩
    rw [h1] at h2; cases h2; rfl
  | cons w ws ih =>
    rw [List.foldlM_cons] at hs
    obtain ⟨s1, v, v1, h1, h2, h3, h4, h5, h6, h7⟩ := C17_config_write s h w.1 w.2.1 w.2.2 (hws w (by simp))
    rw [h1] at hs
    obtain ⟨i1, i2⟩ := ih (fun x hx => hws x (List.mem_cons_of_mem _ hx)) s1 h2 hs
    refine ⟨i1, fun r u u' hr hu hu' i hi => ?_⟩
    by_cases hrw : r = w.1
    · rw [i2 r v1 u' hr (hrw ▸ h5) hu' i hi, h6 i hi]
      rw [hrw] at hu
      rw [h4] at hu; cases hu
      unfold writtenBit
      simp only [List.mem_cons, List.not_mem_nil, or_false] at hr
      rw [← hrw]
      rcases hr with rfl | rfl | rfl | rfl | rfl | rfl <;> simp [headerAttr]
    · exact i2 r u u' hr ((h7 r hrw).trans hu) hu' i hi

/-- A function with a 16 MB BAR and non-zero status bits. -/
def exampleConfig : ConfigState :=
  { vendor_id := 0x1234, device_id := 0x0001, detected_parity_error := true, lat_timer := 5,
    bar := [0x8, 0, 0, 0, 0, 0], bar_mask := [0xff000000, 0, 0, 0, 0, 0],
    capabilities := [⟨5, none, 6, some 5, some 5, 0x10, some 0x60⟩,
      ⟨0x10, none, 16, some 0x10, some 0x10, 0x18, some 0⟩],
    msi := { addr64_capable := true, multiple_message_capable := 5 } }

example : HeaderWf exampleConfig := ⟨by decide, by decide, by decide, by decide, rfl, rfl⟩

example : (writeConfig exampleConfig 4 0xffffffff 0xf).bind (readConfig · 4) = some 0xff000008 := by
  decide +kernel

/-! ### C18 -/

/-- C18, sizing of 32-bit memory BARs: after `configure_bar(idx, size, prefetch)` and writing all
ones, the register read back has the memory/32-bit type bits and the prefetch bit, and software
computes the least power of two that is at least `size` and 16. -/
theorem C18_mem32_sizing (s : ConfigState) (hs : HeaderWf s) (i size : Nat) (hi : i < 6) (h0 : 0 < size)
    (h31 : size ≤ 2 ^ 31) (pf : Bool) :
    ∃ b m s' v w, configureBar s.bar s.bar_mask i size false pf false = some (b, m) ∧
      writeConfig { s with bar := b, bar_mask := m } (4 + i) 0xffffffff 0xf = some s' ∧
      readConfig s' (4 + i) = some v ∧
      v % 16 = (if pf then 8 else 0) ∧ sizeFromBar v = 2 ^ w ∧ size ≤ 2 ^ w ∧ 16 ≤ 2 ^ w ∧
      ∀ j, size ≤ 2 ^ j → 16 ≤ 2 ^ j → 2 ^ w ≤ 2 ^ j := by
  obtain ⟨c1, c2⟩ := ceilLog2_spec size
  have hc := c2 31 h31
  have e1 := configure_mem32 s.bar s.bar_mask i size (by rw [hs.bars]; exact hi) h0 (by omega) pf
  have hf : (if pf then 8 else 0 : Nat) < 16 := by cases pf <;> decide
  have hp : 16 ≤ 2 ^ max 4 (ceilLog2 size) := pow4 (by omega)
  have hp2 : 2 ^ max 4 (ceilLog2 size) ≤ 2 ^ 31 := Nat.pow_le_pow_right (by decide) (by omega)
  refine ⟨_, _, _, _, max 4 (ceilLog2 size), e1, writeConfig_bar _ _ _ hi, readConfig_bar _ _ hi, ?_⟩
  simp only []
  rw [getD_set_self _ _ _ (by simp [hs.bars, hi]), getD_set_self _ _ _ (by simp [hs.bars, hi]),
    getD_set_self _ _ _ (by simp [hs.masks, hi]),
    bar_written _ _ _ (by omega) (by omega) (by omega) (by decide), ones_masked _ (by omega)]
  have hd : 16 ∣ 2 ^ max 4 (ceilLog2 size) := Nat.pow_dvd_pow 2 (by omega : 4 ≤ max 4 (ceilLog2 size))
  refine ⟨by omega, ?_, ?_, hp, ?_⟩
  · unfold sizeFromBar; omega
  · exact Nat.le_trans c1 (Nat.pow_le_pow_right (by decide) (by omega))
  · intro j hj1 hj2
    apply Nat.pow_le_pow_right (by decide)
    have := c2 j hj1
    have h4 : 4 ≤ j := (Nat.pow_le_pow_iff_right (a := 2) (by decide)).1 hj2
    omega

/-- C18, sizing of I/O BARs: at least 4 bytes, I/O type bit set. -/
theorem C18_io_sizing (s : ConfigState) (hs : HeaderWf s) (i size : Nat) (hi : i < 6) (h0 : 0 < size)
    (h31 : size ≤ 2 ^ 31) (pf : Bool) :
    ∃ b m s' v w, configureBar s.bar s.bar_mask i size false pf true = some (b, m) ∧
      writeConfig { s with bar := b, bar_mask := m } (4 + i) 0xffffffff 0xf = some s' ∧
      readConfig s' (4 + i) = some v ∧
      v % 4 = 1 ∧ sizeFromIoBar v = 2 ^ w ∧ size ≤ 2 ^ w ∧ 4 ≤ 2 ^ w ∧
      ∀ j, size ≤ 2 ^ j → 4 ≤ 2 ^ j → 2 ^ w ≤ 2 ^ j := by
  obtain ⟨c1, c2⟩ := ceilLog2_spec size
  have hc := c2 31 h31
  have e1 := configure_io s.bar s.bar_mask i size (by rw [hs.bars]; exact hi) h0 (by omega) pf
  have hp : 4 ≤ 2 ^ max 2 (ceilLog2 size) := pow2 (by omega)
  have hp2 : 2 ^ max 2 (ceilLog2 size) ≤ 2 ^ 31 := Nat.pow_le_pow_right (by decide) (by omega)
  refine ⟨_, _, _, _, max 2 (ceilLog2 size), e1, writeConfig_bar _ _ _ hi, readConfig_bar _ _ hi, ?_⟩
  simp only []
  rw [getD_set_self _ _ _ (by simp [hs.bars, hi]), getD_set_self _ _ _ (by simp [hs.bars, hi]),
    getD_set_self _ _ _ (by simp [hs.masks, hi]),
    bar_written _ _ _ (by omega) (by omega) (by omega) (by decide), ones_masked _ (by omega)]
  have hd : 4 ∣ 2 ^ max 2 (ceilLog2 size) := Nat.pow_dvd_pow 2 (by omega : 2 ≤ max 2 (ceilLog2 size))
  refine ⟨by omega, ?_, ?_, hp, ?_⟩
  · unfold sizeFromIoBar; omega
  · exact Nat.le_trans c1 (Nat.pow_le_pow_right (by decide) (by omega))
  · intro j hj1 hj2
    apply Nat.pow_le_pow_right (by decide)
    have := c2 j hj1
    have h4 : 2 ≤ j := (Nat.pow_le_pow_iff_right (a := 2) (by decide)).1 hj2
    omega

/-- C18, sizing of 64-bit BARs, of any size up to 2^63: all ones written to both registers. -/
theorem C18_mem64_sizing (s : ConfigState) (hs : HeaderWf s) (i size : Nat) (hi : i + 1 < 6) (h0 : 0 < size)
    (h63 : size ≤ 2 ^ 63) (pf : Bool) :
    ∃ b m s1 s2 lo hi w, configureBar s.bar s.bar_mask i size true pf false = some (b, m) ∧
      writeConfig { s with bar := b, bar_mask := m } (4 + i) 0xffffffff 0xf = some s1 ∧
      writeConfig s1 (4 + (i + 1)) 0xffffffff 0xf = some s2 ∧
      readConfig s2 (4 + i) = some lo ∧ readConfig s2 (4 + (i + 1)) = some hi ∧
      lo % 16 = 4 + (if pf then 8 else 0) ∧ sizeFromBar64 lo hi = 2 ^ w ∧ size ≤ 2 ^ w ∧ 16 ≤ 2 ^ w ∧
      ∀ j, size ≤ 2 ^ j → 16 ≤ 2 ^ j → 2 ^ w ≤ 2 ^ j := by
  obtain ⟨c1, c2⟩ := ceilLog2_spec size
  have hc := c2 63 h63
  have e1 := configure_mem64 s.bar s.bar_mask i size (by rw [hs.bars]; exact hi) h0 (by omega) pf
  have hf : 4 + (if pf then 8 else 0 : Nat) < 16 := by cases pf <;> decide
  refine ⟨_, _, _, _, _, _, max 4 (ceilLog2 size), e1, writeConfig_bar _ _ _ (by omega), writeConfig_bar _ _ _ (by omega),
    readConfig_bar _ _ (by omega), readConfig_bar _ _ (by omega), ?_⟩
  have hne : i ≠ i + 1 := by omega
  have g1 : ∀ (l : List Nat) (x y : Nat), i < l.length → ((l.set i x).set (i + 1) y).getD i 0 = x := by
    intro l x y hl
    rw [List.set_comm _ _ hne, getD_set_self _ _ _ (by simpa using hl)]
  have g2 : ∀ (l : List Nat) (x y : Nat), i + 1 < l.length → ((l.set i x).set (i + 1) y).getD (i + 1) 0 = y := by
    intro l x y hl
    rw [getD_set_self _ _ _ (by simpa using hl)]
  have hb : i + 1 < s.bar.length := by rw [hs.bars]; exact hi
  have hm : i + 1 < s.bar_mask.length := by rw [hs.masks]; exact hi
  simp only [List.set_comm _ _ (Ne.symm hne), List.set_set, g1 _ _ _ (by omega : i < s.bar.length), g2 _ _ _ hb,
    g1 _ _ _ (by omega : i < s.bar_mask.length), g2 _ _ _ hm]
  have hp4 : 16 ≤ 2 ^ min 32 (max 4 (ceilLog2 size)) := pow4 (by omega)
  rw [bar_written (min 32 (max 4 (ceilLog2 size))) _ _ (by omega) (by omega) (by omega) (by decide),
    bar_written (ceilLog2 size - 32) 0 _ (by omega) (Nat.two_pow_pos _) (by decide) (by decide),
    ones_masked _ (by omega), ones_masked _ (by omega)]
  have hd : 16 ∣ 2 ^ min 32 (max 4 (ceilLog2 size)) :=
    Nat.pow_dvd_pow 2 (by omega : 4 ≤ min 32 (max 4 (ceilLog2 size)))
  have hle : 2 ^ min 32 (max 4 (ceilLog2 size)) ≤ 2 ^ 32 := Nat.pow_le_pow_right (by decide) (by omega)
  refine ⟨by omega, ?_, ?_, pow4 (by omega), ?_⟩
  · unfold sizeFromBar64
    by_cases h32 : ceilLog2 size ≤ 32
    · have a1 : ceilLog2 size - 32 = 0 := by omega
      have a2 : min 32 (max 4 (ceilLog2 size)) = max 4 (ceilLog2 size) := by omega
      rw [a1, a2]
      rw [a2] at hd hle
      have := Nat.two_pow_pos (max 4 (ceilLog2 size))
      generalize 2 ^ max 4 (ceilLog2 size) = P at *
      omega
    · have a2 : min 32 (max 4 (ceilLog2 size)) = 32 := by omega
      have a3 : max 4 (ceilLog2 size) = ceilLog2 size - 32 + 32 := by omega
      rw [a2, a3, Nat.pow_add]
      have : 2 ^ (ceilLog2 size - 32) ≤ 2 ^ 31 := Nat.pow_le_pow_right (by decide) (by omega)
      have a4 : ceilLog2 size - 32 + 32 - 32 = ceilLog2 size - 32 := by omega
      omega
  · exact Nat.le_trans c1 (Nat.pow_le_pow_right (by decide) (by omega))
  · intro j hj1 hj2
    apply Nat.pow_le_pow_right (by decide)
    have := c2 j hj1
    have h4 : 4 ≤ j := (Nat.pow_le_pow_iff_right (a := 2) (by decide)).1 hj2
    omega

example : (configureBar exampleConfig.bar exampleConfig.bar_mask 2 4096 false true false) =
    some ([8, 0, 8, 0, 0, 0], [0xff000000, 0, 0xfffff000, 0, 0, 0]) := by decide +kernel

/-- C18: after configuring any list of BARs (sizes 2^k up to 2 GB) that fits the six registers and
programming any naturally aligned base addresses, `match_bar` returns, for a 64-bit address, the
BARs whose window contains it with the offset from the base, and no others; when a 32-bit BAR is
present the address must be below 4 GB. Missing: decoding does not depend on the memory and I/O
enable bits, 32-bit BARs also match addresses above 4 GB, and 64-bit BARs of 4 GB or more are
ignored (see `C18_bar_decode_fails`). -/
theorem C18_bar_decode_partial (ds : List BarDesc) (hv : ∀ d ∈ ds, d.Valid)
    (hlen : (ds.flatMap BarDesc.values).length ≤ 6) (s : ConfigState)
    (hb : s.bar = List.replicate 6 0) (hm : s.bar_mask = List.replicate 6 0) :
    ∃ s', setupBars 0 ds s = some s' ∧
      ∀ addr io, addr < 2 ^ 64 → (addr < 2 ^ 32 ∨ ∀ d ∈ ds, ∀ k b p, d ≠ .mem32 k b p ∧ d ≠ .io k b) →
        matchBar addr io 0 s'.bar s'.bar_mask = some (barHits addr io 0 ds) := by
  obtain ⟨s', h1, h2, h3⟩ := setupBars_spec ds 0 [] [] 6 s hv rfl rfl rfl hb hm hlen
  refine ⟨s', h1, fun addr io ha hcond => ?_⟩
  rw [h2, h3]
  exact matchBar_pad addr io ds 0 _ hv ha hcond

/-- A 1 MB 32-bit BAR, a 64 KB prefetchable 64-bit BAR above 4 GB and a 32-byte I/O BAR. -/
def exampleBars : List BarDesc :=
  [.mem32 20 0x80000000 false, .mem64 16 0x2_12340000 true, .unused, .io 5 0x1020]

example : (∀ d ∈ exampleBars, d.Valid) ∧ (exampleBars.flatMap BarDesc.values).length ≤ 6 := by
  constructor
  · intro d hd
    simp only [exampleBars, List.mem_cons, List.not_mem_nil, or_false] at hd
    rcases hd with rfl | rfl | rfl | rfl <;> simp [BarDesc.Valid] <;> omega
  · decide

example : barHits 0x80000ffc false 0 exampleBars = [(0, 0xffc)] ∧ barHits 0x103c true 0 exampleBars = [(4, 0x1c)] := by
  decide +kernel

/-- C18, failures: (1) a 32-bit BAR also claims addresses above 4 GB that agree with it in the low
32 bits; (2) a 64-bit BAR of 4 GB, programmed at 16 GB, does not claim its own base address;
(3) BARs are decoded although memory decoding was never enabled (command register 0). -/
theorem C18_bar_decode_fails :
    (∃ s', setupBars 0 [.mem32 20 0x80000000 false] {} = some s' ∧
      matchBar (0x7_00000000 + 0x80000004) false 0 s'.bar s'.bar_mask = some [(0, 0x7_00000004)]) ∧
    (∃ s', setupBars 0 [.mem64 32 0x4_00000000 false] {} = some s' ∧
      matchBar 0x4_00000000 false 0 s'.bar s'.bar_mask = some []) ∧
    (∃ s' s'', setupBars 0 [.mem32 20 0x80000000 false] {} = some s' ∧ writeConfig s' 1 0 0xf = some s'' ∧
      matchBar 0x80000010 false 0 s''.bar s''.bar_mask = some [(0, 0x10)]) := by
  have e : ∀ o : Option ConfigState, o.isSome = true → ∃ s, o = some s := fun o h => ⟨o.get h, by simp⟩
  obtain ⟨s1, h1⟩ := e (setupBars 0 [.mem32 20 0x80000000 false] {}) (by decide +kernel)
  obtain ⟨s2, h2⟩ := e (setupBars 0 [.mem64 32 0x4_00000000 false] {}) (by decide +kernel)
  obtain ⟨s3, h3⟩ := e ((setupBars 0 [.mem32 20 0x80000000 false] {}).bind (writeConfig · 1 0 0xf)) (by decide +kernel)
  have k1 : (setupBars 0 [.mem32 20 0x80000000 false] {}).map (fun s =>
      matchBar (0x7_00000000 + 0x80000004) false 0 s.bar s.bar_mask) = some (some [(0, 0x7_00000004)]) := by
    decide +kernel
  have k2 : (setupBars 0 [.mem64 32 0x4_00000000 false] {}).map (fun s =>
      matchBar 0x4_00000000 false 0 s.bar s.bar_mask) = some (some []) := by
    decide +kernel
  have k3 : ((setupBars 0 [.mem32 20 0x80000000 false] {}).bind (writeConfig · 1 0 0xf)).map (fun s =>
      matchBar 0x80000010 false 0 s.bar s.bar_mask) = some (some [(0, 0x10)]) := by
    decide +kernel
  rw [h1] at k1; rw [h2] at k2; rw [h3] at k3
  rw [h1] at h3
  exact ⟨⟨s1, h1, Option.some.inj k1⟩, ⟨s2, h2, Option.some.inj k2⟩, ⟨s1, s3, h1, h3, Option.some.inj k3⟩⟩

/-! ### C19 -/

/-- The DWORD at `addr` in little-endian order. -/
def dwordBytes (v : Nat) : List UInt8 :=
  [UInt8.ofNat (v % 256), UInt8.ofNat (v / 2 ^ 8 % 256), UInt8.ofNat (v / 2 ^ 16 % 256), UInt8.ofNat (v / 2 ^ 24 % 256)]

/-- The MSI state after a sequence of register writes (register, data, byte enables) from the
state of a function that supports `2 ^ mmc` messages. -/
def msiHistory (mmc : Nat) (a64 pvm : Bool) (ws : List (Nat × Nat × Nat)) : MsiState :=
  ws.foldl (fun s w => writeMsiCap s w.1 w.2.1 w.2.2)
    { multiple_message_capable := mmc, addr64_capable := a64, per_vector_mask_capable := pvm }

/-- C19: after any history of writes to the MSI capability, `issue_msi_interrupt(n)` sends nothing
when MSI is disabled or `n` is not below both the enabled and the supported number of messages;
otherwise, with bus mastering enabled, it sends exactly one memory write, whose effect is to store
at the message address the message data with its low log2(messages) bits replaced by `n`. -/
theorem C19_msi (mmc : Nat) (a64 pvm : Bool) (ws : List (Nat × Nat × Nat)) (id : PcieId) (mps n attr tc : Nat) :
    let s := msiHistory mmc a64 pvm ws
    let k := s.multiple_message_enable
    (s.enable = false ∨ ¬ (n < 2 ^ k ∧ n < 2 ^ s.multiple_message_capable) →
      issueMsi s true id mps n attr tc = some []) ∧
    (s.enable = true → n < 2 ^ k → n < 2 ^ s.multiple_message_capable →
      ∃ t, issueMsi s true id mps n attr tc = some [t] ∧
        (∀ m, perform m t = store m s.message_address (dwordBytes (s.message_data / 2 ^ k * 2 ^ k + n))) ∧
        LegalMemRequest (32 * 2 ^ mps) t ∧ t.check = true ∧ t.requester_id = id ∧
        (t.fmt = 2 ∨ t.fmt = 3) ∧ t.type = 0) := by
  intro s k
  have hwf : MsiWf s := by
    have : ∀ (ws : List (Nat × Nat × Nat)) (s : MsiState), MsiWf s →
        MsiWf (ws.foldl (fun s w => writeMsiCap s w.1 w.2.1 w.2.2) s) := by
      intro ws
      induction ws with
      | nil => intro s h; exact h
      | cons w ws ih => intro s h; exact ih _ (msiWf_write s h _ _ _)
    exact this ws _ ⟨rfl, Nat.two_pow_pos 16, Nat.two_pow_pos 3⟩
  constructor
  · intro h
    unfold issueMsi
    by_cases he : s.enable = true
    · rw [if_neg (by simp [he]), if_pos]
      rcases h with h | h
      · rw [h] at he; cases he
      · show n ≥ 2 ^ k ∨ _
        omega
    · rw [if_pos he]
  · intro he h1 h2
    have hv := msi_value_lt s.message_data k n h1 hwf.mme hwf.data
    unfold issueMsi
    rw [if_neg (by simp [he]), if_neg (by show ¬ (n ≥ 2 ^ k ∨ _); omega), msi_value _ _ _ h1]
    unfold packDword
    rw [if_pos hv]
    show ∃ t, memWriteLoop id mps attr tc s.message_address _ = some [t] ∧ _
    generalize hD : s.message_data / 2 ^ s.multiple_message_enable * 2 ^ s.multiple_message_enable + n = D
    have hbytes : [UInt8.ofNat D, UInt8.ofNat (D >>> 8), UInt8.ofNat (D >>> 16), UInt8.ofNat (D >>> 24)] = dwordBytes D := by
      simp only [dwordBytes, Nat.shiftRight_eq_div_pow]
      have : ∀ x : Nat, UInt8.ofNat (x % 256) = UInt8.ofNat x := by
        intro x; apply UInt8.toNat_inj.1; simp
      simp only [this]
    rw [hbytes]
    obtain ⟨ts, w1, w2, w3⟩ := memWriteLoop_spec id mps attr tc s.message_address (dwordBytes D)
    have hone := memWrite_dword id mps attr tc s.message_address (dwordBytes D) hwf.addr rfl ts w1
    match ts, hone with
    | [t], _ =>
      refine ⟨t, w1, ?_, ?_⟩
      · intro m
        have := foldl_perform_of_covers _ _ _ w2 m
        exact this
      · obtain ⟨j1, j2, j3, j4, j5, j6, _⟩ := w3 t (by simp)
        exact ⟨j1, j2, j6, j4, j5⟩

/-- Address 0xFEE00000, data 0x4060, 8 of 32 messages enabled, message 5. -/
example : let s := msiHistory 5 true false [(1, 0xfee00000, 0xf), (2, 0, 0xf), (3, 0x4060, 0xf), (0, 0x310000, 0xf)]
    s.enable = true ∧ s.multiple_message_enable = 3 ∧ 5 < 2 ^ s.multiple_message_enable ∧
    5 < 2 ^ s.multiple_message_capable ∧ s.message_data / 2 ^ 3 * 2 ^ 3 + 5 = 0x4065 := by decide +kernel

/-- C19: without bus mastering no message is sent. -/
theorem C19_msi_no_bus_master (s : MsiState) (h : MsiWf s) (id : PcieId) (mps n attr tc : Nat) :
    issueMsi s false id mps n attr tc = some [] := by
  unfold issueMsi
  split
  · rfl
  split
  · rfl
  · rename_i h2
    have hv := msi_value_lt s.message_data s.multiple_message_enable n (by omega) h.mme h.data
    rw [msi_value _ _ _ (by omega)]
    unfold packDword
    rw [if_pos hv]
    rfl

example : MsiWf (msiHistory 5 true false [(1, 0xfee00000, 0xf), (0, 0x310000, 0xf)]) :=
  ⟨by decide +kernel, by decide +kernel, by decide +kernel⟩

/-! ### C45 -/

/-- C45: a configuration write to a register of a capability (power management, MSI, PCI Express,
MSI-X) changes no other register of the whole configuration space, and changes the register
written as the attributes of the specification say, in the enabled byte lanes. A register outside
all capabilities keeps its value. Missing: PCI Express bits listed in `PcieException`, where the
code deviates, registers that cannot be read, and Link Control 2 with an equalization request
(see the failure theorem). -/
theorem C45_cap_write_partial (s : ConfigState) (hids : (s.capabilities.map (·.cap_id)).Nodup)
    (hw : WiredCaps s.capabilities) (reg data mask : Nat) (hm : mask < 16) (h1 : 16 ≤ reg) (h2 : reg < 256)
    (hleq : s.pcie.link_equalization_request = false) :
    ∃ s', writeConfig s reg data mask = some s' ∧
    (∀ r, r ≠ reg → readConfig s' r = readConfig s r) ∧
    (∀ v, readConfig s reg = some v → ∃ v', readConfig s' reg = some v' ∧
      (∀ c ∈ s.capabilities, InCap c reg → DisjointCaps s.capabilities → ∀ i, i < 32 →
        ¬ PcieException c.cap_id (reg - c.offset) i →
        v'.testBit i = writtenBit (capAttr s.msi.addr64_capable c.cap_id (reg - c.offset)) v data mask i) ∧
      ((∀ c ∈ s.capabilities, ¬ InCap c reg) → ∀ i, i < 32 → v'.testBit i = v.testBit i)) := by
  obtain ⟨s', hs'⟩ := cap_write_total s hw reg data mask h1 h2 hleq
  obtain ⟨w1, w2⟩ := cap_write s s' hids hw reg data mask hm h1 h2 hs'
  refine ⟨s', hs', w1, fun v hv => ?_⟩
  obtain ⟨v', e1, e2⟩ := w2 v hv
  refine ⟨v', e1, ?_, ?_⟩
  · intro c hc hin hdis i hi
    have := e2 i hi
    rw [findByReg_of_mem hdis hc hin] at this
    exact this
  · intro hno i hi
    have := e2 i hi
    cases hf : findByReg s.capabilities reg with
    | none => rw [hf] at this; exact this
    | some c => exact absurd (findByReg_mem hf).2 (hno c (findByReg_mem hf).1)

example : (exampleConfig.capabilities.map (·.cap_id)).Nodup ∧ WiredCaps exampleConfig.capabilities ∧
    exampleConfig.pcie.link_equalization_request = false ∧ (writeConfig exampleConfig 0x10 0xffffffff 0x4).bind
      (readConfig · 0x10) = some 0xfb6005 := by
  refine ⟨by decide, ?_, rfl, by decide +kernel⟩
  intro c hc
  simp only [exampleConfig, List.mem_cons, List.not_mem_nil, or_false] at hc
  rcases hc with rfl | rfl <;> decide

/-- C45, failures: (1) the Read Completion Boundary bit of Link Control (bit 3) cannot be written:
writing it has no effect, while writing Link Disable (bit 4) sets bit 3; (2) a write of Link
Control 2 raises when an equalization request is pending; (3) reading an MSI register that is not
implemented inside the capability gives `None`, not a value. -/
theorem C45_cap_write_fails :
    (∃ s', writePcieCap {} 4 0x8 0xf = some s' ∧ (readPcieCap s' 4).testBit 3 = false) ∧
    (∃ s', writePcieCap {} 4 0x10 0xf = some s' ∧ (readPcieCap s' 4).testBit 3 = true ∧
      (readPcieCap s' 4).testBit 4 = false) ∧
    (∀ data mask, writePcieCap { link_equalization_request := true } 12 data mask = none) ∧
    readConfig exampleConfig 0x14 = none :=
  ⟨⟨_, rfl, by decide +kernel⟩, ⟨_, rfl, by decide +kernel, by decide +kernel⟩, fun _ _ => rfl, by decide +kernel⟩

/-! ### C46 -/

/-- C46, failure: the maximum link width is not reported in bits 9:4 of Link Capabilities, nor
ASPM support in bits 11:10, nor the exit latencies in bits 17:12 — for no configuration with a
non-zero value. -/
theorem C46_link_capabilities_fails (s : PcieCapState) :
    readPcieCap s 3 / 2 ^ 4 % 2 ^ 6 = 0 ∧ readPcieCap s 3 / 2 ^ 10 % 2 ^ 2 = 0 ∧
    readPcieCap s 3 / 2 ^ 12 % 2 ^ 3 = 0 ∧ readPcieCap s 3 / 2 ^ 15 % 2 ^ 3 = 0 := by
  show readPcieCap3 s / 2 ^ 4 % 2 ^ 6 = 0 ∧ readPcieCap3 s / 2 ^ 10 % 2 ^ 2 = 0 ∧
    readPcieCap3 s / 2 ^ 12 % 2 ^ 3 = 0 ∧ readPcieCap3 s / 2 ^ 15 % 2 ^ 3 = 0
  have key : ∀ i, 4 ≤ i → i < 18 → (readPcieCap3 s).testBit i = false := by
    intro i h4 h18
    have hi : i < 32 := by omega
    unfold readPcieCap3
    simp only [Nat.testBit_or, testBit_flag, Nat.testBit_shiftLeft, Nat.testBit_and, Nat.testBit_shiftRight]
    bits32 hi <;> simp [-Nat.testBit_zero] at h4 h18 ⊢
  refine ⟨?_, ?_, ?_, ?_⟩ <;>
  · apply Nat.eq_of_testBit_eq
    intro i
    rw [Nat.testBit_mod_two_pow, Nat.testBit_div_two_pow, Nat.zero_testBit]
    by_cases h : i < 6
    · simp only [Bool.and_eq_false_iff, decide_eq_false_iff_not]
      first
        | (right; apply key <;> omega)
        | (by_cases h' : i < 3
           · by_cases h'' : i < 2
             · right; apply key <;> omega
             · first | (right; apply key <;> omega) | (left; omega)
           · left; omega)
    · simp only [Bool.and_eq_false_iff, decide_eq_false_iff_not]
      left; omega

/-- C46 for the registers reported correctly: device capabilities and control (payload and read
request sizes), link status (speed, width), and the port number of Link Capabilities. Missing: the
link width, ASPM and latency fields of Link Capabilities, which are false. -/
theorem C46_pcie_fields_partial (s : PcieCapState) :
    readPcieCap s 1 % 2 ^ 3 = s.max_payload_size_supported % 8 ∧
    readPcieCap s 2 / 2 ^ 5 % 2 ^ 3 = s.max_payload_size % 8 ∧
    readPcieCap s 2 / 2 ^ 12 % 2 ^ 3 = s.max_read_request_size % 8 ∧
    readPcieCap s 3 / 2 ^ 24 % 2 ^ 8 = s.port_number % 256 ∧
    readPcieCap s 4 / 2 ^ 16 % 2 ^ 4 = s.current_link_speed % 16 ∧
    readPcieCap s 4 / 2 ^ 20 % 2 ^ 6 = s.negotiated_link_width % 64 := by
  refine ⟨?_, ?_, ?_, ?_, ?_, ?_⟩
  · refine Eq.trans ?_ (field_eq (readPcieCap1 s) s.max_payload_size_supported 0 3 fun i hi => ?_)
    · simp [readPcieCap]
    · have hi' : i < 32 := by omega
      unfold readPcieCap1
      simp only [Nat.testBit_or, testBit_flag, Nat.testBit_shiftLeft, Nat.testBit_and, Nat.testBit_shiftRight]
      bits32 hi' <;> simp [-Nat.testBit_zero] at hi ⊢
  · refine Eq.trans ?_ (field_eq (readPcieCap2 s) s.max_payload_size 5 3 fun i hi => ?_)
    · rfl
    · have hi' : i < 32 := by omega
      unfold readPcieCap2
      simp only [Nat.testBit_or, testBit_flag, Nat.testBit_shiftLeft, Nat.testBit_and, Nat.testBit_shiftRight]
      bits32 hi' <;> simp [-Nat.testBit_zero] at hi ⊢
  · refine Eq.trans ?_ (field_eq (readPcieCap2 s) s.max_read_request_size 12 3 fun i hi => ?_)
    · rfl
    · have hi' : i < 32 := by omega
      unfold readPcieCap2
      simp only [Nat.testBit_or, testBit_flag, Nat.testBit_shiftLeft, Nat.testBit_and, Nat.testBit_shiftRight]
      bits32 hi' <;> simp [-Nat.testBit_zero] at hi ⊢
  · refine Eq.trans ?_ (field_eq (readPcieCap3 s) s.port_number 24 8 fun i hi => ?_)
    · rfl
    · have hi' : i < 32 := by omega
      unfold readPcieCap3
      simp only [Nat.testBit_or, testBit_flag, Nat.testBit_shiftLeft, Nat.testBit_and, Nat.testBit_shiftRight]
      bits32 hi' <;> simp [-Nat.testBit_zero] at hi ⊢
  · refine Eq.trans ?_ (field_eq (readPcieCap4 s) s.current_link_speed 16 4 fun i hi => ?_)
    · rfl
    · have hi' : i < 32 := by omega
      unfold readPcieCap4
      simp only [Nat.testBit_or, testBit_flag, Nat.testBit_shiftLeft, Nat.testBit_and, Nat.testBit_shiftRight]
      bits32 hi' <;> simp [-Nat.testBit_zero] at hi ⊢
  · refine Eq.trans ?_ (field_eq (readPcieCap4 s) s.negotiated_link_width 20 6 fun i hi => ?_)
    · rfl
    · have hi' : i < 32 := by omega
      unfold readPcieCap4
      simp only [Nat.testBit_or, testBit_flag, Nat.testBit_shiftLeft, Nat.testBit_and, Nat.testBit_shiftRight]
      bits32 hi' <;> simp [-Nat.testBit_zero] at hi ⊢

/-! ### C47 -/

/-- C47, failure: an extended capability placed automatically starts at byte 0x100 (register
0x40), but no configuration read returns its header. -/
theorem C47_ext_cap_fails :
    ∃ l, registerCaps extCapStart [] [⟨3, some 1, 4, some 0, some 0, 0⟩, ⟨0x19, some 1, 4, some 1, some 1, 0⟩] = some l ∧
      ∀ s : ConfigState, s.capabilities = [] → s.ext_capabilities = l →
        readConfig s 0x40 = some 0 ∧ ∀ r v, readConfig s r = some v → 256 ≤ r → v = 0 := by
  refine ⟨[⟨3, some 1, 4, some 0, some 0, 0x40, some 0x110⟩, ⟨0x19, some 1, 4, some 1, some 1, 0x44, some 0⟩],
    by decide +kernel, fun s h1 h2 => ⟨?_, ?_⟩⟩
  · rw [readConfig_cap s 0x40 (by decide) (by decide), h1]; rfl
  · intro r v hv hr
    by_cases h4 : r < 4096
    · rw [readConfig_ext s r hr h4, h2] at hv
      unfold readExtCapRegister findByReg at hv
      rw [List.find?_cons_of_neg (by simp; omega), List.find?_cons_of_neg (by simp; omega)] at hv
      simpa using hv.symm
    · unfold readConfig readFunctionConfig at hv
      repeat rw [if_neg (by omega)] at hv
      simpa using hv.symm

/-- C47 when all extended capabilities sit at registers 256 to 1023: configuration reads walk the
list from its first entry and visit every registered capability exactly once. Missing: lower
registers, where extended configuration space starts in PCI Express, and the fixed entry point at
byte 0x100. -/
theorem C47_ext_cap_partial (start : Nat) (hstart : 0 < start ∧ start % 2 = 0) (args : List CapArgs)
    (h : ∀ a ∈ args, a.length % 2 = 0 ∧ a.offset % 2 = 0) (s : ConfigState)
    (hl : registerCaps start [] args = some s.ext_capabilities) (h2 : 2 ≤ s.ext_capabilities.length)
    (hspace : ∀ c ∈ s.ext_capabilities, 256 ≤ c.offset ∧ c.offset < 1024 ∧ c.cap_id < 65536 ∧ c.cap_ver ≠ none) :
    ExtWalk (readConfig s) (capPtr s.ext_capabilities) (s.ext_capabilities.map fun c => (c.offset, c.cap_id)) ∧
    ∀ i, i ∈ s.ext_capabilities.map (·.cap_id) ↔ i ∈ args.map (·.cap_id) := by
  obtain ⟨w1, _, w3, _⟩ := C16_ext_cap_chain_partial start hstart args h s.ext_capabilities hl h2
    (fun c hc => (hspace c hc).2) (fun _ _ => none)
  refine ⟨extWalk_congr w1 ?_, w3⟩
  intro x hx
  obtain ⟨c, hc, rfl⟩ := List.mem_map.1 hx
  obtain ⟨g1, g2, _⟩ := hspace c hc
  exact readConfig_ext s c.offset g1 (by omega)

example : (registerCaps extCapStart [] [⟨3, some 1, 4, some 0, some 0, 0x100⟩, ⟨0x19, some 1, 4, some 1, some 1, 0x200⟩]).map
    (·.map (·.offset)) = some [0x100, 0x200] := by decide +kernel

end Verif.Props
