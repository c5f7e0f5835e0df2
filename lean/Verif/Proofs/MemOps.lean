import Verif.Proofs.Tlp
import Verif.Spec.MemOps
import Verif.Model.MemOps
/-! Helper lemmas for C10-C14. -/
namespace Verif.Proofs
open Verif Verif.Model Verif.Spec

theorem bytesOfDword_some (w : Nat) (b : List UInt8) (h : bytesOfDword w = some b) :
    b = [UInt8.ofNat (w / 2 ^ (8 * 0)), UInt8.ofNat (w / 2 ^ (8 * 1)), UInt8.ofNat (w / 2 ^ (8 * 2)),
      UInt8.ofNat (w / 2 ^ (8 * 3))] := by
  unfold bytesOfDword at h
  split at h
  · simp only [Option.some.injEq] at h
    rw [← h]
    have e : ∀ x : Nat, UInt8.ofNat (x % 256) = UInt8.ofNat x := fun x => UInt8.ofNat_mod_size
    simp only [e]
    simp
  · cases h

theorem bytesOfDwords_payload : ∀ (ws : List Nat) (bs : List UInt8), bytesOfDwords ws = some bs →
    bs.length = 4 * ws.length ∧ ∀ i, bs.getD i 0 = payloadByte ws i
  | [], bs, h => by
    simp only [bytesOfDwords, Option.some.injEq] at h
    subst h
    refine ⟨rfl, fun i => ?_⟩
    simp [payloadByte]
  | w :: ws, bs, h => by
    simp only [bytesOfDwords, Option.bind_eq_bind, Option.bind_eq_some_iff, Option.pure_def,
      Option.some.injEq] at h
    obtain ⟨b, hb, r, hr, rfl⟩ := h
    obtain ⟨hl, hi⟩ := bytesOfDwords_payload ws r hr
    have hb' := bytesOfDword_some w b hb
    subst hb'
    refine ⟨by simp [hl]; omega, fun i => ?_⟩
    match i with
    | 0 => simp [payloadByte]
    | 1 => simp [payloadByte]
    | 2 => simp [payloadByte]
    | 3 => simp [payloadByte]
    | i + 4 =>
      have h1 : (i + 4) / 4 = i / 4 + 1 := by omega
      have h2 : (i + 4) % 4 = i % 4 := by omega
      have := hi i
      simp only [payloadByte, h1, h2, List.getD_cons_succ] at this ⊢
      simpa using this

theorem bytesOfDwords_of_lt : ∀ (ws : List Nat), (∀ w ∈ ws, w < 2 ^ 32) →
    ∃ bs, bytesOfDwords ws = some bs
  | [], _ => ⟨[], rfl⟩
  | w :: ws, h => by
    obtain ⟨bs, hb⟩ := bytesOfDwords_of_lt ws (fun x hx => h x (List.mem_cons_of_mem _ hx))
    have hw := h w List.mem_cons_self
    obtain ⟨b, hb'⟩ : ∃ b, bytesOfDword w = some b := ⟨_, if_pos hw⟩
    exact ⟨b ++ bs, by simp [bytesOfDwords, hb, hb']⟩

theorem bytesOfDwords_lt : ∀ (ws : List Nat) (bs : List UInt8), bytesOfDwords ws = some bs →
    ∀ w ∈ ws, w < 2 ^ 32
  | [], _, _ => by simp
  | w :: ws, bs, h => by
    simp only [bytesOfDwords, Option.bind_eq_bind, Option.bind_eq_some_iff, Option.pure_def,
      Option.some.injEq] at h
    obtain ⟨b, hb, r, hr, rfl⟩ := h
    intro x hx
    rcases List.mem_cons.1 hx with rfl | hx
    · unfold bytesOfDword at hb
      split at hb
      · assumption
      · cases hb
    · exact bytesOfDwords_lt ws r hr x hx

theorem setBe_legalBe (base : Tlp) (addr n : Nat) (hn : 1 ≤ n) : LegalByteEnables (base.setBe addr n) := by
  obtain ⟨g1, g2, g3, g4⟩ := setBe_cases base addr n hn
  have hs : (addr + n + 3) % 4 < 4 := Nat.mod_lt _ (by decide)
  have hr4 : addr % 4 < 4 := Nat.mod_lt _ (by decide)
  unfold LegalByteEnables
  rw [g3, g4, g2]
  have hlb : ∀ s < 4, (0xf >>> (3 - s) : Nat) < 16 ∧ (0xf >>> (3 - s) : Nat) ≠ 0 := by decide
  have hfb : ∀ r < 4, (0xf <<< r &&& 0xf : Nat) < 16 ∧ (0xf <<< r &&& 0xf : Nat) ≠ 0 := by decide
  have hfl : ∀ s < 4, ∀ r < 4, r ≤ s → (0xf <<< r &&& 0xf &&& 0xf >>> (3 - s) : Nat) ≠ 0 ∧
    (0xf <<< r &&& 0xf &&& 0xf >>> (3 - s) : Nat) < 16 := by decide
  by_cases h1' : (addr % 4 + n + 3) / 4 = 1
  · simp only [h1', if_true]
    have := hfl _ hs _ hr4 (by omega)
    exact ⟨this.2, by decide, this.1, by simp⟩
  · simp only [h1', if_false]
    exact ⟨(hfb _ hr4).1, (hlb _ hs).1, (hfb _ hr4).2, by simp [(hlb _ hs).2]⟩

theorem perform_eq (m : Mem) (t : Tlp) (p : List UInt8) (h : t.getData = some p) :
    perform m t = applyWrite m t.address t.length t.first_be t.last_be p := by
  have := (bytesOfDwords_payload _ _ h).2
  funext a
  unfold perform applyWrite
  rw [this]

/-- The length of a chunk respects the size setting, the page and the remaining data. -/
theorem chunkLen_bounds (addr rem lim : Nat) :
    chunkLen addr rem lim ≤ rem ∧ addr % 4 + chunkLen addr rem lim ≤ 128 * 2 ^ lim ∧
    addr % 4096 + chunkLen addr rem lim ≤ 4096 := by
  unfold chunkLen firstPad
  have h1 : addr &&& 0xfff = addr % 4096 := and_4095 addr
  have h2 : 128 ≤ 128 * 2 ^ lim := Nat.le_mul_of_pos_right _ (Nat.two_pow_pos lim)
  rw [h1, Nat.shiftLeft_eq]
  omega

/-- All facts about one write request TLP. -/
theorem writeTlp_facts (base : Tlp) (addr mps : Nat) (chunk : List UInt8) (hne : chunk ≠ [])
    (hm : addr % 4 + chunk.length ≤ 128 * 2 ^ mps) (hp : addr % 4096 + chunk.length ≤ 4096)
    (hf : base.fmt = (if addr > 0xffffffff then 3 else 2)) (ht : base.type = 0) :
    ∃ r, base.setBeData addr chunk = some r ∧ r.check = true ∧
      LegalMemRequest (32 * 2 ^ mps) r ∧ r.data.length = r.length ∧
      (LegalByteEnables r ∧ (∀ w ∈ r.data, w < 2 ^ 32) ∧ r.address = addr - addr % 4 ∧
        r.length = (addr % 4 + chunk.length + 3) / 4) ∧
      (∀ a, Enabled r a ↔ addr ≤ a ∧ a < addr + chunk.length) ∧
      (∀ m, perform m r = store m addr chunk) ∧
      (∃ a l f b d, r = { base with address := a, length := l, first_be := f, last_be := b, data := d }) := by
  obtain ⟨r, ws, h1, h2, h3, h4, h5⟩ := setBeData_spec base addr chunk
  have hl : 1 ≤ chunk.length := by
    cases chunk with
    | nil => exact absurd rfl hne
    | cons _ _ => simp
  have hlen : r.length = (base.setBe addr chunk.length).length := by
    rw [setBe_length base addr _ hl, h2]; exact h3
  have e1 : r.address = (base.setBe addr chunk.length).address := by rw [h2]
  have e2 : r.first_be = (base.setBe addr chunk.length).first_be := by rw [h2]
  have e3 : r.last_be = (base.setBe addr chunk.length).last_be := by rw [h2]
  have hframe : ∃ a l f b d, r = { base with address := a, length := l, first_be := f, last_be := b, data := d } := by
    refine ⟨r.address, r.length, r.first_be, r.last_be, r.data, ?_⟩
    rw [h2]
    unfold Tlp.setBe
    simp only []
    split <;> rfl
  obtain ⟨a', l', f', b', d', hr⟩ := id hframe
  have hfmt : r.fmt = base.fmt := by rw [hr]
  have htype : r.type = base.type := by rw [hr]
  have ha : r.address = addr - addr % 4 := by rw [e1, setBe_address]
  have hlen' : r.length = (addr % 4 + chunk.length + 3) / 4 := by rw [hlen, setBe_length base addr _ hl]
  have hdl : r.data.length = r.length := by rw [h2]
  have hlegal : LegalMemRequest (32 * 2 ^ mps) r := by
    refine ⟨⟨addr / 4, by omega⟩, by omega, by omega, by omega, ?_⟩
    rw [hfmt, hf, ha]
    split <;> omega
  have hbe := setBe_legalBe base addr chunk.length hl
  unfold LegalByteEnables at hbe
  rw [← e2, ← e3, ← hlen] at hbe
  refine ⟨r, h1, ?_, hlegal, hdl, ⟨hbe, bytesOfDwords_lt _ _ h5, ha, hlen'⟩, ?_, ?_, hframe⟩
  · unfold Tlp.check
    have h4k : ¬ r.length * 4 > 4096 - (r.address &&& 4095) := by rw [and_4095]; omega
    have hft : r.fmt_type = (base.fmt, 0) := by unfold Tlp.fmt_type; rw [hfmt, htype, ht]
    have hnio : ¬ (r.fmt_type = TLP_IO_READ ∨ r.fmt_type = TLP_IO_WRITE) := by
      rw [hft]; simp [TLP_IO_READ, TLP_IO_WRITE]
    have hncpl : ¬ (r.fmt_type = TLP_CPL_DATA) := by
      rw [hft]; simp [TLP_CPL_DATA]
    simp only [hnio, hncpl, if_false, hdl, h4k]
    simp
  · intro a
    unfold Enabled
    rw [e1, e2, e3, hlen]
    exact setBe_enabled base addr chunk.length hl a
  · intro m
    rw [perform_eq m r _ h5]
    have hen := setBe_enabled base addr chunk.length hl
    funext a
    unfold applyWrite store
    rw [e1, e2, e3, hlen]
    simp only [hen]
    split
    · rename_i hin
      rw [setBe_address, List.append_assoc, List.getD_eq_getElem?_getD,
        List.getElem?_append_right (by simp; omega), List.getElem?_append_left (by simp; omega),
        List.getD_eq_getElem?_getD, List.length_replicate]
      congr 2
      omega
    · rfl

theorem memWriteLoop_spec (requester : PcieId) (mps attr tc : Nat) (addr : Nat) (data : List UInt8) :
    ∃ ts, memWriteLoop requester mps attr tc addr data = some ts ∧ Covers addr data ts ∧
      ∀ t ∈ ts, LegalMemRequest (32 * 2 ^ mps) t ∧ t.check = true ∧ t.data.length = t.length ∧
        (t.fmt = 2 ∨ t.fmt = 3) ∧ t.type = 0 ∧ t.requester_id = requester ∧ t.attr = attr ∧ t.tc = tc ∧
        LegalByteEnables t ∧ (∀ w ∈ t.data, w < 2 ^ 32) ∧
        addr - addr % 4 ≤ t.address ∧ t.address + 4 * t.length ≤ addr + data.length + 3 := by
  fun_induction memWriteLoop requester mps attr tc addr data with
  | case1 addr data hpos tlp0 tlp1 tlp2 bl ih =>
    obtain ⟨hb1, hb2, hb3⟩ := chunkLen_bounds addr data.length mps
    have hb0 := chunkLen_pos addr data.length mps hpos
    have htl : (data.take bl).length = bl := by
      rw [List.length_take]; exact Nat.min_eq_left hb1
    have hne : data.take bl ≠ [] := by
      intro h; rw [h] at htl; simp at htl; omega
    have hfmt : tlp2.fmt = (if addr > 0xffffffff then 3 else 2) := by
      simp only [tlp2, tlp1, tlp0, Tlp.setFmtType]; split <;> rfl
    have htype : tlp2.type = 0 := by
      simp only [tlp2, tlp1, tlp0, Tlp.setFmtType]; split <;> rfl
    obtain ⟨r, h1, h2, h3, h4, ⟨k1, k2, k3, k4⟩, h5, h6, h7⟩ := writeTlp_facts tlp2 addr mps (data.take bl) hne
      (by rw [htl]; exact hb2) (by rw [htl]; exact hb3) hfmt htype
    obtain ⟨ts, i1, i2, i3⟩ := ih
    refine ⟨r :: ts, ?_, ?_, ?_⟩
    · rw [h1]; simp [h2, i1]
    · have := Covers.cons addr (data.take bl) (data.drop bl) r ts hne h5 h6 (by rw [htl]; exact i2)
      rwa [List.take_append_drop] at this
    · intro t ht
      rcases List.mem_cons.1 ht with rfl | ht
      · obtain ⟨a, l, f, b, d, hr⟩ := h7
        rw [htl] at k4
        have hb1' : bl ≤ data.length := hb1
        refine ⟨h3, h2, h4, ?_, ?_, ?_, ?_, ?_, k1, k2, by omega, by omega⟩
        · rw [hr]; simp only [hfmt]; split <;> simp
        · rw [hr]; simp only [htype]
        · rw [hr]
        · rw [hr]
        · rw [hr]
      · obtain ⟨j1, j2, j3, j4, j5, j6, j7, j8, j9, j10, j11, j12⟩ := i3 t ht
        have hb1' : bl ≤ data.length := hb1
        rw [List.length_drop] at j12
        exact ⟨j1, j2, j3, j4, j5, j6, j7, j8, j9, j10, by omega, by omega⟩
  | case2 addr data hpos =>
    have : data = [] := by
      cases data with
      | nil => rfl
      | cons _ _ => simp at hpos
    subst this
    exact ⟨[], rfl, Covers.nil _, by simp⟩

theorem foldl_perform_of_covers (addr : Nat) (data : List UInt8) (ts : List Tlp)
    (h : Covers addr data ts) : ∀ m, ts.foldl perform m = store m addr data := by
  induction h with
  | nil addr =>
    intro m; funext a; simp [store]; intro h1 h2; omega
  | cons addr chunk rest t ts hne hen hperf _ ih =>
    intro m
    rw [List.foldl_cons, ih, hperf]
    funext a
    unfold store
    by_cases h1 : addr + chunk.length ≤ a ∧ a < addr + chunk.length + rest.length
    · rw [if_pos h1, if_pos (by rw [List.length_append]; omega), List.getD_eq_getElem?_getD,
        List.getD_eq_getElem?_getD, List.getElem?_append_right (by omega)]
      congr 2; omega
    · rw [if_neg h1]
      by_cases h2 : addr ≤ a ∧ a < addr + chunk.length
      · rw [if_pos h2, if_pos (by rw [List.length_append]; omega), List.getD_eq_getElem?_getD,
          List.getD_eq_getElem?_getD, List.getElem?_append_left (by omega)]
      · rw [if_neg h2, if_neg (by rw [List.length_append]; omega)]

end Verif.Proofs
