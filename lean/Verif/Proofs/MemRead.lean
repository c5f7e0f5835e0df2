import Verif.Proofs.MemWrite
/-! Completion splitting and consumption (C11-C13). -/
namespace Verif.Proofs
open Verif Verif.Model Verif.Spec

theorem shl_ge (k m : Nat) : k ≤ k <<< m := by
  rw [Nat.shiftLeft_eq]; exact Nat.le_mul_of_pos_right _ (Nat.two_pow_pos m)

/-- One completion built by `cplLoop`. -/
theorem cpl_facts (tlp : Tlp) (completer : PcieId) (mem : Mem) (data : List UInt8)
    (A len m L n bl addr : Nat) (hdl : data.length = 4 * len)
    (hdb : ∀ i, i < 4 * len → data.getD i 0 = mem (A + i))
    (hL : m + L ≤ len) (ha : addr - addr % 4 = A + 4 * m)
    (hbc : 4 * L ≤ bl - n + addr % 4 + 3) :
    let cpl := ({} : Tlp).setCompletionData tlp completer
    let cpl := { cpl with byte_count := bl - n, lower_address := addr &&& 0x7f }
    ∃ c, cpl.setData (pySlice data (m * 4) ((m + L) * 4)) = some c ∧ c.check = true ∧
      c.byte_count = bl - n ∧ c.lower_address = addr % 128 ∧ c.length = L ∧ c.data.length = c.length ∧
      (∀ i, i < 4 * c.length → payloadByte c.data i = mem (addr - addr % 4 + i)) ∧
      AnswersWithData tlp completer c := by
  intro cpl0 cpl
  have hsl : (pySlice data (m * 4) ((m + L) * 4)).length = 4 * L := by
    rw [pySlice_length _ _ _ (by omega)]; omega
  obtain ⟨ws, h1, h2, h3, h4⟩ := dwordsOfBytes_some (pySlice data (m * 4) ((m + L) * 4)) (by omega)
  obtain ⟨h5, h6⟩ := bytesOfDwords_payload _ _ h2
  have hwl : ws.length = L := by omega
  refine ⟨{ cpl with data := ws, length := ws.length }, by simp [Tlp.setData, h1], ?_, rfl, ?_, hwl, rfl, ?_, ?_⟩
  · unfold Tlp.check
    have e : (addr &&& 127) &&& 3 = addr % 4 := by rw [and_127, and_3]; omega
    simp [cpl, cpl0, Tlp.fmt_type, Tlp.setCompletionData, Tlp.setCompletion, Tlp.setFmtType, e, hwl]
    omega
  · show addr &&& 0x7f = addr % 128
    rw [and_127]
  · intro i hi
    simp only [hwl] at hi
    show payloadByte ws i = _
    rw [← h6, pySlice_getD _ _ _ _ (by omega), hdb _ (by omega), ha]
    congr 1; omega
  · exact ⟨rfl, rfl, rfl, rfl, rfl, rfl, rfl, h4⟩

theorem cplLoop_spec (tlp : Tlp) (completer : PcieId) (mps : Nat) (mem : Mem) (data : List UInt8)
    (A len bl fo lo : Nat) (hA : 4 ∣ A) (hdl : data.length = 4 * len)
    (hdb : ∀ i, i < 4 * len → data.getD i 0 = mem (A + i))
    (hbl : bl + fo + lo = 4 * len) (hlo : lo ≤ 3) (m n addr : Nat) (hm : m < len)
    (ha : addr - addr % 4 = A + 4 * m) (hn : addr = A + fo + n) (hnb : n < bl) :
    ∃ cs, cplLoop tlp completer mps data len bl m n addr = some cs ∧
      Delivers 128 mem addr (bl - n) cs ∧
      ∀ c ∈ cs, AnswersWithData tlp completer c ∧ c.check = true ∧ c.length ≤ 32 * 2 ^ mps := by
  fun_induction cplLoop tlp completer mps data len bl m n addr with
  | case1 m n addr hlt cpl0 L cpl1 ih =>
    obtain ⟨q, hq⟩ := hA
    have hLpos : 0 < L := cplDwLen_pos addr (len - m) mps (by omega)
    have hshl : (32 : Nat) <<< mps = 32 * 2 ^ mps := Nat.shiftLeft_eq _ _
    have hge : 32 ≤ 32 * 2 ^ mps := Nat.le_mul_of_pos_right _ (Nat.two_pow_pos mps)
    have hand3 : addr &&& 3 = addr % 4 := and_3 addr
    by_cases hbig : len - m > 32 <<< mps
    · have hLd : L = 32 * 2 ^ mps - addr / 4 % 32 := by
        simp only [L, cplDwLen, if_pos hbig]
        rw [and_7c, Nat.shiftRight_eq_div_pow, hshl]
        omega
      obtain ⟨c, f1, f2, f3, f4, f5, f6, f7, f8⟩ := cpl_facts tlp completer mem data A len m L n bl
        addr hdl hdb (by omega) ha (by omega)
      obtain ⟨cs, i1, i2, i3⟩ := ih (by omega) (by rw [hand3]; omega) (by rw [hand3]; omega)
        (by rw [hand3]; omega)
      refine ⟨c :: cs, ?_, ?_, ?_⟩
      · have f1' : cpl1.setData (pySlice data (m * 4) ((m + L) * 4)) = some c := f1
        rw [f1']
        simp [f2, i1]
      · have hsplit : bl - n = (L * 4 - addr % 4) + (bl - (n + (L * 4 - addr % 4))) := by omega
        rw [hand3] at i2
        rw [hsplit]
        refine Delivers.more addr _ _ c cs (by omega) (by rw [f3]; omega) f4 (by rw [f5]; omega) f6
          ?_ f7 i2
        have e : addr + (L * 4 - addr % 4) = 128 * (addr / 128 + 2 ^ mps) := by omega
        rw [e, Nat.mul_mod_right]
      · intro x hx
        rcases List.mem_cons.1 hx with rfl | hx
        · exact ⟨f8, f2, by rw [f5]; omega⟩
        · exact i3 x hx
    · have hLd : L = len - m := by simp only [L, cplDwLen, if_neg hbig]
      obtain ⟨c, f1, f2, f3, f4, f5, f6, f7, f8⟩ := cpl_facts tlp completer mem data A len m L n bl
        addr hdl hdb (by omega) ha (by omega)
      have f1' : cpl1.setData (pySlice data (m * 4) ((m + L) * 4)) = some c := f1
      refine ⟨[c], ?_, ?_, ?_⟩
      · rw [f1']
        have : cplLoop tlp completer mps data len bl (m + L) (n + (L * 4 - (addr &&& 3)))
            (addr + (L * 4 - (addr &&& 3))) = some [] := by
          rw [cplLoop, dif_neg (by omega)]
        simp [f2, this]
      · exact Delivers.last addr _ c (by omega) f3 f4 (by rw [f5]; omega) f6 f7
      · intro x hx
        rw [List.mem_singleton] at hx
        subst hx
        exact ⟨f8, f2, by rw [f5]; omega⟩
  | case2 m n addr hlt => exact absurd hm hlt

/-- A request's first enabled byte and byte count are what the helpers compute. -/
theorem be_helpers_general (t : Tlp) (h : LegalByteEnables t) (hlen : 1 ≤ t.length)
    (hal : 4 ∣ t.address) (f l : Nat) (hfl : FirstLast t f l) :
    t.address + t.getFirstBeOffset = f ∧ t.getBeByteCount = l - f + 1 ∧
    t.getBeByteCount + t.getFirstBeOffset + t.getLastBeOffset = 4 * t.length ∧
    t.getFirstBeOffset ≤ 3 ∧ t.getLastBeOffset ≤ 3 ∧ 0 < t.getBeByteCount := by
  obtain ⟨h1, h2, h3, h4⟩ := h
  obtain ⟨q, hq⟩ := hal
  have hfirst : ∀ be < 16, be ≠ 0 →
      let o := (if be &&& 7 = 0 then 3 else if be &&& 3 = 0 then 2 else if be &&& 1 = 0 then 1 else 0)
      o ≤ 3 ∧ be.testBit o = true ∧ ∀ i < o, be.testBit i = false := by decide
  have hlast : ∀ be < 16, be ≠ 0 →
      let o := (if be &&& 15 = 1 then 3 else if be &&& 14 = 2 then 2 else if be &&& 12 = 4 then 1 else 0)
      o ≤ 3 ∧ be.testBit (3 - o) = true ∧ ∀ i < 4, 3 - o < i → be.testBit i = false := by decide
  have hmod : ∀ i, (t.address + i) % 4 = i % 4 := by intro i; omega
  have hF := hfirst t.first_be h1 h3
  have hFo : t.getFirstBeOffset = (if t.first_be &&& 7 = 0 then 3 else if t.first_be &&& 3 = 0 then 2
      else if t.first_be &&& 1 = 0 then 1 else 0) := rfl
  simp only [← hFo] at hF
  obtain ⟨hF1, hF2, hF3⟩ := hF
  -- the mask of the last DWORD
  have hL : t.getLastBeOffset ≤ 3 ∧
      (if t.length = 1 then t.first_be else t.last_be).testBit (3 - t.getLastBeOffset) = true ∧
      ∀ i < 4, 3 - t.getLastBeOffset < i →
        (if t.length = 1 then t.first_be else t.last_be).testBit i = false := by
    by_cases hl1 : t.length = 1
    · have := hlast t.first_be h1 h3
      have e : t.getLastBeOffset = (if t.first_be &&& 15 = 1 then 3 else if t.first_be &&& 14 = 2 then 2
        else if t.first_be &&& 12 = 4 then 1 else 0) := by simp [Tlp.getLastBeOffset, hl1]
      simp only [← e] at this
      simpa [hl1] using this
    · have := hlast t.last_be h2 (by intro h; exact hl1 (h4.1 h))
      have e : t.getLastBeOffset = (if t.last_be &&& 15 = 1 then 3 else if t.last_be &&& 14 = 2 then 2
        else if t.last_be &&& 12 = 4 then 1 else 0) := by simp [Tlp.getLastBeOffset, hl1]
      simp only [← e] at this
      simpa [hl1] using this
  obtain ⟨hL1, hL2, hL3⟩ := hL
  have hlow : Enabled t (t.address + t.getFirstBeOffset) ∧
      ∀ a, Enabled t a → t.address + t.getFirstBeOffset ≤ a := by
    constructor
    · unfold Enabled enabled
      rw [decide_eq_true (by omega), if_pos (by omega), hmod, Nat.mod_eq_of_lt (by omega), hF2]
      rfl
    · intro a ha
      unfold Enabled enabled at ha
      simp only [Bool.and_eq_true, decide_eq_true_eq] at ha
      obtain ⟨⟨ha1, ha2⟩, ha3⟩ := ha
      apply Decidable.byContradiction
      intro hc
      rw [if_pos (by omega)] at ha3
      have : a % 4 = a - t.address := by omega
      rw [this, hF3 _ (by omega)] at ha3
      cases ha3
  have hhigh : Enabled t (t.address + 4 * t.length - 1 - t.getLastBeOffset) ∧
      ∀ a, Enabled t a → a ≤ t.address + 4 * t.length - 1 - t.getLastBeOffset := by
    constructor
    · unfold Enabled enabled
      have hm' : (t.address + 4 * t.length - 1 - t.getLastBeOffset) % 4 = 3 - t.getLastBeOffset := by omega
      rw [decide_eq_true (by omega), hm']
      by_cases hl1 : t.length = 1
      · rw [if_pos (by omega)]; rw [if_pos hl1] at hL2; rw [hL2]; rfl
      · rw [if_neg (by omega), if_pos (by omega)]; rw [if_neg hl1] at hL2; rw [hL2]; rfl
    · intro a ha
      unfold Enabled enabled at ha
      simp only [Bool.and_eq_true, decide_eq_true_eq] at ha
      obtain ⟨⟨ha1, ha2⟩, ha3⟩ := ha
      apply Decidable.byContradiction
      intro hc
      by_cases hl1 : t.length = 1
      · rw [if_pos (by omega)] at ha3; rw [if_pos hl1] at hL3
        rw [hL3 _ (by omega) (by omega)] at ha3; cases ha3
      · rw [if_neg (by omega), if_pos (by omega)] at ha3; rw [if_neg hl1] at hL3
        rw [hL3 _ (by omega) (by omega)] at ha3; cases ha3
  obtain ⟨g1, g2, g3⟩ := hfl
  have ef : t.address + t.getFirstBeOffset = f :=
    Nat.le_antisymm (hlow.2 f g1) (g3 _ hlow.1).1
  have el : t.address + 4 * t.length - 1 - t.getLastBeOffset = l :=
    Nat.le_antisymm (g3 _ hhigh.1).2 (hhigh.2 l g2)
  have hfl' : f ≤ l := (g3 _ g1).2
  unfold Tlp.getBeByteCount
  refine ⟨ef, ?_, ?_, hF1, hL1, ?_⟩ <;> omega

theorem handleMemRead_general (read : Nat → Nat → Option (List UInt8)) (completer : PcieId)
    (mps : Nat) (tlp : Tlp) (raddr : Nat) (mem : Mem) (fo lo : Nat)
    (hal : 4 ∣ tlp.address) (hlen : 1 ≤ tlp.length)
    (hfo : tlp.getFirstBeOffset = fo) (hfo3 : fo ≤ 3) (hlo3 : lo ≤ 3)
    (hbl : tlp.getBeByteCount + fo + lo = 4 * tlp.length) (hpos : 0 < tlp.getBeByteCount)
    (h4k : raddr % 4096 + 4 * tlp.length ≤ 4096)
    (hread : read raddr (tlp.length * 4) = some (load mem tlp.address (4 * tlp.length))) :
    ∃ cs, handleMemRead read completer mps tlp raddr = some cs ∧
      Delivers 128 mem (tlp.address + fo) tlp.getBeByteCount cs ∧
      ∀ c ∈ cs, AnswersWithData tlp completer c ∧ c.check = true ∧ c.length ≤ 32 * 2 ^ mps := by
  unfold handleMemRead
  have hno : ¬ (tlp.length * 4 > 0x1000 - (raddr &&& 0xfff)) := by
    have : raddr &&& 0xfff = raddr % 4096 := and_4095 raddr
    rw [this]; omega
  rw [if_neg hno, hread]
  simp only [Option.bind_eq_bind, Option.bind_some]
  obtain ⟨q, hq⟩ := id hal
  have h := cplLoop_spec tlp completer mps mem (load mem tlp.address (4 * tlp.length)) tlp.address
    tlp.length tlp.getBeByteCount fo lo hal (by simp [load]) (by
      intro i hi
      simp [load, hi]) hbl hlo3 0 0 (tlp.address + fo) (by omega) (by omega) (by omega) hpos
  rw [hfo]
  simpa using h

theorem delivers_pos {rcb : Nat} {mem : Mem} {a n : Nat} {cs : List Tlp}
    (h : Delivers rcb mem a n cs) : 0 < n := by
  induction h with
  | last => assumption
  | more => omega

theorem load_append (mem : Mem) (a k n : Nat) : load mem a (k + n) = load mem a k ++ load mem (a + k) n := by
  apply List.ext_getElem
  · simp [load]
  · intro i h1 h2
    simp only [load, List.getElem_map, List.getElem_range, List.getElem_append, List.length_map,
      List.length_range]
    split
    · rfl
    · congr 1; omega

theorem eq_load (mem : Mem) (a k : Nat) (l : List UInt8) (hl : l.length = k)
    (h : ∀ i, i < k → l.getD i 0 = mem (a + i)) : l = load mem a k := by
  apply List.ext_getElem
  · simp [load, hl]
  · intro i h1 h2
    have := h i (by omega)
    rw [List.getD_eq_getElem?_getD, List.getElem?_eq_getElem h1, Option.getD_some] at this
    simp [load, this]

theorem consumeCpls_spec {rcb : Nat} {mem : Mem} {a n : Nat} {cs : List Tlp}
    (h : Delivers rcb mem a n cs) :
    ∀ (bl m : Nat) (acc : List UInt8), m + n = bl →
      (∀ c ∈ cs, c.status = 0 ∧ ∀ w ∈ c.data, w < 2 ^ 32) →
      consumeCpls bl m acc cs = some (acc ++ load mem a n, []) := by
  induction h with
  | last a n c hn hbc hla hl hdl hb =>
    intro bl m acc hm hc
    obtain ⟨hs, hw⟩ := hc c List.mem_cons_self
    obtain ⟨d, hd⟩ := bytesOfDwords_of_lt c.data hw
    obtain ⟨hd1, hd2⟩ := bytesOfDwords_payload _ _ hd
    have hla3 : c.lower_address &&& 3 = a % 4 := by rw [hla, and_3]; omega
    have htake : c.data.take c.length = c.data := List.take_of_length_le (by omega)
    unfold consumeCpls
    rw [if_pos (by omega)]
    have c1 : ¬ c.status ≠ CPL_STATUS_SC := by rw [hs]; simp
    have c2 : ¬ ¬ (c.byte_count + 3 + (c.lower_address &&& 3) ≥ c.length * 4) := by
      rw [hla3, hbc, hl]; omega
    have c3 : ¬ ¬ (c.byte_count = bl - m) := by omega
    have c4 : ¬ (c.data.length < c.length) := by omega
    have c5 : ¬ (d.length < c.lower_address &&& 3) := by rw [hla3, hd1, hdl, hl]; omega
    simp only [if_neg c1, if_neg c2, if_neg c3, if_neg c4, htake, hd, Option.bind_eq_bind,
      Option.bind_some, if_neg c5]
    unfold consumeCpls
    rw [if_neg (by rw [hla3, hd1, hdl, hl]; omega)]
    congr 2
    congr 1
    rw [hla3, hbc]
    apply eq_load
    · rw [pySlice_length _ _ _ (by rw [hd1, hdl, hl]; omega)]; omega
    · intro i hi
      rw [pySlice_getD _ _ _ _ (by omega), hd2, hb _ (by rw [hl]; omega)]
      congr 1; omega
  | more a k n c cs hk hbc hla hl hdl hrcb hb hrest ih =>
    intro bl m acc hm hc
    have hn := delivers_pos hrest
    obtain ⟨hs, hw⟩ := hc c List.mem_cons_self
    obtain ⟨d, hd⟩ := bytesOfDwords_of_lt c.data hw
    obtain ⟨hd1, hd2⟩ := bytesOfDwords_payload _ _ hd
    have hla3 : c.lower_address &&& 3 = a % 4 := by rw [hla, and_3]; omega
    have htake : c.data.take c.length = c.data := List.take_of_length_le (by omega)
    unfold consumeCpls
    rw [if_pos (by omega)]
    have c1 : ¬ c.status ≠ CPL_STATUS_SC := by rw [hs]; simp
    have c2 : ¬ ¬ (c.byte_count + 3 + (c.lower_address &&& 3) ≥ c.length * 4) := by
      rw [hla3, hbc]; omega
    have c3 : ¬ ¬ (c.byte_count = bl - m) := by omega
    have c4 : ¬ (c.data.length < c.length) := by omega
    have c5 : ¬ (d.length < c.lower_address &&& 3) := by rw [hla3, hd1, hdl]; omega
    simp only [if_neg c1, if_neg c2, if_neg c3, if_neg c4, htake, hd, Option.bind_eq_bind,
      Option.bind_some, if_neg c5]
    rw [ih bl _ _ (by rw [hla3, hd1, hdl]; omega) (fun x hx => hc x (List.mem_cons_of_mem _ hx)),
      load_append, ← List.append_assoc]
    congr 3
    rw [hla3, hbc]
    have e : pySlice d (a % 4) (a % 4 + (k + n)) = pySlice d (a % 4) (4 * c.length) := by
      unfold pySlice
      rw [List.take_of_length_le (by omega), List.take_of_length_le (by omega)]
    rw [e]
    congr 1
    apply eq_load
    · rw [pySlice_length _ _ _ (by omega)]; omega
    · intro i hi
      rw [pySlice_getD _ _ _ _ (by omega), hd2, hb _ (by omega)]
      congr 1; omega

/-- The request TLP of `mem_read`. -/
theorem readRequest_facts (requester : PcieId) (tag attr tc addr n mrrs : Nat) (hn : 1 ≤ n)
    (h1 : addr % 4 + n ≤ 128 * 2 ^ mrrs) (h2 : addr % 4096 + n ≤ 4096) :
    let t := readRequest requester tag attr tc addr n
    t.check = true ∧ LegalMemRequest (32 * 2 ^ mrrs) t ∧ LegalByteEnables t ∧
      (∀ a, Enabled t a ↔ addr ≤ a ∧ a < addr + n) ∧
      (t.fmt = 0 ∨ t.fmt = 1) ∧ t.type = 0 ∧ t.requester_id = requester ∧ t.tag = tag ∧
      t.attr = attr ∧ t.tc = tc := by
  intro t
  let base : Tlp := { ({} : Tlp).setFmtType (if addr > 0xffffffff then TLP_MEM_READ_64 else TLP_MEM_READ) with
    requester_id := requester, tag := tag, attr := attr, tc := tc }
  have ht : t = base.setBe addr n := rfl
  have hfields : t.fmt = base.fmt ∧ t.type = base.type ∧ t.requester_id = base.requester_id ∧
      t.tag = base.tag ∧ t.attr = base.attr ∧ t.tc = base.tc := by
    rw [ht]; unfold Tlp.setBe; simp only []
    split <;> simp
  obtain ⟨f1, f2, f3, f4, f5, f6⟩ := hfields
  have hbf : base.fmt = (if addr > 0xffffffff then 1 else 0) := by
    simp only [base, Tlp.setFmtType]; split <;> rfl
  have hbt : base.type = 0 := by
    simp only [base, Tlp.setFmtType]; split <;> rfl
  have ha : t.address = addr - addr % 4 := by rw [ht, setBe_address]
  have hl : t.length = (addr % 4 + n + 3) / 4 := by rw [ht, setBe_length base addr n hn]
  refine ⟨?_, ?_, ?_, ?_, ?_, by rw [f2, hbt], f3, f4, f5, f6⟩
  · unfold Tlp.check
    have h4k : ¬ t.length * 4 > 4096 - (t.address &&& 4095) := by rw [and_4095]; omega
    have hft : t.fmt_type = (base.fmt, 0) := by unfold Tlp.fmt_type; rw [f1, f2, hbt]
    have hnio : ¬ (t.fmt_type = TLP_IO_READ ∨ t.fmt_type = TLP_IO_WRITE) := by
      rw [hft]; simp [TLP_IO_READ, TLP_IO_WRITE]
    have hncpl : ¬ (t.fmt_type = TLP_CPL_DATA) := by
      rw [hft]; simp [TLP_CPL_DATA]
    have hnd : ¬ (t.fmt = FMT_3DW_DATA ∨ t.fmt = FMT_4DW_DATA) := by
      rw [f1, hbf]; split <;> simp [FMT_3DW_DATA, FMT_4DW_DATA]
    simp only [hnio, hncpl, hnd, if_false, h4k]
    simp
  · refine ⟨⟨addr / 4, by omega⟩, by omega, by omega, by omega, ?_⟩
    rw [f1, hbf, ha]
    split <;> omega
  · rw [ht]; exact setBe_legalBe base addr n hn
  · intro a
    unfold Enabled
    rw [ht]
    exact setBe_enabled base addr n hn a
  · rw [f1, hbf]; split <;> simp

theorem memReadLoop_spec (rcb : Nat) (mem : Mem) (respond : Tlp → Option (List Tlp))
    (nextTag : Nat → Nat) (mrrs attr tc tag addr rem : Nat)
    (lo hi : Nat) (hlo4 : 4 ∣ lo) (hhi4 : 4 ∣ hi) (hlo : lo ≤ addr) (hhi : addr + rem ≤ hi)
    (hr : Conforming rcb mem lo hi (32 * 2 ^ mrrs) respond) :
    ∃ reqs, memReadLoop respond nextTag mrrs attr tc tag addr rem = some (load mem addr rem, reqs) ∧
      Asks addr rem reqs ∧
      ∀ t ∈ reqs, LegalMemRequest (32 * 2 ^ mrrs) t ∧ LegalByteEnables t ∧ t.check = true ∧
        (t.fmt = 0 ∨ t.fmt = 1) ∧ t.type = 0 := by
  fun_induction memReadLoop respond nextTag mrrs attr tc tag addr rem with
  | case1 tag addr rem hpos tag' bl tlp hck ih =>
    obtain ⟨hb1, hb2, hb3⟩ := chunkLen_bounds addr rem mrrs
    have hb0 := chunkLen_pos addr rem mrrs hpos
    obtain ⟨f1, f2, f3, f4, f5, f6, _⟩ := readRequest_facts ⟨0, 0, 0⟩ tag' attr tc addr bl mrrs
      hb0 hb2 hb3
    obtain ⟨p, hp⟩ := id hlo4
    obtain ⟨q, hq⟩ := id hhi4
    have hb1' : bl ≤ rem := hb1
    have hb0' : 0 < bl := hb0
    have hta : (readRequest ⟨0, 0, 0⟩ tag' attr tc addr bl).address = addr - addr % 4 :=
      setBe_address _ _ _
    have htl : (readRequest ⟨0, 0, 0⟩ tag' attr tc addr bl).length = (addr % 4 + bl + 3) / 4 :=
      setBe_length _ _ _ hb0
    obtain ⟨cs, e1, e2, e3⟩ := hr _ addr bl f2 f3 hb0 f4 (by omega) (by omega)
    have e4 := consumeCpls_spec e2 bl 0 [] (by omega) e3
    obtain ⟨reqs, i1, i2, i3⟩ := ih (by omega) (by omega)
    have hsplit : rem = bl + (rem - bl) := by
      have : bl ≤ rem := hb1
      omega
    refine ⟨tlp :: reqs, ?_, ?_, ?_⟩
    · have e1' : respond tlp = some cs := e1
      rw [e1']
      simp only [Option.bind_eq_bind, Option.bind_some, e4, i1, List.nil_append]
      conv => rhs; rw [hsplit, load_append]
      rfl
    · rw [hsplit]
      exact Asks.cons addr bl _ tlp reqs hb0 f4 i2
    · intro t ht
      rcases List.mem_cons.1 ht with rfl | ht
      · exact ⟨f2, f3, f1, f5, f6⟩
      · exact i3 t ht
  | case2 tag addr rem hpos tag' bl tlp hck =>
    obtain ⟨hb1, hb2, hb3⟩ := chunkLen_bounds addr rem mrrs
    have hb0 := chunkLen_pos addr rem mrrs hpos
    obtain ⟨f1, _⟩ := readRequest_facts ⟨0, 0, 0⟩ tag' attr tc addr bl mrrs hb0 hb2 hb3
    exact absurd f1 hck
  | case3 tag addr rem hpos =>
    have : rem = 0 := by omega
    subst this
    exact ⟨[], by simp [load], Asks.nil _, by simp⟩

/-- The memory completer of the code conforms, whatever it uses to read memory. `raddr` gives the
address passed to `read`. -/
theorem handleMemRead_conforming (read : Nat → Nat → Option (List UInt8)) (raddr : Nat → Nat)
    (mem : Mem) (completer : PcieId) (mps lo hi maxDw : Nat) (respond : Tlp → Option (List Tlp))
    (hresp : ∀ t, lo ≤ t.address → t.address + 4 * t.length ≤ hi → 1 ≤ t.length →
      respond t = handleMemRead read completer mps t (raddr t.address))
    (hread : ∀ a n, lo ≤ a → a + n ≤ hi → 0 < n → read (raddr a) n = some (load mem a n))
    (h4k : ∀ a n, lo ≤ a → a + n ≤ hi → a % 4096 + n ≤ 4096 → raddr a % 4096 + n ≤ 4096) :
    Conforming 128 mem lo hi maxDw respond := by
  intro t a n hl hbe hn hen hlo hhi
  obtain ⟨h1, h2, h3, h4, _⟩ := hl
  obtain ⟨b1, b2, b3, b4, b5, b6⟩ := be_helpers_general t hbe h2 h1 a (a + n - 1)
    ⟨(hen a).2 (by omega), (hen _).2 (by omega), fun x hx => by
      have := (hen x).1 hx; omega⟩
  obtain ⟨cs, c1, c2, c3⟩ := handleMemRead_general read completer mps t
    (raddr t.address) mem t.getFirstBeOffset t.getLastBeOffset h1 h2 rfl b4 b5 b3 b6
    (h4k _ _ hlo hhi h4)
    (by rw [Nat.mul_comm]; exact hread _ _ hlo hhi (by omega))
  refine ⟨cs, by rw [hresp t hlo hhi h2]; exact c1, ?_, fun c hc => ?_⟩
  · rw [b1, b2] at c2
    have : a + n - 1 - a + 1 = n := by omega
    rwa [this] at c2
  · obtain ⟨⟨_, _, _, _, d1, _, _, d2⟩, _, _⟩ := c3 c hc
    exact ⟨d1, d2⟩

end Verif.Proofs
