import Verif.Proofs.MemE2E
/-!
C10 (write splitting), C11 (root complex reads), C12 (device reads), C13 (completion splitting),
C14 (write handling), C20 (region allocation).
-/
namespace Verif.Props
open Verif Verif.Model Verif.Proofs Verif.Spec

/-! ### C10 -/

/-- C10: `mem_write` of the root complex to an address outside its own regions never raises; the
TLPs cover the data contiguously and in order (`Covers`), each is legal (size setting, 4 KB page,
3DW/4DW choice, legal byte enables), passes `check`, and performing them on any memory amounts to
storing the data. -/
theorem C10_root_complex_mem_write (rs : List Region) (mps attr tc addr : Nat) (data : List UInt8)
    (hext : ∀ r ∈ rs, ¬ InRegion r addr) :
    ∃ ts, RootComplex.memWrite rs mps attr tc addr data = some (rs, ts) ∧ Covers addr data ts ∧
      (∀ m, ts.foldl perform m = store m addr data) ∧
      ∀ t ∈ ts, LegalMemRequest (32 * 2 ^ mps) t ∧ LegalByteEnables t ∧ t.check = true ∧
        t.data.length = t.length ∧ (t.fmt = 2 ∨ t.fmt = 3) ∧ t.type = 0 ∧
        t.requester_id = ⟨0, 0, 0⟩ ∧ t.attr = attr ∧ t.tc = tc := by
  obtain ⟨ts, h1, h2, h3⟩ := memWriteLoop_spec ⟨0, 0, 0⟩ mps attr tc addr data
  have hf : findRegion rs addr = none := by
    unfold findRegion
    rw [List.find?_eq_none]
    intro r hr h
    exact hext r hr ((contains_iff r addr).1 h)
  refine ⟨ts, ?_, h2, foldl_perform_of_covers addr data ts h2, ?_⟩
  · simp [RootComplex.memWrite, hf, RootComplex.memWriteExt, h1]
  · intro t ht
    obtain ⟨j1, j2, j3, j4, j5, j6, j7, j8, j9, _⟩ := h3 t ht
    exact ⟨j1, j9, j2, j3, j4, j5, j6, j7, j8⟩

/-- C10: the same for a device (`Function.mem_write`) with bus mastering enabled. -/
theorem C10_function_mem_write (id : PcieId) (mps attr tc addr : Nat) (data : List UInt8) :
    ∃ ts, Function.memWrite true id mps attr tc addr data = some ts ∧ Covers addr data ts ∧
      (∀ m, ts.foldl perform m = store m addr data) ∧
      ∀ t ∈ ts, LegalMemRequest (32 * 2 ^ mps) t ∧ LegalByteEnables t ∧ t.check = true ∧
        t.data.length = t.length ∧ (t.fmt = 2 ∨ t.fmt = 3) ∧ t.type = 0 ∧
        t.requester_id = id ∧ t.attr = attr ∧ t.tc = tc := by
  obtain ⟨ts, h1, h2, h3⟩ := memWriteLoop_spec id mps attr tc addr data
  refine ⟨ts, ?_, h2, foldl_perform_of_covers addr data ts h2, ?_⟩
  · simp [Function.memWrite, h1]
  · intro t ht
    obtain ⟨j1, j2, j3, j4, j5, j6, j7, j8, j9, _⟩ := h3 t ht
    exact ⟨j1, j9, j2, j3, j4, j5, j6, j7, j8⟩

/-- C10: without bus mastering a device sends nothing. -/
theorem C10_bus_master_disabled (id : PcieId) (mps attr tc addr : Nat) (data : List UInt8) :
    Function.memWrite false id mps attr tc addr data = some [] := rfl

/-- A write of 300 bytes at 0xF81 with 128-byte payloads is split into several TLPs. -/
example : ((memWriteLoop ⟨0, 0, 0⟩ 0 0 0 0xF81 (List.replicate 300 7)).map List.length) = some 3 := by
  decide +kernel

/-! ### C11 -/

/-- C11: `RootComplex.mem_read` against any completer that answers according to the PCI Express
rules (any read completion boundary, any legal split) returns exactly the bytes of memory; its
requests ask for each byte exactly once and are legal. -/
theorem C11_mem_read_any_completer (rs : List Region) (rcb : Nat) (mem : Mem)
    (respond : Tlp → Option (List Tlp)) (nextTag : Nat → Nat) (mrrs attr tc tag addr length : Nat)
    (lo hi : Nat) (hlo4 : 4 ∣ lo) (hhi4 : 4 ∣ hi) (hlo : lo ≤ addr) (hhi : addr + length ≤ hi)
    (hext : ∀ r ∈ rs, ¬ InRegion r addr)
    (hr : Conforming rcb mem lo hi (32 * 2 ^ mrrs) respond) :
    ∃ reqs, RootComplex.memRead rs respond nextTag mrrs attr tc tag addr length =
        some (load mem addr length, reqs) ∧
      Asks addr length reqs ∧
      ∀ t ∈ reqs, LegalMemRequest (32 * 2 ^ mrrs) t ∧ LegalByteEnables t ∧ t.check = true ∧
        (t.fmt = 0 ∨ t.fmt = 1) ∧ t.type = 0 := by
  have hf : findRegion rs addr = none := by
    unfold findRegion
    rw [List.find?_eq_none]
    intro r hr h
    exact hext r hr ((contains_iff r addr).1 h)
  unfold RootComplex.memRead
  rw [hf]
  exact memReadLoop_spec rcb mem respond nextTag mrrs attr tc tag addr length lo hi hlo4 hhi4 hlo hhi hr

/-- C11: end to end against a memory endpoint whose region `b` is mapped at `base`: for every
content, address range within the region, read request size and completer payload size the read
returns the region's bytes. (Regions of at least a page are mapped page aligned; smaller ones may
be mapped anywhere DWORD aligned.) -/
theorem C11_mem_read_endpoint (rs : List Region) (regions : Nat → List UInt8) (b base mps : Nat)
    (id : PcieId) (nextTag : Nat → Nat) (mrrs attr tc tag addr length : Nat)
    (hbase : 4 ∣ base) (hsize : 4 ∣ (regions b).length)
    (hpage : 4096 ∣ base ∨ (regions b).length ≤ 4096)
    (hlo : base ≤ addr) (hhi : addr + length ≤ base + (regions b).length)
    (hext : ∀ r ∈ rs, ¬ InRegion r addr) :
    ∃ reqs, RootComplex.memRead rs
        (fun t => MemoryEndpoint.handleMemRead regions id mps [(b, t.address - base)] t)
        nextTag mrrs attr tc tag addr length =
      some (((regions b).drop (addr - base)).take length, reqs) := by
  let mem : Mem := fun a => (regions b).getD (a - base) 0
  have hc := ep_conforming regions b base mps (32 * 2 ^ mrrs) id mem hpage (by
    intro i _; simp only [mem]; congr 1; omega)
  obtain ⟨reqs, h, _⟩ := C11_mem_read_any_completer rs 128 mem _ nextTag mrrs attr tc tag addr length
    base (base + (regions b).length) hbase (Nat.dvd_add hbase hsize) hlo hhi hext hc
  refine ⟨reqs, ?_⟩
  rw [h]
  congr 2
  symm
  apply eq_load
  · simp; omega
  · intro i hi
    simp only [List.getD_eq_getElem?_getD, mem]
    rw [List.getElem?_take_of_lt hi, List.getElem?_drop]
    congr 2; omega

/-- C11: a read inside one of the root complex's own regions returns the region's bytes without
sending anything. -/
theorem C11_mem_read_local (rs : List Region) (r : Region) (hd : DisjointRegions rs) (hb : Backed rs)
    (hr : r ∈ rs) (respond : Tlp → Option (List Tlp)) (nextTag : Nat → Nat)
    (mrrs attr tc tag addr length : Nat) (hpos : 0 < length) (hlo : r.base ≤ addr)
    (hhi : addr + length ≤ r.base + r.size) (m : Mem) (hm : MemoryOf rs m) :
    RootComplex.memRead rs respond nextTag mrrs attr tc tag addr length =
      some (load m addr length, []) := by
  unfold RootComplex.memRead
  rw [findRegion_some hd hr ⟨hlo, by omega⟩, readRegion_spec hd hb hr addr length hpos hlo hhi m hm]
  rfl

/-- Two requests (mrrs 0) and five completions in total for an unaligned 200-byte read. -/
example : (RootComplex.memRead [] (fun t => MemoryEndpoint.handleMemRead
      (fun _ => (List.range 1024).map UInt8.ofNat) ⟨1, 0, 0⟩ 0 [(0, t.address - 0x1000)] t)
      (fun t => (t + 1) % 32) 0 0 0 0 0x1041 200).map (fun x => (x.1.take 3, x.1.length, x.2.length)) =
    some ([0x41, 0x42, 0x43], 200, 2) := by
  decide +kernel

/-! ### C12 -/

/-- C12 is false of the code: `Function.mem_read` passes the total length to `set_be`, so a read
longer than its first chunk (read request size or 4 KB page) never returns, for any completer that
follows the rules: either the request fails `check`, or its completions carry a byte count that
the requester rejects. -/
theorem C12_multi_chunk_read_fails (rcb : Nat) (mem : Mem) (respond : Tlp → Option (List Tlp))
    (nextTag : Nat → Nat) (id : PcieId) (mrrs attr tc tag addr length : Nat)
    (hlong : 128 * 2 ^ mrrs < addr % 4 + length ∨ 4096 < addr % 4096 + length)
    (lo hi : Nat) (hlo4 : 4 ∣ lo) (hhi4 : 4 ∣ hi) (hlo : lo ≤ addr) (hhi : addr + length ≤ hi)
    (hr : Conforming rcb mem lo hi 1024 respond) :
    Function.memRead true respond nextTag id mrrs attr tc tag addr length = none := by
  have hcl : chunkLen addr length mrrs < length := by
    unfold chunkLen firstPad
    have h1 : addr &&& 0xfff = addr % 4096 := and_4095 addr
    have h2 : 128 ≤ 128 * 2 ^ mrrs := Nat.le_mul_of_pos_right _ (Nat.two_pow_pos mrrs)
    rw [h1, Nat.shiftLeft_eq]; omega
  simp [Function.memRead, function_memRead_multi rcb mem respond nextTag id mrrs attr tc tag addr length
    hcl lo hi hlo4 hhi4 hlo hhi hr]

/-- C12, the full claim is false: there is a read whose first request is larger than the maximum
read request size. -/
theorem C12_request_size_fails :
    ¬ ∀ (id : PcieId) (tag attr tc addr length mrrs : Nat), 0 < length →
      LegalMemRequest (32 * 2 ^ mrrs) (readRequest id tag attr tc addr length) := by
  intro h
  have := (h ⟨0, 0, 0⟩ 0 0 0 0 256 0 (by decide)).2.2.1
  revert this; decide

/-- C12, the part that holds: a read that fits one request (read request size and page) sends one
legal request and returns the bytes of memory. Missing: reads longer than one chunk. -/
theorem C12_single_chunk_read_partial (rcb : Nat) (mem : Mem) (respond : Tlp → Option (List Tlp))
    (nextTag : Nat → Nat) (id : PcieId) (mrrs attr tc tag addr length : Nat)
    (h1 : addr % 4 + length ≤ 128 * 2 ^ mrrs) (h2 : addr % 4096 + length ≤ 4096)
    (lo hi : Nat) (hlo4 : 4 ∣ lo) (hhi4 : 4 ∣ hi) (hlo : lo ≤ addr) (hhi : addr + length ≤ hi)
    (hr : Conforming rcb mem lo hi (32 * 2 ^ mrrs) respond) :
    ∃ reqs, Function.memRead true respond nextTag id mrrs attr tc tag addr length =
        some (some (load mem addr length), reqs) ∧ Asks addr length reqs ∧
      ∀ t ∈ reqs, LegalMemRequest (32 * 2 ^ mrrs) t ∧ LegalByteEnables t ∧ t.check = true ∧
        t.requester_id = id := by
  obtain ⟨reqs, e1, e2, e3⟩ := function_memRead_single rcb mem respond nextTag id mrrs attr tc tag addr
    length h1 h2 lo hi hlo4 hhi4 hlo hhi hr
  exact ⟨reqs, by simp [Function.memRead, e1], e2, e3⟩

/-- The root complex's memory handler is a completer as required above. -/
theorem C12_root_complex_conforming (rs : List Region) (r : Region) (hd : DisjointRegions rs)
    (hb : Backed rs) (hr : r ∈ rs) (mps maxDw : Nat) (mem : Mem) (hm : MemoryOf rs mem) :
    Conforming 128 mem r.base (r.base + r.size) maxDw (RootComplex.handleMemRead rs mps) :=
  rc_conforming rs r hd hb hr mps maxDw mem hm

/-- A device reads 8 bytes of root complex memory. -/
example : Function.memRead true (RootComplex.handleMemRead
      [⟨0x4000, 16, (List.range 16).map UInt8.ofNat⟩] 0) (fun t => t + 1) ⟨1, 0, 0⟩ 2 0 0 0 0x4003 8 =
    some (some [3, 4, 5, 6, 7, 8, 9, 10],
      [readRequest ⟨1, 0, 0⟩ 1 0 0 0x4003 8]) := by decide +kernel

/-! ### C13 -/

/-- C13: the completions a memory endpoint generates for a read with legal byte enables whose
first and last enabled bytes are `f` and `l`: they deliver exactly the bytes `f..l` (remaining
byte count, lower address, 128-byte boundaries, DWORD-padded payloads of the region), they answer
the request, pass `check`, and none exceeds the maximum payload size. -/
theorem C13_endpoint_completions (regions : Nat → List UInt8) (b off mps : Nat) (id : PcieId)
    (tlp : Tlp) (hbe : LegalByteEnables tlp) (hal : 4 ∣ tlp.address) (hlen : 1 ≤ tlp.length)
    (hoff : off + 4 * tlp.length ≤ (regions b).length) (hle : off ≤ tlp.address)
    (hpage : off % 4096 + 4 * tlp.length ≤ 4096)
    (f l : Nat) (hfl : FirstLast tlp f l)
    (mem : Mem) (hmem : ∀ i, i < (regions b).length → mem (tlp.address - off + i) = (regions b).getD i 0) :
    ∃ cs, MemoryEndpoint.handleMemRead regions id mps [(b, off)] tlp = some cs ∧
      Delivers 128 mem f (l - f + 1) cs ∧
      ∀ c ∈ cs, AnswersWithData tlp id c ∧ c.check = true ∧ c.length ≤ 32 * 2 ^ mps := by
  obtain ⟨b1, b2, b3, b4, b5, b6⟩ := be_helpers_general tlp hbe hlen hal f l hfl
  have := handleMemRead_general (MemoryEndpoint.readRegion (regions b)) id mps tlp off mem
    tlp.getFirstBeOffset tlp.getLastBeOffset hal hlen rfl b4 b5 b3 b6 hpage (by
      have h := epRead_spec (regions b) off (4 * tlp.length) (by omega) hoff mem (tlp.address - off) hmem
      have e : tlp.address - off + off = tlp.address := by omega
      rw [e] at h
      rw [Nat.mul_comm]; exact h)
  rw [b1, b2] at this
  exact this

/-- C13: the same for the root complex. -/
theorem C13_root_complex_completions (rs : List Region) (r : Region) (hd : DisjointRegions rs)
    (hb : Backed rs) (hr : r ∈ rs) (mps : Nat)
    (tlp : Tlp) (hbe : LegalByteEnables tlp) (hal : 4 ∣ tlp.address) (hlen : 1 ≤ tlp.length)
    (hlo : r.base ≤ tlp.address) (hhi : tlp.address + 4 * tlp.length ≤ r.base + r.size)
    (hpage : tlp.address % 4096 + 4 * tlp.length ≤ 4096)
    (f l : Nat) (hfl : FirstLast tlp f l) (mem : Mem) (hm : MemoryOf rs mem) :
    ∃ cs, RootComplex.handleMemRead rs mps tlp = some cs ∧
      Delivers 128 mem f (l - f + 1) cs ∧
      ∀ c ∈ cs, AnswersWithData tlp ⟨0, 0, 0⟩ c ∧ c.check = true ∧ c.length ≤ 32 * 2 ^ mps := by
  obtain ⟨b1, b2, b3, b4, b5, b6⟩ := be_helpers_general tlp hbe hlen hal f l hfl
  have := handleMemRead_general (readRegion rs) ⟨0, 0, 0⟩ mps tlp tlp.address mem
    tlp.getFirstBeOffset tlp.getLastBeOffset hal hlen rfl b4 b5 b3 b6 hpage (by
      rw [Nat.mul_comm]
      exact readRegion_spec hd hb hr tlp.address (4 * tlp.length) (by omega) hlo hhi mem hm)
  rw [b1, b2] at this
  unfold RootComplex.handleMemRead
  rw [findRegion_some hd hr ⟨hlo, by omega⟩]
  exact this

/-- C13: the payload bytes of the completions of one request, concatenated, are the DWORD-expanded
range of memory; every completion but the first starts on a 128-byte boundary. -/
theorem C13_delivers_concat {mem : Mem} {a n : Nat} {cs : List Tlp} (h : Delivers 128 mem a n cs) :
    (cs.flatMap fun c => (List.range (4 * c.length)).map (payloadByte c.data)) =
      load mem (a - a % 4) (4 * ((a % 4 + n + 3) / 4)) ∧
    ∀ c ∈ cs.tail, c.lower_address = 0 := by
  induction h with
  | last a n c hn hbc hla hl hdl hb =>
    refine ⟨?_, by simp⟩
    simp only [List.flatMap_cons, List.flatMap_nil, List.append_nil]
    rw [hl] at hb ⊢
    apply List.map_congr_left
    intro i hi
    exact hb i (List.mem_range.1 hi)
  | more a k n c cs hk hbc hla hl hdl hrcb hb hrest ih =>
    refine ⟨?_, ?_⟩
    · simp only [List.flatMap_cons]
      rw [ih.1]
      have e0 : (a + k) % 4 = 0 := by omega
      have e1 : a + k - (a + k) % 4 = (a - a % 4) + 4 * c.length := by omega
      have e2 : 4 * ((a % 4 + (k + n) + 3) / 4) = 4 * c.length + 4 * (((a + k) % 4 + n + 3) / 4) := by omega
      rw [e1, e2, load_append]
      congr 1
      apply List.map_congr_left
      intro i hi
      exact hb i (List.mem_range.1 hi)
    · intro x hx
      simp only [List.tail_cons] at hx
      cases hrest with
      | last _ _ c' h1 h2 h3 =>
        simp only [List.mem_singleton] at hx
        subst hx; rw [h3]; exact hrcb
      | more _ k' n' c' cs' h1 h2 h3 =>
        rcases List.mem_cons.1 hx with rfl | hx
        · rw [h3]; exact hrcb
        · exact ih.2 x hx

/-- A request with sparse byte enables split into several completions. -/
example :
    let t : Tlp := { ({} : Tlp) with address := 0x1044, length := 64, first_be := 0xc, last_be := 0x5 }
    LegalByteEnables t ∧ FirstLast t 0x1046 0x1142 ∧
    ((MemoryEndpoint.handleMemRead (fun _ => (List.range 1024).map UInt8.ofNat) ⟨1, 0, 0⟩ 0 [(0, 0x44)] t).map
      fun cs => cs.map fun c => (c.byte_count, c.lower_address, c.length)) =
    some [(253, 0x46, 15), (195, 0, 32), (67, 0, 17)] := by
  refine ⟨by unfold LegalByteEnables; decide, ?_, by decide +kernel⟩
  refine ⟨by unfold Enabled; decide, by unfold Enabled; decide, fun a h => ?_⟩
  unfold Enabled enabled at h
  simp only [Bool.and_eq_true, decide_eq_true_eq] at h
  obtain ⟨⟨h1, h2⟩, h3⟩ := h
  have hb1 : (0xc : Nat).testBit 0 = false ∧ (0xc : Nat).testBit 1 = false := by decide
  have hb2 : (0x5 : Nat).testBit 3 = false := by decide
  constructor
  · apply Decidable.byContradiction
    intro hc
    rw [if_pos (by omega)] at h3
    have : a = 0x1044 ∨ a = 0x1045 := by omega
    rcases this with rfl | rfl <;> simp_all
  · apply Decidable.byContradiction
    intro hc
    rw [if_neg (by omega), if_pos (by omega)] at h3
    have : a = 0x1143 := by omega
    subst this; simp_all

/-! ### C14 -/

/-- C14: a memory write at a memory endpoint changes exactly the enabled bytes of the addressed
region, to the payload bytes, and nothing else. -/
theorem C14_endpoint_write (regions : Nat → List UInt8) (b off : Nat) (tlp : Tlp)
    (hal : 4 ∣ off) (hhi : off + 4 * tlp.length ≤ (regions b).length) (hlen : 1 ≤ tlp.length)
    (hdl : tlp.data.length = tlp.length) (hdw : ∀ w ∈ tlp.data, w < 2 ^ 32)
    (hpage : off % 4096 + 4 * tlp.length ≤ 4096) :
    ∃ regions', MemoryEndpoint.handleMemWrite regions [(b, off)] tlp = some regions' ∧
      (regions' b).length = (regions b).length ∧ (∀ k, k ≠ b → regions' k = regions k) ∧
      ∀ i, (regions' b).getD i 0 = if enabled off tlp.length tlp.first_be tlp.last_be i
        then payloadByte tlp.data (i - off) else (regions b).getD i 0 :=
  ep_handleMemWrite regions b off tlp hal hhi hlen hdl hdw hpage

/-- C14: a memory write at the root complex inside region `r` performs the write on the memory
made up by the regions and keeps their layout. -/
theorem C14_root_complex_write (rs : List Region) (r : Region) (hd : DisjointRegions rs)
    (hb : Backed rs) (hr : r ∈ rs) (tlp : Tlp) (hal : 4 ∣ tlp.address) (hlo : r.base ≤ tlp.address)
    (hhi : tlp.address + 4 * tlp.length ≤ r.base + r.size) (hlen : 1 ≤ tlp.length)
    (hdl : tlp.data.length = tlp.length) (hdw : ∀ w ∈ tlp.data, w < 2 ^ 32)
    (h4k : tlp.address % 4096 + 4 * tlp.length ≤ 4096) :
    ∃ rs', RootComplex.handleMemWrite rs tlp = some rs' ∧ SameLayout rs rs' ∧ Backed rs' ∧
      ∃ m m', MemoryOf rs m ∧ MemoryOf rs' m' ∧ m' = perform m tlp := by
  obtain ⟨rs', e1, e2, e3, e4⟩ := rc_handleMemWrite rs r hd hb hr tlp hal hlo hhi hlen hdl hdw h4k
  exact ⟨rs', e1, e2, e3, rcView rs, rcView rs', memoryOf_rcView hd,
    memoryOf_rcView (disjoint_of_sameLayout e2 hd), e4⟩

/-- C14 with C10: a device's `mem_write` into a root complex region, all its TLPs handled in
order, stores exactly the data: the regions' memory afterwards is the old one with `data` at
`addr`. -/
theorem C14_dma_write_end_to_end (rs : List Region) (r : Region) (hd : DisjointRegions rs)
    (hb : Backed rs) (hr : r ∈ rs) (h4b : 4 ∣ r.base) (h4s : 4 ∣ r.size)
    (did : PcieId) (mps attr tc addr : Nat) (data : List UInt8) (hlo : r.base ≤ addr)
    (hhi : addr + data.length ≤ r.base + r.size) :
    ∃ ts rs', Function.memWrite true did mps attr tc addr data = some ts ∧
      ts.foldlM RootComplex.handleMemWrite rs = some rs' ∧ SameLayout rs rs' ∧ Backed rs' ∧
      ∃ m m', MemoryOf rs m ∧ MemoryOf rs' m' ∧ m' = store m addr data := by
  obtain ⟨ts, h1, h2, h3⟩ := memWriteLoop_spec did mps attr tc addr data
  obtain ⟨p, hp⟩ := id h4b
  obtain ⟨q, hq⟩ := id h4s
  obtain ⟨rs', e1, e2, e3, e4⟩ := rc_handleMemWrites r ts rs hd hb hr (by
    intro t ht
    obtain ⟨⟨l1, l2, l3, l4, l5⟩, j2, j3, j4, j5, j6, j7, j8, j9, j10, j11, j12⟩ := h3 t ht
    obtain ⟨c, hc⟩ := id l1
    exact ⟨l1, by omega, by omega, l2, j3, j10, l4⟩)
  refine ⟨ts, rs', by simp [Function.memWrite, h1], e1, e2, e3, rcView rs, rcView rs',
    memoryOf_rcView hd, memoryOf_rcView (disjoint_of_sameLayout e2 hd), ?_⟩
  rw [e4]
  exact foldl_perform_of_covers addr data ts h2 _

/-- Sparse byte enables: lanes 0 and 2 of the first DWORD, lanes 1 and 3 of the last. -/
example :
    let t : Tlp := { ({} : Tlp) with
      address := 4, length := 2, first_be := 0x5, last_be := 0xa, data := [0x44332211, 0x88776655] }
    (MemoryEndpoint.handleMemWrite (fun _ => List.replicate 16 0) [(0, 4)] t).map (· 0) =
      some [0, 0, 0, 0, 0x11, 0, 0x33, 0, 0, 0x66, 0, 0x88, 0, 0, 0, 0] := by decide +kernel

/-! ### C20 -/

/-- C20 is false of the code: `region_limit` is set to the last address of the region instead of
the first free one, so two one-byte regions share address 0, and a region whose last address is
aligned shares it with the next one. -/
theorem C20_alloc_region_fails :
    (∃ s, Alloc.allocs {} [1, 1] = some s ∧ ¬ DisjointRegions s.regions) ∧
    (∃ s, Alloc.allocs {} [4097, 4096] = some s ∧ ¬ DisjointRegions s.regions) := by
  constructor
  · refine ⟨_, rfl, ?_⟩
    intro h
    unfold DisjointRegions at h
    simp only [List.nil_append, List.singleton_append, List.pairwise_cons, List.mem_singleton,
      forall_eq] at h
    exact h.1 0 (by unfold InRegion; decide)
  · refine ⟨_, rfl, ?_⟩
    intro h
    unfold DisjointRegions at h
    simp only [List.nil_append, List.singleton_append, List.pairwise_cons, List.mem_singleton,
      forall_eq] at h
    refine h.1 4096 ?_
    unfold InRegion
    exact ⟨by decide +kernel, by decide +kernel⟩

/-- C20, the part that holds: any sequence of allocations with even sizes succeeds and yields
pairwise disjoint regions of the requested sizes, each aligned to its size rounded up to a power
of two and backed by that many bytes. Missing: odd sizes. -/
theorem C20_alloc_region_partial (sizes : List Nat) (h : ∀ n ∈ sizes, 2 ≤ n ∧ n % 2 = 0) :
    ∃ s, Alloc.allocs {} sizes = some s ∧ s.regions.map (·.size) = sizes ∧
      DisjointRegions s.regions ∧ Backed s.regions ∧
      ∀ r ∈ s.regions, ∃ k, r.size ≤ 2 ^ k ∧ (∀ j, r.size ≤ 2 ^ j → k ≤ j) ∧ 2 ^ k ∣ r.base := by
  obtain ⟨s, e1, e2, e3⟩ := allocs_inv sizes {} ⟨by simp, Or.inl rfl, List.Pairwise.nil, by simp,
    by intro r hr; cases hr⟩ h
  exact ⟨s, e1, by simpa using e3, e2.disj, e2.backed, fun r hr =>
    ⟨ceilLog2 r.size, (ceilLog2_spec _).1, (ceilLog2_spec _).2, e2.aligned r hr⟩⟩

/-- Three allocations of different sizes. -/
example : (Alloc.allocs {} [64, 6, 4096]).map (fun s => s.regions.map fun r => (r.base, r.size)) =
    some [(0, 64), (64, 6), (4096, 4096)] := by decide +kernel

end Verif.Props
