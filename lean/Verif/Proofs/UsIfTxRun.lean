import Verif.Proofs.UsIfTxWord
/-! Proofs about the UltraScale CC and RQ interfaces: histories. -/
namespace Verif.Proofs
open Verif.Model Verif.Spec

theorem utxGeo_of {c : UtxCfg} (hc : UtxCfgOk c) : ∃ H, UtxGeo c H := by
  cases hc with
  | cc W h =>
    by_cases h2 : W = 2
    · subst h2
      exact ⟨1, by constructor <;> simp [ccCfg, UtxCfg.r]⟩
    · have h4 : 4 ≤ W := by omega
      have : 3 % W = 3 := Nat.mod_eq_of_lt (by omega)
      refine ⟨0, ?_⟩
      constructor <;> simp [ccCfg, UtxCfg.r, this] <;> omega
  | cc512 => exact ⟨0, by constructor <;> simp [ccCfg512, UtxCfg.r]⟩
  | cc512s => exact ⟨0, by constructor <;> simp [ccCfg512s, UtxCfg.r]⟩
  | rq W Q h hQ =>
    by_cases h2 : W = 2
    · subst h2
      exact ⟨2, by constructor <;> simp [rqCfg, UtxCfg.r]⟩
    · by_cases h4 : W = 4
      · subst h4
        exact ⟨1, by constructor <;> simp [rqCfg, UtxCfg.r]⟩
      · have : 4 % W = 4 := Nat.mod_eq_of_lt (by omega)
        refine ⟨0, ?_⟩
        constructor <;> simp [rqCfg, UtxCfg.r, this] <;> omega
  | rq512 => exact ⟨0, by constructor <;> simp [rqCfg512, UtxCfg.r]⟩
  | rq512s => exact ⟨0, by constructor <;> simp [rqCfg512s, UtxCfg.r]⟩

/-- The relation for a state. -/
def UtxSt (c : UtxCfg) (H : Nat) (ts : Nat → List UtxTlp) (pos : Nat → Nat) (st : Utx) (G : UtxG) : Prop :=
  UtxInv c H ts pos st.frame st.hdr1 st.hdr2 st.split1 st.split2 st.port st.shiftD st.shiftS G

/-- The word in the output register, if any. -/
def UtxPend (c : UtxCfg) (st : Utx) (pw : List UrxSlots) : Prop :=
  if st.tvalid then ∃ w, pw = [w] ∧ UtxCarry c st.word w ∧ UrxSlotsOk c.S w else pw = []

/-- The segments in words. -/
def utxIn (ws : List UrxSlots) : List UrxSeg := ws.flatten.filterMap id

theorem utxIn_append (a b : List UrxSlots) : utxIn (a ++ b) = utxIn a ++ utxIn b := by
  simp [utxIn]

theorem utxIn_slots (c : UtxCfg) (es : List UrxSeg) : utxIn [utxSlots c es] = es := by
  unfold utxIn utxSlots
  simp [List.filterMap_append, List.filterMap_map]

theorem utx_step {c : UtxCfg} (hc : UtxCfgOk c) {H : Nat} (hg : UtxGeo c H) {ts : Nat → List UtxTlp} (hok : UtxTlpsOk c ts) {pos : Nat → Nat}
    {st : Utx} {i : UtxIn} {G : UtxG} (hI : UtxSt c H ts pos st G) (hr : i.rst = false) (hsh : UtxShows c ts pos i) {pw : List UrxSlots}
    (hp : UtxPend c st pw) :
    ∃ G' es pw', UtxSt c H ts (fun p => pos p + utxRead c st i p) (utxStep c st i) G' ∧ G'.em = G.em ++ es ∧ UtxPend c (utxStep c st i) pw' ∧
      ((st.tvalid && i.tready) = true → utxIn pw' = es) ∧
      ((st.tvalid && i.tready) = false → utxIn pw' = utxIn pw ++ es) ∧
      (utxFree st i = true → (utxStep c st i).tvalid = (es.length != 0) ∧
        (es.length = 0 → (∃ p o, p < c.P ∧ i.avail p ≤ o ∧ o < c.S ∧ pos p + o < (utxPieces c.W (ts p)).length) ∨
          st.frame = false ∧ ∀ p, p < c.P → utxCredit c st p = true → i.avail p = 0)) := by
  obtain ⟨hlen, ⟨G', es, hcom⟩, hzero⟩ := utx_loop hg hok hsh hI
  cases hfree : utxFree st i with
  | true =>
    have hsel : utxSel c st i = (utxLoop c st i).csel := by unfold utxSel; rw [if_pos hfree]
    have hread : ∀ p, utxRead c st i p = (utxLoop c st i).coff p := by intro p; unfold utxRead; rw [if_pos hfree]
    have hle : (utxLoop c st i).csel ≤ c.S := by have := hcom.le; omega
    have hesl : es.length = (utxLoop c st i).csel := by
      have := hcom.emits.len; rw [List.length_take] at this; omega
    have hstep : utxStep c st i =
        { frame := (utxLoop c st i).cframe, hdr1 := (utxLoop c st i).chdr1, hdr2 := (utxLoop c st i).chdr2, split1 := (utxLoop c st i).csplit1
          split2 := (utxLoop c st i).csplit2, port := (utxLoop c st i).cport
          shiftD := (utxShift c st i (utxLoop c st i).slots (utxLoop c st i).csel c.S).1, shiftS := (utxShift c st i (utxLoop c st i).slots (utxLoop c st i).csel c.S).2
          tvalid := (utxLoop c st i).csel != 0, word := utxOut c st i (utxLoop c st i).slots (utxLoop c st i).csel
          mpsReg := 8 * 2 ^ (if i.mps > 5 then 5 else i.mps), haveP := decide (i.ph > 8) && decide (i.pd > st.mpsReg * 2), haveNp := decide (i.nph > 8) } := by
      unfold utxStep
      rw [hsel, hr, hfree]
      rfl
    refine ⟨G', es, if (utxLoop c st i).csel = 0 then [] else [utxSlots c es], ?_, hcom.em, ?_, ?_, ?_, fun _ => ⟨?_, ?_⟩⟩
    · rw [hstep]
      show UtxInv c H ts (fun p => pos p + utxRead c st i p) _ _ _ _ _ _ (utxShift c st i (utxLoop c st i).slots (utxLoop c st i).csel c.S).1
        (utxShift c st i (utxLoop c st i).slots (utxLoop c st i).csel c.S).2 G'
      rw [utxShift_eq _ _ _ _ _ (by omega), Nat.min_eq_right hle]
      simp only [hread]
      exact hcom.inv
    · rw [hstep]
      unfold UtxPend
      by_cases h0 : (utxLoop c st i).csel = 0
      · simp only [h0, bne_self_eq_false, Bool.false_eq_true, if_false, if_true]
      · have : ((utxLoop c st i).csel != 0) = true := by simpa using h0
        simp only [this, if_true, if_neg h0]
        exact ⟨_, rfl, utx_carry hc hlen hle (by omega) hcom.emits, utx_slots_ok hlen hle (by omega) hcom.emits
          (fun a ha hl => (hcom.closed a ha hl).resolve_right (fun h => h))⟩
    · intro _
      by_cases h0 : (utxLoop c st i).csel = 0
      · rw [if_pos h0]
        have : es = [] := List.length_eq_zero_iff.1 (by omega)
        rw [this]; rfl
      · rw [if_neg h0, utxIn_slots]
    · intro htr
      have htv : st.tvalid = false := by
        unfold utxFree at hfree
        cases h1 : st.tvalid with
        | false => rfl
        | true => rw [h1] at htr hfree; rw [Bool.true_and] at htr; rw [htr] at hfree; cases hfree
      have hpw : pw = [] := by unfold UtxPend at hp; rw [htv] at hp; exact hp
      rw [hpw]
      by_cases h0 : (utxLoop c st i).csel = 0
      · rw [if_pos h0]
        have : es = [] := List.length_eq_zero_iff.1 (by omega)
        rw [this]; rfl
      · rw [if_neg h0, utxIn_slots]; rfl
    · rw [hstep, hesl]
    · intro h0
      exact hzero (by omega)
  | false =>
    have hsel : utxSel c st i = 0 := by unfold utxSel; rw [hfree]; rfl
    have hread : ∀ p, utxRead c st i p = 0 := by intro p; unfold utxRead; rw [hfree]; rfl
    have hstep : utxStep c st i =
        { st with
          shiftD := (utxShift c st i (utxLoop c st i).slots 0 c.S).1, shiftS := (utxShift c st i (utxLoop c st i).slots 0 c.S).2
          mpsReg := 8 * 2 ^ (if i.mps > 5 then 5 else i.mps), haveP := decide (i.ph > 8) && decide (i.pd > st.mpsReg * 2), haveNp := decide (i.nph > 8) } := by
      unfold utxStep
      rw [hsel, hr, hfree]
      rfl
    have htv : st.tvalid = true ∧ i.tready = false := by
      unfold utxFree at hfree
      cases h1 : st.tvalid <;> cases h2 : i.tready <;> rw [h1, h2] at hfree <;> simp at hfree ⊢
    refine ⟨G, [], pw, ?_, by simp, ?_, ?_, ?_, (fun h => by cases h)⟩
    · rw [hstep]
      show UtxInv c H ts (fun p => pos p + utxRead c st i p) _ _ _ _ _ _ (utxShift c st i (utxLoop c st i).slots 0 c.S).1
        (utxShift c st i (utxLoop c st i).slots 0 c.S).2 G
      rw [utxShift_eq _ _ _ _ _ (by omega), Nat.min_zero]
      simp only [hread]
      exact hI
    · rw [hstep]; exact hp
    · intro h; rw [htv.1, htv.2] at h; cases h
    · intro _; simp

theorem utxFeed_append {c : UtxCfg} {ts : Nat → List UtxTlp} {is js : List UtxIn} {st : Utx} {pos : Nat → Nat} :
    UtxFeed c ts st pos (is ++ js) ↔ UtxFeed c ts st pos is ∧ UtxFeed c ts (utxRun c st is) (utxPosAfter c st pos is) js := by
  induction is generalizing st pos with
  | nil => simp [UtxFeed, utxRun, utxPosAfter]
  | cons i is ih =>
    simp only [List.cons_append, UtxFeed, utxRun, utxPosAfter, ih, and_assoc]

theorem utxSent_append {c : UtxCfg} {is js : List UtxIn} {st : Utx} :
    utxSent c st (is ++ js) = utxSent c st is ++ utxSent c (utxRun c st is) js := by
  induction is generalizing st with
  | nil => rfl
  | cons i is ih => simp only [List.cons_append, utxSent, utxRun, ih, List.append_assoc]

theorem utxCarries_append {c : UtxCfg} {a b : List UtxWord} {x y : List UrxSlots} (h1 : UtxCarries c a x) (h2 : UtxCarries c b y) :
    UtxCarries c (a ++ b) (x ++ y) := by
  induction a generalizing x with
  | nil =>
    cases x with
    | nil => exact h2
    | cons _ _ => exact absurd h1 (fun h => h)
  | cons o a ih =>
    cases x with
    | nil => exact absurd h1 (fun h => h)
    | cons w x => exact ⟨h1.1, ih h1.2⟩

theorem utx_run {c : UtxCfg} (hc : UtxCfgOk c) {H : Nat} (hg : UtxGeo c H) {ts : Nat → List UtxTlp} (hok : UtxTlpsOk c ts) {is : List UtxIn} :
    ∀ {pos : Nat → Nat} {st : Utx} {G : UtxG} {pw : List UrxSlots}, UtxSt c H ts pos st G → UtxPend c st pw → UtxFeed c ts st pos is →
    ∃ G' new ws pw', UtxSt c H ts (utxPosAfter c st pos is) (utxRun c st is) G' ∧ G'.em = G.em ++ new ∧ UtxPend c (utxRun c st is) pw' ∧
      UtxCarries c (utxSent c st is) ws ∧ (∀ w ∈ ws, UrxSlotsOk c.S w) ∧ utxIn ws ++ utxIn pw' = utxIn pw ++ new := by
  induction is with
  | nil =>
    intro pos st G pw hI hp _
    exact ⟨G, [], [], pw, hI, by simp, hp, trivial, by simp, by simp [utxIn]⟩
  | cons i is ih =>
    intro pos st G pw hI hp hf
    obtain ⟨hr, hsh, hf⟩ := hf
    obtain ⟨G1, es, pw1, hI1, hem1, hp1, ht1, ht2, _⟩ := utx_step hc hg hok hI hr hsh hp
    obtain ⟨G2, new, ws, pw2, hI2, hem2, hp2, hc2, ho2, hs2⟩ := ih hI1 hp1 hf
    cases htr : st.tvalid && i.tready with
    | true =>
      have htv : st.tvalid = true := by
        rw [Bool.and_eq_true] at htr; exact htr.1
      have hp' := hp
      unfold UtxPend at hp'
      rw [htv, if_pos rfl] at hp'
      obtain ⟨w, hw, hcar, hslot⟩ := hp'
      refine ⟨G2, es ++ new, pw ++ ws, pw2, hI2, by rw [hem2, hem1, List.append_assoc], hp2, ?_, ?_, ?_⟩
      · unfold utxSent
        rw [htr, hw]
        exact ⟨hcar, hc2⟩
      · intro w' hw'
        rcases List.mem_append.1 hw' with h | h
        · rw [hw] at h; simp at h; rw [h]; exact hslot
        · exact ho2 w' h
      · rw [utxIn_append, List.append_assoc, hs2, ht1 htr]
    | false =>
      refine ⟨G2, es ++ new, ws, pw2, hI2, by rw [hem2, hem1, List.append_assoc], hp2, ?_, ho2, ?_⟩
      · unfold utxSent
        rw [htr]
        exact hc2
      · rw [hs2, ht2 htr, List.append_assoc]

theorem utx_reset {c : UtxCfg} {H : Nat} (ts : Nat → List UtxTlp) (s : Utx) (r : UtxIn) (hr : r.rst = true) :
    UtxSt c H ts (fun _ => 0) (utxStep c s r) { us := ts, cur := none, os := [], em := [] } ∧ UtxPend c (utxStep c s r) [] := by
  have h1 : (utxStep c s r).frame = false := by unfold utxStep; simp [hr]
  have h2 : (utxStep c s r).tvalid = false := by unfold utxStep; simp [hr]
  refine ⟨⟨?_, ?_, ?_, ?_, ?_, ?_⟩, ?_⟩
  · intro p hp; simp
  · intro x hx; simp at hx
  · rfl
  · intro p hp; simp [UtxG.inRest]
  · rw [h1]; rfl
  · intro t i n h; cases h
  · unfold UtxPend; rw [h2]; rfl

theorem utx_safe {c : UtxCfg} (hc : UtxCfgOk c) {ts : Nat → List UtxTlp} (hok : UtxTlpsOk c ts) (s : Utx) (r : UtxIn) (hr : r.rst = true)
    {is : List UtxIn} (hf : UtxFeed c ts (utxStep c s r) (fun _ => 0) is) :
    ∃ ws os, UtxCarries c (utxSent c (utxStep c s r) is) ws ∧ (∀ w ∈ ws, UrxSlotsOk c.S w) ∧
      ws.flatten.filterMap id <+: utxSegs c os ∧ UtxMerge c ts os := by
  obtain ⟨H, hg⟩ := utxGeo_of hc
  obtain ⟨h1, h2⟩ := utx_reset (c := c) (H := H) ts s r hr
  obtain ⟨G, new, ws, pw, hI, hem, hp, hcar, hws, hs⟩ := utx_run hc hg hok h1 h2 hf
  refine ⟨ws, G.os, hcar, hws, ?_, hI.ports, ?_⟩
  · have := hI.em
    rw [hem, List.nil_append] at this
    refine ⟨utxIn pw ++ G.outRest c (utxRun c (utxStep c s r) is).port, ?_⟩
    change utxIn ws ++ _ = _
    rw [← List.append_assoc, hs, ← this]
    rfl
  · intro p hp
    exact ⟨G.us p, hI.order p hp⟩

/-! ### Counting -/

theorem utx_sum_range_add (P : Nat) (a b : Nat → Nat) :
    ((List.range P).map fun p => a p + b p).sum = ((List.range P).map a).sum + ((List.range P).map b).sum := by
  induction P with
  | zero => rfl
  | succ P ih => simp only [List.range_succ, List.map_append, List.sum_append, ih, List.map_cons, List.map_nil, List.sum_cons, List.sum_nil]; omega

theorem utx_sum_zero (P : Nat) : ((List.range P).map fun _ => 0).sum = 0 := by
  induction P with
  | zero => rfl
  | succ P ih => simp only [List.range_succ, List.map_append, List.sum_append, ih, List.map_cons, List.map_nil, List.sum_cons, List.sum_nil, Nat.add_zero]

theorem utx_sum_range_ind (P q k : Nat) (h : q < P) : ((List.range P).map fun p => if q = p then k else 0).sum = k := by
  induction P with
  | zero => omega
  | succ P ih =>
    simp only [List.range_succ, List.map_append, List.sum_append, List.map_cons, List.map_nil, List.sum_cons, List.sum_nil]
    by_cases hq : q = P
    · subst hq
      have : ((List.range q).map fun p => if q = p then k else 0).sum = 0 := by
        have : (List.range q).map (fun p => if q = p then k else 0) = (List.range q).map (fun _ => 0) := by
          apply List.map_congr_left
          intro p hp
          rw [List.mem_range] at hp
          rw [if_neg (by omega)]
        rw [this, utx_sum_zero]
      rw [this]; simp
    · rw [ih (by omega), if_neg hq]; simp

theorem utx_sum_split (P : Nat) (f : UtxTlp → Nat) (os : List (Nat × UtxTlp)) (h : ∀ x ∈ os, x.1 < P) :
    (os.map fun x => f x.2).sum = ((List.range P).map fun p => (((os.filter (·.1 == p)).map (·.2)).map f).sum).sum := by
  induction os with
  | nil => simp [utx_sum_zero]
  | cons x os ih =>
    have hx := h x (List.mem_cons_self ..)
    rw [List.map_cons, List.sum_cons, ih (fun y hy => h y (List.mem_cons_of_mem _ hy)), ← utx_sum_range_ind P x.1 (f x.2) hx, ← utx_sum_range_add]
    congr 1
    apply List.map_congr_left
    intro p _
    by_cases hp : x.1 = p
    · simp [hp]
    · simp [hp]

theorem utx_total {c : UtxCfg} {H : Nat} {ts : Nat → List UtxTlp} {pos : Nat → Nat} {st : Utx} {G : UtxG} (h : UtxSt c H ts pos st G) :
    utxTotal c ts = G.em.length + (G.outRest c st.port).length +
      ((List.range c.P).map fun p => ((G.us p).map fun t => urxCount c.W (c.D + t.payload.length)).sum).sum := by
  have e1 : utxTotal c ts = ((List.range c.P).map fun p => ((ts p).map fun t => urxCount c.W (c.D + t.payload.length)).sum).sum := by
    unfold utxTotal
    induction List.range c.P with
    | nil => rfl
    | cons p l ih => rw [List.flatMap_cons, List.map_append, List.sum_append, ih, List.map_cons, List.sum_cons]
  have e2 : (utxSegs c G.os).length = (G.os.map fun x => urxCount c.W (c.D + x.2.payload.length)).sum := by
    unfold utxSegs
    rw [List.length_flatMap]
    congr 1
    apply List.map_congr_left
    intro x _
    rw [utx_segs_eq]; simp
  have e3 := congrArg List.length h.em
  rw [List.length_append, e2, utx_sum_split c.P (fun t => urxCount c.W (c.D + t.payload.length)) _ h.ports] at e3
  rw [e1, e3, ← utx_sum_range_add]
  congr 1
  apply List.map_congr_left
  intro p hp
  rw [← h.order p (List.mem_range.1 hp), List.map_append, List.sum_append]

/-- Everything has been sent. -/
theorem utx_done {c : UtxCfg} {H : Nat} (hg : UtxGeo c H) {ts : Nat → List UtxTlp} {pos : Nat → Nat} {st : Utx} {G : UtxG} (h : UtxSt c H ts pos st G) (hl : G.em.length = utxTotal c ts) :
    G.em = utxSegs c G.os ∧ ∀ p, p < c.P → (G.os.filter (·.1 == p)).map (·.2) = ts p := by
  have hW : 0 < c.W := by have := hg.rlt; omega
  have ht := utx_total h
  have h1 : (G.outRest c st.port).length = 0 := by omega
  have h2 : ((List.range c.P).map fun p => ((G.us p).map fun t => urxCount c.W (c.D + t.payload.length)).sum).sum = 0 := by omega
  refine ⟨?_, ?_⟩
  · have := h.em
    rw [List.length_eq_zero_iff.1 h1, List.append_nil] at this
    exact this
  · intro p hp
    have := h.order p hp
    have hz : ((G.us p).map fun t => urxCount c.W (c.D + t.payload.length)).sum = 0 := by
      rw [List.sum_eq_zero_iff_forall_eq_nat] at h2
      exact h2 _ (List.mem_map.2 ⟨p, List.mem_range.2 hp, rfl⟩)
    have hu : G.us p = [] := by
      cases hu : G.us p with
      | nil => rfl
      | cons t r =>
        rw [hu] at hz
        have := @utx_count_pos c.W (c.D + t.payload.length) hW
        simp at hz
        omega
    rw [hu, List.append_nil] at this
    exact this

/-- A good cycle sends something unless there is nothing left. -/
theorem utx_good {c : UtxCfg} (hc : UtxCfgOk c) {H : Nat} (hg : UtxGeo c H) {ts : Nat → List UtxTlp} (hok : UtxTlpsOk c ts) {pos : Nat → Nat}
    {st : Utx} {i : UtxIn} {G : UtxG} (hI : UtxSt c H ts pos st G) (hr : i.rst = false) (hsh : UtxShows c ts pos i) {pw : List UrxSlots}
    (hp : UtxPend c st pw) (hgo : UtxGo i) (hcr : c.rq = true → st.haveP = true ∧ st.haveNp = true)
    (hfull : ∀ p, p < c.P → min c.S ((utxPieces c.W (ts p)).length - pos p) ≤ i.avail p) :
    ∃ G' es pw', UtxSt c H ts (fun p => pos p + utxRead c st i p) (utxStep c st i) G' ∧ G'.em = G.em ++ es ∧ UtxPend c (utxStep c st i) pw' ∧
      ((st.tvalid && i.tready) = true → utxIn pw' = es) ∧
      ((st.tvalid && i.tready) = false → utxIn pw' = utxIn pw ++ es) ∧
      (utxStep c st i).tvalid = (es.length != 0) ∧ (es.length = 0 → G.em.length = utxTotal c ts) := by
  have hW : 0 < c.W := by have := hg.rlt; omega
  have hSpos : 0 < c.S := by have := hg.S; omega
  obtain ⟨G', es, pw', h1, h2, h3, h4, h5, h6⟩ := utx_step hc hg hok hI hr hsh hp
  have hfree : utxFree st i = true := by unfold utxFree; rw [hgo.1, Bool.or_true]
  obtain ⟨h6, h7⟩ := h6 hfree
  refine ⟨G', es, pw', h1, h2, h3, h4, h5, h6, ?_⟩
  intro h0
  rcases h7 h0 with ⟨p, o, hp1, hp2, hp3, hp4⟩ | ⟨hf, hav⟩
  · have := hfull p hp1; omega
  · have hcur : G.cur = none := by
      have := hI.frame
      rw [hf] at this
      cases hc : G.cur with
      | none => rfl
      | some _ => rw [hc] at this; simp at this
    have hus : ∀ p, p < c.P → G.us p = [] := by
      intro p hp1
      have hcred : utxCredit c st p = true := by
        unfold utxCredit
        cases hq : c.rq with
        | false => rfl
        | true => obtain ⟨a, b⟩ := hcr hq; simp [a, b]
      have h0 := hav p hp1 hcred
      have := hfull p hp1
      have hd : (utxPieces c.W (ts p)).drop (pos p) = [] := by
        rw [List.drop_eq_nil_iff]; omega
      rw [hI.pieces p hp1] at hd
      have := (List.append_eq_nil_iff.1 hd).2
      cases hu : G.us p with
      | nil => rfl
      | cons t r =>
        rw [hu, utxPieces_cons] at this
        have h1 := (List.append_eq_nil_iff.1 this).1
        have := @utx_count_pos c.W t.payload.length hW
        rw [List.map_eq_nil_iff, List.range'_eq_nil_iff] at h1
        omega
    have ht := utx_total hI
    have ho : G.outRest c st.port = [] := by unfold UtxG.outRest; rw [hcur]; rfl
    have hz : ((List.range c.P).map fun p => ((G.us p).map fun t => urxCount c.W (c.D + t.payload.length)).sum).sum = 0 := by
      rw [List.sum_eq_zero_iff_forall_eq_nat]
      intro x hx
      obtain ⟨p, hp, rfl⟩ := List.mem_map.1 hx
      rw [hus p (List.mem_range.1 hp)]; rfl
    rw [ho, hz] at ht
    simpa using ht.symm

theorem utx_mpsReg (c : UtxCfg) (st : Utx) (i : UtxIn) : (utxStep c st i).mpsReg ≤ 256 := by
  show 8 * 2 ^ (if i.mps > 5 then 5 else i.mps) ≤ 256
  have : (if i.mps > 5 then 5 else i.mps) ≤ 5 := by split <;> omega
  have := Nat.pow_le_pow_right (n := 2) (by decide) this
  omega

theorem utx_credit_next {c : UtxCfg} {st : Utx} {i : UtxIn} (hm : st.mpsReg ≤ 256) (hgo : UtxGo i) :
    (utxStep c st i).haveP = true ∧ (utxStep c st i).haveNp = true := by
  obtain ⟨_, h1, h2, h3⟩ := hgo
  unfold utxStep
  simp
  omega

/-- Good cycles with credits. -/
theorem utx_go {c : UtxCfg} (hc : UtxCfgOk c) {H : Nat} (hg : UtxGeo c H) {ts : Nat → List UtxTlp} (hok : UtxTlpsOk c ts) {js : List UtxIn} :
    ∀ {pos : Nat → Nat} {st : Utx} {G : UtxG} {pw : List UrxSlots}, UtxSt c H ts pos st G → UtxPend c st pw → st.mpsReg ≤ 256 →
    st.haveP = true ∧ st.haveNp = true → UtxFeed c ts st pos js → UtxFull c ts st pos js → (∀ j ∈ js, UtxGo j) →
    ∃ G' new ws pw', UtxSt c H ts (utxPosAfter c st pos js) (utxRun c st js) G' ∧ G'.em = G.em ++ new ∧ UtxPend c (utxRun c st js) pw' ∧
      UtxCarries c (utxSent c st js) ws ∧ (∀ w ∈ ws, UrxSlotsOk c.S w) ∧ utxIn ws ++ utxIn pw' = utxIn pw ++ new ∧
      min (utxTotal c ts) (G.em.length + js.length) ≤ G'.em.length ∧
      (js ≠ [] → utxTotal c ts < G.em.length + js.length → (utxRun c st js).tvalid = false) := by
  induction js with
  | nil =>
    intro pos st G pw hI hp _ _ _ _ _
    exact ⟨G, [], [], pw, hI, by simp, hp, trivial, by simp, by simp [utxIn], by simp; omega, fun h => absurd rfl h⟩
  | cons i js ih =>
    intro pos st G pw hI hp hm hcr hf hfl hgo
    obtain ⟨hr, hsh, hf⟩ := hf
    obtain ⟨hfu, hfl⟩ := hfl
    have hgi := hgo i (List.mem_cons_self ..)
    obtain ⟨G1, es, pw1, hI1, hem1, hp1, ht1, ht2, hv1, he1⟩ := utx_good hc hg hok hI hr hsh hp hgi (fun _ => hcr) hfu
    obtain ⟨G2, new, ws, pw2, hI2, hem2, hp2, hc2, ho2, hs2, hmin, hlast⟩ :=
      ih hI1 hp1 (utx_mpsReg c st i) (utx_credit_next hm hgi) hf hfl (fun j hj => hgo j (List.mem_cons_of_mem _ hj))
    have hl1 : G1.em.length = G.em.length + es.length := by rw [hem1]; simp
    have hl2 : G2.em.length = G1.em.length + new.length := by rw [hem2]; simp
    have ht1' := utx_total hI1
    have hmin' : min (utxTotal c ts) (G.em.length + (i :: js).length) ≤ G2.em.length := by
      simp only [List.length_cons]
      by_cases h0 : es.length = 0
      · have := he1 h0; omega
      · omega
    have hlast' : (i :: js) ≠ [] → utxTotal c ts < G.em.length + (i :: js).length → (utxRun c (utxStep c st i) js).tvalid = false := by
      intro _ hlt
      simp only [List.length_cons] at hlt
      cases js with
      | nil =>
        simp only [utxRun]
        simp only [List.length_nil] at hlt
        rw [hv1]
        have ht := utx_total hI
        have : es.length = 0 := by omega
        rw [this]; rfl
      | cons j js =>
        refine hlast (by simp) ?_
        by_cases h0 : es.length = 0
        · have := he1 h0
          simp only [List.length_cons] at hlt ⊢
          omega
        · simp only [List.length_cons] at hlt ⊢
          omega
    cases htr : st.tvalid && i.tready with
    | true =>
      have htv : st.tvalid = true := by
        rw [Bool.and_eq_true] at htr; exact htr.1
      have hp' := hp
      unfold UtxPend at hp'
      rw [htv, if_pos rfl] at hp'
      obtain ⟨w, hw, hcar, hslot⟩ := hp'
      refine ⟨G2, es ++ new, pw ++ ws, pw2, hI2, by rw [hem2, hem1, List.append_assoc], hp2, ?_, ?_, ?_, hmin', hlast'⟩
      · unfold utxSent
        rw [htr, hw]
        exact ⟨hcar, hc2⟩
      · intro w' hw'
        rcases List.mem_append.1 hw' with h | h
        · rw [hw] at h; simp at h; rw [h]; exact hslot
        · exact ho2 w' h
      · rw [utxIn_append, List.append_assoc, hs2, ht1 htr]
    | false =>
      refine ⟨G2, es ++ new, ws, pw2, hI2, by rw [hem2, hem1, List.append_assoc], hp2, ?_, ho2, ?_, hmin', hlast'⟩
      · unfold utxSent
        rw [htr]
        exact hc2
      · rw [hs2, ht2 htr, List.append_assoc]

theorem utxFull_append {c : UtxCfg} {ts : Nat → List UtxTlp} {is js : List UtxIn} {st : Utx} {pos : Nat → Nat} (h : UtxFull c ts st pos (is ++ js)) :
    UtxFull c ts (utxRun c st is) (utxPosAfter c st pos is) js := by
  induction is generalizing st pos with
  | nil => exact h
  | cons i is ih => exact ih h.2

theorem utxRun_mps {c : UtxCfg} {is : List UtxIn} {st : Utx} (h : st.mpsReg ≤ 256) : (utxRun c st is).mpsReg ≤ 256 := by
  induction is generalizing st with
  | nil => exact h
  | cons i is ih => exact ih (utx_mpsReg c st i)

theorem utx_progress {c : UtxCfg} (hc : UtxCfgOk c) {ts : Nat → List UtxTlp} (hok : UtxTlpsOk c ts) (s : Utx) (r : UtxIn) (hr : r.rst = true)
    {is js : List UtxIn} (hf : UtxFeed c ts (utxStep c s r) (fun _ => 0) (is ++ js))
    (hfl : UtxFull c ts (utxRun c (utxStep c s r) is) (utxPosAfter c (utxStep c s r) (fun _ => 0) is) js)
    (hgo : ∀ j ∈ js, UtxGo j) (hlen : utxTotal c ts + 2 ≤ js.length) :
    ∃ ws os, UtxCarries c (utxSent c (utxStep c s r) (is ++ js)) ws ∧ (∀ w ∈ ws, UrxSlotsOk c.S w) ∧
      ws.flatten.filterMap id = utxSegs c os ∧ (∀ x ∈ os, x.1 < c.P) ∧ ∀ p, p < c.P → (os.filter (·.1 == p)).map (·.2) = ts p := by
  obtain ⟨H, hg⟩ := utxGeo_of hc
  cases js with
  | nil => simp at hlen
  | cons j js =>
    obtain ⟨h1, h2⟩ := utx_reset (c := c) (H := H) ts s r hr
    have e : is ++ j :: js = (is ++ [j]) ++ js := by simp
    rw [e] at hf ⊢
    rw [utxFeed_append] at hf
    obtain ⟨G, new, ws, pw, hI, hem, hp, hcar, hws, hs⟩ := utx_run hc hg hok h1 h2 hf.1
    have hrun : ∀ (st : Utx) (l : List UtxIn), utxRun c st (l ++ [j]) = utxStep c (utxRun c st l) j := by
      intro st l
      induction l generalizing st with
      | nil => rfl
      | cons a l ih => exact ih _
    have hpos : ∀ (l : List UtxIn) (st : Utx) (pos : Nat → Nat), utxPosAfter c st pos (l ++ [j]) =
        fun p => utxPosAfter c st pos l p + utxRead c (utxRun c st l) j p := by
      intro l
      induction l with
      | nil => intro st pos; rfl
      | cons a l ih => intro st pos; exact ih _ _
    have hm := utxRun_mps (c := c) (is := is) (utx_mpsReg c s r)
    have hcr : (utxRun c (utxStep c s r) (is ++ [j])).haveP = true ∧ (utxRun c (utxStep c s r) (is ++ [j])).haveNp = true := by
      rw [hrun]; exact utx_credit_next hm (hgo j (List.mem_cons_self ..))
    have hfl' : UtxFull c ts (utxRun c (utxStep c s r) (is ++ [j])) (utxPosAfter c (utxStep c s r) (fun _ => 0) (is ++ [j])) js := by
      rw [hrun, hpos]; exact hfl.2
    obtain ⟨G2, new2, ws2, pw2, hI2, hem2, hp2, hc2, ho2, hs2, hmin, hlast⟩ := utx_go hc hg hok hI hp
      (utxRun_mps (c := c) (is := is ++ [j]) (utx_mpsReg c s r)) hcr hf.2 hfl' (fun x hx => hgo x (List.mem_cons_of_mem _ hx))
    simp only [List.length_cons] at hlen
    have htv := hlast (by intro h; rw [h] at hlen; simp at hlen) (by omega)
    have hpw : pw2 = [] := by unfold UtxPend at hp2; rw [htv] at hp2; exact hp2
    have htot := utx_total hI2
    obtain ⟨d1, d2⟩ := utx_done hg hI2 (by omega)
    refine ⟨ws ++ ws2, G2.os, ?_, ?_, ?_, hI2.ports, d2⟩
    · rw [utxSent_append]; exact utxCarries_append hcar hc2
    · intro w hw
      rcases List.mem_append.1 hw with h | h
      · exact hws w h
      · exact ho2 w h
    · change utxIn (ws ++ ws2) = _
      rw [utxIn_append, ← d1, hem2, hem]
      rw [hpw] at hs2
      simp only [utxIn, List.flatten_nil, List.filterMap_nil, List.append_nil, List.nil_append] at hs2 hs ⊢
      rw [hs2, ← List.append_assoc, hs]

/-! ### Stability, credits -/

theorem utx_stable {c : UtxCfg} {st : Utx} {i : UtxIn} (hr : i.rst = false) (hv : st.tvalid = true) (ht : i.tready = false) :
    (utxStep c st i).tvalid = true ∧ (utxStep c st i).word = st.word := by
  unfold utxStep
  simp [hr, utxFree, hv, ht]

theorem utx_loop_credit {c : UtxCfg} {st : Utx} {i : UtxIn} {p : Nat} (hcr : utxCredit c st p = false) (hf : ¬ (st.frame = true ∧ st.port = p)) :
    (utxLoop c st i).coff p = 0 ∧ ¬ ((utxLoop c st i).cframe = true ∧ (utxLoop c st i).cport = p) := by
  have key : ∀ (l : List Nat) (x : UtxCyc), ¬ (x.frame = true ∧ x.port = p) → x.coff p = 0 → ¬ (x.cframe = true ∧ x.cport = p) →
      (l.foldl (utxSlot c (utxCredit c st) i) x).coff p = 0 ∧ ¬ ((l.foldl (utxSlot c (utxCredit c st) i) x).cframe = true ∧
        (l.foldl (utxSlot c (utxCredit c st) i) x).cport = p) := by
    intro l
    induction l with
    | nil => intro x _ h2 h3; exact ⟨h2, h3⟩
    | cons k l ih =>
      intro x h1 h2 h3
      rw [List.foldl_cons]
      have hsel : ¬ ((utxSelect c (utxCredit c st) i x).frame = true ∧ (utxSelect c (utxCredit c st) i x).port = p) ∧
          (utxSelect c (utxCredit c st) i x).coff p = 0 ∧ ¬ ((utxSelect c (utxCredit c st) i x).cframe = true ∧ (utxSelect c (utxCredit c st) i x).cport = p) := by
        unfold utxSelect
        split
        · dsimp only
          split
          · rename_i q hq
            refine ⟨?_, h2, h3⟩
            have := List.find?_some hq
            rw [Bool.and_eq_true] at this
            rintro ⟨_, hqp⟩
            have hqp : q = p := hqp
            rw [hqp, hcr] at this
            exact absurd this.2 (by simp)
          · exact ⟨h1, h2, h3⟩
        · exact ⟨h1, h2, h3⟩
      rw [utxSlot_round]
      generalize utxSelect c (utxCredit c st) i x = y at *
      obtain ⟨g1, g2, g3⟩ := hsel
      obtain ⟨s1, s2, s3, s4, s5, s6, s7, s8, s9, s10, s11, s12⟩ := utxRoute_same c i y
      have hport : (utxRoute c i y).1.port = y.port := by
        unfold utxRoute UtxCyc.advance
        dsimp only
        split
        · rfl
        · split
          · split <;> rfl
          · split
            · split <;> rfl
            · rfl
      have hfr : ¬ ((utxRoute c i y).1.frame = true ∧ (utxRoute c i y).1.port = p) := by
        rintro ⟨a, b⟩
        refine g1 ⟨?_, by rw [← hport]; exact b⟩
        cases hy : y.frame with
        | true => rfl
        | false => rw [s12 hy] at a; cases a
      have hco : (utxRoute c i y).1.coff p = 0 := by rw [s2]; exact g2
      have hcf : ¬ ((utxRoute c i y).1.cframe = true ∧ (utxRoute c i y).1.cport = p) := by rw [s4, s9]; exact g3
      refine ih _ ?_ ?_ ?_
      all_goals
        unfold utxRound
        dsimp only
        split
        · rename_i hyf
          rw [Bool.and_eq_true] at hyf
          have hne : p ≠ (utxRoute c i y).1.port := fun h => g1 ⟨hyf.1, by rw [← hport]; exact h.symm⟩
          split
          · split
            · simp only [UtxCyc.commit, if_neg hne]
              first | exact hfr | exact hco | exact fun h => hne h.2.symm
            · first | exact hfr | exact hco | exact hcf
          · first | exact hfr | exact hco | exact hcf
        · first | exact hfr | exact hco | exact hcf
  exact key (List.range c.S) (utxCyc0 st) hf rfl hf

theorem utx_credit {c : UtxCfg} {st : Utx} {i : UtxIn} {p : Nat} (hcr : utxCredit c st p = false) (hf : ¬ (st.frame = true ∧ st.port = p)) :
    utxRead c st i p = 0 ∧ (i.rst = false → ¬ ((utxStep c st i).frame = true ∧ (utxStep c st i).port = p)) := by
  obtain ⟨h1, h2⟩ := @utx_loop_credit c st i p hcr hf
  refine ⟨?_, ?_⟩
  · unfold utxRead; split
    · exact h1
    · rfl
  · intro hr
    unfold utxStep
    simp only [hr, Bool.false_eq_true, if_false]
    split
    · exact h2
    · exact hf

theorem rq_seq {Q seq p : Nat} (h : seq < 2 ^ (Q - 1)) (valid : Bool) :
    rqSeqOut (Q - 1) Q (seq + if p = 0 then 2 ^ (Q - 1) else 0) valid = ((seq, valid && p == 0), (seq, valid && p != 0)) := by
  unfold rqSeqOut
  have hand : seq &&& 2 ^ (Q - 1) = 0 := by
    apply Nat.eq_of_testBit_eq
    intro j
    rw [Nat.testBit_and, Nat.testBit_two_pow]
    by_cases hj : Q - 1 = j
    · subst hj; rw [Nat.testBit_lt_two_pow h]; simp
    · simp [hj]
  by_cases hp : p = 0
  · subst hp
    simp only [if_true]
    have h1 : (seq + 2 ^ (Q - 1)) % 2 ^ (Q - 1) = seq := by rw [Nat.add_mod_right, Nat.mod_eq_of_lt h]
    have h2 : ((seq + 2 ^ (Q - 1)) &&& 2 ^ (Q - 1)) = 2 ^ (Q - 1) := by
      have : (seq + 2 ^ (Q - 1)).testBit (Q - 1) = true := by
        rw [Nat.add_comm, Nat.testBit_two_pow_add_eq, Nat.testBit_lt_two_pow h]; rfl
      apply Nat.eq_of_testBit_eq
      intro j
      rw [Nat.testBit_and, Nat.testBit_two_pow]
      by_cases hj : Q - 1 = j
      · subst hj; rw [this]; simp
      · simp [hj]
    rw [h1, h2]
    have : (2:Nat) ^ (Q - 1) ≠ 0 := by have := Nat.two_pow_pos (Q - 1); omega
    simp [this]
  · simp only [if_neg hp, Nat.add_zero, hand, Nat.mod_eq_of_lt h]
    simp [hp]

end Verif.Proofs
