import Verif.Proofs.UsIfTxLoop
/-! Proofs about the UltraScale CC and RQ interfaces: the words on the AXI stream. -/
namespace Verif.Proofs
open Verif.Model Verif.Spec

/-! ### Side band -/

/-- The fields come in ascending order, from bit `b` on. -/
def utxAsc : Nat → UtxFields → Bool
  | _, [] => true
  | b, (lo, n, _) :: fs => decide (b ≤ lo) && utxAsc (lo + n) fs

/-- The field with bits `lo + n - 1 .. lo`, if they are all in one. -/
def utxGet (lo n : Nat) : UtxFields → Option Nat
  | [] => none
  | (lo0, n0, v) :: fs => if lo0 ≤ lo ∧ lo + n ≤ lo0 + n0 then some (v % 2 ^ n0 / 2 ^ (lo - lo0) % 2 ^ n) else utxGet lo n fs

theorem utxGet_le {fs : UtxFields} {b lo n v : Nat} (ha : utxAsc b fs = true) (h : utxGet lo n fs = some v) : b ≤ lo := by
  induction fs generalizing b with
  | nil => cases h
  | cons f fs ih =>
    obtain ⟨lo0, n0, v0⟩ := f
    simp only [utxAsc, Bool.and_eq_true, decide_eq_true_eq] at ha
    unfold utxGet at h
    split at h
    · omega
    · have := ih ha.2 h; omega

theorem utxPack_get {fs : UtxFields} {b lo n v : Nat} (ha : utxAsc b fs = true) (h : utxGet lo n fs = some v) :
    utxPack b fs / 2 ^ (lo - b) % 2 ^ n = v := by
  induction fs generalizing b with
  | nil => cases h
  | cons f fs ih =>
    obtain ⟨lo0, n0, v0⟩ := f
    have ha' := ha
    simp only [utxAsc, Bool.and_eq_true, decide_eq_true_eq] at ha
    have hp : utxPack b ((lo0, n0, v0) :: fs) = (v0 % 2 ^ n0 + utxPack (lo0 + n0) fs * 2 ^ n0) * 2 ^ (lo0 - b) := by
      rw [Nat.add_mul, Nat.mul_assoc, ← Nat.pow_add, Nat.add_comm n0]
      rfl
    have hdiv : utxPack b ((lo0, n0, v0) :: fs) / 2 ^ (lo0 - b) = v0 % 2 ^ n0 + utxPack (lo0 + n0) fs * 2 ^ n0 := by
      rw [hp, Nat.mul_div_cancel _ (Nat.two_pow_pos _)]
    have hv : v0 % 2 ^ n0 < 2 ^ n0 := Nat.mod_lt _ (Nat.two_pow_pos _)
    unfold utxGet at h
    split at h
    · rename_i hc
      have hlo : lo - b = (lo0 - b) + (lo - lo0) := by omega
      rw [hlo, Nat.pow_add, ← Nat.div_div_eq_div_mul, hdiv]
      rw [Option.some.injEq] at h
      rw [← h]
      generalize utxPack (lo0 + n0) fs = y
      have hn0 : n0 = (lo - lo0) + (n0 - (lo - lo0)) := by omega
      have e1 : (v0 % 2 ^ n0 + y * 2 ^ n0) / 2 ^ (lo - lo0) = v0 % 2 ^ n0 / 2 ^ (lo - lo0) + y * 2 ^ (n0 - (lo - lo0)) := by
        have : y * 2 ^ n0 = 2 ^ (lo - lo0) * (y * 2 ^ (n0 - (lo - lo0))) := by
          have h2 : (2:Nat) ^ n0 = 2 ^ (lo - lo0) * 2 ^ (n0 - (lo - lo0)) := by rw [← Nat.pow_add, ← hn0]
          rw [h2, Nat.mul_left_comm]
        rw [this, Nat.add_mul_div_left _ _ (Nat.two_pow_pos _)]
      rw [e1]
      have h3 : (2:Nat) ^ (n0 - (lo - lo0)) = 2 ^ n * 2 ^ (n0 - (lo - lo0) - n) := by rw [← Nat.pow_add]; congr 1; omega
      rw [h3, Nat.mul_left_comm, Nat.add_mul_mod_self_left]
    · have hle := utxGet_le ha.2 h
      have hlo : lo - b = (lo0 - b) + n0 + (lo - (lo0 + n0)) := by omega
      rw [hlo, Nat.pow_add, Nat.pow_add, ← Nat.div_div_eq_div_mul, ← Nat.div_div_eq_div_mul, hdiv]
      have : (v0 % 2 ^ n0 + utxPack (lo0 + n0) fs * 2 ^ n0) / 2 ^ n0 = utxPack (lo0 + n0) fs := by
        rw [Nat.add_mul_div_right _ _ (Nat.two_pow_pos _), Nat.div_eq_of_lt hv, Nat.zero_add]
      rw [this]
      exact ih ha.2 h

/-- Reading a field of `tuser`. -/
theorem utx_user {o : UtxWord} {fs : UtxFields} (ho : o.tuser = utxPack 0 fs) {lo n v : Nat} (ha : utxAsc 0 fs = true)
    (h : utxGet lo n fs = some v) : o.user lo n = v := by
  unfold UtxWord.user
  rw [ho]
  exact utxPack_get ha h

theorem utxEopIndex_eq {W n : Nat} {strb : Nat → Bool} (h : ∀ j, j < W → strb j = decide (j < n)) :
    utxEopIndex W strb = (min n W - 1) % 8 := by
  unfold utxEopIndex
  congr 1
  induction W with
  | zero => simp
  | succ W ih =>
    rw [List.range_succ, List.foldl_append, List.foldl_cons, List.foldl_nil, ih (fun j hj => h j (by omega)), h W (by omega)]
    by_cases hn : W < n
    · rw [if_pos (by simpa using hn)]; omega
    · rw [if_neg (by simpa using hn)]; omega

/-! ### The word -/

/-- The contents of a word. -/
def utxSlots (c : UtxCfg) (es : List UrxSeg) : UrxSlots := es.map some ++ List.replicate (c.S - es.length) none

theorem utxSlots_get {c : UtxCfg} {es : List UrxSeg} {s : Nat} {a : UrxSeg} :
    (utxSlots c es)[s]? = some (some a) ↔ es[s]? = some a := by
  unfold utxSlots
  rcases Nat.lt_or_ge s es.length with h | h
  · rw [List.getElem?_append_left (by simpa using h), List.getElem?_map]
    simp
  · rw [List.getElem?_append_right (by simpa using h), List.getElem?_eq_none h]
    constructor
    · intro hh
      have := List.mem_of_getElem? hh
      simp at this
    · intro hh; cases hh

theorem utxSlots_getD {c : UtxCfg} {es : List UrxSeg} {s : Nat} : (utxSlots c es).getD s none = es[s]? := by
  cases h : es[s]? with
  | some a =>
    rw [List.getD_eq_getElem?_getD, utxSlots_get.2 h]; rfl
  | none =>
    rw [List.getD_eq_getElem?_getD]
    cases h2 : (utxSlots c es)[s]? with
    | none => rfl
    | some o =>
      cases o with
      | none => rfl
      | some a => rw [utxSlots_get] at h2; rw [h] at h2; cases h2

theorem utxShift_eq (c : UtxCfg) (st : Utx) (i : UtxIn) (l : List UtxSlot) (sel : Nat) (hsel : sel ≤ l.length) :
    ∀ k, utxShift c st i l sel k = utxShAt c i (st.shiftD, st.shiftS) (l.take (min k sel))
  | 0 => by simp [utxShift, utxShAt]
  | k + 1 => by
    unfold utxShift
    by_cases hk : k < sel
    · have hl : k < l.length := by omega
      rw [List.getElem?_eq_getElem hl]
      simp only [if_pos hk]
      have : min (k + 1) sel = k + 1 := by omega
      rw [this, List.take_succ_eq_append_getElem hl]
      unfold utxShAt
      rw [List.getLast?_concat]
      rfl
    · have : min (k + 1) sel = min k sel := by omega
      rw [this, ← utxShift_eq c st i l sel hsel k]
      cases l[k]? with
      | none => rfl
      | some s => simp only [if_neg hk]

section
variable {c : UtxCfg} {st : Utx} {env : UtxIn} {l : List UtxSlot} {sel : Nat} {es : List UrxSeg}

theorem utx_emits_at (hl : l.length = c.S) (hsel : sel ≤ c.S) (hem : UtxEmits c env (st.shiftD, st.shiftS) (l.take sel) es)
    {k : Nat} {a : UrxSeg} (ha : es[k]? = some a) :
    k < sel ∧ UtxSlotIs c env (utxShift c st env l sel k) (utxSlotAt l k) a := by
  have hlen := hem.len
  rw [List.length_take] at hlen
  have hk : k < es.length := (List.getElem?_eq_some_iff.1 ha).1
  have hks : k < sel := by omega
  refine ⟨hks, ?_⟩
  have hkl : k < l.length := by omega
  have hsl : (l.take sel)[k]? = some (utxSlotAt l k) := by
    rw [List.getElem?_take_of_lt hks]
    unfold utxSlotAt
    rw [List.getD_eq_getElem?_getD, List.getElem?_eq_getElem hkl]; rfl
  have := hem.is k _ a hsl ha
  rw [List.take_take] at this
  rw [utxShift_eq c st env l sel (by omega)]
  exact this

theorem utx_slots_ok (hl : l.length = c.S) (hsel : sel ≤ c.S) (hpos : 0 < sel)
    (hem : UtxEmits c env (st.shiftD, st.shiftS) (l.take sel) es) (hcl : ∀ a, es.getLast? = some a → a.last = false → sel = c.S) :
    UrxSlotsOk c.S (utxSlots c es) := by
  have hlen := hem.len
  rw [List.length_take] at hlen
  refine ⟨by simp [utxSlots]; omega, ?_, ?_⟩
  · have h0 : 0 < es.length := by omega
    exact ⟨es[0], utxSlots_get.2 (List.getElem?_eq_getElem h0)⟩
  · intro s a ha hla hs
    rw [utxSlots_get] at ha
    by_cases h1 : s + 1 < es.length
    · exact ⟨es[s + 1], utxSlots_get.2 (List.getElem?_eq_getElem h1)⟩
    · have hse : s < es.length := (List.getElem?_eq_some_iff.1 ha).1
      have : es.getLast? = some a := by
        rw [List.getLast?_eq_getElem?]
        have : es.length - 1 = s := by omega
        rw [this]; exact ha
      have := hcl a this hla
      omega

theorem utx_mod_add (x : Nat) : x % 2 ^ 8 = x % 2 ^ 4 + x / 2 ^ 4 % 2 ^ 4 * 16 := by omega

/-- The fields of a request that starts in segment `k`. -/
theorem utx_side {a : UrxSeg} {sh : (Nat → Nat) × (Nat → Bool)} {sl : UtxSlot} (h : UtxSlotIs c env sh sl a) (hf : a.first = true) (hD : c.D = 4) :
    utxBits (utxView c env sl.port sl.idx).hdr 64 8 = a.be % 256 ∧
    ((utxView c env sl.port sl.idx).seq ||| (if sl.port = 0 then 2 ^ (c.Q - 1) else 0)) = a.be / 256 ∧ a.be / 256 < 2 ^ (c.Q - 1) * 2 := by
  obtain ⟨h1, h2⟩ := h.side hf hD
  have hb : utxBits (utxView c env sl.port sl.idx).hdr 64 8 < 256 := Nat.mod_lt _ (by decide)
  generalize utxBits (utxView c env sl.port sl.idx).hdr 64 8 = b at *
  generalize ((utxView c env sl.port sl.idx).seq ||| (if sl.port = 0 then 2 ^ (c.Q - 1) else 0)) = q at *
  have e1 : a.be / 256 = q := by omega
  refine ⟨by omega, e1.symm, by rw [e1]; exact h1⟩

theorem utx_user_plain_rq {o : UtxWord} {Q : Nat} (hQ : Q = 4 ∨ Q = 6) {v e : Nat → Bool} {x be q : Nat → Nat}
    (ou : o.tuser = utxPack 0 (utxUserRq .plain Q v e x be q)) :
    o.user 0 4 = be 0 % 16 ∧ o.user 4 4 = be 0 / 16 % 16 ∧ o.user 24 4 = q 0 % 16 ∧ (Q = 6 → o.user 60 2 = q 0 / 16 % 4) ∧
    o.user 11 1 = 0 := by
  have key : ∀ lo n y, utxAsc 0 (utxUserRq .plain Q v e x be q) = true → utxGet lo n (utxUserRq .plain Q v e x be q) = some y → o.user lo n = y :=
    fun lo n y => utx_user ou
  rcases hQ with rfl | rfl
  · refine ⟨key _ _ _ rfl ?_, key _ _ _ rfl ?_, key _ _ _ rfl ?_, fun h => absurd h (by decide), key _ _ _ rfl ?_⟩ <;>
      simp [utxUserRq, utxGet]
  · refine ⟨key _ _ _ rfl ?_, key _ _ _ rfl ?_, key _ _ _ rfl ?_, fun _ => key _ _ _ rfl ?_, key _ _ _ rfl ?_⟩ <;>
      simp [utxUserRq, utxGet]

theorem utx_user_512_rq {o : UtxWord} {v e : Nat → Bool} {x be q : Nat → Nat}
    (ou : o.tuser = utxPack 0 (utxUserRq .plain512 6 v e x be q)) :
    o.user 0 4 = be 0 % 16 ∧ o.user 8 4 = be 0 / 16 % 16 ∧ o.user 61 6 = q 0 % 64 ∧ o.user 36 1 = 0 := by
  have key : ∀ lo n y, utxAsc 0 (utxUserRq .plain512 6 v e x be q) = true → utxGet lo n (utxUserRq .plain512 6 v e x be q) = some y → o.user lo n = y :=
    fun lo n y => utx_user ou
  refine ⟨key _ _ _ rfl ?_, key _ _ _ rfl ?_, key _ _ _ rfl ?_, key _ _ _ rfl ?_⟩ <;> simp [utxUserRq, utxGet]

/-- Lists of what segments 0 and 1 hold. -/
def utxTwo {α : Type} (p0 p1 : Bool) (a b : α) : List α := (if p0 then [a] else []) ++ (if p1 then [b] else [])

theorem utx_user_straddle_cc {o : UtxWord} {m : UtxMode} (hm : m ≠ .plain) {v e : Nat → Bool} {x : Nat → Nat} (hx : ∀ k, x k < 8)
    (ou : o.tuser = utxPack 0 (utxUserCc m v e x)) :
    (∀ k, k < 2 → UtxMark o (utxTwo (v 0) (v 1) 0 2) k k (2 + k * 2) 2) ∧
    (∀ k, k < 2 → UtxMark o (utxTwo (e 0) (e 1) (x 0) (8 + x 1)) k (6 + k) (8 + k * 4) 4) ∧ o.user 16 1 = 0 := by
  have key : ∀ lo n y, utxAsc 0 (utxUserCc m v e x) = true → utxGet lo n (utxUserCc m v e x) = some y → o.user lo n = y :=
    fun lo n y => utx_user ou
  have h0 := hx 0
  have h1 := hx 1
  have e8 : (8 + x 1) % 16 = 8 + x 1 := by omega
  have e0 : x 0 % 16 = x 0 := by omega
  cases m with
  | plain => exact absurd rfl hm
  | plain512 =>
    cases hv0 : v 0 <;> cases hv1 : v 1 <;> cases he0 : e 0 <;> cases he1 : e 1 <;>
    (unfold utxUserCc at key
     rw [hv0, hv1, he0, he1] at key
     simp only [utxTwo, if_true, if_false, Bool.false_eq_true, List.nil_append, List.append_nil, List.singleton_append]
     refine ⟨?_, ?_, key _ _ _ rfl (by simp [utxGet])⟩ <;>
     (intro k hk
      obtain rfl | rfl : k = 0 ∨ k = 1 := by omega
      all_goals
        refine ⟨key _ _ _ rfl (by simp [utxGet]), ?_⟩
        intro y hy
        simp at hy
        try (refine key _ _ _ rfl ?_; simp [utxGet]; omega)))
  | straddle =>
    cases hv0 : v 0 <;> cases hv1 : v 1 <;> cases he0 : e 0 <;> cases he1 : e 1 <;>
    (unfold utxUserCc at key
     rw [hv0, hv1, he0, he1] at key
     simp only [utxTwo, if_true, if_false, Bool.false_eq_true, List.nil_append, List.append_nil, List.singleton_append]
     refine ⟨?_, ?_, key _ _ _ rfl (by simp [utxGet])⟩ <;>
     (intro k hk
      obtain rfl | rfl : k = 0 ∨ k = 1 := by omega
      all_goals
        refine ⟨key _ _ _ rfl (by simp [utxGet]), ?_⟩
        intro y hy
        simp at hy
        try (refine key _ _ _ rfl ?_; simp [utxGet]; omega)))

theorem utx_user_straddle_rq {o : UtxWord} {v e : Nat → Bool} {x be q : Nat → Nat} (hx : ∀ k, x k < 8)
    (ou : o.tuser = utxPack 0 (utxUserRq .straddle 6 v e x be q)) :
    (∀ k, k < 2 → UtxMark o (utxTwo (v 0) (v 1) 0 2) k (20 + k) (22 + k * 2) 2) ∧
    (∀ k, k < 2 → UtxMark o (utxTwo (e 0) (e 1) (x 0) (8 + x 1)) k (26 + k) (28 + k * 4) 4) ∧
    (∀ k b, k < 2 → (utxTwo (v 0) (v 1) 0 1)[k]? = some b → o.user (k * 4) 4 + o.user (8 + k * 4) 4 * 16 = be b % 256 ∧
        o.user (61 + k * 6) 6 = q b % 64) ∧ o.user 36 1 = 0 := by
  have key : ∀ lo n y, utxAsc 0 (utxUserRq .straddle 6 v e x be q) = true → utxGet lo n (utxUserRq .straddle 6 v e x be q) = some y → o.user lo n = y :=
    fun lo n y => utx_user ou
  have h0 := hx 0
  have h1 := hx 1
  have e8 : (8 + x 1) % 16 = 8 + x 1 := by omega
  have e0 : x 0 % 16 = x 0 := by omega
  have hb : ∀ b, be b % 256 = be b % 16 + be b / 16 % 16 * 16 := by intro b; omega
  cases hv0 : v 0 <;> cases hv1 : v 1 <;> cases he0 : e 0 <;> cases he1 : e 1 <;>
  (unfold utxUserRq at key
   simp only [hv0, hv1, he0, he1] at key
   simp only [utxTwo, if_true, if_false, Bool.false_eq_true, List.nil_append, List.append_nil, List.singleton_append]
   refine ⟨?_, ?_, ?_, key _ _ _ rfl (by simp [utxGet])⟩
   · intro k hk
     obtain rfl | rfl : k = 0 ∨ k = 1 := by omega
     all_goals
       refine ⟨key _ _ _ rfl (by simp [utxGet]), ?_⟩
       intro y hy
       simp at hy
       try (refine key _ _ _ rfl ?_; simp [utxGet]; omega)
   · intro k hk
     obtain rfl | rfl : k = 0 ∨ k = 1 := by omega
     all_goals
       refine ⟨key _ _ _ rfl (by simp [utxGet]), ?_⟩
       intro y hy
       simp at hy
       try (refine key _ _ _ rfl ?_; simp [utxGet]; omega)
   · intro k b hk hy
     obtain rfl | rfl : k = 0 ∨ k = 1 := by omega
     all_goals
       simp at hy
       try
         subst hy
         refine ⟨?_, ?_⟩
         · rw [hb]
           congr 1
           · refine key _ _ _ rfl ?_; simp [utxGet]
           · congr 1; refine key _ _ _ rfl ?_; simp [utxGet]
         · refine key _ _ _ rfl ?_; simp [utxGet])

theorem utx_two_slots {c : UtxCfg} (hS : c.S = 2) (hW : c.W = 8) {es : List UrxSeg} {v e : Nat → Bool} {x : Nat → Nat} (hpos : 0 < es.length) (hle : es.length ≤ c.S)
    (hat : ∀ k a, es[k]? = some a → v k = a.first ∧ e k = a.last ∧ x k = a.dws.length - 1)
    (hno : ∀ k, es[k]? = none → v k = false ∧ e k = false) :
    (urxStarts (utxSlots c es)).map (2 * ·) = utxTwo (v 0) (v 1) 0 2 ∧ urxEnds c.W (utxSlots c es) = utxTwo (e 0) (e 1) (x 0) (8 + x 1) ∧
    urxBes (utxSlots c es) = (utxTwo (v 0) (v 1) 0 1).map (fun k => (es[k]?.map (·.be)).getD 0) := by
  rw [hS] at hle
  match es, hpos, hle with
  | [a], _, _ =>
    obtain ⟨a1, a2, a3⟩ := hat 0 a rfl
    obtain ⟨b1, b2⟩ := hno 1 rfl
    have : utxSlots c [a] = [some a, none] := by simp [utxSlots, hS]
    rw [this, a1, a2, a3, b1, b2, hW]
    simp only [urxStarts, urxEnds, urxBes, utxTwo, List.length_cons, List.length_nil, List.range_succ, List.range_zero]
    cases h1 : a.first <;> cases h2 : a.last <;> simp [h1, h2]
  | [a, b], _, _ =>
    obtain ⟨a1, a2, a3⟩ := hat 0 a rfl
    obtain ⟨b1, b2, b3⟩ := hat 1 b rfl
    have : utxSlots c [a, b] = [some a, some b] := by simp [utxSlots, hS]
    rw [this, a1, a2, a3, b1, b2, b3, hW]
    simp only [urxStarts, urxEnds, urxBes, utxTwo, List.length_cons, List.length_nil, List.range_succ, List.range_zero]
    cases h1 : a.first <;> cases h2 : a.last <;> cases h3 : b.first <;> cases h4 : b.last <;> simp [h1, h2, h3, h4]

theorem utx_user_carry {o : UtxWord} {v e : Nat → Bool} {x be q : Nat → Nat} (hc : UtxCfgOk c) (hpos : 0 < es.length) (hle : es.length ≤ c.S)
    (ou : o.tuser = utxPack 0 (if c.rq then utxUserRq c.mode c.Q v e x be q else utxUserCc c.mode v e x))
    (hat : ∀ k a, es[k]? = some a → v k = a.first ∧ e k = a.last ∧ x k = (a.dws.length - 1) % 8 ∧
      (a.first = true → c.D = 4 → be k = a.be % 256 ∧ q k = a.be / 256 ∧ a.be / 256 < 2 ^ (c.Q - 1) * 2) ∧
      0 < a.dws.length ∧ a.dws.length ≤ c.W)
    (hx8 : ∀ k, x k < 8) (hno : ∀ k, es[k]? = none → v k = false ∧ e k = false)
    (hlast : c.mode ≠ .straddle → o.tlast = (List.range c.S).any e) :
    match c.mode, c.rq with
    | .plain, false => (∀ a, (utxSlots c es)[0]? = some (some a) → o.tlast = a.last) ∧ o.user 0 1 = 0
    | .plain, true => (∀ a, (utxSlots c es)[0]? = some (some a) → o.tlast = a.last ∧ (a.first = true → o.user 0 8 = a.be % 256 ∧
        o.user 24 4 + (if c.Q = 6 then o.user 60 2 * 16 else 0) = a.be / 256)) ∧ o.user 11 1 = 0
    | .plain512, false => (∀ a, (utxSlots c es)[0]? = some (some a) → o.tlast = a.last) ∧ o.user 16 1 = 0
    | .plain512, true => (∀ a, (utxSlots c es)[0]? = some (some a) → o.tlast = a.last ∧ (a.first = true →
        o.user 0 4 + o.user 8 4 * 16 = a.be % 256 ∧ o.user 61 6 = a.be / 256)) ∧ o.user 36 1 = 0
    | .straddle, false =>
        (∀ k, k < 2 → UtxMark o ((urxStarts (utxSlots c es)).map (2 * ·)) k k (2 + k * 2) 2) ∧
        (∀ k, k < 2 → UtxMark o (urxEnds c.W (utxSlots c es)) k (6 + k) (8 + k * 4) 4) ∧ o.user 16 1 = 0
    | .straddle, true =>
        (∀ k, k < 2 → UtxMark o ((urxStarts (utxSlots c es)).map (2 * ·)) k (20 + k) (22 + k * 2) 2) ∧
        (∀ k, k < 2 → UtxMark o (urxEnds c.W (utxSlots c es)) k (26 + k) (28 + k * 4) 4) ∧
        (∀ k b, k < 2 → (urxBes (utxSlots c es))[k]? = some b → o.user (k * 4) 4 + o.user (8 + k * 4) 4 * 16 = b % 256 ∧
          o.user (61 + k * 6) 6 = b / 256) ∧ o.user 36 1 = 0 := by
  have plain1 : c.S = 1 → c.mode ≠ .straddle → ∀ a, (utxSlots c es)[0]? = some (some a) → o.tlast = a.last := by
    intro hS hm a ha
    rw [utxSlots_get] at ha
    rw [hlast hm, hS]
    simp [(hat 0 a ha).2.1]
  cases hc with
  | cc W h => exact ⟨plain1 rfl (by simp [ccCfg]), utx_user ou rfl rfl⟩
  | cc512 =>
    refine ⟨plain1 rfl (by simp [ccCfg512]), ?_⟩
    have ou : o.tuser = utxPack 0 (utxUserCc .plain512 v e x) := ou
    refine utx_user ou ?_ ?_
    · unfold utxUserCc; dsimp only; split <;> split <;> rfl
    · unfold utxUserCc; dsimp only; split <;> split <;> rfl
  | cc512s =>
    have ou : o.tuser = utxPack 0 (utxUserCc .straddle v e x) := ou
    obtain ⟨t1, t2, _⟩ := @utx_two_slots ccCfg512s rfl rfl es v e x hpos hle (fun k a ha => by
      obtain ⟨h1, h2, h3, _, h5⟩ := hat k a ha
      have : a.dws.length ≤ 8 := h5.2
      exact ⟨h1, h2, by omega⟩) hno
    obtain ⟨u1, u2, u3⟩ := utx_user_straddle_cc (by decide) hx8 ou
    refine ⟨?_, ?_, u3⟩
    · rw [t1]; exact u1
    · rw [t2]; exact u2
  | rq W Q h hQ =>
    have ou : o.tuser = utxPack 0 (utxUserRq .plain Q v e x be q) := ou
    obtain ⟨u1, u2, u3, u4, u5⟩ := utx_user_plain_rq hQ ou
    refine ⟨?_, u5⟩
    intro a ha
    refine ⟨plain1 rfl (by simp [rqCfg]) a ha, fun hf => ?_⟩
    rw [utxSlots_get] at ha
    obtain ⟨s1, s2, s3⟩ := (hat 0 a ha).2.2.2.1 hf rfl
    have h8 : o.user 0 8 = o.user 0 4 + o.user 4 4 * 16 := by unfold UtxWord.user; omega
    refine ⟨by rw [h8, u1, u2, s1]; omega, ?_⟩
    rw [u3, s2]
    change a.be / 256 < 2 ^ (Q - 1) * 2 at s3
    change a.be / 256 % 16 + (if Q = 6 then o.user 60 2 * 16 else 0) = a.be / 256
    rcases hQ with rfl | rfl
    · simp only [show ¬ ((4:Nat) = 6) by decide, if_false]; omega
    · rw [if_pos rfl, u4 rfl, s2]; omega
  | rq512 =>
    have ou : o.tuser = utxPack 0 (utxUserRq .plain512 6 v e x be q) := ou
    obtain ⟨u1, u2, u3, u4⟩ := utx_user_512_rq ou
    refine ⟨?_, u4⟩
    intro a ha
    refine ⟨plain1 rfl (by simp [rqCfg512]) a ha, fun hf => ?_⟩
    rw [utxSlots_get] at ha
    obtain ⟨s1, s2, s3⟩ := (hat 0 a ha).2.2.2.1 hf rfl
    change a.be / 256 < 2 ^ (6 - 1) * 2 at s3
    refine ⟨by rw [u1, u2, s1]; omega, by rw [u3, s2]; omega⟩
  | rq512s =>
    have ou : o.tuser = utxPack 0 (utxUserRq .straddle 6 v e x be q) := ou
    obtain ⟨t1, t2, t3⟩ := @utx_two_slots rqCfg512s rfl rfl es v e x hpos hle (fun k a ha => by
      obtain ⟨h1, h2, h3, _, h5⟩ := hat k a ha
      have : a.dws.length ≤ 8 := h5.2
      exact ⟨h1, h2, by omega⟩) hno
    obtain ⟨u1, u2, u4, u3⟩ := utx_user_straddle_rq hx8 ou
    refine ⟨?_, ?_, ?_, u3⟩
    · rw [t1]; exact u1
    · rw [t2]; exact u2
    · intro k b hk hb
      rw [t3, List.getElem?_map] at hb
      obtain ⟨s, hs, hb⟩ := Option.map_eq_some_iff.1 hb
      obtain ⟨w1, w2⟩ := u4 k s hk hs
      rw [w1, w2]
      have hvs : v s = true := by
        have := List.mem_of_getElem? hs
        unfold utxTwo at this
        rcases List.mem_append.1 this with h | h
        · cases hv : v 0 with
          | false => rw [hv] at h; simp at h
          | true => rw [hv] at h; simp at h; rw [h]; exact hv
        · cases hv : v 1 with
          | false => rw [hv] at h; simp at h
          | true => rw [hv] at h; simp at h; rw [h]; exact hv
      cases he : es[s]? with
      | none => have := (hno s he).1; rw [hvs] at this; cases this
      | some a =>
        rw [he] at hb
        simp at hb
        obtain ⟨h1, _, _, h4, _⟩ := hat s a he
        obtain ⟨s1, s2, s3⟩ := h4 (by rw [← h1]; exact hvs) rfl
        change a.be / 256 < 2 ^ (6 - 1) * 2 at s3
        rw [← hb, s1, s2]
        omega

theorem utx_carry (hc : UtxCfgOk c) (hl : l.length = c.S) (hsel : sel ≤ c.S) (hpos : 0 < sel)
    (hem : UtxEmits c env (st.shiftD, st.shiftS) (l.take sel) es) :
    UtxCarry c (utxOut c st env l sel) (utxSlots c es) := by
  have hlen : es.length = sel := by have := hem.len; rw [List.length_take] at this; omega
  have hat := fun k a ha => @utx_emits_at c st env l sel es hl hsel hem k a ha
  obtain ⟨a, ha⟩ : ∃ a, es[0]? = some a := ⟨es[0], List.getElem?_eq_getElem (by omega)⟩
  have h0 := hat 0 a ha
  have hW : 0 < c.W := by have := h0.2.len; omega
  generalize ho : utxOut c st env l sel = o
  have otd : ∀ s j, j < c.W → o.tdata (c.W * s + j) = (utxLane c env (utxShift c st env l sel s) (utxSlotAt l s) j).1 := by
    intro s j hj
    rw [← ho]
    unfold utxOut
    simp only [urx_div hj, urx_mod hj]
  have otk : ∀ s j, j < c.W → o.tkeep (c.W * s + j) = (decide (s < sel) && (utxLane c env (utxShift c st env l sel s) (utxSlotAt l s) j).2) := by
    intro s j hj
    rw [← ho]
    unfold utxOut
    simp only [urx_div hj, urx_mod hj]
  have otl : o.tlast = (c.mode != .straddle && (List.range c.S).any fun k => decide (k < sel) && (utxSlotAt l k).eop) := by
    rw [← ho]; rfl
  refine ⟨?_, ?_, ?_⟩
  · intro s a ha j hj
    obtain ⟨hs, hi⟩ := hat s a (utxSlots_get.1 ha)
    rw [otd s j (by have := hi.len; omega)]
    exact hi.data j hj
  · intro s hs j hj
    rw [otk s j hj, utxSlots_getD]
    cases he : es[s]? with
    | none =>
      have : ¬ s < sel := by
        intro h
        rw [List.getElem?_eq_getElem (by omega)] at he; cases he
      simp [this]
    | some b =>
      obtain ⟨hs, hi⟩ := hat s b he
      simp only [Option.elim]
      rw [hi.strb j hj, decide_eq_true hs, Bool.true_and]
  · have ou : o.tuser = utxPack 0 (if c.rq then utxUserRq c.mode c.Q (fun k => decide (k < sel) && (utxSlotAt l k).sop)
        (fun k => decide (k < sel) && (utxSlotAt l k).eop)
        (fun k => utxEopIndex c.W fun j => (utxLane c env (utxShift c st env l sel k) (utxSlotAt l k) j).2)
        (fun k => utxBits (utxView c env (utxSlotAt l k).port (utxSlotAt l k).idx).hdr 64 8)
        (fun k => (utxView c env (utxSlotAt l k).port (utxSlotAt l k).idx).seq ||| (if (utxSlotAt l k).port = 0 then 2 ^ (c.Q - 1) else 0))
      else utxUserCc c.mode (fun k => decide (k < sel) && (utxSlotAt l k).sop) (fun k => decide (k < sel) && (utxSlotAt l k).eop)
        (fun k => utxEopIndex c.W fun j => (utxLane c env (utxShift c st env l sel k) (utxSlotAt l k) j).2)) := by
      rw [← ho]; rfl
    refine utx_user_carry hc (by omega) (by omega) ou ?_ (fun k => Nat.mod_lt _ (by decide)) ?_ ?_
    · intro k a ha
      obtain ⟨hk, hi⟩ := hat k a ha
      refine ⟨by rw [decide_eq_true hk, Bool.true_and, hi.sop], by rw [decide_eq_true hk, Bool.true_and, hi.eop], ?_, fun hf hD => utx_side hi hf hD, hi.len⟩
      rw [utxEopIndex_eq hi.strb]
      have := hi.len
      congr 2; omega
    · intro k hk
      rw [List.getElem?_eq_none_iff] at hk
      simp; omega
    · intro hm
      rw [otl]
      have : (c.mode != .straddle) = true := by simpa using hm
      rw [this, Bool.true_and]

end

end Verif.Proofs
