import Verif.Proofs.UsIfTx
/-! Proofs about the UltraScale CC and RQ interfaces: one cycle. -/
namespace Verif.Proofs
open Verif.Model Verif.Spec

/-- Piece `n` of the packet of `t`. -/
def utxPiece (c : UtxCfg) (p : Nat) (t : UtxTlp) (n : Nat) : UrxSeg :=
  { first := n == 0, last := n + 1 == urxCount c.W (c.D + t.payload.length)
    dws := ((utxDws c t).drop (c.W * n)).take c.W, be := (utxPacket c p t).be }

theorem utx_segs_eq (c : UtxCfg) (p : Nat) (t : UtxTlp) :
    urxInSegs c.W (utxPacket c p t) = (List.range' 0 (urxCount c.W (c.D + t.payload.length))).map (utxPiece c p t) := by
  unfold urxInSegs
  have : ((utxPacket c p t).desc ++ (utxPacket c p t).payload).length = c.D + t.payload.length := utxDws_length c t
  simp only [this]
  rw [List.range_eq_range']
  rfl

theorem utx_range'_cons {n N : Nat} (h : n < N) : List.range' n (N - n) = n :: List.range' (n + 1) (N - (n + 1)) := by
  have : N - n = (N - (n + 1)) + 1 := by omega
  rw [this, List.range'_succ]

/-- What is known beside the registers: TLPs not started, the current one with the numbers of its segment at the FIFO and of
the piece to come, TLPs started, pieces sent. -/
structure UtxG where
  us : Nat → List UtxTlp
  cur : Option (UtxTlp × Nat × Nat)
  os : List (Nat × UtxTlp)
  em : List UrxSeg

/-- The rest of the current packet at the FIFO. -/
def UtxG.inRest (c : UtxCfg) (G : UtxG) : List (UtxTlp × Nat) :=
  G.cur.elim [] fun x => (List.range' x.2.1 (urxCount c.W x.1.payload.length - x.2.1)).map fun n => (x.1, n)

/-- The rest of the current packet at the output. -/
def UtxG.outRest (c : UtxCfg) (port : Nat) (G : UtxG) : List UrxSeg :=
  G.cur.elim [] fun x => (List.range' x.2.2 (urxCount c.W (c.D + x.1.payload.length) - x.2.2)).map (utxPiece c port x.1)

/-- The relation between registers and what has happened; `pos p` segments have been read from port `p`. -/
structure UtxInv (c : UtxCfg) (H : Nat) (ts : Nat → List UtxTlp) (pos : Nat → Nat) (frame hdr1 hdr2 split1 split2 : Bool) (port : Nat)
    (sd : Nat → Nat) (ss : Nat → Bool) (G : UtxG) : Prop where
  order : ∀ p, p < c.P → (G.os.filter (·.1 == p)).map (·.2) ++ G.us p = ts p
  ports : ∀ x ∈ G.os, x.1 < c.P
  em : G.em ++ G.outRest c port = utxSegs c G.os
  pieces : ∀ p, p < c.P → (utxPieces c.W (ts p)).drop (pos p) = (if p = port then G.inRest c else []) ++ utxPieces c.W (G.us p)
  frame : frame = G.cur.isSome
  at_ : ∀ t i n, G.cur = some (t, i, n) → UtxAt c H t sd ss i n hdr1 hdr2 split1 ∧ split2 = false ∧ port < c.P ∧ t ∈ ts port

theorem utxAt_bounds {c : UtxCfg} {H : Nat} (hg : UtxGeo c H) {t : UtxTlp} {sd : Nat → Nat} {ss : Nat → Bool} {i n : Nat} {a b d : Bool}
    (h : UtxAt c H t sd ss i n a b d) : i < urxCount c.W t.payload.length ∧ n < urxCount c.W (c.D + t.payload.length) := by
  have hW : 0 < c.W := by have := hg.rlt; omega
  have hD := hg.D
  have hs := hg.split
  rw [urxCount_lt hW, urxCount_lt hW]
  cases h with
  | hdr1 => exact ⟨Or.inl rfl, Or.inl rfl⟩
  | hdr2 h2 => exact ⟨Or.inl rfl, Or.inr (by omega)⟩
  | go _ hi h0 hsh =>
    refine ⟨hi, Or.inr ?_⟩
    rw [Nat.mul_add]
    by_cases hr : c.r = 0
    · have := h0 hr; omega
    · rcases hi with h | h
      · have := (hsh hr).1; omega
      · omega
  | split _ hi hr hle hlt _ =>
    refine ⟨hi, Or.inr ?_⟩
    rw [Nat.mul_succ, Nat.mul_add]
    omega

/-- `a` is sent with the settings `sl`. -/
structure UtxSlotIs (c : UtxCfg) (env : UtxIn) (sh : (Nat → Nat) × (Nat → Bool)) (sl : UtxSlot) (a : UrxSeg) : Prop where
  len : 0 < a.dws.length ∧ a.dws.length ≤ c.W
  strb : ∀ j, j < c.W → (utxLane c env sh sl j).2 = decide (j < a.dws.length)
  data : ∀ j, j < a.dws.length → (utxLane c env sh sl j).1 = a.dws.getD j 0
  sop : sl.sop = a.first
  eop : sl.eop = a.last
  side : a.first = true → c.D = 4 →
    (utxView c env sl.port sl.idx).seq ||| (if sl.port = 0 then 2 ^ (c.Q - 1) else 0) < 2 ^ (c.Q - 1) * 2 ∧
    a.be = utxBits (utxView c env sl.port sl.idx).hdr 64 8 +
      256 * ((utxView c env sl.port sl.idx).seq ||| (if sl.port = 0 then 2 ^ (c.Q - 1) else 0))

/-- The shift register after the segments of `l`. -/
def utxShAt (c : UtxCfg) (env : UtxIn) (sh : (Nat → Nat) × (Nat → Bool)) (l : List UtxSlot) : (Nat → Nat) × (Nat → Bool) :=
  l.getLast?.elim sh fun s => (fun j => (utxView c env s.port s.idx).data (c.W - c.r + j), fun j => (utxView c env s.port s.idx).strb (c.W - c.r + j))

/-- The settings `l` send the pieces `es`. -/
structure UtxEmits (c : UtxCfg) (env : UtxIn) (sh : (Nat → Nat) × (Nat → Bool)) (l : List UtxSlot) (es : List UrxSeg) : Prop where
  len : l.length = es.length
  is : ∀ k sl a, l[k]? = some sl → es[k]? = some a → UtxSlotIs c env (utxShAt c env sh (l.take k)) sl a

theorem utxEmits_nil (c : UtxCfg) (env : UtxIn) (sh : (Nat → Nat) × (Nat → Bool)) : UtxEmits c env sh [] [] :=
  ⟨rfl, fun k sl a h => by simp at h⟩

theorem utxEmits_snoc {c : UtxCfg} {env : UtxIn} {sh : (Nat → Nat) × (Nat → Bool)} {l : List UtxSlot} {es : List UrxSeg}
    (h : UtxEmits c env sh l es) {sl : UtxSlot} {a : UrxSeg} (ha : UtxSlotIs c env (utxShAt c env sh l) sl a) :
    UtxEmits c env sh (l ++ [sl]) (es ++ [a]) := by
  refine ⟨by simp [h.len], ?_⟩
  intro k sl' a' h1 h2
  rcases Nat.lt_trichotomy k l.length with hk | hk | hk
  · rw [List.getElem?_append_left hk] at h1
    rw [List.getElem?_append_left (by rw [← h.len]; exact hk)] at h2
    rw [List.take_append_of_le_length (by omega)]
    exact h.is k sl' a' h1 h2
  · subst hk
    rw [List.getElem?_append_right (Nat.le_refl _), Nat.sub_self] at h1
    rw [List.getElem?_append_right (by rw [h.len]; exact Nat.le_refl _), h.len, Nat.sub_self] at h2
    simp at h1 h2
    subst h1; subst h2
    rw [List.take_left']
    · exact ha
    · rfl
  · rw [List.getElem?_eq_none (by simp; omega)] at h1
    exact absurd h1 (by simp)

theorem utx_view_is {c : UtxCfg} {ts : Nat → List UtxTlp} (hok : UtxTlpsOk c ts) {env : UtxIn} {p k : Nat} {t : UtxTlp} {n : Nat}
    (ht : t ∈ ts p) (h : UtxIs c.W t n (env.view p k)) : UtxIs c.W t n (utxView c env p k) := by
  unfold utxView
  by_cases hc : (c.rq && p == 0) = true
  · rw [if_pos hc]
    rw [Bool.and_eq_true, beq_iff_eq] at hc
    have hD : c.D = 4 := by simpa [UtxCfg.rq] using hc.1
    have hp := (hok hD).1 t (by rw [← hc.2]; exact ht)
    refine ⟨h.sop, h.eop, h.hdr, ?_, ?_⟩
    · intro j hj; rw [hp]; simp
    · intro j hj hlt; rw [hp] at hlt; simp at hlt
  · rw [if_neg hc]; exact h

theorem utx_or {a k : Nat} (h : a < 2 ^ k) : a ||| 2 ^ k = a + 2 ^ k := by
  have := Nat.two_pow_add_eq_or_of_lt h 1
  rw [Nat.mul_one] at this
  rw [Nat.or_comm, ← this]; omega

theorem utx_piece_is {c : UtxCfg} {H : Nat} (hg : UtxGeo c H) {ts : Nat → List UtxTlp} (hok : UtxTlpsOk c ts)
    {t : UtxTlp} {i n : Nat} {env : UtxIn} {x : UtxCyc} {sd : Nat → Nat}
    {ss : Nat → Bool} (hat : UtxAt c H t sd ss i n x.hdr1 x.hdr2 x.split1)
    (hcnt : x.cnt = x.off x.port) {g : UtxSeg} (hgd : utxView c env x.port (x.off x.port) = g) (his : UtxIs c.W t i g)
    (ht : t ∈ ts x.port) {adv h2 s1 s2 e : Bool} (hr : UtxRouted c H t i n env x sd ss g adv h2 s1 s2 e) :
    UtxSlotIs c env (sd, ss)
      { port := x.port, idx := x.cnt, hdr1 := x.hdr1, hdr2 := x.hdr2, split2 := s2, sop := x.hdr1, eop := e } (utxPiece c x.port t n) := by
  have hW : 0 < c.W := by have := hg.rlt; omega
  obtain ⟨hi, hn⟩ := utxAt_bounds hg hat
  have hL : (utxDws c t).length = c.D + t.payload.length := utxDws_length c t
  have hn' := (urxCount_lt hW).1 hn
  have hlen : (utxPiece c x.port t n).dws.length = min c.W (c.D + t.payload.length - c.W * n) := by
    simp [utxPiece, hL]
  have hD := hg.D
  have hlanes := hr.lanes
      { port := x.port, idx := x.cnt, hdr1 := x.hdr1, hdr2 := x.hdr2, split2 := s2, sop := x.hdr1, eop := e } rfl rfl rfl rfl rfl
  refine ⟨?_, ?_, ?_, ?_, hr.last, ?_⟩
  · rw [hlen]
    have : c.W * n < c.D + t.payload.length := by
      rcases hn' with h | h
      · rw [h, Nat.mul_zero]; omega
      · exact h
    omega
  · intro j hj
    rw [(hlanes j hj).1, hlen, decide_eq_decide]
    omega
  · intro j hj
    rw [hlen] at hj
    rw [(hlanes j (by omega)).2 (by omega)]
    unfold utxPiece
    simp only []
    rw [List.getD_eq_getElem?_getD, List.getD_eq_getElem?_getD, List.getElem?_take_of_lt (by omega), List.getElem?_drop]
  · show x.hdr1 = (n == 0)
    generalize hx1 : x.hdr1 = b1 at *
    generalize x.hdr2 = b2 at *
    generalize x.split1 = b3 at *
    cases hat with
    | hdr1 => rfl
    | hdr2 _ => rfl
    | go _ _ h0 h =>
      symm
      rw [beq_eq_false_iff_ne]
      intro h1
      have hH : H = 0 := by omega
      have := hg.H0 hH
      have := (h (by omega)).1
      omega
    | split _ _ _ _ _ _ => symm; rw [beq_eq_false_iff_ne]; omega
  · intro hf hD4
    have hn0 : n = 0 := by simpa [utxPiece] using hf
    have hi0 : i = 0 := by
      generalize x.hdr1 = b1 at *
      generalize x.hdr2 = b2 at *
      generalize x.split1 = b3 at *
      cases hat with
      | hdr1 => rfl
      | hdr2 _ => rfl
      | go _ _ _ _ => omega
      | split _ _ _ _ _ _ => omega
    obtain ⟨e1, e2⟩ := his.hdr hi0
    have hseq := (hok hD4).2 x.port t ht
    simp only []
    rw [hcnt, hgd, e1, e2]
    have hse : (t.seq ||| if x.port = 0 then 2 ^ (c.Q - 1) else 0) = t.seq + if x.port = 0 then 2 ^ (c.Q - 1) else 0 := by
      split
      · exact utx_or hseq
      · simp
    rw [hse]
    refine ⟨by split <;> omega, ?_⟩
    unfold utxPiece utxPacket bits hdrDw utxBits
    simp only [if_pos hD4]
    congr 1
    show t.hdr / 2 ^ 64 % 2 ^ 32 / 2 ^ 0 % 2 ^ 8 = t.hdr / 2 ^ 64 % 2 ^ 8
    generalize t.hdr / 2 ^ 64 = z
    omega

theorem utx_inv_route {c : UtxCfg} {H : Nat} (hg : UtxGeo c H) {ts : Nat → List UtxTlp} {pos : Nat → Nat}
    {t : UtxTlp} {i n : Nat} {env : UtxIn} {x : UtxCyc} {sd : Nat → Nat} {ss : Nat → Bool} {G : UtxG}
    (hI : UtxInv c H ts (fun p => pos p + x.off p) x.frame x.hdr1 x.hdr2 x.split1 x.split2 x.port sd ss G)
    (hcur : G.cur = some (t, i, n))
    {g : UtxSeg} {adv h2 s1 s2 e : Bool} (hr : UtxRouted c H t i n env x sd ss g adv h2 s1 s2 e) :
    UtxInv c H ts (fun p => pos p + (if adv then x.advance else x).off p) (!e) false h2 s1 s2 x.port
      (fun j => g.data (c.W - c.r + j)) (fun j => g.strb (c.W - c.r + j))
      { G with cur := if e then none else some (t, (if adv then i + 1 else i), n + 1), em := G.em ++ [utxPiece c x.port t n] } := by
  obtain ⟨hat, hs2, hport, htm⟩ := hI.at_ t i n hcur
  obtain ⟨hi, hn⟩ := utxAt_bounds hg hat
  refine ⟨hI.order, hI.ports, ?_, ?_, ?_, ?_⟩
  · have h := hI.em
    unfold UtxG.outRest at h ⊢
    rw [hcur] at h
    simp only [Option.elim] at h
    rw [utx_range'_cons hn, List.map_cons] at h
    rw [← h, List.append_assoc]
    congr 1
    simp only [List.singleton_append, List.cons.injEq, true_and]
    cases he : e with
    | false => rfl
    | true =>
      have : n + 1 = urxCount c.W (c.D + t.payload.length) := by
        have := hr.last; rw [he] at this; simpa using this.symm
      rw [← this]; simp
  · intro p hp
    have h := hI.pieces p hp
    by_cases hpp : p = x.port
    · rw [if_pos hpp] at h ⊢
      unfold UtxG.inRest at h ⊢
      rw [hcur] at h
      simp only [Option.elim] at h
      rw [utx_range'_cons hi, List.map_cons, List.cons_append] at h
      cases ha : adv with
      | false =>
        have he : e = false := by
          cases he : e with
          | false => rfl
          | true => have := (hr.fin he).1; rw [ha] at this; cases this
        simp only [he, Bool.false_eq_true, if_false]
        rw [h]
        simp only [Option.elim]
        rw [utx_range'_cons hi]
        rfl
      | true =>
        simp only [if_true]
        have hoff : x.advance.off p = x.off p + 1 := by simp [UtxCyc.advance, hpp]
        have hd : (utxPieces c.W (ts p)).drop (pos p + x.advance.off p) = ((utxPieces c.W (ts p)).drop (pos p + x.off p)).drop 1 := by
          rw [hoff, List.drop_drop, Nat.add_assoc]
        rw [hd, h, List.drop_succ_cons, List.drop_zero]
        cases he : e with
        | false => rfl
        | true =>
          have := (hr.fin he).2
          rw [← this]; simp
    · rw [if_neg hpp] at h ⊢
      have hoff : (if adv then x.advance else x).off p = x.off p := by
        cases adv <;> simp [UtxCyc.advance, hpp]
      simp only [hoff]
      exact h
  · cases e <;> rfl
  · intro t' i' n' h'
    cases he : e with
    | true => rw [he] at h'; simp at h'
    | false =>
      rw [he] at h'
      simp at h'
      obtain ⟨rfl, rfl, rfl⟩ := h'
      obtain ⟨h1, h2⟩ := hr.next he
      exact ⟨h2, h1, hport, htm⟩

/-- The values of the last commit; `es` are the pieces committed in this cycle. If the last one does not end a packet, all
segments are used or `opn` holds. -/
structure UtxCom (c : UtxCfg) (H : Nat) (ts : Nat → List UtxTlp) (pos : Nat → Nat) (env : UtxIn) (sh : (Nat → Nat) × (Nat → Bool))
    (em0 : List UrxSeg) (opn : Prop) (x : UtxCyc) (G : UtxG) (es : List UrxSeg) : Prop where
  le : x.csel ≤ x.slots.length
  inv : UtxInv c H ts (fun p => pos p + x.coff p) x.cframe x.chdr1 x.chdr2 x.csplit1 x.csplit2 x.cport
    (utxShAt c env sh (x.slots.take x.csel)).1 (utxShAt c env sh (x.slots.take x.csel)).2 G
  em : G.em = em0 ++ es
  emits : UtxEmits c env sh (x.slots.take x.csel) es
  closed : ∀ a, es.getLast? = some a → a.last = false → x.csel = c.S ∨ opn

/-- The end of the packet at the FIFO is in sight. -/
def UtxOpen (c : UtxCfg) (env : UtxIn) (x : UtxCyc) : Prop :=
  x.frame = true ∧ x.off x.port < env.avail x.port ∧ (utxView c env x.port (x.off x.port)).eop = true

structure UtxLive (c : UtxCfg) (H : Nat) (ts : Nat → List UtxTlp) (pos : Nat → Nat) (env : UtxIn) (sh : (Nat → Nat) × (Nat → Bool))
    (em0 : List UrxSeg) (fr0 : Bool) (k : Nat) (x : UtxCyc) (G : UtxG) (es : List UrxSeg) : Prop where
  abort : x.abort = false
  inv : UtxInv c H ts (fun p => pos p + x.off p) x.frame x.hdr1 x.hdr2 x.split1 x.split2 x.port
    (utxShAt c env sh x.slots).1 (utxShAt c env sh x.slots).2 G
  em : G.em = em0 ++ es
  emits : UtxEmits c env sh x.slots es
  cnt : x.frame = true → x.cnt = x.off x.port
  coff : c.rq = true → ∀ p, (x.frame = true → p ≠ x.port) → x.coff p = x.off p
  cc : c.rq = false → x.cnt = x.off 0
  idle : x.frame = false → x.csel = k
  zero : k = 0 → (x.frame = false → fr0 = false) ∧ ∀ p, x.off p = 0
  bound : ∀ p, x.off p ≤ k
  full : k = c.S → 0 < k → x.csel = k
  com : ∃ G es, UtxCom c H ts pos env sh em0 (UtxOpen c env x) x G es

structure UtxDead (c : UtxCfg) (H : Nat) (ts : Nat → List UtxTlp) (pos : Nat → Nat) (env : UtxIn) (sh : (Nat → Nat) × (Nat → Bool))
    (em0 : List UrxSeg) (fr0 : Bool) (cr : Nat → Bool) (x : UtxCyc) : Prop where
  frame : x.frame = false
  abort : x.abort = false
  none_ : ∀ p, p < c.P → cr p = true → env.avail p ≤ x.off p
  zero : x.csel = 0 → fr0 = false ∧ ∀ p, p < c.P → cr p = true → env.avail p = 0
  com : ∃ G es, UtxCom c H ts pos env sh em0 False x G es

structure UtxAborted (c : UtxCfg) (H : Nat) (ts : Nat → List UtxTlp) (pos : Nat → Nat) (env : UtxIn) (sh : (Nat → Nat) × (Nat → Bool))
    (em0 : List UrxSeg) (x : UtxCyc) : Prop where
  abort : x.abort = true
  why : ∃ p o, p < c.P ∧ env.avail p ≤ o ∧ o < c.S ∧ pos p + o < (utxPieces c.W (ts p)).length
  com : ∃ G es, UtxCom c H ts pos env sh em0 False x G es

theorem utxRoute_same (c : UtxCfg) (env : UtxIn) (x : UtxCyc) :
    (utxRoute c env x).1.slots = x.slots ∧ (utxRoute c env x).1.coff = x.coff ∧ (utxRoute c env x).1.abort = x.abort ∧
    (utxRoute c env x).1.cframe = x.cframe ∧ (utxRoute c env x).1.chdr1 = x.chdr1 ∧ (utxRoute c env x).1.chdr2 = x.chdr2 ∧
    (utxRoute c env x).1.csplit1 = x.csplit1 ∧ (utxRoute c env x).1.csplit2 = x.csplit2 ∧ (utxRoute c env x).1.cport = x.cport ∧
    (utxRoute c env x).1.csel = x.csel ∧ (∀ p, x.off p ≤ (utxRoute c env x).1.off p) ∧
    (x.frame = false → (utxRoute c env x).1.frame = false) := by
  unfold utxRoute UtxCyc.advance
  dsimp only
  split
  · simp
  · split
    · split <;> simp <;> (intro p; split <;> omega)
    · split
      · split <;> simp <;> (intro p; split <;> omega)
      · refine ⟨rfl, rfl, rfl, rfl, rfl, rfl, rfl, rfl, rfl, rfl, ?_, ?_⟩
        · intro p; dsimp only; split <;> omega
        · intro h; simp [h]

/-- Appending settings that are not committed changes nothing. -/
theorem utxCom_mono {c : UtxCfg} {H : Nat} {ts : Nat → List UtxTlp} {pos : Nat → Nat} {env : UtxIn} {sh : (Nat → Nat) × (Nat → Bool)}
    {em0 : List UrxSeg} {opn opn' : Prop} {x y : UtxCyc} {G : UtxG} {es : List UrxSeg} (h : UtxCom c H ts pos env sh em0 opn x G es)
    (ho : opn → opn') (sl : UtxSlot) (hs : y.slots = x.slots ++ [sl]) (h1 : y.coff = x.coff)
    (h2 : y.cframe = x.cframe) (h3 : y.chdr1 = x.chdr1) (h4 : y.chdr2 = x.chdr2) (h5 : y.csplit1 = x.csplit1) (h6 : y.csplit2 = x.csplit2)
    (h7 : y.cport = x.cport) (h8 : y.csel = x.csel) : UtxCom c H ts pos env sh em0 opn' y G es := by
  have ht : y.slots.take y.csel = x.slots.take x.csel := by
    rw [hs, h8, List.take_append_of_le_length h.le]
  refine ⟨?_, ?_, h.em, ?_, ?_⟩
  · rw [h8, hs]; have := h.le; simp; omega
  · rw [ht, h1, h2, h3, h4, h5, h6, h7]; exact h.inv
  · rw [ht]; exact h.emits
  · intro a ha hl
    rw [h8]
    exact (h.closed a ha hl).imp id ho

/-- What the FIFOs show in a cycle. -/
def UtxShows (c : UtxCfg) (ts : Nat → List UtxTlp) (pos : Nat → Nat) (env : UtxIn) : Prop :=
  ∀ p, p < c.P → ∀ k, k < env.avail p → ∃ t n, (utxPieces c.W (ts p))[pos p + k]? = some (t, n) ∧ UtxIs c.W t n (env.view p k)

theorem UtxInv.congr {c : UtxCfg} {H : Nat} {ts : Nat → List UtxTlp} {pos pos' : Nat → Nat} {frame hdr1 hdr2 split1 split2 : Bool} {port : Nat}
    {sd : Nat → Nat} {ss : Nat → Bool} {G : UtxG} (h : UtxInv c H ts pos frame hdr1 hdr2 split1 split2 port sd ss G)
    (hp : ∀ p, p < c.P → pos' p = pos p) : UtxInv c H ts pos' frame hdr1 hdr2 split1 split2 port sd ss G := by
  refine ⟨h.order, h.ports, h.em, ?_, h.frame, h.at_⟩
  intro p hlt
  rw [hp p hlt]; exact h.pieces p hlt

theorem utxPieces_cons (W : Nat) (t : UtxTlp) (ts : List UtxTlp) :
    utxPieces W (t :: ts) = ((List.range' 0 (urxCount W t.payload.length - 0)).map fun n => (t, n)) ++ utxPieces W ts := by
  unfold utxPieces
  rw [List.flatMap_cons, List.range_eq_range', Nat.sub_zero]

theorem utx_count_pos {W L : Nat} (hW : 0 < W) : 0 < urxCount W L := (urxCount_lt hW).2 (Or.inl rfl)

/-- Everything but the selection of a port. -/
def utxRound (c : UtxCfg) (i : UtxIn) (x : UtxCyc) (k : Nat) : UtxCyc :=
  let r := utxRoute c i x
  let y := { r.1 with slots := x.slots ++
    [{ port := x.port, idx := x.cnt, hdr1 := x.hdr1, hdr2 := x.hdr2, split2 := r.1.split2, sop := x.hdr1, eop := r.2 }] }
  if x.frame && !x.abort then
    if decide (x.off x.port < i.avail x.port) then
      (if (utxView c i x.port (x.off x.port)).eop || k + 1 == c.S then y.commit k else y)
    else { y with abort := true }
  else y

theorem utxSlot_round (c : UtxCfg) (cr : Nat → Bool) (i : UtxIn) (x : UtxCyc) (k : Nat) :
    utxSlot c cr i x k = utxRound c i (utxSelect c cr i x) k := rfl

theorem utxRound_slots (c : UtxCfg) (i : UtxIn) (x : UtxCyc) (k : Nat) : (utxRound c i x k).slots.length = x.slots.length + 1 := by
  unfold utxRound
  dsimp only
  split
  · split
    · split <;> simp [UtxCyc.commit]
    · simp
  · simp

theorem utxSelect_slots (c : UtxCfg) (cr : Nat → Bool) (i : UtxIn) (x : UtxCyc) : (utxSelect c cr i x).slots = x.slots := by
  unfold utxSelect
  split
  · dsimp only; split <;> rfl
  · rfl

section
variable {c : UtxCfg} {H : Nat} {ts : Nat → List UtxTlp} {pos : Nat → Nat} {env : UtxIn} {sh : (Nat → Nat) × (Nat → Bool)}
  {em0 : List UrxSeg} {fr0 : Bool} {cr : Nat → Bool} {k : Nat} {x : UtxCyc}

/-- A packet is selected. -/
theorem utx_live_select (hg : UtxGeo c H) (hsh : UtxShows c ts pos env) {G : UtxG} {es : List UrxSeg} (h : UtxLive c H ts pos env sh em0 fr0 k x G es) (hf : x.frame = false)
    {p : Nat} (hp : (List.range c.P).find? (fun p => decide (x.off p < env.avail p) && cr p) = some p) :
    ∃ G, UtxLive c H ts pos env sh em0 fr0 k (utxSelect c cr env x) G es ∧ (utxSelect c cr env x).frame = true ∧
      (utxSelect c cr env x).off (utxSelect c cr env x).port < env.avail (utxSelect c cr env x).port := by
  have hW : 0 < c.W := by have := hg.rlt; omega
  have hpP : p < c.P := by simpa using List.mem_of_find?_eq_some hp
  have hpv := List.find?_some hp
  rw [Bool.and_eq_true, decide_eq_true_eq] at hpv
  have hsel : utxSelect c cr env x = { x with hdr1 := true, hdr2 := false, split1 := false, split2 := false, frame := true, port := p, cnt := if c.rq then x.coff p else x.cnt } := by
    unfold utxSelect
    rw [hf, h.abort]
    simp only [Bool.not_false, Bool.and_self, if_true, hp]
  have hcur : G.cur = none := by
    have := h.inv.frame
    rw [hf] at this
    cases hc : G.cur with
    | none => rfl
    | some _ => rw [hc] at this; simp at this
  have hin : G.inRest c = [] := by unfold UtxG.inRest; rw [hcur]; rfl
  have hout : ∀ q, G.outRest c q = [] := by intro q; unfold UtxG.outRest; rw [hcur]; rfl
  have hpc := fun q hq => h.inv.pieces q hq
  simp only [hin, ite_self, List.nil_append] at hpc
  obtain ⟨t, n, ht, _⟩ := hsh p hpP _ hpv.1
  have hd : ((utxPieces c.W (ts p)).drop (pos p + x.off p))[0]? = some (t, n) := by
    rw [List.getElem?_drop]; simpa using ht
  rw [hpc p hpP] at hd
  obtain ⟨t', rest, hus⟩ : ∃ t' rest, G.us p = t' :: rest := by
    cases hu : G.us p with
    | nil => rw [hu] at hd; simp [utxPieces] at hd
    | cons a b => exact ⟨a, b, rfl⟩
  have hcr : c.rq = true → x.coff p = x.off p := fun hq => h.coff hq p (fun hh => by rw [hf] at hh; cases hh)
  have hcnt : (if c.rq then x.coff p else x.cnt) = x.off p := by
    cases hq : c.rq with
    | true => simp [hcr hq]
    | false =>
      have hP : c.P = 1 := by unfold UtxCfg.P; rw [hq]; rfl
      have : p = 0 := by omega
      simp [h.cc hq, this]
  rw [hsel, hcnt]
  refine ⟨{ us := fun q => if q = p then rest else G.us q, cur := some (t', 0, 0), os := G.os ++ [(p, t')], em := G.em }, ?_, rfl, hpv.1⟩
  refine ⟨h.abort, ⟨?_, ?_, ?_, ?_, rfl, ?_⟩, h.em, h.emits, fun _ => rfl, ?_, ?_, (fun hh => by cases hh), ?_, h.bound, h.full, ?_⟩
  · intro q hq
    have := h.inv.order q hq
    simp only [List.filter_append, List.map_append, List.append_assoc]
    rw [← this]
    congr 1
    by_cases hqp : q = p
    · subst hqp; simp [hus]
    · simp [hqp, Ne.symm hqp]
  · intro a ha
    rcases List.mem_append.1 ha with ha | ha
    · exact h.inv.ports a ha
    · simp at ha; rw [ha]; exact hpP
  · have := h.inv.em
    rw [hout, List.append_nil] at this
    show G.em ++ _ = _
    rw [this]
    unfold utxSegs
    rw [List.flatMap_append, List.flatMap_cons, List.flatMap_nil, List.append_nil, utx_segs_eq]
    rfl
  · intro q hq
    show (utxPieces c.W (ts q)).drop (pos q + x.off q) = _
    rw [hpc q hq]
    by_cases hqp : q = p
    · subst hqp
      simp only [if_true]
      rw [hus, utxPieces_cons]
      rfl
    · simp only [if_neg hqp, List.nil_append]
  · intro t2 i2 n2 he
    simp only [Option.some.injEq, Prod.mk.injEq] at he
    obtain ⟨rfl, rfl, rfl⟩ := he
    refine ⟨.hdr1, rfl, hpP, ?_⟩
    rw [← h.inv.order p hpP, hus]; simp
  · intro hq q _
    exact h.coff hq q (fun hh => by rw [hf] at hh; cases hh)
  · intro hq
    have hP : c.P = 1 := by unfold UtxCfg.P; rw [hq]; rfl
    have : p = 0 := by omega
    rw [this]
  · intro h0
    exact ⟨(fun hh => by cases hh), (h.zero h0).2⟩
  · obtain ⟨G2, es2, hc⟩ := h.com
    refine ⟨G2, es2, hc.le, hc.inv, hc.em, hc.emits, ?_⟩
    intro a ha hl
    rcases hc.closed a ha hl with h1 | h1
    · exact Or.inl h1
    · have := h1.1; rw [hf] at this; cases this

theorem utx_take_all {α : Type} {l : List α} {n : Nat} (h : l.length = n) : l.take n = l := by
  rw [← h]; exact List.take_length

/-- A round with a packet. -/
theorem utx_live_round (hg : UtxGeo c H) (hok : UtxTlpsOk c ts) (hsh : UtxShows c ts pos env) {G : UtxG} {es : List UrxSeg}
    (h : UtxLive c H ts pos env sh em0 fr0 k x G es) (hk : x.slots.length = k) (hkS : k < c.S) (hf : x.frame = true) :
    (∃ G es, UtxLive c H ts pos env sh em0 fr0 (k + 1) (utxRound c env x k) G es) ∨ UtxAborted c H ts pos env sh em0 (utxRound c env x k) := by
  have hW : 0 < c.W := by have := hg.rlt; omega
  obtain ⟨⟨t, i, n⟩, hcur⟩ : ∃ a, G.cur = some a := by
    have := h.inv.frame
    rw [hf] at this
    exact Option.isSome_iff_exists.1 this.symm
  obtain ⟨hat, hs2, hport, htm⟩ := h.inv.at_ t i n hcur
  obtain ⟨hib, hnb⟩ := utxAt_bounds hg hat
  have hpiece : (utxPieces c.W (ts x.port))[pos x.port + x.off x.port]? = some (t, i) := by
    have h1 := h.inv.pieces x.port hport
    rw [if_pos rfl] at h1
    unfold UtxG.inRest at h1
    rw [hcur] at h1
    simp only [Option.elim] at h1
    rw [utx_range'_cons hib] at h1
    have : ((utxPieces c.W (ts x.port)).drop (pos x.port + x.off x.port))[0]? = some (t, i) := by rw [h1]; rfl
    rw [List.getElem?_drop] at this
    exact this
  have hcnt := h.cnt hf
  by_cases hv : x.off x.port < env.avail x.port
  · left
    obtain ⟨t', n', hp', his⟩ := hsh x.port hport _ hv
    rw [hpiece, Option.some.injEq, Prod.mk.injEq] at hp'
    obtain ⟨rfl, rfl⟩ := hp'
    have his := utx_view_is hok htm his
    generalize hgd : utxView c env x.port (x.off x.port) = g at his
    obtain ⟨adv, h2, s1, s2, e, hr⟩ := utx_route hg hat hs2 hf hcnt hgd his
    have hinv := utx_inv_route hg h.inv hcur hr
    have hsl := utx_piece_is hg hok hat hcnt hgd his htm hr
    have heg : e = true → g.eop = true := by
      intro he
      rw [his.eop, (hr.fin he).2]; simp
    generalize hslot : ({ port := x.port, idx := x.cnt, hdr1 := x.hdr1, hdr2 := x.hdr2, split2 := s2, sop := x.hdr1, eop := e } : UtxSlot) = sl at hsl
    have hshat : utxShAt c env sh (x.slots ++ [sl]) = (fun j => g.data (c.W - c.r + j), fun j => g.strb (c.W - c.r + j)) := by
      unfold utxShAt
      rw [List.getLast?_concat]
      simp only [Option.elim]
      rw [← hslot]
      simp only []
      rw [hcnt, hgd]
    have hemits := utxEmits_snoc h.emits hsl
    have hround : utxRound c env x k =
        (if g.eop || k + 1 == c.S then
          UtxCyc.commit { (if adv then x.advance else x) with frame := !e, hdr1 := false, hdr2 := h2, split1 := s1, split2 := s2, slots := x.slots ++ [sl] } k
        else { (if adv then x.advance else x) with frame := !e, hdr1 := false, hdr2 := h2, split1 := s1, split2 := s2, slots := x.slots ++ [sl] }) := by
      unfold utxRound
      rw [hr.eq, hf, h.abort, hgd, decide_eq_true hv]
      simp only [Bool.not_false, Bool.and_self, if_true]
      rw [← hslot]
    have hsame : (if adv then x.advance else x).port = x.port ∧ (if adv then x.advance else x).abort = false ∧
        (if adv then x.advance else x).coff = x.coff ∧ (if adv then x.advance else x).csel = x.csel ∧
        (if adv then x.advance else x).cnt = (if adv then x.advance else x).off x.port ∧
        (∀ p, p ≠ x.port → (if adv then x.advance else x).off p = x.off p) ∧
        (∀ p, (if adv then x.advance else x).off p ≤ x.off p + 1) ∧ (adv = false → (if adv then x.advance else x).off = x.off) ∧
        (if adv then x.advance else x).slots = x.slots ∧ (if adv then x.advance else x).cframe = x.cframe ∧ (if adv then x.advance else x).chdr1 = x.chdr1 ∧
        (if adv then x.advance else x).chdr2 = x.chdr2 ∧ (if adv then x.advance else x).csplit1 = x.csplit1 ∧
        (if adv then x.advance else x).csplit2 = x.csplit2 ∧ (if adv then x.advance else x).cport = x.cport := by
      cases adv with
      | false =>
        refine ⟨rfl, h.abort, rfl, rfl, hcnt, fun _ _ => rfl, fun _ => Nat.le_succ _, fun _ => rfl, rfl, rfl, rfl, rfl, rfl, rfl, rfl⟩
      | true =>
        refine ⟨rfl, h.abort, rfl, rfl, by simp [UtxCyc.advance, hcnt], ?_, ?_, (fun hh => by cases hh), rfl, rfl, rfl, rfl, rfl, rfl, rfl⟩
        · intro p hp; simp [UtxCyc.advance, hp]
        · intro p; simp only [if_true, UtxCyc.advance]; split <;> omega
    generalize hz : (if adv then x.advance else x) = z at *
    obtain ⟨z1, z2, z3, z4, z5, z6, z7, z8, z9, z10, z11, z12, z13, z14, z15⟩ := hsame
    have hinv' : UtxInv c H ts (fun p => pos p + z.off p) (!e) false h2 s1 s2 z.port
        (utxShAt c env sh (x.slots ++ [sl])).1 (utxShAt c env sh (x.slots ++ [sl])).2
        { G with cur := if e then none else some (t, (if adv then i + 1 else i), n + 1), em := G.em ++ [utxPiece c x.port t n] } := by
      rw [hshat, z1]; exact hinv
    obtain ⟨G', hG'⟩ : ∃ G' : UtxG, G' = { G with cur := if e then none else some (t, (if adv then i + 1 else i), n + 1), em := G.em ++ [utxPiece c x.port t n] } := ⟨_, rfl⟩
    have hem' : G'.em = em0 ++ (es ++ [utxPiece c x.port t n]) := by rw [hG', ← List.append_assoc, ← h.em]
    rw [← hG'] at hinv'
    have hcc : c.rq = false → z.cnt = z.off 0 := by
      intro hq
      have hP : c.P = 1 := by unfold UtxCfg.P; rw [hq]; rfl
      have : x.port = 0 := by omega
      rw [z5, this]
    have hbound : ∀ p, z.off p ≤ k + 1 := by
      intro p; have := h.bound p; have := z7 p; omega
    rw [hround]
    by_cases hc : (g.eop || k + 1 == c.S) = true
    · rw [if_pos hc]
      refine ⟨G', es ++ [utxPiece c x.port t n], z2, hinv', hem', hemits, ?_, ?_, hcc, fun _ => rfl,
        (fun hh => by omega), hbound, fun _ _ => rfl, G', es ++ [utxPiece c x.port t n], ?_, ?_, hem', ?_, ?_⟩
      · intro _; show z.cnt = z.off z.port; rw [z5, z1]
      · intro hq p _
        show (if p = z.port then z.cnt else z.coff p) = z.off p
        by_cases hpp : p = z.port
        · rw [if_pos hpp, hpp, z5, z1]
        · rw [if_neg hpp, z3, z6 p (by rw [← z1]; exact hpp)]
          exact h.coff hq p (fun _ => by rw [← z1]; exact hpp)
      · show k + 1 ≤ (x.slots ++ [sl]).length
        simp [hk]
      · show UtxInv c H ts (fun p => pos p + if p = z.port then z.cnt else z.coff p) (!e) false h2 s1 s2 z.port
          (utxShAt c env sh ((x.slots ++ [sl]).take (k + 1))).1 (utxShAt c env sh ((x.slots ++ [sl]).take (k + 1))).2 _
        rw [utx_take_all (by simp [hk])]
        refine hinv'.congr ?_
        intro p hp
        by_cases hpp : p = z.port
        · rw [if_pos hpp, hpp, z5, z1]
        · rw [if_neg hpp]
          cases hq : c.rq with
          | true =>
            rw [z3, z6 p (by rw [← z1]; exact hpp), h.coff hq p (fun _ => by rw [← z1]; exact hpp)]
          | false =>
            have hP : c.P = 1 := by unfold UtxCfg.P; rw [hq]; rfl
            exact absurd (show p = z.port by rw [z1]; omega) hpp
      · show UtxEmits c env sh ((x.slots ++ [sl]).take (k + 1)) _
        rw [utx_take_all (by simp [hk])]
        exact hemits
      · intro a ha hl
        rw [List.getLast?_concat, Option.some.injEq] at ha
        subst ha
        show k + 1 = c.S ∨ _
        by_cases hS : k + 1 = c.S
        · exact Or.inl hS
        · right
          have hge : g.eop = true := by simpa [hS] using hc
          have he : e = false := by rw [hr.last]; exact hl
          have ha := hr.eop hge
          rw [he] at ha
          have hzo := z8 ha
          refine ⟨?_, ?_, ?_⟩
          · show (!e) = true; rw [he]; rfl
          · show z.off z.port < env.avail z.port; rw [hzo, z1]; exact hv
          · show (utxView c env z.port (z.off z.port)).eop = true
            rw [hzo, z1, hgd]; exact hge
    · rw [if_neg hc]
      have hc' : g.eop = false ∧ k + 1 ≠ c.S := by
        rw [Bool.or_eq_true, not_or] at hc
        simpa using hc
      have he : e = false := by
        cases he : e with
        | false => rfl
        | true => have := heg he; rw [hc'.1] at this; cases this
      refine ⟨G', es ++ [utxPiece c x.port t n], z2, hinv', hem', hemits, ?_, ?_, hcc, ?_,
        (fun hh => by omega), hbound, fun hh => absurd hh hc'.2, ?_⟩
      · intro _; show z.cnt = z.off z.port; rw [z5, z1]
      · intro hq p hp
        show z.coff p = z.off p
        have hpp : p ≠ x.port := by rw [← z1]; exact hp (by show (!e) = true; rw [he]; rfl)
        rw [z3, z6 p hpp]
        exact h.coff hq p (fun _ => hpp)
      · intro hh
        have : (!e) = false := hh
        rw [he] at this; cases this
      · obtain ⟨G2, es2, hcom⟩ := h.com
        refine ⟨G2, es2, utxCom_mono (opn := UtxOpen c env x) hcom ?_ sl rfl z3 z10 z11 z12 z13 z14 z15 z4⟩
        intro ho
        have := ho.2.2
        rw [hgd, hc'.1] at this
        cases this
  · right
    have hround : utxRound c env x k = { (utxRoute c env x).1 with
        slots := x.slots ++ [{ port := x.port, idx := x.cnt, hdr1 := x.hdr1, hdr2 := x.hdr2, split2 := (utxRoute c env x).1.split2, sop := x.hdr1, eop := (utxRoute c env x).2 }]
        abort := true } := by
      unfold utxRound
      rw [hf, h.abort, decide_eq_false hv]
      simp
    obtain ⟨s1, s2, s3, s4, s5, s6, s7, s8, s9, s10, s11, s12⟩ := utxRoute_same c env x
    rw [hround]
    refine ⟨rfl, ⟨x.port, x.off x.port, hport, by omega, by have := h.bound x.port; omega, ?_⟩, ?_⟩
    · exact (List.getElem?_eq_some_iff.1 hpiece).1
    · obtain ⟨G2, es2, hcom⟩ := h.com
      exact ⟨G2, es2, utxCom_mono (opn := UtxOpen c env x) hcom (fun ho => absurd ho.2.1 hv) _ rfl s2 s4 s5 s6 s7 s8 s9 s10⟩

theorem utx_select_none (hf : x.frame = false) (ha : x.abort = false)
    (hp : (List.range c.P).find? (fun p => decide (x.off p < env.avail p) && cr p) = none) :
    utxSelect c cr env x = { x with hdr1 := true, hdr2 := false, split1 := false, split2 := false } := by
  unfold utxSelect
  rw [hf, ha]
  simp only [Bool.not_false, Bool.and_self, if_true, hp]

theorem utx_find_none : (List.range c.P).find? (fun p => decide (x.off p < env.avail p) && cr p) = none ↔
    ∀ p, p < c.P → cr p = true → env.avail p ≤ x.off p := by
  rw [List.find?_eq_none]
  constructor
  · intro h p hp hc
    have := h p (List.mem_range.2 hp)
    rw [hc] at this
    simpa using this
  · intro h p hp
    cases hc : cr p with
    | false => simp
    | true => have := h p (List.mem_range.1 hp) hc; simpa using this

/-- A round with nothing to do. -/
theorem utx_dead_slot (h : UtxDead c H ts pos env sh em0 fr0 cr x) : UtxDead c H ts pos env sh em0 fr0 cr (utxSlot c cr env x k) := by
  rw [utxSlot_round, utx_select_none h.frame h.abort (utx_find_none.2 h.none_)]
  unfold utxRound
  simp only [h.frame, h.abort, Bool.false_and, Bool.false_eq_true, if_false]
  obtain ⟨s1, s2, s3, s4, s5, s6, s7, s8, s9, s10, s11, s12⟩ := utxRoute_same c env { x with hdr1 := true, hdr2 := false, split1 := false, split2 := false }
  rw [h.frame, h.abort] at s12 s3 s1 s2 s4 s5 s6 s7 s8 s9 s10 s11
  obtain ⟨G, es, hc⟩ := h.com
  refine ⟨s12 rfl, s3, ?_, ?_, G, es, utxCom_mono (opn := False) hc (fun h => h) _ rfl s2 s4 s5 s6 s7 s8 s9 s10⟩
  · intro p hp hcr
    exact Nat.le_trans (h.none_ p hp hcr) (s11 p)
  · intro h0
    exact h.zero (s10 ▸ h0)

theorem utx_aborted_slot (h : UtxAborted c H ts pos env sh em0 x) : UtxAborted c H ts pos env sh em0 (utxSlot c cr env x k) := by
  have hsel : utxSelect c cr env x = x := by unfold utxSelect; rw [h.abort]; simp
  rw [utxSlot_round, hsel]
  unfold utxRound
  simp only [h.abort, Bool.not_true, Bool.and_false, Bool.false_eq_true, if_false]
  obtain ⟨s1, s2, s3, s4, s5, s6, s7, s8, s9, s10, s11, s12⟩ := utxRoute_same c env x
  obtain ⟨G, es, hc⟩ := h.com
  exact ⟨s3.trans h.abort, h.why, G, es, utxCom_mono (opn := False) hc (fun h => h) _ rfl s2 s4 s5 s6 s7 s8 s9 s10⟩

theorem utx_live_slot (hg : UtxGeo c H) (hok : UtxTlpsOk c ts) (hsh : UtxShows c ts pos env) {G : UtxG} {es : List UrxSeg}
    (h : UtxLive c H ts pos env sh em0 fr0 k x G es) (hk : x.slots.length = k) (hkS : k < c.S) :
    (∃ G es, UtxLive c H ts pos env sh em0 fr0 (k + 1) (utxSlot c cr env x k) G es) ∨ UtxDead c H ts pos env sh em0 fr0 cr (utxSlot c cr env x k) ∨
      UtxAborted c H ts pos env sh em0 (utxSlot c cr env x k) := by
  rw [utxSlot_round]
  cases hf : x.frame with
  | true =>
    have hsel : utxSelect c cr env x = x := by unfold utxSelect; rw [hf]; simp
    rw [hsel]
    exact (utx_live_round hg hok hsh h hk hkS hf).imp id Or.inr
  | false =>
    cases hp : (List.range c.P).find? (fun p => decide (x.off p < env.avail p) && cr p) with
    | some p =>
      obtain ⟨G', h', hf', _⟩ := utx_live_select hg hsh h hf hp
      exact (utx_live_round hg hok hsh h' (by rw [utxSelect_slots]; exact hk) hkS hf').imp id Or.inr
    | none =>
      right; left
      rw [utx_select_none hf h.abort hp]
      have hn := utx_find_none.1 hp
      unfold utxRound
      simp only [hf, h.abort, Bool.false_and, Bool.false_eq_true, if_false]
      obtain ⟨s1, s2, s3, s4, s5, s6, s7, s8, s9, s10, s11, s12⟩ := utxRoute_same c env { x with hdr1 := true, hdr2 := false, split1 := false, split2 := false }
      rw [hf, h.abort] at s12 s3 s1 s2 s4 s5 s6 s7 s8 s9 s10 s11
      obtain ⟨G2, es2, hc⟩ := h.com
      refine ⟨s12 rfl, s3, ?_, ?_, G2, es2, utxCom_mono (opn := UtxOpen c env x) hc (fun h => by have := h.1; rw [hf] at this; cases this) _ rfl s2 s4 s5 s6 s7 s8 s9 s10⟩
      · intro p hp' hcr
        exact Nat.le_trans (hn p hp' hcr) (s11 p)
      · intro h0
        have hk0 : k = 0 := by rw [← h.idle hf]; exact s10 ▸ h0
        obtain ⟨z1, z2⟩ := h.zero hk0
        refine ⟨z1 hf, ?_⟩
        intro p hp' hcr
        have := hn p hp' hcr
        rw [z2 p] at this; omega

end

/-- The loop. -/
theorem utx_loop {c : UtxCfg} {H : Nat} (hg : UtxGeo c H) {ts : Nat → List UtxTlp} (hok : UtxTlpsOk c ts) {pos : Nat → Nat} {env : UtxIn}
    (hsh : UtxShows c ts pos env) {st : Utx} {G : UtxG} 
    (hI : UtxInv c H ts pos st.frame st.hdr1 st.hdr2 st.split1 st.split2 st.port st.shiftD st.shiftS G) :
    (utxLoop c st env).slots.length = c.S ∧
    (∃ G' es, UtxCom c H ts pos env (st.shiftD, st.shiftS) G.em False (utxLoop c st env) G' es) ∧
    ((utxLoop c st env).csel = 0 → (∃ p o, p < c.P ∧ env.avail p ≤ o ∧ o < c.S ∧ pos p + o < (utxPieces c.W (ts p)).length) ∨
      st.frame = false ∧ ∀ p, p < c.P → utxCredit c st p = true → env.avail p = 0) := by
  have key : ∀ k, k ≤ c.S → ((List.range k).foldl (utxSlot c (utxCredit c st) env) (utxCyc0 st)).slots.length = k ∧
      ((∃ G' es, UtxLive c H ts pos env (st.shiftD, st.shiftS) G.em st.frame k ((List.range k).foldl (utxSlot c (utxCredit c st) env) (utxCyc0 st)) G' es) ∨
        UtxDead c H ts pos env (st.shiftD, st.shiftS) G.em st.frame (utxCredit c st) ((List.range k).foldl (utxSlot c (utxCredit c st) env) (utxCyc0 st)) ∨
        UtxAborted c H ts pos env (st.shiftD, st.shiftS) G.em ((List.range k).foldl (utxSlot c (utxCredit c st) env) (utxCyc0 st))) := by
    intro k
    induction k with
    | zero =>
      intro _
      refine ⟨rfl, Or.inl ⟨G, [], rfl, hI, by simp, utxEmits_nil _ _ _, fun _ => rfl, fun _ _ _ => rfl, fun _ => rfl, fun _ => rfl,
        fun _ => ⟨fun h => h, fun _ => rfl⟩, fun _ => Nat.le_refl 0, fun _ h => absurd h (by omega), G, [], Nat.le_refl _, hI, by simp, utxEmits_nil _ _ _, ?_⟩⟩
      intro a ha; simp at ha
    | succ k ih =>
      intro hk
      obtain ⟨hlen, ih⟩ := ih (by omega)
      rw [List.range_succ, List.foldl_append, List.foldl_cons, List.foldl_nil]
      generalize (List.range k).foldl (utxSlot c (utxCredit c st) env) (utxCyc0 st) = x at *
      refine ⟨by rw [utxSlot_round, utxRound_slots, utxSelect_slots, hlen], ?_⟩
      rcases ih with ⟨G', es, h⟩ | h | h
      · exact utx_live_slot hg hok hsh h hlen (by omega)
      · exact Or.inr (Or.inl (utx_dead_slot h))
      · exact Or.inr (Or.inr (utx_aborted_slot h))
  obtain ⟨h1, h2⟩ := key c.S (Nat.le_refl _)
  have hSpos : 0 < c.S := by have := hg.S; omega
  change (utxLoop c st env).slots.length = c.S at h1
  refine ⟨h1, ?_⟩
  change (∃ G' es, UtxLive c H ts pos env (st.shiftD, st.shiftS) G.em st.frame c.S (utxLoop c st env) G' es) ∨
    UtxDead c H ts pos env (st.shiftD, st.shiftS) G.em st.frame (utxCredit c st) (utxLoop c st env) ∨
    UtxAborted c H ts pos env (st.shiftD, st.shiftS) G.em (utxLoop c st env) at h2
  rcases h2 with ⟨G', es, h⟩ | h | h
  · have hfull := h.full rfl hSpos
    refine ⟨?_, fun h0 => by omega⟩
    obtain ⟨G2, es2, hc⟩ := h.com
    exact ⟨G2, es2, hc.le, hc.inv, hc.em, hc.emits, fun a ha hl => Or.inl hfull⟩
  · exact ⟨h.com, fun h0 => Or.inr (h.zero h0)⟩
  · exact ⟨h.com, fun _ => Or.inl h.why⟩

end Verif.Proofs
