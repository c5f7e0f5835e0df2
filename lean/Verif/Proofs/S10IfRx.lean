import Verif.Proofs.RxReg
import Verif.Proofs.S10IfRxStream
/-! The receive side of the Stratix 10 adapter: the input register, and the whole module. -/
namespace Verif.Proofs
open Verif Verif.Model Verif.Spec Verif.Props

section
variable {St : Type} (c : S10RxCfg) (F : TlpDev St)

/-! ### The module as something that fills the register in front of the demultiplexer -/

def s10Core (s : S10Rx St) : RxReg St := { valid := s.valid, word := s.word, dx := s.dx }

def s10RowOf (s : S10Rx St) (i : S10RxIn) : RxRow :=
  { rst := i.rst, valid := s10Emit c s i, load := s10Load c s i
    says := fun g => if (s10X c s i g).eop then s10Fin c (s10Dw c s i (g + 1)) (s10X c s i g)
      else s10Mid c (s10Dw c s i (g + 1)) (s10X c s i g) (s10X c s i (g + 1))
    ready := i.ready }

def s10Rows : S10Rx St → List S10RxIn → List RxRow
  | _, [] => []
  | s, i :: is => s10RowOf c s i :: s10Rows (s10RxStep c F s i) is

theorem s10_take_core (s : S10Rx St) (i : S10RxIn) : rxgTake ⟨c.segs⟩ F (s10Core s) (s10RowOf c s i) = s10Take c F s i := rfl

theorem s10_step_core (s : S10Rx St) (i : S10RxIn) :
    s10Core (s10RxStep c F s i) = rxgStep ⟨c.segs⟩ F (s10Core s) (s10RowOf c s i) := rfl

theorem s10_run_core (is : List S10RxIn) (s : S10Rx St) :
    s10Core (s10RxRun c F s is) = rxgRun ⟨c.segs⟩ F (s10Core s) (s10Rows c F s is) := by
  induction is generalizing s with
  | nil => rfl
  | cons i is ih => rw [s10RxRun, ih, s10Rows, rxgRun, s10_step_core]

theorem s10_taken_core (shown : St → List TlpSeg) (p : Nat) (is : List S10RxIn) (s : S10Rx St) :
    s10Taken c F shown p s is = rxgTaken ⟨c.segs⟩ F shown p (s10Core s) (s10Rows c F s is) := by
  induction is generalizing s with
  | nil => rfl
  | cons i is ih => rw [s10Taken, ih, s10Rows, rxgTaken, s10_step_core]; rfl

theorem s10RxRun_append (a b : List S10RxIn) (s : S10Rx St) : s10RxRun c F s (a ++ b) = s10RxRun c F (s10RxRun c F s a) b := by
  induction a generalizing s with
  | nil => rfl
  | cons i a ih => simp only [List.cons_append, s10RxRun, ih]

theorem s10Rows_append (a b : List S10RxIn) (s : S10Rx St) :
    s10Rows c F s (a ++ b) = s10Rows c F s a ++ s10Rows c F (s10RxRun c F s a) b := by
  induction a generalizing s with
  | nil => rfl
  | cons i a ih => simp only [List.cons_append, s10Rows, s10RxRun, ih]

theorem s10Rows_length (is : List S10RxIn) (s : S10Rx St) : (s10Rows c F s is).length = is.length := by
  induction is generalizing s with
  | nil => rfl
  | cons i is ih => simp only [s10Rows, List.length_cons, ih]

theorem s10Rows_take (k : Nat) (is : List S10RxIn) (s : S10Rx St) : s10Rows c F s (is.take k) = (s10Rows c F s is).take k := by
  induction is generalizing s k with
  | nil => simp [s10Rows]
  | cons i is ih => cases k with
    | zero => rfl
    | succ k => simp only [List.take_succ_cons, s10Rows, ih]

theorem s10Rows_get (is : List S10RxIn) (s : S10Rx St) (k : Nat) (h : k < is.length) :
    (s10Rows c F s is)[k]'(by rw [s10Rows_length]; exact h) = s10RowOf c (s10RxRun c F s (is.take k)) is[k] := by
  induction is generalizing s k with
  | nil => simp at h
  | cons i is ih => cases k with
    | zero => rfl
    | succ k => simp only [s10Rows, List.getElem_cons_succ, List.take_succ_cons, s10RxRun]; exact ih _ _ (by simpa using h)

theorem s10Rows_all (P : Bool → (Nat → Bool) → Prop) (is : List S10RxIn) (s : S10Rx St) (h : ∀ i ∈ is, P i.rst i.ready) :
    ∀ i ∈ s10Rows c F s is, P i.rst i.ready := by
  induction is generalizing s with
  | nil => intro i hi; cases hi
  | cons j is ih =>
    intro i hi
    rcases List.mem_cons.mp hi with rfl | hi
    · exact h j (by simp)
    · exact ih _ (fun i h' => h i (by simp [h'])) i hi

/-! ### One cycle -/

/-- The segments in the input register. -/
def s10Pend (s : S10Rx St) : List S10Seg := ((List.range c.segs).filter s.iv).map s.iseg

/-- The part of a list over the segments that begins at `g`. -/
def s10From {α : Type} (P : Nat → Bool) (f : Nat → α) (g m : Nat) : List α := ((List.range' g m).filter P).map f

theorem s10From_pos {α : Type} (P : Nat → Bool) (f : Nat → α) (g m : Nat) (h : P g = true) :
    s10From P f g (m + 1) = f g :: s10From P f (g + 1) m := by
  simp [s10From, List.range'_succ, h]

theorem s10From_neg {α : Type} (P : Nat → Bool) (f : Nat → α) (g m : Nat) (h : P g = false) :
    s10From P f g (m + 1) = s10From P f (g + 1) m := by
  simp [s10From, List.range'_succ, h]

theorem s10From_range {α : Type} (P : Nat → Bool) (f : Nat → α) (n : Nat) : ((List.range n).filter P).map f = s10From P f 0 n := by
  rw [s10From, List.range_eq_range']

theorem s10From_congr {α : Type} {P Q : Nat → Bool} {f h : Nat → α} (g m : Nat) (hP : ∀ k, k < g + m → P k = Q k)
    (hf : ∀ k, k < g + m → f k = h k) : s10From P f g m = s10From Q h g m := by
  induction m generalizing g with
  | zero => rfl
  | succ m ih =>
    have ih' := ih (g + 1) (fun k hk => hP k (by omega)) (fun k hk => hf k (by omega))
    cases hp : Q g with
    | true => rw [s10From_pos _ _ _ _ hp, s10From_pos _ _ _ _ (by rw [hP g (by omega)]; exact hp), ih', hf g (by omega)]
    | false => rw [s10From_neg _ _ _ _ hp, s10From_neg _ _ _ _ (by rw [hP g (by omega)]; exact hp), ih']

theorem s10_row_nil (i : S10RxIn) (h : s10Any c i = false) : s10Row c i = [] := by
  unfold s10Row
  rw [List.filter_eq_nil_iff.mpr]
  · rfl
  · intro g hg hv
    have : s10Any c i = true := List.any_eq_true.mpr ⟨g, hg, hv⟩
    rw [h] at this; cases this

theorem s10_row_head (i : S10RxIn) (hn : 0 < c.segs) (h : i.valid 0 = true) : ∃ l, s10Row c i = i.seg 0 :: l := by
  unfold s10Row
  obtain ⟨n, hn'⟩ := Nat.exists_eq_succ_of_ne_zero (by omega : c.segs ≠ 0)
  rw [s10From_range, hn', s10From_pos _ _ _ _ h]
  exact ⟨_, rfl⟩

/-- The segments in the register have no gap, and only the last one of a row can be in the middle of a TLP. -/
structure S10Gap (s : S10Rx St) (o : Bool) : Prop where
  next : ∀ g, g + 1 < c.segs → s.iv g = true → (s.iseg g).eop = false → s.iv (g + 1) = true
  last : 0 < c.segs → s.iv (c.segs - 1) = true → (s.iseg (c.segs - 1)).eop = false → o = true

/-- The input row continues what is unfinished. -/
def S10Cont (o : Bool) (i : S10RxIn) : Prop := s10Any c i = true → o = true → i.valid 0 = true

theorem s10Dw_succ (s : S10Rx St) (i : S10RxIn) (g : Nat) :
    s10Dw c s i (g + 1) = if s10V c s i g then s10D (s10Dw c s i g) (s10X c s i g) else s10Dw c s i g := by
  rw [s10Dw]
  unfold s10D
  cases h : s10V c s i g with
  | true => rw [Bool.true_and, if_pos rfl]
  | false => rw [Bool.false_and, if_neg (by simp), if_neg (by simp)]

theorem s10Dw_from (s : S10Rx St) (i : S10RxIn) (m g : Nat) :
    s10Dw c s i (g + m) = s10After (s10Dw c s i g) (s10From (s10V c s i) (s10X c s i) g m) := by
  induction m generalizing g with
  | zero => rfl
  | succ m ih =>
    rw [show g + (m + 1) = g + 1 + m by omega, ih, s10Dw_succ]
    cases h : s10V c s i g with
    | true => rw [s10From_pos _ _ _ _ h, if_pos rfl, s10After, s10After, List.foldl_cons]
    | false => rw [s10From_neg _ _ _ _ h, if_neg (by simp)]

theorem s10_row {s : S10Rx St} {o : Bool} (hg : S10Gap c s o) (i : S10RxIn) (hc : S10Cont c o i) (fut : List S10Seg) (m g : Nat)
    (hm : g + m = c.segs) :
    s10Outs c (s10Dw c s i g) (s10From (s10V c s i) (s10X c s i) g m ++ (s10Row c i ++ fut)) =
      s10From (s10Emit c s i) (s10RowOf c s i).says g m ++
      s10Outs c (s10Dw c s i c.segs) ((if s10Any c i then s10Row c i else s10From (s10Stay c s i) (s10X c s i) g m) ++ fut) := by
  induction m generalizing g with
  | zero =>
    have : g = c.segs := by omega
    subst this
    cases h : s10Any c i with
    | true => rfl
    | false => rw [s10_row_nil c i h]; rfl
  | succ m ih =>
    have ih' := ih (g + 1) (by omega)
    have hlt : g < c.segs := by omega
    have hV : s10V c s i g = s.iv g := by simp [s10V, hlt]
    have hX : s10X c s i g = s.iseg g := by simp [s10X, hlt]
    cases h : s10V c s i g with
    | false =>
      have hd : s10Dw c s i (g + 1) = s10Dw c s i g := by rw [s10Dw_succ, h, if_neg (by simp)]
      rw [s10From_neg _ _ _ _ h, s10From_neg _ _ _ _ (by simp [s10Emit, h]), s10From_neg (P := s10Stay c s i) _ _ _ (by simp [s10Stay, h]),
        ← hd]
      exact ih'
    | true =>
      have hd : s10Dw c s i (g + 1) = s10D (s10Dw c s i g) (s10X c s i g) := by rw [s10Dw_succ, h, if_pos rfl]
      rw [s10From_pos _ _ _ _ h, List.cons_append]
      cases he : (s10X c s i g).eop with
      | true =>
        rw [s10Outs_eop _ _ _ _ he, ← hd, ih', s10From_neg (P := s10Stay c s i) _ _ _ (by simp [s10Stay, he])]
        cases hn : s10Ends (s10Dw c s i (g + 1)) (s10X c s i g) with
        | true =>
          rw [s10From_pos _ _ _ _ (by simp only [s10Emit, h, he, hn, if_true, Bool.and_self])]
          simp only [s10RowOf, he, if_true, List.cons_append, List.nil_append]
        | false =>
          rw [s10From_neg (P := s10Emit c s i) _ _ _ (by simp [s10Emit, h, he, hn])]
          simp
      | false =>
        cases hv : s10V c s i (g + 1) with
        | true =>
          -- the next segment follows
          obtain ⟨l, hl⟩ : ∃ l, s10From (s10V c s i) (s10X c s i) (g + 1) m ++ (s10Row c i ++ fut) = s10X c s i (g + 1) :: l := by
            cases m with
            | zero =>
              have hgn : g + 1 = c.segs := by omega
              have hv0 : i.valid 0 = true := by simpa [s10V, hgn] using hv
              obtain ⟨l, hl⟩ := s10_row_head c i (by omega) hv0
              refine ⟨l ++ fut, ?_⟩
              rw [hl]
              simp [s10From, s10X, hgn]
            | succ m =>
              rw [s10From_pos _ _ _ _ hv]
              exact ⟨_, rfl⟩
          rw [hl, s10Outs_mid _ _ _ _ _ he, ← hd, ← hl, ih', s10From_neg (P := s10Stay c s i) _ _ _ (by simp [s10Stay, hv]),
            s10From_pos _ _ _ _ (by simp [s10Emit, h, he, hv])]
          simp [s10RowOf, he]
        | false =>
          have hm0 : m = 0 := by
            cases m with
            | zero => rfl
            | succ m =>
              have h1 := hg.next g (by omega) (by rw [← hV]; exact h) (by rw [← hX]; exact he)
              have : s10V c s i (g + 1) = s.iv (g + 1) := by simp [s10V, show g + 1 < c.segs by omega]
              rw [this, h1] at hv; cases hv
          subst hm0
          have hgn : g + 1 = c.segs := by omega
          have ha : s10Any c i = false := by
            cases ha : s10Any c i with
            | false => rfl
            | true =>
              have hgl : g = c.segs - 1 := by omega
              have h1 := hc ha (hg.last (by omega) (by rw [← hgl, ← hV]; exact h) (by rw [← hgl, ← hX]; exact he))
              have : s10V c s i (g + 1) = i.valid 0 := by simp [s10V, hgn]
              rw [this, h1] at hv; cases hv
          have hst : s10Stay c s i g = true := by simp [s10Stay, h, he, hv]
          have hem : s10Emit c s i g = false := by simp [s10Emit, he, hv]
          rw [s10From_pos _ _ _ _ hst, s10From_neg _ _ _ _ hem, ha, s10_row_nil c i ha]
          have hnil : ∀ {α : Type} (P : Nat → Bool) (f : Nat → α) (k : Nat), s10From P f k 0 = [] := fun _ _ _ => rfl
          simp only [hnil, List.nil_append, Bool.false_eq_true, if_false, List.cons_append]
          have hdd : s10D (s10Dw c s i c.segs) (s10X c s i g) = s10D (s10Dw c s i g) (s10X c s i g) := by
            rw [← hgn, hd]
            cases hs : (s10X c s i g).sop <;> simp [s10D, hs]
          cases fut with
          | nil => rw [s10Outs_wait _ _ _ he, s10Outs_wait _ _ _ he]
          | cons y fut => rw [s10Outs_mid _ _ _ _ _ he, s10Outs_mid _ _ _ _ _ he, hdd]

/-- Whatever stays in the register is the last segment, and unfinished. -/
theorem s10_stay {s : S10Rx St} {o : Bool} (hg : S10Gap c s o) (i : S10RxIn) (m g : Nat) (hm : g + m = c.segs) :
    s10From (s10Stay c s i) (s10X c s i) g m = [] ∨
    (s10From (s10Stay c s i) (s10X c s i) g m = [s10X c s i (c.segs - 1)] ∧ s10V c s i (c.segs - 1) = true ∧
      (s10X c s i (c.segs - 1)).eop = false ∧ 0 < c.segs) := by
  induction m generalizing g with
  | zero => exact Or.inl rfl
  | succ m ih =>
    have ih' := ih (g + 1) (by omega)
    cases h : s10Stay c s i g with
    | false => rw [s10From_neg _ _ _ _ h]; exact ih'
    | true =>
      right
      have h' := h
      simp only [s10Stay, Bool.and_eq_true, Bool.not_eq_true'] at h'
      have hm0 : m = 0 := by
        cases m with
        | zero => rfl
        | succ m =>
          have hlt : g < c.segs := by omega
          have h1 := hg.next g (by omega) (by have := h'.1.1; simpa [s10V, hlt] using this) (by have := h'.1.2; simpa [s10X, hlt] using this)
          have h2 := h'.2
          simp [s10V, show g + 1 < c.segs by omega, h1] at h2
      subst hm0
      rw [s10From_pos _ _ _ _ h]
      have : g = c.segs - 1 := by omega
      subst this
      exact ⟨rfl, h'.1.1, h'.1.2, by omega⟩

/-- Nothing is overwritten in the input register. -/
def S10NoOver : S10Rx St → List S10RxIn → Prop
  | _, [] => True
  | s, i :: is => (s10Take c F s i = true ∨ s10Pend c s = [] ∨ s10Any c i = false) ∧ S10NoOver (s10RxStep c F s i) is

theorem s10Pend_from (s : S10Rx St) (i : S10RxIn) : s10Pend c s = s10From (s10V c s i) (s10X c s i) 0 c.segs := by
  rw [s10Pend, s10From_range]
  refine s10From_congr 0 _ ?_ ?_ <;> intro k hk
  · simp [s10V, show k < c.segs by omega]
  · simp [s10X, show k < c.segs by omega]

theorem s10_pend_any (s : S10Rx St) (i : S10RxIn) (hr : i.rst = false) (ha : s10Any c i = true) :
    s10Pend c (s10RxStep c F s i) = s10Row c i := by
  have e1 : (s10RxStep c F s i).iv = i.valid := by funext g; simp [s10RxStep, hr, ha]
  have e2 : (s10RxStep c F s i).iseg = i.seg := by simp [s10RxStep, ha]
  rw [s10Pend, e1, e2]; rfl

theorem s10_pend_stay (s : S10Rx St) (i : S10RxIn) (hr : i.rst = false) (ha : s10Any c i = false) (ht : s10Take c F s i = true) :
    s10Pend c (s10RxStep c F s i) = s10From (s10Stay c s i) (s10X c s i) 0 c.segs := by
  have e1 : (s10RxStep c F s i).iv = s10Stay c s i := by funext g; simp [s10RxStep, hr, ha, ht]
  have e2 : (s10RxStep c F s i).iseg = s.iseg := by simp [s10RxStep, ha]
  rw [s10Pend, e1, e2, s10From_range]
  refine s10From_congr 0 _ (fun _ _ => rfl) ?_
  intro k hk
  simp [s10X, show k < c.segs by omega]

theorem s10_pend_hold (s : S10Rx St) (i : S10RxIn) (hr : i.rst = false) (ha : s10Any c i = false) (ht : s10Take c F s i = false) :
    s10Pend c (s10RxStep c F s i) = s10Pend c s := by
  have e1 : (s10RxStep c F s i).iv = s.iv := by funext g; simp [s10RxStep, hr, ha, ht]
  have e2 : (s10RxStep c F s i).iseg = s.iseg := by simp [s10RxStep, ha]
  rw [s10Pend, e1, e2]; rfl

theorem s10_any_iff (i : S10RxIn) : s10Any c i = true ↔ ∃ g, g < c.segs ∧ i.valid g = true := by
  unfold s10Any
  rw [List.any_eq_true]
  constructor
  · rintro ⟨g, h1, h2⟩; exact ⟨g, List.mem_range.mp h1, h2⟩
  · rintro ⟨g, h1, h2⟩; exact ⟨g, List.mem_range.mpr h1, h2⟩

/-- Whether a TLP is unfinished after a row. -/
def s10Open (o : Bool) (i : S10RxIn) : Bool :=
  if s10Any c i then i.valid (c.segs - 1) && !(i.seg (c.segs - 1)).eop else o

theorem s10_nogap_cons (o : Bool) (i : S10RxIn) (is : List S10RxIn) (h : S10NoGap c o (i :: is)) :
    S10Cont c o i ∧ S10NoGap c (s10Open c o i) is ∧
      (s10Any c i = true → ∀ g, g + 1 < c.segs → i.valid g = true → (i.seg g).eop = false → i.valid (g + 1) = true) := by
  rw [S10NoGap] at h
  by_cases ha : ∃ g, g < c.segs ∧ i.valid g = true
  · rw [if_pos ha] at h
    have ha' := (s10_any_iff c i).mpr ha
    refine ⟨fun _ => h.1, ?_, fun _ => h.2.1⟩
    simp only [s10Open, ha', if_true]
    exact h.2.2
  · rw [if_neg ha] at h
    have ha' : s10Any c i = false := by
      rw [← Bool.not_eq_true]; exact fun h => ha ((s10_any_iff c i).mp h)
    refine ⟨fun h => ?_, ?_, fun h => ?_⟩
    · rw [ha'] at h; cases h
    · simpa [s10Open, ha'] using h
    · rw [ha'] at h; cases h

theorem s10_gap_step {s : S10Rx St} {o : Bool} (hg : S10Gap c s o) (i : S10RxIn) (hr : i.rst = false)
    (hn : s10Any c i = true → ∀ g, g + 1 < c.segs → i.valid g = true → (i.seg g).eop = false → i.valid (g + 1) = true) :
    S10Gap c (s10RxStep c F s i) (s10Open c o i) := by
  cases ha : s10Any c i with
  | true =>
    have e1 : (s10RxStep c F s i).iv = i.valid := by funext g; simp [s10RxStep, hr, ha]
    have e2 : (s10RxStep c F s i).iseg = i.seg := by simp [s10RxStep, ha]
    constructor
    · rw [e1, e2]; exact hn ha
    · rw [e1, e2]
      intro _ h1 h2
      simp [s10Open, ha, h1, h2]
  | false =>
    have e2 : (s10RxStep c F s i).iseg = s.iseg := by simp [s10RxStep, ha]
    have eo : s10Open c o i = o := by simp [s10Open, ha]
    rw [eo]
    cases ht : s10Take c F s i with
    | false =>
      have e1 : (s10RxStep c F s i).iv = s.iv := by funext g; simp [s10RxStep, hr, ha, ht]
      constructor
      · rw [e1, e2]; exact hg.next
      · rw [e1, e2]; exact hg.last
    | true =>
      have e1 : (s10RxStep c F s i).iv = s10Stay c s i := by funext g; simp [s10RxStep, hr, ha, ht]
      constructor
      · rw [e1, e2]
        intro g h1 h2 h3
        simp only [s10Stay, Bool.and_eq_true, Bool.not_eq_true'] at h2
        have h4 := hg.next g h1 (by have := h2.1.1; simpa [s10V, show g < c.segs by omega] using this) h3
        have h5 := h2.2
        simp [s10V, h1, h4] at h5
      · rw [e1, e2]
        intro h0 h2 h3
        simp only [s10Stay, Bool.and_eq_true, Bool.not_eq_true'] at h2
        exact hg.last h0 (by have := h2.1.1; simpa [s10V, show c.segs - 1 < c.segs by omega] using this) h3


theorem s10_step_dw (s : S10Rx St) (i : S10RxIn) : (s10RxStep c F s i).dw4 = if s10Take c F s i then s10Dw c s i c.segs else s.dw4 := rfl

theorem s10_dw_all (s : S10Rx St) (i : S10RxIn) : s10Dw c s i c.segs = s10After s.dw4 (s10Pend c s) := by
  have h := s10Dw_from c s i c.segs 0
  rw [Nat.zero_add] at h
  rw [h, ← s10Pend_from]
  rfl

/-- The state of the header decoder covers all that has been sent. -/
theorem s10_after_step {s : S10Rx St} {o : Bool} (hg : S10Gap c s o) (i : S10RxIn) (hr : i.rst = false)
    (hov : s10Take c F s i = true ∨ s10Pend c s = [] ∨ s10Any c i = false) :
    s10After (s10RxStep c F s i).dw4 (s10Pend c (s10RxStep c F s i)) = s10After s.dw4 (s10Pend c s ++ s10Row c i) := by
  rw [s10After_append, s10_step_dw]
  cases ht : s10Take c F s i with
  | true =>
    rw [if_pos rfl, s10_dw_all]
    cases ha : s10Any c i with
    | true => rw [s10_pend_any c F s i hr ha]
    | false =>
      rw [s10_pend_stay c F s i hr ha ht, s10_row_nil c i ha]
      rcases s10_stay c hg i c.segs 0 (by omega) with h | ⟨h, hv, -, h0⟩
      · rw [h]
      · rw [h, ← s10_dw_all c s i]
        have hd : s10Dw c s i c.segs = s10D (s10Dw c s i (c.segs - 1)) (s10X c s i (c.segs - 1)) := by
          have := s10Dw_succ c s i (c.segs - 1)
          rw [Nat.sub_add_cancel (by omega), hv, if_pos rfl] at this
          exact this
        show s10D (s10Dw c s i c.segs) (s10X c s i (c.segs - 1)) = s10Dw c s i c.segs
        rw [hd]
        cases hs : (s10X c s i (c.segs - 1)).sop <;> simp [s10D, hs]
  | false =>
    rw [if_neg (by simp)]
    rcases hov with h | h | ha
    · rw [ht] at h; cases h
    · cases ha : s10Any c i with
      | true => rw [s10_pend_any c F s i hr ha, h]; rfl
      | false => rw [s10_pend_hold c F s i hr ha ht, h, s10_row_nil c i ha]; rfl
    · rw [s10_pend_hold c F s i hr ha ht, s10_row_nil c i ha]; rfl

theorem s10_step_outs {s : S10Rx St} {o : Bool} (hg : S10Gap c s o) (i : S10RxIn) (hr : i.rst = false) (hc : S10Cont c o i)
    (hov : s10Take c F s i = true ∨ s10Pend c s = [] ∨ s10Any c i = false) (fut : List S10Seg) :
    (if s10Take c F s i then rxgRow ⟨c.segs⟩ (s10RowOf c s i) else []) ++
        s10Outs c (s10RxStep c F s i).dw4 (s10Pend c (s10RxStep c F s i) ++ fut) =
      s10Outs c s.dw4 (s10Pend c s ++ (s10Row c i ++ fut)) := by
  rw [s10_step_dw]
  cases ht : s10Take c F s i with
  | true =>
    have h := s10_row c hg i hc fut c.segs 0 (by omega)
    rw [← s10Pend_from] at h
    have h' : s10Outs c s.dw4 (s10Pend c s ++ (s10Row c i ++ fut)) = _ := h
    rw [if_pos rfl, if_pos rfl, h', rxgRow, s10From_range]
    congr 2
    cases ha : s10Any c i with
    | true => rw [s10_pend_any c F s i hr ha, if_pos rfl]
    | false => rw [s10_pend_stay c F s i hr ha ht, if_neg (by simp)]
  | false =>
    rw [if_neg (by simp), if_neg (by simp), List.nil_append]
    rcases hov with h | h | ha
    · rw [ht] at h; cases h
    · cases ha : s10Any c i with
      | true => rw [s10_pend_any c F s i hr ha, h, List.nil_append]
      | false => rw [s10_pend_hold c F s i hr ha ht, s10_row_nil c i ha, List.nil_append]
    · rw [s10_pend_hold c F s i hr ha ht, s10_row_nil c i ha, List.nil_append]

theorem s10_sent_cons (i : S10RxIn) (is : List S10RxIn) : s10Sent c (i :: is) = s10Row c i ++ s10Sent c is := by
  simp [s10Sent]

theorem s10_sent_append (a b : List S10RxIn) : s10Sent c (a ++ b) = s10Sent c a ++ s10Sent c b := by
  simp [s10Sent]

/-- What was loaded into the register, and what will be made of the segments that wait: what was sent. -/
theorem s10_ledger (is : List S10RxIn) (s : S10Rx St) (o : Bool) (hg : S10Gap c s o) (hi : ∀ i ∈ is, i.rst = false)
    (hn : S10NoGap c o is) (hov : S10NoOver c F s is) (fut : List S10Seg) :
    rxgKept ⟨c.segs⟩ F (s10Core s) (s10Rows c F s is) ++ s10Outs c (s10RxRun c F s is).dw4 (s10Pend c (s10RxRun c F s is) ++ fut) =
      s10Outs c s.dw4 (s10Pend c s ++ (s10Sent c is ++ fut)) ∧
    s10After (s10RxRun c F s is).dw4 (s10Pend c (s10RxRun c F s is)) = s10After s.dw4 (s10Pend c s ++ s10Sent c is) := by
  induction is generalizing s o with
  | nil => exact ⟨rfl, by simp [s10Sent, s10RxRun]⟩
  | cons i is ih =>
    obtain ⟨h1, h2, h3⟩ := s10_nogap_cons c o i is hn
    have hr := hi i (by simp)
    obtain ⟨a, b⟩ := ih (s10RxStep c F s i) (s10Open c o i) (s10_gap_step c F hg i hr h3) (fun j h => hi j (by simp [h])) h2 hov.2
    have e := s10_step_outs c F hg i hr h1 hov.1 (s10Sent c is ++ fut)
    refine ⟨?_, ?_⟩
    · rw [s10RxRun, s10Rows, rxgKept, s10_take_core, ← s10_step_core, List.append_assoc, a, e, s10_sent_cons, List.append_assoc]
    · rw [s10RxRun, b, s10After_append, s10_after_step c F hg i hr hov.1, s10_sent_cons, ← s10After_append, List.append_assoc]

/-! ### The view -/

theorem rxLook_keeps : KeepsView rxLook := by
  intro x
  cases hs : x.sop <;> simp [rxLook, rxView, hs]

theorem s10_says (s : S10Rx St) (i : S10RxIn) (g : Nat) (old : TlpSeg) (hv : s10Emit c s i g = true)
    (he : (s10X c s i g).eop = true → (s10X c s i g).empty < 8) :
    rxLook (s10Load c s i g old) = (s10RowOf c s i).says g ∧ (s10Load c s i g old).seq = 0 ∧ (s10Load c s i g old).err = 0 := by
  simp only [s10Emit, Bool.and_eq_true] at hv
  obtain ⟨h1, h2⟩ := hv
  rw [s10Load, if_pos h1]
  refine ⟨?_, rfl, rfl⟩
  simp only [s10RowOf]
  cases hx : (s10X c s i g).eop with
  | true =>
    rw [hx, if_pos rfl] at h2
    rw [if_pos rfl, s10Fin_eq c _ _ hx (he hx) h2, s10Fin_any c _ _ _ _ _ hx (he hx) h2]
  | false =>
    rw [hx, if_neg (by simp)] at h2
    rw [if_neg (by simp), h2, rxLook_word]
    rfl

theorem s10_view (is : List S10RxIn) (s : S10Rx St) (o : Bool) (hg : S10Gap c s o) (hi : ∀ i ∈ is, i.rst = false)
    (hn : S10NoGap c o is) (hov : S10NoOver c F s is) (he : ∀ x ∈ s10Pend c s ++ s10Sent c is, x.eop = true → x.empty < 8) :
    RxgView ⟨c.segs⟩ rxLook id (s10Rows c F s is) := by
  refine ⟨rxLook_keeps, fun x => by simp, ?_⟩
  induction is generalizing s o with
  | nil => intro i h; cases h
  | cons i is ih =>
    obtain ⟨h1, h2, h3⟩ := s10_nogap_cons c o i is hn
    have hr := hi i (by simp)
    intro j hj g hgs old hv
    have hgs : g < c.segs := hgs
    rcases List.mem_cons.mp hj with rfl | hj
    · refine s10_says c s i g old hv ?_
      refine he _ (List.mem_append_left _ ?_)
      rw [s10Pend_from c s i, ← s10From_range]
      refine List.mem_map_of_mem (List.mem_filter.mpr ⟨List.mem_range.mpr hgs, ?_⟩)
      have : s10Emit c s i g = true := hv
      simp only [s10Emit, Bool.and_eq_true] at this
      exact this.1
    · refine ih (s10RxStep c F s i) (s10Open c o i) (s10_gap_step c F hg i hr h3) (fun j h => hi j (by simp [h])) h2 hov.2 ?_ j hj g hgs old hv
      intro x hx
      refine he x ?_
      rw [s10_sent_cons]
      rcases List.mem_append.mp hx with hx | hx
      · cases ha : s10Any c i with
        | true =>
          rw [s10_pend_any c F s i hr ha] at hx
          exact List.mem_append_right _ (List.mem_append_left _ hx)
        | false =>
          refine List.mem_append_left _ ?_
          cases ht : s10Take c F s i with
          | false => rw [s10_pend_hold c F s i hr ha ht] at hx; exact hx
          | true =>
            rw [s10_pend_stay c F s i hr ha ht, ← s10From_range] at hx
            rw [s10Pend_from c s i, ← s10From_range]
            obtain ⟨g, hg, rfl⟩ := List.mem_map.mp hx
            obtain ⟨g1, g2⟩ := List.mem_filter.mp hg
            refine List.mem_map_of_mem (List.mem_filter.mpr ⟨g1, ?_⟩)
            simp only [s10Stay, Bool.and_eq_true] at g2
            exact g2.1.1
      · exact List.mem_append_right _ (List.mem_append_right _ hx)

end

/-! ### Parsing rows -/

theorem segPart_prefix {a b : List TlpSeg} (h : SegPart (a ++ b)) : SegPart a := by
  intro k hk
  have := h k (by rw [List.length_append]; omega)
  rwa [List.getElem_append_left hk] at this

theorem segPart_of_tlp {a b : List TlpSeg} (h : SegTlp (a ++ b)) (hb : b ≠ []) : SegPart a := by
  intro k hk
  have hl := List.length_pos_iff.mpr hb
  have := h.2 k (by rw [List.length_append]; omega)
  rw [List.getElem_append_left hk, List.length_append] at this
  refine ⟨this.1, ?_⟩
  cases he : a[k].eop with
  | false => rfl
  | true => have := this.2.mp he; omega

/-- A beginning of a sequence of TLPs consists of whole TLPs and the beginning of another one. -/
theorem rx_parse (A R : List TlpSeg) (ts : List (List TlpSeg)) (u : List TlpSeg) (h : A ++ R = ts.flatten ++ u)
    (ht : ∀ t ∈ ts, SegTlp t) (hu : SegPart u) :
    ∃ ts' u', A = ts'.flatten ++ u' ∧ ts' <+: ts ∧ SegPart u' ∧
      ∀ n, (∀ t ∈ ts, t.length ≤ n) → u.length < n → u'.length < n := by
  induction ts generalizing A with
  | nil =>
    have h : A ++ R = u := h
    subst h
    refine ⟨[], A, rfl, List.nil_prefix, segPart_prefix hu, ?_⟩
    intro n _ hn
    rw [List.length_append] at hn
    omega
  | cons t ts ih =>
    rw [List.flatten_cons, List.append_assoc] at h
    have hp : ∀ t' ∈ ts, SegTlp t' := fun t' h => ht t' (by simp [h])
    rcases List.append_eq_append_iff.mp h with ⟨b, hb, hR⟩ | ⟨b, hb, hR⟩
    · -- the first TLP is not complete, or just so
      by_cases hbn : b = []
      · subst hbn
        rw [List.append_nil] at hb
        refine ⟨[t], [], by simp [hb], ⟨ts, rfl⟩, fun k hk => by simp at hk, ?_⟩
        intro n _ hn
        simp only [List.length_nil]
        omega
      · refine ⟨[], A, rfl, List.nil_prefix, segPart_of_tlp (hb ▸ ht t (by simp)) hbn, ?_⟩
        intro n hn _
        have h1 := hn t (by simp)
        have hl := List.length_pos_iff.mpr hbn
        rw [hb, List.length_append] at h1
        omega
    · obtain ⟨ts', u', h1, h2, h3, h4⟩ := ih b hR.symm hp
      refine ⟨t :: ts', u', by rw [hb, h1]; simp, List.cons_prefix_cons.mpr ⟨rfl, h2⟩, h3, ?_⟩
      intro n hn hun
      exact h4 n (fun t' h => hn t' (by simp [h])) hun

theorem rx_eop_first {t : List TlpSeg} (ht : SegTlp t) (k : Nat) (hk : k < t.length) (he : t[k].eop = true) : k + 1 = t.length :=
  (ht.2 k hk).2.mp he

/-- There is only one way to read a sequence of TLPs. -/
theorem rx_unique (A B : List (List TlpSeg)) (Q u : List TlpSeg) (h : A.flatten ++ Q = B.flatten ++ u) (hA : ∀ t ∈ A, SegTlp t)
    (hB : ∀ t ∈ B, SegTlp t) (hu : SegPart u) : A <+: B := by
  induction A generalizing B with
  | nil => exact List.nil_prefix
  | cons t A ih =>
    have ht := hA t (by simp)
    have hl := List.length_pos_iff.mpr ht.1
    have hlast : t[t.length - 1].eop = true := (ht.2 _ (by omega)).2.mpr (by omega)
    have hget : (B.flatten ++ u)[t.length - 1]? = some t[t.length - 1] := by
      rw [← h, List.flatten_cons, List.append_assoc, List.getElem?_append_left (by omega), List.getElem?_eq_getElem (by omega)]
    cases B with
    | nil =>
      exfalso
      have hget : u[t.length - 1]? = some t[t.length - 1] := hget
      obtain ⟨hk, he⟩ := List.getElem?_eq_some_iff.mp hget
      have := (hu _ hk).2
      rw [he, hlast] at this
      cases this
    | cons t' B =>
      have ht' := hB t' (by simp)
      have hl' := List.length_pos_iff.mpr ht'.1
      have hlast' : t'[t'.length - 1].eop = true := (ht'.2 _ (by omega)).2.mpr (by omega)
      rw [List.flatten_cons, List.flatten_cons, List.append_assoc, List.append_assoc] at h
      have hlen : t.length = t'.length := by
        rcases Nat.lt_trichotomy t.length t'.length with hlt | heq | hgt
        · exfalso
          have e : t'[t.length - 1]'(by omega) = t[t.length - 1] := by
            have h1 := congrArg (fun l => l[t.length - 1]?) h
            simp only [List.getElem?_append_left (show t.length - 1 < t.length by omega), List.getElem?_append_left (show t.length - 1 < t'.length by omega),
              List.getElem?_eq_getElem (show t.length - 1 < t.length by omega), List.getElem?_eq_getElem (show t.length - 1 < t'.length by omega), Option.some.injEq] at h1
            exact h1.symm
          have := rx_eop_first ht' _ _ (e ▸ hlast)
          omega
        · exact heq
        · exfalso
          have e : t[t'.length - 1]'(by omega) = t'[t'.length - 1] := by
            have h1 := congrArg (fun l => l[t'.length - 1]?) h
            simp only [List.getElem?_append_left (show t'.length - 1 < t.length by omega), List.getElem?_append_left (show t'.length - 1 < t'.length by omega),
              List.getElem?_eq_getElem (show t'.length - 1 < t.length by omega), List.getElem?_eq_getElem (show t'.length - 1 < t'.length by omega), Option.some.injEq] at h1
            exact h1
          have := rx_eop_first ht _ _ (e ▸ hlast')
          omega
      obtain ⟨e1, e2⟩ := List.append_inj h hlen
      subst e1
      exact List.cons_prefix_cons.mpr ⟨rfl, ih B e2 (fun t h => hA t (by simp [h])) (fun t h => hB t (by simp [h]))⟩

theorem rxTlpsFor_mono (p : Nat) {a b : List (List TlpSeg)} (h : a <+: b) : (rxTlpsFor p a).flatten <+: (rxTlpsFor p b).flatten := by
  obtain ⟨x, rfl⟩ := h
  rw [rxTlpsFor, rxTlpsFor, List.filter_append, List.flatten_append]
  exact List.prefix_append _ _

/-! ### The whole module -/

section main
variable {St : Type} {c : S10RxCfg} {F : TlpDev St} {shown : St → List TlpSeg} {U N D : Nat}

theorem s10_reset_pend (s : S10Rx St) (r : S10RxIn) (hr : r.rst = true) : s10Pend c (s10RxStep c F s r) = [] := by
  have e : (s10RxStep c F s r).iv = fun _ => false := by funext g; simp [s10RxStep, hr]
  rw [s10Pend, e]; simp

theorem s10_reset_gap (s : S10Rx St) (r : S10RxIn) (hr : r.rst = true) : S10Gap c (s10RxStep c F s r) false := by
  have e : (s10RxStep c F s r).iv = fun _ => false := by funext g; simp [s10RxStep, hr]
  constructor
  · intro g _ h; rw [e] at h; cases h
  · intro _ h; rw [e] at h; cases h

theorem s10_empty {ts : List (List S10Seg)} {u : List S10Seg} (ht : ∀ t ∈ ts, S10Tlp t) (hu : S10Part u) :
    ∀ x ∈ ts.flatten ++ u, x.eop = true → x.empty < 8 := by
  intro x hx he
  rcases List.mem_append.mp hx with hx | hx
  · obtain ⟨t, h1, h2⟩ := List.mem_flatten.mp hx
    obtain ⟨k, hk, rfl⟩ := List.getElem_of_mem h2
    exact ((ht t h1).2.1 k hk).2.2
  · obtain ⟨k, hk, rfl⟩ := List.getElem_of_mem hx
    rw [(hu k hk).2] at he; cases he

/-- The rows loaded after a reset: whole TLPs, as they must come out, and the beginning of another one. -/
theorem s10_kept (s : S10Rx St) (r : S10RxIn) (hr : r.rst = true) (is : List S10RxIn) (hi : ∀ i ∈ is, i.rst = false)
    (hn : S10NoGap c false is) (hov : S10NoOver c F (s10RxStep c F s r) is) (ts : List (List S10Seg)) (u : List S10Seg)
    (ht : ∀ t ∈ ts, S10Tlp t) (hu : S10Part u) (hs : s10Sent c is = ts.flatten ++ u) :
    ∃ ts' u', rxgKept ⟨c.segs⟩ F (s10Core (s10RxStep c F s r)) (s10Rows c F (s10RxStep c F s r) is) = ts'.flatten ++ u' ∧
      ts' <+: ts.map (s10TlpOut c) ∧ SegPart u' ∧
      ∀ n, (∀ t ∈ ts, (s10TlpOut c t).length ≤ n) → u.length < n → u'.length < n := by
  have h := (s10_ledger c F is (s10RxStep c F s r) false (s10_reset_gap s r hr) hi hn hov []).1
  rw [s10_reset_pend s r hr, List.nil_append, List.append_nil, hs, List.append_nil, s10Outs_tlps c _ ts u ht] at h
  have hp := s10Outs_part c (s10After (s10RxStep c F s r).dw4 ts.flatten) u hu
  obtain ⟨ts', u', h1, h2, h3, h4⟩ := rx_parse _ _ _ _ h (by
    intro t hm
    obtain ⟨t', -, rfl⟩ := List.mem_map.mp hm
    exact s10TlpOut_tlp c t') hp.1
  refine ⟨ts', u', h1, h2, h3, ?_⟩
  intro n hn' hun
  refine h4 n ?_ (by omega)
  intro t hm
  obtain ⟨t', hm', rfl⟩ := List.mem_map.mp hm
  exact hn' t' hm'

theorem s10_reset_view (s : S10Rx St) (r : S10RxIn) (hr : r.rst = true) (is : List S10RxIn) (hi : ∀ i ∈ is, i.rst = false)
    (hn : S10NoGap c false is) (hov : S10NoOver c F (s10RxStep c F s r) is) (ts : List (List S10Seg)) (u : List S10Seg)
    (ht : ∀ t ∈ ts, S10Tlp t) (hu : S10Part u) (hs : s10Sent c is = ts.flatten ++ u) :
    RxgView ⟨c.segs⟩ rxLook id (s10Rows c F (s10RxStep c F s r) is) := by
  refine s10_view c F is _ false (s10_reset_gap s r hr) hi hn hov ?_
  rw [s10_reset_pend s r hr, List.nil_append, hs]
  exact s10_empty ht hu

theorem s10_route (hF : TlpDevOk c.segs F shown U N D) (s : S10Rx St) (r : S10RxIn) (hr : r.rst = true) (is : List S10RxIn)
    (hi : ∀ i ∈ is, i.rst = false) (hn : S10NoGap c false is) (hov : S10NoOver c F (s10RxStep c F s r) is)
    (ts : List (List S10Seg)) (u : List S10Seg) (ht : ∀ t ∈ ts, S10Tlp t) (hu : S10Part u) (hs : s10Sent c is = ts.flatten ++ u)
    (p : Nat) (hp : p < 2) :
    (s10Taken c F shown p (s10RxStep c F s r) is ++ shown ((s10RxRun c F (s10RxStep c F s r) is).dx.fifo p)).map rxLook <+:
      (rxTlpsFor p (ts.map (s10TlpOut c))).flatten := by
  obtain ⟨ts', u', h1, h2, h3, -⟩ := s10_kept s r hr is hi hn hov ts u ht hu hs
  have hv := s10_reset_view s r hr is hi hn hov ts u ht hu hs
  have ht' : ∀ t ∈ ts', SegTlp t := by
    intro t hm
    obtain ⟨t', -, rfl⟩ := List.mem_map.mp (h2.subset hm)
    exact s10TlpOut_tlp c t'
  have h := rxg_route (c := ⟨c.segs⟩) hF (s10Core s) (s10RowOf c s r) hr (s10Rows c F (s10RxStep c F s r) is)
    (s10Rows_all c F (fun a _ => a = false) is _ hi) hv ts' u' ht' h3 h1 p hp
  rw [List.map_id] at h
  rw [s10_taken_core]
  have e : (s10RxRun c F (s10RxStep c F s r) is).dx = (rxgRun ⟨c.segs⟩ F (rxgStep ⟨c.segs⟩ F (s10Core s) (s10RowOf c s r)) (s10Rows c F (s10RxStep c F s r) is)).dx := by
    rw [← s10_step_core, ← s10_run_core]; rfl
  rw [e]
  exact h.trans (rxTlpsFor_mono p h2)

theorem s10_noover_iff (is : List S10RxIn) (s : S10Rx St) : S10NoOver c F s is ↔ S10Room c F s is := by
  induction is generalizing s with
  | nil => exact ⟨fun _ k h => by simp at h, fun _ => trivial⟩
  | cons i is ih =>
    rw [S10NoOver, ih]
    have hp : s10Pend c s = [] ↔ ∀ g, g < c.segs → s.iv g = false := by
      rw [s10Pend, List.map_eq_nil_iff, List.filter_eq_nil_iff]
      simp
    have ha : s10Any c i = false ↔ ¬ ∃ g, g < c.segs ∧ i.valid g = true := by rw [← s10_any_iff]; simp
    constructor
    · rintro ⟨h1, h2⟩ k hk hv
      cases k with
      | zero =>
        rcases h1 with h | h | h
        · exact Or.inr h
        · exact Or.inl (hp.mp h)
        · exact absurd hv (ha.mp h)
      | succ k => exact h2 k (by simpa using hk) hv
    · intro h
      refine ⟨?_, fun k hk hv => h (k + 1) (by simpa using hk) hv⟩
      by_cases hv : ∃ g, g < c.segs ∧ i.valid g = true
      · rcases h 0 (by simp) hv with h | h
        · exact Or.inr (Or.inl (hp.mpr h))
        · exact Or.inl h
      · exact Or.inr (Or.inr (ha.mpr hv))

theorem s10_nogap_prefix (a b : List S10RxIn) (o : Bool) (h : S10NoGap c o (a ++ b)) : S10NoGap c o a := by
  induction a generalizing o with
  | nil => trivial
  | cons i a ih =>
    rw [List.cons_append, S10NoGap] at h
    rw [S10NoGap]
    by_cases hv : ∃ g, g < c.segs ∧ i.valid g = true
    · rw [if_pos hv] at h ⊢
      exact ⟨h.1, h.2.1, ih _ h.2.2⟩
    · rw [if_neg hv] at h ⊢
      exact ih _ h

theorem s10_room_prefix (a b : List S10RxIn) (s : S10Rx St) (h : S10Room c F s (a ++ b)) : S10Room c F s a := by
  intro k hk hv
  have := h k (by rw [List.length_append]; omega)
  rw [List.getElem_append_left hk, List.take_append_of_le_length (by omega)] at this
  exact this hv

/-- With one segment per row there are no gaps. -/
theorem s10_nogap_one (hs : c.segs = 1) (is : List S10RxIn) (o : Bool) : S10NoGap c o is := by
  induction is generalizing o with
  | nil => trivial
  | cons i is ih =>
    rw [S10NoGap]
    by_cases hv : ∃ g, g < c.segs ∧ i.valid g = true
    · rw [if_pos hv]
      obtain ⟨g, hg, h⟩ := hv
      have : g = 0 := by omega
      subst this
      exact ⟨fun _ => h, fun g hg => by omega, ih _⟩
    · rw [if_neg hv]
      exact ih _

/-- If the source obeys the ready latency, no row is written over another one. -/
theorem s10_room (water : St → Bool) {L : Nat} (hF : DevMargin F water L) (s : S10Rx St) (r : S10RxIn) (hr : r.rst = true)
    (is : List S10RxIn) (hi : ∀ i ∈ is, i.rst = false) (ho : S10Obeys c F water L (s10RxStep c F s r) is) :
    S10Room c F (s10RxStep c F s r) is := by
  intro k hk hv
  obtain ⟨h1, h2⟩ := ho k hk hv
  cases ht : s10Take c F (s10RxRun c F (s10RxStep c F s r) (is.take k)) is[k] with
  | true => exact Or.inr rfl
  | false =>
    exfalso
    generalize hs0 : s10RxStep c F s r = s0 at *
    have hd0 : s0.dx = tdfStep c.tdm F s.dx (s10DxIn c s r) := by rw [← hs0]; rfl
    have hsplit : is.take (k - L) ++ (is.take k).drop (k - L) = is.take k := by
      have := List.take_append_drop (k - L) (is.take k)
      rwa [List.take_take, Nat.min_eq_left (by omega)] at this
    have dxr : ∀ l, (s10RxRun c F s0 l).dx = tdfRun c.tdm F s0.dx (rxgH ⟨c.segs⟩ F (s10Core s0) (s10Rows c F s0 l)) := by
      intro l
      have e : (s10RxRun c F s0 l).dx = (s10Core (s10RxRun c F s0 l)).dx := rfl
      rw [e, s10_run_core, rxgRun_dx]; rfl
    have hm : tdfReady c.tdm F (s10RxRun c F s0 (is.take k)).dx (s10DxIn c (s10RxRun c F s0 (is.take k)) is[k]) = false := ht
    rw [dxr, ← hsplit, s10Rows_append, rxgH_append, hd0] at hm
    obtain ⟨p, hp, hw⟩ := tdf_margin (c := c.tdm) hF s.dx (s10DxIn c s r) hr _ _
      (by
        rw [← rxgH_append, ← s10Rows_append, hsplit]
        exact rxgH_rst _ F _ _ (s10Rows_all c F (fun a _ => a = false) _ _ (fun j h => hi j (List.mem_of_mem_take h))))
      (by rw [rxgH_length, s10Rows_length, List.length_drop, List.length_take]; omega) _ rfl hm
    have hw : water ((s10RxRun c F s0 (is.take (k - L))).dx.fifo p) = true := by
      rw [dxr, hd0]; exact hw
    have hp : p < 2 := hp
    unfold s10RxReady at h2
    rcases (by omega : p = 0 ∨ p = 1) with rfl | rfl <;> rw [hw] at h2 <;> simp at h2

theorem s10_gap_run (b : List S10RxIn) (s : S10Rx St) (o : Bool) (hg : S10Gap c s o) (hn : S10NoGap c o b) (hi : ∀ j ∈ b, j.rst = false) :
    ∃ o, S10Gap c (s10RxRun c F s b) o := by
  induction b generalizing s o with
  | nil => exact ⟨o, hg⟩
  | cons j b ih =>
    obtain ⟨-, h2, h3⟩ := s10_nogap_cons c o j b hn
    exact ih (s10RxStep c F s j) (s10Open c o j) (s10_gap_step c F hg j (hi j (by simp)) h3) h2 (fun j h => hi j (by simp [h]))

/-- After a cycle in which the output register is loaded, all whole TLPs that were sent before have been loaded. -/
theorem s10_flush (s : S10Rx St) (r : S10RxIn) (hr : r.rst = true) (b : List S10RxIn) (i : S10RxIn)
    (hi : ∀ j ∈ b ++ [i], j.rst = false) (hn : S10NoGap c false (b ++ [i])) (hov : S10NoOver c F (s10RxStep c F s r) (b ++ [i]))
    (ts : List (List S10Seg)) (u : List S10Seg) (ht : ∀ t ∈ ts, S10Tlp t) (hs : s10Sent c b = ts.flatten ++ u)
    (hk : s10Take c F (s10RxRun c F (s10RxStep c F s r) b) i = true) :
    ∃ Q, rxgKept ⟨c.segs⟩ F (s10Core (s10RxStep c F s r)) (s10Rows c F (s10RxStep c F s r) (b ++ [i])) =
      (ts.map (s10TlpOut c)).flatten ++ Q := by
  have hg0 := s10_reset_gap (c := c) (F := F) s r hr
  have hp0 := s10_reset_pend (c := c) (F := F) s r hr
  generalize s10RxStep c F s r = s0 at *
  have hovb : S10NoOver c F s0 b := (s10_noover_iff _ _).mpr (s10_room_prefix b [i] s0 ((s10_noover_iff _ _).mp hov))
  have hnb := s10_nogap_prefix b [i] false hn
  have hib : ∀ j ∈ b, j.rst = false := fun j h => hi j (by simp [h])
  have h1 := (s10_ledger c F (b ++ [i]) s0 false hg0 hi hn hov []).1
  have h2 := (s10_ledger c F b s0 false hg0 hib hnb hovb []).2
  have hgb := s10_gap_run (F := F) b s0 false hg0 hnb hib
  obtain ⟨o, hgb⟩ := hgb
  have hri : i.rst = false := hi i (by simp)
  rw [hp0, List.nil_append, List.append_nil, s10_sent_append, hs, List.append_nil, List.append_assoc,
    s10Outs_tlps c _ ts _ ht, s10RxRun_append] at h1
  rw [hp0, List.nil_append, hs] at h2
  have e : s10Sent c [i] = s10Row c i := by simp [s10Sent]
  rw [e] at h1
  have hst : s10RxRun c F (s10RxRun c F s0 b) [i] = s10RxStep c F (s10RxRun c F s0 b) i := rfl
  rw [hst, s10_step_dw, if_pos hk, s10_dw_all, h2] at h1
  generalize s10RxRun c F s0 b = s1 at *
  cases ha : s10Any c i with
  | true =>
    rw [s10_pend_any c F s1 i hri ha] at h1
    have hne : s10Row c i ≠ [] := by
      intro h
      rw [s10Row, List.map_eq_nil_iff, List.filter_eq_nil_iff] at h
      obtain ⟨g, hg, hv⟩ := (s10_any_iff c i).mp ha
      exact h g (List.mem_range.mpr hg) hv
    obtain ⟨q, hq⟩ := s10Outs_append c u (s10Row c i) (s10After s0.dw4 ts.flatten) (Or.inl hne)
    rw [hq, ← s10After_append, ← List.append_assoc] at h1
    exact ⟨q, List.append_cancel_right h1⟩
  | false =>
    rw [s10_pend_stay c F s1 i hri ha hk] at h1
    have hz : ∀ d, s10Outs c d (s10From (s10Stay c s1 i) (s10X c s1 i) 0 c.segs) = [] := by
      intro d
      rcases s10_stay c hgb i c.segs 0 (by omega) with h | ⟨h, -, he, -⟩
      · rw [h]; rfl
      · rw [h, s10Outs_wait c d _ he]
    rw [hz, List.append_nil] at h1
    exact ⟨_, h1⟩

theorem s10_delivery (hF : TlpDevOk c.segs F shown U N D) (s : S10Rx St) (r : S10RxIn) (hr : r.rst = true) (is js : List S10RxIn)
    (hi : ∀ i ∈ is, i.rst = false) (hj : ∀ j ∈ js, j.rst = false ∧ ∀ p, p < 2 → j.ready p = true)
    (hn : S10NoGap c false (is ++ js)) (hov : S10NoOver c F (s10RxStep c F s r) (is ++ js))
    (ts vs : List (List S10Seg)) (u x : List S10Seg) (ht : ∀ t ∈ ts, S10Tlp t) (hs : s10Sent c is = ts.flatten ++ u)
    (hv : ∀ t ∈ vs, S10Tlp t ∧ (s10TlpOut c t).length ≤ U) (hx : S10Part x) (hxl : x.length < U)
    (hs' : s10Sent c (is ++ js) = vs.flatten ++ x) (hnn : 3 * N + 2 + D ≤ js.length) (p : Nat) (hp : p < 2) :
    (rxTlpsFor p (ts.map (s10TlpOut c))).flatten <+: (s10Taken c F shown p (s10RxStep c F s r) (is ++ js)).map rxLook := by
  have hij : ∀ i ∈ is ++ js, i.rst = false := by
    intro i h
    rcases List.mem_append.mp h with h | h
    · exact hi i h
    · exact (hj i h).1
  have hview := s10_reset_view s r hr (is ++ js) hij hn hov vs x (fun t h => (hv t h).1) hx hs'
  obtain ⟨vs', x', hK, hvp, hx', hlen⟩ := s10_kept s r hr (is ++ js) hij hn hov vs x (fun t h => (hv t h).1) hx hs'
  have hxl' : x'.length < U := hlen U (fun t h => (hv t h).2) hxl
  have hv' : ∀ t ∈ vs', SegTlp t ∧ t.length ≤ U := by
    intro t h
    obtain ⟨t', hm, rfl⟩ := List.mem_map.mp (hvp.subset h)
    exact ⟨s10TlpOut_tlp c t', (hv t' hm).2⟩
  have hrow : ∀ l : List S10RxIn, ∀ q, (∀ j ∈ l, j.rst = false ∧ ∀ p, p < 2 → j.ready p = true) →
      ∀ j ∈ s10Rows c F q l, j.rst = false ∧ ∀ p, p < 2 → j.ready p = true :=
    fun l q h => s10Rows_all c F (fun a b => a = false ∧ ∀ p, p < 2 → b p = true) l q h
  -- what is loaded at any moment
  have hpre : ∀ a b, a ++ b = is ++ js → ∃ (ws : List (List TlpSeg)) (z : List TlpSeg), rxgKept ⟨c.segs⟩ F (s10Core (s10RxStep c F s r)) (s10Rows c F (s10RxStep c F s r) a) =
      ws.flatten ++ z ∧ (∀ t ∈ ws, SegTlp t ∧ t.length ≤ U) ∧ SegPart z ∧ z.length < U := by
    intro a b hab
    have h := hK
    rw [← hab, s10Rows_append, rxgKept_append] at h
    obtain ⟨ws, z, h1, h2, h3, h4⟩ := rx_parse _ _ _ _ h (fun t h => (hv' t h).1) hx'
    exact ⟨ws, z, h1, fun t h => hv' t (h2.subset h), h3, h4 U (fun t h => (hv' t h).2) hxl'⟩
  generalize hs0 : s10RxStep c F s r = s0 at *
  have hc0 : s10Core s0 = rxgStep ⟨c.segs⟩ F (s10Core s) (s10RowOf c s r) := by rw [← hs0, s10_step_core]
  -- the register is loaded soon
  obtain ⟨ws, z, g1, g2, g3, g4⟩ := hpre is js rfl
  have hvi : RxgView ⟨c.segs⟩ rxLook id (s10Rows c F s0 is) := by
    refine ⟨hview.1, hview.2.1, fun i h => hview.2.2 i ?_⟩
    rw [s10Rows_append]
    exact List.mem_append_left _ h
  rw [hc0] at g1
  obtain ⟨k, hk, htake⟩ := rxg_progress (c := ⟨c.segs⟩) hF (s10Core s) (s10RowOf c s r) hr (s10Rows c F s0 is)
    (s10Rows c F (s10RxRun c F s0 is) js) (s10Rows_all c F (fun a _ => a = false) is _ hi) (hrow _ _ hj) hvi ws z g2 g3 g4 g1
    (by rw [s10Rows_length]; omega)
  have hkl : k < js.length := by omega
  rw [s10Rows_get c F js _ k hkl, ← s10Rows_take, ← s10Rows_append, ← hc0, ← s10_run_core, ← s10RxRun_append, s10_take_core] at htake
  have hjk : js.take k ++ [js[k]] = js.take (k + 1) := by rw [List.take_add_one, List.getElem?_eq_getElem hkl]; rfl
  have hsplit : (is ++ js.take k ++ [js[k]]) ++ js.drop (k + 1) = is ++ js := by
    rw [List.append_assoc is, hjk, List.append_assoc, List.take_append_drop]
  generalize hA : is ++ js.take k ++ [js[k]] = A at *
  -- then all the TLPs are in
  have hAi : ∀ j ∈ A, j.rst = false := fun j h => hij j (by rw [← hsplit]; exact List.mem_append_left _ h)
  obtain ⟨Q, hQ⟩ := s10_flush (c := c) (F := F) s r hr (is ++ js.take k) js[k] (by rw [hA]; exact hAi)
    (by rw [hA]; exact s10_nogap_prefix A (js.drop (k + 1)) false (by rw [hsplit]; exact hn))
    (by
      rw [hA, hs0]
      refine (s10_noover_iff _ _).mpr (s10_room_prefix A (js.drop (k + 1)) s0 ((s10_noover_iff _ _).mp ?_))
      rw [hsplit]; exact hov)
    ts (u ++ s10Sent c (js.take k)) ht (by rw [s10_sent_append, hs, List.append_assoc]) (by rw [hs0]; exact htake)
  rw [hA, hs0] at hQ
  obtain ⟨ys, y, y1, y2, y3, -⟩ := hpre A (js.drop (k + 1)) hsplit
  have hpx : ts.map (s10TlpOut c) <+: ys := by
    refine rx_unique _ _ Q y (hQ.symm.trans y1) ?_ (fun t h => (y2 t h).1) y3
    intro t h
    obtain ⟨t', -, rfl⟩ := List.mem_map.mp h
    exact s10TlpOut_tlp c t'
  have hd := rxg_delivery (c := ⟨c.segs⟩) hF (s10Core s) (s10RowOf c s r) hr (s10Rows c F s0 A)
    (s10Rows c F (s10RxRun c F s0 A) (js.drop (k + 1))) (s10Rows_all c F (fun a _ => a = false) A _ hAi)
    (hrow _ _ (fun j h => hj j (List.mem_of_mem_drop h)))
    (by rw [← s10Rows_append, hsplit]; exact hview) ys vs' y x' y2 y3 (by rw [← hc0]; exact y1) hv' hx' hxl'
    (by rw [← s10Rows_append, hsplit, ← hc0]; exact hK) (by rw [s10Rows_length, List.length_drop]; omega) p hp
  rw [← s10Rows_append, hsplit, ← hc0, ← s10_taken_core, List.map_id] at hd
  exact (rxTlpsFor_mono p hpx).trans hd

end main

end Verif.Proofs
