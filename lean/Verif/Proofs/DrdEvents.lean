import Verif.Proofs.DrdCoreRun
/-! Which events complete a descriptor. -/
namespace Verif.Proofs
open Verif Verif.Model Verif.Spec

/-- The number of requests outstanding for descriptor `m`. -/
def outN (l : List RdReq) (m : Nat) : Nat := l.countP (·.num == m)

/-- The number of requests finished for descriptor `m`. -/
def finN (l : List RdEvent) (m : Nat) : Nat := l.countP fun v => v.finish && v.num == m

/-- The descriptor has not been requested completely. -/
def todoN (f : RdEnv) (m : Nat) : Bool := f.todo.any (·.num == m)

/-- Events and requests. -/
structure EvInv (f : RdEnv) : Prop where
  evlt : ∀ v ∈ f.evs, v.num < f.count
  todolt : ∀ t ∈ f.todo, t.num < f.count
  outlt : ∀ r ∈ f.out, r.num < f.count
  dec : ∀ a v b, f.evs = a ++ v :: b → (v.status.isSome = true ↔
    v.finish = true ∧ todoN f v.num = false ∧ outN f.out v.num = 0 ∧ finN b v.num = 0)
  later : ∀ a v b, f.evs = a ++ v :: b → v.status.isSome = true → ∀ w ∈ b, w.num ≠ v.num
  live : ∀ m < f.count, todoN f m = true ∨ 0 < outN f.out m + finN f.evs m
  err : ∀ a v b x, f.evs = a ++ v :: b → v.status = some x → x.2 = rdError (a ++ [v]) v.num
  fresh : ∀ t ∈ f.todo, t.off = 0 → outN f.out t.num = 0 ∧ ∀ v ∈ f.evs, v.num ≠ t.num

theorem snoc_split {α : Type} {l a b : List α} {x y : α} (h : l ++ [x] = a ++ y :: b) :
    (b = [] ∧ l = a ∧ y = x) ∨ ∃ b', b = b' ++ [x] ∧ l = a ++ y :: b' := by
  rcases List.eq_nil_or_concat b with hb | ⟨b', z, hb⟩
  · left
    subst hb
    have := List.append_inj' h rfl
    simp only [List.cons.injEq, and_true] at this
    exact ⟨rfl, this.1, this.2.symm⟩
  · right
    rw [List.concat_eq_append] at hb
    subst hb
    rw [← List.cons_append, ← List.append_assoc] at h
    have := List.append_inj' h rfl
    simp only [List.cons.injEq, and_true] at this
    exact ⟨b', by rw [this.2], this.1⟩

theorem outN_append (a b : List RdReq) (m : Nat) : outN (a ++ b) m = outN a m + outN b m := List.countP_append

theorem finN_append (a b : List RdEvent) (m : Nat) : finN (a ++ b) m = finN a m + finN b m := List.countP_append

theorem outN_cons (r : RdReq) (l : List RdReq) (m : Nat) : outN (r :: l) m = (r.num == m).toNat + outN l m := by
  unfold outN; rw [List.countP_cons]; cases r.num == m <;> simp [Nat.add_comm]

theorem finN_cons (v : RdEvent) (l : List RdEvent) (m : Nat) : finN (v :: l) m = (v.finish && v.num == m).toNat + finN l m := by
  unfold finN; rw [List.countP_cons]; cases v.finish && v.num == m <;> simp [Nat.add_comm]

theorem outN_zero {l : List RdReq} {m : Nat} : outN l m = 0 ↔ ∀ r ∈ l, r.num ≠ m := by
  unfold outN; rw [List.countP_eq_zero]; simp

theorem outN_any {l : List RdReq} {m : Nat} : (!l.any (·.num == m)) = true ↔ outN l m = 0 := by
  rw [outN_zero]; simp

/-- The number of requests outstanding or finished does not change. -/
theorem beat_num {f f1 : RdEnv} (h : BeatOut f f1) (m : Nat) : outN f1.out m + finN f1.evs m = outN f.out m + finN f.evs m := by
  rcases h with ⟨h1, -, h3⟩ | ⟨l1, l2, r, v, h⟩
  · rw [h1, h3]
  · rw [h.evs, h.out, finN_append, outN_append, outN_cons, finN_cons, h.num]
    have e0 : finN [] m = 0 := rfl
    cases hf : v.finish with
    | true =>
      rw [(h.fin hf).1, outN_append]
      simp only [Bool.true_and]
      omega
    | false =>
      obtain ⟨-, r', h4, h5⟩ := h.more hf
      rw [h4, outN_append, outN_cons, h5.num]
      simp only [Bool.false_and, Bool.toNat_false]
      omega

theorem beat_evs {f f1 : RdEnv} (h : BeatOut f f1) : ∃ E, f1.evs = f.evs ++ E ∧
    ∀ m, outN f1.out m + finN E m = outN f.out m := by
  have key : ∃ E, f1.evs = f.evs ++ E := by
    rcases h with ⟨-, -, h3⟩ | ⟨l1, l2, r, v, h⟩
    · exact ⟨[], by simp [h3]⟩
    · exact ⟨_, h.evs⟩
  obtain ⟨E, hE⟩ := key
  refine ⟨E, hE, fun m => ?_⟩
  have := beat_num h m
  rw [hE, finN_append] at this
  omega

theorem evInv_beat {f f1 : RdEnv} (h : EvInv f) (hb : BeatOut f f1) (ht : f1.todo = f.todo) (hc : f1.count = f.count) : EvInv f1 := by
  have hT : ∀ m, todoN f1 m = todoN f m := fun m => by unfold todoN; rw [ht]
  have hN := beat_num hb
  have hle : ∀ m, outN f1.out m ≤ outN f.out m := fun m => by
    obtain ⟨E, -, h2⟩ := beat_evs hb
    have := h2 m; omega
  rcases hb with ⟨h1, -, h3⟩ | ⟨l1, l2, r, v, hb⟩
  · exact ⟨by rw [h3, hc]; exact h.evlt, by rw [ht, hc]; exact h.todolt, by rw [h1, hc]; exact h.outlt, by
      intro a v b he; rw [h3] at he; rw [hT, h1]; exact h.dec a v b he, by rw [h3]; exact h.later, by
      intro m hm; rw [hc] at hm; rw [hT, h1, h3]; exact h.live m hm, by rw [h3]; exact h.err, by
      rw [ht, h1, h3]; exact h.fresh⟩
  · have hr : r ∈ f.out := by rw [hb.out]; simp
    have hpos : 0 < outN f.out r.num := by
      rw [hb.out, outN_append, outN_cons]; simp; omega
    have hst : v.status.isSome = true ↔ v.finish = true ∧ todoN f r.num = false ∧ outN f1.out r.num = 0 := by
      rw [hb.status]
      unfold todoN
      rw [← outN_any]
      cases v.finish <;> cases f.todo.any (·.num == r.num) <;> cases f1.out.any (·.num == r.num) <;> simp
    have hO : ∀ m, outN f1.out m + (v.finish && v.num == m).toNat = outN f.out m := by
      intro m
      have := hN m
      rw [hb.evs, finN_append, finN_cons] at this
      have e0 : finN [] m = 0 := rfl
      omega
    have hold : ∀ a v' b', f.evs = a ++ v' :: b' → v'.status.isSome = true → v'.num ≠ r.num := by
      intro a v' b' he hs heq
      have := ((h.dec a v' b' he).1 hs).2.2.1
      rw [heq] at this; omega
    refine ⟨?_, by rw [ht, hc]; exact h.todolt, ?_, ?_, ?_, ?_, ?_, ?_⟩
    · rw [hb.evs, hc]
      intro x hx
      rw [List.mem_append, List.mem_singleton] at hx
      rcases hx with hx | hx
      · exact h.evlt x hx
      · rw [hx, hb.num]; exact h.outlt r hr
    · rw [hc]
      intro x hx
      cases hf : v.finish with
      | true =>
        rw [(hb.fin hf).1] at hx
        refine h.outlt x ?_
        rw [hb.out]; simp only [List.mem_append, List.mem_cons] at hx ⊢; rcases hx with hx | hx <;> simp [hx]
      | false =>
        obtain ⟨-, r', h4, h5⟩ := hb.more hf
        rw [h4] at hx
        simp only [List.mem_append, List.mem_cons] at hx
        rcases hx with hx | hx | hx
        · exact h.outlt x (by rw [hb.out]; simp [hx])
        · rw [hx, h5.num]; exact h.outlt r hr
        · exact h.outlt x (by rw [hb.out]; simp [hx])
    · intro a v' b he
      rw [hb.evs] at he
      rw [hT]
      rcases snoc_split he with ⟨hb0, ha, hv⟩ | ⟨b', hb', hl⟩
      · rw [hb0, hv, hb.num, hst]
        have : finN [] r.num = 0 := rfl
        simp [this]
      · rw [h.dec a v' b' hl, hb', finN_append]
        have h1 := hO v'.num
        have e1 : finN [v] v'.num = (v.finish && v.num == v'.num).toNat := by
          rw [finN_cons]; rfl
        rw [e1]
        constructor
        · rintro ⟨g1, g2, g3, g4⟩; exact ⟨g1, g2, by omega, by omega⟩
        · rintro ⟨g1, g2, g3, g4⟩; exact ⟨g1, g2, by omega, by omega⟩
    · intro a v' b he hs w hw
      rw [hb.evs] at he
      rcases snoc_split he with ⟨hb0, ha, hv⟩ | ⟨b', hb', hl⟩
      · rw [hb0] at hw; simp at hw
      · rw [hb', List.mem_append, List.mem_singleton] at hw
        rcases hw with hw | hw
        · exact h.later a v' b' hl hs w hw
        · rw [hw, hb.num]; exact fun heq => hold a v' b' hl hs heq.symm
    · intro m hm
      rw [hc] at hm
      rw [hT, hN]; exact h.live m hm
    · intro a v' b x he hx
      rw [hb.evs] at he
      rcases snoc_split he with ⟨hb0, ha, hv⟩ | ⟨b', hb', hl⟩
      · rw [hv, hb.status] at hx
        rw [hv, ← ha, hb.num]
        split at hx
        · simp only [Option.some.injEq] at hx
          rw [← hx, ← hb.evs]
        · simp at hx
      · exact h.err a v' b' x hl hx
    · rw [ht]
      intro t htm h0
      obtain ⟨g1, g2⟩ := h.fresh t htm h0
      have := hle t.num
      refine ⟨by omega, ?_⟩
      rw [hb.evs]
      intro x hx
      rw [List.mem_append, List.mem_singleton] at hx
      rcases hx with hx | hx
      · exact g2 x hx
      · rw [hx, hb.num]
        intro heq
        rw [heq] at hpos; omega

/-- Requests are issued and descriptors accepted. -/
inductive TodoStep (f1 f3 : RdEnv) : Prop
  | issue (num : Nat) (d : RdDesc) (off tg z : Nat) (hz : 0 < z) (h1 : f1.todo = [⟨num, d, off⟩])
    (h2 : f3.out = f1.out ++ [⟨num, d, tg, off, off + z⟩]) (h3 : f3.todo = [] ∨ f3.todo = [⟨num, d, off + z⟩])
    (h4 : f3.count = f1.count)
  | accept (d : RdDesc) (h1 : f1.todo = []) (h2 : f3.out = f1.out) (h3 : f3.todo = [⟨f1.count, d, 0⟩]) (h4 : f3.count = f1.count + 1)
  | none (h1 : f3.todo = f1.todo) (h2 : f3.out = f1.out) (h3 : f3.count = f1.count)

theorem evInv_todo {f1 f3 : RdEnv} (h : EvInv f1) (hs : TodoStep f1 f3) (he : f3.evs = f1.evs) : EvInv f3 := by
  cases hs with
  | issue num d off tg z hz h1 h2 h3 h4 =>
    have hnum : num < f1.count := h.todolt ⟨num, d, off⟩ (by rw [h1]; simp)
    have hO : ∀ m, outN f3.out m = outN f1.out m + (num == m).toNat := by
      intro m; rw [h2, outN_append, outN_cons]; rfl
    have hT1 : ∀ m, todoN f1 m = (num == m) := by intro m; unfold todoN; rw [h1]; simp
    have hT3 : ∀ m, num ≠ m → todoN f3 m = false := by
      intro m hm; unfold todoN; rcases h3 with h3 | h3 <;> rw [h3] <;> simp [hm]
    refine ⟨by rw [he, h4]; exact h.evlt, ?_, ?_, ?_, by rw [he]; exact h.later, ?_, by rw [he]; exact h.err, ?_⟩
    · rw [h4]; intro t ht
      rcases h3 with h3 | h3 <;> rw [h3] at ht <;> simp at ht
      rw [ht]; exact hnum
    · rw [h2, h4]; intro r hr
      rw [List.mem_append, List.mem_singleton] at hr
      rcases hr with hr | hr
      · exact h.outlt r hr
      · rw [hr]; exact hnum
    · intro a v b hev
      rw [he] at hev
      rw [h.dec a v b hev, hO, hT1]
      by_cases hm : num = v.num
      · simp [hm]
      · rw [hT3 _ hm]
        simp [hm]
    · intro m hm
      rw [h4] at hm
      rw [hO, he]
      rcases h.live m hm with h' | h'
      · rw [hT1] at h'
        right; rw [h', Bool.toNat_true]; omega
      · right; omega
    · intro t ht h0
      rcases h3 with h3 | h3 <;> rw [h3] at ht <;> simp at ht
      rw [ht] at h0
      simp only at h0; omega
  | accept d h1 h2 h3 h4 =>
    have hT : ∀ m, m < f1.count → todoN f3 m = todoN f1 m := by
      intro m hm; unfold todoN; rw [h1, h3]; simp; omega
    refine ⟨?_, ?_, ?_, ?_, by rw [he]; exact h.later, ?_, by rw [he]; exact h.err, ?_⟩
    · rw [he, h4]; intro v hv; have := h.evlt v hv; omega
    · rw [h3, h4]; intro t ht; simp at ht; rw [ht]; simp
    · rw [h2, h4]; intro r hr; have := h.outlt r hr; omega
    · intro a v b hev
      rw [he] at hev
      rw [h2, hT _ (h.evlt v (by rw [hev]; simp))]
      exact h.dec a v b hev
    · intro m hm
      rw [h4] at hm
      by_cases hm' : m < f1.count
      · rw [h2, he, hT m hm']; exact h.live m hm'
      · left; unfold todoN; rw [h3]; simp; omega
    · rw [h3, h2, he]
      intro t ht _
      simp at ht
      subst ht
      refine ⟨outN_zero.2 fun r hr heq => ?_, fun v hv heq => ?_⟩
      · have := h.outlt r hr; rw [heq] at this; simp at this
      · have := h.evlt v hv; rw [heq] at this; simp at this
  | none h1 h2 h3 =>
    have hT : ∀ m, todoN f3 m = todoN f1 m := fun m => by unfold todoN; rw [h1]
    exact ⟨by rw [he, h3]; exact h.evlt, by rw [h1, h3]; exact h.todolt, by rw [h2, h3]; exact h.outlt, by
      intro a v b hev; rw [he] at hev; rw [hT, h2]; exact h.dec a v b hev, by rw [he]; exact h.later, by
      intro m hm; rw [h3] at hm; rw [hT, h2, he]; exact h.live m hm, by rw [he]; exact h.err, by
      rw [h1, h2, he]; exact h.fresh⟩

end Verif.Proofs
