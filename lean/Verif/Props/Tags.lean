import Verif.Proofs.Tags
/-! Properties of tag allocation. -/
namespace Verif.Props
open Verif Verif.Model Verif.Proofs

/-- C25, one call: the tag returned is in range and no received completion for it is waiting, and
`None` is returned only if completions are waiting for all tags. Missing from C25: tags of requests
that have not been answered yet count as free (`C25_reuse_fails`). -/
theorem C25_free_tag_partial (count : Nat) (hc : 0 < count) (s : TagState) :
    match (getFreeTag count s).2 with
    | some t => t < count ∧ s.queues t = []
    | none => ∀ t < count, s.queues t ≠ [] := by
  unfold getFreeTag
  rcases freeTagLoop_spec count s count with ⟨j, h1, h2, h3, h4⟩ | ⟨h1, h2, h3, h4⟩
  · rw [h4]
    exact ⟨Nat.mod_lt _ hc, h3⟩
  · rw [h2]
    intro t ht
    obtain ⟨i, hi, e⟩ := tagAfter_surj count s.current_tag t ht
    rw [← e]
    exact h1 i hi

/-- With completions waiting for tags 1 and 2, tag 3 is chosen. -/
example : (getFreeTag 32 { queues := fun k => if k = 1 ∨ k = 2 then [{}] else [] }).2 = some 3 := by decide +kernel

/-- C25 does not hold: if no request is answered, the 33rd request (257th with extended tags) reuses
the tag of the first one. -/
theorem C25_reuse_fails :
    ((TagState.run 32 {} (List.replicate 33 .issue)).2[0]? = some 1 ∧
      (TagState.run 32 {} (List.replicate 33 .issue)).2[32]? = some 1) ∧
    ((TagState.run 256 {} (List.replicate 257 .issue)).2[0]? = some 1 ∧
      (TagState.run 256 {} (List.replicate 257 .issue)).2[256]? = some 1) := by decide +kernel

/-- Number of requests in a history. -/
def issues (es : List TagEvent) : Nat := es.countP fun e => e matches .issue
/-- Number of completions received in a history. -/
def arrivals (es : List TagEvent) : Nat := es.countP fun e => e matches .arrive _ _

theorem reuse_aux (count t : Nat) (ht : t < count) (es : List TagEvent) :
    ∀ (s : TagState) (p : Nat) (L : List Nat), p < count → s.current_tag = tagAfter count t p →
    (∀ i, 1 ≤ i → i ≤ p → tagAfter count t i ∈ L) → (∀ k < count, s.queues k ≠ [] → k ∈ L) →
    L.length + issues es + arrivals es < count → t ∉ (s.run count es).2 := by
  have ht0 : tagAfter count t 0 = t := by simp [tagAfter, Nat.mod_eq_of_lt ht]
  induction es with
  | nil => intros; simp [TagState.run]
  | cons e es ih =>
    intro s p L hp hcur hL hq hlen
    have many : ∀ n, n ≤ count → (∀ i, 1 ≤ i → i < n → tagAfter count t i ∈ L) → n ≤ L.length + 1 := by
      intro n hn h
      have := nodup_length_le ((List.range' 1 (n - 1)).map (tagAfter count t)) L ?_ ?_
      · simp at this; omega
      · rw [List.Nodup, List.pairwise_map]
        have hnd : (List.range' 1 (n - 1)).Pairwise (· ≠ ·) := List.nodup_range'
        refine List.Pairwise.imp_of_mem ?_ hnd
        intro a b ha hb hab h
        simp at ha hb
        exact hab (tagAfter_inj count t a b (by omega) (by omega) h)
      · intro x hx
        obtain ⟨i, hi, rfl⟩ := List.mem_map.1 hx
        simp at hi
        exact h i (by omega) (by omega)
    rw [TagState.run]
    cases e with
    | issue =>
      have hi : issues (TagEvent.issue :: es) = issues es + 1 := by simp [issues]
      have ha : arrivals (TagEvent.issue :: es) = arrivals es := by simp [arrivals]
      rw [hi, ha] at hlen
      simp only [TagState.step, getFreeTag]
      have hstep : ∀ i, tagAfter count s.current_tag i = tagAfter count t (p + i) := by
        intro i; rw [hcur]; simp only [tagAfter]; rw [Nat.mod_add_mod]; congr 1; omega
      rcases freeTagLoop_spec count s count with ⟨j, h1, h2, h3, h4⟩ | ⟨h1, h2, h3, h4⟩
      · simp only [hstep] at h2 h3 h4
        rw [h4]
        have hL' : ∀ i, 1 ≤ i → i < p + (j + 1) → tagAfter count t i ∈ L := by
          intro i h1' h2'
          by_cases hip : i ≤ p
          · exact hL i h1' hip
          · have := h2 (i - p - 1) (by omega)
            rw [show p + (i - p - 1 + 1) = i by omega] at this
            exact hq _ (Nat.mod_lt _ (by omega)) this
        have hp' : p + (j + 1) < count := by
          rcases Nat.lt_or_ge (p + (j + 1)) count with h | h
          · exact h
          · have := many count (Nat.le_refl _) (fun i h1 h2 => hL' i h1 (by omega))
            omega
        have hne : tagAfter count t (p + (j + 1)) ≠ t := by
          intro e
          have := tagAfter_inj count t (p + (j + 1)) 0 hp' (by omega) (by rw [e, ht0])
          omega
        simp only [Option.toList_some, List.singleton_append, List.mem_cons, not_or]
        refine ⟨fun e => hne e.symm, ?_⟩
        refine ih _ (p + (j + 1)) (tagAfter count t (p + (j + 1)) :: L) hp' rfl ?_ ?_ ?_
        · intro i h1 h2
          by_cases h : i = p + (j + 1)
          · simp [h]
          · exact List.mem_cons_of_mem _ (hL' i h1 (by omega))
        · intro k hk h
          exact List.mem_cons_of_mem _ (hq k hk h)
        · simp; omega
      · exfalso
        have := nodup_length_le (List.range count) L List.nodup_range (fun k hk => by
          obtain ⟨i, hi, e⟩ := tagAfter_surj count s.current_tag k (List.mem_range.1 hk)
          rw [← e]
          exact hq _ (Nat.mod_lt _ (by omega)) (h1 i hi))
        simp at this
        omega
    | arrive tag cpl =>
      have hi : issues (TagEvent.arrive tag cpl :: es) = issues es := by simp [issues]
      have ha : arrivals (TagEvent.arrive tag cpl :: es) = arrivals es + 1 := by simp [arrivals]
      rw [hi, ha] at hlen
      simp only [TagState.step, Option.toList_none, List.nil_append]
      refine ih _ p (tag :: L) hp hcur (fun i h1 h2 => List.mem_cons_of_mem _ (hL i h1 h2)) ?_ (by simp; omega)
      intro k hk h
      dsimp only at h
      split at h
      · rename_i e; simp [e]
      · exact List.mem_cons_of_mem _ (hq k hk h)
    | take tag =>
      have hi : issues (TagEvent.take tag :: es) = issues es := by simp [issues]
      have ha : arrivals (TagEvent.take tag :: es) = arrivals es := by simp [arrivals]
      rw [hi, ha] at hlen
      simp only [TagState.step, Option.toList_none, List.nil_append]
      refine ih _ p L hp hcur hL ?_ (by omega)
      intro k hk h
      dsimp only at h
      split at h
      · refine hq k hk (fun e => h ?_)
        rw [e]; rfl
      · exact hq k hk h

/-- C25, histories: a tag `t` just issued is not issued again during any history in which fewer
requests and completions occur than there are tags (counting also the tags in `pending`, for which
completions were already waiting). In particular a tag is never reused while at most
`count / 2 - 1` requests follow it and each is answered by at most one completion. -/
theorem C25_reuse_partial (count : Nat) (s : TagState) (t : Nat) (ht : t < count) (hs : s.current_tag = t)
    (pending : List Nat) (hp : ∀ k < count, s.queues k ≠ [] → k ∈ pending) (es : List TagEvent)
    (h : pending.length + issues es + arrivals es < count) : t ∉ (s.run count es).2 :=
  reuse_aux count t ht es s 0 pending (by omega) (by simp [tagAfter, Nat.mod_eq_of_lt ht, hs])
    (by intros; omega) hp h

/-- Tag 5 was issued; ten further requests, each answered before the next one. -/
example : 5 ∉ (TagState.run 32 { current_tag := 5 }
    ((List.replicate 10 [TagEvent.issue, .arrive 6 {}, .take 6]).flatten)).2 :=
  C25_reuse_partial 32 _ 5 (by decide) rfl [] (by simp) _ (by decide +kernel)

end Verif.Props
