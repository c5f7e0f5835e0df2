import Verif.Proofs.DrdOps
/-! Descriptors are completed once. -/
namespace Verif.Proofs
open Verif Verif.Model Verif.Spec

theorem run_count (c : DrdCfg) (s : Drd) (e : RdEnv) (is : List DrdIn) :
    (e.run c s is).count = e.count + (drdAccepted c s is).length := by
  induction is generalizing s e with
  | nil => rfl
  | cons i is ih =>
    simp only [RdEnv.run]
    rw [ih, env_count]
    unfold drdAccepted
    simp only [drdTrace, List.filterMap_cons]
    cases s.req.ready && i.valid <;> simp <;> omega

theorem beat_evs_mono (c : DrdCfg) (i : DrdIn) (e : RdEnv) : ∃ E, (e.beat c i).evs = e.evs ++ E := by
  unfold RdEnv.beat
  repeat' split
  all_goals first | exact ⟨_, rfl⟩ | exact ⟨[], by simp⟩

theorem step_evs_mono (c : DrdCfg) (s : Drd) (i : DrdIn) (e : RdEnv) : ∃ E, (e.step c s i).evs = e.evs ++ E := by
  have hs : ∀ (f : RdEnv) h, (f.send h).evs = f.evs := by intro f h; unfold RdEnv.send; split <;> rfl
  have ha : ∀ (f : RdEnv) d, (f.accept d).evs = f.evs := fun _ _ => rfl
  have h1 : (e.step c s i).evs = (envBeat c s i e).evs := by
    unfold RdEnv.step envBeat
    dsimp only
    split <;> split <;> simp [hs, ha]
  rw [h1]
  unfold envBeat
  split
  · exact beat_evs_mono c i { e with last := none }
  · exact ⟨[], by simp⟩

theorem run_evs (c : DrdCfg) (s : Drd) (e : RdEnv) (is1 is2 : List DrdIn) :
    ∃ E, (e.run c s (is1 ++ is2)).evs = (e.run c s is1).evs ++ E := by
  induction is1 generalizing s e with
  | nil =>
    simp only [List.nil_append, RdEnv.run]
    induction is2 generalizing s e with
    | nil => exact ⟨[], by simp [RdEnv.run]⟩
    | cons i is ih =>
      obtain ⟨E1, h1⟩ := ih (drdStep c s i) (e.step c s i)
      obtain ⟨E2, h2⟩ := step_evs_mono c s i e
      exact ⟨E2 ++ E1, by simp only [RdEnv.run]; rw [h1, h2, List.append_assoc]⟩
  | cons i is ih => exact ih _ _

theorem once_nodup {evs : List RdEvent} (h : ∀ a v b, evs = a ++ v :: b → v.status.isSome = true → ∀ w ∈ b, w.num ≠ v.num) :
    ((evs.filter (·.status.isSome)).map (·.num)).Nodup := by
  induction evs with
  | nil => simp
  | cons v l ih =>
    have ih := ih (fun a w b he => h (v :: a) w b (by rw [he]; rfl))
    cases hv : v.status.isSome with
    | false => rw [List.filter_cons_of_neg (by simp [hv])]; exact ih
    | true =>
      rw [List.filter_cons_of_pos (by simp [hv]), List.map_cons, List.nodup_cons]
      refine ⟨fun hm => ?_, ih⟩
      obtain ⟨w, hw, he⟩ := List.mem_map.1 hm
      exact h [] v l rfl hv w (List.mem_filter.1 hw).1 he

/-- The last request finished. -/
theorem fin_last {evs : List RdEvent} {m : Nat} (h : 0 < finN evs m) :
    ∃ a v b, evs = a ++ v :: b ∧ v.finish = true ∧ v.num = m ∧ finN b m = 0 := by
  induction evs with
  | nil => simp [finN] at h
  | cons v l ih =>
    by_cases h0 : 0 < finN l m
    · obtain ⟨a, w, b, h1, h2⟩ := ih h0
      exact ⟨v :: a, w, b, by rw [h1]; rfl, h2⟩
    · rw [finN_cons] at h
      have : (v.finish && v.num == m) = true := by
        cases hx : (v.finish && v.num == m) with
        | true => rfl
        | false => rw [hx] at h; simp at h; omega
      simp only [Bool.and_eq_true, beq_iff_eq] at this
      exact ⟨[], v, l, rfl, this.1, this.2, by omega⟩

theorem evInv_once {c : DrdCfg} {mm rid : Nat} {opOf : Nat → Nat} {s : Drd} {e : RdEnv} (h : EnvInv c mm rid opOf s e)
    (hv : EvInv (pendEnv s e)) :
    ((e.evs.filter (·.status.isSome)).map (·.num)).Nodup ∧
    ∀ m < e.count, m ∈ (e.evs.filter (·.status.isSome)).map (·.num) ↔ (∀ t ∈ e.todo, t.num ≠ m) ∧ ∀ r ∈ e.out, r.num ≠ m := by
  obtain ⟨-, -, p3, p4, p5⟩ := pendEnv_same s e
  refine ⟨once_nodup (by rw [← p3]; exact hv.later), fun m hm => ?_⟩
  have hiff : ((∀ t ∈ e.todo, t.num ≠ m) ∧ ∀ r ∈ e.out, r.num ≠ m) ↔ todoN (pendEnv s e) m = false ∧ outN (pendEnv s e).out m = 0 := by
    by_cases ht : s.txV = true
    · obtain ⟨t, ts, he⟩ := List.exists_cons_of_ne_nil (h.todo ht)
      have hp : pendEnv s e = e.send s.tx := by unfold pendEnv; rw [if_pos ht]
      have h1 := send_todo he s.tx m
      rw [hp]
      have hA : (∀ t ∈ e.todo, t.num ≠ m) ↔ e.todo.any (·.num == m) = false := by simp
      rw [hA, ← h1, outN_zero, send_cons he]
      unfold todoN
      simp only [Bool.or_eq_false_iff, List.mem_append, List.mem_singleton]
      constructor
      · rintro ⟨⟨g1, g2⟩, g3⟩
        refine ⟨g1, fun r hr => ?_⟩
        rcases hr with hr | hr
        · exact g3 r hr
        · rw [hr]; simpa [sendReq] using g2
      · rintro ⟨g1, g2⟩
        refine ⟨⟨g1, ?_⟩, fun r hr => g2 r (Or.inl hr)⟩
        have := g2 (sendReq t s.tx) (Or.inr rfl)
        simpa [sendReq] using this
    · have hp : pendEnv s e = e := by unfold pendEnv; rw [if_neg ht]
      rw [hp, outN_zero]
      unfold todoN; simp
  rw [hiff, List.mem_map]
  constructor
  · rintro ⟨v, hvm, rfl⟩
    obtain ⟨hv1, hv2⟩ := List.mem_filter.1 hvm
    obtain ⟨a, b, hab⟩ := List.append_of_mem hv1
    exact ⟨((hv.dec a v b (by rw [p3]; exact hab)).1 hv2).2.1, ((hv.dec a v b (by rw [p3]; exact hab)).1 hv2).2.2.1⟩
  · rintro ⟨g1, g2⟩
    have hl := hv.live m (by rw [p4]; exact hm)
    rw [g1, g2] at hl
    have hf : 0 < finN (pendEnv s e).evs m := by simpa using hl
    obtain ⟨a, v, b, k1, k2, k3, k4⟩ := fin_last hf
    refine ⟨v, List.mem_filter.2 ⟨by rw [← p3, k1]; simp, ?_⟩, k3⟩
    exact (hv.dec a v b k1).2 ⟨k2, by rw [k3]; exact g1, by rw [k3]; exact g2, by rw [k3]; exact k4⟩

end Verif.Proofs
