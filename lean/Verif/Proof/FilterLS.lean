import Verif.Model.FilterLS
import Verif.Proof.Filter
import Mathlib.Tactic.NormNum
import Mathlib.Tactic.Positivity

namespace Verif.FilterLS
set_option linter.unusedSectionVars false
set_option linter.unusedSimpArgs false
variable {K : Type} [Field K] [LinearOrder K] [IsStrictOrderedRing K]

/-- All filter entries have two coordinates. -/
def Wf (f : Filter.State K) : Prop := ∀ e ∈ f, e.vals.length = 2

/-- Some entry is at least as strong as the pair `(a, b)`. -/
def Covers (f : Filter.State K) (a b : K) : Prop :=
  ∃ e ∈ f, ∃ a' b', e.vals = [a', b'] ∧ a' ≤ a ∧ b' ≤ b

theorem acceptable_total (f : Filter.State K) (hf : Wf f) (a b : K) :
    ∃ r, Filter.acceptable f [a, b] = some r := by
  obtain ⟨r, h, _⟩ := Filter.acceptable_eq f [a, b] (fun e he => by simp [hf e he])
  exact ⟨r, h⟩

theorem acceptable_true (f : Filter.State K) (hf : Wf f) (a b : K)
    (h : Filter.acceptable f [a, b] = some true) :
    ∀ e ∈ f, ∃ a' b', e.vals = [a', b'] ∧ (a ≤ a' ∨ b ≤ b') := by
  obtain ⟨r, h', hi⟩ := Filter.acceptable_eq f [a, b] (fun e he => by simp [hf e he])
  rw [h] at h'; cases h'
  intro e he
  obtain ⟨i, h1, h2, h3⟩ := hi.1 rfl e he
  have hl := hf e he
  obtain ⟨vs, it⟩ := e
  obtain ⟨a', b', rfl⟩ := List.length_eq_two.1 hl
  refine ⟨a', b', rfl, ?_⟩
  match i, h1, h2, h3 with
  | 0, _, _, h3 => exact Or.inl (by simpa using h3)
  | 1, _, _, h3 => exact Or.inr (by simpa using h3)

theorem acceptable_covers (f : Filter.State K) (hf : Wf f) (a b p q : K)
    (h : Filter.acceptable f [a, b] = some true) (hc : Covers f p q) : a ≤ p ∨ b ≤ q := by
  obtain ⟨e, he, a', b', hv, h1, h2⟩ := hc
  obtain ⟨a2, b2, hv2, h3⟩ := acceptable_true f hf a b h e he
  rw [hv] at hv2; injection hv2 with e1 e2; injection e2 with e2
  subst e1 e2
  rcases h3 with h3 | h3
  · exact Or.inl (h3.trans h1)
  · exact Or.inr (h3.trans h2)

theorem addEntry_spec (f : Filter.State K) (hf : Wf f) (a b : K) (it : Int) :
    ∃ f', Filter.addEntry f [a, b] it = some f' ∧ Wf f' ∧ Covers f' a b ∧
      ∀ p q, Covers f p q → Covers f' p q := by
  obtain ⟨sp, hsp, hsub, hmem⟩ := Filter.prune_eq f [a, b] (fun e he => by simp [hf e he])
  refine ⟨sp ++ [⟨[a, b], it⟩], by simp [Filter.addEntry, hsp], ?_, ?_, ?_⟩
  · intro e he
    rcases List.mem_append.1 he with he | he
    · exact hf e (hsub.subset he)
    · simp only [List.mem_singleton] at he; subst he; rfl
  · exact ⟨⟨[a, b], it⟩, by simp, a, b, rfl, le_refl _, le_refl _⟩
  · rintro p q ⟨e, he, a', b', hv, h1, h2⟩
    by_cases hin : e ∈ sp
    · exact ⟨e, List.mem_append_left _ hin, a', b', hv, h1, h2⟩
    · have hd := (not_iff_not.2 (hmem e he)).1 hin
      rw [not_not] at hd
      refine ⟨⟨[a, b], it⟩, by simp, a, b, rfl, ?_, ?_⟩
      · have := hd 0 (by simp) (by simp [hv])
        simp only [hv, List.getElem_cons_zero, not_lt] at this
        exact this.trans h1
      · have := hd 1 (by simp) (by simp [hv])
        simp only [hv, List.getElem_cons_succ, List.getElem_cons_zero, not_lt] at this
        exact this.trans h2

@[simp] theorem isFtype_filter (c : Cfg K) (s : St K) (a : K) : (isFtype c s a).2.filter = s.filter := by
  simp only [isFtype]; split <;> rfl
@[simp] theorem isFtype_ref_theta (c : Cfg K) (s : St K) (a : K) : (isFtype c s a).2.ref_theta = s.ref_theta := by
  simp only [isFtype]; split <;> rfl
@[simp] theorem isFtype_ref_barr (c : Cfg K) (s : St K) (a : K) : (isFtype c s a).2.ref_barr = s.ref_barr := by
  simp only [isFtype]; split <;> rfl
@[simp] theorem isFtype_theta_max (c : Cfg K) (s : St K) (a : K) : (isFtype c s a).2.theta_max = s.theta_max := by
  simp only [isFtype]; split <;> rfl
@[simp] theorem isFtype_theta_min (c : Cfg K) (s : St K) (a : K) : (isFtype c s a).2.theta_min = s.theta_min := by
  simp only [isFtype]; split <;> rfl
@[simp] theorem isFtype_info (c : Cfg K) (s : St K) (a : K) : (isFtype c s a).2.info = s.info := by
  simp only [isFtype]; split <;> rfl
@[simp] theorem isFtype_nres (c : Cfg K) (s : St K) (a : K) :
    (isFtype c s a).2.n_filter_resets = s.n_filter_resets := by
  simp only [isFtype]; split <;> rfl

theorem iterateTest_frame (c : Cfg K) (s : St K) (a t b : K) :
    (iterateTest c s a t b).2.filter = s.filter ∧ (iterateTest c s a t b).2.theta_max = s.theta_max ∧
    (iterateTest c s a t b).2.theta_min = s.theta_min ∧
    (iterateTest c s a t b).2.ref_theta = s.ref_theta ∧ (iterateTest c s a t b).2.ref_barr = s.ref_barr ∧
    (iterateTest c s a t b).2.info = s.info ∧
    (iterateTest c s a t b).2.n_filter_resets = s.n_filter_resets := by
  unfold iterateTest
  split
  · simp only []
    split <;> simp
  · simp

@[simp] theorem initThetaLimits_frame (c : Cfg K) (s : St K) :
    (initThetaLimits c s).filter = s.filter ∧ (initThetaLimits c s).ref_theta = s.ref_theta ∧
    (initThetaLimits c s).ref_barr = s.ref_barr ∧ (initThetaLimits c s).ref_grad = s.ref_grad ∧
    (initThetaLimits c s).info = s.info ∧
    (initThetaLimits c s).n_filter_resets = s.n_filter_resets := by
  unfold initThetaLimits
  simp only []
  split <;> split <;> simp

theorem initThetaLimits_max (c : Cfg K) (s : St K) :
    (initThetaLimits c s).theta_max = if s.theta_max < 0 then c.theta_max_fact * max 1 s.ref_theta else s.theta_max := by
  unfold initThetaLimits
  simp only []
  split <;> split <;> simp

theorem resetHeuristic_filter (c : Cfg K) (s : St K) :
    ((resetHeuristic c s).filter = s.filter ∧
        (resetHeuristic c s).info.count "F+" = s.info.count "F+") ∨
    ((resetHeuristic c s).filter = [] ∧ (resetHeuristic c s).info = s.info ++ ["F+"]) := by
  unfold resetHeuristic
  simp only []
  split_ifs <;> simp [reset, Filter.clear, List.count_append]

theorem resetHeuristic_frame (c : Cfg K) (s : St K) :
    (resetHeuristic c s).theta_max = s.theta_max ∧ (resetHeuristic c s).theta_min = s.theta_min ∧
    (resetHeuristic c s).ref_theta = s.ref_theta ∧ (resetHeuristic c s).ref_barr = s.ref_barr ∧
    (resetHeuristic c s).n_filter_resets = s.n_filter_resets := by
  unfold resetHeuristic
  simp only []
  split_ifs <;> simp [reset]

/-- Characterisation of the check. -/
theorem check_total (c : Cfg K) (s : St K) (hf : Wf s.filter) (a t b : K) :
    ∃ r, checkAcceptability c s a t b = some r := by
  unfold checkAcceptability
  simp only []
  split
  · exact ⟨_, rfl⟩
  · split
    · exact ⟨_, rfl⟩
    · have hfil := (iterateTest_frame c (initThetaLimits c s) a t b).1
      rw [(initThetaLimits_frame c s).1] at hfil
      obtain ⟨r, hr⟩ := acceptable_total (iterateTest c (initThetaLimits c s) a t b).2.filter (by rw [hfil]; exact hf) b t
      unfold isAcceptableToCurrentFilter
      rw [hr]
      cases r <;> exact ⟨_, rfl⟩

theorem check_accept (c : Cfg K) (s s' : St K) (a t b : K)
    (h : checkAcceptability c s a t b = some (true, s')) :
    ¬ (0 < (initThetaLimits c s).theta_max ∧ (initThetaLimits c s).theta_max < t) ∧
    (iterateTest c (initThetaLimits c s) a t b).1 = true ∧
    Filter.acceptable s.filter [b, t] = some true ∧
    s'.theta_max = (initThetaLimits c s).theta_max := by
  unfold checkAcceptability at h
  simp only [] at h
  split at h
  · simp at h
  · rename_i h0
    refine ⟨h0, ?_⟩
    split at h
    · simp at h
    · rename_i h1
      have hfil := (iterateTest_frame c (initThetaLimits c s) a t b).1
      have hmx := (iterateTest_frame c (initThetaLimits c s) a t b).2.1
      rw [(initThetaLimits_frame c s).1] at hfil
      refine ⟨by simpa using h1, ?_⟩
      unfold isAcceptableToCurrentFilter at h
      rw [hfil] at h
      cases hacc : Filter.acceptable s.filter [b, t] with
      | none => rw [hacc] at h; simp at h
      | some r =>
        rw [hacc] at h
        cases r with
        | false => simp at h
        | true =>
          refine ⟨rfl, ?_⟩
          simp only [Option.some.injEq, Prod.mk.injEq, true_and] at h
          rw [← h]
          simp only []
          rw [(resetHeuristic_frame c _).1, hmx]

/-- Effect of a check on filter and info. -/
theorem check_filter (c : Cfg K) (s s' : St K) (a t b : K) (r : Bool)
    (h : checkAcceptability c s a t b = some (r, s')) :
    ((s'.filter = s.filter ∧ s'.info.count "F+" = s.info.count "F+") ∨
     (s'.filter = [] ∧ s'.info.count "F+" = s.info.count "F+" + 1)) ∧
    s'.n_filter_resets = s.n_filter_resets ∧
    s'.theta_max = (initThetaLimits c s).theta_max := by
  unfold checkAcceptability at h
  simp only [] at h
  have hI := initThetaLimits_frame c s
  have hT := iterateTest_frame c (initThetaLimits c s) a t b
  split at h
  · simp only [Option.some.injEq, Prod.mk.injEq] at h
    rw [← h.2]
    simp [hI, List.count_append]
  · split at h
    · simp only [Option.some.injEq, Prod.mk.injEq] at h
      rw [← h.2]
      simp [hI, hT]
    · split at h
      · simp at h
      · simp only [Option.some.injEq, Prod.mk.injEq] at h
        rw [← h.2]
        simp [hI, hT]
      · simp only [Option.some.injEq, Prod.mk.injEq] at h
        rw [← h.2]
        have hR := resetHeuristic_filter c (iterateTest c (initThetaLimits c s) a t b).2
        have hF := resetHeuristic_frame c (iterateTest c (initThetaLimits c s) a t b).2
        refine ⟨?_, by simp [hF, hT, hI], by simp [hF, hT]⟩
        rcases hR with hR | hR
        · left; simp [hR, hT, hI]
        · right; simp [hR, hT, hI, List.count_append]

theorem augment_spec (c : Cfg K) (s : St K) (hf : Wf s.filter) :
    ∃ s', augmentFilter c s = some s' ∧ Wf s'.filter ∧
      Covers s'.filter (s.ref_barr - c.gamma_phi * s.ref_theta) ((1 - c.gamma_theta) * s.ref_theta) ∧
      (∀ p q, Covers s.filter p q → Covers s'.filter p q) ∧ s'.info = s.info ∧ s'.theta_max = s.theta_max ∧
      s'.n_filter_resets = s.n_filter_resets := by
  obtain ⟨f', h1, h2, h3, h4⟩ := addEntry_spec s.filter hf (s.ref_barr - c.gamma_phi * s.ref_theta)
    ((1 - c.gamma_theta) * s.ref_theta) s.iter
  exact ⟨{ s with filter := f' }, by simp [augmentFilter, h1], h2, h3, h4, rfl, rfl, rfl⟩

/-- Per-step facts. -/
theorem step_spec (c : Cfg K) (s : St K) (o : Op K) (hf : Wf s.filter) :
    ∃ r s', step c s o = some (r, s') ∧ Wf s'.filter ∧ s.info.count "F+" ≤ s'.info.count "F+" ∧
      s'.n_filter_resets = s.n_filter_resets ∧
      (s'.theta_max = s.theta_max ∨
        (s.theta_max < 0 ∧ s'.theta_max = c.theta_max_fact * max 1 s.ref_theta)) ∧
      ((∀ p q, Covers s.filter p q → Covers s'.filter p q) ∨ o matches .reset ∨
        s.info.count "F+" < s'.info.count "F+") := by
  cases o with
  | initLS w t b g =>
    refine ⟨true, _, rfl, ?_⟩
    unfold initThisLineSearch
    split <;> exact ⟨hf, le_refl _, rfl, Or.inl rfl, Or.inl (fun _ _ h => h)⟩
  | check a t b =>
    obtain ⟨⟨r, s'⟩, h⟩ := check_total c s hf a t b
    refine ⟨r, s', h, ?_⟩
    obtain ⟨hfi, hn, hm⟩ := check_filter c s s' a t b r h
    refine ⟨?_, ?_, hn, ?_, ?_⟩
    · rcases hfi with ⟨hfi, _⟩ | ⟨hfi, _⟩
      · rw [hfi]; exact hf
      · rw [hfi]; intro e he; simp at he
    · rcases hfi with ⟨_, h⟩ | ⟨_, h⟩ <;> omega
    · rw [hm, initThetaLimits_max]
      split
      · right; exact ⟨by assumption, rfl⟩
      · left; rfl
    · rcases hfi with ⟨hfi, _⟩ | ⟨_, h⟩
      · left; rw [hfi]; exact fun _ _ h => h
      · right; right; omega
  | update a b =>
    by_cases hb : (!(isFtype c s a).1 || !(armijoHolds c (isFtype c s a).2 a b)) = true
    · obtain ⟨s', h1, h2, h3, h4, h5, h6, h7⟩ := augment_spec c (isFtype c s a).2 (by simpa using hf)
      refine ⟨true, s', by simp only [step, updateForNextIteration, hb, if_true, h1]; rfl, h2, ?_, ?_, ?_, ?_⟩
      · rw [h5]; simp
      · rw [h7]; simp
      · left; rw [h6]; simp
      · left; simpa using h4
    · refine ⟨true, (isFtype c s a).2, by simp [step, updateForNextIteration, hb], ?_⟩
      refine ⟨by simpa using hf, by simp, by simp, Or.inl (by simp), Or.inl (by simp)⟩
  | prepareResto =>
    obtain ⟨s', h1, h2, h3, h4, h5, h6, h7⟩ := augment_spec c s hf
    exact ⟨true, s', by simp [step, prepareRestoPhaseStart, h1], h2, by rw [h5], h7, Or.inl h6, Or.inl h4⟩
  | startWD t b g => exact ⟨true, _, rfl, hf, le_refl _, rfl, Or.inl rfl, Or.inl (fun _ _ h => h)⟩
  | stopWD => exact ⟨true, _, rfl, hf, le_refl _, rfl, Or.inl rfl, Or.inl (fun _ _ h => h)⟩
  | reset =>
    exact ⟨true, _, rfl, by intro e he; simp [reset, Filter.clear] at he, le_refl _, rfl, Or.inl rfl,
      Or.inr (Or.inl rfl)⟩
  | nextIter => exact ⟨true, _, rfl, hf, le_refl _, rfl, Or.inl rfl, Or.inl (fun _ _ h => h)⟩

/-- Facts over histories. -/
theorem run_spec (c : Cfg K) (hc : 0 < c.theta_max_fact) (ops : List (Op K)) (s : St K) (hf : Wf s.filter) :
    ∃ s', run c s ops = some s' ∧ Wf s'.filter ∧ s.info.count "F+" ≤ s'.info.count "F+" ∧
      s'.n_filter_resets = s.n_filter_resets ∧
      (0 < s.theta_max → s'.theta_max = s.theta_max) ∧
      ((s.theta_max < 0 ∨ 0 < s.theta_max) → (s'.theta_max < 0 ∨ 0 < s'.theta_max)) ∧
      ((∀ o ∈ ops, ¬ (o matches .reset)) → s'.info.count "F+" = s.info.count "F+" →
        ∀ p q, Covers s.filter p q → Covers s'.filter p q) := by
  induction ops generalizing s with
  | nil => exact ⟨s, rfl, hf, le_refl _, rfl, fun _ => rfl, fun h => h, fun _ _ _ _ h => h⟩
  | cons o os ih =>
    obtain ⟨r, s1, h1, hw1, hi1, hn1, ht1, hcov1⟩ := step_spec c s o hf
    obtain ⟨s2, h2, hw2, hi2, hn2, ht2, ht2', hcov2⟩ := ih s1 hw1
    refine ⟨s2, by simp [run, h1, h2], hw2, hi1.trans hi2, hn2.trans hn1, ?_, ?_, ?_⟩
    · intro hpos
      rcases ht1 with ht1 | ⟨hneg, _⟩
      · rw [← ht1] at hpos ⊢; exact ht2 hpos
      · exact absurd hneg (not_lt.2 hpos.le)
    · intro hh
      apply ht2'
      rcases ht1 with ht1 | ⟨_, ht1⟩
      · rw [ht1]; exact hh
      · right; rw [ht1]
        have : (0 : K) < max 1 s.ref_theta := lt_of_lt_of_le one_pos (le_max_left _ _)
        positivity
    · intro hno hcnt p q hcv
      have h3 : s1.info.count "F+" = s.info.count "F+" := by omega
      have h4 : s2.info.count "F+" = s1.info.count "F+" := by omega
      rcases hcov1 with hcov1 | hcov1 | hcov1
      · exact hcov2 (fun o' ho' => hno o' (by simp [ho'])) h4 p q (hcov1 p q hcv)
      · exact absurd hcov1 (hno o (by simp))
      · omega

end Verif.FilterLS
