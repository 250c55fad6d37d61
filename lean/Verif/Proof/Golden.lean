import Verif.Spec.MuOracle
import Mathlib.Algebra.Order.Field.Basic
import Mathlib.Tactic.Linarith
import Mathlib.Tactic.Ring
import Mathlib.Tactic.NormNum
import Mathlib.Tactic.Positivity
import Mathlib.Tactic.LinearCombination

set_option linter.unusedSectionVars false
set_option linter.unusedSimpArgs false
set_option linter.unusedVariables false

/-! # Golden section search: invariant of the loop -/

namespace Verif.MuOracle

variable {K : Type} [Field K] [LinearOrder K] [IsStrictOrderedRing K]

theorem golden_pos {g : K} (h : Spec.IsGolden g) : 0 < g := by
  by_contra hn
  have hg := h.root
  nlinarith [sq_nonneg g]

/-- The invariant of the loop after `k` sections. -/
structure GInv (q : K → K) (g up0 qup0 lo0 qlo0 : K) (k : Nat) (s : GS K) : Prop where
  lo_ge : lo0 ≤ s.lo
  up_le : s.up ≤ up0
  width : s.up - s.lo = (1 - g) ^ k * (up0 - lo0)
  mid1 : s.mid1 = s.lo + g * (s.up - s.lo)
  mid2 : s.mid2 = s.lo + (1 - g) * (s.up - s.lo)
  q1 : s.q1 = q s.mid1
  q2 : s.q2 = q s.mid2
  qlo : (s.lo = lo0 ∧ s.qlo = qlo0) ∨ (lo0 < s.lo ∧ s.qlo = q s.lo ∧ s.lo ∈ s.evals)
  qup : (s.up = up0 ∧ s.qup = qup0) ∨ (s.up < up0 ∧ s.qup = q s.up ∧ s.up ∈ s.evals)
  best : ∀ e ∈ s.evals, s.q1 ≤ q e ∨ s.q2 ≤ q e
  count : s.evals.length = k + 2
  inside : ∀ e ∈ s.evals, lo0 < e ∧ e < up0
  mem1 : s.mid1 ∈ s.evals
  mem2 : s.mid2 ∈ s.evals

theorem ginv_init {q : K → K} {g up0 qup0 lo0 qlo0 : K} (hg : Spec.IsGolden g) (hlt : lo0 < up0) :
    GInv q g up0 qup0 lo0 qlo0 0 (gsInit q g up0 qup0 lo0 qlo0) := by
  have h0 := golden_pos hg
  have h1 := hg.half
  have hw : 0 < up0 - lo0 := by linarith
  refine ⟨le_refl _, le_refl _, by simp [gsInit], rfl, rfl, rfl, rfl, Or.inl ⟨rfl, rfl⟩, Or.inl ⟨rfl, rfl⟩, ?_, rfl, ?_, by simp [gsInit], by simp [gsInit]⟩
  · intro e he
    simp only [gsInit, List.mem_cons, List.not_mem_nil, or_false] at he ⊢
    rcases he with rfl | rfl
    · exact Or.inl (le_refl _)
    · exact Or.inr (le_refl _)
  · intro e he
    simp only [gsInit, List.mem_cons, List.not_mem_nil, or_false] at he ⊢
    rcases he with rfl | rfl <;> constructor <;> nlinarith

theorem ginv_pos {q : K → K} {g up0 qup0 lo0 qlo0 : K} {k : Nat} {s : GS K} (hg : Spec.IsGolden g) (hlt : lo0 < up0)
    (h : GInv q g up0 qup0 lo0 qlo0 k s) : s.lo < s.mid1 ∧ s.mid1 < s.mid2 ∧ s.mid2 < s.up := by
  have h0 := golden_pos hg
  have h1 := hg.half
  have hw : 0 < s.up - s.lo := by
    rw [h.width]
    have : 0 < 1 - g := by linarith
    have := sub_pos.2 hlt
    positivity
  refine ⟨?_, ?_, ?_⟩
  · rw [h.mid1]; nlinarith
  · rw [h.mid1, h.mid2]; nlinarith
  · rw [h.mid2]; nlinarith

theorem ginv_step {q : K → K} {g up0 qup0 lo0 qlo0 : K} {k : Nat} {s : GS K} (hg : Spec.IsGolden g) (hlt : lo0 < up0)
    (h : GInv q g up0 qup0 lo0 qlo0 k s) : GInv q g up0 qup0 lo0 qlo0 (k + 1) (gsStep q g s) := by
  obtain ⟨p1, p2, p3⟩ := ginv_pos hg hlt h
  have h0 := golden_pos hg
  have h1 := hg.half
  have hr := hg.root
  have hw : 0 < s.up - s.lo := by linarith
  have hlo := h.lo_ge
  have hup := h.up_le
  have hm1 := h.mid1
  have hm2 := h.mid2
  unfold gsStep
  by_cases hc : s.q2 < s.q1
  · rw [if_pos hc]
    have e1 : s.mid2 = s.mid1 + g * (s.up - s.mid1) := by
      rw [hm1, hm2]; linear_combination (s.up - s.lo) * hr
    refine ⟨by simp only; linarith, hup, ?_, e1, rfl, h.q2, rfl, Or.inr ⟨by simp only; linarith, h.q1, ?_⟩, ?_, ?_, ?_, ?_, ?_, ?_⟩
    · simp only
      rw [pow_succ, mul_right_comm, ← h.width, hm1]; ring
    · simp only [List.mem_append]; exact Or.inl h.mem1
    · simp only
      rcases h.qup with hq | hq
      · exact Or.inl hq
      · exact Or.inr ⟨hq.1, hq.2.1, List.mem_append_left _ hq.2.2⟩
    · intro e he
      simp only [List.mem_append, List.mem_singleton] at he ⊢
      rcases he with he | rfl
      · left
        rcases h.best e he with h2 | h2
        · exact hc.le.trans h2
        · exact h2
      · exact Or.inr (le_refl _)
    · simp only [List.length_append, h.count, List.length_singleton]
    · intro e he
      simp only [List.mem_append, List.mem_singleton] at he
      rcases he with he | rfl
      · exact h.inside e he
      · constructor <;> nlinarith
    · simp only [List.mem_append]; exact Or.inl h.mem2
    · simp
  · rw [if_neg hc]
    push Not at hc
    have e1 : s.mid1 = s.lo + (1 - g) * (s.mid2 - s.lo) := by
      rw [hm1, hm2]; linear_combination -(s.up - s.lo) * hr
    refine ⟨hlo, by simp only; linarith, ?_, rfl, e1, rfl, h.q1, ?_, Or.inr ⟨by simp only; linarith, h.q2, ?_⟩, ?_, ?_, ?_, ?_, ?_⟩
    · simp only
      rw [pow_succ, mul_right_comm, ← h.width, hm2]; ring
    · simp only
      rcases h.qlo with hq | hq
      · exact Or.inl hq
      · exact Or.inr ⟨hq.1, hq.2.1, List.mem_append_left _ hq.2.2⟩
    · simp only [List.mem_append]; exact Or.inl h.mem2
    · intro e he
      simp only [List.mem_append, List.mem_singleton] at he ⊢
      rcases he with he | rfl
      · right
        rcases h.best e he with h2 | h2
        · exact h2
        · exact hc.trans h2
      · exact Or.inl (le_refl _)
    · simp only [List.length_append, h.count, List.length_singleton]
    · intro e he
      simp only [List.mem_append, List.mem_singleton] at he
      rcases he with he | rfl
      · exact h.inside e he
      · constructor <;> nlinarith
    · simp
    · simp only [List.mem_append]; exact Or.inl h.mem1

/-- With a strictly unimodal function a minimizer of the whole interval stays in the bracket. -/
theorem step_keeps_min {q : K → K} {g up0 qup0 lo0 qlo0 x : K} {k : Nat} {s : GS K} (hg : Spec.IsGolden g) (hlt : lo0 < up0)
    (h : GInv q g up0 qup0 lo0 qlo0 k s) (hu : Spec.Unimodal q lo0 up0) (hx : Spec.IsMin q lo0 up0 x) (hb : s.lo ≤ x ∧ x ≤ s.up) :
    (gsStep q g s).lo ≤ x ∧ x ≤ (gsStep q g s).up := by
  obtain ⟨p1, p2, p3⟩ := ginv_pos hg hlt h
  have hlo := h.lo_ge
  have hup := h.up_le
  unfold gsStep
  by_cases hc : s.q2 < s.q1
  · rw [if_pos hc]
    refine ⟨?_, hb.2⟩
    simp only
    by_contra hn
    push Not at hn
    have := hu x s.mid1 s.mid2 hx.1 hn p2 (by linarith)
    have h2 := hx.2.2 s.mid2 (by linarith) (by linarith)
    rw [max_eq_right h2, ← h.q1, ← h.q2] at this
    exact absurd hc this.not_gt
  · rw [if_neg hc]
    refine ⟨hb.1, ?_⟩
    simp only
    by_contra hn
    push Not at hn
    have := hu s.mid1 s.mid2 x (by linarith) p2 hn hx.2.1
    have h2 := hx.2.2 s.mid1 (by linarith) (by linarith)
    rw [max_eq_left h2, ← h.q1, ← h.q2] at this
    exact hc this

/-- What the loop leaves after `k + j` sections. -/
theorem gsLoop_spec {q : K → K} {g sigmaTol qfTol up0 qup0 lo0 qlo0 : K} (hg : Spec.IsGolden g) (hlt : lo0 < up0) :
    ∀ (n k : Nat) (s : GS K), GInv q g up0 qup0 lo0 qlo0 k s →
      ∃ j, j ≤ n ∧ GInv q g up0 qup0 lo0 qlo0 (k + j) (gsLoop q g sigmaTol qfTol n s)
        ∧ (j < n → ¬ ((gsLoop q g sigmaTol qfTol n s).wide sigmaTol ∧ (gsLoop q g sigmaTol qfTol n s).steep qfTol))
        ∧ (∀ i < j, 0 ≤ sigmaTol → sigmaTol * lo0 ≤ (1 - g) ^ (k + i) * (up0 - lo0))
        ∧ ((Spec.Unimodal q lo0 up0) → ∀ x, Spec.IsMin q lo0 up0 x → s.lo ≤ x ∧ x ≤ s.up →
            (gsLoop q g sigmaTol qfTol n s).lo ≤ x ∧ x ≤ (gsLoop q g sigmaTol qfTol n s).up)
  | 0, k, s, h => ⟨0, le_refl _, h, by simp, by simp, fun _ _ _ h => h⟩
  | n + 1, k, s, h => by
    unfold gsLoop
    by_cases hc : s.wide sigmaTol ∧ s.steep qfTol
    · simp only [if_pos hc]
      obtain ⟨j, hj, hi, he, ht, hm⟩ := gsLoop_spec (sigmaTol := sigmaTol) (qfTol := qfTol) hg hlt n (k + 1) _ (ginv_step hg hlt h)
      refine ⟨j + 1, by omega, ?_, fun h1 => he (by omega), ?_, ?_⟩
      · rw [show k + (j + 1) = k + 1 + j by omega]; exact hi
      · intro i hi0 hs
        cases i with
        | zero =>
          have := hc.1
          unfold GS.wide at this
          rw [h.width] at this
          have hp := ginv_pos hg hlt h
          have : sigmaTol * lo0 ≤ sigmaTol * s.up := mul_le_mul_of_nonneg_left (by linarith [h.lo_ge]) hs
          simpa using this.trans (by assumption)
        | succ i =>
          have := ht i (by omega) hs
          rwa [show k + (i + 1) = k + 1 + i by omega]
      · intro hu x hx hb
        exact hm hu x hx (step_keeps_min hg hlt h hu hx hb)
    · simp only [if_neg hc]
      exact ⟨0, by omega, h, fun _ => hc, by simp, fun _ _ _ h => h⟩

end Verif.MuOracle
