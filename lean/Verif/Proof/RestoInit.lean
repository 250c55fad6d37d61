import Verif.Spec.RestoInit
import Verif.Props.RestoNLP

namespace Verif.RestoInit
open Verif.RestoNLP
open scoped BigOperators
set_option linter.unusedSectionVars false
set_option linter.unusedSimpArgs false
set_option linter.unusedVariables false

section
variable {K : Type} [Field K] [LinearOrder K] [IsStrictOrderedRing K]

theorem amax_spec {ι : Type} [Fintype ι] (v : ι → K) : 0 ≤ amax v ∧ ∀ i, |v i| ≤ amax v := by
  unfold amax
  exact ⟨Finset.le_fold_max .. |>.2 (Or.inl le_rfl), fun i => (Finset.le_fold_max ..).2 (Or.inr ⟨i, Finset.mem_univ _, le_rfl⟩)⟩

theorem amax_le {ι : Type} [Fintype ι] {v : ι → K} {b : K} (hb : 0 ≤ b) (h : ∀ i, |v i| ≤ b) : amax v ≤ b := by
  unfold amax
  exact Finset.fold_max_le .. |>.2 ⟨hb, fun i _ => h i⟩

variable (sqrt : K → K) (hs : ∀ a, 0 ≤ a → 0 ≤ sqrt a ∧ sqrt a * sqrt a = a)
include hs

theorem n_root (mu rho c : K) : ∃ r, 0 ≤ r ∧ r * r = (mu / (2 * rho)) ^ 2 + (c / 2) ^ 2 ∧ nInit sqrt mu rho c = r + mu / (2 * rho) - c / 2 := by
  set m := mu / (2 * rho) with hm
  have h1 : (m + -(1 / 2) * c) * (m + -(1 / 2) * c) + 1 * (m * c) = m ^ 2 + (c / 2) ^ 2 := by ring
  have h2 := hs (m ^ 2 + (c / 2) ^ 2) (by positivity)
  refine ⟨sqrt (m ^ 2 + (c / 2) ^ 2), h2.1, h2.2, ?_⟩
  unfold nInit solveQuadratic
  rw [← hm, h1]; ring

theorem np_pos (mu rho c : K) (hmu : 0 < mu) (hr : 0 < rho) : 0 < nInit sqrt mu rho c ∧ 0 < pInit sqrt mu rho c := by
  obtain ⟨r, h0, h1, h2⟩ := n_root sqrt hs mu rho c
  have hm : 0 < mu / (2 * rho) := by positivity
  set m := mu / (2 * rho)
  have h3 : |c / 2| ≤ r := abs_le_of_sq_le_sq (by nlinarith [sq_nonneg m]) h0
  rw [abs_le] at h3
  unfold pInit
  rw [h2]
  constructor <;> linarith [h3.1, h3.2]

/-- the relation between `n` and `p`: `2 ρ n p = μ (n + p)`. -/
theorem np_rel (mu rho c : K) (hr : 0 < rho) :
    2 * rho * (nInit sqrt mu rho c * pInit sqrt mu rho c) = mu * (nInit sqrt mu rho c + pInit sqrt mu rho c) := by
  obtain ⟨r, h0, h1, h2⟩ := n_root sqrt hs mu rho c
  have hm : mu = mu / (2 * rho) * (2 * rho) := by field_simp
  unfold pInit
  rw [h2]
  generalize mu / (2 * rho) = m at *
  rw [hm]
  have : (r + m - c / 2) * (c + 1 * (r + m - c / 2)) = r * r + 2 * r * m + m ^ 2 - (c / 2) ^ 2 := by ring
  rw [this, h1]; ring

end

section
/-- one pair of relaxation variables: the point computed minimizes `ρ(n+p) − μ(log n + log p)` for given `p − n`. -/
theorem pair_min (rho mu n p n' p' : ℝ) (hmu : 0 < mu) (hn : 0 < n) (hp : 0 < p) (hn' : 0 < n') (hp' : 0 < p')
    (hrel : 2 * rho * (n * p) = mu * (n + p)) (hd : p' - n' = p - n) :
    rho * (n + p) - mu * (Real.log n + Real.log p) ≤ rho * (n' + p') - mu * (Real.log n' + Real.log p') := by
  have l1 := Real.log_le_sub_one_of_pos (div_pos hn' hn)
  have l2 := Real.log_le_sub_one_of_pos (div_pos hp' hp)
  rw [Real.log_div hn'.ne' hn.ne'] at l1
  rw [Real.log_div hp'.ne' hp.ne'] at l2
  have e1 : n' / n - 1 = (n' - n) / n := by field_simp
  have e2 : p' / p - 1 = (n' - n) / p := by rw [show p' = p + (n' - n) by linarith]; field_simp; ring
  have e3 : mu * ((n' - n) / n + (n' - n) / p) = 2 * rho * (n' - n) := by
    have : mu * ((n' - n) / n + (n' - n) / p) = (n' - n) * (mu * (n + p)) / (n * p) := by field_simp; ring
    rw [this, ← hrel]; field_simp
  have h3 : mu * (Real.log n' - Real.log n + (Real.log p' - Real.log p)) ≤ mu * ((n' - n) / n + (n' - n) / p) :=
    mul_le_mul_of_nonneg_left (by rw [← e1, ← e2]; linarith) hmu.le
  rw [e3] at h3
  have : p' = p + (n' - n) := by linarith
  rw [this] at h3 ⊢
  linarith
end

section
variable {K : Type} [Field K] [LinearOrder K] [IsStrictOrderedRing K]

theorem frac_spec {ι : Type} [Fintype ι] (x dx : ι → K) (tau : K) (ht : 0 < tau) (hx : ∀ i, 0 < x i) :
    0 < fracToBound x dx tau ∧ fracToBound x dx tau ≤ 1 ∧ (∀ i a, 0 ≤ a → a ≤ fracToBound x dx tau → (1 - tau) * x i ≤ x i + a * dx i ∨ 0 ≤ dx i) ∧
    (fracToBound x dx tau = 1 ∨ ∃ i, dx i < 0 ∧ x i + fracToBound x dx tau * dx i = (1 - tau) * x i) := by
  have hpos : ∀ i, 0 < (if dx i < 0 then -tau / dx i * x i else 1) := by
    intro i; split
    · rename_i h; exact mul_pos (div_pos_of_neg_of_neg (by linarith) h) (hx i)
    · exact one_pos
  have hle : ∀ i, fracToBound x dx tau ≤ (if dx i < 0 then -tau / dx i * x i else 1) := fun i =>
    (Finset.fold_min_le ..).2 (Or.inr ⟨i, Finset.mem_univ _, le_rfl⟩)
  have h1 : fracToBound x dx tau ≤ 1 := (Finset.fold_min_le ..).2 (Or.inl le_rfl)
  refine ⟨(Finset.lt_fold_min ..).2 ⟨one_pos, fun i _ => hpos i⟩, h1, ?_, ?_⟩
  · intro i a ha0 ha
    by_cases h : dx i < 0
    · left
      have := ha.trans (hle i)
      rw [if_pos h] at this
      have h2 := mul_le_mul_of_nonpos_right this h.le
      have : -tau / dx i * x i * dx i = -tau * x i := by field_simp [h.ne]
      rw [this] at h2; linarith
    · exact Or.inr (not_lt.1 h)
  · by_cases h : fracToBound x dx tau = 1
    · exact Or.inl h
    · right
      have hlt : fracToBound x dx tau < 1 := lt_of_le_of_ne h1 h
      have : ∃ i, (if dx i < 0 then -tau / dx i * x i else 1) ≤ fracToBound x dx tau := by
        rcases (Finset.fold_min_le (s := Finset.univ) (f := fun i => if dx i < 0 then -tau / dx i * x i else 1) (b := 1) (fracToBound x dx tau)).1 le_rfl with h | ⟨i, _, h⟩
        · exact absurd h (not_le.2 hlt)
        · exact ⟨i, h⟩
      obtain ⟨i, hi⟩ := this
      have he := le_antisymm (hle i) hi
      by_cases hd : dx i < 0
      · rw [if_pos hd] at he
        refine ⟨i, hd, ?_⟩
        rw [he]; field_simp [hd.ne]; ring
      · rw [if_neg hd] at he; exact absurd he h

end
end Verif.RestoInit
