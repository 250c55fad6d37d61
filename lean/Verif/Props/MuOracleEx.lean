import Verif.Props.QfOracle
import Mathlib.Data.Real.Sqrt
import Mathlib.Tactic.FinCases

set_option linter.unusedSectionVars false
set_option linter.unusedSimpArgs false
set_option linter.unusedVariables false

/-! # C58: concrete cases and limits -/

namespace Verif.MuOracle.Ex

open Verif.MuOracle

/-- The factor used by the code, `(3 - sqrt 5)/2`, is the golden section factor. -/
theorem gfac_golden : Spec.IsGolden ((3 - Real.sqrt 5) / 2) := by
  have h5 : Real.sqrt 5 ^ 2 = 5 := Real.sq_sqrt (by norm_num)
  refine ⟨by linear_combination h5 / 4, ?_⟩
  have : 2 < Real.sqrt 5 := by
    rw [show (2 : ℝ) = Real.sqrt 4 by rw [show (4 : ℝ) = 2 ^ 2 by norm_num]; exact (Real.sqrt_sq (by norm_num)).symm]
    exact Real.sqrt_lt_sqrt (by norm_num) (by norm_num)
  linarith

/-- The default options, except `sigma_max` and the number of sections. -/
noncomputable def par (sigmaMax : ℝ) (n : Nat) : Par ℝ where
  sigmaMax := sigmaMax
  sigmaMin := 1 / 10 ^ 6
  norm := .twoSquared
  cen := .none
  balancing := false
  maxSteps := n
  sigmaTol := 1 / 100
  qfTol := 0
  tau := 99 / 100
  sqrt := Real.sqrt
  log := fun _ => 0
  gfac := (3 - Real.sqrt 5) / 2

/-- One variable with a lower bound, slack and multiplier one. -/
def it : Iter ℝ where
  slack := ⟨[1], [], [], []⟩
  mult := ⟨[1], [], [], []⟩
  gradLagX := [0]
  gradLagS := []
  c := []
  dMinusS := []
  dampX := [0]
  dampS := []
  pxL := [0]
  pxU := []
  pdL := []
  pdU := []

theorem it_interior : Spec.Interior it := by
  refine ⟨⟨rfl, rfl, rfl, rfl⟩, ?_, ?_, by simp [Spec.elems, it], by simp [it], rfl, rfl, rfl, rfl⟩
  · intro a ha; simp [Spec.elems, it] at ha; subst ha; norm_num
  · intro a ha; simp [Spec.elems, it] at ha; subst ha; norm_num

theorem it_mean : Spec.mean (Spec.products it) = 1 := by simp [Spec.mean, Spec.products, Spec.pairs, it]

/-- The function `1 + (s - 2)²` is strictly unimodal with minimizer 2. -/
theorem parabola (L U : ℝ) : Spec.Unimodal (fun s => 1 + (s - 2) ^ 2) L U := by
  intro a y b _ h1 h2 _
  simp only
  by_contra hn
  push Not at hn
  have h3 := max_le_iff.1 hn
  have e1 : 0 ≤ (y - a) * (y + a - 4) := by nlinarith [h3.1]
  have e2 : 0 ≤ (b - y) * (4 - (y + b)) := by nlinarith [h3.2]
  have e3 := nonneg_of_mul_nonneg_right e1 (by linarith)
  have e4 := nonneg_of_mul_nonneg_right e2 (by linarith)
  linarith

/-- The hypotheses of `sigma_accuracy` are met by the default options and a parabola with minimizer 2. -/
theorem accuracy_meets_hypotheses :
    Spec.IsGolden (par 100 8).gfac ∧ (∀ s : ℝ, 0 < 1 + (s - 2) ^ 2) ∧ (par 100 8).qfTol < 1
    ∧ max (par 100 8).sigmaMin (1 / 10 ^ 11 / 1) < 1 - max (1 / 10000) (par 100 8).sigmaTol ∧ 1 < min (par 100 8).sigmaMax (1000 / 1)
    ∧ Spec.Unimodal (fun s => 1 + (s - 2) ^ 2) (max (par 100 8).sigmaMin (1 / 10 ^ 11 / 1)) (min (par 100 8).sigmaMax (1000 / 1))
    ∧ Spec.IsMin (fun s => 1 + (s - 2) ^ 2) (max (par 100 8).sigmaMin (1 / 10 ^ 11 / 1)) (min (par 100 8).sigmaMax (1000 / 1)) 2 := by
  refine ⟨gfac_golden, fun s => by positivity, by norm_num [par], by norm_num [par], by norm_num [par], parabola _ _, ⟨by norm_num [par], by norm_num [par], fun y _ _ => ?_⟩⟩
  simp only
  nlinarith [sq_nonneg (y - 2)]

/-- A solver that answers the affine system with zero and the centering system with a step that reduces the slack. -/
noncomputable def solve (al : ℝ) (_ : Step ℝ) : Option (Step ℝ) :=
  if al = 1 then some ⟨[-1 / 2], [], [], [], ⟨[0], [], [], []⟩⟩ else some ⟨[0], [], [], [], ⟨[0], [], [], []⟩⟩

theorem q_up : quality (par 2 8) it ⟨[0], [], [], [], ⟨[0], [], [], []⟩⟩ ⟨[-1 / 2], [], [], [], ⟨[0], [], [], []⟩⟩ 1
    < quality (par 2 8) it ⟨[0], [], [], [], ⟨[0], [], [], []⟩⟩ ⟨[-1 / 2], [], [], [], ⟨[0], [], [], []⟩⟩ (1 - max (1 / 10000) (par 2 8).sigmaTol) := by
  norm_num [quality, afterStep, qfTerms, par, it, addScaled, slackStep, sel, frac4, frac, compl, VecOps.zip2, sq, VecOps.dot]

/-- **C58 (limit)** The parameter of the quality function oracle can be below the `mu_min` it is given (which contains `mu_target`): when the quality
function decreases beyond `sigma = 1`, only the upper bounds are taken into account. -/
theorem qf_below_mu_min : ∃ r, qfOracle (par 2 8) it solve 3 1000 = some r ∧ r.mu < 3 := by
  obtain ⟨h1, h2⟩ := qf_mu (p := par 2 8) gfac_golden it_interior (solve := solve) 3 1000
  have hne : qfOracle (par 2 8) it solve 3 1000 ≠ none := by
    rw [Ne, h1]
    norm_num [solve]
    exact ⟨Option.some_ne_none _, Option.some_ne_none _⟩
  obtain ⟨r, hr⟩ := Option.ne_none_iff_exists'.1 hne
  refine ⟨r, hr, ?_⟩
  obtain ⟨cen, e1, e2, e3, e4, e5, e6, e7, e8⟩ := h2 r hr
  have a1 : r.deltaAff = ⟨[0], [], [], [], ⟨[0], [], [], []⟩⟩ := by
    have : solve (-1) (rhsAff it) = some ⟨[0], [], [], [], ⟨[0], [], [], []⟩⟩ := by norm_num [solve]
    rw [this] at e1; exact (Option.some.inj e1).symm
  have a2 : cen = ⟨[-1 / 2], [], [], [], ⟨[0], [], [], []⟩⟩ := by
    have : solve 1 (rhsCen it) = some ⟨[-1 / 2], [], [], [], ⟨[0], [], [], []⟩⟩ := by norm_num [solve]
    rw [this] at e2; exact (Option.some.inj e2).symm
  rw [a1, a2] at e8
  have := (e8 q_up).1
  rw [it_mean] at this
  norm_num [par] at this
  linarith

/-- **C58 (limit)** With `quality_function_max_section_steps = 0` (allowed) the lower end of the interval is never returned, however good it is. -/
theorem lower_end_never_chosen {q : ℝ → ℝ} {g sigmaTol qfTol up qup lo : ℝ} (hg : Spec.IsGolden g) (hlt : lo < up) (hq : ∀ x, 0 < q x) (hqf : qfTol < 1) :
    lo < (golden q g sigmaTol qfTol 0 up qup lo (-100)).1 := by
  have h := ginv_init (q := q) (qup0 := qup) (qlo0 := -100) hg hlt
  obtain ⟨p1, p2, p3⟩ := ginv_pos hg hlt h
  have hst := sentinel_steep hqf (s := gsInit q g up qup lo (-100)) (by rw [h.q1]; exact hq _) (Or.inl rfl)
  have p1 : lo < (gsInit q g up qup lo (-100)).mid1 := p1
  have hu : (gsInit q g up qup lo (-100)).up = up := rfl
  unfold golden gsLoop gsSelect
  rw [if_neg (fun hh => hh.2 hst)]
  simp only [hu, if_true]
  split_ifs <;> linarith

/-- A function with a jump at one that decreases on both sides. -/
noncomputable def jump (s : ℝ) : ℝ := if s ≤ 1 then (if s = 1 then 1 else 2) else 3 + 1 / s

/-- **C58 (limit)** Without unimodality the result can be worse than the starting value `sigma = 1`, whose quality is known, but with which the result
is not compared. -/
theorem sigma_worse_than_one : jump 1 < jump (chooseSigma (par 100 1) jump 1 0 1000).1 := by
  have hj : ∀ s, 1 < s → jump s = 3 + 1 / s := fun s hs => by simp [jump, not_le.2 hs]
  have h1 : jump 1 = 1 := by simp [jump]
  have hm : jump (1 - max (1 / 10000) (par 100 1).sigmaTol) = 2 := by norm_num [jump, par]
  suffices h : 1 < (chooseSigma (par 100 1) jump 1 0 1000).1 by
    rw [hj _ h, h1]
    have : 0 < 1 / (chooseSigma (par 100 1) jump 1 0 1000).1 := by positivity
    linarith
  unfold chooseSigma
  simp only [h1, hm]
  rw [if_pos (by norm_num), if_neg (by norm_num [par])]
  simp only
  have hlt : (1 : ℝ) < min (par 100 1).sigmaMax (1000 / 1) := by norm_num [par]
  have hg : Spec.IsGolden (par 100 1).gfac := gfac_golden
  have hi := ginv_init (q := jump) (qup0 := -100) (qlo0 := 1) hg hlt
  obtain ⟨p1, p2, p3⟩ := ginv_pos hg hlt hi
  set s0 := gsInit jump (par 100 1).gfac (min (par 100 1).sigmaMax (1000 / 1)) (-100) 1 1 with hs0
  have p1 : (1 : ℝ) < s0.mid1 := p1
  have hq1 : s0.q1 = 3 + 1 / s0.mid1 := by rw [hi.q1, hj _ p1]
  have hq2 : s0.q2 = 3 + 1 / s0.mid2 := by rw [hi.q2, hj _ (p1.trans p2)]
  have hst : s0.steep (par 100 1).qfTol := by
    refine sentinel_steep (by norm_num [par]) ?_ (Or.inr rfl)
    rw [hq1]; positivity
  have hw : s0.wide (par 100 1).sigmaTol := by
    show (par 100 1).sigmaTol * (min (par 100 1).sigmaMax (1000 / 1)) ≤ min (par 100 1).sigmaMax (1000 / 1) - 1
    norm_num [par]
  have hloop : gsLoop jump (par 100 1).gfac (par 100 1).sigmaTol (par 100 1).qfTol (par 100 1).maxSteps s0 = gsStep jump (par 100 1).gfac s0 := by
    show gsLoop jump _ _ _ 1 s0 = _
    unfold gsLoop
    rw [if_pos ⟨hw, hst⟩]
    rfl
  have hlt2 : s0.q2 < s0.q1 := by
    rw [hq1, hq2]
    have : 1 / s0.mid2 < 1 / s0.mid1 := one_div_lt_one_div_of_lt (by linarith) p2
    linarith
  have hlo : (gsStep jump (par 100 1).gfac s0).lo = s0.mid1 := by
    unfold gsStep; rw [if_pos hlt2]
  have := (select_spec (sigmaTol := (par 100 1).sigmaTol) (qfTol := (par 100 1).qfTol) hg hlt (ginv_step hg hlt hi)).1
  unfold golden
  rw [← hs0, hloop]
  rw [hlo] at this
  linarith

end Verif.MuOracle.Ex
