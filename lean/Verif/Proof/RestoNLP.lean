import Verif.Spec.RestoNLP
import Mathlib.Analysis.Calculus.Deriv.Mul
import Mathlib.Analysis.Calculus.Deriv.Add
import Mathlib.Analysis.Calculus.Deriv.Pow
import Mathlib.Data.Real.Sqrt
import Mathlib.Tactic.Linarith
import Mathlib.Tactic.Ring
import Mathlib.Tactic.FieldSimp

namespace Verif.RestoNLP
open scoped BigOperators Topology
set_option linter.unusedSectionVars false
set_option linter.unusedSimpArgs false
set_option linter.unusedVariables false

section
variable {K : Type} [Field K] [LinearOrder K] [IsStrictOrderedRing K] {X C D : Type} [Fintype X] [Fintype C] [Fintype D]
  [DecidableEq X] [DecidableEq C] [DecidableEq D]

theorem dr_eq (orig : Orig K X C D) (rho ef : K) (e : Bool) (xr : X → K) (i : X) :
    (Resto.new orig rho ef e xr).dr i = (max 1 |xr i|)⁻¹ := by
  show (max (max 1 (xr i)) (-1 * xr i))⁻¹ = _
  rw [max_assoc]
  congr 2
  rw [abs_eq_max_neg, neg_one_mul]

theorem dr2_eq (orig : Orig K X C D) (rho ef : K) (e : Bool) (xr : X → K) (i : X) :
    (Resto.new orig rho ef e xr).dr2 i = (max 1 |xr i|)⁻¹ * (max 1 |xr i|)⁻¹ := by
  rw [← dr_eq orig rho ef e xr i]; rfl

/-- the value, without the evaluation of the original objective. -/
def val (R : Resto K X C D) (pow : K → K) (v : X5 K X C D) (mu : K) : K :=
  R.rho * (∑ i, v.nc i + ∑ i, v.pc i + ∑ i, v.nd i + ∑ i, v.pd i) + prox (R.eta pow mu) R.xRef v.x

theorem f_eq (sqrt pow : K → K) (hs : ∀ a, 0 ≤ a → sqrt a * sqrt a = a) (orig : Orig K X C D) (rho ef : K) (e : Bool) (xr : X → K)
    (v : X5 K X C D) (mu : K) :
    (Resto.new orig rho ef e xr).f sqrt pow v mu =
      if e then (orig.f v.x).map fun _ => val (Resto.new orig rho ef e xr) pow v mu else some (val (Resto.new orig rho ef e xr) pow v mu) := by
  set R := Resto.new orig rho ef e xr with hR
  have key : R.rho * (v.sum - ∑ i, v.x i) + R.eta pow mu / 2 * sqrt (∑ i, (v.x i - R.xRef i) * R.dr i * ((v.x i - R.xRef i) * R.dr i)) *
      sqrt (∑ i, (v.x i - R.xRef i) * R.dr i * ((v.x i - R.xRef i) * R.dr i)) = val R pow v mu := by
    rw [mul_assoc (R.eta pow mu / 2), hs _ (Finset.sum_nonneg fun i _ => mul_self_nonneg _)]
    unfold val prox X5.sum
    congr 1
    · ring
    · congr 1
      refine Finset.sum_congr rfl fun i _ => ?_
      rw [hR, dr_eq]; show _ = ((v.x i - xr i) / max 1 |xr i|) ^ 2; rw [div_eq_mul_inv]
      show (v.x i - xr i) * _ * ((v.x i - xr i) * _) = _
      ring
  unfold Resto.f
  simp only [key]
  show (if e then _ else _) = _
  rfl

theorem sum_abs_le {ι : Type} [Fintype ι] (a n p : ι → K) (hn : ∀ i, 0 ≤ n i) (hp : ∀ i, 0 ≤ p i) (h : ∀ i, a i + n i - p i = 0) :
    ∑ i, |a i| ≤ ∑ i, n i + ∑ i, p i := by
  rw [← Finset.sum_add_distrib]
  refine Finset.sum_le_sum fun i _ => ?_
  have := hn i; have := hp i; have := h i
  rw [abs_le]; constructor <;> linarith

theorem sum_abs_eq {ι : Type} [Fintype ι] (a : ι → K) : ∑ i, |a i| = ∑ i, max 0 (-a i) + ∑ i, max 0 (a i) := by
  rw [← Finset.sum_add_distrib]
  refine Finset.sum_congr rfl fun i _ => ?_
  rcases le_total 0 (a i) with h | h
  · rw [abs_of_nonneg h, max_eq_left (by linarith), max_eq_right h]; ring
  · rw [abs_of_nonpos h, max_eq_right (by linarith), max_eq_left h]; ring

theorem split_zero (a : K) : a + max 0 (-a) - max 0 a = 0 := by
  rcases le_total 0 a with h | h
  · rw [max_eq_left (by linarith), max_eq_right h]; ring
  · rw [max_eq_right (by linarith), max_eq_left h]; ring

end

section
variable {X C D m : Type} [Fintype X] [Fintype C] [Fintype D] [Fintype m] [DecidableEq X] [DecidableEq C] [DecidableEq D]

theorem line_deriv (a b : ℝ) : HasDerivAt (fun t : ℝ => a + t * b) b 0 := by
  simpa using ((hasDerivAt_id (0 : ℝ)).mul_const b).const_add a

theorem prox_deriv (ζ : ℝ) (w xr x h : X → ℝ) :
    HasDerivAt (fun t : ℝ => ζ / 2 * ∑ i, ((x i + t * h i - xr i) / w i) ^ 2)
      (∑ i, ζ * ((x i - xr i) * ((w i)⁻¹ * (w i)⁻¹)) * h i) 0 := by
  have h1 : ∀ i, HasDerivAt (fun t : ℝ => ((x i + t * h i - xr i) / w i) ^ 2) (2 * ((x i - xr i) / w i) * (h i / w i)) 0 := by
    intro i
    have := (((line_deriv (x i) (h i)).sub_const (xr i)).div_const (w i)).fun_pow 2
    simpa using this
  have h2 := (HasDerivAt.fun_sum (u := Finset.univ) fun i _ => h1 i).const_mul (ζ / 2)
  refine h2.congr_deriv ?_
  rw [Finset.mul_sum]
  refine Finset.sum_congr rfl fun i _ => ?_
  rw [div_eq_mul_inv, div_eq_mul_inv]; ring

theorem linsum_deriv {ι : Type} [Fintype ι] (a h : ι → ℝ) : HasDerivAt (fun t : ℝ => ∑ i, (a i + t * h i)) (∑ i, h i) 0 :=
  HasDerivAt.fun_sum fun i _ => line_deriv (a i) (h i)

theorem val_deriv (R : Resto ℝ X C D) (pow : ℝ → ℝ) (v h : X5 ℝ X C D) (mu : ℝ) (hdr : ∀ i, R.dr2 i = (max 1 |R.xRef i|)⁻¹ * (max 1 |R.xRef i|)⁻¹) :
    HasDerivAt (fun t => val R pow (v.move h t) mu) ((R.gradF pow v mu).dot h) 0 := by
  have h1 := ((((linsum_deriv v.nc h.nc).add (linsum_deriv v.pc h.pc)).add (linsum_deriv v.nd h.nd)).add (linsum_deriv v.pd h.pd)).const_mul R.rho
  have h2 := h1.add (prox_deriv (R.eta pow mu) (fun i => max 1 |R.xRef i|) R.xRef v.x h.x)
  refine h2.congr_deriv ?_
  unfold Resto.gradF X5.dot
  simp only [← hdr, ← Finset.mul_sum]
  ring

end
end Verif.RestoNLP
