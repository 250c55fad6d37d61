import Verif.Props.SearchDir
import Mathlib.Analysis.Calculus.Deriv.Add
import Mathlib.Analysis.Calculus.Deriv.Mul
import Mathlib.Analysis.Calculus.Deriv.Pi
import Mathlib.Analysis.Calculus.Deriv.Comp
import Mathlib.Analysis.Calculus.FDeriv.Basic
import Mathlib.Analysis.SpecialFunctions.Log.Deriv

/-! # C73: the search direction is a Newton direction -/

namespace Verif.SearchDir
open Verif.SOC
open scoped BigOperators
set_option linter.unusedSectionVars false
set_option linter.unusedVariables false

variable {X C D L U A B : Type}
variable [Fintype X] [Fintype C] [Fintype D] [Fintype L] [Fintype U] [Fintype A] [Fintype B] [DecidableEq X] [DecidableEq D]

/-- a problem: `min f` subject to `c = 0`, `d_L ≤ d ≤ d_U`, `x_L ≤ x ≤ x_U`. -/
structure Problem (X C D L U A B : Type) where
  f : (X → ℝ) → ℝ
  c : (X → ℝ) → C → ℝ
  d : (X → ℝ) → D → ℝ
  gradF : (X → ℝ) → X → ℝ
  Jc : (X → ℝ) → C → X → ℝ
  Jd : (X → ℝ) → D → X → ℝ
  pL : L → X
  pU : U → X
  qL : A → D
  qU : B → D
  xL : L → ℝ
  xU : U → ℝ
  dL : A → ℝ
  dU : B → ℝ

/-- the current data at the iterate `w`. -/
noncomputable def Problem.at (P : Problem X C D L U A B) (μ κ : ℝ) (w : Iter ℝ X C D L U A B) : Cur ℝ X C D L U A B where
  pL := P.pL
  pU := P.pU
  qL := P.qL
  qU := P.qU
  it := w
  gradF := P.gradF w.x
  Jc := P.Jc w.x
  Jd := P.Jd w.x
  c := P.c w.x
  d := P.d w.x
  slXL i := w.x (P.pL i) - P.xL i
  slXU i := P.xU i - w.x (P.pU i)
  slSL i := w.s (P.qL i) - P.dL i
  slSU i := P.dU i - w.s (P.qU i)
  mu := μ
  kappaD := κ

/-- The optimality conditions of the barrier problem (with damping), as residuals. -/
noncomputable def Problem.kkt (P : Problem X C D L U A B) (μ κ : ℝ) (w : Iter ℝ X C D L U A B) : Iter ℝ X C D L U A B where
  x j := P.gradF w.x j + ∑ i, P.Jc w.x i j * w.yc i + ∑ i, P.Jd w.x i j * w.yd i - (∑ i, if P.pL i = j then w.zL i else 0) + (∑ i, if P.pU i = j then w.zU i else 0) + damping P.pL P.pU κ μ j
  s i := -w.yd i - (∑ k, if P.qL k = i then w.vL k else 0) + (∑ k, if P.qU k = i then w.vU k else 0) + damping P.qL P.qU κ μ i
  yc i := P.c w.x i
  yd i := P.d w.x i - w.s i
  zL i := (w.x (P.pL i) - P.xL i) * w.zL i - μ
  zU i := (P.xU i - w.x (P.pU i)) * w.zU i - μ
  vL i := (w.s (P.qL i) - P.dL i) * w.vL i - μ
  vU i := (P.dU i - w.s (P.qU i)) * w.vU i - μ

/-- `w + t Δ`. -/
noncomputable def move (w : Iter ℝ X C D L U A B) (t : ℝ) (Δ : Iter ℝ X C D L U A B) : Iter ℝ X C D L U A B :=
  ⟨fun i => w.x i + t * Δ.x i, fun i => w.s i + t * Δ.s i, fun i => w.yc i + t * Δ.yc i, fun i => w.yd i + t * Δ.yd i, fun i => w.zL i + t * Δ.zL i, fun i => w.zU i + t * Δ.zU i,
   fun i => w.vL i + t * Δ.vL i, fun i => w.vU i + t * Δ.vU i⟩

/-- the derivatives given by the user are correct at `w`, in the direction `dx`: gradient of the objective, Jacobians, and `W` the Hessian of the Lagrangian; the Jacobians are continuous along the line. -/
structure Problem.Smooth (P : Problem X C D L U A B) (W : X → X → ℝ) (w : Iter ℝ X C D L U A B) (dx : X → ℝ) : Prop where
  c : ∀ i, HasDerivAt (fun t : ℝ => P.c (fun j => w.x j + t * dx j) i) (∑ j, P.Jc w.x i j * dx j) 0
  d : ∀ i, HasDerivAt (fun t : ℝ => P.d (fun j => w.x j + t * dx j) i) (∑ j, P.Jd w.x i j * dx j) 0
  hess : ∀ j, HasDerivAt (fun t : ℝ => P.gradF (fun j => w.x j + t * dx j) j + ∑ i, P.Jc (fun j => w.x j + t * dx j) i j * w.yc i + ∑ i, P.Jd (fun j => w.x j + t * dx j) i j * w.yd i)
    (∑ k, W j k * dx k) 0
  jc : ∀ i j, ContinuousAt (fun t : ℝ => P.Jc (fun j => w.x j + t * dx j) i j) 0
  jd : ∀ i j, ContinuousAt (fun t : ℝ => P.Jd (fun j => w.x j + t * dx j) i j) 0

theorem hasDerivAt_mul_of_cont {h : ℝ → ℝ} (hc : ContinuousAt h 0) : HasDerivAt (fun t => t * h t) (h 0) 0 := by
  rw [hasDerivAt_iff_tendsto_slope]
  have : Filter.Tendsto h (nhdsWithin 0 {0}ᶜ) (nhds (h 0)) := hc.tendsto.mono_left nhdsWithin_le_nhds
  refine this.congr' ?_
  filter_upwards [self_mem_nhdsWithin] with t ht
  have ht' : t ≠ 0 := ht
  simp only [slope, vsub_eq_sub, smul_eq_mul, zero_mul, sub_zero]
  field_simp

theorem der_congr {f g : ℝ → ℝ} {a b : ℝ} (h : HasDerivAt g b 0) (hf : f = g) (hab : a = b) : HasDerivAt f a 0 := by
  subst hf; subst hab; exact h

theorem hasDerivAt_line (a b : ℝ) : HasDerivAt (fun t : ℝ => a + t * b) b 0 := by
  simpa using ((hasDerivAt_id (0 : ℝ)).mul_const b).const_add a

/-- Along the search direction (without regularization and Mehrotra's term) every residual of the optimality conditions of the barrier problem decreases at unit rate: the direction is the Newton direction. -/
theorem newton_direction (P : Problem X C D L U A B) (μ κ : ℝ) (W : X → X → ℝ) (w Δ : Iter ℝ X C D L U A B) (hP : P.Smooth W w Δ.x)
    (hN : Newton W ⟨0, 0, 0, 0⟩ (P.at μ κ w) (fun _ => 0) (fun _ => 0) (fun _ => 0) (fun _ => 0) Δ) :
    (∀ j, HasDerivAt (fun t => (P.kkt μ κ (move w t Δ)).x j) (-(P.kkt μ κ w).x j) 0) ∧
    (∀ i, HasDerivAt (fun t => (P.kkt μ κ (move w t Δ)).s i) (-(P.kkt μ κ w).s i) 0) ∧
    (∀ i, HasDerivAt (fun t => (P.kkt μ κ (move w t Δ)).yc i) (-(P.kkt μ κ w).yc i) 0) ∧
    (∀ i, HasDerivAt (fun t => (P.kkt μ κ (move w t Δ)).yd i) (-(P.kkt μ κ w).yd i) 0) ∧
    (∀ i, HasDerivAt (fun t => (P.kkt μ κ (move w t Δ)).zL i) (-(P.kkt μ κ w).zL i) 0) ∧
    (∀ i, HasDerivAt (fun t => (P.kkt μ κ (move w t Δ)).zU i) (-(P.kkt μ κ w).zU i) 0) ∧
    (∀ i, HasDerivAt (fun t => (P.kkt μ κ (move w t Δ)).vL i) (-(P.kkt μ κ w).vL i) 0) ∧
    (∀ i, HasDerivAt (fun t => (P.kkt μ κ (move w t Δ)).vU i) (-(P.kkt μ κ w).vU i) 0) := by
  have prod : ∀ (a b a' b' : ℝ), HasDerivAt (fun t : ℝ => (a + t * a') * (b + t * b') - μ) (a' * b + a * b') 0 := by
    intro a b a' b'
    have := ((hasDerivAt_line a a').mul (hasDerivAt_line b b')).sub_const μ
    simpa using this
  have sumline : ∀ {I J : Type} [Fintype I] [DecidableEq J] (p : I → J) (z dz : I → ℝ) (j : J),
      HasDerivAt (fun t : ℝ => ∑ i, if p i = j then z i + t * dz i else 0) (∑ i, if p i = j then dz i else 0) 0 := by
    intro I J _ _ p z dz j
    refine HasDerivAt.fun_sum fun i _ => ?_
    by_cases h : p i = j
    · simp only [h, if_true]; exact hasDerivAt_line _ _
    · simp only [h, if_false]; exact hasDerivAt_const _ _
  refine ⟨fun j => ?_, fun i => ?_, fun i => ?_, fun i => ?_, fun i => ?_, fun i => ?_, fun i => ?_, fun i => ?_⟩
  · have h1 := hP.hess j
    have h2 : HasDerivAt (fun t : ℝ => ∑ i, t * (P.Jc (fun j => w.x j + t * Δ.x j) i j * Δ.yc i)) (∑ i, P.Jc w.x i j * Δ.yc i) 0 := by
      refine HasDerivAt.fun_sum fun i _ => ?_
      have := hasDerivAt_mul_of_cont (h := fun t : ℝ => P.Jc (fun j => w.x j + t * Δ.x j) i j * Δ.yc i) ((hP.jc i j).mul continuousAt_const)
      simpa using this
    have h3 : HasDerivAt (fun t : ℝ => ∑ i, t * (P.Jd (fun j => w.x j + t * Δ.x j) i j * Δ.yd i)) (∑ i, P.Jd w.x i j * Δ.yd i) 0 := by
      refine HasDerivAt.fun_sum fun i _ => ?_
      have := hasDerivAt_mul_of_cont (h := fun t : ℝ => P.Jd (fun j => w.x j + t * Δ.x j) i j * Δ.yd i) ((hP.jd i j).mul continuousAt_const)
      simpa using this
    have h := ((((h1.add h2).add h3).sub (sumline P.pL w.zL Δ.zL j)).add (sumline P.pU w.zU Δ.zU j)).add_const (damping P.pL P.pU κ μ j)
    have e : P.gradF w.x j + ∑ i, P.Jc w.x i j * (w.yc i + Δ.yc i) + ∑ i, P.Jd w.x i j * (w.yd i + Δ.yd i) - (∑ i, if P.pL i = j then w.zL i + Δ.zL i else 0)
        + (∑ i, if P.pU i = j then w.zU i + Δ.zU i else 0) + damping P.pL P.pU κ μ j + ∑ k, W j k * Δ.x k + 0 * Δ.x j = 0 := hN.x j
    have s1 : (∑ i, if P.pL i = j then w.zL i + Δ.zL i else 0) = (∑ i, if P.pL i = j then w.zL i else 0) + ∑ i, if P.pL i = j then Δ.zL i else 0 := sum_if_add _ _ _ _
    have s2 : (∑ i, if P.pU i = j then w.zU i + Δ.zU i else 0) = (∑ i, if P.pU i = j then w.zU i else 0) + ∑ i, if P.pU i = j then Δ.zU i else 0 := sum_if_add _ _ _ _
    rw [s1, s2] at e
    simp only [mul_add, Finset.sum_add_distrib, zero_mul, add_zero] at e
    refine der_congr h ?_ ?_
    · funext t
      simp only [Problem.kkt, move, Pi.add_apply, Pi.sub_apply, mul_add, Finset.sum_add_distrib]
      have a1 : ∀ (i : C), P.Jc (fun j => w.x j + t * Δ.x j) i j * (t * Δ.yc i) = t * (P.Jc (fun j => w.x j + t * Δ.x j) i j * Δ.yc i) := fun i => by ring
      have a2 : ∀ (i : D), P.Jd (fun j => w.x j + t * Δ.x j) i j * (t * Δ.yd i) = t * (P.Jd (fun j => w.x j + t * Δ.x j) i j * Δ.yd i) := fun i => by ring
      simp only [a1, a2]
      ring
    · simp only [Problem.kkt]
      linarith
  · have h := (((hasDerivAt_line (w.yd i) (Δ.yd i)).neg.sub (sumline P.qL w.vL Δ.vL i)).add (sumline P.qU w.vU Δ.vU i)).add_const (damping P.qL P.qU κ μ i)
    have e : -(w.yd i + Δ.yd i) - (∑ k, if P.qL k = i then w.vL k + Δ.vL k else 0) + (∑ k, if P.qU k = i then w.vU k + Δ.vU k else 0) + damping P.qL P.qU κ μ i + 0 * Δ.s i = 0 := hN.s i
    have s1 : (∑ k, if P.qL k = i then w.vL k + Δ.vL k else 0) = (∑ k, if P.qL k = i then w.vL k else 0) + ∑ k, if P.qL k = i then Δ.vL k else 0 := sum_if_add _ _ _ _
    have s2 : (∑ k, if P.qU k = i then w.vU k + Δ.vU k else 0) = (∑ k, if P.qU k = i then w.vU k else 0) + ∑ k, if P.qU k = i then Δ.vU k else 0 := sum_if_add _ _ _ _
    rw [s1, s2] at e
    simp only [zero_mul, add_zero] at e
    refine der_congr h rfl ?_
    simp only [Problem.kkt]
    linarith
  · have e := hN.c i
    simp only [Problem.at, zero_mul, sub_zero] at e
    refine der_congr (hP.c i) rfl ?_
    simp only [Problem.kkt]
    linarith
  · have e := hN.d i
    simp only [Problem.at, zero_mul, sub_zero] at e
    refine der_congr ((hP.d i).sub (hasDerivAt_line (w.s i) (Δ.s i))) rfl ?_
    simp only [Problem.kkt]
    linarith
  · have e := hN.zL i
    simp only [Problem.at] at e
    refine der_congr (prod (w.x (P.pL i) - P.xL i) (w.zL i) (Δ.x (P.pL i)) (Δ.zL i)) ?_ ?_
    · funext t; simp only [Problem.kkt, move]; ring
    · simp only [Problem.kkt]; linarith
  · have e := hN.zU i
    simp only [Problem.at] at e
    refine der_congr (prod (P.xU i - w.x (P.pU i)) (w.zU i) (-Δ.x (P.pU i)) (Δ.zU i)) ?_ ?_
    · funext t; simp only [Problem.kkt, move]; ring
    · simp only [Problem.kkt]; linarith
  · have e := hN.vL i
    simp only [Problem.at] at e
    refine der_congr (prod (w.s (P.qL i) - P.dL i) (w.vL i) (Δ.s (P.qL i)) (Δ.vL i)) ?_ ?_
    · funext t; simp only [Problem.kkt, move]; ring
    · simp only [Problem.kkt]; linarith
  · have e := hN.vU i
    simp only [Problem.at] at e
    refine der_congr (prod (P.dU i - w.s (P.qU i)) (w.vU i) (-Δ.s (P.qU i)) (Δ.vU i)) ?_ ?_
    · funext t; simp only [Problem.kkt, move]; ring
    · simp only [Problem.kkt]; linarith

/-- The barrier function: objective, logarithms of the slacks, damping of components with one bound. -/
noncomputable def Problem.barrier (P : Problem X C D L U A B) (μ κ : ℝ) (x : X → ℝ) (s : D → ℝ) : ℝ :=
  P.f x - μ * (∑ i, Real.log (x (P.pL i) - P.xL i) + ∑ i, Real.log (P.xU i - x (P.pU i)) + ∑ i, Real.log (s (P.qL i) - P.dL i) + ∑ i, Real.log (P.dU i - s (P.qU i)))
    + ∑ j, damping P.pL P.pU κ μ j * x j + ∑ i, damping P.qL P.qU κ μ i * s i

theorem sum_expand {I J : Type} [Fintype I] [Fintype J] [DecidableEq J] (p : I → J) (a : I → ℝ) (dx : J → ℝ) : ∑ j, (∑ i, if p i = j then a i else 0) * dx j = ∑ i, a i * dx (p i) := by
  simp only [Finset.sum_mul]
  rw [Finset.sum_comm]
  refine Finset.sum_congr rfl fun i _ => ?_
  rw [Finset.sum_eq_single (p i)]
  · rw [if_pos rfl]
  · intro j _ hj
    rw [if_neg (Ne.symm hj), zero_mul]
  · intro h; exact absurd (Finset.mem_univ _) h

/-- `curr_gradBarrTDelta` is the slope of the barrier function along the direction. -/
theorem barrier_derivative (P : Problem X C D L U A B) (μ κ : ℝ) (hκ : 0 ≤ κ) (w Δ : Iter ℝ X C D L U A B) (ok : (P.at μ κ w).Ok)
    (hf : HasDerivAt (fun t : ℝ => P.f fun j => w.x j + t * Δ.x j) (∑ j, P.gradF w.x j * Δ.x j) 0)
    (h1 : ∀ i, 0 < w.x (P.pL i) - P.xL i) (h2 : ∀ i, 0 < P.xU i - w.x (P.pU i)) (h3 : ∀ i, 0 < w.s (P.qL i) - P.dL i) (h4 : ∀ i, 0 < P.dU i - w.s (P.qU i)) :
    HasDerivAt (fun t : ℝ => P.barrier μ κ (move w t Δ).x (move w t Δ).s) (gradBarrTDelta (P.at μ κ w) Δ) 0 := by
  have lg : ∀ (a b : ℝ), 0 < a → HasDerivAt (fun t : ℝ => Real.log (a + t * b)) (b / a) 0 := by
    intro a b ha
    have := (hasDerivAt_line a b).log (by simpa using ha.ne')
    simpa using this
  have l1 : HasDerivAt (fun t : ℝ => ∑ i, Real.log (w.x (P.pL i) + t * Δ.x (P.pL i) - P.xL i)) (∑ i, Δ.x (P.pL i) / (w.x (P.pL i) - P.xL i)) 0 := by
    refine HasDerivAt.fun_sum fun i _ => ?_
    exact der_congr (lg _ (Δ.x (P.pL i)) (h1 i)) (by funext t; congr 1; ring) rfl
  have l2 : HasDerivAt (fun t : ℝ => ∑ i, Real.log (P.xU i - (w.x (P.pU i) + t * Δ.x (P.pU i)))) (∑ i, -Δ.x (P.pU i) / (P.xU i - w.x (P.pU i))) 0 := by
    refine HasDerivAt.fun_sum fun i _ => ?_
    exact der_congr (lg _ (-Δ.x (P.pU i)) (h2 i)) (by funext t; congr 1; ring) rfl
  have l3 : HasDerivAt (fun t : ℝ => ∑ i, Real.log (w.s (P.qL i) + t * Δ.s (P.qL i) - P.dL i)) (∑ i, Δ.s (P.qL i) / (w.s (P.qL i) - P.dL i)) 0 := by
    refine HasDerivAt.fun_sum fun i _ => ?_
    exact der_congr (lg _ (Δ.s (P.qL i)) (h3 i)) (by funext t; congr 1; ring) rfl
  have l4 : HasDerivAt (fun t : ℝ => ∑ i, Real.log (P.dU i - (w.s (P.qU i) + t * Δ.s (P.qU i)))) (∑ i, -Δ.s (P.qU i) / (P.dU i - w.s (P.qU i))) 0 := by
    refine HasDerivAt.fun_sum fun i _ => ?_
    exact der_congr (lg _ (-Δ.s (P.qU i)) (h4 i)) (by funext t; congr 1; ring) rfl
  have l5 : HasDerivAt (fun t : ℝ => ∑ j, damping P.pL P.pU κ μ j * (w.x j + t * Δ.x j)) (∑ j, damping P.pL P.pU κ μ j * Δ.x j) 0 :=
    HasDerivAt.fun_sum fun j _ => (hasDerivAt_line _ _).const_mul _
  have l6 : HasDerivAt (fun t : ℝ => ∑ j, damping P.qL P.qU κ μ j * (w.s j + t * Δ.s j)) (∑ j, damping P.qL P.qU κ μ j * Δ.s j) 0 :=
    HasDerivAt.fun_sum fun j _ => (hasDerivAt_line _ _).const_mul _
  have h := ((hf.sub ((((l1.add l2).add l3).add l4).const_mul μ)).add l5).add l6
  refine der_congr h ?_ ?_
  · funext t
    simp only [Problem.barrier, move, Pi.add_apply, Pi.sub_apply]
  have ex : ∀ j, gradBarrX (P.at μ κ w) j = _ := gradBarrX_eq (P.at μ κ w) ok hκ
  have es : ∀ j, gradBarrS (P.at μ κ w) j = _ := gradBarrS_eq (P.at μ κ w) ok hκ
  unfold gradBarrTDelta
  simp only [ex, es, add_mul, sub_mul, neg_mul, Finset.sum_add_distrib, Finset.sum_sub_distrib, Finset.sum_neg_distrib, sum_expand]
  simp only [Problem.at, mul_add, Finset.mul_sum]
  have a1 : ∀ (a b : ℝ), μ / a * b = μ * (b / a) := fun a b => by ring
  simp only [a1, neg_div, mul_neg, Finset.sum_neg_distrib]
  ring

/-! ### Instance: minimize `x²/2` subject to `x ≥ 0`, at `x = 1`, `z = 1`, with `μ = 1/2` -/

namespace ExampleReal

noncomputable def P : Problem Unit Empty Empty Unit Empty Empty Empty :=
  ⟨fun x => x () * x () / 2, fun _ i => i.elim, fun _ i => i.elim, fun x => x, fun _ i => i.elim, fun _ i => i.elim, id, fun i => i.elim, fun i => i.elim, fun i => i.elim, fun _ => 0,
   fun i => i.elim, fun i => i.elim, fun i => i.elim⟩

noncomputable def mk (x z : ℝ) : Iter ℝ Unit Empty Empty Unit Empty Empty Empty :=
  ⟨fun _ => x, fun i => i.elim, fun i => i.elim, fun i => i.elim, fun _ => z, fun i => i.elim, fun i => i.elim, fun i => i.elim⟩

theorem smooth : P.Smooth (fun _ _ => 1) (mk 1 1) (mk (-1 / 4) (-1 / 4)).x := by
  refine ⟨fun i => i.elim, fun i => i.elim, fun j => ?_, fun i => i.elim, fun i => i.elim⟩
  refine der_congr (hasDerivAt_line 1 (-1 / 4)) ?_ ?_
  · funext t; simp [P, mk]
  · simp [mk]

theorem newton : Newton (fun _ _ => 1) ⟨0, 0, 0, 0⟩ (P.at (1 / 2) 0 (mk 1 1)) (fun _ => 0) (fun _ => 0) (fun _ => 0) (fun _ => 0) (mk (-1 / 4) (-1 / 4)) := by
  refine ⟨fun j => ?_, fun i => i.elim, fun i => i.elim, fun i => i.elim, fun i => ?_, fun i => i.elim, fun i => i.elim, fun i => i.elim⟩
  · simp [Problem.at, P, mk, damping]
  · simp [Problem.at, P, mk]; norm_num

/-- the complementarity residual `x z - μ = 1/2` decreases at rate 1/2. -/
example : HasDerivAt (fun t => (P.kkt (1 / 2) 0 (move (mk 1 1) t (mk (-1 / 4) (-1 / 4)))).zL ()) (-(1 / 2)) 0 := by
  have := (newton_direction P (1 / 2) 0 (fun _ _ => 1) (mk 1 1) (mk (-1 / 4) (-1 / 4)) smooth newton).2.2.2.2.1 ()
  refine der_congr this rfl ?_
  simp [Problem.kkt, P, mk]; norm_num

/-- the barrier function decreases at rate 1/8. -/
example : HasDerivAt (fun t => P.barrier (1 / 2) 0 (move (mk 1 1) t (mk (-1 / 4) (-1 / 4))).x (move (mk 1 1) t (mk (-1 / 4) (-1 / 4))).s) (-(1 / 8)) 0 := by
  refine der_congr (barrier_derivative P (1 / 2) 0 le_rfl (mk 1 1) (mk (-1 / 4) (-1 / 4)) ⟨fun _ _ h => h, fun i => i.elim, fun i => i.elim, fun i => i.elim⟩ ?_ (fun i => ?_) (fun i => i.elim)
    (fun i => i.elim) (fun i => i.elim)) rfl ?_
  · refine der_congr (((hasDerivAt_line 1 (-1 / 4)).mul (hasDerivAt_line 1 (-1 / 4))).div_const 2) ?_ ?_
    · funext t; simp [P, mk]
    · simp [P, mk]
  · show (0 : ℝ) < 1 - 0; norm_num
  · simp [gradBarrTDelta, gradBarrX, gradBarrS, Problem.at, P, mk, expand]; norm_num

end ExampleReal

end Verif.SearchDir
