import Verif.Model.Scaling
import Verif.Spec.Matrix
import Mathlib.Analysis.Calculus.Deriv.Basic

/-! # Specification of scaling

Written in terms of single components and of derivatives, not of the scaling routines. -/

namespace Verif.Scaling
open Verif.Matrix Finset

section
variable {K : Type} [Field K]

/-- an optional scaling vector of dimension `n` without zeros. -/
def FacOK (n : Nat) (d : Option (List K)) : Prop := ∀ v, d = some v → v.length = n ∧ ∀ e ∈ v, e ≠ 0

/-- component `i` of `x` is `d_i` times component `i` of `u` (`d` absent: factor 1). -/
def IsScaled (d : Option (List K)) (n : Nat) (u x : List K) : Prop :=
  u.length = n ∧ x.length = n ∧ ∀ i, i < n → x.getD i 0 = optFac d i * u.getD i 0

/-- component `k` of `x` is `d_{pos k}` times component `k` of `u`. -/
def IsScaledLU (d : Option (List K)) (pos : List Nat) (u x : List K) : Prop :=
  u.length = pos.length ∧ x.length = pos.length ∧ ∀ k, k < pos.length → x.getD k 0 = optFac d (pos.getD k 0) * u.getD k 0

/-- component `j` of the dual infeasibility ∇f + Jcᵀ yc + Jdᵀ yd - zL + zU, bound multipliers being attached to the variables listed
in `posL`, `posU`. -/
def dualRes (g : List K) (Jc Jd : Nat → Nat → K) (nc nd : Nat) (posL posU : List Nat) (yc yd zL zU : List K) (j : Nat) : K :=
  g.getD j 0 + ∑ i ∈ range nc, Jc i j * yc.getD i 0 + ∑ i ∈ range nd, Jd i j * yd.getD i 0
    - ∑ k ∈ range posL.length, (if posL.getD k 0 = j then zL.getD k 0 else 0)
    + ∑ k ∈ range posU.length, (if posU.getD k 0 = j then zU.getD k 0 else 0)

/-- the gradient of the Lagrangian σ f + ycᵀ c + ydᵀ d. -/
def lagGrad (n nc nd : Nat) (g : List K) (Jc Jd : Nat → Nat → K) (σ : K) (yc yd : List K) : List K :=
  (List.range n).map (fun j =>
    σ * g.getD j 0 + ∑ i ∈ range nc, Jc i j * yc.getD i 0 + ∑ i ∈ range nd, Jd i j * yd.getD i 0)

/-- problems whose functions return vectors and matrices of the declared dimensions, with bound indices in range and without
repetition. -/
structure ProbOK (p : Prob K) : Prop where
  g : ∀ x, (p.gradF x).length = p.nx
  c : ∀ x, (p.c x).length = p.nc
  d : ∀ x, (p.d x).length = p.nd
  jc : ∀ x, (p.jacC x).dims = (p.nc, p.nx)
  jd : ∀ x, (p.jacD x).dims = (p.nd, p.nx)
  xl : ∀ i ∈ p.posXL, i < p.nx
  xu : ∀ i ∈ p.posXU, i < p.nx
  dl : ∀ i ∈ p.posDL, i < p.nd
  du : ∀ i ∈ p.posDU, i < p.nd
  xlN : p.posXL.Nodup
  xuN : p.posXU.Nodup
  dlN : p.posDL.Nodup
  duN : p.posDU.Nodup
end

/-- the point x + t h. -/
def along (x : List ℝ) (t : ℝ) (h : List ℝ) : List ℝ := List.zipWith (fun a b => a + t * b) x h

/-- `g` is the gradient of `f` at `x`: derivative along every direction. -/
def IsGradientAt (f : List ℝ → ℝ) (g : List ℝ) (n : Nat) (x : List ℝ) : Prop :=
  ∀ h, h.length = n → HasDerivAt (fun t => f (along x t h)) (∑ j ∈ range n, g.getD j 0 * h.getD j 0) 0

/-- `A` is the m×n Jacobian of `c` at `x`: derivative of every component along every direction. -/
def IsJacobianAt (c : List ℝ → List ℝ) (A : Nat → Nat → ℝ) (m n : Nat) (x : List ℝ) : Prop :=
  ∀ h, h.length = n → ∀ i, i < m →
    HasDerivAt (fun t => (c (along x t h)).getD i 0) (∑ j ∈ range n, A i j * h.getD j 0) 0

end Verif.Scaling
