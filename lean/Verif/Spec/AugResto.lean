import Verif.Model.AugResto
import Verif.Spec.PDSystem

/-! # Specification of the restoration-phase augmented system

The augmented system of the restoration problem

  min ρ Σ(n_c + p_c + n_d + p_d) + η/2 ‖D_R (x - x_R)‖²   s.t.  c(x) + n_c - p_c = 0,  d(x) + n_d - p_d - s = 0,  n, p ≥ 0

written out component by component. -/

namespace Verif.AugResto
open Finset Verif.Matrix Verif.PDSystem

variable {K : Type} [Field K]

/-- component of an optional diagonal (0 if absent). -/
def od (D : Option (List K)) (i : Nat) : K := (D.getD []).getD i 0

/-- ((0,0) block of the Hessian) · x. -/
def Hess.mv : Hess K → List K → Nat → K
  | .exact h f0 eta dr, x, i => f0 * PDSystem.mv h x i + eta * dr.getD i 0 * x.getD i 0
  | .limited h, x, i => PDSystem.mv h x i

/-- the restoration augmented system, eight block rows. -/
structure RestoSystem (a : Args K) (v rhs : RVec K) : Prop where
  x : ∀ i, i < a.Jc0.dims.2 → a.Wfac * a.W.mv v.x.x i + (od (a.Dx.map X5.x) i + a.δx) * v.x.x.getD i 0 + mtv a.Jc0 v.c i + mtv a.Jd0 v.d i
    = rhs.x.x.getD i 0
  nc : ∀ i, i < a.Jc0.dims.1 → (od (a.Dx.map X5.nc) i + a.δx) * v.x.nc.getD i 0 + v.c.getD i 0 = rhs.x.nc.getD i 0
  pc : ∀ i, i < a.Jc0.dims.1 → (od (a.Dx.map X5.pc) i + a.δx) * v.x.pc.getD i 0 - v.c.getD i 0 = rhs.x.pc.getD i 0
  nd : ∀ i, i < a.Jd0.dims.1 → (od (a.Dx.map X5.nd) i + a.δx) * v.x.nd.getD i 0 + v.d.getD i 0 = rhs.x.nd.getD i 0
  pd : ∀ i, i < a.Jd0.dims.1 → (od (a.Dx.map X5.pd) i + a.δx) * v.x.pd.getD i 0 - v.d.getD i 0 = rhs.x.pd.getD i 0
  s : ∀ i, i < a.Jd0.dims.1 → (od a.Ds i + a.δs) * v.s.getD i 0 - v.d.getD i 0 = rhs.s.getD i 0
  c : ∀ i, i < a.Jc0.dims.1 → mv a.Jc0 v.x.x i + v.x.nc.getD i 0 - v.x.pc.getD i 0 + (od a.Dc i - a.δc) * v.c.getD i 0 = rhs.c.getD i 0
  d : ∀ i, i < a.Jd0.dims.1 → mv a.Jd0 v.x.x i + v.x.nd.getD i 0 - v.x.pd.getD i 0 - v.s.getD i 0 + (od a.Dd i - a.δd) * v.d.getD i 0
    = rhs.d.getD i 0

/-- five blocks of the right dimensions. -/
structure X5.Dim (a : Args K) (v : X5 K) : Prop where
  x : v.x.length = a.Jc0.dims.2
  nc : v.nc.length = a.Jc0.dims.1
  pc : v.pc.length = a.Jc0.dims.1
  nd : v.nd.length = a.Jd0.dims.1
  pd : v.pd.length = a.Jd0.dims.1

/-- eight blocks of the right dimensions. -/
structure RVec.Dim (a : Args K) (v : RVec K) : Prop where
  x : v.x.Dim a
  s : v.s.length = a.Jd0.dims.1
  c : v.c.length = a.Jc0.dims.1
  d : v.d.length = a.Jd0.dims.1

/-- dimensions of the Hessian block. -/
def Hess.OK (nx : Nat) : Hess K → Prop
  | .exact h _ _ dr => h.dims = (nx, nx) ∧ dr.length = nx
  | .limited h => h.dims = (nx, nx)

/-- arguments of matching dimensions with the (0,3) and (0,4) blocks that the restoration problem uses (I and -I,
IpRestoIpoptNLP.cpp:284-285, 638-644). -/
structure Args.OK (a : Args K) : Prop where
  W : a.W.OK a.Jc0.dims.2
  Jd : a.Jd0.dims.2 = a.Jc0.dims.2
  PdL : a.PdL = .ident a.Jd0.dims.1 1
  nPdU : a.nPdU = .ident a.Jd0.dims.1 (-1)
  Dx : ∀ d, a.Dx = some d → d.Dim a
  Ds : ∀ d, a.Ds = some d → d.length = a.Jd0.dims.1
  Dc : ∀ d, a.Dc = some d → d.length = a.Jc0.dims.1
  Dd : ∀ d, a.Dd = some d → d.length = a.Jd0.dims.1

/-- the (perturbed) diagonals of the slack blocks do not vanish (in an interior-point iterate they are positive). -/
structure Args.Pivots (a : Args K) : Prop where
  nc : ∀ i, i < a.Jc0.dims.1 → od (a.Dx.map X5.nc) i + a.δx ≠ 0
  pc : ∀ i, i < a.Jc0.dims.1 → od (a.Dx.map X5.pc) i + a.δx ≠ 0
  nd : ∀ i, i < a.Jd0.dims.1 → od (a.Dx.map X5.nd) i + a.δx ≠ 0
  pd : ∀ i, i < a.Jd0.dims.1 → od (a.Dx.map X5.pd) i + a.δx ≠ 0

/-- the regularisation term and the factor `Wfac` of the Hessian: either no regularisation term or factor one. -/
def Hess.FactorOne (Wfac : K) : Hess K → Prop
  | .exact _ _ eta _ => Wfac = 1 ∨ eta = 0
  | .limited _ => True

end Verif.AugResto
