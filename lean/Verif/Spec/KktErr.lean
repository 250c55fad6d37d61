import Verif.Model.KktErr
import Verif.Spec.Scaling

/-! # Specification of the optimality errors

In terms of the user's functions and of the point and multipliers in the user's units only. -/

namespace Verif.KktErr
open Verif.Matrix Verif.Scaling Finset
set_option linter.unusedSectionVars false

variable {K : Type} [Field K] [LinearOrder K] [IsStrictOrderedRing K]

/-- `r` is the 1-norm, the 2-norm, the maximum norm of the numbers `L`. -/
def NormOf (t : NormType) (L : List K) (r : K) : Prop :=
  match t with
  | .one => r = (L.map fun a => |a|).sum
  | .two => 0 ≤ r ∧ r * r = (L.map fun a => a * a).sum
  | .max => (∀ a ∈ L, |a| ≤ r) ∧ ((L = [] ∧ r = 0) ∨ ∃ a ∈ L, |a| = r)

/-- `i` is the internal iterate that belongs to the iterate `u` in the user's units: `F` objective factor, `dx`, `dc`, `dd` factors of variables,
equality and inequality constraints.  Multipliers: `F` times the user's multiplier of `c` is the factor of `c` times the internal one; `F` times
the multiplier of a variable's bound, times one over the factor of the variable, is the internal one. -/
structure Corr (p : Prob K) (F : K) (dx dc dd : Option (List K)) (i u : It K) : Prop where
  x : IsScaled dx p.nx u.pt.x i.pt.x
  s : IsScaled dd p.nd u.s i.s
  yc : u.pt.yc.length = p.nc ∧ i.pt.yc.length = p.nc ∧ ∀ k, k < p.nc → F * u.pt.yc.getD k 0 = optFac dc k * i.pt.yc.getD k 0
  yd : u.pt.yd.length = p.nd ∧ i.pt.yd.length = p.nd ∧ ∀ k, k < p.nd → F * u.pt.yd.getD k 0 = optFac dd k * i.pt.yd.getD k 0
  zL : u.pt.zL.length = p.posXL.length ∧ i.pt.zL.length = p.posXL.length ∧
    ∀ k, k < p.posXL.length → F * u.pt.zL.getD k 0 = optFac dx (p.posXL.getD k 0) * i.pt.zL.getD k 0
  zU : u.pt.zU.length = p.posXU.length ∧ i.pt.zU.length = p.posXU.length ∧
    ∀ k, k < p.posXU.length → F * u.pt.zU.getD k 0 = optFac dx (p.posXU.getD k 0) * i.pt.zU.getD k 0
  vL : u.vL.length = p.posDL.length ∧ i.vL.length = p.posDL.length ∧
    ∀ k, k < p.posDL.length → F * u.vL.getD k 0 = optFac dd (p.posDL.getD k 0) * i.vL.getD k 0
  vU : u.vU.length = p.posDU.length ∧ i.vU.length = p.posDU.length ∧
    ∀ k, k < p.posDU.length → F * u.vU.getD k 0 = optFac dd (p.posDU.getD k 0) * i.vU.getD k 0

/-- the bounds of the algorithm are the scaled bounds `ub`. -/
structure BndCorr (p : Prob K) (dx dd : Option (List K)) (b ub : Bnd K) : Prop where
  xL : IsScaledLU dx p.posXL ub.xL b.xL
  xU : IsScaledLU dx p.posXU ub.xU b.xU
  dL : IsScaledLU dd p.posDL ub.dL b.dL
  dU : IsScaledLU dd p.posDU ub.dU b.dU

/-- sum of the multipliers in `v` attached to component `i`. -/
def attached (pos : List Nat) (v : List K) (i : Nat) : K := ∑ k ∈ range pos.length, if pos.getD k 0 = i then v.getD k 0 else 0

/-- component `j` of the gradient of the Lagrangian of the user's problem with respect to `x`. -/
def lagX (p : Prob K) (u : It K) (j : Nat) : K :=
  dualRes (p.gradF u.pt.x) (ent (p.jacC u.pt.x)) (ent (p.jacD u.pt.x)) p.nc p.nd p.posXL p.posXU u.pt.yc u.pt.yd u.pt.zL u.pt.zU j

/-- ... with respect to the slack `s` of inequality `i` (`d(x) - s = 0`, `d_L ≤ s ≤ d_U`). -/
def lagS (p : Prob K) (u : It K) (i : Nat) : K := -u.pt.yd.getD i 0 - attached p.posDL u.vL i + attached p.posDU u.vU i

/-- violations of the constraints: `c(x)`, `(d_L - d(x))⁺`, `(d(x) - d_U)⁺`. -/
def viols (p : Prob K) (ub : Bnd K) (u : It K) : List K :=
  (List.range p.nc).map (fun i => (p.c u.pt.x).getD i 0) ++
  (List.range p.posDL.length).map (fun k => max (ub.dL.getD k 0 - (p.d u.pt.x).getD (p.posDL.getD k 0) 0) 0) ++
  (List.range p.posDU.length).map (fun k => max ((p.d u.pt.x).getD (p.posDU.getD k 0) 0 - ub.dU.getD k 0) 0)

/-- complementarity products minus `mu`. -/
def products (p : Prob K) (ub : Bnd K) (u : It K) (mu : K) : List K :=
  (List.range p.posXL.length).map (fun k => u.pt.zL.getD k 0 * (u.pt.x.getD (p.posXL.getD k 0) 0 - ub.xL.getD k 0) - mu) ++
  (List.range p.posXU.length).map (fun k => u.pt.zU.getD k 0 * (ub.xU.getD k 0 - u.pt.x.getD (p.posXU.getD k 0) 0) - mu) ++
  (List.range p.posDL.length).map (fun k => u.vL.getD k 0 * (u.s.getD (p.posDL.getD k 0) 0 - ub.dL.getD k 0) - mu) ++
  (List.range p.posDU.length).map (fun k => u.vU.getD k 0 * (ub.dU.getD k 0 - u.s.getD (p.posDU.getD k 0) 0) - mu)

/-- violations of the variable bounds `oL ≤ x ≤ oU`. -/
def boundViols (p : Prob K) (oL oU : List K) (u : It K) : List K :=
  (List.range p.posXL.length).map (fun k => max (oL.getD k 0 - u.pt.x.getD (p.posXL.getD k 0) 0) 0) ++
  (List.range p.posXU.length).map (fun k => max (u.pt.x.getD (p.posXU.getD k 0) 0 - oU.getD k 0) 0)

/-- scaling factors without zeros, well-formed user matrices. -/
structure Ok (p : Prob K) (F : K) (dx dc dd : Option (List K)) (hom : List K → Option K) : Prop where
  prob : ProbOK p
  jc : ∀ x, WF (p.jacC x)
  jd : ∀ x, WF (p.jacD x)
  hom : HomOK hom
  fac : F ≠ 0
  facX : FacOK p.nx dx
  facC : FacOK p.nc dc
  facD : FacOK p.nd dd

/-- the square root is exact if the 2-norm is used. -/
def SqrtOk (t : NormType) (sqrt : K → K) : Prop := t = .two → ∀ a, 0 ≤ a → 0 ≤ sqrt a ∧ sqrt a * sqrt a = a

end Verif.KktErr
