import Verif.Model.CurrIter
import Verif.Spec.Scaling
import Verif.Spec.Adapter

/-! # What a user expects of `get_curr_iterate` and `get_curr_violations`

Everything is stated for the user's problem: minimize f(x) subject to g_L ≤ g(x) ≤ g_U, x_L ≤ x ≤ x_U, in the user's numbering and
units, with the sign convention ∇f + Jᵀλ - z_L + z_U of the documentation. -/

namespace Verif.CurrIter
open Verif Verif.Adapter Verif.Scaling Verif.Matrix

/-- Constraint `i` was not taken out as linearly dependent (`deps`: positions within the equality constraints). -/
def Kept (gb : List (Num × Num)) (deps : List Nat) (i : Nat) : Prop := IsFixed (bnd gb i) → count i (fun j => IsFixed (bnd gb j)) ∉ deps

instance (gb : List (Num × Num)) (deps : List Nat) (i : Nat) : Decidable (Kept gb deps i) := inferInstanceAs (Decidable (_ → _))

/-- Constraint `i` has a lower (upper) bound. -/
def HasGL (loInf : Num) (b : Num × Num) : Prop := IsFixed b ∨ loInf < b.1
@[inherit_doc HasGL] def HasGU (upInf : Num) (b : Num × Num) : Prop := IsFixed b ∨ b.2 < upInf

section
variable {K : Type} [Field K] [LinearOrder K]

/-- Component `i` of the gradient of the Lagrangian; constraints that were taken out have no multiplier. -/
def gradLag (U : User K) (gb : List (Num × Num)) (deps : List Nat) (X lam zL zU : Nat → K) (i : Nat) : K :=
  U.gradF X i + (U.jacPos.zipIdx.map fun e => if e.1.2 = i ∧ Kept gb deps e.1.1 then lam e.1.1 * U.jac X e.2 else 0).sum - zL i + zU i

open Classical in
/-- max(g_L - g, g - g_U, 0) over the bounds that exist. -/
noncomputable def conViol (hasL hasU : Prop) (l u v : K) : K :=
  max (max (if hasL then l - v else 0) (if hasU then v - u else 0)) 0

open Classical in
/-- (g - g_L) λ⁻ + (g_U - g) λ⁺ over the bounds that exist, with λ⁺ = max(0, λ), λ⁻ = max(0, -λ). -/
noncomputable def conCompl (hasL hasU : Prop) (l u v lam : K) : K :=
  (if hasL then (v - l) * max 0 (-lam) else 0) + (if hasU then (u - v) * max 0 lam else 0)

/-- The situation in which the functions are called: the adapter has built its numbering, equal bounds are equal numbers, Jacobian
positions are in range, scaling factors are not zero, and the iterate has the dimensions of the internal problem. -/
structure Sit (t : Fixed) (loInf upInf : Num) (xb gb : List (Num × Num)) (deps : List Nat) (s : Spaces) (U : User K)
    (of df : K) (dx dc dd : Option (List K)) (hom : List K → Option K) (q : Curr K) : Prop where
  spaces : getSpaces t loInf upInf xb gb deps = some s
  sorted : deps.Pairwise (· < ·)
  eqX : ∀ i < xb.length, IsFixed (bnd xb i) → U.xl i = U.xu i
  eqG : ∀ i < gb.length, IsFixed (bnd gb i) → U.gl i = U.gu i
  jac : ∀ e ∈ U.jacPos, e.1 < gb.length ∧ e.2 < xb.length
  hom : HomOK hom
  fac : df * of ≠ 0
  facX : FacOK s.nVar dx
  facC : FacOK (s.pc.length + nFix s) dc
  facD : FacOK s.pd.length dd
  lx : q.pt.x.length = s.nVar
  lyc : q.pt.yc.length = s.pc.length + nFix s
  lyd : q.pt.yd.length = s.pd.length
  lzL : q.pt.zL.length = s.pxl.length
  lzU : q.pt.zU.length = s.pxu.length
  lxL : q.xL.length = s.pxl.length
  lxU : q.xU.length = s.pxu.length
  lR : ∀ r, q.resto = some r → r.nc.length = s.pc.length + nFix s ∧ r.pc.length = s.pc.length + nFix s ∧
    r.nd.length = s.pd.length ∧ r.pd.length = s.pd.length
  /-- the stored original bounds are the user's bounds, ... -/
  orig : ∀ o, q.orig = some o →
    o.xL = (List.range s.pxl.length).map (boundValues s s.pxl U.xl) ∧ o.xU = (List.range s.pxu.length).map (boundValues s s.pxu U.xu) ∧
    o.dL = (List.range s.pdl.length).map (dBoundValues s s.pdl U.gl) ∧ o.dU = (List.range s.pdu.length).map (dBoundValues s s.pdu U.gu)
  /-- ... and if none are stored, because the bounds were not relaxed, the bounds on `d` are the user's, scaled. -/
  noOrig : q.orig = none → IsScaledLU dd s.pdl ((List.range s.pdl.length).map (dBoundValues s s.pdl U.gl)) q.dL ∧
    IsScaledLU dd s.pdu ((List.range s.pdu.length).map (dBoundValues s s.pdu U.gu)) q.dU

/-- The scaling factor of the inequality at position `k` of the list of lower (upper) bounds is that of the inequality the bound belongs
to: holds if inequalities are not scaled, or all have the same factor, or each of them has a lower (upper) bound. -/
def FacAligned (dd : Option (List K)) (pos : List Nat) : Prop := ∀ k < pos.length, optFac dd k = optFac dd (pos.getD k 0)
end

end Verif.CurrIter
