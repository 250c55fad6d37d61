import Verif.Model.FinalTnlp
import Verif.Spec.CurrIter
import Verif.Spec.KktErr

/-! # What a user expects of the arrays given to `finalize_solution`

min f(x) s.t. g_L ≤ g(x) ≤ g_U, x_L ≤ x ≤ x_U in the user's numbering and units; Lagrangian gradient ∇f + Jᵀλ - z_L + z_U (`CurrIter.gradLag`). -/

namespace Verif.FinalTnlp
open Verif Verif.Adapter Verif.Scaling Verif.Matrix Verif.CurrIter

/-- The status codes with which the user gets the last iterate as a solution (doc: `finalize_solution`), other than the time limits. -/
def iterateCodes : List Alg.SolverReturn :=
  [.SUCCESS, .MAXITER_EXCEEDED, .STOP_AT_TINY_STEP, .STOP_AT_ACCEPTABLE_POINT, .LOCAL_INFEASIBILITY, .USER_REQUESTED_STOP, .FEASIBLE_POINT_FOUND,
    .DIVERGING_ITERATES, .RESTORATION_FAILURE, .ERROR_IN_STEP_COMPUTATION]

def timeCodes : List Alg.SolverReturn := [.CPUTIME_EXCEEDED, .WALLTIME_EXCEEDED]

/-- `A` is a KKT point up to tolerances: `tD` stationarity, `tV` constraints, `tC` complementarity (products close to `target`), where the bounds may have been moved by
at most `delta`. -/
structure ApproxKkt (U : User ℚ) (treat : Fixed) (loInf upInf : Num) (xb gb : List (Num × Num)) (deps : List Nat) (A : Arr ℚ) (target delta tD tV tC : ℚ) : Prop where
  stationary : ∀ i < xb.length, (IsFixed (bnd xb i) → treat ≠ .makeParameterNodual) → |gradLag U gb deps A.x A.lam A.zL A.zU i| ≤ tD
  values : ∀ i < gb.length, Kept gb deps i → A.g i = U.g A.x i
  equality : ∀ i < gb.length, Kept gb deps i → IsFixed (bnd gb i) → |U.g A.x i - U.gl i| ≤ tV
  lower : ∀ i < gb.length, ¬IsFixed (bnd gb i) → loInf < (bnd gb i).1 → U.gl i - delta - tV ≤ U.g A.x i
  upper : ∀ i < gb.length, ¬IsFixed (bnd gb i) → (bnd gb i).2 < upInf → U.g A.x i ≤ U.gu i + delta + tV
  fixed : ∀ i < xb.length, IsFixed (bnd xb i) → treat ≠ .relaxBounds → (treat ≠ .makeConstraint → A.x i = U.xl i) ∧ (treat = .makeConstraint → |A.x i - U.xl i| ≤ tV)
  complL : ∀ i < xb.length, HasLower treat loInf (bnd xb i) → ∃ l, |l - U.xl i| ≤ delta ∧ |A.zL i * (A.x i - l) - target| ≤ tC
  complU : ∀ i < xb.length, HasUpper treat upInf (bnd xb i) → ∃ u, |u - U.xu i| ≤ delta ∧ |A.zU i * (u - A.x i) - target| ≤ tC
  noLower : ∀ i < xb.length, ¬IsFixed (bnd xb i) → ¬loInf < (bnd xb i).1 → A.zL i = 0
  noUpper : ∀ i < xb.length, ¬IsFixed (bnd xb i) → ¬(bnd xb i).2 < upInf → A.zU i = 0

/-- In addition inside the bounds and with the right signs (for positive scaling factors, in particular minimization). -/
structure Signs (U : User ℚ) (treat : Fixed) (loInf upInf : Num) (xb gb : List (Num × Num)) (A : Arr ℚ) (delta tD : ℚ) : Prop where
  insideL : ∀ i < xb.length, HasLower treat loInf (bnd xb i) → U.xl i - delta ≤ A.x i
  insideU : ∀ i < xb.length, HasUpper treat upInf (bnd xb i) → A.x i ≤ U.xu i + delta
  zL : ∀ i < xb.length, 0 ≤ A.zL i
  zU : ∀ i < xb.length, 0 ≤ A.zU i
  lamU : ∀ i < gb.length, ¬IsFixed (bnd gb i) → ¬(bnd gb i).2 < upInf → A.lam i ≤ tD
  lamL : ∀ i < gb.length, ¬IsFixed (bnd gb i) → ¬loInf < (bnd gb i).1 → -tD ≤ A.lam i

/-- The bounds the algorithm works with are, in the user's units, at most `delta` from the user's (`bound_relax_factor`, C52). -/
structure Near (s : Spaces) (U : User ℚ) (dx dd : Option (List ℚ)) (q : Curr ℚ) (delta : ℚ) : Prop where
  xL : ∀ k, (hk : k < s.pxl.length) → |q.xL.getD k 0 / optFac dx s.pxl[k] - U.xl (s.user s.pxl[k])| ≤ delta
  xU : ∀ k, (hk : k < s.pxu.length) → |q.xU.getD k 0 / optFac dx s.pxu[k] - U.xu (s.user s.pxu[k])| ≤ delta
  dL : ∀ k, (hk : k < s.pdl.length) → |q.dL.getD k 0 / optFac dd s.pdl[k] - U.gl (s.pd.getD s.pdl[k] 0)| ≤ delta
  dU : ∀ k, (hk : k < s.pdu.length) → |q.dU.getD k 0 / optFac dd s.pdu[k] - U.gu (s.pd.getD s.pdu[k] 0)| ≤ delta

/-- Dimensions of the slacks and their multipliers and bounds. -/
structure Dims (s : Spaces) (q : Curr ℚ) (sl vL vU : List ℚ) : Prop where
  lS : sl.length = s.pd.length
  lL : vL.length = s.pdl.length
  lU : vU.length = s.pdu.length
  dL : q.dL.length = s.pdl.length
  dU : q.dU.length = s.pdu.length

/-- The iterate is inside the bounds of the algorithm and the multipliers of bounds are nonnegative (C27, C29, C34); scaling factors are positive. -/
structure Interior (s : Spaces) (F : ℚ) (dx dd : Option (List ℚ)) (q : Curr ℚ) (vL vU : List ℚ) : Prop where
  xL : ∀ k, (hk : k < s.pxl.length) → q.xL.getD k 0 ≤ q.pt.x.getD s.pxl[k] 0
  xU : ∀ k, (hk : k < s.pxu.length) → q.pt.x.getD s.pxu[k] 0 ≤ q.xU.getD k 0
  zL : ∀ z ∈ q.pt.zL, 0 ≤ z
  zU : ∀ z ∈ q.pt.zU, 0 ≤ z
  sL : ∀ z ∈ vL, 0 ≤ z
  sU : ∀ z ∈ vU, 0 ≤ z
  fac : 0 < F
  facX : ∀ k < s.nVar, 0 < optFac dx k
  facD : ∀ k < s.pd.length, 0 < optFac dd k

end Verif.FinalTnlp
