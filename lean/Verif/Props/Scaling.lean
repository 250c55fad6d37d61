import Verif.Proof.Scaling3
import Mathlib.Analysis.Calculus.Deriv.Add
import Mathlib.Algebra.Order.Field.Rat
import Mathlib.Tactic.NormNum

set_option linter.unusedSectionVars false
set_option linter.unusedVariables false
set_option linter.unusedSimpArgs false

namespace Verif.Scaling
open Verif.Matrix Finset

section
variable {K : Type} [Field K] [DecidableEq K]

/-- C25: unscaling inverts scaling, and scaling inverts unscaling, for variables, constraints, the objective and its gradient, for all
nonzero factors and every choice of present or absent scaling vectors. -/
theorem scaling_roundtrips {nx nc nd : Nat} (of df : K) (hF : df * of ≠ 0) (dx dc dd : Option (List K)) (hx : FacOK nx dx)
    (hc : FacOK nc dc) (hd : FacOK nd dd) :
    let s := determine of df dx dc dd
    (∀ v, v.length = nx → s.unapplyX (s.applyX v) = v ∧ s.applyX (s.unapplyX v) = v) ∧
    (∀ v, v.length = nc → s.unapplyC (s.applyC v) = v ∧ s.applyC (s.unapplyC v) = v) ∧
    (∀ v, v.length = nd → s.unapplyD (s.applyD v) = v ∧ s.applyD (s.unapplyD v) = v) ∧
    (∀ f, s.unapplyObj (s.applyObj f) = f ∧ s.applyObj (s.unapplyObj f) = f) ∧
    (∀ g, g.length = nx → s.unapplyGrad (s.applyGrad g) = g ∧ s.applyGrad (s.unapplyGrad g) = g) := by
  intro s
  have hdf : df ≠ 0 := left_ne_zero_of_mul hF
  have hof : of ≠ 0 := right_ne_zero_of_mul hF
  refine ⟨fun v hv => ⟨optDiv_optMul hx hv, optMul_optDiv hx hv⟩, fun v hv => ?_, fun v hv => ?_, fun f => ?_, fun g hg => ?_⟩
  · simp only [Scal.unapplyC, Scal.applyC, s, det_rowC]
    exact ⟨optDiv_optMul hc hv, optMul_optDiv hc hv⟩
  · simp only [Scal.unapplyD, Scal.applyD, s, det_rowD]
    exact ⟨optDiv_optMul hd hv, optMul_optDiv hd hv⟩
  · simp only [Scal.unapplyObj, Scal.applyObj, s, determine]
    constructor <;> field_simp
  · have l1 : (scalIf (s.applyObj 1) (optDiv dx g)).length = nx := by rw [scalIf_length, optDiv_length hx hg]
    have l2 : (scalIf (s.unapplyObj 1) (optMul dx g)).length = nx := by rw [scalIf_length, optMul_length hx hg]
    constructor
    · apply list_ext (n := nx) _ hg
      · intro i hi
        show (scalIf (s.unapplyObj 1) (optMul dx (scalIf (s.applyObj 1) (optDiv dx g)))).getD i 0 = _
        rw [scalIf_get, optMul_get hx l1 hi, scalIf_get, optDiv_get hx hg hi]
        have := optFac_ne hx hi
        simp only [s, determine, Scal.unapplyObj, Scal.applyObj]
        field_simp
      · show (scalIf (s.unapplyObj 1) (optMul dx (scalIf (s.applyObj 1) (optDiv dx g)))).length = nx
        rw [scalIf_length, optMul_length hx l1]
    · apply list_ext (n := nx) _ hg
      · intro i hi
        show (scalIf (s.applyObj 1) (optDiv dx (scalIf (s.unapplyObj 1) (optMul dx g)))).getD i 0 = _
        rw [scalIf_get, optDiv_get hx l2 hi, scalIf_get, optMul_get hx hg hi]
        have := optFac_ne hx hi
        simp only [s, determine, Scal.unapplyObj, Scal.applyObj]
        field_simp
      · show (scalIf (s.applyObj 1) (optDiv dx (scalIf (s.unapplyObj 1) (optMul dx g)))).length = nx
        rw [scalIf_length, optDiv_length hx l2]

/-- C25: bounds of the inequality constraints: unscaling inverts scaling. -/
theorem d_bounds_roundtrip {hom : List K → Option K} (hh : HomOK hom) {nd : Nat} (of df : K) (dx dc dd : Option (List K))
    (hd : FacOK nd dd) (pos : List Nat) (hw : ∀ p ∈ pos, p < nd) (hn : pos.Nodup) (lu : List K) (hlu : lu.length = pos.length) :
    let s := determine of df dx dc dd
    s.unapplyDLU hom (.expansion nd pos) (s.applyDLU hom (.expansion nd pos) lu) = lu := by
  intro s
  have h1 := applyDLU_ok (of := of) (df := df) (dx := dx) (dc := dc) hh hd hw hn lu hlu
  have h2 := unapplyDLU_ok (of := of) (df := df) (dx := dx) (dc := dc) hh hd hw hn _ h1.2.1
  refine list_ext h2.1 hlu (fun k hk => ?_)
  rw [h2.2 k hk, h1.2.2 k hk]
  have := optFac_ne hd (hw _ (getD_mem hk))
  field_simp

/-- C25: the functions the algorithm sees are the scaled user functions: if `x` is the scaled version of the user's point `u`, then the
objective is `df * f(u)` and the constraint values are the scaled values of `c(u)`, `d(u)`. -/
theorem scaled_values {p : Prob K} (hp : ProbOK p) (of df : K) (dx dc dd : Option (List K)) (hx : FacOK p.nx dx)
    (hc : FacOK p.nc dc) (hd : FacOK p.nd dd) (u x : List K) (hs : IsScaled dx p.nx u x) :
    let s := determine of df dx dc dd
    evalF p s x = df * of * p.f u ∧ IsScaled dc p.nc (p.c u) (evalC p s x) ∧ IsScaled dd p.nd (p.d u) (evalD p s x) := by
  intro s
  have hu : s.unapplyX x = u := isScaled_unapply hx hs
  refine ⟨?_, ?_, ?_⟩
  · unfold evalF; rw [hu]; rfl
  · unfold evalC; rw [hu]
    have := isScaled_apply hc (hp.c u)
    simp only [Scal.applyC, s, det_rowC]; exact this
  · unfold evalD; rw [hu]
    have := isScaled_apply hd (hp.d u)
    simp only [Scal.applyD, s, det_rowD]; exact this

/-- C25: the bounds are scaled with the factor of their variable or constraint. -/
theorem scaled_bounds {p : Prob K} (hp : ProbOK p) {hom : List K → Option K} (hh : HomOK hom) (of df : K) (dx dc dd : Option (List K))
    (hx : FacOK p.nx dx) (hd : FacOK p.nd dd) (xL xU dL dU : List K) (h1 : xL.length = p.posXL.length)
    (h2 : xU.length = p.posXU.length) (h3 : dL.length = p.posDL.length) (h4 : dU.length = p.posDU.length) :
    let s := determine of df dx dc dd
    IsScaledLU dx p.posXL xL (s.applyXLU hom p.PxL xL) ∧ IsScaledLU dx p.posXU xU (s.applyXLU hom p.PxU xU) ∧
    IsScaledLU dd p.posDL dL (s.applyDLU hom p.PdL dL) ∧ IsScaledLU dd p.posDU dU (s.applyDLU hom p.PdU dU) :=
  ⟨applyXLU_ok hh hx hp.xl hp.xlN xL h1, applyXLU_ok hh hx hp.xu hp.xuN xU h2, applyDLU_ok hh hd hp.dl hp.dlN dL h3,
    applyDLU_ok hh hd hp.du hp.duN dU h4⟩

/-- C25: the point and multipliers handed to the user are in the user's units: component `j` of the dual infeasibility of the user's
problem at the reported point is `dx_j / df` times that of the scaled problem at the internal point, for every internal point. -/
theorem reported_point_unscaled {p : Prob K} (hp : ProbOK p) {hom : List K → Option K} (hh : HomOK hom) (of df : K)
    (dx dc dd : Option (List K)) (hF : df * of ≠ 0) (hx : FacOK p.nx dx) (hc : FacOK p.nc dc) (hd : FacOK p.nd dd) (i : Point K)
    (lyc : i.yc.length = p.nc) (lyd : i.yd.length = p.nd) (lzL : i.zL.length = p.posXL.length) (lzU : i.zU.length = p.posXU.length)
    (j : Nat) (hj : j < p.nx) :
    let s := determine of df dx dc dd
    let u := unscalePoint p s hom i
    dualRes (p.gradF u.x) (ent (p.jacC u.x)) (ent (p.jacD u.x)) p.nc p.nd p.posXL p.posXU u.yc u.yd u.zL u.zU j =
      optFac dx j / (df * of) *
        dualRes (evalGradF p s i.x) (ent (evalJacC p s i.x)) (ent (evalJacD p s i.x)) p.nc p.nd p.posXL p.posXU i.yc i.yd i.zL i.zU j :=
  dualRes_core hp hh hF hx hc hd i lyc lyd lzL lzU j hj

/-- C25: hence the reported point is stationary for the user's problem iff the internal point is for the scaled one. -/
theorem stationary_iff {p : Prob K} (hp : ProbOK p) {hom : List K → Option K} (hh : HomOK hom) (of df : K)
    (dx dc dd : Option (List K)) (hF : df * of ≠ 0) (hx : FacOK p.nx dx) (hc : FacOK p.nc dc) (hd : FacOK p.nd dd) (i : Point K)
    (lyc : i.yc.length = p.nc) (lyd : i.yd.length = p.nd) (lzL : i.zL.length = p.posXL.length) (lzU : i.zU.length = p.posXU.length)
    (j : Nat) (hj : j < p.nx) :
    let s := determine of df dx dc dd
    let u := unscalePoint p s hom i
    dualRes (p.gradF u.x) (ent (p.jacC u.x)) (ent (p.jacD u.x)) p.nc p.nd p.posXL p.posXU u.yc u.yd u.zL u.zU j = 0 ↔
      dualRes (evalGradF p s i.x) (ent (evalJacC p s i.x)) (ent (evalJacD p s i.x)) p.nc p.nd p.posXL p.posXU i.yc i.yd i.zL i.zU j = 0 := by
  intro s u
  rw [dualRes_core hp hh hF hx hc hd i lyc lyd lzL lzU j hj]
  have : optFac dx j / (df * of) ≠ 0 := div_ne_zero (optFac_ne hx hj) hF
  exact ⟨fun h => (mul_eq_zero.1 h).resolve_left this, fun h => mul_eq_zero_of_right _ h⟩

/-- C25: complementarity products (multiplier times distance to the bound) are divided by the objective factor. -/
theorem complementarity_unscaled {p : Prob K} (hp : ProbOK p) {hom : List K → Option K} (hh : HomOK hom) (of df : K)
    (dx dc dd : Option (List K)) (hF : df * of ≠ 0) (hx : FacOK p.nx dx) (i : Point K) (lx : i.x.length = p.nx)
    (lzL : i.zL.length = p.posXL.length) (lzU : i.zU.length = p.posXU.length) (xL xU : List K) (h1 : xL.length = p.posXL.length)
    (h2 : xU.length = p.posXU.length) :
    let s := determine of df dx dc dd
    let u := unscalePoint p s hom i
    (∀ k, k < p.posXL.length → u.zL.getD k 0 * (u.x.getD (p.posXL.getD k 0) 0 - xL.getD k 0) =
      i.zL.getD k 0 * (i.x.getD (p.posXL.getD k 0) 0 - (s.applyXLU hom p.PxL xL).getD k 0) / (df * of)) ∧
    (∀ k, k < p.posXU.length → u.zU.getD k 0 * (xU.getD k 0 - u.x.getD (p.posXU.getD k 0) 0) =
      i.zU.getD k 0 * ((s.applyXLU hom p.PxU xU).getD k 0 - i.x.getD (p.posXU.getD k 0) 0) / (df * of)) := by
  intro s u
  have hdf : df ≠ 0 := left_ne_zero_of_mul hF
  have hof : of ≠ 0 := right_ne_zero_of_mul hF
  have un : s.unapplyObj 1 = (df * of)⁻¹ := by simp [s, determine, Scal.unapplyObj]
  constructor
  · intro k hk
    have hlt := hp.xl _ (getD_mem hk)
    have hne := optFac_ne hx hlt
    show (scalIf (s.unapplyObj 1) (s.applyXLU hom p.PxL i.zL)).getD k 0 * ((optDiv dx i.x).getD _ 0 - _) = _
    have e1 := (applyXLU_ok (of := of) (df := df) (dc := dc) (dd := dd) hh hx hp.xl hp.xlN i.zL lzL).2.2 k hk
    have e2 := (applyXLU_ok (of := of) (df := df) (dc := dc) (dd := dd) hh hx hp.xl hp.xlN xL h1).2.2 k hk
    rw [scalIf_get, un, optDiv_get hx lx hlt]
    unfold Prob.PxL
    simp only [s]
    rw [e1, e2]
    field_simp
  · intro k hk
    have hlt := hp.xu _ (getD_mem hk)
    have hne := optFac_ne hx hlt
    show (scalIf (s.unapplyObj 1) (s.applyXLU hom p.PxU i.zU)).getD k 0 * (_ - (optDiv dx i.x).getD _ 0) = _
    have e1 := (applyXLU_ok (of := of) (df := df) (dc := dc) (dd := dd) hh hx hp.xu hp.xuN i.zU lzU).2.2 k hk
    have e2 := (applyXLU_ok (of := of) (df := df) (dc := dc) (dd := dd) hh hx hp.xu hp.xuN xU h2).2.2 k hk
    rw [scalIf_get, un, optDiv_get hx lx hlt]
    unfold Prob.PxU
    simp only [s]
    rw [e1, e2]
    field_simp

/-- C25 (partial): a starting point given by the user that is scaled and, unchanged, reported back, comes back with the same variables
and constraint multipliers.  Missing: the bound multipliers, which come back multiplied by the square of the variable scaling -- see
`start_bound_multipliers_scaled_twice`. -/
theorem start_roundtrip_partial {p : Prob K} {hom : List K → Option K} (of df : K)
    (dx dc dd : Option (List K)) (hF : df * of ≠ 0) (hx : FacOK p.nx dx) (hc : FacOK p.nc dc) (hd : FacOK p.nd dd) (u : Point K)
    (lx : u.x.length = p.nx) (lyc : u.yc.length = p.nc) (lyd : u.yd.length = p.nd) :
    let s := determine of df dx dc dd
    let r := unscalePoint p s hom (scaleStart p s hom u)
    r.x = u.x ∧ r.yc = u.yc ∧ r.yd = u.yd := by
  intro s r
  have hdf : df ≠ 0 := left_ne_zero_of_mul hF
  have hof : of ≠ 0 := right_ne_zero_of_mul hF
  refine ⟨optDiv_optMul hx lx, ?_, ?_⟩
  · have l1 : (scalIf (s.applyObj 1) (s.unapplyC u.yc)).length = p.nc := by
      rw [scalIf_length]; simp only [Scal.unapplyC, s, det_rowC]; exact optDiv_length hc lyc
    refine list_ext (n := p.nc) ?_ lyc (fun l hl => ?_)
    · show (scalIf (s.unapplyObj 1) (s.applyC (scalIf (s.applyObj 1) (s.unapplyC u.yc)))).length = _
      rw [scalIf_length, applyC_length hc l1]
    · show (scalIf (s.unapplyObj 1) (s.applyC (scalIf (s.applyObj 1) (s.unapplyC u.yc)))).getD l 0 = _
      rw [scalIf_get, applyC_get hc l1 l hl, scalIf_get]
      simp only [Scal.unapplyC, s, det_rowC]
      rw [optDiv_get hc lyc hl]
      have := optFac_ne hc hl
      simp only [determine, Scal.unapplyObj, Scal.applyObj]
      field_simp
  · have l1 : (scalIf (s.applyObj 1) (s.unapplyD u.yd)).length = p.nd := by
      rw [scalIf_length]; simp only [Scal.unapplyD, s, det_rowD]; exact optDiv_length hd lyd
    refine list_ext (n := p.nd) ?_ lyd (fun l hl => ?_)
    · show (scalIf (s.unapplyObj 1) (s.applyD (scalIf (s.applyObj 1) (s.unapplyD u.yd)))).length = _
      rw [scalIf_length, applyD_length hd l1]
    · show (scalIf (s.unapplyObj 1) (s.applyD (scalIf (s.applyObj 1) (s.unapplyD u.yd)))).getD l 0 = _
      rw [scalIf_get, applyD_get hd l1 l hl, scalIf_get]
      simp only [Scal.unapplyD, s, det_rowD]
      rw [optDiv_get hd lyd hl]
      have := optFac_ne hd hl
      simp only [determine, Scal.unapplyObj, Scal.applyObj]
      field_simp

/-- C25, negation for the bound multipliers of the starting point: they are multiplied by `df * dx` (instead of divided by `dx`), so
that after scaling and unscaling every one of them has been multiplied by `dx²`. -/
theorem start_bound_multipliers_scaled_twice {p : Prob K} (hp : ProbOK p) {hom : List K → Option K} (hh : HomOK hom) (of df : K)
    (dx dc dd : Option (List K)) (hF : df * of ≠ 0) (hx : FacOK p.nx dx) (u : Point K) (lzL : u.zL.length = p.posXL.length) :
    let s := determine of df dx dc dd
    ∀ k, k < p.posXL.length →
      (scaleStart p s hom u).zL.getD k 0 = df * of * (optFac dx (p.posXL.getD k 0) * u.zL.getD k 0) ∧
      (unscalePoint p s hom (scaleStart p s hom u)).zL.getD k 0 = optFac dx (p.posXL.getD k 0) ^ 2 * u.zL.getD k 0 := by
  intro s k hk
  have hdf : df ≠ 0 := left_ne_zero_of_mul hF
  have hof : of ≠ 0 := right_ne_zero_of_mul hF
  have h1 := applyXLU_ok (of := of) (df := df) (dc := dc) (dd := dd) hh hx hp.xl hp.xlN u.zL lzL
  have hl : (scalIf (s.applyObj 1) (s.applyXLU hom p.PxL u.zL)).length = p.posXL.length := by rw [scalIf_length]; exact h1.2.1
  have h2 := applyXLU_ok (of := of) (df := df) (dc := dc) (dd := dd) hh hx hp.xl hp.xlN _ hl
  have e1 : (scaleStart p s hom u).zL.getD k 0 = df * of * (optFac dx (p.posXL.getD k 0) * u.zL.getD k 0) := by
    show (scalIf (s.applyObj 1) (s.applyXLU hom p.PxL u.zL)).getD k 0 = _
    rw [scalIf_get]
    have : s.applyObj 1 = df * of := by simp [s, determine, Scal.applyObj]
    rw [this]
    exact congrArg _ (h1.2.2 k hk)
  refine ⟨e1, ?_⟩
  show (scalIf (s.unapplyObj 1) (s.applyXLU hom p.PxL (scaleStart p s hom u).zL)).getD k 0 = _
  rw [scalIf_get]
  have h3 : (s.applyXLU hom p.PxL (scaleStart p s hom u).zL).getD k 0 =
    optFac dx (p.posXL.getD k 0) * (scaleStart p s hom u).zL.getD k 0 := h2.2.2 k hk
  rw [h3, e1]
  simp only [s, determine, Scal.unapplyObj]
  field_simp

end

/-! ### derivatives -/

/-- C25: the gradient the algorithm sees is the gradient of the objective the algorithm sees. -/
theorem scaled_gradient {p : Prob ℝ} (hp : ProbOK p) (of df : ℝ) (dx dc dd : Option (List ℝ)) (hx : FacOK p.nx dx) (x : List ℝ)
    (lx : x.length = p.nx) :
    let s := determine of df dx dc dd
    IsGradientAt p.f (p.gradF (s.unapplyX x)) p.nx (s.unapplyX x) → IsGradientAt (evalF p s) (evalGradF p s x) p.nx x := by
  intro s hg h lh
  have h1 := (hg (optDiv dx h) (optDiv_length hx lh)).const_mul (df * of)
  have e : (fun t => evalF p s (along x t h)) = fun t => df * of * p.f (along (s.unapplyX x) t (optDiv dx h)) := by
    funext t
    show s.applyObj (p.f (optDiv dx (along x t h))) = _
    rw [optDiv_along hx lx lh t]
    rfl
  rw [e]
  refine HasDerivAt.congr_deriv h1 (Eq.symm ?_)
  rw [Finset.mul_sum]
  apply Finset.sum_congr rfl
  intro j hj
  have hj' : j < p.nx := by simpa using hj
  unfold evalGradF
  rw [applyGrad_get hx (hp.g _) j hj', optDiv_get hx lh hj']
  have := optFac_ne hx hj'
  field_simp

/-- C25: the Jacobians the algorithm sees are those of the constraint functions the algorithm sees. -/
theorem scaled_jacobians {p : Prob ℝ} (hp : ProbOK p) (of df : ℝ) (dx dc dd : Option (List ℝ)) (hx : FacOK p.nx dx)
    (hc : FacOK p.nc dc) (hd : FacOK p.nd dd) (x : List ℝ) (lx : x.length = p.nx) :
    let s := determine of df dx dc dd
    let u := s.unapplyX x
    (IsJacobianAt p.c (ent (p.jacC u)) p.nc p.nx u → IsJacobianAt (evalC p s) (ent (evalJacC p s x)) p.nc p.nx x) ∧
    (IsJacobianAt p.d (ent (p.jacD u)) p.nd p.nx u → IsJacobianAt (evalD p s) (ent (evalJacD p s x)) p.nd p.nx x) := by
  intro s u
  constructor
  · intro hj h lh i hi
    have h1 := (hj (optDiv dx h) (optDiv_length hx lh) i hi).const_mul (optFac dc i)
    have e : (fun t => (evalC p s (along x t h)).getD i 0) = fun t => optFac dc i * (p.c (along u t (optDiv dx h))).getD i 0 := by
      funext t
      show (s.applyC (p.c (optDiv dx (along x t h)))).getD i 0 = _
      rw [optDiv_along hx lx lh t, applyC_get hc (hp.c _) i hi]
      rfl
    rw [e]
    refine HasDerivAt.congr_deriv h1 (Eq.symm ?_)
    rw [Finset.mul_sum]
    apply Finset.sum_congr rfl
    intro j hj
    have hj' : j < p.nx := by simpa using hj
    have := optFac_ne hx hj'
    have e2 : ent (evalJacC p s x) i j = optFac dc i * ent (p.jacC u) i j * (optFac dx j)⁻¹ := ent_scaleJac hx _ i j hj'
    rw [e2, optDiv_get hx lh hj']
    field_simp
  · intro hj h lh i hi
    have h1 := (hj (optDiv dx h) (optDiv_length hx lh) i hi).const_mul (optFac dd i)
    have e : (fun t => (evalD p s (along x t h)).getD i 0) = fun t => optFac dd i * (p.d (along u t (optDiv dx h))).getD i 0 := by
      funext t
      show (s.applyD (p.d (optDiv dx (along x t h)))).getD i 0 = _
      rw [optDiv_along hx lx lh t, applyD_get hd (hp.d _) i hi]
      rfl
    rw [e]
    refine HasDerivAt.congr_deriv h1 (Eq.symm ?_)
    rw [Finset.mul_sum]
    apply Finset.sum_congr rfl
    intro j hj
    have hj' : j < p.nx := by simpa using hj
    have := optFac_ne hx hj'
    have e2 : ent (evalJacD p s x) i j = optFac dd i * ent (p.jacD u) i j * (optFac dx j)⁻¹ := ent_scaleJac hx _ i j hj'
    rw [e2, optDiv_get hx lh hj']
    field_simp

/-- C25: the Hessian the algorithm sees is the derivative of the gradient of the Lagrangian formed from the scaled gradient and scaled
Jacobians, if the user's Hessian is the derivative of the gradient of the user's Lagrangian. -/
theorem scaled_hessian {p : Prob ℝ} (hp : ProbOK p) (of df : ℝ) (dx dc dd : Option (List ℝ)) (hx : FacOK p.nx dx)
    (hc : FacOK p.nc dc) (hd : FacOK p.nd dd) (x : List ℝ) (lx : x.length = p.nx) (σ : ℝ) (yc yd : List ℝ) (lyc : yc.length = p.nc)
    (lyd : yd.length = p.nd) :
    let s := determine of df dx dc dd
    let u := s.unapplyX x
    (∀ (τ : ℝ) (wc wd : List ℝ), wc.length = p.nc → wd.length = p.nd →
      IsJacobianAt (fun v => lagGrad p.nx p.nc p.nd (p.gradF v) (ent (p.jacC v)) (ent (p.jacD v)) τ wc wd)
        (ent (p.hess u τ wc wd)) p.nx p.nx u) →
    IsJacobianAt (fun v => lagGrad p.nx p.nc p.nd (evalGradF p s v) (ent (evalJacC p s v)) (ent (evalJacD p s v)) σ yc yd)
      (ent (evalH p s x σ yc yd)) p.nx p.nx x := by
  intro s u hH h lh i hi
  have h1 := (hH (s.applyObj σ) (s.applyC yc) (s.applyD yd) (applyC_length hc lyc) (applyD_length hd lyd) (optDiv dx h)
    (optDiv_length hx lh) i hi).const_mul ((optFac dx i)⁻¹)
  have e : (fun t => (lagGrad p.nx p.nc p.nd (evalGradF p s (along x t h)) (ent (evalJacC p s (along x t h)))
      (ent (evalJacD p s (along x t h))) σ yc yd).getD i 0) = fun t => (optFac dx i)⁻¹ *
      (lagGrad p.nx p.nc p.nd (p.gradF (along u t (optDiv dx h))) (ent (p.jacC (along u t (optDiv dx h))))
        (ent (p.jacD (along u t (optDiv dx h)))) (s.applyObj σ) (s.applyC yc) (s.applyD yd)).getD i 0 := by
    funext t
    have hv : s.unapplyX (along x t h) = along u t (optDiv dx h) := optDiv_along hx lx lh t
    unfold lagGrad
    rw [getD_map' _ _ _ 0 (by simpa), getD_map' _ _ _ 0 (by simpa)]
    simp only [List.getD_eq_getElem?_getD, List.getElem?_range hi, Option.getD_some]
    simp only [← List.getD_eq_getElem?_getD]
    have hne := optFac_ne hx hi
    have a1 : (evalGradF p s (along x t h)).getD i 0 = df * of * ((p.gradF (along u t (optDiv dx h))).getD i 0 / optFac dx i) := by
      unfold evalGradF; rw [hv]; exact applyGrad_get hx (hp.g _) i hi
    have a2 : ∀ l, ent (evalJacC p s (along x t h)) l i = optFac dc l * ent (p.jacC (along u t (optDiv dx h))) l i * (optFac dx i)⁻¹ := by
      intro l; unfold evalJacC; rw [hv]; exact ent_scaleJac hx _ l i hi
    have a3 : ∀ l, ent (evalJacD p s (along x t h)) l i = optFac dd l * ent (p.jacD (along u t (optDiv dx h))) l i * (optFac dx i)⁻¹ := by
      intro l; unfold evalJacD; rw [hv]; exact ent_scaleJac hx _ l i hi
    rw [a1, mul_add, mul_add, Finset.mul_sum, Finset.mul_sum]
    congr 1
    · congr 1
      · simp only [s, determine, Scal.applyObj]; field_simp
      · apply Finset.sum_congr rfl
        intro l hl
        rw [a2 l, applyC_get hc lyc l (by simpa using hl)]
        ring
    · apply Finset.sum_congr rfl
      intro l hl
      rw [a3 l, applyD_get hd lyd l (by simpa using hl)]
      ring
  rw [e]
  refine HasDerivAt.congr_deriv h1 (Eq.symm ?_)
  rw [Finset.mul_sum]
  apply Finset.sum_congr rfl
  intro j hj
  have hj' : j < p.nx := by simpa using hj
  have := optFac_ne hx hj'
  have e2 : ent (evalH p s x σ yc yd) i j = (optFac dx i)⁻¹ * ent (p.hess u (s.applyObj σ) (s.applyC yc) (s.applyD yd)) i j *
    (optFac dx j)⁻¹ := ent_applyHess hx _ i j hi hj'
  rw [e2, optDiv_get hx lh hj']
  field_simp

/-! ### bounds -/

section
variable {K : Type} [Field K] [LinearOrder K] [IsStrictOrderedRing K]

/-- all factors positive. -/
def FacPos (d : Option (List K)) : Prop := ∀ v, d = some v → ∀ e ∈ v, 0 < e

theorem optFac_pos {n : Nat} {d : Option (List K)} (h : FacOK n d) (hp : FacPos d) {i : Nat} (hi : i < n) : 0 < optFac d i := by
  cases d with
  | none => simp [optFac]
  | some v =>
    have hl : i < v.length := by have := (h v rfl).1; omega
    simp only [optFac, getD_lt hl]
    exact hp v rfl _ (List.getElem_mem _)

/-- C25: for positive variable scaling, the internal point satisfies the scaled bounds iff the user's point satisfies the bounds. -/
theorem bounds_equivalent {p : Prob K} (hp : ProbOK p) {hom : List K → Option K} (hh : HomOK hom) (of df : K)
    (dx dc dd : Option (List K)) (hx : FacOK p.nx dx) (hpos : FacPos dx) (u x : List K) (hs : IsScaled dx p.nx u x) (xL xU : List K)
    (h1 : xL.length = p.posXL.length) (h2 : xU.length = p.posXU.length) :
    let s := determine of df dx dc dd
    (∀ k, k < p.posXL.length → ((s.applyXLU hom p.PxL xL).getD k 0 ≤ x.getD (p.posXL.getD k 0) 0 ↔
      xL.getD k 0 ≤ u.getD (p.posXL.getD k 0) 0)) ∧
    (∀ k, k < p.posXU.length → (x.getD (p.posXU.getD k 0) 0 ≤ (s.applyXLU hom p.PxU xU).getD k 0 ↔
      u.getD (p.posXU.getD k 0) 0 ≤ xU.getD k 0)) := by
  intro s
  constructor
  · intro k hk
    have hlt := hp.xl _ (getD_mem hk)
    have e := (applyXLU_ok (of := of) (df := df) (dc := dc) (dd := dd) hh hx hp.xl hp.xlN xL h1).2.2 k hk
    unfold Prob.PxL; simp only [s]
    rw [e, hs.2.2 _ hlt]
    exact mul_le_mul_iff_right₀ (optFac_pos hx hpos hlt)
  · intro k hk
    have hlt := hp.xu _ (getD_mem hk)
    have e := (applyXLU_ok (of := of) (df := df) (dc := dc) (dd := dd) hh hx hp.xu hp.xuN xU h2).2.2 k hk
    unfold Prob.PxU; simp only [s]
    rw [e, hs.2.2 _ hlt]
    exact mul_le_mul_iff_right₀ (optFac_pos hx hpos hlt)
end

/-! ### a concrete problem

Two variables, f = x0², c = x0 + 2 x1 - 3, d = x1²; variable scaling (2, 5), constraint scaling 10 and none, objective factors 4 and -1. -/

/-- the example problem over any field. -/
def exP (K : Type) [Field K] : Prob K where
  nx := 2
  nc := 1
  nd := 1
  f := fun x => x.getD 0 0 * x.getD 0 0
  gradF := fun x => [2 * x.getD 0 0, 0]
  c := fun x => [x.getD 0 0 + 2 * x.getD 1 0 - 3]
  d := fun x => [x.getD 1 0 * x.getD 1 0]
  jacC := fun _ => .genT 1 2 [⟨1, 1, 1⟩, ⟨1, 2, 2⟩]
  jacD := fun x => .genT 1 2 [⟨1, 2, 2 * x.getD 1 0⟩]
  hess := fun _ σ _ yd => .symT 2 [⟨1, 1, 2 * σ⟩, ⟨2, 2, 2 * yd.getD 0 0⟩]
  posXL := [1]
  posXU := [0, 1]
  posDL := [0]
  posDU := []

theorem exP_ok (K : Type) [Field K] : ProbOK (exP K) := by
  constructor <;> simp [exP, Mat.dims]

theorem ex_dx : FacOK 2 (some [(2 : ℚ), 5]) := by
  intro v hv; simp at hv; subst hv; simp

theorem ex_dc : FacOK 1 (some [(10 : ℚ)]) := by
  intro v hv; simp at hv; subst hv; simp

theorem ex_dd : FacOK 1 (none : Option (List ℚ)) := by intro v hv; simp at hv

/-- the hypotheses of the theorems are met and the values are as expected by hand: at u = (3, 1), x = (6, 5). -/
example : evalF (exP ℚ) (determine (-1) 4 (some [2, 5]) (some [10]) none) [6, 5] = -36 ∧
    evalC (exP ℚ) (determine (-1) 4 (some [2, 5]) (some [10]) none) [6, 5] = [20] ∧
    evalGradF (exP ℚ) (determine (-1) 4 (some [2, 5]) (some [10]) none) [6, 5] = [-12, 0] ∧
    ent (evalJacC (exP ℚ) (determine (-1) 4 (some [2, 5]) (some [10]) none) [6, 5]) 0 1 = 4 ∧
    (determine (-1) 4 (some [2, 5]) (some [10]) none).applyXLU (fun _ => none) (exP ℚ).PxU [7, 3] = [14, (15 : ℚ)] := by
  decide +kernel

example : IsScaled (some [(2 : ℚ), 5]) 2 [3, 1] [6, 5] := by
  refine ⟨rfl, rfl, fun i hi => ?_⟩
  have : i = 0 ∨ i = 1 := by omega
  rcases this with rfl | rfl <;> simp [optFac] <;> norm_num

/-- a user who supplies exactly optimal multipliers for min x0 s.t. x0 >= 0 with variable scaling 2 starts the algorithm with a nonzero
dual infeasibility, and gets the multiplier back multiplied by 4. -/
theorem start_bound_multipliers_wrong :
    let p : Prob ℚ := { nx := 1, nc := 0, nd := 0, f := fun x => x.getD 0 0, gradF := fun _ => [1], c := fun _ => [], d := fun _ => [],
                        jacC := fun _ => .zero 0 1, jacD := fun _ => .zero 0 1, hess := fun _ _ _ _ => .zeroSym 1, posXL := [0],
                        posXU := [], posDL := [], posDU := [] }
    let s : Scal ℚ := determine 1 1 (some [2]) none none
    let u : Point ℚ := ⟨[0], [], [], [1], []⟩
    let i := scaleStart p s (fun _ => none) u
    dualRes (p.gradF u.x) (ent (p.jacC u.x)) (ent (p.jacD u.x)) 0 0 [0] [] u.yc u.yd u.zL u.zU 0 = 0 ∧
    dualRes (evalGradF p s i.x) (ent (evalJacC p s i.x)) (ent (evalJacD p s i.x)) 0 0 [0] [] i.yc i.yd i.zL i.zU 0 = -3 / 2 ∧
    (unscalePoint p s (fun _ => none) i).zL = [4] := by
  decide +kernel

/-- the derivative hypotheses are met: the gradient, Jacobians and Hessian of the example are derivatives. -/
example : IsJacobianAt (exP ℝ).d (ent ((exP ℝ).jacD [3, 1])) 1 2 [3, 1] := by
  intro h hl i hi
  obtain rfl : i = 0 := by omega
  match h, hl with
  | [a, b], _ =>
    have e : (fun t : ℝ => ((exP ℝ).d (along [3, 1] t [a, b])).getD 0 0) = fun t => (1 + t * b) * (1 + t * b) := by
      funext t; simp [exP, along]
    have h1 : HasDerivAt (fun t : ℝ => 1 + t * b) b 0 := by
      simpa using HasDerivAt.const_add (1 : ℝ) ((hasDerivAt_id (0 : ℝ)).mul_const b)
    rw [e]
    refine HasDerivAt.congr_deriv (h1.mul h1) (Eq.symm ?_)
    simp [exP, ent, Finset.sum_range_succ]
    ring

/-- a negative variable scaling factor, which nothing rejects, turns the feasible point u = 2 of 1 ≤ x into an internal point that
violates the scaled bound (positivity in `bounds_equivalent` is needed). -/
theorem negative_scaling_flips_bounds :
    let s : Scal ℚ := determine 1 1 (some [-1]) none none
    IsScaled (some [(-1 : ℚ)]) 1 [2] [-2] ∧ s.applyXLU (fun _ => none) (.expansion 1 [0]) [1] = [-1] ∧ ¬ ((-1 : ℚ) ≤ -2) := by
  refine ⟨⟨rfl, rfl, fun i hi => ?_⟩, by decide +kernel, by norm_num⟩
  obtain rfl : i = 0 := by omega
  simp [optFac]

end Verif.Scaling
