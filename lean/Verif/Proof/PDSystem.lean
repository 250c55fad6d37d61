import Verif.Spec.PDSystem
import Verif.Props.Matrix
import Mathlib.Tactic.Ring
import Mathlib.Tactic.FieldSimp
import Mathlib.Tactic.LinearCombination

/-! # Proofs about the primal-dual system -/

namespace Verif.PDSystem
open Finset Verif.Matrix

set_option linter.unusedSectionVars false
set_option linter.unusedVariables false

variable {K : Type} [Field K] [DecidableEq K]

/-- P (w ∘ Pᵀ x) = (P w) ∘ x for a selecting matrix. -/
theorem sel_mul {P : Mat K} (h : Selects P) (w : Nat → K) (x : List K) (i : Nat) (hi : i < P.dims.1) :
    ∑ j ∈ range P.dims.2, ent P i j * (w j * mtv P x j) = (∑ j ∈ range P.dims.2, ent P i j * w j) * x.getD i 0 := by
  rw [Finset.sum_mul]
  refine Finset.sum_congr rfl fun j hj => ?_
  have hj' : j < P.dims.2 := by simpa using hj
  have : ent P i j * mtv P x j = ent P i j * x.getD i 0 := by
    unfold mtv
    rw [Finset.mul_sum, Finset.sum_eq_single i]
    · rw [← mul_assoc, h i i j hi hi hj', if_pos rfl]
    · intro k hk hne
      rw [← mul_assoc, h i k j hi (by simpa using hk) hj', if_neg (Ne.symm hne), zero_mul]
    · intro hn; simp [hi] at hn
  calc ent P i j * (w j * mtv P x j) = w j * (ent P i j * mtv P x j) := by ring
    _ = _ := by rw [this]; ring

section
variable {hom : List K → Option K} (hh : HomOK hom)
include hh

theorem mult_get (m : Mat K) (hw : WF m) (α : K) (x : List K) (β : K) (y : List K) (hx : x.length = m.dims.2) (hy : y.length = m.dims.1)
    (i : Nat) (hi : i < m.dims.1) : (m.mult hom α x β y).getD i 0 = β * y.getD i 0 + α * mv m x i :=
  (mult_is_product hh m hw α x β y hx hy).2 i hi

theorem mult_len (m : Mat K) (hw : WF m) (α : K) (x : List K) (β : K) (y : List K) (hx : x.length = m.dims.2) (hy : y.length = m.dims.1) :
    (m.mult hom α x β y).length = m.dims.1 := (mult_is_product hh m hw α x β y hx hy).1

theorem trans_get (m : Mat K) (hw : WF m) (α : K) (x : List K) (β : K) (y : List K) (hx : x.length = m.dims.1) (hy : y.length = m.dims.2)
    (i : Nat) (hi : i < m.dims.2) : (m.transMult hom α x β y).getD i 0 = β * y.getD i 0 + α * mtv m x i :=
  (transMult_is_transposed_product hh m hw α x β y hx hy).2 i hi

theorem trans_len (m : Mat K) (hw : WF m) (α : K) (x : List K) (β : K) (y : List K) (hx : x.length = m.dims.1) (hy : y.length = m.dims.2) :
    (m.transMult hom α x β y).length = m.dims.2 := (transMult_is_transposed_product hh m hw α x β y hx hy).1

omit hh in
theorem addTwo_len (a : K) (v1 : List K) (b : K) (v2 y : List K) (h1 : v1.length = y.length) (h2 : v2.length = y.length) :
    (addTwo a v1 b v2 y).length = y.length := by
  rw [addTwo, axpy_length _ _ _ (by rw [axpy_length _ _ _ h1, h2]), axpy_length _ _ _ h1]

omit hh in
theorem addTwo_get (a : K) (v1 : List K) (b : K) (v2 y : List K) (h1 : v1.length = y.length) (h2 : v2.length = y.length) (i : Nat)
    (hi : i < y.length) : (addTwo a v1 b v2 y).getD i 0 = a * v1.getD i 0 + b * v2.getD i 0 + y.getD i 0 := by
  rw [addTwo, axpy_get _ _ _ _ (by rw [axpy_length _ _ _ h1, h2]) (by rw [axpy_length _ _ _ h1]; exact hi), axpy_get _ _ _ _ h1 hi]
  ring

/-- Σ_x is the vector PxL (zL/sxL) + PxU (zU/sxU). -/
theorem sigmaX_get {D : Data K} (h : D.OK) (i : Nat) (hi : i < D.W.dims.1) : (sigmaX hom D).getD i 0 =
    (∑ j ∈ range D.PxL.dims.2, ent D.PxL i j * (D.zL.getD j 0 / D.sxL.getD j 0)) +
      ∑ j ∈ range D.PxU.dims.2, ent D.PxU i j * (D.zU.getD j 0 / D.sxU.getD j 0) := by
  have h1 := addMSinvZ_correct hh D.PxL h.xL.wf h.xL.unit 1 D.sxL D.zL (List.replicate D.PxL.dims.1 0) h.sxL h.zL (by simp)
  have h2 := addMSinvZ_correct hh D.PxU h.xU.wf h.xU.unit 1 D.sxU D.zU
    (D.PxL.addMSinvZ hom 1 D.sxL D.zL (List.replicate D.PxL.dims.1 0)) h.sxU h.zU (by rw [h1.1, h.xLd, h.xUd])
  rw [sigmaX, h2.2 i (by rw [h.xUd]; exact hi), h1.2 i (by rw [h.xLd]; exact hi)]
  have : (List.replicate D.PxL.dims.1 (0:K)).getD i 0 = 0 := by
    rw [getD_lt (by rw [List.length_replicate, h.xLd]; exact hi)]; simp
  rw [this]; ring

theorem sigmaX_len {D : Data K} (h : D.OK) : (sigmaX hom D).length = D.W.dims.1 := by
  have h1 := addMSinvZ_correct hh D.PxL h.xL.wf h.xL.unit 1 D.sxL D.zL (List.replicate D.PxL.dims.1 0) h.sxL h.zL (by simp)
  have h2 := addMSinvZ_correct hh D.PxU h.xU.wf h.xU.unit 1 D.sxU D.zU
    (D.PxL.addMSinvZ hom 1 D.sxL D.zL (List.replicate D.PxL.dims.1 0)) h.sxU h.zU (by rw [h1.1, h.xLd, h.xUd])
  rw [sigmaX, h2.1, h.xUd]

theorem sigmaS_get {D : Data K} (h : D.OK) (i : Nat) (hi : i < D.Jd.dims.1) : (sigmaS hom D).getD i 0 =
    (∑ j ∈ range D.PdL.dims.2, ent D.PdL i j * (D.vL.getD j 0 / D.ssL.getD j 0)) +
      ∑ j ∈ range D.PdU.dims.2, ent D.PdU i j * (D.vU.getD j 0 / D.ssU.getD j 0) := by
  have h1 := addMSinvZ_correct hh D.PdL h.sL.wf h.sL.unit 1 D.ssL D.vL (List.replicate D.PdL.dims.1 0) h.ssL h.vL (by simp)
  have h2 := addMSinvZ_correct hh D.PdU h.sU.wf h.sU.unit 1 D.ssU D.vU
    (D.PdL.addMSinvZ hom 1 D.ssL D.vL (List.replicate D.PdL.dims.1 0)) h.ssU h.vU (by rw [h1.1, h.sLd, h.sUd])
  rw [sigmaS, h2.2 i (by rw [h.sUd]; exact hi), h1.2 i (by rw [h.sLd]; exact hi)]
  have : (List.replicate D.PdL.dims.1 (0:K)).getD i 0 = 0 := by
    rw [getD_lt (by rw [List.length_replicate, h.sLd]; exact hi)]; simp
  rw [this]; ring

theorem sigmaS_len {D : Data K} (h : D.OK) : (sigmaS hom D).length = D.Jd.dims.1 := by
  have h1 := addMSinvZ_correct hh D.PdL h.sL.wf h.sL.unit 1 D.ssL D.vL (List.replicate D.PdL.dims.1 0) h.ssL h.vL (by simp)
  have h2 := addMSinvZ_correct hh D.PdU h.sU.wf h.sU.unit 1 D.ssU D.vU
    (D.PdL.addMSinvZ hom 1 D.ssL D.vL (List.replicate D.PdL.dims.1 0)) h.ssU h.vU (by rw [h1.1, h.sLd, h.sUd])
  rw [sigmaS, h2.1, h.sUd]

theorem augRhs_dim {D : Data K} (h : D.OK) {rhs : Iter K} (hr : rhs.Dim D) : (augRhs hom D rhs).Dim D := by
  have h1 := addMSinvZ_correct hh D.PxL h.xL.wf h.xL.unit 1 D.sxL rhs.zL rhs.x h.sxL hr.zL (by rw [h.xLd, hr.x])
  have h2 := addMSinvZ_correct hh D.PxU h.xU.wf h.xU.unit (-1) D.sxU rhs.zU _ h.sxU hr.zU (by rw [h1.1, h.xLd, h.xUd])
  have h3 := addMSinvZ_correct hh D.PdL h.sL.wf h.sL.unit 1 D.ssL rhs.vL rhs.s h.ssL hr.vL (by rw [h.sLd, hr.s])
  have h4 := addMSinvZ_correct hh D.PdU h.sU.wf h.sU.unit (-1) D.ssU rhs.vU _ h.ssU hr.vU (by rw [h3.1, h.sLd, h.sUd])
  exact ⟨by rw [augRhs]; simp only; rw [h2.1, h.xUd], by rw [augRhs]; simp only; rw [h4.1, h.sUd], hr.yc, hr.yd⟩

theorem augRhs_x {D : Data K} (h : D.OK) {rhs : Iter K} (hr : rhs.Dim D) (i : Nat) (hi : i < D.W.dims.1) :
    (augRhs hom D rhs).x.getD i 0 = rhs.x.getD i 0 +
      (∑ j ∈ range D.PxL.dims.2, ent D.PxL i j * (rhs.zL.getD j 0 / D.sxL.getD j 0)) -
        ∑ j ∈ range D.PxU.dims.2, ent D.PxU i j * (rhs.zU.getD j 0 / D.sxU.getD j 0) := by
  have h1 := addMSinvZ_correct hh D.PxL h.xL.wf h.xL.unit 1 D.sxL rhs.zL rhs.x h.sxL hr.zL (by rw [h.xLd, hr.x])
  have h2 := addMSinvZ_correct hh D.PxU h.xU.wf h.xU.unit (-1) D.sxU rhs.zU _ h.sxU hr.zU (by rw [h1.1, h.xLd, h.xUd])
  rw [augRhs]; simp only
  rw [h2.2 i (by rw [h.xUd]; exact hi), h1.2 i (by rw [h.xLd]; exact hi)]; ring

theorem augRhs_s {D : Data K} (h : D.OK) {rhs : Iter K} (hr : rhs.Dim D) (i : Nat) (hi : i < D.Jd.dims.1) :
    (augRhs hom D rhs).s.getD i 0 = rhs.s.getD i 0 +
      (∑ j ∈ range D.PdL.dims.2, ent D.PdL i j * (rhs.vL.getD j 0 / D.ssL.getD j 0)) -
        ∑ j ∈ range D.PdU.dims.2, ent D.PdU i j * (rhs.vU.getD j 0 / D.ssU.getD j 0) := by
  have h3 := addMSinvZ_correct hh D.PdL h.sL.wf h.sL.unit 1 D.ssL rhs.vL rhs.s h.ssL hr.vL (by rw [h.sLd, hr.s])
  have h4 := addMSinvZ_correct hh D.PdU h.sU.wf h.sU.unit (-1) D.ssU rhs.vU _ h.ssU hr.vU (by rw [h3.1, h.sLd, h.sUd])
  rw [augRhs]; simp only
  rw [h4.2 i (by rw [h.sUd]; exact hi), h3.2 i (by rw [h.sLd]; exact hi)]; ring

theorem recover_dim {D : Data K} (h : D.OK) {rhs sol0 : Iter K} (hr : rhs.Dim D) (h0 : sol0.Dim D) {a : Aug K} (ha : a.Dim D) :
    (recover hom D rhs a sol0).Dim D where
  x := ha.x
  s := ha.s
  yc := ha.c
  yd := ha.d
  zL := (sinvBlrm_correct hh D.PxL h.xL.wf h.xL.tall (-1) D.sxL rhs.zL D.zL a.x sol0.zL h.sxL hr.zL h.zL (by rw [ha.x, h.xLd]) h0.zL).1
  zU := (sinvBlrm_correct hh D.PxU h.xU.wf h.xU.tall 1 D.sxU rhs.zU D.zU a.x sol0.zU h.sxU hr.zU h.zU (by rw [ha.x, h.xUd]) h0.zU).1
  vL := (sinvBlrm_correct hh D.PdL h.sL.wf h.sL.tall (-1) D.ssL rhs.vL D.vL a.s sol0.vL h.ssL hr.vL h.vL (by rw [ha.s, h.sLd]) h0.vL).1
  vU := (sinvBlrm_correct hh D.PdU h.sU.wf h.sU.tall 1 D.ssU rhs.vU D.vU a.s sol0.vU h.ssU hr.vU h.vU (by rw [ha.s, h.sUd]) h0.vU).1

theorem recover_zL {D : Data K} (h : D.OK) {rhs sol0 : Iter K} (hr : rhs.Dim D) (h0 : sol0.Dim D) {a : Aug K} (ha : a.Dim D) (i : Nat)
    (hi : i < D.PxL.dims.2) : (recover hom D rhs a sol0).zL.getD i 0 =
      rhs.zL.getD i 0 / D.sxL.getD i 0 - D.zL.getD i 0 / D.sxL.getD i 0 * mtv D.PxL a.x i := by
  rw [recover]; simp only
  rw [(sinvBlrm_correct hh D.PxL h.xL.wf h.xL.tall (-1) D.sxL rhs.zL D.zL a.x sol0.zL h.sxL hr.zL h.zL (by rw [ha.x, h.xLd]) h0.zL).2 i hi]
  unfold mtv
  have := h.sxL0 i hi
  field_simp
  ring

theorem recover_zU {D : Data K} (h : D.OK) {rhs sol0 : Iter K} (hr : rhs.Dim D) (h0 : sol0.Dim D) {a : Aug K} (ha : a.Dim D) (i : Nat)
    (hi : i < D.PxU.dims.2) : (recover hom D rhs a sol0).zU.getD i 0 =
      rhs.zU.getD i 0 / D.sxU.getD i 0 + D.zU.getD i 0 / D.sxU.getD i 0 * mtv D.PxU a.x i := by
  rw [recover]; simp only
  rw [(sinvBlrm_correct hh D.PxU h.xU.wf h.xU.tall 1 D.sxU rhs.zU D.zU a.x sol0.zU h.sxU hr.zU h.zU (by rw [ha.x, h.xUd]) h0.zU).2 i hi]
  unfold mtv
  have := h.sxU0 i hi
  field_simp

theorem recover_vL {D : Data K} (h : D.OK) {rhs sol0 : Iter K} (hr : rhs.Dim D) (h0 : sol0.Dim D) {a : Aug K} (ha : a.Dim D) (i : Nat)
    (hi : i < D.PdL.dims.2) : (recover hom D rhs a sol0).vL.getD i 0 =
      rhs.vL.getD i 0 / D.ssL.getD i 0 - D.vL.getD i 0 / D.ssL.getD i 0 * mtv D.PdL a.s i := by
  rw [recover]; simp only
  rw [(sinvBlrm_correct hh D.PdL h.sL.wf h.sL.tall (-1) D.ssL rhs.vL D.vL a.s sol0.vL h.ssL hr.vL h.vL (by rw [ha.s, h.sLd]) h0.vL).2 i hi]
  unfold mtv
  have := h.ssL0 i hi
  field_simp
  ring

theorem recover_vU {D : Data K} (h : D.OK) {rhs sol0 : Iter K} (hr : rhs.Dim D) (h0 : sol0.Dim D) {a : Aug K} (ha : a.Dim D) (i : Nat)
    (hi : i < D.PdU.dims.2) : (recover hom D rhs a sol0).vU.getD i 0 =
      rhs.vU.getD i 0 / D.ssU.getD i 0 + D.vU.getD i 0 / D.ssU.getD i 0 * mtv D.PdU a.s i := by
  rw [recover]; simp only
  rw [(sinvBlrm_correct hh D.PdU h.sU.wf h.sU.tall 1 D.ssU rhs.vU D.vU a.s sol0.vU h.ssU hr.vU h.vU (by rw [ha.s, h.sUd]) h0.vU).2 i hi]
  unfold mtv
  have := h.ssU0 i hi
  field_simp

omit hh [DecidableEq K] in
theorem mv_congr (A : Mat K) (x : List K) (f : Nat → K) (i : Nat) (h : ∀ j, j < A.dims.2 → x.getD j 0 = f j) :
    mv A x i = ∑ j ∈ range A.dims.2, ent A i j * f j :=
  Finset.sum_congr rfl fun j hj => by rw [h j (by simpa using hj)]

omit hh [DecidableEq K] in
theorem sum_split_sub (n : Nat) (A : Nat → K) (f g : Nat → K) :
    ∑ j ∈ range n, A j * (f j - g j) = ∑ j ∈ range n, A j * f j - ∑ j ∈ range n, A j * g j := by
  rw [← Finset.sum_sub_distrib]; exact Finset.sum_congr rfl fun j _ => by ring

omit hh [DecidableEq K] in
theorem sum_split_add (n : Nat) (A : Nat → K) (f g : Nat → K) :
    ∑ j ∈ range n, A j * (f j + g j) = ∑ j ∈ range n, A j * f j + ∑ j ∈ range n, A j * g j := by
  rw [← Finset.sum_add_distrib]; exact Finset.sum_congr rfl fun j _ => by ring

/-- residual of the first block of the full system = residual of the first block of the augmented system. -/
theorem full_x_iff {D : Data K} (h : D.OK) {rhs sol0 : Iter K} (hr : rhs.Dim D) (h0 : sol0.Dim D) {a : Aug K} (ha : a.Dim D) (δ : K)
    (i : Nat) (hi : i < D.W.dims.1) :
    mv D.W a.x i + δ * a.x.getD i 0 + mtv D.Jc a.c i + mtv D.Jd a.d i - mv D.PxL (recover hom D rhs a sol0).zL i +
      mv D.PxU (recover hom D rhs a sol0).zU i - rhs.x.getD i 0 =
    1 * mv D.W a.x i + ((sigmaX hom D).getD i 0 + δ) * a.x.getD i 0 + mtv D.Jc a.c i + mtv D.Jd a.d i - (augRhs hom D rhs).x.getD i 0 := by
  rw [mv_congr D.PxL _ _ i (fun j hj => recover_zL hh h hr h0 ha j hj), mv_congr D.PxU _ _ i (fun j hj => recover_zU hh h hr h0 ha j hj),
    sum_split_sub, sum_split_add, sel_mul h.xL.sel _ _ i (by rw [h.xLd]; exact hi), sel_mul h.xU.sel _ _ i (by rw [h.xUd]; exact hi),
    sigmaX_get hh h i hi, augRhs_x hh h hr i hi]
  ring

theorem full_s_iff {D : Data K} (h : D.OK) {rhs sol0 : Iter K} (hr : rhs.Dim D) (h0 : sol0.Dim D) {a : Aug K} (ha : a.Dim D) (δ : K)
    (i : Nat) (hi : i < D.Jd.dims.1) :
    δ * a.s.getD i 0 - a.d.getD i 0 - mv D.PdL (recover hom D rhs a sol0).vL i + mv D.PdU (recover hom D rhs a sol0).vU i
      - rhs.s.getD i 0 =
    ((sigmaS hom D).getD i 0 + δ) * a.s.getD i 0 - a.d.getD i 0 - (augRhs hom D rhs).s.getD i 0 := by
  rw [mv_congr D.PdL _ _ i (fun j hj => recover_vL hh h hr h0 ha j hj), mv_congr D.PdU _ _ i (fun j hj => recover_vU hh h hr h0 ha j hj),
    sum_split_sub, sum_split_add, sel_mul h.sL.sel _ _ i (by rw [h.sLd]; exact hi), sel_mul h.sU.sel _ _ i (by rw [h.sUd]; exact hi),
    sigmaS_get hh h i hi, augRhs_s hh h hr i hi]
  ring

/-- elimination: for the recovered vector the full system is equivalent to the augmented system. -/
theorem elim_iff {D : Data K} (h : D.OK) {rhs sol0 : Iter K} (hr : rhs.Dim D) (h0 : sol0.Dim D) {a : Aug K} (ha : a.Dim D) (δ : Deltas K) :
    FullSystem D δ (recover hom D rhs a sol0) rhs ↔ SolvesAug D (sigmaX hom D) (sigmaS hom D) δ a (augRhs hom D rhs) := by
  constructor
  · intro f
    refine ⟨fun i hi => ?_, fun i hi => ?_, fun i hi => ?_, fun i hi => ?_⟩
    · have := full_x_iff hh h hr h0 ha δ.x i hi
      have e := f.x i hi
      change mv D.W a.x i + δ.x * a.x.getD i 0 + mtv D.Jc a.c i + mtv D.Jd a.d i - _ + _ = _ at e
      linear_combination e - this
    · have := full_s_iff hh h hr h0 ha δ.s i hi
      have e := f.s i hi
      change δ.s * a.s.getD i 0 - a.d.getD i 0 - _ + _ = _ at e
      linear_combination e - this
    · have e := f.yc i hi
      change mv D.Jc a.x i - δ.c * a.c.getD i 0 = rhs.yc.getD i 0 at e
      change _ = rhs.yc.getD i 0
      simp only [List.getD_nil]
      linear_combination e
    · have e := f.yd i hi
      change mv D.Jd a.x i - a.s.getD i 0 - δ.d * a.d.getD i 0 = rhs.yd.getD i 0 at e
      change _ = rhs.yd.getD i 0
      simp only [List.getD_nil]
      linear_combination e
  · intro g
    refine ⟨fun i hi => ?_, fun i hi => ?_, fun i hi => ?_, fun i hi => ?_, fun i hi => ?_, fun i hi => ?_, fun i hi => ?_, fun i hi => ?_⟩
    · have := full_x_iff hh h hr h0 ha δ.x i hi
      have e := g.x i hi
      change mv D.W a.x i + δ.x * a.x.getD i 0 + mtv D.Jc a.c i + mtv D.Jd a.d i - _ + _ = _
      linear_combination e + this
    · have := full_s_iff hh h hr h0 ha δ.s i hi
      have e := g.s i hi
      change δ.s * a.s.getD i 0 - a.d.getD i 0 - _ + _ = _
      linear_combination e + this
    · have e := g.c i hi
      change _ = rhs.yc.getD i 0 at e
      simp only [List.getD_nil] at e
      change mv D.Jc a.x i - δ.c * a.c.getD i 0 = rhs.yc.getD i 0
      linear_combination e
    · have e := g.d i hi
      change _ = rhs.yd.getD i 0 at e
      simp only [List.getD_nil] at e
      change mv D.Jd a.x i - a.s.getD i 0 - δ.d * a.d.getD i 0 = rhs.yd.getD i 0
      linear_combination e
    · rw [recover_zL hh h hr h0 ha i hi]
      change _ + D.zL.getD i 0 * mtv D.PxL a.x i = _
      have := h.sxL0 i hi
      field_simp
      ring
    · rw [recover_zU hh h hr h0 ha i hi]
      change _ - D.zU.getD i 0 * mtv D.PxU a.x i = _
      have := h.sxU0 i hi
      field_simp
      ring
    · rw [recover_vL hh h hr h0 ha i hi]
      change _ + D.vL.getD i 0 * mtv D.PdL a.s i = _
      have := h.ssL0 i hi
      field_simp
      ring
    · rw [recover_vU hh h hr h0 ha i hi]
      change _ - D.vU.getD i 0 * mtv D.PdU a.s i = _
      have := h.ssU0 i hi
      field_simp
      ring

end
end Verif.PDSystem
