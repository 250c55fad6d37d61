import Verif.Proof.PDSystem

/-! # Residuals, refinement and the augmented matrix -/

namespace Verif.PDSystem
open Finset Verif.Matrix

set_option linter.unusedSectionVars false
set_option linter.unusedVariables false
set_option linter.unusedSimpArgs false

variable {K : Type} [Field K] [DecidableEq K]

section
variable {hom : List K → Option K} (hh : HomOK hom)
include hh

/-- blocks of complementarity: s ∘ dz + a z ∘ (Pᵀ dx) - r. -/
theorem compl_get (P : Mat K) (hw : WF P) (a : K) (x z dz s r : List K) (hx : x.length = P.dims.1) (hz : z.length = P.dims.2)
    (hdz : dz.length = P.dims.2) (hs : s.length = P.dims.2) (hr : r.length = P.dims.2) :
    (addTwo a (emul (P.transMult hom 1 x 0 z) z) (-1) r (emul dz s)).length = P.dims.2 ∧
    ∀ i, i < P.dims.2 → (addTwo a (emul (P.transMult hom 1 x 0 z) z) (-1) r (emul dz s)).getD i 0 =
      s.getD i 0 * dz.getD i 0 + a * (z.getD i 0 * mtv P x i) - r.getD i 0 := by
  have ht := trans_len hh P hw 1 x 0 z hx hz
  have h1 : (emul (P.transMult hom 1 x 0 z) z).length = P.dims.2 := by rw [emul_length _ _ (by rw [hz, ht]), ht]
  have h2 : (emul dz s).length = P.dims.2 := by rw [emul_length _ _ (by rw [hs, hdz]), hdz]
  refine ⟨by rw [addTwo_len _ _ _ _ _ (by rw [h1, h2]) (by rw [hr, h2]), h2], fun i hi => ?_⟩
  rw [addTwo_get _ _ _ _ _ (by rw [h1, h2]) (by rw [hr, h2]) i (by rw [h2]; exact hi), emul_get _ _ _ (by rw [hz, ht]) (by rw [ht]; exact hi),
    emul_get _ _ _ (by rw [hs, hdz]) (by rw [hdz]; exact hi), trans_get hh P hw 1 x 0 z hx hz i hi]
  ring

theorem resid_x {D : Data K} (h : D.OK) (δ : Deltas K) {rhs res r0 : Iter K} (hr : rhs.Dim D) (hs : res.Dim D) (h0 : r0.Dim D) :
    (computeResiduals hom D δ rhs res r0).x.length = D.W.dims.1 ∧ ∀ i, i < D.W.dims.1 →
    (computeResiduals hom D δ rhs res r0).x.getD i 0 = mv D.W res.x i + δ.x * res.x.getD i 0 + mtv D.Jc res.yc i + mtv D.Jd res.yd i
      - mv D.PxL res.zL i + mv D.PxU res.zU i - rhs.x.getD i 0 := by
  have l1 := mult_len hh D.W h.W 1 res.x 0 r0.x (by rw [hs.x, h.Wd]) h0.x
  have l2 := trans_len hh D.Jc h.Jc 1 res.yc 1 _ hs.yc (l1.trans h.Jcd.symm)
  have l3 := trans_len hh D.Jd h.Jd 1 res.yd 1 _ hs.yd (l2.trans (h.Jcd.trans h.Jdd.symm))
  have l4 := mult_len hh D.PxL h.xL.wf (-1) res.zL 1 _ hs.zL (l3.trans (h.Jdd.trans h.xLd.symm))
  have l5 := mult_len hh D.PxU h.xU.wf 1 res.zU 1 _ hs.zU (l4.trans (h.xLd.trans h.xUd.symm))
  unfold computeResiduals
  simp only
  have e5 := l5.trans h.xUd
  refine ⟨by rw [addTwo_len _ _ _ _ _ (by rw [e5, hs.x]) (by rw [e5, hr.x]), e5], fun i hi => ?_⟩
  rw [addTwo_get _ _ _ _ _ (by rw [e5, hs.x]) (by rw [e5, hr.x]) i (by rw [e5]; exact hi),
    mult_get hh D.PxU h.xU.wf 1 res.zU 1 _ hs.zU (l4.trans (h.xLd.trans h.xUd.symm)) i (by rw [h.xUd]; exact hi),
    mult_get hh D.PxL h.xL.wf (-1) res.zL 1 _ hs.zL (l3.trans (h.Jdd.trans h.xLd.symm)) i (by rw [h.xLd]; exact hi),
    trans_get hh D.Jd h.Jd 1 res.yd 1 _ hs.yd (l2.trans (h.Jcd.trans h.Jdd.symm)) i (by rw [h.Jdd]; exact hi),
    trans_get hh D.Jc h.Jc 1 res.yc 1 _ hs.yc (l1.trans h.Jcd.symm) i (by rw [h.Jcd]; exact hi),
    mult_get hh D.W h.W 1 res.x 0 r0.x (by rw [hs.x, h.Wd]) h0.x i hi]
  ring

theorem resid_s {D : Data K} (h : D.OK) (δ : Deltas K) {rhs res r0 : Iter K} (hr : rhs.Dim D) (hs : res.Dim D) (h0 : r0.Dim D) :
    (computeResiduals hom D δ rhs res r0).s.length = D.Jd.dims.1 ∧ ∀ i, i < D.Jd.dims.1 →
    (computeResiduals hom D δ rhs res r0).s.getD i 0 = δ.s * res.s.getD i 0 - res.yd.getD i 0 - mv D.PdL res.vL i + mv D.PdU res.vU i
      - rhs.s.getD i 0 := by
  have l1 := mult_len hh D.PdU h.sU.wf 1 res.vU 0 r0.s hs.vU (h0.s.trans h.sUd.symm)
  have l2 := mult_len hh D.PdL h.sL.wf (-1) res.vL 1 _ hs.vL (l1.trans (h.sUd.trans h.sLd.symm))
  have e2 := l2.trans h.sLd
  have l3 : (addTwo (-1) res.yd (-1) rhs.s (D.PdL.mult hom (-1) res.vL 1 (D.PdU.mult hom 1 res.vU 0 r0.s))).length = D.Jd.dims.1 := by
    rw [addTwo_len _ _ _ _ _ (by rw [e2, hs.yd]) (by rw [e2, hr.s]), e2]
  have g3 : ∀ i, i < D.Jd.dims.1 → (addTwo (-1) res.yd (-1) rhs.s (D.PdL.mult hom (-1) res.vL 1 (D.PdU.mult hom 1 res.vU 0 r0.s))).getD i 0
      = - res.yd.getD i 0 - mv D.PdL res.vL i + mv D.PdU res.vU i - rhs.s.getD i 0 := by
    intro i hi
    rw [addTwo_get _ _ _ _ _ (by rw [e2, hs.yd]) (by rw [e2, hr.s]) i (by rw [e2]; exact hi),
      mult_get hh D.PdL h.sL.wf (-1) res.vL 1 _ hs.vL (l1.trans (h.sUd.trans h.sLd.symm)) i (by rw [h.sLd]; exact hi),
      mult_get hh D.PdU h.sU.wf 1 res.vU 0 r0.s hs.vU (h0.s.trans h.sUd.symm) i (by rw [h.sUd]; exact hi)]
    ring
  unfold computeResiduals
  simp only
  by_cases hd : δ.s = 0
  · simp only [hd, beq_self_eq_true, if_true]
    exact ⟨l3, fun i hi => by rw [g3 i hi]; ring⟩
  · simp only [beq_iff_eq, hd, if_false]
    refine ⟨by rw [axpy_length _ _ _ (by rw [l3, hs.s]), l3], fun i hi => ?_⟩
    rw [axpy_get _ _ _ _ (by rw [l3, hs.s]) (by rw [l3]; exact hi), g3 i hi]
    ring

theorem resid_yd {D : Data K} (h : D.OK) (δ : Deltas K) {rhs res r0 : Iter K} (hr : rhs.Dim D) (hs : res.Dim D) (h0 : r0.Dim D) :
    (computeResiduals hom D δ rhs res r0).yd.length = D.Jd.dims.1 ∧ ∀ i, i < D.Jd.dims.1 →
    (computeResiduals hom D δ rhs res r0).yd.getD i 0 = mv D.Jd res.x i - res.s.getD i 0 - δ.d * res.yd.getD i 0 - rhs.yd.getD i 0 := by
  have l1 := mult_len hh D.Jd h.Jd 1 res.x 0 r0.yd (by rw [hs.x, h.Jdd]) h0.yd
  have l3 : (addTwo (-1) res.s (-1) rhs.yd (D.Jd.mult hom 1 res.x 0 r0.yd)).length = D.Jd.dims.1 := by
    rw [addTwo_len _ _ _ _ _ (by rw [l1, hs.s]) (by rw [l1, hr.yd]), l1]
  have g3 : ∀ i, i < D.Jd.dims.1 → (addTwo (-1) res.s (-1) rhs.yd (D.Jd.mult hom 1 res.x 0 r0.yd)).getD i 0
      = mv D.Jd res.x i - res.s.getD i 0 - rhs.yd.getD i 0 := by
    intro i hi
    rw [addTwo_get _ _ _ _ _ (by rw [l1, hs.s]) (by rw [l1, hr.yd]) i (by rw [l1]; exact hi),
      mult_get hh D.Jd h.Jd 1 res.x 0 r0.yd (by rw [hs.x, h.Jdd]) h0.yd i hi]
    ring
  unfold computeResiduals
  simp only
  by_cases hd : δ.d = 0
  · simp only [hd, beq_self_eq_true, if_true]
    exact ⟨l3, fun i hi => by rw [g3 i hi]; ring⟩
  · simp only [beq_iff_eq, hd, if_false]
    refine ⟨by rw [axpy_length _ _ _ (by rw [l3, hs.yd]), l3], fun i hi => ?_⟩
    rw [axpy_get _ _ _ _ (by rw [l3, hs.yd]) (by rw [l3]; exact hi), g3 i hi]
    ring

theorem resid_yc {D : Data K} (h : D.OK) (δ : Deltas K) {rhs res r0 : Iter K} (hr : rhs.Dim D) (hs : res.Dim D) (h0 : r0.Dim D) :
    (computeResiduals hom D δ rhs res r0).yc.length = D.Jc.dims.1 ∧ ∀ i, i < D.Jc.dims.1 →
    (computeResiduals hom D δ rhs res r0).yc.getD i 0 = mv D.Jc res.x i - δ.c * res.yc.getD i 0 - rhs.yc.getD i 0 := by
  have l1 := mult_len hh D.Jc h.Jc 1 res.x 0 r0.yc (by rw [hs.x, h.Jcd]) h0.yc
  unfold computeResiduals
  simp only
  refine ⟨by rw [addTwo_len _ _ _ _ _ (by rw [l1, hs.yc]) (by rw [l1, hr.yc]), l1], fun i hi => ?_⟩
  rw [addTwo_get _ _ _ _ _ (by rw [l1, hs.yc]) (by rw [l1, hr.yc]) i (by rw [l1]; exact hi),
    mult_get hh D.Jc h.Jc 1 res.x 0 r0.yc (by rw [hs.x, h.Jcd]) h0.yc i hi]
  ring

theorem computeResiduals_ok {D : Data K} (h : D.OK) (δ : Deltas K) {rhs res r0 : Iter K} (hr : rhs.Dim D) (hs : res.Dim D) (h0 : r0.Dim D) :
    (computeResiduals hom D δ rhs res r0).Dim D ∧ IsResidual D δ res rhs (computeResiduals hom D δ rhs res r0) := by
  have z1 := compl_get hh D.PxL h.xL.wf 1 res.x D.zL res.zL D.sxL rhs.zL (hs.x.trans h.xLd.symm) h.zL hs.zL h.sxL hr.zL
  have z2 := compl_get hh D.PxU h.xU.wf (-1) res.x D.zU res.zU D.sxU rhs.zU (hs.x.trans h.xUd.symm) h.zU hs.zU h.sxU hr.zU
  have z3 := compl_get hh D.PdL h.sL.wf 1 res.s D.vL res.vL D.ssL rhs.vL (hs.s.trans h.sLd.symm) h.vL hs.vL h.ssL hr.vL
  have z4 := compl_get hh D.PdU h.sU.wf (-1) res.s D.vU res.vU D.ssU rhs.vU (hs.s.trans h.sUd.symm) h.vU hs.vU h.ssU hr.vU
  refine ⟨⟨(resid_x hh h δ hr hs h0).1, (resid_s hh h δ hr hs h0).1, (resid_yc hh h δ hr hs h0).1, (resid_yd hh h δ hr hs h0).1,
    z1.1, z2.1, z3.1, z4.1⟩, ⟨(resid_x hh h δ hr hs h0).2, (resid_s hh h δ hr hs h0).2, (resid_yc hh h δ hr hs h0).2,
    (resid_yd hh h δ hr hs h0).2, fun i hi => ?_, fun i hi => ?_, fun i hi => ?_, fun i hi => ?_⟩⟩
  · exact (z1.2 i hi).trans (by ring)
  · exact (z2.2 i hi).trans (by ring)
  · exact (z3.2 i hi).trans (by ring)
  · exact (z4.2 i hi).trans (by ring)

end

/-! ### Linearity -/

omit [DecidableEq K] in
theorem mv_lin (A : Mat K) (x y z : List K) (a b : K) (i : Nat) (h : ∀ j, j < A.dims.2 → z.getD j 0 = a * x.getD j 0 + b * y.getD j 0) :
    mv A z i = a * mv A x i + b * mv A y i := by
  unfold mv
  rw [Finset.mul_sum, Finset.mul_sum, ← Finset.sum_add_distrib]
  exact Finset.sum_congr rfl fun j hj => by rw [h j (by simpa using hj)]; ring

omit [DecidableEq K] in
theorem mtv_lin (A : Mat K) (x y z : List K) (a b : K) (i : Nat) (h : ∀ j, j < A.dims.1 → z.getD j 0 = a * x.getD j 0 + b * y.getD j 0) :
    mtv A z i = a * mtv A x i + b * mtv A y i := by
  unfold mtv
  rw [Finset.mul_sum, Finset.mul_sum, ← Finset.sum_add_distrib]
  exact Finset.sum_congr rfl fun j hj => by rw [h j (by simpa using hj)]; ring

theorem addOne_dim {D : Data K} {v y : Iter K} (α β : K) (hv : v.Dim D) (hy : y.Dim D) : (Iter.addOne α v β y).Dim D where
  x := by unfold Iter.addOne; simp only; rw [addOne_length _ _ _ _ (by rw [hv.x, hy.x]), hy.x]
  s := by unfold Iter.addOne; simp only; rw [addOne_length _ _ _ _ (by rw [hv.s, hy.s]), hy.s]
  yc := by unfold Iter.addOne; simp only; rw [addOne_length _ _ _ _ (by rw [hv.yc, hy.yc]), hy.yc]
  yd := by unfold Iter.addOne; simp only; rw [addOne_length _ _ _ _ (by rw [hv.yd, hy.yd]), hy.yd]
  zL := by unfold Iter.addOne; simp only; rw [addOne_length _ _ _ _ (by rw [hv.zL, hy.zL]), hy.zL]
  zU := by unfold Iter.addOne; simp only; rw [addOne_length _ _ _ _ (by rw [hv.zU, hy.zU]), hy.zU]
  vL := by unfold Iter.addOne; simp only; rw [addOne_length _ _ _ _ (by rw [hv.vL, hy.vL]), hy.vL]
  vU := by unfold Iter.addOne; simp only; rw [addOne_length _ _ _ _ (by rw [hv.vU, hy.vU]), hy.vU]

theorem addOne_get' (a : K) (v : List K) (c : K) (y : List K) (n : Nat) (hv : v.length = n) (hy : y.length = n) (i : Nat) (hi : i < n) :
    (Matrix.addOne a v c y).getD i 0 = a * v.getD i 0 + c * y.getD i 0 := by
  rw [addOne_get _ _ _ _ _ (by rw [hv, hy]) (by rw [hy]; exact hi)]; ring

/-- a correction that solves the system for the residual removes the residual. -/
theorem refine_exact {D : Data K} (h : D.OK) (δ : Deltas K) {rhs res r d : Iter K} (hres : res.Dim D) (hd : d.Dim D)
    (hR : IsResidual D δ res rhs r) (hF : FullSystem D δ d r) : FullSystem D δ (Iter.addOne (-1) d 1 res) rhs := by
  have ex := fun j hj => addOne_get' (-1) d.x 1 res.x _ hd.x hres.x j hj
  have es := fun j hj => addOne_get' (-1) d.s 1 res.s _ hd.s hres.s j hj
  have ec := fun j hj => addOne_get' (-1) d.yc 1 res.yc _ hd.yc hres.yc j hj
  have ed := fun j hj => addOne_get' (-1) d.yd 1 res.yd _ hd.yd hres.yd j hj
  have e1 := fun j hj => addOne_get' (-1) d.zL 1 res.zL _ hd.zL hres.zL j hj
  have e2 := fun j hj => addOne_get' (-1) d.zU 1 res.zU _ hd.zU hres.zU j hj
  have e3 := fun j hj => addOne_get' (-1) d.vL 1 res.vL _ hd.vL hres.vL j hj
  have e4 := fun j hj => addOne_get' (-1) d.vU 1 res.vU _ hd.vU hres.vU j hj
  refine ⟨fun i hi => ?_, fun i hi => ?_, fun i hi => ?_, fun i hi => ?_, fun i hi => ?_, fun i hi => ?_, fun i hi => ?_, fun i hi => ?_⟩ <;>
    unfold Iter.addOne <;> simp only
  · rw [mv_lin D.W d.x res.x _ (-1) 1 i (fun j hj => ex j (by rw [← h.Wd]; exact hj)), mtv_lin D.Jc d.yc res.yc _ (-1) 1 i ec,
      mtv_lin D.Jd d.yd res.yd _ (-1) 1 i ed, mv_lin D.PxL d.zL res.zL _ (-1) 1 i e1, mv_lin D.PxU d.zU res.zU _ (-1) 1 i e2, ex i hi]
    linear_combination - hF.x i hi - hR.x i hi
  · rw [mv_lin D.PdL d.vL res.vL _ (-1) 1 i e3, mv_lin D.PdU d.vU res.vU _ (-1) 1 i e4, es i hi, ed i hi]
    linear_combination - hF.s i hi - hR.s i hi
  · rw [mv_lin D.Jc d.x res.x _ (-1) 1 i (fun j hj => ex j (by rw [← h.Jcd]; exact hj)), ec i hi]
    linear_combination - hF.yc i hi - hR.yc i hi
  · rw [mv_lin D.Jd d.x res.x _ (-1) 1 i (fun j hj => ex j (by rw [← h.Jdd]; exact hj)), es i hi, ed i hi]
    linear_combination - hF.yd i hi - hR.yd i hi
  · rw [mtv_lin D.PxL d.x res.x _ (-1) 1 i (fun j hj => ex j (by rw [← h.xLd]; exact hj)), e1 i hi]
    linear_combination - hF.zL i hi - hR.zL i hi
  · rw [mtv_lin D.PxU d.x res.x _ (-1) 1 i (fun j hj => ex j (by rw [← h.xUd]; exact hj)), e2 i hi]
    linear_combination - hF.zU i hi - hR.zU i hi
  · rw [mtv_lin D.PdL d.s res.s _ (-1) 1 i (fun j hj => es j (by rw [← h.sLd]; exact hj)), e3 i hi]
    linear_combination - hF.vL i hi - hR.vL i hi
  · rw [mtv_lin D.PdU d.s res.s _ (-1) 1 i (fun j hj => es j (by rw [← h.sUd]; exact hj)), e4 i hi]
    linear_combination - hF.vU i hi - hR.vU i hi

/-! ### The augmented matrix -/

omit [DecidableEq K] in
theorem locate4 (a b c d : Nat) :
    (∀ i, i < a → locate [a, b, c, d] i = (0, i)) ∧ (∀ i, i < b → locate [a, b, c, d] (a + i) = (1, i)) ∧
    (∀ i, i < c → locate [a, b, c, d] (a + b + i) = (2, i)) ∧ (∀ i, i < d → locate [a, b, c, d] (a + b + c + i) = (3, i)) := by
  refine ⟨fun i hi => ?_, fun i hi => ?_, fun i hi => ?_, fun i hi => ?_⟩
  · simp [locate, hi]
  · simp [locate, hi]
  · have h1 : ¬ a + b + i < a := by omega
    have h2 : a + b + i - a = b + i := by omega
    simp [locate, hi, h1, h2]
  · have h1 : ¬ a + b + c + i < a := by omega
    have h2 : a + b + c + i - a = b + (c + i) := by omega
    simp [locate, hi, h1, h2]

/-- concatenation of the four blocks. -/
def Aug.flat {N : Type} (v : Aug N) : List N := v.x ++ (v.s ++ (v.c ++ v.d))

omit [DecidableEq K] in
theorem flat_get (v : Aug K) (a b c d : Nat) (hx : v.x.length = a) (hs : v.s.length = b) (hc : v.c.length = c) (hd : v.d.length = d) :
    (∀ i, i < a → v.flat.getD i 0 = v.x.getD i 0) ∧ (∀ i, i < b → v.flat.getD (a + i) 0 = v.s.getD i 0) ∧
    (∀ i, i < c → v.flat.getD (a + b + i) 0 = v.c.getD i 0) ∧ (∀ i, i < d → v.flat.getD (a + b + c + i) 0 = v.d.getD i 0) := by
  refine ⟨fun i hi => ?_, fun i hi => ?_, fun i hi => ?_, fun i hi => ?_⟩ <;> unfold Aug.flat
  · rw [List.getD_append _ _ _ _ (by omega)]
  · rw [List.getD_append_right _ _ _ _ (by omega), show a + i - v.x.length = i by omega, List.getD_append _ _ _ _ (by omega)]
  · rw [List.getD_append_right _ _ _ _ (by omega), show a + b + i - v.x.length = b + i by omega,
      List.getD_append_right _ _ _ _ (by omega), show b + i - v.s.length = i by omega, List.getD_append _ _ _ _ (by omega)]
  · rw [List.getD_append_right _ _ _ _ (by omega), show a + b + c + i - v.x.length = b + (c + i) by omega,
      List.getD_append_right _ _ _ _ (by omega), show b + (c + i) - v.s.length = c + i by omega,
      List.getD_append_right _ _ _ _ (by omega), show c + i - v.c.length = i by omega]

omit [DecidableEq K] in
theorem sum4 (a b c d : Nat) (f : Nat → K) : ∑ j ∈ range (a + (b + (c + d))), f j =
    ∑ j ∈ range a, f j + ∑ j ∈ range b, f (a + j) + ∑ j ∈ range c, f (a + b + j) + ∑ j ∈ range d, f (a + b + c + j) := by
  rw [Finset.sum_range_add, Finset.sum_range_add, Finset.sum_range_add]
  simp only [Nat.add_assoc]
  ring

/-- value of an optional diagonal. -/
def optDiag (D : Option (List K)) : List K := D.getD []

theorem diagBlock_get (D : Option (List K)) (δ : K) (z : Bool) (hz : z = true ↔ δ = 0) (n i : Nat) (hi : i < n)
    (hD : ∀ d, D = some d → d.length = n) : (diagBlock D δ z n).getD i 0 = (optDiag D).getD i 0 + δ := by
  unfold diagBlock optDiag
  cases D with
  | none => simp [List.getD_eq_getElem?_getD, hi]
  | some d =>
    simp only [Option.getD_some]
    by_cases h : δ = 0
    · rw [if_pos (hz.2 h)]; simp [h]
    · rw [if_neg (fun h' => h (hz.1 h')), getD_map' _ _ _ 0 (by rw [hD d rfl]; exact hi)]

omit [DecidableEq K] in
theorem sum_diag (n i : Nat) (hi : i < n) (v : K) (x : Nat → K) : ∑ j ∈ range n, (if i = j then v else 0) * x j = v * x i := by
  rw [Finset.sum_eq_single i]
  · simp
  · intro j _ hj; simp [Ne.symm hj]
  · intro h; simp [hi] at h

/-- the arguments agree in dimension. -/
structure AugArgs.OK (oldW : Mat K) (a : AugArgs K) : Prop where
  W : (a.W.getD oldW).dims = (a.Jc.dims.2, a.Jc.dims.2)
  Jd : a.Jd.dims.2 = a.Jc.dims.2
  Dx : ∀ d, a.Dx = some d → d.length = a.Jc.dims.2
  Ds : ∀ d, a.Ds = some d → d.length = a.Jd.dims.1
  Dc : ∀ d, a.Dc = some d → d.length = a.Jc.dims.1
  Dd : ∀ d, a.Dd = some d → d.length = a.Jd.dims.1

/-- the factor of `W`. -/
def AugArgs.wf (a : AugArgs K) : K := if a.W.isSome then a.Wfac else 0

section
variable (oldW : Mat K) (a : AugArgs K)

theorem kkt_00 (h : a.OK oldW) (i j : Nat) (hi : i < a.Jc.dims.2) (hj : j < a.Jc.dims.2) :
    ent (kkt oldW a) i j = a.wf * ent (a.W.getD oldW) i j + if i = j then (optDiag a.Dx).getD i 0 + a.δx else 0 := by
  have L := locate4 a.Jc.dims.2 a.Jd.dims.1 a.Jc.dims.1 a.Jd.dims.1
  have e : ent (kkt oldW a) i j = ent (kktW oldW a a.Jc.dims.2) i j := by
    simp [kkt, ent, L.1 i hi, L.1 j hj, kktSet]
  rw [e]
  unfold kktW
  simp only [ent, Finset.sum_range_succ, Finset.sum_range_zero, zero_add, if_true, one_ne_zero, if_false, one_mul]
  congr 1
  · cases hW : a.W <;> simp [AugArgs.wf, hW]
  · by_cases hij : i = j
    · rw [if_pos hij, if_pos hij, diagBlock_get a.Dx a.δx (a.δx == 0) (by simp) a.Jc.dims.2 i hi h.Dx]
    · rw [if_neg hij, if_neg hij]

theorem kkt_01 (i j : Nat) (hi : i < a.Jc.dims.2) (hj : j < a.Jd.dims.1) :
    ent (kkt oldW a) i (a.Jc.dims.2 + j) = 0 ∧ ent (kkt oldW a) (a.Jc.dims.2 + j) i = 0 := by
  have L := locate4 a.Jc.dims.2 a.Jd.dims.1 a.Jc.dims.1 a.Jd.dims.1
  constructor <;> simp [kkt, ent, L.1 i hi, L.2.1 j hj, kktSet]

theorem kkt_02 (i j : Nat) (hi : i < a.Jc.dims.2) (hj : j < a.Jc.dims.1) :
    ent (kkt oldW a) i (a.Jc.dims.2 + a.Jd.dims.1 + j) = ent a.Jc j i ∧ ent (kkt oldW a) (a.Jc.dims.2 + a.Jd.dims.1 + j) i = ent a.Jc j i := by
  have L := locate4 a.Jc.dims.2 a.Jd.dims.1 a.Jc.dims.1 a.Jd.dims.1
  constructor <;> simp [kkt, ent, L.1 i hi, L.2.2.1 j hj, kktSet]

theorem kkt_03 (i j : Nat) (hi : i < a.Jc.dims.2) (hj : j < a.Jd.dims.1) :
    ent (kkt oldW a) i (a.Jc.dims.2 + a.Jd.dims.1 + a.Jc.dims.1 + j) = ent a.Jd j i ∧
    ent (kkt oldW a) (a.Jc.dims.2 + a.Jd.dims.1 + a.Jc.dims.1 + j) i = ent a.Jd j i := by
  have L := locate4 a.Jc.dims.2 a.Jd.dims.1 a.Jc.dims.1 a.Jd.dims.1
  constructor <;> simp [kkt, ent, L.1 i hi, L.2.2.2 j hj, kktSet]

theorem kkt_11 (h : a.OK oldW) (i j : Nat) (hi : i < a.Jd.dims.1) (hj : j < a.Jd.dims.1) :
    ent (kkt oldW a) (a.Jc.dims.2 + i) (a.Jc.dims.2 + j) = if i = j then (optDiag a.Ds).getD i 0 + a.δs else 0 := by
  have L := locate4 a.Jc.dims.2 a.Jd.dims.1 a.Jc.dims.1 a.Jd.dims.1
  rw [← diagBlock_get a.Ds a.δs (a.δs == 0) (by simp) a.Jd.dims.1 i hi h.Ds]
  simp [kkt, ent, L.2.1 i hi, L.2.1 j hj, kktSet]

theorem kkt_12 (i j : Nat) (hi : i < a.Jd.dims.1) (hj : j < a.Jc.dims.1) :
    ent (kkt oldW a) (a.Jc.dims.2 + i) (a.Jc.dims.2 + a.Jd.dims.1 + j) = 0 ∧
    ent (kkt oldW a) (a.Jc.dims.2 + a.Jd.dims.1 + j) (a.Jc.dims.2 + i) = 0 := by
  have L := locate4 a.Jc.dims.2 a.Jd.dims.1 a.Jc.dims.1 a.Jd.dims.1
  constructor <;> simp [kkt, ent, L.2.1 i hi, L.2.2.1 j hj, kktSet]

theorem kkt_13 (i j : Nat) (hi : i < a.Jd.dims.1) (hj : j < a.Jd.dims.1) :
    ent (kkt oldW a) (a.Jc.dims.2 + i) (a.Jc.dims.2 + a.Jd.dims.1 + a.Jc.dims.1 + j) = (if i = j then -1 else 0) ∧
    ent (kkt oldW a) (a.Jc.dims.2 + a.Jd.dims.1 + a.Jc.dims.1 + j) (a.Jc.dims.2 + i) = (if i = j then -1 else 0) := by
  have L := locate4 a.Jc.dims.2 a.Jd.dims.1 a.Jc.dims.1 a.Jd.dims.1
  constructor <;> simp [kkt, ent, L.2.1 i hi, L.2.2.2 j hj, kktSet, eq_comm]

theorem kkt_22 (h : a.OK oldW) (i j : Nat) (hi : i < a.Jc.dims.1) (hj : j < a.Jc.dims.1) :
    ent (kkt oldW a) (a.Jc.dims.2 + a.Jd.dims.1 + i) (a.Jc.dims.2 + a.Jd.dims.1 + j) =
      if i = j then (optDiag a.Dc).getD i 0 + -a.δc else 0 := by
  have L := locate4 a.Jc.dims.2 a.Jd.dims.1 a.Jc.dims.1 a.Jd.dims.1
  rw [← diagBlock_get a.Dc (-a.δc) (a.δc == 0) (by simp) a.Jc.dims.1 i hi h.Dc]
  simp [kkt, ent, L.2.2.1 i hi, L.2.2.1 j hj, kktSet]

theorem kkt_23 (i j : Nat) (hi : i < a.Jc.dims.1) (hj : j < a.Jd.dims.1) :
    ent (kkt oldW a) (a.Jc.dims.2 + a.Jd.dims.1 + i) (a.Jc.dims.2 + a.Jd.dims.1 + a.Jc.dims.1 + j) = 0 ∧
    ent (kkt oldW a) (a.Jc.dims.2 + a.Jd.dims.1 + a.Jc.dims.1 + j) (a.Jc.dims.2 + a.Jd.dims.1 + i) = 0 := by
  have L := locate4 a.Jc.dims.2 a.Jd.dims.1 a.Jc.dims.1 a.Jd.dims.1
  constructor <;> simp [kkt, ent, L.2.2.1 i hi, L.2.2.2 j hj, kktSet]

theorem kkt_33 (h : a.OK oldW) (i j : Nat) (hi : i < a.Jd.dims.1) (hj : j < a.Jd.dims.1) :
    ent (kkt oldW a) (a.Jc.dims.2 + a.Jd.dims.1 + a.Jc.dims.1 + i) (a.Jc.dims.2 + a.Jd.dims.1 + a.Jc.dims.1 + j) =
      if i = j then (optDiag a.Dd).getD i 0 + -a.δd else 0 := by
  have L := locate4 a.Jc.dims.2 a.Jd.dims.1 a.Jc.dims.1 a.Jd.dims.1
  rw [← diagBlock_get a.Dd (-a.δd) (a.δd == 0) (by simp) a.Jd.dims.1 i hi h.Dd]
  simp [kkt, ent, L.2.2.2 i hi, L.2.2.2 j hj, kktSet]

/-- K v = r for the augmented matrix, i.e. the system the linear solver is asked to solve, is the augmented system. -/
theorem kkt_iff (h : a.OK oldW) (v r : Aug K) (hv : v.x.length = a.Jc.dims.2 ∧ v.s.length = a.Jd.dims.1 ∧ v.c.length = a.Jc.dims.1 ∧
      v.d.length = a.Jd.dims.1) (hr : r.x.length = a.Jc.dims.2 ∧ r.s.length = a.Jd.dims.1 ∧ r.c.length = a.Jc.dims.1 ∧
      r.d.length = a.Jd.dims.1) :
    (∀ i, i < (kkt oldW a).dims.1 → mv (kkt oldW a) v.flat i = r.flat.getD i 0) ↔
    AugSystem a.Jc.dims.2 (a.W.getD oldW) a.wf (optDiag a.Dx) a.δx (optDiag a.Ds) a.δs a.Jc (optDiag a.Dc) a.δc a.Jd (optDiag a.Dd) a.δd
      v r := by
  have hd : (kkt oldW a).dims = (a.Jc.dims.2 + (a.Jd.dims.1 + (a.Jc.dims.1 + a.Jd.dims.1)),
      a.Jc.dims.2 + (a.Jd.dims.1 + (a.Jc.dims.1 + a.Jd.dims.1))) := by
    simp [kkt, Mat.dims]
  have Fv := flat_get v _ _ _ _ hv.1 hv.2.1 hv.2.2.1 hv.2.2.2
  have Fr := flat_get r _ _ _ _ hr.1 hr.2.1 hr.2.2.1 hr.2.2.2
  have hWd : (a.W.getD oldW).dims.2 = a.Jc.dims.2 := by rw [h.W]
  have sumc : ∀ {n : Nat} {f g : Nat → K}, (∀ j, j < n → f j = g j) → ∑ j ∈ range n, f j = ∑ j ∈ range n, g j :=
    fun hfg => Finset.sum_congr rfl (fun j hj => hfg j (by simpa using hj))
  have add4 : ∀ {a b c d a' b' c' d' : K}, a = a' → b = b' → c = c' → d = d' → a + b + c + d = a' + b' + c' + d' := by
    rintro a b c d _ _ _ _ rfl rfl rfl rfl; rfl
  have row : ∀ i, mv (kkt oldW a) v.flat i = ∑ j ∈ range a.Jc.dims.2, ent (kkt oldW a) i j * v.x.getD j 0 +
      ∑ j ∈ range a.Jd.dims.1, ent (kkt oldW a) i (a.Jc.dims.2 + j) * v.s.getD j 0 +
      ∑ j ∈ range a.Jc.dims.1, ent (kkt oldW a) i (a.Jc.dims.2 + a.Jd.dims.1 + j) * v.c.getD j 0 +
      ∑ j ∈ range a.Jd.dims.1, ent (kkt oldW a) i (a.Jc.dims.2 + a.Jd.dims.1 + a.Jc.dims.1 + j) * v.d.getD j 0 := by
    intro i
    unfold mv
    rw [hd]
    simp only
    rw [sum4]
    exact add4 (sumc (fun j hj => by rw [Fv.1 j hj])) (sumc (fun j hj => by rw [Fv.2.1 j hj]))
      (sumc (fun j hj => by rw [Fv.2.2.1 j hj])) (sumc (fun j hj => by rw [Fv.2.2.2 j hj]))
  have r0 : ∀ i, i < a.Jc.dims.2 → mv (kkt oldW a) v.flat i = a.wf * mv (a.W.getD oldW) v.x i +
      ((optDiag a.Dx).getD i 0 + a.δx) * v.x.getD i 0 + mtv a.Jc v.c i + mtv a.Jd v.d i := by
    intro i hi
    rw [row, add4 (sumc (fun j hj => by rw [kkt_00 oldW a h i j hi hj, add_mul]))
      (sumc (fun j hj => by rw [(kkt_01 oldW a i j hi hj).1, zero_mul]))
      (sumc (fun j hj => by rw [(kkt_02 oldW a i j hi hj).1]))
      (sumc (fun j hj => by rw [(kkt_03 oldW a i j hi hj).1])), Finset.sum_add_distrib, sum_diag _ _ hi, Finset.sum_const_zero]
    unfold mv mtv
    rw [hWd, Finset.mul_sum, sumc (fun j hj => by rw [mul_assoc])]
    ring
  have r1 : ∀ i, i < a.Jd.dims.1 → mv (kkt oldW a) v.flat (a.Jc.dims.2 + i) =
      ((optDiag a.Ds).getD i 0 + a.δs) * v.s.getD i 0 - v.d.getD i 0 := by
    intro i hi
    rw [row, add4 (sumc (fun j hj => by rw [(kkt_01 oldW a j i hj hi).2, zero_mul]))
      (sumc (fun j hj => by rw [kkt_11 oldW a h i j hi hj]))
      (sumc (fun j hj => by rw [(kkt_12 oldW a i j hi hj).1, zero_mul]))
      (sumc (fun j hj => by rw [(kkt_13 oldW a i j hi hj).1])), sum_diag _ _ hi, sum_diag _ _ hi]
    simp only [Finset.sum_const_zero]
    ring
  have r2 : ∀ i, i < a.Jc.dims.1 → mv (kkt oldW a) v.flat (a.Jc.dims.2 + a.Jd.dims.1 + i) =
      mv a.Jc v.x i + ((optDiag a.Dc).getD i 0 - a.δc) * v.c.getD i 0 := by
    intro i hi
    rw [row, add4 (sumc (fun j hj => by rw [(kkt_02 oldW a j i hj hi).2]))
      (sumc (fun j hj => by rw [(kkt_12 oldW a j i hj hi).2, zero_mul]))
      (sumc (fun j hj => by rw [kkt_22 oldW a h i j hi hj]))
      (sumc (fun j hj => by rw [(kkt_23 oldW a i j hi hj).1, zero_mul])), sum_diag _ _ hi]
    simp only [Finset.sum_const_zero]
    unfold mv
    ring
  have r3 : ∀ i, i < a.Jd.dims.1 → mv (kkt oldW a) v.flat (a.Jc.dims.2 + a.Jd.dims.1 + a.Jc.dims.1 + i) =
      mv a.Jd v.x i - v.s.getD i 0 + ((optDiag a.Dd).getD i 0 - a.δd) * v.d.getD i 0 := by
    intro i hi
    rw [row, add4 (sumc (fun j hj => by rw [(kkt_03 oldW a j i hj hi).2]))
      (sumc (fun j hj => by rw [(kkt_13 oldW a j i hj hi).2]))
      (sumc (fun j hj => by rw [(kkt_23 oldW a j i hj hi).2, zero_mul]))
      (sumc (fun j hj => by rw [kkt_33 oldW a h i j hi hj])), sum_diag _ _ hi, Finset.sum_const_zero]
    have : ∑ j ∈ range a.Jd.dims.1, (if j = i then (-1 : K) else 0) * v.s.getD j 0 = - v.s.getD i 0 := by
      rw [sumc (fun j hj => by rw [show (if j = i then (-1 : K) else 0) = if i = j then -1 else 0 by simp [eq_comm]])]
      rw [sum_diag _ _ hi]; ring
    rw [this]
    unfold mv
    rw [h.Jd]
    ring
  constructor
  · intro H
    rw [hd] at H
    simp only at H
    refine ⟨fun i hi => ?_, fun i hi => ?_, fun i hi => ?_, fun i hi => ?_⟩
    · rw [← r0 i hi, H i (by omega), Fr.1 i hi]
    · rw [← r1 i hi, H _ (by omega), Fr.2.1 i hi]
    · rw [← r2 i hi, H _ (by omega), Fr.2.2.1 i hi]
    · rw [← r3 i hi, H _ (by omega), Fr.2.2.2 i hi]
  · intro G i hi
    rw [hd] at hi
    simp only at hi
    by_cases h0 : i < a.Jc.dims.2
    · rw [r0 i h0, Fr.1 i h0]; exact G.x i h0
    · by_cases h1 : i < a.Jc.dims.2 + a.Jd.dims.1
      · obtain ⟨k, rfl⟩ : ∃ k, i = a.Jc.dims.2 + k := ⟨i - a.Jc.dims.2, by omega⟩
        rw [r1 k (by omega), Fr.2.1 k (by omega)]; exact G.s k (by omega)
      · by_cases h2 : i < a.Jc.dims.2 + a.Jd.dims.1 + a.Jc.dims.1
        · obtain ⟨k, rfl⟩ : ∃ k, i = a.Jc.dims.2 + a.Jd.dims.1 + k := ⟨i - (a.Jc.dims.2 + a.Jd.dims.1), by omega⟩
          rw [r2 k (by omega), Fr.2.2.1 k (by omega)]; exact G.c k (by omega)
        · obtain ⟨k, rfl⟩ : ∃ k, i = a.Jc.dims.2 + a.Jd.dims.1 + a.Jc.dims.1 + k := ⟨i - (a.Jc.dims.2 + a.Jd.dims.1 + a.Jc.dims.1), by omega⟩
          rw [r3 k (by omega), Fr.2.2.2 k (by omega)]; exact G.d k (by omega)

end
end Verif.PDSystem
