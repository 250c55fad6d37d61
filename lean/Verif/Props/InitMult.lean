import Verif.Model.InitMult
import Verif.Props.InitPoint
import Verif.Props.RestoInit
import Mathlib.Tactic.Ring
import Mathlib.Tactic.LinearCombination
import Mathlib.Tactic.NormNum
import Mathlib.Tactic.Positivity
import Mathlib.Tactic.FieldSimp
import Mathlib.Algebra.BigOperators.Ring.Finset

/-! # C71, C72: the initial iterate, warm start -/

namespace Verif.InitMult
open Verif.InitPoint Verif.RestoInit
open scoped BigOperators
set_option linter.unusedSectionVars false
set_option linter.unusedSimpArgs false
set_option linter.unusedVariables false
set_option linter.unusedTactic false

variable {K : Type} [Field K] [LinearOrder K] [IsStrictOrderedRing K] {n m : Nat} {C : Type} [Fintype C] {bx : Bd n K} {bd : Bd m K}

/-! ### Specification -/

/-- bounds with room for the margins (see C29). -/
def Bd.Ok (b : Bd n K) (frac tiny : K) : Prop := ∀ i l u, b.lo i = some l → b.up i = some u → l ≤ u ∧ tiny < frac * (u - l)

/-- strictly between the bounds. -/
def Bd.Inside (b : Bd n K) (v : Fin n → K) : Prop := (∀ i l, b.lo i = some l → l < v i) ∧ ∀ i u, b.up i = some u → v i < u

/-- a vector given at the positions with a lower bound, zero elsewhere. -/
def extL {b : Bd n K} (v : b.L → K) (i : Fin n) : K := if h : (b.lo i).isSome = true then v ⟨i, h⟩ else 0

/-- a vector given at the positions with an upper bound, zero elsewhere. -/
def extU {b : Bd n K} (v : b.U → K) (i : Fin n) : K := if h : (b.up i).isSome = true then v ⟨i, h⟩ else 0

/-- the augmented system solver solves the system. -/
def Env.Exact (e : Env K C bx bd) : Prop := ∀ a r, e.aug a = some r →
  (∀ j, (a.Dx.getD fun _ => 0) j * r.x j + a.deltaX * r.x j + ∑ i, a.Jc i j * r.c i + ∑ i, a.Jd i j * r.d i = a.rx j) ∧
  (∀ i, (a.Ds.getD fun _ => 0) i * r.s i + a.deltaS * r.s i - r.d i = a.rs i) ∧
  (∀ i, ∑ j, a.Jc i j * r.x j = a.rc i) ∧ ∀ i, ∑ j, a.Jd i j * r.x j - r.s i = a.rd i

/-- gradient of the Lagrangian with the given gradient and Jacobians. -/
def DualFeasible (g : Fin n → K) (Jc : _root_.Matrix C (Fin n) K) (Jd : _root_.Matrix (Fin m) (Fin n) K) (yc : C → K) (yd : Fin m → K) (zL : bx.L → K) (zU : bx.U → K) (vL : bd.L → K)
    (vU : bd.U → K) : Prop :=
  (∀ j, g j + ∑ i, Jc i j * yc i + ∑ i, Jd i j * yd i - extL zL j + extU zU j = 0) ∧ ∀ i, -yd i - extL vL i + extU vU i = 0

/-- the sum of squares of all bound multipliers. -/
def sq (zL : bx.L → K) (zU : bx.U → K) (vL : bd.L → K) (vU : bd.U → K) : K := ∑ i, zL i * zL i + ∑ i, zU i * zU i + ∑ i, vL i * vL i + ∑ i, vU i * vU i

/-! ### Primal variables -/

theorem pushV_eq {push frac tiny : K} (hp : 0 < push) (hf : 0 < frac) (hf2 : frac ≤ 1 / 2) (ht : 0 < tiny) (b : Bd n K) (hb : b.Ok frac tiny) (v : Fin n → K) (i : Fin n) :
    pushV push frac tiny b v i = InitPoint.Spec.project (InitPoint.Spec.low push frac tiny ⟨v i, b.lo i, b.up i⟩) (InitPoint.Spec.high push frac tiny ⟨v i, b.lo i, b.up i⟩) (v i) := by
  unfold pushV
  rw [initial_point hp hf hf2 ht]
  · rw [List.getD_eq_getElem?_getD, List.getElem?_map]
    simp
  · intro w hw
    rw [List.mem_ofFn] at hw
    obtain ⟨j, rfl⟩ := hw
    intro l u h1 h2
    exact hb j l u h1 h2

theorem pushV_inside {push frac tiny : K} (hp : 0 < push) (hf : 0 < frac) (hf2 : frac ≤ 1 / 2) (ht : 0 < tiny) (b : Bd n K) (hb : b.Ok frac tiny) (v : Fin n → K) :
    b.Inside (pushV push frac tiny b v) := by
  have hc : ∀ w ∈ (List.ofFn fun i => (⟨v i, b.lo i, b.up i⟩ : Var K)), Consistent frac tiny w := by
    intro w hw
    rw [List.mem_ofFn] at hw
    obtain ⟨j, rfl⟩ := hw
    intro l u h1 h2
    exact hb j l u h1 h2
  have key : ∀ i : Fin n, (∀ l, b.lo i = some l → l < pushV push frac tiny b v i) ∧ ∀ u, b.up i = some u → pushV push frac tiny b v i < u := by
    intro i
    obtain ⟨h, h1, h2⟩ := initial_point_strictly_inside hp hf hf2 ht _ hc i (by simp)
    have e : pushV push frac tiny b v i = (pushVariables push frac tiny (List.ofFn fun i => (⟨v i, b.lo i, b.up i⟩ : Var K)))[(i : Nat)] := by
      unfold pushV
      rw [List.getD_eq_getElem?_getD, List.getElem?_eq_getElem h, Option.getD_some]
    rw [e]
    refine ⟨fun l hl => h1 l (by simpa using hl), fun u hu => h2 u (by simpa using hu)⟩
  exact ⟨fun i => (key i).1, fun i => (key i).2⟩

/-- The initial point is strictly inside the bounds, for the variables and the slacks, whatever the starting point, with or without least-square initialization. -/
theorem default_inside (cfg : Cfg K) (hp : 0 < cfg.push) (hf : 0 < cfg.frac) (hf2 : cfg.frac ≤ 1 / 2) (hp' : 0 < cfg.sPush) (hf' : 0 < cfg.sFrac) (hf2' : cfg.sFrac ≤ 1 / 2)
    (ht : 0 < cfg.tiny) (hx : bx.Ok cfg.frac cfg.tiny) (hd : bd.Ok cfg.sFrac cfg.tiny) (e : Env K C bx bd) (x0 : Fin n → K) :
    bx.Inside (setDefault cfg e x0).x ∧ bd.Inside (setDefault cfg e x0).s := by
  have h1 : (setDefault cfg e x0).x = pushV cfg.push cfg.frac cfg.tiny bx (if cfg.lsPrimal then (lsPrimals e x0).getD x0 else x0) := by
    unfold setDefault; simp only []; split <;> rfl
  have h2 : (setDefault cfg e x0).s = pushV cfg.sPush cfg.sFrac cfg.tiny bd (e.d (setDefault cfg e x0).x) := by
    rw [h1]; unfold setDefault; simp only []; split <;> rfl
  rw [h2, h1]
  exact ⟨pushV_inside hp hf hf2 ht _ hx _, pushV_inside hp' hf' hf2' ht _ hd _⟩

/-- Without `least_square_init_primal` (or if the linear solver fails) the point pushed into the bounds is the user's, and the slacks are the pushed constraint values at the *pushed* point. -/
theorem default_primal (cfg : Cfg K) (e : Env K C bx bd) (x0 : Fin n → K) :
    (setDefault cfg e x0).s = pushV cfg.sPush cfg.sFrac cfg.tiny bd (e.d (setDefault cfg e x0).x) ∧
    (cfg.lsPrimal = false ∨ lsPrimals e x0 = none → (setDefault cfg e x0).x = pushV cfg.push cfg.frac cfg.tiny bx x0) ∧
    (∀ x1, cfg.lsPrimal = true → lsPrimals e x0 = some x1 → (setDefault cfg e x0).x = pushV cfg.push cfg.frac cfg.tiny bx x1) := by
  have h1 : (setDefault cfg e x0).x = pushV cfg.push cfg.frac cfg.tiny bx (if cfg.lsPrimal then (lsPrimals e x0).getD x0 else x0) := by
    unfold setDefault; simp only []; split <;> rfl
  refine ⟨?_, ?_, ?_⟩
  · rw [h1]; unfold setDefault; simp only []; split <;> rfl
  · rintro (h | h)
    · rw [h1, h]; simp
    · rw [h1, h]; simp
  · intro x1 h2 h3
    rw [h1, h2, h3]; simp

theorem sum_swap {P Q : Type} [Fintype P] [Fintype Q] (J : _root_.Matrix P Q K) (a : P → K) (b : Q → K) : ∑ j, (∑ i, J i j * a i) * b j = ∑ i, a i * ∑ j, J i j * b j := by
  simp only [Finset.sum_mul, Finset.mul_sum]
  rw [Finset.sum_comm]
  exact Finset.sum_congr rfl fun i _ => Finset.sum_congr rfl fun j _ => by ring

/-- `least_square_init_primal`: the vector computed is the one of least norm (together with the slacks) with `J_c x = −c(x0)`, `J_d x − s = −d(x0)`.  These are the constraints linearized at the user's point `x0`
only if `J x0 = 0` (last part), e.g. for `x0 = 0`; otherwise the vector is a step from `x0`, but it is used as a point. -/
theorem ls_primal (e : Env K C bx bd) (he : e.Exact) (x0 x : Fin n → K) (h : lsPrimals e x0 = some x) :
    ∃ s : Fin m → K, (∀ i, ∑ j, e.jacC x0 i j * x j = -e.c x0 i) ∧ (∀ i, ∑ j, e.jacD x0 i j * x j - s i = -e.d x0 i) ∧
      (∀ (x' : Fin n → K) (s' : Fin m → K), (∀ i, ∑ j, e.jacC x0 i j * x' j = -e.c x0 i) → (∀ i, ∑ j, e.jacD x0 i j * x' j - s' i = -e.d x0 i) →
        ∑ j, x j * x j + ∑ i, s i * s i ≤ ∑ j, x' j * x' j + ∑ i, s' i * s' i) ∧
      ((∀ i, e.c x0 i + ∑ j, e.jacC x0 i j * (x j - x0 j) = 0) ↔ ∀ i, ∑ j, e.jacC x0 i j * x0 j = 0) := by
  unfold lsPrimals at h
  rw [Option.map_eq_some_iff] at h
  obtain ⟨r, hr, rfl⟩ := h
  obtain ⟨h1, h2, h3, h4⟩ := he _ _ hr
  simp only [Option.getD_none, zero_mul, zero_add, one_mul] at h1 h2 h3 h4
  have a1 : ∀ i, ∑ j, e.jacC x0 i j * (-1 * r.x j) = -e.c x0 i := by
    intro i
    rw [← h3 i, ← Finset.sum_neg_distrib]
    exact Finset.sum_congr rfl fun j _ => by ring
  have a2 : ∀ i, ∑ j, e.jacD x0 i j * (-1 * r.x j) - (-r.s i) = -e.d x0 i := by
    intro i
    rw [← h4 i, neg_sub, sub_neg_eq_add, add_comm, sub_eq_add_neg, ← Finset.sum_neg_distrib]
    congr 1
    exact Finset.sum_congr rfl fun j _ => by ring
  refine ⟨fun i => -r.s i, a1, a2, ?_, ?_⟩
  · intro x' s' b1 b2
    -- orthogonality
    have o : ∑ j, (-1 * r.x j) * (x' j - -1 * r.x j) + ∑ i, (-r.s i) * (s' i - -r.s i) = 0 := by
      have e1 : ∀ j, -1 * r.x j = ∑ i, e.jacC x0 i j * r.c i + ∑ i, e.jacD x0 i j * r.d i := fun j => by linear_combination -1 * h1 j
      have e2 : ∀ i, r.s i = r.d i := fun i => by linear_combination h2 i
      have c1 : ∑ j, (-1 * r.x j) * (x' j - -1 * r.x j) = ∑ j, (∑ i, e.jacC x0 i j * r.c i) * (x' j - -1 * r.x j) + ∑ j, (∑ i, e.jacD x0 i j * r.d i) * (x' j - -1 * r.x j) := by
        rw [← Finset.sum_add_distrib]
        refine Finset.sum_congr rfl fun j _ => ?_
        rw [← add_mul, ← e1 j]
      rw [c1, sum_swap, sum_swap]
      have d1 : ∀ i, ∑ j, e.jacC x0 i j * (x' j - -1 * r.x j) = 0 := by
        intro i
        simp only [mul_sub, Finset.sum_sub_distrib]
        rw [b1, a1, sub_self]
      have d2 : ∀ i, ∑ j, e.jacD x0 i j * (x' j - -1 * r.x j) = s' i - -r.s i := by
        intro i
        simp only [mul_sub, Finset.sum_sub_distrib]
        linear_combination b2 i - a2 i
      simp only [d1, d2, mul_zero, Finset.sum_const_zero, zero_add]
      rw [← Finset.sum_add_distrib]
      refine Finset.sum_eq_zero fun i _ => ?_
      rw [e2]; ring
    have q1 : ∑ j, x' j * x' j = ∑ j, (-1 * r.x j) * (-1 * r.x j) + 2 * ∑ j, (-1 * r.x j) * (x' j - -1 * r.x j) + ∑ j, (x' j - -1 * r.x j) * (x' j - -1 * r.x j) := by
      rw [Finset.mul_sum, ← Finset.sum_add_distrib, ← Finset.sum_add_distrib]
      exact Finset.sum_congr rfl fun j _ => by ring
    have q2 : ∑ i, s' i * s' i = ∑ i, (-r.s i) * (-r.s i) + 2 * ∑ i, (-r.s i) * (s' i - -r.s i) + ∑ i, (s' i - -r.s i) * (s' i - -r.s i) := by
      rw [Finset.mul_sum, ← Finset.sum_add_distrib, ← Finset.sum_add_distrib]
      exact Finset.sum_congr rfl fun j _ => by ring
    have p1 : 0 ≤ ∑ j, (x' j - -1 * r.x j) * (x' j - -1 * r.x j) := Finset.sum_nonneg fun j _ => mul_self_nonneg _
    have p2 : 0 ≤ ∑ i, (s' i - -r.s i) * (s' i - -r.s i) := Finset.sum_nonneg fun j _ => mul_self_nonneg _
    rw [q1, q2]
    linarith
  · have key : ∀ i, e.c x0 i + ∑ j, e.jacC x0 i j * (-1 * r.x j - x0 j) = -∑ j, e.jacC x0 i j * x0 j := by
      intro i
      simp only [mul_sub, Finset.sum_sub_distrib]
      rw [a1]; ring
    simp only [key, neg_eq_zero]

/-! ### Bound multipliers -/

/-- The initial bound multipliers: constant, or `mu_init` divided by the slack, and with a successful `least_square_init_duals` the larger of this value and the least-square one; always positive. -/
theorem default_bound_multipliers (cfg : Cfg K) (hv : 0 < cfg.multVal) (hmu : 0 < cfg.mu) (e : Env K C bx bd) (x0 : Fin n → K)
    (sL : ∀ x i, 0 < e.slXL x i) (sU : ∀ x i, 0 < e.slXU x i) (tL : ∀ s i, 0 < e.slSL s i) (tU : ∀ s i, 0 < e.slSU s i) :
    let w := setDefault cfg e x0
    let base := boundMults cfg e w.x w.s
    (cfg.muBased = false → (∀ i, base.1 i = cfg.multVal) ∧ (∀ i, base.2.1 i = cfg.multVal) ∧ (∀ i, base.2.2.1 i = cfg.multVal) ∧ ∀ i, base.2.2.2 i = cfg.multVal) ∧
    (cfg.muBased = true → (∀ i, e.slXL w.x i * base.1 i = cfg.mu) ∧ (∀ i, e.slXU w.x i * base.2.1 i = cfg.mu) ∧ (∀ i, e.slSL w.s i * base.2.2.1 i = cfg.mu) ∧
      ∀ i, e.slSU w.s i * base.2.2.2 i = cfg.mu) ∧
    (cfg.lsDuals = false ∨ lsDuals e x0 w.x = none → w.zL = base.1 ∧ w.zU = base.2.1 ∧ w.vL = base.2.2.1 ∧ w.vU = base.2.2.2) ∧
    (∀ zL zU vL vU yc yd, cfg.lsDuals = true → lsDuals e x0 w.x = some (zL, zU, vL, vU, yc, yd) →
      (∀ i, w.zL i = max (zL i) (base.1 i)) ∧ (∀ i, w.zU i = max (zU i) (base.2.1 i)) ∧ (∀ i, w.vL i = max (vL i) (base.2.2.1 i)) ∧ (∀ i, w.vU i = max (vU i) (base.2.2.2 i)) ∧
        w.yc = yc ∧ w.yd = yd) ∧
    (∀ i, 0 < w.zL i) ∧ (∀ i, 0 < w.zU i) ∧ (∀ i, 0 < w.vL i) ∧ ∀ i, 0 < w.vU i := by
  intro w base
  have hx : w.x = pushV cfg.push cfg.frac cfg.tiny bx (if cfg.lsPrimal then (lsPrimals e x0).getD x0 else x0) := by
    show (setDefault cfg e x0).x = _; unfold setDefault; simp only []; split <;> rfl
  have hs : w.s = pushV cfg.sPush cfg.sFrac cfg.tiny bd (e.d w.x) := by
    rw [hx]; show (setDefault cfg e x0).s = _; unfold setDefault; simp only []; split <;> rfl
  have hw : w = match if cfg.lsDuals then lsDuals e x0 w.x else none with
      | some (zL, zU, vL, vU, yc, yd) => ⟨w.x, w.s, yc, yd, fun i => max (zL i) (base.1 i), fun i => max (zU i) (base.2.1 i), fun i => max (vL i) (base.2.2.1 i), fun i => max (vU i) (base.2.2.2 i)⟩
      | none => ⟨w.x, w.s, (leastSquareMults (Fin n) cfg.haveCalc cfg.multMax (e.eqMult ⟨w.x, w.s, fun _ => 0, fun _ => 0, base.1, base.2.1, base.2.2.1, base.2.2.2⟩)).1,
          (leastSquareMults (Fin n) cfg.haveCalc cfg.multMax (e.eqMult ⟨w.x, w.s, fun _ => 0, fun _ => 0, base.1, base.2.1, base.2.2.1, base.2.2.2⟩)).2, base.1, base.2.1, base.2.2.1, base.2.2.2⟩ := by
    show setDefault cfg e x0 = _
    simp only [base]
    rw [hs, hx]
    rfl
  have pos : (∀ i, 0 < base.1 i) ∧ (∀ i, 0 < base.2.1 i) ∧ (∀ i, 0 < base.2.2.1 i) ∧ ∀ i, 0 < base.2.2.2 i := by
    show (∀ i, 0 < (boundMults cfg e w.x w.s).1 i) ∧ (∀ i, 0 < (boundMults cfg e w.x w.s).2.1 i) ∧ (∀ i, 0 < (boundMults cfg e w.x w.s).2.2.1 i) ∧ ∀ i, 0 < (boundMults cfg e w.x w.s).2.2.2 i
    unfold boundMults
    split
    · exact ⟨fun i => div_pos hmu (sL _ _), fun i => div_pos hmu (sU _ _), fun i => div_pos hmu (tL _ _), fun i => div_pos hmu (tU _ _)⟩
    · exact ⟨fun _ => hv, fun _ => hv, fun _ => hv, fun _ => hv⟩
  have hnone : (if cfg.lsDuals then lsDuals e x0 w.x else none) = none → w.zL = base.1 ∧ w.zU = base.2.1 ∧ w.vL = base.2.2.1 ∧ w.vU = base.2.2.2 := by
    intro h
    rw [h] at hw
    have e1 := congr_arg It.zL hw
    have e2 := congr_arg It.zU hw
    have e3 := congr_arg It.vL hw
    have e4 := congr_arg It.vU hw
    exact ⟨e1, e2, e3, e4⟩
  have hsome : ∀ zL zU vL vU yc yd, (if cfg.lsDuals then lsDuals e x0 w.x else none) = some (zL, zU, vL, vU, yc, yd) →
      (∀ i, w.zL i = max (zL i) (base.1 i)) ∧ (∀ i, w.zU i = max (zU i) (base.2.1 i)) ∧ (∀ i, w.vL i = max (vL i) (base.2.2.1 i)) ∧ (∀ i, w.vU i = max (vU i) (base.2.2.2 i)) ∧
        w.yc = yc ∧ w.yd = yd := by
    intro zL zU vL vU yc yd h
    rw [h] at hw
    have e1 := congr_arg It.zL hw
    have e2 := congr_arg It.zU hw
    have e3 := congr_arg It.vL hw
    have e4 := congr_arg It.vU hw
    have e5 := congr_arg It.yc hw
    have e6 := congr_arg It.yd hw
    exact ⟨fun i => congr_fun e1 i, fun i => congr_fun e2 i, fun i => congr_fun e3 i, fun i => congr_fun e4 i, e5, e6⟩
  refine ⟨?_, ?_, ?_, ?_, ?_⟩
  · intro h
    show (∀ i, (boundMults cfg e w.x w.s).1 i = _) ∧ (∀ i, (boundMults cfg e w.x w.s).2.1 i = _) ∧ (∀ i, (boundMults cfg e w.x w.s).2.2.1 i = _) ∧ ∀ i, (boundMults cfg e w.x w.s).2.2.2 i = _
    unfold boundMults
    rw [h]
    exact ⟨fun _ => rfl, fun _ => rfl, fun _ => rfl, fun _ => rfl⟩
  · intro h
    show (∀ i, _ * (boundMults cfg e w.x w.s).1 i = _) ∧ (∀ i, _ * (boundMults cfg e w.x w.s).2.1 i = _) ∧ (∀ i, _ * (boundMults cfg e w.x w.s).2.2.1 i = _) ∧
      ∀ i, _ * (boundMults cfg e w.x w.s).2.2.2 i = _
    unfold boundMults
    rw [h]
    exact ⟨fun i => mul_div_cancel₀ _ (sL _ _).ne', fun i => mul_div_cancel₀ _ (sU _ _).ne', fun i => mul_div_cancel₀ _ (tL _ _).ne', fun i => mul_div_cancel₀ _ (tU _ _).ne'⟩
  · rintro (h | h)
    · exact hnone (by rw [h]; rfl)
    · exact hnone (by rw [h]; simp)
  · intro zL zU vL vU yc yd h1 h2
    exact hsome _ _ _ _ _ _ (by rw [h1, h2]; rfl)
  · rcases hq : (if cfg.lsDuals then lsDuals e x0 w.x else none) with _ | ⟨zL, zU, vL, vU, yc, yd⟩
    · obtain ⟨a, b, c, d⟩ := hnone hq
      rw [a, b, c, d]
      exact pos
    · obtain ⟨a, b, c, d, _, _⟩ := hsome _ _ _ _ _ _ hq
      refine ⟨fun i => ?_, fun i => ?_, fun i => ?_, fun i => ?_⟩
      · rw [a]; exact lt_max_of_lt_right (pos.1 i)
      · rw [b]; exact lt_max_of_lt_right (pos.2.1 i)
      · rw [c]; exact lt_max_of_lt_right (pos.2.2.1 i)
      · rw [d]; exact lt_max_of_lt_right (pos.2.2.2 i)

/-- The multipliers of the constraints without least-square duals: not larger than `constr_mult_init_max`; the answer of the multiplier calculator at the initial point (with zero constraint multipliers) if that is
within the limit and the problem is not square, zero otherwise. -/
theorem default_constraint_multipliers (cfg : Cfg K) (hl : 0 ≤ cfg.multMax) (e : Env K C bx bd) (x0 : Fin n → K) (hno : cfg.lsDuals = false ∨ lsDuals e x0 (setDefault cfg e x0).x = none) :
    let w := setDefault cfg e x0
    let w0 : It K C bx bd := { w with yc := fun _ => 0, yd := fun _ => 0 }
    (∀ i, |w.yc i| ≤ cfg.multMax) ∧ (∀ i, |w.yd i| ≤ cfg.multMax) ∧
    ((w.yc ≠ fun _ => 0) ∨ (w.yd ≠ fun _ => 0) → cfg.haveCalc = true ∧ 0 < cfg.multMax ∧ Fintype.card C ≠ n ∧ e.eqMult w0 = some (w.yc, w.yd)) ∧
    (∀ yc yd, cfg.haveCalc = true → 0 < cfg.multMax → Fintype.card C ≠ n → 0 < Fintype.card C + m → e.eqMult w0 = some (yc, yd) →
      (∀ i, |yc i| ≤ cfg.multMax) → (∀ i, |yd i| ≤ cfg.multMax) → w.yc = yc ∧ w.yd = yd) := by
  intro w w0
  have hx : w.x = pushV cfg.push cfg.frac cfg.tiny bx (if cfg.lsPrimal then (lsPrimals e x0).getD x0 else x0) := by
    show (setDefault cfg e x0).x = _; unfold setDefault; simp only []; split <;> rfl
  have hd : (if cfg.lsDuals then lsDuals e x0 w.x else none) = none := by
    rcases hno with h | h
    · rw [h]; rfl
    · show (if cfg.lsDuals then lsDuals e x0 (setDefault cfg e x0).x else none) = none
      rw [h]; simp
  rw [hx] at hd
  have key : ∃ z : (bx.L → K) × (bx.U → K) × (bd.L → K) × (bd.U → K), w = ⟨w.x, w.s, (leastSquareMults (Fin n) cfg.haveCalc cfg.multMax (e.eqMult ⟨w.x, w.s, fun _ => 0, fun _ => 0, z.1, z.2.1, z.2.2.1, z.2.2.2⟩)).1,
      (leastSquareMults (Fin n) cfg.haveCalc cfg.multMax (e.eqMult ⟨w.x, w.s, fun _ => 0, fun _ => 0, z.1, z.2.1, z.2.2.1, z.2.2.2⟩)).2, z.1, z.2.1, z.2.2.1, z.2.2.2⟩ := by
    refine ⟨boundMults cfg e w.x w.s, ?_⟩
    have e0 : w = setDefault cfg e x0 := rfl
    unfold setDefault at e0
    simp only [hd] at e0
    have es : w.s = _ := congrArg It.s e0
    simp only [] at es
    rw [es, hx]
    exact e0
  obtain ⟨z, hw⟩ := key
  have q : w0 = ⟨w.x, w.s, fun _ => 0, fun _ => 0, z.1, z.2.1, z.2.2.1, z.2.2.2⟩ := by
    show It.mk w.x w.s (fun _ => 0) (fun _ => 0) w.zL w.zU w.vL w.vU = _
    rw [hw]
  rw [← q] at hw
  have y1 : w.yc = (leastSquareMults (Fin n) cfg.haveCalc cfg.multMax (e.eqMult w0)).1 := congrArg It.yc hw
  have y2 : w.yd = (leastSquareMults (Fin n) cfg.haveCalc cfg.multMax (e.eqMult w0)).2 := congrArg It.yd hw
  classical
  obtain ⟨⟨a1, a2⟩, b, c⟩ := least_square_mults (X := Fin n) cfg.haveCalc cfg.multMax (e.eqMult w0) hl
  rw [Fintype.card_fin] at b c
  refine ⟨fun i => by rw [y1]; exact a1 i, fun i => by rw [y2]; exact a2 i, fun h => ?_, ?_⟩
  · rw [y1, y2] at *
    refine b fun h' => ?_
    rw [h'] at h
    simp at h
  · intro yc yd h1 h2 h3 h4 h5 h6 h7
    rw [Fintype.card_fin] at c
    have := c (yc, yd) h1 h2 h3 h4 h5 h6 h7
    rw [y1, y2, this]
    exact ⟨rfl, rfl⟩

theorem sum_ext (p : Fin n → Prop) [DecidablePred p] (w : Fin n → K) (v : { i // p i } → K) :
    ∑ i : { i // p i }, w i * v i = ∑ i, w i * (if h : p i then v ⟨i, h⟩ else 0) := by
  rw [← Finset.sum_filter_add_sum_filter_not Finset.univ p, Finset.sum_subtype (p := p) (Finset.univ.filter p) (by simp)]
  rw [Finset.sum_eq_zero (s := Finset.univ.filter fun i => ¬ p i), add_zero]
  · refine Finset.sum_congr rfl fun i _ => ?_
    rw [dif_pos i.2]
  · intro i hi
    rw [Finset.mem_filter] at hi
    rw [dif_neg hi.2, mul_zero]

theorem sum_extL {b : Bd n K} (w : Fin n → K) (v : b.L → K) : ∑ i : b.L, w i * v i = ∑ i, w i * extL v i := sum_ext _ w v

theorem sum_extU {b : Bd n K} (w : Fin n → K) (v : b.U → K) : ∑ i : b.U, w i * v i = ∑ i, w i * extU v i := sum_ext _ w v

theorem sq_expand {P : Type} [Fintype P] (v v' : P → K) : ∑ i, v i * v i + 2 * ∑ i, v i * (v' i - v i) ≤ ∑ i, v' i * v' i := by
  rw [Finset.mul_sum, ← Finset.sum_add_distrib]
  refine Finset.sum_le_sum fun i _ => ?_
  nlinarith [mul_self_nonneg (v' i - v i)]

/-- `least_square_init_duals`: the multipliers computed are exactly dual feasible and, among all dual feasible ones, have the smallest sum of squares of the bound multipliers.  The Jacobians used are those at the *user's* point
`x0`, the gradient the one at the initial point `x`. -/
theorem ls_duals (e : Env K C bx bd) (he : e.Exact) (x0 x : Fin n → K) (zL : bx.L → K) (zU : bx.U → K) (vL : bd.L → K) (vU : bd.U → K) (yc : C → K) (yd : Fin m → K)
    (h : lsDuals e x0 x = some (zL, zU, vL, vU, yc, yd)) :
    DualFeasible (e.gradF x) (e.jacC x0) (e.jacD x0) yc yd zL zU vL vU ∧
    ∀ (zL' : bx.L → K) (zU' : bx.U → K) (vL' : bd.L → K) (vU' : bd.U → K) (yc' : C → K) (yd' : Fin m → K),
      DualFeasible (e.gradF x) (e.jacC x0) (e.jacD x0) yc' yd' zL' zU' vL' vU' → sq zL zU vL vU ≤ sq zL' zU' vL' vU' := by
  unfold lsDuals at h
  rw [Option.map_eq_some_iff] at h
  obtain ⟨r, hr, h⟩ := h
  simp only [Prod.mk.injEq] at h
  obtain ⟨rfl, rfl, rfl, rfl, rfl, rfl⟩ := h
  obtain ⟨h1, h2, h3, h4⟩ := he _ _ hr
  simp only [Option.getD_some, zero_mul, add_zero] at h1 h2 h3 h4
  have neg : ∀ {P : Type} [Fintype P] (a b : P → K), ∑ i, a i * (-1 * b i) = -∑ i, a i * b i := by
    intro P _ a b
    rw [← Finset.sum_neg_distrib]
    exact Finset.sum_congr rfl fun i _ => by ring
  have ones : ∀ {k : Nat} (b : Bd k K) (w : Fin k → K) i, minusOnes b i * w i - extL (b := b) (fun j => -1 * w j) i + extU (b := b) (fun j => 1 * w j) i = 0 := by
    intro k b w i
    unfold minusOnes extL extU
    by_cases ha : (b.lo i).isSome = true <;> by_cases hb : (b.up i).isSome = true <;> simp [ha, hb]
    ring
  have feas : DualFeasible (bx := bx) (bd := bd) (e.gradF x) (e.jacC x0) (e.jacD x0) (fun i => -1 * r.c i) (fun i => -1 * r.d i) (fun i => -1 * r.x i) (fun i => 1 * r.x i) (fun i => -1 * r.s i)
      (fun i => 1 * r.s i) := by
    refine ⟨fun j => ?_, fun i => ?_⟩
    · rw [neg, neg]
      have := ones bx r.x j
      have q := h1 j
      linear_combination this - q
    · have := ones bd r.s i
      have q := h2 i
      linear_combination this - q
  refine ⟨feas, ?_⟩
  intro zL' zU' vL' vU' yc' yd' hf
  unfold sq
  have i1 := sq_expand (fun i : bx.L => -1 * r.x i) zL'
  have i2 := sq_expand (fun i : bx.U => 1 * r.x i) zU'
  have i3 := sq_expand (fun i : bd.L => -1 * r.s i) vL'
  have i4 := sq_expand (fun i : bd.U => 1 * r.s i) vU'
  have j1 : ∑ i : bx.L, -1 * r.x i * (zL' i - -1 * r.x i) = ∑ i, -r.x i * (extL zL' i - extL (b := bx) (fun j => -1 * r.x j) i) := by
    have := sum_extL (b := bx) (fun i => -1 * r.x i) (fun i => zL' i - -1 * r.x i)
    rw [this]
    refine Finset.sum_congr rfl fun i _ => ?_
    unfold extL
    split <;> ring
  have j2 : ∑ i : bx.U, 1 * r.x i * (zU' i - 1 * r.x i) = ∑ i, r.x i * (extU zU' i - extU (b := bx) (fun j => 1 * r.x j) i) := by
    have := sum_extU (b := bx) (fun i => 1 * r.x i) (fun i => zU' i - 1 * r.x i)
    rw [this]
    refine Finset.sum_congr rfl fun i _ => ?_
    unfold extU
    split <;> ring
  have j3 : ∑ i : bd.L, -1 * r.s i * (vL' i - -1 * r.s i) = ∑ i, -r.s i * (extL vL' i - extL (b := bd) (fun j => -1 * r.s j) i) := by
    have := sum_extL (b := bd) (fun i => -1 * r.s i) (fun i => vL' i - -1 * r.s i)
    rw [this]
    refine Finset.sum_congr rfl fun i _ => ?_
    unfold extL
    split <;> ring
  have j4 : ∑ i : bd.U, 1 * r.s i * (vU' i - 1 * r.s i) = ∑ i, r.s i * (extU vU' i - extU (b := bd) (fun j => 1 * r.s j) i) := by
    have := sum_extU (b := bd) (fun i => 1 * r.s i) (fun i => vU' i - 1 * r.s i)
    rw [this]
    refine Finset.sum_congr rfl fun i _ => ?_
    unfold extU
    split <;> ring
  -- the differences of the multipliers satisfy the homogeneous equations
  have k1 : ∑ i, -r.x i * (extL zL' i - extL (b := bx) (fun j => -1 * r.x j) i) + ∑ i, r.x i * (extU zU' i - extU (b := bx) (fun j => 1 * r.x j) i) =
      -(∑ j, (∑ i, e.jacC x0 i j * (yc' i - -1 * r.c i)) * r.x j + ∑ j, (∑ i, e.jacD x0 i j * (yd' i - -1 * r.d i)) * r.x j) := by
    rw [← Finset.sum_add_distrib, ← Finset.sum_add_distrib, ← Finset.sum_neg_distrib]
    refine Finset.sum_congr rfl fun j _ => ?_
    have a := hf.1 j
    have b := feas.1 j
    simp only [mul_sub, Finset.sum_sub_distrib]
    linear_combination r.x j * (a - b)
  have k2 : ∑ i, -r.s i * (extL vL' i - extL (b := bd) (fun j => -1 * r.s j) i) + ∑ i, r.s i * (extU vU' i - extU (b := bd) (fun j => 1 * r.s j) i) =
      ∑ i, (yd' i - -1 * r.d i) * r.s i := by
    rw [← Finset.sum_add_distrib]
    refine Finset.sum_congr rfl fun i _ => ?_
    have a := hf.2 i
    have b := feas.2 i
    linear_combination r.s i * (a - b)
  have k3 : ∑ j, (∑ i, e.jacC x0 i j * (yc' i - -1 * r.c i)) * r.x j = 0 := by
    rw [sum_swap]
    exact Finset.sum_eq_zero fun i _ => by rw [h3 i, mul_zero]
  have k4 : ∑ j, (∑ i, e.jacD x0 i j * (yd' i - -1 * r.d i)) * r.x j = ∑ i, (yd' i - -1 * r.d i) * r.s i := by
    rw [sum_swap]
    refine Finset.sum_congr rfl fun i _ => ?_
    have := h4 i
    linear_combination (yd' i - -1 * r.d i) * this
  rw [j1] at i1
  rw [j2] at i2
  rw [j3] at i3
  rw [j4] at i4
  rw [k3, k4] at k1
  linarith

/-! ### Warm start -/

/-- the value nearest to `v` in `[-b, b]` if `b > 0`, `v` otherwise (`warm_start_mult_init_max`). -/
def limited (b v : K) : K := if 0 < b then max (-b) (min b v) else v

/-- `v`, at most `b` if `b > 0`. -/
def capped (b v : K) : K := if 0 < b then min b v else v

/-- Warm start from the values of the user (without `warm_start_target_mu`): `x` is the user's point pushed into the bounds, the slacks are the constraint values at the *user's* point pushed into the bounds, the constraint multipliers the user's
limited to `warm_start_mult_init_max`, the bound multipliers the user's, limited, and at least `warm_start_mult_bound_push`; the multipliers of the bounds of the inequalities are the negative and positive parts of the
limited `y_d`, with the same lower limit. -/
theorem warm_start (cfg : WCfg K) (hmu : cfg.targetMu ≤ 0) (d : (Fin n → K) → Fin m → K) (whole : Option (It K C bx bd)) (u : User K C bx bd) (hw : cfg.entire = false ∨ whole = none) :
    ∃ w, setWarm cfg d whole u = some w ∧ w.x = pushV cfg.push cfg.frac cfg.tiny bx u.x ∧ w.s = pushV cfg.sPush cfg.sFrac cfg.tiny bd (d u.x) ∧
      (∀ i, w.yc i = limited cfg.multMax (u.yc i)) ∧ (∀ i, w.yd i = limited cfg.multMax (u.yd i)) ∧
      (∀ i, w.zL i = max cfg.multPush (capped cfg.multMax (u.zL i))) ∧ (∀ i, w.zU i = max cfg.multPush (capped cfg.multMax (u.zU i))) ∧
      (∀ i, w.vL i = max cfg.multPush (-limited cfg.multMax (u.yd i))) ∧ ∀ i, w.vU i = max cfg.multPush (limited cfg.multMax (u.yd i)) := by
  have h0 : (if cfg.entire then whole else none) = none := by rcases hw with h | h <;> simp [h]
  unfold setWarm
  rw [h0]
  simp only [if_neg (not_lt.2 hmu)]
  refine ⟨_, rfl, ?_, ?_, ?_, ?_, ?_, ?_, ?_, ?_⟩
  all_goals by_cases hb : 0 < cfg.multMax
  all_goals (try intro i)
  all_goals simp only [startIt, limited, hb, if_true, if_false, clamp, capped, one_mul, neg_one_mul]
  all_goals first
    | (rw [max_comm, min_comm]; done)
    | (rw [max_assoc, max_self, max_comm, max_comm (-cfg.multMax), min_comm cfg.multMax]; done)
    | (rw [max_assoc, max_self, max_comm]; done)
    | (rw [max_comm]; done)

/-- Warm start from a whole iterate. -/
theorem warm_start_whole (cfg : WCfg K) (hmu : cfg.targetMu ≤ 0) (d : (Fin n → K) → Fin m → K) (v : It K C bx bd) (u : User K C bx bd) (hw : cfg.entire = true) :
    ∃ w, setWarm cfg d (some v) u = some w ∧ w.x = pushV cfg.push cfg.frac cfg.tiny bx v.x ∧ w.s = pushV cfg.sPush cfg.sFrac cfg.tiny bd v.s ∧
      (∀ i, w.yc i = limited cfg.multMax (v.yc i)) ∧ (∀ i, w.yd i = limited cfg.multMax (v.yd i)) ∧
      (∀ i, w.zL i = max cfg.multPush (capped cfg.multMax (v.zL i))) ∧ (∀ i, w.zU i = max cfg.multPush (capped cfg.multMax (v.zU i))) ∧
      (∀ i, w.vL i = max cfg.multPush (capped cfg.multMax (v.vL i))) ∧ ∀ i, w.vU i = max cfg.multPush (capped cfg.multMax (v.vU i)) := by
  unfold setWarm
  simp only [hw, if_true, if_neg (not_lt.2 hmu)]
  refine ⟨_, rfl, ?_, ?_, ?_, ?_, ?_, ?_, ?_, ?_⟩
  all_goals by_cases hb : 0 < cfg.multMax
  all_goals (try intro i)
  all_goals simp only [entireIt, limited, hb, if_true, if_false, clamp, capped]
  all_goals first
    | (rw [max_comm, min_comm]; done)
    | (rw [max_comm]; done)

/-- The point of a warm start is strictly inside the bounds and has positive bound multipliers. -/
theorem warm_start_interior (cfg : WCfg K) (hp : 0 < cfg.push) (hf : 0 < cfg.frac) (hf2 : cfg.frac ≤ 1 / 2) (hp' : 0 < cfg.sPush) (hf' : 0 < cfg.sFrac) (hf2' : cfg.sFrac ≤ 1 / 2)
    (ht : 0 < cfg.tiny) (hx : bx.Ok cfg.frac cfg.tiny) (hd : bd.Ok cfg.sFrac cfg.tiny) (hz : 0 < cfg.multPush) (d : (Fin n → K) → Fin m → K) (whole : Option (It K C bx bd)) (u : User K C bx bd)
    (w : It K C bx bd) (h : setWarm cfg d whole u = some w) :
    bx.Inside w.x ∧ bd.Inside w.s ∧ (∀ i, cfg.multPush ≤ w.zL i) ∧ (∀ i, cfg.multPush ≤ w.zU i) ∧ (∀ i, cfg.multPush ≤ w.vL i) ∧ ∀ i, cfg.multPush ≤ w.vU i := by
  unfold setWarm at h
  simp only [] at h
  split at h
  · cases h
  · obtain rfl := Option.some.inj h
    exact ⟨pushV_inside hp hf hf2 ht _ hx _, pushV_inside hp' hf' hf2' ht _ hd _, fun i => le_max_right _ _, fun i => le_max_right _ _, fun i => le_max_right _ _, fun i => le_max_right _ _⟩

/-- With a positive `warm_start_target_mu` the program has no defined result, whatever the problem. -/
theorem warm_start_target_mu_undefined (cfg : WCfg K) (h : 0 < cfg.targetMu) (d : (Fin n → K) → Fin m → K) (whole : Option (It K C bx bd)) (u : User K C bx bd) :
    setWarm cfg d whole u = none := by
  unfold setWarm
  simp only [if_pos h]

/-- The margins of a warm start: the value set by the user, else the value of `bound_push` (`bound_frac`), set by the user or its default; the documented default of the warm start option is never used, and
`slack_bound_push` (`slack_bound_frac`) is not consulted. -/
theorem warm_start_margins (warm other : Opt K) :
    readBound warm other = (warm.user.getD (other.user.getD other.dflt)) ∧ readSlackBound warm other = (warm.user.getD (other.user.getD other.dflt)) := by
  unfold readBound readSlackBound Opt.get
  rcases warm.user with _ | a <;> rcases other.user with _ | b <;> simp

/-- Instance: nothing set by the user; documented default of `warm_start_bound_push` is 0.001, used is the default 0.01 of `bound_push`. -/
example : readBound (⟨none, 1 / 1000⟩ : Opt ℚ) ⟨none, 1 / 100⟩ = 1 / 100 := by decide +kernel

/-! ### Instances -/

namespace Example

/-- one variable, `0 ≤ x`. -/
def b1 : Bd 1 ℚ := ⟨fun _ => some 0, fun _ => none⟩

/-- no inequalities. -/
def b0 : Bd 0 ℚ := ⟨fun _ => none, fun _ => none⟩

/-- a direct solver for one variable and one equality. -/
def solve (a : Aug ℚ Unit 1 0) : Option (AugSol ℚ Unit 1 0) :=
  if a.Jc () 0 = 0 then none
  else some ⟨fun _ => a.rc () / a.Jc () 0, fun _ => 0, fun _ => (a.rx 0 - ((a.Dx.getD fun _ => 0) 0 + a.deltaX) * (a.rc () / a.Jc () 0)) / a.Jc () 0, fun _ => 0⟩

/-- minimize `3 x` subject to `x - 1 = 0`, `0 ≤ x`. -/
def e1 : Env ℚ Unit b1 b0 where
  c x _ := x 0 - 1
  d _ _ := 0
  jacC _ := fun _ _ => 1
  jacD _ := fun _ _ => 0
  gradF _ _ := 3
  slXL x i := max (x i) 1
  slXU x i := 1
  slSL s i := 1
  slSU s i := 1
  aug := solve
  eqMult _ := some (fun _ => -3, fun _ => 0)

/-- The hypothesis of `ls_primal` and `ls_duals` is met. -/
theorem e1_exact : e1.Exact := by
  intro a r h
  change solve a = some r at h
  unfold solve at h
  split at h
  · cases h
  · rename_i hJ
    obtain rfl := Option.some.inj h
    refine ⟨fun j => ?_, fun i => i.elim0, fun i => ?_, fun i => i.elim0⟩
    · obtain rfl : j = 0 := Subsingleton.elim _ _
      simp only [Finset.univ_unique, Finset.sum_singleton, Finset.univ_eq_empty, Finset.sum_empty]
      change _ + a.Jc () 0 * _ + 0 = _
      field_simp
      ring
    · simp only [Finset.univ_unique, Finset.sum_singleton]
      change a.Jc () 0 * (a.rc () / a.Jc () 0) = a.rc ()
      field_simp

/-- Started at 2, the point of `least_square_init_primal` is -1, where the linearized (here: linear) constraint `x - 1 = 0` is violated by -2; started at 0 it is the solution 1. -/
theorem ls_primal_not_linearization : lsPrimals e1 (fun _ => 2) = some (fun _ => -1) ∧ e1.c (fun _ => -1) () = -2 ∧ lsPrimals e1 (fun _ => 0) = some (fun _ => 1) := by
  have s : ∀ t : ℚ, lsPrimals e1 (fun _ => t) = some fun _ => 1 - t := by
    intro t
    unfold lsPrimals e1 solve
    norm_num
  refine ⟨?_, ?_, ?_⟩
  · rw [s]; norm_num
  · unfold e1; norm_num
  · rw [s]; norm_num

/-- Least-square duals of this problem: `y_c = -3`, `z_L = 0`. -/
example : ∃ zU vL vU yd, lsDuals e1 (fun _ => 2) (fun _ => 2) = some (fun _ => 0, zU, vL, vU, fun _ => -3, yd) := by
  refine ⟨fun _ => 0, fun _ => 0, fun _ => 0, fun _ => 0, ?_⟩
  unfold lsDuals e1 solve
  norm_num

/-- options. -/
def cfg1 : Cfg ℚ := ⟨1 / 100, 1 / 100, 1 / 100, 1 / 100, 1 / 10 ^ 16, false, 1, 1 / 10, false, true, true, 1000⟩

/-- The hypotheses of `default_inside` and `default_bound_multipliers` are met. -/
example : b1.Inside (setDefault cfg1 e1 fun _ => -5).x ∧ ∀ i, 0 < (setDefault cfg1 e1 fun _ => -5).zL i := by
  refine ⟨(default_inside cfg1 (by norm_num [cfg1]) (by norm_num [cfg1]) (by norm_num [cfg1]) (by norm_num [cfg1]) (by norm_num [cfg1]) (by norm_num [cfg1]) (by norm_num [cfg1]) ?_ ?_ e1 _).1, ?_⟩
  · intro i l u _ h; cases h
  · intro i l u _ h; cases h
  · exact (default_bound_multipliers cfg1 (by norm_num [cfg1]) (by norm_num [cfg1]) e1 _ (fun x i => lt_of_lt_of_le one_pos (le_max_right _ _)) (fun _ _ => one_pos) (fun _ _ => one_pos)
      (fun _ _ => one_pos)).2.2.2.2.1

/-- the options of a warm start. -/
def wcfg1 : WCfg ℚ := ⟨1 / 1000, 1 / 1000, 1 / 1000, 1 / 1000, 1 / 10 ^ 16, 1 / 1000, 1000000, 0, false⟩

/-- A warm start with `x = 0` on its bound, `z_L = 5` and `y_c = 2000000`. -/
example : ∃ w, setWarm (C := Unit) (bx := b1) (bd := b0) wcfg1 (fun _ _ => 0) none ⟨fun _ => 0, fun _ => 2000000, fun _ => 0, fun _ => 5, fun _ => 0⟩ = some w ∧ w.yc () = 1000000 ∧ (∀ i, w.zL i = 5) ∧
    b1.Inside w.x := by
  obtain ⟨w, h, -, -, h3, -, h5, -⟩ := warm_start (C := Unit) (bx := b1) (bd := b0) wcfg1 (by norm_num [wcfg1]) (fun _ _ => 0) none ⟨fun _ => 0, fun _ => 2000000, fun _ => 0, fun _ => 5, fun _ => 0⟩ (Or.inr rfl)
  refine ⟨w, h, ?_, fun i => ?_, ?_⟩
  · rw [h3]; norm_num [limited, wcfg1]
  · rw [h5]; norm_num [capped, wcfg1]
  · refine (warm_start_interior wcfg1 (by norm_num [wcfg1]) (by norm_num [wcfg1]) (by norm_num [wcfg1]) (by norm_num [wcfg1]) (by norm_num [wcfg1]) (by norm_num [wcfg1]) (by norm_num [wcfg1]) ?_ ?_
      (by norm_num [wcfg1]) _ _ _ w h).1
    · intro i l u _ h; cases h
    · intro i l u _ h; cases h

end Example

end Verif.InitMult
