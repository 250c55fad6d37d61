import Verif.Model.SearchDir
import Mathlib.Tactic.Ring
import Mathlib.Tactic.LinearCombination
import Mathlib.Tactic.FieldSimp
import Mathlib.Tactic.Linarith
import Mathlib.Tactic.NormNum

/-! # C73: search direction and least-square multipliers -/

namespace Verif.SearchDir
open Verif.SOC
open scoped BigOperators
set_option linter.unusedSectionVars false
set_option linter.unusedSimpArgs false
set_option linter.unusedVariables false

variable {K : Type} [Field K] [LinearOrder K] [IsStrictOrderedRing K] {X C D L U A B : Type}
variable [Fintype X] [Fintype C] [Fintype D] [Fintype L] [Fintype U] [Fintype A] [Fintype B] [DecidableEq X] [DecidableEq D]

/-! ### Specification -/

/-- regularization of the linear system (C16). -/
structure Regu (K : Type) where
  x : K
  s : K
  c : K
  d : K

/-- damping of components with exactly one bound: `κ μ` for a lower, `-κ μ` for an upper bound. -/
def damping {I I' J : Type} [Fintype I] [Fintype I'] [DecidableEq J] (pL : I → J) (pU : I' → J) (κ μ : K) (j : J) : K :=
  κ * μ * ((if ∃ i, pL i = j then 1 else 0) - (if ∃ i, pU i = j then 1 else 0))

/-- The optimality conditions of the barrier problem, linearized at the current iterate in the direction `Δ`, with Hessian `W` and regularization `δ`; the complementarity conditions may contain additional terms `e`. -/
structure Newton (W : X → X → K) (δ : Regu K) (v : Cur K X C D L U A B) (eL : L → K) (eU : U → K) (fL : A → K) (fU : B → K) (Δ : Iter K X C D L U A B) : Prop where
  x : ∀ j, v.gradF j + ∑ i, v.Jc i j * (v.it.yc i + Δ.yc i) + ∑ i, v.Jd i j * (v.it.yd i + Δ.yd i) - (∑ i, if v.pL i = j then v.it.zL i + Δ.zL i else 0)
        + (∑ i, if v.pU i = j then v.it.zU i + Δ.zU i else 0) + damping v.pL v.pU v.kappaD v.mu j + ∑ k, W j k * Δ.x k + δ.x * Δ.x j = 0
  s : ∀ i, -(v.it.yd i + Δ.yd i) - (∑ k, if v.qL k = i then v.it.vL k + Δ.vL k else 0) + (∑ k, if v.qU k = i then v.it.vU k + Δ.vU k else 0)
        + damping v.qL v.qU v.kappaD v.mu i + δ.s * Δ.s i = 0
  c : ∀ i, v.c i + ∑ j, v.Jc i j * Δ.x j - δ.c * Δ.yc i = 0
  d : ∀ i, v.d i + ∑ j, v.Jd i j * Δ.x j - (v.it.s i + Δ.s i) - δ.d * Δ.yd i = 0
  zL : ∀ i, v.slXL i * v.it.zL i + v.slXL i * Δ.zL i + v.it.zL i * Δ.x (v.pL i) + eL i = v.mu
  zU : ∀ i, v.slXU i * v.it.zU i + v.slXU i * Δ.zU i - v.it.zU i * Δ.x (v.pU i) + eU i = v.mu
  vL : ∀ i, v.slSL i * v.it.vL i + v.slSL i * Δ.vL i + v.it.vL i * Δ.s (v.qL i) + fL i = v.mu
  vU : ∀ i, v.slSU i * v.it.vU i + v.slSU i * Δ.vU i - v.it.vU i * Δ.s (v.qU i) + fU i = v.mu

/-- the primal-dual system (the left-hand side of C36). -/
def lhs (W : X → X → K) (δ : Regu K) (v : Cur K X C D L U A B) (Δ : Iter K X C D L U A B) : Iter K X C D L U A B where
  x j := ∑ k, W j k * Δ.x k + δ.x * Δ.x j + ∑ i, v.Jc i j * Δ.yc i + ∑ i, v.Jd i j * Δ.yd i - (∑ i, if v.pL i = j then Δ.zL i else 0) + ∑ i, if v.pU i = j then Δ.zU i else 0
  s i := δ.s * Δ.s i - Δ.yd i - (∑ k, if v.qL k = i then Δ.vL k else 0) + ∑ k, if v.qU k = i then Δ.vU k else 0
  yc i := ∑ j, v.Jc i j * Δ.x j - δ.c * Δ.yc i
  yd i := ∑ j, v.Jd i j * Δ.x j - Δ.s i - δ.d * Δ.yd i
  zL i := v.slXL i * Δ.zL i + v.it.zL i * Δ.x (v.pL i)
  zU i := v.slXU i * Δ.zU i - v.it.zU i * Δ.x (v.pU i)
  vL i := v.slSL i * Δ.vL i + v.it.vL i * Δ.s (v.qL i)
  vU i := v.slSU i * Δ.vU i - v.it.vU i * Δ.s (v.qU i)

/-- a component has at most one lower and one upper bound. -/
structure Cur.Ok (v : Cur K X C D L U A B) : Prop where
  pL : Function.Injective v.pL
  pU : Function.Injective v.pU
  qL : Function.Injective v.qL
  qU : Function.Injective v.qU

/-! ### Damping -/

theorem expand_one {I J : Type} [Fintype I] [DecidableEq J] (p : I → J) (hp : Function.Injective p) (f : J → K) (j : J) :
    expand p (fun i => f (p i)) j = if ∃ i, p i = j then f j else 0 := by
  unfold expand
  by_cases h : ∃ i, p i = j
  · obtain ⟨i, hi⟩ := h
    rw [if_pos ⟨i, hi⟩]
    classical
    rw [Finset.sum_eq_single i]
    · rw [if_pos hi]; show f (p i) = f j; rw [hi]
    · intro k _ hk
      rw [if_neg]
      intro hk'
      exact hk (hp (hk'.trans hi.symm))
    · intro hn; exact absurd (Finset.mem_univ i) hn
  · rw [if_neg h]
    exact Finset.sum_eq_zero fun i _ => if_neg fun hi => h ⟨i, hi⟩

theorem damping_eq {I I' J : Type} [Fintype I] [Fintype I'] [DecidableEq J] (pL : I → J) (pU : I' → J) (hL : Function.Injective pL) (hU : Function.Injective pU) (κ μ : K) (j : J) :
    κ * μ * expand pL (dampL pL pU) j + -κ * μ * expand pU (dampU pL pU) j = damping pL pU κ μ j := by
  have h1 : ∀ j, expand pL (fun _ => (1 : K)) j = if ∃ i, pL i = j then 1 else 0 := fun j => expand_one pL hL (fun _ => 1) j
  have h2 : ∀ j, expand pU (fun _ => (1 : K)) j = if ∃ i, pU i = j then 1 else 0 := fun j => expand_one pU hU (fun _ => 1) j
  have e1 : expand pL (dampL pL pU) j = if ∃ i, pL i = j then expand pL (fun _ => (1 : K)) j + -1 * expand pU (fun _ => 1) j else 0 :=
    expand_one pL hL (fun j => expand pL (fun _ => (1 : K)) j + -1 * expand pU (fun _ => 1) j) j
  have e2 : expand pU (dampU pL pU) j = if ∃ i, pU i = j then -1 * (expand pL (fun _ => (1 : K)) j + -1 * expand pU (fun _ => 1) j) else 0 :=
    expand_one pU hU (fun j => -1 * (expand pL (fun _ => (1 : K)) j + -1 * expand pU (fun _ => 1) j)) j
  rw [e1, e2, h1, h2]
  unfold damping
  by_cases a : ∃ i, pL i = j <;> by_cases b : ∃ i, pU i = j <;> simp [a, b]

theorem gradLagDampX_eq (v : Cur K X C D L U A B) (ok : v.Ok) (j : X) :
    gradLagDampX v j = v.gradF j + ∑ i, v.Jc i j * v.it.yc i + ∑ i, v.Jd i j * v.it.yd i - (∑ i, if v.pL i = j then v.it.zL i else 0) + (∑ i, if v.pU i = j then v.it.zU i else 0)
      + damping v.pL v.pU v.kappaD v.mu j := by
  have := damping_eq v.pL v.pU ok.pL ok.pU v.kappaD v.mu j
  unfold gradLagDampX
  split
  · rename_i h
    have : damping v.pL v.pU v.kappaD v.mu j = 0 := by unfold damping; rw [h]; ring
    rw [this]
    unfold gradLagX tmul expand
    ring
  · unfold gradLagX tmul
    simp only [expand] at *
    linear_combination this

theorem gradLagDampS_eq (v : Cur K X C D L U A B) (ok : v.Ok) (i : D) :
    gradLagDampS v i = -v.it.yd i - (∑ k, if v.qL k = i then v.it.vL k else 0) + (∑ k, if v.qU k = i then v.it.vU k else 0) + damping v.qL v.qU v.kappaD v.mu i := by
  have := damping_eq v.qL v.qU ok.qL ok.qU v.kappaD v.mu i
  unfold gradLagDampS
  split
  · rename_i h
    have : damping v.qL v.qU v.kappaD v.mu i = 0 := by unfold damping; rw [h]; ring
    rw [this]
    unfold gradLagS expand
    ring
  · unfold gradLagS
    simp only [expand] at *
    linear_combination this

/-! ### The direction -/

theorem sum_if_add {I J : Type} [Fintype I] [DecidableEq J] (p : I → J) (a b : I → K) (j : J) :
    (∑ i, if p i = j then a i + b i else 0) = (∑ i, if p i = j then a i else 0) + ∑ i, if p i = j then b i else 0 := by
  rw [← Finset.sum_add_distrib]
  exact Finset.sum_congr rfl fun i _ => by split <;> simp

/-- The terms that `mehrotra_algorithm` adds to the complementarity conditions. -/
def second (cfg : Cfg) (st : St K X C D L U A B) (v : Cur K X C D L U A B) : (L → K) × (U → K) × (A → K) × (B → K) :=
  if cfg.mehrotra = true then
    (fun i => st.deltaAff.x (v.pL i) * st.deltaAff.zL i, fun i => -st.deltaAff.x (v.pU i) * st.deltaAff.zU i, fun i => st.deltaAff.s (v.qL i) * st.deltaAff.vL i,
     fun i => -st.deltaAff.s (v.qU i) * st.deltaAff.vU i)
  else (fun _ => 0, fun _ => 0, fun _ => 0, fun _ => 0)

/-- The direction computed is a solution of the linearized optimality conditions of the barrier problem (with the second order term of the affine step if `mehrotra_algorithm` is set), for the current value
of the barrier parameter, whether or not a direction of the barrier parameter oracle was given as a start; with `fast_step_computation` that direction is used as it is.  If the solver fails nothing is changed and
the failure is reported. -/
theorem search_direction (cfg : Cfg) (W : X → X → K) (δ : Regu K) (v : Cur K X C D L U A B) (ok : v.Ok)
    (solve : K → K → Iter K X C D L U A B → Iter K X C D L U A B → Bool → Bool → Option (Iter K X C D L U A B))
    (hs : ∀ r start a b Δ, solve (-1) 0 r start a b = some Δ → lhs W δ v Δ = scaled (-1) r) (fresh : Iter K X C D L U A B) (st : St K X C D L U A B) :
    let r := computeDir cfg v solve fresh st
    (st.haveDeltas = true ∧ cfg.fast = true → r = (true, st)) ∧
    (¬(st.haveDeltas = true ∧ cfg.fast = true) → r.1 = true →
      Newton W δ v (second cfg st v).1 (second cfg st v).2.1 (second cfg st v).2.2.1 (second cfg st v).2.2.2 r.2.delta ∧ r.2.haveDeltas = st.haveDeltas ∧ r.2.deltaAff = st.deltaAff) ∧
    (r.1 = false → r.2 = st ∧ solve (-1) 0 (rhs cfg v st) (if st.haveDeltas then scaled (-1) st.delta else fresh) cfg.fast st.haveDeltas = none) := by
  intro r
  refine ⟨?_, ?_, ?_⟩
  · rintro ⟨h1, h2⟩
    show computeDir cfg v solve fresh st = _
    unfold computeDir
    rw [h1, h2]; rfl
  · intro hn h1
    have hc : (st.haveDeltas && cfg.fast) = false := by
      rcases h : (st.haveDeltas && cfg.fast) with _ | _
      · rfl
      · rw [Bool.and_eq_true] at h; exact absurd h hn
    have hr : r = computeDir cfg v solve fresh st := rfl
    unfold computeDir at hr
    rw [hc] at hr
    simp only [Bool.false_eq_true, if_false] at hr
    split at hr
    · rename_i d hd
      rw [hr]
      refine ⟨?_, rfl, rfl⟩
      simp only []
      have e := hs _ _ _ _ _ hd
      have ex := fun j => congrFun (congrArg Iter.x e) j
      have es := fun j => congrFun (congrArg Iter.s e) j
      have ec := fun j => congrFun (congrArg Iter.yc e) j
      have ed := fun j => congrFun (congrArg Iter.yd e) j
      have e1 := fun j => congrFun (congrArg Iter.zL e) j
      have e2 := fun j => congrFun (congrArg Iter.zU e) j
      have e3 := fun j => congrFun (congrArg Iter.vL e) j
      have e4 := fun j => congrFun (congrArg Iter.vU e) j
      simp only [lhs, scaled, rhs] at ex es ec ed e1 e2 e3 e4
      constructor
      · intro j
        have := ex j
        rw [gradLagDampX_eq v ok] at this
        rw [sum_if_add, sum_if_add]
        simp only [mul_add, Finset.sum_add_distrib]
        linear_combination this
      · intro i
        have := es i
        rw [gradLagDampS_eq v ok] at this
        rw [sum_if_add, sum_if_add]
        linear_combination this
      · intro i
        linear_combination ec i
      · intro i
        linear_combination ed i
      · intro i
        have := e1 i
        have hp : 0 < Fintype.card L + Fintype.card U + Fintype.card A + Fintype.card B := by
          have := Fintype.card_pos_iff.2 ⟨i⟩; omega
        simp only [hp, decide_true, Bool.true_and] at this
        unfold second
        by_cases hm : cfg.mehrotra = true <;> simp only [hm, if_false, if_true, Bool.false_eq_true] at this ⊢ <;> linear_combination this
      · intro i
        have := e2 i
        have hp : 0 < Fintype.card L + Fintype.card U + Fintype.card A + Fintype.card B := by
          have := Fintype.card_pos_iff.2 ⟨i⟩; omega
        simp only [hp, decide_true, Bool.true_and] at this
        unfold second
        by_cases hm : cfg.mehrotra = true <;> simp only [hm, if_false, if_true, Bool.false_eq_true] at this ⊢ <;> linear_combination this
      · intro i
        have := e3 i
        have hp : 0 < Fintype.card L + Fintype.card U + Fintype.card A + Fintype.card B := by
          have := Fintype.card_pos_iff.2 ⟨i⟩; omega
        simp only [hp, decide_true, Bool.true_and] at this
        unfold second
        by_cases hm : cfg.mehrotra = true <;> simp only [hm, if_false, if_true, Bool.false_eq_true] at this ⊢ <;> linear_combination this
      · intro i
        have := e4 i
        have hp : 0 < Fintype.card L + Fintype.card U + Fintype.card A + Fintype.card B := by
          have := Fintype.card_pos_iff.2 ⟨i⟩; omega
        simp only [hp, decide_true, Bool.true_and] at this
        unfold second
        by_cases hm : cfg.mehrotra = true <;> simp only [hm, if_false, if_true, Bool.false_eq_true] at this ⊢ <;> linear_combination this
    · rw [hr] at h1; cases h1
  · intro h0
    have hr : r = computeDir cfg v solve fresh st := rfl
    unfold computeDir at hr
    split at hr
    · rw [hr] at h0; cases h0
    · split at hr
      · rw [hr] at h0; cases h0
      · rename_i hn
        rw [hr]; exact ⟨rfl, hn⟩

/-! ### Descent -/

/-- the diagonal `Σ`: multiplier over slack. -/
def sigma {I J : Type} [Fintype I] [DecidableEq J] (p : I → J) (z s : I → K) (j : J) : K := ∑ i, if p i = j then z i / s i else 0

/-- the quadratic form of the regularized Hessian of the barrier problem. -/
def quad (W : X → X → K) (δ : Regu K) (v : Cur K X C D L U A B) (dx : X → K) (ds : D → K) : K :=
  ∑ j, dx j * (∑ k, W j k * dx k + (δ.x + sigma v.pL v.it.zL v.slXL j + sigma v.pU v.it.zU v.slXU j) * dx j)
  + ∑ i, ds i * ((δ.s + sigma v.qL v.it.vL v.slSL i + sigma v.qU v.it.vU v.slSU i) * ds i)

theorem gradBarrX_eq (v : Cur K X C D L U A B) (ok : v.Ok) (hk : 0 ≤ v.kappaD) (j : X) :
    gradBarrX v j = v.gradF j - (∑ i, if v.pL i = j then v.mu / v.slXL i else 0) + (∑ i, if v.pU i = j then v.mu / v.slXU i else 0) + damping v.pL v.pU v.kappaD v.mu j := by
  have h := damping_eq v.pL v.pU ok.pL ok.pU v.kappaD v.mu j
  have m : ∀ {I : Type} [Fintype I] (p : I → X) (s : I → K), (∑ i, if p i = j then v.mu / s i else 0) = v.mu * expand p (fun i => 1 / s i) j := by
    intro I _ p s
    unfold expand
    rw [Finset.mul_sum]
    exact Finset.sum_congr rfl fun i _ => by split <;> ring
  rw [m, m]
  unfold gradBarrX
  simp only []
  split
  · linear_combination h
  · rename_i hn
    have h0 : v.kappaD = 0 := le_antisymm (not_lt.1 hn) hk
    unfold damping
    rw [h0]; ring

theorem gradBarrS_eq (v : Cur K X C D L U A B) (ok : v.Ok) (hk : 0 ≤ v.kappaD) (j : D) :
    gradBarrS v j = -(∑ i, if v.qL i = j then v.mu / v.slSL i else 0) + (∑ i, if v.qU i = j then v.mu / v.slSU i else 0) + damping v.qL v.qU v.kappaD v.mu j := by
  have h := damping_eq v.qL v.qU ok.qL ok.qU v.kappaD v.mu j
  have m : ∀ {I : Type} [Fintype I] (p : I → D) (s : I → K), (∑ i, if p i = j then v.mu / s i else 0) = v.mu * expand p (fun i => 1 / s i) j := by
    intro I _ p s
    unfold expand
    rw [Finset.mul_sum]
    exact Finset.sum_congr rfl fun i _ => by split <;> ring
  have m2 : expand v.qL (fun i => -v.mu / v.slSL i) j = -(∑ i, if v.qL i = j then v.mu / v.slSL i else 0) := by
    unfold expand
    rw [← Finset.sum_neg_distrib]
    exact Finset.sum_congr rfl fun i _ => by split <;> ring
  unfold gradBarrS
  simp only []
  rw [m2, m v.qU]
  split
  · linear_combination h
  · rename_i hn
    have h0 : v.kappaD = 0 := le_antisymm (not_lt.1 hn) hk
    unfold damping
    rw [h0]; ring

/-- `z + Δz = μ / s - (z / s) Δ`, summed. -/
theorem elimL {I J : Type} [Fintype I] [DecidableEq J] (p : I → J) (z dz s : I → K) (dx : J → K) (mu σ : K) (hs : ∀ i, s i ≠ 0)
    (h : ∀ i, s i * z i + s i * dz i + σ * (z i * dx (p i)) = mu) (j : J) :
    (∑ i, if p i = j then z i + dz i else 0) = (∑ i, if p i = j then mu / s i else 0) - σ * (sigma p z s j * dx j) := by
  unfold sigma
  rw [Finset.sum_mul, Finset.mul_sum, ← Finset.sum_sub_distrib]
  refine Finset.sum_congr rfl fun i _ => ?_
  split
  · rename_i hp
    subst hp
    have := h i
    have hsi := hs i
    field_simp
    linear_combination this
  · ring

/-- The slope of the barrier function along a Newton direction: minus the curvature of the regularized Hessian, plus the products of the new constraint multipliers with the constraint values (and the regularization
of the constraints). -/
theorem barrier_slope (W : X → X → K) (δ : Regu K) (v : Cur K X C D L U A B) (ok : v.Ok) (hk : 0 ≤ v.kappaD)
    (h1 : ∀ i, v.slXL i ≠ 0) (h2 : ∀ i, v.slXU i ≠ 0) (h3 : ∀ i, v.slSL i ≠ 0) (h4 : ∀ i, v.slSU i ≠ 0) (Δ : Iter K X C D L U A B)
    (hN : Newton W δ v (fun _ => 0) (fun _ => 0) (fun _ => 0) (fun _ => 0) Δ) :
    gradBarrTDelta v Δ = -quad W δ v Δ.x Δ.s + ∑ i, (v.it.yc i + Δ.yc i) * (v.c i - δ.c * Δ.yc i) + ∑ i, (v.it.yd i + Δ.yd i) * (v.d i - v.it.s i - δ.d * Δ.yd i) := by
  have eL := elimL v.pL v.it.zL Δ.zL v.slXL Δ.x v.mu 1 h1 (fun i => by linear_combination hN.zL i)
  have eU := elimL v.pU v.it.zU Δ.zU v.slXU Δ.x v.mu (-1) h2 (fun i => by linear_combination hN.zU i)
  have fL := elimL v.qL v.it.vL Δ.vL v.slSL Δ.s v.mu 1 h3 (fun i => by linear_combination hN.vL i)
  have fU := elimL v.qU v.it.vU Δ.vU v.slSU Δ.s v.mu (-1) h4 (fun i => by linear_combination hN.vU i)
  have ax : ∀ j, gradBarrX v j * Δ.x j = -(Δ.x j * (∑ k, W j k * Δ.x k + (δ.x + sigma v.pL v.it.zL v.slXL j + sigma v.pU v.it.zU v.slXU j) * Δ.x j))
      - (∑ i, v.Jc i j * (v.it.yc i + Δ.yc i)) * Δ.x j - (∑ i, v.Jd i j * (v.it.yd i + Δ.yd i)) * Δ.x j := by
    intro j
    have a := hN.x j
    rw [eL j, eU j] at a
    rw [gradBarrX_eq v ok hk]
    linear_combination Δ.x j * a
  have as : ∀ j, gradBarrS v j * Δ.s j = -(Δ.s j * ((δ.s + sigma v.qL v.it.vL v.slSL j + sigma v.qU v.it.vU v.slSU j) * Δ.s j)) + (v.it.yd j + Δ.yd j) * Δ.s j := by
    intro j
    have a := hN.s j
    rw [fL j, fU j] at a
    rw [gradBarrS_eq v ok hk]
    linear_combination Δ.s j * a
  have swap : ∀ {R : Type} [Fintype R] (J : R → X → K) (y : R → K), ∑ j, (∑ i, J i j * y i) * Δ.x j = ∑ i, y i * ∑ j, J i j * Δ.x j := by
    intro R _ J y
    simp only [Finset.sum_mul, Finset.mul_sum]
    rw [Finset.sum_comm]
    exact Finset.sum_congr rfl fun i _ => Finset.sum_congr rfl fun j _ => by ring
  have bc : ∑ i, (v.it.yc i + Δ.yc i) * ∑ j, v.Jc i j * Δ.x j = -∑ i, (v.it.yc i + Δ.yc i) * (v.c i - δ.c * Δ.yc i) := by
    rw [← Finset.sum_neg_distrib]
    exact Finset.sum_congr rfl fun i _ => by linear_combination (v.it.yc i + Δ.yc i) * hN.c i
  have bd : ∑ i, (v.it.yd i + Δ.yd i) * ∑ j, v.Jd i j * Δ.x j = ∑ i, (v.it.yd i + Δ.yd i) * Δ.s i - ∑ i, (v.it.yd i + Δ.yd i) * (v.d i - v.it.s i - δ.d * Δ.yd i) := by
    rw [← Finset.sum_sub_distrib]
    exact Finset.sum_congr rfl fun i _ => by linear_combination (v.it.yd i + Δ.yd i) * hN.d i
  unfold gradBarrTDelta quad
  rw [Finset.sum_congr rfl fun j _ => ax j, Finset.sum_congr rfl fun j _ => as j]
  simp only [Finset.sum_sub_distrib, Finset.sum_add_distrib, Finset.sum_neg_distrib]
  rw [swap, swap, bc, bd]
  ring

/-- At a feasible point, with a Hessian that is positive definite on the null space of the constraints (what the inertia correction of C16 is for) and no regularization of the constraints, the direction is a
descent direction of the barrier function, unless it is zero. -/
theorem descent (W : X → X → K) (δ : Regu K) (v : Cur K X C D L U A B) (ok : v.Ok) (hk : 0 ≤ v.kappaD)
    (h1 : ∀ i, v.slXL i ≠ 0) (h2 : ∀ i, v.slXU i ≠ 0) (h3 : ∀ i, v.slSL i ≠ 0) (h4 : ∀ i, v.slSU i ≠ 0) (Δ : Iter K X C D L U A B)
    (hN : Newton W δ v (fun _ => 0) (fun _ => 0) (fun _ => 0) (fun _ => 0) Δ) (hc : ∀ i, v.c i = 0) (hd : ∀ i, v.d i = v.it.s i) (dc : δ.c = 0) (dd : δ.d = 0)
    (pos : ∀ dx ds, (∀ i, ∑ j, v.Jc i j * dx j = 0) → (∀ i, ∑ j, v.Jd i j * dx j = ds i) → ((∃ j, dx j ≠ 0) ∨ ∃ i, ds i ≠ 0) → 0 < quad W δ v dx ds) :
    gradBarrTDelta v Δ < 0 ∨ (∀ j, Δ.x j = 0) ∧ ∀ i, Δ.s i = 0 := by
  by_cases hz : (∃ j, Δ.x j ≠ 0) ∨ ∃ i, Δ.s i ≠ 0
  · left
    rw [barrier_slope W δ v ok hk h1 h2 h3 h4 Δ hN]
    have q := pos Δ.x Δ.s (fun i => by have := hN.c i; rw [hc, dc] at this; linear_combination this) (fun i => by have := hN.d i; rw [hd, dd] at this; linear_combination this) hz
    have e1 : ∑ i, (v.it.yc i + Δ.yc i) * (v.c i - δ.c * Δ.yc i) = 0 := Finset.sum_eq_zero fun i _ => by rw [hc, dc]; ring
    have e2 : ∑ i, (v.it.yd i + Δ.yd i) * (v.d i - v.it.s i - δ.d * Δ.yd i) = 0 := Finset.sum_eq_zero fun i _ => by rw [hd, dd]; ring
    rw [e1, e2]
    linarith
  · right
    push Not at hz
    exact hz

/-! ### Least-square multipliers -/

/-- sum of squares of the gradient of the Lagrangian with constraint multipliers `yc`, `yd`. -/
def dualResidual (v : Cur K X C D L U A B) (yc : C → K) (yd : D → K) : K :=
  ∑ j, (v.gradF j + ∑ i, v.Jc i j * yc i + ∑ i, v.Jd i j * yd i - (∑ i, if v.pL i = j then v.it.zL i else 0) + ∑ i, if v.pU i = j then v.it.zU i else 0) ^ 2
  + ∑ i, (-yd i - (∑ k, if v.qL k = i then v.it.vL k else 0) + ∑ k, if v.qU k = i then v.it.vU k else 0) ^ 2

/-- The multipliers computed by `LeastSquareMultipliers` minimize the gradient of the Lagrangian in the 2-norm over all constraint multipliers (for the given bound multipliers), if the augmented system is solved exactly. -/
theorem least_square_multipliers (v : Cur K X C D L U A B) (inertia : Bool) (aug : LsArgs K X C D → Option ((X → K) × (D → K) × (C → K) × (D → K)))
    (ha : ∀ a x s yc yd, aug a = some (x, s, yc, yd) →
      (∀ j, x j + ∑ i, a.Jc i j * yc i + ∑ i, a.Jd i j * yd i = a.rx j) ∧ (∀ i, s i - yd i = a.rs i) ∧ (∀ i, ∑ j, a.Jc i j * x j = 0) ∧ ∀ i, ∑ j, a.Jd i j * x j - s i = 0)
    (yc : C → K) (yd : D → K) (h : lsMults v inertia aug = some (yc, yd)) (yc' : C → K) (yd' : D → K) : dualResidual v yc yd ≤ dualResidual v yc' yd' := by
  unfold lsMults at h
  rw [Option.map_eq_some_iff] at h
  obtain ⟨⟨x, s, yc0, yd0⟩, hr, h⟩ := h
  simp only [Prod.mk.injEq] at h
  obtain ⟨rfl, rfl⟩ := h
  obtain ⟨b1, b2, b3, b4⟩ := ha _ _ _ _ _ hr
  simp only [] at b1 b2 b3 b4
  have rx : ∀ j, v.gradF j + ∑ i, v.Jc i j * yc0 i + ∑ i, v.Jd i j * yd0 i - (∑ i, if v.pL i = j then v.it.zL i else 0) + (∑ i, if v.pU i = j then v.it.zU i else 0) = -x j := by
    intro j
    have := b1 j
    unfold expand at this
    linear_combination this
  have rs : ∀ i, -yd0 i - (∑ k, if v.qL k = i then v.it.vL k else 0) + (∑ k, if v.qU k = i then v.it.vU k else 0) = -s i := by
    intro i
    have := b2 i
    unfold expand at this
    linear_combination this
  have rx' : ∀ j, v.gradF j + ∑ i, v.Jc i j * yc' i + ∑ i, v.Jd i j * yd' i - (∑ i, if v.pL i = j then v.it.zL i else 0) + (∑ i, if v.pU i = j then v.it.zU i else 0)
      = -x j + (∑ i, v.Jc i j * (yc' i - yc0 i) + ∑ i, v.Jd i j * (yd' i - yd0 i)) := by
    intro j
    simp only [mul_sub, Finset.sum_sub_distrib]
    linear_combination rx j
  have rs' : ∀ i, -yd' i - (∑ k, if v.qL k = i then v.it.vL k else 0) + (∑ k, if v.qU k = i then v.it.vU k else 0) = -s i - (yd' i - yd0 i) := fun i => by linear_combination rs i
  unfold dualResidual
  simp only [rx, rs, rx', rs']
  have swap : ∀ {R : Type} [Fintype R] (J : R → X → K) (y : R → K), ∑ j, x j * ∑ i, J i j * y i = ∑ i, y i * ∑ j, J i j * x j := by
    intro R _ J y
    simp only [Finset.mul_sum]
    rw [Finset.sum_comm]
    exact Finset.sum_congr rfl fun i _ => Finset.sum_congr rfl fun j _ => by ring
  have orth : ∑ j, x j * (∑ i, v.Jc i j * (yc' i - yc0 i) + ∑ i, v.Jd i j * (yd' i - yd0 i)) = ∑ i, (yd' i - yd0 i) * s i := by
    simp only [mul_add, Finset.sum_add_distrib]
    rw [swap, swap, Finset.sum_eq_zero fun i _ => by rw [b3 i, mul_zero], zero_add]
    exact Finset.sum_congr rfl fun i _ => by rw [sub_eq_zero.1 (b4 i)]
  have ex : ∑ j, (-x j + (∑ i, v.Jc i j * (yc' i - yc0 i) + ∑ i, v.Jd i j * (yd' i - yd0 i))) ^ 2
      = ∑ j, (-x j) ^ 2 - 2 * ∑ i, (yd' i - yd0 i) * s i + ∑ j, (∑ i, v.Jc i j * (yc' i - yc0 i) + ∑ i, v.Jd i j * (yd' i - yd0 i)) ^ 2 := by
    rw [← orth, Finset.mul_sum, ← Finset.sum_sub_distrib, ← Finset.sum_add_distrib]
    exact Finset.sum_congr rfl fun j _ => by ring
  have es : ∑ i, (-s i - (yd' i - yd0 i)) ^ 2 = ∑ i, (-s i) ^ 2 + 2 * ∑ i, (yd' i - yd0 i) * s i + ∑ i, (yd' i - yd0 i) ^ 2 := by
    rw [Finset.mul_sum, ← Finset.sum_add_distrib, ← Finset.sum_add_distrib]
    exact Finset.sum_congr rfl fun j _ => by ring
  rw [ex, es]
  have p1 : 0 ≤ ∑ j, (∑ i, v.Jc i j * (yc' i - yc0 i) + ∑ i, v.Jd i j * (yd' i - yd0 i)) ^ 2 := Finset.sum_nonneg fun j _ => sq_nonneg _
  have p2 : 0 ≤ ∑ i, (yd' i - yd0 i) ^ 2 := Finset.sum_nonneg fun j _ => sq_nonneg _
  linarith

/-! ### Instances -/

namespace Example

abbrev J := Iter ℚ Unit Unit Empty Unit Empty Empty Empty

/-- a direction with components `x`, `y_c`, `z_L`. -/
def mk (x y z : ℚ) : J := ⟨fun _ => x, fun i => i.elim, fun _ => y, fun i => i.elim, fun _ => z, fun i => i.elim, fun i => i.elim, fun i => i.elim⟩

/-- minimize `x^2/2` subject to `x ≥ 0` and one void constraint `0 x = 0`, at `x = 1`, `z_L = 1`, barrier parameter 1/2, damping 1. -/
def v : Cur ℚ Unit Unit Empty Unit Empty Empty Empty where
  pL := id
  pU i := i.elim
  qL i := i.elim
  qU i := i.elim
  it := mk 1 0 1
  gradF _ := 1
  Jc _ _ := 0
  Jd i := i.elim
  c _ := 0
  d i := i.elim
  slXL _ := 1
  slXU i := i.elim
  slSL i := i.elim
  slSU i := i.elim
  mu := 1 / 2
  kappaD := 1

theorem v_ok : v.Ok := ⟨fun _ _ h => h, fun i => i.elim, fun i => i.elim, fun i => i.elim⟩

/-- a direct solver for this problem. -/
def solve (α β : ℚ) (r start : J) (_ _ : Bool) : Option J :=
  if r.yc () = 0 then some (mk (α * (r.x () + r.zL ()) / 2) 0 (α * (r.zL () - r.x ()) / 2)) else none

/-- the hypothesis of `search_direction` on the solver is met. -/
theorem solve_ok : ∀ (r start : J) (a b : Bool) (Δ : J), solve (-1) 0 r start a b = some Δ → lhs (fun _ _ => 1) ⟨0, 0, 0, 0⟩ v Δ = scaled (-1) r := by
  intro r start a b Δ h
  unfold solve at h
  split at h
  · rename_i hy
    obtain rfl := Option.some.inj h
    simp only [lhs, scaled, mk, v, Iter.mk.injEq, Finset.univ_unique, Finset.sum_singleton, Finset.univ_eq_empty, Finset.sum_empty, id]
    refine ⟨?_, funext fun i => i.elim, ?_, funext fun i => i.elim, ?_, funext fun i => i.elim, funext fun i => i.elim, funext fun i => i.elim⟩
    · funext i; simp; ring
    · funext i; show _ = -1 * r.yc (); rw [hy]; simp
    · funext i; show _ = -1 * r.zL (); ring
  · cases h

/-- the direction is `Δx = -1/2`, `Δz = 0`, with slope -1/2 of the barrier function. -/
example : (computeDir ⟨false, false⟩ v solve (mk 0 0 0) ⟨false, mk 0 0 0, mk 0 0 0⟩).1 = true ∧
    (computeDir ⟨false, false⟩ v solve (mk 0 0 0) ⟨false, mk 0 0 0, mk 0 0 0⟩).2.delta.x () = -1 / 2 ∧
    (computeDir ⟨false, false⟩ v solve (mk 0 0 0) ⟨false, mk 0 0 0, mk 0 0 0⟩).2.delta.zL () = 0 ∧
    gradBarrTDelta v (computeDir ⟨false, false⟩ v solve (mk 0 0 0) ⟨false, mk 0 0 0, mk 0 0 0⟩).2.delta = -1 / 2 := by decide +kernel

/-- with Mehrotra's term for an affine step `(-2, 1/2)`: another direction. -/
example : (computeDir ⟨false, true⟩ v solve (mk 0 0 0) ⟨false, mk 0 0 0, mk (-2) 0 (1 / 2)⟩).2.delta.x () = 0 := by decide +kernel

/-- the hypotheses of `descent` are met. -/
example : gradBarrTDelta v (mk (-1 / 2) 0 0) < 0 ∨ (∀ j, (mk (-1 / 2) 0 0).x j = 0) ∧ ∀ i, (mk (-1 / 2) 0 0).s i = 0 := by
  have hN := ((search_direction ⟨false, false⟩ (fun _ _ => 1) ⟨0, 0, 0, 0⟩ v v_ok solve solve_ok (mk 0 0 0) ⟨false, mk 0 0 0, mk 0 0 0⟩).2.1 (by simp) (by decide +kernel)).1
  have e : (computeDir ⟨false, false⟩ v solve (mk 0 0 0) ⟨false, mk 0 0 0, mk 0 0 0⟩).2.delta = mk (-1 / 2) 0 0 := by
    have h : ∀ a b c, a = -1 / 2 → c = 0 → mk a b c = mk (-1 / 2) b 0 := by rintro _ _ _ rfl rfl; rfl
    have : computeDir ⟨false, false⟩ v solve (mk 0 0 0) ⟨false, mk 0 0 0, mk 0 0 0⟩ =
        (true, ⟨false, mk (-1 * (gradLagDampX v () + (1 * 1 + -(1 / 2))) / 2) 0 (-1 * (1 * 1 + -(1 / 2) - gradLagDampX v ()) / 2), mk 0 0 0⟩) := by rfl
    rw [this]
    exact h _ _ _ (by decide +kernel) (by decide +kernel)
  rw [e] at hN
  refine descent (fun _ _ => 1) ⟨0, 0, 0, 0⟩ v v_ok (by decide +kernel) (fun i => by show (1 : ℚ) ≠ 0; norm_num) (fun i => i.elim) (fun i => i.elim) (fun i => i.elim) _ hN (fun _ => rfl) (fun i => i.elim) rfl rfl ?_
  intro dx ds _ _ hz
  have hx : dx () ≠ 0 := by
    rcases hz with ⟨j, hj⟩ | ⟨i, _⟩
    · exact hj
    · exact i.elim
  simp only [quad, sigma, v, mk, Finset.univ_unique, Finset.sum_singleton, Finset.univ_eq_empty, Finset.sum_empty, id]
  have := mul_self_pos.2 hx
  simp
  nlinarith [this]

/-- least-square multipliers for gradient 3 and Jacobian 1: -3. -/
example : (lsMults (K := ℚ) { v with gradF := fun _ => 3, Jc := fun _ _ => 1, it := mk 1 0 0 } true (fun a => some (fun _ => 0, fun i => i.elim, fun _ => a.rx (), fun i => i.elim))).map (fun r => r.1 ()) = some (-3) := by
  decide +kernel

end Example

end Verif.SearchDir
