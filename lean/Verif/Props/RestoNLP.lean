import Verif.Proof.RestoNLP

/-! # C65: the restoration problem -/

namespace Verif.RestoNLP
open scoped BigOperators Topology
set_option linter.unusedSectionVars false
set_option linter.unusedSimpArgs false
set_option linter.unusedVariables false

section
variable {K : Type} [Field K] [LinearOrder K] [IsStrictOrderedRing K] {X C D : Type} [Fintype X] [Fintype C] [Fintype D]
  [DecidableEq X] [DecidableEq C] [DecidableEq D]

/-- The objective is `ρ·(sum of all relaxation variables) + ½ζ Σ((x − x_ref)/max(1,|x_ref|))²`, and its evaluation fails exactly if the original objective is
to be evaluated as well and cannot be. -/
theorem resto_objective (sqrt pow : K → K) (hs : ∀ a, 0 ≤ a → sqrt a * sqrt a = a) (orig : Orig K X C D) (rho weight : K) (e : Bool)
    (xref : X → K) (v : X5 K X C D) (mu y : K) :
    (Resto.new orig rho weight e xref).f sqrt pow v mu = some y ↔
      (e = true → (orig.f v.x).isSome) ∧
      y = rho * (∑ i, v.nc i + ∑ i, v.pc i + ∑ i, v.nd i + ∑ i, v.pd i) + prox (weight * pow mu) xref v.x := by
  rw [f_eq sqrt pow hs]
  have hv : val (Resto.new orig rho weight e xref) pow v mu =
    rho * (∑ i, v.nc i + ∑ i, v.pc i + ∑ i, v.nd i + ∑ i, v.pd i) + prox (weight * pow mu) xref v.x := rfl
  rw [hv]
  generalize rho * (∑ i, v.nc i + ∑ i, v.pc i + ∑ i, v.nd i + ∑ i, v.pd i) + prox (weight * pow mu) xref v.x = w
  cases e with
  | false => exact ⟨fun h => ⟨fun h => Bool.noConfusion h, (Option.some.inj h).symm⟩, fun h => by rw [h.2]; rfl⟩
  | true =>
    cases h : orig.f v.x with
    | none => exact ⟨fun h => by simp at h, fun h => Bool.noConfusion (h.1 rfl)⟩
    | some z => exact ⟨fun h => ⟨fun _ => rfl, (Option.some.inj h).symm⟩, fun h => by rw [h.2]; rfl⟩

/-- The constraints: `c(x) + n_c − p_c` and `d(x) + n_d − p_d`; they fail exactly if the original ones do. -/
theorem resto_constraints (R : Resto K X C D) (v : X5 K X C D) (y : C → K) (w : D → K) :
    (R.c v = some y ↔ ∃ cx, R.orig.c v.x = some cx ∧ ∀ i, y i = cx i + v.nc i - v.pc i) ∧
    (R.d v = some w ↔ ∃ dx, R.orig.d v.x = some dx ∧ ∀ i, w i = dx i + v.nd i - v.pd i) := by
  constructor
  · unfold Resto.c
    rw [Option.map_eq_some_iff]
    refine exists_congr fun cx => and_congr_right fun _ => ?_
    rw [funext_iff]
    refine forall_congr' fun i => ?_
    rw [show cx i + 1 * v.nc i + -1 * v.pc i = cx i + v.nc i - v.pc i by ring]
    exact eq_comm
  · unfold Resto.d
    rw [Option.map_eq_some_iff]
    refine exists_congr fun cx => and_congr_right fun _ => ?_
    rw [funext_iff]
    refine forall_congr' fun i => ?_
    rw [show cx i + 1 * v.nd i + -1 * v.pd i = cx i + v.nd i - v.pd i by ring]
    exact eq_comm

/-- Exact penalty: for fixed `x` and slacks `s`, the smallest objective over all nonnegative relaxation variables for which the restoration problem is
feasible is `ρ` times the 1-norm of the original constraint violation, plus the proximity term. -/
theorem resto_is_l1 (sqrt pow : K → K) (hs : ∀ a, 0 ≤ a → sqrt a * sqrt a = a) (orig : Orig K X C D) (rho weight : K) (hr : 0 ≤ rho)
    (e : Bool) (xref x : X → K) (s : D → K) (mu : K) (cx : C → K) (dx : D → K) (hc : orig.c x = some cx) (hd : orig.d x = some dx)
    (hf : e = true → (orig.f x).isSome) :
    IsLeast {y | ∃ v : X5 K X C D, v.x = x ∧ v.Nonneg ∧ (Resto.new orig rho weight e xref).c v = some (fun _ => 0) ∧
        (Resto.new orig rho weight e xref).d v = some s ∧ (Resto.new orig rho weight e xref).f sqrt pow v mu = some y}
      (rho * viol cx dx s + prox (weight * pow mu) xref x) := by
  constructor
  · refine ⟨⟨x, fun i => max 0 (-cx i), fun i => max 0 (cx i), fun i => max 0 (-(dx i - s i)), fun i => max 0 (dx i - s i)⟩, rfl,
      ⟨fun i => le_max_left _ _, fun i => le_max_left _ _, fun i => le_max_left _ _, fun i => le_max_left _ _⟩, ?_, ?_, ?_⟩
    · rw [(resto_constraints _ _ _ s).1]
      exact ⟨cx, hc, fun i => (split_zero (cx i)).symm⟩
    · rw [(resto_constraints _ _ (fun _ => 0) _).2]
      refine ⟨dx, hd, fun i => ?_⟩
      have := split_zero (dx i - s i)
      show s i = dx i + max 0 (-(dx i - s i)) - max 0 (dx i - s i)
      linarith
    · rw [resto_objective sqrt pow hs]
      refine ⟨hf, ?_⟩
      unfold viol
      rw [sum_abs_eq cx, sum_abs_eq (fun i => dx i - s i)]
      congr 1; ring
  · rintro y ⟨v, rfl, ⟨h1, h2, h3, h4⟩, hcv, hdv, hfv⟩
    rw [(resto_constraints _ _ _ s).1] at hcv
    rw [(resto_constraints _ _ (fun _ => 0) _).2] at hdv
    obtain ⟨cx', hcx, hcv⟩ := hcv
    obtain ⟨dx', hdx, hdv⟩ := hdv
    obtain rfl : cx' = cx := Option.some.inj (hcx.symm.trans hc)
    obtain rfl : dx' = dx := Option.some.inj (hdx.symm.trans hd)
    rw [resto_objective sqrt pow hs] at hfv
    rw [hfv.2]
    have a := sum_abs_le cx' v.nc v.pc h1 h2 fun i => (hcv i).symm
    have b := sum_abs_le (fun i => dx' i - s i) v.nd v.pd h3 h4 fun i => by have := hdv i; linarith
    have := mul_le_mul_of_nonneg_left (add_le_add a b) hr
    unfold viol
    linarith

end

section
variable {X C D : Type} [Fintype X] [Fintype C] [Fintype D] [DecidableEq X] [DecidableEq C] [DecidableEq D]

/-- The gradient returned is the derivative of the objective along every direction. -/
theorem resto_gradient (pow : ℝ → ℝ) (orig : Orig ℝ X C D) (rho weight : ℝ) (e : Bool) (xref : X → ℝ) (v h : X5 ℝ X C D) (mu : ℝ)
    (hf : e = true → ∀ᶠ t in 𝓝 (0 : ℝ), (orig.f fun i => v.x i + t * h.x i).isSome) :
    DerivAt (fun t => (Resto.new orig rho weight e xref).f Real.sqrt pow (v.move h t) mu)
      (((Resto.new orig rho weight e xref).gradF pow v mu).dot h) := by
  refine ⟨fun t => val (Resto.new orig rho weight e xref) pow (v.move h t) mu, ?_, val_deriv _ _ _ _ _ fun i => dr2_eq ..⟩
  cases e with
  | false => exact Filter.Eventually.of_forall fun t => by show Resto.f Real.sqrt _ _ _ _ = _; rw [f_eq Real.sqrt _ (fun a ha => Real.mul_self_sqrt ha)]; rfl
  | true =>
    refine (hf rfl).mono fun t ht => ?_
    show Resto.f Real.sqrt _ _ _ _ = _
    rw [f_eq Real.sqrt _ (fun a ha => Real.mul_self_sqrt ha)]
    obtain ⟨y, hy⟩ := Option.isSome_iff_exists.1 ht
    have : orig.f (v.move h t).x = some y := hy
    rw [this]; rfl

theorem DerivAt.add_line {g : ℝ → Option ℝ} {g' : ℝ} (hg : DerivAt g g') (a b a' b' : ℝ) :
    DerivAt (fun t => (g t).map fun y => y + 1 * (a + t * b) + -1 * (a' + t * b')) (g' + b - b') := by
  obtain ⟨G, hG, hd⟩ := hg
  refine ⟨fun t => G t + 1 * (a + t * b) + -1 * (a' + t * b'), hG.mono fun t ht => by simp only [ht, Option.map_some], ?_⟩
  refine ((hd.add ((line_deriv a b).const_mul 1)).add ((line_deriv a' b').const_mul (-1))).congr_deriv ?_
  ring

/-- The Jacobian of the equality constraints is right along a direction if the original one is. -/
theorem resto_jac_c (R : Resto ℝ X C D) (v h : X5 ℝ X C D) (J : _root_.Matrix C X ℝ) (hJ : R.orig.jacC v.x = some J)
    (hd : ∀ i, DerivAt (fun t => (R.orig.c fun j => v.x j + t * h.x j).map (· i)) (∑ j, J i j * h.x j)) :
    ∃ A, R.jacC v = some A ∧ ∀ i, DerivAt (fun t => (R.c (v.move h t)).map (· i)) (A.mul h i) := by
  refine ⟨_, by unfold Resto.jacC; rw [hJ]; rfl, fun i => ?_⟩
  have := (hd i).add_line (v.nc i) (h.nc i) (v.pc i) (h.pc i)
  have e1 : (fun t => (R.c (v.move h t)).map (· i)) =
      fun t => ((R.orig.c fun j => v.x j + t * h.x j).map (· i)).map fun y => y + 1 * (v.nc i + t * h.nc i) + -1 * (v.pc i + t * h.pc i) := by
    funext t
    unfold Resto.c
    rw [Option.map_map, Option.map_map]
    rfl
  rw [e1]
  convert this using 1
  simp only [M5.mul, block, _root_.Matrix.of_apply, ite_mul, zero_mul, one_mul, neg_mul, Finset.sum_ite_eq, Finset.mem_univ, if_true,
    Finset.sum_const_zero]
  ring

/-- The Jacobian of the inequality constraints is right along a direction if the original one is. -/
theorem resto_jac_d (R : Resto ℝ X C D) (v h : X5 ℝ X C D) (J : _root_.Matrix D X ℝ) (hJ : R.orig.jacD v.x = some J)
    (hd : ∀ i, DerivAt (fun t => (R.orig.d fun j => v.x j + t * h.x j).map (· i)) (∑ j, J i j * h.x j)) :
    ∃ A, R.jacD v = some A ∧ ∀ i, DerivAt (fun t => (R.d (v.move h t)).map (· i)) (A.mul h i) := by
  refine ⟨_, by unfold Resto.jacD; rw [hJ]; rfl, fun i => ?_⟩
  have := (hd i).add_line (v.nd i) (h.nd i) (v.pd i) (h.pd i)
  have e1 : (fun t => (R.d (v.move h t)).map (· i)) =
      fun t => ((R.orig.d fun j => v.x j + t * h.x j).map (· i)).map fun y => y + 1 * (v.nd i + t * h.nd i) + -1 * (v.pd i + t * h.pd i) := by
    funext t
    unfold Resto.d
    rw [Option.map_map, Option.map_map]
    rfl
  rw [e1]
  convert this using 1
  simp only [M5.mul, block, _root_.Matrix.of_apply, ite_mul, zero_mul, one_mul, neg_mul, Finset.sum_ite_eq, Finset.mem_univ, if_true,
    Finset.sum_const_zero]
  ring

/-- The Hessian is the derivative of the gradient of the Lagrangian of the restoration problem along a direction, if the original Hessian for objective
factor 0 is the derivative of `∇(yc·c + yd·d)`: block x of the derivative is `H h_x`, all other blocks are zero. -/
theorem resto_hessian (pow : ℝ → ℝ) (R : Resto ℝ X C D) (v h : X5 ℝ X C D) (σ mu : ℝ) (yc : C → ℝ) (yd : D → ℝ)
    (H : _root_.Matrix X X ℝ) (hH : R.orig.h v.x 0 yc yd = some H)
    (hd : ∀ i, DerivAt (fun t => (R.orig.conGrad (fun j => v.x j + t * h.x j) yc yd).map (· i)) (∑ j, H i j * h.x j)) :
    ∃ W, R.h pow v σ yc yd mu = some W ∧
      (∀ i, DerivAt (fun t => (R.lagGrad pow (v.move h t) σ yc yd mu).map (·.x i)) (∑ j, W i j * h.x j)) ∧
      ∀ g, (R.lagGrad pow v σ yc yd mu) = some g → ∀ t g', R.lagGrad pow (v.move h t) σ yc yd mu = some g' →
        g'.nc = g.nc ∧ g'.pc = g.pc ∧ g'.nd = g.nd ∧ g'.pd = g.pd := by
  refine ⟨_, by unfold Resto.h; rw [hH]; rfl, fun i => ?_, ?_⟩
  · obtain ⟨G, hG, hdG⟩ := hd i
    refine ⟨fun t => σ * (R.eta pow mu * ((v.x i + t * h.x i - R.xRef i) * R.dr2 i)) + G t, ?_, ?_⟩
    · refine hG.mono fun t ht => ?_
      unfold Resto.lagGrad Resto.jacC Resto.jacD
      unfold Orig.conGrad at ht
      beta_reduce at ht
      have hx : (v.move h t).x = fun j => v.x j + t * h.x j := rfl
      simp only [hx]
      cases hA : R.orig.jacC (fun j => v.x j + t * h.x j) with
      | none => rw [hA] at ht; simp at ht
      | some A =>
        cases hB : R.orig.jacD (fun j => v.x j + t * h.x j) with
        | none => rw [hA, hB] at ht; simp at ht
        | some B =>
          rw [hA, hB] at ht
          simp only [Option.map_some, Option.bind_some, Option.some.injEq] at ht ⊢
          rw [← ht]
          show σ * (R.eta pow mu * ((v.x i + t * h.x i - R.xRef i) * R.dr2 i)) + ∑ k, A k i * yc k + ∑ k, B k i * yd k = _
          ring
    · have h1 := ((((line_deriv (v.x i) (h.x i)).sub_const (R.xRef i)).mul_const (R.dr2 i)).const_mul (R.eta pow mu)).const_mul σ
      refine (h1.add hdG).congr_deriv ?_
      simp only [add_mul, one_mul, mul_ite, ite_mul, mul_zero, zero_mul, Finset.sum_add_distrib, Finset.sum_ite_eq, Finset.mem_univ, if_true]
      ring
  · intro g hg t g' hg'
    unfold Resto.lagGrad Resto.jacC Resto.jacD at hg hg'
    simp only [Option.bind_eq_some_iff, Option.map_eq_some_iff] at hg hg'
    obtain ⟨A, ⟨J, hJ, rfl⟩, B, ⟨L, hL, rfl⟩, rfl⟩ := hg
    obtain ⟨A', ⟨J', hJ', rfl⟩, B', ⟨L', hL', rfl⟩, rfl⟩ := hg'
    exact ⟨rfl, rfl, rfl, rfl⟩

end

section
variable {V : Type}

/-- Bounds of the restoration problem: those of the original problem, and zero for the relaxation variables.  When bounds are adjusted during the
restoration phase, the new bounds become those of the original problem and of the relaxation variables; the restoration problem keeps its old bounds on
`x` and `d`, any number of times. -/
theorem resto_bounds (zero : Fin 4 → V) (heap : Nat → V) (next xL xU dL dU : Nat) (h : xL < next ∧ xU < next ∧ dL < next ∧ dU < next)
    (adj : List (V × (Fin 4 → V) × V × V × V)) :
    let b := adj.foldl (fun b a => b.adjust a.1 a.2.1 a.2.2.1 a.2.2.2.1 a.2.2.2.2) (Bounds.new zero heap next xL xU dL dU)
    (b.heap b.xL0, b.heap b.xU0, b.heap b.dL0, b.heap b.dU0) = (heap xL, heap xU, heap dL, heap dU) ∧
    (b.heap b.xL, b.slack, b.heap b.xU, b.heap b.dL, b.heap b.dU) =
      (adj.getLast?).getD (heap xL, zero, heap xU, heap dL, heap dU) := by
  intro b
  suffices H : ∀ (adj : List (V × (Fin 4 → V) × V × V × V)) (b0 : Bounds V), (b0.xL0 < b0.next ∧ b0.xU0 < b0.next ∧ b0.dL0 < b0.next ∧ b0.dU0 < b0.next) →
      let b := adj.foldl (fun b a => b.adjust a.1 a.2.1 a.2.2.1 a.2.2.2.1 a.2.2.2.2) b0
      (b.heap b.xL0, b.heap b.xU0, b.heap b.dL0, b.heap b.dU0) = (b0.heap b0.xL0, b0.heap b0.xU0, b0.heap b0.dL0, b0.heap b0.dU0) ∧
      (b.heap b.xL, b.slack, b.heap b.xU, b.heap b.dL, b.heap b.dU) =
        (adj.getLast?).getD (b0.heap b0.xL, b0.slack, b0.heap b0.xU, b0.heap b0.dL, b0.heap b0.dU) from H adj _ h
  intro adj
  induction adj with
  | nil => intro b0 _; exact ⟨rfl, rfl⟩
  | cons a l ih =>
    intro b0 h0
    obtain ⟨a1, a2, a3, a4, a5⟩ := a
    have key := ih (b0.adjust a1 a2 a3 a4 a5) (by
      obtain ⟨p, q, r, s⟩ := h0
      show b0.xL0 < b0.next + 4 ∧ b0.xU0 < b0.next + 4 ∧ b0.dL0 < b0.next + 4 ∧ b0.dU0 < b0.next + 4
      omega)
    have hk : ∀ o, o < b0.next → (b0.adjust a1 a2 a3 a4 a5).heap o = b0.heap o := by
      intro o ho
      show Function.update (Function.update (Function.update (Function.update b0.heap b0.next a1) (b0.next + 1) a3) (b0.next + 2) a4) (b0.next + 3) a5 o = _
      rw [Function.update_of_ne (by omega), Function.update_of_ne (by omega), Function.update_of_ne (by omega), Function.update_of_ne (by omega)]
    refine ⟨?_, ?_⟩
    · refine key.1.trans ?_
      exact congr_arg₂ _ (hk _ h0.1) (congr_arg₂ _ (hk _ h0.2.1) (congr_arg₂ _ (hk _ h0.2.2.1) (hk _ h0.2.2.2)))
    · refine key.2.trans ?_
      have : ((b0.adjust a1 a2 a3 a4 a5).heap (b0.adjust a1 a2 a3 a4 a5).xL, (b0.adjust a1 a2 a3 a4 a5).slack, (b0.adjust a1 a2 a3 a4 a5).heap (b0.adjust a1 a2 a3 a4 a5).xU,
          (b0.adjust a1 a2 a3 a4 a5).heap (b0.adjust a1 a2 a3 a4 a5).dL, (b0.adjust a1 a2 a3 a4 a5).heap (b0.adjust a1 a2 a3 a4 a5).dU) = (a1, a2, a3, a4, a5) := by
        unfold Bounds.adjust Bounds.adjustOrig
        simp [Function.update_apply]
      rw [this, List.getLast?_cons]
      cases l.getLast? <;> rfl

end

/-! ### The hypotheses are met -/

/-- one variable `x`, the constraints `x² = 0` and `x² ≥ …`, undefined for `x < 0`; objective undefined for `x > 5`. -/
noncomputable def exOrig : Orig ℝ Unit Unit Unit where
  f x := if x () ≤ 5 then some (x ()) else none
  c x := if 0 ≤ x () then some fun _ => x () * x () else none
  d x := if 0 ≤ x () then some fun _ => x () * x () else none
  jacC x := if 0 ≤ x () then some (_root_.Matrix.of fun _ _ => 2 * x ()) else none
  jacD x := if 0 ≤ x () then some (_root_.Matrix.of fun _ _ => 2 * x ()) else none
  h x _ yc yd := if 0 ≤ x () then some (_root_.Matrix.of fun _ _ => 2 * (yc () + yd ())) else none

theorem near_pos (a b : ℝ) (ha : 0 < a) : ∀ᶠ t in 𝓝 (0 : ℝ), 0 ≤ a + t * b := by
  have h : ContinuousAt (fun t : ℝ => a + t * b) 0 := (line_deriv a b).continuousAt
  have : ∀ᶠ y in 𝓝 (a + 0 * b), 0 ≤ y := by
    rw [zero_mul, add_zero]
    exact (lt_mem_nhds ha).mono fun y hy => le_of_lt hy
  exact h.eventually this

/-- the hypotheses of `resto_jac_c` for the example at `x = 3`. -/
example (rho weight : ℝ) (h : X5 ℝ Unit Unit Unit) (nc pc nd pd : Unit → ℝ) :
    let R := Resto.new exOrig rho weight true (fun _ => 3)
    let v : X5 ℝ Unit Unit Unit := ⟨fun _ => 3, nc, pc, nd, pd⟩
    ∃ J, R.orig.jacC v.x = some J ∧
      ∀ i, DerivAt (fun t => (R.orig.c fun j => v.x j + t * h.x j).map (· i)) (∑ j, J i j * h.x j) := by
  refine ⟨_, if_pos (by norm_num), fun i => ?_⟩
  refine ⟨fun t => (3 + t * h.x ()) * (3 + t * h.x ()), ?_, ?_⟩
  · refine (near_pos 3 (h.x ()) (by norm_num)).mono fun t ht => ?_
    show ((if 0 ≤ 3 + t * h.x () then some _ else none : Option (Unit → ℝ)).map (· i)) = _
    rw [if_pos ht]; rfl
  · have := (line_deriv 3 (h.x ())).mul (line_deriv 3 (h.x ()))
    refine this.congr_deriv ?_
    simp
    ring

/-- those of `resto_hessian`. -/
example (rho weight : ℝ) (h : X5 ℝ Unit Unit Unit) (nc pc nd pd yc yd : Unit → ℝ) :
    let R := Resto.new exOrig rho weight true (fun _ => 3)
    let v : X5 ℝ Unit Unit Unit := ⟨fun _ => 3, nc, pc, nd, pd⟩
    ∃ H, R.orig.h v.x 0 yc yd = some H ∧
      ∀ i, DerivAt (fun t => (R.orig.conGrad (fun j => v.x j + t * h.x j) yc yd).map (· i)) (∑ j, H i j * h.x j) := by
  refine ⟨_, if_pos (by norm_num), fun i => ?_⟩
  refine ⟨fun t => 2 * (3 + t * h.x ()) * yc () + 2 * (3 + t * h.x ()) * yd (), ?_, ?_⟩
  · refine (near_pos 3 (h.x ()) (by norm_num)).mono fun t ht => ?_
    unfold Orig.conGrad
    have h1 : exOrig.jacC (fun j => 3 + t * h.x j) = some (_root_.Matrix.of fun _ _ => 2 * (3 + t * h.x ())) := if_pos ht
    have h2 : exOrig.jacD (fun j => 3 + t * h.x j) = some (_root_.Matrix.of fun _ _ => 2 * (3 + t * h.x ())) := if_pos ht
    show (((exOrig.jacC fun j => 3 + t * h.x j).bind fun A => (exOrig.jacD fun j => 3 + t * h.x j).map fun B => fun j =>
      ∑ i, A i j * yc i + ∑ i, B i j * yd i).map fun y => y i) = _
    rw [h1, h2]
    simp
  · have := ((((line_deriv 3 (h.x ())).const_mul 2).mul_const (yc ()))).add ((((line_deriv 3 (h.x ())).const_mul 2).mul_const (yd ())))
    refine this.congr_deriv ?_
    simp
    ring

/-- those of `resto_gradient` and `resto_is_l1`. -/
example (h : X5 ℝ Unit Unit Unit) : true = true → ∀ᶠ t in 𝓝 (0 : ℝ), (exOrig.f fun i => 3 + t * h.x i).isSome := by
  intro _
  refine (near_pos 2 (-h.x ()) (by norm_num)).mono fun t ht => ?_
  show (if 3 + t * h.x () ≤ 5 then some _ else none : Option ℝ).isSome
  rw [if_pos (by linarith)]; rfl

example : (∀ a : ℝ, 0 ≤ a → Real.sqrt a * Real.sqrt a = a) ∧ exOrig.c (fun _ => 3) = some (fun _ => 3 * 3) ∧
    exOrig.d (fun _ => 3) = some (fun _ => 3 * 3) ∧ (exOrig.f fun _ => 3).isSome := by
  refine ⟨fun a => Real.mul_self_sqrt, if_pos (by norm_num), if_pos (by norm_num), ?_⟩
  show (if (3 : ℝ) ≤ 5 then some _ else none : Option ℝ).isSome
  rw [if_pos (by norm_num)]; rfl

/-- the finding: after an adjustment, the restoration problem and the original problem have different bounds. -/
example : let b := (Bounds.new (fun _ => (0 : Int)) (fun _ => 7) 4 0 1 2 3).adjust 5 (fun _ => -1) 9 6 8
    b.heap b.xL = 5 ∧ b.heap b.xL0 = 7 ∧ b.slack 0 = -1 := by decide

end Verif.RestoNLP
