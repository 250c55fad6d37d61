import Verif.Proof.Equil

/-! # C88: equilibration-based scaling of the problem

`nlp_scaling_method=equilibration-based`: where the derivatives are evaluated, what happens if evaluations fail, the matrix that is
equilibrated, and the factors. -/

namespace Verif.Equil
open Finset Verif.Matrix
open Verif.SysScaling (genElem isSlack_total)
open Verif.Scaling (FacOK ent_scaleJac)

set_option linter.unusedSectionVars false
set_option linter.unusedSimpArgs false
set_option linter.unusedVariables false

section
variable {K : Type} [Field K] [LinearOrder K] [IsStrictOrderedRing K]

/-- C88: the points of evaluation are within the bounds (for variables without a bound: within the number used for infinity), within the
radius of the reference point, and within the radius of the starting point if that is not closer to a bound than the radius.  For all random
numbers between 0 and 1. -/
theorem points_within {hom : List K → Option K} (hh : HomOK hom) (very : K) (x0 : List K) {radius : K} (hr : 0 ≤ radius) {posL posU : List Nat}
    {xL xU : List K} (hL : BoundsOK x0.length posL xL) (hU : BoundsOK x0.length posU xU) {rnd : Nat → K} {i : Nat} (hi : i < x0.length)
    (h0 : 0 ≤ rnd i) (h1 : rnd i ≤ 1) {lo up : Option K} (hl : BoundOf posL xL i lo) (hu : BoundOf posU xU i up)
    (hle : lo.getD (-very) ≤ up.getD very) :
    ((mkPerturber hom very x0 radius posL xL posU xU).point rnd).length = x0.length ∧
    lo.getD (-very) ≤ ((mkPerturber hom very x0 radius posL xL posU xU).point rnd).getD i 0 ∧
    ((mkPerturber hom very x0 radius posL xL posU xU).point rnd).getD i 0 ≤ up.getD very ∧
    |((mkPerturber hom very x0 radius posL xL posU xU).point rnd).getD i 0 - (mkPerturber hom very x0 radius posL xL posU xU).ref.getD i 0| ≤ radius ∧
    (lo.getD (-very) + radius ≤ x0.getD i 0 → x0.getD i 0 ≤ up.getD very - radius →
      |((mkPerturber hom very x0 radius posL xL posU xU).point rnd).getD i 0 - x0.getD i 0| ≤ radius) := by
  obtain ⟨hlen, d, hd, _, href, hp⟩ := perturber_get hh very x0 radius hL hU rnd hi hl hu
  generalize lo.getD (-very) = l at *
  generalize up.getD very = u at *
  generalize x0.getD i 0 = x at *
  have d0 : 0 ≤ d := by rw [hd]; exact le_min (by linarith) hr
  have d1 : d ≤ radius := by rw [hd]; exact min_le_right _ _
  have d2 : 2 * d ≤ u - l := by
    have : d ≤ (1 / 2) * u + (-(1 / 2)) * l := by rw [hd]; exact min_le_left _ _
    linarith
  have r1 : l + d ≤ max (min x (u - d)) (l + d) := le_max_right _ _
  have r2 : max (min x (u - d)) (l + d) ≤ u - d := max_le (min_le_right _ _) (by linarith)
  have t1 : -d ≤ 2 * (rnd i - 1 / 2) * d := by nlinarith
  have t2 : 2 * (rnd i - 1 / 2) * d ≤ d := by nlinarith
  rw [hp, href]
  refine ⟨hlen, by linarith, by linarith, ?_, fun q1 q2 => ?_⟩
  · rw [abs_le]; constructor <;> linarith
  · have : max (min x (u - d)) (l + d) = x := by
      rw [min_eq_left (by linarith), max_eq_left (by linarith)]
    rw [this, abs_le]; constructor <;> linarith

/-- C88: evaluations are repeated until four have succeeded: these, in order, are used; or until eleven have failed: then the initialization
fails.  At most fourteen evaluations are made. -/
theorem evaluations {V : Type} (ev : Nat → Option V) :
    (∀ vs, collect ev numEvals maxErrors 0 = some vs →
      vs.length = 4 ∧ ∃ n, n ≤ 14 ∧ vs = (List.range n).filterMap ev ∧ 0 < n ∧ (ev (n - 1)).isSome) ∧
    (collect ev numEvals maxErrors 0 = none →
      ∃ n, n ≤ 14 ∧ ((List.range n).filterMap ev).length < 4 ∧ n = ((List.range n).filterMap ev).length + 11) := by
  refine ⟨fun vs h => ?_, fun h => ?_⟩
  · obtain ⟨n, e1, e2, e3, _, e4⟩ := collect_some h
    obtain ⟨a, b⟩ := e4 (by decide)
    refine ⟨e2, n, e3, by rw [List.range_eq_range']; exact e1, a, by simpa using b⟩
  · obtain ⟨n, e1, e2⟩ := collect_none h
    rw [← List.range_eq_range'] at e1 e2
    have e1' : ((List.range n).filterMap ev).length < 4 := e1
    have e2' : n = ((List.range n).filterMap ev).length + 10 + 1 := e2
    exact ⟨n, by omega, e1', by omega⟩

/-- C88: the values are the means of the absolute values at the four points. -/
theorem mean_values (a b c e : Nat → K) (i : Nat) : average [a, b, c, e] i = (|a i| + |b i| + |c i| + |e i|) / 4 := by
  simp [average, numEvals]

/-- C88: the matrix handed to MC19 is the transposed matrix of the mean absolute values of the Jacobian of the equality constraints, that of
the inequality constraints, and the gradient of the objective, one below the other.  Zero elements of the gradient are left out. -/
theorem mc19_matrix {d : Dims} (hd : d.OK) (avg : Nat → K) {c : Nat} (hc : c < d.nx) :
    (∀ r, r < d.nc → genElem (toMc19 d avg).2 c r = elem d.rcC avg 0 r c) ∧
    (∀ r, r < d.nd → genElem (toMc19 d avg).2 c (d.nc + r) = elem d.rcD avg d.rcC.length r c) ∧
    genElem (toMc19 d avg).2 c (d.nc + d.nd) = avg (d.rcC.length + d.rcD.length + c) ∧
    d.nx ≤ (toMc19 d avg).1 ∧ d.nc + d.nd + 1 ≤ (toMc19 d avg).1 ∧
    ∀ t ∈ (toMc19 d avg).2.drop (d.rcC.length + d.rcD.length), t.2.2 ≠ 0 := by
  have hC : ∀ k, k < d.rcC.length → 1 ≤ (d.rcC.getD k (0, 0)).1 ∧ (d.rcC.getD k (0, 0)).1 ≤ d.nc := by
    intro k hk
    rw [List.getD_eq_getElem _ _ hk]
    exact hd.c _ (List.getElem_mem hk)
  have hD : ∀ k, k < d.rcD.length → 1 ≤ (d.rcD.getD k (0, 0)).1 ∧ (d.rcD.getD k (0, 0)).1 ≤ d.nd := by
    intro k hk
    rw [List.getD_eq_getElem _ _ hk]
    exact hd.d _ (List.getElem_mem hk)
  have split : ∀ r, genElem (toMc19 d avg).2 c r =
      (∑ k ∈ range d.rcC.length, if (d.rcC.getD k (0, 0)).2 = c + 1 ∧ (d.rcC.getD k (0, 0)).1 = r + 1 then avg k else 0) +
      (∑ k ∈ range d.rcD.length, if (d.rcD.getD k (0, 0)).2 = c + 1 ∧ (d.rcD.getD k (0, 0)).1 + d.nc = r + 1 then avg (d.rcC.length + k) else 0) +
      if d.nc + d.nd + 1 = r + 1 then avg (d.rcC.length + d.rcD.length + c) else 0 := by
    intro r
    rw [toMc19_list, genElem_append, genElem_append, genElem_range, genElem_range,
      genElem_grad d.nx (d.nc + d.nd + 1) (fun j => avg (d.rcC.length + d.rcD.length + j)) c r hc]
  refine ⟨fun r hr => ?_, fun r hr => ?_, ?_, le_max_right _ _, le_max_left _ _, ?_⟩
  · rw [split, if_neg (by omega), add_zero, add_eq_left.2]
    · unfold elem
      apply sum_congr rfl
      intro k hk
      simp only [Prod.ext_iff, zero_add]
      congr 1
      exact propext ⟨fun h => ⟨h.2, h.1⟩, fun h => ⟨h.2, h.1⟩⟩
    · apply sum_eq_zero
      intro k hk
      have := hD k (mem_range.1 hk)
      rw [if_neg (by omega)]
  · rw [split, if_neg (by omega), add_zero, add_eq_right.2]
    · unfold elem
      apply sum_congr rfl
      intro k hk
      simp only [Prod.ext_iff]
      congr 1
      exact propext ⟨fun h => ⟨by omega, h.1⟩, fun h => ⟨h.2, by omega⟩⟩
    · apply sum_eq_zero
      intro k hk
      have := hC k (mem_range.1 hk)
      rw [if_neg (by omega)]
  · rw [split, if_pos rfl]
    rw [sum_eq_zero, sum_eq_zero]
    · simp
    · intro k hk
      have := hD k (mem_range.1 hk)
      rw [if_neg (by omega)]
    · intro k hk
      have := hC k (mem_range.1 hk)
      rw [if_neg (by omega)]
  · intro t ht
    rw [toMc19_list, List.drop_left' (by simp)] at ht
    rw [List.mem_filterMap] at ht
    obtain ⟨j, _, hj⟩ := ht
    split at hj
    · rename_i h
      simp only [Option.some.injEq] at hj
      rw [← hj]; exact h
    · simp at hj

variable {L : Type}

/-- C88: the factors are the exponentials of what MC19 returns for that matrix; if the exponential function is positive, so are they, and they
are valid factors in the sense of C25 (the scaled problem is equivalent to the user's). -/
theorem factors (d : Dims) (ev : Nat → Option (Nat → K)) (mc19 : Nat → List (Nat × Nat × K) → (Nat → L) × (Nat → L)) (exp : L → K)
    (hexp : ∀ l, 0 < exp l) {p : Params K} (h : params d ev mc19 exp = some p) :
    (∃ vs, collect ev numEvals maxErrors 0 = some vs ∧
      (∀ r, r < d.nc → p.dc.getD r 0 = exp ((mc19 (toMc19 d (average vs)).1 (toMc19 d (average vs)).2).2 r)) ∧
      (∀ r, r < d.nd → p.dd.getD r 0 = exp ((mc19 (toMc19 d (average vs)).1 (toMc19 d (average vs)).2).2 (d.nc + r))) ∧
      p.df = exp ((mc19 (toMc19 d (average vs)).1 (toMc19 d (average vs)).2).2 (d.nc + d.nd)) ∧
      ∀ c, c < d.nx → p.dx.getD c 0 = exp ((mc19 (toMc19 d (average vs)).1 (toMc19 d (average vs)).2).1 c)) ∧
    0 < p.df ∧ (∀ v ∈ p.dx, 0 < v) ∧ (∀ v ∈ p.dc, 0 < v) ∧ (∀ v ∈ p.dd, 0 < v) ∧
    FacOK d.nx (some p.dx) ∧ FacOK d.nc (some p.dc) ∧ FacOK d.nd (some p.dd) := by
  unfold params at h
  cases hc : collect ev numEvals maxErrors 0 with
  | none => rw [hc] at h; simp at h
  | some vs =>
    rw [hc] at h
    simp only [Option.map_some, Option.some.injEq] at h
    have pos : ∀ (n : Nat) (f : Nat → L), ∀ v ∈ (List.range n).map (fun i => exp (f i)), 0 < v := by
      intro n f v hv
      rw [List.mem_map] at hv
      obtain ⟨_, _, rfl⟩ := hv
      exact hexp _
    have fac : ∀ (n : Nat) (f : Nat → L), FacOK n (some ((List.range n).map fun i => exp (f i))) := by
      intro n f v hv
      cases hv
      exact ⟨by simp, fun e he => (pos n f e he).ne'⟩
    have get : ∀ (n : Nat) (f : Nat → L) (r : Nat), r < n → ((List.range n).map fun i => exp (f i)).getD r 0 = exp (f r) := by
      intro n f r hr
      rw [List.getD_eq_getElem _ _ (by simpa using hr)]; simp
    rw [← h]
    exact ⟨⟨vs, rfl, get _ _, get _ fun i => _, rfl, get _ _⟩, hexp _, pos _ _, pos _ _, pos _ fun i => _, fac _ _, fac _ _, fac _ fun i => _⟩

/-- C88, what is missing (the purpose of the method is not met): the factors of the variables are used reciprocally by the scaling object, so an
element of the Jacobian that is exactly equilibrated by the numbers MC19 returns (row factor times element times column factor is 1) becomes the
inverse square of the column factor in the scaled problem. -/
theorem not_equilibrated_partial (d : Dims) (ev : Nat → Option (Nat → K)) (mc19 : Nat → List (Nat × Nat × K) → (Nat → L) × (Nat → L)) (exp : L → K)
    (hexp : ∀ l, 0 < exp l) {p : Params K} (h : params d ev mc19 exp = some p) (objFactor : K) (J : Mat K) {r c : Nat} (hr : r < d.nc) (hc : c < d.nx)
    (heq : p.dc.getD r 0 * |ent J r c| * p.dx.getD c 0 = 1) :
    |ent (Scaling.scaleJac (p.scal objFactor).jacC J) r c| = ((p.dx.getD c 0) ^ 2)⁻¹ := by
  obtain ⟨_, _, h1, h2, _, f1, f2, _⟩ := factors d ev mc19 exp hexp h
  have e := ent_scaleJac (dr := some p.dc) f1 J r c hc
  have l1 := (f1 _ rfl).1
  have l2 := (f2 _ rfl).1
  have a1 : 0 < p.dx.getD c 0 := by
    rw [List.getD_eq_getElem _ _ (by omega)]; exact h1 _ (List.getElem_mem _)
  have a2 : 0 < p.dc.getD r 0 := by
    rw [List.getD_eq_getElem _ _ (by omega)]; exact h2 _ (List.getElem_mem _)
  have e1 : optFac (some p.dc) r = p.dc.getD r 0 := by
    simp only [optFac]
  have e2 : optFac (some p.dx) c = p.dx.getD c 0 := by
    simp only [optFac]
  rw [e1, e2] at e
  show |ent (Scaling.scaleJac (if (some p.dx).isSome || (some p.dc).isSome then some (Scaling.mkSpace (some p.dc) false (some p.dx) true) else none) J) r c| = _
  rw [e, abs_mul, abs_mul, abs_of_pos a2, abs_inv, abs_of_pos a1]
  field_simp
  linarith

end

/-! ## Concrete cases -/

/-- bounds 0 ≤ x₀ ≤ 1, x₁ ≥ 0, x₂ free; radius 10, starting point (5, 5, 5). -/
def demoP : Perturber ℚ := mkPerturber (fun _ => none) (10 ^ 300) [5, 5, 5] 10 [0, 1] [0, 0] [0] [1]

theorem demo_points : demoP.dir = [1 / 2, 10, 10] ∧ demoP.ref = [1 / 2, 10, 5] ∧ demoP.point (fun _ => 1) = [1, 20, 15] ∧
    demoP.point (fun _ => 0) = [0, 0, -5] := by decide +kernel

theorem demo_bounds : BoundsOK 3 [0, 1] [(0 : ℚ), 0] ∧ BoundsOK 3 [0] [(1 : ℚ)] ∧ HomOK (fun _ : List ℚ => none) ∧
    BoundOf [0, 1] [(0 : ℚ), 0] 1 (some 0) ∧ BoundOf [0] [(1 : ℚ)] 1 none :=
  ⟨⟨rfl, by decide, by decide⟩, ⟨rfl, by decide, by decide⟩, fun l s e => by simp at e, ⟨1, rfl, rfl⟩, by show 1 ∉ [0]; decide⟩

/-- evaluations fail at every second call: four are found in eight calls; if all fail, the initialization fails. -/
theorem demo_evaluations : collect (fun n => if n % 2 = 0 then none else some n) numEvals maxErrors 0 = some [1, 3, 5, 7] ∧
    collect (fun n => if n < 11 then none else some n) numEvals maxErrors 0 = none ∧
    collect (fun n => if n < 10 then none else some n) numEvals maxErrors 0 = some [10, 11, 12, 13] := by decide +kernel

/-- two variables, one equality, one inequality; the second element of the gradient is different from 0. -/
def demoD : Dims := ⟨2, 1, 1, [(1, 1), (1, 2)], [(1, 2)]⟩
/-- values of the Jacobians and of the gradient. -/
def demoV : Nat → ℚ := fun i => [3, -4, 5, 0, 7].getD i 0

theorem demo_matrix : demoD.OK ∧ toMc19 demoD demoV = (3, [(1, 1, 3), (2, 1, -4), (2, 2, 5), (2, 3, 7)]) ∧
    (List.range 5).map (average [demoV, demoV, demoV, fun _ => 1]) = [10 / 4, 13 / 4, 16 / 4, 1 / 4, 22 / 4] :=
  ⟨⟨by decide, by decide⟩, by decide +kernel, by decide +kernel⟩

/-- one variable, one equality 4 x, objective x; MC19 finds the perfect factors 1/4 for the constraint, 1 for the objective, 1 for the
variable; or, of the same quality for an objective 1/4 x: 1/2, 8, 1/2. -/
def demoD1 : Dims := ⟨1, 1, 0, [(1, 1)], []⟩
/-- the exponential function on two logarithms. -/
def demoExp : Bool → ℚ := fun b => if b then 1 / 2 else 8
/-- its answer. -/
def demoMc : Nat → List (Nat × Nat × ℚ) → (Nat → Bool) × (Nat → Bool) := fun _ _ => (fun _ => true, fun i => decide (i = 0))
/-- Jacobian 4, gradient 1/4. -/
def demoEv : Nat → Option (Nat → ℚ) := fun _ => some fun i => [4, 1 / 4].getD i 0
/-- the factors. -/
def demoPar : Params ℚ := ⟨8, [1 / 2], [1 / 2], []⟩

theorem demo_exp_pos (l : Bool) : 0 < demoExp l := by cases l <;> decide +kernel

/-- The matrix is perfectly equilibrated by the numbers of MC19 (all elements become 1), but the scaled Jacobian is 4, as without scaling. -/
theorem equilibration_wrong : (params demoD1 demoEv demoMc demoExp).map (fun p => (p.df, p.dx, p.dc, p.dd)) = some (8, [1 / 2], [1 / 2], []) ∧
    (toMc19 demoD1 (average [fun i => [4, 1 / 4].getD i 0, fun i => [4, 1 / 4].getD i 0, fun i => [4, 1 / 4].getD i 0, fun i => [(4 : ℚ), 1 / 4].getD i 0])).2 =
      [(1, 1, 4), (1, 2, 1 / 4)] ∧
    ((1 / 2 : ℚ) * 4 * (1 / 2) = 1 ∧ (8 : ℚ) * (1 / 4) * (1 / 2) = 1) ∧
    |ent (Scaling.scaleJac (demoPar.scal 1).jacC (.genT 1 1 [⟨1, 1, 4⟩])) 0 0| = 4 := by
  have hp : (params demoD1 demoEv demoMc demoExp).map (fun p => (p.df, p.dx, p.dc, p.dd)) = some (8, [1 / 2], [1 / 2], []) := by decide +kernel
  refine ⟨hp, by decide +kernel, by norm_num, ?_⟩
  have h : params demoD1 demoEv demoMc demoExp = some demoPar := by
    cases hq : params demoD1 demoEv demoMc demoExp with
    | none => rw [hq] at hp; simp at hp
    | some q =>
      rw [hq] at hp
      simp only [Option.map_some, Option.some.injEq, Prod.mk.injEq] at hp
      obtain ⟨a, b, c, e⟩ := hp
      cases q
      simp only at a b c e
      subst a b c e
      rfl
  have := not_equilibrated_partial demoD1 demoEv demoMc demoExp demo_exp_pos h 1 (.genT 1 1 [⟨1, 1, 4⟩]) (r := 0) (c := 0) (by decide) (by decide)
    (by simp [demoPar, ent]; norm_num)
  rw [this]
  simp [demoPar]; norm_num

end Verif.Equil
