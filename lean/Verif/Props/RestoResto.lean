import Verif.Model.RestoResto
import Verif.Props.RestoInit

/-! # C82: the restoration phase inside the restoration phase -/

namespace Verif.RestoResto
open Verif.RestoNLP
open Verif.RestoInit (Positive barrier)
open scoped BigOperators
set_option linter.unusedSectionVars false
set_option linter.unusedSimpArgs false
set_option linter.unusedVariables false

section
variable {K : Type} [Field K] [LinearOrder K] [IsStrictOrderedRing K] {X C D Z : Type} [Fintype X] [Fintype C] [Fintype D]

/-- It fails exactly if the original constraints cannot be evaluated at the current point. -/
theorem resto_resto_fails (sqrt : K → K) (R : Resto K X C D) (mu : K) (cur : Iter K X C D Z) :
    perform sqrt R mu cur = none ↔ R.orig.c cur.v.x = none ∨ R.orig.d cur.v.x = none := by
  unfold perform
  cases R.orig.c cur.v.x with
  | none => simp
  | some c => cases R.orig.d cur.v.x <;> simp

/-- The trial point keeps the original variables, the slacks and all multipliers, satisfies the constraints of the restoration problem
exactly, has positive relaxation variables, and for each pair of them `μ/n + μ/p = 2ρ`. -/
theorem resto_resto_point (sqrt : K → K) (hs : ∀ a, 0 ≤ a → 0 ≤ sqrt a ∧ sqrt a * sqrt a = a) (R : Resto K X C D) {mu : K} (hr : 0 < R.rho) (hmu : 0 < mu)
    {cur new : Iter K X C D Z} (h : perform sqrt R mu cur = some new) :
    new.v.x = cur.v.x ∧ new.s = cur.s ∧ new.mult = cur.mult ∧ Positive new.v ∧ R.c new.v = some (fun _ => 0) ∧ R.d new.v = some new.s ∧
    (∀ i, mu / new.v.nc i + mu / new.v.pc i = 2 * R.rho) ∧ ∀ i, mu / new.v.nd i + mu / new.v.pd i = 2 * R.rho := by
  unfold perform at h
  cases hc : R.orig.c cur.v.x with
  | none => rw [hc] at h; simp at h
  | some c =>
    cases hd : R.orig.d cur.v.x with
    | none => rw [hc, hd] at h; simp at h
    | some d =>
      rw [hc, hd] at h
      simp only [Option.some.injEq] at h
      subst h
      have hP : ∀ c, 0 < newN sqrt mu R.rho c ∧ 0 < newP sqrt mu R.rho c := fun c => RestoInit.np_pos sqrt hs mu R.rho c hmu hr
      have hR : ∀ c, mu / newN sqrt mu R.rho c + mu / newP sqrt mu R.rho c = 2 * R.rho := by
        intro c
        have h1 := (hP c).1.ne'
        have h2 := (hP c).2.ne'
        have : 2 * R.rho * (newN sqrt mu R.rho c * newP sqrt mu R.rho c) = mu * (newN sqrt mu R.rho c + newP sqrt mu R.rho c) := RestoInit.np_rel sqrt hs mu R.rho c hr
        field_simp
        linarith
      refine ⟨rfl, rfl, rfl, ⟨fun i => (hP _).1, fun i => (hP _).2, fun i => (hP _).1, fun i => (hP _).2⟩, ?_, ?_, fun i => hR _, fun i => hR _⟩
      · unfold Resto.c
        dsimp only
        rw [hc]
        simp only [Option.map_some, Option.some.injEq]
        funext i
        unfold newP
        ring
      · unfold Resto.d
        dsimp only
        rw [hd]
        simp only [Option.map_some, Option.some.injEq]
        funext i
        unfold newP
        ring

/-- Doing it again changes nothing. -/
theorem resto_resto_twice (sqrt : K → K) (R : Resto K X C D) (mu : K) {cur new : Iter K X C D Z} (h : perform sqrt R mu cur = some new) :
    perform sqrt R mu new = some new := by
  unfold perform at h ⊢
  cases hc : R.orig.c cur.v.x with
  | none => rw [hc] at h; simp at h
  | some c =>
    cases hd : R.orig.d cur.v.x with
    | none => rw [hc, hd] at h; simp at h
    | some d =>
      rw [hc, hd] at h
      simp only [Option.some.injEq] at h
      subst h
      dsimp only
      rw [hc, hd]

end

section
variable {X C D Z : Type} [Fintype X] [Fintype C] [Fintype D] [DecidableEq X] [DecidableEq C] [DecidableEq D]

/-- The barrier function of the restoration problem: objective minus `μ` times the logarithms of the relaxation variables; the logarithms for the
bounds of the original variables and slacks are `rest`. -/
noncomputable def barrierFunction (pow : ℝ → ℝ) (R : Resto ℝ X C D) (mu : ℝ) (rest : (X → ℝ) → (D → ℝ) → ℝ) (it : Iter ℝ X C D Z) : Option ℝ :=
  (R.f Real.sqrt pow it.v mu).map fun f =>
    f - mu * (∑ i, Real.log (it.v.nc i) + ∑ i, Real.log (it.v.pc i) + ∑ i, Real.log (it.v.nd i) + ∑ i, Real.log (it.v.pd i)) + rest it.v.x it.s

/-- Among all points with the same original variables and slacks that satisfy the constraints, with positive relaxation variables, the trial point
has the smallest value of the barrier function. -/
theorem resto_resto_minimizes (pow : ℝ → ℝ) (R : Resto ℝ X C D) {mu : ℝ} (hr : 0 < R.rho) (hmu : 0 < mu) (rest : (X → ℝ) → (D → ℝ) → ℝ)
    {cur new other : Iter ℝ X C D Z} (h : perform Real.sqrt R mu cur = some new) (hx : other.v.x = cur.v.x) (hs : other.s = cur.s) (hv : Positive other.v)
    (hvc : R.c other.v = some (fun _ => 0)) (hvd : R.d other.v = some other.s) {a b : ℝ} (ha : barrierFunction pow R mu rest new = some a)
    (hb : barrierFunction pow R mu rest other = some b) : a ≤ b := by
  have hsq : ∀ a : ℝ, 0 ≤ a → 0 ≤ Real.sqrt a ∧ Real.sqrt a * Real.sqrt a = a := fun a ha => ⟨Real.sqrt_nonneg a, Real.mul_self_sqrt ha⟩
  obtain ⟨p1, p2, -, p4, p5, p6, p7, p8⟩ := resto_resto_point Real.sqrt hsq R hr hmu h
  have hcn : ∀ i, other.v.pc i - other.v.nc i = new.v.pc i - new.v.nc i := by
    intro i
    unfold Resto.c at hvc p5
    rw [hx, ← p1] at hvc
    cases hc : R.orig.c new.v.x with
    | none => rw [hc] at hvc; simp at hvc
    | some c =>
      rw [hc] at hvc p5
      simp only [Option.map_some, Option.some.injEq] at hvc p5
      have e1 := congrFun hvc i
      have e2 := congrFun p5 i
      linarith
  have hdn : ∀ i, other.v.pd i - other.v.nd i = new.v.pd i - new.v.nd i := by
    intro i
    unfold Resto.d at hvd p6
    rw [hx, ← p1] at hvd
    cases hd : R.orig.d new.v.x with
    | none => rw [hd] at hvd; simp at hvd
    | some d =>
      rw [hd] at hvd p6
      simp only [Option.map_some, Option.some.injEq] at hvd p6
      have e1 := congrFun hvd i
      have e2 := congrFun p6 i
      rw [hs, ← p2] at e1
      linarith
  have rel : ∀ n p : ℝ, 0 < n → 0 < p → mu / n + mu / p = 2 * R.rho → 2 * R.rho * (n * p) = mu * (n + p) := by
    intro n p hn hp he
    rw [← he]; field_simp; ring
  have hC := Finset.sum_le_sum fun i (_ : i ∈ (Finset.univ : Finset C)) =>
    RestoInit.pair_min R.rho mu _ _ _ _ hmu (p4.1 i) (p4.2.1 i) (hv.1 i) (hv.2.1 i) (rel _ _ (p4.1 i) (p4.2.1 i) (p7 i)) (hcn i)
  have hD := Finset.sum_le_sum fun i (_ : i ∈ (Finset.univ : Finset D)) =>
    RestoInit.pair_min R.rho mu _ _ _ _ hmu (p4.2.2.1 i) (p4.2.2.2 i) (hv.2.2.1 i) (hv.2.2.2 i) (rel _ _ (p4.2.2.1 i) (p4.2.2.2 i) (p8 i)) (hdn i)
  simp only [Finset.sum_sub_distrib, ← Finset.mul_sum, Finset.sum_add_distrib] at hC hD
  unfold barrierFunction Resto.f at ha hb
  dsimp only at ha hb
  unfold X5.sum at ha hb
  rw [hx, hs, ← p1, ← p2] at hb
  by_cases he : R.evalOrig = true
  · rw [if_pos he] at ha hb
    cases hf : R.orig.f new.v.x with
    | none => rw [hf] at ha; simp at ha
    | some f =>
      rw [hf] at ha hb
      simp only [Option.map_some, Option.some.injEq] at ha hb
      rw [← ha, ← hb]
      nlinarith
  · rw [if_neg he] at ha hb
    simp only [Option.map_some, Option.some.injEq] at ha hb
    rw [← ha, ← hb]
    nlinarith

end

/-! ### The hypotheses are met -/

/-- one variable, constraints `x = 0` and `4 ≤ x²` with slack, at `x = 3`. -/
noncomputable def exR : Resto ℝ Unit Unit Unit :=
  Resto.new ⟨fun _ => some 0, fun x => some fun _ => x (), fun x => some fun _ => x () ^ 2, fun _ => none, fun _ => none, fun _ _ _ _ => none⟩ 1000 1 true (fun _ => 3)

@[inherit_doc exR] noncomputable def exIt : Iter ℝ Unit Unit Unit ℝ := ⟨⟨fun _ => 3, fun _ => 1, fun _ => 1, fun _ => 2, fun _ => 1⟩, fun _ => 5, 7⟩

theorem ex_perform : ∃ new, perform Real.sqrt exR (1 / 10) exIt = some new ∧ ∃ a, barrierFunction (fun m => m) exR (1 / 10) (fun _ _ => 0) new = some a := by
  refine ⟨_, rfl, ?_⟩
  unfold barrierFunction Resto.f
  simp [exR, Resto.new]

/-- another feasible point with the same `x` and `s`. -/
theorem ex_other : Positive (⟨fun _ => 3, fun _ => 1, fun _ => 4, fun _ => 1, fun _ => 5⟩ : X5 ℝ Unit Unit Unit) ∧
    exR.c ⟨fun _ => 3, fun _ => 1, fun _ => 4, fun _ => 1, fun _ => 5⟩ = some (fun _ => 0) ∧ exR.d ⟨fun _ => 3, fun _ => 1, fun _ => 4, fun _ => 1, fun _ => 5⟩ = some exIt.s := by
  refine ⟨⟨fun _ => ?_, fun _ => ?_, fun _ => ?_, fun _ => ?_⟩, ?_, ?_⟩
  · norm_num
  · norm_num
  · norm_num
  · norm_num
  · simp only [exR, Resto.new, Resto.c, Option.map_some, Option.some.injEq]; funext i; norm_num
  · simp only [exR, Resto.new, Resto.d, Option.map_some, Option.some.injEq, exIt]; funext i; norm_num

end Verif.RestoResto
