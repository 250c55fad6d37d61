import Verif.Proof.Scaling3
import Mathlib.Algebra.Order.Field.Rat
import Mathlib.Algebra.Order.Group.Abs
import Mathlib.Tactic.NormNum

set_option linter.unusedSectionVars false
set_option linter.unusedVariables false
set_option linter.unusedSimpArgs false

/-! # C52: bound relaxation and the projection of the final point -/

namespace Verif.Scaling
open Verif.Matrix Finset

variable {K : Type} [Field K] [LinearOrder K] [IsStrictOrderedRing K]

theorem nabs_eq (v : K) : nabs v = |v| := rfl

/-- the documented relaxation: bound_relax_factor * max(1, |bound|), but at most constr_viol_tol. -/
def relaxAmount (brf cvt b : K) : K := min cvt (brf * max 1 |b|)

/-- C52: every bound is relaxed outwards by exactly the documented amount. -/
theorem relax_amount (brf cvt b : K) (hb : 0 ≤ brf) :
    relaxOne true brf cvt b = b - relaxAmount brf cvt b ∧ relaxOne false brf cvt b = b + relaxAmount brf cvt b := by
  have : min (max (brf * nabs b) brf) cvt = relaxAmount brf cvt b := by
    unfold relaxAmount
    rw [nabs_eq, min_comm, mul_max_of_nonneg _ _ hb, mul_one, max_comm]
  simp only [relaxOne, this, if_true, Bool.false_eq_true, if_false]
  constructor <;> ring

/-- C52: relaxed bounds never exclude a point the original bounds admit, and are violated by at most constr_viol_tol. -/
theorem relax_outward (brf cvt b : K) (hb : 0 ≤ brf) (hc : 0 ≤ cvt) :
    relaxOne true brf cvt b ≤ b ∧ b ≤ relaxOne false brf cvt b ∧ b - cvt ≤ relaxOne true brf cvt b ∧
      relaxOne false brf cvt b ≤ b + cvt := by
  obtain ⟨h1, h2⟩ := relax_amount brf cvt b hb
  have h3 : 0 ≤ relaxAmount brf cvt b := le_min hc (mul_nonneg hb (le_trans zero_le_one (le_max_left _ _)))
  have h4 : relaxAmount brf cvt b ≤ cvt := min_le_left _ _
  rw [h1, h2]
  refine ⟨by linarith, by linarith, by linarith, by linarith⟩

section
variable {r : Nat} {posL posU : List Nat}

/-- components of the projected point. -/
theorem clipX_get {hom : List K → Option K} (hh : HomOK hom) (hL : ∀ i ∈ posL, i < r) (hU : ∀ i ∈ posU, i < r) (nL : posL.Nodup)
    (nU : posU.Nodup) (oL oU x : List K) (lL : oL.length = posL.length) (lU : oU.length = posU.length) (lx : x.length = r) :
    let w := clipX hom true true (.expansion r posL) (.expansion r posU) oL oU x
    let x1 := if 0 < posL.length then clipSide hom (.expansion r posL) max oL x else x
    x1.length = r ∧ w.length = r ∧
    (∀ i, i < r → i ∉ posL → x1.getD i 0 = x.getD i 0) ∧
    (∀ k, k < posL.length → x1.getD (posL.getD k 0) 0 = max (x.getD (posL.getD k 0) 0) (oL.getD k 0)) ∧
    (∀ i, i < r → i ∉ posU → w.getD i 0 = x1.getD i 0) ∧
    (∀ k, k < posU.length → w.getD (posU.getD k 0) 0 = min (x1.getD (posU.getD k 0) 0) (oU.getD k 0)) := by
  intro w x1
  have hx1 : x1.length = r ∧ (∀ i, i < r → i ∉ posL → x1.getD i 0 = x.getD i 0) ∧
      (∀ k, k < posL.length → x1.getD (posL.getD k 0) 0 = max (x.getD (posL.getD k 0) 0) (oL.getD k 0)) := by
    by_cases h0 : 0 < posL.length
    · simp only [x1, if_pos h0]
      exact clipSide_ok hh hL nL max oL x lL lx
    · simp only [x1, if_neg h0]
      exact ⟨lx, by simp, fun k hk => by omega⟩
  have hw : w = if 0 < posU.length then clipSide hom (.expansion r posU) min oU x1 else x1 := by
    simp only [w, clipX, Mat.dims, Bool.true_and]
    by_cases h0 : 0 < posL.length <;> by_cases h1 : 0 < posU.length <;> simp [h0, h1, x1]
  have hw2 : w.length = r ∧ (∀ i, i < r → i ∉ posU → w.getD i 0 = x1.getD i 0) ∧
      (∀ k, k < posU.length → w.getD (posU.getD k 0) 0 = min (x1.getD (posU.getD k 0) 0) (oU.getD k 0)) := by
    rw [hw]
    by_cases h0 : 0 < posU.length
    · rw [if_pos h0]
      exact clipSide_ok hh hU nU min oU x1 lU hx1.1
    · rw [if_neg h0]
      exact ⟨hx1.1, fun _ _ _ => rfl, fun k hk => by omega⟩
  exact ⟨hx1.1, hw2.1, hx1.2.1, hx1.2.2, hw2.2.1, hw2.2.2⟩

/-- C52: with honor_original_bounds and a positive bound_relax_factor, the point reported to the user satisfies all original variable
bounds (which must be consistent), and variables that satisfied them are reported unchanged. -/
theorem final_x_within_original_bounds {hom : List K → Option K} (hh : HomOK hom) (hL : ∀ i ∈ posL, i < r) (hU : ∀ i ∈ posU, i < r)
    (nL : posL.Nodup) (nU : posU.Nodup) (oL oU x : List K) (lL : oL.length = posL.length) (lU : oU.length = posU.length)
    (lx : x.length = r) (hc : ∀ k l, k < posL.length → l < posU.length → posL.getD k 0 = posU.getD l 0 → oL.getD k 0 ≤ oU.getD l 0) :
    let w := clipX hom true true (.expansion r posL) (.expansion r posU) oL oU x
    w.length = r ∧
    (∀ k, k < posL.length → oL.getD k 0 ≤ w.getD (posL.getD k 0) 0) ∧
    (∀ k, k < posU.length → w.getD (posU.getD k 0) 0 ≤ oU.getD k 0) ∧
    (∀ i, i < r → (∀ k, k < posL.length → posL.getD k 0 = i → oL.getD k 0 ≤ x.getD i 0) →
      (∀ k, k < posU.length → posU.getD k 0 = i → x.getD i 0 ≤ oU.getD k 0) → w.getD i 0 = x.getD i 0) := by
  intro w
  obtain ⟨_, h2, h3, h4, h5, h6⟩ := clipX_get hh hL hU nL nU oL oU x lL lU lx
  have idx : ∀ {pos : List Nat} {i : Nat}, i ∈ pos → ∃ k, k < pos.length ∧ pos.getD k 0 = i := by
    intro pos i hi
    obtain ⟨k, hk, rfl⟩ := List.getElem_of_mem hi
    exact ⟨k, hk, by simp [List.getD_eq_getElem?_getD, hk]⟩
  refine ⟨h2, fun k hk => ?_, fun k hk => ?_, fun i hi ha hb => ?_⟩
  · have hlt := hL _ (getD_mem hk)
    by_cases hm : posL.getD k 0 ∈ posU
    · obtain ⟨l, hl, he⟩ := idx hm
      show _ ≤ (clipX hom true true _ _ oL oU x).getD _ 0
      rw [← he, h6 l hl, he, h4 k hk]
      exact le_min (le_max_right _ _) (hc k l hk hl he.symm)
    · show _ ≤ (clipX hom true true _ _ oL oU x).getD _ 0
      rw [h5 _ hlt hm, h4 k hk]
      exact le_max_right _ _
  · show (clipX hom true true _ _ oL oU x).getD _ 0 ≤ _
    rw [h6 k hk]
    exact min_le_right _ _
  · show (clipX hom true true _ _ oL oU x).getD _ 0 = _
    have e1 : (if 0 < posL.length then clipSide hom (.expansion r posL) max oL x else x).getD i 0 = x.getD i 0 := by
      by_cases hm : i ∈ posL
      · obtain ⟨k, hk, he⟩ := idx hm
        have := h4 k hk
        rw [he] at this
        rw [this, max_eq_left (ha k hk he)]
      · exact h3 i hi hm
    by_cases hm : i ∈ posU
    · obtain ⟨k, hk, he⟩ := idx hm
      have := h6 k hk
      rw [he, e1] at this
      rw [this, min_eq_left (hb k hk he)]
    · rw [h5 i hi hm, e1]

/-- C52: if the point respected the relaxed bounds, no variable is moved by more than constr_viol_tol. -/
theorem final_x_moved_little {hom : List K → Option K} (hh : HomOK hom) (hL : ∀ i ∈ posL, i < r) (hU : ∀ i ∈ posU, i < r)
    (nL : posL.Nodup) (nU : posU.Nodup) (oL oU x : List K) (lL : oL.length = posL.length) (lU : oU.length = posU.length)
    (lx : x.length = r) (hc : ∀ k l, k < posL.length → l < posU.length → posL.getD k 0 = posU.getD l 0 → oL.getD k 0 ≤ oU.getD l 0)
    (brf cvt : K) (hb : 0 ≤ brf) (hcv : 0 ≤ cvt)
    (hxL : ∀ k, k < posL.length → relaxOne true brf cvt (oL.getD k 0) ≤ x.getD (posL.getD k 0) 0)
    (hxU : ∀ k, k < posU.length → x.getD (posU.getD k 0) 0 ≤ relaxOne false brf cvt (oU.getD k 0)) :
    ∀ i, i < r → |(clipX hom true true (.expansion r posL) (.expansion r posU) oL oU x).getD i 0 - x.getD i 0| ≤ cvt := by
  intro i hi
  obtain ⟨_, h2, h3, h4, h5, h6⟩ := clipX_get hh hL hU nL nU oL oU x lL lU lx
  have idx : ∀ {pos : List Nat} {i : Nat}, i ∈ pos → ∃ k, k < pos.length ∧ pos.getD k 0 = i := by
    intro pos i hi
    obtain ⟨k, hk, rfl⟩ := List.getElem_of_mem hi
    exact ⟨k, hk, by simp [List.getD_eq_getElem?_getD, hk]⟩
  generalize hx1 : (if 0 < posL.length then clipSide hom (.expansion r posL) max oL x else x) = x1 at h3 h4 h5 h6
  have up : ∀ k, k < posL.length → oL.getD k 0 ≤ x.getD (posL.getD k 0) 0 + cvt := fun k hk => by
    have a := (relax_outward brf cvt (oL.getD k 0) hb hcv).2.2.1
    have b := hxL k hk
    linarith
  have dn : ∀ k, k < posU.length → x.getD (posU.getD k 0) 0 - cvt ≤ oU.getD k 0 := fun k hk => by
    have a := (relax_outward brf cvt (oU.getD k 0) hb hcv).2.2.2
    have b := hxU k hk
    linarith
  have e1 : x.getD i 0 ≤ x1.getD i 0 ∧ x1.getD i 0 ≤ x.getD i 0 + cvt := by
    by_cases hm : i ∈ posL
    · obtain ⟨k, hk, he⟩ := idx hm
      have a := h4 k hk
      rw [he] at a
      have b := up k hk
      rw [he] at b
      rw [a]
      exact ⟨le_max_left _ _, max_le (by linarith) b⟩
    · rw [h3 i hi hm]
      exact ⟨le_refl _, by linarith⟩
  rw [abs_le]
  by_cases hm : i ∈ posU
  · obtain ⟨k, hk, he⟩ := idx hm
    have a := h6 k hk
    rw [he] at a
    have b := dn k hk
    rw [he] at b
    rw [a]
    constructor
    · have : x.getD i 0 - cvt ≤ min (x1.getD i 0) (oU.getD k 0) := le_min (by linarith [e1.1]) b
      linarith
    · have : min (x1.getD i 0) (oU.getD k 0) ≤ x1.getD i 0 := min_le_left _ _
      linarith [e1.2]
  · rw [h5 i hi hm]
    constructor <;> linarith [e1.1, e1.2]
end

/-- C52, negation: with bound_relax_factor = 0, honor_original_bounds has no effect, although the bounds can still be moved during the
optimisation (slack correction, `AdjustVariableBounds`). -/
theorem honor_ignored_without_relaxation (hom : List K → Option K) (honor : Bool) (PL PU : Mat K) (oL oU x : List K) :
    clipX hom honor false PL PU oL oU x = x := by
  simp [clipX]

/-- C52, negation: the objective value reported with the projected point is that of the point before the projection. -/
theorem reported_objective_of_unprojected_point :
    let p : Prob ℚ := { nx := 1, nc := 0, nd := 0, f := fun x => x.getD 0 0, gradF := fun _ => [1], c := fun _ => [], d := fun _ => [],
                        jacC := fun _ => .zero 0 1, jacD := fun _ => .zero 0 1, hess := fun _ _ _ _ => .zeroSym 1, posXL := [0],
                        posXU := [], posDL := [], posDU := [] }
    let s : Scal ℚ := determine 1 1 none none none
    let i : Point ℚ := ⟨[-1 / 200], [], [], [1], []⟩
    let fin := finalize p s (fun _ => none) true true [0] [] i [] [] (evalF p s i.x)
    relaxOne true (1 / 100) 1 (0 : ℚ) ≤ i.x.getD 0 0 ∧ fin.pt.x = [0] ∧ fin.obj = -1 / 200 ∧ p.f fin.pt.x ≠ fin.obj := by
  decide +kernel

/-- a concrete case: bounds 1 ≤ x1 ≤ 3, x0 ≤ 5, x2 free; the point (6, 1/2, -7) is projected to (5, 1, -7). -/
example : clipX (fun _ => none) true true (.expansion 3 [1]) (.expansion 3 [0, 1]) [1] [5, 3] [6, 1 / 2, -7] = [5, 1, (-7 : ℚ)] := by
  decide +kernel

/-- the hypotheses of `final_x_within_original_bounds` are met by it. -/
example : (∀ i ∈ [1], i < 3) ∧ (∀ i ∈ [0, 1], i < 3) ∧ [1].Nodup ∧ [0, 1].Nodup ∧
    ∀ k l, k < [1].length → l < [0, 1].length → [1].getD k 0 = [0, 1].getD l 0 → ([1] : List ℚ).getD k 0 ≤ ([5, 3] : List ℚ).getD l 0 := by
  refine ⟨by decide, by decide, by decide, by decide, ?_⟩
  intro k l hk hl h
  have hk0 : k = 0 := by simp at hk; omega
  have hl0 : l = 0 ∨ l = 1 := by simp at hl; omega
  subst hk0
  rcases hl0 with rfl | rfl
  · simp at h
  · simp

end Verif.Scaling
