import Verif.Model.GradScaling
import Mathlib.Algebra.Order.Field.Basic
import Mathlib.Algebra.Order.Field.Rat
import Mathlib.Algebra.Order.Group.Abs
import Mathlib.Tactic.Linarith
import Mathlib.Tactic.NormNum
import Mathlib.Tactic.Positivity
import Mathlib.Data.List.GetD

set_option linter.unusedSectionVars false
set_option linter.unusedVariables false
set_option linter.unusedSimpArgs false

/-! # C53: gradient-based scaling -/

namespace Verif.GradScaling
open Verif.Matrix

variable {K : Type} [Field K] [LinearOrder K] [IsStrictOrderedRing K]

theorem foldl_max_le (v : List K) : ∀ (m b : K), v.foldl (fun m x => max m (Scaling.nabs x)) m ≤ b ↔ m ≤ b ∧ ∀ x ∈ v, |x| ≤ b := by
  induction v with
  | nil => simp
  | cons a v ih =>
    intro m b
    simp only [List.foldl_cons, ih, max_le_iff, List.mem_cons, forall_eq_or_imp]
    constructor
    · rintro ⟨⟨h1, h2⟩, h3⟩; exact ⟨h1, h2, h3⟩
    · rintro ⟨h1, h2, h3⟩; exact ⟨⟨h1, h2⟩, h3⟩

theorem amax_le {v : List K} {b : K} (hb : 0 ≤ b) : amax v ≤ b ↔ ∀ x ∈ v, |x| ≤ b := by
  unfold amax; rw [foldl_max_le]; simp [hb]

theorem amax_nonneg (v : List K) : 0 ≤ amax v := ((foldl_max_le v 0 (amax v)).1 (le_refl _)).1

theorem le_amax {v : List K} {x : K} (hx : x ∈ v) : |x| ≤ amax v := ((foldl_max_le v 0 (amax v)).1 (le_refl _)).2 x hx

/-- options within their registered ranges, without target gradients (the default). -/
structure OptOK (o : Opt K) : Prop where
  mg : 0 < o.maxGrad
  mv : 0 ≤ o.minValue
  dm : 0 < o.dblMin

/-- C53: the objective factor.  Without a target gradient it is 1 if no component of the gradient at the starting point exceeds
nlp_scaling_max_gradient in absolute value and nlp_scaling_min_value is at most 1; otherwise the scaled gradient is bounded by
nlp_scaling_max_gradient, unless the factor is the smallest allowed one. -/
theorem objective_factor (o : Opt K) (ho : OptOK o) (hm : o.minValue ≤ 1) (ht : o.objTarget = 0) (g : List K) :
    let df := objFactor o (some g)
    0 < df ∧ df ≤ 1 ∧ o.minValue ≤ df ∧
    ((∀ x ∈ g, |x| ≤ o.maxGrad) → df = 1) ∧
    (df = o.minValue ∨ ∀ x ∈ g, |df * x| ≤ o.maxGrad) := by
  intro df
  have hdf : df = max (if o.maxGrad < amax g then o.maxGrad / amax g else 1) o.minValue := by
    simp [df, objFactor, ht]
  by_cases hc : o.maxGrad < amax g
  · rw [if_pos hc] at hdf
    have hpos : 0 < amax g := lt_trans ho.mg hc
    have hq : 0 < o.maxGrad / amax g := div_pos ho.mg hpos
    have hq1 : o.maxGrad / amax g ≤ 1 := (div_le_one hpos).2 hc.le
    refine ⟨hdf ▸ lt_max_of_lt_left hq, hdf ▸ max_le hq1 hm, hdf ▸ le_max_right _ _, ?_, ?_⟩
    · intro h
      exact absurd ((amax_le ho.mg.le).2 h) (not_le.2 hc)
    · rcases le_total (o.maxGrad / amax g) o.minValue with h | h
      · left; rw [hdf, max_eq_right h]
      · right
        intro x hx
        rw [hdf, max_eq_left h, abs_mul, abs_of_pos hq]
        have := le_amax hx
        calc o.maxGrad / amax g * |x| ≤ o.maxGrad / amax g * amax g := mul_le_mul_of_nonneg_left this hq.le
          _ = o.maxGrad := div_mul_cancel₀ _ (ne_of_gt hpos)
  · rw [if_neg hc] at hdf
    rw [max_eq_left hm] at hdf
    rw [hdf]
    refine ⟨one_pos, le_refl _, hm, fun _ => rfl, Or.inr ?_⟩
    intro x hx
    rw [one_mul]
    exact le_trans (le_amax hx) (not_lt.1 hc)

/-- C53: with a positive target the largest component of the scaled gradient is the target, unless the gradient is zero or the factor
is the smallest allowed one. -/
theorem objective_target (o : Opt K) (ho : OptOK o) (ht : 0 < o.objTarget) (g : List K) :
    let df := objFactor o (some g)
    df = o.minValue ∨ (∀ x ∈ g, x = 0) ∨ ((∀ x ∈ g, |df * x| ≤ o.objTarget) ∧ df * amax g = o.objTarget) := by
  intro df
  have hdf : df = max (if amax g = 0 then 1 else o.objTarget / amax g) o.minValue := by
    simp [df, objFactor, ht.ne']
  by_cases hz : amax g = 0
  · right; left
    intro x hx
    have := le_amax hx
    rw [hz] at this
    exact abs_nonpos_iff.1 this
  · rw [if_neg hz] at hdf
    have hpos : 0 < amax g := lt_of_le_of_ne (amax_nonneg g) (Ne.symm hz)
    have hq : 0 < o.objTarget / amax g := div_pos ht hpos
    rcases le_total (o.objTarget / amax g) o.minValue with h | h
    · left; rw [hdf, max_eq_right h]
    · right; right
      rw [hdf, max_eq_left h]
      refine ⟨fun x hx => ?_, div_mul_cancel₀ _ (ne_of_gt hpos)⟩
      rw [abs_mul, abs_of_pos hq]
      calc o.objTarget / amax g * |x| ≤ o.objTarget / amax g * amax g := mul_le_mul_of_nonneg_left (le_amax hx) hq.le
        _ = o.objTarget := div_mul_cancel₀ _ (ne_of_gt hpos)

theorem rowAMax_length (ts : List (Trip K)) : ∀ v : List K, (rowAMax ts v).length = v.length := by
  induction ts with
  | nil => intro v; rfl
  | cons t ts ih => intro v; show (rowAMax ts _).length = _; rw [ih]; simp

theorem getD_modify' (l : List K) (k i : Nat) (f : K → K) (hi : i < l.length) :
    (l.modify k f).getD i 0 = if k = i then f (l.getD i 0) else l.getD i 0 := by
  simp only [List.getD_eq_getElem?_getD, List.getElem?_modify]
  rw [List.getElem?_eq_getElem hi]
  split <;> simp_all

/-- row maxima: at least the initial value and every nonzero of the row, and equal to one of them. -/
theorem rowAMax_spec (ts : List (Trip K)) (hw : ∀ t ∈ ts, 1 ≤ t.row) : ∀ (v : List K) (i : Nat), i < v.length → ∀ b,
    ((rowAMax ts v).getD i 0 ≤ b ↔ v.getD i 0 ≤ b ∧ ∀ t ∈ ts, t.row = i + 1 → |t.val| ≤ b) := by
  induction ts with
  | nil => intro v i hi b; simp [rowAMax]
  | cons t ts ih =>
    intro v i hi b
    have h1 := hw t (by simp)
    show (rowAMax ts (v.modify (t.row - 1) _)).getD i 0 ≤ b ↔ _
    rw [ih (fun t ht => hw t (by simp [ht])) _ i (by simpa using hi), getD_modify' _ _ _ _ hi]
    by_cases he : t.row - 1 = i
    · have he' : t.row = i + 1 := by omega
      rw [if_pos he]
      simp only [max_le_iff, List.mem_cons, forall_eq_or_imp, he', true_implies]
      constructor
      · rintro ⟨⟨a, b⟩, c⟩; exact ⟨a, b, c⟩
      · rintro ⟨a, b, c⟩; exact ⟨⟨a, b⟩, c⟩
    · have he' : ¬ t.row = i + 1 := by omega
      rw [if_neg he]
      simp only [List.mem_cons, forall_eq_or_imp, he', false_implies, true_and]

/-- C53: the constraint factors without target gradient.  If no nonzero of the Jacobian at the starting point exceeds
nlp_scaling_max_gradient, the constraints are not scaled.  Otherwise there is one factor per constraint, between 0 and 1; rows without large
nonzeros are not scaled, and scaled rows are bounded by nlp_scaling_max_gradient unless the factor is the smallest allowed one. -/
theorem constraint_factors (o : Opt K) (ho : OptOK o) (hm : o.minValue ≤ 1) (ht : o.constrTarget ≤ 0) (hd : o.dblMin ≤ o.maxGrad)
    (m : Nat) (ts : List (Trip K)) (hw : ∀ t ∈ ts, 1 ≤ t.row ∧ t.row ≤ m) :
    (rowFactors o m (some ts) = none ↔ ∀ t ∈ ts, |t.val| ≤ o.maxGrad) ∧
    ∀ l, rowFactors o m (some ts) = some l → l.length = m ∧ ∀ i, i < m →
      0 < l.getD i 0 ∧ l.getD i 0 ≤ 1 ∧ (0 < o.minValue → o.minValue ≤ l.getD i 0) ∧
      ((∀ t ∈ ts, t.row = i + 1 → |t.val| ≤ o.maxGrad) → l.getD i 0 = 1) ∧
      (l.getD i 0 = o.minValue ∨ ∀ t ∈ ts, t.row = i + 1 → |l.getD i 0 * t.val| ≤ o.maxGrad) := by
  rcases Nat.eq_zero_or_pos m with hm0 | hmp
  · subst hm0
    have hts : ts = [] := by
      cases ts with
      | nil => rfl
      | cons t ts => have := hw t (by simp); omega
    subst hts
    simp [rowFactors]
  have hspec := rowAMax_spec ts (fun t ht => (hw t ht).1) (List.replicate m o.dblMin)
  generalize hdc : rowAMax ts (List.replicate m o.dblMin) = dc at *
  have hlen : dc.length = m := by rw [← hdc, rowAMax_length]; simp
  have hrep : ∀ i, i < m → (List.replicate m o.dblMin).getD i 0 = o.dblMin := by
    intro i hi; simp [List.getD_eq_getElem?_getD, List.getElem?_replicate, hi]
  have hsp : ∀ i, i < m → ∀ b, (dc.getD i 0 ≤ b ↔ o.dblMin ≤ b ∧ ∀ t ∈ ts, t.row = i + 1 → |t.val| ≤ b) := by
    intro i hi b
    rw [hspec i (by simpa using hi) b, hrep i hi]
  have hposdc : ∀ i, i < m → 0 < dc.getD i 0 := fun i hi => lt_of_lt_of_le ho.dm ((hsp i hi _).1 (le_refl _)).1
  have hge : ∀ i, i < m → ∀ t ∈ ts, t.row = i + 1 → |t.val| ≤ dc.getD i 0 := fun i hi => ((hsp i hi _).1 (le_refl _)).2
  have hmem : ∀ i, i < m → dc.getD i 0 ∈ dc := by
    intro i hi
    have : dc.getD i 0 = dc[i]'(by omega) := by simp [List.getD_eq_getElem?_getD, hlen, hi]
    rw [this]; exact List.getElem_mem _
  have hall : amax dc ≤ o.maxGrad ↔ ∀ t ∈ ts, |t.val| ≤ o.maxGrad := by
    rw [amax_le ho.mg.le]
    constructor
    · intro h t htm
      obtain ⟨a, b⟩ := hw t htm
      have hi : t.row - 1 < m := by omega
      have h1 := h _ (hmem (t.row - 1) hi)
      rw [abs_of_pos (hposdc _ hi)] at h1
      exact le_trans (hge _ hi t htm (by omega)) h1
    · intro h x hx
      obtain ⟨i, hi, rfl⟩ := List.getElem_of_mem hx
      have hi' : i < m := by omega
      have e : dc.getD i 0 = dc[i] := by simp [List.getD_eq_getElem?_getD, hi]
      rw [← e, abs_of_pos (hposdc i hi'), hsp i hi']
      exact ⟨hd, fun t ht _ => h t ht⟩
  have hrf : rowFactors o m (some ts) = if o.maxGrad < amax dc then
      some (if 0 < o.minValue then (dc.map (fun a => min (o.maxGrad * (1 / a)) 1)).map (fun a => max a o.minValue)
        else dc.map (fun a => min (o.maxGrad * (1 / a)) 1)) else none := by
    simp only [rowFactors, if_pos hmp, hdc, if_pos ht]
    by_cases h1 : o.maxGrad < amax dc <;> by_cases h2 : 0 < o.minValue <;> simp [h1, h2]
  refine ⟨?_, ?_⟩
  · rw [hrf, ← hall]
    by_cases h1 : o.maxGrad < amax dc
    · simp [h1]
    · simp [h1, not_lt.1 h1]
  · intro l hl
    rw [hrf] at hl
    by_cases h1 : o.maxGrad < amax dc
    swap
    · simp [h1] at hl
    rw [if_pos h1, Option.some.injEq] at hl
    have hgetl : ∀ i, i < m → l.getD i 0 = if 0 < o.minValue then max (min (o.maxGrad / dc.getD i 0) 1) o.minValue
        else min (o.maxGrad / dc.getD i 0) 1 := by
      intro i hi
      have hi' : i < dc.length := by omega
      rw [← hl]
      by_cases h2 : 0 < o.minValue
      · simp [h2, List.getD_eq_getElem?_getD, hi', div_eq_mul_inv]
      · simp [h2, List.getD_eq_getElem?_getD, hi', div_eq_mul_inv]
    have hll : l.length = m := by
      rw [← hl]; split <;> simp [hlen]
    refine ⟨hll, fun i hi => ?_⟩
    have hp := hposdc i hi
    have hq : 0 < min (o.maxGrad / dc.getD i 0) 1 := lt_min (div_pos ho.mg hp) one_pos
    rw [hgetl i hi]
    have key : ∀ t ∈ ts, t.row = i + 1 → |min (o.maxGrad / dc.getD i 0) 1 * t.val| ≤ o.maxGrad := by
      intro t ht hr
      rw [abs_mul, abs_of_pos hq]
      calc min (o.maxGrad / dc.getD i 0) 1 * |t.val| ≤ (o.maxGrad / dc.getD i 0) * dc.getD i 0 :=
            mul_le_mul (min_le_left _ _) (hge i hi t ht hr) (abs_nonneg _) (div_pos ho.mg hp).le
        _ = o.maxGrad := div_mul_cancel₀ _ (ne_of_gt hp)
    have one : (∀ t ∈ ts, t.row = i + 1 → |t.val| ≤ o.maxGrad) → min (o.maxGrad / dc.getD i 0) 1 = 1 := by
      intro h
      apply min_eq_right
      rw [le_div_iff₀ hp, one_mul]
      exact (hsp i hi _).2 ⟨hd, h⟩
    by_cases h2 : 0 < o.minValue
    · rw [if_pos h2]
      refine ⟨lt_max_of_lt_left hq, max_le (min_le_right _ _) hm, fun _ => le_max_right _ _, ?_, ?_⟩
      · intro h; rw [one h, max_eq_left hm]
      · rcases le_total (min (o.maxGrad / dc.getD i 0) 1) o.minValue with h | h
        · left; exact max_eq_right h
        · right; rw [max_eq_left h]; exact key
    · rw [if_neg h2]
      exact ⟨hq, min_le_right _ _, fun h => absurd h h2, one, Or.inr key⟩

/-- C53: a failed evaluation at the starting point leaves the functions unscaled. -/
theorem failed_evaluation_unscaled (o : Opt K) (m : Nat) : objFactor o none = 1 ∧ rowFactors o m none = none := by
  constructor
  · rfl
  · unfold rowFactors; split <;> rfl

/-- C53: with a target for the constraints all constraints get one common factor, so that only the largest row reaches the target. -/
theorem constraint_target_common_factor (o : Opt K) (ht : 0 < o.constrTarget) (m : Nat) (ts : List (Trip K)) (l : List K)
    (hl : rowFactors o m (some ts) = some l) : ∃ a, l = List.replicate m a := by
  have hlen : (rowAMax ts (List.replicate m o.dblMin)).length = m := by rw [rowAMax_length]; simp
  simp only [rowFactors] at hl
  split at hl
  · rw [if_neg (not_le.2 ht)] at hl
    split at hl
    · simp at hl
      exact ⟨_, by rw [← hl, hlen]⟩
    · simp at hl
      exact ⟨_, by rw [← hl, hlen]⟩
  · simp at hl

/-- two constraints, gradients (1000, 1) and (3): factors (1/10, 1) with the default options. -/
example : rowFactors (N := ℚ) ⟨100, 0, 0, 1 / 100000000, 1 / 10 ^ 300⟩ 2 (some [⟨1, 1, 1000⟩, ⟨2, 1, -3⟩, ⟨1, 2, 1⟩]) = some [1 / 10, 1] := by
  decide +kernel

example : objFactor (N := ℚ) ⟨100, 0, 0, 1 / 100000000, 1 / 10 ^ 300⟩ (some [400, -3]) = 1 / 4 := by decide +kernel

/-- the default options meet the hypotheses. -/
example : OptOK (⟨100, 0, 0, 1 / 100000000, 1 / 10 ^ 300⟩ : Opt ℚ) := ⟨by norm_num, by norm_num, by norm_num⟩

end Verif.GradScaling
