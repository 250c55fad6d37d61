import Verif.Model.InitPoint
import Verif.Proof.VecOps
import Mathlib.Algebra.Order.Field.Rat
import Mathlib.Tactic.Positivity
import Mathlib.Tactic.NormNum
import Mathlib.Tactic.Ring

/-! # Initial point inside the bounds (C29) -/

set_option linter.unusedSectionVars false
set_option linter.unusedSimpArgs false

namespace Verif.InitPoint

open Verif.VecOps

variable {K : Type} [Field K] [LinearOrder K] [IsStrictOrderedRing K]

/-- Documented distance to the bound `b` of a variable with range `w` (absent: no opposite bound): `bound_push * max(1,|b|)`, but not more
than `bound_frac * w` (less the machine constant `tiny`). -/
def Spec.dist (push frac tiny b : K) (w : Option K) : K :=
  match w with
  | some w => min (push * max 1 |b|) (frac * w - tiny)
  | none => push * max 1 |b|

/-- The range of a variable. -/
def Spec.width (v : Var K) : Option K :=
  match v.lo, v.up with
  | some l, some u => some (u - l)
  | _, _ => none

/-- The smallest allowed initial value, if there is a lower bound. -/
def Spec.low (push frac tiny : K) (v : Var K) : Option K := v.lo.map (fun l => l + Spec.dist push frac tiny l (Spec.width v))

/-- The largest allowed initial value, if there is an upper bound. -/
def Spec.high (push frac tiny : K) (v : Var K) : Option K :=
  v.up.map (fun u => u - Spec.dist push frac tiny u (Spec.width v) - tiny)

/-- The closest value in the interval with the optional ends. -/
def Spec.project (lo up : Option K) (x : K) : K :=
  let y := match up with
    | some u => min x u
    | none => x
  match lo with
  | some l => max l y
  | none => y

/-- Consistent bounds with a range for which the relative margin is meaningful. -/
def Consistent (frac tiny : K) (v : Var K) : Prop := ∀ l u, v.lo = some l → v.up = some u → l ≤ u ∧ tiny < frac * (u - l)

theorem margin_pos_q (push b q : K) (hp : 0 < push) (hq : 0 < q) : margin push b q = min (push * max 1 |b|) q := by
  unfold margin
  have ha : max |push * b| push = push * max 1 |b| := by
    rw [abs_mul, abs_of_pos hp, max_comm, mul_max_of_nonneg _ _ hp.le, mul_one]
  have hpos : 0 < push * max 1 |b| := mul_pos hp (lt_of_lt_of_le one_pos (le_max_left _ _))
  rw [ha]
  rcases le_total (push * max 1 |b|) q with h | h
  · rw [min_eq_left h, max_eq_left (one_div_le_one_div_of_le hpos h), one_div_one_div]
  · rw [min_eq_right h, max_eq_right (one_div_le_one_div_of_le hq h), one_div_one_div]

theorem margin_neg_q (push b q : K) (hp : 0 < push) (hq : q < 0) : margin push b q = push * max 1 |b| := by
  unfold margin
  have ha : max |push * b| push = push * max 1 |b| := by
    rw [abs_mul, abs_of_pos hp, max_comm, mul_max_of_nonneg _ _ hp.le, mul_one]
  have hpos : 0 < push * max 1 |b| := mul_pos hp (lt_of_lt_of_le one_pos (le_max_left _ _))
  rw [ha, max_eq_left, one_div_one_div]
  exact le_trans (one_div_neg.mpr hq).le (one_div_pos.mpr hpos).le

/-- One pass with increments that are never both positive is an elementwise update. -/
theorem pushOnce_eq (push frac tiny : K) (vs : List (Var K)) :
    pushOnce push frac tiny vs = vs.map (fun v => v.x + tmpL push frac tiny v - tmpU push frac tiny v) := by
  unfold pushOnce
  have hz : ∀ (f : Var K → K), (∀ v, 0 ≤ f v) → ¬ 0 < amax (vs.map f) → ∀ v ∈ vs, f v = 0 := by
    intro f hf h v hv
    have h1 := abs_le_amax (v := vs.map f) (List.mem_map_of_mem hv)
    have h2 := le_trans h1 (not_lt.mp h)
    exact abs_eq_zero.mp (le_antisymm h2 (abs_nonneg _))
  have nonL : ∀ v : Var K, 0 ≤ tmpL push frac tiny v := by
    intro v; unfold tmpL
    rcases v.lo with _ | l
    · exact le_rfl
    · simp only; split <;> exact le_max_right _ _
  have nonU : ∀ v : Var K, 0 ≤ tmpU push frac tiny v := by
    intro v; unfold tmpU
    rcases v.up with _ | u
    · exact le_rfl
    · simp only; split <;> exact le_max_right _ _
  have zipmap : ∀ (f g : Var K → K) (h : K → K → K), List.zipWith h (vs.map f) (vs.map g) = vs.map (fun v => h (f v) (g v)) := by
    intro f g h
    rw [List.zipWith_map, List.zipWith_self]
  have zipv : ∀ (f : Var K → K), List.zipWith (fun d (v : Var K) => d + v.x) (vs.map f) vs = vs.map (fun v => f v + v.x) := by
    intro f
    rw [List.zipWith_map_left, List.zipWith_self]
  simp only
  by_cases hl : 0 < amax (vs.map (tmpL push frac tiny))
  · rw [if_pos (Or.inl hl), if_pos hl]
    by_cases hu : 0 < amax (vs.map (tmpU push frac tiny))
    · rw [if_pos hu, zipmap, zipv]
      apply List.map_congr_left; intro v _; ring
    · rw [if_neg hu, zipv]
      apply List.map_congr_left; intro v hv
      rw [hz _ nonU hu v hv]; ring
  · by_cases hu : 0 < amax (vs.map (tmpU push frac tiny))
    · rw [if_pos (Or.inr hu), if_neg hl, if_pos hu, zipmap, zipv]
      apply List.map_congr_left; intro v hv
      rw [hz _ nonL hl v hv]; ring
    · rw [if_neg (not_or.mpr ⟨hl, hu⟩)]
      apply List.map_congr_left; intro v hv
      rw [hz _ nonL hl v hv, hz _ nonU hu v hv]; ring

theorem step_zero (tiny : K) (v : Var K) (hc : ∀ l u, v.lo = some l → v.up = some u → l ≤ u) :
    v.x + tmpL 0 0 tiny v - tmpU 0 0 tiny v = Spec.project v.lo v.up v.x := by
  unfold tmpL tmpU Spec.project
  simp only [lt_irrefl, if_false]
  rcases hlo : v.lo with _ | l <;> rcases hup : v.up with _ | u
  · simp
  · simp only
    rcases le_total v.x u with h | h
    · rw [min_eq_left h, max_eq_right (by linarith)]; ring
    · rw [min_eq_right h, max_eq_left (by linarith)]; ring
  · simp only
    rcases le_total v.x l with h | h
    · rw [max_eq_left h, max_eq_left (by linarith)]; ring
    · rw [max_eq_right h, max_eq_right (by linarith)]; ring
  · simp only
    have := hc l u hlo hup
    rcases le_total v.x u with h | h
    · rw [min_eq_left h, max_eq_right (a := v.x - u) (by linarith)]
      rcases le_total v.x l with h2 | h2
      · rw [max_eq_left h2, max_eq_left (by linarith)]; ring
      · rw [max_eq_right h2, max_eq_right (by linarith)]; ring
    · rw [min_eq_right h, max_eq_left (a := v.x - u) (by linarith), max_eq_right this, max_eq_right (by linarith)]; ring

section
variable {push frac tiny : K}

theorem marginL_eq (hp : 0 < push) (ht : 0 < tiny) (v : Var K) (hc : Consistent frac tiny v) (l : K) (hl : v.lo = some l) :
    margin push l (qL frac tiny l v.up) = Spec.dist push frac tiny l (Spec.width v) := by
  rcases hu : v.up with _ | u
  · have hw : Spec.width v = none := by simp [Spec.width, hl, hu]
    rw [hw]
    have hq : qL frac tiny l none < 0 := by simp [qL, ht]
    rw [margin_neg_q _ _ _ hp hq]; rfl
  · have hw : Spec.width v = some (u - l) := by simp [Spec.width, hl, hu]
    rw [hw]
    have := (hc l u hl hu).2
    have hq : qL frac tiny l (some u) = frac * (u - l) - tiny := by simp [qL]; ring
    rw [hq, margin_pos_q _ _ _ hp (by linarith)]; rfl

theorem marginU_eq (hp : 0 < push) (ht : 0 < tiny) (v : Var K) (hc : Consistent frac tiny v) (u : K) (hu : v.up = some u) :
    margin push u (qU frac tiny v.lo u) = Spec.dist push frac tiny u (Spec.width v) := by
  rcases hl : v.lo with _ | l
  · have hw : Spec.width v = none := by simp [Spec.width, hl, hu]
    rw [hw]
    have hq : qU frac tiny none u < 0 := by simp [qU, ht]
    rw [margin_neg_q _ _ _ hp hq]; rfl
  · have hw : Spec.width v = some (u - l) := by simp [Spec.width, hl, hu]
    rw [hw]
    have := (hc l u hl hu).2
    have hq : qU frac tiny (some l) u = frac * (u - l) - tiny := by simp [qU]; ring
    rw [hq, margin_pos_q _ _ _ hp (by linarith)]; rfl

theorem dist_pos (hp : 0 < push) (v : Var K) (hc : Consistent frac tiny v) (b : K) : 0 < Spec.dist push frac tiny b (Spec.width v) := by
  have hpos : 0 < push * max 1 |b| := mul_pos hp (lt_of_lt_of_le one_pos (le_max_left _ _))
  unfold Spec.width
  rcases hl : v.lo with _ | l <;> rcases hu : v.up with _ | u <;> simp only [Spec.dist] <;> try exact hpos
  have := (hc l u hl hu).2
  exact lt_min hpos (by linarith)

/-- The allowed interval is not empty: the relative margins take at most half of the range each. -/
theorem low_le_high (hf2 : frac ≤ 1 / 2) (ht : 0 < tiny) (v : Var K) (hc : Consistent frac tiny v) (a b : K)
    (ha : Spec.low push frac tiny v = some a) (hb : Spec.high push frac tiny v = some b) : a ≤ b := by
  rcases hl : v.lo with _ | l
  · simp [Spec.low, hl] at ha
  · rcases hu : v.up with _ | u
    · simp [Spec.high, hu] at hb
    · have hw : Spec.width v = some (u - l) := by simp [Spec.width, hl, hu]
      simp only [Spec.low, hl, hw, Option.map_some, Option.some.injEq] at ha
      simp only [Spec.high, hu, hw, Option.map_some, Option.some.injEq] at hb
      obtain ⟨h1, h2⟩ := hc l u hl hu
      have d1 : Spec.dist push frac tiny l (some (u - l)) ≤ frac * (u - l) - tiny := min_le_right _ _
      have d2 : Spec.dist push frac tiny u (some (u - l)) ≤ frac * (u - l) - tiny := min_le_right _ _
      have : frac * (u - l) ≤ 1 / 2 * (u - l) := mul_le_mul_of_nonneg_right hf2 (by linarith)
      linarith

theorem step_push (hp : 0 < push) (hf : 0 < frac) (hf2 : frac ≤ 1 / 2) (ht : 0 < tiny) (v : Var K) (hc : Consistent frac tiny v) :
    v.x + tmpL push frac tiny v - tmpU push frac tiny v
      = Spec.project (Spec.low push frac tiny v) (Spec.high push frac tiny v) v.x := by
  unfold tmpL tmpU
  simp only [if_pos hf]
  rcases hl : v.lo with _ | l
  · have hlow : Spec.low push frac tiny v = none := by simp [Spec.low, hl]
    rw [hlow]
    rcases hu : v.up with _ | u
    · have : Spec.high push frac tiny v = none := by simp [Spec.high, hu]
      rw [this]; simp [Spec.project]
    · have hhi : Spec.high push frac tiny v = some (u - Spec.dist push frac tiny u (Spec.width v) - tiny) := by simp [Spec.high, hu]
      have hm := marginU_eq hp ht v hc u hu
      rw [hl] at hm
      rw [hhi]
      simp only [Spec.project, hm]
      set d := Spec.dist push frac tiny u (Spec.width v)
      rcases le_total v.x (u - d - tiny) with h | h
      · rw [min_eq_left h, max_eq_right (by linarith)]; ring
      · rw [min_eq_right h, max_eq_left (by linarith)]; ring
  · have hlow : Spec.low push frac tiny v = some (l + Spec.dist push frac tiny l (Spec.width v)) := by simp [Spec.low, hl]
    have hm1 := marginL_eq hp ht v hc l hl
    rcases hu : v.up with _ | u
    · have : Spec.high push frac tiny v = none := by simp [Spec.high, hu]
      rw [hu] at hm1
      rw [this, hlow]
      simp only [Spec.project, hm1]
      set d := Spec.dist push frac tiny l (Spec.width v)
      rcases le_total v.x (l + d) with h | h
      · rw [max_eq_left h, max_eq_left (by linarith)]; ring
      · rw [max_eq_right h, max_eq_right (by linarith)]; ring
    · have hhi : Spec.high push frac tiny v = some (u - Spec.dist push frac tiny u (Spec.width v) - tiny) := by simp [Spec.high, hu]
      have hm2 := marginU_eq hp ht v hc u hu
      have hlh := low_le_high hf2 ht v hc _ _ hlow hhi
      rw [hl] at hm2
      rw [hu] at hm1
      rw [hhi, hlow]
      simp only [Spec.project, hm1, hm2]
      set d1 := Spec.dist push frac tiny l (Spec.width v)
      set d2 := Spec.dist push frac tiny u (Spec.width v)
      rcases le_total v.x (u - d2 - tiny) with h | h
      · rw [min_eq_left h, max_eq_right (a := v.x + _) (by linarith)]
        rcases le_total v.x (l + d1) with h2 | h2
        · rw [max_eq_left h2, max_eq_left (by linarith)]; ring
        · rw [max_eq_right h2, max_eq_right (by linarith)]; ring
      · rw [min_eq_right h, max_eq_right hlh, max_eq_right (a := -v.x + _) (by linarith), max_eq_left (by linarith)]; ring

/-- Projecting to the bounds first does not change the projection to the smaller interval. -/
theorem project_project (l u a b : Option K) (x : K)
    (hla : ∀ l0, l = some l0 → ∃ a0, a = some a0 ∧ l0 ≤ a0) (hbu : ∀ u0, u = some u0 → ∃ b0, b = some b0 ∧ b0 ≤ u0)
    (hab : ∀ a0 b0, a = some a0 → b = some b0 → a0 ≤ b0) :
    Spec.project a b (Spec.project l u x) = Spec.project a b x := by
  rcases l with _ | l
  · rcases u with _ | u
    · rfl
    · obtain ⟨b0, rfl, h⟩ := hbu u rfl
      simp only [Spec.project]
      rw [min_assoc, min_eq_right h]
  · obtain ⟨a0, rfl, h⟩ := hla l rfl
    rcases u with _ | u
    · rcases b with _ | b0
      · simp only [Spec.project]; rw [← max_assoc, max_eq_left h]
      · have := hab a0 b0 rfl rfl
        simp only [Spec.project]
        rcases le_total x l with hx | hx
        · rw [max_eq_left hx, min_eq_left (by linarith), min_eq_left (by linarith), max_eq_left h, max_eq_left (by linarith)]
        · rw [max_eq_right hx]
    · obtain ⟨b0, rfl, h2⟩ := hbu u rfl
      have := hab a0 b0 rfl rfl
      simp only [Spec.project]
      rcases le_total x u with hu | hu
      · rw [min_eq_left hu]
        rcases le_total x l with hx | hx
        · rw [max_eq_left hx, min_eq_left (by linarith), min_eq_left (by linarith), max_eq_left h, max_eq_left (by linarith)]
        · rw [max_eq_right hx]
      · rw [min_eq_right hu, max_eq_right (a := l) (by linarith), min_eq_right h2, min_eq_right (by linarith)]

/-- **C29** For every list of variables with consistent bounds and every admissible setting of `bound_push` and `bound_frac`: the
initial value of each variable is the closest value to the user's one in the interval `[x_L + dist, x_U - dist]` of documented distances. -/
theorem initial_point (hp : 0 < push) (hf : 0 < frac) (hf2 : frac ≤ 1 / 2) (ht : 0 < tiny) (vs : List (Var K))
    (hc : ∀ v ∈ vs, Consistent frac tiny v) :
    pushVariables push frac tiny vs
      = vs.map (fun v => Spec.project (Spec.low push frac tiny v) (Spec.high push frac tiny v) v.x) := by
  unfold pushVariables
  rw [if_pos (Or.inl hp), pushOnce_eq, pushOnce_eq, List.zipWith_map_left, List.zipWith_self, List.map_map]
  apply List.map_congr_left
  intro v hv
  have hcv := hc v hv
  simp only [Function.comp_apply]
  set v' : Var K := { v with x := v.x + tmpL 0 0 tiny v - tmpU 0 0 tiny v } with hv'
  have hc' : Consistent frac tiny v' := fun l u h1 h2 => hcv l u h1 h2
  rw [step_push hp hf hf2 ht v' hc']
  have e1 : Spec.low push frac tiny v' = Spec.low push frac tiny v := rfl
  have e2 : Spec.high push frac tiny v' = Spec.high push frac tiny v := rfl
  have e3 : v'.x = Spec.project v.lo v.up v.x := step_zero tiny v (fun l u h1 h2 => (hcv l u h1 h2).1)
  rw [e1, e2, e3]
  apply project_project
  · intro l0 hl
    refine ⟨l0 + Spec.dist push frac tiny l0 (Spec.width v), by simp [Spec.low, hl], ?_⟩
    have := dist_pos (tiny := tiny) hp v hcv l0
    linarith
  · intro u0 hu
    refine ⟨u0 - Spec.dist push frac tiny u0 (Spec.width v) - tiny, by simp [Spec.high, hu], ?_⟩
    have := dist_pos (tiny := tiny) hp v hcv u0
    linarith
  · intro a0 b0 ha hb
    exact low_le_high hf2 ht v hcv a0 b0 ha hb

/-- What the closest value means: it lies in the interval, and a value in the interval is not moved. -/
theorem project_spec (lo up : Option K) (x : K) (h : ∀ a b, lo = some a → up = some b → a ≤ b) :
    (∀ a, lo = some a → a ≤ Spec.project lo up x) ∧ (∀ b, up = some b → Spec.project lo up x ≤ b)
    ∧ ((∀ a, lo = some a → a ≤ x) → (∀ b, up = some b → x ≤ b) → Spec.project lo up x = x)
    ∧ ∀ y, (∀ a, lo = some a → a ≤ y) → (∀ b, up = some b → y ≤ b) → |Spec.project lo up x - x| ≤ |y - x| := by
  rcases lo with _ | l <;> rcases up with _ | u <;> simp only [Spec.project, Option.some.injEq, reduceCtorEq, false_implies, implies_true,
    forall_eq', true_and]
  · simp
  · refine ⟨min_le_right _ _, fun _ hx => min_eq_left hx, fun y _ hy => ?_⟩
    rcases le_total x u with hx | hx
    · rw [min_eq_left hx]; simp
    · rw [min_eq_right hx, abs_sub_comm, abs_sub_comm y, abs_of_nonneg (by linarith), abs_of_nonneg (by linarith)]; linarith
  · refine ⟨le_max_left _ _, fun hx _ => max_eq_right hx, fun y hy _ => ?_⟩
    rcases le_total x l with hx | hx
    · rw [max_eq_left hx, abs_of_nonneg (by linarith), abs_of_nonneg (by linarith)]; linarith
    · rw [max_eq_right hx]; simp
  · have hlu := h l u rfl rfl
    refine ⟨le_max_left _ _, max_le hlu (min_le_right _ _), fun h1 h2 => by rw [min_eq_left h2, max_eq_right h1], fun y h1 h2 => ?_⟩
    rcases le_total x u with hx | hx
    · rw [min_eq_left hx]
      rcases le_total x l with hx2 | hx2
      · rw [max_eq_left hx2, abs_of_nonneg (by linarith), abs_of_nonneg (by linarith)]; linarith
      · rw [max_eq_right hx2]; simp
    · rw [min_eq_right hx, max_eq_right hlu, abs_sub_comm, abs_sub_comm y, abs_of_nonneg (by linarith), abs_of_nonneg (by linarith)]; linarith

/-- **C29** The initial point is strictly between its bounds. -/
theorem initial_point_strictly_inside (hp : 0 < push) (hf : 0 < frac) (hf2 : frac ≤ 1 / 2) (ht : 0 < tiny) (vs : List (Var K))
    (hc : ∀ v ∈ vs, Consistent frac tiny v) (i : Nat) (hi : i < vs.length) :
    ∃ h : i < (pushVariables push frac tiny vs).length,
      (∀ l, vs[i].lo = some l → l < (pushVariables push frac tiny vs)[i]) ∧ (∀ u, vs[i].up = some u → (pushVariables push frac tiny vs)[i] < u) := by
  have he := initial_point hp hf hf2 ht vs hc
  refine ⟨by rw [he]; simpa using hi, ?_⟩
  have hcv := hc vs[i] (List.getElem_mem hi)
  simp only [he, List.getElem_map]
  obtain ⟨h1, h2, _, _⟩ := project_spec (Spec.low push frac tiny vs[i]) (Spec.high push frac tiny vs[i]) vs[i].x
    (fun a b ha hb => low_le_high hf2 ht _ hcv a b ha hb)
  constructor
  · intro l hl
    have hd := dist_pos (tiny := tiny) hp vs[i] hcv l
    have := h1 (l + Spec.dist push frac tiny l (Spec.width vs[i])) (by simp [Spec.low, hl])
    linarith
  · intro u hu
    have hd := dist_pos (tiny := tiny) hp vs[i] hcv u
    have := h2 (u - Spec.dist push frac tiny u (Spec.width vs[i]) - tiny) (by simp [Spec.high, hu])
    linarith

end

/-- A case with all kinds of bounds: moved up, moved down, not moved, free. -/
example : pushVariables (1/100 : ℚ) (1/10) (1/1000000)
    [⟨0, some 0, some 10⟩, ⟨50, none, some 20⟩, ⟨5, some 0, some 10⟩, ⟨-7, none, none⟩, ⟨3, some 3, some (301/100)⟩]
    = [1/100, 20 - 1/5 - 1/1000000, 5, -7, 3 + 1/1000 - 1/1000000] := by decide +kernel

example : ∀ v ∈ [(⟨0, some 0, some 10⟩ : Var ℚ), ⟨50, none, some 20⟩, ⟨3, some 3, some (301/100)⟩], Consistent (1/10) (1/1000000) v := by
  intro v hv l u hl hu
  simp at hv
  rcases hv with rfl | rfl | rfl <;> simp at hl hu <;> subst hl hu <;> norm_num

/-- Disagreement with the English claim for bounds that nearly coincide: once `bound_frac * (x_U - x_L)` falls below the machine constant
the relative margin is lost and the value is pushed outside (here with equal bounds, possible with `fixed_variable_treatment=relax_bounds` and
`bound_relax_factor=0`). -/
theorem nearly_equal_bounds_left : pushVariables (1/100 : ℚ) (1/10) (1/1000000) [⟨3, some 3, some 3⟩] = [3 - 1/1000000] := by decide +kernel

end Verif.InitPoint
