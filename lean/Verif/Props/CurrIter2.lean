import Verif.Props.CurrIter

/-! # What `get_curr_violations` reports about bounds and constraints (C61) -/

set_option linter.unusedSectionVars false
set_option linter.unusedVariables false
set_option linter.unusedSimpArgs false

namespace Verif.CurrIter
open Verif Verif.Adapter Verif.Matrix Finset
open Verif.Scaling hiding evalC evalD

section
variable {K : Type} [Field K] [LinearOrder K] [IsStrictOrderedRing K] {t : Fixed} {loInf upInf : Num} {xb gb : List (Num × Num)} {deps : List Nat} {s : Spaces}
  {U : User K} {of df : K} {dx dc dd : Option (List K)} {hom : List K → Option K} {q : Curr K}

set_option quotPrecheck false in
local notation "XX" => User.full U s (Scal.unapplyX (determine of df dx dc dd) q.pt.x)

variable (H : Sit t loInf upInf xb gb deps s U of df dx dc dd hom q)
variable {n m n' m' : Nat} {gOk jOk : Bool} {b it : Iter K} {bv v : Viol K} {X g lam zL zU : Nat → K}

include H

/-- cases for a user variable: removed, fixed by a constraint, or a variable of the algorithm that is not fixed by a constraint. -/
theorem var_cases (i : Nat) (hi : i < xb.length) :
    (Removed s.treat (bnd xb i)) ∨ (s.treat = .makeConstraint ∧ IsFixed (bnd xb i) ∧ ∃ k, ∃ hk : k < s.fixed.length, s.fixed[k] = i) ∨
      (¬Removed s.treat (bnd xb i) ∧ (s.treat = .makeConstraint → i ∉ s.fixed) ∧ (IsFixed (bnd xb i) → s.treat = .relaxBounds)) := by
  obtain ⟨hE, hII, hN, hF⟩ := spaces_variables H.spaces
  by_cases hr : Removed s.treat (bnd xb i)
  · exact Or.inl hr
  right
  by_cases hm : s.treat = .makeConstraint ∧ i ∈ s.fixed
  · left
    obtain ⟨k, hk, he⟩ := List.mem_iff_getElem.mp hm.2
    exact ⟨hm.1, ((hF.2 i).mp hm.2).2.1, k, hk, he⟩
  · right
    refine ⟨hr, fun h1 h2 => hm ⟨h1, h2⟩, fun hfx => ?_⟩
    by_contra hne
    have hmem : i ∈ s.fixed := (hF.2 i).mpr ⟨hi, hfx, hne⟩
    unfold Removed at hr
    cases ht : s.treat <;> rw [ht] at hr hm hne <;> simp [hfx, hmem] at hr hm hne

/-- the values delivered at positions of lower (upper) bounds. -/
theorem bound_at_user {i : Nat} (hi : i < xb.length) (hr : ¬Removed s.treat (bnd xb i)) (z z0 : Nat → K) :
    (HasLower s.treat loInf (bnd xb i) → ∃ k, ∃ hk : k < s.pxl.length, s.user s.pxl[k] = i ∧ resortBound s s.pxl z z0 i = z k) ∧
    (HasUpper s.treat upInf (bnd xb i) → ∃ k, ∃ hk : k < s.pxu.length, s.user s.pxu[k] = i ∧ resortBound s s.pxu z z0 i = z k) := by
  obtain ⟨hE, hII, hN, hF⟩ := spaces_variables H.spaces
  obtain ⟨hbl, hbu⟩ := spaces_bounds H.spaces
  obtain ⟨⟨a1, -⟩, ⟨a2, -⟩⟩ := bound_multipliers_delivered H.spaces z z0
  obtain ⟨c, hc, rfl⟩ := hE.2.2 i hi hr
  constructor
  · intro h
    obtain ⟨k, hk, he⟩ := List.mem_iff_getElem.mp ((hbl.2 c).mpr ⟨hc, h⟩)
    exact ⟨k, hk, by rw [he], by rw [← he, a1 k hk]⟩
  · intro h
    obtain ⟨k, hk, he⟩ := List.mem_iff_getElem.mp ((hbu.2 c).mpr ⟨hc, h⟩)
    exact ⟨k, hk, by rw [he], by rw [← he, a2 k hk]⟩

theorem fixed_c {k : Nat} (hk : k < s.fixed.length) (ht : s.treat = .makeConstraint) :
    vec (currC (innerProb U s) (determine of df dx dc dd) q false) (s.pc.length + k) = XX s.fixed[k] - U.xl s.fixed[k] := by
  have hnf : nFix s = s.fixed.length := by unfold nFix; rw [ht]; rfl
  rw [vec_currC H (by omega)]
  unfold Adapter.evalC User.rhs cRhs
  rw [if_neg (by omega), if_neg (by omega), show s.pc.length + k - s.pc.length = k by omega, List.getD_eq_getElem _ _ hk]

/-- **C61** With relaxed bounds (the default) the reported bound violations are the violations of the user's own bounds by the reported
point, for every variable and every treatment of fixed variables; infinite bounds are not violated. -/
theorem violations_bounds (hI : getCurrIterate s U (determine of df dx dc dd) hom q .ready gOk jOk false n m b = .yes it)
    (hV : getCurrViolations s U (determine of df dx dc dd) hom q .ready false n' m' bv = .yes v)
    (hX : it.x = some X) (ho : q.orig ≠ none) (i : Nat) (hi : i < xb.length) :
    (∀ vL, v.xL = some vL → vL i = if IsFixed (bnd xb i) ∨ loInf < (bnd xb i).1 then max 0 (U.xl i - X i) else 0) ∧
    (∀ vU, v.xU = some vU → vU i = if IsFixed (bnd xb i) ∨ (bnd xb i).2 < upInf then max 0 (X i - U.xu i) else 0) := by
  obtain ⟨o, ho⟩ := Option.ne_none_iff_exists'.mp ho
  rw [X_eq H hI hX]
  constructor
  · intro vL hv
    obtain ⟨a0, rfl⟩ := (viol_fields H hV).1 vL hv
    unfold outXL
    rcases var_cases H i hi with hr | ⟨ht, hfx, k, hk, rfl⟩ | ⟨hr, hm, hfx⟩
    · rw [putFixed_not (fixed_nodup H)
        (fun k _ _ => max 0 (-(vec (currC (innerProb U s) (determine of df dx dc dd) q false) k))) (fun _ _ _ _ _ => rfl) _ _
        (by obtain ⟨h | h, -⟩ := hr <;> rw [h] <;> intro h2 <;> simp at h2)]
      rw [(bound_multipliers_delivered H.spaces _ a0).1.2 i hi fun h => h.1 hr, if_pos (Or.inl hr.2), full_removed H hi hr]
      simp
    · rw [putFixed_at ht (fixed_nodup H)
        (fun k _ _ => max 0 (-(vec (currC (innerProb U s) (determine of df dx dc dd) q false) k))) (fun _ _ _ _ _ => rfl) _ k hk,
        fixed_c H hk ht, if_pos (Or.inl hfx)]
      congr 1; ring
    · rw [putFixed_not (fixed_nodup H)
        (fun k _ _ => max 0 (-(vec (currC (innerProb U s) (determine of df dx dc dd) q false) k))) (fun _ _ _ _ _ => rfl) _ _ hm]
      by_cases hlo : IsFixed (bnd xb i) ∨ loInf < (bnd xb i).1
      · have hL : HasLower s.treat loInf (bnd xb i) := by
          by_cases hf : IsFixed (bnd xb i)
          · exact Or.inr ⟨hf, hfx hf⟩
          · exact Or.inl ⟨hf, hlo.resolve_left hf⟩
        obtain ⟨k, hk, he, h2⟩ := (bound_at_user H hi hr (vec (currXViol (determine of df dx dc dd) hom q (innerProb U s).PxL (-1) (·.xL) false)) a0).1 hL
        rw [h2, xviolL_get H ho hk, if_pos hlo, List.getD_eq_getElem _ _ hk, he]
      · rw [if_neg hlo]
        refine (bound_multipliers_delivered H.spaces _ a0).1.2 i hi ?_
        rintro ⟨-, h | h⟩
        · exact hlo (Or.inr h.2)
        · exact hlo (Or.inl h.1)
  · intro vU hv
    obtain ⟨a0, rfl⟩ := (viol_fields H hV).2.1 vU hv
    unfold outXU
    rcases var_cases H i hi with hr | ⟨ht, hfx, k, hk, rfl⟩ | ⟨hr, hm, hfx⟩
    · rw [putFixed_not (fixed_nodup H)
        (fun k _ _ => max 0 (vec (currC (innerProb U s) (determine of df dx dc dd) q false) k)) (fun _ _ _ _ _ => rfl) _ _
        (by obtain ⟨h | h, -⟩ := hr <;> rw [h] <;> intro h2 <;> simp at h2)]
      rw [(bound_multipliers_delivered H.spaces _ a0).2.2 i hi fun h => h.1 hr, if_pos (Or.inl hr.2), full_removed H hi hr, H.eqX i hi hr.2]
      simp
    · rw [putFixed_at ht (fixed_nodup H)
        (fun k _ _ => max 0 (vec (currC (innerProb U s) (determine of df dx dc dd) q false) k)) (fun _ _ _ _ _ => rfl) _ k hk,
        fixed_c H hk ht, if_pos (Or.inl hfx), H.eqX _ hi hfx]
    · rw [putFixed_not (fixed_nodup H)
        (fun k _ _ => max 0 (vec (currC (innerProb U s) (determine of df dx dc dd) q false) k)) (fun _ _ _ _ _ => rfl) _ _ hm]
      by_cases hlo : IsFixed (bnd xb i) ∨ (bnd xb i).2 < upInf
      · have hL : HasUpper s.treat upInf (bnd xb i) := by
          by_cases hf : IsFixed (bnd xb i)
          · exact Or.inr ⟨hf, hfx hf⟩
          · exact Or.inl ⟨hf, hlo.resolve_left hf⟩
        obtain ⟨k, hk, he, h2⟩ := (bound_at_user H hi hr (vec (currXViol (determine of df dx dc dd) hom q (innerProb U s).PxU 1 (·.xU) false)) a0).2 hL
        rw [h2, xviolU_get H ho hk, if_pos hlo, List.getD_eq_getElem _ _ hk, he]
      · rw [if_neg hlo]
        refine (bound_multipliers_delivered H.spaces _ a0).2.2 i hi ?_
        rintro ⟨-, h | h⟩
        · exact hlo (Or.inr h.2)
        · exact hlo (Or.inl h.1)

/-- **C61** Without relaxation of the bounds (`bound_relax_factor` = 0) zero is reported for every variable that is not fixed by a
constraint, whatever the point: the report is right only because the algorithm keeps its iterates within the bounds. -/
theorem violations_bounds_unrelaxed (hV : getCurrViolations s U (determine of df dx dc dd) hom q .ready false n' m' bv = .yes v)
    (ho : q.orig = none) (i : Nat) (hi : i < xb.length) (hf : s.treat = .makeConstraint → ¬IsFixed (bnd xb i)) :
    (∀ vL, v.xL = some vL → vL i = 0) ∧ ∀ vU, v.xU = some vU → vU i = 0 := by
  obtain ⟨hE, hII, hN, hF⟩ := spaces_variables H.spaces
  have hm : s.treat = .makeConstraint → i ∉ s.fixed := fun ht hm => hf ht ((hF.2 i).mp hm).2.1
  have z : ∀ n k, vec (List.replicate n (0 : K)) k = 0 := by
    intro n k
    unfold vec
    simp only [List.getD_eq_getElem?_getD, List.getElem?_replicate]
    split <;> rfl
  constructor
  · intro vL hv
    obtain ⟨a0, rfl⟩ := (viol_fields H hV).1 vL hv
    unfold outXL
    rw [putFixed_not (fixed_nodup H)
      (fun k _ _ => max 0 (-(vec (currC (innerProb U s) (determine of df dx dc dd) q false) k))) (fun _ _ _ _ _ => rfl) _ _ hm]
    by_cases h : ¬Removed s.treat (bnd xb i) ∧ HasLower s.treat loInf (bnd xb i)
    · obtain ⟨k, hk, he, h2⟩ := (bound_at_user H hi h.1 (vec (currXViol (determine of df dx dc dd) hom q (innerProb U s).PxL (-1) (·.xL) false)) a0).1 h.2
      rw [h2]; unfold currXViol; rw [ho]; exact z _ _
    · exact (bound_multipliers_delivered H.spaces _ a0).1.2 i hi h
  · intro vL hv
    obtain ⟨a0, rfl⟩ := (viol_fields H hV).2.1 vL hv
    unfold outXU
    rw [putFixed_not (fixed_nodup H)
      (fun k _ _ => max 0 (vec (currC (innerProb U s) (determine of df dx dc dd) q false) k)) (fun _ _ _ _ _ => rfl) _ _ hm]
    by_cases h : ¬Removed s.treat (bnd xb i) ∧ HasUpper s.treat upInf (bnd xb i)
    · obtain ⟨k, hk, he, h2⟩ := (bound_at_user H hi h.1 (vec (currXViol (determine of df dx dc dd) hom q (innerProb U s).PxU 1 (·.xU) false)) a0).2 h.2
      rw [h2]; unfold currXViol; rw [ho]; exact z _ _
    · exact (bound_multipliers_delivered H.spaces _ a0).2.2 i hi h

/-- **C61** The reported complementarity is distance to the bound times reported multiplier, for every variable: the bound is the one the
algorithm works with (relaxed, in the user's units: `q.xL_k / dx`), and the fixed value for fixed variables. -/
theorem violations_complementarity (hI : getCurrIterate s U (determine of df dx dc dd) hom q .ready true true false n m b = .yes it)
    (hV : getCurrViolations s U (determine of df dx dc dd) hom q .ready false n' m' bv = .yes v)
    (hX : it.x = some X) (hzL : it.zL = some zL) (hzU : it.zU = some zU) {cL cU : Nat → K} (hL : v.cL = some cL) (hU : v.cU = some cU) :
    (∀ k, (hk : k < s.pxl.length) → cL (s.user s.pxl[k]) = (X (s.user s.pxl[k]) - q.xL.getD k 0 / optFac dx s.pxl[k]) * zL (s.user s.pxl[k])) ∧
    (∀ k, (hk : k < s.pxu.length) → cU (s.user s.pxu[k]) = (q.xU.getD k 0 / optFac dx s.pxu[k] - X (s.user s.pxu[k])) * zU (s.user s.pxu[k])) ∧
    (∀ i < xb.length, IsFixed (bnd xb i) → s.treat ≠ .relaxBounds → cL i = (X i - U.xl i) * zL i ∧ cU i = (U.xu i - X i) * zU i) ∧
    (∀ i < xb.length, ¬IsFixed (bnd xb i) → ¬loInf < (bnd xb i).1 → cL i = 0) ∧
    (∀ i < xb.length, ¬IsFixed (bnd xb i) → ¬(bnd xb i).2 < upInf → cU i = 0) := by
  obtain ⟨m1, m2, m3, m4, m5⟩ := iterate_bound_multipliers H hI hzL hzU
  have hXe := X_eq H hI hX
  obtain ⟨a0, rfl⟩ := (viol_fields H hV).2.2.1 cL hL
  obtain ⟨b0, rfl⟩ := (viol_fields H hV).2.2.2.1 cU hU
  obtain ⟨hE, hII, hN, hF⟩ := spaces_variables H.spaces
  obtain ⟨hbl, hbu⟩ := spaces_bounds H.spaces
  subst hXe
  have vf1 : ∀ k (a a' : Nat → K) (i : Nat), a i = a' i → (fun k (_ : Nat → K) (_ : Nat) =>
      -(vec (emul ((currYc (determine of df dx dc dd) q false).map fun v => min v 0) (currC (innerProb U s) (determine of df dx dc dd) q false)) k)) k a i =
      (fun k (_ : Nat → K) (_ : Nat) =>
      -(vec (emul ((currYc (determine of df dx dc dd) q false).map fun v => min v 0) (currC (innerProb U s) (determine of df dx dc dd) q false)) k)) k a' i :=
    fun _ _ _ _ _ => rfl
  have vf2 : ∀ k (a a' : Nat → K) (i : Nat), a i = a' i → (fun k (_ : Nat → K) (_ : Nat) =>
      -(vec (emul ((currYc (determine of df dx dc dd) q false).map fun v => max v 0) (currC (innerProb U s) (determine of df dx dc dd) q false)) k)) k a i =
      (fun k (_ : Nat → K) (_ : Nat) =>
      -(vec (emul ((currYc (determine of df dx dc dd) q false).map fun v => max v 0) (currC (innerProb U s) (determine of df dx dc dd) q false)) k)) k a' i :=
    fun _ _ _ _ _ => rfl
  -- variables with bounds are not fixed by a constraint
  have notFix : ∀ c < s.nVar, (HasLower s.treat loInf (bnd xb (s.user c)) ∨ HasUpper s.treat upInf (bnd xb (s.user c))) →
      s.treat = .makeConstraint → s.user c ∉ s.fixed := by
    intro c hc h ht hm
    have hfx := ((hF.2 _).mp hm).2.1
    rcases h with h | h <;> rcases h with h | h
    · exact h.1 hfx
    · rw [ht] at h; simp at h
    · exact h.1 hfx
    · rw [ht] at h; simp at h
  unfold outCL outCU
  refine ⟨?_, ?_, ?_, ?_, ?_⟩
  · intro k hk
    have hm := (hbl.2 _).mp (List.getElem_mem hk)
    rw [putFixed_not (fixed_nodup H) _ vf1 _ _ (notFix _ hm.1 (Or.inl hm.2)),
      (bound_multipliers_delivered H.spaces _ a0).1.1 k hk, complL_get H hk, m1 k hk, full_user H hm.1, List.getD_eq_getElem _ _ hk]
    have := optFac_ne H.facX hm.1
    have h2 := H.fac
    unfold vec
    field_simp
  · intro k hk
    have hm := (hbu.2 _).mp (List.getElem_mem hk)
    rw [putFixed_not (fixed_nodup H) _ vf2 _ _ (notFix _ hm.1 (Or.inr hm.2)),
      (bound_multipliers_delivered H.spaces _ b0).2.1 k hk, complU_get H hk, m2 k hk, full_user H hm.1, List.getD_eq_getElem _ _ hk]
    have := optFac_ne H.facX hm.1
    have h2 := H.fac
    unfold vec
    field_simp
  · intro i hi hfx hne
    rcases var_cases H i hi with hr | ⟨ht, -, k, hk, rfl⟩ | ⟨hr, hm, hfx'⟩
    · have hn : s.treat = .makeConstraint → i ∉ s.fixed := by
        intro ht
        obtain ⟨h | h, -⟩ := hr <;> rw [ht] at h <;> simp at h
      rw [putFixed_not (fixed_nodup H) _ vf1 _ _ hn, putFixed_not (fixed_nodup H) _ vf2 _ _ hn,
        (bound_multipliers_delivered H.spaces _ a0).1.2 i hi fun h => h.1 hr, (bound_multipliers_delivered H.spaces _ b0).2.2 i hi fun h => h.1 hr,
        full_removed H hi hr, ← H.eqX i hi hfx]
      simp
    · rw [putFixed_at ht (fixed_nodup H) _ vf1 _ k hk, putFixed_at ht (fixed_nodup H) _ vf2 _ k hk]
      have hnf : nFix s = s.fixed.length := by unfold nFix; rw [ht]; rfl
      obtain ⟨-, -, -, h4⟩ := iter_fields H hI
      obtain ⟨zL0, zU0, -, -, rfl, rfl⟩ := h4 zL zU hzL hzU
      have lc := len_currC (q := q) H false
      have ly := len_currYc (q := q) H
      rw [vec_emul _ _ (by simp [lc, ly]) _ (by simp [ly]; omega), vec_emul _ _ (by simp [lc, ly]) _ (by simp [ly]; omega),
        vec_map _ _ _ (by omega), vec_map _ _ _ (by omega), fixed_c H hk ht, iterZ_eq H, ← H.eqX _ hi hfx]
      have e1 : ∀ (a b c d e f g h : Nat → K), (resortBoundMult s U.jacPos a b c d e f g h).1 s.fixed[k] = max 0 (-(c (s.pc.length + k))) := by
        intro a b c d e f g h
        unfold resortBoundMult
        rw [if_neg (by omega), ht]
        exact foldl_zipIdx_at s.fixed (fun k => max 0 (-(c (s.pc.length + k)))) _ (fixed_nodup H) k hk
      have e2 : ∀ (a b c d e f g h : Nat → K), (resortBoundMult s U.jacPos a b c d e f g h).2 s.fixed[k] = max 0 (c (s.pc.length + k)) := by
        intro a b c d e f g h
        unfold resortBoundMult
        rw [if_neg (by omega), ht]
        exact foldl_zipIdx_at s.fixed (fun k => max 0 (c (s.pc.length + k))) _ (fixed_nodup H) k hk
      rw [e1, e2]
      generalize vec (currYc (determine of df dx dc dd) q false) (s.pc.length + k) = y
      rcases le_total 0 y with hy | hy
      · rw [min_eq_right hy, max_eq_left hy, max_eq_left (by linarith : -y ≤ 0), max_eq_right hy]
        constructor <;> ring
      · rw [min_eq_left hy, max_eq_right hy, max_eq_right (by linarith : 0 ≤ -y), max_eq_left hy]
        constructor <;> ring
    · exact absurd (hfx' hfx) hne
  · intro i hi hfx hlo
    rw [putFixed_not (fixed_nodup H) _ vf1 _ _ (fun _ hm => hfx ((hF.2 _).mp hm).2.1)]
    refine (bound_multipliers_delivered H.spaces _ a0).1.2 i hi ?_
    rintro ⟨-, h | h⟩
    · exact hlo h.2
    · exact hfx h.1
  · intro i hi hfx hlo
    rw [putFixed_not (fixed_nodup H) _ vf2 _ _ (fun _ hm => hfx ((hF.2 _).mp hm).2.1)]
    refine (bound_multipliers_delivered H.spaces _ b0).2.2 i hi ?_
    rintro ⟨-, h | h⟩
    · exact hlo h.2
    · exact hfx h.1


end
end Verif.CurrIter
