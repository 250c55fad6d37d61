import Verif.Spec.Equil
import Verif.Proof.SysScaling
import Verif.Proof.Scaling2
import Mathlib.Tactic.Linarith
import Mathlib.Tactic.Ring
import Mathlib.Tactic.FieldSimp

/-! # Proofs for C88 -/

namespace Verif.Equil
open Finset Verif.Matrix
open Verif.Triplet (upd)
open Verif.SysScaling (exp_row genElem isSlack_total)

set_option linter.unusedSectionVars false
set_option linter.unusedSimpArgs false
set_option linter.unusedVariables false

section
variable {K : Type} [Field K] [LinearOrder K] [IsStrictOrderedRing K]

theorem fullBound_get {hom : List K → Option K} (hh : HomOK hom) {n : Nat} (big : K) {pos : List Nat} {b : List K} (h : BoundsOK n pos b)
    {i : Nat} (hi : i < n) {o : Option K} (ho : BoundOf pos b i o) :
    (fullBound hom n big pos b).length = n ∧ (fullBound hom n big pos b).getD i 0 = o.getD big := by
  unfold fullBound
  dsimp only
  have e1 := expMult_ok hh n pos 1 (List.replicate pos.length (-big)) 1 (List.replicate n big) (by simp) (by simp)
  generalize expMult hom pos 1 (List.replicate pos.length (-big)) 1 (List.replicate n big) = t1 at *
  have e2 := expMult_ok hh n pos 1 b 1 t1 h.len e1.1
  generalize expMult hom pos 1 b 1 t1 = t2 at *
  refine ⟨e2.1, ?_⟩
  have r1 := e1.2 i hi
  have r2 := e2.2 i hi
  have hrep : BoundOf pos (List.replicate pos.length (-big)) i (o.map fun _ => -big) := by
    cases o with
    | none => exact ho
    | some v =>
      obtain ⟨k, h1, h2⟩ := ho
      refine ⟨k, h1, ?_⟩
      rw [List.getElem?_eq_some_iff] at h1
      simp [h1.1]
  rw [exp_row h.nodup hrep, List.getD_replicate _ hi] at r1
  rw [exp_row h.nodup ho, r1] at r2
  rw [r2]
  cases o with
  | none => simp
  | some v => simp

theorem getD_zipWith {A B C : Type} (f : A → B → C) (a : List A) (b : List B) (i : Nat) (ha : i < a.length) (hb : i < b.length) (x : A) (y : B) (z : C) :
    (List.zipWith f a b).getD i z = f (a.getD i x) (b.getD i y) := by
  rw [List.getD_eq_getElem _ _ (by simp; omega), List.getElem_zipWith, List.getD_eq_getElem _ _ ha, List.getD_eq_getElem _ _ hb]

/-- the members and the points, component by component. -/
theorem perturber_get {hom : List K → Option K} (hh : HomOK hom) (very : K) (x0 : List K) (radius : K) {posL posU : List Nat} {xL xU : List K}
    (hL : BoundsOK x0.length posL xL) (hU : BoundsOK x0.length posU xU) (rnd : Nat → K) {i : Nat} (hi : i < x0.length) {lo up : Option K}
    (hl : BoundOf posL xL i lo) (hu : BoundOf posU xU i up) :
    ((mkPerturber hom very x0 radius posL xL posU xU).point rnd).length = x0.length ∧
    ∃ d, d = min ((1 / 2) * up.getD very + (-(1 / 2)) * lo.getD (-very)) radius ∧
      (mkPerturber hom very x0 radius posL xL posU xU).dir.getD i 0 = d ∧
      (mkPerturber hom very x0 radius posL xL posU xU).ref.getD i 0 = max (min (x0.getD i 0) (up.getD very - d)) (lo.getD (-very) + d) ∧
      ((mkPerturber hom very x0 radius posL xL posU xU).point rnd).getD i 0 =
        max (min (x0.getD i 0) (up.getD very - d)) (lo.getD (-very) + d) + 2 * (rnd i - 1 / 2) * d := by
  obtain ⟨l1, g1⟩ := fullBound_get hh (-very) hL hi hl
  obtain ⟨l2, g2⟩ := fullBound_get hh very hU hi hu
  unfold Perturber.point mkPerturber
  dsimp only
  generalize fullBound hom x0.length (-very) posL xL = fl at *
  generalize fullBound hom x0.length very posU xU = fu at *
  set dir := (List.zipWith (fun u l => (1 / 2 : K) * u + (-(1 / 2)) * l) fu fl).map fun v => min v radius with hdir
  have ld : dir.length = x0.length := by simp [hdir, l1, l2]
  have gd : dir.getD i 0 = min ((1 / 2) * up.getD very + (-(1 / 2)) * lo.getD (-very)) radius := by
    rw [List.getD_eq_getElem _ _ (by omega)]
    simp only [hdir, List.getElem_map, List.getElem_zipWith]
    rw [← g1, ← g2, List.getD_eq_getElem _ _ (by omega), List.getD_eq_getElem _ _ (by omega)]
  refine ⟨by simp [ld, l1, l2], dir.getD i 0, gd, rfl, ?_, ?_⟩
  · rw [getD_zipWith _ _ _ _ (by simp; omega) (by simp; omega) 0 0, getD_zipWith _ _ _ _ (by omega) (by simp; omega) 0 0,
      getD_zipWith _ _ _ _ (by omega) (by omega) 0 0, getD_zipWith _ _ _ _ (by omega) (by omega) 0 0, g1, g2]
  · rw [getD_zipWith _ _ _ i (by simp; omega) (by simp; omega) 0 ((0 : K), 0),
      getD_zipWith _ _ _ _ (by simp; omega) (by simp; omega) 0 0, getD_zipWith _ _ _ _ (by omega) (by simp; omega) 0 0,
      getD_zipWith _ _ _ _ (by omega) (by omega) 0 0, getD_zipWith _ _ _ _ (by omega) (by omega) 0 0, g1, g2]
    have : dir.zipIdx.getD i ((0 : K), 0) = (dir.getD i 0, i) := by
      rw [List.getD_eq_getElem _ _ (by simp; omega), List.getElem_zipIdx, List.getD_eq_getElem _ _ (by omega)]
      simp
    rw [this]

end

/-! ## Evaluations -/

theorem tryPoint_some {V : Type} {ev : Nat → Option V} : ∀ {left call : Nat} {v : V} {left' call' : Nat},
    tryPoint ev left call = some (v, left', call') →
    ∃ k, call' = call + k + 1 ∧ ev (call + k) = some v ∧ (∀ j, j < k → ev (call + j) = none) ∧ left = left' + k := by
  intro left
  induction left with
  | zero =>
    intro call v left' call' h
    unfold tryPoint at h
    split at h
    · rename_i w hw
      simp only [Option.some.injEq, Prod.mk.injEq] at h
      obtain ⟨rfl, rfl, rfl⟩ := h
      exact ⟨0, rfl, hw, fun j hj => absurd hj (Nat.not_lt_zero _), rfl⟩
    · simp at h
  | succ left ih =>
    intro call v left' call' h
    unfold tryPoint at h
    split at h
    · rename_i w hw
      simp only [Option.some.injEq, Prod.mk.injEq] at h
      obtain ⟨rfl, rfl, rfl⟩ := h
      exact ⟨0, rfl, hw, fun j hj => absurd hj (Nat.not_lt_zero _), rfl⟩
    · rename_i hw
      obtain ⟨k, h1, h2, h3, h4⟩ := ih h
      refine ⟨k + 1, by omega, by rw [← h2]; congr 1; omega, fun j hj => ?_, by omega⟩
      cases j with
      | zero => exact hw
      | succ j => rw [show call + (j + 1) = call + 1 + j by omega]; exact h3 j (by omega)

theorem tryPoint_none {V : Type} {ev : Nat → Option V} : ∀ {left call : Nat}, tryPoint ev left call = none →
    ∀ j, j ≤ left → ev (call + j) = none := by
  intro left
  induction left with
  | zero =>
    intro call h j hj
    unfold tryPoint at h
    split at h
    · simp at h
    · rename_i hw; rw [show j = 0 by omega]; exact hw
  | succ left ih =>
    intro call h j hj
    unfold tryPoint at h
    split at h
    · simp at h
    · rename_i hw
      cases j with
      | zero => exact hw
      | succ j => rw [show call + (j + 1) = call + 1 + j by omega]; exact ih h j (by omega)

theorem filterMap_none {V : Type} {ev : Nat → Option V} (call k : Nat) (h : ∀ j, j < k → ev (call + j) = none) :
    (List.range' call k).filterMap ev = [] := by
  rw [List.filterMap_eq_nil_iff]
  intro a ha
  rw [List.mem_range'_1] at ha
  have := h (a - call) (by omega)
  rwa [show call + (a - call) = a by omega] at this

theorem filterMap_step {V : Type} {ev : Nat → Option V} {call k : Nat} {v : V} (h1 : ∀ j, j < k → ev (call + j) = none)
    (h2 : ev (call + k) = some v) (n : Nat) :
    (List.range' call (k + 1 + n)).filterMap ev = v :: (List.range' (call + k + 1) n).filterMap ev := by
  have e : List.range' call (k + 1 + n) = List.range' call k ++ (call + k) :: List.range' (call + k + 1) n := by
    rw [show k + 1 + n = k + (n + 1) by omega, ← List.range'_append_1, List.range'_succ]
  rw [e, List.filterMap_append, filterMap_none call k h1, List.filterMap_cons, h2]
  rfl

theorem collect_some {V : Type} {ev : Nat → Option V} : ∀ {todo left call : Nat} {vs : List V}, collect ev todo left call = some vs →
    ∃ n, vs = (List.range' call n).filterMap ev ∧ vs.length = todo ∧ n ≤ todo + left ∧ (todo = 0 → n = 0) ∧
      (0 < todo → 0 < n ∧ (ev (call + n - 1)).isSome) := by
  intro todo
  induction todo with
  | zero =>
    intro left call vs h
    simp only [collect, Option.some.injEq] at h
    subst h
    exact ⟨0, rfl, rfl, Nat.zero_le _, fun _ => rfl, fun h => absurd h (lt_irrefl _)⟩
  | succ todo ih =>
    intro left call vs h
    unfold collect at h
    split at h
    · simp at h
    · rename_i v left' call' he
      obtain ⟨k, h1, h2, h3, h4⟩ := tryPoint_some he
      cases hc : collect ev todo left' call' with
      | none => rw [hc] at h; simp at h
      | some ws =>
        rw [hc] at h
        simp only [Option.map_some, Option.some.injEq] at h
        obtain ⟨n, e1, e2, e3, e0, e4⟩ := ih hc
        refine ⟨k + 1 + n, ?_, by rw [← h]; simp [e2], by omega, by omega, fun _ => ⟨by omega, ?_⟩⟩
        · rw [filterMap_step h3 h2, ← h, e1, h1]
        · by_cases hn : 0 < todo
          · obtain ⟨p, q⟩ := e4 hn
            rw [h1] at q
            rw [show call + (k + 1 + n) - 1 = call + k + 1 + n - 1 by omega]; exact q
          · rw [e0 (by omega), show call + (k + 1 + 0) - 1 = call + k by omega, h2]; rfl

theorem collect_none {V : Type} {ev : Nat → Option V} : ∀ {todo left call : Nat}, collect ev todo left call = none →
    ∃ n, ((List.range' call n).filterMap ev).length < todo ∧ n = ((List.range' call n).filterMap ev).length + left + 1 := by
  intro todo
  induction todo with
  | zero => intro left call h; simp [collect] at h
  | succ todo ih =>
    intro left call h
    unfold collect at h
    split at h
    · rename_i he
      have := filterMap_none call (left + 1) fun j hj => tryPoint_none he j (by omega)
      exact ⟨left + 1, by rw [this]; simp, by rw [this]; simp⟩
    · rename_i v left' call' he
      obtain ⟨k, h1, h2, h3, h4⟩ := tryPoint_some he
      have hc : collect ev todo left' call' = none := by
        cases hc : collect ev todo left' call' with
        | none => rfl
        | some ws => rw [hc] at h; simp at h
      obtain ⟨n, e1, e2⟩ := ih hc
      rw [h1] at e1 e2
      refine ⟨k + 1 + n, ?_, ?_⟩ <;> rw [filterMap_step h3 h2] <;> simp only [List.length_cons] <;> omega

/-! ## The matrix -/

section
variable {K : Type} [Field K] [LinearOrder K] [IsStrictOrderedRing K]

theorem compact_spec (d : Dims) (avg : Nat → K) (i : Nat) :
    (compact d (start d avg) i).cnt ≤ i ∧
    (∀ k, k < d.rcC.length + d.rcD.length → (compact d (start d avg) i).val k = avg k ∧
      (compact d (start d avg) i).row k = (start d avg).row k ∧ (compact d (start d avg) i).col k = (start d avg).col k) ∧
    (∀ k, d.rcC.length + d.rcD.length + i ≤ k → (compact d (start d avg) i).val k = avg k) ∧
    (List.range (compact d (start d avg) i).cnt).map (fun k => ((compact d (start d avg) i).col (d.rcC.length + d.rcD.length + k),
      (compact d (start d avg) i).row (d.rcC.length + d.rcD.length + k), (compact d (start d avg) i).val (d.rcC.length + d.rcD.length + k))) =
      (List.range i).filterMap (fun j => if avg (d.rcC.length + d.rcD.length + j) ≠ 0 then
        some (j + 1, d.nc + d.nd + 1, avg (d.rcC.length + d.rcD.length + j)) else none) := by
  induction i with
  | zero => exact ⟨le_refl _, fun k hk => ⟨rfl, rfl, rfl⟩, fun k hk => rfl, rfl⟩
  | succ i ih =>
    obtain ⟨h1, h2, h3, h4⟩ := ih
    unfold compact
    dsimp only
    generalize compact d (start d avg) i = A at *
    have hv := h3 (d.rcC.length + d.rcD.length + i) (le_refl _)
    rw [List.range_succ, List.filterMap_append, ← h4]
    by_cases h : A.val (d.rcC.length + d.rcD.length + i) ≠ 0
    · rw [if_pos h]
      dsimp only
      refine ⟨by omega, fun k hk => ?_, fun k hk => ?_, ?_⟩
      · obtain ⟨a, b, c⟩ := h2 k hk
        refine ⟨?_, ?_, ?_⟩ <;> simp only [upd] <;> rw [if_neg (by omega)] <;> assumption
      · simp only [upd]
        rw [if_neg (by omega)]; exact h3 k (by omega)
      · rw [List.range_succ, List.map_append]
        congr 1
        · apply List.map_congr_left
          intro k hk
          rw [List.mem_range] at hk
          simp only [upd]
          rw [if_neg (by omega), if_neg (by omega), if_neg (by omega)]
        · rw [hv] at h
          simp [upd, h, hv]
    · rw [if_neg h]
      rw [hv] at h
      refine ⟨by omega, h2, fun k hk => h3 k (by omega), ?_⟩
      simp only [ne_eq, not_not] at h
      simp [h]

theorem sum_map_range (n : Nat) (f : Nat → K) : ((List.range n).map f).sum = ∑ i ∈ range n, f i := by
  induction n with
  | zero => simp
  | succ n ih => rw [List.range_succ, List.map_append, List.sum_append, ih, sum_range_succ]; simp

theorem genElem_append (a b : List (Nat × Nat × K)) (r c : Nat) : genElem (a ++ b) r c = genElem a r c + genElem b r c := by
  simp [genElem]

theorem genElem_range (n : Nat) (f : Nat → Nat × Nat × K) (r c : Nat) :
    genElem ((List.range n).map f) r c = ∑ k ∈ range n, if (f k).1 = r + 1 ∧ (f k).2.1 = c + 1 then (f k).2.2 else 0 := by
  unfold genElem
  rw [List.map_map, sum_map_range]
  rfl

theorem genElem_grad (n R : Nat) (v : Nat → K) (c r : Nat) (hc : c < n) :
    genElem ((List.range n).filterMap fun j => if v j ≠ 0 then some (j + 1, R, v j) else none) c r = if R = r + 1 then v c else 0 := by
  have key : ∀ n, genElem ((List.range n).filterMap fun j => if v j ≠ 0 then some (j + 1, R, v j) else none) c r =
      ∑ j ∈ range n, if j = c ∧ R = r + 1 then v j else 0 := by
    intro n
    induction n with
    | zero => simp [genElem]
    | succ n ih =>
      rw [List.range_succ, List.filterMap_append, genElem_append, ih, sum_range_succ]
      congr 1
      by_cases h : v n = 0
      · simp [h, genElem]
      · simp [h, genElem]
  rw [key]
  by_cases h : R = r + 1
  · rw [if_pos h, sum_eq_single_of_mem c (mem_range.2 hc)]
    · simp [h]
    · intro j _ hj; simp [hj]
  · simp [h]

theorem toMc19_list (d : Dims) (avg : Nat → K) :
    (toMc19 d avg).2 =
      (List.range d.rcC.length).map (fun k => ((d.rcC.getD k (0, 0)).2, (d.rcC.getD k (0, 0)).1, avg k)) ++
      (List.range d.rcD.length).map (fun k => ((d.rcD.getD k (0, 0)).2, (d.rcD.getD k (0, 0)).1 + d.nc, avg (d.rcC.length + k))) ++
      (List.range d.nx).filterMap (fun j => if avg (d.rcC.length + d.rcD.length + j) ≠ 0 then
        some (j + 1, d.nc + d.nd + 1, avg (d.rcC.length + d.rcD.length + j)) else none) := by
  obtain ⟨h1, h2, h3, h4⟩ := compact_spec d avg d.nx
  unfold toMc19
  dsimp only
  generalize compact d (start d avg) d.nx = A at *
  rw [List.range_add, List.map_append, List.range_add, List.map_append, ← h4]
  congr 1
  · congr 1
    · apply List.map_congr_left
      intro k hk
      rw [List.mem_range] at hk
      obtain ⟨a, b, c⟩ := h2 k (by omega)
      rw [a, b, c]
      simp [start, hk]
    · rw [List.map_map]
      apply List.map_congr_left
      intro k hk
      rw [List.mem_range] at hk
      obtain ⟨a, b, c⟩ := h2 (d.rcC.length + k) (by omega)
      simp only [Function.comp]
      rw [a, b, c]
      simp [start]
  · rw [List.map_map]
    rfl

end

end Verif.Equil
