import Verif.Proof.Sens5
import Mathlib.LinearAlgebra.Matrix.ToLin
import Mathlib.LinearAlgebra.FiniteDimensional.Lemmas
import Mathlib.Algebra.BigOperators.Fin

/-! # Proofs for sIPOPT: runs without bound check, sensitivity matrix, existence of a solver -/

namespace Verif.Sens
open Finset
set_option linter.unusedSectionVars false
set_option linter.unusedSimpArgs false
set_option linter.unusedVariables false

section
variable {K : Type} [Field K] [LinearOrder K] [IsStrictOrderedRing K] {P : Prob K}

/-! ### no bound check -/

theorem step_off {E : Env K} (hc : P.check = false) (fuel : Nat) (E0 : Data) (du : List K) (pc : PC K) (d : Drv K) :
    (P.step E fuel E0 du pc d).1 = .ret true ∧ (P.step E fuel E0 du pc d).2.sens = (E.solve (P.rhs E0 du)).2 ∧
      (P.step E fuel E0 du pc d).2.sol = axpy 1 P.curr (E.solve (P.rhs E0 du)).2 := by
  unfold Prob.step
  rw [hc]
  exact ⟨rfl, rfl, rfl⟩

theorem run_off {E : Env K} (hc : P.check = false) {fuel : Nat} {E0 : Data} (l : List (List K × Drv K)) : ∀ pc : PC K,
    (P.run E fuel E0 l pc).length = l.length ∧ ∀ (k : Nat) (e : End × St K), (P.run E fuel E0 l pc)[k]? = some e → ∃ x, l[k]? = some x ∧
      e.1 = .ret true ∧ e.2.sens = (E.solve (P.rhs E0 x.1)).2 ∧ e.2.sol = axpy 1 P.curr (E.solve (P.rhs E0 x.1)).2 := by
  induction l with
  | nil => intro pc; exact ⟨rfl, by intro k e h; simp [Prob.run] at h⟩
  | cons x l ih =>
    intro pc
    obtain ⟨du, d⟩ := x
    unfold Prob.run
    dsimp only
    obtain ⟨s1, s2, s3⟩ := step_off (E := E) hc fuel E0 du pc d
    rw [s1]
    dsimp only
    obtain ⟨i1, i2⟩ := ih (P.step E fuel E0 du pc d).2.pc
    refine ⟨by simp [i1], ?_⟩
    intro k e he
    cases k with
    | zero => simp at he; subst he; exact ⟨(du, d), rfl, s1, s2, s3⟩
    | succ k =>
      rw [List.getElem?_cons_succ] at he
      obtain ⟨y, y1, y2⟩ := i2 k e he
      exact ⟨y, by simpa using y1, y2⟩

theorem result_off {E : Env K} {M : Nat → Nat → K} (hP : P.OK) (hE : Exact E P.dims M) (hc : P.check = false) {rhs : Blocks K} (hr : Shape P.dims rhs) :
    P.Result M (elt rhs) (elt (axpy 1 P.curr (E.solve rhs).2)) (elt (E.solve rhs).2) [] := by
  obtain ⟨q1, q2⟩ := hE _ hr
  refine ⟨fun i hi => ?_, fun i hi _ => q2 i hi, by simp, by simp [hc], fun _ => rfl⟩
  rw [axpy_elt q1 hP.curr 1 hi]; ring

/-! ### the sensitivity matrix -/

theorem zeroing (labels : List Nat) (w : List K) : ∀ m,
    ((List.range m).foldl (fun w j => if 0 < labels.getD j 0 then w.set (labels.getD j 0 - 1) 0 else w) w).length = w.length ∧
    ∀ k, (∃ j, j < m ∧ labels.getD j 0 = k + 1) →
      ((List.range m).foldl (fun w j => if 0 < labels.getD j 0 then w.set (labels.getD j 0 - 1) 0 else w) w).getD k 0 = 0 := by
  intro m
  induction m with
  | zero => exact ⟨rfl, by rintro k ⟨j, hj, _⟩; omega⟩
  | succ m ih =>
    obtain ⟨i1, i2⟩ := ih
    rw [List.range_succ, List.foldl_append]
    simp only [List.foldl_cons, List.foldl_nil]
    generalize (List.range m).foldl _ _ = v at i1 i2
    by_cases h0 : 0 < labels.getD m 0
    · rw [if_pos h0]
      refine ⟨by simp [i1], ?_⟩
      rintro k ⟨j, hj, e⟩
      by_cases hk : labels.getD m 0 - 1 = k
      · rw [hk]
        by_cases hl : k < v.length
        · rw [set_getD _ _ _ _ hl, if_pos rfl]
        · rw [List.getD_eq_default _ _ (by simp; omega)]
      · rw [List.getD_eq_getElem?_getD, List.getElem?_set_ne hk, ← List.getD_eq_getElem?_getD]
        refine i2 k ⟨j, ?_, e⟩
        have : j ≠ m := by intro ee; subst ee; omega
        omega
    · rw [if_neg h0]
      refine ⟨i1, ?_⟩
      rintro k ⟨j, hj, e⟩
      refine i2 k ⟨j, ?_, e⟩
      have : j ≠ m := by intro ee; subst ee; omega
      omega

theorem dsdpDu_at {labels : List Nat} {n : Nat} (hall : ∀ k, k < n → ∃ j, j < labels.length ∧ labels.getD j 0 = k + 1) {i : Nat} (hi : 0 < labels.getD i 0)
    (hn : labels.getD i 0 ≤ n) {w : List K} (hw : w.length = n) :
    (dsdpDu labels i w).length = n ∧ ∀ k, k < n → (dsdpDu labels i w).getD k 0 = if labels.getD i 0 = k + 1 then 1 else 0 := by
  unfold dsdpDu
  obtain ⟨z1, z2⟩ := zeroing labels w labels.length
  refine ⟨by rw [List.length_set, z1, hw], fun k hk => ?_⟩
  rw [set_getD _ _ _ _ (by rw [z1, hw]; omega), z2 k (hall k hk)]
  by_cases e : labels.getD i 0 = k + 1
  · rw [if_pos e, if_pos (by omega)]
  · rw [if_neg e, if_neg (by omega)]

/-- the labels in a list that contains 1, …, `n` in this order. -/
theorem labels_facts {labels : List Nat} {n : Nat} (h : labels.filter (fun l => l ≠ 0) = (List.range n).map (· + 1)) :
    (∀ k, k < n → ∃ j, j < labels.length ∧ labels.getD j 0 = k + 1) ∧ (∀ i, 0 < labels.getD i 0 → labels.getD i 0 ≤ n) ∧
    (∀ i j, 0 < labels.getD i 0 → labels.getD i 0 = labels.getD j 0 → i = j) ∧ (labels.countP fun l => 0 < l) = n := by
  have hfl := filter_labels labels
  rw [h] at hfl
  generalize hLd : ((List.range labels.length).filter fun i => decide (labels.getD i 0 ≠ 0)) = L at hfl
  have hmem : ∀ i, i ∈ L ↔ i < labels.length ∧ labels.getD i 0 ≠ 0 := by intro i; rw [← hLd]; simp
  have hLl : L.length = n := by have := congrArg List.length hfl; simpa using this
  have hLk : ∀ k (hk : k < L.length), labels.getD L[k] 0 = k + 1 := by
    intro k hk
    have : (L.map fun i => labels.getD i 0)[k]'(by simpa using hk) = ((List.range n).map (· + 1))[k]'(by simp; omega) := by
      congr 1
    simpa using this
  have hin : ∀ i, 0 < labels.getD i 0 → i ∈ L := by
    intro i hi
    rw [hmem]
    refine ⟨?_, by omega⟩
    by_contra hh
    rw [List.getD_eq_default _ _ (Nat.le_of_not_lt hh)] at hi
    exact absurd hi (Nat.lt_irrefl 0)
  refine ⟨?_, ?_, ?_, ?_⟩
  · intro k hk
    exact ⟨L[k]'(by omega), ((hmem _).1 (List.getElem_mem _)).1, hLk k (by omega)⟩
  · intro i hi
    obtain ⟨k, hk, rfl⟩ := List.getElem_of_mem (hin i hi)
    rw [hLk k hk]; omega
  · intro i j hi e
    obtain ⟨k, hk, rfl⟩ := List.getElem_of_mem (hin i hi)
    obtain ⟨l, hl, rfl⟩ := List.getElem_of_mem (hin j (by omega))
    rw [hLk k hk, hLk l hl] at e
    have : k = l := by omega
    subst this; rfl
  · rw [List.countP_eq_length_filter]
    have : (fun l : Nat => decide (0 < l)) = fun l => decide (l ≠ 0) := by funext l; simp [Nat.pos_iff_ne_zero]
    rw [this, h]; simp

theorem rhs_unit (hP : P.OK) {labels : List Nat} {n : Nat} (hrows : labels.length = P.dims.getD 2 0)
    (h : labels.filter (fun l => l ≠ 0) = (List.range n).map (· + 1)) {m : Nat} (hm : 0 < labels.getD m 0) {du : List K}
    (hdu : ∀ k, k < n → du.getD k 0 = if labels.getD m 0 = k + 1 then 1 else 0) :
    Shape P.dims (P.rhs (.ofList (initialConstraints (P.dims.getD 0 0 + P.dims.getD 1 0) labels)) du) ∧
    ∀ i, i < P.dims.sum → elt (P.rhs (.ofList (initialConstraints (P.dims.getD 0 0 + P.dims.getD 1 0) labels)) du) i =
      (if i = P.dims.getD 0 0 + P.dims.getD 1 0 + m then 1 else 0) - if P.kkt then elt P.resid i else 0 := by
  have hb := base_lt hP
  obtain ⟨_, _, huniq, _⟩ := labels_facts h
  have hinit := initial_eq (P.dims.getD 0 0 + P.dims.getD 1 0) labels
  have hfl := filter_labels labels
  rw [h] at hfl
  generalize hLd : ((List.range labels.length).filter fun i => decide (labels.getD i 0 ≠ 0)) = L at hinit hfl
  have hmem : ∀ i, i ∈ L ↔ i < labels.length ∧ labels.getD i 0 ≠ 0 := by intro i; rw [← hLd]; simp
  have hLl : L.length = n := by have := congrArg List.length hfl; simpa using this
  have hLk : ∀ k (hk : k < L.length), labels.getD L[k] 0 = k + 1 := by
    intro k hk
    have : (L.map fun i => labels.getD i 0)[k]'(by simpa using hk) = ((List.range n).map (· + 1))[k]'(by simp; omega) := by
      congr 1
    simpa using this
  have hidx : ∀ k (hk : k < L.length), (initialConstraints (P.dims.getD 0 0 + P.dims.getD 1 0) labels).getD k 0 = P.dims.getD 0 0 + P.dims.getD 1 0 + L[k] := by
    intro k hk
    rw [hinit, List.getD_eq_getElem _ _ (by simpa using hk)]
    simp
  have hil : (initialConstraints (P.dims.getD 0 0 + P.dims.getD 1 0) labels).length = L.length := by rw [hinit]; simp
  obtain ⟨r1, r2⟩ := rhs_elt hP (l := initialConstraints (P.dims.getD 0 0 + P.dims.getD 1 0) labels) (by
    intro k hk
    rw [hil] at hk
    rw [hidx k hk]
    have := ((hmem _).1 (List.getElem_mem hk)).1
    rw [hrows] at this
    omega) du
  refine ⟨r1, fun i hi => ?_⟩
  rw [r2 i hi, hil]
  congr 1
  have hterm : ∀ k ∈ range L.length, (if (initialConstraints (P.dims.getD 0 0 + P.dims.getD 1 0) labels).getD k 0 = i then du.getD k 0 else 0) =
      if labels.getD m 0 = k + 1 then (if i = P.dims.getD 0 0 + P.dims.getD 1 0 + m then 1 else 0) else (0 : K) := by
    intro k hk
    have hk' := Finset.mem_range.1 hk
    rw [hidx k hk', hdu k (by omega)]
    by_cases e : labels.getD m 0 = k + 1
    · have em : m = L[k] := huniq m _ hm (by rw [e, hLk k hk'])
      rw [if_pos e, if_pos e, ← em]
      by_cases e2 : i = P.dims.getD 0 0 + P.dims.getD 1 0 + m
      · rw [if_pos e2, if_pos e2.symm]
      · rw [if_neg e2, if_neg (Ne.symm e2)]
    · rw [if_neg e, if_neg e]; simp
  rw [Finset.sum_congr rfl hterm]
  have hle := (labels_facts h).2.1 m hm
  rw [Finset.sum_eq_single (labels.getD m 0 - 1)]
  · rw [if_pos (by omega)]
  · intro l _ hne
    rw [if_neg (by omega)]
  · intro hh; exfalso; apply hh; rw [Finset.mem_range]; omega

/-- columns of the sensitivity matrix, from row `i` on. -/
theorem dsdp_off {E : Env K} {M : Nat → Nat → K} (hP : P.OK) (hE : Exact E P.dims M) (hc : P.check = false) {fuel : Nat} {labels : List Nat} {n : Nat}
    (hrows : labels.length = P.dims.getD 2 0) (h : labels.filter (fun l => l ≠ 0) = (List.range n).map (· + 1)) :
    ∀ (m i : Nat) (w : List K) (pc : PC K) (d : Drv K), w.length = n →
    (P.dsdp E fuel (.ofList (initialConstraints (P.dims.getD 0 0 + P.dims.getD 1 0) labels)) labels m i w pc d).map Prod.fst =
      List.replicate ((List.range' i m).filter (fun j => 0 < labels.getD j 0)).length (.ret true) ∧
    ∀ (k : Nat) (e : End × Blocks K), (P.dsdp E fuel (.ofList (initialConstraints (P.dims.getD 0 0 + P.dims.getD 1 0) labels)) labels m i w pc d)[k]? = some e →
      ∃ r, ((List.range' i m).filter (fun j => 0 < labels.getD j 0))[k]? = some r ∧ Shape P.dims e.2 ∧
        ∀ j, j < P.dims.sum → mulVec P.dims.sum M (elt e.2) j =
          (if j = P.dims.getD 0 0 + P.dims.getD 1 0 + r then 1 else 0) - if P.kkt then elt P.resid j else 0 := by
  obtain ⟨hall, hle, _, _⟩ := labels_facts h
  intro m
  induction m with
  | zero => intro i w pc d _; exact ⟨rfl, by intro k e he; simp [Prob.dsdp] at he⟩
  | succ m ih =>
    intro i w pc d hw
    unfold Prob.dsdp
    rw [List.range'_succ]
    by_cases h0 : 0 < labels.getD i 0
    · rw [if_pos h0]
      dsimp only
      obtain ⟨u1, u2⟩ := dsdpDu_at hall h0 (hle i h0) hw
      obtain ⟨s1, s2, s3⟩ := step_off (E := E) hc fuel (.ofList (initialConstraints (P.dims.getD 0 0 + P.dims.getD 1 0) labels)) (dsdpDu labels i w) pc d
      obtain ⟨v1, v2⟩ := rhs_unit hP hrows h h0 u2
      rw [s1]
      dsimp only
      obtain ⟨i1, i2⟩ := ih (i + 1) (dsdpDu labels i w) (P.step E fuel (.ofList (initialConstraints (P.dims.getD 0 0 + P.dims.getD 1 0) labels)) (dsdpDu labels i w) pc d).2.pc
        (P.step E fuel (.ofList (initialConstraints (P.dims.getD 0 0 + P.dims.getD 1 0) labels)) (dsdpDu labels i w) pc d).2.drv u1
      rw [List.filter_cons_of_pos (by simpa using h0)]
      refine ⟨?_, ?_⟩
      · rw [List.map_cons, i1, List.length_cons, List.replicate_succ]
      · intro k e he
        cases k with
        | zero =>
          simp only [List.getElem?_cons_zero, Option.some.injEq] at he
          subst he
          refine ⟨i, by simp, ?_⟩
          dsimp only
          rw [s2]
          obtain ⟨q1, q2⟩ := hE _ v1
          exact ⟨q1, fun j hj => by rw [q2 j hj, v2 j hj]⟩
        | succ k =>
          rw [List.getElem?_cons_succ] at he
          rw [List.getElem?_cons_succ]
          exact i2 k e he
    · rw [if_neg h0, List.filter_cons_of_neg (by simpa using h0)]
      exact ih (i + 1) w pc d hw
end

/-! ### there is a solver -/

/-- a solution of a nonsingular system exists. -/
theorem exists_solution {K : Type} [Field K] (n : Nat) (M : Nat → Nat → K) (h : Unique n M) (b : List K) :
    ∃ x : List K, x.length = n ∧ ∀ i, i < n → mulVec n M (fun j => x.getD j 0) i = b.getD i 0 := by
  let A : _root_.Matrix (Fin n) (Fin n) K := fun i j => M i j
  have conv : ∀ (v : Nat → K) (i : Fin n), mulVec n M v i = A.mulVec (fun j => v j) i := by
    intro v i
    unfold mulVec _root_.Matrix.mulVec dotProduct
    rw [Finset.sum_range]
  have hinj : Function.Injective A.mulVecLin := by
    rw [injective_iff_map_eq_zero]
    intro v hv
    have : ∀ i, i < n → mulVec n M (fun j => if hj : j < n then v ⟨j, hj⟩ else 0) i = 0 := by
      intro i hi
      rw [conv _ ⟨i, hi⟩]
      have e : (fun j : Fin n => (if hj : (j : Nat) < n then v ⟨j, hj⟩ else 0)) = v := by funext j; simp
      rw [e]
      have := congrFun hv ⟨i, hi⟩
      simpa [_root_.Matrix.mulVecLin_apply] using this
    funext j
    have := h _ this j j.2
    simpa using this
  obtain ⟨x, hx⟩ := (LinearMap.injective_iff_surjective.1 hinj) (fun i => b.getD i 0)
  refine ⟨List.ofFn x, by simp, ?_⟩
  intro i hi
  rw [conv _ ⟨i, hi⟩]
  have e : (fun j : Fin n => (List.ofFn x).getD j 0) = x := by
    funext j
    rw [List.getD_eq_getElem _ _ (by simp)]
    simp
  rw [e]
  have := congrFun hx ⟨i, hi⟩
  simpa [_root_.Matrix.mulVecLin_apply] using this

end Verif.Sens
