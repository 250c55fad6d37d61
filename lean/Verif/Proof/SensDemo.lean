import Verif.Proof.Sens7

/-! # Example for sIPOPT

Parameter `p`, variables `y`, `w`: minimize `(y-p)²/2 + (w+p)²/2`, subject to `p = 0`, `y ≤ 1`, `w ≤ 1`.  All values are 0 at the solution. -/

namespace Verif.Sens
open Finset
set_option linter.unusedSectionVars false
set_option linter.unusedSimpArgs false
set_option linter.unusedVariables false

/-- an exact solver for dense systems. -/
noncomputable def demoLU (n : Nat) (S : Nat → ℚ) (b : List ℚ) : List ℚ :=
  if n = 1 then [b.getD 0 0 / S 0]
  else Classical.epsilon fun x : List ℚ => x.length = n ∧ ∀ i, i < n → mulVec n (fun i j => S (i + j * n)) (fun j => x.getD j 0) i = b.getD i 0

/-- the exact solver for the primal-dual system of the example. -/
noncomputable def demoEnv : Env ℚ where
  solve r :=
    let r := r.flatten
    let p := r.getD 3 0
    let y := r.getD 1 0 + p - r.getD 4 0
    let w := r.getD 2 0 - p - r.getD 5 0
    (true, [[p, y, w], [], [r.getD 0 0 - 2 * p + y - w], [], [], [r.getD 4 0, r.getD 5 0], [], []])
  lu := demoLU
  junk := 17

/-- the matrix of the example, by rows. -/
def demoRows : List (List ℚ) := [[2, -1, 1, 1, 0, 0], [-1, 1, 0, 0, 1, 0], [1, 0, 1, 0, 0, 1], [1, 0, 0, 0, 0, 0], [0, 0, 0, 0, 1, 0], [0, 0, 0, 0, 0, 1]]

def demoM (i j : Nat) : ℚ := (demoRows.getD i []).getD j 0

def demoProb (check : Bool) : Prob ℚ where
  dims := [3, 0, 1, 0, 0, 2, 0, 0]
  pL := []
  pU := [1, 2]
  xL := []
  xU := [1, 1]
  curr := [[0, 0, 0], [], [0], [], [], [0, 0], [], []]
  resid := [[0, 0, 0], [], [0], [], [], [0, 0], [], []]
  eps := 1 / 1000
  kkt := false
  check := check

theorem demo_lu : LUExact demoEnv := by
  intro n S b hb hU
  show (demoLU n S b).length = n ∧ _
  unfold demoEnv
  dsimp only
  unfold demoLU
  by_cases h : n = 1
  · subst h
    rw [if_pos rfl]
    refine ⟨rfl, ?_⟩
    have h0 : S 0 ≠ 0 := by
      intro h0
      have := hU (fun _ => 1) (by
        intro i hi
        have : i = 0 := by omega
        subst this
        simp [mulVec, h0]) 0 (by omega)
      simp at this
    intro i hi
    have : i = 0 := by omega
    subst this
    simp [mulVec]
    field_simp
  · rw [if_neg h]
    exact Classical.epsilon_spec (exists_solution n _ hU b)

theorem demo_mulVec (v : Nat → ℚ) : mulVec 6 demoM v 0 = 2 * v 0 - v 1 + v 2 + v 3 ∧ mulVec 6 demoM v 1 = -v 0 + v 1 + v 4 ∧
    mulVec 6 demoM v 2 = v 0 + v 2 + v 5 ∧ mulVec 6 demoM v 3 = v 0 ∧ mulVec 6 demoM v 4 = v 4 ∧ mulVec 6 demoM v 5 = v 5 := by
  simp [mulVec, Finset.sum_range_succ, demoM, demoRows]
  ring

theorem demo_exact (check : Bool) : Exact demoEnv (demoProb check).dims demoM := by
  intro rhs hs
  refine ⟨rfl, ?_⟩
  have hd : (demoProb check).dims.sum = 6 := rfl
  rw [hd]
  obtain ⟨m0, m1, m2, m3, m4, m5⟩ := demo_mulVec (elt (demoEnv.solve rhs).2)
  intro i hi
  have e : ∀ k, elt (demoEnv.solve rhs).2 k = ([elt rhs 3, elt rhs 1 + elt rhs 3 - elt rhs 4, elt rhs 2 - elt rhs 3 - elt rhs 5,
      elt rhs 0 - 2 * elt rhs 3 + (elt rhs 1 + elt rhs 3 - elt rhs 4) - (elt rhs 2 - elt rhs 3 - elt rhs 5), elt rhs 4, elt rhs 5] : List ℚ).getD k 0 := fun k => rfl
  match i, hi with
  | 0, _ => rw [m0, e 0, e 1, e 2, e 3]; simp; try ring
  | 1, _ => rw [m1, e 0, e 1, e 4]; simp; try ring
  | 2, _ => rw [m2, e 0, e 2, e 5]; simp; try ring
  | 3, _ => rw [m3, e 0]; simp
  | 4, _ => rw [m4, e 4]; simp
  | 5, _ => rw [m5, e 5]; simp

theorem demo_fixable {F : List Nat} (h : F = [] ∨ F = [1] ∨ F = [2]) : Fixable 6 demoM F := by
  intro v h1 h2
  obtain ⟨m0, m1, m2, m3, m4, m5⟩ := demo_mulVec v
  have a0 := h2 0 (by omega) (by rcases h with h | h | h <;> subst h <;> decide)
  have a3 := h2 3 (by omega) (by rcases h with h | h | h <;> subst h <;> decide)
  have a4 := h2 4 (by omega) (by rcases h with h | h | h <;> subst h <;> decide)
  have a5 := h2 5 (by omega) (by rcases h with h | h | h <;> subst h <;> decide)
  rw [m0] at a0; rw [m3] at a3; rw [m4] at a4; rw [m5] at a5
  have b1 : v 1 = 0 := by
    by_cases hm : 1 ∈ F
    · exact h1 1 hm
    · have := h2 1 (by omega) hm; rw [m1] at this; linarith
  have b2 : v 2 = 0 := by
    by_cases hm : 2 ∈ F
    · exact h1 2 hm
    · have := h2 2 (by omega) hm; rw [m2] at this; linarith
  intro j hj
  match j, hj with
  | 0, _ => exact a3
  | 1, _ => exact b1
  | 2, _ => exact b2
  | 3, _ => linarith
  | 4, _ => exact a4
  | 5, _ => exact a5

theorem demo_unique : Unique 6 demoM := by
  intro v h
  exact demo_fixable (Or.inl rfl) v (by simp) (fun i hi _ => h i hi)

theorem demo_ok (check : Bool) : (demoProb check).OK := by
  refine ⟨rfl, rfl, rfl, rfl, rfl, by simp [demoProb], by simp [demoProb], ?_, by norm_num [demoProb]⟩
  intro k l hk
  simp [demoProb] at hk

/-- the parameter is changed to 2. -/
def demoStates : List (List Nat × List ℚ) := [([1, 0, 0], [2, 0, 0])]

theorem demo_labels (check : Bool) : (demoProb check).Labels 1 [1] demoStates := by
  refine ⟨rfl, rfl, by omega, ?_, ?_, ?_, ?_⟩
  · intro s hs k h1 h2
    have : k = 1 := by omega
    subst this
    simp [demoStates] at hs; subst hs; simp
  · intro s hs i j hi hj
    simp [demoStates] at hs; subst hs
    simp at hi hj
    have : i = 0 ∨ i = 1 ∨ i = 2 := by omega
    have : j = 0 ∨ j = 1 ∨ j = 2 := by omega
    rcases ‹i = 0 ∨ _› with rfl | rfl | rfl <;> rcases ‹j = 0 ∨ _› with rfl | rfl | rfl <;> simp
  · intro s hs i
    simp [demoStates] at hs; subst hs
    by_cases h : i < 3
    · have : i = 0 ∨ i = 1 ∨ i = 2 := by omega
      rcases this with rfl | rfl | rfl <;> simp
    · rw [List.getD_eq_default _ _ (by simp; omega)]; omega
  · intro s hs
    simp [demoStates] at hs; subst hs; rfl

theorem demo_run : ((demoProb true).sens demoEnv 10 [1] demoStates).map (fun e => (e.1, e.2.sol, e.2.sens, e.2.pc.A.idx)) =
    [(.ret true, [[2, 1, -2], [], [-1], [], [], [0, 0], [], []], [[2, 1, -2], [], [-1], [], [], [0, 0], [], []], [1])] := by
  decide +kernel

end Verif.Sens
