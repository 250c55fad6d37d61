import Verif.Proof.SensDemo

/-! # C78, C79: sIPOPT

C78: sensitivity steps and sensitivity matrix; C79: the reduced Hessian.  `M` is the matrix of the primal-dual system at the solution. -/

namespace Verif.Sens
open Finset
set_option linter.unusedSectionVars false
set_option linter.unusedSimpArgs false
set_option linter.unusedVariables false

section
variable {K : Type} [Field K] [LinearOrder K] [IsStrictOrderedRing K] {P : Prob K}

/-- C78: without bound check, every step is a solution of the linearized optimality conditions for the new values of the parameters. -/
theorem sens_step {E : Env K} {M : Nat → Nat → K} (hP : P.OK) (hE : Exact E P.dims M) (hc : P.check = false) (fuel : Nat) {n : Nat} {flags : List Nat}
    {states : List (List Nat × List K)} (hl : P.Labels n flags states) :
    (P.sens E fuel flags states).length = states.length ∧ ∀ (k : Nat) (e : End × St K), (P.sens E fuel flags states)[k]? = some e →
      e.1 = .ret true ∧ ∃ s, states[k]? = some s ∧ P.Result M (P.change flags s) (elt e.2.sol) (elt e.2.sens) [] := by
  unfold Prob.sens
  obtain ⟨r1, r2⟩ := run_off (E := E) (P := P) hc (fuel := fuel) (E0 := .ofList (initialConstraints (P.dims.getD 0 0 + P.dims.getD 1 0) flags))
    (states.map fun s => (measurement E (indexMax (states.getD 0 ([], [])).1) s.1 s.2 (P.curr.getD 0 []), .new)) (.new .empty)
  refine ⟨by rw [r1]; simp, fun k e he => ?_⟩
  obtain ⟨x, x1, x2, x3, x4⟩ := r2 k e he
  refine ⟨x2, ?_⟩
  rw [List.getElem?_map] at x1
  cases hs : states[k]? with
  | none => rw [hs] at x1; simp at x1
  | some s =>
    rw [hs] at x1
    simp only [Option.map_some, Option.some.injEq] at x1
    refine ⟨s, rfl, ?_⟩
    obtain ⟨h1, h2⟩ := rhs_change (E := E) hP hl (List.mem_of_getElem? hs)
    have hr := result_off hP hE hc h1
    rw [x3, x4, ← x1]
    dsimp only
    exact ⟨hr.sum, fun i hi hn => (hr.eqs i hi hn).trans (h2 i hi), hr.active, hr.within, hr.off⟩

/-- C78: with or without bound check, the number of steps is not limited: a run does every step, or stops at a step (not the first one, and only with
bound check) with a null pointer; every other step ends, and its result solves the linearized optimality conditions, except at the components that
were fixed because they left their bounds; all bounds hold.  Condition: the systems that belong to the components fixed so far are nonsingular. -/
theorem sens_steps {E : Env K} {M : Nat → Nat → K} (hP : P.OK) (hE : Exact E P.dims M) (hLU : LUExact E) (hU : Unique P.dims.sum M) {fuel : Nat}
    (hf : P.dims.getD 0 0 + P.dims.getD 4 0 + P.dims.getD 5 0 < fuel) {n : Nat} {flags : List Nat} {states : List (List Nat × List K)}
    (hl : P.Labels n flags states)
    (hF : ∀ e ∈ P.sens E fuel flags states, ∀ G, G <+: e.2.pc.A.idx → G ≠ [] → Fixable P.dims.sum M G) :
    ((P.sens E fuel flags states).length = states.length ∨
      ∃ k e, k ≠ 0 ∧ (P.sens E fuel flags states).length = k + 1 ∧ (P.sens E fuel flags states)[k]? = some e ∧ e.1 = .undef) ∧
    ∀ (k : Nat) (e : End × St K), (P.sens E fuel flags states)[k]? = some e →
      (e.1 = .undef ∧ k ≠ 0 ∧ P.check = true) ∨ ((∃ b, e.1 = .ret b) ∧ ∃ s, states[k]? = some s ∧
        P.Result M (P.change flags s) (elt e.2.sol) (elt e.2.sens) e.2.pc.A.idx) := by
  unfold Prob.sens at hF ⊢
  have hm : (states.map fun s => ((measurement E (indexMax (states.getD 0 ([], [])).1) s.1 s.2 (P.curr.getD 0 []), .new) : List K × Drv K)) =
      (states.map fun s => measurement E (indexMax (states.getD 0 ([], [])).1) s.1 s.2 (P.curr.getD 0 [])).map fun du => (du, .new) := by
    rw [List.map_map]; rfl
  rw [hm] at hF ⊢
  obtain ⟨r1, r2⟩ := run_spec hP hE hLU hU hf (states.map fun s => measurement E (indexMax (states.getD 0 ([], [])).1) s.1 s.2 (P.curr.getD 0 [])) (by
    intro du hd
    obtain ⟨s, hs, rfl⟩ := List.mem_map.1 hd
    exact (rhs_change (E := E) hP hl hs).1) (.new .empty) (by intro c l h; simp [PC.new] at h) rfl hF
  have h0 : (PC.new .empty : PC K).ncols = 0 := rfl
  constructor
  · rcases r1 with r1 | ⟨k, k1, e, k2, k3, k4⟩
    · left; rw [r1]; simp
    · right; exact ⟨k, e, fun h => k4 h h0, k1, k2, k3⟩
  · intro k e he
    rcases r2 k e he with ⟨a1, a2, a3⟩ | ⟨a1, du, a2, a3⟩
    · exact Or.inl ⟨a1, fun h => a2 h h0, a3⟩
    · right
      refine ⟨a1, ?_⟩
      rw [List.getElem?_map] at a2
      cases hs : states[k]? with
      | none => rw [hs] at a2; simp at a2
      | some s =>
        rw [hs] at a2
        simp only [Option.map_some, Option.some.injEq] at a2
        subst a2
        obtain ⟨h1, h2⟩ := rhs_change (E := E) hP hl (List.mem_of_getElem? hs)
        exact ⟨s, rfl, a3.sum, fun i hi hn => (a3.eqs i hi hn).trans (h2 i hi), a3.active, a3.within, a3.off⟩

/-- the conditions of both theorems hold in the example, where one bound is fixed. -/
example : ∃ s e, (demoProb true).sens demoEnv 10 [1] demoStates = [e] ∧ s ∈ demoStates ∧ e.2.pc.A.idx = [1] ∧
    (demoProb true).Result demoM ((demoProb true).change [1] s) (elt e.2.sol) (elt e.2.sens) [1] := by
  have hrun := demo_run
  have hlen : ((demoProb true).sens demoEnv 10 [1] demoStates).length = 1 := by
    have := congrArg List.length hrun
    simpa using this
  obtain ⟨e, he⟩ := List.length_eq_one_iff.1 hlen
  rw [he] at hrun
  simp only [List.map_cons, List.map_nil, List.cons.injEq, Prod.mk.injEq, and_true] at hrun
  obtain ⟨e1, _, _, e4⟩ := hrun
  obtain ⟨_, h⟩ := sens_steps (demo_ok true) (demo_exact true) demo_lu demo_unique (fuel := 10) (by decide) (demo_labels true) (by
    intro e' he' G g1 g2
    rw [he] at he'
    rw [List.mem_singleton] at he'
    subst he'
    rw [e4] at g1
    rcases List.prefix_cons_iff.1 g1 with g | ⟨t, rfl, g⟩
    · exact absurd g g2
    · have : t = [] := List.prefix_nil.1 g
      subst this
      exact demo_fixable (Or.inr (Or.inl rfl)))
  rcases h 0 e (by rw [he]; rfl) with ⟨a, _⟩ | ⟨_, s, s1, s2⟩
  · rw [e1] at a; simp at a
  · rw [e4] at s2
    exact ⟨s, e, he, List.mem_of_getElem? s1, e4, s2⟩

/-- C78: if the flagged constraint with number `k` is the equation `x_v = const` for the variable `v` with label `k`, and this variable was not fixed at
a bound, then this variable has the value that was asked for. -/
theorem sens_parameter {M : Nat → Nat → K} {flags : List Nat} {s : List Nat × List K} {sol step : Nat → K} {F : List Nat} (hP : P.OK)
    (hR : P.Result M (P.change flags s) sol step F) (hk : P.kkt = false) {j : Nat} (hj : flags.getD j 0 ≠ 0) (hj2 : j < P.dims.getD 2 0)
    (hv : s.1.idxOf (number flags j) < P.dims.getD 0 0)
    (hM : ∀ l, l < P.dims.sum → M (P.dims.getD 0 0 + P.dims.getD 1 0 + j) l = if l = s.1.idxOf (number flags j) then 1 else 0)
    (hn : P.dims.getD 0 0 + P.dims.getD 1 0 + j ∉ F) :
    sol (s.1.idxOf (number flags j)) = s.2.getD (s.1.idxOf (number flags j)) 0 := by
  have hb := base_lt hP
  have he := hR.eqs _ (by omega) hn
  have hpos : 0 < number flags j := by
    unfold number
    rw [if_neg hj]
    have hi : j < flags.length := by
      by_contra hh
      exact hj (List.getD_eq_default _ _ (by omega))
    rw [List.countP_pos_iff]
    rw [List.getD_eq_getElem _ _ hi] at hj
    exact ⟨flags[j], List.mem_take_iff_getElem.2 ⟨j, by omega, rfl⟩, by simpa using hj⟩
  unfold Prob.change at he
  rw [Nat.add_sub_cancel_left, if_pos ⟨by omega, hpos⟩, hk] at he
  unfold mulVec at he
  rw [Finset.sum_congr rfl (fun l hl => by rw [hM l (Finset.mem_range.1 hl)]), Finset.sum_eq_single (s.1.idxOf (number flags j))] at he
  · simp only [if_true, one_mul, Bool.false_eq_true, if_false, sub_zero] at he
    rw [hR.sum _ (by omega), he, x_elt hP hP.curr hv]
    ring
  · intro l _ hne; rw [if_neg hne, zero_mul]
  · intro hh; exfalso; exact hh (Finset.mem_range.2 (by omega))

/-- the constraint of the example is of this kind. -/
example : ([1] : List Nat).getD 0 0 ≠ 0 ∧ ([1, 0, 0] : List Nat).idxOf (number [1] 0) = 0 ∧
    ∀ l, l < (demoProb true).dims.sum → demoM ((demoProb true).dims.getD 0 0 + (demoProb true).dims.getD 1 0 + 0) l = if l = 0 then 1 else 0 := by
  decide +kernel

/-- C78: the values of the flags do not matter, only which constraints are flagged. -/
theorem sens_flags (E : Env K) (fuel : Nat) (states : List (List Nat × List K)) {flags flags' : List Nat} (hl : flags.length = flags'.length)
    (h : ∀ i, flags.getD i 0 = 0 ↔ flags'.getD i 0 = 0) : P.sens E fuel flags states = P.sens E fuel flags' states := by
  unfold Prob.sens
  rw [initial_flags hl h]

/-- C78: the return value of the backsolver is ignored without bound check: a step with a failed solution of the linear system counts as a success. -/
theorem sens_failure_ignored (E : Env K) (hc : P.check = false) (fuel : Nat) (flags : List Nat) (states : List (List Nat × List K)) :
    ∀ e ∈ P.sens E fuel flags states, e.1 = .ret true := by
  intro e he
  obtain ⟨k, hk⟩ := List.getElem?_of_mem he
  obtain ⟨x, _, h, _⟩ := (run_off (E := E) (P := P) hc (fuel := fuel) _ _).2 k e hk
  exact h

/-- C78: columns of the sensitivity matrix, if the flags are 1, 2, … in the order of the constraints and there is no bound check: column `k` is the
derivative of the solution with respect to the right-hand side of the constraint with flag `k`, minus the step for the residuals if these are taken into
account. -/
theorem sens_matrix {E : Env K} {M : Nat → Nat → K} (hP : P.OK) (hE : Exact E P.dims M) (hc : P.check = false) (fuel : Nat) {flags : List Nat} {n : Nat}
    (hrows : flags.length = P.dims.getD 2 0) (h : flags.filter (fun l => l ≠ 0) = (List.range n).map (· + 1)) :
    (P.sensMatrix E fuel flags).length = n ∧ ∀ (k : Nat) (e : End × Blocks K), (P.sensMatrix E fuel flags)[k]? = some e →
      e.1 = .ret true ∧ Shape P.dims e.2 ∧ ∀ j, j < P.dims.sum → mulVec P.dims.sum M (elt e.2) j =
        (if j = P.dims.getD 0 0 + P.dims.getD 1 0 + flags.idxOf (k + 1) then 1 else 0) - if P.kkt then elt P.resid j else 0 := by
  obtain ⟨_, hle, huniq, hcount⟩ := labels_facts h
  unfold Prob.sensMatrix
  obtain ⟨d1, d2⟩ := dsdp_off (fuel := fuel) hP hE hc hrows h flags.length 0 (List.replicate (flags.countP fun l => 0 < l) E.junk) (.new .empty) .new
    (by rw [hcount]; simp)
  have hfl := filter_labels flags
  rw [h] at hfl
  have hL : ((List.range' 0 flags.length).filter fun j => decide (0 < flags.getD j 0)) = (List.range flags.length).filter fun i => decide (flags.getD i 0 ≠ 0) := by
    rw [List.range_eq_range']
    congr 1
    funext j
    simp [Nat.pos_iff_ne_zero]
  rw [hL] at d1 d2
  generalize ((List.range flags.length).filter fun i => decide (flags.getD i 0 ≠ 0)) = L at hfl d1 d2
  have hLl : L.length = n := by have := congrArg List.length hfl; simpa using this
  constructor
  · have := congrArg List.length d1
    simpa [hLl] using this
  · intro k e he
    obtain ⟨r, r1, r2, r3⟩ := d2 k e he
    have he1 : e.1 = .ret true := by
      have hm : e.1 ∈ List.replicate L.length (End.ret true) := by
        rw [← d1]; exact List.mem_map.2 ⟨e, List.mem_of_getElem? he, rfl⟩
      exact (List.mem_replicate.1 hm).2
    refine ⟨he1, r2, ?_⟩
    obtain ⟨hk, hr⟩ := List.getElem?_eq_some_iff.1 r1
    have hlab : flags.getD r 0 = k + 1 := by
      have : (L.map fun i => flags.getD i 0)[k]'(by simpa using hk) = ((List.range n).map (· + 1))[k]'(by simp; omega) := by
        congr 1
      simp only [List.getElem_map, List.getElem_range] at this
      rw [hr] at this
      exact this
    have hlt : r < flags.length := by
      by_contra hh
      rw [List.getD_eq_default _ _ (by omega)] at hlab
      omega
    have hm : k + 1 ∈ flags := by rw [← hlab, List.getD_eq_getElem _ _ hlt]; exact List.getElem_mem _
    have hlt2 := List.idxOf_lt_length_iff.2 hm
    have hat : flags.getD (flags.idxOf (k + 1)) 0 = k + 1 := by rw [List.getD_eq_getElem _ _ hlt2, List.getElem_idxOf]
    have : r = flags.idxOf (k + 1) := huniq _ _ (by omega) (by rw [hlab, hat])
    rw [← this]
    exact r3

/-- the conditions hold in the example; its sensitivity matrix. -/
example : ((demoProb false).sensMatrix demoEnv 10 [1]) = [(.ret true, [[1, 1, -1], [], [0], [], [], [0, 0], [], []])] ∧
    ([1] : List Nat).length = (demoProb false).dims.getD 2 0 ∧ ([1] : List Nat).filter (fun l => l ≠ 0) = (List.range 1).map (· + 1) := by
  decide +kernel

/-- C78: if two constraints have the same flag 1 (as in the documentation of the suffix), then both columns of the sensitivity matrix are equal, and they
depend on uninitialized memory. -/
theorem sens_matrix_flags (E : Env K) (hc : P.check = false) (fuel : Nat) :
    ∀ c ∈ P.sensMatrix E fuel [1, 1], c = (.ret true, (E.solve (P.rhs (.ofList (initialConstraints (P.dims.getD 0 0 + P.dims.getD 1 0) [1, 1])) [1, E.junk])).2) := by
  unfold Prob.sensMatrix
  have hw : dsdpDu [1, 1] 0 (List.replicate (([1, 1] : List Nat).countP fun l => 0 < l) E.junk) = [1, E.junk] := by
    simp [dsdpDu, List.range_succ]
  have hw' : dsdpDu [1, 1] 1 [1, E.junk] = [1, E.junk] := by
    simp [dsdpDu, List.range_succ]
  have hlen : ([1, 1] : List Nat).length = 2 := rfl
  rw [hlen]
  unfold Prob.dsdp
  rw [if_pos (by simp), hw]
  dsimp only
  obtain ⟨s1, s2, _⟩ := step_off (E := E) hc fuel (.ofList (initialConstraints (P.dims.getD 0 0 + P.dims.getD 1 0) [1, 1])) [1, E.junk] (.new .empty) .new
  rw [s1]
  dsimp only
  unfold Prob.dsdp
  rw [if_pos (by simp), hw']
  dsimp only
  obtain ⟨t1, t2, _⟩ := step_off (E := E) hc fuel (.ofList (initialConstraints (P.dims.getD 0 0 + P.dims.getD 1 0) [1, 1])) [1, E.junk]
    (P.step E fuel (.ofList (initialConstraints (P.dims.getD 0 0 + P.dims.getD 1 0) [1, 1])) [1, E.junk] (.new .empty) .new).2.pc
    (P.step E fuel (.ofList (initialConstraints (P.dims.getD 0 0 + P.dims.getD 1 0) [1, 1])) [1, E.junk] (.new .empty) .new).2.drv
  rw [t1]
  dsimp only
  unfold Prob.dsdp
  intro c hm
  simp only [List.mem_cons, List.not_mem_nil, or_false] at hm
  rcases hm with rfl | rfl
  · rw [s2]
  · rw [t2]

/-- C78: two steps with bound check that both leave one bound, but different ones, are not possible: a column that was not computed is used.  (The number
of columns of the first step is still stored.) -/
theorem sens_second_step : ∃ states, (demoProb true).Labels 1 [1] states ∧ states.length = 2 ∧
    ((demoProb true).sens demoEnv 10 [1] states).map Prod.fst = [.ret true, .undef] ∧
    ((demoProb true).sens demoEnv 10 [1] states.reverse).map Prod.fst = [.ret true, .undef] ∧
    ∀ s ∈ states, ((demoProb true).sens demoEnv 10 [1] [s]).map Prod.fst = [.ret true] := by
  refine ⟨[([1, 0, 0], [2, 0, 0]), ([1, 0, 0], [-2, 0, 0])], ⟨rfl, rfl, by omega, ?_, ?_, ?_, ?_⟩, rfl, by decide +kernel, by decide +kernel, ?_⟩
  · intro s hs k h1 h2
    have : k = 1 := by omega
    subst this
    simp at hs; rcases hs with rfl | rfl <;> simp
  · intro s hs i j hi hj
    simp only [List.mem_cons, List.not_mem_nil, or_false] at hs
    have hs1 : s.1 = [1, 0, 0] := by rcases hs with rfl | rfl <;> rfl
    rw [hs1] at hi hj ⊢
    simp at hi hj
    have : i = 0 ∨ i = 1 ∨ i = 2 := by omega
    have : j = 0 ∨ j = 1 ∨ j = 2 := by omega
    rcases ‹i = 0 ∨ _› with rfl | rfl | rfl <;> rcases ‹j = 0 ∨ _› with rfl | rfl | rfl <;> simp
  · intro s hs i
    simp only [List.mem_cons, List.not_mem_nil, or_false] at hs
    have hs1 : s.1 = [1, 0, 0] := by rcases hs with rfl | rfl <;> rfl
    rw [hs1]
    by_cases h : i < 3
    · have : i = 0 ∨ i = 1 ∨ i = 2 := by omega
      rcases this with rfl | rfl | rfl <;> simp
    · rw [List.getD_eq_default _ _ (by simp; omega)]; omega
  · intro s hs
    simp only [List.mem_cons, List.not_mem_nil, or_false] at hs
    rcases hs with rfl | rfl <;> rfl
  · intro s hs
    simp only [List.mem_cons, List.not_mem_nil, or_false] at hs
    rcases hs with rfl | rfl <;> decide +kernel

/-! ### C79 -/

/-- C79: if the numbers in the suffix are 1, …, `n`, each used once, then entry `(i, j)` of the matrix is the entry of the inverse of `M` for the variables
with numbers `i+1` and `j+1`, times the scaling factor of the objective. -/
theorem reduced_hessian_entries {E : Env K} {dims : List Nat} {M : Nat → Nat → K} (hE : Exact E dims M) (s : K) {suffix : List Nat} {n : Nat}
    (h : Numbered n suffix) (hn : 0 < n) (hl : suffix.length ≤ dims.sum) :
    ∃ S, reducedHessian E dims s suffix = some (n, S) ∧ ∃ col : Nat → Nat → K,
      (∀ j, j < n → ∀ i, i < dims.sum → mulVec dims.sum M (col j) i = if i = suffix.idxOf (j + 1) then 1 else 0) ∧
      ∀ i j, i < n → j < n → S (i + j * n) = s * col j (suffix.idxOf (i + 1)) := reducedHessian_some hE h hn hl

/-- C79: other suffixes (a number used twice, a number missing) give no matrix. -/
theorem reduced_hessian_refused (E : Env K) (dims : List Nat) (s : K) {suffix : List Nat} (h : ¬ ∃ n, Numbered n suffix) :
    reducedHessian E dims s suffix = none := reducedHessian_none h

/-- C79: for a problem with equality constraints only, whose objective was scaled by `s` (the Lagrangian has the Hessian `s W`, if the multipliers are
those of the problem that is not scaled), the matrix is the inverse of the reduced Hessian `Zᵀ W Z`, where `Z` is the basis of the null space of the
Jacobian that belongs to the numbered variables. -/
theorem reduced_hessian_inverse {E : Env K} {n m : Nat} {W J : Nat → Nat → K} {s : K}
    (hE : Exact E [n, 0, m, 0, 0, 0, 0, 0] (kktMatrix n m (fun i j => s * W i j) J)) {suffix : List Nat} {d : Nat} (h : Numbered d suffix) (hd : 0 < d)
    (hl : suffix.length = n) {z : Nat → Nat → K} (hz : NullBasis n m J d (fun k => suffix.idxOf (k + 1)) z) :
    ∃ S, reducedHessian E [n, 0, m, 0, 0, 0, 0, 0] s suffix = some (d, S) ∧ ∀ k j, k < d → j < d →
      ∑ l ∈ range d, (∑ a ∈ range n, ∑ b ∈ range n, z k a * W a b * z l b) * S (l + j * d) = if k = j then 1 else 0 := by
  have hsum : ([n, 0, m, 0, 0, 0, 0, 0] : List Nat).sum = n + m := by simp
  obtain ⟨S, s1, col, s2, s3⟩ := reducedHessian_some hE (s := s) h hd (by rw [hsum, hl]; omega)
  rw [hsum] at s2
  refine ⟨S, s1, fun k j hk hj => ?_⟩
  have := reduced_inverse hz s2 hk hj
  rw [← this]
  refine Finset.sum_congr rfl fun l hl' => ?_
  rw [s3 l j (Finset.mem_range.1 hl') hj]
  rw [← mul_assoc]
  congr 1
  rw [mul_comm, Finset.mul_sum]
  refine Finset.sum_congr rfl fun a _ => ?_
  rw [Finset.mul_sum]
  refine Finset.sum_congr rfl fun b _ => by ring
end

/-- an example for C79: minimize `s (x² + 2 y² + 3 z²) / 2` subject to `x + y + z = 0` for `s = 2`; `y` and `x` are numbered. -/
def hessEnv : Env ℚ where
  solve r :=
    let r := r.flatten
    -- diagonal 2, 4, 6 and the constraint
    let y := (r.getD 0 0 / 2 + r.getD 1 0 / 4 + r.getD 2 0 / 6 - r.getD 3 0) * (12 / 11)
    (true, [[(r.getD 0 0 - y) / 2, (r.getD 1 0 - y) / 4, (r.getD 2 0 - y) / 6], [], [y], [], [], [], [], []])
  lu _ _ b := b
  junk := 0

def hessW (i j : Nat) : ℚ := if i = j then (i : ℚ) + 1 else 0

def hessZ (k j : Nat) : ℚ := (([[0, 1, -1], [1, 0, -1]] : List (List ℚ)).getD k []).getD j 0

example : Exact hessEnv [3, 0, 1, 0, 0, 0, 0, 0] (kktMatrix 3 1 (fun i j => 2 * hessW i j) (fun _ _ => 1)) ∧ Numbered 2 [2, 1, 0] ∧
    NullBasis 3 1 (fun _ _ => (1 : ℚ)) 2 (fun k => ([2, 1, 0] : List Nat).idxOf (k + 1)) hessZ := by
  refine ⟨?_, ⟨?_, by decide, ?_⟩, ⟨by decide, ?_, ?_, ?_⟩⟩
  · intro rhs _
    refine ⟨rfl, ?_⟩
    have hs : ([3, 0, 1, 0, 0, 0, 0, 0] : List Nat).sum = 4 := rfl
    rw [hs]
    intro i hi
    have e : ∀ k, elt (hessEnv.solve rhs).2 k =
      ([(elt rhs 0 - (elt rhs 0 / 2 + elt rhs 1 / 4 + elt rhs 2 / 6 - elt rhs 3) * (12 / 11)) / 2,
        (elt rhs 1 - (elt rhs 0 / 2 + elt rhs 1 / 4 + elt rhs 2 / 6 - elt rhs 3) * (12 / 11)) / 4,
        (elt rhs 2 - (elt rhs 0 / 2 + elt rhs 1 / 4 + elt rhs 2 / 6 - elt rhs 3) * (12 / 11)) / 6,
        (elt rhs 0 / 2 + elt rhs 1 / 4 + elt rhs 2 / 6 - elt rhs 3) * (12 / 11)] : List ℚ).getD k 0 := fun k => rfl
    unfold mulVec
    simp only [Finset.sum_range_succ, Finset.sum_range_zero, zero_add, e]
    match i, hi with
    | 0, _ => simp [kktMatrix, hessW]; ring
    | 1, _ => simp [kktMatrix, hessW]; ring
    | 2, _ => simp [kktMatrix, hessW]; ring
    | 3, _ => simp [kktMatrix, hessW]; ring
  · intro k h1 h2
    have : k = 1 ∨ k = 2 := by omega
    rcases this with rfl | rfl <;> simp
  · intro i j hi hj
    simp at hi hj
    have : i = 0 ∨ i = 1 ∨ i = 2 := by omega
    have : j = 0 ∨ j = 1 ∨ j = 2 := by omega
    rcases ‹i = 0 ∨ _› with rfl | rfl | rfl <;> rcases ‹j = 0 ∨ _› with rfl | rfl | rfl <;> simp
  · intro k l hk hl
    have : k = 0 ∨ k = 1 := by omega
    have : l = 0 ∨ l = 1 := by omega
    rcases ‹k = 0 ∨ _› with rfl | rfl <;> rcases ‹l = 0 ∨ _› with rfl | rfl <;> decide +kernel
  · intro k hk r _
    have : k = 0 ∨ k = 1 := by omega
    rcases this with rfl | rfl <;> simp [Finset.sum_range_succ, hessZ]
  · intro v h j hj
    have h0 := h 0 (by omega)
    simp only [Finset.sum_range_succ, Finset.sum_range_zero, zero_add, one_mul] at h0
    have p0 : ([2, 1, 0] : List Nat).idxOf (0 + 1) = 1 := by decide
    have p1 : ([2, 1, 0] : List Nat).idxOf (1 + 1) = 0 := by decide
    simp only [Finset.sum_range_succ, Finset.sum_range_zero, zero_add, p0, p1]
    match j, hj with
    | 0, _ => simp [hessZ]
    | 1, _ => simp [hessZ]
    | 2, _ => simp [hessZ]; linarith

/-- the matrix of the example. -/
example : (reducedHessian hessEnv [3, 0, 1, 0, 0, 0, 0, 0] 2 [2, 1, 0]).map (fun r => (r.1, (List.range 4).map r.2)) =
    some (2, [4 / 11, -3 / 11, -3 / 11, 5 / 11]) := by
  decide +kernel

end Verif.Sens
