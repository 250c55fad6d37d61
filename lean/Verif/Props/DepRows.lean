import Verif.Proof.DepRowsDemo

/-! # Detection of linearly dependent equality constraints (`dependency_detector` = mumps) -/

namespace Verif.DepRows
open Finset
open Verif.Adapter
open Verif.DerivCheck (Call)

set_option linter.unusedSectionVars false
set_option linter.unusedSimpArgs false
set_option linter.unusedVariables false

variable {K P M : Type} [Field K] [LinearOrder K] [IsStrictOrderedRing K]
variable {cfg : Cfg K} {u : User K} {det : Nat → Nat → List ((Nat × Nat) × K) → Option Bool × List Int} {t : Fixed} {loInf upInf : Num}
  {xb gb : List (Num × Num)} {s : Spaces}

/-- Without a warning, the equality constraints that are kept have linearly independent gradients (with respect to the variables not removed,
and including the residual column if `dependency_detection_with_rhs` is set) at a point computed from the starting point, and every equality
constraint taken out is a linear combination of those kept. -/
theorem dependent_basis (D : DetOK det) (h : (spaces cfg u det t loInf upInf xb gb).1 = some s) (hw : (spaces cfg u det t loInf upInf xb gb).2.1 = false)
    (hS : ∀ S, u.jacStruct = some S → ∀ e ∈ cStyle cfg.fortran S, e.2 < xb.length) (hc : ∃ i < gb.length, IsFixed (bnd gb i)) :
    ∃ S x0 jv res, u.jacStruct = some S ∧ u.start = some x0 ∧ u.jac (testPoint cfg x0) = some jv ∧
      (if cfg.withRhs then ∃ g, u.g (testPoint cfg x0) = some g ∧ res = some fun i => g i - cfg.gl i else res = none) ∧
      UserBasis gb.length (fun i => IsFixed (bnd gb i)) (· ∈ s.pc) (Columns s.treat xb (cStyle cfg.fortran S) jv res) :=
  spaces_basis_aux D h hw hS hc

/-- In any case only equality constraints are taken out, and the rest of the problem is numbered as without a detector. -/
theorem dependent_rest (h : (spaces cfg u det t loInf upInf xb gb).1 = some s) :
    ∃ s', getSpaces t loInf upInf xb gb [] = some s' ∧ s = { s' with pc := s.pc } ∧ ∀ i ∈ s.pc, i < gb.length ∧ IsFixed (bnd gb i) := by
  have key : ∀ deps, getSpaces t loInf upInf xb gb deps = some s →
      ∃ s', getSpaces t loInf upInf xb gb [] = some s' ∧ s = { s' with pc := s.pc } ∧ ∀ i ∈ s.pc, i < gb.length ∧ IsFixed (bnd gb i) := by
    intro deps h
    cases hm : buildMaps t loInf upInf xb gb with
    | none => unfold getSpaces at h; rw [hm] at h; simp at h
    | some m =>
      obtain ⟨-, -, e3, -, e5⟩ := colPos_spec hm h
      have hsub : ∀ (deps c : List Nat) (o : Nat), ∀ z ∈ takeOutFrom o c deps, z ∈ c := by
        intro deps c
        induction c generalizing deps with
        | nil => intro o z hz; cases deps <;> simp [takeOutFrom] at hz
        | cons a c ih =>
          intro o z hz
          cases deps with
          | nil => simpa [takeOutFrom] using hz
          | cons d ds =>
            unfold takeOutFrom at hz
            split_ifs at hz
            · exact List.mem_cons_of_mem _ (ih _ _ _ hz)
            · rcases List.mem_cons.1 hz with rfl | hz
              · exact List.mem_cons_self
              · exact List.mem_cons_of_mem _ (ih _ _ _ hz)
      have hk9 : ∀ k ∈ s.pc, k ∈ m.cons.c := by
        intro k hk1
        rw [e3] at hk1
        cases deps with
        | nil => exact hk1
        | cons d ds =>
          unfold takeOut at hk1
          dsimp only at hk1
          rcases List.mem_append.1 hk1 with h9 | h9
          · exact List.mem_of_mem_take h9
          · exact List.mem_of_mem_drop (hsub _ _ _ _ h9)
      unfold getSpaces at h ⊢
      rw [hm] at h ⊢
      simp only [Option.some.injEq] at h
      refine ⟨_, rfl, by rw [← h], fun i hi => ?_⟩
      have := hk9 i hi
      rw [e5] at this
      have := List.mem_filter.1 this
      exact ⟨List.mem_range.1 this.1, by simpa using this.2⟩
  unfold spaces at h
  cases hm : buildMaps t loInf upInf xb gb with
  | none => rw [hm] at h; simp at h
  | some m =>
    rw [hm] at h
    dsimp only at h
    split_ifs at h
    · split at h
      · simp at h
      · exact key _ h
    · exact key _ h

/-- If a function of the user fails, or the detector, no constraint is taken out. -/
theorem dependent_warning (D : DetOK det) (h : (spaces cfg u det t loInf upInf xb gb).1 = some s) (hw : (spaces cfg u det t loInf upInf xb gb).2.1 = true) :
    getSpaces t loInf upInf xb gb [] = some s ∧ ∀ i, i ∈ s.pc ↔ i < gb.length ∧ IsFixed (bnd gb i) := by
  have h0 := spaces_warning_aux D h hw
  refine ⟨h0, fun i => ?_⟩
  obtain ⟨-, -, -, -, -, -, -, -, hc, -⟩ := getSpaces_spec h0
  rw [hc]
  simp [takeOut]

/-- With a detector that never fails, a warning means that a function of the user failed. -/
theorem warning_means_user (h : (spaces cfg u det t loInf upInf xb gb).1 = some s) (hw : (spaces cfg u det t loInf upInf xb gb).2.1 = true)
    (hd : ∀ a b c, (det a b c).1 = some true) :
    u.jacStruct = none ∨ u.start = none ∨ ∃ x0, u.start = some x0 ∧ ((cfg.withRhs = true ∧ u.g (testPoint cfg x0) = none) ∨ u.jac (testPoint cfg x0) = none) := by
  unfold spaces at h hw
  cases hm : buildMaps t loInf upInf xb gb with
  | none => rw [hm] at h; simp at h
  | some m =>
    rw [hm] at h hw
    dsimp only at h hw
    split_ifs at h hw with hpos
    · set r := determine cfg u xb.length m.vars.nVar (m.vars.notFixed.map (·.getD 0)) m.cons.c det with hr
      cases hr1 : r.1 with
      | none => rw [hr1] at h; simp at h
      | some ok =>
        rw [hr1] at hw
        have hok : ok = false := by simpa using hw
        subst hok
        exact determine_false (hr ▸ hr1) hd

/-- The user's functions are called with `new_x = false` only for the point of the call before. -/
theorem dependent_calls (last : Option (Nat → K)) : NewXOK last (spaces cfg u det t loInf upInf xb gb).2.2 := by
  unfold spaces
  cases buildMaps t loInf upInf xb gb with
  | none => simp [NewXOK]
  | some m =>
    dsimp only
    split_ifs
    · have := calls_ok (cfg := cfg) (u := u) (det := det) xb.length m.vars.nVar (m.vars.notFixed.map (·.getD 0)) m.cons.c last
      split <;> exact this
    · simp [NewXOK]

/-- The functions are evaluated within the bounds, if the starting point is at most the perturbation radius away from them, and at most the
radius away from the starting point. -/
theorem test_point_within {x0 : Nat → K} {i : Nat} (hb : cfg.xl i ≤ cfg.xu i) (hr : 0 ≤ cfg.radius) (h1 : cfg.xl i - cfg.radius ≤ x0 i) (h2 : x0 i ≤ cfg.xu i + cfg.radius)
    (r0 : 0 ≤ cfg.rnd i) (r1 : cfg.rnd i ≤ 1) :
    cfg.xl i ≤ testPoint cfg x0 i ∧ testPoint cfg x0 i ≤ cfg.xu i ∧ |testPoint cfg x0 i - x0 i| ≤ cfg.radius := by
  unfold testPoint
  dsimp only
  have hle : max (cfg.xl i) (x0 i - cfg.radius) ≤ min (cfg.xu i) (x0 i + cfg.radius) :=
    max_le (le_min hb (by linarith)) (le_min (by linarith) (by linarith))
  have a1 := le_max_left (cfg.xl i) (x0 i - cfg.radius)
  have a2 := le_max_right (cfg.xl i) (x0 i - cfg.radius)
  have b1 := min_le_left (cfg.xu i) (x0 i + cfg.radius)
  have b2 := min_le_right (cfg.xu i) (x0 i + cfg.radius)
  generalize max (cfg.xl i) (x0 i - cfg.radius) = lo at *
  generalize min (cfg.xu i) (x0 i + cfg.radius) = up at *
  have c1 : 0 ≤ cfg.rnd i * (up - lo) := mul_nonneg r0 (by linarith)
  have c2 : cfg.rnd i * (up - lo) ≤ up - lo := by nlinarith
  exact ⟨by linarith, by linarith, abs_le.2 ⟨by linarith, by linarith⟩⟩

/-- A fixed variable has its fixed value there. -/
theorem test_point_fixed {x0 : Nat → K} {i : Nat} (hb : cfg.xl i = cfg.xu i) (hr : 0 ≤ cfg.radius) (h1 : |x0 i - cfg.xl i| ≤ cfg.radius) : testPoint cfg x0 i = cfg.xl i := by
  have := abs_le.1 h1
  unfold testPoint
  dsimp only
  rw [← hb, max_eq_left (by linarith), min_eq_left (by linarith)]
  ring

/-- With `dependency_detection_with_rhs`, for affine equality constraints: a point that satisfies the constraints that are kept (and has the
fixed values in the variables that are removed) satisfies all of them, provided the starting point is at most the perturbation radius away from
the fixed values. -/
theorem affine_redundant (D : DetOK det) (h : (spaces cfg u det t loInf upInf xb gb).1 = some s) (hw : (spaces cfg u det t loInf upInf xb gb).2.1 = false)
    (hrhs : cfg.withRhs = true) (hS : ∀ S, u.jacStruct = some S → ∀ e ∈ cStyle cfg.fortran S, e.2 < xb.length) (hr : 0 ≤ cfg.radius)
    (hx : ∀ j < xb.length, Removed s.treat (bnd xb j) → cfg.xl j = cfg.xu j ∧ ∀ x0, u.start = some x0 → |x0 j - cfg.xl j| ≤ cfg.radius)
    {G : (Nat → K) → Nat → K} (hG : ∀ x, u.g x = some (G x)) {jv : Nat → K} (hJ : ∀ x, u.jac x = some jv)
    (haff : ∀ S, u.jacStruct = some S → ∀ x y i, i < gb.length → IsFixed (bnd gb i) →
      G y i - G x i = ∑ j ∈ range xb.length, userElem (cStyle cfg.fortran S) jv i j * (y j - x j))
    {y : Nat → K} (hy : ∀ j < xb.length, Removed s.treat (bnd xb j) → y j = cfg.xl j) (hk : ∀ i ∈ s.pc, G y i = cfg.gl i) :
    ∀ i < gb.length, IsFixed (bnd gb i) → G y i = cfg.gl i := by
  intro i hi hf
  by_cases hik : i ∈ s.pc
  · exact hk i hik
  obtain ⟨S, x0, jv', res, a1, a2, a3, a4, B⟩ := dependent_basis D h hw hS ⟨i, hi, hf⟩
  rw [hJ] at a3
  simp only [Option.some.injEq] at a3
  subst a3
  rw [if_pos hrhs] at a4
  obtain ⟨g, hg, rfl⟩ := a4
  rw [hG] at hg
  simp only [Option.some.injEq] at hg
  subst hg
  set x := testPoint cfg x0
  obtain ⟨b, b0, bc⟩ := B.comb i hi hf hik
  have hpc : ∀ i ∈ s.pc, i < gb.length ∧ IsFixed (bnd gb i) := by
    obtain ⟨-, -, -, hpc⟩ := dependent_rest h
    exact hpc
  have hres := bc _ (Or.inr ⟨_, rfl, rfl⟩)
  have hcol : ∀ j < xb.length, userElem (cStyle cfg.fortran S) jv i j * (y j - x j) =
      ∑ k ∈ range gb.length, b k * (userElem (cStyle cfg.fortran S) jv k j * (y j - x j)) := by
    intro j hj
    by_cases hrm : Removed s.treat (bnd xb j)
    · have hxj : y j - x j = 0 := by
        obtain ⟨w1, w2⟩ := hx j hj hrm
        rw [hy j hj hrm, show x j = _ from test_point_fixed w1 hr (w2 _ a2), sub_self]
      rw [hxj]; simp
    · rw [bc _ (Or.inl ⟨j, hj, hrm, rfl⟩), Finset.sum_mul]
      exact Finset.sum_congr rfl fun k _ => by ring
  have e1 := haff S a1 x y i hi hf
  rw [Finset.sum_congr rfl fun j hj => hcol j (Finset.mem_range.1 hj), Finset.sum_comm] at e1
  have e2 : ∑ k ∈ range gb.length, ∑ j ∈ range xb.length, b k * (userElem (cStyle cfg.fortran S) jv k j * (y j - x j)) =
      ∑ k ∈ range gb.length, b k * (cfg.gl k - G x k) := by
    refine Finset.sum_congr rfl fun k _ => ?_
    rw [← Finset.mul_sum]
    by_cases hkp : k ∈ s.pc
    · rw [← haff S a1 x y k (hpc k hkp).1 (hpc k hkp).2, hk k hkp]
    · rw [b0 k hkp]; ring
  rw [e2] at e1
  have e3 : ∑ k ∈ range gb.length, b k * (cfg.gl k - G x k) = -∑ k ∈ range gb.length, b k * (G x k - cfg.gl k) := by
    rw [← Finset.sum_neg_distrib]
    exact Finset.sum_congr rfl fun k _ => by ring
  rw [e3, ← hres] at e1
  linear_combination e1

/-- A new object of the MUMPS interface, initialized without warm start, is such a detector if MUMPS behaves as documented (in exact
arithmetic). -/
theorem mumps_detector [LinearOrder P] {L : Mumps.Lib K P M} {SymOf FacOf inertia} (LO : Mumps.LibOK L SymOf FacOf inertia) (NO : NullOK L SymOf)
    (st : Mumps.St K P M) (o : Mumps.Opts P) (maxSet : Bool) (hi : (st.init o maxSet false).1 = true) : DetOK (detect L (st.init o maxSet false).2) := by
  have hw : (st.init o maxSet false).2.warm = false := by
    unfold Mumps.St.init at hi ⊢
    split_ifs at hi ⊢ <;> simp_all
  constructor
  · intro nRows nCols t ht h
    have := (tsym_res LO NO ht _ hw).1
    unfold detect at h ⊢
    dsimp only at h ⊢
    refine this ?_
    cases h9 : (tsymRows L nRows nCols t (st.init o maxSet false).2).1 with
    | none => rw [h9] at h; simp at h
    | some q =>
      rw [h9] at h
      simp at h
      rw [h]
  · intro nRows nCols t h
    unfold detect at h ⊢
    dsimp only at h ⊢
    refine tsym_nil _ _ _ _ fun h9 => h ?_
    rw [h9]; simp

/-- If the interface class refuses the structure, no success is reported and nothing is listed. -/
theorem detector_structure_failure {L : Mumps.Lib K P M} {st : Mumps.St K P M} {nRows nCols : Nat} {t : List ((Nat × Nat) × K)}
    (h : (st.initStructure L (nRows + nCols) (t.length + (nRows + nCols)) (fun k => (kktRows nRows nCols t).getD k 0) fun k => (kktCols nRows nCols t).getD k 0).1 ≠ some .success) :
    (detect L st nRows nCols t).1 ≠ some true ∧ (detect L st nRows nCols t).2 = [] := by
  unfold detect tsymRows
  dsimp only
  rw [if_pos h]
  refine ⟨?_, rfl⟩
  generalize (st.initStructure L (nRows + nCols) (t.length + (nRows + nCols)) (fun k => (kktRows nRows nCols t).getD k 0) fun k => (kktCols nRows nCols t).getD k 0).1 = q at *
  rcases q with _ | q
  · simp
  · simpa using h

/-- With `warm_start_same_structure`, the initialization of a new object fails: `ProcessOptions` of the adapter makes a new object each time, so
that an optimization with this option and a MUMPS detector never starts. -/
theorem detector_warm_start [LinearOrder P] (o o' : Mumps.Opts P) (c : Mumps.Ctl P) (m : M) (L : Mumps.Lib K P M) (maxSet : Bool) :
    ((Mumps.St.start o c m L).init o' maxSet true).1 = false := by
  unfold Mumps.St.init Mumps.St.start
  split_ifs <;> simp_all

/-! ### Examples -/

/-- one free variable, constraints with values `x` and `a x` (a third one is not needed). -/
def demoU (a : ℚ) : User ℚ where
  start := some fun _ => 3
  g x := some fun i => if i = 0 then x 0 else a * x 0
  jac _ := some fun k => if k = 0 then 1 else a
  jacStruct := some [(1, 1), (2, 1)]
/-- settings for the examples. -/
def demoCfg (rhs : Bool) (b : ℚ) : Cfg ℚ := ⟨true, 10, fun _ => 1 / 2, rhs, fun _ => -100, fun _ => 100, fun i => if i = 0 then 0 else b⟩
/-- bounds for the examples. -/
def demoGb (b : ℚ) : List (Num × Num) := [(.fin 0, .fin 0), (.fin b, .fin b), (.fin 0, .fin 4)]
/-- an initialized object of the MUMPS interface. -/
def demoSt : Mumps.St ℚ ℚ ℚ := ((Mumps.St.start Mumps.demoOpts Mumps.demoCtl 0 nullLib).init Mumps.demoOpts false false).2

theorem demo_mumps : DetOK (detect nullLib demoSt) := mumps_detector nullLib_ok.1 nullLib_ok.2 _ _ _ (by decide +kernel)

/-- the second constraint is found to be dependent by MUMPS and taken out, without a warning; the inequality constraint stays. -/
theorem demo_taken : ((spaces (demoCfg false 0) (demoU 2) (detect nullLib demoSt) .makeParameter (.fin (-1000)) (.fin 1000) [(.ninf, .pinf)] (demoGb 0)).1.map fun s => (s.pc, s.pd)) =
    some ([0], [2]) ∧ (spaces (demoCfg false 0) (demoU 2) (detect nullLib demoSt) .makeParameter (.fin (-1000)) (.fin 1000) [(.ninf, .pinf)] (demoGb 0)).2.1 = false := by
  decide +kernel

/-- with the right hand side, for both kinds of detectors' answers: `x = 0`, `2 x = 0` is reduced; `x = 0`, `2 x = 1` is kept. -/
theorem demo_rhs : ((spaces (demoCfg true 0) (demoU 2) det2 .makeParameter (.fin (-1000)) (.fin 1000) [(.ninf, .pinf)] (demoGb 0)).1.map fun s => s.pc) = some [0] ∧
    (spaces (demoCfg true 0) (demoU 2) det2 .makeParameter (.fin (-1000)) (.fin 1000) [(.ninf, .pinf)] (demoGb 0)).2.1 = false ∧
    ((spaces (demoCfg true 1) (demoU 2) det2 .makeParameter (.fin (-1000)) (.fin 1000) [(.ninf, .pinf)] (demoGb 1)).1.map fun s => s.pc) = some [0, 1] ∧
    (spaces (demoCfg true 1) (demoU 2) det2 .makeParameter (.fin (-1000)) (.fin 1000) [(.ninf, .pinf)] (demoGb 1)).2.1 = false := by decide +kernel

/-- the hypotheses of the theorem on affine constraints hold in this example. -/
theorem demo_affine (S) (hS : (demoU 2).jacStruct = some S) (x y : Nat → ℚ) (i : Nat) (hi : i < (demoGb 0).length) (hf : IsFixed (bnd (demoGb 0) i)) :
    (fun x : Nat → ℚ => fun i : Nat => if i = 0 then x 0 else 2 * x 0) y i - (fun x : Nat → ℚ => fun i : Nat => if i = 0 then x 0 else 2 * x 0) x i =
      ∑ j ∈ range [((.ninf, .pinf) : Num × Num)].length, userElem (cStyle (demoCfg true 0).fortran S) (fun k => if k = 0 then 1 else 2) i j * (y j - x j) := by
  simp only [demoU, Option.some.injEq] at hS
  subst hS
  rcases i with _ | _ | _ | i
  · simp [userElem, elem, cStyle, demoCfg]
  · simp [userElem, elem, cStyle, demoCfg]; ring
  · exact absurd hf (by decide +kernel)
  · simp [demoGb] at hi; omega

/-- if the Jacobian cannot be evaluated, there is a warning and all equality constraints are kept. -/
theorem demo_warning : (spaces (demoCfg true 0) { demoU 2 with jac := fun _ => none } det2 .makeParameter (.fin (-1000)) (.fin 1000) [(.ninf, .pinf)] (demoGb 0)).2.1 = true ∧
    ((spaces (demoCfg true 0) { demoU 2 with jac := fun _ => none } det2 .makeParameter (.fin (-1000)) (.fin 1000) [(.ninf, .pinf)] (demoGb 0)).1.map fun s => s.pc) = some [0, 1] := by
  decide +kernel

/-- Without the right hand side (the default), constraints that contradict each other are reduced to one of them: the problem `x = 0`,
`x = 1` becomes `x = 0`. -/
theorem inconsistent_taken_out : ((spaces (demoCfg false 1) (demoU 1) det2 .makeParameter (.fin (-1000)) (.fin 1000) [(.ninf, .pinf)] (demoGb 1)).1.map fun s => s.pc) = some [0] ∧
    ¬∃ x : Nat → ℚ, ∃ v, (demoU 1).g x = some v ∧ v 0 = 0 ∧ v 1 = 1 := by
  refine ⟨by decide +kernel, ?_⟩
  rintro ⟨x, v, h, a, b⟩
  simp only [demoU, Option.some.injEq] at h
  rw [← h] at a b
  simp at a b
  rw [a] at b
  exact absurd b (by norm_num)

/-- variables `w` (fixed to 1), `x`, `y`; constraints `x = 0`, `x + w = 4`. -/
def fixU : User ℚ where
  start := some fun _ => 14
  g x := some fun i => if i = 0 then x 1 else x 1 + x 0
  jac _ := some fun _ => 1
  jacStruct := some [(0, 1), (1, 1), (1, 0)]
@[inherit_doc fixU] def fixCfg : Cfg ℚ := ⟨false, 10, fun _ => 0, true, fun i => if i = 0 then 1 else -100, fun i => if i = 0 then 1 else 100, fun i => if i = 0 then 0 else 4⟩
@[inherit_doc fixU] def fixXb : List (Num × Num) := [(.fin 1, .fin 1), (.ninf, .pinf), (.ninf, .pinf)]
@[inherit_doc fixU] def fixGb : List (Num × Num) := [(.fin 0, .fin 0), (.fin 4, .fin 4)]

/-- Also with the right hand side, a contradiction can be lost if the user's starting point is far from the value of a fixed variable: the
functions are evaluated outside of the bounds (the code has a remark that fixed variables should be set). -/
theorem fixed_variable_taken_out : ((spaces fixCfg fixU det2 .makeParameter (.fin (-1000)) (.fin 1000) fixXb fixGb).1.map fun s => (s.pc, s.fixed)) = some ([0], [0]) ∧
    testPoint fixCfg (fun _ => 14) 0 = 4 ∧ ¬∃ x : Nat → ℚ, x 0 = 1 ∧ ∃ v, fixU.g x = some v ∧ v 0 = 0 ∧ v 1 = 4 := by
  refine ⟨by decide +kernel, by decide +kernel, ?_⟩
  rintro ⟨x, h0, v, h, a, b⟩
  simp only [fixU, Option.some.injEq] at h
  rw [← h] at a b
  simp at a b
  rw [a, h0] at b
  exact absurd b (by norm_num)

end Verif.DepRows
