import Verif.Props.CurrIter2
import Verif.Props.CurrIter3

/-! # Examples for C61: the hypotheses can be met, and the deviations occur -/

set_option linter.unusedSimpArgs false

namespace Verif.CurrIter
open Verif Verif.Adapter Verif.Matrix Verif.Scaling

/-- Three variables, the second one fixed at 3; one equality g_0 = x_0 + x_1 = 1, two inequalities g_1 = x_0 ≤ 10, g_2 = x_2 ≥ 4. -/
def exU : User ℚ where
  gradF x i := if i = 0 then 2 * x 0 else if i = 1 then 7 else x 2
  g x i := if i = 0 then x 0 + x 1 else if i = 1 then x 0 else x 2
  jacPos := [(0, 0), (0, 1), (1, 0), (2, 2)]
  jac _ _ := 1
  xl i := if i = 0 then 0 else if i = 1 then 3 else -5
  xu i := if i = 0 then 5 else if i = 1 then 3 else 0
  gl i := if i = 0 then 1 else if i = 1 then 0 else 4
  gu i := if i = 0 then 1 else if i = 1 then 10 else 0
  fullX0 _ := 99

def exXB : List (Num × Num) := [(.fin 0, .fin 5), (.fin 3, .fin 3), (.fin (-5), .pinf)]
def exGB : List (Num × Num) := [(.fin 1, .fin 1), (.ninf, .fin 10), (.fin 4, .pinf)]

def exS (t : Fixed) : Spaces := (getSpaces t .ninf .pinf exXB exGB []).getD ⟨0, 0, .relaxBounds, 0, [], none, [], [], [], [], [], []⟩

/-- the iterate x_0 = 2, x_2 = 3 in scaled variables (factors 2 and 1), relaxed bounds, scaled inequalities. -/
def exQ : Curr ℚ where
  pt := ⟨[4, 3], [6], [1, 1], [1, 2], [3]⟩
  resto := none
  xL := [-1, -6]
  xU := [11]
  dL := [3]
  dU := [11]
  orig := some ⟨[0, -5], [5], [4], [10]⟩

theorem exFac (n : Nat) (v : List ℚ) (hl : v.length = n) (h : v.all (· ≠ 0) = true) : FacOK n (some v) := by
  intro w hw
  cases hw
  refine ⟨hl, ?_⟩
  intro e he
  have := List.all_eq_true.mp h e he
  simpa using this

theorem exSit : Sit .makeParameter .ninf .pinf exXB exGB [] (exS .makeParameter) exU (1 : ℚ) 2 (some [2, 1]) (some [3]) (some [1, 1 / 2])
    (fun _ => none) exQ where
  spaces := rfl
  sorted := List.Pairwise.nil
  eqX := by
    intro i hi h
    have : i < 3 := hi
    have : i = 0 ∨ i = 1 ∨ i = 2 := by omega
    rcases this with rfl | rfl | rfl
    · exact absurd h (by decide +kernel)
    · rfl
    · exact absurd h (by decide +kernel)
  eqG := by
    intro i hi h
    have : i < 3 := hi
    have : i = 0 ∨ i = 1 ∨ i = 2 := by omega
    rcases this with rfl | rfl | rfl
    · rfl
    · exact absurd h (by decide +kernel)
    · exact absurd h (by decide +kernel)
  jac := by decide +kernel
  hom := by intro l s h; cases h
  fac := by norm_num
  facX := exFac _ _ (by decide +kernel) (by decide +kernel)
  facC := exFac _ _ (by decide +kernel) (by decide +kernel)
  facD := exFac _ _ (by decide +kernel) (by decide +kernel)
  lx := by decide +kernel
  lyc := by decide +kernel
  lyd := by decide +kernel
  lzL := by decide +kernel
  lzU := by decide +kernel
  lxL := by decide +kernel
  lxU := by decide +kernel
  lR := by intro r h; cases h
  orig := by
    intro o h
    cases h
    decide +kernel
  noOrig := by intro h; cases h

def exB : Iter ℚ := ⟨some fun _ => 77, some fun _ => 77, some fun _ => 77, some fun _ => 77, some fun _ => 77⟩
def exBV : Viol ℚ := ⟨some fun _ => 77, some fun _ => 77, some fun _ => 77, some fun _ => 77, some fun _ => 77, some fun _ => 77, some fun _ => 77⟩

def exSc : Scal ℚ := determine 1 2 (some [2, 1]) (some [3]) (some [1, 1 / 2])

/-- What the call reports in this situation: point, multipliers (of the fixed variable too), constraint values. -/
theorem exIter : ∃ it, getCurrIterate (exS .makeParameter) exU exSc (fun _ => none) exQ .ready true true false 3 3 exB = .yes it ∧
    it.x.map (fun a => (List.range 3).map a) = some [2, 3, 3] ∧ it.g.map (fun a => (List.range 3).map a) = some [5, 2, 3] ∧
    it.lam.map (fun a => (List.range 3).map a) = some [9, 1 / 2, 1 / 4] ∧
    it.zL.map (fun a => (List.range 3).map a) = some [1, 16, 1] ∧ it.zU.map (fun a => (List.range 3).map a) = some [3, 0, 0] :=
  ⟨_, rfl, by decide +kernel, by decide +kernel, by decide +kernel, by decide +kernel, by decide +kernel⟩

/-- **C61**, deviation: the violation of the third constraint, x_2 ≥ 4 at x_2 = 3, is 1, but 5 is reported: the factor of the second
constraint is used to scale the bound of the third (it is the first one with a lower bound). -/
theorem violations_constraints_misaligned :
    Sit .makeParameter .ninf .pinf exXB exGB [] (exS .makeParameter) exU (1 : ℚ) 2 (some [2, 1]) (some [3]) (some [1, 1 / 2]) (fun _ => none) exQ ∧
    (∃ v, getCurrViolations (exS .makeParameter) exU exSc (fun _ => none) exQ .ready false 3 3 exBV = .yes v ∧
      v.con.map (fun a => (List.range 3).map a) = some [4, 0, 5]) ∧
    conViol (HasGL .ninf (bnd exGB 2)) (HasGU .pinf (bnd exGB 2)) (exU.gl 2) (exU.gu 2) 3 = 1 := by
  refine ⟨exSit, ⟨_, rfl, by decide +kernel⟩, ?_⟩
  unfold conViol HasGL HasGU
  rw [if_pos (by decide +kernel), if_neg (by decide +kernel)]
  decide +kernel

/-- the same iterate if fixed variables become constraints; no scaling. -/
def exQ2 : Curr ℚ where
  pt := ⟨[2, 4, 3], [6, 5], [1, 1], [1, 2], [3]⟩
  resto := none
  xL := [-1, -6]
  xU := [11]
  dL := [3]
  dU := [11]
  orig := some ⟨[0, -5], [5], [4], [10]⟩

theorem exSit2 : Sit .makeConstraint .ninf .pinf exXB exGB [] (exS .makeConstraint) exU (1 : ℚ) 1 none none none (fun _ => none) exQ2 where
  spaces := rfl
  sorted := List.Pairwise.nil
  eqX := exSit.eqX
  eqG := exSit.eqG
  jac := exSit.jac
  hom := exSit.hom
  fac := by norm_num
  facX := by intro v h; cases h
  facC := by intro v h; cases h
  facD := by intro v h; cases h
  lx := by decide +kernel
  lyc := by decide +kernel
  lyd := by decide +kernel
  lzL := by decide +kernel
  lzU := by decide +kernel
  lxL := by decide +kernel
  lxU := by decide +kernel
  lR := by intro r h; cases h
  orig := by
    intro o h
    cases h
    decide +kernel
  noOrig := by intro h; cases h

/-- **C61**, deviation: with fixed variables treated as constraints the reported gradient of the Lagrangian misses the bound multipliers it
reports by the factor 1 - (value at which the variable is fixed): here 13 + 5 = 18 but 8 is reported. -/
theorem violations_gradient_fixed_wrong :
    (∃ it, getCurrIterate (exS .makeConstraint) exU (determine 1 1 none none none) (fun _ => none) exQ2 .ready true true false 3 3 exB = .yes it ∧
      it.x.map (fun a => (List.range 3).map a) = some [2, 4, 3] ∧ it.lam.map (fun a => (List.range 3).map a) = some [6, 1, 1] ∧
      it.zL.map (fun a => (List.range 3).map a) = some [1, 0, 2] ∧ it.zU.map (fun a => (List.range 3).map a) = some [3, 5, 0]) ∧
    (∃ v, getCurrViolations (exS .makeConstraint) exU (determine 1 1 none none none) (fun _ => none) exQ2 .ready false 3 3 exBV = .yes v ∧
      v.grad.map (fun a => a 1) = some 8) ∧
    gradLag exU exGB [] (fun i => if i = 0 then 2 else if i = 1 then 4 else 3) (fun i => if i = 0 then 6 else 1)
      (fun i => if i = 0 then 1 else if i = 1 then 0 else 2) (fun i => if i = 0 then 3 else if i = 1 then 5 else 0) 1 = 18 := by
  refine ⟨⟨_, rfl, by decide +kernel, by decide +kernel, by decide +kernel, by decide +kernel⟩, ⟨_, rfl, by decide +kernel⟩, ?_⟩
  decide +kernel

/-- Without scaling of the inequalities the condition of `violations_constraints_partial` and `violations_compl_g_partial` is met. -/
example : FacAligned (none : Option (List ℚ)) (exS .makeConstraint).pdl ∧ FacAligned (none : Option (List ℚ)) (exS .makeConstraint).pdu :=
  ⟨fun _ _ => rfl, fun _ _ => rfl⟩

/-- What the second call reports in the second situation. -/
example : ∃ v, getCurrViolations (exS .makeConstraint) exU (determine 1 1 none none none) (fun _ => none) exQ2 .ready false 3 3 exBV = .yes v ∧
    v.xL.map (fun a => (List.range 3).map a) = some [0, 0, 0] ∧ v.xU.map (fun a => (List.range 3).map a) = some [0, 1, 0] ∧
    v.cL.map (fun a => (List.range 3).map a) = some [3, 0, 18] ∧ v.cU.map (fun a => (List.range 3).map a) = some [27, -5, 0] ∧
    v.con.map (fun a => (List.range 3).map a) = some [5, 0, 1] ∧ v.cg.map (fun a => (List.range 3).map a) = some [-30, 8, 0] :=
  ⟨_, rfl, by decide +kernel, by decide +kernel, by decide +kernel, by decide +kernel, by decide +kernel, by decide +kernel⟩

end Verif.CurrIter
