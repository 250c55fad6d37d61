import Verif.Props.FinalTnlp2

/-! # Examples for C84: the hypotheses can be met, and the deviations occur -/

set_option linter.unusedSimpArgs false

namespace Verif.FinalTnlp
open Verif Verif.Matrix Verif.Adapter Verif.CurrIter
open Verif.Scaling hiding evalC evalD

namespace Ex

/-- minimize x_0 + 2 x_1, x_0 ≥ 0, x_1 = 3, g_0 = x_0 + x_1 = 4, g_1 = x_0 ≥ -5. -/
def PU : User ℚ where
  gradF _ i := if i = 0 then 1 else 2
  g x i := if i = 0 then x 0 + x 1 else x 0
  jacPos := [(0, 0), (0, 1), (1, 0)]
  jac _ _ := 1
  xl i := if i = 0 then 0 else 3
  xu i := if i = 0 then 0 else 3
  gl i := if i = 0 then 4 else -5
  gu i := if i = 0 then 4 else 0
  fullX0 _ := 99

def XB : List (Num × Num) := [(.fin 0, .pinf), (.fin 3, .fin 3)]
def GB : List (Num × Num) := [(.fin 4, .fin 4), (.fin (-5), .pinf)]
def S : Spaces := (getSpaces .makeParameter .ninf .pinf XB GB []).getD ⟨0, 0, .relaxBounds, 0, [], none, [], [], [], [], [], []⟩

/-- close to the solution x_0 = 1; x_0 is scaled by 2, the objective by 4. -/
def Q : Curr ℚ where
  pt := ⟨[2], [4 * (-1 + 1/1000 + 1/6000)], [-4/6000], [4/2000], []⟩
  resto := none
  xL := [0]
  xU := []
  dL := [-5]
  dU := []
  orig := none

theorem sit : Sit .makeParameter .ninf .pinf XB GB [] S PU (4 : ℚ) 1 (some [2]) none none (fun _ => none) Q where
  spaces := rfl
  sorted := List.Pairwise.nil
  eqX := by
    intro i hi h
    have : i < 2 := hi
    have : i = 0 ∨ i = 1 := by omega
    rcases this with rfl | rfl
    · exact absurd h (by decide +kernel)
    · rfl
  eqG := by
    intro i hi h
    have : i < 2 := hi
    have : i = 0 ∨ i = 1 := by omega
    rcases this with rfl | rfl
    · rfl
    · exact absurd h (by decide +kernel)
  jac := by decide +kernel
  hom := by intro l s h; cases h
  fac := by norm_num
  facX := exFac _ _ (by decide +kernel) (by decide +kernel)
  facC := by intro v h; cases h
  facD := by intro v h; cases h
  lx := by decide +kernel
  lyc := by decide +kernel
  lyd := by decide +kernel
  lzL := by decide +kernel
  lzU := by decide +kernel
  lxL := by decide +kernel
  lxU := by decide +kernel
  lR := by intro r h; cases h
  orig := by intro o h; cases h
  noOrig := by
    intro _
    exact ⟨⟨by decide +kernel, by decide +kernel, by decide +kernel⟩, ⟨by decide +kernel, by decide +kernel, by decide +kernel⟩⟩

theorem dims : Dims S Q [1] [4/6000] [] := ⟨by decide +kernel, by decide +kernel, by decide +kernel, by decide +kernel, by decide +kernel⟩

theorem near : Near S PU (some [2]) none Q 0 := by
  have e1 : S.pxl.length = 1 := by decide +kernel
  have e2 : S.pxu.length = 0 := by decide +kernel
  have e3 : S.pdl.length = 1 := by decide +kernel
  have e4 : S.pdu.length = 0 := by decide +kernel
  refine ⟨fun k hk => ?_, fun k hk => ?_, fun k hk => ?_, fun k hk => ?_⟩
  · obtain rfl : k = 0 := by omega
    clear e1 e2 e3 e4
    revert hk
    decide +kernel
  · omega
  · obtain rfl : k = 0 := by omega
    clear e1 e2 e3 e4
    revert hk
    decide +kernel
  · omega

theorem interior : Interior S (1 * 4) (some [2]) none Q [4/6000] [] := by
  have e1 : S.pxl.length = 1 := by decide +kernel
  have e2 : S.pxu.length = 0 := by decide +kernel
  refine ⟨fun k hk => ?_, fun k hk => ?_, by decide +kernel, by decide +kernel, by decide +kernel, by decide +kernel, by norm_num, fun k hk => ?_, fun k hk => ?_⟩
  · obtain rfl : k = 0 := by omega
    clear e1 e2
    revert hk
    decide +kernel
  · omega
  · have : S.nVar = 1 := by decide +kernel
    obtain rfl : k = 0 := by omega
    simp [optFac]
  · simp [optFac]

/-- the convergence check is passed at this iterate. -/
theorem converged : ∃ st', Alg.check KktErr.Ex.cfg true Alg.CSt.init (KktErr.observe (innerProb PU S) (determine 4 1 (some [2]) none none) (fun _ => none) id ⟨Q.xL, Q.xU, Q.dL, Q.dU, none⟩
    ⟨Q.pt, [1], [4/6000], []⟩ 100 0 KktErr.Ex.obs) = (some .converged, st') := by
  refine ⟨_, Prod.ext ?_ rfl⟩
  decide +kernel

def mem : Arr ℚ := ⟨fun _ => 77, fun _ => 77, fun _ => 77, fun _ => 77, fun _ => 0⟩

/-- Hence what is delivered is a KKT point, ... -/
theorem kkt (relaxed : Bool) (oL oU : List ℚ) : ApproxKkt PU S.treat .ninf .pinf XB GB [] (deliver S PU (determine 4 1 (some [2]) none none) (fun _ => none) .SUCCESS false relaxed oL oU true true Q.pt mem)
    (0 / (1 * 4)) 0 (1/100) (1/100) (1/100) := by
  obtain ⟨st', h⟩ := converged
  exact success_is_kkt sit dims near (by norm_num) rfl rfl rfl rfl (by decide +kernel) h relaxed oL oU mem

/-- ... with the right signs; these are the arrays. -/
theorem arrays : Signs PU S.treat .ninf .pinf XB GB (deliver S PU (determine 4 1 (some [2]) none none) (fun _ => none) .SUCCESS false false [] [] true true Q.pt mem) 0 (1/100) ∧
    (let D := deliver S PU (determine 4 1 (some [2]) none none) (fun _ => none) .SUCCESS false false [] [] true true Q.pt mem
     (List.range 2).map D.x = [1, 3] ∧ (List.range 2).map D.g = [4, 1] ∧ (List.range 2).map D.lam = [-1 + 1/1000 + 1/6000, -1/6000] ∧
     (List.range 2).map D.zL = [1/1000, 1 + 1/1000 + 1/6000] ∧ (List.range 2).map D.zU = [0, 0]) := by
  obtain ⟨st', h⟩ := converged
  exact ⟨success_signs sit dims near interior rfl rfl rfl rfl (by decide +kernel) h false [] [] mem, by decide +kernel⟩

/-- **C84**, deviation: at the same iterate, but stopped by the time limit, the multiplier of the fixed variable is missing, and the gradient of the Lagrangian is
not zero. -/
theorem time_limit_wrong :
    let D := deliver S PU (determine 4 1 (some [2]) none none) (fun _ => none) .CPUTIME_EXCEEDED false false [] [] true true Q.pt mem
    let E := deliver S PU (determine 4 1 (some [2]) none none) (fun _ => none) .MAXITER_EXCEEDED false false [] [] true true Q.pt mem
    D.zL 1 = 0 ∧ gradLag PU GB [] D.x D.lam D.zL D.zU 1 = 1 + 1/1000 + 1/6000 ∧ gradLag PU GB [] E.x E.lam E.zL E.zU 1 = 0 := by decide +kernel

/-- the same constraint twice, the second one taken out, and another variable; the fixed variable becomes a constraint. -/
def PU2 : User ℚ := { PU with g := fun x _ => x 0 + x 1, gl := fun _ => 4, gu := fun _ => 4, jacPos := [(0, 0), (0, 1), (1, 0), (1, 1)] }
def GB2 : List (Num × Num) := [(.fin 4, .fin 4), (.fin 4, .fin 4)]
def XB2 : List (Num × Num) := XB ++ [(.ninf, .pinf)]
def S2 (t : Fixed) : Spaces := (getSpaces t .ninf .pinf XB2 GB2 [1]).getD ⟨0, 0, .relaxBounds, 0, [], none, [], [], [], [], [], []⟩

/-- **C84**, deviation: at x = (1, 3, 5) with g_0 = g_1 = 4 the user receives for g_1 zero, or with `make_constraint` what happens to be in the memory (77). -/
theorem dropped_wrong :
    ¬Kept GB2 [1] 1 ∧ PU2.g (fun i => if i = 0 then 1 else 3) 1 = 4 ∧
    (let D := deliver (S2 .makeParameter) PU2 (determine 1 1 none none none) (fun _ => none) .SUCCESS false false [] [] true true ⟨[1, 5], [-1], [], [0], []⟩ mem
     (List.range 3).map D.x = [1, 3, 5] ∧ (List.range 2).map D.g = [4, 0]) ∧
    (let D := deliver (S2 .makeConstraint) PU2 (determine 1 1 none none none) (fun _ => none) .SUCCESS false false [] [] true true ⟨[1, 3, 5], [-1, -1], [], [0], []⟩ mem
     (List.range 3).map D.x = [1, 3, 5] ∧ (List.range 2).map D.g = [4, 77]) :=
  ⟨by decide +kernel, by norm_num [PU2, PU], by decide +kernel, by decide +kernel⟩

/-- without a solution. -/
example : let D := deliver S PU (determine 4 1 (some [2]) none none) (fun _ => none) .INVALID_NUMBER_DETECTED false false [] [] true true ⟨[6], [9], [9], [9], []⟩ mem
    (List.range 2).map D.x = [3, 3] ∧ (List.range 2).map D.g = [4, 0] ∧ (List.range 2).map D.lam = [0, 0] ∧ (List.range 2).map D.zL = [0, 0] := by decide +kernel

end Ex
end Verif.FinalTnlp
