import Verif.Model.InitPoint
import Verif.Model.RestoInit

/-! # Model of the initial iterate

`DefaultIterateInitializer::SetInitialIterates` with `CalculateLeastSquarePrimals` and `CalculateLeastSquareDuals` (src/Algorithm/IpDefaultIterateInitializer.cpp) and
`WarmStartIterateInitializer` (src/Algorithm/IpWarmStartIterateInitializer.cpp).

Variables are `Fin n`, inequalities `Fin m`, equalities `C`; vectors of bounds are functions on the positions that have the bound.  Exact arithmetic.  The functions of the problem, the
slacks (`trial_slack_*`, see C35), the augmented system solver and the multiplier calculator are parameters; evaluation errors and printing are left out. -/

namespace Verif.InitMult
open Verif.InitPoint Verif.RestoInit
open scoped BigOperators
set_option linter.unusedSectionVars false

variable {K : Type} [Field K] [LinearOrder K] [IsStrictOrderedRing K] {n m : Nat} {C : Type} [Fintype C]

/-- lower and upper bounds of a vector. -/
structure Bd (n : Nat) (K : Type) where
  lo : Fin n → Option K
  up : Fin n → Option K

/-- the positions with a lower bound. -/
abbrev Bd.L (b : Bd n K) := { i : Fin n // (b.lo i).isSome = true }

/-- the positions with an upper bound. -/
abbrev Bd.U (b : Bd n K) := { i : Fin n // (b.up i).isSome = true }

/-- `IteratesVector`. -/
structure It (K C : Type) {n m : Nat} (bx : Bd n K) (bd : Bd m K) where
  x : Fin n → K
  s : Fin m → K
  yc : C → K
  yd : Fin m → K
  zL : bx.L → K
  zU : bx.U → K
  vL : bd.L → K
  vU : bd.U → K

/-- options of the default initializer; `muBased`: `bound_mult_init_method = mu-based`. -/
structure Cfg (K : Type) where
  push : K
  frac : K
  sPush : K
  sFrac : K
  tiny : K
  muBased : Bool
  multVal : K
  mu : K
  lsPrimal : Bool
  lsDuals : Bool
  haveCalc : Bool
  multMax : K

/-- arguments of `AugSystemSolver::Solve` that vary: `Dx`, `delta_x`, `Ds`, `delta_s`, Jacobians and right-hand sides. -/
structure Aug (K C : Type) (n m : Nat) where
  Dx : Option (Fin n → K)
  deltaX : K
  Ds : Option (Fin m → K)
  deltaS : K
  Jc : _root_.Matrix C (Fin n) K
  Jd : _root_.Matrix (Fin m) (Fin n) K
  rx : Fin n → K
  rs : Fin m → K
  rc : C → K
  rd : Fin m → K
  negEVals : Nat

/-- the solution vectors of the augmented system. -/
structure AugSol (K C : Type) (n m : Nat) where
  x : Fin n → K
  s : Fin m → K
  c : C → K
  d : Fin m → K

/-- the problem and the rest of the program. `aug`: `none` if the status is not `SYMSOLVER_SUCCESS`; `eqMult`: the multiplier calculator at the trial point. -/
structure Env (K C : Type) {n m : Nat} (bx : Bd n K) (bd : Bd m K) where
  c : (Fin n → K) → C → K
  d : (Fin n → K) → Fin m → K
  jacC : (Fin n → K) → _root_.Matrix C (Fin n) K
  jacD : (Fin n → K) → _root_.Matrix (Fin m) (Fin n) K
  gradF : (Fin n → K) → Fin n → K
  slXL : (Fin n → K) → bx.L → K
  slXU : (Fin n → K) → bx.U → K
  slSL : (Fin m → K) → bd.L → K
  slSU : (Fin m → K) → bd.U → K
  aug : Aug K C n m → Option (AugSol K C n m)
  eqMult : It K C bx bd → Option ((C → K) × (Fin m → K))

variable {bx : Bd n K} {bd : Bd m K}

/-- `push_variables` for the vector `v` (see `Verif.InitPoint`). -/
def pushV (push frac tiny : K) (b : Bd n K) (v : Fin n → K) : Fin n → K :=
  fun i => (pushVariables push frac tiny (List.ofFn fun i => ⟨v i, b.lo i, b.up i⟩)).getD i 0

/-- `CalculateLeastSquarePrimals` (IpDefaultIterateInitializer.cpp:341-394), without `s_ls`, which is not used. -/
def lsPrimals (e : Env K C bx bd) (x : Fin n → K) : Option (Fin n → K) :=
  (e.aug { Dx := none, deltaX := 1, Ds := none, deltaS := 1, Jc := e.jacC x, Jd := e.jacD x, rx := fun _ => 0, rs := fun _ => 0, rc := e.c x, rd := e.d x,
           negEVals := Fintype.card C + m }).map fun r i => -1 * r.x i

/-- `Px_L (-1) + Px_U (-1)` (IpDefaultIterateInitializer.cpp:413-426). -/
def minusOnes (b : Bd n K) : Fin n → K := fun i => (if (b.up i).isSome then -1 else 0) + 1 * (if (b.lo i).isSome then -1 else 0)

/-- `CalculateLeastSquareDuals` (IpDefaultIterateInitializer.cpp:396-471): the Jacobians are those of the *current* point `x0` (the user's), the gradient that of the trial point `x`. -/
def lsDuals (e : Env K C bx bd) (x0 x : Fin n → K) : Option ((bx.L → K) × (bx.U → K) × (bd.L → K) × (bd.U → K) × (C → K) × (Fin m → K)) :=
  (e.aug { Dx := some (minusOnes bx), deltaX := 0, Ds := some (minusOnes bd), deltaS := 0, Jc := e.jacC x0, Jd := e.jacD x0, rx := e.gradF x, rs := fun _ => 0, rc := fun _ => 0,
           rd := fun _ => 0, negEVals := n + m }).map fun r =>
    (fun i => -1 * r.x i, fun i => 1 * r.x i, fun i => -1 * r.s i, fun i => 1 * r.s i, fun i => -1 * r.c i, fun i => -1 * r.d i)

/-- the bound multipliers (IpDefaultIterateInitializer.cpp:248-289). -/
def boundMults (cfg : Cfg K) (e : Env K C bx bd) (x : Fin n → K) (s : Fin m → K) : (bx.L → K) × (bx.U → K) × (bd.L → K) × (bd.U → K) :=
  if cfg.muBased then (fun i => cfg.mu / e.slXL x i, fun i => cfg.mu / e.slXU x i, fun i => cfg.mu / e.slSL s i, fun i => cfg.mu / e.slSU s i)
  else (fun _ => cfg.multVal, fun _ => cfg.multVal, fun _ => cfg.multVal, fun _ => cfg.multVal)

/-- `SetInitialIterates` of the default initializer (IpDefaultIterateInitializer.cpp:172-339); `x0` is the user's starting point. -/
def setDefault (cfg : Cfg K) (e : Env K C bx bd) (x0 : Fin n → K) : It K C bx bd :=
  let x1 := if cfg.lsPrimal then (lsPrimals e x0).getD x0 else x0
  let x := pushV cfg.push cfg.frac cfg.tiny bx x1
  let s := pushV cfg.sPush cfg.sFrac cfg.tiny bd (e.d x)
  let z := boundMults cfg e x s
  match if cfg.lsDuals then lsDuals e x0 x else none with
  | some (zL, zU, vL, vU, yc, yd) =>
    ⟨x, s, yc, yd, fun i => max (zL i) (z.1 i), fun i => max (zU i) (z.2.1 i), fun i => max (vL i) (z.2.2.1 i), fun i => max (vU i) (z.2.2.2 i)⟩
  | none =>
    let y := leastSquareMults (Fin n) cfg.haveCalc cfg.multMax (e.eqMult ⟨x, s, fun _ => 0, fun _ => 0, z.1, z.2.1, z.2.2.1, z.2.2.2⟩)
    ⟨x, s, y.1, y.2, z.1, z.2.1, z.2.2.1, z.2.2.2⟩

/-! ### Warm start -/

/-- one number option: what the user has set, and the registered default. -/
structure Opt (K : Type) where
  user : Option K
  dflt : K

/-- `OptionsList::GetNumericValue`: return value and value (see C02). -/
def Opt.get (o : Opt K) : Bool × K :=
  match o.user with
  | some v => (true, v)
  | none => (false, o.dflt)

/-- `warm_start_bound_push`, `warm_start_bound_frac` (IpWarmStartIterateInitializer.cpp:82-89); `other` is `bound_push`, `bound_frac`. -/
def readBound (warm other : Opt K) : K := if warm.get.1 = false then other.get.2 else warm.get.2

/-- `warm_start_slack_bound_push`, `warm_start_slack_bound_frac` (IpWarmStartIterateInitializer.cpp:90-109); `other` is `bound_push`, `bound_frac`. -/
def readSlackBound (warm other : Opt K) : K :=
  if warm.get.1 = false then
    if other.get.1 = false then
      if warm.get.1 = false then other.get.2 else warm.get.2
    else other.get.2
  else warm.get.2

/-- options of the warm start. -/
structure WCfg (K : Type) where
  push : K
  frac : K
  sPush : K
  sFrac : K
  tiny : K
  multPush : K
  multMax : K
  targetMu : K
  entire : Bool

/-- the values given by the user: `GetStartingPoint`. -/
structure User (K C : Type) {n m : Nat} (bx : Bd n K) (bd : Bd m K) where
  x : Fin n → K
  yc : C → K
  yd : Fin m → K
  zL : bx.L → K
  zU : bx.U → K

/-- `ElementWiseMin(max)` then `ElementWiseMax(-max)`. -/
def clamp (b v : K) : K := max (min v b) (-b)

/-- the iterate given by the user as a whole (IpWarmStartIterateInitializer.cpp:148-186). -/
def entireIt (cfg : WCfg K) (w : It K C bx bd) : It K C bx bd :=
  if 0 < cfg.multMax then
    { w with yc := fun i => clamp cfg.multMax (w.yc i), yd := fun i => clamp cfg.multMax (w.yd i), zL := fun i => min (w.zL i) cfg.multMax, zU := fun i => min (w.zU i) cfg.multMax,
             vL := fun i => min (w.vL i) cfg.multMax, vU := fun i => min (w.vU i) cfg.multMax }
  else w

/-- the iterate made of the starting point (IpWarmStartIterateInitializer.cpp:189-262). -/
def startIt (cfg : WCfg K) (d : (Fin n → K) → Fin m → K) (u : User K C bx bd) : It K C bx bd :=
  let u := if 0 < cfg.multMax then
      { u with yc := fun i => clamp cfg.multMax (u.yc i), yd := fun i => clamp cfg.multMax (u.yd i), zL := fun i => min (u.zL i) cfg.multMax, zU := fun i => min (u.zU i) cfg.multMax }
    else u
  ⟨u.x, d u.x, u.yc, u.yd, u.zL, u.zU, fun i => max (-1 * u.yd i) cfg.multPush, fun i => max (1 * u.yd i) cfg.multPush⟩

/-- `SetInitialIterates` of the warm start initializer (IpWarmStartIterateInitializer.cpp:118-365). `whole` is the answer of `GetWarmStartIterate`.  Result `none`: with a positive `warm_start_target_mu` the
program dereferences a null pointer (line 291 `init_vec->Set_x`: `init_vec` was set to NULL by `IpoptData::set_trial`, IpIpoptData.hpp:892, in line 267). -/
def setWarm (cfg : WCfg K) (d : (Fin n → K) → Fin m → K) (whole : Option (It K C bx bd)) (u : User K C bx bd) : Option (It K C bx bd) :=
  let w := match if cfg.entire then whole else none with
    | some w => entireIt cfg w
    | none => startIt cfg d u
  if 0 < cfg.targetMu then none
  else
    some { w with
      x := pushV cfg.push cfg.frac cfg.tiny bx w.x
      s := pushV cfg.sPush cfg.sFrac cfg.tiny bd w.s
      zL := fun i => max (w.zL i) cfg.multPush, zU := fun i => max (w.zU i) cfg.multPush, vL := fun i => max (w.vL i) cfg.multPush, vU := fun i => max (w.vU i) cfg.multPush }

end Verif.InitMult
