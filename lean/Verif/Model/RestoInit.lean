import Verif.Model.RestoNLP
import Mathlib.Data.Finset.Fold

/-! # Starting the restoration phase and returning from it

src/Algorithm/IpRestoIterateInitializer.cpp, the end of `PerformRestoration` in src/Algorithm/IpRestoMinC_1Nrm.cpp, and
`DefaultIterateInitializer::least_square_mults`.  Exact arithmetic in a linearly ordered field, vectors are functions on finite index sets as
in `Verif.RestoNLP`; `L`, `U`, `A`, `B` are the index sets of the bounds `x_L`, `x_U`, `d_L`, `d_U`.  Printing is left out. -/

namespace Verif.RestoInit
open Verif.RestoNLP
set_option linter.unusedSectionVars false

variable {K : Type} [Field K] [LinearOrder K] {X C D L U A B : Type} [Fintype X] [Fintype C] [Fintype D] [Fintype L] [Fintype U] [Fintype A] [Fintype B]

/-- `Vector::Amax`: 0 for an empty vector. -/
def amax {ι : Type} [Fintype ι] (v : ι → K) : K := Finset.univ.fold max 0 fun i => |v i|

/-- the four vectors of bound multipliers `z_L, z_U, v_L, v_U` (also used for the slacks they belong to). -/
structure BMult (K L U A B : Type) where
  zL : L → K
  zU : U → K
  vL : A → K
  vU : B → K

/-- `solve_quadratic` (IpRestoIterateInitializer.cpp:216-229), one component: the positive solution of v² − 2av − b = 0. -/
def solveQuadratic (sqrt : K → K) (a b : K) : K := sqrt (a * a + 1 * b) + 1 * a

/-- the values for `n` (IpRestoIterateInitializer.cpp:85-93, 104-110), one component. -/
def nInit (sqrt : K → K) (mu rho c : K) : K :=
  solveQuadratic sqrt (mu / (2 * rho) + -(1 / 2) * c) (mu / (2 * rho) * c)

/-- the values for `p` (IpRestoIterateInitializer.cpp:94-95, 111-112). -/
def pInit (sqrt : K → K) (mu rho c : K) : K := c + 1 * nInit sqrt mu rho c

/-- what is needed of the current iterate of the original problem: `curr_c`, `curr_d_minus_s`, `mu`. -/
structure Cur (K X C D L U A B : Type) where
  x : X → K
  s : D → K
  b : BMult K L U A B
  mu : K
  c : C → K
  dms : D → K

/-- first iterate of the restoration problem; `zRel` are the multipliers of the bounds of `n_c`, `p_c`, `n_d`, `p_d` (components 1 … 4 of `z_L`). -/
structure Start (K X C D L U A B : Type) where
  mu : K
  v : X5 K X C D
  s : D → K
  b : BMult K L U A B
  zNc : C → K
  zPc : C → K
  zNd : D → K
  zPd : D → K

/-- `SetInitialIterates` without the equality multipliers (IpRestoIterateInitializer.cpp:45-191). -/
def start (sqrt : K → K) (rho : K) (cur : Cur K X C D L U A B) : Start K X C D L U A B :=
  let mu := max (max cur.mu (amax cur.c)) (amax cur.dms)
  let v : X5 K X C D :=
    { x := cur.x
      nc := fun i => nInit sqrt mu rho (cur.c i), pc := fun i => pInit sqrt mu rho (cur.c i)
      nd := fun i => nInit sqrt mu rho (cur.dms i), pd := fun i => pInit sqrt mu rho (cur.dms i) }
  { mu := mu, v := v, s := cur.s
    b := ⟨fun i => min rho (cur.b.zL i), fun i => min rho (cur.b.zU i), fun i => min rho (cur.b.vL i), fun i => min rho (cur.b.vU i)⟩
    zNc := fun i => mu / v.nc i, zPc := fun i => mu / v.pc i, zNd := fun i => mu / v.nd i, zPd := fun i => mu / v.pd i }

/-- `DefaultIterateInitializer::least_square_mults` (IpDefaultIterateInitializer.cpp:669-743): `res` is the result of the multiplier
calculator (`none`: it failed), `haveCalc` tells if there is one. -/
def leastSquareMults (X : Type) [Fintype X] (haveCalc : Bool) (limit : K) (res : Option ((C → K) × (D → K))) : (C → K) × (D → K) :=
  if Fintype.card C = Fintype.card X then (fun _ => 0, fun _ => 0)
  else if haveCalc && decide (0 < limit) && decide (0 < Fintype.card C + Fintype.card D) then
    match res with
    | none => (fun _ => 0, fun _ => 0)
    | some y => if limit < max (amax y.1) (amax y.2) then (fun _ => 0, fun _ => 0) else y
  else (fun _ => 0, fun _ => 0)

/-! ### Return to the original problem -/

/-- `ComputeBoundMultiplierStep` (IpRestoMinC_1Nrm.cpp:438-453), one component. -/
def multStep (mu z slack trialSlack : K) : K := ((slack + -1 * trialSlack) * z + mu) / slack + -1 * z

/-- all four. -/
def multSteps (mu : K) (z slack trialSlack : BMult K L U A B) : BMult K L U A B where
  zL i := multStep mu (z.zL i) (slack.zL i) (trialSlack.zL i)
  zU i := multStep mu (z.zU i) (slack.zU i) (trialSlack.zU i)
  vL i := multStep mu (z.vL i) (slack.vL i) (trialSlack.vL i)
  vU i := multStep mu (z.vU i) (slack.vU i) (trialSlack.vU i)

/-- `Vector::FracToBound` (IpDenseVector.cpp:1325-1389). -/
def fracToBound {ι : Type} [Fintype ι] (x dx : ι → K) (tau : K) : K :=
  Finset.univ.fold min 1 fun i => if dx i < 0 then -tau / dx i * x i else 1

/-- `dual_frac_to_the_bound` (IpIpoptCalculatedQuantities.cpp:3451-3454). -/
def dualFrac (z dz : BMult K L U A B) (tau : K) : K :=
  min (min (min (fracToBound z.zL dz.zL tau) (fracToBound z.zU dz.zU tau)) (fracToBound z.vL dz.vL tau)) (fracToBound z.vU dz.vU tau)

/-- `SetTrialBoundMultipliersFromStep` (IpIpoptData.cpp:220-244). -/
def stepBy (z dz : BMult K L U A B) (alpha : K) : BMult K L U A B where
  zL i := 1 * z.zL i + alpha * dz.zL i
  zU i := 1 * z.zU i + alpha * dz.zU i
  vL i := 1 * z.vL i + alpha * dz.vL i
  vU i := 1 * z.vU i + alpha * dz.vU i

/-- largest absolute value of a multiplier. -/
def BMult.amax (z : BMult K L U A B) : K :=
  max (max (max (RestoInit.amax z.zL) (RestoInit.amax z.zU)) (RestoInit.amax z.vL)) (RestoInit.amax z.vU)

/-- the bound multipliers after a successful restoration phase (IpRestoMinC_1Nrm.cpp:378-421): `slack` at the point before, `trialSlack` at the point
found; `threshold` is `bound_mult_reset_threshold`. -/
def backMults (mu tau threshold : K) (z slack trialSlack : BMult K L U A B) : BMult K L U A B :=
  let dz := multSteps mu z slack trialSlack
  let trial := stepBy z dz (dualFrac z dz tau)
  if threshold < trial.amax then ⟨fun _ => 1, fun _ => 1, fun _ => 1, fun _ => 1⟩ else trial

end Verif.RestoInit
