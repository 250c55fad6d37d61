import Verif.Model.Scaling
import Verif.Model.Triplet
import Mathlib.Algebra.Order.Field.Basic
import Mathlib.Algebra.Order.Group.Abs

/-! # Model of `EquilibrationScaling` (option `nlp_scaling_method=equilibration-based`)

`/repo/src/Algorithm/IpEquilibrationScaling.cpp`.  The user functions, the random numbers, the HSL routine `mc19a` and `std::exp` are functions
that may answer anything.
Simplified: exact arithmetic; temporary arrays are always allocated; printing and loading of the library are left out; the starting point
has been obtained. -/

namespace Verif.Equil
open Verif.Matrix (expMult)
open Verif.Triplet (upd)

/-! ## `PointPerturber` -/

section
variable {K : Type} [Field K] [LinearOrder K]

/-- `full_x_L` and `full_x_U` in the constructor (IpEquilibrationScaling.cpp:274-291): `big` is -1e300 for lower, 1e300 for upper bounds;
`pos`, `b`: positions (0-based) and values of the bounds. -/
def fullBound (hom : List K → Option K) (n : Nat) (big : K) (pos : List Nat) (b : List K) : List K :=
  let full := List.replicate n big
  let full := expMult hom pos 1 (List.replicate pos.length (-big)) 1 full
  expMult hom pos 1 b 1 full

/-- member variables of `PointPerturber`: `pert_dir_`, `ref_point_`. -/
structure Perturber (K : Type) where
  dir : List K
  ref : List K

/-- the constructor (IpEquilibrationScaling.cpp:262-307); `very` is 1e300. -/
def mkPerturber (hom : List K → Option K) (very : K) (x0 : List K) (radius : K) (posL : List Nat) (xL : List K) (posU : List Nat) (xU : List K) :
    Perturber K :=
  let fl := fullBound hom x0.length (-very) posL xL
  let fu := fullBound hom x0.length very posU xU
  let dir := (List.zipWith (fun u l => (1 / 2) * u + (-(1 / 2)) * l) fu fl).map fun v => min v radius
  let fu := List.zipWith (fun u d => u - d) fu dir
  let ref := List.zipWith min x0 fu
  let fl := List.zipWith (fun l d => l + d) fl dir
  ⟨dir, List.zipWith max ref fl⟩

/-- `MakeNewPerturbedPoint` (IpEquilibrationScaling.cpp:309-334); `rnd i`: the random number for component `i`. -/
def Perturber.point (p : Perturber K) (rnd : Nat → K) : List K :=
  (List.zipWith (fun v (d : K × Nat) => v + 2 * (rnd d.2 - 1 / 2) * d.1) p.ref p.dir.zipIdx)

end

/-! ## `DetermineScalingParametersImpl` -/

/-- the `while` loop (IpEquilibrationScaling.cpp:125-145): evaluations until one succeeds; `left`: errors that may still occur, `call`:
number of the next call.  `none`: FAILED_INITIALIZATION thrown. -/
def tryPoint {V : Type} (ev : Nat → Option V) : Nat → Nat → Option (V × Nat × Nat)
  | 0, call => match ev call with
    | some v => some (v, 0, call + 1)
    | none => none
  | left + 1, call => match ev call with
    | some v => some (v, left + 1, call + 1)
    | none => tryPoint ev left (call + 1)

/-- the `for` loop (IpEquilibrationScaling.cpp:121-194): the values at `todo` points.  `none`: FAILED_INITIALIZATION thrown. -/
def collect {V : Type} (ev : Nat → Option V) : Nat → Nat → Nat → Option (List V)
  | 0, _, _ => some []
  | todo + 1, left, call => match tryPoint ev left call with
    | none => none
    | some (v, left, call) => (collect ev todo left call).map (v :: ·)

/-- `num_evals`, `max_num_eval_errors` (IpEquilibrationScaling.cpp:118-119). -/
def numEvals : Nat := 4
@[inherit_doc numEvals] def maxErrors : Nat := 10

section
variable {K : Type} [Field K] [LinearOrder K]

/-- `avrg_values` (IpEquilibrationScaling.cpp:146-199): the arrays of the points (Jacobian of c, Jacobian of d, gradient, one after the
other) are added up, the first one is copied. -/
def average (vs : List (Nat → K)) : Nat → K :=
  let s := match vs with
    | [] => fun _ => 0
    | v :: vs => vs.foldl (fun (acc : Nat → K) (w : Nat → K) => fun i => acc i + |w i|) (fun i => |v i|)
  fun i => s i / (numEvals : K)

/-- structure: dimensions, and row and column numbers (1-based) of the Jacobians. -/
structure Dims where
  nx : Nat
  nc : Nat
  nd : Nat
  rcC : List (Nat × Nat)
  rcD : List (Nat × Nat)

/-- arrays `avrg_values`, `AIRN`, `AJCN` and the counter `nnz_grad_f`. -/
structure Arr (K : Type) where
  val : Nat → K
  row : Nat → Nat
  col : Nat → Nat
  cnt : Nat

/-- the structure of the Jacobians (IpEquilibrationScaling.cpp:201-205). -/
def start (d : Dims) (avg : Nat → K) : Arr K where
  val := avg
  row i := if i < d.rcC.length then (d.rcC.getD i (0, 0)).1 else (d.rcD.getD (i - d.rcC.length) (0, 0)).1 + d.nc
  col i := if i < d.rcC.length then (d.rcC.getD i (0, 0)).2 else (d.rcD.getD (i - d.rcC.length) (0, 0)).2
  cnt := 0

/-- "sort out the zero entries in objective function gradient" (IpEquilibrationScaling.cpp:207-219), first `n` passes. -/
def compact (d : Dims) (A : Arr K) : Nat → Arr K
  | 0 => A
  | i + 1 =>
    let A := compact d A i
    let idx := d.rcC.length + d.rcD.length
    if A.val (idx + i) ≠ 0 then
      { row := upd A.row (idx + A.cnt) (d.nc + d.nd + 1), col := upd A.col (idx + A.cnt) (i + 1)
        val := upd A.val (idx + A.cnt) (A.val (idx + i)), cnt := A.cnt + 1 }
    else A

/-- the matrix handed to `mc19a`: order and entries (row, column, value); rows are the variables (IpEquilibrationScaling.cpp:221-227: `AJCN`
comes before `AIRN`). -/
def toMc19 (d : Dims) (avg : Nat → K) : Nat × List (Nat × Nat × K) :=
  let A := compact d (start d avg) d.nx
  (max (d.nc + d.nd + 1) d.nx, (List.range (d.rcC.length + d.rcD.length + A.cnt)).map fun i => (A.col i, A.row i, A.val i))

/-- the scaling parameters. -/
structure Params (K : Type) where
  df : K
  dx : List K
  dc : List K
  dd : List K

/-- `DetermineScalingParametersImpl` (IpEquilibrationScaling.cpp:78-260).  `ev n`: the three evaluations at the point of the `n`-th call
(`none`: one failed); `mc19`: logarithms of row and column factors; `exp`.  `none`: FAILED_INITIALIZATION. -/
def params {L : Type} (d : Dims) (ev : Nat → Option (Nat → K)) (mc19 : Nat → List (Nat × Nat × K) → (Nat → L) × (Nat → L)) (exp : L → K) :
    Option (Params K) :=
  (collect ev numEvals maxErrors 0).map fun vs =>
    let m := toMc19 d (average vs)
    let CR := mc19 m.1 m.2
    let rowScale := fun i => exp (CR.2 i)
    let colScale := fun i => exp (CR.1 i)
    { df := rowScale (d.nc + d.nd)
      dc := (List.range d.nc).map rowScale
      dd := (List.range d.nd).map fun i => rowScale (d.nc + i)
      dx := (List.range d.nx).map colScale }

/-- the scaling object made from them (`StandardScalingBase::DetermineScaling`, IpNLPScaling.cpp:253-371). -/
def Params.scal (p : Params K) (objFactor : K) : Scaling.Scal K :=
  Scaling.determine objFactor p.df (some p.dx) (some p.dc) (some p.dd)

end
end Verif.Equil
