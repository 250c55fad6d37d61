import Verif.Model.RestoInit

/-! # Model of the restoration phase inside the restoration phase

`RestoRestorationPhase` (`/repo/src/Algorithm/IpRestoRestoPhase.cpp`).  Exact arithmetic in a linearly ordered field, vectors are functions
on finite index sets as in `Verif.RestoNLP`.  Printing is left out; the multipliers are of an arbitrary type. -/

namespace Verif.RestoResto
open Verif.RestoNLP
set_option linter.unusedSectionVars false

variable {K : Type} [Field K] [LinearOrder K] {X C D Z : Type}

/-- an iterate of the restoration problem: primal variables, slacks of the inequality constraints, all multipliers. -/
structure Iter (K X C D Z : Type) where
  v : X5 K X C D
  s : D → K
  mult : Z

/-- `solve_quadratic` (IpRestoRestoPhase.cpp:111-124), one component. -/
def solveQuadratic (sqrt : K → K) (a b : K) : K := sqrt (a * a + 1 * b) + 1 * a

/-- `n` for one constraint (IpRestoRestoPhase.cpp:66-72, 85-91). -/
def newN (sqrt : K → K) (mu rho c : K) : K := solveQuadratic sqrt (mu / (2 * rho) + -(1 / 2) * c) (mu / (2 * rho) * c)

/-- `p` for one constraint (IpRestoRestoPhase.cpp:73-74, 92-93). -/
def newP (sqrt : K → K) (mu rho c : K) : K := c + 1 * newN sqrt mu rho c

/-- `PerformRestoration` (IpRestoRestoPhase.cpp:31-109): the trial point; `none`: the exception of a failed evaluation. -/
def perform (sqrt : K → K) (R : Resto K X C D) (mu : K) (cur : Iter K X C D Z) : Option (Iter K X C D Z) :=
  match R.orig.c cur.v.x with
  | none => none
  | some c =>
    match R.orig.d cur.v.x with
    | none => none
    | some d =>
      let dms : D → K := fun i => d i + -1 * cur.s i
      some { cur with v :=
        { x := cur.v.x
          nc := fun i => newN sqrt mu R.rho (c i), pc := fun i => newP sqrt mu R.rho (c i)
          nd := fun i => newN sqrt mu R.rho (dms i), pd := fun i => newP sqrt mu R.rho (dms i) } }

end Verif.RestoResto
