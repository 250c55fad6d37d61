import Verif.Model.Mumps
import Verif.Model.Adapter
import Verif.Model.DerivCheck
import Mathlib.Data.List.Sort

/-! # Model of the detection of linearly dependent equality constraints (option `dependency_detector` = mumps)

`TNLPAdapter::DetermineDependentConstraints` (`/repo/src/Interfaces/IpTNLPAdapter.cpp:3396-3585`), its use in `GetSpaces` (`:636-700`),
`TSymDependencyDetector` and `TSymLinearSolver::DetermineDependentRows` (`/repo/src/Algorithm/LinearSolvers/IpTSymLinearSolver.cpp:540-719`)
with the MUMPS interface (model `Mumps`) below.  Arrays that a loop fills from beginning to end are lists.  Simplified: the triplet format
only (WSMP and MA28 are not modelled); no scaling method (`ProcessOptions`, IpTNLPAdapter.cpp:268-277, passes NULL); the indices of the user
are valid (otherwise only `DBG_ASSERT`). -/

namespace Verif.DepRows
open Verif.AugSolve (Status)
open Verif.Adapter (compressed Spaces Maps Fixed buildMaps getSpaces)
open Verif.DerivCheck (Call)

variable {K P M : Type}

section
variable [Zero K] [One K]

/-- `airn_`, `ajcn_` and the values (IpTSymLinearSolver.cpp:557-573, 640-644): the triplets shifted below `n_cols` columns, then all
diagonal elements. -/
def kktRows (nRows nCols : Nat) (t : List ((Nat × Nat) × K)) : List Nat := t.map (fun e => e.1.1 + nCols) ++ (List.range (nRows + nCols)).map (· + 1)
@[inherit_doc kktRows] def kktCols (nRows nCols : Nat) (t : List ((Nat × Nat) × K)) : List Nat := t.map (fun e => e.1.2) ++ (List.range (nRows + nCols)).map (· + 1)
@[inherit_doc kktRows] def kktVals (nRows nCols : Nat) (t : List ((Nat × Nat) × K)) : List K := t.map (fun e => e.2) ++ (List.replicate nCols 1 ++ List.replicate nRows 0)

/-- `TSymLinearSolver::DetermineDependentRows` (IpTSymLinearSolver.cpp:540-719).  `none`: an exception. -/
def tsymRows (L : Mumps.Lib K P M) (nRows nCols : Nat) (t : List ((Nat × Nat) × K)) (st : Mumps.St K P M) : Option Status × List Int × Mumps.St K P M :=
  let r := st.initStructure L (nRows + nCols) (t.length + (nRows + nCols)) (fun k => (kktRows nRows nCols t).getD k 0) (fun k => (kktCols nRows nCols t).getD k 0)
  if r.1 ≠ some .success then (r.1, [], r.2)
  else
    let d := (r.2.write fun k => (kktVals nRows nCols t).getD k 0).dependent L
    if d.1 = some .success then (d.1, d.2.1.map fun i => i - (nCols : Int), d.2.2) else d

/-- `TSymDependencyDetector::DetermineDependentRows` (IpTSymDependencyDetector.cpp:40-59).  `none`: an exception. -/
def detect (L : Mumps.Lib K P M) (st : Mumps.St K P M) (nRows nCols : Nat) (t : List ((Nat × Nat) × K)) : Option Bool × List Int :=
  let r := tsymRows L nRows nCols t st
  (r.1.map fun s => decide (s = .success), r.2.1)

end

/-- the user's problem, as far as it is used here. -/
structure User (K : Type) where
  start : Option (Nat → K)
  g : (Nat → K) → Option (Nat → K)
  jac : (Nat → K) → Option (Nat → K)
  jacStruct : Option (List (Nat × Nat))

/-- data of the adapter: index style, `point_perturbation_radius`, random numbers, `dependency_detection_with_rhs`, bounds. -/
structure Cfg (K : Type) where
  fortran : Bool
  radius : K
  rnd : Nat → K
  withRhs : Bool
  xl : Nat → K
  xu : Nat → K
  gl : Nat → K

variable [Field K] [LinearOrder K]

/-- the test point (IpTNLPAdapter.cpp:3512-3519). -/
def testPoint (cfg : Cfg K) (x0 : Nat → K) (i : Nat) : K :=
  let lower := max (cfg.xl i) (x0 i - cfg.radius)
  let upper := min (cfg.xu i) (x0 i + cfg.radius)
  lower + cfg.rnd i * (upper - lower)

/-- the elements of the Jacobian of the equality constraints: row, column, position in the user's array (IpTNLPAdapter.cpp:3445-3498);
`colPos`: column of a variable. -/
def pick (cMap : List Nat) (colPos : Nat → Option Nat) (S : List (Nat × Nat)) : List ((Nat × Nat) × Nat) :=
  S.zipIdx.filterMap fun e =>
    match compressed cMap e.1.1, colPos e.1.2 with
    | some r, some c => some ((r + 1, c + 1), e.2)
    | _, _ => none

/-- `DetermineDependentConstraints` (IpTNLPAdapter.cpp:3396-3585): return value (`none`: an exception), `c_deps`, calls of the user's
functions. -/
def determine (cfg : Cfg K) (u : User K) (nFull nVar : Nat) (notFixed cMap : List Nat) (det : Nat → Nat → List ((Nat × Nat) × K) → Option Bool × List Int) :
    Option Bool × List Int × List (Call K) :=
  match u.jacStruct with
  | none => (some false, [], [.jacStruct])
  | some S =>
    let S := if cfg.fortran then S.map fun e => (e.1 - 1, e.2 - 1) else S
    let colPos : Nat → Option Nat := if nFull - nVar > 0 then compressed notFixed else some
    let e := pick cMap colPos S
    match u.start with
    | none => (some false, [], [.jacStruct, .start])
    | some x0 =>
      let x := testPoint cfg x0
      let calls : List (Call K) := [.jacStruct, .start]
      let gv : Option (Nat → K) := if cfg.withRhs then u.g x else some fun _ => 0
      let calls := if cfg.withRhs then calls ++ [.g x true] else calls
      match gv with
      | none => (some false, [], calls)
      | some gv =>
        let calls := calls ++ [.jac x (!cfg.withRhs)]
        match u.jac x with
        | none => (some false, [], calls)
        | some jv =>
          let t := e.map fun p => (p.1, jv p.2)
          let t := if cfg.withRhs then t ++ cMap.zipIdx.map (fun p => ((p.2 + 1, nVar + 1), gv p.1 - cfg.gl p.1)) else t
          let r := det cMap.length (if cfg.withRhs then nVar + 1 else nVar) t
          (r.1, r.2, calls)

/-- the dependent constraints are taken out (IpTNLPAdapter.cpp:636-700): `GetSpaces` with the list it uses, and whether the warning
"Dependent constraint detector had a problem" is printed.  `none`: an exception. -/
def spaces (cfg : Cfg K) (u : User K) (det : Nat → Nat → List ((Nat × Nat) × K) → Option Bool × List Int) (t : Fixed) (loInf upInf : Num)
    (xb gb : List (Num × Num)) : Option Spaces × Bool × List (Call K) :=
  match buildMaps t loInf upInf xb gb with
  | none => (none, false, [])
  | some m =>
    if 0 < m.cons.c.length then
      let r := determine cfg u xb.length m.vars.nVar (m.vars.notFixed.map (·.getD 0)) m.cons.c det
      match r.1 with
      | none => (none, false, r.2.2)
      | some ok => (getSpaces t loInf upInf xb gb ((r.2.1.map Int.toNat).insertionSort (· ≤ ·)), !ok, r.2.2)
    else (getSpaces t loInf upInf xb gb [], false, [])

end Verif.DepRows
