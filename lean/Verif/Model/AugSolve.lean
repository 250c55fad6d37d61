import Verif.Model.PDSystem
import Verif.Model.Triplet
import Verif.Model.CSR

/-! # Model of `StdAugSystemSolver` on top of `TSymLinearSolver`

`/repo/src/Algorithm/IpStdAugSystemSolver.cpp` and `/repo/src/Algorithm/LinearSolvers/IpTSymLinearSolver.cpp`, composed with the models of
`TripletHelper` (`Verif.Triplet`), `TripletToCSRConverter` (`Verif.CSR`) and of the matrix built by `CreateAugmentedSystem`
(`Verif.PDSystem.kkt`).

The sparse linear solver (MA27, MUMPS, ...) and the scaling method (MC19, ...) are functions on an abstract state `B`: the "rest of the
world".  Matrices and vectors given to `MultiSolve` are represented by their tags; `matOf`, `vecOf` give the contents of the object with a
tag (a tag determines the contents of a tagged object, IpTaggedObject.hpp; tag 0 is never the tag of an object).  Not modelled: timing,
printing, `DetermineDependentRows`, `ProvidesInertia`, overflow of `Index`. -/

namespace Verif.AugSolve
open Verif.Matrix
open Verif.Triplet (Idx Vec numEntries fillRowCol fillValues fillFromVector putInVector loopMod)
open Verif.PDSystem (AugArgs kkt)

/-- `ESymSolverStatus` (IpSymLinearSolver.hpp:20-38). -/
inductive Status where
  | success
  | singular
  | wrongInertia
  | callAgain
  | fatal
deriving DecidableEq

/-- `EMatrixFormat` (IpSparseSymLinearSolverInterface.hpp:105-118): triplets, upper triangle by rows, all elements by rows; with the
offset of the indices. -/
inductive Fmt where
  | triplet
  | csr (offset : Nat)
  | full (offset : Nat)
deriving DecidableEq

/-- how a call ends: return value, exception, or not finished within the given number of passes of the CALL_AGAIN loop. -/
inductive End where
  | ret (s : Status)
  | throws
  | running
deriving DecidableEq

/-- the sparse solver interface (`SparseSymLinearSolverInterface`), the scaling method (`TSymScalingMethod`), `std::sort`, and the
contents of uninitialised memory.  `array`: contents of the array returned by `GetValuesArrayPtr`, `store`: the array after the caller has
written it.  `initBackend`, `initScaling`: `Initialize` of the two objects (argument: `warm_start_same_structure`). -/
structure Env (N B : Type) where
  fmt : Fmt
  hasScaling : Bool
  initBackend : Bool → B → Bool × B
  initScaling : B → Bool × B
  initStructure : Nat → Nat → (Nat → Nat) → (Nat → Nat) → B → Status × B
  array : B → Nat → N
  store : (Nat → N) → B → B
  solve : Bool → (Nat → Nat) → (Nat → Nat) → Nat → (Nat → N) → Bool → Nat → B → Status × (Nat → N) × B
  quality : B → Bool × B
  scale : Nat → Nat → (Nat → Nat) → (Nat → Nat) → (Nat → N) → B → Option (Nat → N) × B
  sort : List (Nat × Nat) → List CSR.Entry
  junkIdx : Idx
  junkVal : Nat → N
  junkIA : Nat → Nat
  junkJA : Nat → Nat
  junkFirst : Nat → Nat

/-- member variables of `TSymLinearSolver` (IpTSymLinearSolver.hpp:140-195); `conv`: the converter (`none`: not created or without
data). -/
structure TSym (N : Type) where
  initialized : Bool
  haveStructure : Bool
  atag : Nat
  dim : Nat
  nnzT : Nat
  nnzC : Nat
  airn : Nat → Nat
  ajcn : Nat → Nat
  conv : Option CSR.Conv
  onDemand : Bool
  useScaling : Bool
  justSwitched : Bool
  factors : Nat → N

section Ops
variable {N B : Type} [Zero N] [One N] [Add N] [Sub N] [Mul N] [Neg N] [Div N] [BEq N]

/-- state after the constructor (IpTSymLinearSolver.cpp:20-41). -/
def TSym.start (E : Env N B) : TSym N :=
  ⟨false, false, 0, 0, 0, 0, E.junkIdx.row, E.junkIdx.col, none, false, false, false, E.junkVal⟩

/-- `TSymLinearSolver::InitializeImpl` (IpTSymLinearSolver.cpp:61-156).  `none`: INVALID_WARMSTART thrown. -/
def TSym.init (E : Env N B) (warm demand : Bool) (st : TSym N) (b : B) : Option Bool × TSym N × B :=
  let st := { st with onDemand := E.hasScaling && demand }
  let r := E.initBackend warm b
  if !r.1 then (some false, st, r.2)
  else
    let st? : Option (TSym N) :=
      if !warm then some { st with atag := 0, dim := 0, nnzT := 0, nnzC := 0, haveStructure := false, conv := none }
      else if st.haveStructure then some st else none
    match st? with
    | none => (none, st, r.2)
    | some st =>
      let st := { st with initialized := false, useScaling := E.hasScaling && !st.onDemand, justSwitched := false }
      if E.hasScaling then
        let q := E.initScaling r.2
        (some q.1, st, q.2)
      else (some true, st, r.2)

/-- the arrays `airn_`, `ajcn_` as list of index pairs, as read by `InitializeConverter` (IpTripletToCSRConverter.cpp:82-89). -/
def TSym.trips (st : TSym N) : List (Nat × Nat) := (List.range st.nnzT).map fun k => (st.airn k, st.ajcn k)

/-- `InitializeConverter` (IpTripletToCSRConverter.cpp:44-342). -/
def mkConv (E : Env N B) (st : TSym N) : Option CSR.Conv :=
  match E.fmt with
  | .triplet => none
  | .csr o => (CSR.scan E.junkIA st.dim (E.sort st.trips)).map (CSR.triangular o)
  | .full o => (CSR.scan E.junkIA st.dim (E.sort st.trips)).map (CSR.fullFormat o st.dim E.junkJA E.junkFirst)

/-- `ia`, `ja` handed to the solver (IpTSymLinearSolver.cpp:234-252, 343-367, 398-411). -/
def TSym.ia (st : TSym N) : Nat → Nat :=
  match st.conv with
  | some c => c.ia
  | none => st.airn
@[inherit_doc TSym.ia] def TSym.ja (st : TSym N) : Nat → Nat :=
  match st.conv with
  | some c => c.ja
  | none => st.ajcn
/-- number of nonzeros handed to the solver. -/
def TSym.nnz (st : TSym N) : Nat :=
  match st.conv with
  | some _ => st.nnzC
  | none => st.nnzT

/-- `TSymLinearSolver::InitializeStructure` (IpTSymLinearSolver.cpp:313-419).  `none`: an exception (class unknown to `TripletHelper`,
INVALID_WARMSTART).  The scaling factors of a new structure are uninitialised (lines 376-389). -/
def TSym.initStructure (E : Env N B) (A : Mat N) (st : TSym N) (b : B) : Option Status × TSym N × B :=
  if !st.haveStructure then
    match numEntries A with
    | none => (none, st, b)
    | some n =>
      match fillRowCol A n 0 0 0 E.junkIdx with
      | none => (none, st, b)
      | some ix =>
        let st := { st with dim := A.dims.1, nnzT := n, airn := ix.row, ajcn := ix.col }
        let st := { st with conv := mkConv E st }
        let st := { st with nnzC := (st.conv.map CSR.Conv.nnz).getD 0 }
        let r := E.initStructure st.dim st.nnz st.ia st.ja b
        if r.1 ≠ .success then (some r.1, st, r.2)
        else (some .success, { st with factors := E.junkVal, haveStructure := true, initialized := true }, r.2)
  else if st.dim ≠ A.dims.1 then (none, st, b)
  else
    let r := E.initStructure st.dim st.nnz st.ia st.ja b
    (some r.1, { st with initialized := true }, r.2)

/-- `TSymLinearSolver::GiveMatrixToSolver` (IpTSymLinearSolver.cpp:450-523).  `false`: an exception (class unknown to `TripletHelper`,
ERROR_IN_LINEAR_SCALING_METHOD).  In the triplet format the values are written directly into the array of the solver. -/
def TSym.give (E : Env N B) (newM : Bool) (A : Mat N) (st : TSym N) (b : B) : Bool × TSym N × B :=
  match fillValues E.junkIdx A st.nnzT 0 (if E.fmt = .triplet then E.array b else E.junkVal) with
  | none => (false, st, b)
  | some a =>
    let r : Option (Nat → N) × TSym N × B :=
      if st.useScaling then
        if newM || st.justSwitched then
          match E.scale st.dim st.nnzT st.airn st.ajcn a b with
          | (none, b) => (none, st, b)
          | (some f, b) => (some f, { st with factors := f, justSwitched := false }, b)
        else (some st.factors, st, b)
      else (some (fun _ => 1), st, b)
    match r.1 with
    | none => (false, r.2.1, r.2.2)
    | some f =>
      let a := if st.useScaling then loopMod st.nnzT 0 (fun i v => v * (f (st.airn i - 1) * f (st.ajcn i - 1))) a else a
      let pa := match st.conv with
        | some c => CSR.convertValues c a
        | none => a
      (true, r.2.1, E.store pa r.2.2)

/-- the `while( !done )` loop (IpTSymLinearSolver.cpp:222-266). -/
def TSym.loop (E : Env N B) (A : Mat N) (newM : Bool) (nrhs : Nat) (chk : Bool) (neg : Nat) :
    Nat → TSym N → (Nat → N) → B → End × (Nat → N) × TSym N × B
  | 0, st, arr, b => (.running, arr, st, b)
  | fuel + 1, st, arr, b =>
    match E.solve newM st.ia st.ja nrhs arr chk neg b with
    | (.callAgain, arr, b) =>
      let g := st.give E false A b
      if g.1 then TSym.loop E A newM nrhs chk neg fuel g.2.1 arr g.2.2 else (.throws, arr, g.2.1, g.2.2)
    | (s, arr, b) => (.ret s, arr, st, b)

/-- scaling of right-hand side or solution number `i` (IpTSymLinearSolver.cpp:198-210, 276-288). -/
def scaleVec (st : TSym N) (i : Nat) (arr : Nat → N) : Nat → N :=
  if st.useScaling then loopMod st.dim (i * st.dim) (fun k v => v * st.factors k) arr else arr

/-- the right-hand sides as one array (IpTSymLinearSolver.cpp:180-211). -/
def getRhs (st : TSym N) (rhs : List (Vec N)) (arr : Nat → N) : Option (Nat → N) :=
  (rhs.zipIdx).foldlM (fun arr v => (fillFromVector v.1 st.dim (v.2 * st.dim) arr).map (scaleVec st v.2)) arr

/-- the solution back into vectors (IpTSymLinearSolver.cpp:270-304). -/
def putSol (st : TSym N) (sol : List (Vec N)) (arr : Nat → N) : Option (List (Vec N)) :=
  ((sol.zipIdx).foldlM (fun (s : List (Vec N) × (Nat → N)) v =>
    let arr := scaleVec st v.2 s.2
    (putInVector v.1 st.dim (v.2 * st.dim) arr).map fun w => (s.1 ++ [w], arr)) ([], arr)).map Prod.fst

/-- `TSymLinearSolver::MultiSolve` (IpTSymLinearSolver.cpp:158-311): how it ends, contents of `solV`, state. -/
def TSym.multiSolve (E : Env N B) (fuel : Nat) (tag : Nat) (A : Mat N) (rhs sol : List (Vec N)) (chk : Bool) (neg : Nat)
    (st : TSym N) (b : B) : End × List (Vec N) × TSym N × B :=
  let i : Option Status × TSym N × B := if !st.initialized then st.initStructure E A b else (some .success, st, b)
  match i.1 with
  | none => (.throws, sol, i.2.1, i.2.2)
  | some s =>
    if s ≠ .success then (.ret s, sol, i.2.1, i.2.2)
    else
      let st := i.2.1
      let b := i.2.2
      let newM := decide (tag ≠ st.atag)
      let st := { st with atag := tag }
      let g : Bool × TSym N × B := if newM || st.justSwitched then st.give E true A b else (true, st, b)
      let newM := newM || st.justSwitched
      if !g.1 then (.throws, sol, g.2.1, g.2.2)
      else
        match getRhs g.2.1 rhs E.junkVal with
        | none => (.throws, sol, g.2.1, g.2.2)
        | some arr =>
          let r := TSym.loop E A newM rhs.length chk neg fuel g.2.1 arr g.2.2
          if r.1 = .ret .success then
            match putSol r.2.2.1 sol r.2.1 with
            | none => (.throws, sol, r.2.2.1, r.2.2.2)
            | some sol => (.ret .success, sol, r.2.2.1, r.2.2.2)
          else (r.1, sol, r.2.2.1, r.2.2.2)

/-- `TSymLinearSolver::IncreaseQuality` (IpTSymLinearSolver.cpp:427-441). -/
def TSym.quality (E : Env N B) (st : TSym N) (b : B) : Bool × TSym N × B :=
  if E.hasScaling && !st.useScaling && st.onDemand then
    (true, { st with useScaling := true, justSwitched := true }, b)
  else
    let r := E.quality b
    (r.1, st, r.2)

/-! ## StdAugSystemSolver -/

/-- arguments of `MultiSolve`: tags of the objects (`none`: NULL), factor and perturbations (IpStdAugSystemSolver.cpp:82-105). -/
structure Args (N : Type) where
  W : Option Nat
  Wfac : N
  Dx : Option Nat
  δx : N
  Ds : Option Nat
  δs : N
  Jc : Nat
  Dc : Option Nat
  δc : N
  Jd : Nat
  Dd : Option Nat
  δd : N
deriving DecidableEq

/-- the contents behind the arguments. -/
def Args.contents (matOf : Nat → Mat N) (vecOf : Nat → List N) (a : Args N) : AugArgs N :=
  ⟨a.W.map matOf, a.Wfac, a.Dx.map vecOf, a.δx, a.Ds.map vecOf, a.δs, matOf a.Jc, a.Dc.map vecOf, a.δc, matOf a.Jd, a.Dd.map vecOf, a.δd⟩

/-- a right-hand side or solution: the four vectors `x, s, c, d`. -/
structure Quad (N : Type) where
  x : Vec N
  s : Vec N
  c : Vec N
  d : Vec N

/-- the compound vector of the four (IpStdAugSystemSolver.cpp:155-167, 190-199). -/
def Quad.vec (q : Quad N) : Vec N := .comp 4 fun i => if i = 0 then q.x else if i = 1 then q.s else if i = 2 then q.c else q.d

/-- the four components (they are the caller's vectors: `SetCompNonConst`). -/
def Quad.ofVec (q : Quad N) : Vec N → Quad N
  | .comp _ c => ⟨c 0, c 1, c 2, c 3⟩
  | _ => q

/-- member variables of `StdAugSystemSolver` (IpStdAugSystemSolver.hpp:150-230) with the linear solver it owns, and the counter for tags
of new objects (IpTaggedObject.hpp). -/
structure State (N B : Type) where
  sys : Option (Mat N)
  sysTag : Nat
  wTag : Nat
  wFac : N
  dxTag : Nat
  δx : N
  dsTag : Nat
  δs : N
  jcTag : Nat
  dcTag : Nat
  δc : N
  jdTag : Nat
  ddTag : Nat
  δd : N
  oldW : Mat N
  lin : TSym N
  world : B
  tags : Nat

/-- state after the constructors (IpStdAugSystemSolver.cpp:20-53); the tag counter starts at 1. -/
def State.start (E : Env N B) (b : B) : State N B :=
  ⟨none, 0, 0, 0, 0, 0, 0, 0, 0, 0, 0, 0, 0, 0, .zeroSym 0, TSym.start E, b, 1⟩

/-- `StdAugSystemSolver::InitializeImpl` (IpStdAugSystemSolver.cpp:59-80).  `none`: INVALID_WARMSTART thrown. -/
def State.init (E : Env N B) (warm demand : Bool) (s : State N B) : Option Bool × State N B :=
  let s? : Option (State N B) :=
    if !warm then some { s with sysTag := 0, sys := none } else if s.sys.isSome then some s else none
  match s? with
  | none => (none, s)
  | some s =>
    let r := s.lin.init E warm demand s.world
    (r.1, { s with lin := r.2.1, world := r.2.2 })

/-- `CreateAugmentedSystem` (IpStdAugSystemSolver.cpp:309-455): a new matrix with a new tag, and the tags and numbers it was built from.
Simplified: the dimensions are those of the current Jacobians, not of the space created at the first call (the structure is assumed not to
change); `old_w_` keeps the contents seen at that time (they are multiplied by zero). -/
def State.create (matOf : Nat → Mat N) (vecOf : Nat → List N) (a : Args N) (s : State N B) : State N B :=
  { s with
    sys := some (kkt s.oldW (a.contents matOf vecOf))
    sysTag := s.tags
    tags := s.tags + 1
    oldW := (a.W.map matOf).getD s.oldW
    wTag := a.W.getD 0, wFac := a.Wfac
    dxTag := a.Dx.getD 0, δx := a.δx
    dsTag := a.Ds.getD 0, δs := a.δs
    jcTag := a.Jc
    dcTag := a.Dc.getD 0, δc := a.δc
    jdTag := a.Jd
    ddTag := a.Dd.getD 0, δd := a.δd }

/-- one of the tests of `AugmentedSystemRequiresChange`: `(X && X->GetTag() != tag) || (!X && tag != 0)`. -/
def tagDiffers (x : Option Nat) (tag : Nat) : Bool :=
  match x with
  | some t => t != tag
  | none => tag != 0

/-- `AugmentedSystemRequiresChange` (IpStdAugSystemSolver.cpp:457-535). -/
def State.requiresChange (a : Args N) (s : State N B) : Bool :=
  tagDiffers a.W s.wTag || !(a.Wfac == s.wFac) || tagDiffers a.Dx s.dxTag || !(a.δx == s.δx) || tagDiffers a.Ds s.dsTag ||
    !(a.δs == s.δs) || (a.Jc != s.jcTag) || tagDiffers a.Dc s.dcTag || !(a.δc == s.δc) || (a.Jd != s.jdTag) ||
    tagDiffers a.Dd s.ddTag || !(a.δd == s.δd)

/-- bringing the augmented system up to date (IpStdAugSystemSolver.cpp:129-152); `CreateAugmentedSpace` only sets `old_w_`. -/
def State.update (matOf : Nat → Mat N) (vecOf : Nat → List N) (a : Args N) (s : State N B) : State N B :=
  let s := if s.sys.isNone then State.create matOf vecOf a { s with oldW := (a.W.map matOf).getD s.oldW } else s
  if s.requiresChange a then s.create matOf vecOf a else s

/-- `StdAugSystemSolver::MultiSolve` (IpStdAugSystemSolver.cpp:82-222): how it ends, contents of the solution vectors, state. -/
def State.multiSolve (E : Env N B) (matOf : Nat → Mat N) (vecOf : Nat → List N) (fuel : Nat) (a : Args N) (rhs sol : List (Quad N))
    (chk : Bool) (neg : Nat) (s : State N B) : End × List (Quad N) × State N B :=
  let s := s.update matOf vecOf a
  let r := s.lin.multiSolve E fuel s.sysTag (s.sys.getD (.zeroSym 0)) (rhs.map Quad.vec) (sol.map Quad.vec) chk neg s.world
  (r.1, List.zipWith Quad.ofVec sol r.2.1, { s with lin := r.2.2.1, world := r.2.2.2 })

/-- `StdAugSystemSolver::IncreaseQuality` (IpStdAugSystemSolver.cpp:550-553). -/
def State.quality (E : Env N B) (s : State N B) : Bool × State N B :=
  let r := s.lin.quality E s.world
  (r.1, { s with lin := r.2.1, world := r.2.2 })

end Ops
end Verif.AugSolve
