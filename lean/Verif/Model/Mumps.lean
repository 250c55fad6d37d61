import Verif.Model.Ma27

/-! # Model of `MumpsSolverInterface`

`/repo/src/Algorithm/LinearSolvers/IpMumpsSolverInterface.cpp` with `ComputeMemIncrease` (`/repo/src/Common/IpUtils.hpp`, `Ma27.memIncrease`).
The library routine `mumps_c` is three functions (JOB = 1, 2, 3) that may answer anything; what MUMPS keeps in its structure between the
calls is an element of a type `M`.  `log` is a record, not present in the code, of the calls of `mumps_c` (newest first).
Simplified: memory for the values is always available; `icntl[13]` is a natural number and its double is exact; printing, timing, the mutex
and MPI are left out; the Numbers `pivtol_`, `pivtolmax_`, `mumps_dep_tol_` are elements of an ordered type `P`; the pivot tolerance is
raised by an operation "to the power 1/2". -/

namespace Verif.Mumps
open Verif.AugSolve (Status)
open Verif.Ma27 (memIncrease putColumn statusOf)

/-- the control parameters that the interface changes: `icntl[5]`, `icntl[6]`, `icntl[7]`, `icntl[13]`, `cntl[0]`, `icntl[23]`, `cntl[2]`. -/
structure Ctl (P : Type) where
  perm : Int
  order : Int
  scal : Int
  mem : Nat
  tol : P
  nul : Bool
  nulTol : P

/-- one call of `mumps_c` with its answer `info[0]`. -/
structure Call (P : Type) where
  job : Nat
  ctl : Ctl P
  info : Int

/-- what a factorization returns: `info[0]`, `infog[11]`, the first `infog[27]` elements of `pivnul_list`. -/
structure FOut (M : Type) where
  info : Int
  neg : Int
  nulList : List Int
  m : M

/-- MUMPS and the operation on the pivot tolerance. -/
structure Lib (K P M : Type) where
  imax : Nat
  analyse : Ctl P → Nat → Nat → (Nat → Nat) → (Nat → Nat) → (Nat → K) → M → Int × M
  factor : Ctl P → Nat → Nat → (Nat → Nat) → (Nat → Nat) → (Nat → K) → M → FOut M
  backsolve : Nat → M → (Nat → K) → Int × (Nat → K) × M
  junk : Nat → K
  raisePow : P → P

/-- the options (IpMumpsSolverInterface.cpp:128-183). -/
structure Opts (P : Type) where
  pivtol : P
  pivtolmax : P
  memPercent : Nat
  perm : Int
  order : Int
  scal : Int
  depTol : P

/-- member variables (IpMumpsSolverInterface.hpp:110-165) and the fields of the MUMPS structure. -/
structure St (K P M : Type) where
  warm : Bool
  n : Nat
  nz : Nat
  neg : Int
  initialized : Bool
  pivtolChanged : Bool
  refactorize : Bool
  pivtol : P
  pivtolmax : P
  memPercent : Nat
  perm : Int
  order : Int
  scal : Int
  depTol : P
  haveSym : Bool
  ctl : Ctl P
  irn : Nat → Nat
  jcn : Nat → Nat
  a : Nat → K
  m : M
  log : List (Call P)

variable {K P M : Type}

/-- the constructor (IpMumpsSolverInterface.cpp:90-110); members not set there are arbitrary; null pivot detection is off in MUMPS by default. -/
def St.start (o : Opts P) (c : Ctl P) (m : M) (L : Lib K P M) : St K P M :=
  { warm := false, n := 0, nz := 0, neg := 0, initialized := false, pivtolChanged := false, refactorize := false
    pivtol := o.pivtol, pivtolmax := o.pivtolmax, memPercent := o.memPercent, perm := o.perm, order := o.order, scal := o.scal, depTol := o.depTol
    haveSym := false, ctl := { c with nul := false }, irn := fun _ => 0, jcn := fun _ => 0, a := L.junk, m := m, log := [] }

/-- `InitializeImpl` (IpMumpsSolverInterface.cpp:191-245); `maxSet`: `mumps_pivtolmax` was set by the user.  `false`: OPTION_INVALID or
INVALID_WARMSTART thrown. -/
def St.init [LinearOrder P] (o : Opts P) (maxSet warm : Bool) (st : St K P M) : Bool × St K P M :=
  if maxSet && !decide (o.pivtol ≤ o.pivtolmax) then (false, { st with pivtol := o.pivtol, pivtolmax := o.pivtolmax })
  else
    let st := { st with
      pivtol := o.pivtol, pivtolmax := if maxSet then o.pivtolmax else max o.pivtolmax o.pivtol
      memPercent := o.memPercent, warm := warm, perm := o.perm, order := o.order, scal := o.scal, depTol := o.depTol
      initialized := false, pivtolChanged := false, refactorize := false, haveSym := false }
    if !warm then (true, { st with n := 0, nz := 0 })
    else (decide (0 < st.n) && decide (0 < st.nz), st)

/-- `InitializeStructure` (IpMumpsSolverInterface.cpp:349-383).  `none`: an exception. -/
def St.initStructure (L : Lib K P M) (dim nnz : Nat) (ia ja : Nat → Nat) (st : St K P M) : Option Status × St K P M :=
  if !st.warm then
    (some .success, { st with n := dim, nz := nnz, a := L.junk, irn := ia, jcn := ja, haveSym := false, initialized := true })
  else if st.n = dim ∧ st.nz = nnz then (some .success, { st with initialized := true })
  else (none, st)

/-- the caller asks for the array (`GetValuesArrayPtr`, IpMumpsSolverInterface.cpp:308-314) and writes all values. -/
def St.write (v : Nat → K) (st : St K P M) : St K P M := { st with a := v }

/-- `SymbolicFactorization` (IpMumpsSolverInterface.cpp:385-446). -/
def St.symbolic (L : Lib K P M) (st : St K P M) : Status × St K P M :=
  let c := { st.ctl with perm := st.perm, order := st.order, scal := st.scal, mem := st.memPercent, tol := st.pivtol }
  let r := L.analyse c st.n st.nz st.irn st.jcn st.a st.m
  let st := { st with ctl := c, m := r.2, log := ⟨1, c, r.1⟩ :: st.log }
  (if r.1 = -6 then .singular else if r.1 < 0 then .fatal else .success, st)

/-- one call of `mumps_c` with `job = 2`. -/
def St.call2 (L : Lib K P M) (st : St K P M) : FOut M × St K P M :=
  let o := L.factor st.ctl st.n st.nz st.irn st.jcn st.a st.m
  (o, { st with m := o.m, log := ⟨2, st.ctl, o.info⟩ :: st.log })

/-- `error == -8 || error == -9`: not enough memory. -/
def short (info : Int) : Bool := decide (info = -8) || decide (info = -9)

/-- the loop `for trycount …` (IpMumpsSolverInterface.cpp:474-494, 665-681) with the given number of passes left; `o`: last answer.
`none`: `std::overflow_error`. -/
def St.tryMore (L : Lib K P M) : Nat → FOut M → St K P M → Option (FOut M) × St K P M
  | 0, o, st => (some o, st)
  | k + 1, _, st =>
    match memIncrease L.imax st.ctl.mem (2 * st.ctl.mem) 0 with
    | none => (none, st)
    | some mem =>
      let r := ({ st with ctl := { st.ctl with mem := mem } }).call2 L
      if !short r.1.info then (some r.1, r.2) else St.tryMore L k r.1 r.2

/-- the factorization with repetitions (IpMumpsSolverInterface.cpp:457-494, 650-681). -/
def St.numeric (L : Lib K P M) (st : St K P M) : Option (FOut M) × St K P M :=
  let r := st.call2 L
  if short r.1.info then r.2.tryMore L 20 r.1 else (some r.1, r.2)

/-- `Factorization` (IpMumpsSolverInterface.cpp:448-541).  `none`: an exception. -/
def St.factorize (L : Lib K P M) (chk : Bool) (neg : Nat) (st : St K P M) : Option Status × St K P M :=
  match st.numeric L with
  | (none, st) => (none, st)
  | (some o, st) =>
    if short o.info then (some .fatal, st)
    else if o.info = -10 then (some .singular, st)
    else
      let st := { st with neg := o.neg }
      if o.info = -13 then (some .fatal, st)
      else if o.info < 0 then (some .fatal, st)
      else if chk ∧ (neg : Int) ≠ st.neg then (some .wrongInertia, st)
      else (some .success, st)

/-- the loop of `Solve` (IpMumpsSolverInterface.cpp:560-577), right-hand sides `i, …, i + k - 1`; `ok`: no error so far. -/
def St.solveLoop (L : Lib K P M) : Nat → Nat → Bool → (Nat → K) → St K P M → Bool × (Nat → K) × St K P M
  | 0, _, ok, arr, st => (ok, arr, st)
  | k + 1, i, ok, arr, st =>
    let r := L.backsolve st.n st.m (fun j => arr (i * st.n + j))
    St.solveLoop L k (i + 1) (ok && decide (0 ≤ r.1)) (putColumn st.n i r.2.1 arr) { st with m := r.2.2, log := ⟨3, st.ctl, r.1⟩ :: st.log }

/-- `if( new_matrix || refactorize_ )` (IpMumpsSolverInterface.cpp:282-303).  `none`: an exception. -/
def St.prepare (L : Lib K P M) (chk : Bool) (neg : Nat) (st : St K P M) : Option Status × St K P M :=
  let r : Status × St K P M :=
    if !st.haveSym then
      let s := st.symbolic L
      if s.1 = .success then (.success, { s.2 with haveSym := true }) else s
    else (.success, st)
  if r.1 ≠ .success then (some r.1, r.2)
  else
    let f := r.2.factorize L chk neg
    if f.1 = some .success then (f.1, { f.2 with refactorize := false }) else f

/-- `MultiSolve` (IpMumpsSolverInterface.cpp:247-306) with `Solve` (543-583).  `none`: an exception. -/
def St.multiSolve (L : Lib K P M) (new : Bool) (nrhs : Nat) (arr : Nat → K) (chk : Bool) (neg : Nat) (st : St K P M) :
    Option Status × (Nat → K) × St K P M :=
  if st.pivtolChanged ∧ !new then (some .callAgain, arr, { st with pivtolChanged := false, refactorize := true })
  else
    let st := { st with pivtolChanged := false }
    let r : Option Status × St K P M := if new || st.refactorize then st.prepare L chk neg else (some .success, st)
    if r.1 = some .success then
      let s := r.2.solveLoop L nrhs 0 true arr
      (some (if s.1 then .success else .fatal), s.2.1, s.2.2)
    else (r.1, arr, r.2)

/-- `IncreaseQuality` (IpMumpsSolverInterface.cpp:592-610). -/
def St.quality [LinearOrder P] (L : Lib K P M) (st : St K P M) : Bool × St K P M :=
  if st.pivtol = st.pivtolmax then (false, st)
  else (true, { st with pivtolChanged := true, pivtol := min st.pivtolmax (L.raisePow st.pivtol) })

/-- the analysis in `DetermineDependentRows` (IpMumpsSolverInterface.cpp:629-647), with other options, which are restored afterwards.
-/
def St.depSymbolic (L : Lib K P M) (st : St K P M) : Status × St K P M :=
  if !st.haveSym then
    let s := ({ st with perm := 0, scal := 6 }).symbolic L
    let st2 := { s.2 with perm := st.perm, scal := st.scal }
    if s.1 = .success then (.success, { st2 with haveSym := true }) else (s.1, st2)
  else (.success, st)

/-- `DetermineDependentRows` (IpMumpsSolverInterface.cpp:617-709): status and list of rows.  `none`: an exception. -/
def St.dependent (L : Lib K P M) (st : St K P M) : Option Status × List Int × St K P M :=
  let r := st.depSymbolic L
  if r.1 ≠ .success then (some r.1, [], r.2)
  else
    match ({ r.2 with ctl := { r.2.ctl with nul := true, nulTol := r.2.depTol } }).numeric L with
    | (none, st) => (none, [], st)
    | (some o, st) =>
      let st := { st with ctl := { st.ctl with nul := false } }
      if short o.info then (some .fatal, [], st)
      else if o.info < 0 then (some .fatal, [], st)
      else (some .success, o.nulList.map (· - 1), st)

/-- the object as sparse solver below `TSymLinearSolver`; the arguments `ia`, `ja` of `MultiSolve` are not used.  As for MA27, an exception
counts as a fatal error, and `scale` is the scaling method. -/
def env [LinearOrder P] {B : Type} (L : Lib K P M) (o : Opts P) (maxSet : Bool)
    (scale : Option (Nat → Nat → (Nat → Nat) → (Nat → Nat) → (Nat → K) → Option (Nat → K))) (E : AugSolve.Env K B) :
    AugSolve.Env K (St K P M) where
  fmt := .triplet
  hasScaling := scale.isSome
  initBackend warm st := st.init o maxSet warm
  initScaling st := (true, st)
  initStructure d n ia ja st := ((statusOf (st.initStructure L d n ia ja).1), (st.initStructure L d n ia ja).2)
  array st := st.a
  store v st := st.write v
  solve new _ _ nrhs arr chk neg st :=
    let r := st.multiSolve L new nrhs arr chk neg
    (statusOf r.1, r.2.1, r.2.2)
  quality st := st.quality L
  scale d n ir jc a st := ((match scale with | some f => f d n ir jc a | none => none), st)
  sort := E.sort
  junkIdx := E.junkIdx
  junkVal := E.junkVal
  junkIA := E.junkIA
  junkJA := E.junkJA
  junkFirst := E.junkFirst

end Verif.Mumps
