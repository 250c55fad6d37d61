import Mathlib.Algebra.Order.Floor.Ring
import Mathlib.Data.Rat.Floor
import Verif.Model.AugSolve

/-! # Model of `Ma27TSolverInterface`

`/repo/src/Algorithm/LinearSolvers/IpMa27TSolverInterface.cpp` with `ComputeMemIncrease` (`/repo/src/Common/IpUtils.hpp`).  The HSL routines
`ma27a`, `ma27b`, `ma27c` are functions that may answer anything; memory allocation may fail at any time.  The lengths that the arrays really
have (`aLen`, `iwLen`, `none`: NULL) are kept beside the lengths that the object believes in (`la`, `liw`), and `overrun` records whether a
routine was given an array shorter than it was told, or the caller an array shorter than the number of nonzeros.
Simplified: factors for the lengths are rational numbers and products are exact; `Index` values are natural numbers, computations of
requested lengths in `Index` do not overflow; local work arrays and `ikeep_` are always allocated; printing, timing and the loading of the library are
left out; a `Number` written into `cntl_[0]` is an element of an ordered type `P` with the operation "to the power 3/4". -/

namespace Verif.Ma27
open Verif.AugSolve (Status)

/-- `ComputeMemIncrease` (IpUtils.hpp:136-162); `imax`: largest `Index`.  `none`: `std::overflow_error`. -/
def memIncrease (imax len : Nat) (recommended : ℚ) (min : Nat) : Option Nat :=
  if recommended ≥ imax then (if len < imax then some imax else none) else some (max min ⌊recommended⌋.toNat)

/-- the options (IpMa27TSolverInterface.cpp:83-143). -/
structure Opts (P : Type) where
  pivtol : P
  pivtolmax : P
  liwInit : ℚ
  laInit : ℚ
  memInc : ℚ
  skipInertia : Bool
  ignoreSingular : Bool

/-- contents of the arrays `a_` and `iw_`: values written by the caller, or what `ma27b` has left there. -/
inductive Work (K Fac : Type) where
  | raw (a : Nat → K)
  | fac (f : Fac)

/-- what `ma27a` returns: INFO[0], INFO[4], INFO[5] and `ikeep_`, `nsteps_`. -/
structure AOut (Keep : Type) where
  iflag : Int
  nrlnec : Nat
  nirnec : Nat
  keep : Keep

/-- what `ma27b` returns: INFO[0], INFO[1], INFO[11], INFO[12], INFO[14] and what it leaves in `a_`, `iw_`, `maxfrt_`. -/
structure BOut (Fac : Type) where
  iflag : Int
  ierror : Int
  ncmpbr : Nat
  ncmpbi : Nat
  neg : Int
  fac : Fac

/-- the HSL routines, the memory, and the operation on the pivot tolerance.  `alloc n size`: does the `n`-th allocation succeed?
`junk`: contents of new memory. -/
structure Lib (K P Keep Fac : Type) where
  imax : Nat
  analyse : Nat → Nat → (Nat → Nat) → (Nat → Nat) → Nat → AOut Keep
  factor : Nat → Nat → (Nat → Nat) → (Nat → Nat) → Work K Fac → Nat → Nat → Keep → P → BOut Fac
  backsolve : Nat → Work K Fac → Keep → (Nat → K) → Nat → K
  alloc : Nat → Nat → Bool
  junk : Nat → K
  raisePow : P → P

/-- member variables (IpMa27TSolverInterface.hpp:180-270) and the actual lengths of the arrays. -/
structure St (K P Keep Fac : Type) where
  warm : Bool
  dim : Nat
  nnz : Nat
  neg : Int
  initialized : Bool
  pivtolChanged : Bool
  refactorize : Bool
  pivtol : P
  pivtolmax : P
  liwInit : ℚ
  laInit : ℚ
  memInc : ℚ
  skipInertia : Bool
  ignoreSingular : Bool
  liw : Nat
  la : Nat
  laInc : Bool
  liwInc : Bool
  keep : Keep
  work : Work K Fac
  aLen : Option Nat
  iwLen : Option Nat
  allocs : Nat
  overrun : Bool

variable {K P Keep Fac : Type}

/-- an array is at least `n` long. -/
def long (len : Option Nat) (n : Nat) : Bool :=
  match len with
  | some m => decide (n ≤ m)
  | none => decide (n = 0)

/-- the constructor (IpMa27TSolverInterface.cpp:51-72); members not set there are arbitrary. -/
def St.start (o : Opts P) (keep : Keep) (L : Lib K P Keep Fac) : St K P Keep Fac :=
  { warm := false, dim := 0, nnz := 0, neg := 0, initialized := false, pivtolChanged := false, refactorize := false
    pivtol := o.pivtol, pivtolmax := o.pivtolmax, liwInit := o.liwInit, laInit := o.laInit, memInc := o.memInc
    skipInertia := o.skipInertia, ignoreSingular := o.ignoreSingular, liw := 0, la := 0, laInc := false, liwInc := false
    keep := keep, work := .raw L.junk, aLen := none, iwLen := none, allocs := 0, overrun := false }

/-- `InitializeImpl` (IpMa27TSolverInterface.cpp:161-254); `maxSet`: `ma27_pivtolmax` was set by the user.  `false`: OPTION_INVALID or
INVALID_WARMSTART thrown. -/
def St.init [LinearOrder P] (o : Opts P) (maxSet warm : Bool) (st : St K P Keep Fac) : Bool × St K P Keep Fac :=
  if maxSet && !decide (o.pivtol ≤ o.pivtolmax) then (false, { st with pivtol := o.pivtol, pivtolmax := o.pivtolmax })
  else
    let st := { st with
      pivtol := o.pivtol, pivtolmax := if maxSet then o.pivtolmax else max o.pivtolmax o.pivtol
      liwInit := o.liwInit, laInit := o.laInit, memInc := o.memInc, skipInertia := o.skipInertia, ignoreSingular := o.ignoreSingular
      warm := warm, initialized := false, pivtolChanged := false, refactorize := false, laInc := false, liwInc := false }
    if !warm then (true, { st with dim := 0, nnz := 0 })
    else (decide (0 < st.dim) && decide (0 < st.nnz), st)

/-- `iw_ = new Index[liw_]` after `delete[] iw_; iw_ = NULL`. -/
def St.newIW (L : Lib K P Keep Fac) (st : St K P Keep Fac) : Bool × St K P Keep Fac :=
  if L.alloc st.allocs st.liw then (true, { st with iwLen := some st.liw, allocs := st.allocs + 1 })
  else (false, { st with iwLen := none, allocs := st.allocs + 1 })

/-- `a_ = new Number[n]` after `delete[] a_; a_ = NULL`. -/
def St.newA (L : Lib K P Keep Fac) (n : Nat) (st : St K P Keep Fac) : Bool × St K P Keep Fac :=
  if L.alloc st.allocs n then (true, { st with aLen := some n, work := .raw L.junk, allocs := st.allocs + 1 })
  else (false, { st with aLen := none, work := .raw L.junk, allocs := st.allocs + 1 })

/-- second half of `SymbolicFactorization`: memory for the factorization (IpMa27TSolverInterface.cpp:439-464). -/
def St.reserve (L : Lib K P Keep Fac) (a : AOut Keep) (st : St K P Keep Fac) : Option Status × St K P Keep Fac :=
  match memIncrease L.imax st.liw (st.liwInit * a.nirnec) 0 with
  | none => (none, { st with iwLen := none })
  | some liw =>
    let r := ({ st with liw := liw }).newIW L
    if !r.1 then (none, r.2)
    else
      match memIncrease L.imax r.2.la (r.2.laInit * a.nrlnec) r.2.nnz with
      | none => (none, { r.2 with aLen := none, work := .raw L.junk })
      | some la =>
        let q := ({ r.2 with la := la }).newA L la
        if q.1 then (some .success, q.2) else (none, q.2)

/-- `SymbolicFactorization` (IpMa27TSolverInterface.cpp:358-473).  `none`: an exception. -/
def St.symbolic (L : Lib K P Keep Fac) (airn ajcn : Nat → Nat) (st : St K P Keep Fac) : Option Status × St K P Keep Fac :=
  let r := ({ st with liw := 2 * (2 * st.nnz + 3 * st.dim + 1) }).newIW L
  if !r.1 then (none, r.2)
  else
    let a := L.analyse st.dim st.nnz airn ajcn r.2.liw
    let st := { r.2 with keep := a.keep }
    if a.iflag ≠ 0 then (some .fatal, st) else st.reserve L a

/-- `InitializeStructure` (IpMa27TSolverInterface.cpp:324-356).  `none`: an exception. -/
def St.initStructure (L : Lib K P Keep Fac) (dim nnz : Nat) (airn ajcn : Nat → Nat) (st : St K P Keep Fac) :
    Option Status × St K P Keep Fac :=
  if !st.warm then
    let r := ({ st with dim := dim, nnz := nnz }).symbolic L airn ajcn
    if r.1 = some .success then (r.1, { r.2 with initialized := true }) else r
  else if st.dim = dim ∧ st.nnz = nnz then (some .success, { st with initialized := true })
  else (none, st)

/-- `GetValuesArrayPtr` (IpMa27TSolverInterface.cpp:305-322).  `false`: `std::bad_alloc`. -/
def St.getValues (L : Lib K P Keep Fac) (st : St K P Keep Fac) : Bool × St K P Keep Fac :=
  if st.laInc then st.newA L st.nnz else (true, st)

/-- contents of the array returned by `GetValuesArrayPtr`. -/
def St.contents (L : Lib K P Keep Fac) (st : St K P Keep Fac) : Nat → K :=
  match st.work with
  | .raw a => if st.laInc then L.junk else a
  | .fac _ => L.junk

/-- the caller asks for the array and writes `nonzeros_` values. -/
def St.write (L : Lib K P Keep Fac) (v : Nat → K) (st : St K P Keep Fac) : Bool × St K P Keep Fac :=
  let r := st.getValues L
  (r.1, { r.2 with work := .raw v, overrun := r.2.overrun || (r.1 && !long r.2.aLen r.2.nnz) })

/-- `if( la_increase_ )` (IpMa27TSolverInterface.cpp:490-512).  The new array gets the old values. -/
def St.growA (L : Lib K P Keep Fac) (st : St K P Keep Fac) : Bool × St K P Keep Fac :=
  if st.laInc then
    match memIncrease L.imax st.la (st.memInc * st.la) 0 with
    | none => (false, st)
    | some la =>
      let st1 := { st with la := la, allocs := st.allocs + 1 }
      if L.alloc st.allocs la then
        (true, { st1 with aLen := some la, laInc := false, overrun := st1.overrun || !long st.aLen st.nnz || !decide (st.nnz ≤ la) })
      else (false, st1)
  else (true, st)

/-- `if( liw_increase_ )` (IpMa27TSolverInterface.cpp:515-535). -/
def St.growIW (L : Lib K P Keep Fac) (st : St K P Keep Fac) : Bool × St K P Keep Fac :=
  if st.liwInc then
    match memIncrease L.imax st.liw (st.memInc * st.liw) 0 with
    | none => (false, { st with iwLen := none })
    | some liw =>
      let r := ({ st with liw := liw }).newIW L
      if r.1 then (true, { r.2 with liwInc := false }) else r
  else (true, st)

/-- lengths recommended after `ma27b` ran out of memory (IpMa27TSolverInterface.cpp:576-585). -/
def St.wantIW (b : BOut Fac) (st : St K P Keep Fac) : ℚ := st.memInc * (if b.iflag = -3 then (b.ierror : ℚ) else st.liw)
@[inherit_doc St.wantIW] def St.wantA (b : BOut Fac) (st : St K P Keep Fac) : ℚ := st.memInc * (if b.iflag = -3 then (st.la : ℚ) else b.ierror)

/-- `ma27b` ran out of memory (IpMa27TSolverInterface.cpp:566-606). -/
def St.again (L : Lib K P Keep Fac) (b : BOut Fac) (st : St K P Keep Fac) : Option Status × St K P Keep Fac :=
  let st := { st with iwLen := none, aLen := none, work := .raw L.junk }
  match memIncrease L.imax st.liw (st.wantIW b) 0 with
  | none => (none, st)
  | some liw =>
    match memIncrease L.imax st.la (st.wantA b) 0 with
    | none => (none, { st with liw := liw })
    | some la =>
      let r := ({ st with liw := liw, la := la }).newIW L
      if !r.1 then (none, r.2)
      else
        let q := r.2.newA L la
        if q.1 then (some .callAgain, q.2) else (none, q.2)

/-- what follows the call of `ma27b` (IpMa27TSolverInterface.cpp:549-667). -/
def St.judge (L : Lib K P Keep Fac) (b : BOut Fac) (chk : Bool) (neg : Nat) (st : St K P Keep Fac) :
    Option Status × St K P Keep Fac :=
  if b.iflag = -3 ∨ b.iflag = -4 then st.again L b
  else if b.iflag = -5 ∨ (!st.ignoreSingular ∧ b.iflag = 3) then (some .singular, st)
  else if b.iflag ≠ 3 ∧ b.iflag ≠ 0 then (some .fatal, st)
  else
    let st := if b.iflag = 3 then { st with neg := st.neg + (st.dim - b.ierror) } else st
    let st := { st with laInc := st.laInc || decide (10 ≤ b.ncmpbr), liwInc := st.liwInc || decide (10 ≤ b.ncmpbi) }
    if !st.skipInertia ∧ chk ∧ (neg : Int) ≠ st.neg then (some .wrongInertia, st) else (some .success, st)

/-- `Factorization` (IpMa27TSolverInterface.cpp:475-668).  `none`: an exception. -/
def St.factorize (L : Lib K P Keep Fac) (airn ajcn : Nat → Nat) (chk : Bool) (neg : Nat) (st : St K P Keep Fac) :
    Option Status × St K P Keep Fac :=
  let r := st.growA L
  if !r.1 then (none, r.2)
  else
    let q := r.2.growIW L
    if !q.1 then (none, q.2)
    else
      let st := q.2
      let b := L.factor st.dim st.nnz airn ajcn st.work st.la st.liw st.keep st.pivtol
      ({ st with work := .fac b.fac, neg := b.neg, overrun := st.overrun || !long st.aLen st.la || !long st.iwLen st.liw }).judge L b chk neg

/-- column `i` of the array replaced. -/
def putColumn (dim i : Nat) (y arr : Nat → K) : Nat → K :=
  fun j => if i * dim ≤ j ∧ j < i * dim + dim then y (j - i * dim) else arr j

/-- the loop of `Backsolve` (IpMa27TSolverInterface.cpp:685-703), right-hand sides `i, …, i + n - 1`. -/
def solveLoop (L : Lib K P Keep Fac) (st : St K P Keep Fac) : Nat → Nat → (Nat → K) → Nat → K
  | 0, _, arr => arr
  | n + 1, i, arr => solveLoop L st n (i + 1) (putColumn st.dim i (L.backsolve st.dim st.work st.keep (fun j => arr (i * st.dim + j))) arr)

/-- `MultiSolve` (IpMa27TSolverInterface.cpp:256-303) with `Backsolve` (670-712).  `none`: an exception. -/
def St.multiSolve (L : Lib K P Keep Fac) (new : Bool) (airn ajcn : Nat → Nat) (nrhs : Nat) (arr : Nat → K) (chk : Bool) (neg : Nat)
    (st : St K P Keep Fac) : Option Status × (Nat → K) × St K P Keep Fac :=
  if st.pivtolChanged ∧ !new then (some .callAgain, arr, { st with pivtolChanged := false, refactorize := true })
  else
    let st := { st with pivtolChanged := false }
    let r : Option Status × St K P Keep Fac :=
      if new || st.refactorize then
        let f := st.factorize L airn ajcn chk neg
        if f.1 = some .success then (f.1, { f.2 with refactorize := false }) else f
      else (some .success, st)
    if r.1 = some .success then
      (some .success, solveLoop L r.2 nrhs 0 arr,
        { r.2 with overrun := r.2.overrun || (decide (0 < nrhs) && (!long r.2.aLen r.2.la || !long r.2.iwLen r.2.liw)) })
    else (r.1, arr, r.2)

/-- `IncreaseQuality` (IpMa27TSolverInterface.cpp:724-741). -/
def St.quality [LinearOrder P] (L : Lib K P Keep Fac) (st : St K P Keep Fac) : Bool × St K P Keep Fac :=
  if st.pivtol = st.pivtolmax then (false, st)
  else (true, { st with pivtolChanged := true, pivtol := min st.pivtolmax (L.raisePow st.pivtol) })

/-- an exception ends the optimization (it is caught in IpIpoptApplication.cpp only), like a fatal error. -/
def statusOf (s : Option Status) : Status := s.getD .fatal

/-- the object as sparse solver below `TSymLinearSolver`, with a scaling method `scale` (`none`: no scaling), and the rest of the
environment as in `E`.  A `std::bad_alloc` in `GetValuesArrayPtr` is not represented here. -/
def env [LinearOrder P] {B : Type} (L : Lib K P Keep Fac) (o : Opts P) (maxSet : Bool)
    (scale : Option (Nat → Nat → (Nat → Nat) → (Nat → Nat) → (Nat → K) → Option (Nat → K))) (E : AugSolve.Env K B) :
    AugSolve.Env K (St K P Keep Fac) where
  fmt := .triplet
  hasScaling := scale.isSome
  initBackend warm st := st.init o maxSet warm
  initScaling st := (true, st)
  initStructure d n ia ja st := ((statusOf (st.initStructure L d n ia ja).1), (st.initStructure L d n ia ja).2)
  array st := st.contents L
  store v st := (st.write L v).2
  solve new ia ja nrhs arr chk neg st :=
    let r := st.multiSolve L new ia ja nrhs arr chk neg
    (statusOf r.1, r.2.1, r.2.2)
  quality st := st.quality L
  scale d n ir jc a st := ((match scale with | some f => f d n ir jc a | none => none), st)
  sort := E.sort
  junkIdx := E.junkIdx
  junkVal := E.junkVal
  junkIA := E.junkIA
  junkJA := E.junkJA
  junkFirst := E.junkFirst

end Verif.Ma27
