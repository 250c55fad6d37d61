import Verif.Model.Ma27

/-! # Model of `Ma57TSolverInterface`

`/repo/src/Algorithm/LinearSolvers/IpMa57TSolverInterface.cpp` with `ComputeMemIncrease` (`/repo/src/Common/IpUtils.hpp`).  The HSL routines
`ma57a`, `ma57b`, `ma57c`, `ma57e` are functions that may answer anything; memory allocation may fail at any time.  The lengths that the arrays
`a_`, `wd_fact_`, `wd_ifact_` really have (`none`: NULL) are kept beside the lengths that the object believes in, and `overrun` records whether a
routine was given an array shorter than it was told, or the caller an array shorter than the number of nonzeros.
Simplified: the safety factor is a rational number and products are exact; `Index` and `ma57int` values returned by the routines for lengths are
natural numbers; `wd_keep_`, `wd_iwork_` and local work arrays are always allocated; the contents of `wd_fact_` and `wd_ifact_` are one
value of a type `Mem`; the options that are only handed on to the routines (block size, pivot order, scaling, …), printing, timing and the
loading of the library are left out; a `Number` written into `wd_cntl_[0]` is an element of an ordered type `P` with the operation "to the power 3/4". -/

namespace Verif.Ma57
open Verif.AugSolve (Status)
open Verif.Ma27 (memIncrease long)

/-- the options (IpMa57TSolverInterface.cpp:191-264). -/
structure Opts (P : Type) where
  pivtol : P
  pivtolmax : P
  preAlloc : ℚ

/-- what `ma57a` returns: INFO[0], INFO[8], INFO[9] and `wd_keep_`. -/
structure AOut (Keep : Type) where
  info : Int
  lfact : Nat
  lifact : Nat
  keep : Keep

/-- what `ma57b` returns: INFO[0], INFO[16], INFO[17], INFO[23] and what it leaves in `wd_fact_`, `wd_ifact_`. -/
structure BOut (Mem : Type) where
  info : Int
  needReal : Nat
  needInt : Nat
  neg : Int
  mem : Mem

/-- the HSL routines, the memory, and the operation on the pivot tolerance.  `alloc n size`: does the `n`-th allocation succeed?
`junk`, `junkMem`: contents of new memory.  `extend`: `ma57e`, with `ic`, the old contents and the length of the new array. -/
structure Lib (K P Keep Mem : Type) where
  imax : Nat
  analyse : Nat → Nat → (Nat → Nat) → (Nat → Nat) → AOut Keep
  factor : Nat → Nat → (Nat → K) → Mem → Nat → Nat → Keep → P → BOut Mem
  extend : Bool → Keep → Mem → Nat → Mem
  backsolve : Nat → Mem → Nat → Nat → Nat → (Nat → K) → Int × (Nat → K)
  alloc : Nat → Nat → Bool
  junk : Nat → K
  junkMem : Mem
  raisePow : P → P

/-- member variables (IpMa57TSolverInterface.hpp:215-300) and the actual lengths of the arrays. -/
structure St (K P Keep Mem : Type) where
  warm : Bool
  dim : Nat
  nnz : Nat
  neg : Int
  initialized : Bool
  pivtolChanged : Bool
  refactorize : Bool
  pivtol : P
  pivtolmax : P
  preAlloc : ℚ
  lfact : Nat
  lifact : Nat
  keep : Keep
  vals : Nat → K
  mem : Mem
  aLen : Option Nat
  factLen : Option Nat
  ifactLen : Option Nat
  allocs : Nat
  overrun : Bool

/-- how a call ends: it does not (within the given number of passes of the loop in `Factorization`), by an exception, or with a status. -/
inductive Out where
  | running
  | thrown
  | ret (s : Status)
  deriving DecidableEq

variable {K P Keep Mem : Type}

/-- the constructor (IpMa57TSolverInterface.cpp:157-177); members not set there are arbitrary. -/
def St.start (o : Opts P) (keep : Keep) (L : Lib K P Keep Mem) : St K P Keep Mem :=
  { warm := false, dim := 0, nnz := 0, neg := 0, initialized := false, pivtolChanged := false, refactorize := false
    pivtol := o.pivtol, pivtolmax := o.pivtolmax, preAlloc := o.preAlloc, lfact := 0, lifact := 0, keep := keep
    vals := L.junk, mem := L.junkMem, aLen := none, factLen := none, ifactLen := none, allocs := 0, overrun := false }

/-- `InitializeImpl` (IpMa57TSolverInterface.cpp:287-422); `maxSet`: `ma57_pivtolmax` was set by the user.  `false`: OPTION_INVALID or
INVALID_WARMSTART thrown. -/
def St.init [LinearOrder P] (o : Opts P) (maxSet warm : Bool) (st : St K P Keep Mem) : Bool × St K P Keep Mem :=
  if maxSet && !decide (o.pivtol ≤ o.pivtolmax) then (false, { st with pivtol := o.pivtol, pivtolmax := o.pivtolmax })
  else
    let st := { st with
      pivtol := o.pivtol, pivtolmax := if maxSet then o.pivtolmax else max o.pivtolmax o.pivtol, preAlloc := o.preAlloc, warm := warm }
    if !warm then (true, { st with dim := 0, nnz := 0, aLen := none, factLen := none, ifactLen := none })
    else (decide (0 < st.dim) && decide (0 < st.nnz), st)

/-- `SymbolicFactorization` (IpMa57TSolverInterface.cpp:522-612).  An error of `ma57a` is printed and otherwise ignored. -/
def St.symbolic (L : Lib K P Keep Mem) (airn ajcn : Nat → Nat) (st : St K P Keep Mem) : Out × St K P Keep Mem :=
  let a := L.analyse st.dim st.nnz airn ajcn
  let st := { st with keep := a.keep, lfact := 0, lifact := 0 }
  match memIncrease L.imax 0 (a.lfact * st.preAlloc) 0 with
  | none => (.thrown, st)
  | some lf =>
    match memIncrease L.imax 0 (a.lifact * st.preAlloc) 0 with
    | none => (.thrown, { st with lfact := lf })
    | some li =>
      let st := { st with lfact := lf, lifact := li, factLen := none, ifactLen := none, mem := L.junkMem }
      if !L.alloc st.allocs lf then (.thrown, { st with allocs := st.allocs + 1 })
      else if !L.alloc (st.allocs + 1) li then (.thrown, { st with factLen := some lf, allocs := st.allocs + 2 })
      else (.ret .success, { st with factLen := some lf, ifactLen := some li, allocs := st.allocs + 2 })

/-- `InitializeStructure` (IpMa57TSolverInterface.cpp:483-520). -/
def St.initStructure (L : Lib K P Keep Mem) (dim nnz : Nat) (airn ajcn : Nat → Nat) (st : St K P Keep Mem) : Out × St K P Keep Mem :=
  if !st.warm then
    let st := { st with dim := dim, nnz := nnz, aLen := none, vals := L.junk, allocs := st.allocs + 1 }
    if !L.alloc (st.allocs - 1) nnz then (.thrown, st)
    else
      let r := ({ st with aLen := some nnz }).symbolic L airn ajcn
      if r.1 = .ret .success then (r.1, { r.2 with initialized := true }) else r
  else if st.dim = dim ∧ st.nnz = nnz then (.ret .success, { st with initialized := true })
  else (.thrown, st)

/-- the caller asks for the array (`GetValuesArrayPtr`, IpMa57TSolverInterface.cpp:474-481) and writes `nonzeros_` values. -/
def St.write (v : Nat → K) (st : St K P Keep Mem) : St K P Keep Mem :=
  { st with vals := v, overrun := st.overrun || !long st.aLen st.nnz }

/-- `ma57b` ran out of real space (IpMa57TSolverInterface.cpp:644-674).  `false`: an exception. -/
def St.growReal (L : Lib K P Keep Mem) (b : BOut Mem) (st : St K P Keep Mem) : Bool × St K P Keep Mem :=
  match memIncrease L.imax st.lfact (b.needReal * st.preAlloc) 0 with
  | none => (false, st)
  | some lf =>
    let st := { st with lfact := lf, allocs := st.allocs + 1 }
    if L.alloc (st.allocs - 1) lf then (true, { st with factLen := some lf, mem := L.extend false st.keep st.mem lf }) else (false, st)

/-- `ma57b` ran out of integer space (IpMa57TSolverInterface.cpp:675-698).  `false`: an exception. -/
def St.growInt (L : Lib K P Keep Mem) (b : BOut Mem) (st : St K P Keep Mem) : Bool × St K P Keep Mem :=
  match memIncrease L.imax st.lifact (b.needInt * st.preAlloc) 0 with
  | none => (false, st)
  | some li =>
    let st := { st with lifact := li, allocs := st.allocs + 1 }
    if L.alloc (st.allocs - 1) li then (true, { st with ifactLen := some li, mem := L.extend true st.keep st.mem li }) else (false, st)

/-- one call of `ma57b` (IpMa57TSolverInterface.cpp:636-638). -/
def St.callB (L : Lib K P Keep Mem) (st : St K P Keep Mem) : BOut Mem × St K P Keep Mem :=
  let b := L.factor st.dim st.nnz st.vals st.mem st.lfact st.lifact st.keep st.pivtol
  (b, { st with mem := b.mem, neg := b.neg, overrun := st.overrun || !long st.aLen st.nnz || !long st.factLen st.lfact || !long st.ifactLen st.lifact })

/-- the loop of `Factorization` (IpMa57TSolverInterface.cpp:634-727), at most `fuel` passes; `success`: the loop was left. -/
def factorLoop (L : Lib K P Keep Mem) : Nat → St K P Keep Mem → Out × St K P Keep Mem
  | 0, st => (.running, st)
  | fuel + 1, st =>
    let r := st.callB L
    let b := r.1
    if b.info = 0 then (.ret .success, r.2)
    else if b.info = -3 then
      let g := r.2.growReal L b
      if g.1 then factorLoop L fuel g.2 else (.thrown, g.2)
    else if b.info = -4 then
      let g := r.2.growInt L b
      if g.1 then factorLoop L fuel g.2 else (.thrown, g.2)
    else if b.info < 0 then (.ret .fatal, r.2)
    else if b.info = 4 then (.ret .singular, r.2)
    else (.ret .fatal, r.2)

/-- `Factorization` (IpMa57TSolverInterface.cpp:614-747). -/
def St.factorize (L : Lib K P Keep Mem) (fuel : Nat) (chk : Bool) (neg : Nat) (st : St K P Keep Mem) : Out × St K P Keep Mem :=
  let r := factorLoop L fuel st
  if r.1 = .ret .success then (if chk ∧ (neg : Int) ≠ r.2.neg then (.ret .wrongInertia, r.2) else r) else r

/-- `Backsolve` (IpMa57TSolverInterface.cpp:749-811).  An error of `ma57c` is printed and otherwise ignored. -/
def St.backsolve (L : Lib K P Keep Mem) (nrhs : Nat) (arr : Nat → K) (st : St K P Keep Mem) : (Nat → K) × St K P Keep Mem :=
  ((L.backsolve st.dim st.mem st.lfact st.lifact nrhs arr).2,
    { st with overrun := st.overrun || !long st.factLen st.lfact || !long st.ifactLen st.lifact })

/-- `MultiSolve` (IpMa57TSolverInterface.cpp:424-472). -/
def St.multiSolve (L : Lib K P Keep Mem) (fuel : Nat) (new : Bool) (nrhs : Nat) (arr : Nat → K) (chk : Bool) (neg : Nat)
    (st : St K P Keep Mem) : Out × (Nat → K) × St K P Keep Mem :=
  if st.pivtolChanged ∧ !new then (.ret .callAgain, arr, { st with pivtolChanged := false, refactorize := true })
  else
    let st := { st with pivtolChanged := false }
    let r : Out × St K P Keep Mem :=
      if new || st.refactorize then
        let f := st.factorize L fuel chk neg
        if f.1 = .ret .success then (f.1, { f.2 with refactorize := false }) else f
      else (.ret .success, st)
    if r.1 = .ret .success then
      let s := r.2.backsolve L nrhs arr
      (.ret .success, s.1, s.2)
    else (r.1, arr, r.2)

/-- `IncreaseQuality` (IpMa57TSolverInterface.cpp:821-838). -/
def St.quality [LinearOrder P] (L : Lib K P Keep Mem) (st : St K P Keep Mem) : Bool × St K P Keep Mem :=
  if st.pivtol = st.pivtolmax then (false, st)
  else (true, { st with pivtolChanged := true, pivtol := min st.pivtolmax (L.raisePow st.pivtol) })

/-- an exception ends the optimization (it is caught in IpIpoptApplication.cpp only), like a fatal error; so does a loop that never ends
(it is shown that it ends). -/
def statusOf : Out → Status
  | .ret s => s
  | _ => .fatal

/-- enough passes. -/
def passes (L : Lib K P Keep Mem) : Nat := 2 * L.imax + 1

/-- the object as sparse solver below `TSymLinearSolver`, with a scaling method `scale` (`none`: no scaling), and the rest of the
environment as in `E`. -/
def env [LinearOrder P] {B : Type} (L : Lib K P Keep Mem) (o : Opts P) (maxSet : Bool)
    (scale : Option (Nat → Nat → (Nat → Nat) → (Nat → Nat) → (Nat → K) → Option (Nat → K))) (E : AugSolve.Env K B) :
    AugSolve.Env K (St K P Keep Mem) where
  fmt := .triplet
  hasScaling := scale.isSome
  initBackend warm st := st.init o maxSet warm
  initScaling st := (true, st)
  initStructure d n ia ja st := ((statusOf (st.initStructure L d n ia ja).1), (st.initStructure L d n ia ja).2)
  array st := st.vals
  store v st := st.write v
  solve new _ _ nrhs arr chk neg st :=
    let r := st.multiSolve L (passes L) new nrhs arr chk neg
    (statusOf r.1, r.2.1, r.2.2)
  quality st := st.quality L
  scale d n ir jc a st := ((match scale with | some f => f d n ir jc a | none => none), st)
  sort := E.sort
  junkIdx := E.junkIdx
  junkVal := E.junkVal
  junkIA := E.junkIA
  junkJA := E.junkJA
  junkFirst := E.junkFirst

end Verif.Ma57
