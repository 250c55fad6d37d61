import Verif.Model.Matrix

/-! # Primal-dual system solver

`/repo/src/Algorithm/IpPDFullSpaceSolver.cpp` (`Solve`, `SolveOnce`, `ComputeResiduals`, `ComputeResidualRatio`),
`/repo/src/Algorithm/IpStdAugSystemSolver.cpp` (the augmented system handed to the linear solver) and `curr_sigma_x`, `curr_sigma_s` of
`/repo/src/Algorithm/IpIpoptCalculatedQuantities.cpp:3501-3551`.

Matrices are `Verif.Matrix.Mat`, vectors are lists.  `hom` tells which vectors are stored homogeneously (see `Verif.Matrix`).
The linear solver is an oracle; the inertia-correction loop of `SolveOnce` (lines 476-648) is the subject of `Verif.Perturb` and enters
here as an oracle too (`Env.solveNew`).  Not modelled: timing, printing, info strings, the tag-based check `uptodate` (an explicit flag:
false until the first `SolveOnce` of the current system). -/

namespace Verif.PDSystem
open Verif.Matrix

section Ops
variable {N : Type} [Zero N] [One N] [Add N] [Sub N] [Mul N] [Neg N] [Div N] [BEq N]

/-- `IteratesVector`: the eight blocks x, s, y_c, y_d, z_L, z_U, v_L, v_U (IpIteratesVector.hpp). -/
structure Iter (N : Type) where
  x : List N
  s : List N
  yc : List N
  yd : List N
  zL : List N
  zU : List N
  vL : List N
  vU : List N
deriving DecidableEq

/-- the matrices and vectors of the current iterate (IpPDFullSpaceSolver.cpp:175-193). -/
structure Data (N : Type) where
  W : Mat N
  Jc : Mat N
  Jd : Mat N
  PxL : Mat N
  PxU : Mat N
  PdL : Mat N
  PdU : Mat N
  zL : List N
  zU : List N
  vL : List N
  vU : List N
  sxL : List N
  sxU : List N
  ssL : List N
  ssU : List N

/-- the perturbations `delta_x, delta_s, delta_c, delta_d`. -/
structure Deltas (N : Type) where
  x : N
  s : N
  c : N
  d : N

/-- a right-hand side or solution of the augmented system. -/
structure Aug (N : Type) where
  x : List N
  s : List N
  c : List N
  d : List N
deriving DecidableEq

/-- `curr_sigma_x` (IpIpoptCalculatedQuantities.cpp:3512-3516). -/
def sigmaX (hom : List N → Option N) (D : Data N) : List N :=
  D.PxU.addMSinvZ hom 1 D.sxU D.zU (D.PxL.addMSinvZ hom 1 D.sxL D.zL (List.replicate D.PxL.dims.1 0))

/-- `curr_sigma_s` (IpIpoptCalculatedQuantities.cpp:3538-3544). -/
def sigmaS (hom : List N → Option N) (D : Data N) : List N :=
  D.PdU.addMSinvZ hom 1 D.ssU D.vU (D.PdL.addMSinvZ hom 1 D.ssL D.vL (List.replicate D.PdL.dims.1 0))

/-- right-hand side of the augmented system (IpPDFullSpaceSolver.cpp:418-425). -/
def augRhs (hom : List N → Option N) (D : Data N) (rhs : Iter N) : Aug N where
  x := D.PxU.addMSinvZ hom (-1) D.sxU rhs.zU (D.PxL.addMSinvZ hom 1 D.sxL rhs.zL rhs.x)
  s := D.PdU.addMSinvZ hom (-1) D.ssU rhs.vU (D.PdL.addMSinvZ hom 1 D.ssL rhs.vL rhs.s)
  c := rhs.yc
  d := rhs.yd

/-- the remaining blocks of `sol` (IpPDFullSpaceSolver.cpp:651-654); `sol0`: the newly allocated vectors. -/
def recover (hom : List N → Option N) (D : Data N) (rhs : Iter N) (a : Aug N) (sol0 : Iter N) : Iter N where
  x := a.x
  s := a.s
  yc := a.c
  yd := a.d
  zL := D.PxL.sinvBlrm hom (-1) D.sxL rhs.zL D.zL a.x sol0.zL
  zU := D.PxU.sinvBlrm hom 1 D.sxU rhs.zU D.zU a.x sol0.zU
  vL := D.PdL.sinvBlrm hom (-1) D.ssL rhs.vL D.vL a.s sol0.vL
  vU := D.PdU.sinvBlrm hom 1 D.ssU rhs.vU D.vU a.s sol0.vU

/-- `res.AddOneVector(alpha, *sol, beta)`: `CompoundVector` applies it block by block. -/
def Iter.addOne (α : N) (v : Iter N) (β : N) (y : Iter N) : Iter N where
  x := Matrix.addOne α v.x β y.x
  s := Matrix.addOne α v.s β y.s
  yc := Matrix.addOne α v.yc β y.yc
  yd := Matrix.addOne α v.yd β y.yd
  zL := Matrix.addOne α v.zL β y.zL
  zU := Matrix.addOne α v.zU β y.zU
  vL := Matrix.addOne α v.vL β y.vL
  vU := Matrix.addOne α v.vU β y.vU

/-- `res.Scal(alpha)`. -/
def Iter.scal (α : N) (y : Iter N) : Iter N where
  x := y.x.map (fun v => α * v)
  s := y.s.map (fun v => α * v)
  yc := y.yc.map (fun v => α * v)
  yd := y.yd.map (fun v => α * v)
  zL := y.zL.map (fun v => α * v)
  zU := y.zU.map (fun v => α * v)
  vL := y.vL.map (fun v => α * v)
  vU := y.vU.map (fun v => α * v)

/-- `y.Axpy(beta, v)`. -/
def Iter.axpy (y : Iter N) (β : N) (v : Iter N) : Iter N where
  x := Matrix.axpy β v.x y.x
  s := Matrix.axpy β v.s y.s
  yc := Matrix.axpy β v.yc y.yc
  yd := Matrix.axpy β v.yd y.yd
  zL := Matrix.axpy β v.zL y.zL
  zU := Matrix.axpy β v.zU y.zU
  vL := Matrix.axpy β v.vL y.vL
  vU := Matrix.axpy β v.vU y.vU

/-- what follows the solution of the augmented system in `SolveOnce` (IpPDFullSpaceSolver.cpp:650-657). -/
def finish (hom : List N → Option N) (D : Data N) (α β : N) (rhs res : Iter N) (a : Aug N) : Iter N :=
  Iter.addOne α (recover hom D rhs a res) β res

/-- `Vector::AddTwoVectors(a, v1, b, v2, 1.)`: y ← a v1 + b v2 + y. -/
def addTwo (a : N) (v1 : List N) (b : N) (v2 y : List N) : List N := Matrix.axpy b v2 (Matrix.axpy a v1 y)

/-- `ComputeResiduals` (IpPDFullSpaceSolver.cpp:666-793); `r0`: the vectors `resid` holds before the call. -/
def computeResiduals (hom : List N → Option N) (D : Data N) (δ : Deltas N) (rhs res r0 : Iter N) : Iter N where
  x :=
    let r1 := D.W.mult hom 1 res.x 0 r0.x
    let r2 := D.Jc.transMult hom 1 res.yc 1 r1
    let r3 := D.Jd.transMult hom 1 res.yd 1 r2
    let r4 := D.PxL.mult hom (-1) res.zL 1 r3
    let r5 := D.PxU.mult hom 1 res.zU 1 r4
    addTwo δ.x res.x (-1) rhs.x r5
  s :=
    let r1 := D.PdU.mult hom 1 res.vU 0 r0.s
    let r2 := D.PdL.mult hom (-1) res.vL 1 r1
    let r3 := addTwo (-1) res.yd (-1) rhs.s r2
    if δ.s == 0 then r3 else Matrix.axpy δ.s res.s r3
  yc := addTwo (-δ.c) res.yc (-1) rhs.yc (D.Jc.mult hom 1 res.x 0 r0.yc)
  yd :=
    let r1 := addTwo (-1) res.s (-1) rhs.yd (D.Jd.mult hom 1 res.x 0 r0.yd)
    if δ.d == 0 then r1 else Matrix.axpy (-δ.d) res.yd r1
  zL := addTwo 1 (emul (D.PxL.transMult hom 1 res.x 0 D.zL) D.zL) (-1) rhs.zL (emul res.zL D.sxL)
  zU := addTwo (-1) (emul (D.PxU.transMult hom 1 res.x 0 D.zU) D.zU) (-1) rhs.zU (emul res.zU D.sxU)
  vL := addTwo 1 (emul (D.PdL.transMult hom 1 res.s 0 D.vL) D.vL) (-1) rhs.vL (emul res.vL D.ssL)
  vU := addTwo (-1) (emul (D.PdU.transMult hom 1 res.s 0 D.vU) D.vU) (-1) rhs.vU (emul res.vU D.ssU)

/-! ### The matrix handed to the linear solver -/

/-- arguments of `AugSystemSolver::Solve` (IpAugSystemSolver.hpp). -/
structure AugArgs (N : Type) where
  W : Option (Mat N)
  Wfac : N
  Dx : Option (List N)
  δx : N
  Ds : Option (List N)
  δs : N
  Jc : Mat N
  Dc : Option (List N)
  δc : N
  Jd : Mat N
  Dd : Option (List N)
  δd : N

/-- one diagonal block of the augmented system: the given diagonal, if any, plus a multiple of the identity
(IpStdAugSystemSolver.cpp:329-351 and the three blocks that follow); `n`: dimension of the prototype vector. -/
def diagBlock (D : Option (List N)) (δ : N) (isZero : Bool) (n : Nat) : List N :=
  match D with
  | some d => if isZero then d else d.map (fun v => v + δ)
  | none => List.replicate n δ

/-- which blocks of the 4×4 lower triangle are set (IpStdAugSystemSolver.cpp:355-462). -/
def kktSet (i j : Nat) : Bool :=
  (i == 0 && j == 0) || (i == 1 && j == 1) || (i == 2 && j == 0) || (i == 2 && j == 2) || (i == 3 && j == 0) || (i == 3 && j == 1)
    || (i == 3 && j == 3)

/-- the (1,1) block: sum of `W_factor * W` and the diagonal; without `W` the last `W` seen with factor 0
(IpStdAugSystemSolver.cpp:312-352). -/
def kktW (oldW : Mat N) (a : AugArgs N) (nx : Nat) : Mat N :=
  .sumSym nx 2 (fun l => if l = 0 then (match a.W with | some _ => a.Wfac | none => 0) else 1)
    (fun l => if l = 0 then a.W.getD oldW else .diag (diagBlock a.Dx a.δx (a.δx == 0) nx))

/-- `CreateAugmentedSpace` and `CreateAugmentedSystem` (IpStdAugSystemSolver.cpp:227-466). -/
def kkt (oldW : Mat N) (a : AugArgs N) : Mat N :=
  let nx := a.Jc.dims.2
  let ns := a.Jd.dims.1
  let nc := a.Jc.dims.1
  .compoundSym [nx, ns, nc, ns] kktSet (fun i j =>
    if i = 0 then kktW oldW a nx
    else if i = 1 then .diag (diagBlock a.Ds a.δs (a.δs == 0) ns)
    else if i = 2 then (if j = 0 then a.Jc else .diag (diagBlock a.Dc (-a.δc) (a.δc == 0) nc))
    else if j = 0 then a.Jd
    else if j = 1 then .ident ns (-1)
    else .diag (diagBlock a.Dd (-a.δd) (a.δd == 0) ns))

/-- arguments with which `SolveOnce` calls the augmented system solver (IpPDFullSpaceSolver.cpp:473-475, 514-517). -/
def solveArgs (hom : List N → Option N) (D : Data N) (δ : Deltas N) : AugArgs N :=
  ⟨some D.W, 1, some (sigmaX hom D), δ.x, some (sigmaS hom D), δ.s, D.Jc, none, δ.c, D.Jd, none, δ.d⟩

/-! ### Iterative refinement -/

variable [LT N] [DecidableLT N]

/-- `std::abs`. -/
def nabs (v : N) : N := if v < 0 then -v else v

/-- `Max` of IpUtils.hpp. -/
def nmax (a b : N) : N := if b < a then a else b

/-- `Min` of IpUtils.hpp. -/
def nmin (a b : N) : N := if a < b then a else b

/-- `Vector::Amax`. -/
def vamax (x : List N) : N := x.foldl (fun m v => nmax m (nabs v)) 0

/-- `IteratesVector::Amax` (`CompoundVector::AmaxImpl`). -/
def Iter.amax (v : Iter N) : N :=
  [v.x, v.s, v.yc, v.yd, v.zL, v.zU, v.vL, v.vU].foldl (fun m b => nmax m (vamax b)) 0

/-- `ComputeResidualRatio` (IpPDFullSpaceSolver.cpp:795-822); `maxCond` = 1e6. -/
def residualRatio (maxCond : N) (rhs res resid : Iter N) : N :=
  if rhs.amax + res.amax == 0 then resid.amax
  else resid.amax / (nmin res.amax (maxCond * rhs.amax) + rhs.amax)

/-- the augmented system solver and the perturbation handler as seen by `Solve`.  `solveCur` is the call with the current
perturbations (IpPDFullSpaceSolver.cpp:456-480), `solveNew` the inertia-correction loop (481-648), which also may raise the quality of
the linear solver. -/
structure Env (N S : Type) where
  solveCur : S → Aug N → Option (Aug N × S)
  solveNew : Bool → Bool → S → Aug N → Option (Aug N × Bool × S)
  deltas : S → Deltas N
  increaseQuality : S → Bool × S

/-- options (IpPDFullSpaceSolver.cpp:103-116). -/
structure Opts (N : Type) where
  minRef : Nat
  maxRef : Nat
  ratioMax : N
  ratioSing : N
  improve : N
  maxCond : N

/-- state of the solver: environment, `uptodate`, `augsys_improved_`, and two counters that only record history: the number of
`SolveOnce` calls so far, and of those with `pretend_singular`. -/
structure SSt (S : Type) where
  env : S
  uptodate : Bool
  improved : Bool
  calls : Nat
  pretends : Nat

variable {S : Type}

/-- `SolveOnce` (IpPDFullSpaceSolver.cpp:377-664). -/
def solveOnce (hom : List N → Option N) (D : Data N) (E : Env N S) (pretend : Bool) (α β : N) (rhs res : Iter N) (st : SSt S) :
    Option (Iter N × SSt S) :=
  let improved := st.uptodate && st.improved
  if st.uptodate && !pretend then
    (E.solveCur st.env (augRhs hom D rhs)).map (fun r =>
      (finish hom D α β rhs res r.1, ⟨r.2, true, improved, st.calls + 1, st.pretends⟩))
  else
    (E.solveNew pretend improved st.env (augRhs hom D rhs)).map (fun r =>
      (finish hom D α β rhs res r.1, ⟨r.2.2, true, r.2.1, st.calls + 1, if pretend then st.pretends + 1 else st.pretends⟩))

/-- what `Solve` ends with. -/
inductive Outcome (N S : Type) where
  /-- `return true` with the assembled result -/
  | ok (res : Iter N) (st : SSt S)
  /-- `return false` -/
  | failed
  /-- INTERNAL_ABORT thrown (line 261) -/
  | abort
  /-- not finished within the given number of steps -/
  | running

/-- end of the refinement loop: result, state, residual ratio, and the flags `resolve_with_better_quality`, `pretend_singular`,
`pretend_singular_last_time`. -/
structure RefEnd (N S : Type) where
  res : Iter N
  st : SSt S
  ratio : N
  steps : Nat
  quit : Bool
  resolve : Bool
  pretend : Bool
  last : Bool

/-- giving up refinement (IpPDFullSpaceSolver.cpp:272-337): the flags `resolve_with_better_quality`, `pretend_singular`,
`pretend_singular_last_time` and the new state. -/
def giveUp (o : Opts N) (E : Env N S) (ratio : N) (last : Bool) (st : SSt S) : Bool × Bool × Bool × SSt S :=
  if !last then
    let q : Bool × SSt S := if !st.improved then
        let r := E.increaseQuality st.env
        (r.1, { st with env := r.2, improved := r.1 })
      else (false, st)
    let pretend := !q.1
    (q.1, pretend && !decide (ratio < o.ratioSing), pretend, q.2)
  else (false, false, last, st)

/-- the loop for iterative refinement (IpPDFullSpaceSolver.cpp:252-341).  `none`: SolveOnce failed. -/
def refine (hom : List N → Option N) (D : Data N) (o : Opts N) (E : Env N S) (rhs : Iter N) (last : Bool) :
    Nat → Nat → N → N → Iter N → Iter N → SSt S → Outcome N S ⊕ RefEnd N S
  | 0, _, _, _, _, _, _ => .inl .running
  | fuel + 1, num, ratio, ratioOld, res, resid, st =>
    if num < o.minRef || decide (o.ratioMax < ratio) then
      match solveOnce hom D E false (-1) 1 resid res st with
      | none => .inl .abort
      | some (res', st') =>
        let resid' := computeResiduals hom D (E.deltas st'.env) rhs res' resid
        let ratio' := residualRatio o.maxCond rhs res' resid'
        let num' := num + 1
        if decide (o.ratioMax < ratio') && decide (o.minRef < num') &&
            (decide (o.maxRef < num') || decide (o.improve * ratioOld < ratio')) then
          let g := giveUp o E ratio' last st'
          .inr ⟨res', g.2.2.2, ratio', num', true, g.1, g.2.1, g.2.2.1⟩
        else refine hom D o E rhs last fuel num' ratio' ratio' res' resid' st'
    else .inr ⟨res, st, ratio, num, false, false, false, last⟩

/-- `while( !done )` (IpPDFullSpaceSolver.cpp:211-346), followed by the final assembly (348-357).  `res`: current contents of the
result vector, `resIn`: its contents at the call. -/
def rounds (hom : List N → Option N) (D : Data N) (o : Opts N) (E : Env N S) (rhs : Iter N) (α β : N) (inexact : Bool)
    (resIn : Iter N) : Nat → Bool → Bool → Bool → Iter N → SSt S → Outcome N S
  | 0, _, _, _, _, _ => .running
  | fuel + 1, improveSol, pretend, last, res, st =>
    match (if improveSol then some (res, st) else solveOnce hom D E pretend 1 0 rhs res st) with
    | none => .failed
    | some (res1, st1) =>
      let assemble := fun (r : Iter N) =>
        let r1 := if α == 0 then r else r.scal α
        if β == 0 then r1 else r1.axpy β resIn
      if inexact then .ok (assemble res1) st1
      else
        let resid := computeResiduals hom D (E.deltas st1.env) rhs res1 res1
        let ratio := residualRatio o.maxCond rhs res1 resid
        match refine hom D o E rhs last (o.maxRef + 2) 0 ratio ratio res1 resid st1 with
        | .inl oc => oc
        | .inr e =>
          if !e.resolve && !e.pretend then .ok (assemble e.res) e.st
          else rounds hom D o E rhs α β inexact resIn fuel false e.pretend e.last e.res e.st

/-- `PDFullSpaceSolver::Solve` (IpPDFullSpaceSolver.cpp:128-375). -/
def solve (hom : List N → Option N) (D : Data N) (o : Opts N) (E : Env N S) (α β : N) (rhs res : Iter N) (inexact improveSol : Bool)
    (st : SSt S) : Outcome N S :=
  rounds hom D o E rhs α β inexact res 3 improveSol false false res st

end Ops
end Verif.PDSystem
