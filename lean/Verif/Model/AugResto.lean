import Verif.Model.PDSystem

/-! # Augmented system of the restoration phase

`/repo/src/Algorithm/IpAugRestoSystemSolver.cpp` and the matrices of the restoration problem from
`/repo/src/Algorithm/IpRestoIpoptNLP.cpp` (`jac_c`, `jac_d`, `h`, `uninitialized_h`).

The variables of the restoration problem are the blocks x, n_c, p_c, n_d, p_d.  Caches of intermediate vectors are left out (their keys
contain all inputs; caching is the subject of `Verif.Cache`); `AddTwoVectors(a,v1,b,v2,0)` is `a v1 + b v2` (its special cases are the
subject of `Verif.DenseVector`). -/

namespace Verif.AugResto
open Verif.Matrix Verif.PDSystem

section Ops
variable {N : Type} [Zero N] [One N] [Add N] [Sub N] [Mul N] [Neg N] [Div N] [BEq N]

/-- a compound vector over the five blocks of the restoration variables. -/
structure X5 (N : Type) where
  x : List N
  nc : List N
  pc : List N
  nd : List N
  pd : List N
deriving DecidableEq

/-- all components of the compound vector in order. -/
def X5.flat (v : X5 N) : List N := v.x ++ (v.nc ++ (v.pc ++ (v.nd ++ v.pd)))

/-- the (0,0) block of the restoration Hessian: a sum of the original Hessian and a multiple of `DR2_x`
(IpRestoIpoptNLP.cpp:697-701, 716-720), or a low-rank matrix with `hessian_approximation=limited-memory` (IpRestoIpoptNLP.cpp:301-311). -/
inductive Hess (N : Type) where
  | exact (h : Mat N) (f0 eta : N) (dr : List N)
  | limited (h : Mat N)

/-- right-hand side or solution: blocks x (five sub-blocks), s, c, d. -/
structure RVec (N : Type) where
  x : X5 N
  s : List N
  c : List N
  d : List N
deriving DecidableEq

/-- the arguments of `AugRestoSystemSolver::Solve` (IpAugRestoSystemSolver.cpp:60-84), with the blocks of the compound objects pulled
out; `Jc0`, `Jd0`: blocks (0,0); `PdL`, `nPdU`: blocks (0,3) and (0,4) of `J_d`. -/
structure Args (N : Type) where
  W : Hess N
  Wfac : N
  Dx : Option (X5 N)
  δx : N
  Ds : Option (List N)
  δs : N
  Jc0 : Mat N
  Dc : Option (List N)
  δc : N
  Jd0 : Mat N
  PdL : Mat N
  nPdU : Mat N
  Dd : Option (List N)
  δd : N

/-! ### The matrices of the restoration problem -/

/-- block dimensions of the restoration variables. -/
def xdims (nx nc nd : Nat) : List Nat := [nx, nc, nc, nd, nd]

/-- `RestoIpoptNLP::jac_c`: [J_c, I, -I, 0, 0] (IpRestoIpoptNLP.cpp:244-262, 574-609). -/
def restoJc (Jc0 : Mat N) (nd : Nat) : Mat N :=
  .compound [Jc0.dims.1] (xdims Jc0.dims.2 Jc0.dims.1 nd) (fun _ j => decide (j ≤ 2)) (fun _ j => decide (j ≤ 2))
    (fun _ j => if j = 0 then Jc0 else if j = 1 then .ident Jc0.dims.1 1 else .ident Jc0.dims.1 (-1))

/-- `RestoIpoptNLP::jac_d`: [J_d, 0, 0, I, -I] (IpRestoIpoptNLP.cpp:266-285, 611-647). -/
def restoJd (Jd0 PdL nPdU : Mat N) (nc : Nat) : Mat N :=
  .compound [Jd0.dims.1] (xdims Jd0.dims.2 nc Jd0.dims.1) (fun _ j => j == 0 || j == 3 || j == 4) (fun _ j => j == 0 || j == 3 || j == 4)
    (fun _ j => if j = 0 then Jd0 else if j = 3 then PdL else nPdU)

/-- the (0,0) block as a matrix. -/
def Hess.mat (nx : Nat) : Hess N → Mat N
  | .exact h f0 eta dr => .sumSym nx 2 (fun l => if l = 0 then f0 else eta) (fun l => if l = 0 then h else .diag dr)
  | .limited h => h

/-- `RestoIpoptNLP::h`: only block (0,0) is nonzero (IpRestoIpoptNLP.cpp:287-318, 660-704). -/
def restoW (W : Hess N) (nx nc nd : Nat) : Mat N :=
  .compoundSym (xdims nx nc nd) (fun i j => i == 0 && j == 0) (fun _ _ => W.mat nx)

/-- the restoration Hessian as built for exact derivatives: first factor 1 (IpRestoIpoptNLP.cpp:700-701). -/
def restoHess (h : Mat N) (objFactor eta : N) (dr2 : List N) : Hess N := .exact h 1 (objFactor * eta) dr2

/-- `uninitialized_h` with exact derivatives (IpRestoIpoptNLP.cpp:715-720). -/
def uninitHess (h : Mat N) (dr2 : List N) : Hess N := .exact h 1 1 dr2

/-- the arguments that a plain augmented system solver gets for the restoration problem. -/
def Args.full (a : Args N) : AugArgs N where
  W := some (restoW a.W a.Jc0.dims.2 a.Jc0.dims.1 a.Jd0.dims.1)
  Wfac := a.Wfac
  Dx := a.Dx.map X5.flat
  δx := a.δx
  Ds := a.Ds
  δs := a.δs
  Jc := restoJc a.Jc0 a.Jd0.dims.1
  Dc := a.Dc
  δc := a.δc
  Jd := restoJd a.Jd0 a.PdL a.nPdU a.Jc0.dims.1
  Dd := a.Dd
  δd := a.δd

/-- a vector of the restoration problem seen as right-hand side of a plain augmented system. -/
def RVec.aug (r : RVec N) : Aug N := ⟨r.x.flat, r.s, r.c, r.d⟩

/-! ### The solver -/

/-- `Sigma_tilde_n_c_inv` and its three copies (IpAugRestoSystemSolver.cpp:408-594); `n`: dimension of the block. -/
def sigTildeInv (σ : Option (List N)) (δx : N) (n : Nat) : Option (List N) :=
  match σ with
  | some v => some (if δx == 0 then v.map (fun s => 1 / s) else v.map (fun s => 1 / (s + δx)))
  | none => if δx == 0 then none else some (List.replicate n (1 / δx))

/-- `a v1 + b v2`. -/
def lin2 (a : N) (v1 : List N) (b : N) (v2 : List N) : List N := List.zipWith (fun p q => a * p + b * q) v1 v2

/-- `Neg_Omega_c_plus_D_c` (IpAugRestoSystemSolver.cpp:309-362). -/
def negOmegaC (σn σp Dc : Option (List N)) (anyC : List N) : Option (List N) :=
  if σn.isSome || σp.isSome || Dc.isSome then
    let r := lin2 (if σn.isSome then -1 else 0) (σn.getD anyC) (if σp.isSome then -1 else 0) (σp.getD anyC)
    match Dc with
    | some d => some (Matrix.axpy 1 d r)
    | none => some r
  else none

/-- `Neg_Omega_d_plus_D_d` (IpAugRestoSystemSolver.cpp:364-406): if `D_d` is given it *overwrites* the vector (line 400). -/
def negOmegaD (hom : List N → Option N) (PdL : Mat N) (σn : Option (List N)) (nPdU : Mat N) (σp Dd : Option (List N)) (nd : Nat) :
    Option (List N) :=
  if σn.isSome || σp.isSome || Dd.isSome then
    let r0 := List.replicate nd 0
    let r1 := match σn with
      | some v => PdL.mult hom (-1) v 1 r0
      | none => r0
    let r2 := match σp with
      | some v => nPdU.mult hom 1 v 1 r1
      | none => r1
    match Dd with
    | some d => some d
    | none => some r2
  else none

/-- `Rhs_cR` (IpAugRestoSystemSolver.cpp:639-680). -/
def rhsCR (rhsC : List N) (σn : Option (List N)) (rn : List N) (σp : Option (List N)) (rp : List N) : List N :=
  let r1 := match σn with
    | some v => Matrix.axpy (-1) (emul v rn) rhsC
    | none => rhsC
  match σp with
  | some v => Matrix.axpy 1 (emul v rp) r1
  | none => r1

/-- `Rhs_dR` (IpAugRestoSystemSolver.cpp:682-731). -/
def rhsDR (hom : List N → Option N) (rhsD : List N) (σn : Option (List N)) (rn : List N) (PdL : Mat N) (σp : Option (List N)) (rp : List N)
    (nPdU : Mat N) : List N :=
  let r1 := match σn with
    | some v => PdL.mult hom (-1) (emul v rn) 1 rhsD
    | none => rhsD
  match σp with
  | some v => nPdU.mult hom (-1) (emul v rp) 1 r1
  | none => r1

/-- the Hessian and the factor handed to the original solver, and `D_xR` (IpAugRestoSystemSolver.cpp:199-242, `D_x_plus_wr_d` 596-637):
the multiple of `DR2_x` is added without regard to `W_factor`. -/
def redW (W : Hess N) (Wfac : N) (Dx0 : Option (List N)) : Mat N × N × Option (List N) :=
  match W with
  | .exact h f0 eta dr =>
    (h, f0 * Wfac, some (match Dx0 with
      | some d => lin2 eta dr 1 d
      | none => lin2 eta dr 0 dr))
  | .limited h => (h, Wfac, Dx0)

/-- the four inverse diagonals (IpAugRestoSystemSolver.cpp:172-190). -/
def Args.sig (a : Args N) (rhs : RVec N) : Option (List N) × Option (List N) × Option (List N) × Option (List N) :=
  (sigTildeInv (a.Dx.map X5.nc) a.δx rhs.x.nc.length, sigTildeInv (a.Dx.map X5.pc) a.δx rhs.x.pc.length,
   sigTildeInv (a.Dx.map X5.nd) a.δx rhs.x.nd.length, sigTildeInv (a.Dx.map X5.pd) a.δx rhs.x.pd.length)

/-- arguments of the call of the original augmented system solver (IpAugRestoSystemSolver.cpp:244-269). -/
def Args.reduced (hom : List N → Option N) (a : Args N) (rhs : RVec N) : AugArgs N where
  W := some (redW a.W a.Wfac (a.Dx.map X5.x)).1
  Wfac := (redW a.W a.Wfac (a.Dx.map X5.x)).2.1
  Dx := (redW a.W a.Wfac (a.Dx.map X5.x)).2.2
  δx := a.δx
  Ds := a.Ds
  δs := a.δs
  Jc := a.Jc0
  Dc := negOmegaC (a.sig rhs).1 (a.sig rhs).2.1 a.Dc rhs.c
  δc := a.δc
  Jd := a.Jd0
  Dd := negOmegaD hom a.PdL (a.sig rhs).2.2.1 a.nPdU (a.sig rhs).2.2.2 a.Dd rhs.d.length
  δd := a.δd

/-- its right-hand side (IpAugRestoSystemSolver.cpp:253-259). -/
def Args.redRhs (hom : List N → Option N) (a : Args N) (rhs : RVec N) : Aug N where
  x := rhs.x.x
  s := rhs.s
  c := rhsCR rhs.c (a.sig rhs).1 rhs.x.nc (a.sig rhs).2.1 rhs.x.pc
  d := rhsDR hom rhs.d (a.sig rhs).2.2.1 rhs.x.nd a.PdL (a.sig rhs).2.2.2 rhs.x.pd a.nPdU

/-- block of n_c or p_c: `f = -1` or `1` (IpAugRestoSystemSolver.cpp:273-290). -/
def backC (σ : Option (List N)) (r : List N) (f : N) (y : List N) : List N :=
  match σ with
  | some v => emul (lin2 1 r f y) v
  | none => List.replicate r.length 0

/-- block of n_d or p_d (IpAugRestoSystemSolver.cpp:292-308). -/
def backD (hom : List N → Option N) (P : Mat N) (σ : Option (List N)) (r y : List N) : List N :=
  match σ with
  | some v => emul (Matrix.axpy 1 r (P.transMult hom (-1) y 0 (List.replicate r.length 0))) v
  | none => List.replicate r.length 0

/-- the solution assembled from the solution `v` of the reduced system (IpAugRestoSystemSolver.cpp:271-308). -/
def Args.expand (hom : List N → Option N) (a : Args N) (rhs : RVec N) (v : Aug N) : RVec N where
  x := ⟨v.x, backC (a.sig rhs).1 rhs.x.nc (-1) v.c, backC (a.sig rhs).2.1 rhs.x.pc 1 v.c,
    backD hom a.PdL (a.sig rhs).2.2.1 rhs.x.nd v.d, backD hom a.nPdU (a.sig rhs).2.2.2 rhs.x.pd v.d⟩
  s := v.s
  c := v.c
  d := v.d

/-- status codes of a symmetric solver (IpSymLinearSolver.hpp). -/
inductive Status where
  | success | singular | wrongInertia | callAgain | fatalError
deriving DecidableEq

/-- `AugRestoSystemSolver::Solve`: `inner` is the original augmented system solver, an arbitrary function of its arguments that returns a
status and what it left in the solution vectors.  Blocks n and p are only computed on success; otherwise they keep the old contents. -/
def solve (hom : List N → Option N) (inner : AugArgs N → Aug N → Bool → Int → Status × Aug N) (a : Args N) (rhs old : RVec N)
    (check : Bool) (negEV : Int) : Status × RVec N :=
  let r := inner (a.reduced hom rhs) (a.redRhs hom rhs) check negEV
  match r.1 with
  | .success => (.success, a.expand hom rhs r.2)
  | st => (st, ⟨{ old.x with x := r.2.x }, r.2.s, r.2.c, r.2.d⟩)

end Ops

end Verif.AugResto
