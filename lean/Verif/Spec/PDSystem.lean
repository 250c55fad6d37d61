import Verif.Model.PDSystem
import Verif.Spec.Matrix
import Mathlib.Algebra.Order.Field.Basic

/-! # Specification of the primal-dual system

The 8-block Newton system of the barrier problem, written out component by component with the entries of the matrices (`ent`), and the
4-block augmented system.  Nothing here refers to the routines of the solver. -/

namespace Verif.PDSystem
open Finset Verif.Matrix

variable {K : Type} [Field K]

/-- (A x)_i for a matrix with `c` columns. -/
def mv (A : Mat K) (x : List K) (i : Nat) : K := ∑ j ∈ range A.dims.2, ent A i j * x.getD j 0

/-- (Aᵀ y)_j for a matrix with `r` rows. -/
def mtv (A : Mat K) (y : List K) (j : Nat) : K := ∑ i ∈ range A.dims.1, ent A i j * y.getD i 0

/-- blocks have the dimensions of the problem. -/
structure Iter.Dim (D : Data K) (v : Iter K) : Prop where
  x : v.x.length = D.W.dims.1
  s : v.s.length = D.Jd.dims.1
  yc : v.yc.length = D.Jc.dims.1
  yd : v.yd.length = D.Jd.dims.1
  zL : v.zL.length = D.PxL.dims.2
  zU : v.zU.length = D.PxU.dims.2
  vL : v.vL.length = D.PdL.dims.2
  vU : v.vU.length = D.PdU.dims.2

/-- dimensions of a right-hand side or solution of the augmented system. -/
structure Aug.Dim (D : Data K) (v : Aug K) : Prop where
  x : v.x.length = D.W.dims.1
  s : v.s.length = D.Jd.dims.1
  c : v.c.length = D.Jc.dims.1
  d : v.d.length = D.Jd.dims.1

/-- a matrix that selects components: in every column the entries are 0 or 1 and at most one of them is 1 (the columns are unit
vectors or zero). -/
def Selects (A : Mat K) : Prop :=
  ∀ i k j, i < A.dims.1 → k < A.dims.1 → j < A.dims.2 → ent A i j * ent A k j = if i = k then ent A i j else 0

/-- a bound matrix as the code uses it: valid object, selects components, and the fast paths of the matrix classes are sound for it. -/
structure BoundMat (P : Mat K) : Prop where
  wf : WF P
  unit : unitIdent P
  tall : tallDiag P
  sel : Selects P

/-- the data of an iterate: dimensions agree, and the slacks are nonzero (in an interior-point iterate they are positive). -/
structure Data.OK (D : Data K) : Prop where
  W : WF D.W
  Wd : D.W.dims.2 = D.W.dims.1
  Jc : WF D.Jc
  Jcd : D.Jc.dims.2 = D.W.dims.1
  Jd : WF D.Jd
  Jdd : D.Jd.dims.2 = D.W.dims.1
  xL : BoundMat D.PxL
  xU : BoundMat D.PxU
  sL : BoundMat D.PdL
  sU : BoundMat D.PdU
  xLd : D.PxL.dims.1 = D.W.dims.1
  xUd : D.PxU.dims.1 = D.W.dims.1
  sLd : D.PdL.dims.1 = D.Jd.dims.1
  sUd : D.PdU.dims.1 = D.Jd.dims.1
  zL : D.zL.length = D.PxL.dims.2
  zU : D.zU.length = D.PxU.dims.2
  vL : D.vL.length = D.PdL.dims.2
  vU : D.vU.length = D.PdU.dims.2
  sxL : D.sxL.length = D.PxL.dims.2
  sxU : D.sxU.length = D.PxU.dims.2
  ssL : D.ssL.length = D.PdL.dims.2
  ssU : D.ssU.length = D.PdU.dims.2
  sxL0 : ∀ i, i < D.PxL.dims.2 → D.sxL.getD i 0 ≠ 0
  sxU0 : ∀ i, i < D.PxU.dims.2 → D.sxU.getD i 0 ≠ 0
  ssL0 : ∀ i, i < D.PdL.dims.2 → D.ssL.getD i 0 ≠ 0
  ssU0 : ∀ i, i < D.PdU.dims.2 → D.ssU.getD i 0 ≠ 0

/-- the left-hand side of the (perturbed) primal-dual system
```
(W + δx I) dx + Jcᵀ dyc + Jdᵀ dyd - PxL dzL + PxU dzU
 δs ds - dyd - PdL dvL + PdU dvU
 Jc dx - δc dyc
 Jd dx - ds - δd dyd
 SxL dzL + ZL PxLᵀ dx        SxU dzU - ZU PxUᵀ dx
 SsL dvL + VL PdLᵀ ds        SsU dvU - VU PdUᵀ ds
``` -/
structure FullSystem (D : Data K) (δ : Deltas K) (d rhs : Iter K) : Prop where
  x : ∀ i, i < D.W.dims.1 → mv D.W d.x i + δ.x * d.x.getD i 0 + mtv D.Jc d.yc i + mtv D.Jd d.yd i - mv D.PxL d.zL i + mv D.PxU d.zU i
    = rhs.x.getD i 0
  s : ∀ i, i < D.Jd.dims.1 → δ.s * d.s.getD i 0 - d.yd.getD i 0 - mv D.PdL d.vL i + mv D.PdU d.vU i = rhs.s.getD i 0
  yc : ∀ i, i < D.Jc.dims.1 → mv D.Jc d.x i - δ.c * d.yc.getD i 0 = rhs.yc.getD i 0
  yd : ∀ i, i < D.Jd.dims.1 → mv D.Jd d.x i - d.s.getD i 0 - δ.d * d.yd.getD i 0 = rhs.yd.getD i 0
  zL : ∀ i, i < D.PxL.dims.2 → D.sxL.getD i 0 * d.zL.getD i 0 + D.zL.getD i 0 * mtv D.PxL d.x i = rhs.zL.getD i 0
  zU : ∀ i, i < D.PxU.dims.2 → D.sxU.getD i 0 * d.zU.getD i 0 - D.zU.getD i 0 * mtv D.PxU d.x i = rhs.zU.getD i 0
  vL : ∀ i, i < D.PdL.dims.2 → D.ssL.getD i 0 * d.vL.getD i 0 + D.vL.getD i 0 * mtv D.PdL d.s i = rhs.vL.getD i 0
  vU : ∀ i, i < D.PdU.dims.2 → D.ssU.getD i 0 * d.vU.getD i 0 - D.vU.getD i 0 * mtv D.PdU d.s i = rhs.vU.getD i 0

/-- `r` = left-hand side of the primal-dual system at `d` minus `rhs`, block by block. -/
structure IsResidual (D : Data K) (δ : Deltas K) (d rhs r : Iter K) : Prop where
  x : ∀ i, i < D.W.dims.1 → r.x.getD i 0 = mv D.W d.x i + δ.x * d.x.getD i 0 + mtv D.Jc d.yc i + mtv D.Jd d.yd i - mv D.PxL d.zL i
    + mv D.PxU d.zU i - rhs.x.getD i 0
  s : ∀ i, i < D.Jd.dims.1 → r.s.getD i 0 = δ.s * d.s.getD i 0 - d.yd.getD i 0 - mv D.PdL d.vL i + mv D.PdU d.vU i - rhs.s.getD i 0
  yc : ∀ i, i < D.Jc.dims.1 → r.yc.getD i 0 = mv D.Jc d.x i - δ.c * d.yc.getD i 0 - rhs.yc.getD i 0
  yd : ∀ i, i < D.Jd.dims.1 → r.yd.getD i 0 = mv D.Jd d.x i - d.s.getD i 0 - δ.d * d.yd.getD i 0 - rhs.yd.getD i 0
  zL : ∀ i, i < D.PxL.dims.2 → r.zL.getD i 0 = D.sxL.getD i 0 * d.zL.getD i 0 + D.zL.getD i 0 * mtv D.PxL d.x i - rhs.zL.getD i 0
  zU : ∀ i, i < D.PxU.dims.2 → r.zU.getD i 0 = D.sxU.getD i 0 * d.zU.getD i 0 - D.zU.getD i 0 * mtv D.PxU d.x i - rhs.zU.getD i 0
  vL : ∀ i, i < D.PdL.dims.2 → r.vL.getD i 0 = D.ssL.getD i 0 * d.vL.getD i 0 + D.vL.getD i 0 * mtv D.PdL d.s i - rhs.vL.getD i 0
  vU : ∀ i, i < D.PdU.dims.2 → r.vU.getD i 0 = D.ssU.getD i 0 * d.vU.getD i 0 - D.vU.getD i 0 * mtv D.PdU d.s i - rhs.vU.getD i 0

/-- `out = a d + b e`, component by component in all blocks. -/
structure IsComb (D : Data K) (out : Iter K) (a : K) (d : Iter K) (b : K) (e : Iter K) : Prop where
  dim : out.Dim D
  x : ∀ i, i < D.W.dims.1 → out.x.getD i 0 = a * d.x.getD i 0 + b * e.x.getD i 0
  s : ∀ i, i < D.Jd.dims.1 → out.s.getD i 0 = a * d.s.getD i 0 + b * e.s.getD i 0
  yc : ∀ i, i < D.Jc.dims.1 → out.yc.getD i 0 = a * d.yc.getD i 0 + b * e.yc.getD i 0
  yd : ∀ i, i < D.Jd.dims.1 → out.yd.getD i 0 = a * d.yd.getD i 0 + b * e.yd.getD i 0
  zL : ∀ i, i < D.PxL.dims.2 → out.zL.getD i 0 = a * d.zL.getD i 0 + b * e.zL.getD i 0
  zU : ∀ i, i < D.PxU.dims.2 → out.zU.getD i 0 = a * d.zU.getD i 0 + b * e.zU.getD i 0
  vL : ∀ i, i < D.PdL.dims.2 → out.vL.getD i 0 = a * d.vL.getD i 0 + b * e.vL.getD i 0
  vU : ∀ i, i < D.PdU.dims.2 → out.vU.getD i 0 = a * d.vU.getD i 0 + b * e.vU.getD i 0

/-- the augmented system (IpAugSystemSolver.hpp:19-31)
```
[ Wf W + Dx + δx I       0         Jcᵀ          Jdᵀ    ] x     rx
[       0           Ds + δs I      0            -I     ] s  =  rs
[      Jc                0       Dc - δc I       0     ] c     rc
[      Jd               -I         0         Dd - δd I ] d     rd
```
`Wm` is the matrix used when `W` is absent (with factor 0). -/
structure AugSystem (nx : Nat) (Wm : Mat K) (Wf : K) (Dx : List K) (δx : K) (Ds : List K) (δs : K) (Jc : Mat K) (Dc : List K) (δc : K)
    (Jd : Mat K) (Dd : List K) (δd : K) (a rhs : Aug K) : Prop where
  x : ∀ i, i < nx → Wf * mv Wm a.x i + (Dx.getD i 0 + δx) * a.x.getD i 0 + mtv Jc a.c i + mtv Jd a.d i = rhs.x.getD i 0
  s : ∀ i, i < Jd.dims.1 → (Ds.getD i 0 + δs) * a.s.getD i 0 - a.d.getD i 0 = rhs.s.getD i 0
  c : ∀ i, i < Jc.dims.1 → mv Jc a.x i + (Dc.getD i 0 - δc) * a.c.getD i 0 = rhs.c.getD i 0
  d : ∀ i, i < Jd.dims.1 → mv Jd a.x i - a.s.getD i 0 + (Dd.getD i 0 - δd) * a.d.getD i 0 = rhs.d.getD i 0

/-- the augmented system of an iterate, with diagonals `σx` and `σs`. -/
def SolvesAug (D : Data K) (σx σs : List K) (δ : Deltas K) (a rhs : Aug K) : Prop :=
  AugSystem D.W.dims.1 D.W 1 σx δ.x σs δ.s D.Jc [] δ.c D.Jd [] δ.d a rhs

end Verif.PDSystem
