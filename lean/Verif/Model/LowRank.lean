import Mathlib.Algebra.BigOperators.Fin
import Mathlib.Data.Fintype.Basic
import Verif.Model.AugSolve

/-! # Augmented systems with a limited-memory Hessian

`/repo/src/Algorithm/IpLowRankAugSystemSolver.cpp` (`limited_memory_aug_solver=sherman-morrison`) and
`/repo/src/Algorithm/IpLowRankSSAugSystemSolver.cpp` (`limited_memory_aug_solver=extended`).

`X`, `C`, `D`: index sets of the variables, the equalities and the inequalities (of `s` and `y_d`), `L`: of the space of the low-rank vectors.  The objects given to `Solve`
are represented by their tags; a `Heap` gives the contents of the object with a tag (a tag determines the contents of a tagged object,
IpTaggedObject.hpp; tag 0 is never the tag of an object).  The augmented system solver inside, LAPACK's Cholesky factorization and the
solve with it are parameters (`Env`); the one inside has a state `B`.  Numbers are those of a field (no rounding).
Not modelled: printing, the vector spaces, overflow of `Index`. -/

namespace Verif.LowRank
open Verif.AugSolve (Status)

/-- a compound vector with the four blocks of the augmented system (`compound_sol_vecspace_`, IpLowRankAugSystemSolver.cpp:505-518). -/
structure Quad (K X C D : Type) where
  x : X → K
  s : D → K
  c : C → K
  d : D → K

/-- `MultiVectorMatrix` (IpMultiVectorMatrix.hpp): `n` columns, `col i` for `i < n`. -/
structure MV (V : Type) where
  n : Nat
  col : Nat → V

/-- `LowRankUpdateSymMatrix` (IpLowRankUpdateSymMatrix.hpp): diagonal, V and U, each may be NULL; without `P_LowRank`; with
`P_LowRank` and `ReducedDiag()`; with `P_LowRank` and without `ReducedDiag()`. -/
inductive LRW (K X L : Type) where
  | plain (B0 : Option (X → K)) (V U : Option (MV (X → K)))
  | reduced (P : X → L → K) (B0 : Option (L → K)) (V U : Option (MV (L → K)))
  | projected (P : X → L → K) (B0 : Option (X → K)) (V U : Option (MV (L → K)))

/-- contents of the arguments of an augmented system solver (IpAugSystemSolver.hpp:60-86). -/
structure Sys (K X C D : Type) where
  W : X → X → K
  Wfac : K
  Dx : Option (X → K)
  δx : K
  Ds : Option (D → K)
  δs : K
  Jc : C → X → K
  Dc : Option (C → K)
  δc : K
  Jd : D → X → K
  Dd : Option (D → K)
  δd : K

/-- arguments of `Solve` (IpLowRankAugSystemSolver.cpp:59-71): tags of the objects, `none` is NULL. -/
structure Call (K : Type) where
  W : Nat
  Wfac : K
  Dx : Option Nat
  δx : K
  Ds : Option Nat
  δs : K
  Jc : Nat
  Dc : Option Nat
  δc : K
  Jd : Nat
  Dd : Option Nat
  δd : K
deriving DecidableEq

/-- contents of the objects. -/
structure Heap (K X C D L : Type) where
  lrw : Nat → LRW K X L
  vx : Nat → X → K
  vs : Nat → D → K
  vc : Nat → C → K
  vd : Nat → D → K
  jc : Nat → C → X → K
  jd : Nat → D → X → K

/-- the augmented system solver inside (`MultiSolve`, `NumberOfNegEVals`, `ProvidesInertia`, `IncreaseQuality`; `Solve` is `MultiSolve`
with one right-hand side, IpAugSystemSolver.hpp:60-106), `IpLapackPotrf` (success and the contents of the matrix), `IpLapackPotrs`, and
the contents of a fresh `DiagMatrix`. -/
structure Env (K X C D B : Type) where
  inertia : Bool
  solve : Sys K X C D → Nat → (Nat → Quad K X C D) → Bool → Int → B → Status × (Nat → Quad K X C D) × B
  negEvals : B → Int
  quality : B → Bool × B
  init : B → Bool × B
  potrf : Nat → (Nat → Nat → K) → Bool × (Nat → Nat → K)
  potrs : Nat → (Nat → Nat → K) → (Nat → K) → Nat → K
  junk : X → K

section Ops
variable {K X C D L B : Type} [Zero K] [One K] [Add K] [Sub K] [Mul K] [Neg K]

/-- block vector `[v; 0; 0; 0]` (IpLowRankAugSystemSolver.cpp:445-471). -/
def Quad.ofX (v : X → K) : Quad K X C D := ⟨v, fun _ => 0, fun _ => 0, fun _ => 0⟩

/-- `CompoundVector` `AddOneVector(a, v, 1.)`. -/
def Quad.axpy (a : K) (v y : Quad K X C D) : Quad K X C D :=
  ⟨fun i => y.x i + a * v.x i, fun i => y.s i + a * v.s i, fun i => y.c i + a * v.c i, fun i => y.d i + a * v.d i⟩

/-- the stored data (IpLowRankAugSystemSolver.hpp:87-165): `first_call_`, `Wdiag_`, `Vtilde1_`, `J1_`, `Utilde2_`, `J2_`,
`num_neg_evals_`, and the tags with the numbers (`none`: never stored). `J1_` (`J2_`) is
only used if `Vtilde1_` (`Utilde2_`) is not NULL; it then has the dimension of its number of columns. -/
structure St (K X C D : Type) where
  first : Bool
  wdiag : Option (X → K)
  v1 : Option (MV (Quad K X C D))
  j1 : Nat → Nat → K
  u2 : Option (MV (Quad K X C D))
  j2 : Nat → Nat → K
  tags : Call K
  numNeg : Int

/-- the tags as stored by the constructor (IpLowRankAugSystemSolver.cpp:20-37). -/
def Call.zero : Call K := ⟨0, 0, none, 0, none, 0, 0, none, 0, 0, none, 0⟩

/-- the constructor (IpLowRankAugSystemSolver.cpp:17-41); `junk`: the uninitialised members. -/
def St.start (junkFirst : Bool) (junkNeg : Int) : St K X C D :=
  ⟨junkFirst, none, none, fun _ _ => 0, none, fun _ _ => 0, Call.zero, junkNeg⟩

/-- `InitializeImpl` (IpLowRankAugSystemSolver.cpp:48-62). -/
def St.init (E : Env K X C D B) (st : St K X C D) (b : B) : Bool × St K X C D × B :=
  let r := E.init b
  (r.1, { st with first := true, v1 := none, j1 := fun _ _ => 0, u2 := none, j2 := fun _ _ => 0, wdiag := none }, r.2)

/-- `D ? D->GetTag() : 0` (IpLowRankAugSystemSolver.cpp:124-172). -/
def tagOf : Option Nat → Nat
  | some t => t
  | none => 0

/-- `(D && D->GetTag() != tag) || (!D && tag != 0)` (IpLowRankAugSystemSolver.cpp:590-600). -/
def vecChanged (d : Option Nat) (tag : Nat) : Bool :=
  match d with
  | some t => t != tag
  | none => tag != 0

/-- `AugmentedSystemRequiresChange` (IpLowRankAugSystemSolver.cpp:530-608), `t`: the stored tags and numbers; `W` is never NULL here. -/
def requiresChange [DecidableEq K] (c t : Call K) : Bool :=
  c.W != t.W || decide (c.Wfac ≠ t.Wfac) || vecChanged c.Dx (tagOf t.Dx) || decide (c.δx ≠ t.δx) || vecChanged c.Ds (tagOf t.Ds)
    || decide (c.δs ≠ t.δs) || c.Jc != t.Jc || vecChanged c.Dc (tagOf t.Dc) || decide (c.δc ≠ t.δc) || c.Jd != t.Jd
    || vecChanged c.Dd (tagOf t.Dd) || decide (c.δd ≠ t.δd)

/-- the system given to the solver inside: Hessian `Wdiag_` (a `DiagMatrix`), everything else as given. -/
def innerSys [DecidableEq X] (H : Heap K X C D L) (c : Call K) (wdiag : X → K) (fac : K) : Sys K X C D where
  W := fun i j => if i = j then wdiag i else 0
  Wfac := fac
  Dx := c.Dx.map H.vx
  δx := c.δx
  Ds := c.Ds.map H.vs
  δs := c.δs
  Jc := H.jc c.Jc
  Dc := c.Dc.map H.vc
  δc := c.δc
  Jd := H.jd c.Jd
  Dd := c.Dd.map H.vd
  δd := c.δd

variable [Fintype L] [Fintype X]

/-- `sum` in the order of the blocks is not modelled: `∑` of a commutative monoid. -/
def mulVec {R Q : Type} {K : Type} [AddCommMonoid K] [Mul K] [Fintype Q] (M : R → Q → K) (v : Q → K) (i : R) : K := ∑ j, M i j * v j

/-- the diagonal for the solver inside: `B0`, zero if it is NULL or `W_factor` is not 1, expanded to all variables if it is reduced
(IpLowRankAugSystemSolver.cpp:258-292); same text in IpLowRankSSAugSystemSolver.cpp:263-295.  `none`: the zero vector made for a NULL
diagonal has the dimension of the low-rank space although the diagonal is not reduced, the `DiagMatrix` gets a vector of the wrong
dimension. -/
def diagOf {K X L : Type} [AddCommMonoid K] [One K] [Mul K] [DecidableEq K] [Fintype L] (W : LRW K X L) (fac : K) : Option (X → K) :=
  match W with
  | .plain B0 _ _ => some (((if fac = 1 then B0 else none)).getD fun _ => 0)
  | .reduced P B0 _ _ => some (mulVec P (((if fac = 1 then B0 else none)).getD fun _ => 0))
  | .projected _ B0 _ _ => if fac = 1 then B0 else none

/-- the columns of V in the space of all variables (IpLowRankAugSystemSolver.cpp:258-262, 445-458). -/
def vOf {K X L : Type} [AddCommMonoid K] [One K] [Mul K] [DecidableEq K] [Fintype L] (W : LRW K X L) (fac : K) : Option (MV (X → K)) :=
  if fac = 1 then
    match W with
    | .plain _ V _ => V
    | .reduced P _ V _ | .projected P _ V _ => V.map fun V => ⟨V.n, fun i => mulVec P (V.col i)⟩
  else none

/-- the columns of U in the space of all variables. -/
def uOf {K X L : Type} [AddCommMonoid K] [One K] [Mul K] [DecidableEq K] [Fintype L] (W : LRW K X L) (fac : K) : Option (MV (X → K)) :=
  if fac = 1 then
    match W with
    | .plain _ _ U => U
    | .reduced P _ _ U | .projected P _ _ U => U.map fun U => ⟨U.n, fun i => mulVec P (U.col i)⟩
  else none
end Ops

section Solver
variable {K X C D L B : Type} [Field K] [DecidableEq K] [DecidableEq X] [Fintype X] [Fintype C] [Fintype D] [Fintype L]

/-- dot product of vectors. -/
def dot {I : Type} [Fintype I] (v w : I → K) : K := ∑ i, v i * w i

/-- dot product of compound vectors (IpCompoundVector.cpp). -/
def Quad.dot (v w : Quad K X C D) : K :=
  LowRank.dot v.x w.x + LowRank.dot v.s w.s + LowRank.dot v.c w.c + LowRank.dot v.d w.d

/-- `MultiVectorMatrix::MultVector(a, b, 1., y)`: `y += a ∑ b_i v_i` (IpMultiVectorMatrix.cpp:87-143), component by component. -/
def addCols (a : K) (M : MV (Quad K X C D)) (b : Nat → K) (y : Quad K X C D) : Quad K X C D :=
  ⟨fun i => y.x i + ∑ k ∈ Finset.range M.n, a * b k * (M.col k).x i, fun i => y.s i + ∑ k ∈ Finset.range M.n, a * b k * (M.col k).s i,
   fun i => y.c i + ∑ k ∈ Finset.range M.n, a * b k * (M.col k).c i, fun i => y.d i + ∑ k ∈ Finset.range M.n, a * b k * (M.col k).d i⟩

/-- `DenseSymMatrix`: `FillIdentity`, then `HighRankUpdateTranspose(a, V1, V2, 1.)` (IpDenseSymMatrix.cpp:124-158): only the lower
triangle is set; `ComputeCholeskyFactor` reads the lower triangle (IpDenseGenMatrix.cpp:163-170), the other elements are those of the
symmetric matrix. -/
def highRank (a : K) (V1 V2 : Nat → X → K) (i j : Nat) : K :=
  if j ≤ i then a * dot (V1 i) (V2 j) + (if i = j then 1 else 0) else a * dot (V1 j) (V2 i)

/-- `SolveMultiVector` (IpLowRankAugSystemSolver.cpp:415-528): factor 1. -/
def solveMulti (E : Env K X C D B) (H : Heap K X C D L) (c : Call K) (wdiag : X → K) (V : MV (X → K)) (chk : Bool) (neg : Int)
    (num : Int) (b : B) : Status × MV (Quad K X C D) × Int × B :=
  let r := E.solve (innerSys H c wdiag 1) V.n (fun i => Quad.ofX (V.col i)) chk neg b
  (r.1, ⟨V.n, r.2.1⟩, if E.inertia then E.negEvals r.2.2 else num, r.2.2)

/-- `UpdateFactorization` for V (IpLowRankAugSystemSolver.cpp:294-335).  On success the second component holds `V_x`. -/
def updateV (E : Env K X C D B) (H : Heap K X C D L) (c : Call K) (wdiag : X → K) (chk : Bool) (neg : Int) (st : St K X C D)
    (b : B) : Status × St K X C D × B :=
  match vOf (H.lrw c.W) c.Wfac with
  | some V =>
    let r := solveMulti E H c wdiag V chk neg st.numNeg b
    let st := { st with numNeg := r.2.2.1 }
    if r.1 ≠ .success then (r.1, st, r.2.2.2)
    else
      let f := E.potrf V.n (highRank 1 (fun i => (r.2.1.col i).x) V.col)
      let st := { st with v1 := some r.2.1, j1 := f.2 }
      if f.1 then (.success, st, r.2.2.2) else (.wrongInertia, { st with numNeg := st.numNeg + 1 }, r.2.2.2)
  | none => (.success, { st with v1 := none, j1 := fun _ _ => 0 }, b)

/-- `Utilde2` (IpLowRankAugSystemSolver.cpp:351-378): `Utilde1` itself, or `Utilde1 - Vtilde1 C` with `C = M1⁻¹ Vtilde1_xᵀ U_x`. -/
def utilde2 (E : Env K X C D B) (st : St K X C D) (U : MV (X → K)) (U1 : MV (Quad K X C D)) : MV (Quad K X C D) :=
  match st.v1 with
  | none => U1
  | some V1 =>
    ⟨U1.n, fun j => addCols (-1) V1 (E.potrs V1.n st.j1 fun i => dot (V1.col i).x (U.col j)) (U1.col j)⟩

/-- `UpdateFactorization` for U (IpLowRankAugSystemSolver.cpp:337-411). -/
def updateU (E : Env K X C D B) (H : Heap K X C D L) (c : Call K) (wdiag : X → K) (chk : Bool) (neg : Int) (st : St K X C D)
    (b : B) : Status × St K X C D × B :=
  match uOf (H.lrw c.W) c.Wfac with
  | some U =>
    let r := solveMulti E H c wdiag U chk neg st.numNeg b
    let st := { st with numNeg := r.2.2.1 }
    if r.1 ≠ .success then (r.1, st, r.2.2.2)
    else
      let U2 := utilde2 E st U r.2.1
      let f := E.potrf U.n (highRank (-1) (fun k => (U2.col k).x) U.col)
      let st := { st with u2 := some U2, j2 := f.2 }
      if f.1 then (.success, st, r.2.2.2) else (.wrongInertia, { st with numNeg := st.numNeg + 1 }, r.2.2.2)
  | none => (.success, { st with u2 := none, j2 := fun _ _ => 0 }, b)

/-- `UpdateFactorization` (IpLowRankAugSystemSolver.cpp:222-413).  `none`: see `diagOf`. -/
def update (E : Env K X C D B) (H : Heap K X C D L) (c : Call K) (chk : Bool) (neg : Int) (st : St K X C D) (b : B) :
    Option (Status × St K X C D × B) :=
  match diagOf (H.lrw c.W) c.Wfac with
  | none => none
  | some w =>
    let st := { st with wdiag := some w }
    let r := updateV E H c w chk neg st b
    if r.1 ≠ .success then some r else some (updateU E H c w chk neg r.2.1 r.2.2)

/-- the corrections of the solution (IpLowRankAugSystemSolver.cpp:196-235). -/
def correct (E : Env K X C D B) (st : St K X C D) (rhs sol : Quad K X C D) : Quad K X C D :=
  let sol := match st.u2 with
    | some U2 => addCols 1 U2 (E.potrs U2.n st.j2 fun i => (U2.col i).dot rhs) sol
    | none => sol
  match st.v1 with
  | some V1 => addCols (-1) V1 (E.potrs V1.n st.j1 fun i => (V1.col i).dot rhs) sol
  | none => sol

/-- the final part of `Solve`, after the data are up to date (IpLowRankAugSystemSolver.cpp:178-238). -/
def finish (E : Env K X C D B) (H : Heap K X C D L) (c : Call K) (rhs : Quad K X C D) (chk : Bool) (neg : Int)
    (st : St K X C D) (b : B) : Status × Quad K X C D × St K X C D × B :=
  let r := E.solve (innerSys H c (st.wdiag.getD E.junk) c.Wfac) 1 (fun _ => rhs) chk neg b
  let st := if E.inertia then { st with numNeg := E.negEvals r.2.2 } else st
  if r.1 ≠ .success then (r.1, r.2.1 0, st, r.2.2) else (.success, correct E st rhs (r.2.1 0), st, r.2.2)

/-- `LowRankAugSystemSolver::Solve` (IpLowRankAugSystemSolver.cpp:64-240); `sol0`: contents of the solution vectors before the call.
`none`: see `diagOf`. -/
def St.solve (E : Env K X C D B) (H : Heap K X C D L) (c : Call K) (rhs sol0 : Quad K X C D) (chk : Bool) (neg : Int)
    (st : St K X C D) (b : B) : Option (Status × Quad K X C D × St K X C D × B) :=
  let st := if st.first then { st with wdiag := some E.junk } else st
  let chk := if E.inertia then chk else false
  if st.first || requiresChange c st.tags then
    match update E H c chk neg st b with
    | none => none
    | some r =>
      if r.1 ≠ .success then some (r.1, sol0, r.2.1, r.2.2)
      else some (finish E H c rhs chk neg { r.2.1 with tags := c, first := false } r.2.2)
  else some (finish E H c rhs chk neg st b)

/-- `IncreaseQuality` (IpLowRankAugSystemSolver.cpp:620-623). -/
def St.increaseQuality (E : Env K X C D B) (st : St K X C D) (b : B) : Bool × St K X C D × B :=
  let r := E.quality b
  (r.1, st, r.2)
end Solver
end Verif.LowRank
