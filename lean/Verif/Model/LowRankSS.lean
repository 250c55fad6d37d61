import Verif.Model.LowRank

/-! # Augmented systems with a limited-memory Hessian: extended system

`/repo/src/Algorithm/IpLowRankSSAugSystemSolver.cpp` (`limited_memory_aug_solver=extended`) and the matrix
`/repo/src/LinAlg/IpExpandedMultiVectorMatrix.cpp`.  `r` is `max_rank_`.  The solver inside gets systems with `r` more equality
constraints.  Same conventions as in `Verif.LowRank`. -/

namespace Verif.LowRank
open Verif.AugSolve (Status)

/-- the stored data (IpLowRankSSAugSystemSolver.hpp:88-170): `first_call_`, `Wdiag_`; `expanded_vu_` with the expansion matrix it was
created with (`made`: `none` before it is created, `some none` without expansion matrix) and its rows in the space of all variables (NULL: `none`); `D_c_ext_` (two
blocks); the first block of `J_c_ext_`; `negEvalsCorrection_`; the tags; `num_neg_evals_`. -/
structure SSt (K X C L : Type) (r : Nat) where
  first : Bool
  wdiag : Option (X → K)
  made : Option (Option (X → L → K))
  rows : Fin r → Option (X → K)
  drank : Fin r → K
  dc : C → K
  jc : C → X → K
  corr : Int
  tags : Call K
  numNeg : Int

section Ops
variable {K X C D L B : Type} {r : Nat} [Field K] [DecidableEq K] [DecidableEq X] [Fintype X] [Fintype C] [Fintype D] [Fintype L]

/-- the constructor (IpLowRankSSAugSystemSolver.cpp:18-41); the arguments are the uninitialised members. -/
def SSt.start (junkFirst : Bool) (junkNeg junkCorr : Int) : SSt K X C L r :=
  ⟨junkFirst, none, none, fun _ => none, fun _ => 0, fun _ => 0, fun _ _ => 0, junkCorr, Call.zero, junkNeg⟩

/-- `InitializeImpl` (IpLowRankSSAugSystemSolver.cpp:48-61). -/
def SSt.init (E : Env K X (C ⊕ Fin r) D B) (st : SSt K X C L r) (b : B) : Bool × SSt K X C L r × B :=
  let q := E.init b
  (q.1, { st with first := true, wdiag := none, made := none, rows := fun _ => none, drank := fun _ => 0, dc := fun _ => 0, jc := fun _ _ => 0 }, q.2)

/-- `P_LowRank()`. -/
def LRW.proj : LRW K X L → Option (X → L → K)
  | .plain .. => none
  | .reduced P .. | .projected P .. => some P

/-- the rows of `expanded_vu_` for V or U: expanded with the expansion matrix of `expanded_vu_`, not with that of W
(IpLowRankSSAugSystemSolver.cpp:306-313, IpExpandedMultiVectorMatrix.cpp:90-150).  Outer `none`: vectors of the wrong dimension. -/
def expandWith (P0 : Option (X → L → K)) (full : Option (MV (X → K))) (small : Option (MV (L → K))) (isProj : Bool) :
    Option (Option (MV (X → K))) :=
  match P0, isProj with
  | none, false => some full
  | some P, true => some (small.map fun V => ⟨V.n, fun i => mulVec P (V.col i)⟩)
  | none, true => if small.isSome then none else some none
  | some _, false => if full.isSome then none else some none

/-- V as rows of `expanded_vu_`. -/
def rowsV (P0 : Option (X → L → K)) (W : LRW K X L) (fac : K) : Option (Option (MV (X → K))) :=
  if fac = 1 then
    match W with
    | .plain _ V _ => expandWith P0 V none false
    | .reduced _ _ V _ | .projected _ _ V _ => expandWith P0 none V true
  else some none

/-- U as rows of `expanded_vu_`. -/
def rowsU (P0 : Option (X → L → K)) (W : LRW K X L) (fac : K) : Option (Option (MV (X → K))) :=
  if fac = 1 then
    match W with
    | .plain _ _ U => expandWith P0 U none false
    | .reduced _ _ _ U | .projected _ _ _ U => expandWith P0 none U true
  else some none

/-- number of columns, 0 for NULL. -/
def ncols {V : Type} : Option (MV V) → Nat
  | some V => V.n
  | none => 0

/-- row `i` of `expanded_vu_` (IpLowRankSSAugSystemSolver.cpp:299-343): first V, then U, then NULL. -/
def rowAt (V U : Option (MV (X → K))) (i : Nat) : Option (X → K) :=
  if i < ncols V then V.map fun V => V.col i
  else if i < ncols V + ncols U then U.map fun U => U.col (i - ncols V)
  else none

/-- a row of `expanded_vu_` as a vector: NULL is zero (IpExpandedMultiVectorMatrix.cpp:90-150). -/
def rv (o : Option (X → K)) : X → K := o.getD fun _ => 0

/-- element `i` of `D_c_rank`: -1 for V, 1 for U and the rest. -/
def drankAt (V : Option (MV (X → K))) (i : Nat) : K := if i < ncols V then -1 else 1

/-- `UpdateExtendedData` (IpLowRankSSAugSystemSolver.cpp:213-362).  `none`: a vector of wrong dimension (see `diagOf`, `expandWith`), more
columns than `max_rank_` (the test in lines 307 and 328 does not catch it), or an exception because `V` (or `U`, if there is no V) has no
columns. -/
def SSt.update (H : Heap K X C D L) (c : Call K) (st : SSt K X C L r) : Option (SSt K X C L r) :=
  let W := H.lrw c.W
  let P0 := st.made.getD W.proj
  match diagOf W c.Wfac, rowsV P0 W c.Wfac, rowsU P0 W c.Wfac with
  | some w, some V, some U =>
    if (V.isSome && ncols V == 0) || (U.isSome && ncols V + ncols U == 0) then none
    else if r < ncols V + ncols U then none
    else some { st with
      made := some P0
      wdiag := some w
      rows := fun i => rowAt V U i
      drank := fun i => drankAt V i
      dc := match c.Dc with
        | some t => H.vc t
        | none => fun _ => 0
      jc := H.jc c.Jc
      corr := ncols V }
  | _, _, _ => none

/-- the extended system given to the solver inside (IpLowRankSSAugSystemSolver.cpp:175-195). -/
def SSt.extSys (E : Env K X (C ⊕ Fin r) D B) (H : Heap K X C D L) (c : Call K) (st : SSt K X C L r) : Sys K X (C ⊕ Fin r) D where
  W := fun i j => if i = j then (st.wdiag.getD E.junk) i else 0
  Wfac := c.Wfac
  Dx := c.Dx.map H.vx
  δx := c.δx
  Ds := c.Ds.map H.vs
  δs := c.δs
  Jc := Sum.elim st.jc fun i => rv (st.rows i)
  Dc := some (Sum.elim st.dc st.drank)
  δc := c.δc
  Jd := H.jd c.Jd
  Dd := c.Dd.map H.vd
  δd := c.δd

/-- the final part of `Solve` (IpLowRankSSAugSystemSolver.cpp:180-210). -/
def SSt.finish (E : Env K X (C ⊕ Fin r) D B) (H : Heap K X C D L) (c : Call K) (rhs : Quad K X C D) (chk : Bool) (neg : Int)
    (st : SSt K X C L r) (b : B) : Status × Quad K X C D × SSt K X C L r × B :=
  let rhsE : Quad K X (C ⊕ Fin r) D := ⟨rhs.x, rhs.s, Sum.elim rhs.c fun _ => 0, rhs.d⟩
  let q := E.solve (st.extSys E H c) 1 (fun _ => rhsE) chk (neg + st.corr) b
  let sol := q.2.1 0
  (q.1, ⟨sol.x, sol.s, fun k => sol.c (.inl k), sol.d⟩, if E.inertia then { st with numNeg := E.negEvals q.2.2 - st.corr } else st, q.2.2)

/-- `LowRankSSAugSystemSolver::Solve` (IpLowRankSSAugSystemSolver.cpp:63-211); `AugmentedSystemRequiresChange` (lines 364-450) is the
same text as in the other class. -/
def SSt.solve (E : Env K X (C ⊕ Fin r) D B) (H : Heap K X C D L) (c : Call K) (rhs : Quad K X C D) (chk : Bool) (neg : Int)
    (st : SSt K X C L r) (b : B) : Option (Status × Quad K X C D × SSt K X C L r × B) :=
  let st := if st.first then { st with wdiag := some E.junk } else st
  let chk := if E.inertia then chk else false
  if st.first || requiresChange c st.tags then
    match st.update H c with
    | none => none
    | some st => some (SSt.finish E H c rhs chk neg { st with tags := c, first := false } b)
  else some (SSt.finish E H c rhs chk neg st b)
end Ops
end Verif.LowRank
