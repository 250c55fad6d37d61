import Mathlib.Algebra.Order.BigOperators.Ring.Finset
import Mathlib.LinearAlgebra.Dimension.Finrank
import Mathlib.LinearAlgebra.FiniteDimensional.Defs
import Mathlib.Data.Matrix.Mul
import Verif.Model.LowRankSS

/-! # Specification: the augmented system with a limited-memory Hessian

Nothing here refers to the state of the solver. -/

namespace Verif.LowRank
open Finset _root_.Matrix
open Verif.AugSolve (Status)

variable {K X C D L B : Type} [Field K] [Fintype X] [Fintype C] [Fintype D] [Fintype L]

/-- `∑ v_k v_kᵀ`, element (i, j); NULL: zero. -/
def gram {I : Type} (V : Option (MV (I → K))) (i j : I) : K :=
  match V with
  | none => 0
  | some V => ∑ k ∈ range V.n, V.col k i * V.col k j

/-- a diagonal matrix; NULL: zero. -/
def diagElem {I : Type} [DecidableEq I] (d : Option (I → K)) (i j : I) : K :=
  if i = j then (match d with | some d => d i | none => 0) else 0

/-- the matrix a `LowRankUpdateSymMatrix` stands for (IpLowRankUpdateSymMatrix.hpp:20-35): `B0 + V Vᵀ - U Uᵀ`,
`P (B0 + V Vᵀ - U Uᵀ) Pᵀ`, or `B0 + P (V Vᵀ - U Uᵀ) Pᵀ`. -/
def LRW.elem [DecidableEq X] [DecidableEq L] (W : LRW K X L) (i j : X) : K :=
  match W with
  | .plain B0 V U => diagElem B0 i j + gram V i j - gram U i j
  | .reduced P B0 V U => ∑ a, ∑ b, P i a * (diagElem B0 a b + gram V a b - gram U a b) * P j b
  | .projected P B0 V U => diagElem B0 i j + ∑ a, ∑ b, P i a * (gram V a b - gram U a b) * P j b

/-- the expansion matrix of `W` selects variables: each of its columns has its only nonzero in another row
(`ExpansionMatrix`, IpExpansionMatrix.hpp). -/
def LRW.Selects [DecidableEq X] [DecidableEq L] (W : LRW K X L) : Prop :=
  match W with
  | .plain .. | .projected .. => True
  | .reduced P .. => ∃ e : L → X, Function.Injective e ∧ ∀ i a, P i a = if i = e a then 1 else 0

/-- NULL is a zero vector. -/
def val {I : Type} (d : Option (I → K)) (i : I) : K :=
  match d with
  | some d => d i
  | none => 0

/-- `y` solves the augmented system (IpAugSystemSolver.hpp:19-31) with right-hand side `r`. -/
structure Solves (a : Sys K X C D) (y r : Quad K X C D) : Prop where
  x : ∀ i, a.Wfac * ∑ j, a.W i j * y.x j + (val a.Dx i + a.δx) * y.x i + ∑ k, a.Jc k i * y.c k + ∑ k, a.Jd k i * y.d k = r.x i
  s : ∀ i, (val a.Ds i + a.δs) * y.s i - y.d i = r.s i
  c : ∀ k, ∑ j, a.Jc k j * y.x j + (val a.Dc k - a.δc) * y.c k = r.c k
  d : ∀ k, ∑ j, a.Jd k j * y.x j - y.s k + (val a.Dd k - a.δd) * y.d k = r.d k

/-- the system of a call of `Solve`. -/
def Call.sys [DecidableEq X] [DecidableEq L] (H : Heap K X C D L) (c : Call K) : Sys K X C D where
  W := (H.lrw c.W).elem
  Wfac := c.Wfac
  Dx := c.Dx.map H.vx
  δx := c.δx
  Ds := c.Ds.map H.vs
  δs := c.δs
  Jc := H.jc c.Jc
  Dc := c.Dc.map H.vc
  δc := c.δc
  Jd := H.jd c.Jd
  Dd := c.Dd.map H.vd
  δd := c.δd

/-- lower triangular with nonzero diagonal. -/
def Lower (n : Nat) (J : Nat → Nat → K) : Prop := (∀ i j, i < n → j < n → i < j → J i j = 0) ∧ ∀ i, i < n → J i i ≠ 0

/-- the solver inside solves the given system whenever it reports success; `potrf` returns the Cholesky factor if it reports success,
`potrs` solves with it. -/
structure Contract (E : Env K X C D B) : Prop where
  solve : ∀ a n rhs chk neg b, (E.solve a n rhs chk neg b).1 = .success → ∀ i, i < n → Solves a ((E.solve a n rhs chk neg b).2.1 i) (rhs i)
  potrf : ∀ n M, (E.potrf n M).1 = true → Lower n (E.potrf n M).2 ∧
    ∀ i j, i < n → j < n → ∑ k ∈ range n, (E.potrf n M).2 i k * (E.potrf n M).2 j k = M i j
  potrs : ∀ n J v, Lower n J → ∀ i, i < n → ∑ j ∈ range n, (∑ k ∈ range n, J i k * J j k) * E.potrs n J v j = v i

/-- valid arguments: no object has tag 0. -/
structure Call.OK (c : Call K) : Prop where
  Dx : c.Dx ≠ some 0
  Ds : c.Ds ≠ some 0
  Dc : c.Dc ≠ some 0
  Dd : c.Dd ≠ some 0

/-- the history of a solver object since its last initialisation: arguments and return values of the calls of `Solve`; between them
anything may have happened to the solver inside (`IncreaseQuality`, for instance). -/
inductive Run [DecidableEq K] [DecidableEq X] (E : Env K X C D B) (H : Heap K X C D L) :
    List (Call K × Status) → St K X C D → B → Prop
  | new (jf : Bool) (jn : Int) (b : B) : Run E H [] ((St.start jf jn).init E b).2.1 ((St.start jf jn).init E b).2.2
  | init {h st b} : Run E H h st b → Run E H [] (st.init E b).2.1 (st.init E b).2.2
  | other {h st b} (b' : B) : Run E H h st b → Run E H h st b'
  | quality {h st b} : Run E H h st b → Run E H h (st.increaseQuality E b).2.1 (st.increaseQuality E b).2.2
  | solve {h st b} (c : Call K) (rhs sol0 : Quad K X C D) (chk : Bool) (neg : Int) {s sol st' b'} : Run E H h st b → c.OK →
      st.solve E H c rhs sol0 chk neg b = some (s, sol, st', b') → Run E H (h ++ [(c, s)]) st' b'

/-- the call goes back to arguments used before, although a call with other arguments failed since, and no call with other arguments
succeeded after that. -/
def Revisit (c : Call K) (h : List (Call K × Status)) : Prop :=
  ∃ pre p mid e post, h = pre ++ p :: (mid ++ e :: post) ∧ p.1 = c ∧ e.1 ≠ c ∧ e.2 ≠ .success ∧
    ∀ q ∈ post, q.1 ≠ c → q.2 ≠ .success

/-- the quadratic form of the system is positive in all directions that satisfy the linearized constraints: the inertia of the augmented
matrix is that of a search direction which is a descent direction for the barrier function. -/
def Curv [LT K] (a : Sys K X C D) : Prop :=
  ∀ v : Quad K X C D, (∀ k, ∑ j, a.Jc k j * v.x j + (val a.Dc k - a.δc) * v.c k = 0) →
    (∀ k, ∑ j, a.Jd k j * v.x j - v.s k + (val a.Dd k - a.δd) * v.d k = 0) → (v.x ≠ 0 ∨ v.s ≠ 0) →
    0 < a.Wfac * ∑ i, ∑ j, v.x i * a.W i j * v.x j + ∑ i, (val a.Dx i + a.δx) * (v.x i * v.x i)
      + ∑ i, (val a.Ds i + a.δs) * (v.s i * v.s i) - ∑ k, (val a.Dc k - a.δc) * (v.c k * v.c k)
      - ∑ k, (val a.Dd k - a.δd) * (v.d k * v.d k)

/-- asked to check for `m` negative eigenvalues, the solver inside reports success only if the curvature is positive. -/
def Certifies [LT K] (E : Env K X C D B) (m : Int) : Prop :=
  E.inertia = true ∧ ∀ a rhs b, (E.solve a 1 rhs true m b).1 = .success → Curv a

/-- index set of the unknowns. -/
abbrev Ix (X C D : Type) := (X ⊕ D) ⊕ (C ⊕ D)

/-- the matrix of the augmented system (`Solves a y r` is `kmat a *ᵥ y = r`, see `solves_iff`). -/
def kmat [DecidableEq X] [DecidableEq C] [DecidableEq D] (a : Sys K X C D) : Matrix (Ix X C D) (Ix X C D) K
  | .inl (.inl i), .inl (.inl j) => a.Wfac * a.W i j + if i = j then val a.Dx i + a.δx else 0
  | .inl (.inl i), .inr (.inl k) => a.Jc k i
  | .inl (.inl i), .inr (.inr k) => a.Jd k i
  | .inl (.inr i), .inl (.inr j) => if i = j then val a.Ds i + a.δs else 0
  | .inl (.inr i), .inr (.inr k) => if i = k then -1 else 0
  | .inr (.inl k), .inl (.inl j) => a.Jc k j
  | .inr (.inl k), .inr (.inl l) => if k = l then val a.Dc k - a.δc else 0
  | .inr (.inr k), .inl (.inl j) => a.Jd k j
  | .inr (.inr k), .inl (.inr j) => if k = j then -1 else 0
  | .inr (.inr k), .inr (.inr l) => if k = l then val a.Dd k - a.δd else 0
  | _, _ => 0


/-- the symmetric matrix `M` has exactly `n` negative eigenvalues: the space is the direct sum of a subspace of dimension `n` on which the
quadratic form is negative, and one on which it is nowhere negative (Sylvester's law of inertia). -/
def NegCount {ι : Type} [Fintype ι] [LT K] [LE K] (M : Matrix ι ι K) (n : Nat) : Prop :=
  ∃ N P : Submodule K (ι → K), IsCompl N P ∧ Module.finrank K N = n ∧ (∀ v ∈ N, v ≠ 0 → v ⬝ᵥ M *ᵥ v < 0) ∧ ∀ v ∈ P, 0 ≤ v ⬝ᵥ M *ᵥ v

/-- the solver inside reports the true number of negative eigenvalues after a successful solve. -/
def CountsNeg [LT K] [LE K] [DecidableEq X] [DecidableEq C] [DecidableEq D] (E : Env K X C D B) : Prop :=
  E.inertia = true ∧ ∀ a rhs chk neg b, (E.solve a 1 rhs chk neg b).1 = .success →
    ∃ n : Nat, NegCount (kmat a) n ∧ E.negEvals (E.solve a 1 rhs chk neg b).2.2 = n

/-! ## The extended system -/

/-- the solver inside solves the given system whenever it reports success. -/
def Exact (E : Env K X C D B) : Prop :=
  ∀ a n rhs chk neg b, (E.solve a n rhs chk neg b).1 = .success → ∀ i, i < n → Solves a ((E.solve a n rhs chk neg b).2.1 i) (rhs i)

/-- all Hessians belong to the same matrix space: same `P_LowRank`. -/
def OneSpace (H : Heap K X C D L) : Prop := ∀ t t', (H.lrw t).proj = (H.lrw t').proj

/-- the states of a solver object that a user can reach with Hessians of one space. -/
inductive SRun {r : Nat} [DecidableEq K] [DecidableEq X] (E : Env K X (C ⊕ Fin r) D B) (H : Heap K X C D L) : SSt K X C L r → B → Prop
  | new (jf : Bool) (jn jc : Int) (b : B) : SRun E H ((SSt.start jf jn jc).init E b).2.1 ((SSt.start jf jn jc : SSt K X C L r).init E b).2.2
  | init {st b} : SRun E H st b → SRun E H (st.init E b).2.1 (st.init E b).2.2
  | other {st b} (b' : B) : SRun E H st b → SRun E H st b'
  | solve {st b} (c : Call K) (rhs : Quad K X C D) (chk : Bool) (neg : Int) {s sol st' b'} : SRun E H st b → c.OK →
      st.solve E H c rhs chk neg b = some (s, sol, st', b') → SRun E H st' b'

/-- `B0 + p V Vᵀ - q U Uᵀ` in the three forms of the matrix. -/
def LRW.elem2 [DecidableEq X] [DecidableEq L] (p q : K) (W : LRW K X L) (i j : X) : K :=
  match W with
  | .plain B0 V U => diagElem B0 i j + p * gram V i j - q * gram U i j
  | .reduced P B0 V U => ∑ a, ∑ b, P i a * (diagElem B0 a b + p * gram V a b - q * gram U a b) * P j b
  | .projected P B0 V U => diagElem B0 i j + ∑ a, ∑ b, P i a * (p * gram V a b - q * gram U a b) * P j b

/-- the system of a call with `V Vᵀ` divided by `1 + δc` and `U Uᵀ` by `1 - δc`. -/
def Call.sysDelta [DecidableEq X] [DecidableEq L] (H : Heap K X C D L) (c : Call K) : Sys K X C D :=
  { c.sys H with W := (H.lrw c.W).elem2 (1 / (1 + c.δc)) (1 / (1 - c.δc)) }
end Verif.LowRank
