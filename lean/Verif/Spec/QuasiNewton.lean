import Verif.Model.QuasiNewton
import Verif.Spec.Matrix

/-! # Specification of the limited-memory quasi-Newton approximation -/

namespace Verif.QuasiNewton
open Finset Verif.Matrix

variable {K : Type} [Field K] [LinearOrder K]

/-- the last `n` elements. -/
def lastN {A : Type} (n : Nat) (l : List A) : List A := l.drop (l.length - n)

/-- the dimensions of all data of one call agree: `n` variables, `mc` equality and `md` inequality constraints. -/
structure CallOK (n mc md : Nat) (c : Call K) : Prop where
  x : c.x.length = n
  gradf : c.gradf.length = n
  jc : WF c.Jc ∧ c.Jc.dims = (mc, n)
  jd : WF c.Jd ∧ c.Jd.dims = (md, n)
  yc : c.yc.length = mc
  yd : c.yd.length = md

/-- component `i` of ∇f(x) + Jc(x)ᵀ y_c + Jd(x)ᵀ y_d, the derivatives taken from `at'`, the multipliers from `mult`. -/
def lagGrad (mc md : Nat) (at' mult : Call K) (i : Nat) : K :=
  at'.gradf.getD i 0 + ∑ r ∈ range mc, ent at'.Jc r i * mult.yc.getD r 0 + ∑ r ∈ range md, ent at'.Jd r i * mult.yd.getD r 0

/-- the pair of two successive calls for the original problem: change of x, and change of the gradient of the Lagrangian for the new
multipliers; restricted to the space of the approximation by `P` if there is one. -/
def IsPair (P : Option (Mat K)) (n mc md : Nat) (l c : Call K) (p : Pair K) : Prop :=
  match P with
  | none =>
    p.s.length = n ∧ p.y.length = n ∧
    (∀ i, i < n → p.s.getD i 0 = c.x.getD i 0 - l.x.getD i 0) ∧
    (∀ i, i < n → p.y.getD i 0 = lagGrad mc md c c i - lagGrad mc md l c i)
  | some P =>
    p.s.length = P.dims.2 ∧ p.y.length = P.dims.2 ∧
    (∀ k, k < P.dims.2 → p.s.getD k 0 = ∑ i ∈ range n, ent P i k * (c.x.getD i 0 - l.x.getD i 0)) ∧
    (∀ k, k < P.dims.2 → p.y.getD k 0 = ∑ i ∈ range n, ent P i k * (lagGrad mc md c c i - lagGrad mc md l c i))

/-- the pairs of successive calls together with what was done with them: entry `k` is about calls `k` and `k+1`. -/
def log (cfg : Cfg K) (env : Env K) (calls : List (Call K)) (ks : List Kind) : List (Kind × Pair K) :=
  ks.tail.zip (List.zipWith (newPair cfg env) calls calls.tail)

/-- the update was skipped. -/
def Kind.isSkip : Kind → Bool
  | .tiny | .curv | .eta | .chol | .eig _ => true
  | .start | .reset | .accept _ => false

/-- the call discarded the history. -/
def Kind.isReset : Kind → Bool
  | .start | .reset => true
  | _ => false

/-- the pair of the call became part of the history: it was accepted, or the Cholesky factorization failed after it was stored. -/
def Kind.isStored : Kind → Bool
  | .accept _ | .chol => true
  | _ => false

/-- the entries after the last reset. -/
def sinceReset (lg : List (Kind × Pair K)) : List (Kind × Pair K) := (lg.reverse.takeWhile (fun e => !e.1.isReset)).reverse

/-- the pairs stored since the last start or reset, oldest first. -/
def stored (lg : List (Kind × Pair K)) : List (Pair K) := ((sinceReset lg).filter (fun e => e.1.isStored)).map (fun e => e.2)

/-- number of successive calls at the end that neither were a reset nor an (unconditional) acceptance. -/
def trailingSkips (ks : List Kind) : Nat := (ks.reverse.takeWhile (fun k => k.isSkip || decide (k = .accept true))).length

/-- SR1 with retroactive skipping: the pairs in the history and the history before the last update attempt (`none`: no update was attempted
since the last start or reset).  An undone update is removed again, also if it had pushed out the oldest pair. -/
def sr1Next (h : List (Pair K) × Option (List (Pair K))) (e : Kind × Pair K) : List (Pair K) × Option (List (Pair K)) :=
  match e.1 with
  | .start | .reset => ([], none)
  | .accept false => (h.1 ++ [e.2], some h.1)
  | .accept true => (h.2.getD [] ++ [e.2], some (h.2.getD []))
  | .eig false => (h.1, some h.1)
  | .eig true => (h.2.getD [], some (h.2.getD []))
  | _ => h

/-- the history of the SR1 update. -/
def sr1Hist (lg : List (Kind × Pair K)) : List (Pair K) × Option (List (Pair K)) := lg.foldl sr1Next ([], none)

/-- the call tried to undo the previous SR1 update. -/
def Kind.isUndo : Kind → Bool
  | .accept true | .eig true => true
  | _ => false

/-- the call attempted an SR1 update. -/
def Kind.isAttempt : Kind → Bool
  | .accept _ | .eig _ => true
  | _ => false

/-- there is something to undo whenever an update is undone: an update was attempted before, since the last start or reset. -/
def UndoOK (ks : List Kind) : Prop :=
  ∀ a k b, ks = a ++ k :: b → k.isUndo = true → ∃ k' ∈ (a.reverse.takeWhile (fun k => !k.isReset)), k'.isAttempt = true

/-- the stored history consists of exactly the pairs `h` (s and y), nothing else: all derived quantities are those of these pairs. -/
structure Holds (d : Data K) (h : List (Pair K)) : Prop where
  mem : d.mem = h.length
  S : d.S.getD [] = h.map (fun p => p.s)
  Y : d.Y.getD [] = h.map (fun p => p.y)
  D : ∃ D, d.D.getD [] = D ∧ D.length = h.length ∧ ∀ i p, h[i]? = some p → D.getD i 0 = vdot p.s p.y
  L : odim d.L = h.length ∧ ∀ i j p q, h[i]? = some p → h[j]? = some q → oat d.L i j = if j < i then vdot p.s q.y else 0
  SdotS : odim d.SdotS = h.length ∧ ∀ i j p q, h[i]? = some p → h[j]? = some q → j ≤ i → oat d.SdotS i j = vdot p.s q.s

/-- LAPACK's `potrf`: if the factorization succeeds, J is lower triangular with nonzero diagonal and J Jᵀ = M. -/
def CholOK (env : Env K) : Prop :=
  ∀ M J, env.chol M = some J → J.n = M.n ∧
    (∀ i j, i < M.n → j < M.n → i < j → J.at i j = 0) ∧ (∀ i, i < M.n → J.at i i ≠ 0) ∧
    ∀ i j, j ≤ i → i < M.n → ∑ k ∈ range M.n, J.at i k * J.at j k = M.at i j

/-- BLAS' `trsm` on the identity: `back J` = J⁻ᵀ, i.e. Jᵀ (back J) = I, for lower triangular J with nonzero diagonal. -/
def BackOK (env : Env K) : Prop :=
  ∀ J : DM K, (∀ i, i < J.n → J.at i i ≠ 0) → (∀ i j, i < J.n → j < J.n → i < j → J.at i j = 0) → (env.back J).n = J.n ∧
    ∀ i j, i < J.n → j < J.n → ∑ k ∈ range J.n, J.at k i * (env.back J).at k j = if i = j then 1 else 0

/-- LAPACK's `syev`: Q is orthogonal, the eigenvalues are in ascending order, Q diag(E) Qᵀ is the symmetric matrix given by its lower
triangle. -/
def EigOK (env : Env K) : Prop :=
  ∀ M Q E, env.eig M = some (Q, E) → Q.n = M.n ∧ E.length = M.n ∧
    (∀ i j, i < j → j < M.n → E.getD i 0 ≤ E.getD j 0) ∧
    (∀ i j, i < M.n → j < M.n → ∑ k ∈ range M.n, Q.at i k * Q.at j k = if i = j then 1 else 0) ∧
    ∀ i j, j ≤ i → i < M.n → ∑ k ∈ range M.n, Q.at i k * E.getD k 0 * Q.at j k = M.at i j

/-- `std::sqrt` on nonnegative numbers. -/
def SqrtOK (env : Env K) : Prop := ∀ a, 0 ≤ a → 0 ≤ env.sqrt a ∧ env.sqrt a * env.sqrt a = a

/-- the number of variables the approximation works on. -/
def lmDim (P : Option (Mat K)) (n : Nat) : Nat :=
  match P with
  | none => n
  | some P => P.dims.2

/-- `W` is the matrix `B`, or P B Pᵀ if the approximation works on the space given by `P`. -/
def IsApprox (P : Option (Mat K)) (n : Nat) (W : Mat K) (B : Nat → Nat → K) : Prop :=
  match P with
  | none => ∀ i j, i < n → j < n → ent W i j = B i j
  | some P => ∀ i j, i < n → j < n → ent W i j = ∑ k ∈ range P.dims.2, ∑ l ∈ range P.dims.2, ent P i k * B k l * ent P j l

/-- the projection has `n` rows and is well-formed. -/
def ProjOK (P : Option (Mat K)) (n : Nat) : Prop :=
  match P with
  | none => True
  | some P => WF P ∧ P.dims.1 = n

/-- B s = y. -/
def Secant (m : Nat) (B : Nat → Nat → K) (p : Pair K) : Prop :=
  ∀ i, i < m → ∑ j ∈ range m, B i j * p.s.getD j 0 = p.y.getD i 0

/-- B is symmetric and xᵀ B x > 0 for all x ≠ 0. -/
def PosDef (m : Nat) (B : Nat → Nat → K) : Prop :=
  (∀ i j, i < m → j < m → B i j = B j i) ∧
  ∀ x : Nat → K, (∃ i, i < m ∧ x i ≠ 0) → 0 < ∑ i ∈ range m, ∑ j ∈ range m, x i * B i j * x j

end Verif.QuasiNewton
