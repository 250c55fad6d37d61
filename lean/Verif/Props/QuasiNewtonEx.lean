import Verif.Props.QuasiNewton
import Mathlib.Algebra.Order.Field.Rat
import Mathlib.Data.Real.Sqrt
import Mathlib.LinearAlgebra.Matrix.Block
import Mathlib.Tactic.NormNum

/-! # C31, C54, C55: concrete runs, and where the claims fail -/

namespace Verif.QuasiNewton
open Finset Verif.Matrix

/-- exact on squares. -/
def ratSqrt (a : ℚ) : ℚ := (Nat.sqrt a.num.toNat : ℚ) / (Nat.sqrt a.den : ℚ)

/-- a rational environment: exact on 1×1 matrices. -/
def envQ : Env ℚ where
  hom := fun _ => none
  sqrt := ratSqrt
  tinyTol := 1 / 1000000
  curvTol := 1 / 1000000
  eigTol := 1 / 1000000
  minSty := 1 / 1000000
  junk := 7
  chol := fun M => if M.n = 1 ∧ 0 < M.at 0 0 then some ⟨1, [ratSqrt (M.at 0 0)]⟩ else none
  back := fun J => ⟨1, [1 / J.at 0 0]⟩
  eig := fun M => if M.n = 1 then some (⟨1, [1]⟩, [M.at 0 0]) else none

/-- default options with one stored pair. -/
def cfgQ : Cfg ℚ := ⟨1, 2, false, .scalar1, 1, 1 / 100000000, 100000000, false, true, none⟩

/-- a call for an unconstrained problem in two variables. -/
def call2 (x g : List ℚ) (regu : ℚ := 0) (drx : List ℚ := []) (eta : ℚ := 0) : Call ℚ := ⟨x, g, .zero 0 2, .zero 0 2, [], [], regu, drx, eta⟩

theorem call2_ok (x g : List ℚ) (r : ℚ) (d : List ℚ) (e : ℚ) (hx : x.length = 2) (hg : g.length = 2) : CallOK 2 0 0 (call2 x g r d e) :=
  ⟨hx, hg, ⟨trivial, rfl⟩, ⟨trivial, rfl⟩, rfl, rfl⟩

/-- kinds and stored x-steps of a run. -/
def summary (r : Except Err (St ℚ × List Kind)) : Option (List Kind × Nat × List (List ℚ)) :=
  match r with
  | .ok (st, ks) => some (ks, st.data.mem, st.data.S.getD [])
  | .error _ => none

/-- the abnormal end of a run. -/
def failure (r : Except Err (St ℚ × List Kind)) : Option Err :=
  match r with
  | .ok _ => none
  | .error e => some e

/-- three updates with memory 1: only the last accepted pair is kept. -/
example : summary (run cfgQ envQ (St.init 5 0 false)
    [call2 [0, 0] [0, 0], call2 [1, 0] [1, 0], call2 [1, 2] [1, 8], call2 [1, 2] [1, 8], call2 [2, 2] [-1, 8]]) =
    some ([.start, .accept false, .accept false, .tiny, .curv], 1, [[0, 2]]) := by decide +kernel

/-- two skips reset. -/
example : summary (run cfgQ envQ (St.init 5 0 false)
    [call2 [0, 0] [0, 0], call2 [1, 0] [1, 0], call2 [1, 0] [1, 0], call2 [1, 0] [1, 0], call2 [3, 0] [3, 0]]) =
    some ([.start, .accept false, .tiny, .tiny, .reset], 0, []) := by decide +kernel

/-- C31, negation: if the Cholesky factorization fails the update is reported as skipped, but the pair is in the memory all the same. -/
theorem bfgs_cholesky_failure_keeps_pair :
    ∃ (env : Env ℚ) (calls : List (Call ℚ)), summary (run cfgQ env (St.init 0 0 false) calls) = some ([.start, .chol], 1, [[1, 0]]) :=
  ⟨{ envQ with chol := fun _ => none }, [call2 [0, 0] [0, 0], call2 [1, 0] [1, 0]], by decide +kernel⟩

/-- C31, negation: if the first SR1 update after the start follows a regularized step, the (never initialized) backup is "restored": with a
garbage memory counter at least the history length this dereferences a null pointer … -/
theorem sr1_first_undo_garbage :
    failure (run { cfgQ with sr1 := true } envQ (St.init 9 0 false) [call2 [0, 0] [0, 0], call2 [1, 0] [3, 0] 1]) = some .nullDeref := by
  decide +kernel

/-- … and with a smaller one the memory counter is wrong: one pair is stored, but the counter says four. -/
theorem sr1_first_undo_wrong_count :
    summary (run { cfgQ with sr1 := true, maxHist := 6, init := .scalar2 } envQ (St.init 3 0 false)
      [call2 [0, 0] [0, 0], call2 [1, 0] [3, 4] 1]) = some ([.start, .accept true], 4, [[1, 0]]) := by decide +kernel

/-- C31, negation: after a reset the backup still holds the history before the reset, and an undo brings it back. -/
theorem sr1_undo_resurrects :
    summary (run { cfgQ with sr1 := true, maxHist := 2 } { envQ with eig := fun M => some (⟨M.n, (DM.build M.n (fun i j => if i = j then 1 else 0)).vals⟩,
        List.replicate M.n 1) } (St.init 3 0 false)
      [call2 [0, 0] [0, 0], call2 [1, 0] [3, 0], call2 [2, 1] [6, 1], call2 [2, 1] [6, 1], call2 [2, 1] [6, 1], call2 [2, 1] [6, 1],
       call2 [2, 5] [6, 9] 1]) =
      some ([.start, .accept false, .accept false, .tiny, .tiny, .reset, .accept true], 2, [[1, 0], [0, 4]]) := by decide +kernel

/-- C31, negation: BFGS in the restoration phase with `limited_memory_max_history = 0` dereferences a null pointer. -/
theorem resto_zero_history_null :
    failure (run { cfgQ with resto := true, maxHist := 0 } envQ (St.init 0 0 false)
      [call2 [0, 0] [0, 0] 0 [1, 1] 1, call2 [1, 0] [1, 0] 0 [1, 1] 1]) = some .nullDeref := by decide +kernel

/-- the entries of W of a two-variable run. -/
def wEntries (r : Except Err (St ℚ × List Kind)) : Option (List Kind × List ℚ) :=
  match r with
  | .ok (st, ks) =>
    match st.W with
    | some (.lowRank D V U) => some (ks, [(0, 0), (0, 1), (1, 0), (1, 1)].map (fun ij =>
        (if ij.1 = ij.2 then D.getD ij.1 0 else 0) + gram V ij.1 ij.2 - gram U ij.1 ij.2))
    | _ => none
  | .error _ => none

/-- C54, a concrete accepted BFGS update: s = (1, 0), y = (4, 2), W = [[4, 2], [2, 5]], so W s = y. -/
example : wEntries (run cfgQ envQ (St.init 5 0 false) [call2 [0, 0] [0, 0], call2 [1, 0] [4, 2]]) =
    some ([.start, .accept false], [4, 2, 2, 5]) := by decide +kernel

/-- C54, SR1: s = (1, 0), y = (5, 2): W = I + (4,2)(4,2)ᵀ/4 = [[5, 2], [2, 2]], so W s = y. -/
example : wEntries (run { cfgQ with sr1 := true } envQ (St.init 5 0 false) [call2 [0, 0] [0, 0], call2 [1, 0] [5, 2]]) =
    some ([.start, .accept false], [5, 2, 2, 2]) := by decide +kernel

/-- with a 2×2 Cholesky factorization (exact where the roots are rational). -/
def envQ2 : Env ℚ := { envQ with
  chol := fun M =>
    if M.n = 1 then (if 0 < M.at 0 0 then some ⟨1, [ratSqrt (M.at 0 0)]⟩ else none)
    else if 0 < M.at 0 0 then
      some ⟨2, [ratSqrt (M.at 0 0), M.at 1 0 / ratSqrt (M.at 0 0), 0, ratSqrt (M.at 1 1 - M.at 1 0 * M.at 1 0 / M.at 0 0)]⟩
    else none
  back := fun J => if J.n = 1 then ⟨1, [1 / J.at 0 0]⟩ else ⟨2, [1 / J.at 0 0, 0, -J.at 1 0 / (J.at 0 0 * J.at 1 1), 1 / J.at 1 1]⟩ }

/-- C54, negation: in the restoration phase with DR_x = (4, 4), η = 1 and no constraints y = η DR_x s.  The second pair is s = (3, 4),
y = (12, 16) and is accepted, but W s = (12 + 96/25, …) ≠ y: the products that go into W are taken with s instead of DR_x s.  All roots
taken in this run are rational, so the difference is not due to rounding. -/
theorem resto_secant_fails :
    ∃ w, wEntries (run { cfgQ with maxHist := 2, init := .constant, resto := true, special := false } envQ2 (St.init 5 0 false)
      [call2 [0, 0] [0, 0] 0 [4, 4] 1, call2 [1, 0] [0, 0] 0 [4, 4] 1, call2 [4, 4] [0, 0] 0 [4, 4] 1]) =
        some ([.start, .accept false, .accept false], w) ∧
      w.getD 0 0 * 3 + w.getD 1 0 * 4 ≠ 12 := by
  refine ⟨[4, 24 / 25, 24 / 25, 73 / 25], by decide +kernel, by decide +kernel⟩

/-- the new pair of that run is the one claimed. -/
example : newPair { cfgQ with maxHist := 2, init := .constant, resto := true, special := false } envQ2
    (call2 [1, 0] [0, 0] 0 [4, 4] 1) (call2 [4, 4] [0, 0] 0 [4, 4] 1) = ⟨[3, 4], [12, 16], [0, 0], [12, 16]⟩ := by decide +kernel

/-- diagonal matrices only. -/
def envD (junk : ℚ) : Env ℚ := { envQ with
  junk := junk
  eig := fun M => some (DM.build M.n (fun i j => if i = j then 1 else 0), (List.range M.n).map (fun i => M.at i i)) }

/-- C54, negation: with SR1 and initialization scalar2 a step along which the gradient does not change gives σ = 0, and W then depends on
never initialized storage. -/
theorem sr1_uses_uninitialised_values :
    ∃ calls : List (Call ℚ),
      wEntries (run { cfgQ with sr1 := true, maxHist := 2, init := .scalar2 } (envD 1) (St.init 5 0 false) calls) =
        some ([.start, .accept false, .accept false], [25 / 4, 5 / 2, 5 / 2, 1]) ∧
      wEntries (run { cfgQ with sr1 := true, maxHist := 2, init := .scalar2 } (envD 4) (St.init 5 0 false) calls) =
        some ([.start, .accept false, .accept false], [25 / 9, 10 / 9, 10 / 9, 4 / 9]) :=
  ⟨[call2 [0, 0] [0, 0], call2 [1, 0] [5, 2], call2 [1, 1] [5, 2]], by decide +kernel, by decide +kernel⟩

end Verif.QuasiNewton
