import Verif.Model.AdaptiveMu

/-! # What the documentation of the adaptive barrier update says, independent of its bookkeeping

The bookkeeping (reference list, filter, stored iterate) does not occur here: everything is said about the list `acc` of *all* iterates after
whose update the free mode was active, oldest first. -/

namespace Verif.AdaptiveMu.Spec

open Verif.AdaptiveMu

variable {K P : Type} [Field K] [LinearOrder K] [IsStrictOrderedRing K]

/-- The iterates of a history at which the algorithm was in the free mode after the update. -/
def freePoints (h : List (Call P × State K P)) : List P := (h.filter fun cs => cs.2.free).map fun cs => cs.1.point

/-- The last `n` elements. -/
def lastN {α : Type} (n : Nat) (l : List α) : List α := l.drop (l.length - n)

/-- The margin of the filter globalization at an iterate. -/
def margin (p : Par K) (q : P → Quant K) (x : P) : K := p.filterMarginFact * min p.filterMaxMargin (q x).nlpError

/-- Sufficient progress of the iterate `x` with respect to the accepted ones (options `adaptive_mu_globalization`,
`adaptive_mu_kkterror_red_iters`, `adaptive_mu_kkterror_red_fact`, `filter_margin_fact`, `filter_max_margin`):
* `kkt-error`: fewer than `red_iters` iterates have been accepted so far, or the error is at most `red_fact` times the error at one of the last
  `red_iters` accepted iterates;
* `obj-constr-filter`: compared with every accepted iterate the objective or the constraint violation is better by the margin;
* `never-monotone-mode`: always. -/
def Progress (p : Par K) (q : P → Quant K) (acc : List P) (x : P) : Prop :=
  match p.glob with
  | .kktError => acc.length < p.numRefsMax ∨ ∃ y ∈ lastN p.numRefsMax acc, kktError p (q x) ≤ p.redFact * kktError p (q y)
  | .filter => ∀ y ∈ acc, (q x).f + margin p q x ≤ (q y).f ∨ (q x).theta + margin p q x ≤ (q y).theta
  | .neverMonotone => True

/-- The option values admitted by the registration that matter for the parameter. -/
structure Admissible (p : Par K) : Prop where
  maxFact : 0 < p.muMaxFact
  maxOpt : ∀ m, p.muMaxOpt = some m → 0 < m
  minOpt : ∀ m, p.muMinOpt = some m → 0 < m
  minDflt : 0 < p.muMinDflt
  tauMin : 0 < p.tauMin ∧ p.tauMin < 1
  factor : 0 < p.barrierTolFactor
  linear : 0 < p.linear ∧ p.linear < 1
  pw : ∀ m, 0 < m → 0 < p.pw m
  safeguard : 0 ≤ p.safeguard
  red : 0 < p.redFact ∧ p.redFact < 1

/-- What is known about the quantities at every iterate of an interior point method with bounds. -/
structure Interior (q : P → Quant K) : Prop where
  bounds : ∀ x, 0 < (q x).nBounds
  avrg : ∀ x, 0 < (q x).avrgCompl
  tol : ∀ x, 0 < (q x).tol
  complTol : ∀ x, 0 < (q x).complTol

end Verif.AdaptiveMu.Spec
