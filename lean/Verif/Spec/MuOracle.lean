import Verif.Model.MuOracle
import Verif.Spec.DenseVector

/-! # What the oracles for the barrier parameter are supposed to do -/

namespace Verif.MuOracle.Spec

open Verif.MuOracle

variable {K : Type} [Field K] [LinearOrder K] [IsStrictOrderedRing K]

/-- All pairs of corresponding elements, for example (slack, multiplier). -/
def pairs (a b : Four K) : List (K × K) := List.zip a.xL b.xL ++ List.zip a.xU b.xU ++ List.zip a.sL b.sL ++ List.zip a.sU b.sU

/-- All elements. -/
def elems (a : Four K) : List K := a.xL ++ a.xU ++ a.sL ++ a.sU

/-- Same dimensions. -/
def Same (a b : Four K) : Prop := a.xL.length = b.xL.length ∧ a.xU.length = b.xU.length ∧ a.sL.length = b.sL.length ∧ a.sU.length = b.sU.length

/-- The complementarity products of the iterate. -/
def products (it : Iter K) : List K := (pairs it.slack it.mult).map fun p => p.1 * p.2

/-- The mean of a list. -/
def mean (l : List K) : K := l.sum / (l.length : K)

/-- An iterate of the interior point method: slacks and bound multipliers are positive, there is at least one bound, and there is a variable. -/
structure Interior (it : Iter K) : Prop where
  same : Same it.slack it.mult
  slack : ∀ a ∈ elems it.slack, 0 < a
  mult : ∀ a ∈ elems it.mult, 0 < a
  bound : elems it.slack ≠ []
  var : 0 < it.gradLagX.length + it.gradLagS.length
  xL : it.pxL.length = it.slack.xL.length
  xU : it.pxU.length = it.slack.xU.length
  sL : it.pdL.length = it.slack.sL.length
  sU : it.pdU.length = it.slack.sU.length

/-- Strict quasi-convexity on an interval: between two points the function is below the larger of the two values. -/
def Unimodal (q : K → K) (lo up : K) : Prop := ∀ a y b, lo ≤ a → a < y → y < b → b ≤ up → q y < max (q a) (q b)

/-- `x` minimizes `q` over the interval. -/
def IsMin (q : K → K) (lo up x : K) : Prop := lo ≤ x ∧ x ≤ up ∧ ∀ y, lo ≤ y → y ≤ up → q x ≤ q y

/-- The golden section factor `(3 - sqrt 5)/2`: the smaller root of `g² - 3 g + 1`. -/
structure IsGolden (g : K) : Prop where
  root : g ^ 2 - 3 * g + 1 = 0
  half : g < 1 / 2

/-- The complementarity products after a step with primal and dual step lengths `ap` and `ad`. -/
def shifted (it : Iter K) (ap ad : K) (d : Step K) : List K :=
  (pairs (addScaled it.slack ap (slackStep it d)) (addScaled it.mult ad d.z)).map fun p => p.1 * p.2

/-- The negative of a vector. -/
def neg (u : Step K) : Step K :=
  ⟨u.x.map (- ·), u.s.map (- ·), u.yc.map (- ·), u.yd.map (- ·), ⟨u.z.xL.map (- ·), u.z.xU.map (- ·), u.z.sL.map (- ·), u.z.sU.map (- ·)⟩⟩

/-- Linear in both arguments of `Step.comb`. -/
def Linear (A : Step K → Step K) : Prop := ∀ (t : K) (u v : Step K), A (Step.comb t u v) = Step.comb t (A u) (A v)

end Verif.MuOracle.Spec
