import Verif.Model.Piecewise

/-! # What the list stands for

A point with barrier function value `b` and infeasibility `v` has the penalty function value `b + r v` for the penalty parameter `r`. -/

namespace Verif.Piecewise

variable {K : Type} [Field K] [LinearOrder K]

/-- the point `(b, v)` is better than all points of `P` for some penalty parameter. -/
def Better (P : List (K × K)) (b v : K) : Prop := ∃ r, 0 ≤ r ∧ ∀ p ∈ P, b + r * v < p.1 + r * p.2

/-- `l` is the list after a start with one point and updates with others; `P` are these points, the last one first. -/
inductive Hist : List (K × K) → List (Entry K) → Prop
  | init (r b v : K) : Hist [(b, v)] (addEntry [] r b v)
  | update {P : List (K × K)} {l l' : List (Entry K)} {b v : K} : Hist P l → updateEntry l b v = some l' → Hist ((b, v) :: P) l'

end Verif.Piecewise
