import Verif.Model.DenseVector

/-! # Vectors as lists of their elements -/

namespace Verif.Vec

variable {K : Type} [Field K] [LinearOrder K] [IsStrictOrderedRing K]

/-- The elements of a vector. -/
def DV.elems (v : DV K) : List K := if v.hom then List.replicate v.dim v.scalar else v.vals

/-- As many elements as the dimension says. -/
def DV.WF (v : DV K) : Prop := v.hom = false → v.vals.length = v.dim

/-- Linear combination of three vectors. -/
def lin (c : K) (u : List K) (a : K) (p : List K) (b : K) (q : List K) : List K :=
  List.zipWith (· + ·) (List.zipWith (· + ·) (u.map (c * ·)) (p.map (a * ·))) (q.map (b * ·))

/-- The step length `α` keeps the new slacks `x + α δ` at `(1 - τ) x` or above. -/
def KeepsFraction (τ : K) (x δ : List K) (α : K) : Prop :=
  ∀ pd ∈ List.zip x δ, (1 - τ) * pd.1 ≤ pd.1 + α * pd.2

/-- `α` is the largest step length in `(0, 1]` with this property. -/
def MaxStep (τ : K) (x δ : List K) (α : K) : Prop :=
  0 < α ∧ α ≤ 1 ∧ KeepsFraction τ x δ α ∧ ∀ β, α < β → β ≤ 1 → ¬KeepsFraction τ x δ β

/-- Sign of a number. -/
def sign (a : K) : K := if 0 < a then 1 else if a = 0 then 0 else -1

end Verif.Vec
