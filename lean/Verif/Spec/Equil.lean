import Verif.Model.Equil
import Verif.Spec.Scaling
import Verif.Spec.SysScaling

/-! # Specification of equilibration-based scaling -/

namespace Verif.Equil
open Finset

/-- bounds on some of `n` variables. -/
structure BoundsOK {K : Type} (n : Nat) (pos : List Nat) (b : List K) : Prop where
  len : b.length = pos.length
  nodup : pos.Nodup
  range : ∀ p ∈ pos, p < n

/-- `o`: the bound of variable `i`, if it has one. -/
abbrev BoundOf {K : Type} (pos : List Nat) (b : List K) (i : Nat) (o : Option K) : Prop := SysScaling.IsSlack pos b i o

/-- row and column numbers are in range. -/
structure Dims.OK (d : Dims) : Prop where
  c : ∀ t ∈ d.rcC, 1 ≤ t.1 ∧ t.1 ≤ d.nc
  d : ∀ t ∈ d.rcD, 1 ≤ t.1 ∧ t.1 ≤ d.nd

/-- the sum of those of the numbers `v p, v (p + 1), …` that belong to element (r, c), 0-based. -/
def elem {K : Type} [Field K] (rc : List (Nat × Nat)) (v : Nat → K) (p r c : Nat) : K :=
  ∑ k ∈ range rc.length, if rc.getD k (0, 0) = (r + 1, c + 1) then v (p + k) else 0

end Verif.Equil
