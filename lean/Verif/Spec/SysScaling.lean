import Verif.Model.SysScaling
import Verif.Spec.AugSolve

/-! # Specification of linear system scaling -/

namespace Verif.SysScaling
open Finset

/-- the iterate is consistent: the bounds are at different rows, each with its slack, and the slacks are positive. -/
structure Iter.OK {K : Type} [Zero K] [LT K] (it : Iter K) : Prop where
  lenL : it.slackL.length = it.posL.length
  lenU : it.slackU.length = it.posU.length
  nodupL : it.posL.Nodup
  nodupU : it.posU.Nodup
  rangeL : ∀ p ∈ it.posL, p < it.ns
  rangeU : ∀ p ∈ it.posU, p < it.ns
  posSlackL : ∀ v ∈ it.slackL, 0 < v
  posSlackU : ∀ v ∈ it.slackU, 0 < v

/-- `o`: the slack to the bound of row `j`, `none` if it has no such bound. -/
def IsSlack {K : Type} (pos : List Nat) (slack : List K) (j : Nat) : Option K → Prop
  | some v => ∃ k : Nat, pos[k]? = some j ∧ slack[k]? = some v
  | none => j ∉ pos

/-- element (r, c) of a matrix given by a list of triplets (1-based), repeated entries are summed. -/
def genElem {K : Type} [Field K] (l : List (Nat × Nat × K)) (r c : Nat) : K :=
  (l.map fun t => if t.1 = r + 1 ∧ t.2.1 = c + 1 then t.2.2 else 0).sum

/-- `a` is a positive finite number, at most `b`. -/
def PosLe (a : Num) (b : ℚ) : Prop := ∃ q, a = .fin q ∧ 0 < q ∧ q ≤ b

end Verif.SysScaling
