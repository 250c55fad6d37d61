import Verif.Model.RestoInit
import Verif.Spec.RestoNLP
import Mathlib.Analysis.SpecialFunctions.Log.Basic

/-! # What the first point of the restoration phase should be -/

namespace Verif.RestoInit
open Verif.RestoNLP
open scoped BigOperators

variable {X C D : Type} [Fintype X] [Fintype C] [Fintype D]

/-- all relaxation variables are positive. -/
def Positive {K : Type} [Field K] [LinearOrder K] (v : X5 K X C D) : Prop :=
  (∀ i, 0 < v.nc i) ∧ (∀ i, 0 < v.pc i) ∧ (∀ i, 0 < v.nd i) ∧ (∀ i, 0 < v.pd i)

/-- the part of the barrier function that depends on the relaxation variables: penalty term minus `μ` times the logarithms. -/
noncomputable def barrier (rho mu : ℝ) (v : X5 ℝ X C D) : ℝ :=
  rho * (∑ i, v.nc i + ∑ i, v.pc i + ∑ i, v.nd i + ∑ i, v.pd i) -
    mu * (∑ i, Real.log (v.nc i) + ∑ i, Real.log (v.pc i) + ∑ i, Real.log (v.nd i) + ∑ i, Real.log (v.pd i))

variable {K : Type} [Field K] [LinearOrder K] {L U A B : Type}

/-- a property of all four kinds of multipliers at once. -/
def BMult.All (P : K → Prop) (z : BMult K L U A B) : Prop := (∀ i, P (z.zL i)) ∧ (∀ i, P (z.zU i)) ∧ (∀ i, P (z.vL i)) ∧ (∀ i, P (z.vU i))

/-- for two families. -/
def BMult.All₂ (P : K → K → Prop) (z w : BMult K L U A B) : Prop :=
  (∀ i, P (z.zL i) (w.zL i)) ∧ (∀ i, P (z.zU i) (w.zU i)) ∧ (∀ i, P (z.vL i) (w.vL i)) ∧ (∀ i, P (z.vU i) (w.vU i))

/-- for four families: multiplier, step, slack before, slack after. -/
def BMult.All₄ (P : K → K → K → K → Prop) (z dz s t : BMult K L U A B) : Prop :=
  (∀ i, P (z.zL i) (dz.zL i) (s.zL i) (t.zL i)) ∧ (∀ i, P (z.zU i) (dz.zU i) (s.zU i) (t.zU i)) ∧
  (∀ i, P (z.vL i) (dz.vL i) (s.vL i) (t.vL i)) ∧ (∀ i, P (z.vU i) (dz.vU i) (s.vU i) (t.vU i))

/-- exists for two families. -/
def BMult.Ex₂ (P : K → K → Prop) (z w : BMult K L U A B) : Prop :=
  (∃ i, P (z.zL i) (w.zL i)) ∨ (∃ i, P (z.zU i) (w.zU i)) ∨ (∃ i, P (z.vL i) (w.vL i)) ∨ (∃ i, P (z.vU i) (w.vU i))

end Verif.RestoInit
