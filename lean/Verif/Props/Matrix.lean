import Verif.Proof.Matrix4
import Mathlib.Algebra.Field.Rat

/-! # C28: matrix-vector products of all matrix classes and their compositions -/

namespace Verif.Matrix
open Finset

set_option linter.unusedSectionVars false

variable {K : Type} [Field K] [DecidableEq K]

/-- C28: `MultVector` computes `α A x + β y` for the matrix `A` represented by the object, for every nesting of the matrix classes. -/
theorem mult_is_product {hom : List K → Option K} (hh : HomOK hom) (m : Mat K) (hw : WF m) (α : K) (x : List K) (β : K) (y : List K)
    (hx : x.length = m.dims.2) (hy : y.length = m.dims.1) :
    IsProd (ent m) m.dims.1 m.dims.2 α x β y (m.mult hom α x β y) := (products_ok hh m hw).1 α x β y hx hy

/-- C28: `TransMultVector` computes `α Aᵀ x + β y` for the same `A`. -/
theorem transMult_is_transposed_product {hom : List K → Option K} (hh : HomOK hom) (m : Mat K) (hw : WF m) (α : K) (x : List K) (β : K)
    (y : List K) (hx : x.length = m.dims.1) (hy : y.length = m.dims.2) :
    IsProd (fun i j => ent m j i) m.dims.2 m.dims.1 α x β y (m.transMult hom α x β y) := (products_ok hh m hw).2 α x β y hx hy

/-- C28: the two products are adjoint: `w · (A x) = (Aᵀ w) · x`. -/
theorem products_adjoint {hom : List K → Option K} (hh : HomOK hom) (m : Mat K) (hw : WF m) (x w y1 y2 : List K)
    (hx : x.length = m.dims.2) (hww : w.length = m.dims.1) (hy1 : y1.length = m.dims.1) (hy2 : y2.length = m.dims.2) :
    ∑ i ∈ range m.dims.1, w.getD i 0 * (m.mult hom 1 x 0 y1).getD i 0 =
      ∑ j ∈ range m.dims.2, (m.transMult hom 1 w 0 y2).getD j 0 * x.getD j 0 := by
  have h1 := mult_is_product hh m hw 1 x 0 y1 hx hy1
  have h2 := transMult_is_transposed_product hh m hw 1 w 0 y2 hww hy2
  have e1 : ∀ i ∈ range m.dims.1, w.getD i 0 * (m.mult hom 1 x 0 y1).getD i 0 =
      ∑ j ∈ range m.dims.2, ent m i j * w.getD i 0 * x.getD j 0 := by
    intro i hi
    rw [h1.2 i (by simpa using hi), zero_mul, zero_add, one_mul, Finset.mul_sum]
    exact Finset.sum_congr rfl (fun j _ => by ring)
  have e2 : ∀ j ∈ range m.dims.2, (m.transMult hom 1 w 0 y2).getD j 0 * x.getD j 0 =
      ∑ i ∈ range m.dims.1, ent m i j * w.getD i 0 * x.getD j 0 := by
    intro j hj
    rw [h2.2 j (by simpa using hj), zero_mul, zero_add, one_mul, Finset.sum_mul]
  rw [Finset.sum_congr rfl e1, Finset.sum_congr rfl e2, Finset.sum_comm]

/-- C28: with `β = 0` the old contents of `y` are irrelevant.  Holds for every scalar type with operations (no laws used), so also for
floating point numbers where `0 * NaN` is not 0. -/
theorem beta_zero_ignores_y {N : Type} [Zero N] [One N] [Add N] [Sub N] [Mul N] [Neg N] [Div N] [BEq N]
    (h0 : ((0 : N) == 0) = true) (hom : List N → Option N) (m : Mat N) (α : N) (x : List N) (y y' : List N)
    (h : y.length = y'.length) :
    m.mult hom α x 0 y = m.mult hom α x 0 y' ∧ m.transMult hom α x 0 y = m.transMult hom α x 0 y' :=
  beta_zero_both h0 hom m α x 0 y y' h0 h

/-- C28: objects of the classes derived from `SymMatrix` represent symmetric matrices (this is why their `TransMultVector` may call
`MultVector`). -/
theorem sym_classes_symmetric (m : Mat K) (hw : WF m) (hs : isSym m) :
    m.dims.1 = m.dims.2 ∧ ∀ i j, i < m.dims.1 → j < m.dims.1 → ent m i j = ent m j i :=
  ⟨sym_square m hw hs, ent_symm m hw hs⟩

/-- C28: `AddMSinvZ` computes `X + α M S⁻¹ Z`, provided every identity matrix it reaches has factor 1. -/
theorem addMSinvZ_correct {hom : List K → Option K} (hh : HomOK hom) (m : Mat K) (hw : WF m) (hu : unitIdent m) (α : K) (S Z X : List K)
    (hS : S.length = m.dims.2) (hZ : Z.length = m.dims.2) (hX : X.length = m.dims.1) :
    IsAddMSinvZ (ent m) m.dims.1 m.dims.2 α S Z X (m.addMSinvZ hom α S Z X) := addMSinvZ_ok hh m hw hu α S Z X hS hZ hX

/-- disagreement: `IdentityMatrix::AddMSinvZImpl` (IpIdentityMatrix.cpp:82-95) ignores `factor_`, so `unitIdent` is needed. -/
theorem identity_addMSinvZ_ignores_factor :
    ∃ (m : Mat ℚ) (hom : List ℚ → Option ℚ), WF m ∧ HomOK hom ∧
      ¬ IsAddMSinvZ (ent m) m.dims.1 m.dims.2 1 [1] [1] [0] (m.addMSinvZ hom 1 [1] [1] [0]) := by
  refine ⟨.ident 1 2, fun _ => none, trivial, fun _ _ h => by simp at h, fun h => ?_⟩
  have := h.2 0 (by decide)
  revert this
  decide +kernel

/-- C28: `SinvBlrmZMTdBr` computes `S⁻¹ (R + α Z Mᵀ D)`, provided no compound matrix it reaches is flagged diagonal with more block
columns than block rows. -/
theorem sinvBlrm_correct {hom : List K → Option K} (hh : HomOK hom) (m : Mat K) (hw : WF m) (ht : tallDiag m) (α : K)
    (S R Z D X : List K) (hS : S.length = m.dims.2) (hR : R.length = m.dims.2) (hZ : Z.length = m.dims.2) (hD : D.length = m.dims.1)
    (hX : X.length = m.dims.2) :
    IsSinv (ent m) m.dims.1 m.dims.2 α S R Z D (m.sinvBlrm hom α S R Z D X) := sinvBlrm_ok hh m hw ht α S R Z D X hS hR hZ hD hX

/-- disagreement: with one block row and two block columns of which only the first holds a block, `CompoundMatrixSpace` sets its
diagonal flag, and `SinvBlrmZMTdBr` then uses the nonexistent block (1, 1) (IpCompoundMatrix.cpp:512-580, out of bounds in the code). -/
theorem wide_diagonal_uses_missing_block :
    ∃ m : Mat ℚ, WF m ∧ ¬ tallDiag m ∧ ∃ rd cd space set comp, m = .compound rd cd space set comp ∧ Mat.isDiag rd.length cd.length space = true ∧
      ∃ i, i < cd.length ∧ ¬ i < rd.length := by
  refine ⟨.compound [1] [1, 1] (fun i j => i == 0 && j == 0) (fun i j => i == 0 && j == 0) (fun _ _ => .zero 1 1), ?_, ?_, _, _, _, _, _, rfl, by decide, 1, by decide, by decide⟩
  · refine ⟨fun i j hi hj hs => ?_, fun i hi hj _ => ?_⟩
    · simp at hs
      obtain ⟨rfl, rfl⟩ := hs
      exact ⟨rfl, trivial, rfl⟩
    · simp at hi; subst hi; rfl
  · intro h
    have := h.1 (by decide)
    simp at this

/-! ## Non-vacuity: a nested compound of triplet, expansion, scaled, transposed and symmetric matrices -/

/-- a 2×2 block matrix: [scaled triplet, transpose of expansion; nothing, sum of identity and diagonal]. -/
def exM : Mat ℚ :=
  .compound [2, 1] [3, 1] (fun i j => !(i == 1 && j == 0)) (fun i j => !(i == 1 && j == 0)) (fun i j =>
    if i = 0 then
      if j = 0 then .scaled (some [2, 3]) (.genT 2 3 [⟨1, 1, 5⟩, ⟨2, 3, 7⟩, ⟨1, 1, 1⟩]) none
      else .transpose (.expansion 1 [0, 0])
    else .sumSym 1 2 (fun l => if l = 0 then 4 else 1) (fun l => if l = 0 then .ident 1 3 else .diag [10]))

theorem exM_wf : WF exM := by
  refine ⟨fun i j hi hj hs => ?_, fun i hi hj hd => ?_⟩
  · refine ⟨hs, ?_⟩
    simp only [List.length_cons, List.length_nil] at hi hj
    have h0 : i = 0 ∨ i = 1 := by omega
    have h1 : j = 0 ∨ j = 1 := by omega
    rcases h0 with rfl | rfl <;> rcases h1 with rfl | rfl
    · refine ⟨⟨?_, rfl, trivial⟩, rfl⟩
      intro t ht
      simp at ht
      rcases ht with rfl | rfl | rfl <;> exact ⟨by decide, by decide, by decide, by decide⟩
    · refine ⟨?_, rfl⟩
      intro p hp
      simp at hp
      omega
    · simp at hs
    · refine ⟨?_, rfl⟩
      intro l hl
      have h2 : l = 0 ∨ l = 1 := by omega
      rcases h2 with rfl | rfl
      · exact ⟨trivial, rfl, trivial⟩
      · exact ⟨trivial, rfl, trivial⟩
  · exact absurd hd (by decide)

/-- the products of the example: A = [[12,0,0,1],[0,0,21,1],[0,0,0,22]]. -/
example : exM.dims = (3, 4) ∧ exM.mult (fun _ => none) 2 [1, 2, 3, 4] 10 [1, 1, 1] = [42, 144, 186] ∧
    exM.transMult (fun _ => none) 1 [1, 1, 1] 0 [9, 9, 9, 9] = [12, 0, 21, 24] := by decide +kernel

/-- the adjointness hypotheses are met by it. -/
example : ∑ i ∈ range 3, ([1, 1, 1] : List ℚ).getD i 0 * (exM.mult (fun _ => none) 1 [1, 2, 3, 4] 0 [0, 0, 0]).getD i 0 =
    ∑ j ∈ range 4, (exM.transMult (fun _ => none) 1 [1, 1, 1] 0 [9, 9, 9, 9]).getD j 0 * ([1, 2, 3, 4] : List ℚ).getD j 0 :=
  products_adjoint (fun _ _ h => by simp at h) exM exM_wf [1, 2, 3, 4] [1, 1, 1] [0, 0, 0] [9, 9, 9, 9] rfl rfl rfl rfl

/-- the homogeneous branches are reachable: a correct `hom` that recognises constant vectors. -/
example : HomOK (fun l : List ℚ => if l = List.replicate l.length 5 ∧ l ≠ [] then some 5 else none) := by
  intro l s h
  by_cases hc : l = List.replicate l.length 5 ∧ l ≠ []
  · simp only [if_pos hc, Option.some.injEq] at h
    rw [← h]; exact hc.1
  · simp [if_neg hc] at h

/-- `AddMSinvZ` and `SinvBlrmZMTdBr` on an expansion matrix inside a compound (the shape used for the bounds of the restoration
problem). -/
def exP : Mat ℚ := .compound [3, 2] [2, 2] (fun i j => i == j) (fun i j => i == j) (fun i _ => if i = 0 then .expansion 3 [2, 0] else .ident 2 1)

example : WF exP ∧ unitIdent exP ∧ tallDiag exP ∧
    exP.addMSinvZ (fun _ => none) 3 [1, 2, 4, 5] [10, 20, 4, 10] [0, 0, 0, 1, 1] = [30, 0, 30, 4, 7] ∧
    exP.sinvBlrm (fun _ => none) (-1) [1, 2, 4, 5] [1, 1, 1, 1] [2, 2, 2, 2] [1, 2, 3, 4, 5] [0, 0, 0, 0] = [-5, -1/2, -7/4, -9/5] := by
  refine ⟨⟨fun i j hi hj hs => ?_, fun i hi hj _ => by simp⟩, fun i j hi hj hs => ?_, ⟨fun _ => by decide, fun i j hi hj hs => ?_⟩,
    by decide +kernel, by decide +kernel⟩
  all_goals
    simp only [List.length_cons, List.length_nil] at hi hj
    simp only [beq_iff_eq] at hs
    subst hs
    have h0 : i = 0 ∨ i = 1 := by omega
  · rcases h0 with rfl | rfl
    · exact ⟨rfl, fun p hp => by simp at hp; omega, rfl⟩
    · exact ⟨rfl, trivial, rfl⟩
  · rcases h0 with rfl | rfl
    · trivial
    · exact rfl
  · rcases h0 with rfl | rfl <;> trivial

end Verif.Matrix
