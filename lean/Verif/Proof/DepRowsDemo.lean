import Verif.Proof.DepRowsd
import Verif.Proof.MumpsDemo
import Mathlib.Tactic.FieldSimp

/-! # Small detectors for the examples -/

namespace Verif.DepRows
open Finset
open Verif.AugSolve (Structure denote)

set_option linter.unusedSectionVars false
set_option linter.unusedSimpArgs false
set_option linter.unusedVariables false

variable {K : Type} [Field K] [LinearOrder K]

/-- two rows, the second a multiple of the first. -/
theorem rowBasis_two {n : Nat} {A : Nat → Nat → K} {q : K} (hn : 0 < n) (h0 : A 0 0 ≠ 0) (h1 : ∀ c < n, A 1 c = q * A 0 c) {keep : Nat → Prop}
    (k0 : keep 0) (k1 : ¬keep 1) : RowBasis 2 n A keep := by
  constructor
  · intro b hb hs r hr
    have b1 := hb 1 k1
    have := hs 0 hn
    simp only [Finset.sum_range_succ, Finset.sum_range_zero, b1] at this
    have b0 : b 0 = 0 := by
      have : b 0 * A 0 0 = 0 := by linear_combination this
      exact (mul_eq_zero.1 this).resolve_right h0
    rcases r with _ | _ | r
    · exact b0
    · exact b1
    · omega
  · intro t ht hk
    rcases t with _ | _ | t
    · exact absurd k0 hk
    · refine ⟨fun r => if r = 0 then q else 0, fun r hr => if_neg fun e : r = 0 => hr (e ▸ k0), fun c hc => ?_⟩
      simp only [Finset.sum_range_succ, Finset.sum_range_zero]
      rw [h1 c hc]
      simp
    · omega

/-- two independent rows. -/
theorem rowBasis_full {n : Nat} {A : Nat → Nat → K} (hn : 1 < n) (hd : A 0 0 * A 1 1 - A 0 1 * A 1 0 ≠ 0) {keep : Nat → Prop} (hk : ∀ r < 2, keep r) :
    RowBasis 2 n A keep := by
  constructor
  · intro b hb hs r hr
    have e0 := hs 0 (by omega)
    have e1 := hs 1 hn
    simp only [Finset.sum_range_succ, Finset.sum_range_zero] at e0 e1
    rcases r with _ | _ | r
    · have : b 0 * (A 0 0 * A 1 1 - A 0 1 * A 1 0) = 0 := by linear_combination A 1 1 * e0 - A 1 0 * e1
      exact (mul_eq_zero.1 this).resolve_right hd
    · have : b 1 * (A 0 0 * A 1 1 - A 0 1 * A 1 0) = 0 := by linear_combination A 0 0 * e1 - A 0 1 * e0
      exact (mul_eq_zero.1 this).resolve_right hd
    · omega
  · intro t ht hk'
    exact absurd (hk t ht) hk'

/-- a detector for two rows. -/
def det2 (nRows nCols : Nat) (t : List ((Nat × Nat) × ℚ)) : Option Bool × List Int :=
  let A := tripElem t
  if nRows = 2 ∧ 1 < nCols ∧ A 0 0 * A 1 1 - A 0 1 * A 1 0 ≠ 0 then (some true, [])
  else if nRows = 2 ∧ 0 < nCols ∧ A 0 0 ≠ 0 ∧ ∀ c < nCols, A 1 c = A 1 0 / A 0 0 * A 0 c then (some true, [1])
  else (some false, [])

theorem det2_ok : DetOK det2 := by
  constructor
  · intro m n t _ h
    unfold det2 at h ⊢
    dsimp only at h ⊢
    split_ifs at h ⊢ with h1 h2
    · obtain ⟨rfl, a, b⟩ := h1
      exact ⟨by simp, by simp, rowBasis_full a b (by simp)⟩
    · obtain ⟨rfl, a, b, c⟩ := h2
      exact ⟨by simp, by simp, rowBasis_two a b c (by simp) (by simp)⟩
    · simp at h
  · intro m n t h
    unfold det2 at h ⊢
    dsimp only at h ⊢
    split_ifs at h ⊢ with h1 h2
    · exact absurd rfl h
    · exact absurd rfl h
    · rfl

/-- a library that finds the null pivot of `[[1, a, b], [a, 0, 0], [b, 0, 0]]` and fails in all other cases. -/
def nullLib : Mumps.Lib ℚ ℚ ℚ where
  imax := 2147483647
  analyse _ _ _ _ _ _ m := (0, m)
  factor c n nnz ia ja v m :=
    let A := denote .triplet nnz ia ja v
    ⟨if c.nul = true ∧ n = 3 ∧ A 0 0 = 1 ∧ A 1 0 ≠ 0 ∧ A 0 1 = A 1 0 ∧ A 0 2 = A 2 0 ∧ A 1 1 = 0 ∧ A 1 2 = 0 ∧ A 2 1 = 0 ∧ A 2 2 = 0 then 0 else -10, 0, [3], m⟩
  backsolve _ m b := (-20, b, m)
  junk := fun _ => 7
  raisePow := fun x => x

theorem nullLib_ok : Mumps.LibOK nullLib (fun _ _ => True) (fun _ _ _ => False) (fun _ _ => 0) ∧ NullOK nullLib (fun _ _ => True) := by
  constructor
  · constructor
    · intros; trivial
    · intros; trivial
    · intro c S v m _ hc h
      simp [nullLib, hc] at h
    · intros; exact ⟨fun _ => trivial, fun _ h => h.elim⟩
    · intro S v m b h; exact h.elim
  · intro c S v m _ hc h
    have hcond : c.nul = true ∧ S.dim = 3 ∧ denote .triplet S.nnz S.ia S.ja v 0 0 = 1 ∧ denote .triplet S.nnz S.ia S.ja v 1 0 ≠ 0 ∧
        denote .triplet S.nnz S.ia S.ja v 0 1 = denote .triplet S.nnz S.ia S.ja v 1 0 ∧ denote .triplet S.nnz S.ia S.ja v 0 2 = denote .triplet S.nnz S.ia S.ja v 2 0 ∧
        denote .triplet S.nnz S.ia S.ja v 1 1 = 0 ∧ denote .triplet S.nnz S.ia S.ja v 1 2 = 0 ∧ denote .triplet S.nnz S.ia S.ja v 2 1 = 0 ∧ denote .triplet S.nnz S.ia S.ja v 2 2 = 0 := by
      by_contra h9
      simp only [nullLib] at h
      rw [if_neg h9] at h
      exact absurd h (by decide)
    obtain ⟨-, hd, a00, a10, a01, a02, a11, a12, a21, a22⟩ := hcond
    unfold NullPivots
    rw [hd]
    simp only [nullLib]
    generalize denote .triplet S.nnz S.ia S.ja v = A at *
    refine ⟨by simp, by simp, ?_, ?_⟩
    · intro b hb hs r hr
      have b2 := hb 2 (by simp)
      have e0 := hs 0 (by omega)
      have e1 := hs 1 (by omega)
      simp only [Finset.sum_range_succ, Finset.sum_range_zero, a00, a01, a11, a21, b2] at e0 e1
      have b0 : b 0 = 0 := by
        have : b 0 * A 1 0 = 0 := by linear_combination e1
        exact (mul_eq_zero.1 this).resolve_right a10
      have b1 : b 1 = 0 := by
        have : b 1 * A 1 0 = 0 := by rw [b0] at e0; linear_combination e0
        exact (mul_eq_zero.1 this).resolve_right a10
      rcases r with _ | _ | _ | r
      · exact b0
      · exact b1
      · exact b2
      · omega
    · intro t ht hk
      rcases t with _ | _ | _ | t
      · exact absurd (by simp) hk
      · exact absurd (by simp) hk
      · refine ⟨fun r => if r = 1 then A 2 0 / A 1 0 else 0, fun r hr => ?_, fun c hc => ?_⟩
        · simp only [List.mem_singleton, not_not] at hr
          exact if_neg (by omega)
        · simp only [Finset.sum_range_succ, Finset.sum_range_zero]
          rcases c with _ | _ | _ | c
          · simp; field_simp
          · simp [a21, a11]
          · simp [a22, a12]
          · omega
      · omega

end Verif.DepRows
