import Verif.Proof.Ma27e
import Verif.Proof.AugSolveDemo

/-! # A library for matrices with one row, used to show that hypotheses can be met -/

namespace Verif.Ma27
open Verif.AugSolve (Status Structure Known SolvesAll denote Contract TSym Env End)
open Finset

set_option linter.unusedSectionVars false
set_option linter.unusedSimpArgs false
set_option linter.unusedVariables false

/-- the only element. -/
def elem (S : Structure) (v : Nat → ℚ) : ℚ := denote .triplet S.nnz S.ia S.ja v 0 0

/-- it needs 10 numbers, is slow with less than 30, and `halves` the values below pivot tolerance 1/2 never. -/
def demoLib (ok : Nat → Nat → Bool) : Lib ℚ ℚ Unit ℚ where
  imax := 1000
  analyse d n ia ja liw := ⟨if d = 1 then 0 else -7, 2, 8, ()⟩
  factor d n ia ja w la liw keep t :=
    match w with
    | .raw v =>
      if la < 10 then ⟨-4, 10, 0, 0, 0, 0⟩
      else if liw < 6 then ⟨-3, 6, 0, 0, 0, 0⟩
      else
        let e := elem ⟨d, n, ia, ja⟩ v
        if e = 0 then ⟨if t < 1 / 2 then 3 else -5, 0, 0, 0, 0, 0⟩ else ⟨0, 0, if la < 30 then 12 else 0, 0, if e < 0 then 1 else 0, e⟩
    | .fac _ => ⟨-9, 0, 0, 0, 0, 0⟩
  backsolve d w keep b := fun _ => match w with | .fac f => b 0 / f | .raw _ => 0
  alloc := ok
  junk _ := 77
  raisePow t := 2 * t

/-- number of negative eigenvalues. -/
def demoInertia (S : Structure) (v : Nat → ℚ) : Int := if elem S v < 0 then 1 else 0

theorem demo_lib (ok : Nat → Nat → Bool) : LibOK (demoLib ok) (fun _ S => S.dim = 1) (fun f _ S v => S.dim = 1 ∧ elem S v = f ∧ f ≠ 0) demoInertia where
  analyse S liw h := by
    by_contra hc
    simp [demoLib, hc] at h
  factor S v la liw keep t hk h := by
    simp only [demoLib] at h ⊢
    split at h
    · simp at h
    · split at h
      · simp at h
      · rename_i h1 h2
        split at h
        · simp only at h; split at h <;> simp at h
        · rename_i h3
          rw [if_neg h1, if_neg h2, if_neg h3]
          exact ⟨⟨hk, rfl, h3⟩, rfl⟩
  backsolve f keep S v b h := by
    obtain ⟨h1, h2, h3⟩ := h
    intro i hi r hr
    have hr0 : r = 0 := by omega
    have hi0 : i = 0 := by omega
    subst hr0 hi0
    rw [h1]
    simp only [range_one, sum_singleton, Nat.zero_mul, Nat.zero_add, demoLib]
    have : denote .triplet S.nnz S.ia S.ja v 0 0 = f := h2
    rw [this]
    field_simp

theorem demo_asks (ok : Nat → Nat → Bool) : AsksForMore (demoLib ok) := by
  intro d n ia ja w la liw keep t
  cases w with
  | fac f => simp [demoLib]
  | raw v =>
    simp only [demoLib]
    split
    · rename_i h; exact ⟨fun e => by simp at e, fun _ => by simp only; omega⟩
    · split
      · rename_i h; exact ⟨fun _ => by simp only; omega, fun e => by simp at e⟩
      · split
        · refine ⟨fun e => ?_, fun e => ?_⟩ <;> (simp only at e; split at e <;> simp at e)
        · exact ⟨fun e => by simp at e, fun e => by simp at e⟩

/-- default options. -/
def demoOpts : Opts ℚ := ⟨1 / 1000000, 1 / 10000, 1, 1, 2, false, false⟩

/-- one row, one entry. -/
def demoStruct : Structure := ⟨1, 1, fun _ => 1, fun _ => 1⟩

end Verif.Ma27
