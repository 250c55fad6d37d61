import Verif.Proof.Mumpse
import Verif.Proof.Ma27Demo

/-! # A library for matrices with one row, used to show that hypotheses can be met -/

namespace Verif.Mumps
open Verif.AugSolve (Status Structure Known SolvesAll denote Contract TSym Env End)
open Verif.Ma27 (elem demoInertia)
open Finset

set_option linter.unusedSectionVars false
set_option linter.unusedSimpArgs false
set_option linter.unusedVariables false

/-- it needs the memory setting `need`; a zero element is reported as singular matrix, or, if asked for, in the list of null pivots; the
right-hand side 13 cannot be solved for. -/
def demoLib (need : Nat) : Lib ℚ ℚ ℚ where
  imax := 1000
  analyse c d n ia ja a m := (if d = 1 then 0 else -6, 0)
  factor c d n ia ja v m :=
    if c.mem < need then ⟨-9, 0, [], 0⟩
    else
      let e := elem ⟨d, n, ia, ja⟩ v
      if e = 0 then (if c.nul then ⟨0, 0, [1], 0⟩ else ⟨-10, 0, [], 0⟩) else ⟨0, if e < 0 then 1 else 0, [], e⟩
  backsolve d m b := (if b 0 = 13 then -20 else 0, fun _ => b 0 / m, m)
  junk _ := 77
  raisePow t := 2 * t

theorem demo_lib (need : Nat) : LibOK (demoLib need) (fun _ S => S.dim = 1) (fun f S v => S.dim = 1 ∧ elem S v = f ∧ f ≠ 0) demoInertia where
  analyse c S a m h := by
    by_contra hc
    simp [demoLib, hc] at h
  keep c S a m h := h
  factor c S v m hk hn h := by
    simp only [demoLib] at h ⊢
    split at h
    · simp at h
    · rename_i h1
      split at h
      · simp [hn] at h
      · rename_i h2
        rw [if_neg h1, if_neg h2]
        exact ⟨⟨hk, rfl, h2⟩, rfl⟩
  solveKeep S m b := ⟨fun h => h, fun v h => h⟩
  backsolve S v f b h _ := by
    obtain ⟨h1, h2, h3⟩ := h
    intro i hi r hr
    have hr0 : r = 0 := by omega
    have hi0 : i = 0 := by omega
    subst hr0 hi0
    rw [h1]
    simp only [range_one, sum_singleton, Nat.zero_mul, Nat.zero_add, demoLib]
    have : denote .triplet S.nnz S.ia S.ja v 0 0 = f := h2
    rw [this]
    field_simp

/-- default options. -/
def demoOpts : Opts ℚ := ⟨1 / 1000000, 1 / 10, 30, 7, 7, 77, 0⟩

/-- control parameters before the first call. -/
def demoCtl : Ctl ℚ := ⟨7, 7, 77, 20, 1 / 100, false, 0⟩

end Verif.Mumps
