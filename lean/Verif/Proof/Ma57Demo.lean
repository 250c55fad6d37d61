import Verif.Proof.Ma57c
import Verif.Proof.Ma27Demo

/-! # Libraries for matrices with one row, used to show that hypotheses can be met and cannot be dropped -/

namespace Verif.Ma57
open Verif.AugSolve (Status Structure Known SolvesAll denote)
open Finset

set_option linter.unusedSectionVars false
set_option linter.unusedSimpArgs false
set_option linter.unusedVariables false

/-- the positions, remembered by the analysis. -/
abbrev DKeep := (Nat → Nat) × (Nat → Nat)

/-- it needs 10 numbers and 6 integers. -/
def demoLib (ok : Nat → Nat → Bool) : Lib ℚ ℚ DKeep ℚ where
  imax := 1000
  analyse d n ia ja := ⟨if d = 1 then 0 else -1, 2, 4, (ia, ja)⟩
  factor d n v mem lf li keep t :=
    if d ≠ 1 then ⟨-1, 0, 0, 0, mem⟩
    else if lf < 10 then ⟨-3, 10, 0, 0, mem⟩
    else if li < 6 then ⟨-4, 0, 6, 0, mem⟩
    else
      let e := denote .triplet n keep.1 keep.2 v 0 0
      if e = 0 then ⟨4, 0, 0, 0, mem⟩ else ⟨0, 0, 0, if e < 0 then 1 else 0, e⟩
  extend _ _ m _ := m
  backsolve d mem lf li nrhs b := (0, fun i => b i / mem)
  alloc := ok
  junk _ := 77
  junkMem := 55
  raisePow t := 2 * t

/-- a matrix with one row is factorized. -/
def demoFac (mem : ℚ) (S : Structure) (v : Nat → ℚ) : Prop := S.dim = 1 ∧ Ma27.elem S v = mem ∧ mem ≠ 0

theorem solves_one {S : Structure} {v : Nat → ℚ} {mem : ℚ} (h : demoFac mem S v) (nrhs : Nat) (b : Nat → ℚ) :
    SolvesAll .triplet S v nrhs (fun i => b i / mem) b := by
  obtain ⟨h1, h2, h3⟩ := h
  intro i hi r hr
  have hr0 : r = 0 := by omega
  subst hr0
  rw [h1]
  simp only [range_one, sum_singleton, Nat.mul_one, Nat.add_zero]
  have : denote .triplet S.nnz S.ia S.ja v 0 0 = mem := h2
  rw [this]
  field_simp

theorem demo_lib (ok : Nat → Nat → Bool) : LibOK (demoLib ok) (fun k S => S.dim = 1 ∧ k = (S.ia, S.ja)) demoFac Ma27.demoInertia where
  analyse S h := by
    refine ⟨?_, rfl⟩
    by_contra hc
    simp [demoLib, hc] at h
  factor S v mem lf li keep t hk h := by
    obtain ⟨k1, k2⟩ := hk
    subst k2
    simp only [demoLib, k1, ne_eq, not_true_eq_false, if_false] at h ⊢
    split at h
    · simp at h
    · split at h
      · simp at h
      · rename_i h1 h2
        split at h
        · simp at h
        · rename_i h3
          rw [if_neg h1, if_neg h2, if_neg h3]
          exact ⟨⟨k1, rfl, h3⟩, rfl⟩
  backsolve S v mem lf li nrhs b h _ := solves_one h nrhs b

theorem demo_noticed (ok : Nat → Nat → Bool) : Noticed (demoLib ok) demoFac where
  analyse S v mem lf li t h := by
    have : S.dim ≠ 1 := by
      intro hc
      simp [demoLib, hc] at h
    simp [demoLib, this]
  backsolve S v mem lf li nrhs b h := rfl

theorem demo_asks (ok : Nat → Nat → Bool) : AsksForMore (demoLib ok) := by
  intro d n v mem lf li keep t
  simp only [demoLib]
  split
  · exact ⟨fun e => by simp at e, fun e => by simp at e⟩
  · split
    · rename_i h; exact ⟨fun _ => h, fun e => by simp at e⟩
    · split
      · rename_i h; exact ⟨fun e => by simp at e, fun _ => h⟩
      · split
        · exact ⟨fun e => by simp at e, fun e => by simp at e⟩
        · exact ⟨fun e => by simp at e, fun e => by simp at e⟩

/-- its analysis always fails, but the factorization does not notice. -/
def badA : Lib ℚ ℚ DKeep ℚ :=
  { demoLib fun _ _ => true with
    analyse := fun _ _ _ _ => ⟨-1, 2, 4, (fun _ => 0, fun _ => 0)⟩
    factor := fun _ _ _ _ _ _ _ _ => ⟨0, 0, 0, 0, 1⟩ }

theorem badA_lib : LibOK badA (fun _ _ => False) demoFac Ma27.demoInertia where
  analyse S h := by simp [badA] at h
  factor S v mem lf li keep t hk := hk.elim
  backsolve S v mem lf li nrhs b h _ := solves_one h nrhs b

/-- its solution phase always fails. -/
def badC : Lib ℚ ℚ DKeep ℚ := { demoLib fun _ _ => true with backsolve := fun _ _ _ _ _ b => (-1, b) }

theorem badC_lib : LibOK badC (fun k S => S.dim = 1 ∧ k = (S.ia, S.ja)) demoFac Ma27.demoInertia where
  analyse := (demo_lib fun _ _ => true).analyse
  factor := (demo_lib fun _ _ => true).factor
  backsolve S v mem lf li nrhs b h e := by simp [badC] at e

/-- the options; the safety factor is 2. -/
def demoOpts : Opts ℚ := ⟨1 / 1000000, 1 / 10000, 2⟩

end Verif.Ma57
