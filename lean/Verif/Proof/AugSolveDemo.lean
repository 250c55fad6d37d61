import Verif.Proof.AugSolve6
import Mathlib.Algebra.Field.Rat
import Mathlib.Data.List.Sort

/-! # A sparse solver that satisfies the contract

It answers from a list of candidate solutions, after having checked the candidate; it asks for the values again after a change of
quality; it keeps its factorization when it is initialised again.  Used to show that the hypotheses of the theorems can be met. -/

namespace Verif.AugSolve
open Verif.Matrix Finset
open Verif.Triplet
open Verif.CSR (Entry entries SortedEntries)

set_option linter.unusedSectionVars false
set_option linter.unusedSimpArgs false
set_option linter.unusedVariables false

/-- order of the entries. -/
def entryLE (a b : Entry) : Prop := ¬ Entry.lt b a

instance : DecidableRel entryLE := fun a b => by unfold entryLE Entry.lt; infer_instance

instance : Std.Total entryLE := ⟨fun a b => by unfold entryLE Entry.lt; omega⟩
instance : IsTrans Entry entryLE := ⟨fun a b c => by unfold entryLE Entry.lt; omega⟩

/-- a sorting routine. -/
def demoSort (t : List (Nat × Nat)) : List Entry := (entries t).insertionSort entryLE

theorem demoSort_ok (t : List (Nat × Nat)) : SortedEntries t (demoSort t) :=
  ⟨List.perm_insertionSort _ _, List.pairwise_insertionSort entryLE _⟩

/-- is `y` a solution? -/
def demoCheck (fmt : Fmt) (S : Structure) (v : Nat → ℚ) (nrhs : Nat) (y b : Nat → ℚ) : Bool :=
  (List.range nrhs).all fun i => (List.range S.dim).all fun r =>
    decide (∑ c ∈ range S.dim, denote fmt S.nnz S.ia S.ja v r c * y (i * S.dim + c) = b (i * S.dim + r))

theorem demoCheck_ok (fmt : Fmt) (S : Structure) (v : Nat → ℚ) (nrhs : Nat) (y b : Nat → ℚ) (h : demoCheck fmt S v nrhs y b = true) :
    SolvesAll fmt S v nrhs y b := by
  intro i hi r hr
  unfold demoCheck at h
  simp only [List.all_eq_true, List.mem_range, decide_eq_true_eq] at h
  exact h i hi r hr

/-- the solver. -/
def demoSolve (fmt : Fmt) (ans : List (Nat → ℚ)) (nrhs : Nat) (arr : Nat → ℚ) (b : Known ℚ) : Status × (Nat → ℚ) × Known ℚ :=
  match b.struct, b.array.or b.held with
  | some S, some v =>
    if b.raised ∧ b.array.isNone then (.callAgain, arr, b.afterSolve none false)
    else
      match ans.find? (fun y => demoCheck fmt S v nrhs y arr) with
      | some y => (.success, y, b.afterSolve (some v) false)
      | none => (.singular, arr, b.afterSolve none false)
  | _, none => if b.raised then (.callAgain, arr, b.afterSolve none false) else (.fatal, arr, b.afterSolve none false)
  | none, _ => (.fatal, arr, b.afterSolve none false)

/-- the environment: all scaling factors are 2. -/
def demoEnv (fmt : Fmt) (ans : List (Nat → ℚ)) : Env ℚ (Known ℚ) where
  fmt := fmt
  hasScaling := true
  initBackend _ b := (true, { b with array := none, raised := false })
  initScaling b := (true, b)
  initStructure d n ia ja b := (.success, { b with struct := some ⟨d, n, ia, ja⟩, array := none, raised := false })
  array _ _ := 0
  store v b := { b with array := some v }
  solve _ _ _ nrhs arr _ _ b := demoSolve fmt ans nrhs arr b
  quality b := (true, { b with raised := true })
  scale _ _ _ _ _ b := (some fun _ => 2, b)
  sort := demoSort
  junkIdx := ⟨fun _ => 0, fun _ => 0⟩
  junkVal _ := 0
  junkIA _ := 0
  junkJA _ := 0
  junkFirst _ := 0

/-- what the caller may rely on. -/
def demoRep (b k : Known ℚ) : Prop :=
  (∀ S, k.struct = some S → b.struct = some S) ∧ b.array = k.array ∧ (∀ v, k.held = some v → b.held = some v) ∧ b.raised = k.raised

theorem demo_contract (fmt : Fmt) (ans : List (Nat → ℚ)) : Contract (demoEnv fmt ans) demoRep where
  init w b k h := ⟨fun S e => by simp [Known.afterInit] at e, rfl, fun v e => by simp [Known.afterInit] at e, rfl⟩
  initScaling b k h := h
  struct b k d n ia ja h e := ⟨Or.inl rfl, fun S e => e, rfl, fun v e => by simp [Known.afterStruct] at e, rfl⟩
  store b k v h := ⟨h.1, rfl, h.2.2.1, h.2.2.2⟩
  quality b k h := ⟨h.1, h.2.1, h.2.2.1, by simp [demoEnv]⟩
  scale b k d n ir jc a h := ⟨h, fun f e i hi => by simp only [demoEnv, Option.some.injEq] at e; rw [← e]; norm_num⟩
  solveOK b k S new nrhs arr chk neg h hall hsome hsucc := by
    obtain ⟨h1, h2, h3, h4⟩ := h
    have hbS := h1 S hall.1
    simp only [demoEnv, demoSolve, hbS] at hsucc ⊢
    split at hsucc
    · rename_i S' v e1 e2
      cases e1
      split at hsucc
      · simp at hsucc
      · rename_i hc
        split at hsucc
        · rename_i y hy
          have hv : k.array.or k.held = some v := by
            rw [h2] at e2
            cases ha : k.array with
            | some w => rw [ha] at e2; simpa using e2
            | none =>
              rw [ha] at e2
              simp only [Option.or] at e2
              rcases hsome with hs | hs | hs
              · rw [ha] at hs; simp at hs
              · cases hh : k.held with
                | none => rw [hh] at hs; simp at hs
                | some w => rw [h3 w hh] at e2; simpa using e2
              · exfalso; apply hc; rw [h4, h2, ha]; exact ⟨hs, rfl⟩
          have hcheck := List.find?_some hy
          refine ⟨v, hv, ?_, ?_⟩
          · simp only [e2, if_neg hc, hy]; exact demoCheck_ok _ _ _ _ _ _ hcheck
          · simp only [e2, if_neg hc, hy]; exact ⟨h1, rfl, fun v e => e, rfl⟩
        · simp at hsucc
    · split at hsucc <;> simp at hsucc
    · simp at hsucc
  solveAgain b k S new nrhs arr chk neg h hall hag := by
    obtain ⟨h1, h2, h3, h4⟩ := h
    have hbS := h1 S hall.1
    simp only [demoEnv, demoSolve, hbS] at hag ⊢
    split at hag
    · rename_i S' v e1 e2
      cases e1
      split at hag
      · rename_i hc
        simp only [e2, if_pos hc]
        exact ⟨trivial, h1, rfl, fun v e => by simp [Known.afterSolve] at e, rfl⟩
      · split at hag <;> simp at hag
    · rename_i e2
      split at hag
      · rename_i hc
        simp only [e2, if_pos hc]
        exact ⟨trivial, h1, rfl, fun v e => by simp [Known.afterSolve] at e, rfl⟩
      · simp at hag
    · simp at hag
  solveFail b k S new nrhs arr chk neg h hall h5 h6 := by
    obtain ⟨h1, h2, h3, h4⟩ := h
    have hbS := h1 S hall.1
    simp only [demoEnv, demoSolve, hbS] at h5 h6 ⊢
    split at h5
    · rename_i S' v e1 e2
      cases e1
      split at h5
      · rename_i hc
        simp [e2, hc] at h6
      · rename_i hc
        split at h5
        · simp at h5
        · rename_i hy
          simp only [e2, if_neg hc, hy]
          exact ⟨h1, rfl, fun v e => by simp [Known.afterSolve] at e, rfl⟩
    · rename_i e2
      split at h5
      · rename_i hc
        simp [e2, hc] at h6
      · rename_i hc
        simp only [e2, if_neg hc]
        exact ⟨h1, rfl, fun v e => by simp [Known.afterSolve] at e, rfl⟩
    · rename_i e1 _; simp at e1
  sort := demoSort_ok

end Verif.AugSolve
