import Verif.Proof.Filter

/-!
# C13 — the filter rejects exactly the dominated points

Specification (independent of the pruned list): `entriesSinceClear ops` is simply the list of all points passed to
`AddEntry` after the last `Clear`.  A point is to be accepted iff for *every* such point it is at least as good
in *some* coordinate.
-/

namespace Verif.Filter

/-- An `AddEntry` call records its point, a `Clear` forgets everything. -/
def recordOp {α : Type} (acc : List (List α)) : Op α → List (List α)
  | .add v _ => acc ++ [v]
  | .clear => []

/-- All points added since the last clear, oldest first. -/
def entriesSinceClear {α : Type} (ops : List (Op α)) : List (List α) :=
  ops.foldl recordOp []

/-- `x` is at least as good as `v` in some coordinate. -/
def BetterSomewhere {α : Type} [LE α] (x v : List α) : Prop :=
  ∃ (i : Nat) (h1 : i < x.length) (h2 : i < v.length), x[i] ≤ v[i]

/-- Every point added in the history has `dim` coordinates none of which is NaN. -/
def WellFormed (dim : Nat) (ops : List (Op Num)) : Prop :=
  ∀ v i, Op.add v i ∈ ops → v.length = dim ∧ ∀ a ∈ v, a ≠ Num.nan

private theorem addedSinceClear_eq {α : Type} (ops : List (Op α)) (acc : List (List α)) :
    addedSinceClear ops acc = ops.foldl recordOp acc := by
  induction ops generalizing acc with
  | nil => rfl
  | cons o os ih => cases o <;> simp [addedSinceClear, recordOp, ih]

/-- **C13.** For every history of `AddEntry`/`Clear` with NaN-free points of the filter's dimension, the filter is in a
defined state, and `Acceptable(x)` is defined for every point `x` of that dimension (possibly containing NaN or infinities)
and returns true exactly if `x` is at least as good in some coordinate as each point added since the last clear. -/
theorem filter_acceptable_iff (dim : Nat) (ops : List (Op Num)) (hw : WellFormed dim ops)
    (x : List Num) (hx : x.length = dim) :
    ∃ s b, run [] ops = some s ∧ acceptable s x = some b ∧
      (b = true ↔ ∀ v ∈ entriesSinceClear ops, BetterSomewhere x v) := by
  obtain ⟨s, hs, hI⟩ := Inv.run (good := Num.Ordered) (dim := dim) (fun _ _ _ => Num.le_trans')
    (fun _ _ => Num.le_of_not_gt') (fun _ => Num.le_refl') ops [] [] (Inv.nil _ _) hw
  obtain ⟨b, hb, hiff⟩ := hI.accept (fun _ _ _ => Num.le_trans') x hx
  refine ⟨s, b, hs, hb, ?_⟩
  rw [hiff, addedSinceClear_eq]
  rfl

/-- **C13 (pruning).** The entries kept are points that were added, and no kept entry is dominated by a kept entry
that was added later: an earlier entry is strictly better in some coordinate. -/
theorem filter_no_dominated_entry (dim : Nat) (ops : List (Op Num)) (hw : WellFormed dim ops) :
    ∃ s, run [] ops = some s ∧ (∀ e ∈ s, e.vals ∈ entriesSinceClear ops) ∧
      s.Pairwise (fun e e' => ∃ (i : Nat) (h1 : i < e.vals.length) (h2 : i < e'.vals.length),
        e.vals[i] < e'.vals[i]) := by
  obtain ⟨s, hs, hI⟩ := Inv.run (good := Num.Ordered) (dim := dim) (fun _ _ _ => Num.le_trans')
    (fun _ _ => Num.le_of_not_gt') (fun _ => Num.le_refl') ops [] [] (Inv.nil _ _) hw
  refine ⟨s, hs, ?_, hI.anti⟩
  intro e he
  have := hI.sub e he
  rwa [addedSinceClear_eq] at this

/-- Consequence: a point rejected once stays rejected until the next clear, whatever is added in between. -/
theorem filter_rejection_persists (dim : Nat) (ops more : List (Op Num)) (hw : WellFormed dim (ops ++ more))
    (hmore : ∀ o ∈ more, o ≠ Op.clear) (x : List Num) (hx : x.length = dim) (s s' : State Num)
    (hs : run [] ops = some s) (hs' : run [] (ops ++ more) = some s')
    (hrej : acceptable s x = some false) : acceptable s' x = some false := by
  obtain ⟨s1, b1, h1, h1a, h1i⟩ := filter_acceptable_iff dim ops
    (fun v i hm => hw v i (by simp [hm])) x hx
  obtain ⟨s2, b2, h2, h2a, h2i⟩ := filter_acceptable_iff dim (ops ++ more) hw x hx
  rw [hs] at h1; cases h1
  rw [hs'] at h2; cases h2
  rw [hrej] at h1a; cases h1a
  rw [h2a]
  cases b2 with
  | false => rfl
  | true =>
    exfalso
    have hall := h2i.1 rfl
    have : false = true := h1i.2 (by
      intro v hv
      apply hall
      have hsub : ∀ (m : List (Op Num)) (acc : List (List Num)), (∀ o ∈ m, o ≠ Op.clear) → v ∈ acc →
          v ∈ m.foldl recordOp acc := by
        intro m
        induction m with
        | nil => intro acc _ h; exact h
        | cons o m ih =>
          intro acc ho h
          cases o with
          | add w i => exact ih _ (fun o' ho' => ho o' (by simp [ho'])) (by simp [recordOp, h])
          | clear => exact absurd rfl (ho Op.clear (by simp))
      unfold entriesSinceClear
      rw [List.foldl_append]
      exact hsub more _ hmore hv)
    simp at this

/-- The NaN restriction is needed: with a NaN coordinate in an entry, the code prunes that entry although it is not
dominated, and a point that the unpruned filter rejects becomes acceptable. -/
theorem filter_nan_entry_lost :
    ∃ (ops : List (Op Num)) (x : List Num) (s : State Num),
      run [] ops = some s ∧ acceptable s x = some true ∧ ¬ ∀ v ∈ entriesSinceClear ops, BetterSomewhere x v := by
  refine ⟨[.add [.nan, .fin 0] 0, .add [.fin 0, .fin 0] 1], [.fin 0, .fin 5], [⟨[.fin 0, .fin 0], 1⟩], ?_, ?_, ?_⟩
  · decide
  · decide
  · intro h
    obtain ⟨i, h1, h2, h3⟩ := h [.nan, .fin 0] (by simp [entriesSinceClear, recordOp])
    match i, h1, h2, h3 with
    | 0, _, _, h3 => exact absurd h3 (by simp [Num.le_def, Num.leB])
    | 1, _, _, h3 => exact absurd h3 (by simp [Num.le_def, Num.leB])

/-- Undefined behaviour is reachable only by violating the dimension contract (it is asserted in debug builds only). -/
theorem filter_dimension_contract_needed :
    acceptable ([⟨[.fin 1, .fin 1], 0⟩] : State Num) [.fin 2] = none := by decide

example : WellFormed 2 [.add [.fin 1, .fin 3] 0, .add [.fin 2, .fin 1] 1, .clear, .add [.fin 5, .fin 5] 2,
    .add [.fin 4, .fin 6] 3, .add [.fin 4, .pinf] 4] := by
  intro v i h; simp at h; rcases h with h | h | h | h | h <;> simp [h.1]

/-- non-vacuity: a concrete history with one accepted and one rejected query. -/
example : ∃ s, run [] [Op.add [.fin 1, .fin 3] 0, .add [.fin 2, .fin 1] 1, .add [.fin 1, .fin 2] 2] = some s ∧
    s.length = 2 ∧ acceptable s [.fin 0, .fin 9] = some true ∧ acceptable s [Num.fin 3, .fin 2] = some false := by
  exact ⟨_, rfl, by decide, by decide, by decide⟩

end Verif.Filter
