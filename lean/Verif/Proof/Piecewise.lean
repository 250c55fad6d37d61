import Verif.Spec.Piecewise
import Mathlib.Tactic.Linarith
import Mathlib.Tactic.FieldSimp
import Mathlib.Tactic.Ring
import Mathlib.Tactic.LinearCombination

/-! # The list is the lower envelope of the penalty functions of all points -/

set_option linter.unusedSectionVars false
set_option linter.unusedSimpArgs false
set_option linter.unusedVariables false

namespace Verif.Piecewise

variable {K : Type} [Field K] [LinearOrder K] [IsStrictOrderedRing K]

/-- breakpoints increase, slopes decrease, and the function is continuous. -/
def Chain : List (Entry K) → Prop
  | [] => True
  | [_] => True
  | e :: e2 :: rest => e.r < e2.r ∧ e2.v < e.v ∧ e.b + e2.r * e.v = e2.b + e2.r * e2.v ∧ Chain (e2 :: rest)

def cross (b v : K) (e : Entry K) : K := (e.b - b) / (v - e.v)

def phB (b v : K) : List (Entry K) → List (Entry K)
  | [] => []
  | e :: rest => if 0 ≤ nextG b v e rest then (if 0 < nextG b v e rest then [⟨cross b v e, e.b, e.v⟩] else []) ++ rest else phB b v rest

def phA (b v : K) : List (Entry K) → List (Entry K)
  | [] => []
  | e :: rest => if 0 ≤ nextG b v e rest then e :: phA b v rest else (if 0 < G b v e then [e] else []) ++ ⟨cross b v e, b, v⟩ :: phB b v rest

theorem Chain.tail {e : Entry K} {l : List (Entry K)} (h : Chain (e :: l)) : Chain l := by
  cases l with
  | nil => trivial
  | cons a l => exact h.2.2.2

theorem addEntry_ne {l : List (Entry K)} (h : l ≠ []) (r b v : K) : addEntry l r b v = l ++ [⟨r, b, v⟩] := by
  cases l with
  | nil => exact absurd rfl h
  | cons a l => rfl

/-- one round of the loop. -/
theorem loop_cons (b v : K) (e : Entry K) (rest : List (Entry K)) (g1 tmp : K) (acc : List (Entry K)) :
    ∃ tmp', updateLoop b v (e :: rest) g1 tmp acc = updateLoop b v rest (nextG b v e rest) tmp'
      (if g1 < 0 then
        (if 0 ≤ nextG b v e rest then
          (if 0 < nextG b v e rest then addEntry (if acc.isEmpty then addEntry acc tmp b v else acc) (cross b v e) e.b e.v else (if acc.isEmpty then addEntry acc tmp b v else acc))
        else (if rest.isEmpty ∧ acc.isEmpty then addEntry acc 0 b v else acc))
      else
        (if 0 ≤ nextG b v e rest then addEntry acc e.r e.b e.v
        else addEntry (if 0 < g1 then addEntry acc e.r e.b e.v else acc) (cross b v e) b v)) := by
  rw [updateLoop]
  dsimp only
  generalize nextG b v e rest = g2
  by_cases h1 : g1 < 0
  · have h1' : ¬0 ≤ g1 := not_le.2 h1
    by_cases h2 : 0 ≤ g2
    · have h2' : ¬g2 < 0 := not_lt.2 h2
      by_cases h3 : 0 < g2
      · simp only [h1, h2, h3, h1', h2', and_self, and_true, true_and, if_true, if_false, false_and, and_false]
        exact ⟨_, rfl⟩
      · simp only [h1, h2, h3, h1', h2', and_self, and_true, true_and, if_true, if_false, false_and, and_false]
        exact ⟨_, rfl⟩
    · have h2' : g2 < 0 := not_le.1 h2
      simp only [h1, h2, h1', h2', and_self, and_true, true_and, if_true, if_false, false_and, and_false]
      exact ⟨_, rfl⟩
  · have h1' : 0 ≤ g1 := not_lt.1 h1
    by_cases h2 : 0 ≤ g2
    · have h2' : ¬g2 < 0 := not_lt.2 h2
      simp only [h1, h2, h1', h2', and_self, and_true, true_and, if_true, if_false, false_and, and_false]
      exact ⟨_, rfl⟩
    · have h2' : g2 < 0 := not_le.1 h2
      simp only [h1, h2, h1', h2', and_self, and_true, true_and, if_true, if_false, false_and, and_false]
      exact ⟨_, rfl⟩

theorem addEntry_nonempty (l : List (Entry K)) (r b v : K) : addEntry l r b v ≠ [] := by simp [addEntry]

/-- the line minus the envelope is linear on each piece. -/
theorem G_next {b v : K} {e e2 : Entry K} (h : e.b + e2.r * e.v = e2.b + e2.r * e2.v) : G b v e2 = G b v e + (e2.r - e.r) * (v - e.v) := by
  unfold G; linear_combination h

theorem loopC {b v : K} : ∀ (rest : List (Entry K)) (e : Entry K) (tmp : K) (acc : List (Entry K)), acc ≠ [] → Chain (e :: rest) → 0 ≤ G b v e → e.v ≤ v →
    updateLoop b v (e :: rest) (G b v e) tmp acc = acc ++ e :: rest := by
  intro rest
  induction rest with
  | nil =>
    intro e tmp acc ha hc hg hv
    obtain ⟨t', h⟩ := loop_cons b v e [] (G b v e) tmp acc
    rw [h]
    have h2 : 0 ≤ nextG b v e [] := by show 0 ≤ v - e.v; linarith
    rw [if_neg (not_lt.2 hg), if_pos h2, addEntry_ne ha]
    rfl
  | cons e2 rest ih =>
    intro e tmp acc ha hc hg hv
    obtain ⟨t', h⟩ := loop_cons b v e (e2 :: rest) (G b v e) tmp acc
    obtain ⟨c1, c2, c3, c4⟩ := hc
    have h2 : 0 ≤ G b v e2 := by
      rw [G_next c3]
      have := mul_nonneg (sub_nonneg.2 c1.le) (sub_nonneg.2 hv)
      linarith
    have h2' : 0 ≤ nextG b v e (e2 :: rest) := h2
    rw [h, if_neg (not_lt.2 hg), if_pos h2', addEntry_ne ha]
    show updateLoop b v (e2 :: rest) (G b v e2) _ _ = _
    rw [ih e2 t' _ (by simp) c4 h2 (by linarith)]
    simp

theorem loopB {b v : K} : ∀ (rest : List (Entry K)) (e : Entry K) (tmp : K) (acc : List (Entry K)), acc ≠ [] → Chain (e :: rest) → G b v e < 0 →
    updateLoop b v (e :: rest) (G b v e) tmp acc = acc ++ phB b v (e :: rest) := by
  intro rest
  induction rest with
  | nil =>
    intro e tmp acc ha hc hg
    obtain ⟨t', h⟩ := loop_cons b v e [] (G b v e) tmp acc
    have hne : acc.isEmpty = false := by cases acc <;> simp_all
    rw [h, if_pos hg, phB]
    simp only [hne, Bool.false_eq_true, and_false, if_false]
    split
    · split
      · rw [addEntry_ne ha]; simp [updateLoop]
      · simp [updateLoop]
    · simp [updateLoop, phB]
  | cons e2 rest ih =>
    intro e tmp acc ha hc hg
    obtain ⟨t', h⟩ := loop_cons b v e (e2 :: rest) (G b v e) tmp acc
    have hne : acc.isEmpty = false := by cases acc <;> simp_all
    obtain ⟨c1, c2, c3, c4⟩ := hc
    rw [h, if_pos hg, phB]
    simp only [hne, Bool.false_eq_true, and_false, if_false]
    show updateLoop b v (e2 :: rest) (G b v e2) _ _ = _
    change updateLoop b v (e2 :: rest) (G b v e2) t' (if 0 ≤ G b v e2 then if 0 < G b v e2 then _ else _ else _) = acc ++ if 0 ≤ G b v e2 then (if 0 < G b v e2 then _ else _) ++ _ else _
    by_cases h2 : 0 ≤ G b v e2
    · have hv : e.v < v := by
        have := G_next (b := b) (v := v) c3
        by_contra hv
        have := mul_nonneg (sub_nonneg.2 c1.le) (sub_nonneg.2 (not_lt.1 hv))
        nlinarith
      rw [if_pos h2, if_pos h2]
      split
      · rw [addEntry_ne ha, loopC rest e2 _ _ (by simp) c4 h2 (by linarith)]
        simp
      · rw [loopC rest e2 _ _ ha c4 h2 (by linarith)]
        simp
    · rw [if_neg h2, if_neg h2, ih e2 _ acc ha c4 (not_le.1 h2)]

theorem loopB0 {b v : K} : ∀ (rest : List (Entry K)) (e : Entry K) (tmp : K), Chain (e :: rest) → G b v e < 0 →
    updateLoop b v (e :: rest) (G b v e) tmp [] = ⟨0, b, v⟩ :: phB b v (e :: rest) := by
  intro rest
  induction rest with
  | nil =>
    intro e tmp hc hg
    obtain ⟨t', h⟩ := loop_cons b v e [] (G b v e) tmp []
    rw [h, if_pos hg, phB]
    split
    · split
      · simp [updateLoop, addEntry]
      · simp [updateLoop, addEntry]
    · simp [updateLoop, phB, addEntry]
  | cons e2 rest ih =>
    intro e tmp hc hg
    obtain ⟨t', h⟩ := loop_cons b v e (e2 :: rest) (G b v e) tmp []
    obtain ⟨c1, c2, c3, c4⟩ := hc
    rw [h, if_pos hg, phB]
    change updateLoop b v (e2 :: rest) (G b v e2) t' (if 0 ≤ G b v e2 then if 0 < G b v e2 then _ else _ else _) = _ :: if 0 ≤ G b v e2 then (if 0 < G b v e2 then _ else _) ++ _ else _
    by_cases h2 : 0 ≤ G b v e2
    · have hv : e.v < v := by
        have := G_next (b := b) (v := v) c3
        by_contra hv
        have := mul_nonneg (sub_nonneg.2 c1.le) (sub_nonneg.2 (not_lt.1 hv))
        nlinarith
      rw [if_pos h2, if_pos h2]
      split
      · rw [loopC rest e2 _ _ (addEntry_nonempty _ _ _ _) c4 h2 (by linarith)]
        simp [addEntry]
      · rw [loopC rest e2 _ _ (by simp [addEntry]) c4 h2 (by linarith)]
        simp [addEntry]
    · rw [if_neg h2, if_neg h2]
      simp only [List.isEmpty_cons, Bool.false_eq_true, false_and, if_false]
      exact ih e2 _ c4 (not_le.1 h2)

theorem loopA {b v : K} : ∀ (rest : List (Entry K)) (e : Entry K) (tmp : K) (acc : List (Entry K)), (acc ≠ [] ∨ e.r = 0) → Chain (e :: rest) → 0 ≤ G b v e →
    updateLoop b v (e :: rest) (G b v e) tmp acc = acc ++ phA b v (e :: rest) := by
  intro rest
  induction rest with
  | nil =>
    intro e tmp acc ha hc hg
    obtain ⟨t', h⟩ := loop_cons b v e [] (G b v e) tmp acc
    rw [h, if_neg (not_lt.2 hg), phA]
    split
    · rcases ha with ha | ha
      · rw [addEntry_ne ha]; simp [updateLoop, phA]
      · by_cases hn : acc = []
        · subst hn; simp [updateLoop, phA, addEntry]; ext <;> simp [ha]
        · rw [addEntry_ne hn]; simp [updateLoop, phA]
    · split
      · rw [addEntry_ne (addEntry_nonempty _ _ _ _)]
        by_cases hn : acc = []
        · subst hn
          rcases ha with ha | ha
          · exact absurd rfl ha
          · simp [updateLoop, phA, phB, addEntry]; ext <;> simp [ha]
        · rw [addEntry_ne hn]; simp [updateLoop, phA, phB]
      · rename_i h0
        by_cases hn : acc = []
        · subst hn
          rcases ha with ha | ha
          · exact absurd rfl ha
          · have : e.b - b = 0 := by
              have : G b v e = 0 := le_antisymm (not_lt.1 h0) hg
              unfold G at this; rw [ha] at this; linarith
            simp [updateLoop, phA, phB, addEntry, cross, this]
        · rw [addEntry_ne hn]; simp [updateLoop, phA, phB]
  | cons e2 rest ih =>
    intro e tmp acc ha hc hg
    obtain ⟨t', h⟩ := loop_cons b v e (e2 :: rest) (G b v e) tmp acc
    obtain ⟨c1, c2, c3, c4⟩ := hc
    rw [h, if_neg (not_lt.2 hg), phA]
    change updateLoop b v (e2 :: rest) (G b v e2) t' (if 0 ≤ G b v e2 then _ else _) = acc ++ if 0 ≤ G b v e2 then _ else _
    by_cases h2 : 0 ≤ G b v e2
    · rw [if_pos h2, if_pos h2, ih e2 _ _ (.inl (addEntry_nonempty _ _ _ _)) c4 h2]
      by_cases hn : acc = []
      · subst hn
        rcases ha with ha | ha
        · exact absurd rfl ha
        · simp [addEntry]; ext <;> simp [ha]
      · rw [addEntry_ne hn]; simp
    · rw [if_neg h2, if_neg h2]
      split
      · rw [loopB rest e2 _ _ (addEntry_nonempty _ _ _ _) c4 (not_le.1 h2), addEntry_ne (addEntry_nonempty _ _ _ _)]
        by_cases hn : acc = []
        · subst hn
          rcases ha with ha | ha
          · exact absurd rfl ha
          · simp [addEntry]; ext <;> simp [ha]
        · rw [addEntry_ne hn]; simp
      · rename_i h0
        rw [loopB rest e2 _ _ (addEntry_nonempty _ _ _ _) c4 (not_le.1 h2)]
        by_cases hn : acc = []
        · subst hn
          rcases ha with ha | ha
          · exact absurd rfl ha
          · have : e.b - b = 0 := by
              have : G b v e = 0 := le_antisymm (not_lt.1 h0) hg
              unfold G at this; rw [ha] at this; linarith
            simp [addEntry, cross, this]
        · rw [addEntry_ne hn]; simp

end Verif.Piecewise
