import Verif.Model.VecOps
import Mathlib.Tactic.Linarith

/-! # Facts about the vector operations -/

set_option linter.unusedSectionVars false

namespace Verif.VecOps

variable {K : Type} [Field K] [LinearOrder K] [IsStrictOrderedRing K]

theorem foldl_min_le (r : List K) : ∀ a : K, r.foldl min a ≤ a ∧ ∀ x ∈ r, r.foldl min a ≤ x := by
  induction r with
  | nil => intro a; simp
  | cons b r ih =>
    intro a
    have h := ih (min a b)
    simp only [List.foldl_cons]
    refine ⟨le_trans h.1 (min_le_left _ _), fun x hx => ?_⟩
    rcases List.mem_cons.mp hx with rfl | hx
    · exact le_trans h.1 (min_le_right _ _)
    · exact h.2 x hx

theorem foldl_min_mem (r : List K) : ∀ a : K, r.foldl min a ∈ a :: r := by
  induction r with
  | nil => intro a; simp
  | cons b r ih =>
    intro a
    simp only [List.foldl_cons]
    have h := ih (min a b)
    rcases List.mem_cons.mp h with h | h
    · rw [h]
      rcases min_choice a b with hm | hm <;> rw [hm] <;> simp
    · simp [h]

theorem foldl_max_ge (r : List K) : ∀ a : K, a ≤ r.foldl max a ∧ ∀ x ∈ r, x ≤ r.foldl max a := by
  induction r with
  | nil => intro a; simp
  | cons b r ih =>
    intro a
    have h := ih (max a b)
    simp only [List.foldl_cons]
    refine ⟨le_trans (le_max_left _ _) h.1, fun x hx => ?_⟩
    rcases List.mem_cons.mp hx with rfl | hx
    · exact le_trans (le_max_right _ _) h.1
    · exact h.2 x hx

theorem foldl_max_mem (r : List K) : ∀ a : K, r.foldl max a ∈ a :: r := by
  induction r with
  | nil => intro a; simp
  | cons b r ih =>
    intro a
    simp only [List.foldl_cons]
    have h := ih (max a b)
    rcases List.mem_cons.mp h with h | h
    · rw [h]
      rcases max_choice a b with hm | hm <;> rw [hm] <;> simp
    · simp [h]

theorem vmin_le {v : List K} {x : K} (h : x ∈ v) : vmin v ≤ x := by
  cases v with
  | nil => simp at h
  | cons a r =>
    rcases List.mem_cons.mp h with rfl | h
    · exact (foldl_min_le r _).1
    · exact (foldl_min_le r a).2 x h

theorem vmin_mem {v : List K} (h : v ≠ []) : vmin v ∈ v := by
  cases v with
  | nil => exact absurd rfl h
  | cons a r => exact foldl_min_mem r a

theorem le_vmax {v : List K} {x : K} (h : x ∈ v) : x ≤ vmax v := by
  cases v with
  | nil => simp at h
  | cons a r =>
    rcases List.mem_cons.mp h with rfl | h
    · exact (foldl_max_ge r _).1
    · exact (foldl_max_ge r a).2 x h

theorem vmax_mem {v : List K} (h : v ≠ []) : vmax v ∈ v := by
  cases v with
  | nil => exact absurd rfl h
  | cons a r => exact foldl_max_mem r a

theorem foldl_amax_ge (r : List K) : ∀ a : K, a ≤ r.foldl (fun m a => max m |a|) a ∧ ∀ x ∈ r, |x| ≤ r.foldl (fun m a => max m |a|) a := by
  induction r with
  | nil => intro a; simp
  | cons b r ih =>
    intro a
    have h := ih (max a |b|)
    simp only [List.foldl_cons]
    refine ⟨le_trans (le_max_left _ _) h.1, fun x hx => ?_⟩
    rcases List.mem_cons.mp hx with rfl | hx
    · exact le_trans (le_max_right _ _) h.1
    · exact h.2 x hx

theorem abs_le_amax {v : List K} {x : K} (h : x ∈ v) : |x| ≤ amax v := (foldl_amax_ge v 0).2 x h

theorem amax_nonneg (v : List K) : 0 ≤ amax v := (foldl_amax_ge v 0).1

theorem amax_le {v : List K} {c : K} (hc : 0 ≤ c) (h : ∀ x ∈ v, |x| ≤ c) : amax v ≤ c := by
  unfold amax
  have : ∀ (r : List K) (a : K), a ≤ c → (∀ x ∈ r, |x| ≤ c) → r.foldl (fun m a => max m |a|) a ≤ c := by
    intro r
    induction r with
    | nil => intro a ha _; exact ha
    | cons b r ih =>
      intro a ha hb
      exact ih _ (max_le ha (hb b (by simp))) (fun x hx => hb x (by simp [hx]))
  exact this v 0 hc h

theorem amax_attained {v : List K} : amax v = 0 ∨ ∃ x ∈ v, amax v = |x| := by
  unfold amax
  have : ∀ (r : List K) (a : K), r.foldl (fun m a => max m |a|) a = a ∨ ∃ x ∈ r, r.foldl (fun m a => max m |a|) a = |x| := by
    intro r
    induction r with
    | nil => intro a; left; rfl
    | cons b r ih =>
      intro a
      simp only [List.foldl_cons]
      rcases ih (max a |b|) with h | ⟨x, hx, h⟩
      · rw [h]
        rcases max_choice a |b| with hm | hm <;> rw [hm]
        · exact Or.inl rfl
        · exact Or.inr ⟨b, by simp, rfl⟩
      · exact Or.inr ⟨x, by simp [hx], h⟩
  exact this v 0

end Verif.VecOps
