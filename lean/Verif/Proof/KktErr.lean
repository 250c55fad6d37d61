import Verif.Spec.KktErr
import Verif.Proof.CurrIter4
import Verif.Proof.Scaling2

/-! # The norms -/

namespace Verif.KktErr
open Verif.Matrix Verif.Scaling Finset
set_option linter.unusedSectionVars false
set_option linter.unusedSimpArgs false
set_option linter.unusedVariables false

variable {K : Type} [Field K] [LinearOrder K] [IsStrictOrderedRing K]

theorem nabs_eq (a : K) : nabs a = |a| := rfl

theorem foldl_add (f : K → K) (L : List K) : ∀ r, L.foldl (fun r a => r + f a) r = r + (L.map f).sum := by
  induction L with
  | nil => intro r; simp
  | cons a L ih => intro r; simp only [List.foldl_cons, List.map_cons, List.sum_cons]; rw [ih]; ring

theorem asum_eq (v : List K) : asum v = (v.map fun a => |a|).sum := by
  unfold asum
  rw [foldl_add nabs v 0, zero_add]; rfl

theorem asum_nonneg (v : List K) : 0 ≤ asum v := by
  rw [asum_eq]
  apply List.sum_nonneg
  intro a ha
  obtain ⟨b, -, rfl⟩ := List.mem_map.1 ha
  exact abs_nonneg b

theorem sumsq_nonneg (v : List K) : 0 ≤ (v.map fun a => a * a).sum := by
  apply List.sum_nonneg
  intro a ha
  obtain ⟨b, -, rfl⟩ := List.mem_map.1 ha
  exact mul_self_nonneg b

theorem nrm2_sq (sqrt : K → K) (hs : ∀ a, 0 ≤ a → 0 ≤ sqrt a ∧ sqrt a * sqrt a = a) (v : List K) :
    nrm2 sqrt v * nrm2 sqrt v = (v.map fun a => a * a).sum := by
  unfold nrm2
  rw [foldl_add (fun a => a * a) v 0, zero_add]
  exact (hs _ (sumsq_nonneg v)).2

/-- maximum of a start value and absolute values. -/
def MaxFrom (r0 : K) (L : List K) (r : K) : Prop := r0 ≤ r ∧ (∀ a ∈ L, |a| ≤ r) ∧ (r = r0 ∨ ∃ a ∈ L, |a| = r)

theorem maxFrom_foldl (L : List K) : ∀ r0, MaxFrom r0 L (L.foldl (fun r a => max r (nabs a)) r0) := by
  induction L with
  | nil => intro r0; exact ⟨le_refl _, by simp, Or.inl rfl⟩
  | cons a L ih =>
    intro r0
    rw [List.foldl_cons]
    obtain ⟨h1, h2, h3⟩ := ih (max r0 (nabs a))
    refine ⟨le_trans (le_max_left _ _) h1, ?_, ?_⟩
    · intro b hb
      rcases List.mem_cons.1 hb with rfl | hb
      · exact le_trans (le_max_right r0 (nabs b)) h1
      · exact h2 b hb
    · rcases h3 with h3 | ⟨b, hb, he⟩
      · rcases max_choice r0 (nabs a) with h | h
        · left; rw [h3, h]
        · right; exact ⟨a, List.mem_cons_self, by rw [h3, h]; rfl⟩
      · right; exact ⟨b, List.mem_cons_of_mem _ hb, he⟩

theorem maxFrom_trans {L L' : List K} {r0 r1 r : K} (h1 : MaxFrom r0 L r1) (h2 : MaxFrom r1 L' r) : MaxFrom r0 (L ++ L') r := by
  obtain ⟨a1, a2, a3⟩ := h1
  obtain ⟨b1, b2, b3⟩ := h2
  refine ⟨le_trans a1 b1, ?_, ?_⟩
  · intro a ha
    rcases List.mem_append.1 ha with h | h
    · exact le_trans (a2 a h) b1
    · exact b2 a h
  · rcases b3 with b3 | ⟨a, ha, he⟩
    · rw [b3]
      rcases a3 with a3 | ⟨a, ha, he⟩
      · left; exact a3
      · right; exact ⟨a, List.mem_append_left _ ha, he⟩
    · right; exact ⟨a, List.mem_append_right _ ha, he⟩

theorem amax_nonneg (v : List K) : 0 ≤ amax v := (maxFrom_foldl v 0).1

theorem maxFrom_amax (r0 : K) (h0 : 0 ≤ r0) (v : List K) : MaxFrom r0 v (max r0 (amax v)) := by
  obtain ⟨h1, h2, h3⟩ : MaxFrom 0 v (amax v) := maxFrom_foldl v 0
  refine ⟨le_max_left _ _, fun a ha => le_trans (h2 a ha) (le_max_right _ _), ?_⟩
  rcases h3 with h3 | ⟨a, ha, he⟩
  · left; rw [h3]; exact max_eq_left h0
  · rcases max_choice r0 (amax v) with h | h
    · left; exact h
    · right; exact ⟨a, ha, by rw [h]; exact he⟩

theorem maxFrom_norm {L : List K} {r : K} (h : MaxFrom 0 L r) : NormOf .max L r := by
  obtain ⟨h1, h2, h3⟩ := h
  refine ⟨h2, ?_⟩
  rcases h3 with h3 | h3
  · cases L with
    | nil => left; exact ⟨rfl, h3⟩
    | cons a L =>
      right
      refine ⟨a, List.mem_cons_self, ?_⟩
      rw [h3]
      have := h2 a List.mem_cons_self
      rw [h3] at this
      exact le_antisymm this (abs_nonneg a)
  · right; exact h3

theorem maxFrom_lists (vs : List (List K)) : ∀ r0, 0 ≤ r0 → MaxFrom r0 vs.flatten (vs.foldl (fun r v => max r (amax v)) r0) := by
  induction vs with
  | nil => intro r0 _; exact ⟨le_refl _, by simp, Or.inl rfl⟩
  | cons v vs ih =>
    intro r0 h0
    rw [List.foldl_cons, List.flatten_cons]
    exact maxFrom_trans (maxFrom_amax r0 h0 v) (ih _ (le_trans h0 (le_max_left _ _)))

theorem foldl_lists (g : List K → K) (f : K → K) (hg : ∀ v, g v = (v.map f).sum) (vs : List (List K)) :
    ∀ r, vs.foldl (fun r v => r + g v) r = r + (vs.flatten.map f).sum := by
  induction vs with
  | nil => intro r; simp
  | cons v vs ih =>
    intro r
    rw [List.foldl_cons, ih, hg, List.flatten_cons, List.map_append, List.sum_append]
    ring

theorem normL_ok (sqrt : K → K) {t : NormType} (hs : SqrtOk t sqrt) (vs : List (List K)) :
    NormOf t vs.flatten (normL sqrt t vs) := by
  cases t with
  | one =>
    show normL sqrt .one vs = _
    unfold normL
    rw [foldl_lists asum (fun a => |a|) asum_eq vs 0, zero_add]
  | two =>
    unfold normL NormOf
    dsimp only
    rw [foldl_lists (fun v => nrm2 sqrt v * nrm2 sqrt v) (fun a => a * a) (nrm2_sq sqrt (hs rfl)) vs 0, zero_add]
    exact hs rfl _ (sumsq_nonneg _)
  | max => exact maxFrom_norm (maxFrom_lists vs 0 (le_refl _))

theorem norm2_ok (sqrt : K → K) {t : NormType} (hs : SqrtOk t sqrt) (a b : List K) :
    NormOf t (a ++ b) (norm2 sqrt t a b) := by
  have h : norm2 sqrt t a b = normL sqrt t [a, b] := by
    cases t with
    | one => simp [norm2, normL]
    | two => simp [norm2, normL]
    | max => simp only [norm2, normL, List.foldl_cons, List.foldl_nil]; rw [max_eq_right (amax_nonneg a)]
  rw [h]
  simpa using normL_ok sqrt hs [a, b]

/-- a norm depends on the absolute values only. -/
theorem NormOf.congr {t : NormType} {L L' : List K} {r : K} (h : NormOf t L r) (he : L.map (fun a => |a|) = L'.map (fun a => |a|)) : NormOf t L' r := by
  cases t with
  | one => show r = _; rw [← he]; exact h
  | two =>
    refine ⟨h.1, ?_⟩
    have e : ∀ M : List K, (M.map fun a => a * a) = (M.map fun a => |a|).map fun a => a * a := by
      intro M; rw [List.map_map]; apply List.map_congr_left; intro a _; exact (abs_mul_abs_self a).symm
    rw [e L', ← he, ← e L]; exact h.2
  | max =>
    obtain ⟨h1, h2⟩ := h
    refine ⟨?_, ?_⟩
    · intro a ha
      have : |a| ∈ L.map fun a => |a| := by rw [he]; exact List.mem_map_of_mem ha
      obtain ⟨b, hb, e⟩ := List.mem_map.1 this
      rw [← e]; exact h1 b hb
    · rcases h2 with ⟨h2, h3⟩ | ⟨a, ha, e⟩
      · left
        rw [h2] at he
        refine ⟨?_, h3⟩
        have := congrArg List.length he
        simp at this
        exact List.length_eq_zero_iff.1 this.symm
      · right
        have : |a| ∈ L'.map fun a => |a| := by rw [← he]; exact List.mem_map_of_mem ha
        obtain ⟨b, hb, e'⟩ := List.mem_map.1 this
        exact ⟨b, hb, by rw [e', e]⟩

theorem NormOf.scale {t : NormType} {L : List K} {r : K} (h : NormOf t L r) (c : K) : NormOf t (L.map fun a => c * a) (|c| * r) := by
  cases t with
  | one =>
    show |c| * r = _
    have h' : r = (L.map fun a => |a|).sum := h
    rw [h', ← List.sum_map_mul_left, List.map_map]
    congr 1
    apply List.map_congr_left; intro a _; exact (abs_mul c a).symm
  | two =>
    refine ⟨mul_nonneg (abs_nonneg c) h.1, ?_⟩
    have e : |c| * r * (|c| * r) = (c * c) * (r * r) := by rw [← abs_mul_abs_self c]; ring
    rw [e, h.2, ← List.sum_map_mul_left, List.map_map]
    congr 1
    apply List.map_congr_left; intro a _
    show c * c * (a * a) = c * a * (c * a)
    ring
  | max =>
    obtain ⟨h1, h2⟩ := h
    refine ⟨?_, ?_⟩
    · intro a ha
      obtain ⟨b, hb, rfl⟩ := List.mem_map.1 ha
      rw [abs_mul]; exact mul_le_mul_of_nonneg_left (h1 b hb) (abs_nonneg c)
    · rcases h2 with ⟨h2, h3⟩ | ⟨a, ha, e⟩
      · left; rw [h2, h3]; simp
      · right; exact ⟨c * a, List.mem_map_of_mem ha, by rw [abs_mul, e]⟩

theorem NormOf.nonneg {t : NormType} {L : List K} {r : K} (h : NormOf t L r) : 0 ≤ r := by
  cases t with
  | one =>
    have h' : r = (L.map fun a => |a|).sum := h
    rw [h', ← asum_eq]; exact asum_nonneg L
  | two => exact h.1
  | max =>
    rcases h.2 with ⟨-, h3⟩ | ⟨a, -, e⟩
    · exact le_of_eq h3.symm
    · rw [← e]; exact abs_nonneg a

/-- a maximum norm is at most `tol ≥ 0` iff all numbers are. -/
theorem NormOf.max_le {L : List K} {r tol : K} (h : NormOf .max L r) (h0 : 0 ≤ tol) : r ≤ tol ↔ ∀ a ∈ L, |a| ≤ tol := by
  constructor
  · intro hr a ha; exact le_trans (h.1 a ha) hr
  · intro hA
    rcases h.2 with ⟨-, h3⟩ | ⟨a, ha, e⟩
    · rw [h3]; exact h0
    · rw [← e]; exact hA a ha

end Verif.KktErr
