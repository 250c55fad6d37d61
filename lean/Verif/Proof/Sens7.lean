import Verif.Proof.Sens6
import Mathlib.Algebra.BigOperators.Group.Finset.Sigma
import Mathlib.Algebra.BigOperators.Ring.Finset

/-! # Proofs for sIPOPT: the reduced Hessian -/

namespace Verif.Sens
open Finset
set_option linter.unusedSectionVars false
set_option linter.unusedSimpArgs false
set_option linter.unusedVariables false

/-! ### the suffix -/

theorem fillSort_ok (index : List Nat) (n : Nat) : ∀ i (s : Nat → Option Nat),
    (∀ j, i ≤ j → j < i + n → 0 < index.getD j 0 → s (index.getD j 0 - 1) = none) →
    (∀ j l, i ≤ j → j < i + n → i ≤ l → l < i + n → 0 < index.getD j 0 → index.getD j 0 = index.getD l 0 → j = l) →
    ∃ s', fillSort index n i s = .ok s' ∧ (∀ j, i ≤ j → j < i + n → 0 < index.getD j 0 → s' (index.getD j 0 - 1) = some j) ∧
      ∀ k, (∀ j, i ≤ j → j < i + n → index.getD j 0 ≠ k + 1) → s' k = s k := by
  induction n with
  | zero => intro i s _ _; exact ⟨s, rfl, by intro j h1 h2; omega, fun _ _ => rfl⟩
  | succ n ih =>
    intro i s h1 h2
    unfold fillSort
    dsimp only
    by_cases h0 : 0 < index.getD i 0
    · rw [if_pos h0, h1 i (le_refl _) (by omega) h0]
      dsimp only
      obtain ⟨s', e, e1, e2⟩ := ih (i + 1) (fun j => if j = index.getD i 0 - 1 then some i else s j) (by
        intro j j1 j2 j3
        rw [if_neg, h1 j (by omega) (by omega) j3]
        intro ee
        have := h2 i j (le_refl _) (by omega) (by omega) (by omega) h0 (by omega)
        omega) (fun j l a b c d => h2 j l (by omega) (by omega) (by omega) (by omega))
      refine ⟨s', e, ?_, ?_⟩
      · intro j j1 j2 j3
        by_cases ej : j = i
        · subst ej
          rw [e2 (index.getD j 0 - 1), if_pos rfl]
          intro l l1 l2 l3
          have := h2 j l (le_refl _) (by omega) (by omega) (by omega) h0 (by omega)
          omega
        · exact e1 j (by omega) (by omega) j3
      · intro k hk
        rw [e2 k (fun j a b => hk j (by omega) (by omega)), if_neg]
        have := hk i (le_refl _) (by omega)
        omega
    · rw [if_neg h0]
      obtain ⟨s', e, e1, e2⟩ := ih (i + 1) s (fun j a b c => h1 j (by omega) (by omega) c) (fun j l a b c d => h2 j l (by omega) (by omega) (by omega) (by omega))
      refine ⟨s', e, ?_, ?_⟩
      · intro j j1 j2 j3
        have : j ≠ i := by intro ee; subst ee; omega
        exact e1 j (by omega) (by omega) j3
      · intro k hk
        exact e2 k (fun j a b => hk j (by omega) (by omega))

theorem fillSort_occupied (index : List Nat) (n : Nat) : ∀ i (s : Nat → Option Nat) j, i ≤ j → j < i + n → 0 < index.getD j 0 →
    (s (index.getD j 0 - 1)).isSome → ∃ k, fillSort index n i s = .error k := by
  induction n with
  | zero => intro i s j a b; omega
  | succ n ih =>
    intro i s j a b c d
    unfold fillSort
    dsimp only
    by_cases h0 : 0 < index.getD i 0
    · rw [if_pos h0]
      cases hs : s (index.getD i 0 - 1) with
      | some l => exact ⟨_, rfl⟩
      | none =>
        have : j ≠ i := by intro ee; subst ee; rw [hs] at d; simp at d
        refine ih (i + 1) _ j (by omega) (by omega) c ?_
        split
        · rfl
        · exact d
    · rw [if_neg h0]
      have : j ≠ i := by intro ee; subst ee; omega
      exact ih (i + 1) _ j (by omega) (by omega) c d

theorem fillSort_twice (index : List Nat) (n : Nat) : ∀ i (s : Nat → Option Nat) j l, i ≤ j → j < l → l < i + n → 0 < index.getD j 0 →
    index.getD j 0 = index.getD l 0 → ∃ k, fillSort index n i s = .error k := by
  induction n with
  | zero => intro i s j l a b; omega
  | succ n ih =>
    intro i s j l a b c d e
    unfold fillSort
    dsimp only
    by_cases h0 : 0 < index.getD i 0
    · rw [if_pos h0]
      cases hs : s (index.getD i 0 - 1) with
      | some l => exact ⟨_, rfl⟩
      | none =>
        by_cases ej : j = i
        · subst ej
          refine fillSort_occupied index n (j + 1) _ l (by omega) (by omega) (by omega) ?_
          rw [← e, if_pos rfl]; rfl
        · exact ih (i + 1) _ j l (by omega) b (by omega) d e
    · rw [if_neg h0]
      have : j ≠ i := by intro ee; subst ee; omega
      exact ih (i + 1) _ j l (by omega) b (by omega) d e

/-- every number used once: the positions in the order of the numbers. -/
theorem setIndex_ok {n : Nat} {suffix : List Nat} (h : Numbered n suffix) (hn : 0 < n) :
    setIndex suffix = .ok ((List.range n).map fun k => some (suffix.idxOf (k + 1))) := by
  unfold setIndex
  obtain ⟨s, e, e1, e2⟩ := fillSort_ok suffix suffix.length 0 (fun _ => none) (fun _ _ _ _ => rfl)
    (fun j l _ a _ b c d => h.once j l (by omega) (by omega) c d)
  rw [e]
  dsimp only
  rw [indexMax_eq (h.used n hn (le_refl _)) h.le]
  congr 1
  apply List.map_congr_left
  intro k hk
  have hm := h.used (k + 1) (by omega) (by have := List.mem_range.1 hk; omega)
  have hlt := List.idxOf_lt_length_iff.2 hm
  have hat : suffix.getD (suffix.idxOf (k + 1)) 0 = k + 1 := by rw [List.getD_eq_getElem _ _ hlt, List.getElem_idxOf]
  have := e1 (suffix.idxOf (k + 1)) (Nat.zero_le _) (by omega) (by omega)
  rw [hat] at this
  simpa using this

section
variable {K : Type} [Field K] [LinearOrder K] [IsStrictOrderedRing K]

/-- numbers used twice or missing are detected. -/
theorem reducedHessian_none {E : Env K} {dims : List Nat} {s : K} {suffix : List Nat} (h : ¬ ∃ n, Numbered n suffix) :
    reducedHessian E dims s suffix = none := by
  unfold reducedHessian
  cases hs : setIndex suffix with
  | error k => rfl
  | ok l =>
    dsimp only
    rw [if_neg]
    intro hall
    apply h
    refine ⟨indexMax suffix, ?_⟩
    unfold setIndex at hs
    have honce : ∀ i j, i < suffix.length → j < suffix.length → 0 < suffix.getD i 0 → suffix.getD i 0 = suffix.getD j 0 → i = j := by
      intro i j hi hj h0 he
      by_contra hne
      rcases Nat.lt_or_gt_of_ne hne with hlt | hlt
      · obtain ⟨k, e⟩ := fillSort_twice suffix suffix.length 0 (fun _ => none) i j (by omega) hlt (by omega) h0 he
        rw [e] at hs; simp at hs
      · obtain ⟨k, e⟩ := fillSort_twice suffix suffix.length 0 (fun _ => none) j i (by omega) hlt (by omega) (by omega) he.symm
        rw [e] at hs; simp at hs
    obtain ⟨f, e, e1, e2⟩ := fillSort_ok suffix suffix.length 0 (fun _ => none) (fun _ _ _ _ => rfl)
      (fun j l _ a _ b c d => honce j l (by omega) (by omega) c d)
    rw [e] at hs
    dsimp only at hs
    cases hs
    refine ⟨?_, ?_, honce⟩
    · intro k h0 hk
      by_contra hn
      have : f (k - 1) = none := by
        rw [e2 (k - 1)]
        intro j _ hj ee
        apply hn
        have : suffix.getD j 0 = k := by omega
        rw [← this, List.getD_eq_getElem _ _ (by omega)]
        exact List.getElem_mem _
      have hx := List.all_eq_true.1 hall (f (k - 1)) (List.mem_map.2 ⟨k - 1, List.mem_range.2 (by omega), rfl⟩)
      rw [this] at hx
      simp at hx
    · intro k hk
      cases suffix with
      | nil => simp at hk
      | cons a l =>
        unfold indexMax
        obtain ⟨h1, h2⟩ := foldl_max_ge l a
        rcases List.mem_cons.1 hk with rfl | hk
        · exact h1
        · exact h2 k hk

/-- the entries of the result. -/
theorem reducedHessian_some {E : Env K} {dims : List Nat} {M : Nat → Nat → K} (hE : Exact E dims M) {s : K} {suffix : List Nat} {n : Nat}
    (h : Numbered n suffix) (hn : 0 < n) (hl : suffix.length ≤ dims.sum) :
    ∃ S, reducedHessian E dims s suffix = some (n, S) ∧ ∃ col : Nat → Nat → K, 
      (∀ j, j < n → ∀ i, i < dims.sum → mulVec dims.sum M (col j) i = if i = suffix.idxOf (j + 1) then 1 else 0) ∧
      ∀ i j, i < n → j < n → S (i + j * n) = s * col j (suffix.idxOf (i + 1)) := by
  unfold reducedHessian
  rw [setIndex_ok h hn]
  dsimp only
  rw [if_pos (by simp)]
  have hmap : (((List.range n).map fun k => some (suffix.idxOf (k + 1))).map fun o => o.getD 0) = (List.range n).map fun k => suffix.idxOf (k + 1) := by
    rw [List.map_map]; rfl
  rw [hmap]
  generalize hA : Data.ofList ((List.range n).map fun k => suffix.idxOf (k + 1)) = A
  have hAl : A.idx.length = n := by rw [← hA]; simp [Data.ofList]
  have hAk : ∀ k, k < n → A.idx.getD k 0 = suffix.idxOf (k + 1) := by
    intro k hk
    rw [← hA]
    unfold Data.ofList
    dsimp only
    rw [List.getD_eq_getElem _ _ (by simpa using hk)]
    simp
  have hat : ∀ k, k < n → suffix.idxOf (k + 1) < suffix.length ∧ suffix.getD (suffix.idxOf (k + 1)) 0 = k + 1 := by
    intro k hk
    have hlt := List.idxOf_lt_length_iff.2 (h.used (k + 1) (by omega) (by omega))
    exact ⟨hlt, by rw [List.getD_eq_getElem _ _ hlt, List.getElem_idxOf]⟩
  have hg : A.Good dims.sum := by
    refine ⟨by rw [← hA]; simp [Data.ofList], ?_, ?_, ?_⟩
    · rw [← hA]; exact ofList_one _
    · intro i hi
      rw [hAk i (by omega)]
      have := (hat i (by omega)).1
      omega
    · rw [← hA]
      unfold Data.ofList
      refine List.Nodup.map_on ?_ List.nodup_range
      intro a ha b hb e
      have h1 := (hat a (List.mem_range.1 ha)).2
      have h2 := (hat b (List.mem_range.1 hb)).2
      rw [e] at h1
      omega
  have hk0 : (PC.new A : PC K).Known dims.sum M := by intro c l hc; simp [PC.new] at hc
  obtain ⟨c1, c2, c3, c4, c5, _⟩ := computeFrom_spec hE A.idx 0 (PC.new A : PC K) (by simp [PC.new]) hg hk0
  have hcomp : (PC.new A : PC K).compute E dims = (PC.new A : PC K).computeFrom E dims A.idx 0 := rfl
  rw [hcomp]
  generalize (PC.new A : PC K).computeFrom E dims A.idx 0 = p at c1 c2 c3 c4 c5
  have c1' : p.A = A := c1
  have c3' : p.ncols = A.idx.length := c3
  unfold PC.schurMatrix PC.refresh
  rw [if_neg (by rw [c3', c1']; simp)]
  obtain ⟨S, s1, _, s3⟩ := matrixFrom_spec p A.idx c3' A.idx 0 (fun _ => E.junk) c5
  dsimp only
  rw [c1', s1]
  refine ⟨_, by simp [hAl]; rfl, fun j i => (p.col (A.idx.getD j 0)).getD i 0, ?_, ?_⟩
  · intro j hj i hi
    have hm : A.idx.getD j 0 ∈ A.idx := by rw [List.getD_eq_getElem _ _ (by omega)]; exact List.getElem_mem _
    obtain ⟨l, hl'⟩ := Option.isSome_iff_exists.1 (c5 _ hm)
    have := c4 _ l hl' i hi
    have e : p.col (A.idx.getD j 0) = l := by unfold PC.col; rw [hl']; rfl
    dsimp only
    rw [e, this, hAk j hj]
  · intro i j hi hj
    have := s3 j i (by omega) (by omega)
    rw [Nat.zero_add, hAl, hAk i hi] at this
    dsimp only
    rw [this]
    ring

/-! ### inverse of the reduced Hessian -/

theorem kkt_row {n m : Nat} {W J : Nat → Nat → K} (N : Nat) (hN : N = n + m) (v : Nat → K) :
    (∀ i, i < n → mulVec N (kktMatrix n m W J) v i = ∑ j ∈ range n, W i j * v j + ∑ r ∈ range m, J r i * v (n + r)) ∧
    (∀ r, r < m → mulVec N (kktMatrix n m W J) v (n + r) = ∑ j ∈ range n, J r j * v j) := by
  subst hN
  constructor
  · intro i hi
    unfold mulVec
    rw [Finset.sum_range_add]
    congr 1
    · refine Finset.sum_congr rfl fun j hj => ?_
      have := Finset.mem_range.1 hj
      unfold kktMatrix
      rw [if_pos hi, if_pos this]
    · refine Finset.sum_congr rfl fun r hr => ?_
      have := Finset.mem_range.1 hr
      unfold kktMatrix
      rw [if_pos hi, if_neg (by omega), if_pos (by omega), Nat.add_sub_cancel_left]
  · intro r hr
    unfold mulVec
    rw [Finset.sum_range_add]
    rw [Finset.sum_eq_zero (s := range m), add_zero]
    · refine Finset.sum_congr rfl fun j hj => ?_
      have := Finset.mem_range.1 hj
      unfold kktMatrix
      rw [if_neg (by omega), if_pos (by omega), if_pos this, Nat.add_sub_cancel_left]
    · intro l hl
      unfold kktMatrix
      rw [if_neg (by omega), if_pos (by omega), if_neg (by omega), zero_mul]

theorem reduced_inverse {n m d : Nat} {W J : Nat → Nat → K} {pos : Nat → Nat} {z : Nat → Nat → K} (hz : NullBasis n m J d pos z)
    {col : Nat → Nat → K} (hc : ∀ j, j < d → ∀ i, i < n + m → mulVec (n + m) (kktMatrix n m W J) (col j) i = if i = pos j then 1 else 0)
    {k j : Nat} (hk : k < d) (hj : j < d) :
    ∑ l ∈ range d, (∑ a ∈ range n, ∑ b ∈ range n, z k a * W a b * z l b) * col j (pos l) = if k = j then 1 else 0 := by
  obtain ⟨r1, r2⟩ := kkt_row (W := W) (J := J) (n + m) rfl (col j)
  have hnull : ∀ r, r < m → ∑ i ∈ range n, J r i * col j i = 0 := by
    intro r hr
    rw [← r2 r hr, hc j hj (n + r) (by omega), if_neg]
    have := hz.free j hj
    omega
  have hspan := hz.span (col j) hnull
  -- multiply the first rows by `z k`
  have h1 : ∑ a ∈ range n, z k a * mulVec (n + m) (kktMatrix n m W J) (col j) a = if k = j then 1 else 0 := by
    rw [← hz.unit k j hk hj]
    rw [Finset.sum_eq_single (pos j)]
    · rw [hc j hj _ (by have := hz.free j hj; omega), if_pos rfl, mul_one]
    · intro a ha hne
      rw [hc j hj a (by have := Finset.mem_range.1 ha; omega), if_neg hne, mul_zero]
    · intro hh; exact absurd (Finset.mem_range.2 (hz.free j hj)) hh
  rw [← h1]
  have h2 : ∀ a ∈ range n, z k a * mulVec (n + m) (kktMatrix n m W J) (col j) a =
      ∑ b ∈ range n, z k a * W a b * col j b + ∑ r ∈ range m, J r a * z k a * col j (n + r) := by
    intro a ha
    rw [r1 a (Finset.mem_range.1 ha), mul_add, Finset.mul_sum, Finset.mul_sum]
    congr 1
    · refine Finset.sum_congr rfl fun b _ => by ring
    · refine Finset.sum_congr rfl fun b _ => by ring
  rw [Finset.sum_congr rfl h2, Finset.sum_add_distrib]
  have h3 : ∑ a ∈ range n, ∑ r ∈ range m, J r a * z k a * col j (n + r) = 0 := by
    rw [Finset.sum_comm]
    refine Finset.sum_eq_zero fun r hr => ?_
    rw [← Finset.sum_mul, hz.null k hk r (Finset.mem_range.1 hr), zero_mul]
  rw [h3, add_zero]
  have h4 : ∀ l ∈ range d, (∑ a ∈ range n, ∑ b ∈ range n, z k a * W a b * z l b) * col j (pos l) =
      ∑ a ∈ range n, ∑ b ∈ range n, z k a * W a b * z l b * col j (pos l) := by
    intro l _
    rw [Finset.sum_mul]
    exact Finset.sum_congr rfl fun a _ => Finset.sum_mul _ _ _
  rw [Finset.sum_congr rfl h4, Finset.sum_comm]
  refine Finset.sum_congr rfl fun a _ => ?_
  rw [Finset.sum_comm]
  refine Finset.sum_congr rfl fun b hb => ?_
  rw [hspan b (Finset.mem_range.1 hb), Finset.mul_sum]
  refine Finset.sum_congr rfl fun l _ => by ring
end
end Verif.Sens
