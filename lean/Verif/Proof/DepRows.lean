import Verif.Spec.DepRows
import Verif.Proof.Mumpsd

/-! # The matrix [[I, Jᵀ], [J, 0]] and its dependent rows -/

namespace Verif.DepRows
open Finset
open Verif.AugSolve (Structure denote Known Status)

set_option linter.unusedSectionVars false
set_option linter.unusedSimpArgs false
set_option linter.unusedVariables false

section
variable {K : Type} [Field K]

theorem sum_getD {A : Type} (l : List A) (d : A) (f : A → K) : ∑ k ∈ range l.length, f (l.getD k d) = (l.map f).sum := by
  induction l with
  | nil => simp
  | cons a l ih =>
    rw [List.length_cons, Finset.sum_range_succ']
    simp only [List.getD_cons_succ, List.getD_cons_zero, List.map_cons, List.sum_cons]
    rw [ih, add_comm]

/-- all triplets of the matrix. -/
def kkt (nRows nCols : Nat) (t : List ((Nat × Nat) × K)) : List ((Nat × Nat) × K) :=
  t.map (fun e => ((e.1.1 + nCols, e.1.2), e.2)) ++ (List.range (nRows + nCols)).map (fun i => ((i + 1, i + 1), if i < nCols then 1 else 0))

theorem kkt_rows (nRows nCols : Nat) (t : List ((Nat × Nat) × K)) : kktRows nRows nCols t = (kkt nRows nCols t).map (·.1.1) := by
  simp [kktRows, kkt, Function.comp_def]

theorem kkt_cols (nRows nCols : Nat) (t : List ((Nat × Nat) × K)) : kktCols nRows nCols t = (kkt nRows nCols t).map (·.1.2) := by
  simp [kktCols, kkt, Function.comp_def]

theorem kkt_vals (nRows nCols : Nat) (t : List ((Nat × Nat) × K)) : kktVals nRows nCols t = (kkt nRows nCols t).map (·.2) := by
  simp only [kktVals, kkt, List.map_append, List.map_map, Function.comp_def]
  congr 1
  apply List.ext_getElem
  · simp; omega
  · intro i h1 h2
    simp only [List.getElem_map, List.getElem_range, List.getElem_append, List.length_replicate, List.getElem_replicate]
    split <;> rfl

theorem kkt_length (nRows nCols : Nat) (t : List ((Nat × Nat) × K)) : (kkt nRows nCols t).length = t.length + (nRows + nCols) := by
  simp [kkt]

/-- the elements of the matrix. -/
theorem kkt_elem {nRows nCols : Nat} {t : List ((Nat × Nat) × K)} (ht : ∀ e ∈ t, (1 ≤ e.1.1 ∧ e.1.1 ≤ nRows) ∧ 1 ≤ e.1.2 ∧ e.1.2 ≤ nCols) {r c : Nat}
    (hr : r < nRows + nCols) (hc : c < nRows + nCols) :
    denote .triplet (t.length + (nRows + nCols)) (fun k => (kktRows nRows nCols t).getD k 0) (fun k => (kktCols nRows nCols t).getD k 0)
      (fun k => (kktVals nRows nCols t).getD k 0) r c =
    if r < nCols then (if c < nCols then (if r = c then 1 else 0) else tripElem t (c - nCols) r)
    else (if c < nCols then tripElem t (r - nCols) c else 0) := by
  have gm : ∀ {B : Type} (f : (Nat × Nat) × K → B) (k : Nat), ((kkt nRows nCols t).map f).getD k (f ((0, 0), 0)) = f ((kkt nRows nCols t).getD k ((0, 0), 0)) := by
    intro B f k; rw [List.getD_map]
  show Triplet.symElem _ _ _ _ _ _ = _
  unfold Triplet.symElem
  rw [← kkt_length]
  have e : ∀ k, (if ((kktRows nRows nCols t).getD k 0 = r + 1 ∧ (kktCols nRows nCols t).getD k 0 = c + 1) ∨
      ((kktRows nRows nCols t).getD k 0 = c + 1 ∧ (kktCols nRows nCols t).getD k 0 = r + 1) then (kktVals nRows nCols t).getD k 0 else 0) =
      (fun e : (Nat × Nat) × K => if (e.1.1 = r + 1 ∧ e.1.2 = c + 1) ∨ (e.1.1 = c + 1 ∧ e.1.2 = r + 1) then e.2 else 0) ((kkt nRows nCols t).getD k ((0, 0), 0)) := by
    intro k
    have h1 := gm (·.1.1) k
    have h2 := gm (·.1.2) k
    have h3 := gm (·.2) k
    rw [kkt_rows, kkt_cols, kkt_vals]
    dsimp only at h1 h2 h3 ⊢
    rw [h1, h2, h3]
  refine (Finset.sum_congr rfl fun k _ => e k).trans ((sum_getD (kkt nRows nCols t) ((0, 0), 0)
    (fun e => if (e.1.1 = r + 1 ∧ e.1.2 = c + 1) ∨ (e.1.1 = c + 1 ∧ e.1.2 = r + 1) then e.2 else 0)).trans ?_)
  unfold kkt
  rw [List.map_append, List.sum_append, List.map_map, List.map_map]
  -- the diagonal
  have hdiag : ((List.range (nRows + nCols)).map ((fun e : (Nat × Nat) × K => if (e.1.1 = r + 1 ∧ e.1.2 = c + 1) ∨ (e.1.1 = c + 1 ∧ e.1.2 = r + 1) then e.2 else 0) ∘
      fun i => ((i + 1, i + 1), if i < nCols then (1 : K) else 0))).sum = if r = c ∧ r < nCols then 1 else 0 := by
    show ∑ i ∈ range (nRows + nCols), _ = _
    simp only [Function.comp_def]
    by_cases hrc : r = c
    · subst hrc
      rw [Finset.sum_eq_single r]
      · simp
      · intro b _ hb
        rw [if_neg (by omega)]
      · intro h; exact absurd (Finset.mem_range.2 hr) h
    · rw [if_neg (fun h => hrc h.1)]
      refine Finset.sum_eq_zero fun b _ => ?_
      rw [if_neg (by omega)]
  rw [hdiag]
  by_cases h1 : r < nCols <;> by_cases h2 : c < nCols
  · rw [if_pos h1, if_pos h2]
    have : (t.map ((fun e : (Nat × Nat) × K => if (e.1.1 = r + 1 ∧ e.1.2 = c + 1) ∨ (e.1.1 = c + 1 ∧ e.1.2 = r + 1) then e.2 else 0) ∘
        fun e => ((e.1.1 + nCols, e.1.2), e.2))).sum = 0 := by
      apply List.sum_eq_zero
      intro x hx
      obtain ⟨e, he, rfl⟩ := List.mem_map.1 hx
      have := ht e he
      dsimp only [Function.comp]
      rw [if_neg (by omega)]
    rw [this, zero_add]
    simp [h1]
  · rw [if_pos h1, if_neg h2, if_neg (by omega), add_zero]
    unfold tripElem
    congr 1
    refine List.map_congr_left fun e he => ?_
    have := ht e he
    dsimp only [Function.comp]
    have : ((e.1.1 + nCols = r + 1 ∧ e.1.2 = c + 1) ∨ (e.1.1 + nCols = c + 1 ∧ e.1.2 = r + 1)) ↔ e.1 = (c - nCols + 1, r + 1) := by
      rw [Prod.ext_iff]; dsimp only; omega
    simp only [this]
  · rw [if_neg h1, if_pos h2, if_neg (by omega), add_zero]
    unfold tripElem
    congr 1
    refine List.map_congr_left fun e he => ?_
    have := ht e he
    dsimp only [Function.comp]
    have : ((e.1.1 + nCols = r + 1 ∧ e.1.2 = c + 1) ∨ (e.1.1 + nCols = c + 1 ∧ e.1.2 = r + 1)) ↔ e.1 = (r - nCols + 1, c + 1) := by
      rw [Prod.ext_iff]; dsimp only; omega
    simp only [this]
  · rw [if_neg h1, if_neg h2]
    have : (t.map ((fun e : (Nat × Nat) × K => if (e.1.1 = r + 1 ∧ e.1.2 = c + 1) ∨ (e.1.1 = c + 1 ∧ e.1.2 = r + 1) then e.2 else 0) ∘
        fun e => ((e.1.1 + nCols, e.1.2), e.2))).sum = 0 := by
      apply List.sum_eq_zero
      intro x hx
      obtain ⟨e, he, rfl⟩ := List.mem_map.1 hx
      have := ht e he
      dsimp only [Function.comp]
      rw [if_neg (by omega)]
    rw [this, zero_add, if_neg (fun h => h1 h.2)]

end

section
variable {K : Type} [Field K] [LinearOrder K] [IsStrictOrderedRing K]

/-- sums over the rows of both blocks. -/
theorem sum_blocks (m n : Nat) (f : Nat → K) : ∑ r ∈ range (m + n), f r = ∑ x ∈ range n, f x + ∑ i ∈ range m, f (n + i) := by
  rw [Nat.add_comm m n, Finset.sum_range_add]

/-- y = Jᵀ b and J y = 0 imply y = 0. -/
theorem null_of_range {m n : Nat} (J : Nat → Nat → K) (y b : Nat → K) (h1 : ∀ x < n, y x = ∑ i ∈ range m, b i * J i x)
    (h2 : ∀ i < m, ∑ x ∈ range n, J i x * y x = 0) : ∀ x < n, y x = 0 := by
  have e : ∑ x ∈ range n, y x * y x = 0 := by
    calc ∑ x ∈ range n, y x * y x = ∑ x ∈ range n, ∑ i ∈ range m, b i * (J i x * y x) := by
          refine Finset.sum_congr rfl fun x hx => ?_
          conv_lhs => rw [h1 x (Finset.mem_range.1 hx)]
          rw [← h1 x (Finset.mem_range.1 hx)]
          rw [h1 x (Finset.mem_range.1 hx), Finset.sum_mul]
          refine Finset.sum_congr rfl fun i _ => by ring
      _ = ∑ i ∈ range m, b i * ∑ x ∈ range n, J i x * y x := by
          rw [Finset.sum_comm]
          refine Finset.sum_congr rfl fun i _ => by rw [Finset.mul_sum]
      _ = 0 := Finset.sum_eq_zero fun i hi => by rw [h2 i (Finset.mem_range.1 hi), mul_zero]
  intro x hx
  have := (Finset.sum_eq_zero_iff_of_nonneg (fun i _ => mul_self_nonneg (y i))).1 e x (Finset.mem_range.2 hx)
  exact mul_self_eq_zero.1 this

/-- If the kept rows of [[I, Jᵀ], [J, 0]] are a basis, then all rows of the first block are kept, and the kept rows of J are a basis. -/
theorem basis_of_kkt {m n : Nat} {A J : Nat → Nat → K} {keep : Nat → Prop}
    (hA : ∀ r < m + n, ∀ c < m + n, A r c = if r < n then (if c < n then (if r = c then 1 else 0) else J (c - n) r) else (if c < n then J (r - n) c else 0))
    (h : RowBasis (m + n) (m + n) A keep) : (∀ x < n, keep x) ∧ RowBasis m n J (fun i => keep (n + i)) := by
  -- a combination of rows, by blocks
  have hx : ∀ (b : Nat → K) (c : Nat), c < n → ∑ r ∈ range (m + n), b r * A r c = b c + ∑ i ∈ range m, b (n + i) * J i c := by
    intro b c hc
    rw [sum_blocks]
    congr 1
    · rw [Finset.sum_eq_single c]
      · rw [hA c (by omega) c (by omega), if_pos hc, if_pos hc, if_pos rfl, mul_one]
      · intro x hx hne
        have := Finset.mem_range.1 hx
        rw [hA x (by omega) c (by omega), if_pos this, if_pos hc, if_neg hne, mul_zero]
      · intro h; exact absurd (Finset.mem_range.2 hc) h
    · refine Finset.sum_congr rfl fun i hi => ?_
      have := Finset.mem_range.1 hi
      rw [hA (n + i) (by omega) c (by omega), if_neg (by omega), if_pos hc, Nat.add_sub_cancel_left]
  have hc : ∀ (b : Nat → K) (k : Nat), k < m → ∑ r ∈ range (m + n), b r * A r (n + k) = ∑ x ∈ range n, J k x * b x := by
    intro b k hk
    rw [sum_blocks]
    have z : ∑ i ∈ range m, b (n + i) * A (n + i) (n + k) = 0 := Finset.sum_eq_zero fun i hi => by
      have := Finset.mem_range.1 hi
      rw [hA (n + i) (by omega) (n + k) (by omega), if_neg (by omega), if_neg (by omega), mul_zero]
    rw [z, add_zero]
    refine Finset.sum_congr rfl fun x hx => ?_
    have := Finset.mem_range.1 hx
    rw [hA x (by omega) (n + k) (by omega), if_pos this, if_neg (by omega), Nat.add_sub_cancel_left, mul_comm]
  refine ⟨fun i hi => ?_, fun b hb hz => ?_, fun k hk hn => ?_⟩
  · by_contra hn
    obtain ⟨b, b1, b2⟩ := h.comb i (by omega) hn
    have := null_of_range J (fun x => (if x = i then 1 else 0) - b x) (fun k => b (n + k)) (m := m) (n := n) (fun x hxn => by
        have e := b2 x (by omega)
        rw [hx b x hxn, hA i (by omega) x (by omega), if_pos hi, if_pos hxn] at e
        have e' : (if x = i then (1 : K) else 0) = b x + ∑ k ∈ range m, b (n + k) * J k x := by
          rw [← e]; simp only [eq_comm]
        rw [e']; ring)
      (fun k hk => by
        have e := b2 (n + k) (by omega)
        rw [hc b k hk, hA i (by omega) (n + k) (by omega), if_pos hi, if_neg (by omega), Nat.add_sub_cancel_left] at e
        simp only [mul_sub, Finset.sum_sub_distrib, mul_ite, mul_one, mul_zero]
        rw [Finset.sum_ite_eq' (range n) i, if_pos (Finset.mem_range.2 hi), e, sub_self]) i hi
    rw [if_pos rfl, b1 i hn, sub_zero] at this
    exact one_ne_zero this
  · intro r hr
    have := h.indep (fun i => if i < n then 0 else b (i - n)) (fun i hk => by
        by_cases hi : i < n
        · rw [if_pos hi]
        · rw [if_neg hi]
          refine hb (i - n) ?_
          rwa [Nat.add_sub_cancel' (by omega)])
      (fun c hcc => by
        by_cases hcn : c < n
        · rw [hx _ c hcn, if_pos hcn, zero_add, ← hz c hcn]
          refine Finset.sum_congr rfl fun i _ => ?_
          rw [if_neg (by omega), Nat.add_sub_cancel_left]
        · have := hc (fun i => if i < n then 0 else b (i - n)) (c - n) (by omega)
          rw [Nat.add_sub_cancel' (by omega)] at this
          rw [this]
          refine Finset.sum_eq_zero fun x hx => ?_
          rw [if_pos (Finset.mem_range.1 hx), mul_zero]) (n + r) (by omega)
    rw [if_neg (by omega), Nat.add_sub_cancel_left] at this
    exact this
  · obtain ⟨b, b1, b2⟩ := h.comb (n + k) (by omega) hn
    have e1 : ∀ x < n, J k x = b x + ∑ i ∈ range m, b (n + i) * J i x := by
      intro x hxn
      have e := b2 x (by omega)
      rwa [hx b x hxn, hA (n + k) (by omega) x (by omega), if_neg (by omega), if_pos hxn, Nat.add_sub_cancel_left] at e
    have z := null_of_range J b (fun i => (if i = k then 1 else 0) - b (n + i)) (m := m) (n := n) (fun x hxn => by
        simp only [sub_mul, Finset.sum_sub_distrib, ite_mul, one_mul, zero_mul]
        rw [Finset.sum_ite_eq' (range m) k, if_pos (Finset.mem_range.2 hk), e1 x hxn]; ring)
      (fun j hj => by
        have e := b2 (n + j) (by omega)
        rwa [hc b j hj, hA (n + k) (by omega) (n + j) (by omega), if_neg (by omega), if_neg (by omega), eq_comm] at e)
    refine ⟨fun i => b (n + i), fun r hr => b1 _ hr, fun x hxn => ?_⟩
    rw [e1 x hxn, z x hxn, zero_add]

end

end Verif.DepRows
