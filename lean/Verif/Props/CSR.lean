import Verif.Proof.CSRFull
import Mathlib.Algebra.Order.Field.Rat

/-! # Triplet to compressed row conversion (C22) -/

set_option linter.unusedSectionVars false
set_option linter.unusedSimpArgs false

namespace Verif.CSR

variable {K : Type} [Field K]

theorem range_split3 (a b n : Nat) (h1 : a ≤ b) (h2 : b ≤ n) :
    List.range n = List.range a ++ List.range' a (b - a) ++ List.range' b (n - b) := by
  have h3 := List.range'_append (s := 0) (m := a) (n := b - a) (step := 1)
  simp only [Nat.one_mul, Nat.zero_add] at h3
  rw [List.range_eq_range', List.range_eq_range', h3, show a + (b - a) = b by omega]
  have h4 := List.range'_append (s := 0) (m := b) (n := n - b) (step := 1)
  simp only [Nat.one_mul, Nat.zero_add] at h4
  rw [h4, show b + (n - b) = n by omega]

theorem countP_rows_mono (keys : List (Nat × Nat)) {i j : Nat} (h : i ≤ j) :
    keys.countP (fun p => decide (p.1 ≤ i)) ≤ keys.countP fun p => decide (p.1 ≤ j) := by
  refine List.countP_mono_left fun p _ hp => ?_
  simp only [decide_eq_true_eq] at *
  omega

/-- **C22** Triangular format.  For every list of triplets in range whose upper-triangle rows have no gap, every order `std::sort` may
produce, every offset and uninitialised memory: the compressed structure is valid (columns strictly increasing, so no duplicates), and for
every value array it represents the upper triangle of exactly the matrix given by the triplets, with nothing below the diagonal. -/
theorem csr_triangular_correct_partial (trip : List (Nat × Nat)) (dim offset : Nat) (hr : InRange dim trip) (hg : NoGaps trip)
    (hne : trip ≠ []) (l : List Entry) (hl : SortedEntries trip l) (ia0 : Nat → Nat) :
    ∃ s, scan ia0 dim l = some s ∧
      ValidCSR offset dim (triangular offset s).nnz (triangular offset s).ia (triangular offset s).ja ∧
      ∀ (a : Nat → K) (r c : Nat), r < dim → c < dim →
        csrElem offset (triangular offset s).ia (triangular offset s).ja (convertValues (triangular offset s) a) r c =
          if r ≤ c then tripletElem trip a r c else 0 := by
  obtain ⟨s, keys, h0, hs, hja, hia, hcov, hrg, hdl, hdm, hrc, hfull, hv⟩ := scan_spec (K := K) ia0 hl hg hr hne
  have hlen : s.ja.length = keys.length := by rw [hja]; simp
  have hjaAt : ∀ k, (h : k < keys.length) → s.ja.getD k 0 = keys[k].2 := by
    intro k hk
    rw [hja, List.getD_eq_getElem _ _ (by simpa using hk), List.getElem_map]
  have hle : ∀ i, i ≤ dim → s.ia i ≤ keys.length := by intro i hi; rw [hia i hi]; exact List.countP_le_length
  have hrow : ∀ r, r < dim → ∀ k, s.ia r ≤ k → k < s.ia (r + 1) → ∃ h : k < keys.length, keys[k].1 = r + 1 := by
    intro r hrd k h1 h2
    have hk : k < keys.length := lt_of_lt_of_le h2 (hle _ (by omega))
    rw [hia _ (by omega), lt_countP_iff hs _ _ hk] at h2
    rw [hia _ (by omega), ← not_lt, lt_countP_iff hs _ _ hk] at h1
    exact ⟨hk, by omega⟩
  refine ⟨s, h0, ⟨?_, ?_, ?_, ?_, ?_⟩, ?_⟩
  · have : keys.countP (fun p => decide (p.1 ≤ 0)) = 0 := by
      rw [List.countP_eq_zero]; intro κ hκ; have := hrg κ hκ; simp only [decide_eq_true_eq]; omega
    simp only [triangular]; rw [hia 0 (by omega), this, Nat.zero_add]
  · have : keys.countP (fun p => decide (p.1 ≤ dim)) = keys.length := by
      rw [List.countP_eq_length]; intro κ hκ; have := hrg κ hκ; simp only [decide_eq_true_eq]; omega
    simp only [triangular]; rw [hia dim le_rfl, this, hlen]
  · intro r hrd
    simp only [triangular]
    rw [hia _ (by omega), hia _ (by omega)]
    have := countP_rows_mono keys (show r ≤ r + 1 by omega)
    omega
  · intro r hrd p h1 h2
    simp only [triangular] at *
    obtain ⟨hk, -⟩ := hrow r hrd p (by omega) (by omega)
    rw [hjaAt p hk]
    have := hrg keys[p] (List.getElem_mem _)
    omega
  · intro r hrd p q h1 h2 h3
    simp only [triangular] at *
    obtain ⟨hp, hp1⟩ := hrow r hrd p (by omega) (by omega)
    obtain ⟨hq, hq1⟩ := hrow r hrd q (by omega) (by omega)
    rw [hjaAt p hp, hjaAt q hq]
    have := List.pairwise_iff_getElem.mp hs p q hp hq h2
    have hb := hrg keys[p] (List.getElem_mem _)
    unfold klt at this
    omega
  · intro a r c hrd hcd
    have hmono : s.ia r ≤ s.ia (r + 1) := by
      rw [hia _ (by omega), hia _ (by omega)]; exact countP_rows_mono keys (Nat.le_succ r)
    have hval : ∀ k, k < keys.length → convertValues (triangular offset s) a k = keySum a l (keys.getD k (0, 0)) := by
      intro k hk
      rw [convertValues_spec]
      exact hv a k hk
    have step : csrElem offset (triangular offset s).ia (triangular offset s).ja (convertValues (triangular offset s) a) r c =
        ((List.range keys.length).map fun k => if keys.getD k (0, 0) = (r + 1, c + 1) then keySum a l (r + 1, c + 1) else 0).sum := by
      rw [range_split3 (s.ia r) (s.ia (r + 1)) keys.length hmono (hle _ (by omega)), List.map_append, List.map_append, List.sum_append,
        List.sum_append, sum_zero_of (List.range _), sum_zero_of (List.range' (s.ia (r + 1)) _), zero_add, add_zero]
      · unfold csrElem
        have e1 : (triangular offset s).ia r - offset = s.ia r := by simp only [triangular]; omega
        have e2 : (triangular offset s).ia (r + 1) - (triangular offset s).ia r = s.ia (r + 1) - s.ia r := by
          simp only [triangular]; omega
        rw [e1, e2]
        congr 1
        refine List.map_congr_left fun k hk => ?_
        have hk := List.mem_range'_1.mp hk
        obtain ⟨hkl, hk1⟩ := hrow r hrd k (by omega) (by omega)
        have hb := hrg keys[k] (List.getElem_mem _)
        rw [List.getD_eq_getElem _ _ hkl]
        have hiff : (triangular offset s).ja k = c + offset ↔ keys[k] = (r + 1, c + 1) := by
          simp only [triangular]
          rw [hjaAt k hkl, Prod.ext_iff]; simp only; omega
        by_cases h : keys[k] = (r + 1, c + 1)
        · rw [if_pos (hiff.mpr h), if_pos h]
          have := hval k hkl
          rw [List.getD_eq_getElem _ _ hkl, h] at this
          exact this
        · rw [if_neg (fun h' => h (hiff.mp h')), if_neg h]
      · intro k hk
        have hk := List.mem_range'_1.mp hk
        have h3 := hle (r + 1) (by omega)
        have hkl : k < keys.length := by omega
        rw [List.getD_eq_getElem _ _ hkl, if_neg]
        intro he
        have h1 : s.ia (r + 1) ≤ k := by omega
        rw [hia _ (by omega), ← not_lt, lt_countP_iff hs _ _ hkl, he] at h1
        exact h1 le_rfl
      · intro k hk
        have hk := List.mem_range.mp hk
        have h3 := hle r (by omega)
        have hkl : k < keys.length := by omega
        rw [List.getD_eq_getElem _ _ hkl, if_neg]
        intro he
        rw [hia _ (by omega), lt_countP_iff hs _ _ hkl, he] at hk
        simp only at hk
        omega
    rw [step, sum_keys a l keys hs hcov]
    by_cases hrc' : r ≤ c
    · rw [if_pos hrc', tripletElem_eq trip l hl.1 a r c hrc']
    · rw [if_neg hrc']
      refine keySum_zero a l _ fun e he hk => ?_
      have := hrg _ (hcov e he)
      rw [hk] at this
      simp only at this
      omega

/-- **C22** Full format: valid structure, and for every value array exactly the symmetric matrix given by the triplets. -/
theorem csr_full_correct_partial (trip : List (Nat × Nat)) (dim offset : Nat) (hr : InRange dim trip) (hg : NoGaps trip)
    (hne : trip ≠ []) (l : List Entry) (hl : SortedEntries trip l) (ia0 ja0 first0 : Nat → Nat) :
    ∃ s, scan ia0 dim l = some s ∧
      ValidCSR offset dim (fullFormat offset dim ja0 first0 s).nnz (fullFormat offset dim ja0 first0 s).ia
        (fullFormat offset dim ja0 first0 s).ja ∧
      ∀ (a : Nat → K) (r c : Nat), r < dim → c < dim →
        csrElem offset (fullFormat offset dim ja0 first0 s).ia (fullFormat offset dim ja0 first0 s).ja
          (convertValues (fullFormat offset dim ja0 first0 s) a) r c = tripletElem trip a r c := by
  obtain ⟨s, keys, h0, hs, hja, hia, hcov, hrg, hdl, hdm, hrc, hfull, hv⟩ := scan_spec (K := K) ia0 hl hg hr hne
  have hia0 : s.ia 0 = 0 := by
    rw [hia 0 (by omega), List.countP_eq_zero]; intro κ hκ; have := hrg κ hκ; simp only [decide_eq_true_eq]; omega
  have hian : s.ia dim = keys.length := by
    rw [hia dim le_rfl, List.countP_eq_length]; intro κ hκ; have := hrg κ hκ; simp only [decide_eq_true_eq]; omega
  obtain ⟨hf, hfv⟩ := finv_fold (K := K) offset s keys hrc hja hdm ja0 first0 keys.length le_rfl
  have hloop := foldl_blocks (fillStep offset s) s.ia (fun j => (keyAt keys j).1 - 1) hia0
    { iaT := insertPos s.rc, ja := ja0, first := first0, out := [], rest := s.dbl } dim
    (fun i hi => by rw [hia _ (by omega), hia _ (by omega)]; exact countP_rows_mono keys (Nat.le_succ i))
    (fun i hi j h1 h2 => by
      have hk : j < keys.length := lt_of_lt_of_le h2 (by rw [hia _ (by omega)]; exact List.countP_le_length)
      rw [hia _ (by omega), lt_countP_iff hs _ _ hk] at h2
      rw [hia _ (by omega), ← not_lt, lt_countP_iff hs _ _ hk] at h1
      simp only [keyAt]
      rw [List.getD_eq_getElem _ _ hk]
      omega)
  rw [hian] at hloop
  generalize hF : (List.range keys.length).foldl (fun f j => fillStep offset s ((keyAt keys j).1 - 1) f j)
      { iaT := insertPos s.rc, ja := ja0, first := first0, out := [], rest := s.dbl } = F at hf hfv hloop
  have hconv : fullFormat offset dim ja0 first0 s =
      { ia := fun i => F.iaT i + offset, ja := F.ja, nnz := s.full, first := F.first, dbl := F.out } := by
    unfold fullFormat
    simp only
    rw [hloop]
  have hstart : ∀ r, F.iaT r = start s r := by
    intro r
    cases r with
    | zero => rw [hf.ia0]; rfl
    | succ r => rw [hf.ia, posOf_end s keys hrc]
  have hkey : ∀ j, j < keys.length → keyAt keys j ∈ keys := by
    intro j hj; unfold keyAt; rw [List.getD_eq_getElem _ _ hj]; exact List.getElem_mem _
  refine ⟨s, h0, ?_, ?_⟩
  · rw [hconv]
    refine ⟨?_, ?_, ?_, ?_, ?_⟩
    · simp only; rw [hf.ia0]; omega
    · simp only; rw [hstart, start_eq_full s keys hrc dim hrg, hfull]
    · intro r _
      simp only; rw [hstart, hstart, start_succ]; omega
    · intro r hrd p h1 h2
      simp only [hstart] at *
      obtain ⟨j, hj, ht, rfl⟩ := posOf_surj s keys r p keys.length le_rfl (by omega) (by rw [posOf_end s keys hrc]; omega)
      rw [hf.ja j hj r ht]
      have hb := hrg _ (hkey j hj)
      have ht := (touches_iff _ _).mp ht
      unfold other
      by_cases h : (keyAt keys j).1 - 1 = r
      · rw [if_pos h]; omega
      · rw [if_neg h]; omega
    · intro r hrd p q h1 h2 h3
      simp only [hstart] at *
      obtain ⟨j, hj, ht, rfl⟩ := posOf_surj s keys r p keys.length le_rfl (by omega) (by rw [posOf_end s keys hrc]; omega)
      obtain ⟨j', hj', ht', rfl⟩ := posOf_surj s keys r q keys.length le_rfl (by omega) (by rw [posOf_end s keys hrc]; omega)
      rw [hf.ja j hj r ht, hf.ja j' hj' r ht']
      have hjj : j < j' := by
        by_contra hc
        have := posOf_mono s keys r (show j' ≤ j by omega) (by omega)
        omega
      have hlt : klt (keyAt keys j) (keyAt keys j') := by
        unfold keyAt
        rw [List.getD_eq_getElem _ _ hj, List.getD_eq_getElem _ _ hj']
        exact List.pairwise_iff_getElem.mp hs j j' hj hj' hjj
      have hb := hrg _ (hkey j hj)
      have hb' := hrg _ (hkey j' hj')
      have ht := (touches_iff _ _).mp ht
      have ht' := (touches_iff _ _).mp ht'
      unfold klt at hlt
      unfold other
      by_cases h : (keyAt keys j).1 - 1 = r
      · by_cases h' : (keyAt keys j').1 - 1 = r
        · rw [if_pos h, if_pos h']; omega
        · rw [if_pos h, if_neg h']; omega
      · by_cases h' : (keyAt keys j').1 - 1 = r
        · rw [if_neg h, if_pos h']; omega
        · rw [if_neg h, if_neg h']; omega
  · intro a r c hrd hcd
    rw [hconv]
    have hval : ∀ j < keys.length, touches r (keyAt keys j) = true →
        convertValues { ia := fun i => F.iaT i + offset, ja := F.ja, nnz := s.full, first := F.first, dbl := F.out } a (posOf s keys r j) =
          keySum a l (keyAt keys j) := by
      intro j hj ht
      rw [convertValues_spec]
      simp only
      rw [hf.first j hj r ht, hfv a j hj r ht]
      exact hv a j hj
    have hgoal : csrElem offset (fun i => F.iaT i + offset) F.ja
        (convertValues { ia := fun i => F.iaT i + offset, ja := F.ja, nnz := s.full, first := F.first, dbl := F.out } a) r c =
        keySum a l (min r c + 1, max r c + 1) := by
      unfold csrElem
      have e1 : F.iaT r + offset - offset = start s r := by rw [hstart]; omega
      have e2 : F.iaT (r + 1) + offset - (F.iaT r + offset) = start s (r + 1) - start s r := by rw [hstart, hstart]; omega
      simp only
      rw [e1, e2]
      have := sum_row s keys r (fun p => if F.ja p = c + offset then
        convertValues { ia := fun i => F.iaT i + offset, ja := F.ja, nnz := s.full, first := F.first, dbl := F.out } a p else 0)
        keys.length le_rfl
      rw [posOf_end s keys hrc] at this
      rw [this, ← sum_keys a l keys hs hcov]
      congr 1
      refine List.map_congr_left fun j hj => ?_
      have hj := List.mem_range.mp hj
      have hb := hrg _ (hkey j hj)
      by_cases ht : touches r (keyAt keys j) = true
      · rw [ht, if_pos rfl, hf.ja j hj r ht, hval j hj ht]
        have ht := (touches_iff _ _).mp ht
        have hiff : other r (keyAt keys j) + offset = c + offset ↔ keys.getD j (0, 0) = (min r c + 1, max r c + 1) := by
          change _ ↔ keyAt keys j = _
          rw [Prod.ext_iff]
          unfold other
          by_cases h : (keyAt keys j).1 - 1 = r
          · rw [if_pos h]; simp only; omega
          · rw [if_neg h]; simp only; omega
        by_cases h : keys.getD j (0, 0) = (min r c + 1, max r c + 1)
        · rw [if_pos (hiff.mpr h), if_pos h]
          unfold keyAt
          rw [h]
        · rw [if_neg (fun h' => h (hiff.mp h')), if_neg h]
      · rw [if_neg ht, if_neg]
        intro h
        apply ht
        rw [touches_iff]
        have : keyAt keys j = (min r c + 1, max r c + 1) := h
        rw [this]
        simp only
        omega
    refine hgoal.trans ?_
    by_cases hrc' : r ≤ c
    · rw [tripletElem_eq trip l hl.1 a r c hrc', min_eq_left hrc', max_eq_right hrc']
    · rw [tripletElem_symm, tripletElem_eq trip l hl.1 a c r (by omega), min_eq_right (by omega), max_eq_left (by omega)]

/-- **C22** The precondition "no gaps" is needed: for the triplets `(1,1), (3,3), (3,3)` of a 3×3 matrix (row 2 empty) the row pointers are
wrong — half of element `(2,2)` (counted from 0) of the matrix ends up in row 1, and the duplicate is not recognised. -/
theorem csr_gap_breaks : ∃ s, SortedEntries [(1, 1), (3, 3), (3, 3)] [⟨1, 1, 0⟩, ⟨3, 3, 1⟩, ⟨3, 3, 2⟩] ∧
    InRange 3 [(1, 1), (3, 3), (3, 3)] ∧ scan (fun _ => 0) 3 [⟨1, 1, 0⟩, ⟨3, 3, 1⟩, ⟨3, 3, 2⟩] = some s ∧
    csrElem 0 (triangular 0 s).ia (triangular 0 s).ja (convertValues (triangular 0 s) (fun _ => (1 : ℚ))) 1 2 = 1 ∧
    csrElem 0 (triangular 0 s).ia (triangular 0 s).ja (convertValues (triangular 0 s) (fun _ => (1 : ℚ))) 2 2 = 1 ∧
    tripletElem [(1, 1), (3, 3), (3, 3)] (fun _ => (1 : ℚ)) 1 2 = 0 ∧
    tripletElem [(1, 1), (3, 3), (3, 3)] (fun _ => (1 : ℚ)) 2 2 = 2 := by
  refine ⟨_, ⟨?_, ?_⟩, ?_, rfl, ?_, ?_, ?_, ?_⟩
  · exact List.Perm.of_eq (by decide)
  · simp [Entry.lt]
  · unfold InRange; decide
  all_goals decide +kernel

/-! ### Non-vacuity -/

/-- A pattern with duplicates, lower-triangle entries and an empty last row. -/
def exTrip : List (Nat × Nat) := [(2, 1), (1, 1), (1, 2), (2, 3), (2, 2), (3, 2)]

def exSorted : List Entry := [⟨1, 1, 1⟩, ⟨1, 2, 0⟩, ⟨1, 2, 2⟩, ⟨2, 2, 4⟩, ⟨2, 3, 3⟩, ⟨2, 3, 5⟩]

theorem ex_sorted : SortedEntries exTrip exSorted :=
  ⟨by unfold exTrip exSorted; decide, by unfold exSorted; simp [Entry.lt]⟩

theorem ex_nogaps : NoGaps exTrip := by
  intro p hp q hq r h1 h2
  have : ∀ t ∈ exTrip, 1 ≤ min t.1 t.2 ∧ min t.1 t.2 ≤ 2 := by unfold exTrip; decide
  have hp' := this p hp
  have hq' := this q hq
  have : r = 1 ∨ r = 2 := by omega
  rcases this with rfl | rfl
  · exact ⟨(1, 1), by decide, rfl⟩
  · exact ⟨(2, 2), by decide, rfl⟩

example (ia0 ja0 first0 : Nat → Nat) := csr_full_correct_partial (K := ℚ) exTrip 4 1 (by unfold InRange exTrip; decide) ex_nogaps
  (by unfold exTrip; simp) exSorted ex_sorted ia0 ja0 first0

example (ia0 : Nat → Nat) := csr_triangular_correct_partial (K := ℚ) exTrip 4 0 (by unfold InRange exTrip; decide) ex_nogaps
  (by unfold exTrip; simp) exSorted ex_sorted ia0

end Verif.CSR
