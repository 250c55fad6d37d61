import Verif.Spec.Reducer
import Mathlib.Data.List.Nodup
import Mathlib.Data.List.Sort
import Mathlib.Data.List.Perm.Basic

set_option linter.unusedSectionVars false
set_option linter.unusedSimpArgs false
set_option linter.unusedVariables false

namespace Verif.Reducer

/-! ## scanning a sorted list with a sentinel -/

/-- number of elements below `i`. -/
def cnt (sk : List Int) (i : Nat) : Nat := sk.countP (fun a => decide (a < (i : Int)))

theorem cnt_zero (sk : List Int) (hp : ∀ a ∈ sk, 0 ≤ a) : cnt sk 0 = 0 := by
  unfold cnt
  rw [List.countP_eq_zero]
  intro a ha
  have := hp a ha
  simp; omega

theorem scan_mem (sk : List Int) (hs : sk.Pairwise (· < ·)) (i : Nat) : (sk ++ [-1]).getD (cnt sk i) (-1) = (i : Int) ↔ (i : Int) ∈ sk := by
  induction sk with
  | nil =>
    simp [cnt]
  | cons a t ih =>
    obtain ⟨h1, h2⟩ := List.pairwise_cons.1 hs
    unfold cnt
    rw [List.countP_cons]
    by_cases h : a < (i : Int)
    · simp only [h, decide_true, if_true]
      have : (a :: t ++ [-1]).getD (cnt t i + 1) (-1) = (t ++ [-1]).getD (cnt t i) (-1) := rfl
      unfold cnt at this ih
      rw [this, ih h2]
      simp; omega
    · have h0 : cnt t i = 0 := by
        unfold cnt
        rw [List.countP_eq_zero]
        intro b hb
        have := h1 b hb
        simp; omega
      unfold cnt at h0
      rw [h0]
      simp only [h, decide_false, Bool.false_eq_true, if_false]
      simp only [Nat.add_zero, List.cons_append, List.getD_cons_zero, List.mem_cons]
      constructor
      · intro hh; exact Or.inl hh.symm
      · rintro (hh | hh)
        · exact hh.symm
        · have := h1 _ hh; omega

theorem cnt_succ (sk : List Int) (hs : sk.Pairwise (· < ·)) (i : Nat) : cnt sk (i + 1) = cnt sk i + if (i : Int) ∈ sk then 1 else 0 := by
  induction sk with
  | nil => simp [cnt]
  | cons a t ih =>
    obtain ⟨h1, h2⟩ := List.pairwise_cons.1 hs
    have ih := ih h2
    unfold cnt at *
    rw [List.countP_cons, List.countP_cons, ih]
    by_cases h : a = (i : Int)
    · have : (i : Int) ∉ t := fun hm => by have := h1 _ hm; omega
      simp only [this, if_false, List.mem_cons, h, true_or, if_true]
      simp
      omega
    · have e : decide (a < ((i + 1 : Nat) : Int)) = decide (a < (i : Int)) := by
        apply decide_eq_decide.2; omega
      rw [e]
      have : ((i : Int) ∈ a :: t) ↔ (i : Int) ∈ t := by
        simp only [List.mem_cons]
        constructor
        · rintro (h' | h')
          · exact absurd h'.symm h
          · exact h'
        · exact Or.inr
      simp only [this]
      omega

/-! ## the keep map -/

/-- constraints kept among the first `i`. -/
def keptTo (sk : List Int) (i : Nat) : List Nat := (List.range i).filter (fun j => decide ((j : Int) ∉ sk))

theorem keptTo_succ (sk : List Int) (i : Nat) : keptTo sk (i + 1) = keptTo sk i ++ if (i : Int) ∈ sk then [] else [i] := by
  unfold keptTo
  rw [List.range_succ, List.filter_append]
  by_cases h : (i : Int) ∈ sk <;> simp [h]

/-- the new number of constraint `i`, or -1. -/
def keepAt (sk : List Int) (i : Nat) : Int := if (i : Int) ∈ sk then -1 else ((keptTo sk i).length : Int)

theorem keep_fold (sk : List Int) (hs : sk.Pairwise (· < ·)) (hp : ∀ a ∈ sk, 0 ≤ a) (m : Nat) :
    (List.range m).foldl (keepStep (sk ++ [-1])) ([], 0, 0) = ((List.range m).map (keepAt sk), (keptTo sk m).length, cnt sk m) := by
  induction m with
  | zero => simp [keptTo, cnt_zero sk hp]
  | succ m ih =>
    rw [List.range_succ, List.foldl_append, ih]
    simp only [List.foldl_cons, List.foldl_nil, keepStep]
    rw [keptTo_succ, cnt_succ sk hs, List.map_append]
    by_cases h : (m : Int) ∈ sk
    · rw [if_pos ((scan_mem sk hs m).2 h)]
      simp [h, keepAt]
    · rw [if_neg (fun h' => h ((scan_mem sk hs m).1 h'))]
      simp [h, keepAt]

theorem keepMap_eq (sk : List Int) (hs : sk.Pairwise (· < ·)) (hp : ∀ a ∈ sk, 0 ≤ a) (m : Nat) :
    keepMap (sk ++ [-1]) m = ((List.range m).map (keepAt sk), (keptTo sk m).length) := by
  unfold keepMap
  rw [keep_fold sk hs hp m]

theorem rd_keep (sk : List Int) (m i : Nat) (hi : i < m) (j : Int) : rd j ((List.range m).map (keepAt sk)) (i : Int) = keepAt sk i := by
  unfold rd
  rw [if_pos (by omega)]
  simp [List.getD_eq_getElem?_getD, hi]

theorem keepAt_nonneg (sk : List Int) (i : Nat) : 0 ≤ keepAt sk i ↔ (i : Int) ∉ sk := by
  unfold keepAt
  by_cases h : (i : Int) ∈ sk <;> simp [h]

theorem keptTo_prefix (sk : List Int) (i m : Nat) (h : i ≤ m) : keptTo sk i <+: keptTo sk m := by
  induction m with
  | zero => have : i = 0 := by omega
            subst this; exact List.prefix_refl _
  | succ m ih =>
    by_cases h' : i = m + 1
    · subst h'; exact List.prefix_refl _
    · rw [keptTo_succ]
      exact (ih (by omega)).trans (List.prefix_append _ _)

theorem keptTo_get (sk : List Int) (i m : Nat) (hi : i < m) (h : (i : Int) ∉ sk) : (keptTo sk m)[(keptTo sk i).length]? = some i := by
  have hp := keptTo_prefix sk (i + 1) m hi
  obtain ⟨t, ht⟩ := hp
  rw [← ht, keptTo_succ, if_neg h]
  simp

theorem keptTo_lt (sk : List Int) (i m : Nat) (hi : i < m) (h : (i : Int) ∉ sk) : (keptTo sk i).length < (keptTo sk m).length :=
  (List.getElem?_eq_some_iff.1 (keptTo_get sk i m hi h)).1

theorem scatter_eq {A : Type} (d : A) (sk : List Int) (m : Nat) (orig out : List A) (hl : out.length = (keptTo sk m).length) :
    scatter d ((List.range m).map (keepAt sk)) m orig out = (keptTo sk m).map (fun i => orig.getD i d) := by
  unfold scatter
  have main : ∀ k, k ≤ m → (List.range k).foldl (fun o (i : Nat) => if 0 ≤ rd (-1) ((List.range m).map (keepAt sk)) (i : Int) then
      o.set (rd (-1) ((List.range m).map (keepAt sk)) (i : Int)).toNat (orig.getD i d) else o) out =
      (keptTo sk k).map (fun i => orig.getD i d) ++ out.drop (keptTo sk k).length := by
    intro k hk
    induction k with
    | zero => simp [keptTo]
    | succ k ih =>
      rw [List.range_succ, List.foldl_append, ih (by omega)]
      simp only [List.foldl_cons, List.foldl_nil]
      rw [rd_keep sk m k (by omega)]
      rw [keptTo_succ]
      by_cases h : (k : Int) ∈ sk
      · rw [if_neg (by rw [keepAt_nonneg]; simpa using h)]
        simp [h]
      · rw [if_pos (by rw [keepAt_nonneg]; exact h)]
        have hlt := keptTo_lt sk k m (by omega) h
        have e : (keepAt sk k).toNat = (keptTo sk k).length := by unfold keepAt; rw [if_neg h]; simp
        rw [e, List.set_append_right _ _ (by simp)]
        simp only [List.length_map, Nat.sub_self, h, if_false, List.map_append, List.map_cons, List.map_nil, List.append_assoc]
        have hd : out.drop (keptTo sk k).length = out[(keptTo sk k).length]'(by omega) :: out.drop ((keptTo sk k).length + 1) :=
          List.drop_eq_getElem_cons _
        rw [hd, List.set_cons_zero]
        simp only [List.length_append, List.length_cons, List.length_nil, List.singleton_append, Nat.zero_add]
  rw [main m (le_refl m), ← hl]
  simp

theorem gather_ext {N : Type} [Zero N] (sk : List Int) (m : Nat) (lam : List N) :
    IsExt (keptTo sk m) m lam (gather ((List.range m).map (keepAt sk)) m lam) := by
  have hv : ∀ i, i < m → (gather ((List.range m).map (keepAt sk)) m lam).getD i 0 =
      if (i : Int) ∈ sk then 0 else lam.getD (keptTo sk i).length 0 := by
    intro i hi
    unfold gather
    rw [List.getD_eq_getElem?_getD, List.getElem?_map, List.getElem?_range hi]
    simp only [Option.map_some, Option.getD_some]
    rw [rd_keep sk m i hi]
    by_cases h : (i : Int) ∈ sk
    · rw [if_neg (by rw [keepAt_nonneg]; simpa using h), if_pos h]
    · rw [if_pos (by rw [keepAt_nonneg]; exact h), if_neg h]
      unfold keepAt rd
      rw [if_neg h, if_pos (by omega)]
      simp
  refine ⟨by simp [gather], ?_, ?_⟩
  · intro j i hj
    have hm : i ∈ keptTo sk m := List.mem_of_getElem? hj
    unfold keptTo at hm
    rw [List.mem_filter, List.mem_range] at hm
    obtain ⟨hi, hs⟩ := hm
    have hs : (i : Int) ∉ sk := by simpa using hs
    rw [hv i hi, if_neg hs]
    have hg := keptTo_get sk i m hi hs
    have hnd : (keptTo sk m).Nodup := List.nodup_range.filter _
    have : j = (keptTo sk i).length := by
      obtain ⟨a1, a2⟩ := List.getElem?_eq_some_iff.1 hj
      obtain ⟨b1, b2⟩ := List.getElem?_eq_some_iff.1 hg
      exact (List.Nodup.getElem_inj_iff hnd).1 (a2.trans b2.symm)
    rw [this]
  · intro i hi
    by_cases h : i < m
    · rw [hv i h, if_pos]
      by_contra hn
      apply hi
      unfold keptTo
      rw [List.mem_filter, List.mem_range]
      exact ⟨h, by simpa using hn⟩
    · rw [List.getD_eq_getElem?_getD, List.getElem?_eq_none (by simp [gather]; omega)]
      rfl

/-! ## the prepared skip lists -/

/-- the skip list without sentinel, numbered from 0. -/
def sk0 (off : Int) (l : List Int) : List Int := (l.insertionSort (· ≤ ·)).map (fun a => a - off)

theorem sort_perm (l : List Int) : (l.insertionSort (· ≤ ·)).Perm l := List.perm_insertionSort _ _

theorem sk0_mem (off : Int) (l : List Int) (a : Int) : a ∈ sk0 off l ↔ a + off ∈ l := by
  unfold sk0
  rw [List.mem_map]
  constructor
  · rintro ⟨b, hb, rfl⟩
    have := (sort_perm l).mem_iff.1 hb
    simpa using this
  · intro h
    exact ⟨a + off, (sort_perm l).mem_iff.2 h, by omega⟩

theorem sk0_sorted (off : Int) (l : List Int) (hn : l.Nodup) : (sk0 off l).Pairwise (· < ·) := by
  unfold sk0
  rw [List.pairwise_map]
  have h1 : (l.insertionSort (· ≤ ·)).Pairwise (· ≤ ·) := List.pairwise_insertionSort _ l
  have h2 : (l.insertionSort (· ≤ ·)).Pairwise (· ≠ ·) := (sort_perm l).nodup_iff.2 hn
  refine (h1.and h2).imp (fun {a b} h => ?_)
  have := h.1
  have := h.2
  simp at *
  omega

theorem decr_mkSkip (s : Style) (l : List Int) : decr s l.length (mkSkip l) = sk0 s.off l ++ [-1] := by
  have hl : (l.insertionSort (· ≤ ·)).length = l.length := List.length_insertionSort _ _
  unfold mkSkip sk0 decr
  cases s with
  | c => simp [Style.off]
  | fortran =>
    simp only [Style.off]
    rw [List.take_append_of_le_length (by omega), List.take_of_length_le (by omega), List.drop_append, hl]
    simp [List.drop_of_length_le (le_of_eq hl)]

theorem kept_eq (off : Int) (m : Nat) (l : List Int) : kept off m l = keptTo (sk0 off l) m := by
  unfold kept keptTo
  congr 1
  funext i
  exact decide_eq_decide.2 (not_congr (sk0_mem off l i).symm)

end Verif.Reducer
