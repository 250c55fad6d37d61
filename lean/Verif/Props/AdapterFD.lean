import Verif.Model.AdapterEval
import Verif.Props.CSR
import Mathlib.Tactic.Linarith
import Mathlib.Algebra.Order.BigOperators.Group.List
import Mathlib.Tactic.FieldSimp
import Mathlib.Tactic.NormNum

/-! # Finite difference Jacobian (C48) -/

set_option linter.unusedSectionVars false
set_option linter.unusedSimpArgs false

namespace Verif.AdapterEval

open Verif.CSR (upd scan triangular SortedEntries Entry)

section
variable {F : Type} [Field F] [LinearOrder F] [IsStrictOrderedRing F]

/-- **C48** The points at which the functions are evaluated differ from the current one in one variable only, and stay within the bounds
if the bounds are at least two perturbations apart. -/
theorem pert_in_bounds (eps : F) (he : 0 < eps) (x l u : Nat → F) (j : Nat) (h1 : l j ≤ x j) (h2 : x j ≤ u j)
    (hw : 2 * (eps * max 1 |x j|) ≤ u j - l j) :
    (∀ i, i ≠ j → pertPoint eps x u j i = x i) ∧ pertPoint eps x u j j ≠ x j ∧ l j ≤ pertPoint eps x u j j ∧ pertPoint eps x u j j ≤ u j := by
  have hp : 0 < eps * max 1 |x j| := mul_pos he (lt_of_lt_of_le one_pos (le_max_left _ _))
  refine ⟨fun i hi => by simp [pertPoint, hi], ?_, ?_, ?_⟩ <;> simp only [pertPoint, if_true, pertOf] <;>
    by_cases hc : u j < x j + eps * max 1 |x j|
  · rw [if_pos hc]; intro h; linarith
  · rw [if_neg hc]; intro h; linarith
  · rw [if_pos hc]; linarith
  · rw [if_neg hc]; linarith
  · rw [if_pos hc]; linarith
  · rw [if_neg hc]; linarith

/-- Closer bounds can be violated: between the bounds 0 and 1/2 a variable at 1/4 is moved to -3/4. -/
theorem pert_leaves_bounds : pertPoint (1 : ℚ) (fun _ => 1 / 4) (fun _ => 1 / 2) 0 0 < 0 := by
  simp only [pertPoint, pertOf, if_true]
  rw [abs_of_pos (by norm_num), max_eq_left (by norm_num), if_pos (by norm_num)]
  norm_num

theorem inner_fold (key : Nat → Nat) (val : Nat → F) (L : List Nat) (f : Nat → F) (k : Nat) (q : F) (hq : ∀ p ∈ L, key p = k → val p = q) :
    (L.foldl (fun f p => upd f (key p) (val p)) f) k = if (∃ p ∈ L, key p = k) then q else f k := by
  induction L generalizing f with
  | nil => simp
  | cons p L ih =>
    rw [List.foldl_cons, ih _ fun r hr => hq r (List.mem_cons_of_mem _ hr)]
    by_cases h1 : ∃ r ∈ L, key r = k
    · rw [if_pos h1, if_pos]
      obtain ⟨r, hr, he⟩ := h1
      exact ⟨r, List.mem_cons_of_mem _ hr, he⟩
    · rw [if_neg h1]
      by_cases h2 : key p = k
      · rw [if_pos ⟨p, List.mem_cons_self .., h2⟩]
        unfold upd
        rw [if_pos h2.symm, hq p (List.mem_cons_self ..) h2]
      · rw [if_neg]
        · unfold upd; rw [if_neg fun h => h2 h.symm]
        · rintro ⟨r, hr, he⟩
          rcases List.mem_cons.mp hr with rfl | hr
          · exact h2 he
          · exact h1 ⟨r, hr, he⟩

theorem outer_fold (L : List Nat) (step : Nat → (Nat → F) → (Nat → F)) (hit : Nat → Prop) [DecidablePred hit] (k : Nat) (q : F)
    (hs : ∀ j ∈ L, ∀ f, step j f k = if hit j then q else f k) (f : Nat → F) :
    (L.foldl (fun f j => step j f) f) k = if (∃ j ∈ L, hit j) then q else f k := by
  induction L generalizing f with
  | nil => simp
  | cons j L ih =>
    rw [List.foldl_cons, ih (fun r hr => hs r (List.mem_cons_of_mem _ hr))]
    by_cases h1 : ∃ r ∈ L, hit r
    · rw [if_pos h1, if_pos]
      obtain ⟨r, hr, he⟩ := h1
      exact ⟨r, List.mem_cons_of_mem _ hr, he⟩
    · rw [if_neg h1, hs j (List.mem_cons_self ..)]
      by_cases h2 : hit j
      · rw [if_pos h2, if_pos ⟨j, List.mem_cons_self .., h2⟩]
      · rw [if_neg h2, if_neg]
        rintro ⟨r, hr, he⟩
        rcases List.mem_cons.mp hr with rfl | hr
        · exact h2 he
        · exact h1 ⟨r, hr, he⟩

end

/-- Every entry of the list is either a new position or a duplicate. -/
theorem scan_count (ia0 : Nat → Nat) (dim : Nat) (l : List Entry) (s : CSR.Scan) (h : scan ia0 dim l = some s) :
    s.ja.length + s.dbl.length = l.length := by
  cases l with
  | nil => simp [scan] at h
  | cons e l =>
    simp only [scan, Option.some.injEq] at h
    subst h
    have key : ∀ (l : List Entry) (s : CSR.Scan), (l.foldl CSR.scanStep s).ja.length + (l.foldl CSR.scanStep s).dbl.length =
        s.ja.length + s.dbl.length + l.length := by
      intro l
      induction l with
      | nil => intro s; simp
      | cons e l ih =>
        intro s
        rw [List.foldl_cons, ih, List.length_cons]
        have : (CSR.scanStep s e).ja.length + (CSR.scanStep s e).dbl.length = s.ja.length + s.dbl.length + 1 := by
          unfold CSR.scanStep
          by_cases hc : s.cur = e.row ∧ s.ja.getLast? = some e.col
          · rw [if_pos hc]; simp; omega
          · rw [if_neg hc]
            have hd : (CSR.countNew s e.row e.col).dbl = s.dbl ∧ (CSR.countNew s e.row e.col).ja = s.ja := by
              unfold CSR.countNew
              by_cases h : e.row ≠ e.col
              · simp only [if_pos h]; exact ⟨trivial, trivial⟩
              · simp only [if_neg h]; exact ⟨trivial, trivial⟩
            simp only
            split <;> simp [hd.1, hd.2] <;> omega
        omega
    simp only [CSR.scanEnd]
    rw [key]
    have h1 : (CSR.scanFirst ia0 e).ja.length = 1 ∧ (CSR.scanFirst ia0 e).dbl.length = 0 := by
      unfold CSR.scanFirst CSR.countNew
      by_cases h : max 1 e.row ≠ e.col
      · simp only [if_pos h]; exact ⟨rfl, rfl⟩
      · simp only [if_neg h]; exact ⟨rfl, rfl⟩
    rw [h1.1, h1.2, List.length_cons]
    omega

/-- The variables that appear in some constraint have consecutive numbers. -/
def VarsConsecutive (jac : List (Nat × Nat)) : Prop := ∀ e1 ∈ jac, ∀ e2 ∈ jac, ∀ j, e1.2 ≤ j → j ≤ e2.2 → ∃ e ∈ jac, e.2 = j

section
variable {n m : Nat} {jac : List (Nat × Nat)}

theorem fd_inRange (hr : ∀ e ∈ jac, e.1 < m ∧ e.2 < n) : CSR.InRange (m + n) (fdTriplets n jac) := by
  intro p hp
  obtain ⟨e, he, rfl⟩ := List.mem_map.mp hp
  have := hr e he
  simp only
  omega

theorem fd_noGaps (hr : ∀ e ∈ jac, e.1 < m ∧ e.2 < n) (hv : VarsConsecutive jac) : CSR.NoGaps (fdTriplets n jac) := by
  intro p hp q hq r h1 h2
  obtain ⟨e, he, rfl⟩ := List.mem_map.mp hp
  obtain ⟨e', he', rfl⟩ := List.mem_map.mp hq
  have a1 := hr e he
  have a2 := hr e' he'
  simp only at h1 h2
  obtain ⟨e3, h3, h4⟩ := hv e he e' he' (r - 1) (by omega) (by omega)
  refine ⟨_, List.mem_map.mpr ⟨e3, h3, rfl⟩, ?_⟩
  have a3 := hr e3 h3
  simp only
  omega

theorem sum_pos_of {β : Type} (L : List β) (f : β → ℚ) (h0 : ∀ y ∈ L, 0 ≤ f y) (x : β) (hx : x ∈ L) (h1 : f x = 1) : 0 < (L.map f).sum := by
  induction L with
  | nil => simp at hx
  | cons y L ih =>
    rw [List.map_cons, List.sum_cons]
    have hnn : 0 ≤ (L.map f).sum := by
      refine List.sum_nonneg fun z hz => ?_
      obtain ⟨w, hw, rfl⟩ := List.mem_map.mp hz
      exact h0 w (List.mem_cons_of_mem _ hw)
    rcases List.mem_cons.mp hx with rfl | hx
    · rw [h1]; linarith
    · have := ih (fun z hz => h0 z (List.mem_cons_of_mem _ hz)) hx
      have := h0 y (List.mem_cons_self ..)
      linarith

/-- What the converter provides for the finite difference loop: each entry of the Jacobian is reached from its variable with its constraint,
and nothing else is. -/
theorem fd_structure (hr : ∀ e ∈ jac, e.1 < m ∧ e.2 < n) (hv : VarsConsecutive jac) (hne : jac ≠ [])
    (l : List Entry) (hl : SortedEntries (fdTriplets n jac) l) (ia0 : Nat → Nat) :
    ∃ s, scan ia0 (m + n) l = some s ∧ ((triangular 0 s).nnz = jac.length →
      (∀ k, (hk : k < jac.length) → ∃ p, (triangular 0 s).ia jac[k].2 ≤ p ∧ p < (triangular 0 s).ia (jac[k].2 + 1) ∧ (triangular 0 s).first p = k) ∧
      ∀ j < n, ∀ p, (triangular 0 s).ia j ≤ p → p < (triangular 0 s).ia (j + 1) → ∀ k, (hk : k < jac.length) → (triangular 0 s).first p = k →
        jac[k].2 = j ∧ (triangular 0 s).ja p - n = jac[k].1) := by
  have hne' : fdTriplets n jac ≠ [] := by
    intro h
    exact hne (List.map_eq_nil_iff.mp h)
  obtain ⟨s, hs, hval, hel⟩ := CSR.csr_triangular_correct_partial (K := ℚ) (fdTriplets n jac) (m + n) 0 (fd_inRange hr) (fd_noGaps hr hv)
    hne' l hl ia0
  refine ⟨s, hs, fun hnnz => ?_⟩
  have hlen : l.length = jac.length := by
    have := hl.1.length_eq
    rw [this]
    unfold CSR.entries fdTriplets
    simp
  have hdbl : (triangular 0 s).dbl = [] := by
    have h1 := scan_count ia0 (m + n) l s hs
    have h2 : s.ja.length = jac.length := hnnz
    have : s.dbl.length = 0 := by omega
    exact List.length_eq_zero_iff.mp this
  have hconv : ∀ a : Nat → ℚ, CSR.convertValues (triangular 0 s) a = fun i => a ((triangular 0 s).first i) := by
    intro a; unfold CSR.convertValues; rw [hdbl]; rfl
  -- a triplet in the sum
  have hel2 : ∀ (k r c : Nat), r < m + n → c < m + n →
      CSR.csrElem 0 (triangular 0 s).ia (triangular 0 s).ja (fun i => if (triangular 0 s).first i = k then (1 : ℚ) else 0) r c =
        if r ≤ c then CSR.tripletElem (fdTriplets n jac) (fun i => if i = k then (1 : ℚ) else 0) r c else 0 := by
    intro k r c h1 h2
    have := hel (fun i => if i = k then (1 : ℚ) else 0) r c h1 h2
    rw [hconv] at this
    exact this
  constructor
  · intro k hk
    have hrk := hr jac[k] (List.getElem_mem hk)
    have h1 := hel2 k jac[k].2 (jac[k].1 + n) (by omega) (by omega)
    rw [if_pos (by omega)] at h1
    have hpos : 0 < CSR.tripletElem (fdTriplets n jac) (fun i => if i = k then (1 : ℚ) else 0) jac[k].2 (jac[k].1 + n) := by
      unfold CSR.tripletElem
      have hmem : ((jac[k].2 + 1, jac[k].1 + 1 + n), k) ∈ (fdTriplets n jac).zipIdx := by
        rw [List.mk_mem_zipIdx_iff_getElem?]
        unfold fdTriplets
        simp [List.getElem?_eq_getElem hk]
      refine sum_pos_of _ _ ?_ _ hmem ?_
      · intro y _
        simp only
        split
        · split <;> norm_num
        · norm_num
      · simp only
        rw [if_pos, if_pos trivial]
        left
        congr 1; omega
    rw [← h1] at hpos
    unfold CSR.csrElem at hpos
    by_contra hno
    push Not at hno
    refine absurd hpos (not_lt.mpr (le_of_eq (List.sum_eq_zero ?_)))
    intro x hx
    obtain ⟨p, hp, rfl⟩ := List.mem_map.mp hx
    rw [List.mem_range'_1] at hp
    rw [Nat.sub_zero] at hp
    have := hno p hp.1 (by omega)
    split
    · simp only; rw [if_neg this]
    · rfl
  · intro j hj p hp1 hp2 k hk hf
    obtain ⟨-, -, -, hcol, -⟩ := hval
    have hc := hcol j (by omega) p (by omega) (by omega)
    have h1 := hel2 k j ((triangular 0 s).ja p) (by omega) (by omega)
    have hpos : 0 < CSR.csrElem 0 (triangular 0 s).ia (triangular 0 s).ja (fun i => if (triangular 0 s).first i = k then (1 : ℚ) else 0) j
        ((triangular 0 s).ja p) := by
      unfold CSR.csrElem
      have hmem : p ∈ List.range' ((triangular 0 s).ia j - 0) ((triangular 0 s).ia (j + 1) - (triangular 0 s).ia j) := by
        rw [List.mem_range'_1]; omega
      refine sum_pos_of _ _ ?_ _ hmem ?_
      · intro y _
        simp only
        split
        · split <;> norm_num
        · norm_num
      · simp only
        rw [if_pos (by omega), if_pos hf]
    rw [h1] at hpos
    by_cases hjc : j ≤ (triangular 0 s).ja p
    · rw [if_pos hjc] at hpos
      unfold CSR.tripletElem at hpos
      by_contra hno
      refine absurd hpos (not_lt.mpr (le_of_eq (List.sum_eq_zero ?_)))
      intro x hx
      obtain ⟨⟨tr, i⟩, hq, rfl⟩ := List.mem_map.mp hx
      simp only
      by_cases hi : i = k
      · subst hi
        rw [if_neg]
        intro htr
        rw [List.mk_mem_zipIdx_iff_getElem?] at hq
        unfold fdTriplets at hq
        rw [List.getElem?_map, List.getElem?_eq_getElem hk] at hq
        simp only [Option.map_some, Option.some.injEq] at hq
        have hrk := hr jac[i] (List.getElem_mem hk)
        subst hq
        refine hno ?_
        rcases htr with htr | htr
        · obtain ⟨e1, e2⟩ := Prod.mk.inj htr
          omega
        · obtain ⟨e1, e2⟩ := Prod.mk.inj htr
          omega
      · rw [if_neg hi]; simp
    · rw [if_neg hjc] at hpos
      exact absurd hpos (lt_irrefl _)

variable {F : Type} [Field F] [LinearOrder F] [IsStrictOrderedRing F]

/-- **C48** Finite difference Jacobian: if the variables appearing in constraints have consecutive numbers and no position is given twice,
every entry of a free variable is the difference quotient of its own constraint with respect to its own variable; entries of fixed
variables are not written. -/
theorem findiff_jacobian_partial (hr : ∀ e ∈ jac, e.1 < m ∧ e.2 < n) (hv : VarsConsecutive jac) (hne : jac ≠ [])
    (l : List Entry) (hl : SortedEntries (fdTriplets n jac) l) (ia0 : Nat → Nat) :
    ∃ s, scan ia0 (m + n) l = some s ∧ ((triangular 0 s).nnz = jac.length →
      ∀ (free : Nat → Bool) (eps : F) (g : (Nat → F) → Nat → F) (x u jac0 : Nat → F) (k : Nat) (hk : k < jac.length),
        fdJac (triangular 0 s) n free eps g x u jac0 k =
          if free jac[k].2 then
            (g (pertPoint eps x u jac[k].2) jac[k].1 - g x jac[k].1) / pertOf eps (x jac[k].2) (u jac[k].2)
          else jac0 k) := by
  obtain ⟨s, hs, hst⟩ := fd_structure hr hv hne l hl ia0
  refine ⟨s, hs, fun hnnz free eps g x u jac0 k hk => ?_⟩
  obtain ⟨hex, huniq⟩ := hst hnnz
  obtain ⟨p0, hp1, hp2, hp3⟩ := hex k hk
  have hrk := hr jac[k] (List.getElem_mem hk)
  unfold fdJac
  classical
  rw [outer_fold (List.range n) _ (fun j => free j = true ∧ ∃ p ∈ List.range' ((triangular 0 s).ia j)
    ((triangular 0 s).ia (j + 1) - (triangular 0 s).ia j), (triangular 0 s).first p = k) k
    ((g (pertPoint eps x u jac[k].2) jac[k].1 - g x jac[k].1) / pertOf eps (x jac[k].2) (u jac[k].2))]
  · by_cases hf : free jac[k].2 = true
    · rw [if_pos, if_pos hf]
      refine ⟨jac[k].2, List.mem_range.mpr hrk.2, hf, p0, ?_, hp3⟩
      rw [List.mem_range'_1]; omega
    · rw [if_neg, if_neg hf]
      rintro ⟨j, hj, hfj, p, hp, hpk⟩
      rw [List.mem_range'_1] at hp
      obtain ⟨e1, -⟩ := huniq j (List.mem_range.mp hj) p hp.1 (by omega) k hk hpk
      rw [e1] at hf
      exact hf hfj
  · intro j hj f
    by_cases hf : free j = true
    · rw [if_pos hf, inner_fold (triangular 0 s).first _ _ f k
        ((g (pertPoint eps x u jac[k].2) jac[k].1 - g x jac[k].1) / pertOf eps (x jac[k].2) (u jac[k].2))]
      · by_cases hex2 : ∃ p ∈ List.range' ((triangular 0 s).ia j) ((triangular 0 s).ia (j + 1) - (triangular 0 s).ia j),
            (triangular 0 s).first p = k
        · rw [if_pos hex2, if_pos ⟨hf, hex2⟩]
        · rw [if_neg hex2, if_neg fun h => hex2 h.2]
      · intro p hp hpk
        rw [List.mem_range'_1] at hp
        obtain ⟨e1, e2⟩ := huniq j (List.mem_range.mp hj) p hp.1 (by omega) k hk hpk
        rw [e2, e1]
    · rw [if_neg hf, if_neg fun h => hf h.1]

end

/-- **C48** fails in general: three variables, one constraint `x₀ + 5 x₂` (the second variable appears in no constraint).  The derivative with
respect to the third variable is reported as 0 instead of 5. -/
theorem findiff_jacobian_gap :
    ∃ s, SortedEntries (fdTriplets 3 [(0, 0), (0, 2)]) [⟨1, 4, 0⟩, ⟨3, 4, 1⟩] ∧ scan (fun _ => 0) 4 [⟨1, 4, 0⟩, ⟨3, 4, 1⟩] = some s ∧
      (triangular 0 s).nnz = 2 ∧
      fdJac (triangular 0 s) 3 (fun _ => true) (1 : ℚ) (fun x _ => x 0 + 5 * x 2) (fun _ => 0) (fun _ => 100) (fun _ => 0) 1 = 0 ∧
      ((fun x : Nat → ℚ => x 0 + 5 * x 2) (pertPoint 1 (fun _ => 0) (fun _ => 100) 2) - 0) / pertOf 1 0 100 = 5 := by
  refine ⟨_, ⟨?_, ?_⟩, rfl, rfl, ?_, ?_⟩
  · exact List.Perm.of_eq (by decide)
  · simp [Entry.lt]
  · decide +kernel
  · decide +kernel

/-- Example for the hypotheses: two constraints, two variables. -/
example : ∃ s, scan (fun _ => 7) 4 [⟨1, 3, 0⟩, ⟨2, 3, 2⟩, ⟨2, 4, 1⟩] = some s ∧ (triangular 0 s).nnz = 3 ∧
    (List.range 3).map (fdJac (triangular 0 s) 2 (fun _ => true) (1 : ℚ) (fun x i => if i = 0 then 2 * x 0 + 3 * x 1 else 4 * x 1) (fun _ => 0)
      (fun _ => 100) fun _ => 9) = [2, 4, 3] := by
  refine ⟨_, rfl, rfl, ?_⟩
  decide +kernel

end Verif.AdapterEval
