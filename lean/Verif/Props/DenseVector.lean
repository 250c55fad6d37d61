import Verif.Spec.DenseVector
import Mathlib.Tactic.Ring
import Mathlib.Tactic.Linarith
import Mathlib.Tactic.NormNum
import Mathlib.Tactic.FieldSimp
import Mathlib.Tactic.IntervalCases
import Mathlib.Data.Rat.Defs
import Mathlib.Algebra.Order.Field.Rat
import Mathlib.Algebra.BigOperators.Group.List.Basic
import Mathlib.Algebra.Order.BigOperators.Group.List

/-! # Vectors with uniform storage, fraction to the boundary (C26, C27) -/

set_option linter.unusedSectionVars false
set_option linter.unusedSimpArgs false

namespace Verif.Vec

variable {K : Type} [Field K] [LinearOrder K] [IsStrictOrderedRing K]

theorem DV.elems_length {v : DV K} (h : v.WF) : v.elems.length = v.dim := by
  unfold DV.elems
  cases hh : v.hom with
  | true => simp
  | false => simpa [hh] using h hh

theorem elems_hom {v : DV K} (h : v.hom = true) : v.elems = List.replicate v.dim v.scalar := by simp [DV.elems, h]

theorem elems_vals {v : DV K} (h : v.hom = false) : v.elems = v.vals := by simp [DV.elems, h]

theorem zipWith_replicate_left {α β γ : Type} (f : α → β → γ) (s : α) (l : List β) :
    List.zipWith f (List.replicate l.length s) l = l.map (f s) := by
  induction l with
  | nil => simp
  | cons a l ih => simp [List.replicate_succ, ih]

theorem zipWith_replicate_right {α β γ : Type} (f : α → β → γ) (s : β) (l : List α) :
    List.zipWith f l (List.replicate l.length s) = l.map fun a => f a s := by
  induction l with
  | nil => simp
  | cons a l ih => simp [List.replicate_succ, ih]

/-- All binary element-wise operations that treat the four storage combinations alike. -/
theorem elementWise_elems (f : K → K → K) (y x : DV K) (hy : y.WF) (hx : x.WF) (hd : x.dim = y.dim) :
    (DV.elementWise f y x).elems = List.zipWith f y.elems x.elems := by
  unfold DV.elementWise
  by_cases h0 : y.dim = 0
  · rw [if_pos h0]
    have : y.elems = [] := List.length_eq_zero_iff.mp (by rw [DV.elems_length hy, h0])
    rw [this]; simp
  rw [if_neg h0]
  cases hyh : y.hom with
  | true =>
    cases hxh : x.hom with
    | true => simp [DV.elems, hyh, hxh, hd]
    | false =>
      have := hx hxh
      simp only [Bool.false_eq_true, if_true, if_false]
      rw [elems_hom hyh, elems_vals hxh, ← hd, ← this, zipWith_replicate_left]
      simp [DV.elems]
  | false =>
    have hy' := hy hyh
    cases hxh : x.hom with
    | true =>
      simp only [Bool.false_eq_true, if_true, if_false]
      rw [elems_hom hxh, elems_vals hyh, hd, ← hy', zipWith_replicate_right]
      simp [DV.elems, hyh]
    | false => simp [DV.elems, hyh, hxh]

/-- **C26** Element-wise division, maximum and minimum do not depend on the storage. -/
theorem divide_elems (y x : DV K) (hy : y.WF) (hx : x.WF) (hd : x.dim = y.dim) :
    (y.divide x).elems = List.zipWith (· / ·) y.elems x.elems := elementWise_elems _ y x hy hx hd

theorem eMax_elems (y x : DV K) (hy : y.WF) (hx : x.WF) (hd : x.dim = y.dim) :
    (y.eMax x).elems = List.zipWith max y.elems x.elems := elementWise_elems _ y x hy hx hd

theorem eMin_elems (y x : DV K) (hy : y.WF) (hx : x.WF) (hd : x.dim = y.dim) :
    (y.eMin x).elems = List.zipWith min y.elems x.elems := elementWise_elems _ y x hy hx hd

/-- **C26** Multiplication. -/
theorem multiply_elems (y x : DV K) (hy : y.WF) (hx : x.WF) (hd : x.dim = y.dim) :
    (y.multiply x).elems = List.zipWith (· * ·) y.elems x.elems := by
  rw [← elementWise_elems (· * ·) y x hy hx hd]
  unfold DV.multiply DV.elementWise
  by_cases h1 : x.scalar ≠ 1
  · rw [if_pos h1]
  · rw [if_neg h1]
    have h1 : x.scalar = 1 := not_not.mp h1
    simp only [h1, mul_one, List.map_id']

/-- **C26** `y + α x`. -/
theorem axpy_elems (y : DV K) (α : K) (x : DV K) (hy : y.WF) (hx : x.WF) (hd : x.dim = y.dim) :
    (y.axpy α x).elems = List.zipWith (fun a b => a + α * b) y.elems x.elems := by
  rw [← elementWise_elems (fun a b => a + α * b) y x hy hx hd]
  unfold DV.axpy DV.elementWise
  by_cases h1 : x.scalar ≠ 0
  · rw [if_pos h1]
  · rw [if_neg h1]
    have h1 : x.scalar = 0 := not_not.mp h1
    simp only [h1, mul_zero, add_zero, List.map_id']

theorem elementWise_WF (f : K → K → K) (y x : DV K) (hy : y.WF) (hx : x.WF) (hd : x.dim = y.dim) :
    (DV.elementWise f y x).WF ∧ (DV.elementWise f y x).dim = y.dim := by
  unfold DV.elementWise
  by_cases h0 : y.dim = 0
  · rw [if_pos h0]; exact ⟨hy, rfl⟩
  rw [if_neg h0]
  cases hyh : y.hom with
  | true =>
    cases hxh : x.hom with
    | true => exact ⟨fun h => by simp_all, rfl⟩
    | false => exact ⟨fun h => by simp [hx hxh, hd], rfl⟩
  | false =>
    cases hxh : x.hom with
    | true => exact ⟨fun h => by simp [hy hyh], rfl⟩
    | false => exact ⟨fun h => by simp [hy hyh, hx hxh, hd], rfl⟩

theorem axpy_WF (y : DV K) (α : K) (x : DV K) (hy : y.WF) (hx : x.WF) (hd : x.dim = y.dim) :
    (y.axpy α x).WF ∧ (y.axpy α x).dim = y.dim := by
  have h := elementWise_WF (fun a b => a + α * b) y x hy hx hd
  unfold DV.axpy
  unfold DV.elementWise at h
  by_cases h1 : x.scalar ≠ 0
  · rw [if_pos h1]; exact h
  · rw [if_neg h1]
    have h1 : x.scalar = 0 := not_not.mp h1
    simpa only [h1, mul_zero, add_zero, List.map_id'] using h

/-- **C26** Copying. -/
theorem copy_elems (y x : DV K) (hd : x.dim = y.dim) : (y.copy x).elems = x.elems := by
  unfold DV.copy
  cases hxh : x.hom with
  | true => simp [DV.elems, hxh, hd]
  | false => simp [DV.elems, hxh]

theorem copy_WF (y x : DV K) (hx : x.WF) (hd : x.dim = y.dim) : (y.copy x).WF ∧ (y.copy x).dim = y.dim := by
  unfold DV.copy
  cases hxh : x.hom with
  | true => exact ⟨fun h => by simp_all, rfl⟩
  | false => exact ⟨fun h => by simp [hx hxh, hd], rfl⟩

/-- **C26** Setting all elements. -/
theorem set_elems (y : DV K) (s : K) : (y.set s).elems = List.replicate y.dim s := by simp [DV.set, DV.elems]

/-- **C26** Scaling. -/
theorem scal_elems (y : DV K) (α : K) : (y.scal α).elems = y.elems.map (α * ·) := by
  unfold DV.scal
  by_cases h : α ≠ 1
  · rw [if_pos h]
    cases hy : y.hom with
    | true => simp [DV.elems, hy, mul_comm]
    | false => simp [DV.elems, hy]
  · rw [if_neg h]
    simp [not_not.mp h]

theorem scal_WF (y : DV K) (α : K) (hy : y.WF) : (y.scal α).WF ∧ (y.scal α).dim = y.dim := by
  unfold DV.scal
  by_cases h : α ≠ 1
  · rw [if_pos h]
    cases hyh : y.hom with
    | true => exact ⟨fun h => by simp_all, rfl⟩
    | false => exact ⟨fun h => by simp [hy hyh], rfl⟩
  · rw [if_neg h]; exact ⟨hy, rfl⟩

/-- **C26** Unary operations (reciprocal, absolute value, square root, sign, adding a scalar). -/
theorem mapE_elems (f : K → K) (y : DV K) : (y.mapE f).elems = y.elems.map f := by
  unfold DV.mapE
  cases hy : y.hom with
  | true => simp [DV.elems, hy]
  | false => simp [DV.elems, hy]

/-- **C26** Reading out the elements, and switching to element-by-element storage. -/
theorem expand_elems (y : DV K) : y.expandedValues = y.elems ∧ y.expand.elems = y.elems := by
  unfold DV.expandedValues DV.expand DV.elems
  cases hy : y.hom <;> simp [hy]

/-! ### Reductions -/

theorem foldl_add (l : List K) (s : K) : l.foldl (· + ·) s = s + l.sum := by
  induction l generalizing s with
  | nil => simp
  | cons a l ih => rw [List.foldl_cons, ih, List.sum_cons, add_assoc]

theorem foldl_add_map {α : Type} (f : α → K) (l : List α) (s : K) : l.foldl (fun s b => s + f b) s = s + (l.map f).sum := by
  induction l generalizing s with
  | nil => simp
  | cons a l ih => rw [List.foldl_cons, ih, List.map_cons, List.sum_cons, add_assoc]

theorem sum_replicate' (n : Nat) (s : K) : (List.replicate n s).sum = n * s := by
  rw [List.sum_replicate, nsmul_eq_mul]

/-- **C26** Sum of the elements. -/
theorem sum_elems (y : DV K) : y.sum = y.elems.sum := by
  unfold DV.sum
  cases hy : y.hom with
  | true => simp [DV.elems, hy, sum_replicate']
  | false => simp [DV.elems, hy, foldl_add]

/-- **C26** Inner product. -/
theorem dot_elems (y x : DV K) (hy : y.WF) (hx : x.WF) (hd : x.dim = y.dim) :
    y.dot x = (List.zipWith (· * ·) y.elems x.elems).sum := by
  unfold DV.dot
  by_cases h0 : y.dim = 0
  · rw [if_pos h0]
    have : y.elems = [] := List.length_eq_zero_iff.mp (by rw [DV.elems_length hy, h0])
    rw [this]; simp
  rw [if_neg h0]
  cases hyh : y.hom with
  | true =>
    cases hxh : x.hom with
    | true => simp [DV.elems, hyh, hxh, hd, sum_replicate', mul_assoc]
    | false =>
      have := hx hxh
      simp only [Bool.false_eq_true, if_true, if_false]
      rw [elems_hom hyh, elems_vals hxh, ← hd, ← this, zipWith_replicate_left, foldl_add_map, zero_add]
      congr 1
      exact List.map_congr_left fun b _ => mul_comm b y.scalar
  | false =>
    have hy' := hy hyh
    cases hxh : x.hom with
    | true =>
      simp only [Bool.false_eq_true, if_true, if_false]
      rw [elems_hom hxh, elems_vals hyh, hd, ← hy', zipWith_replicate_right, foldl_add_map, zero_add]
      congr 1
      exact List.map_congr_left fun b _ => mul_comm x.scalar b
    | false =>
      simp only [Bool.false_eq_true, if_false]
      rw [elems_vals hyh, elems_vals hxh, foldl_add, zero_add]
      simp only [mul_comm]

/-- **C26** 1-norm. -/
theorem asum_elems (y : DV K) : y.asum = (y.elems.map fun a => |a|).sum := by
  unfold DV.asum
  cases hy : y.hom with
  | true => simp [DV.elems, hy, sum_replicate']
  | false => simp [DV.elems, hy, foldl_add]

/-- **C26** 2-norm, for every square root function with `√(n s²) = √n |s|`. -/
theorem nrm2_elems (sqrt : K → K) (hs : ∀ (n : Nat) (s : K), sqrt (n * (s * s)) = sqrt n * |s|) (y : DV K) :
    y.nrm2 sqrt = sqrt ((y.elems.map fun a => a * a).sum) := by
  unfold DV.nrm2
  cases hy : y.hom with
  | true => simp [DV.elems, hy, sum_replicate', hs]
  | false => simp [DV.elems, hy, foldl_add]

/-- **C26** Sum of logarithms, for every function `log`. -/
theorem sumLogs_elems (log : K → K) (y : DV K) (hy : y.WF) : y.sumLogs log = (y.elems.map log).sum := by
  unfold DV.sumLogs
  by_cases h0 : y.dim = 0
  · rw [if_pos h0]
    have : y.elems = [] := List.length_eq_zero_iff.mp (by rw [DV.elems_length hy, h0])
    rw [this]; simp
  rw [if_neg h0]
  cases hyh : y.hom with
  | true => simp [DV.elems, hyh, sum_replicate']
  | false => simp [DV.elems, hyh, foldl_add]

theorem foldl_max_spec (l : List K) (m : K) :
    m ≤ l.foldl (fun m b => max b m) m ∧ (∀ a ∈ l, a ≤ l.foldl (fun m b => max b m) m) ∧
      (l.foldl (fun m b => max b m) m = m ∨ l.foldl (fun m b => max b m) m ∈ l) := by
  induction l generalizing m with
  | nil => simp
  | cons a l ih =>
    obtain ⟨h1, h2, h3⟩ := ih (max a m)
    simp only [List.foldl_cons]
    refine ⟨le_trans (le_max_right a m) h1, ?_, ?_⟩
    · intro b hb
      rcases List.mem_cons.mp hb with rfl | hb
      · exact le_trans (le_max_left b m) h1
      · exact h2 b hb
    · rcases h3 with h | h
      · rcases max_choice a m with hm | hm
        · right; rw [h, hm]; exact List.mem_cons_self ..
        · left; rw [h, hm]
      · right; exact List.mem_cons_of_mem _ h

theorem foldl_min_spec (l : List K) (m : K) :
    l.foldl (fun m b => min b m) m ≤ m ∧ (∀ a ∈ l, l.foldl (fun m b => min b m) m ≤ a) ∧
      (l.foldl (fun m b => min b m) m = m ∨ l.foldl (fun m b => min b m) m ∈ l) := by
  induction l generalizing m with
  | nil => simp
  | cons a l ih =>
    obtain ⟨h1, h2, h3⟩ := ih (min a m)
    simp only [List.foldl_cons]
    refine ⟨le_trans h1 (min_le_right a m), ?_, ?_⟩
    · intro b hb
      rcases List.mem_cons.mp hb with rfl | hb
      · exact le_trans h1 (min_le_left b m)
      · exact h2 b hb
    · rcases h3 with h | h
      · rcases min_choice a m with hm | hm
        · right; rw [h, hm]; exact List.mem_cons_self ..
        · left; rw [h, hm]
      · right; exact List.mem_cons_of_mem _ h

/-- **C26** `Max` returns the largest element (`-big` for a vector without elements). -/
theorem maxE_elems (big : K) (y : DV K) (hy : y.WF) :
    (y.elems = [] ∧ y.maxE big = -big) ∨ (y.maxE big ∈ y.elems ∧ ∀ a ∈ y.elems, a ≤ y.maxE big) := by
  unfold DV.maxE
  by_cases h0 : y.dim = 0
  · rw [if_pos h0]
    left
    exact ⟨List.length_eq_zero_iff.mp (by rw [DV.elems_length hy, h0]), rfl⟩
  rw [if_neg h0]
  right
  cases hyh : y.hom with
  | true => simp [DV.elems, hyh, h0]
  | false =>
    have hl := hy hyh
    simp only [DV.elems, hyh, Bool.false_eq_true, if_false]
    cases hv : y.vals with
    | nil => rw [hv] at hl; simp at hl; omega
    | cons a l =>
      obtain ⟨h1, h2, h3⟩ := foldl_max_spec l a
      refine ⟨?_, ?_⟩
      · rcases h3 with h | h
        · simp only; rw [h]; exact List.mem_cons_self ..
        · exact List.mem_cons_of_mem _ h
      · intro b hb
        rcases List.mem_cons.mp hb with rfl | hb
        · exact h1
        · exact h2 b hb

/-- **C26** `Min` returns the smallest element (`big` for a vector without elements). -/
theorem minE_elems (big : K) (y : DV K) (hy : y.WF) :
    (y.elems = [] ∧ y.minE big = big) ∨ (y.minE big ∈ y.elems ∧ ∀ a ∈ y.elems, y.minE big ≤ a) := by
  unfold DV.minE
  by_cases h0 : y.dim = 0
  · rw [if_pos h0]
    left
    exact ⟨List.length_eq_zero_iff.mp (by rw [DV.elems_length hy, h0]), rfl⟩
  rw [if_neg h0]
  right
  cases hyh : y.hom with
  | true => simp [DV.elems, hyh, h0]
  | false =>
    have hl := hy hyh
    simp only [DV.elems, hyh, Bool.false_eq_true, if_false]
    cases hv : y.vals with
    | nil => rw [hv] at hl; simp at hl; omega
    | cons a l =>
      obtain ⟨h1, h2, h3⟩ := foldl_min_spec l a
      refine ⟨?_, ?_⟩
      · rcases h3 with h | h
        · simp only; rw [h]; exact List.mem_cons_self ..
        · exact List.mem_cons_of_mem _ h
      · intro b hb
        rcases List.mem_cons.mp hb with rfl | hb
        · exact h1
        · exact h2 b hb

theorem foldl_max_spec' (l : List K) (m : K) :
    m ≤ l.foldl max m ∧ (∀ a ∈ l, a ≤ l.foldl max m) ∧ (l.foldl max m = m ∨ l.foldl max m ∈ l) := by
  have h := foldl_max_spec l m
  have e : (fun m b : K => max b m) = max := by funext a b; exact max_comm b a
  rw [e] at h
  exact h

/-- **C26** `Amax` returns the largest absolute value (`0` for a vector without elements). -/
theorem amax_elems (y : DV K) (hy : y.WF) :
    (∀ a ∈ y.elems, |a| ≤ y.amax) ∧ ((y.elems = [] ∧ y.amax = 0) ∨ ∃ a ∈ y.elems, y.amax = |a|) := by
  unfold DV.amax
  by_cases h0 : y.dim = 0
  · rw [if_pos h0]
    have : y.elems = [] := List.length_eq_zero_iff.mp (by rw [DV.elems_length hy, h0])
    rw [this]
    simp
  rw [if_neg h0]
  cases hyh : y.hom with
  | true =>
    rw [elems_hom hyh]
    simp [h0]
  | false =>
    have hl := hy hyh
    obtain ⟨h1, h2, h3⟩ := foldl_max_spec' (y.vals.map fun a => |a|) 0
    rw [elems_vals hyh]
    simp only [Bool.false_eq_true, if_false]
    refine ⟨fun a ha => h2 _ (List.mem_map_of_mem ha), Or.inr ?_⟩
    rcases h3 with h | h
    · cases hv : y.vals with
      | nil => rw [hv] at hl; simp at hl; omega
      | cons b l =>
        rw [hv] at h h2
        refine ⟨b, List.mem_cons_self .., ?_⟩
        rw [h]
        have := h2 |b| (by simp)
        rw [h] at this
        exact le_antisymm (abs_nonneg b) this
    · obtain ⟨a, ha, e⟩ := List.mem_map.mp h
      exact ⟨a, ha, e.symm⟩

/-! ### Linear combinations of three vectors -/

theorem set_WF (y : DV K) (s : K) : (y.set s).WF ∧ (y.set s).dim = y.dim := ⟨fun h => by simp [DV.set] at h, rfl⟩

theorem lin_ext (c : K) (u : List K) (a : K) (p : List K) (b : K) (q w : List K) (n : Nat) (hu : u.length = n) (hp : p.length = n)
    (hq : q.length = n) (hw : w.length = n)
    (h : ∀ i (h1 : i < w.length) (h2 : i < u.length) (h3 : i < p.length) (h4 : i < q.length),
      w[i] = c * u[i] + a * p[i] + b * q[i]) : w = lin c u a p b q := by
  apply List.ext_getElem
  · simp [lin, hu, hp, hq, hw]
  · intro i h1 h2
    rw [h i h1 (by omega) (by omega) (by omega)]
    simp [lin]

theorem ite_elim {p : Prop} [Decidable p] {x y r : K} (h1 : p → x = r) (h2 : ¬p → y = r) : (if p then x else y) = r := by
  by_cases h : p
  · rw [if_pos h]; exact h1 h
  · rw [if_neg h]; exact h2 h

/-- **C26** The case distinction on the factors computes `c u + a p + b q`. -/
theorem addTwoElem_eq (a b c u p q : K) : addTwoElem a b c u p q = c * u + a * p + b * q := by
  unfold addTwoElem
  repeat' (apply ite_elim <;> intro h)
  all_goals ((try simp only [*]); ring)

theorem addTwoDefault_elems (y : DV K) (a : K) (v1 : DV K) (b : K) (v2 : DV K) (c : K) (hy : y.WF) (h1 : v1.WF) (h2 : v2.WF)
    (d1 : v1.dim = y.dim) (d2 : v2.dim = y.dim) :
    (y.addTwoDefault a v1 b v2 c).elems = lin c y.elems a v1.elems b v2.elems := by
  have ly := DV.elems_length hy
  have l1 := DV.elems_length h1
  have l2 := DV.elems_length h2
  unfold DV.addTwoDefault
  have hc1 := copy_WF y v1 h1 d1
  have hc2 := copy_WF y v2 h2 d2
  by_cases hc : c = 0
  · rw [if_pos hc]
    by_cases ha : a = 1
    · rw [if_pos ha]
      simp only
      by_cases hb : b = 0
      · rw [if_neg (not_not.mpr hb), copy_elems _ _ d1]
        refine lin_ext _ _ _ _ _ _ _ y.dim ly (by omega) (by omega) (by omega) ?_
        intros; subst_vars; ring
      · rw [if_pos hb, axpy_elems _ _ _ hc1.1 h2 (by rw [hc1.2, d2]), copy_elems _ _ d1]
        refine lin_ext _ _ _ _ _ _ _ y.dim ly (by omega) (by omega) (by simp; omega) ?_
        intros; rw [List.getElem_zipWith]; subst_vars; ring
    · rw [if_neg ha]
      by_cases ha0 : a = 0
      · rw [if_pos ha0]
        by_cases hb : b = 0
        · rw [if_pos hb, set_elems]
          refine lin_ext _ _ _ _ _ _ _ y.dim ly (by omega) (by omega) (by simp) ?_
          intros; rw [List.getElem_replicate]; subst_vars; ring
        · rw [if_neg hb]
          simp only
          by_cases hb1 : b = 1
          · rw [if_neg (not_not.mpr hb1), copy_elems _ _ d2]
            refine lin_ext _ _ _ _ _ _ _ y.dim ly (by omega) (by omega) (by omega) ?_
            intros; subst_vars; ring
          · rw [if_pos hb1, scal_elems, copy_elems _ _ d2]
            refine lin_ext _ _ _ _ _ _ _ y.dim ly (by omega) (by omega) (by simp; omega) ?_
            intros; rw [List.getElem_map]; subst_vars; ring
      · rw [if_neg ha0]
        by_cases hb1 : b = 1
        · rw [if_pos hb1, axpy_elems _ _ _ hc2.1 h1 (by rw [hc2.2, d1]), copy_elems _ _ d2]
          refine lin_ext _ _ _ _ _ _ _ y.dim ly (by omega) (by omega) (by simp; omega) ?_
          intros; rw [List.getElem_zipWith]; subst_vars; ring
        · rw [if_neg hb1]
          by_cases hb : b = 0
          · rw [if_pos hb, scal_elems, copy_elems _ _ d1]
            refine lin_ext _ _ _ _ _ _ _ y.dim ly (by omega) (by omega) (by simp; omega) ?_
            intros; rw [List.getElem_map]; subst_vars; ring
          · have hs := scal_WF (y.copy v1) a hc1.1
            rw [if_neg hb, axpy_elems _ _ _ hs.1 h2 (by rw [hs.2, hc1.2, d2]), scal_elems, copy_elems _ _ d1]
            refine lin_ext _ _ _ _ _ _ _ y.dim ly (by omega) (by omega) (by simp; omega) ?_
            intros; rw [List.getElem_zipWith, List.getElem_map]; subst_vars; ring
  · rw [if_neg hc]
    simp only
    have key : ∀ z : DV K, z.WF → z.dim = y.dim → z.elems = y.elems.map (c * ·) →
        (if b ≠ 0 then (if a ≠ 0 then z.axpy a v1 else z).axpy b v2 else (if a ≠ 0 then z.axpy a v1 else z)).elems
          = lin c y.elems a v1.elems b v2.elems := by
      intro z hz hzd hze
      have key2 : ∀ z' : DV K, z'.WF → z'.dim = y.dim →
          z'.elems = List.zipWith (fun u p => c * u + a * p) y.elems v1.elems →
          (if b ≠ 0 then z'.axpy b v2 else z').elems = lin c y.elems a v1.elems b v2.elems := by
        intro z' hz' hzd' hze'
        by_cases hb : b = 0
        · rw [if_neg (not_not.mpr hb), hze']
          refine lin_ext _ _ _ _ _ _ _ y.dim ly (by omega) (by omega) (by simp; omega) ?_
          intros; rw [List.getElem_zipWith]; subst_vars; ring
        · rw [if_pos hb, axpy_elems _ _ _ hz' h2 (by omega), hze']
          refine lin_ext _ _ _ _ _ _ _ y.dim ly (by omega) (by omega) (by simp; omega) ?_
          intros; rw [List.getElem_zipWith, List.getElem_zipWith]
      by_cases ha : a = 0
      · simp only [if_neg (not_not.mpr ha)]
        refine key2 z hz hzd ?_
        rw [hze]
        apply List.ext_getElem
        · simp; omega
        · intros; rw [List.getElem_zipWith, List.getElem_map]; subst_vars; ring
      · simp only [if_pos (ne_eq a 0 ▸ ha)]
        have hw := axpy_WF z a v1 hz h1 (by omega)
        refine key2 _ hw.1 (by rw [hw.2, hzd]) ?_
        rw [axpy_elems z a v1 hz h1 (by omega), hze]
        apply List.ext_getElem
        · simp
        · intros; rw [List.getElem_zipWith, List.getElem_map, List.getElem_zipWith]
    by_cases hc1' : c = 1
    · simp only [if_neg (not_not.mpr hc1')]
      exact key y hy rfl (by simp [hc1'])
    · simp only [if_pos (ne_eq c 1 ▸ hc1')]
      have hs := scal_WF y c hy
      exact key _ hs.1 hs.2 (scal_elems y c)

theorem zip3_eq_lin (a b c : K) (n : Nat) (u p q : List K) (hu : u.length = n) (hp : p.length = n) (hq : q.length = n) :
    zip3 (addTwoElem a b c) u p q = lin c u a p b q := by
  refine lin_ext _ _ _ _ _ _ _ n hu hp hq (by simp [zip3, hu, hp, hq]) ?_
  intros
  simp only [zip3, List.getElem_zipWith, addTwoElem_eq]

theorem lin_zero_left (c : K) (u : List K) (p : List K) (b : K) (q : List K) (n : Nat) (hp : p.length = n) :
    lin c u 0 p b q = lin c u 0 (List.replicate n 0) b q := by
  simp only [lin, zero_mul, List.map_replicate]
  rw [show (fun _ : K => (0 : K)) = Function.const K 0 from rfl, List.map_const, hp]

theorem lin_zero_right (c : K) (u : List K) (a : K) (p : List K) (q : List K) (n : Nat) (hq : q.length = n) :
    lin c u a p 0 q = lin c u a p 0 (List.replicate n 0) := by
  simp only [lin, zero_mul, List.map_replicate]
  rw [show (fun _ : K => (0 : K)) = Function.const K 0 from rfl, List.map_const, hq]

/-- A vector of at most one element makes the misplaced loop harmless. -/
theorem repeatAxpy_small (n : Nat) (u q : List K) (hu : u.length = n) (hq : q.length = n) (hn : n ≤ 1) :
    repeatAxpy n u q = zip3 (addTwoElem 0 1 1) u (List.replicate n 0) q := by
  interval_cases n
  · have := List.length_eq_zero_iff.mp hu; have := List.length_eq_zero_iff.mp hq; subst_vars; simp [repeatAxpy, zip3]
  · obtain ⟨a, rfl⟩ := List.length_eq_one_iff.mp hu
    obtain ⟨b, rfl⟩ := List.length_eq_one_iff.mp hq
    simp [repeatAxpy, zip3, addTwoElem_eq]

/-- **C26** `c·this + a·v1 + b·v2` for every combination of storages, except for the factors `c = 1, a = 0, b = 1` with both the
vector and `v2` stored element by element (see `addTwo_wrong`). -/
theorem addTwo_elems_partial (alloc : List K) (y : DV K) (a : K) (v1 : DV K) (b : K) (v2 : DV K) (c : K) (hy : y.WF) (h1 : v1.WF)
    (h2 : v2.WF) (d1 : v1.dim = y.dim) (d2 : v2.dim = y.dim) (hm : alloc.length = y.dim)
    (hbug : ¬(c = 1 ∧ a = 0 ∧ b = 1) ∨ y.hom = true ∨ v2.hom = true ∨ y.dim ≤ 1) :
    (y.addTwo alloc a v1 b v2 c).elems = lin c y.elems a v1.elems b v2.elems := by
  have ly := DV.elems_length hy
  have l1 := DV.elems_length h1
  have l2 := DV.elems_length h2
  unfold DV.addTwo
  by_cases h0 : y.dim = 0
  · rw [if_pos h0]
    have : y.elems = [] := List.length_eq_zero_iff.mp (by omega)
    rw [this]; simp [lin]
  rw [if_neg h0]
  simp only
  by_cases hh : (c = 0 ∨ y.hom = true) ∧ (decide (a ≠ 0) && v1.hom) = true ∧ (decide (b ≠ 0) && v2.hom) = true
  · rw [if_pos hh]
    obtain ⟨hcy, ha, hb⟩ := hh
    have ha : v1.hom = true := by simp at ha; exact ha.2
    have hb : v2.hom = true := by simp at hb; exact hb.2
    have hcs : ∀ i (hi : i < y.elems.length), (if c ≠ 0 then c * y.scalar else 0) = c * y.elems[i] := by
      intro i hi
      by_cases hc : c = 0
      · rw [if_neg (not_not.mpr hc), hc]; ring
      · rw [if_pos hc]
        have hyh := hcy.resolve_left hc
        simp [elems_hom hyh]
    refine lin_ext _ _ _ _ _ _ _ y.dim ly (by omega) (by omega) (by simp [DV.elems]) ?_
    intro i i1 i2 i3 i4
    rw [← hcs i i2]
    simp [DV.elems, ha, hb]
  rw [if_neg hh]
  have key : ∀ z : DV K, z.WF → z.dim = y.dim → c = 0 ∨ z = y →
      ((if (z.hom || (decide (a ≠ 0) && v1.hom) || (decide (b ≠ 0) && v2.hom)) = true then z.addTwoDefault a v1 b v2 c
        else { z with vals := addTwoValues z.dim a b c z.vals (if a ≠ 0 then v1.vals else List.replicate z.dim 0)
                                (if b ≠ 0 then v2.vals else List.replicate z.dim 0) }).elems)
        = lin c y.elems a v1.elems b v2.elems := by
    intro z hz hzd hzy
    have e : lin c y.elems a v1.elems b v2.elems = lin c z.elems a v1.elems b v2.elems := by
      rcases hzy with hc | rfl
      · subst hc
        simp only [lin, zero_mul]
        rw [show (fun _ : K => (0 : K)) = Function.const K 0 from rfl, List.map_const, List.map_const, ly, DV.elems_length hz, hzd]
      · rfl
    rw [e]
    by_cases hd : (z.hom || (decide (a ≠ 0) && v1.hom) || (decide (b ≠ 0) && v2.hom)) = true
    · rw [if_pos hd]
      exact addTwoDefault_elems z a v1 b v2 c hz h1 h2 (by omega) (by omega)
    · rw [if_neg hd]
      have hzh : z.hom = false := by cases h : z.hom <;> simp [h] at hd ⊢
      have hzl := hz hzh
      have ha1 : a ≠ 0 → v1.hom = false := by
        intro ha; cases h : v1.hom <;> simp [h, ha] at hd ⊢
      have hb1 : b ≠ 0 → v2.hom = false := by
        intro hb; cases h : v2.hom <;> simp [h, hb] at hd ⊢
      have hl1 : (if a ≠ 0 then v1.vals else List.replicate z.dim 0).length = z.dim := by
        by_cases ha : a = 0
        · rw [if_neg (not_not.mpr ha)]; simp
        · rw [if_pos ha, h1 (ha1 ha)]; omega
      have hl2 : (if b ≠ 0 then v2.vals else List.replicate z.dim 0).length = z.dim := by
        by_cases hb : b = 0
        · rw [if_neg (not_not.mpr hb)]; simp
        · rw [if_pos hb, h2 (hb1 hb)]; omega
      have e1 : lin c z.vals a (if a ≠ 0 then v1.vals else List.replicate z.dim 0) b (if b ≠ 0 then v2.vals else List.replicate z.dim 0)
          = lin c z.elems a v1.elems b v2.elems := by
        rw [elems_vals hzh]
        have s1 : ∀ q, lin c z.vals a (if a ≠ 0 then v1.vals else List.replicate z.dim 0) b q = lin c z.vals a v1.elems b q := by
          intro q
          by_cases ha : a = 0
          · rw [if_neg (not_not.mpr ha), ha, lin_zero_left c z.vals v1.elems b q z.dim (by omega)]
          · rw [if_pos ha, elems_vals (ha1 ha)]
        rw [s1]
        by_cases hb : b = 0
        · rw [if_neg (not_not.mpr hb), hb, lin_zero_right c z.vals a v1.elems v2.elems z.dim (by omega)]
        · rw [if_pos hb, elems_vals (hb1 hb)]
      rw [← e1]
      unfold addTwoValues
      by_cases hbad : c = 1 ∧ a = 0 ∧ b = 1
      · rw [if_pos hbad]
        obtain ⟨rfl, rfl, rfl⟩ := hbad
        have hzy : z = y := hzy.resolve_left one_ne_zero
        have hsmall : y.dim ≤ 1 := by
          rcases hbug with h | h | h | h
          · exact absurd ⟨rfl, rfl, rfl⟩ h
          · rw [← hzy, hzh] at h; cases h
          · rw [hb1 one_ne_zero] at h; cases h
          · exact h
        rw [if_neg (not_not.mpr rfl), if_pos one_ne_zero] at *
        rw [repeatAxpy_small z.dim z.vals v2.vals hzl hl2 (by omega),
          zip3_eq_lin 0 1 1 z.dim z.vals _ v2.vals hzl (by simp) hl2]
        simp [DV.elems, hzh]
      · rw [if_neg hbad, zip3_eq_lin a b c z.dim z.vals _ _ hzl hl1 hl2]
        simp [DV.elems, hzh]
  by_cases hc : c = 0
  · rw [if_pos hc]
    refine key { y with hom := false, vals := if y.hom then alloc else y.vals } ?_ rfl (Or.inl hc)
    intro _
    cases hyh : y.hom with
    | true => simp [hm]
    | false => simp [hy hyh]
  · rw [if_neg hc]
    exact key y hy rfl (Or.inr rfl)

/-! ### Adding a quotient -/

theorem zip3_replicate (f : K → K → K → K) (n : Nat) (u p q : List K) (hu : u.length = n) (hp : p.length = n) (hq : q.length = n)
    (w : List K) (hw : w.length = n)
    (h : ∀ i (h1 : i < w.length) (h2 : i < u.length) (h3 : i < p.length) (h4 : i < q.length), w[i] = f u[i] p[i] q[i]) :
    w = zip3 f u p q := by
  apply List.ext_getElem
  · simp [zip3, hu, hp, hq, hw]
  · intro i h1 h2
    rw [h i h1 (by omega) (by omega) (by omega)]
    simp [zip3]

/-- **C26** `c·this + a·z/s` for every combination of storages. -/
theorem addQuotient_elems (alloc : List K) (y : DV K) (a : K) (z s : DV K) (c : K) (hy : y.WF) (hz : z.WF) (hs : s.WF)
    (d1 : z.dim = y.dim) (d2 : s.dim = y.dim) :
    (y.addQuotient alloc a z s c).elems = zip3 (fun u p q => c * u + a * p / q) y.elems z.elems s.elems := by
  have ly := DV.elems_length hy
  have lz := DV.elems_length hz
  have ls := DV.elems_length hs
  unfold DV.addQuotient
  by_cases h0 : y.dim = 0
  · rw [if_pos h0]
    have : y.elems = [] := List.length_eq_zero_iff.mp (by omega)
    rw [this]; simp [zip3]
  rw [if_neg h0]
  by_cases hh : (c = 0 ∨ y.hom = true) ∧ z.hom = true ∧ s.hom = true
  · rw [if_pos hh]
    obtain ⟨hcy, hzh, hsh⟩ := hh
    by_cases hc : c = 0
    · rw [if_pos hc]
      refine zip3_replicate _ y.dim _ _ _ ly (by omega) (by omega) _ (by simp [DV.elems]) ?_
      intro i i1 i2 i3 i4
      simp [DV.elems, hzh, hsh, hc]
    · rw [if_neg hc]
      have hyh := hcy.resolve_left hc
      refine zip3_replicate _ y.dim _ _ _ ly (by omega) (by omega) _ (by simp [DV.elems]) ?_
      intro i i1 i2 i3 i4
      simp [DV.elems, hzh, hsh, hyh]
  rw [if_neg hh]
  by_cases hc : c = 0
  · subst hc
    cases hzh : z.hom with
    | true =>
      have hsh : s.hom = false := by cases h : s.hom <;> simp [h, hzh] at hh ⊢
      have := hs hsh
      refine zip3_replicate _ y.dim _ _ _ ly (by omega) (by omega) _ (by simp [DV.elems, hzh, hsh]; omega) ?_
      intro i i1 i2 i3 i4
      simp [DV.elems, hzh, hsh]
    | false =>
      have := hz hzh
      cases hsh : s.hom with
      | true =>
        refine zip3_replicate _ y.dim _ _ _ ly (by omega) (by omega) _ (by simp [DV.elems, hzh, hsh]; omega) ?_
        intro i i1 i2 i3 i4
        simp [DV.elems, hzh, hsh, mul_comm]
      | false =>
        have := hs hsh
        refine zip3_replicate _ y.dim _ _ _ ly (by omega) (by omega) _ (by simp [DV.elems, hzh, hsh]; omega) ?_
        intro i i1 i2 i3 i4
        simp [DV.elems, hzh, hsh]
  · cases hyh : y.hom with
    | true =>
      cases hzh : z.hom with
      | true =>
        have hsh : s.hom = false := by cases h : s.hom <;> simp [h, hzh, hyh] at hh ⊢
        have := hs hsh
        refine zip3_replicate _ y.dim _ _ _ ly (by omega) (by omega) _ (by simp [DV.elems, hzh, hsh, hyh, hc]; omega) ?_
        intro i i1 i2 i3 i4
        simp [DV.elems, hzh, hsh, hyh, hc]
      | false =>
        have := hz hzh
        cases hsh : s.hom with
        | true =>
          refine zip3_replicate _ y.dim _ _ _ ly (by omega) (by omega) _ (by simp [DV.elems, hzh, hsh, hyh, hc]; omega) ?_
          intro i i1 i2 i3 i4
          simp [DV.elems, hzh, hsh, hyh, hc, mul_comm]
        | false =>
          have := hs hsh
          refine zip3_replicate _ y.dim _ _ _ ly (by omega) (by omega) _ (by simp [DV.elems, hzh, hsh, hyh, hc]; omega) ?_
          intro i i1 i2 i3 i4
          simp [DV.elems, hzh, hsh, hyh, hc]
    | false =>
      have := hy hyh
      cases hzh : z.hom with
      | true =>
        cases hsh : s.hom with
        | true =>
          refine zip3_replicate _ y.dim _ _ _ ly (by omega) (by omega) _ (by simp [DV.elems, hzh, hsh, hyh, hc]; omega) ?_
          intro i i1 i2 i3 i4
          simp [DV.elems, hzh, hsh, hyh, hc]
        | false =>
          have := hs hsh
          refine zip3_replicate _ y.dim _ _ _ ly (by omega) (by omega) _ (by simp [DV.elems, hzh, hsh, hyh, hc]; omega) ?_
          intro i i1 i2 i3 i4
          simp [DV.elems, hzh, hsh, hyh, hc]
      | false =>
        have := hz hzh
        cases hsh : s.hom with
        | true =>
          refine zip3_replicate _ y.dim _ _ _ ly (by omega) (by omega) _ (by simp [DV.elems, hzh, hsh, hyh, hc]; omega) ?_
          intro i i1 i2 i3 i4
          simp [DV.elems, hzh, hsh, hyh, hc, mul_comm]
        | false =>
          have := hs hsh
          refine zip3_replicate _ y.dim _ _ _ ly (by omega) (by omega) _ (by simp [DV.elems, hzh, hsh, hyh, hc, zip3]; omega) ?_
          intro i i1 i2 i3 i4
          simp [DV.elems, hzh, hsh, hyh, hc, zip3]

/-! ### Selecting by sign -/

theorem sign_mul_eq (a b : K) : selectElem a b = if a = 0 then 0 else sign a * b := by
  unfold selectElem sign
  rcases lt_trichotomy a 0 with h | h | h
  · rw [if_neg (not_lt.mpr h.le), if_pos h, if_neg h.ne, if_neg (not_lt.mpr h.le), if_neg h.ne]; ring
  · simp [h]
  · rw [if_pos h, if_neg h.ne', if_pos h]; ring

theorem sign_mul (a b : K) : selectElem a b = sign a * b := by
  rw [sign_mul_eq]
  by_cases h : a = 0
  · simp [h, sign]
  · rw [if_neg h]

theorem sign_of_unit {a : K} (h : a = -1 ∨ a = 0 ∨ a = 1) : sign a = a := by
  unfold sign
  rcases h with rfl | rfl | rfl
  · rw [if_neg (by norm_num), if_neg (by norm_num)]
  · simp
  · simp

/-- **C26** `ElementWiseSelect` multiplies by the sign of the elements of this vector, provided they are `-1`, `0` or `1` when they are
stored as one scalar or when `x` is (see `select_wrong` for the need of this). -/
theorem select_elems_partial (y x : DV K) (hy : y.WF) (hx : x.WF) (hd : x.dim = y.dim)
    (hu : (y.hom = true ∨ x.hom = true) → ∀ a ∈ y.elems, a = -1 ∨ a = 0 ∨ a = 1) :
    (y.select x).elems = List.zipWith (fun a b => sign a * b) y.elems x.elems := by
  have ly := DV.elems_length hy
  have lx := DV.elems_length hx
  unfold DV.select
  by_cases h0 : y.dim = 0
  · rw [if_pos h0]
    have : y.elems = [] := List.length_eq_zero_iff.mp (by omega)
    rw [this]; simp
  rw [if_neg h0]
  cases hyh : y.hom with
  | true =>
    have hs : sign y.scalar = y.scalar := sign_of_unit (hu (Or.inl hyh) _ (by rw [elems_hom hyh]; simp [h0]))
    by_cases hs0 : y.scalar = 0
    · rw [if_pos rfl, if_pos hs0]
      apply List.ext_getElem
      · simp; omega
      · intro i h1 h2
        rw [List.getElem_zipWith]
        simp [DV.elems, hyh, hs0, sign]
    · rw [if_pos rfl, if_neg hs0]
      cases hxh : x.hom with
      | true => simp [DV.elems, hyh, hxh, hd, hs]
      | false =>
        have := hx hxh
        simp only [Bool.false_eq_true, if_false]
        rw [elems_hom hyh, elems_vals hxh, ← hd, ← this, zipWith_replicate_left, hs]
        simp [DV.elems]
  | false =>
    have hy' := hy hyh
    simp only [Bool.false_eq_true, if_false]
    cases hxh : x.hom with
    | true =>
      rw [if_pos rfl, elems_hom hxh, elems_vals hyh, hd, ← hy', zipWith_replicate_right]
      by_cases hx1 : x.scalar = 1
      · rw [if_neg (not_not.mpr hx1), elems_vals hyh]
        rw [elems_vals hyh] at hu
        conv_lhs => rw [← List.map_id y.vals]
        refine List.map_congr_left fun a ha => ?_
        rw [hx1, sign_of_unit (hu (Or.inr hxh) a ha), mul_one]; rfl
      · rw [if_pos hx1]
        simp only [DV.elems, hyh, Bool.false_eq_true, if_false]
        exact List.map_congr_left fun a _ => sign_mul a x.scalar
    | false =>
      simp only [Bool.false_eq_true, if_false, DV.elems, hyh, hxh]
      congr 1
      funext a b
      exact sign_mul a b

/-! ### Copying from and to positions -/

/-- **C26** Copying part of a longer vector. -/
theorem copyFromPos_elems (y x : DV K) (pos : Nat) (hd : pos + y.dim ≤ x.dim) :
    (y.copyFromPos pos x).elems = (x.elems.drop pos).take y.dim := by
  unfold DV.copyFromPos
  cases hxh : x.hom with
  | true =>
    rw [if_pos rfl, set_elems, elems_hom hxh]
    simp only [List.drop_replicate, List.take_replicate]
    congr 1
    omega
  | false => simp [DV.elems, hxh]

/-- **C26** Copying into part of a longer vector, when both are stored element by element (see `copyToPos_wrong`). -/
theorem copyToPos_elems_partial (alloc : List K) (y x : DV K) (pos : Nat) (hy : y.WF) (hx : x.WF) (hyh : y.hom = false)
    (hxh : x.hom = false) (hd : pos + x.dim ≤ y.dim) :
    (y.copyToPos alloc pos x).elems.length = y.dim ∧
      ((y.copyToPos alloc pos x).elems.drop pos).take x.dim = x.elems ∧
      (y.copyToPos alloc pos x).elems.take pos = y.elems.take pos ∧
      (y.copyToPos alloc pos x).elems.drop (pos + x.dim) = y.elems.drop (pos + x.dim) := by
  have h1 := hy hyh
  have h2 := hx hxh
  have hp : min pos y.vals.length = pos := by omega
  simp only [DV.copyToPos, DV.elems, hyh, hxh, writeAt, Bool.false_eq_true, if_false]
  refine ⟨?_, ?_, ?_, ?_⟩
  · simp; omega
  · rw [List.append_assoc, List.drop_append_of_le_length (by simp; omega), List.drop_take_self, List.nil_append, ← h2,
      List.take_left']
    rfl
  · rw [List.append_assoc, List.take_append_of_le_length (by simp; omega), List.take_take, Nat.min_self]
  · rw [← h2, List.drop_left']
    simp; omega

/-! ### Fraction to the boundary -/

theorem foldl_step_spec (τ : K) (l : List (K × K)) (m : K) :
    let r := l.foldl (fun α pd => if pd.2 < 0 then min α (-τ / pd.2 * pd.1) else α) m
    r ≤ m ∧ (∀ pd ∈ l, pd.2 < 0 → r ≤ -τ / pd.2 * pd.1) ∧ (r = m ∨ ∃ pd ∈ l, pd.2 < 0 ∧ r = -τ / pd.2 * pd.1) := by
  induction l generalizing m with
  | nil => simp
  | cons e l ih =>
    simp only [List.foldl_cons]
    by_cases he : e.2 < 0
    · obtain ⟨h1, h2, h3⟩ := ih (min m (-τ / e.2 * e.1))
      simp only [if_pos he]
      refine ⟨le_trans h1 (min_le_left _ _), ?_, ?_⟩
      · intro pd hpd hneg
        rcases List.mem_cons.mp hpd with rfl | hpd
        · exact le_trans h1 (min_le_right _ _)
        · exact h2 pd hpd hneg
      · rcases h3 with h | ⟨pd, hpd, hneg, h⟩
        · rcases min_choice m (-τ / e.2 * e.1) with hm | hm
          · left; rw [h, hm]
          · right; exact ⟨e, List.mem_cons_self .., he, by rw [h, hm]⟩
        · exact Or.inr ⟨pd, List.mem_cons_of_mem _ hpd, hneg, h⟩
    · obtain ⟨h1, h2, h3⟩ := ih m
      simp only [if_neg he]
      refine ⟨h1, ?_, ?_⟩
      · intro pd hpd hneg
        rcases List.mem_cons.mp hpd with rfl | hpd
        · exact absurd hneg he
        · exact h2 pd hpd hneg
      · rcases h3 with h | ⟨pd, hpd, hneg, h⟩
        · exact Or.inl h
        · exact Or.inr ⟨pd, List.mem_cons_of_mem _ hpd, hneg, h⟩

/-- The bound on the step given by one decreasing component. -/
theorem step_le_iff {τ p d α : K} (hd : d < 0) : α ≤ -τ / d * p ↔ (1 - τ) * p ≤ p + α * d := by
  have h : -τ / d * p = τ * p / (-d) := by
    rw [neg_div, div_neg, neg_mul, div_mul_eq_mul_div]
  rw [h, le_div_iff₀ (neg_pos.mpr hd)]
  constructor <;> intro h' <;> nlinarith

/-- A step length that respects all bounds and attains one (or `1`) is the largest one. -/
theorem maxStep_of {τ : K} {x δ : List K} {α : K} (hτ : 0 < τ) (hx : ∀ a ∈ x, 0 < a) (h1 : α ≤ 1)
    (h2 : ∀ pd ∈ List.zip x δ, pd.2 < 0 → α ≤ -τ / pd.2 * pd.1)
    (h3 : α = 1 ∨ ∃ pd ∈ List.zip x δ, pd.2 < 0 ∧ α = -τ / pd.2 * pd.1) : MaxStep τ x δ α := by
  have hpos : 0 < α := by
    rcases h3 with h | ⟨pd, hpd, hneg, h⟩
    · rw [h]; exact one_pos
    · have hp := hx pd.1 (List.of_mem_zip hpd).1
      rw [h]
      exact mul_pos (div_pos_of_neg_of_neg (by linarith) hneg) hp
  refine ⟨hpos, h1, ?_, ?_⟩
  · intro pd hpd
    have hp := hx pd.1 (List.of_mem_zip hpd).1
    by_cases hneg : pd.2 < 0
    · exact (step_le_iff hneg).mp (h2 pd hpd hneg)
    · have : 0 ≤ α * pd.2 := mul_nonneg hpos.le (not_lt.mp hneg)
      nlinarith
  · intro β hβ hβ1 hk
    rcases h3 with h | ⟨pd, hpd, hneg, h⟩
    · rw [h] at hβ; exact absurd hβ (not_lt.mpr hβ1)
    · have := (step_le_iff hneg).mpr (hk pd hpd)
      rw [← h] at this
      exact absurd hβ (not_lt.mpr this)

theorem zip_replicate_left (s : K) (l : List K) : List.zip (List.replicate l.length s) l = l.map fun b => (s, b) := by
  induction l with
  | nil => simp
  | cons a l ih => simp [List.replicate_succ, ih]

theorem zip_replicate_right (s : K) (l : List K) : List.zip l (List.replicate l.length s) = l.map fun a => (a, s) := by
  induction l with
  | nil => simp
  | cons a l ih => simp [List.replicate_succ, ih]

/-- **C27** The step length returned by `FracToBound` is the largest in `(0, 1]` that keeps every slack at `(1 - τ)` times its old
value or more. -/
theorem fracToBound_max (x δ : DV K) (τ : K) (hx : x.WF) (hδ : δ.WF) (hd : δ.dim = x.dim) (hτ : 0 < τ)
    (hpos : ∀ a ∈ x.elems, 0 < a) : MaxStep τ x.elems δ.elems (x.fracToBound δ τ) := by
  unfold DV.fracToBound
  by_cases h0 : x.dim = 0
  · rw [if_pos h0]
    have e : x.elems = [] := List.length_eq_zero_iff.mp (by rw [DV.elems_length hx, h0])
    exact maxStep_of hτ hpos le_rfl (by rw [e]; simp) (Or.inl rfl)
  rw [if_neg h0]
  cases hxh : x.hom with
  | true =>
    rw [if_pos rfl]
    rw [elems_hom hxh] at hpos ⊢
    cases hδh : δ.hom with
    | true =>
      rw [if_pos rfl, elems_hom hδh, hd]
      have hz : ∀ pd ∈ List.zip (List.replicate x.dim x.scalar) (List.replicate x.dim δ.scalar), pd = (x.scalar, δ.scalar) := by
        intro pd hpd
        rw [List.zip_replicate'] at hpd
        exact List.eq_of_mem_replicate hpd
      have hm : (x.scalar, δ.scalar) ∈ List.zip (List.replicate x.dim x.scalar) (List.replicate x.dim δ.scalar) := by
        rw [List.zip_replicate']; simp [h0]
      by_cases hn : δ.scalar < 0
      · rw [if_pos hn]
        refine maxStep_of hτ hpos (min_le_left _ _) ?_ ?_
        · intro pd hpd _; rw [hz pd hpd]; exact min_le_right _ _
        · rcases min_choice 1 (-τ / δ.scalar * x.scalar) with h | h
          · exact Or.inl h
          · exact Or.inr ⟨_, hm, hn, h⟩
      · rw [if_neg hn]
        refine maxStep_of hτ hpos le_rfl ?_ (Or.inl rfl)
        intro pd hpd hneg; rw [hz pd hpd] at hneg; exact absurd hneg hn
    | false =>
      have hl := hδ hδh
      simp only [Bool.false_eq_true, if_false]
      rw [elems_vals hδh]
      have e : List.zip (List.replicate x.dim x.scalar) δ.vals = δ.vals.map fun b => (x.scalar, b) := by
        rw [← hd, ← hl, zip_replicate_left]
      have hs := foldl_step_spec τ (δ.vals.map fun b => (x.scalar, b)) 1
      rw [List.foldl_map] at hs
      rw [← e] at hs
      exact maxStep_of hτ hpos hs.1 hs.2.1 hs.2.2
  | false =>
    have hxl := hx hxh
    simp only [Bool.false_eq_true, if_false]
    rw [elems_vals hxh] at hpos ⊢
    cases hδh : δ.hom with
    | true =>
      rw [if_pos rfl, elems_hom hδh]
      have e : List.zip x.vals (List.replicate δ.dim δ.scalar) = x.vals.map fun a => (a, δ.scalar) := by
        rw [hd, ← hxl, zip_replicate_right]
      by_cases hn : δ.scalar < 0
      · rw [if_pos hn]
        have hs := foldl_step_spec τ (x.vals.map fun a => (a, δ.scalar)) 1
        rw [List.foldl_map] at hs
        simp only [if_pos hn] at hs
        rw [← e] at hs
        exact maxStep_of hτ hpos hs.1 hs.2.1 hs.2.2
      · rw [if_neg hn]
        refine maxStep_of hτ hpos le_rfl ?_ (Or.inl rfl)
        intro pd hpd hneg
        rw [e] at hpd
        obtain ⟨a, _, rfl⟩ := List.mem_map.mp hpd
        exact absurd hneg hn
    | false =>
      simp only [Bool.false_eq_true, if_false]
      rw [elems_vals hδh]
      have hs := foldl_step_spec τ (List.zip x.vals δ.vals) 1
      exact maxStep_of hτ hpos hs.1 hs.2.1 hs.2.2

/-- **C27** In particular the new slacks stay positive for `τ < 1`. -/
theorem fracToBound_pos (x δ : DV K) (τ : K) (hx : x.WF) (hδ : δ.WF) (hd : δ.dim = x.dim) (hτ : 0 < τ) (hτ1 : τ < 1)
    (hpos : ∀ a ∈ x.elems, 0 < a) :
    ∀ a ∈ List.zipWith (fun a b => a + x.fracToBound δ τ * b) x.elems δ.elems, 0 < a := by
  intro a ha
  obtain ⟨-, -, hk, -⟩ := fracToBound_max x δ τ hx hδ hd hτ hpos
  rw [← List.map_uncurry_zip_eq_zipWith] at ha
  obtain ⟨pd, hpd, rfl⟩ := List.mem_map.mp ha
  have hp := hpos pd.1 (List.of_mem_zip hpd).1
  have := hk pd hpd
  have : 0 < (1 - τ) * pd.1 := mul_pos (by linarith) hp
  simp only [Function.uncurry]
  linarith

theorem addTwo_WF (alloc : List K) (y : DV K) (a : K) (v1 : DV K) (b : K) (v2 : DV K) (c : K) (hy : y.WF) (h1 : v1.WF)
    (h2 : v2.WF) (d1 : v1.dim = y.dim) (d2 : v2.dim = y.dim) (hm : alloc.length = y.dim) :
    (y.addTwo alloc a v1 b v2 c).WF ∧ (y.addTwo alloc a v1 b v2 c).dim = y.dim := by
  have hdef : ∀ z : DV K, z.WF → z.dim = y.dim → (z.addTwoDefault a v1 b v2 c).WF ∧ (z.addTwoDefault a v1 b v2 c).dim = y.dim := by
    intro z hz hzd
    have c1 := copy_WF z v1 h1 (by omega)
    have c2 := copy_WF z v2 h2 (by omega)
    unfold DV.addTwoDefault
    simp only
    have ax : ∀ (w : DV K) (t : K) (v : DV K), w.WF → w.dim = y.dim → v.WF → v.dim = y.dim →
        (w.axpy t v).WF ∧ (w.axpy t v).dim = y.dim := by
      intro w t v hw hwd hv hvd
      have := axpy_WF w t v hw hv (by omega)
      exact ⟨this.1, by rw [this.2, hwd]⟩
    have sc : ∀ (w : DV K) (t : K), w.WF → w.dim = y.dim → (w.scal t).WF ∧ (w.scal t).dim = y.dim := by
      intro w t hw hwd
      have := scal_WF w t hw
      exact ⟨this.1, by rw [this.2, hwd]⟩
    have it : ∀ (p : Prop) [Decidable p] (w w' : DV K), (w.WF ∧ w.dim = y.dim) → (w'.WF ∧ w'.dim = y.dim) →
        (if p then w else w').WF ∧ (if p then w else w').dim = y.dim := by
      intro p _ w w' hw hw'
      by_cases h : p
      · rw [if_pos h]; exact hw
      · rw [if_neg h]; exact hw'
    have d1' : (z.copy v1).WF ∧ (z.copy v1).dim = y.dim := ⟨c1.1, by rw [c1.2, hzd]⟩
    have d2' : (z.copy v2).WF ∧ (z.copy v2).dim = y.dim := ⟨c2.1, by rw [c2.2, hzd]⟩
    apply it
    · apply it
      · apply it
        · exact ax _ _ _ d1'.1 d1'.2 h2 d2
        · exact d1'
      · apply it
        · apply it
          · exact ⟨(set_WF z 0).1, by rw [(set_WF z 0).2, hzd]⟩
          · apply it
            · exact sc _ _ d2'.1 d2'.2
            · exact d2'
        · apply it
          · exact ax _ _ _ d2'.1 d2'.2 h1 d1
          · apply it
            · exact sc _ _ d1'.1 d1'.2
            · have := sc (z.copy v1) a d1'.1 d1'.2
              exact ax _ _ _ this.1 this.2 h2 d2
    · have e1 : (if c ≠ 1 then z.scal c else z).WF ∧ (if c ≠ 1 then z.scal c else z).dim = y.dim := it _ _ _ (sc z c hz hzd) ⟨hz, hzd⟩
      have e2 := it (a ≠ 0) _ _ (ax _ a v1 e1.1 e1.2 h1 d1) e1
      exact it _ _ _ (ax _ b v2 e2.1 e2.2 h2 d2) e2
  unfold DV.addTwo
  by_cases h0 : y.dim = 0
  · rw [if_pos h0]; exact ⟨hy, rfl⟩
  rw [if_neg h0]
  simp only
  by_cases hh : (c = 0 ∨ y.hom = true) ∧ (decide (a ≠ 0) && v1.hom) = true ∧ (decide (b ≠ 0) && v2.hom) = true
  · rw [if_pos hh]; exact ⟨fun h => by simp at h, rfl⟩
  rw [if_neg hh]
  have key : ∀ z : DV K, z.WF → z.dim = y.dim →
      (if (z.hom || (decide (a ≠ 0) && v1.hom) || (decide (b ≠ 0) && v2.hom)) = true then z.addTwoDefault a v1 b v2 c
        else { z with vals := addTwoValues z.dim a b c z.vals (if a ≠ 0 then v1.vals else List.replicate z.dim 0)
                                (if b ≠ 0 then v2.vals else List.replicate z.dim 0) }).WF ∧
      (if (z.hom || (decide (a ≠ 0) && v1.hom) || (decide (b ≠ 0) && v2.hom)) = true then z.addTwoDefault a v1 b v2 c
        else { z with vals := addTwoValues z.dim a b c z.vals (if a ≠ 0 then v1.vals else List.replicate z.dim 0)
                                (if b ≠ 0 then v2.vals else List.replicate z.dim 0) }).dim = y.dim := by
    intro z hz hzd
    by_cases hd : (z.hom || (decide (a ≠ 0) && v1.hom) || (decide (b ≠ 0) && v2.hom)) = true
    · rw [if_pos hd]; exact hdef z hz hzd
    · rw [if_neg hd]
      refine ⟨fun hzh => ?_, hzd⟩
      have hzl := hz hzh
      have ha1 : a ≠ 0 → v1.hom = false := by
        intro ha; cases h : v1.hom <;> simp [h, ha] at hd ⊢
      have hb1 : b ≠ 0 → v2.hom = false := by
        intro hb; cases h : v2.hom <;> simp [h, hb] at hd ⊢
      have hl1 : (if a ≠ 0 then v1.vals else List.replicate z.dim 0).length = z.dim := by
        by_cases ha : a = 0
        · rw [if_neg (not_not.mpr ha)]; simp
        · rw [if_pos ha, h1 (ha1 ha)]; omega
      have hl2 : (if b ≠ 0 then v2.vals else List.replicate z.dim 0).length = z.dim := by
        by_cases hb : b = 0
        · rw [if_neg (not_not.mpr hb)]; simp
        · rw [if_pos hb, h2 (hb1 hb)]; omega
      have hra : ∀ k (u : List K) (q : List K), u.length = z.dim → q.length = z.dim → (repeatAxpy k u q).length = z.dim := by
        intro k
        induction k with
        | zero => intro u q hu _; exact hu
        | succ k ih => intro u q hu hq; exact ih _ _ (by simp [hu, hq]) hq
      simp only [addTwoValues]
      by_cases hbad : c = 1 ∧ a = 0 ∧ b = 1
      · rw [if_pos hbad]; exact hra _ _ _ hzl hl2
      · rw [if_neg hbad]; simp only [zip3, List.length_zipWith, hzl, hl1, hl2, Nat.min_self]
  by_cases hc : c = 0
  · rw [if_pos hc]
    refine key { y with hom := false, vals := if y.hom then alloc else y.vals } ?_ rfl
    intro _
    cases hyh : y.hom with
    | true => simp [hm]
    | false => simp [hy hyh]
  · rw [if_neg hc]
    exact key y hy rfl

/-- **C27** The default implementation, used by vector types that do not provide their own, computes a largest step as well. -/
theorem fracToBoundDefault_max (big : K) (alloc : List K) (x δ : DV K) (τ : K) (hx : x.WF) (hδ : δ.WF) (hd : δ.dim = x.dim)
    (hτ : 0 < τ) (hm : alloc.length = x.dim) (hpos : ∀ a ∈ x.elems, 0 < a) :
    MaxStep τ x.elems δ.elems (x.fracToBoundDefault big alloc δ τ) := by
  have lx := DV.elems_length hx
  have lδ := DV.elems_length hδ
  unfold DV.fracToBoundDefault
  by_cases h0 : x.dim = 0
  · rw [if_pos h0]
    have e : x.elems = [] := List.length_eq_zero_iff.mp (by omega)
    exact maxStep_of hτ hpos le_rfl (by rw [e]; simp) (Or.inl rfl)
  rw [if_neg h0]
  simp only
  have hf : (⟨x.dim, true, 0, []⟩ : DV K).WF := fun h => by simp at h
  have hwf := addTwo_WF alloc ⟨x.dim, true, 0, []⟩ (-1 / τ) δ 0 δ 0 hf hδ hδ hd hd hm
  have hadd := addTwo_elems_partial alloc ⟨x.dim, true, 0, []⟩ (-1 / τ) δ 0 δ 0 hf hδ hδ hd hd hm (Or.inr (Or.inl rfl))
  generalize (⟨x.dim, true, 0, []⟩ : DV K).addTwo alloc (-1 / τ) δ 0 δ 0 = w at hwf hadd
  have hdiv := divide_elems w x hwf.1 hx (by rw [hwf.2])
  have hdwf := elementWise_WF (· / ·) w x hwf.1 hx (by rw [hwf.2])
  have hels : (w.divide x).elems = (List.zip x.elems δ.elems).map fun pd => -1 / τ * pd.2 / pd.1 := by
    rw [hdiv, hadd]
    apply List.ext_getElem
    · simp [lin, DV.elems_length hf]; omega
    · intro i h1 h2
      simp [lin, DV.elems]
  have hmax := maxE_elems big (w.divide x) hdwf.1
  generalize (w.divide x).maxE big = α at hmax
  have hzip : (List.zip x.elems δ.elems).length = x.dim := by simp; omega
  rcases hmax with ⟨hnil, -⟩ | ⟨hmem, hle⟩
  · rw [hels] at hnil
    have := congrArg List.length hnil
    simp only [List.length_map, hzip, List.length_nil] at this
    exact absurd this h0
  rw [hels] at hmem hle
  have hle' : ∀ pd ∈ List.zip x.elems δ.elems, -1 / τ * pd.2 / pd.1 ≤ α := fun pd h => hle _ (List.mem_map_of_mem h)
  obtain ⟨pm, hpm, hpme⟩ := List.mem_map.mp hmem
  have hppos : ∀ pd ∈ List.zip x.elems δ.elems, 0 < pd.1 := fun pd h => hpos _ (List.of_mem_zip h).1
  by_cases hα : 0 < α
  · rw [if_pos hα]
    refine maxStep_of hτ hpos (min_le_right _ _) ?_ ?_
    · intro pd hpd hneg
      refine le_trans (min_le_left _ _) ?_
      have h1 := hle' pd hpd
      have hp := hppos pd hpd
      rw [div_le_iff₀ hp, neg_div, neg_mul, one_div, inv_mul_eq_div, ← neg_div, div_le_iff₀ hτ] at h1
      have : -τ / pd.2 * pd.1 = τ * pd.1 / (-pd.2) := by rw [neg_div, div_neg, neg_mul, div_mul_eq_mul_div]
      rw [this, div_le_div_iff₀ hα (by linarith)]
      nlinarith
    · rcases min_choice (1 / α) 1 with h | h
      · right
        have hp := hppos pm hpm
        have hneg : pm.2 < 0 := by
          by_contra hn
          have : -1 / τ * pm.2 / pm.1 ≤ 0 := by
            apply div_nonpos_of_nonpos_of_nonneg _ hp.le
            apply mul_nonpos_of_nonpos_of_nonneg _ (not_lt.mp hn)
            exact div_nonpos_of_nonpos_of_nonneg (by norm_num) hτ.le
          rw [hpme] at this
          exact absurd hα (not_lt.mpr this)
        refine ⟨pm, hpm, hneg, ?_⟩
        rw [h, ← hpme]
        have := hp.ne'
        have := hneg.ne
        have := hτ.ne'
        field_simp
      · exact Or.inl h
  · rw [if_neg hα]
    refine maxStep_of hτ hpos le_rfl ?_ (Or.inl rfl)
    intro pd hpd hneg
    exfalso
    have h1 := hle' pd hpd
    have hp := hppos pd hpd
    have : 0 < -1 / τ * pd.2 / pd.1 := by
      apply div_pos _ hp
      apply mul_pos_of_neg_of_neg _ hneg
      exact div_neg_of_neg_of_pos (by norm_num) hτ
    exact hα (lt_of_lt_of_le this h1)

/-! ### Where the storage does matter, and non-trivial instances -/

/-- **C26, negation** `this + 0·v1 + 1·v2` on vectors stored element by element adds `v2` once per element; stored as scalars it is
added once. -/
theorem addTwo_wrong :
    ((DV.ofList [(1 : ℚ), 2]).addTwo [] 0 (DV.ofList [0, 0]) 1 (DV.ofList [10, 10]) 1).elems = [21, 22] ∧
      ((DV.ofList [(1 : ℚ), 2]).addTwo [] 0 (DV.ofList [0, 0]) 1 ⟨2, true, 10, []⟩ 1).elems = [11, 12] := by
  decide +kernel

/-- **C26, negation** `ElementWiseSelect` depends on the storage of this vector, and of `x`. -/
theorem select_wrong :
    ((DV.ofList [(2 : ℚ), 2]).select (DV.ofList [3, 5])).elems = [3, 5] ∧
      ((⟨2, true, 2, []⟩ : DV ℚ).select (DV.ofList [3, 5])).elems = [6, 10] ∧
      ((DV.ofList [(2 : ℚ), 2]).select (DV.ofList [1, 1])).elems = [1, 1] ∧
      ((DV.ofList [(2 : ℚ), 2]).select ⟨2, true, 1, []⟩).elems = [2, 2] := by
  decide +kernel

/-- **C26, negation** `CopyToPos` with a source stored as one scalar writes the scalar member of the target instead. -/
theorem copyToPos_wrong :
    ((DV.ofList [(1 : ℚ), 2, 3]).copyToPos [] 1 (DV.ofList [7, 7])).elems = [1, 7, 7] ∧
      ((DV.ofList [(1 : ℚ), 2, 3]).copyToPos [] 1 ⟨2, true, 7, []⟩).elems = [1, 0, 0] := by
  decide +kernel

/-- A target stored as one scalar loses its other elements: they become whatever the fresh memory contains. -/
theorem copyToPos_garbage :
    ((⟨3, true, 5, []⟩ : DV ℚ).copyToPos [100, 200, 300] 1 (DV.ofList [7, 7])).elems = [100, 7, 7] := by
  decide +kernel

example : ((⟨3, true, 2, []⟩ : DV ℚ).addTwo [9, 9, 9] 3 (DV.ofList [1, 0, 2]) (-1) ⟨3, true, 4, []⟩ 5).elems = [9, 6, 12] := by
  decide +kernel

example : ((⟨2, true, 2, []⟩ : DV ℚ).addQuotient [] 3 (DV.ofList [1, 4]) ⟨2, true, 2, []⟩ 5).elems = [23 / 2, 16] := by
  decide +kernel

example : (DV.ofList [(1 : ℚ), 4, 2]).fracToBound (DV.ofList [-2, 1, -1]) (9 / 10) = 9 / 20 := by decide +kernel

example : (⟨2, true, 3, []⟩ : DV ℚ).fracToBound ⟨2, true, -6, []⟩ (1 / 2) = 1 / 4 := by decide +kernel

example : (⟨2, true, 3, []⟩ : DV ℚ).fracToBoundDefault 1000 [0, 0] (DV.ofList [-6, 1]) (1 / 2) = 1 / 4 := by decide +kernel

example : (⟨2, true, 3, []⟩ : DV ℚ).WF ∧ (DV.ofList [(1 : ℚ), 4, 2]).WF ∧ (DV.ofList [(1 : ℚ), 4, 2]).dim = 3 :=
  ⟨fun h => by simp at h, fun _ => rfl, rfl⟩

end Verif.Vec
