import Verif.Proof.Sens
import Mathlib.Algebra.BigOperators.Group.Finset.Sigma

/-! # Proofs for sIPOPT: the Schur complement -/

namespace Verif.Sens
open Finset
set_option linter.unusedSectionVars false
set_option linter.unusedSimpArgs false
set_option linter.unusedVariables false

section
variable {K : Type} [Field K]

/-! ### `AddData_List` -/

theorem add_new (cols : List Nat) : ∀ (A : Data) (sort : List Nat) , (∀ c ∈ cols, c ∉ A.idx) → cols.Nodup →
    cols.foldl Data.addOne (A, sort, A.idx.length) =
      (⟨A.idx ++ cols, A.val ++ List.replicate cols.length 1⟩, sort ++ (List.range cols.length).map (A.idx.length + ·), A.idx.length + cols.length) := by
  induction cols with
  | nil => intro A sort _ _; simp
  | cons c cols ih =>
    intro A sort h1 h2
    rw [List.nodup_cons] at h2
    rw [List.foldl_cons]
    have hc : c ∉ A.idx := h1 c (by simp)
    have e : Data.addOne (A, sort, A.idx.length) c = ((⟨A.idx ++ [c], A.val ++ [1]⟩ : Data), sort ++ [A.idx.length], (A.idx ++ [c]).length) := by
      unfold Data.addOne
      rw [if_neg hc]
      simp
    rw [e]
    rw [ih ⟨A.idx ++ [c], A.val ++ [1]⟩ (sort ++ [A.idx.length]) ?_ h2.2]
    · simp only [List.append_assoc, List.singleton_append, List.length_append, List.length_cons, List.length_nil]
      refine Prod.ext ?_ (Prod.ext ?_ ?_)
      · simp [List.replicate_succ]
      · simp only [List.range_succ_eq_map, List.map_cons, List.map_map]
        congr 2
        apply List.map_congr_left
        intro a _
        simp only [Function.comp_apply]
        omega
      · show A.idx.length + (0 + 1) + cols.length = A.idx.length + (cols.length + 1)
        omega
    · intro d hd hmem
      simp only [List.mem_append, List.mem_singleton] at hmem
      rcases hmem with hm | hm
      · exact h1 d (by simp [hd]) hm
      · subst hm; exact h2.1 hd

theorem Data.Good.append {A : Data} {n : Nat} (h : A.Good n) (cols : List Nat) (h1 : ∀ c ∈ cols, c ∉ A.idx) (h2 : cols.Nodup) (h3 : ∀ c ∈ cols, c < n) :
    (⟨A.idx ++ cols, A.val ++ List.replicate cols.length 1⟩ : Data).Good n where
  len := by simp [h.len]
  one i hi := by
    simp only [List.length_append] at hi
    by_cases hh : i < A.idx.length
    · rw [List.getD_append _ _ _ _ (by rw [h.len]; exact hh)]; exact h.one i hh
    · rw [List.getD_append_right _ _ _ _ (by rw [h.len]; omega), h.len, List.getD_eq_getElem _ _ (by simp; omega)]
      simp
  lt i hi := by
    simp only [List.length_append] at hi
    by_cases hh : i < A.idx.length
    · rw [List.getD_append _ _ _ _ hh]; exact h.lt i hh
    · rw [List.getD_append_right _ _ _ _ (by omega), List.getD_eq_getElem _ _ (by omega)]
      exact h3 _ (List.getElem_mem _)
  nodup := by
    rw [List.nodup_append]
    exact ⟨h.nodup, h2, fun a ha b hb e => h1 b hb (e ▸ ha)⟩

/-! ### columns -/

/-- the stored columns are columns of the inverse matrix. -/
def PC.Known (p : PC K) (n : Nat) (M : Nat → Nat → K) : Prop :=
  ∀ c l, p.cols c = some l → ∀ i, i < n → mulVec n M (fun j => l.getD j 0) i = if i = c then 1 else 0

theorem computeFrom_spec {E : Env K} {dims : List Nat} {M : Nat → Nat → K} (hE : Exact E dims M) (cs : List Nat) :
    ∀ row (p : PC K), p.A.idx.drop row = cs → p.A.Good dims.sum → p.Known dims.sum M →
      (p.computeFrom E dims cs row).A = p.A ∧ (p.computeFrom E dims cs row).A0 = p.A0 ∧ (p.computeFrom E dims cs row).ncols = p.ncols ∧
      (p.computeFrom E dims cs row).Known dims.sum M ∧ (∀ c ∈ cs, ((p.computeFrom E dims cs row).cols c).isSome) ∧
      (∀ c, (p.cols c).isSome → ((p.computeFrom E dims cs row).cols c).isSome) := by
  induction cs with
  | nil => intro row p _ _ hk; exact ⟨rfl, rfl, rfl, hk, by simp, fun c h => h⟩
  | cons c cs ih =>
    intro row p hd hg hk
    have hrow : row < p.A.idx.length := by
      by_contra hn
      rw [List.drop_eq_nil_of_le (by omega)] at hd
      simp at hd
    have hd1 : p.A.idx[row] = c ∧ p.A.idx.drop (row + 1) = cs := by
      rw [List.drop_eq_getElem_cons hrow, List.cons.injEq] at hd
      exact hd
    have hc : p.A.idx.getD row 0 = c := by rw [List.getD_eq_getElem _ _ hrow]; exact hd1.1
    unfold PC.computeFrom
    cases hcol : p.cols c with
    | some l =>
      dsimp only
      obtain ⟨a1, a2, a3, a4, a5, a6⟩ := ih (row + 1) p hd1.2 hg hk
      refine ⟨a1, a2, a3, a4, ?_, a6⟩
      intro d hdm
      rcases List.mem_cons.1 hdm with e | e
      · rw [e]; exact a6 c (by rw [hcol]; rfl)
      · exact a5 d e
    | none =>
      dsimp only
      have hsh : Shape dims (split dims (List.replicate dims.sum E.junk)) := split_shape _ _ (by simp)
      obtain ⟨r1, r2⟩ := getRow_spec hsh p.A row (hg.lt row hrow)
      obtain ⟨s1, s2⟩ := hE _ r1
      generalize (E.solve (p.A.getRow row (split dims (List.replicate dims.sum E.junk)))).2 = w at s1 s2 ⊢
      obtain ⟨a1, a2, a3, a4, a5, a6⟩ := ih (row + 1) { p with cols := fun j => if j = c then some w.flatten else p.cols j } hd1.2 hg (by
        intro d l hdl i hi
        dsimp only at hdl
        by_cases e : d = c
        · rw [if_pos e] at hdl
          cases hdl
          have := s2 i hi
          rw [r2 i hi, hc, hg.one row hrow] at this
          rw [e]
          rw [Int.cast_one] at this
          exact this
        · rw [if_neg e] at hdl
          exact hk d l hdl i hi)
      refine ⟨a1, a2, a3, a4, ?_, ?_⟩
      · intro d hdm
        rcases List.mem_cons.1 hdm with e | e
        · rw [e]; exact a6 c (by simp)
        · exact a5 d e
      · intro d hdm
        apply a6
        dsimp only
        by_cases e : d = c
        · rw [if_pos e]; rfl
        · rw [if_neg e]; exact hdm

theorem refresh_spec {E : Env K} {dims : List Nat} {M : Nat → Nat → K} (hE : Exact E dims M) (p : PC K) (hg : p.A.Good dims.sum) (hk : p.Known dims.sum M)
    (hf : p.ncols ≠ p.A.idx.length ∨ ∀ c ∈ p.A.idx, (p.cols c).isSome) :
    (p.refresh E dims).A = p.A ∧ (p.refresh E dims).A0 = p.A0 ∧ (p.refresh E dims).ncols = p.A.idx.length ∧
      (p.refresh E dims).Known dims.sum M ∧ ∀ c ∈ p.A.idx, ((p.refresh E dims).cols c).isSome := by
  unfold PC.refresh
  by_cases h : p.ncols ≠ p.A.idx.length
  · rw [if_pos h]
    unfold PC.compute
    obtain ⟨a1, a2, a3, a4, a5, a6⟩ := computeFrom_spec hE p.A.idx 0 { p with ncols := p.A.idx.length } (by simp) hg hk
    exact ⟨a1, a2, a3, a4, a5⟩
  · rw [if_neg h]
    push Not at h
    exact ⟨rfl, rfl, h, hk, hf.resolve_left (by simp [h])⟩

/-! ### the matrix -/

/-- column of the stored matrix. -/
def PC.col (p : PC K) (a : Nat) : List K := (p.cols a).getD []

theorem matrixFrom_spec (p : PC K) (rows : List Nat) (hn : p.ncols = rows.length) (as : List Nat) :
    ∀ c S, (∀ a ∈ as, (p.cols a).isSome) → ∃ S', p.matrixFrom rows as c S = some S' ∧
      (∀ k, k < c * rows.length → S' k = S k) ∧
      ∀ t i, t < as.length → i < rows.length → S' (i + (c + t) * rows.length) = -(p.col (as.getD t 0)).getD (rows.getD i 0) 0 := by
  induction as with
  | nil => intro c S _; exact ⟨S, rfl, fun _ _ => rfl, fun t i ht => by simp at ht⟩
  | cons a as ih =>
    intro c S hs
    unfold PC.matrixFrom
    obtain ⟨col, hcol⟩ := Option.isSome_iff_exists.1 (hs a (by simp))
    rw [hcol]
    dsimp only
    obtain ⟨S', e1, e2, e3⟩ := ih (c + 1) (writeCol col rows (c * p.ncols) S) (fun b hb => hs b (by simp [hb]))
    refine ⟨S', e1, ?_, ?_⟩
    · intro k hk
      rw [e2 k (by rw [Nat.add_mul]; omega)]
      unfold writeCol
      rw [if_neg (by rw [hn]; omega)]
    · intro t i ht hi
      cases t with
      | zero =>
        rw [e2 _ (by have := Nat.succ_mul c rows.length; rw [Nat.add_zero]; show i + c * rows.length < Nat.succ c * rows.length; omega)]
        unfold writeCol
        rw [if_pos (by rw [hn, Nat.add_zero]; omega)]
        have : i + (c + 0) * rows.length - c * p.ncols = i := by rw [hn]; simp
        rw [this]
        unfold PC.col
        simp [hcol]
      | succ t =>
        have := e3 t i (by simpa using ht) hi
        rw [show c + (t + 1) = c + 1 + t by omega]
        simpa using this

/-- linear combination of columns solves the combination of unit vectors. -/
theorem mulVec_add (n : Nat) (M : Nat → Nat → K) (v w : Nat → K) (a : K) (i : Nat) :
    mulVec n M (fun j => v j + a * w j) i = mulVec n M v i + a * mulVec n M w i := by
  unfold mulVec
  rw [Finset.mul_sum, ← Finset.sum_add_distrib]
  exact Finset.sum_congr rfl fun j _ => by ring

theorem mulVec_sum (n m : Nat) (M : Nat → Nat → K) (v : Nat → Nat → K) (a : Nat → K) (i : Nat) :
    mulVec n M (fun j => ∑ k ∈ range m, v k j * a k) i = ∑ k ∈ range m, a k * mulVec n M (v k) i := by
  unfold mulVec
  simp_rw [Finset.mul_sum]
  rw [Finset.sum_comm]
  exact Finset.sum_congr rfl fun k _ => Finset.sum_congr rfl fun j _ => by ring

theorem unique_eq {n : Nat} {M : Nat → Nat → K} (hU : Unique n M) {v w : Nat → K} (h : ∀ i, i < n → mulVec n M v i = mulVec n M w i) :
    ∀ j, j < n → v j = w j := by
  intro j hj
  have := hU (fun j => v j + (-1) * w j) (fun i hi => by rw [mulVec_add, h i hi]; ring) j hj
  linear_combination this

/-- the solution with right-hand side `Aᵀ ν`. -/
theorem comb_columns {n : Nat} {M : Nat → Nat → K} {p : PC K} (hk : p.Known n M) {idx : List Nat} (hs : ∀ c ∈ idx, (p.cols c).isSome) (nu : Nat → K) :
    ∀ i, i < n → mulVec n M (fun j => ∑ k ∈ range idx.length, (p.col (idx.getD k 0)).getD j 0 * nu k) i
      = ∑ k ∈ range idx.length, if idx.getD k 0 = i then nu k else 0 := by
  intro i hi
  rw [mulVec_sum]
  refine Finset.sum_congr rfl fun k hk' => ?_
  have hk'' := Finset.mem_range.1 hk'
  have hm : idx.getD k 0 ∈ idx := by rw [List.getD_eq_getElem _ _ hk'']; exact List.getElem_mem _
  obtain ⟨l, hl⟩ := Option.isSome_iff_exists.1 (hs _ hm)
  have := hk _ l hl i hi
  have e : p.col (idx.getD k 0) = l := by unfold PC.col; rw [hl]; rfl
  rw [e, this]
  by_cases e2 : idx.getD k 0 = i
  · rw [if_pos e2, if_pos e2.symm, mul_one]
  · rw [if_neg e2, if_neg (Ne.symm e2), mul_zero]

theorem sum_at {n : Nat} {A : Data} (h : A.Good n) (nu : Nat → K) {k : Nat} (hk : k < A.idx.length) :
    (∑ l ∈ range A.idx.length, if A.idx.getD l 0 = A.idx.getD k 0 then nu l else 0) = nu k := by
  rw [Finset.sum_eq_single k]
  · rw [if_pos rfl]
  · intro l hl hne
    rw [if_neg]
    intro e
    rw [List.getD_eq_getElem _ _ (Finset.mem_range.1 hl), List.getD_eq_getElem _ _ hk] at e
    exact hne ((List.Nodup.getElem_inj_iff h.nodup).1 e)
  · intro hn; exact absurd (Finset.mem_range.2 hk) hn

/-- the Schur matrix is nonsingular if the components can be fixed. -/
theorem schur_unique {n : Nat} {M : Nat → Nat → K} {A : Data} (hA : A.Good n) {p : PC K} (hk : p.Known n M) (hs : ∀ c ∈ A.idx, (p.cols c).isSome)
    (hF : Fixable n M A.idx) {S : Nat → K}
    (hS : ∀ t i, t < A.idx.length → i < A.idx.length → S (i + t * A.idx.length) = -(p.col (A.idx.getD t 0)).getD (A.idx.getD i 0) 0) :
    Unique A.idx.length (fun i j => S (i + j * A.idx.length)) := by
  intro nu h0 k hk'
  have hc := comb_columns hk hs nu
  have hz := hF (fun j => ∑ k ∈ range A.idx.length, (p.col (A.idx.getD k 0)).getD j 0 * nu k) ?_ ?_
  · have e : ∀ i, i < n → mulVec n M (fun j => ∑ k ∈ range A.idx.length, (p.col (A.idx.getD k 0)).getD j 0 * nu k) i = 0 := by
      intro i hi
      unfold mulVec
      refine Finset.sum_eq_zero fun j hj => ?_
      have := hz j (Finset.mem_range.1 hj)
      dsimp only at this ⊢
      rw [this, mul_zero]
    have := hc (A.idx.getD k 0) (hA.lt k hk')
    rw [e _ (hA.lt k hk'), sum_at hA nu hk'] at this
    exact this.symm
  · intro i hi
    obtain ⟨t, ht, rfl⟩ := List.getElem_of_mem hi
    have := h0 t ht
    unfold mulVec at this
    dsimp only at this
    rw [Finset.sum_congr rfl (fun j hj => by rw [hS j t (Finset.mem_range.1 hj) ht])] at this
    rw [List.getD_eq_getElem _ _ ht] at this
    simp only [neg_mul, Finset.sum_neg_distrib, neg_eq_zero] at this
    exact this
  · intro i hi hn
    rw [hc i hi]
    refine Finset.sum_eq_zero fun k hk => ?_
    rw [if_neg]
    intro e
    apply hn
    rw [← e, List.getD_eq_getElem _ _ (Finset.mem_range.1 hk)]
    exact List.getElem_mem _

/-- `SchurSolve`: the given components get the given values, the other equations hold. -/
theorem schur_solve {E : Env K} {dims : List Nat} {M : Nat → Nat → K} (hE : Exact E dims M) (hLU : LUExact E) (hU : Unique dims.sum M)
    {A : Data} (hA : A.Good dims.sum) {p : PC K} (hk : p.Known dims.sum M) (hs : ∀ c ∈ A.idx, (p.cols c).isSome)
    (hF : Fixable dims.sum M A.idx) {S : Nat → K}
    (hS : ∀ t i, t < A.idx.length → i < A.idx.length → S (i + t * A.idx.length) = -(p.col (A.idx.getD t 0)).getD (A.idx.getD i 0) 0)
    {rhs : Blocks K} (hr : Shape dims rhs) {du : List K} (hdu : du.length = A.idx.length) :
    ∃ b out, (⟨A, some (A.idx.length, S)⟩ : Drv K).solve E dims A rhs du (E.solve rhs).2 = some (b, out) ∧ Shape dims out ∧
      (∀ k, k < A.idx.length → elt out (A.idx.getD k 0) = du.getD k 0) ∧
      ∀ i, i < dims.sum → i ∉ A.idx → mulVec dims.sum M (elt out) i = elt rhs i := by
  obtain ⟨q1, q2⟩ := hE rhs hr
  generalize hKr : (E.solve rhs).2 = Kr at q1 q2
  unfold Drv.solve
  dsimp only
  rw [hdu]
  obtain ⟨m1, m2⟩ := multiply_spec q1 hA
  have hUS := schur_unique hA hk hs hF hS
  generalize hrr : List.zipWith (fun a b => a + 1 * b) ((A.multiply A.idx.length Kr).map fun y => -1 * y) du = r
  have hrl : r.length = A.idx.length := by rw [← hrr]; simp [m1, hdu]
  have hr2 : ∀ i, i < A.idx.length → r.getD i 0 = du.getD i 0 - elt Kr (A.idx.getD i 0) := by
    intro i hi
    rw [← hrr, getD_zipWith (by simp [m1, hdu]) (by simp [m1, hi]), List.getD_eq_getElem (l := List.map _ _) _ (by simp [m1, hi]), List.getElem_map,
      ← List.getD_eq_getElem (A.multiply A.idx.length Kr) 0 (by rw [m1]; exact hi), m2 i hi]
    ring
  obtain ⟨l1, l2⟩ := hLU _ S r hrl hUS
  generalize E.lu A.idx.length S r = nu at l1 l2
  obtain ⟨t1, _⟩ := transMultiply_spec dims hA.lt hA.one nu
  obtain ⟨t2, t3⟩ := transMultiply_at hA nu
  have hsh : Shape dims (scal (-1) (axpy (-1) rhs (A.transMultiply dims nu))) := map_shape (axpy_shape t1 hr _) _
  have hel : ∀ i, i < dims.sum → elt (scal (-1) (axpy (-1) rhs (A.transMultiply dims nu))) i = elt rhs i - elt (A.transMultiply dims nu) i := by
    intro i hi
    unfold scal
    rw [map_elt (axpy_shape t1 hr _) _ hi, axpy_elt t1 hr _ hi]
    ring
  obtain ⟨o1, o2⟩ := hE _ hsh
  generalize E.solve (scal (-1) (axpy (-1) rhs (A.transMultiply dims nu))) = o at o1 o2
  refine ⟨o.1, o.2, rfl, o1, ?_, ?_⟩
  · intro k hk'
    have key : ∀ j, j < dims.sum → elt o.2 j = elt Kr j + (-1) * ∑ k ∈ range A.idx.length, (p.col (A.idx.getD k 0)).getD j 0 * nu.getD k 0 := by
      apply unique_eq hU
      intro i hi
      rw [mulVec_add, comb_columns hk hs (fun k => nu.getD k 0) i hi, o2 i hi, hel i hi, q2 i hi, (transMultiply_spec dims hA.lt hA.one nu).2 i hi]
      ring
    rw [key _ (hA.lt k hk')]
    have := l2 k hk'
    unfold mulVec at this
    dsimp only at this
    rw [Finset.sum_congr rfl (fun j hj => by rw [hS j k (Finset.mem_range.1 hj) hk']), hr2 k hk'] at this
    simp only [neg_mul, Finset.sum_neg_distrib] at this
    linear_combination this
  · intro i hi hn
    rw [o2 i hi, hel i hi, t3 i hi hn, sub_zero]

end
end Verif.Sens
