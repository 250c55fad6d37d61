import Verif.Proof.Sens4
import Mathlib.Data.List.Range

/-! # Proofs for sIPOPT: labels, steps, run -/

namespace Verif.Sens
open Finset
set_option linter.unusedSectionVars false
set_option linter.unusedSimpArgs false
set_option linter.unusedVariables false

/-! ### labels -/

theorem filterMap_if (l : List Nat) (p : Nat → Bool) (f : Nat → Nat) :
    (l.filterMap fun i => if p i = true then some (f i) else none) = (l.filter p).map f := by
  induction l with
  | nil => rfl
  | cons a l ih => cases h : p a <;> simp [h, ih]

theorem initial_eq (base : Nat) (labels : List Nat) :
    initialConstraints base labels = ((List.range labels.length).filter fun i => decide (labels.getD i 0 ≠ 0)).map (base + ·) := by
  unfold initialConstraints
  rw [← filterMap_if]
  congr 1
  funext i
  simp only [decide_eq_true_eq]

theorem filter_labels (labels : List Nat) : (((List.range labels.length).filter fun i => decide (labels.getD i 0 ≠ 0)).map fun i => labels.getD i 0)
    = labels.filter fun l => l ≠ 0 := by
  have e : (List.range labels.length).map (fun i => labels.getD i 0) = labels := by
    apply List.ext_getElem
    · simp
    · intro i h1 h2
      rw [List.getElem_map, List.getElem_range, List.getD_eq_getElem _ _ h2]
  conv_rhs => rw [← e]
  rw [List.filter_map]
  rfl

section
variable {K : Type} [Field K] [LinearOrder K] [IsStrictOrderedRing K]

/-- the value of label `k + 1` is the value of the only variable with this label. -/
theorem measurement_at {E : Env K} {n : Nat} {labels : List Nat} {vals x0 : List K} {k j : Nat} (hk : k < n) (hj : j < vals.length)
    (hl : labels.getD j 0 = k + 1) (hu : ∀ i, i < vals.length → labels.getD i 0 = k + 1 → i = j) :
    (measurement E n labels vals x0).getD k 0 = vals.getD j 0 - x0.getD j 0 := by
  unfold measurement
  have key : ∀ m, m ≤ vals.length →
      ((List.range m).foldl (fun w i => if 0 < labels.getD i 0 then w.set (labels.getD i 0 - 1) (vals.getD i 0 - x0.getD i 0) else w)
        (List.replicate n E.junk)).length = n ∧
      (j < m → ((List.range m).foldl (fun w i => if 0 < labels.getD i 0 then w.set (labels.getD i 0 - 1) (vals.getD i 0 - x0.getD i 0) else w)
        (List.replicate n E.junk)).getD k 0 = vals.getD j 0 - x0.getD j 0) := by
    intro m
    induction m with
    | zero => intro _; simp
    | succ m ih =>
      intro hm
      obtain ⟨i1, i2⟩ := ih (by omega)
      rw [List.range_succ, List.foldl_append]
      simp only [List.foldl_cons, List.foldl_nil]
      generalize (List.range m).foldl _ _ = w at i1 i2
      by_cases h0 : 0 < labels.getD m 0
      · rw [if_pos h0]
        refine ⟨by simp [i1], fun hjm => ?_⟩
        by_cases e : m = j
        · subst e
          rw [hl, Nat.add_sub_cancel, set_getD _ _ _ _ (by omega), if_pos rfl]
        · have hne : labels.getD m 0 ≠ k + 1 := fun h => e (hu m (by omega) h)
          have hne' : k ≠ labels.getD m 0 - 1 := by omega
          rw [List.getD_eq_getElem?_getD, List.getElem?_set_ne hne'.symm, ← List.getD_eq_getElem?_getD]
          exact i2 (by omega)
      · rw [if_neg h0]
        refine ⟨i1, fun hjm => i2 ?_⟩
        have : m ≠ j := by intro e; subst e; omega
        omega
  exact (key vals.length (le_refl _)).2 hj

theorem foldl_max_ge (l : List Nat) : ∀ a, a ≤ l.foldl max a ∧ ∀ b ∈ l, b ≤ l.foldl max a := by
  induction l with
  | nil => intro a; simp
  | cons c l ih =>
    intro a
    obtain ⟨h1, h2⟩ := ih (max a c)
    simp only [List.foldl_cons, List.mem_cons]
    refine ⟨le_trans (le_max_left _ _) h1, ?_⟩
    intro b hb
    rcases hb with rfl | hb
    · exact le_trans (le_max_right _ _) h1
    · exact h2 b hb

theorem foldl_max_le (l : List Nat) (n : Nat) (h : ∀ b ∈ l, b ≤ n) : ∀ a, a ≤ n → l.foldl max a ≤ n := by
  induction l with
  | nil => intro a ha; simpa using ha
  | cons c l ih =>
    intro a ha
    simp only [List.foldl_cons]
    exact ih (fun b hb => h b (by simp [hb])) _ (max_le ha (h c (by simp)))

theorem indexMax_eq {l : List Nat} {n : Nat} (h : n ∈ l) (hl : ∀ b ∈ l, b ≤ n) : indexMax l = n := by
  cases l with
  | nil => simp at h
  | cons a l =>
    unfold indexMax
    obtain ⟨h1, h2⟩ := foldl_max_ge l a
    have h3 := foldl_max_le l n (fun b hb => hl b (by simp [hb])) a (hl a (by simp))
    rcases List.mem_cons.1 h with e | h
    · subst e; exact le_antisymm h3 h1
    · exact le_antisymm h3 (h2 n h)

/-- the labels are used as intended: the labelled equality constraints are labelled 1, …, `n` in this order; in every step every label up
to `n` is used for exactly one variable, no other labels are used, and every variable has a value. -/
structure Prob.Ordered (P : Prob K) (n : Nat) (labels : List Nat) (states : List (List Nat × List K)) : Prop where
  rows : labels.length = P.dims.getD 2 0
  constr : labels.filter (fun l => l ≠ 0) = (List.range n).map (· + 1)
  pos : 0 < n
  used : ∀ s ∈ states, ∀ k, 0 < k → k ≤ n → k ∈ s.1
  once : ∀ s ∈ states, ∀ i j, i < s.1.length → j < s.1.length → 0 < s.1.getD i 0 → s.1.getD i 0 = s.1.getD j 0 → i = j
  le : ∀ s ∈ states, ∀ i, s.1.getD i 0 ≤ n
  vals : ∀ s ∈ states, s.1.length = s.2.length

/-- the change of the right-hand side of equation `i` of the primal-dual system: equality constraint `j` with label `l` changes by the
difference between the new and the current value of the variable with label `l`; the residuals are subtracted on demand. -/
def Prob.change1 (P : Prob K) (labels : List Nat) (s : List Nat × List K) (i : Nat) : K :=
  (if P.dims.getD 0 0 + P.dims.getD 1 0 ≤ i ∧ 0 < labels.getD (i - (P.dims.getD 0 0 + P.dims.getD 1 0)) 0 then
    let v := s.1.idxOf (labels.getD (i - (P.dims.getD 0 0 + P.dims.getD 1 0)) 0)
    s.2.getD v 0 - (P.curr.getD 0 []).getD v 0
  else 0) - if P.kkt then elt P.resid i else 0


variable {P : Prob K}

theorem ofList_one (l : List Nat) : ∀ i, i < (Data.ofList l).idx.length → (Data.ofList l).val.getD i 0 = 1 := by
  intro i hi
  unfold Data.ofList at hi ⊢
  rw [List.getD_eq_getElem _ _ (by simpa using hi)]
  simp

theorem rhs_elt {l : List Nat} (hP : P.OK) (hl : ∀ i, i < l.length → l.getD i 0 < P.dims.sum) (du : List K) :
    Shape P.dims (P.rhs (.ofList l) du) ∧ ∀ i, i < P.dims.sum → elt (P.rhs (.ofList l) du) i =
      (∑ k ∈ range l.length, if l.getD k 0 = i then du.getD k 0 else 0) - if P.kkt then elt P.resid i else 0 := by
  obtain ⟨t1, t2⟩ := transMultiply_spec (K := K) P.dims (A := .ofList l) hl (ofList_one l) du
  unfold Prob.rhs
  cases P.kkt with
  | false => exact ⟨t1, fun i hi => by
      simp only [Bool.false_eq_true, if_false, sub_zero]; rw [t2 i hi]; rfl⟩
  | true =>
    refine ⟨axpy_shape t1 hP.resid _, fun i hi => ?_⟩
    simp only [if_true]
    rw [axpy_elt t1 hP.resid _ hi, t2 i hi]
    have : (Data.ofList l).idx = l := rfl
    rw [this]
    ring

theorem base_lt (hP : P.OK) : P.dims.getD 0 0 + P.dims.getD 1 0 + P.dims.getD 2 0 ≤ P.dims.sum := by
  have h8 := hP.eight
  generalize P.dims = d at h8
  match d, h8 with
  | [a, b, c, d, e, f, g, i], _ => simp; omega

/-- the right-hand side of the system. -/
theorem rhs_change1 (hP : P.OK) {E : Env K} {n : Nat} {labels : List Nat} {states : List (List Nat × List K)} (h : P.Ordered n labels states)
    {s : List Nat × List K} (hs : s ∈ states) :
    Shape P.dims (P.rhs (.ofList (initialConstraints (P.dims.getD 0 0 + P.dims.getD 1 0) labels))
      (measurement E (indexMax (states.getD 0 ([], [])).1) s.1 s.2 (P.curr.getD 0 []))) ∧
    ∀ i, i < P.dims.sum → elt (P.rhs (.ofList (initialConstraints (P.dims.getD 0 0 + P.dims.getD 1 0) labels))
      (measurement E (indexMax (states.getD 0 ([], [])).1) s.1 s.2 (P.curr.getD 0 []))) i = P.change1 labels s i := by
  have hn : indexMax (states.getD 0 ([], [])).1 = n := by
    cases states with
    | nil => simp at hs
    | cons a l =>
      rw [List.getD_cons_zero]
      refine indexMax_eq (h.used a (by simp) n h.pos (le_refl _)) ?_
      intro b hb
      obtain ⟨i, hi, rfl⟩ := List.getElem_of_mem hb
      have := h.le a (by simp) i
      rwa [List.getD_eq_getElem _ _ hi] at this
  rw [hn]
  have hb := base_lt hP
  have hinit := initial_eq (P.dims.getD 0 0 + P.dims.getD 1 0) labels
  have hfl := filter_labels labels
  rw [h.constr] at hfl
  generalize hLd : ((List.range labels.length).filter fun i => decide (labels.getD i 0 ≠ 0)) = L at hinit hfl
  have hmem : ∀ i, i ∈ L ↔ i < labels.length ∧ labels.getD i 0 ≠ 0 := by intro i; rw [← hLd]; simp
  have hLn : L.Nodup := by rw [← hLd]; exact List.nodup_range.filter _
  have hLl : L.length = n := by have := congrArg List.length hfl; simpa using this
  have hLk : ∀ k (hk : k < L.length), labels.getD L[k] 0 = k + 1 := by
    intro k hk
    have : (L.map fun i => labels.getD i 0)[k]'(by simpa using hk) = ((List.range n).map (· + 1))[k]'(by simp; omega) := by
      congr 1
    simpa using this
  have hidx : ∀ k (hk : k < L.length), (initialConstraints (P.dims.getD 0 0 + P.dims.getD 1 0) labels).getD k 0 = P.dims.getD 0 0 + P.dims.getD 1 0 + L[k] := by
    intro k hk
    rw [hinit, List.getD_eq_getElem _ _ (by simpa using hk)]
    simp
  have hil : (initialConstraints (P.dims.getD 0 0 + P.dims.getD 1 0) labels).length = L.length := by rw [hinit]; simp
  obtain ⟨r1, r2⟩ := rhs_elt hP (l := initialConstraints (P.dims.getD 0 0 + P.dims.getD 1 0) labels) (by
    intro k hk
    rw [hil] at hk
    rw [hidx k hk]
    have := ((hmem _).1 (List.getElem_mem hk)).1
    rw [h.rows] at this
    omega) (measurement E n s.1 s.2 (P.curr.getD 0 []))
  refine ⟨r1, fun i hi => ?_⟩
  rw [r2 i hi, hil]
  unfold Prob.change1
  congr 1
  by_cases hc : P.dims.getD 0 0 + P.dims.getD 1 0 ≤ i ∧ 0 < labels.getD (i - (P.dims.getD 0 0 + P.dims.getD 1 0)) 0
  · rw [if_pos hc]
    dsimp only
    generalize hio : i - (P.dims.getD 0 0 + P.dims.getD 1 0) = m at hc
    have hmL : m ∈ L := by
      rw [hmem]
      refine ⟨?_, by omega⟩
      by_contra hh
      have := hc.2
      rw [List.getD_eq_default _ _ (Nat.le_of_not_lt hh)] at this
      exact absurd this (Nat.lt_irrefl 0)
    obtain ⟨k, hk, ek⟩ := List.getElem_of_mem hmL
    have hlab := hLk k hk
    rw [ek] at hlab
    rw [Finset.sum_eq_single k]
    · rw [if_pos (by rw [hidx k hk, ek]; omega), hlab]
      have hm := h.used s hs (k + 1) (by omega) (by omega)
      have hlt := List.idxOf_lt_length_iff.2 hm
      have hat : s.1.getD (s.1.idxOf (k + 1)) 0 = k + 1 := by rw [List.getD_eq_getElem _ _ hlt, List.getElem_idxOf]
      refine measurement_at (by omega) (by rw [← h.vals s hs]; exact hlt) hat ?_
      intro j hj e
      exact (h.once s hs _ _ (by rw [h.vals s hs]; exact hj) hlt (by omega) (by rw [e, hat]))
    · intro l hl hne
      have hl' := Finset.mem_range.1 hl
      rw [hidx l hl', if_neg]
      intro e
      apply hne
      apply (List.Nodup.getElem_inj_iff hLn (hi := hl') (hj := hk)).1
      rw [ek]; omega
    · intro hh; exact absurd (Finset.mem_range.2 hk) hh
  · rw [if_neg hc]
    refine Finset.sum_eq_zero fun l hl => ?_
    have hl' := Finset.mem_range.1 hl
    rw [hidx l hl', if_neg]
    intro e
    apply hc
    refine ⟨by omega, ?_⟩
    have : i - (P.dims.getD 0 0 + P.dims.getD 1 0) = L[l] := by omega
    rw [this, hLk l hl']
    omega

/-- the labels that the flags stand for. -/
def relabel : Nat → List Nat → List Nat
  | _, [] => []
  | c, a :: l => if a = 0 then 0 :: relabel c l else (c + 1) :: relabel (c + 1) l

theorem relabel_length (l : List Nat) : ∀ c, (relabel c l).length = l.length := by
  induction l with
  | nil => intro c; rfl
  | cons a l ih => intro c; unfold relabel; split <;> simp [ih]

theorem relabel_filter (l : List Nat) : ∀ c, (relabel c l).filter (fun l => l ≠ 0) = (List.range (l.countP fun l => l ≠ 0)).map (· + (c + 1)) := by
  induction l with
  | nil => intro c; rfl
  | cons a l ih =>
    intro c
    unfold relabel
    by_cases h : a = 0
    · subst h; simpa using ih c
    · rw [if_neg h, List.filter_cons_of_pos (by simp), ih (c + 1), List.countP_cons_of_pos (by simpa using h), List.range_succ_eq_map, List.map_cons, List.map_map]
      congr 1
      · omega
      · apply List.map_congr_left
        intro k _
        simp only [Function.comp]
        omega

theorem relabel_getD (l : List Nat) : ∀ c j, (relabel c l).getD j 0 = if l.getD j 0 = 0 then 0 else c + (l.take (j + 1)).countP fun l => l ≠ 0 := by
  induction l with
  | nil => intro c j; simp [relabel]
  | cons a l ih =>
    intro c j
    unfold relabel
    by_cases h : a = 0
    · subst h
      rw [if_pos rfl]
      cases j with
      | zero => simp
      | succ j =>
        rw [List.getD_cons_succ, List.getD_cons_succ, ih c j, List.take_succ_cons, List.countP_cons_of_neg (by simp)]
    · rw [if_neg h]
      cases j with
      | zero => rw [List.getD_cons_zero, List.getD_cons_zero, if_neg h, List.take_succ_cons, List.countP_cons_of_pos (by simpa using h)]; simp
      | succ j =>
        rw [List.getD_cons_succ, List.getD_cons_succ, ih (c + 1) j, List.take_succ_cons, List.countP_cons_of_pos (by simpa using h)]
        split
        · rfl
        · omega

theorem initial_flags {base : Nat} {l l' : List Nat} (hl : l.length = l'.length) (h : ∀ i, l.getD i 0 = 0 ↔ l'.getD i 0 = 0) :
    initialConstraints base l = initialConstraints base l' := by
  unfold initialConstraints
  rw [hl]
  congr 1
  funext i
  by_cases e : l.getD i 0 = 0
  · have e' := (h i).1 e
    simp only [e, e', ne_eq, not_true_eq_false, if_false]
  · have e' : ¬ l'.getD i 0 = 0 := fun e' => e ((h i).2 e')
    simp only [e, e', ne_eq, not_false_eq_true, if_true]

theorem initial_relabel (base : Nat) (l : List Nat) : initialConstraints base (relabel 0 l) = initialConstraints base l := by
  apply initial_flags (relabel_length _ _)
  intro i
  rw [relabel_getD]
  by_cases h : l.getD i 0 = 0
  · rw [if_pos h]; exact ⟨fun _ => h, fun _ => rfl⟩
  · rw [if_neg h]
    have hi : i < l.length := by
      by_contra hh
      exact h (List.getD_eq_default _ _ (by omega))
    have hp : 0 < (l.take (i + 1)).countP fun l => l ≠ 0 := by
      rw [List.countP_pos_iff]
      rw [List.getD_eq_getElem _ _ hi] at h
      exact ⟨l[i], List.mem_take_iff_getElem.2 ⟨i, by omega, rfl⟩, by simpa using h⟩
    constructor
    · intro e; omega
    · intro e; exact absurd e h

/-- the right-hand side of the system. -/
theorem rhs_change (hP : P.OK) {E : Env K} {n : Nat} {labels : List Nat} {states : List (List Nat × List K)} (h : P.Labels n labels states)
    {s : List Nat × List K} (hs : s ∈ states) :
    Shape P.dims (P.rhs (.ofList (initialConstraints (P.dims.getD 0 0 + P.dims.getD 1 0) labels))
      (measurement E (indexMax (states.getD 0 ([], [])).1) s.1 s.2 (P.curr.getD 0 []))) ∧
    ∀ i, i < P.dims.sum → elt (P.rhs (.ofList (initialConstraints (P.dims.getD 0 0 + P.dims.getD 1 0) labels))
      (measurement E (indexMax (states.getD 0 ([], [])).1) s.1 s.2 (P.curr.getD 0 []))) i = P.change labels s i := by
  have ho : P.Ordered n (relabel 0 labels) states := by
    refine ⟨by rw [relabel_length]; exact h.rows, ?_, h.pos, h.used, h.once, h.le, h.vals⟩
    rw [relabel_filter, h.count]
  have := rhs_change1 (E := E) hP ho hs
  rw [initial_relabel] at this
  refine ⟨this.1, fun i hi => ?_⟩
  rw [this.2 i hi]
  have e : ∀ j, (relabel 0 labels).getD j 0 = number labels j := by
    intro j
    rw [relabel_getD]
    unfold number
    rw [Nat.zero_add]
  unfold Prob.change1 Prob.change
  simp only [e]

/-! ### step -/

theorem matrixFrom_none (p : PC K) (rows : List Nat) (as : List Nat) : ∀ c S, (∃ a ∈ as, p.cols a = none) → p.matrixFrom rows as c S = none := by
  induction as with
  | nil => intro c S h; simp at h
  | cons a as ih =>
    intro c S h
    unfold PC.matrixFrom
    cases hc : p.cols a with
    | none => rfl
    | some l =>
      obtain ⟨b, hb, e⟩ := h
      rcases List.mem_cons.1 hb with rfl | hb
      · rw [hc] at e; simp at e
      · exact ih _ _ ⟨b, hb, e⟩

/-- a step with a P calculator that was used before: undefined, or right. -/
theorem step_spec {E : Env K} {M : Nat → Nat → K} (hP : P.OK) (hE : Exact E P.dims M) (hLU : LUExact E) (hU : Unique P.dims.sum M)
    {E0 : Data} {du : List K} (hr : Shape P.dims (P.rhs E0 du)) {pc : PC K} (hk : pc.Known P.dims.sum M) (h0 : pc.A0 = .empty) {fuel : Nat}
    (hf : P.dims.getD 0 0 + P.dims.getD 4 0 + P.dims.getD 5 0 < fuel)
    (hF : ∀ G, G <+: (P.step E fuel E0 du pc .new).2.pc.A.idx → G ≠ [] → Fixable P.dims.sum M G) :
    (P.step E fuel E0 du pc .new).2.pc.A0 = .empty ∧
    (((P.step E fuel E0 du pc .new).1 = .undef ∧ pc.ncols ≠ 0) ∨
      ((P.step E fuel E0 du pc .new).2.pc.Known P.dims.sum M ∧ (∃ b, (P.step E fuel E0 du pc .new).1 = .ret b) ∧
        P.Result M (elt (P.rhs E0 du)) (elt (P.step E fuel E0 du pc .new).2.sol) (elt (P.step E fuel E0 du pc .new).2.sens)
          (P.step E fuel E0 du pc .new).2.pc.A.idx)) := by
  unfold Prob.step at hF ⊢
  dsimp only at hF ⊢
  rw [h0] at hF ⊢
  obtain ⟨q1, q2⟩ := hE _ hr
  generalize P.rhs E0 du = rhs at *
  generalize hst : ({ pc := { pc with A := Data.empty, A0 := Data.empty }, drv := Drv.new, sol := axpy 1 P.curr (E.solve rhs).2, sens := (E.solve rhs).2, old := [] } : St K) = st
    at hF ⊢
  have hinv : Inv P M rhs st := by
    subst hst
    refine ⟨rfl, ⟨rfl, ?_, ?_, ?_⟩, hk, q1, rfl, rfl, ?_, fun i hi _ => q2 i hi, ?_⟩ <;> simp [Data.empty]
  have hA : st.pc.A = .empty := by subst hst; rfl
  have hA0 : st.pc.A0 = .empty := by subst hst; rfl
  have hnc : st.pc.ncols = pc.ncols := by subst hst; rfl
  cases hc : P.check with
  | false =>
    simp only [Bool.false_eq_true, if_false]
    refine ⟨hA0, Or.inr ⟨hinv.known, ⟨true, rfl⟩, ?_⟩⟩
    rw [hA]
    refine ⟨fun i hi => hinv.val hP hi, fun i hi _ => hinv.eqs i hi (by rw [hA]; simp [Data.empty]), by simp [Data.empty], by simp [hc], fun _ => rfl⟩
  | true =>
    rw [hc] at hF
    simp only [if_true] at hF ⊢
    refine ⟨(loop_A E rhs _ fuel true st).2.trans hA0, ?_⟩
    by_cases hrd : P.boundCheck st.sol ≠ [] → Ready P st
    · right
      obtain ⟨b, e1, e2, e3⟩ := loop_spec hP hE hLU hU hr fuel true st hinv hrd (fun G _ g2 g3 => hF G g2 g3) (by omega)
      refine ⟨e2.known, ⟨b, e1⟩, fun i hi => e2.val hP hi, e2.eqs, e2.active, fun _ => e3, by simp [hc]⟩
    · left
      push Not at hrd
      obtain ⟨g1, g2⟩ := hrd
      unfold Ready at g2
      push Not at g2
      obtain ⟨g3, c, g4, g5⟩ := g2
      have hpos : 0 < (P.boundCheck st.sol).length := List.length_pos_iff.2 g1
      refine ⟨?_, by omega⟩
      obtain ⟨m, rfl⟩ : ∃ m, fuel = m + 1 := ⟨fuel - 1, by omega⟩
      unfold Prob.loop
      rw [if_neg g1]
      have : P.pass E rhs (E.solve rhs).2 st = none := by
        unfold Prob.pass
        have hsh := hinv.shape hP
        have hnd := boundCheck_nodup hP hsh
        dsimp only
        rw [hinv.B, hA]
        unfold Data.add
        rw [add_new _ _ _ (by simp [Data.empty]) hnd]
        dsimp only
        rw [add_new _ _ _ (by simp [Data.empty]) hnd]
        dsimp only
        unfold Drv.build PC.schurMatrix PC.refresh
        dsimp only
        rw [hA] at g3 g4
        rw [if_pos (by simp; omega), if_neg (by simp [g3])]
        dsimp only
        rw [matrixFrom_none _ _ _ _ _ ⟨c, g4, by simpa using g5⟩]
        rfl
      rw [this]

theorem run_spec {E : Env K} {M : Nat → Nat → K} (hP : P.OK) (hE : Exact E P.dims M) (hLU : LUExact E) (hU : Unique P.dims.sum M)
    {E0 : Data} {fuel : Nat} (hf : P.dims.getD 0 0 + P.dims.getD 4 0 + P.dims.getD 5 0 < fuel) (l : List (List K)) :
    (∀ du ∈ l, Shape P.dims (P.rhs E0 du)) → ∀ pc : PC K, pc.Known P.dims.sum M → pc.A0 = .empty →
    (∀ e ∈ P.run E fuel E0 (l.map fun du => (du, .new)) pc, ∀ G, G <+: e.2.pc.A.idx → G ≠ [] → Fixable P.dims.sum M G) →
    ((P.run E fuel E0 (l.map fun du => (du, .new)) pc).length = l.length ∨
      ∃ k, (P.run E fuel E0 (l.map fun du => (du, .new)) pc).length = k + 1 ∧ ∃ e, (P.run E fuel E0 (l.map fun du => (du, .new)) pc)[k]? = some e ∧
        e.1 = .undef ∧ (k = 0 → pc.ncols ≠ 0)) ∧
    ∀ k e, (P.run E fuel E0 (l.map fun du => (du, .new)) pc)[k]? = some e →
      (e.1 = .undef ∧ (k = 0 → pc.ncols ≠ 0) ∧ P.check = true) ∨ ((∃ b, e.1 = .ret b) ∧ ∃ du, l[k]? = some du ∧
        P.Result M (elt (P.rhs E0 du)) (elt e.2.sol) (elt e.2.sens) e.2.pc.A.idx) := by
  induction l with
  | nil => intro _ pc _ _ _; exact ⟨Or.inl rfl, by intro k e h; simp [Prob.run] at h⟩
  | cons du l ih =>
    intro hsh pc hk h0 hF
    simp only [List.map_cons] at hF ⊢
    unfold Prob.run at hF ⊢
    dsimp only at hF ⊢
    have hFs : ∀ G, G <+: (P.step E fuel E0 du pc .new).2.pc.A.idx → G ≠ [] → Fixable P.dims.sum M G := by
      cases he : (P.step E fuel E0 du pc .new).1 <;> rw [he] at hF <;> exact hF _ (by simp)
    obtain ⟨s1, s2⟩ := step_spec hP hE hLU hU (hsh du (by simp)) hk h0 hf hFs
    rcases s2 with ⟨s2, s3⟩ | ⟨s2, ⟨b, s3⟩, s4⟩
    · have hck : P.check = true := by
        by_contra hc
        unfold Prob.step at s2
        rw [if_neg hc] at s2
        simp at s2
      rw [s2]
      dsimp only
      refine ⟨Or.inr ⟨0, by simp, _, by simp, s2, fun _ => s3⟩, ?_⟩
      intro k e he
      cases k with
      | zero => simp at he; subst he; exact Or.inl ⟨s2, fun _ => s3, hck⟩
      | succ k => simp at he
    · rw [s3] at hF ⊢
      dsimp only at hF ⊢
      obtain ⟨i1, i2⟩ := ih (fun d hd => hsh d (by simp [hd])) _ s2 s1 (fun e he => hF e (by simp [he]))
      constructor
      · rcases i1 with i1 | ⟨k, k1, e, k2, k3, k4⟩
        · left; simp [i1]
        · right; exact ⟨k + 1, by simp [k1], e, by simpa using k2, k3, by simp⟩
      · intro k e he
        cases k with
        | zero => simp at he; subst he; exact Or.inr ⟨⟨b, s3⟩, du, by simp, s4⟩
        | succ k =>
          rw [List.getElem?_cons_succ] at he
          rcases i2 k e he with ⟨a1, a2, a3⟩ | ⟨a1, d, a2, a3⟩
          · exact Or.inl ⟨a1, by simp, a3⟩
          · exact Or.inr ⟨a1, d, by simpa using a2, a3⟩

end
end Verif.Sens
