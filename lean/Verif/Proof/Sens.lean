import Verif.Spec.Sens
import Mathlib.Algebra.BigOperators.Ring.Finset
import Mathlib.Algebra.BigOperators.Group.Finset.Piecewise
import Mathlib.Data.List.GetD
import Mathlib.Tactic.Ring
import Mathlib.Tactic.Linarith
import Mathlib.Tactic.LinearCombination

/-! # Proofs for sIPOPT: vectors of several blocks, index data -/

namespace Verif.Sens
open Finset
set_option linter.unusedSectionVars false
set_option linter.unusedSimpArgs false
set_option linter.unusedVariables false

section Blocks
variable {K : Type}

theorem flatten_length (v : Blocks K) : v.flatten.length = (v.map List.length).sum := by
  rw [List.length_flatten]

theorem lengths_ge (v : Blocks K) : ∀ s, ∀ k, k < v.length → s ≤ (lengths s v).getD k 0 := by
  induction v with
  | nil => intro s k hk; simp at hk
  | cons b v ih =>
    intro s k hk
    cases k with
    | zero => simp [lengths]
    | succ k =>
      simp only [lengths, List.getD_cons_succ]
      have := ih (s + b.length) k (by simpa using hk)
      omega

/-- the place found belongs to the flat position. -/
theorem place_gen (v : Blocks K) : ∀ s c, s ≤ c → c < s + v.flatten.length → 
    findBlock c (lengths s v) < v.length ∧
    (lengths s v).getD (findBlock c (lengths s v)) 0 ≤ c + (v.getD (findBlock c (lengths s v)) []).length ∧
    c + (v.getD (findBlock c (lengths s v)) []).length - (lengths s v).getD (findBlock c (lengths s v)) 0 < (v.getD (findBlock c (lengths s v)) []).length ∧
    (∀ d : K, (v.getD (findBlock c (lengths s v)) []).getD (c + (v.getD (findBlock c (lengths s v)) []).length - (lengths s v).getD (findBlock c (lengths s v)) 0) d
      = v.flatten.getD (c - s) d) ∧
    (∀ a : K, (v.set (findBlock c (lengths s v)) ((v.getD (findBlock c (lengths s v)) []).set
      (c + (v.getD (findBlock c (lengths s v)) []).length - (lengths s v).getD (findBlock c (lengths s v)) 0) a)).flatten = v.flatten.set (c - s) a) := by
  induction v with
  | nil => intro s c h1 h2; simp at h2; omega
  | cons b v ih =>
    intro s c h1 h2
    simp only [lengths, findBlock]
    by_cases h : c < s + b.length
    · simp only [h, if_true, List.getD_cons_zero, List.length_cons, List.set_cons_zero, List.flatten_cons]
      have e : c + b.length - (s + b.length) = c - s := by omega
      rw [e]
      refine ⟨by omega, by omega, by omega, fun d => ?_, fun a => ?_⟩
      · rw [List.getD_append _ _ _ _ (by omega)]
      · rw [List.set_append_left _ _ (by omega)]
    · simp only [h, if_false, List.getD_cons_succ, List.length_cons, List.set_cons_succ, List.flatten_cons]
      simp only [List.flatten_cons, List.length_append] at h2
      obtain ⟨a1, a2, a3, a4, a5⟩ := ih (s + b.length) c (by omega) (by omega)
      refine ⟨by omega, a2, a3, fun d => ?_, fun a => ?_⟩
      · rw [a4, List.getD_append_right _ _ _ _ (by omega)]
        congr 1
        omega
      · rw [a5, List.set_append_right _ _ (by omega)]
        congr 2
        omega

theorem split_flatten (dims : List Nat) : ∀ l : List K, l.length = dims.sum → (split dims l).flatten = l := by
  induction dims with
  | nil => intro l h; simp at h; simp [split, h]
  | cons n ns ih =>
    intro l h
    simp only [List.sum_cons] at h
    simp only [split, List.flatten_cons]
    rw [ih _ (by simp; omega), List.take_append_drop]

theorem split_shape (dims : List Nat) : ∀ l : List K, l.length = dims.sum → (split dims l).map List.length = dims := by
  induction dims with
  | nil => intro l h; rfl
  | cons n ns ih =>
    intro l h
    simp only [List.sum_cons] at h
    simp only [split, List.map_cons]
    rw [ih _ (by simp; omega)]
    simp
    omega

theorem zipWith_flatten {L M : Type} (f : K → L → M) : ∀ (v : Blocks K) (w : Blocks L), v.map List.length = w.map List.length →
    (List.zipWith (List.zipWith f) v w).flatten = List.zipWith f v.flatten w.flatten := by
  intro v
  induction v with
  | nil => intro w h; cases w <;> simp at h ⊢
  | cons b v ih =>
    intro w h
    cases w with
    | nil => simp at h
    | cons c w =>
      simp only [List.map_cons, List.cons.injEq] at h
      simp only [List.zipWith_cons_cons, List.flatten_cons]
      rw [ih w h.2, List.zipWith_append h.1]

theorem zipWith_shape {L M : Type} (f : K → L → M) : ∀ (v : Blocks K) (w : Blocks L), v.map List.length = w.map List.length →
    (List.zipWith (List.zipWith f) v w).map List.length = v.map List.length := by
  intro v
  induction v with
  | nil => intro w h; cases w <;> simp
  | cons b v ih =>
    intro w h
    cases w with
    | nil => simp at h
    | cons c w =>
      simp only [List.map_cons, List.cons.injEq] at h
      simp only [List.zipWith_cons_cons, List.map_cons]
      rw [ih w h.2]
      simp [h.1]
end Blocks

section
variable {K : Type} [Field K]

theorem Shape.flat {dims : List Nat} {v : Blocks K} (h : Shape dims v) : v.flatten.length = dims.sum := by
  rw [flatten_length, h]

theorem read_eq {dims : List Nat} {v : Blocks K} (h : Shape dims v) {c : Nat} (hc : c < dims.sum) : read v c = elt v c := by
  unfold read place elt
  have := (place_gen v 0 c (Nat.zero_le _) (by rw [h.flat]; omega)).2.2.2.1 0
  simpa using this

theorem getD_zipWith {f : K → K → K} {l m : List K} (h : l.length = m.length) {i : Nat} (hi : i < l.length) :
    (List.zipWith f l m).getD i 0 = f (l.getD i 0) (m.getD i 0) := by
  rw [List.getD_eq_getElem _ _ (by simp; omega), List.getD_eq_getElem _ _ hi, List.getD_eq_getElem _ _ (by omega)]
  simp

theorem axpy_shape {dims : List Nat} {v w : Blocks K} (hv : Shape dims v) (hw : Shape dims w) (a : K) : Shape dims (axpy a w v) := by
  unfold axpy Shape
  rw [zipWith_shape _ _ _ (hv.trans hw.symm), hv]

theorem axpy_elt {dims : List Nat} {v w : Blocks K} (hv : Shape dims v) (hw : Shape dims w) (a : K) {i : Nat} (hi : i < dims.sum) :
    elt (axpy a w v) i = elt v i + a * elt w i := by
  unfold axpy elt
  rw [zipWith_flatten _ _ _ (hv.trans hw.symm), getD_zipWith (by rw [hv.flat, hw.flat]) (by rw [hv.flat]; exact hi)]

theorem map_shape {dims : List Nat} {v : Blocks K} (hv : Shape dims v) (f : K → K) : Shape dims (v.map (List.map f)) := by
  unfold Shape at *
  rw [← hv]
  simp [Function.comp_def]

theorem map_elt {dims : List Nat} {v : Blocks K} (hv : Shape dims v) (f : K → K) {i : Nat} (hi : i < dims.sum) : elt (v.map (List.map f)) i = f (elt v i) := by
  unfold elt
  rw [← List.map_flatten, List.getD_eq_getElem _ _ (by simp only [List.length_map]; rw [hv.flat]; exact hi), List.getElem_map,
    List.getD_eq_getElem _ _ (by rw [hv.flat]; exact hi)]

/-- the vector of zeros with one entry. -/
theorem getRow_spec {dims : List Nat} {v : Blocks K} (hv : Shape dims v) (A : Data) (row : Nat) (h : A.idx.getD row 0 < dims.sum) :
    Shape dims (A.getRow row v) ∧ ∀ i, i < dims.sum → elt (A.getRow row v) i = if i = A.idx.getD row 0 then ((A.val.getD row 0 : Int) : K) else 0 := by
  unfold Data.getRow
  dsimp only
  have hz := map_shape hv (fun _ => (0 : K))
  have hz0 : ∀ i, i < dims.sum → elt (v.map (List.map fun _ => (0 : K))) i = 0 := fun i hi => map_elt hv _ hi
  generalize v.map (List.map fun _ => (0 : K)) = z at hz hz0
  generalize A.idx.getD row 0 = c at h ⊢
  obtain ⟨a1, a2, a3, a4, a5⟩ := place_gen z 0 c (Nat.zero_le _) (by rw [hz.flat]; omega)
  unfold place
  dsimp only
  constructor
  · unfold Shape at *
    rw [← hz, List.map_set, List.length_set]
    rw [List.getD_eq_getElem _ _ a1]
    apply List.ext_getElem
    · simp
    · intro i h1 h2
      rw [List.getElem_set]
      split
      · rename_i e; subst e; simp
      · rfl
  · intro i hi
    have hi' : i < z.flatten.length := by rw [hz.flat]; exact hi
    unfold elt at hz0 ⊢
    rw [a5, Nat.sub_zero, List.getD_eq_getElem _ _ (by simpa using hi'), List.getElem_set]
    by_cases e : i = c
    · rw [if_pos e.symm, if_pos e]
    · rw [if_neg (Ne.symm e), if_neg e]
      have := hz0 i hi
      rwa [List.getD_eq_getElem _ _ hi'] at this

/-! ### the loops of `Multiply` and `TransMultiply` -/

theorem set_getD (l : List K) (i j : Nat) (a : K) (hi : i < l.length) : (l.set i a).getD j 0 = if j = i then a else l.getD j 0 := by
  by_cases h : j = i
  · subst h; rw [if_pos rfl, List.getD_eq_getElem _ _ (by simpa using hi)]; simp
  · rw [if_neg h]
    by_cases hj : j < l.length
    · rw [List.getD_eq_getElem _ _ (by simpa using hj), List.getElem_set, if_neg (Ne.symm h), List.getD_eq_getElem _ _ hj]
    · rw [List.getD_eq_default _ _ (by simp; omega), List.getD_eq_default _ _ (by omega)]

theorem multiply_loop (f : Nat → K) (m n : Nat) (hmn : m ≤ n) :
    ((List.range m).foldl (fun u i => u.set i (u.getD i 0 + f i)) (List.replicate n 0)).length = n ∧
    ∀ i, i < n → ((List.range m).foldl (fun u i => u.set i (u.getD i 0 + f i)) (List.replicate n 0)).getD i 0 = if i < m then f i else 0 := by
  induction m with
  | zero => exact ⟨by simp, fun i hi => by simp [List.getD_eq_getElem, hi]⟩
  | succ m ih =>
    obtain ⟨l1, l2⟩ := ih (by omega)
    rw [List.range_succ, List.foldl_append]
    simp only [List.foldl_cons, List.foldl_nil]
    generalize (List.range m).foldl (fun u i => u.set i (u.getD i 0 + f i)) (List.replicate n 0) = u at l1 l2
    refine ⟨by simpa using l1, fun i hi => ?_⟩
    rw [set_getD _ _ _ _ (by omega)]
    by_cases e : i = m
    · subst e
      rw [if_pos rfl, l2 i hi, if_neg (by omega), if_pos (by omega), zero_add]
    · rw [if_neg e, l2 i hi]
      by_cases e2 : i < m
      · rw [if_pos e2, if_pos (by omega)]
      · rw [if_neg e2, if_neg (by omega)]

theorem trans_loop (g : Nat → Nat) (f : Nat → K) (m n : Nat) (hg : ∀ i, i < m → g i < n) :
    ((List.range m).foldl (fun w i => w.set (g i) (w.getD (g i) 0 + f i)) (List.replicate n 0)).length = n ∧
    ∀ i, i < n → ((List.range m).foldl (fun w i => w.set (g i) (w.getD (g i) 0 + f i)) (List.replicate n 0)).getD i 0
      = ∑ k ∈ range m, if g k = i then f k else 0 := by
  induction m with
  | zero => exact ⟨by simp, fun i hi => by simp [List.getD_eq_getElem, hi]⟩
  | succ m ih =>
    obtain ⟨l1, l2⟩ := ih (fun i hi => hg i (by omega))
    rw [List.range_succ, List.foldl_append]
    simp only [List.foldl_cons, List.foldl_nil]
    generalize (List.range m).foldl (fun w i => w.set (g i) (w.getD (g i) 0 + f i)) (List.replicate n 0) = u at l1 l2
    have := hg m (by omega)
    refine ⟨by simpa using l1, fun i hi => ?_⟩
    rw [set_getD _ _ _ _ (by omega), Finset.sum_range_succ]
    by_cases e : i = g m
    · subst e
      rw [if_pos rfl, l2 _ hi, if_pos rfl]
    · rw [if_neg e, l2 i hi, if_neg (Ne.symm e), add_zero]

/-- index data as they occur: as many values as indices, all values 1, distinct indices in range. -/
structure Data.Good (A : Data) (n : Nat) : Prop where
  len : A.val.length = A.idx.length
  one : ∀ i, i < A.idx.length → A.val.getD i 0 = 1
  lt : ∀ i, i < A.idx.length → A.idx.getD i 0 < n
  nodup : A.idx.Nodup

theorem multiply_spec {dims : List Nat} {v : Blocks K} (hv : Shape dims v) {A : Data} (h : A.Good dims.sum) :
    (A.multiply A.idx.length v).length = A.idx.length ∧ ∀ i, i < A.idx.length → (A.multiply A.idx.length v).getD i 0 = elt v (A.idx.getD i 0) := by
  unfold Data.multiply
  obtain ⟨a1, a2⟩ := multiply_loop (K := K) (fun i => ((A.val.getD i 0 : Int) : K) * read v (A.idx.getD i 0)) A.idx.length A.idx.length (le_refl _)
  refine ⟨a1, fun i hi => ?_⟩
  rw [a2 i hi, if_pos hi, h.one i hi, read_eq hv (h.lt i hi)]
  simp

theorem transMultiply_spec (dims : List Nat) {A : Data} (hl : ∀ i, i < A.idx.length → A.idx.getD i 0 < dims.sum)
    (ho : ∀ i, i < A.idx.length → A.val.getD i 0 = 1) (u : List K) :
    Shape dims (A.transMultiply dims u) ∧
    ∀ i, i < dims.sum → elt (A.transMultiply dims u) i = ∑ k ∈ range A.idx.length, if A.idx.getD k 0 = i then u.getD k 0 else 0 := by
  unfold Data.transMultiply
  obtain ⟨a1, a2⟩ := trans_loop (K := K) (fun i => A.idx.getD i 0) (fun i => ((A.val.getD i 0 : Int) : K) * u.getD i 0) A.idx.length dims.sum hl
  refine ⟨split_shape _ _ a1, fun i hi => ?_⟩
  unfold elt
  rw [split_flatten _ _ a1, a2 i hi]
  refine Finset.sum_congr rfl fun k hk => ?_
  rw [ho k (Finset.mem_range.1 hk)]
  simp

theorem transMultiply_at {dims : List Nat} {A : Data} (h : A.Good dims.sum) (u : List K) :
    (∀ k, k < A.idx.length → elt (A.transMultiply dims u) (A.idx.getD k 0) = u.getD k 0) ∧
    ∀ i, i < dims.sum → i ∉ A.idx → elt (A.transMultiply dims u) i = 0 := by
  obtain ⟨_, a⟩ := transMultiply_spec (K := K) dims h.lt h.one u
  constructor
  · intro k hk
    rw [a _ (h.lt k hk), Finset.sum_eq_single k]
    · rw [if_pos rfl]
    · intro l hl hne
      rw [if_neg]
      intro e
      have hl' := Finset.mem_range.1 hl
      rw [List.getD_eq_getElem _ _ hl', List.getD_eq_getElem _ _ hk] at e
      exact hne ((List.Nodup.getElem_inj_iff h.nodup).1 e)
    · intro hn; exact absurd (Finset.mem_range.2 hk) hn
  · intro i hi hn
    rw [a i hi]
    refine Finset.sum_eq_zero fun k hk => ?_
    rw [if_neg]
    intro e
    apply hn
    rw [← e, List.getD_eq_getElem _ _ (Finset.mem_range.1 hk)]
    exact List.getElem_mem _

end
end Verif.Sens
