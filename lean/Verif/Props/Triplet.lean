import Verif.Proof.Triplet2
import Mathlib.Algebra.Field.Rat

/-! # C59: the triplets handed to the linear solvers are the matrix -/

namespace Verif.Triplet
open Verif.Matrix Finset

set_option linter.unusedSectionVars false
set_option linter.unusedSimpArgs false

variable {K : Type} [Field K] [DecidableEq K]

/-- C59: `GetNumberEntries` throws exactly when a class it does not know occurs somewhere in the matrix. -/
theorem number_entries_iff (m : Mat K) : (numEntries m).isSome ↔ Supported m := by
  constructor
  · intro h
    obtain ⟨n, hn⟩ := Option.isSome_iff_exists.1 h
    exact numEntries_supported m n hn
  · intro h
    rw [numEntries_ok m h]; rfl

/-- what the caller gets in its arrays: `n` positions written from `p` on, everything else untouched, indices inside the matrix. -/
structure Filled (n p ro co r c : Nat) (b b' : Idx) (v v' : Nat → K) : Prop where
  rowOut : ∀ k, k < p ∨ p + n ≤ k → b'.row k = b.row k
  colOut : ∀ k, k < p ∨ p + n ≤ k → b'.col k = b.col k
  valOut : ∀ k, k < p ∨ p + n ≤ k → v' k = v k
  rowIn : ∀ k, k < n → ro + 1 ≤ b'.row (p + k) ∧ b'.row (p + k) ≤ ro + r
  colIn : ∀ k, k < n → co + 1 ≤ b'.col (p + k) ∧ b'.col (p + k) ≤ co + c

theorem filled_ref (m : Mat K) (hw : WF m) (ro co p : Nat) (b : Idx) (v : Nat → K) :
    Filled (trL m).length p ro co m.dims.1 m.dims.2 b (putI ro co b p (trL m)) v (putV v p (trL m)) := by
  refine ⟨fun k h => putL_out _ _ _ _ (by simpa using h), fun k h => putL_out _ _ _ _ (by simpa using h),
    fun k h => putL_out _ _ _ _ (by simpa using h), fun k h => ?_, fun k h => ?_⟩
  · simp only [putI]
    rw [putL_lt _ _ _ _ (by simpa using h), List.getElem_map]
    have := trL_range m hw (trL m)[k] (List.getElem_mem h)
    omega
  · simp only [putI]
    rw [putL_lt _ _ _ _ (by simpa using h), List.getElem_map]
    have := trL_range m hw (trL m)[k] (List.getElem_mem h)
    omega

/-- C59: for every matrix of known classes without triangles, `FillRowCol` and `FillValues` (called with the number of entries reported by
`GetNumberEntries`, any offsets, any position in arrays with any contents) write exactly that many positions, with indices inside the
matrix, and the triplets sum to the elements of the matrix. -/
theorem general_triplets (m : Mat K) (hw : WF m) (hn : NoTriangle m) (n : Nat) (hne : numEntries m = some n)
    (ro co p : Nat) (b : Idx) (v : Nat → K) (junk : Idx) :
    ∃ b' v', fillRowCol m n ro co p b = some b' ∧ fillValues junk m n p v = some v' ∧
      Filled n p ro co m.dims.1 m.dims.2 b b' v v' ∧
      ∀ i j, i < m.dims.1 → j < m.dims.2 →
        genElem n (fun k => b'.row (p + k)) (fun k => b'.col (p + k)) (fun k => v' (p + k)) (ro + i) (co + j) = ent m i j := by
  have hs := numEntries_supported m n hne
  have e := numEntries_ok m hs
  rw [hne] at e
  obtain rfl : n = (trL m).length := by simpa using e
  refine ⟨_, _, fillRowCol_ok m hs ro co p b, fillValues_ok junk m hs p v, filled_ref m hw ro co p b v, fun i j hi hj => ?_⟩
  rw [genElem_eq, gsum_ent m hw hs hn i j hi hj]

/-- C59: for every symmetric matrix of known classes (triangles only in diagonal position) the triplets, each read for both symmetric
positions, sum to the elements of the matrix. -/
theorem symmetric_triplets (m : Mat K) (hw : WF m) (hn : TriangleOK m) (n : Nat) (hne : numEntries m = some n)
    (p : Nat) (b : Idx) (v : Nat → K) (junk : Idx) :
    ∃ b' v', fillRowCol m n 0 0 p b = some b' ∧ fillValues junk m n p v = some v' ∧
      Filled n p 0 0 m.dims.1 m.dims.2 b b' v v' ∧
      ∀ i j, i < m.dims.1 → j < m.dims.1 →
        symElem n (fun k => b'.row (p + k)) (fun k => b'.col (p + k)) (fun k => v' (p + k)) i j = ent m i j := by
  have hs := numEntries_supported m n hne
  have e := numEntries_ok m hs
  rw [hne] at e
  obtain rfl : n = (trL m).length := by simpa using e
  refine ⟨_, _, fillRowCol_ok m hs 0 0 p b, fillValues_ok junk m hs p v, filled_ref m hw 0 0 p b v, fun i j hi hj => ?_⟩
  rw [symElem_eq, ssum_ent m hw hs hn i j hi hj]

/-- C59: the structure may be fetched once: the index arrays of one matrix, together with the values of another matrix of the same
structure, represent the second matrix, and the number of entries is the same. -/
theorem structure_reusable (m m' : Mat K) (h : SameStructure m m') (hw' : WF m') (hn' : TriangleOK m') (n : Nat)
    (hne : numEntries m = some n) (p : Nat) (b : Idx) (v : Nat → K) (junk : Idx) :
    numEntries m' = some n ∧ ∃ b' v', fillRowCol m n 0 0 p b = some b' ∧ fillValues junk m' n p v = some v' ∧
      ∀ i j, i < m'.dims.1 → j < m'.dims.1 →
        symElem n (fun k => b'.row (p + k)) (fun k => b'.col (p + k)) (fun k => v' (p + k)) i j = ent m' i j := by
  have hs := numEntries_supported m n hne
  have e := numEntries_ok m hs
  rw [hne] at e
  obtain rfl : n = (trL m).length := by simpa using e
  obtain ⟨s1, s2⟩ := sameStructure_trL h
  have hl : (trL m).length = (trL m').length := by simpa using congrArg List.length s2
  have hs' := s1.1 hs
  refine ⟨by rw [numEntries_ok m' hs', hl], ?_⟩
  have hI : putI 0 0 b p (trL m) = putI 0 0 b p (trL m') := by
    unfold putI
    have e1 := congrArg (List.map fun x : Nat × Nat => x.1 + 0) s2
    have e2 := congrArg (List.map fun x : Nat × Nat => x.2 + 0) s2
    simp only [List.map_map, Function.comp_def] at e1 e2
    rw [e1, e2]
  refine ⟨putI 0 0 b p (trL m'), putV v p (trL m'), ?_, ?_, fun i j hi hj => ?_⟩
  · rw [fillRowCol_ok m hs, hI]
  · rw [hl, fillValues_ok junk m' hs']
  · rw [hl, symElem_eq, ssum_ent m' hw' hs' hn' i j hi hj]

/-- limit of C59: a `SymTMatrix` as off-diagonal block of a symmetric compound loses its mirrored elements, so `TriangleOK` is needed. -/
theorem triangle_off_diagonal_lost :
    let m : Mat ℚ := .compoundSym [2, 2] (fun i j => i == 1 && j == 0) (fun _ _ => .symT 2 [⟨2, 1, 5⟩])
    WF m ∧ ent m 2 1 = 5 ∧ ∀ b v, ∃ b' v', fillRowCol m 1 0 0 0 b = some b' ∧ fillValues ⟨fun _ => 0, fun _ => 0⟩ m 1 0 v = some v' ∧
      symElem 1 b'.row b'.col v' 2 1 = 0 := by
  intro m
  refine ⟨?_, by decide +kernel, fun b v => ⟨_, _, rfl, rfl, ?_⟩⟩
  · intro i j hji hi hs
    simp only [Bool.and_eq_true, beq_iff_eq] at hs
    obtain ⟨rfl, rfl⟩ := hs
    refine ⟨?_, rfl, fun h => by omega⟩
    intro t ht
    simp at ht
    subst ht
    decide
  · simp [symElem, loop, upd, List.range_succ]

/-! ## Vectors -/

theorem vec_elems_length (v : Vec K) : v.known → v.elems.length = v.dim := by
  induction v with
  | hom d s => intro _; simp [Vec.elems, Vec.dim]
  | dense l => intro _; rfl
  | other d => intro h; exact h.elim
  | comp k c ih =>
    intro h
    simp only [Vec.elems, Vec.dim, List.length_flatMap]
    congr 1
    exact List.map_congr_left (fun i hi => ih i (h i (by simpa using hi)))

theorem fillFromVector_put (v : Vec K) : v.known → ∀ p b, fillFromVector v v.dim p b = some (putL b p v.elems) := by
  induction v with
  | hom d s => intro _ p b; simp [fillFromVector, Vec.dim, Vec.elems, loop_eq]
  | dense l =>
    intro _ p b
    simp only [fillFromVector, Vec.dim, Vec.elems, loop_eq]
    congr 2
    refine List.ext_getElem (by simp) (fun i h1 h2 => ?_)
    simp at h1
    simp [h1]
  | other d => intro h; exact h.elim
  | comp k c ih =>
    intro h p b
    unfold fillFromVector
    rw [foldM_put putL putL_nil putL_append _ (fun i => (c i).elems) _ ?_ b p]
    · rfl
    · intro i hi b p
      have hk := h i (by simpa using hi)
      rw [ih i hk, vec_elems_length _ hk]
      rfl

/-- C59: `FillValuesFromVector` writes the elements of the vector, homogeneous or not and nested or not, and nothing else. -/
theorem fillFromVector_correct (v : Vec K) (hv : v.known) (p : Nat) (b : Nat → K) :
    ∃ b', fillFromVector v v.dim p b = some b' ∧ (∀ k, k < v.dim → b' (p + k) = v.elems.getD k 0) ∧
      ∀ k, k < p ∨ p + v.dim ≤ k → b' k = b k := by
  refine ⟨_, fillFromVector_put v hv p b, fun k hk => ?_, fun k hk => ?_⟩
  · rw [← vec_elems_length v hv] at hk
    rw [putL_lt _ _ _ _ hk, List.getD_eq_getElem _ _ hk]
  · exact putL_out _ _ _ _ (by rwa [vec_elems_length v hv])

/-- C59: `PutValuesInVector` stores the given values as the elements of the vector and keeps its dimension. -/
theorem putInVector_correct (v : Vec K) : v.known → ∀ (p : Nat) (b : Nat → K),
    ∃ v', putInVector v v.dim p b = some v' ∧ v'.known ∧ v'.dim = v.dim ∧
      v'.elems = (List.range v.dim).map fun i => b (p + i) := by
  induction v with
  | hom d s =>
    intro _ p b
    exact ⟨_, rfl, trivial, by simp [Vec.dim], rfl⟩
  | dense l =>
    intro _ p b
    exact ⟨_, rfl, trivial, by simp [Vec.dim], by simp [Vec.elems, Vec.dim]⟩
  | other d => intro h; exact h.elim
  | comp k c ih =>
    intro h p b
    have key : ∀ n, n ≤ k → ∃ c', (List.range n).foldlM (fun (s : (Nat → Vec K) × Nat) i =>
        (putInVector (c i) (c i).dim s.2 b).map fun v => (upd s.1 i v, s.2 + (c i).dim)) (c, p) =
        some (c', p + ((List.range n).map fun i => (c i).dim).sum) ∧
        (∀ i, i < n → (c' i).known ∧ (c' i).dim = (c i).dim) ∧
        ((List.range n).flatMap fun i => (c' i).elems) = (List.range (((List.range n).map fun i => (c i).dim).sum)).map fun i => b (p + i) := by
      intro n
      induction n with
      | zero => intro _; exact ⟨c, by simp, fun i hi => by omega, by simp⟩
      | succ n ihn =>
        intro hn
        obtain ⟨c', e1, e2, e3⟩ := ihn (by omega)
        obtain ⟨v', f1, f2, f3, f4⟩ := ih n (h n (by omega)) (p + ((List.range n).map fun i => (c i).dim).sum) b
        refine ⟨upd c' n v', ?_, fun i hi => ?_, ?_⟩
        · rw [List.range_succ, List.foldlM_append, e1]
          simp only [bind, Option.bind_some, List.foldlM_cons, List.foldlM_nil, pure]
          rw [f1]
          simp [Nat.add_assoc]
        · unfold upd
          by_cases hin : i = n
          · subst hin; simp [f2, f3]
          · rw [if_neg hin]; exact e2 i (by omega)
        · rw [List.range_succ, List.flatMap_append, List.map_append, List.sum_append]
          simp only [List.flatMap_cons, List.flatMap_nil, List.append_nil, List.map_cons, List.map_nil, List.sum_cons, List.sum_nil,
            Nat.add_zero]
          have : ((List.range n).flatMap fun i => (upd c' n v' i).elems) = (List.range n).flatMap fun i => (c' i).elems := by
            refine List.flatMap_congr (fun i hi => ?_)
            have : i ≠ n := by have := List.mem_range.1 hi; omega
            simp [upd, this]
          rw [this, e3, show upd c' n v' n = v' by simp [upd], f4, List.range_add, List.map_append, List.map_map]
          simp [Function.comp_def, Nat.add_assoc]
    obtain ⟨c', e1, e2, e3⟩ := key k (le_refl _)
    refine ⟨.comp k c', ?_, fun i hi => (e2 i hi).1, ?_, ?_⟩
    · unfold putInVector; rw [e1]; rfl
    · simp only [Vec.dim]
      congr 1
      exact List.map_congr_left (fun i hi => (e2 i (by simpa using hi)).2)
    · exact e3

/-- C59: writing values into a vector and reading them back is the identity on the array. -/
theorem put_then_fill (v : Vec K) (hv : v.known) (p q : Nat) (b b0 : Nat → K) :
    ∃ v' b', putInVector v v.dim p b = some v' ∧ fillFromVector v' v'.dim q b0 = some b' ∧
      ∀ k, k < v.dim → b' (q + k) = b (p + k) := by
  obtain ⟨v', h1, h2, h3, h4⟩ := putInVector_correct v hv p b
  obtain ⟨b', g1, g2, _⟩ := fillFromVector_correct v' h2 q b0
  refine ⟨v', b', h1, g1, fun k hk => ?_⟩
  rw [g2 k (by omega), h4]
  simp [hk]

/-! ## Non-vacuity -/

/-- an augmented-system-like matrix: [sum of a triplet Hessian and a diagonal; scaled Jacobian, -δ I]. -/
def exA : Mat ℚ :=
  .compoundSym [2, 2] (fun _ _ => true) (fun i j =>
    if i = 0 then .sumSym 2 3 (fun l => if l = 0 then 3 else if l = 1 then 1 else 0)
        (fun l => if l = 0 then .symT 2 [⟨1, 1, 5⟩, ⟨2, 1, 7⟩] else if l = 1 then .diag [10, 20] else .ident 2 9)
    else if j = 0 then .scaled (some [2, 3]) (.genT 2 2 [⟨1, 2, 1⟩, ⟨1, 2, 1⟩, ⟨2, 1, 4⟩]) (some [1, -1])
    else .diag [-1, -1])

theorem exA_wf : WF exA := by
  intro i j hji hi _
  simp only [List.length_cons, List.length_nil] at hi
  have : i = 0 ∨ i = 1 := by omega
  rcases this with rfl | rfl
  · obtain rfl : j = 0 := by omega
    refine ⟨fun l hl => ?_, rfl, fun _ => trivial⟩
    have : l = 0 ∨ l = 1 ∨ l = 2 := by omega
    rcases this with rfl | rfl | rfl
    · refine ⟨?_, rfl, trivial⟩
      intro t ht
      simp at ht
      rcases ht with rfl | rfl <;> decide
    · exact ⟨trivial, rfl, trivial⟩
    · exact ⟨trivial, rfl, trivial⟩
  · have : j = 0 ∨ j = 1 := by omega
    rcases this with rfl | rfl
    · refine ⟨⟨?_, rfl, rfl⟩, rfl, fun h => by omega⟩
      intro t ht
      simp at ht
      rcases ht with rfl | rfl | rfl <;> decide
    · exact ⟨trivial, rfl, fun _ => trivial⟩

theorem exA_triangles : TriangleOK exA := by
  intro i j hji hi _
  simp only [List.length_cons, List.length_nil] at hi
  have : i = 0 ∨ i = 1 := by omega
  rcases this with rfl | rfl
  · obtain rfl : j = 0 := by omega
    rw [if_pos rfl]
    intro l hl
    have : l = 0 ∨ l = 1 ∨ l = 2 := by omega
    rcases this with rfl | rfl | rfl <;> exact trivial
  · have : j = 0 ∨ j = 1 := by omega
    rcases this with rfl | rfl
    · rw [if_neg (by omega)]; exact trivial
    · rw [if_pos rfl]; exact trivial

/-- the arrays of the example, entry by entry (11 triplets). -/
example : numEntries exA = some 11 ∧
    (fillRowCol exA 11 0 0 0 ⟨fun _ => 0, fun _ => 0⟩).map (fun b => (List.range 11).map fun k => (b.row k, b.col k)) =
      some [(1, 1), (2, 1), (1, 1), (2, 2), (1, 1), (2, 2), (3, 2), (3, 2), (4, 1), (3, 3), (4, 4)] ∧
    (fillValues ⟨fun _ => 0, fun _ => 0⟩ exA 11 0 (fun _ => 0)).map (fun v => (List.range 11).map v) =
      some [15, 21, 10, 20, 0, 0, -2, -2, 12, -1, -1] := by decide +kernel

example : ∃ b' v', fillRowCol exA 11 0 0 0 ⟨fun _ => 0, fun _ => 0⟩ = some b' ∧
    fillValues ⟨fun _ => 0, fun _ => 0⟩ exA 11 0 (fun _ => 0) = some v' ∧
    ∀ i j, i < 4 → j < 4 → symElem 11 b'.row b'.col v' i j = ent exA i j := by
  obtain ⟨b', v', h1, h2, _, h4⟩ := symmetric_triplets exA exA_wf exA_triangles 11 (by decide +kernel) 0 ⟨fun _ => 0, fun _ => 0⟩
    (fun _ => 0) ⟨fun _ => 0, fun _ => 0⟩
  refine ⟨b', v', h1, h2, fun i j hi hj => ?_⟩
  have := h4 i j hi hj
  simpa using this

/-- the same structure with other numbers, as in a later iteration. -/
def exA' : Mat ℚ :=
  .compoundSym [2, 2] (fun _ _ => true) (fun i j =>
    if i = 0 then .sumSym 2 3 (fun l => if l = 0 then 1 else if l = 1 then 1 else 8)
        (fun l => if l = 0 then .symT 2 [⟨1, 1, -5⟩, ⟨2, 1, 1⟩] else if l = 1 then .diag [1, 2] else .ident 2 9)
    else if j = 0 then .scaled none (.genT 2 2 [⟨1, 2, 6⟩, ⟨1, 2, 1⟩, ⟨2, 1, 3⟩]) (some [1, -1])
    else .diag [-7, -8])

example : SameStructure exA exA' := by
  refine .compoundSym _ _ _ _ (fun i j hji hi _ => ?_)
  simp only [List.length_cons, List.length_nil] at hi
  have : i = 0 ∨ i = 1 := by omega
  rcases this with rfl | rfl
  · obtain rfl : j = 0 := by omega
    refine .sumSym _ _ _ _ _ _ (fun l hl => ?_)
    have : l = 0 ∨ l = 1 ∨ l = 2 := by omega
    rcases this with rfl | rfl | rfl
    · exact .symT _ _ _ rfl
    · exact .diag _ _ rfl
    · exact .ident _ _ _
  · have : j = 0 ∨ j = 1 := by omega
    rcases this with rfl | rfl
    · exact .scaled _ _ _ _ _ _ (.genT _ _ _ _ rfl)
    · exact .diag _ _ rfl

/-- a nested vector: a homogeneous component, a dense one, an empty compound. -/
example : (Vec.comp 3 (fun i => if i = 0 then .hom 2 5 else if i = 1 then .dense [1, 2, 3] else .comp 0 (fun _ => .other 1)) : Vec ℚ).known := by
  intro i hi
  have : i = 0 ∨ i = 1 ∨ i = 2 := by omega
  rcases this with rfl | rfl | rfl
  · trivial
  · trivial
  · intro i hi; omega

end Verif.Triplet
