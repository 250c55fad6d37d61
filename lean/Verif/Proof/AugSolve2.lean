import Verif.Proof.AugSolve
import Verif.Props.CSR
import Verif.Props.Triplet

/-! # The values handed to the sparse solver represent the (scaled) matrix -/

namespace Verif.AugSolve
open Verif.Matrix Finset
open Verif.Triplet
open Verif.PDSystem (AugArgs kkt)

set_option linter.unusedSectionVars false
set_option linter.unusedSimpArgs false
set_option linter.unusedVariables false

variable {K B : Type} [Field K] [DecidableEq K]

/-- the structure data kept in the solver come from the matrix `P`. -/
structure StructOf (E : Env K B) (st : TSym K) (P : Mat K) : Prop where
  num : numEntries P = some st.nnzT
  dim : st.dim = P.dims.1
  fill : fillRowCol P st.nnzT 0 0 0 E.junkIdx = some ⟨st.airn, st.ajcn⟩
  conv : st.conv = mkConv E st
  nnzC : st.nnzC = (st.conv.map CSR.Conv.nnz).getD 0

/-- the matrices the solver is used for. -/
structure MatOK (P A : Mat K) : Prop where
  same : SameStructure P A
  sup : Supported A
  wf : WF A
  tri : TriangleOK A
  dims : A.dims.2 = A.dims.1
  diag : ∀ r, r < A.dims.1 → ∃ t ∈ trL A, t.row = r + 1 ∧ t.col = r + 1
  pos : 0 < A.dims.1

theorem trips_eq {E : Env K B} {st : TSym K} {P A : Mat K} (h : StructOf E st P) (hA : MatOK P A) :
    Supported A ∧ st.nnzT = (trL A).length ∧ st.dim = A.dims.1 ∧ numEntries A = some st.nnzT ∧
      fillRowCol A st.nnzT 0 0 0 E.junkIdx = some ⟨st.airn, st.ajcn⟩ ∧
      (∀ k (hk : k < (trL A).length), st.airn k = (trL A)[k].row ∧ st.ajcn k = (trL A)[k].col) ∧
      st.trips = (trL A).map fun t => (t.row, t.col) := by
  have hs := numEntries_supported P _ h.num
  have e := numEntries_ok P hs
  rw [h.num] at e
  have e : st.nnzT = (trL P).length := by simpa using e
  obtain ⟨s1, s2⟩ := sameStructure_trL hA.same
  have hl : (trL P).length = (trL A).length := by simpa using congrArg List.length s2
  have hs' := s1.1 hs
  have hfill := h.fill
  rw [e, fillRowCol_ok P hs] at hfill
  have hI : putI 0 0 E.junkIdx 0 (trL P) = putI 0 0 E.junkIdx 0 (trL A) := by
    unfold putI
    have e1 := congrArg (List.map fun x : Nat × Nat => x.1 + 0) s2
    have e2 := congrArg (List.map fun x : Nat × Nat => x.2 + 0) s2
    simp only [List.map_map, Function.comp_def] at e1 e2
    rw [e1, e2]
  rw [hI] at hfill
  have hix : putI 0 0 E.junkIdx 0 (trL A) = ⟨st.airn, st.ajcn⟩ := by simpa using hfill
  have hk : ∀ k (hk : k < (trL A).length), st.airn k = (trL A)[k].row ∧ st.ajcn k = (trL A)[k].col := by
    intro k hk
    have h1 : st.airn = (putI 0 0 E.junkIdx 0 (trL A)).row := by rw [hix]
    have h2 : st.ajcn = (putI 0 0 E.junkIdx 0 (trL A)).col := by rw [hix]
    rw [h1, h2]
    simp only [putI]
    have a1 := putL_lt E.junkIdx.row 0 ((trL A).map fun t => t.row + 0) k (by simpa using hk)
    have a2 := putL_lt E.junkIdx.col 0 ((trL A).map fun t => t.col + 0) k (by simpa using hk)
    rw [Nat.zero_add] at a1 a2
    rw [a1, a2]
    simp
  refine ⟨hs', e.trans hl, ?_, ?_, ?_, hk, ?_⟩
  · rw [h.dim, sameStructure_dims hA.same]
  · rw [numEntries_ok A hs', e, hl]
  · rw [e, hl, fillRowCol_ok A hs', hix]
  · unfold TSym.trips
    rw [e, hl]
    refine List.ext_getElem (by simp) (fun i h1 h2 => ?_)
    have h1' : i < (trL A).length := by simpa using h1
    simp [hk i h1']

theorem tripletElem_eq_symElem (n : Nat) (row col : Nat → Nat) (a : Nat → K) (r c : Nat) :
    CSR.tripletElem ((List.range n).map fun k => (row k, col k)) a r c = symElem n row col a r c := by
  unfold CSR.tripletElem symElem
  rw [Finset.sum_eq_multiset_sum]
  simp only [Finset.range_val, Multiset.range, Multiset.map_coe, Multiset.sum_coe]
  congr 1
  refine List.ext_getElem (by simp) (fun i h1 h2 => ?_)
  simp

theorem inRange_trips {A : Mat K} (hw : WF A) (hd : A.dims.2 = A.dims.1) :
    CSR.InRange A.dims.1 ((trL A).map fun t => (t.row, t.col)) := by
  intro p hp
  obtain ⟨t, ht, rfl⟩ := List.mem_map.1 hp
  have := trL_range A hw t ht
  rw [hd] at this
  exact this

theorem noGaps_trips {A : Mat K} (hw : WF A) (hd : A.dims.2 = A.dims.1)
    (hdiag : ∀ r, r < A.dims.1 → ∃ t ∈ trL A, t.row = r + 1 ∧ t.col = r + 1) :
    CSR.NoGaps ((trL A).map fun t => (t.row, t.col)) := by
  intro p hp q hq r h1 h2
  have hp' := inRange_trips hw hd p hp
  have hq' := inRange_trips hw hd q hq
  have hr : 1 ≤ r ∧ r ≤ A.dims.1 := by
    constructor
    · have := Nat.min_le_left p.1 p.2; omega
    · have := Nat.min_le_left q.1 q.2; omega
  obtain ⟨t, ht, e1, e2⟩ := hdiag (r - 1) (by omega)
  refine ⟨_, List.mem_map_of_mem ht, ?_⟩
  simp only [e1, e2]
  omega

/-- whatever the format: the converted values represent the matrix given by the triplets. -/
theorem denote_conv {E : Env K B} {Rep : B → Known K → Prop} (C : Contract E Rep) {st : TSym K} {P A : Mat K} (h : StructOf E st P)
    (hA : MatOK P A) (a : Nat → K) (r c : Nat) (hr : r < st.dim) (hc : c < st.dim) :
    denote E.fmt st.nnz st.ia st.ja (match st.conv with | some c => CSR.convertValues c a | none => a) r c =
      symElem st.nnzT st.airn st.ajcn a r c := by
  obtain ⟨hs, hn, hdim, hnum, hfill, hk, ht⟩ := trips_eq h hA
  have htn : st.trips ≠ [] := by
    rw [ht]
    obtain ⟨t, ht, _⟩ := hA.diag 0 hA.pos
    intro e
    rw [List.map_eq_nil_iff] at e
    rw [e] at ht
    simp at ht
  have hin := inRange_trips hA.wf hA.dims
  have hgap := noGaps_trips hA.wf hA.dims hA.diag
  rw [← ht] at hin hgap
  rw [← hdim] at hin
  have hsym : ∀ r c, symElem st.nnzT st.airn st.ajcn a r c = symElem st.nnzT st.airn st.ajcn a c r := by
    intro r c
    unfold symElem
    refine Finset.sum_congr rfl (fun k _ => ?_)
    simp only [or_comm]
  have hconv := h.conv
  have hnC := h.nnzC
  unfold mkConv at hconv
  unfold denote
  cases hf : E.fmt with
  | triplet =>
    rw [hf] at hconv
    simp only at hconv
    simp only [TSym.nnz, TSym.ia, TSym.ja, hconv]
  | csr o =>
    rw [hf] at hconv
    simp only at hconv
    obtain ⟨s, e1, e2, e3⟩ := CSR.csr_triangular_correct_partial (K := K) st.trips st.dim o hin hgap htn _ (C.sort _) E.junkIA
    rw [e1] at hconv
    simp only [Option.map_some] at hconv
    simp only [TSym.nnz, TSym.ia, TSym.ja, hconv]
    by_cases hrc : r ≤ c
    · rw [if_pos hrc, e3 a r c hr hc, if_pos hrc]
      exact tripletElem_eq_symElem _ _ _ _ _ _
    · rw [if_neg hrc, e3 a c r hc hr, if_pos (by omega), hsym]
      exact tripletElem_eq_symElem _ _ _ _ _ _
  | full o =>
    rw [hf] at hconv
    simp only at hconv
    obtain ⟨s, e1, e2, e3⟩ := CSR.csr_full_correct_partial (K := K) st.trips st.dim o hin hgap htn _ (C.sort _) E.junkIA E.junkJA E.junkFirst
    rw [e1] at hconv
    simp only [Option.map_some] at hconv
    simp only [TSym.nnz, TSym.ia, TSym.ja, hconv]
    rw [e3 a r c hr hc]
    exact tripletElem_eq_symElem _ _ _ _ _ _

/-- the factor of row `i` in use. -/
def TSym.fac (st : TSym K) (i : Nat) : K := if st.useScaling then st.factors i else 1

/-- the values represent the scaled matrix. -/
def Represents (E : Env K B) (st : TSym K) (v : Nat → K) (A : Mat K) : Prop :=
  ∀ r c, r < st.dim → c < st.dim → denote E.fmt st.nnz st.ia st.ja v r c = st.fac r * st.fac c * ent A r c

theorem loopMod_apply (n p : Nat) (g : Nat → K → K) (b : Nat → K) (k : Nat) :
    loopMod n p g b k = if p ≤ k ∧ k < p + n then g (k - p) (b k) else b k := by
  unfold loopMod
  induction n with
  | zero => simp only [List.range_zero, List.foldl_nil]; rw [if_neg (by omega)]
  | succ n ih =>
    rw [List.range_succ, List.foldl_append]
    simp only [List.foldl_cons, List.foldl_nil]
    unfold upd at ih ⊢
    by_cases hk : k = p + n
    · rw [if_pos hk, if_pos (by omega)]
      subst hk
      rw [ih, if_neg (by omega)]
      congr 1
      omega
    · rw [if_neg hk, ih]
      by_cases h : p ≤ k ∧ k < p + n
      · rw [if_pos h, if_pos (by omega)]
      · rw [if_neg h, if_neg (by omega)]

theorem symElem_congr (n : Nat) (row col : Nat → Nat) (a a' : Nat → K) (f : K) (r c : Nat)
    (h : ∀ k, k < n → ((row k = r + 1 ∧ col k = c + 1) ∨ (row k = c + 1 ∧ col k = r + 1)) → a' k = f * a k) :
    symElem n row col a' r c = f * symElem n row col a r c := by
  unfold symElem
  rw [Finset.mul_sum]
  refine Finset.sum_congr rfl (fun k hk => ?_)
  have hk := Finset.mem_range.1 hk
  by_cases hc : (row k = r + 1 ∧ col k = c + 1) ∨ (row k = c + 1 ∧ col k = r + 1)
  · rw [if_pos hc, if_pos hc, h k hk hc]
  · rw [if_neg hc, if_neg hc, mul_zero]

/-- what `GiveMatrixToSolver` achieves. -/
theorem give_correct {E : Env K B} {Rep : B → Known K → Prop} (C : Contract E Rep) {st : TSym K} {P A : Mat K} (h : StructOf E st P)
    (hA : MatOK P A) (newM : Bool) (b : B) (k : Known K) (hb : Rep b k) (hj : st.justSwitched = true → st.useScaling = true)
    (hf : newM = true ∨ st.justSwitched = true ∨ (st.useScaling = true → ∀ i, i < st.dim → st.factors i ≠ 0)) :
    ∃ st' v, (st.give E newM A b).2.1 = st' ∧ (∃ f j, st' = { st with factors := f, justSwitched := j }) ∧
      ((st.give E newM A b).1 = false → Rep (st.give E newM A b).2.2 k ∧ st' = st) ∧
      ((st.give E newM A b).1 = true → Rep (st.give E newM A b).2.2 { k with array := some v } ∧ Represents E st' v A ∧
        (st'.useScaling = true → ∀ i, i < st'.dim → st'.factors i ≠ 0) ∧
        ((newM = true ∨ st.justSwitched = true) → st'.justSwitched = false) ∧
        (newM = false → st.justSwitched = false → st' = st)) := by
  obtain ⟨hs, hn, hdim, hnum, hfill, hk, ht⟩ := trips_eq h hA
  set buf := (if E.fmt = .triplet then E.array b else E.junkVal) with hbuf
  obtain ⟨b', a, hb1, ha, hfd, hel⟩ := symmetric_triplets A hA.wf hA.tri st.nnzT hnum 0 E.junkIdx buf E.junkIdx
  rw [hfill] at hb1
  have hb1 : b' = ⟨st.airn, st.ajcn⟩ := by simpa using hb1.symm
  subst hb1
  simp only [Nat.zero_add] at hel
  have hsc : ∀ (f : Nat → K), ∀ r c, r < st.dim → c < st.dim →
      symElem st.nnzT st.airn st.ajcn (loopMod st.nnzT 0 (fun i v => v * (f (st.airn i - 1) * f (st.ajcn i - 1))) a) r c =
        f r * f c * ent A r c := by
    intro f r c hr hc
    rw [← hel r c (hdim ▸ hr) (hdim ▸ hc)]
    refine symElem_congr _ _ _ _ _ _ _ _ (fun i hi hcond => ?_)
    rw [loopMod_apply, if_pos ⟨by omega, by omega⟩, Nat.sub_zero]
    rcases hcond with ⟨e1, e2⟩ | ⟨e1, e2⟩ <;> rw [e1, e2, Nat.add_sub_cancel, Nat.add_sub_cancel] <;> ring
  unfold TSym.give
  rw [ha]
  simp only
  by_cases hu : st.useScaling = true
  · rw [if_pos hu]
    by_cases hc : (newM || st.justSwitched) = true
    · rw [if_pos hc]
      obtain ⟨c1, c2⟩ := C.scale b k st.dim st.nnzT st.airn st.ajcn a hb
      rcases hsr : E.scale st.dim st.nnzT st.airn st.ajcn a b with ⟨_ | f, b''⟩
      · rw [hsr] at c1
        exact ⟨st, fun _ => 0, rfl, ⟨_, _, rfl⟩, fun _ => ⟨c1, rfl⟩, fun e => by simp at e⟩
      · rw [hsr] at c1 c2
        refine ⟨_, _, rfl, ⟨f, false, rfl⟩, fun e => by simp at e, fun _ => ⟨C.store _ _ _ c1, ?_, ?_, fun _ => rfl, ?_⟩⟩
        · intro r c hr hc
          have := denote_conv C h hA (loopMod st.nnzT 0 (fun i v => v * (f (st.airn i - 1) * f (st.ajcn i - 1))) a) r c hr hc
          simp only [hu, if_true]
          refine this.trans ?_
          rw [hsc f r c hr hc]
          simp [TSym.fac, hu]
        · intro _ i hi; exact c2 f rfl i hi
        · intro e1 e2; simp [e1, e2] at hc
    · rw [if_neg hc]
      simp only [Bool.or_eq_true, not_or, Bool.not_eq_true] at hc
      refine ⟨_, _, rfl, ⟨_, _, rfl⟩, fun e => by simp at e, fun _ => ⟨C.store _ _ _ hb, ?_, ?_, ?_, fun _ _ => rfl⟩⟩
      · intro r c hr hc
        have := denote_conv C h hA
          (loopMod st.nnzT 0 (fun i v => v * (st.factors (st.airn i - 1) * st.factors (st.ajcn i - 1))) a) r c hr hc
        simp only [hu, if_true]
        refine this.trans ?_
        rw [hsc st.factors r c hr hc]
        simp [TSym.fac, hu]
      · intro _
        rcases hf with e | e | e
        · simp [hc.1] at e
        · simp [hc.2] at e
        · exact e hu
      · intro e; simp [hc.1, hc.2] at e
  · rw [if_neg hu]
    have hjf : st.justSwitched = false := by
      by_contra hj'
      simp only [Bool.not_eq_false] at hj'
      exact hu (hj hj')
    refine ⟨_, _, rfl, ⟨_, _, rfl⟩, fun e => by simp at e, fun _ => ⟨C.store _ _ _ hb, ?_, ?_, fun _ => hjf, fun _ _ => rfl⟩⟩
    · intro r c hr hc
      have := denote_conv C h hA a r c hr hc
      simp only [hu, if_false]
      refine this.trans ?_
      rw [hel r c (hdim ▸ hr) (hdim ▸ hc)]
      simp [TSym.fac, hu]
    · intro e; exact absurd e hu

end Verif.AugSolve
