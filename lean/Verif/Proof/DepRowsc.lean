import Verif.Proof.DepRowsb
import Verif.Props.Adapter

/-! # The constraints taken out -/

namespace Verif.DepRows
open Finset
open Verif.Adapter

set_option linter.unusedSectionVars false
set_option linter.unusedSimpArgs false
set_option linter.unusedVariables false

variable {K : Type} [Field K] [LinearOrder K]

theorem sum_filterMap {A B : Type} (f : A → Option B) (g : B → K) (l : List A) :
    ((l.filterMap f).map g).sum = (l.map fun a => match f a with | some b => g b | none => 0).sum := by
  induction l with
  | nil => rfl
  | cons a l ih =>
    rw [List.filterMap_cons]
    cases h : f a with
    | none => simp [h, ih]
    | some b => simp [h, ih]

/-- sums over user indices with support in a list. -/
theorem sum_list {m : Nat} {l : List Nat} (hn : l.Nodup) (hl : ∀ i ∈ l, i < m) (f : Nat → K) (hf : ∀ i, i ∉ l → f i = 0) :
    ∑ i ∈ range m, f i = ∑ k ∈ range l.length, f (l.getD k 0) := by
  rw [sum_getD, ← List.sum_toFinset f hn]
  symm
  refine Finset.sum_subset (fun i hi => Finset.mem_range.2 (hl i (List.mem_toFinset.1 hi))) fun i _ hi => hf i fun h => hi (List.mem_toFinset.2 h)

section
variable {t : Fixed} {loInf upInf : Num} {xb gb : List (Num × Num)} {deps : List Nat} {s : Spaces} {m : Maps}

/-- `c_col_pos` (or no such array) is the numbering of the variables. -/
theorem colPos_spec (hm : buildMaps t loInf upInf xb gb = some m) (h : getSpaces t loInf upInf xb gb deps = some s) :
    s.nVar = m.vars.nVar ∧ s.treat = m.treat ∧ s.pc = takeOut m.cons.c deps ∧
    (if xb.length - m.vars.nVar > 0 then compressed (m.vars.notFixed.map (·.getD 0)) else some) = s.inner ∧
    m.cons.c = (List.range gb.length).filter fun j => decide (IsFixed (bnd gb j)) := by
  have h0 := h
  obtain ⟨v1, v2, v3, v4⟩ := spaces_variables h
  obtain ⟨_, _, k1, _⟩ := getSpaces_spec h
  have hc : m.cons.c = (List.range gb.length).filter fun j => decide (IsFixed (bnd gb j)) := by
    cases h9 : getSpaces t loInf upInf xb gb [] with
    | none =>
      unfold getSpaces at h9
      rw [hm] at h9; simp at h9
    | some s9 =>
      obtain ⟨-, -, -, -, -, -, -, -, hc, -⟩ := getSpaces_spec h9
      unfold getSpaces at h9
      rw [hm] at h9
      simp only [Option.some.injEq] at h9
      rw [← h9] at hc
      exact hc
  unfold getSpaces at h
  rw [hm] at h
  simp only [Option.some.injEq] at h
  have e1 : s.nVar = m.vars.nVar := by rw [← h]
  have e2 : s.treat = m.treat := by rw [← h]
  have e3 : s.fixed = m.vars.fixed := by rw [← h]
  have e4 : s.pFull = if 0 < m.vars.fixed.length ∧ m.treat.isParam then some (m.vars.notFixed.map (·.getD 0)) else none := by rw [← h]
  refine ⟨e1, e2, by rw [← h], ?_, hc⟩
  funext i
  by_cases hp : 0 < m.vars.fixed.length ∧ m.treat.isParam = true
  · have hlt : s.nVar < xb.length := by
      rw [← e3] at hp
      obtain ⟨i0, hi0⟩ := List.exists_mem_of_length_pos hp.1
      obtain ⟨w1, w2, w3⟩ := (v4.2 i0).1 hi0
      rw [k1]
      unfold kept
      conv_rhs => rw [← List.length_range (n := xb.length)]
      refine List.length_filter_lt_length_iff_exists.2 ⟨i0, List.mem_range.2 w1, ?_⟩
      rw [← e2] at hp
      simp [keptP, hp.2, w2]
    rw [if_pos (by omega)]
    unfold Spaces.inner
    rw [e4, if_pos hp]
  · have hge : xb.length ≤ s.nVar := by
      by_contra hlt
      have : s.inner s.nVar = some s.nVar := by unfold Spaces.inner; rw [e4, if_neg hp]
      have := (v2 s.nVar (by omega) s.nVar).1 this
      omega
    rw [if_neg (by omega)]
    unfold Spaces.inner
    rw [e4, if_neg hp]

/-- the triplets of the equality constraints. -/
theorem pick_spec (hm : buildMaps t loInf upInf xb gb = some m) (h : getSpaces t loInf upInf xb gb deps = some s) {S : List (Nat × Nat)}
    (hS : ∀ e ∈ S, e.2 < xb.length) (jv : Nat → K) :
    (∀ p ∈ pick m.cons.c s.inner S, (1 ≤ p.1.1 ∧ p.1.1 ≤ m.cons.c.length) ∧ 1 ≤ p.1.2 ∧ p.1.2 ≤ s.nVar) ∧
    ∀ k (hk : k < m.cons.c.length), ∀ c, c < s.nVar →
      tripElem ((pick m.cons.c s.inner S).map fun p => (p.1, jv p.2)) k c = userElem S jv m.cons.c[k] (s.user c) := by
  obtain ⟨v1, v2, v3, v4⟩ := spaces_variables h
  obtain ⟨_, _, _, _, hc⟩ := colPos_spec hm h
  have hnd : m.cons.c.Nodup := by
    rw [hc]; exact (range_filter_lt _ _).imp fun h => Nat.ne_of_lt h
  have hz : ∀ e ∈ S.zipIdx, e.1.2 < xb.length := fun e he => hS _ (List.fst_mem_of_mem_zipIdx he)
  constructor
  · intro p hp
    unfold pick at hp
    obtain ⟨e, he, hep⟩ := List.mem_filterMap.1 hp
    cases h1 : compressed m.cons.c e.1.1 with
    | none => rw [h1] at hep; simp at hep
    | some r =>
      cases h2 : s.inner e.1.2 with
      | none => rw [h1, h2] at hep; simp at hep
      | some c =>
        rw [h1, h2] at hep
        simp only [Option.some.injEq] at hep
        rw [← hep]
        obtain ⟨hr, _⟩ := (compressed_some _ hnd _ _).1 h1
        have := ((v2 _ (hz e he) c).1 h2).1
        exact ⟨⟨by simp, by simpa using hr⟩, by simp, by simpa using this⟩
  · intro k hk c hcn
    unfold tripElem userElem elem pick
    rw [List.map_map, sum_filterMap]
    congr 1
    refine List.map_congr_left fun e he => ?_
    have hkey : (compressed m.cons.c e.1.1 = some k ∧ s.inner e.1.2 = some c) ↔ e.1 = (m.cons.c[k], s.user c) := by
      rw [compressed_some _ hnd, v2 _ (hz e he) c, Prod.ext_iff]
      constructor
      · rintro ⟨⟨_, a⟩, _, b⟩; exact ⟨a.symm, b.symm⟩
      · rintro ⟨a, b⟩; exact ⟨⟨hk, a.symm⟩, hcn, b.symm⟩
    by_cases he' : e.1 = (m.cons.c[k], s.user c)
    · rw [if_pos he']
      obtain ⟨a, b⟩ := hkey.2 he'
      rw [a, b]
      simp
    · rw [if_neg he']
      cases h1 : compressed m.cons.c e.1.1 with
      | none => simp
      | some r =>
        cases h2 : s.inner e.1.2 with
        | none => simp
        | some c' =>
          dsimp only [Function.comp]
          rw [if_neg]
          intro hc'
          apply he'
          apply hkey.1
          simp only [Prod.mk.injEq, Nat.add_right_cancel_iff] at hc'
          rw [h1, h2, hc'.1, hc'.2]
          exact ⟨rfl, rfl⟩

end

end Verif.DepRows
