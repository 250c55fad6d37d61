import Verif.Proof.DepRows

/-! # From MUMPS' list of null pivots to the list of dependent constraints -/

namespace Verif.DepRows
open Finset
open Verif.AugSolve (Structure denote Known Status)
open Verif.Mumps (LibOK NumRes)

set_option linter.unusedSectionVars false
set_option linter.unusedSimpArgs false
set_option linter.unusedVariables false

section
variable {K P M : Type} [Field K]
variable {L : Mumps.Lib K P M} {SymOf : M → Structure → Prop} {FacOf : M → Structure → (Nat → K) → Prop} {inertia : Structure → (Nat → K) → Int}

theorem dependent_null (LO : LibOK L SymOf FacOf inertia) (NO : NullOK L SymOf) {st : Mumps.St K P M} {S : Structure} (h1 : st.n = S.dim) (h2 : st.nz = S.nnz)
    (h3 : st.irn = S.ia) (h4 : st.jcn = S.ja) (h5 : st.haveSym = true → SymOf st.m S) :
    ((st.dependent L).1 = some .success → ∃ R, NullPivots S st.a R ∧ (st.dependent L).2.1 = R.map (· - 1)) ∧
    ((st.dependent L).1 ≠ some .success → (st.dependent L).2.1 = []) := by
  obtain ⟨c, m, b, calls, an, e1, _, _, e3, e4⟩ := Mumps.dependent_res (L := L) st
  obtain ⟨c0, m0, b0, an0, d1, d2, d3, d4⟩ := Mumps.depSymbolic_res (L := L) st
  have hsym0 : (st.depSymbolic L).1 = .success → SymOf m0 S := by
    intro hs
    cases hh : st.haveSym with
    | true => rw [(d3 hh).2.1]; exact h5 hh
    | false =>
      obtain ⟨q1, i, q2, q3, q4, q5⟩ := d4 hh
      rw [hs] at q5
      have hi : 0 ≤ i := by
        by_contra hc
        by_cases h6 : i = -6
        · rw [if_pos h6] at q5; simp at q5
        · rw [if_neg h6, if_pos (by omega)] at q5; simp at q5
      rw [h1, h2, h3, h4] at q3
      have := LO.analyse c0 S st.a st.m
      rw [← q3] at this
      exact this hi
  constructor
  · intro hs
    rcases e4 with ⟨g1, _, g2, _⟩ | ⟨g1, r, s', N, _, _, g3, g4⟩
    · rw [g2] at hs; exact absurd (by simpa using hs) g1
    · cases r with
      | none => rw [(g3 rfl).1] at hs; simp at hs
      | some o =>
        obtain ⟨k1, k2⟩ := g4 o rfl
        have ho : 0 ≤ o.info := by
          by_contra hc
          rw [(k2 (by omega)).1] at hs; simp at hs
        obtain ⟨m1, q0, q1, _⟩ := N.answer o rfl
        obtain ⟨mem, m2, q2⟩ := N.state
        rw [d1] at q0 q1 q2
        dsimp only at q0 q1 q2
        have hm1 : SymOf m1 S := q0 (fun m => SymOf m S) (hsym0 g1) fun c m hm => by rw [h1, h2, h3, h4]; exact LO.keep c S _ m hm
        have hc : s'.ctl.nul = true := by rw [q2]
        rw [h1, h2, h3, h4] at q1
        have := NO s'.ctl S st.a m1 hm1 hc
        rw [← q1] at this
        exact ⟨o.nulList, this ho, (k1 ho).2⟩
  · intro hs
    rcases e4 with ⟨g1, _, g2, g3, _⟩ | ⟨g1, r, s', N, _, _, g3, g4⟩
    · exact g3
    · cases r with
      | none => exact (g3 rfl).2.1
      | some o =>
        obtain ⟨k1, k2⟩ := g4 o rfl
        by_cases ho : 0 ≤ o.info
        · exact absurd (k1 ho).1 hs
        · exact (k2 (by omega)).2

end

section
variable {K P M : Type} [Field K] [LinearOrder K] [IsStrictOrderedRing K]
variable {L : Mumps.Lib K P M} {SymOf : M → Structure → Prop} {FacOf : M → Structure → (Nat → K) → Prop} {inertia : Structure → (Nat → K) → Int}

theorem tsym_res (LO : LibOK L SymOf FacOf inertia) (NO : NullOK L SymOf) {nRows nCols : Nat} {t : List ((Nat × Nat) × K)}
    (ht : ∀ e ∈ t, (1 ≤ e.1.1 ∧ e.1.1 ≤ nRows) ∧ 1 ≤ e.1.2 ∧ e.1.2 ≤ nCols) (st : Mumps.St K P M) (hw : st.warm = false) :
    ((tsymRows L nRows nCols t st).1 = some .success → Found nRows nCols t (tsymRows L nRows nCols t st).2.1) ∧
    ((tsymRows L nRows nCols t st).1 ≠ some .success → (tsymRows L nRows nCols t st).2.1 = []) := by
  unfold tsymRows
  dsimp only
  set S : Structure := ⟨nRows + nCols, t.length + (nRows + nCols), fun k => (kktRows nRows nCols t).getD k 0, fun k => (kktCols nRows nCols t).getD k 0⟩ with hS
  set v : Nat → K := fun k => (kktVals nRows nCols t).getD k 0 with hv
  have e : st.initStructure L (nRows + nCols) (t.length + (nRows + nCols)) (fun k => (kktRows nRows nCols t).getD k 0) (fun k => (kktCols nRows nCols t).getD k 0) =
      (some .success, { st with n := S.dim, nz := S.nnz, a := L.junk, irn := S.ia, jcn := S.ja, haveSym := false, initialized := true }) := by
    unfold Mumps.St.initStructure
    rw [if_pos (by simp [hw])]
  rw [e]
  dsimp only
  rw [if_neg (by simp)]
  obtain ⟨d1, d2⟩ := dependent_null LO NO (st := ({ st with n := S.dim, nz := S.nnz, a := L.junk, irn := S.ia, jcn := S.ja, haveSym := false,
                                                                         initialized := true } : Mumps.St K P M).write v) (S := S) rfl rfl rfl rfl (fun h => by simp [Mumps.St.write] at h)
  generalize (({ st with n := S.dim, nz := S.nnz, a := L.junk, irn := S.ia, jcn := S.ja, haveSym := false,
                          initialized := true } : Mumps.St K P M).write v).dependent L = d at *
  by_cases hs : d.1 = some .success
  · rw [if_pos hs]
    refine ⟨fun _ => ?_, fun h => absurd hs h⟩
    obtain ⟨R, ⟨r1, r2, r3⟩, r4⟩ := d1 hs
    have B := basis_of_kkt (m := nRows) (n := nCols) (J := tripElem t) (fun r hr c hc => kkt_elem ht hr hc) r3
    have hR : ∀ i ∈ R, (nCols : Int) + 1 ≤ i ∧ i ≤ nRows + nCols := by
      intro i hi
      obtain ⟨a, b⟩ := r2 i hi
      refine ⟨?_, by simpa [hS] using b⟩
      by_contra hc
      have := B.1 (i - 1).toNat (by omega)
      rw [Int.toNat_of_nonneg (by omega)] at this
      exact this (by rwa [Int.sub_add_cancel])
    have hmem : ∀ i : Int, i ∈ d.2.1.map (fun i => i - (nCols : Int)) ↔ (nCols : Int) + i + 1 ∈ R := by
      intro i
      rw [r4, List.map_map]
      simp only [List.mem_map, Function.comp]
      constructor
      · rintro ⟨a, ha, rfl⟩
        have : (nCols : Int) + (a - 1 - nCols) + 1 = a := by ring
        rwa [this]
      · intro h; exact ⟨_, h, by ring⟩
    refine ⟨?_, fun i hi => ?_, ?_⟩
    · dsimp only
      rw [r4, List.map_map]
      exact r1.map fun a b hab => by simp only [Function.comp] at hab; omega
    · have := hR _ ((hmem i).1 hi); omega
    · have : (fun i : Nat => (i : Int) ∉ d.2.1.map (fun i => i - (nCols : Int))) = fun i => (((nCols + i : Nat) : Int) + 1) ∉ R := by
        funext i
        rw [hmem i]; push_cast; rfl
      dsimp only
      rw [this]
      exact B.2
  · rw [if_neg hs]
    exact ⟨fun h => absurd h hs, fun _ => d2 hs⟩

theorem dependent_nil (st : Mumps.St K P M) : (st.dependent L).1 ≠ some .success → (st.dependent L).2.1 = [] := by
  unfold Mumps.St.dependent
  dsimp only
  by_cases h1 : (st.depSymbolic L).1 ≠ .success
  · rw [if_pos h1]; intro; rfl
  · rw [if_neg h1]
    generalize ({ (st.depSymbolic L).2 with ctl := { (st.depSymbolic L).2.ctl with nul := true, nulTol := (st.depSymbolic L).2.depTol } } : Mumps.St K P M).numeric L = q
    rcases q with ⟨_ | o, st'⟩
    · intro; rfl
    · dsimp only
      split_ifs
      · intro; rfl
      · intro; rfl
      · intro h; exact absurd rfl h

/-- without success the list is empty. -/
theorem tsym_nil (nRows nCols : Nat) (t : List ((Nat × Nat) × K)) (st : Mumps.St K P M) :
    (tsymRows L nRows nCols t st).1 ≠ some .success → (tsymRows L nRows nCols t st).2.1 = [] := by
  unfold tsymRows
  dsimp only
  split_ifs with h1 h2
  · intro; rfl
  · intro h; exact absurd h2 h
  · exact dependent_nil _

end

end Verif.DepRows
