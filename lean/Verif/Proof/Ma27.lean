import Verif.Spec.Ma27
import Mathlib.Tactic.Linarith

/-! # The numerical side: the interface keeps the contract of sparse solvers -/

namespace Verif.Ma27
open Verif.AugSolve (Status Structure Known SolvesAll denote)
open Finset

set_option linter.unusedSectionVars false
set_option linter.unusedSimpArgs false
set_option linter.unusedVariables false

variable {K P Keep Fac : Type}

/-- members that a factorization does not touch. -/
structure Same (st st' : St K P Keep Fac) : Prop where
  dim : st'.dim = st.dim
  nnz : st'.nnz = st.nnz
  keep : st'.keep = st.keep
  warm : st'.warm = st.warm
  memInc : st'.memInc = st.memInc
  ignore : st'.ignoreSingular = st.ignoreSingular
  skip : st'.skipInertia = st.skipInertia
  pivtol : st'.pivtol = st.pivtol
  pivtolmax : st'.pivtolmax = st.pivtolmax
  ref : st'.refactorize = st.refactorize
  pc : st'.pivtolChanged = st.pivtolChanged

theorem Same.refl (st : St K P Keep Fac) : Same st st := ⟨rfl, rfl, rfl, rfl, rfl, rfl, rfl, rfl, rfl, rfl, rfl⟩
theorem Same.trans {a b c : St K P Keep Fac} (h : Same a b) (g : Same b c) : Same a c :=
  ⟨g.dim.trans h.dim, g.nnz.trans h.nnz, g.keep.trans h.keep, g.warm.trans h.warm, g.memInc.trans h.memInc, g.ignore.trans h.ignore,
    g.skip.trans h.skip, g.pivtol.trans h.pivtol, g.pivtolmax.trans h.pivtolmax, g.ref.trans h.ref, g.pc.trans h.pc⟩

theorem newIW_same (L : Lib K P Keep Fac) (st : St K P Keep Fac) : Same st (st.newIW L).2 ∧ (st.newIW L).2.work = st.work ∧
    (st.newIW L).2.la = st.la ∧ (st.newIW L).2.liw = st.liw := by
  unfold St.newIW; split <;> exact ⟨⟨rfl, rfl, rfl, rfl, rfl, rfl, rfl, rfl, rfl, rfl, rfl⟩, rfl, rfl, rfl⟩

theorem newA_same (L : Lib K P Keep Fac) (n : Nat) (st : St K P Keep Fac) : Same st (st.newA L n).2 ∧
    (st.newA L n).2.la = st.la ∧ (st.newA L n).2.liw = st.liw := by
  unfold St.newA; split <;> exact ⟨⟨rfl, rfl, rfl, rfl, rfl, rfl, rfl, rfl, rfl, rfl, rfl⟩, rfl, rfl⟩

theorem memIncrease_ge {imax len : Nat} {rec : ℚ} {m n : Nat} (h : memIncrease imax len rec m = some n) (hl : (len : ℚ) ≤ rec) :
    len ≤ n ∧ (rec < imax → ⌊rec⌋.toNat ≤ n) := by
  unfold memIncrease at h
  split at h
  · rename_i h1
    split at h
    · cases h; exact ⟨by omega, fun h2 => absurd h2 (not_lt.2 h1)⟩
    · simp at h
  · cases h
    have : (len : ℤ) ≤ ⌊rec⌋ := Int.le_floor.2 (by exact_mod_cast hl)
    exact ⟨le_trans (by omega) (le_max_right _ _), fun _ => le_max_right _ _⟩

theorem memIncrease_le {imax len : Nat} {rec : ℚ} {m n : Nat} (h : memIncrease imax len rec m = some n) (hm : m ≤ imax) : n ≤ imax := by
  unfold memIncrease at h
  split at h
  · split at h
    · cases h; exact le_refl _
    · simp at h
  · rename_i h1
    cases h
    have h2 : ⌊rec⌋ < (imax : ℤ) := Int.floor_lt.2 (by push_cast; exact lt_of_not_ge h1)
    refine max_le hm ?_
    omega

/-- more than before, if more is asked for. -/
theorem memIncrease_gt {imax len : Nat} {rec : ℚ} {m n : Nat} (h : memIncrease imax len rec m = some n) {e : ℤ} (he : (len : ℤ) < e)
    (hl : (e : ℚ) ≤ rec) : len < n := by
  unfold memIncrease at h
  split at h
  · split at h
    · cases h; assumption
    · simp at h
  · cases h
    have : e ≤ ⌊rec⌋ := Int.le_floor.2 hl
    exact lt_of_lt_of_le (by omega) (le_max_right _ _)

theorem mul_ge {m x : ℚ} (hm : 1 ≤ m) (hx : 0 ≤ x) : x ≤ m * x := by nlinarith

theorem growA_same (L : Lib K P Keep Fac) (st : St K P Keep Fac) : Same st (st.growA L).2 ∧ (st.growA L).2.work = st.work ∧
    (1 ≤ st.memInc → st.la ≤ (st.growA L).2.la) ∧ (st.growA L).2.liw = st.liw := by
  unfold St.growA
  split
  · split
    · exact ⟨.refl _, rfl, fun _ => le_refl _, rfl⟩
    · rename_i la hla
      have : 1 ≤ st.memInc → st.la ≤ la := fun h => (memIncrease_ge hla (mul_ge h (by positivity))).1
      dsimp only
      split <;> exact ⟨⟨rfl, rfl, rfl, rfl, rfl, rfl, rfl, rfl, rfl, rfl, rfl⟩, rfl, this, rfl⟩
  · exact ⟨.refl _, rfl, fun _ => le_refl _, rfl⟩

theorem growIW_same (L : Lib K P Keep Fac) (st : St K P Keep Fac) : Same st (st.growIW L).2 ∧ (st.growIW L).2.work = st.work ∧
    (1 ≤ st.memInc → st.liw ≤ (st.growIW L).2.liw) ∧ (st.growIW L).2.la = st.la := by
  unfold St.growIW
  split
  · split
    · exact ⟨⟨rfl, rfl, rfl, rfl, rfl, rfl, rfl, rfl, rfl, rfl, rfl⟩, rfl, fun _ => le_refl _, rfl⟩
    · rename_i liw hliw
      have h1 : 1 ≤ st.memInc → st.liw ≤ liw := fun h => (memIncrease_ge hliw (mul_ge h (by positivity))).1
      obtain ⟨a1, a2, a3, a4⟩ := newIW_same L { st with liw := liw }
      dsimp only
      split
      · exact ⟨⟨a1.dim, a1.nnz, a1.keep, a1.warm, a1.memInc, a1.ignore, a1.skip, a1.pivtol, a1.pivtolmax, a1.ref, a1.pc⟩, a2,
          fun h => by rw [a4]; exact h1 h, a3⟩
      · exact ⟨⟨a1.dim, a1.nnz, a1.keep, a1.warm, a1.memInc, a1.ignore, a1.skip, a1.pivtol, a1.pivtolmax, a1.ref, a1.pc⟩, a2,
          fun h => by rw [a4]; exact h1 h, a3⟩
  · exact ⟨.refl _, rfl, fun _ => le_refl _, rfl⟩

/-- how far the lengths are from their limit. -/
def room (L : Lib K P Keep Fac) (st : St K P Keep Fac) : Nat := (L.imax - st.liw) + (L.imax - st.la)

theorem again_res (L : Lib K P Keep Fac) (b : BOut Fac) (st : St K P Keep Fac) (hb : b.iflag = -3 ∨ b.iflag = -4) :
    Same st (st.again L b).2 ∧ ((st.again L b).1 = none ∨ (st.again L b).1 = some .callAgain) ∧
    (1 ≤ st.memInc → (b.iflag = -3 → (st.liw : ℤ) < b.ierror) → (b.iflag = -4 → (st.la : ℤ) < b.ierror) →
      (st.again L b).1 = some .callAgain → room L (st.again L b).2 < room L st) := by
  unfold St.again
  dsimp only
  split
  · exact ⟨⟨rfl, rfl, rfl, rfl, rfl, rfl, rfl, rfl, rfl, rfl, rfl⟩, Or.inl rfl, fun _ _ _ h => by simp at h⟩
  · rename_i liw hliw
    split
    · exact ⟨⟨rfl, rfl, rfl, rfl, rfl, rfl, rfl, rfl, rfl, rfl, rfl⟩, Or.inl rfl, fun _ _ _ h => by simp at h⟩
    · rename_i la hla
      generalize hst0 : ({ st with liw := liw, la := la, iwLen := none, aLen := none, work := Work.raw L.junk } : St K P Keep Fac) = st0
      have hs0 : Same st st0 := by rw [← hst0]; exact ⟨rfl, rfl, rfl, rfl, rfl, rfl, rfl, rfl, rfl, rfl, rfl⟩
      have e1 : st0.liw = liw := by rw [← hst0]
      have e2 : st0.la = la := by rw [← hst0]
      obtain ⟨a1, a2, a3, a4⟩ := newIW_same L st0
      generalize hr : st0.newIW L = r at *
      obtain ⟨rb, r⟩ := r
      dsimp only at *
      obtain ⟨c1, c2, c3⟩ := newA_same L la r
      generalize hq : r.newA L la = q at *
      obtain ⟨qb, q⟩ := q
      dsimp only at *
      split
      · exact ⟨hs0.trans a1, Or.inl rfl, fun _ _ _ h => by simp at h⟩
      · split
        · refine ⟨(hs0.trans a1).trans c1, Or.inr rfl, fun hm h3 h4 _ => ?_⟩
          unfold room
          have lliw : liw ≤ L.imax := memIncrease_le hliw (by omega)
          have lla : la ≤ L.imax := memIncrease_le hla (by omega)
          simp only [c2, c3, a3, a4, e1, e2]
          unfold St.wantIW at hliw
          unfold St.wantA at hla
          dsimp only at hliw hla
          by_cases hf : b.iflag = -3
          · rw [if_pos hf] at hliw hla
            have p := h3 hf
            have g1 : st.liw < liw := memIncrease_gt hliw p (mul_ge hm (by
              have : (0 : ℤ) ≤ b.ierror := by omega
              exact_mod_cast this))
            have g2 : st.la ≤ la := (memIncrease_ge hla (mul_ge hm (by positivity))).1
            omega
          · rw [if_neg hf] at hliw hla
            have p := h4 (hb.resolve_left hf)
            have g1 : st.la < la := memIncrease_gt hla p (mul_ge hm (by
              have : (0 : ℤ) ≤ b.ierror := by omega
              exact_mod_cast this))
            have g2 : st.liw ≤ liw := (memIncrease_ge hliw (mul_ge hm (by positivity))).1
            omega
        · exact ⟨(hs0.trans a1).trans c1, Or.inl rfl, fun _ _ _ h => by simp at h⟩

/-- the outcome of `Factorization`. -/
structure FacRes (L : Lib K P Keep Fac) (ia ja : Nat → Nat) (chk : Bool) (neg : Nat) (st : St K P Keep Fac) (b : BOut Fac)
    (r : Option Status) (st' : St K P Keep Fac) : Prop where
  success : r = some .success → (b.iflag = 0 ∨ (b.iflag = 3 ∧ st.ignoreSingular = true)) ∧ st'.work = .fac b.fac ∧
    (b.iflag = 0 → st'.neg = b.neg) ∧ (st.skipInertia = false → chk = true → st'.neg = neg)
  wrong : r = some .wrongInertia → (b.iflag = 0 ∨ (b.iflag = 3 ∧ st.ignoreSingular = true)) ∧ chk = true ∧ st.skipInertia = false ∧
    (b.iflag = 0 → st'.neg = b.neg) ∧ st'.neg ≠ neg
  singular : r = some .singular → b.iflag = -5 ∨ (b.iflag = 3 ∧ st.ignoreSingular = false)
  again : r = some .callAgain → b.iflag = -3 ∨ b.iflag = -4

theorem judge_res (L : Lib K P Keep Fac) (ia ja : Nat → Nat) (b : BOut Fac) (chk : Bool) (neg : Nat) (st : St K P Keep Fac)
    (hw : st.work = .fac b.fac) (hn : st.neg = b.neg) :
    Same st (st.judge L b chk neg).2 ∧ FacRes L ia ja chk neg st b (st.judge L b chk neg).1 (st.judge L b chk neg).2 ∧
    (1 ≤ st.memInc → (b.iflag = -3 → (st.liw : ℤ) < b.ierror) → (b.iflag = -4 → (st.la : ℤ) < b.ierror) →
      (st.judge L b chk neg).1 = some .callAgain → room L (st.judge L b chk neg).2 < room L st) := by
  unfold St.judge
  split
  · rename_i hb
    obtain ⟨a1, a2, a3⟩ := again_res L b st hb
    refine ⟨a1, ⟨?_, ?_, ?_, fun _ => hb⟩, a3⟩ <;> intro e <;> rcases a2 with a2 | a2 <;> rw [a2] at e <;> simp at e
  · split
    · rename_i h
      refine ⟨.refl _, ⟨fun e => by simp at e, fun e => by simp at e, fun _ => ?_, fun e => by simp at e⟩, fun _ _ _ e => by simp at e⟩
      rcases h with h | ⟨h1, h2⟩
      · exact Or.inl h
      · exact Or.inr ⟨h2, by simpa using h1⟩
    · rename_i hs
      split
      · exact ⟨.refl _, ⟨fun e => by simp at e, fun e => by simp at e, fun e => by simp at e, fun e => by simp at e⟩, fun _ _ _ e => by simp at e⟩
      · rename_i hf
        have hfl : b.iflag = 0 ∨ (b.iflag = 3 ∧ st.ignoreSingular = true) := by
          by_cases h0 : b.iflag = 0
          · exact Or.inl h0
          · have h3 : b.iflag = 3 := by by_contra h3; exact hf ⟨h3, h0⟩
            refine Or.inr ⟨h3, ?_⟩
            by_contra hi
            exact hs (Or.inr ⟨by simpa using hi, h3⟩)
        dsimp only
        generalize hst1 : (if b.iflag = 3 then { st with neg := st.neg + (st.dim - b.ierror) } else st : St K P Keep Fac) = st1
        have s1 : Same st st1 ∧ st1.work = st.work ∧ (b.iflag = 0 → st1.neg = b.neg) := by
          rw [← hst1]; split
          · rename_i h3; exact ⟨⟨rfl, rfl, rfl, rfl, rfl, rfl, rfl, rfl, rfl, rfl, rfl⟩, rfl, fun h0 => by omega⟩
          · exact ⟨.refl _, rfl, fun _ => hn⟩
        obtain ⟨s1, s2, s3⟩ := s1
        have s4 : Same st { st1 with laInc := st1.laInc || decide (10 ≤ b.ncmpbr), liwInc := st1.liwInc || decide (10 ≤ b.ncmpbi) } :=
          s1.trans ⟨rfl, rfl, rfl, rfl, rfl, rfl, rfl, rfl, rfl, rfl, rfl⟩
        split
        · rename_i hwr
          refine ⟨s4, ⟨fun e => by simp at e, fun _ => ⟨hfl, hwr.2.1, ?_, s3, fun e => hwr.2.2 e.symm⟩, fun e => by simp at e,
            fun e => by simp at e⟩, fun _ _ _ e => by simp at e⟩
          have := hwr.1
          rw [s1.skip] at this; simpa using this
        · rename_i hwr
          refine ⟨s4, ⟨fun _ => ⟨hfl, by dsimp only; rw [s2, hw], s3, fun e1 e2 => ?_⟩, fun e => by simp at e, fun e => by simp at e,
            fun e => by simp at e⟩, fun _ _ _ e => by simp at e⟩
          dsimp only at hwr ⊢
          rw [s1.skip] at hwr
          by_contra hc
          exact hwr ⟨by simpa using e1, e2, fun h => hc h.symm⟩

theorem factorize_res (L : Lib K P Keep Fac) (ia ja : Nat → Nat) (chk : Bool) (neg : Nat) (st : St K P Keep Fac) :
    ∃ la liw, Same st (st.factorize L ia ja chk neg).2 ∧
      FacRes L ia ja chk neg st (L.factor st.dim st.nnz ia ja st.work la liw st.keep st.pivtol) (st.factorize L ia ja chk neg).1
        (st.factorize L ia ja chk neg).2 ∧
      (1 ≤ st.memInc → AsksForMore L → (st.factorize L ia ja chk neg).1 = some .callAgain →
        room L (st.factorize L ia ja chk neg).2 < room L st) := by
  unfold St.factorize
  dsimp only
  obtain ⟨a1, a2, a3, a4⟩ := growA_same L st
  generalize hr : st.growA L = r at *
  obtain ⟨rb, r⟩ := r
  dsimp only at *
  have nope : ∀ (st' : St K P Keep Fac) b, FacRes L ia ja chk neg st b none st' := fun st' b =>
    ⟨fun e => by simp at e, fun e => by simp at e, fun e => by simp at e, fun e => by simp at e⟩
  obtain ⟨c1, c2, c3, c4⟩ := growIW_same L r
  generalize hq : r.growIW L = q at *
  obtain ⟨qb, q⟩ := q
  dsimp only at *
  split
  · exact ⟨0, 0, a1, nope _ _, fun _ _ e => by simp at e⟩
  · split
    · exact ⟨0, 0, a1.trans c1, nope _ _, fun _ _ e => by simp at e⟩
    · have hs := a1.trans c1
      have hfa : L.factor q.dim q.nnz ia ja q.work q.la q.liw q.keep q.pivtol =
          L.factor st.dim st.nnz ia ja st.work q.la q.liw st.keep st.pivtol := by
        rw [hs.dim, hs.nnz, hs.keep, hs.pivtol, c2, a2]
      rw [hfa]
      have asks := fun (h : AsksForMore L) => h st.dim st.nnz ia ja st.work q.la q.liw st.keep st.pivtol
      generalize hb : L.factor st.dim st.nnz ia ja st.work q.la q.liw st.keep st.pivtol = b at *
      set q1 : St K P Keep Fac := { q with work := .fac b.fac, neg := b.neg, overrun := q.overrun || !long q.aLen q.la || !long q.iwLen q.liw } with hq1
      obtain ⟨j1, j2, j3⟩ := judge_res L ia ja b chk neg q1 rfl rfl
      have hs1 : Same st q1 := hs.trans ⟨rfl, rfl, rfl, rfl, rfl, rfl, rfl, rfl, rfl, rfl, rfl⟩
      refine ⟨q.la, q.liw, hs1.trans j1, ?_, ?_⟩
      · rw [hb]
        refine ⟨fun e => ?_, fun e => ?_, fun e => ?_, j2.again⟩
        · have := j2.success e; rw [hs1.ignore, hs1.skip] at this; exact this
        · have := j2.wrong e; rw [hs1.ignore, hs1.skip] at this; exact this
        · have := j2.singular e; rw [hs1.ignore] at this; exact this
      · intro hm has e
        have hm1 : 1 ≤ q1.memInc := by rw [hs1.memInc]; exact hm
        have lt := j3 hm1 (asks has).1 (asks has).2 e
        have l1 : st.la ≤ q.la := by rw [c4]; exact a3 hm
        have l2 : st.liw ≤ q.liw := by rw [← a4]; exact c3 (by rw [a1.memInc]; exact hm)
        have : room L q1 ≤ room L st := by
          unfold room
          show L.imax - q.liw + (L.imax - q.la) ≤ _
          omega
        omega

end Verif.Ma27
