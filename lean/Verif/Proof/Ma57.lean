import Verif.Spec.Ma57
import Verif.Proof.Ma27d

/-! # The factorization loop of the MA57 interface -/

namespace Verif.Ma57
open Verif.AugSolve (Status Structure Known SolvesAll denote)
open Verif.Ma27 (memIncrease long memIncrease_le memIncrease_gt)

set_option linter.unusedSectionVars false
set_option linter.unusedSimpArgs false
set_option linter.unusedVariables false

variable {K P Keep Mem : Type}

/-- members that a factorization does not touch. -/
structure Same (st st' : St K P Keep Mem) : Prop where
  dim : st'.dim = st.dim
  nnz : st'.nnz = st.nnz
  keep : st'.keep = st.keep
  warm : st'.warm = st.warm
  pre : st'.preAlloc = st.preAlloc
  pivtol : st'.pivtol = st.pivtol
  pivtolmax : st'.pivtolmax = st.pivtolmax
  ref : st'.refactorize = st.refactorize
  pc : st'.pivtolChanged = st.pivtolChanged
  vals : st'.vals = st.vals
  aLen : st'.aLen = st.aLen

theorem Same.refl (st : St K P Keep Mem) : Same st st := ⟨rfl, rfl, rfl, rfl, rfl, rfl, rfl, rfl, rfl, rfl, rfl⟩
theorem Same.trans {a b c : St K P Keep Mem} (h : Same a b) (g : Same b c) : Same a c :=
  ⟨g.dim.trans h.dim, g.nnz.trans h.nnz, g.keep.trans h.keep, g.warm.trans h.warm, g.pre.trans h.pre, g.pivtol.trans h.pivtol,
    g.pivtolmax.trans h.pivtolmax, g.ref.trans h.ref, g.pc.trans h.pc, g.vals.trans h.vals, g.aLen.trans h.aLen⟩

/-- the arrays are as long as the object believes. -/
structure Lens (st : St K P Keep Mem) : Prop where
  a : st.aLen = some st.nnz
  fact : st.factLen = some st.lfact
  ifact : st.ifactLen = some st.lifact

theorem long_self (n : Nat) : long (some n) n = true := by simp [long]

theorem callB_res (L : Lib K P Keep Mem) (st : St K P Keep Mem) : Same st (st.callB L).2 ∧ (st.callB L).2.lfact = st.lfact ∧
    (st.callB L).2.lifact = st.lifact ∧ (Lens st → Lens (st.callB L).2 ∧ (st.callB L).2.overrun = st.overrun) := by
  refine ⟨⟨rfl, rfl, rfl, rfl, rfl, rfl, rfl, rfl, rfl, rfl, rfl⟩, rfl, rfl, fun h => ⟨⟨h.a, h.fact, h.ifact⟩, ?_⟩⟩
  simp [St.callB, h.a, h.fact, h.ifact, long_self]

theorem growReal_res (L : Lib K P Keep Mem) (b : BOut Mem) (st : St K P Keep Mem) : Same st (st.growReal L b).2 ∧
    (st.growReal L b).2.overrun = st.overrun ∧
    (Lens st → (st.growReal L b).1 = true → Lens (st.growReal L b).2) ∧
    (1 ≤ st.preAlloc → st.lfact < b.needReal → (st.growReal L b).1 = true →
      st.lfact < (st.growReal L b).2.lfact ∧ (st.growReal L b).2.lfact ≤ L.imax ∧ (st.growReal L b).2.lifact = st.lifact) := by
  unfold St.growReal
  split
  · exact ⟨.refl _, rfl, fun _ e => by simp at e, fun _ _ e => by simp at e⟩
  · rename_i lf hlf
    dsimp only
    split
    · refine ⟨⟨rfl, rfl, rfl, rfl, rfl, rfl, rfl, rfl, rfl, rfl, rfl⟩, rfl, fun h _ => ⟨h.a, rfl, h.ifact⟩, fun hp hn _ => ⟨?_, ?_, rfl⟩⟩
      · refine memIncrease_gt hlf (e := (b.needReal : ℤ)) (by exact_mod_cast hn) ?_
        have : (0 : ℚ) ≤ b.needReal := by positivity
        push_cast
        nlinarith
      · exact memIncrease_le hlf (by omega)
    · exact ⟨⟨rfl, rfl, rfl, rfl, rfl, rfl, rfl, rfl, rfl, rfl, rfl⟩, rfl, fun _ e => by simp at e, fun _ _ e => by simp at e⟩

theorem growInt_res (L : Lib K P Keep Mem) (b : BOut Mem) (st : St K P Keep Mem) : Same st (st.growInt L b).2 ∧
    (st.growInt L b).2.overrun = st.overrun ∧
    (Lens st → (st.growInt L b).1 = true → Lens (st.growInt L b).2) ∧
    (1 ≤ st.preAlloc → st.lifact < b.needInt → (st.growInt L b).1 = true →
      st.lifact < (st.growInt L b).2.lifact ∧ (st.growInt L b).2.lifact ≤ L.imax ∧ (st.growInt L b).2.lfact = st.lfact) := by
  unfold St.growInt
  split
  · exact ⟨.refl _, rfl, fun _ e => by simp at e, fun _ _ e => by simp at e⟩
  · rename_i li hli
    dsimp only
    split
    · refine ⟨⟨rfl, rfl, rfl, rfl, rfl, rfl, rfl, rfl, rfl, rfl, rfl⟩, rfl, fun h _ => ⟨h.a, h.fact, rfl⟩, fun hp hn _ => ⟨?_, ?_, rfl⟩⟩
      · refine memIncrease_gt hli (e := (b.needInt : ℤ)) (by exact_mod_cast hn) ?_
        have : (0 : ℚ) ≤ b.needInt := by positivity
        push_cast
        nlinarith
      · exact memIncrease_le hli (by omega)
    · exact ⟨⟨rfl, rfl, rfl, rfl, rfl, rfl, rfl, rfl, rfl, rfl, rfl⟩, rfl, fun _ e => by simp at e, fun _ _ e => by simp at e⟩

/-- how far the lengths are from their limit. -/
def room (L : Lib K P Keep Mem) (st : St K P Keep Mem) : Nat := (L.imax - st.lfact) + (L.imax - st.lifact)

theorem room_le (L : Lib K P Keep Mem) (st : St K P Keep Mem) : room L st < passes L := by unfold room passes; omega

/-- a call of `ma57b` for the matrix in question. -/
def Called (L : Lib K P Keep Mem) (st : St K P Keep Mem) (b : BOut Mem) : Prop :=
  ∃ mem lf li, b = L.factor st.dim st.nnz st.vals mem lf li st.keep st.pivtol

theorem Called.same {L : Lib K P Keep Mem} {st st' : St K P Keep Mem} {b : BOut Mem} (s : Same st st') (h : Called L st' b) : Called L st b := by
  obtain ⟨mem, lf, li, h⟩ := h
  rw [s.dim, s.nnz, s.vals, s.keep, s.pivtol] at h
  exact ⟨mem, lf, li, h⟩

/-- the outcome of the loop. -/
structure LoopRes (L : Lib K P Keep Mem) (fuel : Nat) (st : St K P Keep Mem) (r : Out) (st' : St K P Keep Mem) : Prop where
  same : Same st st'
  success : r = .ret .success → ∃ b, Called L st b ∧ b.info = 0 ∧ st'.mem = b.mem ∧ st'.neg = b.neg
  singular : r = .ret .singular → ∃ b, Called L st b ∧ b.info = 4
  fatal : r = .ret .fatal → ∃ b, Called L st b ∧ ((b.info < 0 ∧ b.info ≠ -3 ∧ b.info ≠ -4) ∨ (0 < b.info ∧ b.info ≠ 4))
  kinds : r ≠ .ret .callAgain ∧ r ≠ .ret .wrongInertia
  overrun : Lens st → st'.overrun = st.overrun
  lens : Lens st → r ≠ .thrown → Lens st'
  ends : AsksForMore L → 1 ≤ st.preAlloc → room L st < fuel → r ≠ .running

theorem loop_res (L : Lib K P Keep Mem) : ∀ (fuel : Nat) (st : St K P Keep Mem), LoopRes L fuel st (factorLoop L fuel st).1 (factorLoop L fuel st).2 := by
  intro fuel
  induction fuel with
  | zero =>
    intro st
    exact ⟨.refl _, fun e => by simp [factorLoop] at e, fun e => by simp [factorLoop] at e, fun e => by simp [factorLoop] at e,
      by simp [factorLoop], fun _ => rfl, fun h _ => h, fun _ _ h => by omega⟩
  | succ fuel ih =>
    intro st
    have hb : Called L st (st.callB L).1 := ⟨st.mem, st.lfact, st.lifact, rfl⟩
    have hm : (st.callB L).2.mem = (st.callB L).1.mem ∧ (st.callB L).2.neg = (st.callB L).1.neg := ⟨rfl, rfl⟩
    have hask : AsksForMore L → ((st.callB L).1.info = -3 → st.lfact < (st.callB L).1.needReal) ∧
        ((st.callB L).1.info = -4 → st.lifact < (st.callB L).1.needInt) := fun h => h _ _ _ _ _ _ _ _
    obtain ⟨c1, c2, c3, c4⟩ := callB_res L st
    unfold factorLoop
    dsimp only
    generalize hr : st.callB L = r at *
    obtain ⟨b, r⟩ := r
    dsimp only at *
    split
    · rename_i h0
      exact ⟨c1, fun _ => ⟨b, hb, h0, hm.1, hm.2⟩, fun e => by simp at e, fun e => by simp at e, by simp, fun h => (c4 h).2, fun h _ => (c4 h).1,
        fun _ _ _ => by simp⟩
    · rename_i h0
      split
      · rename_i h3
        obtain ⟨g1, g2, g3, g4⟩ := growReal_res L b r
        generalize hg : r.growReal L b = g at *
        obtain ⟨gb, g⟩ := g
        dsimp only at *
        split
        · rename_i hgt
          obtain ⟨i1, i2, i3, i3', i4, i5, i6, i7⟩ := ih g
          have s := c1.trans g1
          refine ⟨s.trans i1, fun e => ?_, fun e => ?_, fun e => ?_, i4, fun h => ?_, fun h e => i6 (g3 (c4 h).1 hgt) e, fun ha hp hf => i7 ha ?_ ?_⟩
          · obtain ⟨b', k1, k2⟩ := i2 e; exact ⟨b', k1.same s, k2⟩
          · obtain ⟨b', k1, k2⟩ := i3 e; exact ⟨b', k1.same s, k2⟩
          · obtain ⟨b', k1, k2⟩ := i3' e; exact ⟨b', k1.same s, k2⟩
          · rw [i5 (g3 (c4 h).1 hgt), g2, (c4 h).2]
          · rw [s.pre]; exact hp
          · obtain ⟨q1, q2, q3⟩ := g4 (by rw [c1.pre]; exact hp) (by rw [c2]; exact (hask ha).1 h3) hgt
            unfold room at hf ⊢
            omega
        · rename_i hgf
          exact ⟨c1.trans g1, fun e => by simp at e, fun e => by simp at e, fun e => by simp at e, by simp, fun h => g2.trans (c4 h).2,
            fun _ e => absurd rfl e, fun _ _ _ => by simp⟩
      · rename_i h3
        split
        · rename_i h4
          obtain ⟨g1, g2, g3, g4⟩ := growInt_res L b r
          generalize hg : r.growInt L b = g at *
          obtain ⟨gb, g⟩ := g
          dsimp only at *
          split
          · rename_i hgt
            obtain ⟨i1, i2, i3, i3', i4, i5, i6, i7⟩ := ih g
            have s := c1.trans g1
            refine ⟨s.trans i1, fun e => ?_, fun e => ?_, fun e => ?_, i4, fun h => ?_, fun h e => i6 (g3 (c4 h).1 hgt) e, fun ha hp hf => i7 ha ?_ ?_⟩
            · obtain ⟨b', k1, k2⟩ := i2 e; exact ⟨b', k1.same s, k2⟩
            · obtain ⟨b', k1, k2⟩ := i3 e; exact ⟨b', k1.same s, k2⟩
            · obtain ⟨b', k1, k2⟩ := i3' e; exact ⟨b', k1.same s, k2⟩
            · rw [i5 (g3 (c4 h).1 hgt), g2, (c4 h).2]
            · rw [s.pre]; exact hp
            · obtain ⟨q1, q2, q3⟩ := g4 (by rw [c1.pre]; exact hp) (by rw [c3]; exact (hask ha).2 h4) hgt
              unfold room at hf ⊢
              omega
          · rename_i hgf
            exact ⟨c1.trans g1, fun e => by simp at e, fun e => by simp at e, fun e => by simp at e, by simp, fun h => g2.trans (c4 h).2,
              fun _ e => absurd rfl e, fun _ _ _ => by simp⟩
        · rename_i h4
          split
          · rename_i h5
            exact ⟨c1, fun e => by simp at e, fun e => by simp at e, fun _ => ⟨b, hb, Or.inl ⟨h5, h3, h4⟩⟩, by simp, fun h => (c4 h).2, fun h _ => (c4 h).1,
              fun _ _ _ => by simp⟩
          · rename_i h5
            split
            · rename_i h6
              exact ⟨c1, fun e => by simp at e, fun _ => ⟨b, hb, h6⟩, fun e => by simp at e, by simp, fun h => (c4 h).2, fun h _ => (c4 h).1,
                fun _ _ _ => by simp⟩
            · rename_i h6
              exact ⟨c1, fun e => by simp at e, fun e => by simp at e, fun _ => ⟨b, hb, Or.inr ⟨by omega, h6⟩⟩, by simp, fun h => (c4 h).2,
                fun h _ => (c4 h).1, fun _ _ _ => by simp⟩

/-- more passes do not change an outcome. -/
theorem loop_mono (L : Lib K P Keep Mem) : ∀ (f1 f2 : Nat) (st : St K P Keep Mem), f1 ≤ f2 → (factorLoop L f1 st).1 ≠ .running →
    factorLoop L f2 st = factorLoop L f1 st := by
  intro f1
  induction f1 with
  | zero => intro f2 st _ h; exact absurd rfl h
  | succ f1 ih =>
    intro f2 st hle h
    obtain ⟨f2, rfl⟩ : ∃ f, f2 = f + 1 := ⟨f2 - 1, by omega⟩
    unfold factorLoop at h ⊢
    dsimp only at h ⊢
    generalize st.callB L = r at *
    obtain ⟨b, r⟩ := r
    dsimp only at *
    by_cases h0 : b.info = 0
    · simp only [if_pos h0]
    · simp only [if_neg h0] at h ⊢
      by_cases h3 : b.info = -3
      · simp only [if_pos h3] at h ⊢
        by_cases hg : (r.growReal L b).1 = true
        · rw [if_pos hg] at h ⊢; rw [if_pos hg]; exact ih f2 _ (by omega) h
        · rw [if_neg hg, if_neg hg]
      · simp only [if_neg h3] at h ⊢
        by_cases h4 : b.info = -4
        · simp only [if_pos h4] at h ⊢
          by_cases hg : (r.growInt L b).1 = true
          · rw [if_pos hg] at h ⊢; rw [if_pos hg]; exact ih f2 _ (by omega) h
          · rw [if_neg hg, if_neg hg]
        · simp only [if_neg h4] at h ⊢

/-- the outcome of `Factorization`. -/
structure FacRes (L : Lib K P Keep Mem) (fuel : Nat) (chk : Bool) (neg : Nat) (st : St K P Keep Mem) (r : Out) (st' : St K P Keep Mem) : Prop where
  same : Same st st'
  success : r = .ret .success → ∃ b, Called L st b ∧ b.info = 0 ∧ st'.mem = b.mem ∧ st'.neg = b.neg ∧ (chk = true → b.neg = neg)
  wrong : r = .ret .wrongInertia → ∃ b, Called L st b ∧ b.info = 0 ∧ st'.neg = b.neg ∧ chk = true ∧ b.neg ≠ neg
  singular : r = .ret .singular → ∃ b, Called L st b ∧ b.info = 4
  fatal : r = .ret .fatal → ∃ b, Called L st b ∧ ((b.info < 0 ∧ b.info ≠ -3 ∧ b.info ≠ -4) ∨ (0 < b.info ∧ b.info ≠ 4))
  kinds : r ≠ .ret .callAgain
  overrun : Lens st → st'.overrun = st.overrun
  lens : Lens st → r ≠ .thrown → Lens st'
  ends : AsksForMore L → 1 ≤ st.preAlloc → room L st < fuel → r ≠ .running

theorem factorize_res (L : Lib K P Keep Mem) (fuel : Nat) (chk : Bool) (neg : Nat) (st : St K P Keep Mem) :
    FacRes L fuel chk neg st (st.factorize L fuel chk neg).1 (st.factorize L fuel chk neg).2 := by
  unfold St.factorize
  dsimp only
  obtain ⟨i1, i2, i3, i3', i4, i5, i6, i7⟩ := loop_res L fuel st
  generalize factorLoop L fuel st = r at *
  obtain ⟨o, r⟩ := r
  dsimp only at *
  split
  · rename_i hs
    subst hs
    obtain ⟨b, k1, k2, k3, k4⟩ := i2 rfl
    split
    · rename_i hw
      exact ⟨i1, fun e => by simp at e, fun _ => ⟨b, k1, k2, k4, hw.1, fun e => hw.2 (by rw [k4, e])⟩, fun e => by simp at e, fun e => by simp at e, by simp,
        i5, fun h _ => i6 h (by simp), fun _ _ _ => by simp⟩
    · rename_i hw
      refine ⟨i1, fun _ => ⟨b, k1, k2, k3, k4, fun hc => ?_⟩, fun e => by simp at e, fun e => by simp at e, fun e => by simp at e, by simp, i5,
        fun h _ => i6 h (by simp), fun _ _ _ => by simp⟩
      by_contra hn
      exact hw ⟨hc, fun e => hn (by rw [← k4, ← e])⟩
  · rename_i hs
    exact ⟨i1, fun e => absurd e hs, fun e => absurd e i4.2, i3, i3', i4.1, i5, i6, i7⟩

end Verif.Ma57
