import Verif.Props.Piecewise
import Mathlib.Algebra.Order.Ring.Rat
import Mathlib.Data.Rat.Defs
import Mathlib.Tactic.NormNum

set_option linter.unusedSectionVars false
set_option linter.unusedSimpArgs false
set_option linter.unusedVariables false

/-! # C85: acceptance of trial points with `line_search_method=cg-penalty` -/

namespace Verif.Piecewise

section
variable {K : Type} [Field K] [LinearOrder K] [IsStrictOrderedRing K] {P : List (K × K)} {s : St K}

/-- the upper bound for the infeasibility of trial points, determined when it is needed first. -/
def bound (cfg : Cfg K) (s : St K) : K := if s.thetaMax < 0 then cfg.thetaMaxFact * max 1 s.refTheta else s.thetaMax

/-- sufficient decrease of the penalty function with respect to the reference point, up to rounding errors. -/
def SuffDecrease (cfg : Cfg K) (s : St K) (t : TrialObs K) (alpha : K) : Prop := t.pen - s.refPen - cfg.eta * alpha * s.refDeriv ≤ 10 * cfg.eps * |s.refPen|

/-- for some penalty parameter the trial point is better than all points of the list, by a margin; where the current point is almost feasible, also the barrier
function decreases sufficiently compared to the most feasible point. -/
def PieceDecrease (cfg : Cfg K) (P : List (K × K)) (biggest : K) (o : CurrObs K) (t : TrialObs K) (alpha : K) : Prop :=
  (o.infMax < cfg.thetaMin → t.barr - biggest - -alpha * cfg.gObj * o.stepSq ≤ 10 * cfg.eps * |o.barr|) ∧
  ∃ r, 0 ≤ r ∧ ∀ p ∈ P, (t.barr + alpha * cfg.gObj * o.stepSq) + r * (t.theta + alpha * cfg.gInf * o.theta) < p.1 + r * p.2

/-- **C85** The test of a trial point, and what happens to the list afterwards: it is accepted exactly if it is not too infeasible and satisfies the Armijo condition of
the penalty function or is better than all points of the list for some penalty parameter, or the step size is tiny; only in the second case it enters the list. -/
theorem check_iff (h : Hist P s.list) (hn : s.list.length < 100) (hj : s.jump = false) (ha : s.byArmijo = true) (cfg : Cfg K) (o o' : CurrObs K) (t : TrialObs K) (alpha : K) :
    ∃ a s', check cfg o t alpha s = some (a, s') ∧
      (a = true ↔ (0 < bound cfg s → t.theta ≤ bound cfg s) ∧
        (SuffDecrease cfg s t alpha ∨ (cfg.never = false ∧ PieceDecrease cfg P (biggestBarr s.list) o t alpha) ∨ alpha < cfg.minAlpha)) ∧
      (a = true → ∃ s'', updateForNext o' t s' = some s'' ∧
        (SuffDecrease cfg s t alpha ∨ cfg.never = true ∨ ¬PieceDecrease cfg P (biggestBarr s.list) o t alpha → s''.list = s.list) ∧
        (¬SuffDecrease cfg s t alpha → cfg.never = false → PieceDecrease cfg P (biggestBarr s.list) o t alpha → Hist ((t.barr, t.theta) :: P) s''.list)) ∧
      (a = false → s'.list = s.list ∧ s'.byArmijo = true ∧ s'.jump = false ∧ bound cfg s' = bound cfg s) := by
  have hne : s.list.isEmpty = false := by
    obtain ⟨e, rest, h1, -⟩ := (inv_hist h).head
    rw [h1]; rfl
  -- the state before the tests
  let s1 : St K := { s with jump := false, counter := s.counter + 1, thetaMax := bound cfg s }
  have hs1 : (if s.thetaMax < 0 then { s with jump := false, counter := s.counter + 1, thetaMax := cfg.thetaMaxFact * max 1 s.refTheta } else { s with jump := false, counter := s.counter + 1 } : St K) = s1 := by
    simp only [s1, bound]
    split <;> rfl
  have hA : armijo cfg s1 t alpha = true ↔ SuffDecrease cfg s t alpha := by
    unfold armijo compareLe SuffDecrease; simp [s1]
  obtain ⟨a0, h1, h2⟩ := acceptable_iff h hn (t.barr + alpha * cfg.gObj * o.stepSq) (t.theta + alpha * cfg.gInf * o.theta)
  have hT : ∃ a1, toPiecewise cfg s1 o t alpha = some a1 ∧ (a1 = true ↔ PieceDecrease cfg P (biggestBarr s.list) o t alpha) := by
    unfold toPiecewise PieceDecrease compareLe
    have e : s1.list = s.list := rfl
    rw [e]
    by_cases hc : (o.infMax < cfg.thetaMin && !decide (t.barr - biggestBarr s.list - -alpha * cfg.gObj * o.stepSq ≤ 10 * cfg.eps * |o.barr|)) = true
    · rw [if_pos hc]
      refine ⟨false, rfl, ?_⟩
      simp only [Bool.and_eq_true, decide_eq_true_eq, Bool.not_eq_true', decide_eq_false_iff_not] at hc
      simp only [Bool.false_eq_true, false_iff]
      rintro ⟨h3, -⟩
      exact hc.2 (h3 hc.1)
    · rw [if_neg hc]
      refine ⟨a0, h1, ?_⟩
      simp only [Bool.and_eq_true, decide_eq_true_eq, Bool.not_eq_true', decide_eq_false_iff_not, not_and, not_not] at hc
      rw [h2]
      exact ⟨fun h3 => ⟨hc, h3⟩, fun h3 => h3.2⟩
  obtain ⟨a1, h3, h4⟩ := hT
  unfold check
  simp only [hj, Bool.false_eq_true, if_false, hne, hs1]
  by_cases hb : 0 < s1.thetaMax ∧ s1.thetaMax < t.theta
  · rw [if_pos hb]
    refine ⟨false, s1, rfl, ?_, by simp, fun _ => ⟨rfl, ha, rfl, ?_⟩⟩
    · simp only [Bool.false_eq_true, false_iff, not_and]
      intro h5
      exact absurd (h5 hb.1) (not_le.2 hb.2)
    · have : ¬s1.thetaMax < 0 := not_lt.2 hb.1.le
      show bound cfg s1 = _
      unfold bound
      rw [if_neg this]; rfl
  · rw [if_neg hb]
    have hb' : 0 < bound cfg s → t.theta ≤ bound cfg s := by
      intro h5
      by_contra h6
      exact hb ⟨h5, not_le.1 h6⟩
    have hbd : bound cfg s1 = bound cfg s := by
      show (if bound cfg s < 0 then cfg.thetaMaxFact * max 1 s.refTheta else bound cfg s) = bound cfg s
      split
      · rename_i h9
        unfold bound at h9 ⊢
        split
        · rfl
        · rename_i h8
          rw [if_neg h8] at h9
          exact absurd h9 h8
      · rfl
    -- the result of the two tests
    by_cases hAr : SuffDecrease cfg s t alpha
    · rw [hA.2 hAr]
      simp only [Bool.not_true, Bool.false_and, Bool.false_eq_true, if_false, Option.map_some, Bool.true_or, if_true]
      refine ⟨true, _, rfl, ⟨fun _ => ⟨hb', .inl hAr⟩, fun _ => rfl⟩, fun _ => ?_, by simp⟩
      unfold updateForNext
      split
      · simp only [s1, ha, Bool.not_true, Bool.false_eq_true, if_false]
        exact ⟨_, rfl, fun _ => rfl, fun h9 => absurd hAr h9⟩
      · simp only [s1, ha, Bool.not_true, Bool.false_eq_true, if_false]
        exact ⟨_, rfl, fun _ => rfl, fun h9 => absurd hAr h9⟩
    · have hAf : armijo cfg s1 t alpha = false := by
        cases hx : armijo cfg s1 t alpha with
        | false => rfl
        | true => exact absurd (hA.1 hx) hAr
      rw [hAf]
      cases hnv : cfg.never with
      | true =>
        simp only [Bool.not_false, Bool.not_true, Bool.and_false, Bool.false_eq_true, if_false, Option.map_some, Bool.false_or]
        refine ⟨_, _, rfl, ?_, fun hacc => ?_, fun hacc => ?_⟩
        · simp [hAr]
          exact fun _ => hb'
        · rw [if_pos hacc]
          unfold updateForNext
          split
          · simp only [s1, ha, Bool.not_true, Bool.false_eq_true, if_false]
            exact ⟨_, rfl, fun _ => rfl, fun _ h9 => by simp at h9⟩
          · simp only [s1, ha, Bool.not_true, Bool.false_eq_true, if_false]
            exact ⟨_, rfl, fun _ => rfl, fun _ h9 => by simp at h9⟩
        · rw [hacc]
          simp only [Bool.false_eq_true, if_false]
          exact ⟨rfl, ha, rfl, hbd⟩
      | false =>
        simp only [Bool.not_false, Bool.and_self, if_true, h3, Option.map_some]
        cases ha1 : a1 with
        | true =>
          have hPD := h4.1 ha1
          simp only [if_true, Bool.true_or]
          refine ⟨true, _, rfl, ⟨fun _ => ⟨hb', .inr (.inl ⟨trivial, hPD⟩)⟩, fun _ => rfl⟩, fun _ => ?_, by simp⟩
          obtain ⟨l', hl'⟩ := update_defined h t.barr t.theta
          unfold updateForNext
          split
          · simp only [s1, Bool.not_false, if_true, hl', Option.map_some]
            refine ⟨_, rfl, fun h9 => ?_, fun _ _ _ => Hist.update h hl'⟩
            rcases h9 with h9 | h9 | h9
            · exact absurd h9 hAr
            · simp at h9
            · exact absurd hPD h9
          · simp only [s1, Bool.not_false, if_true, hl', Option.map_some]
            refine ⟨_, rfl, fun h9 => ?_, fun _ _ _ => Hist.update h hl'⟩
            rcases h9 with h9 | h9 | h9
            · exact absurd h9 hAr
            · simp at h9
            · exact absurd hPD h9
        | false =>
          have hPD : ¬PieceDecrease cfg P (biggestBarr s.list) o t alpha := fun h9 => by have := h4.2 h9; rw [ha1] at this; simp at this
          simp only [Bool.false_eq_true, if_false, Bool.false_or]
          refine ⟨_, _, rfl, ?_, fun hacc => ?_, fun hacc => ?_⟩
          · simp [hAr, hPD]
            exact fun _ => hb'
          · rw [if_pos hacc]
            unfold updateForNext
            split
            · simp only [s1, ha, Bool.not_true, Bool.false_eq_true, if_false]
              exact ⟨_, rfl, fun _ => rfl, fun _ _ h9 => absurd h9 hPD⟩
            · simp only [s1, ha, Bool.not_true, Bool.false_eq_true, if_false]
              exact ⟨_, rfl, fun _ => rfl, fun _ _ h9 => absurd h9 hPD⟩
          · rw [hacc]
            simp only [Bool.false_eq_true, if_false]
            exact ⟨rfl, ha, rfl, hbd⟩

/-- **C85** The first line search starts the list with the current point. -/
theorem first_line_search (s : St K) (hl : s.list = []) (o : CurrObs K) (w : Bool) (mu : K) :
    let s' := initThis o w (initImpl mu s)
    Hist [(o.barr, o.theta)] s'.list ∧ s'.byArmijo = true ∧ s'.jump = false := by
  have e : (initThis o w (initImpl mu s)).list = addEntry [] 0 o.barr o.theta := by
    unfold initThis initImpl reset
    cases w <;> cases o.restored <;> simp [hl] <;> (repeat' split) <;> simp_all
  refine ⟨by rw [e]; exact Hist.init 0 _ _, ?_, ?_⟩
  · unfold initThis initImpl reset
    cases w <;> cases o.restored <;> simp <;> (repeat' split) <;> simp
  · unfold initThis initImpl reset
    cases w <;> cases o.restored <;> simp <;> (repeat' split) <;> simp

/-- **C85** A line search without reset keeps the list. -/
theorem next_line_search (s : St K) (hr : s.reset = false) (o : CurrObs K) (w : Bool) (hm : s.mu ≤ o.mu) (ho : o.restored = false) :
    (initThis o w s).list = s.list ∧ (initThis o w s).byArmijo = true ∧ (initThis o w s).jump = s.jump ∧ (initThis o w s).reset = false := by
  unfold initThis
  simp only [ho, Bool.false_eq_true, if_false, not_lt.2 hm, hr]
  cases w <;> simp [hr]

/-- **C85** A reset is done once: after the start of a line search none is pending, so the list stays as it is in the next line search of the same barrier
problem. -/
theorem reset_once (s : St K) (o : CurrObs K) (w : Bool) : (initThis o w s).reset = false ∧
    ∀ (o2 : CurrObs K) (w2 : Bool), (initThis o w s).mu ≤ o2.mu → o2.restored = false → (initThis o2 w2 (initThis o w s)).list = (initThis o w s).list := by
  have e : (initThis o w s).reset = false := by
    unfold initThis
    dsimp only
    generalize (if o.restored = true then reset o.mu { s with byArmijo := true, counter := 0 } else { s with byArmijo := true, counter := 0 }) = s1
    generalize (if o.mu < s1.mu then reset o.mu s1 else s1) = s2
    cases hr : s2.reset <;> cases w <;> simp [hr]
  exact ⟨e, fun o2 w2 h1 h2 => (next_line_search _ e o2 w2 h1 h2).1⟩

/-- **C85** (deviation) A reset (smaller barrier parameter, restored iterate, new optimization) does not remove the old points: the current point is appended with
penalty parameter 0. -/
theorem reset_keeps (s : St K) (hl : s.list ≠ []) (o : CurrObs K) (w : Bool) (hr : s.reset = true ∨ o.mu < s.mu ∨ o.restored = true) :
    (initThis o w s).list = s.list ++ [⟨0, o.barr, o.theta⟩] := by
  have h1 := addEntry_ne hl 0 o.barr o.theta
  unfold initThis
  rcases hr with h | h | h
  · cases ho : o.restored <;> by_cases hm : o.mu < s.mu <;> cases w <;> simp [h, hm, h1, reset]
  · cases ho : o.restored <;> cases w <;> simp [h, h1, reset]
  · by_cases hm : o.mu < s.mu <;> cases w <;> simp [h, hm, h1, reset]

/-- **C85** (deviation) So every point that is better than one of the old points at its breakpoint is acceptable, whatever the current point is. -/
theorem stale_entry_accepts {l : List (Entry K)} {e : Entry K} (he : e ∈ l) (hn : l.length < 99) {fc fl : K} (h : fc + e.r * fl < e.b + e.r * e.v) (b v : K) :
    acceptable (addEntry l 0 b v) fc fl = some true := by
  have hne : l ≠ [] := List.ne_nil_of_mem he
  rw [addEntry_ne hne]
  unfold acceptable
  rw [List.getLast?_concat]
  have : ¬maxPieces ≤ (l ++ [(⟨0, b, v⟩ : Entry K)]).length := by simp [maxPieces]; omega
  simp only [this, if_false, Option.some.injEq]
  unfold acceptTest
  simp only [Bool.or_eq_true, List.any_eq_true, decide_eq_true_eq]
  exact .inl ⟨e, by simp [he], by linarith⟩
end

/-! ## examples -/

namespace Ex

/-- all updates in a row. -/
def run : List (Entry ℚ) → List (ℚ × ℚ) → List (Entry ℚ)
  | l, [] => l
  | l, p :: ps => run ((updateEntry l p.1 p.2).getD []) ps

theorem hist_run : ∀ (ps P : List (ℚ × ℚ)) (l : List (Entry ℚ)), Hist P l → Hist (ps.reverse ++ P) (run l ps) := by
  intro ps
  induction ps with
  | nil => intro P l h; exact h
  | cons p ps ih =>
    intro P l h
    obtain ⟨l', hl'⟩ := update_defined h p.1 p.2
    have := ih ((p.1, p.2) :: P) l' (Hist.update h hl')
    rw [run, hl']
    simpa using this

/-- three points, one dominated: the envelope. -/
example : run (addEntry [] 7 10 4) [(12, 2), (15, 3), (20, 1/2)] = [⟨0, 10, 4⟩, ⟨1, 12, 2⟩, ⟨16/3, 20, 1/2⟩] := by decide +kernel

theorem three : Hist [(20, 1/2), (15, 3), (12, 2), (10, 4)] [⟨0, 10, 4⟩, ⟨1, 12, 2⟩, ⟨(16/3 : ℚ), 20, 1/2⟩] := by
  have := hist_run [(12, 2), (15, 3), (20, 1/2)] _ _ (Hist.init 7 10 4)
  rw [show run (addEntry [] 7 10 4) [(12, 2), (15, 3), (20, 1/2)] = [⟨0, 10, 4⟩, ⟨1, 12, 2⟩, ⟨16/3, 20, 1/2⟩] by decide +kernel] at this
  simpa using this

example : acceptable [⟨0, 10, 4⟩, ⟨1, 12, 2⟩, ⟨(16/3 : ℚ), 20, 1/2⟩] (121/10) (18/10) = some true ∧ acceptable [⟨0, 10, 4⟩, ⟨1, 12, 2⟩, ⟨(16/3 : ℚ), 20, 1/2⟩] 15 2 = some false := by
  decide +kernel

def cfg : Cfg ℚ := ⟨false, 1/100000000, 1/10^13, 1/10^13, 10000, 1/10^13, 1/10^6, 1/2^52⟩
def s0 : St ℚ := ⟨[], false, true, false, 0, -1, 1, 0, 0, 0, 0, 0⟩
/-- barrier parameter 1: barrier function 10, infeasibility 1. -/
def o1 : CurrObs ℚ := ⟨10, 1, 1, 1, 11, -1, 1, false⟩
/-- next iteration with barrier parameter 1/10: the same point has barrier function 0. -/
def o2 : CurrObs ℚ := ⟨0, 1, 1, 1/10, 1, -1, 1, false⟩
/-- a trial point with barrier function 5 and infeasibility 2. -/
def t2 : TrialObs ℚ := ⟨5, 2, 7⟩

/-- **C85**, deviation: a trial point that is worse than the current point for every penalty parameter is accepted because of the value of the first barrier problem. -/
theorem stale_accepted :
    ((check cfg o2 t2 1 (initThis o2 false (initThis o1 false (initImpl 1 s0)))).map (·.1) = some true) ∧ ¬Better [(o2.barr, o2.theta)] t2.barr t2.theta ∧
    acceptable (resetList (initThis o1 false (initImpl 1 s0)).list 0 o2.barr o2.theta) t2.barr t2.theta = some false := by
  refine ⟨by decide +kernel, ?_, by decide +kernel⟩
  rintro ⟨r, hr, h⟩
  have := h (o2.barr, o2.theta) (by simp)
  norm_num [o2, t2] at this
  linarith

/-- `check_iff` applies to the first line search. -/
theorem first : Hist [(10, 1)] (initThis o1 false (initImpl 1 s0)).list ∧ (initThis o1 false (initImpl 1 s0)).byArmijo = true ∧ (initThis o1 false (initImpl 1 s0)).jump = false :=
  first_line_search s0 rfl o1 false 1

/-- accepted by the piecewise penalty function and entered: less infeasible, larger barrier function. -/
example : (((check cfg o1 ⟨12, 1/2, 13⟩ 1 (initThis o1 false (initImpl 1 s0))).bind fun p => updateForNext o1 ⟨12, 1/2, 13⟩ p.2).map (·.list)) = some [⟨0, 10, 1⟩, ⟨4, 12, 1/2⟩] := by
  decide +kernel

/-- rejected: more infeasible and larger barrier function. -/
example : (check cfg o1 ⟨12, 3/2, 13⟩ 1 (initThis o1 false (initImpl 1 s0))).map (·.1) = some false := by decide +kernel

end Ex
end Verif.Piecewise
