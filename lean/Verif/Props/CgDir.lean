import Verif.Model.CgDir
import Mathlib.Algebra.Order.Field.Rat
import Mathlib.Tactic.Linarith
import Mathlib.Tactic.NormNum

/-! # C92: search direction of the Chen-Goldfarb method -/

set_option linter.unusedSectionVars false
set_option linter.unusedSimpArgs false
set_option linter.unusedVariables false

namespace Verif.CgDir

variable {α K : Type} [Field K] [LinearOrder K] [IsStrictOrderedRing K]

/-! ## Specification -/

/-- State after a history of calls. -/
def runs (c : SCfg K) (s : SSt α K) (l : List (SIn α K)) : SSt α K := l.foldl (fun s i => (s.compute c i).2) s

/-- state after the initialization of the two classes. -/
def fresh (p k : K) : SSt α K := ⟨p, k, false, 0, none, false⟩

/-- the tests for the fast direction. -/
def Compatible (c : SCfg K) (i : SIn α K) : Prop :=
  i.diff ≤ c.kx * max i.dx i.dxPow ∧ (i.dy ≤ c.dyMax ∨ i.dy ≤ c.ky * i.barY) ∧ i.deriv ≤ c.fd * i.dHd

/-! ## Direction -/

theorem keepFast_iff (c : SCfg K) (i : SIn α K) : keepFast c i = true ↔ i.pert = 0 ∨ Compatible c i := by
  unfold keepFast Compatible
  simp only [Bool.or_eq_true, Bool.and_eq_true, Bool.not_eq_true', decide_eq_true_eq, decide_eq_false_iff_not, not_lt, le_max_iff]
  rw [and_assoc]

theorem updatePen_delta (i : SIn α K) (s : SSt α K) : (s.updatePen i).delta = s.delta ∧ (s.updatePen i).haveFast = s.haveFast := by
  unfold SSt.updatePen
  split <;> exact ⟨rfl, rfl⟩

theorem initPen_delta (c : SCfg K) (i : SIn α K) (s : SSt α K) : (s.initPen c i).delta = s.delta ∧ (s.initPen c i).lowered = s.lowered ∧
    (s.initPen c i).ready = true := by
  unfold SSt.initPen
  cases h : s.ready <;> simp [h] <;> split <;> simp [h]

/-- **C92.** A successful computation delivers the fast direction if the constraints were not regularised or it passes the three tests, and otherwise
the direction for the regularised right-hand side; it fails exactly if one of the linear systems needed cannot be solved, and then the search
direction is not touched. -/
theorem direction (c : SCfg K) (i : SIn α K) (s : SSt α K) :
    ((s.compute c i).1 = true ↔ i.fast.isSome ∧ (i.pert = 0 ∨ i.reg.isSome)) ∧
    ((s.compute c i).1 = false → (s.compute c i).2.delta = s.delta) ∧
    ((s.compute c i).1 = true →
      ((i.pert = 0 ∨ Compatible c i) → (s.compute c i).2.delta = i.fast ∧ (s.compute c i).2.haveFast = true) ∧
      (¬ (i.pert = 0 ∨ Compatible c i) → (s.compute c i).2.delta = i.reg ∧ (s.compute c i).2.haveFast = false)) := by
  have hi := initPen_delta c i s
  unfold SSt.compute
  simp only
  cases hf : i.fast with
  | none => exact ⟨by simp, fun _ => hi.1, fun h => by simp at h⟩
  | some f =>
    simp only
    by_cases hp : i.pert = 0
    · rw [if_pos hp]
      simp only
      have hk : keepFast c i = true := (keepFast_iff c i).2 (Or.inl hp)
      refine ⟨by simp [hp], fun h => by simp at h, fun _ => ⟨fun _ => ?_, fun h => absurd (Or.inl hp) h⟩⟩
      rw [(updatePen_delta i _).1, (updatePen_delta i _).2]
      simp [hk]
    · rw [if_neg hp]
      cases hr : i.reg with
      | none => exact ⟨by simp [hp], fun _ => hi.1, fun h => by simp at h⟩
      | some g =>
        simp only
        refine ⟨by simp, fun h => by simp at h, fun _ => ⟨fun h => ?_, fun h => ?_⟩⟩
        · rw [(updatePen_delta i _).1, (updatePen_delta i _).2]
          simp [(keepFast_iff c i).2 h]
        · have hk : keepFast c i = false := by rw [Bool.eq_false_iff]; exact fun hh => h ((keepFast_iff c i).1 hh)
          rw [(updatePen_delta i _).1, (updatePen_delta i _).2]
          simp [hk]

/-! ## Penalty parameters -/

/-- both positive, few lowerings. -/
structure Inv (s : SSt α K) : Prop where
  pos : s.ready = true → 0 < s.pen ∧ 0 < s.kkt
  few : s.lowered ≤ 51
  last : s.lowered = 51 → s.ready = true ∧ s.pen ≤ s.kkt

theorem initPen_inv {c : SCfg K} (hc : 0 < c.initMin) (i : SIn α K) {s : SSt α K} (h : Inv s) : Inv (s.initPen c i) := by
  have h10 : (0 : K) < 10 := by norm_num
  unfold SSt.initPen
  cases hr : s.ready
  · have hl : s.lowered ≠ 51 := fun hh => by have := (h.last hh).1; rw [hr] at this; cases this
    simp only [Bool.not_false, if_true]
    split
    · exact ⟨fun _ => ⟨lt_max_of_lt_left hc, hc⟩, h.few, fun hh => absurd hh hl⟩
    · have hp : (0 : K) < min (10 ^ 5) (max 10 (100 * i.inf)) := lt_min (pow_pos h10 5) (lt_max_of_lt_left h10)
      exact ⟨fun _ => ⟨hp, hp⟩, h.few, fun hh => absurd hh hl⟩
  · simp only [Bool.not_true, Bool.false_eq_true, if_false]
    split
    · have hp : (0 : K) < min (10 ^ 6) (max 10 (c.initFac * (1 / 10) ^ i.counter)) := lt_min (pow_pos h10 6) (lt_max_of_lt_left h10)
      exact ⟨fun _ => ⟨hp, hp⟩, h.few, fun _ => ⟨by simp [hr], le_refl _⟩⟩
    · exact h

theorem updatePen_inv (i : SIn α K) {s : SSt α K} (hr : s.ready = true) (h : Inv s) : Inv (s.updatePen i) := by
  unfold SSt.updatePen
  split
  · exact h
  obtain ⟨p1, p2⟩ := h.pos hr
  have hone : (0 : K) < 1 := one_pos
  by_cases h1 : s.pen < i.required
  · have hp : 0 < max i.required (s.pen + 1) := lt_max_of_lt_left (lt_trans p1 h1)
    simp only [h1, decide_true, Bool.not_true, Bool.false_and, if_true, Bool.false_eq_true, if_false]
    refine ⟨fun _ => ⟨hp, ?_⟩, h.few, fun hh => ⟨hr, ?_⟩⟩
    · dsimp only; split
      · exact hp
      · exact p2
    · dsimp only at hh ⊢
      by_cases h2 : s.kkt < max i.required (s.pen + 1)
      · rw [if_pos ⟨h2, by omega⟩]
      · rw [if_neg (fun hh => h2 hh.1)]; exact not_lt.1 h2
  · by_cases h2 : s.pen ≤ s.kkt ∨ i.pert = 0
    · have e : (decide (s.pen ≤ s.kkt) || decide (i.pert = 0)) = true := by simpa using h2
      simp only [h1, decide_false, Bool.not_false, e, Bool.not_true, Bool.and_false, Bool.false_eq_true, if_false]
      refine ⟨fun _ => ⟨p1, ?_⟩, h.few, fun hh => ⟨hr, ?_⟩⟩
      · dsimp only; split
        · exact p1
        · exact p2
      · dsimp only at hh ⊢
        have h3 := (h.last hh).2
        rw [if_neg (fun hh => absurd hh.1 (not_lt.2 h3))]
        exact h3
    · have e : (decide (s.pen ≤ s.kkt) || decide (i.pert = 0)) = false := by
        rw [Bool.eq_false_iff]; intro hh; exact h2 (by simpa using hh)
      rw [not_or] at h2
      simp only [h1, decide_false, Bool.not_false, e, Bool.and_true, if_true, if_false, lt_irrefl, false_and]
      have hl : s.lowered ≠ 51 := fun hh => h2.1 (h.last hh).2
      have hf := h.few
      exact ⟨fun _ => ⟨p2, p2⟩, by dsimp only; omega, fun _ => ⟨hr, le_refl _⟩⟩

theorem compute_inv {c : SCfg K} (hc : 0 < c.initMin) (i : SIn α K) {s : SSt α K} (h : Inv s) : Inv (s.compute c i).2 ∧ (s.compute c i).2.ready = true := by
  have h1 := initPen_inv hc i h
  have hr := (initPen_delta c i s).2.2
  unfold SSt.compute
  simp only
  have hb : ∀ (b : Bool) (d : Option α), Inv ({ s.initPen c i with haveFast := b, delta := d } : SSt α K) := fun b d => ⟨h1.pos, h1.few, h1.last⟩
  have hu : ∀ s : SSt α K, (s.updatePen i).ready = s.ready := fun s => by unfold SSt.updatePen; split <;> rfl
  split
  · exact ⟨h1, hr⟩
  · split
    · exact ⟨hb true _, hr⟩
    · exact ⟨updatePen_inv i hr (hb _ _), by rw [hu]; exact hr⟩

/-- **C92.** After every history of computations both penalty parameters are positive, and the parameter for the line search has been lowered at most
51 times (as long as no other class changes the parameters). -/
theorem penalties_positive {c : SCfg K} (hc : 0 < c.initMin) (p k : K) (l : List (SIn α K)) (hl : l ≠ []) :
    0 < (runs c (fresh p k) l).pen ∧ 0 < (runs c (fresh p k) l).kkt ∧ (runs c (fresh p k) l).lowered ≤ 51 := by
  have key : ∀ (l : List (SIn α K)) (s : SSt α K), Inv s → Inv (runs c s l) ∧ (s.ready = true ∨ l ≠ [] → (runs c s l).ready = true) := by
    intro l
    induction l with
    | nil => intro s h; exact ⟨h, fun h => h.resolve_right (by simp)⟩
    | cons i l ih =>
      intro s h
      have h1 := compute_inv hc i h
      have h2 := ih _ h1.1
      exact ⟨h2.1, fun _ => h2.2 (Or.inl h1.2)⟩
  obtain ⟨a, b⟩ := key l (fresh p k) ⟨fun h => by simp [fresh] at h, by simp [fresh], fun h => by simp [fresh] at h⟩
  have := a.pos (b (Or.inr hl))
  exact ⟨this.1, this.2, a.few⟩

/-- C92: how the penalty parameter for the line search changes in a successful computation with pure Newton steps: if the value required for descent is
larger, it becomes at least that large and grows by at least one; otherwise it is kept, or lowered to the one of the linear system.  Partial:
when lowered it may be smaller than the value required, see `lowered_too_far`. -/
theorem penalty_update_partial (c : SCfg K) (i : SIn α K) (s : SSt α K) (hn : i.never = false) (hs : (s.compute c i).1 = true) :
    let p := (s.initPen c i).pen
    let k := (s.initPen c i).kkt
    let q := (s.compute c i).2.pen
    (p < i.required → i.required ≤ q ∧ p + 1 ≤ q) ∧
    (i.required ≤ p → (p ≤ k ∨ i.pert = 0 → q = p) ∧ (k < p → i.pert ≠ 0 → q = k ∧ (s.compute c i).2.lowered = s.lowered + 1)) ∧
    k ≤ (s.compute c i).2.kkt := by
  have hl := (initPen_delta c i s).2.1
  have hk : ∀ (k p : K) (n : Nat), k ≤ if k < p ∧ 50 < n then p else k := by
    intro k p n
    split
    · rename_i hh; exact le_of_lt hh.1
    · exact le_refl _
  have key : ∀ (b : Bool) (d : Option α), ∀ t : SSt α K, t = ({ s.initPen c i with haveFast := b, delta := d } : SSt α K).updatePen i →
      ((s.initPen c i).pen < i.required → i.required ≤ t.pen ∧ (s.initPen c i).pen + 1 ≤ t.pen) ∧
      (i.required ≤ (s.initPen c i).pen → ((s.initPen c i).pen ≤ (s.initPen c i).kkt ∨ i.pert = 0 → t.pen = (s.initPen c i).pen) ∧
        ((s.initPen c i).kkt < (s.initPen c i).pen → i.pert ≠ 0 → t.pen = (s.initPen c i).kkt ∧ t.lowered = s.lowered + 1)) ∧
      (s.initPen c i).kkt ≤ t.kkt := by
    intro b d t ht
    subst ht
    unfold SSt.updatePen
    simp only [hn, Bool.false_eq_true, if_false]
    refine ⟨fun h => ?_, fun h => ⟨fun h2 => ?_, fun h2 h3 => ?_⟩, ?_⟩
    · simp only [h, if_true]
      exact ⟨le_max_left _ _, le_max_right _ _⟩
    · have e : (decide ((s.initPen c i).pen ≤ (s.initPen c i).kkt) || decide (i.pert = 0)) = true := by simpa using h2
      simp [not_lt.2 h, e]
    · simp [not_lt.2 h, not_le.2 h2, h3, hl]
    · exact hk _ _ _
  revert hs
  unfold SSt.compute
  simp only
  split
  · intro h; cases h
  · split
    · intro h; cases h
    · intro _; exact key _ _ _ rfl

/-- **Finding (C92).** The option `never_use_fact_cgpen_direction` is read but has no effect. -/
theorem option_ignored (c : SCfg K) (b : Bool) (i : SIn α K) (s : SSt α K) : s.compute { c with neverFast := b } i = s.compute c i := rfl

/-! ## Concrete cases -/

/-- default options. -/
def demoC : SCfg ℚ := ⟨1, 10 ^ 5, 50, 100, 10 ^ 4, 10 ^ 12, 1 / 10, false⟩

/-- a call with regularised constraints and compatible directions 1 (fast) and 2. -/
def demoI : SIn Nat ℚ := ⟨false, false, 0, 30, 1, some 1, 1 / 100, some 2, 1, 1, 2, 5, 5, -1, -1, 20⟩

/-- view of a result. -/
def view (r : Bool × SSt Nat ℚ) : Bool × Option Nat × Bool × ℚ × ℚ × Nat := (r.1, r.2.delta, r.2.haveFast, r.2.pen, r.2.kkt, r.2.lowered)

theorem demo_dir :
    view ((fresh 0 0).compute demoC { demoI with required := 30 + 1 / 2 }) = (true, some 1, true, 31, 1, 0) ∧
    view ((fresh 0 0).compute demoC { demoI with deriv := 1 }) = (true, some 2, false, 1, 1, 1) ∧
    view ((fresh 0 0).compute demoC { demoI with diff := 101 }) = (true, some 2, false, 1, 1, 1) ∧
    view ((fresh 0 0).compute demoC { demoI with dy := 10 ^ 13 }) = (true, some 2, false, 1, 1, 1) ∧
    view ((fresh 0 0).compute demoC { demoI with pert := 0, deriv := 1 }) = (true, some 1, true, 30, 1, 0) ∧
    view ((fresh 0 0).compute demoC { demoI with reg := none }) = (false, none, true, 30, 1, 0) ∧
    view ((fresh 0 0).compute demoC { demoI with never := true, inf := 1 / 2 }) = (true, some 1, true, 50, 50, 0) ∧
    view (((fresh 0 0).compute demoC demoI).2.compute demoC { demoI with restored := true, counter := 0, never := true }) = (true, some 1, true, 50, 50, 1) := by
  refine ⟨?_, ?_, ?_, ?_, ?_, ?_, ?_, ?_⟩ <;> decide +kernel

/-- **Finding (C92).** The value required for descent is 20, the parameter is 30 and is lowered to 1. -/
theorem lowered_too_far :
    ((fresh 0 0 : SSt Nat ℚ).initPen demoC demoI).pen = 30 ∧ ((fresh 0 0 : SSt Nat ℚ).compute demoC demoI).1 = true ∧
    ((fresh 0 0 : SSt Nat ℚ).compute demoC demoI).2.pen = 1 ∧ demoI.required = 20 ∧ Compatible demoC demoI := by
  refine ⟨by decide +kernel, by decide +kernel, by decide +kernel, rfl, ?_⟩
  unfold Compatible demoC demoI
  norm_num

end Verif.CgDir
