import Verif.Model.SOC
import Verif.Props.PenaltyLS
import Mathlib.Tactic.NormNum

/-! # C69: second order corrections and corrector steps -/

namespace Verif.SOC
open scoped BigOperators
set_option linter.unusedSectionVars false
set_option linter.unusedSimpArgs false
set_option linter.unusedVariables false

variable {K : Type} [Field K] [LinearOrder K] [IsStrictOrderedRing K] {X C D L U A B : Type} {σ : Type}

/-! ### Specification -/

/-- The sequence of `n` corrections after the trial point `pts 0`: `pts k` is the `k`-th corrected direction with its step size, `cs k`, `ds k` the right-hand sides of the constraints,
`sts k` the state of the acceptor. -/
structure Seq (cfg : Cfg K) (cur : Cur K X C D L U A B) (e : Env σ K X C D L U A B) (alphaTest : K) (n : Nat) (pts : Nat → Iter K X C D L U A B × K)
    (cs : Nat → C → K) (ds : Nat → D → K) (sts : Nat → σ) : Prop where
  /-- constraint values at the last trial point plus the step size times the previous right-hand side -/
  conC : ∀ k < n, ∀ i, cs (k + 1) i = (e.trial (pts k).1 (pts k).2).c i + (pts k).2 * cs k i
  conD : ∀ k < n, ∀ i, ds (k + 1) i = (e.trial (pts k).1 (pts k).2).dms i + (pts k).2 * ds k i
  /-- the direction is the solution for the gradient (scaled by the step size with `soc_method` 1), these constraint values and the relaxed complementarities -/
  dir : ∀ k < n, e.solve ⟨fun i => (if cfg.method = 0 then 1 else (pts k).2) * cur.gradX i, fun i => (if cfg.method = 0 then 1 else (pts k).2) * cur.gradS i,
    cs (k + 1), ds (k + 1), cur.cxL, cur.cxU, cur.csL, cur.csU⟩ = some (pts (k + 1)).1
  /-- step to the boundary -/
  step : ∀ k < n, (pts (k + 1)).2 = e.frac (pts (k + 1)).1
  /-- all but the last are rejected by the acceptance test with the original step size -/
  rej : ∀ k, k + 1 < n → e.check (sts k) alphaTest (pts (k + 1)).1 (pts (k + 1)).2 = (some false, sts (k + 1))
  /-- a further correction only after a reduction of the constraint violation -/
  red : ∀ k, k + 1 < n → (e.trial (pts (k + 1)).1 (pts (k + 1)).2).theta ≤ cfg.kappa * (e.trial (pts k).1 (pts k).2).theta

theorem rhs_eq (cfg : Cfg K) (cur : Cur K X C D L U A B) (alpha : K) (c : C → K) (d : D → K) :
    rhs cfg cur alpha c d = ⟨fun i => (if cfg.method = 0 then 1 else alpha) * cur.gradX i, fun i => (if cfg.method = 0 then 1 else alpha) * cur.gradS i,
      c, d, cur.cxL, cur.cxU, cur.csL, cur.csU⟩ := by
  unfold rhs
  split <;> simp

/-- prepend. -/
def cons {α : Type} (a : α) (f : Nat → α) : Nat → α
  | 0 => a
  | k + 1 => f k

/-- how the procedure can end, the last trial point being `pts n`. -/
def Ends (cfg : Cfg K) (cur : Cur K X C D L U A B) (e : Env σ K X C D L U A B) (alphaTest : K) (max n : Nat) (pts : Nat → Iter K X C D L U A B × K)
    (cs : Nat → C → K) (ds : Nat → D → K) (sts : Nat → σ) (r : Res K X C D L U A B × σ) : Prop :=
  (r.1.accept = true ∧ (∃ m, n = m + 1 ∧ e.check (sts m) alphaTest (pts n).1 (pts n).2 = (some true, r.2)) ∧ (r.1.delta, r.1.alpha) = pts n) ∨
  (r.1.accept = false ∧
    ((∃ m, n = m + 1 ∧ e.check (sts m) alphaTest (pts n).1 (pts n).2 = (none, r.2)) ∨
     (sts n = r.2 ∧ (∀ m, n = m + 1 → e.check (sts m) alphaTest (pts n).1 (pts n).2 = (some false, sts n)) ∧
      (n = max ∨ (∃ m, n = m + 1 ∧ ¬ (e.trial (pts n).1 (pts n).2).theta ≤ cfg.kappa * (e.trial (pts m).1 (pts m).2).theta) ∨
       e.solve (rhs cfg cur (pts n).2 (fun i => (e.trial (pts n).1 (pts n).2).c i + (pts n).2 * cs n i)
         (fun i => (e.trial (pts n).1 (pts n).2).dms i + (pts n).2 * ds n i)) = none))))

theorem loop_spec (cfg : Cfg K) (cur : Cur K X C D L U A B) (e : Env σ K X C D L U A B) (alphaTest alpha0 : K) (delta0 : Iter K X C D L U A B) :
    ∀ (todo : Nat) (first : Bool) (st : σ) (old : K) (c : C → K) (dms : D → K) (pt : Iter K X C D L U A B × K),
    ∃ n pts cs ds sts, n ≤ todo ∧ pts 0 = pt ∧ cs 0 = c ∧ ds 0 = dms ∧ sts 0 = st ∧ Seq cfg cur e alphaTest n pts cs ds sts ∧
      (0 < n → first = true ∨ (e.trial pt.1 pt.2).theta ≤ cfg.kappa * old) ∧
      ((loop cfg cur e alphaTest alpha0 delta0 todo first st old (e.trial pt.1 pt.2).theta pt.2 c dms pt).1.accept = false →
        (loop cfg cur e alphaTest alpha0 delta0 todo first st old (e.trial pt.1 pt.2).theta pt.2 c dms pt).1.alpha = alpha0 ∧
        (loop cfg cur e alphaTest alpha0 delta0 todo first st old (e.trial pt.1 pt.2).theta pt.2 c dms pt).1.delta = delta0) ∧
      (loop cfg cur e alphaTest alpha0 delta0 todo first st old (e.trial pt.1 pt.2).theta pt.2 c dms pt).1.point = pts n ∧
      (Ends cfg cur e alphaTest todo n pts cs ds sts (loop cfg cur e alphaTest alpha0 delta0 todo first st old (e.trial pt.1 pt.2).theta pt.2 c dms pt) ∨
        n = 0 ∧ (¬ (first = true ∨ (e.trial pt.1 pt.2).theta ≤ cfg.kappa * old)) ∧
          (loop cfg cur e alphaTest alpha0 delta0 todo first st old (e.trial pt.1 pt.2).theta pt.2 c dms pt) = (⟨false, alpha0, delta0, pt⟩, st)) := by
  intro todo
  induction todo with
  | zero =>
    intro first st old c dms pt
    refine ⟨0, fun _ => pt, fun _ => c, fun _ => dms, fun _ => st, le_refl _, rfl, rfl, rfl, rfl, ⟨?_, ?_, ?_, ?_, ?_, ?_⟩, ?_, fun _ => ⟨rfl, rfl⟩, rfl, ?_⟩
    any_goals (intro k hk; exact absurd hk (by omega))
    · intro h; exact absurd h (by omega)
    · exact Or.inl (Or.inr ⟨rfl, Or.inr ⟨rfl, fun m hm => absurd hm (by omega), Or.inl rfl⟩⟩)
  | succ todo ih =>
    intro first st old c dms pt
    have noStep : ∀ (R : Res K X C D L U A B × σ), R = (⟨false, alpha0, delta0, pt⟩, st) →
        (Ends cfg cur e alphaTest (todo + 1) 0 (fun _ => pt) (fun _ => c) (fun _ => dms) (fun _ => st) R ∨
        0 = 0 ∧ (¬ (first = true ∨ (e.trial pt.1 pt.2).theta ≤ cfg.kappa * old)) ∧ R = (⟨false, alpha0, delta0, pt⟩, st)) →
        ∃ n pts cs ds sts, n ≤ todo + 1 ∧ pts 0 = pt ∧ cs 0 = c ∧ ds 0 = dms ∧ sts 0 = st ∧ Seq cfg cur e alphaTest n pts cs ds sts ∧
        (0 < n → first = true ∨ (e.trial pt.1 pt.2).theta ≤ cfg.kappa * old) ∧
        (R.1.accept = false → R.1.alpha = alpha0 ∧ R.1.delta = delta0) ∧ R.1.point = pts n ∧
        (Ends cfg cur e alphaTest (todo + 1) n pts cs ds sts R ∨
        n = 0 ∧ (¬ (first = true ∨ (e.trial pt.1 pt.2).theta ≤ cfg.kappa * old)) ∧ R = (⟨false, alpha0, delta0, pt⟩, st)) := by
      intro R hR h
      refine ⟨0, fun _ => pt, fun _ => c, fun _ => dms, fun _ => st, by omega, rfl, rfl, rfl, rfl, ⟨?_, ?_, ?_, ?_, ?_, ?_⟩, ?_, ?_, ?_, h⟩
      any_goals (intro k hk; exact absurd hk (by omega))
      · intro h; exact absurd h (by omega)
      · rw [hR]; exact fun _ => ⟨rfl, rfl⟩
      · rw [hR]
    by_cases hcond : first = true ∨ (e.trial pt.1 pt.2).theta ≤ cfg.kappa * old
    · have hloop : loop cfg cur e alphaTest alpha0 delta0 (todo + 1) first st old (e.trial pt.1 pt.2).theta pt.2 c dms pt =
        match e.solve (rhs cfg cur pt.2 (fun i => 1 * (e.trial pt.1 pt.2).c i + pt.2 * c i) (fun i => 1 * (e.trial pt.1 pt.2).dms i + pt.2 * dms i)) with
        | none => (⟨false, alpha0, delta0, pt⟩, st)
        | some d =>
          match e.check st alphaTest d (e.frac d) with
          | (none, st) => (⟨false, alpha0, delta0, (d, e.frac d)⟩, st)
          | (some true, st) => (⟨true, e.frac d, d, (d, e.frac d)⟩, st)
          | (some false, st) => loop cfg cur e alphaTest alpha0 delta0 todo false st (e.trial pt.1 pt.2).theta (e.trial d (e.frac d)).theta (e.frac d)
              (fun i => 1 * (e.trial pt.1 pt.2).c i + pt.2 * c i) (fun i => 1 * (e.trial pt.1 pt.2).dms i + pt.2 * dms i) (d, e.frac d) := by
        rw [loop, if_pos hcond]
        rfl
      rw [hloop]
      have hc1 : (fun i => 1 * (e.trial pt.1 pt.2).c i + pt.2 * c i) = fun i => (e.trial pt.1 pt.2).c i + pt.2 * c i := by funext i; rw [one_mul]
      have hd1 : (fun i => 1 * (e.trial pt.1 pt.2).dms i + pt.2 * dms i) = fun i => (e.trial pt.1 pt.2).dms i + pt.2 * dms i := by funext i; rw [one_mul]
      rw [hc1, hd1]
      set c1 : C → K := fun i => (e.trial pt.1 pt.2).c i + pt.2 * c i with hc1d
      set d1 : D → K := fun i => (e.trial pt.1 pt.2).dms i + pt.2 * dms i with hd1d
      cases hsol : e.solve (rhs cfg cur pt.2 c1 d1) with
      | none =>
        exact noStep _ rfl (Or.inl (Or.inr ⟨rfl, Or.inr ⟨rfl, fun m hm => absurd hm (by omega), Or.inr (Or.inr hsol)⟩⟩))
      | some d =>
        simp only []
        have hdir := hsol
        rw [rhs_eq] at hdir
        -- one correction made, its check ends the procedure
        have oneStep : ∀ (R : Res K X C D L U A B × σ) (st' : σ), (R.1.accept = false → R.1.alpha = alpha0 ∧ R.1.delta = delta0) → R.1.point = (d, e.frac d) →
            Ends cfg cur e alphaTest (todo + 1) 1 (cons pt fun _ => (d, e.frac d)) (cons c fun _ => c1) (cons dms fun _ => d1) (cons st fun _ => st') R →
            ∃ n pts cs ds sts, n ≤ todo + 1 ∧ pts 0 = pt ∧ cs 0 = c ∧ ds 0 = dms ∧ sts 0 = st ∧ Seq cfg cur e alphaTest n pts cs ds sts ∧
            (0 < n → first = true ∨ (e.trial pt.1 pt.2).theta ≤ cfg.kappa * old) ∧
            (R.1.accept = false → R.1.alpha = alpha0 ∧ R.1.delta = delta0) ∧ R.1.point = pts n ∧
            (Ends cfg cur e alphaTest (todo + 1) n pts cs ds sts R ∨
            n = 0 ∧ (¬ (first = true ∨ (e.trial pt.1 pt.2).theta ≤ cfg.kappa * old)) ∧ R = (⟨false, alpha0, delta0, pt⟩, st)) := by
          intro R st' h1 h2 h3
          refine ⟨1, cons pt fun _ => (d, e.frac d), cons c fun _ => c1, cons dms fun _ => d1, cons st fun _ => st', by omega, rfl, rfl, rfl, rfl,
            ⟨?_, ?_, ?_, ?_, ?_, ?_⟩, fun _ => hcond, h1, h2, Or.inl h3⟩
          · intro k hk i; obtain rfl : k = 0 := by omega
            rfl
          · intro k hk i; obtain rfl : k = 0 := by omega
            rfl
          · intro k hk; obtain rfl : k = 0 := by omega
            exact hdir
          · intro k hk; obtain rfl : k = 0 := by omega
            rfl
          · intro k hk; omega
          · intro k hk; omega
        cases hck : e.check st alphaTest d (e.frac d) with
        | mk b st' =>
          cases b with
          | none => exact oneStep _ st' (fun _ => ⟨rfl, rfl⟩) rfl (Or.inr ⟨rfl, Or.inl ⟨0, rfl, hck⟩⟩)
          | some b =>
            cases b with
            | true => exact oneStep _ st' (fun h => by cases h) rfl (Or.inl ⟨rfl, ⟨0, rfl, hck⟩, rfl⟩)
            | false =>
              simp only []
              obtain ⟨n, pts, cs, ds, sts, hn, hp0, hc0, hd0, hs0, hseq, hfirst, hkeep, hpoint, hend⟩ := ih false st' (e.trial pt.1 pt.2).theta c1 d1 (d, e.frac d)
              simp only [] at hfirst hkeep hpoint hend
              rcases hend with hend | ⟨hn0, hno, hR⟩
              · refine ⟨n + 1, cons pt pts, cons c cs, cons dms ds, cons st sts, by omega, rfl, rfl, rfl, rfl, ⟨?_, ?_, ?_, ?_, ?_, ?_⟩, fun _ => hcond, hkeep, hpoint, Or.inl ?_⟩
                · intro k hk i
                  cases k with
                  | zero => show cs 0 i = _; rw [hc0]; rfl
                  | succ k => exact hseq.conC k (by omega) i
                · intro k hk i
                  cases k with
                  | zero => show ds 0 i = _; rw [hd0]; rfl
                  | succ k => exact hseq.conD k (by omega) i
                · intro k hk
                  cases k with
                  | zero =>
                    show e.solve ⟨_, _, cs 0, ds 0, _, _, _, _⟩ = some (pts 0).1
                    rw [hc0, hd0, hp0]; exact hdir
                  | succ k => exact hseq.dir k (by omega)
                · intro k hk
                  cases k with
                  | zero => show (pts 0).2 = e.frac (pts 0).1; rw [hp0]
                  | succ k => exact hseq.step k (by omega)
                · intro k hk
                  cases k with
                  | zero => show e.check st alphaTest (pts 0).1 (pts 0).2 = (some false, sts 0); rw [hp0, hs0]; exact hck
                  | succ k => exact hseq.rej k (by omega)
                · intro k hk
                  cases k with
                  | zero =>
                    show (e.trial (pts 0).1 (pts 0).2).theta ≤ cfg.kappa * (e.trial pt.1 pt.2).theta
                    rw [hp0]
                    rcases hfirst (by omega) with h | h
                    · cases h
                    · exact h
                  | succ k => exact hseq.red k (by omega)
                · rcases hend with ⟨ha, ⟨m, hm, hc⟩, hd⟩ | ⟨ha, hrest⟩
                  · exact Or.inl ⟨ha, ⟨n, rfl, by rw [hm] at hc ⊢; exact hc⟩, hd⟩
                  · refine Or.inr ⟨ha, ?_⟩
                    rcases hrest with ⟨m, hm, hc⟩ | ⟨hst, hrej, hwhy⟩
                    · exact Or.inl ⟨n, rfl, by rw [hm] at hc ⊢; exact hc⟩
                    · refine Or.inr ⟨hst, ?_, ?_⟩
                      · intro m hm
                        obtain rfl : m = n := by omega
                        cases m with
                        | zero => show e.check st alphaTest (pts 0).1 (pts 0).2 = (some false, sts 0); rw [hp0, hs0]; exact hck
                        | succ m => exact hrej m rfl
                      · rcases hwhy with h | ⟨m, hm, h⟩ | h
                        · exact Or.inl (by omega)
                        · refine Or.inr (Or.inl ⟨n, rfl, ?_⟩)
                          rw [hm] at h ⊢
                          exact h
                        · exact Or.inr (Or.inr h)
              · refine oneStep _ st' hkeep ?_ ?_
                · rw [hR]
                · rw [hR]
                  refine Or.inr ⟨rfl, Or.inr ⟨rfl, ?_, Or.inr (Or.inl ⟨0, rfl, ?_⟩)⟩⟩
                  · intro m hm
                    obtain rfl : m = 0 := by omega
                    exact hck
                  · intro h
                    exact hno (Or.inr h)
    · have hloop : loop cfg cur e alphaTest alpha0 delta0 (todo + 1) first st old (e.trial pt.1 pt.2).theta pt.2 c dms pt = (⟨false, alpha0, delta0, pt⟩, st) := by
        rw [loop, if_neg hcond]
      rw [hloop]
      exact noStep _ rfl (Or.inr ⟨rfl, hcond, rfl⟩)

/-- Second order corrections: at most `max_soc` corrections are made; each solves the primal-dual system for the accumulated constraint values; all but the last were
rejected, and a further one is made only after a reduction of the constraint violation by `kappa_soc`.  If a step is accepted, it passes the acceptance test of the
line search with the original step size, and step size and direction are those of the last correction.  If none is accepted, step size and direction are
unchanged, and there is a reason: the limit, no reduction, a failed solve, or a failed evaluation. -/
theorem second_order_corrections (cfg : Cfg K) (cur : Cur K X C D L U A B) (e : Env σ K X C D L U A B) (st : σ) (alphaTest alpha : K) (delta : Iter K X C D L U A B) :
    ∃ n pts cs ds sts, n ≤ cfg.maxSoc ∧ pts 0 = (delta, alpha) ∧ cs 0 = cur.c ∧ ds 0 = cur.dms ∧ sts 0 = st ∧ Seq cfg cur e alphaTest n pts cs ds sts ∧
      ((soc cfg cur e st alphaTest alpha delta).1.accept = false → (soc cfg cur e st alphaTest alpha delta).1.alpha = alpha ∧
        (soc cfg cur e st alphaTest alpha delta).1.delta = delta) ∧
      (soc cfg cur e st alphaTest alpha delta).1.point = pts n ∧
      Ends cfg cur e alphaTest cfg.maxSoc n pts cs ds sts (soc cfg cur e st alphaTest alpha delta) := by
  unfold soc
  split
  · rename_i h0
    refine ⟨0, fun _ => (delta, alpha), fun _ => cur.c, fun _ => cur.dms, fun _ => st, by omega, rfl, rfl, rfl, rfl, ⟨?_, ?_, ?_, ?_, ?_, ?_⟩, fun _ => ⟨rfl, rfl⟩, rfl, ?_⟩
    any_goals (intro k hk; exact absurd hk (by omega))
    exact Or.inr ⟨rfl, Or.inr ⟨rfl, fun m hm => absurd hm (by omega), Or.inl h0.symm⟩⟩
  · obtain ⟨n, pts, cs, ds, sts, h1, h2, h3, h4, h5, h6, _, h8, h9, h10⟩ := loop_spec cfg cur e alphaTest alpha delta cfg.maxSoc true st 0 cur.c cur.dms (delta, alpha)
    rcases h10 with h10 | ⟨_, h10, _⟩
    · exact ⟨n, pts, cs, ds, sts, h1, h2, h3, h4, h5, h6, h8, h9, h10⟩
    · exact absurd (Or.inl rfl) h10

/-- Meaning of the right-hand side: if the solver solves the rows of the linearized constraints, each corrected direction `d` satisfies
`J d + c(last trial point) + α·(previous right-hand side) = 0`; for the first correction the latter is `α c(x)`. -/
theorem soc_linearization [Fintype X] (cfg : Cfg K) (cur : Cur K X C D L U A B) (e : Env σ K X C D L U A B) (alphaTest : K) (n : Nat) (pts : Nat → Iter K X C D L U A B × K)
    (cs : Nat → C → K) (ds : Nat → D → K) (sts : Nat → σ) (h : Seq cfg cur e alphaTest n pts cs ds sts) (Jc : _root_.Matrix C X K) (Jd : _root_.Matrix D X K)
    (hsol : ∀ r d, e.solve r = some d → (∀ i, ∑ j, Jc i j * d.x j = -r.yc i) ∧ ∀ i, ∑ j, Jd i j * d.x j - d.s i = -r.yd i) (k : Nat) (hk : k < n) :
    (∀ i, ∑ j, Jc i j * (pts (k + 1)).1.x j + (e.trial (pts k).1 (pts k).2).c i + (pts k).2 * cs k i = 0) ∧
    ∀ i, ∑ j, Jd i j * (pts (k + 1)).1.x j - (pts (k + 1)).1.s i + (e.trial (pts k).1 (pts k).2).dms i + (pts k).2 * ds k i = 0 := by
  obtain ⟨h1, h2⟩ := hsol _ _ (h.dir k hk)
  refine ⟨fun i => ?_, fun i => ?_⟩
  · rw [h1 i]
    show -cs (k + 1) i + _ + _ = 0
    rw [h.conC k hk i]; ring
  · rw [h2 i]
    show -ds (k + 1) i + _ + _ = 0
    rw [h.conD k hk i]; ring

/-! ### Corrector steps -/

/-- the rows of the primal-dual system: the matrix applied to a direction; the first four rows are given by `top`. -/
def system (cur : CCur K X C D L U A B) (top : Iter K X C D L U A B → (X → K) × (D → K) × (C → K) × (D → K)) (d : Iter K X C D L U A B) : Iter K X C D L U A B :=
  ⟨(top d).1, (top d).2.1, (top d).2.2.1, (top d).2.2.2, fun i => cur.zL i * d.x (cur.pL i) + cur.slXL i * d.zL i, fun i => -cur.zU i * d.x (cur.pU i) + cur.slXU i * d.zU i,
   fun i => cur.vL i * d.s (cur.qL i) + cur.slSL i * d.vL i, fun i => -cur.vU i * d.s (cur.qU i) + cur.slSU i * d.vU i⟩

/-- `a + b·c` block by block. -/
def Iter.comb (α : K) (r : Iter K X C D L U A B) (β : K) (d : Iter K X C D L U A B) : Iter K X C D L U A B :=
  ⟨fun i => α * r.x i + β * d.x i, fun i => α * r.s i + β * d.s i, fun i => α * r.yc i + β * d.yc i, fun i => α * r.yd i + β * d.yd i,
   fun i => α * r.zL i + β * d.zL i, fun i => α * r.zU i + β * d.zU i, fun i => α * r.vL i + β * d.vL i, fun i => α * r.vU i + β * d.vU i⟩

/-- the change of the slack to a lower or upper bound along a direction is `±` the change of the variable: second order terms `Δs Δz` of the complementarity conditions. -/
def second (cur : CCur K X C D L U A B) (d : Iter K X C D L U A B) : (L → K) × (U → K) × (A → K) × (B → K) :=
  (fun i => d.x (cur.pL i) * d.zL i, fun i => -d.x (cur.pU i) * d.zU i, fun i => d.s (cur.qL i) * d.vL i, fun i => -d.s (cur.qU i) * d.vU i)

/-- The corrected direction satisfies the same first four rows as the search direction, and the complementarity conditions `s Δz + z Δs = μ − s z − Δs' Δz'` with the second order term of the
affine step (solution for the barrier parameter 0) or of the search direction itself.  (`Solve` adds to the given direction; the search direction satisfies the
complementarity rows for the current barrier parameter.) -/
theorem corrector_direction (cfg : CCfg K) (hc : cfg.type ≠ .none) (cur : CCur K X C D L U A B) (e : CEnv σ K X C D L U A B) (aff : Option (Iter K X C D L U A B)) (delta d : Iter K X C D L U A B)
    (aff' : Option (Iter K X C D L U A B)) (top : Iter K X C D L U A B → (X → K) × (D → K) × (C → K) × (D → K))
    (hsol : ∀ α β r d d', e.solve α β r d = some d' → system cur top d' = Iter.comb α r β (if β = 0 then d else system cur top d))
    (hdelta : (∀ i, (system cur top delta).zL i = cur.mu - cur.slXL i * cur.zL i) ∧ (∀ i, (system cur top delta).zU i = cur.mu - cur.slXU i * cur.zU i) ∧
      (∀ i, (system cur top delta).vL i = cur.mu - cur.slSL i * cur.vL i) ∧ ∀ i, (system cur top delta).vU i = cur.mu - cur.slSU i * cur.vU i)
    (h : corrDir cfg cur e aff delta = some (d, aff')) :
    ∃ a, (cfg.type = .primalDual → a = delta ∧ aff' = aff) ∧ (cfg.type = .affine → aff' = some a ∧ (aff.isSome → aff = some a) ∧
        (aff = none → system cur top a = Iter.comb (-1) ⟨cur.gradX, cur.gradS, cur.c, cur.dms, fun i => cur.slXL i * cur.zL i, fun i => cur.slXU i * cur.zU i,
          fun i => cur.slSL i * cur.vL i, fun i => cur.slSU i * cur.vU i⟩ 0 e.fresh)) ∧
      top d = top delta ∧
      (∀ i, cur.slXL i * d.zL i + cur.zL i * d.x (cur.pL i) = cur.mu - cur.slXL i * cur.zL i - (second cur a).1 i) ∧
      (∀ i, cur.slXU i * d.zU i + cur.zU i * -d.x (cur.pU i) = cur.mu - cur.slXU i * cur.zU i - (second cur a).2.1 i) ∧
      (∀ i, cur.slSL i * d.vL i + cur.vL i * d.s (cur.qL i) = cur.mu - cur.slSL i * cur.vL i - (second cur a).2.2.1 i) ∧
      ∀ i, cur.slSU i * d.vU i + cur.vU i * -d.s (cur.qU i) = cur.mu - cur.slSU i * cur.vU i - (second cur a).2.2.2 i := by
  obtain ⟨e1, e2, e3, e4⟩ := hdelta
  have htop : ∀ (r : Iter K X C D L U A B), (∀ i, r.x i = 0) → (∀ i, r.s i = 0) → (∀ i, r.yc i = 0) → (∀ i, r.yd i = 0) →
      system cur top d = Iter.comb 1 r 1 (if (1 : K) = 0 then delta else system cur top delta) → top d = top delta := by
    intro r r1 r2 r3 r4 hs
    rw [if_neg one_ne_zero] at hs
    have h1 := congr_arg Iter.x hs
    have h2 := congr_arg Iter.s hs
    have h3 := congr_arg Iter.yc hs
    have h4 := congr_arg Iter.yd hs
    simp only [system, Iter.comb, r1, r2, r3, r4, mul_zero, zero_add, one_mul] at h1 h2 h3 h4
    exact Prod.ext h1 (Prod.ext h2 (Prod.ext h3 h4))
  have rows : ∀ (r : Iter K X C D L U A B), system cur top d = Iter.comb 1 r 1 (if (1 : K) = 0 then delta else system cur top delta) →
      (∀ i, cur.zL i * d.x (cur.pL i) + cur.slXL i * d.zL i = r.zL i + (cur.mu - cur.slXL i * cur.zL i)) ∧
      (∀ i, -cur.zU i * d.x (cur.pU i) + cur.slXU i * d.zU i = r.zU i + (cur.mu - cur.slXU i * cur.zU i)) ∧
      (∀ i, cur.vL i * d.s (cur.qL i) + cur.slSL i * d.vL i = r.vL i + (cur.mu - cur.slSL i * cur.vL i)) ∧
      ∀ i, -cur.vU i * d.s (cur.qU i) + cur.slSU i * d.vU i = r.vU i + (cur.mu - cur.slSU i * cur.vU i) := by
    intro r hs
    rw [if_neg one_ne_zero] at hs
    have h1 := fun i => congr_fun (congr_arg Iter.zL hs) i
    have h2 := fun i => congr_fun (congr_arg Iter.zU hs) i
    have h3 := fun i => congr_fun (congr_arg Iter.vL hs) i
    have h4 := fun i => congr_fun (congr_arg Iter.vU hs) i
    refine ⟨fun i => ?_, fun i => ?_, fun i => ?_, fun i => ?_⟩
    · have := h1 i; simp only [Iter.comb, one_mul] at this; rw [e1] at this; exact this
    · have := h2 i; simp only [Iter.comb, one_mul] at this; rw [e2] at this; exact this
    · have := h3 i; simp only [Iter.comb, one_mul] at this; rw [e3] at this; exact this
    · have := h4 i; simp only [Iter.comb, one_mul] at this; rw [e4] at this; exact this
  unfold corrDir at h
  cases ht : cfg.type with
  | none => exact absurd ht hc
  | primalDual =>
    rw [ht] at h
    simp only [Option.map_eq_some_iff, Prod.mk.injEq] at h
    obtain ⟨d', hd, rfl, rfl⟩ := h
    have hs := hsol _ _ _ _ _ hd
    obtain ⟨r1, r2, r3, r4⟩ := rows _ hs
    refine ⟨delta, fun _ => ⟨rfl, rfl⟩, fun h => (by cases h), htop _ (fun _ => rfl) (fun _ => rfl) (fun _ => rfl) (fun _ => rfl) hs, fun i => ?_, fun i => ?_, fun i => ?_, fun i => ?_⟩
    · have q1 := r1 i; have q2 := e1 i
      simp only [system, pdCorrRhs, second] at q1 q2 ⊢
      linear_combination q1 - q2
    · have q1 := r2 i; have q2 := e2 i
      simp only [system, pdCorrRhs, second] at q1 q2 ⊢
      linear_combination q1 - q2
    · have q1 := r3 i; have q2 := e3 i
      simp only [system, pdCorrRhs, second] at q1 q2 ⊢
      linear_combination q1 - q2
    · have q1 := r4 i; have q2 := e4 i
      simp only [system, pdCorrRhs, second] at q1 q2 ⊢
      linear_combination q1 - q2
  | affine =>
    rw [ht] at h
    simp only [Option.bind_eq_some_iff, Option.map_eq_some_iff, Prod.mk.injEq] at h
    obtain ⟨a, ha, d', hd, rfl, rfl⟩ := h
    have hs := hsol _ _ _ _ _ hd
    obtain ⟨r1, r2, r3, r4⟩ := rows _ hs
    refine ⟨a, fun h => (by cases h), fun _ => ⟨rfl, ?_, ?_⟩, htop _ (fun _ => rfl) (fun _ => rfl) (fun _ => rfl) (fun _ => rfl) hs, fun i => ?_, fun i => ?_, fun i => ?_, fun i => ?_⟩
    · intro hsome
      cases aff with
      | none => cases hsome
      | some b => simpa using ha
    · intro hnone
      subst hnone
      have := hsol _ _ _ _ _ ha
      rw [if_pos rfl] at this
      exact this
    · have q1 := r1 i
      simp only [affCorrRhs, second] at q1 ⊢
      linear_combination q1
    · have q1 := r2 i
      simp only [affCorrRhs, second] at q1 ⊢
      linear_combination q1
    · have q1 := r3 i
      simp only [affCorrRhs, second] at q1 ⊢
      linear_combination q1
    · have q1 := r4 i
      simp only [affCorrRhs, second] at q1 ⊢
      linear_combination q1

/-- A corrector step is accepted exactly if correctors are switched on and not to be skipped, there are bounds, the average complementarity is reduced by the required factor (affine corrector), and the
corrected step to the boundary passes the acceptance test of the line search with the original step size; otherwise step size and direction are unchanged. -/
theorem corrector_outcome (cfg : CCfg K) (cur : CCur K X C D L U A B) (e : CEnv σ K X C D L U A B) (aff : Option (Iter K X C D L U A B)) (st : σ) (alphaTest alpha : K)
    (delta : Iter K X C D L U A B) (r : CRes K X C D L U A B) (st' : σ) (h : corrector cfg cur e aff st alphaTest alpha delta = some (r, st')) :
    (r.accept = true ↔ cfg.type ≠ .none ∧ (cfg.skipNegCurv = true → cur.reguX = 0) ∧ (cfg.skipMonotone = true → cur.freeMu = true) ∧ cur.nBounds ≠ 0 ∧
      ∃ d a', corrDir cfg cur e aff delta = some (d, a') ∧ (cfg.type = .affine → e.avrg d (e.frac d) (e.dualFrac d) < cfg.redFact * e.currAvrg) ∧
        (e.check st alphaTest d (e.frac d)).1 = some true) ∧
    (r.accept = true → ∃ a', corrDir cfg cur e aff delta = some (r.delta, a') ∧ r.alpha = e.frac r.delta) ∧
    (r.accept = false → r.alpha = alpha ∧ r.delta = delta) := by
  unfold corrector at h
  split at h
  · rename_i hs
    obtain ⟨rfl, rfl⟩ := Prod.mk.inj (Option.some.inj h)
    refine ⟨⟨fun h => (by cases h), fun ⟨h1, h2, h3, _⟩ => ?_⟩, fun h => (by cases h), fun _ => ⟨rfl, rfl⟩⟩
    rcases hs with hs | ⟨hs, hs'⟩ | ⟨hs, hs'⟩
    · exact absurd hs h1
    · exact absurd (h2 hs) hs'
    · rw [h3 hs] at hs'; cases hs'
  · rename_i hs
    have h1 : cfg.type ≠ .none := fun h => hs (Or.inl h)
    have h2 : cfg.skipNegCurv = true → cur.reguX = 0 := fun h => by
      by_contra h'; exact hs (Or.inr (Or.inl ⟨h, h'⟩))
    have h3 : cfg.skipMonotone = true → cur.freeMu = true := fun h => by
      by_contra h'; exact hs (Or.inr (Or.inr ⟨h, by simpa using h'⟩))
    split at h
    · rename_i h4
      obtain ⟨rfl, rfl⟩ := Prod.mk.inj (Option.some.inj h)
      exact ⟨⟨fun h => (by cases h), fun ⟨_, _, _, h, _⟩ => absurd h4 h⟩, fun h => (by cases h), fun _ => ⟨rfl, rfl⟩⟩
    · rename_i h4
      rw [Option.map_eq_some_iff] at h
      obtain ⟨⟨d, a'⟩, hd, h⟩ := h
      simp only [] at h
      split at h
      · rename_i h5
        obtain ⟨rfl, rfl⟩ := Prod.mk.inj h
        refine ⟨⟨fun h => (by cases h), fun ⟨_, _, _, _, d', a'', hd', h6, _⟩ => ?_⟩, fun h => (by cases h), fun _ => ⟨rfl, rfl⟩⟩
        obtain ⟨rfl, rfl⟩ := Prod.mk.inj (Option.some.inj (hd.symm.trans hd'))
        exact absurd (h6 h5.1) (not_lt.2 h5.2)
      · rename_i h5
        have h5' : cfg.type = .affine → e.avrg d (e.frac d) (e.dualFrac d) < cfg.redFact * e.currAvrg := fun ht => not_le.1 fun h => h5 ⟨ht, h⟩
        cases hck : e.check st alphaTest d (e.frac d) with
        | mk b s =>
          have hrej : b ≠ some true → (r.accept = false ∧ r.alpha = alpha ∧ r.delta = delta) := by
            intro hb
            rw [hck] at h
            cases b with
            | none => obtain ⟨rfl, rfl⟩ := Prod.mk.inj h; exact ⟨rfl, rfl, rfl⟩
            | some b =>
              cases b with
              | true => exact absurd rfl hb
              | false => obtain ⟨rfl, rfl⟩ := Prod.mk.inj h; exact ⟨rfl, rfl, rfl⟩
          by_cases hb : b = some true
          · rw [hck, hb] at h
            obtain ⟨rfl, rfl⟩ := Prod.mk.inj h
            exact ⟨⟨fun _ => ⟨h1, h2, h3, h4, d, a', hd, h5', (by rw [hck, hb])⟩, fun _ => rfl⟩, fun _ => ⟨a', hd, rfl⟩, fun h => (by cases h)⟩
          · obtain ⟨k1, k2, k3⟩ := hrej hb
            refine ⟨⟨fun h => (by rw [k1] at h; cases h), fun ⟨_, _, _, _, d', a'', hd', _, h7⟩ => ?_⟩, fun h => (by rw [k1] at h; cases h), fun _ => ⟨k2, k3⟩⟩
            obtain ⟨rfl, rfl⟩ := Prod.mk.inj (Option.some.inj (hd.symm.trans hd'))
            rw [hck] at h7
            exact absurd h7 hb

/-! ### With the penalty function (C68) -/

section
variable [Fintype X] [Fintype C] [Fintype D]
open Verif.PenaltyLS (merit Linearized)

theorem check_congr (g : PenaltyLS.Cfg K) (s s' : PenaltyLS.St K C D) (cur : PenaltyLS.Cur K X C D) (h : s' = { s with restoPred := s'.restoPred }) (a t b : K) :
    (s'.check g cur a t b).map (·.1) = (s.check g cur a t b).map (·.1) ∧ ∀ r s'', s'.check g cur a t b = some (r, s'') → s'' = { s with restoPred := s''.restoPred } := by
  generalize hp : s'.restoPred = p at h
  subst h
  constructor
  · unfold PenaltyLS.St.check
    rw [Option.map_map, Option.map_map]
    rfl
  · intro r s'' h
    unfold PenaltyLS.St.check at h
    rw [Option.map_eq_some_iff] at h
    obtain ⟨q, _, h⟩ := h
    obtain ⟨_, rfl⟩ := Prod.mk.inj h
    rfl

/-- An accepted second order correction reduces the penalty function as much as an accepted regular step with the original step size would have to. -/
theorem soc_penalty_descent (g : PenaltyLS.Cfg K) (hs : g.SqrtOk) (hr : g.rho < 1) (hi : 0 ≤ g.nuInc) (he : 0 ≤ g.eta) (st0 : PenaltyLS.St K C D) (pcur : PenaltyLS.Cur K X C D)
    (hl : Linearized pcur) (cfg : Cfg K) (cur : Cur K X C D L U A B) (e : Env (PenaltyLS.St K C D) K X C D L U A B) (barr : Iter K X C D L U A B → K → Option K)
    (hcheck : ∀ st a d α, e.check st a d α = match barr d α with
      | none => (none, st)
      | some b => match st.check g pcur a (e.trial d α).theta b with
        | none => (none, st)
        | some (r, s) => (some r, s))
    (alphaTest alpha : K) (h0 : 0 ≤ alphaTest) (h1 : alphaTest ≤ 1) (delta : Iter K X C D L U A B) (t0 b0 : K) (r0 : Bool) (st1 : PenaltyLS.St K C D)
    (hfirst : (st0.init g false pcur).check g pcur alphaTest t0 b0 = some (r0, st1))
    (hacc : (soc cfg cur e st1 alphaTest alpha delta).1.accept = true) :
    ∃ b, barr (soc cfg cur e st1 alphaTest alpha delta).1.delta (soc cfg cur e st1 alphaTest alpha delta).1.alpha = some b ∧
      let nu := (st0.init g false pcur).nu
      merit nu b (e.trial (soc cfg cur e st1 alphaTest alpha delta).1.delta (soc cfg cur e st1 alphaTest alpha delta).1.alpha).theta ≤
        merit nu pcur.barr (pcur.theta g) - g.eta * alphaTest * (g.rho * nu * pcur.theta g) + 10 * g.eps * |merit nu pcur.barr (pcur.theta g)| := by
  obtain ⟨n, pts, cs, ds, sts, hn, _, _, _, hst, hseq, _, _, hend⟩ := second_order_corrections cfg cur e st1 alphaTest alpha delta
  rcases hend with ⟨_, ⟨m, hm, hck⟩, hpt⟩ | ⟨hno, _⟩
  swap
  · rw [hacc] at hno; cases hno
  set S := st0.init g false pcur with hS
  have hinv : ∀ k, k < n → sts k = { S with restoPred := (sts k).restoPred } := by
    intro k
    induction k with
    | zero =>
      intro _
      rw [hst]
      exact (check_congr g S S pcur rfl alphaTest t0 b0).2 r0 st1 hfirst
    | succ k ih =>
      intro hk
      have hrej := hseq.rej k hk
      rw [hcheck] at hrej
      cases hb : barr (pts (k + 1)).1 (pts (k + 1)).2 with
      | none => rw [hb] at hrej; simp at hrej
      | some b =>
        rw [hb] at hrej
        simp only [] at hrej
        cases hc : (sts k).check g pcur alphaTest (e.trial (pts (k + 1)).1 (pts (k + 1)).2).theta b with
        | none => rw [hc] at hrej; simp at hrej
        | some rs =>
          rw [hc] at hrej
          simp only [Prod.mk.injEq, Option.some.injEq] at hrej
          have := (check_congr g S (sts k) pcur (ih (by omega)) _ _ _).2 _ _ hc
          rw [← hrej.2]; exact this
  have hpt1 : (soc cfg cur e st1 alphaTest alpha delta).1.delta = (pts n).1 := congr_arg Prod.fst hpt
  have hpt2 : (soc cfg cur e st1 alphaTest alpha delta).1.alpha = (pts n).2 := congr_arg Prod.snd hpt
  rw [hpt1, hpt2]
  rw [hcheck] at hck
  cases hb : barr (pts n).1 (pts n).2 with
  | none => rw [hb] at hck; simp at hck
  | some b =>
    refine ⟨b, rfl, ?_⟩
    rw [hb] at hck
    simp only [] at hck
    cases hc : (sts m).check g pcur alphaTest (e.trial (pts n).1 (pts n).2).theta b with
    | none => rw [hc] at hck; simp at hck
    | some rs =>
      rw [hc] at hck
      simp only [Prod.mk.injEq, Option.some.injEq] at hck
      have h2 := (check_congr g S (sts m) pcur (hinv m (by omega)) alphaTest (e.trial (pts n).1 (pts n).2).theta b).1
      rw [hc, Option.map_some, hck.1] at h2
      have h3 := Option.map_eq_some_iff.1 h2.symm
      obtain ⟨⟨r, s''⟩, h4, h5⟩ := h3
      obtain rfl : r = true := h5
      exact PenaltyLS.penalty_descent g hs hr hi he st0 pcur hl alphaTest h0 h1 _ b s'' h4

end

/-! ### Concrete cases -/

namespace Example

/-- one variable, one equality constraint `x + x² = 0` at `x = 1`. -/
abbrev I := Iter ℚ Unit Unit Empty Empty Empty Empty Empty

def dirX (a : ℚ) : I := ⟨fun _ => a, Empty.elim, fun _ => 0, Empty.elim, Empty.elim, Empty.elim, Empty.elim, Empty.elim⟩

def con (x : ℚ) : ℚ := x + x * x

def cur : Cur ℚ Unit Unit Empty Empty Empty Empty Empty := ⟨fun _ => 0, Empty.elim, fun _ => con 1, Empty.elim, Empty.elim, Empty.elim, Empty.elim, Empty.elim⟩

/-- accept a constraint violation below 1/5; the state counts the tests. -/
def env : Env Nat ℚ Unit Unit Empty Empty Empty Empty Empty where
  solve r := some (dirX (-r.yc () / 3))
  frac _ := 1
  trial d a := ⟨|con (1 + a * d.x ())|, fun _ => con (1 + a * d.x ()), Empty.elim⟩
  check n _ d a := (some (decide (|con (1 + a * d.x ())| < 1 / 5)), n + 1)

def cfg : Cfg ℚ := ⟨4, 99 / 100, 0⟩

/-- the first correction is rejected, the second accepted. -/
example : (soc cfg cur env 0 1 1 (dirX (-2 / 3))).1.accept = true ∧ (soc cfg cur env 0 1 1 (dirX (-2 / 3))).2 = 2 ∧
    (soc cfg cur env 0 1 1 (dirX (-2 / 3))).1.delta.x () = -(4 / 9 + 2 + 160 / 729) / 3 := by decide +kernel

/-- without a second correction the direction is unchanged. -/
example : (soc ⟨1, 99 / 100, 0⟩ cur env 0 1 1 (dirX (-2 / 3))).1.accept = false ∧ (soc ⟨1, 99 / 100, 0⟩ cur env 0 1 1 (dirX (-2 / 3))).1.delta.x () = -2 / 3 := by
  decide +kernel

/-- the solver satisfies the hypothesis of `soc_linearization`. -/
example (r d : I) (h : env.solve r = some d) : (∀ i, ∑ j : Unit, (fun (_ : Unit) (_ : Unit) => (3 : ℚ)) i j * d.x j = -r.yc i) ∧
    ∀ i : Empty, ∑ j : Unit, (fun (_ : Empty) (_ : Unit) => (0 : ℚ)) i j * d.x j - d.s i = -r.yd i := by
  obtain rfl := Option.some.inj h
  refine ⟨fun i => ?_, fun i => i.elim⟩
  simp [dirX]; ring

/-- one variable with a lower bound: slack 2, multiplier 1, Hessian 1, barrier parameter 1/2. -/
abbrev J := Iter ℚ Unit Empty Empty Unit Empty Empty Empty

def dirXZ (a b : ℚ) : J := ⟨fun _ => a, Empty.elim, Empty.elim, Empty.elim, fun _ => b, Empty.elim, Empty.elim, Empty.elim⟩

def ccur : CCur ℚ Unit Empty Empty Unit Empty Empty Empty :=
  { pL := id, pU := Empty.elim, qL := Empty.elim, qU := Empty.elim, slXL := fun _ => 2, slXU := Empty.elim, slSL := Empty.elim, slSU := Empty.elim, zL := fun _ => 1,
    zU := Empty.elim, vL := Empty.elim, vU := Empty.elim, mu := 1 / 2, gradX := fun _ => 0, gradS := Empty.elim, c := Empty.elim, dms := Empty.elim, reguX := 0,
    freeMu := true, nBounds := 1 }

def top (d : J) : (Unit → ℚ) × (Empty → ℚ) × (Empty → ℚ) × (Empty → ℚ) := (fun _ => d.x () - d.zL (), Empty.elim, Empty.elim, Empty.elim)

/-- an exact solver of `dx − dz = r.x`, `1·dx + 2·dz = r.zL`. -/
def cenv : CEnv Nat ℚ Unit Empty Empty Unit Empty Empty Empty where
  solve α β r d := some (dirXZ (α * ((2 * r.x () + r.zL ()) / 3) + β * d.x ()) (α * ((r.zL () - r.x ()) / 3) + β * d.zL ()))
  fresh := dirXZ 0 0
  frac d := if 2 + d.x () ≤ 0 then 1 / 2 else 1
  dualFrac _ := 1
  avrg d a b := (2 + a * d.x ()) * (1 + b * d.zL ())
  currAvrg := 2
  check n _ d a := (some true, n + 1)

/-- the search direction for `μ = 1/2`. -/
def cdelta : J := dirXZ (-1 / 2) (-1 / 2)

/-- the hypotheses of `corrector_direction` hold. -/
example : ∀ α β r d d', cenv.solve α β r d = some d' → system ccur top d' = Iter.comb α r β (if β = 0 then d else system ccur top d) := by
  intro α β r d d' h
  obtain rfl := Option.some.inj h
  by_cases hb : β = 0
  · rw [if_pos hb]
    simp only [system, Iter.comb, top, ccur, dirXZ, hb, Iter.mk.injEq]
    refine ⟨?_, funext fun i => Empty.elim i, funext fun i => Empty.elim i, funext fun i => Empty.elim i, ?_, funext fun i => Empty.elim i, funext fun i => Empty.elim i, funext fun i => Empty.elim i⟩
    · funext i; ring
    · funext i; ring
  · rw [if_neg hb]
    simp only [system, Iter.comb, top, ccur, dirXZ, Iter.mk.injEq]
    refine ⟨?_, funext fun i => Empty.elim i, funext fun i => Empty.elim i, funext fun i => Empty.elim i, ?_, funext fun i => Empty.elim i, funext fun i => Empty.elim i, funext fun i => Empty.elim i⟩
    · funext i; ring
    · funext i; simp only [id]; ring

example : (∀ i, (system ccur top cdelta).zL i = ccur.mu - ccur.slXL i * ccur.zL i) ∧ (∀ i, (system ccur top cdelta).zU i = ccur.mu - ccur.slXU i * ccur.zU i) ∧
    (∀ i, (system ccur top cdelta).vL i = ccur.mu - ccur.slSL i * ccur.vL i) ∧ ∀ i, (system ccur top cdelta).vU i = ccur.mu - ccur.slSU i * ccur.vU i :=
  ⟨fun _ => by show (1 : ℚ) * (-1 / 2) + 2 * (-1 / 2) = 1 / 2 - 2 * 1; norm_num, fun i => i.elim, fun i => i.elim, fun i => i.elim⟩

/-- both kinds of corrector steps are accepted here, and differ from the search direction. -/
example : ((corrector ⟨.affine, true, true, 1⟩ ccur cenv none 0 1 1 cdelta).map fun r => (r.1.accept, r.1.delta.x (), r.1.delta.zL ())) = some (true, -1 / 2 - 4 / 27, -1 / 2 - 4 / 27) ∧
    ((corrector ⟨.primalDual, true, true, 1⟩ ccur cenv none 0 1 1 cdelta).map fun r => (r.1.accept, r.1.delta.x ())) = some (true, -1 / 2 - 1 / 12) := by decide +kernel

end Example

end Verif.SOC
