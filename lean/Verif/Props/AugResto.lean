import Verif.Proof.AugResto2
import Verif.Props.PDSystem
import Mathlib.Tactic.Linarith
import Mathlib.Tactic.NormNum

/-! # C37: the restoration-phase augmented system -/

namespace Verif.AugResto
open Finset Verif.Matrix Verif.PDSystem

set_option linter.unusedSectionVars false
set_option linter.unusedVariables false
set_option linter.unusedSimpArgs false

section Field
variable {K : Type} [Field K] [DecidableEq K] {hom : List K → Option K} (hh : HomOK hom)

theorem full_args_ok (oldW : Mat K) (a : Args K) (h : a.OK) : a.full.OK oldW := by
  refine ⟨?_, ?_, ?_, ?_, ?_, ?_⟩
  · simp only [Args.full, Option.getD_some, full_dims]
    simp [restoW, Mat.dims, xdims]
  · simp only [Args.full, full_dims, full_dims_d, h.Jd]
  · intro d hd
    simp only [Args.full, full_dims] at hd ⊢
    cases hD : a.Dx with
    | none => rw [hD] at hd; cases hd
    | some e =>
      rw [hD] at hd
      simp only [Option.map_some, Option.some.injEq] at hd
      have := h.Dx e hD
      rw [← hd]
      simp [X5.flat, this.x, this.nc, this.pc, this.nd, this.pd]
  · intro d hd; simp only [Args.full, full_dims_d] at hd ⊢; exact h.Ds d hd
  · intro d hd; simp only [Args.full, full_dims] at hd ⊢; exact h.Dc d hd
  · intro d hd; simp only [Args.full, full_dims_d] at hd ⊢; exact h.Dd d hd

/-- C37: the matrix that a plain augmented system solver would build from the restoration problem's own compound matrices
(`jac_c = [J_c, I, -I, 0, 0]`, `jac_d = [J_d, 0, 0, I, -I]`, Hessian with a single nonzero block) represents the restoration system. -/
theorem resto_matrix (oldW : Mat K) (a : Args K) (h : a.OK) (v r : RVec K) (hv : v.Dim a) (hr : r.Dim a) :
    (∀ i, i < (kkt oldW a.full).dims.1 → mv (kkt oldW a.full) v.aug.flat i = r.aug.flat.getD i 0) ↔ RestoSystem a v r := by
  have lx : ∀ w : X5 K, w.Dim a → w.flat.length = a.Jc0.dims.2 + (a.Jc0.dims.1 + (a.Jc0.dims.1 + (a.Jd0.dims.1 + a.Jd0.dims.1))) := by
    intro w hw; simp [X5.flat, hw.x, hw.nc, hw.pc, hw.nd, hw.pd]
  have ax : ∀ w : RVec K, w.Dim a → w.aug.x.length = a.full.Jc.dims.2 ∧ w.aug.s.length = a.full.Jd.dims.1 ∧
      w.aug.c.length = a.full.Jc.dims.1 ∧ w.aug.d.length = a.full.Jd.dims.1 := by
    intro w hw
    simp only [Args.full, full_dims, full_dims_d, RVec.aug]
    exact ⟨lx _ hw.x, hw.s, hw.c, hw.d⟩
  rw [kkt_iff oldW a.full (full_args_ok oldW a h) v.aug r.aug (ax v hv) (ax r hr)]
  exact full_iff a h v r hv hr

include hh

theorem reduced_args_ok (oldW : Mat K) (a : Args K) (h : a.OK) (hp : a.Pivots) (hDd : a.Dd = none) {rhs : RVec K} (hr : rhs.Dim a) :
    (a.reduced hom rhs).OK oldW := by
  have C := comp_len a h
  have R := redW_dims a.W a.Wfac (a.Dx.map X5.x) a.Jc0.dims.2 h.W C.1
  refine ⟨R.1, h.Jd, R.2, h.Ds, ?_, ?_⟩
  · intro d hd
    change d.length = a.Jc0.dims.1
    simp only [Args.reduced, Args.sig] at hd
    rw [hr.x.nc, hr.x.pc] at hd
    have l : ∀ (σ : Option (List K)), (∀ v, σ = some v → v.length = a.Jc0.dims.1) → (∀ i, i < a.Jc0.dims.1 → od σ i + a.δx ≠ 0) →
        ((sigTildeInv σ a.δx a.Jc0.dims.1).getD rhs.c).length = a.Jc0.dims.1 := by
      intro σ hl hq
      rcases sigTilde_cases σ a.δx _ hl hq with ⟨w, e, wl, _⟩ | ⟨_, e⟩ <;> rw [e]
      · exact wl
      · exact hr.c
    have l1 := l _ C.2.1 hp.nc
    have l2 := l _ C.2.2.1 hp.pc
    unfold negOmegaC at hd
    split at hd
    · cases hDc : a.Dc with
      | none =>
        rw [hDc] at hd; simp only [Option.some.injEq] at hd; rw [← hd]; exact lin2_len _ _ _ _ _ l1 l2
      | some e =>
        rw [hDc] at hd; simp only [Option.some.injEq] at hd; rw [← hd]
        rw [axpy_length _ _ _ (by rw [h.Dc e hDc]; exact (lin2_len _ _ _ _ _ l1 l2).symm)]; exact lin2_len _ _ _ _ _ l1 l2
    · cases hd
  · intro d hd
    change d.length = a.Jd0.dims.1
    simp only [Args.reduced, Args.sig] at hd
    rw [hr.x.nd, hr.x.pd, hr.d, h.PdL, h.nPdU, hDd] at hd
    unfold negOmegaD at hd
    simp only at hd
    split at hd
    swap
    · cases hd
    simp only [Option.some.injEq] at hd
    rw [← hd]
    rcases sigTilde_cases _ a.δx _ C.2.2.2.1 hp.nd with ⟨w, e, wl, _⟩ | ⟨_, e⟩ <;>
    rcases sigTilde_cases _ a.δx _ C.2.2.2.2 hp.pd with ⟨w', e', wl', _⟩ | ⟨_, e'⟩ <;> rw [e, e'] <;> simp only
    · exact (ident_mult hh _ _ _ _ _ _ wl' (ident_mult hh _ _ _ _ _ _ wl (by simp)).1).1
    · exact (ident_mult hh _ _ _ _ _ _ wl (by simp)).1
    · exact (ident_mult hh _ _ _ _ _ _ wl' (by simp)).1
    · simp

/-- C37: the assembled vector solves the full restoration augmented system exactly when the vector returned by the original augmented
system solver solves the reduced system it was given. -/
theorem resto_elimination_equivalent (oldW : Mat K) (a : Args K) (h : a.OK) (hp : a.Pivots) (hf : a.W.FactorOne a.Wfac) (hDd : a.Dd = none)
    {rhs : RVec K} (hr : rhs.Dim a) {v : Aug K}
    (hv : v.x.length = a.Jc0.dims.2 ∧ v.s.length = a.Jd0.dims.1 ∧ v.c.length = a.Jc0.dims.1 ∧ v.d.length = a.Jd0.dims.1) :
    RestoSystem a (a.expand hom rhs v) rhs ↔
    ∀ i, i < (kkt oldW (a.reduced hom rhs)).dims.1 →
      mv (kkt oldW (a.reduced hom rhs)) v.flat i = (a.redRhs hom rhs).flat.getD i 0 := by
  have hv' : RedDim a v := ⟨hv.1, hv.2.1, hv.2.2.1, hv.2.2.2⟩
  have hR := redRhs_dim hh a h hp hr
  rw [kkt_iff oldW _ (reduced_args_ok hh oldW a h hp hDd hr) v (a.redRhs hom rhs) hv ⟨hR.x, hR.s, hR.c, hR.d⟩]
  exact elim_iff hh a h hp hf hDd hr hv'

/-- C37: `AugRestoSystemSolver::Solve`, with an original solver that on success has solved the system it was given, returns on success
the solution of the full restoration augmented system.  Missing from the full claim: `D_d ≠ NULL` (false, `resto_Dd_overwrites`; no caller
passes it) and a Hessian factor other than 1 with regularisation (false, `resto_factor_ignored`; the least-square multiplier estimate does). -/
theorem resto_solve_exact_partial (oldW : Mat K) (inner : AugArgs K → Aug K → Bool → Int → Status × Aug K)
    (hin : ∀ b r c n, (inner b r c n).1 = .success →
      (inner b r c n).2.x.length = b.Jc.dims.2 ∧ (inner b r c n).2.s.length = b.Jd.dims.1 ∧ (inner b r c n).2.c.length = b.Jc.dims.1 ∧
      (inner b r c n).2.d.length = b.Jd.dims.1 ∧
      ∀ i, i < (kkt oldW b).dims.1 → mv (kkt oldW b) (inner b r c n).2.flat i = r.flat.getD i 0)
    (a : Args K) (h : a.OK) (hp : a.Pivots) (hf : a.W.FactorOne a.Wfac) (hDd : a.Dd = none) {rhs old : RVec K} (hr : rhs.Dim a)
    (check : Bool) (negEV : Int) (hs : (solve hom inner a rhs old check negEV).1 = .success) :
    RestoSystem a (solve hom inner a rhs old check negEV).2 rhs ∧
    ∀ i, i < (kkt oldW a.full).dims.1 →
      mv (kkt oldW a.full) (solve hom inner a rhs old check negEV).2.aug.flat i = rhs.aug.flat.getD i 0 := by
  have hst : (inner (a.reduced hom rhs) (a.redRhs hom rhs) check negEV).1 = .success := by
    unfold solve at hs
    simp only at hs
    cases e : (inner (a.reduced hom rhs) (a.redRhs hom rhs) check negEV).1 <;> rw [e] at hs <;> simp_all
  obtain ⟨h1, h2, h3, h4, h5⟩ := hin _ _ _ _ hst
  have he : (solve hom inner a rhs old check negEV).2 = a.expand hom rhs (inner (a.reduced hom rhs) (a.redRhs hom rhs) check negEV).2 := by
    unfold solve
    simp only
    rw [hst]
  have R := (resto_elimination_equivalent hh oldW a h hp hf hDd hr ⟨h1, h2, h3, h4⟩).2 h5
  rw [he]
  exact ⟨R, (resto_matrix oldW a h _ rhs (expand_dim hh a h hp hr ⟨h1, h2, h3, h4⟩) hr).2 R⟩

omit hh in
/-- C37: a failure of the original solver is reported unchanged and leaves the slack blocks alone; the inertia request is passed on. -/
theorem resto_solve_failure (inner : AugArgs K → Aug K → Bool → Int → Status × Aug K) (a : Args K) (rhs old : RVec K) (check : Bool)
    (negEV : Int) (hs : (inner (a.reduced hom rhs) (a.redRhs hom rhs) check negEV).1 ≠ .success) :
    (solve hom inner a rhs old check negEV).1 = (inner (a.reduced hom rhs) (a.redRhs hom rhs) check negEV).1 ∧
    (solve hom inner a rhs old check negEV).2.x.nc = old.x.nc ∧ (solve hom inner a rhs old check negEV).2.x.pc = old.x.pc ∧
    (solve hom inner a rhs old check negEV).2.x.nd = old.x.nd ∧ (solve hom inner a rhs old check negEV).2.x.pd = old.x.pd := by
  unfold solve
  simp only
  cases e : (inner (a.reduced hom rhs) (a.redRhs hom rhs) check negEV).1 <;> simp_all

/-- C36 and C37 together: for a restoration-phase iterate, whose Hessian and Jacobians are the block matrices of the restoration problem,
the step that `PDFullSpaceSolver` stores after the restoration augmented system solver returned an exact solution of its *reduced* system
solves the full 8-block primal-dual system of the restoration problem. -/
theorem resto_step_exact (oldW : Mat K) {D : Data K} (h : D.OK) (δ : Deltas K) (a : Args K) (ha : a.OK)
    (hW : D.W = restoW a.W a.Jc0.dims.2 a.Jc0.dims.1 a.Jd0.dims.1) (hJc : D.Jc = restoJc a.Jc0 a.Jd0.dims.1)
    (hJd : D.Jd = restoJd a.Jd0 a.PdL a.nPdU a.Jc0.dims.1) (σ : X5 K) (hσ : σ.flat = sigmaX hom D)
    (hargs : a.Wfac = 1 ∧ a.Dx = some σ ∧ a.δx = δ.x ∧ a.Ds = some (sigmaS hom D) ∧ a.δs = δ.s ∧ a.Dc = none ∧ a.δc = δ.c ∧ a.Dd = none ∧
      a.δd = δ.d) (hp : a.Pivots)
    {rhs res : Iter K} (hr : rhs.Dim D) (hres : res.Dim D) (b : RVec K) (hb : b.Dim a) (hbr : b.aug = augRhs hom D rhs) {v : Aug K}
    (hv : v.x.length = a.Jc0.dims.2 ∧ v.s.length = a.Jd0.dims.1 ∧ v.c.length = a.Jc0.dims.1 ∧ v.d.length = a.Jd0.dims.1)
    (hK : ∀ i, i < (kkt oldW (a.reduced hom b)).dims.1 →
      mv (kkt oldW (a.reduced hom b)) v.flat i = (a.redRhs hom b).flat.getD i 0) :
    FullSystem D δ (finish hom D 1 0 rhs res (a.expand hom b v).aug) rhs := by
  obtain ⟨q1, q2, q3, q4, q5, q6, q7, q8, q9⟩ := hargs
  have hf : a.W.FactorOne a.Wfac := by
    cases a.W with
    | exact _ _ _ _ => exact Or.inl q1
    | limited _ => trivial
  have R := (resto_elimination_equivalent hh oldW a ha hp hf q8 hb hv).2 hK
  have hd := expand_dim hh a ha hp hb ⟨hv.1, hv.2.1, hv.2.2.1, hv.2.2.2⟩
  have S := (resto_matrix D.W a ha _ b hd hb).2 R
  have hfull : a.full = solveArgs hom D δ := by
    unfold Args.full solveArgs
    rw [q1, q2, q3, q4, q5, q6, q7, q8, q9, hW, hJc, hJd, ← hσ]
    rfl
  rw [hfull, hbr] at S
  refine elimination_exact hh h δ hr hres ?_ S
  have W1 : D.W.dims.1 = a.Jc0.dims.2 + (a.Jc0.dims.1 + (a.Jc0.dims.1 + (a.Jd0.dims.1 + a.Jd0.dims.1))) := by
    rw [hW]; simp [restoW, Mat.dims, xdims]
  refine ⟨?_, ?_, ?_, ?_⟩
  · rw [W1]; simp [RVec.aug, X5.flat, hd.x.x, hd.x.nc, hd.x.pc, hd.x.nd, hd.x.pd]
  · rw [hJd, full_dims_d]; exact hd.s
  · rw [hJc, full_dims]; exact hd.c
  · rw [hJd, full_dims_d]; exact hd.d

end Field

/-- the pivots of an interior-point iterate: positive diagonals and a nonnegative perturbation. -/
theorem pivots_of_pos {K : Type} [Field K] [LinearOrder K] [IsStrictOrderedRing K] (a : Args K) (σ : X5 K) (hσ : a.Dx = some σ)
    (hd : σ.Dim a) (h0 : 0 ≤ a.δx) (hpos : ∀ v, v ∈ σ.nc ∨ v ∈ σ.pc ∨ v ∈ σ.nd ∨ v ∈ σ.pd → 0 < v) : a.Pivots := by
  have key : ∀ (l : List K) (i : Nat), i < l.length → (∀ v ∈ l, 0 < v) → l.getD i 0 + a.δx ≠ 0 := by
    intro l i hi hl
    have : l.getD i 0 = l[i] := by simp [List.getD_eq_getElem?_getD, hi]
    have h1 := hl l[i] (List.getElem_mem hi)
    rw [this]
    exact (by linarith : 0 < l[i] + a.δx).ne'
  refine ⟨fun i hi => ?_, fun i hi => ?_, fun i hi => ?_, fun i hi => ?_⟩ <;> simp only [od, hσ, Option.map_some, Option.getD_some]
  · exact key _ i (by rw [hd.nc]; exact hi) (fun v hv => hpos v (Or.inl hv))
  · exact key _ i (by rw [hd.pc]; exact hi) (fun v hv => hpos v (Or.inr (Or.inl hv)))
  · exact key _ i (by rw [hd.nd]; exact hi) (fun v hv => hpos v (Or.inr (Or.inr (Or.inl hv))))
  · exact key _ i (by rw [hd.pd]; exact hi) (fun v hv => hpos v (Or.inr (Or.inr (Or.inr hv))))

/-! ### Where the elimination is not exact -/

/-- one variable, no equality, one inequality constraint `d(x) = x`, with a diagonal `D_d = -1`. -/
def exDd : Args ℚ where
  W := .exact (.symT 1 [⟨1, 1, 1⟩]) 1 0 [1]
  Wfac := 1
  Dx := some ⟨[1], [], [], [1], [1]⟩
  δx := 0
  Ds := some [1]
  δs := 0
  Jc0 := .genT 0 1 []
  Dc := none
  δc := 0
  Jd0 := .genT 1 1 [⟨1, 1, 1⟩]
  PdL := .ident 1 1
  nPdU := .ident 1 (-1)
  Dd := some [-1]
  δd := 0

/-- the right-hand side with first component 1 in row d. -/
def exRhs : RVec ℚ := ⟨⟨[0], [], [], [0], [0]⟩, [0], [], [1]⟩

theorem exDd_ok : exDd.OK := by
  refine ⟨⟨rfl, rfl⟩, rfl, rfl, rfl, ?_, ?_, ?_, ?_⟩
  · intro d hd; cases hd; exact ⟨rfl, rfl, rfl, rfl, rfl⟩
  · intro d hd; cases hd; rfl
  · intro d hd; cases hd
  · intro d hd; cases hd; rfl

/-- C37 (negation for `D_d ≠ NULL`): `Neg_Omega_d_plus_D_d` copies `D_d` over the contribution of the eliminated slacks
(IpAugRestoSystemSolver.cpp:398-401), so an exact solution of the reduced system is not a solution of the restoration system. -/
theorem resto_Dd_overwrites : ∃ v : Aug ℚ, (v.x.length = 1 ∧ v.s.length = 1 ∧ v.c.length = 0 ∧ v.d.length = 1) ∧
    exDd.OK ∧ exDd.Pivots ∧ exDd.W.FactorOne exDd.Wfac ∧ exRhs.Dim exDd ∧
    (∀ i, i < (kkt (.zeroSym 1) (exDd.reduced (fun _ => none) exRhs)).dims.1 →
      mv (kkt (.zeroSym 1) (exDd.reduced (fun _ => none) exRhs)) v.flat i = (exDd.redRhs (fun _ => none) exRhs).flat.getD i 0) ∧
    ¬ RestoSystem exDd (exDd.expand (fun _ => none) exRhs v) exRhs := by
  -- x = -d/2, s = d, (-1/2 - 1 - 1) d = 1
  refine ⟨⟨[1/5], [-2/5], [], [-2/5]⟩, ⟨rfl, rfl, rfl, rfl⟩, exDd_ok, ?_, Or.inl rfl, ⟨⟨rfl, rfl, rfl, rfl, rfl⟩, rfl, rfl, rfl⟩, ?_, ?_⟩
  · refine ⟨fun i hi => ?_, fun i hi => ?_, fun i hi => ?_, fun i hi => ?_⟩
    · exact absurd hi (Nat.not_lt_zero i)
    · exact absurd hi (Nat.not_lt_zero i)
    · have : i = 0 := by simp [exDd, Mat.dims] at hi; omega
      subst this; decide +kernel
    · have : i = 0 := by simp [exDd, Mat.dims] at hi; omega
      subst this; decide +kernel
  · intro i hi
    have hi : i < 3 := hi
    have : i = 0 ∨ i = 1 ∨ i = 2 := by omega
    rcases this with rfl | rfl | rfl <;> decide +kernel
  · intro R
    have := R.d 0 (by decide)
    revert this
    decide +kernel

/-- the call of `LeastSquareMultipliers` (IpLeastSquareMults.cpp:82) in the restoration phase: `W = uninitialized_h()`, factor 0, no
diagonals, `delta_x = delta_s = 1`. -/
def exLS : Args ℚ where
  W := uninitHess (.symT 1 []) [3]
  Wfac := 0
  Dx := none
  δx := 1
  Ds := none
  δs := 1
  Jc0 := .genT 1 1 [⟨1, 1, 1⟩]
  Dc := none
  δc := 0
  Jd0 := .genT 0 1 []
  PdL := .ident 0 1
  nPdU := .ident 0 (-1)
  Dd := none
  δd := 0

/-- a right-hand side for it. -/
def exLSrhs : RVec ℚ := ⟨⟨[4], [0], [0], [], []⟩, [], [0], []⟩

theorem exLS_ok : exLS.OK := by
  refine ⟨⟨rfl, rfl⟩, rfl, rfl, rfl, ?_, ?_, ?_, ?_⟩ <;> (intro d hd; cases hd)

/-- C37 (negation for `W_factor = 0`): the regularisation term of the restoration Hessian is added although the Hessian has factor 0, so the
multiplier estimate computed in the restoration phase is not the least-square estimate it is documented to be. -/
theorem resto_factor_ignored : ∃ v : Aug ℚ, (v.x.length = 1 ∧ v.s.length = 0 ∧ v.c.length = 1 ∧ v.d.length = 0) ∧
    exLS.OK ∧ exLS.Pivots ∧ exLS.Dd = none ∧ exLSrhs.Dim exLS ∧
    (∀ i, i < (kkt (.zeroSym 1) (exLS.reduced (fun _ => none) exLSrhs)).dims.1 →
      mv (kkt (.zeroSym 1) (exLS.reduced (fun _ => none) exLSrhs)) v.flat i = (exLS.redRhs (fun _ => none) exLSrhs).flat.getD i 0) ∧
    ¬ RestoSystem exLS (exLS.expand (fun _ => none) exLSrhs v) exLSrhs := by
  -- 4 x + y = 4, x - 2 y = 0
  refine ⟨⟨[8/9], [], [4/9], []⟩, ⟨rfl, rfl, rfl, rfl⟩, exLS_ok, ?_, rfl, ⟨⟨rfl, rfl, rfl, rfl, rfl⟩, rfl, rfl, rfl⟩, ?_, ?_⟩
  · refine ⟨fun i hi => ?_, fun i hi => ?_, fun i hi => ?_, fun i hi => ?_⟩
    · have : i = 0 := by simp [exLS, Mat.dims] at hi; omega
      subst this; decide +kernel
    · have : i = 0 := by simp [exLS, Mat.dims] at hi; omega
      subst this; decide +kernel
    · exact absurd hi (Nat.not_lt_zero i)
    · exact absurd hi (Nat.not_lt_zero i)
  · intro i hi
    have hi : i < 2 := hi
    have : i = 0 ∨ i = 1 := by omega
    rcases this with rfl | rfl <;> decide +kernel
  · intro R
    have := R.x 0 (by decide)
    revert this
    decide +kernel

/-! ### Non-vacuity -/

/-- an instance of the hypotheses of `resto_elimination_equivalent`: one equality, one inequality constraint, regularisation active. -/
def exArgs : Args ℚ where
  W := restoHess (.symT 1 [⟨1, 1, 2⟩]) 1 (1/2) [4]
  Wfac := 1
  Dx := some ⟨[1], [2], [3], [1], [4]⟩
  δx := 1
  Ds := some [1]
  δs := 0
  Jc0 := .genT 1 1 [⟨1, 1, 3⟩]
  Dc := none
  δc := 0
  Jd0 := .genT 1 1 [⟨1, 1, 1⟩]
  PdL := .ident 1 1
  nPdU := .ident 1 (-1)
  Dd := none
  δd := 0

example : exArgs.OK ∧ exArgs.Pivots ∧ exArgs.W.FactorOne exArgs.Wfac ∧ exArgs.Dd = none ∧
    (⟨⟨[1], [2], [3], [4], [5]⟩, [6], [7], [8]⟩ : RVec ℚ).Dim exArgs ∧
    (exArgs.reduced (fun _ => none) ⟨⟨[1], [2], [3], [4], [5]⟩, [6], [7], [8]⟩).Dc = some [-7/12] ∧
    (exArgs.reduced (fun _ => none) ⟨⟨[1], [2], [3], [4], [5]⟩, [6], [7], [8]⟩).Dd = some [-7/10] ∧
    (exArgs.reduced (fun _ => none) ⟨⟨[1], [2], [3], [4], [5]⟩, [6], [7], [8]⟩).Dx = some [3] := by
  refine ⟨⟨⟨rfl, rfl⟩, rfl, rfl, rfl, ?_, ?_, ?_, ?_⟩, ?_, Or.inl rfl, rfl, ⟨⟨rfl, rfl, rfl, rfl, rfl⟩, rfl, rfl, rfl⟩, ?_, ?_, ?_⟩
  · intro d hd; cases hd; exact ⟨rfl, rfl, rfl, rfl, rfl⟩
  · intro d hd; cases hd; rfl
  · intro d hd; cases hd
  · intro d hd; cases hd
  · exact pivots_of_pos exArgs _ rfl ⟨rfl, rfl, rfl, rfl, rfl⟩ (by decide +kernel) (by
      intro v hv; simp at hv; rcases hv with rfl | rfl | rfl | rfl <;> norm_num)
  · decide +kernel
  · decide +kernel
  · decide +kernel

end Verif.AugResto
