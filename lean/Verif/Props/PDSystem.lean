import Verif.Proof.PDSystem3
import Mathlib.Algebra.Order.Field.Rat

/-! # C36: the primal-dual system -/

namespace Verif.PDSystem
open Finset Verif.Matrix

set_option linter.unusedSectionVars false
set_option linter.unusedVariables false
set_option linter.unusedSimpArgs false

section Field
variable {K : Type} [Field K] [DecidableEq K] {hom : List K → Option K} (hh : HomOK hom)
include hh

/-- C36: if the linear solver solves `K v = b` exactly, `K` being the matrix and `b` the right-hand side that `SolveOnce` hands over, then
the vector that `SolveOnce(1, 0)` stores solves the full 8-block primal-dual system. -/
theorem elimination_exact {D : Data K} (h : D.OK) (δ : Deltas K) {rhs res : Iter K} (hr : rhs.Dim D) (hres : res.Dim D) {v : Aug K}
    (hv : v.Dim D)
    (hK : ∀ i, i < (kkt D.W (solveArgs hom D δ)).dims.1 →
      mv (kkt D.W (solveArgs hom D δ)) v.flat i = (augRhs hom D rhs).flat.getD i 0) :
    FullSystem D δ (finish hom D 1 0 rhs res v) rhs := by
  have hb := augRhs_dim hh h hr
  have hok : (solveArgs hom D δ).OK D.W := by
    refine ⟨?_, ?_, ?_, ?_, ?_, ?_⟩
    · change D.W.dims = (D.Jc.dims.2, D.Jc.dims.2)
      rw [h.Jcd]
      exact Prod.ext rfl h.Wd
    · change D.Jd.dims.2 = D.Jc.dims.2; rw [h.Jcd, h.Jdd]
    · rintro d hd; cases hd; change _ = D.Jc.dims.2; rw [sigmaX_len hh h, h.Jcd]
    · rintro d hd; cases hd; exact sigmaS_len hh h
    · intro d hd; cases hd
    · intro d hd; cases hd
  have hA := (kkt_iff D.W (solveArgs hom D δ) hok v (augRhs hom D rhs) ⟨hv.x.trans h.Jcd.symm, hv.s, hv.c, hv.d⟩
    ⟨hb.x.trans h.Jcd.symm, hb.s, hb.c, hb.d⟩).1 hK
  have hA' : SolvesAug D (sigmaX hom D) (sigmaS hom D) δ v (augRhs hom D rhs) := by
    have e : AugSystem D.Jc.dims.2 D.W 1 (sigmaX hom D) δ.x (sigmaS hom D) δ.s D.Jc [] δ.c D.Jd [] δ.d v (augRhs hom D rhs) := hA
    rw [h.Jcd] at e
    exact e
  have hF := (elim_iff hh h hr hres hv δ).2 hA'
  have hd := recover_dim hh h hr hres hv
  have hz : ∀ (a y : List K), a.length = y.length → Matrix.addOne 1 a 0 y = a := by
    intro a y hl
    simp only [Matrix.addOne, beq_self_eq_true, if_true, one_mul]
    apply List.ext_getElem <;> simp [hl]
  have : finish hom D 1 0 rhs res v = recover hom D rhs v res := by
    unfold finish Iter.addOne
    rw [hz _ _ (hd.x.trans hres.x.symm), hz _ _ (hd.s.trans hres.s.symm), hz _ _ (hd.yc.trans hres.yc.symm),
      hz _ _ (hd.yd.trans hres.yd.symm), hz _ _ (hd.zL.trans hres.zL.symm), hz _ _ (hd.zU.trans hres.zU.symm),
      hz _ _ (hd.vL.trans hres.vL.symm), hz _ _ (hd.vU.trans hres.vU.symm)]
  rw [this]
  exact hF

/-- C36: nothing is lost either: for the recovered vector the full system holds only if the augmented system does. -/
theorem elimination_equivalent {D : Data K} (h : D.OK) (δ : Deltas K) {rhs sol0 : Iter K} (hr : rhs.Dim D) (h0 : sol0.Dim D) {v : Aug K}
    (hv : v.Dim D) :
    FullSystem D δ (recover hom D rhs v sol0) rhs ↔ SolvesAug D (sigmaX hom D) (sigmaS hom D) δ v (augRhs hom D rhs) :=
  elim_iff hh h hr h0 hv δ

/-- C36: `ComputeResiduals` computes the residual of the full 8-block system at any vector. -/
theorem residuals_correct {D : Data K} (h : D.OK) (δ : Deltas K) {rhs res r0 : Iter K} (hr : rhs.Dim D) (hs : res.Dim D) (h0 : r0.Dim D) :
    IsResidual D δ res rhs (computeResiduals hom D δ rhs res r0) := (computeResiduals_ok hh h δ hr hs h0).2

/-- C36 (inexact solves): whatever the augmented system solver returns, the four complementarity blocks of the residual vanish and the
other four are the residual of the augmented system. -/
theorem residual_of_inexact_solve {D : Data K} (h : D.OK) (δ : Deltas K) {rhs sol0 r0 : Iter K} (hr : rhs.Dim D) (h0 : sol0.Dim D)
    (hr0 : r0.Dim D) {v : Aug K} (hv : v.Dim D) :
    let r := computeResiduals hom D δ rhs (recover hom D rhs v sol0) r0
    (∀ i, i < D.W.dims.1 → r.x.getD i 0 = mv D.W v.x i + ((sigmaX hom D).getD i 0 + δ.x) * v.x.getD i 0 + mtv D.Jc v.c i + mtv D.Jd v.d i
      - (augRhs hom D rhs).x.getD i 0) ∧
    (∀ i, i < D.Jd.dims.1 → r.s.getD i 0 = ((sigmaS hom D).getD i 0 + δ.s) * v.s.getD i 0 - v.d.getD i 0 - (augRhs hom D rhs).s.getD i 0) ∧
    (∀ i, i < D.Jc.dims.1 → r.yc.getD i 0 = mv D.Jc v.x i - δ.c * v.c.getD i 0 - rhs.yc.getD i 0) ∧
    (∀ i, i < D.Jd.dims.1 → r.yd.getD i 0 = mv D.Jd v.x i - v.s.getD i 0 - δ.d * v.d.getD i 0 - rhs.yd.getD i 0) ∧
    (∀ i, i < D.PxL.dims.2 → r.zL.getD i 0 = 0) ∧ (∀ i, i < D.PxU.dims.2 → r.zU.getD i 0 = 0) ∧
    (∀ i, i < D.PdL.dims.2 → r.vL.getD i 0 = 0) ∧ (∀ i, i < D.PdU.dims.2 → r.vU.getD i 0 = 0) := by
  intro r
  have hR := (computeResiduals_ok hh h δ hr (recover_dim hh h hr h0 hv) hr0).2
  refine ⟨fun i hi => ?_, fun i hi => ?_, fun i hi => hR.yc i hi, fun i hi => hR.yd i hi, fun i hi => ?_, fun i hi => ?_, fun i hi => ?_, fun i hi => ?_⟩
  · refine (hR.x i hi).trans ((full_x_iff hh h hr h0 hv δ.x i hi).trans ?_); ring
  · exact (hR.s i hi).trans (full_s_iff hh h hr h0 hv δ.s i hi)
  · refine (hR.zL i hi).trans ?_
    rw [recover_zL hh h hr h0 hv i hi]
    change _ + D.zL.getD i 0 * mtv D.PxL v.x i - _ = _
    have := h.sxL0 i hi
    field_simp
    ring
  · refine (hR.zU i hi).trans ?_
    rw [recover_zU hh h hr h0 hv i hi]
    change _ - D.zU.getD i 0 * mtv D.PxU v.x i - _ = _
    have := h.sxU0 i hi
    field_simp
    ring
  · refine (hR.vL i hi).trans ?_
    rw [recover_vL hh h hr h0 hv i hi]
    change _ + D.vL.getD i 0 * mtv D.PdL v.s i - _ = _
    have := h.ssL0 i hi
    field_simp
    ring
  · refine (hR.vU i hi).trans ?_
    rw [recover_vU hh h hr h0 hv i hi]
    change _ - D.vU.getD i 0 * mtv D.PdU v.s i - _ = _
    have := h.ssU0 i hi
    field_simp
    ring

omit hh in
/-- the matrix handed to the linear solver, for all arguments of `AugSystemSolver::Solve` (with or without `W`, `D_x`, `D_s`, `D_c`,
`D_d`), represents the augmented system. -/
theorem kkt_is_augmented_system (oldW : Mat K) (a : AugArgs K) (h : a.OK oldW) (v r : Aug K)
    (hv : v.x.length = a.Jc.dims.2 ∧ v.s.length = a.Jd.dims.1 ∧ v.c.length = a.Jc.dims.1 ∧ v.d.length = a.Jd.dims.1)
    (hr : r.x.length = a.Jc.dims.2 ∧ r.s.length = a.Jd.dims.1 ∧ r.c.length = a.Jc.dims.1 ∧ r.d.length = a.Jd.dims.1) :
    (∀ i, i < (kkt oldW a).dims.1 → mv (kkt oldW a) v.flat i = r.flat.getD i 0) ↔
    AugSystem a.Jc.dims.2 (a.W.getD oldW) (if a.W.isSome then a.Wfac else 0) (a.Dx.getD []) a.δx (a.Ds.getD []) a.δs a.Jc (a.Dc.getD [])
      a.δc a.Jd (a.Dd.getD []) a.δd v r := kkt_iff oldW a h v r hv hr

omit hh [DecidableEq K] in
/-- the selection property holds for expansion matrices. -/
theorem expansion_selects (r : Nat) (pos : List Nat) : Selects (.expansion r pos : Mat K) := by
  intro i k j _ _ _
  simp only [ent]
  by_cases hik : i = k
  · subst hik; by_cases h : pos[j]? = some i <;> simp [h]
  · rw [if_neg hik]
    by_cases h : pos[j]? = some i
    · have : ¬ pos[j]? = some k := by rw [h]; simpa using hik
      simp [this]
    · simp [h]

omit hh [DecidableEq K] in
/-- … for the identity … -/
theorem identity_selects (n : Nat) : Selects (.ident n 1 : Mat K) := by
  intro i k j _ _ _
  simp only [ent]
  by_cases hik : i = k
  · subst hik; by_cases h : i = j <;> simp [h]
  · rw [if_neg hik]
    by_cases h : i = j
    · have : ¬ k = j := fun e => hik (h.trans e.symm)
      simp [this]
    · simp [h]

omit hh [DecidableEq K] in
/-- … and for block matrices of such with at most one block per block column (the bound matrices of the restoration problem). -/
theorem compound_selects (rd cd : List Nat) (space set : Nat → Nat → Bool) (comp : Nat → Nat → Mat K)
    (hw : WF (.compound rd cd space set comp : Mat K)) (h1 : ∀ i i' j, set i j = true → set i' j = true → i = i')
    (hs : ∀ i j, i < rd.length → j < cd.length → set i j = true → Selects (comp i j)) :
    Selects (.compound rd cd space set comp : Mat K) := by
  intro i k j hi hk hj
  simp only [Mat.dims] at hi hk hj
  obtain ⟨li1, li2, li3⟩ := locate_lt rd i hi
  obtain ⟨lk1, lk2, lk3⟩ := locate_lt rd k hk
  obtain ⟨lj1, lj2, lj3⟩ := locate_lt cd j hj
  simp only [ent]
  by_cases si : set (locate rd i).1 (locate cd j).1 = true
  · rw [if_pos si]
    by_cases sk : set (locate rd k).1 (locate cd j).1 = true
    · have hb := h1 _ _ _ si sk
      rw [if_pos sk, ← hb]
      have hd := (hw.1 _ _ li1 lj1 si).2.2
      have := hs _ _ li1 lj1 si (locate rd i).2 (locate rd k).2 (locate cd j).2 (by rw [hd]; exact li2) (by rw [hd, hb]; exact lk2)
        (by rw [hd]; exact lj2)
      rw [this]
      by_cases hik : i = k
      · subst hik; simp
      · rw [if_neg hik, if_neg]
        intro e
        apply hik
        have := congrArg (off rd) hb
        omega
    · rw [if_neg sk, mul_zero]
      by_cases hik : i = k
      · subst hik; exact absurd si sk
      · rw [if_neg hik]
  · rw [if_neg si, zero_mul]; simp

end Field

/-! ## Iterative refinement -/

section Solve
variable {N : Type} [Zero N] [One N] [Add N] [Sub N] [Mul N] [Neg N] [Div N] [BEq N] [LT N] [DecidableLT N] {S : Type}

theorem rounds_term (hom : List N → Option N) (D : Data N) {o : Opts N} (ho : o.minRef ≤ o.maxRef) {E : Env N S} (hE : E.Mono)
    (rhs : Iter N) (α β : N) (inexact : Bool) (resIn : Iter N) : ∀ (fuel : Nat) (improveSol pretend last : Bool) (res : Iter N) (st : SSt S),
      (1 ≤ fuel ∧ last = true) ∨ (2 ≤ fuel ∧ improveSol = false ∧ st.uptodate = true ∧ st.improved = true) ∨ 3 ≤ fuel →
      match rounds hom D o E rhs α β inexact resIn fuel improveSol pretend last res st with
      | .running => False
      | .ok _ st' => st'.calls ≤ st.calls + fuel * (o.maxRef + 2)
      | _ => True := by
  intro fuel
  induction fuel with
  | zero => intro i p l r s h; omega
  | succ fuel ih =>
    intro improveSol pretend last res st hfuel
    unfold rounds
    have hfirst : ∀ q, (if improveSol = true then some (res, st) else solveOnce hom D E pretend 1 0 rhs res st) = some q →
        q.2.calls ≤ st.calls + 1 ∧ (improveSol = false → st.uptodate = true → st.improved = true → q.2.uptodate = true ∧ q.2.improved = true) := by
      intro q hq
      by_cases hi : improveSol = true
      · rw [if_pos hi] at hq
        cases hq
        exact ⟨by simp, fun h => by simp [hi] at h⟩
      · rw [if_neg hi] at hq
        have := solveOnce_state hE hq
        exact ⟨by omega, fun _ h1 h2 => ⟨this.1, this.2.2 h1 h2⟩⟩
    cases hq : (if improveSol = true then some (res, st) else solveOnce hom D E pretend 1 0 rhs res st) with
    | none => simp
    | some q =>
      obtain ⟨res1, st1⟩ := q
      obtain ⟨hc1, hf1⟩ := hfirst _ hq
      simp only at hc1 hf1
      simp only
      have hmul : (fuel + 1) * (o.maxRef + 2) = fuel * (o.maxRef + 2) + (o.maxRef + 2) := by rw [Nat.succ_mul]
      cases inexact
      case true =>
        simp only [if_true]
        omega
      case false =>
        simp only [Bool.false_eq_true, if_false]
        have hro := refine_ok hom D ho hE rhs last (o.maxRef + 2) 0
          (residualRatio o.maxCond rhs res1 (computeResiduals hom D (E.deltas st1.env) rhs res1 res1))
          (residualRatio o.maxCond rhs res1 (computeResiduals hom D (E.deltas st1.env) rhs res1 res1)) res1
          (computeResiduals hom D (E.deltas st1.env) rhs res1 res1) st1 (by omega) (by omega) (fun h => by omega)
        revert hro
        cases refine hom D o E rhs last (o.maxRef + 2) 0
          (residualRatio o.maxCond rhs res1 (computeResiduals hom D (E.deltas st1.env) rhs res1 res1))
          (residualRatio o.maxCond rhs res1 (computeResiduals hom D (E.deltas st1.env) rhs res1 res1)) res1
          (computeResiduals hom D (E.deltas st1.env) rhs res1 res1) st1 with
        | inl oc => intro h; simp only at h; subst h; simp
        | inr e =>
          simp only
          intro ⟨h1, h2, h3, h4, h5, h6, h7⟩
          by_cases hd : (!e.resolve && !e.pretend) = true
          · rw [if_pos hd]
            simp only
            omega
          · rw [if_neg hd]
            have hrec := ih false e.pretend e.last e.res e.st (by
              by_cases hl : last = true
              · have := h1 hl; simp [this.1, this.2] at hd
              · by_cases hres : e.resolve = true
                · right
                  rcases hfuel with hA | hA | hA
                  · exact absurd hA.2 hl
                  · have := hf1 hA.2.1 hA.2.2.1 hA.2.2.2
                    have := h2 this.1 this.2
                    simp [hres] at this
                  · left
                    exact ⟨by omega, rfl, (h4 hres).2, (h4 hres).1⟩
                · left
                  have hp : e.pretend = true := by
                    cases hp : e.pretend
                    · simp [hp] at hd; exact absurd hd hres
                    · rfl
                  rcases hfuel with hA | hA | hA
                  · exact absurd hA.2 hl
                  · exact ⟨by omega, h3 hp⟩
                  · exact ⟨by omega, h3 hp⟩)
            revert hrec
            cases rounds hom D o E rhs α β false resIn fuel false e.pretend e.last e.res e.st <;> simp
            intro h
            omega

/-- C36: `Solve` always ends, after at most `3 (max_refinement_steps + 2)` solves with the linear solver - for every behaviour of the
linear solver and all number arithmetic (no laws are used, so NaN residuals are covered). -/
theorem solve_terminates (hom : List N → Option N) (D : Data N) {o : Opts N} (ho : o.minRef ≤ o.maxRef) {E : Env N S} (hE : E.Mono)
    (α β : N) (rhs res : Iter N) (inexact improveSol : Bool) (st : SSt S) :
    match solve hom D o E α β rhs res inexact improveSol st with
    | .running => False
    | .ok _ st' => st'.calls ≤ st.calls + 3 * (o.maxRef + 2)
    | _ => True :=
  rounds_term hom D ho hE rhs α β inexact res 3 improveSol false false res st (Or.inr (Or.inr (by omega)))

/-- what the solver sees at the end of a refinement loop: the residual ratio of the vector it holds. -/
def RatioAt (hom : List N → Option N) (D : Data N) (o : Opts N) (E : Env N S) (rhs r : Iter N) (st : SSt S) (q : N) : Prop :=
  ∃ r0, q = residualRatio o.maxCond rhs r (computeResiduals hom D (E.deltas st.env) rhs r r0)

theorem solveOnce_pretends {hom : List N → Option N} {D : Data N} {E : Env N S} {p : Bool} {α β : N} {rhs res : Iter N}
    {st : SSt S} {r : Iter N × SSt S} (h : solveOnce hom D E p α β rhs res st = some r) :
    r.2.pretends = if p then st.pretends + 1 else st.pretends := by
  unfold solveOnce at h
  simp only at h
  split at h
  · rename_i hc
    simp only [Option.map_eq_some_iff] at h
    obtain ⟨q, hq, rfl⟩ := h
    simp at hc
    simp [hc.2]
  · simp only [Option.map_eq_some_iff] at h
    obtain ⟨q, hq, rfl⟩ := h
    rfl

/-- asking for a better-quality resolve does not count as pretending. -/
theorem refine_last (hom : List N → Option N) (D : Data N) {o : Opts N} {E : Env N S} (rhs : Iter N)
    (last : Bool) : ∀ (fuel num : Nat) (ratio ratioOld : N) (res resid : Iter N) (st : SSt S) (e : RefEnd N S),
      refine hom D o E rhs last fuel num ratio ratioOld res resid st = .inr e → e.resolve = true → last = false → ¬ e.last = true := by
  intro fuel
  induction fuel with
  | zero => intro num ratio ratioOld res resid st e h; simp [refine] at h
  | succ fuel ih =>
    intro num ratio ratioOld res resid st e h hr hl
    unfold refine at h
    by_cases hc : (num < o.minRef || decide (o.ratioMax < ratio)) = true
    · rw [if_pos hc] at h
      cases hs : solveOnce hom D E false (-1) 1 resid res st with
      | none => rw [hs] at h; simp at h
      | some q =>
        obtain ⟨res', st'⟩ := q
        rw [hs] at h
        simp only at h
        split at h
        · injection h with h
          subst h
          revert hr
          simp only
          unfold giveUp
          subst hl
          cases st'.improved <;> simp
        · exact ih _ _ _ _ _ _ e h hr hl
    · rw [if_neg hc] at h
      injection h with h
      subst h
      simp at hr

/-- the ratio of the vector the loop ends with: small enough, or the loop gave up. -/
theorem refine_accept (hom : List N → Option N) (D : Data N) {o : Opts N} {E : Env N S}
    (hq : ∀ st, E.deltas (E.increaseQuality st).2 = E.deltas st) (rhs : Iter N)
    (last : Bool) : ∀ (fuel num : Nat) (ratio ratioOld : N) (res resid : Iter N) (st : SSt S) (e : RefEnd N S),
      RatioAt hom D o E rhs res st ratio →
      refine hom D o E rhs last fuel num ratio ratioOld res resid st = .inr e →
      RatioAt hom D o E rhs e.res e.st e.ratio ∧ e.st.pretends = st.pretends ∧ o.minRef ≤ e.steps ∧
      (¬ o.ratioMax < e.ratio ∨ (e.resolve = false → e.pretend = false → last = true ∨ e.ratio < o.ratioSing)) := by
  intro fuel
  induction fuel with
  | zero => intro num ratio ratioOld res resid st e _ h; simp [refine] at h
  | succ fuel ih =>
    intro num ratio ratioOld res resid st e hr h
    unfold refine at h
    by_cases hc : (num < o.minRef || decide (o.ratioMax < ratio)) = true
    · rw [if_pos hc] at h
      cases hs : solveOnce hom D E false (-1) 1 resid res st with
      | none => rw [hs] at h; simp at h
      | some q =>
        obtain ⟨res', st'⟩ := q
        rw [hs] at h
        have hp := solveOnce_pretends hs
        simp only [Bool.false_eq_true, if_false] at hp
        simp only at h
        split at h
        · rename_i hcond
          injection h with h
          subst h
          simp only
          have g := giveUp_flags o E (residualRatio o.maxCond rhs res' (computeResiduals hom D (E.deltas st'.env) rhs res' resid)) last st'
          simp only at g
          have hgp : (giveUp o E (residualRatio o.maxCond rhs res' (computeResiduals hom D (E.deltas st'.env) rhs res' resid)) last st').2.2.2.pretends
              = st'.pretends ∧ E.deltas (giveUp o E (residualRatio o.maxCond rhs res' (computeResiduals hom D (E.deltas st'.env) rhs res' resid))
                last st').2.2.2.env = E.deltas st'.env := by
            unfold giveUp
            cases last <;> cases st'.improved <;> simp [hq]
          refine ⟨⟨resid, by rw [hgp.2]⟩, by rw [hgp.1, hp], ?_, Or.inr (fun h1 h2 => g.2.2.2.2.2.2.1 h2 h1)⟩
          simp at hcond
          omega
        · have := ih _ _ _ _ _ _ e ⟨resid, rfl⟩ h
          exact ⟨this.1, this.2.1.trans hp, this.2.2⟩
    · rw [if_neg hc] at h
      injection h with h
      subst h
      simp at hc
      exact ⟨hr, rfl, hc.1, Or.inl hc.2⟩

theorem rounds_accept (hom : List N → Option N) (D : Data N) {o : Opts N} {E : Env N S}
    (hq : ∀ st, E.deltas (E.increaseQuality st).2 = E.deltas st) (hE : E.Mono) (ho : o.minRef ≤ o.maxRef)
    (rhs : Iter N) (α β : N) (resIn : Iter N) (p0 : Nat) : ∀ (fuel : Nat) (improveSol pretend last : Bool) (res : Iter N) (st : SSt S)
      (out : Iter N) (st' : SSt S), (last = true → (pretend = true ∧ improveSol = false) ∨ p0 < st.pretends) → p0 ≤ st.pretends →
      rounds hom D o E rhs α β false resIn fuel improveSol pretend last res st = .ok out st' →
      ∃ r q, out = (let a := if α == 0 then r else r.scal α; if β == 0 then a else a.axpy β resIn) ∧ RatioAt hom D o E rhs r st' q ∧
        (¬ o.ratioMax < q ∨ q < o.ratioSing ∨ p0 < st'.pretends) := by
  intro fuel
  induction fuel with
  | zero => intro i p l r s out st' _ _ h; simp [rounds] at h
  | succ fuel ih =>
    intro improveSol pretend last res st out st' hl hp0 h
    unfold rounds at h
    cases hq1 : (if improveSol = true then some (res, st) else solveOnce hom D E pretend 1 0 rhs res st) with
    | none => rw [hq1] at h; simp at h
    | some q =>
      obtain ⟨res1, st1⟩ := q
      rw [hq1] at h
      simp only [Bool.false_eq_true, if_false] at h
      have hp1 : (last = true → p0 < st1.pretends) ∧ p0 ≤ st1.pretends := by
        by_cases hi : improveSol = true
        · rw [if_pos hi] at hq1
          injection hq1 with hq1
          injection hq1 with h1 h2
          subst h2
          exact ⟨fun h => (hl h).elim (fun h => by simp [hi] at h) id, hp0⟩
        · rw [if_neg hi] at hq1
          have := solveOnce_pretends hq1
          simp only at this
          refine ⟨fun h => ?_, ?_⟩
          · rcases hl h with h | h
            · rw [this, h.1]; simp; omega
            · rw [this]; split <;> omega
          · rw [this]; split <;> omega
      cases hrf : refine hom D o E rhs last (o.maxRef + 2) 0
          (residualRatio o.maxCond rhs res1 (computeResiduals hom D (E.deltas st1.env) rhs res1 res1))
          (residualRatio o.maxCond rhs res1 (computeResiduals hom D (E.deltas st1.env) rhs res1 res1)) res1
          (computeResiduals hom D (E.deltas st1.env) rhs res1 res1) st1 with
      | inl oc =>
        have hro := refine_ok hom D ho hE rhs last (o.maxRef + 2) 0
          (residualRatio o.maxCond rhs res1 (computeResiduals hom D (E.deltas st1.env) rhs res1 res1))
          (residualRatio o.maxCond rhs res1 (computeResiduals hom D (E.deltas st1.env) rhs res1 res1)) res1
          (computeResiduals hom D (E.deltas st1.env) rhs res1 res1) st1 (by omega) (by omega) (fun h => by omega)
        rw [hrf] at hro h
        simp only at hro h
        rw [hro] at h
        simp at h
      | inr e =>
        have ha := refine_accept hom D hq rhs last _ _ _ _ _ _ _ e ⟨res1, rfl⟩ hrf
        have hro := refine_ok hom D ho hE rhs last (o.maxRef + 2) 0
          (residualRatio o.maxCond rhs res1 (computeResiduals hom D (E.deltas st1.env) rhs res1 res1))
          (residualRatio o.maxCond rhs res1 (computeResiduals hom D (E.deltas st1.env) rhs res1 res1)) res1
          (computeResiduals hom D (E.deltas st1.env) rhs res1 res1) st1 (by omega) (by omega) (fun h => by omega)
        rw [hrf] at h hro
        simp only at h hro
        split at h
        · rename_i hd
          injection h with h1 h2
          subst h2
          refine ⟨e.res, e.ratio, h1.symm, ha.1, ?_⟩
          rcases ha.2.2.2 with h | h
          · exact Or.inl h
          · simp at hd
            rcases h hd.1 hd.2 with h | h
            · right; right; rw [ha.2.1]; exact hp1.1 h
            · right; left; exact h
        · rename_i hd
          refine ih _ _ _ _ _ _ _ (fun hlast => ?_) (by rw [ha.2.1]; exact hp1.2) h
          by_cases hll : last = true
          · right; rw [ha.2.1]; exact hp1.1 hll
          · left
            by_cases hpe : e.pretend = true
            · exact ⟨hpe, rfl⟩
            · exfalso
              have hres : e.resolve = true := by
                cases hre : e.resolve
                · simp [hre, hpe] at hd
                · rfl
              have := refine_last hom D rhs last _ _ _ _ _ _ _ e hrf
              exact this hres (by simpa using hll) hlast

/-- C36: what `Solve` accepts.  Unless the caller allows inexact solutions, the vector it returns (before scaling and adding) either has
a residual ratio that is not larger than `residual_ratio_max`, or refinement failed and the ratio is below `residual_ratio_singular`, or
the fallback of pretending a singular matrix has been used in this call. -/
theorem solve_accepts (hom : List N → Option N) (D : Data N) {o : Opts N} (ho : o.minRef ≤ o.maxRef) {E : Env N S} (hE : E.Mono)
    (hq : ∀ st, E.deltas (E.increaseQuality st).2 = E.deltas st) (α β : N) (rhs res : Iter N) (improveSol : Bool) (st : SSt S)
    {out : Iter N} {st' : SSt S} (h : solve hom D o E α β rhs res false improveSol st = .ok out st') :
    ∃ r q, out = (let a := if α == 0 then r else r.scal α; if β == 0 then a else a.axpy β res) ∧ RatioAt hom D o E rhs r st' q ∧
        (¬ o.ratioMax < q ∨ q < o.ratioSing ∨ st.pretends < st'.pretends) :=
  rounds_accept hom D hq hE ho rhs α β res st.pretends 3 improveSol false false res st out st' (fun h => by simp at h) (Nat.le_refl _) h

end Solve

section Exact
variable {K : Type} [Field K] [LinearOrder K] [IsStrictOrderedRing K] {S : Type} {hom : List K → Option K} (hh : HomOK hom)
include hh

omit hh [IsStrictOrderedRing K] in
theorem comb_list (α β : K) (d e : List K) (n : Nat) (hd : d.length = n) (he : e.length = n) :
    (if β = 0 then (if α = 0 then d else d.map (fun v => α * v)) else
      Matrix.axpy β e (if α = 0 then d else d.map (fun v => α * v))).length = n ∧
    ∀ i, i < n → (if β = 0 then (if α = 0 then d else d.map (fun v => α * v)) else
      Matrix.axpy β e (if α = 0 then d else d.map (fun v => α * v))).getD i 0 = (if α = 0 then 1 else α) * d.getD i 0 + β * e.getD i 0 := by
  have h1 : (if α = 0 then d else d.map (fun v => α * v)).length = n := by split <;> simp [hd]
  have h2 : ∀ i, i < n → (if α = 0 then d else d.map (fun v => α * v)).getD i 0 = (if α = 0 then 1 else α) * d.getD i 0 := by
    intro i hi
    by_cases ha : α = 0
    · simp [ha]
    · rw [if_neg ha, if_neg ha, getD_map' _ _ _ 0 (by omega)]
  by_cases hb : β = 0
  · subst hb
    simp only [if_true, zero_mul, add_zero]
    exact ⟨h1, h2⟩
  · rw [if_neg hb]
    refine ⟨by rw [axpy_length _ _ _ (by rw [h1, he]), h1], fun i hi => ?_⟩
    rw [axpy_get _ _ _ _ (by rw [h1, he]) (by rw [h1]; exact hi), h2 i hi]

omit hh [IsStrictOrderedRing K] in
theorem assemble_comb {D : Data K} (α β : K) {d e : Iter K} (hd : d.Dim D) (he : e.Dim D) :
    IsComb D (let a := if α = 0 then d else d.scal α; if β = 0 then a else a.axpy β e) (if α = 0 then 1 else α) d β e := by
  have key : (let a := if α = 0 then d else d.scal α; if β = 0 then a else a.axpy β e) =
      ⟨if β = 0 then (if α = 0 then d.x else d.x.map (fun v => α * v)) else Matrix.axpy β e.x (if α = 0 then d.x else d.x.map (fun v => α * v)),
       if β = 0 then (if α = 0 then d.s else d.s.map (fun v => α * v)) else Matrix.axpy β e.s (if α = 0 then d.s else d.s.map (fun v => α * v)),
       if β = 0 then (if α = 0 then d.yc else d.yc.map (fun v => α * v)) else Matrix.axpy β e.yc (if α = 0 then d.yc else d.yc.map (fun v => α * v)),
       if β = 0 then (if α = 0 then d.yd else d.yd.map (fun v => α * v)) else Matrix.axpy β e.yd (if α = 0 then d.yd else d.yd.map (fun v => α * v)),
       if β = 0 then (if α = 0 then d.zL else d.zL.map (fun v => α * v)) else Matrix.axpy β e.zL (if α = 0 then d.zL else d.zL.map (fun v => α * v)),
       if β = 0 then (if α = 0 then d.zU else d.zU.map (fun v => α * v)) else Matrix.axpy β e.zU (if α = 0 then d.zU else d.zU.map (fun v => α * v)),
       if β = 0 then (if α = 0 then d.vL else d.vL.map (fun v => α * v)) else Matrix.axpy β e.vL (if α = 0 then d.vL else d.vL.map (fun v => α * v)),
       if β = 0 then (if α = 0 then d.vU else d.vU.map (fun v => α * v)) else Matrix.axpy β e.vU (if α = 0 then d.vU else d.vU.map (fun v => α * v))⟩ := by
    by_cases ha : α = 0 <;> by_cases hb : β = 0 <;> simp [ha, hb, Iter.scal, Iter.axpy]
  rw [key]
  have c1 := comb_list α β d.x e.x _ hd.x he.x
  have c2 := comb_list α β d.s e.s _ hd.s he.s
  have c3 := comb_list α β d.yc e.yc _ hd.yc he.yc
  have c4 := comb_list α β d.yd e.yd _ hd.yd he.yd
  have c5 := comb_list α β d.zL e.zL _ hd.zL he.zL
  have c6 := comb_list α β d.zU e.zU _ hd.zU he.zU
  have c7 := comb_list α β d.vL e.vL _ hd.vL he.vL
  have c8 := comb_list α β d.vU e.vU _ hd.vU he.vU
  exact ⟨⟨c1.1, c2.1, c3.1, c4.1, c5.1, c6.1, c7.1, c8.1⟩, c1.2, c2.2, c3.2, c4.2, c5.2, c6.2, c7.2, c8.2⟩

/-- C36: with an exact linear solver `Solve` returns `α d + β res` for a solution `d` of the full primal-dual system with the perturbations
in force at the end.  If `α = 0` the code does not scale (IpPDFullSpaceSolver.cpp:349-352), so the factor is then 1. -/
theorem solve_exact {D : Data K} (h : D.OK) {E : Env K S} (hE : E.Exact hom D) {o : Opts K} (ho : 0 ≤ o.ratioMax) (α β : K)
    {rhs res : Iter K} (hr : rhs.Dim D) (hres : res.Dim D) (inexact : Bool) (st : SSt S) {out : Iter K} {st' : SSt S}
    (hout : solve hom D o E α β rhs res inexact false st = .ok out st') :
    ∃ d : Iter K, d.Dim D ∧ FullSystem D (E.deltas st'.env) d rhs ∧ IsComb D out (if α = 0 then 1 else α) d β res := by
  suffices hsuff : ∃ d : Iter K, d.Dim D ∧ FullSystem D (E.deltas st'.env) d rhs ∧
      out = (let a := if α = 0 then d else d.scal α; if β = 0 then a else a.axpy β res) by
    obtain ⟨d, hd, hF, ho⟩ := hsuff
    exact ⟨d, hd, hF, ho ▸ assemble_comb α β hd hres⟩
  unfold solve rounds at hout
  simp only [Bool.false_eq_true, if_false] at hout
  cases hq : solveOnce hom D E false 1 0 rhs res st with
  | none => simp [hq] at hout
  | some q =>
    obtain ⟨res1, st1⟩ := q
    rw [hq] at hout
    obtain ⟨d, hd, hF, hqd, hu, _⟩ := solveOnce_exact hh h hE hr hres hq
    simp only at hqd hF
    have hone : Iter.addOne 1 d 0 res = d := by
      have hz : ∀ (a y : List K), a.length = y.length → Matrix.addOne 1 a 0 y = a := by
        intro a y hl
        simp only [Matrix.addOne, beq_self_eq_true, if_true, one_mul]
        apply List.ext_getElem <;> simp [hl]
      unfold Iter.addOne
      rw [hz _ _ (hd.x.trans hres.x.symm), hz _ _ (hd.s.trans hres.s.symm), hz _ _ (hd.yc.trans hres.yc.symm),
        hz _ _ (hd.yd.trans hres.yd.symm), hz _ _ (hd.zL.trans hres.zL.symm), hz _ _ (hd.zU.trans hres.zU.symm),
        hz _ _ (hd.vL.trans hres.vL.symm), hz _ _ (hd.vU.trans hres.vU.symm)]
    rw [hone] at hqd
    subst hqd
    cases inexact
    case true =>
      simp only [if_true] at hout
      injection hout with e1 e2
      subst e2
      refine ⟨res1, hd, hF, ?_⟩
      rw [← e1]
      simp
    case false =>
      simp only [Bool.false_eq_true, if_false] at hout
      have hR := computeResiduals_ok hh h (E.deltas st1.env) hr hd hd
      have hz := ratio_zero o.maxCond hR.1 hF hR.2
      have hl := refine_exact_loop hh h hE ho hr false (o.maxRef + 2) 0
        (residualRatio o.maxCond rhs res1 (computeResiduals hom D (E.deltas st1.env) rhs res1 res1))
        (residualRatio o.maxCond rhs res1 (computeResiduals hom D (E.deltas st1.env) rhs res1 res1)) res1
        (computeResiduals hom D (E.deltas st1.env) rhs res1 res1) st1 hz hd hR.1 hu hF hR.2
      revert hl hout
      cases refine hom D o E rhs false (o.maxRef + 2) 0
        (residualRatio o.maxCond rhs res1 (computeResiduals hom D (E.deltas st1.env) rhs res1 res1))
        (residualRatio o.maxCond rhs res1 (computeResiduals hom D (E.deltas st1.env) rhs res1 res1)) res1
        (computeResiduals hom D (E.deltas st1.env) rhs res1 res1) st1 with
      | inl oc =>
        intro hout hl
        simp only at hl hout
        rcases hl with rfl | rfl <;> simp at hout
      | inr e =>
        simp only
        intro hout ⟨h1, h2, h3, h4⟩
        rw [if_pos (by simp [h1, h2])] at hout
        injection hout with e1 e2
        subst e2
        refine ⟨e.res, h3, h4, ?_⟩
        rw [← e1]
        simp

end Exact

/-! ## Non-vacuity: two variables, one equality, one inequality, bounds on each -/

/-- an iterate with W = [[2,1],[1,3]], Jc = [1 1], Jd = [0 2], x₀ bounded below, x₁ bounded above, s bounded below. -/
def exD : Data ℚ where
  W := .symT 2 [⟨1, 1, 2⟩, ⟨2, 1, 1⟩, ⟨2, 2, 3⟩]
  Jc := .genT 1 2 [⟨1, 1, 1⟩, ⟨1, 2, 1⟩]
  Jd := .genT 1 2 [⟨1, 2, 2⟩]
  PxL := .expansion 2 [0]
  PxU := .expansion 2 [1]
  PdL := .expansion 1 [0]
  PdU := .expansion 1 []
  zL := [1]
  zU := [2]
  vL := [3]
  vU := []
  sxL := [2]
  sxU := [4]
  ssL := [1/2]
  ssU := []

theorem exD_ok : exD.OK where
  W := by intro t ht; simp [exD] at ht; rcases ht with rfl | rfl | rfl <;> decide
  Wd := rfl
  Jc := by intro t ht; simp [exD] at ht; rcases ht with rfl | rfl <;> decide
  Jcd := rfl
  Jd := by intro t ht; simp [exD] at ht; subst ht; decide
  Jdd := rfl
  xL := ⟨by intro p hp; simp at hp; omega, trivial, trivial, expansion_selects _ _⟩
  xU := ⟨by intro p hp; simp at hp; omega, trivial, trivial, expansion_selects _ _⟩
  sL := ⟨by intro p hp; simp at hp; omega, trivial, trivial, expansion_selects _ _⟩
  sU := ⟨by intro p hp; simp at hp, trivial, trivial, expansion_selects _ _⟩
  xLd := rfl
  xUd := rfl
  sLd := rfl
  sUd := rfl
  zL := rfl
  zU := rfl
  vL := rfl
  vU := rfl
  sxL := rfl
  sxU := rfl
  ssL := rfl
  ssU := rfl
  sxL0 := by intro i hi; have : i = 0 := by simpa [exD, Mat.dims] using hi
             subst this; decide +kernel
  sxU0 := by intro i hi; have : i = 0 := by simpa [exD, Mat.dims] using hi
             subst this; decide +kernel
  ssL0 := by intro i hi; have : i = 0 := by simpa [exD, Mat.dims] using hi
             subst this; decide +kernel
  ssU0 := by intro i hi; simp [exD, Mat.dims] at hi

/-- right-hand side of the full system and its solution with perturbations (1, 1, 1/2, 1/4). -/
def exRhs : Iter ℚ := ⟨[-3, 5], [0], [-3/2], [-15/2], [11], [32], [19/2], []⟩
@[inherit_doc exRhs] def exSol : Iter ℚ := ⟨[1, -2], [3], [1], [2], [5], [7], [1], []⟩
@[inherit_doc exRhs] def exδ : Deltas ℚ := ⟨1, 1, 1/2, 1/4⟩

theorem exRhs_dim : exRhs.Dim exD := ⟨rfl, rfl, rfl, rfl, rfl, rfl, rfl, rfl⟩
theorem exSol_dim : exSol.Dim exD := ⟨rfl, rfl, rfl, rfl, rfl, rfl, rfl, rfl⟩

/-- a linear solver that knows two systems: the augmented one of the example and the one with zero right-hand side. -/
def exLin (b : Aug ℚ) : Option (Aug ℚ) :=
  if b = augRhs (fun _ => none) exD exRhs then some ⟨[1, -2], [3], [1], [2]⟩
  else if b = ⟨[0, 0], [0], [0], [0]⟩ then some ⟨[0, 0], [0], [0], [0]⟩
  else none

@[inherit_doc exLin] def exE : Env ℚ Unit where
  solveCur := fun st b => (exLin b).map (fun v => (v, st))
  solveNew := fun _ q st b => (exLin b).map (fun v => (v, q, st))
  deltas := fun _ => exδ
  increaseQuality := fun st => (true, st)

theorem exLin_exact (b v : Aug ℚ) (h : exLin b = some v) : v.Dim exD ∧
    ∀ i, i < (kkt exD.W (solveArgs (fun _ => none) exD exδ)).dims.1 →
      mv (kkt exD.W (solveArgs (fun _ => none) exD exδ)) v.flat i = b.flat.getD i 0 := by
  unfold exLin at h
  split at h
  · rename_i hb
    cases h
    subst hb
    refine ⟨⟨rfl, rfl, rfl, rfl⟩, fun i hi => ?_⟩
    have hi' : i < 5 := hi
    have : i = 0 ∨ i = 1 ∨ i = 2 ∨ i = 3 ∨ i = 4 := by omega
    rcases this with rfl | rfl | rfl | rfl | rfl <;> decide +kernel
  · split at h
    · rename_i hb
      cases h
      subst hb
      refine ⟨⟨rfl, rfl, rfl, rfl⟩, fun i hi => ?_⟩
      have hi' : i < 5 := hi
      have : i = 0 ∨ i = 1 ∨ i = 2 ∨ i = 3 ∨ i = 4 := by omega
      rcases this with rfl | rfl | rfl | rfl | rfl <;> decide +kernel
    · simp at h

theorem exE_exact : exE.Exact (fun _ => none) exD where
  cur := by
    intro st b v st' hb h
    simp only [exE, Option.map_eq_some_iff] at h
    obtain ⟨w, hw, he⟩ := h
    cases he
    exact ⟨(exLin_exact b v hw).1, rfl, (exLin_exact b v hw).2⟩
  new := by
    intro p q st b v q' st' hb h
    simp only [exE, Option.map_eq_some_iff] at h
    obtain ⟨w, hw, he⟩ := h
    cases he
    exact exLin_exact b v hw

/-- options of the example: one to ten refinement steps. -/
def exO : Opts ℚ := ⟨1, 10, 1/10000000000, 1/100000, 999999999/1000000000, 1000000⟩

/-- the run of the example, with α = 2, β = -1 and a nonzero vector to start with. -/
example : (match solve (fun _ => none) exD exO exE 2 (-1) exRhs exSol false false ⟨(), false, false, 0, 0⟩ with
    | .ok out st => decide (out = ⟨[1, -2], [3], [1], [2], [5], [7], [1], []⟩ ∧ st.calls = 2)
    | _ => false) = true := by decide +kernel

/-- `elimination_exact` applies to it … -/
example : FullSystem exD exδ (finish (fun _ => none) exD 1 0 exRhs exSol ⟨[1, -2], [3], [1], [2]⟩) exRhs :=
  elimination_exact (fun _ _ h => by simp at h) exD_ok exδ exRhs_dim exSol_dim ⟨rfl, rfl, rfl, rfl⟩
    (exLin_exact _ _ (by decide +kernel)).2

/-- … and the vector it describes is the expected one. -/
example : finish (fun _ => none) exD 1 0 exRhs exSol ⟨[1, -2], [3], [1], [2]⟩ = exSol := by decide +kernel

/-- the factor quirk: with α = 0 and β = 0 the result is the unscaled solution, not 0. -/
theorem alpha_zero_not_scaled : ∃ out st, solve (fun _ => none) exD exO exE 0 0 exRhs exSol false false ⟨(), false, false, 0, 0⟩ = .ok out st ∧
    out = exSol := by
  have h : (match solve (fun _ => none) exD exO exE 0 0 exRhs exSol false false ⟨(), false, false, 0, 0⟩ with
    | .ok out st => decide (out = exSol)
    | _ => false) = true := by decide +kernel
  cases hs : solve (fun _ => none) exD exO exE 0 0 exRhs exSol false false ⟨(), false, false, 0, 0⟩ with
  | ok out st => rw [hs] at h; exact ⟨out, st, rfl, by simpa using h⟩
  | failed => rw [hs] at h; simp at h
  | abort => rw [hs] at h; simp at h
  | running => rw [hs] at h; simp at h

/-- the hypotheses of `solve_terminates` and `solve_accepts` are met by it. -/
example : exE.Mono ∧ (∀ st, exE.deltas (exE.increaseQuality st).2 = exE.deltas st) ∧ exO.minRef ≤ exO.maxRef := by
  refine ⟨fun p st b r h => ?_, fun _ => rfl, by decide⟩
  simp only [exE, Option.map_eq_some_iff] at h
  obtain ⟨w, _, rfl⟩ := h
  rfl

/-- a bad linear solver: it always returns zero.  Refinement fails twice, the fallbacks are used, and `Solve` still ends. -/
def badE : Env ℚ Unit where
  solveCur := fun st _ => some (⟨[0, 0], [0], [0], [0]⟩, st)
  solveNew := fun _ q st _ => some (⟨[0, 0], [0], [0], [0]⟩, q, st)
  deltas := fun _ => exδ
  increaseQuality := fun st => (true, st)

example : (match solve (fun _ => none) exD exO badE 1 0 exRhs exSol false false ⟨(), false, false, 0, 0⟩ with
    | .ok _ st => decide (st.calls = 9 ∧ st.pretends = 1 ∧ st.improved = true)
    | _ => false) = true := by decide +kernel

end Verif.PDSystem
