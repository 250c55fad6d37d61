import Verif.Proof.PDSystem2
import Mathlib.Tactic.Linarith

/-! # The refinement loop of `PDFullSpaceSolver::Solve` -/

namespace Verif.PDSystem
open Finset Verif.Matrix

set_option linter.unusedSectionVars false
set_option linter.unusedVariables false
set_option linter.unusedSimpArgs false

section Term
variable {N : Type} [Zero N] [One N] [Add N] [Sub N] [Mul N] [Neg N] [Div N] [BEq N] [LT N] [DecidableLT N] {S : Type}

/-- the environment never forgets that quality was increased (IpPDFullSpaceSolver.cpp:555: only assigned when it is false). -/
def Env.Mono (E : Env N S) : Prop := ∀ p st b r, E.solveNew p true st b = some r → r.2.1 = true

theorem solveOnce_state {hom : List N → Option N} {D : Data N} {E : Env N S} (hE : E.Mono) {p : Bool} {α β : N} {rhs res : Iter N}
    {st : SSt S} {r : Iter N × SSt S} (h : solveOnce hom D E p α β rhs res st = some r) :
    r.2.uptodate = true ∧ r.2.calls = st.calls + 1 ∧ (st.uptodate = true → st.improved = true → r.2.improved = true) := by
  unfold solveOnce at h
  simp only at h
  split at h
  · simp only [Option.map_eq_some_iff] at h
    obtain ⟨q, hq, rfl⟩ := h
    exact ⟨rfl, rfl, fun h1 h2 => by simp [h1, h2]⟩
  · simp only [Option.map_eq_some_iff] at h
    obtain ⟨q, hq, rfl⟩ := h
    refine ⟨rfl, rfl, fun h1 h2 => ?_⟩
    rw [h1, h2] at hq
    exact hE _ _ _ _ hq

theorem giveUp_flags (o : Opts N) (E : Env N S) (ratio : N) (last : Bool) (st : SSt S) :
    let g := giveUp o E ratio last st
    (last = true → g.1 = false ∧ g.2.1 = false) ∧ (st.improved = true → g.1 = false) ∧ (g.2.1 = true → g.2.2.1 = true) ∧
    (g.1 = true → g.2.2.2.improved = true) ∧ g.2.2.2.uptodate = st.uptodate ∧ g.2.2.2.calls = st.calls ∧
    (g.2.1 = false → g.1 = false → last = true ∨ ratio < o.ratioSing) ∧ (g.2.1 = true → g.1 = false) := by
  unfold giveUp
  cases hl : last <;> cases hi : st.improved <;> simp
  · cases (E.increaseQuality st.env).1 <;> simp

/-- what can be said about the end of the refinement loop. -/
structure RefOK (last : Bool) (o : Opts N) (st : SSt S) (e : RefEnd N S) : Prop where
  last : last = true → e.resolve = false ∧ e.pretend = false
  imp : st.uptodate = true → st.improved = true → e.resolve = false
  pre : e.pretend = true → e.last = true
  res : e.resolve = true → e.st.improved = true ∧ e.st.uptodate = true
  calls : e.st.calls ≤ st.calls + (o.maxRef + 1)

theorem refine_ok (hom : List N → Option N) (D : Data N) {o : Opts N} (ho : o.minRef ≤ o.maxRef) {E : Env N S} (hE : E.Mono) (rhs : Iter N)
    (last : Bool) : ∀ (fuel num : Nat) (ratio ratioOld : N) (res resid : Iter N) (st : SSt S), num + fuel = o.maxRef + 2 →
      num ≤ o.maxRef + 1 → (o.maxRef < num → ¬ o.ratioMax < ratio) →
      match refine hom D o E rhs last fuel num ratio ratioOld res resid st with
      | .inl oc => oc = .abort
      | .inr e => (last = true → e.resolve = false ∧ e.pretend = false) ∧
          (st.uptodate = true → st.improved = true → e.resolve = false) ∧ (e.pretend = true → e.last = true) ∧
          (e.resolve = true → e.st.improved = true ∧ e.st.uptodate = true) ∧ e.st.calls + num ≤ st.calls + (o.maxRef + 1) ∧
          (e.pretend = true → e.resolve = false) ∧ e.steps + st.calls = num + e.st.calls := by
  intro fuel
  induction fuel with
  | zero =>
    intro num ratio ratioOld res resid st hn hn1 hr
    exfalso
    omega
  | succ fuel ih =>
    intro num ratio ratioOld res resid st hn hn1 hr
    unfold refine
    by_cases hc : (num < o.minRef || decide (o.ratioMax < ratio)) = true
    · have hnum : num ≤ o.maxRef := by
        by_contra hcon
        have := hr (by omega)
        simp [this] at hc
        omega
      simp only [hc, if_true]
      cases hs : solveOnce hom D E false (-1) 1 resid res st with
      | none => simp
      | some q =>
        obtain ⟨res', st'⟩ := q
        have hst := solveOnce_state hE hs
        simp only at hst
        simp only
        by_cases hq : (decide (o.ratioMax < residualRatio o.maxCond rhs res' (computeResiduals hom D (E.deltas st'.env) rhs res' resid)) &&
            decide (o.minRef < num + 1) && (decide (o.maxRef < num + 1) || decide (o.improve * ratioOld < residualRatio o.maxCond rhs res'
              (computeResiduals hom D (E.deltas st'.env) rhs res' resid)))) = true
        · rw [if_pos hq]
          have g := giveUp_flags o E (residualRatio o.maxCond rhs res' (computeResiduals hom D (E.deltas st'.env) rhs res' resid)) last st'
          simp only at g
          refine ⟨g.1, fun h1 h2 => g.2.1 (hst.2.2 h1 h2), g.2.2.1, fun h => ⟨g.2.2.2.1 h, by rw [g.2.2.2.2.1]; exact hst.1⟩, ?_, g.2.2.2.2.2.2.2, ?_⟩
          · simp only
            rw [g.2.2.2.2.2.1, hst.2.1]
            omega
          · simp only
            rw [g.2.2.2.2.2.1, hst.2.1]
            omega
        · rw [if_neg hq]
          have hr' : o.maxRef < num + 1 → ¬ o.ratioMax < residualRatio o.maxCond rhs res' (computeResiduals hom D (E.deltas st'.env) rhs res' resid) := by
            intro hm hgt
            apply hq
            simp [hgt, hm]
            omega
          have := ih (num + 1) _ (residualRatio o.maxCond rhs res' (computeResiduals hom D (E.deltas st'.env) rhs res' resid)) res'
            (computeResiduals hom D (E.deltas st'.env) rhs res' resid) st' (by omega) (by omega) hr'
          revert this
          cases refine hom D o E rhs last fuel (num + 1) (residualRatio o.maxCond rhs res' (computeResiduals hom D (E.deltas st'.env) rhs res' resid))
            (residualRatio o.maxCond rhs res' (computeResiduals hom D (E.deltas st'.env) rhs res' resid)) res'
            (computeResiduals hom D (E.deltas st'.env) rhs res' resid) st' with
          | inl oc => simp
          | inr e =>
            simp only
            intro ⟨h1, h2, h3, h4, h5, h6, h7⟩
            have := hst.2.1
            refine ⟨h1, fun a b => h2 hst.1 (hst.2.2 a b), h3, h4, ?_, h6, ?_⟩
            · omega
            · omega
    · rw [if_neg hc]
      refine ⟨fun _ => ⟨rfl, rfl⟩, fun _ _ => rfl, fun h => by simp at h, fun h => by simp at h, ?_, fun _ => rfl, rfl⟩
      simp only
      omega

end Term

section Exact
variable {K : Type} [Field K] [LinearOrder K] [IsStrictOrderedRing K] {S : Type}

theorem vamax_zero (x : List K) (h : ∀ i, i < x.length → x.getD i 0 = 0) : vamax x = 0 := by
  unfold vamax
  have hz : ∀ v ∈ x, v = 0 := by
    intro v hv
    obtain ⟨i, hi, rfl⟩ := List.getElem_of_mem hv
    rw [← getD_lt hi]; exact h i hi
  clear h
  have : ∀ (l : List K), (∀ v ∈ l, v = 0) → l.foldl (fun m v => nmax m (nabs v)) (0:K) = 0 := by
    intro l
    induction l with
    | nil => simp
    | cons a l ih =>
      intro hl
      rw [List.foldl_cons, hl a (by simp)]
      simp only [nmax, nabs, lt_irrefl, if_false]
      exact ih (fun v hv => hl v (by simp [hv]))
  exact this x hz

theorem amax_zero {D : Data K} {δ : Deltas K} {d rhs r : Iter K} (hd : r.Dim D) (hF : FullSystem D δ d rhs) (hR : IsResidual D δ d rhs r) :
    r.amax = 0 := by
  unfold Iter.amax
  have e1 : vamax r.x = 0 := vamax_zero _ (fun i hi => by rw [hd.x] at hi; rw [hR.x i hi, hF.x i hi, sub_self])
  have e2 : vamax r.s = 0 := vamax_zero _ (fun i hi => by rw [hd.s] at hi; rw [hR.s i hi, hF.s i hi, sub_self])
  have e3 : vamax r.yc = 0 := vamax_zero _ (fun i hi => by rw [hd.yc] at hi; rw [hR.yc i hi, hF.yc i hi, sub_self])
  have e4 : vamax r.yd = 0 := vamax_zero _ (fun i hi => by rw [hd.yd] at hi; rw [hR.yd i hi, hF.yd i hi, sub_self])
  have e5 : vamax r.zL = 0 := vamax_zero _ (fun i hi => by rw [hd.zL] at hi; rw [hR.zL i hi, hF.zL i hi, sub_self])
  have e6 : vamax r.zU = 0 := vamax_zero _ (fun i hi => by rw [hd.zU] at hi; rw [hR.zU i hi, hF.zU i hi, sub_self])
  have e7 : vamax r.vL = 0 := vamax_zero _ (fun i hi => by rw [hd.vL] at hi; rw [hR.vL i hi, hF.vL i hi, sub_self])
  have e8 : vamax r.vU = 0 := vamax_zero _ (fun i hi => by rw [hd.vU] at hi; rw [hR.vU i hi, hF.vU i hi, sub_self])
  simp [e1, e2, e3, e4, e5, e6, e7, e8, nmax]

theorem ratio_zero {D : Data K} {δ : Deltas K} {d rhs r : Iter K} (mc : K) (hd : r.Dim D) (hF : FullSystem D δ d rhs)
    (hR : IsResidual D δ d rhs r) : residualRatio mc rhs d r = 0 := by
  unfold residualRatio
  rw [amax_zero hd hF hR]
  split <;> simp

/-- the augmented system solver solves the systems it is given exactly: `K v = b` for the matrix `kkt` built from its arguments; the
call with the current perturbations does not change them. -/
structure Env.Exact (hom : List K → Option K) (D : Data K) (E : Env K S) : Prop where
  cur : ∀ st b v st', b.Dim D → E.solveCur st b = some (v, st') → v.Dim D ∧ E.deltas st' = E.deltas st ∧
    ∀ i, i < (kkt D.W (solveArgs hom D (E.deltas st'))).dims.1 → mv (kkt D.W (solveArgs hom D (E.deltas st'))) v.flat i = b.flat.getD i 0
  new : ∀ p q st b v q' st', b.Dim D → E.solveNew p q st b = some (v, q', st') → v.Dim D ∧
    ∀ i, i < (kkt D.W (solveArgs hom D (E.deltas st'))).dims.1 → mv (kkt D.W (solveArgs hom D (E.deltas st'))) v.flat i = b.flat.getD i 0

variable {hom : List K → Option K} (hh : HomOK hom)
include hh

theorem kkt_solves {D : Data K} (h : D.OK) (δ : Deltas K) {v b : Aug K} (hv : v.Dim D) (hb : b.Dim D)
    (H : ∀ i, i < (kkt D.W (solveArgs hom D δ)).dims.1 → mv (kkt D.W (solveArgs hom D δ)) v.flat i = b.flat.getD i 0) :
    SolvesAug D (sigmaX hom D) (sigmaS hom D) δ v b := by
  have hok : (solveArgs hom D δ).OK D.W := by
    refine ⟨?_, ?_, ?_, ?_, ?_, ?_⟩
    · change D.W.dims = (D.Jc.dims.2, D.Jc.dims.2)
      rw [h.Jcd]
      exact Prod.ext rfl h.Wd
    · change D.Jd.dims.2 = D.Jc.dims.2; rw [h.Jcd, h.Jdd]
    · rintro d hd; cases hd; change _ = D.Jc.dims.2; rw [sigmaX_len hh h, h.Jcd]
    · rintro d hd; cases hd; exact sigmaS_len hh h
    · intro d hd; cases hd
    · intro d hd; cases hd
  have := (kkt_iff D.W (solveArgs hom D δ) hok v b ⟨hv.x.trans h.Jcd.symm, hv.s, hv.c, hv.d⟩ ⟨hb.x.trans h.Jcd.symm, hb.s, hb.c, hb.d⟩).1 H
  unfold SolvesAug
  have e : AugSystem D.Jc.dims.2 D.W 1 (sigmaX hom D) δ.x (sigmaS hom D) δ.s D.Jc [] δ.c D.Jd [] δ.d v b := this
  rw [h.Jcd] at e
  exact e

/-- `SolveOnce` with an exact solver: the vector added is a solution of the full system. -/
theorem solveOnce_exact {D : Data K} (h : D.OK) {E : Env K S} (hE : E.Exact hom D) {p : Bool} {α β : K} {rhs res : Iter K} {st : SSt S}
    (hr : rhs.Dim D) (hres : res.Dim D) {q : Iter K × SSt S} (hq : solveOnce hom D E p α β rhs res st = some q) :
    ∃ d : Iter K, d.Dim D ∧ FullSystem D (E.deltas q.2.env) d rhs ∧ q.1 = Iter.addOne α d β res ∧ q.2.uptodate = true ∧
      (st.uptodate = true → p = false → E.deltas q.2.env = E.deltas st.env) := by
  unfold solveOnce at hq
  simp only at hq
  have hb := augRhs_dim hh h hr
  split at hq
  · simp only [Option.map_eq_some_iff] at hq
    obtain ⟨⟨v, s'⟩, hv, rfl⟩ := hq
    have := hE.cur _ _ _ _ hb hv
    exact ⟨recover hom D rhs v res, recover_dim hh h hr hres this.1,
      (elim_iff hh h hr hres this.1 _).2 (kkt_solves hh h _ this.1 hb this.2.2), rfl, rfl, fun _ _ => this.2.1⟩
  · rename_i hc
    simp only [Option.map_eq_some_iff] at hq
    obtain ⟨⟨v, i', s'⟩, hv, rfl⟩ := hq
    have := hE.new _ _ _ _ _ _ _ hb hv
    refine ⟨recover hom D rhs v res, recover_dim hh h hr hres this.1,
      (elim_iff hh h hr hres this.1 _).2 (kkt_solves hh h _ this.1 hb this.2), rfl, rfl, fun h1 h2 => ?_⟩
    simp [h1, h2] at hc

/-- the refinement loop with an exact solver, started at a solution: ends with a solution and raises no flag. -/
theorem refine_exact_loop {D : Data K} (h : D.OK) {E : Env K S} (hE : E.Exact hom D) {o : Opts K} (ho : 0 ≤ o.ratioMax)
    {rhs : Iter K} (hr : rhs.Dim D) (last : Bool) : ∀ (fuel num : Nat) (ratio ratioOld : K) (res resid : Iter K) (st : SSt S),
      ratio = 0 → res.Dim D → resid.Dim D → st.uptodate = true → FullSystem D (E.deltas st.env) res rhs →
      IsResidual D (E.deltas st.env) res rhs resid →
      match refine hom D o E rhs last fuel num ratio ratioOld res resid st with
      | .inl oc => oc = .abort ∨ oc = .running
      | .inr e => e.resolve = false ∧ e.pretend = false ∧ e.res.Dim D ∧ FullSystem D (E.deltas e.st.env) e.res rhs := by
  intro fuel
  induction fuel with
  | zero => intro num ratio ratioOld res resid st _ _ _ _ _ _; simp [refine]
  | succ fuel ih =>
    intro num ratio ratioOld res resid st hrat hres hresid hup hF hR
    unfold refine
    by_cases hc : (num < o.minRef || decide (o.ratioMax < ratio)) = true
    · rw [if_pos hc]
      cases hs : solveOnce hom D E false (-1) 1 resid res st with
      | none => simp
      | some q =>
        obtain ⟨res', st'⟩ := q
        obtain ⟨d, hd, hFd, hqd, hu, hδ⟩ := solveOnce_exact hh h hE hresid hres hs
        simp only at hqd hFd hδ
        have hδ' := hδ hup trivial
        have hres' : res'.Dim D := by rw [hqd]; exact addOne_dim _ _ hd hres
        have hF' : FullSystem D (E.deltas st'.env) res' rhs := by
          rw [hqd, hδ']
          rw [hδ'] at hFd
          exact refine_exact h _ hres hd hR hFd
        have hR' := computeResiduals_ok hh h (E.deltas st'.env) hr hres' hresid
        have hz := ratio_zero o.maxCond hR'.1 hF' hR'.2
        simp only
        rw [hz]
        rw [if_neg (by simp [not_lt.2 ho])]
        exact ih (num + 1) 0 0 res' _ st' rfl hres' hR'.1 hu hF' hR'.2
    · rw [if_neg hc]; exact ⟨rfl, rfl, hres, hF⟩

end Exact
end Verif.PDSystem
