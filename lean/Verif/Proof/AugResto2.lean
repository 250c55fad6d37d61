import Verif.Proof.AugResto
import Mathlib.Tactic.LinearCombination
import Mathlib.Tactic.FieldSimp

/-! # Proofs about the restoration-phase augmented system, continued -/

namespace Verif.AugResto
open Finset Verif.Matrix Verif.PDSystem

set_option linter.unusedSectionVars false
set_option linter.unusedVariables false
set_option linter.unusedSimpArgs false

section
variable {K : Type} [Field K] [DecidableEq K]

/-- the augmented system whose parts are `b` holds between `v` and `r` (wrapper of `AugSystem`). -/
def Solves (b : AugArgs K) (W : Mat K) (v r : Aug K) : Prop :=
  AugSystem b.Jc.dims.2 W b.Wfac (b.Dx.getD []) b.δx (b.Ds.getD []) b.δs b.Jc (b.Dc.getD []) b.δc b.Jd (b.Dd.getD []) b.δd v r

theorem full_dims (a : Args K) : (restoJc a.Jc0 a.Jd0.dims.1).dims =
    (a.Jc0.dims.1, a.Jc0.dims.2 + (a.Jc0.dims.1 + (a.Jc0.dims.1 + (a.Jd0.dims.1 + a.Jd0.dims.1)))) := by
  simp [restoJc, Mat.dims, xdims]

theorem full_dims_d (a : Args K) : (restoJd a.Jd0 a.PdL a.nPdU a.Jc0.dims.1).dims =
    (a.Jd0.dims.1, a.Jd0.dims.2 + (a.Jc0.dims.1 + (a.Jc0.dims.1 + (a.Jd0.dims.1 + a.Jd0.dims.1)))) := by
  simp [restoJd, Mat.dims, xdims]

theorem od_flat (a : Args K) (h : a.OK) :
    (∀ i, i < a.Jc0.dims.2 → ((a.Dx.map X5.flat).getD []).getD i 0 = od (a.Dx.map X5.x) i) ∧
    (∀ i, i < a.Jc0.dims.1 → ((a.Dx.map X5.flat).getD []).getD (a.Jc0.dims.2 + i) 0 = od (a.Dx.map X5.nc) i) ∧
    (∀ i, i < a.Jc0.dims.1 → ((a.Dx.map X5.flat).getD []).getD (a.Jc0.dims.2 + a.Jc0.dims.1 + i) 0 = od (a.Dx.map X5.pc) i) ∧
    (∀ i, i < a.Jd0.dims.1 → ((a.Dx.map X5.flat).getD []).getD (a.Jc0.dims.2 + a.Jc0.dims.1 + a.Jc0.dims.1 + i) 0 = od (a.Dx.map X5.nd) i) ∧
    (∀ i, i < a.Jd0.dims.1 → ((a.Dx.map X5.flat).getD []).getD (a.Jc0.dims.2 + a.Jc0.dims.1 + a.Jc0.dims.1 + a.Jd0.dims.1 + i) 0
      = od (a.Dx.map X5.pd) i) := by
  cases hD : a.Dx with
  | none => simp [od]
  | some d =>
    have hd := h.Dx d hD
    simpa [od] using flat5 d _ _ _ _ _ hd.x hd.nc hd.pc hd.nd hd.pd

/-- the augmented system of the restoration problem, built from its block matrices, is the system of `RestoSystem`. -/
theorem full_iff (a : Args K) (h : a.OK) (v r : RVec K) (hv : v.Dim a) (hr : r.Dim a) :
    Solves a.full (restoW a.W a.Jc0.dims.2 a.Jc0.dims.1 a.Jd0.dims.1) v.aug r.aug ↔ RestoSystem a v r := by
  have O := od_flat a h
  have W := restoW_mv a.W a.Jc0.dims.2 a.Jc0.dims.1 a.Jd0.dims.1 h.W v.x hv.x.x hv.x.nc hv.x.pc hv.x.nd hv.x.pd
  have Fv := flat5 v.x _ _ _ _ _ hv.x.x hv.x.nc hv.x.pc hv.x.nd hv.x.pd
  have Fr := flat5 r.x _ _ _ _ _ hr.x.x hr.x.nc hr.x.pc hr.x.nd hr.x.pd
  have C := restoJc_mtv a.Jc0 a.Jd0.dims.1 v.c
  have D := restoJd_mtv a.Jd0 a.Jc0.dims.1 v.d
  rw [← h.PdL, ← h.nPdU, h.Jd] at D
  have JD : restoJd a.Jd0 (.ident a.Jd0.dims.1 1) (.ident a.Jd0.dims.1 (-1)) a.Jc0.dims.1 = restoJd a.Jd0 a.PdL a.nPdU a.Jc0.dims.1 := by
    rw [h.PdL, h.nPdU]
  constructor
  · intro S
    have Sx := S.x
    have Ss := S.s
    have Sc := S.c
    have Sd := S.d
    simp only [Args.full, RVec.aug, full_dims, full_dims_d] at Sx Ss Sc Sd
    refine ⟨fun i hi => ?_, fun i hi => ?_, fun i hi => ?_, fun i hi => ?_, fun i hi => ?_, fun i hi => Ss i hi, fun i hi => ?_, fun i hi => ?_⟩
    · have := Sx i (by omega)
      rwa [W.1 i hi, O.1 i hi, Fv.1 i hi, C.1 i hi, D.1 i hi, Fr.1 i hi] at this
    · have := Sx (a.Jc0.dims.2 + i) (by omega)
      rw [W.2 _ (by omega) (by omega), O.2.1 i hi, Fv.2.1 i hi, C.2.1 i hi, D.2.1 i hi, Fr.2.1 i hi] at this
      linear_combination this
    · have := Sx (a.Jc0.dims.2 + a.Jc0.dims.1 + i) (by omega)
      rw [W.2 _ (by omega) (by omega), O.2.2.1 i hi, Fv.2.2.1 i hi, C.2.2.1 i hi, D.2.2.1 i hi, Fr.2.2.1 i hi] at this
      linear_combination this
    · have := Sx (a.Jc0.dims.2 + a.Jc0.dims.1 + a.Jc0.dims.1 + i) (by omega)
      rw [W.2 _ (by omega) (by omega), O.2.2.2.1 i hi, Fv.2.2.2.1 i hi, C.2.2.2.1 i hi, D.2.2.2.1 i hi, Fr.2.2.2.1 i hi] at this
      linear_combination this
    · have := Sx (a.Jc0.dims.2 + a.Jc0.dims.1 + a.Jc0.dims.1 + a.Jd0.dims.1 + i) (by omega)
      rw [W.2 _ (by omega) (by omega), O.2.2.2.2 i hi, Fv.2.2.2.2 i hi, C.2.2.2.2 i hi, D.2.2.2.2 i hi, Fr.2.2.2.2 i hi] at this
      linear_combination this
    · have := Sc i hi
      rwa [restoJc_mv a.Jc0 _ v.x hv.x.x hv.x.nc hv.x.pc hv.x.nd hv.x.pd i hi] at this
    · have := Sd i hi
      rwa [← JD, restoJd_mv a.Jd0 _ v.x (by rw [h.Jd]; exact hv.x.x) hv.x.nc hv.x.pc hv.x.nd hv.x.pd i hi] at this
  · intro R
    refine ⟨?_, ?_, ?_, ?_⟩ <;> simp only [Args.full, RVec.aug, full_dims, full_dims_d]
    · refine cover5 _ _ _ _ _ _ (fun i hi => ?_) (fun i hi => ?_) (fun i hi => ?_) (fun i hi => ?_) (fun i hi => ?_)
      · rw [W.1 i hi, O.1 i hi, Fv.1 i hi, C.1 i hi, D.1 i hi, Fr.1 i hi]; exact R.x i hi
      · rw [W.2 _ (by omega) (by omega), O.2.1 i hi, Fv.2.1 i hi, C.2.1 i hi, D.2.1 i hi, Fr.2.1 i hi]
        linear_combination R.nc i hi
      · rw [W.2 _ (by omega) (by omega), O.2.2.1 i hi, Fv.2.2.1 i hi, C.2.2.1 i hi, D.2.2.1 i hi, Fr.2.2.1 i hi]
        linear_combination R.pc i hi
      · rw [W.2 _ (by omega) (by omega), O.2.2.2.1 i hi, Fv.2.2.2.1 i hi, C.2.2.2.1 i hi, D.2.2.2.1 i hi, Fr.2.2.2.1 i hi]
        linear_combination R.nd i hi
      · rw [W.2 _ (by omega) (by omega), O.2.2.2.2 i hi, Fv.2.2.2.2 i hi, C.2.2.2.2 i hi, D.2.2.2.2 i hi, Fr.2.2.2.2 i hi]
        linear_combination R.pd i hi
    · exact R.s
    · intro i hi
      rw [restoJc_mv a.Jc0 _ v.x hv.x.x hv.x.nc hv.x.pc hv.x.nd hv.x.pd i hi]; exact R.c i hi
    · intro i hi
      rw [← JD, restoJd_mv a.Jd0 _ v.x (by rw [h.Jd]; exact hv.x.x) hv.x.nc hv.x.pc hv.x.nd hv.x.pd i hi]; exact R.d i hi

/-! ### The elimination -/

/-- all inverse diagonals exist and are reciprocals of the perturbed diagonals. -/
theorem sigTilde_some (σ : Option (List K)) (δ : K) (n : Nat) (hn : 0 < n) (hl : ∀ v, σ = some v → v.length = n)
    (hp : ∀ i, i < n → od σ i + δ ≠ 0) :
    ∃ w, sigTildeInv σ δ n = some w ∧ w.length = n ∧ ∀ i, i < n → w.getD i 0 = 1 / (od σ i + δ) := by
  unfold sigTildeInv
  cases σ with
  | some v =>
    have hv := hl v rfl
    simp only [od, Option.getD_some]
    by_cases hz : δ = 0
    · refine ⟨v.map (fun s => 1 / s), by simp [hz], by simp [hv], fun i hi => ?_⟩
      rw [getD_map' _ _ _ 0 (by rw [hv]; exact hi), hz, add_zero]
    · refine ⟨v.map (fun s => 1 / (s + δ)), by simp [hz], by simp [hv], fun i hi => ?_⟩
      rw [getD_map' _ _ _ 0 (by rw [hv]; exact hi)]
  | none =>
    have hz : δ ≠ 0 := by simpa [od] using hp 0 hn
    refine ⟨List.replicate n (1 / δ), by simp [hz], by simp, fun i hi => ?_⟩
    simp [od, List.getD_eq_getElem?_getD, hi]

/-- the same including empty blocks: either the vector exists, or the block is empty. -/
theorem sigTilde_cases (σ : Option (List K)) (δ : K) (n : Nat) (hl : ∀ v, σ = some v → v.length = n)
    (hp : ∀ i, i < n → od σ i + δ ≠ 0) :
    (∃ w, sigTildeInv σ δ n = some w ∧ w.length = n ∧ ∀ i, i < n → w.getD i 0 = 1 / (od σ i + δ)) ∨ (n = 0 ∧ sigTildeInv σ δ n = none) := by
  rcases Nat.eq_zero_or_pos n with h0 | h0
  · cases hs : sigTildeInv σ δ n with
    | none => exact Or.inr ⟨h0, rfl⟩
    | some w =>
      refine Or.inl ⟨w, rfl, ?_, fun i hi => by omega⟩
      unfold sigTildeInv at hs
      cases σ with
      | some v =>
        have hv := hl v rfl
        simp only [Option.some.injEq] at hs
        rw [← hs]
        split <;> simp [hv]
      | none =>
        simp only at hs
        by_cases hz : δ = 0
        · simp [hz] at hs
        · simp [hz] at hs; rw [← hs]; simp
  · exact Or.inl (sigTilde_some σ δ n h0 hl hp)

theorem lin2_len (a : K) (v1 : List K) (b : K) (v2 : List K) (n : Nat) (h1 : v1.length = n) (h2 : v2.length = n) :
    (lin2 a v1 b v2).length = n := by simp [lin2, h1, h2]

theorem lin2_get (a : K) (v1 : List K) (b : K) (v2 : List K) (n : Nat) (h1 : v1.length = n) (h2 : v2.length = n) (i : Nat) (hi : i < n) :
    (lin2 a v1 b v2).getD i 0 = a * v1.getD i 0 + b * v2.getD i 0 := by
  unfold lin2
  rw [getD_zipWith _ _ _ _ 0 0 (by omega) (by omega)]

variable {hom : List K → Option K} (hh : HomOK hom)
include hh

omit hh in
theorem mv_ident (n : Nat) (f : K) (x : List K) (i : Nat) (hi : i < n) : mv (.ident n f) x i = f * x.getD i 0 := by
  unfold mv
  simp only [Mat.dims, ent]
  exact sum_ident n i hi f (fun j => x.getD j 0)

omit hh in
theorem mtv_ident (n : Nat) (f : K) (x : List K) (i : Nat) (hi : i < n) : mtv (.ident n f) x i = f * x.getD i 0 := by
  unfold mtv
  simp only [Mat.dims, ent]
  exact sum_ident' n i hi f (fun j => x.getD j 0)

theorem ident_mult (n : Nat) (f α : K) (x : List K) (β : K) (y : List K) (hx : x.length = n) (hy : y.length = n) :
    ((.ident n f : Mat K).mult hom α x β y).length = n ∧
    ∀ i, i < n → ((.ident n f : Mat K).mult hom α x β y).getD i 0 = β * y.getD i 0 + α * (f * x.getD i 0) := by
  refine ⟨mult_len hh (.ident n f) trivial α x β y hx hy, fun i hi => ?_⟩
  rw [mult_get hh (.ident n f) trivial α x β y hx hy i hi, mv_ident n f x i hi]

theorem ident_trans (n : Nat) (f α : K) (x : List K) (β : K) (y : List K) (hx : x.length = n) (hy : y.length = n) :
    ((.ident n f : Mat K).transMult hom α x β y).length = n ∧
    ∀ i, i < n → ((.ident n f : Mat K).transMult hom α x β y).getD i 0 = β * y.getD i 0 + α * (f * x.getD i 0) := by
  refine ⟨trans_len hh (.ident n f) trivial α x β y hx hy, fun i hi => ?_⟩
  rw [trans_get hh (.ident n f) trivial α x β y hx hy i hi, mtv_ident n f x i hi]

omit hh in
theorem backC_ok (σ : Option (List K)) (δ : K) (n : Nat) (hl : ∀ v, σ = some v → v.length = n) (hp : ∀ i, i < n → od σ i + δ ≠ 0)
    (r y : List K) (hr : r.length = n) (hy : y.length = n) (f : K) :
    (backC (sigTildeInv σ δ r.length) r f y).length = n ∧
    ∀ i, i < n → (backC (sigTildeInv σ δ r.length) r f y).getD i 0 = (r.getD i 0 + f * y.getD i 0) / (od σ i + δ) := by
  rw [hr]
  rcases sigTilde_cases σ δ n hl hp with ⟨w, e, wl, wg⟩ | ⟨n0, e⟩
  · rw [e]
    simp only [backC]
    have l1 := lin2_len 1 r f y n hr hy
    refine ⟨by rw [emul_length _ _ (by rw [wl, l1]), l1], fun i hi => ?_⟩
    rw [emul_get _ _ _ (by rw [wl, l1]) (by rw [l1]; exact hi), lin2_get 1 r f y n hr hy i hi, wg i hi]
    ring
  · rw [e]
    simp only [backC]
    exact ⟨by simp [hr], fun i hi => by omega⟩

theorem backD_ok (σ : Option (List K)) (δ : K) (n : Nat) (hl : ∀ v, σ = some v → v.length = n) (hp : ∀ i, i < n → od σ i + δ ≠ 0)
    (r y : List K) (hr : r.length = n) (hy : y.length = n) (f : K) :
    (backD hom (.ident n f) (sigTildeInv σ δ r.length) r y).length = n ∧
    ∀ i, i < n → (backD hom (.ident n f) (sigTildeInv σ δ r.length) r y).getD i 0 = (r.getD i 0 - f * y.getD i 0) / (od σ i + δ) := by
  rw [hr]
  rcases sigTilde_cases σ δ n hl hp with ⟨w, e, wl, wg⟩ | ⟨n0, e⟩
  · rw [e]
    simp only [backD]
    have t := ident_trans hh n f (-1) y 0 (List.replicate r.length 0) hy (by simp [hr])
    have l1 : (Matrix.axpy 1 r ((.ident n f : Mat K).transMult hom (-1) y 0 (List.replicate r.length 0))).length = n := by
      rw [axpy_length _ _ _ (hr.trans t.1.symm), t.1]
    refine ⟨by rw [emul_length _ _ (by rw [wl, l1]), l1], fun i hi => ?_⟩
    rw [emul_get _ _ _ (by rw [wl, l1]) (by rw [l1]; exact hi), axpy_get _ _ _ _ (hr.trans t.1.symm) (by rw [t.1]; exact hi), t.2 i hi, wg i hi]
    ring
  · rw [e]
    simp only [backD]
    exact ⟨by simp [hr], fun i hi => by omega⟩

omit hh in
/-- `D_cR`. -/
theorem negOmegaC_get (σn σp : Option (List K)) (δ : K) (n : Nat) (hln : ∀ v, σn = some v → v.length = n)
    (hlp : ∀ v, σp = some v → v.length = n) (hpn : ∀ i, i < n → od σn i + δ ≠ 0) (hpp : ∀ i, i < n → od σp i + δ ≠ 0)
    (Dc : Option (List K)) (hD : ∀ d, Dc = some d → d.length = n) (anyC : List K) (hC : anyC.length = n) (i : Nat) (hi : i < n) :
    ((negOmegaC (sigTildeInv σn δ n) (sigTildeInv σp δ n) Dc anyC).getD []).getD i 0 = - (1 / (od σn i + δ)) - 1 / (od σp i + δ) + od Dc i := by
  rcases sigTilde_cases σn δ n hln hpn with ⟨w, e, wl, wg⟩ | ⟨n0, _⟩
  swap
  · omega
  rcases sigTilde_cases σp δ n hlp hpp with ⟨w', e', wl', wg'⟩ | ⟨n0, _⟩
  swap
  · omega
  rw [e, e']
  unfold negOmegaC
  simp only [Option.isSome_some, Bool.true_or, if_true, Option.getD_some]
  have l2 := lin2_len (-1) w (-1) w' n wl wl'
  have g2 := lin2_get (-1) w (-1) w' n wl wl' i hi
  rw [wg i hi, wg' i hi] at g2
  cases Dc with
  | none =>
    simp only [Option.getD_some]; rw [g2]
    have : od (none : Option (List K)) i = 0 := rfl
    rw [this]; ring
  | some d =>
    simp only [Option.getD_some, od]
    rw [axpy_get _ _ _ _ (by rw [l2, hD d rfl]) (by rw [l2]; exact hi), g2]
    simp only [od]
    ring

/-- `D_dR` without `D_d`. -/
theorem negOmegaD_get (σn σp : Option (List K)) (δ : K) (n : Nat) (hln : ∀ v, σn = some v → v.length = n)
    (hlp : ∀ v, σp = some v → v.length = n) (hpn : ∀ i, i < n → od σn i + δ ≠ 0) (hpp : ∀ i, i < n → od σp i + δ ≠ 0)
    (i : Nat) (hi : i < n) :
    ((negOmegaD hom (.ident n 1) (sigTildeInv σn δ n) (.ident n (-1)) (sigTildeInv σp δ n) none n).getD []).getD i 0 =
      - (1 / (od σn i + δ)) - 1 / (od σp i + δ) := by
  rcases sigTilde_cases σn δ n hln hpn with ⟨w, e, wl, wg⟩ | ⟨n0, _⟩
  swap
  · omega
  rcases sigTilde_cases σp δ n hlp hpp with ⟨w', e', wl', wg'⟩ | ⟨n0, _⟩
  swap
  · omega
  rw [e, e']
  unfold negOmegaD
  simp only [Option.isSome_some, Bool.true_or, if_true, Option.getD_some]
  have t1 := ident_mult hh n 1 (-1) w 1 (List.replicate n 0) wl (by simp)
  have t2 := ident_mult hh n (-1) 1 w' 1 _ wl' t1.1
  rw [t2.2 i hi, t1.2 i hi, wg i hi, wg' i hi]
  have : (List.replicate n (0 : K)).getD i 0 = 0 := by simp [List.getD_eq_getElem?_getD, hi]
  rw [this]
  ring

omit hh in
theorem rhsCR_ok (σn σp : Option (List K)) (δ : K) (n : Nat) (hln : ∀ v, σn = some v → v.length = n)
    (hlp : ∀ v, σp = some v → v.length = n) (hpn : ∀ i, i < n → od σn i + δ ≠ 0) (hpp : ∀ i, i < n → od σp i + δ ≠ 0)
    (rc rn rp : List K) (hc : rc.length = n) (hn : rn.length = n) (hp : rp.length = n) :
    (rhsCR rc (sigTildeInv σn δ n) rn (sigTildeInv σp δ n) rp).length = n ∧ ∀ i, i < n →
    (rhsCR rc (sigTildeInv σn δ n) rn (sigTildeInv σp δ n) rp).getD i 0 =
      rc.getD i 0 - rn.getD i 0 / (od σn i + δ) + rp.getD i 0 / (od σp i + δ) := by
  rcases sigTilde_cases σn δ n hln hpn with ⟨w, e, wl, wg⟩ | ⟨n0, e⟩ <;>
  rcases sigTilde_cases σp δ n hlp hpp with ⟨w', e', wl', wg'⟩ | ⟨n0', e'⟩ <;> rw [e, e'] <;> simp only [rhsCR]
  · have l1 := emul_length w rn (by rw [wl, hn])
    have l2 := axpy_length (-1) (emul w rn) rc (by rw [l1, wl, hc])
    have l3 := emul_length w' rp (by rw [wl', hp])
    refine ⟨by rw [axpy_length _ _ _ (by rw [l3, l2, wl', hc]), l2, hc], fun i hi => ?_⟩
    rw [axpy_get _ _ _ _ (by rw [l3, l2, wl', hc]) (by rw [l2, hc]; exact hi), axpy_get _ _ _ _ (by rw [l1, wl, hc]) (by rw [hc]; exact hi),
      emul_get _ _ _ (by rw [wl, hn]) (by rw [wl]; exact hi), emul_get _ _ _ (by rw [wl', hp]) (by rw [wl']; exact hi), wg i hi, wg' i hi]
    ring
  · have l1 := emul_length w rn (by rw [wl, hn])
    exact ⟨by rw [axpy_length _ _ _ (by rw [l1, wl, hc]), hc], fun i hi => by omega⟩
  · have l3 := emul_length w' rp (by rw [wl', hp])
    exact ⟨by rw [axpy_length _ _ _ (by rw [l3, wl', hc]), hc], fun i hi => by omega⟩
  · exact ⟨hc, fun i hi => by omega⟩

theorem rhsDR_ok (σn σp : Option (List K)) (δ : K) (n : Nat) (hln : ∀ v, σn = some v → v.length = n)
    (hlp : ∀ v, σp = some v → v.length = n) (hpn : ∀ i, i < n → od σn i + δ ≠ 0) (hpp : ∀ i, i < n → od σp i + δ ≠ 0)
    (rc rn rp : List K) (hc : rc.length = n) (hn : rn.length = n) (hp : rp.length = n) :
    (rhsDR hom rc (sigTildeInv σn δ n) rn (.ident n 1) (sigTildeInv σp δ n) rp (.ident n (-1))).length = n ∧ ∀ i, i < n →
    (rhsDR hom rc (sigTildeInv σn δ n) rn (.ident n 1) (sigTildeInv σp δ n) rp (.ident n (-1))).getD i 0 =
      rc.getD i 0 - rn.getD i 0 / (od σn i + δ) + rp.getD i 0 / (od σp i + δ) := by
  rcases sigTilde_cases σn δ n hln hpn with ⟨w, e, wl, wg⟩ | ⟨n0, e⟩ <;>
  rcases sigTilde_cases σp δ n hlp hpp with ⟨w', e', wl', wg'⟩ | ⟨n0', e'⟩ <;> rw [e, e'] <;> simp only [rhsDR]
  · have l1 := emul_length w rn (by rw [wl, hn])
    have l3 := emul_length w' rp (by rw [wl', hp])
    have t1 := ident_mult hh n 1 (-1) (emul w rn) 1 rc (l1.trans wl) hc
    have t2 := ident_mult hh n (-1) (-1) (emul w' rp) 1 _ (l3.trans wl') t1.1
    refine ⟨t2.1, fun i hi => ?_⟩
    rw [t2.2 i hi, t1.2 i hi,
      emul_get _ _ _ (by rw [wl, hn]) (by rw [wl]; exact hi), emul_get _ _ _ (by rw [wl', hp]) (by rw [wl']; exact hi), wg i hi, wg' i hi]
    ring
  · have l1 := emul_length w rn (by rw [wl, hn])
    have t1 := ident_mult hh n 1 (-1) (emul w rn) 1 rc (l1.trans wl) hc
    exact ⟨t1.1, fun i hi => by omega⟩
  · have l3 := emul_length w' rp (by rw [wl', hp])
    have t2 := ident_mult hh n (-1) (-1) (emul w' rp) 1 rc (l3.trans wl') hc
    exact ⟨t2.1, fun i hi => by omega⟩
  · exact ⟨hc, fun i hi => by omega⟩

omit hh in
/-- the x-row: Hessian and diagonal handed over. -/
theorem redW_row (W : Hess K) (Wfac : K) (Dx0 : Option (List K)) (nx : Nat) (hW : W.OK nx) (hD : ∀ d, Dx0 = some d → d.length = nx)
    (hf : W.FactorOne Wfac) (δ : K) (x : List K) (i : Nat) (hi : i < nx) :
    (redW W Wfac Dx0).2.1 * mv (redW W Wfac Dx0).1 x i + (((redW W Wfac Dx0).2.2.getD []).getD i 0 + δ) * x.getD i 0 =
      Wfac * W.mv x i + (od Dx0 i + δ) * x.getD i 0 := by
  cases W with
  | limited h => simp [redW, Hess.mv, od]
  | exact h f0 eta dr =>
    have hdr : dr.length = nx := hW.2
    simp only [redW, Hess.mv, Option.getD_some]
    have key : Wfac * eta = eta := by
      rcases hf with h | h
      · rw [h, one_mul]
      · rw [h, mul_zero]
    cases Dx0 with
    | none =>
      simp only [od, Option.getD_none]
      rw [lin2_get _ _ _ _ nx hdr hdr i hi]
      simp only [List.getD_nil]
      linear_combination (- dr.getD i 0 * x.getD i 0) * key
    | some d =>
      simp only [od, Option.getD_some]
      rw [lin2_get _ _ _ _ nx hdr (hD d rfl) i hi]
      linear_combination (- dr.getD i 0 * x.getD i 0) * key

omit hh in
theorem redW_dims (W : Hess K) (Wfac : K) (Dx0 : Option (List K)) (nx : Nat) (hW : W.OK nx) (hD : ∀ d, Dx0 = some d → d.length = nx) :
    (redW W Wfac Dx0).1.dims = (nx, nx) ∧ ∀ d, (redW W Wfac Dx0).2.2 = some d → d.length = nx := by
  cases W with
  | limited h => exact ⟨hW, hD⟩
  | exact h f0 eta dr =>
    have hdr : dr.length = nx := hW.2
    refine ⟨hW.1, fun d hd => ?_⟩
    simp only [redW, Option.some.injEq] at hd
    cases Dx0 with
    | none => simp only at hd; rw [← hd]; exact lin2_len _ _ _ _ nx hdr hdr
    | some e => simp only at hd; rw [← hd]; exact lin2_len _ _ _ _ nx hdr (hD e rfl)

/-- dimensions of a vector of the reduced system. -/
structure RedDim (a : Args K) (v : Aug K) : Prop where
  x : v.x.length = a.Jc0.dims.2
  s : v.s.length = a.Jd0.dims.1
  c : v.c.length = a.Jc0.dims.1
  d : v.d.length = a.Jd0.dims.1

omit hh in
theorem comp_len (a : Args K) (h : a.OK) :
    (∀ v, a.Dx.map X5.x = some v → v.length = a.Jc0.dims.2) ∧
    (∀ v, a.Dx.map X5.nc = some v → v.length = a.Jc0.dims.1) ∧ (∀ v, a.Dx.map X5.pc = some v → v.length = a.Jc0.dims.1) ∧
    (∀ v, a.Dx.map X5.nd = some v → v.length = a.Jd0.dims.1) ∧ (∀ v, a.Dx.map X5.pd = some v → v.length = a.Jd0.dims.1) := by
  cases hD : a.Dx with
  | none => simp
  | some d =>
    have := h.Dx d hD
    simp only [Option.map_some, Option.some.injEq]
    exact ⟨fun v e => e ▸ this.x, fun v e => e ▸ this.nc, fun v e => e ▸ this.pc, fun v e => e ▸ this.nd, fun v e => e ▸ this.pd⟩

theorem expand_dim (a : Args K) (h : a.OK) (hp : a.Pivots) {rhs : RVec K} (hr : rhs.Dim a) {v : Aug K} (hv : RedDim a v) :
    (a.expand hom rhs v).Dim a := by
  have C := comp_len a h
  refine ⟨⟨hv.x, ?_, ?_, ?_, ?_⟩, hv.s, hv.c, hv.d⟩
  · exact (backC_ok _ a.δx _ C.2.1 hp.nc rhs.x.nc v.c hr.x.nc hv.c (-1)).1
  · exact (backC_ok _ a.δx _ C.2.2.1 hp.pc rhs.x.pc v.c hr.x.pc hv.c 1).1
  · simp only [Args.expand, Args.sig]
    rw [h.PdL]
    exact (backD_ok hh _ a.δx _ C.2.2.2.1 hp.nd rhs.x.nd v.d hr.x.nd hv.d 1).1
  · simp only [Args.expand, Args.sig]
    rw [h.nPdU]
    exact (backD_ok hh _ a.δx _ C.2.2.2.2 hp.pd rhs.x.pd v.d hr.x.pd hv.d (-1)).1

theorem redRhs_dim (a : Args K) (h : a.OK) (hp : a.Pivots) {rhs : RVec K} (hr : rhs.Dim a) : RedDim a (a.redRhs hom rhs) := by
  have C := comp_len a h
  refine ⟨hr.x.x, hr.s, ?_, ?_⟩
  · simp only [Args.redRhs, Args.sig]
    rw [hr.x.nc, hr.x.pc]
    exact (rhsCR_ok _ _ a.δx _ C.2.1 C.2.2.1 hp.nc hp.pc _ _ _ hr.c hr.x.nc hr.x.pc).1
  · simp only [Args.redRhs, Args.sig]
    rw [hr.x.nd, hr.x.pd, h.PdL, h.nPdU]
    exact (rhsDR_ok hh _ _ a.δx _ C.2.2.2.1 C.2.2.2.2 hp.nd hp.pd _ _ _ hr.d hr.x.nd hr.x.pd).1

/-- the elimination: the assembled vector solves the restoration system iff `v` solves the reduced system. -/
theorem elim_iff (a : Args K) (h : a.OK) (hp : a.Pivots) (hf : a.W.FactorOne a.Wfac) (hDd : a.Dd = none) {rhs : RVec K} (hr : rhs.Dim a) {v : Aug K}
    (hv : RedDim a v) :
    RestoSystem a (a.expand hom rhs v) rhs ↔
      Solves (a.reduced hom rhs) (redW a.W a.Wfac (a.Dx.map X5.x)).1 v (a.redRhs hom rhs) := by
  have C := comp_len a h
  have Nc := (backC_ok _ a.δx _ C.2.1 hp.nc rhs.x.nc v.c hr.x.nc hv.c (-1)).2
  have Pc := (backC_ok _ a.δx _ C.2.2.1 hp.pc rhs.x.pc v.c hr.x.pc hv.c 1).2
  have Nd := (backD_ok hh _ a.δx _ C.2.2.2.1 hp.nd rhs.x.nd v.d hr.x.nd hv.d 1).2
  have Pd := (backD_ok hh _ a.δx _ C.2.2.2.2 hp.pd rhs.x.pd v.d hr.x.pd hv.d (-1)).2
  have Rc := (rhsCR_ok _ _ a.δx _ C.2.1 C.2.2.1 hp.nc hp.pc _ _ _ hr.c hr.x.nc hr.x.pc).2
  have Rd := (rhsDR_ok hh _ _ a.δx _ C.2.2.2.1 C.2.2.2.2 hp.nd hp.pd _ _ _ hr.d hr.x.nd hr.x.pd).2
  have Oc := negOmegaC_get (a.Dx.map X5.nc) (a.Dx.map X5.pc) a.δx _ C.2.1 C.2.2.1 hp.nc hp.pc a.Dc h.Dc rhs.c hr.c
  have Od := negOmegaD_get hh (a.Dx.map X5.nd) (a.Dx.map X5.pd) a.δx _ C.2.2.2.1 C.2.2.2.2 hp.nd hp.pd
  have Wr := redW_row a.W a.Wfac (a.Dx.map X5.x) a.Jc0.dims.2 h.W C.1 hf a.δx v.x
  rw [hr.x.nc] at Nc
  rw [hr.x.pc] at Pc
  rw [hr.x.nd] at Nd
  rw [hr.x.pd] at Pd
  have ex : (a.expand hom rhs v).x.x = v.x := rfl
  have es : (a.expand hom rhs v).s = v.s := rfl
  have ec : (a.expand hom rhs v).c = v.c := rfl
  have ed : (a.expand hom rhs v).d = v.d := rfl
  have enc : ∀ i, i < a.Jc0.dims.1 → (a.expand hom rhs v).x.nc.getD i 0 =
      (rhs.x.nc.getD i 0 + (-1) * v.c.getD i 0) / (od (a.Dx.map X5.nc) i + a.δx) := fun i hi => by
    simp only [Args.expand, Args.sig]; rw [hr.x.nc]; exact Nc i hi
  have epc : ∀ i, i < a.Jc0.dims.1 → (a.expand hom rhs v).x.pc.getD i 0 =
      (rhs.x.pc.getD i 0 + 1 * v.c.getD i 0) / (od (a.Dx.map X5.pc) i + a.δx) := fun i hi => by
    simp only [Args.expand, Args.sig]; rw [hr.x.pc]; exact Pc i hi
  have end' : ∀ i, i < a.Jd0.dims.1 → (a.expand hom rhs v).x.nd.getD i 0 =
      (rhs.x.nd.getD i 0 - 1 * v.d.getD i 0) / (od (a.Dx.map X5.nd) i + a.δx) := fun i hi => by
    simp only [Args.expand, Args.sig]; rw [hr.x.nd, h.PdL]; exact Nd i hi
  have epd : ∀ i, i < a.Jd0.dims.1 → (a.expand hom rhs v).x.pd.getD i 0 =
      (rhs.x.pd.getD i 0 - (-1) * v.d.getD i 0) / (od (a.Dx.map X5.pd) i + a.δx) := fun i hi => by
    simp only [Args.expand, Args.sig]; rw [hr.x.pd, h.nPdU]; exact Pd i hi
  have gc : ∀ i, i < a.Jc0.dims.1 → (mv a.Jc0 v.x i + (((a.reduced hom rhs).Dc.getD []).getD i 0 - a.δc) * v.c.getD i 0
      - (a.redRhs hom rhs).c.getD i 0 = mv a.Jc0 v.x i + (a.expand hom rhs v).x.nc.getD i 0 - (a.expand hom rhs v).x.pc.getD i 0 +
        (od a.Dc i - a.δc) * v.c.getD i 0 - rhs.c.getD i 0) := by
    intro i hi
    rw [enc i hi, epc i hi]
    simp only [Args.reduced, Args.redRhs, Args.sig]
    rw [hr.x.nc, hr.x.pc, Oc i hi, Rc i hi]
    ring
  have gd : ∀ i, i < a.Jd0.dims.1 → (mv a.Jd0 v.x i - v.s.getD i 0 + (((a.reduced hom rhs).Dd.getD []).getD i 0 - a.δd) * v.d.getD i 0
      - (a.redRhs hom rhs).d.getD i 0 = mv a.Jd0 v.x i + (a.expand hom rhs v).x.nd.getD i 0 - (a.expand hom rhs v).x.pd.getD i 0 - v.s.getD i 0
        + (od a.Dd i - a.δd) * v.d.getD i 0 - rhs.d.getD i 0) := by
    intro i hi
    rw [end' i hi, epd i hi]
    simp only [Args.reduced, Args.redRhs, Args.sig]
    rw [hr.x.nd, hr.x.pd, hr.d, h.PdL, h.nPdU, hDd, Od i hi, Rd i hi]
    simp only [od, Option.getD_none, List.getD_nil]
    ring
  constructor
  · intro R
    have Rx := R.x
    rw [ex, ec, ed] at Rx
    refine ⟨fun i hi => ?_, fun i hi => R.s i hi, fun i hi => ?_, fun i hi => ?_⟩
    · have e1 := Rx i hi
      have e2 := Wr i hi
      change (redW a.W a.Wfac (a.Dx.map X5.x)).2.1 * mv (redW a.W a.Wfac (a.Dx.map X5.x)).1 v.x i +
        (((redW a.W a.Wfac (a.Dx.map X5.x)).2.2.getD []).getD i 0 + a.δx) * v.x.getD i 0 + mtv a.Jc0 v.c i + mtv a.Jd0 v.d i = rhs.x.x.getD i 0
      rw [e2]; exact e1
    · have := gc i hi
      have e := R.c i hi
      rw [ex, ec] at e
      change mv a.Jc0 v.x i + (((a.reduced hom rhs).Dc.getD []).getD i 0 - a.δc) * v.c.getD i 0 = _
      linear_combination this + e
    · have := gd i hi
      have e := R.d i hi
      rw [ex, es, ed] at e
      change mv a.Jd0 v.x i - v.s.getD i 0 + (((a.reduced hom rhs).Dd.getD []).getD i 0 - a.δd) * v.d.getD i 0 = _
      linear_combination this + e
  · intro S
    refine ⟨fun i hi => ?_, fun i hi => ?_, fun i hi => ?_, fun i hi => ?_, fun i hi => ?_, fun i hi => S.s i hi, fun i hi => ?_, fun i hi => ?_⟩
    · have e1 : (redW a.W a.Wfac (a.Dx.map X5.x)).2.1 * mv (redW a.W a.Wfac (a.Dx.map X5.x)).1 v.x i +
        (((redW a.W a.Wfac (a.Dx.map X5.x)).2.2.getD []).getD i 0 + a.δx) * v.x.getD i 0 + mtv a.Jc0 v.c i + mtv a.Jd0 v.d i =
          rhs.x.x.getD i 0 := S.x i hi
      rw [Wr i hi] at e1
      exact e1
    · rw [enc i hi, ec]
      have := hp.nc i hi
      field_simp
      ring
    · rw [epc i hi, ec]
      have := hp.pc i hi
      field_simp
      ring
    · rw [end' i hi, ed]
      have := hp.nd i hi
      field_simp
      ring
    · rw [epd i hi, ed]
      have := hp.pd i hi
      field_simp
      ring
    · have := gc i hi
      have e : mv a.Jc0 v.x i + (((a.reduced hom rhs).Dc.getD []).getD i 0 - a.δc) * v.c.getD i 0 = (a.redRhs hom rhs).c.getD i 0 := S.c i hi
      rw [ex, ec]
      linear_combination e - this
    · have := gd i hi
      have e : mv a.Jd0 v.x i - v.s.getD i 0 + (((a.reduced hom rhs).Dd.getD []).getD i 0 - a.δd) * v.d.getD i 0 = (a.redRhs hom rhs).d.getD i 0 :=
        S.d i hi
      rw [ex, es, ed]
      linear_combination e - this

end

end Verif.AugResto
