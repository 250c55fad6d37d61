import Verif.Proof.Scaling

set_option linter.unusedSectionVars false
set_option linter.unusedVariables false
set_option linter.unusedSimpArgs false

namespace Verif.Scaling
open Verif.Matrix Finset

section
variable {K : Type} [Field K] [DecidableEq K]

theorem applyXLU_ok {hom : List K → Option K} (hh : HomOK hom) {of df : K} {dx dc dd : Option (List K)} {r : Nat} {pos : List Nat}
    (hx : FacOK r dx) (hw : ∀ p ∈ pos, p < r) (hn : pos.Nodup) (lu : List K) (hlu : lu.length = pos.length) :
    IsScaledLU dx pos lu ((determine of df dx dc dd).applyXLU hom (.expansion r pos) lu) := by
  unfold Scal.applyXLU
  cases dx with
  | none => exact ⟨hlu, hlu, fun k _ => by simp [determine, optFac]⟩
  | some v =>
    rw [if_pos (by simp [determine])]
    have h := lu_core hh hw hn ((determine of df (some v) dc dd).applyX) (optFac (some v))
      (fun x hl => ⟨optMul_length hx hl, fun i hi => optMul_get hx hl hi⟩) lu hlu
    exact ⟨hlu, h.1, h.2⟩

theorem applyDLU_ok {hom : List K → Option K} (hh : HomOK hom) {of df : K} {dx dc dd : Option (List K)} {r : Nat} {pos : List Nat}
    (hd : FacOK r dd) (hw : ∀ p ∈ pos, p < r) (hn : pos.Nodup) (lu : List K) (hlu : lu.length = pos.length) :
    IsScaledLU dd pos lu ((determine of df dx dc dd).applyDLU hom (.expansion r pos) lu) := by
  unfold Scal.applyDLU
  rw [det_rowD]
  cases dd with
  | none => exact ⟨hlu, hlu, fun k _ => by simp [optFac]⟩
  | some v =>
    rw [if_pos (by simp)]
    have h := lu_core hh hw hn ((determine of df dx dc (some v)).applyD) (optFac (some v))
      (fun x hl => by
        unfold Scal.applyD; rw [det_rowD]
        exact ⟨optMul_length hd hl, fun i hi => optMul_get hd hl hi⟩) lu hlu
    exact ⟨hlu, h.1, h.2⟩

theorem unapplyDLU_ok {hom : List K → Option K} (hh : HomOK hom) {of df : K} {dx dc dd : Option (List K)} {r : Nat} {pos : List Nat}
    (hd : FacOK r dd) (hw : ∀ p ∈ pos, p < r) (hn : pos.Nodup) (lu : List K) (hlu : lu.length = pos.length) :
    ((determine of df dx dc dd).unapplyDLU hom (.expansion r pos) lu).length = pos.length ∧ ∀ k, k < pos.length →
      ((determine of df dx dc dd).unapplyDLU hom (.expansion r pos) lu).getD k 0 = lu.getD k 0 / optFac dd (pos.getD k 0) := by
  unfold Scal.unapplyDLU
  rw [det_rowD]
  cases dd with
  | none => exact ⟨hlu, fun k _ => by simp [optFac]⟩
  | some v =>
    rw [if_pos (by simp)]
    have h := lu_core hh hw hn ((determine of df dx dc (some v)).unapplyD) (fun i => (optFac (some v) i)⁻¹)
      (fun x hl => by
        unfold Scal.unapplyD; rw [det_rowD]
        exact ⟨optDiv_length hd hl, fun i hi => by rw [optDiv_get hd hl hi, div_eq_inv_mul]⟩) lu hlu
    refine ⟨h.1, fun k hk => ?_⟩
    rw [h.2 k hk, div_eq_inv_mul]

theorem optFac_recip {n : Nat} {d : Option (List K)} (h : FacOK n d) {i : Nat} (hi : i < n) :
    optFac (d.map (recipIf true)) i = (optFac d i)⁻¹ := by
  cases d with
  | none => simp [optFac]
  | some v =>
    have hl : i < v.length := by have := (h v rfl).1; omega
    simp only [Option.map_some, optFac, recipIf, if_true]
    rw [getD_map' _ _ _ 0 hl, one_div]

theorem map_recip_false (d : Option (List K)) : d.map (recipIf false) = d := by cases d <;> simp [recipIf]

theorem ent_scaleJac {n : Nat} {dx dr : Option (List K)} (hx : FacOK n dx) (J : Mat K) (i j : Nat) (hj : j < n) :
    ent (scaleJac (if dx.isSome || dr.isSome then some (mkSpace dr false dx true) else none) J) i j =
      optFac dr i * ent J i j * (optFac dx j)⁻¹ := by
  by_cases h : (dx.isSome || dr.isSome) = true
  · rw [if_pos h]
    simp only [scaleJac, mkSpace, ent, map_recip_false, optFac_recip hx hj]
  · rw [if_neg h]
    have h1 : dx = none := by cases dx <;> simp_all
    have h2 : dr = none := by cases dr <;> simp_all
    subst h1; subst h2
    simp [scaleJac, optFac]

theorem ent_applyHess {n : Nat} {of df : K} {dx dc dd : Option (List K)} (hx : FacOK n dx) (H : Mat K) (i j : Nat) (hi : i < n)
    (hj : j < n) :
    ent ((determine of df dx dc dd).applyHess H) i j = (optFac dx i)⁻¹ * ent H i j * (optFac dx j)⁻¹ := by
  cases dx with
  | none => simp [determine, Scal.applyHess, optFac]
  | some v =>
    have h1 := optFac_recip hx hi
    have h2 := optFac_recip hx hj
    simp only [Option.map_some] at h1 h2
    simp [determine, Scal.applyHess, ent, h1, h2]

theorem applyGrad_get {n : Nat} {of df : K} {dx dc dd : Option (List K)} (hx : FacOK n dx) {g : List K} (hg : g.length = n)
    (j : Nat) (hj : j < n) :
    ((determine of df dx dc dd).applyGrad g).getD j 0 = df * of * (g.getD j 0 / optFac dx j) := by
  unfold Scal.applyGrad Scal.unapplyX
  rw [scalIf_get]
  simp only [determine, Scal.applyObj, mul_one]
  rw [optDiv_get hx hg hj]

theorem applyC_get {n : Nat} {of df : K} {dx dc dd : Option (List K)} (h : FacOK n dc) {y : List K} (hy : y.length = n)
    (j : Nat) (hj : j < n) : ((determine of df dx dc dd).applyC y).getD j 0 = optFac dc j * y.getD j 0 := by
  unfold Scal.applyC
  rw [det_rowC, optMul_get h hy hj]

theorem applyD_get {n : Nat} {of df : K} {dx dc dd : Option (List K)} (h : FacOK n dd) {y : List K} (hy : y.length = n)
    (j : Nat) (hj : j < n) : ((determine of df dx dc dd).applyD y).getD j 0 = optFac dd j * y.getD j 0 := by
  unfold Scal.applyD
  rw [det_rowD, optMul_get h hy hj]

theorem applyC_length {n : Nat} {of df : K} {dx dc dd : Option (List K)} (h : FacOK n dc) {y : List K} (hy : y.length = n) :
    ((determine of df dx dc dd).applyC y).length = n := by
  unfold Scal.applyC
  rw [det_rowC, optMul_length h hy]

theorem applyD_length {n : Nat} {of df : K} {dx dc dd : Option (List K)} (h : FacOK n dd) {y : List K} (hy : y.length = n) :
    ((determine of df dx dc dd).applyD y).length = n := by
  unfold Scal.applyD
  rw [det_rowD, optMul_length h hy]

theorem dualRes_core {p : Prob K} (hp : ProbOK p) {hom : List K → Option K} (hh : HomOK hom) {of df : K} {dx dc dd : Option (List K)}
    (hF : df * of ≠ 0) (hx : FacOK p.nx dx) (hc : FacOK p.nc dc) (hd : FacOK p.nd dd) (i : Point K) (lyc : i.yc.length = p.nc)
    (lyd : i.yd.length = p.nd) (lzL : i.zL.length = p.posXL.length) (lzU : i.zU.length = p.posXU.length) (j : Nat) (hj : j < p.nx) :
    let s := determine of df dx dc dd
    let u := unscalePoint p s hom i
    dualRes (p.gradF u.x) (ent (p.jacC u.x)) (ent (p.jacD u.x)) p.nc p.nd p.posXL p.posXU u.yc u.yd u.zL u.zU j =
      optFac dx j / (df * of) *
        dualRes (evalGradF p s i.x) (ent (evalJacC p s i.x)) (ent (evalJacD p s i.x)) p.nc p.nd p.posXL p.posXU i.yc i.yd i.zL i.zU j := by
  intro s u
  have hxj := optFac_ne hx hj
  have hdf : df ≠ 0 := left_ne_zero_of_mul hF
  have hof : of ≠ 0 := right_ne_zero_of_mul hF
  have hu : s.unapplyX i.x = u.x := rfl
  have e1 : (evalGradF p s i.x).getD j 0 = df * of * ((p.gradF u.x).getD j 0 / optFac dx j) := by
    unfold evalGradF; rw [hu]; exact applyGrad_get hx (hp.g _) j hj
  have e2 : ∀ l, ent (evalJacC p s i.x) l j = optFac dc l * ent (p.jacC u.x) l j * (optFac dx j)⁻¹ := by
    intro l; exact ent_scaleJac hx _ l j hj
  have e3 : ∀ l, ent (evalJacD p s i.x) l j = optFac dd l * ent (p.jacD u.x) l j * (optFac dx j)⁻¹ := by
    intro l; exact ent_scaleJac hx _ l j hj
  have un : s.unapplyObj 1 = (df * of)⁻¹ := by simp [s, determine, Scal.unapplyObj]
  have e4 : ∀ l, l < p.nc → u.yc.getD l 0 = (df * of)⁻¹ * (optFac dc l * i.yc.getD l 0) := by
    intro l hl
    show (scalIf (s.unapplyObj 1) (s.applyC i.yc)).getD l 0 = _
    rw [scalIf_get, applyC_get hc lyc l hl, un]
  have e5 : ∀ l, l < p.nd → u.yd.getD l 0 = (df * of)⁻¹ * (optFac dd l * i.yd.getD l 0) := by
    intro l hl
    show (scalIf (s.unapplyObj 1) (s.applyD i.yd)).getD l 0 = _
    rw [scalIf_get, applyD_get hd lyd l hl, un]
  have e6 : ∀ k, k < p.posXL.length → u.zL.getD k 0 = (df * of)⁻¹ * (optFac dx (p.posXL.getD k 0) * i.zL.getD k 0) := by
    intro k hk
    show (scalIf (s.unapplyObj 1) (s.applyXLU hom p.PxL i.zL)).getD k 0 = _
    rw [scalIf_get, un]
    exact congrArg _ ((applyXLU_ok (of := of) (df := df) (dc := dc) (dd := dd) hh hx hp.xl hp.xlN i.zL lzL).2.2 k hk)
  have e7 : ∀ k, k < p.posXU.length → u.zU.getD k 0 = (df * of)⁻¹ * (optFac dx (p.posXU.getD k 0) * i.zU.getD k 0) := by
    intro k hk
    show (scalIf (s.unapplyObj 1) (s.applyXLU hom p.PxU i.zU)).getD k 0 = _
    rw [scalIf_get, un]
    exact congrArg _ ((applyXLU_ok (of := of) (df := df) (dc := dc) (dd := dd) hh hx hp.xu hp.xuN i.zU lzU).2.2 k hk)
  unfold dualRes
  rw [mul_add, mul_sub, mul_add, mul_add, Finset.mul_sum, Finset.mul_sum, Finset.mul_sum, Finset.mul_sum, e1]
  congr 1
  · congr 1
    · congr 1
      · congr 1
        · field_simp
        · apply Finset.sum_congr rfl
          intro l hl
          rw [e4 l (by simpa using hl), e2 l]
          field_simp
      · apply Finset.sum_congr rfl
        intro l hl
        rw [e5 l (by simpa using hl), e3 l]
        field_simp
    · apply Finset.sum_congr rfl
      intro k hk
      by_cases he : p.posXL.getD k 0 = j
      · rw [if_pos he, if_pos he, e6 k (by simpa using hk), he]
        field_simp
      · rw [if_neg he, if_neg he, mul_zero]
  · apply Finset.sum_congr rfl
    intro k hk
    by_cases he : p.posXU.getD k 0 = j
    · rw [if_pos he, if_pos he, e7 k (by simpa using hk), he]
      field_simp
    · rw [if_neg he, if_neg he, mul_zero]
end

/-! derivatives -/

theorem along_length {x h : List ℝ} {n : Nat} (hx : x.length = n) (hh : h.length = n) (t : ℝ) : (along x t h).length = n := by
  simp [along, hx, hh]

theorem along_get {x h : List ℝ} {n : Nat} (hx : x.length = n) (hh : h.length = n) (t : ℝ) {i : Nat} (hi : i < n) :
    (along x t h).getD i 0 = x.getD i 0 + t * h.getD i 0 := by
  unfold along
  rw [getD_zipWith _ _ _ _ 0 0 (by omega) (by omega)]

theorem optDiv_along {n : Nat} {d : Option (List ℝ)} (hd : FacOK n d) {x h : List ℝ} (hx : x.length = n) (hh : h.length = n) (t : ℝ) :
    optDiv d (along x t h) = along (optDiv d x) t (optDiv d h) :=
  list_ext (optDiv_length hd (along_length hx hh t)) (along_length (optDiv_length hd hx) (optDiv_length hd hh) t) (fun i hi => by
    rw [optDiv_get hd (along_length hx hh t) hi, along_get hx hh t hi, along_get (optDiv_length hd hx) (optDiv_length hd hh) t hi,
      optDiv_get hd hx hi, optDiv_get hd hh hi]
    ring)

end Verif.Scaling
