import Verif.Spec.AugResto
import Verif.Proof.PDSystem2

/-! # Proofs about the restoration-phase augmented system -/

namespace Verif.AugResto
open Finset Verif.Matrix Verif.PDSystem

set_option linter.unusedSectionVars false
set_option linter.unusedVariables false
set_option linter.unusedSimpArgs false

section
variable {K : Type} [Field K]

theorem locate5 (a b c d e : Nat) :
    (∀ i, i < a → locate [a, b, c, d, e] i = (0, i)) ∧ (∀ i, i < b → locate [a, b, c, d, e] (a + i) = (1, i)) ∧
    (∀ i, i < c → locate [a, b, c, d, e] (a + b + i) = (2, i)) ∧ (∀ i, i < d → locate [a, b, c, d, e] (a + b + c + i) = (3, i)) ∧
    (∀ i, i < e → locate [a, b, c, d, e] (a + b + c + d + i) = (4, i)) := by
  refine ⟨fun i hi => ?_, fun i hi => ?_, fun i hi => ?_, fun i hi => ?_, fun i hi => ?_⟩
  · simpa [off] using locate_off [a, b, c, d, e] 0 i (by simp) (by simpa using hi)
  · simpa [off] using locate_off [a, b, c, d, e] 1 i (by simp) (by simpa using hi)
  · simpa [off] using locate_off [a, b, c, d, e] 2 i (by simp) (by simpa using hi)
  · simpa [off, Nat.add_assoc] using locate_off [a, b, c, d, e] 3 i (by simp) (by simpa using hi)
  · simpa [off, Nat.add_assoc] using locate_off [a, b, c, d, e] 4 i (by simp) (by simpa using hi)

theorem sum5 (a b c d e : Nat) (f : Nat → K) : ∑ j ∈ range (a + (b + (c + (d + e)))), f j =
    ∑ j ∈ range a, f j + ∑ j ∈ range b, f (a + j) + ∑ j ∈ range c, f (a + b + j) + ∑ j ∈ range d, f (a + b + c + j)
      + ∑ j ∈ range e, f (a + b + c + d + j) := by
  rw [Finset.sum_range_add, Finset.sum_range_add, Finset.sum_range_add, Finset.sum_range_add]
  simp only [Nat.add_assoc]
  ring

theorem flat5 (v : X5 K) (a b c d e : Nat) (hx : v.x.length = a) (h1 : v.nc.length = b) (h2 : v.pc.length = c) (h3 : v.nd.length = d)
    (h4 : v.pd.length = e) :
    (∀ i, i < a → v.flat.getD i 0 = v.x.getD i 0) ∧ (∀ i, i < b → v.flat.getD (a + i) 0 = v.nc.getD i 0) ∧
    (∀ i, i < c → v.flat.getD (a + b + i) 0 = v.pc.getD i 0) ∧ (∀ i, i < d → v.flat.getD (a + b + c + i) 0 = v.nd.getD i 0) ∧
    (∀ i, i < e → v.flat.getD (a + b + c + d + i) 0 = v.pd.getD i 0) := by
  refine ⟨fun i hi => ?_, fun i hi => ?_, fun i hi => ?_, fun i hi => ?_, fun i hi => ?_⟩ <;> unfold X5.flat
  · rw [List.getD_append _ _ _ _ (by omega)]
  · rw [List.getD_append_right _ _ _ _ (by omega), show a + i - v.x.length = i by omega, List.getD_append _ _ _ _ (by omega)]
  · rw [List.getD_append_right _ _ _ _ (by omega), show a + b + i - v.x.length = b + i by omega,
      List.getD_append_right _ _ _ _ (by omega), show b + i - v.nc.length = i by omega, List.getD_append _ _ _ _ (by omega)]
  · rw [List.getD_append_right _ _ _ _ (by omega), show a + b + c + i - v.x.length = b + (c + i) by omega,
      List.getD_append_right _ _ _ _ (by omega), show b + (c + i) - v.nc.length = c + i by omega,
      List.getD_append_right _ _ _ _ (by omega), show c + i - v.pc.length = i by omega, List.getD_append _ _ _ _ (by omega)]
  · rw [List.getD_append_right _ _ _ _ (by omega), show a + b + c + d + i - v.x.length = b + (c + (d + i)) by omega,
      List.getD_append_right _ _ _ _ (by omega), show b + (c + (d + i)) - v.nc.length = c + (d + i) by omega,
      List.getD_append_right _ _ _ _ (by omega), show c + (d + i) - v.pc.length = d + i by omega,
      List.getD_append_right _ _ _ _ (by omega), show d + i - v.nd.length = i by omega]

/-- the five ranges cover the restoration variables. -/
theorem cover5 (a b c d e : Nat) (P : Nat → Prop) (h0 : ∀ i, i < a → P i) (h1 : ∀ i, i < b → P (a + i)) (h2 : ∀ i, i < c → P (a + b + i))
    (h3 : ∀ i, i < d → P (a + b + c + i)) (h4 : ∀ i, i < e → P (a + b + c + d + i)) : ∀ i, i < a + (b + (c + (d + e))) → P i := by
  intro i hi
  by_cases g0 : i < a
  · exact h0 i g0
  by_cases g1 : i < a + b
  · have := h1 (i - a) (by omega); rwa [show a + (i - a) = i by omega] at this
  by_cases g2 : i < a + b + c
  · have := h2 (i - (a + b)) (by omega); rwa [show a + b + (i - (a + b)) = i by omega] at this
  by_cases g3 : i < a + b + c + d
  · have := h3 (i - (a + b + c)) (by omega); rwa [show a + b + c + (i - (a + b + c)) = i by omega] at this
  · have := h4 (i - (a + b + c + d)) (by omega); rwa [show a + b + c + d + (i - (a + b + c + d)) = i by omega] at this

theorem sumc {n : Nat} {f g : Nat → K} (hfg : ∀ j, j < n → f j = g j) : ∑ j ∈ range n, f j = ∑ j ∈ range n, g j :=
  Finset.sum_congr rfl (fun j hj => hfg j (by simpa using hj))

theorem add5 {a b c d e a' b' c' d' e' : K} (h1 : a = a') (h2 : b = b') (h3 : c = c') (h4 : d = d') (h5 : e = e') :
    a + b + c + d + e = a' + b' + c' + d' + e' := by rw [h1, h2, h3, h4, h5]

/-- sum over an identity block. -/
theorem sum_ident (n i : Nat) (hi : i < n) (f : K) (x : Nat → K) : ∑ j ∈ range n, (if i = j then f else 0) * x j = f * x i := sum_diag n i hi f x

theorem sum_ident' (n i : Nat) (hi : i < n) (f : K) (x : Nat → K) : ∑ j ∈ range n, (if j = i then f else 0) * x j = f * x i := by
  rw [← sum_diag n i hi f x]
  exact sumc (fun j _ => by simp only [eq_comm])

theorem locate1 (n i : Nat) (hi : i < n) : locate [n] i = (0, i) := by simp [locate, hi]

/-- rows of the restoration Jacobian of c. -/
theorem restoJc_mv (Jc0 : Mat K) (nd : Nat) (v : X5 K) (hx : v.x.length = Jc0.dims.2) (h1 : v.nc.length = Jc0.dims.1)
    (h2 : v.pc.length = Jc0.dims.1) (h3 : v.nd.length = nd) (h4 : v.pd.length = nd) (i : Nat) (hi : i < Jc0.dims.1) :
    mv (restoJc Jc0 nd) v.flat i = mv Jc0 v.x i + v.nc.getD i 0 - v.pc.getD i 0 := by
  have F := flat5 v _ _ _ _ _ hx h1 h2 h3 h4
  have L := locate5 Jc0.dims.2 Jc0.dims.1 Jc0.dims.1 nd nd
  have L1 := locate1 Jc0.dims.1 i hi
  unfold mv
  have hd : (restoJc Jc0 nd).dims.2 = Jc0.dims.2 + (Jc0.dims.1 + (Jc0.dims.1 + (nd + nd))) := by simp [restoJc, Mat.dims, xdims]
  rw [hd, sum5]
  have e0 : ∀ j, j < Jc0.dims.2 → ent (restoJc Jc0 nd) i j = ent Jc0 i j := by
    intro j hj; simp [restoJc, ent, xdims, L.1 j hj, L1]
  have e1 : ∀ j, j < Jc0.dims.1 → ent (restoJc Jc0 nd) i (Jc0.dims.2 + j) = if i = j then 1 else 0 := by
    intro j hj; simp [restoJc, ent, xdims, L.2.1 j hj, L1]
  have e2 : ∀ j, j < Jc0.dims.1 → ent (restoJc Jc0 nd) i (Jc0.dims.2 + Jc0.dims.1 + j) = if i = j then -1 else 0 := by
    intro j hj; simp [restoJc, ent, xdims, L.2.2.1 j hj, L1]
  have e3 : ∀ j, j < nd → ent (restoJc Jc0 nd) i (Jc0.dims.2 + Jc0.dims.1 + Jc0.dims.1 + j) = 0 := by
    intro j hj; simp [restoJc, ent, xdims, L.2.2.2.1 j hj, L1]
  have e4 : ∀ j, j < nd → ent (restoJc Jc0 nd) i (Jc0.dims.2 + Jc0.dims.1 + Jc0.dims.1 + nd + j) = 0 := by
    intro j hj; simp [restoJc, ent, xdims, L.2.2.2.2 j hj, L1]
  rw [add5 (sumc (fun j hj => by rw [e0 j hj, F.1 j hj])) (sumc (fun j hj => by rw [e1 j hj, F.2.1 j hj]))
    (sumc (fun j hj => by rw [e2 j hj, F.2.2.1 j hj])) (sumc (fun j hj => by rw [e3 j hj, zero_mul]))
    (sumc (fun j hj => by rw [e4 j hj, zero_mul])), sum_ident _ _ hi, sum_ident _ _ hi]
  simp only [Finset.sum_const_zero]
  ring

/-- columns of the restoration Jacobian of c. -/
theorem restoJc_mtv (Jc0 : Mat K) (nd : Nat) (y : List K) :
    (∀ i, i < Jc0.dims.2 → mtv (restoJc Jc0 nd) y i = mtv Jc0 y i) ∧
    (∀ i, i < Jc0.dims.1 → mtv (restoJc Jc0 nd) y (Jc0.dims.2 + i) = y.getD i 0) ∧
    (∀ i, i < Jc0.dims.1 → mtv (restoJc Jc0 nd) y (Jc0.dims.2 + Jc0.dims.1 + i) = - y.getD i 0) ∧
    (∀ i, i < nd → mtv (restoJc Jc0 nd) y (Jc0.dims.2 + Jc0.dims.1 + Jc0.dims.1 + i) = 0) ∧
    (∀ i, i < nd → mtv (restoJc Jc0 nd) y (Jc0.dims.2 + Jc0.dims.1 + Jc0.dims.1 + nd + i) = 0) := by
  have L := locate5 Jc0.dims.2 Jc0.dims.1 Jc0.dims.1 nd nd
  have hd : (restoJc Jc0 nd).dims.1 = Jc0.dims.1 := by simp [restoJc, Mat.dims]
  have L1 : ∀ j, j < Jc0.dims.1 → locate [Jc0.dims.1] j = (0, j) := fun j hj => locate1 _ _ hj
  refine ⟨fun i hi => ?_, fun i hi => ?_, fun i hi => ?_, fun i hi => ?_, fun i hi => ?_⟩ <;> unfold mtv <;> rw [hd]
  · exact sumc (fun j hj => by simp [restoJc, ent, xdims, L.1 i hi, L1 j hj])
  · have := sum_ident' Jc0.dims.1 i hi 1 (fun j => y.getD j 0)
    rw [one_mul] at this
    rw [← this]
    exact sumc (fun j hj => by simp [restoJc, ent, xdims, L.2.1 i hi, L1 j hj])
  · have := sum_ident' Jc0.dims.1 i hi (-1) (fun j => y.getD j 0)
    rw [neg_one_mul] at this
    rw [← this]
    exact sumc (fun j hj => by simp [restoJc, ent, xdims, L.2.2.1 i hi, L1 j hj])
  · rw [sumc (g := fun _ => 0) (fun j hj => by simp [restoJc, ent, xdims, L.2.2.2.1 i hi, L1 j hj]), Finset.sum_const_zero]
  · rw [sumc (g := fun _ => 0) (fun j hj => by simp [restoJc, ent, xdims, L.2.2.2.2 i hi, L1 j hj]), Finset.sum_const_zero]

/-- rows of the restoration Jacobian of d. -/
theorem restoJd_mv (Jd0 : Mat K) (nc : Nat) (v : X5 K) (hx : v.x.length = Jd0.dims.2) (h1 : v.nc.length = nc)
    (h2 : v.pc.length = nc) (h3 : v.nd.length = Jd0.dims.1) (h4 : v.pd.length = Jd0.dims.1) (i : Nat) (hi : i < Jd0.dims.1) :
    mv (restoJd Jd0 (.ident Jd0.dims.1 1) (.ident Jd0.dims.1 (-1)) nc) v.flat i = mv Jd0 v.x i + v.nd.getD i 0 - v.pd.getD i 0 := by
  have F := flat5 v _ _ _ _ _ hx h1 h2 h3 h4
  have L := locate5 Jd0.dims.2 nc nc Jd0.dims.1 Jd0.dims.1
  have L1 := locate1 Jd0.dims.1 i hi
  generalize hJ : restoJd Jd0 (.ident Jd0.dims.1 1) (.ident Jd0.dims.1 (-1)) nc = J
  unfold mv
  have hd : J.dims.2 = Jd0.dims.2 + (nc + (nc + (Jd0.dims.1 + Jd0.dims.1))) := by rw [← hJ]; simp [restoJd, Mat.dims, xdims]
  rw [hd, sum5]
  have e0 : ∀ j, j < Jd0.dims.2 → ent J i j = ent Jd0 i j := by
    intro j hj; rw [← hJ]; simp [restoJd, ent, xdims, L.1 j hj, L1]
  have e1 : ∀ j, j < nc → ent J i (Jd0.dims.2 + j) = 0 := by
    intro j hj; rw [← hJ]; simp [restoJd, ent, xdims, L.2.1 j hj, L1]
  have e2 : ∀ j, j < nc → ent J i (Jd0.dims.2 + nc + j) = 0 := by
    intro j hj; rw [← hJ]; simp [restoJd, ent, xdims, L.2.2.1 j hj, L1]
  have e3 : ∀ j, j < Jd0.dims.1 → ent J i (Jd0.dims.2 + nc + nc + j) = if i = j then 1 else 0 := by
    intro j hj; rw [← hJ]; simp [restoJd, ent, xdims, L.2.2.2.1 j hj, L1]
  have e4 : ∀ j, j < Jd0.dims.1 → ent J i (Jd0.dims.2 + nc + nc + Jd0.dims.1 + j) = if i = j then -1 else 0 := by
    intro j hj; rw [← hJ]; simp [restoJd, ent, xdims, L.2.2.2.2 j hj, L1]
  rw [add5 (sumc (fun j hj => by rw [e0 j hj, F.1 j hj])) (sumc (fun j hj => by rw [e1 j hj, zero_mul]))
    (sumc (fun j hj => by rw [e2 j hj, zero_mul])) (sumc (fun j hj => by rw [e3 j hj, F.2.2.2.1 j hj]))
    (sumc (fun j hj => by rw [e4 j hj, F.2.2.2.2 j hj])), sum_ident _ _ hi, sum_ident _ _ hi]
  simp only [Finset.sum_const_zero]
  ring

/-- columns of the restoration Jacobian of d. -/
theorem restoJd_mtv (Jd0 : Mat K) (nc : Nat) (y : List K) :
    (∀ i, i < Jd0.dims.2 → mtv (restoJd Jd0 (.ident Jd0.dims.1 1) (.ident Jd0.dims.1 (-1)) nc) y i = mtv Jd0 y i) ∧
    (∀ i, i < nc → mtv (restoJd Jd0 (.ident Jd0.dims.1 1) (.ident Jd0.dims.1 (-1)) nc) y (Jd0.dims.2 + i) = 0) ∧
    (∀ i, i < nc → mtv (restoJd Jd0 (.ident Jd0.dims.1 1) (.ident Jd0.dims.1 (-1)) nc) y (Jd0.dims.2 + nc + i) = 0) ∧
    (∀ i, i < Jd0.dims.1 → mtv (restoJd Jd0 (.ident Jd0.dims.1 1) (.ident Jd0.dims.1 (-1)) nc) y (Jd0.dims.2 + nc + nc + i) = y.getD i 0) ∧
    (∀ i, i < Jd0.dims.1 → mtv (restoJd Jd0 (.ident Jd0.dims.1 1) (.ident Jd0.dims.1 (-1)) nc) y (Jd0.dims.2 + nc + nc + Jd0.dims.1 + i)
      = - y.getD i 0) := by
  have L := locate5 Jd0.dims.2 nc nc Jd0.dims.1 Jd0.dims.1
  have hd : (restoJd Jd0 (.ident Jd0.dims.1 1) (.ident Jd0.dims.1 (-1)) nc : Mat K).dims.1 = Jd0.dims.1 := by simp [restoJd, Mat.dims]
  have L1 : ∀ j, j < Jd0.dims.1 → locate [Jd0.dims.1] j = (0, j) := fun j hj => locate1 _ _ hj
  refine ⟨fun i hi => ?_, fun i hi => ?_, fun i hi => ?_, fun i hi => ?_, fun i hi => ?_⟩ <;> unfold mtv <;> rw [hd]
  · exact sumc (fun j hj => by simp [restoJd, ent, xdims, L.1 i hi, L1 j hj])
  · rw [sumc (g := fun _ => 0) (fun j hj => by simp [restoJd, ent, xdims, L.2.1 i hi, L1 j hj]), Finset.sum_const_zero]
  · rw [sumc (g := fun _ => 0) (fun j hj => by simp [restoJd, ent, xdims, L.2.2.1 i hi, L1 j hj]), Finset.sum_const_zero]
  · have := sum_ident' Jd0.dims.1 i hi 1 (fun j => y.getD j 0)
    rw [one_mul] at this
    rw [← this]
    exact sumc (fun j hj => by simp [restoJd, ent, xdims, L.2.2.2.1 i hi, L1 j hj])
  · have := sum_ident' Jd0.dims.1 i hi (-1) (fun j => y.getD j 0)
    rw [neg_one_mul] at this
    rw [← this]
    exact sumc (fun j hj => by simp [restoJd, ent, xdims, L.2.2.2.2 i hi, L1 j hj])

/-- rows of the Hessian block. -/
theorem hess_mv (W : Hess K) (nx : Nat) (hW : W.OK nx) (x : List K) (i : Nat) (hi : i < nx) :
    ∑ j ∈ range nx, ent (W.mat nx) i j * x.getD j 0 = W.mv x i := by
  cases W with
  | exact h f0 eta dr =>
    simp only [Hess.mat, Hess.mv, ent]
    have : ∀ j, j < nx → (∑ l ∈ range 2, (if l = 0 then f0 else eta) * ent (if l = 0 then h else .diag dr) i j) * x.getD j 0 =
        f0 * (ent h i j * x.getD j 0) + (if i = j then eta * dr.getD i 0 else 0) * x.getD j 0 := by
      intro j hj
      rw [Finset.sum_range_succ, Finset.sum_range_one]
      simp only [if_true, one_ne_zero, if_false, ent]
      by_cases hij : i = j <;> simp [hij] <;> ring
    rw [sumc this, Finset.sum_add_distrib, sum_ident _ _ hi, ← Finset.mul_sum]
    unfold PDSystem.mv
    rw [hW.1]
  | limited h =>
    simp only [Hess.mat, Hess.mv, PDSystem.mv]
    rw [show h.dims.2 = nx by rw [show h.dims = (nx, nx) from hW]]

/-- rows of the restoration Hessian. -/
theorem restoW_mv (W : Hess K) (nx nc nd : Nat) (hW : W.OK nx) (v : X5 K) (hx : v.x.length = nx) (h1 : v.nc.length = nc)
    (h2 : v.pc.length = nc) (h3 : v.nd.length = nd) (h4 : v.pd.length = nd) :
    (∀ i, i < nx → mv (restoW W nx nc nd) v.flat i = W.mv v.x i) ∧
    (∀ i, nx ≤ i → i < nx + (nc + (nc + (nd + nd))) → mv (restoW W nx nc nd) v.flat i = 0) := by
  have F := flat5 v _ _ _ _ _ hx h1 h2 h3 h4
  have L := locate5 nx nc nc nd nd
  have hd : (restoW W nx nc nd).dims.2 = nx + (nc + (nc + (nd + nd))) := by simp [restoW, Mat.dims, xdims]
  constructor
  · intro i hi
    unfold mv
    rw [hd, sum5]
    have e0 : ∀ j, j < nx → ent (restoW W nx nc nd) i j = ent (W.mat nx) i j := by
      intro j hj; simp [restoW, ent, xdims, L.1 j hj, L.1 i hi]
    rw [add5 (sumc (fun j hj => by rw [e0 j hj, F.1 j hj]))
      (sumc (g := fun _ => 0) (fun j hj => by simp [restoW, ent, xdims, L.1 i hi, L.2.1 j hj]))
      (sumc (g := fun _ => 0) (fun j hj => by simp [restoW, ent, xdims, L.1 i hi, L.2.2.1 j hj]))
      (sumc (g := fun _ => 0) (fun j hj => by simp [restoW, ent, xdims, L.1 i hi, L.2.2.2.1 j hj]))
      (sumc (g := fun _ => 0) (fun j hj => by simp [restoW, ent, xdims, L.1 i hi, L.2.2.2.2 j hj])), hess_mv W nx hW _ i hi]
    simp
  · intro i hge hlt
    have hb : 0 < (locate [nx, nc, nc, nd, nd] i).1 := by
      have hl := locate_lt [nx, nc, nc, nd, nd] i (by simpa [Nat.add_assoc] using hlt)
      rcases Nat.eq_zero_or_pos (locate [nx, nc, nc, nd, nd] i).1 with h0 | h0
      · rw [h0] at hl
        simp [off] at hl
        omega
      · exact h0
    unfold mv
    rw [sumc (g := fun _ => 0), Finset.sum_const_zero]
    intro j hj
    have : ent (restoW W nx nc nd) i j = 0 := by
      simp only [restoW, ent, xdims]
      generalize (locate [nx, nc, nc, nd, nd] i).1 = bi at *
      have : bi ≠ 0 := by omega
      simp [this]
    rw [this, zero_mul]

end

end Verif.AugResto
