import Verif.Proof.CurrIter2

/-! # The gradient of the Lagrangian and the violations in the user's numbering -/

set_option linter.unusedSectionVars false
set_option linter.unusedVariables false
set_option linter.unusedSimpArgs false

namespace Verif.CurrIter
open Verif Verif.Adapter Verif.Matrix Finset
open Verif.Scaling hiding evalC evalD

section sit
variable {K : Type} [Field K] [LinearOrder K] [IsStrictOrderedRing K] {t : Fixed} {loInf upInf : Num} {xb gb : List (Num × Num)} {deps : List Nat} {s : Spaces}
  {U : User K} {of df : K} {dx dc dd : Option (List K)} {hom : List K → Option K} {q : Curr K}

variable (H : Sit t loInf upInf xb gb deps s U of df dx dc dd hom q)

local notation "SC" => determine of df dx dc dd
set_option quotPrecheck false in
local notation "XX" => User.full U s (Scal.unapplyX (determine of df dx dc dd) q.pt.x)

include H

/-- the point reported for a variable of the algorithm. -/
theorem full_user {k : Nat} (hk : k < s.nVar) : XX (s.user k) = vec q.pt.x k / optFac dx k := by
  obtain ⟨hE, hI, -, -⟩ := spaces_variables H.spaces
  unfold User.full resortX
  rw [(hI _ (hE.2.1 k hk).1 k).mpr ⟨hk, rfl⟩]
  simp only
  rw [← currX_false, vec_currX H hk]

theorem full_removed {i : Nat} (hi : i < xb.length) (hr : Removed s.treat (bnd xb i)) : XX i = U.xl i :=
  (resortX_user H.spaces U.xl U.fullX0 _ i hi).2.1 hr

/-- one side of the bound multipliers, as a sum. -/
theorem resortBound_sum (pos : List Nat) (hp : pos.Pairwise (· < ·)) (hr : ∀ k ∈ pos, k < s.nVar) (z z0 : Nat → K) {c : Nat} (hc : c < s.nVar) :
    resortBound s pos z z0 (s.user c) = ∑ k ∈ range pos.length, if pos.getD k 0 = c then z k else 0 := by
  obtain ⟨a1, a2⟩ := resortBound_at H.spaces pos hp hr z z0
  have hn : pos.Nodup := hp.imp fun h => Nat.ne_of_lt h
  by_cases hm : c ∈ pos
  · obtain ⟨k, hk, rfl⟩ := List.mem_iff_getElem.mp hm
    rw [a1 k hk, ← List.getD_eq_getElem (d := 0) _ hk, sum_pick hn hk z]
  · obtain ⟨hE, -, -, -⟩ := spaces_variables H.spaces
    rw [sum_none hm, a2 _ (hE.2.1 c hc).1]
    intro k hk he
    exact hm (user_injective H.spaces (hr k hk) hc he ▸ hk)

theorem grad_core (zL0 zU0 : Nat → K) {c : Nat} (hc : c < s.nVar) :
    vec (currGradLag (innerProb U s) (SC) hom q false) c =
      U.gradF (XX) (s.user c) + (U.jacPos.zipIdx.map fun e => if e.1.2 = s.user c then
          rowMult s (vec (currYc (SC) q false)) (vec (currYd (SC) q false)) e.1.1 * U.jac (XX) e.2 else 0).sum +
        (∑ k ∈ range (nFix s), if s.fixed[k]? = some (s.user c) then vec (currYc (SC) q false) (s.pc.length + k) else 0) -
        resortBound s s.pxl (vec (currZ (SC) hom (innerProb U s).PxL q.pt.zL false)) zL0 (s.user c) +
        resortBound s s.pxu (vec (currZ (SC) hom (innerProb U s).PxU q.pt.zU false)) zU0 (s.user c) := by
  obtain ⟨hl, hu⟩ := spaces_bounds H.spaces
  rw [lag_unscaled H hc, resortBound_sum H s.pxl hl.1 (fun k hk => ((hl.2 k).mp hk).1) _ zL0 hc,
    resortBound_sum H s.pxu hu.1 (fun k hk => ((hu.2 k).mp hk).1) _ zU0 hc]
  rw [currYc_false (hom := hom) (innerProb U s), currYd_false (hom := hom) (innerProb U s), currZ_false, currZ_false]
  rw [← jac_products H]
  unfold dualRes
  have hux : (unscalePoint (innerProb U s) (SC) hom q.pt).x = (SC).unapplyX q.pt.x := rfl
  rw [hux]
  have hg : ((innerProb U s).gradF ((SC).unapplyX q.pt.x)).getD c 0 = U.gradF (XX) (s.user c) := vec_range _ _ _ hc
  rw [hg, Finset.sum_range_add]
  obtain ⟨j1, j2⟩ := ent_jacC H ((SC).unapplyX q.pt.x) c hc
  have e1 : ∑ r ∈ range s.pc.length, ent ((innerProb U s).jacC ((SC).unapplyX q.pt.x)) r c * (unscalePoint (innerProb U s) (SC) hom q.pt).yc.getD r 0 =
      ∑ r ∈ range s.pc.length, userElem U.jacPos (U.jac (XX)) (s.pc.getD r 0) (s.user c) * vec (unscalePoint (innerProb U s) (SC) hom q.pt).yc r := by
    refine Finset.sum_congr rfl fun r hr => ?_
    have hr : r < s.pc.length := by simpa using hr
    rw [j1 r hr, List.getD_eq_getElem (d := 0) s.pc hr]; rfl
  have e2 : ∑ r ∈ range s.pd.length, ent ((innerProb U s).jacD ((SC).unapplyX q.pt.x)) r c * (unscalePoint (innerProb U s) (SC) hom q.pt).yd.getD r 0 =
      ∑ r ∈ range s.pd.length, userElem U.jacPos (U.jac (XX)) (s.pd.getD r 0) (s.user c) * vec (unscalePoint (innerProb U s) (SC) hom q.pt).yd r := by
    refine Finset.sum_congr rfl fun r hr => ?_
    have hr : r < s.pd.length := by simpa using hr
    rw [ent_jacD H _ c hc r hr, List.getD_eq_getElem (d := 0) s.pd hr]; rfl
  have e3 : ∑ k ∈ range (nFix s), ent ((innerProb U s).jacC ((SC).unapplyX q.pt.x)) (s.pc.length + k) c *
        (unscalePoint (innerProb U s) (SC) hom q.pt).yc.getD (s.pc.length + k) 0 =
      ∑ k ∈ range (nFix s), if s.fixed[k]? = some (s.user c) then vec (unscalePoint (innerProb U s) (SC) hom q.pt).yc (s.pc.length + k) else 0 := by
    refine Finset.sum_congr rfl fun k hk => ?_
    have hk : k < nFix s := by simpa using hk
    rw [j2 k hk]
    by_cases h : s.fixed[k]? = some (s.user c)
    · rw [if_pos h, if_pos h, one_mul]; rfl
    · rw [if_neg h, if_neg h, zero_mul]
  rw [e1, e2, e3]
  have e4 : (∑ k ∈ range s.pxl.length, if s.pxl.getD k 0 = c then (unscalePoint (innerProb U s) (SC) hom q.pt).zL.getD k 0 else 0) =
    ∑ k ∈ range s.pxl.length, if s.pxl.getD k 0 = c then vec (scalIf ((SC).unapplyObj 1) ((SC).applyXLU hom (innerProb U s).PxL q.pt.zL)) k else 0 := rfl
  have e5 : (∑ k ∈ range s.pxu.length, if s.pxu.getD k 0 = c then (unscalePoint (innerProb U s) (SC) hom q.pt).zU.getD k 0 else 0) =
    ∑ k ∈ range s.pxu.length, if s.pxu.getD k 0 = c then vec (scalIf ((SC).unapplyObj 1) ((SC).applyXLU hom (innerProb U s).PxU q.pt.zU)) k else 0 := rfl
  rw [e4, e5]
  ring

/-- the sum over the rows of fixed variables. -/
theorem fix_sum (y : Nat → K) (i : Nat) :
    (i ∉ s.fixed → (∑ k ∈ range (nFix s), if s.fixed[k]? = some i then y k else 0) = 0) ∧
      ∀ k, (hk : k < nFix s) → s.fixed[k]? = some i → (∑ k ∈ range (nFix s), if s.fixed[k]? = some i then y k else 0) = y k := by
  constructor
  · intro hi
    refine Finset.sum_eq_zero fun k _ => ?_
    rw [if_neg]
    intro h
    exact hi (List.mem_of_getElem? h)
  · intro k hk he
    rw [Finset.sum_eq_single k]
    · rw [if_pos he]
    · intro l _ hne
      rw [if_neg]
      intro h
      obtain ⟨h1, h2⟩ := List.getElem?_eq_some_iff.mp h
      obtain ⟨h3, h4⟩ := List.getElem?_eq_some_iff.mp he
      exact hne ((List.Nodup.getElem_inj_iff (fixed_nodup H)).mp (h2.trans h4.symm))
    · intro h
      exact absurd (Finset.mem_range.mpr hk) h

/-- the constraint part of the gradient of the Lagrangian. -/
theorem jac_sum (X : Nat → K) (yc yd rhs lam0 : Nat → K) (i : Nat) :
    (U.jacPos.zipIdx.map fun e => if e.1.2 = i then rowMult s yc yd e.1.1 * U.jac X e.2 else 0).sum =
      (U.jacPos.zipIdx.map fun e => if e.1.2 = i ∧ Kept gb deps e.1.1 then resortG s rhs false yc yd lam0 e.1.1 * U.jac X e.2 else 0).sum := by
  congr 1
  refine List.map_congr_left ?_
  rintro ⟨e, k⟩ hp
  obtain ⟨hk, he⟩ := (mem_zipIdx_iff U.jacPos e k).mp hp
  have hr := (H.jac e (by rw [← he]; exact List.getElem_mem hk)).1
  simp only
  rw [rowMult_lam H yc yd rhs lam0 hr]
  by_cases h1 : e.2 = i
  · by_cases h2 : Kept gb deps e.1
    · rw [if_pos h1, if_pos h2, if_pos ⟨h1, h2⟩]
    · rw [if_pos h1, if_neg h2, if_neg (fun h => h2 h.2), zero_mul]
  · rw [if_neg h1, if_neg (fun h => h1 h.1)]

/-- the bound multipliers reported in the unscaled case. -/
theorem iterZ_eq (zL0 zU0 : Nat → K) : iterZ s U (SC) hom q true true false zL0 zU0 =
    resortBoundMult s U.jacPos (U.gradF (XX)) (U.jac (XX)) (vec (currYc (SC) q false)) (vec (currYd (SC) q false))
      (vec (currZ (SC) hom (innerProb U s).PxL q.pt.zL false)) (vec (currZ (SC) hom (innerProb U s).PxU q.pt.zU false)) zL0 zU0 := by
  unfold iterZ resortBM
  simp [currX_false]

theorem makeConstraint_of_fixed {k : Nat} (hk : k < nFix s) : s.treat = .makeConstraint ∧ nFix s = s.fixed.length := by
  have hp : s.treat.isParam = false := by
    by_contra h
    unfold nFix at hk
    rw [if_pos (by simpa using h)] at hk
    omega
  have hnf : nFix s = s.fixed.length := by unfold nFix; rw [hp]; simp
  refine ⟨?_, hnf⟩
  obtain ⟨-, -, -, hF⟩ := spaces_variables H.spaces
  have hm := ((hF.2 _).mp (List.getElem_mem (by omega : k < s.fixed.length))).2.2
  cases htt : s.treat <;> rw [htt] at hp hm <;> simp [Fixed.isParam] at hp hm ⊢

/-- The internal gradient is the gradient of the Lagrangian with the reported multipliers, at every variable of the algorithm. -/
theorem grad_user (lam0 zL0 zU0 : Nat → K) {c : Nat} (hc : c < s.nVar) :
    vec (currGradLag (innerProb U s) (SC) hom q false) c =
      gradLag U gb deps (XX) (resortG s (U.rhs s) false (vec (currYc (SC) q false)) (vec (currYd (SC) q false)) lam0)
        (iterZ s U (SC) hom q true true false zL0 zU0).1 (iterZ s U (SC) hom q true true false zL0 zU0).2 (s.user c) := by
  rw [grad_core H zL0 zU0 hc, iterZ_eq H, jac_sum H _ _ _ (U.rhs s) lam0]
  unfold gradLag
  obtain ⟨hE, hI, hN, hF⟩ := spaces_variables H.spaces
  obtain ⟨f1, f2⟩ := fix_sum H (fun k => vec (currYc (SC) q false) (s.pc.length + k)) (s.user c)
  by_cases hm : s.user c ∈ s.fixed
  · obtain ⟨k, hk, he⟩ := List.mem_iff_getElem.mp hm
    obtain ⟨-, hfx, hnr⟩ := (hF.2 _).mp hm
    have hnp : s.treat.isParam = false := by
      have := (hE.2.1 c hc).2
      unfold Removed at this
      cases htt : s.treat <;> rw [htt] at this hnr <;> simp [hfx, Fixed.isParam] at this hnr ⊢
    have hnf : nFix s = s.fixed.length := by unfold nFix; rw [hnp]; simp
    obtain ⟨ht, -⟩ := makeConstraint_of_fixed H (by omega : k < nFix s)
    rw [f2 k (by omega) (List.getElem?_eq_some_iff.mpr ⟨hk, he⟩)]
    obtain ⟨b1, b2⟩ := bound_multipliers_delivered H.spaces (vec (currZ (SC) hom (innerProb U s).PxL q.pt.zL false)) zL0
    obtain ⟨c1, c2⟩ := bound_multipliers_delivered H.spaces (vec (currZ (SC) hom (innerProb U s).PxU q.pt.zU false)) zU0
    have z1 := b1.2 (s.user c) (hE.2.1 c hc).1 (by
      rintro ⟨-, h⟩
      rcases h with h | h
      · exact h.1 hfx
      · rw [ht] at h; exact absurd h.2 (by decide))
    have z2 := c2.2 (s.user c) (hE.2.1 c hc).1 (by
      rintro ⟨-, h⟩
      rcases h with h | h
      · exact h.1 hfx
      · rw [ht] at h; exact absurd h.2 (by decide))
    rw [z1, z2]
    obtain ⟨m1, -, -⟩ := fixed_multipliers_constraint H.spaces ht U.jacPos (U.gradF (XX)) (U.jac (XX)) (vec (currYc (SC) q false))
      (vec (currYd (SC) q false)) (vec (currZ (SC) hom (innerProb U s).PxL q.pt.zL false))
      (vec (currZ (SC) hom (innerProb U s).PxU q.pt.zU false)) zL0 zU0 k hk
    rw [he] at m1
    rw [← m1]
    ring
  · rw [f1 hm]
    have hz : ∀ (a b c' d e f g h : Nat → K), resortBoundMult s U.jacPos a b c' d e f g h = (resortBound s s.pxl e g, resortBound s s.pxu f h) ∨
        ¬IsFixed (bnd xb (s.user c)) := by
      intro a b c' d e f g h
      by_cases hfx : IsFixed (bnd xb (s.user c))
      · left
        have : s.treat = .relaxBounds := by
          by_contra hne
          exact hm ((hF.2 _).mpr ⟨(hE.2.1 c hc).1, hfx, hne⟩)
        unfold resortBoundMult
        rw [this]
        split <;> rfl
      · exact Or.inr hfx
    rcases hz (U.gradF (XX)) (U.jac (XX)) (vec (currYc (SC) q false))
      (vec (currYd (SC) q false)) (vec (currZ (SC) hom (innerProb U s).PxL q.pt.zL false))
      (vec (currZ (SC) hom (innerProb U s).PxU q.pt.zU false)) zL0 zU0 with h | h
    · rw [h]; ring
    · obtain ⟨m1, m2⟩ := free_multipliers_unchanged H.spaces U.jacPos (U.gradF (XX)) (U.jac (XX)) (vec (currYc (SC) q false))
        (vec (currYd (SC) q false)) (vec (currZ (SC) hom (innerProb U s).PxL q.pt.zL false))
        (vec (currZ (SC) hom (innerProb U s).PxU q.pt.zU false)) zL0 zU0 (s.user c) h
      rw [m1, m2]; ring

end sit
end Verif.CurrIter
