import Verif.Spec.MuOracle
import Verif.Proof.VecOps
import Mathlib.Algebra.Order.Field.Basic
import Mathlib.Algebra.BigOperators.Group.List.Basic
import Mathlib.Algebra.Order.BigOperators.Group.List
import Mathlib.Tactic.Linarith
import Mathlib.Tactic.Ring
import Mathlib.Tactic.NormNum
import Mathlib.Tactic.Positivity
import Mathlib.Tactic.FieldSimp

set_option linter.unusedSectionVars false
set_option linter.unusedSimpArgs false
set_option linter.unusedVariables false

/-! # Lemmas about the quantities used by the oracles -/

namespace Verif.MuOracle

open Verif.VecOps

variable {K : Type} [Field K] [LinearOrder K] [IsStrictOrderedRing K]

theorem zip2_eq_map (f : K → K → K) (a b : List K) : zip2 f a b = (List.zip a b).map fun p => f p.1 p.2 := by
  unfold zip2; rw [List.zip, List.map_zipWith]

theorem dot_eq_sum (a b : List K) : dot a b = ((List.zip a b).map fun p => p.1 * p.2).sum := by
  unfold dot; rw [List.zip, List.map_zipWith]

theorem elems_compl (a b : Four K) : Spec.elems (compl a b) = (Spec.pairs a b).map fun p => p.1 * p.2 := by
  simp only [Spec.elems, compl, Spec.pairs, List.map_append, zip2_eq_map]

theorem pairs_length {a b : Four K} (h : Spec.Same a b) : (Spec.pairs a b).length = a.xL.length + a.xU.length + a.sL.length + a.sU.length := by
  obtain ⟨h1, h2, h3, h4⟩ := h
  simp only [Spec.pairs, List.length_append, List.length_zip, ← h1, ← h2, ← h3, ← h4, Nat.min_self]

theorem elems_length (a : Four K) : (Spec.elems a).length = a.xL.length + a.xU.length + a.sL.length + a.sU.length := by
  simp only [Spec.elems, List.length_append]

/-- `curr_avrg_compl` is the mean of the complementarity products. -/
theorem avrgCompl_eq {it : Iter K} (h : Spec.Same it.slack it.mult) (hb : Spec.elems it.slack ≠ []) : avrgCompl it = Spec.mean (Spec.products it) := by
  have hl : 0 < (Spec.elems it.slack).length := List.length_pos_iff.2 hb
  rw [elems_length] at hl
  have hs : Spec.products it = (Spec.pairs it.slack it.mult).map fun p => p.1 * p.2 := rfl
  obtain ⟨h1, h2, h3, h4⟩ := h
  unfold avrgCompl Safeguard.avrgCompl Spec.mean
  have hn : 0 < it.mult.xL.length + it.mult.xU.length + it.mult.sL.length + it.mult.sU.length := by omega
  rw [if_pos hn, hs, List.length_map, pairs_length ⟨h1, h2, h3, h4⟩]
  congr 1
  · simp only [Spec.pairs, List.map_append, List.sum_append]
    have sw : ∀ a b : List K, dot a b = ((List.zip b a).map fun p => p.1 * p.2).sum := by
      intro a b
      rw [dot_eq_sum, ← List.zip_swap, List.map_map]
      congr 1
      apply List.map_congr_left
      intro p _
      simp [Prod.swap, mul_comm]
    rw [sw, sw, sw, sw]
  · rw [h1, h2, h3, h4]

theorem products_pos {it : Iter K} (h : Spec.Interior it) : ∀ a ∈ Spec.products it, 0 < a := by
  intro a ha
  simp only [Spec.products, List.mem_map] at ha
  obtain ⟨p, hp, rfl⟩ := ha
  have h1 : p.1 ∈ Spec.elems it.slack ∧ p.2 ∈ Spec.elems it.mult := by
    simp only [Spec.pairs, List.mem_append, Spec.elems] at hp ⊢
    rcases hp with ((hp | hp) | hp) | hp <;> have := List.of_mem_zip (a := p.1) (b := p.2) hp <;> tauto
  exact mul_pos (h.slack _ h1.1) (h.mult _ h1.2)

theorem products_ne {it : Iter K} (h : Spec.Interior it) : Spec.products it ≠ [] := by
  intro hn
  have := congrArg List.length hn
  simp only [Spec.products, List.length_map, pairs_length h.same, List.length_nil] at this
  have h2 := List.length_pos_iff.2 h.bound
  rw [elems_length] at h2
  omega

theorem sum_pos' {l : List K} (hl : l ≠ []) (h : ∀ a ∈ l, 0 < a) : 0 < l.sum := by
  cases l with
  | nil => exact absurd rfl hl
  | cons a l =>
    simp only [List.sum_cons]
    have h1 := h a (by simp)
    have h2 : 0 ≤ l.sum := List.sum_nonneg fun x hx => (h x (by simp [hx])).le
    linarith

theorem mean_pos {l : List K} (hl : l ≠ []) (h : ∀ a ∈ l, 0 < a) : 0 < Spec.mean l := by
  unfold Spec.mean
  have := sum_pos' hl h
  have h2 : (0 : K) < (l.length : K) := by exact_mod_cast List.length_pos_iff.2 hl
  positivity

theorem asum_eq {l : List K} (h : ∀ a ∈ l, 0 < a) : asum l = l.sum := by
  unfold asum
  congr 1
  conv_rhs => rw [← List.map_id l]
  exact List.map_congr_left fun a ha => abs_of_pos (h a ha)

/-- The value of `CalcCentralityMeasure` for positive complementarities: smallest one divided by the mean, cut at 1. -/
theorem centrality_eq {c : Four K} (hne : Spec.elems c ≠ []) (hp : ∀ a ∈ Spec.elems c, 0 < a) :
    ∃ m ∈ Spec.elems c, (∀ a ∈ Spec.elems c, m ≤ a) ∧ centrality c = min 1 (m / Spec.mean (Spec.elems c)) := by
  -- the running minimum
  let step := fun (m : Option K) (v : List K) =>
    if v.length > 0 then (match m with
      | none => some (vmin v)
      | some a => some (min a (vmin v)))
    else m
  let good := fun (l : List K) (m : Option K) => match m with
    | none => l = []
    | some a => a ∈ l ∧ ∀ b ∈ l, a ≤ b
  have hstep : ∀ (l : List K) (m : Option K) (v : List K), good l m → good (l ++ v) (step m v) := by
    intro l m v hg
    by_cases hv : v.length > 0
    · have hv' : v ≠ [] := List.length_pos_iff.1 hv
      cases m with
      | none =>
        simp only [good] at hg
        subst hg
        simp only [good, step, if_pos hv, List.nil_append]
        exact ⟨vmin_mem hv', fun b hb => vmin_le hb⟩
      | some a =>
        simp only [good] at hg
        simp only [good, step, if_pos hv]
        refine ⟨?_, ?_⟩
        · rcases min_choice a (vmin v) with h | h
          · rw [h]; exact List.mem_append_left _ hg.1
          · rw [h]; exact List.mem_append_right _ (vmin_mem hv')
        · intro b hb
          rcases List.mem_append.1 hb with hb | hb
          · exact (min_le_left _ _).trans (hg.2 b hb)
          · exact (min_le_right _ _).trans (vmin_le hb)
    · have : v = [] := by
        rcases v with _ | ⟨a, v⟩
        · rfl
        · simp at hv
      subst this
      simp only [step, List.append_nil]
      simpa using hg
  have hg : good (Spec.elems c) (step (step (step (step none c.xL) c.xU) c.sL) c.sU) := by
    have := hstep _ _ c.sU (hstep _ _ c.sL (hstep _ _ c.xU (hstep [] none c.xL rfl)))
    simpa [Spec.elems] using this
  have hc : centrality c = (match step (step (step (step none c.xL) c.xU) c.sL) c.sU with
      | none => 0
      | some m => min 1 (m / ((asum c.xL + asum c.xU + asum c.sL + asum c.sU) / ((c.xL.length + c.xU.length + c.sL.length + c.sU.length : Nat) : K)))) := rfl
  rcases hm : step (step (step (step none c.xL) c.xU) c.sL) c.sU with _ | m
  · rw [hm] at hg; exact absurd hg hne
  · rw [hm] at hg hc
    refine ⟨m, hg.1, hg.2, ?_⟩
    rw [hc]
    simp only
    have e : asum c.xL + asum c.xU + asum c.sL + asum c.sU = (Spec.elems c).sum := by
      have := hp
      simp only [Spec.elems, List.mem_append] at this
      rw [asum_eq (fun a ha => this a (by tauto)), asum_eq (fun a ha => this a (by tauto)), asum_eq (fun a ha => this a (by tauto)), asum_eq (fun a ha => this a (by tauto))]
      simp only [Spec.elems, List.sum_append]
    rw [e, ← elems_length]
    rfl

/-- In a list whose elements are at least `m`, the mean is at least `m`, with equality only if all are equal to `m`. -/
theorem mean_ge {l : List K} (hl : l ≠ []) {m : K} (h : ∀ a ∈ l, m ≤ a) : m ≤ Spec.mean l ∧ (Spec.mean l = m → ∀ a ∈ l, a = m) := by
  have hn : (0 : K) < (l.length : K) := by exact_mod_cast List.length_pos_iff.2 hl
  have hs : ∀ l : List K, (∀ a ∈ l, m ≤ a) → (l.length : K) * m ≤ l.sum ∧ ((l.length : K) * m = l.sum → ∀ a ∈ l, a = m) := by
    intro l
    induction l with
    | nil => intro _; simp
    | cons b l ih =>
      intro h
      obtain ⟨i1, i2⟩ := ih fun a ha => h a (by simp [ha])
      have hb := h b (by simp)
      simp only [List.length_cons, List.sum_cons]
      push_cast
      refine ⟨by linarith, fun he a ha => ?_⟩
      rcases List.mem_cons.1 ha with rfl | ha
      · linarith
      · exact i2 (by linarith) a ha
  obtain ⟨h1, h2⟩ := hs l h
  unfold Spec.mean
  refine ⟨by rw [le_div_iff₀ hn]; linarith, fun he => h2 ?_⟩
  rw [div_eq_iff hn.ne'] at he
  linarith

/-- The fraction-to-the-boundary step length (C27 for lists). -/
theorem frac_spec {tau : K} (ht : 0 < tau) : ∀ (v d : List K), (∀ a ∈ v, 0 < a) →
    0 < frac tau v d ∧ frac tau v d ≤ 1 ∧ Verif.Vec.KeepsFraction tau v d (frac tau v d) ∧ ∀ al, 0 ≤ al → al ≤ frac tau v d → Verif.Vec.KeepsFraction tau v d al := by
  have key : ∀ (l : List (K × K)) (a0 : K), (∀ p ∈ l, 0 < p.1) → 0 < a0 →
      let r := l.foldl (fun al p => if p.2 < 0 then min al (-tau / p.2 * p.1) else al) a0
      0 < r ∧ r ≤ a0 ∧ ∀ al, 0 ≤ al → al ≤ r → ∀ p ∈ l, (1 - tau) * p.1 ≤ p.1 + al * p.2 := by
    intro l
    induction l with
    | nil => intro a0 _ h; simp [h]
    | cons p l ih =>
      intro a0 hp ha
      have hp1 := hp p (by simp)
      simp only [List.foldl_cons]
      by_cases hn : p.2 < 0
      · rw [if_pos hn]
        have hb : 0 < -tau / p.2 * p.1 := by
          have : 0 < -tau / p.2 := div_pos_of_neg_of_neg (by linarith) hn
          positivity
        obtain ⟨i1, i2, i3⟩ := ih (min a0 (-tau / p.2 * p.1)) (fun q hq => hp q (by simp [hq])) (lt_min ha hb)
        refine ⟨i1, i2.trans (min_le_left _ _), fun al h0 h1 q hq => ?_⟩
        rcases List.mem_cons.1 hq with rfl | hq
        · have h2 : al ≤ -tau / q.2 * q.1 := h1.trans (i2.trans (min_le_right _ _))
          have h3 : (-tau / q.2 * q.1) * q.2 ≤ al * q.2 := mul_le_mul_of_nonpos_right h2 hn.le
          have h4 : (-tau / q.2 * q.1) * q.2 = -tau * q.1 := by
            rw [div_mul_eq_mul_div, div_mul_cancel₀ _ hn.ne]
          rw [h4] at h3
          linarith
        · exact i3 al h0 h1 q hq
      · rw [if_neg hn]
        obtain ⟨i1, i2, i3⟩ := ih a0 (fun q hq => hp q (by simp [hq])) ha
        refine ⟨i1, i2, fun al h0 h1 q hq => ?_⟩
        rcases List.mem_cons.1 hq with rfl | hq
        · push Not at hn
          have := mul_nonneg h0 hn
          nlinarith
        · exact i3 al h0 h1 q hq
  intro v d hv
  obtain ⟨h1, h2, h3⟩ := key (List.zip v d) 1 (fun p hp => hv _ (List.of_mem_zip (a := p.1) (b := p.2) hp).1) one_pos
  exact ⟨h1, h2, h3 _ h1.le (le_refl _), h3⟩

theorem frac_attained {tau : K} : ∀ (v d : List K), frac tau v d = 1 ∨ ∃ p ∈ List.zip v d, p.2 < 0 ∧ p.1 + frac tau v d * p.2 = (1 - tau) * p.1 := by
  have key : ∀ (l : List (K × K)) (a0 : K), let r := l.foldl (fun al p => if p.2 < 0 then min al (-tau / p.2 * p.1) else al) a0
      r = a0 ∨ ∃ p ∈ l, p.2 < 0 ∧ p.1 + r * p.2 = (1 - tau) * p.1 := by
    intro l
    induction l with
    | nil => intro a0; exact Or.inl rfl
    | cons p l ih =>
      intro a0
      simp only [List.foldl_cons]
      by_cases hn : p.2 < 0
      · rw [if_pos hn]
        rcases ih (min a0 (-tau / p.2 * p.1)) with h | ⟨q, hq, h⟩
        · rw [h]
          rcases min_choice a0 (-tau / p.2 * p.1) with e | e
          · exact Or.inl e
          · right
            refine ⟨p, by simp, hn, ?_⟩
            rw [e, mul_assoc, mul_comm p.1, ← mul_assoc, div_mul_cancel₀ _ hn.ne]; ring
        · exact Or.inr ⟨q, by simp [hq], h⟩
      · rw [if_neg hn]
        rcases ih a0 with h | ⟨q, hq, h⟩
        · exact Or.inl h
        · exact Or.inr ⟨q, by simp [hq], h⟩
  intro v d
  exact key (List.zip v d) 1

/-- The step length cannot be increased: either it is one, or some element is at the limit. -/
theorem frac4_attained {tau : K} (v d : Four K) : frac4 tau v d = 1 ∨ ∃ p ∈ Spec.pairs v d, p.2 < 0 ∧ p.1 + frac4 tau v d * p.2 = (1 - tau) * p.1 := by
  have h : ∀ (a b : K) (P : K → Prop), P a → P b → P (min a b) := by
    intro a b P ha hb
    rcases min_choice a b with e | e <;> rw [e] <;> assumption
  have lift : ∀ (u w : List K), (∀ p ∈ List.zip u w, p ∈ Spec.pairs v d) →
      (frac tau u w = 1 ∨ ∃ p ∈ Spec.pairs v d, p.2 < 0 ∧ p.1 + frac tau u w * p.2 = (1 - tau) * p.1) := by
    intro u w hm
    rcases frac_attained (tau := tau) u w with h | ⟨p, hp, h⟩
    · exact Or.inl h
    · exact Or.inr ⟨p, hm p hp, h⟩
  have h' : ∀ a b : K, (a = 1 ∨ ∃ p ∈ Spec.pairs v d, p.2 < 0 ∧ p.1 + a * p.2 = (1 - tau) * p.1) → (b = 1 ∨ ∃ p ∈ Spec.pairs v d, p.2 < 0 ∧ p.1 + b * p.2 = (1 - tau) * p.1) →
      (min a b = 1 ∨ ∃ p ∈ Spec.pairs v d, p.2 < 0 ∧ p.1 + min a b * p.2 = (1 - tau) * p.1) :=
    fun a b => h a b fun t => t = 1 ∨ ∃ p ∈ Spec.pairs v d, p.2 < 0 ∧ p.1 + t * p.2 = (1 - tau) * p.1
  unfold frac4
  refine h' _ _ (h' _ _ (h' _ _ ?_ ?_) ?_) ?_
  all_goals
    apply lift
    intro p hp
    simp only [Spec.pairs, List.mem_append]
    tauto

theorem frac4_spec {tau : K} (ht : 0 < tau) (v d : Four K) (hv : ∀ a ∈ Spec.elems v, 0 < a) :
    0 < frac4 tau v d ∧ frac4 tau v d ≤ 1 ∧ ∀ p ∈ Spec.pairs v d, (1 - tau) * p.1 ≤ p.1 + frac4 tau v d * p.2 := by
  simp only [Spec.elems, List.mem_append] at hv
  obtain ⟨a1, a2, _, a3⟩ := frac_spec ht v.xL d.xL (fun a ha => hv a (by tauto))
  obtain ⟨b1, b2, _, b3⟩ := frac_spec ht v.xU d.xU (fun a ha => hv a (by tauto))
  obtain ⟨c1, c2, _, c3⟩ := frac_spec ht v.sL d.sL (fun a ha => hv a (by tauto))
  obtain ⟨d1, d2, _, d3⟩ := frac_spec ht v.sU d.sU (fun a ha => hv a (by tauto))
  have hpos : 0 < frac4 tau v d := lt_min (lt_min (lt_min a1 b1) c1) d1
  refine ⟨hpos, (min_le_left _ _).trans ((min_le_left _ _).trans ((min_le_left _ _).trans a2)), ?_⟩
  intro p hp
  simp only [Spec.pairs, List.mem_append] at hp
  rcases hp with ((hp | hp) | hp) | hp
  · exact a3 _ hpos.le ((min_le_left _ _).trans ((min_le_left _ _).trans (min_le_left _ _))) p hp
  · exact b3 _ hpos.le ((min_le_left _ _).trans ((min_le_left _ _).trans (min_le_right _ _))) p hp
  · exact c3 _ hpos.le ((min_le_left _ _).trans (min_le_right _ _)) p hp
  · exact d3 _ hpos.le (min_le_right _ _) p hp

theorem elems_addScaled (a d : Four K) (t : K) : Spec.elems (addScaled a t d) = (Spec.pairs a d).map fun p => p.1 + t * p.2 := by
  simp only [Spec.elems, addScaled, Spec.pairs, List.map_append, zip2_eq_map]

end Verif.MuOracle
