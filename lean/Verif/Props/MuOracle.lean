import Verif.Proof.MuOracle
import Verif.Props.Golden

set_option linter.unusedSectionVars false
set_option linter.unusedSimpArgs false
set_option linter.unusedVariables false

/-! # The oracles for the barrier parameter (C58) -/

namespace Verif.MuOracle

open Verif.VecOps
open Verif.AdaptiveMu (NormT Cen)

variable {K : Type} [Field K] [LinearOrder K] [IsStrictOrderedRing K]

theorem avrg_pos {it : Iter K} (h : Spec.Interior it) : 0 < avrgCompl it := by
  rw [avrgCompl_eq h.same h.bound]; exact mean_pos (products_ne h) (products_pos h)

/-- **C58 (centrality).** The centrality measure of an interior iterate is the smallest complementarity product divided by the mean; it lies in
`(0, 1]`, and it is one exactly if all products are equal. -/
theorem centrality_measure {it : Iter K} (h : Spec.Interior it) :
    let xi := centrality (compl it.slack it.mult)
    let P := Spec.products it
    0 < xi ∧ xi ≤ 1 ∧ (∀ a ∈ P, xi * Spec.mean P ≤ a) ∧ (∃ a ∈ P, xi * Spec.mean P = a) ∧ (xi = 1 ↔ ∀ a ∈ P, ∀ b ∈ P, a = b) := by
  intro xi P
  have hP : Spec.elems (compl it.slack it.mult) = P := elems_compl _ _
  have hne := products_ne h
  have hpos := products_pos h
  obtain ⟨m, hm, hmin, hc⟩ := centrality_eq (c := compl it.slack it.mult) (by rw [hP]; exact hne) (by rw [hP]; exact hpos)
  rw [hP] at hm hmin hc
  have hM := mean_pos hne hpos
  obtain ⟨g1, g2⟩ := mean_ge hne hmin
  have hxi : xi = m / Spec.mean P := by
    show centrality _ = _
    rw [hc, min_eq_right]
    rw [div_le_one hM]; exact g1
  have hmul : xi * Spec.mean P = m := by rw [hxi, div_mul_cancel₀ _ hM.ne']
  refine ⟨?_, ?_, ?_, ⟨m, hm, hmul⟩, ?_⟩
  · rw [hxi]; exact div_pos (hpos m hm) hM
  · rw [hxi, div_le_one hM]; exact g1
  · intro a ha; rw [hmul]; exact hmin a ha
  · constructor
    · intro h1 a ha b hb
      rw [h1, one_mul] at hmul
      rw [g2 hmul a ha, g2 hmul b hb]
    · intro hall
      have : Spec.mean P = m := by
        have : ∀ a ∈ P, a = m := fun a ha => hall a ha m hm
        unfold Spec.mean
        have hs : P.sum = P.length * m := by
          rw [List.eq_replicate_of_mem this]; simp
        rw [hs, mul_comm, mul_div_assoc, div_self (by exact_mod_cast (List.length_pos_iff.2 hne).ne'), mul_one]
      rw [hxi, this, div_self (hpos m hm).ne']

/-- **C58 (LOQO).** The parameter of the LOQO rule is Vanderbei's formula applied to the mean of the complementarity products and the ratio of the
smallest product to the mean, cut to `[mu_min, mu_max]`; it does not exceed `0.8` times the mean (if this is at least `mu_min`), and for equal products
it is `mu_min`. -/
theorem loqo_mu {it : Iter K} (h : Spec.Interior it) (mu_min mu_max : K) (h0 : 0 ≤ mu_min) (hle : mu_min ≤ mu_max) :
    let P := Spec.products it
    mu_min ≤ loqo it mu_min mu_max ∧ loqo it mu_min mu_max ≤ mu_max
    ∧ loqo it mu_min mu_max ≤ max mu_min (8 / 10 * Spec.mean P)
    ∧ (∃ m ∈ P, (∀ a ∈ P, m ≤ a) ∧ loqo it mu_min mu_max
        = max mu_min (min mu_max (1 / 10 * (min (5 / 100 * (1 - m / Spec.mean P) / (m / Spec.mean P)) 2) ^ 3 * Spec.mean P)))
    ∧ ((∀ a ∈ P, ∀ b ∈ P, a = b) → loqo it mu_min mu_max = mu_min) := by
  intro P
  obtain ⟨c1, c2, c3, ⟨m, hm, c4⟩, c5⟩ := centrality_measure h
  have hM := mean_pos (products_ne h) (products_pos h)
  have hav := avrgCompl_eq h.same h.bound
  have hl : loqo it mu_min mu_max = max (min mu_max (1 / 10 * (min (5 / 100 * (1 - centrality (compl it.slack it.mult)) / centrality (compl it.slack it.mult)) 2) ^ 3
      * Spec.mean P)) mu_min := by
    unfold loqo; rw [hav]
  set xi := centrality (compl it.slack it.mult)
  have hx : xi = m / Spec.mean P := by rw [← c4, mul_div_assoc, div_self hM.ne', mul_one]
  have hnn : 0 ≤ min (5 / 100 * (1 - xi) / xi) 2 := le_min (div_nonneg (mul_nonneg (by norm_num) (by linarith)) c1.le) (by norm_num)
  refine ⟨?_, ?_, ?_, ⟨m, hm, fun a ha => by rw [← c4]; exact c3 a ha, ?_⟩, ?_⟩
  · rw [hl]; exact le_max_right _ _
  · rw [hl]; exact max_le (min_le_left _ _) hle
  · rw [hl]
    refine max_le ((min_le_right _ _).trans (le_trans ?_ (le_max_right _ _))) (le_max_left _ _)
    have h2 : (min (5 / 100 * (1 - xi) / xi) 2) ^ 3 ≤ 2 ^ 3 := pow_le_pow_left₀ hnn (min_le_right _ _) 3
    have : 1 / 10 * (min (5 / 100 * (1 - xi) / xi) 2) ^ 3 ≤ 8 / 10 := by linarith
    exact mul_le_mul_of_nonneg_right this hM.le
  · rw [hl, hx, max_comm]
  · intro hall
    have := c5.2 hall
    rw [hl, this]
    norm_num
    exact Or.inr h0

/-- Shapes of the steps delivered by the linear solver. -/
structure Shape (it : Iter K) (d : Step K) : Prop where
  z : Spec.Same it.mult d.z

theorem slackStep_same {it : Iter K} (h : Spec.Interior it) (d : Step K) : Spec.Same it.slack (slackStep it d) := by
  refine ⟨?_, ?_, ?_, ?_⟩ <;> simp [slackStep, sel, h.xL, h.xU, h.sL, h.sU]

theorem same_addScaled {a b : Four K} (t : K) (h : Spec.Same a b) : Spec.Same a (addScaled a t b) := by
  obtain ⟨h1, h2, h3, h4⟩ := h
  refine ⟨?_, ?_, ?_, ?_⟩ <;> simp [addScaled, zip2, h1, h2, h3, h4]

theorem same_symm {a b : Four K} (h : Spec.Same a b) : Spec.Same b a := ⟨h.1.symm, h.2.1.symm, h.2.2.1.symm, h.2.2.2.symm⟩

theorem same_trans {a b c : Four K} (h : Spec.Same a b) (h' : Spec.Same b c) : Spec.Same a c :=
  ⟨h.1.trans h'.1, h.2.1.trans h'.2.1, h.2.2.1.trans h'.2.2.1, h.2.2.2.trans h'.2.2.2⟩

/-- **C58 (slack changes).** The changes of the slacks computed from a step are those of the slacks `P_L^T x - x_L` and `x_U - P_U^T x` when `x` moves
by `al` times the step. -/
theorem slackStep_meaning {it : Iter K} (d : Step K) (al : K) (x s xL xU sL sU : List K) (hx : x.length = d.x.length) (hs : s.length = d.s.length)
    (h1 : it.pxL.length = xL.length) (h2 : it.pxU.length = xU.length) (h3 : it.pdL.length = sL.length) (h4 : it.pdU.length = sU.length) :
    let at' := fun (x s : List K) => (⟨List.zipWith (fun a b => a - b) (sel it.pxL x) xL, List.zipWith (fun a b => b - a) (sel it.pxU x) xU,
      List.zipWith (fun a b => a - b) (sel it.pdL s) sL, List.zipWith (fun a b => b - a) (sel it.pdU s) sU⟩ : Four K)
    at' (List.zipWith (fun a b => a + al * b) x d.x) (List.zipWith (fun a b => a + al * b) s d.s) = addScaled (at' x s) al (slackStep it d) := by
  intro at'
  have hget : ∀ (x d : List K) (i : Nat), x.length = d.length → (List.zipWith (fun a b => a + al * b) x d).getD i 0 = x.getD i 0 + al * d.getD i 0 := by
    intro x d i h
    simp only [List.getD_eq_getElem?_getD, List.getElem?_zipWith]
    by_cases hi : i < x.length
    · rw [List.getElem?_eq_getElem hi, List.getElem?_eq_getElem (by omega : i < d.length)]; simp
    · rw [List.getElem?_eq_none (by omega), List.getElem?_eq_none (by omega : d.length ≤ i)]; simp
  have hL : ∀ (idx : List Nat) (x d l : List K), x.length = d.length → idx.length = l.length →
      List.zipWith (fun a b => a - b) (sel idx (List.zipWith (fun a b => a + al * b) x d)) l
        = zip2 (fun u v => u + al * v) (List.zipWith (fun a b => a - b) (sel idx x) l) (sel idx d) := by
    intro idx x d l hxd
    induction idx generalizing l with
    | nil => intro _; simp [sel, zip2]
    | cons i idx ih =>
      intro hl
      cases l with
      | nil => simp at hl
      | cons b l =>
        have := ih l (by simpa using hl)
        simp only [sel, zip2, List.map_cons, List.zipWith_cons_cons, List.cons.injEq] at this ⊢
        refine ⟨?_, this⟩
        rw [hget _ _ _ hxd]; ring
  have hU : ∀ (idx : List Nat) (x d l : List K), x.length = d.length → idx.length = l.length →
      List.zipWith (fun a b => b - a) (sel idx (List.zipWith (fun a b => a + al * b) x d)) l
        = zip2 (fun u v => u + al * v) (List.zipWith (fun a b => b - a) (sel idx x) l) ((sel idx d).map fun a => -a) := by
    intro idx x d l hxd
    induction idx generalizing l with
    | nil => intro _; simp [sel, zip2]
    | cons i idx ih =>
      intro hl
      cases l with
      | nil => simp at hl
      | cons b l =>
        have := ih l (by simpa using hl)
        simp only [sel, zip2, List.map_cons, List.zipWith_cons_cons, List.cons.injEq] at this ⊢
        refine ⟨?_, this⟩
        rw [hget _ _ _ hxd]; ring
  simp only [at', addScaled, slackStep, hL _ _ _ _ hx h1, hU _ _ _ _ hx h2, hL _ _ _ _ hs h3, hU _ _ _ _ hs h4]

/-- `CalculateAffineMu` is the mean of the complementarity products after the step. -/
theorem affineMu_eq {it : Iter K} (h : Spec.Interior it) {d : Step K} (hd : Shape it d) (ap ad : K) :
    affineMu it ap ad d = Spec.mean (Spec.shifted it ap ad d) := by
  have hs := same_addScaled ap (slackStep_same h d)
  have hz := same_addScaled ad hd.z
  have hlen : (Spec.shifted it ap ad d).length = it.slack.xL.length + it.slack.xU.length + it.slack.sL.length + it.slack.sU.length := by
    unfold Spec.shifted
    rw [List.length_map, pairs_length (same_trans (same_trans (same_symm hs) h.same) hz)]
    obtain ⟨h1, h2, h3, h4⟩ := hs
    omega
  unfold affineMu Spec.mean
  rw [hlen]
  congr 1
  have one : ∀ (slack ds z dz : List K) (sum : K),
      (if slack.length > 0 then sum + dot (zip2 (fun u v => u + ap * v) slack ds) (zip2 (fun u v => u + ad * v) z dz) else sum)
        = sum + dot (zip2 (fun u v => u + ap * v) slack ds) (zip2 (fun u v => u + ad * v) z dz) := by
    intro slack ds z dz sum
    split
    · rfl
    · rename_i hn
      have : slack = [] := by
        rcases slack with _ | ⟨a, l⟩
        · rfl
        · simp at hn
      subst this
      simp [zip2, dot]
  simp only [one]
  unfold Spec.shifted Spec.pairs
  simp only [List.map_append, List.sum_append, addScaled, ← dot_eq_sum]
  ring

/-- The complementarity products after a step cut by the fraction-to-the-boundary rule. -/
theorem shifted_ge {it : Iter K} (h : Spec.Interior it) {ds dz : Four K} {tau : K} (ht : 0 < tau) (ht1 : tau ≤ 1) :
    ∀ p ∈ Spec.pairs (addScaled it.slack (frac4 tau it.slack ds) ds) (addScaled it.mult (frac4 tau it.mult dz) dz), 0 ≤ p.1 ∧ 0 ≤ p.2 ∧ (tau < 1 → 0 < p.1 * p.2) := by
  obtain ⟨a1, a2, a3⟩ := frac4_spec ht it.slack ds h.slack
  obtain ⟨b1, b2, b3⟩ := frac4_spec ht it.mult dz h.mult
  intro p hp
  have hmem : p.1 ∈ Spec.elems (addScaled it.slack (frac4 tau it.slack ds) ds) ∧ p.2 ∈ Spec.elems (addScaled it.mult (frac4 tau it.mult dz) dz) := by
    simp only [Spec.pairs, List.mem_append, Spec.elems] at hp ⊢
    rcases hp with ((hp | hp) | hp) | hp <;> have := List.of_mem_zip (a := p.1) (b := p.2) hp <;> tauto
  have pm : ∀ {a b : Four K} {p : K × K}, p ∈ Spec.pairs a b → p.1 ∈ Spec.elems a := by
    intro a b p hp
    simp only [Spec.pairs, List.mem_append, Spec.elems] at hp ⊢
    rcases hp with ((hp | hp) | hp) | hp <;> have := List.of_mem_zip (a := p.1) (b := p.2) hp <;> tauto
  rw [elems_addScaled, elems_addScaled] at hmem
  simp only [List.mem_map] at hmem
  obtain ⟨⟨u, hu, hu1⟩, ⟨v, hv, hv1⟩⟩ := hmem
  have hup := h.slack _ (pm hu)
  have hvp := h.mult _ (pm hv)
  have h1 := a3 u hu
  have h2 := b3 v hv
  rw [hu1] at h1
  rw [hv1] at h2
  have n1 : 0 ≤ (1 - tau) * u.1 := mul_nonneg (by linarith) hup.le
  have n2 : 0 ≤ (1 - tau) * v.1 := mul_nonneg (by linarith) hvp.le
  refine ⟨n1.trans h1, n2.trans h2, fun hlt => mul_pos ?_ ?_⟩
  · exact lt_of_lt_of_le (mul_pos (by linarith) hup) h1
  · exact lt_of_lt_of_le (mul_pos (by linarith) hvp) h2

/-- **C58 (probing).** Mehrotra's oracle fails exactly if the affine step cannot be computed.  Otherwise it takes the largest primal and dual step
lengths along the affine step that keep slacks and multipliers nonnegative, computes the mean of the complementarity products there, and returns
`min((mean there / mean now)^3, sigma_max) * mean now`, cut to `[mu_min, mu_max]`; the affine step is remembered. -/
theorem probing_mu {p : Par K} {it : Iter K} (h : Spec.Interior it) {solve : K → Step K → Option (Step K)} (mu_min mu_max : K) (hle : mu_min ≤ mu_max)
    (hs : ∀ d, solve (-1) (rhsAff it) = some d → Shape it d) :
    (probing p it solve mu_min mu_max = none ↔ solve (-1) (rhsAff it) = none)
    ∧ ∀ r, probing p it solve mu_min mu_max = some r → solve (-1) (rhsAff it) = some r.deltaAff ∧ r.delta = none
      ∧ mu_min ≤ r.mu ∧ r.mu ≤ mu_max ∧ r.sigma ≤ p.sigmaMax ∧ (0 ≤ p.sigmaMax → 0 ≤ r.sigma)
      ∧ ∃ ap ad, (0 < ap ∧ ap ≤ 1 ∧ (∀ q ∈ Spec.pairs it.slack (slackStep it r.deltaAff), 0 ≤ q.1 + ap * q.2)
          ∧ ∀ b, ap < b → b ≤ 1 → ∃ q ∈ Spec.pairs it.slack (slackStep it r.deltaAff), q.1 + b * q.2 < 0)
        ∧ (0 < ad ∧ ad ≤ 1 ∧ (∀ q ∈ Spec.pairs it.mult r.deltaAff.z, 0 ≤ q.1 + ad * q.2)
          ∧ ∀ b, ad < b → b ≤ 1 → ∃ q ∈ Spec.pairs it.mult r.deltaAff.z, q.1 + b * q.2 < 0)
        ∧ r.sigma = min ((Spec.mean (Spec.shifted it ap ad r.deltaAff) / Spec.mean (Spec.products it)) ^ 3) p.sigmaMax
        ∧ r.mu = max (min (r.sigma * Spec.mean (Spec.products it)) mu_max) mu_min := by
  unfold probing
  cases hsol : solve (-1) (rhsAff it) with
  | none => simp
  | some d =>
    simp only [reduceCtorEq, false_iff, not_false_eq_true, true_and, iff_self, Option.some.injEq]
    rintro r rfl
    have hd := hs d hsol
    obtain ⟨a1, a2, a3⟩ := frac4_spec one_pos it.slack (slackStep it d) h.slack
    obtain ⟨b1, b2, b3⟩ := frac4_spec one_pos it.mult d.z h.mult
    have hsg := shifted_ge h (ds := slackStep it d) (dz := d.z) one_pos (le_refl _)
    have hM := mean_pos (products_ne h) (products_pos h)
    have hav := avrgCompl_eq h.same h.bound
    have maxStep : ∀ (v w : Four K) (b : K), frac4 1 v w < b → b ≤ 1 → ∃ q ∈ Spec.pairs v w, q.1 + b * q.2 < 0 := by
      intro v w b h1 h2
      rcases frac4_attained (tau := 1) v w with h3 | ⟨q, hq, hn, h3⟩
      · rw [h3] at h1; exact absurd h1 (not_lt.2 h2)
      · refine ⟨q, hq, ?_⟩
        have := mul_lt_mul_of_neg_right h1 hn
        linarith
    have hnn : 0 ≤ affineMu it (frac4 1 it.slack (slackStep it d)) (frac4 1 it.mult d.z) d := by
      rw [affineMu_eq h hd]
      unfold Spec.mean
      refine div_nonneg (List.sum_nonneg ?_) (by positivity)
      intro a ha
      simp only [Spec.shifted, List.mem_map] at ha
      obtain ⟨q, hq, rfl⟩ := ha
      exact mul_nonneg (hsg q hq).1 (hsg q hq).2.1
    refine ⟨rfl, rfl, le_max_right _ _, max_le (min_le_right _ _) hle, min_le_right _ _, ?_, _, _, ⟨a1, a2, ?_, ?_⟩, ⟨b1, b2, ?_, ?_⟩, ?_, ?_⟩
    · intro hsm
      refine le_min (pow_nonneg (div_nonneg hnn ?_) 3) hsm
      rw [hav]; exact hM.le
    · intro q hq
      have := a3 q hq
      simpa using this
    · exact maxStep _ _
    · intro q hq
      have := b3 q hq
      simpa using this
    · exact maxStep _ _
    · rw [affineMu_eq h hd, hav]
    · rw [hav]

/-- **C58 (quality function).** For an interior iterate and `tau < 1` the quality function is positive for every `sigma`: the marker `-100` for "not
evaluated" cannot be mistaken for a value. -/
theorem quality_pos {p : Par K} {it : Iter K} (h : Spec.Interior it) (aff cen : Step K) (ha : Shape it aff) (hc : Shape it cen)
    (ht : 0 < p.tau ∧ p.tau < 1) (hsq : ∀ x, 0 ≤ x → 0 ≤ p.sqrt x) (hsq' : ∀ x, 0 < x → 0 < p.sqrt x) (hlog : ∀ x, 0 < x → x ≤ 1 → p.log x ≤ 0) (sigma : K) :
    0 < quality p it aff cen sigma := by
  have hds : Spec.Same it.slack (addScaled (slackStep it aff) sigma (slackStep it cen)) :=
    same_trans (slackStep_same h aff) (same_addScaled sigma (same_trans (same_symm (slackStep_same h aff)) (slackStep_same h cen)))
  have hdz : Spec.Same it.mult (addScaled aff.z sigma cen.z) := same_trans ha.z (same_addScaled sigma (same_trans (same_symm ha.z) hc.z))
  set ds := addScaled (slackStep it aff) sigma (slackStep it cen) with hdsd
  set dz := addScaled aff.z sigma cen.z with hdzd
  obtain ⟨a1, a2, a3⟩ := frac4_spec ht.1 it.slack ds h.slack
  obtain ⟨b1, b2, b3⟩ := frac4_spec ht.1 it.mult dz h.mult
  have hsg := shifted_ge h (ds := ds) (dz := dz) ht.1 ht.2.le
  set ap := frac4 p.tau it.slack ds with hap
  set ad := frac4 p.tau it.mult dz with had
  set cc := compl (addScaled it.slack ap ds) (addScaled it.mult ad dz) with hcc
  have hsame : Spec.Same (addScaled it.slack ap ds) (addScaled it.mult ad dz) :=
    same_trans (same_trans (same_symm (same_addScaled ap hds)) h.same) (same_addScaled ad hdz)
  have hcpos : ∀ a ∈ Spec.elems cc, 0 < a := by
    intro a ha
    rw [hcc, elems_compl, List.mem_map] at ha
    obtain ⟨q, hq, rfl⟩ := ha
    exact (hsg q hq).2.2 ht.2
  have hcne : Spec.elems cc ≠ [] := by
    intro hn
    have := congrArg List.length hn
    rw [hcc, elems_compl, List.length_map, pairs_length hsame, List.length_nil] at this
    have h2 := List.length_pos_iff.2 h.bound
    rw [elems_length] at h2
    obtain ⟨e1, e2, e3, e4⟩ := same_addScaled ap hds
    omega
  -- the centrality measure
  obtain ⟨m, hm, hmin, hcen⟩ := centrality_eq hcne hcpos
  have hxi : 0 < centrality cc ∧ centrality cc ≤ 1 := by
    rw [hcen]
    exact ⟨lt_min one_pos (div_pos (hcpos m hm) (mean_pos hcne hcpos)), min_le_left _ _⟩
  have nd : (0 : K) < ((it.gradLagX.length + it.gradLagS.length : Nat) : K) := by exact_mod_cast h.var
  have nc : (0 : K) < ((it.mult.xL.length + it.mult.xU.length + it.mult.sL.length + it.mult.sU.length : Nat) : K) := by
    have h2 := List.length_pos_iff.2 h.bound
    rw [elems_length] at h2
    obtain ⟨e1, e2, e3, e4⟩ := h.same
    have : 0 < it.mult.xL.length + it.mult.xU.length + it.mult.sL.length + it.mult.sU.length := by omega
    exact_mod_cast this
  have asn : ∀ v : List K, 0 ≤ asum v := by
    intro v; unfold asum; exact List.sum_nonneg fun x hx => by
      simp only [List.mem_map] at hx
      obtain ⟨a, _, rfl⟩ := hx
      exact abs_nonneg a
  have sqn : ∀ v : List K, 0 ≤ sq v := by
    intro v; unfold sq; rw [dot_eq_sum]
    exact List.sum_nonneg fun x hx => by
      simp only [List.mem_map] at hx
      obtain ⟨a, ha, rfl⟩ := hx
      have : a.1 = a.2 := by
        have := List.mem_iff_getElem.1 ha
        obtain ⟨i, hi, rfl⟩ := this
        simp
      rw [this]; exact mul_self_nonneg _
  -- one positive element makes the measures positive
  have hel : ∀ (f : List K → K), (∀ v, 0 ≤ f v) → (∀ v, v ≠ [] → (∀ a ∈ v, 0 < a) → 0 < f v) → 0 < f cc.xL + f cc.xU + f cc.sL + f cc.sU := by
    intro f f0 f1
    have e0 := f0 cc.xL
    have e1 := f0 cc.xU
    have e2 := f0 cc.sL
    have e3 := f0 cc.sU
    simp only [Spec.elems, List.mem_append] at hcpos
    by_cases h1 : cc.xL = []
    · by_cases h2 : cc.xU = []
      · by_cases h3 : cc.sL = []
        · by_cases h4 : cc.sU = []
          · exact absurd (by simp [Spec.elems, h1, h2, h3, h4]) hcne
          · have := f1 cc.sU h4 (fun a ha => hcpos a (by tauto)); linarith
        · have := f1 cc.sL h3 (fun a ha => hcpos a (by tauto)); linarith
      · have := f1 cc.xU h2 (fun a ha => hcpos a (by tauto)); linarith
    · have := f1 cc.xL h1 (fun a ha => hcpos a (by tauto)); linarith
  have hasum := hel asum asn (fun v hv hp => by rw [asum_eq hp]; exact sum_pos' hv hp)
  have hsqs := hel sq sqn (fun v hv hp => by
    unfold sq; rw [dot_eq_sum]
    refine sum_pos' ?_ ?_
    · intro hn
      have := congrArg List.length hn
      simp at this
      exact hv this
    · intro x hx
      simp only [List.mem_map] at hx
      obtain ⟨a, ha, rfl⟩ := hx
      have := List.of_mem_zip (a := a.1) (b := a.2) ha
      exact mul_pos (hp _ this.1) (hp _ this.2))
  have hamax : 0 < max (max (max (amax cc.xL) (amax cc.xU)) (amax cc.sL)) (amax cc.sU) := by
    have := hel amax amax_nonneg (fun v hv hp => by
      obtain ⟨a, ha⟩ := List.exists_mem_of_ne_nil v hv
      exact lt_of_lt_of_le (hp a ha) ((le_abs_self a).trans (abs_le_amax ha)))
    by_contra hn
    push Not at hn
    have i4 := (le_max_right _ _).trans hn
    have i3 := ((le_max_right _ _).trans (le_max_left _ _)).trans hn
    have i2 := ((le_max_right _ _).trans ((le_max_left _ _).trans (le_max_left _ _))).trans hn
    have i1 := ((le_max_left _ _).trans ((le_max_left _ _).trans (le_max_left _ _))).trans hn
    linarith
  have hterms : 0 ≤ (qfTerms p it ap ad cc).1 ∧ 0 ≤ (qfTerms p it ap ad cc).2.1 ∧ 0 < (qfTerms p it ap ad cc).2.2 := by
    have hap1 : 0 ≤ 1 - ap := by linarith
    have had1 : 0 ≤ 1 - ad := by linarith
    have sc : ∀ (v w : K) (n : Nat), 0 ≤ v → (0 < n → 0 ≤ w) → 0 ≤ (if n > 0 then v / w else v) := by
      intro v w n hv hw
      split
      · rename_i hn; exact div_nonneg hv (hw hn)
      · exact hv
    unfold qfTerms
    cases p.norm with
    | one =>
      exact ⟨div_nonneg (mul_nonneg had1 (add_nonneg (asn _) (asn _))) nd.le,
        sc _ _ _ (mul_nonneg hap1 (add_nonneg (asn _) (asn _))) (fun _ => by positivity), div_pos hasum nc⟩
    | twoSquared =>
      exact ⟨div_nonneg (mul_nonneg (by positivity) (add_nonneg (sqn _) (sqn _))) nd.le,
        sc _ _ _ (mul_nonneg (by positivity) (add_nonneg (sqn _) (sqn _))) (fun _ => by positivity), div_pos hsqs nc⟩
    | max =>
      exact ⟨mul_nonneg had1 ((amax_nonneg _).trans (le_max_left _ _)), mul_nonneg hap1 ((amax_nonneg _).trans (le_max_left _ _)), hamax⟩
    | two =>
      exact ⟨div_nonneg (mul_nonneg had1 (hsq _ (add_nonneg (sqn _) (sqn _)))) (hsq _ nd.le),
        sc _ _ _ (mul_nonneg hap1 (hsq _ (add_nonneg (sqn _) (sqn _)))) (fun _ => hsq _ (by positivity)), div_pos (hsq' _ hsqs) (hsq' _ nc)⟩
  have hq : quality p it aff cen sigma = (if p.balancing = true then
      (match p.cen with
        | .none => (qfTerms p it ap ad cc).1 + (qfTerms p it ap ad cc).2.1 + (qfTerms p it ap ad cc).2.2
        | .log => (qfTerms p it ap ad cc).1 + (qfTerms p it ap ad cc).2.1 + (qfTerms p it ap ad cc).2.2 - (qfTerms p it ap ad cc).2.2 * p.log (centrality cc)
        | .reciprocal => (qfTerms p it ap ad cc).1 + (qfTerms p it ap ad cc).2.1 + (qfTerms p it ap ad cc).2.2 + (qfTerms p it ap ad cc).2.2 / centrality cc
        | .cubedReciprocal => (qfTerms p it ap ad cc).1 + (qfTerms p it ap ad cc).2.1 + (qfTerms p it ap ad cc).2.2 + (qfTerms p it ap ad cc).2.2 / (centrality cc) ^ 3)
        + (max 0 (max (qfTerms p it ap ad cc).1 (qfTerms p it ap ad cc).2.1 - (qfTerms p it ap ad cc).2.2)) ^ 3
      else (match p.cen with
        | .none => (qfTerms p it ap ad cc).1 + (qfTerms p it ap ad cc).2.1 + (qfTerms p it ap ad cc).2.2
        | .log => (qfTerms p it ap ad cc).1 + (qfTerms p it ap ad cc).2.1 + (qfTerms p it ap ad cc).2.2 - (qfTerms p it ap ad cc).2.2 * p.log (centrality cc)
        | .reciprocal => (qfTerms p it ap ad cc).1 + (qfTerms p it ap ad cc).2.1 + (qfTerms p it ap ad cc).2.2 + (qfTerms p it ap ad cc).2.2 / centrality cc
        | .cubedReciprocal => (qfTerms p it ap ad cc).1 + (qfTerms p it ap ad cc).2.1 + (qfTerms p it ap ad cc).2.2 + (qfTerms p it ap ad cc).2.2 / (centrality cc) ^ 3)) := rfl
  rw [hq]
  obtain ⟨t1, t2, t3⟩ := hterms
  have hmain : 0 < (match p.cen with
        | .none => (qfTerms p it ap ad cc).1 + (qfTerms p it ap ad cc).2.1 + (qfTerms p it ap ad cc).2.2
        | .log => (qfTerms p it ap ad cc).1 + (qfTerms p it ap ad cc).2.1 + (qfTerms p it ap ad cc).2.2 - (qfTerms p it ap ad cc).2.2 * p.log (centrality cc)
        | .reciprocal => (qfTerms p it ap ad cc).1 + (qfTerms p it ap ad cc).2.1 + (qfTerms p it ap ad cc).2.2 + (qfTerms p it ap ad cc).2.2 / centrality cc
        | .cubedReciprocal => (qfTerms p it ap ad cc).1 + (qfTerms p it ap ad cc).2.1 + (qfTerms p it ap ad cc).2.2 + (qfTerms p it ap ad cc).2.2 / (centrality cc) ^ 3) := by
    cases p.cen with
    | none => simp only; linarith
    | log =>
      simp only
      have := mul_nonneg t3.le (neg_nonneg.2 (hlog _ hxi.1 hxi.2))
      linarith
    | reciprocal =>
      simp only
      have := div_nonneg t3.le hxi.1.le
      linarith
    | cubedReciprocal =>
      simp only
      have := div_nonneg t3.le (pow_pos hxi.1 3).le
      linarith
  split
  · have := pow_nonneg (le_max_left 0 (max (qfTerms p it ap ad cc).1 (qfTerms p it ap ad cc).2.1 - (qfTerms p it ap ad cc).2.2)) 3
    linarith
  · exact hmain

end Verif.MuOracle
