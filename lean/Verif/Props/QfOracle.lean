import Verif.Props.MuOracle

set_option linter.unusedSectionVars false
set_option linter.unusedSimpArgs false
set_option linter.unusedVariables false

/-! # The quality function oracle (C58) -/

namespace Verif.MuOracle

open Verif.VecOps

variable {K : Type} [Field K] [LinearOrder K] [IsStrictOrderedRing K]

/-- **C58 (range of sigma).** If the quality function is smaller at `1` than at `1 - eps` (`eps = max(1e-4, section_sigma_tol)`), the search goes
upwards and the result lies between `1` and `U = min(sigma_max, mu_max/avrg)` (or is `U` if `U ≤ 1`); otherwise it lies between
`L = max(sigma_min, mu_min/avrg)` and `min(1 - eps, mu_max/avrg)` (or is `L` if that interval is empty).  At most `max_section_steps + 5` values of
the quality function are computed. -/
theorem sigma_range (p : Par K) (hg : Spec.IsGolden p.gfac) (q : K → K) (avrg mu_min mu_max : K) :
    let r := chooseSigma p q avrg mu_min mu_max
    let eps := max (1 / 10000) p.sigmaTol
    let L := max p.sigmaMin (mu_min / avrg)
    let U := min p.sigmaMax (mu_max / avrg)
    r.2.length ≤ p.maxSteps + 5
    ∧ (q 1 < q (1 - eps) → min 1 U ≤ r.1 ∧ r.1 ≤ U)
    ∧ (q (1 - eps) ≤ q 1 → L ≤ r.1 ∧ r.1 ≤ max L (min (1 - eps) (mu_max / avrg))) := by
  intro r eps L U
  have hr : r = chooseSigma p q avrg mu_min mu_max := rfl
  unfold chooseSigma at hr
  by_cases h1 : q 1 < q (1 - eps)
  · simp only [show max (1 / 10000) p.sigmaTol = eps from rfl, if_pos h1] at hr
    by_cases h2 : min p.sigmaMax (mu_max / avrg) ≤ 1
    · rw [if_pos h2] at hr
      rw [hr]
      exact ⟨by simp only [List.length_cons, List.length_nil]; omega, fun _ => ⟨min_le_right _ _, le_refl _⟩, fun hh => absurd hh (not_le.2 h1)⟩
    · rw [if_neg h2] at hr
      push Not at h2
      obtain ⟨g1, g2, k, a, b, hk, hl0, hl, _⟩ := golden_section (q := q) (sigmaTol := p.sigmaTol) (qfTol := p.qfTol) (n := p.maxSteps) (qup := -100) (qlo := q 1) hg h2
      rw [hr]
      refine ⟨?_, fun _ => ⟨(min_le_left _ _).trans g1, g2⟩, fun hh => absurd hh (not_le.2 h1)⟩
      simp only [List.length_append, List.length_cons, List.length_nil]; omega
  · simp only [show max (1 / 10000) p.sigmaTol = eps from rfl, if_neg h1] at hr
    push Not at h1
    by_cases h2 : min (max (max p.sigmaMin (mu_min / avrg)) (1 - eps)) (mu_max / avrg) ≤ max p.sigmaMin (mu_min / avrg)
    · rw [if_pos h2] at hr
      rw [hr]
      exact ⟨by simp only [List.length_cons, List.length_nil]; omega, fun hh => absurd h1 (not_le.2 hh), fun _ => ⟨le_refl _, le_max_left _ _⟩⟩
    · rw [if_neg h2] at hr
      push Not at h2
      obtain ⟨g1, g2, k, a, b, hk, hl0, hl, _⟩ := golden_section (q := q) (sigmaTol := p.sigmaTol) (qfTol := p.qfTol) (n := p.maxSteps) (qup := q (1 - eps)) (qlo := -100) hg h2
      rw [hr]
      refine ⟨?_, fun hh => absurd h1 (not_le.2 hh), fun _ => ⟨g1, ?_⟩⟩
      · simp only [List.length_append, List.length_cons, List.length_nil]; omega
      · refine g2.trans ?_
        show min (max L (1 - eps)) (mu_max / avrg) ≤ max L (min (1 - eps) (mu_max / avrg))
        rcases le_total L (1 - eps) with h3 | h3
        · rw [max_eq_right h3]; exact le_max_right _ _
        · rw [max_eq_left h3]; exact (min_le_left _ _).trans (le_max_left _ _)

/-- **C58 (quality of sigma).** For a positive function the result is at least as good as all points evaluated during the search (that is, except `1`
and `1 - eps`), provided that the search below one starts at `1 - eps` (otherwise its value at the upper end is that of another point). -/
theorem sigma_best (p : Par K) (hg : Spec.IsGolden p.gfac) (q : K → K) (avrg mu_min mu_max : K) (hpos : ∀ x, 0 < q x) (hqf : p.qfTol < 1)
    (hmax : 1 - max (1 / 10000) p.sigmaTol ≤ mu_max / avrg) :
    let r := chooseSigma p q avrg mu_min mu_max
    ∀ e ∈ r.2.drop 2, q r.1 ≤ q e := by
  intro r
  set eps := max (1 / 10000) p.sigmaTol with heps
  have hr : r = chooseSigma p q avrg mu_min mu_max := rfl
  unfold chooseSigma at hr
  by_cases h1 : q 1 < q (1 - eps)
  · simp only [← heps, if_pos h1] at hr
    by_cases h2 : min p.sigmaMax (mu_max / avrg) ≤ 1
    · rw [if_pos h2] at hr; rw [hr]; simp
    · rw [if_neg h2] at hr
      push Not at h2
      obtain ⟨g1, g2, k, a, b, hk, hl0, hl, _, _, _, _, _, _, _, hb⟩ := golden_section (q := q) (sigmaTol := p.sigmaTol) (qfTol := p.qfTol) (n := p.maxSteps) (qup := -100) (qlo := q 1) hg h2
      rw [hr]
      simpa using (hb (fun x _ _ => hpos x) (Or.inr rfl) (Or.inl rfl) hqf).1
  · simp only [← heps, if_neg h1] at hr
    by_cases h2 : min (max (max p.sigmaMin (mu_min / avrg)) (1 - eps)) (mu_max / avrg) ≤ max p.sigmaMin (mu_min / avrg)
    · rw [if_pos h2] at hr; rw [hr]; simp
    · rw [if_neg h2] at hr
      have hlo : max p.sigmaMin (mu_min / avrg) < 1 - eps := by
        by_contra hn
        push Not at hn
        rw [max_eq_left hn] at h2
        exact h2 (min_le_left _ _)
      have hup : min (max (max p.sigmaMin (mu_min / avrg)) (1 - eps)) (mu_max / avrg) = 1 - eps := by
        rw [max_eq_right hlo.le, min_eq_left hmax]
      rw [hup] at hr
      obtain ⟨g1, g2, k, a, b, hk, hl0, hl, _, _, _, _, _, _, _, hb⟩ := golden_section (q := q) (sigmaTol := p.sigmaTol) (qfTol := p.qfTol) (n := p.maxSteps) (qup := q (1 - eps)) (qlo := -100) hg hlo
      rw [hr]
      simpa using (hb (fun x _ _ => hpos x) (Or.inl rfl) (Or.inr rfl) hqf).1

/-- A strictly unimodal function with minimizer `x ≤ l` over `[L, U]` has its minimum over `[l, U]` at `l`. -/
theorem min_right {q : K → K} {L U l x : K} (hu : Spec.Unimodal q L U) (hx : Spec.IsMin q L U x) (hl : x ≤ l) (hL : L ≤ l) (hlU : l ≤ U) : Spec.IsMin q l U l := by
  refine ⟨le_refl _, hlU, fun y h1 h2 => ?_⟩
  rcases eq_or_lt_of_le h1 with h3 | h3
  · rw [h3]
  · rcases eq_or_lt_of_le hl with h4 | h4
    · rw [← h4]; exact hx.2.2 y (by linarith) h2
    · have := hu x l y hx.1 h4 h3 h2
      have h5 := hx.2.2 y (by linarith) h2
      rw [max_eq_right h5] at this
      exact this.le

/-- Symmetric: minimizer `x ≥ u`. -/
theorem min_left {q : K → K} {L U u x : K} (hu : Spec.Unimodal q L U) (hx : Spec.IsMin q L U x) (hl : u ≤ x) (hL : u ≤ U) (hlU : L ≤ u) : Spec.IsMin q L u u := by
  refine ⟨hlU, le_refl _, fun y h1 h2 => ?_⟩
  rcases eq_or_lt_of_le h2 with h3 | h3
  · rw [h3]
  · rcases eq_or_lt_of_le hl with h4 | h4
    · rw [h4]; exact hx.2.2 y h1 (by linarith)
    · have := hu y u x h1 h3 h4 hx.2.1
      have h5 := hx.2.2 y h1 (by linarith)
      rw [max_eq_left h5] at this
      exact this.le

/-- **C58 (accuracy of sigma).** If the quality function is strictly unimodal on `[L, U]` and this interval contains `1 - eps` and `1`, the result
differs from the minimizer by at most `eps` plus the width of the last bracket, which is `(U - L)` times `(1 - g)` to the number `k` of sections;
and `k` is the maximum allowed unless a tolerance was met. -/
theorem sigma_accuracy (p : Par K) (hg : Spec.IsGolden p.gfac) (q : K → K) (avrg mu_min mu_max x : K) (hpos : ∀ x, 0 < q x) (hqf : p.qfTol < 1)
    (hL : max p.sigmaMin (mu_min / avrg) < 1 - max (1 / 10000) p.sigmaTol) (hU : 1 < min p.sigmaMax (mu_max / avrg))
    (hu : Spec.Unimodal q (max p.sigmaMin (mu_min / avrg)) (min p.sigmaMax (mu_max / avrg)))
    (hx : Spec.IsMin q (max p.sigmaMin (mu_min / avrg)) (min p.sigmaMax (mu_max / avrg)) x) :
    let r := chooseSigma p q avrg mu_min mu_max
    let eps := max (1 / 10000) p.sigmaTol
    let L := max p.sigmaMin (mu_min / avrg)
    let U := min p.sigmaMax (mu_max / avrg)
    ∃ (k : Nat) (a b : K), k ≤ p.maxSteps ∧ L ≤ a ∧ b ≤ U ∧ a ≤ r.1 ∧ r.1 ≤ b ∧ b - a ≤ (1 - p.gfac) ^ k * (U - L) ∧ |r.1 - x| ≤ eps + (b - a)
      ∧ (k < p.maxSteps → b - a < p.sigmaTol * b ∨ ((1 - p.qfTol) * q a < q r.1 ∧ (1 - p.qfTol) * q b < q r.1)) := by
  intro r eps L U
  have heps : max (1 / 10000) p.sigmaTol = eps := rfl
  have heps0 : 0 < eps := lt_of_lt_of_le (by norm_num) (le_max_left _ _)
  have hr : r = chooseSigma p q avrg mu_min mu_max := rfl
  unfold chooseSigma at hr
  have hLd : max p.sigmaMin (mu_min / avrg) = L := rfl
  have hUd : min p.sigmaMax (mu_max / avrg) = U := rfl
  rw [hLd, heps] at hL
  rw [hUd] at hU
  rw [hLd, hUd] at hu hx
  have hg0 := golden_pos hg
  have hgh := hg.half
  have hmono : ∀ (k : Nat) (w w' : K), w ≤ w' → (1 - p.gfac) ^ k * w ≤ (1 - p.gfac) ^ k * w' := fun k w w' h =>
    mul_le_mul_of_nonneg_left h (pow_nonneg (by linarith) k)
  by_cases h1 : q 1 < q (1 - eps)
  · simp only [heps, hUd, if_pos h1, if_neg (not_le.2 hU)] at hr
    obtain ⟨g1, g2, k, a, b, hk, hl0, hl, e1, e2, e3, e4, e5, e6, e7, hb⟩ := golden_section (q := q) (sigmaTol := p.sigmaTol) (qfTol := p.qfTol) (n := p.maxSteps) (qup := -100) (qlo := q 1) hg hU
    have hge : 1 - eps ≤ x := by
      by_contra hn
      push Not at hn
      have := hu x (1 - eps) 1 hx.1 hn (by linarith) hU.le
      rw [max_eq_right (hx.2.2 1 (by linarith) hU.le)] at this
      exact absurd h1 this.not_gt
    have hsub : Spec.Unimodal q 1 U := fun a y b h1 h2 h3 h4 => hu a y b (by linarith) h2 h3 h4
    obtain ⟨t1, t2⟩ := hb (fun x _ _ => hpos x) (Or.inr rfl) (Or.inl rfl) hqf
    refine ⟨k, a, b, hk, by linarith, e2, by rw [hr]; exact e3, by rw [hr]; exact e4, ?_, ?_, by rw [hr]; exact t2⟩
    · rw [e5]; exact hmono _ _ _ (by linarith)
    · rw [hr]
      simp only
      by_cases hx1 : x ≤ 1
      · have h3 := e7 hsub 1 (min_right hu hx hx1 (by linarith) hU.le)
        rw [abs_le]; constructor <;> linarith
      · push Not at hx1
        have h3 := e7 hsub x ⟨hx1.le, hx.2.1, fun y h1 h2 => hx.2.2 y (by linarith) h2⟩
        rw [abs_le]; constructor <;> linarith
  · have hm : 1 - eps ≤ mu_max / avrg := by
      have : U ≤ mu_max / avrg := min_le_right _ _
      linarith
    have hup : min (max L (1 - eps)) (mu_max / avrg) = 1 - eps := by rw [max_eq_right hL.le, min_eq_left hm]
    simp only [heps, hLd, hup, if_neg h1, if_neg (not_le.2 hL)] at hr
    push Not at h1
    obtain ⟨g1, g2, k, a, b, hk, hl0, hl, e1, e2, e3, e4, e5, e6, e7, hb⟩ := golden_section (q := q) (sigmaTol := p.sigmaTol) (qfTol := p.qfTol) (n := p.maxSteps) (qup := q (1 - eps)) (qlo := -100) hg hL
    have hle : x ≤ 1 := by
      by_contra hn
      push Not at hn
      have := hu (1 - eps) 1 x hL.le (by linarith) hn hx.2.1
      rw [max_eq_left (hx.2.2 (1 - eps) hL.le (by linarith))] at this
      exact absurd h1 (not_le.2 this)
    have hsub : Spec.Unimodal q L (1 - eps) := fun a y b h1 h2 h3 h4 => hu a y b h1 h2 h3 (by linarith)
    obtain ⟨t1, t2⟩ := hb (fun x _ _ => hpos x) (Or.inl rfl) (Or.inr rfl) hqf
    refine ⟨k, a, b, hk, e1, by linarith, by rw [hr]; exact e3, by rw [hr]; exact e4, ?_, ?_, by rw [hr]; exact t2⟩
    · rw [e5]; exact hmono _ _ _ (by linarith)
    · rw [hr]
      simp only
      by_cases hx1 : 1 - eps ≤ x
      · have h3 := e7 hsub (1 - eps) (min_left hu hx hx1 (by linarith) hL.le)
        rw [abs_le]; constructor <;> linarith
      · push Not at hx1
        have h3 := e7 hsub x ⟨hx.1, hx1.le, fun y h1 h2 => hx.2.2 y h1 (by linarith)⟩
        rw [abs_le]; constructor <;> linarith

/-- **C58 (quality function oracle).** The oracle fails exactly if one of its two linear systems cannot be solved.  Otherwise the parameter is
`sigma` times the mean of the complementarity products; it is positive (for positive bounds) and at most `mu_max` unless `mu_min` or `sigma_min` times the
mean is larger; it is at least `mu_min` when the search goes downwards, and in general at least the smallest of `mu_min`, `mu_max`, the mean and
`sigma_max` times the mean. -/
theorem qf_mu {p : Par K} (hg : Spec.IsGolden p.gfac) {it : Iter K} (h : Spec.Interior it) {solve : K → Step K → Option (Step K)} (mu_min mu_max : K) :
    let M := Spec.mean (Spec.products it)
    (qfOracle p it solve mu_min mu_max = none ↔ solve (-1) (rhsAff it) = none ∨ solve 1 (rhsCen it) = none)
    ∧ ∀ r, qfOracle p it solve mu_min mu_max = some r → ∃ cen, solve (-1) (rhsAff it) = some r.deltaAff ∧ solve 1 (rhsCen it) = some cen
      ∧ r.delta = some (Step.comb r.sigma cen r.deltaAff)
      ∧ r.mu = r.sigma * M
      ∧ r.mu ≤ max mu_max (max mu_min (p.sigmaMin * M))
      ∧ min (min mu_min mu_max) (min M (p.sigmaMax * M)) ≤ r.mu
      ∧ (quality p it r.deltaAff cen (1 - max (1 / 10000) p.sigmaTol) ≤ quality p it r.deltaAff cen 1 → mu_min ≤ r.mu)
      ∧ (quality p it r.deltaAff cen 1 < quality p it r.deltaAff cen (1 - max (1 / 10000) p.sigmaTol) → r.mu ≤ p.sigmaMax * M ∧ r.mu ≤ mu_max) := by
  intro M
  have hM : 0 < M := mean_pos (products_ne h) (products_pos h)
  have hav : avrgCompl it = M := avrgCompl_eq h.same h.bound
  unfold qfOracle
  cases h1 : solve (-1) (rhsAff it) with
  | none => simp
  | some aff =>
    cases h2 : solve 1 (rhsCen it) with
    | none => simp
    | some cen =>
      simp only [reduceCtorEq, or_self, iff_self, true_and, Option.some.injEq]
      rintro r rfl
      obtain ⟨_, s1, s2⟩ := sigma_range p hg (quality p it aff cen) M mu_min mu_max
      simp only [hav]
      refine ⟨cen, by simp, by simp, by simp, by simp, ?_, ?_, ?_, ?_⟩
      · by_cases hb : quality p it aff cen 1 < quality p it aff cen (1 - max (1 / 10000) p.sigmaTol)
        · have h3 := (s1 hb).2.trans (min_le_right _ _)
          rw [le_div_iff₀ hM] at h3
          exact h3.trans (le_max_left _ _)
        · push Not at hb
          have h3 := (s2 hb).2
          rcases le_max_iff.1 h3 with h3 | h3
          · rcases le_max_iff.1 h3 with h3 | h3
            · exact (mul_le_mul_of_nonneg_right h3 hM.le).trans ((le_max_right _ _).trans (le_max_right _ _))
            · rw [le_div_iff₀ hM] at h3
              exact h3.trans ((le_max_left _ _).trans (le_max_right _ _))
          · have h3 := h3.trans (min_le_right _ _)
            rw [le_div_iff₀ hM] at h3
            exact h3.trans (le_max_left _ _)
      · by_cases hb : quality p it aff cen 1 < quality p it aff cen (1 - max (1 / 10000) p.sigmaTol)
        · have h3 := (s1 hb).1
          rcases min_le_iff.1 h3 with h3 | h3
          · have := mul_le_mul_of_nonneg_right h3 hM.le
            rw [one_mul] at this
            exact (min_le_right _ _).trans ((min_le_left _ _).trans this)
          · rcases min_le_iff.1 h3 with h3 | h3
            · exact (min_le_right _ _).trans ((min_le_right _ _).trans (mul_le_mul_of_nonneg_right h3 hM.le))
            · rw [div_le_iff₀ hM] at h3
              exact (min_le_left _ _).trans ((min_le_right _ _).trans h3)
        · push Not at hb
          have h3 := (le_max_right _ _).trans (s2 hb).1
          rw [div_le_iff₀ hM] at h3
          exact (min_le_left _ _).trans ((min_le_left _ _).trans h3)
      · intro hb
        have h3 := (le_max_right _ _).trans (s2 hb).1
        rwa [div_le_iff₀ hM] at h3
      · intro hb
        have h3 := (s1 hb).2
        refine ⟨mul_le_mul_of_nonneg_right (h3.trans (min_le_left _ _)) hM.le, ?_⟩
        have h3 := h3.trans (min_le_right _ _)
        rwa [le_div_iff₀ hM] at h3

/-- **C58 (stored direction).** If the linear solver is exact, the direction stored by the quality function oracle solves the linear system for the
barrier parameter it returns: it is the search direction that would be computed for this parameter. -/
theorem stored_direction {p : Par K} {it : Iter K} {solve : K → Step K → Option (Step K)} {A : Step K → Step K} (hlin : Spec.Linear A)
    (hx : it.dampX.length = it.gradLagX.length) (hs : it.dampS.length = it.gradLagS.length) (hsame : Spec.Same it.slack it.mult)
    (h1 : ∀ u d, solve 1 u = some d → A d = u) (h2 : ∀ u d, solve (-1) u = some d → A d = Spec.neg u)
    (mu_min mu_max : K) (r : Answer K) (hr : qfOracle p it solve mu_min mu_max = some r) :
    ∃ d, r.delta = some d ∧ A d = Spec.neg (rhsDir it r.mu) := by
  unfold qfOracle at hr
  cases hA : solve (-1) (rhsAff it) with
  | none => rw [hA] at hr; simp at hr
  | some aff =>
    rw [hA] at hr
    simp only at hr
    cases hC : solve 1 (rhsCen it) with
    | none => rw [hC] at hr; simp at hr
    | some cen =>
      rw [hC] at hr
      simp only [Option.some.injEq] at hr
      subst hr
      refine ⟨_, rfl, ?_⟩
      simp only
      rw [hlin, h1 _ _ hC, h2 _ _ hA]
      generalize (chooseSigma p (quality p it aff cen) (avrgCompl it) mu_min mu_max).1 = sg
      -- componentwise
      have ez : ∀ (t a : K) (l : List K), zip2 (fun u v => t * u + v) (l.map fun _ => a) (l.map (- ·)) = (l.map (fun u => u - t * a)).map (- ·) := by
        intro t a l
        induction l with
        | nil => rfl
        | cons b l ih =>
          simp only [zip2] at ih ⊢
          simp only [List.map_cons, List.zipWith_cons_cons, ih, List.cons.injEq, and_true]
          ring
      have ez' : ∀ (t a : K) (l m : List K), l.length = m.length →
          zip2 (fun u v => t * u + v) (l.map fun _ => a) (m.map (- ·)) = (m.map (fun u => u - t * a)).map (- ·) := by
        intro t a l m hl
        rw [← ez]
        congr 1
        rw [List.map_const', List.map_const', hl]
      have ed : ∀ (t a : K) (l m : List K), m.length = l.length →
          zip2 (fun u v => t * u + v) (m.map fun u => -a * u) (l.map (- ·)) = (zip2 (fun u v => u + t * a * v) l m).map (- ·) := by
        intro t a l
        induction l with
        | nil => intro m hm; simp [zip2]
        | cons b l ih =>
          intro m hm
          cases m with
          | nil => simp at hm
          | cons c m =>
            have := ih m (by simpa using hm)
            simp only [zip2] at this ⊢
            simp only [List.map_cons, List.zipWith_cons_cons, this, List.cons.injEq, and_true]
            ring
      have e0 : ∀ (t : K) (l : List K), zip2 (fun u v => t * u + v) (l.map fun _ => (0 : K)) (l.map (- ·)) = l.map (- ·) := by
        intro t l
        rw [ez]
        simp
      obtain ⟨l1, l2, l3, l4⟩ := hsame
      have ll : ∀ (a b : List K), a.length = b.length → b.length = (zip2 (· * ·) a b).length := by
        intro a b h; simp [zip2, h]
      simp only [Step.comb, rhsCen, rhsAff, rhsDir, Spec.neg, compl, ed _ _ _ _ hx, ed _ _ _ _ hs, e0, ez' _ _ _ _ (ll _ _ l1), ez' _ _ _ _ (ll _ _ l2), ez' _ _ _ _ (ll _ _ l3),
        ez' _ _ _ _ (ll _ _ l4)]

end Verif.MuOracle
