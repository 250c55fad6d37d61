import Verif.Model.Safeguard
import Verif.Proof.VecOps
import Mathlib.Algebra.Order.Field.Rat
import Mathlib.Algebra.Order.BigOperators.Group.List
import Mathlib.Tactic.FieldSimp
import Mathlib.Tactic.Positivity
import Mathlib.Tactic.Ring
import Mathlib.Tactic.NormNum

/-! # Safeguards for bound multipliers (C34) and slacks (C35) -/

set_option linter.unusedSectionVars false
set_option linter.unusedSimpArgs false

namespace Verif.Safeguard

open Verif.VecOps

variable {K : Type} [Field K] [LinearOrder K] [IsStrictOrderedRing K]

/-- The multiplier a reader of Eqn. (16) of the implementation paper expects: the closest value to `z` in
`[mu/(kappa s), kappa mu/s]`. -/
def Spec.clampMult (kappa mu z s : K) : K := max (mu / (kappa * s)) (min z (kappa * mu / s))

theorem pos_of_mem {s : List K} (h : ∀ a ∈ s, 0 < a) (i : Nat) (hi : i < s.length) : 0 < s[i] := h _ (List.getElem_mem hi)

section
variable {kappa mu : K} {z slack : List K}

/-- The quantities after the first correction. -/
theorem step1 (hlen : z.length = slack.length) (hz : z ≠ []) :
    let step := zip2 (fun r a => kappa * mu * r + (-1) * a) (slack.map (fun s => 1 / s)) z
    (∀ i (h : i < z.length) (h' : i < slack.length), vmin step ≤ kappa * mu / slack[i] - z[i])
    ∧ ∃ i, ∃ (h : i < z.length) (h' : i < slack.length), vmin step = kappa * mu / slack[i] - z[i] := by
  intro step
  have hl : step.length = z.length := by simp [step, zip2, hlen]
  have he : ∀ i (h : i < z.length) (h' : i < slack.length) (h2 : i < step.length), step[i] = kappa * mu / slack[i] - z[i] := by
    intro i h h' h2
    simp only [step, zip2, List.getElem_zipWith, List.getElem_map]
    ring
  refine ⟨fun i h h' => ?_, ?_⟩
  · rw [← he i h h' (by omega)]; exact vmin_le (List.getElem_mem _)
  · have hne : step ≠ [] := by
      intro h0
      have : z.length = 0 := by rw [← hl, h0]; rfl
      exact hz (List.length_eq_zero_iff.mp this)
    obtain ⟨i, hi, h⟩ := List.getElem_of_mem (vmin_mem hne)
    exact ⟨i, by omega, by omega, by rw [← h, he i (by omega) (by omega) hi]⟩

theorem step2 {z1 : List K} (hlen : z1.length = slack.length) (hz : z1 ≠ []) :
    let step := zip2 (fun r a => 1 / kappa * mu * r + (-1) * a) (slack.map (fun s => 1 / s)) z1
    (∀ i (h : i < z1.length) (h' : i < slack.length), mu / (kappa * slack[i]) - z1[i] ≤ vmax step)
    ∧ ∃ i, ∃ (h : i < z1.length) (h' : i < slack.length), vmax step = mu / (kappa * slack[i]) - z1[i] := by
  intro step
  have hl : step.length = z1.length := by simp [step, zip2, hlen]
  have he : ∀ i (h : i < z1.length) (h' : i < slack.length) (h2 : i < step.length),
      step[i] = mu / (kappa * slack[i]) - z1[i] := by
    intro i h h' h2
    simp only [step, zip2, List.getElem_zipWith, List.getElem_map]
    rw [div_mul_eq_div_div]
    ring
  refine ⟨fun i h h' => ?_, ?_⟩
  · rw [← he i h h' (by omega)]; exact le_vmax (List.getElem_mem _)
  · have hne : step ≠ [] := by
      intro h0
      have : z1.length = 0 := by rw [← hl, h0]; rfl
      exact hz (List.length_eq_zero_iff.mp this)
    obtain ⟨i, hi, h⟩ := List.getElem_of_mem (vmax_mem hne)
    exact ⟨i, by omega, by omega, by rw [← h, he i (by omega) (by omega) hi]⟩

end

theorem lo_le_hi {kappa mu s : K} (hk : 1 ≤ kappa) (hmu : 0 ≤ mu) (hs : 0 < s) : mu / (kappa * s) ≤ kappa * mu / s := by
  have hk0 : 0 < kappa := lt_of_lt_of_le one_pos hk
  rw [div_le_div_iff₀ (by positivity) hs]
  have : mu ≤ kappa * mu * kappa := by nlinarith [mul_nonneg hmu (sub_nonneg.mpr hk)]
  nlinarith [mul_le_mul_of_nonneg_right this hs.le]

/-- **C34** For all multipliers and positive slacks of the same length, `kappa_sigma ≥ 1` and `mu ≥ 0`: the corrected multipliers are
exactly the closest values in `[mu/(kappa s), kappa mu/s]`, and the returned number is the largest change of a multiplier. -/
theorem corrected_multipliers (kappa mu : K) (z slack : List K) (hk : 1 ≤ kappa) (hmu : 0 ≤ mu) (hlen : z.length = slack.length)
    (hs : ∀ a ∈ slack, 0 < a) :
    (correctBoundMultiplier kappa mu z slack (zip2 (· * ·) z slack)).2 = List.zipWith (Spec.clampMult kappa mu) z slack
    ∧ (correctBoundMultiplier kappa mu z slack (zip2 (· * ·) z slack)).1
        = amax (List.zipWith (fun a b => a - b) (List.zipWith (Spec.clampMult kappa mu) z slack) z) := by
  have hk0 : 0 < kappa := lt_of_lt_of_le one_pos hk
  unfold correctBoundMultiplier
  by_cases h0 : kappa < 1 ∨ z.length = 0
  · rw [if_pos h0]
    rcases h0 with h | h
    · exact absurd h (not_lt.mpr hk)
    · have hzn : z = [] := List.length_eq_zero_iff.mp h
      subst hzn
      exact ⟨rfl, rfl⟩
  rw [if_neg h0]
  have hzne : z ≠ [] := fun h => h0 (Or.inr (by rw [h]; rfl))
  -- clamp elementwise
  by_cases hq : amax (zip2 (· * ·) z slack) ≤ kappa * mu ∧ 1 / kappa * mu ≤ vmin (zip2 (· * ·) z slack)
  · rw [if_pos hq]
    have hz : List.zipWith (Spec.clampMult kappa mu) z slack = z := by
      apply List.ext_getElem
      · simp [hlen]
      · intro i h1 h2
        have h3 : i < slack.length := by omega
        have hsi := pos_of_mem hs i h3
        have hmem : z[i] * slack[i] ∈ zip2 (· * ·) z slack := by
          rw [List.mem_iff_getElem]
          exact ⟨i, by simp [zip2, hlen, h3], by simp [zip2]⟩
        have hu : z[i] * slack[i] ≤ kappa * mu := le_trans (le_trans (le_abs_self _) (abs_le_amax hmem)) hq.1
        have hl : 1 / kappa * mu ≤ z[i] * slack[i] := le_trans hq.2 (vmin_le hmem)
        simp only [List.getElem_zipWith, Spec.clampMult]
        have hu' : z[i] ≤ kappa * mu / slack[i] := (le_div_iff₀ hsi).mpr hu
        have hl' : mu / (kappa * slack[i]) ≤ z[i] := by
          rw [div_mul_eq_div_div, div_le_iff₀ hsi]
          have : 1 / kappa * mu = mu / kappa := by ring
          rw [← this]; exact hl
        rw [min_eq_left hu', max_eq_right hl']
    refine ⟨hz.symm, ?_⟩
    rw [hz]
    symm
    apply le_antisymm (amax_le le_rfl _) (amax_nonneg _)
    intro x hx
    obtain ⟨i, hi, rfl⟩ := List.getElem_of_mem hx
    simp
  · rw [if_neg hq]
    obtain ⟨s1le, i1, hi1, hi1', s1eq⟩ := step1 (kappa := kappa) (mu := mu) hlen hzne
    simp only
    set st := zip2 (fun r a => kappa * mu * r + (-1) * a) (slack.map (fun s => 1 / s)) z with hst
    set up := max 0 (-vmin st) with hup
    set z1 := (if 0 < up then zip2 (fun a d => a + d) z (st.map (fun d => min d 0)) else z) with hz1
    have hstl : st.length = z.length := by simp [hst, zip2, hlen]
    have hz1l : z1.length = z.length := by
      rw [hz1]; split <;> simp [zip2, hstl]
    have hste : ∀ i (h : i < z.length) (h' : i < slack.length) (h2 : i < st.length), st[i] = kappa * mu / slack[i] - z[i] := by
      intro i h h' h2
      simp only [hst, zip2, List.getElem_zipWith, List.getElem_map]
      ring
    have hz1e : ∀ i (h : i < z1.length) (h2 : i < z.length) (h3 : i < slack.length), z1[i] = min z[i] (kappa * mu / slack[i]) := by
      intro i h h2 h3
      by_cases hu : 0 < up
      · simp only [hz1, if_pos hu, zip2, List.getElem_zipWith, List.getElem_map]
        rw [hste i h2 h3 (by omega)]
        rcases le_total (kappa * mu / slack[i]) z[i] with hc | hc
        · rw [min_eq_left (by linarith), min_eq_right hc]; ring
        · rw [min_eq_right (by linarith), min_eq_left hc]; ring
      · simp only [hz1, if_neg hu]
        have : -vmin st ≤ 0 := le_trans (le_max_right _ _) (not_lt.mp hu)
        have := s1le i h2 h3
        rw [min_eq_left (by linarith)]
    have hz1ne : z1 ≠ [] := by
      intro h
      have : z.length = 0 := by rw [← hz1l, h]; rfl
      exact h0 (Or.inr this)
    obtain ⟨s2le, i2, hi2, hi2', s2eq⟩ := step2 (kappa := kappa) (mu := mu) (slack := slack) (z1 := z1) (by omega) hz1ne
    set st2 := zip2 (fun r a => 1 / kappa * mu * r + (-1) * a) (slack.map (fun s => 1 / s)) z1 with hst2
    set low := max 0 (vmax st2) with hlow
    have hst2l : st2.length = z.length := by simp [hst2, zip2, hlen, hz1l]
    have hst2e : ∀ i (h : i < z1.length) (h' : i < slack.length) (h2 : i < st2.length), st2[i] = mu / (kappa * slack[i]) - z1[i] := by
      intro i h h' h2
      simp only [hst2, zip2, List.getElem_zipWith, List.getElem_map]
      rw [div_mul_eq_div_div]
      ring
    have hres : (if 0 < low then zip2 (fun a d => a + d) z1 (st2.map (fun d => max d 0)) else z1)
        = List.zipWith (Spec.clampMult kappa mu) z slack := by
      apply List.ext_getElem
      · split <;> simp [zip2, hst2l, hz1l, hlen]
      · intro i h1 h2
        have hiz : i < z.length := by simp at h2; omega
        have his : i < slack.length := by omega
        have hi1 : i < z1.length := by omega
        have key : (if 0 < low then zip2 (fun a d => a + d) z1 (st2.map (fun d => max d 0)) else z1)[i]
            = max (mu / (kappa * slack[i])) z1[i] := by
          by_cases hl : 0 < low
          · simp only [if_pos hl, zip2, List.getElem_zipWith, List.getElem_map]
            rw [hst2e i hi1 his (by omega)]
            rcases le_total (mu / (kappa * slack[i])) z1[i] with hc | hc
            · rw [max_eq_right (by linarith), max_eq_right hc]; ring
            · rw [max_eq_left (by linarith), max_eq_left hc]; ring
          · simp only [if_neg hl]
            have : vmax st2 ≤ 0 := le_trans (le_max_right _ _) (not_lt.mp hl)
            have := s2le i hi1 his
            rw [max_eq_right (by linarith)]
        rw [key, hz1e i hi1 hiz his, List.getElem_zipWith]
        rfl
    refine ⟨hres, ?_⟩
    -- elementwise change
    have hdiff : ∀ i (h : i < z.length) (h' : i < slack.length),
        |Spec.clampMult kappa mu z[i] slack[i] - z[i]| ≤ max up low := by
      intro i h h'
      have hsi := pos_of_mem hs i h'
      have hlh := lo_le_hi hk hmu hsi
      have a1 := s1le i h h'
      have a2 := s2le i (by omega) h'
      rw [hz1e i (by omega) h h'] at a2
      have b1 : -vmin st ≤ max up low := le_trans (le_max_right _ _) (le_max_left _ _)
      have b2 : vmax st2 ≤ max up low := le_trans (le_max_right _ _) (le_max_right _ _)
      have b0 : 0 ≤ max up low := le_trans (le_max_left _ _) (le_max_left _ _)
      unfold Spec.clampMult
      rw [abs_le]
      rcases le_total z[i] (kappa * mu / slack[i]) with hc | hc
      · rw [min_eq_left hc] at a2 ⊢
        rcases le_total (mu / (kappa * slack[i])) z[i] with hd | hd
        · rw [max_eq_right hd]; constructor <;> linarith
        · rw [max_eq_left hd]; constructor <;> linarith
      · rw [min_eq_right hc, max_eq_right hlh]
        constructor <;> linarith
    apply le_antisymm
    · -- attained
      have hmem : ∀ i (h : i < z.length) (h' : i < slack.length),
          |Spec.clampMult kappa mu z[i] slack[i] - z[i]|
            ≤ amax (List.zipWith (fun a b => a - b) (List.zipWith (Spec.clampMult kappa mu) z slack) z) := by
        intro i h h'
        apply abs_le_amax
        rw [List.mem_iff_getElem]
        exact ⟨i, by simp [hlen, h'], by simp⟩
      refine max_le (max_le (amax_nonneg _) ?_) (max_le (amax_nonneg _) ?_)
      · rcases le_or_gt (-vmin st) 0 with hn | hn
        · exact le_trans hn (amax_nonneg _)
        · refine le_trans ?_ (hmem i1 hi1 hi1')
          have hsi := pos_of_mem hs i1 hi1'
          have hlh := lo_le_hi hk hmu hsi
          have hc : kappa * mu / slack[i1] ≤ z[i1] := by linarith
          unfold Spec.clampMult
          rw [min_eq_right hc, max_eq_right hlh, s1eq]
          rw [abs_sub_comm]
          exact le_trans (by linarith) (le_abs_self _)
      · rcases le_or_gt (vmax st2) 0 with hn | hn
        · exact le_trans hn (amax_nonneg _)
        · have hi2z : i2 < z.length := by omega
          refine le_trans ?_ (hmem i2 hi2z hi2')
          have hsi := pos_of_mem hs i2 hi2'
          have hlh := lo_le_hi hk hmu hsi
          rw [hz1e i2 hi2 hi2z hi2'] at s2eq
          rw [s2eq]
          unfold Spec.clampMult
          have hle : min z[i2] (kappa * mu / slack[i2]) ≤ mu / (kappa * slack[i2]) := by linarith
          rw [max_eq_left hle]
          rcases le_total z[i2] (kappa * mu / slack[i2]) with hc | hc
          · rw [min_eq_left hc]; exact le_abs_self _
          · exfalso
            rw [min_eq_right hc] at s2eq
            linarith
    · apply amax_le (le_trans (le_max_left _ _) (le_max_left _ _))
      intro x hx
      obtain ⟨i, hi, rfl⟩ := List.getElem_of_mem hx
      simp only [List.length_zipWith] at hi
      simp only [List.getElem_zipWith]
      exact hdiff i (by omega) (by omega)

/-- **C34** After the correction every product of multiplier and slack lies between `mu/kappa` and `kappa mu`, and a multiplier whose
product was already in that range is unchanged. -/
theorem corrected_products (kappa mu : K) (z slack : List K) (hk : 1 ≤ kappa) (hmu : 0 ≤ mu) (hlen : z.length = slack.length)
    (hs : ∀ a ∈ slack, 0 < a) (i : Nat) (hi : i < z.length) (hi' : i < slack.length) :
    ∃ h : i < (correctBoundMultiplier kappa mu z slack (zip2 (· * ·) z slack)).2.length,
      mu / kappa ≤ (correctBoundMultiplier kappa mu z slack (zip2 (· * ·) z slack)).2[i] * slack[i]
      ∧ (correctBoundMultiplier kappa mu z slack (zip2 (· * ·) z slack)).2[i] * slack[i] ≤ kappa * mu
      ∧ (mu / kappa ≤ z[i] * slack[i] → z[i] * slack[i] ≤ kappa * mu →
          (correctBoundMultiplier kappa mu z slack (zip2 (· * ·) z slack)).2[i] = z[i]) := by
  have hk0 : 0 < kappa := lt_of_lt_of_le one_pos hk
  have hsi := pos_of_mem hs i hi'
  have hlh := lo_le_hi hk hmu hsi
  obtain ⟨h2, _⟩ := corrected_multipliers kappa mu z slack hk hmu hlen hs
  have hlo : ∀ a : K, mu / (kappa * slack[i]) ≤ a → mu / kappa ≤ a * slack[i] := by
    intro a ha
    rw [div_mul_eq_div_div] at ha
    exact (div_le_iff₀ hsi).mp ha
  refine ⟨by rw [h2]; simp [hlen, hi'], ?_⟩
  simp only [h2, List.getElem_zipWith, Spec.clampMult]
  refine ⟨hlo _ (le_max_left _ _), ?_, ?_⟩
  · exact (le_div_iff₀ hsi).mp (max_le hlh (min_le_right _ _))
  · intro ha hb
    rw [min_eq_left ((le_div_iff₀ hsi).mpr hb), max_eq_right]
    rw [div_mul_eq_div_div]
    exact (div_le_iff₀ hsi).mpr ha

/-- With `kappa_sigma < 1` the safeguard is switched off. -/
theorem correction_disabled (kappa mu : K) (z slack compl : List K) (hk : kappa < 1) :
    correctBoundMultiplier kappa mu z slack compl = (0, z) := by
  simp [correctBoundMultiplier, hk]

theorem dot_nonneg {z s : List K} (hz : ∀ a ∈ z, 0 ≤ a) (hs : ∀ a ∈ s, 0 < a) : 0 ≤ dot z s := by
  unfold dot
  apply List.sum_nonneg
  intro x hx
  obtain ⟨i, hi, rfl⟩ := List.getElem_of_mem hx
  simp only [List.length_zipWith] at hi
  simp only [List.getElem_zipWith]
  exact mul_nonneg (hz _ (List.getElem_mem _)) (hs _ (List.getElem_mem _)).le

/-- **C34** Accepting a trial point: for nonnegative multipliers and positive slacks, in the fixed mode with `mu ≥ 0` as well as in the
free mode, all four groups of multipliers are the safeguarded ones for one and the same barrier parameter, and "corrected" is reported
exactly if one of them was changed. -/
theorem accept_trial_multipliers (kappa curMu : K) (free : Bool) (zL zU vL vU sxL sxU ssL ssU : List K) (hk : 1 ≤ kappa)
    (hmu : 0 ≤ curMu)
    (l1 : zL.length = sxL.length) (l2 : zU.length = sxU.length) (l3 : vL.length = ssL.length) (l4 : vU.length = ssU.length)
    (p1 : ∀ a ∈ sxL, 0 < a) (p2 : ∀ a ∈ sxU, 0 < a) (p3 : ∀ a ∈ ssL, 0 < a) (p4 : ∀ a ∈ ssU, 0 < a)
    (n1 : ∀ a ∈ zL, 0 ≤ a) (n2 : ∀ a ∈ zU, 0 ≤ a) (n3 : ∀ a ∈ vL, 0 ≤ a) (n4 : ∀ a ∈ vU, 0 ≤ a) :
    let mu := if free = true then min (avrgCompl zL zU vL vU sxL sxU ssL ssU) 1000 else curMu
    let r := acceptBoundMult kappa free curMu zL zU vL vU sxL sxU ssL ssU
    0 ≤ mu
    ∧ r.1 = (List.zipWith (Spec.clampMult kappa mu) zL sxL, List.zipWith (Spec.clampMult kappa mu) zU sxU,
        List.zipWith (Spec.clampMult kappa mu) vL ssL, List.zipWith (Spec.clampMult kappa mu) vU ssU)
    ∧ (r.2 = false ↔ r.1 = (zL, zU, vL, vU)) := by
  intro mu r
  have hmu' : 0 ≤ mu := by
    show 0 ≤ (if free = true then min (avrgCompl zL zU vL vU sxL sxU ssL ssU) 1000 else curMu)
    by_cases hf : free = true
    · rw [if_pos hf]
      refine le_min ?_ (by norm_num)
      unfold avrgCompl
      split
      · apply div_nonneg _ (Nat.cast_nonneg _)
        have := dot_nonneg n1 p1; have := dot_nonneg n2 p2; have := dot_nonneg n3 p3; have := dot_nonneg n4 p4
        linarith
      · exact le_rfl
    · rw [if_neg hf]; exact hmu
  have e1 := corrected_multipliers kappa mu zL sxL hk hmu' l1 p1
  have e2 := corrected_multipliers kappa mu zU sxU hk hmu' l2 p2
  have e3 := corrected_multipliers kappa mu vL ssL hk hmu' l3 p3
  have e4 := corrected_multipliers kappa mu vU ssU hk hmu' l4 p4
  have hr1 : r.1 = (List.zipWith (Spec.clampMult kappa mu) zL sxL, List.zipWith (Spec.clampMult kappa mu) zU sxU,
        List.zipWith (Spec.clampMult kappa mu) vL ssL, List.zipWith (Spec.clampMult kappa mu) vU ssU) := by
    rw [← e1.1, ← e2.1, ← e3.1, ← e4.1]; rfl
  have zero_iff : ∀ (z s : List K), z.length = s.length →
      (amax (List.zipWith (fun a b => a - b) (List.zipWith (Spec.clampMult kappa mu) z s) z) = 0
        ↔ List.zipWith (Spec.clampMult kappa mu) z s = z) := by
    intro z s hl
    constructor
    · intro h
      apply List.ext_getElem
      · simp [hl]
      · intro i h1 h2
        have : (List.zipWith (Spec.clampMult kappa mu) z s)[i] - z[i] ∈
            (List.zipWith (fun a b => a - b) (List.zipWith (Spec.clampMult kappa mu) z s) z) := by
          rw [List.mem_iff_getElem]
          exact ⟨i, by simp [hl] at h1 ⊢; omega, by simp⟩
        have := abs_le_amax this
        rw [h] at this
        have := abs_eq_zero.mp (le_antisymm this (abs_nonneg _))
        linarith
    · intro h
      rw [h]
      apply le_antisymm (amax_le le_rfl _) (amax_nonneg _)
      intro x hx
      obtain ⟨i, hi, rfl⟩ := List.getElem_of_mem hx
      simp
  refine ⟨hmu', hr1, ?_⟩
  have hpos : ∀ v : List K, ¬ 0 < amax v ↔ amax v = 0 := fun v =>
    ⟨fun h => le_antisymm (not_lt.mp h) (amax_nonneg v), fun h => by rw [h]; exact lt_irrefl _⟩
  have hr2 : r.2 = (decide (0 < (correctBoundMultiplier kappa mu zL sxL (zip2 (· * ·) zL sxL)).1)
      || decide (0 < (correctBoundMultiplier kappa mu zU sxU (zip2 (· * ·) zU sxU)).1)
      || decide (0 < (correctBoundMultiplier kappa mu vL ssL (zip2 (· * ·) vL ssL)).1)
      || decide (0 < (correctBoundMultiplier kappa mu vU ssU (zip2 (· * ·) vU ssU)).1)) := rfl
  rw [hr2, hr1, e1.2, e2.2, e3.2, e4.2]
  simp only [Bool.or_eq_false_iff, decide_eq_false_iff_not, hpos, zero_iff _ _ l1, zero_iff _ _ l2, zero_iff _ _ l3, zero_iff _ _ l4,
    Prod.mk.injEq, and_assoc]

/-- A case in which one multiplier is too large, one too small and one unchanged. -/
example : correctBoundMultiplier (10 : ℚ) 1 [100, 1/100, 3] [1, 1, 1/2] (zip2 (· * ·) [100, 1/100, 3] [1, 1, 1/2])
    = (90, [10, 1/10, 3]) := by decide +kernel

/-! ## Slacks -/

/-- The corrected slack a reader of the documentation expects. `quot` is `mu/multiplier`, absent when the multiplier is zero (then the
quotient is infinite and the limit is taken). -/
def Spec.safeSlack (sMin mu slackMove slack bound mult : K) : K :=
  if slack < sMin then
    if mult = 0 then slackMove * max 1 |bound| + max slack 0
    else min (max (mu / mult) sMin) (slackMove * max 1 |bound| + max slack 0)
  else slack

theorem tooSmall_eq (sMin a : K) : tooSmall sMin a = if a < sMin then 1 else 0 := by
  unfold tooSmall sgn
  by_cases h : a < sMin
  · rw [if_pos h, if_neg (by linarith), if_pos (by linarith)]
    rw [min_eq_left (by linarith [@zero_lt_one K _ _ _ _])]; ring
  · rw [if_neg h]
    by_cases h2 : 0 < a + -sMin
    · rw [if_pos h2, min_eq_right (by linarith [@zero_lt_one K _ _ _ _])]; ring
    · rw [if_neg h2, if_neg (by linarith [not_lt.mp h])]; simp

theorem asum_tooSmall (sMin : K) (l : List K) : asum (l.map (tooSmall sMin)) = ((l.filter (fun a => decide (a < sMin))).length : K) := by
  unfold asum
  induction l with
  | nil => simp
  | cons a r ih =>
    simp only [List.map_cons, List.sum_cons, ih, tooSmall_eq, List.filter_cons]
    by_cases h : a < sMin
    · simp [h]; ring
    · simp [h]

theorem newSlackElem_eq (mu slackMove sMin slack bound mult : K) (hmove : 0 ≤ slackMove) (hs : 0 < sMin) :
    newSlackElem mu slackMove sMin (tooSmall sMin slack) (max slack 0) bound mult = Spec.safeSlack sMin mu slackMove slack bound mult := by
  have hlim : 0 ≤ slackMove * max 1 |bound| := mul_nonneg hmove (le_trans zero_le_one (le_max_left _ _))
  unfold newSlackElem Spec.safeSlack
  rw [tooSmall_eq]
  by_cases h : slack < sMin
  · simp only [if_pos h, selectExt, if_neg one_ne_zero]
    by_cases hm : mult = 0
    · simp [divExt, hm, Ext.maxF, Ext.addF, Ext.minF]
    · simp only [divExt, if_neg hm, Ext.maxF, Ext.addF, Ext.minF]
      congr 1
      ring
  · simp only [if_neg h, selectExt, if_true, Ext.addF, Ext.minF]
    have h0 : max slack 0 = slack := max_eq_left (le_trans hs.le (not_lt.mp h))
    rw [h0, min_eq_left]
    · ring
    · linarith

/-- **C35** For all slacks, bounds and multipliers of the same length, `slack_move ≥ 0` and a positive threshold: every slack below the
threshold is replaced by the documented value, every other slack is unchanged, and the returned number is the number of slacks below the threshold. -/
theorem safe_slack_spec (eps tiny slackMove mu : K) (slack bound mult : List K) (hb : bound.length = slack.length)
    (hm : mult.length = slack.length) (hmove : 0 ≤ slackMove) (hs : 0 < sMinOf eps tiny mu) :
    (calculateSafeSlack eps tiny slackMove mu slack bound mult).1
        = ((slack.filter (fun a => decide (a < sMinOf eps tiny mu))).length : K)
    ∧ (calculateSafeSlack eps tiny slackMove mu slack bound mult).2.length = slack.length
    ∧ ∀ i (h : i < slack.length) (h1 : i < bound.length) (h2 : i < mult.length)
        (h3 : i < (calculateSafeSlack eps tiny slackMove mu slack bound mult).2.length),
        (calculateSafeSlack eps tiny slackMove mu slack bound mult).2[i]
          = Spec.safeSlack (sMinOf eps tiny mu) mu slackMove slack[i] bound[i] mult[i] := by
  unfold calculateSafeSlack
  by_cases h0 : 0 < slack.length
  · simp only [if_pos h0]
    by_cases hmin : vmin slack < sMinOf eps tiny mu
    · simp only [if_pos hmin]
      refine ⟨asum_tooSmall _ _, by simp [hb, hm], ?_⟩
      intro i h h1 h2 h3
      simp only [List.getElem_zipWith, List.getElem_zip, List.getElem_map]
      exact newSlackElem_eq _ _ _ _ _ _ hmove hs
    · simp only [if_neg hmin]
      have hge : ∀ a ∈ slack, ¬ a < sMinOf eps tiny mu := fun a ha hlt => hmin (lt_of_le_of_lt (vmin_le ha) hlt)
      refine ⟨?_, trivial, ?_⟩
      · rw [List.filter_eq_nil_iff.mpr (by intro a ha; simpa using hge a ha)]; simp
      · intro i h _ _ _
        unfold Spec.safeSlack
        rw [if_neg (hge _ (List.getElem_mem _))]
  · simp only [if_neg h0]
    have : slack = [] := List.length_eq_zero_iff.mp (by omega)
    subst this
    refine ⟨by simp, trivial, ?_⟩
    intro i h; exact absurd h (by simp)

/-- **C35** With `slack_move > 0`, `mu > 0` and positive machine constants every slack is positive afterwards, none became smaller, and
none was moved by more than `slack_move * max(1, |bound|)` from the larger of its old value and zero. -/
theorem safe_slack_positive (sMin mu slackMove slack bound mult : K) (hmove : 0 < slackMove) (hs : 0 < sMin) :
    0 < Spec.safeSlack sMin mu slackMove slack bound mult
    ∧ slack ≤ Spec.safeSlack sMin mu slackMove slack bound mult
    ∧ Spec.safeSlack sMin mu slackMove slack bound mult ≤ max slack 0 + slackMove * max 1 |bound| := by
  have hlim : 0 < slackMove * max 1 |bound| := mul_pos hmove (lt_of_lt_of_le one_pos (le_max_left _ _))
  have h0 : 0 ≤ max slack 0 := le_max_right _ _
  have h1 : slack ≤ max slack 0 := le_max_left _ _
  unfold Spec.safeSlack
  by_cases h : slack < sMin
  · rw [if_pos h]
    by_cases hm : mult = 0
    · rw [if_pos hm]
      refine ⟨by linarith, by linarith, by linarith⟩
    · rw [if_neg hm]
      have h3 : sMin ≤ max (mu / mult) sMin := le_max_right _ _
      refine ⟨lt_min (by linarith) (by linarith), le_min (by linarith) (by linarith), le_trans (min_le_right _ _) (by linarith)⟩
  · rw [if_neg h]
    have := not_lt.mp h
    refine ⟨by linarith, le_rfl, by linarith⟩

/-- The threshold is positive for every `mu ≥ 0` and is at most machine precision unless the product underflows. -/
theorem sMin_pos (eps tiny mu : K) (he : 0 < eps) (ht : 0 < tiny) (hmu : 0 ≤ mu) : 0 < sMinOf eps tiny mu := by
  unfold sMinOf
  split
  · exact ht
  · rename_i h
    exact lt_of_le_of_ne (mul_nonneg he.le (le_min zero_le_one hmu)) (Ne.symm h)

/-- **C35** The vector statement: all slacks positive after the call. -/
theorem safe_slacks_positive (eps tiny slackMove mu : K) (slack bound mult : List K) (hb : bound.length = slack.length)
    (hm : mult.length = slack.length) (hmove : 0 < slackMove) (he : 0 < eps) (ht : 0 < tiny) (hmu : 0 ≤ mu) :
    ∀ a ∈ (calculateSafeSlack eps tiny slackMove mu slack bound mult).2, 0 < a := by
  have hs := sMin_pos eps tiny mu he ht hmu
  obtain ⟨_, hl, hspec⟩ := safe_slack_spec eps tiny slackMove mu slack bound mult hb hm hmove.le hs
  intro a ha
  obtain ⟨i, hi, rfl⟩ := List.getElem_of_mem ha
  rw [hspec i (by omega) (by omega) (by omega) hi]
  exact (safe_slack_positive _ _ _ _ _ _ hmove hs).1

/-- The option `slack_move` may be set to 0 (its lower bound is not strict); then a slack that is zero or negative becomes zero, not positive. -/
theorem slack_move_zero_not_positive : (calculateSafeSlack (1/1000 : ℚ) (1/1000000) 0 1 [-1, 5] [0, 0] [1, 1]).2 = [0, 5] := by
  decide +kernel

/-- The first request for the trial slack reports the number of corrections, ... -/
theorem first_request_counts (eps tiny slackMove mu : K) (tag : Nat) (raw bound mult : List K) (s : SlackState K) (h : s.cache = none) :
    (trialSlack eps tiny slackMove mu tag raw bound mult s).1.numAdjusted
      = (calculateSafeSlack eps tiny slackMove mu raw bound mult).1 := by
  simp [trialSlack, h]

/-- ... but a second request at the same point is answered by the cache and sets the number to zero, so `AcceptTrialPoint` then does not
move the bounds although the slacks were corrected. -/
theorem second_request_forgets (eps tiny slackMove mu : K) (tag : Nat) (raw bound mult : List K) (s : SlackState K) (h : s.cache = none) :
    let s1 := (trialSlack eps tiny slackMove mu tag raw bound mult s).1
    (trialSlack eps tiny slackMove mu tag raw bound mult s1).1.numAdjusted = 0
    ∧ (trialSlack eps tiny slackMove mu tag raw bound mult s1).2 = (calculateSafeSlack eps tiny slackMove mu raw bound mult).2 := by
  simp [trialSlack, h]

/-- A case with a tiny slack, a slack of the right size, a negative slack and a zero multiplier. -/
example : calculateSafeSlack (1/1000 : ℚ) (1/1000000) (1/10) (1/2) [0, 5, -1, 1/10000] [0, 0, 3, 1] [1, 1, 100, 0]
    = (3, [1/10, 5, 1/200, 1001/10000]) := by decide +kernel

end Verif.Safeguard
