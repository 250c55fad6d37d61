import Verif.Proof.Golden

set_option linter.unusedSectionVars false
set_option linter.unusedSimpArgs false
set_option linter.unusedVariables false

/-! # The golden section search of the quality function oracle (C58) -/

namespace Verif.MuOracle

variable {K : Type} [Field K] [LinearOrder K] [IsStrictOrderedRing K]

/-- The value handed over for an end point is the value there or the marker for "not evaluated". -/
def Truthful (q : K → K) (x v : K) : Prop := v = q x ∨ v = -100

theorem sentinel_steep {qfTol : K} (hq : qfTol < 1) {s : GS K} (h1 : 0 < s.q1) (h : s.qlo = -100 ∨ s.qup = -100) : s.steep qfTol := by
  unfold GS.steep
  have hm : s.qmin < 0 := by
    unfold GS.qmin
    rcases h with h | h
    · exact lt_of_le_of_lt ((min_le_left _ _).trans ((min_le_left _ _).trans (min_le_left _ _))) (by rw [h]; norm_num)
    · exact lt_of_le_of_lt ((min_le_left _ _).trans ((min_le_left _ _).trans (min_le_right _ _))) (by rw [h]; norm_num)
  have hM : 0 < s.qmax := by
    unfold GS.qmax
    exact lt_of_lt_of_le h1 ((le_max_right _ _).trans (le_max_left _ _))
  have := div_neg_of_neg_of_pos hm hM
  linarith

/-- The choice at the end. -/
theorem select_spec {q : K → K} {g sigmaTol qfTol up0 qup0 lo0 qlo0 : K} {k : Nat} {s : GS K} (hg : Spec.IsGolden g) (hlt : lo0 < up0)
    (h : GInv q g up0 qup0 lo0 qlo0 k s) :
    s.lo ≤ (gsSelect q sigmaTol qfTol up0 lo0 s).1 ∧ (gsSelect q sigmaTol qfTol up0 lo0 s).1 ≤ s.up
    ∧ (k + 2 ≤ (gsSelect q sigmaTol qfTol up0 lo0 s).2.length ∧ (gsSelect q sigmaTol qfTol up0 lo0 s).2.length ≤ k + 3)
    ∧ ((∀ x, lo0 ≤ x → x ≤ up0 → 0 < q x) → Truthful q up0 qup0 → Truthful q lo0 qlo0 → qfTol < 1 →
        (∀ e ∈ (gsSelect q sigmaTol qfTol up0 lo0 s).2, q (gsSelect q sigmaTol qfTol up0 lo0 s).1 ≤ q e)
        ∧ (s.wide sigmaTol → ¬ s.steep qfTol →
            (1 - qfTol) * q s.lo < q (gsSelect q sigmaTol qfTol up0 lo0 s).1 ∧ (1 - qfTol) * q s.up < q (gsSelect q sigmaTol qfTol up0 lo0 s).1)) := by
  obtain ⟨p1, p2, p3⟩ := ginv_pos hg hlt h
  have hlo := h.lo_ge
  have hup := h.up_le
  unfold gsSelect
  by_cases hc : s.wide sigmaTol ∧ ¬ s.steep qfTol
  · rw [if_pos hc]
    have hcount : k + 2 ≤ s.evals.length ∧ s.evals.length ≤ k + 3 := by rw [h.count]; omega
    refine ⟨?_, ?_, hcount, ?_⟩
    · simp only; split_ifs <;> linarith
    · simp only; split_ifs <;> linarith
    · intro hpos ht1 ht2 hq1
      have q1pos : 0 < s.q1 := by rw [h.q1]; exact hpos _ (by linarith) (by linarith)
      have hns : ¬ (s.qlo = -100 ∨ s.qup = -100) := fun hh => hc.2 (sentinel_steep hq1 q1pos hh)
      have hl : s.qlo = q s.lo := by
        rcases h.qlo with h1 | h1
        · rcases ht2 with h2 | h2
          · rw [h1.2, h2, h1.1]
          · exact absurd (Or.inl (h1.2.trans h2)) hns
        · exact h1.2.1
      have hu : s.qup = q s.up := by
        rcases h.qup with h1 | h1
        · rcases ht1 with h2 | h2
          · rw [h1.2, h2, h1.1]
          · exact absurd (Or.inr (h1.2.trans h2)) hns
        · exact h1.2.1
      have hmin : q (if s.qmin = s.qlo then s.lo else if s.qmin = s.q1 then s.mid1 else if s.qmin = s.q2 then s.mid2 else s.up) = s.qmin := by
        split_ifs with c1 c2 c3
        · rw [c1, hl]
        · rw [c2, h.q1]
        · rw [c3, h.q2]
        · unfold GS.qmin at c1 c2 c3 ⊢
          rw [← hu]
          rcases min_choice (min (min s.qlo s.qup) s.q1) s.q2 with e | e
          · rw [e] at c1 c2 c3 ⊢
            rcases min_choice (min s.qlo s.qup) s.q1 with e | e
            · rw [e] at c1 c2 c3 ⊢
              rcases min_choice s.qlo s.qup with e | e
              · exact absurd e c1
              · exact e.symm
            · exact absurd e c2
          · exact absurd e c3
      have m1 : s.qmin ≤ s.q1 := (min_le_left _ _).trans (min_le_right _ _)
      have m2 : s.qmin ≤ s.q2 := min_le_right _ _
      have M1 : s.qlo ≤ s.qmax := (le_max_left _ _).trans ((le_max_left _ _).trans (le_max_left _ _))
      have M2 : s.qup ≤ s.qmax := (le_max_right _ _).trans ((le_max_left _ _).trans (le_max_left _ _))
      have M3 : s.q1 ≤ s.qmax := (le_max_right _ _).trans (le_max_left _ _)
      refine ⟨?_, fun _ hs => ?_⟩
      · intro e he
        simp only at he ⊢
        rw [hmin]
        rcases h.best e he with h1 | h1
        · exact m1.trans h1
        · exact m2.trans h1
      · simp only
        rw [hmin]
        unfold GS.steep at hs
        push Not at hs
        have hMp : 0 < s.qmax := lt_of_lt_of_le q1pos M3
        have h3 : 1 - qfTol < s.qmin / s.qmax := by linarith
        rw [lt_div_iff₀ hMp] at h3
        have hq : 0 < 1 - qfTol := by linarith
        refine ⟨lt_of_le_of_lt (mul_le_mul_of_nonneg_left ?_ hq.le) h3, lt_of_le_of_lt (mul_le_mul_of_nonneg_left ?_ hq.le) h3⟩
        · rw [← hl]; exact M1
        · rw [← hu]; exact M2
  · rw [if_neg hc]
    -- the better of the two interior points
    set b : K × K := (if s.q1 < s.q2 then (s.mid1, s.q1) else (s.mid2, s.q2)) with hb
    have b1 : s.lo ≤ b.1 ∧ b.1 ≤ s.up := by rw [hb]; split_ifs <;> simp only <;> constructor <;> linarith
    have b2 : b.2 = q b.1 := by rw [hb]; split_ifs; exacts [h.q1, h.q2]
    have b3 : b.2 ≤ s.q1 ∧ b.2 ≤ s.q2 := by
      rw [hb]; split_ifs with hh
      · exact ⟨le_refl _, hh.le⟩
      · push Not at hh; exact ⟨hh, le_refl _⟩
    have b4 : ∀ e ∈ s.evals, q b.1 ≤ q e := by
      intro e he
      rw [← b2]
      rcases h.best e he with h1 | h1
      · exact b3.1.trans h1
      · exact b3.2.trans h1
    have hex : ∀ p, s.wide sigmaTol → ¬ s.steep qfTol → p := fun p h1 h2 => absurd ⟨h1, h2⟩ hc
    have hcount := h.count
    -- an end point with its value
    have endp : ∀ (x x0 v v0 : K), x = x0 → v = v0 → Truthful q x0 v0 → (0 < q x) →
        let t : K × List K := if v < 0 then (q x, s.evals ++ [x]) else (v, s.evals)
        ∀ e ∈ t.2, q (if t.1 < b.2 then x else b.1) ≤ q e := by
      intro x x0 v v0 hx hv ht hp
      subst hx hv
      have htr : ∀ e ∈ s.evals, q (if q x < b.2 then x else b.1) ≤ q e := by
        intro e he
        by_cases h1 : q x < b.2
        · rw [if_pos h1]; rw [b2] at h1; exact h1.le.trans (b4 e he)
        · rw [if_neg h1]; exact b4 e he
      by_cases hv0 : v < 0
      · simp only [if_pos hv0]
        intro e he
        simp only [List.mem_append, List.mem_singleton] at he
        rcases he with he | rfl
        · exact htr e he
        · by_cases h1 : q e < b.2
          · rw [if_pos h1]
          · rw [if_neg h1]; rw [b2] at h1; exact not_lt.1 h1
      · simp only [if_neg hv0]
        rcases ht with ht | ht
        · rw [ht]; exact htr
        · rw [ht] at hv0; norm_num at hv0
    show s.lo ≤ (if s.up = up0 then _ else _ : K × List K).1 ∧ (if s.up = up0 then _ else _ : K × List K).1 ≤ s.up
      ∧ (k + 2 ≤ (if s.up = up0 then _ else _ : K × List K).2.length ∧ (if s.up = up0 then _ else _ : K × List K).2.length ≤ k + 3) ∧ (_ → _ → _ → _ → (∀ e ∈ (if s.up = up0 then _ else _ : K × List K).2, q (if s.up = up0 then _ else _ : K × List K).1 ≤ q e) ∧ _)
    by_cases hu : s.up = up0
    · simp only [if_pos hu]
      refine ⟨?_, ?_, ?_, ?_⟩
      · split_ifs <;> first | exact b1.1 | linarith
      · split_ifs <;> first | exact b1.2 | linarith
      · split_ifs <;> simp only [List.length_append, List.length_singleton] <;> omega
      · intro hpos ht1 ht2 hq1
        refine ⟨?_, hex _⟩
        rcases h.qup with h1 | h1
        · exact endp s.up up0 s.qup qup0 h1.1 h1.2 ht1 (hpos _ (by linarith) hup)
        · exact absurd hu h1.1.ne
    · simp only [if_neg hu]
      by_cases hl : s.lo = lo0
      · simp only [if_pos hl]
        refine ⟨?_, ?_, ?_, ?_⟩
        · split_ifs <;> first | exact b1.1 | linarith
        · split_ifs <;> first | exact b1.2 | linarith
        · split_ifs <;> simp only [List.length_append, List.length_singleton] <;> omega
        · intro hpos ht1 ht2 hq1
          refine ⟨?_, hex _⟩
          rcases h.qlo with h1 | h1
          · exact endp s.lo lo0 s.qlo qlo0 h1.1 h1.2 ht2 (hpos _ hlo (by linarith))
          · exact absurd hl h1.1.ne'
      · simp only [if_neg hl]
        exact ⟨b1.1, b1.2, by omega, fun _ _ _ _ => ⟨b4, hex _⟩⟩

/-- **C58 (golden section).** The search over `[lo, up]` returns a point of the interval after at most `max_section_steps` sections, with at most
three evaluations more than sections.  For a positive function the result is at least as good as every point evaluated.  If the function is
strictly unimodal, the result and the minimizer lie in a common bracket whose width is the width of the interval times `(1-g)` to the number of
sections; and unless all sections were used, the bracket is narrower than the relative tolerance, or the values at its ends differ by no more
than the tolerance for the quality function. -/
theorem golden_section {q : K → K} {g sigmaTol qfTol up qup lo qlo : K} {n : Nat} (hg : Spec.IsGolden g) (hlt : lo < up) :
    let r := golden q g sigmaTol qfTol n up qup lo qlo
    lo ≤ r.1 ∧ r.1 ≤ up ∧ ∃ (k : Nat) (a b : K), k ≤ n ∧ k + 2 ≤ r.2.length ∧ r.2.length ≤ k + 3 ∧ lo ≤ a ∧ b ≤ up ∧ a ≤ r.1 ∧ r.1 ≤ b ∧ b - a = (1 - g) ^ k * (up - lo)
      ∧ (∀ i < k, 0 ≤ sigmaTol → sigmaTol * lo ≤ (1 - g) ^ i * (up - lo))
      ∧ (Spec.Unimodal q lo up → ∀ x, Spec.IsMin q lo up x → a ≤ x ∧ x ≤ b)
      ∧ ((∀ x, lo ≤ x → x ≤ up → 0 < q x) → Truthful q up qup → Truthful q lo qlo → qfTol < 1 →
          (∀ e ∈ r.2, q r.1 ≤ q e)
          ∧ (k < n → b - a < sigmaTol * b ∨ ((1 - qfTol) * q a < q r.1 ∧ (1 - qfTol) * q b < q r.1))) := by
  intro r
  obtain ⟨j, hj, hi, he, ht, hm⟩ := gsLoop_spec (sigmaTol := sigmaTol) (qfTol := qfTol) hg hlt n 0 _ (ginv_init (q := q) (qup0 := qup) (qlo0 := qlo) hg hlt)
  rw [Nat.zero_add] at hi
  obtain ⟨s1, s2, s3, s4⟩ := select_spec (sigmaTol := sigmaTol) (qfTol := qfTol) hg hlt hi
  have hlo := hi.lo_ge
  have hup := hi.up_le
  refine ⟨hlo.trans s1, s2.trans hup, j, _, _, hj, s3.1, s3.2, hlo, hup, s1, s2, hi.width, ?_, ?_, ?_⟩
  · intro i hi0 hs
    have := ht i hi0 hs
    rwa [Nat.zero_add] at this
  · intro hu x hx
    exact hm hu x hx ⟨hx.1, hx.2.1⟩
  · intro hpos h1 h2 h3
    obtain ⟨t1, t2⟩ := s4 hpos h1 h2 h3
    refine ⟨t1, fun hk => ?_⟩
    have := he hk
    by_cases hw : (gsLoop q g sigmaTol qfTol n (gsInit q g up qup lo qlo)).wide sigmaTol
    · right
      exact t2 hw fun hs => this ⟨hw, hs⟩
    · left
      unfold GS.wide at hw
      exact not_le.1 hw

end Verif.MuOracle
