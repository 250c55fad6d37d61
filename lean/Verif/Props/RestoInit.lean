import Verif.Proof.RestoInit

/-! # C66: the first point of the restoration phase, and the multipliers after it -/

namespace Verif.RestoInit
open Verif.RestoNLP
open scoped BigOperators
set_option linter.unusedSectionVars false
set_option linter.unusedSimpArgs false
set_option linter.unusedVariables false

section
variable {K : Type} [Field K] [LinearOrder K] [IsStrictOrderedRing K] {X C D L U A B : Type} [Fintype X] [Fintype C] [Fintype D]
  [Fintype L] [Fintype U] [Fintype A] [Fintype B] [DecidableEq X] [DecidableEq C] [DecidableEq D]

/-- The first point of the restoration phase keeps `x` and `s` and satisfies all constraints of the restoration problem exactly, with positive relaxation
variables; the barrier parameter is the largest of the old one and the constraint violations; multipliers of the relaxation variables
satisfy the perturbed complementarity conditions exactly, and those of each pair add up to `2ρ` (dual feasibility with zero constraint
multipliers); the multipliers of the original bounds stay positive and are cut off at `ρ`. -/
theorem resto_start (sqrt : K → K) (hs : ∀ a, 0 ≤ a → 0 ≤ sqrt a ∧ sqrt a * sqrt a = a) (orig : Orig K X C D) (rho weight : K) (e : Bool)
    (xref : X → K) (cur : Cur K X C D L U A B) (hr : 0 < rho) (hmu : 0 < cur.mu) (hz : cur.b.All (0 < ·)) (hc : orig.c cur.x = some cur.c) (dx : D → K)
    (hd : orig.d cur.x = some dx) (hdms : ∀ i, cur.dms i = dx i - cur.s i) :
    let st := start sqrt rho cur
    let R := Resto.new orig rho weight e xref
    st.v.x = cur.x ∧ st.s = cur.s ∧ Positive st.v ∧ R.c st.v = some (fun _ => 0) ∧ R.d st.v = some st.s ∧
    (cur.mu ≤ st.mu ∧ (∀ i, |cur.c i| ≤ st.mu) ∧ (∀ i, |cur.dms i| ≤ st.mu) ∧
      (st.mu = cur.mu ∨ (∃ i, st.mu = |cur.c i|) ∨ ∃ i, st.mu = |cur.dms i|)) ∧
    (∀ i, st.v.nc i * st.zNc i = st.mu ∧ st.v.pc i * st.zPc i = st.mu ∧ st.zNc i + st.zPc i = 2 * rho) ∧
    (∀ i, st.v.nd i * st.zNd i = st.mu ∧ st.v.pd i * st.zPd i = st.mu ∧ st.zNd i + st.zPd i = 2 * rho) ∧
    st.b.All (fun z => 0 < z ∧ z ≤ rho) ∧ st.b.All₂ (fun z z0 => z0 ≤ rho → z = z0) cur.b := by
  intro st R
  have hmu' : st.mu = max (max cur.mu (amax cur.c)) (amax cur.dms) := rfl
  have hpos : 0 < st.mu := by rw [hmu']; exact lt_of_lt_of_le hmu (le_trans (le_max_left _ _) (le_max_left _ _))
  have hP := fun c => np_pos sqrt hs st.mu rho c hpos hr
  have pair : ∀ c, nInit sqrt st.mu rho c * (st.mu / nInit sqrt st.mu rho c) = st.mu ∧ pInit sqrt st.mu rho c * (st.mu / pInit sqrt st.mu rho c) = st.mu ∧
      st.mu / nInit sqrt st.mu rho c + st.mu / pInit sqrt st.mu rho c = 2 * rho := by
    intro c
    have h1 := (hP c).1.ne'
    have h2 := (hP c).2.ne'
    refine ⟨by field_simp, by field_simp, ?_⟩
    have := np_rel sqrt hs st.mu rho c hr
    field_simp
    linarith
  refine ⟨rfl, rfl, ⟨fun i => (hP _).1, fun i => (hP _).2, fun i => (hP _).1, fun i => (hP _).2⟩, ?_, ?_, ?_, fun i => pair _, fun i => pair _, ?_, ?_⟩
  · rw [(resto_constraints _ _ _ st.s).1]
    refine ⟨cur.c, hc, fun i => ?_⟩
    show 0 = cur.c i + nInit sqrt st.mu rho (cur.c i) - (cur.c i + 1 * nInit sqrt st.mu rho (cur.c i))
    ring
  · rw [(resto_constraints _ _ (fun _ => 0) _).2]
    refine ⟨dx, hd, fun i => ?_⟩
    show cur.s i = dx i + nInit sqrt st.mu rho (cur.dms i) - (cur.dms i + 1 * nInit sqrt st.mu rho (cur.dms i))
    rw [hdms]; ring
  · rw [hmu']
    refine ⟨le_trans (le_max_left _ _) (le_max_left _ _), fun i => ((amax_spec cur.c).2 i).trans (le_trans (le_max_right _ _) (le_max_left _ _)),
      fun i => ((amax_spec cur.dms).2 i).trans (le_max_right _ _), ?_⟩
    by_contra hn
    push Not at hn
    obtain ⟨h1, h2, h3⟩ := hn
    have key : ∀ {ι : Type} [Fintype ι] (v : ι → K), (∀ i, max (max cur.mu (amax cur.c)) (amax cur.dms) ≠ |v i|) → max (max cur.mu (amax cur.c)) (amax cur.dms) ≠ amax v := by
      intro ι _ v hv he
      have hlt : ∀ i, |v i| < amax v := fun i => lt_of_le_of_ne ((amax_spec v).2 i) fun h => hv i (he.trans h.symm)
      have h0 : 0 < amax v := he ▸ hmu' ▸ hpos
      have : amax v < amax v := by
        conv_lhs => unfold amax
        exact (Finset.fold_max_lt ..).2 ⟨h0, fun i _ => hlt i⟩
      exact lt_irrefl _ this
    have k1 := key cur.c h2
    have k2 := key cur.dms h3
    rcases max_choice (max cur.mu (amax cur.c)) (amax cur.dms) with h | h
    · rcases max_choice cur.mu (amax cur.c) with h' | h'
      · exact h1 (h.trans h')
      · exact k1 (h.trans h')
    · exact k2 h
  · exact ⟨fun i => ⟨lt_min hr (hz.1 i), min_le_left _ _⟩, fun i => ⟨lt_min hr (hz.2.1 i), min_le_left _ _⟩,
      fun i => ⟨lt_min hr (hz.2.2.1 i), min_le_left _ _⟩, fun i => ⟨lt_min hr (hz.2.2.2 i), min_le_left _ _⟩⟩
  · exact ⟨fun i h => min_eq_right h, fun i h => min_eq_right h, fun i h => min_eq_right h, fun i h => min_eq_right h⟩

/-- The equality multipliers (also the initial ones of the original problem, and those after the restoration phase): never larger than the limit, and
equal to the computed estimate or all zero; zero if there are as many equality constraints as variables, if no calculator is given or the limit is
not positive, or the calculation fails. -/
theorem least_square_mults (haveCalc : Bool) (limit : K) (res : Option ((C → K) × (D → K))) (hl : 0 ≤ limit) :
    let y := leastSquareMults X haveCalc limit res
    ((∀ i, |y.1 i| ≤ limit) ∧ ∀ i, |y.2 i| ≤ limit) ∧
    (y ≠ (fun _ => 0, fun _ => 0) → haveCalc = true ∧ 0 < limit ∧ Fintype.card C ≠ Fintype.card X ∧ res = some y) ∧
    (∀ w, haveCalc = true → 0 < limit → Fintype.card C ≠ Fintype.card X → 0 < Fintype.card C + Fintype.card D → res = some w →
      (∀ i, |w.1 i| ≤ limit) → (∀ i, |w.2 i| ≤ limit) → y = w) := by
  intro y
  have hz : ((∀ i, |((fun _ => 0 : C → K)) i| ≤ limit) ∧ ∀ i, |((fun _ => 0 : D → K)) i| ≤ limit) := ⟨fun _ => by simpa, fun _ => by simpa⟩
  have hy : y = leastSquareMults X haveCalc limit res := rfl
  unfold leastSquareMults at hy
  refine ⟨?_, ?_, ?_⟩
  · split at hy
    · rw [hy]; exact hz
    · split at hy
      · split at hy
        · rw [hy]; exact hz
        · split at hy
          · rw [hy]; exact hz
          · rename_i w hlt
            rw [hy]
            have := max_le_iff.1 (not_lt.1 hlt)
            exact ⟨fun i => ((amax_spec w.1).2 i).trans this.1, fun i => ((amax_spec w.2).2 i).trans this.2⟩
      · rw [hy]; exact hz
  · intro hne
    split at hy
    · exact absurd hy hne
    · rename_i hcard
      split at hy
      · rename_i hcond
        simp only [Bool.and_eq_true, decide_eq_true_eq] at hcond
        split at hy
        · exact absurd hy hne
        · split at hy
          · exact absurd hy hne
          · exact ⟨hcond.1.1, hcond.1.2, hcard, by rw [hy]⟩
      · exact absurd hy hne
  · intro w h1 h2 h3 h4 h5 h6 h7
    rw [hy, if_neg h3, if_pos (by simp [h1, h2]; omega), h5]
    refine if_neg (not_lt.2 (max_le (amax_le hl h6) (amax_le hl h7)))

/-- Bound multipliers when the restoration phase returns: the change of `x` and `s` is treated as one primal-dual step — every step `Δz` solves the linearized
complementarity condition `s z + z (s⁺ − s) + s Δz = μ` —, one step size `0 < α ≤ 1` with the fraction-to-the-boundary rule for `τ` is used (the largest
one), and all multipliers are set to 1 if one of them then exceeds the threshold.  In any case they stay positive. -/
theorem resto_back (mu tau threshold : K) (z s t : BMult K L U A B) (ht : 0 < tau ∧ tau < 1) (hth : 0 ≤ threshold) (hz : z.All (0 < ·)) (hs : s.All (0 < ·)) :
    let z' := backMults mu tau threshold z s t
    z'.All (0 < ·) ∧
    ∃ (alpha : K) (dz w : BMult K L U A B), 0 < alpha ∧ alpha ≤ 1 ∧ w.All₄ (fun y z d _ => y = z + alpha * d) z dz s ∧
      z.All₄ (fun z d s t => s * z + z * (t - s) + s * d = mu) dz s t ∧ w.All₂ (fun y z => (1 - tau) * z ≤ y) z ∧
      (alpha = 1 ∨ w.Ex₂ (fun y z => y = (1 - tau) * z) z) ∧
      (w.All (· ≤ threshold) → z' = w) ∧ (¬ w.All (· ≤ threshold) → z'.All (· = 1)) := by
  intro z'
  set dz := multSteps mu z s t with hdz
  obtain ⟨p1, q1, r1, m1⟩ := frac_spec z.zL dz.zL tau ht.1 hz.1
  obtain ⟨p2, q2, r2, m2⟩ := frac_spec z.zU dz.zU tau ht.1 hz.2.1
  obtain ⟨p3, q3, r3, m3⟩ := frac_spec z.vL dz.vL tau ht.1 hz.2.2.1
  obtain ⟨p4, q4, r4, m4⟩ := frac_spec z.vU dz.vU tau ht.1 hz.2.2.2
  set alpha := dualFrac z dz tau with ha
  have ha0 : 0 < alpha := lt_min (lt_min (lt_min p1 p2) p3) p4
  have l3 : alpha ≤ min (min (fracToBound z.zL dz.zL tau) (fracToBound z.zU dz.zU tau)) (fracToBound z.vL dz.vL tau) := min_le_left _ _
  have l4 : alpha ≤ fracToBound z.vU dz.vU tau := min_le_right _ _
  have l5 := l3.trans (min_le_right _ _)
  have l2 := (l3.trans (min_le_left _ _)).trans (min_le_right _ _)
  have l1 := (l3.trans (min_le_left _ _)).trans (min_le_left _ _)
  have ha1 : alpha ≤ 1 := l1.trans q1
  have low : ∀ (z d : K), 0 < z → ((1 - tau) * z ≤ z + alpha * d ∨ 0 ≤ d) → (1 - tau) * z ≤ 1 * z + alpha * d := by
    intro z d hz h
    rcases h with h | h
    · linarith
    · have := mul_nonneg ha0.le h
      have := mul_pos ht.1 hz
      linarith
  have hlow : (stepBy z dz alpha).All₂ (fun y z => (1 - tau) * z ≤ y) z :=
    ⟨fun i => low _ _ (hz.1 i) (r1 i alpha ha0.le l1), fun i => low _ _ (hz.2.1 i) (r2 i alpha ha0.le l2), fun i => low _ _ (hz.2.2.1 i) (r3 i alpha ha0.le l5),
      fun i => low _ _ (hz.2.2.2 i) (r4 i alpha ha0.le l4)⟩
  have hpos : (stepBy z dz alpha).All (0 < ·) := by
    have h1 : 0 < 1 - tau := by linarith [ht.2]
    exact ⟨fun i => lt_of_lt_of_le (mul_pos h1 (hz.1 i)) (hlow.1 i), fun i => lt_of_lt_of_le (mul_pos h1 (hz.2.1 i)) (hlow.2.1 i),
      fun i => lt_of_lt_of_le (mul_pos h1 (hz.2.2.1 i)) (hlow.2.2.1 i), fun i => lt_of_lt_of_le (mul_pos h1 (hz.2.2.2 i)) (hlow.2.2.2 i)⟩
  have hz' : z' = if threshold < (stepBy z dz alpha).amax then ⟨fun _ => 1, fun _ => 1, fun _ => 1, fun _ => 1⟩ else stepBy z dz alpha := rfl
  refine ⟨?_, alpha, dz, stepBy z dz alpha, ha0, ha1, ?_, ?_, hlow, ?_, ?_, ?_⟩
  · split at hz'
    · rw [hz']; exact ⟨fun _ => one_pos, fun _ => one_pos, fun _ => one_pos, fun _ => one_pos⟩
    · rw [hz']; exact hpos
  · refine ⟨fun i => ?_, fun i => ?_, fun i => ?_, fun i => ?_⟩ <;> simp only [stepBy, one_mul]
  · have : ∀ z s t : K, 0 < s → s * z + z * (t - s) + s * multStep mu z s t = mu := by
      intro z s t h
      unfold multStep
      field_simp; ring
    exact ⟨fun i => this _ _ _ (hs.1 i), fun i => this _ _ _ (hs.2.1 i), fun i => this _ _ _ (hs.2.2.1 i), fun i => this _ _ _ (hs.2.2.2 i)⟩
  · have hv : alpha = fracToBound z.zL dz.zL tau ∨ alpha = fracToBound z.zU dz.zU tau ∨ alpha = fracToBound z.vL dz.vL tau ∨ alpha = fracToBound z.vU dz.vU tau := by
      have e1 : alpha = min (min (min (fracToBound z.zL dz.zL tau) (fracToBound z.zU dz.zU tau)) (fracToBound z.vL dz.vL tau)) (fracToBound z.vU dz.vU tau) := rfl
      rcases min_choice (min (min (fracToBound z.zL dz.zL tau) (fracToBound z.zU dz.zU tau)) (fracToBound z.vL dz.vL tau)) (fracToBound z.vU dz.vU tau) with h | h
      · rw [h] at e1
        rcases min_choice (min (fracToBound z.zL dz.zL tau) (fracToBound z.zU dz.zU tau)) (fracToBound z.vL dz.vL tau) with h | h
        · rw [h] at e1
          rcases min_choice (fracToBound z.zL dz.zL tau) (fracToBound z.zU dz.zU tau) with h | h
          · exact Or.inl (e1.trans h)
          · exact Or.inr (Or.inl (e1.trans h))
        · exact Or.inr (Or.inr (Or.inl (e1.trans h)))
      · exact Or.inr (Or.inr (Or.inr (e1.trans h)))
    rcases hv with h | h | h | h
    · rw [← h] at m1
      rcases m1 with m | ⟨i, _, m⟩
      · exact Or.inl m
      · exact Or.inr (Or.inl ⟨i, by beta_reduce; rw [← m]; simp only [stepBy, one_mul]⟩)
    · rw [← h] at m2
      rcases m2 with m | ⟨i, _, m⟩
      · exact Or.inl m
      · exact Or.inr (Or.inr (Or.inl ⟨i, by beta_reduce; rw [← m]; simp only [stepBy, one_mul]⟩))
    · rw [← h] at m3
      rcases m3 with m | ⟨i, _, m⟩
      · exact Or.inl m
      · exact Or.inr (Or.inr (Or.inr (Or.inl ⟨i, by beta_reduce; rw [← m]; simp only [stepBy, one_mul]⟩)))
    · rw [← h] at m4
      rcases m4 with m | ⟨i, _, m⟩
      · exact Or.inl m
      · exact Or.inr (Or.inr (Or.inr (Or.inr ⟨i, by beta_reduce; rw [← m]; simp only [stepBy, one_mul]⟩)))
  · intro hall
    rw [hz']
    refine if_neg (not_lt.2 ?_)
    have habs : ∀ y : K, 0 < y → y ≤ threshold → |y| ≤ threshold := fun y h0 h => by rwa [abs_of_pos h0]
    exact max_le (max_le (max_le (amax_le hth fun i => habs _ (hpos.1 i) (hall.1 i)) (amax_le hth fun i => habs _ (hpos.2.1 i) (hall.2.1 i)))
      (amax_le hth fun i => habs _ (hpos.2.2.1 i) (hall.2.2.1 i))) (amax_le hth fun i => habs _ (hpos.2.2.2 i) (hall.2.2.2 i))
  · intro hall
    rw [hz', if_pos]
    · exact ⟨fun _ => rfl, fun _ => rfl, fun _ => rfl, fun _ => rfl⟩
    · by_contra hn
      apply hall
      have hle := not_lt.1 hn
      unfold BMult.amax at hle
      rw [max_le_iff, max_le_iff, max_le_iff] at hle
      obtain ⟨⟨⟨h1, h2⟩, h3⟩, h4⟩ := hle
      exact ⟨fun i => (le_abs_self _).trans (((amax_spec _).2 i).trans h1), fun i => (le_abs_self _).trans (((amax_spec _).2 i).trans h2),
        fun i => (le_abs_self _).trans (((amax_spec _).2 i).trans h3), fun i => (le_abs_self _).trans (((amax_spec _).2 i).trans h4)⟩

end

section
variable {X C D L U A B : Type} [Fintype X] [Fintype C] [Fintype D] [Fintype L] [Fintype U] [Fintype A] [Fintype B]
  [DecidableEq X] [DecidableEq C] [DecidableEq D]

/-- The first point is the minimizer of the barrier function of the restoration problem over all relaxation variables, for the given `x` and `s`:
every other point with the same `x` satisfying the constraints has a barrier value at least as large. -/
theorem resto_start_minimizes (orig : Orig ℝ X C D) (rho weight : ℝ) (e : Bool) (xref : X → ℝ) (cur : Cur ℝ X C D L U A B) (hr : 0 < rho) (hmu : 0 < cur.mu)
    (hc : orig.c cur.x = some cur.c) (dx : D → ℝ) (hd : orig.d cur.x = some dx) (hdms : ∀ i, cur.dms i = dx i - cur.s i) (v : X5 ℝ X C D) (hx : v.x = cur.x)
    (hv : Positive v) (hvc : (Resto.new orig rho weight e xref).c v = some (fun _ => 0)) (hvd : (Resto.new orig rho weight e xref).d v = some cur.s) :
    barrier rho (start Real.sqrt rho cur).mu (start Real.sqrt rho cur).v ≤ barrier rho (start Real.sqrt rho cur).mu v := by
  have hs : ∀ a : ℝ, 0 ≤ a → 0 ≤ Real.sqrt a ∧ Real.sqrt a * Real.sqrt a = a := fun a ha => ⟨Real.sqrt_nonneg a, Real.mul_self_sqrt ha⟩
  set mu := (start Real.sqrt rho cur).mu with hmu'
  have hpos : 0 < mu := lt_of_lt_of_le hmu (le_trans (le_max_left _ _) (le_max_left _ _))
  have hP := fun c => np_pos Real.sqrt hs mu rho c hpos hr
  rw [(resto_constraints _ _ _ cur.s).1] at hvc
  rw [(resto_constraints _ _ (fun _ => 0) _).2] at hvd
  obtain ⟨cx, hcx, hvc⟩ := hvc
  obtain ⟨dx', hdx, hvd⟩ := hvd
  change orig.c v.x = _ at hcx
  change orig.d v.x = _ at hdx
  rw [hx] at hcx hdx
  obtain rfl : cx = cur.c := Option.some.inj (hcx.symm.trans hc)
  obtain rfl : dx' = dx := Option.some.inj (hdx.symm.trans hd)
  have hC : ∀ i, rho * (nInit Real.sqrt mu rho (cur.c i) + pInit Real.sqrt mu rho (cur.c i)) - mu * (Real.log (nInit Real.sqrt mu rho (cur.c i)) + Real.log (pInit Real.sqrt mu rho (cur.c i))) ≤
      rho * (v.nc i + v.pc i) - mu * (Real.log (v.nc i) + Real.log (v.pc i)) := fun i =>
    pair_min rho mu _ _ _ _ hpos (hP _).1 (hP _).2 (hv.1 i) (hv.2.1 i) (np_rel Real.sqrt hs mu rho _ hr) (by
      have h1 := hvc i
      have h2 : pInit Real.sqrt mu rho (cur.c i) = cur.c i + 1 * nInit Real.sqrt mu rho (cur.c i) := rfl
      rw [h2]; linarith)
  have hD : ∀ i, rho * (nInit Real.sqrt mu rho (cur.dms i) + pInit Real.sqrt mu rho (cur.dms i)) - mu * (Real.log (nInit Real.sqrt mu rho (cur.dms i)) + Real.log (pInit Real.sqrt mu rho (cur.dms i))) ≤
      rho * (v.nd i + v.pd i) - mu * (Real.log (v.nd i) + Real.log (v.pd i)) := fun i =>
    pair_min rho mu _ _ _ _ hpos (hP _).1 (hP _).2 (hv.2.2.1 i) (hv.2.2.2 i) (np_rel Real.sqrt hs mu rho _ hr) (by
      have h1 := hvd i
      have h2 : pInit Real.sqrt mu rho (cur.dms i) = cur.dms i + 1 * nInit Real.sqrt mu rho (cur.dms i) := rfl
      rw [h2, hdms]; linarith)
  have sC := Finset.sum_le_sum fun i (_ : i ∈ (Finset.univ : Finset C)) => hC i
  have sD := Finset.sum_le_sum fun i (_ : i ∈ (Finset.univ : Finset D)) => hD i
  simp only [Finset.sum_sub_distrib, ← Finset.mul_sum, Finset.sum_add_distrib] at sC sD
  unfold barrier
  have e1 : ∀ i, (start Real.sqrt rho cur).v.nc i = nInit Real.sqrt mu rho (cur.c i) := fun _ => rfl
  have e2 : ∀ i, (start Real.sqrt rho cur).v.pc i = pInit Real.sqrt mu rho (cur.c i) := fun _ => rfl
  have e3 : ∀ i, (start Real.sqrt rho cur).v.nd i = nInit Real.sqrt mu rho (cur.dms i) := fun _ => rfl
  have e4 : ∀ i, (start Real.sqrt rho cur).v.pd i = pInit Real.sqrt mu rho (cur.dms i) := fun _ => rfl
  simp only [e1, e2, e3, e4]
  linarith

end

/-! ### The hypotheses are met -/

/-- the example of C65 at `x = 3` with slack 4. -/
noncomputable def exCur : Cur ℝ Unit Unit Unit Unit Unit Unit Unit :=
  ⟨fun _ => 3, fun _ => 4, ⟨fun _ => 1, fun _ => 2, fun _ => 3, fun _ => 5⟩, 1 / 10, fun _ => 3 * 3, fun _ => 3 * 3 - 4⟩

example : (∀ a : ℝ, 0 ≤ a → 0 ≤ Real.sqrt a ∧ Real.sqrt a * Real.sqrt a = a) ∧ 0 < exCur.mu ∧ exCur.b.All (0 < ·) ∧ exOrig.c exCur.x = some exCur.c ∧
    exOrig.d exCur.x = some (fun _ => 3 * 3) ∧ ∀ i, exCur.dms i = 3 * 3 - exCur.s i := by
  refine ⟨fun a ha => ⟨Real.sqrt_nonneg a, Real.mul_self_sqrt ha⟩, by norm_num [exCur], ⟨fun _ => ?_, fun _ => ?_, fun _ => ?_, fun _ => ?_⟩,
    if_pos (by norm_num [exCur]), if_pos (by norm_num [exCur]), fun _ => rfl⟩ <;> norm_num [exCur]

/-- a return that needs a step size below 1 (`τ = 1/2`, `μ = 1`), and one in which the multipliers are reset. -/
example : (backMults (1 : ℚ) (1 / 2) 100 (L := Unit) (U := Unit) (A := Unit) (B := Unit) ⟨fun _ => 2, fun _ => 1, fun _ => 1, fun _ => 1⟩
      ⟨fun _ => 1, fun _ => 1, fun _ => 1, fun _ => 1⟩ ⟨fun _ => 3, fun _ => 1, fun _ => 1, fun _ => 1⟩).zL () = 1 ∧
    (backMults (1 : ℚ) (1 / 2) 100 (L := Unit) (U := Unit) (A := Unit) (B := Unit) ⟨fun _ => 2, fun _ => 1, fun _ => 1, fun _ => 1⟩
      ⟨fun _ => 1, fun _ => 1, fun _ => 1, fun _ => 1⟩ ⟨fun _ => 3, fun _ => 1, fun _ => 1, fun _ => 1⟩).vL () = 1 + 1 / 5 * 0 ∧
    (backMults (1 : ℚ) (1 / 2) (1 / 2) (L := Unit) (U := Unit) (A := Unit) (B := Unit) ⟨fun _ => 2, fun _ => 1, fun _ => 1, fun _ => 1⟩
      ⟨fun _ => 1, fun _ => 1, fun _ => 1, fun _ => 1⟩ ⟨fun _ => 3, fun _ => 1, fun _ => 1, fun _ => 1⟩).vU () = 1 := by decide +kernel

example : leastSquareMults (Fin 3) true (5 : ℚ) (C := Fin 1) (D := Fin 1) (some (fun _ => 4, fun _ => -5)) = (fun _ => 4, fun _ => -5) ∧
    leastSquareMults (Fin 3) true (5 : ℚ) (C := Fin 1) (D := Fin 1) (some (fun _ => 4, fun _ => -6)) = (fun _ => 0, fun _ => 0) ∧
    leastSquareMults (Fin 1) true (5 : ℚ) (C := Fin 1) (D := Fin 1) (some (fun _ => 4, fun _ => -5)) = (fun _ => 0, fun _ => 0) := by decide +kernel

end Verif.RestoInit
