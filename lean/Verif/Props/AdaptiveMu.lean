import Verif.Proof.AdaptiveMu
import Mathlib.Algebra.Order.Archimedean.Basic
import Mathlib.Algebra.Order.Field.Rat

/-! # The barrier parameter in the adaptive mode (C57) -/

set_option linter.unusedSectionVars false
set_option linter.unusedSimpArgs false
set_option linter.unusedVariables false

namespace Verif.AdaptiveMu

variable {K P : Type} [Field K] [LinearOrder K] [IsStrictOrderedRing K]

/-- What holds in every state reached. -/
structure Inv (p : Par K) (q : P → Quant K) (acc : List P) (s : State K P) : Prop where
  rel : Rel p q acc s
  never : p.glob = .neverMonotone → s.free = true
  fixedAcc : s.free = false → acc = [] → s.free = false

theorem inv_init (p : Par K) (q : P → Quant K) (x : P) (r : Bool) : Inv p q [] (init p x r) :=
  ⟨⟨fun _ => by simp [init, Spec.lastN], fun _ => Filter.Inv.nil _ _, fun _ => rfl, rfl⟩, fun _ => rfl, fun h _ => h⟩

theorem freePoints_snoc (h : List (Call P × State K P)) (c : Call P) (s : State K P) :
    Spec.freePoints (h ++ [(c, s)]) = if s.free = true then Spec.freePoints h ++ [c.point] else Spec.freePoints h := by
  unfold Spec.freePoints
  rw [List.filter_append, List.map_append]
  by_cases hs : s.free = true <;> simp [hs]

theorem inv_call {p : Par K} {q : P → Quant K} {acc : List P} {s s' : State K P} {c : Call P} {ret : Bool} (hi : Inv p q acc s)
    (hb : ∀ x, 0 < (q x).nBounds) (h : call p q c s = .ok ret s') : Inv p q (if s'.free = true then acc ++ [c.point] else acc) s' := by
  have hpr : p.glob = .neverMonotone → Spec.Progress p q acc c.point := by intro hg; simp [Spec.Progress, hg]
  rcases call_cases hi.rel hb h with h1 | h1 | h1 | h1
  · rw [if_pos h1.free]; exact ⟨h1.rel, fun _ => h1.free, fun h _ => h⟩
  · rw [if_neg (by rw [h1.free]; simp)]
    refine ⟨h1.rel, fun hg => ?_, fun h _ => h⟩
    rcases h1.why with hw | hw
    · exact absurd (hpr hg) hw
    · exact absurd hg hw.1
  · rw [if_neg (by rw [h1.free]; simp)]
    refine ⟨h1.rel, fun hg => ?_, fun h _ => h⟩
    have := hi.never hg
    rw [h1.wasFixed] at this; simp at this
  · rw [if_neg (by rw [h1.free]; simp)]
    refine ⟨h1.rel, fun hg => ?_, fun h _ => h⟩
    have := hi.never hg
    rw [h1.wasFixed] at this; simp at this

theorem inv_run {p : Par K} {q : P → Quant K} {x : P} {r : Bool} {h : List (Call P × State K P)} {s : State K P} (hb : ∀ x, 0 < (q x).nBounds)
    (hr : Run p q (init p x r) h s) : Inv p q (Spec.freePoints h) s := by
  induction hr with
  | nil => exact inv_init p q x r
  | @snoc cs s s' c ret hr hc ih =>
    rw [freePoints_snoc]
    exact inv_call ih hb hc

/-- **C57 (modes).** After a call of the update that returns, the free mode is active exactly if the current iterate makes sufficient progress
with respect to the iterates accepted so far and (unless globalization is switched off) the last step was not tiny and, if the free mode
was active before, the line search was not skipped. -/
theorem adaptive_mode {p : Par K} {q : P → Quant K} {x : P} {r ret : Bool} {h : List (Call P × State K P)} {s s' : State K P} {c : Call P}
    (hb : ∀ x, 0 < (q x).nBounds) (hr : Run p q (init p x r) h s) (hc : call p q c s = .ok ret s') :
    s'.free = true ↔ Spec.Progress p q (Spec.freePoints h) c.point
      ∧ (p.glob = .neverMonotone ∨ (c.tiny = false ∧ (s.free = true → c.skipped = false))) := by
  have hi := inv_run hb hr
  rcases call_cases hi.rel hb hc with h1 | h1 | h1 | h1
  · refine ⟨fun _ => ⟨h1.prog, ?_⟩, fun _ => h1.free⟩
    by_cases hg : p.glob = .neverMonotone
    · exact Or.inl hg
    · right
      refine ⟨?_, fun hf => ?_⟩
      · rcases h1.noTiny with h | h
        · exact h
        · exact absurd h.1 hg
      · rcases h1.noSkip hf with h | h
        · exact h
        · exact absurd h hg
  · refine ⟨fun hf => by rw [h1.free] at hf; simp at hf, ?_⟩
    rintro ⟨hp, hq⟩
    rcases h1.why with hw | ⟨hw1, hw2⟩
    · exact absurd hp hw
    · rcases hq with hq | ⟨hq1, hq2⟩
      · exact absurd hq hw1
      · have := hq2 h1.wasFree
        rcases hw2 with hw2 | hw2 <;> simp_all
  · refine ⟨fun hf => by rw [h1.free] at hf; simp at hf, ?_⟩
    rintro ⟨hp, hq⟩
    rcases hq with hq | ⟨hq1, hq2⟩
    · have := hi.never hq; rw [h1.wasFixed] at this; simp at this
    · exact absurd ⟨hp, hq1⟩ h1.why
  · refine ⟨fun hf => by rw [h1.free] at hf; simp at hf, ?_⟩
    rintro ⟨hp, _⟩
    exact absurd hp h1.why

/-- **C57 (kkt-error).** With the option `kkt-error`, the error at every accepted iterate, from the `red_iters`-th on, is at most `red_fact`
times the error at one of the `red_iters` iterates accepted before it. -/
theorem adaptive_kkt_decrease {p : Par K} {q : P → Quant K} {x : P} {r : Bool} {h : List (Call P × State K P)} {s : State K P}
    (hb : ∀ x, 0 < (q x).nBounds) (hg : p.glob = .kktError) (hr : Run p q (init p x r) h s) (k : Nat) (hk : k < (Spec.freePoints h).length)
    (hn : p.numRefsMax ≤ k) :
    ∃ (j : Nat) (hj : j < k), k - p.numRefsMax ≤ j ∧
      kktError p (q (Spec.freePoints h)[k]) ≤ p.redFact * kktError p (q ((Spec.freePoints h)[j]'(by omega))) := by
  induction hr with
  | nil => simp [Spec.freePoints] at hk
  | @snoc cs s s' c ret hr hc ih =>
    have hm := adaptive_mode hb hr hc
    by_cases hf : s'.free = true
    · have e : Spec.freePoints (cs ++ [(c, s')]) = Spec.freePoints cs ++ [c.point] := by rw [freePoints_snoc, if_pos hf]
      simp only [e] at hk ⊢
      by_cases hlt : k < (Spec.freePoints cs).length
      · obtain ⟨j, hj, h1, h2⟩ := ih hlt
        refine ⟨j, hj, h1, ?_⟩
        rw [List.getElem_append_left hlt, List.getElem_append_left (by omega)]
        exact h2
      · have hke : k = (Spec.freePoints cs).length := by simp at hk; omega
        have hp := (hm.1 hf).1
        simp only [Spec.Progress, hg] at hp
        rcases hp with hp | ⟨y, hy, hle⟩
        · omega
        · unfold Spec.lastN at hy
          obtain ⟨i, hi, hiy⟩ := List.getElem_of_mem hy
          rw [List.length_drop] at hi
          rw [List.getElem_drop] at hiy
          have key : ∀ a n i : Nat, i < a - (a - n) → a - n + i < a := by intro a n i h; omega
          have hlt' := key _ _ _ hi
          refine ⟨(Spec.freePoints cs).length - p.numRefsMax + i, by omega, by omega, ?_⟩
          rw [List.getElem_append_left hlt', hiy]
          subst hke
          simpa using hle
    · have e : Spec.freePoints (cs ++ [(c, s')]) = Spec.freePoints cs := by rw [freePoints_snoc, if_neg hf]
      simp only [e] at hk ⊢
      exact ih hk

/-- **C57 (kkt-error, rate).** Hence the errors at the accepted iterates decrease at least geometrically: the `k`-th is at most
`red_fact^(k / red_iters)` times the largest of the first `red_iters`. -/
theorem adaptive_kkt_rate {p : Par K} {q : P → Quant K} {x : P} {r : Bool} {h : List (Call P × State K P)} {s : State K P}
    (ha : Spec.Admissible p) (hb : ∀ x, 0 < (q x).nBounds) (hg : p.glob = .kktError) (hn : 0 < p.numRefsMax) (hr : Run p q (init p x r) h s) (M : K) (hM : 0 ≤ M)
    (hfirst : ∀ (k : Nat) (hk : k < (Spec.freePoints h).length), k < p.numRefsMax → kktError p (q (Spec.freePoints h)[k]) ≤ M)
    (k : Nat) (hk : k < (Spec.freePoints h).length) : kktError p (q (Spec.freePoints h)[k]) ≤ p.redFact ^ (k / p.numRefsMax) * M := by
  induction k using Nat.strong_induction_on with
  | _ k ih =>
    by_cases hkn : k < p.numRefsMax
    · rw [Nat.div_eq_of_lt hkn, pow_zero, one_mul]; exact hfirst k hk hkn
    · obtain ⟨j, hj, h1, h2⟩ := adaptive_kkt_decrease hb hg hr k hk (by omega)
      have h3 := ih j hj (by omega)
      have hd : k / p.numRefsMax ≤ j / p.numRefsMax + 1 := by
        rw [← Nat.add_div_right _ hn]
        exact Nat.div_le_div_right (by omega)
      calc kktError p (q (Spec.freePoints h)[k]) ≤ p.redFact * kktError p (q ((Spec.freePoints h)[j]'(by omega))) := h2
        _ ≤ p.redFact * (p.redFact ^ (j / p.numRefsMax) * M) := mul_le_mul_of_nonneg_left h3 ha.red.1.le
        _ = p.redFact ^ (j / p.numRefsMax + 1) * M := by rw [pow_succ]; ring
        _ ≤ p.redFact ^ (k / p.numRefsMax) * M :=
          mul_le_mul_of_nonneg_right (pow_le_pow_of_le_one ha.red.1.le ha.red.2.le hd) hM

/-- **C57 (kkt-error, limit).** For every tolerance there is a number of accepted iterates, depending only on the options and on a bound for the
first `red_iters` errors, after which all accepted iterates have a KKT error below the tolerance: infinitely many iterations in the free
mode are only possible if the KKT error tends to zero. -/
theorem adaptive_kkt_limit [Archimedean K] {p : Par K} {q : P → Quant K} (ha : Spec.Admissible p) (hb : ∀ x, 0 < (q x).nBounds) (hg : p.glob = .kktError)
    (hn : 0 < p.numRefsMax) (M ε : K) (hM : 0 ≤ M) (hε : 0 < ε) :
    ∃ N : Nat, ∀ (x : P) (r : Bool) (h : List (Call P × State K P)) (s : State K P), Run p q (init p x r) h s →
      (∀ (k : Nat) (hk : k < (Spec.freePoints h).length), k < p.numRefsMax → kktError p (q (Spec.freePoints h)[k]) ≤ M) →
      ∀ (k : Nat) (hk : k < (Spec.freePoints h).length), N ≤ k → kktError p (q (Spec.freePoints h)[k]) < ε := by
  have hM1 : (0 : K) < M + 1 := by linarith
  obtain ⟨n, hn1⟩ := exists_pow_lt_of_lt_one (div_pos hε hM1) ha.red.2
  refine ⟨n * p.numRefsMax, ?_⟩
  intro x r h s hr hf k hk hNk
  refine lt_of_le_of_lt (adaptive_kkt_rate ha hb hg hn hr M hM hf k hk) ?_
  have hle : n ≤ k / p.numRefsMax := by
    rw [Nat.le_div_iff_mul_le hn]; exact hNk
  have hpw : p.redFact ^ (k / p.numRefsMax) ≤ p.redFact ^ n := pow_le_pow_of_le_one ha.red.1.le ha.red.2.le hle
  have h1 : p.redFact ^ n * (M + 1) < ε := by rwa [lt_div_iff₀ hM1] at hn1
  have h2 : 0 < p.redFact ^ n := pow_pos ha.red.1 n
  nlinarith

/-- **C57 (obj-constr-filter).** With the filter globalization, each accepted iterate is, compared with each iterate accepted earlier, better by
the margin in the objective or in the constraint violation. -/
theorem adaptive_filter_progress {p : Par K} {q : P → Quant K} {x : P} {r : Bool} {h : List (Call P × State K P)} {s : State K P}
    (hb : ∀ x, 0 < (q x).nBounds) (hg : p.glob = .filter) (hr : Run p q (init p x r) h s) :
    (Spec.freePoints h).Pairwise fun y z => (q z).f + Spec.margin p q z ≤ (q y).f ∨ (q z).theta + Spec.margin p q z ≤ (q y).theta := by
  induction hr with
  | nil => simp [Spec.freePoints]
  | @snoc cs s s' c ret hr hc ih =>
    rw [freePoints_snoc]
    by_cases hf : s'.free = true
    · rw [if_pos hf, List.pairwise_append]
      have hp := ((adaptive_mode hb hr hc).1 hf).1
      simp only [Spec.Progress, hg] at hp
      refine ⟨ih, by simp, fun y hy z hz => ?_⟩
      simp only [List.mem_singleton] at hz; subst hz
      exact hp y hy
    · rw [if_neg hf]; exact ih

/-- **C57 (free mode).** When the free mode is active after a call that returns true, the barrier parameter is at most `mu_max`, and at least
`mu_min` unless `mu_max` is smaller; the fraction-to-the-boundary parameter is `max(tau_min, 1 - error)`; the line search has been reset.
If the oracle keeps its lower bound, the parameter is also at least `mu_target` (unless `mu_max` is smaller).  If the oracle fails, the call
returns false and the barrier parameter keeps its value. -/
theorem adaptive_free_mu {p : Par K} {q : P → Quant K} {x : P} {r ret : Bool} {h : List (Call P × State K P)} {s s' : State K P} {c : Call P}
    (hb : ∀ x, 0 < (q x).nBounds) (hr : Run p q (init p x r) h s) (hc : call p q c s = .ok ret s') (hf : s'.free = true) :
    s'.tau = max p.tauMin (1 - (q c.point).nlpError) ∧ s'.curr = c.point
    ∧ (ret = true → s'.mu ≤ s'.muMax ∧ min s'.muMin s'.muMax ≤ s'.mu ∧ s'.lsResets = s.lsResets + 1
        ∧ (∀ m, (q c.point).freeOracle s'.tau (max s'.muMin p.muTarget) s'.muMax = some m → min m s'.muMax ≤ s'.mu)
        ∧ ((∀ tau lo hi m, (q c.point).freeOracle tau lo hi = some m → lo ≤ m) → min (max s'.muMin p.muTarget) s'.muMax ≤ s'.mu))
    ∧ (ret = false ↔ (q c.point).freeOracle s'.tau (max s'.muMin p.muTarget) s'.muMax = none)
    ∧ (ret = false → s'.mu = s.mu ∧ s'.lsResets = s.lsResets) := by
  have hi := inv_run hb hr
  rcases call_cases hi.rel hb hc with h1 | h1 | h1 | h1
  · refine ⟨h1.tau, h1.curr, ?_, ?_, ?_⟩
    · intro hret
      rcases h1.mu with ⟨_, h2, _⟩ | ⟨m, v, h2, _, h3, h4, _⟩
      · rw [hret] at h2; simp at h2
      · rw [h3]
        refine ⟨min_le_right _ _, ?_, h4, ?_, ?_⟩
        · exact min_le_min_right _ (le_trans (le_max_right _ _) (le_max_left _ _))
        · intro m' hm'
          rw [h2] at hm'; injection hm' with hm'; subst hm'
          exact min_le_min_right _ (le_trans (le_max_left _ _) (le_max_left _ _))
        · intro ho
          have := ho _ _ _ _ h2
          exact min_le_min_right _ (le_trans this (le_trans (le_max_left _ _) (le_max_left _ _)))
    · rcases h1.mu with ⟨h2, h3, _⟩ | ⟨m, v, h2, h3, _⟩
      · simp [h2, h3]
      · simp [h2, h3]
    · intro hret
      rcases h1.mu with ⟨h2, h3, h4, h5, _⟩ | ⟨m, v, h2, h3, _⟩
      · exact ⟨h4, h5⟩
      · rw [hret] at h3; simp at h3
  all_goals (rw [h1.free] at hf; simp at hf)

/-- **C57 (safeguard).** With `adaptive_mu_safeguard_factor` (and not the `kkt-error` globalization) the parameter chosen in the free mode is
not below the factor times the relative dual infeasibility, nor below the factor times the relative primal infeasibility (unless `mu_max` is). -/
theorem adaptive_safeguard {p : Par K} {q : P → Quant K} {x : P} {r : Bool} {h : List (Call P × State K P)} {s s' : State K P} {c : Call P}
    (hb : ∀ x, 0 < (q x).nBounds) (hsg : p.safeguard ≠ 0) (hgl : p.glob ≠ .kktError) (hr : Run p q (init p x r) h s) (hc : call p q c s = .ok true s')
    (hf : s'.free = true) :
    min (p.safeguard * ((q c.point).dualInf .n1 / (q c.point).nDual / s'.initDual)) s'.muMax ≤ s'.mu
    ∧ (0 < (q c.point).nPri → min (p.safeguard * ((q c.point).primalInf .n1 / (q c.point).nPri / s'.initPrimal)) s'.muMax ≤ s'.mu) := by
  have hi := inv_run hb hr
  rcases call_cases hi.rel hb hc with h1 | h1 | h1 | h1
  · rcases h1.mu with ⟨_, h2, _⟩ | ⟨m, v, h2, _, h3, h4, _, h5⟩
    · simp at h2
    · have hv := h5 hsg hgl
      rw [h3]
      refine ⟨min_le_min_right _ (le_trans ?_ (le_max_right _ _)), fun hp => min_le_min_right _ (le_trans ?_ (le_max_right _ _))⟩
      · rw [hv]; exact le_max_left _ _
      · rw [hv, if_pos hp]; exact le_max_right _ _
  all_goals (rw [h1.free] at hf; simp at hf)

/-- **C57 (safeguard references).** The reference values of the safeguard are 1 or the (averaged) infeasibility at the iterate at which they are
first needed, whichever is larger, and they are never changed afterwards. -/
theorem adaptive_references {p : Par K} {q : P → Quant K} {x : P} {r ret : Bool} {h : List (Call P × State K P)} {s s' : State K P} {c : Call P}
    (hb : ∀ x, 0 < (q x).nBounds) (hr : Run p q (init p x r) h s) (hc : call p q c s = .ok ret s') :
    (s.initDual = -1 ∨ 1 ≤ s.initDual) ∧ (s.initPrimal = -1 ∨ 1 ≤ s.initPrimal)
    ∧ (s'.initDual = s.initDual ∨ (s.initDual = -1 ∧ s'.initDual = max 1 ((q s'.curr).dualInf .n1 / (q s'.curr).nDual)))
    ∧ (s'.initPrimal = s.initPrimal ∨ (s.initPrimal = -1
        ∧ s'.initPrimal = max 1 (if (q s'.curr).nPri > 0 then (q s'.curr).primalInf .n1 / (q s'.curr).nPri else (q s'.curr).primalInf .n1))) := by
  have one : ∀ (s s' : State K P) (c : Call P) (ret : Bool) (acc : List P), Inv p q acc s → (s.initDual = -1 ∨ 1 ≤ s.initDual) → (s.initPrimal = -1 ∨ 1 ≤ s.initPrimal) →
      call p q c s = .ok ret s' →
      (s'.initDual = s.initDual ∨ (s.initDual = -1 ∧ s'.initDual = max 1 (avgDual (q s'.curr))))
      ∧ (s'.initPrimal = s.initPrimal ∨ (s.initPrimal = -1 ∧ s'.initPrimal = max 1 (avgPrimal (q s'.curr)))) := by
    intro s s' c ret acc hi h1 h2 hc
    have aux : (if p.safeguard = 0 then s'.initDual = s.initDual ∧ s'.initPrimal = s.initPrimal
        else RefUpd (q s'.curr) s.initDual s.initPrimal s'.initDual s'.initPrimal) →
        (s'.initDual = s.initDual ∨ (s.initDual = -1 ∧ s'.initDual = max 1 (avgDual (q s'.curr))))
        ∧ (s'.initPrimal = s.initPrimal ∨ (s.initPrimal = -1 ∧ s'.initPrimal = max 1 (avgPrimal (q s'.curr)))) := by
      intro ha
      by_cases h0 : p.safeguard = 0
      · rw [if_pos h0] at ha; exact ⟨Or.inl ha.1, Or.inl ha.2⟩
      · rw [if_neg h0] at ha
        refine ⟨?_, ?_⟩
        · rcases h1 with h1 | h1
          · right; refine ⟨h1, ?_⟩; rw [ha.1, if_pos (by rw [h1]; norm_num)]
          · left; rw [ha.1, if_neg (by linarith)]
        · rcases h2 with h2 | h2
          · right; refine ⟨h2, ?_⟩; rw [ha.2, if_pos (by rw [h2]; norm_num)]
          · left; rw [ha.2, if_neg (by linarith)]
    rcases call_cases hi.rel hb hc with g | g | g | g
    · rcases g.mu with ⟨_, _, _, _, g1, g2⟩ | ⟨m, v, _, _, _, _, g1, _⟩
      · exact ⟨Or.inl g1, Or.inl g2⟩
      · rw [← g.curr] at g1; exact aux g1
    · exact aux g.ref
    · exact ⟨Or.inl g.ref.1, Or.inl g.ref.2⟩
    · exact ⟨Or.inl g.ref.1, Or.inl g.ref.2⟩
  have all : (s.initDual = -1 ∨ 1 ≤ s.initDual) ∧ (s.initPrimal = -1 ∨ 1 ≤ s.initPrimal) := by
    clear hc
    induction hr with
    | nil => exact ⟨Or.inl rfl, Or.inl rfl⟩
    | @snoc cs s s' c ret hr hc ih =>
      have := one s s' c ret _ (inv_run hb hr) ih.1 ih.2 hc
      refine ⟨?_, ?_⟩
      · rcases this.1 with h | h
        · rw [h]; exact ih.1
        · right; rw [h.2]; exact le_max_left _ _
      · rcases this.2 with h | h
        · rw [h]; exact ih.2
        · right; rw [h.2]; exact le_max_left _ _
  have := one s s' c ret _ (inv_run hb hr) all.1 all.2 hc
  exact ⟨all.1, all.2, this.1, this.2⟩

/-- **C57 (entering the fixed mode).** A call that leaves the free mode returns true; the parameter is at most `mu_max`, at least `mu_min` unless
`mu_max` is smaller; the fraction-to-the-boundary parameter belongs to the new value; the line search is reset and set to rigorous; with
`adaptive_mu_restore_previous_iterate` the current iterate is the last accepted one, otherwise it is not changed. -/
theorem adaptive_switch {p : Par K} {q : P → Quant K} {x : P} {r ret : Bool} {h : List (Call P × State K P)} {s s' : State K P} {c : Call P}
    (hb : ∀ x, 0 < (q x).nBounds) (hr : Run p q (init p x r) h s) (hc : call p q c s = .ok ret s') (hf : s.free = true) (hf' : s'.free = false) :
    ret = true ∧ s'.mu ≤ s'.muMax ∧ min s'.muMin s'.muMax ≤ s'.mu ∧ s'.tau = max p.tauMin (1 - s'.mu)
    ∧ s'.lsResets = s.lsResets + 1 ∧ s'.rigorous = true
    ∧ (if p.restoreAcc = true then (Spec.freePoints h).getLast? = some s'.curr else s'.curr = c.point) := by
  have hi := inv_run hb hr
  rcases call_cases hi.rel hb hc with h1 | h1 | h1 | h1
  · rw [h1.free] at hf'; simp at hf'
  · obtain ⟨v, hv⟩ := h1.mu
    refine ⟨h1.ret, ?_, ?_, h1.tau, h1.resets, h1.rig, h1.curr⟩
    · rw [hv]; exact min_le_right _ _
    · rw [hv]; exact min_le_min_right _ (le_max_right _ _)
  · rw [h1.wasFixed] at hf; simp at hf
  · rw [h1.wasFixed] at hf; simp at hf

/-- **C57 (fixed mode).** A call that stays in the fixed mode returns true, keeps the line search rigorous, and reduces the parameter by the
documented rule exactly if the barrier problem is solved to `barrier_tol_factor * mu` or the step was tiny; else nothing changes. -/
theorem adaptive_fixed {p : Par K} {q : P → Quant K} {x : P} {r ret : Bool} {h : List (Call P × State K P)} {s s' : State K P} {c : Call P}
    (hb : ∀ x, 0 < (q x).nBounds) (hr : Run p q (init p x r) h s) (hc : call p q c s = .ok ret s') (hf : s.free = false) (hf' : s'.free = false) :
    ret = true ∧ s'.rigorous = true ∧ s'.curr = c.point
    ∧ (if (q c.point).barrierError s.mu ≤ p.barrierTolFactor * s.mu ∨ c.tiny = true then
        s'.mu = max (min (p.linear * s.mu) (p.pw s.mu)) (min (q c.point).complTol (q c.point).tol / (p.barrierTolFactor + 1))
        ∧ s'.tau = max p.tauMin (1 - s.mu) ∧ s'.lsResets = s.lsResets + 1
      else s'.mu = s.mu ∧ s'.tau = s.tau ∧ s'.lsResets = s.lsResets) := by
  have hi := inv_run hb hr
  rcases call_cases hi.rel hb hc with h1 | h1 | h1 | h1
  · rw [h1.free] at hf'; simp at hf'
  · rw [h1.wasFree] at hf; simp at hf
  · refine ⟨h1.ret, h1.rig, h1.curr, ?_⟩
    rw [if_pos h1.solved]
    exact ⟨h1.mu, h1.tau, h1.resets⟩
  · refine ⟨h1.ret, h1.rig, h1.curr, ?_⟩
    rw [if_neg (by push Not; exact ⟨h1.unsolved, by simp [h1.noTiny]⟩)]
    exact ⟨h1.mu, h1.tau, h1.resets⟩

/-- The bounds are positive once they have been computed. -/
structure Pos (p : Par K) (s : State K P) : Prop where
  mu : 0 < s.mu
  mn : 0 < s.muMin
  mx : s.muMax < 0 ∨ 0 < s.muMax

theorem pos_call {p : Par K} {q : P → Quant K} {acc : List P} {s s' : State K P} {c : Call P} {ret : Bool} (ha : Spec.Admissible p) (hq : Spec.Interior q)
    (hi : Inv p q acc s) (hp : Pos p s) (h : call p q c s = .ok ret s') : Pos p s' ∧ 0 < s'.muMax := by
  have frame : Frame p q s c s' → 0 < s'.muMin ∧ 0 < s'.muMax := by
    intro hf
    refine ⟨?_, ?_⟩
    · rw [hf.muMin]; unfold lo
      cases p.muMinOpt with
      | none =>
        simp only
        refine lt_min hp.mn ?_
        have := lt_min (hq.tol c.point) (hq.complTol c.point)
        positivity
      | some m => exact hp.mn
    · rw [hf.muMax]; unfold AdaptiveMu.hi
      by_cases hm : s.muMax < 0
      · rw [if_pos hm]; exact mul_pos ha.maxFact (hq.avrg _)
      · rw [if_neg hm]; rcases hp.mx with h | h
        · exact absurd h hm
        · exact h
  rcases call_cases hi.rel hq.bounds h with h1 | h1 | h1 | h1
  · obtain ⟨g1, g2⟩ := frame h1.frame
    refine ⟨⟨?_, g1, Or.inr g2⟩, g2⟩
    rcases h1.mu with ⟨_, _, h3, _⟩ | ⟨m, v, _, _, h3, _⟩
    · rw [h3]; exact hp.mu
    · rw [h3]; exact lt_min (lt_of_lt_of_le g1 (le_trans (le_max_right _ _) (le_max_left _ _))) g2
  · obtain ⟨g1, g2⟩ := frame h1.frame
    obtain ⟨v, hv⟩ := h1.mu
    refine ⟨⟨?_, g1, Or.inr g2⟩, g2⟩
    rw [hv]; exact lt_min (lt_of_lt_of_le g1 (le_max_right _ _)) g2
  · obtain ⟨g1, g2⟩ := frame h1.frame
    refine ⟨⟨?_, g1, Or.inr g2⟩, g2⟩
    rw [h1.mu]; unfold fixedReduction
    refine lt_of_lt_of_le ?_ (le_max_right _ _)
    exact div_pos (lt_min (hq.complTol _) (hq.tol _)) (by linarith [ha.factor])
  · obtain ⟨g1, g2⟩ := frame h1.frame
    exact ⟨⟨by rw [h1.mu]; exact hp.mu, g1, Or.inr g2⟩, g2⟩

theorem pos_init {p : Par K} (ha : Spec.Admissible p) (x : P) (r : Bool) : Pos p (init p x r) := by
  refine ⟨by simp [init], ?_, ?_⟩
  · simp only [init]
    cases hm : p.muMinOpt with
    | none =>
      simp only
      have := ha.minDflt
      by_cases hr : p.restoPrefix = true
      · rw [if_pos hr]; positivity
      · rw [if_neg hr]; exact this
    | some m => exact ha.minOpt m hm
  · simp only [init]
    cases hm : p.muMaxOpt with
    | none => left; simp
    | some m => right; exact ha.maxOpt m hm

theorem pos_run {p : Par K} {q : P → Quant K} {x : P} {r : Bool} {h : List (Call P × State K P)} {s : State K P} (ha : Spec.Admissible p) (hq : Spec.Interior q)
    (hr : Run p q (init p x r) h s) : Pos p s := by
  induction hr with
  | nil => exact pos_init ha x r
  | snoc hr hc ih => exact (pos_call ha hq (inv_run hq.bounds hr) ih hc).1

/-- **C57 (positivity).** After every call that returns, with admissible options, the barrier parameter and its bounds are positive, and the
fraction-to-the-boundary parameter lies in `[tau_min, 1)` (as long as the optimality error of the iterates is positive). -/
theorem adaptive_positive {p : Par K} {q : P → Quant K} {x : P} {r ret : Bool} {h : List (Call P × State K P)} {s s' : State K P} {c : Call P}
    (ha : Spec.Admissible p) (hq : Spec.Interior q) (he : ∀ x, 0 < (q x).nlpError) (hr : Run p q (init p x r) h s) (hc : call p q c s = .ok ret s') :
    0 < s'.mu ∧ 0 < s'.muMin ∧ 0 < s'.muMax ∧ p.tauMin ≤ s'.tau ∧ s'.tau < 1 := by
  have tau : ∀ (h : List (Call P × State K P)) (s : State K P), Run p q (init p x r) h s → ∀ (c : Call P) (ret : Bool) (s' : State K P),
      call p q c s = .ok ret s' → p.tauMin ≤ s'.tau ∧ s'.tau < 1 := by
    intro h s hr
    induction hr with
    | nil =>
      intro c ret s' hc
      rcases call_cases (inv_init p q x r).rel hq.bounds hc with h1 | h1 | h1 | h1
      · rw [h1.tau]; exact ⟨le_max_left _ _, max_lt ha.tauMin.2 (by linarith [he c.point])⟩
      · rw [h1.tau]
        exact ⟨le_max_left _ _, max_lt ha.tauMin.2 (by linarith [(pos_call ha hq (inv_init p q x r) (pos_init ha x r) hc).1.mu])⟩
      · have := h1.wasFixed; simp [init] at this
      · have := h1.wasFixed; simp [init] at this
    | @snoc cs s1 s2 c0 ret0 hr0 hc0 ih =>
      intro c ret s' hc
      have hr1 := Run.snoc hr0 hc0
      have hp := pos_run ha hq hr1
      rcases call_cases (inv_run hq.bounds hr1).rel hq.bounds hc with h1 | h1 | h1 | h1
      · rw [h1.tau]; exact ⟨le_max_left _ _, max_lt ha.tauMin.2 (by linarith [he c.point])⟩
      · rw [h1.tau]
        exact ⟨le_max_left _ _, max_lt ha.tauMin.2 (by linarith [(pos_call ha hq (inv_run hq.bounds hr1) hp hc).1.mu])⟩
      · rw [h1.tau]; exact ⟨le_max_left _ _, max_lt ha.tauMin.2 (by linarith [hp.mu])⟩
      · rw [h1.tau]; exact ih c0 ret0 s2 hc0
  have h2 := pos_call ha hq (inv_run hq.bounds hr) (pos_run ha hq hr) hc
  exact ⟨h2.1.mu, h2.1.mn, h2.2, (tau h s hr c ret s' hc).1, (tau h s hr c ret s' hc).2⟩

theorem run_frame {p : Par K} {q : P → Quant K} {acc : List P} {s s' : State K P} {c : Call P} {ret : Bool} (hi : Inv p q acc s)
    (hb : ∀ x, 0 < (q x).nBounds) (h : call p q c s = .ok ret s') : Frame p q s c s' := by
  rcases call_cases hi.rel hb h with h1 | h1 | h1 | h1 <;> exact h1.frame

/-- **C57 (bounds of the parameter).** After any history of calls `c₀, …`: `mu_max` is the value of the option or, if it was not set, `mu_max_fact`
times the average complementarity at the first iterate; `mu_min` is the value of the option, or, if it was not set, at most the default and at most
half of each of the tolerances met so far. -/
theorem adaptive_bounds {p : Par K} {q : P → Quant K} {x : P} {r : Bool} {h : List (Call P × State K P)} {c0 : Call P} {s1 s : State K P}
    (ha : Spec.Admissible p) (hq : Spec.Interior q) (hr : Run p q (init p x r) ((c0, s1) :: h) s) :
    s.muMax = (match p.muMaxOpt with
      | some m => m
      | none => p.muMaxFact * (q c0.point).avrgCompl)
    ∧ (match p.muMinOpt with
      | some m => s.muMin = m
      | none => s.muMin ≤ (if p.restoPrefix = true then 100 * p.muMinDflt else p.muMinDflt)
          ∧ ∀ cs ∈ (c0, s1) :: h, s.muMin ≤ (q cs.1.point).tol / 2 ∧ s.muMin ≤ (q cs.1.point).complTol / 2) := by
  have key : ∀ (l : List (Call P × State K P)) (s : State K P), Run p q (init p x r) l s →
      (s.muMax = (match l with
        | [] => (match p.muMaxOpt with
          | some m => m
          | none => -1)
        | (c0, _) :: _ => (match p.muMaxOpt with
          | some m => m
          | none => p.muMaxFact * (q c0.point).avrgCompl)))
      ∧ (match p.muMinOpt with
        | some m => s.muMin = m
        | none => s.muMin ≤ (if p.restoPrefix = true then 100 * p.muMinDflt else p.muMinDflt)
            ∧ ∀ cs ∈ l, s.muMin ≤ (q cs.1.point).tol / 2 ∧ s.muMin ≤ (q cs.1.point).complTol / 2) := by
    intro l s hr
    induction hr with
    | nil =>
      refine ⟨rfl, ?_⟩
      cases hm : p.muMinOpt with
      | none => simp only [init, hm]; exact ⟨le_refl _, by simp⟩
      | some m => simp only [init, hm]
    | @snoc cs s s' c ret hr hc ih =>
      have hf := run_frame (inv_run hq.bounds hr) hq.bounds hc
      refine ⟨?_, ?_⟩
      · rw [hf.muMax, ih.1]
        unfold hi
        cases cs with
        | nil =>
          simp only [List.nil_append]
          cases hm : p.muMaxOpt with
          | none => simp
          | some m => simp only; rw [if_neg (not_lt.2 (ha.maxOpt m hm).le)]
        | cons a cs =>
          obtain ⟨a1, a2⟩ := a
          simp only [List.cons_append]
          cases hm : p.muMaxOpt with
          | none => simp only; rw [if_neg (not_lt.2 (mul_pos ha.maxFact (hq.avrg _)).le)]
          | some m => simp only; rw [if_neg (not_lt.2 (ha.maxOpt m hm).le)]
      · have ih2 := ih.2
        have hmn := hf.muMin
        unfold lo at hmn
        cases hm : p.muMinOpt with
        | some m => simp only [hm] at ih2 hmn ⊢; rw [hmn, ih2]
        | none =>
          simp only [hm] at ih2 hmn ⊢
          have hle : s'.muMin ≤ s.muMin := by rw [hmn]; exact min_le_left _ _
          have h12 : s'.muMin ≤ 1 / 2 * min (q c.point).tol (q c.point).complTol := by rw [hmn]; exact min_le_right _ _
          refine ⟨le_trans hle ih2.1, fun y hy => ?_⟩
          rcases List.mem_append.1 hy with hy | hy
          · exact ⟨le_trans hle (ih2.2 y hy).1, le_trans hle (ih2.2 y hy).2⟩
          · simp only [List.mem_singleton] at hy; subst hy
            have a := min_le_left (q c.point).tol (q c.point).complTol
            have b := min_le_right (q c.point).tol (q c.point).complTol
            exact ⟨by simp only; linarith, by simp only; linarith⟩
  exact key _ _ hr

theorem run_nil {p : Par K} {q : P → Quant K} {s0 s : State K P} {l : List (Call P × State K P)} (h : Run p q s0 l s) (hl : l = []) : s = s0 := by
  cases h with
  | nil => rfl
  | snoc => simp at hl

/-- **C57 (no bounds).** For a problem without bounds every call returns true, the barrier parameter is `mu_min` as computed in the first call and
the fraction-to-the-boundary parameter is `tau_min`. -/
theorem adaptive_no_bounds {p : Par K} {q : P → Quant K} {x : P} {r : Bool} (hb : ∀ x, (q x).nBounds = 0) (c : Call P) (h : List (Call P × State K P))
    (s : State K P) (s1 : State K P) (hr : Run p q (init p x r) ((c, s1) :: h) s) :
    s.mu = lo p (q c.point) (init p x r).muMin ∧ s.tau = p.tauMin ∧ ∀ c', ∃ s', call p q c' s = .ok true s' ∧ s'.mu = s.mu := by
  have key : ∀ (l : List (Call P × State K P)) (s : State K P), Run p q (init p x r) l s → ∀ (c : Call P) (h : List (Call P × State K P)) (s1 : State K P),
      l = (c, s1) :: h → s.mu = lo p (q c.point) (init p x r).muMin ∧ s.tau = p.tauMin ∧ s.noBounds = true ∧ s.checkedNoBounds = true := by
    intro l s hr
    induction hr with
    | nil => intro c h s1 hl; simp at hl
    | @snoc cs s s' c0 ret hr hc ih =>
      intro c h s1 hl
      cases cs with
      | nil =>
        simp only [List.nil_append, List.cons.injEq, Prod.mk.injEq] at hl
        have hs := run_nil hr rfl
        obtain ⟨⟨h1, h2⟩, _⟩ := hl
        subst h1 hs
        simp only [call, update, checkBounds, setBounds, init, hb, Bool.false_eq_true, if_false, if_true, Res.ok.injEq] at hc
        obtain ⟨_, hc⟩ := hc
        subst hc
        exact ⟨rfl, rfl, rfl, rfl⟩
      | cons a cs =>
        simp only [List.cons_append, List.cons.injEq] at hl
        obtain ⟨h1, h2⟩ := hl
        subst h1
        obtain ⟨i1, i2, i3, i4⟩ := ih _ _ _ rfl
        simp only [call, update, checkBounds, setBounds, i3, i4, if_true, Res.ok.injEq] at hc
        obtain ⟨_, hc⟩ := hc
        subst hc
        exact ⟨i1, i2, rfl, rfl⟩
  obtain ⟨i1, i2, i3, i4⟩ := key _ _ hr c h s1 rfl
  refine ⟨i1, i2, fun c' => ?_⟩
  simp only [call, update, checkBounds, setBounds, i3, i4, if_true, Res.ok.injEq, true_and]
  exact ⟨_, rfl, rfl⟩

/-- **C57 (defined).** A call has undefined behaviour (a null pointer or the end of an empty list is dereferenced) exactly if it enters the fixed
mode before any iterate has been accepted, with the option `adaptive_mu_restore_previous_iterate`, or with a safeguard factor and the
`kkt-error` globalization (there also if `red_iters` is zero). -/
theorem adaptive_undefined_iff {p : Par K} {q : P → Quant K} {x : P} {r : Bool} {h : List (Call P × State K P)} {s : State K P} {c : Call P}
    (hb : ∀ x, 0 < (q x).nBounds) (hr : Run p q (init p x r) h s) :
    call p q c s = .undefined ↔
      s.free = true
      ∧ (¬ Spec.Progress p q (Spec.freePoints h) c.point ∨ (p.glob ≠ .neverMonotone ∧ (c.skipped = true ∨ c.tiny = true)))
      ∧ ((p.restoreAcc = true ∧ Spec.freePoints h = [])
        ∨ (p.safeguard ≠ 0 ∧ p.glob = .kktError ∧ (Spec.freePoints h = [] ∨ p.numRefsMax = 0))) := by
  have hi := inv_run hb hr
  have hrp := rel_prep hi.rel c
  obtain ⟨b, hb1, hb2⟩ := checkProgress_eq hrp c.point
  rw [call_eq hi.rel.nb hb]
  generalize Spec.freePoints h = acc at *
  have hrefs : p.glob = .kktError → ((prep p q s c).refs = [] ↔ acc = [] ∨ p.numRefsMax = 0) := by
    intro hg
    rw [hrp.refs hg, ← List.length_eq_zero_iff, List.length_map, lastN_length, ← List.length_eq_zero_iff (l := acc)]
    omega
  have hfin : ∀ s1 : State K P, (p.glob = .kktError → s1.refs ≠ []) → finish p q s1 ≠ .undefined := by
    intro s1 h1 hc
    unfold finish at hc
    by_cases hf : s1.free = true
    · rw [if_pos hf] at hc
      simp only at hc
      split at hc
      · simp at hc
      · split at hc
        · rename_i hls
          have := (lowerSafeguard_isSome p _ _).1 hls
          exact h1 this.2.1 this.2.2
        · simp at hc
    · rw [if_neg hf] at hc; simp at hc
  have hent : ∀ s0 : State K P, s0.accepted = (prep p q s c).accepted → s0.refs = (prep p q s c).refs →
      (enterFixed p q c.tiny s0 = .undefined ↔ (p.restoreAcc = true ∧ acc = [])
        ∨ (p.safeguard ≠ 0 ∧ p.glob = .kktError ∧ (acc = [] ∨ p.numRefsMax = 0))) := by
    intro s0 ha hre
    have hnf : ∀ (qq : Quant K) (s1 : State K P), s1.refs = s0.refs →
        (newFixedMu p qq s1 = none ↔ p.safeguard ≠ 0 ∧ p.glob = .kktError ∧ (acc = [] ∨ p.numRefsMax = 0)) := by
      intro qq s1 h1
      unfold newFixedMu
      simp only [Option.map_eq_none_iff]
      rw [lowerSafeguard_isSome, h1, hre]
      constructor
      · rintro ⟨a, b, c⟩; exact ⟨a, b, (hrefs b).1 c⟩
      · rintro ⟨a, b, c⟩; exact ⟨a, b, (hrefs b).2 c⟩
    unfold enterFixed
    by_cases hra : p.restoreAcc = true
    · have hacc : s0.accepted = acc.getLast? := ha.trans (hrp.acc hra)
      simp only [hra, if_true, true_and]
      cases hl : s0.accepted with
      | none =>
        rw [hl] at hacc
        have : acc = [] := List.getLast?_eq_none_iff.1 hacc.symm
        simp [this]
      | some a =>
        rw [hl] at hacc
        have hne : acc ≠ [] := by intro hn; rw [hn] at hacc; simp at hacc
        simp only
        cases hn : newFixedMu p (q a) { s0 with free := false, curr := a, accepted := some a } with
        | none => simp only [true_iff]; exact Or.inr ((hnf (q a) { s0 with free := false, curr := a, accepted := some a } rfl).1 hn)
        | some ms =>
          obtain ⟨m, s3⟩ := ms
          have h4 : ¬ (p.safeguard ≠ 0 ∧ p.glob = .kktError ∧ (acc = [] ∨ p.numRefsMax = 0)) := fun hc => by
            rw [← hnf (q a) { s0 with free := false, curr := a, accepted := some a } rfl, hn] at hc; simp at hc
          refine ⟨fun hu => ?_, fun hu => ?_⟩
          · simp only at hu; split at hu <;> simp at hu
          · rcases hu with hu | hu
            · exact absurd hu hne
            · exact absurd hu h4
    · simp only [hra, if_false, Bool.false_eq_true, false_and, false_or]
      cases hn : newFixedMu p (q s0.curr) { s0 with free := false } with
      | none => simp only [true_iff]; exact (hnf (q s0.curr) { s0 with free := false } rfl).1 hn
      | some ms =>
        obtain ⟨m, s3⟩ := ms
        have h4 : ¬ (p.safeguard ≠ 0 ∧ p.glob = .kktError ∧ (acc = [] ∨ p.numRefsMax = 0)) := fun hc => by
          rw [← hnf (q s0.curr) { s0 with free := false } rfl, hn] at hc; simp at hc
        simp only [h4, iff_false]
        split <;> simp
  have hent2 : (match enterFixed p q c.tiny (prep p q s c) with
      | .ok _ s3 => finish p q s3
      | .tinyStep s3 => .tinyStep s3
      | .undefined => .undefined) = .undefined ↔ enterFixed p q c.tiny (prep p q s c) = .undefined := by
    cases he : enterFixed p q c.tiny (prep p q s c) with
    | undefined => simp
    | tinyStep s3 => simp
    | ok bb s1 =>
      obtain ⟨d, rr, cu, v, h1, _⟩ := enterFixed_ok he
      have hf1 : s1.free = false := by rw [h1]
      simp only [finish_fixed hf1]
      simp
  by_cases hfr : s.free = true
  · rw [if_pos hfr]
    simp only [hfr, true_and]
    unfold freePart
    rw [show (prep p q s c).curr = c.point from rfl, hb1]
    simp only
    by_cases hcond : p.glob ≠ .neverMonotone ∧ (c.skipped = true ∨ c.tiny = true)
    · rw [if_pos hcond]
      simp only [Bool.false_eq_true, if_false, hcond, or_true, true_and]
      refine hent2.trans ((hent (prep p q s c) rfl rfl).trans ?_)
      simp [hcond.1]
    · rw [if_neg hcond]
      by_cases hbt : b = true
      · rw [if_pos hbt]
        have hp := hb2.1 hbt
        obtain ⟨s1, h1, _, _, _, _, _, _, _, _, _, _, _, _, _, h2⟩ := remember_spec (s := prep p q s c) hrp hp c.iter
        rw [show (prep p q s c).curr = c.point from rfl] at h1
        rw [h1]
        simp only [hp, not_true_eq_false, hcond, or_false, false_and, iff_false]
        exact hfin s1 h2
      · rw [if_neg hbt]
        have hp : ¬ Spec.Progress p q acc c.point := fun hp => hbt (hb2.2 hp)
        refine hent2.trans ((hent (prep p q s c) rfl rfl).trans ?_)
        simp [hp]
  · rw [if_neg hfr]
    refine ⟨fun hu => ?_, fun hu => absurd hu.1 hfr⟩
    exfalso
    have hff : s.free = false := by simpa using hfr
    unfold fixedPart at hu
    rw [show (prep p q s c).curr = c.point from rfl, hb1] at hu
    simp only at hu
    by_cases hcond : b = true ∧ c.tiny = false
    · rw [if_pos hcond] at hu
      have hp := hb2.1 hcond.1
      have hrp' : Rel p q acc { prep p q s c with free := true } := ⟨hrp.refs, hrp.filt, hrp.acc, hrp.nb⟩
      obtain ⟨s1, h1, _, _, _, _, _, _, _, _, _, _, _, _, _, h2⟩ := remember_spec (s := { prep p q s c with free := true }) hrp' hp c.iter
      simp only [show (prep p q s c).curr = c.point from rfl] at h1
      rw [h1] at hu
      exact hfin s1 h2 hu
    · rw [if_neg hcond] at hu
      rw [show (prep p q s c).mu = s.mu from rfl] at hu
      by_cases hsol : (q c.point).barrierError s.mu ≤ p.barrierTolFactor * s.mu ∨ c.tiny = true
      · rw [if_pos hsol] at hu
        by_cases hst : c.tiny = true ∧ fixedReduction p (q c.point) s.mu = s.mu
        · rw [if_pos hst] at hu; simp at hu
        · rw [if_neg hst] at hu
          simp only at hu
          rw [finish_fixed (by exact hff)] at hu; simp at hu
      · rw [if_neg hsol] at hu
        simp only at hu
        rw [finish_fixed (by exact hff)] at hu; simp at hu

/-- **C57 (defined).** Hence no call of any history has undefined behaviour if `red_iters` is positive and neither a tiny step nor a skipped line
search is reported to the first call (there is no step before it). -/
theorem adaptive_defined {p : Par K} {q : P → Quant K} {x : P} {r : Bool} {h : List (Call P × State K P)} {s : State K P} {c : Call P}
    (hb : ∀ x, 0 < (q x).nBounds) (hn : p.glob = .kktError → 0 < p.numRefsMax) (hr : Run p q (init p x r) h s)
    (hfirst : ∀ c0, (h.map Prod.fst ++ [c]).head? = some c0 → c0.tiny = false ∧ c0.skipped = false) : call p q c s ≠ .undefined := by
  have prog0 : ∀ y, Spec.Progress p q [] y := by
    intro y
    unfold Spec.Progress
    cases hg : p.glob with
    | kktError => left; exact hn hg
    | filter => simp
    | neverMonotone => trivial
  have key : ∀ (l : List (Call P × State K P)) (s : State K P), Run p q (init p x r) l s → ∀ c0, (l.map Prod.fst).head? = some c0 → c0.tiny = false → c0.skipped = false →
      Spec.freePoints l ≠ [] := by
    intro l s hr
    induction hr with
    | nil => intro c0 h; simp at h
    | @snoc cs s s' c1 ret hr hc ih =>
      intro c0 h0 h1 h2
      rw [freePoints_snoc]
      cases cs with
      | nil =>
        simp only [List.nil_append, List.map_cons, List.map_nil, List.head?_cons, Option.some.injEq] at h0
        subst h0
        have := (adaptive_mode hb hr hc).2 ⟨by simpa [Spec.freePoints] using prog0 c1.point, Or.inr ⟨h1, fun _ => h2⟩⟩
        rw [if_pos this]; simp
      | cons a cs =>
        have := ih c0 (by simpa using h0) h1 h2
        split
        · simp
        · exact this
  intro hu
  rw [adaptive_undefined_iff hb hr] at hu
  obtain ⟨hf, hw, hu⟩ := hu
  cases h with
  | nil =>
    have hf0 := hfirst c (by simp)
    rcases hw with hw | ⟨_, hw⟩
    · exact hw (by simpa [Spec.freePoints] using prog0 c.point)
    · rcases hw with hw | hw <;> simp_all
  | cons a l =>
    have hf0 := hfirst a.1 (by simp)
    have hne := key _ _ hr a.1 (by simp) hf0.1 hf0.2
    rcases hu with hu | ⟨_, hg, hu⟩
    · exact hne hu.2
    · rcases hu with hu | hu
      · exact hne hu
      · have := hn hg; omega

/-- **C57 (tiny steps).** In the fixed mode "solved to best possible accuracy" is thrown exactly if the last step was tiny and the parameter would
not change; in the free mode it is thrown only after a tiny step and with globalization. -/
theorem adaptive_tiny {p : Par K} {q : P → Quant K} {x : P} {r : Bool} {h : List (Call P × State K P)} {s : State K P} {c : Call P}
    (hb : ∀ x, 0 < (q x).nBounds) (hr : Run p q (init p x r) h s) :
    (s.free = false → ((∃ s', call p q c s = .tinyStep s') ↔ c.tiny = true
      ∧ max (min (p.linear * s.mu) (p.pw s.mu)) (min (q c.point).complTol (q c.point).tol / (p.barrierTolFactor + 1)) = s.mu))
    ∧ (∀ s', call p q c s = .tinyStep s' → c.tiny = true ∧ p.glob ≠ .neverMonotone) := by
  have hi := inv_run hb hr
  have hrp := rel_prep hi.rel c
  obtain ⟨b, hb1, hb2⟩ := checkProgress_eq hrp c.point
  have hfin : ∀ s1 s2 : State K P, finish p q s1 ≠ .tinyStep s2 := by
    intro s1 s2 hc
    unfold finish at hc
    by_cases hf : s1.free = true
    · rw [if_pos hf] at hc
      simp only at hc
      split at hc
      · simp at hc
      · split at hc <;> simp at hc
    · rw [if_neg hf] at hc; simp at hc
  have fixed : s.free = false → ((∃ s', call p q c s = .tinyStep s') ↔ c.tiny = true
      ∧ max (min (p.linear * s.mu) (p.pw s.mu)) (min (q c.point).complTol (q c.point).tol / (p.barrierTolFactor + 1)) = s.mu) := by
    intro hff
    rw [call_eq hi.rel.nb hb, if_neg (by rw [hff]; simp)]
    unfold fixedPart
    rw [show (prep p q s c).curr = c.point from rfl, hb1]
    simp only
    by_cases hcond : b = true ∧ c.tiny = false
    · rw [if_pos hcond]
      simp only [hcond.2, Bool.false_eq_true, false_and, iff_false, not_exists]
      intro s'
      split
      · rename_i h1
        exact hfin _ _
      · rename_i h1
        split at h1 <;> simp at h1
      · simp
    · rw [if_neg hcond]
      rw [show (prep p q s c).mu = s.mu from rfl]
      by_cases hsol : (q c.point).barrierError s.mu ≤ p.barrierTolFactor * s.mu ∨ c.tiny = true
      · rw [if_pos hsol]
        by_cases hst : c.tiny = true ∧ fixedReduction p (q c.point) s.mu = s.mu
        · rw [if_pos hst]
          constructor
          · intro _; exact hst
          · intro _; exact ⟨_, rfl⟩
        · rw [if_neg hst]
          constructor
          · rintro ⟨s', h1⟩; exact absurd h1 (hfin _ _)
          · intro h1; exact absurd h1 hst
      · rw [if_neg hsol]
        constructor
        · rintro ⟨s', h1⟩; exact absurd h1 (hfin _ _)
        · intro h1; exact absurd (Or.inr h1.1) hsol
  refine ⟨fixed, ?_⟩
  intro s' hc
  by_cases hfr : s.free = true
  · rw [call_eq hi.rel.nb hb, if_pos hfr] at hc
    unfold freePart at hc
    rw [show (prep p q s c).curr = c.point from rfl, hb1] at hc
    simp only at hc
    have hen : ∀ s2, enterFixed p q c.tiny (prep p q s c) = .tinyStep s2 → c.tiny = true := by
      intro s2 h2
      unfold enterFixed at h2
      simp only at h2
      split at h2
      · simp at h2
      · split at h2
        · simp at h2
        · split at h2
          · rename_i h3; exact h3.1
          · simp at h2
    have hen2 : (match enterFixed p q c.tiny (prep p q s c) with
        | .ok _ s3 => finish p q s3
        | .tinyStep s3 => .tinyStep s3
        | .undefined => .undefined) = .tinyStep s' → c.tiny = true := by
      intro h1
      cases he : enterFixed p q c.tiny (prep p q s c) with
      | undefined => rw [he] at h1; simp at h1
      | tinyStep s3 => exact hen s3 he
      | ok bb s1 => rw [he] at h1; exact absurd h1 (hfin _ _)
    by_cases hcond : p.glob ≠ .neverMonotone ∧ (c.skipped = true ∨ c.tiny = true)
    · rw [if_pos hcond] at hc
      simp only [Bool.false_eq_true, if_false] at hc
      exact ⟨hen2 hc, hcond.1⟩
    · rw [if_neg hcond] at hc
      by_cases hbt : b = true
      · rw [if_pos hbt] at hc
        split at hc
        · exact absurd hc (hfin _ _)
        · rename_i h1; split at h1 <;> simp at h1
        · simp at hc
      · rw [if_neg hbt] at hc
        have hp : ¬ Spec.Progress p q (Spec.freePoints h) c.point := fun hp => hbt (hb2.2 hp)
        refine ⟨hen2 hc, fun hg => hp (by simp [Spec.Progress, hg])⟩
  · have hff : s.free = false := by simpa using hfr
    refine ⟨((fixed hff).1 ⟨s', hc⟩).1, fun hg => ?_⟩
    have := hi.never hg
    exact hfr this

/-- **C57 (error measure).** The error compared by the `kkt-error` globalization is not negative, and it is zero only if the infeasibilities and
the complementarity, measured in the chosen norm, are all zero (for positive dimension, nonnegative norms, and a centrality measure
in `(0, 1]`). -/
theorem kktError_zero {p : Par K} {q : Quant K} (hd : 0 < q.nDual) (hs : ∀ n : Nat, 0 < n → 0 < p.sqrt n)
    (h1 : ∀ n, 0 ≤ q.dualInf n) (h2 : ∀ n, 0 ≤ q.primalInf n) (h3 : ∀ n, 0 ≤ q.compl n) (hx : 0 < q.xi) (hl : p.log q.xi ≤ 0) :
    0 ≤ kktError p q ∧ (kktError p q = 0 → ∃ n, (p.norm = .one → n = .n1) ∧ (p.norm = .max → n = .nmax) ∧ (p.norm = .two ∨ p.norm = .twoSquared → n = .n2)
      ∧ q.dualInf n = 0 ∧ q.primalInf n = 0 ∧ q.compl n = 0) := by
  have hd' : (0 : K) < q.nDual := by exact_mod_cast hd
  have sc : ∀ (fn : K → K) (v : K) (n : Nat), 0 ≤ v → (∀ n : Nat, 0 < n → 0 < fn n) → 0 ≤ (if n > 0 then v / fn n else v) ∧ ((if n > 0 then v / fn n else v) = 0 → v = 0) := by
    intro fn v n hv hf
    by_cases hn : n > 0
    · rw [if_pos hn]
      refine ⟨div_nonneg hv (hf n hn).le, fun h => ?_⟩
      rcases div_eq_zero_iff.1 h with h | h
      · exact h
      · exact absurd h (hf n hn).ne'
    · rw [if_neg hn]; exact ⟨hv, id⟩
  have hid : ∀ n : Nat, 0 < n → (0 : K) < id (n : K) := by intro n hn; simpa using hn
  -- the sum of the five terms
  have tot : ∀ (d r c : K), 0 ≤ d → 0 ≤ r → 0 ≤ c →
      0 ≤ r + d + c + (match p.centrality with
        | .none => 0
        | .log => -c * p.log q.xi
        | .reciprocal => c / q.xi
        | .cubedReciprocal => c / (q.xi ^ 3)) + (if p.balancing = true then (max 0 (max d r - c)) ^ 3 else 0)
      ∧ (r + d + c + (match p.centrality with
        | .none => 0
        | .log => -c * p.log q.xi
        | .reciprocal => c / q.xi
        | .cubedReciprocal => c / (q.xi ^ 3)) + (if p.balancing = true then (max 0 (max d r - c)) ^ 3 else 0) = 0 → d = 0 ∧ r = 0 ∧ c = 0) := by
    intro d r c hd hr hc
    have hcen : 0 ≤ (match p.centrality with
        | .none => (0 : K)
        | .log => -c * p.log q.xi
        | .reciprocal => c / q.xi
        | .cubedReciprocal => c / (q.xi ^ 3)) := by
      cases p.centrality
      · exact le_refl _
      · simp only; nlinarith
      · simp only; positivity
      · simp only; positivity
    have hbal : (0 : K) ≤ (if p.balancing = true then (max 0 (max d r - c)) ^ 3 else 0) := by
      split
      · exact pow_nonneg (le_max_left _ _) 3
      · exact le_refl _
    refine ⟨by positivity, fun h => ⟨?_, ?_, ?_⟩⟩ <;> linarith
  unfold kktError
  cases hn : p.norm with
  | one =>
    simp only
    have e2 := sc id (q.primalInf .n1) q.nPri (h2 _) hid
    have e3 := sc id (q.compl .n1) q.nBounds (h3 _) hid
    have := tot _ _ _ (div_nonneg (h1 .n1) hd'.le) e2.1 e3.1
    refine ⟨this.1, fun h => ⟨.n1, by simp, by simp, by simp, ?_, ?_, ?_⟩⟩
    · rcases div_eq_zero_iff.1 (this.2 h).1 with h | h
      · exact h
      · exact absurd h hd'.ne'
    · exact e2.2 (this.2 h).2.1
    · exact e3.2 (this.2 h).2.2
  | twoSquared =>
    simp only
    have e2 := sc id (q.primalInf .n2 * q.primalInf .n2) q.nPri (mul_nonneg (h2 _) (h2 _)) hid
    have e3 := sc id (q.compl .n2 * q.compl .n2) q.nBounds (mul_nonneg (h3 _) (h3 _)) hid
    have := tot _ _ _ (div_nonneg (mul_nonneg (h1 .n2) (h1 .n2)) hd'.le) e2.1 e3.1
    refine ⟨this.1, fun h => ⟨.n2, by simp, by simp, by simp, ?_, ?_, ?_⟩⟩
    · rcases div_eq_zero_iff.1 (this.2 h).1 with h | h
      · simpa using h
      · exact absurd h hd'.ne'
    · simpa using e2.2 (this.2 h).2.1
    · simpa using e3.2 (this.2 h).2.2
  | max =>
    simp only
    have := tot _ _ _ (h1 .nmax) (h2 .nmax) (h3 .nmax)
    exact ⟨this.1, fun h => ⟨.nmax, by simp, by simp, by simp, (this.2 h).1, (this.2 h).2.1, (this.2 h).2.2⟩⟩
  | two =>
    simp only
    have e2 := sc p.sqrt (q.primalInf .n2) q.nPri (h2 _) hs
    have e3 := sc p.sqrt (q.compl .n2) q.nBounds (h3 _) hs
    have hsd := hs q.nDual hd
    have := tot _ _ _ (div_nonneg (h1 .n2) hsd.le) e2.1 e3.1
    refine ⟨this.1, fun h => ⟨.n2, by simp, by simp, by simp, ?_, ?_, ?_⟩⟩
    · rcases div_eq_zero_iff.1 (this.2 h).1 with h | h
      · exact h
      · exact absurd h hsd.ne'
    · exact e2.2 (this.2 h).2.1
    · exact e3.2 (this.2 h).2.2

end Verif.AdaptiveMu
