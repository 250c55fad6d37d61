import Verif.Proof.DerivCheck
import Mathlib.Analysis.Calculus.Deriv.MeanValue
import Mathlib.Analysis.Calculus.Deriv.Pow
import Mathlib.Tactic.NormNum
import Mathlib.Tactic.Positivity
import Mathlib.Tactic.FieldSimp

/-! # C74: the derivative checker -/

namespace Verif.DerivCheck
open Spec
open scoped BigOperators
set_option linter.unusedSectionVars false
set_option linter.unusedSimpArgs false
set_option linter.unusedVariables false

section General
variable {K : Type} [Field K] [LinearOrder K]

/-- The report of a run. -/
def report (cfg : Cfg K) (p : Prob K) (d : Data K) : Out K :=
  { retval := true
    lines := ((entries cfg p d).filter fun e => wrong cfg.tol e || cfg.printAll).map (line cfg.tol)
    calls := plan cfg d
    summary := some (if (entries cfg p d).countP (wrong cfg.tol) = 0 then .noErrors else .errors ((entries cfg p d).countP (wrong cfg.tol))) }

/-- If all evaluations of the plan succeed, the checker makes exactly these calls, reports exactly the listed derivatives (those marked as
wrong, or all with `derivative_test_print_all`) and counts those marked as wrong; otherwise it stops with an exception right at the first
evaluation that fails. -/
theorem check_outcome {cfg : Cfg K} {p : Prob K} {d : Data K} (hd : IsData cfg p d) (ht : cfg.test ≠ .none) (hj : cfg.jnlst = true) :
    ((plan cfg d).all (answered p) = true → checkDerivatives cfg p = .ok (report cfg p d)) ∧
    ((plan cfg d).all (answered p) = false → ∃ e, checkDerivatives cfg p = .error (e, upTo p (plan cfg d))) := by
  have h := check_exec hd ht hj
  unfold Exec at h
  constructor
  · intro ha
    rw [if_pos ha] at h
    obtain ⟨o, ho, he⟩ := h
    rw [ho, he]; rfl
  · intro ha
    rw [if_neg (by rw [ha]; simp)] at h
    simpa using h

/-- Without a test nothing is evaluated. -/
theorem no_test (cfg : Cfg K) (p : Prob K) (h : cfg.test = .none) : checkDerivatives cfg p = .ok ⟨true, [], [], none⟩ := by
  unfold checkDerivatives; rw [h]

/-- The checker itself never makes the optimization fail: it returns `true` or throws. -/
theorem never_false (cfg : Cfg K) (p : Prob K) (o : Out K) (h : checkDerivatives cfg p = .ok o) : o.retval = true := by
  unfold checkDerivatives at h
  by_cases hj : cfg.jnlst = true
  · cases ht : cfg.test <;> rw [ht] at h <;> simp only [hj, Bool.not_true, Bool.false_eq_true, if_false, pure_bind, bind, Except.bind] at h
    · cases h; rfl
    all_goals
      split at h
      · cases h
      · split at h
        · cases h
        · first
          | (cases h; rfl)
          | (split at h
             · cases h
             · cases h; rfl)
  · cases ht : cfg.test <;> rw [ht] at h <;> simp [hj] at h
    · rw [← h]

/-- Invalid problem data. -/
theorem invalid_problem (cfg : Cfg K) (p : Prob K) (ht : cfg.test ≠ .none) (hj : cfg.jnlst = true)
    (h : p.info = none ∨ (∃ i, p.info = some i ∧ (i.n < 0 ∨ i.m < 0 ∨ i.nzJac < 0 ∨ i.nzHess < 0)) ∨ p.bounds = none) :
    ∃ c, checkDerivatives cfg p = .error (.invalidTNLP, c) ∧ ∀ k ∈ c, point k = none := by
  have hr : ∀ st : St K, st.calls = [] → ∃ c, reference cfg p st = .error (.invalidTNLP, c) ∧ ∀ k ∈ c, point k = none := by
    intro st hst
    unfold reference
    cases hi : p.info with
    | none => exact ⟨_, rfl, by simp [call, hst, point]⟩
    | some i =>
      by_cases hn : i.n < 0 ∨ i.m < 0 ∨ i.nzJac < 0 ∨ i.nzHess < 0
      · refine ⟨[Call.info], ?_, by simp [point]⟩
        simp [need, hn, call, hst, bind, Except.bind, throw, throwThe, MonadExceptOf.throw]
      · rcases h with h | ⟨i', h, h'⟩ | h
        · rw [hi] at h; cases h
        · rw [hi] at h; cases h; exact absurd h' hn
        · refine ⟨[Call.info, Call.start, Call.bounds], ?_, by simp [point]⟩
          simp [need, hn, call, hst, bind, Except.bind, h]
  obtain ⟨c, hc, hp⟩ := hr ⟨fun _ => 0, true, fun _ => 0, 0, [], []⟩ rfl
  refine ⟨c, ?_, hp⟩
  unfold checkDerivatives
  cases h : cfg.test <;> first | exact absurd h ht | (simp only [hj, Bool.not_true, Bool.false_eq_true, if_false]; rw [hc]; rfl)

/-! ### Points and `new_x` -/

/-- the last point after some calls. -/
def lastPt : Option (Nat → K) → List (Call K) → Option (Nat → K)
  | o, [] => o
  | o, c :: l => lastPt ((point c).or o) l

theorem honest_append (A B : List (Call K)) (o : Option (Nat → K)) : Honest o (A ++ B) ↔ Honest o A ∧ Honest (lastPt o A) B := by
  induction A generalizing o with
  | nil => simp [Honest, lastPt]
  | cons c l ih => simp [Honest, lastPt, ih, and_assoc]

theorem honest_flatMap {β : Type} (f : β → List (Call K)) (h : ∀ b o, Honest o (f b)) (l : List β) (o : Option (Nat → K)) : Honest o (l.flatMap f) := by
  induction l generalizing o with
  | nil => simp [Honest]
  | cons b l ih => rw [List.flatMap_cons, honest_append]; exact ⟨h b o, ih _⟩

theorem honest_of_true (l : List (Call K)) (h : ∀ c ∈ l, newX c = true) (o : Option (Nat → K)) : Honest o l := by
  induction l generalizing o with
  | nil => trivial
  | cons c l ih => exact ⟨fun hc => (by rw [h c (by simp)] at hc; cases hc), ih (fun c hc => h c (by simp [hc])) _⟩

theorem upTo_prefix (p : Prob K) (l : List (Call K)) : upTo p l <+: l := by
  induction l with
  | nil => exact List.prefix_rfl
  | cons c l ih =>
    unfold upTo
    split_ifs
    · exact (List.cons_prefix_cons).2 ⟨rfl, ih⟩
    · exact ⟨l, rfl⟩

theorem plan_honest (cfg : Cfg K) (d : Data K) (o : Option (Nat → K)) : Honest o (plan cfg d) := by
  unfold plan
  rw [honest_append, honest_append]
  refine ⟨⟨?_, ?_⟩, ?_⟩
  · unfold refCalls
    by_cases hm : 0 < d.m <;> simp [hm, Honest, newX, point]
  · split_ifs
    · apply honest_flatMap
      intro j o
      by_cases hm : 0 < d.m <;> simp [hm, Honest, newX, point]
    · trivial
  · generalize lastPt o _ = o'
    split_ifs
    · apply honest_of_true
      intro c hc
      unfold secCalls at hc
      rw [List.mem_cons, List.mem_flatMap] at hc
      rcases hc with rfl | ⟨f, _, hc⟩
      · rfl
      · rw [List.mem_cons, List.mem_map] at hc
        rcases hc with rfl | ⟨j, _, rfl⟩
        · rfl
        · split_ifs <;> rfl
    · trivial

/-- Every call of the run, also of one that ends with an exception: `new_x = false` is only passed with the point of the preceding evaluation,
and every point is the reference point or differs from it in one variable, by the perturbation. -/
theorem calls_contract {cfg : Cfg K} {p : Prob K} {d : Data K} (hd : IsData cfg p d) (ht : cfg.test ≠ .none) (hj : cfg.jnlst = true)
    (c : List (Call K)) (h : (∃ o, checkDerivatives cfg p = .ok o ∧ c = o.calls) ∨ ∃ e, checkDerivatives cfg p = .error (e, c)) :
    Honest none c ∧ ∀ k ∈ c, ∀ y, point k = some y → y = d.x ∨ ∃ j < d.n, y = moved cfg.pert d.x j := by
  have hpre : c <+: plan cfg d := by
    obtain ⟨h1, h2⟩ := check_outcome hd ht hj
    cases ha : (plan cfg d).all (answered p) with
    | true =>
      rcases h with ⟨o, ho, rfl⟩ | ⟨e, he⟩
      · rw [h1 ha] at ho; cases ho; exact List.prefix_rfl
      · rw [h1 ha] at he; cases he
    | false =>
      obtain ⟨e', he'⟩ := h2 ha
      rcases h with ⟨o, ho, rfl⟩ | ⟨e, he⟩
      · rw [he'] at ho; cases ho
      · rw [he'] at he; cases he; exact upTo_prefix p _
  obtain ⟨t, htail⟩ := hpre
  constructor
  · have := plan_honest cfg d none
    rw [← htail, honest_append] at this
    exact this.1
  · intro k hk y hy
    have hk' : k ∈ plan cfg d := by rw [← htail]; exact List.mem_append_left _ hk
    unfold plan at hk'
    rw [List.mem_append, List.mem_append] at hk'
    rcases hk' with (hk | hk) | hk
    · left
      unfold refCalls at hk
      by_cases hm : 0 < d.m <;> simp [hm] at hk
      · rcases hk with rfl | rfl | rfl | rfl | rfl | rfl | rfl | rfl <;> simp [point] at hy <;> exact hy.symm
      · rcases hk with rfl | rfl | rfl | rfl | rfl <;> simp [point] at hy <;> exact hy.symm
    · split_ifs at hk with h1
      · right
        unfold firstCalls vars at hk
        rw [List.mem_flatMap] at hk
        obtain ⟨j, hj, hk⟩ := hk
        refine ⟨j, List.mem_range.1 (List.mem_filter.1 hj).1, ?_⟩
        rw [List.mem_cons] at hk
        rcases hk with rfl | hk
        · simp [point] at hy; exact hy.symm
        · split_ifs at hk
          · simp at hk; subst hk; simp [point] at hy; exact hy.symm
          · simp at hk
      · simp at hk
    · split_ifs at hk with h1
      · unfold secCalls at hk
        rw [List.mem_cons, List.mem_flatMap] at hk
        rcases hk with rfl | ⟨f, _, hk⟩
        · simp [point] at hy
        · rw [List.mem_cons, List.mem_map] at hk
          rcases hk with rfl | ⟨j, hj, rfl⟩
          · simp [point] at hy; exact Or.inl hy.symm
          · right
            refine ⟨j, List.mem_range.1 hj, ?_⟩
            split_ifs at hy <;> simp [point] at hy <;> exact hy.symm
      · simp at hk

/-! ### Which derivatives are tested -/

theorem mem_vars (start : Int) (n j : Nat) : j ∈ vars start n ↔ j < n ∧ start ≤ j := by
  unfold vars; rw [List.mem_filter, List.mem_range, decide_eq_true_eq]

theorem mem_funs (start : Int) (m : Nat) (c : Option Nat) : c ∈ funs start m ↔ start ≤ num c ∧ ∀ i, c = some i → i < m := by
  unfold funs
  rw [List.mem_append, List.mem_map]
  cases c with
  | none =>
    by_cases h : start ≤ -1 <;> simp [h, num]
  | some i =>
    by_cases h : start ≤ -1 <;> simp [h, num, and_comm]

theorem num_inj : Function.Injective num := by
  intro a b h
  cases a <;> cases b <;> simp [num] at h ⊢ <;> omega

theorem vars_nodup (start : Int) (n : Nat) : (vars start n).Nodup := List.Nodup.filter _ List.nodup_range

theorem funs_nodup (start : Int) (m : Nat) : (funs start m).Nodup := by
  unfold funs
  rw [List.nodup_append]
  refine ⟨by split_ifs <;> simp, (List.Nodup.filter _ List.nodup_range).map (fun _ _ h => Option.some.inj h), ?_⟩
  intro a ha b hb
  split_ifs at ha
  · simp at ha; subst ha
    rw [List.mem_map] at hb
    obtain ⟨i, _, rfl⟩ := hb
    simp
  · simp at ha

/-- Every partial derivative from the chosen index on is tested, and no derivative is tested twice. -/
theorem entries_complete (cfg : Cfg K) (p : Prob K) (d : Data K) :
    (∀ e, e ∈ entries cfg p d ↔
      (isFirst cfg.test = true ∧ ∃ j < d.n, cfg.startIdx ≤ j ∧ (e = gradEntry cfg.pert p d j ∨ ∃ i < d.m, e = conEntry cfg.pert p d i j)) ∨
      (isSecond cfg.test = true ∧ ((cfg.startIdx ≤ -1 ∧ ∃ j < d.n, ∃ k < d.n, e = secEntry cfg.pert p d none j k) ∨
        ∃ i < d.m, cfg.startIdx ≤ i ∧ ∃ j < d.n, ∃ k < d.n, e = secEntry cfg.pert p d (some i) j k))) ∧
    ((entries cfg p d).map Entry.what).Nodup := by
  constructor
  · intro e
    unfold entries
    rw [List.mem_append]
    refine or_congr ?_ ?_
    · by_cases h : isFirst cfg.test = true
      · rw [if_pos h, List.mem_flatMap]
        simp only [h, true_and, mem_vars, List.mem_cons, List.mem_map, List.mem_range]
        constructor
        · rintro ⟨j, ⟨h1, h2⟩, h3⟩
          refine ⟨j, h1, h2, ?_⟩
          rcases h3 with h3 | ⟨i, hi, h3⟩
          · exact Or.inl h3
          · exact Or.inr ⟨i, hi, h3.symm⟩
        · rintro ⟨j, h1, h2, h3⟩
          refine ⟨j, ⟨h1, h2⟩, ?_⟩
          rcases h3 with h3 | ⟨i, hi, h3⟩
          · exact Or.inl h3
          · exact Or.inr ⟨i, hi, h3.symm⟩
      · rw [if_neg h]; simp [h]
    · by_cases h : isSecond cfg.test = true
      · rw [if_pos h, List.mem_flatMap]
        simp only [h, true_and, mem_funs, List.mem_flatMap, List.mem_map, List.mem_range]
        constructor
        · rintro ⟨c, ⟨h1, h2⟩, j, hj, k, hk, he⟩
          cases c with
          | none => exact Or.inl ⟨h1, j, hj, k, hk, he.symm⟩
          | some i => exact Or.inr ⟨i, h2 i rfl, h1, j, hj, k, hk, he.symm⟩
        · rintro (⟨h1, j, hj, k, hk, he⟩ | ⟨i, hi, h1, j, hj, k, hk, he⟩)
          · exact ⟨none, ⟨h1, by simp⟩, j, hj, k, hk, he.symm⟩
          · exact ⟨some i, ⟨h1, by simp; exact hi⟩, j, hj, k, hk, he.symm⟩
      · rw [if_neg h]; simp [h]
  · unfold entries
    rw [List.map_append, List.nodup_append]
    refine ⟨?_, ?_, ?_⟩
    · split_ifs
      · rw [List.map_flatMap, List.nodup_flatMap]
        constructor
        · intro j _
          rw [List.map_cons, List.map_map, List.nodup_cons]
          constructor
          · rw [List.mem_map]; rintro ⟨i, _, h⟩; simp [gradEntry, conEntry] at h
          · refine List.nodup_range.map fun a b h => ?_
            simp [conEntry] at h; exact h
        · refine (vars_nodup _ _).imp ?_
          intro a b hab
          rw [Function.onFun, List.disjoint_left]
          intro w hw hw'
          simp only [List.map_cons, List.map_map, List.mem_cons, List.mem_map, Function.comp, gradEntry, conEntry] at hw hw'
          rcases hw with rfl | ⟨i, _, rfl⟩ <;> rcases hw' with h | ⟨i', _, h⟩ <;> simp at h <;> apply hab <;> omega
      · simp
    · split_ifs
      · rw [List.map_flatMap, List.nodup_flatMap]
        have key : ∀ (c : Option Nat) (j k : Nat), (secEntry cfg.pert p d c j k).what = hessWhat d c j k := fun _ _ _ => rfl
        constructor
        · intro c _
          rw [List.map_flatMap, List.nodup_flatMap]
          constructor
          · intro j _
            rw [List.map_map]
            refine List.nodup_range.map fun a b h => ?_
            cases c <;> simp [secEntry, hessWhat] at h <;> exact h
          · refine List.nodup_range.imp ?_
            intro a b hab
            rw [Function.onFun, List.disjoint_left]
            intro w hw hw'
            simp only [List.map_map, List.mem_map, Function.comp, key] at hw hw'
            obtain ⟨k, _, rfl⟩ := hw
            obtain ⟨k', _, h⟩ := hw'
            cases c <;> simp [hessWhat] at h <;> apply hab <;> omega
        · refine (funs_nodup _ _).imp ?_
          intro a b hab
          rw [Function.onFun, List.disjoint_left]
          intro w hw hw'
          simp only [List.map_flatMap, List.map_map, List.mem_flatMap, List.mem_map, Function.comp, key] at hw hw'
          obtain ⟨j, _, k, _, rfl⟩ := hw
          obtain ⟨j', _, k', _, h⟩ := hw'
          cases a <;> cases b <;> simp [hessWhat] at h <;> apply hab
          · rfl
          · rw [h.1]
      · simp
    · intro a ha b hb hab
      subst hab
      split_ifs at ha hb
      · simp only [List.map_flatMap, List.map_cons, List.map_map, List.mem_flatMap, List.mem_cons, List.mem_map, Function.comp] at ha hb
        obtain ⟨c, _, j, _, k, _, rfl⟩ := hb
        obtain ⟨j', _, h | ⟨i, _, h⟩⟩ := ha
        · cases c <;> simp [secEntry, hessWhat, gradEntry] at h
        · cases c <;> simp [secEntry, hessWhat, conEntry] at h
      all_goals simp at ha hb

end General

section Ordered
variable {K : Type} [Field K] [LinearOrder K] [IsStrictOrderedRing K]

/-- The reference point is within the bounds and within the radius around the starting point, provided the interval is not empty. -/
theorem reference_point {cfg : Cfg K} {p : Prob K} {d : Data K} (hd : IsData cfg p d) (i : Nat) (h0 : 0 ≤ cfg.rnd i) (h1 : cfg.rnd i ≤ 1) (xl xu : Nat → K)
    (hb : p.bounds = some (xl, xu)) (hne : max (xl i) (p.start i - cfg.radius) ≤ min (xu i) (p.start i + cfg.radius)) :
    xl i ≤ d.x i ∧ d.x i ≤ xu i ∧ |d.x i - p.start i| ≤ cfg.radius := by
  obtain ⟨l, u, _, _, hb', hx⟩ := hd
  rw [hb] at hb'
  cases hb'
  have hxi : d.x i = max (xl i) (p.start i - cfg.radius) + cfg.rnd i * (min (xu i) (p.start i + cfg.radius) - max (xl i) (p.start i - cfg.radius)) := by rw [hx]
  set lo := max (xl i) (p.start i - cfg.radius)
  set hi := min (xu i) (p.start i + cfg.radius)
  have a1 : lo ≤ d.x i := by rw [hxi]; have := mul_nonneg h0 (sub_nonneg.2 hne); linarith
  have a2 : d.x i ≤ hi := by rw [hxi]; have := mul_le_mul_of_nonneg_right h1 (sub_nonneg.2 hne); linarith
  have b1 : xl i ≤ lo := le_max_left _ _
  have b2 : p.start i - cfg.radius ≤ lo := le_max_right _ _
  have b3 : hi ≤ xu i := min_le_left _ _
  have b4 : hi ≤ p.start i + cfg.radius := min_le_right _ _
  refine ⟨by linarith, by linarith, abs_le.2 ⟨by linarith, by linarith⟩⟩

/-- An entry is marked iff it deviates from the finite difference by at least `tol` times the larger of the finite difference and `tol`. -/
theorem marked_iff {tol : K} (ht : 0 < tol) (e : Entry K) : wrong tol e = true ↔ tol * max |e.approx| tol ≤ |e.approx - e.exact| := by
  unfold wrong rel
  rw [decide_eq_true_eq, le_div_iff₀ (lt_of_lt_of_le ht (le_max_right _ _))]

/-- With a finite difference that is accurate to `ε`: a right derivative is not marked if `ε < tol²`, and one that deviates from the right value `D` by
at least `ε + tol * max (|D| + ε, tol)` is. -/
theorem marked_of_accuracy {tol ε D : K} (ht : 0 < tol) (e : Entry K) (ha : |e.approx - D| ≤ ε) :
    (e.exact = D → ε < tol * tol → wrong tol e = false) ∧ (ε + tol * max (|D| + ε) tol ≤ |e.exact - D| → wrong tol e = true) := by
  constructor
  · intro he hε
    rw [← Bool.not_eq_true, marked_iff ht, not_le, he]
    have h1 : tol * tol ≤ tol * max |e.approx| tol := mul_le_mul_of_nonneg_left (le_max_right _ _) ht.le
    linarith
  · intro hd
    rw [marked_iff ht]
    have h1 : |e.approx| ≤ |D| + ε := by
      have := abs_sub_abs_le_abs_sub e.approx D
      linarith
    have h2 : tol * max |e.approx| tol ≤ tol * max (|D| + ε) tol := mul_le_mul_of_nonneg_left (max_le_max h1 le_rfl) ht.le
    have h3 : |e.exact - D| ≤ |e.approx - e.exact| + |e.approx - D| := by
      have : e.exact - D = -(e.approx - e.exact) + (e.approx - D) := by ring
      rw [this]
      refine le_trans (abs_add_le _ _) ?_
      rw [abs_neg]
    linarith

/-- The final message and the marked lines: "No errors detected" iff no tested derivative is marked. -/
theorem message {cfg : Cfg K} {p : Prob K} {d : Data K} (hd : IsData cfg p d) (ht : cfg.test ≠ .none) (hj : cfg.jnlst = true) (o : Out K) (h : checkDerivatives cfg p = .ok o) :
    (o.summary = some .noErrors ↔ ∀ e ∈ entries cfg p d, wrong cfg.tol e = false) ∧
    (∀ n, o.summary = some (.errors n) → n = o.lines.countP (fun l => l.star)) ∧
    (∀ e ∈ entries cfg p d, wrong cfg.tol e = true → line cfg.tol e ∈ o.lines) ∧
    (∀ l ∈ o.lines, ∃ e ∈ entries cfg p d, l = line cfg.tol e ∧ (wrong cfg.tol e = true ∨ cfg.printAll = true)) := by
  have ho : o = report cfg p d := by
    obtain ⟨h1, h2⟩ := check_outcome hd ht hj
    cases ha : (plan cfg d).all (answered p) with
    | true => rw [h1 ha] at h; cases h; rfl
    | false => obtain ⟨e, he⟩ := h2 ha; rw [he] at h; cases h
  subst ho
  refine ⟨?_, ?_, ?_, ?_⟩
  · have : (∀ e ∈ entries cfg p d, wrong cfg.tol e = false) ↔ (entries cfg p d).countP (wrong cfg.tol) = 0 := by
      rw [List.countP_eq_zero]; simp
    rw [this]
    unfold report
    simp only [Option.some.injEq]
    split_ifs with h0 <;> simp [h0]
  · intro n hn
    unfold report at hn ⊢
    simp only [Option.some.injEq] at hn
    split_ifs at hn with h0
    simp only [Summary.errors.injEq] at hn
    rw [← hn, List.countP_map, List.countP_filter]
    apply List.countP_congr
    intro e _
    simp [line]
    intro h1; exact Or.inl h1
  · intro e he hw
    unfold report
    rw [List.mem_map]
    exact ⟨e, List.mem_filter.2 ⟨he, by simp [hw]⟩, rfl⟩
  · intro l hl
    unfold report at hl
    rw [List.mem_map] at hl
    obtain ⟨e, he, rfl⟩ := hl
    rw [List.mem_filter] at he
    exact ⟨e, he.1, rfl, by simpa using he.2⟩

end Ordered

/-! ### Smooth problems -/

/-- Along variable `j` from `x`, `ψ` has derivatives, `D` at `x`, and they change at rate at most `L` up to the distance `h`. -/
def SmoothAt (ψ : (Nat → ℝ) → ℝ) (x : Nat → ℝ) (j : Nat) (D L h : ℝ) : Prop :=
  ∃ ψ' : ℝ → ℝ, ψ' 0 = D ∧ (∀ t ∈ Set.Icc 0 h, HasDerivAt (fun s => ψ (shift x j s)) (ψ' t) t) ∧ ∀ t ∈ Set.Icc 0 h, |ψ' t - D| ≤ L * t

theorem moved_shift (pert : ℝ) (x : Nat → ℝ) (j : Nat) : moved pert x j = shift x j (step pert x j) := rfl

theorem shift_zero (x : Nat → ℝ) (j : Nat) : shift x j 0 = x := by
  funext i; unfold shift; split_ifs with h
  · rw [h]; ring
  · rfl

theorem difference_accuracy {ψ : (Nat → ℝ) → ℝ} {x : Nat → ℝ} {j : Nat} {D L h : ℝ} (hh : 0 < h) (hL : 0 ≤ L) (hs : SmoothAt ψ x j D L h) :
    |(ψ (shift x j h) - ψ x) / h - D| ≤ L * h := by
  obtain ⟨ψ', h0, hd, hl⟩ := hs
  have hcont : ContinuousOn (fun s => ψ (shift x j s)) (Set.Icc 0 h) := fun t ht => (hd t ht).continuousAt.continuousWithinAt
  obtain ⟨c, hc, hcd⟩ := exists_hasDerivAt_eq_slope (fun s => ψ (shift x j s)) ψ' hh hcont (fun t ht => hd t ⟨ht.1.le, ht.2.le⟩)
  rw [shift_zero, sub_zero] at hcd
  rw [← hcd]
  have h1 := hl c ⟨hc.1.le, hc.2.le⟩
  have h2 : L * c ≤ L * h := mul_le_mul_of_nonneg_left hc.2.le hL
  linarith

theorem step_pos {pert : ℝ} (hp : 0 < pert) (x : Nat → ℝ) (j : Nat) : 0 < step pert x j :=
  mul_pos hp (lt_of_lt_of_le one_pos (le_max_left _ _))

/-- Accuracy of the finite differences of the three kinds of entries. -/
theorem finite_differences {pert : ℝ} (hp : 0 < pert) (p : Prob ℝ) (d : Data ℝ) {L D : ℝ} (hL : 0 ≤ L) (j : Nat) :
    (SmoothAt (F p) d.x j D L (step pert d.x j) → |(gradEntry pert p d j).approx - D| ≤ L * step pert d.x j) ∧
    (∀ i, SmoothAt (fun y => G p y i) d.x j D L (step pert d.x j) → |(conEntry pert p d i j).approx - D| ≤ L * step pert d.x j) ∧
    (∀ c k, SmoothAt (fun y => gradOf p d c y k) d.x j D L (step pert d.x j) → |(secEntry pert p d c j k).approx - 3 / 2 * D| ≤ 3 / 2 * (L * step pert d.x j)) := by
  have hh := step_pos hp d.x j
  refine ⟨fun hs => ?_, fun i hs => ?_, fun c k hs => ?_⟩
  · exact difference_accuracy hh hL hs
  · exact difference_accuracy hh hL hs
  · have h := difference_accuracy hh hL hs
    have e : (secEntry pert p d c j k).approx - 3 / 2 * D = 3 / 2 * ((gradOf p d c (shift d.x j (step pert d.x j)) k - gradOf p d c d.x k) / step pert d.x j - D) := by
      show 3 / 2 * (gradOf p d c (moved pert d.x j) k - gradOf p d c d.x k) / step pert d.x j - 3 / 2 * D = _
      rw [moved_shift]; ring
    rw [e, abs_mul, abs_of_pos (by norm_num : (0 : ℝ) < 3 / 2)]
    exact mul_le_mul_of_nonneg_left h (by norm_num)

/-- A problem whose declared derivatives are right, and whose derivatives do not change too fast, passes: "No errors detected". -/
theorem right_derivatives_pass {cfg : Cfg ℝ} {p : Prob ℝ} {d : Data ℝ} (hd : IsData cfg p d) (ht : cfg.test ≠ .none) (hj : cfg.jnlst = true) (hp : 0 < cfg.pert) (htol : 0 < cfg.tol)
    (L : ℝ) (hL : 0 ≤ L) (hsmall : ∀ j < d.n, 3 / 2 * (L * step cfg.pert d.x j) < cfg.tol * cfg.tol)
    (hf : isFirst cfg.test = true → ∀ j < d.n, SmoothAt (F p) d.x j (DF p d.x j) L (step cfg.pert d.x j))
    (hg : isFirst cfg.test = true → ∀ i < d.m, ∀ j < d.n, SmoothAt (fun y => G p y i) d.x j (jacEntry p d d.x i j) L (step cfg.pert d.x j))
    (hh : isSecond cfg.test = true → ∀ c, (∀ i, c = some i → i < d.m) → ∀ j < d.n, ∀ k < d.n,
      SmoothAt (fun y => gradOf p d c y k) d.x j (2 / 3 * hessEntry p d (H p d.x (objOf c) (lamOf c)) j k) L (step cfg.pert d.x j))
    (o : Out ℝ) (h : checkDerivatives cfg p = .ok o) : o.summary = some .noErrors := by
  rw [(message hd ht hj o h).1]
  intro e he
  rcases ((entries_complete cfg p d).1 e).1 he with ⟨h1, j, hjn, _, he'⟩ | ⟨h2, he'⟩
  · have hs := step_pos hp d.x j
    have hb := hsmall j hjn
    have hb' : L * step cfg.pert d.x j < cfg.tol * cfg.tol := by
      have := mul_nonneg hL hs.le; linarith
    rcases he' with rfl | ⟨i, hi, rfl⟩
    · exact (marked_of_accuracy htol _ ((finite_differences hp p d hL j).1 (hf h1 j hjn))).1 rfl hb'
    · exact (marked_of_accuracy htol _ ((finite_differences hp p d hL j).2.1 i (hg h1 i hi j hjn))).1 rfl hb'
  · have key : ∀ c, (∀ i, c = some i → i < d.m) → ∀ j < d.n, ∀ k < d.n, wrong cfg.tol (secEntry cfg.pert p d c j k) = false := by
      intro c hc j hj' k hk
      refine (marked_of_accuracy htol _ ((finite_differences hp p d hL j).2.2 c k (hh h2 c hc j hj' k hk))).1 ?_ (hsmall j hj')
      show hessEntry p d (H p d.x (objOf c) (lamOf c)) j k = _
      ring
    rcases he' with ⟨_, j, hj', k, hk, rfl⟩ | ⟨i, hi, _, j, hj', k, hk, rfl⟩
    · exact key none (by simp) j hj' k hk
    · exact key (some i) (by simp; exact hi) j hj' k hk

/-- A first derivative that is wrong by more than the accuracy of the finite difference and the tolerance is marked, printed and counted. -/
theorem wrong_derivative_found {cfg : Cfg ℝ} {p : Prob ℝ} {d : Data ℝ} (hd : IsData cfg p d) (ht : isFirst cfg.test = true) (hj : cfg.jnlst = true) (hp : 0 < cfg.pert) (htol : 0 < cfg.tol)
    (L D : ℝ) (hL : 0 ≤ L) (j : Nat) (hjn : j < d.n) (hst : cfg.startIdx ≤ j) (o : Out ℝ) (h : checkDerivatives cfg p = .ok o) :
    (SmoothAt (F p) d.x j D L (step cfg.pert d.x j) → L * step cfg.pert d.x j + cfg.tol * max (|D| + L * step cfg.pert d.x j) cfg.tol ≤ |DF p d.x j - D| →
      o.summary ≠ some .noErrors ∧ ∃ l ∈ o.lines, l.star = true ∧ l.what = .gradF (j + d.base) ∧ l.exact = DF p d.x j) ∧
    (∀ i < d.m, SmoothAt (fun y => G p y i) d.x j D L (step cfg.pert d.x j) →
      L * step cfg.pert d.x j + cfg.tol * max (|D| + L * step cfg.pert d.x j) cfg.tol ≤ |jacEntry p d d.x i j - D| →
      o.summary ≠ some .noErrors ∧ ∃ l ∈ o.lines, l.star = true ∧ l.what = .jacG (i + d.base) (j + d.base) ∧ l.exact = jacEntry p d d.x i j) := by
  have htn : cfg.test ≠ .none := by intro hh; rw [hh] at ht; simp [isFirst] at ht
  obtain ⟨m1, _, m3, _⟩ := message hd htn hj o h
  have key : ∀ e ∈ entries cfg p d, wrong cfg.tol e = true → o.summary ≠ some .noErrors ∧ ∃ l ∈ o.lines, l.star = true ∧ l.what = e.what ∧ l.exact = e.exact := by
    intro e he hw
    refine ⟨fun hs => ?_, line cfg.tol e, m3 e he hw, hw, rfl, rfl⟩
    have := m1.1 hs e he
    rw [hw] at this; cases this
  constructor
  · intro hs hdev
    refine key (gradEntry cfg.pert p d j) (((entries_complete cfg p d).1 _).2 (Or.inl ⟨ht, j, hjn, hst, Or.inl rfl⟩)) ?_
    exact (marked_of_accuracy htol _ ((finite_differences hp p d hL j).1 hs)).2 hdev
  · intro i hi hs hdev
    refine key (conEntry cfg.pert p d i j) (((entries_complete cfg p d).1 _).2 (Or.inl ⟨ht, j, hjn, hst, Or.inr ⟨i, hi, rfl⟩⟩)) ?_
    exact (marked_of_accuracy htol _ ((finite_differences hp p d hL j).2.1 i hs)).2 hdev

/-- A second derivative that is wrong by more than the accuracy of the finite difference and the tolerance is marked, printed and counted. -/
theorem wrong_second_derivative_found {cfg : Cfg ℝ} {p : Prob ℝ} {d : Data ℝ} (hd : IsData cfg p d) (ht : isSecond cfg.test = true) (hj : cfg.jnlst = true) (hp : 0 < cfg.pert) (htol : 0 < cfg.tol)
    (L D : ℝ) (hL : 0 ≤ L) (c : Option Nat) (hc : ∀ i, c = some i → i < d.m ∧ cfg.startIdx ≤ i) (hc' : c = none → cfg.startIdx ≤ -1) (j k : Nat) (hjn : j < d.n) (hkn : k < d.n)
    (hs : SmoothAt (fun y => gradOf p d c y k) d.x j D L (step cfg.pert d.x j))
    (hdev : 3 / 2 * (L * step cfg.pert d.x j) + cfg.tol * max (|3 / 2 * D| + 3 / 2 * (L * step cfg.pert d.x j)) cfg.tol ≤ |hessEntry p d (H p d.x (objOf c) (lamOf c)) j k - 3 / 2 * D|)
    (o : Out ℝ) (h : checkDerivatives cfg p = .ok o) :
    o.summary ≠ some .noErrors ∧ ∃ l ∈ o.lines, l.star = true ∧ l.what = hessWhat d c j k := by
  have htn : cfg.test ≠ .none := by intro hh; rw [hh] at ht; simp [isSecond] at ht
  obtain ⟨m1, _, m3, _⟩ := message hd htn hj o h
  have hmem : secEntry cfg.pert p d c j k ∈ entries cfg p d := by
    refine ((entries_complete cfg p d).1 _).2 (Or.inr ⟨ht, ?_⟩)
    cases c with
    | none => exact Or.inl ⟨hc' rfl, j, hjn, k, hkn, rfl⟩
    | some i => exact Or.inr ⟨i, (hc i rfl).1, (hc i rfl).2, j, hjn, k, hkn, rfl⟩
  have hw := (marked_of_accuracy htol _ ((finite_differences hp p d hL j).2.2 c k hs)).2 hdev
  refine ⟨fun hs => ?_, line cfg.tol _, m3 _ hmem hw, hw, rfl⟩
  have := m1.1 hs _ hmem
  rw [hw] at this; cases this

/-! ### Examples -/

namespace Ex

/-- `min x0^2 + 3 x1` subject to `x0 x1`; the declared gradient of the constraint has a wrong second component; FORTRAN style, with a duplicate entry. -/
def p : Prob ℚ where
  info := some ⟨2, 1, 3, 2, true⟩
  start := fun i => if i = 0 then 1 else 5
  bounds := some (fun _ => 0, fun _ => 4)
  f := fun x => some (x 0 * x 0 + 3 * x 1)
  g := fun x => some fun _ => x 0 * x 1
  gradF := fun x => some fun i => if i = 0 then 2 * x 0 else 3
  jacStruct := some fun k => if k = 0 then (1, 1) else (1, 2)
  jac := fun x => some fun k => if k = 0 then x 1 else x 0
  hessStruct := some fun k => if k = 0 then (1, 1) else (2, 1)
  hess := fun x s l => some fun k => if k = 0 then 2 * s else l 0

def cfg : Cfg ℚ := ⟨.second, -2, 1 / 1000, 1 / 100, false, 2, fun _ => 1 / 2, true⟩

def d : Data ℚ := ⟨2, 1, 3, 2, 1, fun i => if i = 0 then 3 / 2 else if i = 1 then 7 / 2 else max 0 3 + 1 / 2 * (min 4 7 - max 0 3)⟩

theorem isData : IsData cfg p d := by
  refine ⟨fun _ => 0, fun _ => 4, by simp [p, d], Or.inr rfl, rfl, ?_⟩
  funext i
  by_cases h0 : i = 0
  · subst h0; decide +kernel
  · by_cases h1 : i = 1
    · subst h1; decide +kernel
    · simp only [d, cfg, p, h0, h1, if_false]
      norm_num

/-- all evaluations succeed, and exactly one first derivative (and the two constraint Hessian entries computed from it) are marked. -/
theorem marked : (plan cfg d).all (answered p) = true ∧ ((entries cfg p d).map (wrong cfg.tol)) =
    [false, false, false, true] ++ [false, false, false, false] ++ [false, true, false, false] := by
  constructor <;> decide +kernel

/-- The perturbed points may violate bounds: at `x0 = x_u = 1` with radius 0 the objective is evaluated at `x0 > 1`. -/
theorem perturbed_point_outside : ∃ (cfg : Cfg ℚ) (p : Prob ℚ) (o : Out ℚ), checkDerivatives cfg p = .ok o ∧ p.bounds = some (fun _ => 0, fun _ => 1) ∧ (∀ i, 0 ≤ p.start i ∧ p.start i ≤ 1) ∧
    ∃ k ∈ o.calls, ∃ y, point k = some y ∧ 1 < y 0 := by
  let c1 : Cfg ℚ := { cfg with radius := 0 }
  let p1 : Prob ℚ := { p with start := fun _ => 1, bounds := some (fun _ => 0, fun _ => 1) }
  let d1 : Data ℚ := ⟨2, 1, 3, 2, 1, fun _ => 1⟩
  have hd : IsData c1 p1 d1 := by
    refine ⟨fun _ => 0, fun _ => 1, by simp [p1, p, d1], Or.inr rfl, rfl, ?_⟩
    funext i
    simp [c1, p1, d1, cfg]
  have h := (check_outcome hd (by simp [c1, cfg]) rfl).1 (by decide +kernel)
  refine ⟨c1, p1, _, h, rfl, fun i => ⟨by simp [p1], by simp [p1]⟩, .f (moved c1.pert d1.x 0) true, ?_, _, rfl, by decide +kernel⟩
  show _ ∈ plan c1 d1
  simp [plan, isFirst, firstCalls, c1, cfg, mem_vars, d1]
  exact Or.inr (Or.inl ⟨0, by omega, rfl⟩)

end Ex

/-- `SmoothAt` is met by a square. -/
example (x : Nat → ℝ) (h : ℝ) : SmoothAt (fun y => y 0 ^ 2) x 0 (2 * x 0) 2 h := by
  refine ⟨fun t => 2 * (x 0 + t), by ring, fun t _ => ?_, fun t ht => ?_⟩
  · have h1 : HasDerivAt (fun s : ℝ => x 0 + s) 1 t := by simpa using (hasDerivAt_id t).const_add (x 0)
    have h2 := h1.pow 2
    have e : (fun s => (shift x 0 s) 0 ^ 2) = (fun s : ℝ => x 0 + s) ^ 2 := by
      funext s; simp [shift]
    rw [e]
    have e2 : (2 * (x 0 + t) : ℝ) = (2 : ℕ) * (x 0 + t) ^ (2 - 1) * 1 := by norm_num
    show HasDerivAt _ (2 * (x 0 + t)) t
    rw [e2]; exact h2
  · have : 2 * (x 0 + t) - 2 * x 0 = 2 * t := by ring
    rw [this, abs_of_nonneg (by have := ht.1; linarith)]

end Verif.DerivCheck
