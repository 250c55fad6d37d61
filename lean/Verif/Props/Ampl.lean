import Verif.Proof.Ampl
import Mathlib.Tactic.FieldSimp
import Mathlib.Tactic.IntervalCases

/-! # C76: the AMPL interface -/

set_option linter.unusedSectionVars false
set_option linter.unusedSimpArgs false
set_option linter.unusedVariables false

namespace Verif.Ampl

variable {X K : Type} [Field K] [LinearOrder K] [IsStrictOrderedRing K]

/-- **Evaluations.** After any history of legal calls, each evaluation answers for the point it is given with the values of the
objective the user chose (the first one if there is only one), turned into a minimization, whatever the library has in its
caches; it fails exactly if the library has an error, and throws exactly if there are several objectives and none was chosen. -/
theorem evaluations {P : Nl X K} {halt : Bool} {s : St X K} {chosen : Option Nat} {last : Option X}
    (h : Hist P halt s chosen last) (x : X) (new : Bool) (hl : new = true ∨ last = some x) :
    (evalF P halt s x new).1 = answer P halt chosen x new (minObj P (chosen.getD 0) x) ∧
    (evalGrad P halt s x new).1 = answer P halt chosen x new (minGrad P (chosen.getD 0) x) ∧
    (evalG P halt s x new).1 = answer P halt chosen x new (P.conval x) ∧
    (evalJac P halt s x new).1 = answer P halt chosen x new (conJac P x) := by
  have hi := hist_inv h
  refine ⟨?_, ?_, ?_, ?_⟩
  · obtain ⟨a1, a2⟩ := after_spec P halt hi x new hl _ (fun r => r = valOr halt (minObj P (chosen.getD 0) x))
      (objval_ne_exc P halt · x) (fun t ht => ⟨(objval_spec halt ht).1, (objval_spec halt ht).2.1⟩)
    exact answer_of (fun hm => by rw [evalF, a1 hm]) (fun hm => (a2 hm).2.2)
  · obtain ⟨a1, a2⟩ := after_spec P halt hi x new hl _ (fun r => r = valOr halt (minGrad P (chosen.getD 0) x))
      (grad_ne_exc P halt · x) (fun t ht => grad_spec halt ht)
    exact answer_of (fun hm => by rw [evalGrad, a1 hm]) (fun hm => (a2 hm).2.2)
  · obtain ⟨a1, a2⟩ := after_spec P halt hi x new hl _ (fun r => r = valOr halt (P.conval x))
      (conval_ne_exc P halt · x) (fun t ht => ⟨(conval_spec halt ht).1, (conval_spec halt ht).2.1⟩)
    exact answer_of (fun hm => by rw [evalG, a1 hm]) (fun hm => (a2 hm).2.2)
  · obtain ⟨a1, a2⟩ := after_spec P halt hi x new hl _ (fun r => r = valOr halt (conJac P x))
      (jac_ne_exc P halt · x) (fun t ht => jac_spec halt ht)
    exact answer_of (fun hm => by rw [evalJac, a1 hm]) (fun hm => (a2 hm).2.2)

/-- **Hessian.** Whatever was evaluated before, `eval_h` answers with the Hessian of the Lagrangian of the minimization problem at
the point it is given, if objective and constraints can be evaluated there. -/
theorem hessian_evaluation {P : Nl X K} {halt : Bool} {s : St X K} {chosen : Option Nat} {last : Option X}
    (h : Hist P halt s chosen last) (x : X) (new : Bool) (hl : new = true ∨ last = some x) (o : K) (lam : Nat → K)
    (hf : (minObj P (chosen.getD 0) x).isSome) (hg : (P.conval x).isSome) :
    (evalH P halt s x new o lam).1 = answer P halt chosen x new (some (lagHess P (chosen.getD 0) x o lam)) := by
  obtain ⟨a1, a2⟩ := after_spec P halt (hist_inv h) x new hl (fun s => hessPart P halt s x o lam)
    (fun r => r = valOr halt (some (lagHess P (chosen.getD 0) x o lam)))
    (hess_ne_exc P halt · x o lam) (fun t ht => ⟨(hess_spec halt ht o lam).2.2 hf hg, (hess_spec halt ht o lam).1⟩)
  exact answer_of (fun hm => by rw [evalH, a1 hm]) (fun hm => (a2 hm).2.2)

/-- **Hessian, errors.** The code ignores errors of the evaluations made for the Hessian: with `halt_on_ampl_error=no`, `eval_h`
reports success also where objective or constraints cannot be evaluated. -/
theorem hessian_ignores_errors {P : Nl X K} {s : St X K} {chosen : Option Nat} {last : Option X}
    (h : Hist P false s chosen last) (x : X) (new : Bool) (hl : new = true ∨ last = some x) (o : K) (lam : Nat → K)
    (hc : ¬(1 < P.nObj ∧ chosen = none)) (hx : ¬(new = true ∧ P.xErr x = true)) :
    ∃ v, (evalH P false s x new o lam).1 = .val v := by
  obtain ⟨_, a2⟩ := after_spec P false (hist_inv h) x new hl (fun s => hessPart P false s x o lam)
    (fun r => ∃ v, r = .val v)
    (hess_ne_exc P false · x o lam) (fun t ht => ⟨(hess_spec false ht o lam).2.1 rfl, (hess_spec false ht o lam).1⟩)
  exact (a2 hc).2.2.2 hx

/-- **Choice of the objective.** It can be made until the first evaluation (or `get_nlp_info`) and not later; `get_nlp_info`
throws exactly if there are several objectives and none was chosen. -/
theorem objective_choice {P : Nl X K} {halt : Bool} {s : St X K} {chosen : Option Nat} {last : Option X}
    (h : Hist P halt s chosen last) :
    (last.isSome → ∀ i, (setActive s i).1 = .exc) ∧
    (∀ i, (setActive (nlpInfo P s).2 i).1 = .exc ↔ ¬(1 < P.nObj ∧ chosen = none)) ∧
    (nlpInfo P s).1 = (if 1 < P.nObj ∧ chosen = none then .exc else .val (P.nVar, P.nCon)) ∧
    (∀ i, (setActive (St.new : St X K) i).1 = .val ()) := by
  have hi := hist_inv h
  refine ⟨?_, ?_, ?_, fun i => rfl⟩
  · intro hs i
    obtain ⟨x, rfl⟩ := Option.isSome_iff_exists.1 hs
    simp [setActive, (hi.last x rfl).1]
  · intro i
    obtain ⟨e1, e2⟩ := ensure_spec P hi
    by_cases hm : 1 < P.nObj ∧ chosen = none
    · have hh : s.hessetCalled = false := by
        by_contra hc
        exact hi.many (by simpa using hc) hm
      simp [nlpInfo, e1 hm, setActive, hh, hm]
    · obtain ⟨a1, _, a3, _⟩ := e2 hm
      generalize hE : ensureHesset P s = E at *
      obtain ⟨b, s'⟩ := E
      dsimp at a1 a3
      subst a1
      simp [nlpInfo, hE, setActive, a3, hm]
  · obtain ⟨e1, e2⟩ := ensure_spec P hi
    by_cases hm : 1 < P.nObj ∧ chosen = none
    · rw [if_pos hm, nlpInfo, e1 hm]
    · obtain ⟨a1, _⟩ := e2 hm
      generalize hE : ensureHesset P s = E at *
      obtain ⟨b, s'⟩ := E
      dsimp at a1
      subst a1
      simp [nlpInfo, hE, hm]

/-- The internal sign after any history with an evaluation. -/
theorem sign_of_hist {P : Nl X K} {halt : Bool} {s : St X K} {chosen : Option Nat} {last : Option X}
    (h : Hist P halt s chosen last) (hl : last.isSome) :
    s.objSign = if 0 < P.nObj ∧ P.isMax (chosen.getD 0) = true then -1 else 1 := by
  have hi := hist_inv h
  obtain ⟨x, rfl⟩ := Option.isSome_iff_exists.1 hl
  rw [hi.sign (hi.last x rfl).1, hi.no]

theorem one_ne_neg : (1 : K) ≠ -1 := by
  intro hc
  have : (0 : K) < 1 := zero_lt_one
  linarith

/-- **Multipliers reported.** A point satisfies the first order conditions of the internal minimization problem with the
multipliers given to `finalize_solution` iff the values reported to AMPL satisfy the conditions of the model in AMPL's
convention, for minimization and for maximization. -/
theorem solution_kkt {P : Nl X K} {halt : Bool} {s : St X K} {chosen : Option Nat} {last : Option X}
    (h : Hist P halt s chosen last) (hl : last.isSome) (hobj : 0 < P.nObj) (n m : Nat) (df : Nat → K) (J : Nat → Nat → K)
    (lam zL zU : Nat → K) :
    InternalStationary n m (if P.isMax (chosen.getD 0) then -1 else 1) df J lam zL zU ↔
    AmplStationary n m (P.isMax (chosen.getD 0)) df J (finalize s zL zU lam).dual (finalize s zL zU lam).zL
      (finalize s zL zU lam).zU := by
  have hs := sign_of_hist h hl
  simp only [hobj, true_and] at hs
  simp only [InternalStationary, AmplStationary]
  by_cases hm : P.isMax (chosen.getD 0) = true
  · simp only [hm, if_true] at hs ⊢
    simp only [finalize, hs, if_true]
    refine and_congr (forall_congr' fun i => forall_congr' fun _ => ?_) (forall_congr' fun i => forall_congr' fun _ => ?_)
    · constructor <;> intro hh <;> linarith
    · constructor <;> rintro ⟨h1, h2⟩ <;> constructor <;> linarith
  · simp only [hm, if_false, Bool.false_eq_true] at hs ⊢
    simp only [finalize, hs, one_ne_neg, if_false]
    refine and_congr (forall_congr' fun i => forall_congr' fun _ => ?_) (forall_congr' fun i => forall_congr' fun _ => ?_)
    · have : ∑ j ∈ Finset.range m, J j i * -lam j = -∑ j ∈ Finset.range m, J j i * lam j := by
        rw [← Finset.sum_neg_distrib]
        exact Finset.sum_congr rfl fun j _ => by ring
      rw [this]
      constructor <;> intro hh <;> linarith
    · constructor <;> rintro ⟨h1, h2⟩ <;> constructor <;> linarith

/-- **Warm start.** If the values reported for one solve are given back (`ipopt_zL_in`, `ipopt_zU_in`, dual values) to a solve of
a model whose objective has the same sense, the multipliers the next solve starts from are those the previous one ended with. -/
theorem warm_start_round_trip {P P' : Nl X K} {halt halt' : Bool} {s s' : St X K} {chosen chosen' : Option Nat}
    {last last' : Option X} (h : Hist P halt s chosen last) (hl : last.isSome) (h' : Hist P' halt' s' chosen' last')
    (hl' : last'.isSome)
    (same : (0 < P.nObj ∧ P.isMax (chosen.getD 0) = true) ↔ (0 < P'.nObj ∧ P'.isMax (chosen'.getD 0) = true))
    (zL zU lam : Nat → K) :
    (∀ i, startZL s' (some (finalize s zL zU lam).zL) i = zL i) ∧
    (∀ i, startZU s' (some (finalize s zL zU lam).zU) i = zU i) ∧
    (∀ i, P'.havepi0 i = true → P'.pi0 i = (finalize s zL zU lam).dual i → startLambda P' s' i = lam i) := by
  have hs := sign_of_hist h hl
  have hs' := sign_of_hist h' hl'
  by_cases hm : 0 < P.nObj ∧ P.isMax (chosen.getD 0) = true
  · rw [if_pos hm] at hs
    rw [if_pos (same.1 hm)] at hs'
    simp only [startZL, startZU, startLambda, finalize, hs, hs', if_true]
    refine ⟨fun i => by ring, fun i => by ring, fun i h1 h2 => by rw [if_pos h1, h2]; ring⟩
  · rw [if_neg hm] at hs
    rw [if_neg (fun hc => hm (same.2 hc))] at hs'
    simp only [startZL, startZU, startLambda, finalize, hs, hs', one_ne_neg, if_false]
    refine ⟨fun i => by ring, fun i => by ring, fun i h1 h2 => by rw [if_pos h1, h2]; ring⟩

/-- **Bounds and starting point.** The bounds are the model's; a variable without starting value starts at the point nearest to
zero within its bounds; absent multipliers are one (bounds) and zero (constraints). -/
theorem starting_point (P : Nl X K) (s : St X K) (i : Nat) :
    (boundsInfo P).1 i = P.LUv (2 * i) ∧ (boundsInfo P).2.1 i = P.LUv (2 * i + 1) ∧
    (boundsInfo P).2.2.1 i = P.LUrhs (2 * i) ∧ (boundsInfo P).2.2.2 i = P.LUrhs (2 * i + 1) ∧
    (P.havex0 i = true → startX P i = P.X0 i) ∧
    (P.havex0 i = false → P.LUv (2 * i) ≤ P.LUv (2 * i + 1) →
      (P.LUv (2 * i) ≤ startX P i ∧ startX P i ≤ P.LUv (2 * i + 1)) ∧
      ∀ y, P.LUv (2 * i) ≤ y → y ≤ P.LUv (2 * i + 1) → |startX P i| ≤ |y|) ∧
    startZL s none i = 1 ∧ startZU s none i = 1 ∧ (P.havepi0 i = false → startLambda P s i = 0) := by
  refine ⟨rfl, rfl, rfl, rfl, fun h => by simp [startX, h], ?_, rfl, rfl, fun h => by simp [startLambda, h]⟩
  intro h hb
  simp only [startX, h, Bool.false_eq_true, if_false]
  refine ⟨⟨le_max_left _ _, max_le hb (min_le_left _ _)⟩, ?_⟩
  intro y h1 h2
  rcases le_total (P.LUv (2 * i + 1)) 0 with hu | hu
  · rw [min_eq_left hu, max_eq_right hb, abs_of_nonpos hu, abs_of_nonpos (le_trans h2 hu)]
    linarith
  · rw [min_eq_right hu]
    rcases le_total (P.LUv (2 * i)) 0 with hl | hl
    · rw [max_eq_right hl, abs_zero]; exact abs_nonneg y
    · rw [max_eq_left hl, abs_of_nonneg hl, abs_of_nonneg (le_trans hl h1)]
      exact h1

/-- **Jacobian structure.** The 1-based positions handed to Ipopt together with the values array of the library describe the
library's Jacobian, in whatever order it stores the entries. -/
theorem jacobian_structure (cg : List (List CGrad)) (init : Nat → Nat × Nat) (values : Nat → K) (nnz : Nat)
    (hp : ((cg.flatten).map (·.goff)).Perm (List.range nnz)) (r c : Nat) :
    tripletEntry nnz (jacStructure cg init) values r c = cgradEntry cg values r c :=
  jac_entry cg init values nnz hp r c

/-- **Hessian structure.** The upper triangle of the library, by columns, becomes a lower triangle: one entry for each element, in
the library's order, none twice. -/
theorem hessian_structure (cols : List (List Nat)) (hnd : ∀ rows ∈ cols, rows.Nodup)
    (htri : ∀ k, ∀ r ∈ cols.getD k [], r ≤ k) :
    (∀ a b, (a + 1, b + 1) ∈ hessStructure 0 cols ↔ b ∈ cols.getD a []) ∧
    (∀ p ∈ hessStructure 0 cols, 1 ≤ p.2 ∧ p.2 ≤ p.1 ∧ p.1 ≤ cols.length) ∧
    (hessStructure 0 cols).Nodup ∧ (hessStructure 0 cols).length = (cols.map List.length).sum ∧
    (∀ rows : List Nat, hessStructure 0 (cols ++ [rows]) =
      hessStructure 0 cols ++ rows.map fun r => (cols.length + 1, r + 1)) := by
  refine ⟨?_, ?_, hess_nodup cols hnd 0, hess_length cols 0, ?_⟩
  · intro a b
    rw [hess_mem]
    constructor
    · rintro ⟨k, r, he, hr⟩
      simp only [Prod.mk.injEq, Nat.zero_add, Nat.add_right_cancel_iff] at he
      rw [he.1, he.2]; exact hr
    · intro hb
      exact ⟨a, b, by simp, hb⟩
  · rintro ⟨a, b⟩ hp
    obtain ⟨k, r, he, hr⟩ := (hess_mem cols a b 0).1 hp
    simp only [Prod.mk.injEq, Nat.zero_add] at he
    have hk : k < cols.length := by
      by_contra hc
      simp [List.getD, List.getElem?_eq_none (Nat.not_lt.1 hc)] at hr
    have := htri k r hr
    dsimp
    omega
  · intro rows
    have : ∀ (i : Nat) (l : List (List Nat)), hessStructure i (l ++ [rows]) =
        hessStructure i l ++ rows.map fun r => (i + l.length + 1, r + 1) := by
      intro i l
      induction l generalizing i with
      | nil => simp [hessStructure]
      | cons a l ih =>
        simp only [List.cons_append, hessStructure, ih, List.append_assoc, List.length_cons]
        rw [show i + 1 + l.length = i + (l.length + 1) by omega]
    simpa using this 0 cols

/-- **Result numbers.** Different outcomes have different numbers, each in the range AMPL reserves for its class; numbers below
100 mean that the point is a solution. -/
theorem result_numbers :
    (∀ a b, solveResult a = solveResult b → a = b) ∧ (∀ a, resultClass (solveResult a) = some (expectedClass a)) ∧
    (∀ a, solveResult a < 100 ↔ a = .success ∨ a = .acceptable ∨ a = .feasiblePoint) := by
  refine ⟨?_, ?_, ?_⟩
  · intro a b
    cases a <;> cases b <;> simp [solveResult]
  · intro a
    cases a <;> rfl
  · intro a
    cases a <;> simp [solveResult]

/-- **Other information.** Scaling factors are always positive: the model's where it is positive, otherwise one; the first `nlc`
constraints are nonlinear; nonlinear variables come first. -/
theorem other_information (P : Nl X K) (suffix : Option (Nat → K)) :
    (∀ f, scalingFactors suffix = some f → ∃ v, suffix = some v ∧ ∀ i, 0 < f i ∧ (0 < v i → f i = v i) ∧ (v i ≤ 0 → f i = 1)) ∧
    (scalingFactors suffix = none ↔ suffix = none) ∧
    (∀ i, isLinear P i = true ↔ P.nlc ≤ i) ∧
    (∀ j, j ∈ nonlinearVars P ↔ 1 ≤ j ∧ (j ≤ P.nlvo ∨ j ≤ P.nlvc)) ∧ (nonlinearVars P).Nodup := by
  refine ⟨?_, ?_, ?_, ?_, ?_⟩
  · intro f hf
    cases suffix with
    | none => cases hf
    | some v =>
      simp only [scalingFactors, Option.map_some, Option.some.injEq] at hf
      subst hf
      refine ⟨v, rfl, fun i => ⟨?_, fun hp => by simp [hp], fun hn => by simp [not_lt.2 hn]⟩⟩
      by_cases hp : 0 < v i
      · simp [hp]
      · simp [hp]
  · cases suffix <;> simp [scalingFactors]
  · intro i; simp [isLinear]
  · intro j
    simp only [nonlinearVars, List.mem_map, List.mem_range]
    constructor
    · rintro ⟨a, ha, rfl⟩
      rcases lt_max_iff.1 ha with h | h
      · exact ⟨by omega, Or.inl (by omega)⟩
      · exact ⟨by omega, Or.inr (by omega)⟩
    · rintro ⟨h1, h2⟩
      exact ⟨j - 1, lt_max_iff.2 (by rcases h2 with h | h; exact Or.inl (by omega); exact Or.inr (by omega)), by omega⟩
  · exact List.Nodup.map (fun a b h => by simpa using h) List.nodup_range

/-! ## A concrete model -/

namespace Ex

/-- Two objectives (`x^2` minimized, `3 x` maximized), one constraint `x^3`; the objectives cannot be evaluated for `x = 9`. -/
def nl : Nl ℚ ℚ where
  nVar := 1
  nCon := 1
  nObj := 2
  isMax := fun i => i == 1
  LUv := fun i => if i = 0 then 1 else 5
  LUrhs := fun i => if i = 0 then 0 else 8
  havex0 := fun _ => false
  X0 := fun _ => 0
  havepi0 := fun _ => true
  pi0 := fun _ => 2
  nlc := 1
  nlvo := 1
  nlvc := 1
  xErr := fun x => x == 7
  objval := fun i x => if x = 9 then none else some (if i = 0 then x ^ 2 else 3 * x)
  objgrd := fun i x => some fun _ => if i = 0 then 2 * x else 3
  conval := fun x => some fun _ => x ^ 3
  jacval := fun x => some fun _ => 3 * x ^ 2
  hObj := fun i _ _ => if i = 0 then 2 else 0
  hCon := fun x lam _ => lam 0 * (6 * x)
  junk := fun _ => -1

/-- State after choosing the second objective and evaluating it at 2. -/
def s1 : St ℚ ℚ := (step nl false (step nl false St.new (.setActive 1)).2 (.f 2 true)).2

/-- The histories of the theorems exist. -/
theorem hist : Hist nl false s1 (some 1) (some 2) := by
  have h1 : Hist nl false (step nl false St.new (.setActive 1)).2 (some 1) none :=
    Hist.call Hist.new (.setActive 1) (by show 1 < 2; omega) (by decide)
  exact Hist.call h1 (.f 2 true) (Or.inl rfl) (by decide +kernel)

/-- Maximized objective, minimized internally; gradient and Hessian at a point seen before with a different call. -/
theorem values : (evalF nl false s1 2 false).1 = .val (-6) ∧ (evalGrad nl false s1 2 false).1 = .val (fun _ => -3) ∧
    (evalH nl false s1 2 false 1 (fun _ => 1)).1 = .val (fun _ => 12) ∧ (evalF nl false s1 7 true).1 = .fail := by
  obtain ⟨h1, h2, _⟩ := evaluations hist 2 false (Or.inr rfl)
  obtain ⟨h3, _⟩ := evaluations hist 7 true (Or.inl rfl)
  have h4 := hessian_evaluation hist 2 false (Or.inr rfl) 1 (fun _ => 1) (by decide +kernel) (by decide +kernel)
  refine ⟨?_, ?_, ?_, ?_⟩
  · rw [h1]; simp [answer, minObj, nl]; norm_num
  · rw [h2]; simp [answer, minGrad, nl]
  · rw [h4]; simp only [answer]; simp only [reduceCtorEq, and_false, if_false, Bool.false_eq_true, false_and, Res.val.injEq]; funext k; simp [lagHess, nl]; norm_num
  · rw [h3]; simp [answer, nl, aslError]

/-- The objective cannot be evaluated at 9, but `eval_h` reports success, with meaningless numbers. -/
theorem hessian_of_failed_evaluation : (evalF nl false s1 9 true).1 = .fail ∧
    ∃ v, (evalH nl false s1 9 true 1 (fun _ => 0)).1 = .val v ∧ v 0 ≠ lagHess nl 1 9 1 (fun _ => 0) 0 := by
  refine ⟨?_, ?_⟩
  · obtain ⟨h1, _⟩ := evaluations hist 9 true (Or.inl rfl)
    rw [h1]; simp [answer, minObj, nl, aslError]
  · exact ⟨_, rfl, by decide +kernel⟩

/-- Without a choice the problem is refused. -/
theorem refused : (nlpInfo nl (St.new : St ℚ ℚ)).1 = .exc := by
  have := (objective_choice (Hist.new (P := nl) (halt := false))).2.2.1
  rw [this]; simp [nl]

/-- Optimality of a maximization: maximize `3 x` subject to `x <= 5`: reduced cost 3 at the upper bound. -/
theorem kkt : InternalStationary (K := ℚ) 1 0 (if nl.isMax 1 then -1 else 1) (fun _ => 3) (fun _ _ => 0) (fun _ => 0) (fun _ => 0)
      (fun _ => 3) ∧
    AmplStationary 1 0 (nl.isMax 1) (fun _ => 3) (fun _ _ => 0) (finalize s1 (fun _ => 0) (fun _ => 3) (fun _ => 0)).dual
      (finalize s1 (fun _ => 0) (fun _ => 3) (fun _ => 0)).zL (finalize s1 (fun _ => 0) (fun _ => 3) (fun _ => 0)).zU := by
  have h1 : InternalStationary (K := ℚ) 1 0 (if nl.isMax 1 then -1 else 1) (fun _ => 3) (fun _ _ => 0) (fun _ => 0) (fun _ => 0)
      (fun _ => 3) := by
    refine ⟨fun i _ => ?_, fun i _ => ?_⟩
    · simp [nl]
    · norm_num
  exact ⟨h1, (solution_kkt hist rfl (by decide) 1 0 _ _ _ _ _).1 h1⟩

/-- A structure whose entries are stored in another order than they are listed. -/
theorem structure_example : (([[⟨0, 2⟩, ⟨1, 0⟩], [⟨1, 1⟩]] : List (List CGrad)).flatten.map (·.goff)).Perm (List.range 3) ∧
    (jacStructure [[⟨0, 2⟩, ⟨1, 0⟩], [⟨1, 1⟩]] (fun _ => (0, 0)) 0, jacStructure [[⟨0, 2⟩, ⟨1, 0⟩], [⟨1, 1⟩]] (fun _ => (0, 0)) 2) =
      ((1, 2), (1, 1)) := by
  refine ⟨by decide, by decide⟩

end Ex

end Verif.Ampl
