import Verif.Proof.Mumpsc

/-! # Histories of the MUMPS interface -/

namespace Verif.Mumps
open Verif.AugSolve (Status Structure Known SolvesAll denote Contract Env)

set_option linter.unusedSectionVars false
set_option linter.unusedSimpArgs false
set_option linter.unusedVariables false

variable {K P M : Type} [Field K]
variable {L : Lib K P M} {SymOf : M → Structure → Prop} {FacOf : M → Structure → (Nat → K) → Prop} {inertia : Structure → (Nat → K) → Int}

/-- the analysis in `DetermineDependentRows`. -/
theorem depSymbolic_res (st : St K P M) : ∃ c m b an, (st.depSymbolic L).2 = { st with ctl := c, m := m, haveSym := b, log := an ++ st.log } ∧ c.nul = st.ctl.nul ∧
    (st.haveSym = true → c = st.ctl ∧ m = st.m ∧ an = [] ∧ b = true ∧ (st.depSymbolic L).1 = .success) ∧
    (st.haveSym = false → c = { st.ctl with perm := 0, order := st.order, scal := 6, mem := st.memPercent, tol := st.pivtol } ∧
      ∃ i, an = [⟨1, c, i⟩] ∧ (i, m) = L.analyse c st.n st.nz st.irn st.jcn st.a st.m ∧ b = decide ((st.depSymbolic L).1 = .success) ∧
        (st.depSymbolic L).1 = if i = -6 then .singular else if i < 0 then .fatal else .success) := by
  unfold St.depSymbolic
  by_cases hs : st.haveSym = true
  · rw [if_neg (by simp [hs])]
    exact ⟨st.ctl, st.m, st.haveSym, [], rfl, rfl, fun _ => ⟨rfl, rfl, rfl, hs, rfl⟩, fun e => by simp [hs] at e⟩
  · rw [if_pos (by simpa using hs)]
    obtain ⟨m, i, e1, e2, e3⟩ := symbolic_res (L := L) { st with perm := 0, scal := 6 }
    dsimp only at e1 e3 ⊢
    generalize ({ st with perm := 0, scal := 6 } : St K P M).symbolic L = s at *
    obtain ⟨ss, s⟩ := s
    dsimp only at e1 e2 ⊢
    by_cases h0 : ss = .success
    · rw [if_pos h0, e1]
      refine ⟨_, m, true, [⟨1, { st.ctl with perm := 0, order := st.order, scal := 6, mem := st.memPercent, tol := st.pivtol }, i⟩], rfl, rfl,
        fun e => absurd e hs, fun _ => ⟨rfl, i, rfl, e3, by simp, ?_⟩⟩
      show Status.success = _
      rw [← e2]; exact h0.symm
    · rw [if_neg h0, e1]
      refine ⟨_, m, st.haveSym, [⟨1, { st.ctl with perm := 0, order := st.order, scal := 6, mem := st.memPercent, tol := st.pivtol }, i⟩], rfl, rfl,
        fun e => absurd e hs, fun _ => ⟨rfl, i, rfl, e3, by simpa [h0] using hs, e2⟩⟩

/-- everything about the detection of dependent rows. -/
theorem dependent_res (st : St K P M) : ∃ c m b calls an, (st.dependent L).2.2 = { st with ctl := c, m := m, haveSym := b, log := calls.reverse ++ an ++ st.log } ∧
    (st.depSymbolic L).2.log = an ++ st.log ∧ b = (st.depSymbolic L).2.haveSym ∧
    ((st.dependent L).1 ≠ none → st.ctl.nul = false → c.nul = false) ∧
    (((st.depSymbolic L).1 ≠ .success ∧ calls = [] ∧ (st.dependent L).1 = some (st.depSymbolic L).1 ∧ (st.dependent L).2.1 = [] ∧ c = (st.depSymbolic L).2.ctl ∧
        m = (st.depSymbolic L).2.m) ∨
      ((st.depSymbolic L).1 = .success ∧ ∃ r s', NumRes L { (st.depSymbolic L).2 with
            ctl := { (st.depSymbolic L).2.ctl with nul := true, nulTol := (st.depSymbolic L).2.depTol } } r s' calls ∧ s'.m = m ∧ s'.ctl.tol = c.tol ∧
          (r = none → (st.dependent L).1 = none ∧ (st.dependent L).2.1 = [] ∧ c.nul = true) ∧
          ∀ o, r = some o → (0 ≤ o.info → (st.dependent L).1 = some .success ∧ (st.dependent L).2.1 = o.nulList.map (· - 1)) ∧
            (o.info < 0 → (st.dependent L).1 = some .fatal ∧ (st.dependent L).2.1 = []))) := by
  unfold St.dependent
  obtain ⟨c0, m0, b0, an, e1, e2, _, _⟩ := depSymbolic_res (L := L) st
  generalize hr : st.depSymbolic L = r at *
  obtain ⟨rs, r⟩ := r
  dsimp only at e1 ⊢
  by_cases hs : rs = .success
  · rw [if_neg (by simp [hs])]
    obtain ⟨calls, N⟩ := numeric_res L { r with ctl := { r.ctl with nul := true, nulTol := r.depTol } }
    obtain ⟨mem, m, n1⟩ := N.state
    generalize hq : ({ r with ctl := { r.ctl with nul := true, nulTol := r.depTol } } : St K P M).numeric L = q at *
    obtain ⟨qo, q⟩ := q
    dsimp only at N n1
    cases qo with
    | none =>
      refine ⟨q.ctl, q.m, q.haveSym, calls, an, ?_, by rw [e1], by rw [n1], fun e => absurd rfl e, Or.inr ⟨hs, none, q, N, rfl, rfl,
        fun _ => ⟨rfl, rfl, by rw [n1]⟩, fun o e => by simp at e⟩⟩
      show q = _
      rw [n1, e1]
      simp
    | some o =>
      dsimp only
      have hstate : ({ q with ctl := { q.ctl with nul := false } } : St K P M) = { st with ctl := { q.ctl with nul := false }, m := q.m, haveSym := r.haveSym, log := calls.reverse ++ an ++ st.log } := by
        rw [n1, e1]; simp
      have hsh : Mumps.short o.info = true → o.info < 0 := by
        intro h; unfold Mumps.short at h; simp at h; omega
      by_cases h1 : Mumps.short o.info = true
      · rw [if_pos h1]
        exact ⟨{ q.ctl with nul := false }, q.m, r.haveSym, calls, an, hstate, by rw [e1], rfl, fun _ _ => rfl, Or.inr ⟨hs, some o, q, N, rfl, rfl,
          fun e => by simp at e, fun o' e => by
            simp only [Option.some.injEq] at e
            subst e
            have := hsh h1
            exact ⟨fun h => by omega, fun _ => ⟨rfl, rfl⟩⟩⟩⟩
      · rw [if_neg h1]
        by_cases h2 : o.info < 0
        · rw [if_pos h2]
          exact ⟨{ q.ctl with nul := false }, q.m, r.haveSym, calls, an, hstate, by rw [e1], rfl, fun _ _ => rfl, Or.inr ⟨hs, some o, q, N, rfl, rfl,
            fun e => by simp at e, fun o' e => by
              simp only [Option.some.injEq] at e
              subst e
              exact ⟨fun h => by omega, fun _ => ⟨rfl, rfl⟩⟩⟩⟩
        · rw [if_neg h2]
          exact ⟨{ q.ctl with nul := false }, q.m, r.haveSym, calls, an, hstate, by rw [e1], rfl, fun _ _ => rfl, Or.inr ⟨hs, some o, q, N, rfl, rfl,
            fun e => by simp at e, fun o' e => by
              simp only [Option.some.injEq] at e
              subst e
              exact ⟨fun _ => ⟨rfl, rfl⟩, fun h => by omega⟩⟩⟩
  · rw [if_pos (by simpa using hs)]
    refine ⟨r.ctl, r.m, r.haveSym, [], an, ?_, by rw [e1], rfl, fun _ h => ?_, Or.inl ⟨hs, rfl, rfl, rfl, rfl, rfl⟩⟩
    · show r = _
      rw [e1]; simp
    · show r.ctl.nul = false
      rw [e1]; show c0.nul = false; rw [e2, h]

theorem rep_dependent (LO : LibOK L SymOf FacOf inertia) {st : St K P M} {k : Known K} (h : Rep SymOf FacOf inertia st k) {S : Structure}
    (hk : k.struct = some S) (hn : (st.dependent L).1 ≠ none) : Rep SymOf FacOf inertia (st.dependent L).2.2 (k.afterSolve none false) := by
  have hp := h.struct S hk
  obtain ⟨p1, p2, p3, p4, p5⟩ := h.prev S hp
  obtain ⟨c, m, b, calls, an, e1, _, e2, e3, e4⟩ := dependent_res (L := L) st
  obtain ⟨c0, m0, b0, an0, d1, d2, d3, d4⟩ := depSymbolic_res (L := L) st
  have hsym0 : (st.depSymbolic L).2.haveSym = true → SymOf (st.depSymbolic L).2.m S := by
    intro hb
    rw [d1] at hb ⊢
    dsimp only at hb ⊢
    cases hh : st.haveSym with
    | true =>
      rw [(d3 hh).2.1]
      exact p5 hh
    | false =>
      obtain ⟨q1, i, q2, q3, q4, q5⟩ := d4 hh
      rw [hb] at q4
      have hs : (st.depSymbolic L).1 = .success := by simpa using q4.symm
      rw [hs] at q5
      have hi : 0 ≤ i := by
        by_contra hc
        by_cases h6 : i = -6
        · rw [if_pos h6] at q5; simp at q5
        · rw [if_neg h6, if_pos (by omega)] at q5; simp at q5
      rw [p1, p2, p3, p4] at q3
      have := LO.analyse c0 S st.a st.m
      rw [← q3] at this
      exact this hi
  refine ⟨fun e => by rw [e1]; exact h.warm e, by rw [e1]; exact e3 hn h.nul, fun S' e => ?_, h.struct, fun v e => by simp [Known.afterSolve] at e,
    fun S' v e e' => by simp [Known.afterSolve] at e', fun e => by simp [Known.afterSolve] at e, fun e => by simp [Known.afterSolve] at e⟩
  have hS : S' = S := by
    have : k.prev = some S' := e
    rw [hp] at this; simpa using this.symm
  subst hS
  refine ⟨by rw [e1]; exact p1, by rw [e1]; exact p2, by rw [e1]; exact p3, by rw [e1]; exact p4, fun hb => ?_⟩
  rw [e1] at hb ⊢
  dsimp only at hb ⊢
  rw [e2] at hb
  rcases e4 with ⟨_, _, _, _, _, q⟩ | ⟨_, r, s', N, q, _⟩
  · rw [q]; exact hsym0 hb
  · rw [← q]
    refine N.sym (fun m => SymOf m S') (hsym0 hb) fun c m hm => ?_
    have a1 : (st.depSymbolic L).2.n = S'.dim := by rw [d1]; exact p1
    have a2 : (st.depSymbolic L).2.nz = S'.nnz := by rw [d1]; exact p2
    have a3 : (st.depSymbolic L).2.irn = S'.ia := by rw [d1]; exact p3
    have a4 : (st.depSymbolic L).2.jcn = S'.ja := by rw [d1]; exact p4
    dsimp only
    rw [a1, a2, a3, a4]
    exact LO.keep c S' _ m hm

theorem ran_rep [LinearOrder P] (LO : LibOK L SymOf FacOf inertia) {st : St K P M} {k : Known K} (h : Ran L st k) : Rep SymOf FacOf inertia st k := by
  induction h with
  | start o c m => exact rep_start o c m
  | init o maxSet warm _ ih => exact rep_init o maxSet warm ih
  | struct S _ ha ih =>
    obtain ⟨h1, h2⟩ := rep_struct (L := L) ih S ha
    rw [h1]
    simpa using h2
  | write v _ ih => exact rep_write ih v
  | solve new nrhs arr chk neg _ ha ih =>
    have R := solve_res LO ih ha nrhs arr chk neg
    split
    · rename_i e; exact (R.success e).1
    · rename_i e; exact (R.again e).2.1
    · rename_i e1 e2; exact R.other e1 e2
  | quality _ ih => exact rep_quality ih
  | dependent _ hk _ hn ih => exact rep_dependent LO ih hk hn

/-! ## The protocol of one call -/

/-- what happens in the preparation of a solve, in terms of the calls of MUMPS. -/
theorem prepare_log (chk : Bool) (neg : Nat) (st : St K P M) : ∃ an calls, (st.prepare L chk neg).2.log = calls.reverse ++ an ++ st.log ∧
    (∀ c ∈ an, c.job = 1) ∧
    (st.haveSym = true → an = []) ∧
    (st.haveSym = false → ∃ c, an = [c] ∧ c.ctl.tol = st.pivtol ∧ c.ctl.mem = st.memPercent ∧ c.ctl.perm = st.perm ∧ c.ctl.order = st.order ∧
      c.ctl.scal = st.scal ∧ (c.info < 0 → calls = [] ∧ (st.prepare L chk neg).1 = some (if c.info = -6 then .singular else .fatal))) ∧
    ((∀ c ∈ an, 0 ≤ c.info) → Attempts L.imax 21 (if st.haveSym then st.ctl.mem else st.memPercent) calls ∧
      (∀ c ∈ calls, c.ctl.tol = if st.haveSym then st.ctl.tol else st.pivtol) ∧
      ((st.prepare L chk neg).1 = none → ∀ c ∈ calls, short c.info = true) ∧
      ∀ c, calls.getLast? = some c → (st.prepare L chk neg).1 ≠ none →
        (short c.info = true → calls.length = 21) ∧
        (c.info = -10 → (st.prepare L chk neg).1 = some .singular) ∧
        (c.info < 0 → c.info ≠ -10 → (st.prepare L chk neg).1 = some .fatal) ∧
        (0 ≤ c.info → (st.prepare L chk neg).1 = some .success ∨ (chk = true ∧ (st.prepare L chk neg).1 = some .wrongInertia))) := by
  unfold St.prepare
  -- the second part
  have key : ∀ (rst : St K P M) (f : Option Status × St K P M), f = rst.factorize L chk neg →
      ∃ calls, (if f.1 = some .success then (f.1, { f.2 with refactorize := false }) else f).2.log = calls.reverse ++ rst.log ∧
      Attempts L.imax 21 rst.ctl.mem calls ∧ (∀ c ∈ calls, c.ctl.tol = rst.ctl.tol) ∧
      (if f.1 = some .success then (f.1, { f.2 with refactorize := false }) else f).1 = f.1 ∧
      (f.1 = none → ∀ c ∈ calls, short c.info = true) ∧
      ∀ c, calls.getLast? = some c → f.1 ≠ none →
        (short c.info = true → calls.length = 21) ∧
        (c.info = -10 → f.1 = some .singular) ∧
        (c.info < 0 → c.info ≠ -10 → f.1 = some .fatal) ∧
        (0 ≤ c.info → f.1 = some .success ∨ (chk = true ∧ f.1 = some .wrongInertia)) := by
    intro rst f hf
    subst hf
    obtain ⟨calls, N⟩ := numeric_res L rst
    obtain ⟨f1, g, f2, _⟩ := factorize_eq L chk neg rst
    obtain ⟨mem, m, n1⟩ := N.state
    refine ⟨calls, ?_, N.att, fun c hc => ?_, by split <;> rfl, fun e => ?_, fun c hc hne => ?_⟩
    · have : (if (rst.factorize L chk neg).1 = some .success then ((rst.factorize L chk neg).1, { (rst.factorize L chk neg).2 with refactorize := false })
          else rst.factorize L chk neg).2.log = (rst.factorize L chk neg).2.log := by split <;> rfl
      rw [this, f2]
      show (rst.numeric L).2.log = _
      rw [n1]
    · obtain ⟨mm, e⟩ := N.ctl c hc; rw [e]
    · refine (N.fails ?_).1
      rw [f1] at e
      cases hq : (rst.numeric L).1 with
      | none => rfl
      | some o => rw [hq] at e; simp [verdict] at e
    · obtain ⟨o, ho⟩ : ∃ o, (rst.numeric L).1 = some o := by
        cases hq : (rst.numeric L).1 with
        | none => rw [f1, hq] at hne; simp [verdict] at hne
        | some o => exact ⟨o, rfl⟩
      have hi := N.last c hc o ho
      rw [f1, ho]
      simp only [verdict, Option.map_some, Option.some.injEq]
      refine ⟨fun hsh => N.short o ho (by rw [← hi]; exact hsh), fun h => by rw [if_pos (by omega)], fun h h' => by rw [if_neg (by omega), if_pos (by omega)], fun h => ?_⟩
      rw [if_neg (by omega), if_neg (by omega)]
      by_cases hc : (chk = true ∧ (neg : Int) ≠ o.neg)
      · rw [if_pos hc]; exact Or.inr ⟨hc.1, rfl⟩
      · rw [if_neg hc]; exact Or.inl rfl
  dsimp only
  generalize hr : (if (!st.haveSym) = true then
      if (st.symbolic L).1 = .success then (Status.success, { (st.symbolic L).2 with haveSym := true }) else st.symbolic L
      else (Status.success, st)) = r
  by_cases hs : st.haveSym = true
  · rw [if_neg (by simp [hs])] at hr
    subst hr
    simp only [ne_eq, not_true_eq_false, if_false]
    obtain ⟨calls, k1, k2, k3, k4, k5, k6⟩ := key st _ rfl
    refine ⟨[], calls, by simpa using k1, fun c h => by simp at h, fun _ => rfl, fun e => by simp [hs] at e, fun _ => ⟨by simpa [hs] using k2, by simpa [hs] using k3, ?_, ?_⟩⟩
    · rw [k4]; exact k5
    · rw [k4]; exact k6
  · have hs' : st.haveSym = false := by simpa using hs
    rw [if_pos (by simp [hs'])] at hr
    obtain ⟨m, i, e1, e2, e3⟩ := symbolic_res (L := L) st
    generalize st.symbolic L = s at *
    obtain ⟨ss, s⟩ := s
    dsimp only at e1 e2 hr
    by_cases h0 : ss = .success
    · have hi : 0 ≤ i := by
        rw [h0] at e2
        by_contra hc
        by_cases h6 : i = -6
        · rw [if_pos h6] at e2; simp at e2
        · rw [if_neg h6, if_pos (by omega)] at e2; simp at e2
      rw [if_pos h0] at hr
      subst hr
      simp only [ne_eq, not_true_eq_false, if_false]
      obtain ⟨calls, k1, k2, k3, k4, k5, k6⟩ := key { s with haveSym := true } _ rfl
      refine ⟨[⟨1, { st.ctl with perm := st.perm, order := st.order, scal := st.scal, mem := st.memPercent, tol := st.pivtol }, i⟩], calls, ?_, ?_, fun e => absurd e hs, fun _ => ?_,
        fun _ => ⟨?_, ?_, by rw [k4]; exact k5, by rw [k4]; exact k6⟩⟩
      · rw [k1]; dsimp only; rw [e1]; simp
      · intro c hc; simp only [List.mem_singleton] at hc; rw [hc]
      · exact ⟨_, rfl, rfl, rfl, rfl, rfl, rfl, fun h => by dsimp only at h; omega⟩
      · rw [if_neg hs]; rw [e1] at k2; exact k2
      · rw [if_neg hs]; rw [e1] at k3; exact k3
    · rw [if_neg h0] at hr
      subst hr
      simp only [ne_eq, h0, not_false_eq_true, if_true]
      refine ⟨[⟨1, { st.ctl with perm := st.perm, order := st.order, scal := st.scal, mem := st.memPercent, tol := st.pivtol }, i⟩], [], ?_, ?_, fun e => absurd e hs, fun _ => ?_, ?_⟩
      · rw [e1]; simp
      · intro c hc; simp only [List.mem_singleton] at hc; rw [hc]
      · refine ⟨_, rfl, rfl, rfl, rfl, rfl, rfl, fun h => ⟨rfl, ?_⟩⟩
        dsimp only at h ⊢
        rw [e2]
        congr 1
        simp [h]
      · intro h
        exfalso
        have := h _ (List.mem_singleton.2 rfl)
        dsimp only at this
        apply h0
        rw [e2, if_neg (by omega), if_neg (by omega)]

end Verif.Mumps
