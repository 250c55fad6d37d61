import Verif.Proof.Mumpsf
import Verif.Proof.MumpsDemo
import Verif.Props.Ma27

/-! # C80: the interface to MUMPS

Histories of calls of the interface class, including the detection of dependent rows, with any answers of MUMPS; and the whole stack
augmented system solver, linear solver, MUMPS interface. -/

namespace Verif.Mumps
open Verif.AugSolve (Status Structure Known SolvesAll denote Contract TSym Env End Reach Hist Args Quad SolvesQuad State)
open Verif.Ma27 (statusOf statusOf_iff reach_mono demoStruct demoMat demoArgs demoRhs demoSol demoInertia)
open Verif.Matrix (Mat)

set_option linter.unusedSectionVars false
set_option linter.unusedSimpArgs false
set_option linter.unusedVariables false

section
variable {K P M : Type} [Field K] [LinearOrder P]
variable {L : Lib K P M} {SymOf : M → Structure → Prop} {FacOf : M → Structure → (Nat → K) → Prop} {inertia : Structure → (Nat → K) → Int}

/-- C80: the interface keeps the contract on which C60 relies. -/
theorem mumps_contract {B : Type} (LO : LibOK L SymOf FacOf inertia) (o : Opts P) (maxSet : Bool)
    (scale : Option (Nat → Nat → (Nat → Nat) → (Nat → Nat) → (Nat → K) → Option (Nat → K)))
    (hsc : ∀ g, scale = some g → ∀ d n ir jc a f, g d n ir jc a = some f → ∀ i, i < d → f i ≠ 0)
    (E : Env K B) (hE : ∀ t, CSR.SortedEntries t (E.sort t)) :
    ∃ Rep : St K P M → Known K → Prop, Contract (env L o maxSet scale E) Rep ∧ ∀ c m, Rep (St.start o c m L) Known.fresh :=
  ⟨_, contract LO o maxSet scale hsc E hE, fun c m => rep_start o c m⟩

/-- C80: with MUMPS below, a successful `MultiSolve` of the augmented system solver solves the system of the call, after every history of
calls that starts with a new object. -/
theorem mumps_solution [DecidableEq K] {B : Type} (LO : LibOK L SymOf FacOf inertia) (o : Opts P)
    (maxSet : Bool) (scale : Option (Nat → Nat → (Nat → Nat) → (Nat → Nat) → (Nat → K) → Option (Nat → K)))
    (hsc : ∀ g, scale = some g → ∀ d n ir jc a f, g d n ir jc a = some f → ∀ i, i < d → f i ≠ 0)
    (E : Env K B) (hE : ∀ t, CSR.SortedEntries t (E.sort t)) {matOf : Nat → Mat K} {vecOf : Nat → List K} {s : State K (St K P M)} {h : Hist K}
    (R : Reach (env L o maxSet scale E) (fun st _ => ∃ c m, st = St.start o c m L) matOf vecOf s h)
    {a : Args K} {rhs sol : List (Quad K)} (A : h.Allows matOf vecOf a rhs sol) (fuel : Nat) (chk : Bool) (neg : Nat) {out : List (Quad K)}
    {s' : State K (St K P M)} (hcall : s.multiSolve (env L o maxSet scale E) matOf vecOf fuel a rhs sol chk neg = (.ret .success, out, s')) :
    out.length = sol.length ∧ ∀ i (h1 : i < rhs.length) (h2 : i < out.length),
      (out[i]).Dim (a.contents matOf vecOf) ∧ SolvesQuad (a.contents matOf vecOf) out[i] rhs[i] := by
  have C := contract LO o maxSet scale hsc E hE
  have R' : Reach (env L o maxSet scale E) (Rep SymOf FacOf inertia) matOf vecOf s h :=
    reach_mono (fun b ⟨c, m, hb⟩ => by rw [hb]; exact rep_start o c m) R
  obtain ⟨e, ot, s2, h1, _, _, h2⟩ := AugSolve.multiSolve_correct C (AugSolve.reach_inv C R') A fuel chk neg
  rw [hcall] at h1
  cases h1
  exact h2 rfl

/-- C80: the object asks at most once to be called again: afterwards only if `IncreaseQuality` has been called in between. -/
theorem mumps_call_again_once (st : St K P M) (new : Bool) (nrhs : Nat) (arr : Nat → K) (chk : Bool) (neg : Nat)
    (h : (st.multiSolve L new nrhs arr chk neg).1 = some .callAgain) (v : Nat → K) (new' : Bool) (nrhs' : Nat) (arr' : Nat → K) (chk' : Bool) (neg' : Nat) :
    (((st.multiSolve L new nrhs arr chk neg).2.2.write v).multiSolve L new' nrhs' arr' chk' neg').1 ≠ some .callAgain := by
  intro hc
  have h1 := (again_changed _ _ _ _ _ _ h).2
  have h2 := (again_changed _ _ _ _ _ _ hc).1
  simp [St.write, h1] at h2

/-- C80: and the call of the augmented system solver comes to an end: two passes of the CALL_AGAIN loop are enough. -/
theorem mumps_ends [DecidableEq K] {B : Type} (o : Opts P) (maxSet : Bool) (scale : Option (Nat → Nat → (Nat → Nat) → (Nat → Nat) → (Nat → K) → Option (Nat → K)))
    (E : Env K B) (matOf : Nat → Mat K) (vecOf : Nat → List K) (s : State K (St K P M))
    (a : Args K) (rhs sol : List (Quad K)) (fuel : Nat) (hf : 2 ≤ fuel) (chk : Bool) (neg : Nat) :
    (s.multiSolve (env L o maxSet scale E) matOf vecOf fuel a rhs sol chk neg).1 ≠ .running := by
  refine Ma27.multiSolve_ends (env L o maxSet scale E) (fun _ => True) (fun st => if st.pivtolChanged then 1 else 0) 1 ?_ ?_ ?_ ?_ ?_
    matOf vecOf fuel (by omega) a rhs sol chk neg s trivial
  · intro v b _; exact ⟨trivial, le_refl _⟩
  · intro d n ir jc a b _; exact ⟨trivial, le_refl _⟩
  · intro new ia ja nrhs arr chk neg b _ hs
    obtain ⟨h1, h2⟩ := again_changed b new nrhs arr chk neg ((statusOf_iff _ _ (by simp)).1 hs)
    refine ⟨trivial, ?_⟩
    show (if (b.multiSolve L new nrhs arr chk neg).2.2.pivtolChanged = true then 1 else 0) < _
    rw [h2, h1]; simp
  · intro d n ia ja b _; trivial
  · intro b; split <;> omega

/-- C80: a solve that succeeds delivers solutions for all right-hand sides: with the values written since the last solve, otherwise with the
matrix of the last successful solve; the number of negative eigenvalues reported afterwards is that of this matrix. -/
theorem mumps_solve_success (LO : LibOK L SymOf FacOf inertia) {st : St K P M} {k : Known K} (R : Ran L st k)
    {S : Structure} {new : Bool} (ha : k.AllowsSolve S new) (hsome : k.array.isSome ∨ k.held.isSome ∨ k.raised = true)
    (nrhs : Nat) (arr : Nat → K) (chk : Bool) (neg : Nat) {out : Nat → K} {st' : St K P M}
    (h : st.multiSolve L new nrhs arr chk neg = (some .success, out, st')) :
    ∃ v, k.array.or k.held = some v ∧ SolvesAll .triplet S v nrhs out arr ∧ st'.neg = inertia S v := by
  have X := solve_res LO (ran_rep LO R) ha nrhs arr chk neg
  rw [h] at X
  exact (X.success rfl).2.1 hsome

/-- C80: if new values were written and the inertia is to be checked, success means that the matrix has the wanted number of negative
eigenvalues, … -/
theorem mumps_inertia_ok (LO : LibOK L SymOf FacOf inertia) {st : St K P M} {k : Known K} (R : Ran L st k)
    {S : Structure} {new : Bool} (ha : k.AllowsSolve S new) {v : Nat → K}
    (hv : k.array = some v) (nrhs : Nat) (arr : Nat → K) (neg : Nat) {out : Nat → K} {st' : St K P M}
    (h : st.multiSolve L new nrhs arr true neg = (some .success, out, st')) : inertia S v = neg := by
  have X := solve_res LO (ran_rep LO R) ha nrhs arr true neg
  rw [h] at X
  obtain ⟨_, x2, x3⟩ := X.success rfl
  obtain ⟨w, e1, _, e2⟩ := x2 (Or.inl (by rw [hv]; rfl))
  rw [hv] at e1
  simp only [Option.some_or, Option.some.injEq] at e1
  subst e1
  rw [← e2]
  exact x3 (by rw [hv]; rfl) rfl

/-- C80: … and WRONG_INERTIA that it has not, and that the check was asked for. -/
theorem mumps_inertia_wrong (LO : LibOK L SymOf FacOf inertia) {st : St K P M} {k : Known K} (R : Ran L st k)
    {S : Structure} {new : Bool} (ha : k.AllowsSolve S new) {v : Nat → K}
    (hv : k.array = some v) (nrhs : Nat) (arr : Nat → K) (chk : Bool) (neg : Nat) {out : Nat → K} {st' : St K P M}
    (h : st.multiSolve L new nrhs arr chk neg = (some .wrongInertia, out, st')) : inertia S v ≠ neg ∧ chk = true := by
  have X := solve_res LO (ran_rep LO R) ha nrhs arr chk neg
  rw [h] at X
  obtain ⟨x1, x2⟩ := X.wrong rfl
  exact ⟨x2 v hv, x1⟩

/-- C80: the calls of MUMPS made by a solve with a new matrix.  At most one analysis, only if there is none yet; then at most 21
factorizations, the memory setting being doubled (up to the largest Index) as long as MUMPS complains about too little memory; then, if the
factorization was good, one call per right-hand side, also after an error.  The status follows from the answers. -/
theorem mumps_attempts (st : St K P M) (nrhs : Nat) (arr : Nat → K) (chk : Bool) (neg : Nat) :
    ∃ an calls sol, (st.multiSolve L true nrhs arr chk neg).2.2.log = sol ++ calls.reverse ++ an ++ st.log ∧
      (∀ c ∈ an, c.job = 1) ∧ (st.haveSym = true → an = []) ∧
      (st.haveSym = false → ∃ c, an = [c] ∧ c.ctl.tol = st.pivtol ∧ c.ctl.mem = st.memPercent ∧ c.ctl.perm = st.perm ∧ c.ctl.order = st.order ∧
        c.ctl.scal = st.scal ∧
        (c.info < 0 → calls = [] ∧ sol = [] ∧ (st.multiSolve L true nrhs arr chk neg).1 = some (if c.info = -6 then .singular else .fatal))) ∧
      ((∀ c ∈ an, 0 ≤ c.info) → Attempts L.imax 21 (if st.haveSym then st.ctl.mem else st.memPercent) calls ∧
        ((st.multiSolve L true nrhs arr chk neg).1 = none → ∀ c ∈ calls, c.info = -8 ∨ c.info = -9) ∧
        ∀ c, calls.getLast? = some c → (st.multiSolve L true nrhs arr chk neg).1 ≠ none →
          (c.info = -8 ∨ c.info = -9 → calls.length = 21) ∧
          (c.info = -10 → (st.multiSolve L true nrhs arr chk neg).1 = some .singular) ∧
          (c.info < 0 → c.info ≠ -10 → (st.multiSolve L true nrhs arr chk neg).1 = some .fatal) ∧
          (c.info < 0 → sol = []) ∧
          (0 ≤ c.info → (chk = true ∧ sol = [] ∧ (st.multiSolve L true nrhs arr chk neg).1 = some .wrongInertia) ∨
            (sol.length = nrhs ∧ (∀ d ∈ sol, d.job = 3) ∧ ((∀ d ∈ sol, 0 ≤ d.info) → (st.multiSolve L true nrhs arr chk neg).1 = some .success) ∧
              ((∃ d ∈ sol, d.info < 0) → (st.multiSolve L true nrhs arr chk neg).1 = some .fatal)))) := by
  have sh : ∀ i : Int, short i = true ↔ i = -8 ∨ i = -9 := fun i => by simp [short]
  rw [multiSolve_prep st true (Or.inl rfl)]
  obtain ⟨an, calls, p1, p2, p3, p4, p5⟩ := prepare_log (L := L) chk neg { st with pivtolChanged := false }
  generalize ({ st with pivtolChanged := false } : St K P M).prepare L chk neg = r at *
  obtain ⟨sol, f1, f2, f3, f4⟩ := finish_log (L := L) nrhs arr r
  generalize finish L nrhs arr r = f at *
  dsimp only at p1 p2 p3 p4 p5
  have hnone : f.1 = none ↔ r.1 = none := by
    by_cases hr : r.1 = some .success
    · obtain ⟨_, a, b⟩ := f3 hr
      rw [hr]
      by_cases hall : ∀ c ∈ sol, 0 ≤ c.info
      · rw [a hall]
      · push Not at hall; rw [b hall]; simp
    · rw [(f4 hr).2.1]
  refine ⟨an, calls, sol, by rw [f1, p1]; simp, p2, p3, fun hs => ?_, fun han => ?_⟩
  · obtain ⟨c, q1, q2, q3, q4, q5, q6, q7⟩ := p4 hs
    refine ⟨c, q1, q2, q3, q4, q5, q6, fun hc => ?_⟩
    obtain ⟨q8, q9⟩ := q7 hc
    have : r.1 ≠ some .success := by rw [q9]; split <;> simp
    exact ⟨q8, (f4 this).1, by rw [(f4 this).2.1, q9]⟩
  · obtain ⟨q1, q2, q3, q4⟩ := p5 han
    refine ⟨q1, fun hn c hc => (sh _).1 (q3 (hnone.1 hn) c hc), fun c hc hn => ?_⟩
    obtain ⟨w1, w2, w3, w4⟩ := q4 c hc (fun e => hn (hnone.2 e))
    refine ⟨fun h => w1 ((sh _).2 h), fun h => ?_, fun h h' => ?_, fun h => ?_, fun h => ?_⟩
    · have := w2 h; rw [(f4 (by rw [this]; simp)).2.1, this]
    · have := w3 h h'; rw [(f4 (by rw [this]; simp)).2.1, this]
    · by_cases h' : c.info = -10
      · exact (f4 (by rw [w2 h']; simp)).1
      · exact (f4 (by rw [w3 h h']; simp)).1
    · rcases w4 h with e | ⟨e1, e2⟩
      · obtain ⟨a, b, c⟩ := f3 e
        exact Or.inr ⟨a, f2, b, c⟩
      · obtain ⟨a, b, c⟩ := f4 (by rw [e2]; simp)
        exact Or.inl ⟨e1, a, by rw [b, e2]⟩

/-- C80: consequences for such a list of factorizations: at most `k` calls; memory settings never below the first and never above the largest
Index; but with the setting 0 (`mumps_mem_percent` = 0) all attempts are alike. -/
theorem mumps_attempts_memory {imax k mem : Nat} {calls : List (Call P)} (h : Attempts imax k mem calls) : calls ≠ [] ∧ calls.length ≤ k ∧
    (mem ≤ imax → ∀ c ∈ calls, mem ≤ c.ctl.mem ∧ c.ctl.mem ≤ imax) ∧ (mem = 0 → ∀ c ∈ calls, c.ctl.mem = 0) :=
  ⟨att_ne h, att_length h, att_mono h, att_zero h⟩

/-- C80: in every history, each factorization uses the pivot tolerance of the latest analysis before it, not the current one. -/
theorem mumps_tolerance {st : St K P M} {k : Known K} (R : Ran L st k) : Faithful st.log := (ran_tol R).all

/-- C80: therefore `IncreaseQuality` does not improve anything: once the structure has been analysed, the CALL_AGAIN cycle that it leads to
(a first call refused, the values written once more, a second call) gives the same status, the same output, the same factors and the same
calls of MUMPS as writing the values and solving without the increase. -/
theorem mumps_quality_no_effect (st : St K P M) (hs : st.haveSym = true) (hq : (st.quality L).1 = true) (v : Nat → K) (nrhs : Nat) (arr : Nat → K) (chk : Bool) (neg : Nat)
    (arr0 : Nat → K) (chk0 : Bool) (neg0 : Nat) (nrhs0 : Nat) :
    ((st.quality L).2.multiSolve L false nrhs0 arr0 chk0 neg0).1 = some .callAgain ∧
    ∀ new, (((((st.quality L).2.multiSolve L false nrhs0 arr0 chk0 neg0).2.2).write v).multiSolve L new nrhs arr chk neg).1 = ((st.write v).multiSolve L true nrhs arr chk neg).1 ∧
      (((((st.quality L).2.multiSolve L false nrhs0 arr0 chk0 neg0).2.2).write v).multiSolve L new nrhs arr chk neg).2.1 = ((st.write v).multiSolve L true nrhs arr chk neg).2.1 ∧
      (((((st.quality L).2.multiSolve L false nrhs0 arr0 chk0 neg0).2.2).write v).multiSolve L new nrhs arr chk neg).2.2.m = ((st.write v).multiSolve L true nrhs arr chk neg).2.2.m ∧
      (((((st.quality L).2.multiSolve L false nrhs0 arr0 chk0 neg0).2.2).write v).multiSolve L new nrhs arr chk neg).2.2.log = ((st.write v).multiSolve L true nrhs arr chk neg).2.2.log := by
  have hne : st.pivtol ≠ st.pivtolmax := by
    intro e; unfold St.quality at hq; rw [if_pos e] at hq; simp at hq
  have e1 : (st.quality L).2 = { st with pivtolChanged := true, pivtol := min st.pivtolmax (L.raisePow st.pivtol) } := by
    unfold St.quality; rw [if_neg hne]
  have e2 : (st.quality L).2.multiSolve L false nrhs0 arr0 chk0 neg0 = (some .callAgain, arr0,
      { st with pivtolChanged := false, pivtol := min st.pivtolmax (L.raisePow st.pivtol), refactorize := true }) := by
    rw [e1]; unfold St.multiSolve; rw [if_pos ⟨rfl, rfl⟩]
  rw [e2]
  refine ⟨rfl, fun new => ?_⟩
  have X := solve_with (L := L) (min st.pivtolmax (L.raisePow st.pivtol)) true ({ st with pivtolChanged := false, a := v } : St K P M) hs new
    (Or.inr ⟨rfl, rfl⟩) nrhs arr chk neg
  have e3 : ({ st with pivtolChanged := false, a := v } : St K P M).multiSolve L true nrhs arr chk neg = (st.write v).multiSolve L true nrhs arr chk neg := by
    rw [multiSolve_prep _ true (Or.inl rfl), multiSolve_prep _ true (Or.inl rfl)]; rfl
  rw [e3] at X
  exact ⟨X.1, X.2.1, X.2.2.1, X.2.2.2.2⟩

/-- C80: `IncreaseQuality` refuses exactly when the maximal pivot tolerance is reached; otherwise the next solve, if the matrix is not new,
asks for its values. -/
theorem mumps_quality (st : St K P M) : ((st.quality L).1 = false ↔ st.pivtol = st.pivtolmax) ∧ ((st.quality L).1 = false → (st.quality L).2 = st) ∧
    ((st.quality L).1 = true → ∀ nrhs arr chk neg, ((st.quality L).2.multiSolve L false nrhs arr chk neg).1 = some .callAgain ∧
      ((st.quality L).2.multiSolve L false nrhs arr chk neg).2.1 = arr) := by
  unfold St.quality
  by_cases h : st.pivtol = st.pivtolmax
  · rw [if_pos h]; exact ⟨by simp [h], fun _ => rfl, fun e => by simp at e⟩
  · rw [if_neg h]
    refine ⟨by simp [h], fun e => by simp at e, fun _ nrhs arr chk neg => ?_⟩
    unfold St.multiSolve
    rw [if_pos ⟨rfl, rfl⟩]
    exact ⟨rfl, rfl⟩

/-- C80: `Initialize` succeeds only with a maximal pivot tolerance that is not below the pivot tolerance, and the structure will be analysed
again. -/
theorem mumps_pivtol_init (o : Opts P) (maxSet warm : Bool) (st : St K P M) (h : (st.init o maxSet warm).1 = true) :
    (st.init o maxSet warm).2.pivtol = o.pivtol ∧ o.pivtol ≤ (st.init o maxSet warm).2.pivtolmax ∧ (st.init o maxSet warm).2.haveSym = false ∧
      (st.init o maxSet warm).2.pivtolChanged = false ∧ (st.init o maxSet warm).2.refactorize = false := by
  unfold St.init at h ⊢
  split
  · rename_i hc; rw [if_pos hc] at h; simp at h
  · rename_i hc
    have : o.pivtol ≤ (if maxSet = true then o.pivtolmax else max o.pivtolmax o.pivtol) := by
      split
      · rename_i hm
        simp only [hm, Bool.true_and, Bool.not_eq_true', decide_eq_false_iff_not, not_not] at hc
        exact hc
      · exact le_max_right _ _
    dsimp only
    split <;> exact ⟨rfl, this, rfl, rfl, rfl⟩

/-- C80: the detection of dependent rows.  On success, MUMPS has factorized the matrix written before with null pivot detection switched on and
the tolerance from the options, and the result is its list, counted from 0; otherwise the result is empty.  The structure is analysed with
`permuting` and `scaling` options 0 and 6 if it has not been analysed before; these options and all others are unchanged afterwards, and null
pivot detection is off again unless an exception was thrown. -/
theorem mumps_dependent (st : St K P M) :
    ((st.dependent L).1 = some .success → ∃ c m, c.nul = true ∧ c.nulTol = st.depTol ∧ 0 ≤ (L.factor c st.n st.nz st.irn st.jcn st.a m).info ∧
      (st.dependent L).2.1 = (L.factor c st.n st.nz st.irn st.jcn st.a m).nulList.map (· - 1) ∧
      (st.haveSym = false → c.perm = 0 ∧ c.scal = 6)) ∧
    ((st.dependent L).1 ≠ some .success → (st.dependent L).2.1 = []) ∧
    ((st.dependent L).2.2.perm = st.perm ∧ (st.dependent L).2.2.order = st.order ∧ (st.dependent L).2.2.scal = st.scal ∧ (st.dependent L).2.2.memPercent = st.memPercent ∧
      (st.dependent L).2.2.pivtol = st.pivtol ∧ (st.dependent L).2.2.a = st.a) ∧
    (st.ctl.nul = false → (st.dependent L).1 ≠ none → (st.dependent L).2.2.ctl.nul = false) := by
  obtain ⟨c, m, b, calls, an, e1, _, _, e3, e4⟩ := dependent_res (L := L) st
  obtain ⟨c0, m0, b0, an0, d1, d2, d3, d4⟩ := depSymbolic_res (L := L) st
  refine ⟨fun hs => ?_, fun hs => ?_, ?_, fun hn hx => ?_⟩
  · rcases e4 with ⟨h1, _, h2, _⟩ | ⟨h1, r, s', N, _, _, h3, h4⟩
    · rw [h2] at hs; exact absurd (by simpa using hs) h1
    · cases r with
      | none => rw [(h3 rfl).1] at hs; simp at hs
      | some o =>
        obtain ⟨g1, g2⟩ := h4 o rfl
        have ho : 0 ≤ o.info := by
          by_contra hc
          rw [(g2 (by omega)).1] at hs; simp at hs
        obtain ⟨m1, _, q1, _⟩ := N.answer o rfl
        obtain ⟨mem, m2, q2⟩ := N.state
        rw [d1] at q1 q2
        dsimp only at q1 q2
        rw [q1] at ho g1
        have hc : s'.ctl = { c0 with nul := true, nulTol := st.depTol, mem := mem } := by rw [q2]
        refine ⟨s'.ctl, m1, by rw [hc], by rw [hc], ho, (g1 ho).2, fun hh => ?_⟩
        rw [hc, (d4 hh).1]; exact ⟨rfl, rfl⟩
  · rcases e4 with ⟨h1, _, h2, h3, _⟩ | ⟨h1, r, s', N, _, _, h3, h4⟩
    · exact h3
    · cases r with
      | none => exact (h3 rfl).2.1
      | some o =>
        obtain ⟨g1, g2⟩ := h4 o rfl
        by_cases ho : 0 ≤ o.info
        · exact absurd (g1 ho).1 hs
        · exact (g2 (by omega)).2
  · rw [e1]; exact ⟨rfl, rfl, rfl, rfl, rfl, rfl⟩
  · rw [e1]; exact e3 hx hn

end

section Pivot
variable {K M : Type} [Field K]

/-- C80: with the power 1/2 and a maximal pivot tolerance below 1, the pivot tolerance never decreases and never exceeds its maximum, and
`IncreaseQuality` can be successful only a bounded number of times between two initializations, whatever happens in between. -/
theorem mumps_quality_finite (L : Lib K ℝ M) (hL : L.raisePow = fun x => x ^ (1 / 2 : ℝ)) (st : St K ℝ M) (h0 : 0 < st.pivtol)
    (h1 : st.pivtol ≤ st.pivtolmax) (h2 : st.pivtolmax < 1) :
    (∀ n st', Later L st n st' → st.pivtol ≤ st'.pivtol ∧ st'.pivtol ≤ st.pivtolmax ∧ st'.pivtolmax = st.pivtolmax) ∧
    ∃ N, ∀ n st', Later L st n st' → n ≤ N := by
  refine ⟨fun n st' h => ?_, ?_⟩
  · obtain ⟨a1, a2, a3, _⟩ := later_pivtol hL h h0 h1 h2
    exact ⟨a2, a3, a1⟩
  · obtain ⟨N, hN⟩ := quality_bound h0 h1 h2
    refine ⟨N, fun n st' h => ?_⟩
    by_contra hc
    obtain ⟨_, _, _, _, a5⟩ := later_pivtol hL h h0 h1 h2
    have := a5 (by omega)
    rw [min_eq_left (hN (n - 1) (by omega))] at this
    exact lt_irrefl _ this

end Pivot

/-! ## Concrete histories -/

/-- needs the memory setting 100: two more attempts. -/
abbrev okLib : Lib ℚ ℚ ℚ := demoLib 100

/-- after initialization and structure, … -/
def demo0 : St ℚ ℚ ℚ := ((St.start demoOpts demoCtl 0 okLib).init demoOpts false false).2
@[inherit_doc demo0] def demo1 : St ℚ ℚ ℚ := (demo0.initStructure okLib 1 1 (fun _ => 1) (fun _ => 1)).2
/-- … dependent rows of the matrix 0 are looked for, … -/
def demo2 : St ℚ ℚ ℚ := (demo1.write (fun _ => 0)).dependent okLib |>.2.2
/-- … then systems with the matrix -4 are solved. -/
def demo3 : St ℚ ℚ ℚ := demo2.write (fun _ => -4)
@[inherit_doc demo3] def demo4 : St ℚ ℚ ℚ := (demo3.multiSolve okLib true 2 (fun i => 8 + 4 * i) true 1).2.2

theorem demo_run : ((St.start demoOpts demoCtl 0 okLib).init demoOpts false false).1 = true ∧
    (demo0.initStructure okLib 1 1 (fun _ => 1) (fun _ => 1)).1 = some .success ∧
    ((demo1.write (fun _ => 0)).dependent okLib).1 = some .success ∧ ((demo1.write (fun _ => 0)).dependent okLib).2.1 = [0] ∧
    (demo3.multiSolve okLib true 2 (fun i => 8 + 4 * i) true 1).1 = some .success ∧
    (List.range 2).map (demo3.multiSolve okLib true 2 (fun i => 8 + 4 * i) true 1).2.1 = [-2, -3] ∧
    demo4.neg = 1 ∧ demo4.log.map (fun c => (c.job, c.ctl.mem, c.ctl.nul, c.info)) =
      [(3, 120, false, 0), (3, 120, false, 0), (2, 120, false, 0), (2, 120, true, 0), (2, 60, true, -9), (2, 30, true, -9), (1, 30, false, 0)] ∧
    (demo3.multiSolve okLib true 2 (fun i => 8 + 4 * i) true 0).1 = some .wrongInertia ∧
    ((demo3.write fun _ => 0).multiSolve okLib true 2 (fun i => 8 + 4 * i) true 0).1 = some .singular := by
  decide +kernel

/-- the state before the solve is reached by a history, with values written, and the solve is allowed. -/
theorem demo_ran : ∃ k, Ran okLib demo3 k ∧ k.array = some (fun _ => -4) ∧ k.AllowsSolve demoStruct true := by
  obtain ⟨v1, v2, v3, _⟩ := demo_run
  have r0 := Ran.init (L := okLib) demoOpts false false (Ran.start (L := okLib) demoOpts demoCtl 0)
  rw [v1] at r0
  have r1 := Ran.struct demoStruct r0 ⟨rfl, fun e => by simp [Known.afterInit] at e⟩
  have v2' : (demo0.initStructure okLib demoStruct.dim demoStruct.nnz demoStruct.ia demoStruct.ja).1 = some .success := v2
  simp only [show ((St.start demoOpts demoCtl 0 okLib).init demoOpts false false).2 = demo0 from rfl, v2'] at r1
  have r2 := Ran.write (fun _ => 0) r1
  have r3 := Ran.dependent (L := okLib) (S := demoStruct) r2 (by rfl) rfl
    (by show ((demo1.write (fun _ => 0)).dependent okLib).1 ≠ none; rw [v3]; simp)
  have r4 := Ran.write (fun _ => -4) r3
  exact ⟨_, r4, rfl, by exact ⟨rfl, fun _ => rfl, fun _ => Or.inl rfl⟩⟩

/-- the hypotheses of `mumps_quality_no_effect` are met; the tolerance is doubled here, but the factorization does not see it. -/
theorem demo_quality : demo4.haveSym = true ∧ (demo4.quality okLib).1 = true ∧ (demo4.quality okLib).2.pivtol = 1 / 500000 ∧
    ((((demo4.quality okLib).2.multiSolve okLib false 1 (fun _ => 8) true 1).2.2.write (fun _ => -4)).multiSolve okLib false 1 (fun _ => 8) true 1).2.2.log.map
      (fun c => (c.job, decide (c.ctl.tol = 1 / 1000000))) = [3, 2, 3, 3, 2, 2, 2, 2, 1].map (fun j => (j, true)) := by
  decide +kernel

/-- A solve without a new matrix does not check the inertia. -/
theorem mumps_inertia_unchecked : (demo4.multiSolve okLib false 1 (fun i => 8) true 0).1 = some .success ∧
    (demo3.multiSolve okLib true 1 (fun i => 8) true 0).1 = some .wrongInertia := by decide +kernel

/-- After an error for one right-hand side the others are solved nevertheless, and the status is FATAL_ERROR. -/
theorem mumps_continues_after_error : (demo3.multiSolve okLib true 2 (fun i => if i = 0 then 13 else 8) true 1).1 = some .fatal ∧
    (demo3.multiSolve okLib true 2 (fun i => if i = 0 then 13 else 8) true 1).2.1 1 = -2 ∧
    ((demo3.multiSolve okLib true 2 (fun i => if i = 0 then 13 else 8) true 1).2.2.log.take 2).map (fun c => (c.job, c.info)) = [(3, 0), (3, -20)] := by
  decide +kernel

/-- Why the histories exclude exceptions in the detection of dependent rows: if the memory setting cannot be increased any more, null pivot
detection remains switched on, and later a singular matrix is accepted. -/
theorem mumps_null_pivots_left_on : ((demo1.write (fun _ => 0)).dependent (demoLib 1001)).1 = none ∧
    ((demo1.write (fun _ => 0)).dependent (demoLib 1001)).2.2.ctl.nul = true ∧
    (((demo1.write (fun _ => 0)).dependent (demoLib 1001)).2.2.multiSolve okLib true 1 (fun _ => 8) false 0).1 = some .success := by decide +kernel

/-- With the memory percentage 0, all 21 attempts use the same setting. -/
theorem mumps_zero_memory : let st := { demo1 with memPercent := 0 }
    ((st.write (fun _ => -4)).multiSolve okLib true 1 (fun _ => 8) true 1).1 = some .fatal ∧
    ((st.write (fun _ => -4)).multiSolve okLib true 1 (fun _ => 8) true 1).2.2.log.map (fun c => (c.job, c.ctl.mem, c.info)) =
      List.replicate 21 (2, 0, -9) ++ [(1, 0, 0)] := by decide +kernel

/-! ### The whole stack -/

/-- the environment: MUMPS without scaling. -/
abbrev demoE : Env ℚ (St ℚ ℚ ℚ) := env okLib demoOpts false none (AugSolve.demoEnv .triplet [])
/-- after initialization. -/
def stack1 : State ℚ (St ℚ ℚ ℚ) := ((State.start demoE (St.start demoOpts demoCtl 0 okLib)).init demoE false false).2

theorem demo_stack : ((State.start demoE (St.start demoOpts demoCtl 0 okLib)).init demoE false false).1 = some true ∧
    (stack1.multiSolve demoE demoMat (fun _ => []) 5 demoArgs [demoRhs] [demoSol] true 1).1 = .ret .success ∧
    (stack1.multiSolve demoE demoMat (fun _ => []) 5 demoArgs [demoRhs] [demoSol] true 1).2.1.map (fun q => q.vec.elems) = [[-2]] ∧
    (stack1.multiSolve demoE demoMat (fun _ => []) 5 demoArgs [demoRhs] [demoSol] true 0).1 = .ret .wrongInertia := by decide +kernel

/-- the hypotheses of `mumps_solution` are met. -/
theorem demo_stack_reach : Reach demoE (fun st _ => ∃ c m, st = St.start demoOpts c m okLib) demoMat (fun _ => []) stack1 ⟨true, none, none⟩ ∧
    (⟨true, none, none⟩ : Hist ℚ).Allows demoMat (fun _ => []) demoArgs [demoRhs] [demoSol] := by
  constructor
  · have r0 : Reach demoE (fun st _ => ∃ c m, st = St.start demoOpts c m okLib) demoMat (fun _ => []) (State.start demoE (St.start demoOpts demoCtl 0 okLib))
        ⟨false, none, none⟩ := .start _ ⟨demoCtl, 0, rfl⟩
    have := Reach.init false false r0
    rw [demo_stack.1] at this
    exact this
  · exact Ma27.demo_stack_reach.2

end Verif.Mumps
