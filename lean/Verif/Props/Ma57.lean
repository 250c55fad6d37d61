import Verif.Proof.Ma57Demo
import Verif.Props.Ma27

/-! # C86: the interface to MA57

Histories of calls of the interface class with any answers of the HSL routines and any failures of memory allocation; and the whole stack
augmented system solver, linear solver, MA57 interface. -/

namespace Verif.Ma57
open Verif.AugSolve (Status Structure Known SolvesAll denote Contract TSym Env End Reach Hist Args Quad SolvesQuad State)
open Verif.Matrix (Mat)
open Verif.Ma27 (reach_mono quality_bound)
open Finset

set_option linter.unusedSectionVars false
set_option linter.unusedSimpArgs false
set_option linter.unusedVariables false

section
variable {K P Keep Mem : Type} [Field K] [LinearOrder P]
variable {L : Lib K P Keep Mem} {KeepOf : Keep → Structure → Prop} {FacOf : Mem → Structure → (Nat → K) → Prop}
  {inertia : Structure → (Nat → K) → Int}

/-- C86: the interface keeps the contract on which C60 relies, provided the two errors it ignores show up elsewhere (`Noticed`; see
`ma57_analysis_error_ignored` and `ma57_solution_error_ignored`). -/
theorem ma57_contract_partial {B : Type} (LO : LibOK L KeepOf FacOf inertia) (N : Noticed L FacOf) (o : Opts P) (ho : 1 ≤ o.preAlloc) (maxSet : Bool)
    (scale : Option (Nat → Nat → (Nat → Nat) → (Nat → Nat) → (Nat → K) → Option (Nat → K)))
    (hsc : ∀ g, scale = some g → ∀ d n ir jc a f, g d n ir jc a = some f → ∀ i, i < d → f i ≠ 0)
    (E : Env K B) (hE : ∀ t, CSR.SortedEntries t (E.sort t)) :
    ∃ Rep : St K P Keep Mem → Known K → Prop, Contract (env L o maxSet scale E) Rep ∧ ∀ keep, Rep (St.start o keep L) Known.fresh :=
  ⟨_, contract LO N o ho maxSet scale hsc E hE, fun keep => rep_start o keep ho⟩

/-- C86: with MA57 below, a successful `MultiSolve` of the augmented system solver solves the system of the call, after every history of
calls that starts with a new object.  Missing: the same without `Noticed`, which is false. -/
theorem ma57_solution_partial [DecidableEq K] {B : Type} (LO : LibOK L KeepOf FacOf inertia) (N : Noticed L FacOf) (o : Opts P) (ho : 1 ≤ o.preAlloc)
    (maxSet : Bool) (scale : Option (Nat → Nat → (Nat → Nat) → (Nat → Nat) → (Nat → K) → Option (Nat → K)))
    (hsc : ∀ g, scale = some g → ∀ d n ir jc a f, g d n ir jc a = some f → ∀ i, i < d → f i ≠ 0)
    (E : Env K B) (hE : ∀ t, CSR.SortedEntries t (E.sort t)) {matOf : Nat → Mat K} {vecOf : Nat → List K} {s : State K (St K P Keep Mem)} {h : Hist K}
    (R : Reach (env L o maxSet scale E) (fun st _ => ∃ keep, st = St.start o keep L) matOf vecOf s h)
    {a : Args K} {rhs sol : List (Quad K)} (A : h.Allows matOf vecOf a rhs sol) (fuel : Nat) (chk : Bool) (neg : Nat) {out : List (Quad K)}
    {s' : State K (St K P Keep Mem)} (hcall : s.multiSolve (env L o maxSet scale E) matOf vecOf fuel a rhs sol chk neg = (.ret .success, out, s')) :
    out.length = sol.length ∧ ∀ i (h1 : i < rhs.length) (h2 : i < out.length),
      (out[i]).Dim (a.contents matOf vecOf) ∧ SolvesQuad (a.contents matOf vecOf) out[i] rhs[i] := by
  have C := contract LO N o ho maxSet scale hsc E hE
  have R' : Reach (env L o maxSet scale E) (Rep L FacOf inertia) matOf vecOf s h :=
    reach_mono (fun b ⟨keep, hb⟩ => by rw [hb]; exact rep_start o keep ho) R
  obtain ⟨e, ot, s2, h1, _, _, h2⟩ := AugSolve.multiSolve_correct C (AugSolve.reach_inv C R') A fuel chk neg
  rw [hcall] at h1
  cases h1
  exact h2 rfl

/-- C86: and two passes of the CALL_AGAIN loop of the augmented system solver suffice, whatever the library does and whatever happened before. -/
theorem ma57_two_passes [DecidableEq K] {B : Type} (o : Opts P) (maxSet : Bool)
    (scale : Option (Nat → Nat → (Nat → Nat) → (Nat → Nat) → (Nat → K) → Option (Nat → K)))
    (E : Env K B) (matOf : Nat → Mat K) (vecOf : Nat → List K) (s : State K (St K P Keep Mem))
    (a : Args K) (rhs sol : List (Quad K)) (fuel : Nat) (hf : 2 ≤ fuel) (chk : Bool) (neg : Nat) :
    (s.multiSolve (env L o maxSet scale E) matOf vecOf fuel a rhs sol chk neg).1 ≠ .running := by
  refine Ma27.multiSolve_ends (env L o maxSet scale E) (fun _ => True) (fun st => if st.pivtolChanged then 1 else 0) 1 ?_ ?_ ?_ ?_ ?_
    matOf vecOf fuel (by omega) a rhs sol chk neg s trivial
  · intro v b _; exact ⟨trivial, le_refl _⟩
  · intro d n ir jc a b _; exact ⟨trivial, le_refl _⟩
  · intro new ia ja nrhs arr chk neg b _ hs
    obtain ⟨e1, _, _, _, e2⟩ := solve_flags L (passes L) new nrhs arr chk neg b
    have h2 := (e2.1 ((statusOf_iff _ _ (by simp)).1 hs)).1
    refine ⟨trivial, ?_⟩
    show (if (b.multiSolve L (passes L) new nrhs arr chk neg).2.2.pivtolChanged then 1 else 0) < _
    rw [e1, h2]; simp
  · intro d n ia ja b _; trivial
  · intro b; split <;> omega

/-- C86: the memory loop inside a solve comes to an end: if MA57 asks for more memory than it had whenever it runs out of memory, and the
safety factor is at least 1 (the range of the option), 2 · (largest Index) + 1 factorizations are enough; and more passes change nothing. -/
theorem ma57_factorization_ends (hA : AsksForMore L) (st : St K P Keep Mem) (hp : 1 ≤ st.preAlloc) (fuel : Nat) (hf : 2 * L.imax + 1 ≤ fuel)
    (new : Bool) (nrhs : Nat) (arr : Nat → K) (chk : Bool) (neg : Nat) :
    (st.multiSolve L fuel new nrhs arr chk neg).1 ≠ .running ∧
    st.multiSolve L fuel new nrhs arr chk neg = st.multiSolve L (2 * L.imax + 1) new nrhs arr chk neg := by
  have hr : room L ({ st with pivtolChanged := false } : St K P Keep Mem) < 2 * L.imax + 1 := room_le L _
  have e1 := (loop_res L (2 * L.imax + 1) ({ st with pivtolChanged := false } : St K P Keep Mem)).ends hA hp hr
  have e2 := loop_mono L (2 * L.imax + 1) fuel ({ st with pivtolChanged := false } : St K P Keep Mem) hf e1
  have e3 : ({ st with pivtolChanged := false } : St K P Keep Mem).factorize L fuel chk neg =
      ({ st with pivtolChanged := false } : St K P Keep Mem).factorize L (2 * L.imax + 1) chk neg := by unfold St.factorize; rw [e2]
  have e4 := (factorize_res L (2 * L.imax + 1) chk neg ({ st with pivtolChanged := false } : St K P Keep Mem)).ends hA hp hr
  have e5 : st.multiSolve L fuel new nrhs arr chk neg = st.multiSolve L (2 * L.imax + 1) new nrhs arr chk neg := by
    unfold St.multiSolve
    simp only [e3]
  refine ⟨?_, e5⟩
  rw [e5]
  unfold St.multiSolve
  split
  · simp
  · dsimp only
    split
    · generalize ({ st with pivtolChanged := false } : St K P Keep Mem).factorize L (2 * L.imax + 1) chk neg = q at *
      obtain ⟨q0, q⟩ := q
      dsimp only at *
      by_cases hs : q0 = .ret .success
      · subst hs; simp
      · rw [if_neg hs, if_neg hs]; exact e4
    · simp

/-- C86: a solve that succeeds delivers solutions for all right-hand sides: with the values written since the last solve, otherwise with the
matrix of the last successful solve; the number of negative eigenvalues reported afterwards is that of this matrix. -/
theorem ma57_solve_success_partial (LO : LibOK L KeepOf FacOf inertia) (N : Noticed L FacOf) {st : St K P Keep Mem} {k : Known K} {c : Care} (R : Ran L st k c)
    {S : Structure} {new : Bool} (ha : k.AllowsSolve S new) (hsome : k.array.isSome ∨ k.held.isSome ∨ k.raised = true)
    (fuel nrhs : Nat) (arr : Nat → K) (chk : Bool) (neg : Nat) {out : Nat → K} {st' : St K P Keep Mem}
    (h : st.multiSolve L fuel new nrhs arr chk neg = (.ret .success, out, st')) :
    ∃ v, k.array.or k.held = some v ∧ SolvesAll .triplet S v nrhs out arr ∧ st'.neg = inertia S v := by
  have X := solve_res LO N.analyse (ran_inv LO N R).rep ha fuel nrhs arr chk neg
  rw [h] at X
  obtain ⟨_, x2, x3, x4, _⟩ := X.success rfl
  obtain ⟨v, e1, e2, e3⟩ := x4 hsome
  refine ⟨v, e1, ?_, e3⟩
  dsimp only at x2 x3
  rw [x2, x3]
  exact LO.backsolve S v _ _ _ nrhs arr e2 (N.backsolve S v _ _ _ nrhs arr e2)

/-- C86: if new values were written and the inertia is to be checked, success means that the matrix has the wanted number of negative
eigenvalues, … -/
theorem ma57_inertia_ok (LO : LibOK L KeepOf FacOf inertia) (N : Noticed L FacOf) {st : St K P Keep Mem} {k : Known K} {c : Care} (R : Ran L st k c)
    {S : Structure} {new : Bool} (ha : k.AllowsSolve S new) {v : Nat → K}
    (hv : k.array = some v) (fuel nrhs : Nat) (arr : Nat → K) (neg : Nat) {out : Nat → K} {st' : St K P Keep Mem}
    (h : st.multiSolve L fuel new nrhs arr true neg = (.ret .success, out, st')) : inertia S v = neg := by
  have X := solve_res LO N.analyse (ran_inv LO N R).rep ha fuel nrhs arr true neg
  rw [h] at X
  obtain ⟨_, _, _, x4, x5⟩ := X.success rfl
  obtain ⟨w, e1, _, e3⟩ := x4 (Or.inl (by rw [hv]; rfl))
  rw [hv] at e1
  simp only [Option.some_or, Option.some.injEq] at e1
  subst e1
  rw [← e3]
  exact x5 (Or.inr (by rw [hv]; rfl)) rfl

/-- C86: … and WRONG_INERTIA that it has not, and that the check was asked for. -/
theorem ma57_inertia_wrong (LO : LibOK L KeepOf FacOf inertia) (N : Noticed L FacOf) {st : St K P Keep Mem} {k : Known K} {c : Care} (R : Ran L st k c)
    {S : Structure} {new : Bool} (ha : k.AllowsSolve S new) {v : Nat → K}
    (hv : k.array = some v) (fuel nrhs : Nat) (arr : Nat → K) (chk : Bool) (neg : Nat) {out : Nat → K} {st' : St K P Keep Mem}
    (h : st.multiSolve L fuel new nrhs arr chk neg = (.ret .wrongInertia, out, st')) : inertia S v ≠ neg ∧ chk = true ∧ out = arr := by
  have X := solve_res LO N.analyse (ran_inv LO N R).rep ha fuel nrhs arr chk neg
  rw [h] at X
  obtain ⟨x1, _, x3⟩ := X.wrong rfl
  exact ⟨x3 v hv, x1, (X.other (by simp) (by simp)).1⟩

/-- C86: a solve without success leaves the right-hand sides and the values of the matrix unchanged. -/
theorem ma57_failure_harmless (st : St K P Keep Mem) (fuel : Nat) (new : Bool) (nrhs : Nat) (arr : Nat → K) (chk : Bool) (neg : Nat) :
    ((st.multiSolve L fuel new nrhs arr chk neg).1 ≠ .ret .success → (st.multiSolve L fuel new nrhs arr chk neg).2.1 = arr) ∧
    (st.multiSolve L fuel new nrhs arr chk neg).2.2.vals = st.vals := by
  unfold St.multiSolve
  split
  · exact ⟨fun _ => rfl, rfl⟩
  · dsimp only
    split
    · have f := (factorize_res L fuel chk neg ({ st with pivtolChanged := false } : St K P Keep Mem)).same.vals
      generalize ({ st with pivtolChanged := false } : St K P Keep Mem).factorize L fuel chk neg = q at *
      obtain ⟨q0, q⟩ := q
      dsimp only at *
      by_cases hs : q0 = .ret .success
      · subst hs; simp only [if_true]; exact ⟨fun e => absurd rfl e, f⟩
      · rw [if_neg hs, if_neg hs]; exact ⟨fun _ => rfl, f⟩
    · simp only [if_true]; exact ⟨fun e => absurd rfl e, rfl⟩

/-- C86: how the answer of MA57 to a new matrix is passed on: 0: success if the inertia is right or need not be checked; 4: singular;
memory shortage is handled inside; everything else is a fatal error, warnings included. -/
theorem ma57_answer (st : St K P Keep Mem) (fuel : Nat) (nrhs : Nat) (arr : Nat → K) (chk : Bool) (neg : Nat) (b : BOut Mem)
    (hb : b = L.factor st.dim st.nnz st.vals st.mem st.lfact st.lifact st.keep st.pivtol) :
    (b.info = 0 → (st.multiSolve L (fuel + 1) true nrhs arr chk neg).1 = .ret (if chk = true ∧ b.neg ≠ neg then .wrongInertia else .success)) ∧
    (b.info = 4 → (st.multiSolve L (fuel + 1) true nrhs arr chk neg).1 = .ret .singular) ∧
    (b.info ≠ 0 → b.info ≠ 4 → b.info ≠ -3 → b.info ≠ -4 → (st.multiSolve L (fuel + 1) true nrhs arr chk neg).1 = .ret .fatal) := by
  have hc : (({ st with pivtolChanged := false } : St K P Keep Mem).callB L).1 = b ∧
      (({ st with pivtolChanged := false } : St K P Keep Mem).callB L).2.neg = b.neg := by rw [hb]; exact ⟨rfl, rfl⟩
  unfold St.multiSolve
  simp only [Bool.not_true, Bool.false_eq_true, and_false, if_false, Bool.true_or, if_true]
  unfold St.factorize factorLoop
  dsimp only
  generalize ({ st with pivtolChanged := false } : St K P Keep Mem).callB L = r at *
  obtain ⟨r0, r⟩ := r
  dsimp only at *
  obtain ⟨h1, h2⟩ := hc
  subst h1
  refine ⟨fun h => ?_, fun h => ?_, fun h0 h4 h3 h4' => ?_⟩
  · simp only [if_pos h, if_true, h2]
    by_cases hw : chk = true ∧ r0.neg ≠ neg
    · have : chk = true ∧ (neg : Int) ≠ r0.neg := ⟨hw.1, fun e => hw.2 e.symm⟩
      rw [if_pos this, if_pos hw]; simp
    · have : ¬ (chk = true ∧ (neg : Int) ≠ r0.neg) := fun e => hw ⟨e.1, fun e' => e.2 e'.symm⟩
      rw [if_neg this, if_neg hw]; simp
  · have a1 : ¬ r0.info = 0 := by omega
    have a2 : ¬ r0.info = -3 := by omega
    have a3 : ¬ r0.info = -4 := by omega
    have a4 : ¬ r0.info < 0 := by omega
    simp [a1, a2, a3, a4, h]
  · by_cases hn : r0.info < 0
    · simp [h0, h3, h4', hn]
    · simp [h0, h3, h4', hn, h4]

/-- C86: when MA57 runs out of memory, it is called again for the same matrix with arrays of the size it asked for, times the safety factor
(rounded down; if this is not representable, with the largest size), or an exception is thrown if there is no such memory. -/
theorem ma57_retry (st : St K P Keep Mem) (fuel : Nat) (b : BOut Mem)
    (hb : b = L.factor st.dim st.nnz st.vals st.mem st.lfact st.lifact st.keep st.pivtol) (real : Bool) (hi : b.info = if real then -3 else -4)
    (hfit : ((if real then b.needReal else b.needInt : Nat) : ℚ) * st.preAlloc < L.imax) :
    let len := ⌊((if real then b.needReal else b.needInt : Nat) : ℚ) * st.preAlloc⌋.toNat
    (L.alloc st.allocs len = false → (factorLoop L (fuel + 1) st).1 = .thrown) ∧
    (L.alloc st.allocs len = true → ∃ s, factorLoop L (fuel + 1) st = factorLoop L fuel s ∧ Same st s ∧
      s.lfact = (if real then len else st.lfact) ∧ s.lifact = (if real then st.lifact else len) ∧
      s.factLen = (if real then some len else st.factLen) ∧ s.ifactLen = (if real then st.ifactLen else some len) ∧
      s.mem = L.extend (!real) st.keep b.mem len) := by
  intro len
  have hc : (st.callB L).1 = b ∧ (st.callB L).2.mem = b.mem := by rw [hb]; exact ⟨rfl, rfl⟩
  obtain ⟨c1, c2, c3, _⟩ := callB_res L st
  have c4 : (st.callB L).2.factLen = st.factLen ∧ (st.callB L).2.ifactLen = st.ifactLen ∧ (st.callB L).2.allocs = st.allocs := ⟨rfl, rfl, rfl⟩
  have hmem : ∀ l, Ma27.memIncrease L.imax l (((if real then b.needReal else b.needInt : Nat) : ℚ) * st.preAlloc) 0 = some len := by
    intro l
    unfold Ma27.memIncrease
    rw [if_neg (not_le.2 hfit)]
    simp [len]
  rw [factorLoop.eq_2]
  dsimp only
  generalize st.callB L = r at *
  obtain ⟨r0, r⟩ := r
  dsimp only at *
  obtain ⟨h1, h2⟩ := hc
  subst h1
  cases real with
  | true =>
    simp only [if_true] at hi hmem ⊢
    have a1 : ¬ r0.info = 0 := by omega
    simp only [if_neg a1, if_pos hi]
    unfold St.growReal
    rw [c1.pre, hmem]
    dsimp only
    simp only [Nat.add_sub_cancel, c4.2.2]
    constructor
    · intro e; rw [e]; simp
    · intro e; rw [e]; simp only [if_true]
      refine ⟨_, rfl, ?_⟩
      refine ⟨c1.trans ⟨rfl, rfl, rfl, rfl, c1.pre.symm, rfl, rfl, rfl, rfl, rfl, rfl⟩, rfl, c3, rfl, c4.2.1, ?_⟩
      show L.extend false r.keep r.mem len = L.extend (!true) st.keep r0.mem len
      rw [h2, c1.keep]; rfl
  | false =>
    simp only [Bool.false_eq_true, if_false] at hi hmem ⊢
    have a1 : ¬ r0.info = 0 := by omega
    have a2 : ¬ r0.info = -3 := by omega
    simp only [if_neg a1, if_neg a2, if_pos hi]
    unfold St.growInt
    rw [c1.pre, hmem]
    dsimp only
    simp only [Nat.add_sub_cancel, c4.2.2]
    constructor
    · intro e; rw [e]; simp
    · intro e; rw [e]; simp only [if_true]
      refine ⟨_, rfl, ?_⟩
      refine ⟨c1.trans ⟨rfl, rfl, rfl, rfl, c1.pre.symm, rfl, rfl, rfl, rfl, rfl, rfl⟩, c2, rfl, c4.1, rfl, ?_⟩
      show L.extend true r.keep r.mem len = L.extend (!false) st.keep r0.mem len
      rw [h2, c1.keep]; rfl

/-- C86: a fatal error, SINGULAR and WRONG_INERTIA are reported only if MA57 said so about this matrix. -/
theorem ma57_failure_reason (st : St K P Keep Mem) (fuel : Nat) (new : Bool) (nrhs : Nat) (arr : Nat → K) (chk : Bool) (neg : Nat) (s : Status)
    (h : (st.multiSolve L fuel new nrhs arr chk neg).1 = .ret s) (h1 : s ≠ .success) (h2 : s ≠ .callAgain) :
    ∃ mem lf li, (s = .singular → (L.factor st.dim st.nnz st.vals mem lf li st.keep st.pivtol).info = 4) ∧
      (s = .wrongInertia → chk = true ∧ (L.factor st.dim st.nnz st.vals mem lf li st.keep st.pivtol).info = 0 ∧
        (L.factor st.dim st.nnz st.vals mem lf li st.keep st.pivtol).neg ≠ neg) ∧
      (s = .fatal → ∀ i ∈ [0, 4, -3, -4], (L.factor st.dim st.nnz st.vals mem lf li st.keep st.pivtol).info ≠ i) := by
  unfold St.multiSolve at h
  split at h
  · simp only [Out.ret.injEq] at h; exact absurd h.symm h2
  · dsimp only at h
    split at h
    · have f := factorize_res L fuel chk neg ({ st with pivtolChanged := false } : St K P Keep Mem)
      generalize ({ st with pivtolChanged := false } : St K P Keep Mem).factorize L fuel chk neg = q at *
      obtain ⟨q0, q⟩ := q
      dsimp only at *
      by_cases hs : q0 = .ret .success
      · subst hs; simp only [if_true, Out.ret.injEq] at h; exact absurd h.symm h1
      · rw [if_neg hs, if_neg hs] at h
        dsimp only at h
        subst h
        cases s with
        | success => exact absurd rfl h1
        | callAgain => exact absurd rfl h2
        | singular =>
          obtain ⟨b, ⟨mem, lf, li, e⟩, e2⟩ := f.singular rfl
          exact ⟨mem, lf, li, fun _ => by rw [← e2, e], fun e => by simp at e, fun e => by simp at e⟩
        | wrongInertia =>
          obtain ⟨b, ⟨mem, lf, li, e⟩, e2, e3, e4, e5⟩ := f.wrong rfl
          subst e
          exact ⟨mem, lf, li, fun e => by simp at e, fun _ => ⟨e4, e2, e5⟩, fun e => by simp at e⟩
        | fatal =>
          obtain ⟨b, ⟨mem, lf, li, e⟩, e2⟩ := f.fatal rfl
          subst e
          refine ⟨mem, lf, li, fun e => by simp at e, fun e => by simp at e, fun _ i hi => ?_⟩
          simp only [List.mem_cons, List.not_mem_nil, or_false] at hi
          dsimp only at e2
          omega
    · simp only [if_true, Out.ret.injEq] at h; exact absurd h.symm h1

/-- C86: the object asks to be called again exactly when the quality was increased since the last solve and the matrix is not new; so never
twice in a row. -/
theorem ma57_call_again (st : St K P Keep Mem) (fuel fuel' : Nat) (new new' : Bool) (nrhs nrhs' : Nat) (arr arr' : Nat → K) (chk chk' : Bool) (neg neg' : Nat)
    (v : Nat → K) :
    (((st.quality L).1 = true → (((st.quality L).2.multiSolve L fuel new nrhs arr chk neg).1 = .ret .callAgain ↔ new = false)) ∧
    (((st.multiSolve L fuel new nrhs arr chk neg).2.2.write v).multiSolve L fuel' new' nrhs' arr' chk' neg').1 ≠ .ret .callAgain ∧
    ((st.multiSolve L fuel new nrhs arr chk neg).2.2.multiSolve L fuel' new' nrhs' arr' chk' neg').1 ≠ .ret .callAgain) := by
  refine ⟨fun hq => ?_, fun e => ?_, fun e => ?_⟩
  · obtain ⟨_, _, _, _, h⟩ := solve_flags L fuel new nrhs arr chk neg (st.quality L).2
    have : (st.quality L).2.pivtolChanged = true := by
      unfold St.quality at hq ⊢
      split
      · rename_i h; rw [if_pos h] at hq; simp at hq
      · rfl
    rw [h, this]; simp
  · obtain ⟨h0, _⟩ := solve_flags L fuel new nrhs arr chk neg st
    obtain ⟨_, _, _, _, h⟩ := solve_flags L fuel' new' nrhs' arr' chk' neg' ((st.multiSolve L fuel new nrhs arr chk neg).2.2.write v)
    have := (h.1 e).1
    rw [show ((st.multiSolve L fuel new nrhs arr chk neg).2.2.write v).pivtolChanged = (st.multiSolve L fuel new nrhs arr chk neg).2.2.pivtolChanged from rfl, h0] at this
    simp at this
  · obtain ⟨h0, _⟩ := solve_flags L fuel new nrhs arr chk neg st
    obtain ⟨_, _, _, _, h⟩ := solve_flags L fuel' new' nrhs' arr' chk' neg' (st.multiSolve L fuel new nrhs arr chk neg).2.2
    have := (h.1 e).1
    rw [h0] at this
    simp at this

/-- C86: as long as values are written and systems solved only when no exception has occurred since the structure was last analysed, no
array is shorter than MA57 or the caller is told. -/
theorem ma57_no_overrun (LO : LibOK L KeepOf FacOf inertia) (N : Noticed L FacOf) {st : St K P Keep Mem} {k : Known K} {c : Care} (R : Ran L st k c)
    (hok : c.ok = true) : st.overrun = false := (ran_inv LO N R).over hok

/-- C86: `Initialize` fails exactly if the pivot tolerances contradict each other and both were set, or if a warm start is wanted and no
structure is known; afterwards the pivot tolerance is that of the options and not above its maximum. -/
theorem ma57_init (o : Opts P) (maxSet warm : Bool) (st : St K P Keep Mem) :
    ((st.init o maxSet warm).1 = false ↔ (maxSet = true ∧ o.pivtolmax < o.pivtol) ∨ (warm = true ∧ (st.dim = 0 ∨ st.nnz = 0))) ∧
    ((st.init o maxSet warm).1 = true → (st.init o maxSet warm).2.pivtol = o.pivtol ∧ (st.init o maxSet warm).2.pivtol ≤ (st.init o maxSet warm).2.pivtolmax ∧
      (st.init o maxSet warm).2.preAlloc = o.preAlloc ∧ (o.pivtol ≤ o.pivtolmax → (st.init o maxSet warm).2.pivtolmax = o.pivtolmax)) := by
  unfold St.init
  by_cases hc : (maxSet && !decide (o.pivtol ≤ o.pivtolmax)) = true
  · rw [if_pos hc]
    simp only [Bool.and_eq_true, Bool.not_eq_true', decide_eq_false_iff_not, not_le] at hc
    exact ⟨⟨fun _ => Or.inl hc, fun _ => rfl⟩, fun e => by simp at e⟩
  · rw [if_neg hc]
    simp only [Bool.and_eq_true, Bool.not_eq_true', decide_eq_false_iff_not, not_le, not_and, not_lt] at hc
    have hle : o.pivtol ≤ (if maxSet then o.pivtolmax else max o.pivtolmax o.pivtol) := by
      split
      · rename_i hm; exact hc hm
      · exact le_max_right _ _
    have hmx : o.pivtol ≤ o.pivtolmax → (if maxSet then o.pivtolmax else max o.pivtolmax o.pivtol) = o.pivtolmax := by
      intro e
      split
      · rfl
      · exact max_eq_left e
    dsimp only
    cases warm with
    | false =>
      simp only [Bool.not_false, if_true]
      refine ⟨⟨fun e => by simp at e, fun e => ?_⟩, fun _ => ⟨trivial, hle, trivial, hmx⟩⟩
      rcases e with e | e
      · exact absurd e.2 (not_lt.2 (hc e.1))
      · simp at e
    | true =>
      simp only [Bool.not_true, Bool.false_eq_true, if_false]
      refine ⟨⟨fun e => ?_, fun e => ?_⟩, fun _ => ⟨trivial, hle, trivial, hmx⟩⟩
      · right
        simp only [Bool.and_eq_false_iff, decide_eq_false_iff_not, not_lt] at e
        exact ⟨by trivial, by omega⟩
      · rcases e with e | e
        · exact absurd e.2 (not_lt.2 (hc e.1))
        · simp only [Bool.and_eq_false_iff, decide_eq_false_iff_not, not_lt]
          omega

/-- C86: a cold start forgets the structure: a warm start right after it is refused. -/
theorem ma57_cold_forgets (o o' : Opts P) (maxSet maxSet' : Bool) (st : St K P Keep Mem) (h : (st.init o maxSet false).1 = true) :
    ((st.init o maxSet false).2.init o' maxSet' true).1 = false := by
  refine (ma57_init o' maxSet' true _).1.2 (Or.inr ⟨rfl, Or.inl ?_⟩)
  unfold St.init at h ⊢
  split
  · rename_i hc; rw [if_pos hc] at h; simp at h
  · rfl

/-- C86: unlike MA27, a new initialization does not forget that a refactorization is pending. -/
theorem ma57_init_keeps_request (o : Opts P) (maxSet warm : Bool) (st : St K P Keep Mem) (hq : (st.quality L).1 = true) (fuel nrhs : Nat) (arr : Nat → K)
    (chk : Bool) (neg : Nat) : (((st.quality L).2.init o maxSet warm).2.multiSolve L fuel false nrhs arr chk neg).1 = .ret .callAgain := by
  have : (st.quality L).2.pivtolChanged = true := by
    unfold St.quality at hq ⊢
    split
    · rename_i h; rw [if_pos h] at hq; simp at hq
    · rfl
  generalize (st.quality L).2 = s at this
  have h2 : (s.init o maxSet warm).2.pivtolChanged = true := by
    unfold St.init
    split
    · exact this
    · cases warm <;> exact this
  exact ((solve_flags L fuel false nrhs arr chk neg _).2.2.2.2).2 ⟨h2, rfl⟩

/-- C86: `IncreaseQuality` refuses exactly when the maximal pivot tolerance is reached. -/
theorem ma57_quality (st : St K P Keep Mem) : (st.quality L).1 = false ↔ st.pivtol = st.pivtolmax := by
  unfold St.quality
  by_cases h : st.pivtol = st.pivtolmax
  · rw [if_pos h]; simp [h]
  · rw [if_neg h]; simp [h]

/-- C86: the factorization of a solve uses the raised pivot tolerance: success after `IncreaseQuality` rests on a factorization with it. -/
theorem ma57_quality_used (st : St K P Keep Mem) (hq : (st.quality L).1 = true) (fuel nrhs : Nat) (arr : Nat → K) (chk : Bool) (neg : Nat) {out : Nat → K}
    {st' : St K P Keep Mem} (h : (st.quality L).2.multiSolve L fuel true nrhs arr chk neg = (.ret .success, out, st')) :
    ∃ mem lf li, (L.factor st.dim st.nnz st.vals mem lf li st.keep (min st.pivtolmax (L.raisePow st.pivtol))).info = 0 ∧
      st'.mem = (L.factor st.dim st.nnz st.vals mem lf li st.keep (min st.pivtolmax (L.raisePow st.pivtol))).mem := by
  have e : (st.quality L).2 = { st with pivtolChanged := true, pivtol := min st.pivtolmax (L.raisePow st.pivtol) } := by
    unfold St.quality at hq ⊢
    split
    · rename_i h; rw [if_pos h] at hq; simp at hq
    · rfl
  rw [e] at h
  unfold St.multiSolve at h
  simp only [Bool.not_true, Bool.false_eq_true, and_false, if_false, Bool.true_or, if_true] at h
  have f := factorize_res L fuel chk neg ({ st with pivtolChanged := false, pivtol := min st.pivtolmax (L.raisePow st.pivtol) } : St K P Keep Mem)
  generalize ({ st with pivtolChanged := false, pivtol := min st.pivtolmax (L.raisePow st.pivtol) } : St K P Keep Mem).factorize L fuel chk neg = q at *
  obtain ⟨q0, q⟩ := q
  dsimp only at *
  by_cases hs : q0 = .ret .success
  · subst hs
    simp only [if_true, Prod.mk.injEq, true_and] at h
    obtain ⟨b, ⟨mem, lf, li, e1⟩, e2, e3, _⟩ := f.success rfl
    dsimp only at e1
    refine ⟨mem, lf, li, by rw [← e1]; exact e2, ?_⟩
    rw [← e1, ← h.2]; exact e3
  · rw [if_neg hs, if_neg hs] at h
    simp only [Prod.mk.injEq] at h
    exact absurd h.1 hs

end

section Pivot
variable {K Keep Mem : Type} [Field K]

/-- C86: with the power 3/4 and a maximal pivot tolerance below 1 (the range of the option), the pivot tolerance never decreases and never
exceeds its maximum, and `IncreaseQuality` can be successful only a bounded number of times between two initializations, whatever happens
in between. -/
theorem ma57_quality_finite (L : Lib K ℝ Keep Mem) (hL : L.raisePow = fun x => x ^ (3 / 4 : ℝ)) (st : St K ℝ Keep Mem) (h0 : 0 < st.pivtol)
    (h1 : st.pivtol ≤ st.pivtolmax) (h2 : st.pivtolmax < 1) :
    (∀ n st', Later L st n st' → st.pivtol ≤ st'.pivtol ∧ st'.pivtol ≤ st.pivtolmax ∧ st'.pivtolmax = st.pivtolmax) ∧
    ∃ N, ∀ n st', Later L st n st' → n ≤ N := by
  refine ⟨fun n st' h => ?_, ?_⟩
  · obtain ⟨a1, a2, a3, _⟩ := later_pivtol hL h h0 h1 h2
    exact ⟨a2, a3, a1⟩
  · obtain ⟨N, hN⟩ := quality_bound h0 h1 h2
    refine ⟨N, fun n st' h => ?_⟩
    by_contra hc
    obtain ⟨_, _, _, _, a5⟩ := later_pivtol hL h h0 h1 h2
    have := a5 (by omega)
    rw [min_eq_left (hN (n - 1) (by omega))] at this
    exact lt_irrefl _ this

end Pivot

/-! ## Concrete histories -/

/-- memory is never short. -/
abbrev okLib : Lib ℚ ℚ DKeep ℚ := demoLib fun _ _ => true
/-- one row, one entry. -/
abbrev S1 : Structure := Ma27.demoStruct
/-- new objects. -/
def fresh (L : Lib ℚ ℚ DKeep ℚ) : St ℚ ℚ DKeep ℚ := St.start demoOpts (fun _ => 9, fun _ => 9) L
/-- after initialization, structure, and the value -4. -/
def ready (L : Lib ℚ ℚ DKeep ℚ) : St ℚ ℚ DKeep ℚ :=
  ((((fresh L).init demoOpts false false).2.initStructure L 1 1 (fun _ => 1) (fun _ => 1)).2.write (fun _ => -4))
/-- what the caller knows then. -/
def known : Known ℚ := { (Known.fresh.afterInit false true).afterStruct S1 true with array := some fun _ => -4 }

/-- such histories exist. -/
theorem ready_ran (L : Lib ℚ ℚ DKeep ℚ) (h1 : ((fresh L).init demoOpts false false).1 = true)
    (h2 : (((fresh L).init demoOpts false false).2.initStructure L 1 1 (fun _ => 1) (fun _ => 1)).1 = .ret .success) :
    Ran L (ready L) known ⟨true, true⟩ ∧ known.AllowsSolve S1 true := by
  have r0 := Ran.init (L := L) demoOpts false false (by decide +kernel) (Ran.start (L := L) demoOpts (fun _ => 9, fun _ => 9) (by decide +kernel))
  have h1' : ((St.start demoOpts (fun _ => 9, fun _ => 9) L).init demoOpts false false).1 = true := h1
  rw [h1'] at r0
  have r1 := Ran.struct S1 r0 ⟨rfl, fun e => by simp [Known.afterInit] at e⟩
  have h2' : (((St.start demoOpts (fun _ => 9, fun _ => 9) L).init demoOpts false false).2.initStructure L S1.dim S1.nnz S1.ia S1.ja).1 = .ret .success := h2
  simp only [h2'] at r1
  have r2 := Ran.write (S := S1) (fun _ => -4) r1 rfl
  exact ⟨r2, rfl, fun _ => rfl, fun _ => Or.inl rfl⟩

theorem demo_run : ((fresh okLib).init demoOpts false false).1 = true ∧
    (((fresh okLib).init demoOpts false false).2.initStructure okLib 1 1 (fun _ => 1) (fun _ => 1)).1 = .ret .success ∧
    ((ready okLib).lfact, (ready okLib).lifact) = (4, 8) ∧
    ((ready okLib).multiSolve okLib 5 true 2 (fun i => 8 + 4 * i) true 1).1 = .ret .success ∧
    (List.range 2).map ((ready okLib).multiSolve okLib 5 true 2 (fun i => 8 + 4 * i) true 1).2.1 = [-2, -3] ∧
    ((ready okLib).multiSolve okLib 5 true 2 (fun i => 8 + 4 * i) true 1).2.2.lfact = 20 ∧
    ((ready okLib).multiSolve okLib 5 true 2 (fun i => 8 + 4 * i) true 0).1 = .ret .wrongInertia ∧
    (((ready okLib).write fun _ => 0).multiSolve okLib 5 true 2 (fun i => 8 + 4 * i) true 0).1 = .ret .singular ∧
    ((ready okLib).multiSolve okLib 1 true 2 (fun i => 8 + 4 * i) true 1).1 = .running ∧
    ((ready okLib).quality okLib).1 = true ∧ ((ready okLib).quality okLib).2.pivtol = 1 / 500000 := by decide +kernel

/-- the hypotheses of the theorems about histories are met. -/
theorem demo_ran : Ran okLib (ready okLib) known ⟨true, true⟩ ∧ known.AllowsSolve S1 true ∧ known.array = some (fun _ => -4) ∧ AsksForMore okLib ∧
    Noticed okLib demoFac ∧ 1 ≤ (ready okLib).preAlloc :=
  ⟨(ready_ran okLib demo_run.1 demo_run.2.1).1, (ready_ran okLib demo_run.1 demo_run.2.1).2, rfl, demo_asks _, demo_noticed _, by decide +kernel⟩

/-- The error code of the analysis is only printed: a library that behaves as documented, whose analysis reports error -1, and whose
factorization does not notice: `InitializeStructure` and `MultiSolve` return SUCCESS and the result does not solve the system. -/
theorem ma57_analysis_error_ignored : LibOK badA (fun _ _ => False) demoFac Ma27.demoInertia ∧ (badA.analyse 1 1 (fun _ => 1) (fun _ => 1)).info = -1 ∧
    Ran badA (ready badA) known ⟨true, true⟩ ∧ known.AllowsSolve S1 true ∧
    ((ready badA).multiSolve badA 5 true 1 (fun _ => 8) false 0).1 = .ret .success ∧
    ¬SolvesAll .triplet S1 (fun _ => -4) 1 ((ready badA).multiSolve badA 5 true 1 (fun _ => 8) false 0).2.1 (fun _ => 8) := by
  refine ⟨badA_lib, rfl, (ready_ran badA (by decide +kernel) (by decide +kernel)).1, (ready_ran badA (by decide +kernel) (by decide +kernel)).2,
    by decide +kernel, fun h => ?_⟩
  exact absurd (h 0 (by decide) 0 (by decide)) (by decide +kernel)

/-- The error code of the solution phase is only printed: with a library that behaves as documented but reports error -1 there, `MultiSolve`
returns SUCCESS and the result does not solve the system. -/
theorem ma57_solution_error_ignored : LibOK badC (fun k S => S.dim = 1 ∧ k = (S.ia, S.ja)) demoFac Ma27.demoInertia ∧
    Ran badC (ready badC) known ⟨true, true⟩ ∧ known.AllowsSolve S1 true ∧
    ((ready badC).multiSolve badC 5 true 1 (fun _ => 8) true 1).1 = .ret .success ∧
    ¬SolvesAll .triplet S1 (fun _ => -4) 1 ((ready badC).multiSolve badC 5 true 1 (fun _ => 8) true 1).2.1 (fun _ => 8) := by
  refine ⟨badC_lib, (ready_ran badC (by decide +kernel) (by decide +kernel)).1, (ready_ran badC (by decide +kernel) (by decide +kernel)).2,
    by decide +kernel, fun h => ?_⟩
  exact absurd (h 0 (by decide) 0 (by decide)) (by decide +kernel)

/-- the fourth allocation (the enlarged array) fails. -/
abbrev shortLib : Lib ℚ ℚ DKeep ℚ := demoLib fun n _ => n ≠ 3
/-- the object after the exception, initialized again with `warm_start_same_structure`. -/
def careless : St ℚ ℚ DKeep ℚ :=
  (((((ready shortLib).multiSolve shortLib 5 true 1 (fun _ => 8) true 1).2.2.init demoOpts false true).2.initStructure shortLib 1 1 (fun _ => 1)
    (fun _ => 1)).2.write fun _ => -4)

/-- Why the condition on warm starts in `ma57_no_overrun` is needed: the new length is stored before the memory is there.  After a failed
allocation and a warm start, MA57 is told that an array of length 4 has length 20, and the solve is reported as a success. -/
theorem ma57_overrun_after_exception : ((ready shortLib).multiSolve shortLib 5 true 1 (fun _ => 8) true 1).1 = .thrown ∧
    (((ready shortLib).multiSolve shortLib 5 true 1 (fun _ => 8) true 1).2.2.init demoOpts false true).1 = true ∧
    (careless.factLen, careless.lfact, careless.overrun) = (some 4, 20, false) ∧
    (careless.multiSolve shortLib 5 true 1 (fun _ => 8) true 1).1 = .ret .success ∧
    (careless.multiSolve shortLib 5 true 1 (fun _ => 8) true 1).2.2.overrun = true := by decide +kernel

/-- A solve without a new matrix does not check the inertia. -/
theorem ma57_inertia_unchecked :
    ((((ready okLib).multiSolve okLib 5 true 1 (fun _ => 8) true 1).2.2).multiSolve okLib 5 false 1 (fun _ => 8) true 0).1 = .ret .success := by decide +kernel

/-- a library that asks for less than it had: the loop never ends. -/
def greedy : Lib ℚ ℚ DKeep ℚ := { okLib with factor := fun _ _ _ _ lf _ _ _ => ⟨-3, lf / 2, 0, 0, 0⟩ }

/-- Why `AsksForMore` is needed in `ma57_factorization_ends`. -/
theorem ma57_loop_forever (fuel : Nat) : ((ready greedy).multiSolve greedy fuel true 1 (fun _ => 8) true 1).1 = .running := by
  have key : ∀ fuel (st : St ℚ ℚ DKeep ℚ), st.preAlloc = 2 → st.lfact ≤ 4 → (factorLoop greedy fuel st).1 = .running := by
    intro fuel
    induction fuel with
    | zero => intro st _ _; rfl
    | succ fuel ih =>
      intro st hp hl
      unfold factorLoop
      have e1 : (st.callB greedy).1 = ⟨-3, st.lfact / 2, 0, 0, 0⟩ := rfl
      have e2 : (st.callB greedy).2.preAlloc = 2 := hp
      have e3 : (st.callB greedy).2.lfact = st.lfact := rfl
      dsimp only
      rw [e1]
      generalize (st.callB greedy).2 = r at *
      simp only [show ¬((-3 : Int) = 0) by decide, if_false, if_true]
      have hm : Ma27.memIncrease greedy.imax r.lfact (((st.lfact / 2 : Nat) : ℚ) * r.preAlloc) 0 = some (st.lfact / 2 * 2) := by
        unfold Ma27.memIncrease
        have : ((st.lfact / 2 : Nat) : ℚ) * r.preAlloc = ((st.lfact / 2 * 2 : Nat) : ℚ) := by rw [e2]; push_cast; ring
        rw [this, if_neg]
        · rw [Int.floor_natCast, Int.toNat_natCast]; simp
        · show ¬ (((1000 : Nat) : ℚ) ≤ _)
          rw [Nat.cast_le]
          omega
      unfold St.growReal
      dsimp only
      rw [hm]
      dsimp only
      have ha : ∀ a b, greedy.alloc a b = true := fun _ _ => rfl
      simp only [ha, if_true]
      exact ih _ e2 (by dsimp only; omega)
  have k := key fuel ({ ready greedy with pivtolChanged := false } : St ℚ ℚ DKeep ℚ) (by decide +kernel) (by decide +kernel)
  unfold St.multiSolve St.factorize
  simp only [Bool.not_true, Bool.false_eq_true, and_false, if_false, Bool.true_or, if_true]
  generalize factorLoop greedy fuel ({ ready greedy with pivtolChanged := false } : St ℚ ℚ DKeep ℚ) = q at k
  obtain ⟨q0, q⟩ := q
  dsimp only at k
  subst k
  simp

/-! ### The whole stack -/

/-- the environment: MA57 without scaling. -/
abbrev demoE : Env ℚ (St ℚ ℚ DKeep ℚ) := env okLib demoOpts false none (AugSolve.demoEnv .triplet [])
/-- after initialization. -/
def stack1 : State ℚ (St ℚ ℚ DKeep ℚ) := ((State.start demoE (fresh okLib)).init demoE false false).2

theorem demo_stack : ((State.start demoE (fresh okLib)).init demoE false false).1 = some true ∧
    (stack1.multiSolve demoE Ma27.demoMat (fun _ => []) 2 Ma27.demoArgs [Ma27.demoRhs] [Ma27.demoSol] true 1).1 = .ret .success ∧
    (stack1.multiSolve demoE Ma27.demoMat (fun _ => []) 2 Ma27.demoArgs [Ma27.demoRhs] [Ma27.demoSol] true 1).2.1.map (fun q => q.vec.elems) = [[-2]] ∧
    (stack1.multiSolve demoE Ma27.demoMat (fun _ => []) 2 Ma27.demoArgs [Ma27.demoRhs] [Ma27.demoSol] true 0).1 = .ret .wrongInertia := by decide +kernel

/-- the hypotheses of `ma57_solution_partial` are met. -/
theorem demo_stack_reach : Reach demoE (fun st _ => ∃ keep, st = St.start demoOpts keep okLib) Ma27.demoMat (fun _ => []) stack1 ⟨true, none, none⟩ ∧
    (⟨true, none, none⟩ : Hist ℚ).Allows Ma27.demoMat (fun _ => []) Ma27.demoArgs [Ma27.demoRhs] [Ma27.demoSol] := by
  constructor
  · have r0 : Reach demoE (fun st _ => ∃ keep, st = St.start demoOpts keep okLib) Ma27.demoMat (fun _ => []) (State.start demoE (fresh okLib))
        ⟨false, none, none⟩ := .start _ ⟨_, rfl⟩
    have := Reach.init false false r0
    rw [demo_stack.1] at this
    exact this
  · exact Ma27.demo_stack_reach.2

end Verif.Ma57
