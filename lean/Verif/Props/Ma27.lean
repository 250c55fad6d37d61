import Verif.Proof.Ma27Demo

/-! # C77: the interface to MA27

Histories of calls of the interface class with any answers of the HSL routines and any failures of memory allocation; and the whole stack
augmented system solver, linear solver, MA27 interface. -/

namespace Verif.Ma27
open Verif.AugSolve (Status Structure Known SolvesAll denote Contract TSym Env End Reach Hist Args Quad SolvesQuad State)
open Verif.Matrix (Mat)
open Finset

set_option linter.unusedSectionVars false
set_option linter.unusedSimpArgs false
set_option linter.unusedVariables false

section
variable {K P Keep Fac : Type} [Field K] [LinearOrder P]
variable {L : Lib K P Keep Fac} {KeepOf : Keep → Structure → Prop} {FacOf : Fac → Keep → Structure → (Nat → K) → Prop}
  {inertia : Structure → (Nat → K) → Int}

/-- C77: the interface keeps the contract on which C60 relies. -/
theorem ma27_contract {B : Type} (LO : LibOK L KeepOf FacOf inertia) (o : Opts P) (ho : 1 ≤ o.memInc) (hoi : o.ignoreSingular = false) (maxSet : Bool)
    (scale : Option (Nat → Nat → (Nat → Nat) → (Nat → Nat) → (Nat → K) → Option (Nat → K)))
    (hsc : ∀ g, scale = some g → ∀ d n ir jc a f, g d n ir jc a = some f → ∀ i, i < d → f i ≠ 0)
    (E : Env K B) (hE : ∀ t, CSR.SortedEntries t (E.sort t)) :
    ∃ Rep : St K P Keep Fac → Known K → Prop, Contract (env L o maxSet scale E) Rep ∧ ∀ keep, Rep (St.start o keep L) Known.fresh :=
  ⟨_, contract LO o ho hoi maxSet scale hsc E hE, fun keep => ⟨rep_start o keep ho, hoi⟩⟩

/-- only the start of a history looks at the new object. -/
theorem reach_mono [DecidableEq K] {B : Type} {E : Env K B} {R1 R2 : B → Known K → Prop} (h : ∀ b, R1 b Known.fresh → R2 b Known.fresh) {matOf : Nat → Mat K}
    {vecOf : Nat → List K} {s : State K B} {hi : Hist K} (R : Reach E R1 matOf vecOf s hi) : Reach E R2 matOf vecOf s hi := by
  induction R with
  | start b hb => exact .start b (h b hb)
  | init warm demand _ ih => exact .init warm demand ih
  | quality _ ih => exact .quality ih
  | solve fuel a rhs sol chk neg _ A ih => exact .solve fuel a rhs sol chk neg ih A

/-- C77: with MA27 (used without `ma27_ignore_singularity`) below, a successful `MultiSolve` of the augmented system solver solves the
system of the call, after every history of calls that starts with a new object. -/
theorem ma27_solution [DecidableEq K] {B : Type} (LO : LibOK L KeepOf FacOf inertia) (o : Opts P) (ho : 1 ≤ o.memInc) (hoi : o.ignoreSingular = false)
    (maxSet : Bool) (scale : Option (Nat → Nat → (Nat → Nat) → (Nat → Nat) → (Nat → K) → Option (Nat → K)))
    (hsc : ∀ g, scale = some g → ∀ d n ir jc a f, g d n ir jc a = some f → ∀ i, i < d → f i ≠ 0)
    (E : Env K B) (hE : ∀ t, CSR.SortedEntries t (E.sort t)) {matOf : Nat → Mat K} {vecOf : Nat → List K} {s : State K (St K P Keep Fac)} {h : Hist K}
    (R : Reach (env L o maxSet scale E) (fun st _ => ∃ keep, st = St.start o keep L) matOf vecOf s h)
    {a : Args K} {rhs sol : List (Quad K)} (A : h.Allows matOf vecOf a rhs sol) (fuel : Nat) (chk : Bool) (neg : Nat) {out : List (Quad K)}
    {s' : State K (St K P Keep Fac)} (hcall : s.multiSolve (env L o maxSet scale E) matOf vecOf fuel a rhs sol chk neg = (.ret .success, out, s')) :
    out.length = sol.length ∧ ∀ i (h1 : i < rhs.length) (h2 : i < out.length),
      (out[i]).Dim (a.contents matOf vecOf) ∧ SolvesQuad (a.contents matOf vecOf) out[i] rhs[i] := by
  have C := contract LO o ho hoi maxSet scale hsc E hE
  have R' : Reach (env L o maxSet scale E) (RepE KeepOf FacOf inertia) matOf vecOf s h :=
    reach_mono (fun b ⟨keep, hb⟩ => by rw [hb]; exact ⟨rep_start o keep ho, hoi⟩) R
  obtain ⟨e, ot, s2, h1, _, _, h2⟩ := AugSolve.multiSolve_correct C (AugSolve.reach_inv C R') A fuel chk neg
  rw [hcall] at h1
  cases h1
  exact h2 rfl

/-- C77: and the call comes to an end: if MA27 asks for more memory than it had whenever it runs out of memory, and the memory increase
factor is at least 1, then at most 2 · (largest Index) + 2 passes of the CALL_AGAIN loop are needed. -/
theorem ma27_ends [DecidableEq K] {B : Type} (LO : LibOK L KeepOf FacOf inertia) (hA : AsksForMore L) (o : Opts P) (ho : 1 ≤ o.memInc)
    (hoi : o.ignoreSingular = false) (maxSet : Bool) (scale : Option (Nat → Nat → (Nat → Nat) → (Nat → Nat) → (Nat → K) → Option (Nat → K)))
    (hsc : ∀ g, scale = some g → ∀ d n ir jc a f, g d n ir jc a = some f → ∀ i, i < d → f i ≠ 0)
    (E : Env K B) (hE : ∀ t, CSR.SortedEntries t (E.sort t)) {matOf : Nat → Mat K} {vecOf : Nat → List K} {s : State K (St K P Keep Fac)} {h : Hist K}
    (R : Reach (env L o maxSet scale E) (fun st _ => ∃ keep, st = St.start o keep L) matOf vecOf s h)
    (a : Args K) (rhs sol : List (Quad K)) (fuel : Nat) (hf : 2 * L.imax + 2 ≤ fuel) (chk : Bool) (neg : Nat) :
    (s.multiSolve (env L o maxSet scale E) matOf vecOf fuel a rhs sol chk neg).1 ≠ .running := by
  have C := contract LO o ho hoi maxSet scale hsc E hE
  have R' : Reach (env L o maxSet scale E) (RepE KeepOf FacOf inertia) matOf vecOf s h :=
    reach_mono (fun b ⟨keep, hb⟩ => by rw [hb]; exact ⟨rep_start o keep ho, hoi⟩) R
  obtain ⟨k, hk, _⟩ := (AugSolve.reach_inv C R').rep
  refine multiSolve_ends (env L o maxSet scale E) (fun st => 1 ≤ st.memInc) (patience L) (2 * L.imax + 1) ?_ ?_ ?_ ?_ (patience_le L)
    matOf vecOf fuel (by omega) a rhs sol chk neg s hk.1.memInc
  · intro v b hb
    obtain ⟨e1, e2⟩ := write_patience L v b
    exact ⟨by show 1 ≤ (b.write L v).2.memInc; rw [e1]; exact hb, e2.le⟩
  · intro d n ir jc a b hb; exact ⟨hb, le_refl _⟩
  · intro new ia ja nrhs arr chk neg b hb hs
    obtain ⟨e1, e2⟩ := solve_patience L hA new ia ja nrhs arr chk neg b hb
    exact ⟨by show 1 ≤ (b.multiSolve L new ia ja nrhs arr chk neg).2.2.memInc; rw [e1]; exact hb, e2 ((statusOf_iff _ _ (by simp)).1 hs)⟩
  · intro d n ia ja b hb
    show 1 ≤ (b.initStructure L d n ia ja).2.memInc
    rw [(struct_memInc L d n ia ja b).1]; exact hb

/-- C77: a solve that succeeds delivers solutions for all right-hand sides: with the values written since the last solve, otherwise with the
matrix of the last successful solve; the number of negative eigenvalues reported afterwards is that of this matrix. -/
theorem ma27_solve_success (LO : LibOK L KeepOf FacOf inertia) (hA : AsksForMore L) {st : St K P Keep Fac} {k : Known K} {c : Care} (R : Ran L st k c)
    (hi : st.ignoreSingular = false) {S : Structure} {new : Bool} (ha : k.AllowsSolve S new) (hsome : k.array.isSome ∨ k.held.isSome ∨ k.raised = true)
    (nrhs : Nat) (arr : Nat → K) (chk : Bool) (neg : Nat) {out : Nat → K} {st' : St K P Keep Fac}
    (h : st.multiSolve L new S.ia S.ja nrhs arr chk neg = (some .success, out, st')) :
    ∃ v, k.array.or k.held = some v ∧ SolvesAll .triplet S v nrhs out arr ∧ st'.neg = inertia S v := by
  have X := solve_res LO (ran_inv LO hA R).rep ha nrhs arr chk neg
  rw [h] at X
  exact (X.success rfl).2.1 hi hsome

/-- C77: if new values were written and the inertia is to be checked, success means that the matrix has the wanted number of negative
eigenvalues, … -/
theorem ma27_inertia_ok (LO : LibOK L KeepOf FacOf inertia) (hA : AsksForMore L) {st : St K P Keep Fac} {k : Known K} {c : Care} (R : Ran L st k c)
    (hi : st.ignoreSingular = false) (hskip : st.skipInertia = false) {S : Structure} {new : Bool} (ha : k.AllowsSolve S new) {v : Nat → K}
    (hv : k.array = some v) (nrhs : Nat) (arr : Nat → K) (neg : Nat) {out : Nat → K} {st' : St K P Keep Fac}
    (h : st.multiSolve L new S.ia S.ja nrhs arr true neg = (some .success, out, st')) : inertia S v = neg := by
  have X := solve_res LO (ran_inv LO hA R).rep ha nrhs arr true neg
  rw [h] at X
  obtain ⟨_, x2, x3⟩ := X.success rfl
  obtain ⟨w, e1, _, e2⟩ := x2 hi (Or.inl (by rw [hv]; rfl))
  rw [hv] at e1
  simp only [Option.some_or, Option.some.injEq] at e1
  subst e1
  rw [← e2]
  exact x3 hi (Or.inr (by rw [hv]; rfl)) rfl hskip

/-- C77: … and WRONG_INERTIA that it has not, and that the check was asked for. -/
theorem ma27_inertia_wrong (LO : LibOK L KeepOf FacOf inertia) (hA : AsksForMore L) {st : St K P Keep Fac} {k : Known K} {c : Care} (R : Ran L st k c)
    (hi : st.ignoreSingular = false) {S : Structure} {new : Bool} (ha : k.AllowsSolve S new) {v : Nat → K}
    (hv : k.array = some v) (nrhs : Nat) (arr : Nat → K) (chk : Bool) (neg : Nat) {out : Nat → K} {st' : St K P Keep Fac}
    (h : st.multiSolve L new S.ia S.ja nrhs arr chk neg = (some .wrongInertia, out, st')) :
    inertia S v ≠ neg ∧ chk = true ∧ st.skipInertia = false ∧ out = arr := by
  have X := solve_res LO (ran_inv LO hA R).rep ha nrhs arr chk neg
  rw [h] at X
  obtain ⟨x1, x2, _, x3⟩ := X.wrong rfl
  exact ⟨x3 hi v hv, x1, x2, (X.other (by simp) (by simp)).1⟩

/-- C77: whatever the caller writes between the calls, the object does not ask more than 2 · (largest Index) + 1 times in a row to be called
again. -/
theorem ma27_call_again_bounded (hA : AsksForMore L) (s : Nat → St K P Keep Fac) (n : Nat) (h0 : 1 ≤ (s 0).memInc)
    (hs : ∀ i, i < n → ∃ new ia ja nrhs arr chk neg v, ((s i).multiSolve L new ia ja nrhs arr chk neg).1 = some .callAgain ∧
      s (i + 1) = (((s i).multiSolve L new ia ja nrhs arr chk neg).2.2.write L v).2) : n ≤ 2 * L.imax + 1 := by
  have key : ∀ i, i ≤ n → 1 ≤ (s i).memInc ∧ patience L (s i) + i ≤ patience L (s 0) := by
    intro i
    induction i with
    | zero => intro _; exact ⟨h0, le_refl _⟩
    | succ i ih =>
      intro hi
      obtain ⟨g1, g2⟩ := ih (by omega)
      obtain ⟨new, ia, ja, nrhs, arr, chk, neg, v, e1, e2⟩ := hs i (by omega)
      obtain ⟨f1, f2⟩ := solve_patience L hA new ia ja nrhs arr chk neg (s i) g1
      obtain ⟨w1, w2⟩ := write_patience L v ((s i).multiSolve L new ia ja nrhs arr chk neg).2.2
      rw [e2, w1, w2, f1]
      have := f2 e1
      exact ⟨g1, by omega⟩
  have := (key n (le_refl _)).2
  have := patience_le L (s 0)
  omega

/-- C77: as long as values are written and systems solved only when no exception has occurred since the structure was last analysed, and the
object is re-initialized with `warm_start_same_structure` only after a solve that followed the last hand-out of the array of values, no
routine is given an array shorter than it was told. -/
theorem ma27_no_overrun (LO : LibOK L KeepOf FacOf inertia) (hA : AsksForMore L) {st : St K P Keep Fac} {k : Known K} {c : Care} (R : Ran L st k c)
    (hc : c.ok = true) : st.overrun = false := (ran_inv LO hA R).ok hc

/-- C77: `Initialize` succeeds only with a maximal pivot tolerance that is not below the pivot tolerance. -/
theorem ma27_pivtol_init (o : Opts P) (maxSet warm : Bool) (st : St K P Keep Fac) (h : (st.init o maxSet warm).1 = true) :
    (st.init o maxSet warm).2.pivtol = o.pivtol ∧ o.pivtol ≤ (st.init o maxSet warm).2.pivtolmax := by
  unfold St.init at h ⊢
  split
  · rename_i hc; rw [if_pos hc] at h; simp at h
  · rename_i hc
    have : o.pivtol ≤ (if maxSet = true then o.pivtolmax else max o.pivtolmax o.pivtol) := by
      split
      · rename_i hm
        simp only [hm, Bool.true_and, Bool.not_eq_true', decide_eq_false_iff_not, not_not] at hc
        exact hc
      · exact le_max_right _ _
    dsimp only
    split <;> exact ⟨rfl, this⟩

/-- C77: memory is enlarged before the next factorization only if the last one needed many compressions of it. -/
theorem ma27_grow_when_needed (st : St K P Keep Fac) (airn ajcn : Nat → Nat) (nrhs : Nat) (arr : Nat → K) (chk : Bool) (neg : Nat) {out : Nat → K}
    {st' : St K P Keep Fac} (h : st.multiSolve L true airn ajcn nrhs arr chk neg = (some .success, out, st')) :
    ∃ a la liw, st'.la = la ∧ st'.liw = liw ∧ st'.laInc = decide (10 ≤ (L.factor st.dim st.nnz airn ajcn a la liw st.keep st.pivtol).ncmpbr) ∧
      st'.liwInc = decide (10 ≤ (L.factor st.dim st.nnz airn ajcn a la liw st.keep st.pivtol).ncmpbi) := by
  have gA : ∀ s : St K P Keep Fac, (s.growA L).1 = true → (s.growA L).2.laInc = false ∧ (s.growA L).2.liwInc = s.liwInc ∧
      (s.growA L).2.dim = s.dim ∧ (s.growA L).2.nnz = s.nnz ∧ (s.growA L).2.keep = s.keep ∧ (s.growA L).2.pivtol = s.pivtol := by
    intro s
    unfold St.growA
    split
    · split
      · simp
      · dsimp only
        split <;> simp
    · rename_i hc; simp at hc; simp [hc]
  have gI : ∀ s : St K P Keep Fac, (s.growIW L).1 = true → (s.growIW L).2.liwInc = false ∧ (s.growIW L).2.laInc = s.laInc ∧
      (s.growIW L).2.dim = s.dim ∧ (s.growIW L).2.nnz = s.nnz ∧ (s.growIW L).2.keep = s.keep ∧ (s.growIW L).2.pivtol = s.pivtol := by
    intro s
    unfold St.growIW St.newIW
    split
    · split
      · simp
      · dsimp only
        split <;> simp
    · rename_i hc; simp at hc; simp [hc]
  have gAg : ∀ (s : St K P Keep Fac) (b : BOut Fac), (s.again L b).1 ≠ some .success := by
    intro s b
    unfold St.again
    dsimp only
    split
    · simp
    · split
      · simp
      · split
        · simp
        · split <;> simp
  have gJ : ∀ (s : St K P Keep Fac) (b : BOut Fac) (chk : Bool) (neg : Nat), (s.judge L b chk neg).1 = some .success →
      (s.judge L b chk neg).2.la = s.la ∧ (s.judge L b chk neg).2.liw = s.liw ∧
      (s.judge L b chk neg).2.laInc = (s.laInc || decide (10 ≤ b.ncmpbr)) ∧ (s.judge L b chk neg).2.liwInc = (s.liwInc || decide (10 ≤ b.ncmpbi)) := by
    intro s b chk neg
    unfold St.judge
    split
    · intro e; exact absurd e (gAg s b)
    · split
      · simp
      · split
        · simp
        · dsimp only
          by_cases hb : b.iflag = 3
          · simp only [hb, if_true]; split <;> simp
          · simp only [hb, if_false]; split <;> simp
  unfold St.multiSolve at h
  simp only [Bool.not_true, Bool.false_eq_true, and_false, if_false, Bool.true_or, if_true] at h
  generalize hf : ({ st with pivtolChanged := false } : St K P Keep Fac).factorize L airn ajcn chk neg = f at h
  by_cases hs : f.1 = some .success
  · rw [if_pos hs] at h
    dsimp only at h
    rw [if_pos hs] at h
    simp only [Prod.mk.injEq, true_and] at h
    unfold St.factorize at hf
    have a := gA { st with pivtolChanged := false }
    generalize ({ st with pivtolChanged := false } : St K P Keep Fac).growA L = r at hf a
    obtain ⟨b, r⟩ := r
    dsimp only at hf a
    cases b
    · simp only [Bool.not_false, if_true] at hf; rw [← hf] at hs; simp at hs
    · simp only [Bool.not_true, Bool.false_eq_true, if_false] at hf
      have a := a rfl
      have c := gI r
      generalize r.growIW L = q at hf c
      obtain ⟨b, q⟩ := q
      dsimp only at hf c
      cases b
      · simp only [Bool.not_false, if_true] at hf; rw [← hf] at hs; simp at hs
      · simp only [Bool.not_true, Bool.false_eq_true, if_false] at hf
        have c := c rfl
        rw [← hf] at hs
        have j := gJ _ _ _ _ hs
        rw [hf] at j
        obtain ⟨a1, a2, a3, a4, a5, a6⟩ := a
        obtain ⟨c1, c2, c3, c4, c5, c6⟩ := c
        obtain ⟨j1, j2, j3, j4⟩ := j
        dsimp only at *
        refine ⟨q.work, q.la, q.liw, ?_, ?_, ?_, ?_⟩
        · rw [← h.2]; exact j1
        · rw [← h.2]; exact j2
        · rw [← h.2, ← a3, ← c3, ← a4, ← c4, ← a5, ← c5, ← a6, ← c6]; simpa [c2, a1] using j3
        · rw [← h.2, ← a3, ← c3, ← a4, ← c4, ← a5, ← c5, ← a6, ← c6]; simpa [c1] using j4
  · rw [if_neg hs] at h
    rw [if_neg hs] at h
    simp only [Prod.mk.injEq] at h
    exact absurd h.1 hs

/-- C77: a new initialization forgets what was asked for before it: no refactorization is pending. -/
theorem ma27_init_forgets (o : Opts P) (maxSet warm : Bool) (st : St K P Keep Fac) (h : (st.init o maxSet warm).1 = true) (airn ajcn : Nat → Nat) (nrhs : Nat)
    (arr : Nat → K) (chk : Bool) (neg : Nat) : ((st.init o maxSet warm).2.multiSolve L false airn ajcn nrhs arr chk neg).1 = some .success := by
  have k : (st.init o maxSet warm).2.pivtolChanged = false ∧ (st.init o maxSet warm).2.refactorize = false := by
    unfold St.init at h ⊢
    split
    · rename_i hc; rw [if_pos hc] at h; simp at h
    · dsimp only; split <;> exact ⟨rfl, rfl⟩
  generalize (st.init o maxSet warm).2 = s at k ⊢
  unfold St.multiSolve
  simp [k.1, k.2]

/-- C77: `IncreaseQuality` refuses exactly when the maximal pivot tolerance is reached; otherwise the next solve, if the matrix is not new,
asks for its values. -/
theorem ma27_quality (st : St K P Keep Fac) : ((st.quality L).1 = false ↔ st.pivtol = st.pivtolmax) ∧
    ((st.quality L).1 = true → ∀ ia ja nrhs arr chk neg, ((st.quality L).2.multiSolve L false ia ja nrhs arr chk neg).1 = some .callAgain ∧
      ((st.quality L).2.multiSolve L false ia ja nrhs arr chk neg).2.1 = arr) := by
  unfold St.quality
  by_cases h : st.pivtol = st.pivtolmax
  · rw [if_pos h]; exact ⟨by simp [h], fun e => by simp at e⟩
  · rw [if_neg h]
    refine ⟨by simp [h], fun _ ia ja nrhs arr chk neg => ?_⟩
    unfold St.multiSolve
    rw [if_pos ⟨rfl, rfl⟩]
    exact ⟨rfl, rfl⟩

end

section Pivot
variable {K Keep Fac : Type} [Field K]

/-- C77: with the power 3/4 and a maximal pivot tolerance below 1 (the range of the option), the pivot tolerance never decreases and never
exceeds its maximum, and `IncreaseQuality` can be successful only a bounded number of times between two initializations, whatever happens
in between. -/
theorem ma27_quality_finite (L : Lib K ℝ Keep Fac) (hL : L.raisePow = fun x => x ^ (3 / 4 : ℝ)) (st : St K ℝ Keep Fac) (h0 : 0 < st.pivtol)
    (h1 : st.pivtol ≤ st.pivtolmax) (h2 : st.pivtolmax < 1) :
    (∀ n st', Later L st n st' → st.pivtol ≤ st'.pivtol ∧ st'.pivtol ≤ st.pivtolmax ∧ st'.pivtolmax = st.pivtolmax) ∧
    ∃ N, ∀ n st', Later L st n st' → n ≤ N := by
  refine ⟨fun n st' h => ?_, ?_⟩
  · obtain ⟨a1, a2, a3, _⟩ := later_pivtol hL h h0 h1 h2
    exact ⟨a2, a3, a1⟩
  · obtain ⟨N, hN⟩ := quality_bound h0 h1 h2
    refine ⟨N, fun n st' h => ?_⟩
    by_contra hc
    obtain ⟨_, _, _, _, a5⟩ := later_pivtol hL h h0 h1 h2
    have := a5 (by omega)
    rw [min_eq_left (hN (n - 1) (by omega))] at this
    exact lt_irrefl _ this

end Pivot

/-! ## Concrete histories -/

/-- memory is never short. -/
abbrev okLib : Lib ℚ ℚ Unit ℚ := demoLib fun _ _ => true

/-- after initialization and structure, … -/
def demo0 : St ℚ ℚ Unit ℚ := ((St.start demoOpts () okLib).init demoOpts false false).2
@[inherit_doc demo0] def demo1 : St ℚ ℚ Unit ℚ := (demo0.initStructure okLib 1 1 (fun _ => 1) (fun _ => 1)).2
/-- … the value -4 is written, the solve asks for more memory, … -/
def demo2 : St ℚ ℚ Unit ℚ := (demo1.write okLib (fun _ => -4)).2
@[inherit_doc demo2] def demo3 : St ℚ ℚ Unit ℚ := (demo2.multiSolve okLib true (fun _ => 1) (fun _ => 1) 2 (fun i => 8 + 4 * i) true 1).2.2
/-- … and succeeds after the value has been written again, with many compressions. -/
def demo4 : St ℚ ℚ Unit ℚ := (demo3.write okLib (fun _ => -4)).2
@[inherit_doc demo4] def demo5 : St ℚ ℚ Unit ℚ := (demo4.multiSolve okLib true (fun _ => 1) (fun _ => 1) 2 (fun i => 8 + 4 * i) true 1).2.2

theorem demo_run : ((St.start demoOpts () okLib).init demoOpts false false).1 = true ∧
    (demo0.initStructure okLib 1 1 (fun _ => 1) (fun _ => 1)).1 = some .success ∧ (demo1.write okLib (fun _ => -4)).1 = true ∧
    (demo2.multiSolve okLib true (fun _ => 1) (fun _ => 1) 2 (fun i => 8 + 4 * i) true 1).1 = some .callAgain ∧
    (demo3.write okLib (fun _ => -4)).1 = true ∧
    (demo4.multiSolve okLib true (fun _ => 1) (fun _ => 1) 2 (fun i => 8 + 4 * i) true 1).1 = some .success ∧
    (List.range 2).map (demo4.multiSolve okLib true (fun _ => 1) (fun _ => 1) 2 (fun i => 8 + 4 * i) true 1).2.1 = [-2, -3] ∧
    (demo1.la, demo1.liw, demo3.la, demo3.liw, demo5.laInc, demo5.neg) = (2, 8, 20, 16, true, 1) ∧
    (demo4.multiSolve okLib true (fun _ => 1) (fun _ => 1) 2 (fun i => 8 + 4 * i) true 0).1 = some .wrongInertia := by
  decide +kernel

/-- the state before the successful solve is reached by a careful history, with values written, and the solve is allowed. -/
theorem demo_ran : ∃ k c, Ran okLib demo4 k c ∧ c.ok = true ∧ c.sound = true ∧ k.array = some (fun _ => -4) ∧ k.AllowsSolve demoStruct true := by
  obtain ⟨v1, v2, v3, v4, v5, _⟩ := demo_run
  have r0 := Ran.init (L := okLib) demoOpts false false (by decide +kernel) (Ran.start (L := okLib) demoOpts () (by decide +kernel))
  rw [v1] at r0
  have r1 := Ran.struct demoStruct (by decide) r0 ⟨rfl, fun e => by simp [Known.afterInit] at e⟩ rfl
  have v2' : (demo0.initStructure okLib demoStruct.dim demoStruct.nnz demoStruct.ia demoStruct.ja).1 = some .success := v2
  simp only [show ((St.start demoOpts () okLib).init demoOpts false false).2 = demo0 from rfl, v2'] at r1
  have r2 := Ran.write (S := demoStruct) (fun _ => -4) r1 rfl v3
  have r3 := Ran.solve (L := okLib) (S := demoStruct) true 2 (fun i => 8 + 4 * i) true 1 r2 (by exact ⟨rfl, fun _ => rfl, fun _ => Or.inl rfl⟩)
  have v4' : (demo2.multiSolve okLib true demoStruct.ia demoStruct.ja 2 (fun i => 8 + 4 * i) true 1).1 = some .callAgain := v4
  simp only [show ((demo0.initStructure okLib demoStruct.dim demoStruct.nnz demoStruct.ia demoStruct.ja).2.write okLib (fun _ => -4)).2 = demo2 from rfl, v4'] at r3
  have r4 := Ran.write (S := demoStruct) (fun _ => -4) r3 rfl v5
  exact ⟨_, _, r4, rfl, rfl, rfl, by exact ⟨rfl, fun _ => rfl, fun _ => Or.inl rfl⟩⟩

/-- A solve without a new matrix does not check the inertia: the same matrix (with one negative eigenvalue) is accepted when 0 negative
eigenvalues are asked for, although the call with a new matrix refuses. -/
theorem ma27_inertia_unchecked : (demo5.multiSolve okLib false (fun _ => 1) (fun _ => 1) 1 (fun i => 8) true 0).1 = some .success ∧
    (demo4.multiSolve okLib true (fun _ => 1) (fun _ => 1) 1 (fun i => 8) true 0).1 = some .wrongInertia := by decide +kernel

/-- the array of values is handed out again (after many compressions it is replaced by a short one), then the object is re-initialized with
`warm_start_same_structure`, because, for example, the scaling method has failed. -/
def careless0 : St ℚ ℚ Unit ℚ := ((demo5.write okLib (fun _ => -4)).2.init demoOpts false true).2
@[inherit_doc careless0] def careless1 : St ℚ ℚ Unit ℚ :=
  ((careless0.initStructure okLib 1 1 (fun _ => 1) (fun _ => 1)).2.write okLib (fun _ => -4)).2

/-- Why the condition on warm starts is needed: `InitializeImpl` forgets that the array is to be enlarged, so `ma27b` is told that an array of
length 1 has length 20. -/
theorem ma27_overrun_after_warm_start : ((demo5.write okLib (fun _ => -4)).2.init demoOpts false true).1 = true ∧
    (careless0.initStructure okLib 1 1 (fun _ => 1) (fun _ => 1)).1 = some .success ∧
    (careless1.aLen, careless1.la, careless1.overrun) = (some 1, 20, false) ∧
    (careless1.multiSolve okLib true (fun _ => 1) (fun _ => 1) 1 (fun i => 8) true 1).2.2.overrun = true := by decide +kernel

/-- the options of the demo meet the hypotheses of the theorems on the pivot tolerance: three increases, with doubling instead of the power. -/
example : (demo5.quality okLib).1 = true ∧ ((demo5.quality okLib).2.quality okLib).1 = true ∧
    (demo5.quality okLib).2.pivtol = 1 / 500000 := by decide +kernel

/-! ### The whole stack -/

/-- min x² + …: one variable, no constraints; a second Hessian. -/
def demoMat : Nat → Mat ℚ
  | 1 => .symT 1 [⟨1, 1, -4⟩]
  | 2 => .genT 0 1 []
  | 3 => .genT 0 1 []
  | _ => .symT 1 [⟨1, 1, 5⟩]

/-- the arguments. -/
def demoArgs : Args ℚ := ⟨some 1, 1, none, 0, none, 0, 2, none, 0, 3, none, 0⟩
/-- the environment: MA27 without scaling. -/
abbrev demoE : Env ℚ (St ℚ ℚ Unit ℚ) := env okLib demoOpts false none (AugSolve.demoEnv .triplet [])
/-- after initialization. -/
def stack1 : State ℚ (St ℚ ℚ Unit ℚ) := ((State.start demoE (St.start demoOpts () okLib)).init demoE false false).2
/-- right-hand side and place for the solution. -/
def demoRhs : Quad ℚ := ⟨.dense [8], .dense [], .dense [], .dense []⟩
@[inherit_doc demoRhs] def demoSol : Quad ℚ := ⟨.dense [0], .dense [], .dense [], .dense []⟩

theorem demo_stack : ((State.start demoE (St.start demoOpts () okLib)).init demoE false false).1 = some true ∧
    (stack1.multiSolve demoE demoMat (fun _ => []) 5 demoArgs [demoRhs] [demoSol] true 1).1 = .ret .success ∧
    (stack1.multiSolve demoE demoMat (fun _ => []) 5 demoArgs [demoRhs] [demoSol] true 1).2.1.map (fun q => q.vec.elems) = [[-2]] ∧
    (stack1.multiSolve demoE demoMat (fun _ => []) 5 demoArgs [demoRhs] [demoSol] true 0).1 = .ret .wrongInertia := by decide +kernel

/-- the hypotheses of `ma27_solution` and `ma27_ends` are met. -/
theorem demo_stack_reach : Reach demoE (fun st _ => ∃ keep, st = St.start demoOpts keep okLib) demoMat (fun _ => []) stack1 ⟨true, none, none⟩ ∧
    (⟨true, none, none⟩ : Hist ℚ).Allows demoMat (fun _ => []) demoArgs [demoRhs] [demoSol] := by
  constructor
  · have r0 : Reach demoE (fun st _ => ∃ keep, st = St.start demoOpts keep okLib) demoMat (fun _ => []) (State.start demoE (St.start demoOpts () okLib))
        ⟨false, none, none⟩ := .start _ ⟨(), rfl⟩
    have := Reach.init false false r0
    rw [demo_stack.1] at this
    exact this
  · refine ⟨rfl, by decide, ⟨?_, ?_, ?_, rfl, ?_, ?_, ?_, ?_, by decide⟩, fun _ => by decide, fun f hf => by simp at hf, fun r hr => by simp at hr, rfl, ?_, ?_⟩
    · intro W hW
      simp [Args.contents, demoArgs] at hW
      subst hW
      simp [demoMat, Matrix.WF, Matrix.isSym, Triplet.Supported, Triplet.TriangleOK, Mat.dims, Args.contents, demoArgs]
    · simp [demoMat, Matrix.WF, Triplet.Supported, Triplet.NoTriangle, Args.contents, demoArgs]
    · simp [demoMat, Matrix.WF, Triplet.Supported, Triplet.NoTriangle, Args.contents, demoArgs]
    · simp [Args.contents, demoArgs]
    · simp [Args.contents, demoArgs]
    · simp [Args.contents, demoArgs]
    · simp [Args.contents, demoArgs]
    · intro q hq; simp at hq; subst hq
      refine ⟨?_, ?_, ?_, ?_⟩ <;> simp [demoRhs, Triplet.Vec.known, Triplet.Vec.dim, Args.contents, demoArgs, demoMat, Mat.dims]
    · intro q hq; simp at hq; subst hq
      refine ⟨?_, ?_, ?_, ?_⟩ <;> simp [demoSol, Triplet.Vec.known, Triplet.Vec.dim, Args.contents, demoArgs, demoMat, Mat.dims]

end Verif.Ma27
