import Verif.Proof.Mumpsb
import Verif.Proof.Ma27d

/-! # One call of `MultiSolve` of the MUMPS interface -/

namespace Verif.Mumps
open Verif.AugSolve (Status Structure Known SolvesAll denote Contract Env)
open Verif.Ma27 (memIncrease putColumn putColumn_self putColumn_other statusOf statusOf_iff)
open Finset

set_option linter.unusedSectionVars false
set_option linter.unusedSimpArgs false
set_option linter.unusedVariables false

variable {K P M : Type} [Field K]
variable {L : Lib K P M} {SymOf : M → Structure → Prop} {FacOf : M → Structure → (Nat → K) → Prop} {inertia : Structure → (Nat → K) → Int}

theorem solveLoop_state (L : Lib K P M) : ∀ k i ok arr (st : St K P M), (∃ m l, (st.solveLoop L k i ok arr).2.2 = { st with m := m, log := l ++ st.log } ∧
      l.length = k ∧ (∀ c ∈ l, c.job = 3)) ∧
    (∀ Q : M → Prop, Q st.m → (∀ m b, Q m → Q (L.backsolve st.n m b).2.2) → Q (st.solveLoop L k i ok arr).2.2.m) ∧
    ((st.solveLoop L k i ok arr).1 = true → ok = true) := by
  intro k
  induction k with
  | zero => intro i ok arr st; exact ⟨⟨st.m, [], rfl, rfl, fun c h => by simp at h⟩, fun Q h _ => h, fun h => h⟩
  | succ k ih =>
    intro i ok arr st
    unfold St.solveLoop
    dsimp only
    generalize hr : L.backsolve st.n st.m (fun j => arr (i * st.n + j)) = r
    obtain ⟨⟨m, l, h1, h2, h3⟩, h4, h5⟩ := ih (i + 1) (ok && decide (0 ≤ r.1)) (putColumn st.n i r.2.1 arr)
      { st with m := r.2.2, log := ⟨3, st.ctl, r.1⟩ :: st.log }
    refine ⟨⟨m, l ++ [⟨3, st.ctl, r.1⟩], by rw [h1]; simp, by simp [h2], fun c hc => ?_⟩, fun Q h0 hQ => h4 Q ?_ hQ, fun h => ?_⟩
    · simp only [List.mem_append, List.mem_singleton] at hc
      rcases hc with hc | hc
      · exact h3 c hc
      · rw [hc]
    · show Q r.2.2; rw [← hr]; exact hQ _ _ h0
    · have := h5 h
      simp only [Bool.and_eq_true] at this
      exact this.1

theorem solveLoop_spec (LO : LibOK L SymOf FacOf inertia) (S : Structure) (v : Nat → K) :
    ∀ k i0 ok arr (st : St K P M), st.n = S.dim → FacOf st.m S v → (st.solveLoop L k i0 ok arr).1 = true →
      (∀ j, j < i0 * S.dim ∨ (i0 + k) * S.dim ≤ j → (st.solveLoop L k i0 ok arr).2.1 j = arr j) ∧
      ∀ i, i0 ≤ i → i < i0 + k → ∀ r, r < S.dim →
        ∑ c ∈ range S.dim, denote .triplet S.nnz S.ia S.ja v r c * (st.solveLoop L k i0 ok arr).2.1 (i * S.dim + c) = arr (i * S.dim + r) := by
  intro k
  induction k with
  | zero => intro i0 ok arr st _ _ _; exact ⟨fun _ _ => rfl, fun i h1 h2 => by omega⟩
  | succ k ih =>
    intro i0 ok arr st hd hf hok
    unfold St.solveLoop at hok ⊢
    dsimp only at hok ⊢
    rw [hd] at hok ⊢
    generalize hy : L.backsolve S.dim st.m (fun j => arr (i0 * S.dim + j)) = y at hok ⊢
    have h0 := (solveLoop_state L k (i0 + 1) _ _ _).2.2 hok
    simp only [Bool.and_eq_true, decide_eq_true_eq] at h0
    have hf' : FacOf y.2.2 S v := by rw [← hy]; exact (LO.solveKeep S st.m _).2 v hf
    obtain ⟨g1, g2⟩ := ih (i0 + 1) (ok && decide (0 ≤ y.1)) (putColumn S.dim i0 y.2.1 arr)
      { st with n := S.dim, m := y.2.2, log := ⟨3, st.ctl, y.1⟩ :: st.log } rfl hf' hok
    have hyb := LO.backsolve S v st.m (fun j => arr (i0 * S.dim + j)) hf (by rw [hy]; exact h0.2)
    rw [hy] at hyb
    refine ⟨fun j hj => ?_, fun i h1 h2 r hr => ?_⟩
    · have e1 : (i0 + 1) * S.dim = i0 * S.dim + S.dim := by ring
      have e2 : (i0 + (k + 1)) * S.dim = i0 * S.dim + S.dim + k * S.dim := by ring
      have e3 : (i0 + 1 + k) * S.dim = i0 * S.dim + S.dim + k * S.dim := by ring
      rw [g1 j (by omega)]
      exact putColumn_other _ _ _ _ _ (by
        rcases hj with h | h
        · exact Or.inl h
        · right; rw [e2] at h; rw [e1]; exact le_trans (Nat.le_add_right _ _) h)
    · by_cases hi : i = i0
      · subst hi
        have h0 := hyb 0 (by omega) r hr
        simp only [Nat.zero_mul, Nat.zero_add] at h0
        rw [← h0]
        refine Finset.sum_congr rfl fun c hc => ?_
        rw [g1 _ (Or.inl (by rw [Nat.add_mul]; have := Finset.mem_range.1 hc; omega)), putColumn_self _ _ _ _ _ (Finset.mem_range.1 hc)]
      · have := g2 i (by omega) (by omega) r hr
        rw [this]
        refine putColumn_other _ _ _ _ _ (Or.inr ?_)
        have : (i0 + 1) * S.dim ≤ i * S.dim := Nat.mul_le_mul_right _ (by omega)
        omega

/-- everything about the outcome of a call. -/
structure SolveRes (SymOf : M → Structure → Prop) (FacOf : M → Structure → (Nat → K) → Prop)
    (inertia : Structure → (Nat → K) → Int) (st : St K P M) (k : Known K) (S : Structure) (new : Bool) (nrhs : Nat) (arr : Nat → K)
    (chk : Bool) (neg : Nat) (r : Option Status) (out : Nat → K) (st' : St K P M) : Prop where
  success : r = some .success → Rep SymOf FacOf inertia st' (k.afterSolve (k.array.or k.held) false) ∧
    ((k.array.isSome ∨ k.held.isSome ∨ k.raised = true) → ∃ v, k.array.or k.held = some v ∧
      SolvesAll .triplet S v nrhs out arr ∧ st'.neg = inertia S v) ∧
    (k.array.isSome → chk = true → st'.neg = neg)
  again : r = some .callAgain → out = arr ∧ Rep SymOf FacOf inertia st' (k.afterSolve none (!new)) ∧ st.pivtolChanged = true ∧ new = false
  other : r ≠ some .success → r ≠ some .callAgain → Rep SymOf FacOf inertia st' (k.afterSolve none false)
  wrong : r = some .wrongInertia → chk = true ∧ ∀ v, k.array = some v → inertia S v ≠ neg
  flags : st'.pivtolChanged = false

theorem solve_res (LO : LibOK L SymOf FacOf inertia) {st : St K P M} {k : Known K} (h : Rep SymOf FacOf inertia st k)
    {S : Structure} {new : Bool} (ha : k.AllowsSolve S new) (nrhs : Nat) (arr : Nat → K) (chk : Bool) (neg : Nat) :
    SolveRes SymOf FacOf inertia st k S new nrhs arr chk neg (st.multiSolve L new nrhs arr chk neg).1
      (st.multiSolve L new nrhs arr chk neg).2.1 (st.multiSolve L new nrhs arr chk neg).2.2 := by
  obtain ⟨ha1, ha2, ha3⟩ := ha
  have hp := h.struct S ha1
  obtain ⟨p1, p2, p3, p4, p5⟩ := h.prev S hp
  have hprev : ∀ S', k.prev = some S' → S' = S := fun S' e => by rw [hp] at e; simpa using e.symm
  unfold St.multiSolve
  by_cases hA : st.pivtolChanged = true ∧ (!new) = true
  · rw [if_pos hA]
    refine ⟨fun e => by simp at e, fun _ => ⟨rfl, ?_, hA.1, by simpa using hA.2⟩, fun _ e => by simp at e, fun e => by simp at e, rfl⟩
    exact ⟨h.warm, h.nul, h.prev, h.struct, fun v e => by simp [Known.afterSolve] at e, fun S v _ e => by simp [Known.afterSolve] at e,
        fun e => by simp [Known.afterSolve] at e, fun _ => rfl⟩
  · rw [if_neg hA]
    dsimp only
    have hpc : new = false → st.pivtolChanged = false := by
      intro e
      by_contra hc
      exact hA ⟨by simpa using hc, by simp [e]⟩
    set st1 : St K P M := { st with pivtolChanged := false } with hst1
    by_cases hB : (new || st.refactorize) = true
    · have hB' : (new || st1.refactorize) = true := hB
      rw [if_pos hB']
      have R := prepare_res (L := L) LO (st := st1) (S := S) p1 p2 p3 p4 p5 h.nul chk neg
      have hheld : ∀ v, k.array = none → k.held = some v → False := by
        intro v e1 e2
        obtain ⟨_, q, _⟩ := h.held S v ha1 e2
        rw [q, Bool.or_false] at hB
        have := ha2 hB
        rw [e1] at this; simp at this
      generalize hf : st1.prepare L chk neg = f at *
      obtain ⟨fs, f⟩ := f
      dsimp only at R ⊢
      obtain ⟨c, g, b, rf, m, l, e1, e2, e3⟩ := R.state
      have hfn : f.n = S.dim := by rw [e1]; exact p1
      have hfz : f.nz = S.nnz := by rw [e1]; exact p2
      have hfi : f.irn = S.ia := by rw [e1]; exact p3
      have hfj : f.jcn = S.ja := by rw [e1]; exact p4
      have hfw : f.warm = st.warm := by rw [e1]
      have hfc : f.ctl.nul = false := by rw [e1]; exact e2
      have hfp : f.pivtolChanged = false := by rw [e1]
      by_cases hs : fs = some .success
      · rw [if_pos hs]
        dsimp only
        obtain ⟨g1, g2, g3, g4, g5⟩ := R.success hs
        have harr : ∀ v, k.array = some v → st1.a = v := h.array
        obtain ⟨⟨m', l', q1, _, _⟩, q2, q3⟩ := solveLoop_state L nrhs 0 true arr f
        have hspec := fun v hf => solveLoop_spec LO S v nrhs 0 true arr f hfn hf
        have hsym : SymOf (f.solveLoop L nrhs 0 true arr).2.2.m S := q2 (fun m => SymOf m S) (R.sym g1) fun m b hm => by
          rw [hfn]; exact (LO.solveKeep S m b).1 hm
        have hfac : ∀ v, FacOf f.m S v → FacOf (f.solveLoop L nrhs 0 true arr).2.2.m S v := fun v hv => q2 (fun m => FacOf m S v) hv fun m b hm => by
          rw [hfn]; exact (LO.solveKeep S m b).2 v hm
        generalize hq : f.solveLoop L nrhs 0 true arr = q at *
        obtain ⟨qb, qo, qs⟩ := q
        dsimp only at q1 q2 q3 hspec hsym hfac ⊢
        have hqm : qs.m = m' := by rw [q1]
        have base : ∀ held asked, asked = false → (∀ v, held = some v → k.array.or k.held = some v) →
            Rep SymOf FacOf inertia qs (k.afterSolve held asked) := by
          intro held asked hask hh
          refine ⟨fun e => by rw [q1]; exact hfw.trans (h.warm e), by rw [q1]; exact hfc, fun S' e => ?_, h.struct,
            fun v e => by simp [Known.afterSolve] at e, fun S' v e e' => ?_, fun e => by simp [Known.afterSolve] at e,
            fun e => by simp [Known.afterSolve, hask] at e⟩
          · have := hprev S' e
            subst this
            refine ⟨by rw [q1]; exact hfn, by rw [q1]; exact hfz, by rw [q1]; exact hfi, by rw [q1]; exact hfj, fun _ => hsym⟩
          · have hS : S' = S := by simp only [Known.afterSolve] at e; rw [ha1] at e; simpa using e.symm
            subst hS
            have e' := hh v e'
            cases hka : k.array with
            | none => rw [hka] at e'; exact (hheld v hka (by simpa using e')).elim
            | some w =>
              rw [hka] at e'
              simp only [Option.some_or, Option.some.injEq] at e'
              subst e'
              have := harr w hka
              rw [this] at g3 g4
              exact ⟨by rw [q1]; exact g4, by rw [q1]; exact g2, hfac w g3⟩
        cases hqb : qb with
        | true =>
          rw [hqb] at hspec
          simp only [if_true]
          refine ⟨fun _ => ⟨base _ _ rfl fun v e => e, fun hsome => ?_, fun _ hc => by rw [q1]; exact g5 hc⟩, fun e => by simp at e, fun e => absurd rfl e, fun e => by simp at e,
            by rw [q1]; exact hfp⟩
          cases hka : k.array with
          | none =>
            exfalso
            rw [hka] at hsome
            rcases hsome with e | e | e
            · simp at e
            · obtain ⟨w, hw⟩ := Option.isSome_iff_exists.1 e
              exact hheld w hka hw
            · have := h.raised e
              cases hn : new with
              | false => rw [hpc hn] at this; simp at this
              | true => have := ha2 hn; rw [hka] at this; simp at this
          | some w =>
            have := harr w hka
            rw [this] at g3 g4
            refine ⟨w, by simp, fun i hi r hr => ?_, by rw [q1]; exact g4⟩
            exact (hspec w g3 rfl).2 i (by omega) (by omega) r hr
        | false =>
          simp only [Bool.false_eq_true, if_false]
          exact ⟨fun e => by simp at e, fun e => by simp at e, fun _ _ => base _ _ rfl fun v e => by simp at e, fun e => by simp at e,
            by rw [q1]; exact hfp⟩
      · rw [if_neg hs]
        have hdrop : ∀ asked, asked = false → Rep SymOf FacOf inertia f (k.afterSolve none asked) := by
          intro asked hask
          refine ⟨fun e => hfw.trans (h.warm e), hfc, fun S' e => ?_, h.struct, fun v e => by simp [Known.afterSolve] at e,
            fun S' v e e' => by simp [Known.afterSolve] at e', fun e => by simp [Known.afterSolve] at e, fun e => by simp [Known.afterSolve, hask] at e⟩
          have := hprev S' e
          subst this
          exact ⟨hfn, hfz, hfi, hfj, R.sym⟩
        refine ⟨fun e => absurd e hs, fun e => absurd e R.noAgain, fun _ _ => hdrop _ rfl, fun e => ?_, hfp⟩
        obtain ⟨w1, w2⟩ := R.wrong e
        refine ⟨w1, fun v hv => ?_⟩
        have : st1.a = v := h.array v hv
        rw [this] at w2
        exact w2
    · have hB' : ¬ (new || st1.refactorize) = true := hB
      rw [if_neg hB']
      simp only [if_true]
      simp only [Bool.or_eq_true, not_or, Bool.not_eq_true] at hB
      obtain ⟨hn, hr⟩ := hB
      have hka : k.array = none := by
        cases hka : k.array with
        | none => rfl
        | some v =>
          rcases ha3 (by rw [hka]; rfl) with e | e
          · rw [hn] at e; simp at e
          · rw [h.asked e] at hr; simp at hr
      obtain ⟨⟨m', l', q1, _, _⟩, q2, q3⟩ := solveLoop_state L nrhs 0 true arr st1
      have hspec := fun v hf => solveLoop_spec LO S v nrhs 0 true arr st1 p1 hf
      have hsym : SymOf st.m S → SymOf (st1.solveLoop L nrhs 0 true arr).2.2.m S := fun hs => q2 (fun m => SymOf m S) hs fun m b hm => by
        rw [show st1.n = S.dim from p1]; exact (LO.solveKeep S m b).1 hm
      have hfac : ∀ v, FacOf st.m S v → FacOf (st1.solveLoop L nrhs 0 true arr).2.2.m S v := fun v hv => q2 (fun m => FacOf m S v) hv fun m b hm => by
        rw [show st1.n = S.dim from p1]; exact (LO.solveKeep S m b).2 v hm
      generalize hq : st1.solveLoop L nrhs 0 true arr = q at *
      obtain ⟨qb, qo, qs⟩ := q
      dsimp only at q1 q2 q3 hspec hsym hfac ⊢
      have base : ∀ held, (∀ v, held = some v → k.held = some v) → Rep SymOf FacOf inertia qs (k.afterSolve held false) := by
        intro held hh
        refine ⟨fun e => by rw [q1]; exact h.warm e, by rw [q1]; exact h.nul, fun S' e => ?_, h.struct,
          fun v e => by simp [Known.afterSolve] at e, fun S' v e e' => ?_, fun e => by simp [Known.afterSolve] at e,
          fun e => by simp [Known.afterSolve] at e⟩
        · have := hprev S' e
          subst this
          refine ⟨by rw [q1]; exact p1, by rw [q1]; exact p2, by rw [q1]; exact p3, by rw [q1]; exact p4, fun e => hsym (p5 ?_)⟩
          rw [q1] at e; exact e
        · have hS : S' = S := by simp only [Known.afterSolve] at e; rw [ha1] at e; simpa using e.symm
          subst hS
          obtain ⟨z1, z2, z3⟩ := h.held S' v ha1 (hh v e')
          exact ⟨by rw [q1]; exact z1, by rw [q1]; exact z2, hfac v z3⟩
      cases hqb : qb with
      | true =>
        rw [hqb] at hspec
        simp only [if_true]
        refine ⟨fun _ => ⟨base _ fun v e => by rw [hka] at e; simpa using e, fun hsome => ?_, fun e => by rw [hka] at e; simp at e⟩, fun e => by simp at e,
          fun e => absurd rfl e, fun e => by simp at e, by rw [q1]⟩
        rw [hka] at hsome ⊢
        rcases hsome with e | e | e
        · simp at e
        · obtain ⟨w, hw⟩ := Option.isSome_iff_exists.1 e
          obtain ⟨z1, _, z3⟩ := h.held S w ha1 hw
          exact ⟨w, by simpa using hw, fun i hi r hr => (hspec w z3 rfl).2 i (by omega) (by omega) r hr, by rw [q1]; exact z1⟩
        · have := h.raised e
          rw [hpc hn] at this; simp at this
      | false =>
        simp only [Bool.false_eq_true, if_false]
        exact ⟨fun e => by simp at e, fun e => by simp at e, fun _ _ => base _ fun v e => by simp at e, fun e => by simp at e, by rw [q1]⟩

theorem contract [LinearOrder P] {B : Type} (LO : LibOK L SymOf FacOf inertia) (o : Opts P) (maxSet : Bool)
    (scale : Option (Nat → Nat → (Nat → Nat) → (Nat → Nat) → (Nat → K) → Option (Nat → K)))
    (hsc : ∀ g, scale = some g → ∀ d n ir jc a f, g d n ir jc a = some f → ∀ i, i < d → f i ≠ 0)
    (E : Env K B) (hE : ∀ t, CSR.SortedEntries t (E.sort t)) :
    Contract (env L o maxSet scale E) (Rep SymOf FacOf inertia) where
  init w b k h := rep_init o maxSet w h
  initScaling b k h := h
  struct b k d n ia ja h ha := by
    obtain ⟨h1, h2⟩ := rep_struct (L := L) h ⟨d, n, ia, ja⟩ ha
    have : ((env L o maxSet scale E).initStructure d n ia ja b).1 = .success := (statusOf_iff _ _ (by simp)).2 h1
    refine ⟨Or.inl this, ?_⟩
    rw [this]
    simp only [decide_true]
    exact h2
  store b k v h := rep_write h v
  quality b k h := rep_quality (L := L) h
  scale b k d n ir jc a h := by
    refine ⟨h, fun f e i hi => ?_⟩
    cases hs : scale with
    | none => simp [env, hs] at e
    | some g =>
      simp only [env, hs] at e
      exact hsc g hs d n ir jc a f e i hi
  solveOK b k S new nrhs arr chk neg h ha hsome hs := by
    have R := solve_res LO h ha nrhs arr chk neg
    have hs' := (statusOf_iff _ _ (by simp)).1 hs
    obtain ⟨r1, r2, _⟩ := R.success hs'
    obtain ⟨v, e1, e2, _⟩ := r2 hsome
    rw [e1] at r1
    exact ⟨v, e1, e2, r1⟩
  solveAgain b k S new nrhs arr chk neg h ha hs := by
    have R := solve_res LO h ha nrhs arr chk neg
    have hs' := (statusOf_iff _ _ (by simp)).1 hs
    obtain ⟨r1, r2, _⟩ := R.again hs'
    exact ⟨r1, r2⟩
  solveFail b k S new nrhs arr chk neg h ha hs hs2 := by
    have R := solve_res LO h ha nrhs arr chk neg
    have h1 : (b.multiSolve L new nrhs arr chk neg).1 ≠ some .success := fun e => hs ((statusOf_iff _ _ (by simp)).2 e)
    have h2 : (b.multiSolve L new nrhs arr chk neg).1 ≠ some .callAgain := fun e => hs2 ((statusOf_iff _ _ (by simp)).2 e)
    exact R.other h1 h2
  sort := hE

end Verif.Mumps
