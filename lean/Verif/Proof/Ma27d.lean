import Verif.Proof.Ma27c
import Verif.Proof.AugSolve6
import Mathlib.Analysis.SpecialFunctions.Pow.Real
import Mathlib.Analysis.SpecificLimits.Basic

/-! # The contract, termination, memory and pivot tolerance -/

namespace Verif.Ma27
open Verif.AugSolve (Status Structure Known SolvesAll denote Contract TSym Env End)
open Verif.Matrix (Mat)
open Finset

set_option linter.unusedSectionVars false
set_option linter.unusedSimpArgs false
set_option linter.unusedVariables false

/-! ## The CALL_AGAIN loop ends -/

section Loop
variable {K B : Type} [Field K] [DecidableEq K]

theorem give_measure (E : Env K B) (G : B → Prop) (m : B → Nat) (hstore : ∀ v b, G b → G (E.store v b) ∧ m (E.store v b) ≤ m b)
    (hscale : ∀ d n ir jc a b, G b → G (E.scale d n ir jc a b).2 ∧ m (E.scale d n ir jc a b).2 ≤ m b)
    (newM : Bool) (A : Mat K) (st : TSym K) (b : B) (hb : G b) : G (st.give E newM A b).2.2 ∧ m (st.give E newM A b).2.2 ≤ m b := by
  unfold TSym.give
  split
  · exact ⟨hb, le_refl _⟩
  · rename_i a _
    have h := hscale st.dim st.nnzT st.airn st.ajcn a b hb
    dsimp only
    generalize hr : (if st.useScaling = true then
        if (newM || st.justSwitched) = true then
          match E.scale st.dim st.nnzT st.airn st.ajcn a b with
          | (none, b) => (none, st, b)
          | (some f, b) => (some f, { st with factors := f, justSwitched := false }, b)
        else (some st.factors, st, b)
      else (some (fun _ => 1), st, b) : Option (Nat → K) × TSym K × B) = r
    have key : G r.2.2 ∧ m r.2.2 ≤ m b := by
      rw [← hr]
      split
      · split
        · split
          · rename_i e; rw [e] at h; exact h
          · rename_i e; rw [e] at h; exact h
        · exact ⟨hb, le_refl _⟩
      · exact ⟨hb, le_refl _⟩
    obtain ⟨ro, rst, rb⟩ := r
    dsimp only at key ⊢
    cases ro with
    | none => exact key
    | some f =>
      dsimp only
      exact ⟨(hstore _ _ key.1).1, le_trans (hstore _ _ key.1).2 key.2⟩

theorem loop_ends (E : Env K B) (G : B → Prop) (m : B → Nat) (hstore : ∀ v b, G b → G (E.store v b) ∧ m (E.store v b) ≤ m b)
    (hscale : ∀ d n ir jc a b, G b → G (E.scale d n ir jc a b).2 ∧ m (E.scale d n ir jc a b).2 ≤ m b)
    (hsolve : ∀ new ia ja nrhs arr chk neg b, G b → (E.solve new ia ja nrhs arr chk neg b).1 = .callAgain →
      G (E.solve new ia ja nrhs arr chk neg b).2.2 ∧ m (E.solve new ia ja nrhs arr chk neg b).2.2 < m b)
    (A : Mat K) (newM : Bool) (nrhs : Nat) (chk : Bool) (neg : Nat) :
    ∀ fuel (st : TSym K) arr b, G b → m b < fuel → (TSym.loop E A newM nrhs chk neg fuel st arr b).1 ≠ .running := by
  intro fuel
  induction fuel with
  | zero => intro st arr b _ h; omega
  | succ fuel ih =>
    intro st arr b hb hm
    have hs := hsolve newM st.ia st.ja nrhs arr chk neg b hb
    unfold TSym.loop
    rcases hq : E.solve newM st.ia st.ja nrhs arr chk neg b with ⟨s, arr', b'⟩
    rw [hq] at hs
    cases s with
    | callAgain =>
      obtain ⟨h1, h2⟩ := hs rfl
      dsimp only at h1 h2 ⊢
      obtain ⟨g1, g2⟩ := give_measure E G m hstore hscale false A st b' h1
      split
      · exact ih _ _ _ g1 (by omega)
      · simp
    | success => simp
    | singular => simp
    | wrongInertia => simp
    | fatal => simp

theorem multiSolve_ends (E : Env K B) (G : B → Prop) (m : B → Nat) (N : Nat) (hstore : ∀ v b, G b → G (E.store v b) ∧ m (E.store v b) ≤ m b)
    (hscale : ∀ d n ir jc a b, G b → G (E.scale d n ir jc a b).2 ∧ m (E.scale d n ir jc a b).2 ≤ m b)
    (hsolve : ∀ new ia ja nrhs arr chk neg b, G b → (E.solve new ia ja nrhs arr chk neg b).1 = .callAgain →
      G (E.solve new ia ja nrhs arr chk neg b).2.2 ∧ m (E.solve new ia ja nrhs arr chk neg b).2.2 < m b)
    (hstruct : ∀ d n ia ja b, G b → G (E.initStructure d n ia ja b).2) (hN : ∀ b, m b ≤ N)
    (matOf : Nat → Mat K) (vecOf : Nat → List K) (fuel : Nat) (hf : N < fuel) (a : AugSolve.Args K) (rhs sol : List (AugSolve.Quad K))
    (chk : Bool) (neg : Nat) (s : AugSolve.State K B) (hs : G s.world) :
    (s.multiSolve E matOf vecOf fuel a rhs sol chk neg).1 ≠ .running := by
  have hworld : (s.update matOf vecOf a).world = s.world := by
    unfold AugSolve.State.update
    dsimp only
    split <;> split <;> rfl
  unfold AugSolve.State.multiSolve
  dsimp only
  generalize (s.update matOf vecOf a) = s' at *
  generalize (s'.sys.getD (.zeroSym 0)) = A
  generalize rhs.map AugSolve.Quad.vec = rv
  generalize sol.map AugSolve.Quad.vec = sv
  have hG : G s'.world := by rw [hworld]; exact hs
  unfold TSym.multiSolve
  have hI : G (if (!s'.lin.initialized) = true then s'.lin.initStructure E A s'.world else (some .success, s'.lin, s'.world)).2.2 := by
    split
    · unfold TSym.initStructure
      split
      · split
        · exact hG
        · split
          · exact hG
          · dsimp only
            split <;> exact hstruct _ _ _ _ _ hG
      · split
        · exact hG
        · exact hstruct _ _ _ _ _ hG
    · exact hG
  generalize (if (!s'.lin.initialized) = true then s'.lin.initStructure E A s'.world else (some .success, s'.lin, s'.world)) = i at *
  obtain ⟨io, ist, ib⟩ := i
  dsimp only at hI ⊢
  split
  · simp
  · split
    · simp
    · have hg : G (if (decide (s'.sysTag ≠ ist.atag) || ist.justSwitched) = true then TSym.give E true A { ist with atag := s'.sysTag } ib
          else (true, { ist with atag := s'.sysTag }, ib)).2.2 := by
        split
        · exact (give_measure E G m hstore hscale true A _ ib hI).1
        · exact hI
      generalize (if (decide (s'.sysTag ≠ ist.atag) || ist.justSwitched) = true then TSym.give E true A { ist with atag := s'.sysTag } ib
          else (true, { ist with atag := s'.sysTag }, ib)) = g at *
      obtain ⟨go, gst, gb⟩ := g
      dsimp only at hg ⊢
      split
      · simp
      · split
        · simp
        · rename_i arr _
          have := loop_ends E G m hstore hscale hsolve A (decide (s'.sysTag ≠ ist.atag) || ist.justSwitched) rv.length chk neg fuel gst arr gb hg
            (lt_of_le_of_lt (hN gb) hf)
          split
          · split <;> simp
          · exact this

end Loop

variable {K P Keep Fac : Type} [Field K]
variable {L : Lib K P Keep Fac} {KeepOf : Keep → Structure → Prop} {FacOf : Fac → Keep → Structure → (Nat → K) → Prop}
  {inertia : Structure → (Nat → K) → Int}

theorem statusOf_iff (r : Option Status) (s : Status) (h : s ≠ .fatal) : statusOf r = s ↔ r = some s := by
  unfold statusOf
  cases r with
  | none => simp only [Option.getD_none]; constructor
            · intro e; exact absurd e.symm h
            · intro e; simp at e
  | some t => simp

/-- MA27 behind `TSymLinearSolver`, without `ma27_ignore_singularity`: what the caller may rely on. -/
def RepE (KeepOf : Keep → Structure → Prop) (FacOf : Fac → Keep → Structure → (Nat → K) → Prop) (inertia : Structure → (Nat → K) → Int)
    (st : St K P Keep Fac) (k : Known K) : Prop := Rep KeepOf FacOf inertia st k ∧ st.ignoreSingular = false

theorem init_ignore [LinearOrder P] (o : Opts P) (maxSet warm : Bool) (st : St K P Keep Fac) (h1 : o.ignoreSingular = false)
    (h2 : st.ignoreSingular = false) : (st.init o maxSet warm).2.ignoreSingular = false := by
  unfold St.init
  split
  · exact h2
  · cases warm
    · exact h1
    · exact h1

theorem contract [LinearOrder P] {B : Type} (LO : LibOK L KeepOf FacOf inertia) (o : Opts P) (ho : 1 ≤ o.memInc) (hoi : o.ignoreSingular = false) (maxSet : Bool)
    (scale : Option (Nat → Nat → (Nat → Nat) → (Nat → Nat) → (Nat → K) → Option (Nat → K)))
    (hsc : ∀ g, scale = some g → ∀ d n ir jc a f, g d n ir jc a = some f → ∀ i, i < d → f i ≠ 0)
    (E : Env K B) (hE : ∀ t, CSR.SortedEntries t (E.sort t)) :
    Contract (env L o maxSet scale E) (RepE KeepOf FacOf inertia) where
  init w b k h := ⟨rep_init o maxSet w ho h.1, init_ignore o maxSet w b hoi h.2⟩
  initScaling b k h := h
  struct b k d n ia ja h ha := by
    obtain ⟨h1, h2, h3⟩ := rep_struct LO h.1 ⟨d, n, ia, ja⟩ ha
    refine ⟨?_, ?_, h2.trans h.2⟩
    · show statusOf _ = _ ∨ statusOf _ = _
      rcases h1 with h1 | h1 | h1 <;> rw [h1] <;> simp [statusOf]
    · have : decide (((env L o maxSet scale E).initStructure d n ia ja b).1 = .success) =
          decide ((b.initStructure L d n ia ja).1 = some .success) := by
        rw [decide_eq_decide]
        exact statusOf_iff _ _ (by simp)
      rw [this]
      exact h3
  store b k v h := by
    obtain ⟨h1, _, _, _, _, h2⟩ := rep_write (L := L) h.1 v
    exact ⟨h2, h1.trans h.2⟩
  quality b k h := by
    obtain ⟨h1, h2⟩ := rep_quality (L := L) h.1
    exact ⟨h2, h1.trans h.2⟩
  scale b k d n ir jc a h := by
    refine ⟨h, fun f e i hi => ?_⟩
    cases hs : scale with
    | none => simp [env, hs] at e
    | some g =>
      simp only [env, hs] at e
      exact hsc g hs d n ir jc a f e i hi
  solveOK b k S new nrhs arr chk neg h ha hsome hs := by
    have R := solve_res LO h.1 ha nrhs arr chk neg
    have hs' := (statusOf_iff _ _ (by simp)).1 hs
    obtain ⟨r1, r2, _⟩ := R.success hs'
    obtain ⟨v, e1, e2, _⟩ := r2 h.2 hsome
    rw [e1] at r1
    exact ⟨v, e1, e2, r1, R.ignore.trans h.2⟩
  solveAgain b k S new nrhs arr chk neg h ha hs := by
    have R := solve_res LO h.1 ha nrhs arr chk neg
    have hs' := (statusOf_iff _ _ (by simp)).1 hs
    obtain ⟨r1, r2, _⟩ := R.again hs'
    exact ⟨r1, r2, R.ignore.trans h.2⟩
  solveFail b k S new nrhs arr chk neg h ha hs hs2 := by
    have R := solve_res LO h.1 ha nrhs arr chk neg
    have h1 : (b.multiSolve L new S.ia S.ja nrhs arr chk neg).1 ≠ some .success := fun e => hs ((statusOf_iff _ _ (by simp)).2 e)
    have h2 : (b.multiSolve L new S.ia S.ja nrhs arr chk neg).1 ≠ some .callAgain := fun e => hs2 ((statusOf_iff _ _ (by simp)).2 e)
    exact ⟨(R.other h1 h2).2, R.ignore.trans h.2⟩
  sort := hE

/-- patience is used up, whatever the caller does. -/
theorem solve_patience (L : Lib K P Keep Fac) (hA : AsksForMore L) (new : Bool) (ia ja : Nat → Nat) (nrhs : Nat) (arr : Nat → K) (chk : Bool) (neg : Nat)
    (st : St K P Keep Fac) (hm : 1 ≤ st.memInc) :
    (st.multiSolve L new ia ja nrhs arr chk neg).2.2.memInc = st.memInc ∧
    ((st.multiSolve L new ia ja nrhs arr chk neg).1 = some .callAgain →
      patience L (st.multiSolve L new ia ja nrhs arr chk neg).2.2 < patience L st) := by
  unfold St.multiSolve
  by_cases h1 : st.pivtolChanged = true ∧ (!new) = true
  · rw [if_pos h1]
    refine ⟨rfl, fun _ => ?_⟩
    unfold patience room
    simp [h1.1]
  · rw [if_neg h1]
    dsimp only
    by_cases hB : (new || st.refactorize) = true
    · rw [if_pos hB]
      obtain ⟨la, liw, f1, f2, f3⟩ := factorize_res L ia ja chk neg { st with pivtolChanged := false }
      generalize hf : ({ st with pivtolChanged := false } : St K P Keep Fac).factorize L ia ja chk neg = f at *
      obtain ⟨fs, f⟩ := f
      dsimp only at f1 f2 f3 ⊢
      by_cases hs : fs = some .success
      · rw [if_pos hs]
        simp only [hs, if_true]
        exact ⟨f1.memInc, fun e => by simp at e⟩
      · rw [if_neg hs, if_neg hs]
        refine ⟨f1.memInc, fun e => ?_⟩
        have lt := f3 hm hA e
        unfold patience
        rw [show f.pivtolChanged = false from f1.pc]
        simp only [Bool.false_eq_true, if_false]
        have : room L { st with pivtolChanged := false } = room L st := rfl
        rw [this] at lt
        split <;> omega
    · rw [if_neg hB]
      exact ⟨rfl, fun e => by simp at e⟩

theorem patience_le (L : Lib K P Keep Fac) (st : St K P Keep Fac) : patience L st ≤ 2 * L.imax + 1 := by
  unfold patience room
  split <;> omega

theorem write_patience (L : Lib K P Keep Fac) (v : Nat → K) (st : St K P Keep Fac) :
    (st.write L v).2.memInc = st.memInc ∧ patience L (st.write L v).2 = patience L st := by
  unfold St.write St.getValues
  split
  · unfold St.newA; split <;> exact ⟨rfl, rfl⟩
  · exact ⟨rfl, rfl⟩

theorem struct_memInc (L : Lib K P Keep Fac) (d n : Nat) (ia ja : Nat → Nat) (st : St K P Keep Fac) :
    (st.initStructure L d n ia ja).2.memInc = st.memInc ∧ (st.initStructure L d n ia ja).2.pivtol = st.pivtol ∧
    (st.initStructure L d n ia ja).2.pivtolmax = st.pivtolmax := by
  unfold St.initStructure
  split
  · have key : Same { st with dim := d, nnz := n } { (({ st with dim := d, nnz := n } : St K P Keep Fac).symbolic L ia ja).2 with keep := st.keep } := by
      unfold St.symbolic
      dsimp only
      obtain ⟨a1, _, _, a4⟩ := newIW_same L { st with dim := d, nnz := n, liw := 2 * (2 * n + 3 * d + 1) }
      generalize hr : ({ st with dim := d, nnz := n, liw := 2 * (2 * n + 3 * d + 1) } : St K P Keep Fac).newIW L = r at *
      obtain ⟨rb, r⟩ := r
      dsimp only at *
      split
      · exact ⟨a1.dim, a1.nnz, rfl, a1.warm, a1.memInc, a1.ignore, a1.skip, a1.pivtol, a1.pivtolmax, a1.ref, a1.pc⟩
      · split
        · exact ⟨a1.dim, a1.nnz, rfl, a1.warm, a1.memInc, a1.ignore, a1.skip, a1.pivtol, a1.pivtolmax, a1.ref, a1.pc⟩
        · generalize L.analyse d n ia ja r.liw = a
          obtain ⟨b1, _⟩ := reserve_res L a { r with keep := a.keep }
          exact ⟨b1.dim.trans a1.dim, b1.nnz.trans a1.nnz, rfl, b1.warm.trans a1.warm, b1.memInc.trans a1.memInc, b1.ignore.trans a1.ignore,
            b1.skip.trans a1.skip, b1.pivtol.trans a1.pivtol, b1.pivtolmax.trans a1.pivtolmax, b1.ref.trans a1.ref, b1.pc.trans a1.pc⟩
    dsimp only
    split <;> exact ⟨key.memInc, key.pivtol, key.pivtolmax⟩
  · split <;> exact ⟨rfl, rfl, rfl⟩

theorem solve_pivtol (L : Lib K P Keep Fac) (new : Bool) (ia ja : Nat → Nat) (nrhs : Nat) (arr : Nat → K) (chk : Bool) (neg : Nat)
    (st : St K P Keep Fac) : (st.multiSolve L new ia ja nrhs arr chk neg).2.2.pivtol = st.pivtol ∧
      (st.multiSolve L new ia ja nrhs arr chk neg).2.2.pivtolmax = st.pivtolmax := by
  unfold St.multiSolve
  by_cases h1 : st.pivtolChanged = true ∧ (!new) = true
  · rw [if_pos h1]; exact ⟨rfl, rfl⟩
  · rw [if_neg h1]
    dsimp only
    by_cases hB : (new || st.refactorize) = true
    · rw [if_pos hB]
      obtain ⟨la, liw, f1, f2, f3⟩ := factorize_res L ia ja chk neg { st with pivtolChanged := false }
      generalize hf : ({ st with pivtolChanged := false } : St K P Keep Fac).factorize L ia ja chk neg = f at *
      obtain ⟨fs, f⟩ := f
      dsimp only at f1 ⊢
      by_cases hs : fs = some .success
      · rw [if_pos hs]; simp only [hs, if_true]; exact ⟨f1.pivtol, f1.pivtolmax⟩
      · rw [if_neg hs, if_neg hs]; exact ⟨f1.pivtol, f1.pivtolmax⟩
    · rw [if_neg hB]; exact ⟨rfl, rfl⟩

theorem write_pivtol (L : Lib K P Keep Fac) (v : Nat → K) (st : St K P Keep Fac) :
    (st.write L v).2.pivtol = st.pivtol ∧ (st.write L v).2.pivtolmax = st.pivtolmax := by
  unfold St.write St.getValues
  split
  · unfold St.newA; split <;> exact ⟨rfl, rfl⟩
  · exact ⟨rfl, rfl⟩

/-! ## The pivot tolerance -/

section Pivot
open Real
variable {Lr : Lib K ℝ Keep Fac}

theorem later_pivtol (hL : Lr.raisePow = fun x => x ^ (3 / 4 : ℝ)) {st st' : St K ℝ Keep Fac} {n : Nat} (h : Later Lr st n st')
    (h0 : 0 < st.pivtol) (h1 : st.pivtol ≤ st.pivtolmax) (h2 : st.pivtolmax < 1) :
    st'.pivtolmax = st.pivtolmax ∧ st.pivtol ≤ st'.pivtol ∧ st'.pivtol ≤ st.pivtolmax ∧
      min st.pivtolmax (st.pivtol ^ ((3 / 4 : ℝ) ^ n)) ≤ st'.pivtol ∧
      (0 < n → min st.pivtolmax (st.pivtol ^ ((3 / 4 : ℝ) ^ (n - 1))) < st.pivtolmax) := by
  induction h with
  | here => exact ⟨rfl, le_refl _, h1, by simp, fun h => by omega⟩
  | struct d nz ia ja _ ih =>
    obtain ⟨_, e1, e2⟩ := struct_memInc Lr d nz ia ja _
    rw [e1, e2]; exact ih
  | write v _ ih =>
    obtain ⟨e1, e2⟩ := write_pivtol Lr v _
    rw [e1, e2]; exact ih
  | solve new ia ja nrhs arr chk neg _ ih =>
    obtain ⟨e1, e2⟩ := solve_pivtol Lr new ia ja nrhs arr chk neg _
    rw [e1, e2]; exact ih
  | quality _ ih =>
    rename_i n st' _
    obtain ⟨i1, i2, i3, i4, i5⟩ := ih
    unfold St.quality
    split
    · simp only [Bool.false_eq_true, if_false]
      exact ⟨i1, i2, i3, i4, i5⟩
    · rename_i hne
      simp only [if_true, hL, i1]
      have hp : 0 < st'.pivtol := lt_of_lt_of_le h0 i2
      have hlt : st'.pivtol < 1 := lt_of_le_of_lt i3 h2
      have hinc : st'.pivtol ≤ st'.pivtol ^ (3 / 4 : ℝ) := by
        conv_lhs => rw [← Real.rpow_one st'.pivtol]
        exact Real.rpow_le_rpow_of_exponent_ge hp hlt.le (by norm_num)
      refine ⟨trivial, le_min h1 (le_trans i2 hinc), min_le_left _ _, ?_, fun _ => ?_⟩
      · refine le_min (min_le_left _ _) ?_
        have : (min st.pivtolmax (st.pivtol ^ ((3 / 4 : ℝ) ^ n))) ^ (3 / 4 : ℝ) ≤ st'.pivtol ^ (3 / 4 : ℝ) := by
          refine Real.rpow_le_rpow ?_ i4 (by norm_num)
          exact le_min (le_trans h0.le h1) (Real.rpow_nonneg h0.le _)
        refine le_trans ?_ this
        by_cases hc : st.pivtolmax ≤ st.pivtol ^ ((3 / 4 : ℝ) ^ n)
        · rw [min_eq_left hc]
          refine le_trans (min_le_left _ _) ?_
          conv_lhs => rw [← Real.rpow_one st.pivtolmax]
          exact Real.rpow_le_rpow_of_exponent_ge (lt_of_lt_of_le h0 h1) h2.le (by norm_num)
        · rw [min_eq_right (le_of_not_ge hc), ← Real.rpow_mul h0.le, ← pow_succ]
          exact min_le_right _ _
      · simp only [Nat.add_sub_cancel]
        refine lt_of_le_of_lt i4 (lt_of_le_of_ne i3 ?_)
        rw [i1] at hne
        exact hne

theorem quality_bound {p pmax : ℝ} (h0 : 0 < p) (h1 : p ≤ pmax) (h2 : pmax < 1) : ∃ N : ℕ, ∀ n, N ≤ n → pmax ≤ p ^ ((3 / 4 : ℝ) ^ n) := by
  have lp : Real.log p < 0 := Real.log_neg h0 (lt_of_le_of_lt h1 h2)
  have lm : Real.log pmax < 0 := Real.log_neg (lt_of_lt_of_le h0 h1) h2
  obtain ⟨N, hN⟩ := exists_pow_lt_of_lt_one (show (0 : ℝ) < Real.log pmax / Real.log p from div_pos_of_neg_of_neg lm lp)
    (show (3 / 4 : ℝ) < 1 by norm_num)
  refine ⟨N, fun n hn => ?_⟩
  have hle : (3 / 4 : ℝ) ^ n ≤ (3 / 4 : ℝ) ^ N := pow_le_pow_of_le_one (by norm_num) (by norm_num) hn
  have hlt : (3 / 4 : ℝ) ^ n < Real.log pmax / Real.log p := lt_of_le_of_lt hle hN
  rw [← Real.log_le_log_iff (lt_of_lt_of_le h0 h1) (Real.rpow_pos_of_pos h0 _), Real.log_rpow h0]
  rw [lt_div_iff_of_neg lp] at hlt
  linarith

end Pivot

end Verif.Ma27
