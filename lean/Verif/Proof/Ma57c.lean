import Verif.Proof.Ma57b

/-! # Histories of the MA57 interface -/

namespace Verif.Ma57
open Verif.AugSolve (Status Structure Known SolvesAll denote Contract Env)
open Verif.Ma27 (memIncrease long afterThrow quality_bound)

set_option linter.unusedSectionVars false
set_option linter.unusedSimpArgs false
set_option linter.unusedVariables false

variable {K P Keep Mem : Type} [Field K]
variable {L : Lib K P Keep Mem} {KeepOf : Keep → Structure → Prop} {FacOf : Mem → Structure → (Nat → K) → Prop}
  {inertia : Structure → (Nat → K) → Int}

/-- what holds along histories. -/
structure Inv (L : Lib K P Keep Mem) (FacOf : Mem → Structure → (Nat → K) → Prop) (inertia : Structure → (Nat → K) → Int)
    (st : St K P Keep Mem) (k : Known K) (c : Care) : Prop where
  rep : Rep L FacOf inertia st k
  lens : c.sound = true → Lens st
  over : c.ok = true → st.overrun = false

theorem init_mem [LinearOrder P] (o : Opts P) (maxSet warm : Bool) (st : St K P Keep Mem) :
    (st.init o maxSet warm).2.overrun = st.overrun ∧ (warm = true → Lens st → Lens (st.init o maxSet warm).2) := by
  unfold St.init
  split
  · exact ⟨rfl, fun _ h => ⟨h.a, h.fact, h.ifact⟩⟩
  · cases warm with
    | false => exact ⟨rfl, fun e => by simp at e⟩
    | true => exact ⟨rfl, fun _ h => ⟨h.a, h.fact, h.ifact⟩⟩

theorem quality_mem [LinearOrder P] (L : Lib K P Keep Mem) (st : St K P Keep Mem) :
    (st.quality L).2.overrun = st.overrun ∧ (Lens st → Lens (st.quality L).2) := by
  unfold St.quality
  split
  · exact ⟨rfl, fun h => h⟩
  · exact ⟨rfl, fun h => ⟨h.a, h.fact, h.ifact⟩⟩

theorem ran_inv [LinearOrder P] (LO : LibOK L KeepOf FacOf inertia) (NA : Noticed L FacOf) {st : St K P Keep Mem} {k : Known K} {c : Care} (h : Ran L st k c) :
    Inv L FacOf inertia st k c := by
  induction h with
  | start o keep ho => exact ⟨rep_start o keep ho, fun e => by simp at e, fun _ => rfl⟩
  | @init st k c o maxSet warm ho _ ih =>
    obtain ⟨a1, a2⟩ := init_mem o maxSet warm st
    refine ⟨rep_init o maxSet warm ho ih.rep, fun e => ?_, fun e => by rw [a1]; exact ih.over e⟩
    simp only [Bool.and_eq_true] at e
    exact a2 e.1 (ih.lens e.2)
  | @struct st k c S _ ha ih =>
    obtain ⟨_, _, _, _, _, _, a7, a8, a9⟩ := struct_res L S.dim S.nnz S.ia S.ja st
    refine ⟨rep_struct ih.rep S ha, fun e => ?_, fun e => by rw [a7]; exact ih.over e⟩
    have hw := ih.rep.warm ha.1
    cases hk : k.warm with
    | true =>
      rw [hk] at hw
      simp only [hk, if_true] at e
      exact (a9 hw).2.2.2 (ih.lens e)
    | false =>
      rw [hk] at hw
      simp only [hk, Bool.false_eq_true, if_false, decide_eq_true_eq] at e
      exact ((a8 e).2.2 hw).2
  | write v _ hs ih =>
    refine ⟨rep_write ih.rep v, fun e => ?_, fun e => ?_⟩
    · have l := ih.lens e
      exact ⟨l.a, l.fact, l.ifact⟩
    · simp only [Bool.and_eq_true] at e
      have l := ih.lens e.2
      simp [St.write, ih.over e.1, l.a, long_self]
  | @solve st k c S fuel new nrhs arr chk neg hr ha hne ih =>
    have R := solve_res LO NA.analyse ih.rep ha fuel nrhs arr chk neg
    generalize st.multiSolve L fuel new nrhs arr chk neg = q at *
    obtain ⟨q0, q1, q2⟩ := q
    dsimp only at *
    refine ⟨?_, fun e => ?_, fun e => ?_⟩
    · cases q0 with
      | running => exact absurd rfl hne
      | thrown => exact (R.other (by simp) (by simp)).2.2
      | ret s =>
        cases s with
        | success => exact (R.success rfl).1
        | callAgain => exact (R.again rfl).2.1
        | singular => exact (R.other (by simp) (by simp)).2.1
        | wrongInertia => exact (R.other (by simp) (by simp)).2.1
        | fatal => exact (R.other (by simp) (by simp)).2.1
    · simp only [Bool.and_eq_true, decide_eq_true_eq] at e
      exact R.lens (ih.lens e.1) e.2
    · simp only [Bool.and_eq_true] at e
      rw [R.overrun (ih.lens e.2)]; exact ih.over e.1
  | quality _ ih =>
    obtain ⟨a1, a2⟩ := quality_mem L _
    exact ⟨rep_quality ih.rep, fun e => a2 (ih.lens e), fun e => by rw [a1]; exact ih.over e⟩

/-- the flags and options after any call of `MultiSolve`. -/
theorem solve_flags (L : Lib K P Keep Mem) (fuel : Nat) (new : Bool) (nrhs : Nat) (arr : Nat → K) (chk : Bool) (neg : Nat) (st : St K P Keep Mem) :
    (st.multiSolve L fuel new nrhs arr chk neg).2.2.pivtolChanged = false ∧
    (st.multiSolve L fuel new nrhs arr chk neg).2.2.pivtol = st.pivtol ∧ (st.multiSolve L fuel new nrhs arr chk neg).2.2.pivtolmax = st.pivtolmax ∧
    (st.multiSolve L fuel new nrhs arr chk neg).2.2.preAlloc = st.preAlloc ∧
    ((st.multiSolve L fuel new nrhs arr chk neg).1 = .ret .callAgain ↔ st.pivtolChanged = true ∧ new = false) := by
  unfold St.multiSolve
  by_cases hA : st.pivtolChanged = true ∧ (!new) = true
  · rw [if_pos hA]
    exact ⟨rfl, rfl, rfl, rfl, fun _ => ⟨hA.1, by simpa using hA.2⟩, fun _ => rfl⟩
  · rw [if_neg hA]
    dsimp only
    have hA' : ¬ (st.pivtolChanged = true ∧ new = false) := fun e => hA ⟨e.1, by simp [e.2]⟩
    split
    · have f := factorize_res L fuel chk neg ({ st with pivtolChanged := false } : St K P Keep Mem)
      generalize ({ st with pivtolChanged := false } : St K P Keep Mem).factorize L fuel chk neg = q at *
      obtain ⟨q0, q⟩ := q
      dsimp only at *
      by_cases hs : q0 = .ret .success
      · subst hs
        simp only [if_true]
        exact ⟨f.same.pc, f.same.pivtol, f.same.pivtolmax, f.same.pre, fun e => by simp at e, fun e => absurd e hA'⟩
      · rw [if_neg hs, if_neg hs]
        exact ⟨f.same.pc, f.same.pivtol, f.same.pivtolmax, f.same.pre, fun e => absurd e f.kinds, fun e => absurd e hA'⟩
    · simp only [if_true]
      exact ⟨rfl, rfl, rfl, rfl, fun e => by simp at e, fun e => absurd e hA'⟩

section Pivot
open Real
variable {Lr : Lib K ℝ Keep Mem}

theorem later_pivtol (hL : Lr.raisePow = fun x => x ^ (3 / 4 : ℝ)) {st st' : St K ℝ Keep Mem} {n : Nat} (h : Later Lr st n st')
    (h0 : 0 < st.pivtol) (h1 : st.pivtol ≤ st.pivtolmax) (h2 : st.pivtolmax < 1) :
    st'.pivtolmax = st.pivtolmax ∧ st.pivtol ≤ st'.pivtol ∧ st'.pivtol ≤ st.pivtolmax ∧
      min st.pivtolmax (st.pivtol ^ ((3 / 4 : ℝ) ^ n)) ≤ st'.pivtol ∧
      (0 < n → min st.pivtolmax (st.pivtol ^ ((3 / 4 : ℝ) ^ (n - 1))) < st.pivtolmax) := by
  induction h with
  | here => exact ⟨rfl, le_refl _, h1, by simp, fun h => by omega⟩
  | struct d nz ia ja _ ih =>
    obtain ⟨_, _, e1, e2, _⟩ := struct_res Lr d nz ia ja _
    rw [e1, e2]; exact ih
  | write v _ ih => exact ih
  | solve fuel new nrhs arr chk neg _ ih =>
    obtain ⟨_, e1, e2, _⟩ := solve_flags Lr fuel new nrhs arr chk neg _
    rw [e1, e2]; exact ih
  | quality _ ih =>
    rename_i n st' _
    obtain ⟨i1, i2, i3, i4, i5⟩ := ih
    unfold St.quality
    split
    · simp only [Bool.false_eq_true, if_false]
      exact ⟨i1, i2, i3, i4, i5⟩
    · rename_i hne
      simp only [if_true, hL, i1]
      have hp : 0 < st'.pivtol := lt_of_lt_of_le h0 i2
      have hlt : st'.pivtol < 1 := lt_of_le_of_lt i3 h2
      have hinc : st'.pivtol ≤ st'.pivtol ^ (3 / 4 : ℝ) := by
        conv_lhs => rw [← Real.rpow_one st'.pivtol]
        exact Real.rpow_le_rpow_of_exponent_ge hp hlt.le (by norm_num)
      refine ⟨trivial, le_min h1 (le_trans i2 hinc), min_le_left _ _, ?_, fun _ => ?_⟩
      · refine le_min (min_le_left _ _) ?_
        have : (min st.pivtolmax (st.pivtol ^ ((3 / 4 : ℝ) ^ n))) ^ (3 / 4 : ℝ) ≤ st'.pivtol ^ (3 / 4 : ℝ) := by
          refine Real.rpow_le_rpow ?_ i4 (by norm_num)
          exact le_min (le_trans h0.le h1) (Real.rpow_nonneg h0.le _)
        refine le_trans ?_ this
        by_cases hc : st.pivtolmax ≤ st.pivtol ^ ((3 / 4 : ℝ) ^ n)
        · rw [min_eq_left hc]
          refine le_trans (min_le_left _ _) ?_
          conv_lhs => rw [← Real.rpow_one st.pivtolmax]
          exact Real.rpow_le_rpow_of_exponent_ge (lt_of_lt_of_le h0 h1) h2.le (by norm_num)
        · rw [min_eq_right (le_of_not_ge hc), ← Real.rpow_mul h0.le, ← pow_succ]
          exact min_le_right _ _
      · simp only [Nat.add_sub_cancel]
        refine lt_of_le_of_lt i4 (lt_of_le_of_ne i3 ?_)
        rw [i1] at hne
        exact hne

end Pivot

end Verif.Ma57
