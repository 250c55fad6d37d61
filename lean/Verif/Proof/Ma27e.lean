import Verif.Proof.Ma27d

/-! # The arrays are as long as they are said to be -/

namespace Verif.Ma27
open Verif.AugSolve (Status Structure Known SolvesAll denote Contract TSym Env End)
open Finset

set_option linter.unusedSectionVars false
set_option linter.unusedSimpArgs false
set_option linter.unusedVariables false

variable {K P Keep Fac : Type}

/-- the arrays have the lengths they should have. -/
structure Lens (st : St K P Keep Fac) : Prop where
  iw : st.iwLen = some st.liw
  a : st.aLen = some st.la
  nnz : st.nnz ≤ st.la

/-- the array for the matrix may have been exchanged by a shorter one. -/
structure Lens' (st : St K P Keep Fac) : Prop where
  iw : st.iwLen = some st.liw
  a : st.aLen = some st.la ∨ (st.laInc = true ∧ st.aLen = some st.nnz)
  nnz : st.nnz ≤ st.la

theorem long_some {n m : Nat} (h : n ≤ m) : long (some m) n = true := by simp [long, h]

theorem newIW_mem (L : Lib K P Keep Fac) (st : St K P Keep Fac) : (st.newIW L).2.overrun = st.overrun ∧
    ((st.newIW L).1 = true → (st.newIW L).2.iwLen = some st.liw) := by
  unfold St.newIW; split
  · exact ⟨rfl, fun _ => rfl⟩
  · exact ⟨rfl, fun e => by simp at e⟩

theorem newA_mem (L : Lib K P Keep Fac) (n : Nat) (st : St K P Keep Fac) : ((st.newA L n).2.overrun = st.overrun ∧
    (st.newA L n).2.iwLen = st.iwLen) ∧ ((st.newA L n).1 = true → (st.newA L n).2.aLen = some n) := by
  unfold St.newA; split
  · exact ⟨⟨rfl, rfl⟩, fun _ => rfl⟩
  · exact ⟨⟨rfl, rfl⟩, fun e => by simp at e⟩

theorem growA_mem (L : Lib K P Keep Fac) (st : St K P Keep Fac) (h : Lens' st) (hm : 1 ≤ st.memInc) :
    (st.growA L).2.overrun = st.overrun ∧ ((st.growA L).1 = true → Lens (st.growA L).2) := by
  unfold St.growA
  by_cases hl : st.laInc = true
  · rw [if_pos hl]
    split
    · exact ⟨rfl, fun e => by simp at e⟩
    · rename_i la hla
      have hge : st.la ≤ la := (memIncrease_ge hla (mul_ge hm (by positivity))).1
      have hnz : st.nnz ≤ la := le_trans h.nnz hge
      have hlong : long st.aLen st.nnz = true := by
        rcases h.a with e | ⟨_, e⟩ <;> rw [e]
        · exact long_some h.nnz
        · exact long_some (le_refl _)
      dsimp only
      split
      · refine ⟨?_, fun _ => ⟨h.iw, rfl, hnz⟩⟩
        simp [hlong, hnz]
      · exact ⟨rfl, fun e => by simp at e⟩
  · rw [if_neg hl]
    exact ⟨rfl, fun _ => ⟨h.iw, h.a.resolve_right (fun e => hl e.1), h.nnz⟩⟩

theorem growIW_mem (L : Lib K P Keep Fac) (st : St K P Keep Fac) (h : Lens st) :
    (st.growIW L).2.overrun = st.overrun ∧ ((st.growIW L).1 = true → Lens (st.growIW L).2) := by
  unfold St.growIW
  split
  · split
    · exact ⟨rfl, fun e => by simp at e⟩
    · dsimp only
      unfold St.newIW
      split
      · exact ⟨rfl, fun _ => ⟨rfl, h.a, h.nnz⟩⟩
      · exact ⟨rfl, fun e => by simp at e⟩
  · exact ⟨rfl, fun _ => h⟩

theorem again_mem (L : Lib K P Keep Fac) (b : BOut Fac) (st : St K P Keep Fac) (h : st.nnz ≤ st.la) (hm : 1 ≤ st.memInc) (hb : b.iflag = -3 ∨ b.iflag = -4)
    (h4 : b.iflag = -4 → (st.la : ℤ) < b.ierror) :
    (st.again L b).2.overrun = st.overrun ∧ ((st.again L b).1 ≠ none → Lens (st.again L b).2) := by
  unfold St.again
  dsimp only
  split
  · exact ⟨rfl, fun e => absurd rfl e⟩
  · rename_i liw hliw
    split
    · exact ⟨rfl, fun e => absurd rfl e⟩
    · rename_i la hla
      have hge : st.la ≤ la := by
        unfold St.wantA at hla
        dsimp only at hla
        by_cases hf : b.iflag = -3
        · rw [if_pos hf] at hla
          exact (memIncrease_ge hla (mul_ge hm (by positivity))).1
        · rw [if_neg hf] at hla
          have p := h4 (hb.resolve_left hf)
          exact le_of_lt (memIncrease_gt hla p (mul_ge hm (by
              have : (0 : ℤ) ≤ b.ierror := by omega
              exact_mod_cast this)))
      generalize hst0 : ({ st with liw := liw, la := la, iwLen := none, aLen := none, work := Work.raw L.junk } : St K P Keep Fac) = st0
      have e1 : st0.la = la ∧ st0.nnz = st.nnz ∧ st0.overrun = st.overrun := by rw [← hst0]; exact ⟨rfl, rfl, rfl⟩
      obtain ⟨a1, a2⟩ := newIW_mem L st0
      obtain ⟨a3, _, a4, a5⟩ := newIW_same L st0
      generalize hr : st0.newIW L = r at *
      obtain ⟨rb, r⟩ := r
      dsimp only at *
      obtain ⟨c1, c2⟩ := newA_mem L la r
      obtain ⟨c3, c4, c5⟩ := newA_same L la r
      generalize hq : r.newA L la = q at *
      obtain ⟨qb, q⟩ := q
      dsimp only at *
      split
      · exact ⟨a1.trans e1.2.2, fun e => absurd rfl e⟩
      · rename_i hrb
        have hrb' : rb = true := by simpa using hrb
        split
        · rename_i hqb
          refine ⟨(c1.1.trans a1).trans e1.2.2, fun _ => ⟨?_, ?_, ?_⟩⟩
          · rw [c1.2, c5, a5]; exact a2 hrb'
          · rw [c4, a4, e1.1]; exact c2 hqb
          · rw [c3.nnz, a3.nnz, e1.2.1, c4, a4, e1.1]; omega
        · exact ⟨(c1.1.trans a1).trans e1.2.2, fun e => absurd rfl e⟩

theorem judge_mem (L : Lib K P Keep Fac) (b : BOut Fac) (chk : Bool) (neg : Nat) (st : St K P Keep Fac) (h : Lens st) (hm : 1 ≤ st.memInc)
    (h4 : b.iflag = -4 → (st.la : ℤ) < b.ierror) :
    (st.judge L b chk neg).2.overrun = st.overrun ∧ ((st.judge L b chk neg).1 ≠ none → Lens (st.judge L b chk neg).2) := by
  unfold St.judge
  split
  · rename_i hb; exact again_mem L b st h.nnz hm hb h4
  · split
    · exact ⟨rfl, fun _ => h⟩
    · split
      · exact ⟨rfl, fun _ => h⟩
      · dsimp only
        generalize hst1 : (if b.iflag = 3 then { st with neg := st.neg + (st.dim - b.ierror) } else st : St K P Keep Fac) = st1
        have s1 : Lens st1 ∧ st1.overrun = st.overrun := by
          rw [← hst1]; split
          · exact ⟨⟨h.iw, h.a, h.nnz⟩, rfl⟩
          · exact ⟨h, rfl⟩
        split <;> exact ⟨s1.2, fun _ => ⟨s1.1.iw, s1.1.a, s1.1.nnz⟩⟩

theorem factorize_mem (L : Lib K P Keep Fac) (hA : AsksForMore L) (ia ja : Nat → Nat) (chk : Bool) (neg : Nat) (st : St K P Keep Fac) (h : Lens' st)
    (hm : 1 ≤ st.memInc) : (st.factorize L ia ja chk neg).2.overrun = st.overrun ∧
      ((st.factorize L ia ja chk neg).1 ≠ none → Lens (st.factorize L ia ja chk neg).2) := by
  unfold St.factorize
  dsimp only
  obtain ⟨m1, m2⟩ := growA_mem L st h hm
  obtain ⟨a1, _⟩ := growA_same L st
  generalize hr : st.growA L = r at *
  obtain ⟨rb, r⟩ := r
  dsimp only at *
  split
  · exact ⟨m1, fun e => absurd rfl e⟩
  · rename_i hrb
    have hrb' : rb = true := by simpa using hrb
    obtain ⟨n1, n2⟩ := growIW_mem L r (m2 hrb')
    obtain ⟨c1, _⟩ := growIW_same L r
    generalize hq : r.growIW L = q at *
    obtain ⟨qb, q⟩ := q
    dsimp only at *
    split
    · exact ⟨n1.trans m1, fun e => absurd rfl e⟩
    · rename_i hqb
      have hqb' : qb = true := by simpa using hqb
      have hl := n2 hqb'
      have asks := hA q.dim q.nnz ia ja q.work q.la q.liw q.keep q.pivtol
      generalize L.factor q.dim q.nnz ia ja q.work q.la q.liw q.keep q.pivtol = b at *
      have lo : (q.overrun || !long q.aLen q.la || !long q.iwLen q.liw) = q.overrun := by
        rw [hl.a, hl.iw, long_some (le_refl _), long_some (le_refl _)]; simp
      rw [lo]
      obtain ⟨j1, j2⟩ := judge_mem L b chk neg { q with work := .fac b.fac, neg := b.neg, overrun := q.overrun } ⟨hl.iw, hl.a, hl.nnz⟩
        (by show 1 ≤ q.memInc; rw [c1.memInc, a1.memInc]; exact hm) asks.2
      exact ⟨j1.trans (n1.trans m1), j2⟩

theorem reserve_mem (L : Lib K P Keep Fac) (a : AOut Keep) (st : St K P Keep Fac) (hn : st.nnz ≤ L.imax) :
    (st.reserve L a).2.overrun = st.overrun ∧ ((st.reserve L a).1 = some .success → Lens (st.reserve L a).2) := by
  unfold St.reserve
  split
  · exact ⟨rfl, fun e => by simp at e⟩
  · rename_i liw _
    dsimp only
    obtain ⟨a1, _, a2, a3⟩ := newIW_same L { st with liw := liw }
    obtain ⟨m1, m2⟩ := newIW_mem L { st with liw := liw }
    generalize hr : ({ st with liw := liw } : St K P Keep Fac).newIW L = r at *
    obtain ⟨rb, r⟩ := r
    dsimp only at *
    split
    · exact ⟨m1, fun e => by simp at e⟩
    · rename_i hrb
      split
      · exact ⟨m1, fun e => by simp at e⟩
      · rename_i la hla
        have hge : r.nnz ≤ la := by
          unfold memIncrease at hla
          split at hla
          · split at hla
            · cases hla; rw [a1.nnz]; exact hn
            · simp at hla
          · cases hla; exact le_max_left _ _
        obtain ⟨b1, b2, b3⟩ := newA_same L la { r with la := la }
        obtain ⟨c1, c2⟩ := newA_mem L la { r with la := la }
        generalize hq : ({ r with la := la } : St K P Keep Fac).newA L la = q at *
        obtain ⟨qb, q⟩ := q
        dsimp only at *
        split
        · rename_i hqb
          refine ⟨c1.1.trans m1, fun _ => ⟨?_, ?_, ?_⟩⟩
          · rw [c1.2, b3, m2 (by simpa using hrb), a3]
          · rw [b2]; exact c2 hqb
          · rw [b1.nnz, b2]; exact hge
        · exact ⟨c1.1.trans m1, fun e => by simp at e⟩

theorem symbolic_mem (L : Lib K P Keep Fac) (ia ja : Nat → Nat) (st : St K P Keep Fac) (hn : st.nnz ≤ L.imax) :
    (st.symbolic L ia ja).2.overrun = st.overrun ∧ ((st.symbolic L ia ja).1 = some .success → Lens (st.symbolic L ia ja).2) := by
  unfold St.symbolic
  dsimp only
  obtain ⟨a1, _, _, a4⟩ := newIW_same L { st with liw := 2 * (2 * st.nnz + 3 * st.dim + 1) }
  obtain ⟨m1, m2⟩ := newIW_mem L { st with liw := 2 * (2 * st.nnz + 3 * st.dim + 1) }
  generalize hr : ({ st with liw := 2 * (2 * st.nnz + 3 * st.dim + 1) } : St K P Keep Fac).newIW L = r at *
  obtain ⟨rb, r⟩ := r
  dsimp only at *
  split
  · exact ⟨m1, fun e => by simp at e⟩
  · split
    · exact ⟨m1, fun e => by simp at e⟩
    · generalize L.analyse st.dim st.nnz ia ja r.liw = a
      obtain ⟨j1, j2⟩ := reserve_mem L a { r with keep := a.keep } (by show r.nnz ≤ _; rw [a1.nnz]; exact hn)
      exact ⟨j1.trans m1, j2⟩

/-! ## Histories -/

section
variable [Field K] [LinearOrder P]
variable {L : Lib K P Keep Fac} {KeepOf : Keep → Structure → Prop} {FacOf : Fac → Keep → Structure → (Nat → K) → Prop}
  {inertia : Structure → (Nat → K) → Int}

theorem rep_throw {st st' : St K P Keep Fac} {k : Known K} (h : Rep KeepOf FacOf inertia st k) (h1 : st'.dim = st.dim) (h2 : st'.nnz = st.nnz)
    (h3 : st'.keep = st.keep) (h4 : st'.memInc = st.memInc) : Rep KeepOf FacOf inertia st' (afterThrow k) :=
  ⟨fun e => by simp [afterThrow] at e, by rw [h4]; exact h.memInc, fun S e => by rw [h1, h2, h3]; exact h.prev S e, fun S e => by simp [afterThrow] at e,
    fun v e => by simp [afterThrow] at e, fun _ S v e => by simp [afterThrow] at e, fun e => by simp [afterThrow] at e,
    fun e => by simp [afterThrow] at e⟩

/-- what holds after every history. -/
structure RanInv (KeepOf : Keep → Structure → Prop) (FacOf : Fac → Keep → Structure → (Nat → K) → Prop) (inertia : Structure → (Nat → K) → Int)
    (st : St K P Keep Fac) (k : Known K) (c : Care) : Prop where
  rep : Rep KeepOf FacOf inertia st k
  mem : c.sound = true → Lens' st
  full : c.sound = true → (c.settled = true ∨ k.struct = none ∨ (k.array = none ∧ st.refactorize = false)) → Lens st
  ok : c.ok = true → st.overrun = false

theorem solve_mem (L : Lib K P Keep Fac) (hA : AsksForMore L) (new : Bool) (ia ja : Nat → Nat) (nrhs : Nat) (arr : Nat → K) (chk : Bool) (neg : Nat)
    (st : St K P Keep Fac) (hm : 1 ≤ st.memInc) (h : Lens' st) (hf : new = false → st.refactorize = false → Lens st) :
    (st.multiSolve L new ia ja nrhs arr chk neg).2.2.overrun = st.overrun ∧
    (((st.multiSolve L new ia ja nrhs arr chk neg).1 ≠ none → Lens' (st.multiSolve L new ia ja nrhs arr chk neg).2.2 ∧
      (Lens st → Lens (st.multiSolve L new ia ja nrhs arr chk neg).2.2) ∧
      ((st.multiSolve L new ia ja nrhs arr chk neg).2.2.refactorize = false ∨ (st.multiSolve L new ia ja nrhs arr chk neg).1 ≠ some .callAgain →
        Lens (st.multiSolve L new ia ja nrhs arr chk neg).2.2))) := by
  have weak : ∀ {s : St K P Keep Fac}, Lens s → Lens' s := fun h => ⟨h.iw, Or.inl h.a, h.nnz⟩
  unfold St.multiSolve
  by_cases h1 : st.pivtolChanged = true ∧ (!new) = true
  · rw [if_pos h1]
    refine ⟨rfl, fun _ => ⟨⟨h.iw, h.a, h.nnz⟩, fun g => ⟨g.iw, g.a, g.nnz⟩, fun e => ?_⟩⟩
    rcases e with e | e
    · simp at e
    · exact absurd rfl e
  · rw [if_neg h1]
    dsimp only
    by_cases hB : (new || st.refactorize) = true
    · rw [if_pos hB]
      obtain ⟨f1, f2⟩ := factorize_mem L hA ia ja chk neg { st with pivtolChanged := false } ⟨h.iw, h.a, h.nnz⟩ hm
      generalize hf : ({ st with pivtolChanged := false } : St K P Keep Fac).factorize L ia ja chk neg = f at *
      obtain ⟨fs, f⟩ := f
      dsimp only at f1 f2 ⊢
      by_cases hs : fs = some .success
      · have hl := f2 (by rw [hs]; simp)
        rw [if_pos hs]
        simp only [hs, if_true]
        have lo : (f.overrun || (decide (0 < nrhs) && (!long f.aLen f.la || !long f.iwLen f.liw))) = st.overrun := by
          rw [hl.a, hl.iw, long_some (le_refl _), long_some (le_refl _)]; simpa using f1
        exact ⟨lo, fun _ => ⟨⟨hl.iw, Or.inl hl.a, hl.nnz⟩, fun _ => ⟨hl.iw, hl.a, hl.nnz⟩, fun _ => ⟨hl.iw, hl.a, hl.nnz⟩⟩⟩
      · rw [if_neg hs, if_neg hs]
        exact ⟨f1, fun e => ⟨weak (f2 e), fun _ => f2 e, fun _ => f2 e⟩⟩
    · rw [if_neg hB]
      simp only [Bool.or_eq_true, not_or, Bool.not_eq_true] at hB
      have hl := hf hB.1 hB.2
      simp only [if_true]
      have lo : (st.overrun || (decide (0 < nrhs) && (!long st.aLen st.la || !long st.iwLen st.liw))) = st.overrun := by
        rw [hl.a, hl.iw, long_some (le_refl _), long_some (le_refl _)]; simp
      exact ⟨lo, fun _ => ⟨⟨hl.iw, Or.inl hl.a, hl.nnz⟩, fun _ => ⟨hl.iw, hl.a, hl.nnz⟩, fun _ => ⟨hl.iw, hl.a, hl.nnz⟩⟩⟩

/-- a solve does not change the analysed structure. -/
theorem solve_same (L : Lib K P Keep Fac) (new : Bool) (ia ja : Nat → Nat) (nrhs : Nat) (arr : Nat → K) (chk : Bool) (neg : Nat)
    (st : St K P Keep Fac) : (st.multiSolve L new ia ja nrhs arr chk neg).2.2.dim = st.dim ∧
      (st.multiSolve L new ia ja nrhs arr chk neg).2.2.nnz = st.nnz ∧ (st.multiSolve L new ia ja nrhs arr chk neg).2.2.keep = st.keep ∧
      (st.multiSolve L new ia ja nrhs arr chk neg).2.2.memInc = st.memInc := by
  unfold St.multiSolve
  by_cases h1 : st.pivtolChanged = true ∧ (!new) = true
  · rw [if_pos h1]; exact ⟨rfl, rfl, rfl, rfl⟩
  · rw [if_neg h1]
    dsimp only
    by_cases hB : (new || st.refactorize) = true
    · rw [if_pos hB]
      obtain ⟨la, liw, f1, f2, f3⟩ := factorize_res L ia ja chk neg { st with pivtolChanged := false }
      generalize hf : ({ st with pivtolChanged := false } : St K P Keep Fac).factorize L ia ja chk neg = f at *
      obtain ⟨fs, f⟩ := f
      dsimp only at f1 ⊢
      by_cases hs : fs = some .success
      · rw [if_pos hs]; simp only [hs, if_true]; exact ⟨f1.dim, f1.nnz, f1.keep, f1.memInc⟩
      · rw [if_neg hs, if_neg hs]; exact ⟨f1.dim, f1.nnz, f1.keep, f1.memInc⟩
    · rw [if_neg hB]; exact ⟨rfl, rfl, rfl, rfl⟩

theorem write_mem (L : Lib K P Keep Fac) (v : Nat → K) (st : St K P Keep Fac) (h : Lens' st) :
    (st.write L v).2.overrun = st.overrun ∧ ((st.write L v).1 = true → Lens' (st.write L v).2) := by
  unfold St.write St.getValues
  by_cases hl : st.laInc = true
  · rw [if_pos hl]
    unfold St.newA
    split
    · dsimp only
      rw [long_some (le_refl _)]
      exact ⟨by simp, fun _ => ⟨h.iw, Or.inr ⟨hl, rfl⟩, h.nnz⟩⟩
    · exact ⟨by simp, fun e => by simp at e⟩
  · rw [if_neg hl]
    have ha : st.aLen = some st.la := h.a.resolve_right (fun e => hl e.1)
    dsimp only
    rw [ha, long_some h.nnz]
    exact ⟨by simp, fun _ => ⟨h.iw, Or.inl rfl, h.nnz⟩⟩

theorem write_fail_overrun (L : Lib K P Keep Fac) (v : Nat → K) (st : St K P Keep Fac) (h : (st.write L v).1 = false) :
    (st.write L v).2.overrun = st.overrun := by
  unfold St.write St.getValues at h ⊢
  by_cases hl : st.laInc = true
  · rw [if_pos hl] at h ⊢
    unfold St.newA at h ⊢
    split
    · rename_i ha; rw [if_pos ha] at h; simp at h
    · simp
  · rw [if_neg hl] at h; simp at h

theorem ran_inv (LO : LibOK L KeepOf FacOf inertia) (hA : AsksForMore L) {st : St K P Keep Fac} {k : Known K} {c : Care} (h : Ran L st k c) :
    RanInv KeepOf FacOf inertia st k c := by
  induction h with
  | start o keep ho => exact ⟨rep_start o keep ho, fun e => by simp at e, fun e => by simp at e, fun _ => rfl⟩
  | init o maxSet warm ho _ ih =>
    rename_i st k c _
    have key : warm = true → Lens st → Lens (st.init o maxSet warm).2 := by
      intro hw hl
      subst hw
      unfold St.init
      split <;> exact ⟨hl.iw, hl.a, hl.nnz⟩
    have over : (st.init o maxSet warm).2.overrun = st.overrun := by
      unfold St.init
      split
      · rfl
      · dsimp only; split <;> rfl
    refine ⟨rep_init o maxSet warm ho ih.rep, fun e => ?_, fun e _ => ?_, fun e => over.trans (ih.ok e)⟩
    · simp only [Bool.and_eq_true] at e
      have := key e.1.1 (ih.full e.1.2 (Or.inl e.2))
      exact ⟨this.iw, Or.inl this.a, this.nnz⟩
    · simp only [Bool.and_eq_true] at e
      exact key e.1.1 (ih.full e.1.2 (Or.inl e.2))
  | struct S hn _ ha hs ih =>
    rename_i st k c _
    obtain ⟨r1, r2, r3⟩ := rep_struct LO ih.rep S ha
    have hw := ih.rep.warm ha.1
    by_cases hkw : k.warm = true
    · have hst : st.warm = true := by rw [hw]; exact hkw
      obtain ⟨p1, p2, p3⟩ := ih.rep.prev S (ha.2 hkw)
      have e : st.initStructure L S.dim S.nnz S.ia S.ja = (some .success, { st with initialized := true }) := by
        unfold St.initStructure
        rw [if_neg (by simp [hst]), if_pos ⟨p1, p2⟩]
      rw [e] at r3 ⊢
      have hfull : (if k.warm = true then c.sound else decide ((some Status.success, { st with initialized := true } ).1 = some Status.success)) = c.sound := by
        rw [if_pos hkw]
      refine ⟨r3, fun e => ?_, fun e _ => ?_, ih.ok⟩
      · simp only [hkw, if_true] at e
        have := ih.full e (Or.inr (Or.inl hs))
        exact ⟨this.iw, Or.inl this.a, this.nnz⟩
      · simp only [hkw, if_true] at e
        have := ih.full e (Or.inr (Or.inl hs))
        exact ⟨this.iw, this.a, this.nnz⟩
    · have hkw' : k.warm = false := by simpa using hkw
      have hst : st.warm = false := by rw [hw]; exact hkw'
      have key : (st.initStructure L S.dim S.nnz S.ia S.ja).2.overrun = st.overrun ∧
          ((st.initStructure L S.dim S.nnz S.ia S.ja).1 = some .success → Lens (st.initStructure L S.dim S.nnz S.ia S.ja).2) := by
        unfold St.initStructure
        rw [if_pos (by simp [hst])]
        obtain ⟨m1, m2⟩ := symbolic_mem L S.ia S.ja { st with dim := S.dim, nnz := S.nnz } hn
        dsimp only
        split
        · exact ⟨m1, fun e => ⟨(m2 e).iw, (m2 e).a, (m2 e).nnz⟩⟩
        · exact ⟨m1, m2⟩
      refine ⟨r3, fun e => ?_, fun e _ => ?_, fun e => key.1.trans (ih.ok e)⟩
      · simp only [hkw', Bool.false_eq_true, if_false, decide_eq_true_eq] at e
        have := key.2 e
        exact ⟨this.iw, Or.inl this.a, this.nnz⟩
      · simp only [hkw', Bool.false_eq_true, if_false, decide_eq_true_eq] at e
        exact key.2 e
  | write v _ hS hok ih =>
    rename_i st k c S _
    obtain ⟨_, _, _, _, _, r⟩ := rep_write (L := L) ih.rep v
    refine ⟨r, fun e => (write_mem L v st (ih.mem e)).2 hok, fun e e2 => ?_, fun e => ?_⟩
    · rcases e2 with e2 | e2 | e2
      · simp at e2
      · rw [show ({ k with array := some v } : Known K).struct = k.struct from rfl, hS] at e2; simp at e2
      · simp at e2
    · simp only [Bool.and_eq_true] at e
      rw [(write_mem L v st (ih.mem e.2)).1]
      exact ih.ok e.1
  | writeThrows v _ hS hf ih =>
    rename_i st k c S _
    have key : Same st (st.getValues L).2 := by
      unfold St.getValues
      split
      · exact (newA_same L st.nnz st).1
      · exact .refl _
    refine ⟨rep_throw ih.rep key.dim key.nnz key.keep key.memInc, fun e => by simp at e, fun e => by simp at e, fun e => ?_⟩
    simp only [Bool.and_eq_true] at e
    rw [write_fail_overrun L v st hf]
    exact ih.ok e.1
  | solve new nrhs arr chk neg _ ha ih =>
    rename_i st k c S _
    have R := solve_res LO ih.rep ha nrhs arr chk neg
    have hf : c.sound = true → new = false → st.refactorize = false → Lens st := by
      intro hs hn hr
      refine ih.full hs (Or.inr (Or.inr ⟨?_, hr⟩))
      cases hka : k.array with
      | none => rfl
      | some v =>
        rcases ha.2.2 (by rw [hka]; rfl) with e | e
        · rw [hn] at e; simp at e
        · rw [ih.rep.asked e] at hr; simp at hr
    have M := fun (hs : c.sound = true) => solve_mem L hA new S.ia S.ja nrhs arr chk neg st ih.rep.memInc (ih.mem hs) (hf hs)
    obtain ⟨d1, d2, d3, d4⟩ := solve_same L new S.ia S.ja nrhs arr chk neg st
    generalize hr : st.multiSolve L new S.ia S.ja nrhs arr chk neg = r at *
    obtain ⟨rs, out, st'⟩ := r
    dsimp only at *
    refine ⟨?_, fun e => ?_, fun e e2 => ?_, fun e => ?_⟩
    · cases rs with
      | none => exact rep_throw ih.rep d1 d2 d3 d4
      | some s =>
        cases s with
        | success => exact (R.success rfl).1
        | callAgain => exact (R.again rfl).2.1
        | singular => exact (R.other (by simp) (by simp)).2
        | wrongInertia => exact (R.other (by simp) (by simp)).2
        | fatal => exact (R.other (by simp) (by simp)).2
    · simp only [Bool.and_eq_true, decide_eq_true_eq] at e
      exact ((M e.1).2 e.2).1
    · simp only [Bool.and_eq_true, decide_eq_true_eq] at e
      obtain ⟨m1, m2, m3⟩ := (M e.1).2 e.2
      cases rs with
      | none => exact absurd rfl e.2
      | some s =>
        by_cases hs : s = .callAgain
        · subst hs
          simp only at e2
          rcases e2 with e2 | e2 | e2
          · exact m2 (ih.full e.1 (Or.inl e2))
          · rw [show (k.afterSolve none (!new)).struct = k.struct from rfl, ha.1] at e2; simp at e2
          · exact m3 (Or.inl e2.2)
        · exact m3 (Or.inr (by simpa using hs))
    · simp only [Bool.and_eq_true] at e
      rw [(M e.2).1]; exact ih.ok e.1
  | quality _ ih =>
    rename_i st k c _
    obtain ⟨_, r⟩ := rep_quality (L := L) ih.rep
    have key : (st.quality L).2.overrun = st.overrun ∧ (st.quality L).2.refactorize = st.refactorize ∧ (Lens' st → Lens' (st.quality L).2) ∧
        (Lens st → Lens (st.quality L).2) := by
      unfold St.quality
      split
      · exact ⟨rfl, rfl, fun h => h, fun h => h⟩
      · exact ⟨rfl, rfl, fun h => ⟨h.iw, h.a, h.nnz⟩, fun h => ⟨h.iw, h.a, h.nnz⟩⟩
    refine ⟨r, fun e => key.2.2.1 (ih.mem e), fun e e2 => key.2.2.2 (ih.full e ?_), fun e => key.1.trans (ih.ok e)⟩
    rw [key.2.1] at e2
    exact e2

end

end Verif.Ma27
