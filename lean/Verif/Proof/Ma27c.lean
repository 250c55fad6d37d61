import Verif.Proof.Ma27b

/-! # One call of `MultiSolve` of the MA27 interface -/

namespace Verif.Ma27
open Verif.AugSolve (Status Structure Known SolvesAll denote Contract)
open Finset

set_option linter.unusedSectionVars false
set_option linter.unusedSimpArgs false
set_option linter.unusedVariables false

variable {K P Keep Fac : Type} [Field K]
variable {L : Lib K P Keep Fac} {KeepOf : Keep → Structure → Prop} {FacOf : Fac → Keep → Structure → (Nat → K) → Prop}
  {inertia : Structure → (Nat → K) → Int}

/-- how many times the object can still ask to be called again. -/
def patience (L : Lib K P Keep Fac) (st : St K P Keep Fac) : Nat := room L st + if st.pivtolChanged then 1 else 0

/-- everything about the outcome of a call. -/
structure SolveRes (L : Lib K P Keep Fac) (KeepOf : Keep → Structure → Prop) (FacOf : Fac → Keep → Structure → (Nat → K) → Prop)
    (inertia : Structure → (Nat → K) → Int) (st : St K P Keep Fac) (k : Known K) (S : Structure) (new : Bool) (nrhs : Nat) (arr : Nat → K)
    (chk : Bool) (neg : Nat) (r : Option Status) (out : Nat → K) (st' : St K P Keep Fac) : Prop where
  ignore : st'.ignoreSingular = st.ignoreSingular
  memInc : st'.memInc = st.memInc
  success : r = some .success → Rep KeepOf FacOf inertia st' (k.afterSolve (k.array.or k.held) false) ∧
    (st.ignoreSingular = false → (k.array.isSome ∨ k.held.isSome ∨ k.raised = true) → ∃ v, k.array.or k.held = some v ∧
      SolvesAll .triplet S v nrhs out arr ∧ st'.neg = inertia S v) ∧
    (st.ignoreSingular = false → (new = true ∨ k.array.isSome) → chk = true → st.skipInertia = false → st'.neg = neg)
  again : r = some .callAgain → out = arr ∧ Rep KeepOf FacOf inertia st' (k.afterSolve none (!new)) ∧
    (1 ≤ st.memInc → AsksForMore L → patience L st' < patience L st)
  other : r ≠ some .success → r ≠ some .callAgain → out = arr ∧ Rep KeepOf FacOf inertia st' (k.afterSolve none false)
  wrong : r = some .wrongInertia → chk = true ∧ st.skipInertia = false ∧ st'.neg ≠ neg ∧
    (st.ignoreSingular = false → ∀ v, k.array = some v → inertia S v ≠ neg)
  flags : st'.pivtolChanged = false

theorem solve_res (LO : LibOK L KeepOf FacOf inertia) {st : St K P Keep Fac} {k : Known K} (h : Rep KeepOf FacOf inertia st k)
    {S : Structure} {new : Bool} (ha : k.AllowsSolve S new) (nrhs : Nat) (arr : Nat → K) (chk : Bool) (neg : Nat) :
    SolveRes L KeepOf FacOf inertia st k S new nrhs arr chk neg (st.multiSolve L new S.ia S.ja nrhs arr chk neg).1
      (st.multiSolve L new S.ia S.ja nrhs arr chk neg).2.1 (st.multiSolve L new S.ia S.ja nrhs arr chk neg).2.2 := by
  obtain ⟨ha1, ha2, ha3⟩ := ha
  obtain ⟨hd, hnz, hk⟩ := h.prev S (h.struct S ha1)
  unfold St.multiSolve
  by_cases hA : st.pivtolChanged = true ∧ (!new) = true
  · rw [if_pos hA]
    refine ⟨rfl, rfl, fun e => by simp at e, fun _ => ⟨rfl, ?_, fun _ _ => ?_⟩, fun _ e => by simp at e, fun e => by simp at e, rfl⟩
    · exact ⟨h.warm, h.memInc, h.prev, h.struct, fun v e => by simp [Known.afterSolve] at e, fun _ S v _ e => by simp [Known.afterSolve] at e,
        fun e => by simp [Known.afterSolve] at e, fun _ => rfl⟩
    · unfold patience room
      simp [hA.1]
  · rw [if_neg hA]
    dsimp only
    have hpc : new = false → st.pivtolChanged = false := by
      intro e
      by_contra hc
      exact hA ⟨by simpa using hc, by simp [e]⟩
    by_cases hB : (new || st.refactorize) = true
    · rw [if_pos hB]
      set st1 : St K P Keep Fac := { st with pivtolChanged := false } with hst1
      obtain ⟨la, liw, f1, f2, f3⟩ := factorize_res L S.ia S.ja chk neg st1
      -- values written
      have harr : ∀ v, k.array = some v → st.work = .raw v := h.array
      have hfac : st.ignoreSingular = false → ∀ v, k.array = some v → ∀ b, L.factor st1.dim st1.nnz S.ia S.ja st1.work la liw st1.keep st1.pivtol = b →
          b.iflag = 0 → FacOf b.fac st.keep S v ∧ b.neg = inertia S v := by
        intro hi v hv b hb h0
        have hw : st1.work = .raw v := harr v hv
        have e1 : st1.dim = S.dim := hd
        have e2 : st1.nnz = S.nnz := hnz
        rw [hw, e1, e2] at hb
        have := LO.factor S v la liw st1.keep st1.pivtol hk
        rw [hb] at this
        exact this h0
      generalize hb : L.factor st1.dim st1.nnz S.ia S.ja st1.work la liw st1.keep st1.pivtol = b at *
      generalize hf : st1.factorize L S.ia S.ja chk neg = f at *
      obtain ⟨fs, f⟩ := f
      dsimp only at f1 f2 f3 ⊢
      have s0 : Same st1 f := f1
      by_cases hs : fs = some .success
      · subst hs
        simp only [if_true]
        obtain ⟨g1, g2, g3, g4⟩ := f2.success rfl
        have hkeep : f.keep = st.keep := s0.keep
        have hiflag : st.ignoreSingular = false → b.iflag = 0 := by
          intro hi
          rcases g1 with g1 | ⟨_, g1⟩
          · exact g1
          · rw [show st1.ignoreSingular = st.ignoreSingular from rfl, hi] at g1; simp at g1
        have hheld : ∀ v, k.array = none → k.held = some v → st.ignoreSingular = false → False := by
          intro v e1 e2 hi
          obtain ⟨_, q⟩ := h.held hi S v ha1 e2
          have hr := (q e1).1
          rw [hr, Bool.or_false] at hB
          have := ha2 hB
          rw [e1] at this; simp at this
        refine ⟨s0.ignore, s0.memInc, fun _ => ⟨?_, fun hi hsome => ?_, fun hi hnew hchk hskip => g4 hskip hchk⟩, fun e => by simp at e,
          fun e => absurd rfl e, fun e => by simp at e, s0.pc⟩
        · refine ⟨fun e => s0.warm.trans (h.warm e), by dsimp only; rw [s0.memInc]; exact h.memInc,
            fun S' e => by dsimp only; rw [s0.dim, s0.nnz, s0.keep]; exact h.prev S' e, h.struct, fun v e => by simp [Known.afterSolve] at e,
            fun hi S' v e1 e2 => ?_, fun e => by simp [Known.afterSolve] at e, fun e => by simp [Known.afterSolve] at e⟩
          have hi' : st.ignoreSingular = false := by rw [← hi]; exact s0.ignore.symm
          simp only [Known.afterSolve] at e1 e2
          rw [ha1] at e1
          cases e1
          cases hka : k.array with
          | none =>
            rw [hka] at e2
            exact (hheld v hka (by simpa using e2) hi').elim
          | some w =>
            rw [hka] at e2
            simp only [Option.some_or, Option.some.injEq] at e2
            subst e2
            obtain ⟨q1, q2⟩ := hfac hi' w hka b rfl (hiflag hi')
            exact ⟨by show f.neg = _; rw [g3 (hiflag hi'), q2], fun _ => ⟨rfl, b.fac, g2, by show FacOf _ f.keep _ _; rw [hkeep]; exact q1⟩⟩
        · cases hka : k.array with
          | none =>
            exfalso
            rw [hka] at hsome
            rcases hsome with e | e | e
            · simp at e
            · obtain ⟨w, hw⟩ := Option.isSome_iff_exists.1 e
              exact hheld w hka hw hi
            · have := h.raised e
              cases hn : new with
              | false => rw [hpc hn] at this; simp at this
              | true => have := ha2 hn; rw [hka] at this; simp at this
          | some w =>
            obtain ⟨q1, q2⟩ := hfac hi w hka b rfl (hiflag hi)
            refine ⟨w, by simp, ?_, by show f.neg = _; rw [g3 (hiflag hi), q2]⟩
            set f' : St K P Keep Fac := { f with refactorize := false } with hf'
            have hdim : f'.dim = S.dim := s0.dim.trans hd
            have hbs : ∀ c, SolvesAll .triplet S w 1 (L.backsolve S.dim f'.work f'.keep c) c := by
              intro c
              have : f'.work = .fac b.fac := g2
              rw [this]
              have e : f'.keep = st.keep := hkeep
              rw [e]
              exact LO.backsolve b.fac st.keep S w c q1
            intro i hi2 r hr
            exact (solveLoop_spec L f' S w hdim hbs nrhs 0 arr).2 i (by omega) (by omega) r hr
      · rw [if_neg hs, if_neg hs]
        have hs0 : Same { st with pivtolChanged := false } f := s0
        have drop : ∀ asked, (asked = true → f.refactorize = true) → Rep KeepOf FacOf inertia f (k.afterSolve none asked) := by
          intro asked hask
          have h' : Rep KeepOf FacOf inertia st1 { k with raised := false } :=
            ⟨h.warm, h.memInc, h.prev, h.struct, h.array, h.held, fun e => by simp at e, h.asked⟩
          exact rep_drop h' s0 asked hask
        refine ⟨s0.ignore, s0.memInc, fun e => absurd e hs, fun e => ⟨rfl, drop _ ?_, fun hm has => ?_⟩, fun _ _ => ⟨rfl, drop _ (fun e => by simp at e)⟩,
          fun e => ?_, s0.pc⟩
        · intro hn
          rw [s0.ref]
          show st.refactorize = true
          cases new with
          | false => simpa using hB
          | true => simp at hn
        · have lt := f3 hm has e
          unfold patience
          rw [show f.pivtolChanged = false from s0.pc]
          have : room L st1 = room L st := rfl
          rw [this] at lt
          simp only [Bool.false_eq_true, if_false]
          split <;> omega
        · obtain ⟨w1, w2, w3, w4, w5⟩ := f2.wrong e
          refine ⟨w2, w3, w5, fun hi v hv hc => w5 ?_⟩
          have h0 : b.iflag = 0 := by
            rcases w1 with w1 | ⟨_, w1⟩
            · exact w1
            · rw [show st1.ignoreSingular = st.ignoreSingular from rfl, hi] at w1; simp at w1
          rw [w4 h0, (hfac hi v hv b rfl h0).2, hc]
    · rw [if_neg hB]
      simp only [if_true]
      simp only [Bool.or_eq_true, not_or, Bool.not_eq_true] at hB
      obtain ⟨hn, hr⟩ := hB
      have hka : k.array = none := by
        cases hka : k.array with
        | none => rfl
        | some v =>
          rcases ha3 (by rw [hka]; rfl) with e | e
          · rw [hn] at e; simp at e
          · rw [h.asked e] at hr; simp at hr
      refine ⟨rfl, rfl, fun _ => ⟨?_, fun hi hsome => ?_, fun hi hnew => ?_⟩, fun e => by simp at e, fun e => absurd rfl e, fun e => by simp at e, rfl⟩
      · refine ⟨h.warm, h.memInc, h.prev, h.struct, fun v e => by simp [Known.afterSolve] at e, fun hi S' v e1 e2 => ?_,
          fun e => by simp [Known.afterSolve] at e, fun e => by simp [Known.afterSolve] at e⟩
        simp only [Known.afterSolve, hka, Option.none_or] at e1 e2
        obtain ⟨q1, q2⟩ := h.held hi S' v e1 e2
        exact ⟨q1, fun _ => q2 hka⟩
      · rw [hka] at hsome ⊢
        rcases hsome with e | e | e
        · simp at e
        · obtain ⟨w, hw⟩ := Option.isSome_iff_exists.1 e
          obtain ⟨q1, q2⟩ := h.held hi S w ha1 hw
          obtain ⟨_, fc, w1, w2⟩ := q2 hka
          refine ⟨w, by simpa using hw, ?_, q1⟩
          set f' : St K P Keep Fac := { st with pivtolChanged := false } with hf'
          have hbs : ∀ c, SolvesAll .triplet S w 1 (L.backsolve S.dim f'.work f'.keep c) c := by
            intro c
            have : f'.work = .fac fc := w1
            rw [this]
            exact LO.backsolve fc st.keep S w c w2
          intro i hi2 r hr2
          exact (solveLoop_spec L f' S w hd hbs nrhs 0 arr).2 i (by omega) (by omega) r hr2
        · have := h.raised e
          rw [hpc hn] at this; simp at this
      · rcases hnew with e | e
        · rw [hn] at e; simp at e
        · rw [hka] at e; simp at e

end Verif.Ma27
