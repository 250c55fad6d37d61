import Verif.Proof.Ma57

/-! # The MA57 interface keeps the contract of sparse solvers -/

namespace Verif.Ma57
open Verif.AugSolve (Status Structure Known SolvesAll denote Contract Env)
open Verif.Ma27 (memIncrease long afterThrow)

set_option linter.unusedSectionVars false
set_option linter.unusedSimpArgs false
set_option linter.unusedVariables false

variable {K P Keep Mem : Type} [Field K]

/-- what the caller may rely on. -/
structure Rep (L : Lib K P Keep Mem) (FacOf : Mem → Structure → (Nat → K) → Prop) (inertia : Structure → (Nat → K) → Int)
    (st : St K P Keep Mem) (k : Known K) : Prop where
  warm : k.init = true → st.warm = k.warm
  pre : 1 ≤ st.preAlloc
  prev : ∀ S, k.prev = some S → st.dim = S.dim ∧ st.nnz = S.nnz ∧ st.keep = (L.analyse S.dim S.nnz S.ia S.ja).keep
  struct : ∀ S, k.struct = some S → k.prev = some S
  array : ∀ v, k.array = some v → st.vals = v
  held : ∀ S v, k.struct = some S → k.held = some v → st.neg = inertia S v ∧ FacOf st.mem S v ∧ (k.array = none → st.refactorize = false)
  raised : k.raised = true → st.pivtolChanged = true
  asked : k.asked = true → st.refactorize = true

variable {L : Lib K P Keep Mem} {KeepOf : Keep → Structure → Prop} {FacOf : Mem → Structure → (Nat → K) → Prop}
  {inertia : Structure → (Nat → K) → Int}

theorem rep_start [LinearOrder P] (o : Opts P) (keep : Keep) (ho : 1 ≤ o.preAlloc) : Rep L FacOf inertia (St.start o keep L) Known.fresh :=
  ⟨fun h => by simp [Known.fresh] at h, ho, fun S h => by simp [Known.fresh] at h, fun S h => by simp [Known.fresh] at h,
    fun S h => by simp [Known.fresh] at h, fun S v h => by simp [Known.fresh] at h, fun h => by simp [Known.fresh] at h,
    fun h => by simp [Known.fresh] at h⟩

theorem rep_init [LinearOrder P] (o : Opts P) (maxSet warm : Bool) (ho : 1 ≤ o.preAlloc) {st : St K P Keep Mem} {k : Known K}
    (h : Rep L FacOf inertia st k) : Rep L FacOf inertia (st.init o maxSet warm).2 (k.afterInit warm (st.init o maxSet warm).1) := by
  unfold St.init
  split
  · exact ⟨fun e => by simp [Known.afterInit] at e, h.pre, fun S e => h.prev S (by simpa [Known.afterInit] using e),
      fun S e => by simp [Known.afterInit] at e, fun v e => by simp [Known.afterInit] at e, fun S v e => by simp [Known.afterInit] at e,
      fun e => by simp [Known.afterInit] at e, fun e => by simp [Known.afterInit] at e⟩
  · cases warm with
    | false =>
      exact ⟨fun e => rfl, ho, fun S e => by simp [Known.afterInit] at e,
        fun S e => by simp [Known.afterInit] at e, fun v e => by simp [Known.afterInit] at e, fun S v e => by simp [Known.afterInit] at e,
        fun e => by simp [Known.afterInit] at e, fun e => by simp [Known.afterInit] at e⟩
    | true =>
      exact ⟨fun e => rfl, ho, fun S e => h.prev S (by simpa [Known.afterInit] using e),
        fun S e => by simp [Known.afterInit] at e, fun v e => by simp [Known.afterInit] at e, fun S v e => by simp [Known.afterInit] at e,
        fun e => by simp [Known.afterInit] at e, fun e => by simp [Known.afterInit] at e⟩

theorem symbolic_res (L : Lib K P Keep Mem) (ia ja : Nat → Nat) (st : St K P Keep Mem) :
    (st.symbolic L ia ja).2.dim = st.dim ∧ (st.symbolic L ia ja).2.nnz = st.nnz ∧ (st.symbolic L ia ja).2.warm = st.warm ∧
    (st.symbolic L ia ja).2.preAlloc = st.preAlloc ∧ (st.symbolic L ia ja).2.keep = (L.analyse st.dim st.nnz ia ja).keep ∧
    (st.symbolic L ia ja).2.pivtol = st.pivtol ∧ (st.symbolic L ia ja).2.pivtolmax = st.pivtolmax ∧
    (st.symbolic L ia ja).2.pivtolChanged = st.pivtolChanged ∧
    ((st.symbolic L ia ja).1 = .thrown ∨ (st.symbolic L ia ja).1 = .ret .success) ∧ (st.symbolic L ia ja).2.overrun = st.overrun ∧
    ((st.symbolic L ia ja).1 = .ret .success → st.aLen = some st.nnz → Lens (st.symbolic L ia ja).2) := by
  unfold St.symbolic
  dsimp only
  split
  · exact ⟨rfl, rfl, rfl, rfl, rfl, rfl, rfl, rfl, Or.inl rfl, rfl, fun e => by simp at e⟩
  · split
    · exact ⟨rfl, rfl, rfl, rfl, rfl, rfl, rfl, rfl, Or.inl rfl, rfl, fun e => by simp at e⟩
    · split
      · exact ⟨rfl, rfl, rfl, rfl, rfl, rfl, rfl, rfl, Or.inl rfl, rfl, fun e => by simp at e⟩
      · split
        · exact ⟨rfl, rfl, rfl, rfl, rfl, rfl, rfl, rfl, Or.inl rfl, rfl, fun e => by simp at e⟩
        · exact ⟨rfl, rfl, rfl, rfl, rfl, rfl, rfl, rfl, Or.inr rfl, rfl, fun _ h => ⟨h, rfl, rfl⟩⟩

/-- everything about `InitializeStructure` that does not concern the caller's knowledge. -/
theorem struct_res (L : Lib K P Keep Mem) (d n : Nat) (ia ja : Nat → Nat) (st : St K P Keep Mem) :
    (st.initStructure L d n ia ja).2.warm = st.warm ∧ (st.initStructure L d n ia ja).2.preAlloc = st.preAlloc ∧
    (st.initStructure L d n ia ja).2.pivtol = st.pivtol ∧ (st.initStructure L d n ia ja).2.pivtolmax = st.pivtolmax ∧
    (st.initStructure L d n ia ja).2.pivtolChanged = st.pivtolChanged ∧
    ((st.initStructure L d n ia ja).1 = .thrown ∨ (st.initStructure L d n ia ja).1 = .ret .success) ∧
    (st.initStructure L d n ia ja).2.overrun = st.overrun ∧
    ((st.initStructure L d n ia ja).1 = .ret .success → (st.initStructure L d n ia ja).2.dim = d ∧ (st.initStructure L d n ia ja).2.nnz = n ∧
      (st.warm = false → (st.initStructure L d n ia ja).2.keep = (L.analyse d n ia ja).keep ∧ Lens (st.initStructure L d n ia ja).2)) ∧
    (st.warm = true → (st.initStructure L d n ia ja).2.dim = st.dim ∧ (st.initStructure L d n ia ja).2.nnz = st.nnz ∧
      (st.initStructure L d n ia ja).2.keep = st.keep ∧ (Lens st → Lens (st.initStructure L d n ia ja).2)) := by
  unfold St.initStructure
  by_cases hw : st.warm = true
  · rw [if_neg (by simp [hw])]
    split
    · rename_i hd
      exact ⟨rfl, rfl, rfl, rfl, rfl, Or.inr rfl, rfl, fun _ => ⟨hd.1, hd.2, fun e => by rw [hw] at e; simp at e⟩,
        fun _ => ⟨rfl, rfl, rfl, fun h => ⟨h.a, h.fact, h.ifact⟩⟩⟩
    · exact ⟨rfl, rfl, rfl, rfl, rfl, Or.inl rfl, rfl, fun e => by simp at e, fun _ => ⟨rfl, rfl, rfl, fun h => h⟩⟩
  · rw [if_pos (by simpa using hw)]
    dsimp only
    split
    · exact ⟨rfl, rfl, rfl, rfl, rfl, Or.inl rfl, rfl, fun e => by simp at e, fun e => absurd e hw⟩
    · obtain ⟨a1, a2, a3, a4, a5, a6, a7, a8, a9, a10, a11⟩ := symbolic_res L ia ja
        ({ st with dim := d, nnz := n, aLen := some n, vals := L.junk, allocs := st.allocs + 1 } : St K P Keep Mem)
      generalize ({ st with dim := d, nnz := n, aLen := some n, vals := L.junk, allocs := st.allocs + 1 } : St K P Keep Mem).symbolic L ia ja = r at *
      obtain ⟨ro, r⟩ := r
      dsimp only at *
      split
      · rename_i hs
        have l := a11 hs rfl
        exact ⟨a3, a4, a6, a7, a8, Or.inr hs, a10, fun _ => ⟨a1, a2, fun _ => ⟨a5, ⟨l.a, l.fact, l.ifact⟩⟩⟩, fun e => absurd e hw⟩
      · rename_i hs
        exact ⟨a3, a4, a6, a7, a8, a9, a10, fun e => absurd e hs, fun e => absurd e hw⟩

theorem rep_struct {st : St K P Keep Mem} {k : Known K} (h : Rep L FacOf inertia st k) (S : Structure) (ha : k.AllowsStruct S) :
    Rep L FacOf inertia (st.initStructure L S.dim S.nnz S.ia S.ja).2
      (k.afterStruct S ((st.initStructure L S.dim S.nnz S.ia S.ja).1 = .ret .success)) := by
  obtain ⟨a1, a2, _, _, _, a6, _, a8, a9⟩ := struct_res L S.dim S.nnz S.ia S.ja st
  have hw := h.warm ha.1
  have hwarm : st.warm = true → k.prev = some S ∧ st.dim = S.dim ∧ st.nnz = S.nnz ∧ st.keep = (L.analyse S.dim S.nnz S.ia S.ja).keep := by
    intro e
    have hp := ha.2 (by rw [← hw]; exact e)
    exact ⟨hp, h.prev S hp⟩
  generalize st.initStructure L S.dim S.nnz S.ia S.ja = r at *
  obtain ⟨ro, r⟩ := r
  dsimp only at *
  by_cases hs : ro = .ret .success
  · simp only [hs, Known.afterStruct, decide_true, if_true]
    obtain ⟨b1, b2, b3⟩ := a8 hs
    refine ⟨fun e => a1.trans hw, by rw [a2]; exact h.pre, fun S' e => ?_, fun S' e => e, fun v e => by simp at e, fun S v _ e => by simp at e,
      fun e => by simp at e, fun e => by simp at e⟩
    cases e
    refine ⟨b1, b2, ?_⟩
    cases hst : st.warm with
    | false => exact (b3 hst).1
    | true => exact (a9 hst).2.2.1.trans (hwarm hst).2.2.2
  · simp only [hs, Known.afterStruct, decide_false, Bool.false_eq_true, if_false]
    refine ⟨fun e => a1.trans hw, by rw [a2]; exact h.pre, fun S' e => ?_, fun S' e => by simp at e, fun v e => by simp at e,
      fun S v e => by simp at e, fun e => by simp at e, fun e => by simp at e⟩
    cases hkw : k.warm with
    | false => rw [hkw] at e; simp at e
    | true =>
      rw [hkw] at e
      simp only [if_true] at e
      have hst : st.warm = true := by rw [hw]; exact hkw
      obtain ⟨c1, c2, c3, _⟩ := a9 hst
      rw [c1, c2, c3]
      exact h.prev S' e

theorem rep_write {st : St K P Keep Mem} {k : Known K} (h : Rep L FacOf inertia st k) (v : Nat → K) :
    Rep L FacOf inertia (st.write v) { k with array := some v } :=
  ⟨h.warm, h.pre, h.prev, h.struct, fun w e => by simp at e; rw [← e]; rfl, fun S w e1 e2 =>
    ⟨(h.held S w e1 e2).1, (h.held S w e1 e2).2.1, fun e => by simp at e⟩, h.raised, h.asked⟩

theorem rep_quality [LinearOrder P] {st : St K P Keep Mem} {k : Known K} (h : Rep L FacOf inertia st k) :
    Rep L FacOf inertia (st.quality L).2 { k with raised := k.raised || (st.quality L).1 } := by
  unfold St.quality
  split
  · refine ⟨h.warm, h.pre, h.prev, h.struct, h.array, h.held, fun e => ?_, h.asked⟩
    simp only [Bool.or_false] at e
    exact h.raised e
  · exact ⟨h.warm, h.pre, h.prev, h.struct, h.array, h.held, fun _ => rfl, h.asked⟩

/-- forgetting everything written and factorized. -/
theorem rep_drop {st st' : St K P Keep Mem} {k : Known K} (h : Rep L FacOf inertia st k) (s1 : st'.dim = st.dim) (s2 : st'.nnz = st.nnz)
    (s3 : st'.keep = st.keep) (s4 : st'.warm = st.warm) (s5 : st'.preAlloc = st.preAlloc) (asked : Bool)
    (ha : asked = true → st'.refactorize = true) : Rep L FacOf inertia st' (k.afterSolve none asked) :=
  ⟨fun e => s4.trans (h.warm e), by rw [s5]; exact h.pre, fun S e => by rw [s1, s2, s3]; exact h.prev S e, h.struct,
    fun v e => by simp [Known.afterSolve] at e, fun S v _ e => by simp [Known.afterSolve] at e, fun e => by simp [Known.afterSolve] at e, ha⟩

theorem rep_throw {st st' : St K P Keep Mem} {k : Known K} (h : Rep L FacOf inertia st k) (s1 : st'.dim = st.dim) (s2 : st'.nnz = st.nnz)
    (s3 : st'.keep = st.keep) (s5 : st'.preAlloc = st.preAlloc) : Rep L FacOf inertia st' (afterThrow k) :=
  ⟨fun e => by simp [afterThrow] at e, by rw [s5]; exact h.pre, fun S e => by rw [s1, s2, s3]; exact h.prev S e, fun S e => by simp [afterThrow] at e,
    fun v e => by simp [afterThrow] at e, fun S v e => by simp [afterThrow] at e, fun e => by simp [afterThrow] at e, fun e => by simp [afterThrow] at e⟩

/-- everything about the outcome of a call. -/
structure SolveRes (L : Lib K P Keep Mem) (FacOf : Mem → Structure → (Nat → K) → Prop)
    (inertia : Structure → (Nat → K) → Int) (fuel : Nat) (st : St K P Keep Mem) (k : Known K) (S : Structure) (new : Bool) (nrhs : Nat) (arr : Nat → K)
    (chk : Bool) (neg : Nat) (r : Out) (out : Nat → K) (st' : St K P Keep Mem) : Prop where
  success : r = .ret .success → Rep L FacOf inertia st' (k.afterSolve (k.array.or k.held) false) ∧
    out = (L.backsolve st'.dim st'.mem st'.lfact st'.lifact nrhs arr).2 ∧ st'.dim = S.dim ∧
    ((k.array.isSome ∨ k.held.isSome ∨ k.raised = true) → ∃ v, k.array.or k.held = some v ∧ FacOf st'.mem S v ∧ st'.neg = inertia S v) ∧
    ((new = true ∨ k.array.isSome) → chk = true → st'.neg = neg)
  again : r = .ret .callAgain → out = arr ∧ Rep L FacOf inertia st' (k.afterSolve none (!new)) ∧ st.pivtolChanged = true ∧ new = false
  other : r ≠ .ret .success → r ≠ .ret .callAgain → out = arr ∧ Rep L FacOf inertia st' (k.afterSolve none false) ∧ Rep L FacOf inertia st' (afterThrow k)
  wrong : r = .ret .wrongInertia → chk = true ∧ st'.neg ≠ neg ∧ ∀ v, k.array = some v → inertia S v ≠ neg
  flags : st'.pivtolChanged = false
  overrun : Lens st → st'.overrun = st.overrun
  lens : Lens st → r ≠ .thrown → Lens st'
  ends : AsksForMore L → room L st < fuel → r ≠ .running

theorem solve_res (LO : LibOK L KeepOf FacOf inertia)
    (NA : ∀ (S : Structure) v mem lf li t, (L.analyse S.dim S.nnz S.ia S.ja).info < 0 →
      (L.factor S.dim S.nnz v mem lf li (L.analyse S.dim S.nnz S.ia S.ja).keep t).info ≠ 0)
    {st : St K P Keep Mem} {k : Known K} (h : Rep L FacOf inertia st k)
    {S : Structure} {new : Bool} (ha : k.AllowsSolve S new) (fuel nrhs : Nat) (arr : Nat → K) (chk : Bool) (neg : Nat) :
    SolveRes L FacOf inertia fuel st k S new nrhs arr chk neg (st.multiSolve L fuel new nrhs arr chk neg).1
      (st.multiSolve L fuel new nrhs arr chk neg).2.1 (st.multiSolve L fuel new nrhs arr chk neg).2.2 := by
  obtain ⟨ha1, ha2, ha3⟩ := ha
  obtain ⟨hd, hnz, hk⟩ := h.prev S (h.struct S ha1)
  unfold St.multiSolve
  by_cases hA : st.pivtolChanged = true ∧ (!new) = true
  · rw [if_pos hA]
    refine ⟨fun e => by simp at e, fun _ => ⟨rfl, ?_, hA.1, by simpa using hA.2⟩, fun _ e => by simp at e, fun e => by simp at e, rfl, fun _ => rfl,
      fun h _ => ⟨h.a, h.fact, h.ifact⟩, fun _ _ => by simp⟩
    exact rep_drop (st' := { st with pivtolChanged := false, refactorize := true }) h rfl rfl rfl rfl rfl _ (fun _ => rfl)
  · rw [if_neg hA]
    dsimp only
    have hpc : new = false → st.pivtolChanged = false := by
      intro e
      by_contra hc
      exact hA ⟨by simpa using hc, by simp [e]⟩
    by_cases hB : (new || st.refactorize) = true
    · rw [if_pos hB]
      set st1 : St K P Keep Mem := { st with pivtolChanged := false } with hst1
      obtain ⟨s0, f2, f3, f4, f4', f5, f6, f7, f8⟩ := factorize_res L fuel chk neg st1
      have hfac : ∀ b, Called L st1 b → b.info = 0 → FacOf b.mem S st.vals ∧ b.neg = inertia S st.vals := by
        intro b hb h0
        obtain ⟨mem, lf, li, hb⟩ := hb
        rw [show st1.dim = S.dim from hd, show st1.nnz = S.nnz from hnz, show st1.keep = _ from hk, show st1.vals = st.vals from rfl] at hb
        rw [hb] at h0 ⊢
        refine LO.factor S st.vals mem lf li _ _ (LO.analyse S ?_) h0
        by_contra hc
        exact NA S st.vals mem lf li st1.pivtol (by omega) h0
      have hheld : ∀ v, k.array = none → k.held = some v → False := by
        intro v e1 e2
        have hr := (h.held S v ha1 e2).2.2 e1
        rw [hr, Bool.or_false] at hB
        have := ha2 hB
        rw [e1] at this; simp at this
      generalize hf : st1.factorize L fuel chk neg = f at *
      obtain ⟨fs, f⟩ := f
      dsimp only at f2 f3 f4 f4' f5 f6 f7 f8 s0 ⊢
      have l1 : Lens st → Lens st1 := fun h => ⟨h.a, h.fact, h.ifact⟩
      by_cases hs : fs = .ret .success
      · subst hs
        simp only [if_true]
        obtain ⟨b, b1, b2, b3, b4, b5⟩ := f2 rfl
        obtain ⟨q1, q2⟩ := hfac b b1 b2
        refine ⟨fun _ => ⟨?_, rfl, s0.dim.trans hd, fun hsome => ?_, fun _ hc => by show f.neg = _; rw [b4]; exact b5 hc⟩, fun e => by simp at e,
          fun e => absurd rfl e, fun e => by simp at e, s0.pc, fun hl => ?_, fun hl _ => ?_, fun _ _ => by simp⟩
        · refine ⟨fun e => s0.warm.trans (h.warm e), by show 1 ≤ f.preAlloc; rw [s0.pre]; exact h.pre,
            fun S' e => by show f.dim = _ ∧ f.nnz = _ ∧ f.keep = _; rw [s0.dim, s0.nnz, s0.keep]; exact h.prev S' e, h.struct,
            fun v e => by simp [Known.afterSolve] at e, fun S' v e1 e2 => ?_, fun e => by simp [Known.afterSolve] at e,
            fun e => by simp [Known.afterSolve] at e⟩
          simp only [Known.afterSolve] at e1 e2
          rw [ha1] at e1
          cases e1
          cases hka : k.array with
          | none =>
            rw [hka] at e2
            exact (hheld v hka (by simpa using e2)).elim
          | some w =>
            rw [hka] at e2
            simp only [Option.some_or, Option.some.injEq] at e2
            subst e2
            rw [h.array w hka] at q1 q2
            exact ⟨by show f.neg = _; rw [b4, q2], by show FacOf f.mem _ _; rw [b3]; exact q1, fun _ => rfl⟩
        · cases hka : k.array with
          | none =>
            exfalso
            rw [hka] at hsome
            rcases hsome with e | e | e
            · simp at e
            · obtain ⟨w, hw⟩ := Option.isSome_iff_exists.1 e
              exact hheld w hka hw
            · have := h.raised e
              cases hn : new with
              | false => rw [hpc hn] at this; simp at this
              | true => have := ha2 hn; rw [hka] at this; simp at this
          | some w =>
            rw [h.array w hka] at q1 q2
            exact ⟨w, by simp, by show FacOf f.mem _ _; rw [b3]; exact q1, by show f.neg = _; rw [b4, q2]⟩
        · have l := f7 (l1 hl) (by simp)
          show (f.overrun || !long f.factLen f.lfact || !long f.ifactLen f.lifact) = _
          rw [l.fact, l.ifact, long_self, long_self, f6 (l1 hl)]
          simp [hst1]
        · have l := f7 (l1 hl) (by simp)
          exact ⟨l.a, l.fact, l.ifact⟩
      · rw [if_neg hs, if_neg hs]
        refine ⟨fun e => absurd e hs, fun e => absurd e f5, fun _ _ => ⟨rfl, rep_drop h s0.dim s0.nnz s0.keep s0.warm s0.pre _ (fun e => by simp at e),
            rep_throw h s0.dim s0.nnz s0.keep s0.pre⟩, fun e => ?_, s0.pc, fun hl => f6 (l1 hl), fun hl => f7 (l1 hl), fun ha hr => f8 ha h.pre hr⟩
        obtain ⟨b, b1, b2, b3, b4, b5⟩ := f3 e
        obtain ⟨_, q2⟩ := hfac b b1 b2
        refine ⟨b4, by show f.neg ≠ _; rw [b3]; exact b5, fun v hv => ?_⟩
        rw [h.array v hv] at q2
        rw [← q2]; exact b5
    · rw [if_neg hB]
      simp only [if_true]
      simp only [Bool.or_eq_true, not_or, Bool.not_eq_true] at hB
      obtain ⟨hn, hr⟩ := hB
      have hka : k.array = none := by
        cases hka : k.array with
        | none => rfl
        | some v =>
          rcases ha3 (by rw [hka]; rfl) with e | e
          · rw [hn] at e; simp at e
          · rw [h.asked e] at hr; simp at hr
      refine ⟨fun _ => ⟨?_, rfl, hd, fun hsome => ?_, fun hnew => ?_⟩, fun e => by simp at e, fun e => absurd rfl e, fun e => by simp at e, rfl, fun hl => ?_,
        fun hl _ => ⟨hl.a, hl.fact, hl.ifact⟩, fun _ _ => by simp⟩
      · refine ⟨h.warm, h.pre, h.prev, h.struct, fun v e => by simp [Known.afterSolve] at e, fun S' v e1 e2 => ?_,
          fun e => by simp [Known.afterSolve] at e, fun e => by simp [Known.afterSolve] at e⟩
        simp only [Known.afterSolve, hka, Option.none_or] at e1 e2
        obtain ⟨q1, q2, q3⟩ := h.held S' v e1 e2
        exact ⟨q1, q2, fun _ => q3 hka⟩
      · rw [hka] at hsome ⊢
        rcases hsome with e | e | e
        · simp at e
        · obtain ⟨w, hw⟩ := Option.isSome_iff_exists.1 e
          obtain ⟨q1, q2, _⟩ := h.held S w ha1 hw
          exact ⟨w, by simpa using hw, q2, q1⟩
        · have := h.raised e
          rw [hpc hn] at this; simp at this
      · rcases hnew with e | e
        · rw [hn] at e; simp at e
        · rw [hka] at e; simp at e
      · show (st.overrun || !long st.factLen st.lfact || !long st.ifactLen st.lifact) = _
        rw [hl.fact, hl.ifact, long_self, long_self]; simp

theorem statusOf_iff (r : Out) (s : Status) (h : s ≠ .fatal) : statusOf r = s ↔ r = .ret s := by
  unfold statusOf
  cases r with
  | running => simpa using fun e => h e.symm
  | thrown => simpa using fun e => h e.symm
  | ret t => simp

theorem contract [LinearOrder P] {B : Type} (LO : LibOK L KeepOf FacOf inertia) (N : Noticed L FacOf) (o : Opts P) (ho : 1 ≤ o.preAlloc) (maxSet : Bool)
    (scale : Option (Nat → Nat → (Nat → Nat) → (Nat → Nat) → (Nat → K) → Option (Nat → K)))
    (hsc : ∀ g, scale = some g → ∀ d n ir jc a f, g d n ir jc a = some f → ∀ i, i < d → f i ≠ 0)
    (E : Env K B) (hE : ∀ t, CSR.SortedEntries t (E.sort t)) :
    Contract (env L o maxSet scale E) (Rep L FacOf inertia) where
  init w b k h := rep_init o maxSet w ho h
  initScaling b k h := h
  struct b k d n ia ja h ha := by
    obtain ⟨_, _, _, _, _, h1, _⟩ := struct_res L d n ia ja b
    have h3 := rep_struct h ⟨d, n, ia, ja⟩ ha
    refine ⟨?_, ?_⟩
    · show statusOf _ = _ ∨ statusOf _ = _
      rcases h1 with h1 | h1 <;> rw [h1] <;> simp [statusOf]
    · have : decide (((env L o maxSet scale E).initStructure d n ia ja b).1 = .success) =
          decide ((b.initStructure L d n ia ja).1 = .ret .success) := by
        rw [decide_eq_decide]
        exact statusOf_iff _ _ (by simp)
      rw [this]
      exact h3
  store b k v h := rep_write h v
  quality b k h := rep_quality h
  scale b k d n ir jc a h := by
    refine ⟨h, fun f e i hi => ?_⟩
    cases hs : scale with
    | none => simp [env, hs] at e
    | some g =>
      simp only [env, hs] at e
      exact hsc g hs d n ir jc a f e i hi
  solveOK b k S new nrhs arr chk neg h ha hsome hs := by
    have R := solve_res LO N.analyse h ha (passes L) nrhs arr chk neg
    have hs' := (statusOf_iff _ _ (by simp)).1 hs
    obtain ⟨r1, r2, r3, r4, _⟩ := R.success hs'
    obtain ⟨v, e1, e2, _⟩ := r4 hsome
    rw [e1] at r1
    refine ⟨v, e1, ?_, r1⟩
    show SolvesAll .triplet S v nrhs (b.multiSolve L (passes L) new nrhs arr chk neg).2.1 arr
    rw [r2, r3]
    exact LO.backsolve S v _ _ _ nrhs arr e2 (N.backsolve S v _ _ _ nrhs arr e2)
  solveAgain b k S new nrhs arr chk neg h ha hs := by
    have R := solve_res LO N.analyse h ha (passes L) nrhs arr chk neg
    have hs' := (statusOf_iff _ _ (by simp)).1 hs
    obtain ⟨r1, r2, _⟩ := R.again hs'
    exact ⟨r1, r2⟩
  solveFail b k S new nrhs arr chk neg h ha hs hs2 := by
    have R := solve_res LO N.analyse h ha (passes L) nrhs arr chk neg
    have h1 : (b.multiSolve L (passes L) new nrhs arr chk neg).1 ≠ .ret .success := fun e => hs ((statusOf_iff _ _ (by simp)).2 e)
    have h2 : (b.multiSolve L (passes L) new nrhs arr chk neg).1 ≠ .ret .callAgain := fun e => hs2 ((statusOf_iff _ _ (by simp)).2 e)
    exact (R.other h1 h2).2.1
  sort := hE

end Verif.Ma57
