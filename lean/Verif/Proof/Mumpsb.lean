import Verif.Proof.Mumps

/-! # The MUMPS interface keeps the contract of sparse solvers -/

namespace Verif.Mumps
open Verif.AugSolve (Status Structure Known SolvesAll denote Contract)
open Verif.Ma27 (memIncrease putColumn putColumn_self putColumn_other)
open Finset

set_option linter.unusedSectionVars false
set_option linter.unusedSimpArgs false
set_option linter.unusedVariables false

variable {K P M : Type} [Field K]
variable {L : Lib K P M} {SymOf : M → Structure → Prop} {FacOf : M → Structure → (Nat → K) → Prop} {inertia : Structure → (Nat → K) → Int}

/-- what the caller may rely on. -/
structure Rep (SymOf : M → Structure → Prop) (FacOf : M → Structure → (Nat → K) → Prop) (inertia : Structure → (Nat → K) → Int)
    (st : St K P M) (k : Known K) : Prop where
  warm : k.init = true → st.warm = k.warm
  nul : st.ctl.nul = false
  prev : ∀ S, k.prev = some S → st.n = S.dim ∧ st.nz = S.nnz ∧ st.irn = S.ia ∧ st.jcn = S.ja ∧ (st.haveSym = true → SymOf st.m S)
  struct : ∀ S, k.struct = some S → k.prev = some S
  array : ∀ v, k.array = some v → st.a = v
  held : ∀ S v, k.struct = some S → k.held = some v → st.neg = inertia S v ∧ st.refactorize = false ∧ FacOf st.m S v
  raised : k.raised = true → st.pivtolChanged = true
  asked : k.asked = true → st.refactorize = true

theorem rep_start (o : Opts P) (c : Ctl P) (m : M) : Rep SymOf FacOf inertia (St.start o c m L) Known.fresh :=
  ⟨fun h => by simp [Known.fresh] at h, rfl, fun S h => by simp [Known.fresh] at h, fun S h => by simp [Known.fresh] at h,
    fun S h => by simp [Known.fresh] at h, fun S v h => by simp [Known.fresh] at h, fun h => by simp [Known.fresh] at h,
    fun h => by simp [Known.fresh] at h⟩

theorem rep_init [LinearOrder P] (o : Opts P) (maxSet warm : Bool) {st : St K P M} {k : Known K} (h : Rep SymOf FacOf inertia st k) :
    Rep SymOf FacOf inertia (st.init o maxSet warm).2 (k.afterInit warm (st.init o maxSet warm).1) := by
  unfold St.init
  split
  · exact ⟨fun e => by simp [Known.afterInit] at e, h.nul, fun S e => h.prev S (by simpa [Known.afterInit] using e),
      fun S e => by simp [Known.afterInit] at e, fun v e => by simp [Known.afterInit] at e, fun S v e => by simp [Known.afterInit] at e,
      fun e => by simp [Known.afterInit] at e, fun e => by simp [Known.afterInit] at e⟩
  · cases warm with
    | false =>
      exact ⟨fun e => rfl, h.nul, fun S e => by simp [Known.afterInit] at e,
        fun S e => by simp [Known.afterInit] at e, fun v e => by simp [Known.afterInit] at e, fun S v e => by simp [Known.afterInit] at e,
        fun e => by simp [Known.afterInit] at e, fun e => by simp [Known.afterInit] at e⟩
    | true =>
      refine ⟨fun e => rfl, h.nul, fun S e => ?_, fun S e => by simp [Known.afterInit] at e, fun v e => by simp [Known.afterInit] at e,
        fun S v e => by simp [Known.afterInit] at e, fun e => by simp [Known.afterInit] at e, fun e => by simp [Known.afterInit] at e⟩
      obtain ⟨p1, p2, p3, p4, _⟩ := h.prev S (by simpa [Known.afterInit] using e)
      exact ⟨p1, p2, p3, p4, fun e => by simp at e⟩

theorem rep_struct {st : St K P M} {k : Known K} (h : Rep SymOf FacOf inertia st k) (S : Structure) (ha : k.AllowsStruct S) :
    (st.initStructure L S.dim S.nnz S.ia S.ja).1 = some .success ∧
    Rep SymOf FacOf inertia (st.initStructure L S.dim S.nnz S.ia S.ja).2 (k.afterStruct S true) := by
  unfold St.initStructure
  have hw := h.warm ha.1
  by_cases hwt : st.warm = true
  · rw [if_neg (by simp [hwt])]
    have hkw : k.warm = true := by rw [← hw]; exact hwt
    have hp := ha.2 hkw
    obtain ⟨p1, p2, p3, p4, p5⟩ := h.prev S hp
    rw [if_pos ⟨p1, p2⟩]
    exact ⟨rfl, fun e => hw, h.nul, fun S' e => by simp only [Known.afterStruct, if_true, Option.some.injEq] at e; subst e; exact ⟨p1, p2, p3, p4, p5⟩,
      fun S' e => e, fun v e => by simp [Known.afterStruct] at e, fun S v _ e => by simp [Known.afterStruct] at e,
      fun e => by simp [Known.afterStruct] at e, fun e => by simp [Known.afterStruct] at e⟩
  · rw [if_pos (by simpa using hwt)]
    exact ⟨rfl, fun e => hw, h.nul, fun S' e => by
        simp only [Known.afterStruct, if_true, Option.some.injEq] at e; subst e; exact ⟨rfl, rfl, rfl, rfl, fun e => by simp at e⟩,
      fun S' e => e, fun v e => by simp [Known.afterStruct] at e, fun S v _ e => by simp [Known.afterStruct] at e,
      fun e => by simp [Known.afterStruct] at e, fun e => by simp [Known.afterStruct] at e⟩

theorem rep_write {st : St K P M} {k : Known K} (h : Rep SymOf FacOf inertia st k) (v : Nat → K) :
    Rep SymOf FacOf inertia (st.write v) { k with array := some v } :=
  ⟨h.warm, h.nul, h.prev, h.struct, fun w e => by simpa [St.write] using e, h.held, h.raised, h.asked⟩

theorem rep_quality [LinearOrder P] {st : St K P M} {k : Known K} (h : Rep SymOf FacOf inertia st k) :
    Rep SymOf FacOf inertia (st.quality L).2 { k with raised := k.raised || (st.quality L).1 } := by
  unfold St.quality
  split
  · exact ⟨h.warm, h.nul, h.prev, h.struct, h.array, h.held, fun e => h.raised (by simpa using e), h.asked⟩
  · exact ⟨h.warm, h.nul, h.prev, h.struct, h.array, h.held, fun _ => rfl, h.asked⟩

/-! ## The analysis -/

theorem symbolic_res (st : St K P M) : ∃ (m : M) (i : Int), (st.symbolic L).2 = { st with
      ctl := { st.ctl with perm := st.perm, order := st.order, scal := st.scal, mem := st.memPercent, tol := st.pivtol }, m := m
      log := ⟨1, { st.ctl with perm := st.perm, order := st.order, scal := st.scal, mem := st.memPercent, tol := st.pivtol }, i⟩ :: st.log } ∧
    ((st.symbolic L).1 = if i = -6 then .singular else if i < 0 then .fatal else .success) ∧
    ((i, m) = L.analyse { st.ctl with perm := st.perm, order := st.order, scal := st.scal, mem := st.memPercent, tol := st.pivtol }
      st.n st.nz st.irn st.jcn st.a st.m) :=
  ⟨_, _, rfl, rfl, rfl⟩

/-- everything about the preparation of a solve. -/
structure PrepRes (L : Lib K P M) (SymOf : M → Structure → Prop) (FacOf : M → Structure → (Nat → K) → Prop) (inertia : Structure → (Nat → K) → Int)
    (st : St K P M) (S : Structure) (chk : Bool) (neg : Nat) (r : Option Status) (st' : St K P M) : Prop where
  state : ∃ c g b rf m l, st' = { st with ctl := c, neg := g, haveSym := b, refactorize := rf, m := m, log := l ++ st.log } ∧ c.nul = false ∧
    (rf = st.refactorize ∨ (r = some .success ∧ rf = false))
  sym : st'.haveSym = true → SymOf st'.m S
  success : r = some .success → st'.haveSym = true ∧ st'.refactorize = false ∧ FacOf st'.m S st.a ∧ st'.neg = inertia S st.a ∧ (chk = true → st'.neg = neg)
  noAgain : r ≠ some .callAgain
  wrong : r = some .wrongInertia → chk = true ∧ inertia S st.a ≠ neg

theorem prepare_res (LO : LibOK L SymOf FacOf inertia) {st : St K P M} {S : Structure} (h1 : st.n = S.dim) (h2 : st.nz = S.nnz) (h3 : st.irn = S.ia)
    (h4 : st.jcn = S.ja) (h5 : st.haveSym = true → SymOf st.m S) (hn : st.ctl.nul = false) (chk : Bool) (neg : Nat) :
    PrepRes L SymOf FacOf inertia st S chk neg (st.prepare L chk neg).1 (st.prepare L chk neg).2 := by
  unfold St.prepare
  -- the state after the analysis
  have hA : ∀ r : Status × St K P M, r = (if (!st.haveSym) = true then
      if (st.symbolic L).1 = .success then (.success, { (st.symbolic L).2 with haveSym := true }) else st.symbolic L
      else (.success, st)) → (∃ c m l, r.2 = { st with ctl := c, haveSym := r.2.haveSym, m := m, log := l ++ st.log } ∧ c.nul = false) ∧
      (r.2.haveSym = true → SymOf r.2.m S) ∧ (r.1 = .success → r.2.haveSym = true) ∧ r.1 ≠ .callAgain ∧ r.1 ≠ .wrongInertia := by
    intro r hr
    subst hr
    by_cases hs : st.haveSym = true
    · rw [if_neg (by simp [hs])]
      exact ⟨⟨st.ctl, st.m, [], rfl, hn⟩, h5, fun _ => hs, by simp, by simp⟩
    · rw [if_pos (by simpa using hs)]
      obtain ⟨m, i, e1, e2, e3⟩ := symbolic_res (L := L) st
      rw [h1, h2, h3, h4] at e3
      have hL := LO.analyse { st.ctl with perm := st.perm, order := st.order, scal := st.scal, mem := st.memPercent, tol := st.pivtol } S st.a st.m
      rw [← e3] at hL
      by_cases h0 : (st.symbolic L).1 = .success
      · rw [if_pos h0]
        have hi : 0 ≤ i := by
          rw [h0] at e2
          by_contra hc
          by_cases h6 : i = -6
          · rw [if_pos h6] at e2; simp at e2
          · rw [if_neg h6, if_pos (by omega)] at e2; simp at e2
        rw [e1]
        exact ⟨⟨_, _, [⟨1, { st.ctl with perm := st.perm, order := st.order, scal := st.scal, mem := st.memPercent, tol := st.pivtol }, i⟩], rfl, hn⟩,
          fun _ => hL hi, fun _ => rfl, by simp, by simp⟩
      · rw [if_neg h0]
        refine ⟨?_, ?_, fun e => absurd e h0, ?_, ?_⟩
        · rw [e1]; exact ⟨_, _, [⟨1, { st.ctl with perm := st.perm, order := st.order, scal := st.scal, mem := st.memPercent, tol := st.pivtol }, i⟩], rfl, hn⟩
        · rw [e1]; exact fun e => absurd e hs
        · rw [e2]; split
          · simp
          · split <;> simp
        · rw [e2]; split
          · simp
          · split <;> simp
  dsimp only
  generalize hr : (if (!st.haveSym) = true then
      if (st.symbolic L).1 = .success then (Status.success, { (st.symbolic L).2 with haveSym := true }) else st.symbolic L
      else (Status.success, st)) = r
  obtain ⟨⟨c, m, l, a1, a2⟩, a3, a4, a5, a6⟩ := hA r hr.symm
  clear hA hr
  obtain ⟨rs, rst⟩ := r
  dsimp only at a1 a3 a4 a5 a6 ⊢
  by_cases hs : rs = .success
  · rw [if_neg (by simp [hs])]
    obtain ⟨f1, g, f2, f3⟩ := factorize_eq L chk neg rst
    obtain ⟨calls, N⟩ := numeric_res L rst
    obtain ⟨mem, m', n1⟩ := N.state
    have hrn : rst.n = S.dim := by rw [a1]; exact h1
    have hrz : rst.nz = S.nnz := by rw [a1]; exact h2
    have hri : rst.irn = S.ia := by rw [a1]; exact h3
    have hrj : rst.jcn = S.ja := by rw [a1]; exact h4
    have hra : rst.a = st.a := by rw [a1]
    have hrc : rst.ctl.nul = false := by rw [a1]; exact a2
    have hsy := a3 (a4 hs)
    have hsym' : SymOf (rst.numeric L).2.m S := N.sym (fun m => SymOf m S) hsy fun c m hm => by
      rw [hrn, hrz, hri, hrj]; exact LO.keep c S _ m hm
    have hfac : ∀ o, (rst.numeric L).1 = some o → 0 ≤ o.info → FacOf (rst.numeric L).2.m S st.a ∧ o.neg = inertia S st.a := by
      intro o ho h0
      obtain ⟨m0, q1, q2, q3⟩ := N.answer o ho
      have hm0 : SymOf m0 S := q1 (fun m => SymOf m S) hsy fun c m hm => by
        rw [hrn, hrz, hri, hrj]; exact LO.keep c S _ m hm
      rw [hrn, hrz, hri, hrj, hra] at q2
      have hc : (rst.numeric L).2.ctl.nul = false := by rw [n1]; exact hrc
      have := LO.factor (rst.numeric L).2.ctl S st.a m0 hm0 hc (by rw [← q2]; exact h0)
      rw [← q2, ← q3] at this
      exact this
    have hstate : (rst.factorize L chk neg).2 = { st with ctl := { c with mem := mem }, neg := g, haveSym := rst.haveSym, m := m', log := (calls.reverse ++ l) ++ st.log } := by
      rw [f2, n1]
      conv_lhs => rw [a1]
      simp
    have hm' : m' = (rst.numeric L).2.m := by rw [n1]
    generalize rst.factorize L chk neg = f at *
    obtain ⟨fs, fst⟩ := f
    dsimp only at f1 f2 hstate ⊢
    by_cases hf : fs = some .success
    · rw [if_pos hf]
      have hv := f1
      rw [hf] at hv
      obtain ⟨o, ho⟩ : ∃ o, (rst.numeric L).1 = some o := by
        cases hq : (rst.numeric L).1 with
        | none => rw [hq] at hv; simp [verdict] at hv
        | some o => exact ⟨o, rfl⟩
      rw [ho] at hv
      simp only [verdict, Option.map_some, Option.some.injEq] at hv
      have h0 : 0 ≤ o.info := by
        by_contra hc
        by_cases h10 : o.info = -10
        · rw [if_pos h10] at hv; simp at hv
        · rw [if_neg h10, if_pos (by omega)] at hv; simp at hv
      rw [if_neg (by omega), if_neg (by omega)] at hv
      obtain ⟨q1, q2⟩ := hfac o ho h0
      have hg := f3 o ho h0
      refine ⟨⟨{ c with mem := mem }, g, rst.haveSym, false, m', calls.reverse ++ l, by rw [hstate], a2, Or.inr ⟨hf, rfl⟩⟩, fun _ => ?_, fun _ => ⟨?_, rfl, ?_, ?_, fun hc => ?_⟩, by rw [hf]; simp, fun e => by rw [hf] at e; simp at e⟩
      · rw [hstate]; show SymOf m' S; rw [hm']; exact hsym'
      · rw [hstate]; exact a4 hs
      · rw [hstate]; show FacOf m' S st.a; rw [hm']; exact q1
      · rw [hstate]; show g = _; rw [hg, q2]
      · rw [hstate]
        show g = _
        rw [hg]
        by_contra hne
        rw [if_pos ⟨hc, fun e => hne e.symm⟩] at hv
        simp at hv
    · rw [if_neg hf]
      refine ⟨⟨{ c with mem := mem }, g, rst.haveSym, st.refactorize, m', calls.reverse ++ l, hstate, a2, Or.inl rfl⟩, fun _ => ?_, fun e => absurd e hf, ?_, fun e => ?_⟩
      · rw [hstate]; show SymOf m' S; rw [hm']; exact hsym'
      · rw [f1]
        unfold verdict
        cases (rst.numeric L).1 with
        | none => simp
        | some o =>
          simp only [Option.map_some, ne_eq, Option.some.injEq]
          split
          · simp
          · split
            · simp
            · split <;> simp
      · rw [f1] at e
        obtain ⟨o, ho⟩ : ∃ o, (rst.numeric L).1 = some o := by
          cases hq : (rst.numeric L).1 with
          | none => rw [hq] at e; simp [verdict] at e
          | some o => exact ⟨o, rfl⟩
        rw [ho] at e
        simp only [verdict, Option.map_some, Option.some.injEq] at e
        by_cases h10 : o.info = -10
        · rw [if_pos h10] at e; simp at e
        · rw [if_neg h10] at e
          by_cases h0 : o.info < 0
          · rw [if_pos h0] at e; simp at e
          · rw [if_neg h0] at e
            by_cases hc : (chk = true ∧ (neg : Int) ≠ o.neg)
            · refine ⟨hc.1, fun hh => hc.2 ?_⟩
              rw [(hfac o ho (by omega)).2, hh]
            · rw [if_neg hc] at e; simp at e
  · rw [if_pos (by simpa using hs)]
    exact ⟨⟨c, st.neg, rst.haveSym, st.refactorize, m, l, by rw [a1], a2, Or.inl rfl⟩, a3, fun e => absurd (by simpa using e) hs,
      by simpa using a5, fun e => absurd (by simpa using e) a6⟩

end Verif.Mumps
