import Verif.Proof.Ma27
import Mathlib.Tactic.Ring

/-! # The interface keeps the contract of sparse solvers, continued -/

namespace Verif.Ma27
open Verif.AugSolve (Status Structure Known SolvesAll denote Contract)
open Finset

set_option linter.unusedSectionVars false
set_option linter.unusedSimpArgs false
set_option linter.unusedVariables false

variable {K P Keep Fac : Type} [Field K]

/-- what the caller may rely on. -/
structure Rep (KeepOf : Keep → Structure → Prop) (FacOf : Fac → Keep → Structure → (Nat → K) → Prop) (inertia : Structure → (Nat → K) → Int)
    (st : St K P Keep Fac) (k : Known K) : Prop where
  warm : k.init = true → st.warm = k.warm
  memInc : 1 ≤ st.memInc
  prev : ∀ S, k.prev = some S → st.dim = S.dim ∧ st.nnz = S.nnz ∧ KeepOf st.keep S
  struct : ∀ S, k.struct = some S → k.prev = some S
  array : ∀ v, k.array = some v → st.work = .raw v
  held : st.ignoreSingular = false → ∀ S v, k.struct = some S → k.held = some v → st.neg = inertia S v ∧
    (k.array = none → st.refactorize = false ∧ ∃ f, st.work = .fac f ∧ FacOf f st.keep S v)
  raised : k.raised = true → st.pivtolChanged = true
  asked : k.asked = true → st.refactorize = true

theorem putColumn_self (dim i : Nat) (y arr : Nat → K) (r : Nat) (hr : r < dim) : putColumn dim i y arr (i * dim + r) = y r := by
  unfold putColumn
  rw [if_pos (by omega)]
  congr 1
  omega

theorem putColumn_other (dim i : Nat) (y arr : Nat → K) (j : Nat) (hj : j < i * dim ∨ (i + 1) * dim ≤ j) : putColumn dim i y arr j = arr j := by
  unfold putColumn
  rw [if_neg]
  rw [Nat.add_mul] at hj
  omega

theorem solveLoop_spec (L : Lib K P Keep Fac) (st : St K P Keep Fac) (S : Structure) (v : Nat → K) (hd : st.dim = S.dim)
    (hb : ∀ b, SolvesAll .triplet S v 1 (L.backsolve S.dim st.work st.keep b) b) :
    ∀ n i0 arr, (∀ j, j < i0 * S.dim ∨ (i0 + n) * S.dim ≤ j → solveLoop L st n i0 arr j = arr j) ∧
      ∀ i, i0 ≤ i → i < i0 + n → ∀ r, r < S.dim →
        ∑ c ∈ range S.dim, denote .triplet S.nnz S.ia S.ja v r c * solveLoop L st n i0 arr (i * S.dim + c) = arr (i * S.dim + r) := by
  intro n
  induction n with
  | zero => intro i0 arr; exact ⟨fun _ _ => rfl, fun i h1 h2 => by omega⟩
  | succ n ih =>
    intro i0 arr
    unfold solveLoop
    rw [hd]
    generalize hy : L.backsolve S.dim st.work st.keep (fun j => arr (i0 * S.dim + j)) = y
    obtain ⟨g1, g2⟩ := ih (i0 + 1) (putColumn S.dim i0 y arr)
    have hyb := hb (fun j => arr (i0 * S.dim + j))
    rw [hy] at hyb
    refine ⟨fun j hj => ?_, fun i h1 h2 r hr => ?_⟩
    · have e1 : (i0 + 1) * S.dim = i0 * S.dim + S.dim := by ring
      have e2 : (i0 + (n + 1)) * S.dim = i0 * S.dim + S.dim + n * S.dim := by ring
      have e3 : (i0 + 1 + n) * S.dim = i0 * S.dim + S.dim + n * S.dim := by ring
      rw [g1 j (by omega)]
      exact putColumn_other _ _ _ _ _ (by
        rcases hj with h | h
        · exact Or.inl h
        · right; rw [e2] at h; rw [e1]; exact le_trans (Nat.le_add_right _ _) h)
    · by_cases hi : i = i0
      · subst hi
        have hcol : ∀ c, c < S.dim → solveLoop L st n (i + 1) (putColumn S.dim i y arr) (i * S.dim + c) = y c := by
          intro c hc
          rw [g1 _ (Or.inl (by rw [Nat.add_mul]; omega)), putColumn_self _ _ _ _ _ hc]
        have h0 := hyb 0 (by omega) r hr
        simp only [Nat.zero_mul, Nat.zero_add] at h0
        rw [← h0]
        exact Finset.sum_congr rfl fun c hc => by rw [hcol c (Finset.mem_range.1 hc)]
      · have := g2 i (by omega) (by omega) r hr
        rw [this]
        refine putColumn_other _ _ _ _ _ (Or.inr ?_)
        have : (i0 + 1) * S.dim ≤ i * S.dim := Nat.mul_le_mul_right _ (by omega)
        omega

variable {L : Lib K P Keep Fac} {KeepOf : Keep → Structure → Prop} {FacOf : Fac → Keep → Structure → (Nat → K) → Prop}
  {inertia : Structure → (Nat → K) → Int}

theorem rep_start [LinearOrder P] (o : Opts P) (keep : Keep) (ho : 1 ≤ o.memInc) : Rep KeepOf FacOf inertia (St.start o keep L) Known.fresh :=
  ⟨fun h => by simp [Known.fresh] at h, ho, fun S h => by simp [Known.fresh] at h, fun S h => by simp [Known.fresh] at h,
    fun S h => by simp [Known.fresh] at h, fun _ S v h => by simp [Known.fresh] at h, fun h => by simp [Known.fresh] at h,
    fun h => by simp [Known.fresh] at h⟩

theorem rep_init [LinearOrder P] (o : Opts P) (maxSet warm : Bool) (ho : 1 ≤ o.memInc) {st : St K P Keep Fac} {k : Known K}
    (h : Rep KeepOf FacOf inertia st k) :
    Rep KeepOf FacOf inertia (st.init o maxSet warm).2 (k.afterInit warm (st.init o maxSet warm).1) := by
  unfold St.init
  split
  · exact ⟨fun e => by simp [Known.afterInit] at e, h.memInc, fun S e => h.prev S (by simpa [Known.afterInit] using e),
      fun S e => by simp [Known.afterInit] at e, fun v e => by simp [Known.afterInit] at e, fun _ S v e => by simp [Known.afterInit] at e,
      fun e => by simp [Known.afterInit] at e, fun e => by simp [Known.afterInit] at e⟩
  · cases warm with
    | false =>
      exact ⟨fun e => rfl, ho, fun S e => by simp [Known.afterInit] at e,
        fun S e => by simp [Known.afterInit] at e, fun v e => by simp [Known.afterInit] at e, fun _ S v e => by simp [Known.afterInit] at e,
        fun e => by simp [Known.afterInit] at e, fun e => by simp [Known.afterInit] at e⟩
    | true =>
      exact ⟨fun e => rfl, ho, fun S e => h.prev S (by simpa [Known.afterInit] using e),
        fun S e => by simp [Known.afterInit] at e, fun v e => by simp [Known.afterInit] at e, fun _ S v e => by simp [Known.afterInit] at e,
        fun e => by simp [Known.afterInit] at e, fun e => by simp [Known.afterInit] at e⟩

theorem reserve_res (L : Lib K P Keep Fac) (a : AOut Keep) (st : St K P Keep Fac) :
    Same st (st.reserve L a).2 ∧ ((st.reserve L a).1 = none ∨ (st.reserve L a).1 = some .success) := by
  unfold St.reserve
  split
  · exact ⟨⟨rfl, rfl, rfl, rfl, rfl, rfl, rfl, rfl, rfl, rfl, rfl⟩, Or.inl rfl⟩
  · rename_i liw _
    dsimp only
    obtain ⟨a1, _, _, _⟩ := newIW_same L { st with liw := liw }
    generalize hr : ({ st with liw := liw } : St K P Keep Fac).newIW L = r at *
    obtain ⟨rb, r⟩ := r
    dsimp only at *
    have a1' : Same st r := ⟨a1.dim, a1.nnz, a1.keep, a1.warm, a1.memInc, a1.ignore, a1.skip, a1.pivtol, a1.pivtolmax, a1.ref, a1.pc⟩
    split
    · exact ⟨a1', Or.inl rfl⟩
    · split
      · exact ⟨⟨a1.dim, a1.nnz, a1.keep, a1.warm, a1.memInc, a1.ignore, a1.skip, a1.pivtol, a1.pivtolmax, a1.ref, a1.pc⟩, Or.inl rfl⟩
      · rename_i la _
        obtain ⟨b1, _, _⟩ := newA_same L la { r with la := la }
        generalize hq : ({ r with la := la } : St K P Keep Fac).newA L la = q at *
        obtain ⟨qb, q⟩ := q
        dsimp only at *
        have b1' : Same r q := ⟨b1.dim, b1.nnz, b1.keep, b1.warm, b1.memInc, b1.ignore, b1.skip, b1.pivtol, b1.pivtolmax, b1.ref, b1.pc⟩
        split
        · exact ⟨a1'.trans b1', Or.inr rfl⟩
        · exact ⟨a1'.trans b1', Or.inl rfl⟩

theorem symbolic_res (LO : LibOK L KeepOf FacOf inertia) (S : Structure) (st : St K P Keep Fac) (h1 : st.dim = S.dim) (h2 : st.nnz = S.nnz) :
    (st.symbolic L S.ia S.ja).2.dim = st.dim ∧ (st.symbolic L S.ia S.ja).2.nnz = st.nnz ∧ (st.symbolic L S.ia S.ja).2.warm = st.warm ∧
    (st.symbolic L S.ia S.ja).2.memInc = st.memInc ∧ (st.symbolic L S.ia S.ja).2.ignoreSingular = st.ignoreSingular ∧
    ((st.symbolic L S.ia S.ja).1 = none ∨ (st.symbolic L S.ia S.ja).1 = some .fatal ∨ (st.symbolic L S.ia S.ja).1 = some .success) ∧
    ((st.symbolic L S.ia S.ja).1 = some .success → KeepOf (st.symbolic L S.ia S.ja).2.keep S) := by
  unfold St.symbolic
  dsimp only
  obtain ⟨a1, _, _, a4⟩ := newIW_same L { st with liw := 2 * (2 * st.nnz + 3 * st.dim + 1) }
  generalize hr : ({ st with liw := 2 * (2 * st.nnz + 3 * st.dim + 1) } : St K P Keep Fac).newIW L = r at *
  obtain ⟨rb, r⟩ := r
  dsimp only at *
  split
  · exact ⟨a1.dim, a1.nnz, a1.warm, a1.memInc, a1.ignore, Or.inl rfl, fun e => by simp at e⟩
  · have hA := LO.analyse S r.liw
    rw [h1, h2]
    generalize ha : L.analyse S.dim S.nnz S.ia S.ja r.liw = a at *
    split
    · refine ⟨by rw [← h1]; exact a1.dim, by rw [← h2]; exact a1.nnz, a1.warm, a1.memInc, a1.ignore, Or.inr (Or.inl rfl), fun e => by simp at e⟩
    · rename_i hf
      obtain ⟨b1, b2⟩ := reserve_res L a { r with keep := a.keep }
      refine ⟨by rw [← h1]; exact b1.dim.trans a1.dim, by rw [← h2]; exact b1.nnz.trans a1.nnz, b1.warm.trans a1.warm, b1.memInc.trans a1.memInc,
        b1.ignore.trans a1.ignore, ?_, fun _ => ?_⟩
      · rcases b2 with b2 | b2
        · exact Or.inl b2
        · exact Or.inr (Or.inr b2)
      · rw [b1.keep]; exact hA (by simpa using hf)

theorem rep_struct (LO : LibOK L KeepOf FacOf inertia) {st : St K P Keep Fac} {k : Known K} (h : Rep KeepOf FacOf inertia st k) (S : Structure)
    (ha : k.AllowsStruct S) :
    ((st.initStructure L S.dim S.nnz S.ia S.ja).1 = none ∨ (st.initStructure L S.dim S.nnz S.ia S.ja).1 = some .fatal ∨
      (st.initStructure L S.dim S.nnz S.ia S.ja).1 = some .success) ∧
    (st.initStructure L S.dim S.nnz S.ia S.ja).2.ignoreSingular = st.ignoreSingular ∧
    Rep KeepOf FacOf inertia (st.initStructure L S.dim S.nnz S.ia S.ja).2
      (k.afterStruct S ((st.initStructure L S.dim S.nnz S.ia S.ja).1 = some .success)) := by
  unfold St.initStructure
  have hw := h.warm ha.1
  by_cases hwt : st.warm = true
  · rw [if_neg (by simp [hwt])]
    have hkw : k.warm = true := by rw [← hw]; exact hwt
    have hp := ha.2 hkw
    obtain ⟨p1, p2, p3⟩ := h.prev S hp
    rw [if_pos ⟨p1, p2⟩]
    refine ⟨Or.inr (Or.inr rfl), rfl, ?_⟩
    simp only [Known.afterStruct, decide_true, if_true]
    exact ⟨fun e => hw, h.memInc, fun S' e => by cases e; exact ⟨p1, p2, p3⟩, fun S' e => e, fun v e => by simp at e, fun _ S v _ e => by simp at e,
      fun e => by simp at e, fun e => by simp at e⟩
  · rw [if_pos (by simpa using hwt)]
    have hkw : k.warm = false := by rw [← hw]; simpa using hwt
    obtain ⟨a1, a2, a3, a4, a5, a6, a7⟩ := symbolic_res LO S { st with dim := S.dim, nnz := S.nnz } rfl rfl
    dsimp only
    generalize hr : ({ st with dim := S.dim, nnz := S.nnz } : St K P Keep Fac).symbolic L S.ia S.ja = r at *
    obtain ⟨rs, r⟩ := r
    dsimp only at *
    split
    · rename_i hs
      refine ⟨Or.inr (Or.inr hs), a5, ?_⟩
      simp only [hs, Known.afterStruct, decide_true, if_true]
      exact ⟨fun e => a3.trans hw, by rw [a4]; exact h.memInc, fun S' e => by cases e; exact ⟨a1, a2, a7 hs⟩, fun S' e => e, fun v e => by simp at e,
        fun _ S v _ e => by simp at e, fun e => by simp at e, fun e => by simp at e⟩
    · rename_i hs
      refine ⟨a6, a5, ?_⟩
      simp only [hs, Known.afterStruct, decide_false, Bool.false_eq_true, if_false, hkw]
      exact ⟨fun e => by rw [← hkw]; exact a3.trans hw, by rw [a4]; exact h.memInc, fun S' e => by simp at e, fun S' e => by simp at e,
        fun v e => by simp at e, fun _ S v e => by simp at e, fun e => by simp at e, fun e => by simp at e⟩

theorem rep_write {st : St K P Keep Fac} {k : Known K} (h : Rep KeepOf FacOf inertia st k) (v : Nat → K) :
    (st.write L v).2.ignoreSingular = st.ignoreSingular ∧ (st.write L v).2.la = st.la ∧ (st.write L v).2.liw = st.liw ∧
    (st.write L v).2.pivtolChanged = st.pivtolChanged ∧ (st.write L v).2.memInc = st.memInc ∧
    Rep KeepOf FacOf inertia (st.write L v).2 { k with array := some v } := by
  have key : Same st (st.getValues L).2 ∧ (st.getValues L).2.neg = st.neg ∧ (st.getValues L).2.la = st.la ∧ (st.getValues L).2.liw = st.liw := by
    unfold St.getValues
    split
    · unfold St.newA; split <;> exact ⟨⟨rfl, rfl, rfl, rfl, rfl, rfl, rfl, rfl, rfl, rfl, rfl⟩, rfl, rfl, rfl⟩
    · exact ⟨.refl _, rfl, rfl, rfl⟩
  obtain ⟨s, n, l1, l2⟩ := key
  unfold St.write
  dsimp only
  refine ⟨s.ignore, l1, l2, s.pc, s.memInc, ⟨fun e => s.warm.trans (h.warm e), by dsimp only; rw [s.memInc]; exact h.memInc,
    fun S e => by dsimp only; rw [s.dim, s.nnz, s.keep]; exact h.prev S e, h.struct, fun w e => by simp at e; rw [e], fun hi S w e1 e2 => ?_,
    fun e => s.pc.trans (h.raised e), fun e => s.ref.trans (h.asked e)⟩⟩
  dsimp only at hi e1 e2 ⊢
  rw [s.ignore] at hi
  exact ⟨by rw [n]; exact (h.held hi S w e1 e2).1, fun e => by simp at e⟩

theorem rep_quality [LinearOrder P] {st : St K P Keep Fac} {k : Known K} (h : Rep KeepOf FacOf inertia st k) :
    (st.quality L).2.ignoreSingular = st.ignoreSingular ∧
    Rep KeepOf FacOf inertia (st.quality L).2 { k with raised := k.raised || (st.quality L).1 } := by
  unfold St.quality
  split
  · refine ⟨rfl, ⟨h.warm, h.memInc, h.prev, h.struct, h.array, h.held, fun e => ?_, h.asked⟩⟩
    simp only [Bool.or_false] at e
    exact h.raised e
  · exact ⟨rfl, ⟨h.warm, h.memInc, h.prev, h.struct, h.array, h.held, fun _ => rfl, h.asked⟩⟩

/-- forgetting everything written and factorized. -/
theorem rep_drop {st st' : St K P Keep Fac} {k : Known K} (h : Rep KeepOf FacOf inertia st k) (s : Same st st') (asked : Bool)
    (ha : asked = true → st'.refactorize = true) : Rep KeepOf FacOf inertia st' (k.afterSolve none asked) :=
  ⟨fun e => s.warm.trans (h.warm e), by rw [s.memInc]; exact h.memInc, fun S e => by rw [s.dim, s.nnz, s.keep]; exact h.prev S e, h.struct,
    fun v e => by simp [Known.afterSolve] at e, fun _ S v _ e => by simp [Known.afterSolve] at e, fun e => by simp [Known.afterSolve] at e, ha⟩

end Verif.Ma27
