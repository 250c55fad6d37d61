import Verif.Model.BoundsRemover
import Mathlib.Tactic.Ring
import Mathlib.Tactic.LinearCombination
import Mathlib.Tactic.NormNum
import Mathlib.Algebra.BigOperators.Fin
import Mathlib.Algebra.BigOperators.Ring.Finset
import Mathlib.Analysis.Calculus.Deriv.Pi
import Mathlib.Analysis.Calculus.Deriv.Add
import Mathlib.Analysis.Calculus.Deriv.Mul

/-! # C70: replacing variable bounds by inequality constraints -/

namespace Verif.BoundsRemover
open scoped BigOperators
set_option linter.unusedSectionVars false
set_option linter.unusedSimpArgs false
set_option linter.unusedVariables false
set_option linter.unusedDecidableInType false
set_option linter.unusedFintypeInType false

variable {K : Type} [Field K] [LinearOrder K] [IsStrictOrderedRing K] {X C D L U A B : Type}
variable [Fintype X] [Fintype C] [Fintype D] [Fintype L] [Fintype U] [Fintype A] [Fintype B] [DecidableEq L] [DecidableEq U]

/-! ### Specification -/

/-- `x` satisfies all constraints of the problem with bounds `b`. -/
def Feasible (n : NLP K X C D L U A B) (b : Bounds K L U A B) (x : X → K) : Prop :=
  ∃ c d, n.c x = some c ∧ n.d x = some d ∧ (∀ i, c i = 0) ∧
    (∀ i, b.xL i ≤ ∑ j, n.pxL j i * x j) ∧ (∀ i, ∑ j, n.pxU j i * x j ≤ b.xU i) ∧
    (∀ i, b.dL i ≤ ∑ j, n.pdL j i * d j) ∧ ∀ i, ∑ j, n.pdU j i * d j ≤ b.dU i

/-- point and multipliers satisfy the first order optimality conditions; `v_L`, `v_U` are the multipliers of the two sides of the inequalities, `y_d` their combination. -/
def Kkt (n : NLP K X C D L U A B) (b : Bounds K L U A B) (s : Sol K X C D L U) : Prop :=
  ∃ g Jc Jd, ∃ (vL : A → K) (vU : B → K), n.f s.x = some s.f ∧ n.gradF s.x = some g ∧ n.c s.x = some s.c ∧ n.d s.x = some s.d ∧ n.jacC s.x = some Jc ∧ n.jacD s.x = some Jd ∧
    (∀ j, g j + ∑ i, Jc i j * s.yc i + ∑ i, Jd i j * s.yd i - ∑ i, n.pxL j i * s.zL i + ∑ i, n.pxU j i * s.zU i = 0) ∧
    (∀ i, s.yd i = ∑ k, n.pdU i k * vU k - ∑ k, n.pdL i k * vL k) ∧
    (∀ i, 0 ≤ s.zL i) ∧ (∀ i, 0 ≤ s.zU i) ∧ (∀ i, 0 ≤ vL i) ∧ (∀ i, 0 ≤ vU i) ∧ Feasible n b s.x ∧
    (∀ i, s.zL i * (∑ j, n.pxL j i * s.x j - b.xL i) = 0) ∧ (∀ i, s.zU i * (b.xU i - ∑ j, n.pxU j i * s.x j) = 0) ∧
    (∀ i, vL i * (∑ j, n.pdL j i * s.d j - b.dL i) = 0) ∧ ∀ i, vU i * (b.dU i - ∑ j, n.pdU j i * s.d j) = 0

/-- the matrix is the expansion matrix of the injective index map. -/
def Expands {P Q : Type} [DecidableEq P] (M : _root_.Matrix P Q K) (pos : Q → P) : Prop := Function.Injective pos ∧ ∀ i j, M i j = if i = pos j then 1 else 0

/-! ### Proofs -/

omit [LinearOrder K] [IsStrictOrderedRing K] [Fintype X] [Fintype C] [DecidableEq U] [Fintype B] in
theorem newPdL_mul (p : _root_.Matrix D A K) (v : A ⊕ L → K) :
    (∀ i : D, ∑ k, newPdL (U := U) p (.inl i) k * v k = ∑ k, p i k * v (.inl k)) ∧ (∀ i : L, ∑ k, newPdL (U := U) p (.inr (.inl i)) k * v k = v (.inr i)) ∧
    ∀ i : U, ∑ k, newPdL (U := U) p (.inr (.inr i)) k * v k = 0 := by
  refine ⟨fun i => ?_, fun i => ?_, fun i => ?_⟩ <;> simp [Fintype.sum_sum_type, newPdL]

theorem newPdU_mul (p : _root_.Matrix D B K) (v : B ⊕ U → K) :
    (∀ i : D, ∑ k, newPdU (L := L) p (.inl i) k * v k = ∑ k, p i k * v (.inl k)) ∧ (∀ i : L, ∑ k, newPdU (L := L) p (.inr (.inl i)) k * v k = 0) ∧
    ∀ i : U, ∑ k, newPdU (L := L) p (.inr (.inr i)) k * v k = v (.inr i) := by
  refine ⟨fun i => ?_, fun i => ?_, fun i => ?_⟩ <;> simp [Fintype.sum_sum_type, newPdU]

theorem newPdL_trans (p : _root_.Matrix D A K) (d : D ⊕ L ⊕ U → K) :
    (∀ i : A, ∑ j, newPdL (L := L) (U := U) p j (.inl i) * d j = ∑ j, p j i * d (.inl j)) ∧ ∀ i : L, ∑ j, newPdL (U := U) p j (.inr i) * d j = d (.inr (.inl i)) := by
  refine ⟨fun i => ?_, fun i => ?_⟩ <;> simp [Fintype.sum_sum_type, newPdL]

theorem newPdU_trans (p : _root_.Matrix D B K) (d : D ⊕ L ⊕ U → K) :
    (∀ i : B, ∑ j, newPdU (L := L) (U := U) p j (.inl i) * d j = ∑ j, p j i * d (.inl j)) ∧ ∀ i : U, ∑ j, newPdU (L := L) p j (.inr i) * d j = d (.inr (.inr i)) := by
  refine ⟨fun i => ?_, fun i => ?_⟩ <;> simp [Fintype.sum_sum_type, newPdU]

theorem newBounds_some {t : Bool} {n : NLP K X C D L U A B} {b' : Bounds K Empty Empty (A ⊕ L) (B ⊕ U)} (h : (remove t n).bounds = .ret (some b')) :
    ∃ b, n.bounds = .ret (some b) ∧ b'.dL = two b.dL b.xL ∧ b'.dU = two b.dU b.xU := by
  change newBounds t n = _ at h
  unfold newBounds at h
  split at h
  · cases hb : n.bounds with
    | invalid => rw [hb] at h; cases h
    | ret o =>
      rw [hb] at h
      cases o with
      | none => simp at h
      | some b =>
        simp only [Option.map_some, BRes.ret.injEq, Option.some.injEq] at h
        subst h
        exact ⟨b, rfl, rfl, rfl⟩
  · cases h

theorem newD_some {n : NLP K X C D L U A B} {x : X → K} {d' : D ⊕ L ⊕ U → K} : (newD n x = some d') ↔ ∃ d, n.d x = some d ∧
    d' = three d (fun i => ∑ j, n.pxL j i * x j) (fun i => ∑ j, n.pxU j i * x j) := by
  unfold newD
  rw [Option.map_eq_some_iff]
  constructor
  · rintro ⟨d, h1, rfl⟩; exact ⟨d, h1, rfl⟩
  · rintro ⟨d, h1, rfl⟩; exact ⟨d, h1, rfl⟩

theorem feasible_aux {t : Bool} {n : NLP K X C D L U A B} {b : Bounds K L U A B} {b' : Bounds K Empty Empty (A ⊕ L) (B ⊕ U)} (h1 : b'.dL = two b.dL b.xL)
    (h2 : b'.dU = two b.dU b.xU) (x : X → K) : Feasible (remove t n) b' x ↔ Feasible n b x := by
  constructor
  · rintro ⟨c, d', hc, hd, h0, _, _, hL, hU⟩
    obtain ⟨d, hd', rfl⟩ := newD_some.1 hd
    refine ⟨c, d, hc, hd', h0, fun i => ?_, fun i => ?_, fun i => ?_, fun i => ?_⟩
    · have := hL (.inr i)
      rw [h1] at this
      exact this.trans_eq ((newPdL_trans n.pdL _).2 i)
    · have := hU (.inr i)
      rw [h2] at this
      exact ((newPdU_trans n.pdU _).2 i).symm.trans_le this
    · have := hL (.inl i)
      rw [h1] at this
      exact this.trans_eq ((newPdL_trans n.pdL _).1 i)
    · have := hU (.inl i)
      rw [h2] at this
      exact ((newPdU_trans n.pdU _).1 i).symm.trans_le this
  · rintro ⟨c, d, hc, hd, h0, hl, hu, hL, hU⟩
    refine ⟨c, _, hc, newD_some.2 ⟨d, hd, rfl⟩, h0, fun i => i.elim, fun i => i.elim, ?_, ?_⟩
    · rintro (i | i)
      · rw [h1]; refine (hL i).trans_eq (((newPdL_trans n.pdL (three d (fun i => ∑ j, n.pxL j i * x j) (fun i => ∑ j, n.pxU j i * x j))).1 i).symm)
      · rw [h1]; refine (hl i).trans_eq (((newPdL_trans n.pdL (three d (fun i => ∑ j, n.pxL j i * x j) (fun i => ∑ j, n.pxU j i * x j))).2 i).symm)
    · rintro (i | i)
      · rw [h2]; exact ((newPdU_trans n.pdU _).1 i).trans_le (hU i)
      · rw [h2]; exact ((newPdU_trans n.pdU _).2 i).trans_le (hu i)

/-- The problem without variable bounds has the same feasible points and the same objective. -/
theorem removed_feasible (t : Bool) (n : NLP K X C D L U A B) (b' : Bounds K Empty Empty (A ⊕ L) (B ⊕ U)) (h : (remove t n).bounds = .ret (some b')) :
    ∃ b, n.bounds = .ret (some b) ∧ (∀ x, Feasible (remove t n) b' x ↔ Feasible n b x) ∧ ∀ x, (remove t n).f x = n.f x := by
  obtain ⟨b, hb, h1, h2⟩ := newBounds_some h
  exact ⟨b, hb, feasible_aux h1 h2, fun _ => rfl⟩

theorem newJac_mul {n : NLP K X C D L U A B} {x : X → K} {J' : _root_.Matrix (D ⊕ L ⊕ U) X K} (h : newJacD n x = some J') :
    ∃ J, n.jacD x = some J ∧ ∀ (y : D ⊕ L ⊕ U → K) (j : X), ∑ i, J' i j * y i =
      ∑ i, J i j * y (.inl i) + (∑ i, n.pxL j i * y (.inr (.inl i)) + ∑ i, n.pxU j i * y (.inr (.inr i))) := by
  unfold newJacD at h
  rw [Option.map_eq_some_iff] at h
  obtain ⟨J, hJ, rfl⟩ := h
  exact ⟨J, hJ, fun y j => by simp [Fintype.sum_sum_type, jacRows]⟩

/-- What is delivered for an optimal point and multipliers of the new problem is optimal for the original problem, with multipliers of the right sign. -/
theorem removed_kkt_delivered (t : Bool) (n : NLP K X C D L U A B) (b' : Bounds K Empty Empty (A ⊕ L) (B ⊕ U)) (h : (remove t n).bounds = .ret (some b'))
    (s : Sol K X C (D ⊕ L ⊕ U) Empty Empty) (hs : Kkt (remove t n) b' s) : ∃ b, n.bounds = .ret (some b) ∧ Kkt n b (finalize s) := by
  obtain ⟨b, hb, h1, h2⟩ := newBounds_some h
  refine ⟨b, hb, ?_⟩
  obtain ⟨g, Jc, J', vL, vU, hf, hg, hc, hd, hJc, hJd, hstat, hy, _, _, hvL, hvU, hfe, _, _, hcL, hcU⟩ := hs
  obtain ⟨J, hJ, hmul⟩ := newJac_mul hJd
  obtain ⟨d, hd0, hd1⟩ := newD_some.1 hd
  have hy1 : ∀ i, s.yd (.inl i) = ∑ k, n.pdU i k * vU (.inl k) - ∑ k, n.pdL i k * vL (.inl k) := fun i => by
    rw [hy, ← (newPdL_mul (U := U) n.pdL vL).1 i, ← (newPdU_mul (L := L) n.pdU vU).1 i]; rfl
  have hy2 : ∀ i, s.yd (.inr (.inl i)) = -vL (.inr i) := fun i => by
    have := hy (.inr (.inl i))
    change s.yd _ = ∑ k, newPdU n.pdU (.inr (.inl i)) k * vU k - ∑ k, newPdL n.pdL (.inr (.inl i)) k * vL k at this
    rw [(newPdL_mul (U := U) n.pdL vL).2.1 i, (newPdU_mul (L := L) n.pdU vU).2.1 i, zero_sub] at this
    exact this
  have hy3 : ∀ i, s.yd (.inr (.inr i)) = vU (.inr i) := fun i => by
    have := hy (.inr (.inr i))
    change s.yd _ = ∑ k, newPdU n.pdU (.inr (.inr i)) k * vU k - ∑ k, newPdL n.pdL (.inr (.inr i)) k * vL k at this
    rw [(newPdL_mul (U := U) n.pdL vL).2.2 i, (newPdU_mul (L := L) n.pdU vU).2.2 i, sub_zero] at this
    exact this
  have hfin : (finalize s).d = d := by funext i; show s.d _ = _; rw [hd1]; rfl
  refine ⟨g, Jc, J, fun i => vL (.inl i), fun i => vU (.inl i), hf, hg, hc, by rw [hfin]; exact hd0, hJc, hJ, fun j => ?_, hy1, fun i => ?_, fun i => ?_, fun i => hvL _, fun i => hvU _,
    (feasible_aux h1 h2 _).1 hfe, fun i => ?_, fun i => ?_, fun i => ?_, fun i => ?_⟩
  · have := hstat j
    rw [hmul] at this
    simp only [Finset.univ_eq_empty, Finset.sum_empty] at this
    show g j + ∑ i, Jc i j * s.yc i + ∑ i, J i j * s.yd (.inl i) - ∑ i, n.pxL j i * (-1 * s.yd (.inr (.inl i))) + ∑ i, n.pxU j i * s.yd (.inr (.inr i)) = 0
    have e : ∑ i, n.pxL j i * (-1 * s.yd (.inr (.inl i))) = -∑ i, n.pxL j i * s.yd (.inr (.inl i)) := by
      rw [← Finset.sum_neg_distrib]; exact Finset.sum_congr rfl fun i _ => by ring
    rw [e]
    linear_combination this
  · show 0 ≤ -1 * s.yd _
    rw [hy2]; simpa using hvL (.inr i)
  · show 0 ≤ s.yd _
    rw [hy3]; exact hvU _
  · have := hcL (.inr i)
    change vL (.inr i) * (∑ j, newPdL n.pdL j (.inr i) * s.d j - b'.dL (.inr i)) = 0 at this
    rw [(newPdL_trans n.pdL _).2 i, h1, hd1] at this
    show -1 * s.yd _ * _ = 0
    rw [hy2]
    simp only [three, two] at this
    show - 1 * -vL (.inr i) * (∑ j, n.pxL j i * s.x j - b.xL i) = 0
    linear_combination this
  · have := hcU (.inr i)
    change vU (.inr i) * (b'.dU (.inr i) - ∑ j, newPdU n.pdU j (.inr i) * s.d j) = 0 at this
    rw [(newPdU_trans n.pdU _).2 i, h2, hd1] at this
    show s.yd _ * _ = 0
    rw [hy3]
    simp only [three, two] at this
    show vU (.inr i) * (b.xU i - ∑ j, n.pxU j i * s.x j) = 0
    linear_combination this
  · have := hcL (.inl i)
    change vL (.inl i) * (∑ j, newPdL n.pdL j (.inl i) * s.d j - b'.dL (.inl i)) = 0 at this
    rw [(newPdL_trans n.pdL _).1 i, h1] at this
    exact this
  · have := hcU (.inl i)
    change vU (.inl i) * (b'.dU (.inl i) - ∑ j, newPdU n.pdU j (.inl i) * s.d j) = 0 at this
    rw [(newPdU_trans n.pdU _).1 i, h2] at this
    exact this

/-- Nothing is lost: every optimal point of the original problem with its multipliers is what is delivered for some optimal point of the new problem. -/
theorem removed_kkt_kept (t : Bool) (n : NLP K X C D L U A B) (b : Bounds K L U A B) (hb : n.bounds = .ret (some b)) (b' : Bounds K Empty Empty (A ⊕ L) (B ⊕ U))
    (h : (remove t n).bounds = .ret (some b')) (s : Sol K X C D L U) (hs : Kkt n b s) : ∃ s', Kkt (remove t n) b' s' ∧ finalize s' = s := by
  obtain ⟨b0, hb0, h1, h2⟩ := newBounds_some h
  obtain rfl : b0 = b := by rw [hb0] at hb; simpa using hb
  obtain ⟨g, Jc, J, vL, vU, hf, hg, hc, hd, hJc, hJd, hstat, hy, hzL, hzU, hvL, hvU, hfe, hxL, hxU, hcL, hcU⟩ := hs
  set d' := three s.d (fun i => ∑ j, n.pxL j i * s.x j) (fun i => ∑ j, n.pxU j i * s.x j) with hd'
  set y' := three s.yd (fun i => -s.zL i) s.zU with hy'
  refine ⟨⟨s.x, Empty.elim, Empty.elim, s.c, d', s.yc, y', s.f⟩, ?_, ?_⟩
  · have hJ' : newJacD n s.x = some (jacRows n J) := by unfold newJacD; rw [hJd]; rfl
    obtain ⟨J0, hJ0, hmul⟩ := newJac_mul hJ'
    obtain rfl : J = J0 := by rw [hJd] at hJ0; exact Option.some.inj hJ0
    refine ⟨g, Jc, _, two vL s.zL, two vU s.zU, hf, hg, hc, newD_some.2 ⟨s.d, hd, rfl⟩, hJc, hJ', fun j => ?_, ?_, fun i => i.elim, fun i => i.elim, ?_, ?_, (feasible_aux h1 h2 _).2 hfe,
      fun i => i.elim, fun i => i.elim, ?_, ?_⟩
    · rw [hmul y' j]
      simp only [Finset.univ_eq_empty, Finset.sum_empty]
      have e : ∑ i, n.pxL j i * y' (.inr (.inl i)) = -∑ i, n.pxL j i * s.zL i := by
        rw [← Finset.sum_neg_distrib]; exact Finset.sum_congr rfl fun i _ => by show n.pxL j i * -s.zL i = _; ring
      rw [e]
      have := hstat j
      simp only [hy', three]
      linear_combination this
    · rintro (i | i | i)
      · show s.yd i = ∑ k, newPdU n.pdU (.inl i) k * two vU s.zU k - ∑ k, newPdL n.pdL (.inl i) k * two vL s.zL k
        rw [(newPdL_mul (U := U) n.pdL _).1 i, (newPdU_mul (L := L) n.pdU _).1 i]; exact hy i
      · show -s.zL i = ∑ k, newPdU n.pdU (.inr (.inl i)) k * two vU s.zU k - ∑ k, newPdL n.pdL (.inr (.inl i)) k * two vL s.zL k
        rw [(newPdL_mul (U := U) n.pdL _).2.1 i, (newPdU_mul (L := L) n.pdU _).2.1 i, zero_sub]; rfl
      · show s.zU i = ∑ k, newPdU n.pdU (.inr (.inr i)) k * two vU s.zU k - ∑ k, newPdL n.pdL (.inr (.inr i)) k * two vL s.zL k
        rw [(newPdL_mul (U := U) n.pdL _).2.2 i, (newPdU_mul (L := L) n.pdU _).2.2 i, sub_zero]; rfl
    · rintro (i | i)
      · exact hvL i
      · exact hzL i
    · rintro (i | i)
      · exact hvU i
      · exact hzU i
    · rintro (i | i)
      · show vL i * (∑ j, newPdL n.pdL j (.inl i) * d' j - b'.dL (.inl i)) = 0
        rw [(newPdL_trans n.pdL _).1 i, h1]; exact hcL i
      · show s.zL i * (∑ j, newPdL n.pdL j (.inr i) * d' j - b'.dL (.inr i)) = 0
        rw [(newPdL_trans n.pdL _).2 i, h1]; exact hxL i
    · rintro (i | i)
      · show vU i * (b'.dU (.inl i) - ∑ j, newPdU n.pdU j (.inl i) * d' j) = 0
        rw [(newPdU_trans n.pdU _).1 i, h2]; exact hcU i
      · show s.zU i * (b'.dU (.inr i) - ∑ j, newPdU n.pdU j (.inr i) * d' j) = 0
        rw [(newPdU_trans n.pdU _).2 i, h2]; exact hxU i
  · unfold finalize
    cases s
    simp only [Sol.mk.injEq, hd', hy', three, and_true, true_and]
    funext i
    ring

theorem sum_expand {P Q : Type} [Fintype P] [Fintype Q] [DecidableEq P] [DecidableEq Q] {M : _root_.Matrix P Q K} {pos : Q → P} (h : Expands M pos) (i : P) :
    ∑ j, M i j * 1 = if ∃ j, pos j = i then 1 else 0 := by
  split
  · rename_i hj
    obtain ⟨j, rfl⟩ := hj
    rw [Finset.sum_eq_single j]
    · rw [h.2, if_pos rfl, one_mul]
    · intro k _ hk
      rw [h.2, if_neg, zero_mul]
      exact fun e => hk (h.1 e.symm)
    · intro hh; exact absurd (Finset.mem_univ _) hh
  · rename_i hj
    apply Finset.sum_eq_zero
    intro k _
    rw [h.2, if_neg, zero_mul]
    exact fun e => hj ⟨k, e.symm⟩

/-- Unless two-sided inequalities are allowed, the problem is rejected (`INVALID_NLP`) exactly if an inequality has two finite bounds or none (or if the problem itself raises the exception). -/
theorem removed_invalid [DecidableEq D] [DecidableEq A] [DecidableEq B] (n : NLP K X C D L U A B) (pA : A → D) (pB : B → D) (hA : Expands n.pdL pA) (hB : Expands n.pdU pB) :
    (match (remove false n).bounds with | .invalid => True | .ret _ => False) ↔
      (∃ i, ((∃ j, pA j = i) ∧ ∃ j, pB j = i) ∨ ((¬ ∃ j, pA j = i) ∧ ¬ ∃ j, pB j = i)) ∨ (match n.bounds with | .invalid => True | .ret _ => False) := by
  have hd : ∀ i, n.pdU.mulVec (fun _ => 1) i + 1 * n.pdL.mulVec (fun _ => 1) i =
      (if ∃ j, pB j = i then 1 else 0) + (if ∃ j, pA j = i then 1 else 0) := by
    intro i
    rw [one_mul, ← sum_expand hA, ← sum_expand hB]
    rfl
  have key : checkSides false n.pdL n.pdU = true ↔ ¬ ∃ i, ((∃ j, pA j = i) ∧ ∃ j, pB j = i) ∨ ((¬ ∃ j, pA j = i) ∧ ¬ ∃ j, pB j = i) := by
    have two1 : ¬ |(1 : K) + 1| ≤ 1 := by norm_num
    constructor
    · intro h ⟨i, hi⟩
      have hpos : 0 < Fintype.card D := Fintype.card_pos_iff.2 ⟨i⟩
      unfold checkSides at h
      simp only [hpos, Bool.not_false, and_self, if_true, Bool.and_eq_true, decide_eq_true_eq] at h
      obtain ⟨⟨h1, _⟩, h2, _⟩ := h
      have h1 := h1 i
      have h2 := h2 i
      rw [hd] at h1 h2
      rcases hi with ⟨a, b⟩ | ⟨a, b⟩
      · rw [if_pos a, if_pos b] at h1
        exact two1 h1
      · rw [if_neg a, if_neg b] at h2
        norm_num at h2
    · intro h
      have hone : ∀ i, (n.pdU.mulVec (fun _ => 1) i + 1 * n.pdL.mulVec (fun _ => 1) i : K) = 1 := by
        intro i
        rw [hd]
        by_cases a : ∃ j, pA j = i
        · by_cases b : ∃ j, pB j = i
          · exact absurd ⟨i, Or.inl ⟨a, b⟩⟩ h
          · rw [if_pos a, if_neg b, zero_add]
        · by_cases b : ∃ j, pB j = i
          · rw [if_neg a, if_pos b, add_zero]
          · exact absurd ⟨i, Or.inr ⟨a, b⟩⟩ h
      unfold checkSides
      split
      · rename_i hp
        obtain ⟨i⟩ := Fintype.card_pos_iff.1 hp.1
        simp only [hone, abs_one, le_refl, implies_true, true_and, Bool.and_eq_true, decide_eq_true_eq, exists_const_iff, and_true]
        exact ⟨⟨i⟩, ⟨i⟩⟩
      · rfl
  change (match newBounds false n with | .invalid => True | .ret _ => False) ↔ _
  unfold newBounds
  by_cases hc : checkSides false n.pdL n.pdU = true
  · rw [if_pos hc]
    have := key.1 hc
    simp only [this, false_or]
    cases n.bounds <;> simp
  · rw [if_neg hc]
    have : ∃ i, ((∃ j, pA j = i) ∧ ∃ j, pB j = i) ∨ ((¬ ∃ j, pA j = i) ∧ ¬ ∃ j, pB j = i) := by
      by_contra h; exact hc (key.2 h)
    simp only [this, true_or]

/-- Derivatives: the Jacobian of the new inequalities is that of the old ones with the rows of the bounded variables below, and the Lagrangian of the new problem differs from that of the original one only by
a linear function of `x`, so that the Hessian is the same. -/
theorem removed_derivatives (t : Bool) (n : NLP ℝ X C D L U A B) (x v : X → ℝ) (dd : ℝ → D → ℝ) (hdd : ∀ r, n.d (fun j => x j + r * v j) = some (dd r)) (J : _root_.Matrix D X ℝ)
    (hJ : n.jacD x = some J) (hder : ∀ i, HasDerivAt (fun r => dd r i) (∑ j, J i j * v j) 0) :
    ∃ (J' : _root_.Matrix (D ⊕ L ⊕ U) X ℝ) (dd' : ℝ → D ⊕ L ⊕ U → ℝ), (remove t n).jacD x = some J' ∧ (∀ r, (remove t n).d (fun j => x j + r * v j) = some (dd' r)) ∧
      (∀ i, HasDerivAt (fun r => dd' r i) (∑ j, J' i j * v j) 0) ∧
      ∀ (σ : ℝ) (yc : C → ℝ) (yd : D ⊕ L ⊕ U → ℝ), (remove t n).h x σ yc yd = n.h x σ yc (fun i => yd (.inl i)) ∧
        ∀ r, ∑ i, yd i * dd' r i = ∑ i, yd (.inl i) * dd r i +
          ∑ j, (∑ i, n.pxL j i * yd (.inr (.inl i)) + ∑ i, n.pxU j i * yd (.inr (.inr i))) * (x j + r * v j) := by
  refine ⟨jacRows n J, fun r => three (dd r) (fun i => ∑ j, n.pxL j i * (x j + r * v j)) (fun i => ∑ j, n.pxU j i * (x j + r * v j)), ?_, fun r => newD_some.2 ⟨dd r, hdd r, rfl⟩, ?_, ?_⟩
  · show newJacD n x = _
    unfold newJacD; rw [hJ]; rfl
  · have lin : ∀ a : X → ℝ, HasDerivAt (fun r : ℝ => ∑ j, a j * (x j + r * v j)) (∑ j, a j * v j) 0 := by
      intro a
      have : HasDerivAt (fun r : ℝ => ∑ j, a j * (x j + r * v j)) (∑ j, a j * (0 + 1 * v j)) 0 := by
        apply HasDerivAt.fun_sum
        intro j _
        exact ((hasDerivAt_const (0 : ℝ) (x j)).add ((hasDerivAt_id (0 : ℝ)).mul_const (v j))).const_mul (a j)
      simpa using this
    rintro (i | i | i)
    · exact hder i
    · exact lin fun j => n.pxL j i
    · exact lin fun j => n.pxU j i
  · intro σ yc yd
    refine ⟨rfl, fun r => ?_⟩
    rw [Fintype.sum_sum_type, Fintype.sum_sum_type]
    congr 1
    simp only [three]
    have e : ∀ {Q : Type} [Fintype Q] (p : _root_.Matrix X Q ℝ) (w : Q → ℝ), ∑ i, w i * ∑ j, p j i * (x j + r * v j) = ∑ j, (∑ i, p j i * w i) * (x j + r * v j) := by
      intro Q _ p w
      simp only [Finset.mul_sum, Finset.sum_mul]
      rw [Finset.sum_comm]
      exact Finset.sum_congr rfl fun j _ => Finset.sum_congr rfl fun i _ => by ring
    rw [e, e, ← Finset.sum_add_distrib]
    exact Finset.sum_congr rfl fun j _ => by ring

/-- Scaling: the rows of the bounds get the factor of their variable, so that the scaled row is the scaled variable; the factors of the other rows are the original ones (1 if there are none). -/
theorem removed_scaling [DecidableEq X] (t : Bool) (n : NLP K X C D L U A B) (pL : L → X) (pU : U → X) (hL : Expands n.pxL pL) (hU : Expands n.pxU pU) :
    (remove t n).scaling.obj = n.scaling.obj ∧ (remove t n).scaling.x = n.scaling.x ∧ (remove t n).scaling.c = n.scaling.c ∧
    ((remove t n).scaling.d = none ↔ n.scaling.x = none ∧ n.scaling.d = none) ∧
    ∀ ds, (remove t n).scaling.d = some ds → (∀ i, ds (.inl i) = (n.scaling.d.getD fun _ => 1) i) ∧ (∀ i, ds (.inr (.inl i)) = (n.scaling.x.getD fun _ => 1) (pL i)) ∧
      ∀ i, ds (.inr (.inr i)) = (n.scaling.x.getD fun _ => 1) (pU i) := by
  have sel : ∀ {Q : Type} (M : _root_.Matrix X Q K) (pos : Q → X), Expands M pos → ∀ (v : X → K) i, M.transpose.mulVec v i = v (pos i) := by
    intro Q M pos h v i
    show ∑ j, M j i * v j = _
    rw [Finset.sum_eq_single (pos i)]
    · rw [h.2, if_pos rfl, one_mul]
    · intro k _ hk; rw [h.2, if_neg hk, zero_mul]
    · intro hh; exact absurd (Finset.mem_univ _) hh
  refine ⟨rfl, rfl, rfl, ?_, ?_⟩
  · show (newScaling n).d = none ↔ _
    unfold newScaling
    cases n.scaling.x <;> cases n.scaling.d <;> simp
  · intro ds h
    change (newScaling n).d = some ds at h
    unfold newScaling at h
    cases hx : n.scaling.x with
    | none =>
      cases hdd : n.scaling.d with
      | none => rw [hx, hdd] at h; simp at h
      | some q =>
        rw [hx, hdd] at h
        simp at h
        subst h
        exact ⟨fun _ => rfl, fun _ => rfl, fun _ => rfl⟩
    | some p =>
      rw [hx] at h
      simp at h
      subst h
      refine ⟨fun i => ?_, fun i => sel _ _ hL p i, fun i => sel _ _ hU p i⟩
      cases n.scaling.d <;> rfl

/-- The starting point: `x`, `y_c` and the multipliers of the original constraints are the user's; **but** the multipliers of the lower bounds come back with the opposite sign: what would be delivered for the starting
point is `-z_L` (the multiplier of the row `x ≥ x_L` in the new problem is `-z_L`, as in `FinalizeSolution`). -/
theorem removed_start (t : Bool) (n : NLP K X C D L U A B) (s : Start K X C D L U) (hs : n.startAll = some s) (c : C → K) (d : D ⊕ L ⊕ U → K) (f : K) :
    ∃ s', (remove t n).startAll = some s' ∧ s'.x = s.x ∧ s'.yc = s.yc ∧
      (finalize ⟨s'.x, s'.zL, s'.zU, c, d, s'.yc, s'.yd, f⟩).yd = s.yd ∧ (finalize ⟨s'.x, s'.zL, s'.zU, c, d, s'.yc, s'.yd, f⟩).zU = s.zU ∧
      (finalize ⟨s'.x, s'.zL, s'.zU, c, d, s'.yc, s'.yd, f⟩).zL = (fun i => -s.zL i) ∧
      ((finalize ⟨s'.x, s'.zL, s'.zU, c, d, s'.yc, s'.yd, f⟩).zL = s.zL ↔ s.zL = fun _ => 0) := by
  refine ⟨_, by show newStart n = _; unfold newStart; rw [hs]; rfl, rfl, rfl, rfl, rfl, ?_, ?_⟩
  · funext i; show -1 * s.zL i = _; ring
  · constructor
    · intro h
      funext i
      have := congr_fun h i
      change -1 * s.zL i = s.zL i at this
      linarith
    · intro h
      funext i
      show -1 * s.zL i = s.zL i
      rw [h]; simp

/-! ### A concrete case -/

namespace Ex

/-- `min x` with `x ≥ 1`, one inequality `x ≥ 0`. -/
def n : NLP ℚ Unit Empty Unit Unit Empty Unit Empty where
  pxL := fun _ _ => 1
  pxU := fun _ j => j.elim
  pdL := fun _ _ => 1
  pdU := fun _ j => j.elim
  bounds := .ret (some ⟨fun _ => 1, Empty.elim, fun _ => 0, Empty.elim⟩)
  startAll := some ⟨fun _ => 2, Empty.elim, fun _ => 0, fun _ => 1, Empty.elim⟩
  startX := some fun _ => 2
  f x := some (x ())
  gradF _ := some fun _ => 1
  c _ := some Empty.elim
  d x := some fun _ => x ()
  jacC _ := some fun i => i.elim
  jacD _ := some fun _ _ => 1
  h _ _ _ _ := some fun _ _ => 0
  scaling := ⟨1, some fun _ => 3, none, none⟩

/-- the optimal multiplier of the bound is 1. -/
def s : Sol ℚ Unit Empty Unit Unit Empty := ⟨fun _ => 1, fun _ => 1, Empty.elim, Empty.elim, fun _ => 1, Empty.elim, fun _ => 0, 1⟩

theorem kkt : Kkt n ⟨fun _ => 1, Empty.elim, fun _ => 0, Empty.elim⟩ s := by
  refine ⟨_, _, _, fun _ => 0, Empty.elim, rfl, rfl, rfl, rfl, rfl, rfl, ?_, ?_, fun _ => ?_, fun i => i.elim, fun _ => le_refl _, fun i => i.elim, ⟨_, _, rfl, rfl, fun i => i.elim, ?_, fun i => i.elim, ?_, fun i => i.elim⟩,
    ?_, fun i => i.elim, ?_, fun i => i.elim⟩ <;> simp [n, s]

/-- it is accepted, and the hypotheses of the theorems hold. -/
example : (∃ b', (remove false n).bounds = .ret (some b') ∧ ∃ s', Kkt (remove false n) b' s' ∧ finalize s' = s) ∧ Expands n.pdL (fun _ => ()) ∧ Expands n.pxL (fun _ => ()) := by
  refine ⟨⟨⟨Empty.elim, Empty.elim, two (fun _ => 0) (fun _ => 1), two Empty.elim Empty.elim⟩, ?_, ?_⟩, ?_, ?_⟩
  · show newBounds false n = _
    unfold newBounds
    have : checkSides false n.pdL n.pdU = true := by simp [checkSides, n, Matrix.mulVec, dotProduct]
    rw [if_pos this]; rfl
  · refine removed_kkt_kept false n _ rfl _ ?_ s kkt
    show newBounds false n = _
    unfold newBounds
    have : checkSides false n.pdL n.pdU = true := by simp [checkSides, n, Matrix.mulVec, dotProduct]
    rw [if_pos this]; rfl
  · exact ⟨fun _ _ _ => rfl, fun _ _ => rfl⟩
  · exact ⟨fun _ _ _ => rfl, fun _ _ => rfl⟩

end Ex

end Verif.BoundsRemover
