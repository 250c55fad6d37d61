import Mathlib.Tactic.FieldSimp
import Verif.Proof.LowRank4

/-! # Correctness of `LowRankSSAugSystemSolver` -/

set_option linter.unusedSectionVars false
set_option linter.unusedSimpArgs false
set_option linter.unusedVariables false

namespace Verif.LowRank
open _root_.Matrix Finset
open Verif.AugSolve (Status)

section General
variable {K X C D L B : Type} {r : Nat} [Field K] [Fintype X] [Fintype C] [Fintype D] [Fintype L]
variable [DecidableEq K] [DecidableEq X] [DecidableEq C] [DecidableEq D] [DecidableEq L]

/-! ## The Hessian -/

theorem elem2_eq (p q : K) (W : LRW K X L) (hS : W.Selects) {w : X → K} (hw : diagOf W 1 = some w) (i j : X) :
    W.elem2 p q i j = (if i = j then w i else 0) + p * gram (vOf W 1) i j - q * gram (uOf W 1) i j := by
  have h1 := elem_eq W hS hw i j
  cases W with
  | plain B0 V U =>
    simp only [LRW.elem, LRW.elem2, vOf, uOf, if_true] at h1 ⊢
    linear_combination h1
  | reduced P B0 V U =>
    simp only [LRW.elem, LRW.elem2, vOf, uOf, if_true, gram_proj] at h1 ⊢
    simp only [mul_add, mul_sub, add_mul, sub_mul, Finset.sum_add_distrib, Finset.sum_sub_distrib] at h1 ⊢
    have e : ∀ (t : K) (Z : Option (MV (L → K))), ∑ a, ∑ b, P i a * (t * gram Z a b) * P j b = t * ∑ a, ∑ b, P i a * gram Z a b * P j b := by
      intro t Z
      simp only [Finset.mul_sum]
      refine Finset.sum_congr rfl fun a _ => Finset.sum_congr rfl fun b _ => ?_
      ring
    rw [e, e]
    linear_combination h1
  | projected P B0 V U =>
    simp only [LRW.elem, LRW.elem2, vOf, uOf, if_true, gram_proj] at h1 ⊢
    simp only [mul_add, mul_sub, add_mul, sub_mul, Finset.sum_add_distrib, Finset.sum_sub_distrib] at h1 ⊢
    have e : ∀ (t : K) (Z : Option (MV (L → K))), ∑ a, ∑ b, P i a * (t * gram Z a b) * P j b = t * ∑ a, ∑ b, P i a * gram Z a b * P j b := by
      intro t Z
      simp only [Finset.mul_sum]
      refine Finset.sum_congr rfl fun a _ => Finset.sum_congr rfl fun b _ => ?_
      ring
    rw [e, e]
    linear_combination h1

/-! ## Sums over the additional rows -/

/-- sum over the columns, zero for NULL. -/
def sumCols (V : Option (MV (X → K))) (F : (X → K) → K) : K :=
  match V with
  | none => 0
  | some V => ∑ k ∈ range V.n, F (V.col k)

theorem rows_sum (V U : Option (MV (X → K))) (hle : ncols V + ncols U ≤ r) (F : (X → K) → K) (h0 : F (fun _ => 0) = 0) (g : K → K) :
    ∑ i : Fin r, F (rv (rowAt V U i)) * g (drankAt V i) =
      sumCols V (fun v => F v * g (-1)) + sumCols U (fun v => F v * g 1) := by
  rw [← Finset.sum_range (fun i => F (rv (rowAt V U i)) * g (drankAt V i))]
  obtain ⟨d, rfl⟩ := Nat.exists_eq_add_of_le hle
  rw [Finset.sum_range_add, Finset.sum_range_add]
  have h3 : ∑ x ∈ range d, F (rv (rowAt V U (ncols V + ncols U + x))) * g (drankAt V (ncols V + ncols U + x)) = 0 := by
    refine Finset.sum_eq_zero fun x _ => ?_
    have : rowAt V U (ncols V + ncols U + x) = none := by
      unfold rowAt; rw [if_neg (by omega), if_neg (by omega)]
    rw [this]
    show F (fun _ => 0) * _ = 0
    rw [h0, zero_mul]
  rw [h3, add_zero]
  congr 1
  · cases V with
    | none => simp [ncols, sumCols]
    | some V =>
      refine Finset.sum_congr rfl fun k hk => ?_
      have hk : k < ncols (some V) := Finset.mem_range.1 hk
      simp [rowAt, drankAt, hk, rv]
  · cases U with
    | none => simp [ncols, sumCols]
    | some U =>
      refine Finset.sum_congr rfl fun k hk => ?_
      have hk : k < ncols (some U) := Finset.mem_range.1 hk
      simp [rowAt, drankAt, hk, rv]

/-! ## Stored data -/

/-- the data are those of call `c`. -/
structure GoodSS (H : Heap K X C D L) (c : Call K) (st : SSt K X C L r) : Prop where
  diag : ∃ w, diagOf (H.lrw c.W) c.Wfac = some w ∧ st.wdiag = some w
  rows : st.rows = fun i : Fin r => rowAt (vOf (H.lrw c.W) c.Wfac) (uOf (H.lrw c.W) c.Wfac) i
  drank : st.drank = fun i : Fin r => drankAt (vOf (H.lrw c.W) c.Wfac) i
  le : ncols (vOf (H.lrw c.W) c.Wfac) + ncols (uOf (H.lrw c.W) c.Wfac) ≤ r
  dc : st.dc = val (c.Dc.map H.vc)
  jc : st.jc = H.jc c.Jc
  corr : st.corr = ncols (vOf (H.lrw c.W) c.Wfac)

/-- the expansion matrix stored is that of all Hessians. -/
def Made (H : Heap K X C D L) (st : SSt K X C L r) : Prop := ∀ P, st.made = some P → ∀ t, (H.lrw t).proj = P

theorem rowsV_eq (W : LRW K X L) (fac : K) : rowsV W.proj W fac = some (vOf W fac) := by
  cases W <;> simp only [rowsV, vOf, LRW.proj, expandWith] <;> split_ifs <;> rfl

theorem rowsU_eq (W : LRW K X L) (fac : K) : rowsU W.proj W fac = some (uOf W fac) := by
  cases W <;> simp only [rowsU, uOf, LRW.proj, expandWith] <;> split_ifs <;> rfl

theorem made_proj {H : Heap K X C D L} {st : SSt K X C L r} (hm : Made H st) (t : Nat) :
    st.made.getD (H.lrw t).proj = (H.lrw t).proj := by
  cases h : st.made with
  | none => rfl
  | some P => exact (hm P h t).symm

theorem ss_update_ok {H : Heap K X C D L} (hO : OneSpace H) {c : Call K} {st st' : SSt K X C L r} (hm : Made H st) (e : st.update H c = some st') :
    GoodSS H c st' ∧ Made H st' := by
  unfold SSt.update at e
  simp only [made_proj hm, rowsV_eq, rowsU_eq] at e
  cases hd : diagOf (H.lrw c.W) c.Wfac with
  | none => rw [hd] at e; simp at e
  | some w =>
    rw [hd] at e
    try simp only at e
    split_ifs at e with h1 h2
    cases e
    refine ⟨⟨⟨w, hd, rfl⟩, rfl, rfl, not_lt.1 h2, ?_, rfl, rfl⟩, ?_⟩
    · cases c.Dc <;> rfl
    · intro P hP t
      rw [← Option.some.inj hP]
      exact hO t c.W

theorem goodSS_congr {H : Heap K X C D L} {c : Call K} {st st' : SSt K X C L r} (h1 : st'.wdiag = st.wdiag) (h2 : st'.rows = st.rows)
    (h3 : st'.drank = st.drank) (h4 : st'.dc = st.dc) (h5 : st'.jc = st.jc) (h6 : st'.corr = st.corr) (h : GoodSS H c st) :
    GoodSS H c st' :=
  ⟨by rw [h1]; exact h.diag, h2.trans h.rows, h3.trans h.drank, h.le, h4.trans h.dc, h5.trans h.jc, h6.trans h.corr⟩

def InvS (H : Heap K X C D L) (st : SSt K X C L r) : Prop :=
  Made H st ∧ (st.first = false → st.tags.OK ∧ GoodSS H st.tags st)

theorem ss_solve {E : Env K X (C ⊕ Fin r) D B} {H : Heap K X C D L} (hO : OneSpace H) {st : SSt K X C L r} {b : B} (hI : InvS H st)
    {c : Call K} (hc : c.OK) {rhs : Quad K X C D} {chk neg} {q} (e : st.solve E H c rhs chk neg b = some q) :
    ∃ st1, GoodSS H c st1 ∧ Made H st1 ∧ st1.tags = c ∧ st1.first = false ∧
      q = SSt.finish E H c rhs (if E.inertia then chk else false) neg st1 b := by
  unfold SSt.solve at e
  simp only at e
  generalize (if E.inertia then chk else false) = chk' at e ⊢
  generalize hst : (if st.first then { st with wdiag := some E.junk } else st) = st1 at e
  have f1 : st1.first = st.first := by rw [← hst]; split_ifs <;> rfl
  have t1 : st1.tags = st.tags := by rw [← hst]; split_ifs <;> rfl
  have m1 : Made H st1 := by
    have : st1.made = st.made := by rw [← hst]; split_ifs <;> rfl
    intro P hP; exact hI.1 P (this ▸ hP)
  have s1 : st.first = false → st1 = st := by intro h; rw [← hst, h]; rfl
  rw [f1, t1] at e
  split_ifs at e with h1
  · cases hu : st1.update H c with
    | none => rw [hu] at e; simp at e
    | some st2 =>
      rw [hu] at e
      obtain ⟨g, m⟩ := ss_update_ok hO m1 hu
      exact ⟨{ st2 with tags := c, first := false }, goodSS_congr (st := st2) rfl rfl rfl rfl rfl rfl g, m, rfl, rfl, (Option.some.inj e).symm⟩
  · have h1' : (st.first || requiresChange c st.tags) = false := by simpa using h1
    rw [Bool.or_eq_false_iff] at h1'
    have hf := h1'.1
    rw [s1 hf] at e
    obtain ⟨i1, i2⟩ := hI.2 hf
    have hct := (requiresChange_false hc i1).1 h1'.2
    exact ⟨st, hct ▸ i2, hI.1, hct.symm, hf, (Option.some.inj e).symm⟩

theorem srun_inv {E : Env K X (C ⊕ Fin r) D B} {H : Heap K X C D L} (hO : OneSpace H) {st : SSt K X C L r} {b : B} (h : SRun E H st b) :
    InvS H st := by
  induction h with
  | new jf jn jc b => exact ⟨(by intro P hP; cases hP), (by intro h; cases h)⟩
  | init _ ih => exact ⟨(by intro P hP; cases hP), (by intro h; cases h)⟩
  | other b' _ ih => exact ih
  | solve c rhs chk neg _ hc e ih =>
    obtain ⟨st1, g, m, t, f, hq⟩ := ss_solve hO ih hc e
    have e2 := (Prod.mk.inj (Prod.mk.inj (Prod.mk.inj hq).2).2).1
    rw [e2]
    split_ifs
    · exact ⟨m, fun _ => ⟨t ▸ hc, goodSS_congr (st := st1) rfl rfl rfl rfl rfl rfl (t.symm ▸ g)⟩⟩
    · exact ⟨m, fun _ => ⟨t ▸ hc, t ▸ g⟩⟩

/-! ## Elimination of the additional rows -/

theorem mul_gram (V : Option (MV (X → K))) (x : X → K) (i : X) (p : K) :
    sumCols V (fun v => v i * (∑ j, v j * x j) * p) = p * ∑ j, gram V i j * x j := by
  cases V with
  | none => simp [gram, sumCols]
  | some V =>
    simp only [sumCols, gram, Finset.sum_mul, Finset.mul_sum]
    rw [Finset.sum_comm]
    refine Finset.sum_congr rfl fun j _ => Finset.sum_congr rfl fun k _ => ?_
    ring

theorem ext_solves {E : Env K X (C ⊕ Fin r) D B} {H : Heap K X C D L} {c : Call K} {st : SSt K X C L r} (hg : GoodSS H c st)
    (hS : (H.lrw c.W).Selects) (hf : c.Wfac = 0 ∨ c.Wfac = 1) (h1 : 1 + c.δc ≠ 0) (h2 : 1 - c.δc ≠ 0) {rhs : Quad K X C D}
    {sol : Quad K X (C ⊕ Fin r) D} (h : Solves (st.extSys E H c) sol ⟨rhs.x, rhs.s, Sum.elim rhs.c fun _ => 0, rhs.d⟩) :
    Solves (c.sysDelta H) ⟨sol.x, sol.s, fun k => sol.c (.inl k), sol.d⟩ rhs := by
  obtain ⟨w, hd, hw⟩ := hg.diag
  have hrow : ∀ i : Fin r, (∑ j, rv (st.rows i) j * sol.x j) + (st.drank i - c.δc) * sol.c (.inr i) = 0 := fun i => by
    have := h.c (.inr i)
    simp only [SSt.extSys, Sum.elim_inr, val] at this
    exact this
  refine ⟨fun i => ?_, fun i => ?_, fun k => ?_, fun k => ?_⟩
  · have hx := h.x i
    simp only [SSt.extSys, hw, Option.getD_some, Fintype.sum_sum_type, Sum.elim_inl, Sum.elim_inr, hg.jc] at hx
    -- the additional multipliers
    have hy : ∀ k : Fin r, rv (st.rows k) i * sol.c (.inr k) =
        rv (rowAt (vOf (H.lrw c.W) c.Wfac) (uOf (H.lrw c.W) c.Wfac) k) i *
          (∑ j, rv (rowAt (vOf (H.lrw c.W) c.Wfac) (uOf (H.lrw c.W) c.Wfac) k) j * sol.x j) *
          (-1 / (drankAt (vOf (H.lrw c.W) c.Wfac) k - c.δc)) := by
      intro k
      have hk := hrow k
      rw [hg.rows, hg.drank] at hk
      rw [hg.rows]
      have hne : drankAt (vOf (H.lrw c.W) c.Wfac) (k : Nat) - c.δc ≠ 0 := by
        unfold drankAt
        split_ifs
        · intro h0; exact h1 (by linear_combination -h0)
        · exact h2
      field_simp
      linear_combination (rv (rowAt (vOf (H.lrw c.W) c.Wfac) (uOf (H.lrw c.W) c.Wfac) k) i) * hk
    have hsum : ∑ k : Fin r, rv (st.rows k) i * sol.c (.inr k) =
        1 / (1 + c.δc) * ∑ j, gram (vOf (H.lrw c.W) c.Wfac) i j * sol.x j - 1 / (1 - c.δc) * ∑ j, gram (uOf (H.lrw c.W) c.Wfac) i j * sol.x j := by
      rw [Finset.sum_congr rfl fun k _ => hy k,
        rows_sum _ _ hg.le (fun v => v i * ∑ j, v j * sol.x j) (by simp) (fun d => -1 / (d - c.δc))]
      refine (congrArg₂ (fun x y : K => x + y) (mul_gram (vOf (H.lrw c.W) c.Wfac) sol.x i (-1 / (-1 - c.δc))) (mul_gram (uOf (H.lrw c.W) c.Wfac) sol.x i (-1 / (1 - c.δc)))).trans ?_
      rw [show (-1 : K) / (-1 - c.δc) = 1 / (1 + c.δc) by
        rw [show (-1 - c.δc : K) = -(1 + c.δc) by ring, neg_div_neg_eq]]
      ring
    rw [hsum] at hx
    simp only [Call.sysDelta, Call.sys]
    rw [← hx]
    rcases hf with hf | hf
    · have e1 : vOf (H.lrw c.W) c.Wfac = none := by simp [vOf, hf]
      have e2 : uOf (H.lrw c.W) c.Wfac = none := by simp [uOf, hf]
      rw [e1, e2, hf]
      simp [gram]
    · rw [hf] at hd ⊢
      simp only [one_mul, elem2_eq _ _ _ hS hd, add_mul, sub_mul, Finset.sum_add_distrib, Finset.sum_sub_distrib, mul_assoc, ← Finset.mul_sum]
      ring
  · exact h.s i
  · have := h.c (.inl k)
    simp only [SSt.extSys, Sum.elim_inl, hg.jc, hg.dc] at this
    simp only [Call.sysDelta, Call.sys]
    exact this
  · exact h.d k
end General
end Verif.LowRank
