import Verif.Proof.LowRank

/-! # Correctness of `LowRankAugSystemSolver`, continued: histories -/

set_option linter.unusedSectionVars false
set_option linter.unusedSimpArgs false
set_option linter.unusedVariables false

namespace Verif.LowRank
open _root_.Matrix Finset
open Verif.AugSolve (Status)

variable {K X C D L B : Type} [Field K] [Fintype X] [Fintype C] [Fintype D] [Fintype L]
variable [DecidableEq K] [DecidableEq X] [DecidableEq C] [DecidableEq D] [DecidableEq L]

/-- what the data mean, for a call with factor 1. -/
theorem good_pack {E : Env K X C D B} (hE : Contract E) {H : Heap K X C D L} {c : Call K} {w : X → K} {st : St K X C D}
    (hV : GoodV E H c w st) (hU : GoodU E H c w st) :
    ∃ (n m : Nat) (V Vt : Matrix (Ix X C D) (Fin n) K) (U Ut : Matrix (Ix X C D) (Fin m) K) (Cm : Matrix (Fin n) (Fin m) K),
      kmat (innerSys H c w 1) * Vt = V ∧ V * Vᵀ = gramM (vOf (H.lrw c.W) c.Wfac) ∧
      (∃ J : Nat → Nat → K, Lower n J ∧ ∀ i j : Fin n, ∑ k ∈ range n, J i k * J j k = (1 + Vtᵀ * V : Matrix (Fin n) (Fin n) K) i j) ∧
      kmat (innerSys H c w 1) * Ut = U ∧ U * Uᵀ = gramM (uOf (H.lrw c.W) c.Wfac) ∧ (1 + Vtᵀ * V) * Cm = Vtᵀ * U ∧
      (∀ k, ∃ q : X → K, (fun i => U i k) = flat (Quad.ofX q : Quad K X C D)) ∧
      (∃ J : Nat → Nat → K, Lower m J ∧ ∀ i j : Fin m, ∑ k ∈ range m, J i k * J j k = (1 - (Ut - Vt * Cm)ᵀ * U : Matrix (Fin m) (Fin m) K) i j) ∧
      ∀ rhs sol, ∃ (b : Fin n → K) (d : Fin m → K), (1 + Vtᵀ * V) *ᵥ b = Vtᵀ *ᵥ flat rhs ∧
        (1 - (Ut - Vt * Cm)ᵀ * U) *ᵥ d = (Ut - Vt * Cm)ᵀ *ᵥ flat rhs ∧
        flat (correct E st rhs sol) = flat sol + (Ut - Vt * Cm) *ᵥ d - Vt *ᵥ b := by
  obtain ⟨n, V, Vt, h1, h2, hJ1, h3, h4⟩ := goodV_pack hE hV
  unfold GoodU at hU
  cases hu : uOf (H.lrw c.W) c.Wfac with
  | none =>
    rw [hu] at hU
    simp only at hU
    refine ⟨n, 0, V, Vt, 0, 0, 0, h1, h2, hJ1, by simp, by rw [gramM_none]; simp, by simp, fun k => k.elim0, ⟨fun _ _ => 0, ⟨?_, ?_⟩, ?_⟩, ?_⟩
    · intro i j hi; omega
    · intro i hi; omega
    · intro i; exact i.elim0
    · intro rhs sol
      obtain ⟨b, hb, hb'⟩ := h3 rhs sol
      refine ⟨b, 0, hb, by simp, ?_⟩
      simp only [correct, hU]
      refine hb'.trans ?_
      simp
  | some U =>
    rw [hu] at hU
    obtain ⟨U1, en, hs, e2, hJ, hM⟩ := hU
    obtain ⟨en2, Cm, hC, hU2⟩ := h4 U U1
    have hA := inner_symm H c w 1
    have hUt := cols_solve hs
    have hU2s := smw_cols hA h1 hUt hC
    have hsymA := symm_add hA V
    have hsym := gram_isSymm hsymA hU2s
    have hM' : ∀ i j : Fin U.n, ∑ k ∈ range U.n, st.j2 i k * st.j2 j k =
        (1 - (colsM U1 U.n - Vt * Cm)ᵀ * xcolsM U U.n : Matrix (Fin U.n) (Fin U.n) K) i j := by
      intro i j
      rw [← hU2] at hsym ⊢
      rw [hM i j i.2 j.2, highRank_eq (-1) (utilde2 E st U U1) U U.n hsym, neg_one_smul, sub_eq_add_neg]
    refine ⟨n, U.n, V, Vt, xcolsM U U.n, colsM U1 U.n, Cm, h1, h2, hJ1, hUt, xcols_gram U, hC, fun k => ⟨U.col k, rfl⟩, ⟨st.j2, hJ, hM'⟩, ?_⟩
    intro rhs sol
    let sol1 := addCols 1 (utilde2 E st U U1) (E.potrs (utilde2 E st U U1).n st.j2 fun i => ((utilde2 E st U U1).col i).dot rhs) sol
    obtain ⟨b, hb, hb'⟩ := h3 rhs sol1
    refine ⟨b, fun k => E.potrs U.n st.j2 (fun i => ((utilde2 E st U U1).col i).dot rhs) k, hb, ?_, ?_⟩
    · rw [potrs_solves hE hJ hM', ← hU2]
      funext k
      rw [dot_flat]; rfl
    · simp only [correct, e2]
      refine hb'.trans ?_
      simp only [sol1]
      rw [flat_addCols, one_smul, en2, en, hU2]

theorem good_solves {E : Env K X C D B} (hE : Contract E) {H : Heap K X C D L} {c : Call K} {st : St K X C D}
    (hS : (H.lrw c.W).Selects) (hf : c.Wfac = 0 ∨ c.Wfac = 1) (hg : Good E H c st) (rhs : Quad K X C D) {w : X → K}
    (hw : st.wdiag = some w) {sol : Quad K X C D} (hsol : Solves (innerSys H c w c.Wfac) sol rhs) :
    Solves (c.sys H) (correct E st rhs sol) rhs := by
  obtain ⟨w', e1, e2, hV, hU⟩ := hg
  rw [e1] at hw
  cases hw
  rw [solves_iff] at hsol ⊢
  rcases hf with hf | hf
  · have hv1 : st.v1 = none := by
      have : vOf (H.lrw c.W) c.Wfac = none := by simp [vOf, hf]
      simpa [GoodV, this] using hV
    have hu2 : st.u2 = none := by
      have : uOf (H.lrw c.W) c.Wfac = none := by simp [uOf, hf]
      simpa [GoodU, this] using hU
    rw [kmat_zero H c hf w]
    simp only [correct, hv1, hu2]
    exact hsol
  · obtain ⟨n, m, V, Vt, U, Ut, Cm, h1, h2, _, h3, h4, hC, _, _, h6⟩ := good_pack hE hV hU
    obtain ⟨b, d, hb, hd, e⟩ := h6 rhs sol
    rw [hf] at hsol
    rw [e, kmat_one H c hS hf e2, ← h2, ← h4]
    exact smw (inner_symm H c w 1) h1 h3 hC hsol hb hd

/-! ## The update -/

theorem updateV_ok {E : Env K X C D B} (hE : Contract E) {H : Heap K X C D L} {c : Call K} {w : X → K} {chk neg} {st : St K X C D} {b : B}
    (h : (updateV E H c w chk neg st b).1 = .success) : GoodV E H c w (updateV E H c w chk neg st b).2.1 := by
  unfold updateV at h ⊢
  unfold GoodV
  cases hv : vOf (H.lrw c.W) c.Wfac with
  | none => rfl
  | some V =>
    rw [hv] at h
    simp only at h ⊢
    split_ifs at h ⊢ with h1 h2
    · exact absurd h h1
    · refine ⟨_, rfl, rfl, ?_, ?_⟩
      · intro k hk
        exact hE.solve _ _ _ _ _ _ (not_not.1 h1) k hk
      · exact hE.potrf _ _ h2

theorem updateV_same (E : Env K X C D B) (H : Heap K X C D L) (c : Call K) (w : X → K) (chk neg) (st : St K X C D) (b : B) :
    (updateV E H c w chk neg st b).2.1.wdiag = st.wdiag ∧ (updateV E H c w chk neg st b).2.1.tags = st.tags ∧
      (updateV E H c w chk neg st b).2.1.first = st.first := by
  unfold updateV
  cases hv : vOf (H.lrw c.W) c.Wfac with
  | none => exact ⟨rfl, rfl, rfl⟩
  | some V => simp only; split_ifs <;> exact ⟨rfl, rfl, rfl⟩

theorem updateU_same (E : Env K X C D B) (H : Heap K X C D L) (c : Call K) (w : X → K) (chk neg) (st : St K X C D) (b : B) :
    (updateU E H c w chk neg st b).2.1.wdiag = st.wdiag ∧ (updateU E H c w chk neg st b).2.1.tags = st.tags ∧
      (updateU E H c w chk neg st b).2.1.first = st.first ∧ (updateU E H c w chk neg st b).2.1.v1 = st.v1 ∧
      (updateU E H c w chk neg st b).2.1.j1 = st.j1 := by
  unfold updateU
  cases hv : uOf (H.lrw c.W) c.Wfac with
  | none => exact ⟨rfl, rfl, rfl, rfl, rfl⟩
  | some V => simp only; split_ifs <;> exact ⟨rfl, rfl, rfl, rfl, rfl⟩

theorem utilde2_congr (E : Env K X C D B) {st st' : St K X C D} (h1 : st.v1 = st'.v1) (h2 : st.j1 = st'.j1) (U : MV (X → K))
    (U1 : MV (Quad K X C D)) : utilde2 E st U U1 = utilde2 E st' U U1 := by
  simp only [utilde2, h1, h2]

theorem updateU_ok {E : Env K X C D B} (hE : Contract E) {H : Heap K X C D L} {c : Call K} {w : X → K} {chk neg} {st : St K X C D} {b : B}
    (h : (updateU E H c w chk neg st b).1 = .success) : GoodU E H c w (updateU E H c w chk neg st b).2.1 := by
  unfold updateU at h ⊢
  unfold GoodU
  cases hv : uOf (H.lrw c.W) c.Wfac with
  | none => rfl
  | some U =>
    rw [hv] at h
    simp only at h ⊢
    split_ifs at h ⊢ with h1 h2
    · exact absurd h h1
    · refine ⟨_, ?_, ?_, rfl, ?_⟩
      · rfl
      · intro k hk
        exact hE.solve _ _ _ _ _ _ (not_not.1 h1) k hk
      · exact hE.potrf _ _ h2

theorem update_ok {E : Env K X C D B} (hE : Contract E) {H : Heap K X C D L} {c : Call K} {chk neg} {st : St K X C D} {b : B} {r}
    (h : update E H c chk neg st b = some r) (hr : r.1 = .success) : Good E H c r.2.1 := by
  unfold update at h
  cases hw : diagOf (H.lrw c.W) c.Wfac with
  | none => rw [hw] at h; simp at h
  | some w =>
    rw [hw] at h
    simp only at h
    split_ifs at h with h1
    · cases h; exact absurd hr h1
    · cases h
      have hV := updateV_ok hE (not_not.1 h1)
      have hU := updateU_ok hE hr
      have s1 := updateV_same E H c w chk neg { st with wdiag := some w } b
      have s2 := updateU_same E H c w chk neg (updateV E H c w chk neg { st with wdiag := some w } b).2.1
        (updateV E H c w chk neg { st with wdiag := some w } b).2.2
      refine ⟨w, s2.1.trans s1.1, hw, ?_, hU⟩
      unfold GoodV at hV ⊢
      rw [s2.2.2.2.1, s2.2.2.2.2]
      exact hV

theorem update_same {E : Env K X C D B} {H : Heap K X C D L} {c : Call K} {chk neg} {st : St K X C D} {b : B} {r}
    (h : update E H c chk neg st b = some r) : r.2.1.tags = st.tags ∧ r.2.1.first = st.first := by
  unfold update at h
  cases hw : diagOf (H.lrw c.W) c.Wfac with
  | none => rw [hw] at h; simp at h
  | some w =>
    rw [hw] at h
    simp only at h
    have s1 := updateV_same E H c w chk neg { st with wdiag := some w } b
    split_ifs at h with h1
    · cases h; exact ⟨s1.2.1, s1.2.2⟩
    · cases h
      have s2 := updateU_same E H c w chk neg (updateV E H c w chk neg { st with wdiag := some w } b).2.1
        (updateV E H c w chk neg { st with wdiag := some w } b).2.2
      exact ⟨s2.2.1.trans s1.2.1, s2.2.2.1.trans s1.2.2⟩

/-! ## Tags -/

theorem vecChanged_false {d t : Option Nat} (hd : d ≠ some 0) (ht : t ≠ some 0) : vecChanged d (tagOf t) = false ↔ d = t := by
  cases d <;> cases t <;> simp_all [vecChanged, tagOf]

theorem requiresChange_false {c t : Call K} (hc : c.OK) (ht : t.OK) : requiresChange c t = false ↔ c = t := by
  unfold requiresChange
  simp only [Bool.or_eq_false_iff, bne_eq_false_iff_eq, decide_eq_false_iff_not, not_not, vecChanged_false hc.Dx ht.Dx,
    vecChanged_false hc.Ds ht.Ds, vecChanged_false hc.Dc ht.Dc, vecChanged_false hc.Dd ht.Dd]
  obtain ⟨a1, a2, a3, a4, a5, a6, a7, a8, a9, a10, a11, a12⟩ := c
  obtain ⟨b1, b2, b3, b4, b5, b6, b7, b8, b9, b10, b11, b12⟩ := t
  simp only [Call.mk.injEq]
  tauto

/-! ## Histories -/

theorem finish_same (E : Env K X C D B) (H : Heap K X C D L) (c : Call K) (rhs chk neg) (st : St K X C D) (b : B) :
    (finish E H c rhs chk neg st b).2.2.1.tags = st.tags ∧ (finish E H c rhs chk neg st b).2.2.1.first = st.first ∧
      (finish E H c rhs chk neg st b).2.2.1.wdiag = st.wdiag ∧
      (finish E H c rhs chk neg st b).2.2.1.v1 = st.v1 ∧ (finish E H c rhs chk neg st b).2.2.1.j1 = st.j1 ∧
      (finish E H c rhs chk neg st b).2.2.1.u2 = st.u2 ∧ (finish E H c rhs chk neg st b).2.2.1.j2 = st.j2 := by
  unfold finish
  simp only
  split_ifs <;> exact ⟨rfl, rfl, rfl, rfl, rfl, rfl, rfl⟩

theorem good_congr {E : Env K X C D B} {H : Heap K X C D L} {c : Call K} {st st' : St K X C D} (hw : st'.wdiag = st.wdiag)
    (h1 : st'.v1 = st.v1) (h2 : st'.j1 = st.j1) (h3 : st'.u2 = st.u2) (h4 : st'.j2 = st.j2) (h : Good E H c st) : Good E H c st' := by
  obtain ⟨w, e1, e2, hV, hU⟩ := h
  refine ⟨w, hw.trans e1, e2, ?_, ?_⟩
  · unfold GoodV at hV ⊢; rw [h1, h2]; exact hV
  · unfold GoodU at hU ⊢; simp only [h3, h4, utilde2_congr E h1 h2]; exact hU

/-- invariant of the state. -/
def Inv (E : Env K X C D B) (H : Heap K X C D L) (h : List (Call K × Status)) (st : St K X C D) : Prop :=
  st.first = false → st.tags.OK ∧ (∃ p ∈ h, p.1 = st.tags) ∧ (Good E H st.tags st ∨ Revisit st.tags h)

theorem revisit_snoc {c : Call K} {h : List (Call K × Status)} (hr : Revisit c h) (s : Status) : Revisit c (h ++ [(c, s)]) := by
  obtain ⟨pre, p, mid, e, post, e1, e2, e3, e4, e5⟩ := hr
  refine ⟨pre, p, mid, e, post ++ [(c, s)], ?_, e2, e3, e4, ?_⟩
  · rw [e1]; simp
  · intro q hq hne
    rcases List.mem_append.1 hq with hq | hq
    · exact e5 q hq hne
    · rw [List.mem_singleton] at hq; subst hq; exact absurd rfl hne

theorem revisit_fail {c t : Call K} {h : List (Call K × Status)} {p} (hp : p ∈ h) (e : p.1 = t) (hct : c ≠ t) {s : Status}
    (hs : s ≠ .success) : Revisit t (h ++ [(c, s)]) := by
  obtain ⟨pre, post, rfl⟩ := List.append_of_mem hp
  exact ⟨pre, p, post, (c, s), [], by simp, e, hct, hs, by simp⟩

theorem solve_inv {E : Env K X C D B} (hE : Contract E) {H : Heap K X C D L} {h : List (Call K × Status)} {st : St K X C D} {b : B}
    (hI : Inv E H h st) {c : Call K} (hc : c.OK) {rhs sol0 : Quad K X C D} {chk neg} {s sol st' b'}
    (e : st.solve E H c rhs sol0 chk neg b = some (s, sol, st', b')) : Inv E H (h ++ [(c, s)]) st' := by
  unfold St.solve at e
  simp only at e
  generalize (if E.inertia then chk else false) = chk' at e
  generalize hst : (if st.first then { st with wdiag := some E.junk } else st) = st1 at e
  have f1 : st1.first = st.first := by rw [← hst]; split_ifs <;> rfl
  have t1 : st1.tags = st.tags := by rw [← hst]; split_ifs <;> rfl
  have s1 : st.first = false → st1 = st := by intro h; rw [← hst, h]; rfl
  rw [f1, t1] at e
  split_ifs at e with h1
  · cases hu : update E H c chk' neg st1 b with
    | none => rw [hu] at e; simp at e
    | some r =>
      rw [hu] at e
      simp only at e
      have sm := update_same hu
      split_ifs at e with h2
      · cases e
        intro hf
        have hf' : st.first = false := by rw [← f1, ← sm.2, hf]
        obtain ⟨i1, ⟨p, hp, ep⟩, i3⟩ := hI hf'
        rw [sm.1, t1]
        refine ⟨i1, ⟨p, List.mem_append_left _ hp, ep⟩, Or.inr (revisit_fail hp ep ?_ h2)⟩
        intro hcc
        rw [hf', Bool.false_or] at h1
        rw [(requiresChange_false hc i1).2 hcc] at h1
        exact Bool.false_ne_true h1
      · have e' := Option.some.inj e
        have fs := finish_same E H c rhs chk' neg { r.2.1 with tags := c, first := false } r.2.2
        rw [e'] at fs
        simp only at fs
        intro _
        rw [fs.1]
        refine ⟨hc, ⟨(c, s), by simp, rfl⟩, Or.inl ?_⟩
        exact good_congr fs.2.2.1 fs.2.2.2.1 fs.2.2.2.2.1 fs.2.2.2.2.2.1 fs.2.2.2.2.2.2
          (good_congr (st := r.2.1) rfl rfl rfl rfl rfl (update_ok hE hu (not_not.1 h2)))
  · have h1' : (st.first || requiresChange c st.tags) = false := by simpa using h1
    rw [Bool.or_eq_false_iff] at h1'
    have hf := h1'.1
    rw [s1 hf] at e
    obtain ⟨i1, ⟨p, hp, ep⟩, i3⟩ := hI hf
    have hct := (requiresChange_false hc i1).1 h1'.2
    have e' := Option.some.inj e
    have fs := finish_same E H c rhs chk' neg st b
    rw [e'] at fs
    simp only at fs
    intro _
    rw [fs.1]
    refine ⟨i1, ⟨p, List.mem_append_left _ hp, ep⟩, ?_⟩
    rcases i3 with i3 | i3
    · exact Or.inl (good_congr fs.2.2.1 fs.2.2.2.1 fs.2.2.2.2.1 fs.2.2.2.2.2.1 fs.2.2.2.2.2.2 i3)
    · rw [hct]; exact Or.inr (revisit_snoc i3 s)

theorem run_inv {E : Env K X C D B} (hE : Contract E) {H : Heap K X C D L} {h : List (Call K × Status)} {st : St K X C D} {b : B}
    (hr : Run E H h st b) : Inv E H h st := by
  induction hr with
  | new jf jn b => intro hf; cases hf
  | init _ _ => intro hf; cases hf
  | other b' _ ih => exact ih
  | quality _ ih => exact ih
  | solve c rhs sol0 chk neg _ hc e ih => exact solve_inv hE ih hc e

/-- a successful call ends with `finish` on good data. -/
theorem solve_success {E : Env K X C D B} (hE : Contract E) {H : Heap K X C D L} {h : List (Call K × Status)} {st : St K X C D} {b : B}
    (hI : Inv E H h st) {c : Call K} (hc : c.OK) (hrev : ¬ Revisit c h) {rhs sol0 : Quad K X C D} {chk neg} {sol st' b'}
    (e : st.solve E H c rhs sol0 chk neg b = some (.success, sol, st', b')) :
    ∃ st1 b1, Good E H c st1 ∧ finish E H c rhs (if E.inertia then chk else false) neg st1 b1 = (.success, sol, st', b') := by
  unfold St.solve at e
  simp only at e
  generalize (if E.inertia then chk else false) = chk' at e ⊢
  generalize hst : (if st.first then { st with wdiag := some E.junk } else st) = st1 at e
  have f1 : st1.first = st.first := by rw [← hst]; split_ifs <;> rfl
  have t1 : st1.tags = st.tags := by rw [← hst]; split_ifs <;> rfl
  have s1 : st.first = false → st1 = st := by intro h; rw [← hst, h]; rfl
  rw [f1, t1] at e
  split_ifs at e with h1
  · cases hu : update E H c chk' neg st1 b with
    | none => rw [hu] at e; simp at e
    | some r =>
      rw [hu] at e
      simp only at e
      split_ifs at e with h2
      · simp only [Option.some.injEq, Prod.mk.injEq] at e; exact absurd e.1 h2
      · exact ⟨_, _, (good_congr (st := r.2.1) (st' := { r.2.1 with tags := c, first := false }) rfl rfl rfl rfl rfl
          (update_ok hE hu (not_not.1 h2))), Option.some.inj e⟩
  · have h1' : (st.first || requiresChange c st.tags) = false := by simpa using h1
    rw [Bool.or_eq_false_iff] at h1'
    have hf := h1'.1
    rw [s1 hf] at e
    obtain ⟨i1, _, i3⟩ := hI hf
    have hct := (requiresChange_false hc i1).1 h1'.2
    rw [← hct] at i3
    exact ⟨st, b, i3.resolve_right hrev, Option.some.inj e⟩

theorem finish_success {E : Env K X C D B} {H : Heap K X C D L} {c : Call K} {rhs chk neg} {st : St K X C D} {b : B} {sol st' b'}
    (e : finish E H c rhs chk neg st b = (.success, sol, st', b')) :
    (E.solve (innerSys H c (st.wdiag.getD E.junk) c.Wfac) 1 (fun _ => rhs) chk neg b).1 = .success ∧
      sol = correct E st rhs ((E.solve (innerSys H c (st.wdiag.getD E.junk) c.Wfac) 1 (fun _ => rhs) chk neg b).2.1 0) := by
  unfold finish at e
  simp only at e
  split_ifs at e with h1 h2
  · exact absurd (Prod.mk.inj e).1 h1
  · exact absurd (Prod.mk.inj e).1 h1
  · refine ⟨not_not.1 h1, ?_⟩
    have := (Prod.mk.inj (Prod.mk.inj e).2).1
    rw [← this]; rfl
  · refine ⟨not_not.1 h1, ?_⟩
    have := (Prod.mk.inj (Prod.mk.inj e).2).1
    rw [← this]
end Verif.LowRank
