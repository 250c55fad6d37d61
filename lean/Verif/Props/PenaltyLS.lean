import Verif.Model.PenaltyLS
import Verif.Proof.RestoInit
import Mathlib.Tactic.Linarith
import Mathlib.Tactic.Ring
import Mathlib.Tactic.FieldSimp
import Mathlib.Tactic.NormNum

/-! # C68: line search with the penalty function -/

namespace Verif.PenaltyLS
open Verif.RestoInit
open scoped BigOperators
set_option linter.unusedSectionVars false
set_option linter.unusedSimpArgs false
set_option linter.unusedVariables false

/-! ### Specification -/

section
variable {K : Type} [Field K] [LinearOrder K] {X C D : Type} [Fintype X] [Fintype C] [Fintype D]

/-- the penalty function. -/
def merit (nu barr theta : K) : K := barr + nu * theta

/-- `d_xᵀ(W + Σ_x + δ_x I)d_x + d_sᵀ(Σ_s + δ_s I)d_s`. -/
def quad (cur : Cur K X C D) : K :=
  ∑ i, ∑ j, cur.dx i * cur.W i j * cur.dx j + ∑ i, (cur.sigmaX i + cur.pertX) * cur.dx i ^ 2 + ∑ i, (cur.sigmaS i + cur.pertS) * cur.ds i ^ 2

/-- the step satisfies the linearized constraints. -/
def Linearized (cur : Cur K X C D) : Prop := (∀ i, cur.c i + cur.jacCdx i = 0) ∧ ∀ i, cur.dms i + cur.jacDdx i - cur.ds i = 0

/-- the square root is one. -/
def Cfg.SqrtOk (g : Cfg K) : Prop := ∀ a, 0 ≤ a → 0 ≤ g.sqrt a ∧ g.sqrt a * g.sqrt a = a

/-- the least penalty parameter for which the model of the penalty function decreases enough. -/
def least (g : Cfg K) (cur : Cur K X C D) : K := (cur.grad + max 0 (quad cur) / 2) / ((1 - g.rho) * cur.theta g)

end

variable {K : Type} [Field K] [LinearOrder K] [IsStrictOrderedRing K] {X C D : Type} [Fintype X] [Fintype C] [Fintype D]

theorem sqrt_unique {a b : K} (ha : 0 ≤ a) (hb : 0 ≤ b) (h : a * a = b * b) : a = b := by
  rcases mul_self_eq_mul_self_iff.1 h with h | h
  · exact h
  · linarith

theorem nrm2_sq {ι : Type} [Fintype ι] {g : Cfg K} (hs : g.SqrtOk) (v : ι → K) : nrm2 g.sqrt v * nrm2 g.sqrt v = ∑ i, v i * v i :=
  (hs _ (Finset.sum_nonneg fun i _ => mul_self_nonneg _)).2

theorem norm_two {g : Cfg K} (hs : g.SqrtOk) (c : C → K) (d : D → K) :
    calcNorm g.sqrt .two c d = g.sqrt (∑ i, c i * c i + ∑ i, d i * d i) := by
  show g.sqrt (nrm2 g.sqrt c ^ 2 + nrm2 g.sqrt d ^ 2) = _
  rw [pow_two, pow_two, nrm2_sq hs, nrm2_sq hs]

theorem amax_hom {ι : Type} [Fintype ι] (t : K) (ht : 0 ≤ t) (v : ι → K) : amax (fun i => t * v i) = t * amax v := by
  unfold amax
  generalize (Finset.univ : Finset ι) = s
  induction s using Finset.cons_induction with
  | empty => simp
  | cons a s ha ih =>
    rw [Finset.fold_cons, Finset.fold_cons, ih, abs_mul, abs_of_nonneg ht, mul_max_of_nonneg _ _ ht]

theorem norm_hom {g : Cfg K} (hs : g.SqrtOk) (n : NormType) (t : K) (ht : 0 ≤ t) (c : C → K) (d : D → K) :
    calcNorm g.sqrt n (fun i => t * c i) (fun i => t * d i) = t * calcNorm g.sqrt n c d := by
  cases n with
  | one => simp only [calcNorm, asum, abs_mul, abs_of_nonneg ht, ← Finset.mul_sum, mul_add]
  | two =>
    rw [norm_two hs, norm_two hs]
    have h0 : 0 ≤ ∑ i, c i * c i + ∑ i, d i * d i := add_nonneg (Finset.sum_nonneg fun i _ => mul_self_nonneg _) (Finset.sum_nonneg fun i _ => mul_self_nonneg _)
    have h1 : ∑ i, t * c i * (t * c i) + ∑ i, t * d i * (t * d i) = t * t * (∑ i, c i * c i + ∑ i, d i * d i) := by
      rw [mul_add, Finset.mul_sum, Finset.mul_sum]
      congr 1 <;> refine Finset.sum_congr rfl fun i _ => by ring
    rw [h1]
    have h2 : 0 ≤ t * t * (∑ i, c i * c i + ∑ i, d i * d i) := mul_nonneg (mul_self_nonneg t) h0
    refine sqrt_unique (hs _ h2).1 (mul_nonneg ht (hs _ h0).1) ?_
    rw [(hs _ h2).2, mul_mul_mul_comm, (hs _ h0).2]
  | max => simp only [calcNorm, amax_hom t ht, mul_max_of_nonneg _ _ ht]

theorem norm_nonneg {g : Cfg K} (hs : g.SqrtOk) (n : NormType) (c : C → K) (d : D → K) : 0 ≤ calcNorm g.sqrt n c d := by
  cases n with
  | one => exact add_nonneg (Finset.sum_nonneg fun i _ => abs_nonneg _) (Finset.sum_nonneg fun i _ => abs_nonneg _)
  | two =>
    rw [norm_two hs]
    exact (hs _ (add_nonneg (Finset.sum_nonneg fun i _ => mul_self_nonneg _) (Finset.sum_nonneg fun i _ => mul_self_nonneg _))).1
  | max => exact le_max_of_le_left (amax_spec c).1

theorem curvature_eq {g : Cfg K} (hs : g.SqrtOk) (cur : Cur K X C D) : curvature g.sqrt cur = quad cur := by
  have h1 : ∀ p : K, ∀ {ι : Type} [Fintype ι] (v : ι → K) (r : K), (if p ≠ 0 then r + p * nrm2 g.sqrt v * nrm2 g.sqrt v else r) = r + p * ∑ i, v i * v i := by
    intro p ι _ v r
    split
    · rw [mul_assoc, nrm2_sq hs]
    · rename_i h
      rw [not_not.1 h, zero_mul, add_zero]
  unfold curvature quad
  simp only [h1, dot]
  have e1 : ∑ i, (∑ j, cur.W i j * cur.dx j) * cur.dx i = ∑ i, ∑ j, cur.dx i * cur.W i j * cur.dx j :=
    Finset.sum_congr rfl fun i _ => by rw [Finset.sum_mul]; exact Finset.sum_congr rfl fun j _ => by ring
  have e2 : ∑ i, (cur.sigmaX i + cur.pertX) * cur.dx i ^ 2 = ∑ i, cur.dx i * cur.sigmaX i * cur.dx i + cur.pertX * ∑ i, cur.dx i * cur.dx i := by
    rw [Finset.mul_sum, ← Finset.sum_add_distrib]; exact Finset.sum_congr rfl fun i _ => by ring
  have e3 : ∑ i, (cur.sigmaS i + cur.pertS) * cur.ds i ^ 2 = ∑ i, cur.ds i * cur.sigmaS i * cur.ds i + cur.pertS * ∑ i, cur.ds i * cur.ds i := by
    rw [Finset.mul_sum, ← Finset.sum_add_distrib]; exact Finset.sum_congr rfl fun i _ => by ring
  rw [e1, e2, e3]; ring

theorem dwd_eq {g : Cfg K} (hs : g.SqrtOk) (cur : Cur K X C D) : (if curvature g.sqrt cur ≤ 0 then 0 else curvature g.sqrt cur) = max 0 (quad cur) := by
  rw [curvature_eq hs]
  split
  · rename_i h; rw [max_eq_left h]
  · rename_i h; rw [max_eq_right (not_le.1 h).le]

theorem theta_nonneg {g : Cfg K} (hs : g.SqrtOk) (cur : Cur K X C D) : 0 ≤ cur.theta g := norm_nonneg hs ..

theorem nu_eq {g : Cfg K} (hs : g.SqrtOk) (st : St K C D) (cur : Cur K X C D) :
    (st.init g false cur).nu = if 0 < cur.theta g ∧ st.nu < least g cur then least g cur + g.nuInc else st.nu := by
  show newNu g st.nu cur.grad _ (cur.theta g) = _
  rw [dwd_eq hs]
  unfold newNu
  change (if _ then (if st.nu < least g cur then least g cur + g.nuInc else st.nu) else st.nu) = _
  by_cases h : 0 < cur.theta g <;> by_cases h' : st.nu < least g cur <;> simp [h, h']

/-- The penalty parameter never decreases, is increased only if it is below the least sufficient one, and afterwards is sufficient: the slope of the barrier
function plus half the (nonnegative) curvature is at most `(1 − ρ) ν θ`. -/
theorem penalty_parameter (g : Cfg K) (hs : g.SqrtOk) (hr : g.rho < 1) (hi : 0 ≤ g.nuInc) (st : St K C D) (cur : Cur K X C D) :
    let st' := st.init g false cur
    st.nu ≤ st'.nu ∧ (0 < cur.theta g → cur.grad + max 0 (quad cur) / 2 ≤ (1 - g.rho) * st'.nu * cur.theta g) ∧
    (st'.nu ≠ st.nu → 0 < cur.theta g ∧ st.nu < least g cur ∧ st'.nu = least g cur + g.nuInc) ∧
    (st'.update.1 = true ↔ st'.nu ≠ st.nu) := by
  intro st'
  have hn : st'.nu = _ := nu_eq hs st cur
  have hle : 0 < cur.theta g → ∀ nu, least g cur ≤ nu → cur.grad + max 0 (quad cur) / 2 ≤ (1 - g.rho) * nu * cur.theta g := by
    intro ht nu h
    have hp : 0 < (1 - g.rho) * cur.theta g := mul_pos (by linarith) ht
    unfold least at h
    rw [div_le_iff₀ hp] at h
    linarith
  have hu : st'.update.1 = true ↔ st'.nu ≠ st.nu := by
    show decide (st.nu ≠ st'.nu) = true ↔ _
    rw [decide_eq_true_eq]; exact ne_comm
  rw [hu]
  by_cases h : 0 < cur.theta g ∧ st.nu < least g cur
  · rw [if_pos h] at hn
    refine ⟨by rw [hn]; linarith [h.2], fun ht => hle ht _ (by rw [hn]; linarith), fun _ => ⟨h.1, h.2, hn⟩, Iff.rfl⟩
  · rw [if_neg h] at hn
    refine ⟨hn.ge, fun ht => hle ht _ ?_, fun h' => absurd hn h', Iff.rfl⟩
    rw [hn]
    exact not_lt.1 fun h' => h ⟨ht, h'⟩

theorem rawPred_eq (g : Cfg K) (hs : g.SqrtOk) (st : St K C D) (cur : Cur K X C D) (hl : Linearized cur) (alpha : K) (h1 : alpha ≤ 1) :
    (st.init g false cur).rawPred g cur alpha =
      some (-alpha * cur.grad - alpha * alpha / 2 * max 0 (quad cur) + alpha * ((st.init g false cur).nu * cur.theta g)) := by
  have hc : (fun i => 1 * cur.c i + alpha * cur.jacCdx i) = fun i => (1 - alpha) * cur.c i := by
    funext i; have := hl.1 i; rw [show cur.jacCdx i = -cur.c i by linarith]; ring
  have hd : (fun i => 1 * cur.dms i + alpha * (1 * cur.jacDdx i + -1 * cur.ds i)) = fun i => (1 - alpha) * cur.dms i := by
    funext i; have := hl.2 i; rw [show 1 * cur.jacDdx i + -1 * cur.ds i = -cur.dms i by linarith]; ring
  have hq := dwd_eq hs cur
  show some (-alpha * cur.grad - alpha * alpha / 2 * (if curvature g.sqrt cur ≤ 0 then 0 else curvature g.sqrt cur) +
    (st.init g false cur).nu * (cur.theta g - calcNorm g.sqrt g.norm (fun i => 1 * cur.c i + alpha * cur.jacCdx i) (fun i => 1 * cur.dms i + alpha * (1 * cur.jacDdx i + -1 * cur.ds i)))) = _
  rw [hq, hc, hd, norm_hom hs g.norm _ (by linarith)]
  change some (_ + _ * (cur.theta g - (1 - alpha) * cur.theta g)) = _
  congr 1; ring

/-- The predicted reduction of a step of size `α ∈ [0,1]` along a direction satisfying the linearized constraints is at least `α ρ ν θ`; at a feasible point it
is at least `α/2` times the curvature if the slope of the barrier function is not larger than minus the curvature. -/
theorem penalty_prediction (g : Cfg K) (hs : g.SqrtOk) (hr : g.rho < 1) (hi : 0 ≤ g.nuInc) (st : St K C D) (cur : Cur K X C D)
    (hl : Linearized cur) (alpha : K) (h0 : 0 ≤ alpha) (h1 : alpha ≤ 1) :
    ∃ p, (st.init g false cur).calcPred g cur alpha = some p ∧ 0 ≤ p ∧ alpha * (g.rho * (st.init g false cur).nu * cur.theta g) ≤ p ∧
      (cur.grad ≤ -max 0 (quad cur) → 0 ≤ (st.init g false cur).nu → alpha / 2 * max 0 (quad cur) ≤ p) ∧
      p = max 0 (-alpha * cur.grad - alpha * alpha / 2 * max 0 (quad cur) + alpha * ((st.init g false cur).nu * cur.theta g)) := by
  have hp := rawPred_eq g hs st cur hl alpha h1
  have hpar := (penalty_parameter g hs hr hi st cur).2.1
  have ht := theta_nonneg hs cur
  have hq : (0 : K) ≤ max 0 (quad cur) := le_max_left _ _
  set nu := (st.init g false cur).nu
  set q := max 0 (quad cur)
  set t := cur.theta g
  have haa : alpha * alpha * q ≤ alpha * q := by
    have := mul_le_mul_of_nonneg_right (mul_le_mul_of_nonneg_left h1 h0) hq
    linarith
  refine ⟨max 0 (-alpha * cur.grad - alpha * alpha / 2 * q + alpha * (nu * t)), ?_, le_max_left _ _, ?_, ?_, rfl⟩
  · unfold St.calcPred
    rw [hp, Option.map_some]
    congr 1
    split
    · rename_i h; rw [max_eq_left h.le]
    · rename_i h; rw [max_eq_right (not_lt.1 h)]
  · rcases lt_or_eq_of_le ht with h | h
    · refine le_max_of_le_right ?_
      have h2 := mul_le_mul_of_nonneg_left (hpar h) h0
      nlinarith [h2, haa]
    · rw [← h, mul_zero, mul_zero]; exact le_max_left _ _
  · intro hg hn
    refine le_max_of_le_right ?_
    have h2 := mul_le_mul_of_nonneg_left hg h0
    have h3 := mul_nonneg h0 (mul_nonneg hn ht)
    nlinarith [h2, h3, haa]

/-- A trial point is accepted exactly if the penalty function is reduced by `eta_phi` times the predicted reduction, up to rounding. -/
theorem penalty_acceptance (g : Cfg K) (st : St K C D) (cur : Cur K X C D) (alpha theta barr : K) :
    let st' := st.init g false cur
    ∃ p st'', st'.calcPred g cur alpha = some p ∧ st'.check g cur alpha theta barr = some (decide
      (merit st'.nu barr theta ≤ merit st'.nu cur.barr (cur.theta g) - g.eta * p + 10 * g.eps * |merit st'.nu cur.barr (cur.theta g)|), st'') ∧
      st''.nu = st'.nu ∧ st''.restoPred = p := by
  intro st'
  have hc : ∃ p, st'.calcPred g cur alpha = some p := ⟨_, rfl⟩
  obtain ⟨p, hp⟩ := hc
  refine ⟨p, { st' with restoPred := p }, hp, ?_, rfl, rfl⟩
  unfold St.check
  rw [if_pos (show st'.refPred < 0 from by show (-1 : K) < 0; norm_num), hp, Option.map_some]
  congr 1
  refine Prod.ext ?_ rfl
  unfold compareLe St.ared merit
  have e1 : st'.refBarr = cur.barr := rfl
  have e2 : st'.refTheta = cur.theta g := rfl
  rw [e1, e2]
  refine decide_eq_decide.2 ?_
  constructor <;> intro h <;> linarith

/-- Every accepted step of size `α ∈ [0,1]` along a direction satisfying the linearized constraints reduces the penalty function by `η α ρ ν θ`, up to rounding. -/
theorem penalty_descent (g : Cfg K) (hs : g.SqrtOk) (hr : g.rho < 1) (hi : 0 ≤ g.nuInc) (he : 0 ≤ g.eta) (st : St K C D) (cur : Cur K X C D)
    (hl : Linearized cur) (alpha : K) (h0 : 0 ≤ alpha) (h1 : alpha ≤ 1) (theta barr : K) (st'' : St K C D)
    (h : (st.init g false cur).check g cur alpha theta barr = some (true, st'')) :
    let nu := (st.init g false cur).nu
    merit nu barr theta ≤ merit nu cur.barr (cur.theta g) - g.eta * alpha * (g.rho * nu * cur.theta g) + 10 * g.eps * |merit nu cur.barr (cur.theta g)| := by
  intro nu
  obtain ⟨p, s, hp, hcheck, _, _⟩ := penalty_acceptance g st cur alpha theta barr
  obtain ⟨p', hp', _, hb, _⟩ := penalty_prediction g hs hr hi st cur hl alpha h0 h1
  obtain rfl : p = p' := Option.some.inj (hp.symm.trans hp')
  rw [hcheck] at h
  have h' := congr_arg Prod.fst (Option.some.inj h)
  simp only [decide_eq_true_eq] at h'
  have := mul_le_mul_of_nonneg_left hb he
  have e : g.eta * alpha * (g.rho * nu * cur.theta g) = g.eta * (alpha * (g.rho * nu * cur.theta g)) := by ring
  rw [e]
  linarith

/-- The line search finds a step: if the penalty function at `α` differs from its model by at most `κ α²`, every step with `κ α ≤ (1 − η) ρ ν θ` is accepted. -/
theorem penalty_finds_step (g : Cfg K) (hs : g.SqrtOk) (hr : g.rho < 1) (hi : 0 ≤ g.nuInc) (he : g.eta ≤ 1) (hep : 0 ≤ g.eps) (st : St K C D) (cur : Cur K X C D)
    (hl : Linearized cur) (alpha : K) (h0 : 0 ≤ alpha) (h1 : alpha ≤ 1) (kappa theta barr : K) :
    let nu := (st.init g false cur).nu
    merit nu barr theta ≤ merit nu cur.barr (cur.theta g) + alpha * cur.grad + alpha ^ 2 / 2 * max 0 (quad cur) - alpha * (nu * cur.theta g) + kappa * alpha ^ 2 →
    kappa * alpha ≤ (1 - g.eta) * (g.rho * nu * cur.theta g) → 0 < cur.theta g → 0 ≤ nu → 0 ≤ g.rho →
    ∃ st'', (st.init g false cur).check g cur alpha theta barr = some (true, st'') := by
  intro nu hm hk ht hnu hrho
  obtain ⟨p, s, hp, hcheck, _, _⟩ := penalty_acceptance g st cur alpha theta barr
  obtain ⟨p', hp', _, hb, _, hpe⟩ := penalty_prediction g hs hr hi st cur hl alpha h0 h1
  obtain rfl : p = p' := Option.some.inj (hp.symm.trans hp')
  refine ⟨s, ?_⟩
  rw [hcheck]
  congr 1
  refine Prod.ext ?_ rfl
  refine decide_eq_true ?_
  have ha : 0 ≤ 10 * g.eps * |merit nu cur.barr (cur.theta g)| := mul_nonneg (mul_nonneg (by norm_num) hep) (abs_nonneg _)
  have hpr : p = -alpha * cur.grad - alpha * alpha / 2 * max 0 (quad cur) + alpha * (nu * cur.theta g) := by
    rw [hpe]
    refine max_eq_right ?_
    by_contra hneg
    push Not at hneg
    rw [max_eq_left hneg.le] at hpe
    rw [hpe] at hb
    have h3 := (penalty_parameter g hs hr hi st cur).2.1 ht
    have h2 := mul_le_mul_of_nonneg_left h3 h0
    have hq : (0 : K) ≤ max 0 (quad cur) := le_max_left _ _
    have haa : alpha * alpha * max 0 (quad cur) ≤ alpha * max 0 (quad cur) := by
      have := mul_le_mul_of_nonneg_right (mul_le_mul_of_nonneg_left h1 h0) hq
      linarith
    have h4 : 0 ≤ alpha * (g.rho * nu * cur.theta g) := mul_nonneg h0 (mul_nonneg (mul_nonneg hrho hnu) ht.le)
    change alpha * (cur.grad + max 0 (quad cur) / 2) ≤ alpha * ((1 - g.rho) * nu * cur.theta g) at h2
    nlinarith [h2, haa, h4]
  change merit nu barr theta ≤ merit nu cur.barr (cur.theta g) - g.eta * p + _
  have h5 : (1 - g.eta) * (alpha * (g.rho * nu * cur.theta g)) ≤ (1 - g.eta) * p := mul_le_mul_of_nonneg_left hb (by linarith)
  have h6 := mul_le_mul_of_nonneg_left hk h0
  nlinarith [h5, h6, hm, hpr]

/-- the number of increases of the penalty parameter in a history since its last reset, starting with `n`. -/
def increases (g : Cfg K) (st : St K C D) (n : Nat) : List (Op K X C D) → Nat
  | [] => n
  | o :: l =>
    match st.op g o with
    | none => n
    | some st' =>
      let n' := match o with
        | .reset => 0
        | _ => if st'.nu ≠ st.nu then n + 1 else n
      increases g st' n' l

theorem check_nu {g : Cfg K} {st st' : St K C D} {cur : Cur K X C D} {a t b : K} {r : Bool} (h : st.check g cur a t b = some (r, st')) : st'.nu = st.nu := by
  unfold St.check at h
  rw [Option.map_eq_some_iff] at h
  obtain ⟨p, _, h⟩ := h
  have := congr_arg (fun r => r.2.nu) h
  exact this.symm

/-- If the least sufficient penalty parameters stay below `B`, the penalty parameter stays below `max(nu_init, B + nu_inc)` and is increased only finitely often between
two resets: `k` increases need `k·nu_inc ≤ B + nu_inc − nu_init`. -/
theorem penalty_bounded (g : Cfg K) (hs : g.SqrtOk) (hi : 0 ≤ g.nuInc) (B : K) (l : List (Op K X C D)) (hB : ∀ cur, Op.init cur ∈ l → least g cur ≤ B)
    (st0 st : St K C D) (h : (st0.reset g).run g l = some st) :
    g.nuInit ≤ st.nu ∧ st.nu ≤ max g.nuInit (B + g.nuInc) ∧ g.nuInit + (increases g (st0.reset g) 0 l : K) * g.nuInc ≤ st.nu := by
  suffices H : ∀ (l : List (Op K X C D)), (∀ cur, Op.init cur ∈ l → least g cur ≤ B) → ∀ (s : St K C D) (n : Nat), s.nu ≤ max g.nuInit (B + g.nuInc) →
      g.nuInit + (n : K) * g.nuInc ≤ s.nu → s.run g l = some st →
      st.nu ≤ max g.nuInit (B + g.nuInc) ∧ g.nuInit + (increases g s n l : K) * g.nuInc ≤ st.nu by
    obtain ⟨h1, h2⟩ := H l hB (st0.reset g) 0 (le_max_left _ _) (by rw [Nat.cast_zero, zero_mul, add_zero]; exact le_refl _) h
    exact ⟨le_trans (le_add_of_nonneg_right (mul_nonneg (Nat.cast_nonneg _) hi)) h2, h1, h2⟩
  intro l
  induction l with
  | nil =>
    intro _ s n h1 h2 hrun
    obtain rfl := Option.some.inj hrun
    exact ⟨h1, h2⟩
  | cons o l ih =>
    intro hB s n h1 h2 hrun
    have hB' : ∀ cur, Op.init cur ∈ l → least g cur ≤ B := fun cur hc => hB cur (List.mem_cons_of_mem _ hc)
    unfold St.run at hrun
    rw [Option.bind_eq_some_iff] at hrun
    obtain ⟨s', hs', hrun⟩ := hrun
    unfold increases
    rw [hs']
    simp only []
    cases o with
    | reset =>
      obtain rfl := Option.some.inj hs'
      exact ih hB' _ 0 (le_max_left _ _) (by rw [Nat.cast_zero, zero_mul, add_zero]; exact le_refl _) hrun
    | update =>
      obtain rfl := Option.some.inj hs'
      simp only []
      rw [if_neg (not_not.2 (show s.update.2.nu = s.nu from rfl))]
      exact ih hB' _ n h1 h2 hrun
    | check cur a t b =>
      unfold St.op at hs'
      rw [Option.map_eq_some_iff] at hs'
      obtain ⟨⟨r, s''⟩, hc, rfl⟩ := hs'
      have := check_nu hc
      simp only []
      rw [if_neg (not_not.2 this)]
      exact ih hB' _ n (by rw [this]; exact h1) (by rw [this]; exact h2) hrun
    | init cur =>
      obtain rfl := Option.some.inj hs'
      have hn := nu_eq hs s cur
      have hb := hB cur List.mem_cons_self
      simp only []
      by_cases h : 0 < cur.theta g ∧ s.nu < least g cur
      · rw [if_pos h] at hn
        rw [if_pos (by rw [hn]; intro h'; linarith [h.2])]
        refine ih hB' _ (n + 1) (by rw [hn]; exact le_max_of_le_right (by linarith)) ?_ hrun
        rw [hn]; push_cast; linarith [h.2]
      · rw [if_neg h] at hn
        rw [if_neg (not_not.2 hn)]
        exact ih hB' _ n (by rw [hn]; exact h1) (by rw [hn]; exact h2) hrun

/-- The test of the restoration phase is made with the prediction of the last step tried in the line search: it accepts exactly if the penalty function is reduced by
`eta_phi` times that prediction, up to rounding — in particular never if the penalty function increases by more than rounding.  If no step was tried
(restoration phase started without a line search) it aborts. -/
theorem penalty_resto (g : Cfg K) (he : 0 ≤ g.eta) (st : St K C D) (cur : Cur K X C D) (theta barr : K) :
    (st.init g false cur).restoCheck g barr theta = none ∧
    ∀ alpha t b r st', (st.init g false cur).check g cur alpha t b = some (r, st') →
      ∃ p, (st.init g false cur).calcPred g cur alpha = some p ∧ 0 ≤ p ∧ st'.restoCheck g barr theta = some (decide
        (merit st'.nu barr theta ≤ merit st'.nu cur.barr (cur.theta g) - g.eta * p + 10 * g.eps * |merit st'.nu cur.barr (cur.theta g)|)) ∧
      (st'.restoCheck g barr theta = some true → merit st'.nu barr theta ≤ merit st'.nu cur.barr (cur.theta g) + 10 * g.eps * |merit st'.nu cur.barr (cur.theta g)|) := by
  refine ⟨if_neg (by show ¬ (0 : K) ≤ -1; norm_num), ?_⟩
  intro alpha t b r st' h
  have hc : ∃ p, (st.init g false cur).calcPred g cur alpha = some p := ⟨_, rfl⟩
  obtain ⟨p, hp⟩ := hc
  have hp0 : 0 ≤ p := by
    unfold St.calcPred at hp
    rw [Option.map_eq_some_iff] at hp
    obtain ⟨q, _, rfl⟩ := hp
    split
    · exact le_refl _
    · rename_i h; exact not_lt.1 h
  have hst : st' = { st.init g false cur with restoPred := p } := by
    unfold St.check at h
    rw [if_pos (show (st.init g false cur).refPred < 0 from by show (-1 : K) < 0; norm_num), hp, Option.map_some] at h
    exact (congr_arg Prod.snd (Option.some.inj h)).symm
  have hr : st'.restoCheck g barr theta = some (decide
        (merit st'.nu barr theta ≤ merit st'.nu cur.barr (cur.theta g) - g.eta * p + 10 * g.eps * |merit st'.nu cur.barr (cur.theta g)|)) := by
    rw [hst]
    unfold St.restoCheck
    refine (if_pos (show (0 : K) ≤ p from hp0)).trans ?_
    congr 1
    unfold compareLe St.ared merit
    refine decide_eq_decide.2 ?_
    show g.eta * p - (cur.barr + (st.init g false cur).nu * cur.theta g - (barr + (st.init g false cur).nu * theta)) ≤ 10 * g.eps * |cur.barr + (st.init g false cur).nu * cur.theta g| ↔ _
    constructor <;> intro h <;> linarith
  refine ⟨p, hp, hp0, hr, fun ht => ?_⟩
  rw [hr] at ht
  have := of_decide_eq_true (Option.some.inj ht)
  have := mul_nonneg he hp0
  linarith

/-! ### The hypotheses are met -/

/-- options: 1-norm (the square root is not used). -/
def exCfg : Cfg ℚ := ⟨1, 1 / 2, 1 / 10000, 1 / 10, .one, 0, fun x => x⟩

/-- one variable, one equality constraint with value 2, the step −2 satisfies the linearization. -/
def exCur : Cur ℚ (Fin 1) (Fin 1) (Fin 1) :=
  ⟨5, 9, fun _ => 2, fun _ => 0, fun _ _ => 1, fun _ => 0, fun _ => 0, 0, 0, fun _ => -2, fun _ => -2, fun _ => -2, fun _ => -2⟩

/-- a state. -/
def exSt : St ℚ (Fin 1) (Fin 1) := ⟨1, 1, 0, 0, 0, 0, 0, 0, none, none, 0, 0, 0⟩

/-- the penalty parameter is increased from 1 to (9+4/2)/((9/10)·2) + 1/2; a step of size 1 to a point with `θ = 1` is accepted, one with `θ = 2` and barrier value 7 not; the
restoration phase accepts a better point. -/
example : Linearized exCur ∧ (exSt.init exCfg false exCur).nu = 11 / (9 / 5) + 1 / 2 ∧
    ((exSt.init exCfg false exCur).check exCfg exCur 1 1 5).map (·.1) = some true ∧
    ((exSt.init exCfg false exCur).check exCfg exCur 1 2 7).map (·.1) = some false ∧
    (((exSt.init exCfg false exCur).check exCfg exCur 1 2 7).bind fun r => r.2.restoCheck exCfg 4 1) = some true ∧
    increases exCfg (exSt.reset exCfg) 0 [.init exCur, .check exCur 1 1 5, .update, .init exCur] = 1 ∧
    (((exSt.reset exCfg).run exCfg [.init exCur, .check exCur 1 1 5, .update, .init exCur]).map (·.nu)) = some (11 / (9 / 5) + 1 / 2) := by
  unfold Linearized
  decide +kernel

/-- the real square root satisfies the hypothesis. -/
example (n : NormType) : (⟨1, 1 / 2, 1 / 10000, 1 / 10, n, 0, Real.sqrt⟩ : Cfg ℝ).SqrtOk := fun a ha => ⟨Real.sqrt_nonneg a, Real.mul_self_sqrt ha⟩

end Verif.PenaltyLS
