import Verif.Proof.Reducer2

/-! # C38: the reduced problem -/

namespace Verif.Reducer

set_option linter.unusedSectionVars false
set_option linter.unusedVariables false

/-- the reducer after a successful `get_nlp_info` on a freshly constructed one. -/
def Ready {N : Type} (p : Inner N) (g xL xU xF : List Int) (r : Red) : Prop :=
  ∃ junk junk' a, getNlpInfo junk p (create g xL xU xF junk') = (r, some a)

section
variable {N : Type}

theorem ready_inv (p : Inner N) (g xL xU xF : List Int) (r : Red) (h : Ready p g xL xU xF r) :
    r.mOrig = p.m ∧ r.style = p.style ∧ r.nXFix = xF.length ∧ r.nXL = xL.length ∧ r.nXU = xU.length ∧
      r.xLSkip = sk0 p.style.off xL ++ [-1] ∧ r.xUSkip = sk0 p.style.off xU ++ [-1] ∧ r.xFix = sk0 p.style.off xF ++ [-1] ∧
      r.keep = some (keepMap (sk0 p.style.off g ++ [-1]) p.m).1 ∧ r.mRed = (keepMap (sk0 p.style.off g ++ [-1]) p.m).2 := by
  obtain ⟨junk, junk', a, h⟩ := h
  unfold getNlpInfo create at h
  simp only [decr_mkSkip] at h
  split at h
  · cases h
  · split at h
    · cases h
    · cases h
      exact ⟨rfl, rfl, rfl, rfl, rfl, rfl, rfl, rfl, rfl, rfl⟩

theorem ready_keep (p : Inner N) (g xL xU xF : List Int) (hg : IdxOK p.style.off p.m g) (r : Red) (h : Ready p g xL xU xF r) :
    r.keep.getD [] = (List.range p.m).map (keepAt (sk0 p.style.off g)) ∧ r.mRed = (kept p.style.off p.m g).length := by
  obtain ⟨-, -, -, -, -, -, -, -, h1, h2⟩ := ready_inv p g xL xU xF r h
  have hp : ∀ a ∈ sk0 p.style.off g, 0 ≤ a := fun a ha => by
    have := (hg.2 _ ((sk0_mem _ _ _).1 ha)).1; omega
  rw [h1, h2, keepMap_eq _ (sk0_sorted _ _ hg.1) hp, kept_eq]
  exact ⟨rfl, rfl⟩

/-- C38: the reduced problem has the same variables, exactly the constraints that are not excluded, and the same Hessian size; in C style
the announced number of Jacobian entries is that of the entries in kept rows. -/
theorem reduced_info (junk : Int) (junk' : Nat) (p : Inner N) (hp : InnerOK p) (g xL xU xF : List Int) (hg : IdxOK p.style.off p.m g)
    (hi : p.infoOk = true) (rows : List (Int × Int)) (hr : p.jacStruct = some rows) :
    ∃ r nnz, getNlpInfo junk p (create g xL xU xF junk') = (r, some (p.n, (kept p.style.off p.m g).length, nnz, p.nnzH, p.style)) ∧
      (p.style = .c → nnz = (rows.filter (fun e => decide (e.1 ∉ g))).length) := by
  have hpos : ∀ a ∈ sk0 p.style.off g, 0 ≤ a := fun a ha => by
    have := (hg.2 _ ((sk0_mem _ _ _).1 ha)).1; omega
  unfold getNlpInfo create
  simp only [hi, Bool.not_true, Bool.false_eq_true, if_false, hr, decr_mkSkip]
  rw [keepMap_eq _ (sk0_sorted _ _ hg.1) hpos]
  refine ⟨_, _, by rw [kept_eq], fun hc => ?_⟩
  unfold countKept
  congr 1
  apply List.filter_congr
  intro e he
  obtain ⟨h1, h2⟩ := (hp.rows rows hr).2 e he
  rw [hc] at h1 h2 ⊢
  simp only [Style.off] at h1 h2 ⊢
  have e1 : rd junk ((List.range p.m).map (keepAt (sk0 0 g))) e.1 = keepAt (sk0 0 g) (e.1 - 0).toNat := by
    have := rd_row 0 (sk0 0 g) p.m e h1 h2 junk
    rwa [show e.1 - 0 = e.1 by omega] at this ⊢
  rw [e1]
  have e2 := keepAt_row 0 (sk0 0 g) e h1
  have e3 : inKept 0 (sk0 0 g) e = decide (e.1 ∉ g) := by
    unfold inKept
    refine decide_eq_decide.2 (not_congr ?_)
    rw [sk0_mem]; simp
  rw [e3] at e2
  by_cases h : e.1 ∉ g
  · have := e2.2 (by simpa using h)
    simp only [h, not_false_eq_true, decide_true, bne_iff_ne, ne_eq]
    omega
  · have h3 : keepAt (sk0 0 g) (e.1 - 0).toNat = -1 := by
      unfold keepAt
      rw [if_pos]
      rw [sk0_mem]
      have : (((e.1 - 0).toNat : Int) + 0) = e.1 := by omega
      rw [this]; simpa using h
    rw [h3]
    simp [h]

/-- C38: asking again changes neither the numbering nor the answer. -/
theorem info_again (junk junk1 : Int) (junk' : Nat) (p : Inner N) (g xL xU xF : List Int) (r : Red) (a : Nat × Nat × Nat × Nat × Style)
    (h : getNlpInfo junk p (create g xL xU xF junk') = (r, some a)) : getNlpInfo junk1 p r = (r, some a) := by
  unfold getNlpInfo create at h
  simp only at h
  split at h
  · cases h
  · next hi =>
    split at h
    · cases h
    · cases h
      unfold getNlpInfo
      simp only [hi, if_false, Bool.false_eq_true]

section
variable [Zero N]

/-- C38: constraint values of the reduced problem. -/
theorem reduced_eval_g (p : Inner N) (g xL xU xF : List Int) (hg : IdxOK p.style.off p.m g) (r : Red) (h : Ready p g xL xU xF r)
    (x g0 : List N) (hl : g0.length = r.mRed) :
    (p.evalG x = none ∧ evalG p r x g0 = none) ∨
    ∃ v v', p.evalG x = some v ∧ evalG p r x g0 = some v' ∧ IsRestr 0 (kept p.style.off p.m g) v v' := by
  obtain ⟨h1, h2⟩ := ready_keep p g xL xU xF hg r h
  have hm := (ready_inv p g xL xU xF r h).1
  unfold evalG
  cases hv : p.evalG x with
  | none => exact Or.inl ⟨rfl, rfl⟩
  | some v =>
    refine Or.inr ⟨v, _, rfl, rfl, ?_⟩
    beta_reduce
    rw [h1, hm, scatter_eq _ _ _ _ _ (by rw [hl, h2, kept_eq])]
    unfold IsRestr
    rw [kept_eq]

/-- C38: initial multipliers, constraint scaling and linearity of the reduced problem; x, z_L, z_U, objective and variable scaling are passed
on. -/
theorem reduced_start_scaling_linearity (p : Inner N) (g xL xU xF : List Int) (hg : IdxOK p.style.off p.m g) (r : Red)
    (h : Ready p g xL xU xF r) (o : List N) (hl : o.length = r.mRed) (ob : List Bool) (hlb : ob.length = r.mRed) :
    (∀ x zL zU l, p.start = some (x, zL, zU, l) → ∃ l', getStart p r o = some (x, zL, zU, l') ∧ IsRestr 0 (kept p.style.off p.m g) l l') ∧
    (∀ f xs gs, p.scaling = some (f, xs, some gs) → ∃ gs', getScaling p r o = some (f, xs, some gs') ∧
      IsRestr 0 (kept p.style.off p.m g) gs gs') ∧
    (∀ f xs, p.scaling = some (f, xs, none) → getScaling p r o = some (f, xs, none)) ∧
    (∀ t, p.conLin = some t → ∃ t', getConLin p r ob = some t' ∧ IsRestr false (kept p.style.off p.m g) t t') := by
  obtain ⟨h1, h2⟩ := ready_keep p g xL xU xF hg r h
  have hm := (ready_inv p g xL xU xF r h).1
  have hk := kept_eq p.style.off p.m g
  refine ⟨fun x zL zU l hs => ?_, fun f xs gs hs => ?_, fun f xs hs => ?_, fun t hs => ?_⟩
  · refine ⟨_, by unfold getStart; rw [hs]; rfl, ?_⟩
    beta_reduce
    rw [h1, hm, scatter_eq _ _ _ _ _ (by rw [hl, h2, kept_eq])]
    unfold IsRestr; rw [hk]
  · refine ⟨_, by unfold getScaling; rw [hs]; rfl, ?_⟩
    beta_reduce
    rw [h1, hm, scatter_eq _ _ _ _ _ (by rw [hl, h2, kept_eq])]
    unfold IsRestr; rw [hk]
  · unfold getScaling; rw [hs]; rfl
  · refine ⟨_, by unfold getConLin; rw [hs]; rfl, ?_⟩
    beta_reduce
    rw [h1, hm, scatter_eq _ _ _ _ _ (by rw [hlb, h2, kept_eq])]
    unfold IsRestr; rw [hk]

/-- C38: bounds of the reduced problem: constraints are restricted; variables to be fixed get the starting point as both bounds, of the
others the chosen lower and upper bounds are removed, everything else is unchanged. -/
theorem reduced_bounds [Neg N] (huge : N) (p : Inner N) (hp : InnerOK p) (g xL xU xF : List Int) (hg : IdxOK p.style.off p.m g)
    (hL : IdxOK p.style.off p.n xL) (hU : IdxOK p.style.off p.n xU) (hF : IdxOK p.style.off p.n xF) (r : Red) (h : Ready p g xL xU xF r)
    (gl0 gu0 : List N) (hl0 : gl0.length = r.mRed) (hu0 : gu0.length = r.mRed) (xl xu gl gu : List N) (hb : p.bounds = some (xl, xu, gl, gu))
    (xs zL zU lam : List N) (hs : p.start = some (xs, zL, zU, lam)) :
    ∃ xl' xu' gl' gu', getBounds huge p r gl0 gu0 = some (xl', xu', gl', gu') ∧ xl'.length = p.n ∧ xu'.length = p.n ∧
      IsRestr 0 (kept p.style.off p.m g) gl gl' ∧ IsRestr 0 (kept p.style.off p.m g) gu gu' ∧
      (∀ i, i < p.n → xl'.getD i 0 = if (i : Int) + p.style.off ∈ xF then xs.getD i 0
        else if (i : Int) + p.style.off ∈ xL then -huge else xl.getD i 0) ∧
      (∀ i, i < p.n → xu'.getD i 0 = if (i : Int) + p.style.off ∈ xF then xs.getD i 0
        else if (i : Int) + p.style.off ∈ xU then huge else xu.getD i 0) := by
  obtain ⟨h1, h2⟩ := ready_keep p g xL xU xF hg r h
  obtain ⟨hm, -, n1, n2, n3, s1, s2, s3, -, -⟩ := ready_inv p g xL xU xF r h
  obtain ⟨bl, bu⟩ := hp.bounds _ _ _ _ hb
  have hk := kept_eq p.style.off p.m g
  have hpos : ∀ l, IdxOK p.style.off p.n l → ∀ a ∈ sk0 p.style.off l, 0 ≤ a := fun l hl a ha => by
    have := (hl.2 _ ((sk0_mem _ _ _).1 ha)).1; omega
  have g1 : IsRestr 0 (kept p.style.off p.m g) gl (scatter 0 (r.keep.getD []) r.mOrig gl gl0) := by
    rw [h1, hm, scatter_eq _ _ _ _ _ (by rw [hl0, h2, kept_eq])]
    unfold IsRestr; rw [hk]
  have g2 : IsRestr 0 (kept p.style.off p.m g) gu (scatter 0 (r.keep.getD []) r.mOrig gu gu0) := by
    rw [h1, hm, scatter_eq _ _ _ _ _ (by rw [hu0, h2, kept_eq])]
    unfold IsRestr; rw [hk]
  unfold getBounds
  simp only [hb]
  by_cases hc : (decide (r.nXFix > 0) || decide (r.nXL > 0) || decide (r.nXU > 0)) = true
  · rw [if_pos hc]
    have main : ∀ ys : List N, (xF ≠ [] → ys = xs) → ∃ xl' xu' gl' gu',
        some (((List.range p.n).foldl (boundStep huge r ys) (xl, xu, 0, 0, 0)).1, ((List.range p.n).foldl (boundStep huge r ys) (xl, xu, 0, 0, 0)).2.1,
          scatter 0 (r.keep.getD []) r.mOrig gl gl0, scatter 0 (r.keep.getD []) r.mOrig gu gu0) = some (xl', xu', gl', gu') ∧
        xl'.length = p.n ∧ xu'.length = p.n ∧
        IsRestr 0 (kept p.style.off p.m g) gl gl' ∧ IsRestr 0 (kept p.style.off p.m g) gu gu' ∧
        (∀ i, i < p.n → xl'.getD i 0 = if (i : Int) + p.style.off ∈ xF then xs.getD i 0
          else if (i : Int) + p.style.off ∈ xL then -huge else xl.getD i 0) ∧
        (∀ i, i < p.n → xu'.getD i 0 = if (i : Int) + p.style.off ∈ xF then xs.getD i 0
          else if (i : Int) + p.style.off ∈ xU then huge else xu.getD i 0) := by
      intro ys hys
      obtain ⟨a, b, e1, e2, e3, e4, e5⟩ := bound_fold huge r ys xl xu _ _ _ s1 s2 s3 (sk0_sorted _ _ hL.1) (sk0_sorted _ _ hU.1)
        (sk0_sorted _ _ hF.1) (hpos _ hL) (hpos _ hU) (hpos _ hF) p.n bl bu p.n (le_refl _)
      rw [e1]
      refine ⟨_, _, _, _, rfl, e2, e3, g1, g2, fun i hi => ?_, fun i hi => ?_⟩
      · rw [e4 i, if_pos hi]
        unfold xlSpec
        simp only [sk0_mem]
        by_cases hf : (i : Int) + p.style.off ∈ xF
        · rw [if_pos hf, if_pos hf, hys (List.ne_nil_of_mem hf)]
        · rw [if_neg hf, if_neg hf]
      · rw [e5 i, if_pos hi]
        unfold xuSpec
        simp only [sk0_mem]
        by_cases hf : (i : Int) + p.style.off ∈ xF
        · rw [if_pos hf, if_pos hf, hys (List.ne_nil_of_mem hf)]
        · rw [if_neg hf, if_neg hf]
    by_cases hx : r.nXFix > 0
    · rw [if_pos hx, hs]
      exact main xs (fun _ => rfl)
    · rw [if_neg hx]
      exact main [] (fun hne => absurd (List.length_pos_iff.2 hne) (by rw [n1] at hx; exact hx))
  · rw [if_neg hc]
    simp only [Bool.or_eq_true, decide_eq_true_eq, not_or, not_lt] at hc
    have e1 : xF = [] := List.length_eq_zero_iff.1 (by omega)
    have e2 : xL = [] := List.length_eq_zero_iff.1 (by omega)
    have e3 : xU = [] := List.length_eq_zero_iff.1 (by omega)
    subst e1; subst e2; subst e3
    exact ⟨_, _, _, _, rfl, bl, bu, g1, g2, by simp, by simp⟩

/-- C38: the multipliers handed to the wrapped problem's Hessian evaluation: those of the reduced problem for the kept constraints, 0 for
the excluded ones. -/
theorem reduced_hessian (p : Inner N) (g xL xU xF : List Int) (hg : IdxOK p.style.off p.m g) (r : Red) (h : Ready p g xL xU xF r)
    (x : List N) (σ : N) (lam : List N) :
    ∃ full, evalH p r x σ lam = p.evalH x σ full ∧ IsExt (kept p.style.off p.m g) p.m lam full := by
  obtain ⟨h1, h2⟩ := ready_keep p g xL xU xF hg r h
  have hm := (ready_inv p g xL xU xF r h).1
  refine ⟨_, rfl, ?_⟩
  rw [h1, hm, kept_eq]
  exact gather_ext _ _ _

/-- C38: the user's `finalize_solution` receives the solution in the original numbering: the same x, z_L, z_U, objective and status, the
multipliers extended by 0, and the values of all constraints at x (if they can be evaluated). -/
theorem solution_in_original_numbering (p : Inner N) (g xL xU xF : List Int) (hg : IdxOK p.style.off p.m g) (r : Red) (h : Ready p g xL xU xF r)
    (gj : List N) (st : Nat) (x zL zU lam : List N) (obj : N) :
    let f := finalize p r gj st x zL zU lam obj
    f.status = st ∧ f.x = x ∧ f.zL = zL ∧ f.zU = zU ∧ f.obj = obj ∧ IsExt (kept p.style.off p.m g) p.m lam f.lam ∧
      ∀ v, p.evalG x = some v → f.g = v := by
  obtain ⟨h1, h2⟩ := ready_keep p g xL xU xF hg r h
  have hm := (ready_inv p g xL xU xF r h).1
  refine ⟨rfl, rfl, rfl, rfl, rfl, ?_, ?_⟩
  · simp only [finalize]
    rw [h1, hm, kept_eq]
    exact gather_ext _ _ _
  · intro v hv
    simp [finalize, hv]

end

/-- C38: the Jacobian of the reduced problem: the entry (j, col) is that of the j-th kept constraint; in C style as many entries are
written as `get_nlp_info` announced, and always as many values as index pairs. -/
theorem reduced_jacobian [AddMonoid N] (p : Inner N) (hp : InnerOK p) (g xL xU xF : List Int) (hg : IdxOK p.style.off p.m g) (r : Red)
    (h : Ready p g xL xU xF r) (rows : List (Int × Int)) (hr : p.jacStruct = some rows) (x : List N) (v : List N) (hv : p.jacVals x = some v) :
    ∃ r' idx vals, jacStruct p r = (r', some idx) ∧ jacVals p r' x = some vals ∧ idx.length = vals.length ∧
      idx.length = (rows.filter (fun e => decide (e.1 ∉ g))).length ∧
      (∀ (j i : Nat) (col : Int), (kept p.style.off p.m g)[j]? = some i →
        trip idx vals ((j : Int) + p.style.off) col = trip rows v ((i : Int) + p.style.off) col) ∧
      ∀ e ∈ idx, p.style.off ≤ e.1 ∧ e.1 < p.style.off + (kept p.style.off p.m g).length := by
  obtain ⟨h1, h2⟩ := ready_keep p g xL xU xF hg r h
  have hst := (ready_inv p g xL xU xF r h).2.1
  obtain ⟨hrl, hrr⟩ := hp.rows rows hr
  have hvl : v.length = rows.length := (hp.vals x v hv).trans hrl.symm
  have hf := jacStruct_fold p.style.off (sk0 p.style.off g) p.m rows hrr
  have hsp : ∀ a ∈ skPos p.style.off (sk0 p.style.off g) rows, 0 ≤ a := by
    intro a ha
    unfold skPos at ha
    rw [List.mem_map] at ha
    obtain ⟨k, -, rfl⟩ := ha
    omega
  have hin : ∀ e : Int × Int, inKept p.style.off (sk0 p.style.off g) e = decide (e.1 ∉ g) := by
    intro e
    unfold inKept
    refine decide_eq_decide.2 (not_congr ?_)
    rw [sk0_mem]; simp
  have hz := zip_kept (inKept p.style.off (sk0 p.style.off g)) rows v hvl (skPos p.style.off (sk0 p.style.off g) rows)
    (fun k hk => skPos_mem _ _ rows k hk)
  refine ⟨{ r with jacSkipped := some (skPos p.style.off (sk0 p.style.off g) rows ++ [-1]) },
    (rows.filter (inKept p.style.off (sk0 p.style.off g))).map (newRow p.style.off (sk0 p.style.off g)),
    ((rows.zip v).filter (fun e => inKept p.style.off (sk0 p.style.off g) e.1)).map (fun e => e.2), ?_, ?_, ?_, ?_, ?_, ?_⟩
  · unfold jacStruct
    simp only [hr, h1, hst, hf]
  · unfold jacVals
    simp only [hv]
    rw [jacVal_fold _ (skPos_sorted _ _ _) hsp, hz]
  · rw [List.length_map, List.length_map]
    have := zip_filter_map (fun e => e) (inKept p.style.off (sk0 p.style.off g)) rows v hvl
    have e1 : ((rows.zip v).filter (fun e => inKept p.style.off (sk0 p.style.off g) e.1)).map (fun e => e.1) =
        rows.filter (inKept p.style.off (sk0 p.style.off g)) := by
      rw [show (fun e : (Int × Int) × N => inKept p.style.off (sk0 p.style.off g) e.1) =
        (inKept p.style.off (sk0 p.style.off g)) ∘ Prod.fst from rfl, ← List.filter_map]
      rw [List.map_fst_zip (by omega)]
    rw [← e1, List.length_map]
  · rw [List.length_map]
    congr 1
    exact List.filter_congr (fun e _ => hin e)
  · intro j i col hj
    rw [kept_eq] at hj
    exact trip_red p.style.off _ p.m j i hj rows hrr v hvl col
  · intro e he
    rw [List.mem_map] at he
    obtain ⟨e0, he0, rfl⟩ := he
    rw [List.mem_filter] at he0
    obtain ⟨q1, q2⟩ := hrr e0 he0.1
    have hns := (keepAt_row p.style.off (sk0 p.style.off g) e0 q1).2 he0.2
    have hns' := (keepAt_nonneg _ _).1 hns
    have hlt := keptTo_lt (sk0 p.style.off g) (e0.1 - p.style.off).toNat p.m (by omega) hns'
    rw [kept_eq]
    unfold newRow keepAt
    rw [if_neg hns']
    simp only
    omega

end

/-! ## examples and negations -/

/-- three constraints, one Jacobian entry per constraint plus a second one in constraint 1. -/
def exP (s : Style) : Inner Int where
  n := 2
  m := 3
  nnzJ := 4
  nnzH := 0
  style := s
  infoOk := true
  jacStruct := some [(s.off, s.off), (1 + s.off, s.off), (1 + s.off, 1 + s.off), (2 + s.off, 1 + s.off)]
  jacVals := fun _ => some [10, 11, 12, 13]
  bounds := some ([0, 0], [1, 1], [5, 6, 7], [8, 9, 10])
  start := some ([3, 4], [0, 0], [0, 0], [1, 2, 3])
  scaling := none
  conLin := none
  evalF := fun _ => some 0
  evalGrad := fun _ => some [0, 0]
  evalG := fun _ => some [20, 21, 22]
  evalH := fun _ _ l => some l

/-- constraint 1 excluded, lower bound of variable 0 removed, variable 1 fixed. -/
def exR : Red := (getNlpInfo 77 (exP .c) (create [1] [0] [] [1] 5)).1

example : (getNlpInfo 77 (exP .c) (create [1] [0] [] [1] 5)).2 = some (2, 2, 2, 0, .c) := by decide +kernel
example : InnerOK (exP .c) := ⟨by intro t h; cases h; decide, by intro x v h; cases h; rfl, by intro a b c d h; cases h; exact ⟨rfl, rfl⟩⟩
example : Ready (exP .c) [1] [0] [] [1] exR ∧ IdxOK 0 3 [1] ∧ IdxOK 0 2 [0] := ⟨⟨77, 5, (2, 2, 2, 0, .c), Prod.ext rfl (by decide +kernel)⟩, ⟨by decide, by decide⟩, ⟨by decide, by decide⟩⟩
example : getBounds 1000 (exP .c) exR [0, 0] [0, 0] = some ([-1000, 4], [1, 4], [5, 7], [8, 10]) := by decide +kernel
example : evalG (exP .c) exR [] [0, 0] = some [20, 22] := by decide +kernel
example : (jacStruct (exP .c) exR).2 = some [(0, 0), (1, 1)] ∧ jacVals (exP .c) (jacStruct (exP .c) exR).1 [] = some [10, 13] := by decide +kernel
example : evalH (exP .c) exR [] 1 [8, 9] = some [8, 0, 9] := by decide +kernel

/-- C38, negation: in FORTRAN style the announced number of Jacobian entries is wrong (the row index is used without subtracting 1), so
more entries are written into the arrays of the caller than it allocated; the count even depends on memory behind the map. -/
theorem fortran_nnz_wrong :
    (getNlpInfo (-1) (exP .fortran) (create [1] [] [] [] 5)).2 = some (2, 2, 3, 0, .fortran) ∧
    (getNlpInfo 0 (exP .fortran) (create [3] [] [] [] 5)).2 = some (2, 2, 2, 0, .fortran) ∧
    (getNlpInfo (-1) (exP .fortran) (create [3] [] [] [] 5)).2 = some (2, 2, 1, 0, .fortran) ∧
    ((jacStruct (exP .fortran) (getNlpInfo 0 (exP .fortran) (create [3] [] [] [] 5)).1).2.map List.length) = some 3 := by
  refine ⟨?_, ?_, ?_, ?_⟩ <;> decide +kernel

/-- C38, negation: an index that appears twice in the exclusion list makes the reducer ignore all larger ones. -/
theorem duplicate_index_ignores_rest :
    (getNlpInfo 0 (exP .c) (create [0, 0, 1, 2] [] [] [] 5)).2 = some (2, 2, 3, 0, .c) := by decide +kernel

/-- C38, negation: if the Jacobian structure cannot be evaluated the first `get_nlp_info` fails, but the second succeeds with arbitrary
numbers of entries. -/
theorem info_after_failure (junk : Int) (k : Nat) :
    (getNlpInfo junk { exP .c with jacStruct := none } (create [1] [] [] [] k)).2 = none ∧
    (getNlpInfo junk { exP .c with jacStruct := none } (getNlpInfo junk { exP .c with jacStruct := none } (create [1] [] [] [] k)).1).2 =
      some (2, 2, k, 0, .c) := by
  constructor
  · rfl
  · have h : (getNlpInfo junk { exP .c with jacStruct := none } (create [1] [] [] [] k)).1.mRed = 2 := by
      show (keepMap (mkSkip [1]) 3).2 = 2
      decide +kernel
    have h' : (getNlpInfo junk { exP .c with jacStruct := none } (getNlpInfo junk { exP .c with jacStruct := none } (create [1] [] [] [] k)).1).2 =
      some (2, (getNlpInfo junk { exP .c with jacStruct := none } (create [1] [] [] [] k)).1.mRed, k, 0, .c) := rfl
    rw [h', h]

end Verif.Reducer
