import Verif.Props.Adapter

/-! # Jacobian, Hessian and multipliers of fixed variables (C44, C45) -/

set_option linter.unusedSectionVars false
set_option linter.unusedSimpArgs false

namespace Verif.Adapter

open Verif

theorem elem_filterMap {K : Type} [AddCommMonoid K] {β : Type} (L : List β) (f : β → Option ((Nat × Nat) × Nat)) (val : Nat → K) (r c : Nat) :
    elem (L.filterMap f) val r c = (L.map fun b => match f b with
      | some e => if e.1 = (r, c) then val e.2 else 0
      | none => 0).sum := by
  unfold elem
  induction L with
  | nil => rfl
  | cons b L ih =>
    rw [List.map_cons, List.sum_cons]
    cases hb : f b with
    | none => rw [List.filterMap_cons_none hb, ih]; simp
    | some e => rw [List.filterMap_cons_some hb, List.map_cons, List.sum_cons, ih]

section
variable {t : Fixed} {loInf upInf : Num} {xb gb : List (Num × Num)} {deps : List Nat} {s : Spaces} {K : Type} [Field K]

/-- Jacobian part belonging to the rows listed in `pos`. -/
theorem jac_part (h : getSpaces t loInf upInf xb gb deps = some s) (pos : List Nat) (hn : pos.Nodup) (jac : List (Nat × Nat))
    (hj : ∀ e ∈ jac, e.2 < xb.length) (val : Nat → K) (r c : Nat) (hr : r < pos.length) (hc : c < s.nVar) :
    elem (jac.zipIdx.filterMap fun p => match s.inner p.1.2, compressed pos p.1.1 with
      | some col, some row => some ((row, col), p.2)
      | _, _ => none) val r c = userElem jac val pos[r] (s.user c) := by
  obtain ⟨-, hI, -, -⟩ := spaces_variables h
  rw [elem_filterMap]
  unfold userElem elem
  congr 1
  refine List.map_congr_left ?_
  rintro ⟨⟨i, j⟩, k⟩ hp
  obtain ⟨hk, he⟩ := (mem_zipIdx_iff jac (i, j) k).mp hp
  have hjr : j < xb.length := hj (i, j) (by rw [← he]; exact List.getElem_mem hk)
  simp only
  by_cases heq : (i, j) = (pos[r], s.user c)
  · rw [if_pos heq]
    obtain ⟨rfl, rfl⟩ := Prod.mk.inj heq
    rw [(hI _ hjr c).mpr ⟨hc, rfl⟩, (compressed_some pos hn _ r).mpr ⟨hr, rfl⟩]
    simp
  · rw [if_neg heq]
    cases h1 : s.inner j with
    | none => rfl
    | some col =>
      cases h2 : compressed pos i with
      | none => rfl
      | some row =>
        simp only
        rw [if_neg]
        rintro h3
        obtain ⟨rfl, rfl⟩ := Prod.mk.inj h3
        have e1 := ((hI j hjr col).mp h1).2
        obtain ⟨_, e2⟩ := (compressed_some pos hn i row).mp h2
        exact heq (by rw [← e1, ← e2])

/-- **C44** The Jacobians the algorithm works with are exactly the rows and columns of the user's Jacobian that belong to its equality and
inequality constraints and its variables — for every structure (duplicate entries are added), every order of the entries. -/
theorem jacobian_restricted (hd : deps.Pairwise (· < ·)) (h : getSpaces t loInf upInf xb gb deps = some s) (jac : List (Nat × Nat))
    (hj : ∀ e ∈ jac, e.2 < xb.length) (val : Nat → K) (c : Nat) (hc : c < s.nVar) :
    (∀ r, (hr : r < s.pc.length) → elem (jacC s jac) val r c = userElem jac val s.pc[r] (s.user c)) ∧
      (∀ r, (hr : r < s.pd.length) → elem (jacD s jac) val r c = userElem jac val s.pd[r] (s.user c)) ∧
      ∀ r, s.pc.length ≤ r → elem (jacC s jac) val r c = 0 := by
  obtain ⟨h1, h2, -, -⟩ := spaces_constraints hd h
  have n1 : s.pc.Nodup := h1.1.imp fun h => Nat.ne_of_lt h
  refine ⟨fun r hr => jac_part h s.pc n1 jac hj val r c hr hc,
    fun r hr => jac_part h s.pd (h2.1.imp fun h => Nat.ne_of_lt h) jac hj val r c hr hc, fun r hr => ?_⟩
  unfold jacC
  rw [elem_filterMap]
  refine List.sum_eq_zero fun x hx => ?_
  obtain ⟨⟨⟨i, j⟩, k⟩, -, rfl⟩ := List.mem_map.mp hx
  simp only
  cases e1 : s.inner j with
  | none => rfl
  | some col =>
    cases e2 : compressed s.pc i with
    | none => rfl
    | some row =>
      simp only
      rw [if_neg]
      intro h3
      obtain ⟨hr2, -⟩ := (compressed_some s.pc n1 i row).mp e2
      have := (Prod.mk.inj h3).1
      omega

/-- **C44** Fixed variables turned into constraints: row `pc.length + k` of the equality Jacobian is the derivative of the fixed variable. -/
theorem jacobian_fixed_rows (h : getSpaces t loInf upInf xb gb deps = some s) (ht : s.treat = .makeConstraint) (k c : Nat)
    (hk : k < s.fixed.length) (hc : c < s.nVar) :
    ((jacCExtra s).countP fun e => decide (e = (s.pc.length + k, c))) = if s.user c = s.fixed[k] then 1 else 0 := by
  obtain ⟨hE, hI, hN, hF⟩ := spaces_variables h
  have hp : s.treat.isParam = false := by rw [ht]; rfl
  have hnodup : s.fixed.Nodup := hF.1.imp fun h => Nat.ne_of_lt h
  -- no variable is removed, so the numbering is the user's
  have huser : s.user c = c := by
    unfold getSpaces at h
    cases hm : buildMaps t loInf upInf xb gb with
    | none => rw [hm] at h; simp at h
    | some m =>
      rw [hm] at h
      simp only [Option.some.injEq] at h
      subst h
      unfold Spaces.user
      simp only at hp ⊢
      rw [if_neg (by rw [hp]; simp)]
  rw [huser]
  unfold jacCExtra
  rw [hp]
  simp only [Bool.false_eq_true, if_false, List.countP_map]
  have key : ∀ (L : List Nat) (m : Nat), (L.zipIdx m).countP ((fun e => decide (e = (s.pc.length + k, c))) ∘ fun p => (s.pc.length + p.2, p.1)) =
      if m ≤ k ∧ L[k - m]? = some c then 1 else 0 := by
    intro L
    induction L with
    | nil => intro m; simp
    | cons x L ih =>
      intro m
      rw [List.zipIdx_cons, List.countP_cons, ih (m + 1)]
      rcases lt_trichotomy m k with hlt | rfl | hgt
      · have e1 : k - m = (k - (m + 1)) + 1 := by omega
        rw [e1, List.getElem?_cons_succ]
        have : ¬(s.pc.length + m = s.pc.length + k ∧ x = c) := by rintro ⟨h1, -⟩; omega
        simp [this, Nat.le_of_lt hlt, Nat.succ_le_iff.mpr hlt]
        omega
      · simp
      · have h1 : ¬(m + 1 ≤ k ∧ L[k - (m + 1)]? = some c) := by rintro ⟨h1, -⟩; omega
        have h2 : ¬(m ≤ k ∧ (x :: L)[k - m]? = some c) := by rintro ⟨h1, -⟩; omega
        have h3 : ¬(m = k ∧ x = c) := by rintro ⟨h1, -⟩; omega
        rw [if_neg h1, if_neg h2]
        simp [h3]
  rw [key s.fixed 0]
  simp only [Nat.zero_le, true_and, Nat.sub_zero, List.getElem?_eq_getElem hk, Option.some.injEq]
  by_cases he : s.fixed[k] = c
  · rw [if_pos he, if_pos he.symm]
  · rw [if_neg he, if_neg fun h => he h.symm]

/-- **C44** The Hessian the algorithm works with is the user's Hessian restricted to its variables. -/
theorem hessian_restricted (h : getSpaces t loInf upInf xb gb deps = some s) (hs : List (Nat × Nat))
    (hj : ∀ e ∈ hs, e.1 < xb.length ∧ e.2 < xb.length) (val : Nat → K) (r c : Nat) (hr : r < s.nVar) (hc : c < s.nVar) :
    elem (hess s hs) val r c = userElem hs val (s.user r) (s.user c) := by
  obtain ⟨-, hI, -, -⟩ := spaces_variables h
  unfold hess
  rw [elem_filterMap]
  unfold userElem elem
  congr 1
  refine List.map_congr_left ?_
  rintro ⟨⟨i, j⟩, k⟩ hp
  obtain ⟨hk, he⟩ := (mem_zipIdx_iff hs (i, j) k).mp hp
  obtain ⟨hir, hjr⟩ := hj (i, j) (by rw [← he]; exact List.getElem_mem hk)
  simp only at hir hjr ⊢
  by_cases heq : (i, j) = (s.user r, s.user c)
  · rw [if_pos heq]
    obtain ⟨rfl, rfl⟩ := Prod.mk.inj heq
    rw [(hI _ hir r).mpr ⟨hr, rfl⟩, (hI _ hjr c).mpr ⟨hc, rfl⟩]
    simp
  · rw [if_neg heq]
    cases h1 : s.inner i with
    | none => rfl
    | some row =>
      cases h2 : s.inner j with
      | none => rfl
      | some col =>
        simp only
        rw [if_neg]
        rintro h3
        obtain ⟨rfl, rfl⟩ := Prod.mk.inj h3
        obtain ⟨-, e1⟩ := (hI i hir row).mp h1
        obtain ⟨-, e2⟩ := (hI j hjr col).mp h2
        exact heq (by rw [← e1, ← e2])

end

section
variable {t : Fixed} {loInf upInf : Num} {xb gb : List (Num × Num)} {deps : List Nat} {s : Spaces} {K : Type} [Field K] [LinearOrder K]
  [IsStrictOrderedRing K]

/-- The multiplier of a constraint used for the fixed variables is the one handed to the user (zero for constraints taken out). -/
theorem rowMult_eq (hd : deps.Pairwise (· < ·)) (h : getSpaces t loInf upInf xb gb deps = some s) (yc yd rhs : Nat → K) (row : Nat) :
    rowMult s yc yd row = resortG s rhs false yc yd (fun _ => 0) row := by
  obtain ⟨h1, h2, -, -⟩ := spaces_constraints hd h
  obtain ⟨r1, r2, r3⟩ := resortG_delivers hd h rhs yc yd (fun _ => 0) false
  have n1 : s.pc.Nodup := h1.1.imp fun h => Nat.ne_of_lt h
  have n2 : s.pd.Nodup := h2.1.imp fun h => Nat.ne_of_lt h
  unfold rowMult
  cases e1 : compressed s.pc row with
  | some k =>
    obtain ⟨hk, rfl⟩ := (compressed_some s.pc n1 row k).mp e1
    simp only
    rw [r1 k hk, if_neg (by simp)]
  | none =>
    cases e2 : compressed s.pd row with
    | some k =>
      obtain ⟨hk, rfl⟩ := (compressed_some s.pd n2 row k).mp e2
      simp only
      rw [r2 k hk]
    | none =>
      simp only
      rw [r3 row ((compressed_none s.pc n1 row).mp e1) ((compressed_none s.pd n2 row).mp e2)]

theorem foldl_accumulate (L : List ((Nat × Nat) × Nat)) (v : (Nat × Nat) × Nat → K) (f : Nat → K) (i : Nat) :
    (L.foldl (fun f e => upd f e.1.2 (f e.1.2 + v e)) f) i = f i + (L.map fun e => if e.1.2 = i then v e else 0).sum := by
  induction L generalizing f with
  | nil => simp
  | cons e L ih =>
    rw [List.foldl_cons, ih, List.map_cons, List.sum_cons]
    unfold upd
    by_cases h : i = e.1.2
    · rw [if_pos h, if_pos h.symm, h]; ring
    · rw [if_neg h, if_neg fun hh => h hh.symm]; ring

/-- **C45** Multipliers for removed fixed variables (`make_parameter`): both are nonnegative, at most one is positive, and with the
constraint multipliers handed to the user the gradient of the Lagrangian vanishes in the component of the fixed variable:
`∇f_i + Σ_r λ_r J_{r,i} − z_L,i + z_U,i = 0`. -/
theorem fixed_multipliers_dual_feasible (hd : deps.Pairwise (· < ·)) (h : getSpaces t loInf upInf xb gb deps = some s)
    (ht : s.treat = .makeParameter) (jac : List (Nat × Nat)) (hj : ∀ e ∈ jac, e.2 < xb.length)
    (gradF jacVal yc yd zL zU zL0 zU0 rhs : Nat → K) (i : Nat) (hi : i < xb.length) (hF : IsFixed (bnd xb i)) :
    let lam := resortG s rhs false yc yd fun _ => 0
    let z := resortBoundMult s jac gradF jacVal yc yd zL zU zL0 zU0
    gradF i + (jac.zipIdx.map fun p => if p.1.2 = i then lam p.1.1 * jacVal p.2 else 0).sum - z.1 i + z.2 i = 0 ∧
      0 ≤ z.1 i ∧ 0 ≤ z.2 i ∧ (z.1 i = 0 ∨ z.2 i = 0) := by
  obtain ⟨hE, hI, hN, hFx⟩ := spaces_variables h
  have hmem : i ∈ s.fixed := (hFx.2 i).mpr ⟨hi, hF, by rw [ht]; decide⟩
  have hlen : s.fixed.length ≠ 0 := by
    intro h0
    rw [List.length_eq_zero_iff.mp h0] at hmem
    simp at hmem
  have hnd : (s.fixed.map fun i => i).Nodup := by rw [List.map_id']; exact hFx.1.imp fun h => Nat.ne_of_lt h
  have hpf : s.pFull.isSome = true := by
    have hnone := (hN i hi).mpr ⟨Or.inl ht, hF⟩
    unfold Spaces.inner at hnone
    cases hp : s.pFull with
    | none => rw [hp] at hnone; simp at hnone
    | some p => rfl
  intro lam z
  -- the accumulated multiplier
  have hmult : ((jacFixed s jac).foldl (fun f e => upd f e.1.2 (f e.1.2 + rowMult s yc yd e.1.1 * jacVal e.2)) gradF) i =
      gradF i + (jac.zipIdx.map fun p => if p.1.2 = i then lam p.1.1 * jacVal p.2 else 0).sum := by
    rw [foldl_accumulate (jacFixed s jac) (fun e => rowMult s yc yd e.1.1 * jacVal e.2)]
    congr 1
    unfold jacFixed
    rw [if_pos ⟨ht, hpf⟩]
    have gen : ∀ L : List ((Nat × Nat) × Nat), (∀ p ∈ L, p.1.2 < xb.length) →
        ((L.filterMap fun p => match s.inner p.1.2 with
          | none => some (p.1, p.2)
          | some _ => none).map fun e => if e.1.2 = i then rowMult s yc yd e.1.1 * jacVal e.2 else 0).sum =
        (L.map fun p => if p.1.2 = i then lam p.1.1 * jacVal p.2 else 0).sum := by
      intro L hL
      induction L with
      | nil => rfl
      | cons p L ih =>
        have ih := ih fun q hq => hL q (List.mem_cons_of_mem _ hq)
        rw [List.map_cons, List.sum_cons, ← ih]
        cases hc : s.inner p.1.2 with
        | none =>
          rw [List.filterMap_cons_some (by rw [hc]), List.map_cons, List.sum_cons, rowMult_eq hd h yc yd rhs]
        | some j =>
          rw [List.filterMap_cons_none (by rw [hc]), if_neg, zero_add]
          intro he
          rw [he, (hN i hi).mpr ⟨Or.inl ht, hF⟩] at hc
          simp at hc
    refine gen jac.zipIdx ?_
    rintro ⟨e, k⟩ hp
    obtain ⟨hk, he⟩ := (mem_zipIdx_iff jac e k).mp hp
    exact hj e (by rw [← he]; exact List.getElem_mem hk)
  have hz1 : z.1 i = max 0 (gradF i + (jac.zipIdx.map fun p => if p.1.2 = i then lam p.1.1 * jacVal p.2 else 0).sum) := by
    rw [← hmult]
    simp only [z, resortBoundMult]
    rw [if_neg hlen, ht]
    exact foldl_upd_mem s.fixed (fun i => i) _ _ hnd i hmem
  have hz2 : z.2 i = max 0 (-(gradF i + (jac.zipIdx.map fun p => if p.1.2 = i then lam p.1.1 * jacVal p.2 else 0).sum)) := by
    rw [← hmult]
    simp only [z, resortBoundMult]
    rw [if_neg hlen, ht]
    exact foldl_upd_mem s.fixed (fun i => i) (fun i => max 0 (-(_ : K))) _ hnd i hmem
  rw [hz1, hz2]
  generalize gradF i + _ = m
  refine ⟨?_, le_max_left _ _, le_max_left _ _, ?_⟩
  · rcases le_total 0 m with hm | hm
    · rw [max_eq_right hm, max_eq_left (by linarith)]; ring
    · rw [max_eq_left hm, max_eq_right (by linarith)]; ring
  · rcases le_total 0 m with hm | hm
    · right; exact max_eq_left (by linarith)
    · left; exact max_eq_left hm

/-- **C45** Fixed variables treated as constraints: the multiplier of the added equality constraint is handed to the user as bound
multipliers, `z_U − z_L` being that multiplier, both nonnegative. -/
theorem fixed_multipliers_constraint (h : getSpaces t loInf upInf xb gb deps = some s)
    (ht : s.treat = .makeConstraint) (jac : List (Nat × Nat))
    (gradF jacVal yc yd zL zU zL0 zU0 : Nat → K) (k : Nat) (hk : k < s.fixed.length) :
    let z := resortBoundMult s jac gradF jacVal yc yd zL zU zL0 zU0
    z.2 s.fixed[k] - z.1 s.fixed[k] = yc (s.pc.length + k) ∧ 0 ≤ z.1 s.fixed[k] ∧ 0 ≤ z.2 s.fixed[k] := by
  obtain ⟨-, -, -, hFx⟩ := spaces_variables h
  have hnd : s.fixed.Nodup := hFx.1.imp fun h => Nat.ne_of_lt h
  intro z
  have hz1 : z.1 s.fixed[k] = max 0 (-(yc (s.pc.length + k))) := by
    simp only [z, resortBoundMult]
    rw [if_neg (by omega), ht]
    exact foldl_zipIdx_at s.fixed (fun k => max 0 (-(yc (s.pc.length + k)))) _ hnd k hk
  have hz2 : z.2 s.fixed[k] = max 0 (yc (s.pc.length + k)) := by
    simp only [z, resortBoundMult]
    rw [if_neg (by omega), ht]
    exact foldl_zipIdx_at s.fixed (fun k => max 0 (yc (s.pc.length + k))) _ hnd k hk
  rw [hz1, hz2]
  refine ⟨?_, le_max_left _ _, le_max_left _ _⟩
  rcases le_total 0 (yc (s.pc.length + k)) with hm | hm
  · rw [max_eq_right hm, max_eq_left (by linarith)]; ring
  · rw [max_eq_left hm, max_eq_right (by linarith)]; ring

/-- **C45** Variables that are not fixed keep the multipliers of their bounds. -/
theorem free_multipliers_unchanged (h : getSpaces t loInf upInf xb gb deps = some s) (jac : List (Nat × Nat))
    (gradF jacVal yc yd zL zU zL0 zU0 : Nat → K) (i : Nat) (hF : ¬IsFixed (bnd xb i)) :
    (resortBoundMult s jac gradF jacVal yc yd zL zU zL0 zU0).1 i = resortBound s s.pxl zL zL0 i ∧
      (resortBoundMult s jac gradF jacVal yc yd zL zU zL0 zU0).2 i = resortBound s s.pxu zU zU0 i := by
  obtain ⟨-, -, -, hFx⟩ := spaces_variables h
  have hnm : i ∉ s.fixed := fun hm => hF ((hFx.2 i).mp hm).2.1
  unfold resortBoundMult
  by_cases h0 : s.fixed.length = 0
  · rw [if_pos h0]; exact ⟨rfl, rfl⟩
  · rw [if_neg h0]
    cases s.treat with
    | makeConstraint =>
      exact ⟨foldl_zipIdx_not s.fixed (fun k => max 0 (-(yc (s.pc.length + k)))) _ i hnm,
        foldl_zipIdx_not s.fixed (fun k => max 0 (yc (s.pc.length + k))) _ i hnm⟩
    | makeParameter =>
      simp only
      exact ⟨foldl_upd_not_mem s.fixed (fun i => i) _ _ i fun x hx he => hnm (he ▸ hx),
        foldl_upd_not_mem s.fixed (fun i => i) (fun i => max 0 (-(_ : K))) _ i fun x hx he => hnm (he ▸ hx)⟩
    | makeParameterNodual => exact ⟨rfl, rfl⟩
    | relaxBounds => exact ⟨rfl, rfl⟩

end

/-- Example for the hypotheses: the problem of `exX`, `exG` with a full Jacobian has one removed variable, and its multipliers are as claimed. -/
example : (getSpaces .makeParameter .ninf .pinf exX exG []).map (fun s =>
    let z := resortBoundMult s [(0, 1), (1, 1), (2, 0), (2, 1)] (fun i => (i : ℚ)) (fun k => (k : ℚ) - 2) (fun k => k + 1) (fun _ => 5)
      (fun _ => 1) (fun _ => 2) (fun _ => 0) fun _ => 0
    ((List.range 4).map z.1, (List.range 4).map z.2)) = some ([0, 0, 1, 0], [0, 4, 0, 2]) := by decide +kernel

end Verif.Adapter
