import Verif.Spec.CurrIter
import Verif.Proof.Scaling2
import Verif.Props.AdapterJac

/-! # Lemmas for `get_curr_iterate`, `get_curr_violations` -/

set_option linter.unusedSectionVars false
set_option linter.unusedVariables false
set_option linter.unusedSimpArgs false

namespace Verif.CurrIter
open Verif Verif.Adapter Verif.Matrix Finset
open Verif.Scaling hiding evalC evalD

section basic
variable {K : Type} [Field K] [LinearOrder K]

theorem scalIf_map (a : K) (v : List K) : scalIf a v = v.map (fun x => a * x) := by
  unfold scalIf
  by_cases h : a = 1
  · simp [h]
  · rw [if_neg (by simpa using h)]

theorem vec_map (f : K → K) (l : List K) (k : Nat) (hk : k < l.length) : vec (l.map f) k = f (vec l k) := by
  unfold vec; simp [List.getD_eq_getElem?_getD, hk]

theorem vec_emul (a b : List K) (h : a.length = b.length) (k : Nat) (hk : k < a.length) : vec (emul a b) k = vec a k * vec b k := by
  unfold vec; exact emul_get a b k h.symm hk

theorem vec_range (n : Nat) (f : Nat → K) (k : Nat) (hk : k < n) : vec ((List.range n).map f) k = f k := by
  unfold vec; simp [List.getD_eq_getElem?_getD, hk]

theorem vec_zip (f : K → K → K) (a b : List K) (h : a.length = b.length) (k : Nat) (hk : k < a.length) :
    vec (List.zipWith f a b) k = f (vec a k) (vec b k) := by
  unfold vec; simp [List.getD_eq_getElem?_getD, hk, h ▸ hk]

theorem axpy_len (a : K) (x y : List K) (h : x.length = y.length) : (axpy a x y).length = y.length := by
  unfold axpy; simp [h]

theorem vec_axpy (a : K) (x y : List K) (h : x.length = y.length) (k : Nat) (hk : k < y.length) :
    vec (axpy a x y) k = vec y k + a * vec x k := by
  unfold vec axpy
  simp [List.getD_eq_getElem?_getD, hk, h ▸ hk]

theorem undo_resto (v n p : List K) (h1 : n.length = v.length) (h2 : p.length = v.length) :
    undoResto (restoVal v n p) n p = v := by
  have l1 : (axpy 1 n v).length = v.length := axpy_len _ _ _ h1
  have l2 : (axpy (-1) p (axpy 1 n v)).length = v.length := by rw [axpy_len _ _ _ (by omega), l1]
  have l3 : (axpy (-1) n (axpy (-1) p (axpy 1 n v))).length = v.length := by rw [axpy_len _ _ _ (by omega), l2]
  have l4 : (axpy 1 p (axpy (-1) n (axpy (-1) p (axpy 1 n v)))).length = v.length := by rw [axpy_len _ _ _ (by omega), l3]
  refine list_ext (n := v.length) l4 rfl fun i hi => ?_
  show vec (axpy 1 p (axpy (-1) n (axpy (-1) p (axpy 1 n v)))) i = vec v i
  rw [vec_axpy _ _ _ (by omega) _ (by omega), vec_axpy _ _ _ (by omega) _ (by omega), vec_axpy _ _ _ (by omega) _ (by omega),
    vec_axpy _ _ _ (by omega) _ (by omega)]
  ring

theorem sum_swap {β : Type} (L : List β) (n : Nat) (f : Nat → β → K) :
    ∑ r ∈ range n, (L.map (f r)).sum = (L.map fun e => ∑ r ∈ range n, f r e).sum := by
  induction L with
  | nil => simp
  | cons e L ih => simp only [List.map_cons, List.sum_cons, Finset.sum_add_distrib, ih]
end basic

section fixed
variable {K : Type}

/-- a loop over the fixed variables whose written value depends on the array only at the written position. -/
theorem fold_at (L : List Nat) (val : Nat → (Nat → K) → Nat → K) (hv : ∀ k a a' i, a i = a' i → val k a i = val k a' i) (c m : Nat)
    (a : Nat → K) (hn : L.Nodup) :
    (∀ k, (hk : k < L.length) → ((L.zipIdx m).foldl (fun a e => upd a e.1 (val (c + e.2) a e.1)) a) L[k] = val (c + (m + k)) a L[k]) ∧
      ∀ i, i ∉ L → ((L.zipIdx m).foldl (fun a e => upd a e.1 (val (c + e.2) a e.1)) a) i = a i := by
  induction L generalizing m a with
  | nil => exact ⟨fun k hk => by simp at hk, fun i _ => rfl⟩
  | cons x L ih =>
    rw [List.zipIdx_cons, List.foldl_cons]
    obtain ⟨hx, hL⟩ := List.nodup_cons.mp hn
    obtain ⟨h1, h2⟩ := ih (m + 1) (upd a x (val (c + m) a x)) hL
    constructor
    · intro k hk
      cases k with
      | zero =>
        simp only [List.getElem_cons_zero]
        rw [h2 x hx]
        simp [upd]
      | succ k =>
        simp only [List.getElem_cons_succ]
        have hk' : k < L.length := by simpa using hk
        rw [h1 k hk', show c + (m + 1 + k) = c + (m + (k + 1)) by omega]
        apply hv
        unfold upd
        rw [if_neg]
        intro he
        exact hx (he ▸ List.getElem_mem hk')
    · intro i hi
      rw [h2 i fun h => hi (List.mem_cons_of_mem _ h)]
      unfold upd
      rw [if_neg]
      rintro rfl
      exact hi List.mem_cons_self

theorem putFixed_at [Field K] [LinearOrder K] {s : Spaces} (ht : s.treat = .makeConstraint) (hn : s.fixed.Nodup)
    (val : Nat → (Nat → K) → Nat → K) (hv : ∀ k a a' i, a i = a' i → val k a i = val k a' i) (a : Nat → K) (k : Nat)
    (hk : k < s.fixed.length) : putFixed s val a s.fixed[k] = val (s.pc.length + k) a s.fixed[k] := by
  unfold putFixed
  have e : nFix s = s.fixed.length := by unfold nFix; rw [ht]; rfl
  rw [if_pos (by simp [ht]; omega), e, Nat.add_sub_cancel]
  have := (fold_at s.fixed val hv s.pc.length 0 a hn).1 k hk
  rwa [Nat.zero_add] at this

theorem putFixed_not [Field K] [LinearOrder K] {s : Spaces} (hn : s.fixed.Nodup)
    (val : Nat → (Nat → K) → Nat → K) (hv : ∀ k a a' i, a i = a' i → val k a i = val k a' i) (a : Nat → K) (i : Nat)
    (hi : s.treat = .makeConstraint → i ∉ s.fixed) : putFixed s val a i = a i := by
  unfold putFixed
  by_cases h : (decide (0 < s.fixed.length) && decide (s.treat = .makeConstraint)) = true
  · rw [if_pos h]
    have ht : s.treat = .makeConstraint := by simp at h; exact h.2
    have e : nFix s = s.fixed.length := by unfold nFix; rw [ht]; rfl
    rw [e, Nat.add_sub_cancel]
    exact (fold_at s.fixed val hv s.pc.length 0 a hn).2 i (hi ht)
  · rw [if_neg h]
end fixed

section sit
variable {K : Type} [Field K] [LinearOrder K] {t : Fixed} {loInf upInf : Num} {xb gb : List (Num × Num)} {deps : List Nat} {s : Spaces}
  {U : User K} {of df : K} {dx dc dd : Option (List K)} {hom : List K → Option K} {q : Curr K}

variable (H : Sit t loInf upInf xb gb deps s U of df dx dc dd hom q)
include H

theorem dims_ok : s.nFull = xb.length ∧ s.mFull = gb.length := by
  obtain ⟨h1, h2, -⟩ := getSpaces_spec H.spaces
  exact ⟨h1, h2⟩

theorem fixed_nodup : s.fixed.Nodup := by
  obtain ⟨-, -, -, hF⟩ := spaces_variables H.spaces
  exact hF.1.imp fun h => Nat.ne_of_lt h

theorem nodup_pc : s.pc.Nodup := (spaces_constraints H.sorted H.spaces).1.1.imp fun h => Nat.ne_of_lt h
theorem nodup_pd : s.pd.Nodup := (spaces_constraints H.sorted H.spaces).2.1.1.imp fun h => Nat.ne_of_lt h

theorem prob_ok : ProbOK (innerProb U s) := by
  obtain ⟨hl, hu⟩ := spaces_bounds H.spaces
  obtain ⟨-, -, h3, h4⟩ := spaces_constraints H.sorted H.spaces
  exact
    { g := fun x => by simp [innerProb]
      c := fun x => by simp [innerProb]
      d := fun x => by simp [innerProb]
      jc := fun x => rfl
      jd := fun x => rfl
      xl := fun i hi => ((hl.2 i).mp hi).1
      xu := fun i hi => ((hu.2 i).mp hi).1
      dl := fun i hi => ((h3.2 i).mp hi).1
      du := fun i hi => ((h4.2 i).mp hi).1
      xlN := hl.1.imp fun h => Nat.ne_of_lt h
      xuN := hu.1.imp fun h => Nat.ne_of_lt h
      dlN := h3.1.imp fun h => Nat.ne_of_lt h
      duN := h4.1.imp fun h => Nat.ne_of_lt h }

/-- rows and columns of the restricted Jacobians are in range. -/
theorem part_range (pos : List Nat) (hn : pos.Nodup) (e : (Nat × Nat) × Nat)
    (he : e ∈ U.jacPos.zipIdx.filterMap fun p => match s.inner p.1.2, compressed pos p.1.1 with
      | some col, some row => some ((row, col), p.2)
      | _, _ => none) : e.1.1 < pos.length ∧ e.1.2 < s.nVar := by
  obtain ⟨-, hI, -, -⟩ := spaces_variables H.spaces
  obtain ⟨⟨⟨r, c⟩, k⟩, hp, he⟩ := List.mem_filterMap.mp he
  obtain ⟨hk, hr⟩ := (mem_zipIdx_iff U.jacPos (r, c) k).mp hp
  have hc : c < xb.length := (H.jac (r, c) (by rw [← hr]; exact List.getElem_mem hk)).2
  simp only at he
  cases e1 : s.inner c with
  | none => rw [e1] at he; simp at he
  | some col =>
    cases e2 : compressed pos r with
    | none => rw [e1, e2] at he; simp at he
    | some row =>
      rw [e1, e2] at he
      simp only [Option.some.injEq] at he
      subst he
      exact ⟨((compressed_some pos hn r row).mp e2).1, ((hI c hc col).mp e1).1⟩

theorem noparam_user (hp : s.treat.isParam = false) (c : Nat) : s.user c = c ∧ s.nVar = xb.length := by
  have h := H.spaces
  have hu : ∀ c, s.user c = c := by
    intro c
    unfold getSpaces at h
    cases hm : buildMaps t loInf upInf xb gb with
    | none => rw [hm] at h; simp at h
    | some m =>
      rw [hm] at h
      simp only [Option.some.injEq] at h
      subst h
      unfold Spaces.user
      simp only at hp ⊢
      rw [if_neg (by rw [hp]; simp)]
  refine ⟨hu c, ?_⟩
  obtain ⟨hE, -, -, -⟩ := spaces_variables H.spaces
  apply Nat.le_antisymm
  · by_contra hh
    have := (hE.2.1 xb.length (by omega)).1
    rw [hu] at this; omega
  · by_contra hh
    obtain ⟨a, ha, he⟩ := hE.2.2 s.nVar (by omega) (by
      unfold Removed
      rintro ⟨h1 | h1, -⟩ <;> rw [h1] at hp <;> simp [Fixed.isParam] at hp)
    rw [hu] at he; omega

theorem wf_jacC (x : List K) : WF ((innerProb U s).jacC x) := by
  show ∀ e ∈ _, _
  intro e he
  rcases List.mem_append.mp he with h | h
  · obtain ⟨a, ha, rfl⟩ := List.mem_map.mp h
    obtain ⟨h1, h2⟩ := part_range H s.pc (nodup_pc H) a ha
    simp only
    omega
  · obtain ⟨a, ha, rfl⟩ := List.mem_map.mp h
    unfold jacCExtra at ha
    by_cases hp : s.treat.isParam = true
    · rw [if_pos hp] at ha; simp at ha
    · rw [if_neg hp] at ha
      obtain ⟨⟨i, k⟩, hb, rfl⟩ := List.mem_map.mp ha
      obtain ⟨hk, hi⟩ := (mem_zipIdx_iff s.fixed i k).mp hb
      obtain ⟨-, -, -, hF⟩ := spaces_variables H.spaces
      have h1 := ((hF.2 i).mp (hi ▸ List.getElem_mem hk)).1
      have h2 := (noparam_user H (by simpa using hp) 0).2
      have h3 : nFix s = s.fixed.length := by unfold nFix; rw [if_neg hp]
      simp only
      omega

theorem wf_jacD (x : List K) : WF ((innerProb U s).jacD x) := by
  show ∀ e ∈ _, _
  intro e he
  obtain ⟨a, ha, rfl⟩ := List.mem_map.mp he
  obtain ⟨h1, h2⟩ := part_range H s.pd (nodup_pd H) a ha
  simp only
  omega

theorem ent_genT_elem (L : List ((Nat × Nat) × Nat)) (val : Nat → K) (r c : Nat) :
    ((L.map fun e => (⟨e.1.1 + 1, e.1.2 + 1, val e.2⟩ : Trip K)).map
      (fun t => if t.row = r + 1 ∧ t.col = c + 1 then t.val else 0)).sum = elem L val r c := by
  unfold elem
  rw [List.map_map]
  congr 1
  refine List.map_congr_left fun e _ => ?_
  simp only [Function.comp]
  by_cases h : e.1 = (r, c)
  · rw [if_pos h, if_pos (by rw [h]; simp)]
  · rw [if_neg h, if_neg]
    rintro ⟨h1, h2⟩
    exact h (Prod.ext (by omega) (by omega))

/-- entries of the algorithm's Jacobian of the equality constraints. -/
theorem ent_jacC (u : List K) (c : Nat) (hc : c < s.nVar) :
    (∀ r, (hr : r < s.pc.length) → ent ((innerProb U s).jacC u) r c = userElem U.jacPos (U.jac (U.full s u)) s.pc[r] (s.user c)) ∧
      ∀ k, (hk : k < nFix s) → ent ((innerProb U s).jacC u) (s.pc.length + k) c = if s.fixed[k]? = some (s.user c) then 1 else 0 := by
  obtain ⟨j1, -, j3⟩ := jacobian_restricted H.sorted H.spaces U.jacPos (fun e he => (H.jac e he).2) (U.jac (U.full s u)) c hc
  have split : ∀ r, ent ((innerProb U s).jacC u) r c = elem (Adapter.jacC s U.jacPos) (U.jac (U.full s u)) r c +
      ((jacCExtra s).map fun e => if e = (r, c) then (1 : K) else 0).sum := by
    intro r
    show (List.map _ (_ ++ _)).sum = _
    rw [List.map_append, List.sum_append, ent_genT_elem H, List.map_map]
    congr 2
    refine List.map_congr_left fun e _ => ?_
    simp only [Function.comp]
    by_cases h : e = (r, c)
    · rw [if_pos h, if_pos (by rw [h]; simp)]
    · rw [if_neg h, if_neg]
      rintro ⟨h1, h2⟩
      exact h (Prod.ext (by omega) (by omega))
  constructor
  · intro r hr
    rw [split, j1 r hr, List.sum_eq_zero, add_zero]
    intro x hx
    obtain ⟨e, he, rfl⟩ := List.mem_map.mp hx
    rw [if_neg]
    rintro rfl
    unfold jacCExtra at he
    by_cases hp : s.treat.isParam = true
    · rw [if_pos hp] at he; simp at he
    · rw [if_neg hp] at he
      obtain ⟨⟨i, k⟩, -, hb⟩ := List.mem_map.mp he
      have := (Prod.mk.inj hb).1
      simp only at this
      omega
  · intro k hk
    have hp : s.treat.isParam = false := by
      by_contra h
      unfold nFix at hk
      rw [if_pos (by simpa using h)] at hk
      omega
    have hnf : nFix s = s.fixed.length := by unfold nFix; rw [hp]; simp
    rw [split, j3 _ (by omega), zero_add]
    -- the treatment is make_constraint, as there are fixed variables
    have ht : s.treat = .makeConstraint := by
      obtain ⟨-, -, -, hF⟩ := spaces_variables H.spaces
      have hm := ((hF.2 _).mp (List.getElem_mem (by omega : k < s.fixed.length))).2.2
      cases htt : s.treat <;> rw [htt] at hp hm <;> simp [Fixed.isParam] at hp hm ⊢
    have h := jacobian_fixed_rows H.spaces ht k c (by omega) hc
    have key : ∀ L : List (Nat × Nat), (L.map fun e => if e = (s.pc.length + k, c) then (1 : K) else 0).sum =
        ((L.countP fun e => decide (e = (s.pc.length + k, c)) : Nat) : K) := by
      intro L
      induction L with
      | nil => simp
      | cons e L ih =>
        rw [List.map_cons, List.sum_cons, ih, List.countP_cons]
        by_cases he : e = (s.pc.length + k, c) <;> simp [he, add_comm]
    rw [key, h, List.getElem?_eq_getElem (by omega : k < s.fixed.length)]
    by_cases he : s.user c = s.fixed[k]
    · rw [if_pos he, if_pos (by rw [he])]; simp
    · rw [if_neg he, if_neg (by simpa using fun h => he h.symm)]; simp

theorem ent_jacD (u : List K) (c : Nat) (hc : c < s.nVar) (r : Nat) (hr : r < s.pd.length) :
    ent ((innerProb U s).jacD u) r c = userElem U.jacPos (U.jac (U.full s u)) s.pd[r] (s.user c) := by
  obtain ⟨-, j2, -⟩ := jacobian_restricted H.sorted H.spaces U.jacPos (fun e he => (H.jac e he).2) (U.jac (U.full s u)) c hc
  rw [← j2 r hr]
  exact ent_genT_elem H _ _ r c

theorem sum_pos (pos : List Nat) (hn : pos.Nodup) (v : Nat → K) (row : Nat) :
    ∑ r ∈ range pos.length, (if pos.getD r 0 = row then v r else 0) = match compressed pos row with
      | some k => v k
      | none => 0 := by
  cases e : compressed pos row with
  | some k =>
    obtain ⟨hk, rfl⟩ := (compressed_some pos hn row k).mp e
    rw [← List.getD_eq_getElem (d := 0) _ hk]
    exact sum_pick hn hk v
  | none => exact sum_none ((compressed_none pos hn row).mp e) v

/-- products with the Jacobians, in the user's numbering. -/
theorem jac_products (val : Nat → K) (j : Nat) (yc yd : Nat → K) :
    ∑ r ∈ range s.pc.length, userElem U.jacPos val (s.pc.getD r 0) j * yc r +
      ∑ r ∈ range s.pd.length, userElem U.jacPos val (s.pd.getD r 0) j * yd r =
    (U.jacPos.zipIdx.map fun e => if e.1.2 = j then rowMult s yc yd e.1.1 * val e.2 else 0).sum := by
  have one : ∀ (pos : List Nat) (y : Nat → K), ∑ r ∈ range pos.length, userElem U.jacPos val (pos.getD r 0) j * y r =
      (U.jacPos.zipIdx.map fun e => if e.1.2 = j then (∑ r ∈ range pos.length, (if pos.getD r 0 = e.1.1 then y r else 0)) * val e.2 else 0).sum := by
    intro pos y
    have h1 : ∀ r, userElem U.jacPos val (pos.getD r 0) j * y r =
        (U.jacPos.zipIdx.map fun e => if e.1.2 = j then (if pos.getD r 0 = e.1.1 then y r else 0) * val e.2 else 0).sum := by
      intro r
      unfold userElem elem
      rw [← List.sum_map_mul_right]
      congr 1
      refine List.map_congr_left fun e _ => ?_
      by_cases hj : e.1.2 = j
      · by_cases hr : pos.getD r 0 = e.1.1
        · rw [if_pos hj, if_pos hr, if_pos (by rw [hr, ← hj])]; ring
        · rw [if_pos hj, if_neg hr, if_neg]
          · ring
          · intro h; exact hr (by rw [h])
      · rw [if_neg hj, if_neg]
        · ring
        · intro h; exact hj (by rw [h])
    rw [Finset.sum_congr rfl fun r _ => h1 r, sum_swap]
    congr 1
    refine List.map_congr_left fun e _ => ?_
    by_cases hj : e.1.2 = j
    · simp only [if_pos hj, Finset.sum_mul]
    · simp [if_neg hj]
  rw [one, one, ← List.sum_map_add]
  congr 1
  refine List.map_congr_left fun e _ => ?_
  by_cases hj : e.1.2 = j
  · rw [if_pos hj, if_pos hj, if_pos hj, ← add_mul]
    congr 1
    rw [sum_pos H s.pc (nodup_pc H), sum_pos H s.pd (nodup_pd H)]
    unfold rowMult
    cases e1 : compressed s.pc e.1.1 with
    | none => cases compressed s.pd e.1.1 <;> simp
    | some k =>
      cases e2 : compressed s.pd e.1.1 with
      | none => simp
      | some l =>
        exfalso
        obtain ⟨hk, h1⟩ := (compressed_some s.pc (nodup_pc H) _ k).mp e1
        obtain ⟨hl, h2⟩ := (compressed_some s.pd (nodup_pd H) _ l).mp e2
        exact pc_pd_disjoint H.sorted H.spaces _ (List.getElem_mem hk) (by rw [h1, ← h2]; exact List.getElem_mem hl)
  · rw [if_neg hj, if_neg hj, if_neg hj, add_zero]

theorem not_kept_iff {i : Nat} (hi : i < gb.length) : Kept gb deps i ↔ i ∈ s.pc ∨ i ∈ s.pd := by
  constructor
  · exact mem_pc_or_pd H.sorted H.spaces i hi
  · obtain ⟨hc, hd, -, -⟩ := spaces_constraints H.sorted H.spaces
    rintro (h | h)
    · exact fun _ => ((hc.2 i).mp h).2.2
    · exact fun hF => absurd hF ((hd.2 i).mp h).2

theorem rowMult_lam [IsStrictOrderedRing K] (yc yd rhs lam0 : Nat → K) {row : Nat} (hi : row < gb.length) :
    rowMult s yc yd row = if Kept gb deps row then resortG s rhs false yc yd lam0 row else 0 := by
  obtain ⟨r1, r2, r3⟩ := resortG_delivers H.sorted H.spaces rhs yc yd lam0 false
  obtain ⟨z1, z2, z3⟩ := resortG_delivers H.sorted H.spaces rhs yc yd (fun _ => 0) false
  rw [rowMult_eq H.sorted H.spaces yc yd rhs]
  by_cases hk : Kept gb deps row
  · rw [if_pos hk]
    rcases (not_kept_iff H hi).mp hk with h | h
    · obtain ⟨k, hl, rfl⟩ := List.mem_iff_getElem.mp h
      rw [z1 k hl, r1 k hl]
    · obtain ⟨k, hl, rfl⟩ := List.mem_iff_getElem.mp h
      rw [z2 k hl, r2 k hl]
  · rw [if_neg hk]
    have := (not_kept_iff H hi).not.mp hk
    push Not at this
    exact z3 row this.1 this.2
end sit

end Verif.CurrIter
