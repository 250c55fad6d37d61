import Verif.Proof.Sens2
import Mathlib.Data.Finset.Card
import Mathlib.Data.List.Nodup
import Mathlib.Order.Interval.Finset.Nat

/-! # Proofs for sIPOPT: bound check and loop -/

namespace Verif.Sens
open Finset
set_option linter.unusedSectionVars false
set_option linter.unusedSimpArgs false
set_option linter.unusedVariables false

section
variable {K : Type} [Field K]

theorem block_elt : ∀ (v : Blocks K) (dims : List Nat), Shape dims v → ∀ k i, k < dims.length → i < dims.getD k 0 →
    (v.getD k []).getD i 0 = elt v ((dims.take k).sum + i) ∧ (dims.take k).sum + i < dims.sum := by
  intro v
  induction v with
  | nil => intro dims h k i hk; unfold Shape at h; simp at h; subst h; simp at hk
  | cons b v ih =>
    intro dims h k i hk hi
    cases dims with
    | nil => simp at hk
    | cons n ns =>
      unfold Shape at h
      simp only [List.map_cons, List.cons.injEq] at h
      cases k with
      | zero =>
        simp only [List.getD_cons_zero] at hi ⊢
        simp only [List.take_zero, List.sum_nil, zero_add, List.sum_cons, elt, List.flatten_cons]
        rw [List.getD_append _ _ _ _ (by omega)]
        exact ⟨rfl, by omega⟩
      | succ k =>
        simp only [List.getD_cons_succ] at hi ⊢
        obtain ⟨a1, a2⟩ := ih ns h.2 k i (by simpa using hk) hi
        rw [a1]
        simp only [List.take_succ_cons, List.sum_cons, elt, List.flatten_cons]
        rw [List.getD_append_right _ _ _ _ (by omega)]
        exact ⟨by congr 1; omega, by omega⟩

theorem newDu_spec {E : Env K} [LinearOrder K] (old du : List K) (sort : List Nat) (h : ∀ i, i < du.length → sort.getD i 0 = old.length + i) :
    newDu E (old.length + du.length) old sort du = old ++ du := by
  unfold newDu
  rw [show old.length + du.length - old.length = du.length by omega, List.take_of_length_le (by simp)]
  have key : ∀ j, j ≤ du.length → ((List.range j).foldl (fun w i => w.set (sort.getD i 0) (du.getD i 0)) (old ++ List.replicate du.length E.junk)) =
      old ++ (du.take j ++ List.replicate (du.length - j) E.junk) := by
    intro j
    induction j with
    | zero => intro _; simp
    | succ j ih =>
      intro hj
      rw [List.range_succ, List.foldl_append, ih (by omega)]
      simp only [List.foldl_cons, List.foldl_nil]
      rw [h j (by omega), List.set_append_right _ _ (by omega), Nat.add_sub_cancel_left, List.set_append_right _ _ (by simp)]
      have e1 : j - (du.take j).length = 0 := by simp; omega
      have e2 : du.length - j = (du.length - (j + 1)) + 1 := by omega
      rw [e1, e2, List.replicate_succ, List.set_cons_zero]
      have e3 : du.take (j + 1) = du.take j ++ [du.getD j 0] := by
        rw [List.getD_eq_getElem _ _ (by omega), ← List.take_append_getElem (by omega)]
      rw [e3]
      simp
  rw [key _ (le_refl _)]
  simp

end

section
variable {K : Type} [Field K] [LinearOrder K] [IsStrictOrderedRing K]

theorem lookup_some {pos : List Nat} : ∀ {bound : List K}, pos.length = bound.length → ∀ {i b}, (pos.zip bound).lookup i = some b →
    ∃ k, k < pos.length ∧ pos.getD k 0 = i ∧ bound.getD k 0 = b := by
  induction pos with
  | nil => intro bound _ i b h; simp at h
  | cons p pos ih =>
    intro bound hl i b h
    cases bound with
    | nil => simp at hl
    | cons q bound =>
      simp only [List.zip_cons_cons, List.lookup_cons] at h
      by_cases e : i = p
      · subst e; simp at h; exact ⟨0, by simp, by simp, by simpa using h⟩
      · have : (i == p) = false := by simpa using e
        rw [this] at h
        obtain ⟨k, h1, h2, h3⟩ := ih (by simpa using hl) h
        exact ⟨k + 1, by simpa using h1, by simpa using h2, by simpa using h3⟩

theorem lookup_at {pos : List Nat} (hn : pos.Nodup) : ∀ {bound : List K}, pos.length = bound.length → ∀ {k}, k < pos.length →
    (pos.zip bound).lookup (pos.getD k 0) = some (bound.getD k 0) := by
  induction pos with
  | nil => intro bound _ k hk; simp at hk
  | cons p pos ih =>
    intro bound hl k hk
    cases bound with
    | nil => simp at hl
    | cons q bound =>
      rw [List.nodup_cons] at hn
      cases k with
      | zero => simp
      | succ k =>
        simp only [List.zip_cons_cons, List.lookup_cons, List.getD_cons_succ]
        have hk' : k < pos.length := by simpa using hk
        have : (pos.getD k 0 == p) = false := by
          simp only [beq_eq_false_iff_ne]
          intro e
          apply hn.1
          rw [← e, List.getD_eq_getElem _ _ hk']
          exact List.getElem_mem _
        rw [this]
        exact ih hn.2 (by simpa using hl) hk'

variable {P : Prob K}

/-- positions of the blocks. -/
theorem pos_facts (h : P.OK) : P.dims.getD 0 0 ≤ (P.dims.take 4).sum ∧ (P.dims.take 4).sum + P.dims.getD 4 0 = (P.dims.take 5).sum ∧
    (P.dims.take 5).sum + P.dims.getD 5 0 ≤ P.dims.sum := by
  have h8 := h.eight
  generalize P.dims = d at h8
  match d, h8 with
  | [a, b, c, d, e, f, g, i], _ => simp; omega

theorem pos_add (k i : Nat) : P.pos k i = (P.dims.take k).sum + i := rfl

theorem x_elt (h : P.OK) {v : Blocks K} (hv : Shape P.dims v) {i : Nat} (hi : i < P.dims.getD 0 0) : (v.getD 0 []).getD i 0 = elt v i := by
  have := (block_elt v P.dims hv 0 i (by rw [h.eight]; omega) hi).1
  simpa using this

theorem z_elt (h : P.OK) {v : Blocks K} (hv : Shape P.dims v) {k i : Nat} (hk : k < 8) (hi : i < P.dims.getD k 0) :
    (v.getD k []).getD i 0 = elt v (P.pos k i) := (block_elt v P.dims hv k i (by rw [h.eight]; exact hk) hi).1

/-- bounded components. -/
def Prob.InRange (P : Prob K) (c : Nat) : Prop := c < P.dims.getD 0 0 ∨ ((P.dims.take 4).sum ≤ c ∧ c < (P.dims.take 5).sum + P.dims.getD 5 0)

theorem Prob.Active.inRange (h : P.OK) {w : Nat → K} {c : Nat} (a : P.Active w c) : P.InRange c := by
  obtain ⟨p1, p2, p3⟩ := pos_facts h
  cases a with
  | lower k hk hx hc _ => left; rw [hc]; exact hx
  | upper k hk hx hc _ => left; rw [hc]; exact hx
  | zL i hi hc _ => right; rw [hc, pos_add]; omega
  | zU i hi hc _ => right; rw [hc, pos_add]; omega

/-- what is found by the bound check: the component is not at its bound, and the change leads to a bound. -/
structure Prob.Found (P : Prob K) (sol : Blocks K) (c : Nat) (d : K) : Prop where
  range : P.InRange c
  active : ∀ w : Nat → K, w c = elt P.curr c + d → P.Active w c
  not : ¬ P.Active (elt sol) c

theorem violX_found (h : P.OK) {sol : Blocks K} (hs : Shape P.dims sol) {i : Nat} (hi : i < P.dims.getD 0 0) {r : Nat × K} (hr : P.violX sol i = some r) :
    r.1 = i ∧ P.Found sol r.1 r.2 := by
  obtain ⟨p1, p2, p3⟩ := pos_facts h
  unfold Prob.violX at hr
  dsimp only at hr
  rw [x_elt h hs hi, x_elt h h.curr hi] at hr
  have heps := h.eps
  split at hr
  · rename_i hg
    cases hr
    unfold gap at hg ⊢
    cases hl : (P.pL.zip P.xL).lookup i with
    | none => rw [hl] at hg; exact absurd hg (by simp; exact heps)
    | some b =>
      rw [hl] at hg
      simp only [x_elt h hs hi] at hg ⊢
      obtain ⟨k, k1, k2, k3⟩ := lookup_some h.lenL hl
      refine ⟨trivial, Or.inl hi, ?_, ?_⟩
      · intro w hw
        refine .lower k k1 (by rw [k2]; exact hi) k2.symm ?_
        rw [hw, k3]; ring
      · intro a
        cases a with
        | lower l hl' hx hc e =>
          have := lookup_at h.nodupL h.lenL hl'
          rw [← hc, hl] at this
          cases this
          rw [e] at hg
          linarith
        | upper l hl' hx hc e =>
          have := h.order k l k1 hl' (by rw [k2, ← hc])
          rw [k3] at this
          rw [e] at hg
          linarith
        | zL j hj hc e => rw [pos_add] at hc; omega
        | zU j hj hc e => rw [pos_add] at hc; omega
  · split at hr
    · rename_i hg
      cases hr
      unfold gap at hg ⊢
      cases hl : (P.pU.zip P.xU).lookup i with
      | none => rw [hl] at hg; exact absurd hg (by simp; exact heps)
      | some b =>
        rw [hl] at hg
        simp only [x_elt h hs hi] at hg ⊢
        obtain ⟨k, k1, k2, k3⟩ := lookup_some h.lenU hl
        refine ⟨trivial, Or.inl hi, ?_, ?_⟩
        · intro w hw
          refine .upper k k1 (by rw [k2]; exact hi) k2.symm ?_
          rw [hw, k3]; ring
        · intro a
          cases a with
          | upper l hl' hx hc e =>
            have := lookup_at h.nodupU h.lenU hl'
            rw [← hc, hl] at this
            cases this
            rw [e] at hg
            linarith
          | lower l hl' hx hc e =>
            have := h.order l k hl' k1 (by rw [k2, ← hc])
            rw [k3] at this
            rw [e] at hg
            linarith
          | zL j hj hc e => rw [pos_add] at hc; omega
          | zU j hj hc e => rw [pos_add] at hc; omega
    · simp at hr

theorem violZ_found (h : P.OK) {sol : Blocks K} (hs : Shape P.dims sol) {k i : Nat} (hk : k = 4 ∨ k = 5) (hi : i < P.dims.getD k 0) {r : Nat × K}
    (hr : P.violZ sol k i = some r) : r.1 = P.pos k i ∧ P.Found sol r.1 r.2 := by
  obtain ⟨p1, p2, p3⟩ := pos_facts h
  unfold Prob.violZ at hr
  rw [z_elt h hs (by omega) hi, z_elt h h.curr (by omega) hi] at hr
  have heps := h.eps
  split at hr
  · rename_i hg
    cases hr
    have e0 : i + (P.dims.take k).sum = P.pos k i := by unfold Prob.pos; omega
    dsimp only
    rw [e0]
    refine ⟨rfl, ?_, ?_, ?_⟩
    · right; rw [pos_add]; rcases hk with e | e <;> subst e <;> omega
    · intro w hw
      have : w (P.pos k i) = 0 := by rw [hw]; ring
      rcases hk with e | e <;> subst e
      · exact .zL i hi rfl this
      · exact .zU i hi rfl this
    · intro a
      have hp : P.dims.getD 0 0 ≤ P.pos k i := by rw [pos_add]; rcases hk with e | e <;> subst e <;> omega
      cases a with
      | lower l hl' hx hc e => omega
      | upper l hl' hx hc e => omega
      | zL j hj hc e => rw [e] at hg; linarith
      | zU j hj hc e => rw [e] at hg; linarith
  · simp at hr

theorem boundCheck_found (h : P.OK) {sol : Blocks K} (hs : Shape P.dims sol) {r : Nat × K} (hr : r ∈ P.boundCheck sol) : P.Found sol r.1 r.2 := by
  unfold Prob.boundCheck at hr
  simp only [List.mem_append, List.mem_filterMap, List.mem_range] at hr
  rcases hr with (⟨i, hi, e⟩ | ⟨i, hi, e⟩) | ⟨i, hi, e⟩
  · exact (violX_found h hs hi e).2
  · exact (violZ_found h hs (Or.inl rfl) hi e).2
  · exact (violZ_found h hs (Or.inr rfl) hi e).2

theorem nodup_part {n : Nat} {f : Nat → Option (Nat × K)} {g : Nat → Nat} (hg : ∀ i j, g i = g j → i = j) (h : ∀ i r, i < n → f i = some r → r.1 = g i) :
    (((List.range n).filterMap f).map Prod.fst).Nodup ∧ ∀ c ∈ ((List.range n).filterMap f).map Prod.fst, ∃ i, i < n ∧ c = g i := by
  constructor
  · induction n with
    | zero => simp
    | succ n ih =>
      rw [List.range_succ, List.filterMap_append, List.map_append, List.nodup_append]
      refine ⟨ih fun i r hi => h i r (by omega), ?_, ?_⟩
      · cases hf : f n <;> simp [hf]
      · intro a ha b hb e
        subst e
        cases hf : f n with
        | none => simp [hf] at hb
        | some r =>
          simp [hf] at hb
          have e1 := h n r (by omega) hf
          simp only [List.mem_map, List.mem_filterMap, List.mem_range] at ha
          obtain ⟨q, ⟨i, hi, hq⟩, e2⟩ := ha
          have e3 := h i q (by omega) hq
          have := hg i n (by rw [← e3, e2, hb, e1])
          omega
  · intro c hc
    simp only [List.mem_map, List.mem_filterMap, List.mem_range] at hc
    obtain ⟨q, ⟨i, hi, hq⟩, e2⟩ := hc
    exact ⟨i, hi, by rw [← e2, h i q hi hq]⟩

theorem boundCheck_nodup (h : P.OK) {sol : Blocks K} (hs : Shape P.dims sol) : ((P.boundCheck sol).map Prod.fst).Nodup := by
  obtain ⟨p1, p2, p3⟩ := pos_facts h
  unfold Prob.boundCheck
  obtain ⟨a1, a2⟩ := nodup_part (g := fun i => i) (fun i j e => e) (fun i r hi e => (violX_found h hs hi e).1)
  obtain ⟨b1, b2⟩ := nodup_part (g := P.pos 4) (fun i j e => by rw [pos_add, pos_add 4 j] at e; omega) (fun i r hi e => (violZ_found h hs (Or.inl rfl) hi e).1)
  obtain ⟨c1, c2⟩ := nodup_part (g := P.pos 5) (fun i j e => by rw [pos_add, pos_add 5 j] at e; omega) (fun i r hi e => (violZ_found h hs (Or.inr rfl) hi e).1)
  rw [List.map_append, List.map_append, List.nodup_append, List.nodup_append]
  refine ⟨⟨a1, b1, ?_⟩, c1, ?_⟩
  · intro x hx y hy e
    obtain ⟨i, hi, rfl⟩ := a2 x hx
    obtain ⟨j, hj, rfl⟩ := b2 y hy
    rw [pos_add] at e; omega
  · intro x hx y hy e
    obtain ⟨j, hj, rfl⟩ := c2 y hy
    rcases List.mem_append.1 hx with hx | hx
    · obtain ⟨i, hi, rfl⟩ := a2 x hx
      rw [pos_add] at e; omega
    · obtain ⟨i, hi, rfl⟩ := b2 x hx
      rw [pos_add, pos_add 5 j] at e; omega

/-- no violation found: within the bounds. -/
theorem boundCheck_nil (h : P.OK) {sol : Blocks K} (hs : Shape P.dims sol) (he : P.boundCheck sol = []) : P.Within (elt sol) := by
  unfold Prob.boundCheck at he
  simp only [List.append_eq_nil_iff, List.filterMap_eq_nil_iff, List.mem_range] at he
  obtain ⟨⟨e1, e2⟩, e3⟩ := he
  have heps := h.eps
  constructor
  · intro k hk hx
    have := e1 _ hx
    unfold Prob.violX at this
    dsimp only at this
    split at this
    · simp at this
    · rename_i hg
      unfold gap at hg
      rw [lookup_at h.nodupL h.lenL hk] at hg
      simp only [x_elt h hs hx] at hg
      linarith
  · intro k hk hx
    have := e1 _ hx
    unfold Prob.violX at this
    dsimp only at this
    split at this
    · simp at this
    · split at this
      · simp at this
      · rename_i hg
        unfold gap at hg
        rw [lookup_at h.nodupU h.lenU hk] at hg
        simp only [x_elt h hs hx] at hg
        linarith
  · intro i hi
    have := e2 i hi
    unfold Prob.violZ at this
    split at this
    · simp at this
    · rename_i hg
      rw [z_elt h hs (by omega) hi] at hg
      linarith
  · intro i hi
    have := e3 i hi
    unfold Prob.violZ at this
    split at this
    · simp at this
    · rename_i hg
      rw [z_elt h hs (by omega) hi] at hg
      linarith

end
end Verif.Sens
