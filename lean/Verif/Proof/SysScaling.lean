import Verif.Spec.SysScaling
import Verif.Proof.Matrix

/-! # Proofs for C87 -/

namespace Verif.SysScaling
open Finset Verif.Matrix

set_option linter.unusedSectionVars false
set_option linter.unusedSimpArgs false
set_option linter.unusedVariables false

section
variable {K : Type} [Field K] [LinearOrder K] [IsStrictOrderedRing K]

/-- the row of the expansion matrix picks the slack. -/
theorem exp_row {pos : List Nat} {slack : List K} (hn : pos.Nodup) {j : Nat} {o : Option K} (h : IsSlack pos slack j o) (r : Nat) :
    ∑ k ∈ range pos.length, ent (.expansion r pos) j k * slack.getD k 0 = o.getD 0 := by
  cases o with
  | none =>
    apply sum_eq_zero
    intro k hk
    have : ¬ pos[k]? = some j := fun e => h (List.mem_of_getElem? e)
    simp [ent, this]
  | some v =>
    obtain ⟨k, h1, h2⟩ := h
    have hk : k < pos.length := by
      rw [List.getElem?_eq_some_iff] at h1; exact h1.1
    rw [sum_eq_single_of_mem k (mem_range.2 hk)]
    · simp [ent, h1, List.getD_eq_getElem?_getD, h2]
    · intro i hi hne
      have : ¬ pos[i]? = some j := by
        intro e
        apply hne
        rw [List.getElem?_eq_some_iff] at e h1
        obtain ⟨a, b⟩ := e
        obtain ⟨c, d⟩ := h1
        exact (List.Nodup.getElem_inj_iff hn).1 (b.trans d.symm)
      simp [ent, this]

theorem slackTmp_get {hom : List K → Option K} (hh : HomOK hom) (junk : Nat → K) {it : Iter K} (h : it.OK) {j : Nat} (hj : j < it.ns)
    {l u : Option K} (hl : IsSlack it.posL it.slackL j l) (hu : IsSlack it.posU it.slackU j u) :
    (slackTmp hom junk it).getD j 0 = min (l.getD 0 + u.getD 0) 1 := by
  unfold slackTmp
  dsimp only
  have e1 := expMult_ok hh it.ns it.posL 1 it.slackL 0 ((List.range it.ns).map junk) h.lenL (by simp)
  generalize expMult hom it.posL 1 it.slackL 0 ((List.range it.ns).map junk) = t1 at *
  have e2 := expMult_ok hh it.ns it.posU 1 it.slackU 1 t1 h.lenU e1.1
  generalize expMult hom it.posU 1 it.slackU 1 t1 = t2 at *
  have r1 := e1.2 j hj
  have r2 := e2.2 j hj
  rw [exp_row h.nodupL hl] at r1
  rw [exp_row h.nodupU hu, r1] at r2
  have hl2 : j < t2.length := by rw [e2.1]; exact hj
  rw [List.getD_eq_getElem _ _ hl2] at r2
  rw [List.getD_eq_getElem _ _ (by simpa using hl2), List.getElem_map, r2]
  ring_nf

theorem isSlack_total (pos : List Nat) (slack : List K) (h : slack.length = pos.length) (j : Nat) : ∃ o, IsSlack pos slack j o := by
  by_cases hj : j ∈ pos
  · obtain ⟨k, hk, e⟩ := List.getElem_of_mem hj
    exact ⟨some (slack[k]'(by omega)), k, by rw [List.getElem?_eq_getElem hk, e], by rw [List.getElem?_eq_getElem (by omega)]⟩
  · exact ⟨none, hj⟩

theorem isSlack_mem {pos : List Nat} {slack : List K} {j : Nat} {v : K} (h : IsSlack pos slack j (some v)) : v ∈ slack := by
  obtain ⟨k, _, h2⟩ := h
  exact List.mem_of_getElem? h2

theorem isSlack_some {pos : List Nat} {slack : List K} {j : Nat} {o : Option K} (h : IsSlack pos slack j o) (hj : j ∈ pos) : ∃ v, o = some v := by
  cases o with
  | none => exact absurd hj h
  | some v => exact ⟨v, rfl⟩

end

section
variable {K : Type} [Field K]

theorem general_elem (airn ajcn : Nat → Nat) (a : Nat → K) (n r c : Nat) :
    genElem (general airn ajcn a n) r c = Triplet.symElem n airn ajcn a r c := by
  induction n with
  | zero => simp [general, genElem, Triplet.symElem]
  | succ n ih =>
    have e : genElem (general airn ajcn a (n + 1)) r c = genElem (general airn ajcn a n) r c +
        genElem (if airn n = ajcn n then [(airn n, ajcn n, a n)] else [(airn n, ajcn n, a n), (ajcn n, airn n, a n)]) r c := by
      simp [general, genElem]
    rw [e, ih]
    unfold Triplet.symElem
    rw [sum_range_succ]
    congr 1
    by_cases h : airn n = ajcn n
    · rw [if_pos h]
      simp only [genElem, List.map_cons, List.map_nil, List.sum_cons, List.sum_nil, add_zero]
      congr 1
      rw [h]
      apply propext
      constructor
      · exact fun h => Or.inl h
      · rintro (h | h)
        · exact h
        · exact ⟨h.2, h.1⟩
    · rw [if_neg h]
      simp only [genElem, List.map_cons, List.map_nil, List.sum_cons, List.sum_nil, add_zero]
      by_cases p : airn n = r + 1 ∧ ajcn n = c + 1
      · by_cases q : ajcn n = r + 1 ∧ airn n = c + 1
        · exact absurd (p.1.trans q.1.symm) h
        · rw [if_pos p, if_neg q, add_zero, if_pos (Or.inl p)]
      · by_cases q : ajcn n = r + 1 ∧ airn n = c + 1
        · rw [if_neg p, if_pos q, zero_add, if_pos (Or.inr ⟨q.2, q.1⟩)]
        · rw [if_neg p, if_neg q, add_zero, if_neg]
          rintro (h | h)
          · exact p h
          · exact q ⟨h.2, h.1⟩

theorem general_length (airn ajcn : Nat → Nat) (a : Nat → K) (n : Nat) : (general airn ajcn a n).length ≤ 2 * n := by
  induction n with
  | zero => simp [general]
  | succ n ih =>
    simp only [general, List.length_append]
    split <;> simp <;> omega

end

theorem add_fin {a b : Num} {q : ℚ} (h : a + b = .fin q) : (∃ x, a = .fin x) ∧ ∃ y, b = .fin y := by
  have h' : Num.add a b = .fin q := h
  cases a <;> cases b <;> simp [Num.add] at h' ⊢

theorem sumMax_spec (f : Nat → Num) (n : Nat) {q : ℚ} (h : (sumMax f n).1 = .fin q) :
    (∀ i, i < n → ∃ x, f i = .fin x) ∧ ∃ m, (sumMax f n).2 = .fin m ∧ ∀ i x, i < n → f i = .fin x → x ≤ m := by
  induction n generalizing q with
  | zero => exact ⟨fun i hi => absurd hi (Nat.not_lt_zero _), 0, rfl, fun i x hi => absurd hi (Nat.not_lt_zero _)⟩
  | succ n ih =>
    have h' : (sumMax f n).1 + f n = .fin q := h
    obtain ⟨⟨x, hx⟩, y, hy⟩ := add_fin h'
    obtain ⟨h1, m, h2, h3⟩ := ih hx
    have e : (sumMax f (n + 1)).2 = stdMax (sumMax f n).2 (f n) := rfl
    refine ⟨fun i hi => ?_, ?_⟩
    · rcases Nat.lt_succ_iff_lt_or_eq.1 hi with hi | rfl
      · exact h1 i hi
      · exact ⟨y, hy⟩
    · rw [e, h2, hy]
      unfold stdMax
      by_cases hm : m < y
      · rw [if_pos (by simpa using hm)]
        refine ⟨y, rfl, fun i x hi hxi => ?_⟩
        rcases Nat.lt_succ_iff_lt_or_eq.1 hi with hi | rfl
        · exact (h3 i x hi hxi).trans hm.le
        · have := hy.symm.trans hxi; cases this; exact le_refl _
      · rw [if_neg (by simpa using hm)]
        refine ⟨m, rfl, fun i x hi hxi => ?_⟩
        rcases Nat.lt_succ_iff_lt_or_eq.1 hi with hi | rfl
        · exact h3 i x hi hxi
        · have := hy.symm.trans hxi; cases this; exact not_lt.1 hm

theorem sum_finite (f : Nat → Num) (n : Nat) (h : ∀ i, i < n → ∃ x, f i = .fin x) : ∃ q, (sumMax f n).1 = .fin q := by
  induction n with
  | zero => exact ⟨0, rfl⟩
  | succ n ih =>
    obtain ⟨q, hq⟩ := ih fun i hi => h i (by omega)
    obtain ⟨x, hx⟩ := h n (by omega)
    refine ⟨q + x, ?_⟩
    show (sumMax f n).1 + f n = _
    rw [hq, hx]; rfl

theorem sumMax_max (f : Nat → Num) (n : Nat) (b : ℚ) (hb : 0 ≤ b) (h : ∀ i, i < n → ∃ x, f i = .fin x ∧ x ≤ b) :
    ∃ m, (sumMax f n).2 = .fin m ∧ m ≤ b := by
  induction n with
  | zero => exact ⟨0, rfl, hb⟩
  | succ n ih =>
    obtain ⟨m, hm, hmb⟩ := ih fun i hi => h i (by omega)
    obtain ⟨x, hx, hxb⟩ := h n (by omega)
    show ∃ m, stdMax (sumMax f n).2 (f n) = _ ∧ _
    rw [hm, hx]
    unfold stdMax
    split
    · exact ⟨x, rfl, hxb⟩
    · exact ⟨m, rfl, hmb⟩

end Verif.SysScaling
