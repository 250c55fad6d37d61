import Verif.Proof.Piecewise2

set_option linter.unusedSectionVars false
set_option linter.unusedSimpArgs false
set_option linter.unusedVariables false

/-! # C85: the piecewise linear penalty function of `line_search_method=cg-penalty` -/

namespace Verif.Piecewise

variable {K : Type} [Field K] [LinearOrder K] [IsStrictOrderedRing K] {P : List (K × K)} {l : List (Entry K)} {b v : K}

/-- **C85** After a start an update is always possible. -/
theorem update_defined (h : Hist P l) (b v : K) : ∃ l', updateEntry l b v = some l' := by
  obtain ⟨e, rest, rfl, -⟩ := (inv_hist h).head
  exact ⟨_, rfl⟩

/-- the entry that is active at `r`. -/
theorem active : ∀ (rest : List (Entry K)) (e : Entry K) (r : K), Chain (e :: rest) → e.r ≤ r →
    ∃ pre x post, e :: rest = pre ++ x :: post ∧ x.r ≤ r ∧ (∀ y ∈ post.head?, r < y.r) ∧ ∀ y ∈ e :: rest, x.at r ≤ y.at r := by
  intro rest
  induction rest with
  | nil => intro e r hc hr; exact ⟨[], e, [], rfl, hr, by simp, by simp⟩
  | cons e2 rest ih =>
    intro e r hc hr
    by_cases h : r < e2.r
    · exact ⟨[], e, e2 :: rest, rfl, hr, by simpa using h, chain_before _ e r hc (by simpa using h.le)⟩
    · have h := not_lt.1 h
      obtain ⟨pre, x, post, h1, h2, h3, h4⟩ := ih e2 r hc.2.2.2 h
      refine ⟨e :: pre, x, post, by rw [h1]; rfl, h2, h3, fun y hy => ?_⟩
      rcases List.mem_cons.1 hy with rfl | hy
      · exact (h4 e2 (by simp)).trans (chain_after hc h)
      · exact h4 y hy

theorem chain_sorted : ∀ (rest : List (Entry K)) (e : Entry K), Chain (e :: rest) → ∀ y ∈ rest, e.r < y.r ∧ y.v < e.v := by
  intro rest
  induction rest with
  | nil => intro e _ y hy; simp at hy
  | cons e2 rest ih =>
    intro e hc y hy
    rcases List.mem_cons.1 hy with rfl | hy
    · exact ⟨hc.1, hc.2.1⟩
    · have := ih e2 hc.2.2.2 y hy
      exact ⟨hc.1.trans this.1, this.2.trans hc.2.1⟩

theorem chain_append : ∀ (pre : List (Entry K)) (x : Entry K) (post : List (Entry K)), Chain (pre ++ x :: post) → Chain (x :: post) ∧ ∀ y ∈ pre, y.r < x.r ∧ x.v < y.v := by
  intro pre
  induction pre with
  | nil => intro x post h; exact ⟨h, by simp⟩
  | cons e pre ih =>
    intro x post h
    obtain ⟨h1, h2⟩ := ih x post h.tail
    refine ⟨h1, fun y hy => ?_⟩
    rcases List.mem_cons.1 hy with rfl | hy
    · exact chain_sorted _ y h x (by simp)
    · exact h2 y hy

theorem pairwise_of_chain : ∀ (l : List (Entry K)), Chain l → (∀ e ∈ l, 0 ≤ e.r) → l.Pairwise fun a c => a.r < c.r ∧ c.v < a.v ∧ a.b < c.b := by
  intro l
  induction l with
  | nil => intro _ _; exact List.Pairwise.nil
  | cons e l ih =>
    intro h h0
    refine List.Pairwise.cons (fun y hy => ?_) (ih h.tail fun y hy => h0 y (by simp [hy]))
    obtain ⟨h1, h2⟩ := chain_sorted l e h y hy
    refine ⟨h1, h2, ?_⟩
    cases l with
    | nil => simp at hy
    | cons e2 l =>
      have h3 := chain_before _ e e2.r h (by simp) y (by simp [List.mem_cons.1 hy])
      unfold Entry.at at h3
      have h4 : 0 < e2.r := lt_of_le_of_lt (h0 e (by simp)) h.1
      nlinarith [mul_pos h4 (sub_pos.2 h2)]

/-- **C85** The list stores the pointwise minimum, over all points since the start, of the penalty functions: the breakpoints start with 0 and increase, infeasibilities
decrease and barrier values increase along the list, and for each penalty parameter the last entry whose breakpoint is not larger is one of the points with the smallest
penalty function value. -/
theorem envelope (h : Hist P l) :
    (∃ e rest, l = e :: rest ∧ e.r = 0) ∧ (l.Pairwise fun a c => a.r < c.r ∧ c.v < a.v ∧ a.b < c.b) ∧ (∀ e ∈ l, (e.b, e.v) ∈ P) ∧
    ∀ r, 0 ≤ r → ∃ pre e post, l = pre ++ e :: post ∧ e.r ≤ r ∧ (∀ y ∈ post, r < y.r) ∧ ∀ p ∈ P, e.b + r * e.v ≤ p.1 + r * p.2 := by
  have hi := inv_hist h
  obtain ⟨e, rest, rfl, h0⟩ := hi.head
  have hnn : ∀ x ∈ e :: rest, 0 ≤ x.r := by
    intro x hx
    rcases List.mem_cons.1 hx with rfl | hx
    · exact h0.ge
    · rw [← h0]; exact (chain_sorted _ e hi.chain x hx).1.le
  refine ⟨⟨e, rest, rfl, h0⟩, pairwise_of_chain _ hi.chain hnn, hi.lines, fun r hr => ?_⟩
  obtain ⟨pre, x, post, h1, h2, h3, h4⟩ := active rest e r hi.chain (by rw [h0]; exact hr)
  refine ⟨pre, x, post, h1, h2, fun y hy => ?_, fun p hp => ?_⟩
  · have hx := chain_append pre x post (h1 ▸ hi.chain)
    cases post with
    | nil => simp at hy
    | cons a post =>
      rcases List.mem_cons.1 hy with rfl | hy
      · exact h3 _ rfl
      · exact (h3 a rfl).trans (chain_sorted _ a hx.1.tail y hy).1
  · obtain ⟨y, hy, h5⟩ := hi.below p hp r hr
    exact (h4 y hy).trans h5

theorem test_iff (h : Hist P l) {last : Entry K} (hl : l.getLast? = some last) : acceptTest l last b v = true ↔ Better P b v := by
  have hi := inv_hist h
  obtain ⟨e0, rest, rfl, h0⟩ := hi.head
  obtain ⟨-, hpw, -, henv⟩ := envelope h
  have hlast : ∃ pre, e0 :: rest = pre ++ [last] := ⟨_, (List.dropLast_append_getLast? last hl).symm⟩
  unfold acceptTest
  simp only [Bool.or_eq_true, List.any_eq_true, decide_eq_true_eq]
  constructor
  · rintro (⟨e, he, hlt⟩ | hlt)
    · have hr : 0 ≤ e.r := by
        rcases List.mem_cons.1 he with rfl | he
        · exact h0.ge
        · rw [← h0]; exact (chain_sorted _ e0 hi.chain e he).1.le
      refine ⟨e.r, hr, fun p hp => ?_⟩
      obtain ⟨pre, x, post, h1, h2, h3, h4⟩ := henv e.r hr
      have hx : e = x := by
        have hm : e ∈ pre ++ x :: post := by rw [← h1]; exact he
        rcases List.mem_append.1 hm with hm | hm
        · have := ((chain_append pre x post (h1 ▸ hi.chain)).2 e hm).1
          exact absurd (lt_of_lt_of_le this h2) (lt_irrefl _)
        · rcases List.mem_cons.1 hm with hm | hm
          · exact hm
          · exact absurd (h3 e hm) (lt_irrefl _)
      subst hx
      have := h4 p hp
      linarith
    · obtain ⟨pre, hpre⟩ := hlast
      have hlr : 0 ≤ last.r := by
        have hm : last ∈ e0 :: rest := by rw [hpre]; simp
        rcases List.mem_cons.1 hm with hm | hm
        · rw [hm]; exact h0.ge
        · rw [← h0]; exact (chain_sorted _ e0 hi.chain last hm).1.le
      have hpos : 0 < last.v - v := sub_pos.2 hlt
      obtain ⟨R, hR1, hR2⟩ : ∃ R, last.r ≤ R ∧ b + R * v < last.b + R * last.v := by
        refine ⟨max last.r ((b - last.b) / (last.v - v) + 1), le_max_left _ _, ?_⟩
        have h5 := le_max_right last.r ((b - last.b) / (last.v - v) + 1)
        generalize max last.r ((b - last.b) / (last.v - v) + 1) = R at h5
        have h6 : (b - last.b) / (last.v - v) < R := by linarith
        rw [div_lt_iff₀ hpos] at h6
        nlinarith
      have hR0 := hlr.trans hR1
      refine ⟨R, hR0, fun p hp => ?_⟩
      obtain ⟨pr, x, po, h1, h2, h3, h4⟩ := henv R hR0
      have hx : last = x := by
        have hm : last ∈ pr ++ x :: po := by rw [← h1, hpre]; simp
        rcases List.mem_append.1 hm with hm | hm
        · -- then x comes after last
          exfalso
          have hlt' := ((chain_append pr x po (h1 ▸ hi.chain)).2 last hm).1
          have hxm : x ∈ pre ++ [last] := by rw [← hpre, h1]; simp
          rcases List.mem_append.1 hxm with hx | hx
          · have := ((chain_append pre last [] (hpre ▸ hi.chain)).2 x hx).1
            exact absurd (hlt'.trans this) (lt_irrefl _)
          · rw [List.mem_singleton.1 hx] at hlt'; exact absurd hlt' (lt_irrefl _)
        · rcases List.mem_cons.1 hm with hm | hm
          · exact hm
          · exact absurd (lt_of_lt_of_le (h3 last hm) hR1) (lt_irrefl _)
      subst hx
      have := h4 p hp
      linarith
  · rintro ⟨r, hr, hP⟩
    by_contra hne
    rw [not_or] at hne
    obtain ⟨hn1, hn2⟩ := hne
    have hn1 : ∀ e ∈ e0 :: rest, 0 ≤ G b v e := by
      intro e he
      by_contra hh
      exact hn1 ⟨e, he, by have := not_le.1 hh; unfold G at this; linarith⟩
    obtain ⟨pre, x, post, h1, h2, h3, h4⟩ := active rest e0 r hi.chain (by rw [h0]; exact hr)
    have hxm : x ∈ e0 :: rest := by rw [h1]; simp
    have hx := hP (x.b, x.v) (hi.lines x hxm)
    dsimp only at hx
    have hG := hn1 x hxm
    have hat := G_at (b := b) (v := v) x r
    have hx' : b + r * v - x.at r < 0 := by unfold Entry.at; linarith
    have hv : v < x.v := by
      by_contra hv
      have := mul_nonneg (sub_nonneg.2 h2) (sub_nonneg.2 (not_lt.1 hv))
      linarith
    cases post with
    | nil =>
      have : last = x := by
        have h5 : (e0 :: rest).getLast? = some x := by rw [h1]; simp
        rw [h5] at hl; exact (Option.some.inj hl).symm
      rw [this] at hn2
      exact hn2 hv
    | cons y post =>
      have hc := (chain_append pre x (y :: post) (h1 ▸ hi.chain)).1
      have hGy := hn1 y (by rw [h1]; simp)
      have hn := G_next (b := b) (v := v) hc.2.2.1
      have := mul_nonneg (sub_nonneg.2 (h3 y rfl).le) (sub_nonneg.2 hv.le)
      nlinarith

/-- **C85** With fewer than 100 entries a point is acceptable exactly if for some penalty parameter its penalty function value is smaller than those of all points since
the start. -/
theorem acceptable_iff (h : Hist P l) (hn : l.length < 100) (b v : K) : ∃ a, acceptable l b v = some a ∧ (a = true ↔ Better P b v) := by
  obtain ⟨e0, rest, rfl, h0⟩ := (inv_hist h).head
  have hl : ∃ last, (e0 :: rest).getLast? = some last := ⟨_, List.getLast?_eq_some_getLast (by simp)⟩
  obtain ⟨last, hl⟩ := hl
  refine ⟨acceptTest (e0 :: rest) last b v, ?_, test_iff h hl⟩
  unfold acceptable
  rw [hl]
  have : ¬maxPieces ≤ (e0 :: rest).length := by show ¬100 ≤ _; omega
  simp only [this, if_false]

/-- **C85** (deviation) With 100 or more entries no point is acceptable; unless it is better than the first and not better than the second point at their breakpoints, the
program reads beyond the end of the array. -/
theorem acceptable_full (hn : 100 ≤ l.length) (b v : K) : acceptable l b v = some false ∨ acceptable l b v = none := by
  unfold acceptable
  split
  · exact .inr rfl
  · rw [if_pos (show maxPieces ≤ l.length from hn)]
    split
    · split
      · exact .inl rfl
      · exact .inr rfl
    · exact .inr rfl

/-- **C85** `BiggestBarr` is the barrier value of a point with the smallest infeasibility, the smallest value among those. -/
theorem biggest_barrier (h : Hist P l) : ∃ p ∈ P, biggestBarr l = p.1 ∧ ∀ q ∈ P, p.2 < q.2 ∨ (p.2 = q.2 ∧ p.1 ≤ q.1) := by
  have hi := inv_hist h
  obtain ⟨e0, rest, rfl, h0⟩ := hi.head
  obtain ⟨last, hl⟩ : ∃ last, (e0 :: rest).getLast? = some last := ⟨_, List.getLast?_eq_some_getLast (by simp)⟩
  have hm : last ∈ e0 :: rest := List.mem_of_getLast? hl
  refine ⟨(last.b, last.v), hi.lines last hm, by unfold biggestBarr; rw [hl]; rfl, fun q hq => ?_⟩
  have hno : ¬acceptTest (e0 :: rest) last q.1 q.2 = true := by
    intro ht
    obtain ⟨r, -, hr⟩ := (test_iff h hl).1 ht
    exact absurd (hr q hq) (lt_irrefl _)
  have hv : last.v ≤ q.2 := by
    by_contra hv
    exact hno (by unfold acceptTest; simp [not_le.1 hv])
  rcases hv.lt_or_eq with h1 | h1
  · exact .inl h1
  · refine .inr ⟨h1, ?_⟩
    by_contra hb
    refine hno ?_
    unfold acceptTest
    simp only [Bool.or_eq_true, List.any_eq_true, decide_eq_true_eq]
    exact .inl ⟨last, hm, by rw [← h1]; have := not_le.1 hb; dsimp only at this; linarith⟩

end Verif.Piecewise
