import Verif.Proof.Piecewise

set_option linter.unusedSectionVars false
set_option linter.unusedSimpArgs false
set_option linter.unusedVariables false

/-! # The new list is a chain again and the envelope of the old one and the new point -/

namespace Verif.Piecewise

variable {K : Type} [Field K] [LinearOrder K] [IsStrictOrderedRing K] {b v : K}

/-- value of the penalty function. -/
def Entry.at (e : Entry K) (r : K) : K := e.b + r * e.v

theorem cross_eq {e : Entry K} (h : v ≠ e.v) : b + cross b v e * v = e.b + cross b v e * e.v := by
  unfold cross
  have : v - e.v ≠ 0 := sub_ne_zero.2 h
  field_simp
  ring

/-- on a piece: `G` at `r`. -/
theorem G_at (e : Entry K) (r : K) : b + r * v - e.at r = G b v e + (r - e.r) * (v - e.v) := by unfold G Entry.at; ring

theorem G_cross {e : Entry K} (h : v ≠ e.v) : G b v e + (cross b v e - e.r) * (v - e.v) = 0 := by
  rw [← G_at, cross_eq h]; unfold Entry.at; ring

theorem chain_swap {e e' : Entry K} {l : List (Entry K)} (hb : e'.b = e.b) (hv : e'.v = e.v) (hr : ∀ e2 ∈ l.head?, e'.r < e2.r) (h : Chain (e :: l)) : Chain (e' :: l) := by
  cases l with
  | nil => trivial
  | cons e2 l => exact ⟨hr e2 rfl, by rw [hv]; exact h.2.1, by rw [hb, hv]; exact h.2.2.1, h.2.2.2⟩

theorem chainB : ∀ (rest : List (Entry K)) (e : Entry K) (t : K), Chain (e :: rest) → G b v e < 0 → t ≤ e.r → Chain (⟨t, b, v⟩ :: phB b v (e :: rest)) := by
  intro rest
  induction rest with
  | nil =>
    intro e t hc hg ht
    rw [phB]
    split
    · split
      · rename_i _ h3
        have h3 : 0 < v - e.v := h3
        have hx := G_cross (b := b) (v := v) (e := e) (by intro h; rw [h] at h3; simp at h3)
        refine ⟨?_, by show e.v < v; linarith, ?_, trivial⟩
        · show t < cross b v e
          by_contra hh
          have := mul_nonneg (sub_nonneg.2 ((not_lt.1 hh).trans ht)) h3.le
          nlinarith
        · exact cross_eq (by intro h; rw [h] at h3; simp at h3)
      · trivial
    · rw [phB]; trivial
  | cons e2 rest ih =>
    intro e t hc hg ht
    obtain ⟨c1, c2, c3, c4⟩ := hc
    have hn := G_next (b := b) (v := v) c3
    rw [phB]
    change Chain (_ :: if 0 ≤ G b v e2 then (if 0 < G b v e2 then _ else _) ++ _ else _)
    by_cases h2 : 0 ≤ G b v e2
    · have hv : e.v < v := by
        by_contra hv
        have := mul_nonneg (sub_nonneg.2 c1.le) (sub_nonneg.2 (not_lt.1 hv))
        nlinarith
      rw [if_pos h2]
      split
      · rename_i h3
        have hx := G_cross (b := b) (v := v) (e := e) (ne_of_gt hv)
        refine ⟨?_, hv, cross_eq (ne_of_gt hv), ?_⟩
        · show t < cross b v e
          by_contra hh
          have := mul_nonneg (sub_nonneg.2 ((not_lt.1 hh).trans ht)) (sub_nonneg.2 hv.le)
          nlinarith
        · refine ⟨?_, c2, c3, c4⟩
          show cross b v e < e2.r
          by_contra hh
          have := mul_nonneg (sub_nonneg.2 (not_lt.1 hh)) (sub_nonneg.2 hv.le)
          nlinarith
      · rename_i h3
        have h0 : G b v e2 = 0 := le_antisymm (not_lt.1 h3) h2
        refine ⟨?_, ?_, ?_, c4⟩
        · show t < e2.r; linarith
        · show e2.v < v; linarith
        · show b + e2.r * v = e2.b + e2.r * e2.v
          unfold G at h0; linarith
    · rw [if_neg h2]
      exact ih e2 t c4 (not_le.1 h2) (by linarith)

theorem chainA : ∀ (rest : List (Entry K)) (e0 e : Entry K), Chain (e0 :: e :: rest) → 0 ≤ G b v e → Chain (e0 :: phA b v (e :: rest)) := by
  intro rest
  induction rest with
  | nil =>
    intro e0 e hc hg
    obtain ⟨c1, c2, c3, c4⟩ := hc
    rw [phA]
    split
    · exact ⟨c1, c2, c3, by rw [phA]; trivial⟩
    · rename_i h2
      have h2 : v - e.v < 0 := not_le.1 h2
      have hx := G_cross (b := b) (v := v) (e := e) (by intro h; rw [h] at h2; simp at h2)
      have hy := cross_eq (b := b) (v := v) (e := e) (by intro h; rw [h] at h2; simp at h2)
      split
      · rename_i h3
        refine ⟨c1, c2, c3, ?_, by show v < e.v; linarith, hy.symm, by rw [phB]; trivial⟩
        show e.r < cross b v e
        by_contra hh
        nlinarith [mul_nonneg (sub_nonneg.2 (not_lt.1 hh)) (sub_nonneg.2 (le_of_lt (sub_neg.1 h2)))]
      · rename_i h3
        have h0 : G b v e = 0 := le_antisymm (not_lt.1 h3) hg
        have hr : cross b v e = e.r := by
          rw [h0, zero_add] at hx
          rcases mul_eq_zero.1 hx with h | h
          · linarith
          · linarith
        refine ⟨by rw [hr]; exact c1, by show v < e0.v; linarith, ?_, by rw [phB]; trivial⟩
        show e0.b + cross b v e * e0.v = b + cross b v e * v
        rw [hy, hr]; exact c3
  | cons e2 rest ih =>
    intro e0 e hc hg
    obtain ⟨c1, c2, c3, d1, d2, d3, d4⟩ := hc
    have hn := G_next (b := b) (v := v) d3
    rw [phA]
    change Chain (_ :: if 0 ≤ G b v e2 then _ else _)
    by_cases h2 : 0 ≤ G b v e2
    · rw [if_pos h2]
      exact ⟨c1, c2, c3, ih e e2 ⟨d1, d2, d3, d4⟩ h2⟩
    · rw [if_neg h2]
      have h2 := not_le.1 h2
      have hv : v < e.v := by
        by_contra hv
        have := mul_nonneg (sub_nonneg.2 d1.le) (sub_nonneg.2 (not_lt.1 hv))
        nlinarith
      have hx := G_cross (b := b) (v := v) (e := e) (ne_of_lt hv)
      have hy := cross_eq (b := b) (v := v) (e := e) (ne_of_lt hv)
      have hlt : cross b v e ≤ e2.r := by
        by_contra hh
        have := mul_pos (sub_pos.2 (not_le.1 hh)) (sub_pos.2 hv)
        nlinarith
      have hB := chainB (b := b) (v := v) rest e2 (cross b v e) d4 h2 hlt
      split
      · rename_i h3
        refine ⟨c1, c2, c3, ?_, hv, hy.symm, hB⟩
        show e.r < cross b v e
        by_contra hh
        nlinarith [mul_nonneg (sub_nonneg.2 (not_lt.1 hh)) (sub_nonneg.2 hv.le)]
      · rename_i h3
        have h0 : G b v e = 0 := le_antisymm (not_lt.1 h3) hg
        have hr : cross b v e = e.r := by
          rw [h0, zero_add] at hx
          rcases mul_eq_zero.1 hx with h | h
          · linarith
          · linarith
        refine ⟨by rw [hr]; exact c1, by show v < e0.v; linarith, ?_, hB⟩
        show e0.b + cross b v e * e0.v = b + cross b v e * v
        rw [hy, hr]; exact c3

theorem linesB : ∀ (l : List (Entry K)) (x : Entry K), x ∈ phB b v l → ∃ y ∈ l, x.b = y.b ∧ x.v = y.v := by
  intro l
  induction l with
  | nil => intro x hx; simp [phB] at hx
  | cons e rest ih =>
    intro x hx
    rw [phB] at hx
    split at hx
    · rcases List.mem_append.1 hx with h | h
      · split at h
        · rw [List.mem_singleton.1 h]; exact ⟨e, by simp, rfl, rfl⟩
        · simp at h
      · exact ⟨x, by simp [h], rfl, rfl⟩
    · obtain ⟨y, hy, h⟩ := ih x hx
      exact ⟨y, by simp [hy], h⟩

theorem linesA : ∀ (l : List (Entry K)) (x : Entry K), x ∈ phA b v l → (x.b = b ∧ x.v = v) ∨ ∃ y ∈ l, x.b = y.b ∧ x.v = y.v := by
  intro l
  induction l with
  | nil => intro x hx; simp [phA] at hx
  | cons e rest ih =>
    intro x hx
    rw [phA] at hx
    split at hx
    · rcases List.mem_cons.1 hx with h | h
      · exact .inr ⟨e, by simp, by rw [h], by rw [h]⟩
      · rcases ih x h with h | ⟨y, hy, h⟩
        · exact .inl h
        · exact .inr ⟨y, by simp [hy], h⟩
    · rcases List.mem_append.1 hx with h | h
      · split at h
        · rw [List.mem_singleton.1 h]; exact .inr ⟨e, by simp, rfl, rfl⟩
        · simp at h
      · rcases List.mem_cons.1 h with h | h
        · rw [h]; exact .inl ⟨rfl, rfl⟩
        · obtain ⟨y, hy, h⟩ := linesB rest x h
          exact .inr ⟨y, by simp [hy], h⟩

/-- before the next breakpoint an entry is below all later ones. -/
theorem chain_before : ∀ (rest : List (Entry K)) (e : Entry K) (r : K), Chain (e :: rest) → (∀ e2 ∈ rest.head?, r ≤ e2.r) → ∀ y ∈ e :: rest, e.at r ≤ y.at r := by
  intro rest
  induction rest with
  | nil => intro e r _ _ y hy; rw [List.mem_singleton.1 hy]
  | cons e2 rest ih =>
    intro e r hc hr y hy
    obtain ⟨c1, c2, c3, c4⟩ := hc
    rcases List.mem_cons.1 hy with h | h
    · rw [h]
    · have h1 : r ≤ e2.r := hr e2 rfl
      have h2 : e.at r ≤ e2.at r := by
        have : e2.at r - e.at r = (e2.r - r) * (e.v - e2.v) := by unfold Entry.at; linear_combination -c3
        have := mul_nonneg (sub_nonneg.2 h1) (sub_nonneg.2 c2.le)
        linarith
      refine h2.trans (ih e2 r c4 (fun e3 h3 => ?_) y h)
      cases rest with
      | nil => simp at h3
      | cons a rest => simp at h3; subst h3; exact h1.trans c4.1.le

/-- after the next breakpoint an entry is above the next one. -/
theorem chain_after {rest : List (Entry K)} {e e2 : Entry K} {r : K} (hc : Chain (e :: e2 :: rest)) (hr : e2.r ≤ r) : e2.at r ≤ e.at r := by
  obtain ⟨c1, c2, c3, c4⟩ := hc
  have : e.at r - e2.at r = (r - e2.r) * (e.v - e2.v) := by unfold Entry.at; linear_combination c3
  have := mul_nonneg (sub_nonneg.2 hr) (sub_nonneg.2 c2.le)
  linarith

theorem domC : ∀ (rest : List (Entry K)) (e : Entry K) (r : K), Chain (e :: rest) → 0 ≤ G b v e → e.v ≤ v → e.r ≤ r →
    ∃ x ∈ e :: rest, x.at r ≤ b + r * v ∧ ∀ y ∈ e :: rest, x.at r ≤ y.at r := by
  intro rest
  induction rest with
  | nil =>
    intro e r hc hg hv hr
    refine ⟨e, by simp, ?_, by simp⟩
    have := G_at (b := b) (v := v) e r
    have := mul_nonneg (sub_nonneg.2 hr) (sub_nonneg.2 hv)
    linarith
  | cons e2 rest ih =>
    intro e r hc hg hv hr
    by_cases h : r ≤ e2.r
    · refine ⟨e, by simp, ?_, chain_before _ e r hc (by simpa using h)⟩
      have := G_at (b := b) (v := v) e r
      have := mul_nonneg (sub_nonneg.2 hr) (sub_nonneg.2 hv)
      linarith
    · have h := le_of_lt (not_le.1 h)
      have hn := G_next (b := b) (v := v) hc.2.2.1
      have h2 : 0 ≤ G b v e2 := by
        have := mul_nonneg (sub_nonneg.2 hc.1.le) (sub_nonneg.2 hv)
        linarith
      obtain ⟨x, hx, h3, h4⟩ := ih e2 r hc.2.2.2 h2 (hc.2.1.le.trans hv) h
      refine ⟨x, by simp [List.mem_cons.1 hx], h3, fun y hy => ?_⟩
      rcases List.mem_cons.1 hy with rfl | hy
      · exact (h4 e2 (by simp)).trans (chain_after hc h)
      · exact h4 y hy

/-- the new point and `phB` are below everything. -/
theorem domB (t : K) : ∀ (rest : List (Entry K)) (e : Entry K) (r : K), Chain (e :: rest) → G b v e < 0 → e.r ≤ r →
    ∃ x ∈ (⟨t, b, v⟩ : Entry K) :: phB b v (e :: rest), x.at r ≤ b + r * v ∧ ∀ y ∈ e :: rest, x.at r ≤ y.at r := by
  intro rest
  induction rest with
  | nil =>
    intro e r hc hg hr
    rw [phB]
    have hat := G_at (b := b) (v := v) e r
    by_cases h2 : 0 < nextG b v e []
    · rw [if_pos h2.le, if_pos h2]
      have h2 : 0 < v - e.v := h2
      by_cases h : e.at r ≤ b + r * v
      · exact ⟨⟨cross b v e, e.b, e.v⟩, by simp, h, by simp [Entry.at]⟩
      · exact ⟨⟨t, b, v⟩, by simp, by simp [Entry.at], by simpa [Entry.at] using (not_le.1 h).le⟩
    · have h2' : v - e.v ≤ 0 := not_lt.1 h2
      refine ⟨⟨t, b, v⟩, by simp, by simp [Entry.at], ?_⟩
      intro y hy
      rw [List.mem_singleton.1 hy]
      have := mul_nonneg (sub_nonneg.2 hr) (neg_nonneg.2 h2')
      show b + r * v ≤ e.at r
      nlinarith
  | cons e2 rest ih =>
    intro e r hc hg hr
    have hat := G_at (b := b) (v := v) e r
    have hn := G_next (b := b) (v := v) hc.2.2.1
    have hbef : r ≤ e2.r → ∀ y ∈ e :: e2 :: rest, e.at r ≤ y.at r := fun h => chain_before _ e r hc (by simpa using h)
    rw [phB]
    change ∃ x ∈ _ :: if 0 ≤ G b v e2 then (if 0 < G b v e2 then _ else _) ++ _ else _, _
    by_cases h2 : 0 ≤ G b v e2
    · have hv : e.v < v := by
        by_contra hv
        have := mul_nonneg (sub_nonneg.2 hc.1.le) (sub_nonneg.2 (not_lt.1 hv))
        nlinarith
      rw [if_pos h2]
      by_cases h : r ≤ e2.r
      · by_cases h3 : 0 < G b v e2
        · rw [if_pos h3]
          by_cases h' : e.at r ≤ b + r * v
          · exact ⟨⟨cross b v e, e.b, e.v⟩, by simp, h', hbef h⟩
          · exact ⟨⟨t, b, v⟩, by simp, by simp [Entry.at], fun y hy => (not_le.1 h').le.trans (hbef h y hy)⟩
        · refine ⟨⟨t, b, v⟩, by simp, by simp [Entry.at], fun y hy => le_trans ?_ (hbef h y hy)⟩
          show b + r * v ≤ e.at r
          have h0 : G b v e2 = 0 := le_antisymm (not_lt.1 h3) h2
          have h5 := mul_nonneg (sub_nonneg.2 h) (sub_nonneg.2 hv.le)
          have : b + r * v - e.at r = - ((e2.r - r) * (v - e.v)) := by rw [hat]; linear_combination h0 - hn
          linarith
      · have h := le_of_lt (not_le.1 h)
        obtain ⟨x, hx, h3, h4⟩ := domC (b := b) (v := v) rest e2 r hc.2.2.2 h2 (by linarith [hc.2.1]) h
        refine ⟨x, List.mem_cons_of_mem _ (List.mem_append_right _ hx), h3, fun y hy => ?_⟩
        rcases List.mem_cons.1 hy with rfl | hy
        · exact (h4 e2 (by simp)).trans (chain_after hc h)
        · exact h4 y hy
    · rw [if_neg h2]
      have h2 := not_le.1 h2
      by_cases h : r ≤ e2.r
      · refine ⟨⟨t, b, v⟩, by simp, by simp [Entry.at], fun y hy => le_trans ?_ (hbef h y hy)⟩
        show b + r * v ≤ e.at r
        by_cases hv : e.v ≤ v
        · have h5 := mul_nonneg (sub_nonneg.2 h) (sub_nonneg.2 hv)
          have : b + r * v - e.at r = G b v e2 - ((e2.r - r) * (v - e.v)) := by rw [hat, hn]; ring
          linarith
        · have h5 := mul_nonneg (sub_nonneg.2 hr) (sub_nonneg.2 (not_le.1 hv).le)
          have : b + r * v - e.at r = G b v e - ((r - e.r) * (e.v - v)) := by rw [hat]; ring
          linarith
      · have h := le_of_lt (not_le.1 h)
        obtain ⟨x, hx, h3, h4⟩ := ih e2 r hc.2.2.2 h2 h
        refine ⟨x, hx, h3, fun y hy => ?_⟩
        rcases List.mem_cons.1 hy with rfl | hy
        · exact (h4 e2 (by simp)).trans (chain_after hc h)
        · exact h4 y hy

theorem domA : ∀ (rest : List (Entry K)) (e : Entry K) (r : K), Chain (e :: rest) → 0 ≤ G b v e → e.r ≤ r →
    ∃ x ∈ phA b v (e :: rest), x.at r ≤ b + r * v ∧ ∀ y ∈ e :: rest, x.at r ≤ y.at r := by
  intro rest
  induction rest with
  | nil =>
    intro e r hc hg hr
    have hat := G_at (b := b) (v := v) e r
    rw [phA]
    by_cases h2 : 0 ≤ nextG b v e []
    · rw [if_pos h2]
      have h2 : 0 ≤ v - e.v := h2
      refine ⟨e, by simp, ?_, by simp⟩
      have := mul_nonneg (sub_nonneg.2 hr) h2
      linarith
    · rw [if_neg h2]
      have h2 : v - e.v < 0 := not_le.1 h2
      by_cases h3 : 0 < G b v e
      · rw [if_pos h3]
        by_cases h : e.at r ≤ b + r * v
        · exact ⟨e, by simp, h, by simp⟩
        · exact ⟨⟨cross b v e, b, v⟩, by simp, by simp [Entry.at], by simpa [Entry.at] using (not_le.1 h).le⟩
      · rw [if_neg h3]
        refine ⟨⟨cross b v e, b, v⟩, by simp, by simp [Entry.at], fun y hy => ?_⟩
        rw [List.mem_singleton.1 hy]
        show b + r * v ≤ e.at r
        have h5 := mul_nonneg (sub_nonneg.2 hr) (neg_nonneg.2 h2.le)
        have : b + r * v - e.at r = G b v e - (r - e.r) * (-(v - e.v)) := by rw [hat]; ring
        linarith [not_lt.1 h3]
  | cons e2 rest ih =>
    intro e r hc hg hr
    have hat := G_at (b := b) (v := v) e r
    have hn := G_next (b := b) (v := v) hc.2.2.1
    have hbef : r ≤ e2.r → ∀ y ∈ e :: e2 :: rest, e.at r ≤ y.at r := fun h => chain_before _ e r hc (by simpa using h)
    rw [phA]
    change ∃ x ∈ if 0 ≤ G b v e2 then _ else _, _
    by_cases h2 : 0 ≤ G b v e2
    · rw [if_pos h2]
      by_cases h : r ≤ e2.r
      · refine ⟨e, by simp, ?_, hbef h⟩
        by_cases hv : e.v ≤ v
        · have h5 := mul_nonneg (sub_nonneg.2 hr) (sub_nonneg.2 hv)
          linarith
        · have h5 := mul_nonneg (sub_nonneg.2 h) (sub_nonneg.2 (not_le.1 hv).le)
          have : b + r * v - e.at r = G b v e2 + ((e2.r - r) * (e.v - v)) := by rw [hat, hn]; ring
          linarith
      · have h := le_of_lt (not_le.1 h)
        obtain ⟨x, hx, h3, h4⟩ := ih e2 r hc.2.2.2 h2 h
        refine ⟨x, List.mem_cons_of_mem _ hx, h3, fun y hy => ?_⟩
        rcases List.mem_cons.1 hy with rfl | hy
        · exact (h4 e2 (by simp)).trans (chain_after hc h)
        · exact h4 y hy
    · rw [if_neg h2]
      have h2 := not_le.1 h2
      by_cases h : r ≤ e2.r
      · by_cases h' : b + r * v ≤ e.at r
        · exact ⟨⟨cross b v e, b, v⟩, by simp, by simp [Entry.at], fun y hy => h'.trans (hbef h y hy)⟩
        · have h' := not_le.1 h'
          have h3 : 0 < G b v e := by
            by_contra h3
            have hv : v < e.v := by
              by_contra hv
              have := mul_nonneg (sub_nonneg.2 hc.1.le) (sub_nonneg.2 (not_lt.1 hv))
              linarith
            have h5 := mul_nonneg (sub_nonneg.2 hr) (sub_nonneg.2 hv.le)
            have : b + r * v - e.at r = G b v e - ((r - e.r) * (e.v - v)) := by rw [hat]; ring
            linarith [not_lt.1 h3]
          rw [if_pos h3]
          exact ⟨e, by simp, h'.le, hbef h⟩
      · have h := le_of_lt (not_le.1 h)
        obtain ⟨x, hx, h3, h4⟩ := domB (b := b) (v := v) (cross b v e) rest e2 r hc.2.2.2 h2 h
        refine ⟨x, List.mem_append_right _ hx, h3, fun y hy => ?_⟩
        rcases List.mem_cons.1 hy with rfl | hy
        · exact (h4 e2 (by simp)).trans (chain_after hc h)
        · exact h4 y hy

/-- the invariant. -/
structure Inv (P : List (K × K)) (l : List (Entry K)) : Prop where
  head : ∃ e rest, l = e :: rest ∧ e.r = 0
  chain : Chain l
  lines : ∀ e ∈ l, (e.b, e.v) ∈ P
  below : ∀ p ∈ P, ∀ r, 0 ≤ r → ∃ e ∈ l, e.at r ≤ p.1 + r * p.2

theorem inv_init (r b v : K) : Inv [(b, v)] (addEntry [] r b v) :=
  ⟨⟨_, _, rfl, rfl⟩, trivial, by simp [addEntry], by simp [addEntry, Entry.at]⟩

theorem inv_update {P : List (K × K)} {l l' : List (Entry K)} (h : Inv P l) (hu : updateEntry l b v = some l') : Inv ((b, v) :: P) l' := by
  obtain ⟨e, rest, rfl, h0⟩ := h.head
  simp only [updateEntry, Option.some.injEq] at hu
  by_cases hg : 0 ≤ G b v e
  · rw [loopA rest e 0 [] (.inr h0) h.chain hg, List.nil_append] at hu
    subst hu
    refine ⟨?_, ?_, ?_, ?_⟩
    · rw [phA]
      split
      · exact ⟨_, _, rfl, h0⟩
      · split
        · exact ⟨_, _, rfl, h0⟩
        · rename_i h3
          refine ⟨_, _, rfl, ?_⟩
          have : G b v e = 0 := le_antisymm (not_lt.1 h3) hg
          have : e.b - b = 0 := by unfold G at this; rw [h0] at this; linarith
          simp [cross, this]
    · have := chainA (b := b) (v := v) rest ⟨e.r - 1, e.b + e.r * e.v - e.r * (e.v + 1), e.v + 1⟩ e ⟨by simp, by simp, by dsimp only; ring, h.chain⟩ hg
      exact this.tail
    · intro x hx
      rcases linesA _ x hx with ⟨h1, h2⟩ | ⟨y, hy, h1, h2⟩
      · simp [h1, h2]
      · rw [h1, h2]; exact List.mem_cons_of_mem _ (h.lines y hy)
    · intro p hp r hr
      obtain ⟨x, hx, h1, h2⟩ := domA (b := b) (v := v) rest e r h.chain hg (by rw [h0]; exact hr)
      rcases List.mem_cons.1 hp with rfl | hp
      · exact ⟨x, hx, h1⟩
      · obtain ⟨y, hy, h3⟩ := h.below p hp r hr
        exact ⟨x, hx, (h2 y hy).trans h3⟩
  · have hg := not_le.1 hg
    rw [loopB0 rest e 0 h.chain hg] at hu
    subst hu
    refine ⟨⟨_, _, rfl, rfl⟩, chainB rest e 0 h.chain hg h0.ge, ?_, ?_⟩
    · intro x hx
      rcases List.mem_cons.1 hx with rfl | hx
      · simp
      · obtain ⟨y, hy, h1, h2⟩ := linesB _ x hx
        rw [h1, h2]; exact List.mem_cons_of_mem _ (h.lines y hy)
    · intro p hp r hr
      obtain ⟨x, hx, h1, h2⟩ := domB (b := b) (v := v) 0 rest e r h.chain hg (by rw [h0]; exact hr)
      rcases List.mem_cons.1 hp with rfl | hp
      · exact ⟨x, hx, h1⟩
      · obtain ⟨y, hy, h3⟩ := h.below p hp r hr
        exact ⟨x, hx, (h2 y hy).trans h3⟩

theorem inv_hist {P : List (K × K)} {l : List (Entry K)} (h : Hist P l) : Inv P l := by
  induction h with
  | init r b v => exact inv_init r b v
  | update _ hu ih => exact inv_update ih hu

end Verif.Piecewise
