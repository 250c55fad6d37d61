import Verif.Model.Filter

namespace Verif.Filter
set_option linter.unusedSectionVars false
variable {α : Type} [LE α] [LT α] [DecidableLE α] [DecidableLT α]

theorem entryAcceptableLoop_eq (vs es : List α) (h : vs.length = es.length) :
    ∃ b, entryAcceptableLoop vs es = some b ∧
      (b = true ↔ ∃ (i : Nat) (hv : i < vs.length) (he : i < es.length), vs[i] ≤ es[i]) := by
  induction vs generalizing es with
  | nil =>
    cases es with
    | nil => exact ⟨false, rfl, by simp⟩
    | cons => simp at h
  | cons v vs ih =>
    cases es with
    | nil => simp at h
    | cons e es =>
      simp only [List.length_cons, Nat.add_right_cancel_iff] at h
      by_cases hle : v ≤ e
      · refine ⟨true, by simp [entryAcceptableLoop, hle], ?_⟩
        simp only [true_iff]
        exact ⟨0, by simp, by simp, by simpa using hle⟩
      · obtain ⟨b, hb, hiff⟩ := ih es h
        refine ⟨b, by simp [entryAcceptableLoop, hle, hb], ?_⟩
        rw [hiff]
        constructor
        · rintro ⟨i, h1, h2, h3⟩
          exact ⟨i + 1, by simpa using h1, by simpa using h2, by simpa using h3⟩
        · rintro ⟨i, h1, h2, h3⟩
          cases i with
          | zero => exact absurd (by simpa using h3) hle
          | succ i => exact ⟨i, by simpa using h1, by simpa using h2, by simpa using h3⟩

theorem entryDominatedLoop_eq (vs es : List α) (h : vs.length = es.length) :
    ∃ b, entryDominatedLoop vs es = some b ∧
      (b = true ↔ ∀ (i : Nat) (hv : i < vs.length) (he : i < es.length), ¬ es[i] < vs[i]) := by
  induction vs generalizing es with
  | nil =>
    cases es with
    | nil => exact ⟨true, rfl, by simp⟩
    | cons => simp at h
  | cons v vs ih =>
    cases es with
    | nil => simp at h
    | cons e es =>
      simp only [List.length_cons, Nat.add_right_cancel_iff] at h
      by_cases hgt : v > e
      · refine ⟨false, by simp [entryDominatedLoop, hgt], ?_⟩
        simp only [Bool.false_eq_true, false_iff, not_forall]
        exact ⟨0, by simp, by simp, by simpa using hgt⟩
      · obtain ⟨b, hb, hiff⟩ := ih es h
        refine ⟨b, by simp [entryDominatedLoop, hgt, hb], ?_⟩
        rw [hiff]
        constructor
        · rintro h3 i h1 h2
          cases i with
          | zero => simpa using hgt
          | succ i => simpa using h3 i (by simpa using h1) (by simpa using h2)
        · rintro h3 i h1 h2
          exact h3 (i + 1) (by simpa using h1) (by simpa using h2)

theorem acceptable_eq (s : State α) (vs : List α) (h : ∀ e ∈ s, e.vals.length = vs.length) :
    ∃ b, acceptable s vs = some b ∧
      (b = true ↔ ∀ e ∈ s, ∃ (i : Nat) (hv : i < vs.length) (he : i < e.vals.length), vs[i] ≤ e.vals[i]) := by
  induction s with
  | nil => exact ⟨true, rfl, by simp⟩
  | cons e es ih =>
    obtain ⟨b1, h1, hi1⟩ := entryAcceptableLoop_eq vs e.vals (h e (by simp)).symm
    obtain ⟨b2, h2, hi2⟩ := ih (fun e' he' => h e' (by simp [he']))
    cases b1 with
    | false =>
      refine ⟨false, by simp [acceptable, Entry.acceptable, h1], ?_⟩
      simp only [Bool.false_eq_true, false_iff]
      intro hall
      have := hi1.2 (hall e (by simp))
      simp at this
    | true =>
      refine ⟨b2, by simp [acceptable, Entry.acceptable, h1, h2], ?_⟩
      rw [hi2]
      constructor
      · intro hall e' he'
        rcases List.mem_cons.1 he' with rfl | hm
        · exact hi1.1 rfl
        · exact hall e' hm
      · intro hall e' he'
        exact hall e' (by simp [he'])

open Classical in
theorem prune_eq (s : State α) (vs : List α) (h : ∀ e ∈ s, e.vals.length = vs.length) :
    ∃ s', prune s vs = some s' ∧ List.Sublist s' s ∧
      ∀ e ∈ s, (e ∈ s' ↔ ¬ ∀ (i : Nat) (hv : i < vs.length) (he : i < e.vals.length), ¬ e.vals[i] < vs[i]) := by
  induction s with
  | nil => exact ⟨[], rfl, by simp, by simp⟩
  | cons e es ih =>
    obtain ⟨b1, h1, hi1⟩ := entryDominatedLoop_eq vs e.vals (h e (by simp)).symm
    obtain ⟨s2, h2, hs2, hi2⟩ := ih (fun e' he' => h e' (by simp [he']))
    cases b1 with
    | true =>
      refine ⟨s2, by simp [prune, Entry.dominated, h1, h2], hs2.cons _, ?_⟩
      intro e' he'
      rcases List.mem_cons.1 he' with heq | hm
      · subst heq
        constructor
        · intro hm; exact ((hi2 _ (hs2.subset hm)).1 hm)
        · intro hn; exact absurd (hi1.1 rfl) hn
      · exact hi2 e' hm
    | false =>
      refine ⟨e :: s2, by simp [prune, Entry.dominated, h1, h2], hs2.cons_cons _, ?_⟩
      have hne : ¬ ∀ (i : Nat) (hv : i < vs.length) (he : i < e.vals.length), ¬ e.vals[i] < vs[i] := by
        intro hh; have := hi1.2 hh; simp at this
      intro e' he'
      constructor
      · intro hm
        rcases List.mem_cons.1 hm with heq | hm
        · subst heq; exact hne
        · exact ((hi2 _ (hs2.subset hm)).1 hm)
      · intro hn
        rcases List.mem_cons.1 he' with heq | hm
        · simp [heq]
        · exact List.mem_cons_of_mem _ ((hi2 _ hm).2 hn)


/-- What has been added since the last clear. -/
def addedSinceClear : List (Op α) → List (List α) → List (List α)
  | [], acc => acc
  | .add v _ :: os, acc => addedSinceClear os (acc ++ [v])
  | .clear :: os, _ => addedSinceClear os []

/-- Invariant linking the pruned filter to the unpruned history. -/
structure Inv (good : α → Prop) (dim : Nat) (s : State α) (hist : List (List α)) : Prop where
  sub : ∀ e ∈ s, e.vals ∈ hist
  hlen : ∀ v ∈ hist, v.length = dim
  hgood : ∀ v ∈ hist, ∀ a ∈ v, good a
  cover : ∀ v ∈ hist, ∃ e ∈ s, ∀ (i : Nat) (h1 : i < e.vals.length) (h2 : i < v.length), e.vals[i] ≤ v[i]
  anti : s.Pairwise (fun e e' => ∃ (i : Nat) (h1 : i < e.vals.length) (h2 : i < e'.vals.length), e.vals[i] < e'.vals[i])

theorem Inv.nil (good : α → Prop) (dim : Nat) : Inv good dim ([] : State α) [] :=
  ⟨by simp, by simp, by simp, by simp, by simp⟩

theorem Inv.add {good : α → Prop} {dim : Nat} {s : State α} {hist : List (List α)}
    (trans : ∀ a b c : α, a ≤ b → b ≤ c → a ≤ c)
    (tot : ∀ a b : α, good a → good b → ¬ b < a → a ≤ b)
    (refl : ∀ a : α, good a → a ≤ a)
    (h : Inv good dim s hist) (v : List α) (it : Int) (hv : v.length = dim) (hg : ∀ a ∈ v, good a) :
    ∃ s', addEntry s v it = some s' ∧ Inv good dim s' (hist ++ [v]) := by
  obtain ⟨sp, hsp, hsub, hmem⟩ := prune_eq s v (fun e he => by rw [h.hlen _ (h.sub e he), hv])
  refine ⟨sp ++ [⟨v, it⟩], by simp [addEntry, hsp], ?_⟩
  refine ⟨?_, ?_, ?_, ?_, ?_⟩
  · intro e he
    rcases List.mem_append.1 he with he | he
    · exact List.mem_append_left _ (h.sub e (hsub.subset he))
    · simp only [List.mem_singleton] at he; subst he; simp
  · intro w hw
    rcases List.mem_append.1 hw with hw | hw
    · exact h.hlen w hw
    · simp only [List.mem_singleton] at hw; subst hw; exact hv
  · intro w hw
    rcases List.mem_append.1 hw with hw | hw
    · exact h.hgood w hw
    · simp only [List.mem_singleton] at hw; subst hw; exact hg
  · intro w hw
    rcases List.mem_append.1 hw with hw | hw
    · obtain ⟨e, he, hle⟩ := h.cover w hw
      by_cases hin : e ∈ sp
      · exact ⟨e, List.mem_append_left _ hin, hle⟩
      · have hd := (not_iff_not.2 (hmem e he)).1 hin
        rw [not_not] at hd
        refine ⟨⟨v, it⟩, by simp, ?_⟩
        intro i h1 h2
        have hel : e.vals.length = dim := h.hlen _ (h.sub e he)
        have h1' : i < v.length := h1
        have hie : i < e.vals.length := by omega
        have hn := hd i h1' hie
        have hvle : v[i] ≤ e.vals[i] :=
          tot _ _ (hg _ (List.getElem_mem h1')) (h.hgood _ (h.sub e he) _ (List.getElem_mem hie)) hn
        exact trans _ _ _ hvle (hle i hie h2)
    · simp only [List.mem_singleton] at hw; subst hw
      exact ⟨⟨w, it⟩, by simp, fun i h1 _ => refl _ (hg _ (List.getElem_mem h1))⟩
  · rw [List.pairwise_append]
    refine ⟨h.anti.sublist hsub, by simp, ?_⟩
    intro e he e' he'
    simp only [List.mem_singleton] at he'; subst he'
    have := (hmem e (hsub.subset he)).1 he
    push Not at this
    obtain ⟨i, h1, h2, h3⟩ := this
    exact ⟨i, h2, h1, h3⟩

theorem Inv.run {good : α → Prop} {dim : Nat} 
    (trans : ∀ a b c : α, a ≤ b → b ≤ c → a ≤ c)
    (tot : ∀ a b : α, good a → good b → ¬ b < a → a ≤ b)
    (refl : ∀ a : α, good a → a ≤ a)
    (ops : List (Op α)) (s : State α) (hist : List (List α)) (h : Inv good dim s hist)
    (hops : ∀ v i, Op.add v i ∈ ops → v.length = dim ∧ ∀ a ∈ v, good a) :
    ∃ s', Filter.run s ops = some s' ∧ Inv good dim s' (addedSinceClear ops hist) := by
  induction ops generalizing s hist with
  | nil => exact ⟨s, rfl, h⟩
  | cons o os ih =>
    cases o with
    | add v i =>
      obtain ⟨h1, h2⟩ := hops v i (by simp)
      obtain ⟨s1, hs1, hI⟩ := h.add trans tot refl v i h1 h2
      obtain ⟨s2, hs2, hI2⟩ := ih s1 _ hI (fun v i hm => hops v i (by simp [hm]))
      exact ⟨s2, by simp [Filter.run, step, hs1, hs2], hI2⟩
    | clear =>
      obtain ⟨s2, hs2, hI2⟩ := ih [] _ (Inv.nil good dim) (fun v i hm => hops v i (by simp [hm]))
      exact ⟨s2, by simp [Filter.run, step, clear, hs2], hI2⟩

theorem Inv.accept {good : α → Prop} {dim : Nat} {s : State α} {hist : List (List α)}
    (trans : ∀ a b c : α, a ≤ b → b ≤ c → a ≤ c)
    (h : Inv good dim s hist) (x : List α) (hx : x.length = dim) :
    ∃ b, acceptable s x = some b ∧
      (b = true ↔ ∀ v ∈ hist, ∃ (i : Nat) (h1 : i < x.length) (h2 : i < v.length), x[i] ≤ v[i]) := by
  obtain ⟨b, hb, hi⟩ := acceptable_eq s x (fun e he => by rw [h.hlen _ (h.sub e he), hx])
  refine ⟨b, hb, hi.trans ?_⟩
  constructor
  · intro hall v hv
    obtain ⟨e, he, hle⟩ := h.cover v hv
    obtain ⟨i, h1, h2, h3⟩ := hall e he
    have : i < v.length := by rw [h.hlen v hv, ← hx]; exact h1
    exact ⟨i, h1, this, trans _ _ _ h3 (hle i h2 this)⟩
  · intro hall e he
    exact hall _ (h.sub e he)

end Verif.Filter
