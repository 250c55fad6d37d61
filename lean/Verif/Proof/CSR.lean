import Verif.Spec.CSR
import Mathlib.Tactic.Ring
import Mathlib.Tactic.Linarith
import Mathlib.Data.List.Chain
import Mathlib.Data.List.GetD

/-! # Lemmas about the triplet converter -/

set_option linter.unusedSectionVars false
set_option linter.unusedSimpArgs false

namespace Verif.CSR

variable {K : Type} [Field K]

/-- Position of an entry in the upper triangle. -/
def Entry.key (e : Entry) : Nat × Nat := (e.row, e.col)

def klt (a b : Nat × Nat) : Prop := a.1 < b.1 ∨ (a.1 = b.1 ∧ a.2 < b.2)

theorem klt_irrefl (a : Nat × Nat) : ¬klt a a := by unfold klt; omega

theorem klt_trans {a b c : Nat × Nat} (h1 : klt a b) (h2 : klt b c) : klt a c := by unfold klt at *; omega

/-- Element touches row `i` (counted from 0) of the full matrix. -/
def touches (i : Nat) (p : Nat × Nat) : Bool := decide (p.1 - 1 = i) || decide (p.2 - 1 = i)

/-- Number of positions of an element in the full format. -/
def mult (p : Nat × Nat) : Nat := if p.1 = p.2 then 1 else 2

/-- Sum of the values of the entries at `κ`. -/
def keySum (a : Nat → K) (P : List Entry) (κ : Nat × Nat) : K := (P.map fun e => if e.key = κ then a e.pos else 0).sum

theorem keySum_append (a : Nat → K) (P Q : List Entry) (κ : Nat × Nat) : keySum a (P ++ Q) κ = keySum a P κ + keySum a Q κ := by
  simp [keySum]

theorem keySum_single (a : Nat → K) (e : Entry) (κ : Nat × Nat) : keySum a [e] κ = if e.key = κ then a e.pos else 0 := by
  simp [keySum]

theorem keySum_zero (a : Nat → K) (P : List Entry) (κ : Nat × Nat) (h : ∀ e ∈ P, e.key ≠ κ) : keySum a P κ = 0 := by
  induction P with
  | nil => simp [keySum]
  | cons e P ih =>
    have : keySum a (e :: P) κ = (if e.key = κ then a e.pos else 0) + keySum a P κ := by simp [keySum]
    rw [this, if_neg (h e (List.mem_cons_self ..)), ih fun f hf => h f (List.mem_cons_of_mem _ hf), zero_add]

/-- Sum over the duplicates of position `k`. -/
def dblSum (a : Nat → K) (d : List (Nat × Nat)) (k : Nat) : K := (d.map fun td => if td.2 = k then a td.1 else 0).sum

theorem dblSum_append (a : Nat → K) (d e : List (Nat × Nat)) (k : Nat) : dblSum a (d ++ e) k = dblSum a d k + dblSum a e k := by
  simp [dblSum]

theorem dblSum_zero (a : Nat → K) (d : List (Nat × Nat)) (k : Nat) (h : ∀ td ∈ d, td.2 ≠ k) : dblSum a d k = 0 := by
  induction d with
  | nil => simp [dblSum]
  | cons t d ih =>
    have : dblSum a (t :: d) k = (if t.2 = k then a t.1 else 0) + dblSum a d k := by simp [dblSum]
    rw [this, if_neg (h t (List.mem_cons_self ..)), ih fun f hf => h f (List.mem_cons_of_mem _ hf), zero_add]

/-- State of the first pass after the entries `P`, the last of which is `e`; `keys` are the distinct positions found so far. -/
structure Inv (P : List Entry) (e : Entry) (s : Scan) (keys : List (Nat × Nat)) : Prop where
  sorted : keys.Pairwise klt
  last : keys.getLast? = some e.key
  cur : s.cur = e.row
  ja : s.ja = keys.map Prod.snd
  first : s.first.length = keys.length
  ia : ∀ i < s.cur, s.ia i = keys.countP fun p => decide (p.1 ≤ i)
  cover : ∀ f ∈ P, f.key ∈ keys
  orig : ∀ κ ∈ keys, ∃ f ∈ P, f.key = κ
  dblLt : ∀ td ∈ s.dbl, td.2 < keys.length
  dblMono : s.dbl.Pairwise fun x y => x.2 ≤ y.2
  rc : ∀ i, s.rc i = keys.countP (touches i)
  full : s.full = (keys.map mult).sum

/-- The values: first occurrence plus duplicates give the sum over all entries at this position. -/
def Vals (a : Nat → K) (P : List Entry) (s : Scan) (keys : List (Nat × Nat)) : Prop :=
  ∀ k < keys.length, a (s.first.getD k 0) + dblSum a s.dbl k = keySum a P (keys.getD k (0, 0))

theorem countNew_spec (s : Scan) (i j : Nat) (hi : 1 ≤ i) (hj : 1 ≤ j) :
    (∀ r, (countNew s i j).rc r = s.rc r + if touches r (i, j) then 1 else 0) ∧ (countNew s i j).full = s.full + mult (i, j) ∧
      (countNew s i j).cur = s.cur ∧ (countNew s i j).ia = s.ia ∧ (countNew s i j).ja = s.ja ∧ (countNew s i j).first = s.first ∧
      (countNew s i j).dbl = s.dbl := by
  unfold countNew
  by_cases h : i = j
  · subst h
    rw [if_neg (not_not.mpr rfl)]
    refine ⟨?_, by simp [mult], rfl, rfl, rfl, rfl, rfl⟩
    intro r
    by_cases hr : r = i - 1
    · subst hr; simp [upd, touches]
    · have : ¬(i - 1 = r) := fun e => hr e.symm
      simp [upd, touches, hr, this]
  · rw [if_pos h]
    refine ⟨?_, by simp [mult, h], rfl, rfl, rfl, rfl, rfl⟩
    intro r
    have hne : i - 1 ≠ j - 1 := by omega
    by_cases hr : r = i - 1
    · subst hr; simp [upd, touches, hne]
    · have h1 : ¬(i - 1 = r) := fun e => hr e.symm
      by_cases hr2 : r = j - 1
      · subst hr2; simp [upd, touches, hne, hne.symm]
      · have h2 : ¬(j - 1 = r) := fun e => hr2 e.symm
        simp [upd, touches, hr, hr2, h1, h2]

theorem getD_append_last {α : Type} (l : List α) (x d : α) : (l ++ [x]).getD l.length d = x := by
  simp [List.getD]

theorem getD_append_lt {α : Type} (l m : List α) (d : α) {k : Nat} (h : k < l.length) : (l ++ m).getD k d = l.getD k d :=
  List.getD_append l m d k h

/-- A strictly sorted list: the last element is the largest. -/
theorem le_last {keys : List (Nat × Nat)} (hs : keys.Pairwise klt) {κ x : Nat × Nat} (hl : keys.getLast? = some κ) (hx : x ∈ keys) :
    x = κ ∨ klt x κ := by
  obtain ⟨l, rfl⟩ := List.getLast?_eq_some_iff.mp hl
  rcases List.mem_append.mp hx with h | h
  · exact Or.inr ((List.pairwise_append.mp hs).2.2 x h κ (List.mem_singleton.mpr rfl))
  · exact Or.inl (List.mem_singleton.mp h)

theorem inv_first (ia0 : Nat → Nat) (e : Entry) (hr : 1 ≤ e.row) (hc : 1 ≤ e.col) :
    Inv [e] e (scanFirst ia0 e) [e.key] ∧ ∀ a : Nat → K, Vals a [e] (scanFirst ia0 e) [e.key] := by
  have hm : max 1 e.row = e.row := by omega
  unfold scanFirst
  simp only [hm]
  obtain ⟨h1, h2, h3, h4, h5, h6, h7⟩ := countNew_spec
    { cur := e.row, ia := fun i => if i < e.row then 0 else ia0 i, ja := [e.col], first := [e.pos], dbl := [], rc := fun _ => 0, full := 0 }
    e.row e.col hr hc
  refine ⟨⟨by simp, rfl, h3, by rw [h5]; rfl, by rw [h6]; rfl, ?_, by simp, by simp, by rw [h7]; simp, by rw [h7]; simp, ?_, ?_⟩, ?_⟩
  · intro i hi
    rw [h3] at hi
    rw [h4]
    have hi' : i < e.row := hi
    have : ¬e.row ≤ i := by omega
    simp [hi', Entry.key, this]
  · intro i
    rw [h1]
    simp only [Entry.key, zero_add, List.countP_cons, List.countP_nil]
  · rw [h2]; simp [Entry.key]
  · intro a k hk
    simp only [List.length_singleton, Nat.lt_one_iff] at hk
    subst hk
    rw [h6, h7]
    simp [dblSum, keySum]

theorem inv_step {P : List Entry} {e : Entry} {s : Scan} {keys : List (Nat × Nat)} (h : Inv P e s keys)
    (hv : ∀ a : Nat → K, Vals a P s keys) (f : Entry) (hr : 1 ≤ f.row) (hc : 1 ≤ f.col) (hs : ¬Entry.lt f e) (hg : f.row ≤ e.row + 1) :
    ∃ keys', Inv (P ++ [f]) f (scanStep s f) keys' ∧ ∀ a : Nat → K, Vals a (P ++ [f]) (scanStep s f) keys' := by
  have hpos : 0 < keys.length := by
    cases hk : keys with
    | nil => rw [hk] at h; have := h.last; simp at this
    | cons _ _ => simp
  have hja : s.ja.length = keys.length := by rw [h.ja]; simp
  have hjl : s.ja.getLast? = some e.col := by rw [h.ja, List.getLast?_map, h.last]; rfl
  unfold scanStep
  by_cases hd : s.cur = f.row ∧ s.ja.getLast? = some f.col
  · -- duplicate
    rw [if_pos hd]
    have hk : f.key = e.key := by
      have h1 : e.row = f.row := by rw [← h.cur]; exact hd.1
      have h2 : e.col = f.col := by have := hd.2; rw [hjl] at this; injection this
      simp [Entry.key, h1, h2]
    refine ⟨keys, ⟨h.sorted, by rw [hk]; exact h.last, hd.1, h.ja, h.first, h.ia, ?_, ?_, ?_, ?_, h.rc, h.full⟩, ?_⟩
    · intro g hgm
      rcases List.mem_append.mp hgm with hgm | hgm
      · exact h.cover g hgm
      · rw [List.mem_singleton.mp hgm, hk]; exact List.mem_of_getLast? h.last
    · intro κ hκ
      obtain ⟨g, hg1, hg2⟩ := h.orig κ hκ
      exact ⟨g, List.mem_append_left _ hg1, hg2⟩
    · intro td htd
      rcases List.mem_append.mp htd with htd | htd
      · exact h.dblLt td htd
      · rw [List.mem_singleton.mp htd]; simp only; omega
    · refine List.pairwise_append.mpr ⟨h.dblMono, by simp, ?_⟩
      intro x hx y hy
      rw [List.mem_singleton.mp hy]
      have := h.dblLt x hx
      simp only; omega
    · intro a k hk'
      have hv := hv a k hk'
      simp only
      rw [dblSum_append, keySum_append, keySum_single, ← hv, ← add_assoc]
      congr 1
      have hlast : keys.getD (keys.length - 1) (0, 0) = f.key := by
        obtain ⟨l, hl⟩ := List.getLast?_eq_some_iff.mp h.last
        rw [hl, hk]
        simp
      by_cases hkk : k = keys.length - 1
      · subst hkk
        rw [if_pos hlast.symm, hja]
        simp [dblSum]
      · have h1 : ¬(s.ja.length - 1 = k) := by omega
        have h2 : ¬(f.key = keys.getD k (0, 0)) := by
          intro he
          have hlt : k < keys.length - 1 := by omega
          have := List.pairwise_iff_getElem.mp h.sorted k (keys.length - 1) hk' (by omega) hlt
          rw [List.getD_eq_getElem _ _ hk'] at he
          rw [List.getD_eq_getElem _ _ (by omega)] at hlast
          rw [hlast, he] at this
          exact klt_irrefl _ this
        rw [if_neg h2]
        simp [dblSum, h1]
  · -- new element
    rw [if_neg hd]
    obtain ⟨c1, c2, c3, c4, c5, c6, c7⟩ := countNew_spec s f.row f.col hr hc
    have hlt : klt e.key f.key := by
      have h1 : ¬(e.row = f.row ∧ e.col = f.col) := by
        intro h1
        exact hd ⟨by rw [h.cur]; exact h1.1, by rw [hjl, h1.2]⟩
      unfold Entry.lt at hs
      unfold klt Entry.key
      simp only
      omega
    have hall : ∀ x ∈ keys, klt x f.key := by
      intro x hx
      rcases le_last h.sorted h.last hx with rfl | hx
      · exact hlt
      · exact klt_trans hx hlt
    -- everything except the row pointers
    have base : ∀ s' : Scan, s'.cur = f.row → s'.ja = s.ja ++ [f.col] → s'.first = s.first ++ [f.pos] → s'.dbl = s.dbl →
        (∀ r, s'.rc r = s.rc r + if touches r (f.row, f.col) then 1 else 0) → s'.full = s.full + mult (f.row, f.col) →
        (∀ i < s'.cur, s'.ia i = (keys ++ [f.key]).countP fun p => decide (p.1 ≤ i)) →
        ∃ keys', Inv (P ++ [f]) f s' keys' ∧ ∀ a : Nat → K, Vals a (P ++ [f]) s' keys' := by
      intro s' e1 e2 e3 e4 e5 e6 e7
      refine ⟨keys ++ [f.key], ⟨?_, by simp, e1, ?_, ?_, e7, ?_, ?_, ?_, ?_, ?_, ?_⟩, ?_⟩
      · refine List.pairwise_append.mpr ⟨h.sorted, by simp, ?_⟩
        intro x hx y hy
        rw [List.mem_singleton.mp hy]
        exact hall x hx
      · rw [e2, h.ja]; simp [Entry.key]
      · rw [e3]; simp [h.first]
      · intro g hgm
        rcases List.mem_append.mp hgm with hgm | hgm
        · exact List.mem_append_left _ (h.cover g hgm)
        · rw [List.mem_singleton.mp hgm]; simp
      · intro κ hκ
        rcases List.mem_append.mp hκ with hκ | hκ
        · obtain ⟨g, hg1, hg2⟩ := h.orig κ hκ
          exact ⟨g, List.mem_append_left _ hg1, hg2⟩
        · exact ⟨f, by simp, (List.mem_singleton.mp hκ).symm⟩
      · intro td htd
        rw [e4] at htd
        have := h.dblLt td htd
        simp; omega
      · rw [e4]; exact h.dblMono
      · intro i
        rw [e5, h.rc, List.countP_append]
        simp only [List.countP_cons, List.countP_nil, Entry.key, zero_add]
      · rw [e6, h.full]; simp [Entry.key]
      · intro a k hk
        rw [e3, e4, keySum_append, keySum_single]
        rw [List.length_append, List.length_singleton] at hk
        by_cases hkl : k = keys.length
        · have h1 : (s.first ++ [f.pos]).getD k 0 = f.pos := by
            rw [hkl, ← h.first]; exact getD_append_last _ _ _
          have h2 : (keys ++ [f.key]).getD k (0, 0) = f.key := by rw [hkl]; exact getD_append_last _ _ _
          rw [h1, h2, if_pos rfl, dblSum_zero a s.dbl k, keySum_zero a P f.key]
          · ring
          · intro g hg1 hg2
            have := hall _ (h.cover g hg1)
            rw [hg2] at this
            exact klt_irrefl _ this
          · intro td htd
            have := h.dblLt td htd
            omega
        · have hkl : k < keys.length := by omega
          rw [getD_append_lt _ _ _ (by rw [h.first]; exact hkl), getD_append_lt _ _ _ hkl, hv a k hkl]
          have : ¬(f.key = keys.getD k (0, 0)) := by
            intro he
            have := hall (keys.getD k (0, 0)) (by rw [List.getD_eq_getElem _ _ hkl]; exact List.getElem_mem _)
            rw [← he] at this
            exact klt_irrefl _ this
          rw [if_neg this, add_zero]
    simp only
    have hgrow : ∀ i < f.row, (keys ++ [f.key]).countP (fun p => decide (p.1 ≤ i)) = keys.countP fun p => decide (p.1 ≤ i) := by
      intro i hi
      have : ¬f.row ≤ i := by omega
      simp [Entry.key, this]
    by_cases hcur : s.cur = f.row
    · rw [if_neg (by rw [c3]; exact not_not.mpr hcur)]
      refine base _ (by rw [c3]; exact hcur) (by simp only [c5]) (by simp only [c6]) c7 c1 c2 ?_
      intro i hi
      have hi : i < (countNew s f.row f.col).cur := hi
      rw [c3] at hi
      show (countNew s f.row f.col).ia i = _
      rw [c4, h.ia i hi, hgrow i (by omega)]
    · rw [if_pos (by rw [c3]; exact hcur)]
      have hrow : f.row = s.cur + 1 := by
        have := h.cur
        unfold Entry.lt at hs
        omega
      refine base _ (by rw [c3]; exact hrow.symm) (by simp only [c5]) (by simp only [c6]) c7 c1 c2 ?_
      intro i hi
      simp only [c3] at hi
      rw [hgrow i (by omega)]
      simp only [c3, c4, c5, upd]
      by_cases hic : i = s.cur
      · rw [if_pos hic, List.length_append, List.length_singleton, Nat.add_sub_cancel, hja]
        symm
        rw [List.countP_eq_length]
        intro x hx
        rcases le_last h.sorted h.last hx with rfl | hx
        · simp [Entry.key, hic, h.cur]
        · have := h.cur
          simp only [Entry.key, klt] at hx
          simp only [decide_eq_true_eq]
          omega
      · rw [if_neg hic]
        exact h.ia i (by omega)

theorem inv_fold {P : List Entry} {e : Entry} {s : Scan} {keys : List (Nat × Nat)} (l : List Entry) (h : Inv P e s keys)
    (hv : ∀ a : Nat → K, Vals a P s keys) (hr : ∀ f ∈ l, 1 ≤ f.row ∧ 1 ≤ f.col)
    (hs : (e :: l).IsChain fun a b => ¬Entry.lt b a ∧ b.row ≤ a.row + 1) :
    ∃ e' keys', Inv (P ++ l) e' (l.foldl scanStep s) keys' ∧ ∀ a : Nat → K, Vals a (P ++ l) (l.foldl scanStep s) keys' := by
  induction l generalizing P e s keys with
  | nil => exact ⟨e, keys, by simpa using h, by simpa using hv⟩
  | cons f l ih =>
    rw [List.isChain_cons_cons] at hs
    obtain ⟨k', h1, h2⟩ := inv_step h hv f (hr f (List.mem_cons_self ..)).1 (hr f (List.mem_cons_self ..)).2 hs.1.1 hs.1.2
    obtain ⟨e', k'', h3, h4⟩ := ih h1 h2 (fun g hg => hr g (List.mem_cons_of_mem _ hg)) hs.2
    exact ⟨e', k'', by simpa using h3, by simpa using h4⟩

theorem entries_key {trip : List (Nat × Nat)} {e : Entry} (he : e ∈ entries trip) :
    ∃ p ∈ trip, e.row = min p.1 p.2 ∧ e.col = max p.1 p.2 ∧ (p, e.pos) ∈ trip.zipIdx := by
  obtain ⟨⟨p, i⟩, hp, rfl⟩ := List.mem_map.mp he
  have hm := List.mem_zipIdx' hp
  refine ⟨p, ?_, ?_⟩
  · rw [hm.2]; exact List.getElem_mem _
  · unfold Entry.set
    simp only
    by_cases h : p.2 < p.1
    · simp only [if_pos h]
      exact ⟨by omega, by omega, hp⟩
    · simp only [if_neg h]
      exact ⟨by omega, by omega, hp⟩

theorem entries_cover {trip : List (Nat × Nat)} {p : Nat × Nat} (hp : p ∈ trip) :
    ∃ e ∈ entries trip, e.row = min p.1 p.2 ∧ e.col = max p.1 p.2 := by
  obtain ⟨i, hi, rfl⟩ := List.mem_iff_getElem.mp hp
  refine ⟨Entry.set trip[i].1 trip[i].2 i, List.mem_map.mpr ⟨(trip[i], i), ?_, rfl⟩, ?_⟩
  · exact List.mk_mem_zipIdx_iff_getElem?.mpr (List.getElem?_eq_getElem hi)
  · unfold Entry.set
    by_cases h : trip[i].2 < trip[i].1
    · simp only [if_pos h]; omega
    · simp only [if_neg h]; omega

theorem chain_of_sorted {trip : List (Nat × Nat)} {l : List Entry} (hl : SortedEntries trip l) (hg : NoGaps trip) :
    l.IsChain fun a b => ¬Entry.lt b a ∧ b.row ≤ a.row + 1 := by
  obtain ⟨hp, hs⟩ := hl
  rw [List.isChain_iff_getElem]
  intro i hi
  have hsg := List.pairwise_iff_getElem.mp hs
  refine ⟨hsg i (i + 1) (by omega) hi (by omega), ?_⟩
  by_contra hc
  obtain ⟨p, hpm, hp1, -, -⟩ := entries_key (hp.subset (List.getElem_mem (show i < l.length by omega)))
  obtain ⟨q, hqm, hq1, -, -⟩ := entries_key (hp.subset (List.getElem_mem hi))
  obtain ⟨s, hsm, hsr⟩ := hg p hpm q hqm (l[i].row + 1) (by omega) (by omega)
  obtain ⟨e, he, her, -⟩ := entries_cover hsm
  obtain ⟨m, hm, hme⟩ := List.mem_iff_getElem.mp (hp.symm.subset he)
  have hmr : l[m].row = l[i].row + 1 := by rw [hme]; omega
  rcases Nat.lt_trichotomy m i with h | h | h
  · have := hsg m i hm (by omega) h
    unfold Entry.lt at this
    omega
  · subst h; omega
  · rcases Nat.lt_trichotomy m (i + 1) with h' | h' | h'
    · omega
    · subst h'; omega
    · have := hsg (i + 1) m hi hm h'
      unfold Entry.lt at this
      omega

/-- Result of the first pass. -/
theorem scan_spec {trip : List (Nat × Nat)} {l : List Entry} {dim : Nat} (ia0 : Nat → Nat) (hl : SortedEntries trip l) (hg : NoGaps trip)
    (hr : InRange dim trip) (hne : trip ≠ []) :
    ∃ (s : Scan) (keys : List (Nat × Nat)), scan ia0 dim l = some s ∧ keys.Pairwise klt ∧ s.ja = keys.map Prod.snd ∧
      (∀ i ≤ dim, s.ia i = keys.countP fun p => decide (p.1 ≤ i)) ∧ (∀ f ∈ l, f.key ∈ keys) ∧
      (∀ κ ∈ keys, 1 ≤ κ.1 ∧ κ.1 ≤ κ.2 ∧ κ.2 ≤ dim) ∧ (∀ td ∈ s.dbl, td.2 < keys.length) ∧
      (s.dbl.Pairwise fun x y => x.2 ≤ y.2) ∧ (∀ i, s.rc i = keys.countP (touches i)) ∧ s.full = (keys.map mult).sum ∧
      ∀ a : Nat → K, Vals a l s keys := by
  have hch := chain_of_sorted hl hg
  have hrange : ∀ f ∈ l, 1 ≤ f.row ∧ f.row ≤ f.col ∧ f.col ≤ dim := by
    intro f hf
    obtain ⟨p, hp, h1, h2, -⟩ := entries_key (hl.1.subset hf)
    have := hr p hp
    omega
  cases l with
  | nil =>
    have := hl.1.length_eq
    simp [entries] at this
    exact absurd (List.length_eq_zero_iff.mp this.symm) hne
  | cons e l =>
    obtain ⟨i1, v1⟩ := inv_first (K := K) ia0 e (hrange e (List.mem_cons_self ..)).1
      (by have := hrange e (List.mem_cons_self ..); omega)
    obtain ⟨e', keys, hi, hv⟩ := inv_fold l i1 v1 (fun f hf => by have := hrange f (List.mem_cons_of_mem _ hf); omega) hch
    refine ⟨_, keys, rfl, hi.sorted, hi.ja, ?_, hi.cover, ?_, hi.dblLt, hi.dblMono, hi.rc, hi.full, hv⟩
    · intro i hid
      simp only [scanEnd]
      by_cases hc : (l.foldl scanStep (scanFirst ia0 e)).cur ≤ i
      · rw [if_pos ⟨hc, hid⟩, hi.ja, List.length_map]
        symm
        rw [List.countP_eq_length]
        intro x hx
        rw [hi.cur] at hc
        rcases le_last hi.sorted hi.last hx with rfl | hx
        · exact decide_eq_true hc
        · simp only [Entry.key, klt] at hx
          simp only [decide_eq_true_eq]
          omega
      · rw [if_neg fun h => hc h.1]
        exact hi.ia i (by omega)
    · intro κ hκ
      obtain ⟨f, hf, rfl⟩ := hi.orig κ hκ
      exact hrange f hf

/-! ### Values -/

theorem convertValues_spec (c : Conv) (a : Nat → K) (p : Nat) : convertValues c a p = a (c.first p) + dblSum a c.dbl p := by
  unfold convertValues
  generalize hv : (fun i => a (c.first i)) = v
  have : a (c.first p) = v p := by rw [← hv]
  rw [this]
  clear hv this
  induction c.dbl generalizing v with
  | nil => simp [dblSum]
  | cons td d ih =>
    rw [List.foldl_cons, ih]
    have e : dblSum a (td :: d) p = (if td.2 = p then a td.1 else 0) + dblSum a d p := by simp [dblSum]
    rw [e, ← add_assoc]
    congr 1
    unfold upd
    by_cases h : p = td.2
    · rw [if_pos h, if_pos h.symm, h]
    · rw [if_neg h, if_neg (fun h' => h h'.symm), add_zero]

/-- The element of the triplet matrix is the sum of the entries at its position in the upper triangle. -/
theorem tripletElem_eq (trip : List (Nat × Nat)) (l : List Entry) (hl : l.Perm (entries trip)) (a : Nat → K) (r c : Nat) (hrc : r ≤ c) :
    tripletElem trip a r c = keySum a l (r + 1, c + 1) := by
  unfold keySum
  rw [(hl.map _).sum_eq]
  unfold tripletElem entries
  rw [List.map_map]
  congr 1
  refine List.map_congr_left fun p _ => ?_
  simp only [Function.comp]
  have hiff : (p.1 = (r + 1, c + 1) ∨ p.1 = (c + 1, r + 1)) ↔ (Entry.set p.1.1 p.1.2 p.2).key = (r + 1, c + 1) := by
    obtain ⟨⟨i, j⟩, k⟩ := p
    simp only [Entry.set, Entry.key, Prod.mk.injEq]
    by_cases h : j < i
    · simp only [if_pos h]; omega
    · simp only [if_neg h]; omega
  have hpos : (Entry.set p.1.1 p.1.2 p.2).pos = p.2 := by unfold Entry.set; by_cases h : p.1.2 < p.1.1 <;> simp [h]
  by_cases h : (p.1 = (r + 1, c + 1) ∨ p.1 = (c + 1, r + 1))
  · rw [if_pos h, if_pos (hiff.mp h), hpos]
  · rw [if_neg h, if_neg fun h' => h (hiff.mpr h')]

theorem tripletElem_symm (trip : List (Nat × Nat)) (a : Nat → K) (r c : Nat) : tripletElem trip a r c = tripletElem trip a c r := by
  unfold tripletElem
  congr 1
  refine List.map_congr_left fun p _ => ?_
  congr 1
  exact propext or_comm

theorem sum_zero_of {α : Type} (l : List α) (f : α → K) (h : ∀ x ∈ l, f x = 0) : (l.map f).sum = 0 := by
  induction l with
  | nil => simp
  | cons x l ih => rw [List.map_cons, List.sum_cons, h x (List.mem_cons_self ..), ih fun y hy => h y (List.mem_cons_of_mem _ hy), zero_add]

/-- Summing over all distinct positions picks out the one asked for. -/
theorem sum_keys (a : Nat → K) (l : List Entry) (keys : List (Nat × Nat)) (hs : keys.Pairwise klt) (hc : ∀ f ∈ l, f.key ∈ keys)
    (κ : Nat × Nat) :
    ((List.range keys.length).map fun k => if keys.getD k (0, 0) = κ then keySum a l κ else 0).sum = keySum a l κ := by
  by_cases hκ : κ ∈ keys
  · obtain ⟨i, hi, rfl⟩ := List.mem_iff_getElem.mp hκ
    have hsplit : List.range keys.length = List.range i ++ [i] ++ List.range' (i + 1) (keys.length - (i + 1)) := by
      rw [List.range_eq_range', List.range_eq_range']
      have h1 : [i] = List.range' i 1 := by simp
      rw [h1]
      have h2 : List.range' 0 i ++ List.range' i 1 = List.range' 0 (i + 1) := by
        have := List.range'_append (s := 0) (m := i) (n := 1) (step := 1)
        simpa using this
      rw [h2]
      have h3 := List.range'_append (s := 0) (m := i + 1) (n := keys.length - (i + 1)) (step := 1)
      simp only [Nat.one_mul, Nat.zero_add] at h3
      rw [h3]
      congr 1
      omega
    rw [hsplit, List.map_append, List.map_append, List.sum_append, List.sum_append, sum_zero_of (List.range i), sum_zero_of (List.range' _ _)]
    · have : keys.getD i (0, 0) = keys[i] := List.getD_eq_getElem _ _ hi
      rw [List.map_singleton, List.sum_singleton, if_pos this, zero_add, add_zero]
    · intro k hk
      have hk := List.mem_range'_1.mp hk
      have hlt := List.pairwise_iff_getElem.mp hs i k hi (by omega) (by omega)
      rw [if_neg]
      intro he
      rw [List.getD_eq_getElem _ _ (by omega)] at he
      rw [he] at hlt
      exact klt_irrefl _ hlt
    · intro k hk
      have hk := List.mem_range.mp hk
      have hlt := List.pairwise_iff_getElem.mp hs k i (by omega) hi (by omega)
      rw [if_neg]
      intro he
      rw [List.getD_eq_getElem _ _ (by omega)] at he
      rw [he] at hlt
      exact klt_irrefl _ hlt
  · rw [keySum_zero a l κ fun e he h => hκ (h ▸ hc e he)]
    simp

/-- In a sorted list the elements of the first rows come first. -/
theorem lt_countP_iff {keys : List (Nat × Nat)} (hs : keys.Pairwise klt) (i k : Nat) (hk : k < keys.length) :
    k < keys.countP (fun p => decide (p.1 ≤ i)) ↔ keys[k].1 ≤ i := by
  induction keys generalizing k with
  | nil => simp at hk
  | cons x keys ih =>
    rw [List.pairwise_cons] at hs
    have htail : ¬x.1 ≤ i → keys.countP (fun p => decide (p.1 ≤ i)) = 0 := by
      intro h
      rw [List.countP_eq_zero]
      intro y hy
      have := hs.1 y hy
      unfold klt at this
      simp only [decide_eq_true_eq]
      omega
    rw [List.countP_cons]
    by_cases hx : x.1 ≤ i
    · simp only [hx, decide_true, if_true]
      cases k with
      | zero => simp [hx]
      | succ k =>
        have := ih hs.2 k (by simpa using hk)
        simp only [List.getElem_cons_succ]
        omega
    · simp only [hx, decide_false, Bool.false_eq_true, if_false, htail hx]
      have : x.1 ≤ (x :: keys)[k].1 := by
        cases k with
        | zero => simp
        | succ k =>
          have := hs.1 _ (List.getElem_mem (show k < keys.length by simpa using hk))
          simp only [List.getElem_cons_succ]
          unfold klt at this
          omega
      omega

end Verif.CSR
