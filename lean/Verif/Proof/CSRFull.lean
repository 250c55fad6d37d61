import Verif.Proof.CSR

/-! # Lemmas about the full format -/

set_option linter.unusedSectionVars false
set_option linter.unusedSimpArgs false

namespace Verif.CSR

variable {K : Type} [Field K]

/-- `foldl` over blocks of consecutive indices. -/
theorem foldl_blocks {σ : Type} (g : Nat → σ → Nat → σ) (ia : Nat → Nat) (ρ : Nat → Nat) (h0 : ia 0 = 0) (x : σ) :
    ∀ m, (∀ i < m, ia i ≤ ia (i + 1)) → (∀ i < m, ∀ j, ia i ≤ j → j < ia (i + 1) → ρ j = i) →
      (List.range m).foldl (fun f i => (List.range' (ia i) (ia (i + 1) - ia i)).foldl (g i) f) x =
        (List.range (ia m)).foldl (fun f j => g (ρ j) f j) x
  | 0, _, _ => by simp [h0]
  | m + 1, hm, hρ => by
    rw [List.range_succ, List.foldl_append, foldl_blocks g ia ρ h0 x m (fun i hi => hm i (by omega)) fun i hi => hρ i (by omega)]
    have hle := hm m (by omega)
    have hs : List.range (ia (m + 1)) = List.range (ia m) ++ List.range' (ia m) (ia (m + 1) - ia m) := by
      have h3 := List.range'_append (s := 0) (m := ia m) (n := ia (m + 1) - ia m) (step := 1)
      simp only [Nat.one_mul, Nat.zero_add] at h3
      rw [List.range_eq_range', List.range_eq_range', h3]
      congr 1; omega
    rw [hs, List.foldl_append]
    simp only [List.foldl_cons, List.foldl_nil]
    have hcongr : ∀ (L : List Nat) (y : σ), (∀ j ∈ L, ρ j = m) → L.foldl (g m) y = L.foldl (fun f j => g (ρ j) f j) y := by
      intro L
      induction L with
      | nil => intro y _; rfl
      | cons j L ih =>
        intro y hL
        rw [List.foldl_cons, List.foldl_cons, hL j (List.mem_cons_self ..)]
        exact ih _ fun k hk => hL k (List.mem_cons_of_mem _ hk)
    refine hcongr _ _ fun j hj => ?_
    have := List.mem_range'_1.mp hj
    exact hρ m (by omega) j (by omega) (by omega)

/-- The duplicates of element `j` come first. -/
theorem fillDoubles_spec (i jrow j : Nat) (iaT : Nat → Nat) (L : List (Nat × Nat)) :
    ∀ out, (L.Pairwise fun x y => x.2 ≤ y.2) → (∀ td ∈ L, j ≤ td.2) →
      fillDoubles i jrow j iaT out L =
        (out ++ (L.filter fun td => decide (td.2 = j)).flatMap
            (fun td => (td.1, iaT (i + 1)) :: (if jrow ≠ i then [(td.1, iaT (jrow + 1))] else [])),
          L.filter fun td => decide (j + 1 ≤ td.2)) := by
  induction L with
  | nil => intro out _ _; simp [fillDoubles]
  | cons td L ih =>
    intro out hs hj
    rw [List.pairwise_cons] at hs
    obtain ⟨t, k⟩ := td
    by_cases h : j = k
    · unfold fillDoubles
      rw [if_pos h, ih _ hs.2 fun td' h' => hj td' (List.mem_cons_of_mem _ h')]
      subst h
      simp [List.filter_cons]
    · unfold fillDoubles
      rw [if_neg h]
      have hk := hj (t, k) (List.mem_cons_self ..)
      simp only at hk
      have hlt : j < k := by omega
      have hall : ∀ td ∈ (t, k) :: L, j + 1 ≤ td.2 := by
        intro td' h'
        rcases List.mem_cons.mp h' with rfl | h'
        · exact hlt
        · have := hs.1 td' h'
          simp only at this
          omega
      have e1 : ((t, k) :: L).filter (fun td => decide (td.2 = j)) = [] := by
        rw [List.filter_eq_nil_iff]
        intro td' h'
        have := hall td' h'
        simp only [decide_eq_true_eq]; omega
      have e2 : ((t, k) :: L).filter (fun td => decide (j + 1 ≤ td.2)) = (t, k) :: L := by
        rw [List.filter_eq_self]
        intro td' h'
        simpa using hall td' h'
      rw [e1, e2]
      simp

/-- First position of row `r` in the full format. -/
def start (s : Scan) (r : Nat) : Nat := insertPos s.rc (r + 1)

/-- Position in row `r` of element `j`. -/
def posOf (s : Scan) (keys : List (Nat × Nat)) (r j : Nat) : Nat := start s r + (keys.take j).countP (touches r)

/-- The other index of an element touching row `r`. -/
def other (r : Nat) (p : Nat × Nat) : Nat := if p.1 - 1 = r then p.2 - 1 else p.1 - 1

def keyAt (keys : List (Nat × Nat)) (j : Nat) : Nat × Nat := keys.getD j (0, 0)

theorem take_succ_countP (keys : List (Nat × Nat)) (q : Nat × Nat → Bool) (j : Nat) (hj : j < keys.length) :
    (keys.take (j + 1)).countP q = (keys.take j).countP q + if q (keyAt keys j) then 1 else 0 := by
  rw [List.take_succ_eq_append_getElem hj, List.countP_append]
  simp only [List.countP_cons, List.countP_nil, zero_add, keyAt, List.getD_eq_getElem _ _ hj]

theorem posOf_succ (s : Scan) (keys : List (Nat × Nat)) (r j : Nat) (hj : j < keys.length) :
    posOf s keys r (j + 1) = posOf s keys r j + if touches r (keyAt keys j) then 1 else 0 := by
  unfold posOf
  rw [take_succ_countP _ _ _ hj]; omega

theorem posOf_mono (s : Scan) (keys : List (Nat × Nat)) (r : Nat) {i j : Nat} (h : i ≤ j) (hj : j ≤ keys.length) :
    posOf s keys r i ≤ posOf s keys r j := by
  induction j with
  | zero => have : i = 0 := by omega
            subst this; exact le_rfl
  | succ j ih =>
    rcases Nat.lt_or_ge i (j + 1) with h' | h'
    · have h1 := ih (by omega) (by omega)
      rw [posOf_succ s keys r j (by omega)]; omega
    · have : i = j + 1 := by omega
      rw [this]

theorem posOf_strict (s : Scan) (keys : List (Nat × Nat)) (r : Nat) {i j : Nat} (h : i < j) (hj : j ≤ keys.length)
    (ht : touches r (keyAt keys i) = true) : posOf s keys r i < posOf s keys r j := by
  have h1 := posOf_mono s keys r (show i + 1 ≤ j from h) hj
  rw [posOf_succ s keys r i (by omega), ht] at h1
  simp only [if_true] at h1
  omega

theorem posOf_zero (s : Scan) (keys : List (Nat × Nat)) (r : Nat) : posOf s keys r 0 = start s r := by simp [posOf]

theorem start_succ (s : Scan) (r : Nat) : start s (r + 1) = start s r + s.rc r := by simp [start, insertPos]

theorem posOf_end (s : Scan) (keys : List (Nat × Nat)) (hrc : ∀ i, s.rc i = keys.countP (touches i)) (r : Nat) :
    posOf s keys r keys.length = start s (r + 1) := by
  rw [start_succ, hrc]; simp [posOf]

theorem start_mono (s : Scan) {r r' : Nat} (h : r ≤ r') : start s r ≤ start s r' := by
  induction r' with
  | zero => have : r = 0 := by omega
            subst this; exact le_rfl
  | succ n ih =>
    rcases Nat.lt_or_ge r (n + 1) with h' | h'
    · have := ih (by omega)
      rw [start_succ]; omega
    · have : r = n + 1 := by omega
      rw [this]

theorem posOf_bounds (s : Scan) (keys : List (Nat × Nat)) (hrc : ∀ i, s.rc i = keys.countP (touches i)) (r j : Nat)
    (hj : j < keys.length) (ht : touches r (keyAt keys j) = true) : start s r ≤ posOf s keys r j ∧ posOf s keys r j < start s (r + 1) := by
  refine ⟨?_, ?_⟩
  · rw [← posOf_zero s keys r]; exact posOf_mono s keys r (Nat.zero_le _) (by omega)
  · rw [← posOf_end s keys hrc r]; exact posOf_strict s keys r hj le_rfl ht

theorem posOf_inj (s : Scan) (keys : List (Nat × Nat)) (hrc : ∀ i, s.rc i = keys.countP (touches i)) {r j r' j' : Nat}
    (hj : j < keys.length) (hj' : j' < keys.length) (ht : touches r (keyAt keys j) = true) (ht' : touches r' (keyAt keys j') = true)
    (h : posOf s keys r j = posOf s keys r' j') : r = r' ∧ j = j' := by
  have b1 := posOf_bounds s keys hrc r j hj ht
  have b2 := posOf_bounds s keys hrc r' j' hj' ht'
  have hr : r = r' := by
    rcases Nat.lt_trichotomy r r' with h' | h' | h'
    · have := start_mono s (show r + 1 ≤ r' from h'); omega
    · exact h'
    · have := start_mono s (show r' + 1 ≤ r from h'); omega
  subst hr
  refine ⟨rfl, ?_⟩
  rcases Nat.lt_trichotomy j j' with h' | h' | h'
  · have := posOf_strict s keys r h' (by omega) ht; omega
  · exact h'
  · have := posOf_strict s keys r h' (by omega) ht'; omega

theorem posOf_surj (s : Scan) (keys : List (Nat × Nat)) (r p : Nat) : ∀ k ≤ keys.length, start s r ≤ p → p < posOf s keys r k →
    ∃ j < k, touches r (keyAt keys j) = true ∧ p = posOf s keys r j
  | 0, _, h1, h2 => by rw [posOf_zero] at h2; omega
  | k + 1, hk, h1, h2 => by
    rw [posOf_succ s keys r k (by omega)] at h2
    by_cases h : p < posOf s keys r k
    · obtain ⟨j, hj, h3⟩ := posOf_surj s keys r p k (by omega) h1 h
      exact ⟨j, by omega, h3⟩
    · by_cases ht : touches r (keyAt keys k) = true
      · simp only [ht, if_true] at h2
        exact ⟨k, by omega, ht, by omega⟩
      · simp only [ht] at h2
        simp at h2
        omega

/-- Summing over the positions of a row is summing over the elements touching it. -/
theorem sum_row (s : Scan) (keys : List (Nat × Nat)) (r : Nat) (F : Nat → K) : ∀ k ≤ keys.length,
    ((List.range' (start s r) (posOf s keys r k - start s r)).map F).sum =
      ((List.range k).map fun j => if touches r (keyAt keys j) then F (posOf s keys r j) else 0).sum
  | 0, _ => by simp [posOf_zero]
  | k + 1, hk => by
    have ih := sum_row s keys r F k (by omega)
    have hge : start s r ≤ posOf s keys r k := by rw [← posOf_zero s keys r]; exact posOf_mono s keys r (Nat.zero_le _) (by omega)
    rw [posOf_succ s keys r k (by omega), List.range_succ, List.map_append, List.sum_append, ← ih]
    by_cases ht : touches r (keyAt keys k) = true
    · have e : posOf s keys r k + 1 - start s r = (posOf s keys r k - start s r) + 1 := by omega
      rw [ht, if_pos rfl, e, List.range'_concat, List.map_append, List.sum_append]
      have e2 : start s r + 1 * (posOf s keys r k - start s r) = posOf s keys r k := by omega
      rw [e2]
      simp [ht]
    · simp [ht]

/-- State of the second pass after `k` elements. -/
structure FInv (offset : Nat) (s : Scan) (keys : List (Nat × Nat)) (k : Nat) (f : Fill) : Prop where
  ia0 : f.iaT 0 = 0
  ia : ∀ r, f.iaT (r + 1) = posOf s keys r k
  ja : ∀ j < k, ∀ r, touches r (keyAt keys j) = true → f.ja (posOf s keys r j) = other r (keyAt keys j) + offset
  first : ∀ j < k, ∀ r, touches r (keyAt keys j) = true → f.first (posOf s keys r j) = s.first.getD j 0
  outPos : ∀ td ∈ f.out, ∃ j < k, ∃ r, touches r (keyAt keys j) = true ∧ td.2 = posOf s keys r j
  rest : f.rest = s.dbl.filter fun td => decide (k ≤ td.2)

def FVals (a : Nat → K) (s : Scan) (keys : List (Nat × Nat)) (k : Nat) (f : Fill) : Prop :=
  ∀ j < k, ∀ r, touches r (keyAt keys j) = true → dblSum a f.out (posOf s keys r j) = dblSum a s.dbl j

/-- Duplicates written to one position. -/
theorem dblSum_flatMap (a : Nat → K) (d : List (Nat × Nat)) (k p q x : Nat) (two : Bool) (hpq : p ≠ q) :
    dblSum a ((d.filter fun td => decide (td.2 = k)).flatMap fun td => (td.1, p) :: (if two then [(td.1, q)] else [])) x =
      if x = p ∨ (two ∧ x = q) then dblSum a d k else 0 := by
  induction d with
  | nil => simp [dblSum]
  | cons td d ih =>
    have e : dblSum a (td :: d) k = (if td.2 = k then a td.1 else 0) + dblSum a d k := by simp [dblSum]
    by_cases h : td.2 = k
    · rw [List.filter_cons_of_pos (by simpa using h), List.flatMap_cons, dblSum_append, ih, e, if_pos h]
      by_cases hx : x = p
      · subst hx
        rw [if_pos (Or.inl rfl), if_pos (Or.inl rfl)]
        congr 1
        cases two
        · simp [dblSum]
        · simp [dblSum, hpq.symm]
      · have hx' : ¬p = x := fun h => hx h.symm
        cases two
        · simp [dblSum, hx, hx']
        · by_cases hxq : x = q
          · subst hxq
            simp [dblSum, hpq]
          · have hxq' : ¬q = x := fun h => hxq h.symm
            simp [dblSum, hx, hxq, hx', hxq']
    · rw [List.filter_cons_of_neg (by simpa using h), ih, e, if_neg h, zero_add]

theorem touches_iff (r : Nat) (p : Nat × Nat) : touches r p = true ↔ p.1 - 1 = r ∨ p.2 - 1 = r := by
  simp [touches]

theorem finv_step (offset : Nat) (s : Scan) (keys : List (Nat × Nat)) (hrc : ∀ i, s.rc i = keys.countP (touches i))
    (hja : s.ja = keys.map Prod.snd) (hmono : s.dbl.Pairwise fun x y => x.2 ≤ y.2) (k : Nat) (hk : k < keys.length) (f : Fill)
    (h : FInv offset s keys k f) (hv : ∀ a : Nat → K, FVals a s keys k f) :
    FInv offset s keys (k + 1) (fillStep offset s ((keyAt keys k).1 - 1) f k) ∧
      ∀ a : Nat → K, FVals a s keys (k + 1) (fillStep offset s ((keyAt keys k).1 - 1) f k) := by
  have hcol : s.ja.getD k 0 = (keyAt keys k).2 := by
    rw [hja, keyAt, List.getD_eq_getElem _ _ (by simpa using hk), List.getD_eq_getElem _ _ hk, List.getElem_map]
  generalize hκ : keyAt keys k = κ at *
  obtain ⟨x, y⟩ := κ
  simp only at hcol
  have hd := fillDoubles_spec (x - 1) (y - 1) k f.iaT f.rest f.out
    (by rw [h.rest]; exact hmono.filter _) (by rw [h.rest]; intro td htd; simpa using (List.mem_filter.mp htd).2)
  have hrest : (f.rest.filter fun td => decide (k + 1 ≤ td.2)) = s.dbl.filter fun td => decide (k + 1 ≤ td.2) := by
    rw [h.rest, List.filter_filter]
    refine List.filter_congr fun td _ => ?_
    rw [← Bool.decide_and]
    congr 1
    exact propext ⟨fun h => h.1, fun h => ⟨h, by omega⟩⟩
  have hdup : (f.rest.filter fun td => decide (td.2 = k)) = s.dbl.filter fun td => decide (td.2 = k) := by
    rw [h.rest, List.filter_filter]
    refine List.filter_congr fun td _ => ?_
    rw [← Bool.decide_and]
    congr 1
    exact propext ⟨fun h => h.1, fun h => ⟨h, by omega⟩⟩
  rw [hrest, hdup, h.ia, h.ia] at hd
  have tx : touches (x - 1) (keyAt keys k) = true := by rw [hκ, touches_iff]; exact Or.inl rfl
  have ty : touches (y - 1) (keyAt keys k) = true := by rw [hκ, touches_iff]; exact Or.inr rfl
  -- positions already written are different from the new ones
  have hne : ∀ j < k, ∀ r, touches r (keyAt keys j) = true → ∀ r', touches r' (keyAt keys k) = true →
      posOf s keys r j ≠ posOf s keys r' k := by
    intro j hj r ht r' ht' he
    have := posOf_inj s keys hrc (by omega) hk ht ht' he
    omega
  have outPos' : ∀ (two : Bool), (two = true → True) →
      ∀ td ∈ f.out ++ (s.dbl.filter fun td => decide (td.2 = k)).flatMap
          (fun td => (td.1, posOf s keys (x - 1) k) :: (if two then [(td.1, posOf s keys (y - 1) k)] else [])),
        ∃ j < k + 1, ∃ r, touches r (keyAt keys j) = true ∧ td.2 = posOf s keys r j := by
    intro two _ td htd
    rcases List.mem_append.mp htd with htd | htd
    · obtain ⟨j, hj, r, h1, h2⟩ := h.outPos td htd
      exact ⟨j, by omega, r, h1, h2⟩
    · obtain ⟨u, -, hu⟩ := List.mem_flatMap.mp htd
      rcases List.mem_cons.mp hu with rfl | hu
      · exact ⟨k, by omega, x - 1, tx, rfl⟩
      · cases two
        · simp at hu
        · simp at hu
          rw [hu]
          exact ⟨k, by omega, y - 1, ty, rfl⟩
  have old0 : ∀ (a : Nat → K) r, touches r (keyAt keys k) = true → dblSum a f.out (posOf s keys r k) = 0 := by
    intro a r ht
    refine dblSum_zero a _ _ fun td htd => ?_
    obtain ⟨j, hj, r', h1, h2⟩ := h.outPos td htd
    rw [h2]
    exact hne j hj r' h1 r ht
  by_cases hxy : y - 1 = x - 1
  · -- diagonal element
    have hstep : fillStep offset s (x - 1) f k =
        { iaT := upd f.iaT (x - 1 + 1) (posOf s keys (x - 1) k + 1), ja := upd f.ja (posOf s keys (x - 1) k) (y - 1 + offset),
          first := upd f.first (posOf s keys (x - 1) k) (s.first.getD k 0),
          out := f.out ++ (s.dbl.filter fun td => decide (td.2 = k)).flatMap
            (fun td => (td.1, posOf s keys (x - 1) k) :: (if y - 1 ≠ x - 1 then [(td.1, posOf s keys (y - 1) k)] else [])),
          rest := s.dbl.filter fun td => decide (k + 1 ≤ td.2) } := by
      unfold fillStep
      simp only [hcol, hd, h.ia]
      rw [if_neg (not_not.mpr hxy)]
    have htch : ∀ r, touches r (keyAt keys k) = true ↔ r = x - 1 := by
      intro r; rw [hκ, touches_iff]; simp only; omega
    rw [hstep]
    simp only [hxy, ne_eq, not_true_eq_false, if_false]
    refine ⟨⟨?_, ?_, ?_, ?_, ?_, rfl⟩, ?_⟩
    · simp only [upd]; rw [if_neg (by omega)]; exact h.ia0
    · intro r
      simp only [upd]
      rw [posOf_succ s keys r k hk]
      by_cases hr : r = x - 1
      · rw [if_pos (by omega), if_pos ((htch r).mpr hr), hr]
      · rw [if_neg (by omega), if_neg (fun h' => hr ((htch r).mp h')), h.ia]; omega
    · intro j hj r ht
      simp only [upd]
      rcases Nat.lt_or_ge j k with hjk | hjk
      · rw [if_neg (hne j hjk r ht (x - 1) tx)]
        exact h.ja j hjk r ht
      · have : j = k := by omega
        subst this
        have hr := (htch r).mp ht
        rw [if_pos (by rw [hr]), hκ]
        simp [other, hr, hxy]
    · intro j hj r ht
      simp only [upd]
      rcases Nat.lt_or_ge j k with hjk | hjk
      · rw [if_neg (hne j hjk r ht (x - 1) tx)]
        exact h.first j hjk r ht
      · have : j = k := by omega
        subst this
        rw [if_pos (by rw [(htch r).mp ht])]
    · have := outPos' false (by simp)
      simpa using this
    · intro a j hj r ht
      have e := dblSum_flatMap a s.dbl k (posOf s keys (x - 1) k) (posOf s keys (x - 1) k + 1) (posOf s keys r j) false (by omega)
      simp only [Bool.false_eq_true, if_false, false_and, or_false] at e
      simp only
      rw [dblSum_append, e]
      rcases Nat.lt_or_ge j k with hjk | hjk
      · rw [if_neg (hne j hjk r ht (x - 1) tx), add_zero]
        exact hv a j hjk r ht
      · have : j = k := by omega
        subst this
        rw [if_pos (by rw [(htch r).mp ht]), old0 a r ht, zero_add]
  · have hpq : posOf s keys (x - 1) k ≠ posOf s keys (y - 1) k := by
      intro he
      have := posOf_inj s keys hrc hk hk tx ty he
      omega
    have hstep : fillStep offset s (x - 1) f k =
        { iaT := upd (upd f.iaT (x - 1 + 1) (posOf s keys (x - 1) k + 1)) (y - 1 + 1) (posOf s keys (y - 1) k + 1),
          ja := upd (upd f.ja (posOf s keys (x - 1) k) (y - 1 + offset)) (posOf s keys (y - 1) k) (x - 1 + offset),
          first := upd (upd f.first (posOf s keys (x - 1) k) (s.first.getD k 0)) (posOf s keys (y - 1) k) (s.first.getD k 0),
          out := f.out ++ (s.dbl.filter fun td => decide (td.2 = k)).flatMap
            (fun td => (td.1, posOf s keys (x - 1) k) :: (if y - 1 ≠ x - 1 then [(td.1, posOf s keys (y - 1) k)] else [])),
          rest := s.dbl.filter fun td => decide (k + 1 ≤ td.2) } := by
      have hq : upd f.iaT (x - 1 + 1) (posOf s keys (x - 1) k + 1) (y - 1 + 1) = posOf s keys (y - 1) k := by
        simp only [upd]; rw [if_neg (by omega), h.ia]
      unfold fillStep
      simp only [hcol, hd, h.ia, hq]
      rw [if_pos hxy]
    have htch : ∀ r, touches r (keyAt keys k) = true ↔ r = x - 1 ∨ r = y - 1 := by
      intro r; rw [hκ, touches_iff]; simp only; omega
    rw [hstep]
    simp only [ne_eq, hxy, not_false_eq_true, if_true]
    refine ⟨⟨?_, ?_, ?_, ?_, ?_, rfl⟩, ?_⟩
    · simp only [upd]; rw [if_neg (by omega), if_neg (by omega)]; exact h.ia0
    · intro r
      simp only [upd]
      rw [posOf_succ s keys r k hk]
      by_cases hry : r = y - 1
      · rw [if_pos (by omega), if_pos ((htch r).mpr (Or.inr hry)), hry]
      · rw [if_neg (by omega)]
        by_cases hrx : r = x - 1
        · rw [if_pos (by omega), if_pos ((htch r).mpr (Or.inl hrx)), hrx]
        · rw [if_neg (by omega), if_neg (fun h' => by rcases (htch r).mp h' with h' | h'; exact hrx h'; exact hry h'), h.ia]; omega
    · intro j hj r ht
      simp only [upd]
      rcases Nat.lt_or_ge j k with hjk | hjk
      · rw [if_neg (hne j hjk r ht (y - 1) ty), if_neg (hne j hjk r ht (x - 1) tx)]
        exact h.ja j hjk r ht
      · have : j = k := by omega
        subst this
        rw [hκ]
        rcases (htch r).mp ht with hr | hr
        · rw [hr, if_neg hpq, if_pos rfl]
          simp [other]
        · rw [hr, if_pos rfl]
          simp only [other]
          rw [if_neg (fun h => hxy h.symm)]
    · intro j hj r ht
      simp only [upd]
      rcases Nat.lt_or_ge j k with hjk | hjk
      · rw [if_neg (hne j hjk r ht (y - 1) ty), if_neg (hne j hjk r ht (x - 1) tx)]
        exact h.first j hjk r ht
      · have : j = k := by omega
        subst this
        rcases (htch r).mp ht with hr | hr
        · rw [hr, if_neg hpq, if_pos rfl]
        · rw [hr, if_pos rfl]
    · have := outPos' true (by simp)
      simpa using this
    · intro a j hj r ht
      have e := dblSum_flatMap a s.dbl k (posOf s keys (x - 1) k) (posOf s keys (y - 1) k) (posOf s keys r j) true hpq
      simp only [if_true, true_and] at e
      simp only
      rw [dblSum_append, e]
      rcases Nat.lt_or_ge j k with hjk | hjk
      · rw [if_neg, add_zero]
        · exact hv a j hjk r ht
        · rintro (h' | h')
          · exact hne j hjk r ht (x - 1) tx h'
          · exact hne j hjk r ht (y - 1) ty h'
      · have : j = k := by omega
        subst this
        rw [if_pos, old0 a r ht, zero_add]
        rcases (htch r).mp ht with hr | hr
        · exact Or.inl (by rw [hr])
        · exact Or.inr (by rw [hr])

theorem finv_fold (offset : Nat) (s : Scan) (keys : List (Nat × Nat)) (hrc : ∀ i, s.rc i = keys.countP (touches i))
    (hja : s.ja = keys.map Prod.snd) (hmono : s.dbl.Pairwise fun x y => x.2 ≤ y.2) (ja0 first0 : Nat → Nat) : ∀ k ≤ keys.length,
    FInv offset s keys k ((List.range k).foldl (fun f j => fillStep offset s ((keyAt keys j).1 - 1) f j)
        { iaT := insertPos s.rc, ja := ja0, first := first0, out := [], rest := s.dbl }) ∧
      ∀ a : Nat → K, FVals a s keys k ((List.range k).foldl (fun f j => fillStep offset s ((keyAt keys j).1 - 1) f j)
        { iaT := insertPos s.rc, ja := ja0, first := first0, out := [], rest := s.dbl })
  | 0, _ => by
    refine ⟨⟨rfl, fun r => ?_, fun j hj => absurd hj (Nat.not_lt_zero _), fun j hj => absurd hj (Nat.not_lt_zero _), by simp, ?_⟩,
      fun a j hj => absurd hj (Nat.not_lt_zero _)⟩
    · rw [posOf_zero]; rfl
    · simp
  | k + 1, hk => by
    rw [List.range_succ, List.foldl_append]
    obtain ⟨h1, h2⟩ := finv_fold offset s keys hrc hja hmono ja0 first0 k (by omega)
    exact finv_step offset s keys hrc hja hmono k (by omega) _ h1 h2

/-- Sum of the row counts. -/
theorem start_eq_full (s : Scan) (keys : List (Nat × Nat)) (hrc : ∀ i, s.rc i = keys.countP (touches i)) (dim : Nat)
    (hr : ∀ κ ∈ keys, 1 ≤ κ.1 ∧ κ.1 ≤ κ.2 ∧ κ.2 ≤ dim) : start s dim = (keys.map mult).sum := by
  have h1 : ∀ m, start s m = ((List.range m).map fun r => keys.countP (touches r)).sum := by
    intro m
    induction m with
    | zero => rfl
    | succ m ih => rw [start_succ, ih, List.range_succ, List.map_append, List.sum_append, hrc]; simp
  rw [h1]
  clear h1 hrc
  have hone : ∀ n m x, x < n → ((List.range' m n).map fun r => if m + x = r then 1 else 0).sum = 1 := by
    intro n
    induction n with
    | zero => intro m x hx; omega
    | succ n ih =>
      intro m x hx
      rw [List.range'_succ, List.map_cons, List.sum_cons]
      by_cases h0 : x = 0
      · subst h0
        have : ((List.range' (m + 1) n).map fun r => if m + 0 = r then 1 else 0).sum = 0 := by
          rw [List.sum_eq_zero]
          intro v hv
          obtain ⟨r, hr, rfl⟩ := List.mem_map.mp hv
          have := List.mem_range'_1.mp hr
          rw [if_neg (by omega)]
        rw [this]; simp
      · have := ih (m + 1) (x - 1) (by omega)
        rw [if_neg (by omega)]
        rw [show m + 1 + (x - 1) = m + x by omega] at this
        rw [this]
  induction keys with
  | nil => simp
  | cons κ keys ih =>
    rw [List.map_cons, List.sum_cons, ← ih fun κ' h' => hr κ' (List.mem_cons_of_mem _ h')]
    have hκ := hr κ (List.mem_cons_self ..)
    have hcount : ((List.range dim).map fun r => if touches r κ then 1 else 0).sum = mult κ := by
      have a1 := hone dim 0 (κ.1 - 1) (by omega)
      have a2 := hone dim 0 (κ.2 - 1) (by omega)
      rw [← List.range_eq_range', zero_add] at a1 a2
      by_cases he : κ.1 = κ.2
      · have : mult κ = 1 := by simp [mult, he]
        rw [this]
        rw [← a1]
        congr 1
        refine List.map_congr_left fun r _ => ?_
        congr 1
        rw [touches_iff, he]
        simp
      · have : mult κ = 2 := by simp [mult, he]
        refine this.symm ▸ ?_
        refine Eq.trans ?_ (show _ + _ = 2 from congrArg₂ (· + ·) a1 a2)
        rw [← List.sum_map_add]
        congr 1
        refine List.map_congr_left fun r _ => ?_
        have ht := touches_iff r κ
        by_cases h1 : κ.1 - 1 = r
        · have h2 : ¬κ.2 - 1 = r := by omega
          simp [ht.mpr (Or.inl h1), h1, h2]
        · by_cases h2 : κ.2 - 1 = r
          · simp [ht.mpr (Or.inr h2), h1, h2]
          · have : touches r κ = false := by
              cases hb : touches r κ with
              | false => rfl
              | true => rcases ht.mp hb with h | h; exact absurd h h1; exact absurd h h2
            simp [this, h1, h2]
    rw [← hcount, ← List.sum_map_add]
    congr 1
    refine List.map_congr_left fun r _ => ?_
    rw [List.countP_cons, Nat.add_comm]

end Verif.CSR
