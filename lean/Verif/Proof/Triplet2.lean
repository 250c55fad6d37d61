import Verif.Proof.Triplet

/-! # Proofs for `TripletHelper`, part 2: the reference list represents the matrix -/

namespace Verif.Triplet
open Verif.Matrix Finset

set_option linter.unusedSectionVars false
set_option linter.unusedSimpArgs false

variable {K : Type} [Field K] [DecidableEq K]

def gsum (l : List (Trip K)) (i j : Nat) : K := (l.map fun t => if t.row = i + 1 ∧ t.col = j + 1 then t.val else 0).sum

def ssum (l : List (Trip K)) (i j : Nat) : K :=
  (l.map fun t => if (t.row = i + 1 ∧ t.col = j + 1) ∨ (t.row = j + 1 ∧ t.col = i + 1) then t.val else 0).sum

theorem lsum_flatMap {A : Type} (n : Nat) (g : Nat → List A) (f : A → K) :
    (((List.range n).flatMap g).map f).sum = ∑ i ∈ range n, ((g i).map f).sum := by
  induction n with
  | zero => simp
  | succ n ih =>
    rw [List.range_succ, List.flatMap_append, List.map_append, List.sum_append, ih, Finset.sum_range_succ]
    simp

theorem off_inj (ds : List Nat) {b o b' o' : Nat} (hb : b < ds.length) (ho : o < ds.getD b 0) (hb' : b' < ds.length)
    (ho' : o' < ds.getD b' 0) (h : off ds b + o = off ds b' + o') : b = b' ∧ o = o' := by
  have h1 := locate_off ds b o hb ho
  have h2 := locate_off ds b' o' hb' ho'
  rw [h, h2] at h1
  simpa [eq_comm] using h1

/-- triplets are inside the matrix. -/
theorem trL_range (m : Mat K) : WF m → ∀ t ∈ trL m, 1 ≤ t.row ∧ t.row ≤ m.dims.1 ∧ 1 ≤ t.col ∧ t.col ≤ m.dims.2 := by
  induction m with
  | zero r c => intro _ t ht; simp [trL] at ht
  | zeroSym n => intro _ t ht; simp [trL] at ht
  | ident n f => intro _ t ht; simp [trL] at ht; obtain ⟨i, hi, rfl⟩ := ht; simp [Mat.dims]; omega
  | diag d => intro _ t ht; simp [trL] at ht; obtain ⟨i, hi, rfl⟩ := ht; simp [Mat.dims]; omega
  | genT r c ts => intro h t ht; exact h t ht
  | symT n ts => intro h t ht; exact h t ht
  | expansion r pos =>
    intro h t ht
    simp only [trL, List.mem_map, List.mem_range] at ht
    obtain ⟨i, hi, rfl⟩ := ht
    have := h (pos.getD i 0) (by rw [List.getD_eq_getElem _ _ hi]; exact List.getElem_mem hi)
    simp only [Mat.dims]; omega
  | denseGen r c v => intro _ t ht; simp [trL] at ht
  | denseSym n v => intro _ t ht; simp [trL] at ht
  | multiVec r v => intro _ t ht; simp [trL] at ht
  | lowRank D V U => intro _ t ht; simp [trL] at ht
  | lowRankP red D V U P ih => intro _ t ht; simp [trL] at ht
  | expMultiVec c vecs P =>
    intro h t ht
    simp only [trL, List.mem_flatMap, List.mem_map, List.mem_range] at ht
    obtain ⟨i, hi, j, hj, rfl⟩ := ht
    simp only [Mat.dims]
    cases P with
    | none => simp only [rowVecDim] at hj; simp only [colOf]; omega
    | some pos =>
      simp only [rowVecDim] at hj
      simp only [colOf]
      have := h.2 pos rfl (pos.getD j 0) (by rw [List.getD_eq_getElem _ _ hj]; exact List.getElem_mem hj)
      omega
  | transpose m ih =>
    intro h t ht
    simp only [trL, List.mem_map] at ht
    obtain ⟨u, hu, rfl⟩ := ht
    have := ih h u hu
    simp only [Mat.dims]; tauto
  | scaled rs m cs ih =>
    intro h t ht
    simp only [trL, List.mem_map] at ht
    obtain ⟨u, hu, rfl⟩ := ht
    exact ih h.1 u hu
  | symScaled s m ih =>
    intro h t ht
    simp only [trL, List.mem_map] at ht
    obtain ⟨u, hu, rfl⟩ := ht
    exact ih h.1 u hu
  | sum r c k f t ih =>
    intro h x hx
    simp only [trL, List.mem_flatMap, List.mem_map, List.mem_range] at hx
    obtain ⟨l, hl, u, hu, rfl⟩ := hx
    have := ih l (h l hl).1 u hu
    rw [(h l hl).2] at this
    exact this
  | sumSym n k f t ih =>
    intro h x hx
    simp only [trL, List.mem_flatMap, List.mem_map, List.mem_range] at hx
    obtain ⟨l, hl, u, hu, rfl⟩ := hx
    have := ih l (h l hl).1 u hu
    rw [(h l hl).2.1] at this
    exact this
  | compound rd cd sp set comp ih =>
    intro h x hx
    simp only [trL, List.mem_flatMap, List.mem_range] at hx
    obtain ⟨i, hi, j, hj, hx⟩ := hx
    by_cases hs : set i j = true
    · rw [if_pos hs, List.mem_map] at hx
      obtain ⟨u, hu, rfl⟩ := hx
      obtain ⟨_, hw, hd⟩ := h.1 i j hi hj hs
      have := ih i j hw u hu
      rw [hd] at this
      have h1 := off_add_le rd i hi
      have h2 := off_add_le cd j hj
      simp only [shift, Mat.dims]
      simp only at this
      omega
    · rw [if_neg hs] at hx; simp at hx
  | compoundSym ds set comp ih =>
    intro h x hx
    simp only [trL, List.mem_flatMap, List.mem_range] at hx
    obtain ⟨i, hi, j, hj, hx⟩ := hx
    by_cases hs : set i j = true
    · rw [if_pos hs, List.mem_map] at hx
      obtain ⟨u, hu, rfl⟩ := hx
      obtain ⟨hw, hd, _⟩ := h i j (by omega) hi hs
      have := ih i j hw u hu
      rw [hd] at this
      have h1 := off_add_le ds i hi
      have h2 := off_add_le ds j (by omega)
      simp only [shift, Mat.dims]
      simp only at this
      omega
    · rw [if_neg hs] at hx; simp at hx

/-! ## Sums of shifted blocks -/

theorem gsum_shift (l : List (Trip K)) (r c i j : Nat) : gsum (l.map (shift r c)) (r + i) (c + j) = gsum l i j := by
  unfold gsum
  rw [List.map_map]
  congr 1
  refine List.map_congr_left (fun t _ => ?_)
  simp only [Function.comp, shift]
  congr 1
  apply propext
  constructor <;> rintro ⟨h1, h2⟩ <;> constructor <;> omega

theorem gsum_zero (l : List (Trip K)) (i j : Nat) (h : ∀ t ∈ l, ¬(t.row = i + 1 ∧ t.col = j + 1)) : gsum l i j = 0 := by
  unfold gsum
  refine List.sum_eq_zero (fun x hx => ?_)
  simp only [List.mem_map] at hx
  obtain ⟨t, ht, rfl⟩ := hx
  rw [if_neg (h t ht)]

theorem ssum_shift (l : List (Trip K)) (r i j : Nat) : ssum (l.map (shift r r)) (r + i) (r + j) = ssum l i j := by
  unfold ssum
  rw [List.map_map]
  congr 1
  refine List.map_congr_left (fun t _ => ?_)
  simp only [Function.comp, shift]
  congr 1
  apply propext
  constructor <;> (rintro (⟨h1, h2⟩ | ⟨h1, h2⟩) <;> [left; right] <;> constructor <;> omega)

theorem ssum_zero (l : List (Trip K)) (i j : Nat)
    (h : ∀ t ∈ l, ¬(t.row = i + 1 ∧ t.col = j + 1) ∧ ¬(t.row = j + 1 ∧ t.col = i + 1)) : ssum l i j = 0 := by
  unfold ssum
  refine List.sum_eq_zero (fun x hx => ?_)
  simp only [List.mem_map] at hx
  obtain ⟨t, ht, rfl⟩ := hx
  rw [if_neg (by have := h t ht; tauto)]

theorem ssum_comm (l : List (Trip K)) (i j : Nat) : ssum l i j = ssum l j i := by
  unfold ssum
  congr 1
  refine List.map_congr_left (fun t _ => ?_)
  congr 1
  exact propext or_comm

theorem ssum_eq_gsum (l : List (Trip K)) (i j : Nat) (h : ∀ t ∈ l, ¬(t.row = j + 1 ∧ t.col = i + 1) ∨ i = j) :
    ssum l i j = gsum l i j := by
  unfold ssum gsum
  congr 1
  refine List.map_congr_left (fun t ht => ?_)
  congr 1
  apply propext
  rcases h t ht with h | rfl <;> tauto

theorem gsum_flatMap (n : Nat) (g : Nat → List (Trip K)) (i j : Nat) :
    gsum ((List.range n).flatMap g) i j = ∑ l ∈ range n, gsum (g l) i j := lsum_flatMap n g _

theorem ssum_flatMap (n : Nat) (g : Nat → List (Trip K)) (i j : Nat) :
    ssum ((List.range n).flatMap g) i j = ∑ l ∈ range n, ssum (g l) i j := lsum_flatMap n g _

theorem gsum_scl (f : K) (l : List (Trip K)) (i j : Nat) : gsum (l.map (scl f)) i j = f * gsum l i j := by
  unfold gsum
  induction l with
  | nil => simp
  | cons t l ih =>
    simp only [List.map_cons, List.sum_cons] at ih ⊢
    rw [ih, mul_add]
    congr 1
    by_cases h : t.row = i + 1 ∧ t.col = j + 1
    · rw [if_pos h, if_pos (by exact h)]; rfl
    · rw [if_neg h, if_neg (by exact h), mul_zero]

theorem ssum_scl (f : K) (l : List (Trip K)) (i j : Nat) : ssum (l.map (scl f)) i j = f * ssum l i j := by
  unfold ssum
  induction l with
  | nil => simp
  | cons t l ih =>
    simp only [List.map_cons, List.sum_cons] at ih ⊢
    rw [ih, mul_add]
    congr 1
    by_cases h : (t.row = i + 1 ∧ t.col = j + 1) ∨ (t.row = j + 1 ∧ t.col = i + 1)
    · rw [if_pos h, if_pos (by exact h)]; rfl
    · rw [if_neg h, if_neg (by exact h), mul_zero]

theorem gsum_scaled (l : List (Trip K)) (a b : Nat → K) (i j : Nat) :
    gsum (l.map fun t => ⟨t.row, t.col, t.val * a (t.row - 1) * b (t.col - 1)⟩) i j = a i * gsum l i j * b j := by
  unfold gsum
  induction l with
  | nil => simp
  | cons t l ih =>
    simp only [List.map_cons, List.sum_cons] at ih ⊢
    rw [ih, mul_add, add_mul]
    congr 1
    by_cases h : t.row = i + 1 ∧ t.col = j + 1
    · rw [if_pos h, if_pos h, h.1, h.2]; simp only [Nat.add_sub_cancel]; ring
    · rw [if_neg h, if_neg h]; simp

theorem ssum_scaled (l : List (Trip K)) (a : Nat → K) (i j : Nat) :
    ssum (l.map fun t => ⟨t.row, t.col, t.val * a (t.row - 1) * a (t.col - 1)⟩) i j = a i * ssum l i j * a j := by
  unfold ssum
  induction l with
  | nil => simp
  | cons t l ih =>
    simp only [List.map_cons, List.sum_cons] at ih ⊢
    rw [ih, mul_add, add_mul]
    congr 1
    by_cases h : t.row = i + 1 ∧ t.col = j + 1
    · rw [if_pos (Or.inl h), if_pos (Or.inl h), h.1, h.2]; simp only [Nat.add_sub_cancel]; ring
    · by_cases h' : t.row = j + 1 ∧ t.col = i + 1
      · rw [if_pos (Or.inr h'), if_pos (Or.inr h'), h'.1, h'.2]; simp only [Nat.add_sub_cancel]; ring
      · rw [if_neg (by tauto), if_neg (by tauto)]; simp

theorem gsum_range (n : Nat) (r c : Nat → Nat) (v : Nat → K) (i j : Nat) :
    gsum ((List.range n).map fun k => (⟨r k, c k, v k⟩ : Trip K)) i j =
      ∑ k ∈ range n, if r k = i + 1 ∧ c k = j + 1 then v k else 0 := by
  unfold gsum
  rw [List.map_map, ← sum_map_range]
  rfl

theorem gsum_diag (n : Nat) (v : Nat → K) (i j : Nat) (hi : i < n) :
    gsum ((List.range n).map fun k => (⟨k + 1, k + 1, v k⟩ : Trip K)) i j = if i = j then v i else 0 := by
  rw [gsum_range n (fun k => k + 1) (fun k => k + 1) v]
  rw [Finset.sum_eq_single i]
  · by_cases h : i = j
    · subst h; simp
    · rw [if_neg h, if_neg (by rintro ⟨_, h2⟩; omega)]
  · intro k _ hk
    rw [if_neg (by rintro ⟨h1, _⟩; omega)]
  · intro h; exact absurd (by simpa using hi) h

/-! ## The represented matrix -/

/-- a block of a compound contributes only to its own rows and columns. -/
theorem block_gsum (rd cd : List Nat) (l : List (Trip K)) (b b' o o' a a' : Nat) (hb : b < rd.length) (ho : o < rd.getD b 0)
    (hb' : b' < cd.length) (ho' : o' < cd.getD b' 0) (ha : a < rd.length) (ha' : a' < cd.length)
    (hl : ∀ t ∈ l, 1 ≤ t.row ∧ t.row ≤ rd.getD a 0 ∧ 1 ≤ t.col ∧ t.col ≤ cd.getD a' 0) :
    gsum (l.map (shift (off rd a) (off cd a'))) (off rd b + o) (off cd b' + o') = if a = b ∧ a' = b' then gsum l o o' else 0 := by
  by_cases h : a = b ∧ a' = b'
  · obtain ⟨rfl, rfl⟩ := h
    rw [if_pos ⟨rfl, rfl⟩, gsum_shift]
  · rw [if_neg h]
    apply gsum_zero
    intro t ht hc
    simp only [List.mem_map] at ht
    obtain ⟨u, hu, rfl⟩ := ht
    simp only [shift] at hc
    obtain ⟨h1, h2, h3, h4⟩ := hl u hu
    apply h
    have e1 := off_inj rd ha (o := u.row - 1) (by omega) hb ho (by omega)
    have e2 := off_inj cd ha' (o := u.col - 1) (by omega) hb' ho' (by omega)
    exact ⟨e1.1, e2.1⟩

theorem gsum_ent (m : Mat K) : WF m → Supported m → NoTriangle m → ∀ i j, i < m.dims.1 → j < m.dims.2 →
    gsum (trL m) i j = ent m i j := by
  induction m with
  | zero r c => intro _ _ _ i j _ _; simp [trL, gsum, ent]
  | zeroSym n => intro _ _ _ i j _ _; simp [trL, gsum, ent]
  | ident n f => intro _ _ _ i j hi _; exact gsum_diag n (fun _ => f) i j hi
  | diag d => intro _ _ _ i j hi _; exact gsum_diag d.length (fun i => d.getD i 0) i j hi
  | genT r c ts => intro _ _ _ i j _ _; rfl
  | symT n ts =>
    intro _ _ ht i j _ _
    unfold trL ent
    have := ssum_eq_gsum ts i j (fun t h => by
      have := ht t h
      by_cases e : i = j
      · exact Or.inr e
      · left; rintro ⟨h1, h2⟩; omega)
    exact this.symm
  | expansion r pos =>
    intro _ _ _ i j _ hj
    simp only [Mat.dims] at hj
    unfold trL ent
    rw [gsum_range pos.length (fun k => pos.getD k 0 + 1) (fun k => k + 1) (fun _ => 1)]
    rw [Finset.sum_eq_single j]
    · by_cases h : pos[j]? = some i
      · rw [if_pos h, if_pos]
        simp [List.getD, h]
      · rw [if_neg h, if_neg]
        rintro ⟨h1, _⟩
        apply h
        rw [List.getElem?_eq_getElem hj]
        rw [List.getD_eq_getElem _ _ hj] at h1
        congr 1; omega
    · intro k _ hk
      rw [if_neg (by rintro ⟨_, h2⟩; omega)]
    · intro h; exact absurd (by simpa using hj) h
  | denseGen r c v => intro _ h; exact h.elim
  | denseSym n v => intro _ h; exact h.elim
  | multiVec r v => intro _ h; exact h.elim
  | lowRank D V U => intro _ h; exact h.elim
  | lowRankP red D V U P ih => intro _ h; exact h.elim
  | expMultiVec c vecs P =>
    intro hw _ _ i j hi hj
    simp only [Mat.dims] at hi hj
    unfold trL ent
    rw [gsum_flatMap, Finset.sum_eq_single i]
    · rw [gsum_range (rowVecDim c P) (fun _ => i + 1) (fun k => colOf P k + 1) (fun k => optGet (vecs.getD i none) k)]
      cases hv : vecs.getD i none with
      | none =>
        simp only [rowEnt, optGet]
        refine Finset.sum_eq_zero (fun k _ => by simp)
      | some v =>
        cases P with
        | none =>
          simp only [rowEnt, optGet, colOf, rowVecDim]
          rw [Finset.sum_eq_single j]
          · simp
          · intro k _ hk; rw [if_neg (by rintro ⟨_, h2⟩; omega)]
          · intro h; exact absurd (by simpa using hj) h
        | some pos =>
          simp only [rowEnt, optGet, colOf, rowVecDim]
          refine Finset.sum_congr rfl (fun k hk => ?_)
          have hk' : k < pos.length := by simpa using hk
          rw [List.getElem?_eq_getElem hk', List.getD_eq_getElem _ _ hk']
          simp
    · intro l _ hl
      apply gsum_zero
      intro t ht hc
      simp only [List.mem_map] at ht
      obtain ⟨u, _, rfl⟩ := ht
      simp only at hc
      omega
    · intro h; exact absurd (by simpa using hi) h
  | transpose m ih =>
    intro hw hs hn i j hi hj
    unfold trL ent
    rw [← ih hw hs hn j i hj hi]
    unfold gsum
    rw [List.map_map]
    congr 1
    refine List.map_congr_left (fun t _ => ?_)
    simp only [Function.comp]
    congr 1
    exact propext and_comm
  | scaled rs m cs ih =>
    intro hw hs hn i j hi hj
    unfold trL ent
    rw [gsum_scaled (trL m) (optFac rs) (optFac cs), ih hw.1 hs hn i j hi hj]
  | symScaled s m ih =>
    intro hw hs hn i j hi hj
    unfold trL ent
    rw [gsum_scaled (trL m) (optFac s) (optFac s), ih hw.1 hs hn i j hi hj]
  | sum r c k f t ih =>
    intro hw hs hn i j hi hj
    unfold trL ent
    rw [gsum_flatMap]
    refine Finset.sum_congr rfl (fun l hl => ?_)
    have hl' : l < k := by simpa using hl
    rw [gsum_scl, ih l (hw l hl').1 (hs l hl') (hn l hl') i j (by rw [(hw l hl').2]; exact hi) (by rw [(hw l hl').2]; exact hj)]
  | sumSym n k f t ih =>
    intro hw hs hn i j hi hj
    unfold trL ent
    rw [gsum_flatMap]
    refine Finset.sum_congr rfl (fun l hl => ?_)
    have hl' : l < k := by simpa using hl
    rw [gsum_scl, ih l (hw l hl').1 (hs l hl') (hn l hl') i j (by rw [(hw l hl').2.1]; exact hi) (by rw [(hw l hl').2.1]; exact hj)]
  | compound rd cd sp set comp ih =>
    intro hw hs hn i j hi hj
    simp only [Mat.dims] at hi hj
    unfold trL ent
    obtain ⟨h1, h2, h3⟩ := locate_lt rd i hi
    obtain ⟨g1, g2, g3⟩ := locate_lt cd j hj
    generalize (locate rd i).1 = b at *
    generalize (locate rd i).2 = o at *
    generalize (locate cd j).1 = b' at *
    generalize (locate cd j).2 = o' at *
    subst h3 g3
    have blk : ∀ a a', a < rd.length → a' < cd.length →
        gsum (if set a a' then (trL (comp a a')).map (shift (off rd a) (off cd a')) else []) (off rd b + o) (off cd b' + o') =
        if a = b ∧ a' = b' then (if set a a' then ent (comp a a') o o' else 0) else 0 := by
      intro a a' ha ha'
      by_cases hset : set a a' = true
      · obtain ⟨_, hwc, hd⟩ := hw.1 a a' ha ha' hset
        rw [if_pos hset, block_gsum rd cd _ b b' o o' a a' h1 h2 g1 g2 ha ha' (fun t ht => by
          have := trL_range _ hwc t ht; rw [hd] at this; exact this)]
        by_cases e : a = b ∧ a' = b'
        · obtain ⟨rfl, rfl⟩ := e
          rw [if_pos ⟨rfl, rfl⟩, if_pos ⟨rfl, rfl⟩, if_pos hset]
          exact ih _ _ hwc (hs _ _ ha ha' hset) (hn _ _ ha ha' hset) o o' (by rw [hd]; exact h2) (by rw [hd]; exact g2)
        · rw [if_neg e, if_neg e]
      · rw [if_neg hset, if_neg hset]; simp [gsum]
    rw [gsum_flatMap, Finset.sum_eq_single b]
    · rw [gsum_flatMap, Finset.sum_eq_single b']
      · rw [blk b b' h1 g1, if_pos ⟨rfl, rfl⟩]
      · intro a' ha' hne
        rw [blk b a' h1 (by simpa using ha'), if_neg (by rintro ⟨_, e⟩; exact hne e)]
      · intro h; exact absurd (by simpa using g1) h
    · intro a ha hne
      rw [gsum_flatMap]
      refine Finset.sum_eq_zero (fun a' ha' => ?_)
      rw [blk a a' (by simpa using ha) (by simpa using ha'), if_neg (by rintro ⟨e, _⟩; exact hne e)]
    · intro h; exact absurd (by simpa using h1) h
  | compoundSym ds set comp ih =>
    intro hw hs hn i j hi hj
    simp only [Mat.dims] at hi hj
    unfold trL ent
    obtain ⟨h1, h2, h3⟩ := locate_lt ds i hi
    obtain ⟨g1, g2, g3⟩ := locate_lt ds j hj
    generalize (locate ds i).1 = b at *
    generalize (locate ds i).2 = o at *
    generalize (locate ds j).1 = b' at *
    generalize (locate ds j).2 = o' at *
    subst h3 g3
    have blk : ∀ a a', a < ds.length → a' ≤ a →
        gsum (if set a a' then (trL (comp a a')).map (shift (off ds a) (off ds a')) else []) (off ds b + o) (off ds b' + o') =
        if a = b ∧ a' = b' then (if set a a' then ent (comp a a') o o' else 0) else 0 := by
      intro a a' ha ha'
      by_cases hset : set a a' = true
      · obtain ⟨hwc, hd, _⟩ := hw a a' ha' ha hset
        rw [if_pos hset, block_gsum ds ds _ b b' o o' a a' h1 h2 g1 g2 ha (by omega) (fun t ht => by
          have := trL_range _ hwc t ht; rw [hd] at this; exact this)]
        by_cases e : a = b ∧ a' = b'
        · obtain ⟨rfl, rfl⟩ := e
          rw [if_pos ⟨rfl, rfl⟩, if_pos ⟨rfl, rfl⟩, if_pos hset]
          exact ih _ _ hwc (hs _ _ ha' ha hset) (hn _ _ ha' ha hset).2 o o' (by rw [hd]; exact h2) (by rw [hd]; exact g2)
        · rw [if_neg e, if_neg e]
      · rw [if_neg hset, if_neg hset]; simp [gsum]
    have other : ∀ a, a < ds.length → a ≠ b → gsum ((List.range (a + 1)).flatMap fun j =>
        if set a j then (trL (comp a j)).map (shift (off ds a) (off ds j)) else []) (off ds b + o) (off ds b' + o') = 0 := by
      intro a ha hne
      rw [gsum_flatMap]
      refine Finset.sum_eq_zero (fun a' ha' => ?_)
      rw [blk a a' ha (by simp at ha'; omega), if_neg (by rintro ⟨e, _⟩; exact hne e)]
    rw [gsum_flatMap, Finset.sum_eq_single b (fun a ha hne => other a (by simpa using ha) hne)
      (fun h => absurd (by simpa using h1) h)]
    rw [gsum_flatMap]
    by_cases hle : b' ≤ b
    · rw [if_pos hle, Finset.sum_eq_single b']
      · rw [blk b b' h1 hle, if_pos ⟨rfl, rfl⟩]
      · intro a' ha' hne
        rw [blk b a' h1 (by simp at ha'; omega), if_neg (by rintro ⟨_, e⟩; exact hne e)]
      · intro h; exact absurd (by simp; omega) h
    · rw [if_neg hle]
      have hz : set b' b = false := by
        cases hset : set b' b with
        | false => rfl
        | true => have := (hn b' b (by omega) g1 hset).1; omega
      rw [hz]
      simp only [Bool.false_eq_true, if_false]
      refine Finset.sum_eq_zero (fun a' ha' => ?_)
      have : a' < b + 1 := by simpa using ha'
      rw [blk b a' h1 (by omega), if_neg (by rintro ⟨_, e⟩; omega)]

/-- in a symmetric compound, a block contributes only to its own position and the mirrored one. -/
theorem block_cond (ds : List Nat) (b b' o o' a a' : Nat) (hb : b < ds.length) (ho : o < ds.getD b 0)
    (hb' : b' < ds.length) (ho' : o' < ds.getD b' 0) (ha : a < ds.length) (ha' : a' < ds.length) (u : Trip K)
    (hu : 1 ≤ u.row ∧ u.row ≤ ds.getD a 0 ∧ 1 ≤ u.col ∧ u.col ≤ ds.getD a' 0)
    (hc : u.row + off ds a = off ds b + o + 1 ∧ u.col + off ds a' = off ds b' + o' + 1) : a = b ∧ a' = b' := by
  have e1 := off_inj ds ha (o := u.row - 1) (by omega) hb ho (by omega)
  have e2 := off_inj ds ha' (o := u.col - 1) (by omega) hb' ho' (by omega)
  exact ⟨e1.1, e2.1⟩

theorem ssum_ent (m : Mat K) : WF m → Supported m → TriangleOK m → ∀ i j, i < m.dims.1 → j < m.dims.1 →
    ssum (trL m) i j = ent m i j := by
  induction m with
  | zeroSym n => intro _ _ _ i j _ _; simp [trL, ssum, ent]
  | ident n f =>
    intro hw hs _ i j hi hj
    rw [← gsum_ent _ hw hs trivial i j hi hj]
    refine ssum_eq_gsum _ i j (fun t ht => ?_)
    simp [trL] at ht
    obtain ⟨a, _, rfl⟩ := ht
    by_cases e : i = j
    · exact Or.inr e
    · left; rintro ⟨h1, h2⟩; simp at h1 h2; omega
  | diag d =>
    intro hw hs _ i j hi hj
    rw [← gsum_ent _ hw hs trivial i j hi hj]
    refine ssum_eq_gsum _ i j (fun t ht => ?_)
    simp [trL] at ht
    obtain ⟨a, _, rfl⟩ := ht
    by_cases e : i = j
    · exact Or.inr e
    · left; rintro ⟨h1, h2⟩; simp at h1 h2; omega
  | symT n ts => intro _ _ _ i j _ _; rfl
  | symScaled s m ih =>
    intro hw hs hn i j hi hj
    unfold trL ent
    rw [ssum_scaled (trL m) (optFac s), ih hw.1 hs hn i j hi hj]
  | sumSym n k f t ih =>
    intro hw hs hn i j hi hj
    unfold trL ent
    rw [ssum_flatMap]
    refine Finset.sum_congr rfl (fun l hl => ?_)
    have hl' : l < k := by simpa using hl
    rw [ssum_scl, ih l (hw l hl').1 (hs l hl') (hn l hl') i j (by rw [(hw l hl').2.1]; exact hi) (by rw [(hw l hl').2.1]; exact hj)]
  | compoundSym ds set comp ih =>
    intro hw hs hn i j hi hj
    have main : ∀ i j, i < ds.sum → j < ds.sum → (locate ds j).1 ≤ (locate ds i).1 →
        ssum (trL (.compoundSym ds set comp)) i j = ent (.compoundSym ds set comp) i j := by
      intro i j hi hj hle
      unfold trL ent
      rw [if_pos hle]
      obtain ⟨h1, h2, h3⟩ := locate_lt ds i hi
      obtain ⟨g1, g2, g3⟩ := locate_lt ds j hj
      generalize (locate ds i).1 = b at *
      generalize (locate ds i).2 = o at *
      generalize (locate ds j).1 = b' at *
      generalize (locate ds j).2 = o' at *
      subst h3 g3
      have blk : ∀ a a', a < ds.length → a' ≤ a →
          ssum (if set a a' then (trL (comp a a')).map (shift (off ds a) (off ds a')) else []) (off ds b + o) (off ds b' + o') =
          if a = b ∧ a' = b' then (if set a a' then ent (comp a a') o o' else 0) else 0 := by
        intro a a' ha ha'
        by_cases hset : set a a' = true
        · obtain ⟨hwc, hd, hsym⟩ := hw a a' ha' ha hset
          have hr : ∀ t ∈ trL (comp a a'), 1 ≤ t.row ∧ t.row ≤ ds.getD a 0 ∧ 1 ≤ t.col ∧ t.col ≤ ds.getD a' 0 := fun t ht => by
            have := trL_range _ hwc t ht; rw [hd] at this; exact this
          rw [if_pos hset]
          by_cases e : a = b ∧ a' = b'
          · obtain ⟨rfl, rfl⟩ := e
            rw [if_pos ⟨rfl, rfl⟩, if_pos hset]
            have hn' := hn _ _ ha' ha hset
            by_cases e : a = a'
            · subst e
              rw [if_pos rfl] at hn'
              rw [ssum_shift]
              exact ih _ _ hwc (hs _ _ ha' ha hset) hn' o o' (by rw [hd]; exact h2) (by rw [hd]; exact g2)
            · rw [if_neg e] at hn'
              rw [ssum_eq_gsum, gsum_shift]
              · exact gsum_ent _ hwc (hs _ _ ha' ha hset) hn' o o' (by rw [hd]; exact h2) (by rw [hd]; exact g2)
              · intro t ht
                left
                simp only [List.mem_map] at ht
                obtain ⟨u, hu, rfl⟩ := ht
                simp only [shift]
                intro hc
                have := block_cond ds a' a o' o a a' g1 g2 h1 h2 ha (by omega) u (hr u hu) hc
                exact e this.1
          · rw [if_neg e]
            apply ssum_zero
            intro t ht
            simp only [List.mem_map] at ht
            obtain ⟨u, hu, rfl⟩ := ht
            simp only [shift]
            constructor
            · intro hc
              exact e (block_cond ds b b' o o' a a' h1 h2 g1 g2 ha (by omega) u (hr u hu) hc)
            · intro hc
              have := block_cond ds b' b o' o a a' g1 g2 h1 h2 ha (by omega) u (hr u hu) hc
              apply e; omega
        · rw [if_neg hset, if_neg hset]; simp [ssum]
      rw [ssum_flatMap, Finset.sum_eq_single b]
      · rw [ssum_flatMap, Finset.sum_eq_single b']
        · rw [blk b b' h1 hle, if_pos ⟨rfl, rfl⟩]
        · intro a' ha' hne
          rw [blk b a' h1 (by simp at ha'; omega), if_neg (by rintro ⟨_, e⟩; exact hne e)]
        · intro h; exact absurd (by simp; omega) h
      · intro a ha hne
        rw [ssum_flatMap]
        refine Finset.sum_eq_zero (fun a' ha' => ?_)
        rw [blk a a' (by simpa using ha) (by simp at ha'; omega), if_neg (by rintro ⟨e, _⟩; exact hne e)]
      · intro h; exact absurd (by simpa using h1) h
    by_cases hle : (locate ds j).1 ≤ (locate ds i).1
    · exact main i j hi hj hle
    · rw [ssum_comm, main j i hj hi (by omega)]
      exact ent_symm _ hw trivial j i hj hi
  | _ => intro _ _ h; exact h.elim

/-! ## Same structure -/

theorem sameStructure_trL {m m' : Mat K} (h : SameStructure m m') :
    (Supported m ↔ Supported m') ∧ (trL m).map (fun t => (t.row, t.col)) = (trL m').map (fun t => (t.row, t.col)) := by
  induction h with
  | zero r c => exact ⟨Iff.rfl, rfl⟩
  | zeroSym n => exact ⟨Iff.rfl, rfl⟩
  | ident n f f' => exact ⟨Iff.rfl, by simp [trL, Function.comp_def]⟩
  | diag d d' h => exact ⟨Iff.rfl, by simp [trL, Function.comp_def, h]⟩
  | genT r c ts ts' h => exact ⟨Iff.rfl, h⟩
  | symT n ts ts' h => exact ⟨Iff.rfl, h⟩
  | expansion r pos => exact ⟨Iff.rfl, rfl⟩
  | expMultiVec c vecs vecs' P h =>
    refine ⟨Iff.rfl, ?_⟩
    simp only [trL, List.map_flatMap, List.map_map, Function.comp_def, h]
  | transpose m m' _ ih =>
    refine ⟨ih.1, ?_⟩
    simp only [trL, List.map_map, Function.comp_def]
    have := congrArg (List.map fun x : Nat × Nat => (x.2, x.1)) ih.2
    simpa only [List.map_map, Function.comp_def] using this
  | scaled rs rs' m m' cs cs' _ ih =>
    refine ⟨ih.1, ?_⟩
    simpa only [trL, List.map_map, Function.comp_def] using ih.2
  | symScaled s s' m m' _ ih =>
    refine ⟨ih.1, ?_⟩
    simpa only [trL, List.map_map, Function.comp_def] using ih.2
  | sum r c k f f' t t' _ ih =>
    refine ⟨⟨fun h l hl => (ih l hl).1.1 (h l hl), fun h l hl => (ih l hl).1.2 (h l hl)⟩, ?_⟩
    simp only [trL, List.map_flatMap, List.map_map, Function.comp_def, scl]
    refine List.flatMap_congr (fun l hl => (ih l (by simpa using hl)).2)
  | sumSym n k f f' t t' _ ih =>
    refine ⟨⟨fun h l hl => (ih l hl).1.1 (h l hl), fun h l hl => (ih l hl).1.2 (h l hl)⟩, ?_⟩
    simp only [trL, List.map_flatMap, List.map_map, Function.comp_def, scl]
    refine List.flatMap_congr (fun l hl => (ih l (by simpa using hl)).2)
  | compound rd cd sp sp' set comp comp' _ ih =>
    refine ⟨⟨fun h i j hi hj hs => (ih i j hi hj hs).1.1 (h i j hi hj hs), fun h i j hi hj hs => (ih i j hi hj hs).1.2 (h i j hi hj hs)⟩, ?_⟩
    simp only [trL, List.map_flatMap]
    refine List.flatMap_congr (fun i hi => List.flatMap_congr (fun j hj => ?_))
    by_cases hs : set i j = true
    · rw [if_pos hs, if_pos hs]
      have := congrArg (List.map fun x : Nat × Nat => (x.1 + off rd i, x.2 + off cd j)) (ih i j (by simpa using hi) (by simpa using hj) hs).2
      simpa only [List.map_map, Function.comp_def, shift] using this
    · rw [if_neg hs, if_neg hs]
  | compoundSym ds set comp comp' _ ih =>
    refine ⟨⟨fun h i j hi hj hs => (ih i j hi hj hs).1.1 (h i j hi hj hs), fun h i j hi hj hs => (ih i j hi hj hs).1.2 (h i j hi hj hs)⟩, ?_⟩
    simp only [trL, List.map_flatMap]
    refine List.flatMap_congr (fun i hi => List.flatMap_congr (fun j hj => ?_))
    by_cases hs : set i j = true
    · rw [if_pos hs, if_pos hs]
      have hj' : j < i + 1 := by simpa using hj
      have := congrArg (List.map fun x : Nat × Nat => (x.1 + off ds i, x.2 + off ds j)) (ih i j (by omega) (by simpa using hi) hs).2
      simpa only [List.map_map, Function.comp_def, shift] using this
    · rw [if_neg hs, if_neg hs]

/-! ## From arrays to the list -/

theorem genElem_eq (l : List (Trip K)) (b : Idx) (v : Nat → K) (p ro co i j : Nat) :
    genElem l.length (fun k => (putI ro co b p l).row (p + k)) (fun k => (putI ro co b p l).col (p + k)) (fun k => putV v p l (p + k))
      (ro + i) (co + j) = gsum l i j := by
  unfold genElem gsum putI putV
  have : ∀ k ∈ range l.length, (if putL b.row p (l.map fun t => t.row + ro) (p + k) = ro + i + 1 ∧
      putL b.col p (l.map fun t => t.col + co) (p + k) = co + j + 1 then putL v p (l.map Trip.val) (p + k) else 0) =
      (fun k => ((l.map fun t => if t.row = i + 1 ∧ t.col = j + 1 then t.val else 0).getD k 0)) k := by
    intro k hk
    have hk' : k < l.length := by simpa using hk
    rw [putL_lt _ _ _ _ (by simpa using hk'), putL_lt _ _ _ _ (by simpa using hk'), putL_lt _ _ _ _ (by simpa using hk')]
    simp only [List.getElem_map]
    rw [List.getD_eq_getElem _ _ (by simpa using hk'), List.getElem_map]
    congr 1
    apply propext
    constructor <;> rintro ⟨a, b⟩ <;> constructor <;> omega
  rw [Finset.sum_congr rfl this, ← sum_map_range]
  congr 1
  refine List.ext_getElem (by simp) (fun k h1 h2 => ?_)
  simp at h1
  simp [h1]

theorem symElem_eq (l : List (Trip K)) (b : Idx) (v : Nat → K) (p i j : Nat) :
    symElem l.length (fun k => (putI 0 0 b p l).row (p + k)) (fun k => (putI 0 0 b p l).col (p + k)) (fun k => putV v p l (p + k)) i j
      = ssum l i j := by
  unfold symElem ssum putI putV
  have : ∀ k ∈ range l.length, (if (putL b.row p (l.map fun t => t.row + 0) (p + k) = i + 1 ∧
      putL b.col p (l.map fun t => t.col + 0) (p + k) = j + 1) ∨ (putL b.row p (l.map fun t => t.row + 0) (p + k) = j + 1 ∧
      putL b.col p (l.map fun t => t.col + 0) (p + k) = i + 1) then putL v p (l.map Trip.val) (p + k) else 0) =
      (fun k => ((l.map fun t => if (t.row = i + 1 ∧ t.col = j + 1) ∨ (t.row = j + 1 ∧ t.col = i + 1) then t.val else 0).getD k 0)) k := by
    intro k hk
    have hk' : k < l.length := by simpa using hk
    rw [putL_lt _ _ _ _ (by simpa using hk'), putL_lt _ _ _ _ (by simpa using hk'), putL_lt _ _ _ _ (by simpa using hk')]
    simp only [List.getElem_map]
    rw [List.getD_eq_getElem _ _ (by simpa using hk'), List.getElem_map]
    rfl
  rw [Finset.sum_congr rfl this, ← sum_map_range]
  congr 1
  refine List.ext_getElem (by simp) (fun k h1 h2 => ?_)
  simp at h1
  simp [h1]

end Verif.Triplet
