import Verif.Proof.Matrix2

set_option linter.unusedSectionVars false
set_option linter.unusedSimpArgs false
set_option linter.unusedVariables false

namespace Verif.Matrix
open Finset

variable {K : Type} [Field K] [DecidableEq K]

/-! ## Blocks -/

theorem off_zero (ds : List Nat) : off ds 0 = 0 := by simp [off]
theorem off_cons_succ (d : Nat) (ds : List Nat) (b : Nat) : off (d :: ds) (b + 1) = d + off ds b := by simp [off]

theorem off_lt (ds : List Nat) : ∀ b o, b < ds.length → o < ds.getD b 0 → off ds b + o < ds.sum := by
  induction ds with
  | nil => intro b o hb; simp at hb
  | cons d ds ih =>
    intro b o hb ho
    cases b with
    | zero => simp at ho; rw [off_zero, List.sum_cons]; omega
    | succ b =>
      have := ih b o (by simpa using hb) (by simpa using ho)
      rw [off_cons_succ, List.sum_cons]; omega

theorem off_add_le (ds : List Nat) : ∀ b, b < ds.length → off ds b + ds.getD b 0 ≤ ds.sum := by
  induction ds with
  | nil => intro b hb; simp at hb
  | cons d ds ih =>
    intro b hb
    cases b with
    | zero => simp [off_zero]
    | succ b =>
      have := ih b (by simpa using hb)
      rw [off_cons_succ, List.sum_cons, List.getD_cons_succ]; omega

theorem locate_lt (ds : List Nat) : ∀ i, i < ds.sum →
    (locate ds i).1 < ds.length ∧ (locate ds i).2 < ds.getD (locate ds i).1 0 ∧ off ds (locate ds i).1 + (locate ds i).2 = i := by
  induction ds with
  | nil => intro i hi; simp at hi
  | cons d ds ih =>
    intro i hi
    unfold locate
    by_cases h : i < d
    · rw [if_pos h]; simp [off_zero, h]
    · rw [if_neg h]
      have := ih (i - d) (by rw [List.sum_cons] at hi; omega)
      refine ⟨by simp only [List.length_cons]; omega, by simpa using this.2.1, ?_⟩
      rw [off_cons_succ]; omega

theorem locate_off (ds : List Nat) : ∀ b o, b < ds.length → o < ds.getD b 0 → locate ds (off ds b + o) = (b, o) := by
  induction ds with
  | nil => intro b o hb; simp at hb
  | cons d ds ih =>
    intro b o hb ho
    cases b with
    | zero =>
      simp at ho
      unfold locate; rw [off_zero, if_pos (by omega)]; simp
    | succ b =>
      have := ih b o (by simpa using hb) (by simpa using ho)
      unfold locate
      rw [off_cons_succ, if_neg (by omega), show d + off ds b + o - d = off ds b + o by omega, this]

theorem sum_blocks (ds : List Nat) : ∀ (F : Nat → K),
    ∑ j ∈ range ds.sum, F j = ∑ b ∈ range ds.length, ∑ k ∈ range (ds.getD b 0), F (off ds b + k) := by
  induction ds with
  | nil => intro F; simp
  | cons d ds ih =>
    intro F
    rw [List.sum_cons, Finset.sum_range_add, List.length_cons, Finset.sum_range_succ', ih (fun j => F (d + j)), add_comm]
    congr 1
    · refine Finset.sum_congr rfl (fun b _ => ?_)
      rw [List.getD_cons_succ]
      refine Finset.sum_congr rfl (fun k _ => ?_)
      rw [off_cons_succ]; congr 1; omega
    · simp [off_zero]

theorem blk_length {N : Type} (ds : List Nat) (x : List N) (hx : x.length = ds.sum) (b : Nat) (hb : b < ds.length) :
    (blk ds b x).length = ds.getD b 0 := by
  have := off_add_le ds b hb
  unfold blk
  rw [List.length_take, List.length_drop]; omega

theorem blk_get (ds : List Nat) (x : List K) (b o : Nat) (ho : o < ds.getD b 0) :
    (blk ds b x).getD o 0 = x.getD (off ds b + o) 0 := by
  unfold blk
  rw [List.getD_eq_getElem?_getD, List.getElem?_take, if_pos ho, List.getElem?_drop, List.getD_eq_getElem?_getD]

theorem flatMap_blocks (ds : List Nat) (F : Nat → List K) (hF : ∀ i, i < ds.length → (F i).length = ds.getD i 0) :
    ((List.range ds.length).flatMap F).length = ds.sum ∧
    ∀ b o, b < ds.length → o < ds.getD b 0 → ((List.range ds.length).flatMap F).getD (off ds b + o) 0 = (F b).getD o 0 := by
  have step : ∀ n, n ≤ ds.length → ((List.range n).flatMap F).length = off ds n ∧
      ∀ b o, b < n → o < ds.getD b 0 → ((List.range n).flatMap F).getD (off ds b + o) 0 = (F b).getD o 0 := by
    intro n
    induction n with
    | zero => intro _; simp [off]
    | succ n ih =>
      intro hn
      obtain ⟨h1, h2⟩ := ih (by omega)
      have hsucc : off ds (n + 1) = off ds n + ds.getD n 0 := by
        have hn' : n < ds.length := by omega
        unfold off
        rw [List.take_add_one, List.sum_append]
        simp [List.getD_eq_getElem?_getD, hn']
      have e : (List.range (n + 1)).flatMap F = (List.range n).flatMap F ++ F n := by rw [List.range_succ]; simp
      have hmono : ∀ b, b < n → off ds b + ds.getD b 0 ≤ off ds n := by
        intro b hb
        have hb' : b < ds.length := by omega
        have := off_add_le (ds.take n) b (by rw [List.length_take]; omega)
        have e1 : off (ds.take n) b = off ds b := by unfold off; rw [List.take_take]; congr 2; omega
        have e2 : (ds.take n).getD b 0 = ds.getD b 0 := by
          simp [List.getD_eq_getElem?_getD, List.getElem?_take, hb]
        rw [e1, e2] at this; exact this
      refine ⟨by rw [e, List.length_append, h1, hF n (by omega), hsucc], fun b o hb ho => ?_⟩
      rw [e]
      by_cases hbn : b < n
      · rw [List.getD_append _ _ _ _ (by have := hmono b hbn; omega), h2 b o hbn ho]
      · have hb' : b = n := by omega
        subst hb'
        rw [List.getD_append_right _ _ _ _ (by omega), h1]
        congr 1; omega
  have := step ds.length (le_refl _)
  refine ⟨?_, this.2⟩
  rw [this.1]; unfold off; rw [List.take_length]

theorem compound_core (rd cd : List Nat) (A : Nat → Nat → K) (B : Nat → Nat → Nat → Nat → K)
    (hA : ∀ bi oi bj oj, bi < rd.length → oi < rd.getD bi 0 → bj < cd.length → oj < cd.getD bj 0 →
      A (off rd bi + oi) (off cd bj + oj) = B bi bj oi oj)
    (α : K) (x : List K) (β : K) (y : List K) (F : Nat → List K)
    (hF : ∀ i, i < rd.length → (F i).length = rd.getD i 0 ∧ ∀ o, o < rd.getD i 0 → (F i).getD o 0 =
      β * y.getD (off rd i + o) 0 + α * ∑ j ∈ range cd.length, ∑ k ∈ range (cd.getD j 0), B i j o k * x.getD (off cd j + k) 0) :
    IsProd A rd.sum cd.sum α x β y ((List.range rd.length).flatMap F) := by
  have hfb := flatMap_blocks rd F (fun i hi => (hF i hi).1)
  refine ⟨hfb.1, fun i hi => ?_⟩
  obtain ⟨h1, h2, h3⟩ := locate_lt rd i hi
  generalize (locate rd i).1 = b at *
  generalize (locate rd i).2 = o at *
  subst h3
  rw [hfb.2 b o h1 h2, (hF b h1).2 o h2, sum_blocks]
  congr 2
  refine Finset.sum_congr rfl (fun j hj => Finset.sum_congr rfl (fun k hk => ?_))
  rw [hA b o j k h1 h2 (by simpa using hj) (by simpa using hk)]

theorem useBlock_iff {nr nc : Nat} {space set : Nat → Nat → Bool}
    (h1 : ∀ i j, i < nr → j < nc → set i j = true → space i j = true)
    (h2 : ∀ i, i < nr → i < nc → Mat.isDiag nr nc space = true → set i i = true)
    {i j : Nat} (hi : i < nr) (hj : j < nc) : Mat.useBlock nr nc space set i j = set i j := by
  unfold Mat.useBlock
  cases hd : Mat.isDiag nr nc space with
  | false => simp
  | true =>
    simp only [Bool.true_and, Bool.not_true, Bool.false_and, Bool.or_false]
    by_cases hij : i = j
    · subst hij
      simp [h2 i hi hj hd]
    · have hs : space i j = false := by
        unfold Mat.isDiag at hd
        rw [List.all_eq_true] at hd
        have := hd i (by simpa using hi)
        rw [List.all_eq_true] at this
        have := this j (by simpa using hj)
        simpa [hij] using this
      have : set i j = false := by
        cases h : set i j with
        | false => rfl
        | true => have := h1 i j hi hj h; simp [hs] at this
      simp [hij, this]

/-! ## Symmetric classes -/

theorem sym_square (m : Mat K) : WF m → isSym m → m.dims.1 = m.dims.2 := by
  induction m with
  | symScaled s m ih => intro h _; exact ih h.1 h.2.1
  | _ => intro _ h; first | rfl | exact absurd h (by simp [isSym])

theorem gram_symm (V : Option (List (List K))) (i j : Nat) : gram V i j = gram V j i := by
  cases V with
  | none => rfl
  | some vs => simp only [gram]; congr 1; apply List.map_congr_left; intro v _; ring

theorem ent_symm (m : Mat K) : WF m → isSym m → ∀ i j, i < m.dims.1 → j < m.dims.1 → ent m i j = ent m j i := by
  induction m with
  | zeroSym n => intro _ _ i j _ _; rfl
  | ident n f => intro _ _ i j _ _; simp only [ent]; by_cases h : i = j <;> simp [h, eq_comm]
  | diag d => 
    intro _ _ i j _ _; simp only [ent]
    by_cases h : i = j
    · rw [if_pos h, if_pos h.symm, h]
    · rw [if_neg h, if_neg (fun h' => h h'.symm)]
  | symT n ts =>
    intro _ _ i j _ _
    simp only [ent]
    congr 1
    apply List.map_congr_left
    intro t _
    by_cases h : (t.row = i + 1 ∧ t.col = j + 1) ∨ (t.row = j + 1 ∧ t.col = i + 1)
    · rw [if_pos h, if_pos h.symm]
    · rw [if_neg h, if_neg (fun h' => h h'.symm)]
  | denseSym n vals =>
    intro _ _ i j _ _
    simp only [ent]
    by_cases h : j ≤ i
    · by_cases h' : i ≤ j
      · have : i = j := by omega
        rw [this]
      · rw [if_pos h, if_neg h']
    · rw [if_neg h, if_pos (by omega)]
  | lowRank D V U =>
    intro _ _ i j _ _
    simp only [ent]
    rw [gram_symm V i j, gram_symm U i j]
    by_cases h : i = j
    · rw [if_pos h, if_pos h.symm, h]
    · rw [if_neg h, if_neg (fun h' => h h'.symm)]
  | lowRankP red D V U P ih =>
    intro _ _ i j _ _
    simp only [ent]
    split
    · rw [Finset.sum_comm]
      refine Finset.sum_congr rfl (fun k _ => Finset.sum_congr rfl (fun l _ => ?_))
      rw [gram_symm V l k, gram_symm U l k]
      have : (if l = k then D.getD l 0 else 0) = (if k = l then D.getD k 0 else 0) := by
        by_cases h : k = l
        · rw [if_pos h, if_pos h.symm, h]
        · rw [if_neg h, if_neg (fun h' => h h'.symm)]
      rw [this]; ring
    · congr 1
      · by_cases h : i = j
        · rw [if_pos h, if_pos h.symm, h]
        · rw [if_neg h, if_neg (fun h' => h h'.symm)]
      · rw [Finset.sum_comm]
        refine Finset.sum_congr rfl (fun k _ => Finset.sum_congr rfl (fun l _ => ?_))
        rw [gram_symm V l k, gram_symm U l k]; ring
  | symScaled s m ih =>
    intro hw _ i j hi hj
    simp only [ent]
    rw [ih hw.1 hw.2.1 i j hi hj]; ring
  | sumSym n k f t ih =>
    intro hw _ i j hi hj
    simp only [ent]
    refine Finset.sum_congr rfl (fun l hl => ?_)
    have h := hw l (by simpa using hl)
    have hd : (t l).dims.1 = n := by rw [h.2.1]
    rw [ih l h.1 h.2.2 i j (by rw [hd]; exact hi) (by rw [hd]; exact hj)]
  | compoundSym ds set comp ih =>
    intro hw _ i j hi hj
    obtain ⟨a1, a2, _⟩ := locate_lt ds i hi
    obtain ⟨b1, b2, _⟩ := locate_lt ds j hj
    simp only [ent]
    generalize (locate ds i).1 = bi at *
    generalize (locate ds i).2 = oi at *
    generalize (locate ds j).1 = bj at *
    generalize (locate ds j).2 = oj at *
    by_cases h : bj ≤ bi
    · by_cases h' : bi ≤ bj
      · have : bi = bj := by omega
        subst this
        rw [if_pos (le_refl _), if_pos (le_refl _)]
        by_cases hs : set bi bi = true
        · rw [if_pos hs, if_pos hs]
          have hww := hw bi bi (le_refl _) a1 hs
          have hd : (comp bi bi).dims.1 = ds.getD bi 0 := by rw [hww.2.1]
          exact ih bi bi hww.1 (hww.2.2 rfl) oi oj (by rw [hd]; exact a2) (by rw [hd]; exact b2)
        · rw [if_neg hs, if_neg hs]
      · rw [if_pos h, if_neg h']
    · rw [if_neg h, if_pos (show bi ≤ bj by omega)]
  | _ => intro _ h; exact absurd h (by simp [isSym])

theorem isProd_congr {A B : Nat → Nat → K} {r c : Nat} {α : K} {x : List K} {β : K} {y res : List K}
    (h : IsProd A r c α x β y res) (hAB : ∀ i j, i < r → j < c → A i j = B i j) : IsProd B r c α x β y res := by
  refine ⟨h.1, fun i hi => ?_⟩
  rw [h.2 i hi]
  congr 2
  exact Finset.sum_congr rfl (fun j hj => by rw [hAB i j hi (by simpa using hj)])

/-! ## The main induction -/

theorem optMul_ok (n : Nat) (s : Option (List K)) (hs : scaleOK n s) (x : List K) (hx : x.length = n) :
    (optMul s x).length = n ∧ ∀ i, i < n → (optMul s x).getD i 0 = optFac s i * x.getD i 0 := by
  cases s with
  | none => exact ⟨hx, fun i hi => by simp [optMul, optFac]⟩
  | some d =>
    have hd : d.length = n := hs
    refine ⟨by simp only [optMul]; rw [emul_length _ _ (by omega), hx], fun i hi => ?_⟩
    simp only [optMul, optFac]
    rw [emul_get _ _ _ (by omega) (by omega)]; ring

theorem scaled_ok (r c : Nat) (A : Nat → Nat → K) (rs cs : Option (List K)) (hr : scaleOK r rs) (hc : scaleOK c cs)
    (f : K → List K → K → List K → List K)
    (hf : ∀ α x β y, x.length = c → y.length = r → IsProd A r c α x β y (f α x β y))
    (α : K) (x : List K) (β : K) (y : List K) (hx : x.length = c) (hy : y.length = r) :
    IsProd (fun i j => optFac rs i * A i j * optFac cs j) r c α x β y
      (axpy α (optMul rs (f 1 (optMul cs x) 0 (List.replicate y.length 0))) (betaPart β y)) := by
  have hb : (betaPart β y).length = r := by rw [betaPart_length, hy]
  have h1 := optMul_ok c cs hc x hx
  have h2 := hf 1 (optMul cs x) 0 (List.replicate y.length 0) h1.1 (by simp [hy])
  have h3 := optMul_ok r rs hr _ h2.1
  refine ⟨by rw [axpy_length _ _ _ (by rw [h3.1, hb]), hb], fun i hi => ?_⟩
  rw [axpy_get _ _ _ _ (by rw [h3.1, hb]) (by omega), betaPart_get, h3.2 i hi, h2.2 i hi]
  congr 2
  rw [zero_mul, zero_add, one_mul, Finset.mul_sum]
  refine Finset.sum_congr rfl (fun j hj => ?_)
  rw [h1.2 j (by simpa using hj)]; ring

theorem sum_ok (r c k : Nat) (A : Nat → Nat → Nat → K) (fac : Nat → K) (f : Nat → K → List K → K → List K → List K)
    (hf : ∀ l, l < k → ∀ α x β y, x.length = c → y.length = r → IsProd (A l) r c α x β y (f l α x β y))
    (α : K) (x : List K) (β : K) (y : List K) (hx : x.length = c) (hy : y.length = r) :
    IsProd (fun i j => ∑ l ∈ range k, fac l * A l i j) r c α x β y
      ((List.range k).foldl (fun y l => f l (α * fac l) x 1 y) (betaPart β y)) := by
  have hb : (betaPart β y).length = r := by rw [betaPart_length, hy]
  have := foldl_acc r (fun y l => f l (α * fac l) x 1 y) (fun l i => α * fac l * ∑ j ∈ range c, A l i j * x.getD j 0) (List.range k)
    (fun l hl y hy => by
      have := hf l (by simpa using hl) (α * fac l) x 1 y hx hy
      exact ⟨this.1, fun i hi => by rw [this.2 i hi, one_mul]⟩) _ hb
  refine ⟨this.1, fun i hi => ?_⟩
  rw [this.2 i hi, betaPart_get, sum_map_range]
  congr 1
  simp only [Finset.sum_mul, Finset.mul_sum]
  rw [Finset.sum_comm]
  exact Finset.sum_congr rfl (fun j _ => Finset.sum_congr rfl (fun l _ => by ring))

/-- a general block row. -/
theorem block_row (cd : List Nat) (n : Nat) (L : List Nat) (hL : ∀ j ∈ L, j < cd.length) (use : Nat → Bool)
    (A : Nat → Nat → Nat → K) (f : Nat → K → List K → K → List K → List K)
    (hf : ∀ j, j < cd.length → use j = true → ∀ α x β y, x.length = cd.getD j 0 → y.length = n →
      IsProd (A j) n (cd.getD j 0) α x β y (f j α x β y))
    (α : K) (x : List K) (hx : x.length = cd.sum) (y : List K) (hy : y.length = n) :
    (L.foldl (fun yi j => if use j then f j α (blk cd j x) 1 yi else yi) y).length = n ∧
    ∀ o, o < n → (L.foldl (fun yi j => if use j then f j α (blk cd j x) 1 yi else yi) y).getD o 0 =
      y.getD o 0 + (L.map (fun j => α * ∑ k ∈ range (cd.getD j 0), (if use j then A j o k else 0) * x.getD (off cd j + k) 0)).sum := by
  refine foldl_acc n _ (fun j o => α * ∑ k ∈ range (cd.getD j 0), (if use j then A j o k else 0) * x.getD (off cd j + k) 0) L
    (fun j hj y hy => ?_) y hy
  by_cases hu : use j = true
  · simp only [hu, if_true]
    have := hf j (hL j hj) hu α (blk cd j x) 1 y (blk_length cd x hx j (hL j hj)) hy
    refine ⟨this.1, fun i hi => ?_⟩
    rw [this.2 i hi, one_mul]
    congr 2
    refine Finset.sum_congr rfl (fun k hk => ?_)
    rw [blk_get _ _ _ _ (by simpa using hk)]
  · simp only [Bool.not_eq_true] at hu
    simp only [hu, Bool.false_eq_true, if_false]
    exact ⟨hy, fun i hi => by simp⟩

theorem diag_sum (n i : Nat) (hi : i < n) (d : Nat → K) (x : Nat → K) :
    ∑ j ∈ range n, (if i = j then d i else 0) * x j = d i * x i := by
  have : ∀ j ∈ range n, (if i = j then d i else 0) * x j = if i = j then d i * x j else 0 := by
    intro j _; split <;> simp
  rw [Finset.sum_congr rfl this, Finset.sum_ite_eq, if_pos (by simpa using hi)]

theorem replicate_get (n i : Nat) : (List.replicate n (0 : K)).getD i 0 = 0 := by
  by_cases h : i < n <;> simp [List.getD_eq_getElem?_getD, List.getElem?_replicate, h]

theorem lowRank_ok (D : List K) (V U : Option (List (List K))) (hV : colsOK D.length V) (hU : colsOK D.length U)
    (α : K) (x : List K) (β : K) (y : List K) (hx : x.length = D.length) (hy : y.length = D.length) :
    IsProd (ent (.lowRank D V U)) D.length D.length α x β y
      (lrMultOpt U (-α) x (lrMultOpt V α x (if β == 0 then emul (addOne α x 0 y) D else addOne α (emul x D) β y))) := by
  have h1 : ∀ y1, y1 = (if β == 0 then emul (addOne α x 0 y) D else addOne α (emul x D) β y) →
      y1.length = D.length ∧ ∀ i, i < D.length → y1.getD i 0 = β * y.getD i 0 + α * (x.getD i 0 * D.getD i 0) := by
    intro y1 hy1
    by_cases h0 : β = 0
    · rw [if_pos (by simpa using h0)] at hy1
      have ha : (addOne α x 0 y).length = D.length := by rw [addOne_length _ _ _ _ (by omega), hy]
      refine ⟨by rw [hy1, emul_length _ _ (by omega), ha], fun i hi => ?_⟩
      rw [hy1, emul_get _ _ _ (by omega) (by omega), addOne_get _ _ _ _ _ (by omega) (by omega), h0]; ring
    · rw [if_neg (by simpa using h0)] at hy1
      have he : (emul x D).length = D.length := by rw [emul_length _ _ (by omega), hx]
      refine ⟨by rw [hy1, addOne_length _ _ _ _ (by omega), hy], fun i hi => ?_⟩
      rw [hy1, addOne_get _ _ _ _ _ (by omega) (by omega), emul_get _ _ _ (by omega) (by omega)]
  generalize (if β == 0 then emul (addOne α x 0 y) D else addOne α (emul x D) β y) = y1 at *
  obtain ⟨h1a, h1b⟩ := h1 y1 rfl
  have h2 := lrMultOpt_ok D.length V hV α x y1 hx h1a
  have h3 := lrMultOpt_ok D.length U hU (-α) x _ hx h2.1
  refine ⟨h3.1, fun i hi => ?_⟩
  rw [h3.2 i hi, h2.2 i hi, h1b i hi]
  simp only [ent, add_mul, sub_mul, Finset.sum_add_distrib, Finset.sum_sub_distrib]
  rw [diag_sum D.length i hi (fun i => D.getD i 0) (fun j => x.getD j 0)]
  ring

theorem lowRankP_ok (P : Mat K) (f g : K → List K → K → List K → List K)
    (hf : ∀ α x β y, x.length = P.dims.2 → y.length = P.dims.1 → IsProd (ent P) P.dims.1 P.dims.2 α x β y (f α x β y))
    (hg : ∀ α x β y, x.length = P.dims.1 → y.length = P.dims.2 →
      IsProd (fun i j => ent P j i) P.dims.2 P.dims.1 α x β y (g α x β y))
    (red : Bool) (D : List K) (V U : Option (List (List K)))
    (hD : D.length = if red then P.dims.2 else P.dims.1) (hV : colsOK P.dims.2 V) (hU : colsOK P.dims.2 U)
    (α : K) (x : List K) (β : K) (y : List K) (hx : x.length = P.dims.1) (hy : y.length = P.dims.1) :
    IsProd (ent (.lowRankP red D V U P)) P.dims.1 P.dims.1 α x β y
      (if red then
        f α (lrMultOpt U (-1) (g 1 x 0 (List.replicate P.dims.2 0)) (lrMultOpt V 1 (g 1 x 0 (List.replicate P.dims.2 0))
          (emul (g 1 x 0 (List.replicate P.dims.2 0)) D))) β y
      else
        f α (lrMultOpt U (-1) (g 1 x 0 (List.replicate P.dims.2 0)) (lrStart V (g 1 x 0 (List.replicate P.dims.2 0)) P.dims.2)) 1 (addOne α (emul x D) β y)) := by
  have hsx := hg 1 x 0 (List.replicate P.dims.2 0) hx (by simp)
  generalize g 1 x 0 (List.replicate P.dims.2 0) = sx at *
  have hsx2 : ∀ l, l < P.dims.2 → sx.getD l 0 = ∑ j ∈ range P.dims.1, ent P j l * x.getD j 0 := by
    intro l hl; rw [hsx.2 l hl]; ring
  -- exchange of summations
  have swap : ∀ (W : Nat → Nat → K) (i : Nat),
      ∑ k ∈ range P.dims.2, ent P i k * (∑ l ∈ range P.dims.2, W k l * sx.getD l 0) =
      ∑ j ∈ range P.dims.1, (∑ k ∈ range P.dims.2, ∑ l ∈ range P.dims.2, ent P i k * W k l * ent P j l) * x.getD j 0 := by
    intro W i
    have : ∀ k ∈ range P.dims.2, ent P i k * (∑ l ∈ range P.dims.2, W k l * sx.getD l 0) =
        ∑ j ∈ range P.dims.1, ∑ l ∈ range P.dims.2, ent P i k * W k l * ent P j l * x.getD j 0 := by
      intro k _
      rw [Finset.mul_sum, Finset.sum_comm]
      refine Finset.sum_congr rfl (fun l hl => ?_)
      rw [hsx2 l (by simpa using hl), Finset.mul_sum, Finset.mul_sum]
      exact Finset.sum_congr rfl (fun j _ => by ring)
    rw [Finset.sum_congr rfl this, Finset.sum_comm]
    refine Finset.sum_congr rfl (fun j _ => ?_)
    rw [Finset.sum_mul]
    exact Finset.sum_congr rfl (fun k _ => by rw [Finset.sum_mul])
  cases red with
  | true =>
    simp only [if_true] at hD ⊢
    have he : (emul sx D).length = P.dims.2 := by rw [emul_length _ _ (by rw [hsx.1, hD]), hsx.1]
    have h2 := lrMultOpt_ok P.dims.2 V hV 1 sx _ hsx.1 he
    have h3 := lrMultOpt_ok P.dims.2 U hU (-1) sx _ hsx.1 h2.1
    have h4 := hf α _ β y h3.1 hy
    refine ⟨h4.1, fun i hi => ?_⟩
    rw [h4.2 i hi]
    congr 2
    simp only [ent, if_true]
    rw [← swap]
    refine Finset.sum_congr rfl (fun k hk => ?_)
    have hk : k < P.dims.2 := by simpa using hk
    congr 1
    rw [h3.2 k hk, h2.2 k hk, emul_get _ _ _ (by rw [hsx.1, hD]) (by rw [hsx.1]; exact hk)]
    simp only [add_mul, sub_mul, Finset.sum_add_distrib, Finset.sum_sub_distrib]
    rw [diag_sum P.dims.2 k hk (fun i => D.getD i 0) (fun j => sx.getD j 0)]
    ring
  | false =>
    simp only [Bool.false_eq_true, if_false] at hD ⊢
    have he : (emul x D).length = P.dims.1 := by rw [emul_length _ _ (by omega), hx]
    have hsy : ∀ sy, sy = lrStart V sx P.dims.2 →
        sy.length = P.dims.2 ∧ ∀ k, k < P.dims.2 → sy.getD k 0 = ∑ l ∈ range P.dims.2, gram V k l * sx.getD l 0 := by
      intro sy e
      cases V with
      | none =>
        refine ⟨by rw [e]; simp [lrStart], fun k hk => ?_⟩
        rw [e]; simp only [lrStart]; rw [replicate_get]; simp [gram]
      | some vs =>
        have := lrMult_ok P.dims.2 vs hV 1 sx 0 (List.replicate P.dims.2 0) hsx.1 (by simp)
        refine ⟨by rw [e]; exact this.1, fun k hk => ?_⟩
        rw [e]; simp only [lrStart]; rw [this.2 k hk]; ring
    generalize lrStart V sx P.dims.2 = sy at *
    obtain ⟨s1, s2⟩ := hsy sy rfl
    have h3 := lrMultOpt_ok P.dims.2 U hU (-1) sx sy hsx.1 s1
    have ha : (addOne α (emul x D) β y).length = P.dims.1 := by rw [addOne_length _ _ _ _ (by omega), hy]
    have h4 := hf α _ 1 _ h3.1 ha
    refine ⟨h4.1, fun i hi => ?_⟩
    rw [h4.2 i hi, addOne_get _ _ _ _ _ (by omega) (by omega), emul_get _ _ _ (by omega) (by omega)]
    simp only [ent, Bool.false_eq_true, if_false, add_mul, Finset.sum_add_distrib]
    rw [← swap, diag_sum P.dims.1 i hi (fun i => D.getD i 0) (fun j => x.getD j 0)]
    have : ∀ k ∈ range P.dims.2, ent P i k * (lrMultOpt U (-1) sx sy).getD k 0 =
        ent P i k * (∑ l ∈ range P.dims.2, (gram V k l - gram U k l) * sx.getD l 0) := by
      intro k hk
      have hk : k < P.dims.2 := by simpa using hk
      congr 1
      rw [h3.2 k hk, s2 k hk]
      simp only [sub_mul, Finset.sum_sub_distrib]
      ring
    rw [Finset.sum_congr rfl this]
    ring

/-- both products of every well-formed object are those of the represented matrix. -/
theorem products_ok {hom : List K → Option K} (hh : HomOK hom) (m : Mat K) : WF m →
    (∀ α x β y, x.length = m.dims.2 → y.length = m.dims.1 →
      IsProd (ent m) m.dims.1 m.dims.2 α x β y (m.mult hom α x β y)) ∧
    (∀ α x β y, x.length = m.dims.1 → y.length = m.dims.2 →
      IsProd (fun i j => ent m j i) m.dims.2 m.dims.1 α x β y (m.transMult hom α x β y)) := by
  -- symmetric classes: the transposed product is the product
  have sym : ∀ m : Mat K, WF m → isSym m → (∀ α x β y, m.transMult hom α x β y = m.mult hom α x β y) →
      (∀ α x β y, x.length = m.dims.2 → y.length = m.dims.1 →
        IsProd (ent m) m.dims.1 m.dims.2 α x β y (m.mult hom α x β y)) →
      (∀ α x β y, x.length = m.dims.2 → y.length = m.dims.1 →
        IsProd (ent m) m.dims.1 m.dims.2 α x β y (m.mult hom α x β y)) ∧
      (∀ α x β y, x.length = m.dims.1 → y.length = m.dims.2 →
        IsProd (fun i j => ent m j i) m.dims.2 m.dims.1 α x β y (m.transMult hom α x β y)) := by
    intro m hw hs ht hm
    refine ⟨hm, fun α x β y hx hy => ?_⟩
    have hsq := sym_square m hw hs
    rw [ht]
    have := hm α x β y (by omega) (by omega)
    rw [← hsq] at this ⊢
    exact isProd_congr this (fun i j hi hj => ent_symm m hw hs i j hi hj)
  have zero_ok : ∀ (r c : Nat) (α : K) (x : List K) (β : K) (y : List K), y.length = r →
      IsProd (fun _ _ => (0 : K)) r c α x β y (betaPart β y) := by
    intro r c α x β y hy
    exact ⟨by rw [betaPart_length, hy], fun i hi => by rw [betaPart_get]; simp⟩
  induction m with
  | zero r c =>
    intro _
    exact ⟨fun α x β y hx hy => zero_ok r c α x β y hy, fun α x β y hx hy => zero_ok c r α x β y hy⟩
  | zeroSym n =>
    intro hw
    exact sym _ hw trivial (fun _ _ _ _ => rfl) (fun α x β y hx hy => zero_ok n n α x β y hy)
  | ident n f =>
    intro hw
    refine sym _ hw trivial (fun _ _ _ _ => rfl) (fun α x β y hx hy => ?_)
    simp only [Mat.dims] at hx hy
    refine ⟨by simp only [Mat.mult, Mat.dims]; rw [addOne_length _ _ _ _ (by omega), hy], fun i hi => ?_⟩
    simp only [Mat.dims] at hi
    simp only [Mat.mult, Mat.dims, ent]
    rw [addOne_get _ _ _ _ _ (by omega) (by omega), diag_sum n i hi (fun _ => f) (fun j => x.getD j 0)]; ring
  | diag d =>
    intro hw
    refine sym _ hw trivial (fun _ _ _ _ => rfl) (fun α x β y hx hy => ?_)
    simp only [Mat.dims] at hx hy
    have hb : (betaPart β y).length = d.length := by rw [betaPart_length, hy]
    have he : (emul x d).length = d.length := by rw [emul_length _ _ (by omega), hx]
    refine ⟨by simp only [Mat.mult, Mat.dims]; rw [axpy_length _ _ _ (by omega), hb], fun i hi => ?_⟩
    simp only [Mat.dims] at hi
    simp only [Mat.mult, Mat.dims, ent]
    rw [axpy_get _ _ _ _ (by omega) (by omega), emul_get _ _ _ (by omega) (by omega), betaPart_get,
      diag_sum d.length i hi (fun i => d.getD i 0) (fun j => x.getD j 0)]; ring
  | genT r c ts =>
    intro hw
    exact ⟨fun α x β y hx hy => genTMult_ok hh r c ts hw α x β y hx hy, fun α x β y hx hy => genTTrans_ok hh r c ts hw α x β y hx hy⟩
  | symT n ts =>
    intro hw
    exact sym _ hw trivial (fun _ _ _ _ => rfl) (fun α x β y hx hy => symTMult_ok hh n ts hw α x β y hx hy)
  | expansion r pos =>
    intro hw
    exact ⟨fun α x β y hx hy => expMult_ok hh r pos α x β y hx hy, fun α x β y hx hy => expTrans_ok hh r pos hw α x β y hx hy⟩
  | denseGen r c vals =>
    intro hw
    exact ⟨fun α x β y hx hy => gemv_ok r c vals α x β y hx hy, fun α x β y hx hy => gemvT_ok r c vals α x β y hx hy⟩
  | denseSym n vals =>
    intro hw
    exact sym _ hw trivial (fun _ _ _ _ => rfl) (fun α x β y hx hy => symv_ok n vals α x β y hx hy)
  | multiVec r vecs =>
    intro hw
    exact ⟨fun α x β y hx hy => mvMult_ok hh r vecs hw α x β y hx hy, fun α x β y hx hy => mvTrans_ok r vecs hw α x β y hx hy⟩
  | expMultiVec c vecs P =>
    intro hw
    exact ⟨fun α x β y hx hy => emvMult_ok hh c vecs P hw α x β y hx hy, fun α x β y hx hy => emvTrans_ok hh c vecs P hw α x β y hx hy⟩
  | lowRank D V U =>
    intro hw
    exact sym _ hw trivial (fun _ _ _ _ => rfl) (fun α x β y hx hy => lowRank_ok D V U hw.1 hw.2 α x β y hx hy)
  | lowRankP red D V U P ih =>
    intro hw
    have ih := ih hw.1
    exact sym _ hw trivial (fun _ _ _ _ => rfl) (fun α x β y hx hy =>
      lowRankP_ok P (P.mult hom) (P.transMult hom) ih.1 ih.2 red D V U hw.2.1 hw.2.2.1 hw.2.2.2 α x β y hx hy)
  | transpose m ih =>
    intro hw
    have ih := ih hw
    exact ⟨fun α x β y hx hy => ih.2 α x β y hx hy, fun α x β y hx hy => ih.1 α x β y hx hy⟩
  | scaled rs m cs ih =>
    intro hw
    obtain ⟨hm, hr, hc⟩ := hw
    have ih := ih hm
    refine ⟨fun α x β y hx hy => scaled_ok _ _ _ rs cs hr hc (m.mult hom) ih.1 α x β y hx hy, fun α x β y hx hy => ?_⟩
    refine isProd_congr (scaled_ok _ _ _ cs rs hc hr (m.transMult hom) ih.2 α x β y hx hy) (fun i j _ _ => ?_)
    simp only [ent]; ring
  | symScaled s m ih =>
    intro hw
    obtain ⟨hm, hs, hsc⟩ := hw
    have ih := ih hm
    have hsq := sym_square m hm hs
    exact sym _ ⟨hm, hs, hsc⟩ trivial (fun _ _ _ _ => rfl) (fun α x β y hx hy =>
      scaled_ok _ _ _ s s hsc (hsq ▸ hsc) (m.mult hom) ih.1 α x β y hx hy)
  | sum r c k f t ih =>
    intro hw
    refine ⟨fun α x β y hx hy => ?_, fun α x β y hx hy => ?_⟩
    · exact sum_ok r c k (fun l => ent (t l)) f (fun l => (t l).mult hom) (fun l hl α x β y hx hy => by
        have := (ih l (hw l hl).1).1 α x β y (by rw [(hw l hl).2]; exact hx) (by rw [(hw l hl).2]; exact hy)
        rw [(hw l hl).2] at this; exact this) α x β y hx hy
    · exact sum_ok c r k (fun l i j => ent (t l) j i) f (fun l => (t l).transMult hom) (fun l hl α x β y hx hy => by
        have := (ih l (hw l hl).1).2 α x β y (by rw [(hw l hl).2]; exact hx) (by rw [(hw l hl).2]; exact hy)
        rw [(hw l hl).2] at this; exact this) α x β y hx hy
  | sumSym n k f t ih =>
    intro hw
    refine sym _ hw trivial (fun _ _ _ _ => rfl) (fun α x β y hx hy => ?_)
    exact sum_ok n n k (fun l => ent (t l)) f (fun l => (t l).mult hom) (fun l hl α x β y hx hy => by
        have := (ih l (hw l hl).1).1 α x β y (by rw [(hw l hl).2.1]; exact hx) (by rw [(hw l hl).2.1]; exact hy)
        rw [(hw l hl).2.1] at this; exact this) α x β y hx hy
  | compound rd cd space set comp ih =>
    intro hw
    obtain ⟨hw1, hw2⟩ := hw
    have hub : ∀ i j, i < rd.length → j < cd.length → Mat.useBlock rd.length cd.length space set i j = set i j :=
      fun i j hi hj => useBlock_iff (fun i j hi hj hs => (hw1 i j hi hj hs).1) hw2 hi hj
    refine ⟨fun α x β y hx hy => ?_, fun α x β y hx hy => ?_⟩
    · refine compound_core rd cd _ (fun bi bj oi oj => if set bi bj then ent (comp bi bj) oi oj else 0) ?_ α x β y _ ?_
      · intro bi oi bj oj h1 h2 h3 h4
        simp only [ent]
        rw [locate_off rd bi oi h1 h2, locate_off cd bj oj h3 h4]
      · intro i hi
        have hb : (betaPart β y).length = rd.sum := by rw [betaPart_length, hy]; rfl
        have := block_row cd (rd.getD i 0) (List.range cd.length) (fun j hj => by simpa using hj)
          (fun j => Mat.useBlock rd.length cd.length space set i j) (fun j => ent (comp i j)) (fun j => (comp i j).mult hom)
          (fun j hj hu α x β y hx hy => by
            rw [hub i j hi hj] at hu
            have hd := (hw1 i j hi hj hu).2.2
            have := (ih i j (hw1 i j hi hj hu).2.1).1 α x β y (by rw [hd]; exact hx) (by rw [hd]; exact hy)
            rw [hd] at this; exact this)
          α x hx (blk rd i (betaPart β y)) (blk_length rd _ hb i hi)
        refine ⟨this.1, fun o ho => ?_⟩
        rw [this.2 o ho, blk_get _ _ _ _ ho, betaPart_get, sum_map_range, ← Finset.mul_sum]
        congr 2
        refine Finset.sum_congr rfl (fun j hj => ?_)
        rw [hub i j hi (by simpa using hj)]
    · refine compound_core cd rd _ (fun bi bj oi oj => if set bj bi then ent (comp bj bi) oj oi else 0) ?_ α x β y _ ?_
      · intro bi oi bj oj h1 h2 h3 h4
        simp only [ent]
        rw [locate_off cd bi oi h1 h2, locate_off rd bj oj h3 h4]
      · intro i hi
        have hb : (betaPart β y).length = cd.sum := by rw [betaPart_length, hy]; rfl
        have := block_row rd (cd.getD i 0) (List.range rd.length) (fun j hj => by simpa using hj)
          (fun j => Mat.useBlock rd.length cd.length space set j i) (fun j a b => ent (comp j i) b a) (fun j => (comp j i).transMult hom)
          (fun j hj hu α x β y hx hy => by
            rw [hub j i hj hi] at hu
            have hd := (hw1 j i hj hi hu).2.2
            have := (ih j i (hw1 j i hj hi hu).2.1).2 α x β y (by rw [hd]; exact hx) (by rw [hd]; exact hy)
            rw [hd] at this; exact this)
          α x hx (blk cd i (betaPart β y)) (blk_length cd _ hb i hi)
        refine ⟨this.1, fun o ho => ?_⟩
        rw [this.2 o ho, blk_get _ _ _ _ ho, betaPart_get, sum_map_range, ← Finset.mul_sum]
        congr 2
        refine Finset.sum_congr rfl (fun j hj => ?_)
        rw [hub j i (by simpa using hj) hi]
  | compoundSym ds set comp ih =>
    intro hw
    refine sym _ hw trivial (fun _ _ _ _ => rfl) (fun α x β y hx hy => ?_)
    refine compound_core ds ds _ (fun bi bj oi oj =>
      if bj ≤ bi then (if set bi bj then ent (comp bi bj) oi oj else 0) else (if set bj bi then ent (comp bj bi) oj oi else 0)) ?_ α x β y _ ?_
    · intro bi oi bj oj h1 h2 h3 h4
      simp only [ent]
      rw [locate_off ds bi oi h1 h2, locate_off ds bj oj h3 h4]
    · intro i hi
      have hb : (betaPart β y).length = ds.sum := by rw [betaPart_length, hy]; rfl
      have h1 := foldl_acc (ds.getD i 0) (fun yi j => if set i j then (comp i j).mult hom α (blk ds j x) 1 yi else yi)
        (fun j o => α * ∑ k ∈ range (ds.getD j 0), (if set i j then ent (comp i j) o k else 0) * x.getD (off ds j + k) 0)
        (List.range (i + 1))
        (fun j hj y hy => by
          have hj : j ≤ i := by
            have := List.mem_range.mp hj
            omega
          by_cases hs : set i j = true
          · simp only [hs, if_true]
            have hww := hw i j hj hi hs
            have hxl : (blk ds j x).length = (comp i j).dims.2 := by rw [hww.2.1]; exact blk_length ds x hx j (by omega)
            have := (ih i j hww.1).1 α (blk ds j x) 1 y hxl (by rw [hww.2.1]; exact hy)
            rw [hww.2.1] at this
            refine ⟨this.1, fun o ho => ?_⟩
            rw [this.2 o ho, one_mul]
            congr 2
            exact Finset.sum_congr rfl (fun k hk => by rw [blk_get _ _ _ _ (by simpa using hk)])
          · simp only [Bool.not_eq_true] at hs
            simp only [hs, Bool.false_eq_true, if_false]
            exact ⟨hy, fun o ho => by simp⟩) (blk ds i (betaPart β y)) (blk_length ds _ hb i hi)
      have h2 := foldl_acc (ds.getD i 0) (fun yi j => if set j i then (comp j i).transMult hom α (blk ds j x) 1 yi else yi)
        (fun j o => α * ∑ k ∈ range (ds.getD j 0), (if set j i then ent (comp j i) k o else 0) * x.getD (off ds j + k) 0)
        (List.range' (i + 1) (ds.length - (i + 1)))
        (fun j hj y hy => by
          have hj' : i < j ∧ j < ds.length := by
            have := List.mem_range'_1.mp hj
            omega
          by_cases hs : set j i = true
          · simp only [hs, if_true]
            have hww := hw j i (by omega) hj'.2 hs
            have hxl : (blk ds j x).length = (comp j i).dims.1 := by rw [hww.2.1]; exact blk_length ds x hx j hj'.2
            have := (ih j i hww.1).2 α (blk ds j x) 1 y hxl (by rw [hww.2.1]; exact hy)
            rw [hww.2.1] at this
            refine ⟨this.1, fun o ho => ?_⟩
            rw [this.2 o ho, one_mul]
            congr 2
            exact Finset.sum_congr rfl (fun k hk => by rw [blk_get _ _ _ _ (by simpa using hk)])
          · simp only [Bool.not_eq_true] at hs
            simp only [hs, Bool.false_eq_true, if_false]
            exact ⟨hy, fun o ho => by simp⟩) _ h1.1
      refine ⟨h2.1, fun o ho => ?_⟩
      rw [h2.2 o ho, h1.2 o ho, blk_get _ _ _ _ ho, betaPart_get, add_assoc]
      congr 1
      have e1 : (List.range (i + 1)).map (fun j => α * ∑ k ∈ range (ds.getD j 0), (if set i j then ent (comp i j) o k else 0) * x.getD (off ds j + k) 0)
          = (List.range (i + 1)).map (fun j => α * ∑ k ∈ range (ds.getD j 0), (if j ≤ i then (if set i j then ent (comp i j) o k else 0) else (if set j i then ent (comp j i) k o else 0)) * x.getD (off ds j + k) 0) := by
        apply List.map_congr_left
        intro j hj
        have : j ≤ i := by have := List.mem_range.mp hj; omega
        simp only [if_pos this]
      have e2 : (List.range' (i + 1) (ds.length - (i + 1))).map (fun j => α * ∑ k ∈ range (ds.getD j 0), (if set j i then ent (comp j i) k o else 0) * x.getD (off ds j + k) 0)
          = (List.range' (i + 1) (ds.length - (i + 1))).map (fun j => α * ∑ k ∈ range (ds.getD j 0), (if j ≤ i then (if set i j then ent (comp i j) o k else 0) else (if set j i then ent (comp j i) k o else 0)) * x.getD (off ds j + k) 0) := by
        apply List.map_congr_left
        intro j hj
        have : ¬ j ≤ i := by have := List.mem_range'_1.mp hj; omega
        simp only [if_neg this]
      rw [e1, e2, ← List.sum_append, ← List.map_append]
      have e3 : List.range (i + 1) ++ List.range' (i + 1) (ds.length - (i + 1)) = List.range ds.length := by
        rw [List.range_eq_range', List.range_eq_range']
        have := List.range'_append (s := 0) (m := i + 1) (n := ds.length - (i + 1)) (step := 1)
        rw [one_mul, zero_add] at this
        rw [this]
        congr 1; omega
      rw [e3, sum_map_range, ← Finset.mul_sum]

end Verif.Matrix
