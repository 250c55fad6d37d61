import Verif.Proof.Matrix

set_option linter.unusedSectionVars false
set_option linter.unusedSimpArgs false
set_option linter.unusedVariables false

namespace Verif.Matrix
open Finset

variable {K : Type} [Field K] [DecidableEq K]

/-! ## Dense matrices -/

theorem getD_map_range (n : Nat) (f : Nat → K) (i : Nat) (hi : i < n) : ((List.range n).map f).getD i 0 = f i := by
  rw [getD_map' _ _ _ 0 (by simpa using hi)]
  simp [List.getD_eq_getElem?_getD, hi]

theorem gemv_ok (r c : Nat) (vals : List K) (α : K) (x : List K) (β : K) (y : List K) (hx : x.length = c) (hy : y.length = r) :
    IsProd (ent (.denseGen r c vals)) r c α x β y (gemv false r c vals α x β y) := by
  refine ⟨by simp [gemv], fun i hi => ?_⟩
  simp only [gemv, Bool.false_eq_true, if_false]
  rw [getD_map_range _ _ _ hi, vdot_eq _ _ c (by simp) hx]
  simp only [get]
  rw [betaPart_get]
  congr 2
  refine Finset.sum_congr rfl (fun j hj => ?_)
  rw [getD_map_range _ _ _ (by simpa using hj)]
  rfl

theorem gemvT_ok (r c : Nat) (vals : List K) (α : K) (x : List K) (β : K) (y : List K) (hx : x.length = r) (hy : y.length = c) :
    IsProd (fun i j => ent (.denseGen r c vals) j i) c r α x β y (gemv true r c vals α x β y) := by
  refine ⟨by simp [gemv], fun i hi => ?_⟩
  simp only [gemv, if_true]
  rw [getD_map_range _ _ _ hi, vdot_eq _ _ r (by simp) hx]
  simp only [get]
  rw [betaPart_get]
  congr 2
  refine Finset.sum_congr rfl (fun j hj => ?_)
  rw [getD_map_range _ _ _ (by simpa using hj)]
  rfl

theorem symv_ok (n : Nat) (vals : List K) (α : K) (x : List K) (β : K) (y : List K) (hx : x.length = n) (hy : y.length = n) :
    IsProd (ent (.denseSym n vals)) n n α x β y (symv n vals α x β y) := by
  refine ⟨by simp [symv], fun i hi => ?_⟩
  simp only [symv]
  rw [getD_map_range _ _ _ hi, vdot_eq _ _ n (by simp) hx]
  simp only [get]
  rw [betaPart_get]
  congr 2
  refine Finset.sum_congr rfl (fun j hj => ?_)
  rw [getD_map_range _ _ _ (by simpa using hj)]
  rfl

/-! ## Multi-vector matrices -/

theorem vecs_acc (r : Nat) (vecs : List (List K)) (hw : ∀ v ∈ vecs, v.length = r) (a : Nat → K) (y : List K) (hy : y.length = r) :
    ((vecs.zipIdx).foldl (fun y p => addOne (a p.2) p.1 1 y) y).length = r ∧
    ∀ i, i < r → ((vecs.zipIdx).foldl (fun y p => addOne (a p.2) p.1 1 y) y).getD i 0 =
      y.getD i 0 + ∑ j ∈ range vecs.length, a j * (vecs.getD j []).getD i 0 := by
  have := foldl_acc r (fun y (p : List K × Nat) => addOne (a p.2) p.1 1 y) (fun p i => a p.2 * p.1.getD i 0) (vecs.zipIdx)
    (fun p hp y hy => by
      have hp1 : p.1.length = r := hw _ (List.fst_mem_of_mem_zipIdx hp)
      exact ⟨by rw [addOne_length _ _ _ _ (by omega), hy], fun i hi => by
        rw [addOne_get _ _ _ _ _ (by omega) (by omega), one_mul]⟩) y hy
  refine ⟨this.1, fun i hi => ?_⟩
  rw [this.2 i hi, sum_map_zipIdx vecs []]

theorem mvMult_ok {hom : List K → Option K} (hh : HomOK hom) (r : Nat) (vecs : List (List K)) (hw : ∀ v ∈ vecs, v.length = r)
    (α : K) (x : List K) (β : K) (y : List K) (hx : x.length = vecs.length) (hy : y.length = r) :
    IsProd (ent (.multiVec r vecs)) r vecs.length α x β y (mvMult hom vecs α x β y) := by
  have hb : (betaPart β y).length = r := by rw [betaPart_length, hy]
  unfold mvMult
  cases hom_eq : hom x with
  | none =>
    have := vecs_acc r vecs hw (fun j => α * get x j) _ hb
    refine ⟨this.1, fun i hi => ?_⟩
    simp only []
    rw [this.2 i hi, betaPart_get, Finset.mul_sum]
    congr 1
    refine Finset.sum_congr rfl (fun j hj => ?_)
    simp only [ent, get]; ring
  | some s =>
    have := vecs_acc r vecs hw (fun j => α * s) _ hb
    rw [foldl_zipIdx_fst (fun y v => addOne (α * s) v 1 y) vecs 0 (betaPart β y)] at this
    refine ⟨this.1, fun i hi => ?_⟩
    simp only []
    rw [this.2 i hi, betaPart_get, Finset.mul_sum]
    congr 1
    refine Finset.sum_congr rfl (fun j hj => ?_)
    rw [hom_get hh hom_eq (by rw [hx]; simpa using hj)]
    simp only [ent]; ring

theorem mvTrans_ok (r : Nat) (vecs : List (List K)) (hw : ∀ v ∈ vecs, v.length = r)
    (α : K) (x : List K) (β : K) (y : List K) (hx : x.length = r) (hy : y.length = vecs.length) :
    IsProd (fun i j => ent (.multiVec r vecs) j i) vecs.length r α x β y (mvTrans vecs α x β y) := by
  unfold mvTrans
  have hg : ∀ i, i < vecs.length → (vecs.getD i []).length = r := by
    intro i hi
    rw [List.getD_eq_getElem?_getD, List.getElem?_eq_getElem hi]
    exact hw _ (List.getElem_mem hi)
  split
  · rename_i h0
    have h0 : β = 0 := by simpa using h0
    refine ⟨by simp, fun i hi => ?_⟩
    rw [getD_map' _ _ _ [] hi, vdot_eq _ _ r (hg i hi) hx, h0]
    simp only [ent]; ring
  · refine ⟨by simp [hy], fun i hi => ?_⟩
    rw [getD_zipWith _ _ _ _ [] 0 hi (by omega), vdot_eq _ _ r (hg i hi) hx]
    simp only [ent]; ring

theorem lrMult_ok (n : Nat) (vecs : List (List K)) (hw : ∀ v ∈ vecs, v.length = n) (α : K) (x : List K) (β : K) (y : List K)
    (hx : x.length = n) (hy : y.length = n) :
    IsProd (gram (some vecs)) n n α x β y (lrMult vecs α x β y) := by
  have hb : (betaPart β y).length = n := by rw [betaPart_length, hy]
  have := foldl_acc n (fun y (v : List K) => addOne (α * vdot v x) v 1 y) (fun v i => α * vdot v x * v.getD i 0) vecs
    (fun v hv y hy => by
      have hv1 : v.length = n := hw _ hv
      exact ⟨by rw [addOne_length _ _ _ _ (by omega), hy], fun i hi => by
        rw [addOne_get _ _ _ _ _ (by omega) (by omega), one_mul]⟩) _ hb
  refine ⟨this.1, fun i hi => ?_⟩
  unfold lrMult
  rw [this.2 i hi, betaPart_get]
  congr 1
  simp only [gram]
  clear this
  induction vecs with
  | nil => simp
  | cons v vs ih =>
    simp only [List.map_cons, List.sum_cons, add_mul, Finset.sum_add_distrib, mul_add]
    rw [ih (fun w hw' => hw w (by simp [hw']))]
    congr 1
    rw [vdot_eq v x n (hw v (by simp)) hx, Finset.mul_sum, Finset.mul_sum, Finset.sum_mul]
    exact Finset.sum_congr rfl (fun j _ => by ring)

theorem lrMultOpt_ok (n : Nat) (V : Option (List (List K))) (hw : colsOK n V) (α : K) (x y : List K)
    (hx : x.length = n) (hy : y.length = n) : IsProd (gram V) n n α x 1 y (lrMultOpt V α x y) := by
  cases V with
  | none => exact ⟨hy, fun i hi => by simp [lrMultOpt, gram]⟩
  | some vs => exact lrMult_ok n vs hw α x 1 y hx hy

/-! ## Expanded multi-vector matrices -/

theorem expanded_dot (v : List K) (pos : List Nat) (c : Nat) (hw : ∀ p ∈ pos, p < c) (hv : v.length = pos.length) (x : Nat → K) :
    ∑ j ∈ range c, rowEnt (some v) (some pos) j * x j = ∑ k ∈ range pos.length, v.getD k 0 * x (pos.getD k 0) := by
  simp only [rowEnt, Finset.sum_mul]
  rw [Finset.sum_comm]
  refine Finset.sum_congr rfl (fun k hk => ?_)
  have hk : k < pos.length := by simpa using hk
  have hp : pos.getD k 0 < c := by
    rw [List.getD_eq_getElem?_getD, List.getElem?_eq_getElem hk, Option.getD_some]
    exact hw _ (List.getElem_mem hk)
  have : ∀ j ∈ range c, (if pos[k]? = some j then v.getD k 0 else 0) * x j = if pos.getD k 0 = j then v.getD k 0 * x j else 0 := by
    intro j _
    simp only [List.getD_eq_getElem?_getD, List.getElem?_eq_getElem hk, Option.getD_some, Option.some.injEq]
    split <;> simp
  rw [Finset.sum_congr rfl this, Finset.sum_ite_eq, if_pos (by simpa using hp)]

theorem emvMult_ok {hom : List K → Option K} (hh : HomOK hom) (c : Nat) (vecs : List (Option (List K))) (P : Option (List Nat))
    (hw : WF (.expMultiVec c vecs P)) (α : K) (x : List K) (β : K) (y : List K) (hx : x.length = c) (hy : y.length = vecs.length) :
    IsProd (ent (.expMultiVec c vecs P)) vecs.length c α x β y (emvMult hom vecs P α x β y) := by
  obtain ⟨hw1, hw2⟩ := hw
  -- the value used for each row
  have hrow : ∀ i, i < vecs.length → ∀ xt, xt = emvArg hom P x →
      (match vecs.getD i none with
        | some v => α * vdot v xt
        | none => 0) = α * ∑ j ∈ range c, ent (.expMultiVec c vecs P) i j * x.getD j 0 := by
    intro i hi xt hxt
    have hm : vecs.getD i none ∈ vecs := by
      rw [List.getD_eq_getElem?_getD, List.getElem?_eq_getElem hi]
      exact List.getElem_mem hi
    simp only [ent]
    cases hv : vecs.getD i none with
    | none => simp [rowEnt]
    | some v =>
      have hl := hw1 v (hv ▸ hm)
      cases P with
      | none =>
        simp only [Option.map_none, Option.getD_none] at hl
        rw [hxt]
        simp only [emvArg]
        rw [vdot_eq v x c hl hx]
        rfl
      | some pos =>
        simp only [Option.map_some, Option.getD_some] at hl
        have hp := hw2 pos rfl
        have ht := expTrans_ok hh c pos hp 1 x 0 (List.replicate pos.length 0) hx (by simp)
        rw [expanded_dot v pos c hp hl (fun j => x.getD j 0), hxt]
        simp only [emvArg]
        rw [vdot_eq v _ pos.length hl ht.1]
        congr 1
        refine Finset.sum_congr rfl (fun k hk => ?_)
        rw [ht.2 k (by simpa using hk)]
        simp only []
        rw [exp_col pos c hp k (by simpa using hk) (fun j => x.getD j 0)]
        ring
  unfold emvMult
  split
  · rename_i h0
    have h0 : β = 0 := by simpa using h0
    refine ⟨by simp, fun i hi => ?_⟩
    rw [getD_map' _ _ _ none hi, ← hrow i hi _ rfl, h0, zero_mul, zero_add]
    cases vecs.getD i none <;> rfl
  · refine ⟨by simp [hy], fun i hi => ?_⟩
    rw [getD_zipWith _ _ _ _ none 0 hi (by omega), ← hrow i hi _ rfl]
    cases vecs.getD i none with
    | none => simp only []; ring
    | some v => simp only []; ring

theorem emvAcc_ok {hom : List K → Option K} (hh : HomOK hom) (n : Nat) (vecs : List (Option (List K)))
    (hw : ∀ v, some v ∈ vecs → v.length = n) (α : K) (x y : List K) (hx : x.length = vecs.length) (hy : y.length = n) :
    (emvAcc hom vecs α x y).length = n ∧ ∀ i, i < n → (emvAcc hom vecs α x y).getD i 0 =
      y.getD i 0 + α * ∑ k ∈ range vecs.length, rowEnt (vecs.getD k none) none i * x.getD k 0 := by
  have gen : ∀ (a : Nat → K) (y : List K), y.length = n →
      ((vecs.zipIdx).foldl (fun y p => addOptVec (a p.2) p.1 y) y).length = n ∧
      ∀ i, i < n → ((vecs.zipIdx).foldl (fun y p => addOptVec (a p.2) p.1 y) y).getD i 0 = y.getD i 0 + ∑ k ∈ range vecs.length, a k * rowEnt (vecs.getD k none) none i := by
    intro a y hy
    have := foldl_acc n (fun y (p : Option (List K) × Nat) => addOptVec (a p.2) p.1 y) (fun p i => a p.2 * rowEnt p.1 none i) (vecs.zipIdx)
      (fun p hp y hy => by
        obtain ⟨v, k⟩ := p
        cases v with
        | none => exact ⟨hy, fun i hi => by simp [rowEnt, addOptVec]⟩
        | some v =>
          have hv := hw v (List.fst_mem_of_mem_zipIdx hp)
          simp only [addOptVec]
          exact ⟨by rw [addOne_length _ _ _ _ (by omega), hy], fun i hi => by
            rw [addOne_get _ _ _ _ _ (by omega) (by omega), one_mul]; rfl⟩) y hy
    refine ⟨this.1, fun i hi => ?_⟩
    rw [this.2 i hi, sum_map_zipIdx vecs none]
  unfold emvAcc
  cases hom_eq : hom x with
  | none =>
    have := gen (fun j => α * get x j) y hy
    refine ⟨this.1, fun i hi => ?_⟩
    simp only []
    rw [this.2 i hi, Finset.mul_sum]
    congr 1
    exact Finset.sum_congr rfl (fun j _ => by simp only [get]; ring)
  | some s =>
    have := gen (fun j => α * s) y hy
    rw [foldl_zipIdx_fst (fun y v => addOptVec (α * s) v y) vecs 0 y] at this
    refine ⟨this.1, fun i hi => ?_⟩
    simp only []
    rw [this.2 i hi, Finset.mul_sum]
    congr 1
    refine Finset.sum_congr rfl (fun j hj => ?_)
    rw [hom_get hh hom_eq (by rw [hx]; simpa using hj)]; ring

theorem emvTrans_ok {hom : List K → Option K} (hh : HomOK hom) (c : Nat) (vecs : List (Option (List K))) (P : Option (List Nat))
    (hw : WF (.expMultiVec c vecs P)) (α : K) (x : List K) (β : K) (y : List K) (hx : x.length = vecs.length) (hy : y.length = c) :
    IsProd (fun i j => ent (.expMultiVec c vecs P) j i) c vecs.length α x β y (emvTrans hom vecs P α x β y) := by
  obtain ⟨hw1, hw2⟩ := hw
  unfold emvTrans
  cases P with
  | none =>
    simp only [Option.map_none, Option.getD_none] at hw1
    have := emvAcc_ok hh c vecs hw1 α x (betaPart β y) hx (by rw [betaPart_length, hy])
    refine ⟨this.1, fun i hi => ?_⟩
    simp only []
    rw [this.2 i hi, betaPart_get]
    rfl
  | some pos =>
    simp only [Option.map_some, Option.getD_some] at hw1
    have ha := emvAcc_ok hh pos.length vecs hw1 α x (List.replicate pos.length 0) hx (by simp)
    have := expMult_ok hh c pos 1 (emvAcc hom vecs α x (List.replicate pos.length 0)) β y ha.1 hy
    refine ⟨this.1, fun i hi => ?_⟩
    simp only []
    rw [this.2 i hi]
    congr 1
    rw [one_mul]
    have e1 : ∀ j ∈ range pos.length, ent (.expansion c pos) i j * (emvAcc hom vecs α x (List.replicate pos.length 0)).getD j 0 =
        α * ∑ k ∈ range vecs.length, ent (.expansion c pos) i j * rowEnt (vecs.getD k none) none j * x.getD k 0 := by
      intro j hj
      have hj : j < pos.length := by simpa using hj
      rw [ha.2 j hj]
      have : (List.replicate pos.length (0 : K)).getD j 0 = 0 := by simp [List.getD_eq_getElem?_getD, List.getElem?_replicate, hj]
      rw [this, zero_add, Finset.mul_sum, Finset.mul_sum, Finset.mul_sum]
      exact Finset.sum_congr rfl (fun k _ => by ring)
    rw [Finset.sum_congr rfl e1, ← Finset.mul_sum, Finset.sum_comm]
    congr 1
    refine Finset.sum_congr rfl (fun k hk => ?_)
    rw [← Finset.sum_mul]
    congr 1
    simp only [ent]
    cases vecs.getD k none with
    | none => simp [rowEnt]
    | some v =>
      simp only [rowEnt]
      refine Finset.sum_congr rfl (fun j _ => ?_)
      split <;> simp

end Verif.Matrix
