import Verif.Proof.Matrix3

set_option linter.unusedSectionVars false
set_option linter.unusedSimpArgs false
set_option linter.unusedVariables false

namespace Verif.Matrix
open Finset

/-! ## `beta = 0` never reads `y` (any scalar type) -/

section LawFree
variable {N : Type} [Zero N] [One N] [Add N] [Sub N] [Mul N] [Neg N] [Div N] [BEq N]

theorem betaPart_zero {β : N} (hβ : (β == 0) = true) {y y' : List N} (h : y.length = y'.length) : betaPart β y = betaPart β y' := by
  unfold betaPart
  rw [if_pos hβ, if_pos hβ]
  apply List.ext_getElem (by simp [h]) ; intro i h1 h2; simp

theorem addOne_zero {c : N} (hc : (c == 0) = true) (a : N) (v : List N) {y y' : List N} (h : y.length = y'.length) :
    addOne a v c y = addOne a v c y' := by
  unfold addOne
  rw [if_pos hc, if_pos hc]
  apply List.ext_getElem (by simp [h]) ; intro i h1 h2; simp

theorem beta_zero_both (h0 : ((0 : N) == 0) = true) (hom : List N → Option N) (m : Mat N) :
    ∀ (α : N) (x : List N) (β : N) (y y' : List N), (β == 0) = true → y.length = y'.length →
      m.mult hom α x β y = m.mult hom α x β y' ∧ m.transMult hom α x β y = m.transMult hom α x β y' := by
  induction m with
  | zero r c => intro α x β y y' hβ h; simp only [Mat.mult, Mat.transMult, betaPart_zero hβ h, and_self]
  | zeroSym n => intro α x β y y' hβ h; simp only [Mat.mult, Mat.transMult, betaPart_zero hβ h, and_self]
  | ident n f => intro α x β y y' hβ h; simp only [Mat.mult, Mat.transMult, addOne_zero hβ _ _ h, and_self]
  | diag d => intro α x β y y' hβ h; simp only [Mat.mult, Mat.transMult, betaPart_zero hβ h, and_self]
  | genT r c ts => intro α x β y y' hβ h; simp only [Mat.mult, Mat.transMult, genTMult, genTTrans, betaPart_zero hβ h, and_self]
  | symT n ts => intro α x β y y' hβ h; simp only [Mat.mult, Mat.transMult, symTMult, betaPart_zero hβ h, and_self]
  | expansion r pos => intro α x β y y' hβ h; simp only [Mat.mult, Mat.transMult, expMult, expTrans, betaPart_zero hβ h, and_self]
  | denseGen r c vals => intro α x β y y' hβ h; simp only [Mat.mult, Mat.transMult, gemv, betaPart_zero hβ h, and_self]
  | denseSym n vals => intro α x β y y' hβ h; simp only [Mat.mult, Mat.transMult, symv, betaPart_zero hβ h, and_self]
  | multiVec r vecs => intro α x β y y' hβ h; simp only [Mat.mult, Mat.transMult, mvMult, mvTrans, betaPart_zero hβ h, hβ, if_true, and_self]
  | expMultiVec c vecs P =>
    intro α x β y y' hβ h
    refine ⟨by simp only [Mat.mult, emvMult, hβ, if_true], ?_⟩
    cases P with
    | none => simp only [Mat.transMult, emvTrans, betaPart_zero hβ h]
    | some pos => simp only [Mat.transMult, emvTrans, expMult, betaPart_zero hβ h]
  | lowRank D V U =>
    intro α x β y y' hβ h
    simp only [Mat.mult, Mat.transMult, hβ, if_true, addOne_zero h0 _ _ h, and_self]
  | lowRankP red D V U P ih =>
    intro α x β y y' hβ h
    cases red with
    | true =>
      simp only [Mat.mult, Mat.transMult, if_true]
      exact ⟨(ih _ _ _ _ _ hβ h).1, (ih _ _ _ _ _ hβ h).1⟩
    | false => simp only [Mat.mult, Mat.transMult, Bool.false_eq_true, if_false, addOne_zero hβ _ _ h, and_self]
  | transpose m ih => intro α x β y y' hβ h; exact ⟨(ih _ _ _ _ _ hβ h).2, (ih _ _ _ _ _ hβ h).1⟩
  | scaled rs m cs ih => intro α x β y y' hβ h; simp only [Mat.mult, Mat.transMult, h, betaPart_zero hβ h, and_self]
  | symScaled s m ih => intro α x β y y' hβ h; simp only [Mat.mult, Mat.transMult, h, betaPart_zero hβ h, and_self]
  | sum r c k f t ih => intro α x β y y' hβ h; simp only [Mat.mult, Mat.transMult, betaPart_zero hβ h, and_self]
  | sumSym n k f t ih => intro α x β y y' hβ h; simp only [Mat.mult, Mat.transMult, betaPart_zero hβ h, and_self]
  | compound rd cd space set comp ih => intro α x β y y' hβ h; simp only [Mat.mult, Mat.transMult, betaPart_zero hβ h, and_self]
  | compoundSym ds set comp ih => intro α x β y y' hβ h; simp only [Mat.mult, Mat.transMult, betaPart_zero hβ h, and_self]

end LawFree

variable {K : Type} [Field K] [DecidableEq K]

/-! ## `AddMSinvZ` -/

theorem quot_get (S Z : List K) (n : Nat) (hS : S.length = n) (hZ : Z.length = n) :
    (addQuot 1 Z S 0 S).length = n ∧ ∀ j, j < n → (addQuot 1 Z S 0 S).getD j 0 = Z.getD j 0 / S.getD j 0 := by
  refine ⟨by rw [addQuot_length _ _ _ _ _ (by omega) rfl, hS], fun j hj => ?_⟩
  rw [addQuot_get _ _ _ _ _ _ (by omega) rfl (by omega)]; ring

theorem addMSinvZ_default {A : Nat → Nat → K} {r c : Nat} {α : K} {S Z X res : List K} (hS : S.length = c) (hZ : Z.length = c)
    (h : IsProd A r c α (addQuot 1 Z S 0 S) 1 X res) : IsAddMSinvZ A r c α S Z X res := by
  refine ⟨h.1, fun i hi => ?_⟩
  rw [h.2 i hi, one_mul]
  congr 2
  exact Finset.sum_congr rfl (fun j hj => by rw [(quot_get S Z c hS hZ).2 j (by simpa using hj)])

theorem expAddMSinvZ_ok {hom : List K → Option K} (hh : HomOK hom) (r : Nat) (pos : List Nat) (α : K) (S Z X : List K)
    (hS : S.length = pos.length) (hZ : Z.length = pos.length) (hX : X.length = r) :
    IsAddMSinvZ (ent (.expansion r pos)) r pos.length α S Z X (expAddMSinvZ hom pos α S Z X) := by
  unfold expAddMSinvZ
  by_cases hs : (hom S).isSome = true
  · rw [if_pos hs]
    exact addMSinvZ_default hS hZ (expMult_ok hh r pos α _ 1 X (quot_get S Z _ hS hZ).1 hX)
  · rw [if_neg hs]
    -- the common shape of the remaining branches
    have fin : ∀ (g : List K → Nat × Nat → List K) (v : Nat → K),
        (∀ y p, y.length = r → p.2 < pos.length → (g y p).length = r ∧ ∀ i, i < r → (g y p).getD i 0 = y.getD i 0 + if p.1 = i then v p.2 else 0) →
        (∀ j, j < pos.length → v j = α * (Z.getD j 0 / S.getD j 0)) →
        IsAddMSinvZ (ent (.expansion r pos)) r pos.length α S Z X ((pos.zipIdx).foldl g X) := by
      intro g v hg hv
      have := exp_acc pos r g v hg X hX
      refine ⟨this.1, fun i hi => ?_⟩
      rw [this.2 i hi, Finset.mul_sum]
      congr 1
      refine Finset.sum_congr rfl (fun j hj => ?_)
      rw [hv j (by simpa using hj)]
      simp only [ent]; ring
    cases hom_eq : hom Z with
    | some z =>
      simp only []
      by_cases h0 : α * z = 0
      · rw [if_pos (by simpa using h0)]
        refine ⟨hX, fun i hi => ?_⟩
        have : ∀ j ∈ range pos.length, ent (.expansion r pos) i j * (Z.getD j 0 / S.getD j 0) =
            ent (.expansion r pos) i j * (z / S.getD j 0) := by
          intro j hj; rw [hom_get hh hom_eq (by rw [hZ]; simpa using hj)]
        rw [Finset.sum_congr rfl this, Finset.mul_sum]
        have : ∀ j ∈ range pos.length, α * (ent (.expansion r pos) i j * (z / S.getD j 0)) = 0 := by
          intro j _
          have : α * (ent (.expansion r pos) i j * (z / S.getD j 0)) = (α * z) * (ent (.expansion r pos) i j / S.getD j 0) := by ring
          rw [this, h0, zero_mul]
        rw [Finset.sum_congr rfl this]; simp
      · rw [if_neg (by simpa using h0)]
        refine fin _ (fun j => α * z / get S j) (fun y p hy hp => ⟨by rw [addAt_length, hy], fun i hi => by rw [addAt_get _ _ _ _ (by omega)]⟩) (fun j hj => ?_)
        rw [hom_get hh hom_eq (by omega)]; simp only [get]; ring
    | none =>
      simp only []
      by_cases h1 : α = 1
      · rw [if_pos (by simpa using h1)]
        refine fin _ (fun j => get Z j / get S j) (fun y p hy hp => ⟨by rw [addAt_length, hy], fun i hi => by rw [addAt_get _ _ _ _ (by omega)]⟩) (fun j hj => ?_)
        rw [h1, one_mul]; rfl
      · rw [if_neg (by simpa using h1)]
        by_cases h2 : α = -1
        · rw [if_pos (by simpa using h2)]
          refine fin _ (fun j => -(get Z j / get S j)) (fun y p hy hp => ⟨by rw [subAt_length, hy], fun i hi => by rw [subAt_get _ _ _ _ (by omega)]⟩) (fun j hj => ?_)
          rw [h2]; simp only [get]; ring
        · rw [if_neg (by simpa using h2)]
          refine fin _ (fun j => α * get Z j / get S j) (fun y p hy hp => ⟨by rw [addAt_length, hy], fun i hi => by rw [addAt_get _ _ _ _ (by omega)]⟩) (fun j hj => ?_)
          simp only [get]; ring

theorem addMSinvZ_ok {hom : List K → Option K} (hh : HomOK hom) (m : Mat K) : WF m → unitIdent m →
    ∀ α S Z X, S.length = m.dims.2 → Z.length = m.dims.2 → X.length = m.dims.1 →
      IsAddMSinvZ (ent m) m.dims.1 m.dims.2 α S Z X (m.addMSinvZ hom α S Z X) := by
  have dflt : ∀ m : Mat K, WF m → (∀ α S Z X, m.addMSinvZ hom α S Z X = m.mult hom α (addQuot 1 Z S 0 S) 1 X) →
      ∀ α S Z X, S.length = m.dims.2 → Z.length = m.dims.2 → X.length = m.dims.1 →
      IsAddMSinvZ (ent m) m.dims.1 m.dims.2 α S Z X (m.addMSinvZ hom α S Z X) := by
    intro m hw e α S Z X hS hZ hX
    rw [e]
    exact addMSinvZ_default hS hZ ((products_ok hh m hw).1 α _ 1 X (quot_get S Z _ hS hZ).1 hX)
  induction m with
  | ident n f =>
    intro hw hu α S Z X hS hZ hX
    simp only [Mat.dims] at hS hZ hX
    refine ⟨by simp only [Mat.addMSinvZ, Mat.dims]; rw [addQuot_length _ _ _ _ _ (by omega) (by omega), hX], fun i hi => ?_⟩
    simp only [Mat.dims] at hi
    simp only [Mat.addMSinvZ, Mat.dims, ent]
    have hu : f = 1 := hu
    rw [addQuot_get _ _ _ _ _ _ (by omega) (by omega) (by omega), diag_sum n i hi (fun _ => f) (fun j => Z.getD j 0 / S.getD j 0), hu]; ring
  | expansion r pos => intro hw _ α S Z X hS hZ hX; exact expAddMSinvZ_ok hh r pos α S Z X hS hZ hX
  | compound rd cd space set comp ih =>
    intro hw hu α S Z X hS hZ hX
    obtain ⟨hw1, hw2⟩ := hw
    have hub : ∀ i j, i < rd.length → j < cd.length → Mat.useBlock rd.length cd.length space set i j = set i j :=
      fun i j hi hj => useBlock_iff (fun i j hi hj hs => (hw1 i j hi hj hs).1) hw2 hi hj
    -- read the quotient as the multiplied vector
    have core := compound_core rd cd (ent (.compound rd cd space set comp)) (fun bi bj oi oj => if set bi bj then ent (comp bi bj) oi oj else 0)
      (by
        intro bi oi bj oj h1 h2 h3 h4
        simp only [ent]
        rw [locate_off rd bi oi h1 h2, locate_off cd bj oj h3 h4])
      α (addQuot 1 Z S 0 S) 1 X
      (fun i => (List.range cd.length).foldl (fun Xi j =>
        if Mat.useBlock rd.length cd.length space set i j then (comp i j).addMSinvZ hom α (blk cd j S) (blk cd j Z) Xi else Xi) (blk rd i X))
      (by
        intro i hi
        have := foldl_acc (rd.getD i 0) (fun Xi j =>
            if Mat.useBlock rd.length cd.length space set i j then (comp i j).addMSinvZ hom α (blk cd j S) (blk cd j Z) Xi else Xi)
          (fun j o => α * ∑ k ∈ range (cd.getD j 0), (if set i j then ent (comp i j) o k else 0) * (addQuot 1 Z S 0 S).getD (off cd j + k) 0)
          (List.range cd.length) (fun j hj y hy => by
            have hj : j < cd.length := by simpa using hj
            simp only [hub i j hi hj]
            by_cases hs : set i j = true
            · simp only [hs, if_true]
              have hww := hw1 i j hi hj hs
              have := ih i j hww.2.1 (hu i j hi hj hs) α (blk cd j S) (blk cd j Z) y
                (by rw [hww.2.2]; exact blk_length cd S hS j hj) (by rw [hww.2.2]; exact blk_length cd Z hZ j hj) (by rw [hww.2.2]; exact hy)
              rw [hww.2.2] at this
              refine ⟨this.1, fun o ho => ?_⟩
              rw [this.2 o ho]
              congr 2
              refine Finset.sum_congr rfl (fun k hk => ?_)
              have hk : k < cd.getD j 0 := by simpa using hk
              rw [blk_get _ _ _ _ hk, blk_get _ _ _ _ hk, (quot_get S Z cd.sum hS hZ).2 _ (off_lt cd j k hj hk)]
            · simp only [Bool.not_eq_true] at hs
              simp only [hs, Bool.false_eq_true, if_false]
              exact ⟨hy, fun o ho => by simp⟩) (blk rd i X) (blk_length rd X hX i hi)
        refine ⟨this.1, fun o ho => ?_⟩
        rw [this.2 o ho, blk_get _ _ _ _ ho, sum_map_range, ← Finset.mul_sum, one_mul])
    exact addMSinvZ_default hS hZ core
  | _ => intro hw _; exact dflt _ hw (fun _ _ _ _ => rfl)

/-! ## `SinvBlrmZMTdBr` -/

theorem sinv_default {A : Nat → Nat → K} {r c : Nat} {α : K} {S R Z D X res : List K} (hS : S.length = c) (hR : R.length = c)
    (hZ : Z.length = c) (h : IsProd (fun i j => A j i) c r α D 0 X res) : IsSinv A r c α S R Z D (ediv (axpy 1 R (emul res Z)) S) := by
  have h1 : (emul res Z).length = c := by rw [emul_length _ _ (by rw [h.1, hZ]), h.1]
  have h2 : (axpy 1 R (emul res Z)).length = c := by rw [axpy_length _ _ _ (by omega), h1]
  refine ⟨by rw [ediv_length _ _ (by omega), h2], fun i hi => ?_⟩
  rw [ediv_get _ _ _ (by omega) (by omega), axpy_get _ _ _ _ (by omega) (by omega), emul_get _ _ _ (by rw [h.1, hZ]) (by rw [h.1]; exact hi),
    h.2 i hi]
  congr 1
  ring

theorem expSinv_ok {hom : List K → Option K} (hh : HomOK hom) (r : Nat) (pos : List Nat) (hw : ∀ p ∈ pos, p < r) (α : K) (S R Z D X : List K)
    (hS : S.length = pos.length) (hR : R.length = pos.length) (hZ : Z.length = pos.length) (hD : D.length = r) (hX : X.length = pos.length) :
    IsSinv (ent (.expansion r pos)) r pos.length α S R Z D (expSinv hom pos α S R Z D X) := by
  unfold expSinv
  by_cases hs : ((hom S).isSome || (hom D).isSome) = true
  · rw [if_pos hs]
    exact sinv_default hS hR hZ (expTrans_ok hh r pos hw α D 0 X hD hX)
  · rw [if_neg hs]
    have fin : ∀ (g : Nat × Nat → K), (∀ i, i < pos.length → g (pos.getD i 0, i) =
        (R.getD i 0 + α * Z.getD i 0 * D.getD (pos.getD i 0) 0) / S.getD i 0) →
        IsSinv (ent (.expansion r pos)) r pos.length α S R Z D ((pos.zipIdx).map g) := by
      intro g hg
      refine ⟨by simp, fun i hi => ?_⟩
      rw [getD_map' _ _ _ (0, 0) (by simpa using hi)]
      have : (pos.zipIdx).getD i (0, 0) = (pos.getD i 0, i) := by
        simp [List.getD_eq_getElem?_getD, List.getElem?_zipIdx, hi]
      rw [this, hg i hi, exp_col pos r hw i hi (fun j => D.getD j 0)]
    cases hom_R : hom R with
    | some rr =>
      have hr : ∀ i, i < pos.length → R.getD i 0 = rr := fun i hi => hom_get hh hom_R (by omega)
      simp only []
      cases hom_Z : hom Z with
      | some z =>
        have hz : ∀ i, i < pos.length → Z.getD i 0 = z := fun i hi => hom_get hh hom_Z (by omega)
        simp only []
        by_cases h0 : α * z = 0
        · rw [if_pos (by simpa using h0)]
          refine fin _ (fun i hi => ?_)
          rw [hr i hi, hz i hi, h0]; simp only [get]; ring
        · rw [if_neg (by simpa using h0)]
          refine fin _ (fun i hi => ?_)
          rw [hr i hi, hz i hi]; simp only [get]
      | none =>
        simp only []
        by_cases h1 : α = 1
        · rw [if_pos (by simpa using h1)]
          refine fin _ (fun i hi => ?_)
          rw [hr i hi, h1]; simp only [get]; ring
        · rw [if_neg (by simpa using h1)]
          by_cases h2 : α = -1
          · rw [if_pos (by simpa using h2)]
            refine fin _ (fun i hi => ?_)
            rw [hr i hi, h2]; simp only [get]; ring
          · rw [if_neg (by simpa using h2)]
            refine fin _ (fun i hi => ?_)
            rw [hr i hi]; simp only [get]
    | none =>
      simp only []
      cases hom_Z : hom Z with
      | some z =>
        have hz : ∀ i, i < pos.length → Z.getD i 0 = z := fun i hi => hom_get hh hom_Z (by omega)
        simp only []
        refine fin _ (fun i hi => ?_)
        rw [hz i hi]; simp only [get]
      | none =>
        simp only []
        by_cases h1 : α = 1
        · rw [if_pos (by simpa using h1)]
          refine fin _ (fun i hi => ?_)
          rw [h1]; simp only [get]; ring
        · rw [if_neg (by simpa using h1)]
          by_cases h2 : α = -1
          · rw [if_pos (by simpa using h2)]
            refine fin _ (fun i hi => ?_)
            rw [h2]; simp only [get]; ring
          · rw [if_neg (by simpa using h2)]
            refine fin _ (fun i hi => ?_)
            simp only [get]

theorem filter_one {nr : Nat} {p : Nat → Bool} (h : ((List.range nr).filter p).length = 1) :
    ∃ a, a < nr ∧ p a = true ∧ (∀ b, b < nr → p b = true → b = a) ∧ (List.range nr).find? p = some a := by
  obtain ⟨a, ha⟩ := List.length_eq_one_iff.mp h
  have hm : ∀ b, b ∈ (List.range nr).filter p ↔ b = a := by intro b; rw [ha]; simp
  have h1 := (hm a).mpr rfl
  rw [List.mem_filter] at h1
  refine ⟨a, by simpa using h1.1, h1.2, fun b hb hpb => (hm b).mp (List.mem_filter.mpr ⟨by simpa using hb, hpb⟩), ?_⟩
  rw [← List.head?_filter, ha]; rfl

theorem sinvBlrm_ok {hom : List K → Option K} (hh : HomOK hom) (m : Mat K) : WF m → tallDiag m →
    ∀ α S R Z D X, S.length = m.dims.2 → R.length = m.dims.2 → Z.length = m.dims.2 → D.length = m.dims.1 → X.length = m.dims.2 →
      IsSinv (ent m) m.dims.1 m.dims.2 α S R Z D (m.sinvBlrm hom α S R Z D X) := by
  have dflt : ∀ m : Mat K, WF m →
      ∀ α S R Z D X, S.length = m.dims.2 → R.length = m.dims.2 → Z.length = m.dims.2 → D.length = m.dims.1 → X.length = m.dims.2 →
      IsSinv (ent m) m.dims.1 m.dims.2 α S R Z D (ediv (axpy 1 R (emul (m.transMult hom α D 0 X) Z)) S) := by
    intro m hw α S R Z D X hS hR hZ hD hX
    exact sinv_default hS hR hZ ((products_ok hh m hw).2 α D 0 X hD hX)
  induction m with
  | expansion r pos => intro hw _ α S R Z D X hS hR hZ hD hX; exact expSinv_ok hh r pos hw α S R Z D X hS hR hZ hD hX
  | compound rd cd space set comp ih =>
    intro hw ht α S R Z D X hS hR hZ hD hX
    by_cases hf : (!Mat.isDiag rd.length cd.length space && !Mat.oneBlockPerCol rd.length cd.length set) = true
    · have e : (Mat.compound rd cd space set comp).sinvBlrm hom α S R Z D X =
          ediv (axpy 1 R (emul ((Mat.compound rd cd space set comp).transMult hom α D 0 X) Z)) S := by
        simp only [Mat.sinvBlrm, hf, if_true]
      rw [e]
      exact dflt _ hw α S R Z D X hS hR hZ hD hX
    · obtain ⟨hw1, hw2⟩ := hw
      obtain ⟨ht1, ht2⟩ := ht
      -- the block used in column i
      obtain ⟨jf, hjf⟩ : ∃ jf : Nat → Nat, ∀ i, jf i = (if Mat.isDiag rd.length cd.length space = true then i else Mat.firstBlock rd.length set i) := ⟨_, fun _ => rfl⟩
      have e : (Mat.compound rd cd space set comp).sinvBlrm hom α S R Z D X =
          (List.range cd.length).flatMap (fun i =>
            (comp (jf i) i).sinvBlrm hom α (blk cd i S) (blk cd i R) (blk cd i Z) (blk rd (jf i) D) (blk cd i X)) := by
        simp only [Mat.sinvBlrm, hf, Bool.false_eq_true, if_false, ← hjf]
      have hone : ∀ i, i < cd.length → jf i < rd.length ∧ set (jf i) i = true ∧ ∀ b, b < rd.length → set b i = true → b = jf i := by
        intro i hi
        by_cases hd : Mat.isDiag rd.length cd.length space = true
        · have e1 : jf i = i := by rw [hjf, if_pos hd]
          have hir : i < rd.length := by have := ht1 hd; omega
          rw [e1]
          refine ⟨hir, hw2 i hir hi hd, fun b hb hs => ?_⟩
          have hsp := (hw1 b i hb hi hs).1
          unfold Mat.isDiag at hd
          rw [List.all_eq_true] at hd
          have := hd b (by simpa using hb)
          rw [List.all_eq_true] at this
          have := this i (by simpa using hi)
          by_contra hne
          simp [hne, hsp] at this
        · have ho : Mat.oneBlockPerCol rd.length cd.length set = true := by
            simp only [Bool.not_eq_true] at hd
            rw [hd] at hf
            simpa using hf
          unfold Mat.oneBlockPerCol at ho
          rw [List.all_eq_true] at ho
          have hoi := ho i (by simpa using hi)
          obtain ⟨a, ha1, ha2, ha3, ha4⟩ := filter_one (beq_iff_eq.mp hoi)
          have e1 : jf i = a := by rw [hjf, if_neg hd]; unfold Mat.firstBlock; rw [ha4]; rfl
          rw [e1]
          exact ⟨ha1, ha2, ha3⟩
      rw [e]
      have hblk : ∀ i, i < cd.length → IsSinv (ent (comp (jf i) i)) (rd.getD (jf i) 0) (cd.getD i 0) α (blk cd i S) (blk cd i R) (blk cd i Z)
          (blk rd (jf i) D) ((comp (jf i) i).sinvBlrm hom α (blk cd i S) (blk cd i R) (blk cd i Z) (blk rd (jf i) D) (blk cd i X)) := by
        intro i hi
        obtain ⟨h1, h2, h3⟩ := hone i hi
        have hww := hw1 (jf i) i h1 hi h2
        have := ih (jf i) i hww.2.1 (ht2 (jf i) i h1 hi h2) α (blk cd i S) (blk cd i R) (blk cd i Z) (blk rd (jf i) D) (blk cd i X)
          (by rw [hww.2.2]; exact blk_length cd S hS i hi) (by rw [hww.2.2]; exact blk_length cd R hR i hi)
          (by rw [hww.2.2]; exact blk_length cd Z hZ i hi) (by rw [hww.2.2]; exact blk_length rd D hD (jf i) h1)
          (by rw [hww.2.2]; exact blk_length cd X hX i hi)
        rw [hww.2.2] at this; exact this
      have hfb := flatMap_blocks cd _ (fun i hi => (hblk i hi).1)
      refine ⟨hfb.1, fun i hi => ?_⟩
      obtain ⟨h1, h2, h3⟩ := locate_lt cd i hi
      generalize (locate cd i).1 = b at *
      generalize (locate cd i).2 = o at *
      subst h3
      obtain ⟨g1, g2, g3⟩ := hone b h1
      rw [hfb.2 b o h1 h2, (hblk b h1).2 o h2, blk_get _ _ _ _ h2, blk_get _ _ _ _ h2, blk_get _ _ _ _ h2]
      congr 3
      symm
      refine (sum_blocks rd (fun j => ent (.compound rd cd space set comp) j (off cd b + o) * D.getD j 0)).trans ?_
      rw [Finset.sum_eq_single (jf b)]
      · refine Finset.sum_congr rfl (fun k hk => ?_)
        have hk : k < rd.getD (jf b) 0 := by simpa using hk
        simp only [ent]
        rw [locate_off rd (jf b) k g1 hk, locate_off cd b o h1 h2]
        simp only [g2, if_true]
        rw [blk_get _ _ _ _ hk]
      · intro c hc hne
        have hc : c < rd.length := by simpa using hc
        refine Finset.sum_eq_zero (fun k hk => ?_)
        have hk : k < rd.getD c 0 := by simpa using hk
        simp only [ent]
        rw [locate_off rd c k hc hk, locate_off cd b o h1 h2]
        have : set c b = false := by
          cases hs : set c b with
          | false => rfl
          | true => exact absurd (g3 c hc hs) hne
        simp only [this, Bool.false_eq_true, if_false, zero_mul]
      · intro hnot; exact absurd (by simpa using g1) hnot
  | _ => intro hw _; exact dflt _ hw

end Verif.Matrix
