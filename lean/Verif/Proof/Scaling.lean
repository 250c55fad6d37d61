import Verif.Spec.Scaling
import Verif.Proof.Matrix4
import Mathlib.Algebra.Order.Field.Basic
import Mathlib.Tactic.FieldSimp
import Mathlib.Tactic.Ring
import Mathlib.Tactic.Linarith
import Mathlib.Analysis.Calculus.Deriv.Mul

set_option linter.unusedSectionVars false
set_option linter.unusedVariables false
set_option linter.unusedSimpArgs false

namespace Verif.Scaling
open Verif.Matrix Finset

variable {K : Type} [Field K] [DecidableEq K]

theorem optFac_ne {n : Nat} {d : Option (List K)} (h : FacOK n d) {i : Nat} (hi : i < n) : optFac d i ≠ 0 := by
  cases d with
  | none => simp [optFac]
  | some v =>
    obtain ⟨hl, hn⟩ := h v rfl
    simp only [optFac, getD_lt (hl ▸ hi)]
    exact hn _ (List.getElem_mem _)

theorem optMul_length {n : Nat} {d : Option (List K)} (h : FacOK n d) {x : List K} (hx : x.length = n) :
    (optMul d x).length = n := by
  cases d with
  | none => simpa [optMul]
  | some v => simp [optMul, emul, hx, (h v rfl).1]

theorem optMul_get {n : Nat} {d : Option (List K)} (h : FacOK n d) {x : List K} (hx : x.length = n) {i : Nat} (hi : i < n) :
    (optMul d x).getD i 0 = optFac d i * x.getD i 0 := by
  cases d with
  | none => simp [optMul, optFac]
  | some v =>
    simp only [optMul, optFac]
    rw [emul_get _ _ _ (by rw [(h v rfl).1, hx]) (by omega), mul_comm]

theorem optDiv_length {n : Nat} {d : Option (List K)} (h : FacOK n d) {x : List K} (hx : x.length = n) :
    (optDiv d x).length = n := by
  cases d with
  | none => simpa [optDiv]
  | some v => simp [optDiv, ediv, hx, (h v rfl).1]

theorem optDiv_get {n : Nat} {d : Option (List K)} (h : FacOK n d) {x : List K} (hx : x.length = n) {i : Nat} (hi : i < n) :
    (optDiv d x).getD i 0 = x.getD i 0 / optFac d i := by
  cases d with
  | none => simp [optDiv, optFac]
  | some v =>
    simp only [optDiv, optFac]
    rw [ediv_get _ _ _ (by rw [(h v rfl).1, hx]) (by omega)]

theorem list_ext {n : Nat} {a b : List K} (ha : a.length = n) (hb : b.length = n) (h : ∀ i, i < n → a.getD i 0 = b.getD i 0) :
    a = b := by
  apply List.ext_getElem (by omega)
  intro i h1 h2
  have := h i (by omega)
  rwa [getD_lt h1, getD_lt h2] at this

theorem optDiv_optMul {n : Nat} {d : Option (List K)} (h : FacOK n d) {x : List K} (hx : x.length = n) :
    optDiv d (optMul d x) = x :=
  list_ext (optDiv_length h (optMul_length h hx)) hx (fun i hi => by
    rw [optDiv_get h (optMul_length h hx) hi, optMul_get h hx hi]
    field_simp [optFac_ne h hi])

theorem optMul_optDiv {n : Nat} {d : Option (List K)} (h : FacOK n d) {x : List K} (hx : x.length = n) :
    optMul d (optDiv d x) = x :=
  list_ext (optMul_length h (optDiv_length h hx)) hx (fun i hi => by
    rw [optMul_get h (optDiv_length h hx) hi, optDiv_get h hx hi]
    field_simp [optFac_ne h hi])

theorem scalIf_length (a : K) (v : List K) : (scalIf a v).length = v.length := by
  unfold scalIf; split <;> simp

theorem scalIf_get (a : K) (v : List K) (i : Nat) : (scalIf a v).getD i 0 = a * v.getD i 0 := by
  unfold scalIf
  by_cases h : a = 1
  · simp [h]
  · rw [if_neg (by simpa using h)]
    by_cases hi : i < v.length
    · rw [getD_map' _ _ _ 0 hi]
    · simp [List.getD_eq_default, Nat.le_of_not_lt hi]

theorem isScaled_unapply {n : Nat} {d : Option (List K)} (h : FacOK n d) {u x : List K} (hs : IsScaled d n u x) : optDiv d x = u :=
  list_ext (optDiv_length h hs.2.1) hs.1 (fun i hi => by
    rw [optDiv_get h hs.2.1 hi, hs.2.2 i hi]
    field_simp [optFac_ne h hi])

theorem isScaled_apply {n : Nat} {d : Option (List K)} (h : FacOK n d) {u : List K} (hu : u.length = n) :
    IsScaled d n u (optMul d u) := ⟨hu, optMul_length h hu, fun _ hi => optMul_get h hu hi⟩

/-- components of the determined scaling. -/
theorem det_rowC (of df : K) (dx dc dd : Option (List K)) : rowOf (determine of df dx dc dd).jacC = dc := by
  cases dx <;> cases dc <;> simp [determine, rowOf, mkSpace, recipIf]

theorem det_rowD (of df : K) (dx dc dd : Option (List K)) : rowOf (determine of df dx dc dd).jacD = dd := by
  cases dx <;> cases dd <;> simp [determine, rowOf, mkSpace, recipIf]

/-- expansion matrices with the given index list. -/
theorem exp_mult_get {hom : List K → Option K} (hh : HomOK hom) {r : Nat} {pos : List Nat} (hw : ∀ p ∈ pos, p < r) (α : K)
    (x : List K) (β : K) (y : List K) (hx : x.length = pos.length) (hy : y.length = r) :
    ((Mat.expansion r pos).mult hom α x β y).length = r ∧
    ∀ i, i < r → ((Mat.expansion r pos).mult hom α x β y).getD i 0 =
      β * y.getD i 0 + α * ∑ k ∈ range pos.length, (if pos.getD k 0 = i then x.getD k 0 else 0) := by
  have h := (products_ok hh (.expansion r pos) hw).1 α x β y (by simpa [Mat.dims]) (by simpa [Mat.dims])
  refine ⟨h.1, fun i hi => ?_⟩
  rw [h.2 i hi]
  congr 2
  apply Finset.sum_congr rfl
  intro k hk
  have hk' : k < pos.length := by simpa [Mat.dims] using hk
  simp only [ent, List.getElem?_eq_getElem hk', Option.some.injEq]
  have : pos.getD k 0 = pos[k] := by simp [List.getD_eq_getElem?_getD, hk']
  rw [this]
  split <;> simp

theorem exp_trans_get {hom : List K → Option K} (hh : HomOK hom) {r : Nat} {pos : List Nat} (hw : ∀ p ∈ pos, p < r) (α : K)
    (x : List K) (β : K) (y : List K) (hx : x.length = r) (hy : y.length = pos.length) :
    ((Mat.expansion r pos).transMult hom α x β y).length = pos.length ∧
    ∀ k, k < pos.length → ((Mat.expansion r pos).transMult hom α x β y).getD k 0 =
      β * y.getD k 0 + α * x.getD (pos.getD k 0) 0 := by
  have h := (products_ok hh (.expansion r pos) hw).2 α x β y (by simpa [Mat.dims]) (by simpa [Mat.dims])
  refine ⟨h.1, fun k hk => ?_⟩
  rw [h.2 k hk]
  congr 2
  have hg : pos.getD k 0 = pos[k] := by simp [List.getD_eq_getElem?_getD, hk]
  have hlt : pos[k] < r := hw _ (List.getElem_mem _)
  rw [Finset.sum_eq_single (pos[k])]
  · simp [ent, List.getElem?_eq_getElem hk, hg]
  · intro j hj hne
    simp [ent, List.getElem?_eq_getElem hk, Ne.symm hne]
  · intro hn; simp [Mat.dims] at hn; omega

theorem nodup_getD {pos : List Nat} (hn : pos.Nodup) {k l : Nat} (hk : k < pos.length) (hl : l < pos.length)
    (h : pos.getD k 0 = pos.getD l 0) : k = l := by
  have h1 : pos.getD k 0 = pos[k] := by simp [List.getD_eq_getElem?_getD, hk]
  have h2 : pos.getD l 0 = pos[l] := by simp [List.getD_eq_getElem?_getD, hl]
  rw [h1, h2] at h
  exact (List.Nodup.getElem_inj_iff hn).1 h

theorem sum_pick {pos : List Nat} (hn : pos.Nodup) {l : Nat} (hl : l < pos.length) (v : Nat → K) :
    ∑ k ∈ range pos.length, (if pos.getD k 0 = pos.getD l 0 then v k else 0) = v l := by
  rw [Finset.sum_eq_single l]
  · simp
  · intro k hk hne
    rw [if_neg]
    intro he
    exact hne (nodup_getD hn (by simpa using hk) hl he)
  · intro h; simp at h; omega

theorem sum_none {pos : List Nat} {j : Nat} (hj : j ∉ pos) (v : Nat → K) :
    ∑ k ∈ range pos.length, (if pos.getD k 0 = j then v k else 0) = 0 := by
  apply Finset.sum_eq_zero
  intro k hk
  rw [if_neg]
  intro h
  have hk' : k < pos.length := by simpa using hk
  apply hj
  rw [← h]
  simp [List.getD_eq_getElem?_getD, hk']

theorem getD_mem {pos : List Nat} {k : Nat} (hk : k < pos.length) : pos.getD k 0 ∈ pos := by
  simp [List.getD_eq_getElem?_getD, hk]

/-- scaling through the full space with a diagonal operation `op` that acts componentwise. -/
theorem lu_core {hom : List K → Option K} (hh : HomOK hom) {r : Nat} {pos : List Nat} (hw : ∀ p ∈ pos, p < r) (hn : pos.Nodup)
    (op : List K → List K) (fac : Nat → K) (hop : ∀ x, x.length = r → (op x).length = r ∧ ∀ i, i < r → (op x).getD i 0 = fac i * x.getD i 0)
    (lu : List K) (hlu : lu.length = pos.length) :
    let res := (Mat.expansion r pos).transMult hom 1
      (op ((Mat.expansion r pos).mult hom 1 lu 0 (List.replicate (Mat.expansion (N := K) r pos).dims.1 0))) 0
      (List.replicate (Mat.expansion (N := K) r pos).dims.2 0)
    res.length = pos.length ∧ ∀ k, k < pos.length → res.getD k 0 = fac (pos.getD k 0) * lu.getD k 0 := by
  intro res
  have h1 := exp_mult_get hh hw 1 lu 0 (List.replicate r 0) hlu (by simp)
  have h2 := hop _ h1.1
  have h3 := exp_trans_get hh hw 1 _ 0 (List.replicate pos.length 0) h2.1 (by simp)
  refine ⟨h3.1, fun k hk => ?_⟩
  have h4 := h3.2 k hk
  have hlt : pos.getD k 0 < r := hw _ (getD_mem hk)
  show (Mat.transMult hom _ _ _ _ _).getD k 0 = _
  simp only [Mat.dims]
  rw [h4, h2.2 _ hlt, h1.2 _ hlt, sum_pick hn hk]
  simp

end Verif.Scaling
