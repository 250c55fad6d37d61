import Verif.Spec.AugSolve
import Verif.Proof.Triplet2
import Verif.Proof.PDSystem2

/-! # The augmented matrix as an object: well-formed, known classes, structure, full diagonal -/

namespace Verif.AugSolve
open Verif.Matrix Finset
open Verif.Triplet
open Verif.PDSystem (AugArgs kkt kktW kktSet diagBlock)

set_option linter.unusedSectionVars false
set_option linter.unusedSimpArgs false
set_option linter.unusedVariables false

variable {K : Type} [Field K] [DecidableEq K]

theorem sameStructure_dims {m m' : Mat K} (h : SameStructure m m') : m.dims = m'.dims := by
  induction h with
  | diag d d' h => simp [Mat.dims, h]
  | expMultiVec c vecs vecs' P h => simp [Mat.dims, h]
  | transpose m m' _ ih => simp [Mat.dims, ih]
  | scaled rs rs' m m' cs cs' _ ih => simp [Mat.dims, ih]
  | symScaled s s' m m' _ ih => simp [Mat.dims, ih]
  | _ => rfl

theorem sameStructure_refl (m : Mat K) : Supported m → SameStructure m m := by
  induction m with
  | zero r c => intro _; exact .zero _ _
  | zeroSym n => intro _; exact .zeroSym _
  | ident n f => intro _; exact .ident _ _ _
  | diag d => intro _; exact .diag _ _ rfl
  | genT r c ts => intro _; exact .genT _ _ _ _ rfl
  | symT n ts => intro _; exact .symT _ _ _ rfl
  | expansion r pos => intro _; exact .expansion _ _
  | denseGen r c v => intro h; exact h.elim
  | denseSym n v => intro h; exact h.elim
  | multiVec r v => intro h; exact h.elim
  | lowRank D V U => intro h; exact h.elim
  | lowRankP red D V U P ih => intro h; exact h.elim
  | expMultiVec c vecs P => intro _; exact .expMultiVec _ _ _ _ rfl
  | transpose m ih => intro h; exact .transpose _ _ (ih h)
  | scaled rs m cs ih => intro h; exact .scaled _ _ _ _ _ _ (ih h)
  | symScaled s m ih => intro h; exact .symScaled _ _ _ _ (ih h)
  | sum r c k f t ih => intro h; exact .sum _ _ _ _ _ _ _ (fun l hl => ih l (h l hl))
  | sumSym n k f t ih => intro h; exact .sumSym _ _ _ _ _ _ (fun l hl => ih l (h l hl))
  | compound rd cd sp set comp ih => intro h; exact .compound _ _ _ _ _ _ _ (fun i j hi hj hs => ih i j (h i j hi hj hs))
  | compoundSym ds set comp ih => intro h; exact .compoundSym _ _ _ _ (fun i j hji hi hs => ih i j (h i j hji hi hs))

/-- what is needed of the matrix in the place of `W`. -/
structure WOK (n : Nat) (W : Mat K) : Prop where
  wf : WF W
  sym : isSym W
  sup : Supported W
  tri : TriangleOK W
  dims : W.dims = (n, n)

theorem ArgsOK.WOK {c : AugArgs K} (h : ArgsOK c) {W : Mat K} (hW : c.W = some W) : WOK c.Jc.dims.2 W := by
  obtain ⟨h1, h2, h3, h4, h5⟩ := h.W W hW
  exact ⟨h1, h2, h3, h4, h5⟩

theorem diagBlock_length (D : Option (List K)) (δ : K) (z : Bool) (n : Nat) (h : ∀ d, D = some d → d.length = n) :
    (diagBlock D δ z n).length = n := by
  unfold diagBlock
  cases D with
  | none => simp
  | some d => by_cases hz : z = true <;> simp [hz, h d rfl]

/-- a property of all blocks that are set. -/
theorem kkt_blocks {P : Nat → Nat → Prop} (h00 : P 0 0) (h11 : P 1 1) (h20 : P 2 0) (h22 : P 2 2) (h30 : P 3 0) (h31 : P 3 1) (h33 : P 3 3) :
    ∀ i j, j ≤ i → i < 4 → kktSet i j = true → P i j := by
  intro i j hji hi hs
  have hi : i = 0 ∨ i = 1 ∨ i = 2 ∨ i = 3 := by omega
  rcases hi with rfl | rfl | rfl | rfl
  · obtain rfl : j = 0 := by omega
    exact h00
  · have hj : j = 0 ∨ j = 1 := by omega
    rcases hj with rfl | rfl
    · simp [kktSet] at hs
    · exact h11
  · have hj : j = 0 ∨ j = 1 ∨ j = 2 := by omega
    rcases hj with rfl | rfl | rfl
    · exact h20
    · simp [kktSet] at hs
    · exact h22
  · have hj : j = 0 ∨ j = 1 ∨ j = 2 ∨ j = 3 := by omega
    rcases hj with rfl | rfl | rfl | rfl
    · exact h30
    · exact h31
    · simp [kktSet] at hs
    · exact h33

theorem kkt_wf {c : AugArgs K} {oldW : Mat K} (h : ArgsOK c) (hW : WOK c.Jc.dims.2 (c.W.getD oldW)) : WF (kkt oldW c) := by
  refine kkt_blocks ?_ ?_ ?_ ?_ ?_ ?_ ?_
  · refine ⟨fun l hl => ?_, rfl, fun _ => trivial⟩
    have : l = 0 ∨ l = 1 := by omega
    rcases this with rfl | rfl
    · exact ⟨hW.wf, hW.dims, hW.sym⟩
    · refine ⟨trivial, ?_, trivial⟩
      simp [Mat.dims, diagBlock_length _ _ _ _ h.Dx]
  · refine ⟨trivial, ?_, fun _ => trivial⟩
    simp [Mat.dims, diagBlock_length _ _ _ _ h.Ds]
  · exact ⟨h.Jc.1, rfl, fun e => by omega⟩
  · refine ⟨trivial, ?_, fun _ => trivial⟩
    simp [Mat.dims, diagBlock_length _ _ _ _ h.Dc]
  · exact ⟨h.Jd.1, Prod.ext rfl h.Jdd, fun e => by omega⟩
  · exact ⟨trivial, rfl, fun e => by omega⟩
  · refine ⟨trivial, ?_, fun _ => trivial⟩
    simp [Mat.dims, diagBlock_length _ _ _ _ h.Dd]

theorem kkt_supported {c : AugArgs K} {oldW : Mat K} (h : ArgsOK c) (hW : WOK c.Jc.dims.2 (c.W.getD oldW)) : Supported (kkt oldW c) := by
  refine kkt_blocks ?_ ?_ ?_ ?_ ?_ ?_ ?_
  · intro l hl
    have : l = 0 ∨ l = 1 := by omega
    rcases this with rfl | rfl
    · exact hW.sup
    · exact trivial
  · exact trivial
  · exact h.Jc.2.1
  · exact trivial
  · exact h.Jd.2.1
  · exact trivial
  · exact trivial

theorem kkt_triangle {c : AugArgs K} {oldW : Mat K} (h : ArgsOK c) (hW : WOK c.Jc.dims.2 (c.W.getD oldW)) : TriangleOK (kkt oldW c) := by
  refine kkt_blocks ?_ ?_ ?_ ?_ ?_ ?_ ?_
  · rw [if_pos rfl]
    intro l hl
    have : l = 0 ∨ l = 1 := by omega
    rcases this with rfl | rfl
    · exact hW.tri
    · exact trivial
  · rw [if_pos rfl]; exact trivial
  · rw [if_neg (by omega)]; exact h.Jc.2.2
  · rw [if_pos rfl]; exact trivial
  · rw [if_neg (by omega)]; exact h.Jd.2.2
  · rw [if_neg (by omega)]; exact trivial
  · rw [if_pos rfl]; exact trivial

theorem kkt_same {f c : AugArgs K} {oldWf oldW : Mat K} (hf : ArgsOK f) (hc : ArgsOK c) (h : Like f c)
    (hW : SameStructure (f.W.getD oldWf) (c.W.getD oldW)) : SameStructure (kkt oldWf f) (kkt oldW c) := by
  have d1 := sameStructure_dims h.Jc
  have d2 := sameStructure_dims h.Jd
  unfold kkt
  simp only
  rw [d1, d2]
  refine .compoundSym _ _ _ _ (kkt_blocks ?_ ?_ ?_ ?_ ?_ ?_ ?_)
  · refine .sumSym _ _ _ _ _ _ (fun l hl => ?_)
    have : l = 0 ∨ l = 1 := by omega
    rcases this with rfl | rfl
    · exact hW
    · refine .diag _ _ ?_
      rw [diagBlock_length _ _ _ _ hc.Dx, diagBlock_length _ _ _ _ (d1 ▸ hf.Dx)]
  · refine .diag _ _ ?_
    rw [diagBlock_length _ _ _ _ hc.Ds, diagBlock_length _ _ _ _ (d2 ▸ hf.Ds)]
  · exact h.Jc
  · refine .diag _ _ ?_
    rw [diagBlock_length _ _ _ _ hc.Dc, diagBlock_length _ _ _ _ (d1 ▸ hf.Dc)]
  · exact h.Jd
  · exact .ident _ _ _
  · refine .diag _ _ ?_
    rw [diagBlock_length _ _ _ _ hc.Dd, diagBlock_length _ _ _ _ (d2 ▸ hf.Dd)]

theorem kkt_dims (oldW : Mat K) (c : AugArgs K) : (kkt oldW c).dims = (c.Jc.dims.2 + c.Jd.dims.1 + c.Jc.dims.1 + c.Jd.dims.1,
    c.Jc.dims.2 + c.Jd.dims.1 + c.Jc.dims.1 + c.Jd.dims.1) := by
  simp [kkt, Mat.dims, Nat.add_assoc]

theorem trL_diag (d : List K) (i : Nat) (h : i < d.length) : (⟨i + 1, i + 1, d.getD i 0⟩ : Trip K) ∈ trL (.diag d) := by
  simp only [trL, List.mem_map, List.mem_range]
  exact ⟨i, h, rfl⟩

theorem trL_compoundSym (ds : List Nat) (set : Nat → Nat → Bool) (comp : Nat → Nat → Mat K) (i : Nat) (hi : i < ds.length)
    (hs : set i i = true) (t : Trip K) (ht : t ∈ trL (comp i i)) :
    shift (off ds i) (off ds i) t ∈ trL (.compoundSym ds set comp) := by
  simp only [trL, List.mem_flatMap, List.mem_range]
  refine ⟨i, hi, i, by omega, ?_⟩
  rw [if_pos hs]
  exact List.mem_map_of_mem ht

theorem kkt_diag {c : AugArgs K} {oldW : Mat K} (h : ArgsOK c) (r : Nat) (hr : r < (kkt oldW c).dims.1) :
    ∃ t ∈ trL (kkt oldW c), t.row = r + 1 ∧ t.col = r + 1 := by
  rw [kkt_dims] at hr
  simp only at hr
  have key : ∀ b i, b < 4 → kktSet b b = true →
      (∃ t ∈ trL ((fun i j => if i = 0 then kktW oldW c c.Jc.dims.2
        else if i = 1 then .diag (diagBlock c.Ds c.δs (c.δs == 0) c.Jd.dims.1)
        else if i = 2 then (if j = 0 then c.Jc else .diag (diagBlock c.Dc (-c.δc) (c.δc == 0) c.Jc.dims.1))
        else if j = 0 then c.Jd
        else if j = 1 then .ident c.Jd.dims.1 (-1)
        else .diag (diagBlock c.Dd (-c.δd) (c.δd == 0) c.Jd.dims.1) : Nat → Nat → Mat K) b b), t.row = i + 1 ∧ t.col = i + 1) →
      ∃ t ∈ trL (kkt oldW c), t.row = off [c.Jc.dims.2, c.Jd.dims.1, c.Jc.dims.1, c.Jd.dims.1] b + i + 1 ∧
        t.col = off [c.Jc.dims.2, c.Jd.dims.1, c.Jc.dims.1, c.Jd.dims.1] b + i + 1 := by
    intro b i hb hs ⟨t, ht, h1, h2⟩
    refine ⟨_, trL_compoundSym [c.Jc.dims.2, c.Jd.dims.1, c.Jc.dims.1, c.Jd.dims.1] kktSet _ b hb hs t ht, ?_, ?_⟩
    · simp only [shift, h1]; omega
    · simp only [shift, h2]; omega
  have o0 : off [c.Jc.dims.2, c.Jd.dims.1, c.Jc.dims.1, c.Jd.dims.1] 0 = 0 := by simp [off]
  have o1 : off [c.Jc.dims.2, c.Jd.dims.1, c.Jc.dims.1, c.Jd.dims.1] 1 = c.Jc.dims.2 := by simp [off]
  have o2 : off [c.Jc.dims.2, c.Jd.dims.1, c.Jc.dims.1, c.Jd.dims.1] 2 = c.Jc.dims.2 + c.Jd.dims.1 := by simp [off]
  have o3 : off [c.Jc.dims.2, c.Jd.dims.1, c.Jc.dims.1, c.Jd.dims.1] 3 = c.Jc.dims.2 + c.Jd.dims.1 + c.Jc.dims.1 := by
    simp [off, Nat.add_assoc]
  by_cases h0 : r < c.Jc.dims.2
  · have := key 0 r (by omega) (by decide) ?_
    · rw [o0] at this; simpa using this
    · refine ⟨⟨r + 1, r + 1, 1 * (diagBlock c.Dx c.δx (c.δx == 0) c.Jc.dims.2).getD r 0⟩, ?_, rfl, rfl⟩
      simp only [if_true, kktW, trL, List.mem_flatMap, List.mem_range]
      refine ⟨1, by omega, ?_⟩
      simp only [one_ne_zero, if_false]
      exact List.mem_map.2 ⟨_, trL_diag _ r (by rw [diagBlock_length _ _ _ _ h.Dx]; exact h0), rfl⟩
  · by_cases h1 : r < c.Jc.dims.2 + c.Jd.dims.1
    · have := key 1 (r - c.Jc.dims.2) (by omega) (by decide)
        ⟨_, trL_diag _ _ (by rw [diagBlock_length _ _ _ _ h.Ds]; omega), rfl, rfl⟩
      rw [o1, show c.Jc.dims.2 + (r - c.Jc.dims.2) = r by omega] at this
      exact this
    · by_cases h2 : r < c.Jc.dims.2 + c.Jd.dims.1 + c.Jc.dims.1
      · have := key 2 (r - (c.Jc.dims.2 + c.Jd.dims.1)) (by omega) (by decide)
          ⟨_, trL_diag _ _ (by rw [diagBlock_length _ _ _ _ h.Dc]; omega), rfl, rfl⟩
        rw [o2, show c.Jc.dims.2 + c.Jd.dims.1 + (r - (c.Jc.dims.2 + c.Jd.dims.1)) = r by omega] at this
        exact this
      · have := key 3 (r - (c.Jc.dims.2 + c.Jd.dims.1 + c.Jc.dims.1)) (by omega) (by decide)
          ⟨_, trL_diag _ _ (by rw [diagBlock_length _ _ _ _ h.Dd]; omega), rfl, rfl⟩
        rw [o3, show c.Jc.dims.2 + c.Jd.dims.1 + c.Jc.dims.1 + (r - (c.Jc.dims.2 + c.Jd.dims.1 + c.Jc.dims.1)) = r by omega] at this
        exact this

end Verif.AugSolve
