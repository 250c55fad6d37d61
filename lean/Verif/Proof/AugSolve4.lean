import Verif.Proof.AugSolve3
import Verif.Proof.PDSystem2

/-! # The compound vectors, and the augmented system from the solution of the linear system -/

namespace Verif.AugSolve
open Verif.Matrix Finset
open Verif.Triplet
open Verif.PDSystem (AugArgs kkt Aug mv mtv)

set_option linter.unusedSectionVars false
set_option linter.unusedSimpArgs false
set_option linter.unusedVariables false

variable {K B : Type} [Field K] [DecidableEq K]

theorem Quad.vec_dim (q : Quad K) : q.vec.dim = q.x.dim + q.s.dim + q.c.dim + q.d.dim := by
  simp [Quad.vec, Vec.dim, List.range_succ, Nat.add_assoc]

theorem Quad.vec_known {q : Quad K} (hx : q.x.known) (hs : q.s.known) (hc : q.c.known) (hd : q.d.known) : q.vec.known := by
  intro i hi
  simp only
  split
  · exact hx
  · split
    · exact hs
    · split
      · exact hc
      · exact hd

theorem Quad.vec_elems (q : Quad K) : q.vec.elems = q.x.elems ++ (q.s.elems ++ (q.c.elems ++ q.d.elems)) := by
  simp [Quad.vec, Vec.elems, List.range_succ]

theorem Quad.ofVec_vec (q : Quad K) : q.ofVec q.vec = q := by
  cases q; simp [Quad.vec, Quad.ofVec]

/-- the solution array is distributed to the four vectors. -/
theorem quad_put {a : AugArgs K} {q : Quad K} (hq : q.Dim a) (n p : Nat) (arr : Nat → K) (out : Vec K)
    (h : putInVector q.vec n p arr = some out) :
    (q.ofVec out).Dim a ∧
      (q.ofVec out).x.elems = (List.range a.Jc.dims.2).map (fun i => arr (p + i)) ∧
      (q.ofVec out).s.elems = (List.range a.Jd.dims.1).map (fun i => arr (p + a.Jc.dims.2 + i)) ∧
      (q.ofVec out).c.elems = (List.range a.Jc.dims.1).map (fun i => arr (p + a.Jc.dims.2 + a.Jd.dims.1 + i)) ∧
      (q.ofVec out).d.elems = (List.range a.Jd.dims.1).map (fun i => arr (p + a.Jc.dims.2 + a.Jd.dims.1 + a.Jc.dims.1 + i)) := by
  obtain ⟨⟨x1, x2⟩, ⟨s1, s2⟩, ⟨c1, c2⟩, ⟨d1, d2⟩⟩ := hq
  obtain ⟨x', ex1, ex2, ex3, ex4⟩ := putInVector_correct q.x x1 p arr
  obtain ⟨s', es1, es2, es3, es4⟩ := putInVector_correct q.s s1 (p + q.x.dim) arr
  obtain ⟨c', ec1, ec2, ec3, ec4⟩ := putInVector_correct q.c c1 (p + q.x.dim + q.s.dim) arr
  obtain ⟨d', ed1, ed2, ed3, ed4⟩ := putInVector_correct q.d d1 (p + q.x.dim + q.s.dim + q.c.dim) arr
  simp only [Quad.vec, putInVector, List.range_succ, List.range_zero, List.nil_append, List.cons_append, List.foldlM_cons, List.foldlM_nil] at h
  simp [ex1, es1, ec1, ed1, upd] at h
  subst h
  simp only [Quad.ofVec, upd]
  rw [x2] at es4 ec4 ed4 ex4
  rw [s2] at es4 ec4 ed4
  rw [c2] at ec4 ed4
  rw [d2] at ed4
  refine ⟨⟨?_, ?_, ?_, ?_⟩, ?_, ?_, ?_, ?_⟩
  · exact ⟨by simpa using ex2, by simpa using ex3.trans x2⟩
  · exact ⟨by simpa using es2, by simpa using es3.trans s2⟩
  · exact ⟨by simpa using ec2, by simpa using ec3.trans c2⟩
  · exact ⟨by simpa using ed2, by simpa using ed3.trans d2⟩
  · simpa using ex4
  · simpa using es4
  · simpa using ec4
  · simpa using ed4

theorem elems_length (v : Vec K) (h : v.known) : v.elems.length = v.dim := by
  induction v with
  | hom d s => simp [Vec.elems, Vec.dim]
  | dense l => simp [Vec.elems, Vec.dim]
  | other d => exact h.elim
  | comp k c ih =>
    simp only [Vec.elems, Vec.dim, List.length_flatMap]
    congr 1
    refine List.map_congr_left (fun i hi => ih i (h i (by simpa using hi)))

theorem map_getD (n : Nat) (f : Nat → K) (i : Nat) (hi : i < n) : ((List.range n).map f).getD i 0 = f i := by
  simp [List.getD, hi]

/-- a solution of the linear system, distributed to the four vectors, solves the augmented system. -/
theorem solves_quad {a : AugArgs K} {oldW : Mat K} (ha : ArgsOK a) (hW : WOK a.Jc.dims.2 (a.W.getD oldW)) {q rq : Quad K} (hq : q.Dim a)
    (hr : rq.Dim a) (n p : Nat) (arr : Nat → K) (out : Vec K) (h : putInVector q.vec n p arr = some out)
    (hs : ∀ r, r < (kkt oldW a).dims.1 → ∑ c ∈ range (kkt oldW a).dims.1, ent (kkt oldW a) r c * arr (p + c) = rq.vec.elems.getD r 0) :
    (q.ofVec out).Dim a ∧ SolvesQuad a (q.ofVec out) rq := by
  obtain ⟨hd, e1, e2, e3, e4⟩ := quad_put hq n p arr out h
  refine ⟨hd, ?_⟩
  have hok : a.OK oldW := ⟨hW.dims, ha.Jdd, ha.Dx, ha.Ds, ha.Dc, ha.Dd⟩
  set q' := q.ofVec out with hq'
  set v : Aug K := ⟨q'.x.elems, q'.s.elems, q'.c.elems, q'.d.elems⟩ with hv
  set r : Aug K := ⟨rq.x.elems, rq.s.elems, rq.c.elems, rq.d.elems⟩ with hrr
  have hvd : v.x.length = a.Jc.dims.2 ∧ v.s.length = a.Jd.dims.1 ∧ v.c.length = a.Jc.dims.1 ∧ v.d.length = a.Jd.dims.1 := by
    simp only [hv, e1, e2, e3, e4, List.length_map, List.length_range]
    exact ⟨trivial, trivial, trivial, trivial⟩
  have hrd : r.x.length = a.Jc.dims.2 ∧ r.s.length = a.Jd.dims.1 ∧ r.c.length = a.Jc.dims.1 ∧ r.d.length = a.Jd.dims.1 :=
    ⟨(elems_length _ hr.x.1).trans hr.x.2, (elems_length _ hr.s.1).trans hr.s.2, (elems_length _ hr.c.1).trans hr.c.2,
      (elems_length _ hr.d.1).trans hr.d.2⟩
  have hF := Verif.PDSystem.flat_get v _ _ _ _ hvd.1 hvd.2.1 hvd.2.2.1 hvd.2.2.2
  have hdd := kkt_dims oldW a
  have hflat : ∀ j, j < (kkt oldW a).dims.1 → v.flat.getD j 0 = arr (p + j) := by
    intro j hj
    rw [hdd] at hj
    simp only at hj
    by_cases h1 : j < a.Jc.dims.2
    · rw [hF.1 j h1]; simp only [hv, e1]; exact map_getD _ _ _ h1
    by_cases h2 : j < a.Jc.dims.2 + a.Jd.dims.1
    · obtain ⟨t, rfl⟩ : ∃ t, j = a.Jc.dims.2 + t := ⟨j - a.Jc.dims.2, by omega⟩
      rw [hF.2.1 t (by omega)]; simp only [hv, e2]; rw [map_getD _ _ _ (by omega)]; congr 1; omega
    by_cases h3 : j < a.Jc.dims.2 + a.Jd.dims.1 + a.Jc.dims.1
    · obtain ⟨t, rfl⟩ : ∃ t, j = a.Jc.dims.2 + a.Jd.dims.1 + t := ⟨j - a.Jc.dims.2 - a.Jd.dims.1, by omega⟩
      rw [hF.2.2.1 t (by omega)]; simp only [hv, e3]; rw [map_getD _ _ _ (by omega)]; congr 1; omega
    · obtain ⟨t, rfl⟩ : ∃ t, j = a.Jc.dims.2 + a.Jd.dims.1 + a.Jc.dims.1 + t := ⟨j - a.Jc.dims.2 - a.Jd.dims.1 - a.Jc.dims.1, by omega⟩
      rw [hF.2.2.2 t (by omega)]; simp only [hv, e4]; rw [map_getD _ _ _ (by omega)]; congr 1; omega
  have H : ∀ i, i < (kkt oldW a).dims.1 → mv (kkt oldW a) v.flat i = r.flat.getD i 0 := by
    intro i hi
    have := hs i hi
    rw [Quad.vec_elems] at this
    have e : r.flat = rq.x.elems ++ (rq.s.elems ++ (rq.c.elems ++ rq.d.elems)) := rfl
    rw [e, ← this]
    unfold mv
    have d2 : (kkt oldW a).dims.2 = (kkt oldW a).dims.1 := by rw [hdd]
    rw [d2]
    exact Finset.sum_congr rfl (fun c hc => by rw [hflat c (by simpa using hc)])
  have S := (Verif.PDSystem.kkt_iff oldW a hok v r hvd hrd).1 H
  refine ⟨fun i hi => ?_, S.s, S.c, S.d⟩
  have := S.x i hi
  rw [← this]
  unfold Verif.PDSystem.AugArgs.wf
  cases hw : a.W with
  | none => simp [hw, Verif.PDSystem.optDiag, hv]
  | some W => simp [hw, Verif.PDSystem.optDiag, hv]

end Verif.AugSolve
