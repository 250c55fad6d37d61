import Verif.Model.VecCache
import Verif.Props.DenseVector

/-! # Cached norms, extrema and sums are up to date (C42) -/

set_option linter.unusedSectionVars false
set_option linter.unusedSimpArgs false

namespace Verif.Vec

variable {K : Type} [Field K] [LinearOrder K] [IsStrictOrderedRing K]

/-- What is used of `std::sqrt` and `std::log`. -/
structure MathFns.Lawful (F : MathFns K) : Prop where
  sqrt_mul : ∀ a s : K, 0 ≤ s → F.sqrt (a * a * s) = F.sqrt s * |a|
  log_mul : ∀ a b : K, 0 < a → 0 < b → F.log (a * b) = F.log a + F.log b

/-- Calls that are within the preconditions: the contents have as many elements as the dimension, only vectors of equal dimension are
copied, no largest or smallest element of an empty vector is asked for (`DBG_ASSERT` in the code), and a vector whose sum of logarithms
is cached is multiplied by positive numbers only and has positive elements (otherwise the logarithms are not defined). -/
def VHeap.Ok (h : VHeap K) : VCall K → Prop
  | .create _ v => v.WF
  | .change _ v => v.WF
  | .scal i α => (h.obj i).ctag .sumlogs = (h.obj i).tag → 0 < α ∧ ∀ a ∈ (h.obj i).v.elems, 0 < a
  | .copy i j => (h.obj i).v.dim = (h.obj j).v.dim
  | .query i q => (q = .max ∨ q = .min) → 0 < (h.obj i).v.dim

/-- Runs of the interface that respect the preconditions. -/
inductive Reach (F : MathFns K) : VHeap K → Prop
  | init : Reach F VHeap.init
  | step {h c} : Reach F h → h.Ok c → Reach F (h.step F c).1

/-- The cache of one vector agrees with its contents. -/
def VObj.Good (F : MathFns K) (n : Nat) (o : VObj K) : Prop :=
  o.v.WF ∧ 0 < o.tag ∧ o.tag < n ∧ (∀ q, o.ctag q < n) ∧
    ∀ q, o.ctag q = o.tag → ((q = .max ∨ q = .min) → 0 < o.v.dim) → o.cval q = impl F q o.v

theorem sum_mul_left' {β : Type} (f : β → K) (a : K) (l : List β) : (l.map fun b => a * f b).sum = a * (l.map f).sum := by
  induction l with
  | nil => simp
  | cons b l ih => rw [List.map_cons, List.sum_cons, ih, List.map_cons, List.sum_cons, mul_add]

theorem nrm2_scal (F : MathFns K) (hF : F.Lawful) (v : DV K) (α : K) : (v.scal α).nrm2 F.sqrt = v.nrm2 F.sqrt * |α| := by
  have h0 : F.Lawful := hF
  have hs : ∀ (n : Nat) (s : K), F.sqrt (n * (s * s)) = F.sqrt n * |s| := by
    intro n s
    rw [mul_comm (n : K), hF.sqrt_mul s n (Nat.cast_nonneg n)]
  rw [nrm2_elems F.sqrt hs, nrm2_elems F.sqrt hs, scal_elems, List.map_map]
  rw [← hF.sqrt_mul]
  · congr 1
    rw [← sum_mul_left']
    congr 1
    refine List.map_congr_left fun a _ => ?_
    simp only [Function.comp]; ring
  · apply List.sum_nonneg
    intro x hx
    obtain ⟨a, _, rfl⟩ := List.mem_map.mp hx
    exact mul_self_nonneg a

theorem asum_scal (v : DV K) (α : K) : (v.scal α).asum = v.asum * |α| := by
  rw [asum_elems, asum_elems, scal_elems, List.map_map, mul_comm, ← sum_mul_left']
  congr 1
  refine List.map_congr_left fun a _ => ?_
  simp only [Function.comp, abs_mul]

theorem sum_scal (v : DV K) (α : K) : (v.scal α).sum = v.sum * α := by
  rw [sum_elems, sum_elems, scal_elems, mul_comm]
  have := sum_mul_left' id α v.elems
  simpa using this

theorem amax_scal (v : DV K) (hv : v.WF) (α : K) : (v.scal α).amax = v.amax * |α| := by
  have hw := scal_WF v α hv
  obtain ⟨h1, h2⟩ := amax_elems v hv
  obtain ⟨g1, g2⟩ := amax_elems (v.scal α) hw.1
  rw [scal_elems] at g1 g2
  rcases h2 with ⟨he, h0⟩ | ⟨a, ha, h0⟩
  · rw [he] at g2
    rcases g2 with ⟨-, g0⟩ | ⟨b, hb, -⟩
    · rw [g0, h0]; simp
    · simp at hb
  · rcases g2 with ⟨ge, -⟩ | ⟨b, hb, g0⟩
    · rw [List.map_eq_nil_iff] at ge; rw [ge] at ha; simp at ha
    · obtain ⟨b', hb', rfl⟩ := List.mem_map.mp hb
      apply le_antisymm
      · rw [g0, abs_mul, mul_comm]
        exact mul_le_mul_of_nonneg_right (h1 b' hb') (abs_nonneg α)
      · rw [h0, mul_comm, ← abs_mul]
        exact g1 _ (List.mem_map_of_mem ha)

theorem elems_ne_nil {v : DV K} (hv : v.WF) (hd : 0 < v.dim) : v.elems ≠ [] := by
  intro h
  have := DV.elems_length hv
  rw [h] at this
  simp at this
  omega

theorem max_scal_nonneg (big : K) (v : DV K) (hv : v.WF) (hd : 0 < v.dim) (α : K) (hα : 0 ≤ α) :
    (v.scal α).maxE big = v.maxE big * α := by
  have hw := scal_WF v α hv
  obtain ⟨h1, h2⟩ := (maxE_elems big v hv).resolve_left fun h => elems_ne_nil hv hd h.1
  obtain ⟨g1, g2⟩ := (maxE_elems big (v.scal α) hw.1).resolve_left fun h => elems_ne_nil hw.1 (by rw [hw.2]; exact hd) h.1
  rw [scal_elems] at g1 g2
  obtain ⟨b, hb, e⟩ := List.mem_map.mp g1
  apply le_antisymm
  · rw [← e, mul_comm]; exact mul_le_mul_of_nonneg_right (h2 b hb) hα
  · rw [mul_comm]; exact g2 _ (List.mem_map_of_mem h1)

theorem min_scal_nonneg (big : K) (v : DV K) (hv : v.WF) (hd : 0 < v.dim) (α : K) (hα : 0 ≤ α) :
    (v.scal α).minE big = v.minE big * α := by
  have hw := scal_WF v α hv
  obtain ⟨h1, h2⟩ := (minE_elems big v hv).resolve_left fun h => elems_ne_nil hv hd h.1
  obtain ⟨g1, g2⟩ := (minE_elems big (v.scal α) hw.1).resolve_left fun h => elems_ne_nil hw.1 (by rw [hw.2]; exact hd) h.1
  rw [scal_elems] at g1 g2
  obtain ⟨b, hb, e⟩ := List.mem_map.mp g1
  apply le_antisymm
  · rw [mul_comm]; exact g2 _ (List.mem_map_of_mem h1)
  · rw [← e, mul_comm α]; exact mul_le_mul_of_nonneg_right (h2 b hb) hα

theorem max_scal_neg (big : K) (v : DV K) (hv : v.WF) (hd : 0 < v.dim) (α : K) (hα : α < 0) :
    (v.scal α).maxE big = v.minE big * α := by
  have hw := scal_WF v α hv
  obtain ⟨h1, h2⟩ := (minE_elems big v hv).resolve_left fun h => elems_ne_nil hv hd h.1
  obtain ⟨g1, g2⟩ := (maxE_elems big (v.scal α) hw.1).resolve_left fun h => elems_ne_nil hw.1 (by rw [hw.2]; exact hd) h.1
  rw [scal_elems] at g1 g2
  obtain ⟨b, hb, e⟩ := List.mem_map.mp g1
  apply le_antisymm
  · rw [← e, mul_comm]; exact mul_le_mul_of_nonpos_right (h2 b hb) hα.le
  · rw [mul_comm]; exact g2 _ (List.mem_map_of_mem h1)

theorem min_scal_neg (big : K) (v : DV K) (hv : v.WF) (hd : 0 < v.dim) (α : K) (hα : α < 0) :
    (v.scal α).minE big = v.maxE big * α := by
  have hw := scal_WF v α hv
  obtain ⟨h1, h2⟩ := (maxE_elems big v hv).resolve_left fun h => elems_ne_nil hv hd h.1
  obtain ⟨g1, g2⟩ := (minE_elems big (v.scal α) hw.1).resolve_left fun h => elems_ne_nil hw.1 (by rw [hw.2]; exact hd) h.1
  rw [scal_elems] at g1 g2
  obtain ⟨b, hb, e⟩ := List.mem_map.mp g1
  apply le_antisymm
  · rw [mul_comm]; exact g2 _ (List.mem_map_of_mem h1)
  · rw [← e, mul_comm α]; exact mul_le_mul_of_nonpos_right (h2 b hb) hα.le

theorem sumLogs_scal (F : MathFns K) (hF : F.Lawful) (v : DV K) (hv : v.WF) (α : K) (hα : 0 < α) (hp : ∀ a ∈ v.elems, 0 < a) :
    (v.scal α).sumLogs F.log = if 0 < v.dim then v.sumLogs F.log + v.dim * F.log α else v.sumLogs F.log := by
  have hw := scal_WF v α hv
  have hl := DV.elems_length hv
  rw [sumLogs_elems F.log _ hw.1, sumLogs_elems F.log _ hv, scal_elems, List.map_map]
  have key : ∀ l : List K, (∀ a ∈ l, 0 < a) → (l.map (F.log ∘ (α * ·))).sum = (l.map F.log).sum + l.length * F.log α := by
    intro l
    induction l with
    | nil => simp
    | cons a l ih =>
      intro h
      rw [List.map_cons, List.sum_cons, ih fun b hb => h b (List.mem_cons_of_mem _ hb), List.map_cons, List.sum_cons]
      simp only [Function.comp]
      rw [hF.log_mul α a hα (h a (List.mem_cons_self ..))]
      push_cast [List.length_cons]
      ring
  rw [key _ hp, hl]
  by_cases hd : 0 < v.dim
  · rw [if_pos hd]
  · rw [if_neg hd]
    have : v.dim = 0 := by omega
    simp [this]

/-- The contents after `Scal`, quantity by quantity, in terms of the old quantities. -/
theorem scalCaches_good (F : MathFns K) (hF : F.Lawful) (o : VObj K) (n : Nat) (α : K) (hg : o.Good F n)
    (hlog : o.ctag .sumlogs = o.tag → 0 < α ∧ ∀ a ∈ o.v.elems, 0 < a) :
    (scalCaches F { o with v := o.v.scal α, tag := n } o.tag n α).Good F (n + 1) := by
  obtain ⟨hwf, hpos, hlt, hct, hgood⟩ := hg
  have hw := scal_WF o.v α hwf
  have hne : ∀ q, o.ctag q ≠ n := fun q => (hct q).ne
  have hno : n ≠ o.tag := hlt.ne'
  -- every cache tag after the call is either old or the new tag, and with the new tag the value is right
  have h1 := hgood .nrm2
  have h2 := hgood .asum
  have h3 := hgood .amax
  have h4 := hgood .max
  have h5 := hgood .min
  have h6 := hgood .sum
  have h7 := hgood .sumlogs
  simp only [impl, reduceCtorEq, or_self, false_imp_iff, true_imp_iff, true_or, or_true] at h1 h2 h3 h4 h5 h6 h7
  have rem : ∀ (p : VObj K) (q : Q) (x : K), p.v = o.v.scal α → p.tag = n → (∀ r, p.ctag r < n + 1) →
      (∀ r, p.ctag r = n → ((r = .max ∨ r = .min) → 0 < o.v.dim) → p.cval r = impl F r (o.v.scal α)) →
      (((q = .max ∨ q = .min) → 0 < o.v.dim) → x = impl F q (o.v.scal α)) →
      (p.remember q n x).v = o.v.scal α ∧ (p.remember q n x).tag = n ∧ (∀ r, (p.remember q n x).ctag r < n + 1) ∧
      (∀ r, (p.remember q n x).ctag r = n → ((r = .max ∨ r = .min) → 0 < o.v.dim) →
        (p.remember q n x).cval r = impl F r (o.v.scal α)) := by
    intro p q x hv ht hc hval hx
    refine ⟨hv, ht, ?_, ?_⟩
    · intro r
      by_cases hr : r = q
      · simp [VObj.remember, hr]
      · simp [VObj.remember, hr, hc r]
    · intro r hr1 hr2
      by_cases hr : r = q
      · subst hr; simpa [VObj.remember] using hx hr2
      · simp only [VObj.remember, hr, if_false] at hr1 ⊢
        exact hval r hr1 hr2
  let Inv : VObj K → Prop := fun p => p.v = o.v.scal α ∧ p.tag = n ∧ (∀ r, p.ctag r < n + 1) ∧
      (∀ r, p.ctag r = n → ((r = .max ∨ r = .min) → 0 < o.v.dim) → p.cval r = impl F r (o.v.scal α))
  -- additionally: a cache that still carries the old tag holds the old value
  let Old : VObj K → Prop := fun p => ∀ r, p.ctag r = o.tag → o.ctag r = o.tag ∧ p.cval r = o.cval r
  have remInv : ∀ (p : VObj K) (q : Q) (x : K), Inv p → Old p →
      (((q = .max ∨ q = .min) → 0 < o.v.dim) → x = impl F q (o.v.scal α)) → Inv (p.remember q n x) ∧ Old (p.remember q n x) := by
    intro p q x hI hO hx
    refine ⟨rem p q x hI.1 hI.2.1 hI.2.2.1 hI.2.2.2 hx, ?_⟩
    intro r hr
    by_cases hrq : r = q
    · simp [VObj.remember, hrq] at hr; exact absurd hr hno
    · simp only [VObj.remember, hrq, if_false] at hr ⊢
      exact hO r hr
  have step : ∀ (p : VObj K) (q r : Q) (f : K → K), Inv p → Old p →
      (o.ctag q = o.tag → ((r = .max ∨ r = .min) → 0 < o.v.dim) → f (o.cval q) = impl F r (o.v.scal α)) →
      Inv (if o.tag = p.ctag q then p.remember r n (f (p.cval q)) else p) ∧
      Old (if o.tag = p.ctag q then p.remember r n (f (p.cval q)) else p) := by
    intro p q r f hI hO hf
    by_cases h : o.tag = p.ctag q
    · rw [if_pos h]
      refine remInv p r _ hI hO fun hd => ?_
      obtain ⟨e1, e2⟩ := hO q h.symm
      rw [e2]
      exact hf e1 hd
    · rw [if_neg h]; exact ⟨hI, hO⟩
  have i0 : Inv { o with v := o.v.scal α, tag := n } ∧ Old { o with v := o.v.scal α, tag := n } :=
    ⟨⟨rfl, rfl, fun r => Nat.lt_succ_of_lt (hct r), fun r hr => absurd hr (hne r)⟩, fun r hr => ⟨hr, rfl⟩⟩
  unfold scalCaches
  simp only
  have i1 := step _ .nrm2 .nrm2 (fun c => c * |α|) i0.1 i0.2 (fun e _ => by
    simp only [impl]; rw [nrm2_scal F hF, h1 e])
  generalize (if o.tag = o.ctag Q.nrm2 then VObj.remember _ Q.nrm2 n (o.cval Q.nrm2 * |α|) else _) = p1 at i1 ⊢
  have i2 := step p1 .asum .asum (fun c => c * |α|) i1.1 i1.2 (fun e _ => by
    simp only [impl]; rw [asum_scal, h2 e])
  generalize (if o.tag = p1.ctag Q.asum then p1.remember Q.asum n (p1.cval Q.asum * |α|) else p1) = p2 at i2 ⊢
  have i3 := step p2 .amax .amax (fun c => c * |α|) i2.1 i2.2 (fun e _ => by
    simp only [impl]; rw [amax_scal _ hwf, h3 e])
  generalize (if o.tag = p2.ctag Q.amax then p2.remember Q.amax n (p2.cval Q.amax * |α|) else p2) = p3 at i3 ⊢
  have i4 : Inv (if o.tag = p3.ctag .max then (if 0 ≤ α then p3.remember .max n (p3.cval .max * α) else p3.remember .min n (p3.cval .max * α)) else p3) ∧
      Old (if o.tag = p3.ctag .max then (if 0 ≤ α then p3.remember .max n (p3.cval .max * α) else p3.remember .min n (p3.cval .max * α)) else p3) := by
    by_cases hα : 0 ≤ α
    · simp only [if_pos hα]
      exact step p3 .max .max (fun c => c * α) i3.1 i3.2 (fun e hd => by
        have hd := hd (by simp)
        simp only [impl]; rw [max_scal_nonneg F.big _ hwf hd α hα, h4 e hd])
    · simp only [if_neg hα]
      exact step p3 .max .min (fun c => c * α) i3.1 i3.2 (fun e hd => by
        have hd := hd (by simp)
        simp only [impl]; rw [min_scal_neg F.big _ hwf hd α (not_le.mp hα), h4 e hd])
  generalize (if o.tag = p3.ctag Q.max then (if 0 ≤ α then p3.remember Q.max n (p3.cval Q.max * α) else p3.remember Q.min n (p3.cval Q.max * α)) else p3) = p4 at i4 ⊢
  have i5 : Inv (if o.tag = p4.ctag .min then (if 0 ≤ α then p4.remember .min n (p4.cval .min * α) else p4.remember .max n (p4.cval .min * α)) else p4) ∧
      Old (if o.tag = p4.ctag .min then (if 0 ≤ α then p4.remember .min n (p4.cval .min * α) else p4.remember .max n (p4.cval .min * α)) else p4) := by
    by_cases hα : 0 ≤ α
    · simp only [if_pos hα]
      exact step p4 .min .min (fun c => c * α) i4.1 i4.2 (fun e hd => by
        have hd := hd (by simp)
        simp only [impl]; rw [min_scal_nonneg F.big _ hwf hd α hα, h5 e hd])
    · simp only [if_neg hα]
      exact step p4 .min .max (fun c => c * α) i4.1 i4.2 (fun e hd => by
        have hd := hd (by simp)
        simp only [impl]; rw [max_scal_neg F.big _ hwf hd α (not_le.mp hα), h5 e hd])
  generalize (if o.tag = p4.ctag Q.min then (if 0 ≤ α then p4.remember Q.min n (p4.cval Q.min * α) else p4.remember Q.max n (p4.cval Q.min * α)) else p4) = p5 at i5 ⊢
  have i6 := step p5 .sum .sum (fun c => c * α) i5.1 i5.2 (fun e _ => by
    simp only [impl]; rw [sum_scal, h6 e])
  generalize (if o.tag = p5.ctag Q.sum then p5.remember Q.sum n (p5.cval Q.sum * α) else p5) = p6 at i6 ⊢
  have hdim : p6.v.dim = o.v.dim := by rw [i6.1.1, hw.2]
  have i7 := step p6 .sumlogs .sumlogs (fun c => if 0 < p6.v.dim then c + p6.v.dim * F.log α else c) i6.1 i6.2 (fun e _ => by
    simp only [impl]
    obtain ⟨hα, hp⟩ := hlog e
    rw [sumLogs_scal F hF _ hwf α hα hp, h7 e, hdim])
  obtain ⟨⟨j1, j2, j3, j4⟩, -⟩ := i7
  refine ⟨?_, ?_, ?_, j3, ?_⟩
  · rw [j1]; exact hw.1
  · rw [j2]; omega
  · rw [j2]; omega
  · intro q hq hd
    rw [j1] at hd ⊢
    rw [hw.2] at hd
    rw [j2] at hq
    exact j4 q hq hd

/-- Equal elements give equal quantities: the functions only look at the storage, which `Copy` takes over. -/
theorem impl_copy (F : MathFns K) (y x : DV K) (hd : y.dim = x.dim) (q : Q) : impl F q (y.copy x) = impl F q x := by
  unfold DV.copy
  cases hx : x.hom <;> cases q <;>
    simp [impl, DV.nrm2, DV.asum, DV.amax, DV.maxE, DV.minE, DV.sum, DV.sumLogs, hx, hd]

theorem reach_good (F : MathFns K) (hF : F.Lawful) {h : VHeap K} (hr : Reach F h) : ∀ i, (h.obj i).Good F h.next := by
  induction hr with
  | init =>
    intro i
    refine ⟨fun e => by simp [VHeap.init] at e, by simp [VHeap.init], by simp [VHeap.init], fun q => by simp [VHeap.init], ?_⟩
    intro q hq
    simp [VHeap.init] at hq
  | @step h c hr hok ih =>
    have mono : ∀ {o : VObj K} {n m : Nat}, n ≤ m → o.Good F n → o.Good F m := by
      intro o n m hnm hg
      exact ⟨hg.1, hg.2.1, lt_of_lt_of_le hg.2.2.1 hnm, fun q => lt_of_lt_of_le (hg.2.2.2.1 q) hnm, hg.2.2.2.2⟩
    have hn : 0 < h.next := lt_trans (ih 0).2.1 (ih 0).2.2.1
    cases c with
    | create i v =>
      intro j
      by_cases hj : j = i
      · subst hj
        simp only [VHeap.step, VHeap.create, VHeap.upd, if_true]
        exact ⟨hok, hn, by simp, fun _ => by simp, fun q e => absurd e (by simp; omega)⟩
      · simp only [VHeap.step, VHeap.create, VHeap.upd, hj, if_false]
        exact mono (Nat.le_succ _) (ih j)
    | change i v =>
      intro j
      by_cases hj : j = i
      · subst hj
        simp only [VHeap.step, VHeap.change, VHeap.upd, if_true]
        exact ⟨hok, hn, by simp, fun q => Nat.lt_succ_of_lt ((ih j).2.2.2.1 q),
          fun q e => absurd e ((ih j).2.2.2.1 q).ne⟩
      · simp only [VHeap.step, VHeap.change, VHeap.upd, hj, if_false]
        exact mono (Nat.le_succ _) (ih j)
    | scal i α =>
      intro j
      simp only [VHeap.step, VHeap.scal]
      by_cases hα : α = 1
      · rw [if_neg (not_not.mpr hα)]; exact ih j
      rw [if_pos hα]
      by_cases hj : j = i
      · subst hj
        simp only [VHeap.change, VHeap.upd, if_true]
        exact scalCaches_good F hF (h.obj j) h.next α (ih j) hok
      · simp only [VHeap.change, VHeap.upd, hj, if_false]
        exact mono (Nat.le_succ _) (ih j)
    | copy i k =>
      intro j
      by_cases hj : j = i
      · subst hj
        simp only [VHeap.step, VHeap.copy, VHeap.change, VHeap.upd, if_true]
        have hok : (h.obj j).v.dim = (h.obj k).v.dim := hok
        have hw := copy_WF (h.obj j).v (h.obj k).v (ih k).1 hok.symm
        -- the source after the change: either untouched, or the vector itself without valid cache
        generalize hx : (if k = j then ({ h.obj j with v := (h.obj j).v.copy (h.obj k).v, tag := h.next } : VObj K) else h.obj k) = x
        have hxg : ∀ q, x.tag = x.ctag q → ((q = .max ∨ q = .min) → 0 < (h.obj k).v.dim) → x.cval q = impl F q (h.obj k).v := by
          intro q hq hd
          by_cases hk : k = j
          · rw [if_pos hk] at hx
            rw [← hx] at hq
            exact absurd hq.symm ((ih j).2.2.2.1 q).ne
          · rw [if_neg hk] at hx
            rw [← hx] at hq ⊢
            exact (ih k).2.2.2.2 q hq.symm hd
        have key : ∀ (l : List Q) (p : VObj K), p.v = (h.obj j).v.copy (h.obj k).v → p.tag = h.next →
            (∀ r, p.ctag r < h.next + 1) →
            (∀ r, p.ctag r = h.next → ((r = .max ∨ r = .min) → 0 < (h.obj k).v.dim) → p.cval r = impl F r (h.obj k).v) →
            (l.foldl (takeOver x) p).Good F (h.next + 1) := by
          intro l
          induction l with
          | nil =>
            intro p e1 e2 e3 e4
            refine ⟨by rw [List.foldl_nil, e1]; exact hw.1, by rw [List.foldl_nil, e2]; exact hn,
              by rw [List.foldl_nil, e2]; omega, e3, ?_⟩
            intro q hq hd
            rw [List.foldl_nil] at hq hd ⊢
            rw [e2] at hq
            rw [e1, impl_copy F _ _ hok]
            refine e4 q hq ?_
            rw [e1, hw.2, hok] at hd
            exact hd
          | cons r l ihl =>
            intro p e1 e2 e3 e4
            rw [List.foldl_cons]
            unfold takeOver
            by_cases ht : x.tag = x.ctag r
            · rw [if_pos ht]
              refine ihl _ e1 e2 ?_ ?_
              · intro s
                by_cases hs : s = r
                · simp [VObj.remember, hs, e2]
                · simp only [VObj.remember, hs, if_false]; exact e3 s
              · intro s hs1 hs2
                by_cases hs : s = r
                · subst hs
                  simp only [VObj.remember, if_true]
                  exact hxg s ht hs2
                · simp only [VObj.remember, hs, if_false] at hs1 ⊢
                  exact e4 s hs1 hs2
            · rw [if_neg ht]; exact ihl p e1 e2 e3 e4
        refine key _ _ rfl rfl (fun r => Nat.lt_succ_of_lt ((ih j).2.2.2.1 r)) ?_
        intro r hr
        exact absurd hr ((ih j).2.2.2.1 r).ne
      · simp only [VHeap.step, VHeap.copy, VHeap.change, VHeap.upd, hj, if_false]
        exact mono (Nat.le_succ _) (ih j)
    | query i q =>
      intro j
      simp only [VHeap.step, VHeap.query]
      by_cases hc : (h.obj i).ctag q = (h.obj i).tag
      · rw [if_neg (not_not.mpr hc)]; exact ih j
      · rw [if_pos hc]
        by_cases hj : j = i
        · subst hj
          simp only [VHeap.upd, if_true]
          obtain ⟨g1, g2, g3, g4, g5⟩ := ih j
          refine ⟨g1, g2, g3, ?_, ?_⟩
          · intro r
            by_cases hr : r = q
            · simp only [VObj.remember, hr, if_true]; exact g3
            · simp only [VObj.remember, hr, if_false]; exact g4 r
          · intro r hr1 hr2
            by_cases hr : r = q
            · subst hr; simp [VObj.remember]
            · simp only [VObj.remember, hr, if_false] at hr1 hr2 ⊢
              exact g5 r hr1 hr2
        · simp only [VHeap.upd, hj, if_false]; exact ih j

/-- **C42** Whatever was done with the vectors before, norms, extrema and sums are those of the current contents. -/
theorem query_current (F : MathFns K) (hF : F.Lawful) {h : VHeap K} (hr : Reach F h) (i : Nat) (q : Q) (hok : h.Ok (.query i q)) :
    (h.step F (.query i q)).2 = some (impl F q (h.obj i).v) := by
  obtain ⟨-, -, -, -, hg⟩ := reach_good F hF hr i
  simp only [VHeap.step, VHeap.query]
  by_cases hc : (h.obj i).ctag q = (h.obj i).tag
  · rw [if_neg (not_not.mpr hc)]
    exact congrArg some (hg q hc hok)
  · rw [if_pos hc]

/-- **C42** ... and asking does not change any contents. -/
theorem query_pure (F : MathFns K) (h : VHeap K) (i j : Nat) (q : Q) : ((h.step F (.query i q)).1.obj j).v = (h.obj j).v := by
  simp only [VHeap.step, VHeap.query]
  by_cases hc : (h.obj i).ctag q = (h.obj i).tag
  · rw [if_neg (not_not.mpr hc)]
  · rw [if_pos hc]
    by_cases hj : j = i
    · subst hj; simp [VHeap.upd, VObj.remember]
    · simp [VHeap.upd, hj]

/-! ### Instances -/

/-- Functions over `ℚ` with these laws exist (the trivial ones). -/
def trivialFns : MathFns ℚ := ⟨fun _ => 0, fun _ => 0, 1000⟩

theorem trivialFns_lawful : trivialFns.Lawful := ⟨fun _ _ _ => by simp [trivialFns], fun _ _ _ _ => by simp [trivialFns]⟩

/-- The run: two vectors, extrema asked for, scaled by a negative number, copied, asked again. -/
example :
    let F := trivialFns
    let h0 : VHeap ℚ := VHeap.init
    let h1 := (h0.step F (.create 0 (DV.ofList [1, -3, 2]))).1
    let h2 := (h1.step F (.create 1 (DV.ofList [0, 0, 0]))).1
    let h3 := (h2.step F (.query 0 .max)).1
    let h4 := (h3.step F (.scal 0 (-2))).1
    let h5 := (h4.step F (.copy 1 0)).1
    (h3.step F (.query 0 .max)).2 = some 2 ∧ (h4.obj 0).ctag .min = (h4.obj 0).tag ∧ (h5.obj 1).ctag .min = (h5.obj 1).tag ∧
      (h5.step F (.query 1 .min)).2 = some (-4) ∧ (h5.step F (.query 1 .max)).2 = some 6 := by
  decide +kernel

/-- **C42, limit** The precondition on empty vectors is needed: scaling changes the cached "largest element" of a vector without
elements. -/
theorem empty_max_scaled :
    let F := trivialFns
    let h1 := ((VHeap.init : VHeap ℚ).step F (.query 0 .max)).1
    let h2 := (h1.step F (.scal 0 2)).1
    ((VHeap.init : VHeap ℚ).step F (.query 0 .max)).2 = some (-1000) ∧ (h2.step F (.query 0 .max)).2 = some (-2000) := by
  decide +kernel

end Verif.Vec
