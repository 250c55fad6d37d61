import Verif.Model.CompoundVector
import Verif.Props.DenseVector

/-! # Compound vectors behave like the concatenation of their components (C43) -/

set_option linter.unusedSectionVars false
set_option linter.unusedSimpArgs false

namespace Verif.Vec

variable {K : Type} [Field K] [LinearOrder K] [IsStrictOrderedRing K]

/-- Specification of a vector type: `elems` are the elements, `Ok` the well-formed vectors, `Same` vectors of one space. -/
structure VecSpec (K V : Type) where
  elems : V → List K
  Ok : V → Prop
  Same : V → V → Prop

/-- What all vector types have to satisfy.  `LawfulBin` is the law of one element-wise operation. -/
def LawfulBin {V : Type} (S : VecSpec K V) (op : V → V → V) (f : K → K → K) : Prop :=
  ∀ y x, S.Ok y → S.Ok x → S.Same y x → S.elems (op y x) = List.zipWith f (S.elems y) (S.elems x)

structure VecLaws {V : Type} (o : VecOps K V) (S : VecSpec K V) : Prop where
  length : ∀ y, S.Ok y → (S.elems y).length = o.dim y
  same : ∀ y x, S.Ok y → S.Ok x → S.Same y x → o.dim y = o.dim x
  copy : LawfulBin S o.copy fun _ b => b
  set : ∀ y s, S.Ok y → S.elems (o.set y s) = List.replicate (o.dim y) s
  scal : ∀ y α, S.Ok y → S.elems (o.scal y α) = (S.elems y).map (α * ·)
  axpy : ∀ α, LawfulBin S (fun y x => o.axpy y α x) fun a b => a + α * b
  multiply : LawfulBin S o.multiply (· * ·)
  divide : LawfulBin S o.divide (· / ·)
  eMax : LawfulBin S o.eMax max
  eMin : LawfulBin S o.eMin min
  mapE : ∀ f y, S.Ok y → S.elems (o.mapE f y) = (S.elems y).map f
  dot : ∀ y x, S.Ok y → S.Ok x → S.Same y x → o.dot y x = (List.zipWith (· * ·) (S.elems y) (S.elems x)).sum
  asum : ∀ y, S.Ok y → o.asum y = ((S.elems y).map fun a => |a|).sum
  amax : ∀ y, S.Ok y → (∀ a ∈ S.elems y, |a| ≤ o.amax y) ∧ ((S.elems y = [] ∧ o.amax y = 0) ∨ ∃ a ∈ S.elems y, o.amax y = |a|)
  maxE : ∀ big y, S.Ok y → (∀ a ∈ S.elems y, -big ≤ a) →
    (S.elems y = [] ∧ o.maxE big y = -big) ∨ (o.maxE big y ∈ S.elems y ∧ ∀ a ∈ S.elems y, a ≤ o.maxE big y)
  minE : ∀ big y, S.Ok y → (∀ a ∈ S.elems y, a ≤ big) →
    (S.elems y = [] ∧ o.minE big y = big) ∨ (o.minE big y ∈ S.elems y ∧ ∀ a ∈ S.elems y, o.minE big y ≤ a)
  sum : ∀ y, S.Ok y → o.sum y = (S.elems y).sum
  sumLogs : ∀ log y, S.Ok y → o.sumLogs log y = ((S.elems y).map log).sum
  nrm2 : ∀ sqrt : K → K, (∀ (n : Nat) (s : K), sqrt (n * (s * s)) = sqrt n * |s|) → (∀ s : K, 0 ≤ s → sqrt s * sqrt s = s) →
    ∀ y, S.Ok y → o.nrm2 sqrt y = sqrt ((S.elems y).map fun a => a * a).sum
  addTwo : ∀ y a v1 b v2 c, S.Ok y → S.Ok v1 → S.Ok v2 → S.Same y v1 → S.Same y v2 → ¬(c = 1 ∧ a = 0 ∧ b = 1) →
    S.elems (o.addTwo y a v1 b v2 c) = lin c (S.elems y) a (S.elems v1) b (S.elems v2)
  fracToBound : ∀ x δ τ, S.Ok x → S.Ok δ → S.Same x δ → 0 < τ → (∀ a ∈ S.elems x, 0 < a) →
    MaxStep τ (S.elems x) (S.elems δ) (o.fracToBound x δ τ)
  addQuotient : ∀ y a z s c, S.Ok y → S.Ok z → S.Ok s → S.Same y z → S.Same y s →
    S.elems (o.addQuotient y a z s c) = zip3 (fun u p q => c * u + a * p / q) (S.elems y) (S.elems z) (S.elems s)

/-- Dense vectors. -/
def denseSpec : VecSpec K (DV K) := ⟨DV.elems, DV.WF, fun y x => y.dim = x.dim⟩

theorem zipWith_snd {α β : Type} : ∀ (l : List α) (m : List β), l.length = m.length → List.zipWith (fun _ b => b) l m = m
  | [], [], _ => rfl
  | _ :: l, _ :: m, h => by simp [zipWith_snd l m (by simpa using h)]

/-- **C26** All laws hold for dense vectors, except for the case of `addTwo_wrong`. -/
theorem dense_laws : VecLaws (denseOps : VecOps K (DV K)) denseSpec where
  length y hy := DV.elems_length hy
  same _ _ _ _ h := h
  copy y x hy hx h := by
    show (y.copy x).elems = _
    rw [copy_elems y x h.symm]
    exact (zipWith_snd y.elems x.elems (by rw [DV.elems_length hy, DV.elems_length hx]; exact h)).symm
  set y s _ := set_elems y s
  scal y α _ := scal_elems y α
  axpy α y x hy hx h := axpy_elems y α x hy hx h.symm
  multiply y x hy hx h := multiply_elems y x hy hx h.symm
  divide y x hy hx h := divide_elems y x hy hx h.symm
  eMax y x hy hx h := eMax_elems y x hy hx h.symm
  eMin y x hy hx h := eMin_elems y x hy hx h.symm
  mapE f y _ := mapE_elems f y
  dot y x hy hx h := dot_elems y x hy hx h.symm
  asum y _ := asum_elems y
  amax y hy := amax_elems y hy
  maxE big y hy _ := maxE_elems big y hy
  minE big y hy _ := minE_elems big y hy
  sum y _ := sum_elems y
  sumLogs log y hy := sumLogs_elems log y hy
  nrm2 sqrt hs _ y _ := nrm2_elems sqrt hs y
  addTwo y a v1 b v2 c hy h1 h2 d1 d2 hb :=
    addTwo_elems_partial _ y a v1 b v2 c hy h1 h2 d1.symm d2.symm (by simp) (Or.inl hb)
  fracToBound x δ τ hx hδ h hτ hp := fracToBound_max x δ τ hx hδ h.symm hτ hp
  addQuotient y a z s c hy hz hs d1 d2 := addQuotient_elems _ y a z s c hy hz hs d1.symm d2.symm

/-- Compound vectors: the elements are those of the components one after the other. -/
def compSpec {V : Type} (S : VecSpec K V) : VecSpec K (List V) :=
  ⟨fun y => y.flatMap S.elems, fun y => ∀ v ∈ y, S.Ok v, fun y x => List.Forall₂ S.Same y x⟩

theorem comp_bin {V : Type} {o : VecOps K V} {S : VecSpec K V} (L : VecLaws o S) {op : V → V → V} {f : K → K → K}
    (h : LawfulBin S op f) : LawfulBin (compSpec S) (List.zipWith op) f := by
  intro y x hy hx hs
  induction hs with
  | nil => simp [compSpec]
  | @cons v w ys xs hvw hs ih =>
    have hv : S.Ok v := hy v (List.mem_cons_self ..)
    have hw : S.Ok w := hx w (List.mem_cons_self ..)
    have ih := ih (fun u hu => hy u (List.mem_cons_of_mem _ hu)) fun u hu => hx u (List.mem_cons_of_mem _ hu)
    simp only [compSpec, List.zipWith_cons_cons, List.flatMap_cons] at ih ⊢
    rw [List.zipWith_append (by rw [L.length v hv, L.length w hw, L.same v w hv hw hvw]), ih, h v w hv hw hvw]

theorem comp_fold {V : Type} (f : V → K) (y : List V) (s : K) : y.foldl (fun d v => d + f v) s = s + (y.map f).sum :=
  foldl_add_map f y s

theorem comp_sum {V : Type} (f : V → K) (g : V → List K) (y : List V) (h : ∀ v ∈ y, f v = (g v).sum) :
    y.foldl (fun d v => d + f v) 0 = (y.flatMap g).sum := by
  rw [comp_fold, zero_add]
  induction y with
  | nil => simp
  | cons v y ih =>
    rw [List.map_cons, List.sum_cons, List.flatMap_cons, List.sum_append, h v (List.mem_cons_self ..),
      ih fun u hu => h u (List.mem_cons_of_mem _ hu)]

theorem comp_zip3 {V : Type} {o : VecOps K V} {S : VecSpec K V} (L : VecLaws o S) (op : V → V → V → V) (f : K → K → K → K)
    (h : ∀ y z s, S.Ok y → S.Ok z → S.Ok s → S.Same y z → S.Same y s → S.elems (op y z s) = zip3 f (S.elems y) (S.elems z) (S.elems s))
    (y z s : List V) (hy : (compSpec S).Ok y) (hz : (compSpec S).Ok z) (hs : (compSpec S).Ok s) (h1 : (compSpec S).Same y z)
    (h2 : (compSpec S).Same y s) :
    (compSpec S).elems (zipComps op y z s) = zip3 f ((compSpec S).elems y) ((compSpec S).elems z) ((compSpec S).elems s) := by
  induction y generalizing z s with
  | nil =>
    cases h1; cases h2
    simp [compSpec, zipComps, zip3]
  | cons v ys ih =>
    cases h1 with
    | @cons _ w _ zs hvw h1 =>
      cases h2 with
      | @cons _ u _ ss hvu h2 =>
        have hv : S.Ok v := hy v (List.mem_cons_self ..)
        have hw : S.Ok w := hz w (List.mem_cons_self ..)
        have hu : S.Ok u := hs u (List.mem_cons_self ..)
        have ih := ih zs ss (fun u hu => hy u (List.mem_cons_of_mem _ hu)) (fun u hu => hz u (List.mem_cons_of_mem _ hu))
          (fun u hu => hs u (List.mem_cons_of_mem _ hu)) h1 h2
        have l1 := L.length v hv
        have l2 := L.length w hw
        have l3 := L.length u hu
        have e1 := L.same v w hv hw hvw
        have e2 := L.same v u hv hu hvu
        simp only [compSpec, zipComps, List.flatMap_cons] at ih ⊢
        rw [ih, h v w u hv hw hu hvw hvu]
        unfold zip3
        rw [List.zipWith_append (by omega), List.zipWith_append (by simp; omega)]

theorem lin_eq_zip3 (c : K) (u : List K) (a : K) (p : List K) (b : K) (q : List K) :
    lin c u a p b q = zip3 (fun u p q => c * u + a * p + b * q) u p q := by
  unfold lin zip3
  induction u generalizing p q with
  | nil => simp
  | cons x u ih =>
    cases p with
    | nil => simp
    | cons y p =>
      cases q with
      | nil => simp
      | cons z q =>
        simp only [List.map_cons, List.zipWith_cons_cons]
        rw [ih]

theorem foldl_max_if {V : Type} (P : V → Prop) [DecidablePred P] (f : V → K) (y : List V) (m : K) :
    let r := y.foldl (fun m v => if P v then max m (f v) else m) m
    m ≤ r ∧ (∀ v ∈ y, P v → f v ≤ r) ∧ (r = m ∨ ∃ v ∈ y, P v ∧ r = f v) := by
  induction y generalizing m with
  | nil => simp
  | cons v y ih =>
    simp only [List.foldl_cons]
    by_cases hv : P v
    · obtain ⟨h1, h2, h3⟩ := ih (max m (f v))
      simp only [if_pos hv]
      refine ⟨le_trans (le_max_left _ _) h1, ?_, ?_⟩
      · intro w hw hP
        rcases List.mem_cons.mp hw with rfl | hw
        · exact le_trans (le_max_right _ _) h1
        · exact h2 w hw hP
      · rcases h3 with h | ⟨w, hw, hP, h⟩
        · rcases max_choice m (f v) with hm | hm
          · left; rw [h, hm]
          · right; exact ⟨v, List.mem_cons_self .., hv, by rw [h, hm]⟩
        · exact Or.inr ⟨w, List.mem_cons_of_mem _ hw, hP, h⟩
    · obtain ⟨h1, h2, h3⟩ := ih m
      simp only [if_neg hv]
      refine ⟨h1, ?_, ?_⟩
      · intro w hw hP
        rcases List.mem_cons.mp hw with rfl | hw
        · exact absurd hP hv
        · exact h2 w hw hP
      · rcases h3 with h | ⟨w, hw, hP, h⟩
        · exact Or.inl h
        · exact Or.inr ⟨w, List.mem_cons_of_mem _ hw, hP, h⟩

theorem foldl_min_if {V : Type} (P : V → Prop) [DecidablePred P] (f : V → K) (y : List V) (m : K) :
    let r := y.foldl (fun m v => if P v then min m (f v) else m) m
    r ≤ m ∧ (∀ v ∈ y, P v → r ≤ f v) ∧ (r = m ∨ ∃ v ∈ y, P v ∧ r = f v) := by
  induction y generalizing m with
  | nil => simp
  | cons v y ih =>
    simp only [List.foldl_cons]
    by_cases hv : P v
    · obtain ⟨h1, h2, h3⟩ := ih (min m (f v))
      simp only [if_pos hv]
      refine ⟨le_trans h1 (min_le_left _ _), ?_, ?_⟩
      · intro w hw hP
        rcases List.mem_cons.mp hw with rfl | hw
        · exact le_trans h1 (min_le_right _ _)
        · exact h2 w hw hP
      · rcases h3 with h | ⟨w, hw, hP, h⟩
        · rcases min_choice m (f v) with hm | hm
          · left; rw [h, hm]
          · right; exact ⟨v, List.mem_cons_self .., hv, by rw [h, hm]⟩
        · exact Or.inr ⟨w, List.mem_cons_of_mem _ hw, hP, h⟩
    · obtain ⟨h1, h2, h3⟩ := ih m
      simp only [if_neg hv]
      refine ⟨h1, ?_, ?_⟩
      · intro w hw hP
        rcases List.mem_cons.mp hw with rfl | hw
        · exact absurd hP hv
        · exact h2 w hw hP
      · rcases h3 with h | ⟨w, hw, hP, h⟩
        · exact Or.inl h
        · exact Or.inr ⟨w, List.mem_cons_of_mem _ hw, hP, h⟩

theorem mem_zip_flatMap {V : Type} (g : V → List K) {y x : List V} (hl : List.Forall₂ (fun v w => (g v).length = (g w).length) y x)
    (pd : K × K) :
    pd ∈ List.zip (y.flatMap g) (x.flatMap g) ↔ ∃ vw ∈ List.zip y x, pd ∈ List.zip (g vw.1) (g vw.2) := by
  induction hl with
  | nil => simp
  | @cons v w ys xs hvw hs ih =>
    rw [List.flatMap_cons, List.flatMap_cons, List.zip_append hvw, List.mem_append, ih, List.zip_cons_cons]
    simp

/-- **C43** If all components satisfy the laws of vectors, so does the compound vector. -/
theorem comp_laws {V : Type} {o : VecOps K V} {S : VecSpec K V} (L : VecLaws o S) : VecLaws (compOps o) (compSpec S) where
  length y hy := by
    simp only [compSpec, compOps, List.length_flatMap]
    congr 1
    exact List.map_congr_left fun v hv => L.length v (hy v hv)
  same y x hy hx hs := by
    simp only [compOps]
    induction hs with
    | nil => rfl
    | @cons v w ys xs hvw hs ih =>
      rw [List.map_cons, List.sum_cons, List.map_cons, List.sum_cons,
        L.same v w (hy v (List.mem_cons_self ..)) (hx w (List.mem_cons_self ..)) hvw,
        ih (fun u hu => hy u (List.mem_cons_of_mem _ hu)) fun u hu => hx u (List.mem_cons_of_mem _ hu)]
  copy := comp_bin L L.copy
  set y s hy := by
    simp only [compOps, compSpec, List.flatMap_map]
    induction y with
    | nil => simp
    | cons v y ih =>
      rw [List.flatMap_cons, List.map_cons, List.sum_cons, L.set v s (hy v (List.mem_cons_self ..)),
        ih fun u hu => hy u (List.mem_cons_of_mem _ hu)]
      simp
  scal y α hy := by
    simp only [compOps, compSpec, List.flatMap_map, List.map_flatMap]
    exact List.flatMap_congr fun v hv => L.scal v α (hy v hv)
  axpy α := comp_bin L (L.axpy α)
  multiply := comp_bin L L.multiply
  divide := comp_bin L L.divide
  eMax := comp_bin L L.eMax
  eMin := comp_bin L L.eMin
  mapE f y hy := by
    simp only [compOps, compSpec, List.flatMap_map, List.map_flatMap]
    exact List.flatMap_congr fun v hv => L.mapE f v (hy v hv)
  dot y x hy hx hs := by
    simp only [compOps, compSpec]
    rw [foldl_add_map (fun vw : V × V => o.dot vw.1 vw.2), zero_add]
    induction hs with
    | nil => simp
    | @cons v w ys xs hvw hs ih =>
      have hv : S.Ok v := hy v (List.mem_cons_self ..)
      have hw : S.Ok w := hx w (List.mem_cons_self ..)
      rw [List.zip_cons_cons, List.map_cons, List.sum_cons, List.flatMap_cons, List.flatMap_cons,
        List.zipWith_append (by rw [L.length v hv, L.length w hw, L.same v w hv hw hvw]), List.sum_append, L.dot v w hv hw hvw,
        ih (fun u hu => hy u (List.mem_cons_of_mem _ hu)) fun u hu => hx u (List.mem_cons_of_mem _ hu)]
  asum y hy := by
    simp only [compOps, compSpec, List.map_flatMap]
    exact comp_sum _ _ y fun v hv => L.asum v (hy v hv)
  amax y hy := by
    simp only [compOps, compSpec]
    obtain ⟨h1, h2, h3⟩ := foldl_max_if (fun _ => True) o.amax y 0
    simp only [if_true, true_imp_iff, true_and] at h1 h2 h3
    refine ⟨?_, ?_⟩
    · intro a ha
      obtain ⟨v, hv, ha⟩ := List.mem_flatMap.mp ha
      exact le_trans ((L.amax v (hy v hv)).1 a ha) (h2 v hv)
    · rcases h3 with h | ⟨v, hv, h⟩
      · cases he : y.flatMap S.elems with
        | nil => exact Or.inl ⟨rfl, h⟩
        | cons a l =>
          have ha : a ∈ y.flatMap S.elems := by rw [he]; exact List.mem_cons_self ..
          right
          refine ⟨a, List.mem_cons_self .., ?_⟩
          obtain ⟨v, hv, ha⟩ := List.mem_flatMap.mp ha
          have := le_trans ((L.amax v (hy v hv)).1 a ha) (h2 v hv)
          rw [h] at this ⊢
          exact (le_antisymm this (abs_nonneg a)).symm
      · rcases (L.amax v (hy v hv)).2 with ⟨he, h0⟩ | ⟨a, ha, h0⟩
        · rw [h0] at h
          cases he : y.flatMap S.elems with
          | nil => exact Or.inl ⟨rfl, h⟩
          | cons a l =>
            have ha : a ∈ y.flatMap S.elems := by rw [he]; exact List.mem_cons_self ..
            right
            refine ⟨a, List.mem_cons_self .., ?_⟩
            obtain ⟨v, hv, ha⟩ := List.mem_flatMap.mp ha
            have := le_trans ((L.amax v (hy v hv)).1 a ha) (h2 v hv)
            rw [h] at this ⊢
            exact (le_antisymm this (abs_nonneg a)).symm
        · exact Or.inr ⟨a, List.mem_flatMap.mpr ⟨v, hv, ha⟩, by rw [h, h0]⟩
  maxE big y hy hb := by
    simp only [compOps, compSpec] at hb ⊢
    obtain ⟨h1, h2, h3⟩ := foldl_max_if (fun v => o.dim v ≠ 0) (o.maxE big) y (-big)
    generalize y.foldl (fun m v => if o.dim v ≠ 0 then max m (o.maxE big v) else m) (-big) = r at h1 h2 h3
    have hne : ∀ v ∈ y, S.elems v ≠ [] → o.dim v ≠ 0 := by
      intro v hv he h0
      have := L.length v (hy v hv)
      rw [h0] at this
      exact he (List.length_eq_zero_iff.mp this)
    have hub : ∀ a ∈ y.flatMap S.elems, a ≤ r := by
      intro a ha
      obtain ⟨v, hv, ha⟩ := List.mem_flatMap.mp ha
      have hne' : S.elems v ≠ [] := List.ne_nil_of_mem ha
      have hm := ((L.maxE big v (hy v hv) fun b hb' => hb b (List.mem_flatMap.mpr ⟨v, hv, hb'⟩)).resolve_left
        fun h => hne' h.1).2 a ha
      exact le_trans hm (h2 v hv (hne v hv hne'))
    rcases h3 with h | ⟨v, hv, hd, h⟩
    · cases he : y.flatMap S.elems with
      | nil => exact Or.inl ⟨rfl, h⟩
      | cons a l =>
        right
        have ha : a ∈ y.flatMap S.elems := by rw [he]; exact List.mem_cons_self ..
        have hra : r = a := le_antisymm (by rw [h]; exact hb a ha) (hub a ha)
        rw [← he]
        exact ⟨by rw [hra]; exact ha, hub⟩
    · right
      have hne' : S.elems v ≠ [] := by
        intro h0
        have := L.length v (hy v hv)
        rw [h0] at this
        exact hd this.symm
      have hm := ((L.maxE big v (hy v hv) fun b hb' => hb b (List.mem_flatMap.mpr ⟨v, hv, hb'⟩)).resolve_left fun h => hne' h.1).1
      exact ⟨by rw [h]; exact List.mem_flatMap.mpr ⟨v, hv, hm⟩, hub⟩
  minE big y hy hb := by
    simp only [compOps, compSpec] at hb ⊢
    obtain ⟨h1, h2, h3⟩ := foldl_min_if (fun v => o.dim v ≠ 0) (o.minE big) y big
    generalize y.foldl (fun m v => if o.dim v ≠ 0 then min m (o.minE big v) else m) big = r at h1 h2 h3
    have hne : ∀ v ∈ y, S.elems v ≠ [] → o.dim v ≠ 0 := by
      intro v hv he h0
      have := L.length v (hy v hv)
      rw [h0] at this
      exact he (List.length_eq_zero_iff.mp this)
    have hlb : ∀ a ∈ y.flatMap S.elems, r ≤ a := by
      intro a ha
      obtain ⟨v, hv, ha⟩ := List.mem_flatMap.mp ha
      have hne' : S.elems v ≠ [] := List.ne_nil_of_mem ha
      have hm := ((L.minE big v (hy v hv) fun b hb' => hb b (List.mem_flatMap.mpr ⟨v, hv, hb'⟩)).resolve_left
        fun h => hne' h.1).2 a ha
      exact le_trans (h2 v hv (hne v hv hne')) hm
    rcases h3 with h | ⟨v, hv, hd, h⟩
    · cases he : y.flatMap S.elems with
      | nil => exact Or.inl ⟨rfl, h⟩
      | cons a l =>
        right
        have ha : a ∈ y.flatMap S.elems := by rw [he]; exact List.mem_cons_self ..
        have hra : r = a := le_antisymm (hlb a ha) (by rw [h]; exact hb a ha)
        rw [← he]
        exact ⟨by rw [hra]; exact ha, hlb⟩
    · right
      have hne' : S.elems v ≠ [] := by
        intro h0
        have := L.length v (hy v hv)
        rw [h0] at this
        exact hd this.symm
      have hm := ((L.minE big v (hy v hv) fun b hb' => hb b (List.mem_flatMap.mpr ⟨v, hv, hb'⟩)).resolve_left fun h => hne' h.1).1
      exact ⟨by rw [h]; exact List.mem_flatMap.mpr ⟨v, hv, hm⟩, hlb⟩
  sum y hy := by
    simp only [compOps, compSpec]
    exact comp_sum _ _ y fun v hv => L.sum v (hy v hv)
  sumLogs log y hy := by
    simp only [compOps, compSpec, List.map_flatMap]
    exact comp_sum _ _ y fun v hv => L.sumLogs log v (hy v hv)
  nrm2 sqrt hs hq y hy := by
    simp only [compOps, compSpec, List.map_flatMap]
    congr 1
    refine comp_sum (fun v => o.nrm2 sqrt v * o.nrm2 sqrt v) _ y fun v hv => ?_
    rw [L.nrm2 sqrt hs hq v (hy v hv)]
    apply hq
    apply List.sum_nonneg
    intro x hx
    obtain ⟨a, _, rfl⟩ := List.mem_map.mp hx
    exact mul_self_nonneg a
  addTwo y a v1 b v2 c hy h1 h2 s1 s2 hb := by
    rw [lin_eq_zip3]
    refine comp_zip3 L _ _ ?_ y v1 v2 hy h1 h2 s1 s2
    intro y v1 v2 hy h1 h2 s1 s2
    rw [← lin_eq_zip3]
    exact L.addTwo y a v1 b v2 c hy h1 h2 s1 s2 hb
  fracToBound x δ τ hx hδ hs hτ hp := by
    simp only [compOps, compSpec] at hp ⊢
    have hlen : List.Forall₂ (fun v w => (S.elems v).length = (S.elems w).length) x δ := by
      clear hp
      have hs' : List.Forall₂ S.Same x δ := hs
      clear hs
      induction hs' with
      | nil => exact List.Forall₂.nil
      | @cons v w ys xs hvw hs ih =>
        have hv : S.Ok v := hx v (List.mem_cons_self ..)
        have hw : S.Ok w := hδ w (List.mem_cons_self ..)
        exact List.Forall₂.cons (by rw [L.length v hv, L.length w hw, L.same v w hv hw hvw])
          (ih (fun u hu => hx u (List.mem_cons_of_mem _ hu)) (fun u hu => hδ u (List.mem_cons_of_mem _ hu)))
    have hsame : ∀ vw ∈ List.zip x δ, S.Same vw.1 vw.2 := by
      intro vw hvw
      exact (List.forall₂_iff_zip.mp hs).2 hvw
    have hstep : ∀ vw ∈ List.zip x δ, MaxStep τ (S.elems vw.1) (S.elems vw.2) (o.fracToBound vw.1 vw.2 τ) := by
      intro vw hvw
      have hm := List.of_mem_zip hvw
      exact L.fracToBound vw.1 vw.2 τ (hx _ hm.1) (hδ _ hm.2) (hsame vw hvw) hτ
        fun a ha => hp a (List.mem_flatMap.mpr ⟨_, hm.1, ha⟩)
    obtain ⟨h1, h2, h3⟩ := foldl_min_if (fun _ : V × V => True) (fun vw => o.fracToBound vw.1 vw.2 τ) (List.zip x δ) 1
    simp only [if_true, true_imp_iff, true_and] at h1 h2 h3
    generalize (List.zip x δ).foldl (fun α vw => min α (o.fracToBound vw.1 vw.2 τ)) 1 = r at h1 h2 h3
    have hr : 0 < r := by
      rcases h3 with h | ⟨vw, hvw, h⟩
      · rw [h]; exact one_pos
      · rw [h]; exact (hstep vw hvw).1
    refine ⟨hr, h1, ?_, ?_⟩
    · intro pd hpd
      obtain ⟨vw, hvw, hpd⟩ := (mem_zip_flatMap S.elems hlen pd).mp hpd
      have hk := (hstep vw hvw).2.2.1 pd hpd
      have hle := h2 vw hvw
      have hpos : 0 < pd.1 := hp _ (List.mem_flatMap.mpr ⟨_, (List.of_mem_zip hvw).1, (List.of_mem_zip hpd).1⟩)
      by_cases hd : pd.2 ≤ 0
      · have : o.fracToBound vw.1 vw.2 τ * pd.2 ≤ r * pd.2 := mul_le_mul_of_nonpos_right hle hd
        linarith
      · have : 0 ≤ r * pd.2 := mul_nonneg hr.le (not_le.mp hd).le
        nlinarith
    · intro β hβ hβ1 hk
      rcases h3 with h | ⟨vw, hvw, h⟩
      · rw [h] at hβ; exact absurd hβ (not_lt.mpr hβ1)
      · refine (hstep vw hvw).2.2.2 β (by rw [← h]; exact hβ) hβ1 ?_
        intro pd hpd
        exact hk pd ((mem_zip_flatMap S.elems hlen pd).mpr ⟨vw, hvw, hpd⟩)
  addQuotient y a z s c hy hz hs s1 s2 :=
    comp_zip3 L _ _ (fun y z s hy hz hs s1 s2 => L.addQuotient y a z s c hy hz hs s1 s2) y z s hy hz hs s1 s2

/-- Vectors of two types. -/
def sumSpec {V W : Type} (S : VecSpec K V) (T : VecSpec K W) : VecSpec K (V ⊕ W) :=
  ⟨readSum S.elems T.elems, readSum S.Ok T.Ok,
    fun y x => match y, x with | .inl y, .inl x => S.Same y x | .inr y, .inr x => T.Same y x | _, _ => False⟩

theorem sum_bin {V W : Type} {S : VecSpec K V} {T : VecSpec K W} {f : K → K → K} {op : V → V → V} {op' : W → W → W}
    (h : LawfulBin S op f) (h' : LawfulBin T op' f) : LawfulBin (sumSpec S T) (mapSum op op') f := by
  intro y x hy hx hs
  cases y <;> cases x
  · exact h _ _ hy hx hs
  · exact hs.elim
  · exact hs.elim
  · exact h' _ _ hy hx hs

/-- **C43** Components may be of different types. -/
theorem sum_laws {V W : Type} {o : VecOps K V} {S : VecSpec K V} {p : VecOps K W} {T : VecSpec K W} (L : VecLaws o S)
    (M : VecLaws p T) : VecLaws (sumOps o p) (sumSpec S T) where
  length y hy := by cases y; exacts [L.length _ hy, M.length _ hy]
  same y x hy hx hs := by
    cases y <;> cases x
    exacts [L.same _ _ hy hx hs, hs.elim, hs.elim, M.same _ _ hy hx hs]
  copy := sum_bin L.copy M.copy
  set y s hy := by cases y; exacts [L.set _ s hy, M.set _ s hy]
  scal y s hy := by cases y; exacts [L.scal _ s hy, M.scal _ s hy]
  axpy α := sum_bin (L.axpy α) (M.axpy α)
  multiply := sum_bin L.multiply M.multiply
  divide := sum_bin L.divide M.divide
  eMax := sum_bin L.eMax M.eMax
  eMin := sum_bin L.eMin M.eMin
  mapE f y hy := by cases y; exacts [L.mapE f _ hy, M.mapE f _ hy]
  dot y x hy hx hs := by
    cases y <;> cases x
    exacts [L.dot _ _ hy hx hs, hs.elim, hs.elim, M.dot _ _ hy hx hs]
  asum y hy := by cases y; exacts [L.asum _ hy, M.asum _ hy]
  amax y hy := by cases y; exacts [L.amax _ hy, M.amax _ hy]
  maxE big y hy := by cases y; exacts [L.maxE big _ hy, M.maxE big _ hy]
  minE big y hy := by cases y; exacts [L.minE big _ hy, M.minE big _ hy]
  sum y hy := by cases y; exacts [L.sum _ hy, M.sum _ hy]
  sumLogs log y hy := by cases y; exacts [L.sumLogs log _ hy, M.sumLogs log _ hy]
  nrm2 sqrt hs hq y hy := by cases y; exacts [L.nrm2 sqrt hs hq _ hy, M.nrm2 sqrt hs hq _ hy]
  addTwo y a v1 b v2 c hy h1 h2 s1 s2 hb := by
    cases y <;> cases v1 <;> cases v2
    all_goals first
      | exact s1.elim
      | exact s2.elim
      | exact L.addTwo _ a _ b _ c hy h1 h2 s1 s2 hb
      | exact M.addTwo _ a _ b _ c hy h1 h2 s1 s2 hb
  fracToBound x δ τ hx hδ hs hτ hp := by
    cases x <;> cases δ
    exacts [L.fracToBound _ _ τ hx hδ hs hτ hp, hs.elim, hs.elim, M.fracToBound _ _ τ hx hδ hs hτ hp]
  addQuotient y a z s c hy hz hs s1 s2 := by
    cases y <;> cases z <;> cases s
    all_goals first
      | exact s1.elim
      | exact s2.elim
      | exact L.addQuotient _ a _ _ c hy hz hs s1 s2
      | exact M.addQuotient _ a _ _ c hy hz hs s1 s2

/-- **C43** Compound vectors whose components are dense vectors or compound vectors of dense vectors (as the iterates of the
restoration phase), and so on. -/
theorem nested_laws : VecLaws (compOps (sumOps denseOps (compOps denseOps))) (compSpec (sumSpec denseSpec (compSpec (denseSpec (K := K))))) :=
  comp_laws (sum_laws dense_laws (comp_laws dense_laws))

example :
    (compOps (denseOps (K := ℚ))).axpy [DV.ofList [1, 2], ⟨1, true, 5, []⟩] 2 [⟨2, true, 10, []⟩, ⟨1, true, 1, []⟩] |>.flatMap DV.elems
      |> (· = [(21 : ℚ), 22, 7]) := by decide +kernel

example : (compOps (denseOps (K := ℚ))).fracToBound [DV.ofList [1, 2], ⟨1, true, 5, []⟩] [⟨2, true, -2, []⟩, ⟨1, true, -10, []⟩] 1 = 1 / 2 := by
  decide +kernel

/-- Without components or with empty components only the value of `Max` is `-big`. -/
example : (compOps (denseOps (K := ℚ))).maxE 1000 [⟨0, true, 0, []⟩, DV.ofList [-5, -7]] = -5 := by decide +kernel

/-- **C42, negation for compound vectors** A component pointer obtained before the query and used after it changes the elements behind
the back of the cache: the second query returns the old sum. -/
theorem compound_stale :
    let o0 : CObj ℚ := ⟨[DV.ofList [1, 2], DV.ofList [3]], 7, 0, 0⟩
    let o1 := o0.getNonConst 8
    let q1 := o1.querySum
    let o2 := q1.2.writeComp 0 (DV.ofList [100, 200])
    q1.1 = 6 ∧ o2.querySum.1 = 6 ∧ (compOps denseOps).sum o2.comps = 303 := by
  decide +kernel

/-- **C42 for compound vectors** If the pointer is asked for again after the query, the next query is right. -/
theorem compound_fresh (o : CObj K) (t i : Nat) (v : DV K) (ht : o.ctag ≠ t) :
    ((o.getNonConst t).writeComp i v).querySum.1 = (compOps denseOps).sum (o.comps.set i v) := by
  simp [CObj.querySum, CObj.getNonConst, CObj.writeComp, ht]

end Verif.Vec
