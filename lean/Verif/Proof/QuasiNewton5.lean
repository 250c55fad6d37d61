import Verif.Proof.QuasiNewton4
import Verif.Props.Matrix

/-! # Accepted updates: pairs, secant equation, positive definiteness -/

namespace Verif.QuasiNewton
open Finset Verif.Matrix

set_option linter.unusedSectionVars false
set_option linter.unusedVariables false
set_option linter.unusedSimpArgs false

section
variable {K : Type} [Field K] [LinearOrder K]

/-- σ I + V Vᵀ − U Uᵀ. -/
def Bof (σ : K) (V U : Option (List (List K))) (i j : Nat) : K := (if i = j then σ else 0) + gram V i j - gram U i j

theorem replicate_getD (n : Nat) (σ : K) (i : Nat) (h : i < n) : (List.replicate n σ).getD i 0 = σ := by
  simp [List.getD_eq_getElem?_getD, h]

theorem isApprox_setW (cfg : Cfg K) (hr : cfg.resto = false) (n : Nat) (c : Call K) (hx : c.x.length = n) (d : Data K) :
    IsApprox cfg.P n (setW cfg c d) (Bof d.sigma d.V d.U) := by
  have hreg : cfg.regular = true := by simp [Cfg.regular, hr]
  unfold IsApprox setW
  cases hP : cfg.P with
  | none =>
    simp only [hreg, if_true]
    intro i j hi hj
    simp only [ent, Bof]
    rw [replicate_getD _ _ _ (by rw [hx]; exact hi)]
  | some P =>
    simp only [hreg, if_true, hr, Bool.not_false]
    intro i j hi hj
    simp only [ent, Bof, if_true]
    refine Finset.sum_congr rfl (fun k hk => Finset.sum_congr rfl (fun l hl => ?_))
    rw [replicate_getD _ _ _ (Finset.mem_range.1 hk)]

theorem Bof_symm (σ : K) (V U : Option (List (List K))) (i j : Nat) : Bof σ V U i j = Bof σ V U j i := by
  unfold Bof
  have g : ∀ W : Option (List (List K)), gram W i j = gram W j i := by
    intro W
    cases W with
    | none => rfl
    | some vs => rw [gram_eq, gram_eq]; exact Finset.sum_congr rfl (fun k _ => mul_comm _ _)
  rw [g V, g U]
  by_cases h : i = j
  · subst h; rfl
  · rw [if_neg h, if_neg (fun h' => h h'.symm)]

theorem Bof_mx (n m : Nat) (σ : K) (V U : List (List K)) (hV : V.length = m) (hU : U.length = m) (i j : Fin n) :
    Bof σ (some V) (some U) i j =
      (σ • (1 : _root_.Matrix (Fin n) (Fin n) K) + Mx n m (ce V) * (Mx n m (ce V)).transpose - Mx n m (ce U) * (Mx n m (ce U)).transpose) i j := by
  rw [← ent_lowRank n m σ V U hV hU i j]
  simp only [ent, Bof]
  rw [replicate_getD _ _ _ i.2]

theorem reduce_ok {hom : List K → Option K} (hh : HomOK hom) (P : Mat K) (n : Nat) (hP : ProjOK (some P) n) (v : List K) (hv : v.length = n) :
    (reduce hom (some P) v).length = P.dims.2 ∧
    ∀ k, k < P.dims.2 → (reduce hom (some P) v).getD k 0 = ∑ i ∈ range n, ent P i k * v.getD i 0 := by
  obtain ⟨hw, hd⟩ := hP
  have := transMult_is_transposed_product hh P hw 1 v 0 (List.replicate P.dims.2 0) (by rw [hv, hd]) (by simp)
  refine ⟨this.1, fun k hk => ?_⟩
  show (P.transMult hom 1 v 0 (List.replicate P.dims.2 0)).getD k 0 = _
  rw [this.2 k hk, hd]; ring

theorem getD_sub (a b : List K) (n : Nat) (ha : a.length = n) (hb : b.length = n) (i : Nat) (hi : i < n) :
    (List.zipWith (fun a b => a - b) a b).getD i 0 = a.getD i 0 - b.getD i 0 :=
  getD_zipWith _ _ _ _ 0 0 (by omega) (by omega)

theorem getD_add (a b : List K) (n : Nat) (ha : a.length = n) (hb : b.length = n) (i : Nat) (hi : i < n) :
    (List.zipWith (fun a b => a + b) a b).getD i 0 = a.getD i 0 + b.getD i 0 :=
  getD_zipWith _ _ _ _ 0 0 (by omega) (by omega)

theorem yFull_ok {hom : List K → Option K} (hh : HomOK hom) (n mc md : Nat) (l c : Call K) (hl : CallOK n mc md l) (hc : CallOK n mc md c) :
    (yFull hom l c).length = n ∧ ∀ i, i < n → (yFull hom l c).getD i 0 = lagGrad mc md c c i - lagGrad mc md l c i := by
  have hz : (List.replicate c.x.length (0 : K)).length = n := by simp [hc.x]
  have t1 := transMult_is_transposed_product hh c.Jc hc.jc.1 1 c.yc 0 (List.replicate c.x.length 0) (by rw [hc.jc.2, hc.yc]) (by rw [hc.jc.2, hz])
  have t2 := transMult_is_transposed_product hh c.Jd hc.jd.1 1 c.yd 0 (List.replicate c.x.length 0) (by rw [hc.jd.2, hc.yd]) (by rw [hc.jd.2, hz])
  rw [hc.jc.2] at t1
  rw [hc.jd.2] at t2
  have hl0 : (List.zipWith (fun a b => a - b) c.gradf l.gradf).length = n := by simp [hc.gradf, hl.gradf]
  have hlj : (List.zipWith (fun a b => a + b) (c.Jc.transMult hom 1 c.yc 0 (List.replicate c.x.length 0))
      (c.Jd.transMult hom 1 c.yd 0 (List.replicate c.x.length 0))).length = n := by simp [t1.1, t2.1]
  have hly : (List.zipWith (fun a b => a + b) (List.zipWith (fun a b => a + b) (c.Jc.transMult hom 1 c.yc 0 (List.replicate c.x.length 0))
      (c.Jd.transMult hom 1 c.yd 0 (List.replicate c.x.length 0))) (List.zipWith (fun a b => a - b) c.gradf l.gradf)).length = n := by
    simp [hlj, hl0, t1.1, t2.1, hc.gradf, hl.gradf]
  have t3 := transMult_is_transposed_product hh l.Jc hl.jc.1 (-1) c.yc 1 _ (by rw [hl.jc.2, hc.yc]) (by rw [hl.jc.2, hly])
  rw [hl.jc.2] at t3
  have t4 := transMult_is_transposed_product hh l.Jd hl.jd.1 (-1) c.yd 1 _ (by rw [hl.jd.2, hc.yd]) (by rw [hl.jd.2]; exact t3.1)
  rw [hl.jd.2] at t4
  unfold yFull
  refine ⟨t4.1, fun i hi => ?_⟩
  rw [t4.2 i hi, t3.2 i hi, getD_add _ _ n hlj hl0 i hi, getD_add _ _ n t1.1 t2.1 i hi, t1.2 i hi, t2.2 i hi, getD_sub _ _ n hc.gradf hl.gradf i hi]
  unfold lagGrad
  simp only
  ring

/-- the pair the code computes is the change of x and of the gradient of the Lagrangian. -/
theorem newPair_isPair (cfg : Cfg K) (hr : cfg.resto = false) (env : Env K) (hh : HomOK env.hom) (n mc md : Nat) (hP : ProjOK cfg.P n) (l c : Call K)
    (hl : CallOK n mc md l) (hc : CallOK n mc md c) : IsPair cfg.P n mc md l c (newPair cfg env l c) := by
  have hx : (List.zipWith (fun a b => a - b) c.x l.x).length = n := by simp [hc.x, hl.x]
  obtain ⟨y1, y2⟩ := yFull_ok hh n mc md l c hl hc
  unfold newPair
  rw [hr]
  unfold IsPair
  cases hPP : cfg.P with
  | none =>
    simp only [Bool.false_eq_true, if_false, reduce]
    exact ⟨hx, y1, fun i hi => getD_sub _ _ n hc.x hl.x i hi, y2⟩
  | some P =>
    rw [hPP] at hP
    have s1 := reduce_ok hh P n hP _ hx
    have s2 := reduce_ok hh P n hP _ y1
    simp only [Bool.false_eq_true, if_false]
    refine ⟨s1.1, s2.1, fun k hk => ?_, fun k hk => ?_⟩
    · rw [s1.2 k hk]
      exact Finset.sum_congr rfl (fun i hi => by rw [getD_sub _ _ n hc.x hl.x i (Finset.mem_range.1 hi)])
    · rw [s2.2 k hk]
      exact Finset.sum_congr rfl (fun i hi => by rw [y2 i (Finset.mem_range.1 hi)])

theorem newPair_len (cfg : Cfg K) (hr : cfg.resto = false) (env : Env K) (hh : HomOK env.hom) (n mc md : Nat) (hP : ProjOK cfg.P n) (l c : Call K)
    (hl : CallOK n mc md l) (hc : CallOK n mc md c) :
    (newPair cfg env l c).s.length = lmDim cfg.P n ∧ (newPair cfg env l c).y.length = lmDim cfg.P n := by
  have := newPair_isPair cfg hr env hh n mc md hP l c hl hc
  unfold IsPair at this
  unfold lmDim
  cases hPP : cfg.P <;> rw [hPP] at this <;> exact ⟨this.1, this.2.1⟩

/-! ## the log of a run -/

theorem log_mem (cfg : Cfg K) (env : Env K) (cs : List (Call K)) (ks : List Kind) (e : Kind × Pair K) (he : e ∈ log cfg env cs ks) :
    ∃ l ∈ cs, ∃ c ∈ cs, e.2 = newPair cfg env l c := by
  unfold log at he
  have h2 : e.2 ∈ List.zipWith (newPair cfg env) cs cs.tail := (List.of_mem_zip (a := e.1) (b := e.2) he).2
  obtain ⟨i, hi, h⟩ := List.getElem_of_mem h2
  rw [List.getElem_zipWith] at h
  exact ⟨_, List.getElem_mem _, _, List.mem_of_mem_tail (List.getElem_mem (l := cs.tail) _), h.symm⟩

theorem stored_mem (lg : List (Kind × Pair K)) (p : Pair K) (h : p ∈ stored lg) : ∃ k, k.isStored = true ∧ (k, p) ∈ lg := by
  unfold stored at h
  obtain ⟨e, he, rfl⟩ := List.mem_map.1 h
  obtain ⟨h1, h2⟩ := List.mem_filter.1 he
  refine ⟨e.1, h2, ?_⟩
  unfold sinceReset at h1
  exact List.mem_reverse.1 ((List.takeWhile_sublist _).subset (List.mem_reverse.1 h1))

theorem mem_lastN {A : Type} (n : Nat) (l : List A) (a : A) (h : a ∈ lastN n l) : a ∈ l := List.mem_of_mem_drop h

theorem sr1Hist_mem (lg : List (Kind × Pair K)) : (∀ p ∈ (sr1Hist lg).1, ∃ k, (k, p) ∈ lg) ∧ ∀ o, (sr1Hist lg).2 = some o → ∀ p ∈ o, ∃ k, (k, p) ∈ lg := by
  induction lg using List.reverseRecOn with
  | nil => exact ⟨by simp [sr1Hist], by simp [sr1Hist]⟩
  | append_singleton lg e ih =>
    rw [sr1Hist_snoc]
    have w : ∀ p, (∃ k, (k, p) ∈ lg) → ∃ k, (k, p) ∈ lg ++ [e] := fun p ⟨k, h⟩ => ⟨k, List.mem_append_left _ h⟩
    have g : ∀ p ∈ (sr1Hist lg).2.getD [], ∃ k, (k, p) ∈ lg := by
      cases ho : (sr1Hist lg).2 with
      | none => simp
      | some o => exact ih.2 o ho
    obtain ⟨ek, ep⟩ := e
    have me : ∃ k, (k, ep) ∈ lg ++ [(ek, ep)] := ⟨ek, by simp⟩
    have app : ∀ (h : List (Pair K)), (∀ p ∈ h, ∃ k, (k, p) ∈ lg) → ∀ p ∈ h ++ [ep], ∃ k, (k, p) ∈ lg ++ [(ek, ep)] := by
      intro h hh p hp
      rcases List.mem_append.1 hp with hp | hp
      · exact w p (hh p hp)
      · simp only [List.mem_singleton] at hp; subst hp; exact me
    have same : (∀ p ∈ (sr1Hist lg).1, ∃ k, (k, p) ∈ lg ++ [(ek, ep)]) ∧
        ∀ o, (sr1Hist lg).2 = some o → ∀ p ∈ o, ∃ k, (k, p) ∈ lg ++ [(ek, ep)] :=
      ⟨fun p hp => w p (ih.1 p hp), fun o ho p hp => w p (ih.2 o ho p hp)⟩
    cases ek with
    | start => exact ⟨by simp [sr1Next], by simp [sr1Next]⟩
    | reset => exact ⟨by simp [sr1Next], by simp [sr1Next]⟩
    | accept u =>
      cases u with
      | false =>
        refine ⟨app _ ih.1, fun o ho => ?_⟩
        simp only [sr1Next, Option.some.injEq] at ho; subst ho; exact same.1
      | true =>
        refine ⟨app _ g, fun o ho => ?_⟩
        simp only [sr1Next, Option.some.injEq] at ho; subst ho; exact fun p hp => w p (g p hp)
    | eig u =>
      cases u with
      | false =>
        refine ⟨same.1, fun o ho => ?_⟩
        simp only [sr1Next, Option.some.injEq] at ho; subst ho; exact same.1
      | true =>
        refine ⟨fun p hp => w p (g p hp), fun o ho => ?_⟩
        simp only [sr1Next, Option.some.injEq] at ho; subst ho; exact fun p hp => w p (g p hp)
    | _ => exact same

/-- a stored pair passed the tests. -/
theorem step_stored (cfg : Cfg K) (env : Env K) (hs : cfg.sr1 = false) (st : St K) (l c : Call K) (hl : st.last = some l) (st' : St K) (k : Kind)
    (he : step cfg env st c = .ok (st', k)) (hk : k.isStored = true) :
    checkSkipping env (newPair cfg env l c) = false ∧ ¬ amax (newPair cfg env l c).s < env.tinyTol ∧
    ∃ d b, bfgsStep cfg env c.eta (newPair cfg env l c) st.data st.backup = .ok (d, b, k) ∧ st' = finish cfg st c d b k := by
  unfold step at he
  simp only [hl, hs, Bool.false_eq_true, if_false] at he
  split at he
  · cases he; cases hk
  · split at he
    · cases he; cases hk
    · next ht =>
      split at he
      · cases he; cases hk
      · next hc =>
        refine ⟨by simpa using hc, ht, ?_⟩
        cases hb : bfgsStep cfg env c.eta (newPair cfg env l c) st.data st.backup with
        | error e => rw [hb] at he; cases he
        | ok r =>
          obtain ⟨d, b, k'⟩ := r
          rw [hb] at he
          simp only [Except.ok.injEq, Prod.mk.injEq] at he
          obtain ⟨h1, rfl⟩ := he
          exact ⟨d, b, rfl, h1.symm⟩

theorem run_stored (cfg : Cfg K) (env : Env K) (hs : cfg.sr1 = false) (h0 : cfg.resto = false ∨ 0 < cfg.maxHist)
    (st0 : St K) (hst : st0.last = none) (cs : List (Call K)) (hne : cs ≠ []) (st : St K) (ks : List Kind) (h : run cfg env st0 cs = .ok (st, ks)) :
    ∀ e ∈ log cfg env cs ks, e.1.isStored = true → checkSkipping env e.2 = false ∧ ¬ amax e.2.s < env.tinyTol := by
  induction cs using List.reverseRecOn generalizing st ks with
  | nil => exact absurd rfl hne
  | append_singleton cs c ih =>
    obtain ⟨st1, ks1, k, h1, h2, rfl⟩ := run_snoc_ok cfg env st0 cs c st ks h
    by_cases hc : cs = []
    · subst hc; simp [log_one]
    · obtain ⟨st2, ks2, h3, h4⟩ := bfgs_run_inv cfg env hs h0 st0 hst cs hc
      rw [h1] at h3
      cases h3
      obtain ⟨l, hl⟩ : ∃ l, cs.getLast? = some l := by
        cases h : cs.getLast? with
        | none => exact absurd (List.getLast?_eq_none_iff.1 h) hc
        | some l => exact ⟨l, rfl⟩
      rw [log_snoc cfg env cs l c ks1 k hl (run_len _ _ _ _ _ _ h1)]
      intro e he hk
      rcases List.mem_append.1 he with he | he
      · exact ih hc st1 ks1 h1 e he hk
      · simp only [List.mem_singleton] at he
        subst he
        obtain ⟨g1, g2, -⟩ := step_stored cfg env hs st1 l c (by rw [h4.last, hl]) st k h2 hk
        exact ⟨g1, g2⟩

end
end Verif.QuasiNewton
