import Verif.Props.OrigNLP
import Mathlib.Data.List.Pairwise

/-! # Constant Hessians, and what goes wrong (C62) -/

set_option linter.unusedSimpArgs false
set_option linter.unusedVariables false
set_option linter.unusedSectionVars false

namespace Verif.OrigNLP
open Verif Verif.Cache

section
variable {X V : Type} {valid : Kind → V → Bool}

/-- **C62** The limits used by `repeated_not_called` and `constant_once` hold after every history. -/
theorem cache_limits (vals : Nat → X) (u : User X V) (s : Struc X V) (o : Opts) (ops : List (Op X V)) (k : Kind) :
    1 ≤ (after valid vals u s o ops).max k := by
  have H : ∀ (ops : List (Op X V)) (st : St X V), (∀ k, 1 ≤ st.max k) → ∀ k, 1 ≤ (st.run valid ops).max k := by
    intro ops
    induction ops with
    | nil => intro st h; exact h
    | cons op ops ih =>
      intro st h
      cases op with
      | set o v => exact ih (st.set o v) h
      | eval r =>
        refine ih (st.eval valid r).2 ?_
        rw [(eval_other (valid := valid) st r).1.2.2.2.2]
        exact h
      | init w o u s =>
        refine ih (st.initialize w o u s) ?_
        intro k
        simp only [St.initialize]
        cases w
        · simp only [Bool.false_eq_true, if_false]
          split
          · split <;> decide
          · exact h k
        · simpa using h k
  exact H ops _ (fun k => by simp [St.new]) k

/-- all requests for the Hessian use one of two factors. -/
def TwoFactors (σ₁ σ₂ : Num) (ops : List (Op X V)) : Prop :=
  ∀ x σ yc yd, .eval (.h x σ yc yd) ∈ ops → σ = σ₁ ∨ σ = σ₂

/-- the state of the Hessian cache if the Hessian is constant: one entry for each factor used so far. -/
structure HC (σ₁ σ₂ : Num) (st : St X V) : Prop where
  const : st.opts.hessConst = true
  max : st.max .h = 2
  keys : ∀ e ∈ st.cache .h, e.deps = [none, none, none] ∧ (e.scalars = [σ₁] ∨ e.scalars = [σ₂])
  nodup : (st.cache .h).Pairwise fun a b => a.scalars ≠ b.scalars

theorem HC.len {σ₁ σ₂ : Num} {st : St X V} (h : HC σ₁ σ₂ st) : (st.cache .h).length ≤ 2 := by
  have hn := h.nodup
  have hk := h.keys
  match st.cache .h, hn, hk with
  | [], _, _ => simp
  | [_], _, _ => simp
  | [_, _], _, _ => simp
  | a :: b :: c :: l, hn, hk =>
    exfalso
    have ha := (hk a (by simp)).2
    have hb := (hk b (by simp)).2
    have hc := (hk c (by simp)).2
    simp only [List.pairwise_cons, List.mem_cons, forall_eq_or_imp] at hn
    obtain ⟨⟨n1, n2, -⟩, ⟨n3, -⟩, -⟩ := hn
    rcases ha with ha | ha <;> rcases hb with hb | hb <;> rcases hc with hc | hc <;> simp_all

theorem HC.of_same {σ₁ σ₂ : Num} {st st' : St X V} (h : HC σ₁ σ₂ st) (hs : Same st st') (hc : st'.cache .h = st.cache .h) : HC σ₁ σ₂ st' := by
  obtain ⟨s1, s2, s3, s4, s5⟩ := hs
  exact ⟨by rw [s4]; exact h.const, by rw [s5]; exact h.max, by rw [hc]; exact h.keys, by rw [hc]; exact h.nodup⟩

/-- a request for the Hessian keeps all stored Hessians. -/
theorem HC.evalH {σ₁ σ₂ : Num} {st : St X V} (h : HC σ₁ σ₂ st) (x : Nat) {σ : Num} (hσ : σ = σ₁ ∨ σ = σ₂) (yc yd : Nat) (hn : σ ≠ .nan) :
    HC σ₁ σ₂ (st.eval valid (.h x σ yc yd)).2 ∧ ∀ e ∈ st.cache .h, e ∈ (st.eval valid (.h x σ yc yd)).2.cache .h := by
  have S := (eval_other (valid := valid) st (.h x σ yc yd)).1
  simp only [St.eval, St.h, h.const, if_true] at S ⊢
  unfold St.evalVia at S ⊢
  split
  · rename_i e he
    exact ⟨h, fun _ he => he⟩
  · rename_i hf
    have hu := unscaledX_log { st with evals := Function.update st.evals .h (st.evals .h + 1) } x
    rcases he : St.unscaledX { st with evals := Function.update st.evals .h (st.evals .h + 1) } x with ⟨u0, st0⟩
    rw [he] at hu
    simp only at hu
    simp only [he]
    split
    · exact ⟨h.of_same hu.2.2.2 (by simp only; rw [hu.2.2.1]), fun e he => by rw [hu.2.2.1]; exact he⟩
    · split
      · exact ⟨h.of_same hu.2.2.2 (by simp only; rw [hu.2.2.1]), fun e he => by rw [hu.2.2.1]; exact he⟩
      · rename_i w hw hv
        obtain ⟨s1, s2, s3, s4, s5⟩ := hu.2.2.2
        simp only at s1 s2 s3 s4 s5
        have hall : ∀ e ∈ st.cache .h, e.scalars ≠ [σ] := by
          intro e he hsc
          have := List.find?_eq_none.mp hf e he
          apply this
          have hd := (h.keys e he).1
          simp only [Entry.matches, hd, hsc, decide_true, Bool.true_and, sameScalars, Bool.and_true]
          cases σ <;> simp_all [Num.eqB]
        have hnd : ((⟨[none, none, none], [σ], st0.struc.res .h w⟩ : Entry V) :: st.cache .h).Pairwise fun a b => a.scalars ≠ b.scalars := by
          rw [List.pairwise_cons]
          exact ⟨fun e he => (hall e he).symm, h.nodup⟩
        have hkeys : ∀ e ∈ (⟨[none, none, none], [σ], st0.struc.res .h w⟩ : Entry V) :: st.cache .h,
            e.deps = [none, none, none] ∧ (e.scalars = [σ₁] ∨ e.scalars = [σ₂]) := by
          intro e he
          simp only [List.mem_cons] at he
          rcases he with rfl | he
          · refine ⟨rfl, ?_⟩
            rcases hσ with rfl | rfl <;> simp
          · exact h.keys e he
        have hl : ((⟨[none, none, none], [σ], st0.struc.res .h w⟩ : Entry V) :: st.cache .h).length ≤ 2 :=
          HC.len (σ₁ := σ₁) (σ₂ := σ₂) (st := { st with cache := fun _ => (⟨[none, none, none], [σ], st0.struc.res .h w⟩ : Entry V) :: st.cache .h })
            ⟨h.const, h.max, hkeys, hnd⟩
        have hkeep : keep (st0.max .h) ((⟨[none, none, none], [σ], st0.struc.res .h w⟩ : Entry V) :: st0.cache .h) =
            (⟨[none, none, none], [σ], st0.struc.res .h w⟩ : Entry V) :: st.cache .h := by
          rw [s5, h.max, hu.2.2.1]
          unfold keep
          rw [if_pos (by decide)]
          exact List.take_of_length_le (by simpa using hl)
        refine ⟨⟨?_, ?_, ?_, ?_⟩, ?_⟩
        · simp only [St.add]; rw [s4]; exact h.const
        · simp only [St.add]; rw [s5]; exact h.max
        · simp only [St.add, Function.update_self, hkeep]; exact hkeys
        · simp only [St.add, Function.update_self, hkeep]; exact hnd
        · simp only [St.add, Function.update_self, hkeep]
          exact fun e he => List.mem_cons_of_mem _ he

/-- **C62** With `hessian_constant` (and not keeping the structure) the Hessian is evaluated at most once for each of the two objective factors
the algorithm uses, at whatever point and multipliers, before the next initialization. -/
theorem constant_hessian_once (st0 : St X V) (o : Opts) (ho : o.hessConst = true) (u : User X V) (s : Struc X V) (σ₁ σ₂ : Num) (h1 : σ₁ ≠ .nan) (h2 : σ₂ ≠ .nan)
    (ops ops' : List (Op X V)) (hn : NoInit ops) (hn' : NoInit ops') (ht : TwoFactors σ₁ σ₂ ops) (ht' : TwoFactors σ₁ σ₂ ops')
    (σ : Num) (hσ : σ = σ₁ ∨ σ = σ₂) (x yc yd x' yc' yd' : Nat) (v : V) :
    let st := (st0.initialize false o u s).run valid ops
    let st' := (st.eval valid (.h x σ yc yd)).2.run valid ops'
    (st.eval valid (.h x σ yc yd)).1 = some v → st'.eval valid (.h x' σ yc' yd') = (some v, st') := by
  intro st st' hv
  have hσn : σ ≠ .nan := by rcases hσ with rfl | rfl <;> assumption
  have H : ∀ (ops : List (Op X V)) (q : St X V), HC σ₁ σ₂ q → NoInit ops → TwoFactors σ₁ σ₂ ops →
      HC σ₁ σ₂ (q.run valid ops) ∧ ∀ e ∈ q.cache .h, e ∈ (q.run valid ops).cache .h := by
    intro ops
    induction ops with
    | nil => intro q hq _ _; exact ⟨hq, fun _ h => h⟩
    | cons op ops ih =>
      intro q hq n1 n2
      have m1 : NoInit ops := fun op' h => n1 op' (List.mem_cons_of_mem _ h)
      have m2 : TwoFactors σ₁ σ₂ ops := fun x σ yc yd h => n2 x σ yc yd (List.mem_cons_of_mem _ h)
      have step : HC σ₁ σ₂ (q.step valid op) ∧ ∀ e ∈ q.cache .h, e ∈ (q.step valid op).cache .h := by
        cases op with
        | set o w =>
          have hc : (q.set o w).cache .h = q.cache .h := by
            simp only [St.set]
            apply List.filter_eq_self.mpr
            intro e he
            simp [Entry.dependsOn, (hq.keys e he).1]
          refine ⟨⟨hq.const, hq.max, ?_, ?_⟩, ?_⟩
          · show ∀ e ∈ (q.set o w).cache .h, _
            rw [hc]; exact hq.keys
          · show List.Pairwise _ ((q.set o w).cache .h)
            rw [hc]; exact hq.nodup
          · show ∀ e ∈ _, e ∈ (q.set o w).cache .h
            rw [hc]; exact fun _ h => h
        | eval r =>
          by_cases hr : r.kind = .h
          · cases r <;> simp [Req.kind] at hr
            rename_i x σ' yc yd
            have hs := n2 x σ' yc yd List.mem_cons_self
            exact hq.evalH x hs yc yd (by rcases hs with rfl | rfl <;> assumption)
          · obtain ⟨s1, s2⟩ := eval_other (valid := valid) q r
            exact ⟨hq.of_same s1 (s2 _ (Ne.symm hr)), fun e he => by show e ∈ (q.eval valid r).2.cache .h; rw [s2 _ (Ne.symm hr)]; exact he⟩
        | init w o u s => exact absurd rfl (n1 _ List.mem_cons_self w o u s)
      obtain ⟨i1, i2⟩ := ih (q.step valid op) step.1 m1 m2
      exact ⟨i1, fun e he => i2 e (step.2 e he)⟩
  have hinit : HC σ₁ σ₂ (st0.initialize false o u s) := by
    refine ⟨ho, ?_, ?_, ?_⟩ <;> simp [St.initialize, ho, invalidated]
  obtain ⟨c1, -⟩ := H ops _ hinit hn ht
  obtain ⟨c2, -⟩ := c1.evalH (valid := valid) x hσ yc yd hσn
  have hm : ∀ k, 1 ≤ st.max k → True := fun _ _ => trivial
  -- the answer is stored
  have hmax : (1 : Int) ≤ ((st0.initialize false o u s).run valid ops).max .h := by rw [c1.max]; decide
  have hv' : (((st0.initialize false o u s).run valid ops).eval valid (.h x σ yc yd)).1 = some v := hv
  obtain ⟨e, ⟨he, hev⟩, -⟩ := evalVia_stored (valid := valid) (st := (st0.initialize false o u s).run valid ops) hmax (sc := [σ]) (by simpa using hσn)
    (deps := if ((st0.initialize false o u s).run valid ops).opts.hessConst then [none, none, none] else [some x, some yc, some yd]) hv'
  obtain ⟨c3, c4⟩ := H ops' _ c2 hn' ht'
  have hmem := c4 e (List.mem_of_find?_eq_some he)
  have hkey := matches_eq (List.find?_some he)
  rw [c1.const] at hkey
  simp only [if_true] at hkey
  -- it is the only one with this factor
  have hfound : st'.found (.h x' σ yc' yd') = some e := by
    unfold St.found
    simp only [St.key, Req.kind]
    rw [show st'.opts.hessConst = true from c3.const]
    simp only [if_true]
    have hmt : e.matches [none, none, none] [σ] = true := by
      have := List.find?_some he
      rw [c1.const] at this
      simpa using this
    obtain ⟨e', he'⟩ : ∃ e', (st'.cache .h).find? (·.matches [none, none, none] [σ]) = some e' := by
      rw [← Option.isSome_iff_exists]
      rw [List.find?_isSome]
      exact ⟨e, hmem, hmt⟩
    rw [he']
    have hk' := matches_eq (List.find?_some he')
    have hm' := List.mem_of_find?_eq_some he'
    by_contra hne
    have hne : e' ≠ e := fun h => hne (by rw [h])
    have hp := c3.nodup
    have : e'.scalars ≠ e.scalars := by
      haveI : Std.Symm (fun a b : Entry V => a.scalars ≠ b.scalars) := ⟨fun a b h => h.symm⟩
      exact hp.forall hm' hmem hne
    exact this (hk'.2.trans hkey.2.symm)
  rw [found_hit hfound, hev]

end

/-! ### What goes wrong, and examples -/

namespace Ex

/-- points and values are integers; the functions of the problem with parameter `p`. -/
def user (p : Int) : User Int Int where
  f x := some (x + p)
  gradF _ := some p
  c x := if x = 0 then none else some (2 * x)
  d _ := none
  jacC _ := some 2
  jacD _ := none
  h _ σ _ _ := some (if σ = .fin 0 then 0 else p)

def struc : Struc Int Int where
  noC := false
  noD := true
  empty _ := 0
  unX x := x
  appC y := y
  appD y := y
  obj σ := σ
  res _ v := v

def opts : Opts := ⟨true, true, true, true, false⟩
def ok : Kind → Int → Bool := fun _ _ => true

/-- **C62**, deviation: re-optimization of a changed problem with `hessian_constant` and `warm_start_same_structure` uses the Hessian of the previous
problem (here 1 instead of 5): the entry is to be invalidated without its scalar dependency and is therefore not found. The gradient, also declared constant, is
evaluated again. -/
theorem warm_start_constant_hessian_stale :
    let st := after ok (fun _ => (3 : Int)) (user 1) struc opts
      [.init false opts (user 1) struc, .set 0 3, .set 1 0, .eval (.h 0 (.fin 1) 1 1), .eval (.gradF 0),
       .init true opts (user 5) struc, .set 0 4, .set 1 0]
    (st.eval ok (.h 0 (.fin 1) 1 1)).1 = some 1 ∧ (user 5).h 4 (.fin 1) 0 0 = some 5 ∧
      (st.eval ok (.h 0 (.fin 1) 1 1)).2.evals .h = 0 ∧ (st.eval ok (.gradF 0)).1 = some 5 := by decide +kernel

/-- Without keeping the structure the new Hessian is used. -/
example :
    let st := after ok (fun _ => (3 : Int)) (user 1) struc opts
      [.init false opts (user 1) struc, .set 0 3, .set 1 0, .eval (.h 0 (.fin 1) 1 1), .init false opts (user 5) struc, .set 0 4, .set 1 0]
    (st.eval ok (.h 0 (.fin 1) 1 1)).1 = some 5 := by decide +kernel

/-- The objective value of a vector that was used before and not touched since is the old one, even if nothing is kept: the cache of `f` is never cleared
(hence the hypothesis `touched`; the algorithm starts with new vectors). -/
theorem old_vector_old_objective :
    let st := after ok (fun _ => (3 : Int)) (user 1) struc opts [.init false opts (user 1) struc, .set 0 3, .eval (.f 0), .init false opts (user 5) struc]
    (st.eval ok (.f 0)).1 = some 4 ∧ (user 5).f 3 = some 8 := by decide +kernel

/-- Example for `Legal`, with a failing evaluation. -/
example : Legal (fun _ => True) ([.init false opts (user 1) struc, .set 0 0, .eval (.c 0), .set 0 3, .eval (.c 0), .eval (.gradF 0),
    .init true ⟨true, true, true, false, false⟩ (user 5) struc, .set 0 4, .eval (.f 0)] : List (Op Int Int)) := by
  simp [Legal, Req.args, Req.x]

example :
    let st := after ok (fun _ => (3 : Int)) (user 1) struc opts
      [.init false opts (user 1) struc, .set 0 0, .eval (.c 0), .set 0 3, .eval (.c 0), .eval (.gradF 0), .set 0 2, .eval (.gradF 0)]
    (st.eval ok (.c 0)).1 = some 4 ∧ st.evals .c = 2 ∧ st.evals .gradF = 1 ∧ (st.set 0 0 |>.eval ok (.c 0)).1 = none := by decide +kernel

end Ex

end Verif.OrigNLP
