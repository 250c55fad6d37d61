import Verif.Spec.OrigNLP
import Mathlib.Tactic.Common

/-! # Invariant of the caches of `OrigIpoptNLP` -/

set_option linter.unusedSimpArgs false
set_option linter.unusedVariables false
set_option linter.unusedSectionVars false

namespace Verif.OrigNLP
open Verif Verif.Cache

variable {X V : Type} {valid : Kind → V → Bool}

/-- call of a function of `x` alone. -/
def User.call (U : User X V) : Kind → X → Option V
  | .f => U.f | .gradF => U.gradF | .c => U.c | .d => U.d | .jacC => U.jacC | .jacD => U.jacD | .h => fun _ => none

/-- is the result checked. -/
def Opts.chk (o : Opts) : Kind → Bool
  | .jacC | .jacD | .h => o.check
  | _ => true

/-- is the space empty. -/
def Struc.no (s : Struc X V) : Kind → Bool
  | .c | .jacC => s.noC
  | .d | .jacD => s.noD
  | _ => false

variable (valid)
/-- an entry of a cache other than that of `h`. -/
def EOK (st : St X V) (T : Nat → Prop) (k : Kind) (e : Entry V) : Prop :=
  e.scalars = [] ∧
  ((∃ x, e.deps = [some x] ∧ st.struc.no k = false ∧
      (T x → IsResult valid st.struc k (st.opts.chk k) (st.user.call k (st.struc.unX (st.vals x))) e.val)) ∨
   (e.deps = [none] ∧ if st.struc.no k then e.val = st.struc.empty k else
      k ≠ .f ∧ ∃ y, IsResult valid st.struc k (st.opts.chk k) (st.user.call k y) e.val))

/-- an entry of the cache of `h`. -/
def HOK (st : St X V) (T : Nat → Prop) (e : Entry V) : Prop :=
  ∃ σ, e.scalars = [σ] ∧
  ((∃ x yc yd, e.deps = [some x, some yc, some yd] ∧ (T x → T yc → T yd →
      IsResult valid st.struc .h st.opts.check (st.user.h (st.struc.unX (st.vals x)) (st.struc.obj σ) (st.struc.appC (st.vals yc)) (st.struc.appD (st.vals yd))) e.val)) ∨
   (e.deps = [none, none, none] ∧ (st.opts.hessConst = true →
      ∃ y zc zd, IsResult valid st.struc .h st.opts.check (st.user.h y (st.struc.obj σ) zc zd) e.val)))

/-- an entry of the cache of unscaled points. -/
def UOK (st : St X V) (T : Nat → Prop) (e : Entry X) : Prop :=
  ∃ x, e.deps = [some x] ∧ (T x → e.val = st.struc.unX (st.vals x))

structure Inv (T : Nat → Prop) (st : St X V) : Prop where
  max : ∀ k, k ≠ .h → st.max k = 1
  maxh : st.max .h = 1 ∨ st.max .h = 2
  len : ∀ k, k ≠ .h → (st.cache k).length ≤ 1
  e : ∀ k, k ≠ .h → ∀ e ∈ st.cache k, EOK valid st T k e
  h : ∀ e ∈ st.cache .h, HOK valid st T e
  u : ∀ e ∈ st.ux, UOK st T e
variable {valid}

theorem sameScalars_nil {l : List Num} (h : sameScalars [] l = true) : l = [] := by
  cases l <;> simp_all [sameScalars]

theorem eqB_eq {a b : Num} (h : Num.eqB a b = true) : a = b := by
  cases a <;> cases b <;> simp_all [Num.eqB]

theorem sameScalars_eq : ∀ (l m : List Num), sameScalars l m = true → l = m
  | [], l, h => (sameScalars_nil h).symm
  | a :: l, [], h => by simp [sameScalars] at h
  | a :: l, b :: m, h => by
    simp only [sameScalars, Bool.and_eq_true] at h
    rw [eqB_eq h.1, sameScalars_eq l m h.2]

theorem matches_eq {W : Type} {e : Entry W} {deps : List (Option Nat)} {sc : List Num} (h : e.matches deps sc = true) :
    e.deps = deps ∧ e.scalars = sc := by
  simp only [Entry.matches, Bool.and_eq_true, decide_eq_true_eq] at h
  exact ⟨h.1.symm, (sameScalars_eq _ _ h.2).symm⟩

theorem keep_mem {α : Type} {m : Int} {l : List α} {x : α} (hx : x ∈ keep m l) : x ∈ l := by
  unfold keep at hx
  split at hx
  · exact List.mem_of_mem_take hx
  · exact hx

theorem keep_one {α : Type} (l : List α) : (keep 1 l).length ≤ 1 := by
  unfold keep
  rw [if_pos (by decide)]
  simp

/-! ### Changing a vector -/

theorem Inv.set {T : Nat → Prop} {st : St X V} (I : Inv valid T st) (o : Nat) (v : X) :
    Inv valid (fun i => i = o ∨ T i) (st.set o v) := by
  have up : ∀ x, x ≠ o → (st.set o v).vals x = st.vals x := by
    intro x hx; simp [St.set, Function.update_of_ne hx]
  constructor
  · exact I.max
  · exact I.maxh
  · intro k hk
    exact (List.length_filter_le _ _).trans (I.len k hk)
  · intro k hk e he
    simp only [St.set, List.mem_filter] at he
    have h := I.e k hk e he.1
    have hd : some o ∉ e.deps := by simpa [Entry.dependsOn] using he.2
    refine ⟨h.1, ?_⟩
    rcases h.2 with ⟨x, h1, h2, h3⟩ | h
    · refine Or.inl ⟨x, h1, h2, ?_⟩
      have hx : x ≠ o := by rintro rfl; rw [h1] at hd; simp at hd
      intro ht
      have ht := ht.resolve_left hx
      rw [up x hx]
      exact h3 ht
    · exact Or.inr h
  · intro e he
    simp only [St.set, List.mem_filter] at he
    obtain ⟨σ, h1, h2⟩ := I.h e he.1
    have hd : some o ∉ e.deps := by simpa [Entry.dependsOn] using he.2
    refine ⟨σ, h1, ?_⟩
    rcases h2 with ⟨x, yc, yd, h2, h3⟩ | h2
    · refine Or.inl ⟨x, yc, yd, h2, ?_⟩
      rw [h2] at hd
      simp only [List.mem_cons, Option.some.injEq, List.not_mem_nil, or_false, not_or] at hd
      intro t1 t2 t3
      rw [up x (Ne.symm hd.1), up yc (Ne.symm hd.2.1), up yd (Ne.symm hd.2.2)]
      exact h3 (t1.resolve_left (Ne.symm hd.1)) (t2.resolve_left (Ne.symm hd.2.1)) (t3.resolve_left (Ne.symm hd.2.2))
    · exact Or.inr h2
  · intro e he
    simp only [St.set, List.mem_filter] at he
    obtain ⟨x, h1, h2⟩ := I.u e he.1
    have hd : some o ∉ e.deps := by simpa [Entry.dependsOn] using he.2
    have hx : x ≠ o := by rintro rfl; rw [h1] at hd; simp at hd
    refine ⟨x, h1, fun ht => ?_⟩
    rw [up x hx]
    exact h2 (ht.resolve_left hx)

/-! ### Initialization -/

theorem Inv.init {T : Nat → Prop} {st : St X V} (I : Inv valid T st) (w : Bool) (o : Opts) (u : User X V) (s : Struc X V)
    (hw : w = true → o.hessConst = false) : Inv valid (fun _ => False) (st.initialize w o u s) := by
  have sub : ∀ k, k ≠ .h → (((st.initialize w o u s).cache k).Sublist (st.cache k)) := by
    intro k hk
    cases k <;> simp only [St.initialize, invalidated] <;>
      first
        | exact absurd rfl hk
        | (cases w <;> simp <;> first | exact List.eraseP_sublist | skip)
  constructor
  · intro k hk
    simp only [St.initialize]
    cases w
    · simp [hk, I.max k hk]
    · simp [I.max k hk]
  · simp only [St.initialize]
    cases w
    · cases o.hessConst <;> simp
    · simpa using I.maxh
  · intro k hk
    exact (sub k hk).length_le.trans (I.len k hk)
  · intro k hk e he
    have h := I.e k hk e ((sub k hk).mem he)
    refine ⟨h.1, ?_⟩
    rcases h.2 with ⟨x, h1, h2, -⟩ | ⟨h1, h2⟩
    · cases w with
      | true => exact Or.inl ⟨x, h1, h2, False.elim⟩
      | false =>
        by_cases hf : k = .f
        · subst hf
          exact Or.inl ⟨x, h1, rfl, False.elim⟩
        · exfalso
          revert he
          cases k <;> simp_all [St.initialize, invalidated]
    · exfalso
      have hf : k ≠ .f := by
        rintro rfl
        simp [Struc.no] at h2
      have hl := I.len k hk
      have hm := (sub k hk).mem he
      have hc : st.cache k = [e] := by
        match hl2 : st.cache k, hl, hm with
        | [a], _, hm => simp at hm; rw [hm]
      have hmt : e.matches [none] [] = true := by
        simp [Entry.matches, h1, h.1, sameScalars]
      revert he
      cases k <;> cases w <;> simp_all [St.initialize, invalidated]
  · intro e he
    cases w with
    | false => simp [St.initialize, invalidated] at he
    | true =>
      have he' : e ∈ st.cache .h := by
        simp only [St.initialize, invalidated, Bool.true_or, if_true] at he
        exact List.mem_of_mem_eraseP he
      obtain ⟨σ, h1, h2⟩ := I.h e he'
      refine ⟨σ, h1, ?_⟩
      rcases h2 with ⟨x, yc, yd, h2, -⟩ | h2
      · exact Or.inl ⟨x, yc, yd, h2, fun t => t.elim⟩
      · refine Or.inr ⟨h2.1, fun hc => ?_⟩
        have := hw rfl
        simp only [St.initialize] at hc
        rw [this] at hc
        exact absurd hc (by simp)
  · intro e he
    obtain ⟨x, h1, -⟩ := I.u e he
    exact ⟨x, h1, False.elim⟩

/-! ### Requests -/

/-- nothing but caches, counters and the log is changed. -/
def Same (st st' : St X V) : Prop :=
  st'.vals = st.vals ∧ st'.user = st.user ∧ st'.struc = st.struc ∧ st'.opts = st.opts ∧ st'.max = st.max

theorem Inv.congr {T : Nat → Prop} {st st' : St X V} (I : Inv valid T st) (hs : Same st st') (hc : st'.cache = st.cache) (hu : st'.ux = st.ux) :
    Inv valid T st' := by
  obtain ⟨h1, h2, h3, h4, h5⟩ := hs
  constructor
  · rw [h5]; exact I.max
  · rw [h5]; exact I.maxh
  · rw [hc]; exact I.len
  · rw [hc]; intro k hk e he; have := I.e k hk e he; unfold EOK at *; rw [h1, h2, h3, h4]; exact this
  · rw [hc]; intro e he; have := I.h e he; unfold HOK at *; rw [h1, h2, h3, h4]; exact this
  · rw [hu]; intro e he; have := I.u e he; unfold UOK at *; rw [h1, h3]; exact this

theorem unscaledX_spec {T : Nat → Prop} {st : St X V} (I : Inv valid T st) (x : Nat) (hx : T x) :
    (st.unscaledX x).1 = st.struc.unX (st.vals x) ∧ Inv valid T (st.unscaledX x).2 ∧ Same st (st.unscaledX x).2 ∧
    (st.unscaledX x).2.cache = st.cache ∧ (st.unscaledX x).2.calls = st.calls ∧ (st.unscaledX x).2.evals = st.evals := by
  unfold St.unscaledX
  split
  · rename_i e he
    have hm := matches_eq (List.find?_some he)
    obtain ⟨y, h1, h2⟩ := I.u e (List.mem_of_find?_eq_some he)
    rw [h1] at hm
    have : y = x := by simpa using hm.1
    subst this
    exact ⟨h2 hx, I, ⟨rfl, rfl, rfl, rfl, rfl⟩, rfl, rfl, rfl⟩
  · refine ⟨rfl, ?_, ⟨rfl, rfl, rfl, rfl, rfl⟩, rfl, rfl, rfl⟩
    constructor
    · exact I.max
    · exact I.maxh
    · exact I.len
    · exact I.e
    · exact I.h
    · intro e he
      have he' : e ∈ keep 1 ((⟨[some x], [], st.struc.unX (st.vals x)⟩ : Entry X) :: st.ux) := he
      have := keep_mem he'
      simp only [List.mem_cons] at this
      rcases this with rfl | h
      · exact ⟨x, rfl, fun _ => rfl⟩
      · exact I.u e h

theorem Inv.addE {T : Nat → Prop} {st : St X V} (I : Inv valid T st) {k : Kind} (hk : k ≠ .h) {deps : List (Option Nat)} {v : V}
    (he : EOK valid st T k ⟨deps, [], v⟩) : Inv valid T (st.add k deps [] v) := by
  constructor
  · exact I.max
  · exact I.maxh
  · intro k' hk'
    by_cases h : k' = k
    · subst h
      simp only [St.add, Function.update_self, I.max k' hk']
      exact keep_one _
    · simp only [St.add, Function.update_of_ne h]
      exact I.len k' hk'
  · intro k' hk' e he'
    by_cases h : k' = k
    · subst h
      simp only [St.add, Function.update_self] at he'
      have := keep_mem he'
      simp only [List.mem_cons] at this
      rcases this with rfl | h
      · exact he
      · exact I.e k' hk' e h
    · simp only [St.add, Function.update_of_ne h] at he'
      exact I.e k' hk' e he'
  · intro e he'
    simp only [St.add, Function.update_of_ne (Ne.symm hk)] at he'
    exact I.h e he'
  · exact I.u

theorem Inv.addH {T : Nat → Prop} {st : St X V} (I : Inv valid T st) {deps : List (Option Nat)} {sc : List Num} {v : V}
    (he : HOK valid st T ⟨deps, sc, v⟩) : Inv valid T (st.add .h deps sc v) := by
  constructor
  · exact I.max
  · exact I.maxh
  · intro k hk
    simp only [St.add, Function.update_of_ne hk]
    exact I.len k hk
  · intro k hk e he'
    simp only [St.add, Function.update_of_ne hk] at he'
    exact I.e k hk e he'
  · intro e he'
    simp only [St.add, Function.update_self] at he'
    have := keep_mem he'
    simp only [List.mem_cons] at this
    rcases this with rfl | h
    · exact he
    · exact I.h e h
  · exact I.u

/-- the outcomes of the common part. -/
theorem evalVia_cases {T : Nat → Prop} {st : St X V} (I : Inv valid T st) (k : Kind) (deps : List (Option Nat)) (sc : List Num) (x : Nat)
    (hx : T x) (chk : Bool) (call : X → Option V) :
    let r := st.evalVia valid k deps sc x chk call
    let ux := st.struc.unX (st.vals x)
    (∃ e ∈ st.cache k, e.deps = deps ∧ e.scalars = sc ∧ r = (some e.val, st)) ∨
    ((∀ e ∈ st.cache k, e.matches deps sc = false) ∧ ∃ st1, Inv valid T st1 ∧ Same st st1 ∧ st1.cache = st.cache ∧ st1.calls = (k, ux) :: st.calls ∧
      st1.evals = Function.update st.evals k (st.evals k + 1) ∧
      (((∀ u, call ux = some u → chk = true ∧ valid k u = false) ∧ r = (none, st1)) ∨
       ∃ v, IsResult valid st.struc k chk (call ux) v ∧ r = (some v, st1.add k deps sc v))) := by
  intro r ux
  show _ ∨ _
  have hr : r = st.evalVia valid k deps sc x chk call := rfl
  clear_value r
  unfold St.evalVia at hr
  split at hr
  · rename_i e he
    left
    have hm := matches_eq (List.find?_some he)
    exact ⟨e, List.mem_of_find?_eq_some he, hm.1, hm.2, hr⟩
  · rename_i hn
    right
    have hn' : ∀ e ∈ st.cache k, e.matches deps sc = false := by
      intro e he
      have := List.find?_eq_none.mp hn e he
      simpa using this
    refine ⟨hn', ?_⟩
    have I0 : Inv valid T { st with evals := Function.update st.evals k (st.evals k + 1) } :=
      I.congr ⟨rfl, rfl, rfl, rfl, rfl⟩ rfl rfl
    obtain ⟨a1, a2, a3, a4, a5, a6⟩ := unscaledX_spec I0 x hx
    rcases hu : St.unscaledX { st with evals := Function.update st.evals k (st.evals k + 1) } x with ⟨u0, st0⟩
    rw [hu] at a1 a2 a3 a4 a5 a6
    simp only [hu] at a1 a2 a3 a4 a5 a6 hr
    refine ⟨{ st0 with calls := (k, u0) :: st0.calls }, a2.congr ⟨rfl, rfl, rfl, rfl, rfl⟩ rfl rfl, a3, a4, ?_, a6, ?_⟩
    · simp only [a1, a5]; rfl
    · have hs : st0.struc = st.struc := a3.2.2.1
      rw [a1] at hr
      have hux : st.struc.unX (st.vals x) = ux := rfl
      rw [hux] at hr a1
      subst a1
      cases hc : call ux with
      | none =>
        rw [hc] at hr
        left
        exact ⟨by simp, hr⟩
      | some u =>
        rw [hc] at hr
        by_cases hv : (chk && !valid k u) = true
        · left
          refine ⟨?_, ?_⟩
          · intro u' hu'
            cases hu'
            simpa using hv
          · simpa [hv] using hr
        · right
          refine ⟨st.struc.res k u, ⟨u, rfl, ?_, rfl⟩, ?_⟩
          · intro h; simp [h] at hv; exact hv
          · simp only [hs, hv, Bool.false_eq_true, if_false] at hr
            simp only [hs]
            exact hr

/-- what a request does. -/
structure Outcome (valid : Kind → V → Bool) (T : Nat → Prop) (st : St X V) (k : Kind) (x : Nat) (R : V → Prop) (F : Prop) (r : Option V × St X V) : Prop where
  inv : Inv valid T r.2
  same : Same st r.2
  right : ∀ v, r.1 = some v → R v
  fails : r.1 = none → F
  log : (r.2.calls = st.calls ∧ r.2.evals = st.evals ∧ r.1 ≠ none) ∨
    (r.2.calls = (k, st.struc.unX (st.vals x)) :: st.calls ∧ r.2.evals = Function.update st.evals k (st.evals k + 1))
  other : ∀ k', k' ≠ k → r.2.cache k' = st.cache k'

theorem evalE {T : Nat → Prop} {st : St X V} (I : Inv valid T st) {k : Kind} (hk : k ≠ .h) (hno : st.struc.no k = false) (const : Bool)
    (hf : const = true → k ≠ .f) (x : Nat) (hx : T x) :
    Outcome valid T st k x (fun v => ∃ y, (const = false → y = st.struc.unX (st.vals x)) ∧ IsResult valid st.struc k (st.opts.chk k) (st.user.call k y) v)
      (∀ u, st.user.call k (st.struc.unX (st.vals x)) = some u → st.opts.chk k = true ∧ valid k u = false)
      (st.evalVia valid k (dep const x) [] x (st.opts.chk k) (st.user.call k)) := by
  rcases evalVia_cases I k (dep const x) [] x hx (st.opts.chk k) (st.user.call k) with ⟨e, he, h1, h2, hr⟩ | ⟨-, st1, J, S, hc, hl, hv, h⟩
  · rw [hr]
    refine ⟨I, ⟨rfl, rfl, rfl, rfl, rfl⟩, ?_, by simp, Or.inl ⟨rfl, rfl, by simp⟩, fun _ _ => rfl⟩
    intro v hv
    have hv : e.val = v := by simpa using hv
    subst hv
    have := (I.e k hk e he).2
    rw [hno] at this
    cases const with
    | false =>
      rcases this with ⟨y, g1, -, g3⟩ | ⟨g1, -⟩
      · rw [h1] at g1
        have : x = y := by simpa [dep] using g1
        subst this
        exact ⟨_, fun _ => rfl, g3 hx⟩
      · rw [h1] at g1; simp [dep] at g1
    | true =>
      rcases this with ⟨y, g1, -, g3⟩ | ⟨g1, g2⟩
      · rw [h1] at g1; simp [dep] at g1
      · simp only [Bool.false_eq_true, if_false] at g2
        obtain ⟨-, y, hy⟩ := g2
        exact ⟨y, by simp, hy⟩
  · rcases h with ⟨h1, hr⟩ | ⟨v, h1, hr⟩
    · rw [hr]
      exact ⟨J, S, by simp, fun _ => h1, Or.inr ⟨hl, hv⟩, fun _ _ => by rw [hc]⟩
    · rw [hr]
      refine ⟨?_, S, ?_, by simp, Or.inr ⟨hl, hv⟩, fun k' hk' => by simp [St.add, Function.update_of_ne hk', hc]⟩
      · refine J.addE hk ⟨rfl, ?_⟩
        obtain ⟨s1, s2, s3, s4, s5⟩ := S
        rw [s1, s2, s3, s4]
        cases const with
        | false => exact Or.inl ⟨x, rfl, hno, fun _ => h1⟩
        | true =>
          refine Or.inr ⟨rfl, ?_⟩
          rw [hno]
          simp only [Bool.false_eq_true, if_false]
          exact ⟨hf rfl, _, h1⟩
      · intro w hw
        have hw : v = w := by simpa using hw
        subst hw
        exact ⟨_, fun _ => rfl, h1⟩

theorem emptyE {T : Nat → Prop} {st : St X V} (I : Inv valid T st) {k : Kind} (hk : k ≠ .h) (hno : st.struc.no k = true) (x : Nat) (F : Prop) :
    Outcome valid T st k x (fun v => v = st.struc.empty k) F (st.emptyVia k) := by
  unfold St.emptyVia
  split
  · rename_i e he
    refine ⟨I, ⟨rfl, rfl, rfl, rfl, rfl⟩, ?_, by simp, Or.inl ⟨rfl, rfl, by simp⟩, fun _ _ => rfl⟩
    intro v hv
    have hv : e.val = v := by simpa using hv
    subst hv
    have hm := matches_eq (List.find?_some he)
    have := (I.e k hk e (List.mem_of_find?_eq_some he)).2
    rw [hno] at this
    rcases this with ⟨y, g1, g2, -⟩ | ⟨g1, g2⟩
    · simp at g2
    · simpa using g2
  · refine ⟨?_, ⟨rfl, rfl, rfl, rfl, rfl⟩, ?_, by simp, Or.inl ⟨rfl, rfl, by simp⟩,
      fun k' hk' => by simp [St.add, Function.update_of_ne hk']⟩
    · refine I.addE hk ⟨rfl, Or.inr ⟨rfl, ?_⟩⟩
      rw [hno]
      rfl
    · intro v hv
      have hv : st.struc.empty k = v := by simpa using hv
      exact hv.symm

theorem evalH {T : Nat → Prop} {st : St X V} (I : Inv valid T st) (x : Nat) (σ : Num) (yc yd : Nat) (hx : T x) (hyc : T yc) (hyd : T yd) :
    Outcome valid T st .h x (Right valid st.user st.struc st.opts st.vals (.h x σ yc yd)) (Fails valid st.user st.struc st.opts st.vals (.h x σ yc yd))
      (st.h valid x σ yc yd) := by
  unfold St.h
  rcases evalVia_cases I .h (if st.opts.hessConst then [none, none, none] else [some x, some yc, some yd]) [σ] x hx st.opts.check
      (fun u => st.user.h u (st.struc.obj σ) (st.struc.appC (st.vals yc)) (st.struc.appD (st.vals yd))) with
    ⟨e, he, h1, h2, hr⟩ | ⟨-, st1, J, S, hc, hl, hv, h⟩
  · rw [hr]
    refine ⟨I, ⟨rfl, rfl, rfl, rfl, rfl⟩, ?_, by simp, Or.inl ⟨rfl, rfl, by simp⟩, fun _ _ => rfl⟩
    intro v hv
    have hv : e.val = v := by simpa using hv
    subst hv
    obtain ⟨σ', g1, g2⟩ := I.h e he
    have hσ : σ = σ' := by rw [h2] at g1; simpa using g1
    subst hσ
    unfold Right
    cases hh : st.opts.hessConst with
    | false =>
      rw [hh] at h1
      rcases g2 with ⟨a, b, c, g2, g3⟩ | ⟨g2, -⟩
      · rw [h1] at g2
        have : x = a ∧ yc = b ∧ yd = c := by simpa using g2
        obtain ⟨rfl, rfl, rfl⟩ := this
        exact ⟨_, _, _, fun _ => ⟨rfl, rfl, rfl⟩, g3 hx hyc hyd⟩
      · rw [h1] at g2; simp at g2
    | true =>
      rw [hh] at h1
      rcases g2 with ⟨a, b, c, g2, g3⟩ | ⟨g2, g3⟩
      · rw [h1] at g2; simp at g2
      · obtain ⟨y, zc, zd, h⟩ := g3 hh
        exact ⟨y, zc, zd, by simp, h⟩
  · rcases h with ⟨h1, hr⟩ | ⟨v, h1, hr⟩
    · rw [hr]
      exact ⟨J, S, by simp, fun _ => h1, Or.inr ⟨hl, hv⟩, fun _ _ => by rw [hc]⟩
    · rw [hr]
      refine ⟨?_, S, ?_, by simp, Or.inr ⟨hl, hv⟩, fun k' hk' => by simp [St.add, Function.update_of_ne hk', hc]⟩
      · refine J.addH ⟨σ, rfl, ?_⟩
        obtain ⟨s1, s2, s3, s4, s5⟩ := S
        rw [s1, s2, s3, s4]
        cases hh : st.opts.hessConst with
        | false => exact Or.inl ⟨x, yc, yd, by simp, fun _ _ _ => h1⟩
        | true => exact Or.inr ⟨by simp, fun _ => ⟨_, _, _, h1⟩⟩
      · intro w hw
        have hw : v = w := by simpa using hw
        subst hw
        exact ⟨_, _, _, fun _ => ⟨rfl, rfl, rfl⟩, h1⟩

theorem Outcome.mono {T : Nat → Prop} {st : St X V} {k : Kind} {x : Nat} {R R' : V → Prop} {F F' : Prop} {r : Option V × St X V}
    (o : Outcome valid T st k x R F r) (hR : ∀ v, R v → R' v) (hF : F → F') : Outcome valid T st k x R' F' r :=
  ⟨o.inv, o.same, fun v hv => hR v (o.right v hv), fun h => hF (o.fails h), o.log, o.other⟩

theorem eval_outcome {T : Nat → Prop} {st : St X V} (I : Inv valid T st) (r : Req) (hr : ∀ o ∈ r.args, T o) :
    Outcome valid T st r.kind r.x (Right valid st.user st.struc st.opts st.vals r) (Fails valid st.user st.struc st.opts st.vals r) (st.eval valid r) := by
  cases r with
  | f x =>
    refine (evalE (k := .f) I (by decide) rfl false (by simp) x (hr x (by simp [Req.args, Req.x]))).mono ?_ ?_
    · rintro v ⟨y, h1, h2⟩; rw [h1 rfl] at h2; exact h2
    · intro h u hu; exact (h u hu).2
  | gradF x =>
    refine (evalE (k := .gradF) I (by decide) rfl st.opts.gradConst (by simp) x (hr x (by simp [Req.args, Req.x]))).mono (fun v h => h) ?_
    intro h u hu; exact (h u hu).2
  | c x =>
    show Outcome valid T st .c x _ _ (St.c valid st x)
    unfold St.c Right
    cases hn : st.struc.noC with
    | true => simp only [if_true]; exact emptyE (k := .c) I (by decide) hn x _
    | false =>
      simp only [Bool.false_eq_true, if_false]
      refine (evalE (k := .c) I (by decide) hn false (by simp) x (hr x (by simp [Req.args, Req.x]))).mono ?_ ?_
      · rintro v ⟨y, h1, h2⟩; rw [h1 rfl] at h2; exact h2
      · intro h u hu; exact (h u hu).2
  | d x =>
    show Outcome valid T st .d x _ _ (St.d valid st x)
    unfold St.d Right
    cases hn : st.struc.noD with
    | true => simp only [if_true]; exact emptyE (k := .d) I (by decide) hn x _
    | false =>
      simp only [Bool.false_eq_true, if_false]
      refine (evalE (k := .d) I (by decide) hn false (by simp) x (hr x (by simp [Req.args, Req.x]))).mono ?_ ?_
      · rintro v ⟨y, h1, h2⟩; rw [h1 rfl] at h2; exact h2
      · intro h u hu; exact (h u hu).2
  | jacC x =>
    show Outcome valid T st .jacC x _ _ (St.jacC valid st x)
    unfold St.jacC Right
    cases hn : st.struc.noC with
    | true => simp only [if_true]; exact emptyE (k := .jacC) I (by decide) hn x _
    | false =>
      simp only [Bool.false_eq_true, if_false]
      exact (evalE (k := .jacC) I (by decide) hn st.opts.jacCConst (by simp) x (hr x (by simp [Req.args, Req.x]))).mono (fun v h => h) (fun h => h)
  | jacD x =>
    show Outcome valid T st .jacD x _ _ (St.jacD valid st x)
    unfold St.jacD Right
    cases hn : st.struc.noD with
    | true => simp only [if_true]; exact emptyE (k := .jacD) I (by decide) hn x _
    | false =>
      simp only [Bool.false_eq_true, if_false]
      exact (evalE (k := .jacD) I (by decide) hn st.opts.jacDConst (by simp) x (hr x (by simp [Req.args, Req.x]))).mono (fun v h => h) (fun h => h)
  | h x σ yc yd =>
    exact evalH I x σ yc yd (hr x (by simp [Req.args])) (hr yc (by simp [Req.args])) (hr yd (by simp [Req.args]))

theorem Inv.run (ops : List (Op X V)) : ∀ {T : Nat → Prop} {st : St X V}, Inv valid T st → Legal T ops → Inv valid (touched T ops) (st.run valid ops) := by
  induction ops with
  | nil => intro T st I _; exact I
  | cons op ops ih =>
    intro T st I L
    cases op with
    | set o v => exact ih (I.set o v) L
    | eval r => exact ih (eval_outcome I r L.1).inv L.2
    | init w o u s => exact ih (I.init w o u s L.1) L.2

theorem Inv.new (vals : Nat → X) (u : User X V) (s : Struc X V) (o : Opts) (T : Nat → Prop) : Inv valid T (St.new vals u s o) := by
  constructor <;> simp [St.new]

end Verif.OrigNLP
