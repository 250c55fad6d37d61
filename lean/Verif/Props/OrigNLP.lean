import Verif.Proof.OrigNLP

/-! # Evaluations by the algorithm (C62) -/

set_option linter.unusedSimpArgs false
set_option linter.unusedVariables false
set_option linter.unusedSectionVars false

namespace Verif.OrigNLP
open Verif Verif.Cache

variable {X V : Type} {valid : Kind → V → Bool}

/-- the state after a history. -/
def after (valid : Kind → V → Bool) (vals : Nat → X) (u : User X V) (s : Struc X V) (o : Opts) (ops : List (Op X V)) : St X V :=
  (St.new vals u s o).run valid ops

theorem after_inv (vals : Nat → X) (u : User X V) (s : Struc X V) (o : Opts) (ops : List (Op X V)) (L : Legal (fun _ => True) ops) :
    Inv valid (touched (fun _ => True) ops) (after valid vals u s o ops) := (Inv.new vals u s o _).run ops L

/-- **C62** After every history of evaluations (also failing ones), changes of vectors and re-initializations with other problems, options, scaling
and structure, a request is answered with a right value, or with an exception; the latter only if the user's function fails (or, if that is checked, gives invalid
numbers) at exactly the requested point, and it is called for every exception. -/
theorem eval_right (vals : Nat → X) (u : User X V) (s : Struc X V) (o : Opts) (ops : List (Op X V)) (L : Legal (fun _ => True) ops) (r : Req)
    (hr : ∀ i ∈ r.args, touched (fun _ => True) ops i) :
    let st := after valid vals u s o ops
    (∀ v, (st.eval valid r).1 = some v → Right valid st.user st.struc st.opts st.vals r v) ∧
    ((st.eval valid r).1 = none → Fails valid st.user st.struc st.opts st.vals r ∧
      (st.eval valid r).2.calls = (r.kind, st.struc.unX (st.vals r.x)) :: st.calls) := by
  intro st
  have O := eval_outcome (after_inv (valid := valid) vals u s o ops L) r hr
  refine ⟨O.right, fun h => ⟨O.fails h, ?_⟩⟩
  rcases O.log with ⟨-, -, h'⟩ | h'
  · exact absurd h h'
  · exact h'.1

/-- **C62** If what was declared constant is constant, derivatives are those at the requested point whenever they can be evaluated there. -/
theorem constant_right (vals : Nat → X) (u : User X V) (s : Struc X V) (o : Opts) (ops : List (Op X V)) (L : Legal (fun _ => True) ops) (x : Nat)
    (hx : touched (fun _ => True) ops x) :
    let st := after valid vals u s o ops
    ((∀ y y' a b, st.user.gradF y = some a → st.user.gradF y' = some b → a = b) →
      ∀ v a, (st.eval valid (.gradF x)).1 = some v → st.user.gradF (st.struc.unX (st.vals x)) = some a → v = st.struc.res .gradF a) ∧
    ((∀ y y' a b, st.user.jacC y = some a → st.user.jacC y' = some b → a = b) → st.struc.noC = false →
      ∀ v a, (st.eval valid (.jacC x)).1 = some v → st.user.jacC (st.struc.unX (st.vals x)) = some a → v = st.struc.res .jacC a) ∧
    ((∀ y y' a b, st.user.jacD y = some a → st.user.jacD y' = some b → a = b) → st.struc.noD = false →
      ∀ v a, (st.eval valid (.jacD x)).1 = some v → st.user.jacD (st.struc.unX (st.vals x)) = some a → v = st.struc.res .jacD a) ∧
    ((∀ y y' σ zc zc' zd zd' a b, st.user.h y σ zc zd = some a → st.user.h y' σ zc' zd' = some b → a = b) →
      ∀ v a σ yc yd, touched (fun _ => True) ops yc → touched (fun _ => True) ops yd → (st.eval valid (.h x σ yc yd)).1 = some v →
        st.user.h (st.struc.unX (st.vals x)) (st.struc.obj σ) (st.struc.appC (st.vals yc)) (st.struc.appD (st.vals yd)) = some a →
        v = st.struc.res .h a) := by
  intro st
  have R := fun r hr => (eval_right (valid := valid) vals u s o ops L r hr).1
  refine ⟨?_, ?_, ?_, ?_⟩
  · intro H v a hv ha
    obtain ⟨y, -, w, h1, -, h2⟩ := R (.gradF x) (by simpa [Req.args, Req.x] using hx) v hv
    rw [h2, H _ _ _ _ h1 ha]
  · intro H hn v a hv ha
    have := R (.jacC x) (by simpa [Req.args, Req.x] using hx) v hv
    simp only [Right] at this
    change (if st.struc.noC = true then _ else _) at this
    rw [if_neg (by rw [hn]; simp)] at this
    obtain ⟨y, -, w, h1, -, h2⟩ := this
    rw [h2, H _ _ _ _ h1 ha]
  · intro H hn v a hv ha
    have := R (.jacD x) (by simpa [Req.args, Req.x] using hx) v hv
    simp only [Right] at this
    change (if st.struc.noD = true then _ else _) at this
    rw [if_neg (by rw [hn]; simp)] at this
    obtain ⟨y, -, w, h1, -, h2⟩ := this
    rw [h2, H _ _ _ _ h1 ha]
  · intro H v a σ yc yd hc hd hv ha
    obtain ⟨y, zc, zd, -, w, h1, -, h2⟩ := R (.h x σ yc yd) (by simp [Req.args, hx, hc, hd]) v hv
    rw [h2, H _ _ _ _ _ _ _ _ _ h1 ha]

/-! ### Counters -/

theorem unscaledX_log (st : St X V) (x : Nat) : (st.unscaledX x).2.calls = st.calls ∧ (st.unscaledX x).2.evals = st.evals ∧
    (st.unscaledX x).2.cache = st.cache ∧ Same st (st.unscaledX x).2 := by
  unfold St.unscaledX
  split <;> exact ⟨rfl, rfl, rfl, rfl, rfl, rfl, rfl, rfl⟩

theorem nCalls_cons (k k' : Kind) (x : X) (l : List (Kind × X)) : nCalls k ((k', x) :: l) = (if k' = k then 1 else 0) + nCalls k l := by
  unfold nCalls
  simp only [List.filter_cons]
  split <;> simp_all [Nat.add_comm]

theorem evalVia_count (st : St X V) (k : Kind) (deps : List (Option Nat)) (sc : List Num) (x : Nat) (chk : Bool) (call : X → Option V) (k' : Kind) :
    (st.evalVia valid k deps sc x chk call).2.evals k' + nCalls k' st.calls = st.evals k' + nCalls k' (st.evalVia valid k deps sc x chk call).2.calls := by
  unfold St.evalVia
  split
  · rfl
  · have hu := unscaledX_log { st with evals := Function.update st.evals k (st.evals k + 1) } x
    rcases he : St.unscaledX { st with evals := Function.update st.evals k (st.evals k + 1) } x with ⟨u0, st0⟩
    rw [he] at hu
    simp only at hu
    have key : st0.evals k' + nCalls k' st.calls = st.evals k' + nCalls k' ((k, u0) :: st0.calls) := by
      rw [hu.1, hu.2.1, nCalls_cons]
      by_cases h : k = k'
      · subst h; simp; omega
      · rw [Function.update_of_ne (Ne.symm h), if_neg h]; omega
    simp only [he]
    split
    · exact key
    · split <;> exact key

theorem emptyVia_count (st : St X V) (k : Kind) : (st.emptyVia k).2.evals = st.evals ∧ (st.emptyVia k).2.calls = st.calls := by
  unfold St.emptyVia
  split <;> exact ⟨rfl, rfl⟩

theorem eval_count (st : St X V) (r : Req) (k : Kind) :
    (st.eval valid r).2.evals k + nCalls k st.calls = st.evals k + nCalls k (st.eval valid r).2.calls := by
  cases r <;> simp only [St.eval, St.f, St.gradF, St.c, St.d, St.jacC, St.jacD, St.h]
  case c => split
            · rw [(emptyVia_count st _).1, (emptyVia_count st _).2]
            · exact evalVia_count _ _ _ _ _ _ _ _
  case d => split
            · rw [(emptyVia_count st _).1, (emptyVia_count st _).2]
            · exact evalVia_count _ _ _ _ _ _ _ _
  case jacC => split
               · rw [(emptyVia_count st _).1, (emptyVia_count st _).2]
               · exact evalVia_count _ _ _ _ _ _ _ _
  case jacD => split
               · rw [(emptyVia_count st _).1, (emptyVia_count st _).2]
               · exact evalVia_count _ _ _ _ _ _ _ _
  all_goals exact evalVia_count _ _ _ _ _ _ _ _

/-- **C62** The reported numbers of evaluations are the numbers of calls of the user's functions since the last initialization (also unsuccessful calls). -/
theorem counters_exact (st0 : St X V) (w : Bool) (o : Opts) (u : User X V) (s : Struc X V) (ops : List (Op X V)) (hn : NoInit ops) (k : Kind) :
    ((st0.initialize w o u s).run valid ops).evals k + nCalls k st0.calls = nCalls k ((st0.initialize w o u s).run valid ops).calls := by
  have H : ∀ (ops : List (Op X V)) (st : St X V), NoInit ops →
      (st.run valid ops).evals k + nCalls k st.calls = st.evals k + nCalls k (st.run valid ops).calls := by
    intro ops
    induction ops with
    | nil => intro st _; rfl
    | cons op ops ih =>
      intro st hn
      have hn' : NoInit ops := fun op' h => hn op' (List.mem_cons_of_mem _ h)
      cases op with
      | set o v => exact ih (st.set o v) hn'
      | eval r =>
        have h1 := ih (st.eval valid r).2 hn'
        have h2 := eval_count (valid := valid) st r k
        show ((st.eval valid r).2.run valid ops).evals k + _ = _ + nCalls k ((st.eval valid r).2.run valid ops).calls
        omega
      | init w o u s => exact absurd rfl (hn _ List.mem_cons_self w o u s)
  have := H ops (st0.initialize w o u s) hn
  have e1 : (st0.initialize w o u s).evals k = 0 := rfl
  have e2 : (st0.initialize w o u s).calls = st0.calls := rfl
  rw [e1, e2] at this
  omega

/-! ### Repeated requests -/

/-- the key under which the answer to a request is stored. -/
def St.key (st : St X V) : Req → List (Option Nat) × List Num
  | .f x => ([some x], [])
  | .gradF x => (dep st.opts.gradConst x, [])
  | .c x => (if st.struc.noC then [none] else [some x], [])
  | .d x => (if st.struc.noD then [none] else [some x], [])
  | .jacC x => (if st.struc.noC then [none] else dep st.opts.jacCConst x, [])
  | .jacD x => (if st.struc.noD then [none] else dep st.opts.jacDConst x, [])
  | .h x σ yc yd => (if st.opts.hessConst then [none, none, none] else [some x, some yc, some yd], [σ])

def St.found (st : St X V) (r : Req) : Option (Entry V) := (st.cache r.kind).find? (·.matches (st.key r).1 (st.key r).2)

theorem evalVia_hit (st : St X V) {k : Kind} {deps : List (Option Nat)} {sc : List Num} {x : Nat} {chk : Bool} {call : X → Option V} {e : Entry V}
    (h : (st.cache k).find? (·.matches deps sc) = some e) : st.evalVia valid k deps sc x chk call = (some e.val, st) := by
  unfold St.evalVia
  rw [h]

theorem emptyVia_hit (st : St X V) {k : Kind} {e : Entry V} (h : (st.cache k).find? (·.matches [none] []) = some e) :
    st.emptyVia k = (some e.val, st) := by
  unfold St.emptyVia
  rw [h]

/-- a stored answer is given without a call. -/
theorem found_hit {st : St X V} {r : Req} {e : Entry V} (h : st.found r = some e) : st.eval valid r = (some e.val, st) := by
  unfold St.found at h
  cases r with
  | f x => exact evalVia_hit st h
  | gradF x => exact evalVia_hit st h
  | c x =>
    simp only [St.eval, St.c]
    simp only [St.key] at h
    split <;> rename_i hn <;> simp only [hn] at h
    · exact emptyVia_hit st h
    · exact evalVia_hit st h
  | d x =>
    simp only [St.eval, St.d]
    simp only [St.key] at h
    split <;> rename_i hn <;> simp only [hn] at h
    · exact emptyVia_hit st h
    · exact evalVia_hit st h
  | jacC x =>
    simp only [St.eval, St.jacC]
    simp only [St.key] at h
    split <;> rename_i hn <;> simp only [hn] at h
    · exact emptyVia_hit st h
    · exact evalVia_hit st h
  | jacD x =>
    simp only [St.eval, St.jacD]
    simp only [St.key] at h
    split <;> rename_i hn <;> simp only [hn] at h
    · exact emptyVia_hit st h
    · exact evalVia_hit st h
  | h x σ yc yd => simp only [St.eval, St.h]; exact evalVia_hit st h

/-- the scalar of the request is a number. -/
def Req.num : Req → Prop
  | .h _ σ _ _ => σ ≠ .nan
  | _ => True

theorem matches_self {deps : List (Option Nat)} {sc : List Num} (h : ∀ a ∈ sc, a ≠ .nan) (v : V) :
    (⟨deps, sc, v⟩ : Entry V).matches deps sc = true := by
  simp only [Entry.matches, decide_true, Bool.true_and]
  induction sc with
  | nil => rfl
  | cons a l ih =>
    simp only [sameScalars, Bool.and_eq_true]
    refine ⟨?_, ih fun b hb => h b (List.mem_cons_of_mem _ hb)⟩
    have := h a List.mem_cons_self
    cases a <;> simp_all [Num.eqB]

theorem find_keep {p : Entry V → Bool} {m : Int} (hm : 1 ≤ m) {e : Entry V} (he : p e = true) (l : List (Entry V)) :
    (keep m (e :: l)).find? p = some e := by
  unfold keep
  rw [if_pos (by omega)]
  obtain ⟨n, hn⟩ : ∃ n, m.toNat = n + 1 := ⟨m.toNat - 1, by omega⟩
  rw [hn, List.take_succ_cons, List.find?_cons, he]

theorem evalVia_stored {st : St X V} {k : Kind} (hm : 1 ≤ st.max k) {deps : List (Option Nat)} {sc : List Num} (hs : ∀ a ∈ sc, a ≠ .nan)
    {x : Nat} {chk : Bool} {call : X → Option V} {v : V} (h : (st.evalVia valid k deps sc x chk call).1 = some v) :
    ∃ e, (((st.evalVia valid k deps sc x chk call).2.cache k).find? (·.matches deps sc) = some e ∧ e.val = v) ∧
      Same st (st.evalVia valid k deps sc x chk call).2 := by
  unfold St.evalVia at h ⊢
  split at h
  · rename_i e he
    refine ⟨e, ⟨?_, by simpa using h⟩, ?_⟩
    · simp only [he]
    · simp only [he]; exact ⟨rfl, rfl, rfl, rfl, rfl⟩
  · rename_i hn
    have hu := unscaledX_log { st with evals := Function.update st.evals k (st.evals k + 1) } x
    rcases he : St.unscaledX { st with evals := Function.update st.evals k (st.evals k + 1) } x with ⟨u0, st0⟩
    rw [he] at hu
    simp only [he, hn] at hu h ⊢
    cases hc : call u0 with
    | none => rw [hc] at h; simp at h
    | some w =>
      simp only [hc] at h ⊢
      by_cases hv : (chk && !valid k w) = true
      · simp [hv] at h
      · simp only [hv, Bool.false_eq_true, if_false] at h ⊢
        refine ⟨⟨deps, sc, st0.struc.res k w⟩, ⟨?_, by simpa using h⟩, ?_⟩
        · simp only [St.add, Function.update_self]
          apply find_keep _ (matches_self hs _)
          have := hu.2.2.2.2.2.2.2
          simp only at this
          rw [this]
          exact hm
        · exact hu.2.2.2

theorem emptyVia_stored {st : St X V} {k : Kind} (hm : 1 ≤ st.max k) {v : V} (h : (st.emptyVia k).1 = some v) :
    ∃ e, (((st.emptyVia k).2.cache k).find? (·.matches [none] []) = some e ∧ e.val = v) ∧ Same st (st.emptyVia k).2 := by
  unfold St.emptyVia at h ⊢
  split at h
  · rename_i e he
    refine ⟨e, ⟨?_, by simpa using h⟩, ?_⟩
    · simp only [he]
    · simp only [he]; exact ⟨rfl, rfl, rfl, rfl, rfl⟩
  · rename_i hn
    simp only [hn]
    refine ⟨⟨[none], [], st.struc.empty k⟩, ⟨?_, by simpa using h⟩, rfl, rfl, rfl, rfl, rfl⟩
    simp only [St.add, Function.update_self]
    exact find_keep hm (matches_self (by simp) _) _

theorem key_same {st st' : St X V} (hs : Same st st') (r : Req) : st'.key r = st.key r := by
  obtain ⟨h1, h2, h3, h4, h5⟩ := hs
  cases r <;> simp only [St.key, h3, h4]

/-- a successful answer is stored. -/
theorem eval_stored {st : St X V} (hm : ∀ k, 1 ≤ st.max k) {r : Req} (hr : r.num) {v : V} (h : (st.eval valid r).1 = some v) :
    ∃ e, (st.eval valid r).2.found r = some e ∧ e.val = v := by
  unfold St.found
  cases r with
  | f x =>
    obtain ⟨e, h1, h2⟩ := evalVia_stored (hm .f) (by simp) h
    exact ⟨e, h1⟩
  | gradF x =>
    obtain ⟨e, h1, h2⟩ := evalVia_stored (hm .gradF) (by simp) h
    refine ⟨e, ?_⟩
    change Same st (st.eval valid (.gradF x)).2 at h2
    rw [key_same h2]; exact h1
  | c x =>
    simp only [St.eval, St.c] at h ⊢
    split at h <;> rename_i hn <;> simp only [hn, if_true, if_false, Bool.false_eq_true]
    · obtain ⟨e, h1, h2⟩ := emptyVia_stored (hm .c) h
      refine ⟨e, ?_⟩
      rw [key_same h2]; simp only [St.key, hn, if_true]; exact h1
    · obtain ⟨e, h1, h2⟩ := evalVia_stored (hm .c) (by simp) h
      refine ⟨e, ?_⟩
      rw [key_same h2]; simp only [St.key, hn, if_false]; exact h1
  | d x =>
    simp only [St.eval, St.d] at h ⊢
    split at h <;> rename_i hn <;> simp only [hn, if_true, if_false, Bool.false_eq_true]
    · obtain ⟨e, h1, h2⟩ := emptyVia_stored (hm .d) h
      refine ⟨e, ?_⟩
      rw [key_same h2]; simp only [St.key, hn, if_true]; exact h1
    · obtain ⟨e, h1, h2⟩ := evalVia_stored (hm .d) (by simp) h
      refine ⟨e, ?_⟩
      rw [key_same h2]; simp only [St.key, hn, if_false]; exact h1
  | jacC x =>
    simp only [St.eval, St.jacC] at h ⊢
    split at h <;> rename_i hn <;> simp only [hn, if_true, if_false, Bool.false_eq_true]
    · obtain ⟨e, h1, h2⟩ := emptyVia_stored (hm .jacC) h
      refine ⟨e, ?_⟩
      rw [key_same h2]; simp only [St.key, hn, if_true]; exact h1
    · obtain ⟨e, h1, h2⟩ := evalVia_stored (hm .jacC) (by simp) h
      refine ⟨e, ?_⟩
      rw [key_same h2]; simp only [St.key, hn, if_false]; exact h1
  | jacD x =>
    simp only [St.eval, St.jacD] at h ⊢
    split at h <;> rename_i hn <;> simp only [hn, if_true, if_false, Bool.false_eq_true]
    · obtain ⟨e, h1, h2⟩ := emptyVia_stored (hm .jacD) h
      refine ⟨e, ?_⟩
      rw [key_same h2]; simp only [St.key, hn, if_true]; exact h1
    · obtain ⟨e, h1, h2⟩ := evalVia_stored (hm .jacD) (by simp) h
      refine ⟨e, ?_⟩
      rw [key_same h2]; simp only [St.key, hn, if_false]; exact h1
  | h x σ yc yd =>
    obtain ⟨e, h1, h2⟩ := evalVia_stored (hm .h) (by simpa [Req.num] using hr) h
    refine ⟨e, ?_⟩
    change Same st (st.eval valid (.h x σ yc yd)).2 at h2
    rw [key_same h2]; exact h1

theorem evalVia_other (st : St X V) (k : Kind) (deps : List (Option Nat)) (sc : List Num) (x : Nat) (chk : Bool) (call : X → Option V) :
    Same st (st.evalVia valid k deps sc x chk call).2 ∧ ∀ k', k' ≠ k → (st.evalVia valid k deps sc x chk call).2.cache k' = st.cache k' := by
  unfold St.evalVia
  split
  · exact ⟨⟨rfl, rfl, rfl, rfl, rfl⟩, fun _ _ => rfl⟩
  · have hu := unscaledX_log { st with evals := Function.update st.evals k (st.evals k + 1) } x
    rcases he : St.unscaledX { st with evals := Function.update st.evals k (st.evals k + 1) } x with ⟨u0, st0⟩
    rw [he] at hu
    simp only at hu
    simp only [he]
    split
    · exact ⟨hu.2.2.2, fun k' _ => by rw [hu.2.2.1]⟩
    · split
      · exact ⟨hu.2.2.2, fun k' _ => by rw [hu.2.2.1]⟩
      · refine ⟨hu.2.2.2, fun k' hk => ?_⟩
        simp only [St.add, Function.update_of_ne hk]
        rw [hu.2.2.1]

theorem emptyVia_other (st : St X V) (k : Kind) : Same st (st.emptyVia k).2 ∧ ∀ k', k' ≠ k → (st.emptyVia k).2.cache k' = st.cache k' := by
  unfold St.emptyVia
  split
  · exact ⟨⟨rfl, rfl, rfl, rfl, rfl⟩, fun _ _ => rfl⟩
  · exact ⟨⟨rfl, rfl, rfl, rfl, rfl⟩, fun k' hk => by simp [St.add, Function.update_of_ne hk]⟩

theorem eval_other (st : St X V) (r : Req) : Same st (st.eval valid r).2 ∧ ∀ k', k' ≠ r.kind → (st.eval valid r).2.cache k' = st.cache k' := by
  cases r <;> simp only [St.eval, St.f, St.gradF, St.c, St.d, St.jacC, St.jacD, St.h, Req.kind]
  case c => split
            · exact emptyVia_other _ _
            · exact evalVia_other _ _ _ _ _ _ _
  case d => split
            · exact emptyVia_other _ _
            · exact evalVia_other _ _ _ _ _ _ _
  case jacC => split
               · exact emptyVia_other _ _
               · exact evalVia_other _ _ _ _ _ _ _
  case jacD => split
               · exact emptyVia_other _ _
               · exact evalVia_other _ _ _ _ _ _ _
  all_goals exact evalVia_other _ _ _ _ _ _ _

/-- a change of vectors that are not dependencies leaves the stored answer. -/
theorem found_set {st : St X V} {r : Req} {e : Entry V} (h : st.found r = some e) (o : Nat) (v : X) (ho : some o ∉ (st.key r).1) :
    (st.set o v).found r = some e := by
  have hk : (st.set o v).key r = st.key r := by cases r <;> rfl
  unfold St.found at *
  rw [hk]
  simp only [St.set]
  have hm := matches_eq (List.find?_some h)
  rw [List.find?_filter]
  generalize (st.key r).1 = dd at *
  generalize (st.key r).2 = ss at *
  revert h
  generalize st.cache r.kind = l
  intro h
  induction l with
  | nil => simp at h
  | cons a l ih =>
    simp only [List.find?_cons] at h ⊢
    by_cases hma : a.matches dd ss = true
    · have had : a.dependsOn o = false := by
        simp only [Entry.dependsOn, decide_eq_false_iff_not]
        rw [(matches_eq hma).1]; exact ho
      rw [hma] at h
      simp only [had, Bool.not_false, hma, decide_true, Bool.true_and]
      simpa using h
    · have hma' : a.matches dd ss = false := by simpa using hma
      rw [hma'] at h
      simp only [hma', Bool.and_false]
      simp
      simpa using ih (by simpa using h)

/-- **C62** A request that was answered is answered again in the same way without calling the user, as long as there is no re-initialization, none of its arguments
changes and no other request of the same kind comes in between. -/
theorem repeated_not_called (st : St X V) (hm : ∀ k, 1 ≤ st.max k) (r : Req) (hr : r.num) (v : V) (h : (st.eval valid r).1 = some v)
    (ops : List (Op X V)) (h1 : NoInit ops) (h2 : ∀ o ∈ r.args, ∀ w, .set o w ∉ ops) (h3 : ∀ r', .eval r' ∈ ops → r'.kind ≠ r.kind) :
    let st' := (st.eval valid r).2.run valid ops
    st'.eval valid r = (some v, st') := by
  intro st'
  obtain ⟨e, he, rfl⟩ := eval_stored hm hr h
  have H : ∀ (ops : List (Op X V)) (q : St X V), q.found r = some e → NoInit ops → (∀ o ∈ r.args, ∀ w, .set o w ∉ ops) →
      (∀ r', .eval r' ∈ ops → r'.kind ≠ r.kind) → (q.run valid ops).found r = some e := by
    intro ops
    induction ops with
    | nil => intro q hq _ _ _; exact hq
    | cons op ops ih =>
      intro q hq n1 n2 n3
      have m1 : NoInit ops := fun op' h => n1 op' (List.mem_cons_of_mem _ h)
      have m2 : ∀ o ∈ r.args, ∀ w, .set o w ∉ ops := fun o ho w h => n2 o ho w (List.mem_cons_of_mem _ h)
      have m3 : ∀ r', .eval r' ∈ ops → r'.kind ≠ r.kind := fun r' h => n3 r' (List.mem_cons_of_mem _ h)
      cases op with
      | set o w =>
        refine ih (q.set o w) (found_set hq o w ?_) m1 m2 m3
        intro hmem
        have ho : o ∈ r.args := by
          revert hmem
          cases r <;> simp only [St.key, dep] <;> (try split) <;> (try split) <;> simp [Req.args, Req.x]
        exact n2 o ho w List.mem_cons_self
      | eval r' =>
        refine ih (q.eval valid r').2 ?_ m1 m2 m3
        obtain ⟨s1, s2⟩ := eval_other (valid := valid) q r'
        unfold St.found at *
        rw [key_same s1, s2 _ (n3 r' List.mem_cons_self).symm]
        exact hq
      | init w o u s => exact absurd rfl (n1 _ List.mem_cons_self w o u s)
  exact found_hit (H ops _ he h1 h2 h3)

/-- **C62** After a derivative of first order declared constant was evaluated once, it is not evaluated again, at whatever point, before the next
initialization. -/
theorem constant_once (st : St X V) (hm : ∀ k, 1 ≤ st.max k) (x : Nat) (v : V) (ops : List (Op X V)) (hn : NoInit ops) (x' : Nat) :
    (st.opts.gradConst = true → (st.eval valid (.gradF x)).1 = some v →
      ((st.eval valid (.gradF x)).2.run valid ops).eval valid (.gradF x') = (some v, (st.eval valid (.gradF x)).2.run valid ops)) ∧
    (st.opts.jacCConst = true → (st.eval valid (.jacC x)).1 = some v →
      ((st.eval valid (.jacC x)).2.run valid ops).eval valid (.jacC x') = (some v, (st.eval valid (.jacC x)).2.run valid ops)) ∧
    (st.opts.jacDConst = true → (st.eval valid (.jacD x)).1 = some v →
      ((st.eval valid (.jacD x)).2.run valid ops).eval valid (.jacD x') = (some v, (st.eval valid (.jacD x)).2.run valid ops)) := by
  have G : ∀ (req : Nat → Req) (st : St X V), (∀ x, (req x).num) → (∀ q : St X V, Same st q ∨ q.struc = st.struc ∧ q.opts = st.opts → ∀ x, q.key (req x) = ([none], [])) →
      (∀ x x', (req x).kind = (req x').kind) → (∀ r' x, r'.kind = (req x).kind → ∃ y, r' = req y) → (∀ k, 1 ≤ st.max k) →
      (st.eval valid (req x)).1 = some v →
      ((st.eval valid (req x)).2.run valid ops).eval valid (req x') = (some v, (st.eval valid (req x)).2.run valid ops) := by
    intro req st hnum hkey hkind hall hm h
    obtain ⟨e, he, rfl⟩ := eval_stored hm (hnum x) h
    have S0 := (eval_other (valid := valid) st (req x)).1
    have H : ∀ (ops : List (Op X V)) (q : St X V), (q.struc = st.struc ∧ q.opts = st.opts) → q.found (req x) = some e → NoInit ops →
        ((q.run valid ops).struc = st.struc ∧ (q.run valid ops).opts = st.opts) ∧ (q.run valid ops).found (req x) = some e := by
      intro ops
      induction ops with
      | nil => intro q hs hq _; exact ⟨hs, hq⟩
      | cons op ops ih =>
        intro q hs hq n1
        have m1 : NoInit ops := fun op' h => n1 op' (List.mem_cons_of_mem _ h)
        cases op with
        | set o w =>
          refine ih (q.set o w) hs (found_set hq o w ?_) m1
          rw [hkey q (Or.inr hs)]; simp
        | eval r' =>
          obtain ⟨s1, s2⟩ := eval_other (valid := valid) q r'
          refine ih (q.eval valid r').2 ⟨s1.2.2.1.trans hs.1, s1.2.2.2.1.trans hs.2⟩ ?_ m1
          by_cases hk : r'.kind = (req x).kind
          · obtain ⟨y, rfl⟩ := hall r' x hk
            have : q.found (req y) = some e := by
              unfold St.found at *
              rw [hkey q (Or.inr hs)] at *
              rw [hkind y x]; exact hq
            rw [found_hit this]
            exact hq
          · unfold St.found at *
            rw [key_same s1, s2 _ (Ne.symm hk)]
            exact hq
        | init w o u s => exact absurd rfl (n1 _ List.mem_cons_self w o u s)
    obtain ⟨hs, hf⟩ := H ops _ ⟨S0.2.2.1, S0.2.2.2.1⟩ he hn
    have : ((st.eval valid (req x)).2.run valid ops).found (req x') = some e := by
      unfold St.found at *
      rw [hkey _ (Or.inr hs)] at *
      rw [hkind x' x]; exact hf
    exact found_hit this
  refine ⟨?_, ?_, ?_⟩
  · intro hc h
    refine G (fun y => .gradF y) st (fun _ => trivial) ?_ (fun _ _ => rfl) ?_ hm h
    · rintro q (⟨-, -, -, h4, -⟩ | ⟨-, h4⟩) y <;> simp [St.key, dep, h4, hc]
    · intro r' y hk
      cases r' <;> simp [Req.kind] at hk
      exact ⟨_, rfl⟩
  · intro hc h
    refine G (fun y => .jacC y) st (fun _ => trivial) ?_ (fun _ _ => rfl) ?_ hm h
    · rintro q (⟨-, -, -, h4, -⟩ | ⟨-, h4⟩) y <;> simp [St.key, dep, h4, hc]
    · intro r' y hk
      cases r' <;> simp [Req.kind] at hk
      exact ⟨_, rfl⟩
  · intro hc h
    refine G (fun y => .jacD y) st (fun _ => trivial) ?_ (fun _ _ => rfl) ?_ hm h
    · rintro q (⟨-, -, -, h4, -⟩ | ⟨-, h4⟩) y <;> simp [St.key, dep, h4, hc]
    · intro r' y hk
      cases r' <;> simp [Req.kind] at hk
      exact ⟨_, rfl⟩

end Verif.OrigNLP
