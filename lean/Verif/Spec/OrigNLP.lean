import Verif.Model.OrigNLP

/-! # What the algorithm expects of the evaluations (C62), without caches -/

namespace Verif.OrigNLP
open Verif

variable {X V : Type}

/-- `v` is the scaled result `u` of a successful call of the user's function number `k`; numbers are checked if `chk`. -/
def IsResult (valid : Kind → V → Bool) (s : Struc X V) (k : Kind) (chk : Bool) (call : Option V) (v : V) : Prop :=
  ∃ u, call = some u ∧ (chk = true → valid k u = true) ∧ v = s.res k u

/-- The right answers to a request, given the problem `U`, its structure and scaling, the options and the contents of the vectors: the scaled value of
the user's function at the (unscaled) contents of the argument; for a derivative declared constant the value at some point; an empty vector or matrix if
there are no such constraints. -/
def Right (valid : Kind → V → Bool) (U : User X V) (s : Struc X V) (o : Opts) (vals : Nat → X) : Req → V → Prop
  | .f x, v => IsResult valid s .f true (U.f (s.unX (vals x))) v
  | .gradF x, v => ∃ y, (o.gradConst = false → y = s.unX (vals x)) ∧ IsResult valid s .gradF true (U.gradF y) v
  | .c x, v => if s.noC then v = s.empty .c else IsResult valid s .c true (U.c (s.unX (vals x))) v
  | .d x, v => if s.noD then v = s.empty .d else IsResult valid s .d true (U.d (s.unX (vals x))) v
  | .jacC x, v => if s.noC then v = s.empty .jacC else
      ∃ y, (o.jacCConst = false → y = s.unX (vals x)) ∧ IsResult valid s .jacC o.check (U.jacC y) v
  | .jacD x, v => if s.noD then v = s.empty .jacD else
      ∃ y, (o.jacDConst = false → y = s.unX (vals x)) ∧ IsResult valid s .jacD o.check (U.jacD y) v
  | .h x σ yc yd, v => ∃ y zc zd, (o.hessConst = false → y = s.unX (vals x) ∧ zc = s.appC (vals yc) ∧ zd = s.appD (vals yd)) ∧
      IsResult valid s .h o.check (U.h y (s.obj σ) zc zd) v

/-- Which function is asked for. -/
def Req.kind : Req → Kind
  | .f _ => .f | .gradF _ => .gradF | .c _ => .c | .d _ => .d | .jacC _ => .jacC | .jacD _ => .jacD | .h .. => .h

/-- The point. -/
def Req.x : Req → Nat
  | .f x | .gradF x | .c x | .d x | .jacC x | .jacD x | .h x .. => x

/-- The vectors in a request. -/
def Req.args : Req → List Nat
  | .h x _ yc yd => [x, yc, yd]
  | r => [r.x]

/-- The user's function fails, or gives invalid numbers that are checked, for the current contents of the arguments. -/
def Fails (valid : Kind → V → Bool) (U : User X V) (s : Struc X V) (o : Opts) (vals : Nat → X) : Req → Prop
  | .f x => ∀ u, U.f (s.unX (vals x)) = some u → valid .f u = false
  | .gradF x => ∀ u, U.gradF (s.unX (vals x)) = some u → valid .gradF u = false
  | .c x => ∀ u, U.c (s.unX (vals x)) = some u → valid .c u = false
  | .d x => ∀ u, U.d (s.unX (vals x)) = some u → valid .d u = false
  | .jacC x => ∀ u, U.jacC (s.unX (vals x)) = some u → o.check = true ∧ valid .jacC u = false
  | .jacD x => ∀ u, U.jacD (s.unX (vals x)) = some u → o.check = true ∧ valid .jacD u = false
  | .h x σ yc yd => ∀ u, U.h (s.unX (vals x)) (s.obj σ) (s.appC (vals yc)) (s.appD (vals yd)) = some u → o.check = true ∧ valid .h u = false

/-- Histories without misuse.  `T`: the vectors created or changed since the last initialization; only those are arguments of requests (the algorithm
starts each optimization with new vectors).  A Hessian declared constant is not used together with `warm_start_same_structure`. -/
def Legal (T : Nat → Prop) : List (Op X V) → Prop
  | [] => True
  | .set o _ :: ops => Legal (fun i => i = o ∨ T i) ops
  | .eval r :: ops => (∀ o ∈ r.args, T o) ∧ Legal T ops
  | .init w o _ _ :: ops => (w = true → o.hessConst = false) ∧ Legal (fun _ => False) ops

/-- The vectors created or changed since the last initialization. -/
def touched (T : Nat → Prop) : List (Op X V) → Nat → Prop
  | [] => T
  | .set o _ :: ops => touched (fun i => i = o ∨ T i) ops
  | .eval _ :: ops => touched T ops
  | .init .. :: ops => touched (fun _ => False) ops

/-- number of calls of function `k`. -/
def nCalls (k : Kind) (calls : List (Kind × X)) : Nat := (calls.filter fun e => e.1 = k).length

/-- no re-initialization happens. -/
def NoInit (ops : List (Op X V)) : Prop := ∀ op ∈ ops, ∀ w o u s, op ≠ .init w o u s

end Verif.OrigNLP
