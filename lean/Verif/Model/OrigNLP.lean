import Verif.Spec.Cache

/-! # Evaluations in `OrigIpoptNLP` (src/Algorithm/IpOrigIpoptNLP.cpp)

The seven evaluation functions with their caches and counters, and re-initialization.  Caches behave as specified in
`Verif/Spec/Cache.lean` (that `CachedResults` does is C09): an entry remembers the objects it depends on and is gone as soon as one of them
changes or is destroyed.  Vectors are numbered objects with contents of type `X`; `V` is the type of all results.  Timing and printing
are left out. -/

namespace Verif.OrigNLP
open Verif Verif.Cache

/-- the functions. -/
inductive Kind where
  | f | gradF | c | d | jacC | jacD | h
  deriving DecidableEq

variable {X V : Type}

/-- the problem given by the user (class `NLP`): `none` = the function returned false. -/
structure User (X V : Type) where
  f : X → Option V
  gradF : X → Option V
  c : X → Option V
  d : X → Option V
  jacC : X → Option V
  jacD : X → Option V
  h : X → Num → X → X → Option V

/-- the structure determined in `InitializeStructures` if it is not kept: are there equality and inequality constraints, the empty objects used if
not, and the scaling: of `x` (inverse), multipliers, objective factor, and results (`NLP_scaling()`). -/
structure Struc (X V : Type) where
  noC : Bool
  noD : Bool
  empty : Kind → V
  unX : X → X
  appC : X → X
  appD : X → X
  obj : Num → Num
  res : Kind → V → V

/-- options `grad_f_constant`, `jac_c_constant`, `jac_d_constant`, `hessian_constant`, `check_derivatives_for_naninf`. -/
structure Opts where
  gradConst : Bool
  jacCConst : Bool
  jacDConst : Bool
  hessConst : Bool
  check : Bool

/-- the object; `vals` are the contents of all vectors in the program, `calls` the calls of the user's functions, newest first. -/
structure St (X V : Type) where
  vals : Nat → X
  user : User X V
  struc : Struc X V
  opts : Opts
  max : Kind → Int
  cache : Kind → List (Entry V)
  ux : List (Entry X)
  evals : Kind → Nat
  calls : List (Kind × X)

/-- constructor (IpOrigIpoptNLP.cpp:22-43): all caches have size 1. -/
def St.new (vals : Nat → X) (user : User X V) (struc : Struc X V) (opts : Opts) : St X V :=
  { vals := vals, user := user, struc := struc, opts := opts, max := fun _ => 1, cache := fun _ => [], ux := [], evals := fun _ => 0, calls := [] }

/-- a vector gets new contents (or is destroyed, or created): entries depending on it disappear. -/
def St.set (st : St X V) (o : Nat) (v : X) : St X V :=
  { st with
    vals := Function.update st.vals o v
    cache := fun k => (st.cache k).filter fun e => !e.dependsOn o
    ux := st.ux.filter fun e => !e.dependsOn o }

/-- `AddCachedResult`. -/
def St.add (st : St X V) (k : Kind) (deps : List (Option Nat)) (sc : List Num) (v : V) : St X V :=
  { st with cache := Function.update st.cache k (keep (st.max k) (⟨deps, sc, v⟩ :: st.cache k)) }

/-- `get_unscaled_x` (IpOrigIpoptNLP.cpp:1004-1015). -/
def St.unscaledX (st : St X V) (x : Nat) : X × St X V :=
  match st.ux.find? (·.matches [some x] []) with
  | some e => (e.val, st)
  | none =>
    let u := st.struc.unX (st.vals x)
    (u, { st with ux := keep 1 (⟨[some x], [], u⟩ :: st.ux) })

section
variable (valid : Kind → V → Bool)

/-- the common part of the functions: cached result; or count, unscale the point, call, `ASSERT_EXCEPTION` (`none`: exception `Eval_Error`),
scale the result and store it.  `chk`: are numbers checked. -/
def St.evalVia (st : St X V) (k : Kind) (deps : List (Option Nat)) (sc : List Num) (x : Nat) (chk : Bool) (call : X → Option V) :
    Option V × St X V :=
  match (st.cache k).find? (·.matches deps sc) with
  | some e => (some e.val, st)
  | none =>
    let st := { st with evals := Function.update st.evals k (st.evals k + 1) }
    let (ux, st) := st.unscaledX x
    let st := { st with calls := (k, ux) :: st.calls }
    match call ux with
    | none => (none, st)
    | some u => if chk && !valid k u then (none, st) else (some (st.struc.res k u), st.add k deps sc (st.struc.res k u))

/-- for an empty space: the cached empty object, or a new one (IpOrigIpoptNLP.cpp:560-571, 605-616, 650-660, 703-713). -/
def St.emptyVia (st : St X V) (k : Kind) : Option V × St X V :=
  match (st.cache k).find? (·.matches [none] []) with
  | some e => (some e.val, st)
  | none => (some (st.struc.empty k), st.add k [none] [] (st.struc.empty k))

/-- the dependency used: none if the derivative is constant. -/
def dep (const : Bool) (x : Nat) : List (Option Nat) := if const then [none] else [some x]

/-- `f` (IpOrigIpoptNLP.cpp:483-503). -/
def St.f (st : St X V) (x : Nat) : Option V × St X V := st.evalVia valid .f [some x] [] x true st.user.f
/-- `grad_f` (IpOrigIpoptNLP.cpp:514-541). -/
def St.gradF (st : St X V) (x : Nat) : Option V × St X V := st.evalVia valid .gradF (dep st.opts.gradConst x) [] x true st.user.gradF
/-- `c` (IpOrigIpoptNLP.cpp:552-598). -/
def St.c (st : St X V) (x : Nat) : Option V × St X V :=
  if st.struc.noC then st.emptyVia .c else st.evalVia valid .c [some x] [] x true st.user.c
/-- `d` (IpOrigIpoptNLP.cpp:600-642). -/
def St.d (st : St X V) (x : Nat) : Option V × St X V :=
  if st.struc.noD then st.emptyVia .d else st.evalVia valid .d [some x] [] x true st.user.d
/-- `jac_c` (IpOrigIpoptNLP.cpp:644-695). -/
def St.jacC (st : St X V) (x : Nat) : Option V × St X V :=
  if st.struc.noC then st.emptyVia .jacC else st.evalVia valid .jacC (dep st.opts.jacCConst x) [] x st.opts.check st.user.jacC
/-- `jac_d` (IpOrigIpoptNLP.cpp:697-750). -/
def St.jacD (st : St X V) (x : Nat) : Option V × St X V :=
  if st.struc.noD then st.emptyVia .jacD else st.evalVia valid .jacD (dep st.opts.jacDConst x) [] x st.opts.check st.user.jacD
/-- `h` (IpOrigIpoptNLP.cpp:757-812). -/
def St.h (st : St X V) (x : Nat) (σ : Num) (yc yd : Nat) : Option V × St X V :=
  st.evalVia valid .h (if st.opts.hessConst then [none, none, none] else [some x, some yc, some yd]) [σ] x st.opts.check fun u =>
    st.user.h u (st.struc.obj σ) (st.struc.appC (st.vals yc)) (st.struc.appD (st.vals yd))

/-- `InvalidateResult`. -/
def invalidated (deps : List (Option Nat)) (sc : List Num) (l : List (Entry V)) : List (Entry V) := l.eraseP (·.matches deps sc)

/-- `Initialize` (IpOrigIpoptNLP.cpp:133-209) and the part of `InitializeStructures` that matters here (229-336): the caches are cleared only if the
structure is not kept (never those of `f` and of the unscaled point), entries without dependency are invalidated. -/
def St.initialize (st : St X V) (warm : Bool) (opts : Opts) (user : User X V) (struc : Struc X V) : St X V :=
  let cleared : Kind → List (Entry V) := fun k => if warm || k = .f then st.cache k else []
  { st with
    user := user
    struc := if warm then st.struc else struc
    opts := opts
    max := if warm then st.max else fun k => if k = .h then (if opts.hessConst then 2 else 1) else st.max k
    cache := fun k => match k with
      | .f => cleared .f
      | .h => invalidated [none, none, none] [] (cleared .h)
      | k => invalidated [none] [] (cleared k)
    evals := fun _ => 0 }

/-- what the algorithm asks for. -/
inductive Req where
  | f (x : Nat) | gradF (x : Nat) | c (x : Nat) | d (x : Nat) | jacC (x : Nat) | jacD (x : Nat) | h (x : Nat) (σ : Num) (yc yd : Nat)

/-- answering a request. -/
def St.eval (st : St X V) : Req → Option V × St X V
  | .f x => st.f valid x
  | .gradF x => st.gradF valid x
  | .c x => st.c valid x
  | .d x => st.d valid x
  | .jacC x => st.jacC valid x
  | .jacD x => st.jacD valid x
  | .h x σ yc yd => st.h valid x σ yc yd

/-- what happens to the object. -/
inductive Op (X V : Type) where
  | set (o : Nat) (v : X)
  | eval (r : Req)
  | init (warm : Bool) (opts : Opts) (user : User X V) (struc : Struc X V)

def St.step (st : St X V) : Op X V → St X V
  | .set o v => st.set o v
  | .eval r => (st.eval valid r).2
  | .init w o u s => st.initialize w o u s

def St.run (st : St X V) (ops : List (Op X V)) : St X V := ops.foldl (St.step valid) st
end

end Verif.OrigNLP
