import Mathlib.Logic.Function.Basic

/-!
# Engine of `IpoptCalculatedQuantities`: cached functions of the iterates

`/repo/src/Algorithm/IpIpoptCalculatedQuantities.{hpp,cpp}`; the table of the functions is in `Verif.Model.CalcQuantTable`.

Every function of the class follows one pattern (e.g. `curr_d_minus_s`, `IpIpoptCalculatedQuantities.cpp:1185-1206`): fetch some vectors and
numbers, look in the function's own cache with the tags of some of them and the values of others, then (often) in the cache of the
function for the other point (`trial_...` for `curr_...`), otherwise compute from these vectors, the problem data and other functions of the
class, and store the result.  A function is described here by its instructions; the numerical work of an instruction (`MultVector`, `Amax`,
`ip_nlp_->f`, ...) is an arbitrary function given by its name, so nothing below depends on what is computed.

Simplifications.  Branches that depend on numbers (`if (mu == 0.)`, `if (n_cmpl > 0)`) are part of the operations: all calls are
made.  Every result of an operation gets a new tag (a `Number` has none; its tag is never used).  Observers are modelled by `forget`: at any moment
any stored entry may disappear (it does when a dependent changes or is destroyed; see `Verif.Model.Cache`).  Tags are not bounded.
-/

namespace Verif.CQ

/-- The two points (`IpoptData::curr`, `IpoptData::trial`). -/
inductive Side where
  | curr | trial
  deriving DecidableEq, Repr

/-- The other point. -/
def Side.other : Side → Side
  | .curr => .trial
  | .trial => .curr

/-- Components of an iterate (`IpIteratesVector.hpp:27-60`). -/
inductive Comp where
  | x | s | yc | yd | zL | zU | vL | vU
  deriving DecidableEq, Repr

/-- What does not belong to the point in question: the barrier parameter `curr_mu`, the bounds `x_L, x_U, d_L, d_U` of the `IpoptNLP`
(changed by `AdjustVariableBounds`), the bound multipliers of the *current* iterate (read also by the functions of the trial point), and the step `delta`. -/
inductive Glob where
  | mu | xL | xU | dL | dU | czL | czU | cvL | cvU | dx | ds | dzL | dzU | dvL | dvU
  deriving DecidableEq, Repr

/-- A place a function reads: a component of its own point, a global one, or an argument of the call. -/
inductive Loc where
  | self (c : Comp)
  | glob (g : Glob)
  | arg (i : Nat)
  deriving DecidableEq, Repr

/-- Instructions.  Registers are numbered in the order of the instructions; a call passes registers. -/
inductive Instr (N : Type) where
  | read (l : Loc)
  | call (q : N) (args : List Nat)
  | op (f : String) (args : List Nat)
  deriving Repr

/-- How the result is stored: `AddCachedResult` with all dependencies; only with the objects (`curr_barrier_error`,
`IpIpoptCalculatedQuantities.cpp:3192`); or not at all (functions without cache, and `curr_compl_s_L` and others, which call `GetCachedResult2Dep`
instead of `AddCachedResult2Dep`, `:2341, :2361, :2381, :2401`). -/
inductive Store where
  | all | objectsOnly | never
  deriving DecidableEq, Repr

/-- One function: instructions before the look-up, the registers whose tags and whose values are the dependencies, the instructions of the
computation (the result is the last register), whether the cache of the other point is looked up too, and the sizes of the caches. -/
structure QDef (N : Type) where
  pre : List (Instr N)
  tagKeys : List Nat
  valKeys : List Nat
  body : List (Instr N)
  peer : Bool
  store : Store
  capCurr : Nat
  capTrial : Nat

/-- An object (or number): tag and contents. -/
structure TV (V : Type) where
  tag : Nat
  val : V

/-- An entry of a cache (`DependentResult`, `IpCachedResults.hpp:382-401`). -/
structure Entry (V : Type) where
  tags : List Nat
  vals : List V
  res : TV V

/-- The numerical operations, comparison of numbers with `==`, and a value for registers that do not exist. -/
structure Interp (V : Type) where
  op : String → List V → V
  eqv : V → V → Bool
  dflt : V

/-- The state: the two iterates, the rest of the data, the caches, the next tag, and the contents of all objects ever created. -/
structure St (N V : Type) where
  it : Side → Comp → TV V
  gl : Glob → TV V
  cache : N → Side → List (Entry V)
  next : Nat
  pool : Nat → V

variable {N V : Type} [DecidableEq N]

/-- A new object. -/
def St.alloc (st : St N V) (v : V) : TV V × St N V :=
  (⟨st.next, v⟩, { st with next := st.next + 1, pool := Function.update st.pool st.next v })

/-- Read a place. -/
def St.read (I : Interp V) (st : St N V) (sd : Side) (args : List (TV V)) : Loc → TV V
  | .self c => st.it sd c
  | .glob .czL => st.it .curr .zL
  | .glob .czU => st.it .curr .zU
  | .glob .cvL => st.it .curr .vL
  | .glob .cvU => st.it .curr .vU
  | .glob g => st.gl g
  | .arg i => args.getD i ⟨0, I.dflt⟩

/-- Register. -/
def regT (I : Interp V) (rs : List (TV V)) (i : Nat) : TV V := rs.getD i ⟨0, I.dflt⟩

/-- Run instructions; `callf` runs a function of the class for the same point. -/
def execI (I : Interp V) (callf : St N V → N → List (TV V) → TV V × St N V) (sd : Side) (args : List (TV V)) :
    St N V → List (TV V) → List (Instr N) → List (TV V) × St N V
  | st, rs, [] => (rs, st)
  | st, rs, .read l :: is => execI I callf sd args st (rs ++ [st.read I sd args l]) is
  | st, rs, .call q as :: is =>
    let r := callf st q (as.map (regT I rs))
    execI I callf sd args r.2 (rs ++ [r.1]) is
  | st, rs, .op f as :: is =>
    let r := st.alloc (I.op f (as.map (fun i => (regT I rs i).val)))
    execI I callf sd args r.2 (rs ++ [r.1]) is

/-- `DependentsIdentical` (`IpCachedResults.hpp:487-530`). -/
def Entry.hit (I : Interp V) (e : Entry V) (tags : List Nat) (vals : List V) : Bool :=
  decide (e.tags = tags) && decide (vals.length = e.vals.length) && (vals.zip e.vals).all (fun p => I.eqv p.1 p.2)

/-- `AddCachedResult` (`IpCachedResults.hpp:586-625`): new entries in front, at most `cap` entries. -/
def addEntry (l : List (Entry V)) (cap : Nat) (e : Entry V) : List (Entry V) := (e :: l).take cap

/-- Store according to the kind of the function. -/
def St.add (st : St N V) (T : N → QDef N) (q : N) (sd : Side) (tags : List Nat) (vals : List V) (r : TV V) : St N V :=
  let cap := match sd with | .curr => (T q).capCurr | .trial => (T q).capTrial
  let put := fun e : Entry V =>
    { st with cache := fun q' sd' => if q' = q ∧ sd' = sd then addEntry (st.cache q sd) cap e else st.cache q' sd' }
  match (T q).store with
  | .all => put ⟨tags, vals, r⟩
  | .objectsOnly => put ⟨tags, [], r⟩
  | .never => st

/-- Look-up: own cache first, then that of the other point. -/
def St.find (I : Interp V) (st : St N V) (T : N → QDef N) (q : N) (sd : Side) (tags : List Nat) (vals : List V) : Option (TV V) × Bool :=
  match (st.cache q sd).find? (fun e => e.hit I tags vals) with
  | some e => (some e.res, true)
  | none =>
    if (T q).peer then (((st.cache q sd.other).find? (fun e => e.hit I tags vals)).map (·.res), false) else (none, false)

/-- A call of the function `q` for the point `sd`.  `n` bounds the depth of the calls (the table has no cycle, so a large `n` suffices). -/
def run (I : Interp V) (T : N → QDef N) : Nat → Side → St N V → N → List (TV V) → TV V × St N V
  | 0, _, st, _, _ => (⟨0, I.dflt⟩, st)
  | n + 1, sd, st, q, args =>
    let p := execI I (run I T n sd) sd args st [] (T q).pre
    let tags := (T q).tagKeys.map (fun i => (regT I p.1 i).tag)
    let vals := (T q).valKeys.map (fun i => (regT I p.1 i).val)
    match p.2.find I T q sd tags vals with
    | (some r, true) => (r, p.2)
    | (some r, false) => (r, p.2.add T q sd tags vals r)
    | (none, _) =>
      let b := execI I (run I T n sd) sd args p.2 p.1 (T q).body
      let r := b.1.getLastD ⟨0, I.dflt⟩
      (r, b.2.add T q sd tags vals r)

/-- What the algorithm can do between two moments: a slot of an iterate or another place gets a new object, or an object that was created earlier
(`AcceptTrialPoint`, restoring a saved iterate, copying a pointer), a number such as `mu` gets a value, entries of caches disappear, and functions are called. -/
inductive Act (N V : Type) where
  | setIt (sd : Side) (c : Comp) (v : V)
  | setGl (g : Glob) (v : V)
  | putIt (sd : Side) (c : Comp) (t : Nat)
  | putGl (g : Glob) (t : Nat)
  | make (v : V)
  | forget (q : N) (sd : Side) (i : Nat)
  | query (q : N) (sd : Side) (args : List Nat)

/-- One action; a query also gives the returned value. -/
def step (I : Interp V) (T : N → QDef N) (depth : Nat) (st : St N V) : Act N V → St N V × Option V
  | .setIt sd c v =>
    let r := st.alloc v
    ({ r.2 with it := fun sd' c' => if sd' = sd ∧ c' = c then r.1 else st.it sd' c' }, none)
  | .setGl g v =>
    let r := st.alloc v
    ({ r.2 with gl := fun g' => if g' = g then r.1 else st.gl g' }, none)
  | .putIt sd c t =>
    if t < st.next then ({ st with it := fun sd' c' => if sd' = sd ∧ c' = c then ⟨t, st.pool t⟩ else st.it sd' c' }, none) else (st, none)
  | .putGl g t =>
    if t < st.next then ({ st with gl := fun g' => if g' = g then ⟨t, st.pool t⟩ else st.gl g' }, none) else (st, none)
  | .make v => ((st.alloc v).2, none)
  | .forget q sd i =>
    ({ st with cache := fun q' sd' => if q' = q ∧ sd' = sd then (st.cache q sd).eraseIdx i else st.cache q' sd' }, none)
  | .query q sd args =>
    if ∀ t ∈ args, t < st.next then
      let r := run I T depth sd st q (args.map (fun t => ⟨t, st.pool t⟩))
      (r.2, some r.1.val)
    else (st, none)

/-- A history. -/
def steps (I : Interp V) (T : N → QDef N) (depth : Nat) (st : St N V) : List (Act N V) → St N V
  | [] => st
  | a :: as => steps I T depth (step I T depth st a).1 as

/-- The state of a new object of the class: no entries. All places hold one object with the contents `v`. -/
def St.init (v : V) : St N V := ⟨fun _ _ => ⟨0, v⟩, fun _ => ⟨0, v⟩, fun _ _ => [], 1, fun _ => v⟩

end Verif.CQ
