import Verif.Model.Num
import Mathlib.Logic.Function.Basic

/-!
# Model of `TaggedObject`, `Subject`/`Observer`, `DependentResult` and `CachedResults`

`/repo/src/Common/IpTaggedObject.{hpp,cpp}`, `/repo/src/Common/IpObserver.hpp`, `/repo/src/Common/IpCachedResults.hpp`.

One thread; tagged objects, results (the only observers) and caches are numbered in order of creation and numbers are not
reused.  `ub` records an access to a destroyed object or an erase of a missing list element (undefined behaviour in C++).
The debug assertions are not compiled in (release build).
-/

namespace Verif.Cache

/-- `TaggedObject` with its `Subject` part (`IpTaggedObject.hpp:117-124`, `IpObserver.hpp:226`). -/
structure Obj where
  alive : Bool
  tag : Nat
  observers : List Nat

/-- `DependentResult` with its `Observer` part (`IpCachedResults.hpp:382-401`, `IpObserver.hpp:113`). -/
structure Res (V : Type) where
  alive : Bool
  stale : Bool
  val : V
  tags : List Nat
  scalars : List Num
  subjects : List Nat

/-- `CachedResults` (`IpCachedResults.hpp:300-305`): negative `max` means unlimited; `entries` from front to back. -/
structure Cch where
  alive : Bool
  max : Int
  entries : List Nat

/-- Everything. `ctr` is `unique_tag` (`IpTaggedObject.cpp:36`), an unsigned number modulo `M` (`2^32`). -/
structure World (V : Type) where
  M : Nat
  ctr : Nat
  nObj : Nat
  obj : Nat → Obj
  nRes : Nat
  res : Nat → Res V
  nCch : Nat
  cch : Nat → Cch
  ub : Bool

variable {V : Type}

/-- Program start. -/
def World.init (V : Type) [Inhabited V] (M : Nat) : World V :=
  ⟨M, 1, 0, fun _ => ⟨false, 0, []⟩, 0, fun _ => ⟨false, false, default, [], [], []⟩, 0, fun _ => ⟨false, 0, []⟩, false⟩

/-- Update an object. -/
def World.setObj (w : World V) (o : Nat) (x : Obj) : World V := { w with obj := Function.update w.obj o x }

/-- Update a result. -/
def World.setRes (w : World V) (b : Nat) (x : Res V) : World V := { w with res := Function.update w.res b x }

/-- Update a cache. -/
def World.setCch (w : World V) (c : Nat) (x : Cch) : World V := { w with cch := Function.update w.cch c x }

/-- `Observer::ProcessNotification` (`IpObserver.hpp:310-341`) with `DependentResult::ReceiveNotification`
(`IpCachedResults.hpp:469-485`, which marks the result stale for both kinds of notification). -/
def processNotification (w : World V) (destroyed : Bool) (s b : Nat) : World V :=
  let r := w.res b
  if !r.alive then { w with ub := true }
  else if destroyed then
    if s ∈ r.subjects then w.setRes b { r with stale := true, subjects := r.subjects.erase s } else { w with ub := true }
  else w.setRes b { r with stale := true }

/-- The notification loops of `Subject::Notify` and `~Subject` (`IpObserver.hpp:343-353`, `405-418`). -/
def notify (w : World V) (destroyed : Bool) (s : Nat) : World V :=
  (w.obj s).observers.foldl (fun w b => processNotification w destroyed s b) w

/-- `TaggedObject::ObjectChanged` (`IpTaggedObject.cpp:42-51`). -/
def objectChanged (w : World V) (s : Nat) : World V :=
  notify { (w.setObj s { w.obj s with tag := w.ctr }) with ctr := (w.ctr + 1) % w.M } false s

/-- Construction of a `TaggedObject` (`IpTaggedObject.hpp:64-69`). -/
def newObj (w : World V) : World V :=
  objectChanged { (w.setObj w.nObj ⟨true, 0, []⟩) with nObj := w.nObj + 1 } w.nObj

/-- Destruction of a `TaggedObject` (`IpObserver.hpp:343-353`). -/
def destroyObj (w : World V) (s : Nat) : World V :=
  let w1 := notify w true s
  w1.setObj s ⟨false, (w1.obj s).tag, []⟩

/-- `Observer::RequestAttach` and `Subject::AttachObserver` (`IpObserver.hpp:253-273`, `355-377`). -/
def requestAttach (w : World V) (b s : Nat) : World V :=
  let w1 := w.setRes b { w.res b with subjects := (w.res b).subjects ++ [s] }
  w1.setObj s { w1.obj s with observers := (w1.obj s).observers ++ [b] }

/-- `Observer::RequestDetach` and `Subject::DetachObserver` (`IpObserver.hpp:275-308`, `379-403`). -/
def requestDetach (w : World V) (b s : Nat) : World V :=
  let w1 := w.setRes b { w.res b with subjects := (w.res b).subjects.erase s }
  if !(w1.obj s).alive then { w1 with ub := true }
  else w1.setObj s { w1.obj s with observers := (w1.obj s).observers.erase b }

/-- The loop of `Observer::~Observer` (`IpObserver.hpp:230-251`): detach `subjects_[i-1]` for `i` counting down. -/
def detachLoop (w : World V) (b : Nat) : Nat → World V
  | 0 => w
  | i + 1 =>
    match (w.res b).subjects[i]? with
    | none => { w with ub := true }
    | some s => detachLoop (requestDetach w b s) b i

/-- Destruction of a result. -/
def destroyRes (w : World V) (b : Nat) : World V :=
  if !(w.res b).alive then { w with ub := true }
  else
    let w1 := detachLoop w b (w.res b).subjects.length
    w1.setRes b { w1.res b with alive := false }

/-- Loop of the constructor of `DependentResult` (`IpCachedResults.hpp:423-446`). -/
def attachLoop (w : World V) (b : Nat) : List (Option Nat) → World V
  | [] => w
  | none :: ds => attachLoop (w.setRes b { w.res b with tags := (w.res b).tags ++ [0] }) b ds
  | some s :: ds =>
    let w1 := requestAttach w b s
    attachLoop (w1.setRes b { w1.res b with tags := (w1.res b).tags ++ [(w1.obj s).tag] }) b ds

/-- Tag comparison of one dependent (`IpCachedResults.hpp:512-516`). -/
def sameTag (w : World V) (d : Option Nat) (t : Nat) : Bool :=
  match d with
  | some s => decide ((w.obj s).tag = t)
  | none => decide (t = 0)

/-- `DependentResult::DependentsIdentical` (`IpCachedResults.hpp:487-530`); scalars are compared with the IEEE `!=`. -/
def dependentsIdentical (w : World V) (b : Nat) (deps : List (Option Nat)) (sc : List Num) : Bool :=
  decide (deps.length = (w.res b).tags.length) && decide (sc.length = (w.res b).scalars.length) &&
  (deps.zip (w.res b).tags).all (fun p => sameTag w p.1 p.2) &&
  (sc.zip (w.res b).scalars).all (fun p => Num.eqB p.1 p.2)

/-- `CachedResults::CleanupInvalidatedResults` (`IpCachedResults.hpp:840-868`): loop over the list; result: kept entries. -/
def cleanupLoop (w : World V) : List Nat → World V × List Nat
  | [] => (w, [])
  | b :: bs =>
    if (w.res b).stale then cleanupLoop (destroyRes w b) bs
    else let r := cleanupLoop w bs; (r.1, b :: r.2)

/-- The same with the list stored back. -/
def cleanup (w : World V) (c : Nat) : World V :=
  let r := cleanupLoop w (w.cch c).entries
  r.1.setCch c { w.cch c with entries := r.2 }

/-- `CachedResults::AddCachedResult` (`IpCachedResults.hpp:586-625`). -/
def add (w : World V) (c : Nat) (v : V) (deps : List (Option Nat)) (sc : List Num) : World V :=
  let w1 := cleanup w c
  let b := w1.nRes
  let w2 := attachLoop { (w1.setRes b ⟨true, false, v, [], sc, []⟩) with nRes := b + 1 } b deps
  let l := b :: (w2.cch c).entries
  if 0 ≤ (w2.cch c).max ∧ (w2.cch c).max < l.length then
    let w3 := destroyRes w2 (l.getLast (by simp [l]))
    w3.setCch c { w3.cch c with entries := l.dropLast }
  else w2.setCch c { w2.cch c with entries := l }

/-- `CachedResults::GetCachedResult` (`IpCachedResults.hpp:637-668`). -/
def get (w : World V) (c : Nat) (deps : List (Option Nat)) (sc : List Num) : Option V × World V :=
  let w1 := cleanup w c
  (((w1.cch c).entries.find? (fun b => dependentsIdentical w1 b deps sc)).map (fun b => (w1.res b).val), w1)

/-- `CachedResults::InvalidateResult` (`IpCachedResults.hpp:790-813`). -/
def invalidate (w : World V) (c : Nat) (deps : List (Option Nat)) (sc : List Num) : Bool × World V :=
  let w1 := cleanup w c
  match (w1.cch c).entries.find? (fun b => dependentsIdentical w1 b deps sc) with
  | some b => (true, w1.setRes b { w1.res b with stale := true })
  | none => (false, w1)

/-- `CachedResults::Clear()` (`IpCachedResults.hpp:815-829`). -/
def clear (w : World V) (c : Nat) : World V :=
  cleanup ((w.cch c).entries.foldl (fun w b => w.setRes b { w.res b with stale := true }) w) c

/-- `CachedResults::Clear(int)` (`IpCachedResults.hpp:831-838`). -/
def clearMax (w : World V) (c : Nat) (m : Int) : World V :=
  let w1 := clear w c
  w1.setCch c { w1.cch c with max := m }

/-- `CachedResults::~CachedResults` (`IpCachedResults.hpp:561-583`). -/
def destroyCch (w : World V) (c : Nat) : World V :=
  let w1 := (w.cch c).entries.foldl destroyRes w
  w1.setCch c ⟨false, (w1.cch c).max, []⟩

/-- Operations of a program.  Dependents are pointers, `none` = NULL. -/
inductive Op (V : Type) where
  | newObj
  | change (o : Nat)
  | destroyObj (o : Nat)
  | newCache (max : Int)
  | destroyCache (c : Nat)
  | add (c : Nat) (v : V) (deps : List (Option Nat)) (sc : List Num)
  | get (c : Nat) (deps : List (Option Nat)) (sc : List Num)
  | invalidate (c : Nat) (deps : List (Option Nat)) (sc : List Num)
  | clear (c : Nat)
  | clearMax (c : Nat) (m : Int)

/-- All dependents exist. -/
def depsAlive (w : World V) (deps : List (Option Nat)) : Bool :=
  deps.all (fun d => match d with | none => true | some o => (w.obj o).alive)

/-- Answers. -/
inductive Out (V : Type) where
  | unit
  | bool (b : Bool)
  | val (v : Option V)
deriving DecidableEq

/-- One operation.  Operations on objects or caches that do not exist (any more) are program errors and are skipped. -/
def step (w : World V) : Op V → Out V × World V
  | .newObj => (.unit, newObj w)
  | .change o => if (w.obj o).alive then (.unit, objectChanged w o) else (.unit, w)
  | .destroyObj o => if (w.obj o).alive then (.unit, destroyObj w o) else (.unit, w)
  | .newCache m => (.unit, { (w.setCch w.nCch ⟨true, m, []⟩) with nCch := w.nCch + 1 })
  | .destroyCache c => if (w.cch c).alive then (.unit, destroyCch w c) else (.unit, w)
  | .add c v deps sc => if (w.cch c).alive && depsAlive w deps then (.unit, add w c v deps sc) else (.unit, w)
  | .get c deps sc =>
    if (w.cch c).alive && depsAlive w deps then let r := get w c deps sc; (.val r.1, r.2) else (.unit, w)
  | .invalidate c deps sc =>
    if (w.cch c).alive && depsAlive w deps then let r := invalidate w c deps sc; (.bool r.1, r.2) else (.unit, w)
  | .clear c => if (w.cch c).alive then (.unit, clear w c) else (.unit, w)
  | .clearMax c m => if (w.cch c).alive then (.unit, clearMax w c m) else (.unit, w)

/-- A history: state after it and the answers. -/
def run (w : World V) : List (Op V) → List (Out V) × World V
  | [] => ([], w)
  | o :: os =>
    let r := step w o
    let q := run r.2 os
    (r.1 :: q.1, q.2)

end Verif.Cache
