import Verif.Model.Cache

/-!
# Specification of cached results (C09, C10)

An abstract cache is a list of entries, newest first.  An entry remembers the *objects* it was computed from (no tags, no
notifications).  Changing or destroying an object removes all entries that depend on it.  A lookup returns the newest entry
with the same objects and equal scalars.
-/

namespace Verif.Cache

/-- A remembered result. -/
structure Entry (V : Type) where
  deps : List (Option Nat)
  scalars : List Num
  val : V

/-- Equal numbers of scalars, pairwise equal (a NaN is equal to nothing). -/
def sameScalars : List Num → List Num → Bool
  | [], [] => true
  | a :: as, b :: bs => Num.eqB a b && sameScalars as bs
  | _, _ => false

/-- The entry answers the query. -/
def Entry.matches {V : Type} (deps : List (Option Nat)) (sc : List Num) (e : Entry V) : Bool :=
  decide (deps = e.deps) && sameScalars sc e.scalars

/-- The entry depends on object `o`. -/
def Entry.dependsOn {V : Type} (o : Nat) (e : Entry V) : Bool := decide (some o ∈ e.deps)

/-- Abstract state: existing objects and caches with their maximal size (negative: unlimited). -/
structure Abs (V : Type) where
  nObj : Nat
  alive : Nat → Bool
  nCch : Nat
  cache : Nat → Option (Int × List (Entry V))

/-- Nothing exists. -/
def Abs.init (V : Type) : Abs V := ⟨0, fun _ => false, 0, fun _ => none⟩

/-- Keep at most `m` entries (all if `m` is negative). -/
def keep {α : Type} (m : Int) (l : List α) : List α := if 0 ≤ m then l.take m.toNat else l

/-- Forget all entries that depend on `o`. -/
def Abs.forget {V : Type} (a : Abs V) (o : Nat) : Abs V :=
  { a with cache := fun c => (a.cache c).map (fun p => (p.1, p.2.filter (fun e => !e.dependsOn o))) }

/-- All pointers in the list are NULL or refer to existing objects. -/
def Abs.depsAlive {V : Type} (a : Abs V) (deps : List (Option Nat)) : Bool :=
  deps.all (fun d => match d with | none => true | some o => a.alive o)

/-- Replace the entries of cache `c`. -/
def Abs.set {V : Type} (a : Abs V) (c : Nat) (m : Int) (l : List (Entry V)) : Abs V :=
  { a with cache := Function.update a.cache c (some (m, l)) }

/-- One operation on the abstract state. -/
def Abs.step {V : Type} (a : Abs V) : Op V → Out V × Abs V
  | .newObj => (.unit, { a with nObj := a.nObj + 1, alive := Function.update a.alive a.nObj true })
  | .change o => if a.alive o then (.unit, a.forget o) else (.unit, a)
  | .destroyObj o =>
    if a.alive o then (.unit, { a.forget o with alive := Function.update a.alive o false }) else (.unit, a)
  | .newCache m => (.unit, { a.set a.nCch m [] with nCch := a.nCch + 1 })
  | .destroyCache c => (.unit, { a with cache := Function.update a.cache c none })
  | .add c v deps sc =>
    match a.cache c with
    | none => (.unit, a)
    | some (m, l) => if a.depsAlive deps then (.unit, a.set c m (keep m (⟨deps, sc, v⟩ :: l))) else (.unit, a)
  | .get c deps sc =>
    match a.cache c with
    | none => (.unit, a)
    | some (_, l) => if a.depsAlive deps then (.val ((l.find? (·.matches deps sc)).map (·.val)), a) else (.unit, a)
  | .invalidate c deps sc =>
    match a.cache c with
    | none => (.unit, a)
    | some (m, l) =>
      if a.depsAlive deps then
        (.bool (l.any (·.matches deps sc)), a.set c m (l.eraseP (·.matches deps sc)))
      else (.unit, a)
  | .clear c =>
    match a.cache c with
    | none => (.unit, a)
    | some (m, _) => (.unit, a.set c m [])
  | .clearMax c m' =>
    match a.cache c with
    | none => (.unit, a)
    | some _ => (.unit, a.set c m' [])

/-- A history on the abstract state. -/
def Abs.run {V : Type} (a : Abs V) : List (Op V) → List (Out V) × Abs V
  | [] => ([], a)
  | o :: os =>
    let r := a.step o
    let q := Abs.run r.2 os
    (r.1 :: q.1, q.2)

/-- Number of tags handed out by a history: one for every created object and every change. -/
def tagsUsed {V : Type} : List (Op V) → Nat
  | [] => 0
  | .newObj :: os => tagsUsed os + 1
  | .change _ :: os => tagsUsed os + 1
  | _ :: os => tagsUsed os

end Verif.Cache
