import Verif.Model.Ma57
import Verif.Spec.Ma27

/-! # Specification: what MA57 is expected to do, and histories of calls of the interface class -/

namespace Verif.Ma57
open Verif.AugSolve (Status Structure Known SolvesAll)
open Verif.Ma27 (afterThrow)

variable {K P Keep Mem : Type} [Field K]

/-- the documented behaviour of the routines: `KeepOf`: the result of a successful analysis of a structure; `FacOf`: the arrays contain a
factorization of a matrix, with which linear systems are solved; `inertia`: number of negative eigenvalues.  The contents of the arrays
before the factorization do not matter. -/
structure LibOK (L : Lib K P Keep Mem) (KeepOf : Keep → Structure → Prop) (FacOf : Mem → Structure → (Nat → K) → Prop)
    (inertia : Structure → (Nat → K) → Int) : Prop where
  analyse : ∀ S : Structure, 0 ≤ (L.analyse S.dim S.nnz S.ia S.ja).info → KeepOf (L.analyse S.dim S.nnz S.ia S.ja).keep S
  factor : ∀ (S : Structure) v mem lf li keep t, KeepOf keep S → (L.factor S.dim S.nnz v mem lf li keep t).info = 0 →
    FacOf (L.factor S.dim S.nnz v mem lf li keep t).mem S v ∧ (L.factor S.dim S.nnz v mem lf li keep t).neg = inertia S v
  backsolve : ∀ (S : Structure) v mem lf li nrhs b, FacOf mem S v → (L.backsolve S.dim mem lf li nrhs b).1 = 0 →
    SolvesAll .triplet S v nrhs (L.backsolve S.dim mem lf li nrhs b).2 b

/-- the two errors that the interface does not look at show up elsewhere or do not happen: a factorization after a failed analysis is not
successful, and the solution phase does not fail when there is a factorization. -/
structure Noticed (L : Lib K P Keep Mem) (FacOf : Mem → Structure → (Nat → K) → Prop) : Prop where
  analyse : ∀ (S : Structure) v mem lf li t, (L.analyse S.dim S.nnz S.ia S.ja).info < 0 →
    (L.factor S.dim S.nnz v mem lf li (L.analyse S.dim S.nnz S.ia S.ja).keep t).info ≠ 0
  backsolve : ∀ (S : Structure) v mem lf li nrhs b, FacOf mem S v → (L.backsolve S.dim mem lf li nrhs b).1 = 0

/-- when MA57 complains about too little memory, it asks for more than it had. -/
def AsksForMore (L : Lib K P Keep Mem) : Prop :=
  ∀ d n v mem lf li keep t, ((L.factor d n v mem lf li keep t).info = -3 → lf < (L.factor d n v mem lf li keep t).needReal) ∧
    ((L.factor d n v mem lf li keep t).info = -4 → li < (L.factor d n v mem lf li keep t).needInt)

/-- how carefully the object has been used: `sound`: no exception since the last analysis of a structure; `ok`: values were written and
`MultiSolve` was called only when sound. -/
structure Care where
  sound : Bool
  ok : Bool

/-- histories of calls that come to an end: with each state, what the caller may rely on and how carefully the object was used.  After an
exception the object can only be initialized again. -/
inductive Ran [LinearOrder P] (L : Lib K P Keep Mem) : St K P Keep Mem → Known K → Care → Prop
  | start (o : Opts P) (keep) (ho : 1 ≤ o.preAlloc) : Ran L (St.start o keep L) Known.fresh ⟨false, true⟩
  | init {st k c} (o : Opts P) (maxSet warm) (ho : 1 ≤ o.preAlloc) : Ran L st k c →
      Ran L (st.init o maxSet warm).2 (k.afterInit warm (st.init o maxSet warm).1) ⟨warm && c.sound, c.ok⟩
  | struct {st k c} (S : Structure) : Ran L st k c → k.AllowsStruct S →
      Ran L (st.initStructure L S.dim S.nnz S.ia S.ja).2
        (k.afterStruct S ((st.initStructure L S.dim S.nnz S.ia S.ja).1 = .ret .success))
        ⟨if k.warm then c.sound else (st.initStructure L S.dim S.nnz S.ia S.ja).1 = .ret .success, c.ok⟩
  | write {st k c S} (v : Nat → K) : Ran L st k c → k.struct = some S →
      Ran L (st.write v) { k with array := some v } ⟨c.sound, c.ok && c.sound⟩
  | solve {st k c S} (fuel : Nat) (new : Bool) (nrhs : Nat) (arr : Nat → K) (chk : Bool) (neg : Nat) : Ran L st k c → k.AllowsSolve S new →
      (st.multiSolve L fuel new nrhs arr chk neg).1 ≠ .running →
      Ran L (st.multiSolve L fuel new nrhs arr chk neg).2.2
        (match (st.multiSolve L fuel new nrhs arr chk neg).1 with
          | .ret .success => k.afterSolve (k.array.or k.held) false
          | .ret .callAgain => k.afterSolve none (!new)
          | .ret _ => k.afterSolve none false
          | _ => afterThrow k)
        ⟨c.sound && ((st.multiSolve L fuel new nrhs arr chk neg).1 ≠ .thrown), c.ok && c.sound⟩
  | quality {st k c} : Ran L st k c → Ran L (st.quality L).2 { k with raised := k.raised || (st.quality L).1 } c

/-- later states without a new `Initialize`, and how often `IncreaseQuality` has returned true since. -/
inductive Later [LinearOrder P] (L : Lib K P Keep Mem) (st : St K P Keep Mem) : Nat → St K P Keep Mem → Prop
  | here : Later L st 0 st
  | struct {n st'} (d nz ia ja) : Later L st n st' → Later L st n (st'.initStructure L d nz ia ja).2
  | write {n st'} (v) : Later L st n st' → Later L st n (st'.write v)
  | solve {n st'} (fuel new nrhs arr chk neg) : Later L st n st' → Later L st n (st'.multiSolve L fuel new nrhs arr chk neg).2.2
  | quality {n st'} : Later L st n st' → Later L st (if (st'.quality L).1 then n + 1 else n) (st'.quality L).2

end Verif.Ma57
