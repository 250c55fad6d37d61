import Verif.Model.Ma27
import Verif.Spec.AugSolve

/-! # Specification: what MA27 is expected to do, and histories of calls of the interface class -/

namespace Verif.Ma27
open Verif.AugSolve (Status Structure Known SolvesAll)

variable {K P Keep Fac : Type} [Field K]

/-- the documented behaviour of the three routines: `KeepOf`: the result of a successful analysis of a structure; `FacOf`: the result of a
successful factorization of a matrix, which solves linear systems with this matrix; `inertia`: number of negative eigenvalues. -/
structure LibOK (L : Lib K P Keep Fac) (KeepOf : Keep → Structure → Prop) (FacOf : Fac → Keep → Structure → (Nat → K) → Prop)
    (inertia : Structure → (Nat → K) → Int) : Prop where
  analyse : ∀ (S : Structure) liw, (L.analyse S.dim S.nnz S.ia S.ja liw).iflag = 0 → KeepOf (L.analyse S.dim S.nnz S.ia S.ja liw).keep S
  factor : ∀ (S : Structure) v la liw keep t, KeepOf keep S → (L.factor S.dim S.nnz S.ia S.ja (.raw v) la liw keep t).iflag = 0 →
    FacOf (L.factor S.dim S.nnz S.ia S.ja (.raw v) la liw keep t).fac keep S v ∧
    (L.factor S.dim S.nnz S.ia S.ja (.raw v) la liw keep t).neg = inertia S v
  backsolve : ∀ f keep S v b, FacOf f keep S v → SolvesAll .triplet S v 1 (L.backsolve S.dim (.fac f) keep b) b

/-- when MA27 complains about too little memory, it asks for more than it had. -/
def AsksForMore (L : Lib K P Keep Fac) : Prop :=
  ∀ d n ia ja w la liw keep t, ((L.factor d n ia ja w la liw keep t).iflag = -3 → (liw : Int) < (L.factor d n ia ja w la liw keep t).ierror) ∧
    ((L.factor d n ia ja w la liw keep t).iflag = -4 → (la : Int) < (L.factor d n ia ja w la liw keep t).ierror)

/-- how carefully the object has been used: `sound`: its arrays are as they should be; `settled`: no array has been handed out since the
last `MultiSolve` that did not ask to be called again; `ok`: values were written and `MultiSolve` was called only when sound. -/
structure Care where
  sound : Bool
  settled : Bool
  ok : Bool

/-- after an exception nothing can be relied on but the structure announced last. -/
def afterThrow (k : Known K) : Known K := ⟨none, none, none, false, false, k.prev, false, k.warm⟩

/-- histories of calls: with each state, what the caller may rely on and how carefully the object was used.  After an exception the
object can only be initialized again. -/
inductive Ran [LinearOrder P] (L : Lib K P Keep Fac) : St K P Keep Fac → Known K → Care → Prop
  | start (o : Opts P) (keep) (ho : 1 ≤ o.memInc) : Ran L (St.start o keep L) Known.fresh ⟨false, true, true⟩
  | init {st k c} (o : Opts P) (maxSet warm) (ho : 1 ≤ o.memInc) : Ran L st k c →
      Ran L (st.init o maxSet warm).2 (k.afterInit warm (st.init o maxSet warm).1) ⟨warm && c.sound && c.settled, c.settled, c.ok⟩
  | struct {st k c} (S : Structure) (hn : S.nnz ≤ L.imax) : Ran L st k c → k.AllowsStruct S → k.struct = none →
      Ran L (st.initStructure L S.dim S.nnz S.ia S.ja).2
        (k.afterStruct S ((st.initStructure L S.dim S.nnz S.ia S.ja).1 = some .success))
        ⟨if k.warm then c.sound else (st.initStructure L S.dim S.nnz S.ia S.ja).1 = some .success,
          if k.warm then c.settled else (st.initStructure L S.dim S.nnz S.ia S.ja).1 = some .success, c.ok⟩
  | write {st k c S} (v : Nat → K) : Ran L st k c → k.struct = some S → (st.write L v).1 = true →
      Ran L (st.write L v).2 { k with array := some v } ⟨c.sound, false, c.ok && c.sound⟩
  | writeThrows {st k c S} (v : Nat → K) : Ran L st k c → k.struct = some S → (st.write L v).1 = false →
      Ran L (st.write L v).2 (afterThrow k) ⟨false, false, c.ok && c.sound⟩
  | solve {st k c S} (new : Bool) (nrhs : Nat) (arr : Nat → K) (chk : Bool) (neg : Nat) : Ran L st k c → k.AllowsSolve S new →
      Ran L (st.multiSolve L new S.ia S.ja nrhs arr chk neg).2.2
        (match (st.multiSolve L new S.ia S.ja nrhs arr chk neg).1 with
          | some .success => k.afterSolve (k.array.or k.held) false
          | some .callAgain => k.afterSolve none (!new)
          | some _ => k.afterSolve none false
          | none => (afterThrow k))
        ⟨c.sound && ((st.multiSolve L new S.ia S.ja nrhs arr chk neg).1 ≠ none),
          (match (st.multiSolve L new S.ia S.ja nrhs arr chk neg).1 with | some .callAgain => c.settled | some _ => true | none => false),
          c.ok && c.sound⟩
  | quality {st k c} : Ran L st k c → Ran L (st.quality L).2 { k with raised := k.raised || (st.quality L).1 } c

/-- later states without a new `Initialize`, and how often `IncreaseQuality` has returned true since. -/
inductive Later [LinearOrder P] (L : Lib K P Keep Fac) (st : St K P Keep Fac) : Nat → St K P Keep Fac → Prop
  | here : Later L st 0 st
  | struct {n st'} (d nz ia ja) : Later L st n st' → Later L st n (st'.initStructure L d nz ia ja).2
  | write {n st'} (v) : Later L st n st' → Later L st n (st'.write L v).2
  | solve {n st'} (new ia ja nrhs arr chk neg) : Later L st n st' → Later L st n (st'.multiSolve L new ia ja nrhs arr chk neg).2.2
  | quality {n st'} : Later L st n st' → Later L st (if (st'.quality L).1 then n + 1 else n) (st'.quality L).2

end Verif.Ma27
