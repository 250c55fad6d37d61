import Verif.Model.Mumps
import Verif.Spec.AugSolve

/-! # Specification: what MUMPS is expected to do, and histories of calls of the interface class -/

namespace Verif.Mumps
open Verif.AugSolve (Status Structure Known SolvesAll)

variable {K P M : Type} [Field K]

/-- the documented behaviour of MUMPS.  `SymOf m S`: `m` contains the analysis of a structure, which no later factorization or solve spoils;
`FacOf m S v`: and the factors of a matrix, which are not spoiled by solves; `inertia`: number of negative eigenvalues.  Negative values of
`info[0]` are errors. -/
structure LibOK (L : Lib K P M) (SymOf : M → Structure → Prop) (FacOf : M → Structure → (Nat → K) → Prop)
    (inertia : Structure → (Nat → K) → Int) : Prop where
  analyse : ∀ c (S : Structure) a m, 0 ≤ (L.analyse c S.dim S.nnz S.ia S.ja a m).1 → SymOf (L.analyse c S.dim S.nnz S.ia S.ja a m).2 S
  keep : ∀ c (S : Structure) a m, SymOf m S → SymOf (L.factor c S.dim S.nnz S.ia S.ja a m).m S
  factor : ∀ c (S : Structure) v m, SymOf m S → c.nul = false → 0 ≤ (L.factor c S.dim S.nnz S.ia S.ja v m).info →
    FacOf (L.factor c S.dim S.nnz S.ia S.ja v m).m S v ∧ (L.factor c S.dim S.nnz S.ia S.ja v m).neg = inertia S v
  solveKeep : ∀ (S : Structure) m b, (SymOf m S → SymOf (L.backsolve S.dim m b).2.2 S) ∧
    ∀ v, FacOf m S v → FacOf (L.backsolve S.dim m b).2.2 S v
  backsolve : ∀ (S : Structure) v m b, FacOf m S v → 0 ≤ (L.backsolve S.dim m b).1 → SolvesAll .triplet S v 1 (L.backsolve S.dim m b).2.1 b

/-- histories of calls: with each state, what the caller may rely on.  After an exception the object can only be initialized again, unless it
was thrown by the detection of dependent rows. -/
inductive Ran [LinearOrder P] (L : Lib K P M) : St K P M → Known K → Prop
  | start (o : Opts P) (c m) : Ran L (St.start o c m L) Known.fresh
  | init {st k} (o : Opts P) (maxSet warm) : Ran L st k → Ran L (st.init o maxSet warm).2 (k.afterInit warm (st.init o maxSet warm).1)
  | struct {st k} (S : Structure) : Ran L st k → k.AllowsStruct S →
      Ran L (st.initStructure L S.dim S.nnz S.ia S.ja).2
        (k.afterStruct S ((st.initStructure L S.dim S.nnz S.ia S.ja).1 = some .success))
  | write {st k} (v : Nat → K) : Ran L st k → Ran L (st.write v) { k with array := some v }
  | solve {st k S} (new : Bool) (nrhs : Nat) (arr : Nat → K) (chk : Bool) (neg : Nat) : Ran L st k → k.AllowsSolve S new →
      Ran L (st.multiSolve L new nrhs arr chk neg).2.2
        (match (st.multiSolve L new nrhs arr chk neg).1 with
          | some .success => k.afterSolve (k.array.or k.held) false
          | some .callAgain => k.afterSolve none (!new)
          | _ => k.afterSolve none false)
  | quality {st k} : Ran L st k → Ran L (st.quality L).2 { k with raised := k.raised || (st.quality L).1 }
  | dependent {st k S} : Ran L st k → k.struct = some S → k.array.isSome → (st.dependent L).1 ≠ none →
      Ran L (st.dependent L).2.2 (k.afterSolve none false)

/-- any later states without a new `Initialize`, and how often `IncreaseQuality` has returned true since. -/
inductive Later [LinearOrder P] (L : Lib K P M) (st : St K P M) : Nat → St K P M → Prop
  | here : Later L st 0 st
  | struct {n st'} (d nz ia ja) : Later L st n st' → Later L st n (st'.initStructure L d nz ia ja).2
  | write {n st'} (v) : Later L st n st' → Later L st n (st'.write v)
  | solve {n st'} (new nrhs arr chk neg) : Later L st n st' → Later L st n (st'.multiSolve L new nrhs arr chk neg).2.2
  | dependent {n st'} : Later L st n st' → Later L st n (st'.dependent L).2.2
  | quality {n st'} : Later L st n st' → Later L st (if (st'.quality L).1 then n + 1 else n) (st'.quality L).2

/-- the latest analysis in a record of calls (newest first). -/
def lastAnalysis (log : List (Call P)) : Option (Call P) := log.find? fun c => c.job = 1

/-- every factorization in the record was done with the tolerance of the latest analysis before it. -/
def Faithful : List (Call P) → Prop
  | [] => True
  | c :: rest => (c.job = 2 → ∃ d, lastAnalysis rest = some d ∧ c.ctl.tol = d.ctl.tol) ∧ Faithful rest

/-- a list of factorization calls as it should be: the first with memory setting `mem`, each further one after a complaint about too little
memory with the doubled setting (at most `imax`), at most `k` calls, and no call after an answer that is no such complaint. -/
inductive Attempts (imax : Nat) : Nat → Nat → List (Call P) → Prop
  | last {k mem} (c : Call P) (hj : c.job = 2) (hm : c.ctl.mem = mem) : Attempts imax (k + 1) mem [c]
  | more {k mem rest} (c : Call P) (hj : c.job = 2) (hm : c.ctl.mem = mem) (hs : c.info = -8 ∨ c.info = -9)
      (h : Attempts imax k (min imax (2 * mem)) rest) : Attempts imax (k + 1) mem (c :: rest)

end Verif.Mumps
