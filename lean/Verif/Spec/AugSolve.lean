import Verif.Model.AugSolve
import Verif.Spec.Triplet
import Verif.Spec.CSR
import Verif.Spec.PDSystem

/-! # Specification: what `MultiSolve` of the augmented system has to deliver, and what it may assume

Nothing here refers to the state of the solver classes. -/

namespace Verif.AugSolve
open Verif.Matrix Finset
open Verif.Triplet (Vec Supported NoTriangle TriangleOK SameStructure symElem)
open Verif.CSR (csrElem SortedEntries)
open Verif.PDSystem (AugArgs mv mtv)

variable {K B : Type} [Field K]

/-! ## The sparse linear solver -/

/-- element (r, c) of the symmetric matrix given to a sparse solver by its structure and the values array, in the three formats. -/
def denote (fmt : Fmt) (nnz : Nat) (ia ja : Nat → Nat) (v : Nat → K) (r c : Nat) : K :=
  match fmt with
  | .triplet => symElem nnz ia ja v r c
  | .csr o => if r ≤ c then csrElem o ia ja v r c else csrElem o ia ja v c r
  | .full o => csrElem o ia ja v r c

/-- the structure given to a sparse solver. -/
structure Structure where
  dim : Nat
  nnz : Nat
  ia : Nat → Nat
  ja : Nat → Nat

/-- what the caller may expect a sparse solver to know: the structure; the values written since the last call of `MultiSolve`; the values
of the matrix of which it has a factorization; whether it has promised a better quality that it has not yet delivered; whether it answered
the last call, made without a new matrix, by CALL_AGAIN; the structure announced last (kept over warm starts); whether it is initialized,
and whether with `warm_start_same_structure`. -/
structure Known (K : Type) where
  struct : Option Structure
  array : Option (Nat → K)
  held : Option (Nat → K)
  raised : Bool
  asked : Bool
  prev : Option Structure
  init : Bool
  warm : Bool

/-- a solver just created. -/
def Known.fresh : Known K := ⟨none, none, none, false, false, none, false, false⟩

/-- after `Initialize` returned `ok`. -/
def Known.afterInit (k : Known K) (warm ok : Bool) : Known K :=
  ⟨none, none, none, false, false, if ok && !warm then none else k.prev, ok, warm⟩

/-- after a successful or failed `InitializeStructure`. -/
def Known.afterStruct (k : Known K) (S : Structure) (ok : Bool) : Known K :=
  ⟨if ok then some S else none, none, none, false, false, if ok then some S else if k.warm then k.prev else none, k.init, k.warm⟩

/-- after `MultiSolve`. -/
def Known.afterSolve (k : Known K) (held : Option (Nat → K)) (asked : Bool) : Known K :=
  { k with array := none, held := held, raised := false, asked := asked }

/-- when `InitializeStructure` may be called: after `Initialize`; with the old structure after a warm start. -/
def Known.AllowsStruct (k : Known K) (S : Structure) : Prop := k.init = true ∧ (k.warm = true → k.prev = some S)

/-- when `MultiSolve` may be called: a new matrix has been written; without a new matrix, values have been written only if they were asked
for. -/
def Known.AllowsSolve (k : Known K) (S : Structure) (new : Bool) : Prop :=
  k.struct = some S ∧ (new = true → k.array.isSome) ∧ (k.array.isSome → new = true ∨ k.asked = true)

/-- all `nrhs` columns of `y` solve the linear system with right-hand sides `b`. -/
def SolvesAll (fmt : Fmt) (S : Structure) (v : Nat → K) (nrhs : Nat) (y b : Nat → K) : Prop :=
  ∀ i, i < nrhs → ∀ r, r < S.dim → ∑ c ∈ range S.dim, denote fmt S.nnz S.ia S.ja v r c * y (i * S.dim + c) = b (i * S.dim + r)

/-- the interface contract of sparse solver and scaling method (IpSparseSymLinearSolverInterface.hpp:18-97, 120-220,
IpTSymScalingMethod.hpp).  `Rep b k`: in state `b`, the caller may rely on `k`.
A solver must solve the system with the values in the array (if written since the last call), otherwise with the matrix it has factorized
last successfully.  It may ask for the values again (CALL_AGAIN) at any time; it then has not changed the right-hand sides.
After `IncreaseQuality` returned true it must not report success without having a factorization. -/
structure Contract (E : Env K B) (Rep : B → Known K → Prop) : Prop where
  init : ∀ w b k, Rep b k → Rep (E.initBackend w b).2 (k.afterInit w (E.initBackend w b).1)
  initScaling : ∀ b k, Rep b k → Rep (E.initScaling b).2 k
  struct : ∀ b k d n ia ja, Rep b k → k.AllowsStruct ⟨d, n, ia, ja⟩ →
    ((E.initStructure d n ia ja b).1 = .success ∨ (E.initStructure d n ia ja b).1 = .fatal) ∧
    Rep (E.initStructure d n ia ja b).2 (k.afterStruct ⟨d, n, ia, ja⟩ ((E.initStructure d n ia ja b).1 = .success))
  store : ∀ b k v, Rep b k → Rep (E.store v b) { k with array := some v }
  quality : ∀ b k, Rep b k → Rep (E.quality b).2 { k with raised := k.raised || (E.quality b).1 }
  scale : ∀ b k d n ir jc a, Rep b k → Rep (E.scale d n ir jc a b).2 k ∧
    ∀ f, (E.scale d n ir jc a b).1 = some f → ∀ i, i < d → f i ≠ 0
  solveOK : ∀ b k S new nrhs arr chk neg, Rep b k → k.AllowsSolve S new →
    (k.array.isSome ∨ k.held.isSome ∨ k.raised = true) → (E.solve new S.ia S.ja nrhs arr chk neg b).1 = .success →
    ∃ v, k.array.or k.held = some v ∧ SolvesAll E.fmt S v nrhs (E.solve new S.ia S.ja nrhs arr chk neg b).2.1 arr ∧
      Rep (E.solve new S.ia S.ja nrhs arr chk neg b).2.2 (k.afterSolve (some v) false)
  solveAgain : ∀ b k S new nrhs arr chk neg, Rep b k → k.AllowsSolve S new →
    (E.solve new S.ia S.ja nrhs arr chk neg b).1 = .callAgain →
    (E.solve new S.ia S.ja nrhs arr chk neg b).2.1 = arr ∧
      Rep (E.solve new S.ia S.ja nrhs arr chk neg b).2.2 (k.afterSolve none (!new))
  solveFail : ∀ b k S new nrhs arr chk neg, Rep b k → k.AllowsSolve S new →
    (E.solve new S.ia S.ja nrhs arr chk neg b).1 ≠ .success → (E.solve new S.ia S.ja nrhs arr chk neg b).1 ≠ .callAgain →
    Rep (E.solve new S.ia S.ja nrhs arr chk neg b).2.2 (k.afterSolve none false)
  sort : ∀ t, SortedEntries t (E.sort t)

/-! ## The calls -/

/-- valid contents of the arguments: dimensions agree, matrices are valid objects of classes known to `TripletHelper`, symmetric ones
stored as triangles only where a symmetric matrix is expected; the system is not empty. -/
structure ArgsOK (c : AugArgs K) : Prop where
  W : ∀ W, c.W = some W → WF W ∧ isSym W ∧ Supported W ∧ TriangleOK W ∧ W.dims = (c.Jc.dims.2, c.Jc.dims.2)
  Jc : WF c.Jc ∧ Supported c.Jc ∧ NoTriangle c.Jc
  Jd : WF c.Jd ∧ Supported c.Jd ∧ NoTriangle c.Jd
  Jdd : c.Jd.dims.2 = c.Jc.dims.2
  Dx : ∀ d, c.Dx = some d → d.length = c.Jc.dims.2
  Ds : ∀ d, c.Ds = some d → d.length = c.Jd.dims.1
  Dc : ∀ d, c.Dc = some d → d.length = c.Jc.dims.1
  Dd : ∀ d, c.Dd = some d → d.length = c.Jd.dims.1
  pos : 0 < c.Jc.dims.2

/-- the matrices have the structure of those of the first call. -/
structure Like (f c : AugArgs K) : Prop where
  W : ∀ W, c.W = some W → ∃ Wf, f.W = some Wf ∧ SameStructure Wf W
  Jc : SameStructure f.Jc c.Jc
  Jd : SameStructure f.Jd c.Jd

/-- four vectors of the dimensions of the system. -/
structure Quad.Dim (a : AugArgs K) (q : Quad K) : Prop where
  x : q.x.known ∧ q.x.dim = a.Jc.dims.2
  s : q.s.known ∧ q.s.dim = a.Jd.dims.1
  c : q.c.known ∧ q.c.dim = a.Jc.dims.1
  d : q.d.known ∧ q.d.dim = a.Jd.dims.1

/-- the augmented system (IpAugSystemSolver.hpp:19-31), component by component. -/
structure SolvesQuad (a : AugArgs K) (y r : Quad K) : Prop where
  x : ∀ i, i < a.Jc.dims.2 →
    (match a.W with | some W => a.Wfac * mv W y.x.elems i | none => 0) + ((a.Dx.getD []).getD i 0 + a.δx) * y.x.elems.getD i 0 +
      mtv a.Jc y.c.elems i + mtv a.Jd y.d.elems i = r.x.elems.getD i 0
  s : ∀ i, i < a.Jd.dims.1 → ((a.Ds.getD []).getD i 0 + a.δs) * y.s.elems.getD i 0 - y.d.elems.getD i 0 = r.s.elems.getD i 0
  c : ∀ i, i < a.Jc.dims.1 → mv a.Jc y.x.elems i + ((a.Dc.getD []).getD i 0 - a.δc) * y.c.elems.getD i 0 = r.c.elems.getD i 0
  d : ∀ i, i < a.Jd.dims.1 →
    mv a.Jd y.x.elems i - y.s.elems.getD i 0 + ((a.Dd.getD []).getD i 0 - a.δd) * y.d.elems.getD i 0 = r.d.elems.getD i 0

/-! ## Histories -/

/-- may a call repeat exactly the arguments of the previous one?  `yes`: the previous call succeeded, or a better quality was promised
since; `afterQuality`: it failed, so only after `IncreaseQuality`; `no`: the solver was re-initialised since. -/
inductive Reuse where
  | no
  | afterQuality
  | yes
deriving DecidableEq

/-- what a caller remembers: whether the object is usable, the first arguments since the last cold initialization, the last arguments. -/
structure Hist (K : Type) where
  ready : Bool
  first : Option (Args K)
  last : Option (Args K × Reuse)

/-- after `Initialize` (`none`: exception). -/
def Hist.afterInit (h : Hist K) (warm : Bool) (r : Option Bool) : Hist K :=
  if warm then ⟨r == some true, h.first, h.last.map fun p => (p.1, .no)⟩ else ⟨r == some true, none, none⟩

/-- after `IncreaseQuality`. -/
def Hist.afterQuality (h : Hist K) (ok : Bool) : Hist K :=
  if ok then { h with last := h.last.map fun p => (p.1, if p.2 = .afterQuality then .yes else p.2) } else h

/-- after `MultiSolve`: unusable after an exception, a fatal error, or if it never ended. -/
def Hist.afterSolve (h : Hist K) (a : Args K) (e : End) : Hist K :=
  ⟨h.ready && (match e with | .ret s => s != .fatal | _ => false), h.first.or (some a),
    some (a, if e = .ret .success then .yes else .afterQuality)⟩

/-- the calls of `MultiSolve` that the caller may make. -/
structure Hist.Allows (matOf : Nat → Mat K) (vecOf : Nat → List K) (h : Hist K) (a : Args K) (rhs sol : List (Quad K)) : Prop where
  ready : h.ready = true
  tags : a.Jc ≠ 0 ∧ a.Jd ≠ 0 ∧ a.W ≠ some 0 ∧ a.Dx ≠ some 0 ∧ a.Ds ≠ some 0 ∧ a.Dc ≠ some 0 ∧ a.Dd ≠ some 0
  ok : ArgsOK (a.contents matOf vecOf)
  firstW : h.first = none → a.W ≠ none
  like : ∀ f, h.first = some f → Like (f.contents matOf vecOf) (a.contents matOf vecOf)
  repeated : ∀ r, h.last = some (a, r) → r = .yes
  count : rhs.length = sol.length
  rhs : ∀ q ∈ rhs, q.Dim (a.contents matOf vecOf)
  sol : ∀ q ∈ sol, q.Dim (a.contents matOf vecOf)

/-- states reached by any sequence of calls: (re-)initializations, warm or not, with any outcome; requests for better quality; allowed
calls of `MultiSolve` with any outcome. -/
inductive Reach [DecidableEq K] (E : Env K B) (Rep : B → Known K → Prop) (matOf : Nat → Mat K) (vecOf : Nat → List K) :
    State K B → Hist K → Prop
  | start (b) (hb : Rep b Known.fresh) : Reach E Rep matOf vecOf (State.start E b) ⟨false, none, none⟩
  | init {s h} (warm demand) : Reach E Rep matOf vecOf s h →
      Reach E Rep matOf vecOf (s.init E warm demand).2 (h.afterInit warm (s.init E warm demand).1)
  | quality {s h} : Reach E Rep matOf vecOf s h → Reach E Rep matOf vecOf (s.quality E).2 (h.afterQuality (s.quality E).1)
  | solve {s h} (fuel a rhs sol chk neg) : Reach E Rep matOf vecOf s h → h.Allows matOf vecOf a rhs sol →
      Reach E Rep matOf vecOf (s.multiSolve E matOf vecOf fuel a rhs sol chk neg).2.2
        (h.afterSolve a (s.multiSolve E matOf vecOf fuel a rhs sol chk neg).1)

end Verif.AugSolve
