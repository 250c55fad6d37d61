import Verif.Model.DenseVector

/-!
# Model of the values cached by `Ipopt::Vector`

`/repo/src/LinAlg/IpVector.hpp:532-860`, `/repo/src/LinAlg/IpVector.cpp:146-210`.

Every vector keeps, for seven quantities, the value computed last and the tag the vector had then; `Scal` and `Copy` update or take over
cached values.  Tags come from one counter (`TaggedObject::ObjectChanged`, `/repo/src/Common/IpTaggedObject.cpp:36-52`); the counter is not
bounded and not per thread here (in the code it is a thread-local 32-bit number).  The cache of dot products uses `CachedResults` (see `Verif.Model.Cache`).
`valid_cache_tag_`/`HasValidNumbers` is not part of the model: the constructor leaves that tag uninitialised (`IpVector.hpp:532-548`).
-/

namespace Verif.Vec

variable {K : Type} [Field K] [LinearOrder K] [IsStrictOrderedRing K]

/-- The seven cached quantities (`IpVector.hpp:419-446`). -/
inductive Q where
  | nrm2 | asum | amax | max | min | sum | sumlogs
  deriving DecidableEq

/-- `std::sqrt`, `std::log` and `std::numeric_limits<Number>::max()`. -/
structure MathFns (K : Type) where
  sqrt : K → K
  log : K → K
  big : K

/-- The virtual functions `Nrm2Impl`, ... (`IpDenseVector.cpp:221-261, 633-721`). -/
def impl (F : MathFns K) (q : Q) (v : DV K) : K :=
  match q with
  | .nrm2 => v.nrm2 F.sqrt
  | .asum => v.asum
  | .amax => v.amax
  | .max => v.maxE F.big
  | .min => v.minE F.big
  | .sum => v.sum
  | .sumlogs => v.sumLogs F.log

/-- A vector object: contents, tag, and for every quantity the tag and value of the cache (`IpVector.hpp:419-446`). -/
structure VObj (K : Type) where
  v : DV K
  tag : Nat
  ctag : Q → Nat
  cval : Q → K

/-- All vector objects (numbered) and the counter for tags. -/
structure VHeap (K : Type) where
  obj : Nat → VObj K
  next : Nat

def VHeap.upd (h : VHeap K) (i : Nat) (o : VObj K) : VHeap K := { h with obj := fun j => if j = i then o else h.obj j }

/-- Remember a value in the cache of a quantity. -/
def VObj.remember (o : VObj K) (q : Q) (t : Nat) (x : K) : VObj K :=
  { o with ctag := fun r => if r = q then t else o.ctag r, cval := fun r => if r = q then x else o.cval r }

/-- `ObjectChanged` after the contents were set to `v` (`IpTaggedObject.cpp:42-52`; called by all modifying functions, `IpVector.hpp:609-847`). -/
def VHeap.change (h : VHeap K) (i : Nat) (v : DV K) : VHeap K :=
  { (h.upd i { h.obj i with v := v, tag := h.next }) with next := h.next + 1 }

/-- The constructor (`IpVector.hpp:532-548`): all cache tags are 0; contents arbitrary. -/
def VHeap.create (h : VHeap K) (i : Nat) (v : DV K) : VHeap K :=
  { (h.upd i { v := v, tag := h.next, ctag := fun _ => 0, cval := fun _ => 0 }) with next := h.next + 1 }

/-- `Nrm2()`, `Asum()`, `Amax()`, `Max()`, `Min()`, `Sum()`, `SumLogs()` (`IpVector.hpp:640-688, 774-792`). -/
def VHeap.query (F : MathFns K) (h : VHeap K) (i : Nat) (q : Q) : K × VHeap K :=
  let o := h.obj i
  if o.ctag q ≠ o.tag then
    let x := impl F q o.v
    (x, h.upd i (o.remember q o.tag x))
  else (o.cval q, h)

/-- The updates of the cached values in `Scal` (`IpVector.cpp:150-210`), statement by statement: `old` is the tag before, `t` the new one. -/
def scalCaches (F : MathFns K) (o : VObj K) (old t : Nat) (α : K) : VObj K :=
  let o := if old = o.ctag .nrm2 then o.remember .nrm2 t (o.cval .nrm2 * |α|) else o
  let o := if old = o.ctag .asum then o.remember .asum t (o.cval .asum * |α|) else o
  let o := if old = o.ctag .amax then o.remember .amax t (o.cval .amax * |α|) else o
  let o := if old = o.ctag .max then
      if 0 ≤ α then o.remember .max t (o.cval .max * α) else o.remember .min t (o.cval .max * α)
    else o
  let o := if old = o.ctag .min then
      if 0 ≤ α then o.remember .min t (o.cval .min * α) else o.remember .max t (o.cval .min * α)
    else o
  let o := if old = o.ctag .sum then o.remember .sum t (o.cval .sum * α) else o
  if old = o.ctag .sumlogs then
    o.remember .sumlogs t (if 0 < o.v.dim then o.cval .sumlogs + o.v.dim * F.log α else o.cval .sumlogs)
  else o

/-- `Scal` (`IpVector.cpp:146-210`). -/
def VHeap.scal (F : MathFns K) (h : VHeap K) (i : Nat) (α : K) : VHeap K :=
  if α ≠ 1 then
    let old := (h.obj i).tag
    let h := h.change i ((h.obj i).v.scal α)
    h.upd i (scalCaches F (h.obj i) old (h.obj i).tag α)
  else h

/-- Taking over one cached value in `Copy` (`IpVector.hpp:571-606`). -/
def takeOver (x : VObj K) (o : VObj K) (q : Q) : VObj K :=
  if x.tag = x.ctag q then o.remember q o.tag (x.cval q) else o

/-- `Copy` (`IpVector.hpp:563-607`); also for `i = j`, where the tag of `x` has already changed. -/
def VHeap.copy (h : VHeap K) (i j : Nat) : VHeap K :=
  let h := h.change i ((h.obj i).v.copy (h.obj j).v)
  let x := h.obj j
  h.upd i ([Q.nrm2, .asum, .amax, .max, .min, .sum, .sumlogs].foldl (takeOver x) (h.obj i))

/-- Calls of the interface: creation, any modification other than `Scal` and `Copy`, `Scal`, `Copy`, and a query. -/
inductive VCall (K : Type) where
  | create (i : Nat) (v : DV K)
  | change (i : Nat) (v : DV K)
  | scal (i : Nat) (α : K)
  | copy (i j : Nat)
  | query (i : Nat) (q : Q)

/-- One call; the second component is the returned number of a query. -/
def VHeap.step (F : MathFns K) (h : VHeap K) : VCall K → VHeap K × Option K
  | .create i v => (h.create i v, none)
  | .change i v => (h.change i v, none)
  | .scal i α => (h.scal F i α, none)
  | .copy i j => (h.copy i j, none)
  | .query i q => ((h.query F i q).2, some (h.query F i q).1)

/-- Initial state: all vectors have been created with empty contents (the first tag handed out is `1`, `IpTaggedObject.cpp:36-52`; only
`0` is never a tag matters). -/
def VHeap.init : VHeap K := ⟨fun _ => ⟨⟨0, true, 0, []⟩, 1, fun _ => 0, fun _ => 0⟩, 2⟩

end Verif.Vec
