import Verif.Model.DenseVector

/-!
# Model of `Ipopt::CompoundVector`

`/repo/src/LinAlg/IpCompoundVector.cpp`.  A compound vector is a list of component vectors of any vector type; every operation calls the
same operation of the components.  The virtual functions of a vector type are collected in `VecOps`; `denseOps` is `DenseVector`,
`sumOps` lets components be of two different types (nested compound and dense vectors), `compOps` is `CompoundVector`.
-/

namespace Verif.Vec

variable {K : Type} [Field K] [LinearOrder K] [IsStrictOrderedRing K]

/-- The public functions of `Ipopt::Vector` (`IpVector.hpp:60-260`). -/
structure VecOps (K V : Type) where
  dim : V → Nat
  copy : V → V → V
  set : V → K → V
  scal : V → K → V
  axpy : V → K → V → V
  multiply : V → V → V
  divide : V → V → V
  eMax : V → V → V
  eMin : V → V → V
  mapE : (K → K) → V → V
  dot : V → V → K
  asum : V → K
  amax : V → K
  maxE : K → V → K
  minE : K → V → K
  sum : V → K
  sumLogs : (K → K) → V → K
  nrm2 : (K → K) → V → K
  addTwo : V → K → V → K → V → K → V
  fracToBound : V → V → K → K
  addQuotient : V → K → V → V → K → V

/-- `DenseVector` (`IpDenseVector.cpp`); freshly allocated memory is taken to contain zeros here (its contents do not matter, see
`addTwo_elems_partial`). -/
def denseOps : VecOps K (DV K) where
  dim := DV.dim
  copy := DV.copy
  set := DV.set
  scal := DV.scal
  axpy := DV.axpy
  multiply := DV.multiply
  divide := DV.divide
  eMax := DV.eMax
  eMin := DV.eMin
  mapE := DV.mapE
  dot := DV.dot
  asum := DV.asum
  amax := DV.amax
  maxE := DV.maxE
  minE := DV.minE
  sum := DV.sum
  sumLogs := DV.sumLogs
  nrm2 := DV.nrm2
  addTwo y a v1 b v2 c := y.addTwo (List.replicate y.dim 0) a v1 b v2 c
  fracToBound := DV.fracToBound
  addQuotient y a z s c := y.addQuotient (List.replicate y.dim 0) a z s c

/-- Three lists of components in lock-step. -/
def zipComps {V : Type} (f : V → V → V → V) : List V → List V → List V → List V
  | y :: ys, z :: zs, s :: ss => f y z s :: zipComps f ys zs ss
  | _, _, _ => []

/-- `CompoundVector` (`IpCompoundVector.cpp:74-439`), operation by operation. -/
def compOps {V : Type} (o : VecOps K V) : VecOps K (List V) where
  dim y := (y.map o.dim).sum
  copy y x := List.zipWith o.copy y x
  set y s := y.map fun v => o.set v s
  scal y α := y.map fun v => o.scal v α
  axpy y α x := List.zipWith (fun v w => o.axpy v α w) y x
  multiply y x := List.zipWith o.multiply y x
  divide y x := List.zipWith o.divide y x
  eMax y x := List.zipWith o.eMax y x
  eMin y x := List.zipWith o.eMin y x
  mapE f y := y.map (o.mapE f)
  dot y x := (List.zip y x).foldl (fun d vw => d + o.dot vw.1 vw.2) 0
  asum y := y.foldl (fun d v => d + o.asum v) 0
  amax y := y.foldl (fun m v => max m (o.amax v)) 0
  maxE big y := y.foldl (fun m v => if o.dim v ≠ 0 then max m (o.maxE big v) else m) (-big)
  minE big y := y.foldl (fun m v => if o.dim v ≠ 0 then min m (o.minE big v) else m) big
  sum y := y.foldl (fun d v => d + o.sum v) 0
  sumLogs log y := y.foldl (fun d v => d + o.sumLogs log v) 0
  nrm2 sqrt y := sqrt (y.foldl (fun d v => d + o.nrm2 sqrt v * o.nrm2 sqrt v) 0)
  addTwo y a v1 b v2 c := zipComps (fun y v1 v2 => o.addTwo y a v1 b v2 c) y v1 v2
  fracToBound x δ τ := (List.zip x δ).foldl (fun α vw => min α (o.fracToBound vw.1 vw.2 τ)) 1
  addQuotient y a z s c := zipComps (fun y z s => o.addQuotient y a z s c) y z s

/-- Combining two vectors of a sum type; vectors of different types are never combined (`static_cast` of the code). -/
def mapSum {V W : Type} (f : V → V → V) (g : W → W → W) : V ⊕ W → V ⊕ W → V ⊕ W
  | .inl y, .inl x => .inl (f y x)
  | .inr y, .inr x => .inr (g y x)
  | y, _ => y

def readSum {V W α : Type} (f : V → α) (g : W → α) : V ⊕ W → α
  | .inl y => f y
  | .inr y => g y

def readSum2 {V W : Type} (f : V → V → K) (g : W → W → K) : V ⊕ W → V ⊕ W → K
  | .inl y, .inl x => f y x
  | .inr y, .inr x => g y x
  | _, _ => 0

def mapSum3 {V W : Type} (f : V → V → V → V) (g : W → W → W → W) : V ⊕ W → V ⊕ W → V ⊕ W → V ⊕ W
  | .inl y, .inl z, .inl s => .inl (f y z s)
  | .inr y, .inr z, .inr s => .inr (g y z s)
  | y, _, _ => y

/-- Vectors of one of two types (dynamic dispatch of the virtual functions). -/
def sumOps {V W : Type} (o : VecOps K V) (p : VecOps K W) : VecOps K (V ⊕ W) where
  dim := readSum o.dim p.dim
  copy := mapSum o.copy p.copy
  set y s := readSum (fun v => .inl (o.set v s)) (fun w => .inr (p.set w s)) y
  scal y α := readSum (fun v => .inl (o.scal v α)) (fun w => .inr (p.scal w α)) y
  axpy y α x := mapSum (fun v w => o.axpy v α w) (fun v w => p.axpy v α w) y x
  multiply := mapSum o.multiply p.multiply
  divide := mapSum o.divide p.divide
  eMax := mapSum o.eMax p.eMax
  eMin := mapSum o.eMin p.eMin
  mapE f := readSum (fun v => .inl (o.mapE f v)) (fun w => .inr (p.mapE f w))
  dot := readSum2 o.dot p.dot
  asum := readSum o.asum p.asum
  amax := readSum o.amax p.amax
  maxE big := readSum (o.maxE big) (p.maxE big)
  minE big := readSum (o.minE big) (p.minE big)
  sum := readSum o.sum p.sum
  sumLogs log := readSum (o.sumLogs log) (p.sumLogs log)
  nrm2 sqrt := readSum (o.nrm2 sqrt) (p.nrm2 sqrt)
  addTwo y a v1 b v2 c := mapSum3 (fun y v1 v2 => o.addTwo y a v1 b v2 c) (fun y v1 v2 => p.addTwo y a v1 b v2 c) y v1 v2
  fracToBound x δ τ := readSum2 (fun x δ => o.fracToBound x δ τ) (fun x δ => p.fracToBound x δ τ) x δ
  addQuotient y a z s c := mapSum3 (fun y z s => o.addQuotient y a z s c) (fun y z s => p.addQuotient y a z s c) y z s

/-! ### Caching in a compound vector -/

/-- A compound vector together with its tag and its cached sum (`IpVector.hpp:670-678`); components are vectors that other parts of the
program may hold pointers to (`SetCompNonConst`, `GetCompNonConst`, `IpCompoundVector.hpp:96-117`). -/
structure CObj (K : Type) where
  comps : List (DV K)
  tag : Nat
  ctag : Nat
  cval : K

/-- `Sum()` of the compound vector. -/
def CObj.querySum (o : CObj K) : K × CObj K :=
  if o.ctag ≠ o.tag then
    let x := (compOps denseOps).sum o.comps
    (x, { o with ctag := o.tag, cval := x })
  else (o.cval, o)

/-- `GetCompNonConst(i)` (`IpCompoundVector.hpp:111-117`): the tag of the compound vector changes when the pointer is handed out. -/
def CObj.getNonConst (o : CObj K) (t : Nat) : CObj K := { o with tag := t }

/-- A change of component `i` through such a pointer: `ObjectChanged` is called for the component only. -/
def CObj.writeComp (o : CObj K) (i : Nat) (v : DV K) : CObj K := { o with comps := o.comps.set i v }

end Verif.Vec
