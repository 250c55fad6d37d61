import Mathlib.Algebra.Order.Field.Basic
import Mathlib.Algebra.Order.AbsoluteValue.Basic

/-!
# Model of `Ipopt::DenseVector` and of the default implementations in `Ipopt::Vector`

`/repo/src/LinAlg/IpDenseVector.cpp`, `/repo/src/LinAlg/IpDenseVector.hpp:447-482`, `/repo/src/LinAlg/IpVector.cpp`.

A dense vector is stored either as one repeated scalar (`homogeneous_`) or element by element.  `vals` is the memory behind `values_`: its
contents are meaningless while the vector is homogeneous.  Numbers are elements of an arbitrary ordered field (exact arithmetic, no
NaN); division by zero gives `0` (Lean's convention), the code would produce infinities.  `BLAS` routines with unit increments are
replaced by their documented effect.  Operations with the result vector among the arguments (aliasing) are not modelled, except where said.
-/

namespace Verif.Vec

variable {K : Type} [Field K] [LinearOrder K] [IsStrictOrderedRing K]

/-- Members `homogeneous_`, `scalar_`, `values_` and the dimension (`IpDenseVector.hpp:290-325`); always initialised. -/
structure DV (K : Type) where
  dim : Nat
  hom : Bool
  scalar : K
  vals : List K

/-- `SetValues` (`IpDenseVector.cpp:54-65`). -/
def DV.ofList (l : List K) : DV K := ⟨l.length, false, 0, l⟩

/-- `set_values_from_scalar` (`:84-91`), also `Values()` (`IpDenseVector.hpp:448-466`). -/
def DV.expand (v : DV K) : DV K := if v.hom then { v with hom := false, vals := List.replicate v.dim v.scalar } else v

/-- `ExpandedValues` (`:67-82`). -/
def DV.expandedValues (v : DV K) : List K := if v.hom then List.replicate v.dim v.scalar else v.vals

/-- `CopyImpl` (`:93-113`). -/
def DV.copy (y x : DV K) : DV K :=
  if x.hom then { y with hom := true, scalar := x.scalar } else { y with hom := false, vals := x.vals }

/-- `SetImpl` (`:263-276`). -/
def DV.set (y : DV K) (s : K) : DV K := { y with hom := true, scalar := s }

/-- `ScalImpl` (`:115-128`) behind `Vector::Scal` (`IpVector.cpp:146-152`). -/
def DV.scal (y : DV K) (α : K) : DV K :=
  if α ≠ 1 then
    if y.hom then { y with scalar := y.scalar * α } else { y with vals := y.vals.map (α * ·) }
  else y

/-- `AxpyImpl` (`:130-177`). -/
def DV.axpy (y : DV K) (α : K) (x : DV K) : DV K :=
  if y.dim = 0 then y
  else if y.hom then
    if x.hom then { y with scalar := y.scalar + α * x.scalar }
    else { y with hom := false, vals := x.vals.map fun b => y.scalar + α * b }
  else
    if x.hom then
      if x.scalar ≠ 0 then { y with vals := y.vals.map fun a => a + α * x.scalar } else y
    else { y with vals := List.zipWith (fun a b => a + α * b) y.vals x.vals }

/-- `DotImpl` (`:179-219`). -/
def DV.dot (y x : DV K) : K :=
  if y.dim = 0 then 0
  else if y.hom then
    if x.hom then y.dim * y.scalar * x.scalar
    else x.vals.foldl (fun s b => s + b * y.scalar) 0
  else
    if x.hom then y.vals.foldl (fun s a => s + x.scalar * a) 0
    else (List.zipWith (fun a b => b * a) y.vals x.vals).foldl (· + ·) 0

/-- `Nrm2Impl` (`:221-232`); `sqrt` is a parameter. -/
def DV.nrm2 (sqrt : K → K) (y : DV K) : K :=
  if y.hom then sqrt y.dim * |y.scalar| else sqrt ((y.vals.map fun a => a * a).foldl (· + ·) 0)

/-- `AsumImpl` (`:234-245`). -/
def DV.asum (y : DV K) : K :=
  if y.hom then y.dim * |y.scalar| else (y.vals.map fun a => |a|).foldl (· + ·) 0

/-- `AmaxImpl` (`:247-261`); `IDAMAX` returns the position of an element of largest absolute value. -/
def DV.amax (y : DV K) : K :=
  if y.dim = 0 then 0 else if y.hom then |y.scalar| else (y.vals.map fun a => |a|).foldl max 0

/-- An element-wise binary operation as in `ElementWiseDivideImpl` (`:278-328`), `ElementWiseMaxImpl` (`:460-510`) and
`ElementWiseMinImpl` (`:512-562`): all four combinations of storage are treated by the same scalar operation. -/
def DV.elementWise (f : K → K → K) (y x : DV K) : DV K :=
  if y.dim = 0 then y
  else if y.hom then
    if x.hom then { y with scalar := f y.scalar x.scalar }
    else { y with hom := false, vals := x.vals.map fun b => f y.scalar b }
  else
    if x.hom then { y with vals := y.vals.map fun a => f a x.scalar }
    else { y with vals := List.zipWith f y.vals x.vals }

/-- `ElementWiseDivideImpl` (`:278-328`). -/
def DV.divide (y x : DV K) : DV K := DV.elementWise (· / ·) y x

/-- `ElementWiseMaxImpl` (`:460-510`). -/
def DV.eMax (y x : DV K) : DV K := DV.elementWise max y x

/-- `ElementWiseMinImpl` (`:512-562`). -/
def DV.eMin (y x : DV K) : DV K := DV.elementWise min y x

/-- `ElementWiseMultiplyImpl` (`:330-383`): a homogeneous factor `1` is skipped. -/
def DV.multiply (y x : DV K) : DV K :=
  if y.dim = 0 then y
  else if y.hom then
    if x.hom then { y with scalar := y.scalar * x.scalar }
    else { y with hom := false, vals := x.vals.map fun b => y.scalar * b }
  else
    if x.hom then
      if x.scalar ≠ 1 then { y with vals := y.vals.map fun a => a * x.scalar } else y
    else { y with vals := List.zipWith (· * ·) y.vals x.vals }

/-- Element-wise part of `ElementWiseSelectImpl` (`:423-457`). -/
def selectElem (a b : K) : K := if 0 < a then b else if a < 0 then -b else a

/-- `ElementWiseSelectImpl` (`:385-458`). -/
def DV.select (y x : DV K) : DV K :=
  if y.dim = 0 then y
  else if y.hom then
    if y.scalar = 0 then y
    else if x.hom then { y with scalar := y.scalar * x.scalar }
    else { y with hom := false, vals := x.vals.map fun b => y.scalar * b }
  else
    if x.hom then
      if x.scalar ≠ 1 then { y with vals := y.vals.map fun a => selectElem a x.scalar } else y
    else { y with vals := List.zipWith selectElem y.vals x.vals }

/-- An element-wise unary operation as in `ElementWiseReciprocalImpl` (`:564-584`), `ElementWiseAbsImpl` (`:586-600`),
`ElementWiseSqrtImpl` (`:602-616`), `ElementWiseSgnImpl` (`:723-759`) and `AddScalarImpl` (`:618-631`). -/
def DV.mapE (f : K → K) (y : DV K) : DV K :=
  if y.hom then { y with scalar := f y.scalar } else { y with vals := y.vals.map f }

/-- Sign as computed by `ElementWiseSgnImpl` (`:723-759`). -/
def sgn (a : K) : K := if 0 < a then 1 else if a < 0 then -1 else 0

/-- `MaxImpl` (`:633-655`); `big` is `std::numeric_limits<Number>::max()`. -/
def DV.maxE (big : K) (y : DV K) : K :=
  if y.dim = 0 then -big
  else if y.hom then y.scalar
  else match y.vals with
    | [] => -big
    | a :: l => l.foldl (fun m b => max b m) a

/-- `MinImpl` (`:657-679`). -/
def DV.minE (big : K) (y : DV K) : K :=
  if y.dim = 0 then big
  else if y.hom then y.scalar
  else match y.vals with
    | [] => big
    | a :: l => l.foldl (fun m b => min b m) a

/-- `SumImpl` (`:681-698`). -/
def DV.sum (y : DV K) : K := if y.hom then y.dim * y.scalar else y.vals.foldl (· + ·) 0

/-- `SumLogsImpl` (`:700-721`); `log` is a parameter. -/
def DV.sumLogs (log : K → K) (y : DV K) : K :=
  if y.dim = 0 then 0
  else if y.hom then y.dim * log y.scalar
  else (y.vals.map log).foldl (· + ·) 0

/-- `Vector::AddTwoVectorsImpl`, the default implementation (`IpVector.cpp:45-113`). -/
def DV.addTwoDefault (y : DV K) (a : K) (v1 : DV K) (b : K) (v2 : DV K) (c : K) : DV K :=
  if c = 0 then
    if a = 1 then
      let y := y.copy v1
      if b ≠ 0 then y.axpy b v2 else y
    else if a = 0 then
      if b = 0 then y.set 0
      else
        let y := y.copy v2
        if b ≠ 1 then y.scal b else y
    else
      if b = 1 then (y.copy v2).axpy a v1
      else if b = 0 then (y.copy v1).scal a
      else ((y.copy v1).scal a).axpy b v2
  else
    let y := if c ≠ 1 then y.scal c else y
    let y := if a ≠ 0 then y.axpy a v1 else y
    if b ≠ 0 then y.axpy b v2 else y

/-- Three lists element by element; arrays that are not read (`NULL` in the code) are replaced by `0`. -/
def zip3 (f : K → K → K → K) (y v1 v2 : List K) : List K :=
  List.zipWith (fun g w => g w) (List.zipWith (fun a b => f a b) y v1) v2

/-- The case distinction of `DenseVector::AddTwoVectorsImpl` when all vectors are stored element by element, for one element
(`IpDenseVector.cpp:843-1321`): `u` is the old element, `p`, `q` those of `v1`, `v2`. -/
def addTwoElem (a b c u p q : K) : K :=
  if c = 0 then
    if a = 1 then
      if b = 0 then p else if b = 1 then p + q else if b = -1 then p - q else p + b * q
    else if a = -1 then
      if b = 0 then -p else if b = 1 then -p + q else if b = -1 then -p - q else -p + b * q
    else if a = 0 then
      if b = 0 then 0 else if b = 1 then q else if b = -1 then -q else b * q
    else
      if b = 0 then a * p else if b = 1 then a * p + q else if b = -1 then a * p - q else a * p + b * q
  else if c = 1 then
    if a = 1 then
      if b = 0 then u + 1 * p else if b = 1 then u + (p + q) else if b = -1 then u + (p - q) else u + (p + b * q)
    else if a = -1 then
      if b = 0 then u + (-1) * p else if b = 1 then u + (-p + q) else if b = -1 then u + (-p - q) else u + (-p + b * q)
    else if a = 0 then
      if b = 0 then u else if b = 1 then u + 1 * q else if b = -1 then u + (-1) * q else u + b * q
    else
      if b = 0 then u + a * p else if b = 1 then u + (a * p + q) else if b = -1 then u + (a * p - q) else u + (a * p + b * q)
  else if c = -1 then
    if a = 1 then
      if b = 0 then p - u else if b = 1 then p + q - u else if b = -1 then p - q - u else p + b * q - u
    else if a = -1 then
      if b = 0 then -p - u else if b = 1 then -p + q - u else if b = -1 then -p - q - u else -p + b * q - u
    else if a = 0 then
      if b = 0 then -1 * u else if b = 1 then q - u else if b = -1 then -q - u else b * q - u
    else
      if b = 0 then a * p - u else if b = 1 then a * p + q - u else if b = -1 then a * p - q - u else a * p + b * q - u
  else
    if a = 1 then
      if b = 0 then p + c * u else if b = 1 then p + q + c * u else if b = -1 then p - q + c * u else p + b * q + c * u
    else if a = -1 then
      if b = 0 then -p + c * u else if b = 1 then -p + q + c * u else if b = -1 then -p - q + c * u else -p + b * q + c * u
    else if a = 0 then
      if b = 0 then c * u else if b = 1 then q + c * u else if b = -1 then -q + c * u else b * q + c * u
    else
      if b = 0 then a * p + c * u else if b = 1 then a * p + q + c * u else if b = -1 then a * p - q + c * u
      else a * p + b * q + c * u

/-- `k` times `DAXPY` with factor `1` (the loop at `:1029-1035` performs the whole vector operation in every pass). -/
def repeatAxpy : Nat → List K → List K → List K
  | 0, y, _ => y
  | k + 1, y, v => repeatAxpy k (List.zipWith (fun u q => u + 1 * q) y v) v

/-- The element-by-element part of `AddTwoVectorsImpl` (`:843-1321`), including the misplaced loop for `c = 1`, `a = 0`, `b = 1`
(`:1029-1035`; in the corresponding case `c = 0` at `:911-917` the repetition is harmless). -/
def addTwoValues (n : Nat) (a b c : K) (y v1 v2 : List K) : List K :=
  if c = 1 ∧ a = 0 ∧ b = 1 then repeatAxpy n y v2 else zip3 (addTwoElem a b c) y v1 v2

/-- `DenseVector::AddTwoVectorsImpl` (`:762-1323`).  `alloc` is the contents of freshly allocated memory. -/
def DV.addTwo (alloc : List K) (y : DV K) (a : K) (v1 : DV K) (b : K) (v2 : DV K) (c : K) : DV K :=
  if y.dim = 0 then y
  else
    let hom1 := decide (a ≠ 0) && v1.hom
    let hom2 := decide (b ≠ 0) && v2.hom
    if (c = 0 ∨ y.hom) ∧ hom1 ∧ hom2 then
      { y with hom := true, scalar := (if c ≠ 0 then c * y.scalar else 0) + a * v1.scalar + b * v2.scalar }
    else
      let y := if c = 0 then { y with hom := false, vals := if y.hom then alloc else y.vals } else y
      if y.hom || hom1 || hom2 then y.addTwoDefault a v1 b v2 c
      else
        let l1 := if a ≠ 0 then v1.vals else List.replicate y.dim 0
        let l2 := if b ≠ 0 then v2.vals else List.replicate y.dim 0
        { y with vals := addTwoValues y.dim a b c y.vals l1 l2 }

/-- `DenseVector::AddVectorQuotientImpl` (`:1391-1538`). -/
def DV.addQuotient (alloc : List K) (y : DV K) (a : K) (z s : DV K) (c : K) : DV K :=
  if y.dim = 0 then y
  else if (c = 0 ∨ y.hom) ∧ z.hom ∧ s.hom then
    if c = 0 then { y with hom := true, scalar := a * z.scalar / s.scalar }
    else { y with hom := true, scalar := c * y.scalar + a * z.scalar / s.scalar }
  else
    let mem := if y.hom then alloc else y.vals
    let vals :=
      if c = 0 then
        if z.hom then s.vals.map fun q => a * z.scalar / q
        else if s.hom then z.vals.map fun p => p * a / s.scalar
        else List.zipWith (fun p q => a * p / q) z.vals s.vals
      else if y.hom then
        let val := c * y.scalar
        if z.hom then s.vals.map fun q => val + a * z.scalar / q
        else if s.hom then z.vals.map fun p => val + p * a / s.scalar
        else List.zipWith (fun p q => val + a * p / q) z.vals s.vals
      else
        if z.hom then
          if s.hom then mem.map fun u => c * u + a * z.scalar / s.scalar
          else List.zipWith (fun u q => c * u + a * z.scalar / q) mem s.vals
        else
          if s.hom then List.zipWith (fun u p => c * u + p * a / s.scalar) mem z.vals
          else zip3 (fun u p q => c * u + a * p / q) mem z.vals s.vals
    { y with hom := false, vals := vals }

/-- `DenseVector::FracToBoundImpl` (`:1325-1389`). -/
def DV.fracToBound (x δ : DV K) (τ : K) : K :=
  if x.dim = 0 then 1
  else if x.hom then
    if δ.hom then if δ.scalar < 0 then min 1 (-τ / δ.scalar * x.scalar) else 1
    else δ.vals.foldl (fun α d => if d < 0 then min α (-τ / d * x.scalar) else α) 1
  else
    if δ.hom then
      if δ.scalar < 0 then x.vals.foldl (fun α p => min α (-τ / δ.scalar * p)) 1 else 1
    else (List.zip x.vals δ.vals).foldl (fun α pd => if pd.2 < 0 then min α (-τ / pd.2 * pd.1) else α) 1

/-- `Vector::FracToBoundImpl`, the default implementation for vector types without their own (`IpVector.cpp:115-142`); the temporary
vector is a fresh `DenseVector` without memory (written here as a vector with `hom`, which is not looked at because `c = 0`; `alloc` is
the memory it gets), `AddOneVector(a,v,c)` is `AddTwoVectors(a,v,0,v,c)` (`IpVector.hpp:794-801`). -/
def DV.fracToBoundDefault (big : K) (alloc : List K) (x δ : DV K) (τ : K) : K :=
  if x.dim = 0 then 1
  else
    let fresh : DV K := ⟨x.dim, true, 0, []⟩
    let inv := (fresh.addTwo alloc (-1 / τ) δ 0 δ 0).divide x
    let α := inv.maxE big
    if 0 < α then min (1 / α) 1 else 1

/-- Writing a list into memory from a position on. -/
def writeAt (l : List K) (pos : Nat) (w : List K) : List K := l.take pos ++ w ++ l.drop (pos + w.length)

/-- `DenseVector::CopyToPos` (`:1540-1563`): note the scalar of *this* vector (`&scalar_`) and the missing expansion of a homogeneous
target; `alloc` is the contents of freshly allocated memory. -/
def DV.copyToPos (alloc : List K) (y : DV K) (pos : Nat) (x : DV K) : DV K :=
  let mem := if y.hom then alloc else y.vals
  { y with
    hom := false
    vals := if x.hom then writeAt mem pos (List.replicate x.dim y.scalar) else writeAt mem pos x.vals }

/-- `DenseVector::CopyFromPos` (`:1565-1584`). -/
def DV.copyFromPos (y : DV K) (pos : Nat) (x : DV K) : DV K :=
  if x.hom then y.set x.scalar else { y with hom := false, vals := (x.vals.drop pos).take y.dim }

end Verif.Vec
