import Mathlib.Algebra.Order.Field.Basic

/-! # Mathematical meaning of the `Vector` operations used by the algorithmic classes

src/LinAlg/IpVector.hpp declares these operations; that `DenseVector` and `CompoundVector` implement them is the subject of
C26/C27 (`Verif.DenseVector`, `Verif.CompoundVector`).  Here a vector is the list of its elements over an ordered field (no
rounding, no NaN). -/

namespace Verif.VecOps

variable {K : Type} [Field K] [LinearOrder K] [IsStrictOrderedRing K]

/-- `Vector::Min` (IpVector.hpp:784, IpDenseVector.cpp MinImpl) of a vector of positive dimension. -/
def vmin : List K → K
  | [] => 0
  | a :: r => r.foldl min a

/-- `Vector::Max` (IpVector.hpp:774, IpDenseVector.cpp MaxImpl) of a vector of positive dimension. -/
def vmax : List K → K
  | [] => 0
  | a :: r => r.foldl max a

/-- `Vector::Amax` (IpVector.hpp:660, IpDenseVector.cpp AmaxImpl). -/
def amax (v : List K) : K := v.foldl (fun m a => max m |a|) 0

/-- `Vector::Asum` (IpVector.hpp:650). -/
def asum (v : List K) : K := (v.map (fun a => |a|)).sum

/-- Elementwise combination of two vectors of the same space (`ElementWiseMin`, `ElementWiseMax`, `AddTwoVectors`, ...). -/
def zip2 (f : K → K → K) (a b : List K) : List K := List.zipWith f a b

/-- `ElementWiseSgn` of one element (IpDenseVector.cpp ElementWiseSgnImpl). -/
def sgn (a : K) : K := if 0 < a then 1 else if a < 0 then -1 else 0

/-- `Vector::Dot` (IpVector.hpp:618). -/
def dot (a b : List K) : K := (List.zipWith (· * ·) a b).sum

end Verif.VecOps
