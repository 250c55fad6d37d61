import Mathlib.Algebra.Order.Floor.Ring
import Mathlib.Algebra.Order.Field.Rat
import Mathlib.Data.Rat.Floor

/-!
# Model of `ComputeMemIncrease`

`/repo/src/Common/IpUtils.hpp:126-162`.
-/

namespace Verif.Mem

/-- A signed integer type `T`: its smallest and largest value, and the largest value converted to `double` (for 64-bit types that
conversion rounds up by one). -/
structure IntType where
  lo : Int
  hi : Int
  hiD : ℚ
  lo_neg : lo ≤ 0
  hi_pos : 0 < hi
  hi_le : (hi : ℚ) ≤ hiD
  hiD_le : hiD ≤ hi + 1

/-- A `double`: not a number, an infinity or a finite number. -/
inductive Dbl where
  | nan | ninf | pinf
  | fin (q : ℚ)

/-- `recommended >= std::numeric_limits<T>::max()` (`:145`), IEEE comparison. -/
def Dbl.ge : Dbl → ℚ → Bool
  | .nan, _ => false
  | .ninf, _ => false
  | .pinf, _ => true
  | .fin q, b => decide (b ≤ q)

/-- Rounding towards zero. -/
def trunc (q : ℚ) : Int := if 0 ≤ q then ⌊q⌋ else ⌈q⌉

/-- `(T) recommended` (`:160`): undefined behaviour (`none`) if the truncated value is not in the range of `T`. -/
def cast (T : IntType) : Dbl → Option Int
  | .fin q => if T.lo ≤ trunc q ∧ trunc q ≤ T.hi then some (trunc q) else none
  | _ => none

/-- Result: a new length, `std::overflow_error`, or undefined behaviour. -/
inductive Res where
  | len (n : Int)
  | overflow
  | undefined
  deriving DecidableEq

/-- `ComputeMemIncrease(len, recommended, min, context)` (`:136-162`). -/
def computeMemIncrease (T : IntType) (len : Int) (recommended : Dbl) (min : Int) : Res :=
  if recommended.ge T.hiD then
    if len < T.hi then .len T.hi else .overflow
  else
    match cast T recommended with
    | some n => .len (max min n)
    | none => .undefined

/-- The retries of a solver that multiplies the length by a factor each time
(`Ma27TSolverInterface::Factorization`, `IpMa27TSolverInterface.cpp:494, 520, 577, 581`): the product is computed exactly here, `none` after
the exception. -/
def retry (T : IntType) (factor : ℚ) : Nat → Int → Option Int
  | 0, len => some len
  | k + 1, len => match computeMemIncrease T len (.fin (factor * len)) 0 with
    | .len n => retry T factor k n
    | _ => none

/-- `int` (32 bit). -/
def int32 : IntType := ⟨-2147483648, 2147483647, 2147483647, by norm_num, by norm_num, by norm_num, by norm_num⟩

/-- `int64_t`. -/
def int64 : IntType :=
  ⟨-9223372036854775808, 9223372036854775807, 9223372036854775808, by norm_num, by norm_num, by norm_num, by norm_num⟩

end Verif.Mem
