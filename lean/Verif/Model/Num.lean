import Mathlib.Algebra.Order.Ring.Rat
import Mathlib.Data.Rat.Defs
import Mathlib.Tactic.Linarith

/-!
# Numbers as the C++ code sees them (`Ipopt::Number`, i.e. `double`)

`/repo/src/Common/IpTypes.h:47-52` (`typedef double ipnumber`).  The model keeps the *shape* of IEEE-754 values:
NaN, the two infinities and finite values.  Finite values are exact rationals, i.e. the model does not round;
signed zeros are identified.  Comparison operators have the IEEE semantics (every ordered comparison with NaN is false).
-/

namespace Verif

/-- `Ipopt::Number` (`/repo/src/Common/IpTypes.h:47-52`): IEEE double without rounding and without signed zero. -/
inductive Num where
  | nan
  | ninf
  | pinf
  | fin (q : ℚ)
  deriving DecidableEq, Repr

namespace Num

/-- C++ `a <= b` on doubles: false if one operand is NaN. -/
def leB : Num → Num → Bool
  | nan, _ => false
  | _, nan => false
  | ninf, _ => true
  | _, pinf => true
  | fin a, fin b => decide (a ≤ b)
  | _, _ => false

/-- C++ `a < b` on doubles: false if one operand is NaN. -/
def ltB : Num → Num → Bool
  | nan, _ => false
  | _, nan => false
  | ninf, ninf => false
  | ninf, _ => true
  | pinf, _ => false
  | fin _, ninf => false
  | fin _, pinf => true
  | fin a, fin b => decide (a < b)

/-- C++ `a == b` on doubles: false if one operand is NaN. -/
def eqB : Num → Num → Bool
  | nan, _ => false
  | _, nan => false
  | a, b => decide (a = b)

instance : LE Num := ⟨fun a b => leB a b = true⟩
instance : LT Num := ⟨fun a b => ltB a b = true⟩
instance : DecidableLE Num := fun a b => inferInstanceAs (Decidable (leB a b = true))
instance : DecidableLT Num := fun a b => inferInstanceAs (Decidable (ltB a b = true))

/-- Unary minus. -/
def neg : Num → Num
  | nan => nan
  | ninf => pinf
  | pinf => ninf
  | fin q => fin (-q)

/-- IEEE addition (exact on finite operands; `inf + (-inf) = NaN`). -/
def add : Num → Num → Num
  | nan, _ => nan
  | _, nan => nan
  | pinf, ninf => nan
  | ninf, pinf => nan
  | pinf, _ => pinf
  | _, pinf => pinf
  | ninf, _ => ninf
  | _, ninf => ninf
  | fin a, fin b => fin (a + b)

/-- IEEE multiplication (exact on finite operands; `0 * inf = NaN`). -/
def mul : Num → Num → Num
  | nan, _ => nan
  | _, nan => nan
  | fin a, fin b => fin (a * b)
  | pinf, pinf => pinf
  | ninf, ninf => pinf
  | pinf, ninf => ninf
  | ninf, pinf => ninf
  | fin a, pinf => if a = 0 then nan else if 0 < a then pinf else ninf
  | fin a, ninf => if a = 0 then nan else if 0 < a then ninf else pinf
  | pinf, fin a => if a = 0 then nan else if 0 < a then pinf else ninf
  | ninf, fin a => if a = 0 then nan else if 0 < a then ninf else pinf

instance : Neg Num := ⟨neg⟩
instance : Add Num := ⟨add⟩
instance : Sub Num := ⟨fun a b => add a (neg b)⟩
instance : Mul Num := ⟨mul⟩

/-- `std::abs`. -/
def abs : Num → Num
  | nan => nan
  | ninf => pinf
  | pinf => pinf
  | fin q => fin |q|

/-- `IsFiniteNumber` (`/repo/src/Common/IpUtils.cpp:99-109`, build with `IPOPT_C_FINITE` defined). -/
def isFinite : Num → Bool
  | fin _ => true
  | _ => false

/-- Not a NaN. -/
def Ordered (a : Num) : Prop := a ≠ nan

instance (a : Num) : Decidable a.Ordered := inferInstanceAs (Decidable (a ≠ nan))

theorem le_def (a b : Num) : a ≤ b ↔ leB a b = true := Iff.rfl
theorem lt_def (a b : Num) : a < b ↔ ltB a b = true := Iff.rfl

theorem le_trans' {a b c : Num} (h1 : a ≤ b) (h2 : b ≤ c) : a ≤ c := by
  cases a <;> cases b <;> cases c <;> simp_all [le_def, leB]
  exact _root_.le_trans h1 h2

theorem le_of_not_gt' {a b : Num} (ha : a.Ordered) (hb : b.Ordered) (h : ¬ b < a) : a ≤ b := by
  cases a <;> cases b <;> simp_all [le_def, lt_def, leB, ltB, Ordered]

theorem not_lt_of_le' {a b : Num} (h : a ≤ b) : ¬ b < a := by
  cases a <;> cases b <;> simp_all [le_def, lt_def, leB, ltB]

theorem le_refl' {a : Num} (h : a.Ordered) : a ≤ a := by
  cases a <;> simp_all [le_def, leB, Ordered]

theorem lt_iff_le_not_le' {a b : Num} (ha : a.Ordered) (hb : b.Ordered) : a < b ↔ a ≤ b ∧ ¬ b ≤ a := by
  cases a <;> cases b <;> simp_all [le_def, lt_def, leB, ltB, Ordered]
  intro h; exact _root_.le_of_lt h

theorem not_nan_le (a : Num) : ¬ nan ≤ a := by cases a <;> simp [le_def, leB]
theorem not_le_nan (a : Num) : ¬ a ≤ nan := by cases a <;> simp [le_def, leB]
theorem not_nan_lt (a : Num) : ¬ nan < a := by cases a <;> simp [lt_def, ltB]
theorem not_lt_nan (a : Num) : ¬ a < nan := by cases a <;> simp [lt_def, ltB]

theorem ordered_of_le {a b : Num} (h : a ≤ b) : a.Ordered ∧ b.Ordered := by
  cases a <;> cases b <;> simp_all [le_def, leB, Ordered]

@[simp] theorem fin_le_fin (a b : ℚ) : (fin a ≤ fin b) ↔ a ≤ b := by simp [le_def, leB]
@[simp] theorem fin_lt_fin (a b : ℚ) : (fin a < fin b) ↔ a < b := by simp [lt_def, ltB]

end Num
end Verif
