import Verif.Model.AdapterEval

/-! # What the algorithm and the user expect of the evaluation layer -/

namespace Verif.AdapterEval

variable {X Y K G J H D : Type}

/-- The point of a request. -/
def Op.pt : Op X Y K → Vec X
  | .f v => v
  | .grad v => v
  | .g v => v
  | .jac v => v
  | .h v _ _ _ => v

/-- Tags identify contents (what the tag class guarantees as long as tags do not wrap around; zero is never used for a vector). -/
def Tagged (cont : Nat → X) (conty : Nat → Y) (op : Op X Y K) : Prop :=
  op.pt.tag ≠ 0 ∧ op.pt.val = cont op.pt.tag ∧ match op with
    | .h _ _ yc yd => yc.tag ≠ 0 ∧ yd.tag ≠ 0 ∧ yc.val = conty yc.tag ∧ yd.val = conty yd.tag
    | _ => True

/-- The point was visited in one go: between two requests for the same point there is no request for another one. -/
def Contig (ts : List Nat) : Prop := ∀ pre post t, ts = pre ++ t :: post → t ∈ pre → pre.getLast? = some t

/-- Every call of a user function flagged "not new" comes after some call at the same point. -/
def FlagsEarlier (log : List (X × Bool)) : Prop := ∀ pre post x, log = pre ++ (x, false) :: post → ∃ b, (x, b) ∈ post

/-- Every call of a user function flagged "not new" comes directly after a call at the same point. -/
def FlagsLast (log : List (X × Bool)) : Prop := ∀ pre post x, log = pre ++ (x, false) :: post → ∃ b post', post = (x, b) :: post'

end Verif.AdapterEval
