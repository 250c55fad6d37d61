import Verif.Model.TimedTask
import Mathlib.Algebra.BigOperators.Group.List.Basic

/-! # Specification for `TimedTask`

A history of calls is reduced to the list of start/end events that happened while the task was enabled since the last
reset; the completed intervals are the pairs of a start event directly followed by an end event.  Nothing of the task's state is used. -/

namespace Verif.TimedTask.Spec

variable {K : Type}

/-- A start or end event. `strict` tells `End` from `EndIfStarted`. -/
inductive Ev (K : Type) where
  | start (t : Clock K)
  | stop (strict : Bool) (t : Clock K)
deriving DecidableEq, Repr

/-- The events since the last reset that happened while the task was enabled, oldest first. -/
def events : List (Op K) → List (Ev K) :=
  let rec go (on : Bool) (acc : List (Ev K)) : List (Op K) → List (Ev K)
    | [] => acc
    | .enable :: r => go true acc r
    | .disable :: r => go false acc r
    | .reset :: r => go on [] r
    | .start t :: r => go on (if on then acc ++ [.start t] else acc) r
    | .stop t :: r => go on (if on then acc ++ [.stop true t] else acc) r
    | .stopIfStarted t :: r => go on (if on then acc ++ [.stop false t] else acc) r
  go true []

/-- A start and the end that follows it make an interval. -/
def pair? : Ev K × Ev K → Option (Clock K × Clock K)
  | (.start a, .stop _ b) => some (a, b)
  | _ => none

/-- The completed intervals: a start directly followed by an end. -/
def intervals (evs : List (Ev K)) : List (Clock K × Clock K) := (evs.zip evs.tail).filterMap pair?

/-- Every `End` directly follows a start (the pairing demanded by the assertions of the class; `EndIfStarted` is free). -/
def Paired (evs : List (Ev K)) : Prop :=
  ∀ pre t post, evs = pre ++ Ev.stop true t :: post → ∃ pre' a, pre = pre' ++ [Ev.start a]

end Verif.TimedTask.Spec
