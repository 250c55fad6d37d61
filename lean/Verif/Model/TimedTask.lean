import Mathlib.Algebra.Order.Field.Basic

/-! # Model of `TimedTask` (src/Common/IpTimedTask.hpp)

The three clocks are three readings taken by each call; a reading is an element of an ordered field (floating-point
rounding of the sums is not modelled).  `DBG_ASSERT` is empty in release builds (IpDebug.hpp), so a call in the wrong order is executed. -/

namespace Verif.TimedTask

/-- One reading of the three clocks `CpuTime()`, `SysTime()`, `WallclockTime()` (src/Common/IpUtils.cpp). -/
structure Clock (K : Type) where
  cpu : K
  sys : K
  wall : K
deriving DecidableEq, Repr

/-- The members of `TimedTask` (IpTimedTask.hpp:186-206). -/
structure State (K : Type) where
  start : Clock K
  total : Clock K
  enabled : Bool
  startCalled : Bool
  endCalled : Bool
deriving DecidableEq, Repr

variable {K : Type} [Field K] [LinearOrder K] [IsStrictOrderedRing K]

/-- The constructor (IpTimedTask.hpp:21-29); the three start times are not initialised there, they are the argument here. -/
def new (junk : Clock K) : State K := ⟨junk, ⟨0, 0, 0⟩, true, false, true⟩

/-- `Enable` (IpTimedTask.hpp:38-41). -/
def enable (s : State K) : State K := { s with enabled := true }

/-- `Disable` (IpTimedTask.hpp:47-50). -/
def disable (s : State K) : State K := { s with enabled := false }

/-- `Reset` (IpTimedTask.hpp:53-60). -/
def reset (s : State K) : State K :=
  { s with total := ⟨0, 0, 0⟩, startCalled := false, endCalled := true }

/-- `Start` (IpTimedTask.hpp:63-77). -/
def doStart (now : Clock K) (s : State K) : State K :=
  if !s.enabled then s
  else { s with endCalled := false, startCalled := true, start := now }

/-- The common part of `End` and `EndIfStarted`: the three totals are increased by the time since the start. -/
def addInterval (now : Clock K) (s : State K) : State K :=
  { s with endCalled := true, startCalled := false,
           total := ⟨s.total.cpu + (now.cpu - s.start.cpu), s.total.sys + (now.sys - s.start.sys),
                     s.total.wall + (now.wall - s.start.wall)⟩ }

/-- `End` (IpTimedTask.hpp:80-95). -/
def doEnd (now : Clock K) (s : State K) : State K :=
  if !s.enabled then s else addInterval now s

/-- `EndIfStarted` (IpTimedTask.hpp:101-116). -/
def endIfStarted (now : Clock K) (s : State K) : State K :=
  if !s.enabled then s else if s.startCalled then addInterval now s else s

/-- The public calls that change the task, with the clock reading they take. -/
inductive Op (K : Type) where
  | enable
  | disable
  | reset
  | start (now : Clock K)
  | stop (now : Clock K)
  | stopIfStarted (now : Clock K)
deriving DecidableEq, Repr

/-- One call. -/
def step (s : State K) : Op K → State K
  | .enable => enable s
  | .disable => disable s
  | .reset => reset s
  | .start t => doStart t s
  | .stop t => doEnd t s
  | .stopIfStarted t => endIfStarted t s

/-- A sequence of calls, oldest first. -/
def run (s : State K) (ops : List (Op K)) : State K := ops.foldl step s

end Verif.TimedTask
