import Mathlib.Algebra.Order.Field.Basic

/-! # Model of `MonotoneMuUpdate` (src/Algorithm/IpMonotoneMuUpdate.cpp)

`pw` stands for `std::pow(., mu_superlinear_decrease_power)`; the barrier error of the current iterate as a function of the barrier
parameter (`IpCq().curr_barrier_error()`) is an input of every call.  Exact arithmetic. -/

namespace Verif.MonotoneMu

variable {K : Type} [Field K] [LinearOrder K] [IsStrictOrderedRing K]

/-- The options and constants of a run (IpMonotoneMuUpdate.cpp:97-111; `complTol` is the absolute value of the scaled `compl_inf_tol`,
:229). -/
structure Par (K : Type) where
  muInit : K
  barrierTolFactor : K
  linear : K
  pw : K → K
  fast : Bool
  tauMin : K
  complTol : K
  tol : K
  muTarget : K

/-- The state: data members and the parts of `IpoptData` used; `lsResets` counts calls of `linesearch_->Reset()`. -/
structure State (K : Type) where
  mu : K
  tau : K
  initialized : Bool
  firstIterResto : Bool
  tiny : Bool
  lsResets : Nat

/-- `InitializeImpl` (IpMonotoneMuUpdate.cpp:97-131). -/
def init (p : Par K) (resto tiny : Bool) : State K := ⟨p.muInit, max p.tauMin (1 - p.muInit), false, resto, tiny, 0⟩

/-- The new barrier parameter (`CalcNewMuAndTau`, IpMonotoneMuUpdate.cpp:217-237). -/
def newMu (p : Par K) (mu : K) : K :=
  max (max (min (p.linear * mu) (p.pw mu)) p.muTarget) (min p.tol p.complTol / (p.barrierTolFactor + 1))

/-- The new fraction-to-the-boundary parameter (IpMonotoneMuUpdate.cpp:236). -/
def newTau (p : Par K) (mu : K) : K := max p.tauMin (1 - newMu p mu)

/-- Result of the loop. -/
inductive Res (K : Type) where
  | ok (s : State K)
  | tinyStep (s : State K)
  | outOfFuel

/-- The while loop (IpMonotoneMuUpdate.cpp:146-205); `err` is the current value of `sub_problem_error`, `fuel` bounds the number of
iterations only to make the definition total. -/
def loop (p : Par K) (barrierError : K → K) : Nat → State K → (err : K) → (tiny done : Bool) → Res K
  | 0, _, _, _, _ => .outOfFuel
  | fuel + 1, s, err, tiny, done =>
    if (err ≤ p.barrierTolFactor * s.mu ∨ tiny = true) ∧ done = false ∧ s.firstIterResto = false then
      let nm := newMu p s.mu
      let nt := newTau p s.mu
      let changed := decide (s.mu ≠ nm)
      if changed = false ∧ tiny = true then .tinyStep s
      else
        let s1 := { s with mu := nm, tau := nt }
        let err1 := if s.initialized = true ∧ p.fast = false then err else if changed = false then err else barrierError nm
        let done1 : Bool :=
          if s.initialized = true ∧ p.fast = false then true
          else if changed = false then true
          else decide (p.barrierTolFactor * nm < err1)
        let s2 := { s1 with lsResets := if done1 = true ∧ changed = true then s1.lsResets + 1 else s1.lsResets }
        loop p barrierError fuel s2 err1 false done1
    else .ok s

/-- `UpdateBarrierParameter` (IpMonotoneMuUpdate.cpp:133-211). -/
def update (p : Par K) (barrierError : K → K) (fuel : Nat) (s : State K) : Res K :=
  match loop p barrierError fuel { s with tiny := false } (barrierError s.mu) s.tiny false with
  | .ok s' => .ok { s' with firstIterResto := false, initialized := true }
  | .tinyStep s' => .tinyStep s'
  | .outOfFuel => .outOfFuel

end Verif.MonotoneMu
