import Verif.Model.GenAug
import Verif.Spec.AugSolve

/-! # Specification: contract of the user's linear solver, and histories of calls -/

namespace Verif.GenAug
open Verif.Matrix
open Verif.Triplet (Vec)
open Verif.AugSolve (Status End Args Quad ArgsOK)
open Verif.PDSystem (AugArgs mv mtv)

variable {K B : Type} [Field K]

/-- `n` numbers from position `p` on. -/
def seg (y : Nat → K) (p n : Nat) : List K := (List.range n).map fun i => y (p + i)

/-- where the four parts of a right-hand side are in the array of the user's solver. -/
structure Order where
  x : Nat
  s : Nat
  c : Nat
  d : Nat

/-- x, c, d, s. -/
def Given.order (g : Given K) : Order := ⟨0, g.nx + g.nc + g.nd, g.nx, g.nx + g.nc⟩
/-- the order that the documentation promises: x, d, c, s (IpGenKKTSolverInterface.hpp:90). -/
def Given.docOrder (g : Given K) : Order := ⟨0, g.nx + g.nd + g.nc, g.nx + g.nd, g.nx⟩

/-- the numbers in `y` from `p` on solve the system described by the arguments of the user's solver (IpGenKKTSolverInterface.hpp:38-49) with
right-hand side `b`. -/
structure Solves (o : Order) (g : Given K) (y b : Nat → K) (p : Nat) : Prop where
  x : ∀ i, i < g.nx → (match g.W with | some W => mv W (seg y (p + o.x) g.nx) i | none => 0) +
      ((g.Dx.getD []).getD i 0 + g.δx) * y (p + o.x + i) + mtv g.Jc (seg y (p + o.c) g.nc) i + mtv g.Jd (seg y (p + o.d) g.nd) i = b (p + o.x + i)
  s : ∀ i, i < g.nd → ((g.Ds.getD []).getD i 0 + g.δs) * y (p + o.s + i) - y (p + o.d + i) = b (p + o.s + i)
  c : ∀ i, i < g.nc → mv g.Jc (seg y (p + o.x) g.nx) i + ((g.Dc.getD []).getD i 0 - g.δc) * y (p + o.c + i) = b (p + o.c + i)
  d : ∀ i, i < g.nd → mv g.Jd (seg y (p + o.x) g.nx) i - y (p + o.s + i) + ((g.Dd.getD []).getD i 0 - g.δd) * y (p + o.d + i) = b (p + o.d + i)

/-- length of a right-hand side. -/
def Given.dim (g : Given K) : Nat := g.nx + g.nd + g.nc + g.nd

/-- the same matrix. -/
def Given.Same (g l : Given K) : Prop :=
  g.nx = l.nx ∧ g.nc = l.nc ∧ g.nd = l.nd ∧ g.W = l.W ∧ g.Jc = l.Jc ∧ g.Jd = l.Jd ∧ g.Dx = l.Dx ∧ g.Ds = l.Ds ∧ g.Dc = l.Dc ∧ g.Dd = l.Dd ∧
    g.δx = l.δx ∧ g.δs = l.δs ∧ g.δc = l.δc ∧ g.δd = l.δd

/-- contract of the user's solver, for a given order of the parts.  `Rep b last`: in state `b` the arguments of the last call were `last` (`none`: not called since
`Initialize`).  If it is told the truth about `new_matrix`, success means that all systems are solved; if it asks to be called again it has not
changed the right-hand sides. -/
structure Contract (ord : Given K → Order) (S : Solver K B) (Rep : B → Option (Given K) → Prop) : Prop where
  init : ∀ w b l, Rep b l → Rep (S.init w b).2 none
  quality : ∀ b l, Rep b l → Rep (S.quality b).2 l
  solve : ∀ g arr b l, Rep b l → (g.new = false → ∃ g', l = some g' ∧ g.Same g') →
    Rep (S.solve g arr b).2.2 (some g) ∧ ((S.solve g arr b).1 = .callAgain → (S.solve g arr b).2.1 = arr) ∧
    ((S.solve g arr b).1 = .success → ∀ i, i < g.nrhs → Solves (ord g) g (S.solve g arr b).2.1 arr (i * g.dim))

/-- calls of `MultiSolve` allowed: dimensions agree, the factor of the Hessian is 0 or 1, vectors are of the classes of Ipopt, at least one
right-hand side. -/
structure Allows (matOf : Nat → Mat K) (vecOf : Nat → Vec K) (a : Args K) (rhs sol : List (Quad K)) : Prop where
  tags : a.Jc ≠ 0 ∧ a.Dx ≠ some 0 ∧ a.Ds ≠ some 0 ∧ a.Dc ≠ some 0 ∧ a.Dd ≠ some 0
  fac : a.Wfac = 0 ∨ a.Wfac = 1
  known : ∀ t, (vecOf t).known
  Dx : ∀ t, a.Dx = some t → (vecOf t).dim = (matOf a.Jc).dims.2
  Ds : ∀ t, a.Ds = some t → (vecOf t).dim = (matOf a.Jd).dims.1
  Dc : ∀ t, a.Dc = some t → (vecOf t).dim = (matOf a.Jc).dims.1
  Dd : ∀ t, a.Dd = some t → (vecOf t).dim = (matOf a.Jd).dims.1
  some : rhs ≠ []
  count : rhs.length = sol.length
  rhs : ∀ q ∈ rhs, q.Dim (a.contents matOf fun t => (vecOf t).elems)
  sol : ∀ q ∈ sol, q.Dim (a.contents matOf fun t => (vecOf t).elems)

/-- states reached by any sequence of calls without undefined behaviour.  `solved`: `MultiSolve` has been called. -/
inductive Reach [DecidableEq K] (S : Solver K B) (Rep : B → Option (Given K) → Prop) (matOf : Nat → Mat K) (vecOf : Nat → Vec K) :
    State K B → Bool → Prop
  | start (junk b) (hb : Rep b none) : Reach S Rep matOf vecOf (State.start junk b) false
  | init {s v} (warm) {r} : Reach S Rep matOf vecOf s v → s.init S warm = some r → Reach S Rep matOf vecOf r.2 v
  | quality {s v} : Reach S Rep matOf vecOf s v → Reach S Rep matOf vecOf (s.quality S).2 v
  | solve {s v} (junk fuel a rhs sol chk neg) {r} : Reach S Rep matOf vecOf s v → Allows matOf vecOf a rhs sol →
      s.multiSolve S matOf vecOf junk fuel a rhs sol chk neg = some r → Reach S Rep matOf vecOf r.2.2 true

/-- the same, with all initializations except warm ones before the first solve. -/
inductive Once [DecidableEq K] (S : Solver K B) (matOf : Nat → Mat K) (vecOf : Nat → Vec K) : State K B → Bool → Prop
  | start (junk b) : Once S matOf vecOf (State.start junk b) false
  | init {s v} (warm) {r} : Once S matOf vecOf s v → (v = true → warm = true) → s.init S warm = some r → Once S matOf vecOf r.2 v
  | quality {s v} : Once S matOf vecOf s v → Once S matOf vecOf (s.quality S).2 v
  | solve {s v} (junk fuel a rhs sol chk neg) {r} : Once S matOf vecOf s v → Allows matOf vecOf a rhs sol →
      s.multiSolve S matOf vecOf junk fuel a rhs sol chk neg = some r → Once S matOf vecOf r.2.2 true

end Verif.GenAug
