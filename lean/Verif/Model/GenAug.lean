import Verif.Model.AugSolve

/-! # Model of `GenAugSystemSolver` (linear solver supplied by the user: `linear_solver=custom`)

`/repo/src/Algorithm/IpGenAugSystemSolver.cpp`, whole class.  The user's `GenKKTSolverInterface` is a set of functions on an abstract state
`B`.  As in the model AugSolve, matrices and vectors given to `MultiSolve` are represented by their tags (tag 0 is never the tag of an
object).  `UpdateTags` (IpGenAugSystemSolver.cpp:243-306) is called nowhere, so it has no counterpart here: the stored tags keep the values
the constructor gave them.  Not modelled: printing, debug assertions, failing allocations. -/

namespace Verif.GenAug
open Verif.Matrix
open Verif.Triplet (Vec fillFromVector putInVector)
open Verif.AugSolve (Status End Args Quad)

/-- arguments of `GenKKTSolverInterface::MultiSolve` except the array with the right-hand sides (IpGenKKTSolverInterface.hpp:73-94); `none`:
NULL. -/
structure Given (K : Type) where
  new : Bool
  nx : Nat
  nc : Nat
  nd : Nat
  W : Option (Mat K)
  Jc : Mat K
  Jd : Mat K
  Dx : Option (List K)
  Ds : Option (List K)
  Dc : Option (List K)
  Dd : Option (List K)
  δx : K
  δs : K
  δc : K
  δd : K
  nrhs : Nat
  chk : Bool
  neg : Nat

/-- the user's solver (IpGenKKTSolverInterface.hpp:30-121): `Initialize` (argument: `warm_start_same_structure`), `MultiSolve` (the array of
right-hand sides is overwritten), `IncreaseQuality`. -/
structure Solver (K B : Type) where
  init : Bool → B → Bool × B
  solve : Given K → (Nat → K) → B → Status × (Nat → K) × B
  quality : B → Bool × B

/-- the pointers `dx_vals_copy_` etc.: NULL, an array, or an array already deleted. -/
inductive Ptr (K : Type) where
  | null
  | live (a : List K)
  | dangling

/-- stored tags and numbers (IpGenAugSystemSolver.hpp:161-217). -/
structure Tags (K : Type) where
  wTag : Nat
  wFac : K
  dxTag : Nat
  δx : K
  dsTag : Nat
  δs : K
  jcTag : Nat
  dcTag : Nat
  δc : K
  jdTag : Nat
  ddTag : Nat
  δd : K

/-- member variables, with the state of the user's solver. -/
structure State (K B : Type) where
  tags : Tags K
  dx : Ptr K
  ds : Ptr K
  dc : Ptr K
  dd : Ptr K
  world : B

section
variable {K B : Type}

/-- `delete[] p` without setting the pointer to NULL.  `none`: undefined behaviour (deleted twice). -/
def Ptr.delete : Ptr K → Option (Ptr K)
  | .null => some .null
  | .live _ => some .dangling
  | .dangling => none

/-- `InitializeImpl` (IpGenAugSystemSolver.cpp:51-68).  `none`: undefined behaviour. -/
def State.init (S : Solver K B) (warm : Bool) (s : State K B) : Option (Bool × State K B) :=
  let s? : Option (State K B) :=
    if !warm then
      s.dx.delete.bind fun dx => s.ds.delete.bind fun ds => s.dc.delete.bind fun dc => s.dd.delete.map fun dd =>
        { s with dx := dx, ds := ds, dc := dc, dd := dd }
    else some s
  s?.map fun s => let r := S.init warm s.world; (r.1, { s with world := r.2 })

/-- `IncreaseQuality` (IpGenAugSystemSolver.cpp:387-390). -/
def State.quality (S : Solver K B) (s : State K B) : Bool × State K B :=
  let r := S.quality s.world
  (r.1, { s with world := r.2 })

variable [Zero K] [One K] [DecidableEq K]

/-- after the constructor (IpGenAugSystemSolver.cpp:17-41); `w_factor_` is not initialized. -/
def State.start (junk : K) (b : B) : State K B :=
  ⟨⟨0, junk, 0, 0, 0, 0, 0, 0, 0, 0, 0, 0⟩, .null, .null, .null, .null, b⟩

/-- `AugmentedSystemChanged` (IpGenAugSystemSolver.cpp:308-375). -/
def Tags.changed (t : Tags K) (a : Args K) : Bool :=
  let diff (x : Option Nat) (tag : Nat) : Bool := match x with | some i => i != tag | none => tag != 0
  diff a.W t.wTag || a.Wfac != t.wFac || diff a.Dx t.dxTag || a.δx != t.δx || diff a.Ds t.dsTag || a.δs != t.δs ||
    a.Jc != t.jcTag || diff a.Dc t.dcTag || a.δc != t.δc || a.Jd != t.jdTag || diff a.Dd t.ddTag || a.δd != t.δd

/-- what the code for a diagonal ends with: undefined behaviour, an exception, or the array and the new value of the pointer. -/
inductive Got (K : Type) where
  | undef
  | throws
  | val (d : Option (List K)) (p : Ptr K)

/-- the array for one diagonal (IpGenAugSystemSolver.cpp:119-134 for `D_x`; 135-182 for the others): `n` its dimension; `tag`, `p` the stored
tag and pointer. -/
def diagonal (vecOf : Nat → Vec K) (junk : Nat → K) (n : Nat) (D : Option Nat) (tag : Nat) (p : Ptr K) : Got K :=
  match D with
  | none => .val none p
  | some t =>
    match vecOf t with
    | .dense v => .val (some v) p
    | v =>
      if t ≠ tag then
        match p.delete with
        | none => .undef
        | some _ =>
          match fillFromVector v n 0 junk with
          | none => .throws
          | some b => let l := (List.range n).map b; .val (some l) (.live l)
      else .val none p

/-- one right-hand side into the array (IpGenAugSystemSolver.cpp:189-192); `p`: `irhs * dim`. -/
def fillOne (nx nc nd : Nat) (q : Quad K) (p : Nat) (b : Nat → K) : Option (Nat → K) :=
  (fillFromVector q.x nx p b).bind fun b => (fillFromVector q.c nc (p + nx) b).bind fun b =>
    (fillFromVector q.d nd (p + nx + nc) b).bind fun b => fillFromVector q.s nd (p + nx + nc + nd) b

/-- the loop over the right-hand sides (IpGenAugSystemSolver.cpp:184-193), from number `i` on. -/
def fillAll (nx nc nd : Nat) : List (Quad K) → Nat → (Nat → K) → Option (Nat → K)
  | [], _, b => some b
  | q :: l, i, b => (fillOne nx nc nd q (i * (nx + nd + nc + nd)) b).bind (fillAll nx nc nd l (i + 1))

/-- one solution back (IpGenAugSystemSolver.cpp:221-224). -/
def putOne (nx nc nd : Nat) (q : Quad K) (p : Nat) (b : Nat → K) : Option (Quad K) :=
  (putInVector q.x nx p b).bind fun x => (putInVector q.c nc (p + nx) b).bind fun c =>
    (putInVector q.d nd (p + nx + nc) b).bind fun d => (putInVector q.s nd (p + nx + nc + nd) b).map fun s => ⟨x, s, c, d⟩

/-- the loop over the solutions (IpGenAugSystemSolver.cpp:217-226), from number `i` on. -/
def putAll (nx nc nd : Nat) (b : Nat → K) : List (Quad K) → Nat → Option (List (Quad K))
  | [], _ => some []
  | q :: l, i => (putOne nx nc nd q (i * (nx + nd + nc + nd)) b).bind fun q => (putAll nx nc nd b l (i + 1)).map (q :: ·)

/-- the `while( !done )` loop (IpGenAugSystemSolver.cpp:202-214). -/
def loop (S : Solver K B) (g : Given K) : Nat → (Nat → K) → B → End × (Nat → K) × B
  | 0, arr, b => (.running, arr, b)
  | fuel + 1, arr, b =>
    let r := S.solve g arr b
    if r.1 = .callAgain then loop S g fuel r.2.1 r.2.2 else (.ret r.1, r.2.1, r.2.2)

/-- the end of `MultiSolve` (IpGenAugSystemSolver.cpp:216-240); `put`: the solution vectors after copying (`none`: exception).  A fatal error of
the user's solver is thrown as an exception. -/
def finish (sol : List (Quad K)) (put : Option (List (Quad K))) (s : State K B) : End → End × List (Quad K) × State K B
  | .ret .success => match put with
    | none => (.throws, sol, s)
    | some o => (.ret .success, o, s)
  | .ret .fatal => (.throws, sol, s)
  | e => (e, sol, s)

/-- `MultiSolve` (IpGenAugSystemSolver.cpp:70-241): how it ends, contents of the solution vectors, state.  `none`: undefined behaviour. -/
def State.multiSolve (S : Solver K B) (matOf : Nat → Mat K) (vecOf : Nat → Vec K) (junk : Nat → K) (fuel : Nat) (a : Args K)
    (rhs sol : List (Quad K)) (chk : Bool) (neg : Nat) (s : State K B) : Option (End × List (Quad K) × State K B) :=
  match rhs with
  | [] => none
  | q :: _ =>
    let new := s.tags.changed a
    let nx := q.x.dim
    let nc := q.c.dim
    let nd := q.d.dim
    match diagonal vecOf junk nx a.Dx s.tags.dxTag s.dx with
    | .undef => none
    | .throws => some (.throws, sol, { s with dx := .live [] })
    | .val Dx px =>
    match diagonal vecOf junk nd a.Ds s.tags.dsTag s.ds with
    | .undef => none
    | .throws => some (.throws, sol, { s with dx := px, ds := .live [] })
    | .val Ds ps =>
    match diagonal vecOf junk nc a.Dc s.tags.dcTag s.dc with
    | .undef => none
    | .throws => some (.throws, sol, { s with dx := px, ds := ps, dc := .live [] })
    | .val Dc pc =>
    match diagonal vecOf junk nd a.Dd s.tags.ddTag s.dd with
    | .undef => none
    | .throws => some (.throws, sol, { s with dx := px, ds := ps, dc := pc, dd := .live [] })
    | .val Dd pd =>
    let s := { s with dx := px, ds := ps, dc := pc, dd := pd }
    match fillAll nx nc nd rhs 0 junk with
    | none => some (.throws, sol, s)
    | some arr =>
      let W := a.W.bind fun w => if a.Wfac = 1 then some (matOf w) else none
      let g : Given K := ⟨new, nx, nc, nd, W, matOf a.Jc, matOf a.Jd, Dx, Ds, Dc, Dd, a.δx, a.δs, a.δc, a.δd, rhs.length, chk, neg⟩
      let r := loop S g fuel arr s.world
      let s := { s with world := r.2.2 }
      some (finish sol (putAll nx nc nd r.2.1 sol 0) s r.1)

end
end Verif.GenAug
