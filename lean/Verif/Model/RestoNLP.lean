import Mathlib.Data.Matrix.Basic
import Mathlib.Algebra.Order.Field.Basic
import Mathlib.Algebra.BigOperators.Group.Finset.Basic

/-! # The restoration problem (src/Algorithm/IpRestoIpoptNLP.cpp)

Objective, constraints, derivatives, bounds of `RestoIpoptNLP` in terms of those of the original problem.  Exact arithmetic in a
linearly ordered field; vectors are functions on finite index sets (`X` variables, `C` equality, `D` inequality constraints).
`sqrt` is the square root used in `Nrm2`, `pow` is `std::pow(·, eta_mu_exponent_)` with the exponent 0.5 set in the constructor
(IpRestoIpoptNLP.cpp:34).  An evaluation of the original problem that fails (exception `Eval_Error`) is `none`. -/

namespace Verif.RestoNLP
open scoped BigOperators
set_option linter.unusedSectionVars false

variable {K : Type} [Field K] [LinearOrder K] {X C D : Type} [Fintype X] [Fintype C] [Fintype D] [DecidableEq X] [DecidableEq C] [DecidableEq D]

/-- the functions of the original problem (`orig_ip_nlp_`). -/
structure Orig (K X C D : Type) where
  f : (X → K) → Option K
  c : (X → K) → Option (C → K)
  d : (X → K) → Option (D → K)
  jacC : (X → K) → Option (_root_.Matrix C X K)
  jacD : (X → K) → Option (_root_.Matrix D X K)
  h : (X → K) → K → (C → K) → (D → K) → Option (_root_.Matrix X X K)

/-- compound vector of the five blocks x, n_c, p_c, n_d, p_d (IpRestoIpoptNLP.cpp:134-140). -/
structure X5 (K X C D : Type) where
  x : X → K
  nc : C → K
  pc : C → K
  nd : D → K
  pd : D → K

/-- `CompoundVector::Sum`. -/
def X5.sum (v : X5 K X C D) : K := ∑ i, v.x i + ∑ i, v.nc i + ∑ i, v.pc i + ∑ i, v.nd i + ∑ i, v.pd i

/-- the data of `RestoIpoptNLP`: options `resto_penalty_parameter`, `resto_proximity_weight`, `evaluate_orig_obj_at_resto_trial`, and the
reference point with its weights. -/
structure Resto (K X C D : Type) where
  orig : Orig K X C D
  rho : K
  etaFactor : K
  evalOrig : Bool
  xRef : X → K
  dr : X → K
  dr2 : X → K

/-- `InitializeStructures`, the end (IpRestoIpoptNLP.cpp:427-449): `x_ref` is the current point of the original problem. -/
def Resto.new (orig : Orig K X C D) (rho etaFactor : K) (evalOrig : Bool) (curr : X → K) : Resto K X C D :=
  let dr : X → K := fun i => (max (max 1 (curr i)) (-1 * curr i))⁻¹
  { orig := orig, rho := rho, etaFactor := etaFactor, evalOrig := evalOrig, xRef := curr, dr := dr, dr2 := fun i => dr i * dr i }

section
variable (sqrt pow : K → K)

/-- `Eta` (IpRestoIpoptNLP.cpp:759-764). -/
def Resto.eta (R : Resto K X C D) (mu : K) : K := R.etaFactor * pow mu

/-- `f(x, mu)` (IpRestoIpoptNLP.cpp:462-500). -/
def Resto.f (R : Resto K X C D) (v : X5 K X C D) (mu : K) : Option K :=
  let ret := R.rho * (v.sum - ∑ i, v.x i)
  let diff : X → K := fun i => (v.x i - R.xRef i) * R.dr i
  let nrm := sqrt (∑ i, diff i * diff i)
  let ret2 := R.eta pow mu / 2 * nrm * nrm
  if R.evalOrig then (R.orig.f v.x).map fun _ => ret + ret2 else some (ret + ret2)

/-- `grad_f(x, mu)` (IpRestoIpoptNLP.cpp:502-523). -/
def Resto.gradF (R : Resto K X C D) (v : X5 K X C D) (mu : K) : X5 K X C D :=
  { x := fun i => R.eta pow mu * ((v.x i - R.xRef i) * R.dr2 i)
    nc := fun _ => R.rho, pc := fun _ => R.rho, nd := fun _ => R.rho, pd := fun _ => R.rho }

/-- `c(x)` (IpRestoIpoptNLP.cpp:525-544). -/
def Resto.c (R : Resto K X C D) (v : X5 K X C D) : Option (C → K) :=
  (R.orig.c v.x).map fun cx => fun i => cx i + 1 * v.nc i + -1 * v.pc i

/-- `d(x)` (IpRestoIpoptNLP.cpp:553-572). -/
def Resto.d (R : Resto K X C D) (v : X5 K X C D) : Option (D → K) :=
  (R.orig.d v.x).map fun dx => fun i => dx i + 1 * v.nd i + -1 * v.pd i

/-- a matrix with the five column blocks of the restoration variables; `none`: block not set (zero). -/
structure M5 (K m X C D : Type) where
  x : Option (_root_.Matrix m X K)
  nc : Option (_root_.Matrix m C K)
  pc : Option (_root_.Matrix m C K)
  nd : Option (_root_.Matrix m D K)
  pd : Option (_root_.Matrix m D K)

/-- `jac_c(x)` (IpRestoIpoptNLP.cpp:574-609; identity blocks created from the space, 260-261). -/
def Resto.jacC (R : Resto K X C D) (v : X5 K X C D) : Option (M5 K C X C D) :=
  (R.orig.jacC v.x).map fun J =>
    { x := some J, nc := some (_root_.Matrix.of fun i j => if i = j then 1 else 0), pc := some (_root_.Matrix.of fun i j => if i = j then -1 else 0), nd := none, pd := none }

/-- `jac_d(x)` (IpRestoIpoptNLP.cpp:611-647; 284-285). -/
def Resto.jacD (R : Resto K X C D) (v : X5 K X C D) : Option (M5 K D X C D) :=
  (R.orig.jacD v.x).map fun J =>
    { x := some J, nc := none, pc := none, nd := some (_root_.Matrix.of fun i j => if i = j then 1 else 0), pd := some (_root_.Matrix.of fun i j => if i = j then -1 else 0) }

/-- `h(x, obj_factor, yc, yd, mu)` (IpRestoIpoptNLP.cpp:660-704): the (0,0) block; all other blocks are not set. -/
def Resto.h (R : Resto K X C D) (v : X5 K X C D) (σ : K) (yc : C → K) (yd : D → K) (mu : K) : Option (_root_.Matrix X X K) :=
  (R.orig.h v.x 0 yc yd).map fun H => fun i j => 1 * H i j + σ * R.eta pow mu * (if i = j then R.dr2 i else 0)

end

/-! ### Bounds

Vectors are objects; `OrigIpoptNLP` and the compound bound vectors of `RestoIpoptNLP` hold references to them. -/

/-- all vectors in the program, and which of them are the bounds.  `xL0` … `dU0` are the components 0 of the bound vectors of the restoration
problem, `slack` the contents of the components 1 … 4 of `x_L`. -/
structure Bounds (V : Type) where
  heap : Nat → V
  next : Nat
  xL : Nat
  xU : Nat
  dL : Nat
  dU : Nat
  xL0 : Nat
  xU0 : Nat
  dL0 : Nat
  dU0 : Nat
  slack : Fin 4 → V

/-- the bounds created in `InitializeStructures` (IpRestoIpoptNLP.cpp:320-339): the components 0 are the vectors of the original problem
(`CompoundVector::SetComp` keeps a reference, IpCompoundVector.cpp:52-63), the others are zero. -/
def Bounds.new {V : Type} (zero : Fin 4 → V) (heap : Nat → V) (next xL xU dL dU : Nat) : Bounds V :=
  ⟨heap, next, xL, xU, dL, dU, xL, xU, dL, dU, zero⟩

/-- `OrigIpoptNLP::AdjustVariableBounds` (IpOrigIpoptNLP.cpp:991-1002): new copies. -/
def Bounds.adjustOrig {V : Type} (b : Bounds V) (xL xU dL dU : V) : Bounds V :=
  { b with
    heap := Function.update (Function.update (Function.update (Function.update b.heap b.next xL) (b.next + 1) xU) (b.next + 2) dL) (b.next + 3) dU
    next := b.next + 4
    xL := b.next, xU := b.next + 1, dL := b.next + 2, dU := b.next + 3 }

/-- `RestoIpoptNLP::AdjustVariableBounds` (IpRestoIpoptNLP.cpp:766-803). -/
def Bounds.adjust {V : Type} (b : Bounds V) (xL : V) (slack : Fin 4 → V) (xU dL dU : V) : Bounds V :=
  { b.adjustOrig xL xU dL dU with slack := slack }

end Verif.RestoNLP
