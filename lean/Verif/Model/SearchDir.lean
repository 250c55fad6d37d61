import Verif.Model.SOC
import Mathlib.Algebra.BigOperators.Ring.Finset

/-! # Search direction and least-square multipliers

`PDSearchDirCalculator::ComputeSearchDirection` (src/Algorithm/IpPDSearchDirCalc.cpp), `LeastSquareMultipliers::CalculateMultipliers` (src/Algorithm/IpLeastSquareMults.cpp) and the quantities they use of
src/Algorithm/IpIpoptCalculatedQuantities.cpp.  Exact arithmetic; vectors are functions on index sets as in `Verif.SOC`; the expansion matrices `Px_L`, … are given by the maps `pL`, … from the bounds to the
components.  The primal-dual solver (C36) and the augmented system solver (C60) are parameters; printing and caching (C56) are left out. -/

namespace Verif.SearchDir
open Verif.SOC
open scoped BigOperators
set_option linter.unusedSectionVars false

variable {K : Type} [Field K] [LinearOrder K] {X C D L U A B : Type}
variable [Fintype X] [Fintype C] [Fintype D] [Fintype L] [Fintype U] [Fintype A] [Fintype B] [DecidableEq X] [DecidableEq D]

/-- the current iterate and the quantities evaluated there; slacks, `mu`, option `kappa_d`. -/
structure Cur (K X C D L U A B : Type) where
  pL : L → X
  pU : U → X
  qL : A → D
  qU : B → D
  it : Iter K X C D L U A B
  gradF : X → K
  Jc : C → X → K
  Jd : D → X → K
  c : C → K
  d : D → K
  slXL : L → K
  slXU : U → K
  slSL : A → K
  slSU : B → K
  mu : K
  kappaD : K

/-- `P->MultVector(1., v, 0., y)` for the expansion matrix `P` of the map `p`. -/
def expand {I J : Type} [Fintype I] [DecidableEq J] (p : I → J) (v : I → K) (j : J) : K := ∑ i, if p i = j then v i else 0

/-- `J^T y`. -/
def tmul {R : Type} [Fintype R] (J : R → X → K) (y : R → K) (j : X) : K := ∑ i, J i j * y i

/-- `ComputeDampingIndicators`, for lower bounds (IpIpoptCalculatedQuantities.cpp:1057-1066). -/
def dampL {I I' J : Type} [Fintype I] [Fintype I'] [DecidableEq J] (pL : I → J) (pU : I' → J) (i : I) : K :=
  expand pL (fun _ => 1) (pL i) + -1 * expand pU (fun _ => 1) (pL i)

/-- `ComputeDampingIndicators`, for upper bounds (IpIpoptCalculatedQuantities.cpp:1067-1068). -/
def dampU {I I' J : Type} [Fintype I] [Fintype I'] [DecidableEq J] (pL : I → J) (pU : I' → J) (i : I') : K :=
  -1 * (expand pL (fun _ => 1) (pU i) + -1 * expand pU (fun _ => 1) (pU i))

/-- `curr_grad_lag_x`. -/
def gradLagX (v : Cur K X C D L U A B) (j : X) : K :=
  v.gradF j + tmul v.Jc v.it.yc j + tmul v.Jd v.it.yd j + -1 * expand v.pL v.it.zL j + 1 * expand v.pU v.it.zU j

/-- `curr_grad_lag_s`. -/
def gradLagS (v : Cur K X C D L U A B) (i : D) : K := 1 * expand v.qU v.it.vU i + -1 * expand v.qL v.it.vL i + -1 * v.it.yd i

/-- `curr_grad_lag_with_damping_x` (IpIpoptCalculatedQuantities.cpp:2131-2180). -/
def gradLagDampX (v : Cur K X C D L U A B) (j : X) : K :=
  if v.kappaD = 0 then gradLagX v j
  else gradLagX v j + v.kappaD * v.mu * expand v.pL (dampL v.pL v.pU) j + -v.kappaD * v.mu * expand v.pU (dampU v.pL v.pU) j

/-- `curr_grad_lag_with_damping_s` (IpIpoptCalculatedQuantities.cpp:2182-2227). -/
def gradLagDampS (v : Cur K X C D L U A B) (i : D) : K :=
  if v.kappaD = 0 then gradLagS v i
  else gradLagS v i + v.kappaD * v.mu * expand v.qL (dampL v.qL v.qU) i + -v.kappaD * v.mu * expand v.qU (dampU v.qL v.qU) i

/-- `curr_grad_barrier_obj_x` (IpIpoptCalculatedQuantities.cpp:859-908). -/
def gradBarrX (v : Cur K X C D L U A B) (j : X) : K :=
  let g := v.gradF j + -v.mu * expand v.pL (fun i => 1 / v.slXL i) j + v.mu * expand v.pU (fun i => 1 / v.slXU i) j
  if 0 < v.kappaD then g + v.kappaD * v.mu * expand v.pL (dampL v.pL v.pU) j + -v.kappaD * v.mu * expand v.pU (dampU v.pL v.pU) j else g

/-- `curr_grad_barrier_obj_s` (IpIpoptCalculatedQuantities.cpp:951-1000). -/
def gradBarrS (v : Cur K X C D L U A B) (j : D) : K :=
  let g := expand v.qL (fun i => -v.mu / v.slSL i) j + v.mu * expand v.qU (fun i => 1 / v.slSU i) j
  if 0 < v.kappaD then g + v.kappaD * v.mu * expand v.qL (dampL v.qL v.qU) j + -v.kappaD * v.mu * expand v.qU (dampU v.qL v.qU) j else g

/-- `curr_gradBarrTDelta`. -/
def gradBarrTDelta (v : Cur K X C D L U A B) (δ : Iter K X C D L U A B) : K := ∑ j, gradBarrX v j * δ.x j + ∑ i, gradBarrS v i * δ.s i

/-- options `fast_step_computation`, `mehrotra_algorithm`. -/
structure Cfg where
  fast : Bool
  mehrotra : Bool

/-- `IpData`: `HaveDeltas`, `delta`, `delta_aff`. -/
structure St (K X C D L U A B : Type) where
  haveDeltas : Bool
  delta : Iter K X C D L U A B
  deltaAff : Iter K X C D L U A B

/-- the right-hand side (IpPDSearchDirCalc.cpp:75-124). -/
def rhs (cfg : Cfg) (v : Cur K X C D L U A B) (st : St K X C D L U A B) : Iter K X C D L U A B :=
  let n := Fintype.card L + Fintype.card U + Fintype.card A + Fintype.card B
  let a := st.deltaAff
  let m : Bool := decide (0 < n) && cfg.mehrotra
  { x := gradLagDampX v
    s := gradLagDampS v
    yc := v.c
    yd := fun i => v.d i - v.it.s i
    zL := if m then fun i => 1 * a.x (v.pL i) * a.zL i + 1 * (v.slXL i * v.it.zL i + -v.mu) else fun i => v.slXL i * v.it.zL i + -v.mu
    zU := if m then fun i => -1 * a.x (v.pU i) * a.zU i + 1 * (v.slXU i * v.it.zU i + -v.mu) else fun i => v.slXU i * v.it.zU i + -v.mu
    vL := if m then fun i => 1 * a.s (v.qL i) * a.vL i + 1 * (v.slSL i * v.it.vL i + -v.mu) else fun i => v.slSL i * v.it.vL i + -v.mu
    vU := if m then fun i => -1 * a.s (v.qU i) * a.vU i + 1 * (v.slSU i * v.it.vU i + -v.mu) else fun i => v.slSU i * v.it.vU i + -v.mu }

/-- all components times `a`. -/
def scaled (a : K) (w : Iter K X C D L U A B) : Iter K X C D L U A B :=
  ⟨fun i => a * w.x i, fun i => a * w.s i, fun i => a * w.yc i, fun i => a * w.yd i, fun i => a * w.zL i, fun i => a * w.zU i, fun i => a * w.vL i, fun i => a * w.vU i⟩

/-- `ComputeSearchDirection` (IpPDSearchDirCalc.cpp:57-140). `solve α β rhs start allowInexact improve`: `pd_solver_->Solve`; `fresh`: contents of the new vector. -/
def computeDir (cfg : Cfg) (v : Cur K X C D L U A B) (solve : K → K → Iter K X C D L U A B → Iter K X C D L U A B → Bool → Bool → Option (Iter K X C D L U A B))
    (fresh : Iter K X C D L U A B) (st : St K X C D L U A B) : Bool × St K X C D L U A B :=
  if st.haveDeltas && cfg.fast then (true, st)
  else
    match solve (-1) 0 (rhs cfg v st) (if st.haveDeltas then scaled (-1) st.delta else fresh) cfg.fast st.haveDeltas with
    | some d => (true, { st with delta := d })
    | none => (false, st)

/-! ### Least-square multipliers -/

/-- arguments of the augmented system solver that vary. -/
structure LsArgs (K X C D : Type) where
  Jc : C → X → K
  Jd : D → X → K
  rx : X → K
  rs : D → K
  negEVals : Nat
  check : Bool

/-- `CalculateMultipliers` (IpLeastSquareMults.cpp:29-95). `aug` solves `[I 0 Jc' Jd'; 0 I 0 -I; Jc 0 0 0; Jd -I 0 0]` with right-hand side `(rx, rs, 0, 0)`; result `x, s, y_c, y_d`. -/
def lsMults (v : Cur K X C D L U A B) (inertia : Bool) (aug : LsArgs K X C D → Option ((X → K) × (D → K) × (C → K) × (D → K))) : Option ((C → K) × (D → K)) :=
  (aug { Jc := v.Jc, Jd := v.Jd
         rx := fun j => -1 * expand v.pU v.it.zU j + 1 * (1 * expand v.pL v.it.zL j + -1 * v.gradF j)
         rs := fun i => -1 * expand v.qU v.it.vU i + 1 * (1 * expand v.qL v.it.vL i)
         negEVals := Fintype.card C + Fintype.card D
         check := inertia }).map fun r => (r.2.2.1, r.2.2.2)

end Verif.SearchDir
