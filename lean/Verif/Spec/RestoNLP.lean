import Verif.Model.RestoNLP
import Mathlib.Analysis.Calculus.Deriv.Basic

/-! # What the restoration problem should be (independent of the code) -/

namespace Verif.RestoNLP
open scoped BigOperators Topology

variable {K : Type} [Field K] [LinearOrder K] {X C D m : Type} [Fintype X] [Fintype C] [Fintype D] [Fintype m]

/-- the point `v + t h`. -/
def X5.move (v h : X5 K X C D) (t : K) : X5 K X C D :=
  ⟨fun i => v.x i + t * h.x i, fun i => v.nc i + t * h.nc i, fun i => v.pc i + t * h.pc i, fun i => v.nd i + t * h.nd i, fun i => v.pd i + t * h.pd i⟩

/-- inner product. -/
def X5.dot (g h : X5 K X C D) : K :=
  ∑ i, g.x i * h.x i + ∑ i, g.nc i * h.nc i + ∑ i, g.pc i * h.pc i + ∑ i, g.nd i * h.nd i + ∑ i, g.pd i * h.pd i

/-- a block that is not set is zero. -/
def block (A : Option (_root_.Matrix m X K)) (i : m) (j : X) : K := match A with | some A => A i j | none => 0

/-- matrix times vector. -/
def M5.mul (A : M5 K m X C D) (h : X5 K X C D) (i : m) : K :=
  ∑ j, block A.x i j * h.x j + ∑ j, block A.nc i j * h.nc j + ∑ j, block A.pc i j * h.pc j + ∑ j, block A.nd i j * h.nd j + ∑ j, block A.pd i j * h.pd j

/-- transposed matrix times vector. -/
def M5.tmul (A : M5 K m X C D) (y : m → K) : X5 K X C D :=
  ⟨fun j => ∑ i, block A.x i j * y i, fun j => ∑ i, block A.nc i j * y i, fun j => ∑ i, block A.pc i j * y i,
   fun j => ∑ i, block A.nd i j * y i, fun j => ∑ i, block A.pd i j * y i⟩

/-- `a g + b + c`, the gradient of the Lagrangian from its parts. -/
def X5.lag (σ : K) (g a b : X5 K X C D) : X5 K X C D :=
  ⟨fun i => σ * g.x i + a.x i + b.x i, fun i => σ * g.nc i + a.nc i + b.nc i, fun i => σ * g.pc i + a.pc i + b.pc i,
   fun i => σ * g.nd i + a.nd i + b.nd i, fun i => σ * g.pd i + a.pd i + b.pd i⟩

/-- the partially defined curve `g` is defined near 0 and has derivative `g'` there. -/
def DerivAt (g : ℝ → Option ℝ) (g' : ℝ) : Prop :=
  ∃ G : ℝ → ℝ, (∀ᶠ t in 𝓝 (0 : ℝ), g t = some (G t)) ∧ HasDerivAt G g' 0

/-- components 1-norm of the violation of `c(x) = 0`, `d(x) = s`. -/
def viol (cx : C → K) (dx s : D → K) : K := ∑ i, |cx i| + ∑ i, |dx i - s i|

/-- the term that keeps `x` close to the reference point: `½ ζ Σ ((x - xr) / max(1, |xr|))²`. -/
def prox (ζ : K) (xr x : X → K) : K := ζ / 2 * ∑ i, ((x i - xr i) / max 1 |xr i|) ^ 2

/-- the relaxation variables are nonnegative. -/
def X5.Nonneg (v : X5 K X C D) : Prop := (∀ i, 0 ≤ v.nc i) ∧ (∀ i, 0 ≤ v.pc i) ∧ (∀ i, 0 ≤ v.nd i) ∧ (∀ i, 0 ≤ v.pd i)

variable [DecidableEq X] [DecidableEq C] [DecidableEq D]

/-- gradient of the Lagrangian `σ f + yc·c + yd·d` of the restoration problem, from the derivatives it returns. -/
def Resto.lagGrad (R : Resto K X C D) (pow : K → K) (v : X5 K X C D) (σ : K) (yc : C → K) (yd : D → K) (mu : K) : Option (X5 K X C D) :=
  (R.jacC v).bind fun A => (R.jacD v).map fun B => X5.lag σ (R.gradF pow v mu) (A.tmul yc) (B.tmul yd)

/-- gradient of `yc·c + yd·d` of the original problem. -/
def Orig.conGrad (O : Orig K X C D) (x : X → K) (yc : C → K) (yd : D → K) : Option (X → K) :=
  (O.jacC x).bind fun A => (O.jacD x).map fun B => fun j => ∑ i, A i j * yc i + ∑ i, B i j * yd i

end Verif.RestoNLP
