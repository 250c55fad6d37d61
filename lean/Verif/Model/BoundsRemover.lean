import Mathlib.Data.Matrix.Mul
import Mathlib.Algebra.Order.Field.Basic

/-! # Model of `NLPBoundsRemover` (src/Algorithm/IpNLPBoundsRemover.cpp), option `replace_bounds`

The class `NLP` (src/Interfaces/IpNLP.hpp) is modelled by the values its methods deliver.  Index types: `X` variables, `C` equality, `D` inequality constraints, `L`, `U` lower and
upper bounds of the variables, `A`, `B` of the inequality constraints.  A compound vector space of three parts is a function on `D ⊕ L ⊕ U`, a space of dimension 0 a
function on `Empty`.  Exact arithmetic.  `none`: the method returned `false`. -/

namespace Verif.BoundsRemover
open scoped BigOperators
set_option linter.unusedSectionVars false

variable {K : Type} [Field K] [LinearOrder K] {X C D L U A B : Type}

/-- what `GetBoundsInformation` fills in. -/
structure Bounds (K L U A B : Type) where
  xL : L → K
  xU : U → K
  dL : A → K
  dU : B → K

/-- what `GetStartingPoint` fills in (all requested, as for a warm start). -/
structure Start (K X C D L U : Type) where
  x : X → K
  yc : C → K
  yd : D → K
  zL : L → K
  zU : U → K

/-- what `GetScalingParameters` fills in (`none`: NULL). -/
structure Scal (K X C D : Type) where
  obj : K
  x : Option (X → K)
  c : Option (C → K)
  d : Option (D → K)

/-- result of `GetBoundsInformation`: an exception `INVALID_NLP`, or the return value. -/
inductive BRes (α : Type) where
  | invalid
  | ret (b : Option α)

/-- arguments of `FinalizeSolution`. -/
structure Sol (K X C D L U : Type) where
  x : X → K
  zL : L → K
  zU : U → K
  c : C → K
  d : D → K
  yc : C → K
  yd : D → K
  f : K

/-- class `NLP` (IpNLP.hpp): expansion matrices of `GetSpaces`, and the results of the methods. -/
structure NLP (K X C D L U A B : Type) where
  pxL : _root_.Matrix X L K
  pxU : _root_.Matrix X U K
  pdL : _root_.Matrix D A K
  pdU : _root_.Matrix D B K
  bounds : BRes (Bounds K L U A B)
  /-- all values requested -/
  startAll : Option (Start K X C D L U)
  /-- only x requested -/
  startX : Option (X → K)
  f : (X → K) → Option K
  gradF : (X → K) → Option (X → K)
  c : (X → K) → Option (C → K)
  d : (X → K) → Option (D → K)
  jacC : (X → K) → Option (_root_.Matrix C X K)
  jacD : (X → K) → Option (_root_.Matrix D X K)
  h : (X → K) → K → (C → K) → (D → K) → Option (_root_.Matrix X X K)
  scaling : Scal K X C D

/-- the three parts of a compound vector. -/
def three (a : D → K) (b : L → K) (c : U → K) : D ⊕ L ⊕ U → K
  | .inl i => a i
  | .inr (.inl i) => b i
  | .inr (.inr i) => c i

/-- the two parts of a compound vector. -/
def two {P Q : Type} (a : P → K) (b : Q → K) : P ⊕ Q → K
  | .inl i => a i
  | .inr i => b i

/-- `Pd_L` of the new problem: blocks (0,0) and (1,1) (IpNLPBoundsRemover.cpp:97-110). -/
def newPdL [DecidableEq L] (p : _root_.Matrix D A K) : _root_.Matrix (D ⊕ L ⊕ U) (A ⊕ L) K
  | .inl i, .inl j => p i j
  | .inr (.inl i), .inr j => if i = j then 1 else 0
  | _, _ => 0

/-- `Pd_U` of the new problem: blocks (0,0) and (2,1) (IpNLPBoundsRemover.cpp:112-122). -/
def newPdU [DecidableEq U] (p : _root_.Matrix D B K) : _root_.Matrix (D ⊕ L ⊕ U) (B ⊕ U) K
  | .inl i, .inl j => p i j
  | .inr (.inr i), .inr j => if i = j then 1 else 0
  | _, _ => 0

/-- the test for two-sided inequalities (IpNLPBoundsRemover.cpp:176-190); `true`: no exception. -/
def checkSides [Fintype D] [Fintype A] [Fintype B] (twoSided : Bool) (pdL : _root_.Matrix D A K) (pdU : _root_.Matrix D B K) : Bool :=
  if 0 < Fintype.card D ∧ !twoSided then
    let d := fun i => pdU.mulVec (fun _ => 1) i + 1 * pdL.mulVec (fun _ => 1) i
    decide ((∀ i, |d i| ≤ 1) ∧ (∃ i, |d i| = 1)) && decide ((∀ i, 1 ≤ d i) ∧ ∃ i, d i = 1)
  else true

variable [Fintype X] [Fintype D] [Fintype A] [Fintype B] [DecidableEq L] [DecidableEq U]

/-- `GetBoundsInformation` (IpNLPBoundsRemover.cpp:145-195). -/
def newBounds (twoSided : Bool) (n : NLP K X C D L U A B) : BRes (Bounds K Empty Empty (A ⊕ L) (B ⊕ U)) :=
  if checkSides twoSided n.pdL n.pdU then
    match n.bounds with
    | .invalid => .invalid
    | .ret b => .ret (b.map fun b => ⟨Empty.elim, Empty.elim, two b.dL b.xL, two b.dU b.xU⟩)
  else .invalid

/-- `GetStartingPoint` with all values requested (IpNLPBoundsRemover.cpp:197-224); the new problem's `z_L`, `z_U` have dimension 0. -/
def newStart (n : NLP K X C D L U A B) : Option (Start K X C (D ⊕ L ⊕ U) Empty Empty) :=
  n.startAll.map fun s => ⟨s.x, s.yc, three s.yd s.zL s.zU, Empty.elim, Empty.elim⟩

/-- `Eval_d` (IpNLPBoundsRemover.cpp:226-244). -/
def newD (n : NLP K X C D L U A B) (x : X → K) : Option (D ⊕ L ⊕ U → K) :=
  (n.d x).map fun d => three d (n.pxL.transpose.mulVec x) (n.pxU.transpose.mulVec x)

/-- the matrix with the rows of the Jacobian, of `Px_L` transposed and of `Px_U` transposed (matrix space of `GetSpaces`, IpNLPBoundsRemover.cpp:124-137). -/
def jacRows (n : NLP K X C D L U A B) (j : _root_.Matrix D X K) : _root_.Matrix (D ⊕ L ⊕ U) X K
  | .inl i, v => j i v
  | .inr (.inl i), v => n.pxL v i
  | .inr (.inr i), v => n.pxU v i

/-- `Eval_jac_d` (IpNLPBoundsRemover.cpp:246-263). -/
def newJacD (n : NLP K X C D L U A B) (x : X → K) : Option (_root_.Matrix (D ⊕ L ⊕ U) X K) := (n.jacD x).map (jacRows n)

/-- `Eval_h` (IpNLPBoundsRemover.cpp:265-279). -/
def newH (n : NLP K X C D L U A B) (x : X → K) (σ : K) (yc : C → K) (yd : D ⊕ L ⊕ U → K) : Option (_root_.Matrix X X K) := n.h x σ yc fun i => yd (.inl i)

/-- `GetScalingParameters` (IpNLPBoundsRemover.cpp:311-361). -/
def newScaling (n : NLP K X C D L U A B) : Scal K X C (D ⊕ L ⊕ U) :=
  { obj := n.scaling.obj, x := n.scaling.x, c := n.scaling.c
    d := if n.scaling.x.isSome || n.scaling.d.isSome then
        let xs := match n.scaling.x with
          | some xs => (n.pxL.transpose.mulVec xs, n.pxU.transpose.mulVec xs)
          | none => (fun _ => 1, fun _ => 1)
        some (three (match n.scaling.d with
          | some ds => ds
          | none => fun _ => 1) xs.1 xs.2)
      else none }

/-- the new problem. -/
def remove (twoSided : Bool) (n : NLP K X C D L U A B) : NLP K X C (D ⊕ L ⊕ U) Empty Empty (A ⊕ L) (B ⊕ U) where
  pxL := fun _ j => j.elim
  pxU := fun _ j => j.elim
  pdL := newPdL n.pdL
  pdU := newPdU n.pdU
  bounds := newBounds twoSided n
  startAll := newStart n
  startX := n.startX
  f := n.f
  gradF := n.gradF
  c := n.c
  d := newD n
  jacC := n.jacC
  jacD := newJacD n
  h := newH n
  scaling := newScaling n

/-- `FinalizeSolution` (IpNLPBoundsRemover.cpp:281-309). -/
def finalize (s : Sol K X C (D ⊕ L ⊕ U) Empty Empty) : Sol K X C D L U :=
  ⟨s.x, fun i => -1 * s.yd (.inr (.inl i)), fun i => s.yd (.inr (.inr i)), s.c, fun i => s.d (.inl i), s.yc, fun i => s.yd (.inl i), s.f⟩

end Verif.BoundsRemover
