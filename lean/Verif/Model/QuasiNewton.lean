import Verif.Model.Matrix
import Mathlib.Algebra.Order.Field.Basic

/-! # Limited-memory quasi-Newton approximation

`/repo/src/Algorithm/IpLimMemQuasiNewtonUpdater.cpp`: the whole of `UpdateHessian` and its helpers, for both update types (BFGS, SR1) and
both uses (original problem, restoration phase).

A `MultiVectorMatrix` is the list of its columns, `none` is the null pointer.  LAPACK's Cholesky factorization and eigenvalue
decomposition and BLAS' triangular solve are parameters (`Env.chol`, `Env.eig`, `Env.back`), `std::sqrt` and the floating point
tolerances too.  Dereferencing a null pointer and a thrown exception end the run (`Except Err`).

Simplified: vectors are flat lists (C27, C45); `AddTwoVectors`/`AddOneVector` are given by their documented result (C44); output and
info strings are represented by the returned `Kind`. -/

namespace Verif.QuasiNewton
open Verif.Matrix

/-- how a run can end abnormally: dereferencing a null pointer (undefined behaviour) or `INTERNAL_ABORT`
(IpLimMemQuasiNewtonUpdater.cpp:608-610). -/
inductive Err where
  | nullDeref
  | internalAbort
deriving DecidableEq

/-- `LMInitialization` (IpLimMemQuasiNewtonUpdater.hpp, option limited_memory_initialization). -/
inductive Init where
  | scalar1
  | scalar2
  | scalar3
  | scalar4
  | constant
deriving DecidableEq

/-- what a call of `UpdateHessian` did: first call, reset ("Wr"), skipped because of a tiny step ("WS"), skipped by the curvature test,
skipped because some pair lost its positive curvature in the restoration phase ("We"), Cholesky factorization failed, SR1 skipped because
of the eigenvalues, update accepted.  `undo`: the previous SR1 update was undone before ("Wb"). -/
inductive Kind where
  | start
  | reset
  | tiny
  | curv
  | eta
  | chol
  | eig (undo : Bool)
  | accept (undo : Bool)
deriving DecidableEq

section
variable {K : Type} [Field K] [LinearOrder K]

/-- square dense matrix, column-major (`DenseGenMatrix`, `DenseSymMatrix`: `values_[i + j*dim]`). -/
structure DM (K : Type) where
  n : Nat
  vals : List K
deriving DecidableEq

/-- `values_[i + j*dim]`. -/
def DM.at (M : DM K) (i j : Nat) : K := M.vals.getD (i + j * M.n) 0

/-- the matrix with the given entries. -/
def DM.build (n : Nat) (f : Nat → Nat → K) : DM K := ⟨n, (List.range (n * n)).map (fun k => f (k % n) (k / n))⟩

/-- Σ_{k<n} f k, in the order of the loops. -/
def sumTo (n : Nat) (f : Nat → K) : K := (List.range n).foldl (fun s k => s + f k) 0

/-- options (IpLimMemQuasiNewtonUpdater.cpp:96-113) and constructor argument. -/
structure Cfg (K : Type) where
  maxHist : Nat
  maxSkip : Nat
  sr1 : Bool
  init : Init
  initVal : K
  sigMin : K
  sigMax : K
  /-- `update_for_resto_` -/
  resto : Bool
  /-- `limited_memory_special_for_resto` -/
  special : Bool
  /-- `P_LowRank()` of the Hessian space -/
  P : Option (Mat K)

/-- the regular initial matrix B_0 = σ I is used (`!update_for_resto_ || !limited_memory_special_for_resto_`). -/
def Cfg.regular (cfg : Cfg K) : Bool := !cfg.resto || !cfg.special

/-- numerical environment: `std::sqrt`, `100*eps`, the tolerance `√eps` of the curvature test, the 1e-12 of `SplitEigenvalues`, the 1e-8
of the SR1 scaling, contents of never written storage, LAPACK `potrf`, BLAS `trsm` (giving J⁻ᵀ), LAPACK `syev`. -/
structure Env (K : Type) where
  hom : List K → Option K
  sqrt : K → K
  tinyTol : K
  curvTol : K
  eigTol : K
  minSty : K
  junk : K
  chol : DM K → Option (DM K)
  back : DM K → DM K
  eig : DM K → Option (DM K × List K)

/-- the quantities of one call: current x, ∇f, Jacobians, multipliers, `info_regu_x()`, and for the restoration phase `DR_x` and η. -/
structure Call (K : Type) where
  x : List K
  gradf : List K
  Jc : Mat K
  Jd : Mat K
  yc : List K
  yd : List K
  regu : K
  drx : List K
  eta : K

/-- the members saved by `StoreInternalDataBackup` (IpLimMemQuasiNewtonUpdater.cpp:712-729). -/
structure Data (K : Type) where
  mem : Nat
  S : Option (List (List K))
  Y : Option (List (List K))
  Ypart : Option (List (List K))
  D : Option (List K)
  L : Option (DM K)
  SdotS : Option (DM K)
  uptodate : Bool
  STDRS : Option (DM K)
  DRS : Option (List (List K))
  sigma : K
  V : Option (List (List K))
  U : Option (List (List K))

/-- all members; `last` = `last_x_`, `last_grad_f_`, `last_jac_c_`, `last_jac_d_`; `W` is the matrix handed over by `IpData().Set_W`. -/
structure St (K : Type) where
  data : Data K
  backup : Data K
  last : Option (Call K)
  skipped : Nat
  W : Option (Mat K)

/-- after `InitializeImpl` (IpLimMemQuasiNewtonUpdater.cpp:114-141).  The backup members are not initialized there, nor in the constructor
(IpLimMemQuasiNewtonUpdater.cpp:20-24): the smart pointers are null, the numbers (`g`, `σg`, `ug`) arbitrary. -/
def St.init (g : Nat) (σg : K) (ug : Bool) : St K where
  data := ⟨0, none, none, none, none, none, none, false, none, none, -1, none, none⟩
  backup := ⟨g, none, none, none, none, none, none, ug, none, none, σg, none, none⟩
  last := none
  skipped := 0
  W := none

/-- `AugmentMultiVector` (IpLimMemQuasiNewtonUpdater.cpp:1014-1041). -/
def augMV (V : Option (List (List K))) (v : List K) : Option (List (List K)) :=
  match V with
  | some c => some (c ++ [v])
  | none => some [v]

/-- `ShiftMultiVector` (IpLimMemQuasiNewtonUpdater.cpp:1200-1217): column i ← column i+1, last column ← new one. -/
def shiftMV (V : Option (List (List K))) (v : List K) : Except Err (Option (List (List K))) :=
  match V with
  | some c => .ok (some ((List.range (c.length - 1)).map (fun i => c.getD (i + 1) []) ++ [v]))
  | none => .error .nullDeref

/-- the new last column of V (IpLimMemQuasiNewtonUpdater.cpp:444-451). -/
def extendMV (aug : Bool) (V : Option (List (List K))) (v : List K) : Except Err (Option (List (List K))) :=
  if aug then .ok (augMV V v) else shiftMV V v

/-- `AugmentDenseVector` (IpLimMemQuasiNewtonUpdater.cpp:1043-1073). -/
def augVec (V : Option (List K)) (v : K) : Option (List K) :=
  match V with
  | some c => some (c ++ [v])
  | none => some [v]

/-- `ShiftDenseVector` (IpLimMemQuasiNewtonUpdater.cpp:1219-1239). -/
def shiftVec (V : Option (List K)) (v : K) : Except Err (Option (List K)) :=
  match V with
  | some c => .ok (some ((List.range (c.length - 1)).map (fun i => c.getD (i + 1) 0) ++ [v]))
  | none => .error .nullDeref

/-- column `i` of a multi-vector matrix (`GetVector(i)`). -/
def col (S : Option (List (List K))) (i : Nat) : List K := (S.getD []).getD i []

/-- dimension of an optional matrix (`IsValid(V) ? V->Dim() : 0`). -/
def odim (V : Option (DM K)) : Nat :=
  match V with
  | some M => M.n
  | none => 0

/-- entry of an optional matrix. -/
def oat (V : Option (DM K)) (i j : Nat) : K :=
  match V with
  | some M => M.at i j
  | none => 0

/-- `AugmentLMatrix` (IpLimMemQuasiNewtonUpdater.cpp:1075-1121). -/
def augL (V : Option (DM K)) (S Y : Option (List (List K))) : Option (DM K) :=
  let n := odim V
  some (DM.build (n + 1) (fun i j =>
    if j = n then 0
    else if i = n then vdot (col S n) (col Y j)
    else oat V i j))

/-- `ShiftLMatrix` (IpLimMemQuasiNewtonUpdater.cpp:1241-1276). -/
def shiftL (V : Option (DM K)) (S Y : Option (List (List K))) : Except Err (Option (DM K)) :=
  match V with
  | some M => .ok (some (DM.build M.n (fun i j =>
      if j = M.n - 1 then 0
      else if i = M.n - 1 then vdot (col S (M.n - 1)) (col Y j)
      else M.at (i + 1) (j + 1))))
  | none => .error .nullDeref

/-- `AugmentSdotSMatrix`, `AugmentSTDRSMatrix` (IpLimMemQuasiNewtonUpdater.cpp:1123-1198; the first is called with `T = S`): only the
lower triangle is written. -/
def augST (junk : K) (V : Option (DM K)) (S T : Option (List (List K))) : Option (DM K) :=
  let n := odim V
  some (DM.build (n + 1) (fun i j =>
    if i = n then vdot (col S n) (col T j)
    else if j ≤ i then oat V i j
    else junk))

/-- `ShiftSdotSMatrix`, `ShiftSTDRSMatrix` (IpLimMemQuasiNewtonUpdater.cpp:1278-1339). -/
def shiftST (junk : K) (V : Option (DM K)) (S T : Option (List (List K))) : Except Err (Option (DM K)) :=
  match V with
  | some M => .ok (some (DM.build M.n (fun i j =>
      if i = M.n - 1 then vdot (col S (M.n - 1)) (col T j)
      else if j ≤ i then M.at (i + 1) (j + 1)
      else junk)))
  | none => .error .nullDeref

/-- `RecalcY` (IpLimMemQuasiNewtonUpdater.cpp:1384-1396): Y = η T + Ypart; the caller passes `S` for `T` (line 862). -/
def recalcY (eta : K) (T Yp : Option (List (List K))) : Option (List (List K)) :=
  some (List.zipWith (fun t p => List.zipWith (fun a b => eta * a + b) t p) (T.getD []) (Yp.getD []))

/-- `RecalcD` (IpLimMemQuasiNewtonUpdater.cpp:1398-1411). -/
def recalcD (S Y : Option (List (List K))) : Option (List K) :=
  some ((List.range (S.getD []).length).map (fun i => vdot (col S i) (col Y i)))

/-- `RecalcL` (IpLimMemQuasiNewtonUpdater.cpp:1413-1435). -/
def recalcL (S Y : Option (List (List K))) : Option (DM K) :=
  some (DM.build (S.getD []).length (fun i j => if i ≤ j then 0 else vdot (col S i) (col Y j)))

/-- the new pair: s, y, and in the restoration phase the part of y without the objective and DR_x s. -/
structure Pair (K : Type) where
  s : List K
  y : List K
  yp : List K
  drs : List K
deriving DecidableEq

/-- restriction to the space of the approximation (`P_LM->TransMultVector(1., v, 0., v_new)`, IpLimMemQuasiNewtonUpdater.cpp:303-316). -/
def reduce (hom : List K → Option K) (P : Option (Mat K)) (v : List K) : List K :=
  match P with
  | some p => p.transMult hom 1 v 0 (List.replicate p.dims.2 0)
  | none => v

/-- y for the original problem (IpLimMemQuasiNewtonUpdater.cpp:293-299): `curr_jac_cT_times_curr_y_c` is Jcᵀ y_c. -/
def yFull (hom : List K → Option K) (l c : Call K) : List K :=
  let y0 := List.zipWith (fun a b => a - b) c.gradf l.gradf
  let z := List.replicate c.x.length 0
  let jc := c.Jc.transMult hom 1 c.yc 0 z
  let jd := c.Jd.transMult hom 1 c.yd 0 z
  let y1 := List.zipWith (fun a b => a + b) (List.zipWith (fun a b => a + b) jc jd) y0
  l.Jd.transMult hom (-1) c.yd 1 (l.Jc.transMult hom (-1) c.yc 1 y1)

/-- y without the objective in the restoration phase (IpLimMemQuasiNewtonUpdater.cpp:277-291). -/
def yRestoFull (hom : List K → Option K) (l c : Call K) : List K :=
  let z := List.replicate c.x.length 0
  let y0 := c.Jc.transMult hom 1 c.yc 0 z
  let y1 := c.Jd.transMult hom 1 c.yd 1 y0
  l.Jd.transMult hom (-1) c.yd 1 (l.Jc.transMult hom (-1) c.yc 1 y1)

/-- s and y of a call (IpLimMemQuasiNewtonUpdater.cpp:266-338, 818-819). -/
def newPair (cfg : Cfg K) (env : Env K) (l c : Call K) : Pair K :=
  let s := reduce env.hom cfg.P (List.zipWith (fun a b => a - b) c.x l.x)
  if cfg.resto then
    let yp := reduce env.hom cfg.P (yRestoFull env.hom l c)
    let dr := reduce env.hom cfg.P c.drx
    let y := List.zipWith (fun a b => a + b) (emul (s.map (fun a => c.eta * a)) dr) yp
    ⟨s, y, yp, emul s dr⟩
  else ⟨s, reduce env.hom cfg.P (yFull env.hom l c), [], []⟩

/-- `UpdateInternalData` (IpLimMemQuasiNewtonUpdater.cpp:769-871); the result tells whether the memory was augmented. -/
def updateInternal (cfg : Cfg K) (env : Env K) (eta : K) (p : Pair K) (d : Data K) : Except Err (Data K × Bool) :=
  if cfg.maxHist = 0 then .ok (d, false)
  else if d.mem < cfg.maxHist then
    let d1 := { d with mem := d.mem + 1, S := augMV d.S p.s }
    if !cfg.resto then
      let Y := augMV d.Y p.y
      .ok ({ d1 with Y := Y, D := augVec d.D (vdot p.s p.y), L := augL d.L d1.S Y, SdotS := augST env.junk d.SdotS d1.S d1.S,
                     uptodate := true }, true)
    else
      let Yp := augMV d.Ypart p.yp
      let DRS := augMV d.DRS p.drs
      let d2 := if cfg.special then
          { d1 with DRS := DRS, Ypart := Yp, STDRS := augST env.junk d.STDRS d1.S DRS }
        else { d1 with Ypart := Yp, SdotS := augST env.junk d.SdotS d1.S d1.S, uptodate := true }
      let Y := recalcY eta d2.S d2.Ypart
      .ok ({ d2 with Y := Y, D := recalcD d2.S Y, L := recalcL d2.S Y }, true)
  else do
    let S ← shiftMV d.S p.s
    if !cfg.resto then
      let Y ← shiftMV d.Y p.y
      let D ← shiftVec d.D (vdot p.s p.y)
      let L ← shiftL d.L S Y
      let SS ← shiftST env.junk d.SdotS S S
      .ok ({ d with S := S, Y := Y, D := D, L := L, SdotS := SS }, false)
    else if cfg.special then
      let DRS ← shiftMV d.DRS p.drs
      let Yp ← shiftMV d.Ypart p.yp
      let ST ← shiftST env.junk d.STDRS S DRS
      let Y := recalcY eta S Yp
      .ok ({ d with S := S, DRS := DRS, Ypart := Yp, STDRS := ST, Y := Y, D := recalcD S Y, L := recalcL S Y }, false)
    else
      let Yp ← shiftMV d.Ypart p.yp
      let SS ← shiftST env.junk d.SdotS S S
      let Y := recalcY eta S Yp
      .ok ({ d with S := S, Ypart := Yp, SdotS := SS, Y := Y, D := recalcD S Y, L := recalcL S Y }, false)

/-- `Vector::Amax`. -/
def amax (v : List K) : K := v.foldl (fun m a => max m (if a < 0 then -a else a)) 0

/-- `Vector::Nrm2`. -/
def nrm2 (env : Env K) (v : List K) : K := env.sqrt (vdot v v)

/-- `CheckSkippingBFGS` (IpLimMemQuasiNewtonUpdater.cpp:975-1012). -/
def checkSkipping (env : Env K) (p : Pair K) : Bool :=
  decide (vdot p.s p.y ≤ env.curvTol * nrm2 env p.s * nrm2 env p.y)

/-- the formulas for σ (IpLimMemQuasiNewtonUpdater.cpp:404-423, 563-581). -/
def sigmaFormula (cfg : Cfg K) (env : Env K) (sTy : K) (p : Pair K) : K :=
  let s2 := nrm2 env p.s * nrm2 env p.s
  let y2 := nrm2 env p.y * nrm2 env p.y
  match cfg.init with
  | .scalar1 => sTy / s2
  | .scalar2 => y2 / sTy
  | .scalar3 => (sTy / s2 + y2 / sTy) / 2
  | .scalar4 => env.sqrt (sTy / s2 * y2 / sTy)
  | .constant => cfg.initVal

/-- projection into the safeguards (IpLimMemQuasiNewtonUpdater.cpp:426-432). -/
def safeguard (cfg : Cfg K) (σ : K) : K :=
  if σ < cfg.sigMin ∨ σ > cfg.sigMax then max (min cfg.sigMax σ) cfg.sigMin else σ

/-- `DenseSymMatrix::AddMatrix` on the lower triangle (IpDenseSymMatrix.cpp:74-120): nothing happens for alpha = 0. -/
def addMat (α : K) (A : DM K) (β : K) (M : DM K) : DM K :=
  if α = 0 then M
  else DM.build M.n (fun i j =>
    if j ≤ i then (if β = 0 then α * A.at i j else α * A.at i j + β * M.at i j) else M.at i j)

/-- `DenseSymMatrix::HighRankUpdate(false, 1., V, 0.)` (IpDenseSymMatrix.cpp:157-182, BLAS `syrk` on the lower triangle): V Vᵀ. -/
def syrk (junk : K) (V : DM K) : DM K :=
  DM.build V.n (fun i j => if j ≤ i then sumTo V.n (fun k => V.at i k * V.at j k) else junk)

/-- `DenseGenMatrix::ScaleColumns` (IpDenseGenMatrix.cpp:40-55). -/
def scaleCols (V : DM K) (d : List K) : DM K := DM.build V.n (fun i j => d.getD j 0 * V.at i j)

/-- `DenseGenMatrix::AddMatrixProduct(1., A, true, B, false, 0.)` (IpDenseGenMatrix.cpp:86-115): Aᵀ B. -/
def mulT (A B : DM K) : DM K := DM.build A.n (fun i j => sumTo A.n (fun k => A.at k i * B.at k j))

/-- the columns of a dense matrix. -/
def DM.cols (M : DM K) : List (List K) := (List.range M.n).map (fun j => (List.range M.n).map (fun i => M.at i j))

/-- `MultiVectorMatrix::AddRightMultMatrix(a, U, C, 0.)` (IpMultiVectorMatrix.cpp:239-274) for C given by its columns; `n` = number of
rows of the result. -/
def rightMult0 (hom : List K → Option K) (n : Nat) (a : K) (U : List (List K)) (C : List (List K)) : List (List K) :=
  C.map (fun c => mvMult hom U a c 0 (List.replicate n 0))

/-- `MultiVectorMatrix::AddRightMultMatrix(a, U, C, 1.)` added to `T`. -/
def rightMult1 (hom : List K → Option K) (a : K) (U : List (List K)) (C T : List (List K)) : List (List K) :=
  List.zipWith (fun c t => mvMult hom U a c 1 t) C T

/-- M = L̃ L̃ᵀ + Sᵀ B_0 S (IpLimMemQuasiNewtonUpdater.cpp:464-488). -/
def bfgsM (cfg : Cfg K) (env : Env K) (eta : K) (d : Data K) (Lt : DM K) : Except Err (DM K) :=
  if cfg.regular then
    match d.SdotS with
    | some A => .ok (addMat d.sigma A 1 (syrk env.junk Lt))
    | none => .error .nullDeref
  else
    match d.STDRS with
    | some A => .ok (addMat eta A 1 (syrk env.junk Lt))
    | none => .error .nullDeref

/-- L̃ = L D^{-1/2} (IpLimMemQuasiNewtonUpdater.cpp:452-463). -/
def ltilde (env : Env K) (D : List K) (L : DM K) : DM K := scaleCols L (D.map (fun v => 1 / env.sqrt v))

/-- U = B_0 S C + V L̃ᵀ C (IpLimMemQuasiNewtonUpdater.cpp:503-528). -/
def bfgsU (cfg : Cfg K) (env : Env K) (eta : K) (n : Nat) (d : Data K) (V : List (List K)) (Lt C : DM K) : Except Err (List (List K)) :=
  match d.S with
  | none => .error .nullDeref
  | some S =>
    if cfg.regular then .ok (rightMult1 env.hom 1 V (mulT Lt C).cols (rightMult0 env.hom n d.sigma S C.cols))
    else
      match d.DRS with
      | some DRS => .ok (rightMult1 env.hom 1 V (mulT Lt C).cols (rightMult0 env.hom n eta DRS C.cols))
      | none => .error .nullDeref

/-- σ of a BFGS update (IpLimMemQuasiNewtonUpdater.cpp:399-433). -/
def bfgsSigma (cfg : Cfg K) (env : Env K) (p : Pair K) (d : Data K) : Data K :=
  if cfg.regular then { d with sigma := safeguard cfg (sigmaFormula cfg env (vdot p.s p.y) p) } else d

/-- the matrices of a BFGS update after σ is known (IpLimMemQuasiNewtonUpdater.cpp:440-529). -/
def bfgsMatrices (cfg : Cfg K) (env : Env K) (eta : K) (p : Pair K) (aug : Bool) (d : Data K) : Except Err (Data K × Kind) := do
  let v := p.y.map (fun a => 1 / env.sqrt (vdot p.s p.y) * a)
  let V ← extendMV aug d.V v
  let d1 := { d with V := V }
  match d1.D, d1.L with
  | some D, some L =>
    let Lt := ltilde env D L
    let M ← bfgsM cfg env eta d1 Lt
    match env.chol M with
    | none => .ok (d1, .chol)
    | some J =>
      let C := env.back J
      let U ← bfgsU cfg env eta p.s.length d1 (V.getD []) Lt C
      .ok ({ d1 with U := some U }, .accept false)
  | _, _ => .error .nullDeref

/-- in the restoration phase: `D_->Min() <= 0.` (IpLimMemQuasiNewtonUpdater.cpp:385-396). -/
def dminBad (resto : Bool) (D : Option (List K)) : Except Err Bool :=
  if resto then
    match D with
    | some l => .ok (l.any (fun v => decide (v ≤ 0)))
    | none => .error .nullDeref
  else .ok false

/-- the BFGS part of `UpdateHessian` after the curvature test (IpLimMemQuasiNewtonUpdater.cpp:368-529); data, backup, kind. -/
def bfgsStep (cfg : Cfg K) (env : Env K) (eta : K) (p : Pair K) (d backup : Data K) : Except Err (Data K × Data K × Kind) := do
  let backup1 := if cfg.resto then d else backup
  let (d1, aug) ← updateInternal cfg env eta p d
  let bad ← dminBad cfg.resto d1.D
  if bad then .ok (backup1, backup1, .eta)
  else
    let d2 := bfgsSigma cfg env p d1
    if cfg.maxHist = 0 then .ok (d2, backup1, .accept false)
    else
      let (d3, k) ← bfgsMatrices cfg env eta p aug d2
      .ok (d3, backup1, k)

/-- σ of an SR1 update (IpLimMemQuasiNewtonUpdater.cpp:545-590). -/
def sr1Sigma (cfg : Cfg K) (env : Env K) (p : Pair K) (d : Data K) : Data K :=
  if cfg.regular then
    if d.mem = 1 then { d with sigma := cfg.initVal }
    else
      let sTy := vdot p.s p.y
      { d with sigma := sigmaFormula cfg env (max env.minSty (if sTy < 0 then -sTy else sTy)) p }
  else d

/-- `DenseSymMatrix::SpecialAddForLMSR1` (IpDenseSymMatrix.cpp:184-213). -/
def specialAdd (D : List K) (L Z : DM K) : DM K :=
  DM.build Z.n (fun i j => if j < i then Z.at i j + L.at i j else if i = j then Z.at i j + D.getD i 0 else Z.at i j)

/-- Z = D + L + Lᵀ − Sᵀ B_0 S (IpLimMemQuasiNewtonUpdater.cpp:598-618). -/
def sr1Z (cfg : Cfg K) (env : Env K) (eta : K) (d : Data K) (D : List K) (L : DM K) : Except Err (DM K) :=
  if cfg.regular then
    match d.SdotS with
    | some A => .ok (specialAdd D L (addMat (-d.sigma) A 0 (DM.build A.n (fun _ _ => env.junk))))
    | none => .error .nullDeref
  else
    match d.STDRS with
    | some A => .ok (specialAdd D L (addMat (-eta) A 0 (DM.build A.n (fun _ _ => env.junk))))
    | none => .error .nullDeref

/-- `std::abs`. -/
def nabs (a : K) : K := if a < 0 then -a else a

/-- the columns `lo .. hi-1` of `Q`, each divided by the square root of `f` of its eigenvalue. -/
def scaledCols (env : Env K) (f : K → K) (Q : DM K) (E : List K) (lo hi : Nat) : List (List K) :=
  (List.range (hi - lo)).map (fun j => (List.range Q.n).map (fun i => Q.at i (lo + j) / env.sqrt (f (E.getD (lo + j) 0))))

/-- `SplitEigenvalues` (IpLimMemQuasiNewtonUpdater.cpp:873-973): `none` = skip, else the (scaled) columns of Qminus and Qplus.
Simplified: in the special cases the columns are multiplied with the reciprocal instead of divided. -/
def splitEig (env : Env K) (Q : DM K) (E : List K) : Option (Option (List (List K)) × Option (List (List K))) :=
  let dim := E.length
  let nneg := (E.filter (fun e => decide (e < 0))).length
  let emax := max (nabs (E.getD 0 0)) (nabs (E.getD (dim - 1) 0))
  if emax = 0 then none
  else
    let emin := if nneg = 0 then E.getD 0 0
      else if nneg = dim then -E.getD (dim - 1) 0
      else min (-E.getD (nneg - 1) 0) (E.getD nneg 0)
    if emin / emax < env.eigTol then none
    else if nneg = 0 then some (none, some (scaledCols env (fun e => e) Q E 0 dim))
    else if nneg = dim then some (some (scaledCols env (fun e => -e) Q E 0 dim), none)
    else some (some (scaledCols env (fun e => -e) Q E 0 nneg), some (scaledCols env (fun e => e) Q E nneg dim))

/-- Ṽ = Y − B_0 S (IpLimMemQuasiNewtonUpdater.cpp:637-648). -/
def sr1Vt (cfg : Cfg K) (eta : K) (d : Data K) : Except Err (List (List K)) :=
  match d.Y, (if cfg.regular then d.S else d.DRS) with
  | some Y, some T =>
    .ok (List.zipWith (fun y t => List.zipWith (fun a b => a - (if cfg.regular then d.sigma else eta) * b) y t) Y T)
  | _, _ => .error .nullDeref

/-- the matrices of an SR1 update (IpLimMemQuasiNewtonUpdater.cpp:598-681); `none`: skip. -/
def sr1Matrices (cfg : Cfg K) (env : Env K) (eta : K) (p : Pair K) (d : Data K) : Except Err (Option (Data K)) :=
  match d.D, d.L with
  | some D, some L => do
    let Z ← sr1Z cfg env eta d D L
    match env.eig Z with
    | none => .error .internalAbort
    | some (Q, E) =>
      match splitEig env Q E with
      | none => .ok none
      | some (Qm, Qp) =>
        let Vt ← sr1Vt cfg eta d
        .ok (some { d with
          U := Qm.map (fun q => rightMult0 env.hom p.s.length 1 Vt q)
          V := Qp.map (fun q => rightMult0 env.hom p.s.length 1 Vt q) })
  | _, _ => .error .nullDeref

/-- the SR1 part of `UpdateHessian` (IpLimMemQuasiNewtonUpdater.cpp:530-683). -/
def sr1Step (cfg : Cfg K) (env : Env K) (eta regu : K) (p : Pair K) (d backup : Data K) : Except Err (Data K × Data K × Kind) := do
  let undo := decide (regu > 0)
  let d0 := if undo then backup else d
  let (d1, _) ← updateInternal cfg env eta p d0
  let d2 := sr1Sigma cfg env p d1
  if cfg.maxHist = 0 then .ok (d2, d0, .accept undo)
  else
    match ← sr1Matrices cfg env eta p d2 with
    | none => .ok (d0, d0, .eig undo)
    | some d3 => .ok (d3, d0, .accept undo)

/-- `SetW` (IpLimMemQuasiNewtonUpdater.cpp:1341-1382). -/
def setW (cfg : Cfg K) (c : Call K) (d : Data K) : Mat K :=
  match cfg.P with
  | none => .lowRank (if cfg.regular then List.replicate c.x.length d.sigma else c.drx.map (fun a => c.eta * a)) d.V d.U
  | some P =>
    .lowRankP (!cfg.resto) (if cfg.regular then List.replicate P.dims.2 d.sigma else c.drx.map (fun a => c.eta * a)) d.V d.U P

/-- clearing the history (IpLimMemQuasiNewtonUpdater.cpp:233-262); the backup is not touched. -/
def clear (cfg : Cfg K) : Data K :=
  ⟨0, none, none, none, none, none, none, false, none, none, (if cfg.regular then cfg.initVal else -1), none, none⟩

/-- the counter and W after an update attempt (IpLimMemQuasiNewtonUpdater.cpp:686-716). -/
def finish (cfg : Cfg K) (st : St K) (c : Call K) (d backup : Data K) (k : Kind) : St K :=
  match k with
  | .accept undo => ⟨d, backup, some c, if undo then st.skipped + 1 else 0, some (setW cfg c d)⟩
  | _ => ⟨d, backup, some c, st.skipped + 1, st.W⟩

/-- `UpdateHessian` (IpLimMemQuasiNewtonUpdater.cpp:143-724). -/
def step (cfg : Cfg K) (env : Env K) (st : St K) (c : Call K) : Except Err (St K × Kind) :=
  match st.last with
  | none => .ok (⟨clear cfg, st.backup, some c, 0, some (setW cfg c (clear cfg))⟩, .start)
  | some l =>
    if st.skipped ≥ cfg.maxSkip then .ok (⟨clear cfg, st.backup, some c, 0, some (setW cfg c (clear cfg))⟩, .reset)
    else
      let p := newPair cfg env l c
      if amax p.s < env.tinyTol then .ok (finish cfg st c st.data st.backup .tiny, .tiny)
      else if cfg.sr1 then
        match sr1Step cfg env c.eta c.regu p st.data st.backup with
        | .error e => .error e
        | .ok (d, b, k) => .ok (finish cfg st c d b k, k)
      else if checkSkipping env p then .ok (finish cfg st c st.data st.backup .curv, .curv)
      else
        match bfgsStep cfg env c.eta p st.data st.backup with
        | .error e => .error e
        | .ok (d, b, k) => .ok (finish cfg st c d b k, k)

/-- a run: the kinds of all calls and the final state. -/
def run (cfg : Cfg K) (env : Env K) (st : St K) : List (Call K) → Except Err (St K × List Kind)
  | [] => .ok (st, [])
  | c :: cs =>
    match step cfg env st c with
    | .error e => .error e
    | .ok (st1, k) =>
      match run cfg env st1 cs with
      | .error e => .error e
      | .ok (st2, ks) => .ok (st2, k :: ks)

end
end Verif.QuasiNewton
