import Mathlib.Algebra.Order.Field.Basic

/-! # Model of sIPOPT: sensitivity step, bound check, reduced Hessian

`/repo/contrib/sIPOPT/src`: SensIndexSchurData.cpp, SensIndexPCalculator.cpp, SensDenseGenSchurDriver.cpp, SensStdStepCalc.cpp, SensAlgorithm.cpp,
SensMetadataMeasurement.cpp, SensReducedHessianCalculator.cpp, SensBuilder.cpp.
An `IteratesVector` is the list of its eight blocks.  The backsolver (SensSimpleBacksolver.cpp, `PDFullSpaceSolver::Solve(1, 0, …)`) and the LU
factorization with backsolve of LAPACK are functions that may answer anything.  Exact arithmetic; vectors are not stored homogeneously;
printing, and the unscaling of the results (`UnScaleIteratesVector`) are left out.  New memory contains `junk`. -/

namespace Verif.Sens

abbrev Blocks (K : Type) := List (List K)

/-- backsolver (result: return value and left-hand side) and `dgetrf`/`dgetrs` (`n`, matrix stored by columns, right-hand side). -/
structure Env (K : Type) where
  solve : Blocks K → Bool × Blocks K
  lu : Nat → (Nat → K) → List K → List K
  junk : K

/-- `IndexSchurData`: `idx_`, `val_`. -/
structure Data where
  idx : List Nat
  val : List Int
deriving DecidableEq

/-- a new `IndexSchurData`. -/
def Data.empty : Data := ⟨[], []⟩

section
variable {K : Type}

/-- `GetVectorLengths` (SensIndexSchurData.cpp:295-313): `v_lens[i]` is the end of block `i`; `s`: sum so far. -/
def lengths : Nat → Blocks K → List Nat
  | _, [] => []
  | s, b :: v => (s + b.length) :: lengths (s + b.length) v

/-- `while( !(col < v_lens[vec_idx]) ) vec_idx++` (SensIndexSchurData.cpp:190-194, 236-239). -/
def findBlock (col : Nat) : List Nat → Nat
  | [] => 0
  | l :: ls => if col < l then 0 else findBlock col ls + 1

/-- block and position in it that belong to the column `col` (SensIndexSchurData.cpp:196, 244). -/
def place (v : Blocks K) (col : Nat) : Nat × Nat :=
  let k := findBlock col (lengths 0 v)
  (k, col + (v.getD k []).length - (lengths 0 v).getD k 0)

/-- the value of column `col` in `Multiply` (SensIndexSchurData.cpp:241-249). -/
def read [Zero K] (v : Blocks K) (col : Nat) : K := (v.getD (place v col).1 []).getD (place v col).2 0

/-- blocks of a flat array (SensIndexSchurData.cpp:282-291). -/
def split : List Nat → List K → Blocks K
  | [], _ => []
  | n :: ns, l => l.take n :: split ns (l.drop n)

/-- `v.Axpy(a, w)` (block by block). -/
def axpy [Add K] [Mul K] (a : K) (w v : Blocks K) : Blocks K := List.zipWith (List.zipWith fun y x => y + a * x) v w

/-- `v.Scal(a)`. -/
def scal [Mul K] (a : K) (v : Blocks K) : Blocks K := v.map (List.map fun y => a * y)
end

section
variable {K : Type} [Field K]

/-- `SetData_List` with positive `v` (SensIndexSchurData.cpp:144-163). -/
def Data.ofList (l : List Nat) : Data := ⟨l, List.replicate l.length 1⟩

/-- `GetRow` (SensIndexSchurData.cpp:165-199); `v`: a vector of the right shape. -/
def Data.getRow (A : Data) (row : Nat) (v : Blocks K) : Blocks K :=
  let z := v.map (List.map fun _ => (0 : K))
  let p := place z (A.idx.getD row 0)
  z.set p.1 ((z.getD p.1 []).set p.2 ((A.val.getD row 0 : Int) : K))

/-- `Multiply` (SensIndexSchurData.cpp:217-254) into a vector of dimension `n`. -/
def Data.multiply (A : Data) (n : Nat) (v : Blocks K) : List K :=
  (List.range A.idx.length).foldl (fun u i => u.set i (u.getD i 0 + (A.val.getD i 0 : Int) * read v (A.idx.getD i 0))) (List.replicate n 0)

/-- `TransMultiply` (SensIndexSchurData.cpp:256-295) into a vector with the given dimensions. -/
def Data.transMultiply (A : Data) (dims : List Nat) (u : List K) : Blocks K :=
  split dims ((List.range A.idx.length).foldl (fun w i => w.set (A.idx.getD i 0) (w.getD (A.idx.getD i 0) 0 + (A.val.getD i 0 : Int) * u.getD i 0))
    (List.replicate dims.sum 0))

/-- one pass of the loop of `AddData_List` with `v = 1`: the data, `delta_u_sort` and `new_du_size`. -/
def Data.addOne (r : Data × List Nat × Nat) (c : Nat) : Data × List Nat × Nat :=
  if c ∈ r.1.idx then
    (⟨r.1.idx, r.1.val.set (r.1.idx.idxOf c) 1⟩, r.2.1 ++ [r.1.idx.idxOf c], r.2.2)
  else (⟨r.1.idx ++ [c], r.1.val ++ [1]⟩, r.2.1 ++ [r.2.2], r.2.2 + 1)

/-- `AddData_List` with `v = 1` (SensIndexSchurData.cpp:383-421); `sort`: contents of `delta_u_sort` before. -/
def Data.add (A : Data) (cols sort : List Nat) : Data × List Nat × Nat := cols.foldl Data.addOne (A, sort, A.idx.length)

/-- `IndexPCalculator`: `data_A_`, `data_A_init`, `cols_`, `ncols_`. -/
structure PC (K : Type) where
  A : Data
  A0 : Data
  cols : Nat → Option (List K)
  ncols : Nat

/-- the constructor (SensIndexPCalculator.cpp:20-28, SensPCalculator.hpp:32-39). -/
def PC.new (A : Data) : PC K := ⟨A, A, fun _ => none, A.idx.length⟩

/-- loop of `ComputeP` (SensIndexPCalculator.cpp:69-101), rows `row, …`; `dims`: dimensions of the blocks. -/
def PC.computeFrom (E : Env K) (dims : List Nat) : List Nat → Nat → PC K → PC K
  | [], _, p => p
  | c :: cs, row, p =>
    match p.cols c with
    | some _ => computeFrom E dims cs (row + 1) p
    | none =>
      let w := (E.solve (p.A.getRow row (split dims (List.replicate dims.sum E.junk)))).2
      computeFrom E dims cs (row + 1) { p with cols := fun j => if j = c then some w.flatten else p.cols j }

/-- `ComputeP` (SensIndexPCalculator.cpp:51-104). -/
def PC.compute (E : Env K) (dims : List Nat) (p : PC K) : PC K := p.computeFrom E dims p.A.idx 0

/-- "check whether data_A was changed from the outside" (SensIndexPCalculator.cpp:152-156). -/
def PC.refresh (E : Env K) (dims : List Nat) (p : PC K) : PC K :=
  if p.ncols ≠ p.A.idx.length then ({ p with ncols := p.A.idx.length }).compute E dims else p

/-- `PColumn::GetSchurMatrixRows` into the array `S` from position `off` (SensIndexPCalculator.cpp:217-228). -/
def writeCol (col : List K) (rows : List Nat) (off : Nat) (S : Nat → K) : Nat → K :=
  fun k => if off ≤ k ∧ k < off + rows.length then -col.getD (rows.getD (k - off) 0) 0 else S k

/-- loop over the columns (SensIndexPCalculator.cpp:165-171).  `none`: a null pointer is dereferenced. -/
def PC.matrixFrom (p : PC K) (rows : List Nat) : List Nat → Nat → (Nat → K) → Option (Nat → K)
  | [], _, S => some S
  | a :: as, c, S =>
    match p.cols a with
    | none => none
    | some col => matrixFrom p rows as (c + 1) (writeCol col rows (c * p.ncols) S)

/-- `GetSchurMatrix` (SensIndexPCalculator.cpp:106-174). -/
def PC.schurMatrix (E : Env K) (dims : List Nat) (B : Data) (p : PC K) : Option (Nat → K) × PC K :=
  let q := p.refresh E dims
  (q.matrixFrom B.idx q.A.idx 0 (fun _ => E.junk), q)

/-- `DenseGenSchurDriver`: `data_B_`, `S_` with its dimension. -/
structure Drv (K : Type) where
  B : Data
  S : Option (Nat × (Nat → K))

/-- the constructor; the argument `data_B` is not used (SensDenseGenSchurDriver.cpp:17-26). -/
def Drv.new : Drv K := ⟨.empty, none⟩

/-- `SchurBuild` with `SchurFactorize` (SensDenseGenSchurDriver.cpp:33-68); the factorization is done in `Env.lu`.  `none`: undefined. -/
def Drv.build (E : Env K) (dims : List Nat) (d : Drv K) (p : PC K) : Option (Drv K) × PC K :=
  if 0 < d.B.idx.length then
    let r := p.schurMatrix E dims d.B
    (r.1.map fun S => { d with S := some (d.B.idx.length, S) }, r.2)
  else (some d, p)

/-- `SchurSolve` (SensDenseGenSchurDriver.cpp:71-104).  `none`: `S_` is NULL. -/
def Drv.solve (E : Env K) (dims : List Nat) (A : Data) (d : Drv K) (rhs : Blocks K) (du : List K) (Krs : Blocks K) : Option (Bool × Blocks K) :=
  match d.S with
  | none => none
  | some (n, S) =>
    let r := List.zipWith (fun a b => a + 1 * b) ((d.B.multiply du.length Krs).map fun y => -1 * y) du
    let nu := E.lu n S r
    some (E.solve (scal (-1) (axpy (-1) rhs (A.transMultiply dims nu))))
end

section
variable {K : Type} [Field K] [LinearOrder K]

/-- the solution of the original problem and options: dimensions of the blocks; positions and values of bounds; `curr` (`trial` is a copy of it,
SensBuilder.cpp:46-48); the residuals `r_s` (SensStdStepCalc.cpp:62-69); `sens_bound_eps`, `sens_kkt_residuals`, `sens_boundcheck`. -/
structure Prob (K : Type) where
  dims : List Nat
  pL : List Nat
  pU : List Nat
  xL : List K
  xU : List K
  curr : Blocks K
  resid : Blocks K
  eps : K
  kkt : Bool
  check : Bool

/-- the entry of an expanded vector: `Px->MultVector(1., comp, 0., exp)` with `comp = P^T x - bound` (SensStdStepCalc.cpp:187-212). -/
def gap (pos : List Nat) (bound : List K) (x : List K) (i : Nat) : K :=
  match (pos.zip bound).lookup i with
  | some b => x.getD i 0 - b
  | none => 0

/-- violated bounds of component `i` of `x` (SensStdStepCalc.cpp:214-227). -/
def Prob.violX (P : Prob K) (sol : Blocks K) (i : Nat) : Option (Nat × K) :=
  let x := sol.getD 0 []
  let x0 := (P.curr.getD 0 []).getD i 0
  if gap P.pL P.xL x i < -P.eps then some (i, -gap P.pL P.xL x i + x.getD i 0 - x0)
  else if -gap P.pU P.xU x i < -P.eps then some (i, -gap P.pU P.xU x i + x.getD i 0 - x0)
  else none

/-- negative multipliers in block `k` (SensStdStepCalc.cpp:242-270). -/
def Prob.violZ (P : Prob K) (sol : Blocks K) (k i : Nat) : Option (Nat × K) :=
  if (sol.getD k []).getD i 0 < -P.eps then some (i + (P.dims.take k).sum, -(P.curr.getD k []).getD i 0) else none

/-- `BoundCheck` (SensStdStepCalc.cpp:166-282). -/
def Prob.boundCheck (P : Prob K) (sol : Blocks K) : List (Nat × K) :=
  (List.range (P.dims.getD 0 0)).filterMap (P.violX sol) ++ (List.range (P.dims.getD 4 0)).filterMap (P.violZ sol 4) ++
    (List.range (P.dims.getD 5 0)).filterMap (P.violZ sol 5)

/-- `new_delta_u` (SensStdStepCalc.cpp:131-141). -/
def newDu (E : Env K) (n : Nat) (old : List K) (sort : List Nat) (du : List K) : List K :=
  (List.range du.length).foldl (fun w i => w.set (sort.getD i 0) (du.getD i 0)) ((old ++ List.replicate (n - old.length) E.junk).take n)

/-- outcome of a computation: still running, undefined behaviour, return value. -/
inductive End where
  | running
  | undef
  | ret (b : Bool)
deriving DecidableEq

/-- what a step changes: the shared P calculator, the driver, the result vector, the copy `SensitivityVector`, `old_delta_u`. -/
structure St (K : Type) where
  pc : PC K
  drv : Drv K
  sol : Blocks K
  sens : Blocks K
  old : List K

/-- one pass of the loop of `Step` (SensStdStepCalc.cpp:112-158).  `none`: undefined. -/
def Prob.pass (P : Prob K) (E : Env K) (rhs Krs : Blocks K) (st : St K) : Option (Bool × St K) :=
  let viol := P.boundCheck st.sol
  let a := st.pc.A.add (viol.map Prod.fst) []
  let b := st.drv.B.add (viol.map Prod.fst) a.2.1
  let r := ({ st.drv with B := b.1 } : Drv K).build E P.dims { st.pc with A := a.1 }
  match r.1 with
  | none => none
  | some d =>
    let du := newDu E b.2.2 st.old b.2.1 (viol.map Prod.snd)
    match d.solve E P.dims r.2.A rhs du Krs with
    | none => none
    | some s => some (s.1, { pc := r.2, drv := d, sol := axpy 1 P.curr s.2, sens := s.2, old := du })

/-- the loop (SensStdStepCalc.cpp:111-159). -/
def Prob.loop (P : Prob K) (E : Env K) (rhs Krs : Blocks K) : Nat → Bool → St K → End × St K
  | 0, _, st => (.running, st)
  | fuel + 1, rv, st =>
    if P.boundCheck st.sol = [] then (.ret rv, st)
    else
      match P.pass E rhs Krs st with
      | none => (.undef, st)
      | some (rv', st') => loop P E rhs Krs fuel rv' st'

/-- the right-hand side (SensStdStepCalc.cpp:56-80). -/
def Prob.rhs (P : Prob K) (E0 : Data) (du : List K) : Blocks K :=
  if P.kkt then axpy (-1) P.resid (E0.transMultiply P.dims du) else E0.transMultiply P.dims du

/-- `SetSchurDriver` (SensStepCalc.hpp:46-58) and `Step` (SensStdStepCalc.cpp:48-164). -/
def Prob.step (P : Prob K) (E : Env K) (fuel : Nat) (E0 : Data) (du : List K) (pc : PC K) (drv : Drv K) : End × St K :=
  let rhs := P.rhs E0 du
  let d := (E.solve rhs).2
  let st : St K := { pc := { pc with A := pc.A0 }, drv := drv, sol := axpy 1 P.curr d, sens := d, old := [] }
  if P.check then P.loop E rhs d fuel true st else (.ret true, st)

/-- `GetInitialEqConstraints` (SensMetadataMeasurement.cpp:63-83): `base` = number of variables and slacks. -/
def initialConstraints (base : Nat) (labels : List Nat) : List Nat :=
  (List.range labels.length).filterMap fun i => if labels.getD i 0 ≠ 0 then some (base + i) else none

/-- `AsIndexMax` (SensUtils.cpp:12-30). -/
def indexMax : List Nat → Nat
  | [] => 0
  | a :: l => l.foldl max a

/-- `GetMeasurement` (SensMetadataMeasurement.cpp:85-124); `n`: `n_idx_`. -/
def measurement (E : Env K) (n : Nat) (labels : List Nat) (vals : List K) (x0 : List K) : List K :=
  (List.range vals.length).foldl (fun w i => if 0 < labels.getD i 0 then w.set (labels.getD i 0 - 1) (vals.getD i 0 - x0.getD i 0) else w)
    (List.replicate n E.junk)

/-- the loop of `SensAlgorithm::Run` (SensAlgorithm.cpp:139-195) over the measurements that remain and their drivers: for every step the
outcome and the state (`sol` is stored as `sens_sol_state_i`, `sens` as directional derivative); stops at undefined or endless behaviour. -/
def Prob.run (P : Prob K) (E : Env K) (fuel : Nat) (E0 : Data) : List (List K × Drv K) → PC K → List (End × St K)
  | [], _ => []
  | (du, d) :: l, pc =>
    let r := P.step E fuel E0 du pc d
    match r.1 with
    | .ret _ => r :: run P E fuel E0 l r.2.pc
    | _ => [r]

/-- `SensBuilder::BuildSensAlg` (SensBuilder.cpp:60-110) with `Run`: one new driver for every step, one P calculator for all. `labels`:
`sens_init_constr`; `states`: `sens_state_k` and `sens_state_value_k`. -/
def Prob.sens (P : Prob K) (E : Env K) (fuel : Nat) (labels : List Nat) (states : List (List Nat × List K)) : List (End × St K) :=
  P.run E fuel (.ofList (initialConstraints (P.dims.getD 0 0 + P.dims.getD 1 0) labels))
    (states.map fun s => (measurement E (indexMax (states.getD 0 ([], [])).1) s.1 s.2 (P.curr.getD 0 []), .new)) (.new .empty)

/-- right-hand side for column `i` in `ComputeSensitivityMatrix` (SensAlgorithm.cpp:233-258). -/
def dsdpDu (labels : List Nat) (i : Nat) (w : List K) : List K :=
  ((List.range labels.length).foldl (fun w j => if 0 < labels.getD j 0 then w.set (labels.getD j 0 - 1) 0 else w) w).set (labels.getD i 0 - 1) 1

/-- the loop of `ComputeSensitivityMatrix` (SensAlgorithm.cpp:180-273) from row `i` of the constraints, `n` rows left; `w`: `du_val`. -/
def Prob.dsdp (P : Prob K) (E : Env K) (fuel : Nat) (E0 : Data) (labels : List Nat) : Nat → Nat → List K → PC K → Drv K → List (End × Blocks K)
  | 0, _, _, _, _ => []
  | n + 1, i, w, pc, d =>
    if 0 < labels.getD i 0 then
      let w' := dsdpDu labels i w
      let r := P.step E fuel E0 w' pc d
      match r.1 with
      | .ret b => (.ret b, r.2.sens) :: dsdp P E fuel E0 labels n (i + 1) w' r.2.pc r.2.drv
      | e => [(e, r.2.sens)]
    else dsdp P E fuel E0 labels n (i + 1) w pc d

/-- `ComputeSensitivityMatrix` of an algorithm that has not run yet; `np_` is the number of labels (SensAlgorithm.cpp:125-132, 207-210). -/
def Prob.sensMatrix (P : Prob K) (E : Env K) (fuel : Nat) (labels : List Nat) : List (End × Blocks K) :=
  P.dsdp E fuel (.ofList (initialConstraints (P.dims.getD 0 0 + P.dims.getD 1 0) labels)) labels labels.length 0
    (List.replicate (labels.countP fun l => 0 < l) E.junk) (.new .empty) .new

/-- `SetData_Index` with positive `v`: the loop that fills `sortvec` (SensIndexSchurData.cpp:117-134).  Error: the index found twice. -/
def fillSort (index : List Nat) : Nat → Nat → (Nat → Option Nat) → Except Nat (Nat → Option Nat)
  | 0, _, s => .ok s
  | n + 1, i, s =>
    let k := index.getD i 0
    if 0 < k then
      match s (k - 1) with
      | some _ => .error k
      | none => fillSort index n (i + 1) (fun j => if j = k - 1 then some i else s j)
    else fillSort index n (i + 1) s

/-- `SetData_Index` (SensIndexSchurData.cpp:101-142): `none` stands for the entries -1 that remain for missing numbers. -/
def setIndex (index : List Nat) : Except Nat (List (Option Nat)) :=
  match fillSort index index.length 0 (fun _ => none) with
  | .error k => .error k
  | .ok s => .ok ((List.range (indexMax index)).map s)

/-- `BuildRedHessCalc` with `ComputeReducedHessian` (SensBuilder.cpp:115-162, SensReducedHessianCalculator.cpp:41-99): the matrix printed, stored by
columns; `base` is 0 (the suffix belongs to the variables).  Error: exception or undefined (a number missing). -/
def reducedHessian (E : Env K) (dims : List Nat) (objScal : K) (suffix : List Nat) : Option (Nat × (Nat → K)) :=
  match setIndex suffix with
  | .error _ => none
  | .ok l =>
    if l.all Option.isSome then
      let A := Data.ofList (l.map fun o => o.getD 0)
      let p := ((PC.new A : PC K).compute E dims)
      ((p.schurMatrix E dims A).1).map fun S => (A.idx.length, fun k => S k * -objScal)
    else none
end

end Verif.Sens
