import Mathlib.Data.List.Basic

/-! # Matrix types of src/LinAlg and their matrix-vector operations

A vector is the flat list of its elements; the blocks of a `CompoundVector` are consecutive segments (that `CompoundVector` behaves
like the concatenation of its blocks is C27).  The scalar type `N` only carries operations, no laws, so that a statement such as
"`beta = 0` never reads `y`" also covers IEEE arithmetic with NaN; the algebraic theorems instantiate `N` with a field.

`hom : List N → Option N` tells which vectors are stored in homogeneous form (`DenseVector::IsHomogeneous`, `Scalar`): the theorems
hold for every such function that is correct (`some s` only for a constant vector).

Simplified: null components that the code would dereference (`CompoundMatrixSpace::Diagonal()` with an unset block,
`CompoundSymMatrix` applied to a non-compound vector) are excluded by well-formedness; vectors of the wrong dimension are outside the
debug assertions of the code and not modelled. -/

namespace Verif.Matrix

section Ops
variable {N : Type} [Zero N] [One N] [Add N] [Sub N] [Mul N] [Neg N] [Div N] [BEq N]

/-- the `beta` part common to all products: `if( beta != 0.0 ) y.Scal(beta); else y.Set(0.0);`
(e.g. IpGenTMatrix.cpp:58-66, IpZeroMatrix.cpp:33-41, IpSumMatrix.cpp:66-74). -/
def betaPart (β : N) (y : List N) : List N :=
  if β == 0 then y.map (fun _ => 0) else y.map (fun v => β * v)

/-- `Vector::Axpy` (IpVector.hpp: y ← y + α x). -/
def axpy (α : N) (x y : List N) : List N := List.zipWith (fun yi xi => yi + α * xi) y x

/-- `Vector::AddOneVector` (IpVector.hpp:794, IpDenseVector.cpp:762-): y ← a v + c y; `c = 0` does not read `y`. -/
def addOne (a : N) (v : List N) (c : N) (y : List N) : List N :=
  if c == 0 then List.zipWith (fun _ vi => a * vi) y v
  else List.zipWith (fun yi vi => c * yi + a * vi) y v

/-- `Vector::AddVectorQuotient` (IpDenseVector.cpp:1391-): y ← a z/s + c y. -/
def addQuot (a : N) (z s : List N) (c : N) (y : List N) : List N :=
  if c == 0 then List.zipWith (fun zi si => a * zi / si) z s
  else List.zipWith (fun yi q => c * yi + q) y (List.zipWith (fun zi si => a * zi / si) z s)

/-- `Vector::ElementWiseMultiply` / `ElementWiseDivide`. -/
def emul (y x : List N) : List N := List.zipWith (fun a b => a * b) y x
@[inherit_doc emul] def ediv (y x : List N) : List N := List.zipWith (fun a b => a / b) y x

/-- `Vector::Dot`. -/
def vdot (a b : List N) : N := (List.zipWith (fun a b => a * b) a b).foldl (fun s v => s + v) 0

/-- `xvals[i]`. -/
def get (x : List N) (i : Nat) : N := x.getD i 0

/-- `yvals[i] += v`. -/
def addAt (y : List N) (i : Nat) (v : N) : List N := y.modify i (fun a => a + v)

/-- `yvals[i] -= v`. -/
def subAt (y : List N) (i : Nat) (v : N) : List N := y.modify i (fun a => a - v)

/-- one nonzero of a triplet matrix: 1-based row and column (`Irows()`, `Jcols()`) and value. -/
structure Trip (N : Type) where
  row : Nat
  col : Nat
  val : N

/-- `GenTMatrix::MultVectorImpl` (TMatrices/IpGenTMatrix.cpp:46-111). -/
def genTMult (hom : List N → Option N) (ts : List (Trip N)) (α : N) (x : List N) (β : N) (y : List N) : List N :=
  match hom x with
  | some s => ts.foldl (fun y t => addAt y (t.row - 1) (α * s * t.val)) (betaPart β y)
  | none => ts.foldl (fun y t => addAt y (t.row - 1) (α * t.val * get x (t.col - 1))) (betaPart β y)

/-- `GenTMatrix::TransMultVectorImpl` (TMatrices/IpGenTMatrix.cpp:113-178). -/
def genTTrans (hom : List N → Option N) (ts : List (Trip N)) (α : N) (x : List N) (β : N) (y : List N) : List N :=
  match hom x with
  | some s => ts.foldl (fun y t => addAt y (t.col - 1) (α * s * t.val)) (betaPart β y)
  | none => ts.foldl (fun y t => addAt y (t.col - 1) (α * t.val * get x (t.row - 1))) (betaPart β y)

/-- `SymTMatrix::MultVectorImpl` (TMatrices/IpSymTMatrix.cpp:46-113). -/
def symTMult (hom : List N → Option N) (ts : List (Trip N)) (α : N) (x : List N) (β : N) (y : List N) : List N :=
  match hom x with
  | some s => ts.foldl (fun y t =>
      let y1 := addAt y (t.row - 1) (α * s * t.val)
      if t.row ≠ t.col then addAt y1 (t.col - 1) (α * s * t.val) else y1) (betaPart β y)
  | none => ts.foldl (fun y t =>
      let y1 := addAt y (t.row - 1) (α * t.val * get x (t.col - 1))
      if t.row ≠ t.col then addAt y1 (t.col - 1) (α * t.val * get x (t.row - 1)) else y1) (betaPart β y)

/-- `ExpansionMatrix::MultVectorImpl` (IpExpansionMatrix.cpp:27-96); `pos` = `ExpandedPosIndices()`, 0-based. -/
def expMult (hom : List N → Option N) (pos : List Nat) (α : N) (x : List N) (β : N) (y : List N) : List N :=
  match hom x with
  | some s =>
    if α * s == 0 then betaPart β y
    else pos.foldl (fun y p => addAt y p (α * s)) (betaPart β y)
  | none =>
    if α == 1 then (pos.zipIdx).foldl (fun y p => addAt y p.1 (get x p.2)) (betaPart β y)
    else if α == -1 then (pos.zipIdx).foldl (fun y p => subAt y p.1 (get x p.2)) (betaPart β y)
    else (pos.zipIdx).foldl (fun y p => addAt y p.1 (α * get x p.2)) (betaPart β y)

/-- `ExpansionMatrix::TransMultVectorImpl` (IpExpansionMatrix.cpp:98-167). -/
def expTrans (hom : List N → Option N) (pos : List Nat) (α : N) (x : List N) (β : N) (y : List N) : List N :=
  match hom x with
  | some s =>
    if α * s == 0 then betaPart β y
    else (betaPart β y).map (fun v => v + α * s)
  | none =>
    if α == 1 then List.zipWith (fun v p => v + get x p) (betaPart β y) pos
    else if α == -1 then List.zipWith (fun v p => v - get x p) (betaPart β y) pos
    else List.zipWith (fun v p => v + α * get x p) (betaPart β y) pos

/-- `ExpansionMatrix::AddMSinvZImpl` (IpExpansionMatrix.cpp:170-239); a homogeneous `S` goes through the default implementation
`Matrix::AddMSinvZImpl` (IpMatrix.cpp:34-44). -/
def expAddMSinvZ (hom : List N → Option N) (pos : List Nat) (α : N) (S Z X : List N) : List N :=
  if (hom S).isSome then expMult hom pos α (addQuot 1 Z S 0 S) 1 X
  else
    match hom Z with
    | some z =>
      if α * z == 0 then X
      else (pos.zipIdx).foldl (fun X p => addAt X p.1 (α * z / get S p.2)) X
    | none =>
      if α == 1 then (pos.zipIdx).foldl (fun X p => addAt X p.1 (get Z p.2 / get S p.2)) X
      else if α == -1 then (pos.zipIdx).foldl (fun X p => subAt X p.1 (get Z p.2 / get S p.2)) X
      else (pos.zipIdx).foldl (fun X p => addAt X p.1 (α * get Z p.2 / get S p.2)) X

/-- `ExpansionMatrix::SinvBlrmZMTdBrImpl` (IpExpansionMatrix.cpp:241-370); homogeneous `S` or `D` goes through the default
implementation (IpMatrix.cpp:46-60). -/
def expSinv (hom : List N → Option N) (pos : List Nat) (α : N) (S R Z D X : List N) : List N :=
  if (hom S).isSome || (hom D).isSome then
    ediv (axpy 1 R (emul (expTrans hom pos α D 0 X) Z)) S
  else
    match hom R with
    | some r =>
      match hom Z with
      | some z =>
        if α * z == 0 then (pos.zipIdx).map (fun p => r / get S p.2)
        else (pos.zipIdx).map (fun p => (r + α * z * get D p.1) / get S p.2)
      | none =>
        if α == 1 then (pos.zipIdx).map (fun p => (r + get Z p.2 * get D p.1) / get S p.2)
        else if α == -1 then (pos.zipIdx).map (fun p => (r - get Z p.2 * get D p.1) / get S p.2)
        else (pos.zipIdx).map (fun p => (r + α * get Z p.2 * get D p.1) / get S p.2)
    | none =>
      match hom Z with
      | some z => (pos.zipIdx).map (fun p => (get R p.2 + α * z * get D p.1) / get S p.2)
      | none =>
        if α == 1 then (pos.zipIdx).map (fun p => (get R p.2 + get Z p.2 * get D p.1) / get S p.2)
        else if α == -1 then (pos.zipIdx).map (fun p => (get R p.2 - get Z p.2 * get D p.1) / get S p.2)
        else (pos.zipIdx).map (fun p => (get R p.2 + α * get Z p.2 * get D p.1) / get S p.2)

/-- BLAS `gemv` on column-major storage (called by IpDenseGenMatrix.cpp:330-372 with leading dimension `NRows()`), by its contract
y_i ← β y_i + α Σ_j A(i,j) x_j, `β = 0` not reading `y`.  BLAS itself is outside the repository; its quick return for an empty matrix
is excluded by requiring positive dimensions. -/
def gemv (trans : Bool) (r c : Nat) (vals : List N) (α : N) (x : List N) (β : N) (y : List N) : List N :=
  let y0 := betaPart β y
  if trans then
    (List.range c).map (fun j => get y0 j + α * vdot ((List.range r).map (fun i => get vals (i + j * r))) x)
  else
    (List.range r).map (fun i => get y0 i + α * vdot ((List.range c).map (fun j => get vals (i + j * r))) x)

/-- BLAS `symv` with the lower triangle of column-major storage (IpDenseSymMatrix.cpp:36-55), by its contract. -/
def symv (n : Nat) (vals : List N) (α : N) (x : List N) (β : N) (y : List N) : List N :=
  let y0 := betaPart β y
  (List.range n).map (fun i =>
    get y0 i + α * vdot ((List.range n).map (fun j => if j ≤ i then get vals (i + j * n) else get vals (j + i * n))) x)

/-- `MultiVectorMatrix::MultVectorImpl` (IpMultiVectorMatrix.cpp:51-93). -/
def mvMult (hom : List N → Option N) (vecs : List (List N)) (α : N) (x : List N) (β : N) (y : List N) : List N :=
  match hom x with
  | some s => vecs.foldl (fun y v => addOne (α * s) v 1 y) (betaPart β y)
  | none => (vecs.zipIdx).foldl (fun y p => addOne (α * get x p.2) p.1 1 y) (betaPart β y)

/-- `MultiVectorMatrix::TransMultVectorImpl` (IpMultiVectorMatrix.cpp:95-127). -/
def mvTrans (vecs : List (List N)) (α : N) (x : List N) (β : N) (y : List N) : List N :=
  if β == 0 then vecs.map (fun v => α * vdot v x)
  else List.zipWith (fun v yi => α * vdot v x + β * yi) vecs y

/-- `MultiVectorMatrix::LRMultVector` (IpMultiVectorMatrix.cpp:129-161): y ← β y + α V Vᵀ x. -/
def lrMult (vecs : List (List N)) (α : N) (x : List N) (β : N) (y : List N) : List N :=
  vecs.foldl (fun y v => addOne (α * vdot v x) v 1 y) (betaPart β y)

/-- `LRMultVector` on an optional matrix (`if( IsValid(V_) )`, IpLowRankUpdateSymMatrix.cpp:57-67). -/
def lrMultOpt (V : Option (List (List N))) (α : N) (x y : List N) : List N :=
  match V with
  | some vs => lrMult vs α x 1 y
  | none => y

/-- the positive update into a fresh vector of dimension `n` (IpLowRankUpdateSymMatrix.cpp:110-119). -/
def lrStart (V : Option (List (List N))) (x : List N) (n : Nat) : List N :=
  match V with
  | some vs => lrMult vs 1 x 0 (List.replicate n 0)
  | none => List.replicate n 0

/-- the vector the rows are multiplied with (IpExpandedMultiVectorMatrix.cpp:116-128). -/
def emvArg (hom : List N → Option N) (P : Option (List Nat)) (x : List N) : List N :=
  match P with
  | some pos => expTrans hom pos 1 x 0 (List.replicate pos.length 0)
  | none => x

/-- `ExpandedMultiVectorMatrix::MultVectorImpl` (IpExpandedMultiVectorMatrix.cpp:105-165): rows `vecs_` (possibly unset), with an
optional expansion matrix. -/
def emvMult (hom : List N → Option N) (vecs : List (Option (List N))) (P : Option (List Nat)) (α : N) (x : List N) (β : N)
    (y : List N) : List N :=
  if β == 0 then vecs.map (fun v => match v with
    | some v => α * vdot v (emvArg hom P x)
    | none => 0)
  else List.zipWith (fun v yi => match v with
    | some v => α * vdot v (emvArg hom P x) + β * yi
    | none => yi * β) vecs y

/-- one step of the loop (IpExpandedMultiVectorMatrix.cpp:81-84, 92-95): rows that are not set are skipped. -/
def addOptVec (a : N) (v : Option (List N)) (y : List N) : List N :=
  match v with
  | some v => addOne a v 1 y
  | none => y

/-- the accumulation loop of `ExpandedMultiVectorMatrix::TransMultVectorImpl` (IpExpandedMultiVectorMatrix.cpp:75-97). -/
def emvAcc (hom : List N → Option N) (vecs : List (Option (List N))) (α : N) (x : List N) (y : List N) : List N :=
  match hom x with
  | some s => vecs.foldl (fun y v => addOptVec (α * s) v y) y
  | none => (vecs.zipIdx).foldl (fun y p => addOptVec (α * get x p.2) p.1 y) y

/-- `ExpandedMultiVectorMatrix::TransMultVectorImpl` (IpExpandedMultiVectorMatrix.cpp:38-103). -/
def emvTrans (hom : List N → Option N) (vecs : List (Option (List N))) (P : Option (List Nat)) (α : N) (x : List N) (β : N)
    (y : List N) : List N :=
  match P with
  | some pos => expMult hom pos 1 (emvAcc hom vecs α x (List.replicate pos.length 0)) β y
  | none => emvAcc hom vecs α x (betaPart β y)

/-- an optional scaling vector applied elementwise (`if( IsValid(...) ) tmp->ElementWiseMultiply(...)`, IpScaledMatrix.cpp:40-51). -/
def optMul (s : Option (List N)) (x : List N) : List N :=
  match s with
  | some d => emul x d
  | none => x

/-- offset and extraction of block `j` of a compound vector with block dimensions `ds` (`CompoundVector::GetComp`). -/
def off (ds : List Nat) (j : Nat) : Nat := (ds.take j).sum
@[inherit_doc off] def blk (ds : List Nat) (j : Nat) (x : List N) : List N := (x.drop (off ds j)).take (ds.getD j 0)

end Ops

/-- the matrix classes; dimensions as in the corresponding `...Space` constructor.

`compound rd cd space set comp`: block dimensions (`block_rows_`, `block_cols_`), which block spaces are set (`comp_spaces_`), which
blocks are set (`comps_`/`const_comps_` non-null), and the blocks.  `compoundSym` uses blocks with `j ≤ i` only. -/
inductive Mat (N : Type) where
  /-- `ZeroMatrix` -/
  | zero (r c : Nat)
  /-- `ZeroSymMatrix` -/
  | zeroSym (n : Nat)
  /-- `IdentityMatrix` with `factor_` -/
  | ident (n : Nat) (factor : N)
  /-- `DiagMatrix` -/
  | diag (d : List N)
  /-- `GenTMatrix` -/
  | genT (r c : Nat) (ts : List (Trip N))
  /-- `SymTMatrix` -/
  | symT (n : Nat) (ts : List (Trip N))
  /-- `ExpansionMatrix` with `NRows() = r` -/
  | expansion (r : Nat) (pos : List Nat)
  /-- `DenseGenMatrix` -/
  | denseGen (r c : Nat) (vals : List N)
  /-- `DenseSymMatrix` -/
  | denseSym (n : Nat) (vals : List N)
  /-- `MultiVectorMatrix` with columns `vecs` of dimension `r` -/
  | multiVec (r : Nat) (vecs : List (List N))
  /-- `ExpandedMultiVectorMatrix` with `NCols() = c` -/
  | expMultiVec (c : Nat) (vecs : List (Option (List N))) (P : Option (List Nat))
  /-- `LowRankUpdateSymMatrix` without `P_LowRank` -/
  | lowRank (D : List N) (V U : Option (List (List N)))
  /-- `LowRankUpdateSymMatrix` with `P_LowRank`, `red` = `ReducedDiag()` -/
  | lowRankP (red : Bool) (D : List N) (V U : Option (List (List N))) (P : Mat N)
  /-- `TransposeMatrix` -/
  | transpose (m : Mat N)
  /-- `ScaledMatrix` with the (already inverted, if requested) row and column scaling -/
  | scaled (rs : Option (List N)) (m : Mat N) (cs : Option (List N))
  /-- `SymScaledMatrix` -/
  | symScaled (s : Option (List N)) (m : Mat N)
  /-- `SumMatrix` with terms `0..k-1` -/
  | sum (r c k : Nat) (factor : Nat → N) (term : Nat → Mat N)
  /-- `SumSymMatrix` -/
  | sumSym (n k : Nat) (factor : Nat → N) (term : Nat → Mat N)
  /-- `CompoundMatrix` -/
  | compound (rd cd : List Nat) (space set : Nat → Nat → Bool) (comp : Nat → Nat → Mat N)
  /-- `CompoundSymMatrix` -/
  | compoundSym (ds : List Nat) (set : Nat → Nat → Bool) (comp : Nat → Nat → Mat N)

namespace Mat

/-- `NRows()` and `NCols()` (IpMatrix.hpp, from the owner spaces). -/
def dims {N : Type} : Mat N → Nat × Nat
  | zero r c => (r, c)
  | zeroSym n => (n, n)
  | ident n _ => (n, n)
  | diag d => (d.length, d.length)
  | genT r c _ => (r, c)
  | symT n _ => (n, n)
  | expansion r pos => (r, pos.length)
  | denseGen r c _ => (r, c)
  | denseSym n _ => (n, n)
  | multiVec r vecs => (r, vecs.length)
  | expMultiVec c vecs _ => (vecs.length, c)
  | lowRank D _ _ => (D.length, D.length)
  | lowRankP _ _ _ _ P => (P.dims.1, P.dims.1)
  | transpose m => (m.dims.2, m.dims.1)
  | scaled _ m _ => m.dims
  | symScaled _ m => m.dims
  | sum r c _ _ _ => (r, c)
  | sumSym n _ _ _ => (n, n)
  | compound rd cd _ _ _ => (rd.sum, cd.sum)
  | compoundSym ds _ _ => (ds.sum, ds.sum)

/-- `CompoundMatrixSpace::diagonal_` (IpCompoundMatrix.cpp:862-873): a block space in every diagonal position and nowhere else. -/
def isDiag (nr nc : Nat) (space : Nat → Nat → Bool) : Bool :=
  (List.range nr).all (fun i => (List.range nc).all (fun j => if i = j then space i j else !space i j))

variable {N : Type} [Zero N] [One N] [Add N] [Sub N] [Mul N] [Neg N] [Div N] [BEq N]

/-- the block condition of the loops of `CompoundMatrix` (IpCompoundMatrix.cpp:154, 250, 347). -/
def useBlock (nr nc : Nat) (space set : Nat → Nat → Bool) (i j : Nat) : Bool :=
  (isDiag nr nc space && decide (i = j)) || (!isDiag nr nc space && set i j)

mutual
/-- `Matrix::MultVector` (dispatch to the `MultVectorImpl` of each class): returns the new `y`.  Lines: IpZeroMatrix.cpp:21-42,
IpIdentityMatrix.cpp:28-40, IpDiagMatrix.cpp:21-45, IpLowRankUpdateSymMatrix.cpp:26-131, IpTransposeMatrix.hpp:39-48,
IpScaledMatrix.cpp:22-58, IpSymScaledMatrix.cpp:22-57, IpSumMatrix.cpp:54-80, IpSumSymMatrix.cpp:54-80,
IpCompoundMatrix.cpp:77-171, IpCompoundSymMatrix.cpp:76-160. -/
def mult (hom : List N → Option N) : Mat N → N → List N → N → List N → List N
  | zero _ _, _, _, β, y => betaPart β y
  | zeroSym _, _, _, β, y => betaPart β y
  | ident _ f, α, x, β, y => addOne (α * f) x β y
  | diag d, α, x, β, y => axpy α (emul x d) (betaPart β y)
  | genT _ _ ts, α, x, β, y => genTMult hom ts α x β y
  | symT _ ts, α, x, β, y => symTMult hom ts α x β y
  | expansion _ pos, α, x, β, y => expMult hom pos α x β y
  | denseGen r c vals, α, x, β, y => gemv false r c vals α x β y
  | denseSym n vals, α, x, β, y => symv n vals α x β y
  | multiVec _ vecs, α, x, β, y => mvMult hom vecs α x β y
  | expMultiVec _ vecs P, α, x, β, y => emvMult hom vecs P α x β y
  | lowRank D V U, α, x, β, y =>
    let y1 := if β == 0 then emul (addOne α x 0 y) D else addOne α (emul x D) β y
    lrMultOpt U (-α) x (lrMultOpt V α x y1)
  | lowRankP red D V U P, α, x, β, y =>
    if red then
      let sx := transMult hom P 1 x 0 (List.replicate P.dims.2 0)
      P.mult hom α (lrMultOpt U (-1) sx (lrMultOpt V 1 sx (emul sx D))) β y
    else
      let y1 := addOne α (emul x D) β y
      let sx := transMult hom P 1 x 0 (List.replicate P.dims.2 0)
      P.mult hom α (lrMultOpt U (-1) sx (lrStart V sx P.dims.2)) 1 y1
  | transpose m, α, x, β, y => transMult hom m α x β y
  | scaled rs m cs, α, x, β, y =>
    axpy α (optMul rs (m.mult hom 1 (optMul cs x) 0 (List.replicate y.length 0))) (betaPart β y)
  | symScaled s m, α, x, β, y =>
    axpy α (optMul s (m.mult hom 1 (optMul s x) 0 (List.replicate y.length 0))) (betaPart β y)
  | sum _ _ k f t, α, x, β, y => (List.range k).foldl (fun y i => (t i).mult hom (α * f i) x 1 y) (betaPart β y)
  | sumSym _ k f t, α, x, β, y => (List.range k).foldl (fun y i => (t i).mult hom (α * f i) x 1 y) (betaPart β y)
  | compound rd cd space set comp, α, x, β, y =>
    (List.range rd.length).flatMap (fun i =>
      (List.range cd.length).foldl (fun yi j =>
        if useBlock rd.length cd.length space set i j then (comp i j).mult hom α (blk cd j x) 1 yi else yi)
        (blk rd i (betaPart β y)))
  | compoundSym ds set comp, α, x, β, y =>
    (List.range ds.length).flatMap (fun i =>
      (List.range' (i + 1) (ds.length - (i + 1))).foldl (fun yi j =>
        if set j i then transMult hom (comp j i) α (blk ds j x) 1 yi else yi)
        ((List.range (i + 1)).foldl (fun yi j =>
          if set i j then (comp i j).mult hom α (blk ds j x) 1 yi else yi)
          (blk ds i (betaPart β y))))

/-- `Matrix::TransMultVector`.  `SymMatrix::TransMultVectorImpl` calls `MultVector` (IpSymMatrix.hpp:53-62); its body is repeated
here for the symmetric classes (structural recursion).  Lines: IpZeroMatrix.cpp:44-65, IpZeroSymMatrix.cpp:44-65,
IpTransposeMatrix.hpp:50-59, IpScaledMatrix.cpp:60-96, IpSumMatrix.cpp:82-108, IpCompoundMatrix.cpp:173-267. -/
def transMult (hom : List N → Option N) : Mat N → N → List N → N → List N → List N
  | zero _ _, _, _, β, y => betaPart β y
  | zeroSym _, _, _, β, y => betaPart β y
  | ident _ f, α, x, β, y => addOne (α * f) x β y
  | diag d, α, x, β, y => axpy α (emul x d) (betaPart β y)
  | genT _ _ ts, α, x, β, y => genTTrans hom ts α x β y
  | symT _ ts, α, x, β, y => symTMult hom ts α x β y
  | expansion _ pos, α, x, β, y => expTrans hom pos α x β y
  | denseGen r c vals, α, x, β, y => gemv true r c vals α x β y
  | denseSym n vals, α, x, β, y => symv n vals α x β y
  | multiVec _ vecs, α, x, β, y => mvTrans vecs α x β y
  | expMultiVec _ vecs P, α, x, β, y => emvTrans hom vecs P α x β y
  | lowRank D V U, α, x, β, y =>
    let y1 := if β == 0 then emul (addOne α x 0 y) D else addOne α (emul x D) β y
    lrMultOpt U (-α) x (lrMultOpt V α x y1)
  | lowRankP red D V U P, α, x, β, y =>
    if red then
      let sx := transMult hom P 1 x 0 (List.replicate P.dims.2 0)
      P.mult hom α (lrMultOpt U (-1) sx (lrMultOpt V 1 sx (emul sx D))) β y
    else
      let y1 := addOne α (emul x D) β y
      let sx := transMult hom P 1 x 0 (List.replicate P.dims.2 0)
      P.mult hom α (lrMultOpt U (-1) sx (lrStart V sx P.dims.2)) 1 y1
  | transpose m, α, x, β, y => m.mult hom α x β y
  | scaled rs m cs, α, x, β, y =>
    axpy α (optMul cs (transMult hom m 1 (optMul rs x) 0 (List.replicate y.length 0))) (betaPart β y)
  | symScaled s m, α, x, β, y =>
    axpy α (optMul s (m.mult hom 1 (optMul s x) 0 (List.replicate y.length 0))) (betaPart β y)
  | sum _ _ k f t, α, x, β, y => (List.range k).foldl (fun y i => transMult hom (t i) (α * f i) x 1 y) (betaPart β y)
  | sumSym _ k f t, α, x, β, y => (List.range k).foldl (fun y i => (t i).mult hom (α * f i) x 1 y) (betaPart β y)
  | compound rd cd space set comp, α, x, β, y =>
    (List.range cd.length).flatMap (fun i =>
      (List.range rd.length).foldl (fun yi j =>
        if useBlock rd.length cd.length space set j i then transMult hom (comp j i) α (blk rd j x) 1 yi else yi)
        (blk cd i (betaPart β y)))
  | compoundSym ds set comp, α, x, β, y =>
    (List.range ds.length).flatMap (fun i =>
      (List.range' (i + 1) (ds.length - (i + 1))).foldl (fun yi j =>
        if set j i then transMult hom (comp j i) α (blk ds j x) 1 yi else yi)
        ((List.range (i + 1)).foldl (fun yi j =>
          if set i j then (comp i j).mult hom α (blk ds j x) 1 yi else yi)
          (blk ds i (betaPart β y))))
end

/-- `Matrix::AddMSinvZ` (IpMatrix.cpp:12-20, default IpMatrix.cpp:34-44; IpIdentityMatrix.cpp:82-95 -- which does not use `factor_`;
IpExpansionMatrix.cpp:170-239; IpCompoundMatrix.cpp:270-374; IpScaledMatrix.cpp:162-174 repeats the default). -/
def addMSinvZ (hom : List N → Option N) : Mat N → N → List N → List N → List N → List N
  | ident _ _, α, S, Z, X => addQuot α Z S 1 X
  | expansion _ pos, α, S, Z, X => expAddMSinvZ hom pos α S Z X
  | compound rd cd space set comp, α, S, Z, X =>
    (List.range rd.length).flatMap (fun i =>
      (List.range cd.length).foldl (fun Xi j =>
        if useBlock rd.length cd.length space set i j then (comp i j).addMSinvZ hom α (blk cd j S) (blk cd j Z) Xi else Xi)
        (blk rd i X))
  | m, α, S, Z, X => m.mult hom α (addQuot 1 Z S 0 S) 1 X

/-- the test for the fast path of `CompoundMatrix::SinvBlrmZMTdBrImpl` (IpCompoundMatrix.cpp:392-414): exactly one block per
column. -/
def oneBlockPerCol (nr nc : Nat) (set : Nat → Nat → Bool) : Bool :=
  (List.range nc).all (fun j => ((List.range nr).filter (fun i => set i j)).length == 1)

/-- first block row with a block in column `j` (IpCompoundMatrix.cpp:514-525). -/
def firstBlock (nr : Nat) (set : Nat → Nat → Bool) (j : Nat) : Nat :=
  ((List.range nr).find? (fun i => set i j)).getD j

/-- `Matrix::SinvBlrmZMTdBr` (IpMatrix.cpp:22-32, default 46-60; IpExpansionMatrix.cpp:241-370; IpCompoundMatrix.cpp:377-581;
IpScaledMatrix.cpp:176-191 repeats the default). -/
def sinvBlrm (hom : List N → Option N) : Mat N → N → List N → List N → List N → List N → List N → List N
  | expansion _ pos, α, S, R, Z, D, X => expSinv hom pos α S R Z D X
  | compound rd cd space set comp, α, S, R, Z, D, X =>
    let m := compound rd cd space set comp
    let diag := isDiag rd.length cd.length space
    if !diag && !oneBlockPerCol rd.length cd.length set then
      ediv (axpy 1 R (emul (transMult hom m α D 0 X) Z)) S
    else
      (List.range cd.length).flatMap (fun i =>
        let j := if diag then i else firstBlock rd.length set i
        (comp j i).sinvBlrm hom α (blk cd i S) (blk cd i R) (blk cd i Z) (blk rd j D) (blk cd i X))
  | m, α, S, R, Z, D, X => ediv (axpy 1 R (emul (transMult hom m α D 0 X) Z)) S

end Mat
end Verif.Matrix
