import Verif.Model.Matrix

/-! # Model of `TripletHelper` (src/LinAlg/TMatrices/IpTripletHelper.cpp)

The caller's arrays are memories `Nat → α`; a pointer into an array is a position `p`.  So "the pointer is shifted by the number of entries
of the block" (`iRow += blk_n_entries`) is part of the model, as is the fact that the routines write nowhere else.  `none` is the exception
`UNKNOWN_MATRIX_TYPE`.  Offsets and indices are natural numbers (no overflow of `Index`).  Vectors inside matrices are flat lists as in
`Verif.Model.Matrix`; `FillValuesFromVector` and `PutValuesInVector` are modelled on nested vectors below. -/

namespace Verif.Triplet
open Verif.Matrix

/-- writing one array element. -/
def upd {α : Type} (f : Nat → α) (i : Nat) (x : α) : Nat → α := fun j => if j = i then x else f j

/-- `for( i = 0; i < n; i++ ) buf[p + i] = f(i);` (also `IpBlasCopy`). -/
def loop {α : Type} (n : Nat) (p : Nat) (f : Nat → α) (buf : Nat → α) : Nat → α :=
  (List.range n).foldl (fun b i => upd b (p + i) (f i)) buf

/-- `for( i = 0; i < n; i++ ) buf[p + i] = g(i, buf[p + i]);` (also `IpBlasScal`, `values[i] *= ...`). -/
def loopMod {α : Type} (n : Nat) (p : Nat) (g : Nat → α → α) (buf : Nat → α) : Nat → α :=
  (List.range n).foldl (fun b i => upd b (p + i) (g i (b (p + i)))) buf

/-- the two index arrays `iRow`, `jCol`. -/
structure Idx where
  row : Nat → Nat
  col : Nat → Nat

/-- exchange of the two arrays (`FillRowCol(n_entries, *matrix.OrigMatrix(), jCol, iRow, col_offset, row_offset)`, cpp:1025-1035). -/
def Idx.swap (b : Idx) : Idx := ⟨b.col, b.row⟩

/-- dimension of the row vectors of an `ExpandedMultiVectorMatrix` (`RowVectorSpace()->Dim()`; cpp:444-451). -/
def rowVecDim (c : Nat) (P : Option (List Nat)) : Nat :=
  match P with
  | some pos => pos.length
  | none => c

/-- `TripletHelper::GetNumberEntries` (cpp:33-129) with the helpers for sums and compounds (cpp:364-451). -/
def numEntries {N : Type} : Mat N → Option Nat
  | .genT _ _ ts => some ts.length
  | .symT _ ts => some ts.length
  | .scaled _ m _ => numEntries m
  | .symScaled _ m => numEntries m
  | .diag d => some d.length
  | .ident n _ => some n
  | .expansion _ pos => some pos.length
  | .sum _ _ k _ t => (List.range k).foldlM (fun s i => (numEntries (t i)).map (s + ·)) 0
  | .sumSym _ k _ t => (List.range k).foldlM (fun s i => (numEntries (t i)).map (s + ·)) 0
  | .zero _ _ => some 0
  | .zeroSym _ => some 0
  | .compound rd cd _ set comp =>
    (List.range rd.length).foldlM (fun s i => (List.range cd.length).foldlM (fun s j =>
      if set i j then (numEntries (comp i j)).map (s + ·) else some s) s) 0
  | .compoundSym ds set comp =>
    (List.range ds.length).foldlM (fun s i => (List.range (i + 1)).foldlM (fun s j =>
      if set i j then (numEntries (comp i j)).map (s + ·) else some s) s) 0
  | .transpose m => numEntries m
  | .expMultiVec c vecs P => some (vecs.length * rowVecDim c P)
  | .denseGen _ _ _ => none
  | .denseSym _ _ => none
  | .multiVec _ _ => none
  | .lowRank _ _ _ => none
  | .lowRankP _ _ _ _ _ => none

/-- the loops over an `ExpandedMultiVectorMatrix` (cpp:1046-1087): `w` columns per row, column of the `j`-th one given by `colOf`. -/
def emvRowCol (nRows w : Nat) (colOf : Nat → Nat) (ro : Nat) (p : Nat) (b : Idx) : Idx :=
  ((List.range nRows).foldl (fun (s : Idx × Nat) i =>
    (List.range w).foldl (fun (s : Idx × Nat) j => (⟨upd s.1.row s.2 (ro + i), upd s.1.col s.2 (colOf j)⟩, s.2 + 1)) s) (b, p)).1

/-- `TripletHelper::FillRowCol` (cpp:131-247) with the helpers of each class (cpp:453-470, 486-503, 516-534, 547-565, 581-599, 615-641,
670-696, 736-774, 805-844, 918-928, 977-987, 1025-1035, 1046-1087).  `n` is `n_entries`, `ro`/`co` the offsets, `p` the position of
`*iRow` and `*jCol` in the arrays. -/
def fillRowCol {N : Type} : Mat N → Nat → Nat → Nat → Nat → Idx → Option Idx
  | .genT _ _ ts, n, ro, co, p, b =>
    some ⟨loop n p (fun i => ((ts[i]?).map Trip.row).getD 0 + ro) b.row, loop n p (fun i => ((ts[i]?).map Trip.col).getD 0 + co) b.col⟩
  | .symT _ ts, n, ro, co, p, b =>
    some ⟨loop n p (fun i => ((ts[i]?).map Trip.row).getD 0 + ro) b.row, loop n p (fun i => ((ts[i]?).map Trip.col).getD 0 + co) b.col⟩
  | .scaled _ m _, n, ro, co, p, b => fillRowCol m n ro co p b
  | .symScaled _ m, n, ro, co, p, b => fillRowCol m n ro co p b
  | .diag _, n, ro, co, p, b =>
    some ⟨loop n p (fun i => i + (ro + 1)) b.row, loop n p (fun i => i + (co + 1)) b.col⟩
  | .ident _ _, n, ro, co, p, b =>
    some ⟨loop n p (fun i => i + (ro + 1)) b.row, loop n p (fun i => i + (co + 1)) b.col⟩
  | .expansion _ pos, n, ro, co, p, b =>
    some ⟨loop n p (fun i => pos.getD i 0 + (ro + 1)) b.row, loop n p (fun i => i + (co + 1)) b.col⟩
  | .sum _ _ k _ t, _, ro, co, p, b =>
    ((List.range k).foldlM (fun (s : Idx × Nat) i => (numEntries (t i)).bind fun ne =>
      (fillRowCol (t i) ne ro co s.2 s.1).map fun b => (b, s.2 + ne)) (b, p)).map Prod.fst
  | .sumSym _ k _ t, _, ro, co, p, b =>
    ((List.range k).foldlM (fun (s : Idx × Nat) i => (numEntries (t i)).bind fun ne =>
      (fillRowCol (t i) ne ro co s.2 s.1).map fun b => (b, s.2 + ne)) (b, p)).map Prod.fst
  | .zero _ _, _, _, _, _, b => some b
  | .zeroSym _, _, _, _, _, b => some b
  | .compound rd cd _ set comp, _, ro, co, p, b =>
    ((List.range rd.length).foldlM (fun (s : (Idx × Nat) × Nat) i =>
      ((List.range cd.length).foldlM (fun (u : (Idx × Nat) × Nat) j =>
        (if set i j then (numEntries (comp i j)).bind fun ne =>
          (fillRowCol (comp i j) ne s.2 u.2 u.1.2 u.1.1).map fun b => (b, u.1.2 + ne)
        else some u.1).map fun w => (w, u.2 + cd.getD j 0)) (s.1, co)).map fun u => (u.1, s.2 + rd.getD i 0))
      ((b, p), ro)).map fun s => s.1.1
  | .compoundSym ds set comp, _, ro, co, p, b =>
    ((List.range ds.length).foldlM (fun (s : (Idx × Nat) × Nat) i =>
      ((List.range (i + 1)).foldlM (fun (u : (Idx × Nat) × Nat) j =>
        (if set i j then (numEntries (comp i j)).bind fun ne =>
          (fillRowCol (comp i j) ne s.2 u.2 u.1.2 u.1.1).map fun b => (b, u.1.2 + ne)
        else some u.1).map fun w => (w, u.2 + ds.getD j 0)) (s.1, co)).map fun u => (u.1, s.2 + ds.getD i 0))
      ((b, p), ro)).map fun s => s.1.1
  | .transpose m, n, ro, co, p, b => (fillRowCol m n co ro p b.swap).map Idx.swap
  | .expMultiVec c vecs P, _, ro, co, p, b =>
    match P with
    | some pos => some (emvRowCol vecs.length pos.length (fun j => (co + 1) + pos.getD j 0) (ro + 1) p b)
    | none => some (emvRowCol vecs.length c (fun j => (co + 1) + j) (ro + 1) p b)
  | .denseGen _ _ _, _, _, _, _, _ => none
  | .denseSym _ _, _, _, _, _, _ => none
  | .multiVec _ _, _, _, _, _, _ => none
  | .lowRank _ _ _, _, _, _, _, _ => none
  | .lowRankP _ _ _ _ _, _, _, _, _, _ => none

section Values
variable {N : Type} [Zero N] [One N] [Mul N] [BEq N]

/-- the loops over the values of an `ExpandedMultiVectorMatrix` (cpp:1089-1144): an unset row gives zeros. -/
def emvValues (w : Nat) (vecs : List (Option (List N))) (p : Nat) (b : Nat → N) : Nat → N :=
  (vecs.foldl (fun (s : (Nat → N) × Nat) v =>
    (loop w s.2 (fun j => match v with
      | some l => l.getD j 0
      | none => 0) s.1, s.2 + w)) (b, p)).1

/-- an optional scaling applied to the values (cpp:948-971): `values[i] *= scaling[idx[i] - 1]`. -/
def scaleVals (s : Option (List N)) (n p : Nat) (idx : Nat → Nat) (b : Nat → N) : Nat → N :=
  match s with
  | some d => loopMod n p (fun i v => v * d.getD (idx i - 1) 0) b
  | none => b

/-- `TripletHelper::FillValues` (cpp:249-362) with the helpers of each class (cpp:472-484, 505-514, 536-545, 567-579, 601-613, 643-668,
698-734, 776-803, 846-873, 930-975, 989-1023, 1037-1044, 1089-1144).  `junk` is the uninitialised memory of the temporary index
arrays.  `IpBlasScal` multiplies every element (reference BLAS). -/
def fillValues (junk : Idx) : Mat N → Nat → Nat → (Nat → N) → Option (Nat → N)
  | .genT _ _ ts, n, p, b => some (loop n p (fun i => ((ts[i]?).map Trip.val).getD 0) b)
  | .symT _ ts, _, p, b => some (loop ts.length p (fun i => ((ts[i]?).map Trip.val).getD 0) b)
  | .scaled rs m cs, n, p, b =>
    (fillValues junk m n p b).bind fun b => (fillRowCol m n 0 0 0 junk).map fun ix =>
      scaleVals cs n p ix.col (scaleVals rs n p ix.row b)
  | .symScaled s m, n, p, b =>
    (fillValues junk m n p b).bind fun b => (fillRowCol m n 0 0 0 junk).map fun ix =>
      match s with
      | some d => loopMod n p (fun i v => (v * d.getD (ix.row i - 1) 0) * d.getD (ix.col i - 1) 0) b
      | none => b
  | .diag d, n, p, b => some (loop n p (fun i => d.getD i 0) b)
  | .ident _ f, n, p, b => some (loop n p (fun _ => f) b)
  | .expansion _ _, n, p, b => some (loop n p (fun _ => 1) b)
  | .sum _ _ k f t, _, p, b =>
    ((List.range k).foldlM (fun (s : (Nat → N) × Nat) i => (numEntries (t i)).bind fun ne =>
      (fillValues junk (t i) ne s.2 s.1).map fun b => (loopMod ne s.2 (fun _ v => f i * v) b, s.2 + ne)) (b, p)).map Prod.fst
  | .sumSym _ k f t, _, p, b =>
    ((List.range k).foldlM (fun (s : (Nat → N) × Nat) i => (numEntries (t i)).bind fun ne =>
      (if f i == 0 then some (loop ne s.2 (fun _ => 0) s.1)
       else (fillValues junk (t i) ne s.2 s.1).map fun b => if f i == 1 then b else loopMod ne s.2 (fun _ v => f i * v) b).map
        fun b => (b, s.2 + ne)) (b, p)).map Prod.fst
  | .zero _ _, _, _, b => some b
  | .zeroSym _, _, _, b => some b
  | .compound rd cd _ set comp, _, p, b =>
    ((List.range rd.length).foldlM (fun (s : (Nat → N) × Nat) i =>
      (List.range cd.length).foldlM (fun (s : (Nat → N) × Nat) j =>
        if set i j then (numEntries (comp i j)).bind fun ne =>
          (fillValues junk (comp i j) ne s.2 s.1).map fun b => (b, s.2 + ne)
        else some s) s) (b, p)).map Prod.fst
  | .compoundSym ds set comp, _, p, b =>
    ((List.range ds.length).foldlM (fun (s : (Nat → N) × Nat) i =>
      (List.range (i + 1)).foldlM (fun (s : (Nat → N) × Nat) j =>
        if set i j then (numEntries (comp i j)).bind fun ne =>
          (fillValues junk (comp i j) ne s.2 s.1).map fun b => (b, s.2 + ne)
        else some s) s) (b, p)).map Prod.fst
  | .transpose m, n, p, b => fillValues junk m n p b
  | .expMultiVec c vecs P, _, p, b =>
    match P with
    | some pos => some (emvValues pos.length vecs p b)
    | none => some (emvValues c vecs p b)
  | .denseGen _ _ _, _, _, _ => none
  | .denseSym _ _, _, _, _ => none
  | .multiVec _ _, _, _, _ => none
  | .lowRank _ _ _, _, _, _ => none
  | .lowRankP _ _ _ _ _, _, _, _ => none

/-! ## Vectors -/

/-- nested vectors: `DenseVector` stored as a scalar (homogeneous) or as values, and `CompoundVector` with `k` components. -/
inductive Vec (N : Type) where
  | hom (dim : Nat) (s : N)
  | dense (vals : List N)
  | comp (k : Nat) (c : Nat → Vec N)
  /-- a vector of another class -/
  | other (dim : Nat)

/-- `Dim()`. -/
def Vec.dim : Vec N → Nat
  | .hom d _ => d
  | .dense v => v.length
  | .comp k c => ((List.range k).map (fun i => (c i).dim)).sum
  | .other d => d

/-- `TripletHelper::FillValuesFromVector` (cpp:875-916); `none`: `UNKNOWN_VECTOR_TYPE`. -/
def fillFromVector : Vec N → Nat → Nat → (Nat → N) → Option (Nat → N)
  | .hom _ s, dim, p, b => some (loop dim p (fun _ => s) b)
  | .dense v, dim, p, b => some (loop dim p (fun i => v.getD i 0) b)
  | .comp k c, _, p, b => ((List.range k).foldlM (fun (s : (Nat → N) × Nat) i =>
      (fillFromVector (c i) (c i).dim s.2 s.1).map fun b => (b, s.2 + (c i).dim)) (b, p)).map Prod.fst
  | .other _, _, _, _ => none

/-- `TripletHelper::PutValuesInVector` (cpp:1146-1180): `DenseVector::Values()` (IpDenseVector.hpp:448-466) turns a homogeneous vector
into one with values; `b` are the caller's values from position `p` on. -/
def putInVector : Vec N → Nat → Nat → (Nat → N) → Option (Vec N)
  | .hom _ _, dim, p, b => some (.dense ((List.range dim).map fun i => b (p + i)))
  | .dense v, dim, p, b => some (.dense ((List.range dim).map (fun i => b (p + i)) ++ v.drop dim))
  | .comp k c, _, p, b => ((List.range k).foldlM (fun (s : (Nat → Vec N) × Nat) i =>
      (putInVector (c i) (c i).dim s.2 b).map fun v => (upd s.1 i v, s.2 + (c i).dim)) (c, p)).map fun s => .comp k s.1
  | .other _, _, _, _ => none

end Values
end Verif.Triplet
