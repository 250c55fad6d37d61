import Verif.Model.Matrix
import Mathlib.Algebra.BigOperators.Group.Finset.Basic
import Mathlib.Algebra.Field.Basic

/-! # Specification for the matrix classes: the entries of the represented matrix

`ent m i j` is the mathematical meaning of each class, written from its documentation and not from its multiplication routines.
`IsProd A r c α x β y res` says that `res = β y + α A x` for the `r`×`c` matrix with entries `A`. -/

namespace Verif.Matrix
open Finset

variable {K : Type} [Field K]

/-- the block and the position inside the block of element `i` of a compound vector with block dimensions `ds`. -/
def locate : List Nat → Nat → Nat × Nat
  | [], i => (0, i)
  | d :: ds, i => if i < d then (0, i) else ((locate ds (i - d)).1 + 1, (locate ds (i - d)).2)

/-- Σ_v v_i v_j over the columns of an optional multi-vector matrix (the entry of V Vᵀ). -/
def gram (V : Option (List (List K))) (i j : Nat) : K :=
  match V with
  | some vs => (vs.map (fun v => v.getD i 0 * v.getD j 0)).sum
  | none => 0

/-- the factor of an optional scaling vector. -/
def optFac (s : Option (List K)) (i : Nat) : K :=
  match s with
  | some d => d.getD i 0
  | none => 1

/-- entry of a row that may be unset, seen through an optional expansion. -/
def rowEnt (v : Option (List K)) (P : Option (List Nat)) (j : Nat) : K :=
  match v with
  | none => 0
  | some v =>
    match P with
    | none => v.getD j 0
    | some pos => ∑ k ∈ range pos.length, if pos[k]? = some j then v.getD k 0 else 0

/-- the entry (i, j), 0-based, of the matrix represented by an object. -/
def ent : Mat K → Nat → Nat → K
  | .zero _ _, _, _ => 0
  | .zeroSym _, _, _ => 0
  | .ident _ f, i, j => if i = j then f else 0
  | .diag d, i, j => if i = j then d.getD i 0 else 0
  | .genT _ _ ts, i, j => (ts.map (fun t => if t.row = i + 1 ∧ t.col = j + 1 then t.val else 0)).sum
  | .symT _ ts, i, j =>
    (ts.map (fun t => if (t.row = i + 1 ∧ t.col = j + 1) ∨ (t.row = j + 1 ∧ t.col = i + 1) then t.val else 0)).sum
  | .expansion _ pos, i, j => if pos[j]? = some i then 1 else 0
  | .denseGen r _ vals, i, j => vals.getD (i + j * r) 0
  | .denseSym n vals, i, j => if j ≤ i then vals.getD (i + j * n) 0 else vals.getD (j + i * n) 0
  | .multiVec _ vecs, i, j => (vecs.getD j []).getD i 0
  | .expMultiVec _ vecs P, i, j => rowEnt (vecs.getD i none) P j
  | .lowRank D V U, i, j => (if i = j then D.getD i 0 else 0) + gram V i j - gram U i j
  | .lowRankP red D V U P, i, j =>
    if red then ∑ k ∈ range P.dims.2, ∑ l ∈ range P.dims.2,
      ent P i k * ((if k = l then D.getD k 0 else 0) + gram V k l - gram U k l) * ent P j l
    else (if i = j then D.getD i 0 else 0) + ∑ k ∈ range P.dims.2, ∑ l ∈ range P.dims.2,
      ent P i k * (gram V k l - gram U k l) * ent P j l
  | .transpose m, i, j => ent m j i
  | .scaled rs m cs, i, j => optFac rs i * ent m i j * optFac cs j
  | .symScaled s m, i, j => optFac s i * ent m i j * optFac s j
  | .sum _ _ k f t, i, j => ∑ l ∈ range k, f l * ent (t l) i j
  | .sumSym _ k f t, i, j => ∑ l ∈ range k, f l * ent (t l) i j
  | .compound rd cd _ set comp, i, j =>
    if set (locate rd i).1 (locate cd j).1 then
      ent (comp (locate rd i).1 (locate cd j).1) (locate rd i).2 (locate cd j).2
    else 0
  | .compoundSym ds set comp, i, j =>
    if (locate ds j).1 ≤ (locate ds i).1 then
      if set (locate ds i).1 (locate ds j).1 then
        ent (comp (locate ds i).1 (locate ds j).1) (locate ds i).2 (locate ds j).2
      else 0
    else
      if set (locate ds j).1 (locate ds i).1 then
        ent (comp (locate ds j).1 (locate ds i).1) (locate ds j).2 (locate ds i).2
      else 0

/-- `res = β y + α A x`. -/
def IsProd (A : Nat → Nat → K) (r c : Nat) (α : K) (x : List K) (β : K) (y res : List K) : Prop :=
  res.length = r ∧ ∀ i, i < r → res.getD i 0 = β * y.getD i 0 + α * ∑ j ∈ range c, A i j * x.getD j 0

/-- classes derived from `SymMatrix`. -/
def isSym {N : Type} : Mat N → Prop
  | .zeroSym _ | .ident _ _ | .diag _ | .symT _ _ | .denseSym _ _ | .lowRank _ _ _ | .lowRankP _ _ _ _ _ | .symScaled _ _
  | .sumSym _ _ _ _ | .compoundSym _ _ _ => True
  | _ => False

/-- all columns have dimension `n`. -/
def colsOK {N : Type} (n : Nat) (V : Option (List (List N))) : Prop :=
  match V with
  | some vs => ∀ v ∈ vs, v.length = n
  | none => True

/-- an optional scaling vector has dimension `n`. -/
def scaleOK {N : Type} (n : Nat) (s : Option (List N)) : Prop :=
  match s with
  | some d => d.length = n
  | none => True

/-- objects that respect the debug assertions of the constructors and setters: dimensions of parts agree, indices are in range, and
every block the code dereferences is set. -/
def WF {N : Type} : Mat N → Prop
  | .zero _ _ | .zeroSym _ | .ident _ _ | .diag _ => True
  | .genT r c ts => ∀ t ∈ ts, 1 ≤ t.row ∧ t.row ≤ r ∧ 1 ≤ t.col ∧ t.col ≤ c
  | .symT n ts => ∀ t ∈ ts, 1 ≤ t.row ∧ t.row ≤ n ∧ 1 ≤ t.col ∧ t.col ≤ n
  | .expansion r pos => ∀ p ∈ pos, p < r
  | .denseGen r c vals => 0 < r ∧ 0 < c ∧ vals.length = r * c
  | .denseSym n vals => 0 < n ∧ vals.length = n * n
  | .multiVec r vecs => ∀ v ∈ vecs, v.length = r
  | .expMultiVec c vecs P =>
    (∀ v, some v ∈ vecs → v.length = (P.map List.length).getD c) ∧ ∀ pos, P = some pos → ∀ p ∈ pos, p < c
  | .lowRank D V U => colsOK D.length V ∧ colsOK D.length U
  | .lowRankP red D V U P =>
    WF P ∧ D.length = (if red then P.dims.2 else P.dims.1) ∧ colsOK P.dims.2 V ∧ colsOK P.dims.2 U
  | .transpose m => WF m
  | .scaled rs m cs => WF m ∧ scaleOK m.dims.1 rs ∧ scaleOK m.dims.2 cs
  | .symScaled s m => WF m ∧ isSym m ∧ scaleOK m.dims.1 s
  | .sum r c k _ t => ∀ l, l < k → WF (t l) ∧ (t l).dims = (r, c)
  | .sumSym n k _ t => ∀ l, l < k → WF (t l) ∧ (t l).dims = (n, n) ∧ isSym (t l)
  | .compound rd cd space set comp =>
    (∀ i j, i < rd.length → j < cd.length → set i j = true →
      space i j = true ∧ WF (comp i j) ∧ (comp i j).dims = (rd.getD i 0, cd.getD j 0)) ∧
    (∀ i, i < rd.length → i < cd.length → Mat.isDiag rd.length cd.length space = true → set i i = true)
  | .compoundSym ds set comp =>
    ∀ i j, j ≤ i → i < ds.length → set i j = true →
      WF (comp i j) ∧ (comp i j).dims = (ds.getD i 0, ds.getD j 0) ∧ (i = j → isSym (comp i j))

/-- `hom` only recognises constant vectors. -/
def HomOK {N : Type} (hom : List N → Option N) : Prop := ∀ l s, hom l = some s → l = List.replicate l.length s

/-- res = X + α M (Z/S) -/
def IsAddMSinvZ (A : Nat → Nat → K) (r c : Nat) (α : K) (S Z X res : List K) : Prop :=
  res.length = r ∧ ∀ i, i < r → res.getD i 0 = X.getD i 0 + α * ∑ j ∈ range c, A i j * (Z.getD j 0 / S.getD j 0)

/-- every identity matrix reached through the blocks has factor 1. -/
def unitIdent : Mat K → Prop
  | .ident _ f => f = 1
  | .compound rd cd _ set comp => ∀ i j, i < rd.length → j < cd.length → set i j = true → unitIdent (comp i j)
  | _ => True

/-- res = (R + α Z ∘ (Mᵀ D)) / S -/
def IsSinv (A : Nat → Nat → K) (r c : Nat) (α : K) (S R Z D res : List K) : Prop :=
  res.length = c ∧ ∀ i, i < c → res.getD i 0 =
    (R.getD i 0 + α * Z.getD i 0 * ∑ j ∈ range r, A j i * D.getD j 0) / S.getD i 0

/-- no compound matrix reached through the blocks is "diagonal" with more block columns than block rows. -/
def tallDiag {N : Type} : Mat N → Prop
  | .compound rd cd space set comp => (Mat.isDiag rd.length cd.length space = true → cd.length ≤ rd.length) ∧
      ∀ i j, i < rd.length → j < cd.length → set i j = true → tallDiag (comp i j)
  | _ => True

end Verif.Matrix
