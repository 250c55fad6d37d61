import Verif.Model.Triplet
import Verif.Spec.Matrix

/-! # Specification: what the triplet arrays have to mean -/

namespace Verif.Triplet
open Verif.Matrix Finset

/-- element (i, j), 0-based, of the general matrix given by `n` triplets with 1-based indices: duplicates are summed. -/
def genElem {K : Type} [Field K] (n : Nat) (row col : Nat → Nat) (val : Nat → K) (i j : Nat) : K :=
  ∑ k ∈ range n, if row k = i + 1 ∧ col k = j + 1 then val k else 0

/-- element (i, j) of the symmetric matrix given by `n` triplets: every triplet stands for both positions. -/
def symElem {K : Type} [Field K] (n : Nat) (row col : Nat → Nat) (val : Nat → K) (i j : Nat) : K :=
  ∑ k ∈ range n, if (row k = i + 1 ∧ col k = j + 1) ∨ (row k = j + 1 ∧ col k = i + 1) then val k else 0

/-- the classes `TripletHelper` knows, all the way down. -/
def Supported {N : Type} : Mat N → Prop
  | .genT _ _ _ | .symT _ _ | .diag _ | .ident _ _ | .expansion _ _ | .zero _ _ | .zeroSym _ | .expMultiVec _ _ _ => True
  | .scaled _ m _ => Supported m
  | .symScaled _ m => Supported m
  | .transpose m => Supported m
  | .sum _ _ k _ t => ∀ l, l < k → Supported (t l)
  | .sumSym _ k _ t => ∀ l, l < k → Supported (t l)
  | .compound rd cd _ set comp => ∀ i j, i < rd.length → j < cd.length → set i j = true → Supported (comp i j)
  | .compoundSym ds set comp => ∀ i j, j ≤ i → i < ds.length → set i j = true → Supported (comp i j)
  | .denseGen _ _ _ | .denseSym _ _ | .multiVec _ _ | .lowRank _ _ _ | .lowRankP _ _ _ _ _ => False

/-- every element is represented by its own triplets: no symmetric matrix stored as a triangle (`SymTMatrix`, `CompoundSymMatrix` with
off-diagonal blocks) where a general matrix is needed. -/
def NoTriangle {N : Type} : Mat N → Prop
  | .symT _ ts => ∀ t ∈ ts, t.row = t.col
  | .scaled _ m _ => NoTriangle m
  | .symScaled _ m => NoTriangle m
  | .transpose m => NoTriangle m
  | .sum _ _ k _ t => ∀ l, l < k → NoTriangle (t l)
  | .sumSym _ k _ t => ∀ l, l < k → NoTriangle (t l)
  | .compound rd cd _ set comp => ∀ i j, i < rd.length → j < cd.length → set i j = true → NoTriangle (comp i j)
  | .compoundSym ds set comp => ∀ i j, j ≤ i → i < ds.length → set i j = true → i = j ∧ NoTriangle (comp i j)
  | _ => True

/-- a symmetric matrix whose triangles are only in diagonal position: the off-diagonal blocks of a `CompoundSymMatrix` (which stand for
themselves and for their transposes) contain no matrix stored as a triangle. -/
def TriangleOK {N : Type} : Mat N → Prop
  | .zeroSym _ | .ident _ _ | .diag _ | .symT _ _ => True
  | .symScaled _ m => TriangleOK m
  | .sumSym _ k _ t => ∀ l, l < k → TriangleOK (t l)
  | .compoundSym ds set comp => ∀ i j, j ≤ i → i < ds.length → set i j = true →
      if i = j then TriangleOK (comp i j) else NoTriangle (comp i j)
  | _ => False

/-- two matrices with the same structure: same classes, dimensions, indices and set blocks, possibly different numbers. -/
inductive SameStructure {N : Type} : Mat N → Mat N → Prop
  | zero (r c) : SameStructure (.zero r c) (.zero r c)
  | zeroSym (n) : SameStructure (.zeroSym n) (.zeroSym n)
  | ident (n f f') : SameStructure (.ident n f) (.ident n f')
  | diag (d d') (h : d.length = d'.length) : SameStructure (.diag d) (.diag d')
  | genT (r c ts ts') (h : ts.map (fun t => (t.row, t.col)) = ts'.map (fun t => (t.row, t.col))) :
      SameStructure (.genT r c ts) (.genT r c ts')
  | symT (n ts ts') (h : ts.map (fun t => (t.row, t.col)) = ts'.map (fun t => (t.row, t.col))) :
      SameStructure (.symT n ts) (.symT n ts')
  | expansion (r pos) : SameStructure (.expansion r pos) (.expansion r pos)
  | expMultiVec (c vecs vecs' P) (h : vecs.length = vecs'.length) : SameStructure (.expMultiVec c vecs P) (.expMultiVec c vecs' P)
  | transpose (m m') : SameStructure m m' → SameStructure (.transpose m) (.transpose m')
  | scaled (rs rs' m m' cs cs') : SameStructure m m' → SameStructure (.scaled rs m cs) (.scaled rs' m' cs')
  | symScaled (s s' m m') : SameStructure m m' → SameStructure (.symScaled s m) (.symScaled s' m')
  | sum (r c k f f' t t') : (∀ l, l < k → SameStructure (t l) (t' l)) → SameStructure (.sum r c k f t) (.sum r c k f' t')
  | sumSym (n k f f' t t') : (∀ l, l < k → SameStructure (t l) (t' l)) → SameStructure (.sumSym n k f t) (.sumSym n k f' t')
  | compound (rd cd sp sp' set comp comp') :
      (∀ i j, i < rd.length → j < cd.length → set i j = true → SameStructure (comp i j) (comp' i j)) →
      SameStructure (.compound rd cd sp set comp) (.compound rd cd sp' set comp')
  | compoundSym (ds set comp comp') :
      (∀ i j, j ≤ i → i < ds.length → set i j = true → SameStructure (comp i j) (comp' i j)) →
      SameStructure (.compoundSym ds set comp) (.compoundSym ds set comp')

/-- elements of a nested vector in order (a compound vector is the concatenation of its components). -/
def Vec.elems {N : Type} : Vec N → List N
  | .hom d s => List.replicate d s
  | .dense v => v
  | .comp k c => (List.range k).flatMap fun i => (c i).elems
  | .other _ => []

/-- only the two vector classes of Ipopt. -/
def Vec.known {N : Type} : Vec N → Prop
  | .comp k c => ∀ i, i < k → (c i).known
  | .other _ => False
  | _ => True

end Verif.Triplet
