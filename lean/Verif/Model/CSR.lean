import Mathlib.Algebra.Field.Defs

/-!
# Model of `Ipopt::TripletToCSRConverter`

`/repo/src/Algorithm/LinearSolvers/IpTripletToCSRConverter.{hpp,cpp}`.

Rows and columns of triplets are counted from 1 as in the code; positions in arrays from 0.  Arrays whose entries are written at computed
positions are functions `Nat → Nat` (initial contents arbitrary, like `new Index[n]`); arrays that are only appended to are lists.
`std::sort` is not modelled: the theorems hold for every sorted permutation of the entries (the order of equal entries is unspecified).
-/

namespace Verif.CSR

/-- `TripletEntry` (`IpTripletToCSRConverter.hpp:24-89`). -/
structure Entry where
  row : Nat
  col : Nat
  pos : Nat
  deriving DecidableEq

/-- `TripletEntry::Set` (`hpp:30-48`): the entry is moved to the upper triangle. -/
def Entry.set (i j pos : Nat) : Entry := if j < i then ⟨j, i, pos⟩ else ⟨i, j, pos⟩

/-- `operator<` (`hpp:75-80`). -/
def Entry.lt (a b : Entry) : Prop := a.row < b.row ∨ (a.row = b.row ∧ a.col < b.col)

/-- The list of all entries (`cpp:82-89`). -/
def entries (trip : List (Nat × Nat)) : List Entry := trip.zipIdx.map fun p => Entry.set p.1.1 p.1.2 p.2

/-- Writing one array element. -/
def upd {α : Type} (f : Nat → α) (i : Nat) (x : α) : Nat → α := fun j => if j = i then x else f j

/-- Variables of the first pass (`cpp:104-197`): `cur_row`, `ia_`, `ja_tmp` (`nonzeros_compressed_` is its length minus one),
`ipos_first_tmp`, the two `ipos_double_..._tmp` arrays, `rc_tmp`, `nonzeros_compressed_full`. -/
structure Scan where
  cur : Nat
  ia : Nat → Nat
  ja : List Nat
  first : List Nat
  dbl : List (Nat × Nat)
  rc : Nat → Nat
  full : Nat

/-- Counting a new element in both triangles, the diagonal only once (`cpp:143-153`, `178-188`). -/
def countNew (s : Scan) (i j : Nat) : Scan :=
  let s := { s with full := s.full + 1, rc := upd s.rc (j - 1) (s.rc (j - 1) + 1) }
  if i ≠ j then { s with full := s.full + 1, rc := upd s.rc (i - 1) (s.rc (i - 1) + 1) } else s

/-- The first entry, with the empty rows before it (`cpp:132-153`): `ia0` is the uninitialised memory.  (The loop writes `0` into
`ia_[0], ..., ia_[cur_row-1]`.) -/
def scanFirst (ia0 : Nat → Nat) (e : Entry) : Scan :=
  let cur := max 1 e.row
  countNew { cur := cur, ia := fun i => if i < cur then 0 else ia0 i, ja := [e.col], first := [e.pos], dbl := [], rc := fun _ => 0, full := 0 }
    cur e.col

/-- One pass of the loop (`cpp:158-205`). -/
def scanStep (s : Scan) (e : Entry) : Scan :=
  if s.cur = e.row ∧ s.ja.getLast? = some e.col then
    { s with dbl := s.dbl ++ [(e.pos, s.ja.length - 1)] }
  else
    let s := countNew s e.row e.col
    let s := { s with ja := s.ja ++ [e.col], first := s.first ++ [e.pos] }
    if s.cur ≠ e.row then { s with ia := upd s.ia s.cur (s.ja.length - 1), cur := s.cur + 1 } else s

/-- The remaining row pointers (`cpp:206-210`). -/
def scanEnd (dim : Nat) (s : Scan) : Scan :=
  { s with ia := fun i => if s.cur ≤ i ∧ i ≤ dim then s.ja.length else s.ia i }

/-- The first pass over the sorted entries. -/
def scan (ia0 : Nat → Nat) (dim : Nat) : List Entry → Option Scan
  | [] => none
  | e :: l => some (scanEnd dim (l.foldl scanStep (scanFirst ia0 e)))

/-- The data kept in the converter: `ia_`, `ja_`, `nonzeros_compressed_`, `ipos_first_`, and the pairs of `ipos_double_triplet_`,
`ipos_double_compressed_`. -/
structure Conv where
  ia : Nat → Nat
  ja : Nat → Nat
  nnz : Nat
  first : Nat → Nat
  dbl : List (Nat × Nat)

/-- Triangular format (`cpp:215-259`). -/
def triangular (offset : Nat) (s : Scan) : Conv :=
  { ia := fun i => s.ia i + offset
    ja := fun i => s.ja.getD i 0 - 1 + offset
    nnz := s.ja.length
    first := fun i => s.first.getD i 0
    dbl := s.dbl }

/-- Variables of the second pass (`cpp:262-321`): `ia_tmp`, `ja_`, `ipos_first_`, the written double lists, and the unread rest of the
`..._tmp` double lists (from `jd1` on). -/
structure Fill where
  iaT : Nat → Nat
  ja : Nat → Nat
  first : Nat → Nat
  out : List (Nat × Nat)
  rest : List (Nat × Nat)

/-- The `while` loop over the duplicates of element `j` (`cpp:289-302`). -/
def fillDoubles (i jrow j : Nat) (iaT : Nat → Nat) : List (Nat × Nat) → List (Nat × Nat) → List (Nat × Nat) × List (Nat × Nat)
  | out, [] => (out, [])
  | out, (t, k) :: rest =>
    if j = k then
      fillDoubles i jrow j iaT (out ++ [(t, iaT (i + 1))] ++ (if jrow ≠ i then [(t, iaT (jrow + 1))] else [])) rest
    else (out, (t, k) :: rest)

/-- One element `j` of row `i` (`cpp:285-311`). -/
def fillStep (offset : Nat) (s : Scan) (i : Nat) (f : Fill) (j : Nat) : Fill :=
  let jrow := s.ja.getD j 0 - 1
  let p := f.iaT (i + 1)
  let ja := upd f.ja p (jrow + offset)
  let first := upd f.first p (s.first.getD j 0)
  let d := fillDoubles i jrow j f.iaT f.out f.rest
  let iaT := upd f.iaT (i + 1) (p + 1)
  if jrow ≠ i then
    let q := iaT (jrow + 1)
    { iaT := upd iaT (jrow + 1) (q + 1), ja := upd ja q (i + offset), first := upd first q (s.first.getD j 0), out := d.1, rest := d.2 }
  else { iaT := iaT, ja := ja, first := first, out := d.1, rest := d.2 }

/-- Insert positions (`cpp:264-270`): `ia_tmp[0] = ia_tmp[1] = 0`, `ia_tmp[i+1] = ia_tmp[i] + rc_tmp[i-1]`. -/
def insertPos (rc : Nat → Nat) : Nat → Nat
  | 0 => 0
  | 1 => 0
  | i + 2 => insertPos rc (i + 1) + rc i

/-- Full format (`cpp:260-336`); `ja0`, `first0` are uninitialised memory. -/
def fullFormat (offset dim : Nat) (ja0 first0 : Nat → Nat) (s : Scan) : Conv :=
  let f := (List.range dim).foldl
    (fun f i => (List.range' (s.ia i) (s.ia (i + 1) - s.ia i)).foldl (fillStep offset s i) f)
    { iaT := insertPos s.rc, ja := ja0, first := first0, out := [], rest := s.dbl }
  { ia := fun i => f.iaT i + offset, ja := f.ja, nnz := s.full, first := f.first, dbl := f.out }

/-- `ConvertValues` (`cpp:346-390`). -/
def convertValues {K : Type} [Add K] (c : Conv) (a : Nat → K) : Nat → K :=
  c.dbl.foldl (fun v td => upd v td.2 (v td.2 + a td.1)) (fun i => a (c.first i))

end Verif.CSR
