import Mathlib.Data.List.Sort

/-! # TNLPReducer

`/repo/src/Interfaces/IpTNLPReducer.cpp`: a TNLP that hides some constraints and bounds of another TNLP and fixes some of its variables.

The wrapped problem is a record of its answers (`none` = the user function returned false).  Output arrays that the caller allocates are
parameters (their old contents).  Simplified: `new_x`, `new_lambda` and the pointers `ip_data`, `ip_cq` are forwarded unchanged and not
represented; allocation failures are not modelled. -/

namespace Verif.Reducer

/-- `IndexStyleEnum`. -/
inductive Style where
  | c
  | fortran
deriving DecidableEq

/-- the first index of an array in the given style. -/
def Style.off : Style → Int
  | .c => 0
  | .fortran => 1

/-- the wrapped TNLP. -/
structure Inner (N : Type) where
  n : Nat
  m : Nat
  nnzJ : Nat
  nnzH : Nat
  style : Style
  infoOk : Bool
  /-- `eval_jac_g` with `values = NULL`: row and column indices -/
  jacStruct : Option (List (Int × Int))
  /-- `eval_jac_g` with values -/
  jacVals : List N → Option (List N)
  /-- `get_bounds_info`: x_l, x_u, g_l, g_u -/
  bounds : Option (List N × List N × List N × List N)
  /-- `get_starting_point`: x, z_L, z_U, lambda -/
  start : Option (List N × List N × List N × List N)
  /-- `get_scaling_parameters`: objective factor, x factors (if used), g factors (if used) -/
  scaling : Option (N × Option (List N) × Option (List N))
  /-- `get_constraints_linearity`: true = LINEAR -/
  conLin : Option (List Bool)
  evalF : List N → Option N
  evalGrad : List N → Option (List N)
  evalG : List N → Option (List N)
  /-- `eval_h` with values: x, obj_factor, lambda -/
  evalH : List N → N → List N → Option (List N)

/-- what the wrapped `finalize_solution` receives. -/
structure Final (N : Type) where
  status : Nat
  x : List N
  zL : List N
  zU : List N
  g : List N
  lam : List N
  obj : N

/-- members of the reducer.  `keep = none` corresponds to `m_reduced_ = -1`, `jacSkipped = none` to the null pointer. -/
structure Red where
  gSkip : List Int
  xLSkip : List Int
  xUSkip : List Int
  xFix : List Int
  nGSkip : Nat
  nXL : Nat
  nXU : Nat
  nXFix : Nat
  keep : Option (List Int)
  mRed : Nat
  mOrig : Nat
  nnzOrig : Nat
  nnzRed : Nat
  nnzSkip : Nat
  style : Style
  jacSkipped : Option (List Int)

/-- copy, sort, and append the sentinel -1 (IpTNLPReducer.cpp:39-69). -/
def mkSkip (l : List Int) : List Int := l.insertionSort (· ≤ ·) ++ [-1]

/-- constructor (IpTNLPReducer.cpp:15-70); the members not set there are arbitrary. -/
def create (g xL xU xF : List Int) (junk : Nat) : Red :=
  ⟨mkSkip g, mkSkip xL, mkSkip xU, mkSkip xF, g.length, xL.length, xU.length, xF.length, none, junk, junk, junk, junk, junk, .c, none⟩

/-- the FORTRAN_STYLE decrement of the first `k` elements (IpTNLPReducer.cpp:98-116). -/
def decr (s : Style) (k : Nat) (l : List Int) : List Int :=
  match s with
  | .c => l
  | .fortran => (l.take k).map (fun a => a - 1) ++ l.drop k

/-- one step of the loop for `g_keep_map_` (IpTNLPReducer.cpp:121-131): map so far, `m_reduced_`, `count`. -/
def keepStep (skip : List Int) (st : List Int × Nat × Nat) (i : Nat) : List Int × Nat × Nat :=
  if skip.getD st.2.2 (-1) = (i : Int) then (st.1 ++ [-1], st.2.1, st.2.2 + 1)
  else (st.1 ++ [(st.2.1 : Int)], st.2.1 + 1, st.2.2)

/-- `g_keep_map_` and `m_reduced_` (IpTNLPReducer.cpp:118-131). -/
def keepMap (skip : List Int) (m : Nat) : List Int × Nat :=
  let r := (List.range m).foldl (keepStep skip) ([], 0, 0)
  (r.1, r.2.1)

/-- reading an array outside of its bounds gives an arbitrary value `junk`. -/
def rd {A : Type} (junk : A) (l : List A) (i : Int) : A := if 0 ≤ i then l.getD i.toNat junk else junk

/-- the counting loop (IpTNLPReducer.cpp:142-152): the row index is used without subtracting the offset of the index style. -/
def countKept (junk : Int) (keep : List Int) (rows : List (Int × Int)) : Nat := (rows.filter (fun e => rd junk keep e.1 != -1)).length

/-- `get_nlp_info` (IpTNLPReducer.cpp:82-165); answers n, m, nnz_jac_g, nnz_h_lag, index_style. -/
def getNlpInfo {N : Type} (junk : Int) (p : Inner N) (r : Red) : Red × Option (Nat × Nat × Nat × Nat × Style) :=
  if !p.infoOk then (r, none)
  else
    let r1 := { r with mOrig := p.m, nnzOrig := p.nnzJ, style := p.style }
    match r.keep with
    | some _ => (r1, some (p.n, r1.mRed, r1.nnzRed, p.nnzH, p.style))
    | none =>
      let r2 := { r1 with
        gSkip := decr p.style r.nGSkip r.gSkip, xLSkip := decr p.style r.nXL r.xLSkip, xUSkip := decr p.style r.nXU r.xUSkip,
        xFix := decr p.style r.nXFix r.xFix }
      let km := keepMap r2.gSkip p.m
      let r3 := { r2 with keep := some km.1, mRed := km.2 }
      match p.jacStruct with
      | none => (r3, none)
      | some rows =>
        let k := countKept junk km.1 rows
        let r4 := { r3 with nnzRed := k, nnzSkip := rows.length - k }
        (r4, some (p.n, r4.mRed, r4.nnzRed, p.nnzH, p.style))

/-- the loop `if( new_index >= 0 ) out[new_index] = orig[i]` (IpTNLPReducer.cpp:225-233, 257-264, 290-297, 327-334, 382-389). -/
def scatter {A : Type} (d : A) (keep : List Int) (m : Nat) (orig out : List A) : List A :=
  (List.range m).foldl (fun o (i : Nat) => if 0 ≤ rd (-1) keep (i : Int) then o.set (rd (-1) keep (i : Int)).toNat (orig.getD i d) else o) out

/-- the loop `lambda_orig[i] = new_index >= 0 ? lambda[new_index] : 0` (IpTNLPReducer.cpp:498-509, 539-550). -/
def gather {N : Type} [Zero N] (keep : List Int) (m : Nat) (lam : List N) : List N :=
  (List.range m).map (fun (i : Nat) => if 0 ≤ rd (-1) keep (i : Int) then rd 0 lam (rd (-1) keep (i : Int)) else 0)

/-- the variable bounds loop (IpTNLPReducer.cpp:199-222): x_l, x_u, the three counters. -/
def boundStep {N : Type} [Zero N] [Neg N] (huge : N) (r : Red) (xs : List N)
    (st : List N × List N × Nat × Nat × Nat) (i : Nat) : List N × List N × Nat × Nat × Nat :=
  let (xl, xu, cL, cU, cX) := st
  let a := if r.xLSkip.getD cL (-1) = (i : Int) then (xl.set i (-huge), cL + 1) else (xl, cL)
  let b := if r.xUSkip.getD cU (-1) = (i : Int) then (xu.set i huge, cU + 1) else (xu, cU)
  if r.xFix.getD cX (-1) = (i : Int) then (a.1.set i (xs.getD i 0), b.1.set i (xs.getD i 0), a.2, b.2, cX + 1)
  else (a.1, b.1, a.2, b.2, cX)

/-- `get_bounds_info` (IpTNLPReducer.cpp:167-240): x_l, x_u, g_l, g_u; `out` = old contents of the caller's g_l and g_u. -/
def getBounds {N : Type} [Zero N] [Neg N] (huge : N) (p : Inner N) (r : Red) (gl0 gu0 : List N) :
    Option (List N × List N × List N × List N) :=
  match p.bounds with
  | none => none
  | some (xl, xu, gl, gu) =>
    let keep := r.keep.getD []
    let g := (scatter 0 keep r.mOrig gl gl0, scatter 0 keep r.mOrig gu gu0)
    if r.nXFix > 0 || r.nXL > 0 || r.nXU > 0 then
      match (if r.nXFix > 0 then p.start.map (fun s => s.1) else some []) with
      | none => none
      | some xs =>
        let b := (List.range p.n).foldl (boundStep huge r xs) (xl, xu, 0, 0, 0)
        some (b.1, b.2.1, g.1, g.2)
    else some (xl, xu, g.1, g.2)

/-- `get_scaling_parameters` (IpTNLPReducer.cpp:242-270). -/
def getScaling {N : Type} [Zero N] (p : Inner N) (r : Red) (gs0 : List N) : Option (N × Option (List N) × Option (List N)) :=
  p.scaling.map (fun s => (s.1, s.2.1, s.2.2.map (fun gs => scatter 0 (r.keep.getD []) r.mOrig gs gs0)))

/-- `get_constraints_linearity` (IpTNLPReducer.cpp:280-303). -/
def getConLin {N : Type} (p : Inner N) (r : Red) (out : List Bool) : Option (List Bool) :=
  p.conLin.map (fun t => scatter false (r.keep.getD []) r.mOrig t out)

/-- `get_starting_point` (IpTNLPReducer.cpp:305-340), with all parts requested. -/
def getStart {N : Type} [Zero N] (p : Inner N) (r : Red) (lam0 : List N) : Option (List N × List N × List N × List N) :=
  p.start.map (fun s => (s.1, s.2.1, s.2.2.1, scatter 0 (r.keep.getD []) r.mOrig s.2.2.2 lam0))

/-- `eval_g` (IpTNLPReducer.cpp:369-395). -/
def evalG {N : Type} [Zero N] (p : Inner N) (r : Red) (x g0 : List N) : Option (List N) :=
  (p.evalG x).map (fun g => scatter 0 (r.keep.getD []) r.mOrig g g0)

/-- the structure loop of `eval_jac_g` (IpTNLPReducer.cpp:423-443): entries written and positions skipped. -/
def jacStructStep (off : Int) (keep : List Int) (st : List (Int × Int) × List Int) (e : (Int × Int) × Nat) : List (Int × Int) × List Int :=
  let k := rd (-1) keep (e.1.1 - off)
  if 0 ≤ k then (st.1 ++ [(k + off, e.1.2)], st.2) else (st.1, st.2 ++ [(e.2 : Int)])

/-- `eval_jac_g` with `iRow != NULL` (IpTNLPReducer.cpp:410-448). -/
def jacStruct {N : Type} (p : Inner N) (r : Red) : Red × Option (List (Int × Int)) :=
  match p.jacStruct with
  | none => ({ r with jacSkipped := none }, none)
  | some rows =>
    let res := (rows.zipIdx).foldl (jacStructStep r.style.off (r.keep.getD [])) ([], [])
    ({ r with jacSkipped := some (res.2 ++ [-1]) }, some res.1)

/-- the value loop of `eval_jac_g` (IpTNLPReducer.cpp:454-467): values written and `count`. -/
def jacValStep {N : Type} (skipped : List Int) (st : List N × Nat) (e : N × Nat) : List N × Nat :=
  if skipped.getD st.2 (-1) = (e.2 : Int) then (st.1, st.2 + 1) else (st.1 ++ [e.1], st.2)

/-- `eval_jac_g` with values (IpTNLPReducer.cpp:449-476); `none` also if no structure was asked for before (null pointer). -/
def jacVals {N : Type} (p : Inner N) (r : Red) (x : List N) : Option (List N) :=
  match p.jacVals x, r.jacSkipped with
  | some v, some sk => some ((v.zipIdx).foldl (jacValStep sk) ([], 0)).1
  | _, _ => none

/-- `eval_h` with values (IpTNLPReducer.cpp:478-516). -/
def evalH {N : Type} [Zero N] (p : Inner N) (r : Red) (x : List N) (σ : N) (lam : List N) : Option (List N) :=
  p.evalH x σ (gather (r.keep.getD []) r.mOrig lam)

/-- `finalize_solution` (IpTNLPReducer.cpp:518-556): the wrapped `finalize_solution` is called with this.  The return value of `eval_g` is
ignored, `gj` = contents of the new array. -/
def finalize {N : Type} [Zero N] (p : Inner N) (r : Red) (gj : List N) (status : Nat) (x zL zU lam : List N) (obj : N) : Final N :=
  ⟨status, x, zL, zU, (p.evalG x).getD gj, gather (r.keep.getD []) r.mOrig lam, obj⟩

end Verif.Reducer
