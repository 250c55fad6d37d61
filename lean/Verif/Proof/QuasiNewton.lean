import Verif.Spec.QuasiNewton
import Verif.Proof.Matrix3
import Mathlib.Algebra.BigOperators.Fin
import Mathlib.Tactic.Linarith

/-! # The stored history of the quasi-Newton approximation -/

namespace Verif.QuasiNewton
open Finset Verif.Matrix

set_option linter.unusedSectionVars false
set_option linter.unusedVariables false
set_option linter.unusedSimpArgs false

section
variable {K : Type} [Field K] [LinearOrder K]

theorem at_build (n : Nat) (f : Nat → Nat → K) (i j : Nat) (hi : i < n) (hj : j < n) : (DM.build n f).at i j = f i j := by
  unfold DM.at DM.build
  have h1 : i + j * n < n * n := by
    have : (j + 1) * n ≤ n * n := Nat.mul_le_mul_right n (by omega)
    rw [Nat.add_mul] at this; omega
  have h2 : (i + j * n) % n = i := by rw [Nat.add_mul_mod_self_right, Nat.mod_eq_of_lt hi]
  have h3 : (i + j * n) / n = j := by rw [Nat.add_mul_div_right _ _ (by omega), Nat.div_eq_of_lt hi, zero_add]
  simp only
  rw [List.getD_eq_getElem?_getD, List.getElem?_map, List.getElem?_range h1]
  simp [h2, h3]

theorem build_n (n : Nat) (f : Nat → Nat → K) : (DM.build n f).n = n := rfl

theorem sumTo_eq (n : Nat) (f : Nat → K) : sumTo n f = ∑ k ∈ range n, f k := by
  unfold sumTo
  induction n with
  | zero => simp
  | succ n ih => rw [List.range_succ, List.foldl_append, ih, Finset.sum_range_succ]; rfl

/-- null pointer for no columns. -/
def opt {A : Type} (l : List A) : Option (List A) := if l.isEmpty then none else some l

theorem opt_nil {A : Type} : opt ([] : List A) = none := rfl
theorem opt_ne {A : Type} (l : List A) (h : l ≠ []) : opt l = some l := by
  unfold opt; cases l with
  | nil => exact absurd rfl h
  | cons a l => rfl
theorem opt_getD {A : Type} (l : List A) : (opt l).getD [] = l := by
  cases l with
  | nil => rfl
  | cons a l => rfl

/-- adding a pair to a history of at most `m` pairs. -/
def push (m : Nat) (h : List (Pair K)) (p : Pair K) : List (Pair K) := if h.length < m then h ++ [p] else h.tail ++ [p]

theorem augMV_opt (l : List (List K)) (v : List K) : augMV (opt l) v = some (l ++ [v]) := by
  cases l with
  | nil => rfl
  | cons a l => rfl

theorem augVec_opt (l : List K) (v : K) : augVec (opt l) v = some (l ++ [v]) := by
  cases l with
  | nil => rfl
  | cons a l => rfl

theorem map_range_tail {A : Type} (d : A) (c : List A) : (List.range (c.length - 1)).map (fun i => c.getD (i + 1) d) = c.tail := by
  apply List.ext_getElem?
  intro i
  rw [List.getElem?_map, List.getElem?_tail]
  by_cases h : i < c.length - 1
  · rw [List.getElem?_range h]
    simp [List.getD_eq_getElem?_getD, show i + 1 < c.length by omega]
  · rw [List.getElem?_eq_none (by simpa using h), List.getElem?_eq_none (by omega)]; rfl

theorem shiftMV_opt (l : List (List K)) (hl : l ≠ []) (v : List K) : shiftMV (opt l) v = .ok (some (l.tail ++ [v])) := by
  rw [opt_ne l hl]; simp only [shiftMV, map_range_tail]

theorem shiftVec_opt (l : List K) (hl : l ≠ []) (v : K) : shiftVec (opt l) v = .ok (some (l.tail ++ [v])) := by
  rw [opt_ne l hl]; simp only [shiftVec, map_range_tail]

/-- the stored members represent the history `h`. -/
structure Core (cfg : Cfg K) (d : Data K) (h : List (Pair K)) : Prop where
  mem : d.mem = h.length
  S : d.S = opt (h.map (fun p => p.s))
  Y0 : cfg.resto = false → d.Y = opt (h.map (fun p => p.y))
  Yp : cfg.resto = true → d.Ypart = opt (h.map (fun p => p.yp))
  Yr : cfg.resto = true → if h = [] then d.Y = none else ∃ eta, d.Y = recalcY eta d.S d.Ypart
  D : ∃ D, d.D = opt D ∧ D.length = h.length ∧ ∀ i, i < h.length → D.getD i 0 = vdot (col d.S i) (col d.Y i)
  L : odim d.L = h.length ∧ ∀ i j, i < h.length → j < h.length → oat d.L i j = if j < i then vdot (col d.S i) (col d.Y j) else 0
  SS : cfg.regular = true → odim d.SdotS = h.length ∧
    ∀ i j, i < h.length → j ≤ i → oat d.SdotS i j = vdot (col d.S i) (col d.S j)
  DR : cfg.regular = false → d.DRS = opt (h.map (fun p => p.drs))
  ST : cfg.regular = false → odim d.STDRS = h.length ∧
    ∀ i j, i < h.length → j ≤ i → oat d.STDRS i j = vdot (col d.S i) (col d.DRS j)

theorem col_some (l : List (List K)) (i : Nat) : col (some l) i = l.getD i [] := rfl
theorem col_opt (l : List (List K)) (i : Nat) : col (opt l) i = l.getD i [] := by unfold col; rw [opt_getD]

theorem getD_append_lt {A : Type} (d : A) (l r : List A) (i : Nat) (hi : i < l.length) : (l ++ r).getD i d = l.getD i d :=
  List.getD_append _ _ _ _ hi

theorem getD_append_len {A : Type} (d : A) (l : List A) (a : A) : (l ++ [a]).getD l.length d = a := by
  simp [List.getD_eq_getElem?_getD]

theorem getD_append_len' {A : Type} (d : A) (l : List A) (a : A) (n : Nat) (h : n = l.length) : (l ++ [a]).getD n d = a := by
  rw [h, getD_append_len]

theorem getD_tail {A : Type} (d : A) (l : List A) (i : Nat) : l.tail.getD i d = l.getD (i + 1) d := by
  simp [List.getD_eq_getElem?_getD, List.getElem?_tail]

theorem augST_ok (junk : K) (V : Option (DM K)) (n : Nat) (hn : odim V = n) (S T : List (List K)) (s t : List K) (hS : S.length = n)
    (hT : T.length = n)
    (hV : ∀ i j, i < n → j ≤ i → oat V i j = vdot (S.getD i []) (T.getD j [])) :
    odim (augST junk V (some (S ++ [s])) (some (T ++ [t]))) = n + 1 ∧
    ∀ i j, i < n + 1 → j ≤ i → oat (augST junk V (some (S ++ [s])) (some (T ++ [t]))) i j =
      vdot ((S ++ [s]).getD i []) ((T ++ [t]).getD j []) := by
  refine ⟨by show odim V + 1 = n + 1; rw [hn], fun i j hi hj => ?_⟩
  simp only [augST, oat, hn]
  rw [at_build _ _ _ _ hi (by omega)]
  by_cases h : i = n
  · simp only [h, if_true, col_some]
  · rw [if_neg h, if_pos hj, ← oat.eq_def, hV i j (by omega) hj, getD_append_lt _ _ _ _ (by omega), getD_append_lt _ _ _ _ (by omega)]

theorem oat_some_of (V : Option (DM K)) (h : 0 < odim V) : ∃ M, V = some M ∧ M.n = odim V := by
  cases V with
  | none => simp [odim] at h
  | some M => exact ⟨M, rfl, rfl⟩

theorem shiftST_ok (junk : K) (V : Option (DM K)) (n : Nat) (hn : odim V = n) (hpos : 0 < n) (S T : List (List K)) (s t : List K)
    (hS : S.length = n) (hT : T.length = n)
    (hV : ∀ i j, i < n → j ≤ i → oat V i j = vdot (S.getD i []) (T.getD j [])) :
    ∃ V', shiftST junk V (some (S.tail ++ [s])) (some (T.tail ++ [t])) = .ok V' ∧ odim V' = n ∧
    ∀ i j, i < n → j ≤ i → oat V' i j = vdot ((S.tail ++ [s]).getD i []) ((T.tail ++ [t]).getD j []) := by
  obtain ⟨M, rfl, hM⟩ := oat_some_of V (by omega)
  have hM' : M.n = n := by rw [hM, hn]
  refine ⟨_, rfl, by simp [odim, DM.build, hM'], fun i j hi hj => ?_⟩
  simp only [oat, hM']
  rw [at_build _ _ _ _ hi (by omega)]
  by_cases h : i = n - 1
  · simp only [h, if_true, col_some]
  · rw [if_neg h, if_pos hj, getD_append_lt _ _ _ _ (by simp; omega), getD_append_lt _ _ _ _ (by simp; omega), getD_tail, getD_tail,
      ← hV (i + 1) (j + 1) (by omega) (by omega)]
    rfl

theorem augL_ok (V : Option (DM K)) (n : Nat) (hn : odim V = n) (S T : List (List K)) (s t : List K) (hS : S.length = n)
    (hT : T.length = n)
    (hV : ∀ i j, i < n → j < n → oat V i j = if j < i then vdot (S.getD i []) (T.getD j []) else 0) :
    odim (augL V (some (S ++ [s])) (some (T ++ [t]))) = n + 1 ∧
    ∀ i j, i < n + 1 → j < n + 1 → oat (augL V (some (S ++ [s])) (some (T ++ [t]))) i j =
      if j < i then vdot ((S ++ [s]).getD i []) ((T ++ [t]).getD j []) else 0 := by
  refine ⟨by show odim V + 1 = n + 1; rw [hn], fun i j hi hj => ?_⟩
  simp only [augL, oat, hn]
  rw [at_build _ _ _ _ hi (by omega)]
  by_cases h : j = n
  · rw [if_pos h, if_neg (by omega)]
  · rw [if_neg h]
    by_cases h' : i = n
    · simp only [h', if_true, col_some]; rw [if_pos (by omega)]
    · rw [if_neg h', ← oat.eq_def, hV i j (by omega) (by omega)]
      by_cases hj' : j < i
      · rw [if_pos hj', if_pos hj', getD_append_lt _ _ _ _ (by omega), getD_append_lt _ _ _ _ (by omega)]
      · rw [if_neg hj', if_neg hj']

theorem shiftL_ok (V : Option (DM K)) (n : Nat) (hn : odim V = n) (hpos : 0 < n) (S T : List (List K)) (s t : List K)
    (hS : S.length = n) (hT : T.length = n)
    (hV : ∀ i j, i < n → j < n → oat V i j = if j < i then vdot (S.getD i []) (T.getD j []) else 0) :
    ∃ V', shiftL V (some (S.tail ++ [s])) (some (T.tail ++ [t])) = .ok V' ∧ odim V' = n ∧
    ∀ i j, i < n → j < n → oat V' i j = if j < i then vdot ((S.tail ++ [s]).getD i []) ((T.tail ++ [t]).getD j []) else 0 := by
  obtain ⟨M, rfl, hM⟩ := oat_some_of V (by omega)
  have hM' : M.n = n := by rw [hM, hn]
  refine ⟨_, rfl, by simp [odim, DM.build, hM'], fun i j hi hj => ?_⟩
  simp only [oat, hM']
  rw [at_build _ _ _ _ hi (by omega)]
  by_cases h : j = n - 1
  · rw [if_pos h, if_neg (by omega)]
  · rw [if_neg h]
    by_cases h' : i = n - 1
    · simp only [h', if_true, col_some]; rw [if_pos (by omega)]
    · rw [if_neg h']
      have := hV (i + 1) (j + 1) (by omega) (by omega)
      simp only [oat] at this
      rw [this]
      by_cases hj' : j < i
      · rw [if_pos hj', if_pos (by omega), getD_append_lt _ _ _ _ (by simp; omega), getD_append_lt _ _ _ _ (by simp; omega), getD_tail,
          getD_tail]
      · rw [if_neg hj', if_neg (by omega)]

theorem recalcD_ok (S Y : List (List K)) (hne : S ≠ []) : ∃ D, recalcD (some S) (some Y) = opt D ∧ D.length = S.length ∧
    ∀ i, i < S.length → D.getD i 0 = vdot (col (some S) i) (col (some Y) i) := by
  refine ⟨(List.range S.length).map (fun i => vdot (col (some S) i) (col (some Y) i)), ?_, by simp, fun i hi => ?_⟩
  · rw [opt_ne _ (by simpa using hne)]; rfl
  · simp [List.getD_eq_getElem?_getD, hi]

theorem recalcL_ok (S Y : List (List K)) : odim (recalcL (some S) (some Y)) = S.length ∧
    ∀ i j, i < S.length → j < S.length → oat (recalcL (some S) (some Y)) i j =
      if j < i then vdot (col (some S) i) (col (some Y) j) else 0 := by
  refine ⟨rfl, fun i j hi hj => ?_⟩
  simp only [recalcL, oat, Option.getD_some]
  rw [at_build _ _ _ _ hi hj]
  by_cases h : j < i
  · rw [if_pos h, if_neg (by omega)]
  · rw [if_neg h, if_pos (by omega)]

theorem push_length (m : Nat) (hm : 0 < m) (h : List (Pair K)) (hh : h.length ≤ m) (p : Pair K) :
    (push m h p).length = if h.length < m then h.length + 1 else h.length := by
  unfold push
  by_cases hl : h.length < m
  · simp [hl]
  · simp [hl]; omega

theorem push_le (m : Nat) (hm : 0 < m) (h : List (Pair K)) (hh : h.length ≤ m) (p : Pair K) : (push m h p).length ≤ m := by
  rw [push_length m hm h hh p]; split <;> omega

/-- `UpdateInternalData` adds exactly the new pair and drops the oldest one if the memory is full. -/
theorem updateInternal_ok (cfg : Cfg K) (env : Env K) (eta : K) (p : Pair K) (d : Data K) (h : List (Pair K))
    (hm : 0 < cfg.maxHist) (hh : h.length ≤ cfg.maxHist) (hc : Core cfg d h) :
    ∃ d' , updateInternal cfg env eta p d = .ok (d', decide (h.length < cfg.maxHist)) ∧ Core cfg d' (push cfg.maxHist h p) ∧
      d'.V = d.V ∧ d'.U = d.U ∧ d'.sigma = d.sigma ∧ (cfg.resto = true → d'.Y = recalcY eta d'.S d'.Ypart) := by
  have hm0 : cfg.maxHist ≠ 0 := by omega
  have hreg : cfg.resto = false → cfg.regular = true := by intro h; simp [Cfg.regular, h]
  obtain ⟨D, hD, hDl, hDv⟩ := hc.D
  obtain ⟨hLn, hLv⟩ := hc.L
  unfold updateInternal
  rw [if_neg hm0, hc.mem]
  by_cases hlt : h.length < cfg.maxHist
  · rw [if_pos hlt]
    have hp : push cfg.maxHist h p = h ++ [p] := by simp [push, hlt]
    rw [hp, decide_eq_true hlt, hc.S, augMV_opt]
    cases hr : cfg.resto with
    | false =>
      have hY := hc.Y0 hr
      obtain ⟨hSn, hSv⟩ := hc.SS (hreg hr)
      refine ⟨_, by simp only [Bool.not_false, if_true]; rfl, ?_, ?_⟩
      swap
      · exact ⟨rfl, rfl, rfl, by intro h; cases h⟩
      rw [hY, augMV_opt, hD, augVec_opt]
      simp only [hY, hc.S, col_opt] at hDv hLv hSv
      have hL := augL_ok d.L h.length hLn (h.map (fun p => p.s)) (h.map (fun p => p.y)) p.s p.y (by simp) (by simp)
        (fun i j hi hj => hLv i j hi hj)
      have hS := augST_ok env.junk d.SdotS h.length hSn (h.map (fun p => p.s)) (h.map (fun p => p.s)) p.s p.s (by simp) (by simp)
        (fun i j hi hj => hSv i j hi hj)
      refine ⟨by simp, ?_, fun _ => ?_, fun hx => ?_, fun hx => ?_, ?_, ?_, fun _ => ?_, fun hx => ?_, fun hx => ?_⟩
      · simp [opt_ne]
      · simp [opt_ne]
      · rw [hr] at hx; cases hx
      · rw [hr] at hx; cases hx
      · refine ⟨D ++ [vdot p.s p.y], by rw [opt_ne _ (by simp)], by simp [hDl], fun i hi => ?_⟩
        simp only [col_some]
        by_cases hi' : i < h.length
        · rw [getD_append_lt _ _ _ _ (by omega), getD_append_lt _ _ _ _ (by simpa using hi'), getD_append_lt _ _ _ _ (by simpa using hi')]
          exact hDv i hi'
        · simp only [List.length_append, List.length_singleton] at hi
          have : i = h.length := by omega
          rw [getD_append_len' _ _ _ _ (by omega), getD_append_len' _ _ _ _ (by simpa using this),
            getD_append_len' _ _ _ _ (by simpa using this)]
      · simp only [List.length_append, List.length_singleton, col_some]
        exact hL
      · simp only [List.length_append, List.length_singleton, col_some]
        exact hS
      · rw [hreg hr] at hx; cases hx
      · rw [hreg hr] at hx; cases hx
    | true =>
      have hYp := hc.Yp hr
      refine ⟨_, by simp only [Bool.not_true, Bool.false_eq_true, if_false]; rfl, ?_, ?_⟩
      · rw [hYp, augMV_opt]
        have hlenA : (h.map (fun p => p.s) ++ [p.s]).length = (h ++ [p]).length := by simp
        cases hs : cfg.special with
        | true =>
          have hnr : cfg.regular = false := by simp [Cfg.regular, hr, hs]
          have hDR := hc.DR hnr
          obtain ⟨hTn, hTv⟩ := hc.ST hnr
          rw [hDR, augMV_opt]
          simp only [hDR, hc.S, col_opt] at hTv
          have hT := augST_ok env.junk d.STDRS h.length hTn (h.map (fun p => p.s)) (h.map (fun p => p.drs)) p.s p.drs (by simp) (by simp)
            (fun i j hi hj => hTv i j hi hj)
          simp only [if_true]
          refine ⟨by simp, ?_, fun hx => ?_, fun _ => ?_, fun _ => ?_, ?_, ?_, fun hx => ?_, fun _ => ?_, fun _ => ?_⟩
          · simp [opt_ne]
          · rw [hr] at hx; cases hx
          · simp [opt_ne]
          · rw [if_neg (by simp)]; exact ⟨eta, rfl⟩
          · rw [← hlenA]; exact recalcD_ok _ _ (by simp)
          · rw [← hlenA]; exact recalcL_ok _ _
          · rw [hnr] at hx; cases hx
          · simp [opt_ne]
          · simp only [List.length_append, List.length_singleton, col_some]
            exact hT
        | false =>
          have hrg : cfg.regular = true := by simp [Cfg.regular, hs]
          obtain ⟨hSn, hSv⟩ := hc.SS hrg
          simp only [hc.S, col_opt] at hSv
          have hS := augST_ok env.junk d.SdotS h.length hSn (h.map (fun p => p.s)) (h.map (fun p => p.s)) p.s p.s (by simp) (by simp)
            (fun i j hi hj => hSv i j hi hj)
          simp only [if_false, Bool.false_eq_true]
          refine ⟨by simp, ?_, fun hx => ?_, fun _ => ?_, fun _ => ?_, ?_, ?_, fun _ => ?_, fun hx => ?_, fun hx => ?_⟩
          · simp [opt_ne]
          · rw [hr] at hx; cases hx
          · simp [opt_ne]
          · rw [if_neg (by simp)]; exact ⟨eta, rfl⟩
          · rw [← hlenA]; exact recalcD_ok _ _ (by simp)
          · rw [← hlenA]; exact recalcL_ok _ _
          · simp only [List.length_append, List.length_singleton, col_some]
            exact hS
          · rw [hrg] at hx; cases hx
          · rw [hrg] at hx; cases hx
      · cases hs : cfg.special <;> exact ⟨rfl, rfl, rfl, fun _ => rfl⟩
  · rw [if_neg hlt]
    have hhl : h.length = cfg.maxHist := by omega
    have hp : push cfg.maxHist h p = h.tail ++ [p] := by simp [push, hlt]
    have hne : h ≠ [] := by intro h0; rw [h0] at hhl; simp at hhl; omega
    have hpl : (h.tail ++ [p]).length = h.length := by
      cases h with
      | nil => exact absurd rfl hne
      | cons a h => simp
    have mt : ∀ {A : Type} (f : Pair K → A), (h.map f).tail ++ [f p] = (h.tail ++ [p]).map f := by intro A f; simp [List.map_tail]
    rw [hp, decide_eq_false hlt, hc.S, shiftMV_opt _ (by simpa using hne)]
    cases hr : cfg.resto with
    | false =>
      have hY := hc.Y0 hr
      obtain ⟨hSn, hSv⟩ := hc.SS (hreg hr)
      have hDne : D ≠ [] := by intro h0; rw [h0] at hDl; simp at hDl; omega
      simp only [hY, hc.S, col_opt] at hDv hLv hSv
      obtain ⟨L', hL1, hL2, hL3⟩ := shiftL_ok d.L h.length hLn (by omega) (h.map (fun p => p.s)) (h.map (fun p => p.y)) p.s p.y (by simp)
        (by simp) (fun i j hi hj => hLv i j hi hj)
      obtain ⟨S', hS1, hS2, hS3⟩ := shiftST_ok env.junk d.SdotS h.length hSn (by omega) (h.map (fun p => p.s)) (h.map (fun p => p.s)) p.s p.s
        (by simp) (by simp) (fun i j hi hj => hSv i j hi hj)
      rw [hY, shiftMV_opt _ (by simpa using hne), hD, shiftVec_opt _ hDne]
      refine ⟨_, by
        simp only [Bool.not_false, if_true, bind, Except.bind, hL1, hS1]
        rfl, ?_, ?_⟩
      swap
      · exact ⟨rfl, rfl, rfl, by intro h; cases h⟩
      refine ⟨by simp only [hpl], ?_, fun _ => ?_, fun hx => ?_, fun hx => ?_, ?_, ?_, fun _ => ?_, fun hx => ?_, fun hx => ?_⟩
      · simp only [mt (fun p => p.s)]; rw [opt_ne _ (by simp)]
      · simp only [mt (fun p => p.y)]; rw [opt_ne _ (by simp)]
      · rw [hr] at hx; cases hx
      · rw [hr] at hx; cases hx
      · refine ⟨D.tail ++ [vdot p.s p.y], by rw [opt_ne _ (by simp)], by simp [hDl], fun i hi => ?_⟩
        simp only [col_some]
        rw [hpl] at hi
        by_cases hi' : i < h.length - 1
        · rw [getD_append_lt _ _ _ _ (by simp; omega), getD_append_lt _ _ _ _ (by simp; omega), getD_append_lt _ _ _ _ (by simp; omega),
            getD_tail, getD_tail, getD_tail]
          exact hDv (i + 1) (by omega)
        · have : i = h.length - 1 := by omega
          rw [getD_append_len' _ _ _ _ (by simp; omega), getD_append_len' _ _ _ _ (by simp; omega),
            getD_append_len' _ _ _ _ (by simp; omega)]
      · rw [hpl]; exact ⟨hL2, fun i j hi hj => by simpa only [col_some] using hL3 i j hi hj⟩
      · rw [hpl]; exact ⟨hS2, fun i j hi hj => by simpa only [col_some] using hS3 i j hi hj⟩
      · rw [hreg hr] at hx; cases hx
      · rw [hreg hr] at hx; cases hx
    | true =>
      have hYp := hc.Yp hr
      rw [hYp, shiftMV_opt _ (by simpa using hne)]
      have hlen : ((h.map (fun p => p.s)).tail ++ [p.s]).length = h.length := by rw [mt (fun p => p.s), List.length_map, hpl]
      cases hs : cfg.special with
      | true =>
        have hnr : cfg.regular = false := by simp [Cfg.regular, hr, hs]
        have hDR := hc.DR hnr
        obtain ⟨hTn, hTv⟩ := hc.ST hnr
        simp only [hDR, hc.S, col_opt] at hTv
        obtain ⟨T', hT1, hT2, hT3⟩ := shiftST_ok env.junk d.STDRS h.length hTn (by omega) (h.map (fun p => p.s)) (h.map (fun p => p.drs)) p.s
          p.drs (by simp) (by simp) (fun i j hi hj => hTv i j hi hj)
        rw [hDR, shiftMV_opt _ (by simpa using hne)]
        refine ⟨_, by
          simp only [Bool.not_true, Bool.false_eq_true, if_false, if_true, bind, Except.bind, hT1]
          rfl, ?_, ?_⟩
        swap
        · exact ⟨rfl, rfl, rfl, fun _ => rfl⟩
        refine ⟨by simp only [hpl], ?_, fun hx => ?_, fun _ => ?_, fun _ => ?_, ?_, ?_, fun hx => ?_, fun _ => ?_, fun _ => ?_⟩
        · simp only [mt (fun p => p.s)]; rw [opt_ne _ (by simp)]
        · rw [hr] at hx; cases hx
        · simp only [mt (fun p => p.yp)]; rw [opt_ne _ (by simp)]
        · rw [if_neg (by simp)]; exact ⟨eta, rfl⟩
        · rw [hpl, ← hlen]; exact recalcD_ok _ _ (by simp)
        · rw [hpl, ← hlen]; exact recalcL_ok _ _
        · rw [hnr] at hx; cases hx
        · simp only [mt (fun p => p.drs)]; rw [opt_ne _ (by simp)]
        · rw [hpl]; exact ⟨hT2, fun i j hi hj => by simpa only [col_some] using hT3 i j hi hj⟩
      | false =>
        have hrg : cfg.regular = true := by simp [Cfg.regular, hs]
        obtain ⟨hSn, hSv⟩ := hc.SS hrg
        simp only [hc.S, col_opt] at hSv
        obtain ⟨S', hS1, hS2, hS3⟩ := shiftST_ok env.junk d.SdotS h.length hSn (by omega) (h.map (fun p => p.s)) (h.map (fun p => p.s)) p.s
          p.s (by simp) (by simp) (fun i j hi hj => hSv i j hi hj)
        refine ⟨_, by
          simp only [Bool.not_true, Bool.false_eq_true, if_false, bind, Except.bind, hS1]
          rfl, ?_, ?_⟩
        swap
        · exact ⟨rfl, rfl, rfl, fun _ => rfl⟩
        refine ⟨by simp only [hpl], ?_, fun hx => ?_, fun _ => ?_, fun _ => ?_, ?_, ?_, fun _ => ?_, fun hx => ?_, fun hx => ?_⟩
        · simp only [mt (fun p => p.s)]; rw [opt_ne _ (by simp)]
        · rw [hr] at hx; cases hx
        · simp only [mt (fun p => p.yp)]; rw [opt_ne _ (by simp)]
        · rw [if_neg (by simp)]; exact ⟨eta, rfl⟩
        · rw [hpl, ← hlen]; exact recalcD_ok _ _ (by simp)
        · rw [hpl, ← hlen]; exact recalcL_ok _ _
        · rw [hpl]; exact ⟨hS2, fun i j hi hj => by simpa only [col_some] using hS3 i j hi hj⟩
        · rw [hrg] at hx; cases hx
        · rw [hrg] at hx; cases hx

end
end Verif.QuasiNewton
