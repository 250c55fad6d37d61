import Verif.Proof.FmtG
import Verif.Props.Options

/-!
# C04 — numeric option values that are read back

`SetNumericValue` stores the value as `%g` text (six significant digits), `GetNumericValue` parses that text.  The property
"the value that is read is the value that was set, and lies in the registered range" is **false** (`numeric_roundtrip_fails`).
What holds: the value read is the double nearest to a six-digit decimal nearest to the value set (`numeric_read_back`), and
values that are the double of a decimal with at most six digits (as `1e-8`, `0.1`, `1000`) are read back exactly
(`numeric_decimal_roundtrip`).
-/

set_option linter.unusedSimpArgs false

namespace Verif.Opt
open Text

/-- A nonzero decimal number with at most six significant digits. -/
def SixDigit (d : ℚ) : Prop := ∃ k j : Int, 100000 ≤ |k| ∧ |k| < 1000000 ∧ d = (k : ℚ) * (10 : ℚ) ^ j

/-- `d` is a nearest number to `q` among the decimals with six significant digits. -/
def NearestSixDigit (d q : ℚ) : Prop := SixDigit d ∧ ∀ d', SixDigit d' → |d - q| ≤ |d' - q|

/-- Rounding a decimal to a double commutes with the sign. -/
def OddRounding (rnd : ℚ → Num) : Prop := ∀ q, rnd (-q) = -(rnd q)

private theorem p10 (z : Int) : (0 : ℚ) < (10 : ℚ) ^ z := zpow_pos (by norm_num) z

private theorem ten_mul (a b : Int) : (10 : ℚ) ^ a * (10 : ℚ) ^ b = (10 : ℚ) ^ (a + b) :=
  (zpow_add₀ (by norm_num : (10 : ℚ) ≠ 0) a b).symm

private theorem int_multiple (k j z : Int) (h : z ≤ j) : ∃ K : Int, (k : ℚ) * (10 : ℚ) ^ j = (K : ℚ) * (10 : ℚ) ^ z := by
  refine ⟨k * 10 ^ (j - z).toNat, ?_⟩
  have : (10 : ℚ) ^ j = (10 : ℚ) ^ (j - z).toNat * (10 : ℚ) ^ z := by
    rw [← zpow_natCast, Int.toNat_of_nonneg (by omega), ten_mul]; congr 1; ring
  rw [this]; push_cast; ring

private theorem nearest_int (M K : Int) (x : ℚ) (h : |(M : ℚ) - x| ≤ 1 / 2) : |(M : ℚ) - x| ≤ |(K : ℚ) - x| := by
  by_cases e : K = M
  · rw [e]
  · have h1 : (1 : ℚ) ≤ |((K - M : Int) : ℚ)| := by
      rw [← Int.cast_abs]; exact_mod_cast Int.one_le_abs (sub_ne_zero.2 e)
    have h2 : |((K - M : Int) : ℚ)| ≤ |(K : ℚ) - x| + |(M : ℚ) - x| := by
      push_cast
      rw [show (K : ℚ) - M = (K - x) - (M - x) by ring]
      exact abs_sub _ _
    linarith

private theorem six_nearest (n d : Nat) (hn : 0 < n) (hd : 0 < d) :
    NearestSixDigit (((sixDigits n d).1 : ℚ) * (10 : ℚ) ^ ((sixDigits n d).2 - 5)) ((n : ℚ) / d) := by
  obtain ⟨h1, h2, h3⟩ := sixDigits_spec n d hn hd
  obtain ⟨e1, e2⟩ := decExp_spec n d hn hd
  set x := (n : ℚ) / d with hx
  set e := decExp n d with he
  have hpos : (0 : ℚ) < x := lt_of_lt_of_le (p10 e) e1
  refine ⟨⟨(sixDigits n d).1, (sixDigits n d).2 - 5, ?_, ?_, by push_cast; rfl⟩, ?_⟩
  · rw [abs_of_nonneg (by omega)]; exact_mod_cast h1
  · rw [abs_of_nonneg (by omega)]; exact_mod_cast h2
  · -- the answer is an integer multiple of the unit `10^(e-5)`
    have hE : (sixDigits n d).2 = e ∨ (sixDigits n d).2 = e + 1 := by
      unfold sixDigits; simp only [← he]
      by_cases hc : (if e ≤ 5 then roundHalfEven (n * 10 ^ (5 - e).toNat) d
        else roundHalfEven n (d * 10 ^ (e - 5).toNat)) = 1000000
      · right; rw [if_pos hc]
      · left; rw [if_neg hc]
    obtain ⟨M, hM⟩ := int_multiple ((sixDigits n d).1 : Int) ((sixDigits n d).2 - 5) (e - 5) (by omega)
    have hM' : ((sixDigits n d).1 : ℚ) * (10 : ℚ) ^ ((sixDigits n d).2 - 5) = (M : ℚ) * (10 : ℚ) ^ (e - 5) := by
      rw [← hM]; push_cast; rfl
    rw [hM'] at h3 ⊢
    set p := (10 : ℚ) ^ (e - 5) with hp
    have hpp : (0 : ℚ) < p := p10 _
    have scale : ∀ K : Int, |(K : ℚ) * p - x| = |(K : ℚ) - x / p| * p := by
      intro K
      rw [← abs_of_pos hpp, ← abs_mul, abs_of_pos hpp, sub_mul, div_mul_cancel₀ _ hpp.ne']
    have hM2 : |(M : ℚ) - x / p| ≤ 1 / 2 := by
      rw [scale] at h3; exact le_of_mul_le_mul_right h3 hpp
    have near : ∀ K : Int, |(M : ℚ) * p - x| ≤ |(K : ℚ) * p - x| := by
      intro K; rw [scale, scale]
      exact mul_le_mul_of_nonneg_right (nearest_int M K _ hM2) hpp.le
    have hbase : (100000 : ℚ) * p = (10 : ℚ) ^ e := by
      rw [hp, show (100000 : ℚ) = (10 : ℚ) ^ (5 : Int) by norm_num, ten_mul]; congr 1; ring
    rintro d' ⟨k, j, hk1, hk2, rfl⟩
    by_cases hj : e - 5 ≤ j
    · obtain ⟨K, hK⟩ := int_multiple k j (e - 5) hj
      rw [hK]; exact near K
    · have hb := near 100000
      push_cast at hb
      rw [hbase] at hb
      refine hb.trans ?_
      have h4 : (k : ℚ) * (10 : ℚ) ^ j ≤ (10 : ℚ) ^ e := by
        have hk3 : (k : ℚ) ≤ 1000000 := by
          have : k ≤ 1000000 := by have := le_abs_self k; omega
          exact_mod_cast this
        calc (k : ℚ) * (10 : ℚ) ^ j ≤ 1000000 * (10 : ℚ) ^ j := mul_le_mul_of_nonneg_right hk3 (p10 _).le
          _ = (10 : ℚ) ^ (6 + j) := by rw [← ten_mul]; norm_num
          _ ≤ (10 : ℚ) ^ e := zpow_le_zpow_right₀ (by norm_num) (by omega)
      rw [abs_of_nonpos (by linarith), abs_of_nonpos (by linarith)]
      linarith

/-- Text written and parsed: the number obtained is (the double of) a nearest six-digit decimal. -/
private theorem fmtG_read (rnd : ℚ → Num) (hodd : OddRounding rnd) (q : ℚ) (hq : q ≠ 0) :
    ∃ d, NearestSixDigit d q ∧ strtod rnd (dToE (fmtG (.fin q))) = (rnd d, []) := by
  have hnum : 0 < q.num.natAbs := Int.natAbs_pos.2 (by simpa using hq)
  have hden : 0 < q.den := q.den_pos
  have habs : ((q.num.natAbs : ℚ)) / (q.den : ℚ) = |q| := by
    have h1 : ((q.num.natAbs : Nat) : ℚ) = |(q.num : ℚ)| := by rw [← Int.cast_abs, Int.abs_eq_natAbs, Int.cast_natCast]
    have h2 : |q| = |(q.num : ℚ) / (q.den : ℚ)| := by rw [Rat.num_div_den]
    rw [h1, h2, abs_div, Nat.abs_cast]
  have hnear := six_nearest q.num.natAbs q.den hnum hden
  rw [habs] at hnear
  set d := ((sixDigits q.num.natAbs q.den).1 : ℚ) * (10 : ℚ) ^ ((sixDigits q.num.natAbs q.den).2 - 5) with hdd
  by_cases hneg : q < 0
  · refine ⟨-d, ⟨?_, ?_⟩, ?_⟩
    · obtain ⟨⟨k, j, a, b, c⟩, _⟩ := hnear
      exact ⟨-k, j, by rwa [abs_neg], by rwa [abs_neg], by rw [c]; push_cast; ring⟩
    · intro d' ⟨k, j, a, b, c⟩
      have := hnear.2 (-d') ⟨-k, j, by rwa [abs_neg], by rwa [abs_neg], by rw [c]; push_cast; ring⟩
      rw [abs_of_neg hneg] at this
      rw [show -d - q = -(d - -q) by ring, abs_neg, show d' - q = -(-d' - -q) by ring, abs_neg]
      exact this
    · have := strtod_fmtGPos rnd q.num.natAbs q.den hnum hden true
      simp only [if_true, List.singleton_append] at this
      simp only [fmtG, hq, hneg, if_false, if_true]
      rw [this, hodd]
  · refine ⟨d, ?_, ?_⟩
    · rwa [abs_of_nonneg (not_lt.1 hneg)] at hnear
    · have := strtod_fmtGPos rnd q.num.natAbs q.den hnum hden false
      simp only [Bool.false_eq_true, if_false, List.nil_append] at this
      simp only [fmtG, hq, hneg, if_false]
      rw [this]

/-- The option environment uses the C library's `%g` and `strtod`, where `rnd` rounds decimals to doubles. -/
structure CLib (env : Env) (rnd : ℚ → Num) : Prop where
  fmt : env.fmt = fmtG
  parse : env.strtod = strtod rnd
  odd : OddRounding rnd
  zero : rnd 0 = .fin 0

private theorem read_back (env : Env) (T T' : Str) (v : Num) (c d : Bool) (pre more : List Op)
    (hok : (step env (run env [] pre) (.setNumeric T v c d)).1 = .bool true)
    (hnp : ¬ Protected (tableAfter env pre) T) (hmore : ∀ o ∈ more, ¬ Mentions T o)
    (hT : lower T' = lower T) (hr : Readable env T' .number) :
    (getNumeric env (run env [] (pre ++ [.setNumeric T v c d] ++ more)) T' []).1 =
      if endOk (env.strtod (dToE (env.fmt v))).2 then .ok true (some (env.strtod (dToE (env.fmt v))).1) else .exc := by
  rw [read_numeric_spec env _ T' [] hr]
  have := write_determines_entry env T (env.fmt v) pre more _ (.numeric v c d) hok hnp hmore
  simp only [lookup, if_true, hT]
  rw [this]

/-- **C04 (what is read).** After any history, after a successful unblocked `SetNumericValue(T,v)` and any calls not mentioning
`T`, a read of `T` succeeds and returns the double of a six-digit decimal nearest to `v`; zero, infinities and NaN are read
back as they are. -/
theorem numeric_read_back (env : Env) (rnd : ℚ → Num) (hlib : CLib env rnd) (T T' : Str) (v : Num) (c d : Bool)
    (pre more : List Op)
    (hok : (step env (run env [] pre) (.setNumeric T v c d)).1 = .bool true)
    (hnp : ¬ Protected (tableAfter env pre) T) (hmore : ∀ o ∈ more, ¬ Mentions T o)
    (hT : lower T' = lower T) (hr : Readable env T' .number) :
    ∃ w, (getNumeric env (run env [] (pre ++ [.setNumeric T v c d] ++ more)) T' []).1 = .ok true (some w) ∧
      (∀ q, v = .fin q → q ≠ 0 → ∃ dq, NearestSixDigit dq q ∧ w = rnd dq) ∧
      ((∀ q, v = .fin q → q = 0) → w = v) := by
  rw [read_back env T T' v c d pre more hok hnp hmore hT hr, hlib.fmt, hlib.parse]
  cases v with
  | nan =>
    exact ⟨.nan, rfl, by simp, fun _ => rfl⟩
  | pinf => exact ⟨.pinf, rfl, by simp, fun _ => rfl⟩
  | ninf => exact ⟨.ninf, rfl, by simp, fun _ => rfl⟩
  | fin q =>
    by_cases hq : q = 0
    · subst hq
      refine ⟨.fin 0, ?_, fun q h1 h2 => ?_, fun _ => rfl⟩
      · have h : strtod rnd (dToE (fmtG (.fin 0))) = (rnd (((0 : Nat) : ℚ) * pow10 (0 - (0 : Nat))), []) := rfl
        rw [h]
        simp [endOk, hlib.zero]
      · injection h1 with h1; exact absurd h1.symm h2
    · obtain ⟨dq, h1, h2⟩ := fmtG_read rnd hlib.odd q hq
      rw [h2]
      refine ⟨rnd dq, by simp [endOk], ?_, fun h => absurd (h q rfl) hq⟩
      intro q' hq' _
      injection hq' with e
      exact ⟨dq, e ▸ h1, rfl⟩

/-- The relative error of rounding to a nearest six-digit decimal is at most `5·10^-6`. -/
theorem nearest_error (dq q : ℚ) (hq : q ≠ 0) (h : NearestSixDigit dq q) : |dq - q| ≤ 5 / 1000000 * |q| := by
  have hnum : 0 < q.num.natAbs := Int.natAbs_pos.2 (by simpa using hq)
  have hden : 0 < q.den := q.den_pos
  have habs : ((q.num.natAbs : ℚ)) / (q.den : ℚ) = |q| := by
    have h1 : ((q.num.natAbs : Nat) : ℚ) = |(q.num : ℚ)| := by rw [← Int.cast_abs, Int.abs_eq_natAbs, Int.cast_natCast]
    have h2 : |q| = |(q.num : ℚ) / (q.den : ℚ)| := by rw [Rat.num_div_den]
    rw [h1, h2, abs_div, Nat.abs_cast]
  obtain ⟨h1, h2, h3⟩ := sixDigits_spec q.num.natAbs q.den hnum hden
  obtain ⟨e1, _⟩ := decExp_spec q.num.natAbs q.den hnum hden
  rw [habs] at h3 e1
  set m := ((sixDigits q.num.natAbs q.den).1 : ℚ) * (10 : ℚ) ^ ((sixDigits q.num.natAbs q.den).2 - 5) with hm
  have hbound : 1 / 2 * (10 : ℚ) ^ (decExp q.num.natAbs q.den - 5) ≤ 5 / 1000000 * |q| := by
    have : (10 : ℚ) ^ (decExp q.num.natAbs q.den - 5) = (10 : ℚ) ^ (decExp q.num.natAbs q.den) * (1 / 100000) := by
      rw [zpow_sub₀ (by norm_num : (10 : ℚ) ≠ 0)]; norm_num; ring
    rw [this]; linarith
  have hsix : ∀ s : ℚ, (s = 1 ∨ s = -1) → SixDigit (s * m) := by
    rintro s (rfl | rfl)
    · exact ⟨(sixDigits q.num.natAbs q.den).1, (sixDigits q.num.natAbs q.den).2 - 5,
        by rw [abs_of_nonneg (by omega)]; exact_mod_cast h1, by rw [abs_of_nonneg (by omega)]; exact_mod_cast h2,
        by rw [hm]; push_cast; ring⟩
    · exact ⟨-(sixDigits q.num.natAbs q.den).1, (sixDigits q.num.natAbs q.den).2 - 5,
        by rw [abs_neg, abs_of_nonneg (by omega)]; exact_mod_cast h1,
        by rw [abs_neg, abs_of_nonneg (by omega)]; exact_mod_cast h2, by rw [hm]; push_cast; ring⟩
  rcases lt_or_gt_of_ne hq with hneg | hpos
  · refine (h.2 (-1 * m) (hsix _ (.inr rfl))).trans ?_
    rw [abs_of_neg hneg] at h3 hbound ⊢
    rw [show -1 * m - q = -(m - -q) by ring, abs_neg]
    exact h3.trans hbound
  · refine (h.2 (1 * m) (hsix _ (.inl rfl))).trans ?_
    rw [abs_of_pos hpos] at h3 hbound ⊢
    rw [one_mul]; exact h3.trans hbound

/-- Two six-digit decimals that differ by less than a tenth of the last place of one of them are equal. -/
private theorem six_close (d : ℚ) (k j : Int) (hk1 : 100000 ≤ |k|) (hd : SixDigit d)
    (h : |d - (k : ℚ) * (10 : ℚ) ^ j| < 1 / 10 * (10 : ℚ) ^ j) : d = (k : ℚ) * (10 : ℚ) ^ j := by
  obtain ⟨k', j', a, b, rfl⟩ := hd
  have hk1q : (100000 : ℚ) ≤ |(k : ℚ)| := by rw [← Int.cast_abs]; exact_mod_cast hk1
  have hbq : |(k' : ℚ)| ≤ 1000000 := by rw [← Int.cast_abs]; exact_mod_cast b.le
  have hj : j - 1 ≤ j' := by
    by_contra hlt
    have h1 : |(k' : ℚ) * (10 : ℚ) ^ j'| ≤ 10000 * (10 : ℚ) ^ j := by
      rw [abs_mul, abs_of_pos (p10 j')]
      have h5 : (10 : ℚ) ^ j' ≤ (10 : ℚ) ^ (j - 2) := zpow_le_zpow_right₀ (by norm_num) (by omega)
      have h6 : (10 : ℚ) ^ (j - 2) = (10 : ℚ) ^ j * (1 / 100) := by
        rw [zpow_sub₀ (by norm_num : (10 : ℚ) ≠ 0)]; norm_num; ring
      have := mul_le_mul hbq h5 (p10 _).le (by norm_num)
      rw [h6] at this; linarith
    have h2 : 100000 * (10 : ℚ) ^ j ≤ |(k : ℚ) * (10 : ℚ) ^ j| := by
      rw [abs_mul, abs_of_pos (p10 j)]; exact mul_le_mul_of_nonneg_right hk1q (p10 _).le
    have h3 := abs_sub_abs_le_abs_sub ((k : ℚ) * (10 : ℚ) ^ j) ((k' : ℚ) * (10 : ℚ) ^ j')
    rw [abs_sub_comm] at h3
    have := p10 j
    linarith
  obtain ⟨A, hA⟩ := int_multiple k' j' (j - 1) hj
  obtain ⟨B, hB⟩ := int_multiple k j (j - 1) (by omega)
  rw [hA, hB] at h ⊢
  have h6 : 1 / 10 * (10 : ℚ) ^ j = (10 : ℚ) ^ (j - 1) := by
    rw [zpow_sub₀ (by norm_num : (10 : ℚ) ≠ 0)]; norm_num; ring
  rw [h6, ← sub_mul, abs_mul, abs_of_pos (p10 (j - 1))] at h
  have h7 : |((A - B : Int) : ℚ)| < 1 := by
    push_cast
    have := p10 (j - 1)
    by_contra hge
    rw [not_lt] at hge
    nlinarith
  have h8 : A - B = 0 := by
    rw [← Int.cast_abs] at h7
    have : |A - B| < 1 := by exact_mod_cast h7
    exact Int.abs_lt_one_iff.1 this
  rw [show A = B by omega]

/-- **C04 (partial: decimals with at most six digits).** Let `dq = k·10^j` with six-digit `k` (every nonzero decimal with at most
six significant digits is of this form) and let `v` be its double, i.e. `rnd dq = v`, where rounding changes `dq` by less than
1/100 of its sixth digit.  Then setting the option to `v` and reading it later gives exactly `v`, so it lies in the range. -/
theorem numeric_decimal_roundtrip_partial (env : Env) (rnd : ℚ → Num) (hlib : CLib env rnd) (T T' : Str) (k j : Int) (v : ℚ)
    (hk1 : 100000 ≤ |k|) (hk2 : |k| < 1000000) (hrnd : rnd ((k : ℚ) * (10 : ℚ) ^ j) = .fin v)
    (hclose : |(k : ℚ) * (10 : ℚ) ^ j - v| < 1 / 100 * (10 : ℚ) ^ j) (c d : Bool) (pre more : List Op)
    (hok : (step env (run env [] pre) (.setNumeric T (.fin v) c d)).1 = .bool true)
    (hnp : ¬ Protected (tableAfter env pre) T) (hmore : ∀ o ∈ more, ¬ Mentions T o)
    (hT : lower T' = lower T) (hr : Readable env T' .number) :
    (getNumeric env (run env [] (pre ++ [.setNumeric T (.fin v) c d] ++ more)) T' []).1 = .ok true (some (.fin v)) := by
  obtain ⟨w, h1, h2, _⟩ := numeric_read_back env rnd hlib T T' (.fin v) c d pre more hok hnp hmore hT hr
  have hv : v ≠ 0 := by
    rintro rfl
    have hk1q : (100000 : ℚ) ≤ |(k : ℚ)| := by rw [← Int.cast_abs]; exact_mod_cast hk1
    rw [sub_zero, abs_mul, abs_of_pos (p10 j)] at hclose
    have := p10 j
    nlinarith
  obtain ⟨dq, h3, h4⟩ := h2 v rfl hv
  have h5 := h3.2 _ ⟨k, j, hk1, hk2, rfl⟩
  have h6 : |dq - (k : ℚ) * (10 : ℚ) ^ j| < 1 / 10 * (10 : ℚ) ^ j := by
    have := abs_sub_le dq v ((k : ℚ) * (10 : ℚ) ^ j)
    rw [abs_sub_comm v] at this
    have := p10 j
    linarith
  rw [h1, h4, six_close dq k j hk1 h3.1 h6, hrnd]

/-- An option that must be positive and less than 1 (as `alpha_red_factor` of the program). -/
def boundOpt : RegOpt where
  type := .number
  hasLower := true
  lowerStrict := true
  lower := .fin 0
  hasUpper := true
  upperStrict := true
  upper := .fin 1
  defaultNumber := .fin (1/2)

/-- A registry with this option. -/
def boundReg : List (Str × RegOpt) := [("alpha_red_factor".toList, boundOpt)]

/-- Environment of the counterexample; `strtod` does not round here. -/
def boundEnv : Env := { reg := some boundReg, jnlst := true, idxBits := 32, fmt := fmtG, strtod := strtod .fin }

/-- **C04 fails.** The double `1 - 2^-24` is accepted for an option with strict upper bound 1, but a read returns 1: not the
value that was set, and not a value in the registered range. -/
theorem numeric_roundtrip_fails : ∃ v : Num,
    (step boundEnv [] (.setNumeric "alpha_red_factor".toList v true false)).1 = .bool true ∧
    (getNumeric boundEnv (run boundEnv [] [.setNumeric "alpha_red_factor".toList v true false]) "alpha_red_factor".toList []).1 =
      .ok true (some (.fin 1)) ∧
    v ≠ .fin 1 ∧ (∀ o ∈ getOption boundReg "alpha_red_factor".toList, o.validNumber (.fin 1) = false) :=
  ⟨.fin (1 - 1 / 2 ^ 24), by decide +kernel, by decide +kernel, by decide +kernel, by decide +kernel⟩

/-- **Disagreement.** A quoted value that starts with a blank and contains no number is accepted for a numeric option and means
0 (if 0 is a valid setting). -/
theorem blank_text_reads_as_zero (env : Env) (rnd : ℚ → Num) (hp : env.strtod = strtod rnd) (r : List (Str × RegOpt))
    (hr : env.reg = some r) (tag : Str) (o : RegOpt) (ho : getOption r tag = some o) (hty : o.type = .number)
    (h0 : o.validNumber (.fin 0) = true) (m : Store) (clob : Bool) :
    setFromText env m tag " abc".toList clob = (true, storeText env m tag (env.fmt (.fin 0)) clob false) := by
  have h : strtod rnd (dToE " abc".toList) = (.fin 0, " abc".toList) := rfl
  have he : endOk " abc".toList = true := by decide
  unfold setFromText
  simp only [hr, ho, hty, hp, h, he, if_true]
  unfold setNumeric regCheck
  simp [hr, ho, hty, h0]

/-- **Disagreement.** Integer text is not checked against the range of `Index`: `4294967297` is read as 1. -/
theorem integer_text_truncated (env : Env) (hb : env.idxBits = 32) (r : List (Str × RegOpt))
    (hr : env.reg = some r) (tag : Str) (o : RegOpt) (ho : getOption r tag = some o) (hty : o.type = .integer)
    (h0 : o.validInteger 1 = true) (m : Store) (clob : Bool) :
    setFromText env m tag "4294967297".toList clob = (true, storeText env m tag "1".toList clob false) := by
  have h : strtol "4294967297".toList = (4294967297, []) := by decide +kernel
  have hc : castIndex env 4294967297 = 1 := by unfold castIndex; rw [hb]; decide
  have hi : intDec 1 = "1".toList := by decide +kernel
  unfold setFromText
  simp only [hr, ho, hty, h, endOk, if_true, hc]
  unfold setInteger regCheck
  simp [hr, ho, hty, h0, hi]

/-! ### Examples -/

private theorem boundLib : CLib boundEnv .fin := ⟨rfl, rfl, fun _ => rfl, rfl⟩

/-- The hypotheses of `numeric_decimal_roundtrip_partial` are met by the value 0.3 = 300000 · 10^-6. -/
example : (getNumeric boundEnv (run boundEnv [] ([.clear] ++ [.setNumeric "alpha_red_factor".toList (.fin (3/10)) true false]
    ++ [.getNumeric "alpha_red_factor".toList []])) "alpha_red_factor".toList []).1 = .ok true (some (.fin (3/10))) := by
  refine numeric_decimal_roundtrip_partial boundEnv .fin boundLib _ _ 300000 (-6) (3/10) (by decide) (by decide) ?_ ?_ true false
    _ _ ?_ ?_ ?_ ?_ ?_
  · norm_num
  · norm_num
  · decide +kernel
  · rintro ⟨v, d, h⟩; simp [tableAfter, Table.step] at h
  · intro o ho; simp only [List.mem_singleton] at ho; subst ho; simp [Mentions]
  · decide
  · intro r hr
    have : r = boundReg := by simpa [boundEnv] using hr.symm
    subst this
    exact ⟨_, rfl, rfl, trivial⟩

end Verif.Opt
