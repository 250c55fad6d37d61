import Verif.Model.Mem
import Mathlib.Tactic.Linarith

/-! # Memory growth (C40) -/

namespace Verif.Mem

/-- In the second branch the conversion is defined if the recommendation is not below the type's range. -/
theorem cast_defined (T : IntType) (q : ℚ) (hlo : (T.lo : ℚ) ≤ q) (hhi : q < T.hiD) :
    cast T (.fin q) = some (trunc q) ∧ T.lo ≤ trunc q ∧ trunc q ≤ T.hi := by
  have h1 : T.lo ≤ trunc q := by
    unfold trunc
    by_cases h : 0 ≤ q
    · rw [if_pos h]; exact Int.le_floor.mpr hlo
    · rw [if_neg h]
      have : (T.lo : ℚ) ≤ (⌈q⌉ : ℤ) := le_trans hlo (Int.le_ceil q)
      exact_mod_cast this
  have h2 : trunc q ≤ T.hi := by
    unfold trunc
    have hq : q < T.hi + 1 := lt_of_lt_of_le hhi T.hiD_le
    by_cases h : 0 ≤ q
    · rw [if_pos h]
      have : ⌊q⌋ < T.hi + 1 := Int.floor_lt.mpr (by push_cast; exact hq)
      omega
    · rw [if_neg h]
      have : ⌈q⌉ ≤ 0 := Int.ceil_le.mpr (by push_cast; linarith)
      have := T.hi_pos
      omega
  exact ⟨by simp [cast, h1, h2], h1, h2⟩

/-- **C40** For every length, minimum and recommendation in the type's range (or above it, also infinite) the new length is not smaller
than the minimum and fits the type, or the overflow error is raised. -/
theorem mem_increase_safe (T : IntType) (len min : Int) (r : Dbl) (hm : T.lo ≤ min ∧ min ≤ T.hi)
    (hr : r = .pinf ∨ ∃ q, r = .fin q ∧ (T.lo : ℚ) ≤ q) :
    computeMemIncrease T len r min = .overflow ∨
      ∃ n, computeMemIncrease T len r min = .len n ∧ min ≤ n ∧ T.lo ≤ n ∧ n ≤ T.hi := by
  unfold computeMemIncrease
  by_cases hge : r.ge T.hiD = true
  · rw [if_pos hge]
    by_cases hl : len < T.hi
    · rw [if_pos hl]
      have := T.lo_neg; have := T.hi_pos
      exact Or.inr ⟨_, rfl, hm.2, by omega, le_rfl⟩
    · rw [if_neg hl]; exact Or.inl rfl
  · rw [if_neg hge]
    right
    rcases hr with rfl | ⟨q, rfl, hq⟩
    · simp [Dbl.ge] at hge
    · simp only [Dbl.ge, decide_eq_true_eq, not_le] at hge
      obtain ⟨hc, h1, h2⟩ := cast_defined T q hq hge
      rw [hc]
      exact ⟨_, rfl, le_max_left _ _, le_trans h1 (le_max_right _ _), max_le hm.2 h2⟩

/-- **C40** The overflow error is raised exactly if the recommendation is not representable and the length is already the largest. -/
theorem mem_increase_overflow_iff (T : IntType) (len min : Int) (r : Dbl) :
    computeMemIncrease T len r min = .overflow ↔ r.ge T.hiD = true ∧ T.hi ≤ len := by
  unfold computeMemIncrease
  by_cases hge : r.ge T.hiD = true
  · rw [if_pos hge]
    by_cases hl : len < T.hi
    · rw [if_pos hl]
      exact ⟨fun h => by simp at h, fun h => by omega⟩
    · rw [if_neg hl]
      exact ⟨fun _ => ⟨hge, by omega⟩, fun _ => rfl⟩
  · rw [if_neg hge]
    cases cast T r with
    | none => exact ⟨fun h => by simp at h, fun h => absurd h.1 hge⟩
    | some n => exact ⟨fun h => by simp at h, fun h => absurd h.1 hge⟩

/-- **C40** A representable recommendation of at least the minimum is followed up to rounding down. -/
theorem mem_increase_follows (T : IntType) (len min : Int) (q : ℚ) (h0 : 0 ≤ q) (hq : q < T.hiD) (hm : min ≤ ⌊q⌋) :
    computeMemIncrease T len (.fin q) min = .len ⌊q⌋ := by
  have hlo : (T.lo : ℚ) ≤ q := le_trans (by exact_mod_cast T.lo_neg) h0
  unfold computeMemIncrease
  rw [if_neg (by simp [Dbl.ge, hq]), (cast_defined T q hlo hq).1]
  simp [trunc, h0, hm]

/-- **C40** NaN and recommendations below the range are undefined behaviour. -/
theorem mem_increase_undefined (T : IntType) (len min : Int) : computeMemIncrease T len .nan min = .undefined := by
  simp [computeMemIncrease, Dbl.ge, cast]

/-- **C40** Multiplying by a factor that is large enough for the current length (`factor * len ≥ len + 1`) really increases it, until the
overflow error: `k` successful retries add at least `k`, so there are at most `hi - len` of them. -/
theorem retry_grows (T : IntType) (factor : ℚ) (k : Nat) (len n : Int) (hlen : 0 < len)
    (hf : (len : ℚ) + 1 ≤ factor * len) (hmax : len ≤ T.hi) (h : retry T factor k len = some n) : len + k ≤ n ∧ n ≤ T.hi := by
  induction k generalizing len with
  | zero => simp only [retry, Option.some.injEq] at h; subst h; simp [hmax]
  | succ k ih =>
    simp only [retry] at h
    have hlq : (0 : ℚ) < len := by exact_mod_cast hlen
    have hfac : 1 ≤ factor := by
      by_contra hc
      have hc := not_le.mp hc
      have : factor * len ≤ 1 * len := by nlinarith
      linarith
    cases hc : computeMemIncrease T len (.fin (factor * len)) 0 with
    | overflow => rw [hc] at h; simp at h
    | undefined => rw [hc] at h; simp at h
    | len m =>
      rw [hc] at h
      have hm : len + 1 ≤ m ∧ m ≤ T.hi := by
        unfold computeMemIncrease at hc
        by_cases hge : (Dbl.fin (factor * len)).ge T.hiD = true
        · rw [if_pos hge] at hc
          by_cases hl : len < T.hi
          · rw [if_pos hl] at hc; injection hc with hc; omega
          · rw [if_neg hl] at hc; simp at hc
        · rw [if_neg hge] at hc
          simp only [Dbl.ge, decide_eq_true_eq, not_le] at hge
          have h0 : 0 ≤ factor * len := by linarith
          obtain ⟨e, h1, h2⟩ := cast_defined T (factor * len) (le_trans (by exact_mod_cast T.lo_neg) h0) hge
          rw [e] at hc
          injection hc with hc
          have : len + 1 ≤ trunc (factor * len) := by
            unfold trunc
            rw [if_pos h0]
            exact Int.le_floor.mpr (by push_cast; exact hf)
          have hz : (0 : Int) ≤ T.hi := T.hi_pos.le
          omega
      have := ih m (by omega) (by
        have h1 : (len : ℚ) + 1 ≤ m := by exact_mod_cast hm.1
        have : (factor - 1) * len ≤ (factor - 1) * m := mul_le_mul_of_nonneg_left (by linarith) (by linarith)
        linarith) hm.2 h
      push_cast
      omega

/-- **C40, limit** With the factor `3/2` (allowed for `ma27_meminc_factor`) a length of one never grows: every retry ends with one. -/
theorem retry_can_stall (k : Nat) : retry int32 (3 / 2) k 1 = some 1 := by
  induction k with
  | zero => rfl
  | succ k ih =>
    have h := mem_increase_follows int32 1 0 (3 / 2) (by norm_num) (by norm_num [int32]) (by norm_num)
    have hfl : ⌊(3 / 2 : ℚ)⌋ = 1 := by norm_num
    rw [hfl] at h
    simp only [retry, Int.cast_one, mul_one]
    rw [h]
    exact ih

/-- Concrete cases: growth, the last possible growth, overflow. -/
example : computeMemIncrease int32 1000 (.fin 2000) 0 = .len 2000 :=
  mem_increase_follows int32 1000 0 2000 (by norm_num) (by norm_num [int32]) (by norm_num)

example : computeMemIncrease int32 2000000000 (.fin 4000000000) 0 = .len 2147483647 := by decide +kernel

example : computeMemIncrease int64 9223372036854775807 (.fin 9223372036854775808) 0 = .overflow := by decide +kernel

example : (1000 : ℚ) + 1 ≤ 2 * 1000 := by norm_num

end Verif.Mem
