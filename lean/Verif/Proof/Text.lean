import Verif.Model.Text
import Mathlib.Tactic.Ring
import Mathlib.Tactic.NormNum
import Mathlib.Tactic.IntervalCases

namespace Verif.Text

theorem digitChar_toNat (d : Nat) (h : d < 10) : (digitChar d).toNat = 48 + d := by
  interval_cases d <;> decide

theorem isDigit_digitChar (d : Nat) (h : d < 10) : isDigit (digitChar d) = true := by
  unfold isDigit; rw [digitChar_toNat d h]; simp; omega

theorem natDecAux_ne_nil (f n : Nat) (h : n < f) : natDecAux f n ≠ [] := by
  cases f with
  | zero => omega
  | succ f => simp only [natDecAux]; split <;> simp

theorem natDecAux_fuel (f g n : Nat) (hf : n < f) (hg : n < g) : natDecAux f n = natDecAux g n := by
  induction f generalizing g n with
  | zero => omega
  | succ f ih =>
    cases g with
    | zero => omega
    | succ g =>
      simp only [natDecAux]
      split
      · rfl
      · rw [ih g (n / 10) (by omega) (by omega)]

/-- Every character of a decimal number is a digit. -/
theorem natDecAux_digits (f n : Nat) : ∀ c ∈ natDecAux f n, isDigit c = true := by
  induction f generalizing n with
  | zero => simp [natDecAux]
  | succ f ih =>
    intro c hc
    simp only [natDecAux] at hc
    split at hc
    · simp only [List.mem_singleton] at hc; subst hc; exact isDigit_digitChar _ (by assumption)
    · rcases List.mem_append.1 hc with h | h
      · exact ih _ c h
      · simp only [List.mem_singleton] at h; subst h; exact isDigit_digitChar _ (by omega)

theorem digitsVal_natDecAux (f n : Nat) (h : n < f) (acc k : Nat) (r : Str) :
    digitsVal acc k (natDecAux f n ++ r) =
      digitsVal (acc * 10 ^ (natDecAux f n).length + n) (k + (natDecAux f n).length) r := by
  induction f generalizing n acc k r with
  | zero => omega
  | succ f ih =>
    simp only [natDecAux]
    split
    · rename_i h10
      simp [digitsVal, isDigit_digitChar n h10, digitChar_toNat n h10]
    · rename_i h10
      rw [List.append_assoc, ih (n / 10) (by omega)]
      simp only [List.singleton_append, digitsVal]
      rw [if_pos (isDigit_digitChar _ (by omega)), digitChar_toNat _ (by omega)]
      congr 1
      · rw [List.length_append, List.length_singleton, pow_succ]
        have := Nat.div_add_mod n 10
        generalize 10 ^ (natDecAux f (n / 10)).length = p
        have h1 : (acc * p + n / 10) * 10 = acc * (p * 10) + (n / 10) * 10 := by ring
        omega
      · rw [List.length_append, List.length_singleton]; omega

theorem digitsVal_natDec (n : Nat) (r : Str) (hr : ∀ c ∈ r.head?, isDigit c = false) :
    digitsVal 0 0 (natDec n ++ r) = (n, (natDec n).length, r) := by
  unfold natDec
  rw [digitsVal_natDecAux _ _ (by omega)]
  cases r with
  | nil => simp [digitsVal]
  | cons c cs =>
    have := hr c (by simp)
    simp [digitsVal, this]

theorem isDigit_not_space (c : Char) (h : isDigit c = true) : isSpace c = false := by
  unfold isDigit at h
  simp only [decide_eq_true_eq] at h
  unfold isSpace
  have key : ∀ n : Nat, (n < 48) → (c == Char.ofNat n) = false := by
    intro n hn
    rw [beq_eq_false_iff_ne]
    intro e
    have : (Char.ofNat n).toNat = n := by interval_cases n <;> decide
    rw [← e] at this
    omega
  have h1 := key 32 (by omega)
  have h2 := key 9 (by omega)
  have h3 := key 10 (by omega)
  have h4 := key 13 (by omega)
  have h5 := key 11 (by omega)
  have h6 := key 12 (by omega)
  simp only [h5, h6, Bool.or_false]
  have e1 : (' ' : Char) = Char.ofNat 32 := rfl
  have e2 : ('\t' : Char) = Char.ofNat 9 := rfl
  have e3 : ('\n' : Char) = Char.ofNat 10 := rfl
  have e4 : ('\r' : Char) = Char.ofNat 13 := rfl
  rw [e1, e2, e3, e4, h1, h2, h3, h4]; rfl

theorem isDigit_ne_sign (c : Char) (h : isDigit c = true) : c ≠ '-' ∧ c ≠ '+' := by
  constructor <;> (rintro rfl; revert h; decide)

theorem natDec_cons (n : Nat) : ∃ c cs, natDec n = c :: cs ∧ isDigit c = true := by
  have h1 := natDecAux_ne_nil (n + 1) n (by omega)
  have h2 := natDecAux_digits (n + 1) n
  unfold natDec
  cases hh : natDecAux (n + 1) n with
  | nil => exact absurd hh h1
  | cons c cs => exact ⟨c, cs, rfl, h2 c (by rw [hh]; simp)⟩

theorem sign_digit (c : Char) (cs : Str) (h : isDigit c = true) : sign (c :: cs) = (false, c :: cs) := by
  obtain ⟨h1, h2⟩ := isDigit_ne_sign c h
  unfold sign
  split
  · rename_i heq; injection heq with e _; exact absurd e h1
  · rename_i heq; injection heq with e _; exact absurd e h2
  · rfl

theorem strtol_intDec (i : Int) (h1 : -2^63 ≤ i) (h2 : i < 2^63) : strtol (intDec i) = (i, []) := by
  obtain ⟨c, cs, hc, hd⟩ := natDec_cons i.natAbs
  have hv := digitsVal_natDec i.natAbs [] (by simp)
  rw [List.append_nil] at hv
  have hlen : ¬ (natDec i.natAbs).length = 0 := by rw [hc]; simp
  unfold strtol intDec
  by_cases hneg : i < 0
  · simp only [hneg, if_true]
    have : List.dropWhile isSpace ('-' :: natDec i.natAbs) = '-' :: natDec i.natAbs := by
      rw [List.dropWhile_cons_of_neg]; decide
    simp only [this, sign, hv, hlen, if_false, if_true]
    congr 1
    omega
  · simp only [hneg, if_false]
    have : List.dropWhile isSpace (natDec i.natAbs) = natDec i.natAbs := by
      rw [hc, List.dropWhile_cons_of_neg]; simp [isDigit_not_space c hd]
    have hs : sign (natDec i.natAbs) = (false, natDec i.natAbs) := by rw [hc]; exact sign_digit c cs hd
    simp only [this, hs, hv, hlen, if_false, Bool.false_eq_true]
    congr 1
    omega

end Verif.Text
