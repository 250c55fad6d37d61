import Verif.Proof.Text
import Mathlib.Algebra.Order.Field.Power
import Mathlib.Tactic.FieldSimp
import Mathlib.Tactic.Positivity

/-! Reading back what `%g` printed: helper lemmas for C04. -/

set_option linter.unusedSimpArgs false

namespace Verif.Text

/-- Value of a digit string. -/
def dval (s : Str) : Nat := s.foldl (fun a c => a * 10 + (c.toNat - 48)) 0

theorem foldl_dval (s : Str) (a : Nat) :
    s.foldl (fun a c => a * 10 + (c.toNat - 48)) a = a * 10 ^ s.length + dval s := by
  induction s generalizing a with
  | nil => simp [dval]
  | cons c s ih =>
    simp only [List.foldl_cons, dval, List.length_cons]
    rw [ih, ih (0 * 10 + _), pow_succ]; ring

theorem dval_append (s t : Str) : dval (s ++ t) = dval s * 10 ^ t.length + dval t := by
  unfold dval; rw [List.foldl_append]; exact foldl_dval t _

theorem digitsVal_digits (s r : Str) (hs : ∀ c ∈ s, isDigit c = true) (hr : ∀ c ∈ r.head?, isDigit c = false) (acc k : Nat) :
    digitsVal acc k (s ++ r) = (acc * 10 ^ s.length + dval s, k + s.length, r) := by
  induction s generalizing acc k with
  | nil =>
    cases r with
    | nil => simp [digitsVal, dval]
    | cons c cs => have := hr c (by simp); simp [digitsVal, this, dval]
  | cons c s ih =>
    have hc := hs c (by simp)
    simp only [List.cons_append, digitsVal, hc, if_true]
    rw [ih (fun c' h' => hs c' (by simp [h']))]
    have : dval (c :: s) = dval [c] * 10 ^ s.length + dval s := by
      rw [← dval_append]; rfl
    rw [this]
    simp only [dval, List.foldl_cons, List.foldl_nil, List.length_cons, Prod.mk.injEq, and_true]
    refine ⟨?_, by omega⟩
    rw [pow_succ]; ring

theorem dval_natDecAux (f n : Nat) (h : n < f) : dval (natDecAux f n) = n := by
  induction f generalizing n with
  | zero => omega
  | succ f ih =>
    simp only [natDecAux]
    split
    · rename_i h10; simp [dval, digitChar_toNat n h10]
    · rw [dval_append, ih (n / 10) (by omega)]
      simp only [dval, List.foldl_cons, List.foldl_nil, List.length_singleton, pow_one, digitChar_toNat (n % 10) (by omega)]
      omega

theorem dval_natDec (n : Nat) : dval (natDec n) = n := dval_natDecAux _ _ (by omega)

theorem natDec_digits (n : Nat) : ∀ c ∈ natDec n, isDigit c = true := natDecAux_digits _ _

theorem natDecAux_bounds (f n : Nat) (h : n < f) (hn : 0 < n) :
    10 ^ ((natDecAux f n).length - 1) ≤ n ∧ n < 10 ^ (natDecAux f n).length := by
  induction f generalizing n with
  | zero => omega
  | succ f ih =>
    simp only [natDecAux]
    split
    · simp; omega
    · rename_i h10
      obtain ⟨h1, h2⟩ := ih (n / 10) (by omega) (by omega)
      have hpos : 0 < (natDecAux f (n / 10)).length := by
        rw [List.length_pos_iff]; exact natDecAux_ne_nil _ _ (by omega)
      rw [List.length_append, List.length_singleton, Nat.add_sub_cancel, pow_succ]
      obtain ⟨l, hl⟩ : ∃ l, (natDecAux f (n / 10)).length = l + 1 := ⟨_, (Nat.succ_pred_eq_of_pos hpos).symm⟩
      rw [hl] at h1 h2 ⊢
      simp only [Nat.add_sub_cancel, pow_succ] at h1 h2 ⊢
      generalize 10 ^ l = p at *
      constructor
      · omega
      · omega

theorem natDec_bounds (n : Nat) (hn : 0 < n) : 10 ^ ((natDec n).length - 1) ≤ n ∧ n < 10 ^ (natDec n).length :=
  natDecAux_bounds _ _ (by omega) hn

theorem natDec_length_pos (n : Nat) : 0 < (natDec n).length := by
  obtain ⟨c, cs, h, _⟩ := natDec_cons n; rw [h]; simp

theorem natDec_length_six (m : Nat) (h1 : 100000 ≤ m) (h2 : m < 1000000) : (natDec m).length = 6 := by
  obtain ⟨a, b⟩ := natDec_bounds m (by omega)
  have hp := natDec_length_pos m
  generalize (natDec m).length = l at *
  by_contra hne
  rcases Nat.lt_or_gt_of_ne hne with h | h
  · have : 10 ^ l ≤ 10 ^ 5 := Nat.pow_le_pow_right (by norm_num) (by omega)
    norm_num at this; omega
  · have : 10 ^ 6 ≤ 10 ^ (l - 1) := Nat.pow_le_pow_right (by norm_num) (by omega)
    norm_num at this; omega

theorem pow10_eq (e : Int) : pow10 e = (10 : ℚ) ^ e := by
  unfold pow10
  split
  · rename_i h
    conv_rhs => rw [← Int.toNat_of_nonneg h]
    rw [zpow_natCast]
  · rename_i h
    have : e = -((-e).toNat : Int) := by omega
    conv_rhs => rw [this]
    rw [zpow_neg, zpow_natCast, one_div]

theorem decExp_spec (n d : Nat) (hn : 0 < n) (hd : 0 < d) :
    (10 : ℚ) ^ (decExp n d) ≤ (n : ℚ) / d ∧ (n : ℚ) / d < (10 : ℚ) ^ (decExp n d + 1) := by
  have hdq : (0 : ℚ) < d := by exact_mod_cast hd
  have hnq : (0 : ℚ) < n := by exact_mod_cast hn
  unfold decExp
  split
  · rename_i hle
    have hq : 0 < n / d := Nat.div_pos hle hd
    obtain ⟨h1, h2⟩ := natDec_bounds (n / d) hq
    have hp := natDec_length_pos (n / d)
    generalize (natDec (n / d)).length = l at *
    obtain ⟨l, rfl⟩ : ∃ k, l = k + 1 := ⟨l - 1, by omega⟩
    have e1 : ((l + 1 : Nat) : Int) - 1 = (l : Int) := by push_cast; ring
    rw [e1]
    simp only [Nat.add_sub_cancel] at h1
    constructor
    · rw [zpow_natCast, le_div_iff₀ hdq]
      have := Nat.mul_le_of_le_div d _ _ h1
      exact_mod_cast this
    · have : (10 : ℚ) ^ ((l : Int) + 1) = ((10 ^ (l + 1) : Nat) : ℚ) := by
        rw [show ((l : Int) + 1) = ((l + 1 : Nat) : Int) by push_cast; ring, zpow_natCast]; push_cast; rfl
      rw [this, div_lt_iff₀ hdq]
      have := (Nat.div_lt_iff_lt_mul hd).1 h2
      exact_mod_cast this
  · rename_i hlt
    have hlt : n < d := by omega
    set t := (d + n - 1) / n - 1 with ht
    have hc1 : (d + n - 1) / n * n ≤ d + n - 1 := Nat.div_mul_le_self _ _
    have hc2 : d ≤ (d + n - 1) / n * n := by
      have := Nat.lt_div_mul_add (a := d + n - 1) hn
      omega
    have hge : 2 ≤ (d + n - 1) / n := by
      rw [Nat.le_div_iff_mul_le hn]; omega
    have htp : 0 < t := by omega
    have ht1 : (d + n - 1) / n = t + 1 := by omega
    rw [ht1] at hc1 hc2
    rw [if_neg (by omega)]
    obtain ⟨h1, h2⟩ := natDec_bounds t htp
    have hp := natDec_length_pos t
    generalize (natDec t).length = l at *
    obtain ⟨l, rfl⟩ : ∃ k, l = k + 1 := ⟨l - 1, by omega⟩
    simp only [Nat.add_sub_cancel] at h1
    constructor
    · rw [zpow_neg, zpow_natCast, inv_eq_one_div, div_le_div_iff₀ (by positivity) hdq, one_mul]
      have : (t + 1) * n ≤ 10 ^ (l + 1) * n := Nat.mul_le_mul_right _ h2
      have h3 : d ≤ n * 10 ^ (l + 1) := by rw [mul_comm n]; omega
      exact_mod_cast h3
    · rw [show (-((l + 1 : Nat) : Int) + 1) = -(l : Int) by push_cast; ring, zpow_neg, zpow_natCast, inv_eq_one_div,
        div_lt_div_iff₀ hdq (by positivity), one_mul]
      have : 10 ^ l * n ≤ t * n := Nat.mul_le_mul_right _ h1
      have h3 : n * 10 ^ l < d := by
        rw [mul_comm n]
        have : (t + 1) * n = t * n + n := by ring
        omega
      exact_mod_cast h3

theorem roundHalfEven_spec (a b : Nat) (hb : 0 < b) : |((roundHalfEven a b : Nat) : ℚ) - (a : ℚ) / b| ≤ 1 / 2 := by
  have hbq : (0 : ℚ) < b := by exact_mod_cast hb
  have hdm := Nat.div_add_mod a b
  have hr : a % b < b := Nat.mod_lt _ hb
  have hab : (a : ℚ) / b = ((a / b : Nat) : ℚ) + ((a % b : Nat) : ℚ) / b := by
    have : (a : ℚ) = (b : ℚ) * ((a / b : Nat) : ℚ) + ((a % b : Nat) : ℚ) := by exact_mod_cast hdm.symm
    rw [div_eq_iff hbq.ne', add_mul, div_mul_cancel₀ _ hbq.ne', this]; ring
  have hlow : 2 * (a % b) ≤ b → ((a % b : Nat) : ℚ) / b ≤ 1 / 2 := by
    intro h
    rw [div_le_iff₀ hbq]
    have : (2 : ℚ) * ((a % b : Nat) : ℚ) ≤ b := by exact_mod_cast h
    linarith
  have hhigh : b ≤ 2 * (a % b) → 1 / 2 ≤ ((a % b : Nat) : ℚ) / b := by
    intro h
    rw [le_div_iff₀ hbq]
    have : (b : ℚ) ≤ (2 : ℚ) * ((a % b : Nat) : ℚ) := by exact_mod_cast h
    linarith
  have hnn : (0 : ℚ) ≤ ((a % b : Nat) : ℚ) / b := by positivity
  have hl1 : ((a % b : Nat) : ℚ) / b ≤ 1 := by
    rw [div_le_iff₀ hbq, one_mul]; exact_mod_cast hr.le
  have down : 2 * (a % b) ≤ b → |((a / b : Nat) : ℚ) - (a : ℚ) / b| ≤ 1 / 2 := by
    intro h; rw [hab, abs_le]; constructor <;> linarith [hlow h]
  have up : b ≤ 2 * (a % b) → |((a / b + 1 : Nat) : ℚ) - (a : ℚ) / b| ≤ 1 / 2 := by
    intro h; rw [hab, abs_le]; push_cast; constructor <;> linarith [hhigh h]
  unfold roundHalfEven
  simp only []
  split
  · exact down (by omega)
  · split
    · exact up (by omega)
    · split
      · exact down (by omega)
      · exact up (by omega)

/-- The six digits: `m * 10^(e-5)` is a nearest number to `x = n/d` among those with six digits, in the decade of `x`. -/
theorem sixDigits_spec (n d : Nat) (hn : 0 < n) (hd : 0 < d) :
    100000 ≤ (sixDigits n d).1 ∧ (sixDigits n d).1 < 1000000 ∧
    |((sixDigits n d).1 : ℚ) * (10 : ℚ) ^ ((sixDigits n d).2 - 5) - (n : ℚ) / d| ≤ 1 / 2 * (10 : ℚ) ^ (decExp n d - 5) := by
  obtain ⟨h1, h2⟩ := decExp_spec n d hn hd
  set e := decExp n d with he
  have hdq : (0 : ℚ) < d := by exact_mod_cast hd
  have h10 : ∀ z : Int, (0 : ℚ) < (10 : ℚ) ^ z := fun z => zpow_pos (by norm_num) z
  -- the scaled value
  obtain ⟨a, b, hb, hm, hab⟩ : ∃ a b : Nat, 0 < b ∧
      (if e ≤ 5 then roundHalfEven (n * 10 ^ (5 - e).toNat) d else roundHalfEven n (d * 10 ^ (e - 5).toNat)) =
        roundHalfEven a b ∧ (a : ℚ) / b = (n : ℚ) / d * (10 : ℚ) ^ (5 - e) := by
    split
    · rename_i h
      refine ⟨_, _, hd, rfl, ?_⟩
      have : (10 : ℚ) ^ (5 - e) = (10 : ℚ) ^ (5 - e).toNat := by
        rw [← zpow_natCast, Int.toNat_of_nonneg (by omega)]
      rw [this]; push_cast; ring
    · rename_i h
      refine ⟨_, _, by positivity, rfl, ?_⟩
      have : (10 : ℚ) ^ (5 - e) = 1 / (10 : ℚ) ^ (e - 5).toNat := by
        rw [← zpow_natCast, Int.toNat_of_nonneg (by omega), one_div, ← zpow_neg]; congr 1; ring
      rw [this]; push_cast; field_simp
  have hr := roundHalfEven_spec a b hb
  rw [hab] at hr
  have hlo : (100000 : ℚ) ≤ (n : ℚ) / d * (10 : ℚ) ^ (5 - e) := by
    have : (100000 : ℚ) = (10 : ℚ) ^ e * (10 : ℚ) ^ (5 - e) := by
      rw [← zpow_add₀ (by norm_num : (10 : ℚ) ≠ 0)]; norm_num
    rw [this]; exact mul_le_mul_of_nonneg_right h1 (h10 _).le
  have hhi : (n : ℚ) / d * (10 : ℚ) ^ (5 - e) < 1000000 := by
    have : (1000000 : ℚ) = (10 : ℚ) ^ (e + 1) * (10 : ℚ) ^ (5 - e) := by
      rw [← zpow_add₀ (by norm_num : (10 : ℚ) ≠ 0)]
      rw [show e + 1 + (5 - e) = 6 by ring]; norm_num
    rw [this]; exact mul_lt_mul_of_pos_right h2 (h10 _)
  have hm1 : 100000 ≤ roundHalfEven a b := by
    have := (abs_le.1 hr).1
    have h3 : (99999 : ℚ) < (roundHalfEven a b : ℚ) := by linarith
    have : 99999 < roundHalfEven a b := by exact_mod_cast h3
    omega
  have hm2 : roundHalfEven a b ≤ 1000000 := by
    have := (abs_le.1 hr).2
    have h3 : (roundHalfEven a b : ℚ) < 1000001 := by linarith
    have : roundHalfEven a b < 1000001 := by exact_mod_cast h3
    omega
  have herr : |(roundHalfEven a b : ℚ) * (10 : ℚ) ^ (e - 5) - (n : ℚ) / d| ≤ 1 / 2 * (10 : ℚ) ^ (e - 5) := by
    have : (roundHalfEven a b : ℚ) * (10 : ℚ) ^ (e - 5) - (n : ℚ) / d =
        ((roundHalfEven a b : ℚ) - (n : ℚ) / d * (10 : ℚ) ^ (5 - e)) * (10 : ℚ) ^ (e - 5) := by
      have h4 : (10 : ℚ) ^ (5 - e) * (10 : ℚ) ^ (e - 5) = 1 := by
        rw [← zpow_add₀ (by norm_num : (10 : ℚ) ≠ 0)]; norm_num
      rw [sub_mul, mul_assoc, h4, mul_one]
    rw [this, abs_mul, abs_of_pos (h10 (e - 5))]
    exact mul_le_mul_of_nonneg_right hr (h10 _).le
  unfold sixDigits
  rw [← he]
  simp only [hm]
  split
  · rename_i heq
    refine ⟨by norm_num, by norm_num, ?_⟩
    have : ((100000 : Nat) : ℚ) * (10 : ℚ) ^ (e + 1 - 5) = (roundHalfEven a b : ℚ) * (10 : ℚ) ^ (e - 5) := by
      rw [heq, show e + 1 - 5 = (e - 5) + 1 by ring, zpow_add₀ (by norm_num : (10 : ℚ) ≠ 0)]; push_cast; ring
    rw [this]; exact herr
  · exact ⟨hm1, by simp only []; omega, herr⟩

theorem stripZeros_eq (s : Str) : ∃ j, s = stripZeros s ++ List.replicate j '0' := by
  refine ⟨(s.reverse.takeWhile (· = '0')).length, ?_⟩
  unfold stripZeros
  have h := List.takeWhile_append_dropWhile (p := (· = '0')) (l := s.reverse)
  have h1 : s.reverse.takeWhile (fun x => decide (x = '0')) =
      List.replicate (s.reverse.takeWhile (fun x => decide (x = '0'))).length '0' := by
    rw [List.eq_replicate_iff]
    refine ⟨rfl, fun b hb => ?_⟩
    have := List.all_eq_true.1 (List.all_takeWhile (p := fun x => decide (x = '0')) (l := s.reverse)) b hb
    simpa using this
  have h2 := congrArg List.reverse h
  rw [List.reverse_append, List.reverse_reverse] at h2
  conv_lhs => rw [← h2]
  congr 1
  conv_lhs => rw [h1]
  simp

theorem dval_zeros (j : Nat) : dval (List.replicate j '0') = 0 := by
  induction j with
  | zero => rfl
  | succ j ih =>
    rw [List.replicate_succ, show '0' :: List.replicate j '0' = ['0'] ++ List.replicate j '0' from rfl, dval_append, ih]
    simp [dval]

/-- Parsing an unsigned decimal number `ip.fp` (digits) followed by `tail`. -/
theorem parse_withFrac (ip fp tail : Str) (hip : ip ≠ []) (hi : ∀ c ∈ ip, isDigit c = true) (hf : ∀ c ∈ fp, isDigit c = true)
    (ht : ∀ c ∈ tail.head?, isDigit c = false ∧ c ≠ '.') :
    fraction (digitsVal 0 0 (withFrac ip fp ++ tail)).1 (digitsVal 0 0 (withFrac ip fp ++ tail)).2.1
      (digitsVal 0 0 (withFrac ip fp ++ tail)).2.2 = (dval (ip ++ fp), ip.length + fp.length, fp.length, tail) := by
  have hl : ip.length ≠ 0 := by intro h; exact hip (List.length_eq_zero_iff.1 h)
  unfold withFrac
  split
  · rename_i h; subst h
    rw [digitsVal_digits ip tail hi (fun c hc => (ht c hc).1)]
    simp only [List.append_nil, List.length_nil, Nat.add_zero, Nat.zero_mul, Nat.zero_add]
    unfold fraction
    split
    · exact absurd rfl (ht '.' (by simp)).2
    · rfl
  · rw [List.append_assoc, digitsVal_digits ip _ hi (by simp; decide)]
    simp only [List.cons_append, fraction]
    rw [digitsVal_digits fp tail hf (fun c hc => (ht c hc).1)]
    simp only [Nat.zero_mul, Nat.zero_add]
    rw [if_neg (by omega), dval_append]

/-- The shape of `%g` output of a positive number. -/
theorem fmtGPos_shape (n d : Nat) (hn : 0 < n) (hd : 0 < d) :
    ∃ (ip fp tail : Str) (E : Int), fmtGPos n d = withFrac ip fp ++ tail ∧ ip ≠ [] ∧ (∀ c ∈ ip, isDigit c = true) ∧
      (∀ c ∈ fp, isDigit c = true) ∧
      ((tail = [] ∧ E = 0) ∨ ∃ k : Nat, ∃ neg : Bool, ∃ ds : Str, tail = 'e' :: (if neg then '-' else '+') :: ds ∧
        ds ≠ [] ∧ (∀ c ∈ ds, isDigit c = true) ∧ dval ds = k ∧ E = if neg then -(k : Int) else k) ∧
      (dval (ip ++ fp) : ℚ) * (10 : ℚ) ^ (E - fp.length) =
        ((sixDigits n d).1 : ℚ) * (10 : ℚ) ^ ((sixDigits n d).2 - 5) := by
  obtain ⟨h1, h2, _⟩ := sixDigits_spec n d hn hd
  unfold fmtGPos
  generalize sixDigits n d = p at *
  obtain ⟨m, e⟩ := p
  simp only [] at h1 h2 ⊢
  have hlen := natDec_length_six m h1 h2
  have hdig := natDec_digits m
  have hval := dval_natDec m
  generalize natDec m = ds at *
  have hstrip : ∀ s : Str, (∀ c ∈ s, isDigit c = true) → ∀ c ∈ stripZeros s, isDigit c = true := by
    intro s hs c hc
    obtain ⟨j, hj⟩ := stripZeros_eq s
    exact hs c (by rw [hj]; simp [hc])
  -- common value computation: `a ++ s` has value `m` and `s` has `l` digits
  have key : ∀ (a s : Str) (E : Int), dval (a ++ s) = m → E - s.length = e - 5 →
      (dval (a ++ stripZeros s) : ℚ) * (10 : ℚ) ^ (E - (stripZeros s).length) = (m : ℚ) * (10 : ℚ) ^ (e - 5) := by
    intro a s E hv hE
    obtain ⟨j, hj⟩ := stripZeros_eq s
    have hl : s.length = (stripZeros s).length + j := by
      conv_lhs => rw [hj]
      simp
    have hm : m = dval (a ++ stripZeros s) * 10 ^ j := by
      rw [← hv]
      conv_lhs => rw [hj, ← List.append_assoc, dval_append, dval_zeros]
      simp
    have : E - (stripZeros s).length = (e - 5) + j := by omega
    rw [this, zpow_add₀ (by norm_num : (10 : ℚ) ≠ 0), zpow_natCast, hm]
    push_cast; ring
  split
  · rename_i hrange
    split
    · rename_i h0
      refine ⟨ds.take (e.toNat + 1), stripZeros (ds.drop (e.toNat + 1)), [], 0, by simp, ?_, ?_, ?_, .inl ⟨rfl, rfl⟩, ?_⟩
      · intro hh
        have := congrArg List.length hh
        simp [hlen] at this
      · exact fun c hc => hdig c (List.mem_of_mem_take hc)
      · exact hstrip _ (fun c hc => hdig c (List.mem_of_mem_drop hc))
      · apply key
        · rw [List.take_append_drop]; exact hval
        · rw [List.length_drop, hlen]; omega
    · rename_i h0
      refine ⟨['0'], stripZeros (List.replicate ((-e).toNat - 1) '0' ++ ds), [], 0, by simp, by simp, ?_, ?_, .inl ⟨rfl, rfl⟩, ?_⟩
      · intro c hc; simp only [List.mem_singleton] at hc; subst hc; decide
      · apply hstrip
        intro c hc
        rcases List.mem_append.1 hc with h | h
        · rw [List.mem_replicate] at h; rw [h.2]; decide
        · exact hdig c h
      · apply key
        · rw [dval_append, dval_append, dval_zeros, hval]; simp [dval]
        · rw [List.length_append, List.length_replicate, hlen]; omega
  · refine ⟨ds.take 1, stripZeros (ds.drop 1), _, e, rfl, ?_, ?_, ?_, .inr ⟨e.natAbs, decide (e < 0),
      if e.natAbs < 10 then '0' :: natDec e.natAbs else natDec e.natAbs, ?_, ?_, ?_, ?_, ?_⟩, ?_⟩
    · intro hh
      have := congrArg List.length hh
      simp [hlen] at this
    · exact fun c hc => hdig c (List.mem_of_mem_take hc)
    · exact hstrip _ (fun c hc => hdig c (List.mem_of_mem_drop hc))
    · by_cases h : e < 0 <;> simp [h]
    · obtain ⟨c, cs, h, _⟩ := natDec_cons e.natAbs
      split <;> simp [h]
    · intro c hc
      split at hc
      · rcases List.mem_cons.1 hc with rfl | h
        · decide
        · exact natDec_digits _ c h
      · exact natDec_digits _ c hc
    · split
      · rw [show '0' :: natDec e.natAbs = ['0'] ++ natDec e.natAbs from rfl, dval_append, dval_natDec]; simp [dval]
      · exact dval_natDec _
    · by_cases h : e < 0 <;> simp only [h, decide_true, decide_false, if_true, Bool.false_eq_true, if_false] <;> omega
    · apply key
      · rw [List.take_append_drop]; exact hval
      · rw [List.length_drop, hlen]; push_cast; omega

theorem digit_facts (c : Char) (h : isDigit c = true) :
    c ≠ 'd' ∧ c ≠ 'D' ∧ c ≠ '.' ∧ c ≠ 'e' ∧ c.toLower ≠ 'i' ∧ c.toLower ≠ 'n' := by
  have hn : 48 ≤ c.toNat ∧ c.toNat ≤ 57 := by simpa [isDigit] using h
  have hc : c = Char.ofNat c.toNat := (Char.ofNat_toNat c).symm
  obtain ⟨h1, h2⟩ := hn
  rw [hc]
  generalize c.toNat = k at h1 h2
  interval_cases k <;> decide

theorem dToE_digits (s : Str) (h : ∀ c ∈ s, c ≠ 'd' ∧ c ≠ 'D') : dToE s = s := by
  unfold dToE
  conv_rhs => rw [← List.map_id s]
  apply List.map_congr_left
  intro c hc
  simp [h c hc]

theorem strip_none (p : Char) (ps s : Str) (h : ∀ c ∈ s.head?, c.toLower ≠ p) : stripPrefixCI (p :: ps) s = none := by
  cases s with
  | nil => rfl
  | cons c cs => simp [stripPrefixCI, h c (by simp)]

/-- Reading back the `%g` text of a positive number, with an optional sign in front. -/
theorem strtod_fmtGPos (rnd : ℚ → Num) (n d : Nat) (hn : 0 < n) (hd : 0 < d) (neg : Bool) :
    strtod rnd (dToE ((if neg then ['-'] else []) ++ fmtGPos n d)) =
      ((if neg then -(rnd (((sixDigits n d).1 : ℚ) * (10 : ℚ) ^ ((sixDigits n d).2 - 5)))
        else rnd (((sixDigits n d).1 : ℚ) * (10 : ℚ) ^ ((sixDigits n d).2 - 5))), []) := by
  obtain ⟨ip, fp, tail, E, hs, hip, hi, hf, ht, hv⟩ := fmtGPos_shape n d hn hd
  have htail : ∀ c ∈ tail.head?, isDigit c = false ∧ c ≠ '.' := by
    rcases ht with ⟨rfl, _⟩ | ⟨k, ng, ds, rfl, _⟩
    · simp
    · simp only [List.head?_cons, Option.mem_some_iff]; rintro c rfl; decide
  have hnoD : ∀ c ∈ (if neg then ['-'] else []) ++ fmtGPos n d, c ≠ 'd' ∧ c ≠ 'D' := by
    intro c hc
    rcases List.mem_append.1 hc with h | h
    · cases neg <;> simp at h
      subst h; decide
    · rw [hs] at h
      rcases List.mem_append.1 h with h | h
      · unfold withFrac at h
        split at h
        · exact ⟨(digit_facts c (hi c h)).1, (digit_facts c (hi c h)).2.1⟩
        · rcases List.mem_append.1 h with h | h
          · exact ⟨(digit_facts c (hi c h)).1, (digit_facts c (hi c h)).2.1⟩
          · rcases List.mem_cons.1 h with rfl | h
            · decide
            · exact ⟨(digit_facts c (hf c h)).1, (digit_facts c (hf c h)).2.1⟩
      · rcases ht with ⟨rfl, _⟩ | ⟨k, ng, ds, rfl, _, hds, _⟩
        · simp at h
        · rcases List.mem_cons.1 h with rfl | h
          · decide
          · rcases List.mem_cons.1 h with rfl | h
            · cases ng <;> decide
            · exact ⟨(digit_facts c (hds c h)).1, (digit_facts c (hds c h)).2.1⟩
  rw [dToE_digits _ hnoD, hs]
  have hpw := parse_withFrac ip fp tail hip hi hf htail
  obtain ⟨c0, cs0, hc0⟩ := List.exists_cons_of_ne_nil hip
  have hd0 := hi c0 (by rw [hc0]; simp)
  obtain ⟨cs, hcs⟩ : ∃ cs, withFrac ip fp ++ tail = c0 :: cs := by
    unfold withFrac; rw [hc0]; split <;> exact ⟨_, rfl⟩
  have hdrop : List.dropWhile isSpace ((if neg then ['-'] else []) ++ (withFrac ip fp ++ tail)) =
      (if neg then ['-'] else []) ++ (withFrac ip fp ++ tail) := by
    cases neg
    · simp only [Bool.false_eq_true, if_false, List.nil_append]
      rw [hcs, List.dropWhile_cons_of_neg]; simp [isDigit_not_space c0 hd0]
    · simp only [if_true, List.singleton_append]
      rw [List.dropWhile_cons_of_neg]; decide
  have hsign : sign ((if neg then ['-'] else []) ++ (withFrac ip fp ++ tail)) = (neg, withFrac ip fp ++ tail) := by
    cases neg
    · simp only [Bool.false_eq_true, if_false, List.nil_append]
      rw [hcs]; exact sign_digit c0 cs hd0
    · rfl
  have hi1 : stripPrefixCI "infinity".toList (withFrac ip fp ++ tail) = none :=
    strip_none 'i' _ _ (by rw [hcs]; simpa using (digit_facts c0 hd0).2.2.2.2.1)
  have hi2 : stripPrefixCI "inf".toList (withFrac ip fp ++ tail) = none :=
    strip_none 'i' _ _ (by rw [hcs]; simpa using (digit_facts c0 hd0).2.2.2.2.1)
  have hi3 : stripPrefixCI "nan".toList (withFrac ip fp ++ tail) = none :=
    strip_none 'n' _ _ (by rw [hcs]; simpa using (digit_facts c0 hd0).2.2.2.2.2)
  have hexp : exponent tail = (E, []) := by
    rcases ht with ⟨rfl, rfl⟩ | ⟨k, ng, ds, rfl, hne, hds, hk, rfl⟩
    · rfl
    · have hdv := digitsVal_digits ds [] hds (by simp) 0 0
      rw [List.append_nil] at hdv
      have hl : ds.length ≠ 0 := by intro h; exact hne (List.length_eq_zero_iff.1 h)
      unfold exponent
      simp only [true_or, if_true]
      have hsg : sign ((if ng then '-' else '+') :: ds) = (ng, ds) := by cases ng <;> rfl
      simp only [hsg, hdv, Nat.zero_mul, Nat.zero_add, hk, hl, if_false]
  unfold strtod
  simp only [hdrop, hsign, hi1, hi2, hi3, hpw, hexp]
  have hk0 : ¬ ip.length + fp.length = 0 := by
    intro h; exact hip (List.length_eq_zero_iff.1 (by omega))
  rw [if_neg hk0, pow10_eq, hv]

end Verif.Text
