import Verif.Model.AdapterUser
import Verif.Props.Adapter
import Mathlib.Data.Finset.Card
import Mathlib.Data.List.Nodup

/-! # C75: scaling factors and nonlinear variables given by the user -/

namespace Verif.Adapter
open Verif
set_option linter.unusedSectionVars false
set_option linter.unusedSimpArgs false
set_option linter.unusedVariables false

section
variable {α : Type} {t : Fixed} {loInf upInf : Num} {xb gb : List (Num × Num)} {deps : List Nat} {s : Spaces}

/-- The user's factors arrive at the right variables and constraints: internal variable `k` gets the factor of the user's variable it stands for, row `k` of the
equalities (inequalities) the factor of the user's constraint it stands for, and the rows added for fixed variables the factor one.  Without a factor
from the user there is no scaling, and a refusal is reported. -/
theorem user_scaling [One α] (s : Spaces) (u : UserScaling α) :
    (u.ret = false → getScaling s u = none) ∧
    (u.ret = true → ∃ r, getScaling s u = some r ∧ r.obj = u.obj ∧
      (u.useX = false → r.x = none) ∧ (u.useX = true → ∃ v, r.x = some v ∧ ∀ k, v k = u.x (s.user k)) ∧
      (u.useG = false → r.c = none ∧ r.d = none) ∧
      (u.useG = true → ∃ c d, r.c = some c ∧ r.d = some d ∧ (∀ k (h : k < s.pc.length), c k = u.g s.pc[k]) ∧ (∀ k, s.pc.length ≤ k → c k = 1) ∧
        ∀ k (h : k < s.pd.length), d k = u.g s.pd[k])) := by
  constructor
  · intro h
    unfold getScaling scalingX
    cases hp : s.pFull <;> simp [h]
  · intro h
    unfold getScaling
    have hx : ∃ v, scalingX s u = some v ∧ ∀ k, v k = u.x (s.user k) := by
      unfold Spaces.user scalingX
      cases hp : s.pFull <;> simp [h]
    obtain ⟨v, hv, hv'⟩ := hx
    rw [hv]
    refine ⟨_, rfl, rfl, fun hh => by simp [hh], fun hh => ⟨v, by simp [hh], hv'⟩, fun hh => by simp [hh], fun hh => ⟨_, _, by simp [hh]; rfl, by simp [hh]; rfl, ?_, ?_, ?_⟩⟩
    · intro k hk; simp [hk]
    · intro k hk; simp [Nat.not_lt.2 hk]
    · intro k hk; simp [hk]

/-- Scaling followed by the translation of rows is scaling of the user's row: what the algorithm sees of the user's constraint `i` is multiplied by the user's factor of `i`,
whatever was removed, reordered or added. -/
theorem user_scaling_rows {K : Type} [Field K] (hd : deps.Pairwise (· < ·)) (h : getSpaces t loInf upInf xb gb deps = some s) (u : UserScaling K) (hr : u.ret = true) (hg : u.useG = true)
    (rhs fullX fullG : Nat → K) (r : InnerScaling K) (hs : getScaling s u = some r) (i : Nat) (hi : i < gb.length) :
    (i ∈ s.pd → ∃ k c, s.pd[k]? = some i ∧ r.d = some c ∧ c k * evalD s fullG k = u.g i * fullG i) ∧
    (i ∈ s.pc → ∃ k c, s.pc[k]? = some i ∧ r.c = some c ∧ c k * evalC s rhs fullX fullG k = u.g i * (fullG i - rhs k)) := by
  obtain ⟨r', hs', -, -, -, -, hG⟩ := (user_scaling s u).2 hr
  rw [hs] at hs'
  cases hs'
  obtain ⟨c, d, hc, hd', h1, -, h2⟩ := hG hg
  constructor
  · intro hm
    obtain ⟨k, hk, rfl⟩ := List.mem_iff_getElem.1 hm
    refine ⟨k, d, by simp, hd', ?_⟩
    rw [h2 k hk]
    simp [evalD, hk]
  · intro hm
    obtain ⟨k, hk, rfl⟩ := List.mem_iff_getElem.1 hm
    refine ⟨k, c, by simp, hc, ?_⟩
    rw [h1 k hk]
    simp [evalC, hk]

/-- number of free variables. -/
theorem free_count (h : getSpaces t loInf upInf xb gb deps = some s) (p : List Nat) (hp : s.pFull = some p) : s.nFull - s.fixed.length = s.nVar := by
  have hpar : s.treat.isParam = true := by
    unfold getSpaces at h
    cases hb : buildMaps t loInf upInf xb gb with
    | none => rw [hb] at h; cases h
    | some m =>
      rw [hb] at h
      simp only [Option.some.injEq] at h
      rw [← h] at hp ⊢
      simp only at hp ⊢
      split_ifs at hp with hh
      exact hh.2
  obtain ⟨h1, -, h2, -, -, h3, -⟩ := getSpaces_spec h
  rw [h1, h2, h3]
  unfold kept
  have hcompl := List.length_eq_countP_add_countP (fun j => keptP s.treat (bnd xb j)) (l := List.range xb.length)
  rw [List.length_range] at hcompl
  rw [← List.countP_eq_length_filter, ← List.countP_eq_length_filter]
  have : List.countP (fun j => decide (IsFixed (bnd xb j) ∧ s.treat ≠ .relaxBounds)) (List.range xb.length) = List.countP (fun j => decide ¬ keptP s.treat (bnd xb j) = true) (List.range xb.length) := by
    apply List.countP_congr
    intro j _
    unfold keptP
    have ht : s.treat ≠ .relaxBounds := by intro hh; rw [hh] at hpar; simp [Fixed.isParam] at hpar
    by_cases hf : IsFixed (bnd xb j) <;> simp [hf, hpar, ht]
  rw [this]
  omega

/-- The variables the user calls nonlinear: those listed, or all after the first `lin` if there is no list. -/
def Nonlinear (fortran : Bool) (lin : Nat) (u : UserNonlin) (i : Nat) : Prop :=
  if u.num < 0 then lin ≤ i else ∃ l, u.list = some l ∧ (i : Int) + (if fortran then 1 else 0) ∈ l

/-- A list of the announced length without duplicates, in range. -/
def ValidList (n : Nat) (fortran : Bool) (u : UserNonlin) (l : List Int) : Prop :=
  (l.length : Int) = u.num ∧ l.Nodup ∧ ∀ i ∈ l, (if fortran then 1 else 0) ≤ i ∧ i < (n : Int) + (if fortran then 1 else 0)

theorem approxOf_correct (h : getSpaces t loInf upInf xb gb deps = some s) (pos : List Nat) (hn : pos.Nodup) (hr : ∀ i ∈ pos, i < xb.length) :
    (approxOf s pos = .whole ∧ ∀ j < s.nVar, s.user j ∈ pos) ∨
    ∃ l, approxOf s pos = .sub l ∧ l.Nodup ∧ (∀ j, j ∈ l ↔ j < s.nVar ∧ s.user j ∈ pos) ∧ ∃ j < s.nVar, s.user j ∉ pos := by
  obtain ⟨hE, hI, -, -⟩ := spaces_variables h
  -- the list of internal positions
  have key : ∀ l : List Nat, (∀ j, j ∈ l ↔ j < s.nVar ∧ s.user j ∈ pos) → l.Nodup →
      (l.length = s.nVar → ∀ j < s.nVar, s.user j ∈ pos) ∧ (l.length ≠ s.nVar → ∃ j < s.nVar, s.user j ∉ pos) := by
    intro l hl hnd
    have hsub : l.toFinset ⊆ Finset.range s.nVar := by
      intro j hj
      rw [List.mem_toFinset] at hj
      exact Finset.mem_range.2 ((hl j).1 hj).1
    have hcard := List.toFinset_card_of_nodup hnd
    constructor
    · intro he j hj
      have := Finset.eq_of_subset_of_card_le hsub (by rw [hcard, he, Finset.card_range])
      have hj' : j ∈ l.toFinset := by rw [this]; exact Finset.mem_range.2 hj
      exact ((hl j).1 (List.mem_toFinset.1 hj')).2
    · intro hne
      by_contra hc
      push Not at hc
      have : l.toFinset = Finset.range s.nVar := by
        apply Finset.Subset.antisymm hsub
        intro j hj
        rw [Finset.mem_range] at hj
        exact List.mem_toFinset.2 ((hl j).2 ⟨hj, hc j hj⟩)
      rw [this, Finset.card_range] at hcard
      exact hne hcard.symm
  unfold approxOf
  cases hp : s.pFull with
  | none =>
    have hinner : ∀ i, s.inner i = some i := fun i => by unfold Spaces.inner; rw [hp]
    have huser : ∀ i, s.user i = i := fun i => by unfold Spaces.user; rw [hp]
    have hl : ∀ j, j ∈ pos ↔ j < s.nVar ∧ s.user j ∈ pos := by
      intro j
      rw [huser]
      refine ⟨fun hj => ⟨((hI j (hr j hj) j).1 (hinner j)).1, hj⟩, fun hj => hj.2⟩
    have hnv : s.nFull = s.nVar := by
      have h1 := (getSpaces_spec h).1
      rw [h1]
      apply Nat.le_antisymm
      · by_contra hlt
        push Not at hlt
        have := ((hI s.nVar hlt s.nVar).1 (hinner _)).1
        omega
      · by_contra hlt
        push Not at hlt
        have := (hE.2.1 xb.length hlt).1
        rw [huser] at this
        omega
    simp only
    by_cases hlen : pos.length = s.nFull
    · rw [if_pos hlen]
      exact Or.inl ⟨rfl, (key pos hl hn).1 (by omega)⟩
    · rw [if_neg hlen]
      exact Or.inr ⟨pos, rfl, hn, hl, (key pos hl hn).2 (by omega)⟩
  | some p =>
    have hcomp : ∀ i, s.inner i = compressed p i := fun i => by unfold Spaces.inner; rw [hp]
    have hl : ∀ j, j ∈ pos.filterMap (compressed p) ↔ j < s.nVar ∧ s.user j ∈ pos := by
      intro j
      rw [List.mem_filterMap]
      constructor
      · rintro ⟨i, hi, hj⟩
        rw [← hcomp] at hj
        obtain ⟨a, b⟩ := (hI i (hr i hi) j).1 hj
        exact ⟨a, by rw [b]; exact hi⟩
      · rintro ⟨a, b⟩
        refine ⟨s.user j, b, ?_⟩
        rw [← hcomp]
        exact (hI _ (hr _ b) j).2 ⟨a, rfl⟩
    have hnd : (pos.filterMap (compressed p)).Nodup := by
      rw [List.Nodup, List.pairwise_filterMap]
      refine List.Pairwise.imp_of_mem ?_ hn
      intro a b ha hb hab x hx y hy hxy
      subst hxy
      rw [← hcomp] at hx hy
      have h1 := ((hI a (hr a ha) x).1 hx).2
      have h2 := ((hI b (hr b hb) x).1 hy).2
      exact hab (h1.symm.trans h2)
    simp only
    rw [free_count h p hp]
    by_cases hlen : (pos.filterMap (compressed p)).length = s.nVar
    · rw [if_pos hlen]
      exact Or.inl ⟨rfl, (key _ hl hnd).1 hlen⟩
    · rw [if_neg hlen]
      exact Or.inr ⟨_, rfl, hnd, hl, (key _ hl hnd).2 hlen⟩

/-- The quasi-Newton approximation lives exactly in the free variables that the user calls nonlinear: the whole space if all are, else an expansion from
a list of these variables without duplicates. -/
theorem approx_variables (h : getSpaces t loInf upInf xb gb deps = some s) (fortran : Bool) (lin : Nat) (u : UserNonlin) (hlin : u.num < 0 → lin ≤ xb.length)
    (hv : 0 ≤ u.num → ∃ l, u.list = some l ∧ ValidList xb.length fortran u l) :
    (approxSpaces s fortran lin u = .whole ∧ ∀ j < s.nVar, Nonlinear fortran lin u (s.user j)) ∨
    ∃ l, approxSpaces s fortran lin u = .sub l ∧ l.Nodup ∧ (∀ j, j ∈ l ↔ j < s.nVar ∧ Nonlinear fortran lin u (s.user j)) ∧ ∃ j < s.nVar, ¬ Nonlinear fortran lin u (s.user j) := by
  have hnf : s.nFull = xb.length := (getSpaces_spec h).1
  obtain ⟨hE, -, -, -⟩ := spaces_variables h
  have huser : ∀ j < s.nVar, s.user j < xb.length := fun j hj => (hE.2.1 j hj).1
  -- translation of a characterization by positions
  have tr : ∀ pos : List Nat, pos.Nodup → (∀ i ∈ pos, i < xb.length) → (∀ i < xb.length, i ∈ pos ↔ Nonlinear fortran lin u i) →
      (approxOf s pos = .whole ∧ ∀ j < s.nVar, Nonlinear fortran lin u (s.user j)) ∨
      ∃ l, approxOf s pos = .sub l ∧ l.Nodup ∧ (∀ j, j ∈ l ↔ j < s.nVar ∧ Nonlinear fortran lin u (s.user j)) ∧ ∃ j < s.nVar, ¬ Nonlinear fortran lin u (s.user j) := by
    intro pos hn hr hm
    rcases approxOf_correct h pos hn hr with ⟨h1, h2⟩ | ⟨l, h1, h2, h3, j, hj, h4⟩
    · exact Or.inl ⟨h1, fun j hj => (hm _ (huser j hj)).1 (h2 j hj)⟩
    · refine Or.inr ⟨l, h1, h2, fun j => ?_, j, hj, fun hh => h4 ((hm _ (huser j hj)).2 hh)⟩
      rw [h3]
      constructor
      · rintro ⟨a, b⟩; exact ⟨a, (hm _ (huser j a)).1 b⟩
      · rintro ⟨a, b⟩; exact ⟨a, (hm _ (huser j a)).2 b⟩
  unfold approxSpaces
  by_cases hneg : u.num < 0
  · by_cases h0 : lin = 0
    · rw [if_pos ⟨hneg, h0⟩]
      exact Or.inl ⟨rfl, fun j _ => by simp [Nonlinear, hneg, h0]⟩
    · rw [if_neg (fun hh => h0 hh.2), if_pos hneg, if_neg (by rw [hnf]; exact Nat.not_lt.2 (hlin hneg))]
      refine tr _ List.nodup_range' ?_ ?_
      · intro i hi
        rw [List.mem_range'_1] at hi
        omega
      · intro i hi
        rw [List.mem_range'_1]
        simp only [Nonlinear, hneg, if_true]
        have := hlin hneg
        omega
  · rw [if_neg (fun hh => hneg hh.1), if_neg hneg]
    obtain ⟨l, hl, hlen, hnd, hrange⟩ := hv (by omega)
    have hl0 : ¬ 0 < u.num → approxOf s [] = approxOf s (l.map fun i => (if fortran then i - 1 else i).toNat) := by
      intro hpos
      have : l.length = 0 := by omega
      rw [List.length_eq_zero_iff.1 this]; rfl
    simp only [hl]
    have hl' : (if 0 < u.num then approxOf s (l.map fun i => (if fortran then i - 1 else i).toNat) else approxOf s []) = approxOf s (l.map fun i => (if fortran then i - 1 else i).toNat) := by
      by_cases hpos : 0 < u.num
      · rw [if_pos hpos]
      · rw [if_neg hpos, hl0 hpos]
    rw [hl']
    refine tr _ ?_ ?_ ?_
    · refine (List.nodup_map_iff_inj_on hnd).2 ?_
      intro a ha b hb hab
      have h1 := hrange a ha
      have h2 := hrange b hb
      cases fortran <;> simp at h1 h2 hab <;> omega
    · intro i hi
      rw [List.mem_map] at hi
      obtain ⟨a, ha, rfl⟩ := hi
      have h1 := hrange a ha
      cases fortran <;> simp at h1 ⊢ <;> omega
    · intro i hi
      rw [List.mem_map]
      simp only [Nonlinear, hneg, if_false, hl, Option.some.injEq, exists_eq_left']
      constructor
      · rintro ⟨a, ha, rfl⟩
        have h1 := hrange a ha
        have : (((if fortran = true then a - 1 else a).toNat : Nat) : Int) + (if fortran = true then 1 else 0) = a := by
          cases fortran <;> simp at h1 ⊢ <;> omega
        rw [this]; exact ha
      · intro ha
        refine ⟨_, ha, ?_⟩
        cases fortran <;> simp

/-- A user who announces nonlinear variables but has no list is told so. -/
theorem approx_no_list (s : Spaces) (fortran : Bool) (lin : Nat) (u : UserNonlin) (hn : 0 < u.num) (hl : u.list = none) : approxSpaces s fortran lin u = .exception := by
  unfold approxSpaces
  rw [if_neg (by omega), if_neg (by omega), if_pos hn, hl]

end

/-! ### Examples -/

namespace UserEx

def b (l u : Int) : Num × Num := (.fin l, .fin u)

/-- three variables, the second fixed and removed; one equality and one inequality. -/
def xb : List (Num × Num) := [b 0 1, b 2 2, b 0 5]
def gb : List (Num × Num) := [b 0 7, b 3 3]

theorem spaces_some : ∃ s, getSpaces .makeParameter .ninf .pinf xb gb [] = some s ∧ s.nVar = 2 ∧ s.user 1 = 2 ∧
    approxSpaces s true 0 ⟨2, some [3, 2]⟩ = .sub [1] ∧ approxSpaces s true 0 ⟨2, some [3, 1]⟩ = .whole := by
  refine ⟨_, rfl, ?_⟩
  decide +kernel

/-- A list with a duplicate makes the code believe that all variables are nonlinear, although variable 0 is not listed. -/
theorem duplicate_counts_twice : ∃ s, getSpaces .makeParameter .ninf .pinf xb gb [] = some s ∧ approxSpaces s false 0 ⟨2, some [2, 2]⟩ = .whole := by
  refine ⟨_, rfl, ?_⟩
  decide +kernel

/-- More linear variables than variables: an array of negative size is allocated. -/
theorem too_many_linear (s : Spaces) (lin : Nat) (u : UserNonlin) (hu : u.num < 0) (h : s.nFull < lin) : approxSpaces s false lin u = .negativeSize := by
  unfold approxSpaces
  rw [if_neg (by omega), if_pos hu, if_pos h]

end UserEx

end Verif.Adapter
