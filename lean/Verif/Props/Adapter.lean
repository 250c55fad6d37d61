import Verif.Proof.Adapter
import Mathlib.Algebra.Order.Field.Rat
import Mathlib.Tactic.Ring
import Mathlib.Tactic.Linarith

/-! # The user's problem and its internal form (C23, C24) -/

set_option linter.unusedSectionVars false
set_option linter.unusedSimpArgs false

namespace Verif.Adapter

open Verif

theorem keptP_iff (t : Fixed) (b : Num × Num) : keptP t b = true ↔ ¬Removed t b := by
  unfold keptP Removed
  cases t <;> simp [Fixed.isParam]

theorem lowP_iff (t : Fixed) (lo : Num) (b : Num × Num) : lowP t lo b = true ↔ HasLower t lo b := by
  unfold lowP HasLower
  by_cases h : IsFixed b <;> simp [h]

theorem upP_iff (t : Fixed) (up : Num) (b : Num × Num) : upP t up b = true ↔ HasUpper t up b := by
  unfold upP HasUpper
  by_cases h : IsFixed b <;> simp [h]

theorem enumerates_list (l : List Nat) (n : Nat) (P : Nat → Prop) (h : Lists l n P) (f : Nat → Nat) (hf : ∀ a < l.length, f a = l.getD a 0) :
    Enumerates f l.length n P := by
  refine ⟨?_, ?_, ?_⟩
  · intro a b hab hb
    rw [hf a (by omega), hf b hb, List.getD_eq_getElem _ _ (by omega), List.getD_eq_getElem _ _ hb]
    exact List.pairwise_iff_getElem.mp h.1 a b (by omega) hb hab
  · intro a ha
    rw [hf a ha, List.getD_eq_getElem _ _ ha]
    exact (h.2 _).mp (List.getElem_mem ha)
  · intro i hi hp
    obtain ⟨a, ha, he⟩ := List.mem_iff_getElem.mp ((h.2 i).mpr ⟨hi, hp⟩)
    exact ⟨a, ha, by rw [hf a ha, List.getD_eq_getElem _ _ ha, he]⟩

theorem lists_filter (n : Nat) (p : Nat → Bool) : Lists ((List.range n).filter p) n fun i => p i = true := by
  refine ⟨range_filter_lt n p, fun i => ?_⟩
  rw [List.mem_filter, List.mem_range]

theorem lists_congr {l : List Nat} {n : Nat} {P Q : Nat → Prop} (h : Lists l n P) (hq : ∀ i < n, P i ↔ Q i) : Lists l n Q := by
  refine ⟨h.1, fun i => ?_⟩
  rw [h.2]
  constructor
  · rintro ⟨h1, h2⟩; exact ⟨h1, (hq i h1).mp h2⟩
  · rintro ⟨h1, h2⟩; exact ⟨h1, (hq i h1).mpr h2⟩

theorem lists_kept (t : Fixed) (B : List (Num × Num)) (n : Nat) : Lists (kept t B n) n fun i => ¬Removed t (bnd B i) :=
  lists_congr (lists_filter n _) fun i _ => keptP_iff t (bnd B i)

/-- **C23** Inconsistent bounds are reported exactly when some variable or constraint has an upper bound below its lower bound. -/
theorem spaces_inconsistent_iff (t : Fixed) (loInf upInf : Num) (xb gb : List (Num × Num)) (deps : List Nat) :
    getSpaces t loInf upInf xb gb deps = none ↔ ∃ b ∈ xb ++ gb, b.2 < b.1 := getSpaces_none t loInf upInf xb gb deps

section
variable {t : Fixed} {loInf upInf : Num} {xb gb : List (Num × Num)} {deps : List Nat} {s : Spaces}

/-- **C23** The internal variables are exactly the user's variables that are not removed, in the user's order; the two directions of the
numbering are inverse to each other, and removed variables have no internal number. -/
theorem spaces_variables (h : getSpaces t loInf upInf xb gb deps = some s) :
    Enumerates s.user s.nVar xb.length (fun i => ¬Removed s.treat (bnd xb i)) ∧
      (∀ i < xb.length, ∀ j, s.inner i = some j ↔ j < s.nVar ∧ s.user j = i) ∧
      (∀ i < xb.length, s.inner i = none ↔ Removed s.treat (bnd xb i)) ∧
      Lists s.fixed xb.length (fun i => IsFixed (bnd xb i) ∧ s.treat ≠ .relaxBounds) := by
  obtain ⟨-, -, hn, hu, hi, hf, -⟩ := getSpaces_spec h
  have hE : Enumerates s.user s.nVar xb.length (fun i => ¬Removed s.treat (bnd xb i)) := by
    rw [hn]
    exact enumerates_list _ _ _ (lists_kept s.treat xb xb.length) _ (by rw [← hn]; exact hu)
  have hI : ∀ i < xb.length, ∀ j, s.inner i = some j ↔ j < s.nVar ∧ s.user j = i := by
    intro i hi' j
    rw [hi i hi' j]
    constructor
    · rintro ⟨hj, rfl⟩
      rw [← hn] at hj
      exact ⟨hj, by rw [hu j hj, List.getD_eq_getElem]⟩
    · rintro ⟨hj, rfl⟩
      refine ⟨by rw [← hn]; exact hj, ?_⟩
      rw [hu j hj, List.getD_eq_getElem]
  refine ⟨hE, hI, ?_, ?_⟩
  · intro i hi'
    constructor
    · intro hnone
      by_contra hr
      obtain ⟨a, ha, he⟩ := hE.2.2 i hi' hr
      rw [(hI i hi' a).mpr ⟨ha, he⟩] at hnone
      simp at hnone
    · intro hr
      cases hc : s.inner i with
      | none => rfl
      | some j =>
        obtain ⟨hj, rfl⟩ := (hI i hi' j).mp hc
        exact absurd hr (hE.2.1 j hj).2
  · rw [hf]
    exact lists_congr (lists_filter _ _) fun i _ => by simp

/-- **C23** The lists of bounded internal variables contain exactly those with a bound the algorithm has to respect. -/
theorem spaces_bounds (h : getSpaces t loInf upInf xb gb deps = some s) :
    Lists s.pxl s.nVar (fun k => HasLower s.treat loInf (bnd xb (s.user k))) ∧
      Lists s.pxu s.nVar (fun k => HasUpper s.treat upInf (bnd xb (s.user k))) := by
  obtain ⟨-, -, hn, hu, -, -, hl, hup, -⟩ := getSpaces_spec h
  constructor
  · rw [hl, ← hn]
    refine lists_congr (lists_filter _ _) fun k hk => ?_
    rw [lowP_iff, hu k hk]
  · rw [hup, ← hn]
    refine lists_congr (lists_filter _ _) fun k hk => ?_
    rw [upP_iff, hu k hk]

theorem takeOut_mem (c deps : List Nat) (hs : deps.Pairwise (· < ·)) (x : Nat) :
    x ∈ takeOut c deps ↔ ∃ k, ∃ h : k < c.length, c[k] = x ∧ k ∉ deps := by
  rw [takeOut_spec c deps hs, List.mem_map]
  constructor
  · rintro ⟨⟨y, k⟩, hp, rfl⟩
    rw [List.mem_filter] at hp
    obtain ⟨hk, he⟩ := (mem_zipIdx_iff c y k).mp hp.1
    exact ⟨k, hk, he, by simpa using hp.2⟩
  · rintro ⟨k, hk, he, hd⟩
    refine ⟨(x, k), ?_, rfl⟩
    rw [List.mem_filter]
    exact ⟨(mem_zipIdx_iff c x k).mpr ⟨hk, he⟩, by simpa using hd⟩

/-- Position of an element in a filtered range: the number of earlier elements with the property. -/
theorem filter_range_index (n : Nat) (p : Nat → Bool) (k : Nat) (hk : k < ((List.range n).filter p).length) :
    (List.range ((List.range n).filter p)[k]).countP p = k := by
  induction n with
  | zero => simp at hk
  | succ n ih =>
    by_cases hp : p n = true
    · have e : (List.range (n + 1)).filter p = (List.range n).filter p ++ [n] := by
        rw [List.range_succ, List.filter_append, List.filter_cons_of_pos hp]; rfl
      simp only [e] at hk ⊢
      rw [List.length_append, List.length_singleton] at hk
      by_cases h : k < ((List.range n).filter p).length
      · rw [List.getElem_append_left h]; exact ih h
      · have : k = ((List.range n).filter p).length := by omega
        subst this
        simp [List.countP_eq_length_filter]
    · have e : (List.range (n + 1)).filter p = (List.range n).filter p := by
        rw [List.range_succ, List.filter_append, List.filter_cons_of_neg hp]; simp
      simp only [e] at hk ⊢
      exact ih hk

/-- **C23** Equality constraints of the algorithm are exactly the user's constraints with equal bounds, except those whose position among
the equality constraints was reported as linearly dependent; inequality constraints are exactly the other constraints; all in the user's
order, with exactly the bounds that are not infinite. -/
theorem spaces_constraints (hd : deps.Pairwise (· < ·)) (h : getSpaces t loInf upInf xb gb deps = some s) :
    Lists s.pc gb.length (fun i => IsFixed (bnd gb i) ∧ count i (fun j => IsFixed (bnd gb j)) ∉ deps) ∧
      Lists s.pd gb.length (fun i => ¬IsFixed (bnd gb i)) ∧
      Lists s.pdl s.pd.length (fun k => loInf < (bnd gb (s.pd.getD k 0)).1) ∧
      Lists s.pdu s.pd.length (fun k => (bnd gb (s.pd.getD k 0)).2 < upInf) := by
  obtain ⟨-, -, -, -, -, -, -, -, hc, hdd, hdl, hdu, -⟩ := getSpaces_spec h
  refine ⟨?_, ?_, ?_, ?_⟩
  · rw [hc]
    refine ⟨(range_filter_lt _ _).sublist (takeOut_sublist _ _ hd), fun i => ?_⟩
    rw [takeOut_mem _ _ hd]
    constructor
    · rintro ⟨k, hk, rfl, hnd⟩
      have hm := List.getElem_mem hk
      have hm2 := List.mem_filter.mp hm
      refine ⟨List.mem_range.mp hm2.1, by simpa using hm2.2, ?_⟩
      unfold count
      rw [filter_range_index gb.length (fun j => decide (IsFixed (bnd gb j))) k hk]
      exact hnd
    · rintro ⟨hi, hF, hnd⟩
      have hm : i ∈ (List.range gb.length).filter fun j => decide (IsFixed (bnd gb j)) := by
        rw [List.mem_filter]; exact ⟨List.mem_range.mpr hi, by simpa using hF⟩
      obtain ⟨k, hk, rfl⟩ := List.mem_iff_getElem.mp hm
      refine ⟨k, hk, rfl, ?_⟩
      unfold count at hnd
      rw [filter_range_index gb.length (fun j => decide (IsFixed (bnd gb j))) k hk] at hnd
      exact hnd
  · rw [hdd]
    exact lists_congr (lists_filter _ _) fun i _ => by simp
  · rw [hdl, ← hdd]
    exact lists_congr (lists_filter _ _) fun i _ => by simp
  · rw [hdu, ← hdd]
    exact lists_congr (lists_filter _ _) fun i _ => by simp

/-- **C23** The option `fixed_variable_treatment` is respected, except when taking fixed variables out leaves some variables but fewer than
there are equality constraints: then they are kept as bounded variables. -/
theorem spaces_treatment (h : getSpaces t loInf upInf xb gb deps = some s) :
    s.treat = if t ≠ .relaxBounds ∧ (∃ i < xb.length, IsFixed (bnd xb i)) ∧ 0 < count xb.length (fun i => ¬Removed t (bnd xb i)) ∧
      count xb.length (fun i => ¬Removed t (bnd xb i)) < count gb.length (fun i => IsFixed (bnd gb i)) then .relaxBounds else t := by
  unfold getSpaces at h
  cases hm : buildMaps t loInf upInf xb gb with
  | none => rw [hm] at h; simp at h
  | some m =>
    rw [hm] at h
    simp only [Option.some.injEq] at h
    subst h
    simp only
    have pass : ∀ t' m, onePass t' loInf upInf xb gb = some m →
        m.treat = t' ∧ VInv t' loInf upInf xb xb.length m.vars ∧ CInv loInf upInf gb gb.length m.cons := by
      intro t' m hm
      unfold onePass at hm
      cases hv : varLoop t' loInf upInf xb 0 ⟨0, [], [], [], []⟩ with
      | none => rw [hv] at hm; simp at hm
      | some v =>
        rw [hv] at hm
        cases hc : conLoop loInf upInf gb 0 ⟨[], [], [], []⟩ with
        | none => rw [hc] at hm; simp at hm
        | some c =>
          rw [hc] at hm
          simp only [Option.some.injEq] at hm
          subst hm
          have h1 := varLoop_inv t' loInf upInf xb xb 0 _ v rfl ⟨rfl, rfl, rfl, rfl, rfl⟩ hv
          have h2 := conLoop_inv loInf upInf gb gb 0 _ c rfl ⟨rfl, rfl, rfl, rfl⟩ hc
          rw [Nat.zero_add] at h1 h2
          exact ⟨rfl, h1, h2⟩
    unfold buildMaps at hm
    cases h1 : onePass t loInf upInf xb gb with
    | none => rw [h1] at hm; simp at hm
    | some m1 =>
      rw [h1] at hm
      simp only at hm
      obtain ⟨e1, v1, c1⟩ := pass t m1 h1
      have hnv : m1.vars.nVar = count xb.length (fun i => ¬Removed t (bnd xb i)) := by
        rw [v1.nVar]
        unfold kept count
        rw [List.countP_eq_length_filter]
        congr 1
        refine List.filter_congr fun i _ => ?_
        rw [Bool.eq_iff_iff, keptP_iff]; simp
      have hnc : m1.cons.c.length = count gb.length (fun i => IsFixed (bnd gb i)) := by
        rw [c1.c]; unfold count; rw [List.countP_eq_length_filter]
      have hfx : t ≠ .relaxBounds → (m1.vars.fixed.length = 0 ↔ ¬∃ i < xb.length, IsFixed (bnd xb i)) := by
        intro ht
        rw [v1.fixed, List.length_eq_zero_iff, List.filter_eq_nil_iff]
        simp only [List.mem_range, decide_eq_true_eq, not_and, not_exists]
        constructor
        · intro hh i hi hF; exact hh i hi hF ht
        · intro hh i hi hF; exact absurd hF (hh i hi)
      by_cases hc : t = .relaxBounds ∨ m1.vars.fixed.length = 0 ∨ m1.cons.c.length ≤ m1.vars.nVar ∨ m1.vars.nVar = 0
      · rw [if_pos hc] at hm
        simp only [Option.some.injEq] at hm
        subst hm
        rw [if_neg, e1]
        rintro ⟨g1, g2, g3, g4⟩
        rcases hc with hc | hc | hc | hc
        · exact g1 hc
        · exact (hfx g1).mp hc g2
        · omega
        · omega
      · rw [if_neg hc] at hm
        obtain ⟨e2, -, -⟩ := pass _ m hm
        push Not at hc
        have hex : ∃ i < xb.length, IsFixed (bnd xb i) := by
          by_contra hh; exact hc.2.1 ((hfx hc.1).mpr hh)
        rw [e2, if_pos ⟨hc.1, hex, by omega, by omega⟩]

end

/-- A variable or constraint bound that is not a number is accepted and treated as absent. -/
theorem spaces_nan_bound_ignored (loInf upInf : Num) :
    ∃ s, getSpaces .makeParameter loInf upInf [(.nan, .nan)] [] [] = some s ∧ s.pxl = [] ∧ s.pxu = [] := by
  refine ⟨_, rfl, ?_, ?_⟩
  · simp [getSpaces, buildMaps, onePass, varLoop, varStep, conLoop, Num.eqB, Num.lt_def, Num.ltB]
    cases loInf <;> simp [Num.ltB]
  · simp [getSpaces, buildMaps, onePass, varLoop, varStep, conLoop, Num.eqB, Num.lt_def, Num.ltB]

/-- Example: four variables (free, fixed, bounded below, bounded above), three constraints (equality, range, equality). -/
def exX : List (Num × Num) := [(.ninf, .pinf), (.fin 2, .fin 2), (.fin 0, .pinf), (.ninf, .fin 5)]
def exG : List (Num × Num) := [(.fin 1, .fin 1), (.fin (-1), .fin 1), (.fin 3, .fin 3)]

example : (getSpaces .makeParameter .ninf .pinf exX exG []).map (fun s => (s.nVar, (List.range 3).map s.user, s.fixed, s.pxl, s.pxu)) =
    some (3, [0, 2, 3], [1], [1], [2]) := by decide +kernel

example : (getSpaces .makeParameter .ninf .pinf exX exG []).map (fun s => (s.pc, s.pd, s.pdl, s.pdu)) = some ([0, 2], [1], [0], [0]) := by
  decide +kernel

example : (getSpaces .makeParameter .ninf .pinf exX exG [1]).map (·.pc) = some [0] := by decide +kernel

example : (getSpaces .makeParameter .ninf .pinf (exX.take 2) (exG ++ exG) []).map (·.treat) = some .relaxBounds := by decide +kernel


/-! ### Moving vectors between the two numberings (C24) -/

section
variable {t : Fixed} {loInf upInf : Num} {xb gb : List (Num × Num)} {deps : List Nat} {s : Spaces} {α : Type}

/-- **C24** A point of the algorithm, delivered to the user and taken back as starting point, is the same point. -/
theorem resortX_round_trip [Zero α] (h : getSpaces t loInf upInf xb gb deps = some s) (fullX x : Nat → α) (useFixed : Bool) (k : Nat)
    (hk : k < s.nVar) : startX s (resortX s fullX x useFixed) k = x k := by
  obtain ⟨hE, hI, -, -⟩ := spaces_variables h
  have hu := (hE.2.1 k hk).1
  unfold startX resortX
  rw [(hI (s.user k) hu k).mpr ⟨hk, rfl⟩]

/-- **C24** A user's point whose fixed variables have their fixed values comes back unchanged, and in every point delivered to the user the
fixed variables have their fixed values. -/
theorem resortX_user [Zero α] (h : getSpaces t loInf upInf xb gb deps = some s) (xl fullX0 x : Nat → α) (i : Nat) (hi : i < xb.length) :
    (¬Removed s.treat (bnd xb i) → ∃ k < s.nVar, s.user k = i ∧ resortX s (setFixed s xl fullX0) x true i = x k) ∧
      (Removed s.treat (bnd xb i) → resortX s (setFixed s xl fullX0) x true i = xl i) ∧
      (∀ y : Nat → α, (∀ j < xb.length, Removed s.treat (bnd xb j) → y j = xl j) →
        resortX s (setFixed s xl fullX0) (startX s y) true i = y i) := by
  obtain ⟨hE, hI, hN, hF⟩ := spaces_variables h
  have hfix : Removed s.treat (bnd xb i) → setFixed s xl fullX0 i = xl i := by
    intro hr
    have hp : s.treat.isParam = true := by
      obtain ⟨h1 | h1, -⟩ := hr <;> rw [h1] <;> rfl
    unfold setFixed
    rw [if_pos hp]
    have hne : s.treat ≠ .relaxBounds := by obtain ⟨h1 | h1, -⟩ := hr <;> rw [h1] <;> decide
    have hnd : (s.fixed.map fun i => i).Nodup := by rw [List.map_id']; exact hF.1.imp fun h => Nat.ne_of_lt h
    exact foldl_upd_mem s.fixed (fun i => i) xl fullX0 hnd i ((hF.2 i).mpr ⟨hi, hr.2, hne⟩)
  have hfree : ∀ z : Nat → α, ¬Removed s.treat (bnd xb i) → ∃ k < s.nVar, s.user k = i ∧ resortX s (setFixed s xl fullX0) z true i = z k := by
    intro z hr
    obtain ⟨k, hk, he⟩ := hE.2.2 i hi hr
    refine ⟨k, hk, he, ?_⟩
    unfold resortX
    rw [(hI i hi k).mpr ⟨hk, he⟩]
  have hrem : ∀ z : Nat → α, Removed s.treat (bnd xb i) → resortX s (setFixed s xl fullX0) z true i = xl i := by
    intro z hr
    unfold resortX
    rw [(hN i hi).mpr hr]
    simp only [if_true]
    exact hfix hr
  refine ⟨hfree x, hrem x, fun y hy => ?_⟩
  by_cases hr : Removed s.treat (bnd xb i)
  · rw [hrem _ hr, hy i hi hr]
  · obtain ⟨k, -, he, h2⟩ := hfree (startX s y) hr
    rw [h2]
    unfold startX
    rw [he]

/-- The positions of equality and inequality constraints have no common element. -/
theorem pc_pd_disjoint (hd : deps.Pairwise (· < ·)) (h : getSpaces t loInf upInf xb gb deps = some s) (i : Nat) (hi : i ∈ s.pc) : i ∉ s.pd := by
  obtain ⟨hc, hdd, -, -⟩ := spaces_constraints hd h
  intro hi2
  exact ((hdd.2 i).mp hi2).2 ((hc.2 i).mp hi).2.1

/-- **C24** Values (or multipliers) of equality and inequality constraints are delivered to the user at the constraint they belong to;
nothing else is written. -/
theorem resortG_delivers [Add α] (hd : deps.Pairwise (· < ·)) (h : getSpaces t loInf upInf xb gb deps = some s) (rhs c d g0 : Nat → α)
    (correctRhs : Bool) :
    (∀ k, (hk : k < s.pc.length) → resortG s rhs correctRhs c d g0 s.pc[k] = if correctRhs then c k + rhs k else c k) ∧
      (∀ k, (hk : k < s.pd.length) → resortG s rhs correctRhs c d g0 s.pd[k] = d k) ∧
      ∀ i, i ∉ s.pc → i ∉ s.pd → resortG s rhs correctRhs c d g0 i = g0 i := by
  obtain ⟨hc, hdd, -, -⟩ := spaces_constraints hd h
  have nc : s.pc.Nodup := hc.1.imp fun h => Nat.ne_of_lt h
  have nd : s.pd.Nodup := hdd.1.imp fun h => Nat.ne_of_lt h
  unfold resortG
  refine ⟨?_, ?_, ?_⟩
  · intro k hk
    rw [foldl_zipIdx_not s.pd d _ _ (pc_pd_disjoint hd h _ (List.getElem_mem hk))]
    exact foldl_zipIdx_at s.pc (fun k => if correctRhs then c k + rhs k else c k) g0 nc k hk
  · intro k hk
    exact foldl_zipIdx_at s.pd d _ nd k hk
  · intro i h1 h2
    rw [foldl_zipIdx_not s.pd d _ _ h2]
    exact foldl_zipIdx_not s.pc (fun k => if correctRhs then c k + rhs k else c k) g0 i h1

/-- Every constraint that was not taken out as dependent is an equality or an inequality constraint. -/
theorem mem_pc_or_pd (hd : deps.Pairwise (· < ·)) (h : getSpaces t loInf upInf xb gb deps = some s) (i : Nat) (hi : i < gb.length)
    (hn : IsFixed (bnd gb i) → count i (fun j => IsFixed (bnd gb j)) ∉ deps) : i ∈ s.pc ∨ i ∈ s.pd := by
  obtain ⟨hc, hdd, -, -⟩ := spaces_constraints hd h
  by_cases hF : IsFixed (bnd gb i)
  · exact Or.inl ((hc.2 i).mpr ⟨hi, hF, hn hF⟩)
  · exact Or.inr ((hdd.2 i).mpr ⟨hi, hF⟩)

/-- **C24** The constraint values handed to the user at the end are the values the user's function returned: subtracting the right-hand side
for the algorithm and adding it again cancels; constraints taken out as dependent get whatever was in the array before (zero). -/
theorem constraint_values_round_trip {K : Type} [Field K] (hd : deps.Pairwise (· < ·)) (h : getSpaces t loInf upInf xb gb deps = some s)
    (gl xl fullX g g0 : Nat → K) (i : Nat) (hi : i < gb.length) :
    ((IsFixed (bnd gb i) → count i (fun j => IsFixed (bnd gb j)) ∉ deps) →
      resortG s (cRhs s gl xl) true (evalC s (cRhs s gl xl) fullX g) (evalD s g) g0 i = g i) ∧
      (IsFixed (bnd gb i) → count i (fun j => IsFixed (bnd gb j)) ∈ deps →
        resortG s (cRhs s gl xl) true (evalC s (cRhs s gl xl) fullX g) (evalD s g) g0 i = g0 i) := by
  obtain ⟨r1, r2, r3⟩ := resortG_delivers hd h (cRhs s gl xl) (evalC s (cRhs s gl xl) fullX g) (evalD s g) g0 true
  obtain ⟨hc, hdd, -, -⟩ := spaces_constraints hd h
  constructor
  · intro hn
    rcases mem_pc_or_pd hd h i hi hn with hm | hm
    · obtain ⟨k, hk, rfl⟩ := List.mem_iff_getElem.mp hm
      rw [r1 k hk, if_pos rfl]
      unfold evalC
      rw [if_pos hk, List.getD_eq_getElem _ _ hk]
      ring
    · obtain ⟨k, hk, rfl⟩ := List.mem_iff_getElem.mp hm
      rw [r2 k hk]
      unfold evalD
      rw [List.getD_eq_getElem _ _ hk]
  · intro hF hm
    refine r3 i (fun hc' => ((hc.2 i).mp hc').2.2 hm) fun hd' => ((hdd.2 i).mp hd').2 hF

/-- **C24** The algorithm's equality constraints vanish exactly where the user's equality constraints (and, for fixed variables treated as
constraints, the fixings) hold, and its inequality constraints have the user's values. -/
theorem internal_constraints_meaning {K : Type} [Field K]
    (gl xl fullX g : Nat → K) :
    (∀ k, (hk : k < s.pc.length) → (evalC s (cRhs s gl xl) fullX g k = 0 ↔ g s.pc[k] = gl s.pc[k])) ∧
      (∀ k, (hk : k < s.fixed.length) → (evalC s (cRhs s gl xl) fullX g (s.pc.length + k) = 0 ↔ fullX s.fixed[k] = xl s.fixed[k])) ∧
      (∀ k, (hk : k < s.pd.length) → evalD s g k = g s.pd[k]) := by
  refine ⟨?_, ?_, ?_⟩
  · intro k hk
    unfold evalC cRhs
    rw [if_pos hk, if_pos hk, List.getD_eq_getElem _ _ hk, sub_eq_zero]
  · intro k hk
    unfold evalC cRhs
    rw [if_neg (by omega), if_neg (by omega), show s.pc.length + k - s.pc.length = k by omega, List.getD_eq_getElem _ _ hk, sub_eq_zero]
  · intro k hk
    unfold evalD
    rw [List.getD_eq_getElem _ _ hk]

/-- **C24** Multipliers: starting values taken from the user and delivered back are the user's, at every constraint not taken out. -/
theorem multipliers_round_trip {K : Type} [Field K] (hd : deps.Pairwise (· < ·)) (h : getSpaces t loInf upInf xb gb deps = some s)
    (lam zl zu rhs g0 : Nat → K) (i : Nat) (hi : i < gb.length) (hn : IsFixed (bnd gb i) → count i (fun j => IsFixed (bnd gb j)) ∉ deps) :
    resortG s rhs false (startYc s lam zl zu) (startYd s lam) g0 i = lam i := by
  obtain ⟨r1, r2, -⟩ := resortG_delivers hd h rhs (startYc s lam zl zu) (startYd s lam) g0 false
  rcases mem_pc_or_pd hd h i hi hn with hm | hm
  · obtain ⟨k, hk, rfl⟩ := List.mem_iff_getElem.mp hm
    rw [r1 k hk, if_neg (by simp)]
    unfold startYc
    rw [if_pos hk, List.getD_eq_getElem _ _ hk]
  · obtain ⟨k, hk, rfl⟩ := List.mem_iff_getElem.mp hm
    rw [r2 k hk]
    unfold startYd
    rw [List.getD_eq_getElem _ _ hk]

theorem user_injective (h : getSpaces t loInf upInf xb gb deps = some s) {a b : Nat} (ha : a < s.nVar) (hb : b < s.nVar)
    (he : s.user a = s.user b) : a = b := by
  obtain ⟨hE, -, -, -⟩ := spaces_variables h
  rcases lt_trichotomy a b with hl | hl | hl
  · have := hE.1 a b hl hb; omega
  · exact hl
  · have := hE.1 b a hl ha; omega

/-- One side of `ResortBounds`. -/
theorem resortBound_at [Zero α] (h : getSpaces t loInf upInf xb gb deps = some s) (pos : List Nat) (hp : pos.Pairwise (· < ·))
    (hr : ∀ k ∈ pos, k < s.nVar) (z z0 : Nat → α) :
    (∀ k, (hk : k < pos.length) → resortBound s pos z z0 (s.user pos[k]) = z k) ∧
      ∀ i < xb.length, (∀ k ∈ pos, s.user k ≠ i) → resortBound s pos z z0 i = 0 := by
  unfold resortBound
  have hnd : (pos.zipIdx.map fun p => s.user p.1).Nodup := by
    have e : pos.zipIdx.map (fun p => s.user p.1) = pos.map s.user := by
      conv_rhs => rw [← zipIdx_map_fst pos 0, List.map_map]
      rfl
    rw [e]
    refine List.Nodup.map_on ?_ (hp.imp fun h => Nat.ne_of_lt h)
    intro a ha b hb he
    exact user_injective h (hr a ha) (hr b hb) he
  constructor
  · intro k hk
    exact foldl_upd_mem pos.zipIdx (fun p => s.user p.1) (fun p => z p.2) _ hnd (pos[k], k) ((mem_zipIdx_iff ..).mpr ⟨hk, rfl⟩)
  · intro i hi hno
    rw [foldl_upd_not_mem pos.zipIdx (fun p => s.user p.1) (fun p => z p.2)]
    · obtain ⟨hn, -, -⟩ := getSpaces_spec h
      have hlt : pos.length < s.nFull := by
        -- an injection of `pos` into the positions below `n` that misses `i`
        have hm : (pos.map s.user).Nodup := by
          refine List.Nodup.map_on ?_ (hp.imp fun h => Nat.ne_of_lt h)
          intro a ha b hb he
          exact user_injective h (hr a ha) (hr b hb) he
        have hcons : (i :: pos.map s.user).Nodup := by
          rw [List.nodup_cons]
          refine ⟨fun hmem => ?_, hm⟩
          obtain ⟨k, hk, he⟩ := List.mem_map.mp hmem
          exact hno k hk he
        have hsub : (i :: pos.map s.user) ⊆ List.range xb.length := by
          intro j hj
          rcases List.mem_cons.mp hj with rfl | hj
          · exact List.mem_range.mpr hi
          · obtain ⟨k, hk, rfl⟩ := List.mem_map.mp hj
            obtain ⟨hE, -⟩ := spaces_variables h
            exact List.mem_range.mpr (hE.2.1 k (hr k hk)).1
        have := (List.subperm_of_subset hcons hsub).length_le
        simp only [List.length_cons, List.length_map, List.length_range] at this
        rw [hn]; omega
      rw [if_pos hlt]
    · rintro ⟨a, b⟩ hp' he
      obtain ⟨hk, h2⟩ := (mem_zipIdx_iff pos a b).mp hp'
      exact hno a (by rw [← h2]; exact List.getElem_mem hk) he

/-- **C24** Bound multipliers are delivered to the variables whose bounds they belong to; all other variables get zero. -/
theorem bound_multipliers_delivered [Zero α] (h : getSpaces t loInf upInf xb gb deps = some s) (z z0 : Nat → α) :
    ((∀ k, (hk : k < s.pxl.length) → resortBound s s.pxl z z0 (s.user s.pxl[k]) = z k) ∧
      ∀ i < xb.length, ¬(¬Removed s.treat (bnd xb i) ∧ HasLower s.treat loInf (bnd xb i)) → resortBound s s.pxl z z0 i = 0) ∧
    ((∀ k, (hk : k < s.pxu.length) → resortBound s s.pxu z z0 (s.user s.pxu[k]) = z k) ∧
      ∀ i < xb.length, ¬(¬Removed s.treat (bnd xb i) ∧ HasUpper s.treat upInf (bnd xb i)) → resortBound s s.pxu z z0 i = 0) := by
  obtain ⟨hl, hu⟩ := spaces_bounds h
  obtain ⟨hE, -⟩ := spaces_variables h
  obtain ⟨a1, a2⟩ := resortBound_at h s.pxl hl.1 (fun k hk => ((hl.2 k).mp hk).1) z z0
  obtain ⟨b1, b2⟩ := resortBound_at h s.pxu hu.1 (fun k hk => ((hu.2 k).mp hk).1) z z0
  refine ⟨⟨a1, fun i hi hn => a2 i hi fun k hk he => hn ?_⟩, ⟨b1, fun i hi hn => b2 i hi fun k hk he => hn ?_⟩⟩
  · have := (hl.2 k).mp hk
    simp only [he] at this
    exact ⟨he ▸ (hE.2.1 k this.1).2, this.2⟩
  · have := (hu.2 k).mp hk
    simp only [he] at this
    exact ⟨he ▸ (hE.2.1 k this.1).2, this.2⟩

/-- **C23** The bounds handed to the algorithm are the user's bounds of the corresponding variables and constraints. -/
theorem bound_values_are_users (b : Nat → α) (k : Nat) :
    (∀ hk : k < s.pxl.length, boundValues s s.pxl b k = b (s.user s.pxl[k])) ∧
    (∀ hk : k < s.pxu.length, boundValues s s.pxu b k = b (s.user s.pxu[k])) ∧
    (∀ hk : k < s.pdl.length, dBoundValues s s.pdl b k = b (s.pd.getD s.pdl[k] 0)) ∧
    (∀ hk : k < s.pdu.length, dBoundValues s s.pdu b k = b (s.pd.getD s.pdu[k] 0)) := by
  refine ⟨?_, ?_, ?_, ?_⟩ <;> intro hk <;> simp only [boundValues, dBoundValues, List.getD_eq_getElem _ _ hk]

/-- The treatment `relax_bounds` (also used when there are too few degrees of freedom) does not relax anything: the bounds of fixed variables
are handed to the algorithm as they are, whatever `bound_relax_factor` is. -/
theorem relax_bounds_never_relaxes {K : Type} [Field K] [LinearOrder K] (h : getSpaces t loInf upInf xb gb deps = some s)
    (relax : K) (b : Nat → K × K) : relaxFixed s relax b = b := by
  unfold relaxFixed
  by_cases ht : s.treat = .relaxBounds
  · rw [if_pos ht]
    obtain ⟨-, -, -, hF⟩ := spaces_variables h
    have : s.fixed = [] := by
      rw [List.eq_nil_iff_forall_not_mem]
      intro i hi
      exact ((hF.2 i).mp hi).2.2 ht
    rw [this]; rfl
  · rw [if_neg ht]

end

end Verif.Adapter
