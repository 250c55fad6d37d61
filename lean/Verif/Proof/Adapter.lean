import Verif.Model.Adapter
import Verif.Spec.Adapter
import Mathlib.Tactic.Linarith
import Mathlib.Data.List.GetD
import Mathlib.Data.List.Nodup

/-! # Lemmas about the numbering maps -/

set_option linter.unusedSectionVars false
set_option linter.unusedSimpArgs false

namespace Verif.Adapter

open Verif

theorem eqB_iff (l u : Num) : Num.eqB l u = true ↔ IsFixed (l, u) := by
  cases l <;> cases u <;> simp [Num.eqB, IsFixed]

/-! ### Writing array elements in a loop -/

theorem foldl_upd_not_mem {α β : Type} (L : List β) (key : β → Nat) (val : β → α) (f : Nat → α) (i : Nat) (h : ∀ x ∈ L, key x ≠ i) :
    (L.foldl (fun f x => upd f (key x) (val x)) f) i = f i := by
  induction L generalizing f with
  | nil => rfl
  | cons x L ih =>
    rw [List.foldl_cons, ih _ fun y hy => h y (List.mem_cons_of_mem _ hy)]
    unfold upd
    rw [if_neg fun e => h x (List.mem_cons_self ..) e.symm]

theorem foldl_upd_mem {α β : Type} (L : List β) (key : β → Nat) (val : β → α) (f : Nat → α) (hn : (L.map key).Nodup) (x : β) (hx : x ∈ L) :
    (L.foldl (fun f x => upd f (key x) (val x)) f) (key x) = val x := by
  induction L generalizing f with
  | nil => simp at hx
  | cons y L ih =>
    rw [List.map_cons, List.nodup_cons] at hn
    rw [List.foldl_cons]
    rcases List.mem_cons.mp hx with rfl | hx
    · rw [foldl_upd_not_mem]
      · simp [upd]
      · intro z hz he
        exact hn.1 (List.mem_map.mpr ⟨z, hz, he⟩)
    · exact ih _ hn.2 hx

theorem zipIdx_map_fst {β : Type} (L : List β) (n : Nat) : (L.zipIdx n).map Prod.fst = L := List.zipIdx_map_fst n L

theorem mem_zipIdx_iff {β : Type} (L : List β) (x : β) (k : Nat) : (x, k) ∈ L.zipIdx ↔ ∃ h : k < L.length, L[k] = x := by
  rw [List.mk_mem_zipIdx_iff_getElem?, List.getElem?_eq_some_iff]

theorem foldl_zipIdx_at {α : Type} (pos : List Nat) (val : Nat → α) (f : Nat → α) (hn : pos.Nodup) (k : Nat) (hk : k < pos.length) :
    (pos.zipIdx.foldl (fun f p => upd f p.1 (val p.2)) f) pos[k] = val k :=
  foldl_upd_mem pos.zipIdx Prod.fst (fun p => val p.2) f (by rw [zipIdx_map_fst]; exact hn) (pos[k], k) ((mem_zipIdx_iff ..).mpr ⟨hk, rfl⟩)

theorem foldl_zipIdx_not {α : Type} (pos : List Nat) (val : Nat → α) (f : Nat → α) (i : Nat) (h : i ∉ pos) :
    (pos.zipIdx.foldl (fun f p => upd f p.1 (val p.2)) f) i = f i := by
  refine foldl_upd_not_mem pos.zipIdx Prod.fst (fun p => val p.2) f i fun p hp he => h ?_
  obtain ⟨hk, h2⟩ := (mem_zipIdx_iff pos p.1 p.2).mp hp
  rw [← he, ← h2]
  exact List.getElem_mem _

theorem compressed_some (pos : List Nat) (hn : pos.Nodup) (i k : Nat) : compressed pos i = some k ↔ ∃ h : k < pos.length, pos[k] = i := by
  unfold compressed
  constructor
  · intro h
    by_cases hi : i ∈ pos
    · obtain ⟨j, hj, rfl⟩ := List.mem_iff_getElem.mp hi
      rw [foldl_zipIdx_at pos some _ hn j hj] at h
      injection h with h
      subst h
      exact ⟨hj, rfl⟩
    · rw [foldl_zipIdx_not pos some _ i hi] at h
      simp at h
  · rintro ⟨h, rfl⟩
    exact foldl_zipIdx_at pos some _ hn k h

theorem compressed_none (pos : List Nat) (hn : pos.Nodup) (i : Nat) : compressed pos i = none ↔ i ∉ pos := by
  constructor
  · intro h hi
    obtain ⟨j, hj, rfl⟩ := List.mem_iff_getElem.mp hi
    have := (compressed_some pos hn pos[j] j).mpr ⟨hj, rfl⟩
    rw [h] at this
    simp at this
  · intro hi
    cases h : compressed pos i with
    | none => rfl
    | some k =>
      obtain ⟨hk, rfl⟩ := (compressed_some pos hn i k).mp h
      exact absurd (List.getElem_mem hk) hi

/-! ### The loop over the variables -/

def keptP (t : Fixed) (b : Num × Num) : Bool := !(t.isParam && decide (IsFixed b))

def kept (t : Fixed) (B : List (Num × Num)) (n : Nat) : List Nat := (List.range n).filter fun j => keptP t (bnd B j)

/-- The internal variable has a lower bound. -/
def lowP (t : Fixed) (loInf : Num) (b : Num × Num) : Bool := if IsFixed b then decide (t = .relaxBounds) else decide (loInf < b.1)

def upP (t : Fixed) (upInf : Num) (b : Num × Num) : Bool := if IsFixed b then decide (t = .relaxBounds) else decide (b.2 < upInf)

theorem kept_succ (t : Fixed) (B : List (Num × Num)) (n : Nat) : kept t B (n + 1) = kept t B n ++ if keptP t (bnd B n) then [n] else [] := by
  unfold kept
  rw [List.range_succ, List.filter_append]
  congr 1
  by_cases h : keptP t (bnd B n) = true
  · simp [h]
  · simp [h]

/-- State of the loop after `i` variables. -/
structure VInv (t : Fixed) (loInf upInf : Num) (B : List (Num × Num)) (i : Nat) (s : VarMaps) : Prop where
  nVar : s.nVar = (kept t B i).length
  notFixed : s.notFixed = (kept t B i).map fun j => if t = .relaxBounds ∧ IsFixed (bnd B j) then none else some j
  fixed : s.fixed = (List.range i).filter fun j => decide (IsFixed (bnd B j) ∧ t ≠ .relaxBounds)
  xl : s.xl = (List.range (kept t B i).length).filter fun k => lowP t loInf (bnd B ((kept t B i).getD k 0))
  xu : s.xu = (List.range (kept t B i).length).filter fun k => upP t upInf (bnd B ((kept t B i).getD k 0))

theorem filter_range_append (l : List Nat) (x : Nat) (p : Nat → Bool) :
    (List.range (l ++ [x]).length).filter (fun k => p ((l ++ [x]).getD k 0)) =
      (List.range l.length).filter (fun k => p (l.getD k 0)) ++ if p x then [l.length] else [] := by
  rw [List.length_append, List.length_singleton, List.range_succ, List.filter_append]
  congr 1
  · refine List.filter_congr fun k hk => ?_
    rw [List.getD_append _ _ _ _ (List.mem_range.mp hk)]
  · have : (l ++ [x]).getD l.length 0 = x := by simp
    by_cases h : p x = true
    · rw [List.filter_cons_of_pos (by rw [this]; exact h), if_pos h]; rfl
    · rw [List.filter_cons_of_neg (by rw [this]; exact h), if_neg h]; rfl

theorem vinv_step (t : Fixed) (loInf upInf : Num) (B : List (Num × Num)) (i : Nat) (s s' : VarMaps)
    (h : VInv t loInf upInf B i s) (hs : varStep t loInf upInf s i (bnd B i).1 (bnd B i).2 = some s') : VInv t loInf upInf B (i + 1) s' := by
  generalize hb : bnd B i = b at hs
  obtain ⟨l, u⟩ := b
  simp only at hs
  unfold varStep at hs
  have hfix : ∀ P : Prop, [Decidable P] → ((List.range (i + 1)).filter fun j => decide (IsFixed (bnd B j) ∧ t ≠ .relaxBounds)) =
      s.fixed ++ if IsFixed (l, u) ∧ t ≠ .relaxBounds then [i] else [] := by
    intro _ _
    rw [List.range_succ, List.filter_append, ← h.fixed]
    congr 1
    by_cases hc : IsFixed (l, u) ∧ t ≠ .relaxBounds
    · rw [List.filter_cons_of_pos (by rw [hb]; simpa using hc), if_pos hc]; rfl
    · rw [List.filter_cons_of_neg (by rw [hb]; simpa using hc), if_neg hc]; rfl
  have hfix := hfix True
  have hk := kept_succ t B i
  rw [hb] at hk
  by_cases he : Num.eqB l u = true
  · rw [if_pos he] at hs
    have hF := (eqB_iff l u).mp he
    cases t with
    | makeParameter =>
      simp only [Option.some.injEq] at hs
      subst hs
      have : keptP .makeParameter (l, u) = false := by simp [keptP, Fixed.isParam, hF]
      rw [this] at hk
      simp only [Bool.false_eq_true, if_false, List.append_nil] at hk
      refine ⟨by rw [hk]; exact h.nVar, by rw [hk]; exact h.notFixed, ?_, by rw [hk]; exact h.xl, by rw [hk]; exact h.xu⟩
      rw [hfix, if_pos ⟨hF, by decide⟩]
    | makeParameterNodual =>
      simp only [Option.some.injEq] at hs
      subst hs
      have : keptP .makeParameterNodual (l, u) = false := by simp [keptP, Fixed.isParam, hF]
      rw [this] at hk
      simp only [Bool.false_eq_true, if_false, List.append_nil] at hk
      refine ⟨by rw [hk]; exact h.nVar, by rw [hk]; exact h.notFixed, ?_, by rw [hk]; exact h.xl, by rw [hk]; exact h.xu⟩
      rw [hfix, if_pos ⟨hF, by decide⟩]
    | makeConstraint =>
      simp only [Option.some.injEq] at hs
      subst hs
      have : keptP .makeConstraint (l, u) = true := by simp [keptP, Fixed.isParam]
      rw [this] at hk
      simp only [if_true] at hk
      refine ⟨by rw [hk]; simp [h.nVar], ?_, ?_, ?_, ?_⟩
      · rw [hk, List.map_append, h.notFixed]; simp
      · rw [hfix, if_pos ⟨hF, by decide⟩]
      · rw [hk]
        rw [filter_range_append (kept .makeConstraint B i) i fun j => lowP .makeConstraint loInf (bnd B j)]
        rw [← h.xl, hb]
        simp [lowP, hF]
      · rw [hk]
        rw [filter_range_append (kept .makeConstraint B i) i fun j => upP .makeConstraint upInf (bnd B j)]
        rw [← h.xu, hb]
        simp [upP, hF]
    | relaxBounds =>
      simp only [Option.some.injEq] at hs
      subst hs
      have : keptP .relaxBounds (l, u) = true := by simp [keptP, Fixed.isParam]
      rw [this] at hk
      simp only [if_true] at hk
      refine ⟨by rw [hk]; simp [h.nVar], ?_, ?_, ?_, ?_⟩
      · rw [hk, List.map_append, h.notFixed]; simp [hb, hF]
      · rw [hfix, if_neg (by simp)]; simp
      · rw [hk]
        rw [filter_range_append (kept .relaxBounds B i) i fun j => lowP .relaxBounds loInf (bnd B j)]
        rw [← h.xl, hb, h.nVar]
        simp [lowP, hF]
      · rw [hk]
        rw [filter_range_append (kept .relaxBounds B i) i fun j => upP .relaxBounds upInf (bnd B j)]
        rw [← h.xu, hb, h.nVar]
        simp [upP, hF]
  · rw [if_neg he] at hs
    have hF : ¬IsFixed (l, u) := fun h => he ((eqB_iff l u).mpr h)
    by_cases hlt : u < l
    · rw [if_pos hlt] at hs; simp at hs
    · rw [if_neg hlt] at hs
      simp only [Option.some.injEq] at hs
      subst hs
      have : keptP t (l, u) = true := by simp [keptP, hF]
      rw [this] at hk
      simp only [if_true] at hk
      refine ⟨by rw [hk]; simp [h.nVar], ?_, ?_, ?_, ?_⟩
      · rw [hk, List.map_append, h.notFixed]; simp [hb, hF]
      · rw [hfix, if_neg (fun hh : IsFixed (l, u) ∧ _ => hF hh.1)]; simp
      · rw [hk]
        rw [filter_range_append (kept t B i) i fun j => lowP t loInf (bnd B j)]
        rw [← h.xl, hb, ← h.nVar]
        simp only [lowP, if_neg hF, decide_eq_true_eq]
        by_cases hc : loInf < l <;> simp [hc]
      · rw [hk]
        rw [filter_range_append (kept t B i) i fun j => upP t upInf (bnd B j)]
        rw [← h.xu, hb, ← h.nVar]
        simp only [upP, if_neg hF, decide_eq_true_eq]
        by_cases hc : u < upInf <;> simp [hc]

theorem not_fixed_of_lt {l u : Num} (h : u < l) : ¬IsFixed (l, u) := by
  rintro ⟨h1, h2⟩
  simp only at h1 h2
  subst h1
  cases l <;> simp_all [Num.lt_def, Num.ltB]

theorem varStep_none (t : Fixed) (loInf upInf : Num) (s : VarMaps) (i : Nat) (l u : Num) :
    varStep t loInf upInf s i l u = none ↔ u < l := by
  unfold varStep
  by_cases he : Num.eqB l u = true
  · rw [if_pos he]
    have hF := (eqB_iff l u).mp he
    have : ¬u < l := fun h => not_fixed_of_lt h hF
    cases t <;> simp [this]
  · rw [if_neg he]
    by_cases h : u < l
    · simp [h]
    · simp [h]

theorem varLoop_none (t : Fixed) (loInf upInf : Num) (b : List (Num × Num)) (i : Nat) (s : VarMaps) :
    varLoop t loInf upInf b i s = none ↔ ∃ p ∈ b, p.2 < p.1 := by
  induction b generalizing i s with
  | nil => simp [varLoop]
  | cons p b ih =>
    obtain ⟨l, u⟩ := p
    unfold varLoop
    cases h : varStep t loInf upInf s i l u with
    | none =>
      have := (varStep_none ..).mp h
      simp only [true_iff]
      exact ⟨(l, u), List.mem_cons_self .., this⟩
    | some s' =>
      have hn : ¬u < l := fun hc => by rw [(varStep_none ..).mpr hc] at h; simp at h
      simp only
      rw [ih]
      constructor
      · rintro ⟨p, hp, h2⟩; exact ⟨p, List.mem_cons_of_mem _ hp, h2⟩
      · rintro ⟨p, hp, h2⟩
        rcases List.mem_cons.mp hp with rfl | hp
        · exact absurd h2 hn
        · exact ⟨p, hp, h2⟩

theorem varLoop_inv (t : Fixed) (loInf upInf : Num) (B b : List (Num × Num)) (i : Nat) (s s' : VarMaps) (hb : B.drop i = b)
    (h : VInv t loInf upInf B i s) (hs : varLoop t loInf upInf b i s = some s') : VInv t loInf upInf B (i + b.length) s' := by
  induction b generalizing i s with
  | nil => simp only [varLoop, Option.some.injEq] at hs; subst hs; exact h
  | cons p b ih =>
    obtain ⟨l, u⟩ := p
    have hi : bnd B i = (l, u) := by
      unfold bnd
      have : B[i]? = some (l, u) := by
        have := List.getElem?_drop (xs := B) (i := i) (j := 0)
        rw [hb] at this
        simpa using this.symm
      simp [List.getD, this]
    unfold varLoop at hs
    cases hv : varStep t loInf upInf s i l u with
    | none => rw [hv] at hs; simp at hs
    | some s1 =>
      rw [hv] at hs
      have := ih (i + 1) s1 (by rw [← List.drop_drop, hb]; rfl) (vinv_step t loInf upInf B i s s1 h (by rw [hi]; exact hv)) hs
      rw [List.length_cons]
      rw [show i + (b.length + 1) = i + 1 + b.length by omega]
      exact this

/-! ### The loop over the constraints -/

def ineqs (B : List (Num × Num)) (n : Nat) : List Nat := (List.range n).filter fun j => decide (¬IsFixed (bnd B j))

structure CInv (loInf upInf : Num) (B : List (Num × Num)) (i : Nat) (s : ConMaps) : Prop where
  c : s.c = (List.range i).filter fun j => decide (IsFixed (bnd B j))
  d : s.d = ineqs B i
  dl : s.dl = (List.range (ineqs B i).length).filter fun k => decide (loInf < (bnd B ((ineqs B i).getD k 0)).1)
  du : s.du = (List.range (ineqs B i).length).filter fun k => decide ((bnd B ((ineqs B i).getD k 0)).2 < upInf)

theorem conLoop_none (loInf upInf : Num) (b : List (Num × Num)) (i : Nat) (s : ConMaps) :
    conLoop loInf upInf b i s = none ↔ ∃ p ∈ b, p.2 < p.1 := by
  induction b generalizing i s with
  | nil => simp [conLoop]
  | cons p b ih =>
    obtain ⟨l, u⟩ := p
    have cons : ¬u < l → ((∃ p ∈ (l, u) :: b, p.2 < p.1) ↔ ∃ p ∈ b, p.2 < p.1) := by
      intro hn
      constructor
      · rintro ⟨p, hp, h2⟩
        rcases List.mem_cons.mp hp with rfl | hp
        · exact absurd h2 hn
        · exact ⟨p, hp, h2⟩
      · rintro ⟨p, hp, h2⟩; exact ⟨p, List.mem_cons_of_mem _ hp, h2⟩
    unfold conLoop
    by_cases he : Num.eqB l u = true
    · rw [if_pos he, ih, cons fun h => not_fixed_of_lt h ((eqB_iff l u).mp he)]
    · rw [if_neg he]
      by_cases h : u < l
      · rw [if_pos h]
        simp only [true_iff]
        exact ⟨(l, u), List.mem_cons_self .., h⟩
      · rw [if_neg h]
        simp only
        rw [ih, cons h]

theorem conLoop_inv (loInf upInf : Num) (B b : List (Num × Num)) (i : Nat) (s s' : ConMaps) (hb : B.drop i = b)
    (h : CInv loInf upInf B i s) (hs : conLoop loInf upInf b i s = some s') : CInv loInf upInf B (i + b.length) s' := by
  induction b generalizing i s with
  | nil => simp only [conLoop, Option.some.injEq] at hs; subst hs; exact h
  | cons p b ih =>
    obtain ⟨l, u⟩ := p
    have hi : bnd B i = (l, u) := by
      unfold bnd
      have : B[i]? = some (l, u) := by
        have := List.getElem?_drop (xs := B) (i := i) (j := 0)
        rw [hb] at this
        simpa using this.symm
      simp [List.getD, this]
    have hd : B.drop (i + 1) = b := by rw [← List.drop_drop, hb]; rfl
    rw [List.length_cons, show i + (b.length + 1) = i + 1 + b.length by omega]
    unfold conLoop at hs
    by_cases he : Num.eqB l u = true
    · rw [if_pos he] at hs
      have hF := (eqB_iff l u).mp he
      refine ih (i + 1) _ hd ?_ hs
      have e : ineqs B (i + 1) = ineqs B i := by
        unfold ineqs
        rw [List.range_succ, List.filter_append, List.filter_cons_of_neg (by rw [hi]; simpa using hF)]; simp
      refine ⟨?_, by rw [e]; exact h.d, by rw [e]; exact h.dl, by rw [e]; exact h.du⟩
      rw [List.range_succ, List.filter_append, List.filter_cons_of_pos (by rw [hi]; simpa using hF), ← h.c]; rfl
    · rw [if_neg he] at hs
      have hF : ¬IsFixed (l, u) := fun h => he ((eqB_iff l u).mpr h)
      by_cases hlt : u < l
      · rw [if_pos hlt] at hs; simp at hs
      · rw [if_neg hlt] at hs
        simp only at hs
        refine ih (i + 1) _ hd ?_ hs
        have e : ineqs B (i + 1) = ineqs B i ++ [i] := by
          unfold ineqs
          rw [List.range_succ, List.filter_append, List.filter_cons_of_pos (by rw [hi]; simpa using hF)]; rfl
        refine ⟨?_, by rw [e, ← h.d], ?_, ?_⟩
        · rw [List.range_succ, List.filter_append, List.filter_cons_of_neg (by rw [hi]; simpa using hF), ← h.c]; simp
        · rw [e, filter_range_append (ineqs B i) i fun j => decide (loInf < (bnd B j).1), ← h.dl, hi, h.d]
          by_cases hc : loInf < l <;> simp [hc]
        · rw [e, filter_range_append (ineqs B i) i fun j => decide ((bnd B j).2 < upInf), ← h.du, hi, h.d]
          by_cases hc : u < upInf <;> simp [hc]

/-! ### Taking dependent constraints out -/

theorem takeOutFrom_spec (i : Nat) (c deps : List Nat) (hs : deps.Pairwise (· < ·)) (hd : ∀ d ∈ deps, i ≤ d) :
    takeOutFrom i c deps = ((c.zipIdx i).filter fun p => decide (p.2 ∉ deps)).map Prod.fst := by
  induction c generalizing i deps with
  | nil => cases deps <;> simp [takeOutFrom]
  | cons x c ih =>
    cases deps with
    | nil => simp [takeOutFrom, zipIdx_map_fst]
    | cons d ds =>
      rw [List.pairwise_cons] at hs
      unfold takeOutFrom
      by_cases h : i = d
      · subst h
        rw [if_pos rfl, ih (i + 1) ds hs.2 fun d hd' => hs.1 d hd', List.zipIdx_cons, List.filter_cons_of_neg (by simp)]
        congr 1
        refine List.filter_congr fun p hp => ?_
        have hp2 : i + 1 ≤ p.2 := (List.mem_zipIdx hp).1
        simp only [List.mem_cons, not_or, decide_eq_decide]
        exact ⟨fun h => ⟨by omega, h⟩, fun h => h.2⟩
      · have hid := hd d (List.mem_cons_self ..)
        rw [if_neg h, ih (i + 1) (d :: ds) (List.pairwise_cons.mpr hs), List.zipIdx_cons, List.filter_cons_of_pos, List.map_cons]
        · simp only [List.mem_cons, not_or, decide_eq_true_eq]
          refine ⟨h, fun hm => ?_⟩
          have := hs.1 i hm
          omega
        · intro d' hd'
          rcases List.mem_cons.mp hd' with rfl | hd'
          · omega
          · have := hs.1 d' hd'; omega

theorem takeOut_spec (c deps : List Nat) (hs : deps.Pairwise (· < ·)) :
    takeOut c deps = (c.zipIdx.filter fun p => decide (p.2 ∉ deps)).map Prod.fst := by
  cases deps with
  | nil => simp [takeOut, zipIdx_map_fst]
  | cons d ds =>
    unfold takeOut
    simp only
    rw [takeOutFrom_spec d _ _ hs]
    · have hz : c.zipIdx = (c.take d).zipIdx ++ (c.drop d).zipIdx (min d c.length) := by
        conv_lhs => rw [← List.take_append_drop d c]
        rw [List.zipIdx_append, List.length_take, Nat.zero_add]
      rw [hz, List.filter_append, List.map_append]
      congr 1
      · rw [List.filter_eq_self.mpr, zipIdx_map_fst]
        intro p hp
        have hp2 := List.mem_zipIdx hp
        rw [List.length_take] at hp2
        rw [List.pairwise_cons] at hs
        simp only [List.mem_cons, not_or, decide_eq_true_eq]
        refine ⟨by omega, fun hm => ?_⟩
        have := hs.1 _ hm
        omega
      · by_cases hd : d ≤ c.length
        · rw [min_eq_left hd]
        · rw [List.drop_eq_nil_of_le (by omega)]; simp
    · intro d' hd'
      rcases List.mem_cons.mp hd' with rfl | hd'
      · exact le_rfl
      · exact le_of_lt ((List.pairwise_cons.mp hs).1 d' hd')

theorem takeOut_sublist (c deps : List Nat) (hs : deps.Pairwise (· < ·)) : (takeOut c deps).Sublist c := by
  rw [takeOut_spec c deps hs]
  have h1 := (List.filter_sublist (l := c.zipIdx) (p := fun p => decide (p.2 ∉ deps))).map Prod.fst
  rw [zipIdx_map_fst] at h1
  exact h1

theorem range_filter_lt (n : Nat) (p : Nat → Bool) : ((List.range n).filter p).Pairwise (· < ·) := List.pairwise_lt_range.filter p

/-! ### Result of `GetSpaces` -/

/-- The numbering built by `GetSpaces`, in closed form. -/
theorem getSpaces_spec {t : Fixed} {loInf upInf : Num} {xb gb : List (Num × Num)} {deps : List Nat} {s : Spaces}
    (h : getSpaces t loInf upInf xb gb deps = some s) :
    s.nFull = xb.length ∧ s.mFull = gb.length ∧ s.nVar = (kept s.treat xb xb.length).length ∧
      (∀ j, j < s.nVar → s.user j = (kept s.treat xb xb.length).getD j 0) ∧
      (∀ i < xb.length, ∀ j, s.inner i = some j ↔ ∃ h : j < (kept s.treat xb xb.length).length, (kept s.treat xb xb.length)[j] = i) ∧
      s.fixed = ((List.range xb.length).filter fun j => decide (IsFixed (bnd xb j) ∧ s.treat ≠ .relaxBounds)) ∧
      s.pxl = ((List.range (kept s.treat xb xb.length).length).filter fun k =>
        lowP s.treat loInf (bnd xb ((kept s.treat xb xb.length).getD k 0))) ∧
      s.pxu = ((List.range (kept s.treat xb xb.length).length).filter fun k =>
        upP s.treat upInf (bnd xb ((kept s.treat xb xb.length).getD k 0))) ∧
      s.pc = takeOut ((List.range gb.length).filter fun j => decide (IsFixed (bnd gb j))) deps ∧ s.pd = ineqs gb gb.length ∧
      s.pdl = ((List.range (ineqs gb gb.length).length).filter fun k => decide (loInf < (bnd gb ((ineqs gb gb.length).getD k 0)).1)) ∧
      s.pdu = ((List.range (ineqs gb gb.length).length).filter fun k => decide ((bnd gb ((ineqs gb gb.length).getD k 0)).2 < upInf)) ∧
      (s.treat = t ∨ (s.treat = .relaxBounds ∧ 0 < (kept t xb xb.length).length ∧
        (kept t xb xb.length).length < ((List.range gb.length).filter fun j => decide (IsFixed (bnd gb j))).length)) := by
  have pass : ∀ t' m, onePass t' loInf upInf xb gb = some m →
      m.treat = t' ∧ VInv t' loInf upInf xb xb.length m.vars ∧ CInv loInf upInf gb gb.length m.cons := by
    intro t' m hm
    unfold onePass at hm
    cases hv : varLoop t' loInf upInf xb 0 ⟨0, [], [], [], []⟩ with
    | none => rw [hv] at hm; simp at hm
    | some v =>
      rw [hv] at hm
      cases hc : conLoop loInf upInf gb 0 ⟨[], [], [], []⟩ with
      | none => rw [hc] at hm; simp at hm
      | some c =>
        rw [hc] at hm
        simp only [Option.some.injEq] at hm
        subst hm
        have h1 := varLoop_inv t' loInf upInf xb xb 0 _ v rfl ⟨rfl, rfl, rfl, rfl, rfl⟩ hv
        have h2 := conLoop_inv loInf upInf gb gb 0 _ c rfl ⟨rfl, rfl, rfl, rfl⟩ hc
        rw [Nat.zero_add] at h1 h2
        exact ⟨rfl, h1, h2⟩
  unfold getSpaces at h
  cases hm : buildMaps t loInf upInf xb gb with
  | none => rw [hm] at h; simp at h
  | some m =>
    rw [hm] at h
    simp only [Option.some.injEq] at h
    have hall : VInv m.treat loInf upInf xb xb.length m.vars ∧ CInv loInf upInf gb gb.length m.cons ∧
        (m.treat = t ∨ (m.treat = .relaxBounds ∧ 0 < (kept t xb xb.length).length ∧
        (kept t xb xb.length).length < ((List.range gb.length).filter fun j => decide (IsFixed (bnd gb j))).length)) := by
      unfold buildMaps at hm
      cases h1 : onePass t loInf upInf xb gb with
      | none => rw [h1] at hm; simp at hm
      | some m1 =>
        rw [h1] at hm
        simp only at hm
        obtain ⟨e1, v1, c1⟩ := pass t m1 h1
        by_cases hc : t = .relaxBounds ∨ m1.vars.fixed.length = 0 ∨ m1.cons.c.length ≤ m1.vars.nVar ∨ m1.vars.nVar = 0
        · rw [if_pos hc] at hm
          simp only [Option.some.injEq] at hm
          subst hm
          rw [e1]
          exact ⟨v1, c1, Or.inl rfl⟩
        · rw [if_neg hc] at hm
          obtain ⟨e2, v2, c2⟩ := pass _ m hm
          rw [e2]
          refine ⟨v2, c2, Or.inr ⟨rfl, ?_, ?_⟩⟩
          · rw [← v1.nVar]
            by_contra h0
            exact hc (Or.inr (Or.inr (Or.inr (by omega))))
          · rw [← v1.nVar, ← c1.c]
            by_contra h0
            exact hc (Or.inr (Or.inr (Or.inl (by omega))))
    obtain ⟨hv, hcn, ht⟩ := hall
    -- all variables are kept if there is no expansion matrix
    have hallkept : ¬(0 < m.vars.fixed.length ∧ m.treat.isParam = true) → kept m.treat xb xb.length = List.range xb.length := by
      intro hn
      unfold kept
      rw [List.filter_eq_self]
      intro j hj
      unfold keptP
      by_cases hp : m.treat.isParam = true
      · have h0 : m.vars.fixed.length = 0 := by
          by_contra hc; exact hn ⟨by omega, hp⟩
        have h0 := List.length_eq_zero_iff.mp h0
        rw [hv.fixed, List.filter_eq_nil_iff] at h0
        have := h0 j hj
        have hr : m.treat ≠ .relaxBounds := fun e => by rw [e] at hp; simp [Fixed.isParam] at hp
        simp only [decide_eq_true_eq, not_and, not_not] at this
        have hf : ¬IsFixed (bnd xb j) := fun hf => hr (this hf)
        simp [hf]
      · simp [hp]
    have hnd : (kept m.treat xb xb.length).Nodup := (range_filter_lt _ _).imp fun h => Nat.ne_of_lt h
    have hpos : m.treat.isParam = true → m.vars.notFixed.map (·.getD 0) = kept m.treat xb xb.length := by
      intro hp
      rw [hv.notFixed, List.map_map]
      conv_rhs => rw [← List.map_id (kept m.treat xb xb.length)]
      refine List.map_congr_left fun j _ => ?_
      have hr : m.treat ≠ .relaxBounds := fun e => by rw [e] at hp; simp [Fixed.isParam] at hp
      simp [hr]
    subst h
    refine ⟨rfl, rfl, hv.nVar, ?_, ?_, hv.fixed, hv.xl, hv.xu, by simp only; rw [hcn.c], hcn.d, hcn.dl, hcn.du, ht⟩
    · intro j hj
      simp only at hj
      unfold Spaces.user
      by_cases hc : 0 < m.vars.fixed.length ∧ m.treat.isParam = true
      · simp only [if_pos hc]
        rw [hpos hc.2]
      · simp only [if_neg hc]
        rw [hv.nVar, hallkept hc, List.length_range] at hj
        rw [hallkept hc, List.getD_eq_getElem _ _ (by simpa using hj), List.getElem_range]
    · intro i hi j
      unfold Spaces.inner
      by_cases hc : 0 < m.vars.fixed.length ∧ m.treat.isParam = true
      · simp only [if_pos hc]
        rw [hpos hc.2]
        exact compressed_some _ hnd i j
      · simp only [if_neg hc]
        rw [hallkept hc]
        simp only [Option.some.injEq, List.length_range, List.getElem_range]
        constructor
        · rintro rfl; exact ⟨hi, rfl⟩
        · rintro ⟨-, rfl⟩; rfl

theorem getSpaces_none (t : Fixed) (loInf upInf : Num) (xb gb : List (Num × Num)) (deps : List Nat) :
    getSpaces t loInf upInf xb gb deps = none ↔ ∃ b ∈ xb ++ gb, b.2 < b.1 := by
  have pass : ∀ t', onePass t' loInf upInf xb gb = none ↔ ∃ b ∈ xb ++ gb, b.2 < b.1 := by
    intro t'
    unfold onePass
    cases hv : varLoop t' loInf upInf xb 0 ⟨0, [], [], [], []⟩ with
    | none =>
      obtain ⟨b, hb, h2⟩ := (varLoop_none ..).mp hv
      simp only [true_iff]
      exact ⟨b, List.mem_append_left _ hb, h2⟩
    | some v =>
      have h1 : ¬∃ p ∈ xb, p.2 < p.1 := fun hc => by rw [(varLoop_none ..).mpr hc] at hv; simp at hv
      cases hc : conLoop loInf upInf gb 0 ⟨[], [], [], []⟩ with
      | none =>
        obtain ⟨b, hb, h2⟩ := (conLoop_none ..).mp hc
        simp only [true_iff]
        exact ⟨b, List.mem_append_right _ hb, h2⟩
      | some c =>
        have h2 : ¬∃ p ∈ gb, p.2 < p.1 := fun hc' => by rw [(conLoop_none ..).mpr hc'] at hc; simp at hc
        simp only [reduceCtorEq, false_iff]
        rintro ⟨b, hb, h3⟩
        rcases List.mem_append.mp hb with hb | hb
        · exact h1 ⟨b, hb, h3⟩
        · exact h2 ⟨b, hb, h3⟩
  have hb : buildMaps t loInf upInf xb gb = none ↔ ∃ b ∈ xb ++ gb, b.2 < b.1 := by
    unfold buildMaps
    cases h1 : onePass t loInf upInf xb gb with
    | none => simp only [true_iff]; exact (pass t).mp h1
    | some m =>
      simp only
      have hn : ¬∃ b ∈ xb ++ gb, b.2 < b.1 := fun hc => by rw [(pass t).mpr hc] at h1; simp at h1
      by_cases hc : t = .relaxBounds ∨ m.vars.fixed.length = 0 ∨ m.cons.c.length ≤ m.vars.nVar ∨ m.vars.nVar = 0
      · rw [if_pos hc]; simp only [reduceCtorEq, false_iff]; exact hn
      · rw [if_neg hc]; exact pass _
  unfold getSpaces
  cases h : buildMaps t loInf upInf xb gb with
  | none => simp only [true_iff]; exact hb.mp h
  | some m => simp only [reduceCtorEq, false_iff]; exact fun hc => by rw [hb.mpr hc] at h; simp at h

end Verif.Adapter
