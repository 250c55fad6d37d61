import Verif.Proof.DepRowsc

/-! # From rows to the user's constraints -/

namespace Verif.DepRows
open Finset
open Verif.Adapter

set_option linter.unusedSectionVars false
set_option linter.unusedSimpArgs false
set_option linter.unusedVariables false

variable {K : Type} [Field K] [LinearOrder K]

theorem userBasis_of_rows {m nCols : Nat} {cMap : List Nat} (hn : cMap.Nodup) (hl : ∀ i ∈ cMap, i < m) {A : Nat → Nat → K} {keep : Nat → Prop}
    (hb : RowBasis cMap.length nCols A keep) {eq kept : Nat → Prop} {Col : (Nat → K) → Prop}
    (hkept : ∀ i, kept i ↔ ∃ k, ∃ h : k < cMap.length, cMap[k] = i ∧ keep k) (heq : ∀ i < m, eq i → i ∈ cMap)
    (h1 : ∀ c < nCols, ∃ col, Col col ∧ ∀ k (h : k < cMap.length), col cMap[k] = A k c)
    (h2 : ∀ col, Col col → ∃ c < nCols, ∀ k (h : k < cMap.length), col cMap[k] = A k c) : UserBasis m eq kept Col := by
  have hks : ∀ k (h : k < cMap.length), kept cMap[k] ↔ keep k := by
    intro k h
    rw [hkept]
    constructor
    · rintro ⟨k', h', e, hk⟩
      have := (List.Nodup.getElem_inj_iff hn).1 e
      exact this ▸ hk
    · intro hk; exact ⟨k, h, rfl, hk⟩
  have hsum : ∀ (b col : Nat → K), (∀ i, ¬kept i → b i = 0) →
      ∑ i ∈ range m, b i * col i = ∑ k ∈ range cMap.length, b (cMap.getD k 0) * col (cMap.getD k 0) := by
    intro b col hb
    refine sum_list hn hl _ fun i hi => ?_
    rw [hb i, zero_mul]
    rw [hkept]
    rintro ⟨k, h, e, _⟩
    exact hi (e ▸ List.getElem_mem h)
  have hget : ∀ k (h : k < cMap.length), cMap.getD k 0 = cMap[k] := fun k h => by simp [List.getD_eq_getElem, h]
  constructor
  · intro b hb0 hz i hi
    by_cases hi' : i ∈ cMap
    · obtain ⟨k, hk, e⟩ := List.getElem_of_mem hi'
      have := hb.indep (fun k => if k < cMap.length then b (cMap.getD k 0) else 0) (by
        intro r hr
        split_ifs with h
        · rw [hget r h]; exact hb0 _ fun h9 => hr ((hks r h).1 h9)
        · rfl) (by
        intro c hc
        obtain ⟨col, hcol, he⟩ := h1 c hc
        have := hz col hcol
        rw [hsum b col hb0] at this
        rw [← this]
        refine Finset.sum_congr rfl fun k hk => ?_
        have hk := Finset.mem_range.1 hk
        rw [if_pos hk, hget k hk, he k hk]) k hk
      rw [if_pos hk, hget k hk, e] at this
      exact this
    · apply hb0
      rw [hkept]
      rintro ⟨k, h, e, _⟩
      exact hi' (e ▸ List.getElem_mem h)
  · intro t ht het hkt
    obtain ⟨k, hk, e⟩ := List.getElem_of_mem (heq t ht het)
    obtain ⟨b, hb0, hbc⟩ := hb.comb k hk (by rw [← hks k hk, e]; exact hkt)
    have hbk : ∀ r (h : r < cMap.length), (match compressed cMap cMap[r] with | some k => b k | none => 0) = b r := by
      intro r h
      rw [(compressed_some _ hn _ _).2 ⟨h, rfl⟩]
    have hs0 : ∀ i, ¬kept i → (match compressed cMap i with | some k => b k | none => 0) = 0 := by
      intro i hi
      cases h9 : compressed cMap i with
      | none => rfl
      | some r =>
        obtain ⟨h, e⟩ := (compressed_some _ hn _ _).1 h9
        dsimp only
        apply hb0
        rw [← hks r h, e]
        exact hi
    refine ⟨fun i => match compressed cMap i with | some k => b k | none => 0, hs0, fun col hcol => ?_⟩
    obtain ⟨c, hc, he⟩ := h2 col hcol
    rw [hsum _ col hs0, ← e, he k hk, hbc c hc]
    refine Finset.sum_congr rfl fun r hr => ?_
    have hr := Finset.mem_range.1 hr
    rw [hget r hr, hbk r hr, he r hr]

theorem tripElem_append (a b : List ((Nat × Nat) × K)) (i j : Nat) : tripElem (a ++ b) i j = tripElem a i j + tripElem b i j := by
  unfold tripElem; simp

theorem tripElem_out {a : List ((Nat × Nat) × K)} {i j : Nat} (h : ∀ e ∈ a, e.1 ≠ (i + 1, j + 1)) : tripElem a i j = 0 := by
  unfold tripElem
  apply List.sum_eq_zero
  intro x hx
  obtain ⟨e, he, rfl⟩ := List.mem_map.1 hx
  rw [if_neg (h e he)]

/-- the last column holds the residuals. -/
theorem tripElem_rhs (l : List Nat) (f : Nat → K) (n : Nat) (i : Nat) (hi : i < l.length) :
    tripElem (l.zipIdx.map fun p => ((p.2 + 1, n + 1), f p.1)) i n = f l[i] := by
  unfold tripElem
  have key : ∀ (l : List Nat) (o i : Nat) (hi : i < l.length), (((l.zipIdx o).map fun p => ((p.2 + 1, n + 1), f p.1)).map fun e : (Nat × Nat) × K => if e.1 = (o + i + 1, n + 1) then e.2 else 0).sum = f l[i] := by
    intro l
    induction l with
    | nil => intro o i hi; simp at hi
    | cons a l ih =>
      intro o i hi
      rw [List.zipIdx_cons, List.map_cons, List.map_cons, List.sum_cons]
      cases i with
      | zero =>
        rw [if_pos (by simp)]
        rw [List.sum_eq_zero]
        · simp
        · intro x hx
          rw [List.map_map] at hx
          obtain ⟨e, he, rfl⟩ := List.mem_map.1 hx
          have := List.le_snd_of_mem_zipIdx he
          dsimp only [Function.comp]
          rw [if_neg]
          intro h9
          simp only [Prod.mk.injEq] at h9
          omega
      | succ i =>
        rw [if_neg (by simp)]
        have := ih (o + 1) i (by simpa using hi)
        rw [zero_add, List.getElem_cons_succ, ← this]
        congr 2
        funext e
        rw [show o + (i + 1) + 1 = o + 1 + i + 1 by omega]
  have := key l 0 i hi
  simpa using this

section
variable {cfg : Cfg K} {u : User K} {det : Nat → Nat → List ((Nat × Nat) × K) → Option Bool × List Int} {t : Fixed} {loInf upInf : Num}
  {xb gb : List (Num × Num)} {s : Spaces}

/-- what is handed to the detector. -/
theorem determine_true {nFull nVar : Nat} {notFixed cMap : List Nat} (h : (determine cfg u nFull nVar notFixed cMap det).1 = some true) :
    ∃ S x0 gv jv, u.jacStruct = some S ∧ u.start = some x0 ∧ u.jac (testPoint cfg x0) = some jv ∧ (cfg.withRhs = true → u.g (testPoint cfg x0) = some gv) ∧
      (∀ e : List ((Nat × Nat) × Nat), e = pick cMap (if nFull - nVar > 0 then compressed notFixed else some) (cStyle cfg.fortran S) → ∀ T,
        T = (if cfg.withRhs then (e.map fun p => (p.1, jv p.2)) ++ cMap.zipIdx.map (fun p => ((p.2 + 1, nVar + 1), gv p.1 - cfg.gl p.1)) else e.map fun p => (p.1, jv p.2)) →
        (det cMap.length (if cfg.withRhs then nVar + 1 else nVar) T).1 = some true ∧
        (determine cfg u nFull nVar notFixed cMap det).2.1 = (det cMap.length (if cfg.withRhs then nVar + 1 else nVar) T).2) := by
  unfold determine at h ⊢
  cases h1 : u.jacStruct with
  | none => rw [h1] at h; simp at h
  | some S =>
    cases h2 : u.start with
    | none => rw [h1, h2] at h; simp at h
    | some x0 =>
      rw [h1, h2] at h
      dsimp only at h ⊢
      cases h3 : (if cfg.withRhs then u.g (testPoint cfg x0) else some fun _ => 0) with
      | none => rw [h3] at h; simp at h
      | some gv =>
        rw [h3] at h
        cases h4 : u.jac (testPoint cfg x0) with
        | none => rw [h4] at h; simp at h
        | some jv =>
          rw [h4] at h
          dsimp only at h ⊢
          refine ⟨S, x0, gv, jv, rfl, rfl, h4, fun hw => by rw [if_pos hw] at h3; exact h3, ?_⟩
          rintro e rfl T rfl
          exact ⟨h, rfl⟩

/-- the main statement. -/
theorem spaces_basis_aux (D : DetOK det) (h : (spaces cfg u det t loInf upInf xb gb).1 = some s) (hw : (spaces cfg u det t loInf upInf xb gb).2.1 = false)
    (hS : ∀ S, u.jacStruct = some S → ∀ e ∈ cStyle cfg.fortran S, e.2 < xb.length) (hc : ∃ i < gb.length, IsFixed (bnd gb i)) :
    ∃ S x0 jv res, u.jacStruct = some S ∧ u.start = some x0 ∧ u.jac (testPoint cfg x0) = some jv ∧
      (if cfg.withRhs then ∃ g, u.g (testPoint cfg x0) = some g ∧ res = some fun i => g i - cfg.gl i else res = none) ∧
      UserBasis gb.length (fun i => IsFixed (bnd gb i)) (· ∈ s.pc) (Columns s.treat xb (cStyle cfg.fortran S) jv res) := by
  unfold spaces at h hw
  cases hm : buildMaps t loInf upInf xb gb with
  | none => rw [hm] at h; simp at h
  | some m =>
    rw [hm] at h hw
    dsimp only at h hw
    obtain ⟨s9, hs9⟩ : ∃ s9, getSpaces t loInf upInf xb gb [] = some s9 := by
      unfold getSpaces; rw [hm]; exact ⟨_, rfl⟩
    obtain ⟨-, -, -, -, hcm⟩ := colPos_spec hm hs9
    have hpos : 0 < m.cons.c.length := by
      obtain ⟨i, hi, hf⟩ := hc
      apply List.length_pos_of_mem (a := i)
      rw [hcm]
      exact List.mem_filter.2 ⟨List.mem_range.2 hi, by simpa using hf⟩
    rw [if_pos hpos] at h hw
    set r := determine cfg u xb.length m.vars.nVar (m.vars.notFixed.map (·.getD 0)) m.cons.c det with hr
    cases hr1 : r.1 with
    | none => rw [hr1] at h; simp at h
    | some ok =>
      rw [hr1] at h hw
      dsimp only at h hw
      have hok : ok = true := by simpa using hw
      subst hok
      obtain ⟨S, x0, gv, jv, a1, a2, a3, a4, a5⟩ := determine_true (hr ▸ hr1)
      obtain ⟨e1, e2, e3, e4, -⟩ := colPos_spec hm h
      obtain ⟨v1, v2, v3, v4⟩ := spaces_variables h
      obtain ⟨p1, p2⟩ := pick_spec hm h (hS S a1) jv
      rw [e4, ← e1] at a5
      obtain ⟨b1, b2⟩ := a5 _ rfl _ rfl
      generalize hT : (if cfg.withRhs then ((pick m.cons.c s.inner (cStyle cfg.fortran S)).map fun p => (p.1, jv p.2)) ++
        m.cons.c.zipIdx.map (fun p => ((p.2 + 1, s.nVar + 1), gv p.1 - cfg.gl p.1)) else (pick m.cons.c s.inner (cStyle cfg.fortran S)).map fun p => (p.1, jv p.2)) = T at b1 b2
      rw [e1, ← hr, ← e1] at b2
      have hnd : m.cons.c.Nodup := by
        rw [hcm]; exact (range_filter_lt _ _).imp fun h => Nat.ne_of_lt h
      have hval : ∀ e ∈ T, (1 ≤ e.1.1 ∧ e.1.1 ≤ m.cons.c.length) ∧ 1 ≤ e.1.2 ∧ e.1.2 ≤ (if cfg.withRhs then s.nVar + 1 else s.nVar) := by
        intro e he
        rw [← hT] at he
        have q1 : ∀ e ∈ (pick m.cons.c s.inner (cStyle cfg.fortran S)).map fun p => (p.1, jv p.2), (1 ≤ e.1.1 ∧ e.1.1 ≤ m.cons.c.length) ∧ 1 ≤ e.1.2 ∧ e.1.2 ≤ s.nVar := by
          intro e he
          obtain ⟨p, hp, rfl⟩ := List.mem_map.1 he
          exact p1 p hp
        by_cases hw' : cfg.withRhs = true
        · rw [if_pos hw'] at he ⊢
          rcases List.mem_append.1 he with he | he
          · have := q1 e he; omega
          · obtain ⟨p, hp, rfl⟩ := List.mem_map.1 he
            have := List.snd_lt_of_mem_zipIdx hp
            dsimp only
            omega
        · rw [if_neg hw'] at he ⊢
          exact q1 e he
      have F := D.found _ _ T hval b1
      rw [← b2] at F
      refine ⟨S, x0, jv, if cfg.withRhs then some fun i => gv i - cfg.gl i else none, a1, a2, a3, ?_, ?_⟩
      · by_cases hw' : cfg.withRhs = true
        · rw [if_pos hw', if_pos hw']; exact ⟨gv, a4 hw', rfl⟩
        · rw [if_neg hw', if_neg hw']
      have hsorted : ((r.2.1.map Int.toNat).insertionSort (· ≤ ·)).Pairwise (· < ·) := by
        have s1 := List.pairwise_insertionSort (· ≤ ·) (r.2.1.map Int.toNat)
        have s2 : ((r.2.1.map Int.toNat).insertionSort (· ≤ ·)).Nodup := by
          refine (List.perm_insertionSort (· ≤ ·) _).nodup_iff.2 ?_
          refine List.Nodup.map_on ?_ F.nodup
          intro x hx y hy hxy
          have := F.range x hx; have := F.range y hy
          omega
        exact s1.imp₂ (fun a b h1 h2 => lt_of_le_of_ne h1 h2) s2
      refine userBasis_of_rows hnd (m := gb.length) ?_ F.basis ?_ ?_ ?_ ?_
      · intro i hi
        rw [hcm] at hi
        exact List.mem_range.1 (List.mem_filter.1 hi).1
      · intro i
        rw [e3, takeOut_mem _ _ hsorted]
        refine exists_congr fun k => exists_congr fun hk => and_congr_right fun _ => not_congr ?_
        rw [List.mem_insertionSort, List.mem_map]
        constructor
        · rintro ⟨x, hx, rfl⟩
          have := F.range x hx
          rwa [Int.toNat_of_nonneg this.1]
        · intro hx; exact ⟨_, hx, by simp⟩
      · intro i hi hf
        rw [hcm]
        exact List.mem_filter.2 ⟨List.mem_range.2 hi, by simpa using hf⟩
      all_goals
        have hin : ∀ k (hk : k < m.cons.c.length) c, c < s.nVar → tripElem T k c = userElem (cStyle cfg.fortran S) jv m.cons.c[k] (s.user c) := by
          intro k hk c hc
          rw [← p2 k hk c hc, ← hT]
          by_cases hw' : cfg.withRhs = true
          · rw [if_pos hw', tripElem_append, tripElem_out (a := List.map _ (List.zipIdx _)), add_zero]
            intro e he
            obtain ⟨p, hp, rfl⟩ := List.mem_map.1 he
            simp only [ne_eq, Prod.mk.injEq, not_and]
            omega
          · rw [if_neg hw']
        have hrhs : cfg.withRhs = true → ∀ k (hk : k < m.cons.c.length), tripElem T k s.nVar = gv m.cons.c[k] - cfg.gl m.cons.c[k] := by
          intro hw' k hk
          rw [← hT, if_pos hw', tripElem_append, tripElem_out, zero_add]
          · exact tripElem_rhs m.cons.c (fun i => gv i - cfg.gl i) s.nVar k hk
          · intro e he
            obtain ⟨p, hp, rfl⟩ := List.mem_map.1 he
            have := p1 p hp
            intro h9
            dsimp only at h9
            rw [h9] at this
            omega
      · intro c hc
        by_cases hcn : c < s.nVar
        · exact ⟨fun i => userElem (cStyle cfg.fortran S) jv i (s.user c), Or.inl ⟨s.user c, (v1.2.1 c hcn).1, (v1.2.1 c hcn).2, rfl⟩, fun k hk => (hin k hk c hcn).symm⟩
        · by_cases hw' : cfg.withRhs = true
          · rw [if_pos hw'] at hc
            have : c = s.nVar := by omega
            subst this
            exact ⟨_, Or.inr ⟨_, by rw [if_pos hw'], rfl⟩, fun k hk => (hrhs hw' k hk).symm⟩
          · rw [if_neg hw'] at hc; exact absurd hc hcn
      · intro col hcol
        rcases hcol with ⟨j, hj, hnr, rfl⟩ | ⟨r, hr, rfl⟩
        · obtain ⟨c, hc, e⟩ := v1.2.2 j hj hnr
          refine ⟨c, by split_ifs <;> omega, fun k hk => ?_⟩
          rw [hin k hk c hc, e]
        · by_cases hw' : cfg.withRhs = true
          · rw [if_pos hw'] at hr
            simp only [Option.some.injEq] at hr
            subst hr
            refine ⟨s.nVar, by rw [if_pos hw']; omega, fun k hk => ?_⟩
            rw [hrhs hw' k hk]
          · rw [if_neg hw'] at hr; simp at hr

theorem determine_nil (D : DetOK det) {nFull nVar : Nat} {notFixed cMap : List Nat} (h : (determine cfg u nFull nVar notFixed cMap det).1 ≠ some true) :
    (determine cfg u nFull nVar notFixed cMap det).2.1 = [] := by
  unfold determine at h ⊢
  cases h1 : u.jacStruct with
  | none => rfl
  | some S =>
    cases h2 : u.start with
    | none => rfl
    | some x0 =>
      rw [h1, h2] at h
      dsimp only at h ⊢
      cases h3 : (if cfg.withRhs then u.g (testPoint cfg x0) else some fun _ => 0) with
      | none => rfl
      | some gv =>
        rw [h3] at h
        cases h4 : u.jac (testPoint cfg x0) with
        | none => rfl
        | some jv =>
          rw [h4] at h
          dsimp only at h ⊢
          exact D.empty _ _ _ h

theorem determine_false {nFull nVar : Nat} {notFixed cMap : List Nat} (h : (determine cfg u nFull nVar notFixed cMap det).1 = some false) (hd : ∀ a b c, (det a b c).1 = some true) :
    u.jacStruct = none ∨ u.start = none ∨ ∃ x0, u.start = some x0 ∧ ((cfg.withRhs = true ∧ u.g (testPoint cfg x0) = none) ∨ u.jac (testPoint cfg x0) = none) := by
  unfold determine at h
  cases h1 : u.jacStruct with
  | none => exact Or.inl rfl
  | some S =>
    cases h2 : u.start with
    | none => exact Or.inr (Or.inl rfl)
    | some x0 =>
      refine Or.inr (Or.inr ⟨x0, rfl, ?_⟩)
      rw [h1, h2] at h
      dsimp only at h
      cases h3 : (if cfg.withRhs then u.g (testPoint cfg x0) else some fun _ => 0) with
      | none =>
        left
        by_cases hw : cfg.withRhs = true
        · rw [if_pos hw] at h3; exact ⟨hw, h3⟩
        · rw [if_neg hw] at h3; simp at h3
      | some gv =>
        right
        rw [h3] at h
        cases h4 : u.jac (testPoint cfg x0) with
        | none => rfl
        | some jv =>
          rw [h4] at h
          dsimp only at h
          rw [hd] at h
          simp at h

/-- with a warning nothing is taken out. -/
theorem spaces_warning_aux (D : DetOK det) (h : (spaces cfg u det t loInf upInf xb gb).1 = some s) (hw : (spaces cfg u det t loInf upInf xb gb).2.1 = true) :
    getSpaces t loInf upInf xb gb [] = some s := by
  unfold spaces at h hw
  cases hm : buildMaps t loInf upInf xb gb with
  | none => rw [hm] at h; simp at h
  | some m =>
    rw [hm] at h hw
    dsimp only at h hw
    by_cases hpos : 0 < m.cons.c.length
    · rw [if_pos hpos] at h hw
      set r := determine cfg u xb.length m.vars.nVar (m.vars.notFixed.map (·.getD 0)) m.cons.c det with hr
      cases hr1 : r.1 with
      | none => rw [hr1] at h; simp at h
      | some ok =>
        rw [hr1] at h hw
        dsimp only at h hw
        have hok : ok = false := by simpa using hw
        subst hok
        have : r.2.1 = [] := by
          rw [hr]; apply determine_nil D; rw [← hr, hr1]; simp
        rw [this] at h
        simpa using h
    · rw [if_neg hpos] at hw; simp at hw

theorem calls_ok (nFull nVar : Nat) (notFixed cMap : List Nat) (last : Option (Nat → K)) :
    NewXOK last (determine cfg u nFull nVar notFixed cMap det).2.2 := by
  unfold determine
  cases h1 : u.jacStruct with
  | none => simp [NewXOK]
  | some S =>
    cases h2 : u.start with
    | none => simp [NewXOK]
    | some x0 =>
      dsimp only
      by_cases hw : cfg.withRhs = true
      · simp only [hw, if_true, Bool.not_true]
        cases u.g (testPoint cfg x0) with
        | none => simp [NewXOK]
        | some gv =>
          dsimp only
          cases u.jac (testPoint cfg x0) with
          | none => simp [NewXOK]
          | some jv => simp [NewXOK]
      · have hw' : cfg.withRhs = false := by simpa using hw
        simp only [hw', Bool.not_false]
        simp only [Bool.false_eq_true, if_false]
        cases u.jac (testPoint cfg x0) with
        | none => simp [NewXOK]
        | some jv => simp [NewXOK]

end

end Verif.DepRows
