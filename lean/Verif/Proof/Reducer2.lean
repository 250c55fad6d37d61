import Verif.Proof.Reducer
import Mathlib.Data.List.Induction
import Mathlib.Data.List.GetD

set_option linter.unusedSectionVars false
set_option linter.unusedSimpArgs false
set_option linter.unusedVariables false

namespace Verif.Reducer

/-! ## Jacobian -/

/-- new row index of an entry in a kept row. -/
def newRow (off : Int) (sk : List Int) (e : Int × Int) : Int × Int := (keepAt sk (e.1 - off).toNat + off, e.2)

/-- the entry is in a kept row. -/
def inKept (off : Int) (sk : List Int) (e : Int × Int) : Bool := decide (e.1 - off ∉ sk)

/-- positions of the entries in excluded rows. -/
def skPos (off : Int) (sk : List Int) (rows : List (Int × Int)) : List Int :=
  ((List.range rows.length).filter (fun k => !inKept off sk (rows.getD k (0, 0)))).map (fun (k : Nat) => (k : Int))

theorem rd_row (off : Int) (sk : List Int) (m : Nat) (e : Int × Int) (h1 : off ≤ e.1) (h2 : e.1 < off + m) (j : Int) :
    rd j ((List.range m).map (keepAt sk)) (e.1 - off) = keepAt sk (e.1 - off).toNat := by
  have h : ((e.1 - off).toNat : Int) = e.1 - off := by omega
  have := rd_keep sk m (e.1 - off).toNat (by omega) j
  rw [h] at this
  exact this

theorem keepAt_row (off : Int) (sk : List Int) (e : Int × Int) (h1 : off ≤ e.1) :
    0 ≤ keepAt sk (e.1 - off).toNat ↔ inKept off sk e = true := by
  have h : ((e.1 - off).toNat : Int) = e.1 - off := by omega
  rw [keepAt_nonneg, h]
  unfold inKept
  simp

theorem skPos_snoc (off : Int) (sk : List Int) (rows : List (Int × Int)) (e : Int × Int) :
    skPos off sk (rows ++ [e]) = skPos off sk rows ++ if inKept off sk e then [] else [(rows.length : Int)] := by
  unfold skPos
  rw [List.length_append, List.length_singleton, List.range_succ, List.filter_append, List.map_append]
  congr 1
  · congr 1
    apply List.filter_congr
    intro k hk
    rw [List.mem_range] at hk
    rw [List.getD_append _ _ _ _ hk]
  · have : (rows ++ [e]).getD rows.length (0, 0) = e := by simp [List.getD_eq_getElem?_getD]
    rw [List.filter_cons, this]
    cases inKept off sk e <;> simp

theorem jacStruct_fold (off : Int) (sk : List Int) (m : Nat) (rows : List (Int × Int))
    (hr : ∀ e ∈ rows, off ≤ e.1 ∧ e.1 < off + m) :
    (rows.zipIdx).foldl (jacStructStep off ((List.range m).map (keepAt sk))) ([], []) =
      ((rows.filter (inKept off sk)).map (newRow off sk), skPos off sk rows) := by
  induction rows using List.reverseRecOn with
  | nil => rfl
  | append_singleton rows e ih =>
    have ih := ih (fun e' he => hr e' (List.mem_append_left _ he))
    obtain ⟨h1, h2⟩ := hr e (by simp)
    rw [List.zipIdx_append, List.foldl_append, ih]
    simp only [List.zipIdx_singleton, List.foldl_cons, List.foldl_nil, jacStructStep]
    rw [rd_row off sk m e h1 h2, skPos_snoc]
    by_cases h : inKept off sk e = true
    · rw [if_pos ((keepAt_row off sk e h1).2 h)]
      simp [h, newRow]
    · rw [if_neg (fun h' => h ((keepAt_row off sk e h1).1 h'))]
      simp [h]

theorem skPos_sorted (off : Int) (sk : List Int) (rows : List (Int × Int)) : (skPos off sk rows).Pairwise (· < ·) := by
  unfold skPos
  rw [List.pairwise_map]
  refine List.Pairwise.filter _ ?_
  exact List.pairwise_lt_range.imp (fun h => by omega)

theorem skPos_mem (off : Int) (sk : List Int) (rows : List (Int × Int)) (k : Nat) (hk : k < rows.length) :
    (k : Int) ∈ skPos off sk rows ↔ inKept off sk rows[k] = false := by
  unfold skPos
  simp only [List.mem_map, List.mem_filter, List.mem_range]
  have e : rows.getD k (0, 0) = rows[k] := by simp [List.getD_eq_getElem?_getD, hk]
  constructor
  · rintro ⟨k', ⟨h1, h2⟩, h3⟩
    have : k' = k := by omega
    subst this
    rw [e] at h2
    simpa using h2
  · intro h
    exact ⟨k, ⟨hk, by rw [e, h]; rfl⟩, rfl⟩

theorem jacVal_fold {N : Type} (sp : List Int) (hs : sp.Pairwise (· < ·)) (hp : ∀ a ∈ sp, 0 ≤ a) (v : List N) :
    (v.zipIdx).foldl (jacValStep (sp ++ [-1])) ([], 0) =
      (((v.zipIdx).filter (fun e => decide ((e.2 : Int) ∉ sp))).map (fun e => e.1), cnt sp v.length) := by
  induction v using List.reverseRecOn with
  | nil => simp [cnt_zero sp hp]
  | append_singleton v a ih =>
    rw [List.zipIdx_append, List.foldl_append, ih]
    simp only [List.zipIdx_singleton, List.foldl_cons, List.foldl_nil, jacValStep, List.length_append, List.length_singleton]
    rw [cnt_succ sp hs, List.filter_append, List.map_append]
    simp only [Nat.zero_add]
    by_cases h : (v.length : Int) ∈ sp
    · rw [if_pos ((scan_mem sp hs _).2 h)]
      simp [h]
    · rw [if_neg (fun h' => h ((scan_mem sp hs _).1 h'))]
      simp [h]

/-- filtering values by position is filtering them by their index pair. -/
theorem zip_kept {N : Type} (q : Int × Int → Bool) (rows : List (Int × Int)) (v : List N) (hl : v.length = rows.length) (sp : List Int)
    (hsp : ∀ k (hk : k < rows.length), (k : Int) ∈ sp ↔ q rows[k] = false) :
    ((v.zipIdx).filter (fun e => decide ((e.2 : Int) ∉ sp))).map (fun e => e.1) = ((rows.zip v).filter (fun e => q e.1)).map (fun e => e.2) := by
  induction v using List.reverseRecOn generalizing rows with
  | nil => simp
  | append_singleton v a ih =>
    obtain ⟨rows', e, rfl⟩ : ∃ r e, rows = r ++ [e] := by
      refine ⟨rows.dropLast, rows.getLast (by intro h; rw [h] at hl; simp at hl), ?_⟩
      exact (List.dropLast_append_getLast _).symm
    have hl' : v.length = rows'.length := by simpa using hl
    have ih := ih rows' hl' (fun k hk => by
      have := hsp k (by simp; omega)
      rw [List.getElem_append_left hk] at this
      exact this)
    rw [List.zipIdx_append, List.filter_append, List.map_append, ih, List.zip_append hl'.symm, List.filter_append, List.map_append]
    congr 1
    have := hsp rows'.length (by simp)
    simp only [List.getElem_append_right (le_refl _), Nat.sub_self, List.getElem_cons_zero] at this
    simp only [List.zipIdx_singleton, Nat.zero_add, hl']
    cases hq : q e with
    | true =>
      have h' : (rows'.length : Int) ∉ sp := fun h => by rw [this, hq] at h; cases h
      simp [hq, h']
    | false =>
      have h' : (rows'.length : Int) ∈ sp := this.2 hq
      simp [hq, h']

theorem zip_filter_map {N : Type} (f : Int × Int → Int × Int) (q : Int × Int → Bool) (rows : List (Int × Int)) (v : List N) (hl : v.length = rows.length) :
    ((rows.filter q).map f).zip (((rows.zip v).filter (fun e => q e.1)).map (fun e => e.2)) =
      ((rows.zip v).filter (fun e => q e.1)).map (fun e => (f e.1, e.2)) := by
  induction rows generalizing v with
  | nil => simp
  | cons e rows ih =>
    cases v with
    | nil => simp at hl
    | cons a v =>
      have ih := ih v (by simpa using hl)
      simp only [List.zip_cons_cons, List.filter_cons]
      cases q e <;> simp [ih]

/-- the row map is injective on kept rows, with the kept list as inverse. -/
theorem newRow_eq_iff (off : Int) (sk : List Int) (m j i : Nat) (hj : (keptTo sk m)[j]? = some i) (e : Int × Int) (h1 : off ≤ e.1)
    (h2 : e.1 < off + m) (hk : inKept off sk e = true) (col : Int) :
    newRow off sk e = ((j : Int) + off, col) ↔ e = ((i : Int) + off, col) := by
  have h : ((e.1 - off).toNat : Int) = e.1 - off := by omega
  have hns : ((e.1 - off).toNat : Int) ∉ sk := by rw [h]; simpa [inKept] using hk
  have hg := keptTo_get sk (e.1 - off).toNat m (by omega) hns
  have hnd : (keptTo sk m).Nodup := List.nodup_range.filter _
  unfold newRow keepAt
  rw [if_neg hns]
  obtain ⟨e1, e2⟩ := e
  simp only at *
  simp only [Prod.mk.injEq]
  refine and_congr_left (fun _ => ?_)
  constructor
  · intro hh
    have : (keptTo sk (e1 - off).toNat).length = j := by omega
    rw [this, hj] at hg
    have := Option.some.inj hg
    omega
  · intro hh
    have : (e1 - off).toNat = i := by omega
    rw [this] at hg
    obtain ⟨a1, a2⟩ := List.getElem?_eq_some_iff.1 hj
    obtain ⟨b1, b2⟩ := List.getElem?_eq_some_iff.1 hg
    have := (List.Nodup.getElem_inj_iff hnd).1 (a2.trans b2.symm)
    rw [‹(e1 - off).toNat = i›]
    omega

theorem trip_red {N : Type} [AddMonoid N] (off : Int) (sk : List Int) (m j i : Nat) (hj : (keptTo sk m)[j]? = some i)
    (rows : List (Int × Int)) (hr : ∀ e ∈ rows, off ≤ e.1 ∧ e.1 < off + m) (v : List N) (hl : v.length = rows.length) (col : Int) :
    trip ((rows.filter (inKept off sk)).map (newRow off sk)) (((rows.zip v).filter (fun e => inKept off sk e.1)).map (fun e => e.2))
      ((j : Int) + off) col = trip rows v ((i : Int) + off) col := by
  unfold trip
  rw [zip_filter_map _ _ _ _ hl, List.filter_map, List.map_map, List.filter_filter]
  have hm : i ∈ keptTo sk m := List.mem_of_getElem? hj
  unfold keptTo at hm
  rw [List.mem_filter, List.mem_range] at hm
  obtain ⟨hi, hs⟩ := hm
  have hs : (i : Int) ∉ sk := by simpa using hs
  have : ∀ e ∈ rows.zip v, (((fun e : (Int × Int) × N => decide (e.1 = ((j : Int) + off, col))) ∘ fun e => (newRow off sk e.1, e.2)) e &&
      inKept off sk e.1) = decide (e.1 = ((i : Int) + off, col)) := by
    intro e he
    obtain ⟨h1, h2⟩ := hr e.1 (List.of_mem_zip he).1
    simp only [Function.comp]
    by_cases hk : inKept off sk e.1 = true
    · rw [hk, Bool.and_true]
      exact decide_eq_decide.2 (newRow_eq_iff off sk m j i hj e.1 h1 h2 hk col)
    · simp only [Bool.not_eq_true] at hk
      rw [hk, Bool.and_false]
      symm
      rw [decide_eq_false_iff_not]
      intro hh
      rw [hh] at hk
      simp [inKept, hs] at hk
  rw [List.filter_congr this]
  rfl

/-! ## variable bounds -/

/-- required lower and upper bound. -/
def xlSpec {N : Type} [Zero N] [Neg N] (huge : N) (fx sL : List Int) (xs xl : List N) (i : Nat) : N :=
  if (i : Int) ∈ fx then xs.getD i 0 else if (i : Int) ∈ sL then -huge else xl.getD i 0

def xuSpec {N : Type} [Zero N] (huge : N) (fx sU : List Int) (xs xu : List N) (i : Nat) : N :=
  if (i : Int) ∈ fx then xs.getD i 0 else if (i : Int) ∈ sU then huge else xu.getD i 0

theorem getD_set {A : Type} (d : A) (l : List A) (i j : Nat) (a : A) (hi : i < l.length) : (l.set i a).getD j d = if i = j then a else l.getD j d := by
  simp only [List.getD_eq_getElem?_getD, List.getElem?_set]
  by_cases h : i = j
  · subst h; simp [hi]
  · simp [h]

theorem bound_fold {N : Type} [Zero N] [Neg N] (huge : N) (r : Red) (xs xl xu : List N) (sL sU fx : List Int)
    (hL : r.xLSkip = sL ++ [-1]) (hU : r.xUSkip = sU ++ [-1]) (hF : r.xFix = fx ++ [-1])
    (oL : sL.Pairwise (· < ·)) (oU : sU.Pairwise (· < ·)) (oF : fx.Pairwise (· < ·))
    (pL : ∀ a ∈ sL, 0 ≤ a) (pU : ∀ a ∈ sU, 0 ≤ a) (pF : ∀ a ∈ fx, 0 ≤ a) (n : Nat) (hxl : xl.length = n) (hxu : xu.length = n) :
    ∀ k, k ≤ n → ∃ a b, (List.range k).foldl (boundStep huge r xs) (xl, xu, 0, 0, 0) = (a, b, cnt sL k, cnt sU k, cnt fx k) ∧
      a.length = n ∧ b.length = n ∧
      (∀ j, a.getD j 0 = if j < k then xlSpec huge fx sL xs xl j else xl.getD j 0) ∧
      (∀ j, b.getD j 0 = if j < k then xuSpec huge fx sU xs xu j else xu.getD j 0) := by
  intro k hk
  induction k with
  | zero => exact ⟨xl, xu, by simp [cnt_zero _ pL, cnt_zero _ pU, cnt_zero _ pF], hxl, hxu, by simp, by simp⟩
  | succ k ih =>
    obtain ⟨a, b, h1, h2, h3, h4, h5⟩ := ih (by omega)
    rw [List.range_succ, List.foldl_append, h1]
    simp only [List.foldl_cons, List.foldl_nil, boundStep, hL, hU, hF]
    rw [cnt_succ sL oL, cnt_succ sU oU, cnt_succ fx oF]
    have key : ∀ (c : N) (l : List N) (g : Nat → N) (d0 : List N), l.length = n → (∀ j, l.getD j 0 = if j < k then g j else d0.getD j 0) →
        g k = c → ∀ j, (l.set k c).getD j 0 = if j < k + 1 then g j else d0.getD j 0 := by
      intro c l g d0 hl hg hc j
      rw [getD_set _ _ _ _ _ (by omega)]
      by_cases hjk : k = j
      · subst hjk; simp [hc]
      · rw [if_neg hjk, hg j]
        by_cases hj : j < k
        · rw [if_pos hj, if_pos (by omega)]
        · rw [if_neg hj, if_neg (by omega)]
    have keyN : ∀ (l : List N) (g : Nat → N) (d0 : List N), (∀ j, l.getD j 0 = if j < k then g j else d0.getD j 0) →
        g k = d0.getD k 0 → ∀ j, l.getD j 0 = if j < k + 1 then g j else d0.getD j 0 := by
      intro l g d0 hg hc j
      rw [hg j]
      by_cases hjk : k = j
      · subst hjk; simp [hc]
      · by_cases hj : j < k
        · rw [if_pos hj, if_pos (by omega)]
        · rw [if_neg hj, if_neg (by omega)]
    by_cases hf : (k : Int) ∈ fx
    · rw [if_pos ((scan_mem fx oF k).2 hf)]
      refine ⟨_, _, Prod.ext rfl (Prod.ext rfl (Prod.ext ?_ (Prod.ext ?_ ?_))), ?_, ?_, ?_, ?_⟩
      · simp only [scan_mem sL oL k]; split <;> simp_all
      · simp only [scan_mem sU oU k]; split <;> simp_all
      · simp [hf]
      · split <;> simp [h2]
      · split <;> simp [h3]
      · have : xlSpec huge fx sL xs xl k = xs.getD k 0 := by unfold xlSpec; rw [if_pos hf]
        split
        · rw [List.set_set]; exact key _ a _ xl h2 h4 this
        · exact key _ a _ xl h2 h4 this
      · have : xuSpec huge fx sU xs xu k = xs.getD k 0 := by unfold xuSpec; rw [if_pos hf]
        split
        · rw [List.set_set]; exact key _ b _ xu h3 h5 this
        · exact key _ b _ xu h3 h5 this
    · rw [if_neg (fun h => hf ((scan_mem fx oF k).1 h))]
      refine ⟨_, _, Prod.ext rfl (Prod.ext rfl (Prod.ext ?_ (Prod.ext ?_ ?_))), ?_, ?_, ?_, ?_⟩
      · simp only [scan_mem sL oL k]; split <;> simp_all
      · simp only [scan_mem sU oU k]; split <;> simp_all
      · simp [hf]
      · split <;> simp [h2]
      · split <;> simp [h3]
      · by_cases hl : (k : Int) ∈ sL
        · rw [if_pos ((scan_mem sL oL k).2 hl)]
          exact key _ a _ xl h2 h4 (by unfold xlSpec; rw [if_neg hf, if_pos hl])
        · rw [if_neg (fun h => hl ((scan_mem sL oL k).1 h))]
          exact keyN a _ xl h4 (by unfold xlSpec; rw [if_neg hf, if_neg hl])
      · by_cases hl : (k : Int) ∈ sU
        · rw [if_pos ((scan_mem sU oU k).2 hl)]
          exact key _ b _ xu h3 h5 (by unfold xuSpec; rw [if_neg hf, if_pos hl])
        · rw [if_neg (fun h => hl ((scan_mem sU oU k).1 h))]
          exact keyN b _ xu h5 (by unfold xuSpec; rw [if_neg hf, if_neg hl])

end Verif.Reducer
