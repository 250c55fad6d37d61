import Verif.Spec.CalcQuant

/-! # Proofs about the caches of `IpoptCalculatedQuantities` (generic part) -/

set_option linter.unusedSectionVars false
set_option linter.unusedSimpArgs false
set_option linter.unusedVariables false

namespace Verif.CQ

variable {N V : Type} [DecidableEq N]

/-- Functions called. -/
def callsOf : List (Instr N) → List N
  | [] => []
  | .call c _ :: is => c :: callsOf is
  | _ :: is => callsOf is

/-- Functions called by a function. -/
def QDef.calls (d : QDef N) : List N := callsOf (d.pre ++ d.body)

theorem callsOf_append (a b : List (Instr N)) : callsOf (a ++ b) = callsOf a ++ callsOf b := by
  induction a with
  | nil => rfl
  | cons i is ih => cases i <;> simp [callsOf, ih]

/-! ## The analysis -/

/-- Places and argument-free calls known to agree. -/
structure Known (N : Type) where
  locs : Loc → Bool
  calls : N → Bool

/-- Which registers are determined. -/
def detI (K : Known N) (detc : N → (Nat → Bool) → Bool) (ad : Nat → Bool) : List Bool → List (Instr N) → List Bool
  | rs, [] => rs
  | rs, .read (.arg i) :: is => detI K detc ad (rs ++ [ad i]) is
  | rs, .read l :: is => detI K detc ad (rs ++ [K.locs l]) is
  | rs, .call c as :: is =>
    detI K detc ad (rs ++ [(as.isEmpty && K.calls c) || detc c (fun i => match as[i]? with | some j => rs.getD j false | none => true)]) is
  | rs, .op _ as :: is => detI K detc ad (rs ++ [as.all (fun j => rs.getD j false)]) is

/-- Is the value of the function determined? -/
def detQ (T : N → QDef N) (K : Known N) : Nat → N → (Nat → Bool) → Bool
  | 0, _, _ => false
  | n + 1, q, ad => (detI K (detQ T K n) ad [] ((T q).pre ++ (T q).body)).getLastD false

/-- An instruction reads this place. -/
def Instr.isRead (l : Loc) : Instr N → Bool
  | .read l' => decide (l' = l)
  | _ => false

/-- An instruction is this argument-free call. -/
def Instr.isCall (c : N) : Instr N → Bool
  | .call c' as => decide (c' = c) && as.isEmpty
  | _ => false

/-- A register of the dependencies satisfies `p`. -/
def QDef.keyed (d : QDef N) (p : Instr N → Bool) : Bool :=
  (d.tagKeys ++ d.valKeys).any (fun i => match d.pre[i]? with | some a => p a | none => false)

/-- What agrees when the dependencies agree and the places `fixed` never change. -/
def QDef.known (d : QDef N) (fixed : List Glob) : Known N where
  locs l := d.keyed (Instr.isRead l) || (match l with | .glob g => decide (g ∈ fixed) | _ => false)
  calls c := d.keyed (Instr.isCall c)

/-- The dependencies determine the value. -/
def topDet (T : N → QDef N) (n : Nat) (fixed : List Glob) (q : N) : Bool :=
  detQ T ((T q).known fixed) n q (fun i => ((T q).known fixed).locs (.arg i))

/-- Nothing is ever stored, or the dependencies determine the value; the same for everything the function calls. -/
inductive Ok (T : N → QDef N) (n : Nat) (fixed : List Glob) : N → Prop where
  | mk (q : N) : ((T q).store = .never ∨ topDet T n fixed q = true) → (∀ c ∈ (T q).calls, Ok T n fixed c) → Ok T n fixed q

/-- Decision procedure. -/
def okB (T : N → QDef N) (n : Nat) (fixed : List Glob) : Nat → N → Bool
  | 0, _ => false
  | m + 1, q => (decide ((T q).store = .never) || topDet T n fixed q) && (T q).calls.all (okB T n fixed m)

theorem ok_of_okB (T : N → QDef N) (n : Nat) (fixed : List Glob) : ∀ m q, okB T n fixed m q = true → Ok T n fixed q := by
  intro m
  induction m with
  | zero => intro q h; simp [okB] at h
  | succ m ih =>
    intro q h
    simp only [okB, Bool.and_eq_true, Bool.or_eq_true, decide_eq_true_eq, List.all_eq_true] at h
    exact .mk q h.1 (fun c hc => ih c (h.2 c hc))

theorem Ok.top {T : N → QDef N} {n : Nat} {fixed : List Glob} {q : N} (h : Ok T n fixed q) :
    (T q).store = .never ∨ topDet T n fixed q = true := by cases h; assumption
theorem Ok.calls {T : N → QDef N} {n : Nat} {fixed : List Glob} {q : N} (h : Ok T n fixed q) : ∀ c ∈ (T q).calls, Ok T n fixed c := by
  cases h; assumption

/-! ## Values from scratch -/

variable (I : Interp V) (T : N → QDef N)

theorem evalI_congr (f g : N → List V → V) (w : View V) (args : List V) (is : List (Instr N)) :
    ∀ rs, (∀ c ∈ callsOf is, ∀ a, f c a = g c a) → evalI I f w args rs is = evalI I g w args rs is := by
  induction is with
  | nil => intro rs _; rfl
  | cons i is ih =>
    intro rs h
    cases i with
    | read l => simp only [evalI]; exact ih _ (fun c hc => h c (by simpa [callsOf] using hc))
    | call c as =>
      simp only [evalI]
      rw [h c (by simp [callsOf])]
      exact ih _ (fun c' hc => h c' (by simp [callsOf, hc]))
    | op f as => simp only [evalI]; exact ih _ (fun c hc => h c (by simpa [callsOf] using hc))

theorem fresh_fuel (rank : N → Nat) (hwf : ∀ q, ∀ c ∈ (T q).calls, rank c < rank q) (w : View V) :
    ∀ n m q a, rank q < n → rank q < m → fresh I T n w q a = fresh I T m w q a := by
  intro n
  induction n with
  | zero => intro m q a h; omega
  | succ n ih =>
    intro m q a hn hm
    cases m with
    | zero => omega
    | succ m =>
      simp only [fresh]
      rw [evalI_congr I (fresh I T n w) (fresh I T m w) w a]
      intro c hc a'
      have := hwf q c hc
      exact ih m c a' (by omega) (by omega)

theorem evalI_append (f : N → List V → V) (w : View V) (args : List V) (is js : List (Instr N)) :
    ∀ rs, evalI I f w args rs (is ++ js) = evalI I f w args (evalI I f w args rs is) js := by
  induction is with
  | nil => intro rs; rfl
  | cons i is ih => intro rs; cases i <;> simp [evalI, ih]

theorem evalI_prefix (f : N → List V → V) (w : View V) (args : List V) (is : List (Instr N)) :
    ∀ (rs : List V) (i : Nat) (x : V), rs[i]? = some x → (evalI I f w args rs is)[i]? = some x := by
  induction is with
  | nil => intro rs i x h; exact h
  | cons a is ih =>
    intro rs i x h
    have : ∀ y, (rs ++ [y])[i]? = some x := by
      intro y
      rw [List.getElem?_append_left (by
        by_contra hc
        rw [List.getElem?_eq_none (by omega)] at h
        cases h)]
      exact h
    cases a <;> simp only [evalI] <;> exact ih _ _ _ (this _)

theorem evalI_read (f : N → List V → V) (w : View V) (args : List V) (is : List (Instr N)) :
    ∀ (rs : List V) (i : Nat) (l : Loc), is[i]? = some (.read l) → (evalI I f w args rs is)[rs.length + i]? = some (w.read I args l) := by
  induction is with
  | nil => intro rs i l h; simp at h
  | cons a is ih =>
    intro rs i l h
    cases i with
    | zero =>
      simp only [List.getElem?_cons_zero, Option.some.injEq] at h
      subst h
      simp only [evalI]
      exact evalI_prefix I f w args is _ _ _ (by simp)
    | succ i =>
      simp only [List.getElem?_cons_succ] at h
      have h2 : ∀ y, (evalI I f w args (rs ++ [y]) is)[rs.length + (i + 1)]? = some (w.read I args l) := by
        intro y
        have := ih (rs ++ [y]) i l h
        simp only [List.length_append, List.length_singleton] at this
        rw [← this]; congr 1; omega
      cases a <;> simp only [evalI] <;> exact h2 _

theorem evalI_call0 (f : N → List V → V) (w : View V) (args : List V) (is : List (Instr N)) :
    ∀ (rs : List V) (i : Nat) (c : N), is[i]? = some (.call c []) → (evalI I f w args rs is)[rs.length + i]? = some (f c []) := by
  induction is with
  | nil => intro rs i l h; simp at h
  | cons a is ih =>
    intro rs i c h
    cases i with
    | zero =>
      simp only [List.getElem?_cons_zero, Option.some.injEq] at h
      subst h
      simp only [evalI]
      exact evalI_prefix I f w args is _ _ _ (by simp)
    | succ i =>
      simp only [List.getElem?_cons_succ] at h
      have h2 : ∀ y, (evalI I f w args (rs ++ [y]) is)[rs.length + (i + 1)]? = some (f c []) := by
        intro y
        have := ih (rs ++ [y]) i c h
        simp only [List.length_append, List.length_singleton] at this
        rw [← this]; congr 1; omega
      cases a <;> simp only [evalI] <;> exact h2 _

/-! ## Soundness of the analysis -/

/-- Determined registers agree. -/
def RelD (ds : List Bool) (vs vs' : List V) : Prop := ∀ i, ds.getD i false = true → regV I vs i = regV I vs' i

theorem getD_append_self {α : Type} (l : List α) (x d : α) (i : Nat) :
    (l ++ [x]).getD i d = if i < l.length then l.getD i d else if i = l.length then x else d := by
  simp only [List.getD_eq_getElem?_getD]
  split
  · rename_i h; rw [List.getElem?_append_left h]
  · split
    · rename_i h; subst h; simp
    · rw [List.getElem?_eq_none (by simp; omega)]; rfl

theorem RelD.snoc {ds : List Bool} {vs vs' : List V} (h : RelD I ds vs vs') (hl : ds.length = vs.length) (hl' : ds.length = vs'.length)
    {d : Bool} {x x' : V} (hx : d = true → x = x') : RelD I (ds ++ [d]) (vs ++ [x]) (vs' ++ [x']) := by
  intro i hi
  simp only [regV]
  rw [getD_append_self] at hi
  rw [getD_append_self, getD_append_self, ← hl, ← hl']
  by_cases h1 : i < ds.length
  · simp only [h1, if_true] at hi ⊢
    exact h i hi
  · by_cases h2 : i = ds.length
    · simp only [h2, Nat.lt_irrefl, if_false, if_true] at hi ⊢
      exact hx hi
    · simp only [h1, h2, if_false]

theorem detI_sound (K : Known N) (w w' : View V) (f f' : N → List V → V) (detc : N → (Nat → Bool) → Bool) (ad : Nat → Bool)
    (args args' : List V)
    (hloc : ∀ l, (∀ i, l ≠ .arg i) → K.locs l = true → w.read I args l = w'.read I args' l)
    (hargs : ∀ i, ad i = true → args.getD i I.dflt = args'.getD i I.dflt)
    (is : List (Instr N))
    (hcall : ∀ c ∈ callsOf is, K.calls c = true → f c [] = f' c [])
    (hdet : ∀ c ∈ callsOf is, ∀ ad', detc c ad' = true → ∀ a a' : List V, (∀ i, ad' i = true → a.getD i I.dflt = a'.getD i I.dflt) →
      f c a = f' c a') :
    ∀ ds vs vs', RelD I ds vs vs' → ds.length = vs.length → ds.length = vs'.length →
      RelD I (detI K detc ad ds is) (evalI I f w args vs is) (evalI I f' w' args' vs' is) ∧
      (detI K detc ad ds is).length = (evalI I f w args vs is).length ∧
      (detI K detc ad ds is).length = (evalI I f' w' args' vs' is).length := by
  induction is with
  | nil => intro ds vs vs' h hl hl'; exact ⟨h, hl, hl'⟩
  | cons a is ih =>
    intro ds vs vs' h hl hl'
    have ih := ih (fun c hc => hcall c (by cases a <;> simp [callsOf, hc])) (fun c hc => hdet c (by cases a <;> simp [callsOf, hc]))
    have go : ∀ d x x', (d = true → x = x') →
        RelD I (detI K detc ad (ds ++ [d]) is) (evalI I f w args (vs ++ [x]) is) (evalI I f' w' args' (vs' ++ [x']) is) ∧
        (detI K detc ad (ds ++ [d]) is).length = (evalI I f w args (vs ++ [x]) is).length ∧
        (detI K detc ad (ds ++ [d]) is).length = (evalI I f' w' args' (vs' ++ [x']) is).length := fun d x x' hx =>
      ih _ _ _ (h.snoc I hl hl' hx) (by simp [hl]) (by simp [hl'])
    cases a with
    | read l =>
      cases l with
      | arg i => simp only [detI, evalI]; exact go _ _ _ (fun hd => hargs i hd)
      | self c => simp only [detI, evalI]; exact go _ _ _ (fun hd => hloc _ (by intro i; simp) hd)
      | glob g => simp only [detI, evalI]; exact go _ _ _ (fun hd => hloc _ (by intro i; simp) hd)
    | op g as =>
      simp only [detI, evalI]
      refine go _ _ _ (fun hd => ?_)
      congr 1
      refine List.map_congr_left (fun j hj => ?_)
      exact h j (List.all_eq_true.1 hd j hj)
    | call c as =>
      simp only [detI, evalI]
      refine go _ _ _ (fun hd => ?_)
      rcases Bool.or_eq_true _ _ ▸ hd with h1 | h1
      · rw [Bool.and_eq_true] at h1
        have : as = [] := List.isEmpty_iff.1 h1.1
        subst this
        exact hcall c (by simp [callsOf]) h1.2
      · refine hdet c (by simp [callsOf]) _ h1 _ _ (fun i hi => ?_)
        simp only [List.getD_eq_getElem?_getD, List.getElem?_map]
        cases hj : as[i]? with
        | none => rfl
        | some j =>
          simp only [hj] at hi
          simpa using h j hi

theorem getLastD_eq_getD {α : Type} (l : List α) (d : α) : l.getLastD d = l.getD (l.length - 1) d := by
  rw [List.getLastD_eq_getLast?, List.getLast?_eq_getElem?, List.getD_eq_getElem?_getD]

variable (rank : N → Nat) (hwf : ∀ q, ∀ c ∈ (T q).calls, rank c < rank q)
include hwf

theorem detQ_sound (K : Known N) (w w' : View V)
    (hself : ∀ c, K.locs (.self c) = true → w.self c = w'.self c) (hgl : ∀ g, K.locs (.glob g) = true → w.gl g = w'.gl g)
    (hcall : ∀ c, K.calls c = true → ∀ m, rank c < m → fresh I T m w c [] = fresh I T m w' c []) :
    ∀ n q ad, detQ T K n q ad = true → ∀ m, rank q < m → ∀ a a' : List V, (∀ i, ad i = true → a.getD i I.dflt = a'.getD i I.dflt) →
      fresh I T m w q a = fresh I T m w' q a' := by
  intro n
  induction n with
  | zero => intro q ad h; simp [detQ] at h
  | succ n ih =>
    intro q ad h m hm a a' ha
    cases m with
    | zero => omega
    | succ m =>
      simp only [fresh, detQ] at h ⊢
      obtain ⟨h1, h2, h3⟩ := detI_sound I K w w' (fresh I T m w) (fresh I T m w') (detQ T K n) ad a a'
        (by
          intro l hl hk
          cases l with
          | self c => exact hself c hk
          | glob g => exact hgl g hk
          | arg i => exact absurd rfl (hl i))
        ha ((T q).pre ++ (T q).body)
        (fun c hc hk => hcall c hk m (by have := hwf q c hc; omega))
        (fun c hc ad' hd b b' hb => ih c ad' hd m (by have := hwf q c hc; omega) b b' hb)
        [] [] [] (fun i hi => rfl) rfl rfl
      rw [getLastD_eq_getD] at h
      rw [getLastD_eq_getD, getLastD_eq_getD, ← h2, ← h3]
      exact h1 _ h

/-- Registers of the dependencies. -/
theorem keyed_iff (d : QDef N) (p : Instr N → Bool) (h : d.keyed p = true) :
    ∃ i ∈ d.tagKeys ++ d.valKeys, ∃ a, d.pre[i]? = some a ∧ p a = true := by
  simp only [QDef.keyed, List.any_eq_true] at h
  obtain ⟨i, hi, h⟩ := h
  refine ⟨i, hi, ?_⟩
  cases ha : d.pre[i]? with
  | none => simp [ha] at h
  | some a => exact ⟨a, rfl, by simpa [ha] using h⟩

/-- If the dependencies agree and the fixed places agree, the values agree. -/
theorem topDet_sound (D : Nat) (hD : ∀ q, rank q < D) (fixed : List Glob) (n : Nat) (q : N) (h : topDet T n fixed q = true)
    (w w' : View V) (a a' : List V) (hfix : ∀ g ∈ fixed, w.gl g = w'.gl g)
    (hkeys : ∀ i ∈ (T q).tagKeys ++ (T q).valKeys,
      regV I (evalI I (fresh I T D w) w a [] (T q).pre) i = regV I (evalI I (fresh I T D w') w' a' [] (T q).pre) i) :
    fresh I T D w q a = fresh I T D w' q a' := by
  have hread : ∀ l, (T q).keyed (Instr.isRead l) = true → w.read I a l = w'.read I a' l := by
    intro l hl
    obtain ⟨i, hi, x, hx, hp⟩ := keyed_iff T rank hwf (T q) _ hl
    cases x with
    | read l' =>
      have : l' = l := by simpa [Instr.isRead] using hp
      subst this
      have h1 := evalI_read I (fresh I T D w) w a (T q).pre [] i l' hx
      have h2 := evalI_read I (fresh I T D w') w' a' (T q).pre [] i l' hx
      have h3 := hkeys i hi
      simp only [List.length_nil, Nat.zero_add] at h1 h2
      simp only [regV, List.getD_eq_getElem?_getD, h1, h2, Option.getD_some] at h3
      exact h3
    | call _ _ => simp [Instr.isRead] at hp
    | op _ _ => simp [Instr.isRead] at hp
  refine detQ_sound I T rank hwf ((T q).known fixed) w w' ?_ ?_ ?_ n q _ h D (hD q) a a' ?_
  · intro c hc
    simp only [QDef.known, Bool.or_false] at hc
    exact hread (.self c) hc
  · intro g hg
    simp only [QDef.known, Bool.or_eq_true, decide_eq_true_eq] at hg
    rcases hg with hg | hg
    · exact hread (.glob g) hg
    · exact hfix g hg
  · intro c hc m hm
    obtain ⟨i, hi, x, hx, hp⟩ := keyed_iff T rank hwf (T q) _ hc
    cases x with
    | call c' as =>
      simp only [Instr.isCall, Bool.and_eq_true, decide_eq_true_eq, List.isEmpty_iff] at hp
      obtain ⟨rfl, rfl⟩ := hp
      have h1 := evalI_call0 I (fresh I T D w) w a (T q).pre [] i c' hx
      have h2 := evalI_call0 I (fresh I T D w') w' a' (T q).pre [] i c' hx
      have h3 := hkeys i hi
      simp only [List.length_nil, Nat.zero_add] at h1 h2
      simp only [regV, List.getD_eq_getElem?_getD, h1, h2, Option.getD_some] at h3
      rw [fresh_fuel I T rank hwf w m D c' [] hm (hD c'), fresh_fuel I T rank hwf w' m D c' [] hm (hD c')]
      exact h3
    | read _ => simp [Instr.isCall] at hp
    | op _ _ => simp [Instr.isCall] at hp
  · intro i hi
    simp only [QDef.known, Bool.or_false] at hi
    exact hread (.arg i) hi

/-- The value from scratch with a depth that suffices. -/
theorem fresh_unfold (D : Nat) (hD : ∀ q, rank q < D) (w : View V) (q : N) (a : List V) :
    fresh I T D w q a = (evalI I (fresh I T D w) w a [] ((T q).pre ++ (T q).body)).getLastD I.dflt := by
  rw [fresh_fuel I T rank hwf w D (D + 1) q a (hD q) (by have := hD q; omega)]
  rfl

end Verif.CQ
