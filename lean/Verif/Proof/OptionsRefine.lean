import Verif.Spec.Options
import Verif.Proof.Options
import Verif.Proof.Text

namespace Verif.Opt
open Text

/-! ### Refinement -/

theorem frozen_iff (m : Store) (tag : Str) : frozenV (view m (lower tag)) = true ↔ Protected (view m) tag := by
  unfold frozenV Protected
  cases h : view m (lower tag) with
  | none => simp
  | some x => obtain ⟨v, c, d⟩ := x; cases c <;> simp

theorem regCheck_iff (env : Env) (tag : Str) (ty : OType) (P : RegOpt → Bool) :
    regCheck env tag ty P = true ↔ Admissible env tag ty (fun o => P o = true) := by
  unfold regCheck Admissible
  cases hr : env.reg with
  | none => simp
  | some r =>
    simp only [Option.some.injEq, forall_eq']
    cases ho : getOption r tag with
    | none => simp
    | some o => simp

theorem storeText_table (env : Env) (m : Store) (tag text : Str) (c d : Bool) :
    view (storeText env m tag text c d) = Table.write (view m) tag text c d := by
  funext k
  rw [view_storeText]
  unfold Table.write
  by_cases h : Protected (view m) tag
  · rw [if_pos h, if_pos ((frozen_iff m tag).2 h)]
  · rw [if_neg h, if_neg (fun hh => h ((frozen_iff m tag).1 hh))]

theorem setString_table (env : Env) (m : Store) (tag v : Str) (c d : Bool) :
    view (setString env m tag v c d).2 = Table.step env (view m) (.setString tag v c d) := by
  unfold setString Table.step
  by_cases h : regCheck env tag .string (fun o => o.validString v) = true
  · rw [if_pos h]; simp only []; rw [if_pos ((regCheck_iff ..).1 h)]; exact storeText_table ..
  · rw [if_neg h]; simp only []; rw [if_neg (fun hh => h ((regCheck_iff ..).2 hh))]

theorem setNumeric_table (env : Env) (m : Store) (tag : Str) (v : Num) (c d : Bool) :
    view (setNumeric env m tag v c d).2 = Table.step env (view m) (.setNumeric tag v c d) := by
  unfold setNumeric Table.step
  by_cases h : regCheck env tag .number (fun o => o.validNumber v) = true
  · rw [if_pos h]; simp only []; rw [if_pos ((regCheck_iff ..).1 h)]; exact storeText_table ..
  · rw [if_neg h]; simp only []; rw [if_neg (fun hh => h ((regCheck_iff ..).2 hh))]

theorem setInteger_table (env : Env) (m : Store) (tag : Str) (v : Int) (c d : Bool) :
    view (setInteger env m tag v c d).2 = Table.step env (view m) (.setInteger tag v c d) := by
  unfold setInteger Table.step
  by_cases h : regCheck env tag .integer (fun o => o.validInteger v) = true
  · rw [if_pos h]; simp only []; rw [if_pos ((regCheck_iff ..).1 h)]; exact storeText_table ..
  · rw [if_neg h]; simp only []; rw [if_neg (fun hh => h ((regCheck_iff ..).2 hh))]

/-- One tag/value pair of a file. -/
theorem setFromText_table (env : Env) (m : Store) (tag value : Str) (c : Bool) :
    (∃ m', setFromText env m tag value c = (false, m') ∧ fileAction env tag value = .error ∧ view m' = view m) ∨
    (∃ m', setFromText env m tag value c = (true, m') ∧ fileAction env tag value = .skip ∧ view m' = view m) ∨
    (∃ m' text, setFromText env m tag value c = (true, m') ∧ fileAction env tag value = .write text ∧
      view m' = Table.write (view m) tag text c false) := by
  unfold setFromText fileAction
  cases hr : env.reg with
  | none =>
    right; right
    refine ⟨_, value, ?_, rfl, storeText_table env m tag value c false⟩
    simp [setString, regCheck, hr]
  | some r =>
    simp only []
    cases ho : getOption r tag with
    | none => left; exact ⟨m, rfl, rfl, rfl⟩
    | some o =>
      simp only []
      cases ht : o.type with
      | string =>
        simp only []
        by_cases hv : o.validString value = true
        · right; right
          refine ⟨_, value, ?_, by rw [if_pos hv], storeText_table env m tag value c false⟩
          simp [setString, regCheck, hr, ho, ht, hv]
        · left
          refine ⟨m, ?_, by rw [if_neg hv], rfl⟩
          simp [setString, regCheck, hr, ho, ht, hv]
      | number =>
        simp only []
        by_cases he : endOk (env.strtod (dToE value)).2 = true
        · by_cases hv : o.validNumber (env.strtod (dToE value)).1 = true
          · right; right
            refine ⟨_, env.fmt (env.strtod (dToE value)).1, ?_, by rw [if_pos ⟨he, hv⟩], storeText_table env m tag _ c false⟩
            simp [setNumeric, regCheck, hr, ho, ht, hv, he]
          · left
            refine ⟨m, ?_, by rw [if_neg (fun h => hv h.2)], rfl⟩
            simp [setNumeric, regCheck, hr, ho, ht, hv, he]
        · left
          refine ⟨m, ?_, by rw [if_neg (fun h => he h.1)], rfl⟩
          simp [he]
      | integer =>
        simp only []
        by_cases he : endOk (strtol value).2 = true
        · by_cases hv : o.validInteger (castIndex env (strtol value).1) = true
          · right; right
            refine ⟨_, intDec (castIndex env (strtol value).1), ?_, by rw [if_pos ⟨he, hv⟩],
              storeText_table env m tag _ c false⟩
            simp [setInteger, regCheck, hr, ho, ht, hv, he]
          · left
            refine ⟨m, ?_, by rw [if_neg (fun h => hv h.2)], rfl⟩
            simp [setInteger, regCheck, hr, ho, ht, hv, he]
        · left
          refine ⟨m, ?_, by rw [if_neg (fun h => he h.1)], rfl⟩
          simp [he]
      | unknown => right; left; exact ⟨m, rfl, rfl, rfl⟩

theorem tokens_eq (s : Str) :
    Tok.tokens s = match Tok.readNextToken s with | none => [] | some (t, r) => t :: Tok.tokens r := by
  rw [Tok.tokens]
  split <;> simp_all

theorem readFromStream_eq (env : Env) (m : Store) (s : Str) (c : Bool) :
    readFromStream env m s c = match Tok.readNextToken s with
      | none => (some true, m)
      | some (tag, r1) =>
        match Tok.readNextToken r1 with
        | none => (some false, m)
        | some (value, r2) =>
          match setFromText env m tag value c with
          | (false, m') => (none, m')
          | (true, m') => readFromStream env m' r2 c := by
  conv => lhs; rw [readFromStream]
  split
  · rename_i h; simp [h]
  · rename_i h
    conv_rhs => rw [h]
    simp only []
    split
    · rename_i h2; simp [h2]
    · rename_i h2
      conv_rhs => rw [h2]
      rfl

theorem read_table (env : Env) (c : Bool) (f : Str) : ∀ m : Store,
    view (readFromStream env m f c).2 = Table.readPairs env c (view m) (Tok.tokens f) := by
  induction hn : f.length using Nat.strong_induction_on generalizing f with
  | _ n ih =>
    intro m
    rw [readFromStream_eq, tokens_eq]
    cases h1 : Tok.readNextToken f with
    | none => rfl
    | some p1 =>
      obtain ⟨tag, r1⟩ := p1
      simp only []
      rw [tokens_eq r1]
      cases h2 : Tok.readNextToken r1 with
      | none => rfl
      | some p2 =>
        obtain ⟨value, r2⟩ := p2
        simp only [Table.readPairs]
        have l1 := Tok.readNextToken_length _ _ _ h1
        have l2 := Tok.readNextToken_length _ _ _ h2
        rcases setFromText_table env m tag value c with ⟨m', h3, h4, h5⟩ | ⟨m', h3, h4, h5⟩ | ⟨m', text, h3, h4, h5⟩
        · rw [h3, h4]; simp only []; exact h5
        · rw [h3, h4]; simp only []
          rw [ih r2.length (by omega) r2 rfl, h5]
        · rw [h3, h4]; simp only []
          rw [ih r2.length (by omega) r2 rfl, h5]

theorem findTag_unprefixed (m : Store) (tag : Str) : (findTag m tag []).1 = (view m (lower tag)).map (·.1) := by
  rw [findTag_fst]; simp

/-- One call acts on the table as specified. -/
theorem step_table (env : Env) (m : Store) (o : Op) : view (step env m o).2 = Table.step env (view m) o := by
  cases o with
  | setString t v c d => exact setString_table env m t v c d
  | setNumeric t v c d => exact setNumeric_table env m t v c d
  | setInteger t v c d => exact setInteger_table env m t v c d
  | setStringIfUnset t v c d =>
    have hv : view (getString env m t []).2 = view m := funext (view_getString env m t [])
    simp only [step, Table.step]
    have hset := setString_table env (getString env m t []).2 t v c d
    rw [hv] at hset
    simp only [Table.step] at hset
    have hres : (getString env m t []).1 = .exc ∧ ¬ Admissible env t .string (fun o => o.validString v) ∨
        ∃ val, (getString env m t []).1 = .ok (view m (lower t)).isSome val := by
      have h := findTag_unprefixed m t
      unfold getString
      simp only []
      cases hr : env.reg with
      | none => right; simp only []; exact ⟨_, by rw [h, Option.isSome_map]⟩
      | some r =>
        simp only []
        cases ho : getOption r t with
        | none =>
          left; refine ⟨rfl, ?_⟩
          intro ha; obtain ⟨o, h1, _⟩ := ha r hr; rw [ho] at h1; simp at h1
        | some o =>
          simp only []
          by_cases hty : o.type = .string
          · right
            simp only [hty, ne_eq, not_true_eq_false, if_false]
            cases hf : (findTag m t []).1 with
            | none =>
              rw [hf] at h
              have : view m (lower t) = none := by
                cases hh : view m (lower t) with
                | none => rfl
                | some x => rw [hh] at h; simp at h
              exact ⟨_, by rw [this]; rfl⟩
            | some x =>
              rw [hf] at h
              have : (view m (lower t)).isSome = true := by
                cases hh : view m (lower t) with
                | none => rw [hh] at h; simp at h
                | some x => rfl
              exact ⟨_, by rw [this]⟩
          · left
            simp only [ne_eq, hty, not_false_eq_true, if_true, true_and]
            intro ha; obtain ⟨o', h1, h2, _⟩ := ha r hr; rw [ho] at h1; injection h1 with h1; subst h1; exact hty h2
    unfold ifUnset
    rcases hres with ⟨he, hna⟩ | ⟨val, hok⟩
    · split
      · rename_i heq
        rw [heq] at hv
        rw [if_neg (fun hh => hna hh.2)]; exact hv
      · rename_i heq; rw [heq] at he; simp at he
      · rename_i heq; rw [heq] at he; simp at he
    · split
      · rename_i heq; rw [heq] at hok; simp at hok
      · rename_i heq
        rw [heq] at hok hv
        injection hok with hok _
        rw [if_neg]
        · exact hv
        · intro hh; rw [hh.1] at hok; simp at hok
      · rename_i heq
        rw [heq] at hok hset
        injection hok with hok _
        have hnone : view m (lower t) = none := by
          cases hh : view m (lower t) with
          | none => rfl
          | some x => rw [hh] at hok; simp at hok
        refine Eq.trans hset ?_
        classical
        exact if_congr (by simp only [hnone, true_and]) rfl rfl
  | setNumericIfUnset t v c d =>
    have hv : view (getNumeric env m t []).2 = view m := funext (view_getNumeric env m t [])
    simp only [step, Table.step]
    have hset := setNumeric_table env (getNumeric env m t []).2 t v c d
    rw [hv] at hset
    simp only [Table.step] at hset
    have h := findTag_unprefixed m t
    have hres : (getNumeric env m t []).1 = .exc ∧ (¬ Admissible env t .number (fun o => o.validNumber v) ∨
          (view m (lower t)).isSome) ∨
        ∃ val, (getNumeric env m t []).1 = .ok (view m (lower t)).isSome val := by
      unfold getNumeric getCheck
      have hcase : (∃ x m', findTag m t [] = (some x, m') ∧ (view m (lower t)).isSome = true) ∨
          (∃ m', findTag m t [] = (none, m') ∧ (view m (lower t)).isSome = false) := by
        rcases hft : findTag m t [] with ⟨x, m'⟩
        rw [hft] at h
        cases x with
        | none => right; refine ⟨m', rfl, ?_⟩; cases hh : view m (lower t) with
          | none => rfl
          | some y => rw [hh] at h; simp at h
        | some x => left; refine ⟨x, m', rfl, ?_⟩; cases hh : view m (lower t) with
          | none => rw [hh] at h; simp at h
          | some y => rfl
      cases hr : env.reg with
      | none =>
        simp only []
        rcases hcase with ⟨x, m', hx, hs⟩ | ⟨m', hx, hs⟩
        · rw [hx]; simp only []; split
          · right; exact ⟨_, by rw [hs]⟩
          · left; exact ⟨rfl, Or.inr hs⟩
        · rw [hx]; right; exact ⟨_, by rw [hs]⟩
      | some r =>
        simp only []
        cases ho : getOption r t with
        | none =>
          left; refine ⟨rfl, Or.inl ?_⟩
          intro ha; obtain ⟨o, h1, _⟩ := ha r hr; rw [ho] at h1; simp at h1
        | some o =>
          simp only []
          by_cases hty : o.type = .number
          · rw [if_pos hty]
            simp only []
            rcases hcase with ⟨x, m', hx, hs⟩ | ⟨m', hx, hs⟩
            · rw [hx]; simp only []; split
              · right; exact ⟨_, by rw [hs]⟩
              · left; exact ⟨rfl, Or.inr hs⟩
            · rw [hx]; right; exact ⟨_, by rw [hs]⟩
          · rw [if_neg hty]
            left; refine ⟨rfl, Or.inl ?_⟩
            intro ha; obtain ⟨o', h1, h2, _⟩ := ha r hr; rw [ho] at h1; injection h1 with h1; subst h1; exact hty h2
    unfold ifUnset
    rcases hres with ⟨he, hna⟩ | ⟨val, hok⟩
    · split
      · rename_i heq
        rw [heq] at hv
        rw [if_neg]
        · exact hv
        · rintro ⟨h1, h2⟩
          rcases hna with hna | hna
          · exact hna h2
          · rw [h1] at hna; simp at hna
      · rename_i heq; rw [heq] at he; simp at he
      · rename_i heq; rw [heq] at he; simp at he
    · split
      · rename_i heq; rw [heq] at hok; simp at hok
      · rename_i heq
        rw [heq] at hok hv
        injection hok with hok _
        rw [if_neg]
        · exact hv
        · intro hh; rw [hh.1] at hok; simp at hok
      · rename_i heq
        rw [heq] at hok hset
        injection hok with hok _
        have hnone : view m (lower t) = none := by
          cases hh : view m (lower t) with
          | none => rfl
          | some x => rw [hh] at hok; simp at hok
        refine Eq.trans hset ?_
        classical
        exact if_congr (by simp only [hnone, true_and]) rfl rfl
  | setIntegerIfUnset t v c d =>
    have hv : view (getInteger env m t []).2 = view m := funext (view_getInteger env m t [])
    simp only [step, Table.step]
    have hset := setInteger_table env (getInteger env m t []).2 t v c d
    rw [hv] at hset
    simp only [Table.step] at hset
    have h := findTag_unprefixed m t
    have hres : (getInteger env m t []).1 = .exc ∧ (¬ Admissible env t .integer (fun o => o.validInteger v) ∨
          (view m (lower t)).isSome) ∨
        ∃ val, (getInteger env m t []).1 = .ok (view m (lower t)).isSome val := by
      unfold getInteger getCheck
      have hcase : (∃ x m', findTag m t [] = (some x, m') ∧ (view m (lower t)).isSome = true) ∨
          (∃ m', findTag m t [] = (none, m') ∧ (view m (lower t)).isSome = false) := by
        rcases hft : findTag m t [] with ⟨x, m'⟩
        rw [hft] at h
        cases x with
        | none => right; refine ⟨m', rfl, ?_⟩; cases hh : view m (lower t) with
          | none => rfl
          | some y => rw [hh] at h; simp at h
        | some x => left; refine ⟨x, m', rfl, ?_⟩; cases hh : view m (lower t) with
          | none => rw [hh] at h; simp at h
          | some y => rfl
      cases hr : env.reg with
      | none =>
        simp only []
        rcases hcase with ⟨x, m', hx, hs⟩ | ⟨m', hx, hs⟩
        · rw [hx]; simp only []; split
          · right; exact ⟨_, by rw [hs]⟩
          · left; exact ⟨rfl, Or.inr hs⟩
        · rw [hx]; right; exact ⟨_, by rw [hs]⟩
      | some r =>
        simp only []
        cases ho : getOption r t with
        | none =>
          left; refine ⟨rfl, Or.inl ?_⟩
          intro ha; obtain ⟨o, h1, _⟩ := ha r hr; rw [ho] at h1; simp at h1
        | some o =>
          simp only []
          by_cases hty : o.type = .integer
          · rw [if_pos hty]
            simp only []
            rcases hcase with ⟨x, m', hx, hs⟩ | ⟨m', hx, hs⟩
            · rw [hx]; simp only []; split
              · right; exact ⟨_, by rw [hs]⟩
              · left; exact ⟨rfl, Or.inr hs⟩
            · rw [hx]; right; exact ⟨_, by rw [hs]⟩
          · rw [if_neg hty]
            left; refine ⟨rfl, Or.inl ?_⟩
            intro ha; obtain ⟨o', h1, h2, _⟩ := ha r hr; rw [ho] at h1; injection h1 with h1; subst h1; exact hty h2
    unfold ifUnset
    rcases hres with ⟨he, hna⟩ | ⟨val, hok⟩
    · split
      · rename_i heq
        rw [heq] at hv
        rw [if_neg]
        · exact hv
        · rintro ⟨h1, h2⟩
          rcases hna with hna | hna
          · exact hna h2
          · rw [h1] at hna; simp at hna
      · rename_i heq; rw [heq] at he; simp at he
      · rename_i heq; rw [heq] at he; simp at he
    · split
      · rename_i heq; rw [heq] at hok; simp at hok
      · rename_i heq
        rw [heq] at hok hv
        injection hok with hok _
        rw [if_neg]
        · exact hv
        · intro hh; rw [hh.1] at hok; simp at hok
      · rename_i heq
        rw [heq] at hok hset
        injection hok with hok _
        have hnone : view m (lower t) = none := by
          cases hh : view m (lower t) with
          | none => rfl
          | some x => rw [hh] at hok; simp at hok
        refine Eq.trans hset ?_
        classical
        exact if_congr (by simp only [hnone, true_and]) rfl rfl
  | unset t =>
    simp only [step, Table.step, unset]
    rw [willAllow_eq]
    unfold Table.remove
    funext k
    by_cases h : Protected (view m) t
    · rw [if_pos h, (frozen_iff m t).2 h]
      simp only [Bool.not_true, Bool.not_false, if_true]
      split
      · exact view_touch ..
      · rfl
    · rw [if_neg h, show frozenV (view m (lower t)) = false from by
        rw [← Bool.not_eq_true]; exact fun hh => h ((frozen_iff m t).1 hh)]
      simp only [Bool.not_false, Bool.not_true, Bool.false_eq_true, if_false]
      exact view_erase ..
  | clear => rfl
  | read f c =>
    simp only [step, Table.step]
    have := read_table env c f m
    split
    · rename_i heq; rw [heq] at this; exact this
    · rename_i heq; rw [heq] at this; exact this
  | getString t p => exact funext (view_getString env m t p)
  | getNumeric t p => exact funext (view_getNumeric env m t p)
  | getInteger t p => exact funext (view_getInteger env m t p)
  | getEnum t p => exact funext (view_getEnum env m t p)
  | getBool t p => exact funext (view_getBool env m t p)

end Verif.Opt
