import Verif.Model.Options

namespace Verif.Opt
open Text

theorem find_nil (k : Str) : find [] k = none := rfl

theorem find_erase (m : Store) (k k' : Str) : find (erase m k) k' = if k' = k then none else find m k' := by
  unfold find erase
  induction m with
  | nil => simp
  | cons p m ih =>
    by_cases h : p.1 = k
    · simp only [List.filter_cons, h, ne_eq, not_true_eq_false, decide_false, Bool.false_eq_true, if_false]
      rw [ih]
      by_cases hk : k' = k
      · simp [hk]
      · have : ¬ k = k' := fun e => hk e.symm
        simp [hk, h, this]
    · simp only [List.filter_cons, h, ne_eq, not_false_eq_true, decide_true, if_true, List.find?_cons]
      by_cases hp : p.1 = k'
      · have : ¬ k' = k := fun e => h (hp.trans e)
        simp [hp, this]
      · simp only [hp, decide_false]
        rw [ih]

theorem find_insert (m : Store) (k k' : Str) (v : OptVal) :
    find (insert m k v) k' = if k' = k then some v else find m k' := by
  unfold insert
  have h := find_erase m k k'
  unfold find at h ⊢
  simp only [List.find?_cons]
  by_cases hk : k = k'
  · simp [hk]
  · have : ¬ k' = k := fun e => hk e.symm
    simp only [hk, decide_false, this, if_false]
    rw [h]; simp [this]

/-- What matters of a stored option apart from the use counter: text, may be overwritten, hidden. -/
def view (m : Store) (k : Str) : Option (Str × Bool × Bool) :=
  (find m k).map (fun v => (v.value, v.allowClobber, v.dontPrint))

theorem view_touch (m : Store) (k k' : Str) : view (touch m k) k' = view m k' := by
  unfold view touch
  cases h : find m k with
  | none => rfl
  | some v =>
    simp only [find_insert]
    by_cases hk : k' = k
    · simp [hk, h]
    · simp [hk]

theorem view_insert (m : Store) (k k' : Str) (v : OptVal) :
    view (insert m k v) k' = if k' = k then some (v.value, v.allowClobber, v.dontPrint) else view m k' := by
  unfold view; rw [find_insert]; split <;> rfl

theorem view_erase (m : Store) (k k' : Str) : view (erase m k) k' = if k' = k then none else view m k' := by
  unfold view; rw [find_erase]; split <;> rfl

/-- The view is frozen at `k`. -/
def frozenV (w : Option (Str × Bool × Bool)) : Bool :=
  match w with
  | some (_, c, _) => !c
  | none => false

theorem willAllow_eq (m : Store) (tag : Str) : willAllowClobber m tag = !frozenV (view m (lower tag)) := by
  unfold willAllowClobber view frozenV
  cases find m (lower tag) <;> simp

theorem view_storeText (env : Env) (m : Store) (tag text : Str) (c d : Bool) (k : Str) :
    view (storeText env m tag text c d) k =
      if frozenV (view m (lower tag)) then view m k
      else if k = lower tag then some (text, c, d) else view m k := by
  unfold storeText
  rw [willAllow_eq]
  cases h : frozenV (view m (lower tag)) with
  | true =>
    simp only [Bool.not_true, Bool.not_false, if_true]
    split
    · rw [view_touch]
    · rfl
  | false =>
    simp only [Bool.not_false, Bool.not_true, Bool.false_eq_true, if_false]
    rw [view_insert]

theorem findTag_fst (m : Store) (tag pre : Str) :
    (findTag m tag pre).1 =
      if pre ≠ [] ∧ (view m (lower (pre ++ tag))).isSome then (view m (lower (pre ++ tag))).map (·.1)
      else (view m (lower tag)).map (·.1) := by
  unfold findTag view
  simp only [Option.isSome_map]
  split <;> simp [Option.map_map, Function.comp_def]

theorem view_findTag (m : Store) (tag pre : Str) (k : Str) : view (findTag m tag pre).2 k = view m k := by
  unfold findTag; exact view_touch _ _ _

theorem view_getString (env : Env) (m : Store) (tag pre k : Str) : view (getString env m tag pre).2 k = view m k := by
  have h := view_findTag m tag pre k
  unfold getString
  simp only []
  repeat' split
  all_goals exact h

theorem view_getEnum (env : Env) (m : Store) (tag pre k : Str) : view (getEnum env m tag pre).2 k = view m k := by
  have h := view_findTag m tag pre k
  unfold getEnum
  simp only []
  repeat' split
  all_goals exact h

theorem view_getBool (env : Env) (m : Store) (tag pre k : Str) : view (getBool env m tag pre).2 k = view m k := by
  have h := view_getString env m tag pre k
  unfold getBool
  split
  · rename_i heq; rw [heq] at h; exact h
  · rename_i heq
    rw [heq] at h
    simp only []
    repeat' split
    all_goals exact h

theorem view_getNumeric (env : Env) (m : Store) (tag pre k : Str) : view (getNumeric env m tag pre).2 k = view m k := by
  have h := view_findTag m tag pre k
  unfold getNumeric
  split
  · rfl
  · split
    · rename_i heq; rw [heq] at h
      simp only []
      split <;> exact h
    · rename_i heq; rw [heq] at h; exact h

theorem view_getInteger (env : Env) (m : Store) (tag pre k : Str) : view (getInteger env m tag pre).2 k = view m k := by
  have h := view_findTag m tag pre k
  unfold getInteger
  split
  · rfl
  · split
    · rename_i heq; rw [heq] at h
      simp only []
      split <;> exact h
    · rename_i heq; rw [heq] at h; exact h

end Verif.Opt
