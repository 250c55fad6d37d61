import Verif.Proof.OptionsRefine

/-!
# C01, C02, C03, C05, C07 — the option list

The specification (abstract table of options) is in `Verif/Spec/Options.lean`.
-/

namespace Verif.Opt
open Text

/-- What a string read shows for a stored text: with a registry the registered spelling, otherwise the text itself. -/
def shown (env : Env) (tag text : Str) : Str :=
  match env.reg with
  | none => text
  | some r => match getOption r tag with
    | none => text
    | some o => o.mapString text

/-- Reading `tag` with the given type does not violate the registry. -/
def Readable (env : Env) (tag : Str) (ty : OType) : Prop := Admissible env tag ty (fun _ => True)

/-- The entry that a read with prefix `pre` looks at: the prefixed name first, then the plain name. -/
def lookup (t : Table) (pre tag : Str) : Option Str :=
  if pre = [] then (t (lower tag)).map (·.1)
  else match t (lower (pre ++ tag)) with
    | some e => some e.1
    | none => (t (lower tag)).map (·.1)

/-- The registered default (if there is a registry). -/
def defaultOf {α : Type} (env : Env) (tag : Str) (f : RegOpt → α) : Option α :=
  match env.reg with
  | none => none
  | some r => (getOption r tag).map f

private theorem findTag_lookup (m : Store) (tag pre : Str) : (findTag m tag pre).1 = lookup (view m) pre tag := by
  rw [findTag_fst]
  unfold lookup
  by_cases hp : pre = []
  · simp [hp]
  · simp only [ne_eq, hp, not_false_eq_true, true_and, if_false]
    cases view m (lower (pre ++ tag)) <;> simp

/-- **C01 (refinement).** After every history of calls on an empty option list, the stored options are exactly those of the
abstract table. -/
theorem option_list_refines_table (env : Env) (ops : List Op) : view (run env [] ops) = tableAfter env ops := by
  have h : ∀ (ops : List Op) (m : Store), view (run env m ops) = ops.foldl (Table.step env) (view m) := by
    intro ops
    induction ops with
    | nil => intro m; rfl
    | cons o os ih =>
      intro m
      simp only [run, List.foldl_cons]
      have := ih (step env m o).2
      simp only [run] at this
      rw [this, step_table]
  exact h ops []

/-- **C05 / C01 (string reads).** Whatever the history, a string read with prefix `pre` returns the entry found under the
prefixed name, else the entry under the plain name, else the registered default with the answer "not set". -/
theorem read_string_spec (env : Env) (ops : List Op) (tag pre : Str) (hr : Readable env tag .string) :
    (getString env (run env [] ops) tag pre).1 =
      match lookup (tableAfter env ops) pre tag with
      | some s => .ok true (some (shown env tag s))
      | none => .ok false (defaultOf env tag (·.defaultString)) := by
  rw [← option_list_refines_table, ← findTag_lookup]
  unfold getString shown defaultOf
  simp only []
  cases hreg : env.reg with
  | none => cases (findTag (run env [] ops) tag pre).1 <;> simp
  | some r =>
    obtain ⟨o, ho, hty, _⟩ := hr r hreg
    simp only [ho, hty, ne_eq, not_true_eq_false, if_false]
    cases (findTag (run env [] ops) tag pre).1 <;> simp

/-- **C05 (integer reads).** Same order; the text is converted by `strtol`; a text that is not a number raises an exception. -/
theorem read_integer_spec (env : Env) (ops : List Op) (tag pre : Str) (hr : Readable env tag .integer) :
    (getInteger env (run env [] ops) tag pre).1 =
      match lookup (tableAfter env ops) pre tag with
      | some s => if endOk (strtol s).2 then .ok true (some (castIndex env (strtol s).1)) else .exc
      | none => .ok false (defaultOf env tag (·.defaultInteger)) := by
  rw [← option_list_refines_table, ← findTag_lookup]
  unfold getInteger getCheck defaultOf
  cases hreg : env.reg with
  | none =>
    simp only []
    rcases findTag (run env [] ops) tag pre with ⟨x, m'⟩
    cases x with
    | none => rfl
    | some s => simp only []; split <;> rfl
  | some r =>
    obtain ⟨o, ho, hty, _⟩ := hr r hreg
    simp only [ho, hty, if_true]
    rcases findTag (run env [] ops) tag pre with ⟨x, m'⟩
    cases x with
    | none => rfl
    | some s => simp only []; split <;> rfl

/-- **C05 (numeric reads).** Same order; the text is converted by `strtod` after replacing `d` by `e`. -/
theorem read_numeric_spec (env : Env) (ops : List Op) (tag pre : Str) (hr : Readable env tag .number) :
    (getNumeric env (run env [] ops) tag pre).1 =
      match lookup (tableAfter env ops) pre tag with
      | some s => if endOk (env.strtod (dToE s)).2 then .ok true (some (env.strtod (dToE s)).1) else .exc
      | none => .ok false (defaultOf env tag (·.defaultNumber)) := by
  rw [← option_list_refines_table, ← findTag_lookup]
  unfold getNumeric getCheck defaultOf
  cases hreg : env.reg with
  | none =>
    simp only []
    rcases findTag (run env [] ops) tag pre with ⟨x, m'⟩
    cases x with
    | none => rfl
    | some s => simp only []; split <;> rfl
  | some r =>
    obtain ⟨o, ho, hty, _⟩ := hr r hreg
    simp only [ho, hty, if_true]
    rcases findTag (run env [] ops) tag pre with ⟨x, m'⟩
    cases x with
    | none => rfl
    | some s => simp only []; split <;> rfl

/-- A read of an option that is not registered, or registered with another type, raises an exception. -/
theorem read_unregistered_raises (env : Env) (m : Store) (tag pre : Str) :
    (¬ Readable env tag .string → (getString env m tag pre).1 = .exc) ∧
    (¬ Readable env tag .integer → (getInteger env m tag pre).1 = .exc) ∧
    (¬ Readable env tag .number → (getNumeric env m tag pre).1 = .exc) := by
  have key : ∀ ty, ¬ Readable env tag ty → ∃ r, env.reg = some r ∧ ∀ o, getOption r tag = some o → o.type ≠ ty := by
    intro ty h
    unfold Readable Admissible at h
    simp only [not_forall] at h
    obtain ⟨r, hr, h⟩ := h
    refine ⟨r, hr, fun o ho hty => h ⟨o, ho, hty, trivial⟩⟩
  refine ⟨fun h => ?_, fun h => ?_, fun h => ?_⟩
  · obtain ⟨r, hr, h⟩ := key _ h
    unfold getString
    simp only [hr]
    cases ho : getOption r tag with
    | none => rfl
    | some o => simp [h o ho]
  · obtain ⟨r, hr, h⟩ := key _ h
    unfold getInteger getCheck
    simp only [hr]
    cases ho : getOption r tag with
    | none => rfl
    | some o => simp [h o ho]
  · obtain ⟨r, hr, h⟩ := key _ h
    unfold getNumeric getCheck
    simp only [hr]
    cases ho : getOption r tag with
    | none => rfl
    | some o => simp [h o ho]

/-- The call may change the entry of `tag`: it names `tag` (up to letter case), reads a file containing such a name, or clears
the list. -/
def Mentions (tag : Str) : Op → Prop
  | .setString t _ _ _ | .setNumeric t _ _ _ | .setInteger t _ _ _ => lower t = lower tag
  | .setStringIfUnset t _ _ _ | .setNumericIfUnset t _ _ _ | .setIntegerIfUnset t _ _ _ => lower t = lower tag
  | .unset t => lower t = lower tag
  | .clear => True
  | .read f _ => ∃ t ∈ Tok.tokens f, lower t = lower tag
  | _ => False

private theorem write_other (t : Table) (tag tag' text : Str) (c d : Bool) (h : ¬ lower tag = lower tag') :
    (t.write tag text c d) (lower tag') = t (lower tag') := by
  unfold Table.write
  split
  · rfl
  · simp [Ne.symm h]

private theorem readPairs_other (env : Env) (c : Bool) (tag : Str) (l : List Str) (h : ∀ t ∈ l, ¬ lower t = lower tag) :
    ∀ t : Table, (t.readPairs env c l) (lower tag) = t (lower tag) := by
  induction hn : l.length using Nat.strong_induction_on generalizing l with
  | _ n ih =>
    intro t
    match l, h, hn with
    | [], _, _ => rfl
    | [a], _, _ => rfl
    | a :: v :: rest, h, hn =>
      simp only [List.length_cons] at hn
      have hrest : ∀ t ∈ rest, ¬ lower t = lower tag := fun t ht => h t (by simp [ht])
      simp only [Table.readPairs]
      cases hfa : fileAction env a v with
      | error => rfl
      | skip => exact ih rest.length (by omega) rest hrest rfl t
      | write text =>
        simp only []
        rw [ih rest.length (by omega) rest hrest rfl]
        exact write_other _ _ _ _ _ _ (h a (by simp))

/-- **C01 (no interference).** Calls that do not mention an option never change its entry. -/
theorem other_calls_do_not_interfere (env : Env) (tag : Str) (pre more : List Op) (h : ∀ o ∈ more, ¬ Mentions tag o) :
    tableAfter env (pre ++ more) (lower tag) = tableAfter env pre (lower tag) := by
  unfold tableAfter
  rw [List.foldl_append]
  generalize pre.foldl (Table.step env) (fun _ => none) = t
  induction more generalizing t with
  | nil => rfl
  | cons o os ih =>
    rw [List.foldl_cons, ih (fun o' ho' => h o' (by simp [ho']))]
    have ho := h o (by simp)
    cases o with
    | setString t' v c d => simp only [Table.step]; split; · exact write_other _ _ _ _ _ _ ho
                            · rfl
    | setNumeric t' v c d => simp only [Table.step]; split; · exact write_other _ _ _ _ _ _ ho
                             · rfl
    | setInteger t' v c d => simp only [Table.step]; split; · exact write_other _ _ _ _ _ _ ho
                             · rfl
    | setStringIfUnset t' v c d => simp only [Table.step]; split; · exact write_other _ _ _ _ _ _ ho
                                   · rfl
    | setNumericIfUnset t' v c d => simp only [Table.step]; split; · exact write_other _ _ _ _ _ _ ho
                                    · rfl
    | setIntegerIfUnset t' v c d => simp only [Table.step]; split; · exact write_other _ _ _ _ _ _ ho
                                    · rfl
    | unset t' =>
      simp only [Table.step, Table.remove]
      split
      · rfl
      · have : ¬ lower tag = lower t' := fun e => ho e.symm
        simp [this]
    | clear => exact absurd trivial ho
    | read f c =>
      simp only [Table.step]
      exact readPairs_other env c tag _ (fun t' ht' e => ho ⟨t', ht', e⟩) t
    | getString t' p => rfl
    | getNumeric t' p => rfl
    | getInteger t' p => rfl
    | getEnum t' p => rfl
    | getBool t' p => rfl

/-- A write of option `tag` with text `text` as part of a history. -/
inductive WriteOp (env : Env) (tag : Str) : Op → Str → Prop
  | string (v c d) : WriteOp env tag (.setString tag v c d) v
  | numeric (v c d) : WriteOp env tag (.setNumeric tag v c d) (env.fmt v)
  | integer (v c d) : WriteOp env tag (.setInteger tag v c d) (intDec v)

private theorem run_append (env : Env) (m : Store) (a b : List Op) : run env m (a ++ b) = run env (run env m a) b := by
  simp [run, List.foldl_append]

/-- A successful, non-blocked write determines the entry until the next call that mentions the option. -/
theorem write_determines_entry (env : Env) (tag text : Str) (pre more : List Op) (o : Op) (hw : WriteOp env tag o text)
    (hok : (step env (run env [] pre) o).1 = .bool true) (hnp : ¬ Protected (tableAfter env pre) tag)
    (hmore : ∀ o' ∈ more, ¬ Mentions tag o') :
    ((tableAfter env (pre ++ [o] ++ more)) (lower tag)).map (·.1) = some text := by
  rw [other_calls_do_not_interfere env tag (pre ++ [o]) more hmore]
  unfold tableAfter at hnp ⊢
  rw [List.foldl_append, List.foldl_cons, List.foldl_nil]
  cases hw with
  | string v c d =>
    simp only [step, setString] at hok
    split at hok
    · rename_i h
      simp only [Table.step]
      rw [if_pos ((regCheck_iff ..).1 h)]
      simp [Table.write, hnp]
    · simp at hok
  | numeric v c d =>
    simp only [step, setNumeric] at hok
    split at hok
    · rename_i h
      simp only [Table.step]
      rw [if_pos ((regCheck_iff ..).1 h)]
      simp [Table.write, hnp]
    · simp at hok
  | integer v c d =>
    simp only [step, setInteger] at hok
    split at hok
    · rename_i h
      simp only [Table.step]
      rw [if_pos ((regCheck_iff ..).1 h)]
      simp [Table.write, hnp]
    · simp at hok

/-- **C01 (strings).** After any history, a string value written successfully to a not protected option is what every later
read of the option (under a name equal up to letter case) returns, as long as only other options are touched. -/
theorem string_write_then_read (env : Env) (T T' v : Str) (c d : Bool) (pre more : List Op)
    (hok : (step env (run env [] pre) (.setString T v c d)).1 = .bool true)
    (hnp : ¬ Protected (tableAfter env pre) T) (hmore : ∀ o ∈ more, ¬ Mentions T o)
    (hT : lower T' = lower T) (hr : Readable env T' .string) :
    (getString env (run env [] (pre ++ [.setString T v c d] ++ more)) T' []).1 = .ok true (some (shown env T' v)) := by
  rw [read_string_spec env _ T' [] hr]
  have := write_determines_entry env T v pre more _ (.string v c d) hok hnp hmore
  simp only [lookup, if_true, hT]
  rw [this]

/-- **C01 (integers).** The same for integers; the value read is the value written, for every value of the `Index` type. -/
theorem integer_write_then_read (env : Env) (T T' : Str) (v : Int) (c d : Bool) (pre more : List Op)
    (hbits : 0 < env.idxBits ∧ env.idxBits ≤ 64) (hv1 : -2 ^ (env.idxBits - 1) ≤ v) (hv2 : v < 2 ^ (env.idxBits - 1))
    (hok : (step env (run env [] pre) (.setInteger T v c d)).1 = .bool true)
    (hnp : ¬ Protected (tableAfter env pre) T) (hmore : ∀ o ∈ more, ¬ Mentions T o)
    (hT : lower T' = lower T) (hr : Readable env T' .integer) :
    (getInteger env (run env [] (pre ++ [.setInteger T v c d] ++ more)) T' []).1 = .ok true (some v) := by
  rw [read_integer_spec env _ T' [] hr]
  have := write_determines_entry env T (intDec v) pre more _ (.integer v c d) hok hnp hmore
  simp only [lookup, if_true, hT]
  rw [this]
  have hp : (2 : Int) ^ (env.idxBits - 1) ≤ 2 ^ 63 := by
    have h : env.idxBits - 1 ≤ 63 := by omega
    exact_mod_cast Nat.pow_le_pow_right (by norm_num) h
  have h1 := strtol_intDec v (by omega) (by omega)
  simp only [h1, endOk, if_true, castIndex]
  have hb : (2 : Int) ^ env.idxBits = 2 * 2 ^ (env.idxBits - 1) := by
    obtain ⟨n, hn⟩ : ∃ n, env.idxBits = n + 1 := ⟨env.idxBits - 1, by omega⟩
    rw [hn]; simp [pow_succ]; ring
  congr 2
  apply Int.bmod_eq_of_le_mul_two
  · push_cast; rw [hb]; omega
  · push_cast; rw [hb]; omega

/-- **C01 (unset).** After clearing or successfully unsetting, an option reads as "not set" until it is mentioned again. -/
theorem unset_then_read (env : Env) (T T' : Str) (pre more : List Op) (o : Op) (ho : o = .clear ∨ o = .unset T)
    (hnp : o = .clear ∨ ¬ Protected (tableAfter env pre) T) (hmore : ∀ o' ∈ more, ¬ Mentions T o')
    (hT : lower T' = lower T) (hr : Readable env T' .string) :
    (getString env (run env [] (pre ++ [o] ++ more)) T' []).1 = .ok false (defaultOf env T' (·.defaultString)) := by
  rw [read_string_spec env _ T' [] hr]
  have : tableAfter env (pre ++ [o] ++ more) (lower T) = none := by
    rw [other_calls_do_not_interfere env T (pre ++ [o]) more hmore]
    unfold tableAfter at hnp ⊢
    rw [List.foldl_append, List.foldl_cons, List.foldl_nil]
    rcases ho with rfl | rfl
    · rfl
    · rcases hnp with h | h
      · simp at h
      · simp [Table.step, Table.remove, h]
  simp only [lookup, if_true, hT]
  rw [this]; rfl

/-! ### C02 -/

private theorem write_protected (t : Table) (tag text : Str) (c d : Bool) (k v : Str) (h : Bool)
    (hk : t k = some (v, false, h)) : (t.write tag text c d) k = some (v, false, h) := by
  unfold Table.write
  split
  · exact hk
  · rename_i hp
    have : ¬ k = lower tag := by rintro rfl; exact hp ⟨v, h, hk⟩
    simp [this, hk]

private theorem readPairs_protected (env : Env) (c : Bool) (k v : Str) (h : Bool) (l : List Str) :
    ∀ t : Table, t k = some (v, false, h) → (t.readPairs env c l) k = some (v, false, h) := by
  induction hn : l.length using Nat.strong_induction_on generalizing l with
  | _ n ih =>
    intro t ht
    match l, hn with
    | [], _ => exact ht
    | [a], _ => exact ht
    | a :: w :: rest, hn =>
      simp only [List.length_cons] at hn
      simp only [Table.readPairs]
      cases hfa : fileAction env a w with
      | error => exact ht
      | skip => exact ih rest.length (by omega) rest rfl t ht
      | write text => exact ih rest.length (by omega) rest rfl _ (write_protected _ _ _ _ _ _ _ _ ht)

/-- **C02.** Once an entry is stored with `allow_clobber = false`, no sequence of calls other than `clear` (including reading
whole option files) changes it. -/
theorem no_clobber_is_frozen (env : Env) (pre more : List Op) (k v : Str) (h : Bool)
    (hk : tableAfter env pre k = some (v, false, h)) (hmore : ∀ o ∈ more, o ≠ .clear) :
    tableAfter env (pre ++ more) k = some (v, false, h) := by
  unfold tableAfter at hk ⊢
  rw [List.foldl_append]
  generalize pre.foldl (Table.step env) (fun _ => none) = t at hk
  induction more generalizing t with
  | nil => exact hk
  | cons o os ih =>
    rw [List.foldl_cons]
    apply ih (fun o' ho' => hmore o' (by simp [ho']))
    cases o with
    | clear => exact absurd rfl (hmore _ (by simp))
    | unset t' =>
      simp only [Table.step, Table.remove]
      split
      · exact hk
      · rename_i hp
        have : ¬ k = lower t' := by rintro rfl; exact hp ⟨v, h, hk⟩
        simp [this, hk]
    | read f c => exact readPairs_protected env c k v h _ t hk
    | getString t' p => exact hk
    | getNumeric t' p => exact hk
    | getInteger t' p => exact hk
    | getEnum t' p => exact hk
    | getBool t' p => exact hk
    | setString t' v' c d => simp only [Table.step]; split; · exact write_protected _ _ _ _ _ _ _ _ hk
                             · exact hk
    | setNumeric t' v' c d => simp only [Table.step]; split; · exact write_protected _ _ _ _ _ _ _ _ hk
                              · exact hk
    | setInteger t' v' c d => simp only [Table.step]; split; · exact write_protected _ _ _ _ _ _ _ _ hk
                              · exact hk
    | setStringIfUnset t' v' c d => simp only [Table.step]; split; · exact write_protected _ _ _ _ _ _ _ _ hk
                                    · exact hk
    | setNumericIfUnset t' v' c d => simp only [Table.step]; split; · exact write_protected _ _ _ _ _ _ _ _ hk
                                     · exact hk
    | setIntegerIfUnset t' v' c d => simp only [Table.step]; split; · exact write_protected _ _ _ _ _ _ _ _ hk
                                     · exact hk

/-- **C02 (observable form).** A string option written successfully with `allow_clobber = false` reads the same after every
later sequence of calls without `clear`. -/
theorem no_clobber_read (env : Env) (T T' v : Str) (d : Bool) (pre more : List Op)
    (hok : (step env (run env [] pre) (.setString T v false d)).1 = .bool true)
    (hnp : ¬ Protected (tableAfter env pre) T) (hmore : ∀ o ∈ more, o ≠ .clear)
    (hT : lower T' = lower T) (hr : Readable env T' .string) :
    (getString env (run env [] (pre ++ [.setString T v false d] ++ more)) T' []).1 = .ok true (some (shown env T' v)) := by
  rw [read_string_spec env _ T' [] hr]
  have h1 : tableAfter env (pre ++ [.setString T v false d]) (lower T) = some (v, false, d) := by
    unfold tableAfter at hnp ⊢
    rw [List.foldl_append, List.foldl_cons, List.foldl_nil]
    simp only [step, setString] at hok
    split at hok
    · rename_i h
      simp only [Table.step]
      rw [if_pos ((regCheck_iff ..).1 h)]
      simp [Table.write, hnp]
    · simp at hok
  have h2 := no_clobber_is_frozen env _ more _ _ _ h1 hmore
  simp only [lookup, if_true, hT]
  rw [h2]; rfl

/-! ### C03 -/

/-- The value lies in the registered range (strict or not). -/
def InRange (o : RegOpt) (v : Num) : Prop :=
  (o.hasLower = true → if o.lowerStrict then o.lower < v else o.lower ≤ v) ∧
  (o.hasUpper = true → if o.upperStrict then v < o.upper else v ≤ o.upper)

/-- The bounds are proper numbers. -/
def BoundsOrdered (o : RegOpt) : Prop := o.lower ≠ .nan ∧ o.upper ≠ .nan

private theorem not_le_iff_lt {a b : Num} (ha : a ≠ .nan) (hb : b ≠ .nan) : ¬ a ≤ b ↔ b < a := by
  rw [Num.lt_iff_le_not_le' hb ha]
  constructor
  · intro h; refine ⟨?_, h⟩
    apply Num.le_of_not_gt' hb ha
    intro h2; exact h ((Num.lt_iff_le_not_le' ha hb).1 h2).1
  · exact fun h => h.2

private theorem not_lt_iff_le {a b : Num} (ha : a ≠ .nan) (hb : b ≠ .nan) : ¬ a < b ↔ b ≤ a :=
  ⟨fun h => Num.le_of_not_gt' hb ha h, fun h => Num.not_lt_of_le' h⟩

/-- A number that is not NaN is accepted exactly if it is in range. -/
theorem valid_number_iff_in_range (o : RegOpt) (v : Num) (hv : v ≠ .nan) (hb : BoundsOrdered o) :
    o.validNumber v = true ↔ InRange o v := by
  obtain ⟨h1, h2⟩ := hb
  have a1 := not_le_iff_lt hv h1
  have a2 := not_lt_iff_le hv h1
  have a3 := not_le_iff_lt h2 hv
  have a4 := not_lt_iff_le h2 hv
  unfold RegOpt.validNumber InRange
  rcases Bool.eq_false_or_eq_true o.hasLower with b1 | b1 <;> rcases Bool.eq_false_or_eq_true o.lowerStrict with b2 | b2 <;>
    rcases Bool.eq_false_or_eq_true o.hasUpper with b3 | b3 <;> rcases Bool.eq_false_or_eq_true o.upperStrict with b4 | b4 <;>
    simp [b1, b2, b3, b4, ← a1, ← a2, ← a3, ← a4]

/-- **Disagreement.** NaN is accepted for every numeric option, whatever its bounds are. -/
theorem nan_is_accepted (o : RegOpt) : o.validNumber .nan = true := by
  unfold RegOpt.validNumber
  simp [Num.not_nan_le, Num.not_nan_lt, Num.not_le_nan, Num.not_lt_nan]

/-- An integer is accepted exactly if it is in the (closed) registered range. -/
theorem valid_integer_iff (o : RegOpt) (v : Int) (hb : BoundsOrdered o) :
    o.validInteger v = true ↔ (o.hasLower = true → o.lower ≤ .fin v) ∧ (o.hasUpper = true → Num.fin v ≤ o.upper) := by
  have a2 := not_lt_iff_le (a := Num.fin v) (b := o.lower) (by simp) hb.1
  have a4 := not_lt_iff_le (a := o.upper) (b := Num.fin v) hb.2 (by simp)
  unfold RegOpt.validInteger
  rcases Bool.eq_false_or_eq_true o.hasLower with b1 | b1 <;> rcases Bool.eq_false_or_eq_true o.hasUpper with b3 | b3 <;>
    simp [b1, b3, ← a2, ← a4]

/-- **C03 (rejection).** A setter returns false exactly if the option is unknown, of another type, or the value is not
accepted by the registered option; the option list is then unchanged. -/
theorem setter_rejects (env : Env) (m : Store) (tag : Str) (c d : Bool) :
    (∀ v, ((setString env m tag v c d).1 = false ↔ ¬ Admissible env tag .string (fun o => o.validString v)) ∧
      ((setString env m tag v c d).1 = false → (setString env m tag v c d).2 = m)) ∧
    (∀ v, ((setNumeric env m tag v c d).1 = false ↔ ¬ Admissible env tag .number (fun o => o.validNumber v)) ∧
      ((setNumeric env m tag v c d).1 = false → (setNumeric env m tag v c d).2 = m)) ∧
    (∀ v, ((setInteger env m tag v c d).1 = false ↔ ¬ Admissible env tag .integer (fun o => o.validInteger v)) ∧
      ((setInteger env m tag v c d).1 = false → (setInteger env m tag v c d).2 = m)) := by
  refine ⟨fun v => ?_, fun v => ?_, fun v => ?_⟩
  · rw [← regCheck_iff]; unfold setString; split <;> simp [*]
  · rw [← regCheck_iff]; unfold setNumeric; split <;> simp [*]
  · rw [← regCheck_iff]; unfold setInteger; split <;> simp [*]

/-- The text is one that the registered option accepts. -/
def AcceptedText (env : Env) (tag text : Str) : Prop :=
  ∀ r, env.reg = some r → ∃ o, getOption r tag = some o ∧
    ((o.type = .string ∧ o.validString text = true) ∨
     (o.type = .number ∧ ∃ v, text = env.fmt v ∧ o.validNumber v = true) ∨
     (o.type = .integer ∧ ∃ v, text = intDec v ∧ o.validInteger v = true))

/-- Every entry of the table was accepted by the registered option it belongs to. -/
def AllAccepted (env : Env) (t : Table) : Prop :=
  ∀ k text c d, t k = some (text, c, d) → ∃ tag, lower tag = k ∧ AcceptedText env tag text

private theorem write_accepted (env : Env) (t : Table) (tag text : Str) (c d : Bool) (h : AllAccepted env t)
    (ha : AcceptedText env tag text) : AllAccepted env (t.write tag text c d) := by
  intro k x c' d' hk
  unfold Table.write at hk
  split at hk
  · exact h _ _ _ _ hk
  · by_cases hkk : k = lower tag
    · simp only [hkk, if_true, Option.some.injEq, Prod.mk.injEq] at hk
      exact ⟨tag, hkk.symm, hk.1 ▸ ha⟩
    · simp only [hkk, if_false] at hk; exact h _ _ _ _ hk

private theorem fileAction_accepted (env : Env) (tag value text : Str) (h : fileAction env tag value = .write text) :
    AcceptedText env tag text := by
  intro r hr
  unfold fileAction at h
  rw [hr] at h
  simp only [] at h
  cases ho : getOption r tag with
  | none => rw [ho] at h; simp at h
  | some o =>
    rw [ho] at h
    refine ⟨o, rfl, ?_⟩
    simp only [] at h
    cases ht : o.type with
    | string =>
      rw [ht] at h; simp only [] at h
      split at h
      · injection h with h; subst h; left; exact ⟨rfl, by assumption⟩
      · simp at h
    | number =>
      rw [ht] at h; simp only [] at h
      split at h
      · rename_i hh; injection h with h; subst h; right; left; exact ⟨rfl, _, rfl, hh.2⟩
      · simp at h
    | integer =>
      rw [ht] at h; simp only [] at h
      split at h
      · rename_i hh; injection h with h; subst h; right; right; exact ⟨rfl, _, rfl, hh.2⟩
      · simp at h
    | unknown => rw [ht] at h; simp at h

/-- **C03 (invariant).** After every history of calls, option files included, each stored option is registered with a type
and value that were accepted by the registry. -/
theorem stored_values_accepted (env : Env) (ops : List Op) : AllAccepted env (tableAfter env ops) := by
  have hpairs : ∀ (c : Bool) (l : List Str) (t : Table), AllAccepted env t → AllAccepted env (t.readPairs env c l) := by
    intro c l
    induction hn : l.length using Nat.strong_induction_on generalizing l with
    | _ n ih =>
      intro t ht
      match l, hn with
      | [], _ => exact ht
      | [a], _ => exact ht
      | a :: w :: rest, hn =>
        simp only [List.length_cons] at hn
        simp only [Table.readPairs]
        split
        · exact ht
        · exact ih rest.length (by omega) rest rfl t ht
        · rename_i hw
          exact ih rest.length (by omega) rest rfl _ (write_accepted env _ _ _ _ _ ht (fileAction_accepted env a w _ hw))
  have hstr : ∀ tag v, Admissible env tag .string (fun o => o.validString v) → AcceptedText env tag v :=
    fun tag v h r hr => by obtain ⟨o, h1, h2, h3⟩ := h r hr; exact ⟨o, h1, Or.inl ⟨h2, h3⟩⟩
  have hnum : ∀ tag v, Admissible env tag .number (fun o => o.validNumber v) → AcceptedText env tag (env.fmt v) :=
    fun tag v h r hr => by obtain ⟨o, h1, h2, h3⟩ := h r hr; exact ⟨o, h1, Or.inr (Or.inl ⟨h2, v, rfl, h3⟩)⟩
  have hint : ∀ tag v, Admissible env tag .integer (fun o => o.validInteger v) → AcceptedText env tag (intDec v) :=
    fun tag v h r hr => by obtain ⟨o, h1, h2, h3⟩ := h r hr; exact ⟨o, h1, Or.inr (Or.inr ⟨h2, v, rfl, h3⟩)⟩
  have hstep : ∀ (t : Table) (o : Op), AllAccepted env t → AllAccepted env (t.step env o) := by
    intro t o ht
    cases o with
    | setString t' v c d => simp only [Table.step]; split; · exact write_accepted _ _ _ _ _ _ ht (hstr _ _ (by assumption))
                            · exact ht
    | setNumeric t' v c d => simp only [Table.step]; split; · exact write_accepted _ _ _ _ _ _ ht (hnum _ _ (by assumption))
                             · exact ht
    | setInteger t' v c d => simp only [Table.step]; split; · exact write_accepted _ _ _ _ _ _ ht (hint _ _ (by assumption))
                             · exact ht
    | setStringIfUnset t' v c d =>
      simp only [Table.step]; split
      · rename_i h; exact write_accepted _ _ _ _ _ _ ht (hstr _ _ h.2)
      · exact ht
    | setNumericIfUnset t' v c d =>
      simp only [Table.step]; split
      · rename_i h; exact write_accepted _ _ _ _ _ _ ht (hnum _ _ h.2)
      · exact ht
    | setIntegerIfUnset t' v c d =>
      simp only [Table.step]; split
      · rename_i h; exact write_accepted _ _ _ _ _ _ ht (hint _ _ h.2)
      · exact ht
    | unset t' =>
      intro k x c d hk
      simp only [Table.step, Table.remove] at hk
      split at hk
      · exact ht _ _ _ _ hk
      · by_cases hkk : k = lower t'
        · simp [hkk] at hk
        · simp only [hkk, if_false] at hk; exact ht _ _ _ _ hk
    | clear => intro k x c d hk; simp [Table.step] at hk
    | read f c => exact hpairs c _ t ht
    | getString t' p => exact ht
    | getNumeric t' p => exact ht
    | getInteger t' p => exact ht
    | getEnum t' p => exact ht
    | getBool t' p => exact ht
  unfold tableAfter
  have : ∀ (ops : List Op) (t : Table), AllAccepted env t → AllAccepted env (ops.foldl (Table.step env) t) := by
    intro ops
    induction ops with
    | nil => exact fun _ h => h
    | cons o os ih => intro t ht; exact ih _ (hstep t o ht)
  exact this ops _ (by intro k x c d h; simp at h)

/-! ### C05: isolation of prefixes -/

/-- **C05 (isolation).** Calls that mention neither `pre ++ tag` nor `tag` do not influence a read of `tag` with prefix `pre`. -/
theorem prefix_isolation (env : Env) (tag pre : Str) (h1 more : List Op)
    (hm : ∀ o ∈ more, ¬ Mentions (pre ++ tag) o ∧ ¬ Mentions tag o) :
    lookup (tableAfter env (h1 ++ more)) pre tag = lookup (tableAfter env h1) pre tag := by
  unfold lookup
  rw [other_calls_do_not_interfere env tag h1 more (fun o ho => (hm o ho).2),
    other_calls_do_not_interfere env (pre ++ tag) h1 more (fun o ho => (hm o ho).1)]

/-- **C05 (isolation, observable form).** The results of prefixed reads are unchanged by such calls. -/
theorem prefix_isolation_reads (env : Env) (tag pre : Str) (h1 more : List Op)
    (hm : ∀ o ∈ more, ¬ Mentions (pre ++ tag) o ∧ ¬ Mentions tag o) :
    (Readable env tag .string → (getString env (run env [] (h1 ++ more)) tag pre).1 = (getString env (run env [] h1) tag pre).1) ∧
    (Readable env tag .integer →
      (getInteger env (run env [] (h1 ++ more)) tag pre).1 = (getInteger env (run env [] h1) tag pre).1) ∧
    (Readable env tag .number →
      (getNumeric env (run env [] (h1 ++ more)) tag pre).1 = (getNumeric env (run env [] h1) tag pre).1) := by
  have h := prefix_isolation env tag pre h1 more hm
  refine ⟨fun hr => ?_, fun hr => ?_, fun hr => ?_⟩
  · rw [read_string_spec env _ tag pre hr, read_string_spec env _ tag pre hr, h]
  · rw [read_integer_spec env _ tag pre hr, read_integer_spec env _ tag pre hr, h]
  · rw [read_numeric_spec env _ tag pre hr, read_numeric_spec env _ tag pre hr, h]

/-! ### C07 -/

/-- Equal up to letter case. -/
def SameUpToCase (a b : Str) : Prop := a.map Char.toUpper = b.map Char.toUpper

private theorem eqCI_iff (a b : Str) : eqCI a b = true ↔ SameUpToCase a b := by
  unfold eqCI SameUpToCase
  simp only [Bool.and_eq_true, decide_eq_true_eq, and_iff_right_iff_imp]
  intro h; simpa using congrArg List.length h

/-- **C07 (acceptance).** A setting is accepted exactly if the list of settings has a wildcard or a spelling equal to it up to
letter case. -/
theorem string_setting_accepted_iff (o : RegOpt) (v : Str) :
    o.validString v = true ↔ star ∈ o.strings ∨ ∃ s ∈ o.strings, SameUpToCase s v := by
  unfold RegOpt.validString
  simp only [List.any_eq_true, Bool.or_eq_true, decide_eq_true_eq, eqCI_iff]
  constructor
  · rintro ⟨s, hs, rfl | h⟩
    · exact Or.inl hs
    · exact Or.inr ⟨s, hs, h⟩
  · rintro (h | ⟨s, hs, h⟩)
    · exact ⟨star, h, Or.inl rfl⟩
    · exact ⟨s, hs, Or.inr h⟩

/-- **C07 (spelling).** The value read for an accepted setting equals it up to letter case and is a registered spelling, or,
if there is a wildcard, the user's own string. -/
theorem string_setting_spelling (o : RegOpt) (v : Str) (h : o.validString v = true) :
    SameUpToCase (o.mapString v) v ∧ (o.mapString v ∈ o.strings ∨ (star ∈ o.strings ∧ o.mapString v = v)) := by
  rw [string_setting_accepted_iff] at h
  unfold RegOpt.mapString
  have key : ∀ (l : List Str) (acc : Str),
      ((star ∈ l ∨ ∃ s ∈ l, SameUpToCase s v) →
        SameUpToCase (l.foldl (mapStep v) acc) v ∧
          (l.foldl (mapStep v) acc ∈ l ∨ (star ∈ l ∧ l.foldl (mapStep v) acc = v))) ∧
      ((¬ (star ∈ l ∨ ∃ s ∈ l, SameUpToCase s v)) → l.foldl (mapStep v) acc = acc) := by
    intro l
    induction l with
    | nil => intro acc; simp
    | cons s l ih =>
      intro acc
      rw [List.foldl_cons]
      obtain ⟨ih1, ih2⟩ := ih (mapStep v acc s)
      by_cases hl : star ∈ l ∨ ∃ s ∈ l, SameUpToCase s v
      · obtain ⟨a, b⟩ := ih1 hl
        refine ⟨fun _ => ⟨a, ?_⟩, fun hn => ?_⟩
        · rcases b with b | b
          · exact Or.inl (List.mem_cons_of_mem _ b)
          · exact Or.inr ⟨List.mem_cons_of_mem _ b.1, b.2⟩
        · exfalso; apply hn
          rcases hl with hl | ⟨s', hs', hl⟩
          · exact Or.inl (List.mem_cons_of_mem _ hl)
          · exact Or.inr ⟨s', List.mem_cons_of_mem _ hs', hl⟩
      · rw [ih2 hl]
        unfold mapStep
        by_cases hs : s = star
        · rw [if_pos hs]
          refine ⟨fun _ => ⟨rfl, Or.inr ⟨by simp [hs], rfl⟩⟩, fun hn => ?_⟩
          exact absurd (Or.inl (by simp [hs])) hn
        · rw [if_neg hs]
          by_cases he : eqCI s v = true
          · rw [if_pos he]
            refine ⟨fun _ => ⟨(eqCI_iff s v).1 he, Or.inl (by simp)⟩, fun hn => ?_⟩
            exact absurd (Or.inr ⟨s, by simp, (eqCI_iff s v).1 he⟩) hn
          · rw [if_neg he]
            refine ⟨fun hh => ?_, fun _ => rfl⟩
            exfalso
            rcases hh with hh | ⟨s', hs', hh⟩
            · rcases List.mem_cons.1 hh with hh | hh
              · exact hs hh.symm
              · exact hl (Or.inl hh)
            · rcases List.mem_cons.1 hs' with hs' | hs'
              · subst hs'; exact he ((eqCI_iff _ v).2 hh)
              · exact hl (Or.inr ⟨s', hs', hh⟩)
  exact (key o.strings []).1 h

/-- **C07 (enumeration).** Without a wildcard, the enumeration value is the position of the first spelling that matches, and
reading it fails exactly if no spelling matches. -/
theorem string_setting_enum (o : RegOpt) (v : Str) (hw : star ∉ o.strings) :
    (∀ k, o.mapEnum v = some k ↔ ∃ h : k < o.strings.length, SameUpToCase o.strings[k] v ∧
        ∀ j (hj : j < k), ¬ SameUpToCase (o.strings[j]'(by omega)) v) ∧
    (o.mapEnum v = none ↔ ∀ s ∈ o.strings, ¬ SameUpToCase s v) := by
  unfold RegOpt.mapEnum
  have key : ∀ (l : List Str) (n : Nat), star ∉ l →
      (∀ k, enumLoop v n l = some k ↔ n ≤ k ∧ ∃ h : k - n < l.length, SameUpToCase l[k - n] v ∧
        ∀ j (hj : j < k - n), ¬ SameUpToCase (l[j]'(by omega)) v) ∧
      (enumLoop v n l = none ↔ ∀ s ∈ l, ¬ SameUpToCase s v) := by
    intro l
    induction l with
    | nil => intro n _; simp [enumLoop]
    | cons s l ih =>
      intro n hn
      have hs : ¬ s = star := fun e => hn (by simp [e])
      have hl : star ∉ l := fun e => hn (by simp [e])
      simp only [enumLoop, hs, if_false]
      by_cases he : eqCI s v = true
      · have he' := (eqCI_iff s v).1 he
        simp only [he, if_true]
        refine ⟨fun k => ?_, by simp [he']⟩
        constructor
        · intro h; injection h with h; subst h
          exact ⟨le_refl _, by simp, by simpa using he', by intro j hj; omega⟩
        · rintro ⟨h1, h2, h3, h4⟩
          by_cases hk : k = n
          · rw [hk]
          · exfalso
            exact h4 0 (by omega) (by simpa using he')
      · have he' : ¬ SameUpToCase s v := fun h => he ((eqCI_iff s v).2 h)
        obtain ⟨ih1, ih2⟩ := ih (n + 1) hl
        simp only [he, Bool.false_eq_true, if_false]
        refine ⟨fun k => ?_, ?_⟩
        · rw [ih1 k]
          constructor
          · rintro ⟨h1, h2, h3, h4⟩
            obtain ⟨d, hd⟩ : ∃ d, k - n = d + 1 := ⟨k - n - 1, by omega⟩
            have hd' : k - (n + 1) = d := by omega
            refine ⟨by omega, by simp; omega, ?_, ?_⟩
            · simp only [hd, List.getElem_cons_succ]; simpa only [hd'] using h3
            · intro j hj
              cases j with
              | zero => simpa using he'
              | succ j => simp only [List.getElem_cons_succ]; exact h4 j (by omega)
          · rintro ⟨h1, h2, h3, h4⟩
            have hne : k ≠ n := by
              rintro rfl
              apply he'; simpa using h3
            obtain ⟨d, hd⟩ : ∃ d, k - n = d + 1 := ⟨k - n - 1, by omega⟩
            have hd' : k - (n + 1) = d := by omega
            refine ⟨by omega, by simp at h2; omega, ?_, ?_⟩
            · simp only [hd']; simp only [hd, List.getElem_cons_succ] at h3; exact h3
            · intro j hj
              have := h4 (j + 1) (by omega)
              simpa using this
        · rw [ih2]; simp [he']
  have := key o.strings 0 hw
  simpa using this

/-! ### Examples: the hypotheses are met by a concrete option list with a registry -/

/-- A small registry with one option of each type. -/
def exReg : List (Str × RegOpt) :=
  [("tol".toList, { type := .number, hasLower := true, lowerStrict := true, lower := .fin 0, defaultNumber := .fin (1/100000000) }),
   ("max_iter".toList, { type := .integer, hasLower := true, lower := .fin 0, defaultInteger := 3000 }),
   ("mu_strategy".toList, { type := .string, strings := ["monotone".toList, "adaptive".toList], defaultString := "monotone".toList })]

/-- Environment of the examples: 32-bit `Index`, exact `strtod`. -/
def exEnv : Env := { reg := some exReg, jnlst := true, idxBits := 32, fmt := fmtG, strtod := strtod .fin }

/-- A history with several options, a blocked write and an option file. -/
def exPre : List Op :=
  [.setInteger "MAX_ITER".toList 5 true false, .setInteger "max_iter".toList 50 false false,
   .read "# comment\n tol 1d-5 \"mu_strategy\" Monotone\n".toList true, .setInteger "max_iter".toList 7 true false]

/-- Only calls on other options. -/
def exMore : List Op := [.setNumeric "tol".toList (.fin (1/2)) true false, .getInteger "max_iter".toList "resto.".toList]

private theorem exReadable : Readable exEnv "mu_strategy".toList .string := by
  intro r hr
  have : r = exReg := by simpa [exEnv] using hr.symm
  subst this
  refine ⟨{ type := .string, strings := ["monotone".toList, "adaptive".toList], defaultString := "monotone".toList },
    rfl, rfl, trivial⟩

example : (step exEnv (run exEnv [] exPre) (.setString "mu_strategy".toList "ADAPTIVE".toList false false)).1 = .bool true ∧
    ¬ Protected (tableAfter exEnv exPre) "mu_strategy".toList ∧ (∀ o ∈ exMore, ¬ Mentions "mu_strategy".toList o) ∧
    Readable exEnv "mu_strategy".toList .string := by
  refine ⟨by decide +kernel, ?_, ?_, exReadable⟩
  · rw [← option_list_refines_table, ← frozen_iff]; decide +kernel
  · intro o ho
    simp only [exMore, List.mem_cons, List.not_mem_nil, or_false] at ho
    rcases ho with rfl | rfl
    · simp only [Mentions]; decide
    · simp [Mentions]

/-- The protected integer option keeps its value 50, the prefixed read falls back to the plain name. -/
example : (getInteger exEnv (run exEnv [] (exPre ++ exMore)) "max_iter".toList "resto.".toList).1 = .ok true (some 50) := by
  decide +kernel

example : (getString exEnv (run exEnv [] exPre) "mu_strategy".toList []).1 = .ok true (some "monotone".toList) := by
  decide +kernel

end Verif.Opt
