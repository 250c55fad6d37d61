import Verif.Spec.Mumps
import Verif.Proof.Ma27b

/-! # The factorization calls of the MUMPS interface -/

namespace Verif.Mumps
open Verif.AugSolve (Status Structure Known SolvesAll denote Contract)
open Verif.Ma27 (memIncrease putColumn)

set_option linter.unusedSectionVars false
set_option linter.unusedSimpArgs false
set_option linter.unusedVariables false

variable {K P M : Type} [Field K]

theorem memIncrease_double (imax mem : Nat) : memIncrease imax mem (2 * mem) 0 = if imax ≤ mem then none else some (min imax (2 * mem)) := by
  unfold memIncrease
  have e : (2 * (mem : ℚ) ≥ imax) ↔ imax ≤ 2 * mem := by
    rw [ge_iff_le]; exact_mod_cast Iff.rfl
  by_cases h : imax ≤ mem
  · rw [if_pos (e.2 (by omega)), if_neg (by omega), if_pos h]
  · rw [if_neg h]
    by_cases h2 : imax ≤ 2 * mem
    · rw [if_pos (e.2 h2), if_pos (by omega), min_eq_left h2]
    · rw [if_neg (fun c => h2 (e.1 c)), min_eq_right (by omega)]
      have : (2 * (mem : ℚ)) = ((2 * mem : ℕ) : ℚ) := by push_cast; rfl
      rw [this, Int.floor_natCast, Int.toNat_natCast, Nat.max_eq_right (Nat.zero_le _)]

/-- everything about the repeated calls: `calls`, oldest first. -/
structure TryRes (L : Lib K P M) (k : Nat) (o : FOut M) (st : St K P M) (r : Option (FOut M)) (st' : St K P M) (calls : List (Call P)) : Prop where
  state : ∃ mem m, st' = { st with ctl := { st.ctl with mem := mem }, m := m, log := calls.reverse ++ st.log }
  sym : ∀ Q : M → Prop, Q st.m → (∀ c m, Q m → Q (L.factor c st.n st.nz st.irn st.jcn st.a m).m) → Q st'.m
  len : calls.length ≤ k
  empty : calls = [] → (k = 0 ∧ r = some o) ∨ (r = none ∧ L.imax ≤ st.ctl.mem)
  att : calls ≠ [] → Attempts L.imax k (min L.imax (2 * st.ctl.mem)) calls
  ctl : ∀ c ∈ calls, ∃ mem, c.ctl = { st.ctl with mem := mem }
  last : ∀ c, calls.getLast? = some c → ∀ o', r = some o' → c.info = o'.info
  answer : calls ≠ [] → ∀ o', r = some o' → ∃ m0, (∀ Q : M → Prop, Q st.m → (∀ c m, Q m → Q (L.factor c st.n st.nz st.irn st.jcn st.a m).m) → Q m0) ∧
    o' = L.factor st'.ctl st.n st.nz st.irn st.jcn st.a m0 ∧ st'.m = o'.m
  short : ∀ o', r = some o' → short o'.info = true → calls.length = k
  fails : r = none → (∀ c ∈ calls, Mumps.short c.info = true) ∧ L.imax ≤ st'.ctl.mem

theorem tryMore_res (L : Lib K P M) : ∀ k o (st : St K P M), ∃ calls, TryRes L k o st (st.tryMore L k o).1 (st.tryMore L k o).2 calls := by
  intro k
  induction k with
  | zero =>
    intro o st
    refine ⟨[], ⟨⟨st.ctl.mem, st.m, rfl⟩, fun Q h _ => h, le_refl _, fun _ => Or.inl ⟨rfl, rfl⟩, fun h => absurd rfl h, fun c h => by simp at h,
      fun c h => by simp at h, fun h => absurd rfl h, fun _ _ _ => rfl, fun h => by simp [St.tryMore] at h⟩⟩
  | succ k ih =>
    intro o st
    unfold St.tryMore
    rw [memIncrease_double]
    by_cases hm : L.imax ≤ st.ctl.mem
    · rw [if_pos hm]
      exact ⟨[], ⟨⟨st.ctl.mem, st.m, rfl⟩, fun Q h _ => h, Nat.zero_le _, fun _ => Or.inr ⟨rfl, hm⟩, fun h => absurd rfl h, fun c h => by simp at h,
        fun c h => by simp at h, fun h => absurd rfl h, fun _ h => by simp at h, fun _ => ⟨fun c h => by simp at h, hm⟩⟩⟩
    · rw [if_neg hm]
      dsimp only
      set mem := min L.imax (2 * st.ctl.mem) with hmem
      set st1 : St K P M := { st with ctl := { st.ctl with mem := mem } } with hst1
      set fo : FOut M := L.factor st1.ctl st.n st.nz st.irn st.jcn st.a st.m with hfo
      set call : Call P := ⟨2, st1.ctl, fo.info⟩ with hcall
      have e1 : (st1.call2 L) = (fo, { st1 with m := fo.m, log := call :: st.log }) := rfl
      rw [e1]
      dsimp only
      by_cases hs : short fo.info = true
      · rw [if_neg (by simp [hs])]
        obtain ⟨calls, R⟩ := ih fo { st1 with m := fo.m, log := call :: st.log }
        have hsh : call.info = -8 ∨ call.info = -9 := by
          have : short call.info = true := hs
          unfold short at this
          simpa using this
        refine ⟨call :: calls, ⟨?_, ?_, by simpa using R.len, fun h => by simp at h, fun _ => ?_, ?_, ?_, fun _ o' ho => ?_, ?_, ?_⟩⟩
        · obtain ⟨mem', m', h⟩ := R.state
          refine ⟨mem', m', ?_⟩
          rw [h]
          simp [hst1]
        · intro Q h0 h1
          exact R.sym Q (h1 _ _ h0) h1
        · cases hc : calls with
          | nil => exact .last call rfl rfl
          | cons c cs =>
            have := R.att (by rw [hc]; simp)
            rw [hc] at this
            exact .more call rfl rfl hsh this
        · intro c hc
          simp only [List.mem_cons] at hc
          rcases hc with hc | hc
          · exact ⟨mem, by rw [hc]⟩
          · exact R.ctl c hc
        · intro c hc o' ho
          cases hcs : calls with
          | nil =>
            rw [hcs] at hc
            simp only [List.getLast?_singleton, Option.some.injEq] at hc
            rcases R.empty hcs with ⟨_, e⟩ | ⟨e, _⟩
            · rw [e] at ho; cases ho; rw [← hc]
            · rw [e] at ho; simp at ho
          | cons c0 cs =>
            rw [hcs, List.getLast?_cons_cons, ← hcs] at hc
            exact R.last c hc o' ho
        · by_cases hcs : calls = []
          · rcases R.empty hcs with ⟨e0, e⟩ | ⟨e, _⟩
            · rw [e] at ho
              cases ho
              subst e0
              refine ⟨st.m, fun Q h _ => h, ?_, rfl⟩
              rfl
            · rw [e] at ho; simp at ho
          · obtain ⟨m0, q1, q2, q3⟩ := R.answer hcs o' ho
            exact ⟨m0, fun Q h0 h1 => q1 Q (h1 _ _ h0) h1, q2, q3⟩
        · intro o' ho hso
          have := R.short o' ho hso
          simp [this]
        · intro hn
          obtain ⟨q1, q2⟩ := R.fails hn
          refine ⟨fun c hc => ?_, q2⟩
          simp only [List.mem_cons] at hc
          rcases hc with hc | hc
          · rw [hc]; exact hs
          · exact q1 c hc
      · rw [if_pos (by simpa using hs)]
        refine ⟨[call], ⟨⟨mem, fo.m, by simp [hst1]⟩, fun Q h0 h1 => h1 _ _ h0, by simp, fun h => by simp at h, fun _ => .last call rfl rfl,
          fun c hc => ?_, fun c hc o' ho => ?_, fun _ o' ho => ?_, fun o' ho hso => ?_, fun h => by simp at h⟩⟩
        · simp only [List.mem_singleton] at hc
          exact ⟨mem, by rw [hc]⟩
        · simp only [List.getLast?_singleton, Option.some.injEq] at hc
          simp only [Option.some.injEq] at ho
          rw [← hc, ← ho]
        · simp only [Option.some.injEq] at ho
          exact ⟨st.m, fun Q h _ => h, ho.symm, by rw [← ho]⟩
        · simp only [Option.some.injEq] at ho
          rw [← ho] at hso
          exact absurd hso hs

/-- everything about a factorization with its repetitions. -/
structure NumRes (L : Lib K P M) (st : St K P M) (r : Option (FOut M)) (st' : St K P M) (calls : List (Call P)) : Prop where
  state : ∃ mem m, st' = { st with ctl := { st.ctl with mem := mem }, m := m, log := calls.reverse ++ st.log }
  sym : ∀ Q : M → Prop, Q st.m → (∀ c m, Q m → Q (L.factor c st.n st.nz st.irn st.jcn st.a m).m) → Q st'.m
  att : Attempts L.imax 21 st.ctl.mem calls
  ctl : ∀ c ∈ calls, ∃ mem, c.ctl = { st.ctl with mem := mem }
  last : ∀ c, calls.getLast? = some c → ∀ o', r = some o' → c.info = o'.info
  answer : ∀ o', r = some o' → ∃ m0, (∀ Q : M → Prop, Q st.m → (∀ c m, Q m → Q (L.factor c st.n st.nz st.irn st.jcn st.a m).m) → Q m0) ∧
    o' = L.factor st'.ctl st.n st.nz st.irn st.jcn st.a m0 ∧ st'.m = o'.m
  short : ∀ o', r = some o' → short o'.info = true → calls.length = 21
  fails : r = none → (∀ c ∈ calls, Mumps.short c.info = true) ∧ L.imax ≤ st'.ctl.mem

theorem numeric_res (L : Lib K P M) (st : St K P M) : ∃ calls, NumRes L st (st.numeric L).1 (st.numeric L).2 calls := by
  unfold St.numeric
  dsimp only
  set fo : FOut M := L.factor st.ctl st.n st.nz st.irn st.jcn st.a st.m with hfo
  set call : Call P := ⟨2, st.ctl, fo.info⟩ with hcall
  have e1 : (st.call2 L) = (fo, { st with m := fo.m, log := call :: st.log }) := rfl
  rw [e1]
  dsimp only
  by_cases hs : Mumps.short fo.info = true
  · rw [if_pos hs]
    obtain ⟨calls, R⟩ := tryMore_res L 20 fo { st with m := fo.m, log := call :: st.log }
    have hsh : call.info = -8 ∨ call.info = -9 := by
      have : Mumps.short call.info = true := hs
      unfold Mumps.short at this
      simpa using this
    refine ⟨call :: calls, ⟨?_, ?_, ?_, ?_, ?_, fun o' ho => ?_, ?_, ?_⟩⟩
    · obtain ⟨mem', m', h⟩ := R.state
      refine ⟨mem', m', ?_⟩
      rw [h]
      simp
    · intro Q h0 h1
      exact R.sym Q (h1 _ _ h0) h1
    · cases hc : calls with
      | nil => exact .last call rfl rfl
      | cons c cs =>
        have := R.att (by rw [hc]; simp)
        rw [hc] at this
        exact .more call rfl rfl hsh this
    · intro c hc
      simp only [List.mem_cons] at hc
      rcases hc with hc | hc
      · exact ⟨st.ctl.mem, by rw [hc]⟩
      · exact R.ctl c hc
    · intro c hc o' ho
      cases hcs : calls with
      | nil =>
        rcases R.empty hcs with ⟨e, _⟩ | ⟨e, _⟩
        · simp at e
        · rw [e] at ho; simp at ho
      | cons c0 cs =>
        rw [hcs, List.getLast?_cons_cons, ← hcs] at hc
        exact R.last c hc o' ho
    · by_cases hcs : calls = []
      · rcases R.empty hcs with ⟨e0, e⟩ | ⟨e, _⟩
        · simp at e0
        · rw [e] at ho; simp at ho
      · obtain ⟨m0, q1, q2, q3⟩ := R.answer hcs o' ho
        exact ⟨m0, fun Q h0 h1 => q1 Q (h1 _ _ h0) h1, q2, q3⟩
    · intro o' ho hso
      have := R.short o' ho hso
      simp [this]
    · intro hn
      obtain ⟨q1, q2⟩ := R.fails hn
      refine ⟨fun c hc => ?_, q2⟩
      simp only [List.mem_cons] at hc
      rcases hc with hc | hc
      · rw [hc]; exact hs
      · exact q1 c hc
  · rw [if_neg hs]
    refine ⟨[call], ⟨⟨st.ctl.mem, fo.m, by simp⟩, fun Q h0 h1 => h1 _ _ h0, .last call rfl rfl,
      fun c hc => ?_, fun c hc o' ho => ?_, fun o' ho => ?_, fun o' ho hso => ?_, fun h => by simp at h⟩⟩
    · simp only [List.mem_singleton] at hc
      exact ⟨st.ctl.mem, by rw [hc]⟩
    · simp only [List.getLast?_singleton, Option.some.injEq] at hc
      simp only [Option.some.injEq] at ho
      rw [← hc, ← ho]
    · simp only [Option.some.injEq] at ho
      exact ⟨st.m, fun Q h _ => h, ho.symm, by rw [← ho]⟩
    · simp only [Option.some.injEq] at ho
      rw [← ho] at hso
      exact absurd hso hs

/-- what `Factorization` answers. -/
def verdict (chk : Bool) (neg : Nat) (r : Option (FOut M)) : Option Status :=
  r.map fun o =>
    if o.info = -10 then .singular
    else if o.info < 0 then .fatal
    else if chk ∧ (neg : Int) ≠ o.neg then .wrongInertia
    else .success

theorem factorize_eq (L : Lib K P M) (chk : Bool) (neg : Nat) (st : St K P M) :
    (st.factorize L chk neg).1 = verdict chk neg (st.numeric L).1 ∧ ∃ g, (st.factorize L chk neg).2 = { (st.numeric L).2 with neg := g } ∧
      ∀ o, (st.numeric L).1 = some o → 0 ≤ o.info → g = o.neg := by
  unfold St.factorize verdict
  generalize st.numeric L = r
  obtain ⟨ro, s⟩ := r
  cases ro with
  | none => exact ⟨rfl, s.neg, rfl, fun o h => by simp at h⟩
  | some o =>
    dsimp only [Option.map_some]
    by_cases h1 : Mumps.short o.info = true
    · rw [if_pos h1]
      have : o.info = -8 ∨ o.info = -9 := by unfold Mumps.short at h1; simpa using h1
      refine ⟨?_, s.neg, rfl, fun o' h h0 => ?_⟩
      · rw [if_neg (by omega), if_pos (by omega)]
      · simp only [Option.some.injEq] at h; subst h; omega
    · rw [if_neg h1]
      by_cases h2 : o.info = -10
      · rw [if_pos h2, if_pos h2]
        exact ⟨rfl, s.neg, rfl, fun o' h h0 => by simp only [Option.some.injEq] at h; subst h; omega⟩
      · rw [if_neg h2, if_neg h2]
        by_cases h3 : o.info = -13
        · rw [if_pos h3, if_pos (by omega)]
          exact ⟨rfl, o.neg, rfl, fun o' h h0 => by simp only [Option.some.injEq] at h; subst h; rfl⟩
        · rw [if_neg h3]
          by_cases h4 : o.info < 0
          · rw [if_pos h4, if_pos h4]
            exact ⟨rfl, o.neg, rfl, fun o' h h0 => by simp only [Option.some.injEq] at h; subst h; rfl⟩
          · rw [if_neg h4, if_neg h4]
            have h' : ∀ o', some o = some o' → 0 ≤ o'.info → o.neg = o'.neg := fun o' h _ => by
              simp only [Option.some.injEq] at h; rw [h]
            split
            · exact ⟨rfl, o.neg, rfl, h'⟩
            · exact ⟨rfl, o.neg, rfl, h'⟩

end Verif.Mumps
