import Verif.Spec.AdaptiveMu
import Verif.Proof.Filter
import Mathlib.Tactic.Linarith
import Mathlib.Tactic.NormNum
import Mathlib.Tactic.Positivity
import Mathlib.Tactic.Ring

/-! # Proofs about the adaptive barrier update -/

set_option linter.unusedSectionVars false
set_option linter.unusedSimpArgs false
set_option linter.unusedVariables false

namespace Verif.AdaptiveMu

variable {K P : Type} [Field K] [LinearOrder K] [IsStrictOrderedRing K]

/-- The bookkeeping of `s` represents the accepted iterates `acc`. -/
structure Rel (p : Par K) (q : P → Quant K) (acc : List P) (s : State K P) : Prop where
  refs : p.glob = .kktError → s.refs = (Spec.lastN p.numRefsMax acc).map fun y => kktError p (q y)
  filt : p.glob = .filter → Filter.Inv (fun _ : K => True) 2 s.filter (acc.map fun y => [(q y).f, (q y).theta])
  acc : p.restoreAcc = true → s.accepted = acc.getLast?
  nb : s.noBounds = false

theorem lastN_length {α : Type} (n : Nat) (l : List α) : (Spec.lastN n l).length = min n l.length := by
  simp only [Spec.lastN, List.length_drop]; omega

theorem lastN_snoc_lt {α : Type} {n : Nat} {l : List α} (h : l.length < n) (x : α) : Spec.lastN n (l ++ [x]) = Spec.lastN n l ++ [x] := by
  unfold Spec.lastN
  rw [List.length_append, List.length_singleton, show l.length + 1 - n = 0 by omega, show l.length - n = 0 by omega]
  simp

theorem lastN_snoc_ge {α : Type} {n : Nat} {l : List α} (hn : 0 < n) (h : n ≤ l.length) (x : α) :
    Spec.lastN n (l ++ [x]) = (Spec.lastN n l).drop 1 ++ [x] := by
  unfold Spec.lastN
  rw [List.length_append, List.length_singleton, List.drop_drop, List.drop_append_of_le_length (by omega)]
  congr 2
  omega

theorem foldl_or {α : Type} (c : α → Prop) [DecidablePred c] (l : List α) (b : Bool) :
    l.foldl (fun r v => if c v then true else r) b = true ↔ b = true ∨ ∃ v ∈ l, c v := by
  induction l generalizing b with
  | nil => simp
  | cons a l ih =>
    rw [List.foldl_cons, ih]
    by_cases h : c a <;> simp [h]

theorem checkProgress_eq {p : Par K} {q : P → Quant K} {acc : List P} {s : State K P} (h : Rel p q acc s) (x : P) :
    ∃ b, checkProgress p (q x) s = some b ∧ (b = true ↔ Spec.Progress p q acc x) := by
  unfold checkProgress Spec.Progress
  cases hg : p.glob with
  | kktError =>
    have hr := h.refs hg
    simp only [ge_iff_le]
    by_cases hl : p.numRefsMax ≤ s.refs.length
    · rw [if_pos hl]
      refine ⟨_, rfl, ?_⟩
      rw [foldl_or, hr]
      rw [hr, List.length_map, lastN_length] at hl
      have : ¬ acc.length < p.numRefsMax := by omega
      simp [this]
    · rw [if_neg hl]
      refine ⟨true, rfl, ?_⟩
      rw [hr, List.length_map, lastN_length] at hl
      simp only [true_iff]
      left; omega
  | filter =>
    obtain ⟨b, hb, hi⟩ := (h.filt hg).accept (fun _ _ _ => le_trans)
      [(q x).f + Spec.margin p q x, (q x).theta + Spec.margin p q x] rfl
    refine ⟨b, hb, hi.trans ?_⟩
    simp only [List.mem_map, forall_exists_index, and_imp, forall_apply_eq_imp_iff₂]
    refine forall₂_congr fun y _ => ?_
    constructor
    · rintro ⟨i, h1, h2, h3⟩
      have h2' : i < 2 := h2
      rcases i with _ | _ | i
      · exact Or.inl h3
      · exact Or.inr h3
      · omega
    · rintro (h3 | h3)
      · exact ⟨0, by simp, by simp, h3⟩
      · exact ⟨1, by simp, by simp, h3⟩
  | neverMonotone => exact ⟨true, rfl, by simp⟩

theorem remember_spec {p : Par K} {q : P → Quant K} {acc : List P} {s : State K P} (h : Rel p q acc s)
    (hp : Spec.Progress p q acc s.curr) (iter : Int) :
    ∃ s', remember p (q s.curr) iter s = some s' ∧ Rel p q (acc ++ [s.curr]) s'
      ∧ s'.mu = s.mu ∧ s'.tau = s.tau ∧ s'.free = s.free ∧ s'.tiny = s.tiny ∧ s'.curr = s.curr ∧ s'.muMin = s.muMin ∧ s'.muMax = s.muMax
      ∧ s'.initDual = s.initDual ∧ s'.initPrimal = s.initPrimal ∧ s'.lsResets = s.lsResets ∧ s'.rigorous = s.rigorous ∧ s'.info = s.info
      ∧ (p.glob = .kktError → s'.refs ≠ []) := by
  unfold remember
  cases hg : p.glob with
  | kktError =>
    have hr := h.refs hg
    simp only [ge_iff_le]
    by_cases hl : p.numRefsMax ≤ s.refs.length
    · rw [if_pos hl]
      have hlen := hl
      rw [hr, List.length_map, lastN_length] at hlen
      simp only [Spec.Progress, hg] at hp
      have hne : Spec.lastN p.numRefsMax acc ≠ [] := by
        rcases hp with hp | ⟨y, hy, _⟩
        · omega
        · intro hnil; rw [hnil] at hy; simp at hy
      have hn0 : 0 < p.numRefsMax := by
        have := lastN_length p.numRefsMax acc
        rcases Nat.eq_zero_or_pos p.numRefsMax with h0 | h0
        · rw [h0] at this; simp at this
          exact absurd (List.length_eq_zero_iff.1 (by rw [h0]; simpa using this)) hne
        · exact h0
      cases hrs : s.refs with
      | nil => rw [hrs] at hr; simp at hr; exact absurd hr.symm (by simpa using hne)
      | cons r rs =>
        have hd : rs = ((Spec.lastN p.numRefsMax acc).drop 1).map fun y => kktError p (q y) := by
          rw [List.map_drop, ← hr, hrs]; rfl
        by_cases hra : p.restoreAcc = true
        · simp only [hra, if_true, Option.map_some]
          refine ⟨_, rfl, ⟨?_, fun hc => by rw [hg] at hc; exact absurd hc (by simp), ?_, h.nb⟩, rfl, rfl, rfl, rfl, rfl, rfl, rfl, rfl, rfl, rfl, rfl, rfl, by simp⟩
          · intro _
            simp only [hd]
            rw [lastN_snoc_ge hn0 (by omega)]; simp
          · intro _; simp
        · simp only [hra, if_false, Option.map_some, Bool.false_eq_true]
          refine ⟨_, rfl, ⟨?_, fun hc => by rw [hg] at hc; exact absurd hc (by simp), fun hc => absurd hc (by simpa using hra), h.nb⟩, rfl, rfl, rfl, rfl, rfl, rfl, rfl, rfl, rfl, rfl, rfl, rfl, by simp⟩
          intro _
          simp only [hd]
          rw [lastN_snoc_ge hn0 (by omega)]; simp
    · rw [if_neg hl]
      have hlen := hl
      rw [hr, List.length_map, lastN_length] at hlen
      by_cases hra : p.restoreAcc = true
      · simp only [hra, if_true, Option.map_some]
        refine ⟨_, rfl, ⟨?_, fun hc => by rw [hg] at hc; exact absurd hc (by simp), ?_, h.nb⟩, rfl, rfl, rfl, rfl, rfl, rfl, rfl, rfl, rfl, rfl, rfl, rfl, by simp⟩
        · intro _
          simp only
          rw [hr, lastN_snoc_lt (by omega)]; simp
        · intro _; simp
      · simp only [hra, if_false, Option.map_some, Bool.false_eq_true]
        refine ⟨_, rfl, ⟨?_, fun hc => by rw [hg] at hc; exact absurd hc (by simp), fun hc => absurd hc (by simpa using hra), h.nb⟩, rfl, rfl, rfl, rfl, rfl, rfl, rfl, rfl, rfl, rfl, rfl, rfl, by simp⟩
        intro _
        simp only
        rw [hr, lastN_snoc_lt (by omega)]; simp
  | filter =>
    obtain ⟨fl, hfl, hI⟩ := (h.filt hg).add (fun _ _ _ => le_trans) (fun a b _ _ => not_lt.1) (fun a _ => le_refl a)
      [(q s.curr).f, (q s.curr).theta] iter rfl (by simp)
    simp only [hfl, Option.map_some]
    by_cases hra : p.restoreAcc = true
    · simp only [hra, if_true]
      refine ⟨_, rfl, ⟨fun hc => by rw [hg] at hc; exact absurd hc (by simp), fun _ => ?_, fun _ => by simp, h.nb⟩, rfl, rfl, rfl, rfl, rfl, rfl, rfl, rfl, rfl, rfl, rfl, rfl, by simp⟩
      rw [List.map_append]; exact hI
    · simp only [hra, if_false, Bool.false_eq_true]
      refine ⟨_, rfl, ⟨fun hc => by rw [hg] at hc; exact absurd hc (by simp), fun _ => ?_, fun hc => absurd hc (by simpa using hra), h.nb⟩, rfl, rfl, rfl, rfl, rfl, rfl, rfl, rfl, rfl, rfl, rfl, rfl, by simp⟩
      rw [List.map_append]; exact hI
  | neverMonotone =>
    by_cases hra : p.restoreAcc = true
    · simp only [hra, if_true, Option.map_some]
      refine ⟨_, rfl, ⟨fun hc => by rw [hg] at hc; exact absurd hc (by simp), fun hc => by rw [hg] at hc; exact absurd hc (by simp), fun _ => by simp, h.nb⟩, rfl, rfl, rfl, rfl, rfl, rfl, rfl, rfl, rfl, rfl, rfl, rfl, by simp⟩
    · simp only [hra, if_false, Option.map_some, Bool.false_eq_true]
      refine ⟨_, rfl, ⟨fun hc => by rw [hg] at hc; exact absurd hc (by simp), fun hc => by rw [hg] at hc; exact absurd hc (by simp), fun hc => absurd hc (by simpa using hra), h.nb⟩, rfl, rfl, rfl, rfl, rfl, rfl, rfl, rfl, rfl, rfl, rfl, rfl, by simp⟩

/-- The lower bound in a call. -/
def lo (p : Par K) (q : Quant K) (m : K) : K :=
  match p.muMinOpt with
  | some _ => m
  | none => min m (1 / 2 * min q.tol q.complTol)

/-- The upper bound in a call. -/
def hi (p : Par K) (q : Quant K) (m : K) : K := if m < 0 then p.muMaxFact * q.avrgCompl else m

/-- The averaged infeasibilities. -/
def avgDual (q : Quant K) : K := q.dualInf .n1 / q.nDual

/-- See `avgDual`. -/
def avgPrimal (q : Quant K) : K := if q.nPri > 0 then q.primalInf .n1 / q.nPri else q.primalInf .n1

/-- The reference values of the safeguard are set once and never changed. -/
def RefUpd (q : Quant K) (d0 r0 d r : K) : Prop :=
  (d = if d0 < 0 then max 1 (avgDual q) else d0) ∧ (r = if r0 < 0 then max 1 (avgPrimal q) else r0)

/-- What the safeguard changes and returns. -/
theorem lowerSafeguard_some {p : Par K} {q : Quant K} {s s1 : State K P} {v : K} (h : lowerSafeguard p q s = some (v, s1)) :
    ∃ d r, s1 = { s with initDual := d, initPrimal := r }
      ∧ (if p.safeguard = 0 then d = s.initDual ∧ r = s.initPrimal else RefUpd q s.initDual s.initPrimal d r)
      ∧ (p.safeguard ≠ 0 → p.glob ≠ .kktError →
          v = max (p.safeguard * (q.dualInf .n1 / q.nDual / d)) (p.safeguard * ((if q.nPri > 0 then q.primalInf .n1 / q.nPri else q.primalInf .n1) / r))) := by
  unfold lowerSafeguard at h
  by_cases h0 : p.safeguard = 0
  · rw [if_pos h0] at h
    injection h with h; injection h with h1 h2
    exact ⟨s.initDual, s.initPrimal, by rw [← h2], by rw [if_pos h0]; exact ⟨rfl, rfl⟩, fun hc => absurd h0 hc⟩
  · rw [if_neg h0] at h
    cases hg : p.glob with
    | kktError =>
      simp only [hg, Option.map_eq_some_iff] at h
      obtain ⟨m, _, hm⟩ := h
      injection hm with h1 h2
      exact ⟨_, _, h2.symm, by rw [if_neg h0]; exact ⟨rfl, rfl⟩, fun _ hc => absurd rfl hc⟩
    | filter =>
      simp only [hg] at h
      injection h with h; injection h with h1 h2
      exact ⟨_, _, h2.symm, by rw [if_neg h0]; exact ⟨rfl, rfl⟩, fun _ _ => h1.symm⟩
    | neverMonotone =>
      simp only [hg] at h
      injection h with h; injection h with h1 h2
      exact ⟨_, _, h2.symm, by rw [if_neg h0]; exact ⟨rfl, rfl⟩, fun _ _ => h1.symm⟩

theorem lowerSafeguard_isSome (p : Par K) (q : Quant K) (s : State K P) :
    lowerSafeguard p q s = none ↔ p.safeguard ≠ 0 ∧ p.glob = .kktError ∧ s.refs = [] := by
  unfold lowerSafeguard
  by_cases h0 : p.safeguard = 0
  · simp [h0]
  · rw [if_neg h0]
    cases hg : p.glob <;> simp [h0]
    cases hr : s.refs <;> simp [minRef]

/-- What every returning call does to the rest of the state. -/
structure Frame (p : Par K) (q : P → Quant K) (s : State K P) (c : Call P) (s' : State K P) : Prop where
  tiny : s'.tiny = false
  muMin : s'.muMin = lo p (q c.point) s.muMin
  muMax : s'.muMax = hi p (q c.point) s.muMax

/-- The free mode is active after the call. -/
structure Stay (p : Par K) (q : P → Quant K) (acc : List P) (s : State K P) (c : Call P) (ret : Bool) (s' : State K P) : Prop where
  frame : Frame p q s c s'
  rel : Rel p q (acc ++ [c.point]) s'
  free : s'.free = true
  prog : Spec.Progress p q acc c.point
  noTiny : c.tiny = false ∨ (p.glob = .neverMonotone ∧ s.free = true)
  noSkip : s.free = true → c.skipped = false ∨ p.glob = .neverMonotone
  curr : s'.curr = c.point
  tau : s'.tau = max p.tauMin (1 - (q c.point).nlpError)
  rig : s'.rigorous = s.rigorous
  mu : ((q c.point).freeOracle s'.tau (max s'.muMin p.muTarget) s'.muMax = none ∧ ret = false ∧ s'.mu = s.mu ∧ s'.lsResets = s.lsResets
      ∧ s'.initDual = s.initDual ∧ s'.initPrimal = s.initPrimal)
    ∨ ∃ m v, (q c.point).freeOracle s'.tau (max s'.muMin p.muTarget) s'.muMax = some m ∧ ret = true ∧ s'.mu = min (max (max m s'.muMin) v) s'.muMax
        ∧ s'.lsResets = s.lsResets + 1
        ∧ (if p.safeguard = 0 then s'.initDual = s.initDual ∧ s'.initPrimal = s.initPrimal
            else RefUpd (q c.point) s.initDual s.initPrimal s'.initDual s'.initPrimal)
        ∧ (p.safeguard ≠ 0 → p.glob ≠ .kktError → v = max (p.safeguard * ((q c.point).dualInf .n1 / (q c.point).nDual / s'.initDual))
            (p.safeguard * ((if (q c.point).nPri > 0 then (q c.point).primalInf .n1 / (q c.point).nPri else (q c.point).primalInf .n1) / s'.initPrimal)))

/-- The value for the fixed mode before the safeguards. -/
def fixedStart (p : Par K) (q : Quant K) (tau lo hi : K) : K :=
  match (if p.hasFixOracle = true then q.fixOracle tau lo hi else none) with
  | some m => m
  | none => p.monoInitFactor * q.avrgCompl

/-- The fixed mode has been entered. -/
structure Switch (p : Par K) (q : P → Quant K) (acc : List P) (s : State K P) (c : Call P) (ret : Bool) (s' : State K P) : Prop where
  frame : Frame p q s c s'
  rel : Rel p q acc s'
  wasFree : s.free = true
  free : s'.free = false
  why : ¬ Spec.Progress p q acc c.point ∨ (p.glob ≠ .neverMonotone ∧ (c.skipped = true ∨ c.tiny = true))
  curr : if p.restoreAcc = true then acc.getLast? = some s'.curr else s'.curr = c.point
  ret : ret = true
  mu : ∃ v, s'.mu = min (max (min (max (fixedStart p (q s'.curr) s.tau (max s'.muMin p.muTarget) s'.muMax) v) (10 ^ 19)) s'.muMin) s'.muMax
  tau : s'.tau = max p.tauMin (1 - s'.mu)
  resets : s'.lsResets = s.lsResets + 1
  rig : s'.rigorous = true
  notStuck : ¬ (c.tiny = true ∧ s'.mu = s.mu)
  ref : if p.safeguard = 0 then s'.initDual = s.initDual ∧ s'.initPrimal = s.initPrimal
    else RefUpd (q s'.curr) s.initDual s.initPrimal s'.initDual s'.initPrimal

/-- The fixed mode stays active, the parameter is reduced. -/
structure Reduce (p : Par K) (q : P → Quant K) (acc : List P) (s : State K P) (c : Call P) (ret : Bool) (s' : State K P) : Prop where
  frame : Frame p q s c s'
  rel : Rel p q acc s'
  wasFixed : s.free = false
  free : s'.free = false
  why : ¬ (Spec.Progress p q acc c.point ∧ c.tiny = false)
  curr : s'.curr = c.point
  ret : ret = true
  solved : (q c.point).barrierError s.mu ≤ p.barrierTolFactor * s.mu ∨ c.tiny = true
  mu : s'.mu = fixedReduction p (q c.point) s.mu
  tau : s'.tau = max p.tauMin (1 - s.mu)
  resets : s'.lsResets = s.lsResets + 1
  rig : s'.rigorous = true
  notStuck : ¬ (c.tiny = true ∧ s'.mu = s.mu)
  ref : s'.initDual = s.initDual ∧ s'.initPrimal = s.initPrimal

/-- The fixed mode stays active, nothing changes. -/
structure Wait (p : Par K) (q : P → Quant K) (acc : List P) (s : State K P) (c : Call P) (ret : Bool) (s' : State K P) : Prop where
  frame : Frame p q s c s'
  rel : Rel p q acc s'
  wasFixed : s.free = false
  free : s'.free = false
  why : ¬ Spec.Progress p q acc c.point
  noTiny : c.tiny = false
  curr : s'.curr = c.point
  ret : ret = true
  unsolved : p.barrierTolFactor * s.mu < (q c.point).barrierError s.mu
  mu : s'.mu = s.mu
  tau : s'.tau = s.tau
  resets : s'.lsResets = s.lsResets
  rig : s'.rigorous = true
  ref : s'.initDual = s.initDual ∧ s'.initPrimal = s.initPrimal

/-- `finish` in the fixed mode. -/
theorem finish_fixed {p : Par K} {q : P → Quant K} {s : State K P} (h : s.free = false) :
    finish p q s = .ok true { s with info := s.info ++ ['F'], rigorous := true } := by
  simp [finish, h]

theorem max_safe (m v : K) : (if m < v then v else m) = max m v := by
  by_cases h : m < v
  · rw [if_pos h, max_eq_right h.le]
  · rw [if_neg h, max_eq_left (not_lt.1 h)]

/-- The state in which the two halves of the update start. -/
def prep (p : Par K) (q : P → Quant K) (s : State K P) (c : Call P) : State K P :=
  { s with curr := c.point, tiny := false, muMin := lo p (q c.point) s.muMin, muMax := hi p (q c.point) s.muMax, checkedNoBounds := true }

theorem call_eq {p : Par K} {q : P → Quant K} {s : State K P} (hn : s.noBounds = false) (hb : ∀ x, 0 < (q x).nBounds) (c : Call P) :
    call p q c s =
      match (if s.free = true then freePart p q c.iter c.tiny c.skipped (prep p q s c) else fixedPart p q c.iter c.tiny (prep p q s c)) with
      | .ok _ s3 => finish p q s3
      | .tinyStep s3 => .tinyStep s3
      | .undefined => .undefined := by
  have hb' : ¬ (q c.point).nBounds = 0 := Nat.pos_iff_ne_zero.1 (hb c.point)
  have hcb : checkBounds p (q c.point) (setBounds p (q c.point) { s with curr := c.point, tiny := c.tiny })
      = { prep p q s c with tiny := c.tiny } := by
    unfold checkBounds setBounds prep lo hi
    cases p.muMinOpt <;> by_cases hc : s.checkedNoBounds = true
    · simp only [hc, if_true]
    · simp only [hc, if_false, hb', Bool.false_eq_true]
    · simp only [hc, if_true]
    · simp only [hc, if_false, hb', Bool.false_eq_true]
  unfold call update
  simp only [hcb]
  rw [if_neg (show ¬ (prep p q s c).noBounds = true by rw [show (prep p q s c).noBounds = s.noBounds from rfl, hn]; simp)]
  rfl

theorem rel_prep {p : Par K} {q : P → Quant K} {acc : List P} {s : State K P} (h : Rel p q acc s) (c : Call P) : Rel p q acc (prep p q s c) :=
  ⟨h.refs, h.filt, h.acc, h.nb⟩

/-- `finish` after the current iterate has been remembered. -/
theorem finish_free {p : Par K} {q : P → Quant K} {acc : List P} {s s1 s' : State K P} {c : Call P} {ret : Bool}
    (hf : Frame p q s c s1) (hr : Rel p q (acc ++ [c.point]) s1) (hfree : s1.free = true) (hp : Spec.Progress p q acc c.point)
    (h1 : c.tiny = false ∨ (p.glob = .neverMonotone ∧ s.free = true)) (h2 : s.free = true → c.skipped = false ∨ p.glob = .neverMonotone)
    (hc : s1.curr = c.point) (hm : s1.mu = s.mu) (hl : s1.lsResets = s.lsResets) (hg : s1.rigorous = s.rigorous)
    (hid : s1.initDual = s.initDual) (hip : s1.initPrimal = s.initPrimal) (h : finish p q s1 = .ok ret s') : Stay p q acc s c ret s' := by
  unfold finish at h
  rw [if_pos hfree] at h
  simp only [hc] at h
  cases ho : (q c.point).freeOracle (max p.tauMin (1 - (q c.point).nlpError)) (max s1.muMin p.muTarget) s1.muMax with
  | none =>
    rw [ho] at h
    simp only [Res.ok.injEq] at h
    obtain ⟨hr1, h⟩ := h
    subst h
    exact ⟨⟨hf.tiny, hf.muMin, hf.muMax⟩, ⟨hr.refs, hr.filt, hr.acc, hr.nb⟩, hfree, hp, h1, h2, rfl, rfl, hg, Or.inl ⟨ho, hr1.symm, hm, hl, hid, hip⟩⟩
  | some m =>
    rw [ho] at h
    simp only at h
    cases hs : lowerSafeguard p (q c.point) { s1 with curr := c.point, tau := max p.tauMin (1 - (q c.point).nlpError) } with
    | none => rw [hs] at h; simp at h
    | some vs =>
      obtain ⟨v, s2⟩ := vs
      rw [hs] at h
      obtain ⟨d, r, hs2, hdr, hv⟩ := lowerSafeguard_some hs
      simp only [hid, hip] at hdr
      subst hs2
      simp only [Res.ok.injEq] at h
      obtain ⟨hr1, h⟩ := h
      rw [max_safe] at h
      subst h
      by_cases hlt : max m s1.muMin < v
      · simp only [hlt, if_true]
        exact ⟨⟨hf.tiny, hf.muMin, hf.muMax⟩, ⟨hr.refs, hr.filt, hr.acc, hr.nb⟩, hfree, hp, h1, h2, rfl, rfl, hg,
          Or.inr ⟨m, v, ho, hr1.symm, rfl, by simp [hl], hdr, hv⟩⟩
      · simp only [hlt, if_false]
        exact ⟨⟨hf.tiny, hf.muMin, hf.muMax⟩, ⟨hr.refs, hr.filt, hr.acc, hr.nb⟩, hfree, hp, h1, h2, rfl, rfl, hg,
          Or.inr ⟨m, v, ho, hr1.symm, rfl, by simp [hl], hdr, hv⟩⟩

theorem newFixedMu_some {p : Par K} {q : Quant K} {s s1 : State K P} {m : K} (h : newFixedMu p q s = some (m, s1)) :
    ∃ d r v, s1 = { s with initDual := d, initPrimal := r }
      ∧ (if p.safeguard = 0 then d = s.initDual ∧ r = s.initPrimal else RefUpd q s.initDual s.initPrimal d r)
      ∧ m = min (max (min (max (fixedStart p q s.tau (max s.muMin p.muTarget) s.muMax) v) (10 ^ 19)) s.muMin) s.muMax := by
  unfold newFixedMu at h
  simp only [Option.map_eq_some_iff] at h
  obtain ⟨⟨v, s2⟩, h1, h2⟩ := h
  obtain ⟨d, r, hs2, hdr, _⟩ := lowerSafeguard_some h1
  simp only [Prod.mk.injEq] at h2
  obtain ⟨h3, h4⟩ := h2
  subst h4
  refine ⟨d, r, v, hs2, hdr, ?_⟩
  rw [← h3, hs2]
  rfl

/-- Entering the fixed mode. -/
theorem enterFixed_ok {p : Par K} {q : P → Quant K} {tiny b : Bool} {s s1 : State K P} (h : enterFixed p q tiny s = .ok b s1) :
    ∃ d r cu v, s1 = { s with free := false, curr := cu, initDual := d, initPrimal := r, mu := s1.mu, tau := max p.tauMin (1 - s1.mu), lsResets := s.lsResets + 1 }
      ∧ (if p.restoreAcc = true then s.accepted = some cu else cu = s.curr)
      ∧ s1.mu = min (max (min (max (fixedStart p (q cu) s.tau (max s.muMin p.muTarget) s.muMax) v) (10 ^ 19)) s.muMin) s.muMax
      ∧ ¬ (tiny = true ∧ s1.mu = s.mu)
      ∧ (if p.safeguard = 0 then d = s.initDual ∧ r = s.initPrimal else RefUpd (q cu) s.initDual s.initPrimal d r) := by
  unfold enterFixed at h
  by_cases hra : p.restoreAcc = true
  · simp only [hra, if_true] at h ⊢
    cases ha : s.accepted with
    | none => rw [ha] at h; simp at h
    | some a =>
      rw [ha] at h
      simp only at h
      cases hn : newFixedMu p (q a) { s with free := false, curr := a, accepted := some a } with
      | none => rw [hn] at h; simp at h
      | some ms =>
        obtain ⟨m, s3⟩ := ms
        rw [hn] at h
        obtain ⟨d, r, v, h3, hdr, h4⟩ := newFixedMu_some hn
        subst h3
        simp only at h
        by_cases ht : tiny = true ∧ m = s.mu
        · rw [if_pos ht] at h; simp at h
        · rw [if_neg ht] at h
          simp only [Res.ok.injEq] at h
          obtain ⟨_, h⟩ := h
          subst h
          refine ⟨d, r, a, v, ?_, rfl, h4, ht, hdr⟩
          simp [tauMonotone, ha]
  · simp only [hra, if_false, Bool.false_eq_true] at h ⊢
    cases hn : newFixedMu p (q s.curr) { s with free := false } with
    | none => rw [hn] at h; simp at h
    | some ms =>
      obtain ⟨m, s3⟩ := ms
      rw [hn] at h
      obtain ⟨d, r, v, h3, hdr, h4⟩ := newFixedMu_some hn
      subst h3
      simp only at h
      by_cases ht : tiny = true ∧ m = s.mu
      · rw [if_pos ht] at h; simp at h
      · rw [if_neg ht] at h
        simp only [Res.ok.injEq] at h
        obtain ⟨_, h⟩ := h
        subst h
        refine ⟨d, r, s.curr, v, ?_, rfl, h4, ht, hdr⟩
        simp [tauMonotone]

theorem switch_aux {p : Par K} {q : P → Quant K} {acc : List P} {s s' : State K P} {c : Call P} {ret : Bool} (hrp : Rel p q acc (prep p q s c))
    (hfr : s.free = true) (hwhy : ¬ Spec.Progress p q acc c.point ∨ (p.glob ≠ .neverMonotone ∧ (c.skipped = true ∨ c.tiny = true)))
    (h : (match enterFixed p q c.tiny (prep p q s c) with
      | .ok _ s3 => finish p q s3
      | .tinyStep s3 => .tinyStep s3
      | .undefined => .undefined) = .ok ret s') : Switch p q acc s c ret s' := by
  cases he : enterFixed p q c.tiny (prep p q s c) with
  | undefined => rw [he] at h; simp at h
  | tinyStep s3 => rw [he] at h; simp at h
  | ok b s1 =>
    rw [he] at h
    simp only at h
    obtain ⟨d, r, cu, v, h1, h2, h3, h4, hdr⟩ := enterFixed_ok he
    have hf1 : s1.free = false := by rw [h1]
    rw [finish_fixed hf1] at h
    simp only [Res.ok.injEq] at h
    obtain ⟨hr, h⟩ := h
    have hcu : s1.curr = cu := by rw [h1]
    have hd1 : s1.initDual = d := by rw [h1]
    have hr1 : s1.initPrimal = r := by rw [h1]
    have hmn : s1.muMin = (prep p q s c).muMin := by rw [h1]
    have hmx : s1.muMax = (prep p q s c).muMax := by rw [h1]
    have hsimp : s1.refs = (prep p q s c).refs ∧ s1.filter = (prep p q s c).filter ∧ s1.accepted = (prep p q s c).accepted
        ∧ s1.noBounds = (prep p q s c).noBounds ∧ s1.tiny = false ∧ s1.lsResets = s.lsResets + 1 ∧ s1.tau = max p.tauMin (1 - s1.mu) := by
      rw [h1]; exact ⟨rfl, rfl, rfl, rfl, rfl, rfl, rfl⟩
    obtain ⟨g1, g2, g3, g4, g5, g6, g7⟩ := hsimp
    subst h
    refine ⟨⟨g5, hmn, hmx⟩, ⟨fun hg => g1.trans (hrp.refs hg), fun hg => ?_, fun ha => g3.trans (hrp.acc ha), g4.trans hrp.nb⟩, hfr, hf1, hwhy, ?_, hr.symm, ⟨v, ?_⟩,
      g7, g6, rfl, h4, by simp only [hcu, hd1, hr1]; exact hdr⟩
    · have := hrp.filt hg
      rw [← g2] at this
      exact this
    · simp only [hcu]
      by_cases hra : p.restoreAcc = true
      · simp only [hra, if_true] at h2 ⊢
        rw [← hrp.acc hra, h2]
      · simp only [hra, if_false, Bool.false_eq_true] at h2 ⊢
        exact h2
    · simp only [hcu, hmn, hmx]
      exact h3

/-- A call that returns does one of four things. -/
theorem call_cases {p : Par K} {q : P → Quant K} {acc : List P} {s s' : State K P} {c : Call P} {ret : Bool} (hrel : Rel p q acc s)
    (hb : ∀ x, 0 < (q x).nBounds) (h : call p q c s = .ok ret s') :
    Stay p q acc s c ret s' ∨ Switch p q acc s c ret s' ∨ Reduce p q acc s c ret s' ∨ Wait p q acc s c ret s' := by
  rw [call_eq hrel.nb hb] at h
  have hrp := rel_prep hrel c
  obtain ⟨b, hb1, hb2⟩ := checkProgress_eq hrp c.point
  by_cases hfr : s.free = true
  · rw [if_pos hfr] at h
    unfold freePart at h
    rw [show (prep p q s c).curr = c.point from rfl, hb1] at h
    simp only at h
    by_cases hcond : p.glob ≠ .neverMonotone ∧ (c.skipped = true ∨ c.tiny = true)
    case neg =>
      rw [if_neg hcond] at h
      by_cases hbt : b = true
      · left
        rw [if_pos hbt] at h
        have hp := hb2.1 hbt
        obtain ⟨s1, h1, h2, h3, h4, h5, h6, h7, h8, h9, h10, h11, h12, h13, h14, _⟩ := remember_spec (s := prep p q s c) hrp hp c.iter
        rw [show (prep p q s c).curr = c.point from rfl] at h1
        rw [h1] at h
        simp only at h
        refine finish_free ⟨h6, h8, h9⟩ h2 (h5.trans hfr) hp ?_ ?_ h7 h3 h12 h13 h10 h11 h
        · by_cases hg : p.glob = .neverMonotone
          · exact Or.inr ⟨hg, hfr⟩
          · left; by_contra hc; exact hcond ⟨hg, Or.inr (by simpa using hc)⟩
        · intro _
          by_cases hg : p.glob = .neverMonotone
          · exact Or.inr hg
          · left; by_contra hc; exact hcond ⟨hg, Or.inl (by simpa using hc)⟩
      · right; left
        rw [if_neg hbt] at h
        have hp : ¬ Spec.Progress p q acc c.point := fun hp => hbt (hb2.2 hp)
        exact switch_aux hrp hfr (Or.inl hp) h
    case pos =>
      right; left
      rw [if_pos hcond] at h
      simp only [Bool.false_eq_true, if_false] at h
      exact switch_aux hrp hfr (Or.inr hcond) h
  · rw [if_neg hfr] at h
    have hff : s.free = false := by simpa using hfr
    unfold fixedPart at h
    rw [show (prep p q s c).curr = c.point from rfl, hb1] at h
    simp only at h
    by_cases hcond : b = true ∧ c.tiny = false
    · left
      rw [if_pos hcond] at h
      have hp := hb2.1 hcond.1
      have hrp' : Rel p q acc { prep p q s c with free := true } := ⟨hrp.refs, hrp.filt, hrp.acc, hrp.nb⟩
      obtain ⟨s1, h1, h2, h3, h4, h5, h6, h7, h8, h9, h10, h11, h12, h13, h14, _⟩ := remember_spec (s := { prep p q s c with free := true }) hrp' hp c.iter
      simp only [show (prep p q s c).curr = c.point from rfl] at h1
      rw [h1] at h
      simp only at h
      exact finish_free ⟨h6, h8, h9⟩ h2 h5 hp (Or.inl hcond.2) (fun hc => absurd hc hfr) h7 h3 h12 h13 h10 h11 h
    · right; right
      rw [if_neg hcond] at h
      have hwhy : ¬ (Spec.Progress p q acc c.point ∧ c.tiny = false) := fun hc => hcond ⟨hb2.2 hc.1, hc.2⟩
      rw [show (prep p q s c).mu = s.mu from rfl] at h
      by_cases hsol : (q c.point).barrierError s.mu ≤ p.barrierTolFactor * s.mu ∨ c.tiny = true
      · left
        rw [if_pos hsol] at h
        by_cases hst : c.tiny = true ∧ fixedReduction p (q c.point) s.mu = s.mu
        · rw [if_pos hst] at h; simp at h
        · rw [if_neg hst] at h
          simp only at h
          rw [finish_fixed (by exact hff)] at h
          simp only [Res.ok.injEq] at h
          obtain ⟨hr, h⟩ := h
          subst h
          exact ⟨⟨rfl, rfl, rfl⟩, ⟨hrp.refs, hrp.filt, hrp.acc, hrp.nb⟩, hff, hff, hwhy, rfl, hr.symm, hsol, rfl, rfl, rfl, rfl, hst, rfl, rfl⟩
      · right
        rw [if_neg hsol] at h
        simp only at h
        rw [finish_fixed (by exact hff)] at h
        simp only [Res.ok.injEq] at h
        obtain ⟨hr, h⟩ := h
        subst h
        push Not at hsol
        exact ⟨⟨rfl, rfl, rfl⟩, ⟨hrp.refs, hrp.filt, hrp.acc, hrp.nb⟩, hff, hff, fun hp => hwhy ⟨hp, by simpa using hsol.2⟩, by simpa using hsol.2, rfl, hr.symm,
          hsol.1, rfl, rfl, rfl, rfl, rfl, rfl⟩

end Verif.AdaptiveMu
