import Verif.Spec.TimedTask
import Mathlib.Data.List.Induction
import Mathlib.Algebra.Order.Field.Rat
import Mathlib.Tactic.Linarith
import Mathlib.Tactic.Ring

/-! # Timing accounting (C32) -/

set_option linter.unusedSectionVars false
set_option linter.unusedSimpArgs false

namespace Verif.TimedTask

open Spec

variable {K : Type} [Field K] [LinearOrder K] [IsStrictOrderedRing K]

theorem intervals_snoc (l : List (Ev K)) (d e : Ev K) :
    intervals (l ++ [d, e]) = intervals (l ++ [d]) ++ ([(d, e)].filterMap pair?) := by
  unfold intervals
  have h : ∀ (l : List (Ev K)), (l ++ [d, e]).zip (l ++ [d, e]).tail
      = (l ++ [d]).zip (l ++ [d]).tail ++ [(d, e)] := by
    intro l
    induction l with
    | nil => rfl
    | cons a r ih =>
      cases r with
      | nil => rfl
      | cons b r => simpa using ih
  rw [h, List.filterMap_append]

theorem paired_init {l : List (Ev K)} {e : Ev K} (h : Paired (l ++ [e])) : Paired l := by
  intro pre t post hl
  exact h pre t (post ++ [e]) (by rw [hl]; simp)

/-- The sum of the lengths of the intervals, on one clock. -/
def sumOn (f : Clock K → K) (l : List (Clock K × Clock K)) : K := (l.map (fun p => f p.2 - f p.1)).sum

/-- The invariant that links the state with the events so far. -/
structure Inv (s : State K) (on : Bool) (acc : List (Ev K)) : Prop where
  en : s.enabled = on
  started : s.startCalled = true ↔ ∃ pre a, acc = pre ++ [Ev.start a]
  startAt : ∀ pre a, acc = pre ++ [Ev.start a] → s.start = a
  tot : Paired acc → s.total.cpu = sumOn (·.cpu) (intervals acc) ∧ s.total.sys = sumOn (·.sys) (intervals acc)
      ∧ s.total.wall = sumOn (·.wall) (intervals acc)

theorem sumOn_append (f : Clock K → K) (l m : List (Clock K × Clock K)) : sumOn f (l ++ m) = sumOn f l + sumOn f m := by
  simp [sumOn]

theorem not_last_stop (acc pre : List (Ev K)) (b : Bool) (t a : Clock K) :
    ¬ acc ++ [Ev.stop b t] = pre ++ [Ev.start a] := by
  intro h
  have := congrArg List.getLast? h
  simp at this

theorem inv_start {s : State K} {on : Bool} {acc : List (Ev K)} (h : Inv s on acc) (t : Clock K) :
    Inv (doStart t s) on (if on then acc ++ [.start t] else acc) := by
  unfold doStart
  by_cases hon : on = true
  · have he := h.en; rw [hon] at he
    simp only [he, hon, Bool.not_true, Bool.false_eq_true, if_false, if_true]
    refine ⟨rfl, ⟨fun _ => ⟨acc, t, rfl⟩, fun _ => rfl⟩, ?_, ?_⟩
    · intro pre a hp
      have := congrArg List.getLast? hp
      simpa using this
    · intro hp
      have := h.tot (paired_init hp)
      have hi : intervals (acc ++ [Ev.start t]) = intervals acc := by
        rcases List.eq_nil_or_concat' acc with rfl | ⟨l, d, rfl⟩
        · rfl
        · rw [List.append_assoc, List.singleton_append, intervals_snoc]
          cases d <;> simp [pair?]
      rw [hi]; exact this
  · have hon' : on = false := by simpa using hon
    have he := h.en; rw [hon'] at he
    simp only [he, hon', Bool.not_false, if_true, Bool.false_eq_true, if_false]
    rw [← hon']; exact h

theorem inv_add {s : State K} {acc : List (Ev K)} (h : Inv s true acc) (b : Bool) (t : Clock K)
    (hs : b = false → s.startCalled = true) : Inv (addInterval t s) true (acc ++ [.stop b t]) := by
  refine ⟨h.en, ⟨fun hh => by simp [addInterval] at hh, ?_⟩, ?_, ?_⟩
  · rintro ⟨pre, a, hp⟩; exact absurd hp (not_last_stop _ _ _ _ _)
  · intro pre a hp; exact absurd hp (not_last_stop _ _ _ _ _)
  · intro hp
    obtain ⟨h1, h2, h3⟩ := h.tot (paired_init hp)
    have hl : ∃ pre a, acc = pre ++ [Ev.start a] := by
      cases b with
      | true => exact hp acc t [] rfl
      | false => exact h.started.mp (hs rfl)
    obtain ⟨pre, a, rfl⟩ := hl
    have hst := h.startAt pre a rfl
    rw [List.append_assoc, List.singleton_append, intervals_snoc]
    simp only [List.filterMap_cons, pair?, List.filterMap_nil, sumOn_append]
    simp only [addInterval, h1, h2, h3, hst]
    refine ⟨?_, ?_, ?_⟩ <;> simp [sumOn]

theorem inv_skip {s : State K} {acc : List (Ev K)} (h : Inv s true acc) (t : Clock K) (hs : s.startCalled = false) :
    Inv s true (acc ++ [.stop false t]) := by
  have hn : ¬ ∃ pre a, acc = pre ++ [Ev.start a] := by
    intro hh; have := h.started.mpr hh; rw [hs] at this; exact absurd this (by decide)
  refine ⟨h.en, ⟨fun hh => by rw [hs] at hh; exact absurd hh (by decide), ?_⟩, ?_, ?_⟩
  · rintro ⟨pre, a, hp⟩; exact absurd hp (not_last_stop _ _ _ _ _)
  · intro pre a hp; exact absurd hp (not_last_stop _ _ _ _ _)
  · intro hp
    have := h.tot (paired_init hp)
    have hi : intervals (acc ++ [Ev.stop false t]) = intervals acc := by
      rcases List.eq_nil_or_concat' acc with rfl | ⟨l, d, rfl⟩
      · rfl
      · rw [List.append_assoc, List.singleton_append, intervals_snoc]
        cases d with
        | start a => exact absurd ⟨l, a, rfl⟩ hn
        | stop b u => simp [pair?]
    rw [hi]; exact this

theorem inv_run (ops : List (Op K)) : ∀ (s : State K) (on : Bool) (acc : List (Ev K)), Inv s on acc →
    ∃ on', Inv (run s ops) on' (events.go on acc ops) := by
  induction ops with
  | nil => intro s on acc h; exact ⟨on, h⟩
  | cons o r ih =>
    intro s on acc h
    cases o with
    | enable => exact ih _ true acc ⟨rfl, h.started, h.startAt, h.tot⟩
    | disable => exact ih _ false acc ⟨rfl, h.started, h.startAt, h.tot⟩
    | reset =>
      refine ih _ on [] ⟨h.en, ?_, ?_, ?_⟩
      · simp [step, reset]
      · simp
      · intro _; simp [step, reset, intervals, sumOn]
    | start t => exact ih _ on _ (inv_start h t)
    | stop t =>
      by_cases hon : on = true
      · subst hon
        refine ih _ true _ ?_
        simp only [step, doEnd, h.en, Bool.not_true, Bool.false_eq_true, if_false, if_true]
        exact inv_add h true t (by simp)
      · have : on = false := by simpa using hon
        subst this
        refine ih _ false _ ?_
        simp only [step, doEnd, h.en, Bool.not_false, if_true, Bool.false_eq_true, if_false]
        exact h
    | stopIfStarted t =>
      by_cases hon : on = true
      · subst hon
        refine ih _ true _ ?_
        simp only [step, endIfStarted, h.en, Bool.not_true, Bool.false_eq_true, if_false, if_true]
        by_cases hs : s.startCalled = true
        · rw [if_pos hs]; exact inv_add h false t (fun _ => hs)
        · rw [if_neg hs]; exact inv_skip h t (by simpa using hs)
      · have : on = false := by simpa using hon
        subst this
        refine ih _ false _ ?_
        simp only [step, endIfStarted, h.en, Bool.not_false, if_true, Bool.false_eq_true, if_false]
        exact h

theorem inv_new (junk : Clock K) : Inv (new junk) true [] := by
  refine ⟨rfl, by simp [new], by simp, fun _ => by simp [new, intervals, sumOn]⟩

/-- **C32** For every sequence of calls on a new task in which each `End` executed while enabled since the last reset directly
follows a start, the totals on the three clocks are the sums of the durations of the completed intervals: starts followed by an
end, both executed while enabled, since the last reset.  A start that is followed by another start is not counted. -/
theorem totals_are_completed_intervals (junk : Clock K) (ops : List (Op K)) (h : Paired (events ops)) :
    (run (new junk) ops).total.cpu = ((intervals (events ops)).map (fun p => p.2.cpu - p.1.cpu)).sum
    ∧ (run (new junk) ops).total.sys = ((intervals (events ops)).map (fun p => p.2.sys - p.1.sys)).sum
    ∧ (run (new junk) ops).total.wall = ((intervals (events ops)).map (fun p => p.2.wall - p.1.wall)).sum := by
  obtain ⟨on, hi⟩ := inv_run ops (new junk) true [] (inv_new junk)
  exact hi.tot h

/-- **C32** The task reports "started" exactly if the last event executed while enabled since the last reset is a start, and then the
reported start times are the readings of that start. -/
theorem started_iff (junk : Clock K) (ops : List (Op K)) :
    ((run (new junk) ops).startCalled = true ↔ ∃ pre a, events ops = pre ++ [Ev.start a])
    ∧ ∀ pre a, events ops = pre ++ [Ev.start a] → (run (new junk) ops).start = a := by
  obtain ⟨on, hi⟩ := inv_run ops (new junk) true [] (inv_new junk)
  exact ⟨hi.started, hi.startAt⟩

/-- **C32** Without `End` (only `EndIfStarted` closes intervals) no protocol is needed: every history is admissible. -/
theorem paired_of_no_end (evs : List (Ev K)) (h : ∀ t, Ev.stop true t ∉ evs) : Paired evs := by
  intro pre t post he
  exact absurd (by rw [he]; simp) (h t)

/-- The clock reading of an event. -/
def Spec.Ev.clock : Ev K → Clock K
  | .start t => t
  | .stop _ t => t

/-- The readings of one clock never decrease along the events. -/
def Nondecreasing (f : Clock K → K) (evs : List (Ev K)) : Prop := evs.Pairwise (fun a b => f a.clock ≤ f b.clock)

theorem sum_bounds (f : Clock K → K) (evs : List (Ev K)) (h : Nondecreasing f evs) (lo hi : K)
    (hlo : ∀ e ∈ evs, lo ≤ f e.clock) (hhi : ∀ e ∈ evs, f e.clock ≤ hi) (hlh : lo ≤ hi) :
    0 ≤ sumOn f (intervals evs) ∧ sumOn f (intervals evs) ≤ hi - lo := by
  induction evs generalizing lo with
  | nil => simp [intervals, sumOn, hlh]
  | cons a r ih =>
    have hn : Nondecreasing f r := (List.pairwise_cons.mp h).2
    have ha := (List.pairwise_cons.mp h).1
    cases r with
    | nil => simp [intervals, sumOn, hlh]
    | cons b r =>
      have hab : f a.clock ≤ f b.clock := ha b (by simp)
      have hb := hhi b (by simp)
      have hla := hlo a (by simp)
      have key := ih hn (f b.clock) (fun e he => by
        rcases List.mem_cons.mp he with rfl | he
        · exact le_rfl
        · exact (List.pairwise_cons.mp hn).1 e he) (fun e he => hhi e (by simp [List.mem_cons.mp he])) hb
      have hcases : sumOn f (intervals (a :: b :: r)) = sumOn f (intervals (b :: r))
          ∨ sumOn f (intervals (a :: b :: r)) = (f b.clock - f a.clock) + sumOn f (intervals (b :: r)) := by
        cases a with
        | stop c t => left; rfl
        | start t =>
          cases b with
          | start u => left; rfl
          | stop c u => right; simp [intervals, pair?, sumOn, Spec.Ev.clock]
      rcases hcases with hc | hc <;> rw [hc] <;> constructor <;> linarith [key.1, key.2]

/-- **C32** If a clock never goes backwards, the total on it is at least zero and at most the time that passed: nested, overlapping or
repeated starts never make a task count time twice. -/
theorem totals_bounded (junk : Clock K) (ops : List (Op K)) (h : Paired (events ops)) (lo hi : K) (hlh : lo ≤ hi)
    (hmono : Nondecreasing (·.wall) (events ops)) (hin : ∀ e ∈ events ops, lo ≤ e.clock.wall ∧ e.clock.wall ≤ hi) :
    0 ≤ (run (new junk) ops).total.wall ∧ (run (new junk) ops).total.wall ≤ hi - lo := by
  rw [(totals_are_completed_intervals junk ops h).2.2]
  exact sum_bounds (·.wall) _ hmono lo hi (fun e he => (hin e he).1) (fun e he => (hin e he).2) hlh

/-- **C32** While the task is disabled `Start`, `End` and `EndIfStarted` change nothing. -/
theorem disabled_no_effect (s : State K) (h : s.enabled = false) (t : Clock K) :
    doStart t s = s ∧ doEnd t s = s ∧ endIfStarted t s = s := by
  simp [doStart, doEnd, endIfStarted, h]

/-- A history with a nested start, a disabled stretch and an `EndIfStarted`: only the spans 2..5 and 20..21 count. -/
def exOps : List (Op ℚ) :=
  [.start ⟨0, 0, 0⟩, .reset, .start ⟨1, 1, 1⟩, .start ⟨2, 2, 2⟩, .stop ⟨5, 5, 5⟩, .disable, .start ⟨7, 7, 7⟩, .stop ⟨9, 9, 9⟩,
   .enable, .stopIfStarted ⟨10, 10, 10⟩, .start ⟨20, 20, 20⟩, .stopIfStarted ⟨21, 21, 21⟩]

example : Paired (events exOps) ∧ (run (new ⟨0, 0, 0⟩) exOps).total.wall = 4 := by
  refine ⟨?_, by decide +kernel⟩
  have he : events exOps = [Ev.start ⟨1, 1, 1⟩, Ev.start ⟨2, 2, 2⟩, Ev.stop true ⟨5, 5, 5⟩, Ev.stop false ⟨10, 10, 10⟩,
      Ev.start ⟨20, 20, 20⟩, Ev.stop false ⟨21, 21, 21⟩] := by decide +kernel
  rw [he]
  intro pre t post h
  rcases pre with _ | ⟨a, _ | ⟨b, _ | ⟨c, _ | ⟨d, _ | ⟨e, _ | ⟨f, r⟩⟩⟩⟩⟩⟩ <;> simp at h
  exact ⟨[a], _, by rw [← h.2.1]; rfl⟩

/-- Disagreement with the English claim: an `End` without a start (the assertions are compiled out in release builds) adds the time
since the last start once more, so the same span is counted twice. -/
theorem unpaired_end_counts_twice :
    (run (new (⟨0, 0, 0⟩ : Clock ℚ)) [.start ⟨1, 1, 1⟩, .stop ⟨2, 2, 2⟩, .stop ⟨3, 3, 3⟩]).total.wall = 3 := by decide +kernel

/-- A task disabled while running and enabled again is still "started": the span in which it was disabled is counted. -/
theorem disabled_span_counted :
    (run (new (⟨0, 0, 0⟩ : Clock ℚ)) [.start ⟨1, 1, 1⟩, .disable, .stop ⟨2, 2, 2⟩, .enable, .stopIfStarted ⟨100, 100, 100⟩]).total.wall
      = 99 := by decide +kernel

end Verif.TimedTask
