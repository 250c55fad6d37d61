import Verif.Spec.AdapterEval
import Mathlib.Algebra.Order.Field.Rat
import Mathlib.Data.List.Induction
import Mathlib.Tactic.Linarith

/-! # Evaluating the user's functions (C46, C47) -/

set_option linter.unusedSectionVars false
set_option linter.unusedSimpArgs false

namespace Verif.AdapterEval

variable {X Y K G J H D : Type}

/-- What holds after every history. -/
structure Inv (U : User X Y K G J H D) (cont : Nat → X) (conty : Nat → Y) (s : St X Y G J) : Prop where
  x : s.iterTag ≠ 0 → s.x = cont s.iterTag
  g : s.gTag ≠ 0 → ∀ g, U.g (cont s.gTag) = some g → s.g = g
  y : s.ycTag ≠ 0 → s.ydTag ≠ 0 → s.y = U.lam (conty s.ycTag) (conty s.ydTag)
  li : s.iterTag ≠ 0 → ∃ b, (cont s.iterTag, b) ∈ s.log
  lg : s.gTag ≠ 0 → ∃ b, (cont s.gTag, b) ∈ s.log
  lj : s.jacTag ≠ 0 → ∃ b, (cont s.jacTag, b) ∈ s.log
  flags : FlagsEarlier s.log

theorem flags_cons {log : List (X × Bool)} (h : FlagsEarlier log) (x : X) (b : Bool) (hb : b = false → ∃ b', (x, b') ∈ log) :
    FlagsEarlier ((x, b) :: log) := by
  intro pre post y he
  cases pre with
  | nil =>
    simp only [List.nil_append, List.cons.injEq, Prod.mk.injEq] at he
    obtain ⟨⟨rfl, rfl⟩, rfl⟩ := he
    exact hb rfl
  | cons p pre =>
    simp only [List.cons_append, List.cons.injEq] at he
    exact h pre post y he.2

/-- `update_local_x`: afterwards the user's vector is the requested point; the flag is false only if the point was used before. -/
theorem updateX_spec {U : User X Y K G J H D} {cont : Nat → X} {conty : Nat → Y} {s : St X Y G J} (h : Inv U cont conty s) (v : Vec X)
    (hv : v.tag ≠ 0) (hc : v.val = cont v.tag) :
    let r := updateX s v
    r.1.iterTag = v.tag ∧ r.1.x = v.val ∧ r.1.gTag = s.gTag ∧ r.1.jacTag = s.jacTag ∧ r.1.g = s.g ∧ r.1.jac = s.jac ∧ r.1.y = s.y ∧
      r.1.ycTag = s.ycTag ∧ r.1.ydTag = s.ydTag ∧ r.1.log = s.log ∧ (r.2 = false → ∃ b, (v.val, b) ∈ s.log) ∧
      (r.2 = true ↔ v.tag ≠ s.iterTag) := by
  unfold updateX
  by_cases ht : v.tag = s.iterTag
  · rw [if_pos ht]
    have h0 : s.iterTag ≠ 0 := ht ▸ hv
    refine ⟨ht.symm, by rw [h.x h0, hc, ht], rfl, rfl, rfl, rfl, rfl, rfl, rfl, rfl, fun _ => ?_, by simp [ht]⟩
    rw [hc, ht]; exact h.li h0
  · rw [if_neg ht]
    exact ⟨rfl, rfl, rfl, rfl, rfl, rfl, rfl, rfl, rfl, rfl, by simp, by simp [ht]⟩

theorem evalPert_log (U : User X Y K G J H D) (ps : List X) (log : List (X × Bool)) (hf : FlagsEarlier log) :
    FlagsEarlier (evalPert U ps log).2 ∧ ∀ e ∈ log, e ∈ (evalPert U ps log).2 := by
  induction ps generalizing log with
  | nil => exact ⟨hf, fun e he => he⟩
  | cons p ps ih =>
    have h1 := flags_cons hf p true (by simp)
    unfold evalPert
    cases hg : U.g p with
    | none => exact ⟨h1, fun e he => List.mem_cons_of_mem _ he⟩
    | some g =>
      obtain ⟨i1, i2⟩ := ih _ h1
      cases hr : evalPert U ps ((p, true) :: log) with
      | mk r log' =>
        rw [hr] at i1 i2
        cases r with
        | none => exact ⟨i1, fun e he => i2 e (List.mem_cons_of_mem _ he)⟩
        | some gs => exact ⟨i1, fun e he => i2 e (List.mem_cons_of_mem _ he)⟩

/-- State of the adapter between `update_local_x` and the user call: everything holds except that the current point may not have been
logged yet. -/
structure Mid (U : User X Y K G J H D) (cont : Nat → X) (conty : Nat → Y) (s : St X Y G J) (newX : Bool) : Prop where
  i0 : s.iterTag ≠ 0
  x : s.x = cont s.iterTag
  g : s.gTag ≠ 0 → ∀ g, U.g (cont s.gTag) = some g → s.g = g
  y : s.ycTag ≠ 0 → s.ydTag ≠ 0 → s.y = U.lam (conty s.ycTag) (conty s.ydTag)
  lg : s.gTag ≠ 0 → ∃ b, (cont s.gTag, b) ∈ s.log
  lj : s.jacTag ≠ 0 → ∃ b, (cont s.jacTag, b) ∈ s.log
  flags : FlagsEarlier s.log
  new : newX = false → ∃ b, (s.x, b) ∈ s.log

theorem mid_of_inv {U : User X Y K G J H D} {cont : Nat → X} {conty : Nat → Y} {s : St X Y G J} (h : Inv U cont conty s) (v : Vec X)
    (hv : v.tag ≠ 0) (hc : v.val = cont v.tag) : Mid U cont conty (updateX s v).1 (updateX s v).2 := by
  obtain ⟨a1, a2, a3, a4, a5, a6, a7, a8, a9, a10, a11, -⟩ := updateX_spec h v hv hc
  refine ⟨by rw [a1]; exact hv, by rw [a2, a1, hc], ?_, ?_, ?_, ?_, ?_, ?_⟩
  · rw [a3, a5]; exact h.g
  · rw [a7, a8, a9]; exact h.y
  · rw [a3, a10]; exact h.lg
  · rw [a4, a10]; exact h.lj
  · rw [a10]; exact h.flags
  · intro hn; rw [a2, a10]; exact a11 hn

/-- A user call at the current point restores the invariant. -/
theorem inv_call {U : User X Y K G J H D} {cont : Nat → X} {conty : Nat → Y} {s : St X Y G J} {newX : Bool} (h : Mid U cont conty s newX) :
    Inv U cont conty { s with log := (s.x, newX) :: s.log } := by
  refine ⟨fun _ => h.x, h.g, h.y, fun _ => ⟨newX, by simp [h.x]⟩, fun h0 => ?_, fun h0 => ?_, flags_cons h.flags _ _ h.new⟩
  · obtain ⟨b, hb⟩ := h.lg h0; exact ⟨b, List.mem_cons_of_mem _ hb⟩
  · obtain ⟨b, hb⟩ := h.lj h0; exact ⟨b, List.mem_cons_of_mem _ hb⟩

theorem inv_evalG {U : User X Y K G J H D} {cont : Nat → X} {conty : Nat → Y} {s : St X Y G J} {newX : Bool} (h : Mid U cont conty s newX) :
    Inv U cont conty (evalG U s newX).1 ∧ (evalG U s newX).1.iterTag = s.iterTag ∧ (evalG U s newX).1.x = s.x ∧
      (∀ g, U.g s.x = some g → (evalG U s newX).2 = true ∧ (evalG U s newX).1.g = g) ∧
      (U.g s.x = none → s.gTag ≠ s.iterTag → (evalG U s newX).2 = false) ∧
      ((evalG U s newX).1.gTag = s.iterTag) ∧
      ((evalG U s newX).1.jacTag = s.jacTag ∨ (evalG U s newX).1.jacTag = 0) ∧ (evalG U s newX).1.jac = s.jac := by
  unfold evalG
  by_cases hg : s.gTag = s.iterTag
  · rw [if_pos hg]
    refine ⟨⟨fun _ => h.x, h.g, h.y, fun _ => by rw [← hg]; exact h.lg (by rw [hg]; exact h.i0), h.lg, h.lj, h.flags⟩, rfl, rfl, ?_,
      fun _ hn => absurd hg hn, hg, Or.inl rfl, rfl⟩
    intro g hu
    refine ⟨rfl, h.g (by rw [hg]; exact h.i0) g ?_⟩
    rw [hg, ← h.x]; exact hu
  · rw [if_neg hg]
    have hi := inv_call h
    simp only
    cases hu : U.g s.x with
    | some g =>
      refine ⟨⟨hi.x, ?_, hi.y, hi.li, fun _ => hi.li h.i0, hi.lj, hi.flags⟩, rfl, rfl, ?_, by simp, rfl, Or.inl rfl, rfl⟩
      · intro _ g' hg'
        have hx := h.x
        simp only at hg' ⊢
        rw [← hx, hu] at hg'
        exact Option.some.inj hg'
      · intro g' hg'
        exact ⟨rfl, Option.some.inj hg'⟩
    | none =>
      refine ⟨⟨hi.x, ?_, hi.y, hi.li, fun _ => hi.li h.i0, fun h0 => absurd rfl h0, hi.flags⟩, rfl, rfl, by simp, fun _ _ => rfl, rfl,
        Or.inr rfl, rfl⟩
      intro _ g' hg'
      have hx := h.x
      simp only at hg'
      rw [← hx, hu] at hg'
      simp at hg'

theorem inv_evalJac {U : User X Y K G J H D} {cont : Nat → X} {conty : Nat → Y} {s : St X Y G J} {newX : Bool} (h : Mid U cont conty s newX)
    (hj : s.jacTag ≠ 0 → U.jac (cont s.jacTag) = some s.jac) :
    Inv U cont conty (evalJac U s newX).1 ∧
      ((evalJac U s newX).1.jacTag ≠ 0 → U.jac (cont (evalJac U s newX).1.jacTag) = some (evalJac U s newX).1.jac) ∧
      U.jac s.x = (if (evalJac U s newX).2 then some (evalJac U s newX).1.jac else none) := by
  unfold evalJac
  by_cases hg : s.jacTag = s.iterTag
  · rw [if_pos hg]
    refine ⟨⟨fun _ => h.x, h.g, h.y, fun _ => by rw [← hg]; exact h.lj (by rw [hg]; exact h.i0), h.lg, h.lj, h.flags⟩, hj, ?_⟩
    rw [if_pos rfl, h.x, ← hg]
    exact hj (by rw [hg]; exact h.i0)
  · rw [if_neg hg]
    have hi := inv_call h
    simp only
    cases hu : U.jac s.x with
    | some j =>
      refine ⟨⟨hi.x, hi.g, hi.y, hi.li, hi.lg, fun _ => hi.li h.i0, hi.flags⟩, fun _ => ?_, by simp⟩
      have hx := h.x
      simp only
      rw [← hx, hu]
    | none =>
      exact ⟨⟨hi.x, hi.g, hi.y, hi.li, hi.lg, fun h0 => absurd rfl h0, hi.flags⟩, fun h0 => absurd rfl h0, by simp⟩

theorem inv_evalJacFD {U : User X Y K G J H D} {cont : Nat → X} {conty : Nat → Y} {pts : X → List X} {combine : X → G → List G → J → J}
    {s : St X Y G J} {newX : Bool} (h : Mid U cont conty s newX) : Inv U cont conty (evalJacFD U pts combine s newX).1 := by
  unfold evalJacFD
  by_cases hg : s.jacTag = s.iterTag
  · rw [if_pos hg]
    exact ⟨fun _ => h.x, h.g, h.y, fun _ => by rw [← hg]; exact h.lj (by rw [hg]; exact h.i0), h.lg, h.lj, h.flags⟩
  · rw [if_neg hg]
    -- the tag is set before the constraints are evaluated; evaluate with the old tag first
    obtain ⟨i1, e1, e2, -, -, e5, -, -⟩ := inv_evalG (s := { s with jacTag := 0 }) (newX := newX)
      ⟨h.i0, h.x, h.g, h.y, h.lg, fun h0 => absurd rfl h0, h.flags, h.new⟩
    have heq : ∃ t, (t = 0 ∨ t = s.iterTag) ∧ (evalG U { s with jacTag := s.iterTag } newX).1 =
        { (evalG U { s with jacTag := 0 } newX).1 with jacTag := t } ∧
        (evalG U { s with jacTag := s.iterTag } newX).2 = (evalG U { s with jacTag := 0 } newX).2 := by
      unfold evalG
      by_cases hh : s.gTag = s.iterTag
      · simp only [if_pos hh]; exact ⟨s.iterTag, Or.inr rfl, rfl, trivial⟩
      · simp only [if_neg hh]
        cases hu : U.g s.x with
        | some g => exact ⟨s.iterTag, Or.inr rfl, rfl, rfl⟩
        | none => exact ⟨0, Or.inl rfl, rfl, rfl⟩
    obtain ⟨t, ht, he1, he2⟩ := heq
    have hi2 : Inv U cont conty (evalG U { s with jacTag := s.iterTag } newX).1 := by
      rw [he1]
      refine ⟨i1.x, i1.g, i1.y, i1.li, i1.lg, fun h0 => ?_, i1.flags⟩
      rcases ht with rfl | rfl
      · exact absurd rfl h0
      · have := i1.li (by rw [e1]; exact h.i0)
        rw [e1] at this
        exact this
    simp only
    cases hr : evalG U { s with jacTag := s.iterTag } newX with
    | mk s2 ok =>
      rw [hr] at hi2
      cases ok with
      | false => exact ⟨hi2.x, hi2.g, hi2.y, hi2.li, hi2.lg, fun h0 => absurd rfl h0, hi2.flags⟩
      | true =>
        simp only at hi2 ⊢
        obtain ⟨p1, p2⟩ := evalPert_log U (pts s2.x) s2.log hi2.flags
        cases hp : evalPert U (pts s2.x) s2.log with
        | mk r log' =>
          rw [hp] at p1 p2
          simp only at p1 p2
          cases r with
          | none =>
            refine ⟨hi2.x, hi2.g, hi2.y, fun h0 => ?_, fun h0 => ?_, fun h0 => absurd rfl h0, p1⟩
            · obtain ⟨b, hb⟩ := hi2.li h0; exact ⟨b, p2 _ hb⟩
            · obtain ⟨b, hb⟩ := hi2.lg h0; exact ⟨b, p2 _ hb⟩
          | some gs =>
            refine ⟨hi2.x, hi2.g, hi2.y, fun h0 => ?_, fun h0 => ?_, fun h0 => ?_, p1⟩
            · obtain ⟨b, hb⟩ := hi2.li h0; exact ⟨b, p2 _ hb⟩
            · obtain ⟨b, hb⟩ := hi2.lg h0; exact ⟨b, p2 _ hb⟩
            · obtain ⟨b, hb⟩ := hi2.lj h0; exact ⟨b, p2 _ hb⟩

theorem updateY_spec {U : User X Y K G J H D} {cont : Nat → X} {conty : Nat → Y} {s : St X Y G J} {newX : Bool} (h : Mid U cont conty s newX)
    (yc yd : Vec Y) (h1 : yc.tag ≠ 0) (h2 : yd.tag ≠ 0) (c1 : yc.val = conty yc.tag) (c2 : yd.val = conty yd.tag) :
    Mid U cont conty (updateY U s yc yd) newX ∧ (updateY U s yc yd).x = s.x ∧ (updateY U s yc yd).y = U.lam yc.val yd.val ∧
      (updateY U s yc yd).iterTag = s.iterTag ∧ (updateY U s yc yd).jacTag = s.jacTag ∧ (updateY U s yc yd).jac = s.jac := by
  unfold updateY
  by_cases hc : yc.tag = s.ycTag ∧ yd.tag = s.ydTag
  · rw [if_pos hc]
    refine ⟨h, rfl, ?_, rfl, rfl, rfl⟩
    rw [h.y (hc.1 ▸ h1) (hc.2 ▸ h2), c1, c2, hc.1, hc.2]
  · rw [if_neg hc]
    refine ⟨⟨h.i0, h.x, h.g, fun _ _ => ?_, h.lg, h.lj, h.flags, h.new⟩, rfl, rfl, rfl, rfl, rfl⟩
    simp only
    rw [c1, c2]

theorem inv_step {U : User X Y K G J H D} {cont : Nat → X} {conty : Nat → Y} {mode : JacMode X G J} {s : St X Y G J} (h : Inv U cont conty s)
    (op : Op X Y K) (ht : Tagged cont conty op) : Inv U cont conty (step U mode s op).1 := by
  obtain ⟨hv, hc, hy⟩ := ht
  cases op with
  | f v =>
    have hm := mid_of_inv h v hv hc
    unfold step
    exact inv_call hm
  | grad v =>
    have hm := mid_of_inv h v hv hc
    unfold step
    exact inv_call hm
  | g v =>
    have hm := inv_evalG (mid_of_inv h v hv hc)
    unfold step
    simp only
    cases hr : evalG U (updateX s v).1 (updateX s v).2 with
    | mk s2 ok => rw [hr] at hm; cases ok <;> exact hm.1
  | jac v =>
    have hm := mid_of_inv h v hv hc
    unfold step
    cases mode with
    | exact =>
      simp only
      have hi : Inv U cont conty (evalJac U (updateX s v).1 (updateX s v).2).1 := by
        unfold evalJac
        by_cases hg : (updateX s v).1.jacTag = (updateX s v).1.iterTag
        · rw [if_pos hg]
          exact ⟨fun _ => hm.x, hm.g, hm.y, fun _ => by rw [← hg]; exact hm.lj (by rw [hg]; exact hm.i0), hm.lg, hm.lj, hm.flags⟩
        · rw [if_neg hg]
          have hi := inv_call hm
          simp only
          cases hu : U.jac (updateX s v).1.x with
          | some j => exact ⟨hi.x, hi.g, hi.y, hi.li, hi.lg, fun _ => hi.li hm.i0, hi.flags⟩
          | none => exact ⟨hi.x, hi.g, hi.y, hi.li, hi.lg, fun h0 => absurd rfl h0, hi.flags⟩
      cases hr : evalJac U (updateX s v).1 (updateX s v).2 with
      | mk s2 ok => rw [hr] at hi; cases ok <;> exact hi
    | findiff pts combine =>
      simp only
      have hi := inv_evalJacFD (pts := pts) (combine := combine) hm
      cases hr : evalJacFD U pts combine (updateX s v).1 (updateX s v).2 with
      | mk s2 ok => rw [hr] at hi; cases ok <;> exact hi
  | h v obj yc yd =>
    obtain ⟨y1, y2, y3, y4⟩ := hy
    unfold step
    by_cases hz : U.zeroWeights obj yc.val yd.val = true
    · simp only [if_pos hz]; exact h
    · simp only [if_neg hz]
      obtain ⟨u1, -⟩ := updateY_spec (mid_of_inv h v hv hc) yc yd y1 y2 y3 y4
      exact inv_call u1

theorem inv_init (U : User X Y K G J H D) (cont : Nat → X) (conty : Nat → Y) (x : X) (g : G) (j : J) (y : Y) : Inv U cont conty (init x g j y) := by
  refine ⟨?_, ?_, ?_, ?_, ?_, ?_, ?_⟩ <;> try (intro h; exact absurd rfl h)
  intro pre post x he
  simp [init] at he

theorem inv_run {U : User X Y K G J H D} {cont : Nat → X} {conty : Nat → Y} {mode : JacMode X G J} (ops : List (Op X Y K))
    (ht : ∀ op ∈ ops, Tagged cont conty op) (s : St X Y G J) (h : Inv U cont conty s) : Inv U cont conty (run U mode s ops) := by
  induction ops generalizing s with
  | nil => exact h
  | cons op ops ih =>
    unfold run
    rw [List.foldl_cons]
    exact ih (fun o ho => ht o (List.mem_cons_of_mem _ ho)) _ (inv_step h op (ht op (List.mem_cons_self ..)))

section
variable (U : User X Y K G J H D) (cont : Nat → X) (conty : Nat → Y) (x0 : X) (g0 : G) (j0 : J) (y0 : Y)

/-- **C46** Objective, gradient and Hessian: after every history each request is answered with the user's value at exactly the requested
point (and multipliers), or with the failure the user's function reported there. -/
theorem eval_f_grad_h_exact (mode : JacMode X G J) (ops : List (Op X Y K)) (ht : ∀ op ∈ ops, Tagged cont conty op) (v : Vec X)
    (hv : v.tag ≠ 0) (hc : v.val = cont v.tag) :
    (step U mode (run U mode (init x0 g0 j0 y0) ops) (.f v)).2 = .f (U.f v.val) ∧
      (step U mode (run U mode (init x0 g0 j0 y0) ops) (.grad v)).2 = .grad (U.grad v.val) ∧
      ∀ obj yc yd, Tagged cont conty (.h v obj yc yd) → (step U mode (run U mode (init x0 g0 j0 y0) ops) (.h v obj yc yd)).2 =
        .h (if U.zeroWeights obj yc.val yd.val then some U.zeroH else U.h v.val obj (U.lam yc.val yd.val)) := by
  have hi := inv_run (mode := mode) ops ht _ (inv_init U cont conty x0 g0 j0 y0)
  obtain ⟨-, a2, -⟩ := updateX_spec hi v hv hc
  refine ⟨?_, ?_, ?_⟩
  · unfold step; simp only; rw [a2]
  · unfold step; simp only; rw [a2]
  · rintro obj yc yd ⟨-, -, y1, y2, y3, y4⟩
    unfold step
    by_cases hz : U.zeroWeights obj yc.val yd.val = true
    · simp only [if_pos hz]
    · simp only [if_neg hz]
      obtain ⟨-, u2, u3, -⟩ := updateY_spec (mid_of_inv hi v hv hc) yc yd y1 y2 y3 y4
      rw [u2, u3, a2]

/-- **C46** Constraints: after every history, at every point where the user's function succeeds, the values delivered are the user's values
at that point; and a failure is reported the first time the constraints are requested at a point. -/
theorem eval_g_exact_partial (mode : JacMode X G J) (ops : List (Op X Y K)) (ht : ∀ op ∈ ops, Tagged cont conty op) (v : Vec X)
    (hv : v.tag ≠ 0) (hc : v.val = cont v.tag) :
    (∀ g, U.g v.val = some g → (step U mode (run U mode (init x0 g0 j0 y0) ops) (.g v)).2 = .g (some g)) ∧
      (U.g v.val = none → (∀ op ∈ ops, op.pt.tag ≠ v.tag) → (step U mode (run U mode (init x0 g0 j0 y0) ops) (.g v)).2 = .g none) := by
  have hi := inv_run (mode := mode) ops ht _ (inv_init U cont conty x0 g0 j0 y0)
  obtain ⟨a1, a2, a3, -⟩ := updateX_spec hi v hv hc
  obtain ⟨-, -, -, b4, b5, -⟩ := inv_evalG (mid_of_inv hi v hv hc)
  rw [a2] at b4 b5
  constructor
  · intro g hg
    obtain ⟨c1, c2⟩ := b4 g hg
    unfold step
    simp only
    cases hr : evalG U (updateX (run U mode (init x0 g0 j0 y0) ops) v).1 (updateX (run U mode (init x0 g0 j0 y0) ops) v).2 with
    | mk s2 ok =>
      rw [hr] at c1 c2
      simp only at c1 c2
      subst c1
      simp only
      rw [c2]
  · intro hn hfresh
    have key : ∀ (ops : List (Op X Y K)) (s : St X Y G J), (s.gTag = 0 ∨ s.gTag ≠ v.tag) → (∀ op ∈ ops, op.pt.tag ≠ v.tag) →
        s.iterTag ≠ v.tag → (run U mode s ops).gTag ≠ v.tag ∧ (run U mode s ops).iterTag ≠ v.tag := by
      intro ops
      induction ops with
      | nil =>
        intro s h1 _ h2
        refine ⟨?_, h2⟩
        rcases h1 with h1 | h1
        · unfold run; simp only [List.foldl_nil]; rw [h1]; exact fun h => hv h.symm
        · exact h1
      | cons op ops ih =>
        intro s h1 h3 h2
        have hop := h3 op (List.mem_cons_self ..)
        have hu : ∀ w : Vec X, w.tag ≠ v.tag → (updateX s w).1.iterTag ≠ v.tag ∧ (updateX s w).1.gTag = s.gTag := by
          intro w hw
          unfold updateX
          by_cases hc : w.tag = s.iterTag
          · rw [if_pos hc]; exact ⟨h2, rfl⟩
          · rw [if_neg hc]; exact ⟨hw, rfl⟩
        have hg : ∀ (s' : St X Y G J) (b : Bool), s'.iterTag ≠ v.tag → (s'.gTag = 0 ∨ s'.gTag ≠ v.tag) →
            (evalG U s' b).1.iterTag ≠ v.tag ∧ ((evalG U s' b).1.gTag = 0 ∨ (evalG U s' b).1.gTag ≠ v.tag) := by
          intro s' b h4 h5
          unfold evalG
          by_cases hc : s'.gTag = s'.iterTag
          · rw [if_pos hc]; exact ⟨h4, h5⟩
          · rw [if_neg hc]
            simp only
            cases U.g s'.x <;> exact ⟨h4, Or.inr h4⟩
        unfold run
        rw [List.foldl_cons]
        refine ih _ ?_ (fun o ho => h3 o (List.mem_cons_of_mem _ ho)) ?_
        all_goals
          cases op with
          | f w => obtain ⟨q1, q2⟩ := hu w hop; unfold step; simp only; first | exact q1 | (rw [q2]; exact h1)
          | grad w => obtain ⟨q1, q2⟩ := hu w hop; unfold step; simp only; first | exact q1 | (rw [q2]; exact h1)
          | g w =>
            obtain ⟨q1, q2⟩ := hu w hop
            obtain ⟨r1, r2⟩ := hg (updateX s w).1 (updateX s w).2 q1 (by rw [q2]; exact h1)
            unfold step
            simp only
            cases hr : evalG U (updateX s w).1 (updateX s w).2 with
            | mk s2 ok => rw [hr] at r1 r2; cases ok <;> first | exact r1 | exact r2
          | jac w =>
            obtain ⟨q1, q2⟩ := hu w hop
            unfold step
            cases mode with
            | exact =>
              have : (evalJac U (updateX s w).1 (updateX s w).2).1.iterTag ≠ v.tag ∧
                  ((evalJac U (updateX s w).1 (updateX s w).2).1.gTag = 0 ∨ (evalJac U (updateX s w).1 (updateX s w).2).1.gTag ≠ v.tag) := by
                unfold evalJac
                by_cases hc : (updateX s w).1.jacTag = (updateX s w).1.iterTag
                · rw [if_pos hc]; exact ⟨q1, by rw [q2]; exact h1⟩
                · rw [if_neg hc]
                  simp only
                  cases U.jac (updateX s w).1.x <;> exact ⟨q1, by simp only; rw [q2]; exact h1⟩
              simp only
              cases hr : evalJac U (updateX s w).1 (updateX s w).2 with
              | mk s2 ok => rw [hr] at this; cases ok <;> first | exact this.1 | exact this.2
            | findiff pts combine =>
              have : (evalJacFD U pts combine (updateX s w).1 (updateX s w).2).1.iterTag ≠ v.tag ∧
                  ((evalJacFD U pts combine (updateX s w).1 (updateX s w).2).1.gTag = 0 ∨
                    (evalJacFD U pts combine (updateX s w).1 (updateX s w).2).1.gTag ≠ v.tag) := by
                unfold evalJacFD
                by_cases hc : (updateX s w).1.jacTag = (updateX s w).1.iterTag
                · rw [if_pos hc]; exact ⟨q1, by rw [q2]; exact h1⟩
                · rw [if_neg hc]
                  simp only
                  obtain ⟨r1, r2⟩ := hg { (updateX s w).1 with jacTag := (updateX s w).1.iterTag } (updateX s w).2 q1 (by simp only; rw [q2]; exact h1)
                  cases hr : evalG U { (updateX s w).1 with jacTag := (updateX s w).1.iterTag } (updateX s w).2 with
                  | mk s2 ok =>
                    rw [hr] at r1 r2
                    cases ok with
                    | false => exact ⟨r1, r2⟩
                    | true =>
                      simp only
                      cases hp : evalPert U (pts s2.x) s2.log with
                      | mk r log' => cases r <;> exact ⟨r1, r2⟩
              simp only
              cases hr : evalJacFD U pts combine (updateX s w).1 (updateX s w).2 with
              | mk s2 ok => rw [hr] at this; cases ok <;> first | exact this.1 | exact this.2
          | h w obj yc yd =>
            obtain ⟨q1, q2⟩ := hu w hop
            unfold step
            by_cases hz : U.zeroWeights obj yc.val yd.val = true
            · simp only [if_pos hz]; first | exact h2 | exact h1
            · simp only [if_neg hz]
              have : (updateY U (updateX s w).1 yc yd).iterTag = (updateX s w).1.iterTag ∧
                  (updateY U (updateX s w).1 yc yd).gTag = (updateX s w).1.gTag := by
                unfold updateY
                by_cases hc : yc.tag = (updateX s w).1.ycTag ∧ yd.tag = (updateX s w).1.ydTag
                · rw [if_pos hc]; exact ⟨rfl, rfl⟩
                · rw [if_neg hc]; exact ⟨rfl, rfl⟩
              first
                | (rw [this.1]; exact q1)
                | (rw [this.2, q2]; exact h1)
    obtain ⟨k1, -⟩ := key ops (init x0 g0 j0 y0) (Or.inl rfl) hfresh (fun h => hv h.symm)
    have hb := b5 hn (by rw [a3, a1]; exact k1)
    unfold step
    simp only
    cases hr : evalG U (updateX (run U mode (init x0 g0 j0 y0) ops) v).1 (updateX (run U mode (init x0 g0 j0 y0) ops) v).2 with
    | mk s2 ok =>
      rw [hr] at hb
      simp only at hb
      subst hb
      rfl

/-- **C46** Jacobian (exact derivatives): after every history — also after failures — each request is answered with the user's values at
exactly the requested point, or with the failure reported there. -/
theorem eval_jac_exact (ops : List (Op X Y K)) (ht : ∀ op ∈ ops, Tagged cont conty op) (v : Vec X) (hv : v.tag ≠ 0)
    (hc : v.val = cont v.tag) :
    (step U .exact (run U .exact (init x0 g0 j0 y0) ops) (.jac v)).2 = .jac (U.jac v.val) := by
  -- the stored Jacobian belongs to its tag
  have key : ∀ (ops : List (Op X Y K)) (s : St X Y G J), Inv U cont conty s → (s.jacTag ≠ 0 → U.jac (cont s.jacTag) = some s.jac) →
      (∀ op ∈ ops, Tagged cont conty op) → Inv U cont conty (run U .exact s ops) ∧
      ((run U .exact s ops).jacTag ≠ 0 → U.jac (cont (run U .exact s ops).jacTag) = some (run U .exact s ops).jac) := by
    intro ops
    induction ops with
    | nil => intro s h1 h2 _; exact ⟨h1, h2⟩
    | cons op ops ih =>
      intro s h1 h2 h3
      have hop := h3 op (List.mem_cons_self ..)
      unfold run
      rw [List.foldl_cons]
      refine ih _ (inv_step h1 op hop) ?_ fun o ho => h3 o (List.mem_cons_of_mem _ ho)
      obtain ⟨hv, hc, hy⟩ := hop
      cases op with
      | f w =>
        obtain ⟨-, -, -, a4, -, a6, -⟩ := updateX_spec h1 w hv hc
        unfold step; simp only; rw [a4, a6]; exact h2
      | grad w =>
        obtain ⟨-, -, -, a4, -, a6, -⟩ := updateX_spec h1 w hv hc
        unfold step; simp only; rw [a4, a6]; exact h2
      | g w =>
        obtain ⟨-, -, -, a4, -, a6, -⟩ := updateX_spec h1 w hv hc
        obtain ⟨-, -, -, -, -, -, b7, b8⟩ := inv_evalG (mid_of_inv h1 w hv hc)
        unfold step
        simp only
        cases hr : evalG U (updateX s w).1 (updateX s w).2 with
        | mk s2 ok =>
          rw [hr] at b7 b8
          simp only at b7 b8
          have : s2.jacTag ≠ 0 → U.jac (cont s2.jacTag) = some s2.jac := by
            intro h0
            rcases b7 with b7 | b7
            · rw [b7, b8, a4, a6]; rw [b7, a4] at h0; exact h2 h0
            · exact absurd b7 h0
          cases ok <;> exact this
      | jac w =>
        obtain ⟨-, -, -, a4, -, a6, -⟩ := updateX_spec h1 w hv hc
        obtain ⟨-, b2, -⟩ := inv_evalJac (mid_of_inv h1 w hv hc) (by rw [a4, a6]; exact h2)
        unfold step
        simp only
        cases hr : evalJac U (updateX s w).1 (updateX s w).2 with
        | mk s2 ok => rw [hr] at b2; cases ok <;> exact b2
      | h w obj yc yd =>
        obtain ⟨y1, y2, y3, y4⟩ := hy
        obtain ⟨-, -, -, a4, -, a6, -⟩ := updateX_spec h1 w hv hc
        unfold step
        by_cases hz : U.zeroWeights obj yc.val yd.val = true
        · simp only [if_pos hz]; exact h2
        · simp only [if_neg hz]
          obtain ⟨-, -, -, -, u5, u6⟩ := updateY_spec (mid_of_inv h1 w hv hc) yc yd y1 y2 y3 y4
          rw [u5, u6, a4, a6]; exact h2
  obtain ⟨hi, hj⟩ := key ops (init x0 g0 j0 y0) (inv_init U cont conty x0 g0 j0 y0) (fun h => absurd rfl h) ht
  obtain ⟨-, a2, -, a4, -, a6, -⟩ := updateX_spec hi v hv hc
  obtain ⟨-, -, b3⟩ := inv_evalJac (mid_of_inv hi v hv hc) (by rw [a4, a6]; exact hj)
  rw [a2] at b3
  rw [b3]
  unfold step
  simp only
  cases hr : evalJac U (updateX (run U .exact (init x0 g0 j0 y0) ops) v).1 (updateX (run U .exact (init x0 g0 j0 y0) ops) v).2 with
  | mk s2 ok => cases ok <;> simp

/-- **C47** The flag `new_x` (as documented): whenever the user's functions are called with `new_x = false`, some evaluation method was
called before at the same point — for exact and finite-difference Jacobians, also after failures. -/
theorem new_x_flag_earlier (mode : JacMode X G J) (ops : List (Op X Y K)) (ht : ∀ op ∈ ops, Tagged cont conty op) :
    FlagsEarlier (run U mode (init x0 g0 j0 y0) ops).log :=
  (inv_run (mode := mode) ops ht _ (inv_init U cont conty x0 g0 j0 y0)).flags

/-- A request that reaches the user's functions (Hessian requests with zero weights do not). -/
def Reaches (U : User X Y K G J H D) : Op X Y K → Prop
  | .h _ obj yc yd => U.zeroWeights obj yc.val yd.val = false
  | _ => True

theorem flagsLast_cons {log : List (X × Bool)} (h : FlagsLast log) (x : X) (b : Bool) (hb : b = false → ∃ b' log', log = (x, b') :: log') :
    FlagsLast ((x, b) :: log) := by
  intro pre post y he
  cases pre with
  | nil =>
    simp only [List.nil_append, List.cons.injEq, Prod.mk.injEq] at he
    obtain ⟨⟨rfl, rfl⟩, rfl⟩ := he
    exact hb rfl
  | cons p pre =>
    simp only [List.cons_append, List.cons.injEq] at he
    exact h pre post y he.2

/-- **C47** The flag `new_x` as used by codes that keep data of the last point: with exact derivatives, if no point is returned to after
another one was requested, every call with `new_x = false` comes directly after a call at the same point. -/
theorem new_x_flag_last_partial (ops : List (Op X Y K)) (ht : ∀ op ∈ ops, Tagged cont conty op)
    (hr : ∀ op ∈ ops, Reaches U op) (hcg : Contig (ops.map fun op => op.pt.tag)) :
    FlagsLast (run U .exact (init x0 g0 j0 y0) ops).log := by
  -- invariant: the last call was at the current point, and old points are different from the current one
  suffices hs : ∀ ops : List (Op X Y K), (∀ op ∈ ops, Tagged cont conty op) → (∀ op ∈ ops, Reaches U op) →
      Contig (ops.map fun op => op.pt.tag) →
      let s := run U .exact (init x0 g0 j0 y0) ops
      FlagsLast s.log ∧ (s.iterTag ≠ 0 → ∃ b log', s.log = (s.x, b) :: log') ∧
      s.iterTag = ((ops.map fun op => op.pt.tag).getLast?).getD 0 ∧
      (s.gTag = 0 ∨ s.gTag ∈ ops.map fun op => op.pt.tag) ∧ (s.jacTag = 0 ∨ s.jacTag ∈ ops.map fun op => op.pt.tag) from (hs ops ht hr hcg).1
  intro ops
  induction ops using List.reverseRecOn with
  | nil =>
    intro _ _ _
    refine ⟨?_, fun h => absurd rfl h, rfl, Or.inl rfl, Or.inl rfl⟩
    intro pre post x he
    simp [run, init] at he
  | append_singleton ops op ih =>
    intro ht hr hcg
    have ht' : ∀ o ∈ ops, Tagged cont conty o := fun o ho => ht o (List.mem_append_left _ ho)
    have hop := ht op (by simp)
    have hcg' : Contig (ops.map fun op => op.pt.tag) := by
      intro pre post t he hm
      refine hcg pre (post ++ [op.pt.tag]) t ?_ hm
      rw [List.map_append, he]; simp
    obtain ⟨i1, i2, i3, i4, i5⟩ := ih ht' (fun o ho => hr o (List.mem_append_left _ ho)) hcg'
    have hi := inv_run (mode := .exact) ops ht' _ (inv_init U cont conty x0 g0 j0 y0)
    have hrun : run U .exact (init x0 g0 j0 y0) (ops ++ [op]) = (step U .exact (run U .exact (init x0 g0 j0 y0) ops) op).1 := by
      unfold run; rw [List.foldl_append]; rfl
    intro s
    have hs : s = (step U .exact (run U .exact (init x0 g0 j0 y0) ops) op).1 := hrun
    clear_value s
    subst hs
    generalize run U .exact (init x0 g0 j0 y0) ops = s at i1 i2 i3 i4 i5 hi
    have hreach := hr op (by simp)
    -- a tag different from the current one is new
    have hfresh : op.pt.tag ≠ s.iterTag → op.pt.tag ≠ s.gTag ∧ op.pt.tag ≠ s.jacTag := by
      intro hne
      have hnm : op.pt.tag ∉ ops.map fun op => op.pt.tag := by
        intro hm
        have := hcg (ops.map fun op => op.pt.tag) [] op.pt.tag (by rw [List.map_append]; rfl) hm
        rw [this] at i3
        exact hne i3.symm
      have h0 := hop.1
      constructor
      · rcases i4 with i4 | i4
        · rw [i4]; exact h0
        · intro he; rw [← he] at i4; exact hnm i4
      · rcases i5 with i5 | i5
        · rw [i5]; exact h0
        · intro he; rw [← he] at i5; exact hnm i5
    have hlast : ((List.map (fun op => op.pt.tag) (ops ++ [op])).getLast?).getD 0 = op.pt.tag := by simp
    have hmem : op.pt.tag ∈ List.map (fun op => op.pt.tag) (ops ++ [op]) := by simp
    have hmono : ∀ t, t = 0 ∨ t ∈ List.map (fun op => op.pt.tag) ops → t = 0 ∨ t ∈ List.map (fun op => op.pt.tag) (ops ++ [op]) := by
      rintro t (h | h)
      · exact Or.inl h
      · right; rw [List.map_append]; exact List.mem_append_left _ h
    rw [hlast]
    obtain ⟨hv, hc, hy⟩ := hop
    obtain ⟨a1, a2, a3, a4, a5, a6, a7, a8, a9, a10, a11, a12⟩ := updateX_spec hi op.pt hv hc
    -- the flag is right for a call now
    have hflag : (updateX s op.pt).2 = false → ∃ b' log', s.log = ((updateX s op.pt).1.x, b') :: log' := by
      intro hf
      have he : op.pt.tag = s.iterTag := by
        by_contra hne
        rw [a12.mpr hne] at hf
        simp at hf
      have h0 : s.iterTag ≠ 0 := he ▸ hv
      obtain ⟨b, log', hl⟩ := i2 h0
      refine ⟨b, log', ?_⟩
      rw [hl, a2, hc, he, ← hi.x h0]
    have hcall : FlagsLast (((updateX s op.pt).1.x, (updateX s op.pt).2) :: s.log) := flagsLast_cons i1 _ _ hflag
    cases op with
    | f w =>
      refine ⟨?_, fun _ => ?_, a1, ?_, ?_⟩
      · unfold step; simp only; rw [show (updateX s w).1.log = s.log from a10]; exact hcall
      · exact ⟨_, _, rfl⟩
      · unfold step; simp only; rw [show (updateX s w).1.gTag = s.gTag from a3]; exact hmono _ i4
      · unfold step; simp only; rw [show (updateX s w).1.jacTag = s.jacTag from a4]; exact hmono _ i5
    | grad w =>
      refine ⟨?_, fun _ => ?_, a1, ?_, ?_⟩
      · unfold step; simp only; rw [show (updateX s w).1.log = s.log from a10]; exact hcall
      · exact ⟨_, _, rfl⟩
      · unfold step; simp only; rw [show (updateX s w).1.gTag = s.gTag from a3]; exact hmono _ i4
      · unfold step; simp only; rw [show (updateX s w).1.jacTag = s.jacTag from a4]; exact hmono _ i5
    | g w =>
      simp only [Op.pt] at *
      have hst : (step U .exact s (.g w)).1 = (evalG U (updateX s w).1 (updateX s w).2).1 := by
        unfold step; simp only
        cases hr : evalG U (updateX s w).1 (updateX s w).2 with
        | mk s2 ok => cases ok <;> rfl
      rw [hst]
      unfold evalG
      by_cases hg : (updateX s w).1.gTag = (updateX s w).1.iterTag
      · rw [if_pos hg]
        have he : w.tag = s.iterTag := by
          by_contra hne
          have := (hfresh hne).1
          rw [a1, a3] at hg
          exact this hg.symm
        have h0 : s.iterTag ≠ 0 := he ▸ hv
        refine ⟨by rw [a10]; exact i1, fun _ => ?_, a1, by rw [a3]; exact hmono _ i4, by rw [a4]; exact hmono _ i5⟩
        obtain ⟨b, log', hl⟩ := i2 h0
        refine ⟨b, log', ?_⟩
        rw [a10, hl, a2, hc, he, ← hi.x h0]
      · rw [if_neg hg]
        simp only
        cases U.g (updateX s w).1.x with
        | some g => exact ⟨by simp only; rw [a10]; exact hcall, fun _ => ⟨_, _, rfl⟩, a1, Or.inr (by simp only; rw [a1]; exact hmem), by simp only; rw [a4]; exact hmono _ i5⟩
        | none => exact ⟨by simp only; rw [a10]; exact hcall, fun _ => ⟨_, _, rfl⟩, a1, Or.inr (by simp only; rw [a1]; exact hmem), Or.inl rfl⟩
    | jac w =>
      simp only [Op.pt] at *
      have hst : (step U .exact s (.jac w)).1 = (evalJac U (updateX s w).1 (updateX s w).2).1 := by
        unfold step; simp only
        cases hr : evalJac U (updateX s w).1 (updateX s w).2 with
        | mk s2 ok => cases ok <;> rfl
      rw [hst]
      unfold evalJac
      by_cases hg : (updateX s w).1.jacTag = (updateX s w).1.iterTag
      · rw [if_pos hg]
        have he : w.tag = s.iterTag := by
          by_contra hne
          have := (hfresh hne).2
          rw [a1, a4] at hg
          exact this hg.symm
        have h0 : s.iterTag ≠ 0 := he ▸ hv
        refine ⟨by rw [a10]; exact i1, fun _ => ?_, a1, by rw [a3]; exact hmono _ i4, by rw [a4]; exact hmono _ i5⟩
        obtain ⟨b, log', hl⟩ := i2 h0
        refine ⟨b, log', ?_⟩
        rw [a10, hl, a2, hc, he, ← hi.x h0]
      · rw [if_neg hg]
        simp only
        cases U.jac (updateX s w).1.x with
        | some g => exact ⟨by simp only; rw [a10]; exact hcall, fun _ => ⟨_, _, rfl⟩, a1, by simp only; rw [a3]; exact hmono _ i4, Or.inr (by simp only; rw [a1]; exact hmem)⟩
        | none => exact ⟨by simp only; rw [a10]; exact hcall, fun _ => ⟨_, _, rfl⟩, a1, by simp only; rw [a3]; exact hmono _ i4, Or.inl rfl⟩
    | h w obj yc yd =>
      simp only [Op.pt] at *
      obtain ⟨y1, y2, y3, y4⟩ := hy
      have hz : ¬U.zeroWeights obj yc.val yd.val = true := by
        have : U.zeroWeights obj yc.val yd.val = false := hreach
        simp [this]
      have hu : (updateY U (updateX s w).1 yc yd).log = s.log ∧ (updateY U (updateX s w).1 yc yd).x = (updateX s w).1.x ∧
          (updateY U (updateX s w).1 yc yd).iterTag = w.tag ∧ (updateY U (updateX s w).1 yc yd).gTag = s.gTag ∧
          (updateY U (updateX s w).1 yc yd).jacTag = s.jacTag := by
        unfold updateY
        by_cases hcc : yc.tag = (updateX s w).1.ycTag ∧ yd.tag = (updateX s w).1.ydTag
        · rw [if_pos hcc]; exact ⟨a10, rfl, a1, a3, a4⟩
        · rw [if_neg hcc]; exact ⟨a10, rfl, a1, a3, a4⟩
      obtain ⟨u1, u2, u3, u4, u5⟩ := hu
      unfold step
      simp only [if_neg hz]
      refine ⟨?_, fun _ => ⟨_, _, rfl⟩, u3, ?_, ?_⟩
      · rw [u1, u2]; exact hcall
      · rw [u4]; exact hmono _ i4
      · rw [u5]; exact hmono _ i5

end

/-! ### What fails -/

/-- User functions for the counterexamples: constraints cannot be evaluated at the point 1. -/
def exU : User Nat Nat Nat Nat Nat Nat Nat where
  f x := some x
  grad x := some x
  g x := if x = 1 then none else some (x * 10)
  jac x := some x
  h x _ _ := some x
  junkG _ g := g
  junkJ _ j := j
  lam a _ := a
  zeroWeights _ _ _ := false
  zeroH := 0

def exCont : Nat → Nat := fun t => t - 1

/-- **C46** fails for constraints that cannot be evaluated: the failure is reported once; asking for the constraints at the same point again
(for instance the equality constraints after the inequality constraints) is answered with "success" and the values of another point.
(`internal_eval_g` resets the wrong tag, `IpTNLPAdapter.cpp:2846-2849`.) -/
theorem eval_g_failure_forgotten :
    ∃ (ops : List (Op Nat Nat Nat)) (v : Vec Nat), (∀ op ∈ ops ++ [.g v], Tagged exCont exCont op) ∧ exU.g v.val = none ∧
      (step exU .exact (run exU .exact (init 0 0 0 0) ops) (.g v)).2 = .g (some 50) := by
  refine ⟨[.g ⟨6, 5⟩, .g ⟨2, 1⟩], ⟨2, 1⟩, ?_, rfl, rfl⟩
  intro op hop
  simp only [List.cons_append, List.nil_append, List.mem_cons, List.not_mem_nil, or_false] at hop
  rcases hop with rfl | rfl | rfl <;> exact ⟨by decide, by decide, trivial⟩

/-- **C47** fails for the last point: constraints at `A`, objective at `B`, constraints at `A` (taken from memory, no call), objective at `A`:
the last call has `new_x = false` although the call before it was at `B`. -/
theorem new_x_flag_last_fails :
    ∃ ops : List (Op Nat Nat Nat), (∀ op ∈ ops, Tagged exCont exCont op) ∧ ¬FlagsLast (run exU .exact (init 0 0 0 0) ops).log := by
  refine ⟨[.g ⟨6, 5⟩, .f ⟨8, 7⟩, .g ⟨6, 5⟩, .f ⟨6, 5⟩], ?_, ?_⟩
  · intro op hop
    simp only [List.mem_cons, List.not_mem_nil, or_false] at hop
    rcases hop with rfl | rfl | rfl | rfl <;> exact ⟨by decide, by decide, trivial⟩
  · intro h
    obtain ⟨b, p, hp⟩ := h [] [(7, true), (5, true)] 5 rfl
    simp at hp

/-- **C47** fails with finite differences even without returning to a point: after the Jacobian at a point, the objective there is requested
with `new_x = false`, although the last call was at a perturbed point. -/
theorem new_x_flag_last_fails_findiff :
    ∃ (ops : List (Op Nat Nat Nat)) (pts : Nat → List Nat) (combine : Nat → Nat → List Nat → Nat → Nat),
      (∀ op ∈ ops, Tagged exCont exCont op) ∧ Contig (ops.map fun op => op.pt.tag) ∧
        ¬FlagsLast (run exU (.findiff pts combine) (init 0 0 0 0) ops).log := by
  refine ⟨[.jac ⟨6, 5⟩, .f ⟨6, 5⟩], fun x => [x + 1], fun _ _ _ _ => 0, ?_, ?_, ?_⟩
  · intro op hop
    simp only [List.mem_cons, List.not_mem_nil, or_false] at hop
    rcases hop with rfl | rfl <;> exact ⟨by decide, by decide, trivial⟩
  · intro pre post t he hm
    simp only [List.map_cons, List.map_nil, Op.pt] at he
    rcases pre with _ | ⟨p, _ | ⟨q, _ | ⟨r, pre⟩⟩⟩
    · simp at hm
    · simp only [List.cons_append, List.nil_append, List.cons.injEq] at he
      obtain ⟨rfl, rfl, -⟩ := he
      rfl
    · simp at he
    · simp at he
  · intro h
    obtain ⟨b, p, hp⟩ := h [] [(6, true), (5, true)] 5 rfl
    simp at hp

/-- Example for the hypotheses of the positive theorems. -/
example : FlagsLast (run exU .exact (init 0 0 0 0) [.f ⟨6, 5⟩, .g ⟨6, 5⟩, .jac ⟨6, 5⟩, .f ⟨8, 7⟩, .g ⟨8, 7⟩]).log := by
  refine new_x_flag_last_partial exU exCont exCont 0 0 0 0 _ ?_ ?_ ?_
  · intro op hop
    simp only [List.mem_cons, List.not_mem_nil, or_false] at hop
    rcases hop with rfl | rfl | rfl | rfl | rfl <;> exact ⟨by decide, by decide, trivial⟩
  · intro op hop
    simp only [List.mem_cons, List.not_mem_nil, or_false] at hop
    rcases hop with rfl | rfl | rfl | rfl | rfl <;> trivial
  · intro pre post t he hm
    simp only [List.map_cons, List.map_nil, Op.pt] at he
    rcases pre with _ | ⟨a, _ | ⟨b, _ | ⟨c, _ | ⟨d, _ | ⟨e, pre⟩⟩⟩⟩⟩ <;> simp_all <;> omega

end Verif.AdapterEval
