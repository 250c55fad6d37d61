import Verif.Model.Optimize
import Verif.Props.ConvCheck

/-! # Reasoning about `Optimize` -/

set_option linter.unusedSectionVars false
set_option linter.unusedSimpArgs false

namespace Verif.Alg

variable {σ : Type}

/-- Postconditions for normal and exceptional results. -/
def Holds {S α : Type} (m : M S α) (P : S → Prop) (Q : α → S → Prop) (R : Exn → S → Prop) : Prop :=
  ∀ s, P s → (∀ a s', m s = (.ok a, s') → Q a s') ∧ (∀ e s', m s = (.error e, s') → R e s')

theorem Holds.bind {S α β : Type} {m : M S α} {k : α → M S β} {P : S → Prop} {Q : α → S → Prop} {Q' : β → S → Prop}
    {R : Exn → S → Prop} (h : Holds m P Q R) (hk : ∀ a, Holds (k a) (Q a) Q' R) : Holds (m ≫= k) P Q' R := by
  intro s hP
  obtain ⟨h1, h2⟩ := h s hP
  unfold M.bind
  cases hm : m s with
  | mk r s1 =>
    cases r with
    | ok a =>
      simp only
      exact hk a s1 (h1 a s1 hm)
    | error e =>
      simp only
      refine ⟨fun a s' he => (by cases he), fun e' s' he => ?_⟩
      cases he
      exact h2 _ _ hm

theorem Holds.pure {S α : Type} {a : α} {P : S → Prop} {Q : α → S → Prop} {R : Exn → S → Prop} (h : ∀ s, P s → Q a s) :
    Holds (M.pure a) P Q R := by
  intro s hP
  refine ⟨fun a' s' he => ?_, fun e s' he => by cases he⟩
  cases he
  exact h s hP

theorem Holds.throw {S α : Type} {e : Exn} {P : S → Prop} {Q : α → S → Prop} {R : Exn → S → Prop} (h : ∀ s, P s → R e s) :
    Holds (M.throw e) P Q R := by
  intro s hP
  refine ⟨fun a' s' he => (by cases he), fun e s' he => ?_⟩
  cases he
  exact h s hP

theorem Holds.weaken {S α : Type} {m : M S α} {P P' : S → Prop} {Q Q' : α → S → Prop} {R R' : Exn → S → Prop}
    (h : Holds m P Q R) (hp : ∀ s, P' s → P s) (hq : ∀ a s, Q a s → Q' a s) (hr : ∀ e s, R e s → R' e s) :
    Holds m P' Q' R' :=
  fun s hP => ⟨fun a s' he => hq _ _ ((h s (hp s hP)).1 a s' he), fun e s' he => hr _ _ ((h s (hp s hP)).2 e s' he)⟩

/-- Number of accepted trial points in a log. -/
def acceptedCount (l : List Event) : Nat := l.countP (· = .accepted)

/-- In no check of the log the user asked to stop. -/
def NoStop (l : List Event) : Prop := ∀ o r, Event.check true o r ∈ l → o.goOn = true

/-- `k` accepted points, at least `k` iterations and no user stop since `s0`. -/
def Quiet (s0 : S σ) (k : Nat) (s : S σ) : Prop :=
  s0.iter + k ≤ s.iter ∧ acceptedCount s.log = acceptedCount s0.log + k ∧ (NoStop s0.log → NoStop s.log)

theorem noStop_cons {l : List Event} {ev : Event} (h : NoStop l) (he : ∀ o r, ev = .check true o r → o.goOn = true) :
    NoStop (ev :: l) := by
  intro o r hm
  rcases List.mem_cons.mp hm with e | hm
  · exact he o r e.symm
  · exact h o r hm

theorem call_quiet {α : Type} (m : M σ α) (s0 : S σ) (k : Nat) :
    Holds (call m) (Quiet s0 k) (fun _ => Quiet s0 k) (fun _ => Quiet s0 k) := by
  have key : ∀ s env, Quiet s0 k s → Quiet s0 k { s with env := env, log := .strategy :: s.log } := by
    rintro s env ⟨h1, h2, h3⟩
    refine ⟨h1, ?_, fun hn => noStop_cons (h3 hn) (by simp)⟩
    simpa [acceptedCount] using h2
  intro s hs
  refine ⟨fun a s' he => ?_, fun e s' he => ?_⟩ <;>
  · unfold call at he
    injection he with he1 he2
    subst he2
    exact key s _ hs

theorem doCheck_spec (cfg : CCfg) (st : Strategies σ) (cb : Bool) (s : S σ) :
    (∃ e env, doCheck cfg st cb s = (.error e, { s with env := env })) ∨
    (∃ o env cc, o.iter = s.iter ∧ (check cfg cb s.cc o).1 = none ∧
      doCheck cfg st cb s =
        (.error .LOCALLY_INFEASIBLE, { s with env := env, cc := cc, log := .check cb o none :: s.log })) ∨
    (∃ o env cc status, o.iter = s.iter ∧ (check cfg cb s.cc o).1 = some status ∧
      doCheck cfg st cb s = (.ok status, { s with env := env, cc := cc, log := .check cb o (some status) :: s.log })) := by
  unfold doCheck
  cases hm : st.observe s.env with
  | mk r env =>
    cases r with
    | error e => left; exact ⟨e, env, rfl⟩
    | ok o =>
      right
      simp only
      cases hc : (check cfg cb s.cc { o with iter := s.iter }).1 with
      | none => left; exact ⟨{ o with iter := s.iter }, env, _, rfl, hc, rfl⟩
      | some status => right; exact ⟨{ o with iter := s.iter }, env, _, status, rfl, hc, rfl⟩

theorem check_none_noStop {cfg : CCfg} {cb : Bool} {st : CSt} {o : Obs} (h : (check cfg cb st o).1 = none) : ¬ o.Stop cb := by
  intro hs
  rw [(check_userStop_iff cfg cb st o).mpr hs] at h
  cases h

theorem goOn_of_not_stop {o : Obs} (h : ¬ o.Stop true) : o.goOn = true := by
  cases hg : o.goOn with
  | true => rfl
  | false => exact absurd ⟨rfl, hg⟩ h

theorem doCheck_false_quiet (cfg : CCfg) (st : Strategies σ) (s0 : S σ) (k : Nat) :
    Holds (doCheck cfg st false) (Quiet s0 k) (fun _ => Quiet s0 k) (fun _ => Quiet s0 k) := by
  have key : ∀ s env cc o r, Quiet s0 k s → Quiet s0 k { s with env := env, cc := cc, log := .check false o r :: s.log } := by
    rintro s env cc o r ⟨h1, h2, h3⟩
    refine ⟨h1, ?_, fun hn => noStop_cons (h3 hn) (by simp)⟩
    simpa [acceptedCount] using h2
  intro s hs
  rcases doCheck_spec cfg st false s with ⟨e, env, h⟩ | ⟨o, env, cc, _, _, h⟩ | ⟨o, env, cc, status, _, _, h⟩ <;> rw [h]
  · refine ⟨fun a s' he => (by cases he), fun e s' he => ?_⟩
    cases he
    exact hs
  · refine ⟨fun a s' he => (by cases he), fun e s' he => ?_⟩
    cases he
    exact key s _ _ _ _ hs
  · refine ⟨fun a s' he => ?_, fun e s' he => by cases he⟩
    cases he
    exact key s _ _ _ _ hs

theorem Holds.ite {S α : Type} {c : Prop} [Decidable c] {m m' : M S α} {P : S → Prop} {Q : α → S → Prop}
    {R : Exn → S → Prop} (h : Holds m P Q R) (h' : Holds m' P Q R) : Holds (if c then m else m') P Q R := by
  by_cases hc : c
  · rw [if_pos hc]; exact h
  · rw [if_neg hc]; exact h'

theorem feasMult_quiet (cfg : CCfg) (st : Strategies σ) (s0 : S σ) (k : Nat) :
    Holds (feasMult cfg st) (Quiet s0 k) (fun _ => Quiet s0 k) (fun _ => Quiet s0 k) := by
  unfold feasMult
  refine (call_quiet _ s0 k).bind fun ok => Holds.ite (Holds.pure fun _ h => h) ?_
  refine (doCheck_false_quiet cfg st s0 k).bind fun status => Holds.ite (Holds.pure fun _ h => h) ?_
  refine (call_quiet _ s0 k).bind fun ok => Holds.ite ?_ (call_quiet _ s0 k)
  exact (doCheck_false_quiet cfg st s0 k).bind fun status => Holds.ite (Holds.pure fun _ h => h) (call_quiet _ s0 k)

/-- After a check with callback in state `s`: the check heads the log. -/
def Checked (cfg : CCfg) (status : Status) (s : S σ) : Prop :=
  ∃ o l cc, s.log = .check true o (some status) :: l ∧ o.iter = s.iter ∧ (check cfg true cc o).1 = some status

theorem doCheck_true (cfg : CCfg) (st : Strategies σ) (s0 : S σ) (k : Nat) :
    Holds (doCheck cfg st true) (Quiet s0 k)
      (fun status s => Checked cfg status s ∧ s0.iter + k ≤ s.iter ∧ acceptedCount s.log = acceptedCount s0.log + k ∧
        (NoStop s0.log → NoStop s.log.tail))
      (fun _ s => Quiet s0 k s) := by
  rintro s ⟨h1, h2, h3⟩
  rcases doCheck_spec cfg st true s with ⟨e, env, h⟩ | ⟨o, env, cc, hi, hc, h⟩ | ⟨o, env, cc, status, hi, hc, h⟩ <;> rw [h]
  · refine ⟨fun a s' he => (by cases he), fun e s' he => ?_⟩
    cases he
    exact ⟨h1, h2, h3⟩
  · refine ⟨fun a s' he => (by cases he), fun e s' he => ?_⟩
    cases he
    refine ⟨h1, by simpa [acceptedCount] using h2, fun hn => noStop_cons (h3 hn) ?_⟩
    intro o' r' e
    cases e
    exact goOn_of_not_stop (check_none_noStop hc)
  · refine ⟨fun a s' he => ?_, fun e s' he => by cases he⟩
    cases he
    exact ⟨⟨o, s.log, s.cc, rfl, hi, hc⟩, h1, by simpa [acceptedCount] using h2, h3⟩

theorem accepted_quiet (s0 : S σ) : Holds accepted (Quiet s0 0) (fun _ => Quiet s0 1) (fun _ => Quiet s0 1) := by
  rintro s ⟨h1, h2, h3⟩
  refine ⟨fun a s' he => ?_, fun e s' he => by cases he⟩
  cases he
  refine ⟨by simp only; omega, ?_, fun hn => noStop_cons (h3 hn) (by simp)⟩
  simp only [acceptedCount, Nat.add_zero] at h2 ⊢
  rw [← h2]
  simp

theorem addIter_quiet (n : Nat) (s0 : S σ) (k : Nat) :
    Holds (addIter n) (Quiet s0 k) (fun _ => Quiet s0 k) (fun _ => Quiet s0 k) := by
  rintro s ⟨h1, h2, h3⟩
  refine ⟨fun a s' he => ?_, fun e s' he => by cases he⟩
  cases he
  exact ⟨by simp only; omega, h2, h3⟩

/-- One pass of the main loop. -/
theorem pass_spec (cfg : CCfg) (st : Strategies σ) (s0 : S σ) :
    Holds (pass cfg st) (fun s => s = s0)
      (fun status s => Checked cfg status s ∧ s0.iter + 1 ≤ s.iter ∧ acceptedCount s.log = acceptedCount s0.log + 1 ∧
        (NoStop s0.log → NoStop s.log.tail))
      (fun _ s => ∃ k ≤ 1, Quiet s0 k s) := by
  have q0 : ∀ {α : Type} (m : M σ α), Holds (call m) (Quiet s0 0) (fun _ => Quiet s0 0) (fun _ s => ∃ k ≤ 1, Quiet s0 k s) :=
    fun m => (call_quiet m s0 0).weaken (fun _ h => h) (fun _ _ h => h) (fun _ s h => ⟨0, by omega, h⟩)
  unfold pass
  refine Holds.weaken (P := Quiet s0 0) ?_ (fun s hs => hs ▸ ⟨le_refl _, rfl, fun h => h⟩) (fun _ _ h => h) (fun _ _ h => h)
  refine (q0 _).bind fun _ => (q0 _).bind fun _ => (q0 _).bind fun muOk => ?_
  refine (Holds.ite (q0 _) (Holds.pure fun _ h => h)).bind fun ok => ?_
  refine (Holds.ite (Holds.pure fun _ h => h) ?_ : Holds _ (Quiet s0 0) (fun _ => Quiet s0 0) _).bind fun _ => ?_
  · exact (q0 _).bind fun fb => Holds.ite (Holds.pure fun _ h => h) (Holds.throw fun s h => ⟨0, by omega, h⟩)
  refine (q0 _).bind fun n => ?_
  refine ((addIter_quiet n s0 0).weaken (fun _ h => h) (fun _ _ h => h) (fun _ s h => ⟨0, by omega, h⟩)).bind fun _ => ?_
  refine (q0 _).bind fun _ => ?_
  refine ((accepted_quiet s0).weaken (fun _ h => h) (fun _ _ h => h) (fun _ s h => ⟨1, by omega, h⟩)).bind fun _ => ?_
  refine Holds.bind (Q := fun _ => Quiet s0 1) ?_ fun _ =>
    (doCheck_true cfg st s0 1).weaken (fun _ h => h) (fun _ _ h => h) (fun _ s h => ⟨1, by omega, h⟩)
  intro s hs
  by_cases hq : st.square s.env = true
  · simp only [hq, if_true]
    exact ((feasMult_quiet cfg st s0 1).weaken (fun _ h => h) (fun _ _ h => h) (fun _ s h => ⟨1, by omega, h⟩)) s hs
  · simp only [hq, if_false]
    refine ⟨fun a s' he => ?_, fun e s' he => ?_⟩
    · simp at he; rw [← he]; exact hs
    · simp at he

/-- Invariant of the main loop; `i0` is the iteration number at the start of `Optimize`. -/
def LoopInv (cfg : CCfg) (i0 : Nat) (status : Status) (s : S σ) : Prop :=
  Checked cfg status s ∧ acceptedCount s.log + i0 ≤ s.iter ∧ acceptedCount s.log ≤ cfg.maxIter - i0 ∧ NoStop s.log.tail

theorem Checked.cont_lt {cfg : CCfg} {s : S σ} (h : Checked cfg .cont s) : s.iter < cfg.maxIter := by
  obtain ⟨o, l, cc, _, hi, hc⟩ := h
  rw [← hi]
  exact (check_cont cfg true cc o hc).1

theorem Checked.noStop {cfg : CCfg} {s : S σ} {status : Status} (h : Checked cfg status s) (hn : NoStop s.log.tail)
    (hs : status ≠ .userStop) : NoStop s.log := by
  obtain ⟨o, l, cc, hl, hi, hc⟩ := h
  rw [hl] at hn ⊢
  refine noStop_cons hn ?_
  intro o' r e
  cases e
  refine goOn_of_not_stop fun hst => hs ?_
  have := (check_userStop_iff cfg true cc o).mpr hst
  rw [hc] at this
  exact Option.some.inj this

theorem mainLoop_spec (cfg : CCfg) (st : Strategies σ) (i0 : Nat) (fuel : Nat) :
    ∀ (status : Status) (s : S σ), LoopInv cfg i0 status s → ∀ r s', mainLoop cfg st fuel status s = some (r, s') →
      (∀ status', r = .ok status' → LoopInv cfg i0 status' s' ∧ status' ≠ .cont) ∧
      (∀ e, r = .error e → acceptedCount s'.log ≤ cfg.maxIter - i0 ∧ NoStop s'.log) := by
  induction fuel with
  | zero =>
    intro status s hI r s' h
    unfold mainLoop at h
    by_cases hc : status = .cont
    · rw [if_pos hc] at h; cases h
    · rw [if_neg hc] at h
      cases h
      refine ⟨fun status' e => ?_, fun e he => by cases he⟩
      cases e
      exact ⟨hI, hc⟩
  | succ fuel ih =>
    intro status s hI r s' h
    unfold mainLoop at h
    by_cases hc : status = .cont
    · subst hc
      rw [if_pos rfl] at h
      obtain ⟨h1, h2, h3, h4⟩ := hI
      have hlt := h1.cont_lt
      have hns := h1.noStop h4 (by simp)
      obtain ⟨p1, p2⟩ := pass_spec cfg st s s rfl
      cases hp : pass cfg st s with
      | mk r1 s1 =>
        rw [hp] at h
        cases r1 with
        | error e =>
          cases h
          obtain ⟨k, hk, q1, q2, q3⟩ := p2 _ _ hp
          refine ⟨fun status' e => (by cases e), fun e' he => ?_⟩
          exact ⟨by omega, q3 hns⟩
        | ok status' =>
          simp only at h
          obtain ⟨q0, q1, q2, q3⟩ := p1 status' s1 hp
          exact ih status' s1 ⟨q0, by omega, by omega, q3 hns⟩ r s' h
    · rw [if_neg hc] at h
      cases h
      refine ⟨fun status' e => ?_, fun e he => by cases he⟩
      cases e
      exact ⟨hI, hc⟩

theorem mainLoop_terminates (cfg : CCfg) (st : Strategies σ) (fuel : Nat) :
    ∀ (status : Status) (s : S σ), (status = .cont → Checked cfg .cont s) → cfg.maxIter ≤ fuel + s.iter →
      ∃ r, mainLoop cfg st fuel status s = some r := by
  induction fuel with
  | zero =>
    intro status s hI hf
    unfold mainLoop
    by_cases hc : status = .cont
    · have := (hI hc).cont_lt
      omega
    · rw [if_neg hc]; exact ⟨_, rfl⟩
  | succ fuel ih =>
    intro status s hI hf
    unfold mainLoop
    by_cases hc : status = .cont
    · rw [if_pos hc]
      obtain ⟨p1, p2⟩ := pass_spec cfg st s s rfl
      cases hp : pass cfg st s with
      | mk r1 s1 =>
        cases r1 with
        | error e => exact ⟨_, rfl⟩
        | ok status' =>
          obtain ⟨q0, q1, q2, q3⟩ := p1 status' s1 hp
          exact ih status' s1 (fun hh => hh ▸ q0) (by omega)
    · rw [if_neg hc]; exact ⟨_, rfl⟩

theorem mainLoop_more_fuel (cfg : CCfg) (st : Strategies σ) (fuel : Nat) :
    ∀ (status : Status) (s : S σ) (r : Except Exn Status × S σ) (k : Nat), mainLoop cfg st fuel status s = some r →
      mainLoop cfg st (fuel + k) status s = some r := by
  induction fuel with
  | zero =>
    intro status s r k h
    unfold mainLoop at h
    by_cases hc : status = .cont
    · rw [if_pos hc] at h; cases h
    · rw [if_neg hc] at h
      cases k with
      | zero => unfold mainLoop; rw [if_neg hc]; exact h
      | succ k => rw [Nat.zero_add]; unfold mainLoop; rw [if_neg hc]; exact h
  | succ fuel ih =>
    intro status s r k h
    rw [show fuel + 1 + k = (fuel + k) + 1 from by omega]
    unfold mainLoop at h ⊢
    by_cases hc : status = .cont
    · rw [if_pos hc] at h ⊢
      cases hp : pass cfg st s with
      | mk r1 s1 =>
        rw [hp] at h
        cases r1 with
        | error e => exact h
        | ok status' => exact ih status' s1 r k h
    · rw [if_neg hc] at h ⊢; exact h

end Verif.Alg
