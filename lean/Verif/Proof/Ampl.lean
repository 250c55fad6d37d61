import Verif.Spec.Ampl
import Mathlib.Tactic.Ring
import Mathlib.Tactic.Linarith

set_option linter.unusedSectionVars false
set_option linter.unusedSimpArgs false
set_option linter.unusedVariables false

namespace Verif.Ampl

variable {X K : Type} [Field K] [LinearOrder K] [IsStrictOrderedRing K]

/-- Invariant. -/
structure Inv (P : Nl X K) (s : St X K) (chosen : Option Nat) (last : Option X) : Prop where
  no : s.objNo = chosen.getD 0
  act : s.activeCalled = chosen.isSome
  range : 0 < P.nObj → s.objNo < P.nObj
  sign : s.hessetCalled = true → s.objSign = if 0 < P.nObj ∧ P.isMax s.objNo = true then -1 else 1
  many : s.hessetCalled = true → ¬(1 < P.nObj ∧ chosen = none)
  last : ∀ x, last = some x → s.hessetCalled = true ∧ s.asl.known = some x ∧
    (s.objFlag = true → P.nObj = 0 ∨ ((P.objval s.objNo x).isSome ∧ s.asl.objAt = some x)) ∧
    (s.conFlag = true → (P.conval x).isSome ∧ s.asl.conAt = some x)

theorem Inv.init (P : Nl X K) : Inv P (St.new) none none where
  no := rfl
  act := rfl
  range := fun h => h
  sign := by intro h; exact absurd h (by simp [St.new])
  many := by intro h; exact absurd h (by simp [St.new])
  last := by intro x h; cases h

/-- The state in which the library knows `x`, flags as given. -/
structure At (P : Nl X K) (s : St X K) (chosen : Option Nat) (x : X) : Prop extends Inv P s chosen (some x)

theorem ensure_spec (P : Nl X K) {s : St X K} {chosen : Option Nat} {last : Option X} (h : Inv P s chosen last) :
    (1 < P.nObj ∧ chosen = none → ensureHesset P s = (false, s)) ∧
    (¬(1 < P.nObj ∧ chosen = none) → (ensureHesset P s).1 = true ∧ Inv P (ensureHesset P s).2 chosen last ∧
      (ensureHesset P s).2.hessetCalled = true ∧ (ensureHesset P s).2.asl = s.asl) := by
  have hact : (s.activeCalled = false) ↔ chosen = none := by rw [h.act]; cases chosen <;> simp
  constructor
  · intro hm
    have hh : s.hessetCalled = false := by
      by_contra hc
      exact h.many (by simpa using hc) hm
    have h2 : 1 < P.nObj ∧ s.activeCalled = false := ⟨hm.1, hact.2 hm.2⟩
    simp [ensureHesset, hh, callHesset, h2]
  · intro hm
    by_cases hh : s.hessetCalled = true
    · simp only [ensureHesset, hh, if_true]
      exact ⟨trivial, h, trivial, trivial⟩
    · have hh' : s.hessetCalled = false := by simpa using hh
      have h2 : ¬(1 < P.nObj ∧ s.activeCalled = false) := fun hc => hm ⟨hc.1, hact.1 hc.2⟩
      simp only [ensureHesset, hh', callHesset, if_neg h2, Bool.false_eq_true, if_false]
      refine ⟨trivial, ?_, trivial, trivial⟩
      exact { no := h.no, act := h.act, range := h.range, sign := fun _ => rfl, many := fun _ => hm,
              last := fun x hx => ⟨rfl, (h.last x hx).2⟩ }

/-- `apply_new_x`. -/
theorem apply_spec (P : Nl X K) (halt : Bool) {s : St X K} {chosen : Option Nat} {last : Option X} (h : Inv P s chosen last)
    (x : X) (new : Bool) (hl : new = true ∨ last = some x) :
    (1 < P.nObj ∧ chosen = none → applyNewX P halt s new x = (.exc, s)) ∧
    (¬(1 < P.nObj ∧ chosen = none) →
      (applyNewX P halt s new x).1 = (if new = true ∧ P.xErr x = true then aslError halt else .val ()) ∧
      Inv P (applyNewX P halt s new x).2 chosen (some x)) := by
  cases new with
  | true =>
    obtain ⟨e1, e2⟩ := ensure_spec P h
    constructor
    · intro hm
      simp only [applyNewX, if_true]
      rw [e1 hm]
    · intro hm
      obtain ⟨a1, a2, a3, a4⟩ := e2 hm
      have hi : Inv P { (ensureHesset P s).2 with
          objFlag := false, conFlag := false, asl := { (ensureHesset P s).2.asl with known := some x } } chosen (some x) :=
        { no := a2.no, act := a2.act, range := a2.range, sign := a2.sign, many := a2.many,
          last := by
            intro y hy
            cases hy
            refine ⟨a3, rfl, ?_, ?_⟩ <;> (intro hc; cases hc) }
      generalize hE : ensureHesset P s = E at *
      obtain ⟨b, s'⟩ := E
      dsimp at a1
      subst a1
      simp only [applyNewX, if_true, hE]
      by_cases hx : P.xErr x = true
      · simp only [hx, if_true, and_self]
        exact ⟨trivial, hi⟩
      · simp only [hx, Bool.false_eq_true, and_false, if_false]
        exact ⟨trivial, hi⟩
  | false =>
    have hl' : last = some x := by simpa using hl
    subst hl'
    constructor
    · intro hm
      exact absurd hm (h.many (h.last x rfl).1)
    · intro hm
      simp only [applyNewX, Bool.false_eq_true, if_false, false_and]
      exact ⟨trivial, h⟩

theorem point_at {P : Nl X K} {s : St X K} {chosen : Option Nat} {x : X} (h : Inv P s chosen (some x)) : s.asl.point x = x := by
  simp [Asl.point, (h.last x rfl).2.1]

theorem evalObj_inv {P : Nl X K} {s : St X K} {chosen : Option Nat} {x : X} (h : Inv P s chosen (some x)) (b : Bool)
    (hb : b = true → s.objFlag = true ∨ P.nObj = 0 ∨ (P.objval s.objNo x).isSome) :
    Inv P { s with objFlag := b, asl := s.asl.evalObj P s.objNo x } chosen (some x) :=
  { no := h.no, act := h.act, range := h.range, sign := h.sign, many := h.many,
    last := by
      intro y hy
      cases hy
      obtain ⟨l1, l2, l3, l4⟩ := h.last x rfl
      refine ⟨l1, l2, ?_, l4⟩
      intro hc
      have : P.nObj = 0 ∨ (P.objval s.objNo x).isSome := by
        rcases hb hc with hf | hf
        · rcases l3 hf with h0 | h0
          · exact Or.inl h0
          · exact Or.inr h0.1
        · exact hf
      rcases this with h0 | h0
      · exact Or.inl h0
      · exact Or.inr ⟨h0, by simp only [Asl.evalObj, h0, if_true]⟩ }

theorem evalCon_inv {P : Nl X K} {s : St X K} {chosen : Option Nat} {x : X} (h : Inv P s chosen (some x)) (b : Bool)
    (hb : b = true → s.conFlag = true ∨ (P.conval x).isSome) :
    Inv P { s with conFlag := b, asl := s.asl.evalCon P x } chosen (some x) :=
  { no := h.no, act := h.act, range := h.range, sign := h.sign, many := h.many,
    last := by
      intro y hy
      cases hy
      obtain ⟨l1, l2, l3, l4⟩ := h.last x rfl
      refine ⟨l1, l2, l3, ?_⟩
      intro hc
      have : (P.conval x).isSome := by
        rcases hb hc with hf | hf
        · exact (l4 hf).1
        · exact hf
      exact ⟨this, by simp only [Asl.evalCon, this, if_true]⟩ }

/-- Value or error. -/
def valOr {β : Type} (halt : Bool) : Option β → Res β
  | some v => .val v
  | none => aslError halt

theorem sign_pos {P : Nl X K} {s : St X K} {chosen : Option Nat} {x : X} (h : Inv P s chosen (some x)) (h0 : P.nObj ≠ 0) :
    s.objSign = if P.isMax (chosen.getD 0) = true then -1 else 1 := by
  rw [h.sign (h.last x rfl).1, h.no]
  simp [Nat.pos_of_ne_zero h0]

theorem objval_spec {P : Nl X K} {s : St X K} {chosen : Option Nat} {x : X} (halt : Bool) (h : Inv P s chosen (some x)) :
    (internalObjval P halt s x).1 = valOr halt (minObj P (chosen.getD 0) x) ∧
    Inv P (internalObjval P halt s x).2 chosen (some x) ∧
    ((minObj P (chosen.getD 0) x).isSome → (internalObjval P halt s x).2.objFlag = true) ∧
    (internalObjval P halt s x).2.conFlag = s.conFlag := by
  by_cases h0 : P.nObj = 0
  · simp only [internalObjval, h0, if_true, minObj, valOr]
    refine ⟨trivial, ?_, fun _ => trivial, trivial⟩
    exact { no := h.no, act := h.act, range := h.range, sign := h.sign, many := h.many,
            last := fun y hy => ⟨(h.last y hy).1, (h.last y hy).2.1, fun _ => Or.inl h0, (h.last y hy).2.2.2⟩ }
  · have hs := sign_pos h h0
    have hno := h.no
    simp only [internalObjval, h0, if_false, minObj, point_at h]
    have hvn : P.objval s.objNo x = P.objval (chosen.getD 0) x := by rw [hno]
    rw [← hvn]
    cases hv : P.objval s.objNo x with
    | none =>
      refine ⟨rfl, evalObj_inv h false (fun hc => by cases hc), fun hc => (by simp at hc), rfl⟩
    | some v =>
      refine ⟨?_, evalObj_inv h true (fun _ => Or.inr (Or.inr (by simp [hv]))), fun _ => rfl, rfl⟩
      simp only [Option.map_some, valOr, hs]
      congr 1
      split <;> simp

theorem conval_spec {P : Nl X K} {s : St X K} {chosen : Option Nat} {x : X} (halt : Bool) (h : Inv P s chosen (some x)) :
    (internalConval P halt s x).1 = valOr halt (P.conval x) ∧
    Inv P (internalConval P halt s x).2 chosen (some x) ∧
    ((P.conval x).isSome → (internalConval P halt s x).2.conFlag = true) ∧
    (internalConval P halt s x).2.objFlag = s.objFlag := by
  simp only [internalConval, point_at h]
  cases hv : P.conval x with
  | none => exact ⟨rfl, evalCon_inv h false (fun hc => by cases hc), fun hc => (by simp at hc), rfl⟩
  | some v => exact ⟨rfl, evalCon_inv h true (fun _ => Or.inr (by simp [hv])), fun _ => rfl, rfl⟩

theorem grad_spec {P : Nl X K} {s : St X K} {chosen : Option Nat} {x : X} (halt : Bool) (h : Inv P s chosen (some x)) :
    (gradPart P halt s x).1 = valOr halt (minGrad P (chosen.getD 0) x) ∧
    Inv P (gradPart P halt s x).2 chosen (some x) := by
  by_cases h0 : P.nObj = 0
  · simp only [gradPart, h0, if_true, minGrad, valOr]
    exact ⟨trivial, h⟩
  · have hs := sign_pos h h0
    have hno := h.no
    simp only [gradPart, h0, if_false, minGrad, point_at h]
    have hvn : P.objval s.objNo x = P.objval (chosen.getD 0) x := by rw [hno]
    have hgn : P.objgrd s.objNo x = P.objgrd (chosen.getD 0) x := by rw [hno]
    have hi := evalObj_inv h s.objFlag (fun hc => Or.inl hc)
    rw [← hvn, ← hgn]
    cases hv : P.objval s.objNo x with
    | none => exact ⟨rfl, hi⟩
    | some v =>
      cases hg : P.objgrd s.objNo x with
      | none => exact ⟨rfl, hi⟩
      | some w =>
        refine ⟨?_, hi⟩
        simp only [Option.isSome_some, if_true, Option.map_some, valOr, hs]
        congr 1
        funext k
        have hne : (1 : K) ≠ -1 := by
          intro hc
          have : (0 : K) < 1 := zero_lt_one
          linarith
        by_cases hm : P.isMax (chosen.getD 0) = true
        · simp [hm]
        · simp [hm, hne]

theorem jac_spec {P : Nl X K} {s : St X K} {chosen : Option Nat} {x : X} (halt : Bool) (h : Inv P s chosen (some x)) :
    (jacPart P halt s x).1 = valOr halt (conJac P x) ∧ Inv P (jacPart P halt s x).2 chosen (some x) := by
  simp only [jacPart, conJac, point_at h]
  have hi := evalCon_inv h s.conFlag (fun hc => Or.inl hc)
  cases hv : P.conval x with
  | none => exact ⟨rfl, hi⟩
  | some v =>
    cases hg : P.jacval x with
    | none => exact ⟨rfl, hi⟩
    | some w => exact ⟨rfl, hi⟩

theorem isHalt_valOr {β : Type} {halt : Bool} {v : Option β} (h : halt = false ∨ v.isSome) : (valOr halt v).isHalt = false := by
  cases v with
  | some v => rfl
  | none => rcases h with h | h <;> simp_all [valOr, aslError, Res.isHalt]

theorem prepare_spec {P : Nl X K} {s : St X K} {chosen : Option Nat} {x : X} (halt : Bool) (h : Inv P s chosen (some x)) :
    Inv P (prepareHess P halt s x).2 chosen (some x) ∧
    (halt = false → (prepareHess P halt s x).1 = false) ∧
    ((minObj P (chosen.getD 0) x).isSome → (P.conval x).isSome → (prepareHess P halt s x).1 = false ∧
      (prepareHess P halt s x).2.objFlag = true ∧ (prepareHess P halt s x).2.conFlag = true) := by
  obtain ⟨a1, a2, a3, a4⟩ := objval_spec halt h
  obtain ⟨b1, b2, b3, b4⟩ := conval_spec halt a2
  by_cases hf : s.objFlag = true
  · by_cases hc : s.conFlag = true
    · simp only [prepareHess, hf, hc, if_true]
      exact ⟨h, fun _ => trivial, fun _ _ => ⟨trivial, trivial, trivial⟩⟩
    · obtain ⟨c1, c2, c3, c4⟩ := conval_spec halt h
      simp only [prepareHess, hf, hc, if_true, Bool.false_eq_true, if_false, Bool.false_or]
      refine ⟨c2, fun hh => ?_, fun _ h2 => ⟨?_, ?_, c3 h2⟩⟩
      · rw [c1]; exact isHalt_valOr (Or.inl hh)
      · rw [c1]; exact isHalt_valOr (Or.inr h2)
      · rw [c4, hf]
  · generalize hR : internalObjval P halt s x = R at *
    generalize hR' : internalConval P halt R.2 x = R' at *
    simp only [prepareHess, hf, Bool.false_eq_true, if_false, hR, hR']
    by_cases hc : R'.2.conFlag = true
    · simp only [hc, if_true]
      refine ⟨b2, fun hh => ?_, fun h1 h2 => ⟨?_, ?_, ?_⟩⟩
      · rw [a1, b1, isHalt_valOr (Or.inl hh), isHalt_valOr (Or.inl hh)]; rfl
      · rw [a1, b1, isHalt_valOr (Or.inr h1), isHalt_valOr (Or.inr h2)]; rfl
      · rw [b4, a3 h1]
      · trivial
    · obtain ⟨c1, c2, c3, c4⟩ := conval_spec halt b2
      simp only [hc, Bool.false_eq_true, if_false]
      refine ⟨c2, fun hh => ?_, fun h1 h2 => absurd (b3 h2) hc⟩
      rw [a1, b1, c1, isHalt_valOr (Or.inl hh), isHalt_valOr (Or.inl hh)]; rfl

theorem sphes_spec {P : Nl X K} {s : St X K} {chosen : Option Nat} {x : X} (h : Inv P s chosen (some x))
    (hf : s.objFlag = true) (hc : s.conFlag = true) (o : K) (lam : Nat → K) :
    sphes P s o lam = lagHess P (chosen.getD 0) x o lam := by
  funext k
  obtain ⟨l1, l2, l3, l4⟩ := h.last x rfl
  have hcon := (l4 hc).2
  simp only [sphes, lagHess, hcon]
  congr 1
  by_cases h0 : P.nObj = 0
  · cases s.asl.objAt <;> simp [h0]
  · have hobj := ((l3 hf).resolve_left h0).2
    simp only [hobj, h0, if_false]
    have hr := h.range (Nat.pos_of_ne_zero h0)
    rw [Finset.sum_eq_single s.objNo]
    · rw [← h.no]
      simp only [weights, if_true, sign_pos h h0, ← h.no]
      split <;> ring
    · intro b _ hb
      simp [weights, hb]
    · intro hn
      exact absurd (Finset.mem_range.2 hr) hn

theorem hess_spec {P : Nl X K} {s : St X K} {chosen : Option Nat} {x : X} (halt : Bool) (h : Inv P s chosen (some x))
    (o : K) (lam : Nat → K) :
    Inv P (hessPart P halt s x o lam).2 chosen (some x) ∧
    (halt = false → ∃ v, (hessPart P halt s x o lam).1 = .val v) ∧
    ((minObj P (chosen.getD 0) x).isSome → (P.conval x).isSome →
      (hessPart P halt s x o lam).1 = .val (lagHess P (chosen.getD 0) x o lam)) := by
  obtain ⟨a1, a2, a3⟩ := prepare_spec halt h
  generalize hR : prepareHess P halt s x = R at *
  obtain ⟨b, s'⟩ := R
  cases b with
  | true =>
    simp only [hessPart, hR]
    refine ⟨a1, fun hh => absurd (a2 hh) (by simp), fun h1 h2 => absurd (a3 h1 h2).1 (by simp)⟩
  | false =>
    simp only [hessPart, hR]
    refine ⟨a1, fun _ => ⟨_, rfl⟩, fun h1 h2 => ?_⟩
    rw [sphes_spec a1 (a3 h1 h2).2.1 (a3 h1 h2).2.2]

/-- Combination with `apply_new_x`. -/
theorem after_spec {β : Type} (P : Nl X K) (halt : Bool) {s : St X K} {chosen : Option Nat} {last : Option X}
    (h : Inv P s chosen last) (x : X) (new : Bool) (hl : new = true ∨ last = some x)
    (k : St X K → Res β × St X K) (Q : Res β → Prop) (hexc : ∀ t, (k t).1 ≠ .exc)
    (hk : ∀ t, Inv P t chosen (some x) → Q (k t).1 ∧ Inv P (k t).2 chosen (some x)) :
    let r := afterNewX (applyNewX P halt s new x) k
    (1 < P.nObj ∧ chosen = none → r = (.exc, s)) ∧
    (¬(1 < P.nObj ∧ chosen = none) → r.1 ≠ .exc ∧ Inv P r.2 chosen (some x) ∧
      (new = true ∧ P.xErr x = true → r.1 = aslError halt) ∧ (¬(new = true ∧ P.xErr x = true) → Q r.1)) := by
  obtain ⟨a1, a2⟩ := apply_spec P halt h x new hl
  constructor
  · intro hm
    rw [a1 hm]
    rfl
  · intro hm
    obtain ⟨b1, b2⟩ := a2 hm
    generalize hR : applyNewX P halt s new x = R at *
    obtain ⟨r, t⟩ := R
    by_cases hx : new = true ∧ P.xErr x = true
    · rw [if_pos hx] at b1
      dsimp at b1
      subst b1
      cases halt
      · exact ⟨by simp [afterNewX, aslError], b2, fun _ => rfl, fun hc => absurd hx hc⟩
      · exact ⟨by simp [afterNewX, aslError], b2, fun _ => rfl, fun hc => absurd hx hc⟩
    · rw [if_neg hx] at b1
      dsimp at b1
      subst b1
      have := hk t b2
      exact ⟨hexc t, this.2, fun hc => absurd hc hx, fun _ => this.1⟩

theorem valOr_ne_exc {β : Type} {halt : Bool} {v : Option β} : valOr halt v ≠ .exc := by
  cases v <;> cases halt <;> simp [valOr, aslError]

theorem kind_exc {β : Type} {r : Res β} : r.kind = .exc ↔ r = .exc := by
  cases r <;> simp [Res.kind]

theorem answer_of {β : Type} {P : Nl X K} {halt : Bool} {chosen : Option Nat} {x : X} {new : Bool} {v : Option β} {r : Res β}
    (h1 : 1 < P.nObj ∧ chosen = none → r = .exc)
    (h2 : ¬(1 < P.nObj ∧ chosen = none) → (new = true ∧ P.xErr x = true → r = aslError halt) ∧
      (¬(new = true ∧ P.xErr x = true) → r = valOr halt v)) : r = answer P halt chosen x new v := by
  simp only [answer]
  by_cases hm : 1 < P.nObj ∧ chosen = none
  · rw [if_pos hm]; exact h1 hm
  · rw [if_neg hm]
    by_cases hx : new = true ∧ P.xErr x = true
    · rw [if_pos hx]; exact (h2 hm).1 hx
    · rw [if_neg hx, (h2 hm).2 hx]; cases v <;> rfl

/-- Parts never throw. -/
theorem objval_ne_exc (P : Nl X K) (halt : Bool) (s : St X K) (x : X) : (internalObjval P halt s x).1 ≠ .exc := by
  simp only [internalObjval]
  split
  · simp
  · split <;> cases halt <;> simp [aslError]

theorem conval_ne_exc (P : Nl X K) (halt : Bool) (s : St X K) (x : X) : (internalConval P halt s x).1 ≠ .exc := by
  simp only [internalConval]
  split <;> cases halt <;> simp [aslError]

theorem grad_ne_exc (P : Nl X K) (halt : Bool) (s : St X K) (x : X) : (gradPart P halt s x).1 ≠ .exc := by
  simp only [gradPart]
  split
  · simp
  · split <;> cases halt <;> simp [aslError]

theorem jac_ne_exc (P : Nl X K) (halt : Bool) (s : St X K) (x : X) : (jacPart P halt s x).1 ≠ .exc := by
  simp only [jacPart]
  split <;> cases halt <;> simp [aslError]

theorem hess_ne_exc (P : Nl X K) (halt : Bool) (s : St X K) (x : X) (o : K) (lam : Nat → K) :
    (hessPart P halt s x o lam).1 ≠ .exc := by
  simp only [hessPart]
  split <;> simp

theorem inv_step {P : Nl X K} {halt : Bool} {s : St X K} {chosen : Option Nat} {last : Option X} (h : Inv P s chosen last)
    (op : Op X K) (legal : Legal P last op) :
    Inv P (step P halt s op).2 (chosenAfter chosen (step P halt s op).1 op) (lastAfter last (step P halt s op).1 op) := by
  have key : ∀ {β : Type} (x : X) (new : Bool) (hl : new = true ∨ last = some x) (k : St X K → Res β × St X K)
      (hexc : ∀ t, (k t).1 ≠ .exc) (hk : ∀ t, Inv P t chosen (some x) → Inv P (k t).2 chosen (some x)),
      Inv P (afterNewX (applyNewX P halt s new x) k).2 chosen
        (if (afterNewX (applyNewX P halt s new x) k).1.kind = .exc then last else some x) := by
    intro β x new hl k hexc hk
    obtain ⟨a1, a2⟩ := after_spec P halt h x new hl k (fun _ => True) hexc (fun t ht => ⟨trivial, hk t ht⟩)
    by_cases hm : 1 < P.nObj ∧ chosen = none
    · rw [a1 hm]
      simpa [Res.kind] using h
    · obtain ⟨b1, b2, _⟩ := a2 hm
      rw [if_neg (fun hc => b1 (kind_exc.1 hc))]
      exact b2
  cases op with
  | setActive i =>
    simp only [step, setActive]
    by_cases hh : s.hessetCalled = true
    · simp only [hh, if_true, Res.kind, chosenAfter, lastAfter]
      simpa using h
    · have hh' : s.hessetCalled = false := by simpa using hh
      simp only [hh', Bool.false_eq_true, if_false, Res.kind, chosenAfter, lastAfter, Op.point, if_true]
      simp only [reduceCtorEq, if_false]
      exact { no := rfl, act := rfl, range := fun _ => legal,
              sign := fun hc => (by cases hc), many := fun hc => (by cases hc),
              last := fun x hx => absurd (h.last x hx).1 hh }
  | info =>
    obtain ⟨e1, e2⟩ := ensure_spec P h
    simp only [step, nlpInfo]
    by_cases hm : 1 < P.nObj ∧ chosen = none
    · rw [e1 hm]
      simpa [Res.kind, chosenAfter, lastAfter] using h
    · obtain ⟨a1, a2, _⟩ := e2 hm
      generalize hE : ensureHesset P s = E at *
      obtain ⟨b, s'⟩ := E
      dsimp at a1
      subst a1
      simpa [Res.kind, chosenAfter, lastAfter, Op.point] using a2
  | f x new => exact key x new legal _ (objval_ne_exc P halt · x) (fun t ht => (objval_spec halt ht).2.1)
  | grad x new => exact key x new legal _ (grad_ne_exc P halt · x) (fun t ht => (grad_spec halt ht).2)
  | g x new => exact key x new legal _ (conval_ne_exc P halt · x) (fun t ht => (conval_spec halt ht).2.1)
  | jac x new => exact key x new legal _ (jac_ne_exc P halt · x) (fun t ht => (jac_spec halt ht).2)
  | h x new o lam => exact key x new legal _ (hess_ne_exc P halt · x o lam) (fun t ht => (hess_spec halt ht o lam).1)

theorem hist_inv {P : Nl X K} {halt : Bool} {s : St X K} {chosen : Option Nat} {last : Option X}
    (h : Hist P halt s chosen last) : Inv P s chosen last := by
  induction h with
  | new => exact Inv.init P
  | call h op legal _ ih => exact inv_step ih op legal

/-! ## Structures -/

theorem writeAll_get (w : List (Nat × Nat × Nat)) (init : Nat → Nat × Nat) (hnd : (w.map (·.1)).Nodup) (e : Nat × Nat × Nat)
    (he : e ∈ w) : writeAll w init e.1 = e.2 := by
  induction w generalizing init with
  | nil => cases he
  | cons a rest ih =>
    simp only [List.map_cons, List.nodup_cons] at hnd
    simp only [writeAll, List.foldl_cons]
    rcases List.mem_cons.1 he with rfl | hm
    · have : ∀ (l : List (Nat × Nat × Nat)) (f : Nat → Nat × Nat), e.1 ∉ l.map (·.1) → writeAll l f e.1 = f e.1 := by
        intro l
        induction l with
        | nil => intro f _; rfl
        | cons b l ihl =>
          intro f hn
          simp only [List.map_cons, List.mem_cons, not_or] at hn
          simp only [writeAll, List.foldl_cons]
          rw [show List.foldl (fun a e => Function.update a e.1 e.2) (Function.update f b.1 b.2) l
            = writeAll l (Function.update f b.1 b.2) from rfl, ihl _ hn.2]
          exact Function.update_of_ne hn.1 _ _
      rw [show List.foldl (fun a e => Function.update a e.1 e.2) (Function.update init e.1 e.2) rest
            = writeAll rest (Function.update init e.1 e.2) from rfl, this _ _ hnd.1]
      exact Function.update_self ..
    · exact ih _ hnd.2 hm

theorem jacWrites_sum (cg : List (List CGrad)) (values : Nat → K) (r c : Nat) : ∀ i,
    ((jacWrites i cg).map fun e => if e.2 = (r + 1, c + 1) then values e.1 else 0).sum =
      if r < i then 0 else cgradEntry cg values (r - i) c := by
  induction cg with
  | nil => intro i; simp [jacWrites, cgradEntry]
  | cons row rest ih =>
    intro i
    simp only [jacWrites, List.map_append, List.sum_append, ih, List.map_map]
    have hrow : (row.map ((fun e : Nat × Nat × Nat => if e.2 = (r + 1, c + 1) then values e.1 else 0) ∘
        fun c => (c.goff, i + 1, c.varno + 1))).sum =
        if i = r then ((row.filter fun e => e.varno = c).map fun e => values e.goff).sum else 0 := by
      induction row with
      | nil => simp
      | cons a row ihr =>
        simp only [List.map_cons, List.sum_cons, ihr, Function.comp, Prod.mk.injEq, Nat.add_right_cancel_iff]
        by_cases hi : i = r
        · by_cases hc : a.varno = c
          · simp [hi, hc, List.filter_cons]
          · simp [hi, hc, List.filter_cons]
        · simp [hi]
    rw [hrow]
    rcases Nat.lt_trichotomy r i with h | h | h
    · simp [h, Nat.ne_of_gt h, Nat.lt_succ_of_lt h]
    · subst h
      simp [cgradEntry]
    · have h1 : ¬ r < i := Nat.not_lt.2 h.le
      have h2 : ¬ r < i + 1 := by omega
      have h3 : i ≠ r := by omega
      obtain ⟨d, hd⟩ : ∃ d, r - i = d + 1 := ⟨r - i - 1, by omega⟩
      have h4 : r - (i + 1) = d := by omega
      simp [h1, h2, h3, hd, h4, cgradEntry]

theorem jac_entry (cg : List (List CGrad)) (init : Nat → Nat × Nat) (values : Nat → K) (nnz : Nat)
    (hp : ((cg.flatten).map (·.goff)).Perm (List.range nnz)) (r c : Nat) :
    tripletEntry nnz (jacStructure cg init) values r c = cgradEntry cg values r c := by
  have hfst : ∀ i, (jacWrites i cg).map (·.1) = cg.flatten.map (·.goff) := by
    clear hp
    induction cg with
    | nil => intro i; rfl
    | cons row rest ih => intro i; simp [jacWrites, ih, List.map_map, Function.comp_def]
  have hnd : ((jacWrites 0 cg).map (·.1)).Nodup := by
    rw [hfst]
    exact hp.nodup_iff.2 List.nodup_range
  have h1 : tripletEntry nnz (jacStructure cg init) values r c =
      ((List.range nnz).map fun k => if jacStructure cg init k = (r + 1, c + 1) then values k else 0).sum := by
    simp only [tripletEntry]
    rw [← List.sum_toFinset _ List.nodup_range]
    congr 1
    ext k
    simp
  rw [h1]
  have h2 := (hp.map fun k => if jacStructure cg init k = (r + 1, c + 1) then values k else 0).sum_eq
  rw [← h2, ← hfst 0, List.map_map]
  have h3 := jacWrites_sum cg values r c 0
  simp only [Nat.not_lt_zero, if_false, Nat.sub_zero] at h3
  rw [← h3]
  congr 1
  apply List.map_congr_left
  intro e he
  simp only [Function.comp]
  rw [jacStructure, writeAll_get _ _ hnd e he]

theorem hess_mem (cols : List (List Nat)) (a b : Nat) : ∀ i,
    (a, b) ∈ hessStructure i cols ↔ ∃ k r, (a, b) = (i + k + 1, r + 1) ∧ r ∈ cols.getD k [] := by
  induction cols with
  | nil => intro i; simp [hessStructure]
  | cons rows rest ih =>
    intro i
    simp only [hessStructure, List.mem_append, List.mem_map, ih]
    constructor
    · rintro (⟨r, hr, he⟩ | ⟨k, r, he, hr⟩)
      · exact ⟨0, r, by simpa using he.symm, by simpa using hr⟩
      · exact ⟨k + 1, r, by rw [he]; simp only [Prod.mk.injEq, and_true]; omega, by simpa using hr⟩
    · rintro ⟨k, r, he, hr⟩
      cases k with
      | zero => exact Or.inl ⟨r, by simpa using hr, by simpa using he.symm⟩
      | succ k => exact Or.inr ⟨k, r, by rw [he]; simp only [Prod.mk.injEq, and_true]; omega, by simpa using hr⟩

theorem hess_nodup (cols : List (List Nat)) (h : ∀ rows ∈ cols, rows.Nodup) : ∀ i, (hessStructure i cols).Nodup := by
  induction cols with
  | nil => intro i; exact List.nodup_nil
  | cons rows rest ih =>
    intro i
    simp only [hessStructure]
    rw [List.nodup_append]
    refine ⟨?_, ih (fun r hr => h r (List.mem_cons_of_mem _ hr)) _, ?_⟩
    · exact (h rows List.mem_cons_self).map (fun a b hab => by simpa using hab)
    · rintro ⟨a, b⟩ h1 c h2 rfl
      obtain ⟨r, _, he⟩ := List.mem_map.1 h1
      obtain ⟨k, r', he', _⟩ := (hess_mem rest a b (i + 1)).1 h2
      rw [← he] at he'
      simp only [Prod.mk.injEq] at he'
      omega

theorem hess_length (cols : List (List Nat)) : ∀ i, (hessStructure i cols).length = (cols.map List.length).sum := by
  induction cols with
  | nil => intro i; rfl
  | cons rows rest ih => intro i; simp [hessStructure, ih]

end Verif.Ampl
