import Verif.Spec.CInterface

set_option linter.unusedSectionVars false
set_option linter.unusedSimpArgs false
set_option linter.unusedVariables false

/-! # Invariants of the C interface -/

namespace Verif.CInterface

variable {K : Type}

/-- Everything but the `x` array and the data pointers is fixed at construction. -/
structure Same (t t' : T K) : Prop where
  n : t'.n = t.n
  m : t'.m = t.m
  xL : t'.xL = t.xL
  xU : t'.xU = t.xU
  gL : t'.gL = t.gL
  gU : t'.gU = t.gU
  neleJac : t'.neleJac = t.neleJac
  neleHess : t'.neleHess = t.neleHess
  indexStyle : t'.indexStyle = t.indexStyle
  startX : t'.startX = t.startX
  startLam : t'.startLam = t.startLam
  startZL : t'.startZL = t.startZL
  startZU : t'.startZU = t.startZU
  evalF : t'.evalF = t.evalF
  evalG : t'.evalG = t.evalG
  evalGradF : t'.evalGradF = t.evalGradF
  evalJacG : t'.evalJacG = t.evalJacG
  evalH : t'.evalH = t.evalH
  interm : t'.interm = t.interm
  userData : t'.userData = t.userData
  objScaling : t'.objScaling = t.objScaling
  xScaling : t'.xScaling = t.xScaling
  gScaling : t'.gScaling = t.gScaling
  xSol : t'.xSol = t.xSol
  zLSol : t'.zLSol = t.zLSol
  zUSol : t'.zUSol = t.zUSol
  gSol : t'.gSol = t.gSol
  lamSol : t'.lamSol = t.lamSol
  objSol : t'.objSol = t.objSol

theorem Same.refl (t : T K) : Same t t := by constructor <;> rfl

theorem Same.trans {t t' t'' : T K} (h : Same t t') (h' : Same t' t'') : Same t t'' := by
  obtain ⟨⟩ := h; obtain ⟨⟩ := h'
  constructor <;> simp_all

theorem same_applyNewX (t : T K) (b : Bool) (x : Option (List K)) : Same t (applyNewX t b x) := by
  unfold applyNewX; split <;> (constructor <;> rfl)

theorem same_buf (t : T K) (b : Option (List K)) : Same t { t with buf := b } := by constructor <;> rfl

theorem applyNewX_live (t : T K) (b : Bool) (x : Option (List K)) : (applyNewX t b x).live = t.live := by
  unfold applyNewX; split <;> rfl

theorem serve_same (user : User K) (s : Rt K) (q : Req K) : Same s.t (serve user s q).2.t := by
  have hev : ∀ fn x nx lam, Same s.t (evalCall user s q fn x nx lam).2.t := by
    intro fn x nx lam
    unfold evalCall
    exact (same_applyNewX s.t nx x).trans (same_buf _ _)
  cases q with
  | info => exact Same.refl _
  | bounds => exact Same.refl _
  | scaling => exact Same.refl _
  | start a b c => exact Same.refl _
  | evalF x nx => exact hev _ _ _ _
  | evalGradF x nx => exact hev _ _ _ _
  | evalG x nx => exact hev _ _ _ _
  | evalJacG x nx => exact hev _ _ _ _
  | evalH x nx o lam nl => exact hev _ _ _ _
  | interm a b c d =>
    unfold serve
    simp only
    split
    · exact Same.refl _
    · constructor <;> rfl
  | finalize x zL zU g lam obj => exact Same.refl _

theorem serve_live (user : User K) (s : Rt K) (q : Req K) (h : s.t.live = false) : (serve user s q).2.t.live = false := by
  have hev : ∀ fn x nx lam, (evalCall user s q fn x nx lam).2.t.live = false := by
    intro fn x nx lam
    unfold evalCall
    simp only
    rw [applyNewX_live]; exact h
  cases q with
  | info => exact h
  | bounds => exact h
  | scaling => exact h
  | start a b c => exact h
  | evalF x nx => exact hev _ _ _ _
  | evalGradF x nx => exact hev _ _ _ _
  | evalG x nx => exact hev _ _ _ _
  | evalJacG x nx => exact hev _ _ _ _
  | evalH x nx o lam nl => exact hev _ _ _ _
  | interm a b c d =>
    unfold serve
    simp only
    cases s.t.interm with
    | none => exact h
    | some fn => rfl
  | finalize x zL zU g lam obj => exact h

/-- One request, including the record of it. -/
def tick (user : User K) (s : Rt K) (q : Req K) : Rt K := { (serve user s q).2 with qa := (q, (serve user s q).1) :: (serve user s q).2.qa }

/-- Induction over the run of a solver. -/
theorem exec_inv (user : User K) (I : Rt K → Prop) (hI : ∀ s q, I s → I (tick user s q)) (sv : Solver K) :
    ∀ s, I s → I (exec user sv s).2 := by
  induction sv with
  | ret r => intro s h; exact h
  | ask q k ih => intro s h; exact ih _ _ (hI s q h)

theorem serve_qa (user : User K) (s : Rt K) (q : Req K) : (serve user s q).2.qa = s.qa := by
  cases q <;> first | rfl | skip
  unfold serve; simp only
  cases s.t.interm <;> rfl

/-- Answers depend on the fixed part of the TNLP only, for the requests that call no callback. -/
theorem exec_answers (user : User K) (sv : Solver K) (t : T K) (h : Heap K) (cs : List (Call K)) :
    ∀ p ∈ (exec user sv ⟨t, h, cs, []⟩).2.qa, ∃ s : Rt K, Same t s.t ∧ p.2 = (serve user s p.1).1 := by
  have := exec_inv user (fun s => Same t s.t ∧ ∀ p ∈ s.qa, ∃ s' : Rt K, Same t s'.t ∧ p.2 = (serve user s' p.1).1)
    (by
      rintro s q ⟨h1, h2⟩
      refine ⟨h1.trans (serve_same user s q), ?_⟩
      intro p hp
      simp only [tick, serve_qa, List.mem_cons] at hp
      rcases hp with rfl | hp
      · exact ⟨s, h1, rfl⟩
      · exact h2 p hp)
    sv ⟨t, h, cs, []⟩ ⟨Same.refl t, by simp⟩
  exact this.2

/-- The last call of `finalize_solution` in a list of requests (newest first). -/
def noCallback (q : Req K) : Bool :=
  match q with
  | .info | .bounds | .scaling | .start _ _ _ | .finalize _ _ _ _ _ _ => true
  | _ => false

/-! ### Calls -/

/-- What a request adds to the list of calls. -/
def newCall (s : Rt K) (q : Req K) : List (Call K) :=
  let mk := fun (fn : Option Nat) (x : Option (List K)) (nx : Bool) (lam : Option (List K)) =>
    [(⟨fn.getD 0, q, (applyNewX s.t nx x).buf, nx, lam.map (·.take s.t.m.toNat), s.t.userData, s.t.live⟩ : Call K)]
  match q with
  | .evalF x nx => mk s.t.evalF x nx none
  | .evalGradF x nx => mk s.t.evalGradF x nx none
  | .evalG x nx => mk s.t.evalG x nx none
  | .evalJacG x nx => mk s.t.evalJacG x nx none
  | .evalH x nx _ lam _ => mk s.t.evalH x nx lam
  | .interm _ _ _ _ => match s.t.interm with
    | none => []
    | some fn => [⟨fn, q, none, false, none, s.t.userData, true⟩]
  | _ => []

theorem serve_calls (user : User K) (s : Rt K) (q : Req K) : (serve user s q).2.calls = newCall s q ++ s.calls := by
  have e1 : ∀ nx x, (applyNewX s.t nx x).m = s.t.m := fun nx x => (same_applyNewX s.t nx x).m
  have e2 : ∀ nx x, (applyNewX s.t nx x).userData = s.t.userData := fun nx x => (same_applyNewX s.t nx x).userData
  have e3 : ∀ nx x, (applyNewX s.t nx x).live = s.t.live := fun nx x => applyNewX_live _ _ _
  cases q with
  | interm a b c d =>
    unfold serve newCall
    simp only
    cases s.t.interm <;> rfl
  | evalF x nx => simp [serve, evalCall, newCall, e1, e2, e3]
  | evalGradF x nx => simp [serve, evalCall, newCall, e1, e2, e3]
  | evalG x nx => simp [serve, evalCall, newCall, e1, e2, e3]
  | evalJacG x nx => simp [serve, evalCall, newCall, e1, e2, e3]
  | evalH x nx o lam nl => simp [serve, evalCall, newCall, e1, e2, e3]
  | _ => rfl

/-- The calls made during a run come on top of the earlier ones. -/
theorem exec_calls (user : User K) (sv : Solver K) (s : Rt K) : ∃ cs, (exec user sv s).2.calls = cs ++ s.calls :=
  exec_inv user (fun s' => ∃ cs, s'.calls = cs ++ s.calls)
    (by
      rintro s' q ⟨cs, h⟩
      refine ⟨newCall s' q ++ cs, ?_⟩
      simp only [tick, serve_calls, h, List.append_assoc])
    sv s ⟨[], rfl⟩

/-- The array `x` after a request, if the user leaves it alone. -/
theorem serve_buf (user : User K) (hp : Polite user) (s : Rt K) (q : Req K) :
    (serve user s q).2.t.buf = match q.point with
      | some (x, true) => x.map (·.take s.t.n.toNat)
      | _ => s.t.buf := by
  have hev : ∀ fn x nx lam, (evalCall user s q fn x nx lam).2.t.buf = (applyNewX s.t nx x).buf := by
    intro fn x nx lam
    unfold evalCall
    simp only
    cases hb : (applyNewX s.t nx x).buf with
    | none => rfl
    | some v =>
      simp only [Option.map_some, Option.some.injEq]
      exact hp _ _ _ v rfl
  have ha : ∀ (x : Option (List K)) nx, (applyNewX s.t nx x).buf = match some (x, nx) with
      | some (x, true) => x.map (·.take s.t.n.toNat)
      | _ => s.t.buf := by
    intro x nx
    cases nx <;> rfl
  cases q with
  | interm a b c d =>
    unfold serve Req.point
    simp only
    cases s.t.interm <;> rfl
  | evalF x nx => exact (hev _ _ _ _).trans (ha x nx)
  | evalGradF x nx => exact (hev _ _ _ _).trans (ha x nx)
  | evalG x nx => exact (hev _ _ _ _).trans (ha x nx)
  | evalJacG x nx => exact (hev _ _ _ _).trans (ha x nx)
  | evalH x nx o lam nl => exact (hev _ _ _ _).trans (ha x nx)
  | _ => rfl

end Verif.CInterface
