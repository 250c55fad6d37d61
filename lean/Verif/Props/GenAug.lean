import Verif.Proof.GenAug
import Verif.Props.AugSolve

/-! # C89: linear solver supplied by the user (`linear_solver=custom` with `GenAugSystemSolver`) -/

namespace Verif.GenAug
open Verif.Matrix
open Verif.Triplet
open Verif.AugSolve (Status End Args Quad SolvesQuad demoMat demoArgs demoRhs demoSol)
open Verif.PDSystem (AugArgs mv mtv)

set_option linter.unusedSectionVars false
set_option linter.unusedSimpArgs false
set_option linter.unusedVariables false

section
variable {K B : Type} [Field K] [DecidableEq K]
variable {S : Solver K B} {Rep : B → Option (Given K) → Prop} {matOf : Nat → Mat K} {vecOf : Nat → Vec K}

/-- C89: after any history of calls, if `MultiSolve` reports success then every solution has the right dimensions and solves the augmented system
with the matrices, diagonals and perturbations of this call and its right-hand side.  For every user's solver that keeps its contract. -/
theorem custom_success_solves (C : Contract Given.order S Rep) {s : State K B} {v : Bool} (R : Reach S Rep matOf vecOf s v) {a : Args K}
    {rhs sol : List (Quad K)} (A : Allows matOf vecOf a rhs sol) (junk : Nat → K) (fuel : Nat) (chk : Bool) (neg : Nat) {out : List (Quad K)}
    {s' : State K B} (hcall : s.multiSolve S matOf vecOf junk fuel a rhs sol chk neg = some (.ret .success, out, s')) :
    out.length = sol.length ∧ ∀ i (h1 : i < rhs.length) (h2 : i < out.length),
      (out[i]).Dim (a.contents matOf fun t => (vecOf t).elems) ∧ SolvesQuad (a.contents matOf fun t => (vecOf t).elems) out[i] rhs[i] := by
  obtain ⟨z, l, hl⟩ := reach_tags C R
  rcases multiSolve_form S A junk fuel chk neg z with ⟨h, _⟩ | ⟨arr, px, ps, pc, pd, hf, _, _, _, _, h⟩
  · rw [h] at hcall; cases hcall
  rw [h] at hcall
  simp only [Option.some.injEq] at hcall
  obtain ⟨arr', hf', hat, _⟩ := fillAll_spec (nx := (matOf a.Jc).dims.2) (nc := (matOf a.Jc).dims.1) (nd := (matOf a.Jd).dims.1) rhs 0 junk
    (fun q h => ⟨(A.rhs q h).x, (A.rhs q h).s, (A.rhs q h).c, (A.rhs q h).d⟩)
  rw [hf] at hf'
  obtain rfl := Option.some.inj hf'
  have hl2 := (loop_spec C (g := givenOf matOf vecOf a rhs.length chk neg) rfl fuel arr s.world l hl).2
  generalize hr : loop S (givenOf matOf vecOf a rhs.length chk neg) fuel arr s.world = r at *
  obtain ⟨o, ho, hlen, hfrom⟩ := putAll_spec (nx := (matOf a.Jc).dims.2) (nc := (matOf a.Jc).dims.1) (nd := (matOf a.Jd).dims.1) r.2.1 sol 0
    (fun q h => ⟨(A.sol q h).x, (A.sol q h).s, (A.sol q h).c, (A.sol q h).d⟩)
  rw [ho] at hcall
  have hsucc : r.1 = .ret .success ∧ out = o := by
    unfold finish at hcall
    split at hcall
    · rename_i e
      simp only [Prod.mk.injEq] at hcall
      exact ⟨e, hcall.2.1.symm⟩
    · simp at hcall
    · rename_i h1 h2
      simp only [Prod.mk.injEq] at hcall
      exact absurd hcall.1 h1
  obtain ⟨hs, rfl⟩ := hsucc
  refine ⟨hlen, fun i h1 h2 => ?_⟩
  have so := hl2 hs i h1
  have fr := hfrom i h2
  have at_ := hat i h1
  rw [Nat.zero_add] at fr at_
  refine ⟨⟨fr.dim.x, fr.dim.s, fr.dim.c, fr.dim.d⟩, ?_⟩
  have dimE : i * (givenOf matOf vecOf a rhs.length chk neg).dim =
    i * ((matOf a.Jc).dims.2 + (matOf a.Jd).dims.1 + (matOf a.Jc).dims.1 + (matOf a.Jd).dims.1) := rfl
  rw [dimE] at so
  generalize i * ((matOf a.Jc).dims.2 + (matOf a.Jd).dims.1 + (matOf a.Jc).dims.1 + (matOf a.Jd).dims.1) = p at *
  have sg : ∀ (y : Nat → K) (p n k : Nat), k < n → (seg y p n).getD k 0 = y (p + k) := by
    intro y p n k hk
    rw [List.getD_eq_getElem _ _ (by simpa [seg] using hk)]; simp [seg]
  obtain ⟨sx, ss, sc, sd⟩ := so
  simp only [givenOf, Given.order, Nat.add_zero] at sx ss sc sd
  simp only [← Nat.add_assoc] at sx ss sc sd
  refine ⟨fun k hk => ?_, fun k hk => ?_, fun k hk => ?_, fun k hk => ?_⟩
  · have hk' : k < (matOf a.Jc).dims.2 := hk
    have := sx k hk'
    rw [at_.x k hk'] at this
    rw [← this, fr.x, fr.c, fr.d, sg _ _ _ _ hk']
    simp only [Args.contents]
    congr 3
    cases hW : a.W with
    | none => rfl
    | some w =>
      rcases A.fac with e | e
      · simp [hW, e]
      · simp [hW, e]
  · have hk' : k < (matOf a.Jd).dims.1 := hk
    have := ss k hk'
    rw [at_.s k hk'] at this
    rw [← this, fr.s, fr.d, sg _ _ _ _ hk', sg _ _ _ _ hk']
    rfl
  · have hk' : k < (matOf a.Jc).dims.1 := hk
    have := sc k hk'
    rw [at_.c k hk'] at this
    rw [← this, fr.x, fr.c, sg _ _ _ _ hk']
    rfl
  · have hk' : k < (matOf a.Jd).dims.1 := hk
    have := sd k hk'
    rw [at_.d k hk'] at this
    rw [← this, fr.x, fr.s, fr.d, sg _ _ _ _ hk', sg _ _ _ _ hk']
    rfl

/-- C89: otherwise the solution vectors are untouched; a fatal error is thrown as an exception, CALL_AGAIN is never returned.  For any solver. -/
theorem custom_failure_keeps {a : Args K} {rhs sol : List (Quad K)} (junk : Nat → K) (fuel : Nat) (chk : Bool) (neg : Nat) {s : State K B}
    {e : End} {out : List (Quad K)} {s' : State K B} (hcall : s.multiSolve S matOf vecOf junk fuel a rhs sol chk neg = some (e, out, s')) :
    (e ≠ .ret .success → out = sol) ∧ e ≠ .ret .fatal ∧ e ≠ .ret .callAgain := by
  unfold State.multiSolve at hcall
  split at hcall
  · cases hcall
  dsimp only at hcall
  split at hcall
  · cases hcall
  · cases hcall; simp
  split at hcall
  · cases hcall
  · cases hcall; simp
  split at hcall
  · cases hcall
  · cases hcall; simp
  split at hcall
  · cases hcall
  · cases hcall; simp
  split at hcall
  · cases hcall; simp
  rename_i arr _
  generalize hg : Given.mk _ _ _ _ _ _ _ _ _ _ _ _ _ _ _ _ _ _ = g at hcall
  have hn := loop_ret S g fuel arr s.world
  generalize loop S g fuel arr s.world = r at *
  unfold finish at hcall
  split at hcall
  · split at hcall <;> (cases hcall; simp)
  · cases hcall; simp
  · rename_i h1 h2
    cases hcall
    exact ⟨fun _ => rfl, h2, hn⟩

/-- C89: the user's solver is always told that the matrix is new (so it never reuses a factorization of another matrix; nor one of the same
matrix): solvers that differ only when told otherwise cannot be distinguished. -/
theorem custom_always_new (C : Contract Given.order S Rep) {s : State K B} {v : Bool} (R : Reach S Rep matOf vecOf s v) {a : Args K}
    {rhs sol : List (Quad K)} (A : Allows matOf vecOf a rhs sol) (S' : Solver K B) (hS : ∀ g, g.new = true → S'.solve g = S.solve g)
    (junk : Nat → K) (fuel : Nat) (chk : Bool) (neg : Nat) :
    s.multiSolve S' matOf vecOf junk fuel a rhs sol chk neg = s.multiSolve S matOf vecOf junk fuel a rhs sol chk neg := by
  obtain ⟨z, l, hl⟩ := reach_tags C R
  have hloop : ∀ (g : Given K), g.new = true → ∀ (fuel : Nat) (arr : Nat → K) (b : B), loop S' g fuel arr b = loop S g fuel arr b := by
    intro g hg fuel
    induction fuel with
    | zero => intro arr b; rfl
    | succ n ih => intro arr b; unfold loop; rw [hS g hg]; simp only [ih]
  have hch : s.tags.changed a = true := by
    have : (a.Jc != s.tags.jcTag) = true := by rw [z.1]; simpa using A.tags.1
    simp [Tags.changed, this]
  unfold State.multiSolve
  split
  · rfl
  · simp only [hch, hloop]

/-- C89: no array is deleted twice in histories without a cold initialization after a solve. -/
theorem custom_defined {s : State K B} {v : Bool} (R : Once S matOf vecOf s v) :
    (∀ warm, (v = true → warm = true) → (s.init S warm).isSome) ∧
    ∀ (junk : Nat → K) (fuel : Nat) (a : Args K) (rhs sol : List (Quad K)) (chk : Bool) (neg : Nat), Allows matOf vecOf a rhs sol →
      (s.multiSolve S matOf vecOf junk fuel a rhs sol chk neg).isSome := by
  obtain ⟨z, n, d⟩ := once_live R
  refine ⟨fun warm hw => ?_, fun junk fuel a rhs sol chk neg A => ?_⟩
  · cases warm with
    | true => simp [State.init]
    | false =>
      cases v with
      | true => simp at hw
      | false =>
        obtain ⟨a1, a2, a3, a4⟩ := d rfl
        simp [State.init, a1, a2, a3, a4, Ptr.delete]
  · rcases multiSolve_form S A junk fuel chk neg z with ⟨_, h⟩ | ⟨arr, px, ps, pc, pd, _, _, _, _, _, h⟩
    · rcases h with h | h | h | h
      · exact absurd h n.1
      · exact absurd h n.2.1
      · exact absurd h n.2.2.1
      · exact absurd h n.2.2.2
    · rw [h]; rfl

/-- C89, what is missing: a cold initialization deletes the arrays but keeps the pointers.  If the last diagonal for x was homogeneous (as it is
for problems without bounds on variables), then after two cold initializations (`PDFullSpaceSolver` and `LeastSquareMultipliers`
each initialize the same object, at the second optimization) the behaviour is undefined: the array is deleted twice. -/
theorem custom_reuse_undefined_partial {s s1 : State K B} (hz : s.tags.dxTag = 0) {a : Args K} {rhs sol : List (Quad K)} {t n : Nat} {x : K}
    (ht : a.Dx = some t) (ht0 : t ≠ 0) (hx : vecOf t = .hom n x) (junk : Nat → K) (fuel : Nat) (chk : Bool) (neg : Nat) {e : End} {out : List (Quad K)}
    (hcall : s.multiSolve S matOf vecOf junk fuel a rhs sol chk neg = some (e, out, s1)) {r : Bool × State K B}
    (hi : s1.init S false = some r) : r.2.init S false = none := by
  have live : ∃ l, s1.dx = .live l := by
    unfold State.multiSolve at hcall
    split at hcall
    · cases hcall
    dsimp only at hcall
    rename_i q l
    have hd : diagonal vecOf junk q.x.dim a.Dx s.tags.dxTag s.dx = .undef ∨
        ∃ d l, diagonal vecOf junk q.x.dim a.Dx s.tags.dxTag s.dx = .val d (.live l) := by
      unfold diagonal
      rw [ht]
      simp only [hx, hz, ne_eq, ht0, not_false_eq_true, if_true, fillFromVector]
      cases s.dx.delete with
      | none => exact Or.inl rfl
      | some _ => exact Or.inr ⟨_, _, rfl⟩
    rcases hd with h | ⟨d, l, h⟩
    · rw [h] at hcall; cases hcall
    rw [h] at hcall
    dsimp only at hcall
    split at hcall
    · cases hcall
    · cases hcall; exact ⟨_, rfl⟩
    split at hcall
    · cases hcall
    · cases hcall; exact ⟨_, rfl⟩
    split at hcall
    · cases hcall
    · cases hcall; exact ⟨_, rfl⟩
    split at hcall
    · cases hcall; exact ⟨_, rfl⟩
    unfold finish at hcall
    split at hcall
    · split at hcall <;> (cases hcall; exact ⟨_, rfl⟩)
    · cases hcall; exact ⟨_, rfl⟩
    · cases hcall; exact ⟨_, rfl⟩
  obtain ⟨l, hl⟩ := live
  unfold State.init at hi
  rw [Option.map_eq_some_iff] at hi
  obtain ⟨s2, e2, rfl⟩ := hi
  have hd : s2.dx = .dangling := by
    simp only [Bool.not_false, if_true, hl, Ptr.delete, Option.bind_some, Option.bind_eq_some_iff, Option.map_eq_some_iff] at e2
    obtain ⟨_, _, _, _, _, _, rfl⟩ := e2
    rfl
  simp [State.init, hd, Ptr.delete]

end

/-! ## Concrete cases -/

instance (o : Order) (g : Given ℚ) (y b : Nat → ℚ) (p : Nat) : Decidable (Solves o g y b p) :=
  decidable_of_iff ((∀ i, i < g.nx → _) ∧ (∀ i, i < g.nd → _) ∧ (∀ i, i < g.nc → _) ∧ ∀ i, i < g.nd → _)
    ⟨fun ⟨a, b, c, d⟩ => ⟨a, b, c, d⟩, fun ⟨a, b, c, d⟩ => ⟨a, b, c, d⟩⟩

/-- a solver that knows one answer and checks it; the parts are in the order `ord`. -/
def demoSolver (ord : Given ℚ → Order) (ans : Nat → ℚ) : Solver ℚ Unit where
  init _ b := (true, b)
  quality b := (false, b)
  solve g arr b := if ∀ i, i < g.nrhs → Solves (ord g) g ans arr (i * g.dim) then (.success, ans, b) else (.singular, arr, b)

theorem demo_contract (ord : Given ℚ → Order) (ans : Nat → ℚ) : Contract ord (demoSolver ord ans) (fun _ _ => True) where
  init _ _ _ _ := trivial
  quality _ _ _ := trivial
  solve g arr b l _ _ := by
    refine ⟨trivial, ?_, ?_⟩
    · intro h
      unfold demoSolver at h ⊢
      dsimp only at h ⊢
      split at h <;> cases h
    · intro h
      unfold demoSolver at h ⊢
      dsimp only at h ⊢
      by_cases c : ∀ i, i < g.nrhs → Solves (ord g) g ans arr (i * g.dim)
      · rw [if_pos c]; exact c
      · rw [if_neg c] at h; cases h

/-- diagonals with tags 4 (values), others (homogeneous). -/
def demoVec : Nat → Vec ℚ
  | 4 => .dense [1, 0]
  | _ => .hom 1 4

/-- x = (1, 2), c = 4, d = 5, s = 3. -/
def demoAns : Nat → ℚ := fun i => [1, 2, 4, 5, 3].getD i 0
/-- the solution of another system: right-hand sides of c and d exchanged; x = (3/10, -43/10), d = -3/5, c = 18, s = 8/5. -/
def docAns : Nat → ℚ := fun i => [3 / 10, -43 / 10, -3 / 5, 18, 8 / 5].getD i 0

/-- elements of the solution vectors. -/
def quadLists (q : Quad ℚ) : List (List ℚ) := [q.x.elems, q.s.elems, q.c.elems, q.d.elems]
/-- how the call ends, with the elements of the solutions. -/
def view (r : Option (End × List (Quad ℚ) × State ℚ Unit)) : Option (End × List (List (List ℚ))) := r.map fun r => (r.1, r.2.1.map quadLists)

theorem demo_allows : Allows demoMat demoVec demoArgs [demoRhs] [demoSol] where
  tags := by decide
  fac := Or.inr rfl
  known t := by unfold demoVec; split <;> trivial
  Dx t h := by simp [demoArgs] at h; subst h; rfl
  Ds t h := by simp [demoArgs] at h; subst h; rfl
  Dc t h := by simp [demoArgs] at h
  Dd t h := by simp [demoArgs] at h
  some := by simp
  count := rfl
  rhs q hq := by
    simp at hq; subst hq
    exact ⟨⟨trivial, rfl⟩, ⟨trivial, rfl⟩, ⟨trivial, rfl⟩, ⟨trivial, rfl⟩⟩
  sol q hq := by
    simp at hq; subst hq
    exact ⟨⟨trivial, rfl⟩, ⟨trivial, rfl⟩, ⟨trivial, rfl⟩, ⟨trivial, rfl⟩⟩

/-- a new object. -/
def demoStart : State ℚ Unit := State.start 7 ()

theorem demo_reach (ord : Given ℚ → Order) (ans : Nat → ℚ) : Reach (demoSolver ord ans) (fun _ _ => True) demoMat demoVec demoStart false ∧
    Once (demoSolver ord ans) demoMat demoVec demoStart false := ⟨.start 7 () trivial, .start 7 ()⟩

theorem demo_solve : view (demoStart.multiSolve (demoSolver Given.order demoAns) demoMat demoVec (fun _ => 9) 3 demoArgs [demoRhs] [demoSol] true 2) =
    some (.ret .success, [[[1, 2], [3], [4], [5]]]) := by decide +kernel

/-- C89, what is missing: a solver that follows the documentation of the interface (order x, d, c, s) reports success, and the result is not a
solution. -/
theorem custom_documented_order_wrong : Contract Given.docOrder (demoSolver Given.docOrder docAns) (fun _ _ => True) ∧
    view (demoStart.multiSolve (demoSolver Given.docOrder docAns) demoMat demoVec (fun _ => 9) 3 demoArgs [demoRhs] [demoSol] true 2) =
      some (.ret .success, [[[3 / 10, -43 / 10], [8 / 5], [-3 / 5], [18]]]) ∧
    ∀ q : Quad ℚ, quadLists q = [[3 / 10, -43 / 10], [8 / 5], [-3 / 5], [18]] →
      ¬ SolvesQuad (demoArgs.contents demoMat fun t => (demoVec t).elems) q demoRhs := by
  refine ⟨demo_contract _ _, by decide +kernel, fun q hq h => ?_⟩
  simp only [quadLists, List.cons.injEq, and_true] at hq
  obtain ⟨_, h2, h3, h4⟩ := hq
  have := h.s 0 (by decide)
  rw [h2, h4] at this
  revert this
  decide +kernel

/-- arguments with a homogeneous diagonal for x (tag 5). -/
def demoArgsH : Args ℚ := ⟨some 1, 1, some 5, 0, none, 0, 2, none, 0, 3, none, 0⟩

/-- after a solve with a homogeneous diagonal, a first and a second cold initialization. -/
theorem demo_double_delete :
    let s := (demoStart.multiSolve (demoSolver Given.order demoAns) demoMat (fun _ => .hom 2 4) (fun _ => 9) 3 demoArgsH [demoRhs] [demoSol] true 2).map fun r => r.2.2
    let s1 := s.bind fun s => (s.init (demoSolver Given.order demoAns) false).map Prod.snd
    s.isSome ∧ s1.isSome ∧ (s1.bind fun s => (s.init (demoSolver Given.order demoAns) false)).isNone := by decide +kernel

end Verif.GenAug
