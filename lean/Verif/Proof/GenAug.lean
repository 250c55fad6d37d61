import Verif.Spec.GenAug
import Verif.Props.Triplet

namespace Verif.GenAug
open Verif.Matrix
open Verif.Triplet
open Verif.AugSolve (Status End Args Quad SolvesQuad)
open Verif.PDSystem (AugArgs mv mtv)

set_option linter.unusedSectionVars false
set_option linter.unusedSimpArgs false
set_option linter.unusedVariables false

variable {K B : Type} [Field K] [DecidableEq K]

/-- dimensions of a quadruple. -/
structure QD (nx nc nd : Nat) (q : Quad K) : Prop where
  x : q.x.known ∧ q.x.dim = nx
  s : q.s.known ∧ q.s.dim = nd
  c : q.c.known ∧ q.c.dim = nc
  d : q.d.known ∧ q.d.dim = nd

/-- the right-hand side `q` is in the array at position `p`. -/
structure At (nx nc nd : Nat) (q : Quad K) (p : Nat) (b : Nat → K) : Prop where
  x : ∀ k, k < nx → b (p + k) = q.x.elems.getD k 0
  c : ∀ k, k < nc → b (p + nx + k) = q.c.elems.getD k 0
  d : ∀ k, k < nd → b (p + nx + nc + k) = q.d.elems.getD k 0
  s : ∀ k, k < nd → b (p + nx + nc + nd + k) = q.s.elems.getD k 0

theorem fillOne_spec {nx nc nd : Nat} {q : Quad K} (h : QD nx nc nd q) (p : Nat) (b : Nat → K) :
    ∃ b', fillOne nx nc nd q p b = some b' ∧ At nx nc nd q p b' ∧ ∀ k, k < p ∨ p + (nx + nd + nc + nd) ≤ k → b' k = b k := by
  obtain ⟨⟨x1, x2⟩, ⟨s1, s2⟩, ⟨c1, c2⟩, ⟨d1, d2⟩⟩ := h
  obtain ⟨b1, e1, f1, g1⟩ := fillFromVector_correct q.x x1 p b
  obtain ⟨b2, e2, f2, g2⟩ := fillFromVector_correct q.c c1 (p + nx) b1
  obtain ⟨b3, e3, f3, g3⟩ := fillFromVector_correct q.d d1 (p + nx + nc) b2
  obtain ⟨b4, e4, f4, g4⟩ := fillFromVector_correct q.s s1 (p + nx + nc + nd) b3
  rw [x2] at e1 f1 g1
  rw [c2] at e2 f2 g2
  rw [d2] at e3 f3 g3
  rw [s2] at e4 f4 g4
  refine ⟨b4, by simp only [fillOne, e1, e2, e3, e4, Option.bind_some], ⟨?_, ?_, ?_, f4⟩, ?_⟩
  · intro k hk
    rw [g4 _ (by omega), g3 _ (by omega), g2 _ (by omega), f1 k hk]
  · intro k hk
    rw [g4 _ (by omega), g3 _ (by omega), f2 k hk]
  · intro k hk
    rw [g4 _ (by omega), f3 k hk]
  · intro k hk
    rw [g4 _ (by omega), g3 _ (by omega), g2 _ (by omega), g1 _ (by omega)]

theorem At.congr {nx nc nd : Nat} {q : Quad K} {p : Nat} {b b' : Nat → K} (h : At nx nc nd q p b)
    (e : ∀ k, k < p + (nx + nd + nc + nd) → b' k = b k) : At nx nc nd q p b' where
  x k hk := by rw [e _ (by omega), h.x k hk]
  c k hk := by rw [e _ (by omega), h.c k hk]
  d k hk := by rw [e _ (by omega), h.d k hk]
  s k hk := by rw [e _ (by omega), h.s k hk]

theorem fillAll_spec {nx nc nd : Nat} : ∀ (l : List (Quad K)) (i : Nat) (b : Nat → K), (∀ q ∈ l, QD nx nc nd q) →
    ∃ b', fillAll nx nc nd l i b = some b' ∧ (∀ j (h : j < l.length), At nx nc nd l[j] ((i + j) * (nx + nd + nc + nd)) b') ∧
      ∀ k, k < i * (nx + nd + nc + nd) → b' k = b k
  | [], i, b, _ => ⟨b, rfl, fun j h => by simp at h, fun _ _ => rfl⟩
  | q :: l, i, b, hq => by
    obtain ⟨b1, e1, f1, g1⟩ := fillOne_spec (hq q (by simp)) (i * (nx + nd + nc + nd)) b
    obtain ⟨b2, e2, f2, g2⟩ := fillAll_spec l (i + 1) b1 (fun q h => hq q (by simp [h]))
    refine ⟨b2, by simp only [fillAll, e1, e2, Option.bind_some], ?_, ?_⟩
    · intro j hj
      cases j with
      | zero =>
        simp only [List.getElem_cons_zero, Nat.add_zero]
        exact f1.congr fun k hk => g2 k (by rw [Nat.add_mul]; omega)
      | succ j =>
        simp only [List.getElem_cons_succ]
        have := f2 j (by simpa using hj)
        rwa [show i + 1 + j = i + (j + 1) by omega] at this
    · intro k hk
      rw [g2 k (by rw [Nat.add_mul]; omega), g1 k (Or.inl hk)]

/-- the quadruple consists of the numbers in the array at `p`. -/
structure From (nx nc nd : Nat) (q : Quad K) (p : Nat) (b : Nat → K) : Prop where
  dim : QD nx nc nd q
  x : q.x.elems = seg b p nx
  c : q.c.elems = seg b (p + nx) nc
  d : q.d.elems = seg b (p + nx + nc) nd
  s : q.s.elems = seg b (p + nx + nc + nd) nd

theorem putOne_spec {nx nc nd : Nat} {q : Quad K} (h : QD nx nc nd q) (p : Nat) (b : Nat → K) :
    ∃ q', putOne nx nc nd q p b = some q' ∧ From nx nc nd q' p b := by
  obtain ⟨⟨x1, x2⟩, ⟨s1, s2⟩, ⟨c1, c2⟩, ⟨d1, d2⟩⟩ := h
  obtain ⟨v1, e1, f1, g1, h1⟩ := putInVector_correct q.x x1 p b
  obtain ⟨v2, e2, f2, g2, h2⟩ := putInVector_correct q.c c1 (p + nx) b
  obtain ⟨v3, e3, f3, g3, h3⟩ := putInVector_correct q.d d1 (p + nx + nc) b
  obtain ⟨v4, e4, f4, g4, h4⟩ := putInVector_correct q.s s1 (p + nx + nc + nd) b
  rw [x2] at e1 g1 h1
  rw [c2] at e2 g2 h2
  rw [d2] at e3 g3 h3
  rw [s2] at e4 g4 h4
  exact ⟨⟨v1, v4, v2, v3⟩, by simp only [putOne, e1, e2, e3, e4, Option.bind_some, Option.map_some],
    ⟨⟨f1, g1⟩, ⟨f4, g4⟩, ⟨f2, g2⟩, ⟨f3, g3⟩⟩, h1, h2, h3, h4⟩

theorem putAll_spec {nx nc nd : Nat} (b : Nat → K) : ∀ (l : List (Quad K)) (i : Nat), (∀ q ∈ l, QD nx nc nd q) →
    ∃ o, putAll nx nc nd b l i = some o ∧ o.length = l.length ∧
      ∀ j (h : j < o.length), From nx nc nd o[j] ((i + j) * (nx + nd + nc + nd)) b
  | [], i, _ => ⟨[], rfl, rfl, fun j h => by simp at h⟩
  | q :: l, i, hq => by
    obtain ⟨q1, e1, f1⟩ := putOne_spec (hq q (by simp)) (i * (nx + nd + nc + nd)) b
    obtain ⟨o, e2, g2, f2⟩ := putAll_spec b l (i + 1) (fun q h => hq q (by simp [h]))
    refine ⟨q1 :: o, by simp only [putAll, e1, e2, Option.bind_some, Option.map_some], by simp [g2], ?_⟩
    intro j hj
    cases j with
    | zero => simpa using f1
    | succ j =>
      simp only [List.getElem_cons_succ]
      have := f2 j (by simpa using hj)
      rwa [show i + 1 + j = i + (j + 1) by omega] at this

/-! ## diagonals -/

theorem diagonal_spec (vecOf : Nat → Vec K) (junk : Nat → K) (n : Nat) (D : Option Nat) (p : Ptr K)
    (h : ∀ t, D = some t → (vecOf t).known ∧ (vecOf t).dim = n ∧ t ≠ 0) :
    (p = .dangling ∧ diagonal vecOf junk n D 0 p = .undef) ∨
    ∃ p', diagonal vecOf junk n D 0 p = .val (D.map fun t => (vecOf t).elems) p' ∧ (p ≠ .dangling → p' ≠ .dangling) := by
  cases D with
  | none => exact Or.inr ⟨p, rfl, id⟩
  | some t =>
    obtain ⟨h1, h2, h3⟩ := h t rfl
    have key : ∀ v : Vec K, v.known → v.dim = n →
        (p = .dangling ∧ (match p.delete with
          | none => Got.undef
          | some _ => match fillFromVector v n 0 junk with
            | none => .throws
            | some b => .val (some ((List.range n).map b)) (.live ((List.range n).map b))) = .undef) ∨
        ∃ p', (match p.delete with
          | none => Got.undef
          | some _ => match fillFromVector v n 0 junk with
            | none => .throws
            | some b => .val (some ((List.range n).map b)) (.live ((List.range n).map b))) = .val (some v.elems) p' ∧
          (p ≠ .dangling → p' ≠ .dangling) := by
      intro v hv hn
      obtain ⟨b, e, f, _⟩ := fillFromVector_correct v hv 0 junk
      have el : (List.range n).map b = v.elems := by
        refine List.ext_getElem (by simp [vec_elems_length v hv, hn]) fun i i1 i2 => ?_
        have i3 : i < v.dim := by simpa [hn] using i1
        have := f i i3
        rw [Nat.zero_add, List.getD_eq_getElem _ _ i2] at this
        simp [this]
      rw [hn] at e
      cases p with
      | dangling => exact Or.inl ⟨rfl, rfl⟩
      | null => right; simp only [Ptr.delete, e, el]; exact ⟨_, rfl, by simp⟩
      | live a => right; simp only [Ptr.delete, e, el]; exact ⟨_, rfl, by simp⟩
    unfold diagonal
    cases hv : vecOf t with
    | dense v => right; simp only [hv, Option.map_some, Vec.elems]; exact ⟨p, rfl, id⟩
    | hom d x => simp only [ne_eq, h3, not_false_eq_true, if_true, Option.map_some, hv]; exact key _ (hv ▸ h1) (hv ▸ h2)
    | comp k c => simp only [ne_eq, h3, not_false_eq_true, if_true, Option.map_some, hv]; exact key _ (hv ▸ h1) (hv ▸ h2)
    | other d => rw [hv] at h1; exact h1.elim

/-! ## the loop -/

theorem loop_spec {S : Solver K B} {Rep : B → Option (Given K) → Prop} (C : Contract Given.order S Rep) {g : Given K} (hg : g.new = true) :
    ∀ (fuel : Nat) (arr : Nat → K) (b : B) (l), Rep b l →
      (∃ l, Rep (loop S g fuel arr b).2.2 l) ∧
      ((loop S g fuel arr b).1 = .ret .success → ∀ i, i < g.nrhs → Solves g.order g (loop S g fuel arr b).2.1 arr (i * g.dim))
  | 0, arr, b, l, h => ⟨⟨l, h⟩, fun e => by simp [loop] at e⟩
  | fuel + 1, arr, b, l, h => by
    obtain ⟨c1, c2, c3⟩ := C.solve g arr b l h (fun e => by rw [hg] at e; cases e)
    unfold loop
    by_cases ha : (S.solve g arr b).1 = .callAgain
    · simp only [ha, if_true]
      rw [c2 ha]
      exact loop_spec C hg fuel arr _ _ c1
    · simp only [ha, if_false]
      exact ⟨⟨_, c1⟩, fun e => c3 (by simpa using e)⟩

/-- the loop does not return CALL_AGAIN. -/
theorem loop_ret (S : Solver K B) (g : Given K) : ∀ (fuel : Nat) (arr : Nat → K) (b : B), (loop S g fuel arr b).1 ≠ .ret .callAgain
  | 0, arr, b => by simp [loop]
  | fuel + 1, arr, b => by
    unfold loop
    by_cases ha : (S.solve g arr b).1 = .callAgain
    · simp only [ha, if_true]; exact loop_ret S g fuel _ _
    · simp only [ha, if_false]
      simpa using ha

/-! ## `MultiSolve` -/

/-- the stored tags are those of the constructor. -/
def Tags.Zero (t : Tags K) : Prop := t.jcTag = 0 ∧ t.dxTag = 0 ∧ t.dsTag = 0 ∧ t.dcTag = 0 ∧ t.ddTag = 0

/-- the arguments the user's solver has to get. -/
def givenOf (matOf : Nat → Mat K) (vecOf : Nat → Vec K) (a : Args K) (nrhs : Nat) (chk : Bool) (neg : Nat) : Given K :=
  ⟨true, (matOf a.Jc).dims.2, (matOf a.Jc).dims.1, (matOf a.Jd).dims.1, a.W.bind fun w => if a.Wfac = 1 then some (matOf w) else none,
    matOf a.Jc, matOf a.Jd, a.Dx.map fun t => (vecOf t).elems, a.Ds.map fun t => (vecOf t).elems, a.Dc.map fun t => (vecOf t).elems,
    a.Dd.map fun t => (vecOf t).elems, a.δx, a.δs, a.δc, a.δd, nrhs, chk, neg⟩

theorem multiSolve_form (S : Solver K B) {matOf : Nat → Mat K} {vecOf : Nat → Vec K} {a : Args K} {rhs sol : List (Quad K)}
    (A : Allows matOf vecOf a rhs sol) (junk : Nat → K) (fuel : Nat) (chk : Bool) (neg : Nat) {s : State K B} (hs : s.tags.Zero) :
    (s.multiSolve S matOf vecOf junk fuel a rhs sol chk neg = none ∧
      (s.dx = .dangling ∨ s.ds = .dangling ∨ s.dc = .dangling ∨ s.dd = .dangling)) ∨
    ∃ arr px ps pc pd, fillAll (matOf a.Jc).dims.2 (matOf a.Jc).dims.1 (matOf a.Jd).dims.1 rhs 0 junk = some arr ∧
      (s.dx ≠ .dangling → px ≠ .dangling) ∧ (s.ds ≠ .dangling → ps ≠ .dangling) ∧ (s.dc ≠ .dangling → pc ≠ .dangling) ∧
      (s.dd ≠ .dangling → pd ≠ .dangling) ∧
      s.multiSolve S matOf vecOf junk fuel a rhs sol chk neg = some (finish sol
        (putAll (matOf a.Jc).dims.2 (matOf a.Jc).dims.1 (matOf a.Jd).dims.1 (loop S (givenOf matOf vecOf a rhs.length chk neg) fuel arr s.world).2.1 sol 0)
        ⟨s.tags, px, ps, pc, pd, (loop S (givenOf matOf vecOf a rhs.length chk neg) fuel arr s.world).2.2⟩
        (loop S (givenOf matOf vecOf a rhs.length chk neg) fuel arr s.world).1) := by
  obtain ⟨z1, z2, z3, z4, z5⟩ := hs
  obtain ⟨t1, t2, t3, t4, t5⟩ := A.tags
  have hch : s.tags.changed a = true := by
    have : (a.Jc != s.tags.jcTag) = true := by rw [z1]; simpa using t1
    simp [Tags.changed, this]
  match hr : rhs with
  | [] => exact absurd rfl A.some
  | q :: l =>
    have hq := A.rhs q (by simp)
    have n1 : q.x.dim = (matOf a.Jc).dims.2 := hq.x.2
    have n2 : q.c.dim = (matOf a.Jc).dims.1 := hq.c.2
    have n3 : q.d.dim = (matOf a.Jd).dims.1 := hq.d.2
    obtain ⟨arr, hf, _, _⟩ := fillAll_spec (nx := (matOf a.Jc).dims.2) (nc := (matOf a.Jc).dims.1) (nd := (matOf a.Jd).dims.1) (q :: l) 0 junk
      (fun q h => ⟨(A.rhs q h).x, (A.rhs q h).s, (A.rhs q h).c, (A.rhs q h).d⟩)
    unfold State.multiSolve
    simp only [n1, n2, n3, z2, z3, z4, z5, hch]
    rcases diagonal_spec vecOf junk (matOf a.Jc).dims.2 a.Dx s.dx (fun t e => ⟨A.known t, A.Dx t e, fun h => t2 (h ▸ e)⟩) with ⟨d1, e1⟩ | ⟨px, e1, d1⟩
    · left; rw [e1]; exact ⟨rfl, Or.inl d1⟩
    rw [e1]; dsimp only
    rcases diagonal_spec vecOf junk (matOf a.Jd).dims.1 a.Ds s.ds (fun t e => ⟨A.known t, A.Ds t e, fun h => t3 (h ▸ e)⟩) with ⟨d2, e2⟩ | ⟨ps, e2, d2⟩
    · left; rw [e2]; exact ⟨rfl, Or.inr (Or.inl d2)⟩
    rw [e2]; dsimp only
    rcases diagonal_spec vecOf junk (matOf a.Jc).dims.1 a.Dc s.dc (fun t e => ⟨A.known t, A.Dc t e, fun h => t4 (h ▸ e)⟩) with ⟨d3, e3⟩ | ⟨pc, e3, d3⟩
    · left; rw [e3]; exact ⟨rfl, Or.inr (Or.inr (Or.inl d3))⟩
    rw [e3]; dsimp only
    rcases diagonal_spec vecOf junk (matOf a.Jd).dims.1 a.Dd s.dd (fun t e => ⟨A.known t, A.Dd t e, fun h => t5 (h ▸ e)⟩) with ⟨d4, e4⟩ | ⟨pd, e4, d4⟩
    · left; rw [e4]; exact ⟨rfl, Or.inr (Or.inr (Or.inr d4))⟩
    rw [e4]; dsimp only
    right
    refine ⟨arr, px, ps, pc, pd, hf, d1, d2, d3, d4, ?_⟩
    rw [hf]
    rfl

theorem reach_tags {S : Solver K B} {Rep : B → Option (Given K) → Prop} {matOf : Nat → Mat K} {vecOf : Nat → Vec K} (C : Contract Given.order S Rep)
    {s : State K B} {v : Bool} (R : Reach S Rep matOf vecOf s v) : s.tags.Zero ∧ ∃ l, Rep s.world l := by
  induction R with
  | start junk b hb => exact ⟨⟨rfl, rfl, rfl, rfl, rfl⟩, none, hb⟩
  | @init s v warm r R e ih =>
    obtain ⟨z, l, hl⟩ := ih
    unfold State.init at e
    rw [Option.map_eq_some_iff] at e
    obtain ⟨s1, e1, rfl⟩ := e
    have : s1.tags = s.tags ∧ s1.world = s.world := by
      split at e1
      · simp only [Option.bind_eq_some_iff, Option.map_eq_some_iff] at e1
        obtain ⟨_, _, _, _, _, _, _, _, rfl⟩ := e1
        exact ⟨rfl, rfl⟩
      · simp only [Option.some.injEq] at e1; subst e1; exact ⟨rfl, rfl⟩
    refine ⟨by show s1.tags.Zero; rw [this.1]; exact z, none, ?_⟩
    show Rep (S.init warm s1.world).2 none
    rw [this.2]; exact C.init _ _ _ hl
  | quality R ih =>
    obtain ⟨z, l, hl⟩ := ih
    exact ⟨z, l, C.quality _ _ hl⟩
  | @solve s v junk fuel a rhs sol chk neg r R A e ih =>
    obtain ⟨z, l, hl⟩ := ih
    rcases multiSolve_form S A junk fuel chk neg z with ⟨h, _⟩ | ⟨arr, px, ps, pc, pd, _, _, _, _, _, h⟩
    · rw [h] at e; cases e
    · rw [h] at e
      simp only [Option.some.injEq] at e
      have key := (loop_spec C (g := givenOf matOf vecOf a rhs.length chk neg) rfl fuel arr s.world l hl).1
      have : ∀ (o) (st : State K B) (x : End), (finish sol o st x).2.2 = st := by
        intro o st x; unfold finish; split <;> try rfl
        split <;> rfl
      rw [← e, this]
      exact ⟨z, key⟩

theorem once_live {S : Solver K B} {matOf : Nat → Mat K} {vecOf : Nat → Vec K}
    {s : State K B} {v : Bool} (R : Once S matOf vecOf s v) :
    s.tags.Zero ∧ (s.dx ≠ .dangling ∧ s.ds ≠ .dangling ∧ s.dc ≠ .dangling ∧ s.dd ≠ .dangling) ∧
      (v = false → s.dx = .null ∧ s.ds = .null ∧ s.dc = .null ∧ s.dd = .null) := by
  induction R with
  | start junk b => exact ⟨⟨rfl, rfl, rfl, rfl, rfl⟩, by simp [State.start], fun _ => ⟨rfl, rfl, rfl, rfl⟩⟩
  | @init s v warm r R hw e ih =>
    obtain ⟨z, n, d⟩ := ih
    unfold State.init at e
    rw [Option.map_eq_some_iff] at e
    obtain ⟨s1, e1, rfl⟩ := e
    cases v with
    | true => rw [hw rfl] at e1; simp at e1; subst e1; exact ⟨z, n, d⟩
    | false =>
      obtain ⟨a1, a2, a3, a4⟩ := d rfl
      have : s1 = s := by
        split at e1
        · rw [a1, a2, a3, a4] at e1
          simp only [Ptr.delete, Option.bind_some, Option.map_some, Option.some.injEq] at e1
          rw [← e1]
          cases s
          simp only at a1 a2 a3 a4
          subst a1 a2 a3 a4
          rfl
        · simpa using e1.symm
      subst this
      exact ⟨z, n, d⟩
  | quality R ih => exact ih
  | @solve s v junk fuel a rhs sol chk neg r R A e ih =>
    obtain ⟨z, n, d⟩ := ih
    rcases multiSolve_form S A junk fuel chk neg z with ⟨h, _⟩ | ⟨arr, px, ps, pc, pd, _, h1, h2, h3, h4, h⟩
    · rw [h] at e; cases e
    · rw [h] at e
      simp only [Option.some.injEq] at e
      have : ∀ (o) (st : State K B) (x : End), (finish sol o st x).2.2 = st := by
        intro o st x; unfold finish; split <;> try rfl
        split <;> rfl
      rw [← e, this]
      exact ⟨z, ⟨h1 n.1, h2 n.2.1, h3 n.2.2.1, h4 n.2.2.2⟩, fun e => by cases e⟩

end Verif.GenAug
