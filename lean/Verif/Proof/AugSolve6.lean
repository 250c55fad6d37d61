import Verif.Proof.AugSolve5

/-! # One call of `StdAugSystemSolver::MultiSolve` -/

namespace Verif.AugSolve
open Verif.Matrix Finset
open Verif.Triplet
open Verif.PDSystem (AugArgs kkt Aug mv mtv)

set_option linter.unusedSectionVars false
set_option linter.unusedSimpArgs false
set_option linter.unusedVariables false

variable {K B : Type} [Field K] [DecidableEq K]
variable {E : Env K B} {Rep : B → Known K → Prop} {matOf : Nat → Mat K} {vecOf : Nat → List K}

theorem like_refl {c : AugArgs K} (h : ArgsOK c) : Like c c :=
  ⟨fun W hW => ⟨W, hW, sameStructure_refl _ (h.W W hW).2.2.1⟩, sameStructure_refl _ h.Jc.2.1, sameStructure_refl _ h.Jd.2.1⟩

/-- creating the system for arguments like the first ones. -/
theorem create_ok {s : State K B} {f a : Args K} (okf : ArgsOK (f.contents matOf vecOf)) (ok : ArgsOK (a.contents matOf vecOf))
    (like : Like (f.contents matOf vecOf) (a.contents matOf vecOf)) (tags : TagsOK a) {Wf : Mat K}
    (hWf : (f.contents matOf vecOf).W = some Wf)
    (hold : a.W = none → SameStructure Wf s.oldW ∧ WOK (f.contents matOf vecOf).Jc.dims.2 s.oldW) :
    SysOK matOf vecOf f a (s.create matOf vecOf a) := by
  have hd : (f.contents matOf vecOf).Jc.dims.2 = (a.contents matOf vecOf).Jc.dims.2 := by rw [sameStructure_dims like.Jc]
  have key : SameStructure Wf ((a.W.map matOf).getD s.oldW) ∧ WOK (f.contents matOf vecOf).Jc.dims.2 ((a.W.map matOf).getD s.oldW) := by
    cases hw : a.W with
    | none => simpa [hw] using hold hw
    | some t =>
      have e : (a.contents matOf vecOf).W = some (matOf t) := by simp [Args.contents, hw]
      obtain ⟨Wf', w1, w2⟩ := like.W _ e
      rw [hWf] at w1
      cases w1
      simp only [Option.map_some, Option.getD_some]
      exact ⟨w2, hd ▸ ok.WOK e⟩
  exact ⟨okf, ok, like, tags, create_stored _ _ _ _, Wf, hWf, key.1, key.2, s.oldW, rfl, key.1, key.2⟩

theorem update_ok {s : State K B} {h : Hist K} (I : Inv E Rep matOf vecOf s h) {a : Args K} {rhs sol : List (Quad K)}
    (A : h.Allows matOf vecOf a rhs sol) :
    ∃ f, h.first.or (some a) = some f ∧ SysOK matOf vecOf f a (s.update matOf vecOf a) ∧ (s.update matOf vecOf a).lin = s.lin ∧
      (s.update matOf vecOf a).world = s.world ∧
      (0 < (s.update matOf vecOf a).tags ∧ s.lin.atag < (s.update matOf vecOf a).tags ∧
        (s.update matOf vecOf a).sysTag < (s.update matOf vecOf a).tags) ∧
      ((s.update matOf vecOf a).sysTag = s.lin.atag → ∃ r, h.first = some f ∧ h.last = some (a, r) ∧ s.update matOf vecOf a = s) := by
  obtain ⟨t1, t2, t3⟩ := I.tags
  cases hf : h.first with
  | none =>
    obtain ⟨n1, n2, n3⟩ := I.none hf
    set s0 : State K B := { s with oldW := (a.W.map matOf).getD s.oldW } with hs0
    have hrc : (s0.create matOf vecOf a).requiresChange a = false :=
      (requiresChange_iff (create_stored _ _ _ _) A.tags A.tags).2 rfl
    have hu : s.update matOf vecOf a = s0.create matOf vecOf a := by
      unfold State.update
      simp only [n1, Option.isNone_none, if_true]
      rw [← n1, ← hs0, hrc]
      simp
    have hW : ∃ W, (a.contents matOf vecOf).W = some W := by
      cases hw : a.W with
      | none => exact absurd hw (A.firstW hf)
      | some t => exact ⟨matOf t, by simp [Args.contents, hw]⟩
    obtain ⟨W, hW⟩ := hW
    rw [hu]
    refine ⟨a, by simp [hf], create_ok A.ok A.ok (like_refl A.ok) A.tags hW (fun e => absurd e (A.firstW hf)), rfl, rfl, ?_, ?_⟩
    · simp only [State.create, hs0]; omega
    · intro e; simp only [State.create, hs0] at e; omega
  | some f =>
    obtain ⟨⟨al, r, hl, hS⟩, h2, h3⟩ := I.some f hf
    obtain ⟨Wf, w1, w2, w3, oldW, w4, w5⟩ := hS.W
    refine ⟨f, by simp [hf], ?_⟩
    by_cases hrc : s.requiresChange a = true
    · have hu : s.update matOf vecOf a = s.create matOf vecOf a := by
        unfold State.update
        simp [w4, hrc]
      rw [hu]
      refine ⟨create_ok hS.okf A.ok (A.like f hf) A.tags w1 (fun _ => ⟨w2, w3⟩), rfl, rfl, ?_, ?_⟩
      · simp only [State.create]; omega
      · intro e; simp only [State.create] at e; omega
    · simp only [Bool.not_eq_true] at hrc
      have hu : s.update matOf vecOf a = s := by
        unfold State.update
        simp [w4, hrc]
      have ha := (requiresChange_iff hS.stored hS.tags A.tags).1 hrc
      rw [hu, ha]
      exact ⟨hS, rfl, rfl, ⟨t1, t2, t3⟩, fun _ => ⟨r, rfl, hl, rfl⟩⟩

theorem getElem_zipWith_ofVec (sol : List (Quad K)) (out : List (Vec K)) (i : Nat) (hi : i < sol.length) (ho : i < out.length)
    (hz : i < (List.zipWith Quad.ofVec sol out).length) : (List.zipWith Quad.ofVec sol out)[i] = sol[i].ofVec out[i] := by
  simp

/-- the whole call. -/
theorem multiSolve_correct (C : Contract E Rep) {s : State K B} {h : Hist K} (I : Inv E Rep matOf vecOf s h) {a : Args K}
    {rhs sol : List (Quad K)} (A : h.Allows matOf vecOf a rhs sol) (fuel : Nat) (chk : Bool) (neg : Nat) :
    ∃ e out s2, s.multiSolve E matOf vecOf fuel a rhs sol chk neg = (e, out, s2) ∧ Inv E Rep matOf vecOf s2 (h.afterSolve a e) ∧
      (e ≠ .ret .success → out = sol) ∧
      (e = .ret .success → out.length = sol.length ∧
        ∀ i (h1 : i < rhs.length) (h2 : i < out.length), (out[i]).Dim (a.contents matOf vecOf) ∧ SolvesQuad (a.contents matOf vecOf) out[i] rhs[i]) := by
  obtain ⟨f, u1, u2, u3, u4, u5, u6⟩ := update_ok I A
  obtain ⟨k, hk, i0, i1, i2⟩ := I.rep
  obtain ⟨oldW, m1, m2, m3⟩ := u2.mat
  unfold State.multiSolve
  simp only
  set s' := s.update matOf vecOf a with hs'
  have m1' : s'.sys.getD (.zeroSym 0) = kkt oldW (a.contents matOf vecOf) := by rw [m1]; rfl
  rw [m1']
  have hdim := kkt_dims oldW (a.contents matOf vecOf)
  have quadDim : ∀ q : Quad K, q.Dim (a.contents matOf vecOf) → q.vec.known ∧ q.vec.dim = (kkt oldW (a.contents matOf vecOf)).dims.1 := by
    intro q hq
    exact ⟨Quad.vec_known hq.x.1 hq.s.1 hq.c.1 hq.d.1, by rw [Quad.vec_dim, hdim, hq.x.2, hq.s.2, hq.c.2, hq.d.2]⟩
  have hstruct : s'.lin.haveStructure = true → StructOf E s'.lin (firstMat matOf vecOf f) := by
    rw [u3]
    intro hh
    cases hf : h.first with
    | none => rw [(I.none hf).2.2 A.ready] at hh; simp at hh
    | some f' => rw [hf] at u1; cases u1; exact (I.some f hf).2.1 hh
  have hP : s'.lin.haveStructure = false → firstMat matOf vecOf f = kkt oldW (a.contents matOf vecOf) := by
    rw [u3]
    intro hh
    cases hf : h.first with
    | none =>
      rw [hf] at u1
      cases u1
      cases hw : a.W with
      | none => exact absurd hw (A.firstW hf)
      | some t => simp [firstMat, kkt, Args.contents, hw, Verif.PDSystem.kktW]
    | some f' => rw [(I.some f' hf).2.2 A.ready] at hh; simp at hh
  have hre : s'.sysTag = s'.lin.atag → s'.lin.initialized = true ∧ (s'.lin.justSwitched = true ∨
      (LinOK E Rep (firstMat matOf vecOf f) (kkt oldW (a.contents matOf vecOf)) s'.sysTag s'.lin k ∧ (k.held.isSome ∨ k.raised = true))) := by
    intro ht
    rw [u3] at ht ⊢
    obtain ⟨r, v1, v2, v3⟩ := u6 ht
    have hry := A.repeated r v2
    have hsys : s.sys = some (kkt oldW (a.contents matOf vecOf)) := by rw [← v3]; exact m1
    obtain ⟨L, y⟩ := i2 A.ready f a r _ v1 v2 hsys (by rw [hry]; simp)
    have hst : s'.sysTag = s.sysTag := by rw [v3]
    rw [hst]
    exact ⟨L.init, by
      rcases y hry with y | y
      · exact Or.inl y
      · exact Or.inr ⟨L, y⟩⟩
  have hvr : ∀ v ∈ rhs.map Quad.vec, v.known ∧ v.dim = (kkt oldW (a.contents matOf vecOf)).dims.1 := by
    intro v hv
    simp only [List.mem_map] at hv
    obtain ⟨q, hq, rfl⟩ := hv
    exact quadDim q (A.rhs q hq)
  have hvs : ∀ v ∈ sol.map Quad.vec, v.known ∧ v.dim = (kkt oldW (a.contents matOf vecOf)).dims.1 := by
    intro v hv
    simp only [List.mem_map] at hv
    obtain ⟨q, hq, rfl⟩ := hv
    exact quadDim q (A.sol q hq)
  obtain ⟨e, out, st', b', hcall, ⟨k', r1, r0, r2⟩, r3, r4, r5, r6, r7⟩ := tsym_correct C m3 fuel s'.sysTag (rhs.map Quad.vec) (sol.map Quad.vec)
    chk neg (st := s'.lin) (b := s'.world) (k := k) (by rw [u4]; exact hk) hstruct hP (by rw [u3]; exact i1 A.ready)
    (by rw [u3]; exact I.switched) hre (by rw [u3]; exact i0.1) (by rw [u3]; exact i0.2 A.ready) (by simp [A.count]) hvr hvs
  · rw [hcall]
    refine ⟨_, _, _, rfl, ?_⟩
    simp only
    refine ⟨⟨⟨k', r1, ⟨r0, ?_⟩, ?_, ?_⟩, ⟨u5.1, ?_, u5.2.2⟩, r4, ?_, ?_⟩, ?_, ?_⟩
    · intro hr hin
      simp only [Hist.afterSolve, Bool.and_eq_true] at hr
      obtain ⟨_, hr⟩ := hr
      cases e with
      | ret st =>
        obtain ⟨L, _⟩ := r2 st rfl (by simpa using hr)
        exact absurd L.init (by rw [hin]; simp)
      | throws => simp at hr
      | running => simp at hr
    · intro hr hin
      simp only [Hist.afterSolve, Bool.and_eq_true] at hr
      obtain ⟨_, hr⟩ := hr
      cases e with
      | ret st =>
        obtain ⟨L, _⟩ := r2 st rfl (by simpa using hr)
        exact ⟨L.hav, L.struct, L.array⟩
      | throws => simp at hr
      | running => simp at hr
    · intro hr f' al r m hf' hl hm hne
      simp only [Hist.afterSolve] at hf' hl
      rw [u1] at hf'
      cases hf'
      simp only [Option.some.injEq, Prod.mk.injEq] at hl
      simp only [Hist.afterSolve, Bool.and_eq_true] at hr
      obtain ⟨_, hr⟩ := hr
      simp only [m1] at hm
      cases hm
      cases e with
      | ret st =>
        obtain ⟨L, y1, y2⟩ := r2 st rfl (by simpa using hr)
        refine ⟨L, fun ey => ?_⟩
        rw [ey] at hl
        have hst : st = .success := by
          by_contra hc
          have := hl.2
          simp [hc] at this
        exact Or.inr (Or.inl (y2 hst))
      | throws => simp at hr
      | running => simp at hr
    · simp only
      rcases r5 with r5 | r5
      · rw [r5, u3]; exact u5.2.1
      · rw [r5]; exact u5.2.2
    · intro hf'
      simp only [Hist.afterSolve] at hf'
      rw [u1] at hf'
      simp at hf'
    · intro f' hf'
      simp only [Hist.afterSolve] at hf'
      rw [u1] at hf'
      cases hf'
      refine ⟨⟨a, _, rfl, ⟨u2.okf, u2.ok, u2.like, u2.tags, ?_, u2.W⟩⟩, r3, ?_⟩
      · exact ⟨u2.stored.w, u2.stored.wf, u2.stored.dx, u2.stored.δx, u2.stored.ds, u2.stored.δs, u2.stored.jc, u2.stored.dc,
            u2.stored.δc, u2.stored.jd, u2.stored.dd, u2.stored.δd⟩
      · intro hr
        simp only [Hist.afterSolve, Bool.and_eq_true] at hr
        obtain ⟨_, hr⟩ := hr
        cases e with
        | ret st => exact (r2 st rfl (by simpa using hr)).1.hav
        | throws => simp at hr
        | running => simp at hr
    · intro hne
      rw [r6 hne]
      clear r6 r7 hcall
      have : ∀ l : List (Quad K), List.zipWith Quad.ofVec l (l.map Quad.vec) = l := by
        intro l
        induction l with
        | nil => rfl
        | cons q l ih => simp [ih, Quad.ofVec_vec]
      exact this sol
    · intro he
      obtain ⟨q1, q2⟩ := r7 he
      simp only [List.length_map] at q1
      refine ⟨by simp [q1], fun i h1 h2 => ?_⟩
      simp only [List.length_zipWith, q1, Nat.min_self] at h2
      obtain ⟨p, arr, g1, g2⟩ := q2 i (by simpa using h2) (by omega) (by simpa using h1)
      simp only [List.getElem_map] at g1 g2
      rw [List.getElem_zipWith]
      exact solves_quad A.ok m2 (A.sol _ (List.getElem_mem h2)) (A.rhs _ (List.getElem_mem h1)) _ p arr _ g1 g2

theorem reach_inv (C : Contract E Rep) {s : State K B} {h : Hist K} (R : Reach E Rep matOf vecOf s h) : Inv E Rep matOf vecOf s h := by
  induction R with
  | start b hb => exact inv_start b hb
  | init warm demand _ ih => exact inv_init C ih warm demand
  | quality _ ih => exact inv_quality C ih
  | solve fuel a rhs sol chk neg _ A ih => 
    obtain ⟨e, out, s2, h1, h2, _⟩ := multiSolve_correct C ih A fuel chk neg
    rw [h1]; exact h2

end Verif.AugSolve
