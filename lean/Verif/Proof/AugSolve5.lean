import Verif.Proof.AugSolve4

/-! # Histories of calls: the invariant -/

namespace Verif.AugSolve
open Verif.Matrix Finset
open Verif.Triplet
open Verif.PDSystem (AugArgs kkt Aug mv mtv)

set_option linter.unusedSectionVars false
set_option linter.unusedSimpArgs false
set_option linter.unusedVariables false

variable {K B : Type} [Field K] [DecidableEq K]

/-- no tag is zero. -/
def TagsOK (a : Args K) : Prop :=
  a.Jc ≠ 0 ∧ a.Jd ≠ 0 ∧ a.W ≠ some 0 ∧ a.Dx ≠ some 0 ∧ a.Ds ≠ some 0 ∧ a.Dc ≠ some 0 ∧ a.Dd ≠ some 0

/-- the stored tags and numbers are those of `a`. -/
structure Stored (a : Args K) (s : State K B) : Prop where
  w : s.wTag = a.W.getD 0
  wf : s.wFac = a.Wfac
  dx : s.dxTag = a.Dx.getD 0
  δx : s.δx = a.δx
  ds : s.dsTag = a.Ds.getD 0
  δs : s.δs = a.δs
  jc : s.jcTag = a.Jc
  dc : s.dcTag = a.Dc.getD 0
  δc : s.δc = a.δc
  jd : s.jdTag = a.Jd
  dd : s.ddTag = a.Dd.getD 0
  δd : s.δd = a.δd

theorem tagDiffers_eq (x y : Option Nat) (hx : x ≠ some 0) (hy : y ≠ some 0) : tagDiffers x (y.getD 0) = false ↔ x = y := by
  cases x with
  | none =>
    cases y with
    | none => simp [tagDiffers]
    | some t => simp only [tagDiffers]; simp at hy ⊢; omega
  | some t =>
    cases y with
    | none => simp only [tagDiffers]; simp at hx ⊢; omega
    | some u => simp [tagDiffers]

/-- exactly the same arguments: no change. -/
theorem requiresChange_iff {s : State K B} {al a : Args K} (hs : Stored al s) (hl : TagsOK al) (ha : TagsOK a) :
    s.requiresChange a = false ↔ a = al := by
  obtain ⟨l1, l2, l3, l4, l5, l6, l7⟩ := hl
  obtain ⟨a1, a2, a3, a4, a5, a6, a7⟩ := ha
  unfold State.requiresChange
  rw [hs.w, hs.wf, hs.dx, hs.δx, hs.ds, hs.δs, hs.jc, hs.dc, hs.δc, hs.jd, hs.dd, hs.δd]
  simp only [Bool.or_eq_false_iff, tagDiffers_eq _ _ a3 l3, tagDiffers_eq _ _ a4 l4, tagDiffers_eq _ _ a5 l5, tagDiffers_eq _ _ a6 l6,
    tagDiffers_eq _ _ a7 l7, Bool.not_eq_false', beq_iff_eq, bne_eq_false_iff_eq]
  constructor
  · rintro ⟨⟨⟨⟨⟨⟨⟨⟨⟨⟨⟨e1, e2⟩, e3⟩, e4⟩, e5⟩, e6⟩, e7⟩, e8⟩, e9⟩, e10⟩, e11⟩, e12⟩
    cases a; cases al; simp_all
  · rintro rfl; simp

theorem create_stored (matOf : Nat → Mat K) (vecOf : Nat → List K) (a : Args K) (s : State K B) : Stored a (s.create matOf vecOf a) :=
  ⟨rfl, rfl, rfl, rfl, rfl, rfl, rfl, rfl, rfl, rfl, rfl, rfl⟩

/-- the matrix of the first call. -/
def firstMat (matOf : Nat → Mat K) (vecOf : Nat → List K) (f : Args K) : Mat K := kkt (.zeroSym 0) (f.contents matOf vecOf)

/-- the augmented system stored belongs to the arguments `al`, the structure to `f`. -/
structure SysOK (matOf : Nat → Mat K) (vecOf : Nat → List K) (f al : Args K) (s : State K B) : Prop where
  okf : ArgsOK (f.contents matOf vecOf)
  ok : ArgsOK (al.contents matOf vecOf)
  like : Like (f.contents matOf vecOf) (al.contents matOf vecOf)
  tags : TagsOK al
  stored : Stored al s
  W : ∃ Wf, (f.contents matOf vecOf).W = some Wf ∧ SameStructure Wf s.oldW ∧ WOK (f.contents matOf vecOf).Jc.dims.2 s.oldW ∧
    ∃ oldW, s.sys = some (kkt oldW (al.contents matOf vecOf)) ∧ SameStructure Wf ((al.contents matOf vecOf).W.getD oldW) ∧
      WOK (f.contents matOf vecOf).Jc.dims.2 ((al.contents matOf vecOf).W.getD oldW)

theorem SysOK.mat {matOf : Nat → Mat K} {vecOf : Nat → List K} {f al : Args K} {s : State K B} (h : SysOK matOf vecOf f al s) :
    ∃ oldW, s.sys = some (kkt oldW (al.contents matOf vecOf)) ∧ WOK (al.contents matOf vecOf).Jc.dims.2 ((al.contents matOf vecOf).W.getD oldW) ∧
      MatOK (firstMat matOf vecOf f) (kkt oldW (al.contents matOf vecOf)) := by
  obtain ⟨Wf, w1, w2, w3, oldW, w4, w5, w6⟩ := h.W
  have hd : (f.contents matOf vecOf).Jc.dims.2 = (al.contents matOf vecOf).Jc.dims.2 := by rw [sameStructure_dims h.like.Jc]
  rw [hd] at w6
  have hdim := kkt_dims oldW (al.contents matOf vecOf)
  refine ⟨oldW, w4, w6, ?_, kkt_supported h.ok w6, kkt_wf h.ok w6, kkt_triangle h.ok w6, by rw [hdim], fun r hr => kkt_diag h.ok r hr, ?_⟩
  · exact kkt_same h.okf h.ok h.like (by rw [w1]; exact w5)
  · rw [hdim]; have := h.ok.pos; simp only; omega

/-- what holds between calls. -/
structure Inv (E : Env K B) (Rep : B → Known K → Prop) (matOf : Nat → Mat K) (vecOf : Nat → List K) (s : State K B) (h : Hist K) : Prop where
  rep : ∃ k, Rep s.world k ∧
    ((s.lin.haveStructure = true → k.prev = some s.lin.struct) ∧
      (h.ready = true → s.lin.initialized = false → k.init = true ∧ (k.warm = true ↔ s.lin.haveStructure = true))) ∧
    (h.ready = true → s.lin.initialized = true → s.lin.haveStructure = true ∧ k.struct = some s.lin.struct ∧ k.array = none) ∧
    (h.ready = true → ∀ f al r m, h.first = some f → h.last = some (al, r) → s.sys = some m → r ≠ .no →
      LinOK E Rep (firstMat matOf vecOf f) m s.sysTag s.lin k ∧ (r = .yes → s.lin.justSwitched = true ∨ k.held.isSome ∨ k.raised = true))
  tags : 0 < s.tags ∧ s.lin.atag < s.tags ∧ s.sysTag < s.tags
  switched : s.lin.justSwitched = true → s.lin.useScaling = true
  none : h.first = none → s.sys = none ∧ h.last = none ∧ (h.ready = true → s.lin.haveStructure = false)
  some : ∀ f, h.first = some f → (∃ al r, h.last = some (al, r) ∧ SysOK matOf vecOf f al s) ∧
    (s.lin.haveStructure = true → StructOf E s.lin (firstMat matOf vecOf f)) ∧ (h.ready = true → s.lin.haveStructure = true)

variable {E : Env K B} {Rep : B → Known K → Prop} {matOf : Nat → Mat K} {vecOf : Nat → List K}

theorem inv_start (b : B) (hb : Rep b Known.fresh) : Inv E Rep matOf vecOf (State.start E b) ⟨false, none, none⟩ :=
  ⟨⟨_, hb, ⟨fun h => by simp [State.start, TSym.start] at h, fun h => by simp at h⟩, fun h => by simp at h, fun h => by simp at h⟩, by simp [State.start, TSym.start], by simp [State.start, TSym.start],
    fun _ => ⟨rfl, rfl, fun h => by simp at h⟩, fun f hf => by simp at hf⟩

/-- stored data of the linear solver that `Initialize` leaves alone. -/
theorem lin_init (C : Contract E Rep) (warm demand : Bool) (st : TSym K) (b : B) (k : Known K) (hb : Rep b k) :
    ∃ o st' b', st.init E warm demand b = (o, st', b') ∧ (∃ k', Rep b' k' ∧ ((st.haveStructure = true → k.prev = some st.struct) → st'.haveStructure = true → k'.prev = some st'.struct) ∧
        (o = some true → k'.init = true ∧ k'.warm = warm)) ∧
      (o = some true → st'.initialized = false ∧ st'.haveStructure = warm) ∧
      ((st.justSwitched = true → st.useScaling = true) → st'.justSwitched = true → st'.useScaling = true) ∧
      (st'.atag = st.atag ∨ st'.atag = 0) ∧
      (warm = true → st'.haveStructure = st.haveStructure ∧ ∀ P, StructOf E st P → StructOf E st' P) := by
  unfold TSym.init
  simp only
  have hi := C.init warm b k hb
  by_cases h1 : (!(E.initBackend warm b).1) = true
  · rw [if_pos h1]
    have h1' : (E.initBackend warm b).1 = false := by simpa using h1
    exact ⟨_, _, _, rfl, ⟨_, hi, fun hp hh => by simp only [Known.afterInit, h1']; exact hp hh, fun e => by simp at e⟩, fun e => by simp at e, fun h => h, Or.inl rfl,
      fun _ => ⟨rfl, fun P h => ⟨h.num, h.dim, h.fill, h.conv, h.nnzC⟩⟩⟩
  · rw [if_neg h1]
    have h1' : (E.initBackend warm b).1 = true := by simpa using h1
    cases warm with
    | false =>
      simp only [Bool.not_false, if_true]
      by_cases h2 : E.hasScaling = true
      · rw [if_pos h2]
        exact ⟨_, _, _, rfl, ⟨_, C.initScaling _ _ hi, fun _ hh => by simp at hh, fun _ => ⟨h1', rfl⟩⟩, fun _ => ⟨rfl, rfl⟩, fun _ h => by simp at h, Or.inr rfl, fun h => by simp at h⟩
      · rw [if_neg h2]
        exact ⟨_, _, _, rfl, ⟨_, hi, fun _ hh => by simp at hh, fun _ => ⟨h1', rfl⟩⟩, fun _ => ⟨rfl, rfl⟩, fun _ h => by simp at h, Or.inr rfl, fun h => by simp at h⟩
    | true =>
      simp only [Bool.not_true, Bool.false_eq_true, if_false]
      by_cases h3 : st.haveStructure = true
      · rw [if_pos h3]
        by_cases h2 : E.hasScaling = true
        · simp only [if_pos h2]
          exact ⟨_, _, _, rfl, ⟨_, C.initScaling _ _ hi, fun hp hh => by simp only [Known.afterInit, h1']; exact hp h3, fun _ => ⟨h1', rfl⟩⟩, fun _ => ⟨rfl, h3⟩, fun _ h => by simp at h, Or.inl rfl,
            fun _ => ⟨rfl, fun P h => ⟨h.num, h.dim, h.fill, h.conv, h.nnzC⟩⟩⟩
        · simp only [if_neg h2]
          exact ⟨_, _, _, rfl, ⟨_, hi, fun hp hh => by simp only [Known.afterInit, h1']; exact hp h3, fun _ => ⟨h1', rfl⟩⟩, fun _ => ⟨rfl, h3⟩, fun _ h => by simp at h, Or.inl rfl,
            fun _ => ⟨rfl, fun P h => ⟨h.num, h.dim, h.fill, h.conv, h.nnzC⟩⟩⟩
      · rw [if_neg h3]
        exact ⟨_, _, _, rfl, ⟨_, hi, fun hp hh => absurd hh h3, fun e => by simp at e⟩, fun e => by simp at e, fun h => h, Or.inl rfl,
          fun _ => ⟨rfl, fun P h => ⟨h.num, h.dim, h.fill, h.conv, h.nnzC⟩⟩⟩

theorem inv_init (C : Contract E Rep) {s : State K B} {h : Hist K} (I : Inv E Rep matOf vecOf s h) (warm demand : Bool) :
    Inv E Rep matOf vecOf (s.init E warm demand).2 (h.afterInit warm (s.init E warm demand).1) := by
  obtain ⟨k, hk, ⟨p1, p2⟩, _, _⟩ := I.rep
  obtain ⟨t1, t2, t3⟩ := I.tags
  cases warm with
  | false =>
    unfold State.init
    simp only [Bool.not_false, if_true]
    obtain ⟨o, st', b', e, ⟨k', r1, n1, n2⟩, r2, r3, r4, r5⟩ := lin_init C false demand s.lin s.world k hk
    rw [e]
    refine ⟨⟨k', r1, ⟨n1 p1, ?_⟩, ?_, ?_⟩, ⟨t1, ?_, t1⟩, r3 I.switched, fun _ => ⟨rfl, ?_, ?_⟩, fun f hf => ?_⟩
    · intro hr hin
      simp only [Hist.afterInit, Bool.false_eq_true, if_false, beq_iff_eq] at hr
      exact ⟨(n2 hr).1, by rw [(n2 hr).2, (r2 hr).2]⟩
    · intro hr hin
      simp only [Hist.afterInit, Bool.false_eq_true, if_false, beq_iff_eq] at hr
      exact absurd hin (by rw [(r2 hr).1]; simp)
    · intro _ f al r m hf
      simp [Hist.afterInit] at hf
    · simp only; rcases r4 with r4 | r4 <;> omega
    · simp [Hist.afterInit]
    · intro hr
      simp only [Hist.afterInit, Bool.false_eq_true, if_false, beq_iff_eq] at hr
      exact (r2 hr).2
    · simp [Hist.afterInit] at hf
  | true =>
    unfold State.init
    simp only [Bool.not_true, Bool.false_eq_true, if_false]
    by_cases hs : s.sys.isSome = true
    · rw [if_pos hs]
      obtain ⟨o, st', b', e, ⟨k', r1, n1, n2⟩, r2, r3, r4, r5⟩ := lin_init C true demand s.lin s.world k hk
      obtain ⟨r6, r7⟩ := r5 rfl
      simp only [e]
      refine ⟨⟨k', r1, ⟨n1 p1, ?_⟩, ?_, ?_⟩, ⟨t1, ?_, t3⟩, r3 I.switched, ?_, ?_⟩
      · intro hr hin
        simp only [Hist.afterInit, if_true, beq_iff_eq] at hr
        exact ⟨(n2 hr).1, by rw [(n2 hr).2, (r2 hr).2]⟩
      · intro hr hin
        simp only [Hist.afterInit, if_true, beq_iff_eq] at hr
        exact absurd hin (by rw [(r2 hr).1]; simp)
      · intro _ f al r m hf hl hm hne
        simp only [Hist.afterInit, if_true] at hl
        cases hh : h.last with
        | none => rw [hh] at hl; simp at hl
        | some p => rw [hh] at hl; simp at hl; exact absurd hl.2.symm hne
      · simp only; rcases r4 with r4 | r4 <;> omega
      · intro hf
        simp only [Hist.afterInit, if_true] at hf
        rw [(I.none hf).1] at hs; simp at hs
      · intro f hf
        simp only [Hist.afterInit, if_true] at hf
        obtain ⟨⟨al, r, hl, hS⟩, h2, h3⟩ := I.some f hf
        refine ⟨⟨al, .no, by simp [Hist.afterInit, hl], ⟨hS.okf, hS.ok, hS.like, hS.tags, ?_, hS.W⟩⟩, fun hh => r7 _ (h2 (by rw [← r6]; exact hh)), ?_⟩
        · exact ⟨hS.stored.w, hS.stored.wf, hS.stored.dx, hS.stored.δx, hS.stored.ds, hS.stored.δs, hS.stored.jc, hS.stored.dc,
            hS.stored.δc, hS.stored.jd, hS.stored.dd, hS.stored.δd⟩
        · intro hr
          simp only [Hist.afterInit, if_true, beq_iff_eq] at hr
          exact (r2 hr).2
    · rw [if_neg hs]
      refine ⟨⟨k, hk, ⟨p1, fun hr => by simp [Hist.afterInit] at hr⟩, fun hr => by simp [Hist.afterInit] at hr, fun hr => by simp [Hist.afterInit] at hr⟩, I.tags, I.switched, ?_, ?_⟩
      · intro hf
        simp only [Hist.afterInit, if_true] at hf
        obtain ⟨a1, a2, a3⟩ := I.none hf
        exact ⟨a1, by simp [Hist.afterInit, a2], fun hr => by simp [Hist.afterInit] at hr⟩
      · intro f hf
        simp only [Hist.afterInit, if_true] at hf
        obtain ⟨⟨al, r, hl, hS⟩, h2, h3⟩ := I.some f hf
        obtain ⟨oldW, q1, q2⟩ := hS.mat
        rw [q1] at hs; simp at hs

theorem inv_quality (C : Contract E Rep) {s : State K B} {h : Hist K} (I : Inv E Rep matOf vecOf s h) :
    Inv E Rep matOf vecOf (s.quality E).2 (h.afterQuality (s.quality E).1) := by
  obtain ⟨k, hk, i0, i1, i2⟩ := I.rep
  have hfirst : ∀ b, (h.afterQuality b).first = h.first := by intro b; unfold Hist.afterQuality; split <;> rfl
  have hready : ∀ b, (h.afterQuality b).ready = h.ready := by intro b; unfold Hist.afterQuality; split <;> rfl
  have hlast : ∀ b al r, (h.afterQuality b).last = some (al, r) →
      ∃ r', h.last = some (al, r') ∧ (r = .no ↔ r' = .no) ∧ (b = false → r = r') := by
    intro b al r hl
    unfold Hist.afterQuality at hl
    split at hl
    · rename_i hb
      cases hh : h.last with
      | none => rw [hh] at hl; simp at hl
      | some p =>
        rw [hh] at hl
        simp at hl
        obtain ⟨e1, e2⟩ := hl
        refine ⟨p.2, by rw [← e1], ?_, fun e => by rw [hb] at e; simp at e⟩
        rw [← e2]
        split
        · rename_i e; rw [e]; simp
        · exact Iff.rfl
    · exact ⟨r, hl, Iff.rfl, fun _ => rfl⟩
  have hlastN : ∀ b, h.last = none → (h.afterQuality b).last = none := by
    intro b e; unfold Hist.afterQuality; split
    · simp [e]
    · exact e
  have hlastS : ∀ b al r, h.last = some (al, r) → ∃ r', (h.afterQuality b).last = some (al, r') := by
    intro b al r e; unfold Hist.afterQuality; split
    · exact ⟨_, by simp [e]; rfl⟩
    · exact ⟨r, e⟩
  unfold State.quality TSym.quality
  by_cases hc : (E.hasScaling && !s.lin.useScaling && s.lin.onDemand) = true
  · simp only [if_pos hc]
    refine ⟨⟨k, hk, ?_, ?_, ?_⟩, I.tags, fun _ => rfl, ?_, ?_⟩
    · rw [hready]; exact i0
    · rw [hready]; exact i1
    · rw [hready, hfirst]
      intro hr f al r m hf hl hm hne
      obtain ⟨r', l1, l2, l3⟩ := hlast _ _ _ hl
      obtain ⟨L, _⟩ := i2 hr f al r' m hf l1 hm (fun e => hne (l2.2 e))
      exact ⟨⟨L.init, L.hav, L.struct, L.array, L.tag, fun e => by simp at e⟩, fun _ => Or.inl rfl⟩
    · rw [hfirst, hready]; intro hf
      obtain ⟨a1, a2, a3⟩ := I.none hf
      exact ⟨a1, hlastN _ a2, a3⟩
    · rw [hfirst, hready]; intro f hf
      obtain ⟨⟨al, r, hl, hS⟩, h2, h3⟩ := I.some f hf
      obtain ⟨r', hr'⟩ := hlastS true al r hl
      refine ⟨⟨al, r', hr', ⟨hS.okf, hS.ok, hS.like, hS.tags, ?_, hS.W⟩⟩, fun hh => ?_, h3⟩
      · exact ⟨hS.stored.w, hS.stored.wf, hS.stored.dx, hS.stored.δx, hS.stored.ds, hS.stored.δs, hS.stored.jc, hS.stored.dc,
            hS.stored.δc, hS.stored.jd, hS.stored.dd, hS.stored.δd⟩
      · have h := h2 hh
        exact ⟨h.num, h.dim, h.fill, h.conv, h.nnzC⟩
  · simp only [if_neg hc]
    have hq := C.quality s.world k hk
    refine ⟨⟨_, hq, ?_, ?_, ?_⟩, I.tags, I.switched, ?_, ?_⟩
    · rw [hready]; exact i0
    · rw [hready]; exact i1
    · rw [hready, hfirst]
      intro hr f al r m hf hl hm hne
      obtain ⟨r', l1, l2, l3⟩ := hlast _ _ _ hl
      obtain ⟨L, y⟩ := i2 hr f al r' m hf l1 hm (fun e => hne (l2.2 e))
      refine ⟨⟨L.init, L.hav, L.struct, L.array, L.tag, L.switched⟩, fun e => ?_⟩
      cases hb : (E.quality s.world).1 with
      | true => right; right; simp
      | false =>
        have := l3 hb
        rw [this] at e
        rcases y e with y | y | y
        · exact Or.inl y
        · exact Or.inr (Or.inl y)
        · right; right; simp [y]
    · rw [hfirst, hready]; intro hf
      obtain ⟨a1, a2, a3⟩ := I.none hf
      exact ⟨a1, hlastN _ a2, a3⟩
    · rw [hfirst, hready]; intro f hf
      obtain ⟨⟨al, r, hl, hS⟩, h2, h3⟩ := I.some f hf
      obtain ⟨r', hr'⟩ := hlastS (E.quality s.world).1 al r hl
      exact ⟨⟨al, r', hr', ⟨hS.okf, hS.ok, hS.like, hS.tags,
        ⟨hS.stored.w, hS.stored.wf, hS.stored.dx, hS.stored.δx, hS.stored.ds, hS.stored.δs, hS.stored.jc, hS.stored.dc,
            hS.stored.δc, hS.stored.jd, hS.stored.dd, hS.stored.δd⟩, hS.W⟩⟩, h2, h3⟩

end Verif.AugSolve
