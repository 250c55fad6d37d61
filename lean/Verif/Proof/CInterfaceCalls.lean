import Verif.Proof.CInterface

set_option linter.unusedSectionVars false
set_option linter.unusedSimpArgs false
set_option linter.unusedVariables false

/-! # Results and callback calls of the C interface -/

namespace Verif.CInterface

variable {K : Type}

/-! ### Copying results -/

/-- The array starts with these values (if there is an array). -/
def Filled (h : Heap K) (n : Int) (v : List K) (p : Ptr) : Prop := ∀ a, p = some a → (h a).take n.toNat = v

/-- Two arguments do not point to the same array. -/
def Apart (p p' : Ptr) : Prop := ∀ a, p = some a → p' ≠ some a

theorem copyOut_filled (h : Heap K) (n : Int) (v : List K) (p : Ptr) (hv : v.length = n.toNat) : Filled (copyOut h n v p) n v p := by
  rintro a rfl
  simp [copyOut, ← hv]

theorem copyOut_keeps (h : Heap K) (n n' : Int) (v v' : List K) (p p' : Ptr) (hf : Filled h n v p) (ha : Apart p p') :
    Filled (copyOut h n' v' p') n v p := by
  rintro a rfl
  have h' := ha a rfl
  cases p' with
  | none => exact hf a rfl
  | some b =>
    have : a ≠ b := by rintro rfl; exact h' rfl
    simp only [copyOut, if_neg this]
    exact hf a rfl

theorem copyOut_other (h : Heap K) (n : Int) (v : List K) (p : Ptr) (b : Nat) (hb : p ≠ some b) : copyOut h n v p b = h b := by
  cases p with
  | none => rfl
  | some a =>
    have : b ≠ a := by rintro rfl; exact hb rfl
    simp [copyOut, if_neg this]

/-- Requests that only ask for data of the problem. -/
def Req.isQuery : Req K → Bool
  | .info | .bounds | .scaling | .start _ _ _ => true
  | _ => false

theorem serve_query_heap (user : User K) (s : Rt K) (q : Req K) (hq : q.isQuery = true) : (serve user s q).2.h = s.h := by
  cases q <;> simp_all [Req.isQuery, serve]

/-- The outcome of the last `finalize_solution`. -/
theorem exec_final (user : User K) (sv : Solver K) (t : T K) (h : Heap K) (cs : List (Call K)) (x zL zU g lam : List K) (obj : K)
    (hx : x.length = t.n.toNat) (hzL : zL.length = t.n.toNat) (hzU : zU.length = t.n.toNat) (hg : g.length = t.m.toNat)
    (hl : lam.length = t.m.toNat) (hd : [t.xSol, t.zLSol, t.zUSol, t.gSol, t.lamSol, t.objSol].Pairwise Apart)
    (pre post : List (Req K × Ans K)) (r : Ans K)
    (hqa : (exec user sv ⟨t, h, cs, []⟩).2.qa = pre ++ (.finalize x zL zU g lam obj, r) :: post) (hpre : ∀ p ∈ pre, p.1.isQuery = true) :
    let h' := (exec user sv ⟨t, h, cs, []⟩).2.h
    Filled h' t.n x t.xSol ∧ Filled h' t.n zL t.zLSol ∧ Filled h' t.n zU t.zUSol ∧ Filled h' t.m g t.gSol ∧ Filled h' t.m lam t.lamSol ∧
      Filled h' 1 [obj] t.objSol := by
  have key := exec_inv user (fun s => Same t s.t ∧ ∀ pre r post, s.qa = pre ++ (.finalize x zL zU g lam obj, r) :: post →
      (∀ p ∈ pre, p.1.isQuery = true) →
      Filled s.h t.n x t.xSol ∧ Filled s.h t.n zL t.zLSol ∧ Filled s.h t.n zU t.zUSol ∧ Filled s.h t.m g t.gSol ∧
        Filled s.h t.m lam t.lamSol ∧ Filled s.h 1 [obj] t.objSol)
    (by
      rintro s q ⟨hs, ih⟩
      refine ⟨hs.trans (serve_same user s q), ?_⟩
      intro pre r post he hp
      simp only [tick, serve_qa] at he ⊢
      rcases pre with _ | ⟨p0, pre⟩
      · simp only [List.nil_append, List.cons.injEq, Prod.mk.injEq] at he
        obtain ⟨⟨rfl, -⟩, -⟩ := he
        simp only [serve]
        rw [hs.n, hs.m, hs.xSol, hs.zLSol, hs.zUSol, hs.gSol, hs.lamSol, hs.objSol]
        simp only [List.pairwise_cons, List.mem_cons, List.not_mem_nil, or_false, forall_eq_or_imp, forall_eq] at hd
        obtain ⟨⟨d1, d2, d3, d4, d5⟩, ⟨e1, e2, e3, e4⟩, ⟨f1, f2, f3⟩, ⟨g1, g2⟩, i1, -⟩ := hd
        refine ⟨?_, ?_, ?_, ?_, ?_, ?_⟩
        · exact copyOut_keeps _ _ _ _ _ _ _ (copyOut_keeps _ _ _ _ _ _ _ (copyOut_keeps _ _ _ _ _ _ _ (copyOut_keeps _ _ _ _ _ _ _
            (copyOut_keeps _ _ _ _ _ _ _ (copyOut_filled _ _ _ _ hx) d1) d2) d3) d4) d5
        · exact copyOut_keeps _ _ _ _ _ _ _ (copyOut_keeps _ _ _ _ _ _ _ (copyOut_keeps _ _ _ _ _ _ _ (copyOut_keeps _ _ _ _ _ _ _
            (copyOut_filled _ _ _ _ hzL) e1) e2) e3) e4
        · exact copyOut_keeps _ _ _ _ _ _ _ (copyOut_keeps _ _ _ _ _ _ _ (copyOut_keeps _ _ _ _ _ _ _ (copyOut_filled _ _ _ _ hzU) f1) f2) f3
        · exact copyOut_keeps _ _ _ _ _ _ _ (copyOut_keeps _ _ _ _ _ _ _ (copyOut_filled _ _ _ _ hg) g1) g2
        · exact copyOut_keeps _ _ _ _ _ _ _ (copyOut_filled _ _ _ _ hl) i1
        · exact copyOut_filled _ _ _ _ rfl
      · simp only [List.cons_append, List.cons.injEq] at he
        obtain ⟨rfl, he⟩ := he
        have hq : q.isQuery = true := hp _ (List.mem_cons_self ..)
        rw [serve_query_heap user s q hq]
        exact ih pre r post he (fun p hp' => hp p (List.mem_cons_of_mem _ hp')))
    sv ⟨t, h, cs, []⟩ ⟨Same.refl t, by intro pre r post he; simp at he⟩
  exact key.2 pre r post hqa hpre

/-- What a request does to the caller's arrays, if the callbacks do not write to them. -/
theorem serve_heap (user : User K) (hu : ∀ cs h, (user cs h).2 = h) (s : Rt K) (q : Req K) :
    (∀ x zL zU g lam obj, q ≠ .finalize x zL zU g lam obj) → (serve user s q).2.h = s.h := by
  intro hn
  cases q with
  | finalize x zL zU g lam obj => exact absurd rfl (hn _ _ _ _ _ _)
  | interm a b c d =>
    unfold serve; simp only
    split
    · rfl
    · exact hu _ _
  | evalF x nx => exact hu _ _
  | evalGradF x nx => exact hu _ _
  | evalG x nx => exact hu _ _
  | evalJacG x nx => exact hu _ _
  | evalH x nx o lam nl => exact hu _ _
  | _ => rfl

/-! ### The sequence of callback calls -/

/-- Requests that reach the user. -/
def reaches (interm : Bool) (q : Req K) : Bool := q.point.isSome || (q.isInterm && interm)

/-- The right function with the right arguments, in terms of the TNLP. -/
def RightCall (t : T K) (c : Call K) : Prop :=
  match c.req with
  | .evalF _ b => c.fn = t.evalF.getD 0 ∧ c.newX = b
  | .evalGradF _ b => c.fn = t.evalGradF.getD 0 ∧ c.newX = b
  | .evalG _ b => c.fn = t.evalG.getD 0 ∧ c.newX = b
  | .evalJacG _ b => c.fn = t.evalJacG.getD 0 ∧ c.newX = b
  | .evalH _ b _ lam _ => c.fn = t.evalH.getD 0 ∧ c.newX = b ∧ c.lambda = lam.map (·.take t.m.toNat)
  | .interm _ _ _ _ => t.interm = some c.fn
  | _ => False

theorem newCall_right (t : T K) (s : Rt K) (hs : Same t s.t) (hl : s.t.live = false) (q : Req K) :
    (∀ c ∈ newCall s q, RightCall t c ∧ c.userData = t.userData ∧ c.live = c.req.isInterm) ∧
      (newCall s q).map (·.req) = [q].filter (reaches t.interm.isSome) := by
  cases q with
  | interm a b c d =>
    unfold newCall
    simp only
    split
    · rename_i h
      rw [hs.interm] at h
      simp [reaches, Req.point, Req.isInterm, h]
    · rename_i fn h
      rw [hs.interm] at h
      simp [reaches, Req.point, Req.isInterm, h, RightCall, hs.userData]
  | evalF x nx => simp [newCall, reaches, Req.point, RightCall, Req.isInterm, hs.evalF, hs.userData, hl]
  | evalGradF x nx => simp [newCall, reaches, Req.point, RightCall, Req.isInterm, hs.evalGradF, hs.userData, hl]
  | evalG x nx => simp [newCall, reaches, Req.point, RightCall, Req.isInterm, hs.evalG, hs.userData, hl]
  | evalJacG x nx => simp [newCall, reaches, Req.point, RightCall, Req.isInterm, hs.evalJacG, hs.userData, hl]
  | evalH x nx o lam nl => simp [newCall, reaches, Req.point, RightCall, Req.isInterm, hs.evalH, hs.userData, hs.m, hl]
  | info => simp [newCall, reaches, Req.point, Req.isInterm]
  | bounds => simp [newCall, reaches, Req.point, Req.isInterm]
  | scaling => simp [newCall, reaches, Req.point, Req.isInterm]
  | start a b c => simp [newCall, reaches, Req.point, Req.isInterm]
  | finalize x zL zU g lam obj => simp [newCall, reaches, Req.point, Req.isInterm]

/-- The calls of a run: one per request that concerns the user, in order, each the right one. -/
theorem exec_callbacks (user : User K) (sv : Solver K) (t : T K) (hl : t.live = false) (h : Heap K) (cs0 : List (Call K)) :
    ∃ cs, (exec user sv ⟨t, h, cs0, []⟩).2.calls = cs ++ cs0 ∧
      (∀ c ∈ cs, RightCall t c ∧ c.userData = t.userData ∧ c.live = c.req.isInterm) ∧
      cs.map (·.req) = ((exec user sv ⟨t, h, cs0, []⟩).2.qa.map (·.1)).filter (reaches t.interm.isSome) := by
  have := exec_inv user (fun s => Same t s.t ∧ s.t.live = false ∧ ∃ cs, s.calls = cs ++ cs0 ∧
      (∀ c ∈ cs, RightCall t c ∧ c.userData = t.userData ∧ c.live = c.req.isInterm) ∧
      cs.map (·.req) = (s.qa.map (·.1)).filter (reaches t.interm.isSome))
    (by
      rintro s q ⟨hs, hl, cs, h1, h2, h3⟩
      obtain ⟨n1, n2⟩ := newCall_right t s hs hl q
      refine ⟨hs.trans (serve_same user s q), serve_live user s q hl, newCall s q ++ cs, ?_, ?_, ?_⟩
      · simp only [tick, serve_calls, h1, List.append_assoc]
      · intro c hc
        rcases List.mem_append.1 hc with hc | hc
        · exact n1 c hc
        · exact h2 c hc
      · simp only [tick, serve_qa, List.map_append, List.map_cons, n2, h3]
        rw [← List.filter_append]; rfl)
    sv ⟨t, h, cs0, []⟩ ⟨Same.refl t, hl, [], rfl, by simp, by simp⟩
  exact this.2.2

theorem lastNew_filter (b : Bool) (qs : List (Req K)) : lastNew (qs.filter (reaches b)) = lastNew qs := by
  induction qs with
  | nil => rfl
  | cons q qs ih =>
    rw [List.filter_cons]
    by_cases hr : reaches b q = true
    · rw [if_pos hr]; simp only [lastNew]; rw [ih]
    · rw [if_neg hr, ih]
      have : q.point = none := by
        cases hp : q.point with
        | none => rfl
        | some v => simp [reaches, hp] at hr
      simp [lastNew, this]

/-- The array `x` handed to each callback: the last point announced as new. -/
theorem exec_x (user : User K) (hp : Polite user) (sv : Solver K) (t : T K) (hb : t.buf = none) (h : Heap K) (cs0 : List (Call K)) :
    ∃ cs, (exec user sv ⟨t, h, cs0, []⟩).2.calls = cs ++ cs0 ∧
      (∀ pre c post, cs = pre ++ c :: post → c.req.isInterm = false →
        c.x = (lastNew (c.req :: post.map (·.req))).map (·.take t.n.toNat)) := by
  have := exec_inv user (fun s => Same t s.t ∧ ∃ cs, s.calls = cs ++ cs0 ∧
      s.t.buf = (lastNew (cs.map (·.req))).map (·.take t.n.toNat) ∧
      (∀ pre c post, cs = pre ++ c :: post → c.req.isInterm = false →
        c.x = (lastNew (c.req :: post.map (·.req))).map (·.take t.n.toNat)))
    (by
      rintro s q ⟨hs, cs, h1, h2, h3⟩
      refine ⟨hs.trans (serve_same user s q), newCall s q ++ cs, by simp only [tick, serve_calls, h1, List.append_assoc], ?_, ?_⟩
      · simp only [tick]
        rw [serve_buf user hp]
        obtain hq | ⟨c, hc, hcr, hcx⟩ : newCall s q = [] ∨ ∃ c, newCall s q = [c] ∧ c.req = q ∧ True := by
          cases q with
          | interm a b c d =>
            unfold newCall; simp only
            split
            · exact Or.inl rfl
            · exact Or.inr ⟨_, rfl, rfl, trivial⟩
          | evalF x nx => exact Or.inr ⟨_, rfl, rfl, trivial⟩
          | evalGradF x nx => exact Or.inr ⟨_, rfl, rfl, trivial⟩
          | evalG x nx => exact Or.inr ⟨_, rfl, rfl, trivial⟩
          | evalJacG x nx => exact Or.inr ⟨_, rfl, rfl, trivial⟩
          | evalH x nx o lam nl => exact Or.inr ⟨_, rfl, rfl, trivial⟩
          | _ => exact Or.inl rfl
        · rw [hq, List.nil_append]
          have hpt : q.point = none := by
            cases q <;> first | rfl | (simp [newCall] at hq)
          rw [hpt]; exact h2
        · rw [hc]
          simp only [List.cons_append, List.nil_append, List.map_cons, hcr, lastNew]
          rcases hpt : q.point with _ | ⟨x, _ | _⟩
          · exact h2
          · exact h2
          · simp only [hs.n]
      · intro pre c post he hi
        rcases hn : newCall s q with _ | ⟨c', rest⟩
        · rw [hn, List.nil_append] at he; exact h3 pre c post he hi
        · have hrest : rest = [] := by
            cases q with
            | interm a b c d =>
              unfold newCall at hn; simp only at hn
              split at hn
              · cases hn
              · cases hn; rfl
            | evalF x nx => cases hn; rfl
            | evalGradF x nx => cases hn; rfl
            | evalG x nx => cases hn; rfl
            | evalJacG x nx => cases hn; rfl
            | evalH x nx o lam nl => cases hn; rfl
            | _ => cases hn
          subst hrest
          rw [hn] at he
          rcases pre with _ | ⟨p0, pre⟩
          · simp only [List.cons_append, List.nil_append, List.cons.injEq] at he
            obtain ⟨rfl, rfl⟩ := he
            have hgen : ∀ (x : Option (List K)) nx, (applyNewX s.t nx x).buf = match nx with
                | true => x.map (·.take t.n.toNat)
                | false => s.t.buf := by
              intro x nx
              cases nx
              · rfl
              · simp [applyNewX, hs.n]
            cases q with
            | interm a b c d =>
              unfold newCall at hn; simp only at hn
              split at hn
              · cases hn
              · cases hn; simp [Req.isInterm] at hi
            | evalF x nx => cases hn; simp only [lastNew, Req.point]; rw [hgen]; cases nx <;> simp [h2]
            | evalGradF x nx => cases hn; simp only [lastNew, Req.point]; rw [hgen]; cases nx <;> simp [h2]
            | evalG x nx => cases hn; simp only [lastNew, Req.point]; rw [hgen]; cases nx <;> simp [h2]
            | evalJacG x nx => cases hn; simp only [lastNew, Req.point]; rw [hgen]; cases nx <;> simp [h2]
            | evalH x nx o lam nl => cases hn; simp only [lastNew, Req.point]; rw [hgen]; cases nx <;> simp [h2]
            | _ => cases hn
          · simp only [List.cons_append, List.nil_append, List.cons.injEq] at he
            exact h3 pre c post he.2 hi)
    sv ⟨t, h, cs0, []⟩ ⟨Same.refl t, [], rfl, by simp [hb, lastNew], by intro pre c post he; simp at he⟩
  obtain ⟨-, cs, h1, -, h3⟩ := this
  exact ⟨cs, h1, h3⟩

/-- Points of a list of requests. -/
def ptsR (qs : List (Req K)) : List (List K × Bool) :=
  qs.filterMap fun q => match q.point with
    | some (some x, b) => some (x, b)
    | _ => none

theorem points_eq (qa : List (Req K × Ans K)) : points qa = ptsR (qa.map (·.1)) := by
  simp only [points, ptsR, List.filterMap_map]; rfl

theorem ptsR_filter (b : Bool) (qs : List (Req K)) : ptsR (qs.filter (reaches b)) = ptsR qs := by
  induction qs with
  | nil => rfl
  | cons q qs ih =>
    rw [List.filter_cons]
    by_cases hr : reaches b q = true
    · rw [if_pos hr]; simp only [ptsR, List.filterMap_cons] at ih ⊢; rw [ih]
    · rw [if_neg hr, ih]
      have : q.point = none := by
        cases hp : q.point with
        | none => rfl
        | some v => simp [reaches, hp] at hr
      simp [ptsR, List.filterMap_cons, this]

open AdapterEval in
theorem flagsLast_suffix (a b : List (List K × Bool)) (h : FlagsLast (a ++ b)) : FlagsLast b := by
  intro pre post x he
  exact h (a ++ pre) post x (by rw [he, List.append_assoc])

open AdapterEval in
/-- If flags are right, the last announced point is the requested one. -/
theorem lastNew_of_flags (n : Int) (qs : List (Req K)) (hs : ∀ q ∈ qs, Sane n q) (hf : FlagsLast (ptsR qs)) :
    ∀ v b rest, ptsR qs = (v, b) :: rest → lastNew qs = some v := by
  induction qs with
  | nil => intro v b rest h; simp [ptsR] at h
  | cons q qs ih =>
    intro v b rest h
    have hsq := hs q (List.mem_cons_self ..)
    have hsqs : ∀ q ∈ qs, Sane n q := fun q hq => hs q (List.mem_cons_of_mem _ hq)
    rcases hp : q.point with _ | ⟨_ | w, _ | _⟩
    · have e : ptsR (q :: qs) = ptsR qs := by simp [ptsR, List.filterMap_cons, hp]
      rw [e] at h hf
      simp only [lastNew, hp]; exact ih hsqs hf v b rest h
    · have e : ptsR (q :: qs) = ptsR qs := by simp [ptsR, List.filterMap_cons, hp]
      rw [e] at h hf
      simp only [lastNew, hp]; exact ih hsqs hf v b rest h
    · exact absurd ((hsq _ _ hp).1 rfl) (by simp)
    · have e : ptsR (q :: qs) = (w, false) :: ptsR qs := by simp [ptsR, List.filterMap_cons, hp]
      rw [e] at h hf
      simp only [List.cons.injEq, Prod.mk.injEq] at h
      obtain ⟨⟨rfl, -⟩, -⟩ := h
      obtain ⟨b', post', hq⟩ := hf [] (ptsR qs) w rfl
      simp only [lastNew, hp]
      exact ih hsqs (flagsLast_suffix [(w, false)] _ hf) w b' post' hq
    · have e : ptsR (q :: qs) = (w, true) :: ptsR qs := by simp [ptsR, List.filterMap_cons, hp]
      rw [e] at h
      simp only [List.cons.injEq, Prod.mk.injEq] at h
      obtain ⟨⟨rfl, -⟩, -⟩ := h
      simp [lastNew, hp]

end Verif.CInterface
