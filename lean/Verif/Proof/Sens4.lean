import Verif.Proof.Sens3

/-! # Proofs for sIPOPT: the loop of the step with bound check -/

namespace Verif.Sens
open Finset
set_option linter.unusedSectionVars false
set_option linter.unusedSimpArgs false
set_option linter.unusedVariables false

section
variable {K : Type} [Field K]

/-! ### what never changes -/

theorem computeFrom_A (E : Env K) (dims : List Nat) (cs : List Nat) : ∀ row (p : PC K), (p.computeFrom E dims cs row).A = p.A ∧
    (p.computeFrom E dims cs row).A0 = p.A0 := by
  induction cs with
  | nil => intro row p; exact ⟨rfl, rfl⟩
  | cons c cs ih =>
    intro row p
    unfold PC.computeFrom
    cases p.cols c with
    | some l => exact ih _ _
    | none => exact ih _ _

theorem refresh_A (E : Env K) (dims : List Nat) (p : PC K) : (p.refresh E dims).A = p.A ∧ (p.refresh E dims).A0 = p.A0 := by
  unfold PC.refresh PC.compute
  split
  · exact computeFrom_A _ _ _ _ _
  · exact ⟨rfl, rfl⟩

theorem build_A (E : Env K) (dims : List Nat) (d : Drv K) (p : PC K) : (d.build E dims p).2.A = p.A ∧ (d.build E dims p).2.A0 = p.A0 := by
  unfold Drv.build PC.schurMatrix
  split
  · exact refresh_A _ _ _
  · exact ⟨rfl, rfl⟩

theorem add_prefix (cols : List Nat) : ∀ r : Data × List Nat × Nat, r.1.idx <+: (cols.foldl Data.addOne r).1.idx := by
  induction cols with
  | nil => intro r; exact List.prefix_refl _
  | cons c cols ih =>
    intro r
    refine List.IsPrefix.trans ?_ (ih (Data.addOne r c))
    unfold Data.addOne
    split
    · exact List.prefix_refl _
    · exact List.prefix_append _ _
end

section
variable {K : Type} [Field K] [LinearOrder K] [IsStrictOrderedRing K] {P : Prob K}

theorem pass_A {E : Env K} {rhs Krs : Blocks K} {st st' : St K} {b : Bool} (h : P.pass E rhs Krs st = some (b, st')) :
    st.pc.A.idx <+: st'.pc.A.idx ∧ st'.pc.A0 = st.pc.A0 := by
  unfold Prob.pass at h
  dsimp only at h
  split at h
  · simp at h
  · split at h
    · simp at h
    · rename_i d hd s hs
      cases h
      dsimp only
      rw [(build_A E P.dims _ _).1, (build_A E P.dims _ _).2]
      exact ⟨add_prefix _ (st.pc.A, [], st.pc.A.idx.length), rfl⟩

theorem loop_A (E : Env K) (rhs Krs : Blocks K) (fuel : Nat) : ∀ rv (st : St K), st.pc.A.idx <+: (P.loop E rhs Krs fuel rv st).2.pc.A.idx ∧
    (P.loop E rhs Krs fuel rv st).2.pc.A0 = st.pc.A0 := by
  induction fuel with
  | zero => intro rv st; exact ⟨List.prefix_refl _, rfl⟩
  | succ n ih =>
    intro rv st
    unfold Prob.loop
    split
    · exact ⟨List.prefix_refl _, rfl⟩
    · cases hp : P.pass E rhs Krs st with
      | none => exact ⟨List.prefix_refl _, rfl⟩
      | some r =>
        obtain ⟨rv', st'⟩ := r
        obtain ⟨a1, a2⟩ := pass_A hp
        obtain ⟨b1, b2⟩ := ih rv' st'
        exact ⟨a1.trans b1, b2.trans a2⟩

/-! ### invariant -/

theorem Prob.Active.congr {w w' : Nat → K} {c : Nat} (a : P.Active w c) (h : w' c = w c) : P.Active w' c := by
  cases a with
  | lower k hk hx hc e => exact .lower k hk hx hc (h.trans e)
  | upper k hk hx hc e => exact .upper k hk hx hc (h.trans e)
  | zL i hi hc e => exact .zL i hi hc (h.trans e)
  | zU i hi hc e => exact .zU i hi hc (h.trans e)

theorem Prob.InRange.lt (h : P.OK) {c : Nat} (hc : P.InRange c) : c < P.dims.sum := by
  obtain ⟨p1, p2, p3⟩ := pos_facts h
  rcases hc with hc | hc <;> omega

/-- invariant of the loop. -/
structure Inv (P : Prob K) (M : Nat → Nat → K) (rhs : Blocks K) (st : St K) : Prop where
  B : st.drv.B = st.pc.A
  good : st.pc.A.Good P.dims.sum
  known : st.pc.Known P.dims.sum M
  sens : Shape P.dims st.sens
  sol : st.sol = axpy 1 P.curr st.sens
  old : st.old.length = st.pc.A.idx.length
  fixed : ∀ k, k < st.pc.A.idx.length → elt st.sens (st.pc.A.idx.getD k 0) = st.old.getD k 0
  eqs : ∀ i, i < P.dims.sum → i ∉ st.pc.A.idx → mulVec P.dims.sum M (elt st.sens) i = elt rhs i
  active : ∀ c ∈ st.pc.A.idx, P.Active (elt st.sol) c

/-- the columns that are needed will be computed. -/
def Ready (P : Prob K) (st : St K) : Prop :=
  st.pc.ncols ≠ st.pc.A.idx.length + (P.boundCheck st.sol).length ∨
    ∀ c ∈ st.pc.A.idx ++ (P.boundCheck st.sol).map Prod.fst, (st.pc.cols c).isSome

theorem Inv.shape (hP : P.OK) {M : Nat → Nat → K} {rhs : Blocks K} {st : St K} (h : Inv P M rhs st) : Shape P.dims st.sol := by
  rw [h.sol]; exact axpy_shape h.sens hP.curr 1

theorem Inv.val (hP : P.OK) {M : Nat → Nat → K} {rhs : Blocks K} {st : St K} (h : Inv P M rhs st) {i : Nat} (hi : i < P.dims.sum) :
    elt st.sol i = elt P.curr i + elt st.sens i := by
  rw [h.sol, axpy_elt h.sens hP.curr 1 hi]; ring

theorem pass_spec {E : Env K} {M : Nat → Nat → K} (hP : P.OK) (hE : Exact E P.dims M) (hLU : LUExact E) (hU : Unique P.dims.sum M)
    {rhs : Blocks K} (hr : Shape P.dims rhs) {st : St K} (h : Inv P M rhs st) (hne : P.boundCheck st.sol ≠ []) (hrd : Ready P st) :
    ∃ b st', P.pass E rhs (E.solve rhs).2 st = some (b, st') ∧ st'.pc.A.idx = st.pc.A.idx ++ (P.boundCheck st.sol).map Prod.fst ∧
      st'.pc.ncols = st'.pc.A.idx.length ∧ (Fixable P.dims.sum M st'.pc.A.idx → Inv P M rhs st') := by
  have hsh := h.shape hP
  have hfnd := fun (r : Nat × K) (hr : r ∈ P.boundCheck st.sol) => boundCheck_found hP hsh hr
  have hnd := boundCheck_nodup hP hsh
  unfold Ready at hrd
  unfold Prob.pass
  generalize P.boundCheck st.sol = viol at hne hfnd hnd hrd ⊢
  have hnew : ∀ c ∈ viol.map Prod.fst, c ∉ st.pc.A.idx := by
    intro c hc hm
    obtain ⟨r, hr', rfl⟩ := List.mem_map.1 hc
    exact (hfnd r hr').not (h.active _ hm)
  have hlt : ∀ c ∈ viol.map Prod.fst, c < P.dims.sum := by
    intro c hc
    obtain ⟨r, hr', rfl⟩ := List.mem_map.1 hc
    exact (hfnd r hr').range.lt hP
  have hgood := h.good.append _ hnew hnd hlt
  dsimp only
  rw [h.B]
  unfold Data.add
  rw [add_new _ _ _ hnew hnd]
  dsimp only
  rw [add_new _ _ _ hnew hnd]
  dsimp only
  simp only [List.length_map] at hgood ⊢
  generalize hA : (⟨st.pc.A.idx ++ viol.map Prod.fst, st.pc.A.val ++ List.replicate viol.length 1⟩ : Data) = A at hgood ⊢
  have hAi : A.idx = st.pc.A.idx ++ viol.map Prod.fst := by rw [← hA]
  have hAl : A.idx.length = st.pc.A.idx.length + viol.length := by rw [hAi]; simp
  have hpos : 0 < viol.length := List.length_pos_iff.2 hne
  obtain ⟨f1, f2, f3, f4, f5⟩ := refresh_spec hE { st.pc with A := A } hgood h.known (by
    dsimp only
    rw [hAl, hAi]
    exact hrd)
  unfold Drv.build PC.schurMatrix
  dsimp only
  rw [if_pos (by omega)]
  dsimp only at f1 f2 f3 f4 f5 ⊢
  generalize ({ st.pc with A := A } : PC K).refresh E P.dims = q at f1 f2 f3 f4 f5 ⊢
  obtain ⟨S, s1, _, s3⟩ := matrixFrom_spec q A.idx f3 A.idx 0 (fun _ => E.junk) f5
  rw [f1, s1]
  simp only [Option.map_some]
  have hdu : newDu E (st.pc.A.idx.length + viol.length) st.old
      (([] ++ (List.range viol.length).map (st.pc.A.idx.length + ·)) ++ (List.range viol.length).map (st.pc.A.idx.length + ·))
      (viol.map Prod.snd) = st.old ++ viol.map Prod.snd := by
    have := newDu_spec (E := E) st.old (viol.map Prod.snd)
      (([] ++ (List.range viol.length).map (st.pc.A.idx.length + ·)) ++ (List.range viol.length).map (st.pc.A.idx.length + ·)) (by
        intro i hi
        simp only [List.length_map] at hi
        rw [List.nil_append, List.getD_append _ _ _ _ (by simpa using hi), List.getD_eq_getElem _ _ (by simpa using hi)]
        simp [h.old])
    rw [List.length_map, h.old] at this
    exact this
  rw [hdu]
  have hdul : (st.old ++ viol.map Prod.snd).length = A.idx.length := by simp [hAl, h.old]
  have hS : ∀ t i, t < A.idx.length → i < A.idx.length → S (i + t * A.idx.length) = -(q.col (A.idx.getD t 0)).getD (A.idx.getD i 0) 0 := by
    intro t i ht hi
    have := s3 t i ht hi
    rw [Nat.zero_add] at this
    exact this
  cases hsv : (⟨A, some (A.idx.length, S)⟩ : Drv K).solve E P.dims A rhs (st.old ++ viol.map Prod.snd) (E.solve rhs).2 with
  | none => unfold Drv.solve at hsv; simp at hsv
  | some s =>
    dsimp only
    refine ⟨s.1, _, rfl, ?_, ?_, ?_⟩
    · dsimp only; rw [f1, hAi]
    · dsimp only; rw [f3, f1]
    · dsimp only
      rw [f1]
      intro hF
      obtain ⟨b, out, e, o1, o2, o3⟩ := schur_solve hE hLU hU hgood f4 f5 hF hS hr hdul
      rw [hsv] at e
      cases e
      dsimp only at o1 o2 o3 ⊢
      refine ⟨f1.symm, by rw [f1]; exact hgood, f4, o1, rfl, by rw [f1]; exact hdul, by rw [f1]; exact o2, by rw [f1]; exact o3, ?_⟩
      rw [f1]
      dsimp only
      intro c hc
      obtain ⟨k, hk, rfl⟩ := List.getElem_of_mem hc
      have hk2 := o2 k hk
      have hlt' := hgood.lt k hk
      rw [List.getD_eq_getElem _ _ hk] at hk2 hlt'
      have hval : elt (axpy 1 P.curr out) A.idx[k] = elt P.curr A.idx[k] + (st.old ++ viol.map Prod.snd).getD k 0 := by
        rw [axpy_elt o1 hP.curr 1 hlt', hk2]; ring
      by_cases hkk : k < st.pc.A.idx.length
      · have e : A.idx[k] = st.pc.A.idx[k] := by simp only [hAi]; rw [List.getElem_append_left hkk]
        rw [List.getD_append _ _ _ _ (by rw [h.old]; exact hkk), ← h.fixed k hkk, List.getD_eq_getElem _ _ hkk, ← e, ← h.val hP hlt'] at hval
        have ha := h.active _ (List.getElem_mem hkk)
        rw [← e] at ha
        exact ha.congr hval
      · have hkv : k - st.pc.A.idx.length < viol.length := by omega
        have e : A.idx[k] = (viol[k - st.pc.A.idx.length]).1 := by simp only [hAi]; rw [List.getElem_append_right (by omega)]; simp
        rw [List.getD_append_right _ _ _ _ (by rw [h.old]; omega), h.old, List.getD_eq_getElem _ _ (by simpa using hkv), List.getElem_map] at hval
        rw [e] at hval ⊢
        exact (hfnd _ (List.getElem_mem hkv)).active _ hval

/-- number of bounds that can be fixed. -/
theorem idx_length (hP : P.OK) {M : Nat → Nat → K} {rhs : Blocks K} {st : St K} (h : Inv P M rhs st) {more : List Nat}
    (hn : (st.pc.A.idx ++ more).Nodup) (hm : ∀ c ∈ more, P.InRange c) :
    (st.pc.A.idx ++ more).length ≤ P.dims.getD 0 0 + P.dims.getD 4 0 + P.dims.getD 5 0 := by
  obtain ⟨p1, p2, p3⟩ := pos_facts hP
  have hall : ∀ c ∈ st.pc.A.idx ++ more, P.InRange c := by
    intro c hc
    rcases List.mem_append.1 hc with hc | hc
    · exact (h.active c hc).inRange hP
    · exact hm c hc
  rw [← List.toFinset_card_of_nodup hn]
  have hsub : (st.pc.A.idx ++ more).toFinset ⊆ Finset.range (P.dims.getD 0 0) ∪ Finset.Ico (P.dims.take 4).sum ((P.dims.take 5).sum + P.dims.getD 5 0) := by
    intro c hc
    rw [List.mem_toFinset] at hc
    rw [Finset.mem_union, Finset.mem_range, Finset.mem_Ico]
    exact hall c hc
  have := (Finset.card_le_card hsub).trans (Finset.card_union_le _ _)
  rw [Finset.card_range, Nat.card_Ico] at this
  omega

theorem loop_spec {E : Env K} {M : Nat → Nat → K} (hP : P.OK) (hE : Exact E P.dims M) (hLU : LUExact E) (hU : Unique P.dims.sum M)
    {rhs : Blocks K} (hr : Shape P.dims rhs) (fuel : Nat) : ∀ rv (st : St K), Inv P M rhs st → (P.boundCheck st.sol ≠ [] → Ready P st) →
      (∀ G, st.pc.A.idx <+: G → G <+: (P.loop E rhs (E.solve rhs).2 fuel rv st).2.pc.A.idx → G ≠ [] → Fixable P.dims.sum M G) →
      P.dims.getD 0 0 + P.dims.getD 4 0 + P.dims.getD 5 0 < fuel + st.pc.A.idx.length →
      ∃ b, (P.loop E rhs (E.solve rhs).2 fuel rv st).1 = .ret b ∧ Inv P M rhs (P.loop E rhs (E.solve rhs).2 fuel rv st).2 ∧
        P.Within (elt (P.loop E rhs (E.solve rhs).2 fuel rv st).2.sol) := by
  induction fuel with
  | zero =>
    intro rv st h _ _ hf
    have := idx_length hP h (more := []) (by simpa using h.good.nodup) (by simp)
    rw [List.append_nil] at this
    omega
  | succ n ih =>
    intro rv st h hrd hF hf
    unfold Prob.loop
    unfold Prob.loop at hF
    by_cases he : P.boundCheck st.sol = []
    · rw [if_pos he]
      exact ⟨rv, rfl, h, boundCheck_nil hP (h.shape hP) he⟩
    · rw [if_neg he] at hF ⊢
      obtain ⟨b, st', e, e1, e2, e3⟩ := pass_spec hP hE hLU hU hr h he (hrd he)
      rw [e] at hF ⊢
      dsimp only at hF ⊢
      have hpos : 0 < (P.boundCheck st.sol).length := List.length_pos_iff.2 he
      have hpre := (pass_A e).1
      have hne : st'.pc.A.idx ≠ [] := by
        rw [e1]; intro hh
        have := congrArg List.length hh
        simp at this
        exact he this.2
      have hinv := e3 (hF _ hpre (loop_A E rhs _ n b st').1 hne)
      refine ih b st' hinv ?_ ?_ ?_
      · intro he'
        left
        have : 0 < (P.boundCheck st'.sol).length := List.length_pos_iff.2 he'
        omega
      · intro G g1 g2 g3
        exact hF G (hpre.trans g1) g2 g3
      · rw [e1, List.length_append, List.length_map]; omega
end
end Verif.Sens
