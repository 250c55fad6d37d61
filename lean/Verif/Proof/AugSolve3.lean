import Verif.Proof.AugSolve2

/-! # One call of `TSymLinearSolver::MultiSolve` -/

namespace Verif.AugSolve
open Verif.Matrix Finset
open Verif.Triplet
open Verif.PDSystem (AugArgs kkt)

set_option linter.unusedSectionVars false
set_option linter.unusedSimpArgs false
set_option linter.unusedVariables false

variable {K B : Type} [Field K] [DecidableEq K]

theorem scaleVec_apply (st : TSym K) (i : Nat) (arr : Nat → K) (j : Nat) :
    scaleVec st i arr j = if i * st.dim ≤ j ∧ j < i * st.dim + st.dim then arr j * st.fac (j - i * st.dim) else arr j := by
  unfold scaleVec TSym.fac
  by_cases hu : st.useScaling = true
  · rw [if_pos hu, loopMod_apply]; simp [hu]
  · rw [if_neg hu]; simp [hu]

theorem getRhs_aux (st : TSym K) : ∀ (l : List (Vec K)) (n : Nat) (arr : Nat → K), (∀ v ∈ l, v.known ∧ v.dim = st.dim) →
    ∃ arr', (l.zipIdx n).foldlM (fun arr v => (fillFromVector v.1 st.dim (v.2 * st.dim) arr).map (scaleVec st v.2)) arr = some arr' ∧
      (∀ i (hi : i < l.length) k, k < st.dim → arr' ((n + i) * st.dim + k) = l[i].elems.getD k 0 * st.fac k) ∧
      ∀ j, j < n * st.dim → arr' j = arr j := by
  intro l
  induction l with
  | nil => intro n arr _; exact ⟨arr, rfl, fun i hi => by simp at hi, fun _ _ => rfl⟩
  | cons v l ih =>
    intro n arr h
    obtain ⟨hv, hd⟩ := h v (by simp)
    obtain ⟨b1, e1, e2, e3⟩ := fillFromVector_correct v hv (n * st.dim) arr
    rw [hd] at e1 e2 e3
    obtain ⟨b2, f1, f2, f3⟩ := ih (n + 1) (scaleVec st n b1) (fun w hw => h w (by simp [hw]))
    refine ⟨b2, ?_, ?_, ?_⟩
    · rw [List.zipIdx_cons, List.foldlM_cons]
      simp only [e1, Option.map_some, bind, Option.bind_some]
      exact f1
    · intro i hi k hk
      cases i with
      | zero =>
        have hlt : n * st.dim + k < (n + 1) * st.dim := by rw [Nat.add_mul]; omega
        rw [Nat.add_zero, f3 _ hlt, scaleVec_apply, if_pos ⟨by omega, by omega⟩, e2 k hk, Nat.add_sub_cancel_left]
        simp
      | succ i =>
        have := f2 i (by simpa using hi) k hk
        rw [show n + (i + 1) = n + 1 + i by omega]
        simpa using this
    · intro j hj
      have hlt : j < (n + 1) * st.dim := by rw [Nat.add_mul]; omega
      rw [f3 j hlt, scaleVec_apply, if_neg (by omega), e3 j (Or.inl hj)]

theorem putSol_aux (st : TSym K) : ∀ (l : List (Vec K)) (n : Nat) (acc : List (Vec K)) (arr : Nat → K),
    (∀ v ∈ l, v.known ∧ v.dim = st.dim) →
    ∃ out arr', (l.zipIdx n).foldlM (fun (s : List (Vec K) × (Nat → K)) v =>
        (putInVector v.1 st.dim (v.2 * st.dim) (scaleVec st v.2 s.2)).map fun w => (s.1 ++ [w], scaleVec st v.2 s.2)) (acc, arr) =
          some (acc ++ out, arr') ∧ out.length = l.length ∧
      ∀ i (hi : i < l.length) (ho : i < out.length), ∃ a, putInVector l[i] st.dim ((n + i) * st.dim) a = some out[i] ∧
        ∀ k, k < st.dim → a ((n + i) * st.dim + k) = arr ((n + i) * st.dim + k) * st.fac k := by
  intro l
  induction l with
  | nil => intro n acc arr _; exact ⟨[], arr, by simp, rfl, fun i hi => by simp at hi⟩
  | cons v l ih =>
    intro n acc arr h
    obtain ⟨hv, hd⟩ := h v (by simp)
    obtain ⟨w, e1, e2, e3, e4⟩ := putInVector_correct v hv (n * st.dim) (scaleVec st n arr)
    rw [hd] at e1
    obtain ⟨out, arr', f1, f2, f3⟩ := ih (n + 1) (acc ++ [w]) (scaleVec st n arr) (fun w hw => h w (by simp [hw]))
    refine ⟨w :: out, arr', ?_, by simp [f2], ?_⟩
    · rw [List.zipIdx_cons, List.foldlM_cons]
      simp only [e1, Option.map_some, bind, Option.bind_some]
      rw [show acc ++ w :: out = acc ++ [w] ++ out by simp]
      exact f1
    · intro i hi ho
      cases i with
      | zero =>
        refine ⟨scaleVec st n arr, by simpa using e1, fun k hk => ?_⟩
        rw [Nat.add_zero, scaleVec_apply, if_pos ⟨by omega, by omega⟩, Nat.add_sub_cancel_left]
      | succ i =>
        obtain ⟨a, g1, g2⟩ := f3 i (by simpa using hi) (by simpa using ho)
        rw [show n + (i + 1) = n + 1 + i by omega]
        refine ⟨a, by simpa using g1, fun k hk => ?_⟩
        rw [g2 k hk, scaleVec_apply, if_neg]
        intro hc
        have : (n + 1) * st.dim ≤ (n + 1 + i) * st.dim := Nat.mul_le_mul_right _ (by omega)
        rw [Nat.add_mul, Nat.one_mul] at this
        omega

/-- the structure handed to the sparse solver. -/
def TSym.struct (st : TSym K) : Structure := ⟨st.dim, st.nnz, st.ia, st.ja⟩

theorem StructOf.congr {E : Env K B} {st : TSym K} {P : Mat K} (h : StructOf E st P) (a h' i : _) (d u j : _) (f : _) :
    StructOf E { st with atag := a, haveStructure := h', initialized := i, onDemand := d, useScaling := u, justSwitched := j, factors := f } P :=
  ⟨h.num, h.dim, h.fill, h.conv, h.nnzC⟩

/-- the loop around the sparse solver. -/
theorem loop_correct {E : Env K B} {Rep : B → Known K → Prop} (C : Contract E Rep) {P A : Mat K} (hA : MatOK P A) (newM : Bool) (nrhs : Nat)
    (chk : Bool) (neg : Nat) : ∀ (fuel : Nat) (st : TSym K) (arr : Nat → K) (b : B) (k : Known K), StructOf E st P → Rep b k →
      k.struct = some st.struct → st.justSwitched = false → (st.useScaling = true → ∀ i, i < st.dim → st.factors i ≠ 0) →
      (newM = true → k.array.isSome) → (k.array.isSome → newM = true ∨ k.asked = true) →
      (k.array.isSome ∨ k.held.isSome ∨ k.raised = true) →
      (∀ v, k.array.or k.held = some v → Represents E st v A) →
      (TSym.loop E A newM nrhs chk neg fuel st arr b).2.2.1 = st ∧
      ∃ k', Rep (TSym.loop E A newM nrhs chk neg fuel st arr b).2.2.2 k' ∧ k'.prev = k.prev ∧
        (∀ s, (TSym.loop E A newM nrhs chk neg fuel st arr b).1 = .ret s → k'.struct = some st.struct ∧ k'.array = none ∧
          s ≠ .callAgain ∧ (∀ v, k'.held = some v → Represents E st v A) ∧
          (s = .success → ∃ v, k'.held = some v ∧
            SolvesAll E.fmt st.struct v nrhs (TSym.loop E A newM nrhs chk neg fuel st arr b).2.1 arr)) := by
  intro fuel
  induction fuel with
  | zero =>
    intro st arr b k hst hb _ _ _ _ _ _ _
    exact ⟨rfl, k, hb, rfl, fun s e => by simp [TSym.loop] at e⟩
  | succ fuel ih =>
    intro st arr b k hst hb hS hj hf hn hask hsome hrep
    have hall : k.AllowsSolve st.struct newM := ⟨hS, hn, hask⟩
    have key : ∀ (s : Status) (arr' : Nat → K) (b' : B), E.solve newM st.ia st.ja nrhs arr chk neg b = (s, arr', b') →
        s ≠ .callAgain → ∃ k', Rep b' k' ∧ k'.prev = k.prev ∧ k'.struct = some st.struct ∧ k'.array = none ∧
          (∀ v, k'.held = some v → Represents E st v A) ∧
          (s = .success → ∃ v, k'.held = some v ∧ SolvesAll E.fmt st.struct v nrhs arr' arr) := by
      intro s arr' b' e hca
      by_cases hsu : s = .success
      · have := C.solveOK b k st.struct newM nrhs arr chk neg hb hall hsome
        simp only [TSym.struct] at this
        rw [e] at this
        obtain ⟨v, h1, h2, h3⟩ := this hsu
        exact ⟨_, h3, rfl, hS, rfl, fun w hw => by cases hw; exact hrep v h1, fun _ => ⟨v, rfl, h2⟩⟩
      · have := C.solveFail b k st.struct newM nrhs arr chk neg hb hall
        simp only [TSym.struct] at this
        rw [e] at this
        exact ⟨_, this hsu hca, rfl, hS, rfl, fun w hw => by simp [Known.afterSolve] at hw, fun h => absurd h hsu⟩
    unfold TSym.loop
    rcases hsol : E.solve newM st.ia st.ja nrhs arr chk neg b with ⟨s, arr', b'⟩
    cases s with
    | callAgain =>
      simp only
      have := C.solveAgain b k st.struct newM nrhs arr chk neg hb hall
      simp only [TSym.struct] at this
      rw [hsol] at this
      obtain ⟨ha, hb'⟩ := this rfl
      simp only at ha hb'
      subst ha
      obtain ⟨st', v, g1, g2, g3, g4⟩ := give_correct C hst hA false b' _ hb' (by simp [hj]) (Or.inr (Or.inr hf))
      by_cases hg : (st.give E false A b').1 = true
      · rw [if_pos hg, g1]
        obtain ⟨q1, q2, q3, q4, q5⟩ := g4 hg
        have hst' := q5 rfl hj
        rw [hst'] at q2 ⊢
        have ask : newM = true ∨ (!newM) = true := by cases newM <;> simp
        obtain ⟨z1, k', z2, z3, z4⟩ := ih st arr' _ _ hst q1 hS hj hf (fun _ => rfl) (fun _ => ask) (Or.inl rfl) (fun w hw => by
          simp only [Option.or] at hw; cases hw; exact q2)
        exact ⟨z1, k', z2, z3, z4⟩
      · rw [if_neg hg]
        simp only [Bool.not_eq_true] at hg
        obtain ⟨q1, q2⟩ := g3 hg
        exact ⟨by rw [g1]; exact q2, _, q1, rfl, fun s e => by simp at e⟩
    | success =>
      obtain ⟨k', h1, h0, h2, h3, h4, h5⟩ := key _ _ _ hsol (by simp)
      exact ⟨rfl, k', h1, h0, fun s e => by cases e; exact ⟨h2, h3, by simp, h4, h5⟩⟩
    | singular =>
      obtain ⟨k', h1, h0, h2, h3, h4, h5⟩ := key _ _ _ hsol (by simp)
      exact ⟨rfl, k', h1, h0, fun s e => by cases e; exact ⟨h2, h3, by simp, h4, h5⟩⟩
    | wrongInertia =>
      obtain ⟨k', h1, h0, h2, h3, h4, h5⟩ := key _ _ _ hsol (by simp)
      exact ⟨rfl, k', h1, h0, fun s e => by cases e; exact ⟨h2, h3, by simp, h4, h5⟩⟩
    | fatal =>
      obtain ⟨k', h1, h0, h2, h3, h4, h5⟩ := key _ _ _ hsol (by simp)
      exact ⟨rfl, k', h1, h0, fun s e => by cases e; exact ⟨h2, h3, by simp, h4, h5⟩⟩

/-- `InitializeStructure`. -/
theorem initStructure_correct {E : Env K B} {Rep : B → Known K → Prop} (C : Contract E Rep) {P A : Mat K} (hA : MatOK P A) {st : TSym K}
    {b : B} {k : Known K} (hb : Rep b k) (hst : st.haveStructure = true → StructOf E st P) (hP : st.haveStructure = false → P = A)
    (hj : st.justSwitched = true → st.useScaling = true) (hprev : st.haveStructure = true → k.prev = some st.struct)
    (hki : k.init = true ∧ (k.warm = true ↔ st.haveStructure = true)) :
    ∃ st' b', (st.initStructure E A b).2 = (st', b') ∧ st'.atag = st.atag ∧ st'.justSwitched = st.justSwitched ∧
      st'.useScaling = st.useScaling ∧
      (st'.haveStructure = true → StructOf E st' P) ∧
      (∀ s, (st.initStructure E A b).1 = some s → s ≠ .success → s = .fatal) ∧
      ∃ k', Rep b' k' ∧ (st'.haveStructure = true → k'.prev = some st'.struct) ∧
      ((st.initStructure E A b).1 = some .success → st'.initialized = true ∧ st'.haveStructure = true ∧
        k'.struct = some st'.struct ∧ k'.array = none) := by
  by_cases hh : st.haveStructure = true
  · have hS := hst hh
    have hd := (trips_eq hS hA).2.2.1
    have hall : k.AllowsStruct ⟨st.dim, st.nnz, st.ia, st.ja⟩ := ⟨hki.1, fun _ => hprev hh⟩
    obtain ⟨c1, c2⟩ := C.struct b k st.dim st.nnz st.ia st.ja hb hall
    unfold TSym.initStructure
    rw [if_neg (by simp [hh]), if_neg (by simp [hd])]
    refine ⟨_, _, rfl, rfl, rfl, rfl, fun _ => ⟨hS.num, hS.dim, hS.fill, hS.conv, hS.nnzC⟩, ?_, _, c2, ?_, ?_⟩
    · intro s e1 e2
      simp only [Option.some.injEq] at e1
      rw [← e1] at e2 ⊢
      exact c1.resolve_left e2
    · intro _
      by_cases hs : (E.initStructure st.dim st.nnz st.ia st.ja b).1 = .success
      · simp only [Known.afterStruct, hs, decide_true, if_true]; rfl
      · simp only [Known.afterStruct, hs, decide_false, Bool.false_eq_true, if_false]
        by_cases hw : k.warm = true
        · simp only [hw, if_true]; exact hprev hh
        · exact absurd (hki.2.2 hh) hw
    · intro e
      simp only [Option.some.injEq] at e
      simp only [Known.afterStruct, e, decide_true, if_true]
      exact ⟨trivial, hh, rfl, trivial⟩
  · have hh' : st.haveStructure = false := by simpa using hh
    have hPA := hP hh'
    subst hPA
    have hs : Supported P := hA.sup
    have e1 := numEntries_ok P hs
    have e2 := fillRowCol_ok P hs 0 0 0 E.junkIdx
    unfold TSym.initStructure
    rw [if_pos (by simp [hh']), e1]
    simp only [e2]
    set st1 : TSym K := { st with dim := P.dims.1, nnzT := (trL P).length, airn := (putI 0 0 E.junkIdx 0 (trL P)).row, ajcn := (putI 0 0 E.junkIdx 0 (trL P)).col } with hst1
    set st2 : TSym K := { st1 with conv := mkConv E st1 } with hst2
    set st3 : TSym K := { st2 with nnzC := (st2.conv.map CSR.Conv.nnz).getD 0 } with hst3
    have hS : StructOf E st3 P := ⟨e1, rfl, e2, rfl, rfl⟩
    have hall : k.AllowsStruct ⟨st3.dim, st3.nnz, st3.ia, st3.ja⟩ := ⟨hki.1, fun hw => absurd (hki.2.1 hw) hh⟩
    obtain ⟨c1, c2⟩ := C.struct b k st3.dim st3.nnz st3.ia st3.ja hb hall
    by_cases hs : (E.initStructure st3.dim st3.nnz st3.ia st3.ja b).1 = .success
    · rw [if_neg (by simpa using hs)]
      refine ⟨_, _, rfl, rfl, rfl, rfl, fun _ => ⟨hS.num, hS.dim, hS.fill, hS.conv, hS.nnzC⟩,
        fun s e1 e2 => by simp only [Option.some.injEq] at e1; exact absurd e1.symm e2, _, c2, ?_, ?_⟩
      · intro _
        simp only [Known.afterStruct, hs, decide_true, if_true]; rfl
      · intro _
        simp only [Known.afterStruct, hs, decide_true, if_true]
        exact ⟨trivial, trivial, rfl, trivial⟩
    · rw [if_pos (by simpa using hs)]
      refine ⟨_, _, rfl, rfl, rfl, rfl, fun e => by simp [hst3, hst2, hst1, hh'] at e,
        fun s e1 e2 => by simp only [Option.some.injEq] at e1; rw [← e1]; exact c1.resolve_left hs, _, c2,
        fun e => by simp [hst3, hst2, hst1, hh'] at e,
        fun e => by simp only [Option.some.injEq] at e; exact absurd e hs⟩

/-- the state of the linear solver before and after calls, with what it may rely on. -/
structure LinOK (E : Env K B) (Rep : B → Known K → Prop) (P A : Mat K) (tag : Nat) (st : TSym K) (k : Known K) : Prop where
  init : st.initialized = true
  hav : st.haveStructure = true
  struct : k.struct = some st.struct
  array : k.array = none
  tag : st.atag = tag
  switched : st.justSwitched = false → (st.useScaling = true → ∀ i, i < st.dim → st.factors i ≠ 0) ∧
    ∀ v, k.held = some v → Represents E st v A

/-- S (A (S y)) = S b with nonzero S gives A (S y) = b. -/
theorem unscale (n : Nat) (M : Nat → Nat → K) (f y b : Nat → K) (D : Nat → Nat → K)
    (hD : ∀ r c, r < n → c < n → D r c = f r * f c * M r c) (hf : ∀ i, i < n → f i ≠ 0)
    (h : ∀ r, r < n → ∑ c ∈ range n, D r c * y c = b r * f r) (r : Nat) (hr : r < n) :
    ∑ c ∈ range n, M r c * (y c * f c) = b r := by
  have h1 := h r hr
  have h2 : ∑ c ∈ range n, D r c * y c = f r * ∑ c ∈ range n, M r c * (y c * f c) := by
    rw [Finset.mul_sum]
    refine Finset.sum_congr rfl (fun c hc => ?_)
    rw [hD r c hr (Finset.mem_range.1 hc)]
    ring
  rw [h2] at h1
  have : f r * ∑ c ∈ range n, M r c * (y c * f c) = f r * b r := by rw [h1]; ring
  exact mul_left_cancel₀ (hf r hr) this

/-- one call of `TSymLinearSolver::MultiSolve`. -/
theorem tsym_correct {E : Env K B} {Rep : B → Known K → Prop} (C : Contract E Rep) {P A : Mat K} (hA : MatOK P A) (fuel tag : Nat)
    (rhs sol : List (Vec K)) (chk : Bool) (neg : Nat) {st : TSym K} {b : B} {k : Known K} (hb : Rep b k)
    (hst : st.haveStructure = true → StructOf E st P) (hP : st.haveStructure = false → P = A)
    (hi : st.initialized = true → st.haveStructure = true ∧ k.struct = some st.struct ∧ k.array = none)
    (hj : st.justSwitched = true → st.useScaling = true)
    (hre : tag = st.atag → st.initialized = true ∧ (st.justSwitched = true ∨ (LinOK E Rep P A tag st k ∧ (k.held.isSome ∨ k.raised = true))))
    (hprev : st.haveStructure = true → k.prev = some st.struct)
    (hki : st.initialized = false → k.init = true ∧ (k.warm = true ↔ st.haveStructure = true))
    (hlen : rhs.length = sol.length) (hr : ∀ v ∈ rhs, v.known ∧ v.dim = A.dims.1) (hs : ∀ v ∈ sol, v.known ∧ v.dim = A.dims.1) :
    ∃ e out st' b', st.multiSolve E fuel tag A rhs sol chk neg b = (e, out, st', b') ∧
      (∃ k', Rep b' k' ∧ (st'.haveStructure = true → k'.prev = some st'.struct) ∧
        (∀ s, e = .ret s → s ≠ .fatal → LinOK E Rep P A tag st' k' ∧ st'.justSwitched = false ∧
        (s = .success → k'.held.isSome))) ∧
      (st'.haveStructure = true → StructOf E st' P) ∧ (st'.justSwitched = true → st'.useScaling = true) ∧
      (st'.atag = st.atag ∨ st'.atag = tag) ∧
      (e ≠ .ret .success → out = sol) ∧
      (e = .ret .success → out.length = sol.length ∧ ∀ i (h1 : i < sol.length) (h2 : i < out.length) (h3 : i < rhs.length),
        ∃ p a, putInVector sol[i] A.dims.1 p a = some out[i] ∧
          ∀ r, r < A.dims.1 → ∑ c ∈ range A.dims.1, ent A r c * a (p + c) = rhs[i].elems.getD r 0) := by
  -- the structure
  obtain ⟨so, st1, b1, hini, hinit1, k1, hb1⟩ : ∃ (so : Option Status) (st1 : TSym K) (b1 : B),
      (if (!st.initialized) = true then st.initStructure E A b else (some .success, st, b)) = (so, st1, b1) ∧
      (st1.atag = st.atag ∧ st1.justSwitched = st.justSwitched ∧ st1.useScaling = st.useScaling ∧
        (st1.haveStructure = true → StructOf E st1 P) ∧ (∀ s, so = some s → s ≠ .success → s = .fatal)) ∧
      ∃ k1, Rep b1 k1 ∧ (st1.haveStructure = true → k1.prev = some st1.struct) ∧ (so = some .success → st1.initialized = true ∧ st1.haveStructure = true ∧ k1.struct = some st1.struct ∧
        k1.array = none ∧ (tag = st.atag → st1 = st ∧ k1 = k)) := by
    by_cases hin : st.initialized = true
    · rw [if_neg (by simp [hin])]
      obtain ⟨h1, h2, h3⟩ := hi hin
      exact ⟨_, _, _, rfl, ⟨rfl, rfl, rfl, hst, fun s e1 e2 => by cases e1; exact absurd rfl e2⟩, k, hb, hprev, fun _ => ⟨hin, h1, h2, h3, fun _ => ⟨rfl, rfl⟩⟩⟩
    · rw [if_pos (by simpa using hin)]
      obtain ⟨st', b', e1, e3, e4, e5, e6, e8, k', e2, e2', e7⟩ := initStructure_correct C hA hb hst hP hj hprev (hki (by simpa using hin))
      rcases hq : st.initStructure E A b with ⟨so, st'', b''⟩
      rw [hq] at e1 e7 e8
      cases e1
      by_cases hsu : so = some .success
      · obtain ⟨f1, f2, f3, f4⟩ := e7 hsu
        exact ⟨so, st', b', rfl, ⟨e3, e4, e5, e6, e8⟩, _, e2, e2', fun _ => ⟨f1, f2, f3, f4, fun ht => absurd (hre ht).1 hin⟩⟩
      · exact ⟨so, st', b', rfl, ⟨e3, e4, e5, e6, e8⟩, k', e2, e2', fun e => absurd e hsu⟩
  obtain ⟨ha1, ha2, ha3, ha4, ha5⟩ := hinit1
  obtain ⟨hk1, hprev1, hb2⟩ := hb1
  have hj1 : st1.justSwitched = true → st1.useScaling = true := by rw [ha2, ha3]; exact hj
  unfold TSym.multiSolve
  simp only [hini]
  cases so with
  | none =>
    exact ⟨_, _, _, _, rfl, ⟨k1, hk1, hprev1, fun s e => by simp at e⟩, ha4, hj1, Or.inl ha1, fun _ => rfl, fun e => by simp at e⟩
  | some s =>
    simp only
    by_cases hsu : s = .success
    swap
    · rw [if_pos hsu]
      refine ⟨_, _, _, _, rfl, ⟨k1, hk1, hprev1, fun s' e hf => ?_⟩, ha4, hj1, Or.inl ha1, fun _ => rfl, fun e => ?_⟩
      · simp only [End.ret.injEq] at e
        rw [← e] at hf
        exact absurd (ha5 s rfl hsu) hf
      · simp only [End.ret.injEq] at e; exact absurd e hsu
    subst hsu
    rw [if_neg (by simp)]
    obtain ⟨i1, i2, i3, i4, i5⟩ := hb2 rfl
    have hS1 := ha4 i2
    have hd1 : st1.dim = A.dims.1 := (trips_eq hS1 hA).2.2.1
    set st2 : TSym K := { st1 with atag := tag } with hst2
    have hS2 : StructOf E st2 P := ⟨hS1.num, hS1.dim, hS1.fill, hS1.conv, hS1.nnzC⟩
    -- handing over the matrix
    set newM := (decide (tag ≠ st1.atag) || st2.justSwitched) with hnewM
    obtain ⟨gr, st3, b3, hg, hG⟩ : ∃ (gr : Bool) (st3 : TSym K) (b3 : B),
        (if newM = true then st2.give E true A b1 else (true, st2, b1)) = (gr, st3, b3) ∧
        (∃ f j, st3 = { st2 with factors := f, justSwitched := j }) ∧ (st3.justSwitched = true → st3.useScaling = true) ∧
        ∃ k3, Rep b3 k3 ∧ k3.prev = k1.prev ∧ (gr = true → k3.struct = some st3.struct ∧ st3.justSwitched = false ∧
          (st3.useScaling = true → ∀ i, i < st3.dim → st3.factors i ≠ 0) ∧ (newM = true → k3.array.isSome) ∧
          (k3.array.isSome → newM = true ∨ k3.asked = true) ∧ (k3.array.isSome ∨ k3.held.isSome ∨ k3.raised = true) ∧ (∀ v, k3.array.or k3.held = some v → Represents E st3 v A)) := by
      by_cases hn : newM = true
      · rw [if_pos hn]
        obtain ⟨st', v, g1, ⟨f, j, g2⟩, g3, g4⟩ := give_correct C hS2 hA true b1 k1 hk1 hj1 (Or.inl rfl)
        refine ⟨_, st', _, by rw [← g1], ⟨f, j, g2⟩, ?_, ?_⟩
        · by_cases hgt : (st2.give E true A b1).1 = true
          · intro e; rw [(g4 hgt).2.2.2.1 (Or.inl rfl)] at e; simp at e
          · simp only [Bool.not_eq_true] at hgt
            rw [(g3 hgt).2]; exact hj1
        · by_cases hgt : (st2.give E true A b1).1 = true
          · obtain ⟨q1, q2, q3, q4, q5⟩ := g4 hgt
            refine ⟨_, q1, rfl, fun _ => ⟨?_, q4 (Or.inl rfl), q3, fun _ => rfl, fun _ => Or.inl hn, Or.inl rfl, fun w hw => ?_⟩⟩
            · show k1.struct = _
              rw [i3, g2]
              rfl
            · simp only [Option.or] at hw; cases hw; exact q2
          · simp only [Bool.not_eq_true] at hgt
            exact ⟨k1, (g3 hgt).1, rfl, fun e => by rw [hgt] at e; simp at e⟩
      · rw [if_neg hn]
        simp only [hnewM, Bool.or_eq_true, decide_eq_true_eq, not_or, not_not, Bool.not_eq_true] at hn
        obtain ⟨hn1, hn2⟩ := hn
        have hn2' : st1.justSwitched = false := hn2
        rw [ha1] at hn1
        obtain ⟨r1, r2⟩ := hre hn1
        obtain ⟨t1, t2⟩ := i5 hn1
        subst t1; subst t2
        rcases r2 with r2 | ⟨r2, r3⟩
        · rw [hn2'] at r2; simp at r2
        · obtain ⟨w1, w2⟩ := r2.switched hn2'
          refine ⟨true, st2, b1, rfl, ⟨_, _, rfl⟩, hj1, k1, hk1, rfl, fun _ => ⟨i3, hn2, w1, ?_, fun e => by rw [i4] at e; simp at e, Or.inr r3, ?_⟩⟩
          · intro e; exfalso
            simp only [hnewM, Bool.or_eq_true, decide_eq_true_eq] at e
            rcases e with e | e
            · exact e hn1
            · rw [hn2] at e; simp at e
          · intro v hv
            rw [i4] at hv
            simp only [Option.or] at hv
            exact w2 v hv
    obtain ⟨⟨f3, j3, hst3⟩, hj3, k3, hk3, hpk3, hG⟩ := hG
    have hprev3 : st3.haveStructure = true → k3.prev = some st3.struct := by
      intro _; rw [hpk3, hprev1 i2, hst3]; rfl
    rw [hg]
    simp only
    have hS3 : StructOf E st3 P := by rw [hst3]; exact ⟨hS1.num, hS1.dim, hS1.fill, hS1.conv, hS1.nnzC⟩
    have hd3 : st3.dim = A.dims.1 := by rw [hst3]; exact hd1
    have ht3 : st3.atag = tag := by rw [hst3]
    by_cases hgr : gr = true
    swap
    · rw [if_pos (by simpa using hgr)]
      exact ⟨_, _, _, _, rfl, ⟨k3, hk3, hprev3, fun s e => by simp at e⟩, fun _ => hS3, hj3, Or.inr ht3, fun _ => rfl, fun e => by simp at e⟩
    rw [if_neg (by simp [hgr])]
    obtain ⟨G1, G2, G3, G4, G4', G5, G6⟩ := hG hgr
    obtain ⟨arr, hA1, hA2, _⟩ := getRhs_aux st3 rhs 0 E.junkVal (fun v hv => by rw [hd3]; exact hr v hv)
    have hget : getRhs st3 rhs E.junkVal = some arr := hA1
    rw [hget]
    simp only
    obtain ⟨L1, k4, L2, L2p, L3⟩ := loop_correct C hA newM rhs.length chk neg fuel st3 arr b3 k3 hS3 hk3 G1 G2 G3 G4 G4' G5 G6
    rcases hl : TSym.loop E A newM rhs.length chk neg fuel st3 arr b3 with ⟨e, arr', st4, b4⟩
    rw [hl] at L1 L2 L3
    simp only at L1 L2 L3
    subst L1
    have hprev4 : st4.haveStructure = true → k4.prev = some st4.struct := by
      intro hh; rw [L2p]; exact hprev3 hh
    have hlin : ∀ s, e = .ret s → LinOK E Rep P A tag st4 k4 := by
      intro s he
      obtain ⟨m1, m2, m3, m4, m5⟩ := L3 s he
      exact ⟨by rw [hst3]; exact i1, by rw [hst3]; exact i2, m1, m2, ht3, fun _ => ⟨G3, m4⟩⟩
    by_cases he : e = .ret .success
    · subst he
      rw [if_pos rfl]
      obtain ⟨m1, m2, m3, m4, m7⟩ := L3 _ rfl
      obtain ⟨v, m5, m6⟩ := m7 rfl
      obtain ⟨out, arr'', p1, p2, p3⟩ := putSol_aux st4 sol 0 [] arr' (fun v hv => by rw [hd3]; exact hs v hv)
      have hput : putSol st4 sol arr' = some out := by
        unfold putSol
        simp only
        rw [p1]
        simp
      rw [hput]
      refine ⟨_, _, _, _, rfl, ⟨k4, L2, hprev4, fun s e _ => ⟨hlin _ rfl, G2, fun _ => by rw [m5]; rfl⟩⟩, fun _ => hS3, hj3, Or.inr ht3,
        fun h => absurd rfl h, fun _ => ⟨p2, fun i h1 h2 h3 => ?_⟩⟩
      obtain ⟨a, q1, q2⟩ := p3 i h1 h2
      rw [Nat.zero_add, hd3] at q1
      simp only [Nat.zero_add, hd3] at q2
      refine ⟨i * A.dims.1, a, q1, fun r hr => ?_⟩
      have hrep := m4 v m5
      have hfac : ∀ i, i < A.dims.1 → st4.fac i ≠ 0 := by
        intro i hi
        unfold TSym.fac
        by_cases hu : st4.useScaling = true
        · rw [if_pos hu]; exact G3 hu i (by omega)
        · rw [if_neg hu]; exact one_ne_zero
      have := unscale A.dims.1 (ent A) st4.fac (fun c => arr' (i * A.dims.1 + c)) (fun r => rhs[i].elems.getD r 0)
        (denote E.fmt st4.nnz st4.ia st4.ja v) (fun r c hr hc => hrep r c (by omega) (by omega)) hfac ?_ r hr
      · rw [← this]
        refine Finset.sum_congr rfl (fun c hc => ?_)
        rw [q2 c (Finset.mem_range.1 hc)]
      · intro r hr
        have := m6 i h3 r (by show r < st4.dim; omega)
        simp only [TSym.struct, hd3] at this
        rw [this]
        have := hA2 i h3 r (by omega)
        rw [Nat.zero_add, hd3] at this
        exact this
    · rw [if_neg he]
      refine ⟨_, _, _, _, rfl, ⟨k4, L2, hprev4, fun s e' hf => ⟨hlin s e', G2, fun hs => ?_⟩⟩, fun _ => hS3, hj3, Or.inr ht3,
        fun _ => rfl, fun e' => absurd e' he⟩
      rw [hs] at e'; exact absurd e' he

end Verif.AugSolve
