import Verif.Spec.DerivCheck
import Mathlib.Tactic.Ring
import Mathlib.Tactic.Linarith
import Mathlib.Data.List.Basic

namespace Verif.DerivCheck
open Spec
open scoped BigOperators
set_option linter.unusedSectionVars false
set_option linter.unusedSimpArgs false
set_option linter.unusedVariables false

variable {K : Type} [Field K] [LinearOrder K]

/-! ### Executions that follow a plan -/

theorem upTo_append_ok (p : Prob K) (A B : List (Call K)) (h : A.all (answered p) = true) : upTo p (A ++ B) = A ++ upTo p B := by
  induction A with
  | nil => rfl
  | cons c l ih =>
    simp only [List.all_cons, Bool.and_eq_true] at h
    simp [upTo, h.1, ih h.2]

theorem upTo_append_bad (p : Prob K) (A B : List (Call K)) (h : ¬ A.all (answered p) = true) : upTo p (A ++ B) = upTo p A := by
  induction A with
  | nil => simp at h
  | cons c l ih =>
    by_cases hc : answered p c = true
    · simp only [List.all_cons, hc, Bool.true_and] at h
      simp [upTo, hc, ih h]
    · simp [upTo, hc]

/-- `m` makes the calls `L` (after `c`), as far as they are answered, and then has a result with `Q`. -/
def Exec {α : Type} (p : Prob K) (c L : List (Call K)) (m : Res K α) (Q : α → Prop) : Prop :=
  if L.all (answered p) = true then ∃ a, m = .ok a ∧ Q a else ∃ e, m = .error (e, c ++ upTo p L)

theorem Exec.bind {α β : Type} {p : Prob K} {c A B : List (Call K)} {m : Res K α} {Q : α → Prop} {k : α → Res K β} {R : β → Prop}
    (h : Exec p c A m Q) (hk : ∀ a, Q a → Exec p (c ++ A) B (k a) R) : Exec p c (A ++ B) (m >>= k) R := by
  unfold Exec at *
  by_cases hA : A.all (answered p) = true
  · rw [if_pos hA] at h
    obtain ⟨a, ha, hQ⟩ := h
    have h2 := hk a hQ
    have : (m >>= k) = k a := by rw [ha]; rfl
    rw [this, List.all_append, hA, Bool.true_and]
    by_cases hB : B.all (answered p) = true
    · rw [if_pos hB] at h2 ⊢; exact h2
    · rw [if_neg hB] at h2 ⊢
      obtain ⟨e, he⟩ := h2
      exact ⟨e, by rw [he, upTo_append_ok p A B hA, List.append_assoc]⟩
  · rw [if_neg hA] at h
    obtain ⟨e, he⟩ := h
    have hAB : ¬ (A ++ B).all (answered p) = true := by
      rw [List.all_append, Bool.and_eq_true]; exact fun h => hA h.1
    rw [if_neg hAB]
    exact ⟨e, by rw [he, upTo_append_bad p A B hA]; rfl⟩

theorem Exec.pure {α : Type} {p : Prob K} {c : List (Call K)} {a : α} {Q : α → Prop} (h : Q a) : Exec p c [] (Pure.pure a : Res K α) Q := by
  unfold Exec
  simp
  exact ⟨a, rfl, h⟩

/-- the last step does not call. -/
theorem Exec.map {α β : Type} {p : Prob K} {c A : List (Call K)} {m : Res K α} {Q : α → Prop} {k : α → Res K β} {R : β → Prop}
    (h : Exec p c A m Q) (hk : ∀ a, Q a → ∃ b, k a = .ok b ∧ R b) : Exec p c A (m >>= k) R := by
  have := Exec.bind (B := []) h (k := k) (R := R) (fun a ha => by
    obtain ⟨b, hb, hR⟩ := hk a ha
    rw [hb]; exact Exec.pure hR)
  rwa [List.append_nil] at this

theorem exec_need {α : Type} {p : Prob K} {c : List (Call K)} {st : St K} {k : Call K} {o : Option α} {e : Exc} (hc : st.calls = c ++ [k])
    (hk : answered p k = o.isSome) : Exec p c [k] (need o e st) (fun a => o = some a) := by
  unfold Exec
  cases o with
  | none => simp [hk, upTo, need, hc]
  | some a => simp [hk, need]

/-- State after the calls `c` and the tests `es`. -/
structure Ok (cfg : Cfg K) (x lam : Nat → K) (c : List (Call K)) (es : List (Entry K)) (st : St K) : Prop where
  xp : st.xpert = x
  lm : st.lam = lam
  ne : st.nerr = es.countP (wrong cfg.tol)
  ln : st.lines = (es.filter fun e => wrong cfg.tol e || cfg.printAll).map (line cfg.tol)
  cl : st.calls = c

theorem exec_fold {β : Type} {p : Prob K} (cfg : Cfg K) (x lam : Nat → K) (f : St K → β → Res K (St K)) (planOf : β → List (Call K)) (entOf : β → List (Entry K))
    (l : List β) (h : ∀ b ∈ l, ∀ c es st, Ok cfg x lam c es st → Exec p c (planOf b) (f st b) (Ok cfg x lam (c ++ planOf b) (es ++ entOf b)))
    (c : List (Call K)) (es : List (Entry K)) (st : St K) (hs : Ok cfg x lam c es st) :
    Exec p c (l.flatMap planOf) (l.foldlM f st) (Ok cfg x lam (c ++ l.flatMap planOf) (es ++ l.flatMap entOf)) := by
  induction l generalizing c es st with
  | nil => simp only [List.flatMap_nil, List.append_nil, List.foldlM_nil]; exact Exec.pure hs
  | cons b l ih =>
    simp only [List.flatMap_cons, List.foldlM_cons]
    refine Exec.bind (h b (by simp) c es st hs) fun a ha => ?_
    have := ih (fun b hb => h b (by simp [hb])) _ _ a ha
    simpa only [List.append_assoc] using this

/-! ### Comparisons -/

theorem compare_ok {cfg : Cfg K} {x lam : Nat → K} {c : List (Call K)} {es : List (Entry K)} {st : St K} (h : Ok cfg x lam c es st) (e : Entry K) :
    Ok cfg x lam c (es ++ [e]) (compare cfg e.what e.exact e.found e.approx st) := by
  obtain ⟨h1, h2, h3, h4, h5⟩ := h
  have hw : decide (cfg.tol ≤ |e.approx - e.exact| / max |e.approx| cfg.tol) = wrong cfg.tol e := rfl
  unfold compare
  simp only [hw]
  by_cases hs : wrong cfg.tol e = true
  · constructor <;> simp [hs, h1, h2, h3, h4, h5, List.countP_append, List.filter_append, line, rel]
  · have hs' : wrong cfg.tol e = false := by simpa using hs
    by_cases hp : cfg.printAll = true
    · constructor <;> simp [hs', hp, h1, h2, h3, h4, h5, List.countP_append, List.filter_append, line, rel]
    · constructor <;> simp [hs', hp, h1, h2, h3, h4, h5, List.countP_append, List.filter_append, line, rel]

theorem compare_fold_ok {cfg : Cfg K} {x lam : Nat → K} {c : List (Call K)} (f : St K → Nat → St K) (ent : Nat → Entry K) (l : List Nat)
    (hf : ∀ b ∈ l, ∀ st, f st b = compare cfg (ent b).what (ent b).exact (ent b).found (ent b).approx st)
    (es : List (Entry K)) (st : St K) (h : Ok cfg x lam c es st) : Ok cfg x lam c (es ++ l.map ent) (l.foldl f st) := by
  induction l generalizing es st with
  | nil => simpa using h
  | cons b l ih =>
    simp only [List.map_cons, List.foldl_cons]
    rw [hf b (by simp)]
    have := ih (fun b hb => hf b (by simp [hb])) _ _ (compare_ok h (ent b))
    simpa using this

theorem sumEntries_gen (l : List Nat) (q : Nat → Bool) (v : Nat → K) (a : K × Bool) :
    l.foldl (fun a i => if q i then (a.1 + v i, true) else a) a = (a.1 + ((l.filter q).map v).sum, a.2 || l.any q) := by
  induction l generalizing a with
  | nil => simp
  | cons i l ih =>
    rw [List.foldl_cons, ih]
    by_cases h : q i = true
    · simp [h, add_assoc]
    · simp [h]

theorem sum_filter_range (nz : Nat) (q : Nat → Prop) [DecidablePred q] (v : Nat → K) :
    ∑ k ∈ (Finset.range nz).filter q, v k = (((List.range nz).filter fun k => decide (q k)).map v).sum := by
  induction nz with
  | zero => simp
  | succ n ih =>
    rw [Finset.range_add_one, Finset.filter_insert, List.range_succ, List.filter_append]
    by_cases h : q n
    · rw [if_pos h, Finset.sum_insert (by simp), ih]; simp [h, add_comm]
    · rw [if_neg h, ih]; simp [h]

theorem sumEntries_eq (nz : Nat) (q : Nat → Bool) (Q : Nat → Prop) [DecidablePred Q] (v : Nat → K) (h : ∀ k, q k = true ↔ Q k) :
    sumEntries nz q v = (∑ k ∈ (Finset.range nz).filter Q, v k, decide (∃ k < nz, Q k)) := by
  unfold sumEntries
  rw [sumEntries_gen, sum_filter_range]
  have hq : q = fun k => decide (Q k) := by
    funext k
    by_cases hQ : Q k
    · simp [hQ, (h k).2 hQ]
    · have : ¬ q k = true := fun hh => hQ ((h k).1 hh)
      simp [hQ, this]
  subst hq
  refine Prod.ext ?_ ?_
  · simp
  · apply Bool.eq_iff_iff.2
    simp

theorem collectRow_eq (nz : Nat) (S : Nat → Int × Int) (icon : Int) (v : Nat → K) (j : Nat) :
    collectRow nz S icon v j = ∑ k ∈ (Finset.range nz).filter (fun k => S k = (icon, (j : Int))), v k := by
  rw [sum_filter_range]
  unfold collectRow
  have key : ∀ (l : List Nat) (a : Int → K), l.foldl (fun (a : Int → K) i => if (S i).1 = icon then Function.update a (S i).2 (a (S i).2 + v i) else a) a (j : Int)
      = a j + ((l.filter fun k => decide (S k = (icon, (j : Int)))).map v).sum := by
    intro l
    induction l with
    | nil => simp
    | cons i l ih =>
      intro a
      rw [List.foldl_cons, ih]
      by_cases h1 : (S i).1 = icon
      · by_cases h2 : (S i).2 = (j : Int)
        · have : S i = (icon, (j : Int)) := Prod.ext h1 h2
          simp [this, add_assoc]
        · have : ¬ S i = (icon, (j : Int)) := fun h => h2 (by rw [h])
          simp [this, h1, Function.update_of_ne (Ne.symm h2)]
      · have : ¬ S i = (icon, (j : Int)) := fun h => h1 (by rw [h])
        simp [this, h1]
  rw [key]; simp

/-! ### The loops -/

/-- the variables known at the reference point belong to `d`. -/
structure IsRef (p : Prob K) (d : Data K) (r : Ref K) : Prop where
  nx : r.nx = d.n
  ng : r.ng = d.m
  nj : r.nzJac = d.nzJ
  nh : r.nzHess = d.nzH
  corr : r.corr = d.base
  xref : r.xref = d.x
  fref : r.fref = F p d.x
  gradF : r.gradF = DF p d.x
  gref : 0 < d.m → r.gref = G p d.x
  jacS : 0 < d.m → r.jacS = cStyle d.base (JS p)
  jac : 0 < d.m → r.jac = J p d.x

theorem moved_eq (pert : K) (x : Nat → K) (j : Nat) : Function.update x j (x j + pert * max 1 |x j|) = moved pert x j := by
  funext i
  unfold moved step
  by_cases h : i = j
  · subst h; simp
  · simp [h]

theorem moved_back (pert : K) (x : Nat → K) (j : Nat) : Function.update (moved pert x j) j (x j) = x := by
  funext i
  unfold moved
  by_cases h : i = j
  · subst h; simp
  · simp [h]

theorem cStyle_iff (b : Int) (S : Nat → Int × Int) (k : Nat) (i j : Int) : cStyle b S k = (i, j) ↔ S k = (i + b, j + b) := by
  unfold cStyle
  rw [Prod.ext_iff, Prod.ext_iff]
  constructor <;> rintro ⟨h1, h2⟩ <;> simp only at h1 h2 ⊢ <;> constructor <;> omega

theorem firstG_exec {cfg : Cfg K} {p : Prob K} {d : Data K} {r : Ref K} (hr : IsRef p d r) {lam : Nat → K} (j : Nat)
    (c : List (Call K)) (es : List (Entry K)) (st : St K) (hs : Ok cfg (moved cfg.pert d.x j) lam c es st) (hn : st.newX = false) :
    let pl := if 0 < d.m then [Call.g (moved cfg.pert d.x j) false] else []
    Exec p c pl (firstG cfg p r j (step cfg.pert d.x j) st)
      (Ok cfg (moved cfg.pert d.x j) lam (c ++ pl) (es ++ (List.range d.m).map fun i => conEntry cfg.pert p d i j)) := by
  intro pl
  obtain ⟨r1, r2, r3, r4, r5, r6, r7, r8, r9, r10, r11⟩ := hr
  obtain ⟨h1, h2, h3, h4, h5⟩ := hs
  unfold firstG
  by_cases hm : 0 < d.m
  · have hm' : 0 < r.ng := by omega
    have hpl : pl = [Call.g (moved cfg.pert d.x j) false] := by simp [pl, hm]
    rw [hpl, if_pos hm']
    refine Exec.map (exec_need (k := Call.g (moved cfg.pert d.x j) false) (by simp [call, h5, h1, hn]) (by simp [call, answered, h1])) ?_
    intro gp hgp
    refine ⟨_, rfl, ?_⟩
    have e1 : gp = G p (moved cfg.pert d.x j) := by
      simp only [call] at hgp
      rw [h1] at hgp
      simp [G, hgp]
    rw [r2]
    refine compare_fold_ok (cfg := cfg) (x := moved cfg.pert d.x j) (lam := lam) _
      (fun i => conEntry cfg.pert p d i j) (List.range d.m) ?_ es _ ⟨?_, ?_, ?_, ?_, ?_⟩
    · intro i hi s
      have hq := sumEntries_eq (K := K) d.nzJ (fun k => decide ((r.jacS k).1 = (i : Int)) && decide ((r.jacS k).2 = (j : Int)))
        (fun k => JS p k = ((i : Int) + d.base, (j : Int) + d.base)) r.jac (by
          intro k
          rw [Bool.and_eq_true, decide_eq_true_eq, decide_eq_true_eq, r10 hm, ← cStyle_iff, Prod.ext_iff])
      rw [r3, hq, r5, e1, r9 hm, r11 hm]
      rfl
    · exact h1
    · exact h2
    · exact h3
    · exact h4
    · simp [call, h5, h1, hn]
  · have hm' : ¬ 0 < r.ng := by omega
    have hm0 : d.m = 0 := by omega
    have hpl : pl = [] := by simp [pl, hm]
    rw [hpl, if_neg hm']
    refine Exec.pure ⟨h1, h2, ?_, ?_, ?_⟩
    · simpa [hm0] using h3
    · simpa [hm0] using h4
    · simpa using h5

theorem compare_newX (cfg : Cfg K) (a : What) (b : K) (b' : Bool) (b'' : K) (s : St K) : (compare cfg a b b' b'' s).newX = s.newX := by
  unfold compare; simp only; split_ifs <;> rfl

theorem firstStep_exec {cfg : Cfg K} {p : Prob K} {d : Data K} {r : Ref K} (hr : IsRef p d r) {lam : Nat → K} (j : Nat)
    (c : List (Call K)) (es : List (Entry K)) (st : St K) (hs : Ok cfg d.x lam c es st) :
    let pl := Call.f (moved cfg.pert d.x j) true :: if 0 < d.m then [Call.g (moved cfg.pert d.x j) false] else []
    Exec p c pl (firstStep cfg p r st j)
      (Ok cfg d.x lam (c ++ pl) (es ++ gradEntry cfg.pert p d j :: (List.range d.m).map fun i => conEntry cfg.pert p d i j)) := by
  intro pl
  obtain ⟨h1, h2, h3, h4, h5⟩ := hs
  have hG := fun c es st => firstG_exec (cfg := cfg) (p := p) (d := d) (r := r) hr (lam := lam) j c es st
  obtain ⟨r1, r2, r3, r4, r5, r6, r7, r8, r9, r10, r11⟩ := hr
  unfold firstStep
  simp only [h1, r6, thisPert, moved_eq]
  have hpl : pl = [Call.f (moved cfg.pert d.x j) true] ++ if 0 < d.m then [Call.g (moved cfg.pert d.x j) false] else [] := rfl
  rw [hpl]
  refine Exec.bind (exec_need (k := Call.f (moved cfg.pert d.x j) true) (by simp [call, h5]) rfl) fun fp hfp => ?_
  have e1 : fp = F p (moved cfg.pert d.x j) := by
    simp only [call] at hfp
    simp [F, hfp]
  refine Exec.map (hG (c ++ [Call.f (moved cfg.pert d.x j) true]) (es ++ [gradEntry cfg.pert p d j]) _ ?_ ?_) ?_
  · rw [r5, r7, r8, e1]
    exact compare_ok (cfg := cfg) (x := moved cfg.pert d.x j) (lam := lam) (c := c ++ [Call.f (moved cfg.pert d.x j) true]) (es := es)
      (st := { call (.f (moved cfg.pert d.x j) true) { st with xpert := moved cfg.pert d.x j, newX := true } with newX := false })
      ⟨rfl, h2, h3, h4, by simp [call, h5]⟩ (gradEntry cfg.pert p d j)
  · rw [compare_newX]
  · intro s hs
    refine ⟨_, rfl, ?_, ?_, ?_, ?_, ?_⟩
    · show Function.update s.xpert j (d.x j) = d.x
      rw [hs.xp, moved_back]
    · exact hs.lm
    · have := hs.ne; simpa using this
    · have := hs.ln; simpa using this
    · have := hs.cl; simpa using this

theorem range'_vars (start : Int) (n : Nat) : List.range' (max 0 start).toNat (n - (max 0 start).toNat) = vars start n := by
  unfold vars
  have key : ∀ a n : Nat, List.range' a (n - a) = (List.range n).filter fun j => decide (a ≤ j) := by
    intro a n
    induction n with
    | zero => simp
    | succ n ih =>
      rw [List.range_succ, List.filter_append, ← ih]
      by_cases h : a ≤ n
      · have : n + 1 - a = (n - a) + 1 := by omega
        rw [this, List.range'_concat]
        simp [h]
      · have h0 : n + 1 - a = 0 := by omega
        have h1 : n - a = 0 := by omega
        simp [h, h0, h1]
  rw [key]
  apply List.filter_congr
  intro j _
  apply decide_eq_decide.2
  omega

theorem firstOrder_exec {cfg : Cfg K} {p : Prob K} {d : Data K} {r : Ref K} (hr : IsRef p d r) {lam : Nat → K}
    (c : List (Call K)) (es : List (Entry K)) (st : St K) (hs : Ok cfg d.x lam c es st) :
    Exec p c (firstCalls cfg d) (firstOrder cfg p r st) (Ok cfg d.x lam (c ++ firstCalls cfg d)
      (es ++ (vars cfg.startIdx d.n).flatMap fun j => gradEntry cfg.pert p d j :: (List.range d.m).map fun i => conEntry cfg.pert p d i j)) := by
  unfold firstOrder
  rw [hr.nx]
  simp only
  rw [range'_vars]
  exact exec_fold cfg d.x lam (firstStep cfg p r) _ _ _ (fun j _ c es st h => firstStep_exec hr j c es st h) c es st hs

/-! ### Second order -/

/-- the number of a function in the loop of the second-order test. -/
def num : Option Nat → Int
  | none => -1
  | some i => i

theorem icons_eq (start : Int) (m : Nat) :
    ((List.range ((m : Int) - max (-1) start).toNat).map fun (k : Nat) => max (-1) start + (k : Int)) = (funs start m).map num := by
  have key : ∀ (a : Int) (m : Nat), 0 ≤ a → ((List.range ((m : Int) - a).toNat).map fun (k : Nat) => a + (k : Int)) = ((List.range m).filter fun (i : Nat) => decide (a ≤ (i : Int))).map fun (i : Nat) => (i : Int) := by
    intro a m ha
    induction m with
    | zero => have : ((0 : Nat) - a : Int).toNat = 0 := by omega
              rw [this]; rfl
    | succ n ih =>
      rw [List.range_succ (n := n), List.filter_append, List.map_append, ← ih]
      by_cases h : a ≤ n
      · have : (((n + 1 : Nat) : Int) - a).toNat = ((n : Int) - a).toNat + 1 := by omega
        rw [this, List.range_succ, List.map_append]
        simp [h]
      · have h0 : (((n + 1 : Nat) : Int) - a).toNat = 0 := by omega
        have h1 : ((n : Int) - a).toNat = 0 := by omega
        rw [h0, h1]
        simp [h]
  unfold funs
  by_cases h : start ≤ -1
  · have hmax : max (-1) start = -1 := by omega
    rw [hmax, if_pos h]
    have h2 := key 0 m (le_refl _)
    have h3 : ((m : Int) - (-1)).toNat = m + 1 := by omega
    rw [h3, List.range_succ_eq_map, List.map_cons, List.map_map, List.map_append, List.map_map]
    have h4 : ((m : Int) - 0).toNat = m := by omega
    rw [h4] at h2
    have h5 : (List.range m).filter (fun (i : Nat) => decide (start ≤ (i : Int))) = (List.range m).filter fun (i : Nat) => decide ((0 : Int) ≤ (i : Int)) := by
      apply List.filter_congr; intro j _; apply decide_eq_decide.2; omega
    rw [h5]
    have h6 : (num ∘ some) = fun (i : Nat) => (i : Int) := rfl
    rw [h6, ← h2]
    simp only [List.map_cons, List.map_nil, List.singleton_append, num]
    congr 1
    apply List.map_congr_left
    intro k _
    simp only [Function.comp]
    push_cast
    ring
  · have hmax : max (-1) start = start := by omega
    rw [hmax, if_neg h, key start m (by omega), List.nil_append, List.map_map]
    rfl

theorem gradients_exec {cfg : Cfg K} {p : Prob K} {d : Data K} {r : Ref K} (hr : IsRef p d r) {lam : Nat → K} (j : Nat) (f : Option Nat) (hf : f ≠ none → 0 < d.m)
    (c : List (Call K)) (es : List (Entry K)) (st : St K) (hs : Ok cfg (moved cfg.pert d.x j) lam c es st) (hn : st.newX = true) :
    let k := if f = none then Call.gradF (moved cfg.pert d.x j) true else Call.jac (moved cfg.pert d.x j) true
    Exec p c [k] (gradients p r (num f) st) (fun a => Ok cfg (moved cfg.pert d.x j) lam (c ++ [k]) es a.1 ∧ a.2.1 = gradOf p d f d.x ∧ a.2.2 = gradOf p d f (moved cfg.pert d.x j)) := by
  intro k
  obtain ⟨r1, r2, r3, r4, r5, r6, r7, r8, r9, r10, r11⟩ := hr
  obtain ⟨h1, h2, h3, h4, h5⟩ := hs
  unfold gradients
  cases f with
  | none =>
    have hk : k = Call.gradF (moved cfg.pert d.x j) true := rfl
    rw [hk]
    simp only [num, if_true]
    refine Exec.map (exec_need (k := Call.gradF (moved cfg.pert d.x j) true) (by simp [call, h5, h1, hn]) (by simp [call, answered, h1])) ?_
    intro gp hgp
    refine ⟨_, rfl, ⟨h1, h2, h3, h4, by simp [call, h5, h1, hn]⟩, ?_, ?_⟩
    · funext i; simp [gradOf, r8]
    · simp only [call] at hgp
      rw [h1] at hgp
      funext i; simp [gradOf, DF, hgp]
  | some i =>
    have hm := hf (by simp)
    have hk : k = Call.jac (moved cfg.pert d.x j) true := rfl
    rw [hk]
    have hne : ¬ num (some i) = -1 := by simp only [num]; omega
    rw [if_neg hne]
    refine Exec.map (exec_need (k := Call.jac (moved cfg.pert d.x j) true) (by simp [call, h5, h1, hn]) (by simp [call, answered, h1])) ?_
    intro gp hgp
    refine ⟨_, rfl, ⟨h1, h2, h3, h4, by simp [call, h5, h1, hn]⟩, ?_, ?_⟩
    · funext k
      simp only [gradOf, jacEntry]
      rw [collectRow_eq, r3, r10 hm, r11 hm]
      refine Finset.sum_congr (Finset.filter_congr fun t _ => ?_) fun _ _ => rfl
      rw [cStyle_iff]; rfl
    · simp only [call] at hgp
      rw [h1] at hgp
      have e : gp = J p (moved cfg.pert d.x j) := by simp [J, hgp]
      funext k
      simp only [gradOf, jacEntry]
      rw [collectRow_eq, r3, r10 hm, e]
      refine Finset.sum_congr (Finset.filter_congr fun t _ => ?_) fun _ _ => rfl
      rw [cStyle_iff]; rfl

theorem hessStep_exec {cfg : Cfg K} {p : Prob K} {d : Data K} {r : Ref K} (hr : IsRef p d r) {lam : Nat → K} (f : Option Nat) (hf : f ≠ none → 0 < d.m) (j : Nat)
    (c : List (Call K)) (es : List (Entry K)) (st : St K) (hs : Ok cfg d.x lam c es st) :
    let k := if f = none then Call.gradF (moved cfg.pert d.x j) true else Call.jac (moved cfg.pert d.x j) true
    Exec p c [k] (hessStep cfg p r (cStyle r.corr (HS p)) (H p d.x (objOf f) (lamOf f)) (num f) st j)
      (Ok cfg d.x lam (c ++ [k]) (es ++ (List.range d.n).map fun k => secEntry cfg.pert p d f j k)) := by
  intro k
  obtain ⟨h1, h2, h3, h4, h5⟩ := hs
  have hG := fun c es st => gradients_exec (cfg := cfg) (p := p) (d := d) (r := r) hr (lam := lam) j f hf c es st
  obtain ⟨r1, r2, r3, r4, r5, r6, r7, r8, r9, r10, r11⟩ := hr
  unfold hessStep
  simp only [h1, r6, thisPert, moved_eq]
  refine Exec.map (hG c es _ ⟨rfl, h2, h3, h4, h5⟩ rfl) ?_
  rintro ⟨s, gr, gp⟩ ⟨hs, e1, e2⟩
  refine ⟨_, rfl, ?_⟩
  simp only at hs e1 e2
  subst e1 e2
  have := compare_fold_ok (cfg := cfg) (x := moved cfg.pert d.x j) (lam := lam) (c := c ++ [k])
    (fun (st : St K) (ivar2 : Nat) =>
      let e := sumEntries r.nzHess (fun i => (decide ((cStyle r.corr (HS p) i).1 = (j : Int)) && decide ((cStyle r.corr (HS p) i).2 = (ivar2 : Int))) ||
        (decide ((cStyle r.corr (HS p) i).2 = (j : Int)) && decide ((cStyle r.corr (HS p) i).1 = (ivar2 : Int)))) (H p d.x (objOf f) (lamOf f))
      let what := if num f = -1 then What.objHess (j + r.corr) (ivar2 + r.corr) else What.conHess (num f + r.corr) (j + r.corr) (ivar2 + r.corr)
      compare cfg what e.1 e.2 (3 / 2 * (gradOf p d f (moved cfg.pert d.x j) ivar2 - gradOf p d f d.x ivar2) / (cfg.pert * max 1 |d.x j|)) st)
    (fun k => secEntry cfg.pert p d f j k) (List.range d.n) ?_ es s hs
  · rw [r1]
    refine ⟨?_, this.lm, this.ne, this.ln, this.cl⟩
    show Function.update _ j (d.x j) = d.x
    rw [this.xp, moved_back]
  · intro k2 _ s2
    have hq := sumEntries_eq (K := K) d.nzH (fun i => (decide ((cStyle r.corr (HS p) i).1 = (j : Int)) && decide ((cStyle r.corr (HS p) i).2 = (k2 : Int))) ||
        (decide ((cStyle r.corr (HS p) i).2 = (j : Int)) && decide ((cStyle r.corr (HS p) i).1 = (k2 : Int))))
      (fun t => HS p t = ((j : Int) + d.base, (k2 : Int) + d.base) ∨ HS p t = ((k2 : Int) + d.base, (j : Int) + d.base)) (H p d.x (objOf f) (lamOf f)) (by
        intro t
        rw [r5, ← cStyle_iff, ← cStyle_iff, Prod.ext_iff, Prod.ext_iff]
        simp only [Bool.or_eq_true, Bool.and_eq_true, decide_eq_true_eq]
        tauto)
    have hw : (if num f = -1 then What.objHess (j + r.corr) (k2 + r.corr) else What.conHess (num f + r.corr) (j + r.corr) (k2 + r.corr)) = hessWhat d f j k2 := by
      rw [r5]
      cases f with
      | none => rfl
      | some i =>
        have hne : ¬ num (some i) = -1 := by simp only [num]; omega
        rw [if_neg hne]; rfl
    simp only
    rw [r4, hq, hw]
    rfl

theorem lam_reset (f : Option Nat) (s : St K) (h : s.lam = lamOf f) :
    (if 0 ≤ num f then { s with lam := Function.update s.lam (num f).toNat 0 } else s).lam = fun _ => 0 := by
  cases f with
  | none =>
    have : ¬ 0 ≤ num none := by simp [num]
    rw [if_neg this, h]
    funext t
    simp [lamOf]
  | some i =>
    have : 0 ≤ num (some i) := by simp only [num]; omega
    rw [if_pos this]
    funext t
    show Function.update s.lam (num (some i)).toNat 0 t = 0
    rw [h]
    by_cases ht : t = i
    · subst ht; simp [num]
    · have : ¬ i = t := fun h => ht h.symm
      simp [num, ht, this, lamOf]

theorem conStep_exec {cfg : Cfg K} {p : Prob K} {d : Data K} {r : Ref K} (hr : IsRef p d r) (f : Option Nat) (hf : f ≠ none → 0 < d.m)
    (c : List (Call K)) (es : List (Entry K)) (st : St K) (hs : Ok cfg d.x (fun _ => 0) c es st) :
    let pl := Call.hess d.x true (objOf f) (lamOf f) true :: (List.range d.n).map fun j => if f = none then Call.gradF (moved cfg.pert d.x j) true else Call.jac (moved cfg.pert d.x j) true
    Exec p c pl (conStep cfg p r (cStyle r.corr (HS p)) st (num f))
      (Ok cfg d.x (fun _ => 0) (c ++ pl) (es ++ (List.range d.n).flatMap fun j => (List.range d.n).map fun k => secEntry cfg.pert p d f j k)) := by
  intro pl
  obtain ⟨h1, h2, h3, h4, h5⟩ := hs
  have hH := fun lam j c es st => hessStep_exec (cfg := cfg) (p := p) (d := d) (r := r) hr (lam := lam) f hf j c es st
  obtain ⟨r1, r2, r3, r4, r5, r6, r7, r8, r9, r10, r11⟩ := hr
  unfold conStep
  have hpl : pl = [Call.hess d.x true (objOf f) (lamOf f) true] ++
    (List.range d.n).flatMap fun j => [if f = none then Call.gradF (moved cfg.pert d.x j) true else Call.jac (moved cfg.pert d.x j) true] := by
    rw [← List.map_eq_flatMap]; rfl
  have hobj : (if num f = -1 then (3 / 2 : K) else 0) = objOf f := by
    cases f with
    | none => rfl
    | some i =>
      have hne : ¬ num (some i) = -1 := by simp only [num]; omega
      rw [if_neg hne]; simp [objOf]
  have hlam : ∀ s : St K, s.lam = (fun _ => 0) → (if num f = -1 then s else { s with lam := Function.update s.lam (num f).toNat (3 / 2) }).lam = lamOf f := by
    intro s hs
    cases f with
    | none => simp [num, hs, lamOf]; rfl
    | some i =>
      have hne : ¬ num (some i) = -1 := by simp only [num]; omega
      rw [if_neg hne]
      funext t
      simp only [num, hs, lamOf, Int.toNat_natCast]
      by_cases ht : t = i
      · subst ht; simp
      · have : ¬ i = t := fun h => ht h.symm
        simp [ht, this]
  have hsame : ∀ s : St K, (if num f = -1 then s else { s with lam := Function.update s.lam (num f).toNat (3 / 2) }) = { s with lam := (if num f = -1 then s else { s with lam := Function.update s.lam (num f).toNat (3 / 2) }).lam } := by
    intro s; split_ifs <;> rfl
  simp only
  rw [hsame st, hlam st h2, hobj, r6, r1, hpl]
  simp only [call]
  refine Exec.bind (exec_need (k := Call.hess d.x true (objOf f) (lamOf f) true) (by simp [h5]) rfl) fun hv hhv => ?_
  have e1 : hv = H p d.x (objOf f) (lamOf f) := by simp [H, hhv]
  rw [e1]
  refine Exec.map (exec_fold cfg d.x (lamOf f) _ (fun j => [if f = none then Call.gradF (moved cfg.pert d.x j) true else Call.jac (moved cfg.pert d.x j) true])
    (fun j => (List.range d.n).map fun k => secEntry cfg.pert p d f j k) (List.range d.n) (fun j _ c es st h => hH (lamOf f) j c es st h) _ es _ ?_) ?_
  · exact ⟨h1, rfl, h3, h4, by simp [h5]⟩
  · intro s hs
    refine ⟨_, rfl, ?_⟩
    have hlam0 := lam_reset f s hs.lm
    have hsame : (if 0 ≤ num f then { s with lam := Function.update s.lam (num f).toNat 0 } else s) = { s with lam := fun _ => 0 } := by
      rw [← hlam0]; split_ifs <;> rfl
    rw [hsame]
    refine ⟨hs.xp, rfl, hs.ne, hs.ln, ?_⟩
    have := hs.cl
    simpa using this

theorem funs_pos {start : Int} {m : Nat} {f : Option Nat} (h : f ∈ funs start m) : f ≠ none → 0 < m := by
  intro hf
  unfold funs at h
  rw [List.mem_append] at h
  rcases h with h | h
  · split_ifs at h <;> simp at h; exact absurd h hf
  · rw [List.mem_map] at h
    obtain ⟨i, hi, _⟩ := h
    have := List.mem_range.1 (List.mem_filter.1 hi).1
    omega

theorem secondOrder_exec {cfg : Cfg K} {p : Prob K} {d : Data K} {r : Ref K} (hr : IsRef p d r) {lam : Nat → K}
    (c : List (Call K)) (es : List (Entry K)) (st : St K) (hs : Ok cfg d.x lam c es st) :
    Exec p c (secCalls cfg d) (secondOrder cfg p r st) (Ok cfg d.x (fun _ => 0) (c ++ secCalls cfg d)
      (es ++ (funs cfg.startIdx d.m).flatMap fun c => (List.range d.n).flatMap fun j => (List.range d.n).map fun k => secEntry cfg.pert p d c j k)) := by
  obtain ⟨h1, h2, h3, h4, h5⟩ := hs
  unfold secondOrder secCalls
  simp only [call]
  rw [hr.ng]
  refine Exec.bind (A := [Call.hessStruct]) (exec_need (k := Call.hessStruct) (by simp [h5]) rfl) fun S hS => ?_
  have e : S = HS p := by simp [HS, hS]
  rw [e, icons_eq, List.foldlM_map]
  have := exec_fold (p := p) cfg d.x (fun _ => 0) (fun st f => conStep cfg p r (cStyle r.corr (HS p)) st (num f)) _ _ (funs cfg.startIdx d.m)
    (fun f hf c es st h => conStep_exec hr f (funs_pos hf) c es st h) (c ++ [Call.hessStruct]) es { st with calls := st.calls ++ [Call.hessStruct], lam := fun _ => 0 } ⟨h1, rfl, h3, h4, by simp [h5]⟩
  simp only [List.append_assoc, List.singleton_append] at this ⊢
  exact this

/-! ### The reference point -/

theorem exec_need2 {α : Type} {p : Prob K} {c : List (Call K)} {st : St K} {k0 k : Call K} {o : Option α} {e : Exc} (hc : st.calls = c ++ [k0, k])
    (h0 : answered p k0 = true) (hk : answered p k = o.isSome) : Exec p c [k0, k] (need o e st) (fun a => o = some a) := by
  unfold Exec
  cases o with
  | none => simp [hk, h0, upTo, need, hc]
  | some a => simp [hk, h0, need]

/-- what the functions at the reference point leave alone. -/
structure Ok0 (lam : Nat → K) (c : List (Call K)) (st : St K) : Prop where
  lm : st.lam = lam
  ne : st.nerr = 0
  ln : st.lines = []
  cl : st.calls = c
  nw : st.newX = false

theorem refG_exec {p : Prob K} {d : Data K} (inf : Info) (hi : inf.m = d.m) (lam : Nat → K) (c : List (Call K)) (st : St K) (h : Ok0 lam c st) :
    let pl := if 0 < d.m then [Call.g d.x false] else []
    Exec p c pl (refG p inf d.x st) (fun a => Ok0 lam (c ++ pl) a.1 ∧ (0 < d.m → a.2 = G p d.x)) := by
  intro pl
  obtain ⟨h2, h3, h4, h5, h6⟩ := h
  unfold refG
  by_cases hm : 0 < d.m
  · have hm' : 0 < inf.m := by omega
    have hpl : pl = [Call.g d.x false] := by simp [pl, hm]
    rw [hpl, if_pos hm']
    refine Exec.map (exec_need (k := Call.g d.x false) (by simp [call, h5, h6]) rfl) ?_
    intro gp hgp
    exact ⟨_, rfl, ⟨h2, h3, h4, by simp [call, h5, h6], h6⟩, fun _ => by simp [G, hgp]⟩
  · have hm' : ¬ 0 < inf.m := by omega
    have hpl : pl = [] := by simp [pl, hm]
    rw [hpl, if_neg hm']
    exact Exec.pure ⟨⟨h2, h3, h4, by simp [h5], h6⟩, fun h => absurd h hm⟩

theorem refJac_exec {p : Prob K} {d : Data K} (inf : Info) (hi : inf.m = d.m) (lam : Nat → K) (c : List (Call K)) (st : St K) (h : Ok0 lam c st) :
    let pl := if 0 < d.m then [Call.jacStruct, Call.jac d.x false] else []
    Exec p c pl (refJac p inf d.base d.x st) (fun a => Ok0 lam (c ++ pl) a.1 ∧ (0 < d.m → a.2.1 = cStyle d.base (JS p) ∧ a.2.2 = J p d.x)) := by
  intro pl
  obtain ⟨h2, h3, h4, h5, h6⟩ := h
  unfold refJac
  by_cases hm : 0 < d.m
  · have hm' : 0 < inf.m := by omega
    have hpl : pl = [Call.jacStruct] ++ [Call.jac d.x false] := by simp [pl, hm]
    rw [hpl, if_pos hm']
    refine Exec.bind (exec_need (k := Call.jacStruct) (by simp [call, h5]) rfl) fun S hS => ?_
    refine Exec.map (exec_need (k := Call.jac d.x false) (by simp [call, h5, h6]) rfl) ?_
    intro gp hgp
    exact ⟨_, rfl, ⟨h2, h3, h4, by simp [call, h5, h6], h6⟩, fun _ => ⟨by simp [JS, hS], by simp [J, hgp]⟩⟩
  · have hm' : ¬ 0 < inf.m := by omega
    have hpl : pl = [] := by simp [pl, hm]
    rw [hpl, if_neg hm']
    exact Exec.pure ⟨⟨h2, h3, h4, by simp [h5], h6⟩, fun h => absurd h hm⟩

theorem reference_exec {cfg : Cfg K} {p : Prob K} {d : Data K} (hd : IsData cfg p d) (st : St K) (hs : st.calls = []) (hn : st.nerr = 0) (hl : st.lines = []) (hm : st.lam = fun _ => 0) :
    Exec p [] (refCalls d) (reference cfg p st) (fun a => IsRef p d a.1 ∧ Ok cfg d.x (fun _ => 0) (refCalls d) [] a.2) := by
  obtain ⟨xl, xu, hi, hb, hbd, hx⟩ := hd
  have hx' : refPoint cfg p.start xl xu = d.x := hx.symm
  have hcorr : (if decide (d.base = 1) = true then (1 : Int) else 0) = d.base := by
    rcases hb with h | h <;> simp [h]
  unfold reference
  have e0 : refCalls d = [Call.info] ++ ([Call.start, Call.bounds] ++ ([Call.f d.x true] ++ ((if 0 < d.m then [Call.g d.x false] else []) ++ ([Call.gradF d.x true] ++ (if 0 < d.m then [Call.jacStruct, Call.jac d.x false] else []))))) := by
    simp [refCalls]
  rw [e0]
  refine Exec.bind (exec_need (k := Call.info) (by simp [call, hs]) rfl) fun inf hinf => ?_
  rw [hi] at hinf
  have hinf' := Option.some.inj hinf
  subst hinf'
  have hneg : ¬ ((d.n : Int) < 0 ∨ (d.m : Int) < 0 ∨ (d.nzJ : Int) < 0 ∨ (d.nzH : Int) < 0) := by omega
  rw [if_neg hneg]
  refine Exec.bind (exec_need2 (k0 := Call.start) (k := Call.bounds) (by simp [call, hs]) rfl rfl) fun b hb' => ?_
  rw [hbd] at hb'
  have := Option.some.inj hb'
  subst this
  simp only [hx', hcorr]
  refine Exec.bind (exec_need (k := Call.f d.x true) (by simp [call, hs]) rfl) fun fr hfr => ?_
  refine Exec.bind (refG_exec _ rfl (fun _ => 0) _ _ ⟨hm, hn, hl, by simp [call, hs], rfl⟩) ?_
  rintro ⟨s, gr⟩ ⟨hs1, hgr⟩
  simp only at hs1 hgr ⊢
  refine Exec.bind (exec_need (k := Call.gradF d.x true) (by simp [call, hs1.cl]) rfl) fun df hdf => ?_
  refine Exec.map (refJac_exec _ rfl (fun _ => 0) _ _ ⟨hs1.lm, hs1.ne, hs1.ln, by simp [call, hs1.cl], hs1.nw⟩) ?_
  rintro ⟨s2, S, J'⟩ ⟨hs2, hj⟩
  refine ⟨_, rfl, ⟨?_, ?_, ?_, ?_, rfl, rfl, ?_, ?_, hgr, fun h => (hj h).1, fun h => (hj h).2⟩, ⟨rfl, hs2.lm, hs2.ne, hs2.ln, ?_⟩⟩
  · simp
  · simp
  · simp
  · simp
  · simp [F, hfr]
  · simp [DF, hdf]
  · have := hs2.cl; simpa using this

theorem entries_eq (cfg : Cfg K) (p : Prob K) (d : Data K) : entries cfg p d =
  (if isFirst cfg.test then (vars cfg.startIdx d.n).flatMap fun j => gradEntry cfg.pert p d j :: (List.range d.m).map fun i => conEntry cfg.pert p d i j else []) ++
  (if isSecond cfg.test then (funs cfg.startIdx d.m).flatMap fun c => (List.range d.n).flatMap fun j => (List.range d.n).map fun k => secEntry cfg.pert p d c j k else []) := rfl

/-- The whole run. -/
theorem check_exec {cfg : Cfg K} {p : Prob K} {d : Data K} (hd : IsData cfg p d) (ht : cfg.test ≠ .none) (hj : cfg.jnlst = true) :
    Exec p [] (plan cfg d) (checkDerivatives cfg p) (fun o => o = ⟨true, ((entries cfg p d).filter fun e => wrong cfg.tol e || cfg.printAll).map (line cfg.tol), plan cfg d,
      some (if (entries cfg p d).countP (wrong cfg.tol) = 0 then .noErrors else .errors ((entries cfg p d).countP (wrong cfg.tol)))⟩) := by
  have hR := reference_exec (cfg := cfg) (p := p) hd ⟨fun _ => 0, true, fun _ => 0, 0, [], []⟩ rfl rfl rfl rfl
  have hfin : ∀ (s : St K), Ok cfg d.x (fun _ => 0) (plan cfg d) (entries cfg p d) s →
      (⟨true, s.lines, s.calls, some (if s.nerr = 0 then .noErrors else .errors s.nerr)⟩ : Out K) = ⟨true, ((entries cfg p d).filter fun e => wrong cfg.tol e || cfg.printAll).map (line cfg.tol), plan cfg d,
      some (if (entries cfg p d).countP (wrong cfg.tol) = 0 then .noErrors else .errors ((entries cfg p d).countP (wrong cfg.tol)))⟩ := by
    intro s hs
    rw [hs.ne, hs.ln, hs.cl]
  unfold checkDerivatives
  cases h : cfg.test with
  | none => exact absurd h ht
  | first =>
    simp only [hj, Bool.not_true, Bool.false_eq_true, if_false]
    have e1 : plan cfg d = refCalls d ++ firstCalls cfg d := by simp [plan, h, isFirst, isSecond]
    have e2 : entries cfg p d = (vars cfg.startIdx d.n).flatMap fun j => gradEntry cfg.pert p d j :: (List.range d.m).map fun i => conEntry cfg.pert p d i j := by
      simp [entries, h, isFirst, isSecond]
    conv => arg 3; rw [e1]
    refine Exec.bind hR ?_
    rintro ⟨r, s⟩ ⟨hr, hs⟩
    refine Exec.map (firstOrder_exec hr _ [] s hs) fun s2 hs2 => ⟨_, rfl, ?_⟩
    apply hfin
    rw [e1, e2]; simpa using hs2
  | second =>
    simp only [hj, Bool.not_true, Bool.false_eq_true, if_false]
    have e1 : plan cfg d = refCalls d ++ (firstCalls cfg d ++ secCalls cfg d) := by simp [plan, h, isFirst, isSecond]
    have e2 : entries cfg p d = ((vars cfg.startIdx d.n).flatMap fun j => gradEntry cfg.pert p d j :: (List.range d.m).map fun i => conEntry cfg.pert p d i j) ++
      ((funs cfg.startIdx d.m).flatMap fun c => (List.range d.n).flatMap fun j => (List.range d.n).map fun k => secEntry cfg.pert p d c j k) := by
      simp [entries, h, isFirst, isSecond]
    conv => arg 3; rw [e1]
    refine Exec.bind hR ?_
    rintro ⟨r, s⟩ ⟨hr, hs⟩
    refine Exec.bind (firstOrder_exec hr _ [] s hs) fun s2 hs2 => ?_
    refine Exec.map (secondOrder_exec hr _ _ s2 hs2) fun s3 hs3 => ⟨_, rfl, ?_⟩
    apply hfin
    rw [e1, e2]; simpa using hs3
  | onlySecond =>
    simp only [hj, Bool.not_true, Bool.false_eq_true, if_false]
    have e1 : plan cfg d = refCalls d ++ secCalls cfg d := by simp [plan, h, isFirst, isSecond]
    have e2 : entries cfg p d = ((funs cfg.startIdx d.m).flatMap fun c => (List.range d.n).flatMap fun j => (List.range d.n).map fun k => secEntry cfg.pert p d c j k) := by
      simp [entries, h, isFirst, isSecond]
    conv => arg 3; rw [e1]
    refine Exec.bind hR ?_
    rintro ⟨r, s⟩ ⟨hr, hs⟩
    simp only [pure_bind]
    refine Exec.map (secondOrder_exec hr _ _ s hs) fun s3 hs3 => ⟨_, rfl, ?_⟩
    apply hfin
    rw [e1, e2]; simpa using hs3

end Verif.DerivCheck
