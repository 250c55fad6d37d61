import Verif.Proof.SmartPtr
import Mathlib.Algebra.Order.Group.Nat

/-!
# C08 — reference counting

Specification: an object is *owned* if some existing smart pointer — a variable of the program or a member of an object that
has not been deleted — refers to it.
-/

set_option linter.unusedSimpArgs false

namespace Verif.SP

/-- A smart pointer variable or a member of a not deleted object refers to `o`. -/
def Owned (h : Heap) (o : Nat) : Prop :=
  (∃ i, i < h.nv ∧ h.var i = some o) ∨ ∃ a, h.alive a = true ∧ some o ∈ h.fields a

private theorem refs_pos_iff (h : Heap) (hb : ∀ o, h.alive o = true → o < h.n) (o : Nat) : 0 < refs h o ↔ Owned h o := by
  constructor
  · intro hp
    unfold refs at hp
    by_cases h1 : 0 < sumTo h.nv (fun i => ind (h.var i) o)
    · obtain ⟨i, hi, hpos⟩ := sumTo_pos _ _ h1
      left
      refine ⟨i, hi, ?_⟩
      by_contra hc; simp [ind, hc] at hpos
    · obtain ⟨a, ha, hpos⟩ := sumTo_pos h.n (own h.alive h.fields o) (by omega)
      right
      refine ⟨a, ?_⟩
      unfold own at hpos
      split at hpos
      · rename_i hal; exact ⟨hal, List.count_pos_iff.1 hpos⟩
      · omega
  · rintro (⟨i, hi, he⟩ | ⟨a, ha, hm⟩)
    · have h1 := le_sumTo h.nv (fun i => ind (h.var i) o) i hi
      have e1 : ind (h.var i) o = 1 := by simp [ind, he]
      simp only [e1] at h1
      unfold refs; omega
    · have h1 := le_sumTo h.n (own h.alive h.fields o) a (hb a ha)
      have e1 : own h.alive h.fields o a = (h.fields a).count (some o) := by simp [own, ha]
      rw [e1] at h1
      have := List.count_pos_iff.2 hm
      unfold refs; omega

/-- Good states between statements. -/
private structure Good (h : Heap) : Prop where
  inv : Inv h []
  vars : VarsOk h

private theorem good_empty : Good Heap.empty := by
  refine ⟨⟨?_, ?_, ?_, ?_⟩, fun _ _ => rfl⟩ <;> intro o ho
  · simp [Heap.empty] at ho
  · simp [Heap.empty] at ho
  · simp [refs, sumTo, Heap.empty] at ho
  · simp [Heap.empty] at ho

/-- What evaluating a right-hand side guarantees. -/
private theorem evalRhs_good (h : Heap) (g : Good h) (r : Rhs) :
    Inv ((h.evalRhs r).2.addRef (h.evalRhs r).1) (h.evalRhs r).1.toList ∧ VarsOk (h.evalRhs r).2 ∧
    (h.evalRhs r).2.nv = h.nv ∧ (h.evalRhs r).2.var = h.var ∧ h.n ≤ (h.evalRhs r).2.n ∧
    (∀ o, o < h.n → (h.evalRhs r).2.fields o = h.fields o) ∧
    (∀ o, o < h.n → (h.evalRhs r).2.alive o = h.alive o) := by
  cases r with
  | null => exact ⟨by simpa [Heap.evalRhs, Heap.addRef] using g.inv, g.vars, rfl, rfl, le_refl _, fun _ _ => rfl, fun _ _ => rfl⟩
  | path p =>
    refine ⟨?_, g.vars, rfl, rfl, le_refl _, fun _ _ => rfl, fun _ _ => rfl⟩
    have := addRef_inv h [] g.inv (h.eval p) (fun o ho => eval_live g.inv g.vars p o ho)
    simpa [Heap.evalRhs] using this
  | new k =>
    refine ⟨?_, ?_, rfl, rfl, Nat.le_succ _, ?_, ?_⟩
    · simp only [Heap.evalRhs, Heap.addRef, Function.update_self]
      set h' : Heap := ⟨h.n + 1, Function.update h.alive h.n true, Function.update (Function.update h.count h.n 0) h.n (0 + 1),
        Function.update h.fields h.n (List.replicate k none), h.nv, h.var⟩ with hh'
      have hnew : h.alive h.n = false := by
        by_contra hc
        have := g.inv.bound h.n (by simpa using hc)
        omega
      have href : ∀ o, refs h' o = refs h o := by
        intro o
        simp only [refs, hh', sumTo]
        congr 1
        have e0 : own (Function.update h.alive h.n true) (Function.update h.fields h.n (List.replicate k none)) o h.n = 0 := by
          simp [own, List.count_replicate]
        rw [e0, Nat.add_zero]
        apply sumTo_congr
        intro i hi
        have : i ≠ h.n := by omega
        simp [own, Function.update_of_ne this]
      have hz : refs h h.n = 0 := by
        by_contra hc
        have := g.inv.live h.n (by omega)
        rw [hnew] at this; simp at this
      refine ⟨?_, ?_, ?_, ?_⟩
      · intro o ho
        simp only [hh'] at ho ⊢
        by_cases e : o = h.n
        · omega
        · rw [Function.update_of_ne e] at ho
          have := g.inv.bound o ho; omega
      · intro o ho
        rw [href]
        by_cases e : o = h.n
        · subst e; simp [hh', hz]
        · simp only [hh', Function.update_of_ne e] at ho ⊢
          have := g.inv.cnt o ho
          have e2 : ¬ h.n = o := fun e' => e e'.symm
          rw [this]; simp [List.count_cons, e2]
      · intro o ho
        rw [href] at ho
        by_cases e : o = h.n
        · subst e; simp [hh']
        · simp only [hh', Function.update_of_ne e]
          apply g.inv.live
          have e2 : ¬ h.n = o := fun e' => e e'.symm
          simpa [List.count_cons, e2] using ho
      · intro o ho
        rw [href]
        by_cases e : o = h.n
        · subst e; simp
        · simp only [hh', Function.update_of_ne e] at ho
          have := g.inv.pos o ho
          simp at this ⊢; omega
    · intro i hi; exact g.vars i hi
    · intro o ho
      have : o ≠ h.n := by omega
      simp [Heap.evalRhs, Function.update_of_ne this]
    · intro o ho
      have : o ≠ h.n := by omega
      simp [Heap.evalRhs, Function.update_of_ne this]

private theorem follow_mono (h h1 : Heap) (hf : ∀ o, o < h.n → h1.fields o = h.fields o) (g : Good h)
    (js : List Nat) (o a : Nat) (ho : h.alive o = true) (hfo : h.follow o js = some a) : h1.follow o js = some a := by
  induction js generalizing o with
  | nil => exact hfo
  | cons j js ih =>
    have hr : h1.read (.field o j) = h.read (.field o j) := by
      simp only [Heap.read]; rw [hf o (g.inv.bound o ho)]
    simp only [Heap.follow, hr] at hfo ⊢
    cases hread : h.read (.field o j) with
    | none => rw [hread] at hfo; simp at hfo
    | some o' =>
      rw [hread] at hfo
      simp only [] at hfo ⊢
      refine ih o' ?_ hfo
      apply g.inv.field_live o o' ho
      simp only [Heap.read] at hread
      cases hg : (h.fields o)[j]? with
      | none => rw [hg] at hread; simp at hread
      | some x => rw [hg] at hread; simp only [Option.join_some] at hread; rw [hread] at hg; exact List.mem_of_getElem? hg

private theorem exec_good (h : Heap) (g : Good h) (o : Op) :
    (exec h o).2 = false ∧ Good (exec h o).1 ∧ h.n ≤ (exec h o).1.n ∧
    (∀ x, x < h.n → (exec h o).1.alive x = true → h.alive x = true) := by
  cases o with
  | decl r =>
    obtain ⟨h1, h2, h3, h4, h5, h6, h7⟩ := evalRhs_good h g r
    simp only [exec]
    generalize h.evalRhs r = e at *
    obtain ⟨p, h'⟩ := e
    simp only [] at h1 h2 h3 h4 h5 h6 h7 ⊢
    set h'' : Heap := { h' with nv := h'.nv + 1, var := Function.update h'.var h'.nv none } with hh''
    have hvar : h''.var = h'.var := by
      simp only [hh'']
      funext i
      by_cases e : i = h'.nv
      · subst e; simp [h2 h'.nv (le_refl _)]
      · rw [Function.update_of_ne e]
    have href : ∀ o, refs (h''.addRef p) o = refs (h'.addRef p) o := by
      intro o
      rw [refs_addRef, refs_addRef]
      simp only [refs]
      rw [hvar]
      simp only [hh'', sumTo]
      rw [h2 h'.nv (le_refl _)]; simp [ind]
    have hi1 : Inv (h''.addRef p) p.toList :=
      h1.of_total (by cases p <;> rfl) (by cases p <;> rfl) (by cases p <;> rfl) (fun o => by rw [href])
    have hv'' : VarsOk h'' := by
      intro i hi; rw [hvar]; exact h2 i (by simp only [hh''] at hi; omega)
    obtain ⟨s1, s2, s3, s4, s5, s6⟩ := setRaw_inv h'' p hi1 hv'' (.var h'.nv) (by show h'.nv < h'.nv + 1; omega)
    refine ⟨s1, ⟨s2, s3⟩, by rw [s5]; exact h5, ?_⟩
    intro x hx ha
    have := s6 x ha
    rw [← h7 x hx]; exact this
  | assign l r =>
    simp only [exec]
    cases hl : h.evalLhs l with
    | none => exact ⟨rfl, g, le_refl _, fun _ _ ha => ha⟩
    | some s =>
      obtain ⟨h1, h2, h3, h4, h5, h6, h7⟩ := evalRhs_good h g r
      simp only []
      generalize h.evalRhs r = e at *
      obtain ⟨p, h'⟩ := e
      simp only [] at h1 h2 h3 h4 h5 h6 h7 ⊢
      have hs : SlotHeld h' s := by
        cases l with
        | var i =>
          simp only [Heap.evalLhs] at hl
          split at hl
          · simp only [Option.some.injEq] at hl; subst hl; show i < h'.nv; rw [h3]; assumption
          · simp at hl
        | field q j =>
          simp only [Heap.evalLhs] at hl
          cases hq : h.eval q with
          | none => rw [hq] at hl; simp at hl
          | some a =>
            rw [hq] at hl
            simp only [] at hl
            split at hl
            · rename_i hj
              simp only [Option.some.injEq] at hl; subst hl
              have ha := eval_live g.inv g.vars q a hq
              refine ⟨by rw [h6 a (g.inv.bound a ha)]; exact hj, q, ?_⟩
              unfold Heap.eval at hq ⊢
              rw [h4]
              split at hq
              · simp at hq
              · rename_i o ho
                have hlt : q.var < h.nv := by
                  by_contra hc; rw [g.vars _ (by omega)] at ho; simp at ho
                exact follow_mono h h' h6 g q.fields o a (g.inv.var_live _ _ hlt ho) hq
            · simp at hl
      obtain ⟨s1, s2, s3, s4, s5, s6⟩ := setRaw_inv h' p h1 h2 s hs
      refine ⟨s1, ⟨s2, s3⟩, by rw [s5]; exact h5, ?_⟩
      intro x hx ha
      rw [← h7 x hx]; exact s6 x ha
  | destroy i =>
    simp only [exec]
    split
    · rename_i hi
      have hi2 : Inv (h.write (.var i) none) ((h.read (.var i)).toList ++ []) := by
        refine g.inv.of_total (n_write ..) (alive_write ..) (count_write ..) ?_
        intro o
        have := refs_write h (.var i) hi none o
        simp only [show ind none o = 0 from rfl, Nat.add_zero] at this
        rw [List.append_nil, count_toList]; simp only [List.count_nil]; omega
      obtain ⟨r1, r2, r3, r4, r5, r6, r7⟩ := release_inv _ _ _ hi2
      refine ⟨r1, ⟨r2, ?_⟩, by rw [r6]; exact le_refl _, fun x _ hx => r7 x hx⟩
      intro k hk
      rw [r5] at hk
      rw [r4]
      simp only [Heap.write]
      by_cases e : k = i
      · subst e; simp
      · rw [Function.update_of_ne e]; exact g.vars k hk
    · exact ⟨rfl, g, le_refl _, fun _ _ ha => ha⟩

/-- Run from a given state. -/
private theorem run_from (ops : List Op) (h : Heap) (g : Good h) :
    let r := ops.foldl (fun (r : Heap × Bool) o => let x := exec r.1 o; (x.1, r.2 || x.2)) (h, false)
    r.2 = false ∧ Good r.1 ∧ h.n ≤ r.1.n ∧ ∀ x, x < h.n → r.1.alive x = true → h.alive x = true := by
  induction ops generalizing h with
  | nil => exact ⟨rfl, g, le_refl _, fun _ _ h => h⟩
  | cons o ops ih =>
    obtain ⟨e1, e2, e3, e4⟩ := exec_good h g o
    simp only [List.foldl_cons]
    rw [e1]
    obtain ⟨i1, i2, i3, i4⟩ := ih (exec h o).1 e2
    exact ⟨i1, i2, le_trans e3 i3, fun x hx ha => e4 x hx (i4 x (by omega) ha)⟩

/-- **C08 (safety).** No program that creates objects and copies, assigns, overwrites and destroys smart pointers (self-assignment,
cyclic structures and assignments to members included) ever accesses a deleted object or deletes an object twice, and after
every program no existing smart pointer refers to a deleted object. -/
theorem smartptr_no_use_after_free (ops : List Op) :
    (run ops).2 = false ∧ ∀ o, Owned (run ops).1 o → (run ops).1.alive o = true := by
  obtain ⟨h1, h2, _, _⟩ := run_from ops Heap.empty good_empty
  refine ⟨h1, fun o ho => h2.inv.live o ?_⟩
  have := (refs_pos_iff _ h2.inv.bound o).2 ho
  simp only [List.count_nil, Nat.add_zero]
  exact this

/-- **C08 (freed exactly when the last owner disappears).** After every program, an object that was created exists if and only if
some existing smart pointer refers to it. -/
theorem smartptr_alive_iff_owned (ops : List Op) (o : Nat) : (run ops).1.alive o = true ↔ Owned (run ops).1 o := by
  obtain ⟨h1, h2, _, _⟩ := run_from ops Heap.empty good_empty
  refine ⟨fun ha => ?_, fun ho => (smartptr_no_use_after_free ops).2 o ho⟩
  have := h2.inv.pos o ha
  exact (refs_pos_iff _ h2.inv.bound o).1 (by simpa using this)

/-- **C08 (counts).** The reference count of an existing object is the number of existing smart pointers that refer to it: the
variables plus the members of existing objects. -/
theorem smartptr_count_exact (ops : List Op) (o : Nat) (ho : (run ops).1.alive o = true) :
    (run ops).1.count o =
      (((List.range (run ops).1.nv).countP (fun i => (run ops).1.var i == some o) : Nat) : Int) +
      ((((List.range (run ops).1.n).filter (fun a => (run ops).1.alive a)).map
        (fun a => ((run ops).1.fields a).count (some o))).sum : Nat) := by
  obtain ⟨h1, h2, _, _⟩ := run_from ops Heap.empty good_empty
  have := h2.inv.cnt o ho
  have hr : run ops = ops.foldl (fun (r : Heap × Bool) o => let x := exec r.1 o; (x.1, r.2 || x.2)) (Heap.empty, false) := rfl
  rw [hr]
  rw [this]
  generalize (List.foldl (fun (r : Heap × Bool) o => let x := exec r.1 o; (x.1, r.2 || x.2)) (Heap.empty, false) ops).1 = h
  have a1 : ∀ n, sumTo n (fun i => ind (h.var i) o) = (List.range n).countP (fun i => h.var i == some o) := by
    intro n
    induction n with
    | zero => rfl
    | succ n ih =>
      rw [List.range_succ, List.countP_append, ← ih]
      simp only [sumTo, ind, List.countP_cons, List.countP_nil, beq_iff_eq, Nat.zero_add]
  have a2 : ∀ n, sumTo n (own h.alive h.fields o) =
      (((List.range n).filter (fun a => h.alive a)).map (fun a => (h.fields a).count (some o))).sum := by
    intro n
    induction n with
    | zero => rfl
    | succ n ih =>
      rw [List.range_succ, List.filter_append, List.map_append, List.sum_append, ← ih]
      simp only [sumTo, own, List.filter_cons, List.filter_nil]
      split <;> simp
  simp only [refs, List.count_nil, Nat.add_zero]
  rw [a1, a2]; push_cast; rfl

/-- **C08 (once freed, never again).** An object that has been deleted stays deleted, whatever the program does afterwards. -/
theorem smartptr_deleted_stays_deleted (ops more : List Op) (o : Nat) (hc : o < (run ops).1.n)
    (hd : (run ops).1.alive o = false) : (run (ops ++ more)).1.alive o = false := by
  obtain ⟨h1, h2, _, _⟩ := run_from ops Heap.empty good_empty
  have e : run (ops ++ more) = more.foldl (fun (r : Heap × Bool) o => let x := exec r.1 o; (x.1, r.2 || x.2)) (run ops) := by
    simp [run, List.foldl_append]
  have hb : run ops = ((run ops).1, false) := by
    have : (run ops).2 = false := h1
    rw [← this]
  rw [e, hb]
  obtain ⟨_, _, _, k4⟩ := run_from more (run ops).1 h2
  by_contra hcon
  have := k4 o hc (by simpa using hcon)
  rw [hd] at this; simp at this

/-- Objects reachable from the program's variables. -/
inductive Reachable (h : Heap) : Nat → Prop
  | var (i o : Nat) : i < h.nv → h.var i = some o → Reachable h o
  | field (a o : Nat) : Reachable h a → some o ∈ h.fields a → Reachable h o

/-- **C08 (no leaks without cycles).** If the members of existing objects form no cycle (`rank` decreases along members), every
existing object is reachable from a variable: what became unreachable has been deleted. -/
theorem smartptr_acyclic_no_leak (ops : List Op) (rank : Nat → Nat)
    (hrank : ∀ a o, (run ops).1.alive a = true → some o ∈ (run ops).1.fields a → rank o < rank a) (o : Nat)
    (ho : (run ops).1.alive o = true) : Reachable (run ops).1 o := by
  -- ranks of the finitely many live objects are bounded
  obtain ⟨h1, h2, _, _⟩ := run_from ops Heap.empty good_empty
  have hbd : ∀ a, (run ops).1.alive a = true → a < (run ops).1.n := h2.inv.bound
  obtain ⟨R, hR⟩ : ∃ R, ∀ a, a < (run ops).1.n → rank a ≤ R := by
    generalize (run ops).1.n = n
    induction n with
    | zero => exact ⟨0, fun a ha => by omega⟩
    | succ n ih =>
      obtain ⟨R, hR⟩ := ih
      refine ⟨max R (rank n), fun a ha => ?_⟩
      by_cases e : a = n
      · subst e; exact le_max_right _ _
      · exact le_trans (hR a (by omega)) (le_max_left _ _)
  induction hk : R - rank o using Nat.strong_induction_on generalizing o with
  | _ k ih =>
    rcases (smartptr_alive_iff_owned ops o).1 ho with ⟨i, hi, he⟩ | ⟨a, ha, hm⟩
    · exact .var i o hi he
    · have := hrank a o ha hm
      have := hR a (hbd a ha)
      exact .field a o (ih (R - rank a) (by omega) a ha rfl) hm

/-- Cycles leak: two objects that point to each other survive the end of the last variable. -/
theorem smartptr_cycle_leaks : ∃ ops, (run ops).1.alive 0 = true ∧ ¬ ∃ i, i < (run ops).1.nv ∧ (run ops).1.var i ≠ none :=
  ⟨[.decl (.new 1), .assign (.field ⟨0, []⟩ 0) (.new 1), .assign (.field ⟨0, [0]⟩ 0) (.path ⟨0, []⟩), .destroy 0],
    by decide +kernel, by
      have h1 : (run [.decl (.new 1), .assign (.field ⟨0, []⟩ 0) (.new 1),
        .assign (.field ⟨0, [0]⟩ 0) (.path ⟨0, []⟩), .destroy 0]).1.nv = 1 := by decide +kernel
      have h2 : (run [.decl (.new 1), .assign (.field ⟨0, []⟩ 0) (.new 1),
        .assign (.field ⟨0, [0]⟩ 0) (.path ⟨0, []⟩), .destroy 0]).1.var 0 = none := by decide +kernel
      rintro ⟨i, hi, hv⟩
      rw [h1] at hi
      have : i = 0 := by omega
      subst this; exact hv h2⟩

/-- Example: a list of three objects; `head = head->next` frees exactly the first one, self-assignment changes nothing. -/
example : let h := (run [.decl (.new 1), .assign (.field ⟨0, []⟩ 0) (.new 1), .assign (.field ⟨0, [0]⟩ 0) (.new 1),
      .assign (.var 0) (.path ⟨0, []⟩), .assign (.var 0) (.path ⟨0, [0]⟩)]).1
    h.alive 0 = false ∧ h.alive 1 = true ∧ h.alive 2 = true ∧ h.count 1 = 1 := by decide +kernel

/-- Example: dropping the variable frees the whole list. -/
example : let h := (run [.decl (.new 1), .assign (.field ⟨0, []⟩ 0) (.new 1), .assign (.field ⟨0, [0]⟩ 0) (.new 1),
      .destroy 0]).1
    h.alive 0 = false ∧ h.alive 1 = false ∧ h.alive 2 = false := by decide +kernel

end Verif.SP
