import Verif.Model.SmartPtr
import Mathlib.Tactic.Linarith

/-! Invariant of the reference counting model (C08). -/

set_option linter.unusedSimpArgs false

namespace Verif.SP

/-- 1 if the pointer refers to `o`. -/
def ind (p : Option Nat) (o : Nat) : Nat := if p = some o then 1 else 0

/-- References to `o` from members of object `a`, if it is alive. -/
def own (al : Nat → Bool) (fl : Nat → List (Option Nat)) (o a : Nat) : Nat := if al a then (fl a).count (some o) else 0

/-- Number of existing smart pointers that refer to `o`. -/
def refs (h : Heap) (o : Nat) : Nat :=
  sumTo h.nv (fun i => ind (h.var i) o) +
  sumTo h.n (own h.alive h.fields o)

/-- The invariant; `ext` are references that are counted but not (or no longer) stored in a smart pointer. -/
structure Inv (h : Heap) (ext : List Nat) : Prop where
  bound : ∀ o, h.alive o = true → o < h.n
  cnt : ∀ o, h.alive o = true → h.count o = ((refs h o + ext.count o : Nat) : Int)
  live : ∀ o, 0 < refs h o + ext.count o → h.alive o = true
  pos : ∀ o, h.alive o = true → 0 < refs h o + ext.count o

theorem sumTo_congr (n : Nat) (f g : Nat → Nat) (h : ∀ i, i < n → f i = g i) : sumTo n f = sumTo n g := by
  induction n with
  | zero => rfl
  | succ n ih => simp only [sumTo]; rw [ih (fun i hi => h i (by omega)), h n (by omega)]

theorem le_sumTo (n : Nat) (f : Nat → Nat) (i : Nat) (hi : i < n) : f i ≤ sumTo n f := by
  induction n with
  | zero => omega
  | succ n ih =>
    simp only [sumTo]
    by_cases e : i = n
    · subst e; omega
    · have := ih (by omega); omega

theorem sumTo_pos (n : Nat) (f : Nat → Nat) (h : 0 < sumTo n f) : ∃ i, i < n ∧ 0 < f i := by
  induction n with
  | zero => simp [sumTo] at h
  | succ n ih =>
    simp only [sumTo] at h
    by_cases e : 0 < f n
    · exact ⟨n, by omega, e⟩
    · obtain ⟨i, h1, h2⟩ := ih (by omega)
      exact ⟨i, by omega, h2⟩

theorem count_pointees (l : List (Option Nat)) (o : Nat) : (pointees l).count o = l.count (some o) := by
  unfold pointees
  have : ∀ l : List (Option Nat), (l.filterMap id).count o = l.count (some o) := by
    intro l
    induction l with
    | nil => rfl
    | cons a l ih =>
      cases a with
      | none => simp [ih]
      | some b => simp [List.count_cons, ih]
  rw [this, List.count_reverse]

theorem count_toList (p : Option Nat) (o : Nat) : p.toList.count o = ind p o := by
  cases p with
  | none => simp [ind]
  | some b => simp [ind, List.count_cons]

/-- Effect of a cascade. -/
theorem release_inv (h : Heap) (st keep : List Nat) (hi : Inv h (st ++ keep)) :
    (release h st).2 = false ∧ Inv (release h st).1 keep ∧ (release h st).1.fields = h.fields ∧
    (release h st).1.var = h.var ∧ (release h st).1.nv = h.nv ∧ (release h st).1.n = h.n ∧
    ∀ o, (release h st).1.alive o = true → h.alive o = true := by
  induction hm : h.size + st.length using Nat.strong_induction_on generalizing h st with
  | _ m ih =>
    cases st with
    | nil => rw [release]; exact ⟨rfl, hi, rfl, rfl, rfl, rfl, fun _ h => h⟩
    | cons p st =>
      have hpa : h.alive p = true := hi.live p (by simp [List.count_cons])
      have hpb := hi.bound p hpa
      have hcp := hi.cnt p hpa
      have hcons : ∀ o, ((p :: st) ++ keep).count o = (st ++ keep).count o + if p = o then 1 else 0 := by
        intro o; simp [List.count_cons, beq_iff_eq]
      rw [release, dif_pos ⟨hpb, hpa⟩]
      have hsz := sumTo_update h.n (fun o => if h.alive o then (h.fields o).length + 1 else 0)
        (fun o => if Function.update h.alive p false o then (h.fields o).length + 1 else 0) p hpb
        (by intro j hj; simp [Function.update_of_ne hj])
      simp only [Function.update_self, hpa, if_true, Bool.false_eq_true, if_false] at hsz
      by_cases hc : h.count p - 1 = 0
      · rw [if_pos hc]
        set h' : Heap := { h with alive := Function.update h.alive p false, count := Function.update h.count p 0 } with hh'
        have href : ∀ o, refs h' o + (h.fields p).count (some o) = refs h o := by
          intro o
          have := sumTo_update h.n (own h.alive h.fields o)
            (own (Function.update h.alive p false) h.fields o) p hpb
            (by intro j hj; simp [own, Function.update_of_ne hj])
          have e1 : own h.alive h.fields o p = (h.fields p).count (some o) := by simp [own, hpa]
          have e2 : own (Function.update h.alive p false) h.fields o p = 0 := by simp [own]
          rw [e1, e2] at this
          simp only [refs, hh']
          omega
        have htot : ∀ o, refs h' o + ((pointees (h.fields p) ++ st) ++ keep).count o = refs h o + (st ++ keep).count o := by
          intro o
          rw [List.append_assoc, List.count_append, count_pointees, ← href o]; omega
        have hp0 : refs h p + (st ++ keep).count p = 0 := by
          rw [hcons p, if_pos rfl] at hcp; omega
        have hi' : Inv h' ((pointees (h.fields p) ++ st) ++ keep) := by
          refine ⟨?_, ?_, ?_, ?_⟩
          · intro o ho
            simp only [hh'] at ho ⊢
            by_cases e : o = p
            · subst e; simp at ho
            · rw [Function.update_of_ne e] at ho; exact hi.bound o ho
          · intro o ho
            simp only [hh'] at ho
            by_cases e : o = p
            · subst e; simp at ho
            · rw [Function.update_of_ne e] at ho
              rw [htot o]
              have := hi.cnt o ho
              rw [hcons o, if_neg (fun e' => e e'.symm)] at this
              simp only [hh', Function.update_of_ne e]
              exact this
          · intro o ho
            rw [htot o] at ho
            have e : o ≠ p := by rintro rfl; omega
            simp only [hh', Function.update_of_ne e]
            exact hi.live o (by rw [hcons o]; omega)
          · intro o ho
            rw [htot o]
            simp only [hh'] at ho
            by_cases e : o = p
            · subst e; simp at ho
            · rw [Function.update_of_ne e] at ho
              have := hi.pos o ho
              rw [hcons o, if_neg (fun e' => e e'.symm)] at this
              exact this
        have hle : (pointees (h.fields p)).length ≤ (h.fields p).length := by
          have : (pointees (h.fields p)).length ≤ (h.fields p).reverse.length := List.length_filterMap_le id _
          simpa using this
        have hms : h'.size + (pointees (h.fields p) ++ st).length < m := by
          rw [← hm]
          simp only [Heap.size, hh', List.length_append, List.length_cons]
          omega
        obtain ⟨r1, r2, r3, r4, r5, r6, r7⟩ := ih _ hms h' _ hi' rfl
        refine ⟨r1, r2, r3, r4, r5, r6, ?_⟩
        intro o ho
        have := r7 o ho
        simp only [hh'] at this
        by_cases e : o = p
        · rw [e]; exact hpa
        · rwa [Function.update_of_ne e] at this
      · rw [if_neg hc]
        set h' : Heap := { h with count := Function.update h.count p (h.count p - 1) } with hh'
        have href : ∀ o, refs h' o = refs h o := fun o => rfl
        have hi' : Inv h' (st ++ keep) := by
          refine ⟨hi.bound, ?_, ?_, ?_⟩
          · intro o ho
            rw [href]
            have := hi.cnt o ho
            rw [hcons o] at this
            by_cases e : o = p
            · subst e; simp only [hh', Function.update_self]; simp only [if_true] at this; push_cast at this ⊢; omega
            · simp only [hh', Function.update_of_ne e]
              rw [if_neg (fun e' => e e'.symm)] at this; exact this
          · intro o ho
            rw [href] at ho
            exact hi.live o (by rw [hcons o]; omega)
          · intro o ho
            rw [href]
            by_cases e : o = p
            · subst e
              rw [hcons o, if_pos rfl] at hcp
              omega
            · have := hi.pos o ho
              rw [hcons o, if_neg (fun e' => e e'.symm)] at this; exact this
        have hms : h'.size + st.length < m := by
          rw [← hm]; simp only [Heap.size, hh', List.length_cons]; omega
        exact ih _ hms h' _ hi' rfl

/-- The slot exists. -/
def SlotOk (h : Heap) : Slot → Prop
  | .var i => i < h.nv
  | .field o j => o < h.n ∧ h.alive o = true ∧ j < (h.fields o).length

theorem count_set (l : List (Option Nat)) (j : Nat) (hj : j < l.length) (p : Option Nat) (o : Nat) :
    (l.set j p).count (some o) + ind l[j]?.join o = l.count (some o) + ind p o := by
  induction l generalizing j with
  | nil => simp at hj
  | cons a l ih =>
    cases j with
    | zero =>
      simp only [List.set_cons_zero, List.getElem?_cons_zero, List.count_cons]
      have : (some a).join = a := by cases a <;> rfl
      rw [this]
      unfold ind
      by_cases e1 : a = some o <;> by_cases e2 : p = some o <;> simp [e1, e2]
    | succ j =>
      have := ih j (by simpa using hj)
      simp only [List.set_cons_succ, List.getElem?_cons_succ, List.count_cons]
      omega

theorem refs_write (h : Heap) (s : Slot) (hs : SlotOk h s) (p : Option Nat) (o : Nat) :
    refs (h.write s p) o + ind (h.read s) o = refs h o + ind p o := by
  cases s with
  | var i =>
    have := sumTo_update h.nv (fun i => ind (h.var i) o)
      (fun k => ind (Function.update h.var i p k) o) i hs
      (by intro j hj; simp [Function.update_of_ne hj])
    simp only [Function.update_self] at this
    simp only [refs, Heap.write, Heap.read]
    omega
  | field a j =>
    obtain ⟨h1, h2, h3⟩ := hs
    have := sumTo_update h.n (own h.alive h.fields o)
      (own h.alive (Function.update h.fields a ((h.fields a).set j p)) o) a h1
      (by intro j hj; simp [own, Function.update_of_ne hj])
    have e1 : own h.alive h.fields o a = (h.fields a).count (some o) := by simp [own, h2]
    have e2 : own h.alive (Function.update h.fields a ((h.fields a).set j p)) o a = ((h.fields a).set j p).count (some o) := by
      simp [own, h2]
    rw [e1, e2] at this
    have hc := count_set (h.fields a) j h3 p o
    simp only [refs, Heap.write, Heap.read]
    omega

theorem alive_write (h : Heap) (s : Slot) (p : Option Nat) : (h.write s p).alive = h.alive := by cases s <;> rfl
theorem count_write (h : Heap) (s : Slot) (p : Option Nat) : (h.write s p).count = h.count := by cases s <;> rfl
theorem n_write (h : Heap) (s : Slot) (p : Option Nat) : (h.write s p).n = h.n := by cases s <;> rfl
theorem nv_write (h : Heap) (s : Slot) (p : Option Nat) : (h.write s p).nv = h.nv := by cases s <;> rfl

/-- Invariant transfer for changed references with the same totals. -/
theorem Inv.of_total {h h' : Heap} {e e' : List Nat} (hi : Inv h e) (hn : h'.n = h.n) (ha : h'.alive = h.alive)
    (hc : h'.count = h.count) (ht : ∀ o, refs h' o + e'.count o = refs h o + e.count o) : Inv h' e' := by
  refine ⟨?_, ?_, ?_, ?_⟩
  · intro o ho; rw [ha] at ho; rw [hn]; exact hi.bound o ho
  · intro o ho; rw [ha] at ho; rw [hc, ht]; exact hi.cnt o ho
  · intro o ho; rw [ht] at ho; rw [ha]; exact hi.live o ho
  · intro o ho; rw [ha] at ho; rw [ht]; exact hi.pos o ho

theorem refs_addRef (h : Heap) (p : Option Nat) (o : Nat) : refs (h.addRef p) o = refs h o := by
  cases p <;> rfl

/-- `AddRef` on a live object. -/
theorem addRef_inv (h : Heap) (e : List Nat) (hi : Inv h e) (p : Option Nat) (hp : ∀ o, p = some o → h.alive o = true) :
    Inv (h.addRef p) (e ++ p.toList) := by
  cases p with
  | none => simpa [Heap.addRef] using hi
  | some q =>
    have hq := hp q rfl
    have ht : ∀ o, (e ++ (some q).toList).count o = e.count o + if q = o then 1 else 0 := by
      intro o; simp [List.count_cons]
    refine ⟨hi.bound, ?_, ?_, ?_⟩
    · intro o ho
      have := hi.cnt o ho
      rw [ht o]
      by_cases e' : o = q
      · subst e'; simp only [Heap.addRef, Function.update_self]
        rw [this]; simp only [refs, if_true]; push_cast; omega
      · simp only [Heap.addRef, Function.update_of_ne e']
        rw [if_neg (fun h => e' h.symm)]; exact this
    · intro o ho
      rw [ht o] at ho
      by_cases e' : o = q
      · subst e'; exact hq
      · rw [if_neg (fun h => e' h.symm)] at ho
        exact hi.live o ho
    · intro o ho
      have := hi.pos o ho
      rw [ht o]
      have h3 : refs (h.addRef (some q)) o = refs h o := rfl
      rw [h3]; omega

/-- Following a path that starts in a live object and ends in `a`: with all live objects' members live, `a` is live. -/
theorem follow_alive (h h2 : Heap) (a j : Nat) (hf : h2.fields = (h.write (.field a j) none).fields)
    (hl : ∀ x, h2.alive x = true → ∀ o, some o ∈ h2.fields x → h2.alive o = true)
    (o : Nat) (js : List Nat) (ho : h2.alive o = true) (hfo : h.follow o js = some a) : h2.alive a = true := by
  induction js generalizing o with
  | nil =>
    simp only [Heap.follow, Option.some.injEq] at hfo
    rw [← hfo]; exact ho
  | cons i js ih =>
    by_cases e : o = a
    · rw [← e]; exact ho
    · simp only [Heap.follow] at hfo
      split at hfo
      · simp at hfo
      · rename_i o' hr
        refine ih o' ?_ hfo
        apply hl o ho
        rw [hf]
        simp only [Heap.write, Function.update_of_ne e]
        simp only [Heap.read] at hr
        cases hg : (h.fields o)[i]? with
        | none => rw [hg] at hr; simp at hr
        | some x => rw [hg] at hr; simp only [Option.join_some] at hr; rw [hr] at hg; exact List.mem_of_getElem? hg

theorem Inv.field_live {h : Heap} {e : List Nat} (hi : Inv h e) (x o : Nat) (hx : h.alive x = true)
    (ho : some o ∈ h.fields x) : h.alive o = true := by
  apply hi.live
  have h1 := le_sumTo h.n (own h.alive h.fields o) x (hi.bound x hx)
  have e1 : own h.alive h.fields o x = (h.fields x).count (some o) := by simp [own, hx]
  rw [e1] at h1
  have h2 := List.count_pos_iff.2 ho
  unfold refs; omega

theorem Inv.var_live {h : Heap} {e : List Nat} (hi : Inv h e) (i o : Nat) (hv : i < h.nv)
    (ho : h.var i = some o) : h.alive o = true := by
  apply hi.live
  have h1 := le_sumTo h.nv (fun i => ind (h.var i) o) i hv
  have e1 : ind (h.var i) o = 1 := by simp [ind, ho]
  simp only [e1] at h1
  unfold refs; omega

theorem follow_live {h : Heap} {e : List Nat} (hi : Inv h e) (o : Nat) (js : List Nat) (a : Nat) (ho : h.alive o = true)
    (hf : h.follow o js = some a) : h.alive a = true := by
  induction js generalizing o with
  | nil => simp only [Heap.follow, Option.some.injEq] at hf; rw [← hf]; exact ho
  | cons i js ih =>
    simp only [Heap.follow] at hf
    split at hf
    · simp at hf
    · rename_i o' hr
      refine ih o' (hi.field_live o o' ho ?_) hf
      simp only [Heap.read] at hr
      cases hg : (h.fields o)[i]? with
      | none => rw [hg] at hr; simp at hr
      | some x => rw [hg] at hr; simp only [Option.join_some] at hr; rw [hr] at hg; exact List.mem_of_getElem? hg

/-- Variables beyond `nv` are unused. -/
def VarsOk (h : Heap) : Prop := ∀ i, h.nv ≤ i → h.var i = none

theorem eval_live {h : Heap} {e : List Nat} (hi : Inv h e) (hv : VarsOk h) (p : Path) (a : Nat) (hf : h.eval p = some a) :
    h.alive a = true := by
  unfold Heap.eval at hf
  split at hf
  · simp at hf
  · rename_i o ho
    have : p.var < h.nv := by
      by_contra hc; rw [hv _ (by omega)] at ho; simp at ho
    exact follow_live hi o p.fields a (hi.var_live p.var o this ho) hf

/-- A slot whose storage is kept alive: a variable, or a member of an object that some path reaches. -/
def SlotHeld (h : Heap) : Slot → Prop
  | .var i => i < h.nv
  | .field a j => j < (h.fields a).length ∧ ∃ p, h.eval p = some a

theorem follow_addRef (h : Heap) (p : Option Nat) (o : Nat) (js : List Nat) : (h.addRef p).follow o js = h.follow o js := by
  induction js generalizing o with
  | nil => rfl
  | cons j js ih =>
    have : (h.addRef p).read (.field o j) = h.read (.field o j) := by cases p <;> rfl
    simp only [Heap.follow, this]
    split
    · rfl
    · exact ih _

theorem eval_addRef (h : Heap) (p : Option Nat) (q : Path) : (h.addRef p).eval q = h.eval q := by
  have : (h.addRef p).var = h.var := by cases p <;> rfl
  unfold Heap.eval
  rw [this]
  split
  · rfl
  · exact follow_addRef ..

theorem setRaw_inv (h : Heap) (p : Option Nat) (hi1 : Inv (h.addRef p) p.toList) (hv : VarsOk h) (s : Slot)
    (hs : SlotHeld h s) :
    (setRaw h s p).2 = false ∧ Inv (setRaw h s p).1 [] ∧ VarsOk (setRaw h s p).1 ∧ (setRaw h s p).1.nv = h.nv ∧
    (setRaw h s p).1.n = h.n ∧ (∀ o, (setRaw h s p).1.alive o = true → h.alive o = true) := by
  have hsok : SlotOk h s := by
    cases s with
    | var i => exact hs
    | field a j =>
      obtain ⟨h1, q, h2⟩ := hs
      have hv1 : VarsOk (h.addRef p) := by cases p <;> exact hv
      have := eval_live hi1 hv1 q a (by rw [eval_addRef]; exact h2)
      have hb := hi1.bound a this
      cases p <;> exact ⟨hb, this, h1⟩
  have hread : (h.addRef p).read s = h.read s := by cases p <;> cases s <;> rfl
  have hsok1 : SlotOk (h.addRef p) s := by cases p <;> cases s <;> exact hsok
  have hi2 : Inv ((h.addRef p).write s none) ((h.read s).toList ++ p.toList) := by
    refine hi1.of_total (n_write ..) (alive_write ..) (count_write ..) ?_
    intro o
    have := refs_write (h.addRef p) s hsok1 none o
    rw [hread] at this
    simp only [show ind none o = 0 from rfl, Nat.add_zero] at this
    rw [List.count_append, count_toList (h.read s)]
    omega
  obtain ⟨r1, r2, r3, r4, r5, r6, r7⟩ := release_inv _ _ _ hi2
  unfold setRaw
  simp only []
  generalize release ((h.addRef p).write s none) (h.read s).toList = R at *
  obtain ⟨h2, ub⟩ := R
  simp only [] at r1 r2 r3 r4 r5 r6 r7 ⊢
  have hadd : (h.addRef p).n = h.n ∧ (h.addRef p).nv = h.nv ∧ (h.addRef p).alive = h.alive ∧ (h.addRef p).fields = h.fields ∧
      (h.addRef p).var = h.var := by cases p <;> exact ⟨rfl, rfl, rfl, rfl, rfl⟩
  -- the slot survives
  have hsa : h2.slotAlive s = true := by
    cases s with
    | var i => rfl
    | field a j =>
      obtain ⟨h1, q, hq⟩ := hs
      unfold Heap.eval at hq
      split at hq
      · simp at hq
      · rename_i o ho
        have hlt : q.var < h.nv := by
          by_contra hc; rw [hv _ (by omega)] at ho; simp at ho
        have hvar : h2.var q.var = some o := by
          rw [r4]; simp only [Heap.write]; rw [hadd.2.2.2.2]; exact ho
        have hoa : h2.alive o = true := by
          refine r2.var_live q.var o ?_ hvar
          rw [r5, nv_write, hadd.2.1]; exact hlt
        refine follow_alive h h2 a j ?_ (fun x hx o ho => r2.field_live x o hx ho) o q.fields hoa hq
        rw [r3]; simp only [Heap.write]; rw [hadd.2.2.2.1]
  have hsok2 : SlotOk h2 s := by
    cases s with
    | var i => show i < h2.nv; rw [r5, nv_write, hadd.2.1]; exact hs
    | field a j =>
      refine ⟨r2.bound a hsa, hsa, ?_⟩
      rw [r3]; simp only [Heap.write, Function.update_self, List.length_set]; rw [hadd.2.2.2.1]; exact hs.1
  have hread2 : h2.read s = none := by
    cases s with
    | var i => show h2.var i = none; rw [r4]; simp [Heap.write]
    | field a j =>
      show ((h2.fields a)[j]?).join = none
      rw [r3]; simp only [Heap.write, Function.update_self]
      rw [List.getElem?_set]
      rw [hadd.2.2.2.1, if_pos rfl, if_pos hs.1]; rfl
  have hnv2 : h2.nv = h.nv := by rw [r5, nv_write, hadd.2.1]
  refine ⟨by rw [r1, hsa]; rfl, ?_, ?_, ?_, ?_, ?_⟩
  · refine r2.of_total (n_write ..) (alive_write ..) (count_write ..) ?_
    intro o
    have := refs_write h2 s hsok2 p o
    rw [hread2] at this
    simp only [show ind none o = 0 from rfl, Nat.add_zero] at this
    rw [count_toList]; simp only [List.count_nil]; omega
  · intro i hi'
    rw [nv_write] at hi'
    have hvi : h2.var i = none := by
      rw [r4]
      have h0 := hv i (by omega)
      cases s with
      | var k =>
        simp only [Heap.write]
        by_cases e : i = k
        · subst e; simp
        · rw [Function.update_of_ne e, hadd.2.2.2.2]; exact h0
      | field a j => simp only [Heap.write]; rw [hadd.2.2.2.2]; exact h0
    cases s with
    | var k =>
      have : i ≠ k := by rintro rfl; have : i < h.nv := hs; omega
      simp only [Heap.write, Function.update_of_ne this]; exact hvi
    | field a j => exact hvi
  · rw [nv_write]; exact hnv2
  · rw [n_write, r6, n_write]; exact hadd.1
  · intro o ho
    rw [alive_write] at ho
    have := r7 o ho
    rw [alive_write, hadd.2.2.1] at this; exact this

end Verif.SP
