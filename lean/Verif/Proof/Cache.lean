import Verif.Spec.Cache
import Mathlib.Tactic.Linarith
import Mathlib.Data.List.Nodup
import Mathlib.Data.List.Forall2

/-! Helper lemmas for C09-C11. -/

set_option linter.unusedSectionVars false
set_option linter.unusedSimpArgs false

namespace Verif.Cache

variable {V : Type}

/-- The bookkeeping invariant of `Subject`/`Observer`. -/
structure Links (w : World V) : Prop where
  deadObj : ∀ s, (w.obj s).alive = false → (w.obj s).observers = []
  deadRes : ∀ b, (w.res b).alive = false → (w.res b).subjects = []
  count : ∀ b s, (w.obj s).observers.count b = (w.res b).subjects.count s
  freshObj : ∀ s, w.nObj ≤ s → (w.obj s).alive = false
  freshRes : ∀ b, w.nRes ≤ b → (w.res b).alive = false

theorem Links.mem {w : World V} (h : Links w) (b s : Nat) : b ∈ (w.obj s).observers ↔ s ∈ (w.res b).subjects := by
  rw [← List.count_pos_iff, ← List.count_pos_iff, h.count]

theorem Links.aliveRes {w : World V} (h : Links w) {b s : Nat} (hb : b ∈ (w.obj s).observers) : (w.res b).alive = true := by
  rw [h.mem] at hb
  cases hx : (w.res b).alive
  · rw [h.deadRes b hx] at hb; simp at hb
  · rfl

theorem Links.aliveObj {w : World V} (h : Links w) {b s : Nat} (hb : s ∈ (w.res b).subjects) : (w.obj s).alive = true := by
  rw [← h.mem] at hb
  cases hx : (w.obj s).alive
  · rw [h.deadObj s hx] at hb; simp at hb
  · rfl

/-- The parts that bookkeeping operations do not touch. -/
structure Frame (w w' : World V) : Prop where
  M : w'.M = w.M
  ctr : w'.ctr = w.ctr
  nObj : w'.nObj = w.nObj
  nRes : w'.nRes = w.nRes
  nCch : w'.nCch = w.nCch
  cch : w'.cch = w.cch
  ub : w'.ub = w.ub
  alive : ∀ s, (w'.obj s).alive = (w.obj s).alive
  tag : ∀ s, (w'.obj s).tag = (w.obj s).tag

theorem Frame.refl (w : World V) : Frame w w := ⟨rfl, rfl, rfl, rfl, rfl, rfl, rfl, fun _ => rfl, fun _ => rfl⟩

theorem Frame.trans {w1 w2 w3 : World V} (h : Frame w1 w2) (g : Frame w2 w3) : Frame w1 w3 :=
  ⟨g.M.trans h.M, g.ctr.trans h.ctr, g.nObj.trans h.nObj, g.nRes.trans h.nRes, g.nCch.trans h.nCch, g.cch.trans h.cch,
   g.ub.trans h.ub, fun s => (g.alive s).trans (h.alive s), fun s => (g.tag s).trans (h.tag s)⟩

/-! ### notifications -/

theorem notify_changed_aux (s : Nat) (l : List Nat) : ∀ (w : World V), (∀ b ∈ l, (w.res b).alive = true) →
    l.foldl (fun w b => processNotification w false s b) w
      = { w with res := fun b => if b ∈ l then { w.res b with stale := true } else w.res b } := by
  induction l with
  | nil => intro w _; simp
  | cons x l ih =>
    intro w h
    have hx : processNotification w false s x = w.setRes x { w.res x with stale := true } := by
      simp [processNotification, h x (by simp)]
    rw [List.foldl_cons, hx, ih]
    · simp only [World.setRes, World.mk.injEq, true_and, and_true]
      funext b
      by_cases hb : b = x
      · subst hb; simp
      · simp [hb, Function.update_of_ne]
    · intro b hb
      by_cases hbx : b = x
      · subst hbx; simpa [World.setRes] using h b (by simp)
      · simpa [World.setRes, Function.update_of_ne, hbx] using h b (by simp [hb])

theorem notify_changed (w : World V) (s : Nat) (h : ∀ b ∈ (w.obj s).observers, (w.res b).alive = true) :
    notify w false s
      = { w with res := fun b => if b ∈ (w.obj s).observers then { w.res b with stale := true } else w.res b } :=
  notify_changed_aux s _ w h

theorem notify_destroyed_aux (s : Nat) (l : List Nat) : ∀ (w : World V), (∀ b ∈ l, (w.res b).alive = true) →
    (∀ b, l.count b ≤ (w.res b).subjects.count s) →
    ∃ f : Nat → List Nat, (∀ b, b ∉ l → f b = (w.res b).subjects) ∧
      (∀ b, (f b).count s = (w.res b).subjects.count s - l.count b) ∧
      (∀ b t, t ≠ s → (f b).count t = (w.res b).subjects.count t) ∧
      (∀ b t, t ∈ f b → t ∈ (w.res b).subjects) ∧
      l.foldl (fun w b => processNotification w true s b) w
        = { w with res := fun b => { w.res b with stale := (w.res b).stale || decide (b ∈ l), subjects := f b } } := by
  induction l with
  | nil =>
    intro w _ _
    exact ⟨fun b => (w.res b).subjects, by simp, by simp, by simp, by simp, by simp⟩
  | cons x l ih =>
    intro w h hc
    have hmem : s ∈ (w.res x).subjects := by
      have := hc x
      rw [← List.count_pos_iff]
      simp at this
      omega
    have hx : processNotification w true s x
        = w.setRes x { w.res x with stale := true, subjects := (w.res x).subjects.erase s } := by
      simp [processNotification, h x (by simp), hmem]
    obtain ⟨f, h1, h2, h3, h4, h5⟩ := ih (w.setRes x { w.res x with stale := true, subjects := (w.res x).subjects.erase s })
      (by
        intro b hb
        by_cases hbx : b = x
        · subst hbx; simpa [World.setRes] using h b (by simp)
        · simpa [World.setRes, Function.update_of_ne, hbx] using h b (by simp [hb]))
      (by
        intro b
        have := hc b
        by_cases hbx : b = x
        · subst hbx
          simp [World.setRes, List.count_erase_self] at this ⊢
          omega
        · have hxb : x ≠ b := fun e => hbx e.symm
          simp [World.setRes, Function.update_of_ne, hbx, hxb, List.count_cons] at this ⊢
          exact this)
    refine ⟨f, ?_, ?_, ?_, ?_, ?_⟩
    · intro b hb
      simp at hb
      rw [h1 b hb.2]
      simp [World.setRes, Function.update_of_ne, hb.1]
    · intro b
      rw [h2 b]
      by_cases hbx : b = x
      · subst hbx
        simp [World.setRes, List.count_erase_self]
        omega
      · have hxb : x ≠ b := fun e => hbx e.symm
        simp [World.setRes, Function.update_of_ne, hbx, List.count_cons, hxb]
    · intro b t ht
      rw [h3 b t ht]
      by_cases hbx : b = x
      · subst hbx
        simp [World.setRes, List.count_erase_of_ne ht]
      · simp [World.setRes, Function.update_of_ne, hbx]
    · intro b t ht
      have := h4 b t ht
      by_cases hbx : b = x
      · subst hbx
        simp [World.setRes] at this
        exact List.mem_of_mem_erase this
      · simpa [World.setRes, Function.update_of_ne, hbx] using this
    · rw [List.foldl_cons, hx, h5]
      simp only [World.setRes, World.mk.injEq, true_and, and_true]
      funext b
      by_cases hb : b = x
      · subst hb; simp
      · simp [hb, Function.update_of_ne]

/-! ### attach and detach -/

theorem requestDetach_spec {w : World V} (h : Links w) {b s : Nat} (hs : s ∈ (w.res b).subjects) :
    Links (requestDetach w b s) ∧ Frame w (requestDetach w b s) ∧
    (∀ b', b' ≠ b → (requestDetach w b s).res b' = w.res b') ∧
    (requestDetach w b s).res b = { w.res b with subjects := (w.res b).subjects.erase s } := by
  have ha := h.aliveObj hs
  have he : requestDetach w b s = (w.setRes b { w.res b with subjects := (w.res b).subjects.erase s }).setObj s
      { w.obj s with observers := (w.obj s).observers.erase b } := by
    simp [requestDetach, World.setRes, ha]
  rw [he]
  refine ⟨⟨?_, ?_, ?_, ?_, ?_⟩, ⟨rfl, rfl, rfl, rfl, rfl, rfl, rfl, ?_, ?_⟩, ?_, ?_⟩
  · intro t ht
    by_cases e : t = s
    · subst e; simp [World.setObj, World.setRes, ha] at ht
    · simp [World.setObj, World.setRes, e] at ht ⊢
      exact h.deadObj t ht
  · intro b' hb'
    by_cases e : b' = b
    · subst e; simp [World.setObj, World.setRes] at hb' ⊢
      rw [h.deadRes b' hb']; simp
    · simp [World.setObj, World.setRes, e] at hb' ⊢
      exact h.deadRes b' hb'
  · intro b' t
    have := h.count b' t
    by_cases e : b' = b <;> by_cases e' : t = s
    · subst e; subst e'
      simp [World.setObj, World.setRes, List.count_erase_self, this]
    · subst e
      simp [World.setObj, World.setRes, e', List.count_erase_of_ne e', this]
    · subst e'
      simp [World.setObj, World.setRes, e, List.count_erase_of_ne e, this]
    · simp [World.setObj, World.setRes, e, e', this]
  · intro t ht
    by_cases e : t = s
    · subst e; simpa [World.setObj, World.setRes] using h.freshObj t ht
    · simpa [World.setObj, World.setRes, e] using h.freshObj t ht
  · intro t ht
    by_cases e : t = b
    · subst e; simpa [World.setObj, World.setRes] using h.freshRes t ht
    · simpa [World.setObj, World.setRes, e] using h.freshRes t ht
  · intro t
    by_cases e : t = s
    · subst e; simp [World.setObj, World.setRes]
    · simp [World.setObj, World.setRes, e]
  · intro t
    by_cases e : t = s
    · subst e; simp [World.setObj, World.setRes]
    · simp [World.setObj, World.setRes, e]
  · intro b' e
    simp [World.setObj, World.setRes, e]
  · simp [World.setObj, World.setRes]

theorem detachLoop_spec (b : Nat) : ∀ (n : Nat) (w : World V), Links w → (w.res b).subjects.length = n →
    Links (detachLoop w b n) ∧ Frame w (detachLoop w b n) ∧
    (∀ b', b' ≠ b → (detachLoop w b n).res b' = w.res b') ∧
    (detachLoop w b n).res b = { w.res b with subjects := [] } := by
  intro n
  induction n with
  | zero =>
    intro w h hn
    have h0 := List.length_eq_zero_iff.mp hn
    refine ⟨h, Frame.refl w, fun _ _ => rfl, ?_⟩
    simp only [detachLoop]
    rw [← h0]
  | succ n ih =>
    intro w h hn
    have hlt : n < (w.res b).subjects.length := by omega
    have hg : (w.res b).subjects[n]? = some (w.res b).subjects[n] := List.getElem?_eq_getElem hlt
    have hmem : (w.res b).subjects[n] ∈ (w.res b).subjects := List.getElem_mem hlt
    obtain ⟨l1, f1, r1, s1⟩ := requestDetach_spec h hmem
    obtain ⟨l2, f2, r2, s2⟩ := ih (requestDetach w b (w.res b).subjects[n]) l1 (by
      rw [s1]; simp [List.length_erase_of_mem hmem]; omega)
    have he : detachLoop w b (n + 1) = detachLoop (requestDetach w b (w.res b).subjects[n]) b n := by
      rw [detachLoop.eq_def]; simp only [hg]
    rw [he]
    refine ⟨l2, f1.trans f2, fun b' e => (r2 b' e).trans (r1 b' e), ?_⟩
    rw [s2, s1]

theorem destroyRes_spec {w : World V} (h : Links w) {b : Nat} (hb : (w.res b).alive = true) :
    Links (destroyRes w b) ∧ Frame w (destroyRes w b) ∧
    (∀ b', b' ≠ b → (destroyRes w b).res b' = w.res b') ∧
    ((destroyRes w b).res b).alive = false := by
  obtain ⟨l1, f1, r1, s1⟩ := detachLoop_spec b _ w h rfl
  have he : destroyRes w b = (detachLoop w b (w.res b).subjects.length).setRes b
      { w.res b with subjects := [], alive := false } := by
    simp [destroyRes, hb, s1]
  rw [he]
  generalize detachLoop w b (w.res b).subjects.length = w1 at *
  refine ⟨⟨?_, ?_, ?_, ?_, ?_⟩, ⟨f1.M, f1.ctr, f1.nObj, f1.nRes, f1.nCch, f1.cch, f1.ub, f1.alive, f1.tag⟩, ?_, ?_⟩
  · exact l1.deadObj
  · intro b' hb'
    by_cases e : b' = b
    · subst e; simp [World.setRes]
    · simp [World.setRes, e] at hb' ⊢
      exact l1.deadRes b' hb'
  · intro b' t
    have := l1.count b' t
    by_cases e : b' = b
    · subst e; simp only [World.setRes, Function.update_self]
      rw [this, s1]
    · simpa [World.setRes, e] using this
  · exact l1.freshObj
  · intro t ht
    by_cases e : t = b
    · subst e; simp [World.setRes]
    · simpa [World.setRes, e] using l1.freshRes t ht
  · intro b' e
    simp [World.setRes, e, r1 b' e]
  · simp [World.setRes]

/-- The tag a dependent has (`0` for NULL). -/
def tagOf (w : World V) : Option Nat → Nat
  | none => 0
  | some s => (w.obj s).tag

theorem Frame.tagOf {w w' : World V} (f : Frame w w') (d : Option Nat) : tagOf w' d = tagOf w d := by
  cases d
  · rfl
  · exact f.tag _

theorem attachLoop_spec (b : Nat) (ds : List (Option Nat)) : ∀ (w : World V), Links w → (w.res b).alive = true →
    (∀ s, some s ∈ ds → (w.obj s).alive = true) →
    Links (attachLoop w b ds) ∧ Frame w (attachLoop w b ds) ∧
    (∀ b', b' ≠ b → (attachLoop w b ds).res b' = w.res b') ∧
    (attachLoop w b ds).res b = { w.res b with tags := (w.res b).tags ++ ds.map (tagOf w),
                                               subjects := (w.res b).subjects ++ ds.filterMap id } := by
  induction ds with
  | nil => intro w h _ _; exact ⟨h, Frame.refl w, fun _ _ => rfl, by simp [attachLoop]⟩
  | cons d ds ih =>
    intro w h hb hd
    cases d with
    | none =>
      have hl : Links (w.setRes b { w.res b with tags := (w.res b).tags ++ [0] }) := by
        refine ⟨h.deadObj, ?_, ?_, h.freshObj, ?_⟩
        · intro b' hb'
          by_cases e : b' = b
          · subst e; simp [World.setRes, hb] at hb'
          · simp [World.setRes, e] at hb' ⊢
            exact h.deadRes b' hb'
        · intro b' t
          have := h.count b' t
          by_cases e : b' = b
          · subst e; simpa [World.setRes] using this
          · simpa [World.setRes, e] using this
        · intro t ht
          by_cases e : t = b
          · subst e; simpa [World.setRes] using h.freshRes t ht
          · simpa [World.setRes, e] using h.freshRes t ht
      have hf : Frame w (w.setRes b { w.res b with tags := (w.res b).tags ++ [0] }) :=
        ⟨rfl, rfl, rfl, rfl, rfl, rfl, rfl, fun _ => rfl, fun _ => rfl⟩
      obtain ⟨l2, f2, r2, s2⟩ := ih _ hl (by simp [World.setRes, hb]) (fun s hs => hd s (by simp [hs]))
      rw [attachLoop]
      refine ⟨l2, hf.trans f2, ?_, ?_⟩
      · intro b' e
        rw [r2 b' e]; simp [World.setRes, e]
      · rw [s2]
        have : List.map (tagOf (w.setRes b { w.res b with tags := (w.res b).tags ++ [0] })) ds = List.map (tagOf w) ds :=
          List.map_congr_left (fun d _ => hf.tagOf d)
        rw [this]
        simp [World.setRes, tagOf]
    | some s =>
      have hs := hd s (by simp)
      have hbn : b < w.nRes := by
        by_contra hc
        rw [h.freshRes b (by omega)] at hb; simp at hb
      set w1 := (requestAttach w b s) with hw1
      set w2 := w1.setRes b { w1.res b with tags := (w1.res b).tags ++ [(w1.obj s).tag] } with hw2
      have hr : ∀ b', w2.res b' = if b' = b then { w.res b with tags := (w.res b).tags ++ [(w.obj s).tag], subjects := (w.res b).subjects ++ [s] } else w.res b' := by
        intro b'
        by_cases e : b' = b
        · subst e; simp [hw2, hw1, World.setRes, requestAttach, World.setObj]
        · simp [hw2, hw1, World.setRes, requestAttach, World.setObj, e]
      have ho : ∀ t, w2.obj t = if t = s then { w.obj s with observers := (w.obj s).observers ++ [b] } else w.obj t := by
        intro t
        by_cases e : t = s
        · subst e; simp [hw2, hw1, World.setRes, requestAttach, World.setObj]
        · simp [hw2, hw1, World.setRes, requestAttach, World.setObj, e]
      have hf : Frame w w2 := by
        refine ⟨rfl, rfl, rfl, rfl, rfl, rfl, rfl, ?_, ?_⟩ <;> intro t <;> rw [ho] <;> split <;> simp_all
      have hl : Links w2 := by
        refine ⟨?_, ?_, ?_, ?_, ?_⟩
        · intro t ht
          rw [ho] at ht ⊢
          split at ht
          · simp [hs] at ht
          · rename_i e; rw [if_neg e]; exact h.deadObj t ht
        · intro b' hb'
          rw [hr] at hb' ⊢
          split at hb'
          · simp [hb] at hb'
          · rename_i e; rw [if_neg e]; exact h.deadRes b' hb'
        · intro b' t
          have := h.count b' t
          rw [ho, hr]
          by_cases e : b' = b <;> by_cases e' : t = s
          · subst e; subst e'; simp [this]
          · subst e
            have e2 : ¬ s = t := fun x => e' x.symm
            simp [e', this, List.count_singleton, e2]
          · subst e'
            have e2 : ¬ b = b' := fun x => e x.symm
            simp [e, this, List.count_singleton, e2]
          · simp [e, e', this]
        · intro t ht
          have := h.freshObj t ht
          rw [hf.alive]; exact this
        · intro t ht
          have h1 := h.freshRes t ht
          rw [hr]
          split
          · rename_i e; subst e; rw [h1] at hb; simp at hb
          · exact h1
      obtain ⟨l2, f2, r2, s2⟩ := ih w2 hl (by rw [hr]; simp [hb]) (fun t ht => by rw [hf.alive]; exact hd t (by simp [ht]))
      have he : attachLoop w b (some s :: ds) = attachLoop w2 b ds := by
        rw [attachLoop]
      rw [he]
      refine ⟨l2, hf.trans f2, ?_, ?_⟩
      · intro b' e
        rw [r2 b' e, hr, if_neg e]
      · rw [s2]
        have : List.map (tagOf w2) ds = List.map (tagOf w) ds := List.map_congr_left (fun d _ => hf.tagOf d)
        rw [this, hr]
        simp [tagOf]

/-! ### cleanup -/

theorem cleanupLoop_spec (l : List Nat) : ∀ (w : World V), Links w → l.Nodup → (∀ b ∈ l, (w.res b).alive = true) →
    Links (cleanupLoop w l).1 ∧ Frame w (cleanupLoop w l).1 ∧
    (cleanupLoop w l).2 = l.filter (fun b => !(w.res b).stale) ∧
    (∀ b, ¬ (b ∈ l ∧ (w.res b).stale = true) → (cleanupLoop w l).1.res b = w.res b) ∧
    (∀ b, b ∈ l → (w.res b).stale = true → ((cleanupLoop w l).1.res b).alive = false) := by
  induction l with
  | nil => intro w h _ _; exact ⟨h, Frame.refl w, rfl, fun _ _ => rfl, by simp⟩
  | cons x l ih =>
    intro w h hn ha
    have hx : x ∉ l := (List.nodup_cons.mp hn).1
    have hn' := (List.nodup_cons.mp hn).2
    by_cases hs : (w.res x).stale = true
    · obtain ⟨l1, f1, r1, d1⟩ := destroyRes_spec h (ha x (by simp))
      have hre : ∀ b ∈ l, (destroyRes w x).res b = w.res b := fun b hb => r1 b (fun e => hx (e ▸ hb))
      obtain ⟨l2, f2, e2, r2, d2⟩ := ih (destroyRes w x) l1 hn' (fun b hb => by rw [hre b hb]; exact ha b (by simp [hb]))
      have he : cleanupLoop w (x :: l) = cleanupLoop (destroyRes w x) l := by rw [cleanupLoop, if_pos hs]
      rw [he]
      refine ⟨l2, f1.trans f2, ?_, ?_, ?_⟩
      · rw [e2, List.filter_cons]
        simp only [hs, Bool.not_true, Bool.false_eq_true, if_false]
        exact List.filter_congr (fun b hb => by rw [hre b hb])
      · intro b hb
        have hbx : b ≠ x := by rintro rfl; exact hb ⟨by simp, hs⟩
        rw [r2 b, r1 b hbx]
        rw [r1 b hbx]
        rintro ⟨hm, hst⟩
        exact hb ⟨by simp [hm], hst⟩
      · intro b hb hst
        rcases List.mem_cons.mp hb with e | hb
        · subst e
          rw [r2 b (fun c => hx c.1)]
          exact d1
        · exact d2 b hb (by rw [hre b hb]; exact hst)
    · obtain ⟨l2, f2, e2, r2, d2⟩ := ih w h hn' (fun b hb => ha b (by simp [hb]))
      have he : cleanupLoop w (x :: l) = ((cleanupLoop w l).1, x :: (cleanupLoop w l).2) := by
        rw [cleanupLoop, if_neg hs]
      rw [he]
      refine ⟨l2, f2, ?_, ?_, ?_⟩
      · rw [e2, List.filter_cons]
        simp [hs]
      · intro b hb
        apply r2 b
        rintro ⟨hm, hst⟩
        exact hb ⟨by simp [hm], hst⟩
      · intro b hb hst
        rcases List.mem_cons.mp hb with e | hb
        · subst e; exact absurd hst hs
        · exact d2 b hb hst

end Verif.Cache
