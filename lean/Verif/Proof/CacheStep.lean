import Verif.Proof.CacheSim

/-! Each operation preserves the simulation relation (helpers for C09-C11). -/

set_option linter.unusedSectionVars false
set_option linter.unusedSimpArgs false

namespace Verif.Cache

variable {V : Type}

/-- Reassemble the simulation relation when objects and tags are untouched. -/
theorem Inv.build {w w' : World V} {a a' : Abs V} (h : Inv w a) (f : Frame { w with cch := w'.cch, nRes := w'.nRes } w') (hl : Links w')
    (hn : a'.nObj = a.nObj) (ha : a'.alive = a.alive) (hc : a'.nCch = a.nCch)
    (hfc : ∀ c, w.nCch ≤ c → (w'.cch c).alive = false)
    (owned : ∀ c, ∀ b ∈ (w'.cch c).entries, (w'.res b).alive = true)
    (nodup : ∀ c, (w'.cch c).entries.Nodup)
    (disj : ∀ c c' b, b ∈ (w'.cch c).entries → b ∈ (w'.cch c').entries → c = c')
    (noLeak : ∀ b, (w'.res b).alive = true → ∃ c, b ∈ (w'.cch c).entries)
    (dead : ∀ c, (w'.cch c).alive = false → (w'.cch c).entries = [] ∧ a'.cache c = none)
    (live : ∀ c, (w'.cch c).alive = true → ∃ l, a'.cache c = some ((w'.cch c).max, l) ∧
      List.Forall₂ (R w') (fresh w' c) l ∧
      (0 ≤ (w'.cch c).max → ((w'.cch c).entries.length : Int) ≤ (w'.cch c).max)) : Inv w' a' := by
  refine ⟨hl, f.ub.trans h.ub, ?_, ?_, ?_, ?_, ?_, ?_, owned, nodup, disj, noLeak, dead, live, ?_⟩
  · rw [hn]; exact f.nObj.trans h.nObj
  · intro s; rw [ha, f.alive]; exact h.alive s
  · rw [hc]; exact f.nCch.trans h.nCch
  · intro c hc1
    have := f.nCch
    simp only at this
    rw [this] at hc1
    exact hfc c hc1
  · intro s hs
    rw [f.alive] at hs
    rw [f.tag, f.ctr]
    exact h.tagPos s hs
  · intro s t hs ht
    rw [f.alive] at hs
    rw [f.alive] at ht
    rw [f.tag, f.tag]
    exact h.tagInj s t hs ht
  · rw [f.ctr]; exact h.ctrPos

/-- Entries that depend on `s` become stale, nothing else happens to results and caches. -/
theorem live_forget {w w' : World V} {a : Abs V} (h : Inv w a) (s : Nat)
    (hcch : w'.cch = w.cch)
    (hst : ∀ b, (w'.res b).stale = ((w.res b).stale || decide (s ∈ (w.res b).subjects)))
    (hsame : ∀ b, s ∉ (w.res b).subjects → w'.res b = w.res b)
    (htag : ∀ t, t ≠ s → (w.obj t).alive = true → (w'.obj t).tag = (w.obj t).tag ∧ (w'.obj t).alive = (w.obj t).alive)
    (c : Nat) (hl : (w'.cch c).alive = true) :
    ∃ l, (a.forget s).cache c = some ((w'.cch c).max, l) ∧ List.Forall₂ (R w') (fresh w' c) l ∧
      (0 ≤ (w'.cch c).max → ((w'.cch c).entries.length : Int) ≤ (w'.cch c).max) := by
  rw [hcch] at hl ⊢
  obtain ⟨l, h1, h2, h3⟩ := h.live c hl
  refine ⟨l.filter (fun e => !e.dependsOn s), ?_, ?_, h3⟩
  · simp [Abs.forget, h1]
  · have hf : fresh w' c = (fresh w c).filter (fun b => !decide (s ∈ (w.res b).subjects)) := by
      unfold fresh
      rw [hcch, List.filter_filter]
      apply List.filter_congr
      intro b _
      rw [hst b]
      cases (w.res b).stale <;> cases decide (s ∈ (w.res b).subjects) <;> rfl
    rw [hf]
    have h4 := forall₂_filter h2 (fun b => !decide (s ∈ (w.res b).subjects)) (fun e => !e.dependsOn s)
      (fun b e _ hr => by
        simp only [Entry.dependsOn]
        rw [decide_eq_decide.mpr (hr.subj s)])
    refine forall₂_imp_mem h4 (fun b e hb hr => ?_)
    have hns : s ∉ (w.res b).subjects := by
      simp only [List.mem_filter, Bool.not_eq_true', decide_eq_false_iff_not] at hb
      exact hb.2
    have hne : ∀ t, some t ∈ e.deps → t ≠ s := by
      intro t ht e1
      subst e1
      exact hns ((hr.subj t).mpr ht)
    exact hr.mono (hsame b hns) (fun t ht => (htag t (hne t ht) (hr.alive t ht)).1)
      (fun t ht => (htag t (hne t ht) (hr.alive t ht)).2)

theorem dead_forget {w : World V} {a : Abs V} (h : Inv w a) (s c : Nat) (hd : (w.cch c).alive = false) :
    (w.cch c).entries = [] ∧ (a.forget s).cache c = none := by
  have := h.dead c hd
  exact ⟨this.1, by simp [Abs.forget, this.2]⟩

/-- `ObjectChanged` in closed form. -/
theorem objectChanged_eq (w : World V) (s : Nat) (h : ∀ b ∈ (w.obj s).observers, (w.res b).alive = true) :
    objectChanged w s = { w with
      obj := Function.update w.obj s { w.obj s with tag := w.ctr }
      ctr := (w.ctr + 1) % w.M
      res := fun b => if b ∈ (w.obj s).observers then { w.res b with stale := true } else w.res b } := by
  unfold objectChanged
  rw [notify_changed]
  · simp [World.setObj]
  · simpa [World.setObj] using h

theorem objectChanged_sim {w : World V} {a : Abs V} (h : Inv w a) (s : Nat) (hs : (w.obj s).alive = true)
    (hM : w.ctr + 1 < w.M) :
    Inv (objectChanged w s) (a.forget s) ∧ (objectChanged w s).ctr = w.ctr + 1 ∧ (objectChanged w s).M = w.M := by
  have hobs : ∀ b ∈ (w.obj s).observers, (w.res b).alive = true := fun b hb => h.links.aliveRes hb
  rw [objectChanged_eq w s hobs, Nat.mod_eq_of_lt hM]
  refine ⟨?_, rfl, rfl⟩
  set w' : World V := { w with
      obj := Function.update w.obj s { w.obj s with tag := w.ctr }
      ctr := w.ctr + 1
      res := fun b => if b ∈ (w.obj s).observers then { w.res b with stale := true } else w.res b } with hw'
  have hal : ∀ b, (w'.res b).alive = (w.res b).alive := by
    intro b; simp only [hw']; split <;> rfl
  have hsub : ∀ b, (w'.res b).subjects = (w.res b).subjects := by
    intro b; simp only [hw']; split <;> rfl
  have hoa : ∀ t, (w'.obj t).alive = (w.obj t).alive := by
    intro t
    by_cases e : t = s
    · subst e; simp [hw']
    · simp [hw', e]
  have hoo : ∀ t, (w'.obj t).observers = (w.obj t).observers := by
    intro t
    by_cases e : t = s
    · subst e; simp [hw']
    · simp [hw', e]
  have hts : (w'.obj s).tag = w.ctr := by simp [hw']
  have htt : ∀ t, t ≠ s → (w'.obj t).tag = (w.obj t).tag := by intro t e; simp [hw', e]
  refine ⟨⟨?_, ?_, ?_, ?_, ?_⟩, h.ub, h.nObj, ?_, h.nCch, h.freshC, ?_, ?_, ?_, h.nodup, h.disj, ?_, ?_, ?_, ?_⟩
  · intro t ht; rw [hoa] at ht; rw [hoo]; exact h.links.deadObj t ht
  · intro b hb; rw [hal] at hb; rw [hsub]; exact h.links.deadRes b hb
  · intro b t; rw [hoo, hsub]; exact h.links.count b t
  · intro t ht; rw [hoa]; exact h.links.freshObj t ht
  · intro b hb; rw [hal]; exact h.links.freshRes b hb
  · intro t; rw [hoa]; exact h.alive t
  · intro t ht
    rw [hoa] at ht
    by_cases e : t = s
    · subst e; rw [hts]; exact ⟨h.ctrPos, Nat.lt_succ_self _⟩
    · rw [htt t e]; have := h.tagPos t ht; exact ⟨this.1, Nat.lt_succ_of_lt this.2⟩
  · intro t u ht hu htu
    rw [hoa] at ht hu
    have p1 := h.tagPos t ht
    have p2 := h.tagPos u hu
    by_cases e : t = s <;> by_cases e' : u = s
    · rw [e, e']
    · subst e; rw [hts, htt u e'] at htu; omega
    · subst e'; rw [hts, htt t e] at htu; omega
    · rw [htt t e, htt u e'] at htu; exact h.tagInj t u ht hu htu
  · intro c b hb; rw [hal]; exact h.owned c b hb
  · intro b hb; rw [hal] at hb; exact h.noLeak b hb
  · intro c hd; exact dead_forget h s c hd
  · intro c hl
    refine live_forget (w' := w') h s rfl ?_ ?_ ?_ c hl
    · intro b
      by_cases hb : b ∈ (w.obj s).observers
      · have := (h.links.mem b s).mp hb
        simp [hw', hb, this]
      · have : s ∉ (w.res b).subjects := fun hx => hb ((h.links.mem b s).mpr hx)
        simp [hw', hb, this]
    · intro b hb
      have : b ∉ (w.obj s).observers := fun hx => hb ((h.links.mem b s).mp hx)
      simp [hw', this]
    · intro t e _; exact ⟨htt t e, hoa t⟩
  · exact Nat.succ_pos _

theorem newObj_sim {w : World V} {a : Abs V} (h : Inv w a) (hM : w.ctr + 1 < w.M) :
    Inv (newObj w) { a with nObj := a.nObj + 1, alive := Function.update a.alive a.nObj true } ∧
    (newObj w).ctr = w.ctr + 1 ∧ (newObj w).M = w.M := by
  have he : newObj w = { w with
      obj := Function.update w.obj w.nObj ⟨true, w.ctr, []⟩
      ctr := w.ctr + 1
      nObj := w.nObj + 1 } := by
    unfold newObj
    rw [objectChanged_eq]
    · simp [World.setObj, Nat.mod_eq_of_lt hM]
    · simp [World.setObj]
  rw [he]
  refine ⟨?_, rfl, rfl⟩
  have hdead := h.links.freshObj w.nObj (Nat.le_refl _)
  have hob := h.links.deadObj _ hdead
  set w' : World V := { w with
      obj := Function.update w.obj w.nObj ⟨true, w.ctr, []⟩
      ctr := w.ctr + 1
      nObj := w.nObj + 1 } with hw'
  have hoo : ∀ t, (w'.obj t).observers = (w.obj t).observers := by
    intro t
    by_cases e : t = w.nObj
    · subst e; simp [hw', hob]
    · simp [hw', e]
  have hto : ∀ t, t ≠ w.nObj → w'.obj t = w.obj t := by intro t e; simp [hw', e]
  have hs : w'.obj w.nObj = ⟨true, w.ctr, []⟩ := by simp [hw']
  refine ⟨⟨?_, ?_, ?_, ?_, ?_⟩, h.ub, ?_, ?_, h.nCch, h.freshC, ?_, ?_, h.owned, h.nodup, h.disj, h.noLeak, h.dead, ?_, ?_⟩
  · intro t ht
    by_cases e : t = w.nObj
    · rw [e]; rw [hs]
    · rw [hto t e] at ht ⊢; exact h.links.deadObj t ht
  · exact h.links.deadRes
  · intro b t; rw [hoo]; exact h.links.count b t
  · intro t ht
    have ht : w.nObj + 1 ≤ t := ht
    rw [hto t (by omega)]; exact h.links.freshObj t (by omega)
  · exact h.links.freshRes
  · show w.nObj + 1 = a.nObj + 1
    rw [h.nObj]
  · intro t
    by_cases e : t = w.nObj
    · rw [e, hs, ← h.nObj]; simp
    · rw [hto t e, ← h.nObj]; simp [e, h.alive]
  · intro t ht
    by_cases e : t = w.nObj
    · rw [e, hs]; exact ⟨h.ctrPos, Nat.lt_succ_self _⟩
    · rw [hto t e] at ht ⊢; have := h.tagPos t ht; exact ⟨this.1, Nat.lt_succ_of_lt this.2⟩
  · intro t u ht hu htu
    by_cases e : t = w.nObj <;> by_cases e' : u = w.nObj
    · rw [e, e']
    · rw [hto u e'] at hu htu; rw [e, hs] at htu
      have := h.tagPos u hu; simp only at htu; omega
    · rw [hto t e] at ht htu; rw [e', hs] at htu
      have := h.tagPos t ht; simp only at htu; omega
    · rw [hto t e] at ht htu; rw [hto u e'] at hu htu; exact h.tagInj t u ht hu htu
  · intro c hl
    obtain ⟨l, h1, h2, h3⟩ := h.live c hl
    refine ⟨l, h1, ?_, h3⟩
    refine forall₂_imp_mem h2 (fun b e hb hr => ?_)
    have hne : ∀ t, some t ∈ e.deps → t ≠ w.nObj := by
      intro t ht e1
      have := hr.alive t ht
      rw [e1, hdead] at this; simp at this
    exact hr.mono rfl (fun t ht => by rw [hto t (hne t ht)]) (fun t ht => by rw [hto t (hne t ht)])
  · exact Nat.succ_pos _

theorem destroyObj_sim {w : World V} {a : Abs V} (h : Inv w a) (s : Nat) (hs : (w.obj s).alive = true) :
    Inv (destroyObj w s) { a.forget s with alive := Function.update a.alive s false } ∧
    (destroyObj w s).ctr = w.ctr ∧ (destroyObj w s).M = w.M := by
  obtain ⟨f, f1, f2, f3, f4, f5⟩ := notify_destroyed_aux s (w.obj s).observers w (fun b hb => h.links.aliveRes hb)
    (fun b => by rw [h.links.count])
  have he : destroyObj w s = { w with
      obj := Function.update w.obj s ⟨false, (w.obj s).tag, []⟩
      res := fun b => { w.res b with stale := (w.res b).stale || decide (b ∈ (w.obj s).observers), subjects := f b } } := by
    unfold destroyObj notify
    rw [f5]
    simp [World.setObj]
  rw [he]
  refine ⟨?_, rfl, rfl⟩
  set w' : World V := { w with
      obj := Function.update w.obj s ⟨false, (w.obj s).tag, []⟩
      res := fun b => { w.res b with stale := (w.res b).stale || decide (b ∈ (w.obj s).observers), subjects := f b } } with hw'
  have hto : ∀ t, t ≠ s → w'.obj t = w.obj t := by intro t e; simp [hw', e]
  have hos : w'.obj s = ⟨false, (w.obj s).tag, []⟩ := by simp [hw']
  have hal : ∀ t, (w'.obj t).alive = true → t ≠ s := by
    intro t ht e; rw [e, hos] at ht; simp at ht
  refine ⟨⟨?_, ?_, ?_, ?_, ?_⟩, h.ub, h.nObj, ?_, h.nCch, h.freshC, ?_, ?_, h.owned, h.nodup, h.disj, h.noLeak, ?_, ?_, h.ctrPos⟩
  · intro t ht
    by_cases e : t = s
    · rw [e, hos]
    · rw [hto t e] at ht ⊢; exact h.links.deadObj t ht
  · intro b hb
    have hd := h.links.deadRes b hb
    have : ∀ t, t ∉ f b := fun t ht => by have := f4 b t ht; rw [hd] at this; simp at this
    exact List.eq_nil_iff_forall_not_mem.mpr this
  · intro b t
    have hc := h.links.count b t
    show (w'.obj t).observers.count b = (f b).count t
    by_cases e : t = s
    · subst e; rw [hos, f2 b, hc]; simp
    · rw [hto t e, f3 b t e, hc]
  · intro t ht
    by_cases e : t = s
    · rw [e, hos]
    · rw [hto t e]; exact h.links.freshObj t ht
  · exact h.links.freshRes
  · intro t
    by_cases e : t = s
    · rw [e, hos]; simp
    · rw [hto t e]; simp [e, h.alive]
  · intro t ht
    have e := hal t ht
    rw [hto t e] at ht ⊢; exact h.tagPos t ht
  · intro t u ht hu htu
    have e := hal t ht
    have e' := hal u hu
    rw [hto t e] at ht htu; rw [hto u e'] at hu htu; exact h.tagInj t u ht hu htu
  · intro c hd; exact dead_forget h s c hd
  · intro c hl
    refine live_forget (w' := w') h s rfl ?_ ?_ ?_ c hl
    · intro b
      simp only [hw']
      rw [decide_eq_decide.mpr (h.links.mem b s)]
    · intro b hb
      have h1 : b ∉ (w.obj s).observers := fun hx => hb ((h.links.mem b s).mp hx)
      simp [hw', h1, f1 b h1]
    · intro t e _; rw [hto t e]; exact ⟨rfl, rfl⟩

theorem newCache_sim {w : World V} {a : Abs V} (h : Inv w a) (m : Int) :
    Inv { (w.setCch w.nCch ⟨true, m, []⟩) with nCch := w.nCch + 1 } { a.set a.nCch m [] with nCch := a.nCch + 1 } := by
  have hdead := h.freshC w.nCch (Nat.le_refl _)
  set w' : World V := { (w.setCch w.nCch ⟨true, m, []⟩) with nCch := w.nCch + 1 } with hw'
  have hc : w'.cch w.nCch = ⟨true, m, []⟩ := by simp [hw', World.setCch]
  have hc' : ∀ c, c ≠ w.nCch → w'.cch c = w.cch c := by intro c e; simp [hw', World.setCch, e]
  have hsub : ∀ c, (w'.cch c).entries = (w.cch c).entries := by
    intro c
    by_cases e : c = w.nCch
    · rw [e, hc, (h.dead _ hdead).1]
    · rw [hc' c e]
  refine ⟨⟨h.links.deadObj, h.links.deadRes, h.links.count, h.links.freshObj, h.links.freshRes⟩, h.ub, h.nObj, h.alive, ?_, ?_,
    h.tagPos, h.tagInj, ?_, ?_, ?_, ?_, ?_, ?_, h.ctrPos⟩
  · show w.nCch + 1 = a.nCch + 1
    rw [h.nCch]
  · intro c hn
    have hn : w.nCch + 1 ≤ c := hn
    rw [hc' c (by omega)]; exact h.freshC c (by omega)
  · intro c b hb; rw [hsub] at hb; exact h.owned c b hb
  · intro c; rw [hsub]; exact h.nodup c
  · intro c c' b h1 h2; rw [hsub] at h1 h2; exact h.disj c c' b h1 h2
  · intro b hb
    obtain ⟨c, hcb⟩ := h.noLeak b hb
    exact ⟨c, by rw [hsub]; exact hcb⟩
  · intro c hd
    by_cases e : c = w.nCch
    · rw [e, hc] at hd; simp at hd
    · rw [hc' c e] at hd ⊢
      refine ⟨(h.dead c hd).1, ?_⟩
      simp only [Abs.set, ← h.nCch]
      simp [e, (h.dead c hd).2]
  · intro c hl
    by_cases e : c = w.nCch
    · subst e
      refine ⟨[], ?_, ?_, ?_⟩
      · rw [hc]; simp [Abs.set, ← h.nCch]
      · unfold fresh; rw [hc]; exact .nil
      · rw [hc]; simp
    · rw [hc' c e] at hl
      obtain ⟨l, h1, h2, h3⟩ := h.live c hl
      refine ⟨l, ?_, ?_, ?_⟩
      · rw [hc' c e]; simp [Abs.set, ← h.nCch, e, h1]
      · unfold fresh; rw [hc' c e]
        exact forall₂_imp_mem h2 (fun b e' _ hr => hr.mono rfl (fun _ _ => rfl) (fun _ _ => rfl))
      · rw [hc' c e]; exact h3

/-! ### clear and destruction of a cache -/

theorem destroyAll_spec (l : List Nat) : ∀ (w : World V), Links w → l.Nodup → (∀ b ∈ l, (w.res b).alive = true) →
    Links (l.foldl destroyRes w) ∧ Frame w (l.foldl destroyRes w) ∧
    (∀ b, b ∉ l → (l.foldl destroyRes w).res b = w.res b) ∧
    (∀ b, b ∈ l → ((l.foldl destroyRes w).res b).alive = false) := by
  induction l with
  | nil => intro w h _ _; exact ⟨h, Frame.refl w, fun _ _ => rfl, by simp⟩
  | cons x l ih =>
    intro w h hn ha
    have hx : x ∉ l := (List.nodup_cons.mp hn).1
    obtain ⟨l1, f1, r1, d1⟩ := destroyRes_spec h (ha x (by simp))
    have hre : ∀ b ∈ l, (destroyRes w x).res b = w.res b := fun b hb => r1 b (fun e => hx (e ▸ hb))
    obtain ⟨l2, f2, r2, d2⟩ := ih (destroyRes w x) l1 (List.nodup_cons.mp hn).2
      (fun b hb => by rw [hre b hb]; exact ha b (by simp [hb]))
    rw [List.foldl_cons]
    refine ⟨l2, f1.trans f2, ?_, ?_⟩
    · intro b hb
      simp only [List.mem_cons, not_or] at hb
      rw [r2 b hb.2, r1 b hb.1]
    · intro b hb
      rcases List.mem_cons.mp hb with e | hb
      · subst e; rw [r2 b hx]; exact d1
      · exact d2 b hb

theorem destroyCch_sim {w : World V} {a : Abs V} (h : Inv w a) (c : Nat) :
    Inv (destroyCch w c) { a with cache := Function.update a.cache c none } ∧
    (destroyCch w c).ctr = w.ctr ∧ (destroyCch w c).M = w.M := by
  obtain ⟨l1, f1, r1, d1⟩ := destroyAll_spec (w.cch c).entries w h.links (h.nodup c) (h.owned c)
  have hdef : destroyCch w c = ((w.cch c).entries.foldl destroyRes w).setCch c ⟨false, (w.cch c).max, []⟩ := by
    simp [destroyCch, f1.cch]
  rw [hdef]
  generalize (w.cch c).entries.foldl destroyRes w = w1 at *
  set w' := w1.setCch c ⟨false, (w.cch c).max, []⟩ with hw'
  have hc : w'.cch c = ⟨false, (w.cch c).max, []⟩ := by simp [hw', World.setCch]
  have hc' : ∀ c', c' ≠ c → w'.cch c' = w.cch c' := by intro c' e; simp [hw', World.setCch, e, f1.cch]
  have hres : ∀ c', ∀ b ∈ (w'.cch c').entries, c' ≠ c ∧ b ∈ (w.cch c').entries ∧ w'.res b = w.res b := by
    intro c' b hb
    by_cases e : c' = c
    · rw [e, hc] at hb; simp at hb
    · rw [hc' c' e] at hb
      exact ⟨e, hb, r1 b (fun hx => e (h.disj c' c b hb hx))⟩
  refine ⟨h.build (w' := w') ?_ ?_ rfl rfl rfl ?_ ?_ ?_ ?_ ?_ ?_ ?_, f1.ctr, f1.M⟩
  · exact ⟨f1.M, f1.ctr, f1.nObj, rfl, f1.nCch, rfl, f1.ub, f1.alive, f1.tag⟩
  · exact ⟨l1.deadObj, l1.deadRes, l1.count, l1.freshObj, l1.freshRes⟩
  · intro c' hn
    by_cases e : c' = c
    · rw [e, hc]
    · rw [hc' c' e]; exact h.freshC c' hn
  · intro c' b hb
    obtain ⟨_, h2, h3⟩ := hres c' b hb
    rw [h3]; exact h.owned c' b h2
  · intro c'
    by_cases e : c' = c
    · rw [e, hc]; simp
    · rw [hc' c' e]; exact h.nodup c'
  · intro c1 c2 b h1 h2
    exact h.disj c1 c2 b (hres c1 b h1).2.1 (hres c2 b h2).2.1
  · intro b hb
    by_cases hx : b ∈ (w.cch c).entries
    · have hb' : (w1.res b).alive = true := hb
      rw [d1 b hx] at hb'; simp at hb'
    · have hb' : (w1.res b).alive = true := hb
      rw [r1 b hx] at hb'
      obtain ⟨c', hm⟩ := h.noLeak b hb'
      have e : c' ≠ c := fun e => hx (e ▸ hm)
      exact ⟨c', by rw [hc' c' e]; exact hm⟩
  · intro c' hd
    by_cases e : c' = c
    · rw [e, hc]; simp
    · rw [hc' c' e] at hd ⊢; simp [e, h.dead c' hd]
  · intro c' hl
    by_cases e : c' = c
    · rw [e, hc] at hl; simp at hl
    · rw [hc' c' e] at hl
      obtain ⟨l, h1, h2, h3⟩ := h.live c' hl
      refine ⟨l, ?_, ?_, ?_⟩
      · rw [hc' c' e]; simp [e, h1]
      · have hf : fresh w' c' = fresh w c' := by
          unfold fresh
          rw [hc' c' e]
          apply List.filter_congr
          intro b hb
          rw [(hres c' b (by rw [hc' c' e]; exact hb)).2.2]
        rw [hf]
        refine forall₂_imp_mem h2 (fun b e' hb hr => ?_)
        simp only [fresh, List.mem_filter] at hb
        exact hr.mono (hres c' b (by rw [hc' c' e]; exact hb.1)).2.2 (fun t _ => f1.tag t) (fun t _ => f1.alive t)
      · rw [hc' c' e]; exact h3

theorem markAll_eq (l : List Nat) : ∀ (w : World V),
    l.foldl (fun w b => w.setRes b { w.res b with stale := true }) w
      = { w with res := fun b => if b ∈ l then { w.res b with stale := true } else w.res b } := by
  induction l with
  | nil => intro w; simp
  | cons x l ih =>
    intro w
    rw [List.foldl_cons, ih]
    simp only [World.setRes, World.mk.injEq, true_and, and_true]
    funext b
    by_cases hb : b = x
    · subst hb; simp
    · simp [hb, Function.update_of_ne]

/-- Marking some results of cache `c` stale removes them from the abstract cache. -/
theorem mark_sim {w : World V} {a : Abs V} (h : Inv w a) (c : Nat) (hc : (w.cch c).alive = true) (P : Nat → Bool)
    (hP : ∀ b, P b = true → b ∈ (w.cch c).entries) (l' : List (Entry V))
    (hl' : List.Forall₂ (R w) ((fresh w c).filter (fun b => !P b)) l') :
    Inv { w with res := fun b => if P b then { w.res b with stale := true } else w.res b } (a.set c (w.cch c).max l') := by
  set w' : World V := { w with res := fun b => if P b then { w.res b with stale := true } else w.res b } with hw'
  have hal : ∀ b, (w'.res b).alive = (w.res b).alive := by intro b; simp only [hw']; split <;> rfl
  have hsub : ∀ b, (w'.res b).subjects = (w.res b).subjects := by intro b; simp only [hw']; split <;> rfl
  have hsame : ∀ b, P b = false → w'.res b = w.res b := by intro b hb; simp [hw', hb]
  have hR : ∀ b e, P b = false → R w b e → R w' b e := fun b e hb hr => hr.mono (hsame b hb) (fun _ _ => rfl) (fun _ _ => rfl)
  refine h.build (w' := w') ⟨rfl, rfl, rfl, rfl, rfl, rfl, rfl, fun _ => rfl, fun _ => rfl⟩ ?_ rfl rfl rfl h.freshC ?_ h.nodup
    h.disj ?_ ?_ ?_
  · refine ⟨h.links.deadObj, ?_, ?_, h.links.freshObj, ?_⟩
    · intro b hb; rw [hal] at hb; rw [hsub]; exact h.links.deadRes b hb
    · intro b t; rw [hsub]; exact h.links.count b t
    · intro b hb; rw [hal]; exact h.links.freshRes b hb
  · intro c' b hb; rw [hal]; exact h.owned c' b hb
  · intro b hb; rw [hal] at hb; exact h.noLeak b hb
  · intro c' hd
    have e : c' ≠ c := by
      intro e
      have hd' : (w.cch c').alive = false := hd
      rw [e, hc] at hd'; simp at hd'
    have := h.dead c' hd
    exact ⟨this.1, by simp [Abs.set, e, this.2]⟩
  · intro c' hl
    obtain ⟨l, h1, h2, h3⟩ := h.live c' hl
    by_cases e : c' = c
    · subst e
      refine ⟨l', by simp [Abs.set, hw'], ?_, h3⟩
      have hf : fresh w' c' = (fresh w c').filter (fun b => !P b) := by
        unfold fresh
        rw [List.filter_filter]
        apply List.filter_congr
        intro b _
        cases hb : P b
        · simp [hsame b hb]
        · simp [hw', hb]
      rw [hf]
      refine forall₂_imp_mem hl' (fun b e hb hr => hR b e ?_ hr)
      simp only [List.mem_filter, Bool.not_eq_true'] at hb
      exact hb.2
    · have hPn : ∀ b ∈ (w.cch c').entries, P b = false := by
        intro b hb
        cases hx : P b
        · rfl
        · exact absurd (h.disj c' c b hb (hP b hx)) e
      refine ⟨l, by simp [Abs.set, e]; exact h1, ?_, h3⟩
      have hf : fresh w' c' = fresh w c' := by
        unfold fresh
        apply List.filter_congr
        intro b hb
        rw [hsame b (hPn b hb)]
      rw [hf]
      refine forall₂_imp_mem h2 (fun b e hb hr => hR b e ?_ hr)
      simp only [fresh, List.mem_filter] at hb
      exact hPn b hb.1

theorem clear_sim {w : World V} {a : Abs V} (h : Inv w a) (c : Nat) (hc : (w.cch c).alive = true) :
    Inv (clear w c) (a.set c (w.cch c).max []) ∧ (clear w c).ctr = w.ctr ∧ (clear w c).M = w.M ∧
    (clear w c).nCch = w.nCch ∧
    ((clear w c).cch c) = ⟨true, (w.cch c).max, []⟩ := by
  have h1 : Inv _ _ := mark_sim h c hc (fun b => decide (b ∈ (w.cch c).entries)) (by simp) [] (by
    have : (fresh w c).filter (fun b => !decide (b ∈ (w.cch c).entries)) = [] := by
      rw [List.filter_eq_nil_iff]
      intro b hb
      simp only [fresh, List.mem_filter] at hb
      simp [hb.1]
    rw [this]; exact .nil)
  have hdef : clear w c = cleanup { w with res := fun b => if decide (b ∈ (w.cch c).entries) = true then
      { w.res b with stale := true } else w.res b } c := by
    unfold clear
    rw [markAll_eq]
    simp
  obtain ⟨i, f, ca, cm, ce, _, cn, _⟩ := cleanup_spec h1 c
  rw [hdef]
  refine ⟨i, f.ctr, f.M, f.nCch, ?_⟩
  have : fresh { w with res := fun b => if decide (b ∈ (w.cch c).entries) = true then
      { w.res b with stale := true } else w.res b } c = [] := by
    unfold fresh
    rw [List.filter_eq_nil_iff]
    intro b hb
    simp only at hb
    simp [hb]
  rw [this] at ce
  revert ca cm ce
  generalize (cleanup { w with res := fun b => if decide (b ∈ (w.cch c).entries) = true then
      { w.res b with stale := true } else w.res b } c).cch c = x
  intro ca cm ce
  cases x
  simp only at ca cm ce
  rw [ca, cm, ce]
  simp [hc]

theorem clearMax_sim {w : World V} {a : Abs V} (h : Inv w a) (c : Nat) (hc : (w.cch c).alive = true) (m : Int) :
    Inv (clearMax w c m) (a.set c m []) ∧ (clearMax w c m).ctr = w.ctr ∧ (clearMax w c m).M = w.M := by
  obtain ⟨i, h1, h2, h2', h3⟩ := clear_sim h c hc
  have hdef : clearMax w c m = (clear w c).setCch c ⟨true, m, []⟩ := by simp [clearMax, h3]
  rw [hdef]
  refine ⟨?_, h1, h2⟩
  generalize clear w c = w1 at *
  set w' := w1.setCch c ⟨true, m, []⟩ with hw'
  have hcc : w'.cch c = ⟨true, m, []⟩ := by simp [hw', World.setCch]
  have hc' : ∀ c', c' ≠ c → w'.cch c' = w1.cch c' := by intro c' e; simp [hw', World.setCch, e]
  have hent : ∀ c', (w'.cch c').entries = (w1.cch c').entries := by
    intro c'
    by_cases e : c' = c
    · rw [e, hcc, h3]
    · rw [hc' c' e]
  refine i.build (w' := w') ⟨rfl, rfl, rfl, rfl, rfl, rfl, rfl, fun _ => rfl, fun _ => rfl⟩
    ⟨i.links.deadObj, i.links.deadRes, i.links.count, i.links.freshObj, i.links.freshRes⟩ rfl rfl rfl ?_ ?_ ?_ ?_ ?_ ?_ ?_
  · intro c' hn
    by_cases e : c' = c
    · subst e
      have := h.freshC c' (h2' ▸ hn)
      rw [this] at hc; simp at hc
    · rw [hc' c' e]; exact i.freshC c' hn
  · intro c' b hb; rw [hent] at hb; exact i.owned c' b hb
  · intro c'; rw [hent]; exact i.nodup c'
  · intro c1 c2 b x1 x2; rw [hent] at x1 x2; exact i.disj c1 c2 b x1 x2
  · intro b hb
    obtain ⟨c', hm⟩ := i.noLeak b hb
    exact ⟨c', by rw [hent]; exact hm⟩
  · intro c' hd
    by_cases e : c' = c
    · rw [e, hcc] at hd; simp at hd
    · rw [hc' c' e] at hd ⊢
      have := i.dead c' hd
      simp only [Abs.set, Function.update_of_ne e] at this ⊢
      exact this
  · intro c' hl
    by_cases e : c' = c
    · subst e
      refine ⟨[], by rw [hcc]; simp [Abs.set], ?_, by rw [hcc]; simp⟩
      unfold fresh; rw [hcc]; exact .nil
    · rw [hc' c' e] at hl
      obtain ⟨l, x1, x2, x3⟩ := i.live c' hl
      refine ⟨l, ?_, ?_, by rw [hc' c' e]; exact x3⟩
      · rw [hc' c' e]
        simp only [Abs.set, Function.update_of_ne e] at x1 ⊢
        exact x1
      · unfold fresh at x2 ⊢; rw [hc' c' e]
        exact forall₂_imp_mem x2 (fun b e' _ hr => hr.mono rfl (fun _ _ => rfl) (fun _ _ => rfl))

/-! ### lookups -/

theorem get_sim {w : World V} {a : Abs V} (h : Inv w a) (c : Nat) (hc : (w.cch c).alive = true)
    (deps : List (Option Nat)) (sc : List Num) (hd : ∀ s, some s ∈ deps → (w.obj s).alive = true) :
    ∃ l, a.cache c = some ((w.cch c).max, l) ∧
    (get w c deps sc).1 = (l.find? (·.matches deps sc)).map (·.val) ∧
    Inv (get w c deps sc).2 a ∧ (get w c deps sc).2.ctr = w.ctr ∧ (get w c deps sc).2.M = w.M := by
  obtain ⟨i, f, ca, cm, ce, cs, cn, cf⟩ := cleanup_spec h c
  have hc1 : ((cleanup w c).cch c).alive = true := by rw [ca]; exact hc
  obtain ⟨l, h1, h2, h3⟩ := i.live c hc1
  rw [cf] at h2
  refine ⟨l, by rw [h1, cm], ?_, i, f.ctr, f.M⟩
  unfold get
  simp only
  have hp := forall₂_find h2 (fun b => dependentsIdentical (cleanup w c) b deps sc) (·.matches deps sc)
    (fun b e _ hr => identical_iff i hr deps sc (fun s hs => by rw [f.alive]; exact hd s hs))
  rcases hp with ⟨e1, e2⟩ | ⟨b, e, e1, e2, hr⟩
  · rw [e1, e2]; rfl
  · rw [e1, e2]; simp [hr.val]

theorem invalidate_sim {w : World V} {a : Abs V} (h : Inv w a) (c : Nat) (hc : (w.cch c).alive = true)
    (deps : List (Option Nat)) (sc : List Num) (hd : ∀ s, some s ∈ deps → (w.obj s).alive = true) :
    ∃ l, a.cache c = some ((w.cch c).max, l) ∧
    (invalidate w c deps sc).1 = l.any (·.matches deps sc) ∧
    Inv (invalidate w c deps sc).2 (a.set c (w.cch c).max (l.eraseP (·.matches deps sc))) ∧
    (invalidate w c deps sc).2.ctr = w.ctr ∧ (invalidate w c deps sc).2.M = w.M := by
  obtain ⟨i, f, ca, cm, ce, cs, cn, cf⟩ := cleanup_spec h c
  have hc1 : ((cleanup w c).cch c).alive = true := by rw [ca]; exact hc
  obtain ⟨l, h1, h2, h3⟩ := i.live c hc1
  have h2' := h2
  rw [cf] at h2
  refine ⟨l, by rw [h1, cm], ?_⟩
  have hpq := fun b e (_ : b ∈ ((cleanup w c).cch c).entries) (hr : R (cleanup w c) b e) =>
    identical_iff i hr deps sc (fun s hs => by rw [f.alive]; exact hd s hs)
  rcases forall₂_find h2 (fun b => dependentsIdentical (cleanup w c) b deps sc) (·.matches deps sc) hpq with
    ⟨e1, e2⟩ | ⟨b, e, e1, e2, hr⟩
  · have hx : invalidate w c deps sc = (false, cleanup w c) := by simp [invalidate, e1]
    rw [hx]
    have hany : l.any (·.matches deps sc) = false := by
      rw [List.any_eq_false]; exact fun x hx' => List.find?_eq_none.mp e2 x hx'
    have her : l.eraseP (·.matches deps sc) = l := by
      rw [List.eraseP_of_forall_not]; exact fun x hx' => List.find?_eq_none.mp e2 x hx'
    refine ⟨hany.symm, ?_, f.ctr, f.M⟩
    rw [her]
    have : a.set c (w.cch c).max l = a := by
      simp only [Abs.set]
      rw [cm] at h1
      rw [← h1, Function.update_eq_self]
    rw [this]; exact i
  · have hx : invalidate w c deps sc = (true, (cleanup w c).setRes b { (cleanup w c).res b with stale := true }) := by
      simp [invalidate, e1]
    rw [hx]
    have hany : l.any (·.matches deps sc) = true := by
      rw [List.any_eq_true]; exact ⟨e, List.mem_of_find?_eq_some e2, List.find?_some e2⟩
    refine ⟨hany.symm, ?_, f.ctr, f.M⟩
    have hm := mark_sim i c hc1 (fun x => decide (x = b)) (by
      intro x hx
      simp only [decide_eq_true_eq] at hx
      subst hx
      exact List.mem_of_find?_eq_some e1) (l.eraseP (·.matches deps sc)) (by
      rw [cf]
      have := filter_ne_eq_eraseP _ b _ (i.nodup c) e1
      have h5 : List.filter (fun x => !decide (x = b)) ((cleanup w c).cch c).entries
          = List.filter (fun x => decide (x ≠ b)) ((cleanup w c).cch c).entries :=
        List.filter_congr (fun x _ => by simp)
      rw [h5, this]
      exact forall₂_eraseP h2 _ _ hpq)
    rw [cm] at hm
    have he : (cleanup w c).setRes b { (cleanup w c).res b with stale := true }
        = { cleanup w c with res := fun x => if decide (x = b) = true then { (cleanup w c).res x with stale := true } else (cleanup w c).res x } := by
      simp only [World.setRes, World.mk.injEq, true_and, and_true]
      funext x
      by_cases e : x = b
      · subst e; simp
      · simp [e]
    rw [he]; exact hm

/-! ### storing a result -/

/-- State after constructing the new result and putting it in front. -/
theorem push_sim {w : World V} {a : Abs V} (h : Inv w a) (v : V)
    (deps : List (Option Nat)) (sc : List Num) (hd : ∀ s, some s ∈ deps → (w.obj s).alive = true) :
    let w2 := attachLoop { (w.setRes w.nRes ⟨true, false, v, [], sc, []⟩) with nRes := w.nRes + 1 } w.nRes deps
    Links w2 ∧ w2.M = w.M ∧ w2.ctr = w.ctr ∧ w2.nObj = w.nObj ∧ w2.nCch = w.nCch ∧ w2.cch = w.cch ∧ w2.ub = w.ub ∧
    (∀ s, (w2.obj s).alive = (w.obj s).alive) ∧ (∀ s, (w2.obj s).tag = (w.obj s).tag) ∧
    (∀ b, b ≠ w.nRes → w2.res b = w.res b) ∧ R w2 w.nRes ⟨deps, sc, v⟩ ∧ (w2.res w.nRes).alive = true ∧
    (w2.res w.nRes).stale = false := by
  intro w2
  set w0 : World V := { (w.setRes w.nRes ⟨true, false, v, [], sc, []⟩) with nRes := w.nRes + 1 } with hw0
  have hr0 : w0.res w.nRes = ⟨true, false, v, [], sc, []⟩ := by simp [hw0, World.setRes]
  have hr : ∀ b, b ≠ w.nRes → w0.res b = w.res b := by intro b e; simp [hw0, World.setRes, e]
  have hdead := h.links.freshRes w.nRes (Nat.le_refl _)
  have hl : Links w0 := by
    refine ⟨h.links.deadObj, ?_, ?_, h.links.freshObj, ?_⟩
    · intro b hb
      by_cases e : b = w.nRes
      · rw [e, hr0]
      · rw [hr b e] at hb ⊢; exact h.links.deadRes b hb
    · intro b t
      have hcnt := h.links.count b t
      by_cases e : b = w.nRes
      · subst e
        rw [hr0]
        rw [h.links.deadRes _ hdead] at hcnt
        exact hcnt
      · rw [hr b e]; exact hcnt
    · intro b hb
      have hb : w.nRes + 1 ≤ b := hb
      rw [hr b (by omega)]; exact h.links.freshRes b (by omega)
  obtain ⟨l2, f2, r2, s2⟩ := attachLoop_spec w.nRes deps w0 hl (by rw [hr0]) hd
  refine ⟨l2, f2.M, f2.ctr, f2.nObj, f2.nCch, f2.cch, f2.ub, f2.alive, f2.tag, ?_, ?_, ?_, ?_⟩
  · intro b e; show (attachLoop w0 w.nRes deps).res b = _; rw [r2 b e, hr b e]
  · have htag : deps.map (tagOf w0) = deps.map (tagOf w2) := List.map_congr_left (fun d _ => (f2.tagOf d).symm)
    refine ⟨?_, ?_, ?_, ?_, ?_⟩
    · show ((attachLoop w0 w.nRes deps).res w.nRes).val = v
      rw [s2, hr0]
    · show ((attachLoop w0 w.nRes deps).res w.nRes).scalars = sc
      rw [s2, hr0]
    · show ((attachLoop w0 w.nRes deps).res w.nRes).tags = deps.map (tagOf w2)
      rw [s2, hr0, ← htag]; rfl
    · intro s hs
      show ((attachLoop w0 w.nRes deps).obj s).alive = true
      rw [f2.alive]; exact hd s hs
    · intro s
      show s ∈ ((attachLoop w0 w.nRes deps).res w.nRes).subjects ↔ some s ∈ deps
      rw [s2, hr0]; simp
  · show ((attachLoop w0 w.nRes deps).res w.nRes).alive = true
    rw [s2, hr0]
  · show ((attachLoop w0 w.nRes deps).res w.nRes).stale = false
    rw [s2, hr0]

theorem add_sim {w : World V} {a : Abs V} (h : Inv w a) (c : Nat) (hc : (w.cch c).alive = true) (v : V)
    (deps : List (Option Nat)) (sc : List Num) (hd : ∀ s, some s ∈ deps → (w.obj s).alive = true) :
    ∃ l, a.cache c = some ((w.cch c).max, l) ∧
    Inv (add w c v deps sc) (a.set c (w.cch c).max (keep (w.cch c).max (⟨deps, sc, v⟩ :: l))) ∧
    (add w c v deps sc).ctr = w.ctr ∧ (add w c v deps sc).M = w.M := by
  obtain ⟨i, f, ca, cm, ce, cs, cn, cf⟩ := cleanup_spec h c
  have hc1 : ((cleanup w c).cch c).alive = true := by rw [ca]; exact hc
  obtain ⟨l, h1, h2, h3⟩ := i.live c hc1
  rw [cf] at h2
  refine ⟨l, by rw [h1, cm], ?_⟩
  rw [cm] at h1 h3
  have hadd : ∀ w1, w1 = cleanup w c → add w c v deps sc = 
      (let w2 := attachLoop { (w1.setRes w1.nRes ⟨true, false, v, [], sc, []⟩) with nRes := w1.nRes + 1 } w1.nRes deps
       let l := w1.nRes :: (w2.cch c).entries
       if 0 ≤ (w2.cch c).max ∧ (w2.cch c).max < l.length then
         let w3 := destroyRes w2 (l.getLast (by simp [l]))
         w3.setCch c { w3.cch c with entries := l.dropLast }
       else w2.setCch c { w2.cch c with entries := l }) := by
    intro w1 e; subst e; rfl
  rw [hadd _ rfl]
  have hfctr := f.ctr
  have hfM := f.M
  have hfal := f.alive
  simp only at hfctr hfM hfal
  rw [← hfctr, ← hfM]
  have hd1 : ∀ s, some s ∈ deps → ((cleanup w c).obj s).alive = true := fun s hs => by rw [hfal]; exact hd s hs
  rw [← cm] at h3 h1 ⊢
  generalize cleanup w c = w1 at *
  clear hadd hfctr hfM hfal f cn ce ca cm hd h hc w
  obtain ⟨p1, p2, p3, p4, p5, p6, p7, p8, p9, p10, p11, p12, p13⟩ := push_sim i v deps sc hd1
  generalize attachLoop { (w1.setRes w1.nRes ⟨true, false, v, [], sc, []⟩) with nRes := w1.nRes + 1 } w1.nRes deps = w2 at *
  set b := w1.nRes with hb
  have hfreshb : ∀ c', b ∉ (w1.cch c').entries := by
    intro c' hm
    have h5 := i.owned c' b hm
    rw [i.links.freshRes b (Nat.le_refl _)] at h5
    simp at h5
  have hsame : ∀ c', ∀ x ∈ (w1.cch c').entries, w2.res x = w1.res x :=
    fun c' x hx => p10 x (fun e => hfreshb c' (e ▸ hx))
  have hnd : (b :: (w1.cch c).entries).Nodup := List.nodup_cons.mpr ⟨hfreshb c, i.nodup c⟩
  have hF2 : List.Forall₂ (R w2) (b :: (w1.cch c).entries) (⟨deps, sc, v⟩ :: l) := by
    refine .cons p11 (forall₂_imp_mem h2 (fun x e hx hr => hr.mono (hsame c x hx) (fun t _ => p9 t) (fun t _ => p8 t)))
  -- common final argument
  have key : ∀ (w3 : World V) (E : List Nat) (L : List (Entry V)), Links w3 → Frame w2 w3 →
      E.Sublist (b :: (w1.cch c).entries) → List.Forall₂ (R w2) E L →
      (∀ x ∈ E, w3.res x = w2.res x) → (∀ c', c' ≠ c → ∀ x ∈ (w1.cch c').entries, w3.res x = w2.res x) →
      (∀ x, (w3.res x).alive = true → (w2.res x).alive = true ∧ (x ∈ b :: (w1.cch c).entries → x ∈ E)) →
      (0 ≤ (w1.cch c).max → (E.length : Int) ≤ (w1.cch c).max) →
      Inv (w3.setCch c { w3.cch c with entries := E }) (a.set c (w1.cch c).max L) := by
    intro w3 E L l3 f3 hsl hF hE hE' hA hlen
    set w' := w3.setCch c { w3.cch c with entries := E } with hw'
    have hcc : w'.cch c = { w1.cch c with entries := E } := by simp [hw', World.setCch, f3.cch, p6]
    have hc' : ∀ c', c' ≠ c → w'.cch c' = w1.cch c' := by intro c' e; simp [hw', World.setCch, e, f3.cch, p6]
    have hal : ∀ x ∈ b :: (w1.cch c).entries, (w2.res x).alive = true ∧ (w2.res x).stale = false := by
      intro x hx
      rcases List.mem_cons.mp hx with e | hx
      · subst e; exact ⟨p12, p13⟩
      · rw [hsame c x hx]; exact ⟨i.owned c x hx, cs x hx⟩
    refine i.build (w' := w') ⟨f3.M.trans p2, f3.ctr.trans p3, f3.nObj.trans p4, rfl, f3.nCch.trans p5, rfl, f3.ub.trans p7,
      fun s => (f3.alive s).trans (p8 s), fun s => (f3.tag s).trans (p9 s)⟩
      ⟨l3.deadObj, l3.deadRes, l3.count, l3.freshObj, l3.freshRes⟩ rfl rfl rfl ?_ ?_ ?_ ?_ ?_ ?_ ?_
    · intro c1 hn
      by_cases e : c1 = c
      · rw [e, hcc]; exact i.freshC c (e ▸ hn)
      · rw [hc' c1 e]; exact i.freshC c1 hn
    · intro c1 x hx
      by_cases e : c1 = c
      · subst e
        rw [hcc] at hx
        show (w3.res x).alive = true
        rw [hE x hx]; exact (hal x (hsl.subset hx)).1
      · rw [hc' c1 e] at hx
        show (w3.res x).alive = true
        rw [hE' c1 e x hx, hsame c1 x hx]; exact i.owned c1 x hx
    · intro c1
      by_cases e : c1 = c
      · subst e; rw [hcc]; exact hnd.sublist hsl
      · rw [hc' c1 e]; exact i.nodup c1
    · intro c1 c2 x x1 x2
      have aux : ∀ c1, x ∈ (w'.cch c1).entries → (c1 = c ∧ x = b) ∨ x ∈ (w1.cch c1).entries := by
        intro c1 hx
        by_cases e : c1 = c
        · subst e
          rw [hcc] at hx
          rcases List.mem_cons.mp (hsl.subset hx) with e | hx
          · exact Or.inl ⟨rfl, e⟩
          · exact Or.inr hx
        · rw [hc' c1 e] at hx; exact Or.inr hx
      rcases aux c1 x1 with ⟨e1, e2⟩ | y1 <;> rcases aux c2 x2 with ⟨e3, e4⟩ | y2
      · rw [e1, e3]
      · rw [e2] at y2; exact absurd y2 (hfreshb c2)
      · rw [e4] at y1; exact absurd y1 (hfreshb c1)
      · exact i.disj c1 c2 x y1 y2
    · intro x hx
      have hx3 : (w3.res x).alive = true := hx
      obtain ⟨y1, y2⟩ := hA x hx3
      by_cases e : x = b
      · exact ⟨c, by rw [hcc]; exact y2 (by simp [e])⟩
      · rw [p10 x e] at y1
        obtain ⟨c1, hc1'⟩ := i.noLeak x y1
        by_cases e1 : c1 = c
        · subst e1; exact ⟨c1, by rw [hcc]; exact y2 (by simp [hc1'])⟩
        · exact ⟨c1, by rw [hc' c1 e1]; exact hc1'⟩
    · intro c1 hdd
      by_cases e : c1 = c
      · rw [e, hcc] at hdd; simp [hc1] at hdd
      · rw [hc' c1 e] at hdd ⊢; simp [Abs.set, e, i.dead c1 hdd]
    · intro c1 hl
      by_cases e : c1 = c
      · subst e
        refine ⟨L, by rw [hcc]; simp [Abs.set], ?_, by rw [hcc]; exact hlen⟩
        have hf : fresh w' c1 = E := by
          unfold fresh
          rw [hcc, List.filter_eq_self]
          intro x hx
          show (!(w3.res x).stale) = true
          rw [hE x hx, (hal x (hsl.subset hx)).2]; rfl
        rw [hf]
        exact forall₂_imp_mem hF (fun x e hx hr => hr.mono (hE x hx) (fun t _ => f3.tag t) (fun t _ => f3.alive t))
      · rw [hc' c1 e] at hl
        obtain ⟨l1, x1, x2, x3⟩ := i.live c1 hl
        refine ⟨l1, ?_, ?_, by rw [hc' c1 e]; exact x3⟩
        · rw [hc' c1 e]; simp only [Abs.set, Function.update_of_ne e]; exact x1
        · have hx : ∀ x ∈ (w1.cch c1).entries, w'.res x = w1.res x := fun x hx => by
            show w3.res x = _
            rw [hE' c1 e x hx, hsame c1 x hx]
          have hf : fresh w' c1 = fresh w1 c1 := by
            unfold fresh
            rw [hc' c1 e]
            exact List.filter_congr (fun x hx' => by rw [hx x hx'])
          rw [hf]
          refine forall₂_imp_mem x2 (fun x e hm hr => ?_)
          simp only [fresh, List.mem_filter] at hm
          exact hr.mono (hx x hm.1) (fun t _ => (f3.tag t).trans (p9 t)) (fun t _ => (f3.alive t).trans (p8 t))
  have hmax : (w2.cch c).max = (w1.cch c).max := by rw [p6]
  have hent : (w2.cch c).entries = (w1.cch c).entries := by rw [p6]
  simp only [hmax, hent]
  have hlen2 : l.length = (w1.cch c).entries.length := (List.Forall₂.length_eq h2).symm
  by_cases hev : 0 ≤ (w1.cch c).max ∧ (w1.cch c).max < ((b :: (w1.cch c).entries).length : Int)
  · rw [if_pos hev]
    have hne : b :: (w1.cch c).entries ≠ [] := by simp
    set z := (b :: (w1.cch c).entries).getLast hne with hz
    have hzm : z ∈ b :: (w1.cch c).entries := List.getLast_mem hne
    have hza : (w2.res z).alive = true := by
      rcases List.mem_cons.mp hzm with e | hx
      · rw [e]; exact p12
      · rw [hsame c z hx]; exact i.owned c z hx
    obtain ⟨l3, f3, r3, d3⟩ := destroyRes_spec p1 hza
    have hsplit : (b :: (w1.cch c).entries).dropLast ++ [z] = b :: (w1.cch c).entries := List.dropLast_append_getLast hne
    have hzn : z ∉ (b :: (w1.cch c).entries).dropLast := by
      have := hnd
      rw [← hsplit] at this
      have h9 := (List.nodup_append.mp this).2.2
      intro hm
      exact h9 z hm z (by simp) rfl
    have hle := h3 hev.1
    have hlen1 := hev.2
    simp only [List.length_cons] at hlen1
    have hmeq : (w1.cch c).max.toNat = (w1.cch c).entries.length := by omega
    have hkeep : keep (w1.cch c).max (⟨deps, sc, v⟩ :: l) = (⟨deps, sc, v⟩ :: l : List (Entry V)).dropLast := by
      rw [keep, if_pos hev.1, hmeq, List.dropLast_eq_take]
      simp [hlen2]
    rw [hkeep]
    refine ⟨key _ _ _ l3 f3 (List.dropLast_sublist _) ?_ ?_ ?_ ?_ ?_, f3.ctr.trans p3, f3.M.trans p2⟩
    · rw [List.dropLast_eq_take, List.dropLast_eq_take]
      have : (b :: (w1.cch c).entries).length = (⟨deps, sc, v⟩ :: l : List (Entry V)).length := by simp [hlen2]
      rw [this]
      exact List.forall₂_take _ hF2
    · intro x hx
      exact r3 x (fun e => hzn (e ▸ hx))
    · intro c1 e x hx
      apply r3
      intro e2
      rw [e2] at hx
      rcases List.mem_cons.mp hzm with e3 | hx3
      · rw [e3] at hx; exact hfreshb c1 hx
      · exact e (i.disj c1 c z hx hx3)
    · intro x hx
      by_cases e : x = z
      · rw [e, d3] at hx; simp at hx
      · refine ⟨by rw [← r3 x e]; exact hx, ?_⟩
        intro hm
        rw [← hsplit] at hm
        rcases List.mem_append.mp hm with h | h
        · exact h
        · simp at h; exact absurd h e
    · intro _
      simp only [List.length_dropLast, List.length_cons, Nat.add_sub_cancel]
      exact hle
  · rw [if_neg hev]
    have hkeep : keep (w1.cch c).max (⟨deps, sc, v⟩ :: l) = (⟨deps, sc, v⟩ :: l : List (Entry V)) := by
      unfold keep
      split
      · rename_i h0
        apply List.take_of_length_le
        simp only [List.length_cons] at hev ⊢
        omega
      · rfl
    rw [hkeep]
    have hk := key _ _ _ p1 (Frame.refl w2) (List.Sublist.refl _) hF2 (fun _ _ => rfl) (fun _ _ _ _ => rfl)
      (fun x hx => ⟨hx, fun h => h⟩) (by
        intro h0
        simp only [List.length_cons] at hev ⊢
        omega)
    simp only [hmax] at hk
    exact ⟨hk, p3, p2⟩

theorem init_sim (V : Type) [Inhabited V] (M : Nat) : Inv (World.init V M) (Abs.init V) := by
  refine ⟨⟨?_, ?_, ?_, ?_, ?_⟩, rfl, rfl, ?_, rfl, ?_, ?_, ?_, ?_, ?_, ?_, ?_, ?_, ?_, ?_⟩ <;> simp [World.init, Abs.init]

/-- Number of tags one operation hands out. -/
def tagsOf : Op V → Nat
  | .newObj => 1
  | .change _ => 1
  | _ => 0

theorem tagsUsed_cons (o : Op V) (os : List (Op V)) : tagsUsed (o :: os) = tagsOf o + tagsUsed os := by
  cases o <;> simp [tagsUsed, tagsOf] <;> omega

theorem step_sim {w : World V} {a : Abs V} (h : Inv w a) (o : Op V) (hM : w.ctr + tagsOf o < w.M) :
    (step w o).1 = (a.step o).1 ∧ Inv (step w o).2 (a.step o).2 ∧ (step w o).2.ctr ≤ w.ctr + tagsOf o ∧
    (step w o).2.M = w.M := by
  cases o with
  | newObj =>
    obtain ⟨i, h1, h2⟩ := newObj_sim h hM
    exact ⟨rfl, i, by simp [step, h1, tagsOf], h2⟩
  | change o =>
    simp only [step, Abs.step, ← h.alive]
    by_cases ha : (w.obj o).alive = true
    · obtain ⟨i, h1, h2⟩ := objectChanged_sim h o ha hM
      rw [if_pos ha, if_pos ha]
      exact ⟨rfl, i, by simp [h1, tagsOf], h2⟩
    · rw [if_neg ha, if_neg ha]
      exact ⟨rfl, h, by simp, rfl⟩
  | destroyObj o =>
    simp only [step, Abs.step, ← h.alive]
    by_cases ha : (w.obj o).alive = true
    · obtain ⟨i, h1, h2⟩ := destroyObj_sim h o ha
      rw [if_pos ha, if_pos ha]
      exact ⟨rfl, i, by simp [h1, tagsOf], h2⟩
    · rw [if_neg ha, if_neg ha]
      exact ⟨rfl, h, by simp, rfl⟩
  | newCache m => exact ⟨rfl, newCache_sim h m, by simp [step, World.setCch], rfl⟩
  | destroyCache c =>
    simp only [step, Abs.step]
    by_cases ha : (w.cch c).alive = true
    · obtain ⟨i, h1, h2⟩ := destroyCch_sim h c
      rw [if_pos ha]
      exact ⟨rfl, i, by simp [h1, tagsOf], h2⟩
    · rw [if_neg ha]
      have hd := (h.dead c (by simpa using ha)).2
      have : ({ a with cache := Function.update a.cache c none } : Abs V) = a := by
        rw [← hd, Function.update_eq_self]
      rw [this]
      exact ⟨rfl, h, by simp, rfl⟩
  | add c v deps sc =>
    simp only [step, Abs.step]
    rw [depsAlive_iff h]
    by_cases ha : (w.cch c).alive = true
    · by_cases hd : a.depsAlive deps = true
      · obtain ⟨l, e, i, h1, h2⟩ := add_sim h c ha v deps sc (depsAlive_mem (by rw [depsAlive_iff h]; exact hd))
        simp only [e, ha, hd, Bool.and_self, if_true]
        exact ⟨trivial, i, by simp [h1], h2⟩
      · obtain ⟨l, e, _⟩ := h.live c ha
        simp only [e, hd, Bool.and_false, Bool.false_eq_true, if_false]
        exact ⟨trivial, h, by simp, trivial⟩
    · have hc := (h.dead c (by simpa using ha)).2
      simp only [hc, ha, Bool.false_and, Bool.false_eq_true, if_false]
      exact ⟨trivial, h, by simp, trivial⟩
  | get c deps sc =>
    simp only [step, Abs.step]
    rw [depsAlive_iff h]
    by_cases ha : (w.cch c).alive = true
    · by_cases hd : a.depsAlive deps = true
      · obtain ⟨l, e, e2, i, h1, h2⟩ := get_sim h c ha deps sc (depsAlive_mem (by rw [depsAlive_iff h]; exact hd))
        simp only [e, ha, hd, Bool.and_self, if_true]
        exact ⟨by rw [e2], i, by simp [h1], h2⟩
      · obtain ⟨l, e, _⟩ := h.live c ha
        simp only [e, hd, Bool.and_false, Bool.false_eq_true, if_false]
        exact ⟨trivial, h, by simp, trivial⟩
    · have hc := (h.dead c (by simpa using ha)).2
      simp only [hc, ha, Bool.false_and, Bool.false_eq_true, if_false]
      exact ⟨trivial, h, by simp, trivial⟩
  | invalidate c deps sc =>
    simp only [step, Abs.step]
    rw [depsAlive_iff h]
    by_cases ha : (w.cch c).alive = true
    · by_cases hd : a.depsAlive deps = true
      · obtain ⟨l, e, e2, i, h1, h2⟩ := invalidate_sim h c ha deps sc (depsAlive_mem (by rw [depsAlive_iff h]; exact hd))
        simp only [e, ha, hd, Bool.and_self, if_true]
        exact ⟨by rw [e2], i, by simp [h1], h2⟩
      · obtain ⟨l, e, _⟩ := h.live c ha
        simp only [e, hd, Bool.and_false, Bool.false_eq_true, if_false]
        exact ⟨trivial, h, by simp, trivial⟩
    · have hc := (h.dead c (by simpa using ha)).2
      simp only [hc, ha, Bool.false_and, Bool.false_eq_true, if_false]
      exact ⟨trivial, h, by simp, trivial⟩
  | clear c =>
    simp only [step, Abs.step]
    by_cases ha : (w.cch c).alive = true
    · obtain ⟨i, h1, h2, _⟩ := clear_sim h c ha
      obtain ⟨l, e, _⟩ := h.live c ha
      simp only [e, ha, if_true]
      exact ⟨trivial, i, by simp [h1], h2⟩
    · have hc := (h.dead c (by simpa using ha)).2
      simp only [hc, ha, Bool.false_eq_true, if_false]
      exact ⟨trivial, h, by simp, trivial⟩
  | clearMax c m =>
    simp only [step, Abs.step]
    by_cases ha : (w.cch c).alive = true
    · obtain ⟨i, h1, h2⟩ := clearMax_sim h c ha m
      obtain ⟨l, e, _⟩ := h.live c ha
      simp only [e, ha, if_true]
      exact ⟨trivial, i, by simp [h1], h2⟩
    · have hc := (h.dead c (by simpa using ha)).2
      simp only [hc, ha, Bool.false_eq_true, if_false]
      exact ⟨trivial, h, by simp, trivial⟩

theorem run_sim (ops : List (Op V)) : ∀ {w : World V} {a : Abs V}, Inv w a → w.ctr + tagsUsed ops < w.M →
    (run w ops).1 = (a.run ops).1 ∧ Inv (run w ops).2 (a.run ops).2 := by
  induction ops with
  | nil => intro w a h _; exact ⟨rfl, h⟩
  | cons o os ih =>
    intro w a h hM
    rw [tagsUsed_cons] at hM
    obtain ⟨h1, h2, h3, h4⟩ := step_sim h o (by omega)
    obtain ⟨g1, g2⟩ := ih h2 (by rw [h4]; omega)
    exact ⟨by simp only [run, Abs.run]; rw [h1, g1], g2⟩

end Verif.Cache
