import Verif.Proof.Cache

/-! Simulation of the cache model by the abstract cache (helpers for C09-C11). -/

set_option linter.unusedSectionVars false
set_option linter.unusedSimpArgs false

namespace Verif.Cache

variable {V : Type}

/-- Result `b` represents entry `e`. -/
structure R (w : World V) (b : Nat) (e : Entry V) : Prop where
  val : (w.res b).val = e.val
  scalars : (w.res b).scalars = e.scalars
  tags : (w.res b).tags = e.deps.map (tagOf w)
  alive : ∀ s, some s ∈ e.deps → (w.obj s).alive = true
  subj : ∀ s, s ∈ (w.res b).subjects ↔ some s ∈ e.deps

/-- Entries of a cache that are not stale. -/
def fresh (w : World V) (c : Nat) : List Nat := (w.cch c).entries.filter (fun b => !(w.res b).stale)

/-- Simulation relation. -/
structure Inv (w : World V) (a : Abs V) : Prop where
  links : Links w
  ub : w.ub = false
  nObj : w.nObj = a.nObj
  alive : ∀ s, (w.obj s).alive = a.alive s
  nCch : w.nCch = a.nCch
  freshC : ∀ c, w.nCch ≤ c → (w.cch c).alive = false
  tagPos : ∀ s, (w.obj s).alive = true → 0 < (w.obj s).tag ∧ (w.obj s).tag < w.ctr
  tagInj : ∀ s t, (w.obj s).alive = true → (w.obj t).alive = true → (w.obj s).tag = (w.obj t).tag → s = t
  owned : ∀ c, ∀ b ∈ (w.cch c).entries, (w.res b).alive = true
  nodup : ∀ c, (w.cch c).entries.Nodup
  disj : ∀ c c' b, b ∈ (w.cch c).entries → b ∈ (w.cch c').entries → c = c'
  noLeak : ∀ b, (w.res b).alive = true → ∃ c, b ∈ (w.cch c).entries
  dead : ∀ c, (w.cch c).alive = false → (w.cch c).entries = [] ∧ a.cache c = none
  live : ∀ c, (w.cch c).alive = true → ∃ l, a.cache c = some ((w.cch c).max, l) ∧ List.Forall₂ (R w) (fresh w c) l ∧
    (0 ≤ (w.cch c).max → ((w.cch c).entries.length : Int) ≤ (w.cch c).max)
  ctrPos : 0 < w.ctr

theorem R.mono {w w' : World V} {b : Nat} {e : Entry V} (h : R w b e) (hr : w'.res b = w.res b)
    (ht : ∀ s, some s ∈ e.deps → (w'.obj s).tag = (w.obj s).tag)
    (ha : ∀ s, some s ∈ e.deps → (w'.obj s).alive = (w.obj s).alive) : R w' b e := by
  refine ⟨by rw [hr]; exact h.val, by rw [hr]; exact h.scalars, ?_, ?_, ?_⟩
  · rw [hr, h.tags]
    apply List.map_congr_left
    intro d hd
    cases d with
    | none => rfl
    | some s => exact (ht s hd).symm
  · intro s hs; rw [ha s hs]; exact h.alive s hs
  · intro s; rw [hr]; exact h.subj s

theorem forall₂_imp_mem {α β : Type} {P Q : α → β → Prop} {l : List α} {l' : List β} (h : List.Forall₂ P l l')
    (f : ∀ a b, a ∈ l → P a b → Q a b) : List.Forall₂ Q l l' := by
  induction h with
  | nil => exact .nil
  | cons h1 _ ih => exact .cons (f _ _ (by simp) h1) (ih (fun a b ha => f a b (by simp [ha])))

theorem forall₂_filter {α β : Type} {P : α → β → Prop} {l : List α} {l' : List β} (h : List.Forall₂ P l l')
    (p : α → Bool) (q : β → Bool) (f : ∀ a b, a ∈ l → P a b → p a = q b) :
    List.Forall₂ P (l.filter p) (l'.filter q) := by
  induction h with
  | nil => exact .nil
  | cons h1 _ ih =>
    have e := f _ _ (by simp) h1
    have ih := ih (fun a b ha => f a b (by simp [ha]))
    rw [List.filter_cons, List.filter_cons, e]
    split
    · exact .cons h1 ih
    · exact ih

theorem forall₂_find {α β : Type} {P : α → β → Prop} {l : List α} {l' : List β} (h : List.Forall₂ P l l')
    (p : α → Bool) (q : β → Bool) (f : ∀ a b, a ∈ l → P a b → p a = q b) :
    (l.find? p = none ∧ l'.find? q = none) ∨
    ∃ a b, l.find? p = some a ∧ l'.find? q = some b ∧ P a b := by
  induction h with
  | nil => left; simp
  | @cons x y _ _ h1 _ ih =>
    have e := f _ _ (by simp) h1
    have ih := ih (fun a b ha => f a b (by simp [ha]))
    rw [List.find?_cons, List.find?_cons, e]
    cases hq : q y
    · exact ih
    · right; exact ⟨_, _, rfl, rfl, h1⟩

theorem forall₂_eraseP {α β : Type} {P : α → β → Prop} {l : List α} {l' : List β} (h : List.Forall₂ P l l')
    (p : α → Bool) (q : β → Bool) (f : ∀ a b, a ∈ l → P a b → p a = q b) :
    List.Forall₂ P (l.eraseP p) (l'.eraseP q) := by
  induction h with
  | nil => exact .nil
  | @cons x y _ _ h1 h2 ih =>
    have e := f _ _ (by simp) h1
    have ih := ih (fun a b ha => f a b (by simp [ha]))
    rw [List.eraseP_cons, List.eraseP_cons, e]
    cases hq : q y
    · exact .cons h1 ih
    · exact h2

theorem filter_ne_eq_eraseP (p : Nat → Bool) (b : Nat) (l : List Nat) (hn : l.Nodup) (h : l.find? p = some b) :
    l.filter (fun x => decide (x ≠ b)) = l.eraseP p := by
  induction l with
  | nil => simp at h
  | cons x l ih =>
    rw [List.find?_cons] at h
    obtain ⟨hx, hn⟩ := List.nodup_cons.mp hn
    cases hp : p x
    · rw [hp] at h
      have hb : b ∈ l := List.mem_of_find?_eq_some h
      have hne : x ≠ b := fun e => hx (e ▸ hb)
      rw [List.eraseP_cons_of_neg (by simp [hp]), List.filter_cons]
      simp only [decide_eq_true hne, if_true]
      rw [ih hn h]
    · rw [hp] at h
      simp at h
      subst h
      rw [List.eraseP_cons_of_pos hp, List.filter_cons]
      simp only [ne_eq, not_true_eq_false, decide_false, Bool.false_eq_true, if_false]
      rw [List.filter_eq_self]
      intro y hy
      simp
      rintro rfl
      exact hx hy

/-! ### queries -/

theorem sameScalars_iff (a b : List Num) :
    (decide (a.length = b.length) && (a.zip b).all (fun p => Num.eqB p.1 p.2)) = sameScalars a b := by
  induction a generalizing b with
  | nil => cases b <;> simp [sameScalars]
  | cons x a ih =>
    cases b with
    | nil => simp [sameScalars]
    | cons y b =>
      rw [sameScalars, ← ih b]
      simp only [List.length_cons, List.zip_cons_cons, List.all_cons, Nat.add_right_cancel_iff]
      cases Num.eqB x y <;> simp

theorem sameTags_iff {w : World V} (hp : ∀ s, (w.obj s).alive = true → 0 < (w.obj s).tag)
    (hi : ∀ s t, (w.obj s).alive = true → (w.obj t).alive = true → (w.obj s).tag = (w.obj t).tag → s = t)
    (a b : List (Option Nat)) (ha : ∀ s, some s ∈ a → (w.obj s).alive = true)
    (hb : ∀ s, some s ∈ b → (w.obj s).alive = true) :
    (decide (a.length = (b.map (tagOf w)).length) && (a.zip (b.map (tagOf w))).all (fun p => sameTag w p.1 p.2))
      = decide (a = b) := by
  induction a generalizing b with
  | nil => cases b <;> simp
  | cons x a ih =>
    cases b with
    | nil => simp
    | cons y b =>
      have ih := ih b (fun s hs => ha s (by simp [hs])) (fun s hs => hb s (by simp [hs]))
      have hxy : sameTag w x (tagOf w y) = decide (x = y) := by
        cases x with
        | none =>
          cases y with
          | none => simp [sameTag, tagOf]
          | some t =>
            have : (w.obj t).tag ≠ 0 := Nat.pos_iff_ne_zero.mp (hp t (hb t (by simp)))
            simp [sameTag, tagOf, this]
        | some s =>
          cases y with
          | none =>
            have : (w.obj s).tag ≠ 0 := Nat.pos_iff_ne_zero.mp (hp s (ha s (by simp)))
            simp [sameTag, tagOf, this]
          | some t =>
            have hst := hi s t (ha s (by simp)) (hb t (by simp))
            by_cases e : s = t
            · subst e; simp [sameTag, tagOf]
            · have e2 : (w.obj s).tag ≠ (w.obj t).tag := fun x => e (hst x)
              simp [sameTag, tagOf, e, e2]
      simp only [List.length_cons, List.length_map, List.map_cons, List.zip_cons_cons, List.all_cons,
        Nat.add_right_cancel_iff, List.cons.injEq] at ih ⊢
      rw [hxy]
      by_cases e : x = y
      · simp only [e, decide_true, Bool.true_and, true_and]; exact ih
      · simp [e]

theorem identical_iff {w : World V} {a : Abs V} (h : Inv w a) {b : Nat} {e : Entry V} (hr : R w b e)
    (deps : List (Option Nat)) (sc : List Num) (hd : ∀ s, some s ∈ deps → (w.obj s).alive = true) :
    dependentsIdentical w b deps sc = e.matches deps sc := by
  have h1 := sameTags_iff (fun s hs => (h.tagPos s hs).1) h.tagInj deps e.deps hd hr.alive
  have h2 := sameScalars_iff sc e.scalars
  unfold dependentsIdentical Entry.matches
  rw [hr.tags, hr.scalars, ← h1, ← h2]
  generalize (deps.zip (e.deps.map (tagOf w))).all (fun p => sameTag w p.1 p.2) = x1
  generalize (sc.zip e.scalars).all (fun p => Num.eqB p.1 p.2) = x2
  generalize decide (deps.length = (e.deps.map (tagOf w)).length) = x3
  generalize decide (sc.length = e.scalars.length) = x4
  revert x1 x2 x3 x4; decide

theorem depsAlive_iff {w : World V} {a : Abs V} (h : Inv w a) (deps : List (Option Nat)) :
    depsAlive w deps = a.depsAlive deps := by
  unfold depsAlive Abs.depsAlive
  apply List.all_congr rfl
  intro d
  cases d
  · rfl
  · exact h.alive _

theorem depsAlive_mem {w : World V} {deps : List (Option Nat)} (h : depsAlive w deps = true) :
    ∀ s, some s ∈ deps → (w.obj s).alive = true := by
  intro s hs
  have := List.all_eq_true.mp h (some s) hs
  simpa using this

/-! ### cleanup -/

theorem cleanup_spec {w : World V} {a : Abs V} (h : Inv w a) (c : Nat) :
    Inv (cleanup w c) a ∧ Frame { w with cch := (cleanup w c).cch } (cleanup w c) ∧
    ((cleanup w c).cch c).alive = (w.cch c).alive ∧ ((cleanup w c).cch c).max = (w.cch c).max ∧
    ((cleanup w c).cch c).entries = fresh w c ∧
    (∀ b ∈ ((cleanup w c).cch c).entries, ((cleanup w c).res b).stale = false) ∧
    (∀ c', c' ≠ c → (cleanup w c).cch c' = w.cch c') ∧
    fresh (cleanup w c) c = ((cleanup w c).cch c).entries := by
  obtain ⟨l1, f1, e1, r1, d1⟩ := cleanupLoop_spec (w.cch c).entries w h.links (h.nodup c) (h.owned c)
  have hdef : cleanup w c = (cleanupLoop w (w.cch c).entries).1.setCch c
      { w.cch c with entries := (cleanupLoop w (w.cch c).entries).2 } := rfl
  rw [e1] at hdef
  generalize (cleanupLoop w (w.cch c).entries).1 = w1 at *
  have hc : (cleanup w c).cch c = { w.cch c with entries := fresh w c } := by
    rw [hdef]; simp [World.setCch, fresh]
  have hc' : ∀ c', c' ≠ c → (cleanup w c).cch c' = w.cch c' := by
    intro c' e; rw [hdef]; simp [World.setCch, e, f1.cch]
  have hres : (cleanup w c).res = w1.res := by rw [hdef]; rfl
  have hobj : (cleanup w c).obj = w1.obj := by rw [hdef]; rfl
  have hsub : ∀ c', ∀ b ∈ ((cleanup w c).cch c').entries, b ∈ (w.cch c').entries ∧ w1.res b = w.res b := by
    intro c' b hb
    by_cases e : c' = c
    · subst e
      rw [hc] at hb
      simp only [fresh, List.mem_filter] at hb
      refine ⟨hb.1, r1 b ?_⟩
      rintro ⟨_, hs⟩
      simp [hs] at hb
    · rw [hc' c' e] at hb
      refine ⟨hb, r1 b ?_⟩
      rintro ⟨hm, _⟩
      exact e (h.disj c' c b hb hm)
  have hstale : ∀ b ∈ ((cleanup w c).cch c).entries, ((cleanup w c).res b).stale = false := by
    intro b hb
    have h2 := (hsub c b hb).2
    rw [hres, h2]
    rw [hc] at hb
    simp only [fresh, List.mem_filter] at hb
    simpa using hb.2
  have hfresh : fresh (cleanup w c) c = ((cleanup w c).cch c).entries := by
    unfold fresh
    rw [List.filter_eq_self]
    intro b hb; rw [hstale b hb]; rfl
  have hR : ∀ b e, (w1.res b = w.res b) → R w b e → R (cleanup w c) b e := by
    intro b e hb hr
    refine hr.mono (by rw [hres, hb]) (fun s _ => by rw [hobj, f1.tag]) (fun s _ => by rw [hobj, f1.alive])
  refine ⟨⟨?_, ?_, ?_, ?_, ?_, ?_, ?_, ?_, ?_, ?_, ?_, ?_, ?_, ?_, ?_⟩, ?_, by rw [hc], by rw [hc], by rw [hc], hstale, hc', hfresh⟩
  · rw [hdef]; exact ⟨l1.deadObj, l1.deadRes, l1.count, l1.freshObj, l1.freshRes⟩
  · rw [hdef]; exact f1.ub.trans h.ub
  · rw [hdef]; exact f1.nObj.trans h.nObj
  · intro s; rw [hobj, f1.alive]; exact h.alive s
  · rw [hdef]; exact f1.nCch.trans h.nCch
  · intro c' hc1
    have : (cleanup w c).nCch = w.nCch := by rw [hdef]; exact f1.nCch
    rw [this] at hc1
    by_cases e : c' = c
    · subst e; rw [hc]; exact h.freshC c' hc1
    · rw [hc' c' e]; exact h.freshC c' hc1
  · intro s hs
    have : (cleanup w c).ctr = w.ctr := by rw [hdef]; exact f1.ctr
    rw [hobj, f1.alive] at hs
    rw [hobj, f1.tag, this]
    exact h.tagPos s hs
  · intro s t hs ht
    rw [hobj, f1.alive] at hs
    rw [hobj, f1.alive] at ht
    rw [hobj, f1.tag, f1.tag]
    exact h.tagInj s t hs ht
  · intro c' b hb
    rw [hres, (hsub c' b hb).2]
    exact h.owned c' b (hsub c' b hb).1
  · intro c'
    by_cases e : c' = c
    · subst e; rw [hc]; exact (h.nodup c').filter _
    · rw [hc' c' e]; exact h.nodup c'
  · intro c1 c2 b h1 h2
    exact h.disj c1 c2 b (hsub c1 b h1).1 (hsub c2 b h2).1
  · intro b hb
    rw [hres] at hb
    by_cases hx : b ∈ (w.cch c).entries ∧ (w.res b).stale = true
    · rw [d1 b hx.1 hx.2] at hb; simp at hb
    · rw [r1 b hx] at hb
      obtain ⟨c', hc1⟩ := h.noLeak b hb
      refine ⟨c', ?_⟩
      by_cases e : c' = c
      · subst e
        rw [hc]
        simp only [fresh, List.mem_filter]
        refine ⟨hc1, ?_⟩
        cases hs : (w.res b).stale
        · rfl
        · exact absurd ⟨hc1, hs⟩ hx
      · rw [hc' c' e]; exact hc1
  · intro c' hd
    by_cases e : c' = c
    · subst e
      rw [hc] at hd ⊢
      have := h.dead c' hd
      refine ⟨?_, this.2⟩
      simp [fresh, this.1]
    · rw [hc' c' e] at hd ⊢; exact h.dead c' hd
  · intro c' hl
    by_cases e : c' = c
    · subst e
      have hl' : (w.cch c').alive = true := by rw [hc] at hl; exact hl
      obtain ⟨l, ha, hf, hm⟩ := h.live c' hl'
      refine ⟨l, by rw [hc]; exact ha, ?_, ?_⟩
      · rw [hfresh, hc]
        refine forall₂_imp_mem hf (fun b e hb hr => hR b e ?_ hr)
        apply r1
        rintro ⟨_, hs⟩
        simp only [fresh, List.mem_filter] at hb
        simp [hs] at hb
      · rw [hc]
        intro hm0
        have h1 := hm hm0
        have h2 : (fresh w c').length ≤ (w.cch c').entries.length := List.length_filter_le _ _
        have h3 : ((fresh w c').length : Int) ≤ ((w.cch c').entries.length : Int) := by exact_mod_cast h2
        exact le_trans h3 h1
    · have hl' : (w.cch c').alive = true := by rw [hc' c' e] at hl; exact hl
      obtain ⟨l, ha, hf, hm⟩ := h.live c' hl'
      have hfe : fresh (cleanup w c) c' = fresh w c' := by
        unfold fresh
        rw [hc' c' e]
        apply List.filter_congr
        intro b hb
        have := hsub c' b (by rw [hc' c' e]; exact hb)
        rw [hres, this.2]
      refine ⟨l, by rw [hc' c' e]; exact ha, ?_, by rw [hc' c' e]; exact hm⟩
      rw [hfe]
      refine forall₂_imp_mem hf (fun b e1 hb hr => hR b e1 ?_ hr)
      simp only [fresh, List.mem_filter] at hb
      exact (hsub c' b (by rw [hc' c' e]; exact hb.1)).2
  · have : (cleanup w c).ctr = w.ctr := by rw [hdef]; exact f1.ctr
    rw [this]; exact h.ctrPos
  · rw [hdef]
    exact ⟨f1.M, f1.ctr, f1.nObj, f1.nRes, f1.nCch, rfl, f1.ub, f1.alive, f1.tag⟩

end Verif.Cache
