import Verif.Proof.CacheStep
import Mathlib.Data.List.Induction

/-!
# C09, C10, C11: cached results and observers

Everything is about histories `ops` run from program start (`World.init V M`).  `M` is the number of different tags (`2^32`
in the code); the theorems hold for every history that hands out fewer than `M - 1` tags; `cache_tag_wraparound` shows that
this restriction is necessary.
-/

set_option linter.unusedSectionVars false
set_option linter.unusedSimpArgs false

namespace Verif.Cache

variable {V : Type}

/-- State after a history from program start. -/
def after (V : Type) [Inhabited V] (M : Nat) (ops : List (Op V)) : World V := (run (World.init V M) ops).2

/-- The answer of a lookup performed after the history. -/
def lookup {V : Type} [Inhabited V] (M : Nat) (ops : List (Op V)) (c : Nat) (deps : List (Option Nat)) (sc : List Num) : Out V :=
  (step (after V M ops) (.get c deps sc)).1

/-- **C09/C10 (refinement).** All answers of lookups and invalidations in every history are those of the abstract cache, which
remembers objects instead of tags. -/
theorem cache_refines [Inhabited V] (M : Nat) (ops : List (Op V)) (hM : tagsUsed ops + 1 < M) :
    (run (World.init V M) ops).1 = ((Abs.init V).run ops).1 :=
  (run_sim ops (init_sim V M) (by simp only [World.init]; omega)).1

theorem after_inv [Inhabited V] (M : Nat) (ops : List (Op V)) (hM : tagsUsed ops + 1 < M) :
    Inv (after V M ops) ((Abs.init V).run ops).2 :=
  (run_sim ops (init_sim V M) (by simp only [World.init]; omega)).2

theorem Abs.run_append (ops ops' : List (Op V)) : ∀ (a : Abs V), (a.run (ops ++ ops')).2 = ((a.run ops).2.run ops').2 := by
  induction ops with
  | nil => intro a; rfl
  | cons o os ih => intro a; simp only [List.cons_append, Abs.run]; exact ih _

theorem run_append (ops ops' : List (Op V)) : ∀ (w : World V), (run w (ops ++ ops')).2 = (run (run w ops).2 ops').2 := by
  induction ops with
  | nil => intro a; rfl
  | cons o os ih => intro a; simp only [List.cons_append, run]; exact ih _

theorem tagsUsed_append (ops ops' : List (Op V)) : tagsUsed (ops ++ ops') = tagsUsed ops + tagsUsed ops' := by
  induction ops with
  | nil => simp [tagsUsed]
  | cons o os ih => rw [List.cons_append, tagsUsed_cons, tagsUsed_cons, ih]; omega

/-! ## C09 -/

/-- The operation cannot affect a result in cache `c` that depends on `deps`: it neither changes nor destroys one of these
objects and neither clears nor destroys the cache. -/
def Harmless (c : Nat) (deps : List (Option Nat)) : Op V → Prop
  | .change o => some o ∉ deps
  | .destroyObj o => some o ∉ deps
  | .clear c' => c' ≠ c
  | .clearMax c' _ => c' ≠ c
  | .destroyCache c' => c' ≠ c
  | _ => True

/-- Where abstract entries come from. -/
structure Origin (ops : List (Op V)) (a : Abs V) : Prop where
  bound : ∀ o, a.alive o = true → o < a.nObj
  cbound : ∀ c p, a.cache c = some p → c < a.nCch
  deps : ∀ c m l e, a.cache c = some (m, l) → e ∈ l → ∀ o, some o ∈ e.deps → a.alive o = true
  src : ∀ c m l e, a.cache c = some (m, l) → e ∈ l →
    ∃ pre post, ops = pre ++ .add c e.val e.deps e.scalars :: post ∧ ∀ o ∈ post, Harmless c e.deps o

theorem keep_subset {α : Type} (m : Int) (l : List α) : ∀ x ∈ keep m l, x ∈ l := by
  intro x hx
  unfold keep at hx
  split at hx
  · exact List.mem_of_mem_take hx
  · exact hx

theorem depsAlive_abs {a : Abs V} {deps : List (Option Nat)} (h : a.depsAlive deps = true) :
    ∀ s, some s ∈ deps → a.alive s = true := by
  intro s hs
  simpa using List.all_eq_true.mp h (some s) hs

theorem Origin.snoc {ops : List (Op V)} {a : Abs V} (h : Origin ops a) (o : Op V) : Origin (ops ++ [o]) (a.step o).2 := by
  have ext : ∀ c (e : Entry V), Harmless c e.deps o →
      (∃ pre post, ops = pre ++ .add c e.val e.deps e.scalars :: post ∧ ∀ o ∈ post, Harmless c e.deps o) →
      ∃ pre post, ops ++ [o] = pre ++ .add c e.val e.deps e.scalars :: post ∧ ∀ o ∈ post, Harmless c e.deps o := by
    rintro c e hh ⟨pre, post, h1, h2⟩
    refine ⟨pre, post ++ [o], by rw [h1]; simp, ?_⟩
    intro x hx
    rcases List.mem_append.mp hx with hx | hx
    · exact h2 x hx
    · simp at hx; rw [hx]; exact hh
  have hforget : ∀ s c m l (e : Entry V), (a.forget s).cache c = some (m, l) → e ∈ l →
      ∃ l0, a.cache c = some (m, l0) ∧ e ∈ l0 ∧ some s ∉ e.deps := by
    intro s c m l e h1 h2
    simp only [Abs.forget] at h1
    cases hc : a.cache c with
    | none => rw [hc] at h1; simp at h1
    | some p =>
      rw [hc] at h1
      simp only [Option.map_some, Option.some.injEq, Prod.mk.injEq] at h1
      obtain ⟨e1, e2⟩ := h1
      subst e2
      simp only [List.mem_filter, Entry.dependsOn, Bool.not_eq_true', decide_eq_false_iff_not] at h2
      exact ⟨p.2, by rw [← e1], h2.1, h2.2⟩
  have hfb : ∀ s c p, (a.forget s).cache c = some p → c < a.nCch := by
    intro s c p h1
    simp only [Abs.forget] at h1
    cases hc : a.cache c with
    | none => rw [hc] at h1; simp at h1
    | some q => exact h.cbound c q hc
  -- all operations that only replace the list of cache `c` by a sublist or do nothing
  have hset : ∀ c m0 l0 m l', a.cache c = some (m0, l0) →
      (∀ e ∈ l', (e ∈ l0 ∧ Harmless c e.deps o) ∨
        (o = .add c e.val e.deps e.scalars ∧ ∀ s, some s ∈ e.deps → a.alive s = true)) →
      (∀ c', c' ≠ c → ∀ (e : Entry V), Harmless c' e.deps o) → Origin (ops ++ [o]) (a.set c m l') := by
    intro c m0 l0 m l' hc hl hne
    refine ⟨h.bound, ?_, ?_, ?_⟩
    · intro c' p hp
      by_cases e : c' = c
      · rw [e]; exact h.cbound c _ hc
      · simp only [Abs.set, Function.update_of_ne e] at hp; exact h.cbound c' p hp
    · intro c' m1 l1 e h1 h2 s hs
      by_cases ec : c' = c
      · subst ec
        simp only [Abs.set, Function.update_self, Option.some.injEq, Prod.mk.injEq] at h1
        rw [← h1.2] at h2
        rcases hl e h2 with hx | ⟨_, hx⟩
        · exact h.deps c' m0 l0 e hc hx.1 s hs
        · exact hx s hs
      · simp only [Abs.set, Function.update_of_ne ec] at h1
        exact h.deps c' m1 l1 e h1 h2 s hs
    · intro c' m1 l1 e h1 h2
      by_cases ec : c' = c
      · subst ec
        simp only [Abs.set, Function.update_self, Option.some.injEq, Prod.mk.injEq] at h1
        rw [← h1.2] at h2
        rcases hl e h2 with hx | ⟨hx, _⟩
        · exact ext c' e hx.2 (h.src c' m0 l0 e hc hx.1)
        · exact ⟨ops, [], by rw [hx], by simp⟩
      · simp only [Abs.set, Function.update_of_ne ec] at h1
        exact ext c' e (hne c' ec e) (h.src c' m1 l1 e h1 h2)
  have hid : (∀ c (e : Entry V), (∃ m l, a.cache c = some (m, l) ∧ e ∈ l) → Harmless c e.deps o) → Origin (ops ++ [o]) a := by
    intro hh
    exact ⟨h.bound, h.cbound, h.deps, fun c m l e h1 h2 => ext c e (hh c e ⟨m, l, h1, h2⟩) (h.src c m l e h1 h2)⟩
  cases o with
  | newObj =>
    refine ⟨?_, h.cbound, ?_, fun c m l e h1 h2 => ext c e trivial (h.src c m l e h1 h2)⟩
    · intro x hx
      simp only [Abs.step] at hx ⊢
      by_cases e : x = a.nObj
      · omega
      · rw [Function.update_of_ne e] at hx; have := h.bound x hx; omega
    · intro c m l e h1 h2 x hx
      have := h.deps c m l e h1 h2 x hx
      simp only [Abs.step]
      by_cases e : x = a.nObj
      · rw [e]; simp
      · rw [Function.update_of_ne e]; exact this
  | change s =>
    simp only [Abs.step]
    by_cases ha : a.alive s = true
    · rw [if_pos ha]
      refine ⟨h.bound, hfb s, ?_, ?_⟩
      · intro c m l e h1 h2
        obtain ⟨l0, x1, x2, x3⟩ := hforget s c m l e h1 h2
        exact h.deps c m l0 e x1 x2
      · intro c m l e h1 h2
        obtain ⟨l0, x1, x2, x3⟩ := hforget s c m l e h1 h2
        exact ext c e x3 (h.src c m l0 e x1 x2)
    · rw [if_neg ha]
      apply hid
      rintro c e ⟨m, l, h1, h2⟩ hm
      exact ha (h.deps c m l e h1 h2 s hm)
  | destroyObj s =>
    simp only [Abs.step]
    by_cases ha : a.alive s = true
    · rw [if_pos ha]
      refine ⟨?_, hfb s, ?_, ?_⟩
      · intro x hx
        simp only at hx
        by_cases e : x = s
        · rw [e] at hx; simp at hx
        · rw [Function.update_of_ne e] at hx; exact h.bound x hx
      · intro c m l e h1 h2 x hx
        obtain ⟨l0, x1, x2, x3⟩ := hforget s c m l e h1 h2
        have e1 : x ≠ s := fun e1 => x3 (e1 ▸ hx)
        simp only [Function.update_of_ne e1]
        exact h.deps c m l0 e x1 x2 x hx
      · intro c m l e h1 h2
        obtain ⟨l0, x1, x2, x3⟩ := hforget s c m l e h1 h2
        exact ext c e x3 (h.src c m l0 e x1 x2)
    · rw [if_neg ha]
      apply hid
      rintro c e ⟨m, l, h1, h2⟩ hm
      exact ha (h.deps c m l e h1 h2 s hm)
  | newCache m =>
    refine ⟨h.bound, ?_, ?_, ?_⟩
    · intro c p hp
      simp only [Abs.step, Abs.set] at hp ⊢
      by_cases e : c = a.nCch
      · omega
      · rw [Function.update_of_ne e] at hp; have := h.cbound c p hp; omega
    · intro c m l e h1 h2
      simp only [Abs.step, Abs.set] at h1 ⊢
      by_cases e : c = a.nCch
      · rw [e] at h1; simp at h1; rw [h1.2] at h2; simp at h2
      · rw [Function.update_of_ne e] at h1; exact h.deps c m l _ h1 h2
    · intro c m l e h1 h2
      simp only [Abs.step, Abs.set] at h1 ⊢
      by_cases e1 : c = a.nCch
      · rw [e1] at h1; simp at h1; rw [h1.2] at h2; simp at h2
      · rw [Function.update_of_ne e1] at h1; exact ext c e trivial (h.src c m l _ h1 h2)
  | destroyCache c =>
    refine ⟨h.bound, ?_, ?_, ?_⟩
    · intro c' p hp
      simp only [Abs.step] at hp
      by_cases e : c' = c
      · rw [e] at hp; simp at hp
      · rw [Function.update_of_ne e] at hp; exact h.cbound c' p hp
    · intro c' m l e h1 h2
      simp only [Abs.step] at h1
      by_cases e1 : c' = c
      · rw [e1] at h1; simp at h1
      · rw [Function.update_of_ne e1] at h1; exact h.deps c' m l _ h1 h2
    · intro c' m l e h1 h2
      simp only [Abs.step] at h1
      by_cases e1 : c' = c
      · rw [e1] at h1; simp at h1
      · rw [Function.update_of_ne e1] at h1
        exact ext c' e (fun x => e1 x.symm) (h.src c' m l _ h1 h2)
  | add c v deps sc =>
    simp only [Abs.step]
    cases hc : a.cache c with
    | none => exact hid (fun _ _ _ => trivial)
    | some p =>
      obtain ⟨m0, l0⟩ := p
      simp only
      by_cases hd : a.depsAlive deps = true
      · rw [if_pos hd]
        refine hset c m0 l0 _ _ hc ?_ (fun _ _ _ => trivial)
        intro e he
        rcases List.mem_cons.mp (keep_subset _ _ e he) with e1 | he
        · right; subst e1; exact ⟨rfl, depsAlive_abs hd⟩
        · left; exact ⟨he, trivial⟩
      · rw [if_neg hd]; exact hid (fun _ _ _ => trivial)
  | get c deps sc =>
    have : (a.step (.get c deps sc)).2 = a := by
      simp only [Abs.step]
      split
      · rfl
      · split <;> rfl
    rw [this]; exact hid (fun _ _ _ => trivial)
  | invalidate c deps sc =>
    simp only [Abs.step]
    cases hc : a.cache c with
    | none => exact hid (fun _ _ _ => trivial)
    | some p =>
      obtain ⟨m0, l0⟩ := p
      simp only
      by_cases hd : a.depsAlive deps = true
      · rw [if_pos hd]
        refine hset c m0 l0 _ _ hc ?_ (fun _ _ _ => trivial)
        intro e he
        left; exact ⟨List.mem_of_mem_eraseP he, trivial⟩
      · rw [if_neg hd]; exact hid (fun _ _ _ => trivial)
  | clear c =>
    simp only [Abs.step]
    cases hc : a.cache c with
    | none =>
      refine hid ?_
      rintro c' e ⟨m, l, h1, _⟩ e1
      rw [← e1, hc] at h1; simp at h1
    | some p =>
      exact hset c p.1 p.2 _ [] hc (by simp) (fun c' e _ => fun x => e x.symm)
  | clearMax c m =>
    simp only [Abs.step]
    cases hc : a.cache c with
    | none =>
      refine hid ?_
      rintro c' e ⟨m, l, h1, _⟩ e1
      rw [← e1, hc] at h1; simp at h1
    | some p =>
      exact hset c p.1 p.2 _ [] hc (by simp) (fun c' e _ => fun x => e x.symm)

theorem origin_init (V : Type) : Origin [] (Abs.init V) := by
  refine ⟨?_, ?_, ?_, ?_⟩ <;> simp [Abs.init]

theorem origin_run (ops : List (Op V)) : Origin ops ((Abs.init V).run ops).2 := by
  induction ops using List.reverseRecOn with
  | nil => exact origin_init V
  | append_singleton ops o ih => rw [Abs.run_append]; exact ih.snoc o

theorem lookup_eq [Inhabited V] (M : Nat) (ops : List (Op V)) (hM : tagsUsed ops + 1 < M) (c : Nat)
    (deps : List (Option Nat)) (sc : List Num) :
    lookup M ops c deps sc = (((Abs.init V).run ops).2.step (.get c deps sc)).1 := by
  have hi := after_inv M ops hM
  exact (step_sim hi (.get c deps sc) (by
    have h1 : (after V M ops).M = M ∧ (after V M ops).ctr < M := by
      have aux : ∀ (ops : List (Op V)) (w : World V) (a : Abs V), Inv w a → w.ctr + tagsUsed ops < w.M →
          (run w ops).2.M = w.M ∧ (run w ops).2.ctr < w.M := by
        intro ops
        induction ops with
        | nil => intro w a _ h; simp only [tagsUsed] at h; exact ⟨rfl, by simpa [run] using h⟩
        | cons o os ih =>
          intro w a i h
          rw [tagsUsed_cons] at h
          obtain ⟨_, h2, h3, h4⟩ := step_sim i o (by omega)
          have := ih _ _ h2 (by rw [h4]; omega)
          rw [h4] at this
          exact this
      exact aux ops (World.init V M) (Abs.init V) (init_sim V M) (by simp only [World.init]; omega)
    simp only [tagsOf]; omega)).1

/-- **C09.** If a lookup succeeds after any history, the returned value was stored in this cache by a call with exactly the same
list of objects (including the NULL entries) and equal scalars, and since then none of these objects has changed or been
destroyed and the cache has neither been cleared nor destroyed. -/
theorem cache_hit_sound [Inhabited V] (M : Nat) (ops : List (Op V)) (hM : tagsUsed ops + 1 < M) (c : Nat)
    (deps : List (Option Nat)) (sc : List Num) (v : V) (hv : lookup M ops c deps sc = .val (some v)) :
    ∃ pre post sc', ops = pre ++ .add c v deps sc' :: post ∧ sameScalars sc sc' = true ∧
      ∀ o ∈ post, Harmless c deps o := by
  rw [lookup_eq M ops hM] at hv
  have ho := origin_run ops
  generalize ((Abs.init V).run ops).2 = a at hv ho
  simp only [Abs.step] at hv
  cases hc : a.cache c with
  | none => rw [hc] at hv; simp at hv
  | some p =>
    obtain ⟨m, l⟩ := p
    rw [hc] at hv
    simp only at hv
    split at hv
    · simp only [Out.val.injEq] at hv
      obtain ⟨e, he, hv'⟩ := Option.map_eq_some_iff.mp hv
      have h1 := List.mem_of_find?_eq_some he
      have h2 := List.find?_some he
      simp only [Entry.matches, Bool.and_eq_true, decide_eq_true_eq] at h2
      obtain ⟨pre, post, x1, x2⟩ := ho.src c m l e hc h1
      refine ⟨pre, post, e.scalars, ?_, h2.2, ?_⟩
      · rw [x1, hv', h2.1]
      · rw [h2.1]; exact x2
    · simp at hv

/-- A concrete case: two objects, one change that does not matter and one that does. -/
def demoOps : List (Op Nat) :=
  [.newObj, .newObj, .newCache 2, .add 0 7 [some 0, none] [.fin 1], .change 1, .add 0 8 [some 1] [], .get 0 [some 0, none] [.fin 1]]

example : tagsUsed demoOps + 1 < 2 ^ 32 ∧ lookup (2 ^ 32) demoOps 0 [some 0, none] [.fin 1] = .val (some 7) ∧
    lookup (2 ^ 32) (demoOps ++ [.change 0]) 0 [some 0, none] [.fin 1] = .val none := by
  refine ⟨by decide, ?_, ?_⟩ <;> rw [lookup_eq _ _ (by decide +kernel)] <;> decide +kernel

/-! ## C10 -/

/-- **C10 (size).** After any history no cache with maximal size `n ≥ 0` holds more than `n` results. -/
theorem cache_size_bounded [Inhabited V] (M : Nat) (ops : List (Op V)) (hM : tagsUsed ops + 1 < M) (c : Nat)
    (h0 : 0 ≤ ((after V M ops).cch c).max) :
    (((after V M ops).cch c).entries.length : Int) ≤ ((after V M ops).cch c).max := by
  have hi := after_inv M ops hM
  cases ha : ((after V M ops).cch c).alive with
  | false => rw [(hi.dead c ha).1]; simpa using h0
  | true => obtain ⟨_, _, _, h3⟩ := hi.live c ha; exact h3 h0

theorem sameScalars_refl (sc : List Num) (h : ∀ x ∈ sc, x ≠ .nan) : sameScalars sc sc = true := by
  induction sc with
  | nil => rfl
  | cons x sc ih =>
    simp only [sameScalars, Bool.and_eq_true]
    refine ⟨?_, ih (fun y hy => h y (by simp [hy]))⟩
    have := h x (by simp)
    cases x <;> simp_all [Num.eqB]

/-- **C10 (recency).** A result that was just stored is found by an immediate lookup with the same arguments (unless the cache
has size 0; scalars must not be NaN). -/
theorem just_stored_is_found [Inhabited V] (M : Nat) (ops : List (Op V)) (hM : tagsUsed ops + 1 < M) (c : Nat) (v : V)
    (deps : List (Option Nat)) (sc : List Num) (hsc : ∀ x ∈ sc, x ≠ .nan)
    (hc : ((after V M ops).cch c).alive = true) (hm : ((after V M ops).cch c).max ≠ 0)
    (hd : ∀ o, some o ∈ deps → ((after V M ops).obj o).alive = true) :
    lookup M (ops ++ [.add c v deps sc]) c deps sc = .val (some v) := by
  have hi := after_inv M ops hM
  rw [lookup_eq M _ (by rw [tagsUsed_append]; simp [tagsUsed]; exact hM), Abs.run_append]
  obtain ⟨l, h1, _, _⟩ := hi.live c hc
  have hal : (((Abs.init V).run ops).2).depsAlive deps = true := by
    rw [← depsAlive_iff hi]
    apply List.all_eq_true.mpr
    intro d hdm
    cases d with
    | none => rfl
    | some o => exact hd o hdm
  have hal2 : ∀ m (l : List (Entry V)), ((((Abs.init V).run ops).2).set c m l).depsAlive deps = true := by
    intro m l; exact hal
  generalize hmx : ((after V M ops).cch c).max = m at *
  simp only [Abs.run, Abs.step, h1, hal, if_true]
  simp only [hal2, Abs.set, Function.update_self, if_true]
  have hk : ∃ l', keep m (⟨deps, sc, v⟩ :: l) = (⟨deps, sc, v⟩ : Entry V) :: l' := by
    unfold keep
    split
    · obtain ⟨k, hk⟩ : ∃ k, m.toNat = k + 1 := ⟨m.toNat - 1, by omega⟩
      rw [hk]; exact ⟨_, rfl⟩
    · exact ⟨_, rfl⟩
  obtain ⟨l', hk⟩ := hk
  rw [hk, List.find?_cons]
  simp [Entry.matches, sameScalars_refl sc hsc]
  have := hal2 m (⟨deps, sc, v⟩ :: l')
  simp only [Abs.set] at this
  simp [this]

theorem keep_keep {α : Type} (m : Int) (x : α) (l : List α) : keep m (x :: keep m l) = keep m (x :: l) := by
  unfold keep
  split
  · cases m.toNat with
    | zero => simp
    | succ k => rw [List.take_succ_cons, List.take_succ_cons, List.take_take]; congr 2; omega
  · rfl

/-- **C10 (eviction order).** After any history, storing further results (oldest first in `es`) in cache `c` leaves, for all later
lookups, exactly the most recent ones: the `max` newest of `es.reverse` followed by the earlier contents `l`; the oldest ones are
evicted first. -/
theorem oldest_evicted_first [Inhabited V] (M : Nat) (ops : List (Op V)) (hM : tagsUsed ops + 1 < M) (c : Nat)
    (es : List (Entry V)) (hc : ((after V M ops).cch c).alive = true)
    (hes : ∀ e ∈ es, ∀ o, some o ∈ e.deps → ((after V M ops).obj o).alive = true) :
    ∃ l, ∀ (k : Nat) (deps : List (Option Nat)) (sc : List Num),
      (∀ o, some o ∈ deps → ((after V M ops).obj o).alive = true) →
      lookup M (ops ++ (es.take k).map (fun e => .add c e.val e.deps e.scalars)) c deps sc
        = .val (((keep ((after V M ops).cch c).max ((es.take k).reverse ++ l)).find? (·.matches deps sc)).map (·.val)) := by
  have hi := after_inv M ops hM
  obtain ⟨l, h1, h2, h3⟩ := hi.live c hc
  have hal : ∀ deps : List (Option Nat), (∀ o, some o ∈ deps → ((after V M ops).obj o).alive = true) →
      (((Abs.init V).run ops).2).depsAlive deps = true := by
    intro deps hd
    rw [← depsAlive_iff hi]
    apply List.all_eq_true.mpr
    intro d hdm
    cases d with
    | none => rfl
    | some o => exact hd o hdm
  have hl0 : keep ((after V M ops).cch c).max l = l := by
    unfold keep
    split
    · rename_i h0
      apply List.take_of_length_le
      have := List.Forall₂.length_eq h2
      have h5 : (fresh (after V M ops) c).length ≤ ((after V M ops).cch c).entries.length := List.length_filter_le _ _
      have := h3 h0
      omega
    · rfl
  refine ⟨l, ?_⟩
  intro k deps sc hd
  have htag : ∀ es : List (Entry V), tagsUsed (es.map (fun e => Op.add c e.val e.deps e.scalars)) = 0 := by
    intro es; induction es with
    | nil => rfl
    | cons e es ih => simpa [tagsUsed] using ih
  rw [lookup_eq M _ (by rw [tagsUsed_append, htag]; exact hM), Abs.run_append]
  have hes' : ∀ e ∈ es.take k, ∀ o, some o ∈ e.deps → ((after V M ops).obj o).alive = true :=
    fun e he => hes e (List.mem_of_mem_take he)
  generalize es.take k = es' at hes'
  generalize ((after V M ops).cch c).max = m at *
  have hrun : ∀ (es' : List (Entry V)), (∀ e ∈ es', ∀ o, some o ∈ e.deps → ((after V M ops).obj o).alive = true) →
      ∀ l0, keep m l0 = l0 → ((((Abs.init V).run ops).2.set c m l0).run (es'.map (fun e => Op.add c e.val e.deps e.scalars))).2
        = ((Abs.init V).run ops).2.set c m (keep m (es'.reverse ++ l0)) := by
    intro es'
    induction es' with
    | nil => intro _ l0 hk; simp only [List.map_nil, Abs.run, List.reverse_nil, List.nil_append]; rw [hk]
    | cons e es' ih =>
      intro hh l0 hk
      simp only [List.map_cons, Abs.run]
      have hx : (((Abs.init V).run ops).2.set c m l0).depsAlive e.deps = true := hal e.deps (hh e (by simp))
      have hstep : ((((Abs.init V).run ops).2.set c m l0).step (.add c e.val e.deps e.scalars)).2
          = ((Abs.init V).run ops).2.set c m (keep m (e :: l0)) := by
        have hcx : (((Abs.init V).run ops).2.set c m l0).cache c = some (m, l0) := by simp [Abs.set]
        simp only [Abs.step, hcx, hx, if_true]
        simp [Abs.set]
      rw [hstep, ih (fun e' he' => hh e' (by simp [he'])) (keep m (e :: l0)) (by
        have := keep_keep m e l0
        unfold keep
        split
        · rw [List.take_take]; simp
        · rfl)]
      congr 1
      simp only [List.reverse_cons, List.append_assoc, List.singleton_append]
      unfold keep
      split
      · rw [List.take_append, List.take_append, List.take_take]
        congr 2; omega
      · rfl
  have hset : ((Abs.init V).run ops).2.set c m l = ((Abs.init V).run ops).2 := by
    simp only [Abs.set]
    rw [← h1, Function.update_eq_self]
  have hr := hrun es' hes' l hl0
  rw [hset] at hr
  rw [hr]
  have hx : (((Abs.init V).run ops).2.set c m (keep m (es'.reverse ++ l))).depsAlive deps = true := hal deps hd
  have hcx : (((Abs.init V).run ops).2.set c m (keep m (es'.reverse ++ l))).cache c = some (m, keep m (es'.reverse ++ l)) := by
    simp [Abs.set]
  simp only [Abs.step, hcx, hx, if_true]

/-- Concrete case: size 2, three results stored, the first one is gone. -/
example : let ops : List (Op Nat) := [.newObj, .newCache 2, .add 0 1 [some 0] [.fin 1], .add 0 2 [some 0] [.fin 2], .add 0 3 [some 0] [.fin 3]]
    lookup 100 ops 0 [some 0] [.fin 1] = .val none ∧ lookup 100 ops 0 [some 0] [.fin 2] = .val (some 2) ∧
    lookup 100 ops 0 [some 0] [.fin 3] = .val (some 3) := by
  refine ⟨?_, ?_, ?_⟩ <;> rw [lookup_eq _ _ (by decide +kernel)] <;> decide +kernel

/-! ## C11 -/

/-- **C11.** After any history: no operation has touched a destroyed object or removed a missing list element; every result lists
each object as often as that object lists the result; no list of a living partner contains a destroyed partner, and destroyed
partners have empty lists. -/
theorem observers_consistent [Inhabited V] (M : Nat) (ops : List (Op V)) (hM : tagsUsed ops + 1 < M) :
    (after V M ops).ub = false ∧
    (∀ b s, ((after V M ops).obj s).observers.count b = ((after V M ops).res b).subjects.count s) ∧
    (∀ b s, s ∈ ((after V M ops).res b).subjects → ((after V M ops).obj s).alive = true ∧ ((after V M ops).res b).alive = true) ∧
    (∀ b s, b ∈ ((after V M ops).obj s).observers → ((after V M ops).obj s).alive = true ∧ ((after V M ops).res b).alive = true) := by
  have hi := after_inv M ops hM
  have h3 : ∀ b s, s ∈ ((after V M ops).res b).subjects → ((after V M ops).obj s).alive = true ∧ ((after V M ops).res b).alive = true :=
    fun b s hb => ⟨hi.links.aliveObj hb, hi.links.aliveRes ((hi.links.mem b s).mpr hb)⟩
  exact ⟨hi.ub, hi.links.count, h3, fun b s hb => h3 b s ((hi.links.mem b s).mp hb)⟩

/-- **C11 (no leaks).** After any history every existing result belongs to exactly one existing cache, once. -/
theorem results_owned [Inhabited V] (M : Nat) (ops : List (Op V)) (hM : tagsUsed ops + 1 < M) :
    (∀ b, ((after V M ops).res b).alive = true → ∃ c, ((after V M ops).cch c).alive = true ∧
      ((after V M ops).cch c).entries.count b = 1 ∧ ∀ c', c' ≠ c → b ∉ ((after V M ops).cch c').entries) ∧
    (∀ c, ∀ b ∈ ((after V M ops).cch c).entries, ((after V M ops).res b).alive = true) := by
  have hi := after_inv M ops hM
  refine ⟨?_, hi.owned⟩
  intro b hb
  obtain ⟨c, hc⟩ := hi.noLeak b hb
  refine ⟨c, ?_, List.count_eq_one_of_mem (hi.nodup c) hc, fun c' e hm => e (hi.disj c' c b hm hc)⟩
  cases ha : ((after V M ops).cch c).alive with
  | true => rfl
  | false => rw [(hi.dead c ha).1] at hc; simp at hc

/-- Concrete case: a result observes the same object twice and another object that is then destroyed. -/
example : let w := after Nat 100 [.newObj, .newObj, .newCache 5, .add 0 1 [some 0, some 1, some 0] [], .destroyObj 1]
    (w.obj 0).observers = [0, 0] ∧ (w.res 0).subjects = [0, 0] ∧ (w.res 0).stale = true ∧ w.ub = false := by decide +kernel

/-! ## The restriction on the number of tags is necessary -/

theorem step_change {w : World V} {s : Nat} (ha : (w.obj s).alive = true) (ho : (w.obj s).observers = []) :
    (step w (.change s)).2 = { w with obj := Function.update w.obj s { w.obj s with tag := w.ctr }, ctr := (w.ctr + 1) % w.M } := by
  simp only [step, ha, if_true]
  rw [objectChanged_eq _ _ (by rw [ho]; simp)]
  simp [ho, ha]

theorem run_changes (s : Nat) (k : Nat) : ∀ (w : World V), (w.obj s).alive = true → (w.obj s).observers = [] →
    ∃ w', (run w (List.replicate k (.change s))).2 = w' ∧ w'.M = w.M ∧ w'.cch = w.cch ∧ w'.res = w.res ∧
      (∀ t, t ≠ s → w'.obj t = w.obj t) ∧ (w'.obj s).alive = true ∧ (w'.obj s).observers = [] ∧
      (w.ctr < w.M → w'.ctr = (w.ctr + k) % w.M) ∧
      (w.ctr < w.M → 0 < k → (w'.obj s).tag = (w.ctr + (k - 1)) % w.M) := by
  induction k with
  | zero =>
    intro w ha ho
    exact ⟨w, rfl, rfl, rfl, rfl, fun _ _ => rfl, ha, ho, fun h => (Nat.mod_eq_of_lt h).symm, fun _ h => absurd h (by simp)⟩
  | succ k ih =>
    intro w ha ho
    have hs := step_change ha ho
    obtain ⟨w', h1, h2, h3, h4, h5, h6, h7, h8, h9⟩ := ih (step w (.change s)).2 (by rw [hs]; simp [ha]) (by rw [hs]; simp [ho])
    refine ⟨w', ?_, ?_, ?_, ?_, ?_, h6, h7, ?_, ?_⟩
    · rw [List.replicate_succ]; simp only [run]; exact h1
    · rw [h2, hs]
    · rw [h3, hs]
    · rw [h4, hs]
    · intro t e; rw [h5 t e, hs]; simp [e]
    · intro hc
      have hM : 0 < w.M := by omega
      rw [h8 (by rw [hs]; exact Nat.mod_lt _ hM), hs]
      simp only [Nat.mod_add_mod]; congr 1; omega
    · intro hc _
      have hM : 0 < w.M := by omega
      rcases Nat.eq_zero_or_pos k with rfl | hk
      · simp only [List.replicate_zero, run] at h1
        rw [← h1, hs]; simp [Nat.mod_eq_of_lt hc]
      · rw [h9 (by rw [hs]; exact Nat.mod_lt _ hM) hk, hs]
        simp only [Nat.mod_add_mod]; congr 1; omega

/-- **Negative result for C09.** Tags are numbers modulo `M`.  A result computed from object 0 is returned for object 1 after
object 1 has changed `M - 1` times: the two objects then carry the same tag. -/
theorem cache_tag_wraparound (M : Nat) (hM : 4 ≤ M) :
    lookup M ([.newObj, .newObj, .newCache (-1), .add 0 (42 : Nat) [some 0] []] ++ List.replicate (M - 1) (.change 1))
      0 [some 1] [] = .val (some 42) := by
  have hw : ∃ w, after Nat M [.newObj, .newObj, .newCache (-1), .add 0 (42 : Nat) [some 0] []] = w ∧ w.M = M ∧ w.ctr = 3 ∧
      (w.obj 1).alive = true ∧ (w.obj 1).observers = [] ∧ (w.cch 0).alive = true ∧ (w.cch 0).entries = [0] ∧
      (w.res 0).tags = [1] ∧ (w.res 0).stale = false ∧ (w.res 0).scalars = [] ∧ (w.res 0).val = 42 := by
    refine ⟨_, rfl, ?_⟩
    have h2 : (1 + 1) % M = 2 := Nat.mod_eq_of_lt (by omega)
    have h3 : (2 + 1) % M = 3 := Nat.mod_eq_of_lt (by omega)
    simp [after, run, step, newObj, objectChanged, notify, World.setObj, World.init, World.setCch, World.setRes, depsAlive, add,
      cleanup, cleanupLoop, attachLoop, requestAttach, h2, h3]
  obtain ⟨w, h0, h1, h2, h3, h4, h5, h6, h7, h8, h9, h10⟩ := hw
  obtain ⟨w', g1, g2, g3, g4, g5, g6, g7, g8, g9⟩ := run_changes 1 (M - 1) w h3 h4
  have ht : (w'.obj 1).tag = 1 := by
    rw [g9 (by omega) (by omega), h2, h1]
    have : 3 + (M - 1 - 1) = 1 + M := by omega
    rw [this, Nat.add_mod_right, Nat.mod_eq_of_lt (by omega)]
  have hl : after Nat M ([.newObj, .newObj, .newCache (-1), .add 0 (42 : Nat) [some 0] []] ++ List.replicate (M - 1) (.change 1)) = w' := by
    unfold after at h0 ⊢
    rw [run_append, h0, g1]
  unfold lookup
  rw [hl]
  simp [step, g3, h5, depsAlive, g6, get, cleanup, cleanupLoop, h6, g4, h8, World.setCch, dependentsIdentical, h7, h9, sameTag, ht, h10]

end Verif.Cache
