import Verif.Spec.Journal

/-!
# C12: journal output routing; C41: long texts over lines
-/

set_option linter.unusedSimpArgs false

namespace Verif.Jnl

theorem setFrom_levels (n : Nat) : ∀ (o : Obj) (level : Int) (c0 : Nat),
    (o.setFrom level c0 n).levels = (fun c => if c0 ≤ c ∧ c < c0 + n then level else o.levels c) ∧
    (o.setFrom level c0 n).name = o.name ∧ (o.setFrom level c0 n).sink = o.sink ∧ (o.setFrom level c0 n).out = o.out := by
  induction n with
  | zero => intro o level c0; refine ⟨?_, rfl, rfl, rfl⟩; funext c; simp [Obj.setFrom]; omega
  | succ n ih =>
    intro o level c0
    obtain ⟨h1, h2, h3, h4⟩ := ih (o.setPrintLevel c0 level) level (c0 + 1)
    refine ⟨?_, h2, h3, h4⟩
    rw [Obj.setFrom, h1]
    funext c
    simp only [Obj.setPrintLevel]
    by_cases hc : c = c0
    · subst hc; simp
    · by_cases h : c0 + 1 ≤ c ∧ c < c0 + 1 + n
      · rw [if_pos h, if_pos (by omega)]
      · rw [if_neg h, if_neg hc, if_neg (by omega)]

theorem indent_out (n : Nat) : ∀ o : Obj,
    (o.indent n).out = (if o.sink then o.out ++ List.replicate n "  " else o.out) ∧ (o.indent n).name = o.name ∧
    (o.indent n).sink = o.sink ∧ (o.indent n).levels = o.levels := by
  induction n with
  | zero => intro o; simp [Obj.indent]
  | succ n ih =>
    intro o
    obtain ⟨h1, h2, h3, h4⟩ := ih (o.print "  ")
    unfold Obj.print at h1 h2 h3 h4
    rw [Obj.indent]
    unfold Obj.print
    cases hs : o.sink
    · simp only [hs, Bool.false_eq_true, if_false] at h1 h2 h3 h4 ⊢; exact ⟨h1, h2, h3, h4⟩
    · simp only [hs, if_true] at h1 h2 h3 h4 ⊢
      refine ⟨?_, h2, by rw [h3], h4⟩
      rw [h1, List.append_assoc]; rfl

theorem obj_modify (w : World) (i j : Nat) (f : Obj → Obj) :
    (w.modify i f).obj j = if i = j ∧ j < w.objs.length then f (w.obj j) else w.obj j := by
  unfold World.modify World.obj
  simp only [List.getD_eq_getElem?_getD, List.getElem?_modify]
  by_cases hj : j < w.objs.length
  · rw [List.getElem?_eq_getElem hj]
    by_cases hi : i = j <;> simp [hi, hj]
  · rw [List.getElem?_eq_none (by omega)]
    simp [hj]

/-- What `VPrintf` does to journal `j`. -/
theorem printLoop_obj (level : Int) (category indent : Nat) (msg : String) (is : List Nat) : ∀ (w : World) (j : Nat),
    is.Nodup → j < w.objs.length →
    (printLoop level category indent msg is w).objs.length = w.objs.length ∧ (printLoop level category indent msg is w).js = w.js ∧
    (printLoop level category indent msg is w).obj j =
      if j ∈ is ∧ (w.obj j).isAccepted category level = true then ((w.obj j).indent indent).print msg else w.obj j := by
  induction is with
  | nil => intro w j _ _; simp [printLoop]
  | cons i is ih =>
    intro w j hn hj
    rw [List.nodup_cons] at hn
    simp only [printLoop]
    by_cases ha : (w.obj i).isAccepted category level = true
    · rw [if_pos ha]
      have hl : (w.modify i (fun o => (o.indent indent).print msg)).objs.length = w.objs.length := by simp [World.modify]
      obtain ⟨h1, h2, h3⟩ := ih (w.modify i (fun o => (o.indent indent).print msg)) j hn.2 (by rw [hl]; exact hj)
      refine ⟨by rw [h1, hl], by rw [h2]; rfl, ?_⟩
      rw [h3]
      by_cases hi : i = j
      · subst hi
        rw [if_neg (by intro hc; exact hn.1 hc.1), obj_modify, if_pos ⟨rfl, hj⟩, if_pos ⟨by simp, ha⟩]
      · rw [obj_modify, if_neg (fun h : i = j ∧ _ => hi h.1)]
        simp only [List.mem_cons, show j ≠ i from fun h => hi h.symm, false_or]
    · rw [if_neg ha]
      obtain ⟨h1, h2, h3⟩ := ih w j hn.2 hj
      refine ⟨h1, h2, ?_⟩
      rw [h3]
      by_cases hi : i = j
      · subst hi
        simp [ha]
      · simp only [List.mem_cons, show j ≠ i from fun h => hi h.symm, false_or]

theorem obj_append_old (w : World) (o : Obj) (j : Nat) (h : j < w.objs.length) :
    World.obj { w with objs := w.objs ++ [o] } j = w.obj j := by
  simp [World.obj, List.getD_eq_getElem?_getD, List.getElem?_append_left h]

theorem obj_append_new (w : World) (o : Obj) : World.obj { w with objs := w.objs ++ [o] } w.objs.length = o := by
  simp [World.obj, List.getD_eq_getElem?_getD]

theorem member_created (h : List Op) : ∀ i, Member i h → i < created h := by
  induction h with
  | nil => intro i hi; exact hi.elim
  | cons op h ih =>
    intro i hi
    cases op <;> simp only [Member, created] at hi ⊢
    case create => have := ih i hi; omega
    case add =>
      rcases hi with hi | ⟨rfl, hi, _⟩
      · exact ih i hi
      · exact hi
    case addFile =>
      rcases hi with hi | ⟨rfl, _, _⟩
      · have := ih i hi; omega
      · omega
    all_goals first | exact ih i hi | exact hi.elim

/-- The state of the model agrees with the history. -/
structure Agrees (h : List Op) (w : World) : Prop where
  len : w.objs.length = created h
  mem : ∀ i, i ∈ w.js ↔ Member i h
  nodup : w.js.Nodup
  name : ∀ i, i < created h → nameOf i h = some (w.obj i).name
  level : ∀ i, i < created h → ∀ c, (w.obj i).levels c = levelOf i c h
  sink : ∀ i, i < created h → ((w.obj i).sink = true ↔ HasSink i h)
  out : ∀ i, i < created h → (w.obj i).out = written i h

theorem written_new (h : List Op) : ∀ i, created h ≤ i → written i h = [] := by
  induction h with
  | nil => intro i _; rfl
  | cons op h ih =>
    intro i hi
    cases op <;> simp only [created] at hi <;> simp only [written] <;> try exact ih i (by omega)
    rw [if_neg (fun hc => by have := member_created h i hc.1; omega)]
    exact ih i hi

theorem getJournal_isSome {h : List Op} {w : World} (a : Agrees h w) (n : String) :
    (w.getJournal n).isSome = true ↔ ∃ m, Member m h ∧ nameOf m h = some n := by
  unfold World.getJournal
  rw [List.find?_isSome]
  constructor
  · rintro ⟨i, hi, hn⟩
    have hm := (a.mem i).mp hi
    exact ⟨i, hm, by rw [a.name i (member_created h i hm)]; exact congrArg some (by simpa using hn)⟩
  · rintro ⟨m, hm, hn⟩
    refine ⟨m, (a.mem m).mpr hm, ?_⟩
    rw [a.name m (member_created h m hm)] at hn
    simpa using hn

theorem not_member_of_name {h : List Op} {w : World} (_a : Agrees h w) {i : Nat} (hn : ∀ m, Member m h → nameOf m h ≠ nameOf i h) :
    ¬ Member i h := fun hm => hn i hm rfl

theorem find?_congr' {α : Type} {p q : α → Bool} (l : List α) (h : ∀ a ∈ l, p a = q a) : l.find? p = l.find? q := by
  induction l with
  | nil => rfl
  | cons a l ih =>
    rw [List.find?_cons, List.find?_cons, h a (by simp), ih (fun b hb => h b (by simp [hb]))]

theorem agrees_run (h : List Op) : Agrees h (run h) := by
  induction h with
  | nil => exact ⟨rfl, by simp [run, Member], List.nodup_nil, by simp [created], by simp [created], by simp [created], by simp [created]⟩
  | cons op h ih =>
    have a := ih
    simp only [run]
    generalize run h = w at a ⊢
    -- a helper for calls that only create one object
    have hcreate : ∀ (o : Obj) (i : Nat), i < created h → World.obj { w with objs := w.objs ++ [o] } i = w.obj i := by
      intro o i hi; exact obj_append_old w o i (by rw [a.len]; exact hi)
    have hnew : ∀ (o : Obj), World.obj { w with objs := w.objs ++ [o] } (created h) = o := by
      intro o; rw [← a.len]; exact obj_append_new w o
    cases op with
    | create n d =>
      simp only [World.step]
      refine ⟨by simp [created, a.len], a.mem, a.nodup, ?_, ?_, ?_, ?_⟩
      · intro i hi
        simp only [created] at hi
        simp only [nameOf]
        by_cases hc : i = created h
        · subst hc; rw [hnew, if_pos rfl]; rfl
        · rw [hcreate _ i (by omega), if_neg hc]; exact a.name i (by omega)
      · intro i hi c
        simp only [created] at hi
        simp only [levelOf]
        by_cases hc : i = created h
        · subst hc; rw [hnew, if_pos rfl]; rfl
        · rw [hcreate _ i (by omega), if_neg hc]; exact a.level i (by omega) c
      · intro i hi
        simp only [created] at hi
        simp only [HasSink]
        by_cases hc : i = created h
        · subst hc; rw [hnew]; simp [Obj.new]
        · rw [hcreate _ i (by omega)]; simp only [ne_eq, hc, not_false_iff, true_and]; exact a.sink i (by omega)
      · intro i hi
        simp only [created] at hi
        simp only [written]
        by_cases hc : i = created h
        · subst hc; rw [hnew, written_new h _ (Nat.le_refl _)]; rfl
        · rw [hcreate _ i (by omega)]; exact a.out i (by omega)
    | add k =>
      simp only [World.step]
      by_cases hk : k < w.objs.length
      · rw [if_pos hk]
        unfold World.addJournal
        have hk' : k < created h := by rw [← a.len]; exact hk
        by_cases hs : (w.getJournal (w.obj k).name).isSome = true
        · rw [if_pos hs]
          rw [getJournal_isSome a] at hs
          refine ⟨a.len, ?_, a.nodup, a.name, a.level, a.sink, a.out⟩
          intro i
          rw [a.mem i]
          simp only [Member]
          constructor
          · exact Or.inl
          · rintro (h1 | ⟨rfl, _, h3⟩)
            · exact h1
            · obtain ⟨m, hm, hn⟩ := hs
              exact absurd (by rw [hn, a.name i hk']) (h3 m hm)
        · rw [if_neg hs]
          rw [getJournal_isSome a] at hs
          have hno : ∀ m, Member m h → nameOf m h ≠ nameOf k h := by
            intro m hm he
            exact hs ⟨m, hm, by rw [he, a.name k hk']⟩
          refine ⟨a.len, ?_, ?_, a.name, a.level, a.sink, a.out⟩
          · intro i
            simp only [Member, List.mem_append, List.mem_singleton, a.mem i]
            constructor
            · rintro (h1 | h1)
              · exact Or.inl h1
              · exact Or.inr ⟨h1, hk', hno⟩
            · rintro (h1 | ⟨h1, _, _⟩)
              · exact Or.inl h1
              · exact Or.inr h1
          · simp only
            rw [List.nodup_append]
            refine ⟨a.nodup, by simp, ?_⟩
            intro x hx y hy hxy
            simp only [List.mem_singleton] at hy
            subst hy; subst hxy
            exact not_member_of_name a hno ((a.mem x).mp hx)
      · rw [if_neg hk]
        refine ⟨a.len, ?_, a.nodup, a.name, a.level, a.sink, a.out⟩
        intro i
        rw [a.mem i]
        simp only [Member]
        constructor
        · exact Or.inl
        · rintro (h1 | ⟨_, h2, _⟩)
          · exact h1
          · rw [← a.len] at h2; exact absurd h2 hk
    | addFile n d ok =>
      simp only [World.step]
      have fields : ∀ (w' : World), w'.objs = w.objs ++ [{ Obj.new n d with sink := ok }] →
          w'.objs.length = created (.addFile n d ok :: h) ∧
          (∀ i, i < created (.addFile n d ok :: h) → nameOf i (.addFile n d ok :: h) = some (w'.obj i).name) ∧
          (∀ i, i < created (.addFile n d ok :: h) → ∀ c, (w'.obj i).levels c = levelOf i c (.addFile n d ok :: h)) ∧
          (∀ i, i < created (.addFile n d ok :: h) → ((w'.obj i).sink = true ↔ HasSink i (.addFile n d ok :: h))) ∧
          (∀ i, i < created (.addFile n d ok :: h) → (w'.obj i).out = written i (.addFile n d ok :: h)) := by
        intro w' hw
        have ho : ∀ i, w'.obj i = World.obj { w with objs := w.objs ++ [{ Obj.new n d with sink := ok }] } i := by
          intro i; unfold World.obj; rw [hw]
        simp only [created, nameOf, levelOf, HasSink, written]
        refine ⟨by rw [hw]; simp [a.len], ?_, ?_, ?_, ?_⟩
        · intro i hi
          by_cases hc : i = created h
          · subst hc; rw [ho, hnew, if_pos rfl]; rfl
          · rw [ho, hcreate _ i (by omega), if_neg hc]; exact a.name i (by omega)
        · intro i hi c
          by_cases hc : i = created h
          · subst hc; rw [ho, hnew, if_pos rfl]; rfl
          · rw [ho, hcreate _ i (by omega), if_neg hc]; exact a.level i (by omega) c
        · intro i hi
          by_cases hc : i = created h
          · subst hc; rw [ho, hnew, if_pos rfl]
          · rw [ho, hcreate _ i (by omega), if_neg hc]; exact a.sink i (by omega)
        · intro i hi
          by_cases hc : i = created h
          · subst hc; rw [ho, hnew, written_new h _ (Nat.le_refl _)]; rfl
          · rw [ho, hcreate _ i (by omega)]; exact a.out i (by omega)
      cases ok with
      | false =>
        simp only [Bool.false_eq_true, if_false]
        obtain ⟨f1, f2, f3, f4, f5⟩ := fields { w with objs := w.objs ++ [{ Obj.new n d with sink := false }] } rfl
        refine ⟨f1, ?_, a.nodup, f2, f3, f4, f5⟩
        intro i
        simp only [Member, Bool.false_eq_true, false_and, and_false, or_false]
        exact a.mem i
      | true =>
        simp only [if_true]
        have hidx : (w.objs ++ [{ Obj.new n d with sink := true }]).length - 1 = created h := by simp [a.len]
        rw [hidx]
        have hgj : (World.getJournal { w with objs := w.objs ++ [{ Obj.new n d with sink := true }] } n) = w.getJournal n := by
          unfold World.getJournal
          apply find?_congr'
          intro i hi
          rw [hcreate _ i (member_created h i ((a.mem i).mp hi))]
        have hgn : World.getJournal { w with objs := w.objs ++ [{ Obj.new n d with sink := true }] }
            (World.obj { w with objs := w.objs ++ [{ Obj.new n d with sink := true }] } (created h)).name = w.getJournal n := by
          rw [hnew]; exact hgj
        simp only [World.addJournal, hgn]
        by_cases hs : (w.getJournal n).isSome = true
        · rw [if_pos hs]
          rw [getJournal_isSome a] at hs
          obtain ⟨f1, f2, f3, f4, f5⟩ := fields { w with objs := w.objs ++ [{ Obj.new n d with sink := true }] } rfl
          refine ⟨f1, ?_, a.nodup, f2, f3, f4, f5⟩
          intro i
          simp only [Member]
          rw [a.mem i]
          constructor
          · exact Or.inl
          · rintro (h1 | ⟨_, _, h3⟩)
            · exact h1
            · obtain ⟨m, hm, hn⟩ := hs
              exact absurd hn (h3 m hm)
        · rw [if_neg hs]
          rw [getJournal_isSome a] at hs
          obtain ⟨f1, f2, f3, f4, f5⟩ := fields { objs := w.objs ++ [{ Obj.new n d with sink := true }], js := w.js ++ [created h] } rfl
          refine ⟨f1, ?_, ?_, f2, f3, f4, f5⟩
          · intro i
            simp only [Member, List.mem_append, List.mem_singleton, a.mem i, true_and]
            constructor
            · rintro (h1 | h1)
              · exact Or.inl h1
              · exact Or.inr ⟨h1, fun m hm hn => hs ⟨m, hm, hn⟩⟩
            · rintro (h1 | ⟨h1, _⟩)
              · exact Or.inl h1
              · exact Or.inr h1
          · simp only
            rw [List.nodup_append]
            refine ⟨a.nodup, by simp, ?_⟩
            intro x hx y hy hxy
            simp only [List.mem_singleton] at hy
            subst hy; subst hxy
            have := member_created h _ ((a.mem _).mp hx)
            omega
    | setLevel k c' l =>
      simp only [World.step]
      refine ⟨by simp [World.modify, created, a.len], a.mem, a.nodup, ?_, ?_, ?_, ?_⟩ <;> intro i hi <;> simp only [created] at hi <;>
        rw [obj_modify]
      · simp only [nameOf]
        split
        · exact a.name i hi
        · exact a.name i hi
      · intro c
        simp only [levelOf]
        by_cases hk : k = i
        · subst hk
          rw [if_pos ⟨rfl, by rw [a.len]; exact hi⟩]
          simp only [Obj.setPrintLevel, true_and, hi, and_true, a.level _ hi]
        · rw [if_neg (fun h => hk h.1), if_neg (fun h => hk h.1.symm)]
          exact a.level i hi c
      · simp only [HasSink]
        split
        · exact a.sink i hi
        · exact a.sink i hi
      · simp only [written]
        split
        · exact a.out i hi
        · exact a.out i hi
    | setAll k l =>
      simp only [World.step]
      have hall : ∀ o : Obj, (o.setAllPrintLevels l).levels = (fun c => if c < userApplication then l else o.levels c) ∧
          (o.setAllPrintLevels l).name = o.name ∧ (o.setAllPrintLevels l).sink = o.sink ∧ (o.setAllPrintLevels l).out = o.out := by
        intro o
        obtain ⟨h1, h2, h3, h4⟩ := setFrom_levels userApplication o l 0
        refine ⟨?_, h2, h3, h4⟩
        unfold Obj.setAllPrintLevels
        rw [h1]; funext c; simp
      refine ⟨by simp [World.modify, created, a.len], a.mem, a.nodup, ?_, ?_, ?_, ?_⟩ <;> intro i hi <;> simp only [created] at hi <;>
        rw [obj_modify]
      · simp only [nameOf]
        split
        · rw [(hall _).2.1]; exact a.name i hi
        · exact a.name i hi
      · intro c
        simp only [levelOf]
        by_cases hk : k = i
        · subst hk
          rw [if_pos ⟨rfl, by rw [a.len]; exact hi⟩, (hall _).1]
          simp only [true_and, hi, and_true, a.level _ hi]
        · rw [if_neg (fun h => hk h.1), if_neg (fun h => hk h.1.symm)]
          exact a.level i hi c
      · simp only [HasSink]
        split
        · rw [(hall _).2.2.1]; exact a.sink i hi
        · exact a.sink i hi
      · simp only [written]
        split
        · rw [(hall _).2.2.2]; exact a.out i hi
        · exact a.out i hi
    | attach k b =>
      simp only [World.step]
      refine ⟨by simp [World.modify, created, a.len], a.mem, a.nodup, ?_, ?_, ?_, ?_⟩ <;> intro i hi <;> simp only [created] at hi <;>
        rw [obj_modify]
      · simp only [nameOf]
        split
        · exact a.name i hi
        · exact a.name i hi
      · intro c
        simp only [levelOf]
        split
        · exact a.level i hi c
        · exact a.level i hi c
      · simp only [HasSink]
        by_cases hk : k = i
        · subst hk
          rw [if_pos ⟨rfl, by rw [a.len]; exact hi⟩, if_pos ⟨rfl, hi⟩]
        · rw [if_neg (fun h => hk h.1), if_neg (fun h => hk h.1.symm)]
          exact a.sink i hi
      · simp only [written]
        split
        · exact a.out i hi
        · exact a.out i hi
    | print l c n msg =>
      simp only [World.step]
      have hp := fun i (hi : i < created h) => printLoop_obj l c n msg w.js w i a.nodup (by rw [a.len]; exact hi)
      have hpr : ∀ o : Obj, ((o.indent n).print msg).name = o.name ∧ ((o.indent n).print msg).levels = o.levels ∧
          ((o.indent n).print msg).sink = o.sink ∧
          ((o.indent n).print msg).out = if o.sink then o.out ++ (List.replicate n "  " ++ [msg]) else o.out := by
        intro o
        obtain ⟨h1, h2, h3, h4⟩ := indent_out n o
        unfold Obj.print
        rw [h3]
        cases hs : o.sink
        · simp only [Bool.false_eq_true, if_false]
          refine ⟨h2, h4, by rw [h3, hs], by rw [h1, hs]; rfl⟩
        · simp only [if_true]
          refine ⟨h2, h4, trivial, by rw [h1, hs]; simp⟩
      have hlj : (printLoop l c n msg w.js w).objs.length = created h ∧ (printLoop l c n msg w.js w).js = w.js := by
        have aux : ∀ (is : List Nat) (w : World), (printLoop l c n msg is w).objs.length = w.objs.length ∧ (printLoop l c n msg is w).js = w.js := by
          intro is
          induction is with
          | nil => intro w; exact ⟨rfl, rfl⟩
          | cons i is ih =>
            intro w
            simp only [printLoop]
            split
            · have := ih (w.modify i (fun o => (o.indent n).print msg))
              rw [this.1, this.2]
              simp [World.modify]
            · exact ih w
        rw [← a.len]; exact aux w.js w
      refine ⟨hlj.1, ?_, by rw [hlj.2]; exact a.nodup, ?_, ?_, ?_, ?_⟩
      · intro i; rw [hlj.2]; exact a.mem i
      · intro i hi
        rw [(hp i hi).2.2]
        split
        · rw [(hpr _).1]; exact a.name i hi
        · exact a.name i hi
      · intro i hi c'
        rw [(hp i hi).2.2]
        split
        · rw [(hpr _).2.1]; exact a.level i hi c'
        · exact a.level i hi c'
      · intro i hi
        rw [(hp i hi).2.2]
        split
        · rw [(hpr _).2.2.1]; exact a.sink i hi
        · exact a.sink i hi
      · intro i hi
        simp only [created] at hi
        rw [(hp i hi).2.2]
        simp only [written]
        have heq : (i ∈ w.js ∧ (w.obj i).isAccepted c l = true) ↔ (Member i h ∧ l ≤ levelOf i c h) := by
          simp [a.mem i, Obj.isAccepted, a.level i hi]
        by_cases hm : Member i h ∧ l ≤ levelOf i c h
        · rw [if_pos (heq.mpr hm), (hpr _).2.2.2]
          by_cases hk : (w.obj i).sink = true
          · rw [if_pos hk, if_pos ⟨hm.1, hm.2, (a.sink i hi).mp hk⟩, a.out i hi]
          · rw [if_neg hk, if_neg (fun hc => hk ((a.sink i hi).mpr hc.2.2)), a.out i hi]
        · rw [if_neg (fun hc => hm (heq.mp hc)), if_neg (fun hc => hm ⟨hc.1, hc.2.1⟩), a.out i hi]
    | deleteAll =>
      simp only [World.step]
      exact ⟨a.len, by simp [Member], List.nodup_nil, a.name, a.level, a.sink, a.out⟩

/-- **C12.** After any history of calls, the text written to each journal consists of exactly those messages that were issued while
the journal was known to the journalist, with its level for the message's category at least the message's level (and a file or
stream open), each once and in the order of the calls. -/
theorem journal_output (h : List Op) (i : Nat) (hi : i < created h) : ((run h).obj i).out = written i h := (agrees_run h).out i hi

/-- **C12.** `ProduceOutput` returns true iff some known journal has a sufficiently large level. -/
theorem produce_output_iff (h : List Op) (level : Int) (category : Nat) :
    (run h).produceOutput level category = true ↔ ∃ i, Member i h ∧ level ≤ levelOf i category h := by
  have a := agrees_run h
  unfold World.produceOutput
  rw [List.any_eq_true]
  constructor
  · rintro ⟨i, hi, hl⟩
    have hm := (a.mem i).mp hi
    exact ⟨i, hm, by simpa [Obj.isAccepted, a.level i (member_created h i hm)] using hl⟩
  · rintro ⟨i, hm, hl⟩
    exact ⟨i, (a.mem i).mpr hm, by simpa [Obj.isAccepted, a.level i (member_created h i hm)] using hl⟩

/-- **C12.** Changing the level of one category of one journal does not influence other categories or journals. -/
theorem levels_independent (h : List Op) (k c' : Nat) (l : Int) (i c : Nat) (hne : i ≠ k ∨ c ≠ c') (hi : i < created h) :
    ((run (.setLevel k c' l :: h)).obj i).levels c = ((run h).obj i).levels c := by
  rw [(agrees_run (.setLevel k c' l :: h)).level i hi, (agrees_run h).level i hi]
  simp only [levelOf]
  rw [if_neg]
  rintro ⟨h1, h2, _⟩
  rcases hne with h3 | h3
  · exact h3 h1
  · exact h3 h2

/-- Two journals with one name: the second one is refused; of two messages one has too high a level. -/
example : ((run [.print 6 2 0 "b", .print 5 2 1 "a", .setLevel 0 2 5, .attach 1 true, .add 1, .create "log" 9, .addFile "log" 3 true]).obj 0).out
      = ["  ", "a"] ∧
    ((run [.print 6 2 0 "b", .print 5 2 1 "a", .setLevel 0 2 5, .attach 1 true, .add 1, .create "log" 9, .addFile "log" 3 true]).obj 1).out
      = [] := by decide +kernel

/-- **Finding (C12).** `SetAllPrintLevels` ("Set the print level for all category") does not concern the categories reserved for the
user's application. -/
theorem set_all_levels_skips_user_categories (h : List Op) (i c : Nat) (l : Int) (hi : i < created h) (hc : userApplication ≤ c) :
    ((run (.setAll i l :: h)).obj i).levels c = ((run h).obj i).levels c := by
  rw [(agrees_run (.setAll i l :: h)).level i hi, (agrees_run h).level i hi]
  simp only [levelOf]
  rw [if_neg (fun h => by omega)]

/-! ## C41 -/

/-- What the inner loop computes. -/
theorem fill_spec (line : List Char) (m : Nat) : ∀ (buffer : List Char) (lastWord linePos : Nat),
    lastWord ≤ linePos → linePos ≤ line.length →
    ∃ k, k ≤ m ∧ linePos + k ≤ line.length ∧ (k = m ∨ line.length ≤ linePos + k) ∧
      (fill line m buffer lastWord linePos).1 = buffer ++ (line.drop linePos).take k ∧
      (fill line m buffer lastWord linePos).2.2 = linePos + k ∧
      (((fill line m buffer lastWord linePos).2.1 = lastWord ∧ ' ' ∉ (line.drop linePos).take k) ∨
       (∃ p, linePos ≤ p ∧ p < linePos + k ∧ line[p]? = some ' ' ∧ (fill line m buffer lastWord linePos).2.1 = p + 1)) := by
  induction m with
  | zero =>
    intro buffer lastWord linePos hle hll
    exact ⟨0, by omega, by omega, Or.inl rfl, by simp [fill], by simp [fill], Or.inl ⟨by simp [fill], by simp⟩⟩
  | succ m ih =>
    intro buffer lastWord linePos hle hll
    by_cases hl : linePos < line.length
    · simp only [fill, List.getElem?_eq_getElem hl]
      obtain ⟨k, h1, h2, h3, h4, h5, h6⟩ := ih (buffer ++ [line[linePos]])
        (if line[linePos] = ' ' then linePos + 1 else lastWord) (linePos + 1) (by split <;> omega) (by omega)
      have hd : line.drop linePos = line[linePos] :: line.drop (linePos + 1) := List.drop_eq_getElem_cons hl
      refine ⟨k + 1, by clear h6 h5; omega, by clear h6 h5; omega, by clear h6 h5; omega, ?_,
        by rw [h5]; clear h6 h5; omega, ?_⟩
      · rw [h4, hd, List.take_succ_cons, List.append_assoc]; rfl
      · rcases h6 with ⟨h6, h7⟩ | ⟨p, p1, p2, p3, p4⟩
        · rw [h6]
          by_cases hc : line[linePos] = ' '
          · right
            exact ⟨linePos, by omega, by omega, by rw [List.getElem?_eq_getElem hl, hc], by rw [if_pos hc]⟩
          · left
            rw [if_neg hc]
            refine ⟨rfl, ?_⟩
            rw [hd, List.take_succ_cons, List.mem_cons]
            rintro (h | h)
            · exact hc h.symm
            · exact h7 h
        · right
          exact ⟨p, by omega, by omega, p3, p4⟩
    · simp only [fill, List.getElem?_eq_none (Nat.le_of_not_lt hl)]
      exact ⟨0, by omega, by omega, Or.inr (by omega), by simp, by simp, Or.inl ⟨trivial, by simp⟩⟩

theorem overLines_wrapped (line : List Char) (indent m : Nat) (hm : 2 ≤ m) (fuel : Nat) : ∀ (buffer : List Char) (pos : Nat),
    pos ≤ line.length → line.length < fuel + pos →
    (overLines line indent m fuel buffer pos pos).2 = true ∧
    Wrapped indent m buffer (line.drop pos) (overLines line indent m fuel buffer pos pos).1 := by
  induction fuel with
  | zero => intro buffer pos hp hf; omega
  | succ fuel ih =>
    intro buffer pos hp hf
    rw [overLines]
    by_cases hlt : pos < line.length
    · rw [if_pos hlt]
      unfold pass
      obtain ⟨k, h1, h2, h3, h4, h5, h6⟩ := fill_spec line m buffer pos pos (Nat.le_refl _) hp
      generalize fill line m buffer pos pos = r at h4 h5 h6
      obtain ⟨buf, lw, lp⟩ := r
      simp only at h4 h5 h6 ⊢
      subst h5
      have hdl : (line.drop pos).length = line.length - pos := List.length_drop
      have htl : ((line.drop pos).take k).length = k := by clear h6; rw [List.length_take, hdl]; omega
      by_cases hend : pos + k = line.length
      · rw [if_pos hend]
        simp only
        have htk : (line.drop pos).take k = line.drop pos := List.take_of_length_le (by clear h6; omega)
        refine ⟨trivial, ?_⟩
        rw [h4, htk]
        exact Wrapped.last _ _ (by intro hc; rw [hc] at hdl; simp at hdl; clear h6; omega) (by clear h6; omega)
      · rw [if_neg hend]
        have hkm : k = m := by clear h6; omega
        rcases h6 with ⟨h6, h7⟩ | ⟨p, p1, p2, p3, p4⟩
        · rw [if_pos h6]
          by_cases hb : line[pos + k]? = some ' '
          · rw [if_pos hb]
            simp only
            obtain ⟨i1, i2⟩ := ih (List.replicate indent ' ') (pos + k + 1) (by omega) (by omega)
            refine ⟨i1, ?_⟩
            have hs : line.drop pos = (line.drop pos).take k ++ ' ' :: line.drop (pos + k + 1) := by
              conv => lhs; rw [← List.take_append_drop k (line.drop pos)]
              rw [List.drop_drop]
              congr 1
              have hlt2 : pos + k < line.length := by omega
              rw [List.drop_eq_getElem_cons hlt2]
              rw [List.getElem?_eq_getElem hlt2] at hb
              rw [Option.some.inj hb]
            have hw := Wrapped.blank (max := m) buffer ((line.drop pos).take k) (line.drop (pos + k + 1)) _ (by omega) i2
            rw [← hs, ← h4] at hw
            exact hw
          · rw [if_neg hb]
            simp only
            obtain ⟨i1, i2⟩ := ih (List.replicate indent ' ') (pos + k - 1) (by omega) (by omega)
            refine ⟨i1, ?_⟩
            have hs : line.drop pos = (line.drop pos).take (k - 1) ++ line.drop (pos + k - 1) := by
              conv => lhs; rw [← List.take_append_drop (k - 1) (line.drop pos)]
              rw [List.drop_drop, show pos + (k - 1) = pos + k - 1 from by omega]
            have hbuf : buf.set (buf.length - 1) '-' ++ ['\n'] = buffer ++ (line.drop pos).take (k - 1) ++ ['-', '\n'] := by
              have hk1 : (line.drop pos).take k = (line.drop pos).take (k - 1) ++ [line[pos + (k - 1)]] := by
                have : k = (k - 1) + 1 := by omega
                conv => lhs; rw [this]
                rw [List.take_add_one, List.getElem?_drop, List.getElem?_eq_getElem (by omega)]
                rfl
              rw [h4, hk1]
              simp only [List.length_append, List.length_cons, List.length_nil]
              rw [← List.append_assoc, show buffer.length + (((line.drop pos).take (k - 1)).length + (0 + 1)) - 1
                = (buffer ++ (line.drop pos).take (k - 1)).length from by simp]
              rw [List.set_append_right _ _ (Nat.le_refl _)]
              simp
            rw [hbuf]
            have hw := Wrapped.hyphen (indent := indent) (max := m) buffer ((line.drop pos).take (k - 1)) (line.drop (pos + k - 1)) _
              (by rw [List.length_take, hdl]; omega)
              (by
                intro hc
                apply h7
                have : (line.drop pos).take (k - 1) = ((line.drop pos).take k).take (k - 1) := by
                  rw [List.take_take]; congr 1; omega
                rw [this] at hc
                exact List.mem_of_mem_take hc)
              (by intro hc; have := congrArg List.length hc; simp at this; omega) i2
            rw [← hs] at hw
            exact hw
        · rw [if_neg (by omega)]
          simp only
          obtain ⟨i1, i2⟩ := ih (List.replicate indent ' ') lw (by omega) (by omega)
          refine ⟨i1, ?_⟩
          subst p4
          have hs : line.drop pos = (line.drop pos).take (p - pos) ++ ' ' :: line.drop (p + 1) := by
            conv => lhs; rw [← List.take_append_drop (p - pos) (line.drop pos)]
            rw [List.drop_drop]
            congr 1
            have hlt2 : p < line.length := by omega
            rw [show pos + (p - pos) = p from by omega, List.drop_eq_getElem_cons hlt2]
            rw [List.getElem?_eq_getElem hlt2] at p3
            rw [Option.some.inj p3]
          have hbuf : buf.take (buf.length - (pos + k - (p + 1)) - 1) = buffer ++ (line.drop pos).take (p - pos) := by
            rw [h4, List.length_append, htl, List.take_append]
            rw [List.take_of_length_le (by omega), List.take_take]
            congr 2
            omega
          rw [hbuf]
          have hw := Wrapped.blank (max := m) buffer ((line.drop pos).take (p - pos)) (line.drop (p + 1)) _
            (by rw [List.length_take]; omega) i2
          rw [← hs] at hw
          exact hw
    · rw [if_neg hlt]
      refine ⟨rfl, ?_⟩
      rw [List.drop_eq_nil_of_le (by omega)]
      exact Wrapped.finished _

/-- **C41.** With room for at least two characters per line, `PrintStringOverLines` ends, after at most one pass per character, and
prints the string broken into lines: every character is printed, in order, except that a line break replaces a blank or - within a
word that does not fit - is preceded by a hyphen. -/
theorem print_over_lines (line : List Char) (indent maxLength : Nat) (hm : 2 ≤ maxLength) (fuel : Nat) (hf : line.length < fuel) :
    (printStringOverLines line indent maxLength fuel).2 = true ∧
    Wrapped indent maxLength [] line (printStringOverLines line indent maxLength fuel).1 := by
  have := overLines_wrapped line indent maxLength hm fuel [] 0 (Nat.zero_le _) (by omega)
  simpa [printStringOverLines] using this

/-- **C41.** No text printed has more than `indent + maxLength` characters before its line break (so the buffer of 1024 characters is
not exceeded if `indent + maxLength + 1 < 1024`, as the code assumes). -/
theorem wrapped_width {indent m : Nat} {start s : List Char} {texts : List (List Char)} (h : Wrapped indent m start s texts) :
    start.length ≤ indent → ∀ t ∈ texts, (t.filter (· ≠ '\n')).length ≤ indent + m := by
  have nl : ∀ l : List Char, (l.filter (· ≠ '\n')).length ≤ l.length := fun l => List.length_filter_le _ _
  induction h with
  | finished => intro _ t ht; simp at ht
  | last start s hs hl =>
    intro h0 t ht
    simp only [List.mem_singleton] at ht
    subst ht
    have := nl (start ++ s)
    rw [List.length_append] at this
    omega
  | blank start a b texts hl _ ih =>
    intro h0 t ht
    rw [List.mem_cons] at ht
    rcases ht with rfl | ht
    · have := nl (start ++ a)
      rw [List.length_append] at this
      rw [List.filter_append (start ++ a)]
      simp only [List.length_append] at this ⊢
      simp
      simp at this
      omega
    · exact ih (by simp) t ht
  | hyphen start a b texts hl hw hb _ ih =>
    intro h0 t ht
    rw [List.mem_cons] at ht
    rcases ht with rfl | ht
    · have := nl (start ++ a)
      rw [List.length_append] at this
      rw [List.filter_append (start ++ a)]
      simp only [List.length_append] at this ⊢
      simp
      simp at this
      omega
    · exact ih (by simp) t ht

/-- A text with a break at a blank and one within a word. -/
example : printStringOverLines "ab cdefghijk l".toList 2 5 20 =
    (["ab\n".toList, "  cdef-\n".toList, "  ghijk\n".toList, "  l".toList], true) := by decide +kernel

/-- **Finding (C41).** With a line length of 1 the loop does not end (a word that does not fit is split before its first character). -/
theorem print_over_lines_hangs (fuel : Nat) : (printStringOverLines ['a', 'b'] 0 1 fuel).2 = false := by
  have aux : ∀ (fuel : Nat), (overLines ['a', 'b'] 0 1 fuel [] 0 0).2 = false := by
    intro fuel
    induction fuel with
    | zero => rfl
    | succ fuel ih =>
      have hp : pass ['a', 'b'] 1 [] 0 0 = .line ['-', '\n'] 0 0 := by decide +kernel
      rw [overLines, hp]
      exact ih
  exact aux fuel

end Verif.Jnl
