import Verif.Proof.CalcQuant
import Mathlib.Tactic.Set
import Mathlib.Data.List.Forall2

/-! # Every history returns fresh values (generic part) -/

set_option linter.unusedSectionVars false
set_option linter.unusedSimpArgs false
set_option linter.unusedVariables false

namespace Verif.CQ

variable {N V : Type} [DecidableEq N]

/-- The object exists and its contents are those recorded for its tag. -/
def TagOK (st : St N V) (r : TV V) : Prop := r.tag < st.next ∧ st.pool r.tag = r.val

/-- `st'` is a later state with the same data. -/
structure Ext (st st' : St N V) : Prop where
  next : st.next ≤ st'.next
  pool : ∀ t, t < st.next → st'.pool t = st.pool t
  it : st'.it = st.it
  gl : st'.gl = st.gl

theorem Ext.refl (st : St N V) : Ext st st := ⟨Nat.le_refl _, fun _ _ => rfl, rfl, rfl⟩
theorem Ext.trans {a b c : St N V} (h : Ext a b) (g : Ext b c) : Ext a c :=
  ⟨Nat.le_trans h.next g.next, fun t ht => (g.pool t (Nat.lt_of_lt_of_le ht h.next)).trans (h.pool t ht), g.it.trans h.it, g.gl.trans h.gl⟩

theorem Ext.view {a b : St N V} (h : Ext a b) (sd : Side) : b.view sd = a.view sd := by
  simp only [St.view, h.it, h.gl]

theorem TagOK.ext {a b : St N V} {r : TV V} (h : TagOK a r) (g : Ext a b) : TagOK b r :=
  ⟨Nat.lt_of_lt_of_le h.1 g.next, (g.pool _ h.1).trans h.2⟩

variable (I : Interp V) (T : N → QDef N) (D n0 : Nat) (fixed : List Glob) (hv : Glob → V)

/-- An entry tells the value of its function for the dependencies it names. -/
def EntryOK (next : Nat) (pool : Nat → V) (q : N) (e : Entry V) : Prop :=
  e.vals.length = (T q).valKeys.length →
    ∃ (w : View V) (a : List V), (∀ g ∈ fixed, w.gl g = hv g) ∧
      List.Forall₂ (fun t i => t < next ∧ pool t = regV I (evalI I (fresh I T D w) w a [] (T q).pre) i) e.tags (T q).tagKeys ∧
      e.vals = (T q).valKeys.map (regV I (evalI I (fresh I T D w) w a [] (T q).pre)) ∧
      e.res.val = fresh I T D w q a

theorem EntryOK.mono {next next' : Nat} {pool pool' : Nat → V} {q : N} {e : Entry V} (h : EntryOK I T D fixed hv next pool q e)
    (h1 : next ≤ next') (h2 : ∀ t, t < next → pool' t = pool t) : EntryOK I T D fixed hv next' pool' q e := by
  intro hl
  obtain ⟨w, a, hw, ht, hvv, hr⟩ := h hl
  refine ⟨w, a, hw, ?_, hvv, hr⟩
  exact ht.imp (fun t i ⟨x, y⟩ => ⟨Nat.lt_of_lt_of_le x h1, (h2 t x).trans y⟩)

/-- The invariant. -/
structure Inv (st : St N V) : Prop where
  pos : 0 < st.next
  pool0 : st.pool 0 = I.dflt
  it : ∀ sd c, TagOK st (st.it sd c)
  gl : ∀ g, TagOK st (st.gl g)
  fix : ∀ g ∈ fixed, (st.view .curr).gl g = hv g
  nev : ∀ q sd, (T q).store = .never → st.cache q sd = []
  res : ∀ q sd, ∀ e ∈ st.cache q sd, TagOK st e.res
  ent : ∀ q sd, Ok T n0 fixed q → ∀ e ∈ st.cache q sd, EntryOK I T D fixed hv st.next st.pool q e

variable {I T D n0 fixed hv}

theorem Inv.viewGl {st : St N V} (h : Inv I T D n0 fixed hv st) (sd : Side) : ∀ g ∈ fixed, (st.view sd).gl g = hv g := fun g hg => h.fix g hg

theorem Inv.alloc {st : St N V} (h : Inv I T D n0 fixed hv st) (v : V) :
    Inv I T D n0 fixed hv (st.alloc v).2 ∧ TagOK (st.alloc v).2 (st.alloc v).1 ∧ Ext st (st.alloc v).2 := by
  have he : Ext st (st.alloc v).2 := by
    refine ⟨Nat.le_succ _, fun t ht => ?_, rfl, rfl⟩
    simp only [St.alloc]
    rw [Function.update_of_ne (by omega)]
  refine ⟨⟨?_, ?_, ?_, ?_, ?_, h.nev, ?_, ?_⟩, ?_, he⟩
  · simp [St.alloc]
  · rw [he.pool 0 h.pos]; exact h.pool0
  · intro sd c; exact (h.it sd c).ext he
  · intro g; exact (h.gl g).ext he
  · exact h.fix
  · intro q sd e hm; exact (h.res q sd e hm).ext he
  · intro q sd ho e hm; exact (h.ent q sd ho e hm).mono I T D fixed hv he.next he.pool
  · simp [TagOK, St.alloc]

theorem Inv.read {st : St N V} (h : Inv I T D n0 fixed hv st) (sd : Side) (args : List (TV V)) (ha : ∀ r ∈ args, TagOK st r) (l : Loc) :
    TagOK st (st.read I sd args l) ∧ (st.read I sd args l).val = (st.view sd).read I (args.map (·.val)) l := by
  cases l with
  | self c => exact ⟨h.it sd c, rfl⟩
  | glob g => cases g <;> first | exact ⟨h.gl _, rfl⟩ | exact ⟨h.it _ _, rfl⟩
  | arg i =>
    simp only [St.read, View.read, List.getD_eq_getElem?_getD, List.getElem?_map]
    cases hx : args[i]? with
    | none => exact ⟨⟨h.pos, h.pool0⟩, rfl⟩
    | some r => exact ⟨ha r (List.mem_of_getElem? hx), rfl⟩

theorem Inv.reg {st : St N V} (h : Inv I T D n0 fixed hv st) (rs : List (TV V)) (ha : ∀ r ∈ rs, TagOK st r) (i : Nat) :
    TagOK st (regT I rs i) ∧ (regT I rs i).val = regV I (rs.map (·.val)) i := by
  simp only [regT, regV, List.getD_eq_getElem?_getD, List.getElem?_map]
  cases hx : rs[i]? with
  | none => exact ⟨⟨h.pos, h.pool0⟩, rfl⟩
  | some r => exact ⟨ha r (List.mem_of_getElem? hx), rfl⟩

variable (I T D n0 fixed hv)

/-- What a call must do. -/
def CallOK (sd : Side) (q : N) (r : St N V → List (TV V) → TV V × St N V) : Prop :=
  ∀ st args, Inv I T D n0 fixed hv st → (∀ a ∈ args, TagOK st a) →
    Inv I T D n0 fixed hv (r st args).2 ∧ TagOK (r st args).2 (r st args).1 ∧ Ext st (r st args).2 ∧
    (Ok T n0 fixed q → (r st args).1.val = fresh I T D (st.view sd) q (args.map (·.val)))

theorem execI_ok (callf : St N V → N → List (TV V) → TV V × St N V) (sd : Side) (args : List (TV V)) (is : List (Instr N))
    (hc : ∀ c ∈ callsOf is, CallOK I T D n0 fixed hv sd c (fun st a => callf st c a)) :
    ∀ st rs, Inv I T D n0 fixed hv st → (∀ a ∈ args, TagOK st a) → (∀ r ∈ rs, TagOK st r) →
      Inv I T D n0 fixed hv (execI I callf sd args st rs is).2 ∧
      (∀ r ∈ (execI I callf sd args st rs is).1, TagOK (execI I callf sd args st rs is).2 r) ∧
      Ext st (execI I callf sd args st rs is).2 ∧
      ((∀ c ∈ callsOf is, Ok T n0 fixed c) →
        (execI I callf sd args st rs is).1.map (·.val) =
          evalI I (fresh I T D (st.view sd)) (st.view sd) (args.map (·.val)) (rs.map (·.val)) is) := by
  induction is with
  | nil => intro st rs h ha hr; exact ⟨h, hr, Ext.refl st, fun _ => rfl⟩
  | cons a is ih =>
    intro st rs h ha hr
    have ih := ih (fun c hm => hc c (by cases a <;> simp [callsOf, hm]))
    have snoc : ∀ (st' : St N V) (r : TV V), Ext st st' → TagOK st' r → ∀ x ∈ rs ++ [r], TagOK st' x := by
      intro st' r he hk x hx
      rcases List.mem_append.1 hx with hx | hx
      · exact (hr x hx).ext he
      · rw [List.mem_singleton.1 hx]; exact hk
    cases a with
    | read l =>
      obtain ⟨h1, h2⟩ := h.read sd args ha l
      have := ih st (rs ++ [st.read I sd args l]) h ha (snoc st _ (Ext.refl st) h1)
      simp only [execI, evalI]
      refine ⟨this.1, this.2.1, this.2.2.1, fun ho => ?_⟩
      rw [this.2.2.2 ho, List.map_append, List.map_singleton, h2]
    | op f as =>
      have hal := h.alloc (I.op f (as.map (fun i => (regT I rs i).val)))
      have := ih _ (rs ++ [(st.alloc (I.op f (as.map (fun i => (regT I rs i).val)))).1]) hal.1
        (fun a hm => (ha a hm).ext hal.2.2) (snoc _ _ hal.2.2 hal.2.1)
      simp only [execI, evalI]
      refine ⟨this.1, this.2.1, hal.2.2.trans this.2.2.1, fun ho => ?_⟩
      rw [this.2.2.2 ho, hal.2.2.view, List.map_append, List.map_singleton]
      have hm : as.map (fun i => (regT I rs i).val) = as.map (regV I (rs.map (·.val))) :=
        List.map_congr_left (fun i _ => (h.reg rs hr i).2)
      simp only [St.alloc, hm]
    | call c as =>
      have hcl := hc c (by simp [callsOf]) st (as.map (regT I rs)) h (by
        intro x hx
        obtain ⟨i, _, rfl⟩ := List.mem_map.1 hx
        exact (h.reg rs hr i).1)
      simp only at hcl
      have := ih _ (rs ++ [(callf st c (as.map (regT I rs))).1]) hcl.1
        (fun a hm => (ha a hm).ext hcl.2.2.1) (snoc _ _ hcl.2.2.1 hcl.2.1)
      simp only [execI, evalI]
      refine ⟨this.1, this.2.1, hcl.2.2.1.trans this.2.2.1, fun ho => ?_⟩
      rw [this.2.2.2 (fun c' hm => ho c' (by simp [callsOf, hm])), hcl.2.2.1.view, List.map_append, List.map_singleton,
        hcl.2.2.2 (ho c (by simp [callsOf]))]
      have hm : (as.map (regT I rs)).map (·.val) = as.map (regV I (rs.map (·.val))) := by
        rw [List.map_map]; exact List.map_congr_left (fun i _ => (h.reg rs hr i).2)
      rw [hm]

theorem zip_all_eq (heq : ∀ a b, I.eqv a b = true → a = b) : ∀ (l m : List V), l.length = m.length →
    (l.zip m).all (fun p => I.eqv p.1 p.2) = true → l = m := by
  intro l
  induction l with
  | nil => intro m h _; cases m <;> simp_all
  | cons a l ih =>
    intro m h h2
    cases m with
    | nil => simp at h
    | cons b m =>
      simp only [List.zip_cons_cons, List.all_cons, Bool.and_eq_true] at h2
      rw [heq a b h2.1, ih m (by simpa using h) h2.2]

theorem Inv.add {st : St N V} (h : Inv I T D n0 fixed hv st) (q : N) (sd : Side) (tags : List Nat) (vals : List V) (r : TV V)
    (hr : TagOK st r)
    (he : Ok T n0 fixed q → EntryOK I T D fixed hv st.next st.pool q ⟨tags, vals, r⟩)
    (hlen : vals.length = (T q).valKeys.length) :
    Inv I T D n0 fixed hv (st.add T q sd tags vals r) ∧ TagOK (st.add T q sd tags vals r) r ∧ Ext st (st.add T q sd tags vals r) := by
  have put : (T q).store ≠ .never → ∀ (cap : Nat) (e : Entry V), e.res = r → (Ok T n0 fixed q → EntryOK I T D fixed hv st.next st.pool q e) →
      Inv I T D n0 fixed hv { st with cache := fun q' sd' => if q' = q ∧ sd' = sd then addEntry (st.cache q sd) cap e else st.cache q' sd' } := by
    intro hns cap e hre hek
    have hmem : ∀ q' sd' x, x ∈ (if q' = q ∧ sd' = sd then addEntry (st.cache q sd) cap e else st.cache q' sd') →
        (q' = q ∧ x = e) ∨ x ∈ st.cache q' sd' := by
      intro q' sd' x hx
      split at hx
      · rename_i hc
        rcases List.mem_cons.1 (List.mem_of_mem_take hx) with hx | hx
        · exact Or.inl ⟨hc.1, hx⟩
        · rw [hc.1, hc.2]; exact Or.inr hx
      · exact Or.inr hx
    refine ⟨h.pos, h.pool0, h.it, h.gl, h.fix, ?_, ?_, ?_⟩
    · intro q' sd' hn
      show (if q' = q ∧ sd' = sd then _ else _) = _
      rw [if_neg (fun hc : q' = q ∧ sd' = sd => hns (hc.1 ▸ hn))]
      exact h.nev q' sd' hn
    · intro q' sd' x hx
      rcases hmem q' sd' x hx with ⟨_, rfl⟩ | hx
      · rw [hre]; exact hr
      · exact h.res q' sd' x hx
    · intro q' sd' ho x hx
      rcases hmem q' sd' x hx with ⟨rfl, rfl⟩ | hx
      · exact hek ho
      · exact h.ent q' sd' ho x hx
  unfold St.add
  cases hs : (T q).store with
  | all => exact ⟨put (by simp [hs]) _ _ rfl he, hr, ⟨Nat.le_refl _, fun _ _ => rfl, rfl, rfl⟩⟩
  | never => exact ⟨h, hr, Ext.refl st⟩
  | objectsOnly =>
    refine ⟨put (by simp [hs]) _ _ rfl (fun ho hl => ?_), hr, ⟨Nat.le_refl _, fun _ _ => rfl, rfl, rfl⟩⟩
    have : vals = [] := List.length_eq_zero_iff.1 (by simp at hl; omega)
    subst this
    exact he ho hlen

theorem forall₂_map_self {α β : Type} (R : β → α → Prop) (f : α → β) (l : List α) (h : ∀ a ∈ l, R (f a) a) :
    List.Forall₂ R (l.map f) l := by
  induction l with
  | nil => exact List.Forall₂.nil
  | cons a l ih => exact List.Forall₂.cons (h a (by simp)) (ih (fun b hb => h b (by simp [hb])))

theorem forall₂_both {α β : Type} {P Q : β → α → Prop} {R : α → Prop} {l : List β} {m : List α} (h1 : List.Forall₂ P l m)
    (h2 : List.Forall₂ Q l m) (h : ∀ b a, P b a → Q b a → R a) : ∀ a ∈ m, R a := by
  induction h1 with
  | nil => intro a ha; simp at ha
  | cons hp _ ih =>
    cases h2 with
    | cons hq h2 =>
      intro a ha
      rcases List.mem_cons.1 ha with rfl | ha
      · exact h _ _ hp hq
      · exact ih h2 a ha

theorem run_ok (rank : N → Nat) (hwf : ∀ q, ∀ c ∈ (T q).calls, rank c < rank q) (hD : ∀ q, rank q < D)
    (heq : ∀ a b, I.eqv a b = true → a = b) (sd : Side) :
    ∀ n q, rank q < n → CallOK I T D n0 fixed hv sd q (fun st a => run I T n sd st q a) := by
  intro n
  induction n with
  | zero => intro q h; omega
  | succ n ih =>
    intro q hn st args hI ha
    have hpre : ∀ c ∈ callsOf (T q).pre, CallOK I T D n0 fixed hv sd c (fun st a => run I T n sd st c a) := fun c hc =>
      ih c (by have := hwf q c (by simp [QDef.calls, callsOf_append, hc]); omega)
    have hbody : ∀ c ∈ callsOf (T q).body, CallOK I T D n0 fixed hv sd c (fun st a => run I T n sd st c a) := fun c hc =>
      ih c (by have := hwf q c (by simp [QDef.calls, callsOf_append, hc]); omega)
    obtain ⟨p1, p2, p3, p4⟩ := execI_ok I T D n0 fixed hv (run I T n sd) sd args (T q).pre hpre st [] hI ha (by simp)
    simp only [run]
    generalize hp : execI I (run I T n sd) sd args st [] (T q).pre = p at p1 p2 p3 p4 ⊢
    obtain ⟨prs, pst⟩ := p
    simp only at p1 p2 p3 p4 ⊢
    set tags := (T q).tagKeys.map (fun i => (regT I prs i).tag) with htags
    set vals := (T q).valKeys.map (fun i => (regT I prs i).val) with hvals
    have hlen : vals.length = (T q).valKeys.length := by simp [hvals]
    -- registers of the dependencies
    have hpregs : Ok T n0 fixed q → ∀ i, (regT I prs i).val =
        regV I (evalI I (fresh I T D (st.view sd)) (st.view sd) (args.map (·.val)) [] (T q).pre) i := by
      intro ho i
      rw [(p1.reg prs p2 i).2, p4 (fun c hc => ho.calls c (by simp [QDef.calls, callsOf_append, hc]))]
      rfl
    -- a stored entry that fits gives the value
    have hitOK : ∀ sd' e, e ∈ pst.cache q sd' → e.hit I tags vals = true →
        (Ok T n0 fixed q → e.res.val = fresh I T D (st.view sd) q (args.map (·.val))) := by
      intro sd' e he hh ho
      simp only [Entry.hit, Bool.and_eq_true, decide_eq_true_eq] at hh
      have hve : vals = e.vals := zip_all_eq I heq vals e.vals hh.1.2 hh.2
      obtain ⟨w, a, hw, ht, hvv, hr⟩ := p1.ent q sd' ho e he (by rw [← hve, hlen])
      rw [hr]
      rcases ho.top with hnv | htop
      · rw [p1.nev q sd' hnv] at he; simp at he
      refine topDet_sound I T rank hwf D hD fixed n0 q htop w (st.view sd) a _ (fun g hg => ?_) ?_
      · rw [hw g hg]; exact ((hI.viewGl sd g hg)).symm
      · intro i hi
        rw [← hpregs ho i]
        rcases List.mem_append.1 hi with hi | hi
        · have h1 : List.Forall₂ (fun t i => t = (regT I prs i).tag) e.tags (T q).tagKeys := by
            rw [hh.1.1, htags]; exact forall₂_map_self _ _ _ (fun _ _ => rfl)
          refine forall₂_both ht h1 (R := fun i => regV I (evalI I (fresh I T D w) w a [] (T q).pre) i = (regT I prs i).val) ?_ i hi
          rintro t i ⟨_, h2⟩ rfl
          rw [← h2]; exact (p1.reg prs p2 i).1.2
        · have h1 : (T q).valKeys.map (fun i => (regT I prs i).val) = (T q).valKeys.map (regV I (evalI I (fresh I T D w) w a [] (T q).pre)) := by
            rw [← hvals, hve, hvv]
          exact (List.map_inj_left.1 h1 i hi).symm
    -- a new entry
    have hnew : ∀ (st' : St N V) (r : TV V), Ext pst st' → (Ok T n0 fixed q → r.val = fresh I T D (st.view sd) q (args.map (·.val))) →
        Ok T n0 fixed q → EntryOK I T D fixed hv st'.next st'.pool q ⟨tags, vals, r⟩ := by
      intro st' r hx hrv ho _
      refine ⟨st.view sd, args.map (·.val), hI.viewGl sd, ?_, ?_, hrv ho⟩
      · refine forall₂_map_self _ _ _ (fun i _ => ?_)
        rw [← hpregs ho i]
        exact ((p1.reg prs p2 i).1.ext hx)
      · exact List.map_congr_left (fun i _ => hpregs ho i)
    cases hf : pst.find I T q sd tags vals with
    | mk o b =>
      cases o with
      | some r =>
        have hr : TagOK pst r ∧ (Ok T n0 fixed q → r.val = fresh I T D (st.view sd) q (args.map (·.val))) := by
          unfold St.find at hf
          cases h1 : (pst.cache q sd).find? (fun e => e.hit I tags vals) with
          | some e =>
            rw [h1] at hf
            simp only [Prod.mk.injEq, Option.some.injEq] at hf
            rw [← hf.1]
            have hm := List.mem_of_find?_eq_some h1
            exact ⟨p1.res q sd e hm, hitOK sd e hm (by simpa using List.find?_some h1)⟩
          | none =>
            rw [h1] at hf
            simp only at hf
            split at hf
            · simp only [Prod.mk.injEq, Option.map_eq_some_iff] at hf
              obtain ⟨⟨e, h2, rfl⟩, _⟩ := hf
              have hm := List.mem_of_find?_eq_some h2
              exact ⟨p1.res q _ e hm, hitOK _ e hm (by simpa using List.find?_some h2)⟩
            · simp at hf
        cases b with
        | true => exact ⟨p1, hr.1, p3, hr.2⟩
        | false =>
          have hadd := p1.add I T D n0 fixed hv q sd tags vals r hr.1 (hnew pst r (Ext.refl _) hr.2) hlen
          exact ⟨hadd.1, hadd.2.1, p3.trans hadd.2.2, hr.2⟩
      | none =>
        obtain ⟨b1, b2, b3, b4⟩ := execI_ok I T D n0 fixed hv (run I T n sd) sd args (T q).body hbody pst prs p1
          (fun a hm => (ha a hm).ext p3) p2
        have hlast : TagOK (execI I (run I T n sd) sd args pst prs (T q).body).2
            ((execI I (run I T n sd) sd args pst prs (T q).body).1.getLastD ⟨0, I.dflt⟩) := by
          rw [getLastD_eq_getD]; exact (b1.reg _ b2 _).1
        have hval : Ok T n0 fixed q → ((execI I (run I T n sd) sd args pst prs (T q).body).1.getLastD ⟨0, I.dflt⟩).val =
            fresh I T D (st.view sd) q (args.map (·.val)) := by
          intro ho
          rw [fresh_unfold I T rank hwf D hD, evalI_append]
          have h4 := b4 (fun c hc => ho.calls c (by simp [QDef.calls, callsOf_append, hc]))
          rw [p3.view, p4 (fun c hc => ho.calls c (by simp [QDef.calls, callsOf_append, hc]))] at h4
          simp only [List.map_nil] at h4
          rw [← h4, getLastD_eq_getD, getLastD_eq_getD, List.length_map]
          exact (b1.reg _ b2 _).2
        have hadd := b1.add I T D n0 fixed hv q sd tags vals _ hlast (hnew _ _ b3 hval) hlen
        exact ⟨hadd.1, hadd.2.1, (p3.trans b3).trans hadd.2.2, hval⟩

theorem Inv.init : Inv I T D n0 fixed (fun _ => I.dflt) (St.init I.dflt : St N V) := by
  refine ⟨by simp [St.init], rfl, fun _ _ => ⟨by simp [St.init], rfl⟩, fun _ => ⟨by simp [St.init], rfl⟩, ?_, ?_, ?_, ?_⟩
  · intro g _; cases g <;> rfl
  · intro q sd _; rfl
  · intro q sd e he; simp [St.init] at he
  · intro q sd _ e he; simp [St.init] at he

theorem Inv.step (rank : N → Nat) (hwf : ∀ q, ∀ c ∈ (T q).calls, rank c < rank q) (hD : ∀ q, rank q < D)
    (heq : ∀ a b, I.eqv a b = true → a = b) (st : St N V) (h : Inv I T D n0 fixed hv st) (a : Act N V) (hk : ∀ g ∈ fixed, a.keeps g) :
    Inv I T D n0 fixed hv (step I T D st a).1 := by
  have fixIt : ∀ (st' : St N V) sd c (r : TV V), st'.gl = st.gl → (∀ g ∈ fixed, Act.keeps g (Act.setIt sd c r.val : Act N V)) →
      (st'.it = fun sd' c' => if sd' = sd ∧ c' = c then r else st.it sd' c') → ∀ g ∈ fixed, (st'.view .curr).gl g = hv g := by
    intro st' sd c r h1 h2 h3 g hg
    rw [← h.fix g hg]
    have := h2 g hg
    cases g <;> simp only [St.view, h1, h3] <;> (try rfl) <;>
      (split
       · rename_i hc
         exact absurd (by simp [← hc.1, ← hc.2]) this
       · rfl)
  have fixGl : ∀ (st' : St N V) g0 (r : TV V), st'.it = st.it → (∀ g ∈ fixed, g0 ≠ g) →
      (st'.gl = fun g' => if g' = g0 then r else st.gl g') → ∀ g ∈ fixed, (st'.view .curr).gl g = hv g := by
    intro st' g0 r h1 h2 h3 g hg
    rw [← h.fix g hg]
    have := h2 g hg
    cases g <;> simp only [St.view, h1, h3] <;> (try rfl) <;> rw [if_neg (fun hc => this hc.symm)]
  cases a with
  | setIt sd c v =>
    obtain ⟨h1, h2, h3⟩ := h.alloc v
    refine ⟨h1.pos, h1.pool0, ?_, h1.gl, fixIt _ sd c _ rfl hk rfl, h1.nev, h1.res, h1.ent⟩
    intro sd' c'
    show TagOK _ (if sd' = sd ∧ c' = c then _ else _)
    split
    · exact h2
    · exact (show TagOK (st.alloc v).2 (st.it sd' c') from (h.it sd' c').ext h3)
  | setGl g v =>
    obtain ⟨h1, h2, h3⟩ := h.alloc v
    refine ⟨h1.pos, h1.pool0, h1.it, ?_, fixGl _ g _ rfl hk rfl, h1.nev, h1.res, h1.ent⟩
    intro g'
    show TagOK _ (if g' = g then _ else _)
    split
    · exact h2
    · exact (show TagOK (st.alloc v).2 (st.gl g') from (h.gl g').ext h3)
  | putIt sd c t =>
    simp only [Verif.CQ.step]
    split
    · rename_i ht
      refine ⟨h.pos, h.pool0, ?_, h.gl, fixIt _ sd c _ rfl hk rfl, h.nev, h.res, h.ent⟩
      intro sd' c'
      show TagOK _ (if sd' = sd ∧ c' = c then _ else _)
      split
      · exact ⟨ht, rfl⟩
      · exact h.it sd' c'
    · exact h
  | putGl g t =>
    simp only [Verif.CQ.step]
    split
    · rename_i ht
      refine ⟨h.pos, h.pool0, h.it, ?_, fixGl _ g _ rfl hk rfl, h.nev, h.res, h.ent⟩
      intro g'
      show TagOK _ (if g' = g then _ else _)
      split
      · exact ⟨ht, rfl⟩
      · exact h.gl g'
    · exact h
  | make v => exact (h.alloc v).1
  | forget q sd i =>
    have hsub : ∀ q' sd' x, x ∈ (if q' = q ∧ sd' = sd then (st.cache q sd).eraseIdx i else st.cache q' sd') → x ∈ st.cache q' sd' := by
      intro q' sd' x hx
      split at hx
      · rename_i hc; rw [hc.1, hc.2]; exact List.mem_of_mem_eraseIdx hx
      · exact hx
    refine ⟨h.pos, h.pool0, h.it, h.gl, h.fix, ?_, fun q' sd' x hx => h.res q' sd' x (hsub q' sd' x hx),
      fun q' sd' ho x hx => h.ent q' sd' ho x (hsub q' sd' x hx)⟩
    intro q' sd' hn
    exact List.eq_nil_iff_forall_not_mem.2 (fun x hx => by have := hsub q' sd' x hx; rw [h.nev q' sd' hn] at this; simp at this)
  | query q sd args =>
    simp only [Verif.CQ.step]
    split
    · rename_i ht
      refine (run_ok I T D n0 fixed hv rank hwf hD heq sd D q (hD q) st (args.map (fun t => ⟨t, st.pool t⟩)) h ?_).1
      intro a hm
      obtain ⟨t, h1, rfl⟩ := List.mem_map.1 hm
      exact ⟨ht t h1, rfl⟩
    · exact h

theorem Inv.steps (rank : N → Nat) (hwf : ∀ q, ∀ c ∈ (T q).calls, rank c < rank q) (hD : ∀ q, rank q < D)
    (heq : ∀ a b, I.eqv a b = true → a = b) : ∀ (as : List (Act N V)) (st : St N V), Inv I T D n0 fixed hv st →
    (∀ a ∈ as, ∀ g ∈ fixed, a.keeps g) → Inv I T D n0 fixed hv (steps I T D st as) := by
  intro as
  induction as with
  | nil => intro st h _; exact h
  | cons a as ih =>
    intro st h hk
    exact ih _ (Inv.step I T D n0 fixed hv rank hwf hD heq st h a (hk a (by simp))) (fun b hb => hk b (by simp [hb]))

/-- A query in a state with the invariant. -/
theorem query_fresh (rank : N → Nat) (hwf : ∀ q, ∀ c ∈ (T q).calls, rank c < rank q) (hD : ∀ q, rank q < D)
    (heq : ∀ a b, I.eqv a b = true → a = b) (st : St N V) (h : Inv I T D n0 fixed hv st) (q : N) (ho : Ok T n0 fixed q) (sd : Side)
    (args : List Nat) (hargs : ∀ t ∈ args, t < st.next) :
    (step I T D st (.query q sd args)).2 = some (fresh I T D (st.view sd) q (args.map st.pool)) := by
  simp only [Verif.CQ.step, if_pos hargs]
  congr 1
  have := (run_ok I T D n0 fixed hv rank hwf hD heq sd D q (hD q) st (args.map (fun t => ⟨t, st.pool t⟩)) h (by
    intro a hm
    obtain ⟨t, h1, rfl⟩ := List.mem_map.1 hm
    exact ⟨hargs t h1, rfl⟩)).2.2.2 ho
  simpa [List.map_map, Function.comp_def] using this

end Verif.CQ
