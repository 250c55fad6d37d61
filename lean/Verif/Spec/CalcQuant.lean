import Verif.Model.CalcQuant

/-!
# What a calculated quantity should be

The value of a function of the class when it is computed from scratch, without any cache, from the data of the present moment.
-/

namespace Verif.CQ

variable {N V : Type}

/-- Register. -/
def regV (I : Interp V) (rs : List V) (i : Nat) : V := rs.getD i I.dflt

/-- Values of the places a function may read: the components of its point, the other data, the arguments. -/
structure View (V : Type) where
  self : Comp → V
  gl : Glob → V

/-- Read a place. -/
def View.read (I : Interp V) (w : View V) (args : List V) : Loc → V
  | .self c => w.self c
  | .glob g => w.gl g
  | .arg i => args.getD i I.dflt

/-- Evaluate instructions without caches. -/
def evalI (I : Interp V) (callv : N → List V → V) (w : View V) (args : List V) : List V → List (Instr N) → List V
  | rs, [] => rs
  | rs, .read l :: is => evalI I callv w args (rs ++ [w.read I args l]) is
  | rs, .call q as :: is => evalI I callv w args (rs ++ [callv q (as.map (regV I rs))]) is
  | rs, .op f as :: is => evalI I callv w args (rs ++ [I.op f (as.map (regV I rs))]) is

/-- The value computed from scratch. -/
def fresh (I : Interp V) (T : N → QDef N) : Nat → View V → N → List V → V
  | 0, _, _, _ => I.dflt
  | n + 1, w, q, args => (evalI I (fresh I T n w) w args [] ((T q).pre ++ (T q).body)).getLastD I.dflt

/-- The data of the present moment, seen from a point. -/
def St.view (st : St N V) (sd : Side) : View V where
  self c := (st.it sd c).val
  gl g := match g with
    | .czL => (st.it .curr .zL).val
    | .czU => (st.it .curr .zU).val
    | .cvL => (st.it .curr .vL).val
    | .cvU => (st.it .curr .vU).val
    | g => (st.gl g).val

/-- The action does not change the place `g`. -/
def Act.keeps (g : Glob) : Act N V → Prop
  | .setIt sd c _ | .putIt sd c _ =>
    ¬ (sd = .curr ∧ ((g = .czL ∧ c = .zL) ∨ (g = .czU ∧ c = .zU) ∨ (g = .cvL ∧ c = .vL) ∨ (g = .cvU ∧ c = .vU)))
  | .setGl h _ | .putGl h _ => h ≠ g
  | _ => True

end Verif.CQ

namespace Verif.CQ

/-- Not a call of a function of the class. -/
def Act.quiet {N V : Type} : Act N V → Prop
  | .query _ _ _ => False
  | _ => True

/-- The function `q` of the class `T` always returns the value computed from scratch: start with a new object of the class and any data (`setup`), then
let anything happen (`acts`: new points, restored points, new barrier parameters, loss of cache entries, any calls, in any order) except changes of the
places `fixed`; a call of `q`, for either point and with any arguments, returns what a computation without caches gives for the data of that moment.
The numerical operations `I` are arbitrary; equality of numbers as the caches test it must imply equality. -/
def AlwaysFresh {N : Type} [DecidableEq N] (T : N → QDef N) (depth : Nat) (fixed : List Glob) (q : N) : Prop :=
  ∀ (V : Type) (I : Interp V), (∀ a b, I.eqv a b = true → a = b) →
  ∀ setup acts : List (Act N V), (∀ a ∈ setup, a.quiet) → (∀ a ∈ acts, ∀ g ∈ fixed, a.keeps g) →
  ∀ (sd : Side) (args : List Nat),
    let st := steps I T depth (steps I T depth (St.init I.dflt) setup) acts
    (∀ t ∈ args, t < st.next) →
    (step I T depth st (.query q sd args)).2 = some (fresh I T depth (st.view sd) q (args.map st.pool))

end Verif.CQ
