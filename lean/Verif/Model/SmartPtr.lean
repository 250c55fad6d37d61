import Mathlib.Logic.Function.Basic

/-!
# Model of `SmartPtr` and `ReferencedObject`

`/repo/src/Common/IpSmartPtr.hpp:435-640`, `/repo/src/Common/IpReferenced.hpp:164-260`.

A heap contains objects; each object has a reference count and smart pointer members.  A program has smart pointer variables.
Object identities are never reused (the model distinguishes a freed object from a new one at the same address).
Single-threaded; the debugging lists of referencers are not modelled; the count is an unbounded integer.
-/

namespace Verif.SP

/-- Sum of `f 0 .. f (n-1)`. -/
def sumTo : Nat → (Nat → Nat) → Nat
  | 0, _ => 0
  | n + 1, f => sumTo n f + f n

/-- The memory: `n` objects were created so far (`alive` is false after `delete`), each with `reference_count_`
(`IpReferenced.hpp:194`) and smart pointer members (`none` = NULL); `nv` smart pointer variables. -/
structure Heap where
  n : Nat
  alive : Nat → Bool
  count : Nat → Int
  fields : Nat → List (Option Nat)
  nv : Nat
  var : Nat → Option Nat

/-- No objects and no variables. -/
def Heap.empty : Heap := ⟨0, fun _ => false, fun _ => 0, fun _ => [], 0, fun _ => none⟩

/-- Termination measure of a cascade of deletions. -/
def Heap.size (h : Heap) : Nat := sumTo h.n (fun o => if h.alive o then (h.fields o).length + 1 else 0)

theorem sumTo_update (n : Nat) (f g : Nat → Nat) (i : Nat) (hi : i < n) (h : ∀ j, j ≠ i → g j = f j) :
    sumTo n g + f i = sumTo n f + g i := by
  induction n with
  | zero => omega
  | succ n ih =>
    simp only [sumTo]
    by_cases e : i = n
    · subst e
      have : ∀ m, m ≤ i → sumTo m g = sumTo m f := by
        intro m hm
        induction m with
        | zero => rfl
        | succ m ihm => simp only [sumTo]; rw [ihm (by omega), h m (by omega)]
      rw [this i (by omega)]; omega
    · have := ih (by omega)
      rw [h n (fun e' => e e'.symm)]; omega

/-- Pointers held by the smart pointer members of an object, in order of destruction. -/
def pointees (l : List (Option Nat)) : List Nat := l.reverse.filterMap id

/-- `ReleasePointer_` (`IpSmartPtr.hpp:629-645`) together with the destructors it runs: `st` is the list of pointers still to
be released.  `ReleaseRef` decrements the count (`IpReferenced.hpp:226-232`); at 0 the object is deleted, i.e. its smart
pointer members are destroyed in reverse order of declaration, each with its own cascade before the next.
The second component is true if a deleted object is accessed (undefined behaviour). -/
def release (h : Heap) (st : List Nat) : Heap × Bool :=
  match st with
  | [] => (h, false)
  | p :: st =>
    if _hp : p < h.n ∧ h.alive p = true then
      if h.count p - 1 = 0 then
        release { h with alive := Function.update h.alive p false, count := Function.update h.count p 0 }
          (pointees (h.fields p) ++ st)
      else release { h with count := Function.update h.count p (h.count p - 1) } st
    else (h, true)
termination_by h.size + st.length
decreasing_by
  · have h1 := sumTo_update h.n (fun o => if h.alive o then (h.fields o).length + 1 else 0)
      (fun o => if Function.update h.alive p false o then (h.fields o).length + 1 else 0) p _hp.1
      (by intro j hj; simp [Function.update_of_ne hj])
    have h2 : (pointees (h.fields p)).length ≤ (h.fields p).reverse.length := List.length_filterMap_le id _
    simp only [Function.update_self, _hp.2, if_true, Bool.false_eq_true, if_false] at h1
    simp only [Heap.size, List.length_append, List.length_cons, List.length_reverse] at h2 ⊢
    omega
  · simp only [Heap.size, List.length_cons]; omega

/-- A place that holds a smart pointer. -/
inductive Slot where
  | var (i : Nat)
  | field (o : Nat) (j : Nat)

/-- The pointer in a slot (`ptr_`). -/
def Heap.read (h : Heap) : Slot → Option Nat
  | .var i => h.var i
  | .field o j => ((h.fields o)[j]?).join

/-- Overwrite `ptr_` of a slot. -/
def Heap.write (h : Heap) (s : Slot) (p : Option Nat) : Heap :=
  match s with
  | .var i => { h with var := Function.update h.var i p }
  | .field o j => { h with fields := Function.update h.fields o ((h.fields o).set j p) }

/-- The storage of the slot still exists. -/
def Heap.slotAlive (h : Heap) : Slot → Bool
  | .var _ => true
  | .field o _ => h.alive o

/-- `AddRef` (`IpReferenced.hpp:211-223`). -/
def Heap.addRef (h : Heap) (p : Option Nat) : Heap :=
  match p with
  | none => h
  | some o => { h with count := Function.update h.count o (h.count o + 1) }

/-- `SetFromRawPtr_` (`IpSmartPtr.hpp:590-611`), which is also the copy constructor, the constructor from a raw pointer and both
assignment operators (lines 449-507, 549-588): first `AddRef` the new object, then release the old one, then store the pointer.
In the code `ptr_` keeps its old value during the release; this can only be observed if the slot's own object is deleted by
the release, in which case the model reports undefined behaviour (`!slotAlive`); otherwise it makes no difference that the
model clears the slot first. -/
def setRaw (h : Heap) (s : Slot) (p : Option Nat) : Heap × Bool :=
  let h1 := h.addRef p
  let r := release (h1.write s none) (h.read s).toList
  (r.1.write s p, r.2 || !r.1.slotAlive s)

/-- Access path of a program: a variable and a sequence of smart pointer members, `x->a->b`. -/
structure Path where
  var : Nat
  fields : List Nat

/-- Following members from an object. -/
def Heap.follow (h : Heap) : Nat → List Nat → Option Nat
  | o, [] => some o
  | o, j :: js =>
    match h.read (.field o j) with
    | none => none
    | some o' => h.follow o' js

/-- The object a path refers to (`none`: NULL or a null pointer on the way). -/
def Heap.eval (h : Heap) (p : Path) : Option Nat :=
  match h.var p.var with
  | none => none
  | some o => h.follow o p.fields

/-- Right-hand sides. -/
inductive Rhs where
  | null
  | path (p : Path)
  /-- `new T` with `k` (NULL) smart pointer members -/
  | new (k : Nat)

/-- Left-hand sides of assignments. -/
inductive Lhs where
  | var (i : Nat)
  | field (p : Path) (j : Nat)

/-- Statements of a program. -/
inductive Op where
  /-- declaration `SmartPtr<T> x = rhs;` -/
  | decl (r : Rhs)
  /-- `lhs = rhs;` -/
  | assign (l : Lhs) (r : Rhs)
  /-- end of life of variable `i` -/
  | destroy (i : Nat)

/-- Evaluation of a right-hand side to a raw pointer; `new` creates the object with count 0 (`IpReferenced.hpp:171-174`). -/
def Heap.evalRhs (h : Heap) : Rhs → Option Nat × Heap
  | .null => (none, h)
  | .path p => (h.eval p, h)
  | .new k => (some h.n, { h with
      n := h.n + 1
      alive := Function.update h.alive h.n true
      count := Function.update h.count h.n 0
      fields := Function.update h.fields h.n (List.replicate k none) })

/-- Resolution of a left-hand side; `none` if it dereferences a null pointer or the slot does not exist (such a program is
incorrect; the statement is skipped). -/
def Heap.evalLhs (h : Heap) : Lhs → Option Slot
  | .var i => if i < h.nv then some (.var i) else none
  | .field p j =>
    match h.eval p with
    | none => none
    | some o => if j < (h.fields o).length then some (.field o j) else none

/-- One statement; the second component reports undefined behaviour. -/
def exec (h : Heap) : Op → Heap × Bool
  | .decl r =>
    let (p, h1) := h.evalRhs r
    setRaw { h1 with nv := h1.nv + 1, var := Function.update h1.var h1.nv none } (.var h1.nv) p
  | .assign l r =>
    match h.evalLhs l with
    | none => (h, false)
    | some s =>
      let (p, h1) := h.evalRhs r
      setRaw h1 s p
  | .destroy i =>
    -- `~SmartPtr` (`IpSmartPtr.hpp:509-517`)
    if i < h.nv then release (h.write (.var i) none) (h.read (.var i)).toList else (h, false)

/-- A program: final heap and whether undefined behaviour occurred. -/
def run (ops : List Op) : Heap × Bool :=
  ops.foldl (fun (r : Heap × Bool) o => let x := exec r.1 o; (x.1, r.2 || x.2)) (Heap.empty, false)

end Verif.SP
