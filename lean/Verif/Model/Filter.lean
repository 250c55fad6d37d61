import Verif.Model.Num

/-!
# Model of `Ipopt::Filter` (`/repo/src/Algorithm/IpFilter.hpp`, `IpFilter.cpp`)

The model is generic in the number type `α`; it only uses the comparison operators `<=` and `>`.
It is instantiated with `Num` (NaN-aware) and with ordered fields.
Reading a `std::vector` beyond its end is undefined behaviour: the model returns `none` for it
(the `DBG_ASSERT`s on the sizes are compiled out in release builds).
-/

namespace Verif.Filter

variable {α : Type} [LE α] [LT α] [DecidableLE α] [DecidableLT α]

/-- `FilterEntry` (`IpFilter.hpp:18-120`): coordinates and the iteration in which it was added. -/
structure Entry (α : Type) where
  vals : List α
  iter : Int
  deriving DecidableEq, Repr

/-- The loop of `FilterEntry::Acceptable` (`IpFilter.hpp:39-60`): true at the first `i` with `vals[i] <= vals_[i]`.
Arguments: the queried `vals`, then the entry's `vals_`.  `none` = out-of-bounds read. -/
def entryAcceptableLoop : List α → List α → Option Bool
  | _, [] => some false
  | [], _ :: _ => none
  | v :: vs, e :: es => if v ≤ e then some true else entryAcceptableLoop vs es

/-- `FilterEntry::Acceptable` (`IpFilter.hpp:39-60`). -/
def Entry.acceptable (e : Entry α) (vals : List α) : Option Bool :=
  entryAcceptableLoop vals e.vals

/-- The loop of `FilterEntry::Dominated` (`IpFilter.hpp:64-85`): false at the first `i` with `vals[i] > vals_[i]`. -/
def entryDominatedLoop : List α → List α → Option Bool
  | _, [] => some true
  | [], _ :: _ => none
  | v :: vs, e :: es => if v > e then some false else entryDominatedLoop vs es

/-- `FilterEntry::Dominated` (`IpFilter.hpp:64-85`). -/
def Entry.dominated (e : Entry α) (vals : List α) : Option Bool :=
  entryDominatedLoop vals e.vals

/-- `Filter` (`IpFilter.hpp:128-236`): only the list of entries (`filter_list_`, oldest first) is state;
`dim_` is used in assertions and printing only. -/
abbrev State (α : Type) := List (Entry α)

/-- `Filter::Acceptable` (`IpFilter.cpp:42-59`). -/
def acceptable : State α → List α → Option Bool
  | [], _ => some true
  | e :: es, vals =>
    match e.acceptable vals with
    | none => none
    | some false => some false
    | some true => acceptable es vals

/-- The removal loop of `Filter::AddEntry` (`IpFilter.cpp:68-83`). -/
def prune : State α → List α → Option (State α)
  | [], _ => some []
  | e :: es, vals =>
    match e.dominated vals with
    | none => none
    | some true => prune es vals
    | some false => (prune es vals).map (e :: ·)

/-- `Filter::AddEntry` (`IpFilter.cpp:61-86`): remove dominated entries, append the new one. -/
def addEntry (s : State α) (vals : List α) (iter : Int) : Option (State α) :=
  (prune s vals).map (· ++ [⟨vals, iter⟩])

/-- `Filter::Clear` (`IpFilter.cpp:88-97`). -/
def clear (_ : State α) : State α := []

/-- A call that modifies the filter. -/
inductive Op (α : Type) where
  | add (vals : List α) (iter : Int)
  | clear

/-- One modifying call. -/
def step (s : State α) : Op α → Option (State α)
  | .add v i => addEntry s v i
  | .clear => some (clear s)

/-- Running a history of calls from state `s`. -/
def run (s : State α) : List (Op α) → Option (State α)
  | [] => some s
  | o :: os => (step s o).bind (fun s' => run s' os)

end Verif.Filter
