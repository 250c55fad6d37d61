import Verif.Model.Journal

/-!
# Specification of journals (C12, C41)

A history is a list of calls, newest first.  What is known about a journal is read off the history directly.
-/

namespace Verif.Jnl

/-- Number of journals created so far. -/
def created : List Op → Nat
  | [] => 0
  | .create _ _ :: h => created h + 1
  | .addFile _ _ _ :: h => created h + 1
  | _ :: h => created h

/-- The name of journal `i`. -/
def nameOf (i : Nat) : List Op → Option String
  | [] => none
  | .create n _ :: h => if i = created h then some n else nameOf i h
  | .addFile n _ _ :: h => if i = created h then some n else nameOf i h
  | _ :: h => nameOf i h

/-- Journal `i` is known to the journalist: it was added, at a time when no other known journal had its name, and the journals have
not been deleted since then. -/
def Member (i : Nat) : List Op → Prop
  | [] => False
  | .add k :: h => Member i h ∨ (i = k ∧ k < created h ∧ ∀ m, Member m h → nameOf m h ≠ nameOf k h)
  | .addFile n _ ok :: h => Member i h ∨ (i = created h ∧ ok = true ∧ ∀ m, Member m h → nameOf m h ≠ some n)
  | .deleteAll :: _ => False
  | _ :: h => Member i h

/-- The print level of journal `i` for category `c`: the one set last for this journal and this category, initially the
default; setting all levels concerns the categories before `J_USER_APPLICATION`. -/
def levelOf (i c : Nat) : List Op → Int
  | [] => 0
  | .create _ d :: h => if i = created h then d else levelOf i c h
  | .addFile _ d _ :: h => if i = created h then d else levelOf i c h
  | .setLevel k c' l :: h => if i = k ∧ c = c' ∧ k < created h then l else levelOf i c h
  | .setAll k l :: h => if i = k ∧ c < userApplication ∧ k < created h then l else levelOf i c h
  | _ :: h => levelOf i c h

/-- Journal `i` has an open file or stream. -/
def HasSink (i : Nat) : List Op → Prop
  | [] => False
  | .create _ _ :: h => i ≠ created h ∧ HasSink i h
  | .addFile _ _ ok :: h => if i = created h then ok = true else HasSink i h
  | .attach k b :: h => if i = k ∧ k < created h then b = true else HasSink i h
  | _ :: h => HasSink i h

open Classical in
/-- Everything journal `i` writes: each message is written once, at the time of the call, iff the journal is then known to the
journalist, its level for the message's category is at least the message's level, and it has an open file. -/
noncomputable def written (i : Nat) : List Op → List String
  | [] => []
  | .print l c n msg :: h =>
    if Member i h ∧ l ≤ levelOf i c h ∧ HasSink i h then written i h ++ (List.replicate n "  " ++ [msg]) else written i h
  | _ :: h => written i h

/-- `Wrapped indent max start s texts`: the texts are the string `s` broken into lines.  The first line is preceded by `start`, the
other lines by `indent` blanks.  A line ends with the end of the string, or at a blank which is replaced by the line break, or
inside a word of which `max - 1` characters and a hyphen are printed. -/
inductive Wrapped (indent max : Nat) : List Char → List Char → List (List Char) → Prop where
  | finished (start : List Char) : Wrapped indent max start [] []
  | last (start s : List Char) (hs : s ≠ []) (h : s.length ≤ max) : Wrapped indent max start s [start ++ s]
  | blank (start a b : List Char) (texts : List (List Char)) (h : a.length ≤ max)
      (next : Wrapped indent max (List.replicate indent ' ') b texts) :
      Wrapped indent max start (a ++ ' ' :: b) ((start ++ a ++ ['\n']) :: texts)
  | hyphen (start a b : List Char) (texts : List (List Char)) (h : a.length + 1 = max) (hw : ' ' ∉ a) (hb : b ≠ [])
      (next : Wrapped indent max (List.replicate indent ' ') b texts) :
      Wrapped indent max start (a ++ b) ((start ++ a ++ ['-', '\n']) :: texts)

end Verif.Jnl
