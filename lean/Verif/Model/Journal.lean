/-!
# Model of `Ipopt::Journalist` and `Ipopt::Journal`

`/repo/src/Common/IpJournalist.{hpp,cpp}`.  Journal objects are numbered in the order of their creation; the journalist holds a
list of numbers (`std::vector<SmartPtr<Journal>>`).  A message is the already formatted text (`vfprintf`/`vsprintf` not modelled;
`va_copy` is assumed to exist; the fixed buffer of `StreamJournal` is not modelled).
-/

namespace Verif.Jnl

/-- `J_USER_APPLICATION` and `J_LAST_CATEGORY` (`IpJournalist.hpp:60-98`). -/
def userApplication : Nat := 14
def lastCategory : Nat := 32

/-- A `Journal` object: name, `print_levels_`, whether a file/stream is open, and what has been written so far (oldest first). -/
structure Obj where
  name : String
  levels : Nat → Int
  sink : Bool
  out : List String

/-- Constructor `Journal::Journal` (`IpJournalist.cpp:323-333`). -/
def Obj.new (name : String) (default : Int) : Obj := ⟨name, fun _ => default, false, []⟩

/-- `Journal::IsAccepted` (`:343-354`). -/
def Obj.isAccepted (o : Obj) (category : Nat) (level : Int) : Bool := decide (level ≤ o.levels category)

/-- `Journal::SetPrintLevel` (`:356-362`). -/
def Obj.setPrintLevel (o : Obj) (category : Nat) (level : Int) : Obj :=
  { o with levels := fun c => if c = category then level else o.levels c }

/-- Loop of `SetAllPrintLevels`. -/
def Obj.setFrom (o : Obj) (level : Int) (category : Nat) : Nat → Obj
  | 0 => o
  | n + 1 => Obj.setFrom (o.setPrintLevel category level) level (category + 1) n

/-- `Journal::SetAllPrintLevels` (`:364-372`): categories `J_DBG` to `J_USER_APPLICATION - 1`. -/
def Obj.setAllPrintLevels (o : Obj) (level : Int) : Obj := o.setFrom level 0 userApplication

/-- `FileJournal::PrintImpl`/`PrintfImpl`, `StreamJournal::PrintImpl`/`PrintfImpl` (`:431-458`, `:488-516`). -/
def Obj.print (o : Obj) (s : String) : Obj := if o.sink then { o with out := o.out ++ [s] } else o

/-- `n` times `Print("  ")` (`:209-212`). -/
def Obj.indent (o : Obj) : Nat → Obj
  | 0 => o
  | n + 1 => Obj.indent (o.print "  ") n

/-- All journal objects, and `journals_`. -/
structure World where
  objs : List Obj
  js : List Nat

/-- Object number `i`. -/
def World.obj (w : World) (i : Nat) : Obj := w.objs.getD i (Obj.new "" 0)

/-- Replacing object number `i`. -/
def World.modify (w : World) (i : Nat) (f : Obj → Obj) : World := { w with objs := w.objs.modify i f }

/-- `GetJournal` (`:290-308`). -/
def World.getJournal (w : World) (name : String) : Option Nat := w.js.find? (fun i => (w.obj i).name == name)

/-- `AddJournal` (`:246-262`). -/
def World.addJournal (w : World) (i : Nat) : Bool × World :=
  if (w.getJournal (w.obj i).name).isSome then (false, w) else (true, { w with js := w.js ++ [i] })

/-- The loop of `VPrintf` and `VPrintfIndented` (`:176-192`, `:205-228`) over the journals. -/
def printLoop (level : Int) (category indent : Nat) (msg : String) : List Nat → World → World
  | [], w => w
  | i :: is, w =>
    let w := if (w.obj i).isAccepted category level then w.modify i (fun o => (o.indent indent).print msg) else w
    printLoop level category indent msg is w

/-- `ProduceOutput` (`:231-244`). -/
def World.produceOutput (w : World) (level : Int) (category : Nat) : Bool :=
  w.js.any (fun i => (w.obj i).isAccepted category level)

/-- Calls. -/
inductive Op where
  /-- A user creates a journal object. -/
  | create (name : String) (default : Int)
  /-- `AddJournal`. -/
  | add (i : Nat)
  /-- `AddFileJournal` (`:264-280`); `ok`: the file could be opened. -/
  | addFile (name : String) (default : Int) (ok : Bool)
  /-- `SetPrintLevel` of a journal. -/
  | setLevel (i category : Nat) (level : Int)
  /-- `SetAllPrintLevels` of a journal. -/
  | setAll (i : Nat) (level : Int)
  /-- `Open` or `SetOutputStream` of a journal (`:396-429`, `:481-486`): afterwards there is a stream or not. -/
  | attach (i : Nat) (sink : Bool)
  /-- `PrintfIndented`/`VPrintfIndented`; `Printf` is the case without indentation. -/
  | print (level : Int) (category indent : Nat) (msg : String)
  /-- `DeleteAllJournals` (`:310-317`). -/
  | deleteAll

/-- One call.  Journal numbers that do not exist (impossible in C++) are ignored. -/
def World.step (w : World) : Op → World
  | .create name default => { w with objs := w.objs ++ [Obj.new name default] }
  | .add i => if i < w.objs.length then (w.addJournal i).2 else w
  | .addFile name default ok =>
    let w := { w with objs := w.objs ++ [{ Obj.new name default with sink := ok }] }
    if ok then (w.addJournal (w.objs.length - 1)).2 else w
  | .setLevel i category level => w.modify i (fun o => o.setPrintLevel category level)
  | .setAll i level => w.modify i (fun o => o.setAllPrintLevels level)
  | .attach i sink => w.modify i (fun o => { o with sink := sink })
  | .print level category indent msg => printLoop level category indent msg w.js w
  | .deleteAll => { w with js := [] }

/-- A history, newest call first. -/
def run : List Op → World
  | [] => ⟨[], []⟩
  | op :: h => (run h).step op

/-! ### `PrintStringOverLines` -/

/-- Inner loop (`:60-70`): copies characters while there is room (`room = max_length - curr_length`); returns `buffer`,
`last_word_pos`, `line_pos`. -/
def fill (line : List Char) : (room : Nat) → (buffer : List Char) → (lastWord linePos : Nat) → List Char × Nat × Nat
  | 0, buffer, lastWord, linePos => (buffer, lastWord, linePos)
  | room + 1, buffer, lastWord, linePos =>
    match line[linePos]? with
    | some c => fill line room (buffer ++ [c]) (if c = ' ' then linePos + 1 else lastWord) (linePos + 1)
    | none => (buffer, lastWord, linePos)

/-- Result of one pass of the outer loop (`:56-113`): the text passed to `Printf`, and `last_line_pos`, `last_word_pos` for the next
pass, or the end.  `buffer` is `buffer[0], …, buffer[buffer_pos - 1]`. -/
inductive Pass where
  | last (text : List Char)
  | line (text : List Char) (lastLine lastWord : Nat)
deriving DecidableEq

/-- One pass. -/
def pass (line : List Char) (maxLength : Nat) (buffer : List Char) (lastLine lastWord : Nat) : Pass :=
  let (buffer, lastWord, linePos) := fill line maxLength buffer lastWord lastLine
  if linePos = line.length then .last buffer
  else if lastWord = lastLine then
    if line[linePos]? = some ' ' then .line (buffer ++ ['\n']) (linePos + 1) (linePos + 1)
    else .line (buffer.set (buffer.length - 1) '-' ++ ['\n']) (linePos - 1) (linePos - 1)
  else .line (buffer.take (buffer.length - (linePos - lastWord) - 1) ++ ['\n']) lastWord lastWord

/-- The outer loop, with at most `fuel` passes; returns the texts printed and whether the loop was left. -/
def overLines (line : List Char) (indent maxLength : Nat) : (fuel : Nat) → (buffer : List Char) → (lastLine lastWord : Nat) →
    List (List Char) × Bool
  | 0, _, _, _ => ([], false)
  | fuel + 1, buffer, lastLine, lastWord =>
    if lastLine < line.length then
      match pass line maxLength buffer lastLine lastWord with
      | .last t => ([t], true)
      | .line t l w =>
        let r := overLines line indent maxLength fuel (List.replicate indent ' ') l w
        (t :: r.1, r.2)
    else ([], true)

/-- `PrintStringOverLines` (`:41-114`). -/
def printStringOverLines (line : List Char) (indent maxLength fuel : Nat) : List (List Char) × Bool :=
  overLines line indent maxLength fuel [] 0 0

end Verif.Jnl
