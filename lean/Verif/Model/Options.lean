import Verif.Model.Tokenizer

/-!
# Model of `OptionsList` and `RegisteredOption(s)`

`/repo/src/Common/IpOptionsList.{hpp,cpp}`, `/repo/src/Common/IpRegOptions.{hpp,cpp}`.
`std::map` is an association list with replacing insertion.  Journalist output is not modelled except that the warning for a
blocked write reads the option through `GetValue()`, which counts as a use.  Exceptions (`OPTION_INVALID`, ...) are an
explicit outcome.
-/

namespace Verif.Opt
open Text

/-- `RegisteredOptionType` (`IpRegOptions.hpp:21-27`). -/
inductive OType where
  | number | integer | string | unknown
  deriving DecidableEq, Repr

/-- `RegisteredOption` (`IpRegOptions.hpp:149-663`), without documentation fields. -/
structure RegOpt where
  type : OType
  hasLower : Bool := false
  lowerStrict : Bool := false
  lower : Num := .fin 0
  hasUpper : Bool := false
  upperStrict : Bool := false
  upper : Num := .fin 0
  /-- `valid_strings_` -/
  strings : List Str := []
  defaultNumber : Num := .fin 0
  defaultInteger : Int := 0
  defaultString : Str := []

/-- `RegisteredOption::IsValidNumberSetting` (`IpRegOptions.hpp:555-569`). -/
def RegOpt.validNumber (o : RegOpt) (v : Num) : Bool :=
  if o.hasLower && ((o.lowerStrict && decide (v ≤ o.lower)) || (!o.lowerStrict && decide (v < o.lower))) then false
  else if o.hasUpper && ((o.upperStrict && decide (o.upper ≤ v)) || (!o.upperStrict && decide (o.upper < v))) then false
  else true

/-- `RegisteredOption::IsValidIntegerSetting` (`IpRegOptions.hpp:575-589`); the integer is compared as a number. -/
def RegOpt.validInteger (o : RegOpt) (v : Int) : Bool :=
  if o.hasLower && decide (Num.fin v < o.lower) then false
  else if o.hasUpper && decide (o.upper < Num.fin v) then false
  else true

/-- `RegisteredOption::string_equal_insensitive` (`IpRegOptions.cpp:775-800`). -/
def eqCI (a b : Str) : Bool := decide (a.length = b.length) && decide (a.map Char.toUpper = b.map Char.toUpper)

/-- The wildcard setting. -/
def star : Str := ['*']

/-- `RegisteredOption::IsValidStringSetting` (`IpRegOptions.cpp:712-726`). -/
def RegOpt.validString (o : RegOpt) (v : Str) : Bool := o.strings.any (fun s => decide (s = star) || eqCI s v)

/-- Loop body of `MapStringSetting` (`IpRegOptions.cpp:735-746`). -/
def mapStep (v : Str) (acc : Str) (s : Str) : Str :=
  if s = star then v else if eqCI s v then s else acc

/-- `RegisteredOption::MapStringSetting` (`IpRegOptions.cpp:728-748`): the last match wins. -/
def RegOpt.mapString (o : RegOpt) (v : Str) : Str := o.strings.foldl (mapStep v) []

/-- Loop of `MapStringSettingToEnum` (`IpRegOptions.cpp:758-768`): `none` = exception. -/
def enumLoop (v : Str) : Nat → List Str → Option Nat
  | _, [] => none
  | k, s :: ss => if s = star then none else if eqCI s v then some k else enumLoop v (k + 1) ss

/-- `RegisteredOption::MapStringSettingToEnum` (`IpRegOptions.cpp:750-773`). -/
def RegOpt.mapEnum (o : RegOpt) (v : Str) : Option Nat := enumLoop v 0 o.strings

/-- `OptionsList::OptionValue` (`IpOptionsList.hpp:34-150`). -/
structure OptVal where
  value : Str
  counter : Nat
  allowClobber : Bool
  dontPrint : Bool
  deriving DecidableEq, Repr

/-- `std::map<std::string, OptionValue> options_` (`IpOptionsList.hpp:366`). -/
abbrev Store := List (Str × OptVal)

/-- `map::find`. -/
def find (m : Store) (k : Str) : Option OptVal := (m.find? (fun p => p.1 = k)).map (·.2)

/-- `map::erase`. -/
def erase (m : Store) (k : Str) : Store := m.filter (fun p => p.1 ≠ k)

/-- `options_[k] = v`. -/
def insert (m : Store) (k : Str) (v : OptVal) : Store := (k, v) :: erase m k

/-- What is fixed during a history: the registry (if any), whether a journalist is attached, the number of bits of `Index`,
and the C library's number formatting and parsing. -/
structure Env where
  reg : Option (List (Str × RegOpt))
  jnlst : Bool
  idxBits : Nat
  fmt : Num → Str
  strtod : Str → Num × Str

/-- Text after the last `.` (`IpRegOptions.cpp:1356-1361`). -/
def tagOnly (s : Str) : Str := (s.reverse.takeWhile (· ≠ '.')).reverse

/-- `RegisteredOptions::GetOption` (`IpRegOptions.cpp:1352-1373`). -/
def getOption (r : List (Str × RegOpt)) (tag : Str) : Option RegOpt :=
  (r.find? (fun p => p.1 = tagOnly tag)).map (·.2)

/-- `OptionsList::will_allow_clobber` (`IpOptionsList.cpp:839-853`). -/
def willAllowClobber (m : Store) (tag : Str) : Bool :=
  match find m (lower tag) with
  | some v => v.allowClobber
  | none => true

/-- `OptionValue::GetValue` (`IpOptionsList.hpp:92-97`): counts the use. -/
def touch (m : Store) (k : Str) : Store :=
  match find m k with
  | some v => insert m k { v with counter := v.counter + 1 }
  | none => m

/-- Common end of the three setters (`IpOptionsList.cpp:79-97`, `172-193`, `259-282`): store the text unless the old value
disallows clobbering. -/
def storeText (env : Env) (m : Store) (tag text : Str) (clob dp : Bool) : Store :=
  if !willAllowClobber m tag then (if env.jnlst then touch m (lower tag) else m)
  else insert m (lower tag) ⟨text, 0, clob, dp⟩

/-- The registry check of a setter: option known, of type `t`, and the value valid. -/
def regCheck (env : Env) (tag : Str) (t : OType) (valid : RegOpt → Bool) : Bool :=
  match env.reg with
  | none => true
  | some r =>
    match getOption r tag with
    | none => false
    | some o => decide (o.type = t) && valid o

/-- `OptionsList::SetStringValue` (`IpOptionsList.cpp:18-109`). -/
def setString (env : Env) (m : Store) (tag value : Str) (clob dp : Bool) : Bool × Store :=
  if regCheck env tag .string (fun o => o.validString value) then (true, storeText env m tag value clob dp) else (false, m)

/-- `OptionsList::SetNumericValue` (`IpOptionsList.cpp:111-196`): the value is stored as `%g` text. -/
def setNumeric (env : Env) (m : Store) (tag : Str) (value : Num) (clob dp : Bool) : Bool × Store :=
  if regCheck env tag .number (fun o => o.validNumber value) then (true, storeText env m tag (env.fmt value) clob dp)
  else (false, m)

/-- `OptionsList::SetIntegerValue` (`IpOptionsList.cpp:198-284`). -/
def setInteger (env : Env) (m : Store) (tag : Str) (value : Int) (clob dp : Bool) : Bool × Store :=
  if regCheck env tag .integer (fun o => o.validInteger value) then (true, storeText env m tag (intDec value) clob dp)
  else (false, m)

/-- `OptionsList::UnsetValue` (`IpOptionsList.cpp:286-305`). -/
def unset (env : Env) (m : Store) (tag : Str) : Bool × Store :=
  if !willAllowClobber m tag then (false, if env.jnlst then touch m (lower tag) else m)
  else ((find m (lower tag)).isSome, erase m (lower tag))

/-- `OptionsList::find_tag` (`IpOptionsList.cpp:804-837`). -/
def findTag (m : Store) (tag pre : Str) : Option Str × Store :=
  let k := if pre ≠ [] ∧ (find m (lower (pre ++ tag))).isSome then lower (pre ++ tag) else lower tag
  ((find m k).map (·.value), touch m k)

/-- Result of a read: exception, or (found?, new value of the output argument; `none` = argument not assigned). -/
inductive Got (α : Type) where
  | exc
  | ok (found : Bool) (value : Option α)
  deriving DecidableEq, Repr

/-- `OptionsList::GetStringValue` (`IpOptionsList.cpp:355-410`). -/
def getString (env : Env) (m : Store) (tag pre : Str) : Got Str × Store :=
  let (v, m') := findTag m tag pre
  match env.reg with
  | none => (.ok v.isSome v, m')
  | some r =>
    match getOption r tag with
    | none => (.exc, m')
    | some o =>
      if o.type ≠ .string then (.exc, m')
      else match v with
        | some s => (.ok true (some (o.mapString s)), m')
        | none => (.ok false (some o.defaultString), m')

/-- `OptionsList::GetEnumValue` (`IpOptionsList.cpp:412-468`). -/
def getEnum (env : Env) (m : Store) (tag pre : Str) : Got Nat × Store :=
  let (v, m') := findTag m tag pre
  match env.reg with
  | none => (.ok v.isSome none, m')
  | some r =>
    match getOption r tag with
    | none => (.exc, m')
    | some o =>
      if o.type ≠ .string then (.exc, m')
      else match v with
        | some s => (match o.mapEnum s with
            | some k => (.ok true (some k), m')
            | none => (.exc, m'))
        | none => (match o.mapEnum o.defaultString with
            | some k => (.ok false (some k), m')
            | none => (.exc, m'))

/-- `OptionsList::GetBoolValue` (`IpOptionsList.cpp:470-492`); without registry an unset option leaves the (empty) local string. -/
def getBool (env : Env) (m : Store) (tag pre : Str) : Got Bool × Store :=
  match getString env m tag pre with
  | (.exc, m') => (.exc, m')
  | (.ok found v, m') =>
    let s := v.getD []
    if s = "no".toList ∨ s = "false".toList ∨ s = "off".toList then (.ok found (some false), m')
    else if s = "yes".toList ∨ s = "true".toList ∨ s = "on".toList then (.ok found (some true), m')
    else (.exc, m')

/-- Registry part of a numeric/integer read (`IpOptionsList.cpp:502-535`, `580-613`): `none` = exception,
otherwise the registered option if there is a registry. -/
def getCheck (env : Env) (tag : Str) (t : OType) : Option (Option RegOpt) :=
  match env.reg with
  | none => some none
  | some r =>
    match getOption r tag with
    | none => none
    | some o => if o.type = t then some (some o) else none

/-- `OptionsList::GetNumericValue` (`IpOptionsList.cpp:494-570`). -/
def getNumeric (env : Env) (m : Store) (tag pre : Str) : Got Num × Store :=
  match getCheck env tag .number with
  | none => (.exc, m)
  | some o =>
    match findTag m tag pre with
    | (some s, m') =>
      let (v, rest) := env.strtod (dToE s)
      if endOk rest then (.ok true (some v), m') else (.exc, m')
    | (none, m') => (.ok false (o.map (·.defaultNumber)), m')

/-- `static_cast<Index>` of the `size_t` holding the result of `strtol` (`IpOptionsList.cpp:619,626`). -/
def castIndex (env : Env) (v : Int) : Int := Int.bmod v (2 ^ env.idxBits)

/-- `OptionsList::GetIntegerValue` (`IpOptionsList.cpp:572-636`). -/
def getInteger (env : Env) (m : Store) (tag pre : Str) : Got Int × Store :=
  match getCheck env tag .integer with
  | none => (.exc, m)
  | some o =>
    match findTag m tag pre with
    | (some s, m') =>
      let (v, rest) := strtol s
      if endOk rest then (.ok true (some (castIndex env v)), m') else (.exc, m')
    | (none, m') => (.ok false (o.map (·.defaultInteger)), m')

/-- Outcome of a call that sets or reads. -/
inductive Out where
  | exc
  | bool (b : Bool)
  | str (r : Got Str)
  | num (r : Got Num)
  | int (r : Got Int)
  | enum (r : Got Nat)
  | boolv (r : Got Bool)
  | unit
  deriving DecidableEq

/-- One tag/value pair of an option file (`IpOptionsList.cpp:727-800`): outcome `false` = exception. -/
def setFromText (env : Env) (m : Store) (tag value : Str) (clob : Bool) : Bool × Store :=
  match env.reg with
  | none => setString env m tag value clob false
  | some r =>
    match getOption r tag with
    | none => (false, m)
    | some o =>
      match o.type with
      | .string => setString env m tag value clob false
      | .number =>
        let (v, rest) := env.strtod (dToE value)
        if endOk rest then setNumeric env m tag v clob false else (false, m)
      | .integer =>
        let (v, rest) := strtol value
        if endOk rest then setInteger env m tag (castIndex env v) clob false else (false, m)
      | .unknown => (true, m)

/-- `OptionsList::ReadFromStream` (`IpOptionsList.cpp:694-802`): `none` = exception, otherwise the return value. -/
def readFromStream (env : Env) (m : Store) (s : Str) (clob : Bool) : Option Bool × Store :=
  match h1 : Tok.readNextToken s with
  | none => (some true, m)
  | some (tag, r1) =>
    match h2 : Tok.readNextToken r1 with
    | none => (some false, m)
    | some (value, r2) =>
      match setFromText env m tag value clob with
      | (false, m') => (none, m')
      | (true, m') =>
        have := Tok.readNextToken_length _ _ _ h1
        have := Tok.readNextToken_length _ _ _ h2
        readFromStream env m' r2 clob
termination_by s.length

/-- The public calls. -/
inductive Op where
  | setString (tag value : Str) (clob dp : Bool)
  | setNumeric (tag : Str) (value : Num) (clob dp : Bool)
  | setInteger (tag : Str) (value : Int) (clob dp : Bool)
  | setStringIfUnset (tag value : Str) (clob dp : Bool)
  | setNumericIfUnset (tag : Str) (value : Num) (clob dp : Bool)
  | setIntegerIfUnset (tag : Str) (value : Int) (clob dp : Bool)
  | unset (tag : Str)
  | clear
  | read (file : Str) (clob : Bool)
  | getString (tag pre : Str)
  | getNumeric (tag pre : Str)
  | getInteger (tag pre : Str)
  | getEnum (tag pre : Str)
  | getBool (tag pre : Str)

/-- `Set...ValueIfUnset` (`IpOptionsList.cpp:307-353`): a read, and a set if nothing was found. -/
def ifUnset {α : Type} (g : Got α × Store) (set : Store → Bool × Store) : Out × Store :=
  match g with
  | (.exc, m') => (.exc, m')
  | (.ok true _, m') => (.bool true, m')
  | (.ok false _, m') => let r := set m'; (.bool r.1, r.2)

/-- One call. -/
def step (env : Env) (m : Store) : Op → Out × Store
  | .setString t v c d => let r := setString env m t v c d; (.bool r.1, r.2)
  | .setNumeric t v c d => let r := setNumeric env m t v c d; (.bool r.1, r.2)
  | .setInteger t v c d => let r := setInteger env m t v c d; (.bool r.1, r.2)
  | .setStringIfUnset t v c d => ifUnset (getString env m t []) (fun m' => setString env m' t v c d)
  | .setNumericIfUnset t v c d => ifUnset (getNumeric env m t []) (fun m' => setNumeric env m' t v c d)
  | .setIntegerIfUnset t v c d => ifUnset (getInteger env m t []) (fun m' => setInteger env m' t v c d)
  | .unset t => let r := unset env m t; (.bool r.1, r.2)
  | .clear => (.unit, [])
  | .read f c => match readFromStream env m f c with
    | (none, m') => (.exc, m')
    | (some b, m') => (.bool b, m')
  | .getString t p => let r := getString env m t p; (.str r.1, r.2)
  | .getNumeric t p => let r := getNumeric env m t p; (.num r.1, r.2)
  | .getInteger t p => let r := getInteger env m t p; (.int r.1, r.2)
  | .getEnum t p => let r := getEnum env m t p; (.enum r.1, r.2)
  | .getBool t p => let r := getBool env m t p; (.boolv r.1, r.2)

/-- A history of calls: final state. -/
def run (env : Env) (m : Store) (ops : List Op) : Store := ops.foldl (fun m o => (step env m o).2) m

end Verif.Opt
