import Verif.Model.Options

/-!
# Specification of the option list (C01, C02, C03, C05, C07)

Specification: an abstract *table* maps a lower-case option name to a text, a flag "may be overwritten" and a flag "hidden".
A write stores the text under the lower-cased name unless the entry there is protected; all other names are untouched.
-/

namespace Verif.Opt
open Text

/-- Abstract option table. -/
abbrev Table := Str → Option (Str × Bool × Bool)

/-- The entry for `tag` exists and must not be overwritten. -/
def Protected (t : Table) (tag : Str) : Prop := ∃ v d, t (lower tag) = some (v, false, d)

open Classical in
/-- Writing `text` for option `tag`. -/
noncomputable def Table.write (t : Table) (tag text : Str) (clob hide : Bool) : Table :=
  if Protected t tag then t else fun k => if k = lower tag then some (text, clob, hide) else t k

open Classical in
/-- Removing option `tag`. -/
noncomputable def Table.remove (t : Table) (tag : Str) : Table :=
  if Protected t tag then t else fun k => if k = lower tag then none else t k

/-- If there is a registry, the option must be registered with the given type and satisfy `P`. -/
def Admissible (env : Env) (tag : Str) (ty : OType) (P : RegOpt → Prop) : Prop :=
  ∀ r, env.reg = some r → ∃ o, getOption r tag = some o ∧ o.type = ty ∧ P o

/-- What a tag/value pair of an option file asks for. -/
inductive FileAction where
  | error
  | skip
  | write (text : Str)

open Classical in
/-- Meaning of a tag/value pair of an option file. -/
noncomputable def fileAction (env : Env) (tag value : Str) : FileAction :=
  match env.reg with
  | none => .write value
  | some r =>
    match getOption r tag with
    | none => .error
    | some o =>
      match o.type with
      | .string => if o.validString value then .write value else .error
      | .number =>
        if endOk (env.strtod (dToE value)).2 ∧ o.validNumber (env.strtod (dToE value)).1
        then .write (env.fmt (env.strtod (dToE value)).1) else .error
      | .integer =>
        if endOk (strtol value).2 ∧ o.validInteger (castIndex env (strtol value).1)
        then .write (intDec (castIndex env (strtol value).1)) else .error
      | .unknown => .skip

/-- Meaning of the token list of an option file: pairs are processed in order until the first error. -/
noncomputable def Table.readPairs (env : Env) (clob : Bool) (t : Table) : List Str → Table
  | tag :: value :: rest =>
    match fileAction env tag value with
    | .error => t
    | .skip => Table.readPairs env clob t rest
    | .write text => Table.readPairs env clob (t.write tag text clob false) rest
  | _ => t

open Classical in
/-- Effect of a call on the abstract table. -/
noncomputable def Table.step (env : Env) (t : Table) : Op → Table
  | .setString tag v c d => if Admissible env tag .string (fun o => o.validString v) then t.write tag v c d else t
  | .setNumeric tag v c d =>
    if Admissible env tag .number (fun o => o.validNumber v) then t.write tag (env.fmt v) c d else t
  | .setInteger tag v c d =>
    if Admissible env tag .integer (fun o => o.validInteger v) then t.write tag (intDec v) c d else t
  | .setStringIfUnset tag v c d =>
    if t (lower tag) = none ∧ Admissible env tag .string (fun o => o.validString v) then t.write tag v c d else t
  | .setNumericIfUnset tag v c d =>
    if t (lower tag) = none ∧ Admissible env tag .number (fun o => o.validNumber v) then t.write tag (env.fmt v) c d else t
  | .setIntegerIfUnset tag v c d =>
    if t (lower tag) = none ∧ Admissible env tag .integer (fun o => o.validInteger v) then t.write tag (intDec v) c d else t
  | .unset tag => t.remove tag
  | .clear => fun _ => none
  | .read f c => t.readPairs env c (Tok.tokens f)
  | _ => t

/-- The table after a history of calls on an empty option list. -/
noncomputable def tableAfter (env : Env) (ops : List Op) : Table := ops.foldl (Table.step env) (fun _ => none)

end Verif.Opt
