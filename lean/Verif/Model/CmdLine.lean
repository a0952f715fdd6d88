/-
Model of cmd/gzip/flags.go, and of how `getopt.Parse()` (cmd/gzip/main.go:55-98, 101) fills in the flags.

`getopt` itself is modelled by its contract: the command line is a sequence of settings, each of which is handed to the `Set` method of its flag, in order; when `Set` returns an error, or the
combination of options is refused (`SetGroup`), the program prints a message and exits with status 1.  How the words of the command line are divided into settings is not modelled.
-/
import Verif.Model.Gzip
import Verif.Model.Enum
import Verif.Model.Log
import Verif.Spec.Json

namespace Flate.Model.Gz
open Flate.Spec Flate.Model.Text Flate.Model.Enum

/-- cmd/gzip/main.go:55-98: an option on the command line with its value.  (Left out: --version, --verbose, --debug, --log-stderr, --force and --keep, which have no effect on what is
modelled, and the two profiles.) -/
inductive Setting where
  | format (s : List Char)
  | strategy (s : List Char)
  | clevel (s : List Char)
  | mlevel (s : List Char)
  | wbits (s : List Char)
  | lastModified (s : List Char)
  | dict (b : List UInt8)
  | fileName (b : List UInt8)
  | comment (b : List UInt8)
  | stdout (on : Bool)
  | decompress (on : Bool)
  | digit (n : Nat) (on : Bool)

/-- libraries -/
structure ClEnv where
  /-- whether `enumhelper.ParseEnum` also takes the names of the constants -/
  goNames : Bool
  /-- `time.Parse(time.RFC3339, s)`: seconds since 1970 -/
  timeParse : List Char → Option Int
  /-- whether getopt refuses the combination of options -/
  refuses : List Setting → Bool

/-- contract of `time.Parse`: it understands what RFC 3339 allows.  (It may take more, such as fractions of seconds.) -/
def ClEnv.Lawful (E : ClEnv) : Prop := ∀ s t, readTime s = some t → E.timeParse s = some t

/-- the result of a `Parse` method which returns nil or an error -/
def parsed {α : Type} (r : Bool × α) : Option α := if r.1 then some r.2 else none

/-- flags.go:123-130 `TimeFlag.Set`; the zero `time.Time` is "no time" -/
def timeSet (E : ClEnv) (s : List Char) : Option (Option Int) := (E.timeParse s).map fun t => if t = noTime then none else some t

/-- flags.go:133-135 `TimeFlag.String` (with the times which Model/Log.lean covers) -/
def timeString (Z : Log.LogEnv) (t : Option Int) : Option (List Char) := Log.stampText Z t

/-- flags.go:18-20, 39-41, 60-62, 81-83, 102-104, 123-130: the `Set` methods; strings and booleans are set by getopt -/
def Setting.apply (E : ClEnv) (f : Flags) : Setting → Option Flags
  | .format s => (formatParse E.goNames s).map fun v => { f with format := v }
  | .strategy s => (strategyParse E.goNames s).map fun v => { f with strategy := v }
  | .clevel s => (parsed (clevelParse s)).map fun v => { f with clevel := v }
  | .mlevel s => (parsed (mlevelParse s)).map fun v => { f with mlevel := v }
  | .wbits s => (parsed (wbitsParse s)).map fun v => { f with wbits := v }
  | .lastModified s => (timeSet E s).map fun v => { f with lastModified := v }
  | .dict b => some { f with dict := b }
  | .fileName b => some { f with fileName := b }
  | .comment b => some { f with comment := b }
  | .stdout on => some { f with stdout := on }
  | .decompress on => some { f with decompress := on }
  | .digit n on => some { f with digit := fun m => if m = n then on else f.digit m }

/-- the settings, one after the other -/
def applyAll (E : ClEnv) : Flags → List Setting → Option Flags
  | f, [] => some f
  | f, x :: xs => match x.apply E f with
    | none => none
    | some f => applyAll E f xs

/-- main.go:101 `getopt.Parse()`: the flags, or `none` for exit status 1 -/
def commandLine (E : ClEnv) (nargs : Nat) (xs : List Setting) : Option Flags :=
  if E.refuses xs then none else applyAll E { nargs := nargs } xs

end Flate.Model.Gz
