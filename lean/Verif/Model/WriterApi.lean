/-
Sequences of calls of a Writer's methods.
-/
import Verif.Model.Writer
import Verif.Spec.Api

namespace Flate.Model
open Flate.Spec

/-- what a call returns -/
inductive WRes where
  | write (n : Nat) (err : Option Err)
  | flush (err : Option Err)
  | header (ok : Bool)
  | close (err : Option Err)
  deriving DecidableEq

/-- the error returned by a Write, Flush or Close (SetHeader's is about its argument only) -/
def WRes.err : WRes → Option Err
  | .write _ e => e
  | .flush e => e
  | .header _ => none
  | .close e => e

/-- one call (writer.go:286-308, 366-449) -/
def stepOp (L : HuffLib) : WOp → Go WState WRes
  | .write p => fun s => match wWrite L p s with
    | .error e => .error e
    | .ok ((n, e), s) => .ok (.write n e, s)
  | .flush t => fun s => match wFlush L t s with
    | .error e => .error e
    | .ok (e, s) => .ok (.flush e, s)
  | .setHeader h => fun s => match wSetHeader h s with
    | .error e => .error e
    | .ok (b, s) => .ok (.header b, s)
  | .close => fun s => match wClose L s with
    | .error e => .error e
    | .ok (e, s) => .ok (.close e, s)

/-- a sequence of calls and their results -/
def runOps (L : HuffLib) : List WOp → Go WState (List WRes)
  | [] => fun s => .ok ([], s)
  | op :: ops => fun s => match stepOp L op s with
    | .error e => .error e
    | .ok (r, s) => match runOps L ops s with
      | .error e => .error e
      | .ok (rs, s) => .ok (r :: rs, s)

end Flate.Model
