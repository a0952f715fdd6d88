/-
Sizes of a Writer's output: which calls may end a block early.
-/
import Verif.Spec.Api

namespace Flate.Spec

/-- how many of the calls are `Flush` or `Close` -/
def flushes (ops : List WOp) : Nat := (ops.filter fun op => match op with | .flush _ => true | .close => true | _ => false).length

end Flate.Spec
