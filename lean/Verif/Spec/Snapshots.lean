/-
What the accessor methods of Writers and Readers report (C78): a specification without shared memory.

Every array a program obtains is a separate one, an option has the value its argument had when it was made, and a Writer or Reader is described by the list of all options it was ever given.
-/
import Verif.Model.Options

namespace Flate.Spec.Snap
open Flate.Model

/-- the accessors of Writer (writer.go:142-220) and Reader (reader.go:138-190) -/
inductive Query where
  | format | method | strategy | clevel | mlevel | wbits | dict | tracers | underlying
  deriving DecidableEq, Repr

/-- what a program may do.  Arrays, options and objects are named by their number, in the order in which the program obtained them. -/
inductive Act where
  /-- makes a new array of bytes, or of tracers -/
  | makeBytes (b : List UInt8)
  | makeTracers (t : List Nat)
  /-- writes to an element of one of its arrays -/
  | pokeByte (i pos : Nat) (b : UInt8)
  | pokeTracer (i pos : Nat) (t : Nat)
  /-- looks at one of its arrays -/
  | lookBytes (i : Nat)
  | lookTracers (i : Nat)
  /-- WithDictionary(nil), WithDictionary(array i), WithTracers(), WithTracers(array i...) -/
  | withDict (i : Option Nat)
  | withTracers (i : Option Nat)
  /-- WithFormat(f), ... -/
  | withFormat (f : Format)
  | withMethod (m : Method)
  | withStrategy (s : Strategy)
  | withLevel (c : Int)
  | withMemory (m : Nat)
  | withWindow (w : Nat)
  /-- NewWriter, NewReader, Reset; `w` is the underlying Writer or Reader -/
  | newWriter (w : Nat) (opts : List Nat)
  | newReader (w : Nat) (opts : List Nat)
  | reset (x : Nat) (w : Nat) (opts : List Nat)
  | ask (x : Nat) (q : Query)

/-- what it gets to see -/
inductive Seen where
  | done
  /-- an assertion failed -/
  | refused
  /-- there is no such array, option, object or method -/
  | nothing
  | bytes (b : List UInt8)
  | tracers (t : List Nat)
  | format (f : Format)
  | method (m : Method)
  | strategy (s : Strategy)
  | level (c : Int)
  | memory (m : Nat)
  | window (w : Nat)
  | dict (d : Option (List UInt8))
  | underlying (w : Nat)
  deriving DecidableEq, Repr

/-- a Writer or Reader: all options it was given so far -/
structure Obj where
  writer : Bool
  given : List Opt
  under : Nat

structure World where
  bytes : List (List UInt8) := []
  tracers : List (List Nat) := []
  opts : List Opt := []
  objs : List Obj := []

/-- the last one counts -/
def last {α : Type} (f : Opt → Option α) (d : α) (given : List Opt) : α := ((given.filterMap f).getLast?).getD d

def fmt (x : Obj) : Format :=
  match last (fun | .format f => some f | _ => none) .default x.given with
  | .default => if x.writer then .zlib else .default
  | f => f

def level (x : Obj) : Int :=
  match last (fun | .clevel c => some c | _ => none) (-1) x.given with
  | -1 => 6
  | c => c

def memory (x : Obj) : Nat :=
  match last (fun | .mlevel m => some m | _ => none) 0 x.given with
  | 0 => 9
  | m => m

def window (x : Obj) : Nat :=
  match last (fun | .wbits w => some w | _ => none) 0 x.given with
  | 0 => 15
  | w => w

def dictOf (x : Obj) : Option (List UInt8) := last (fun | .dict d => some d | _ => none) none x.given

def tracersOf (x : Obj) : List Nat := last (fun | .tracers t => some t | _ => none) [] x.given

/-- options.go:60-112 -/
def World.option (w : World) (o : Opt) : Seen × World :=
  if o.valid then (.done, { w with opts := w.opts ++ [o] }) else (.refused, w)

def World.answer (w : World) (x : Obj) : Query → Seen × World
  | .format => (.format (fmt x), w)
  | .method => if x.writer then (.method (last (fun | .method m => some m | _ => none) .default x.given), w) else (.nothing, w)
  | .strategy => if x.writer then (.strategy (last (fun | .strategy s => some s | _ => none) .default x.given), w) else (.nothing, w)
  | .clevel => if x.writer then (.level (level x), w) else (.nothing, w)
  | .mlevel => (.memory (memory x), w)
  | .wbits => (.window (window x), w)
  | .dict => match dictOf x with
    | none => (.dict none, w)
    | some d => (.dict (some d), { w with bytes := w.bytes ++ [d] })
  | .tracers => (.tracers (tracersOf x), { w with tracers := w.tracers ++ [tracersOf x] })
  | .underlying => (.underlying x.under, w)

def World.step (w : World) : Act → Seen × World
  | .makeBytes b => (.done, { w with bytes := w.bytes ++ [b] })
  | .makeTracers t => (.done, { w with tracers := w.tracers ++ [t] })
  | .pokeByte i pos b => (.done, { w with bytes := w.bytes.modify i (·.set pos b) })
  | .pokeTracer i pos t => (.done, { w with tracers := w.tracers.modify i (·.set pos t) })
  | .lookBytes i => match w.bytes[i]? with
    | none => (.nothing, w)
    | some b => (.bytes b, w)
  | .lookTracers i => match w.tracers[i]? with
    | none => (.nothing, w)
    | some t => (.tracers t, w)
  | .withDict none => w.option (.dict none)
  | .withDict (some i) => match w.bytes[i]? with
    | none => (.nothing, w)
    | some b => w.option (.dict (some b))
  | .withTracers none => w.option (.tracers [])
  | .withTracers (some i) => match w.tracers[i]? with
    | none => (.nothing, w)
    | some t => w.option (.tracers t)
  | .withFormat f => w.option (.format f)
  | .withMethod m => w.option (.method m)
  | .withStrategy s => w.option (.strategy s)
  | .withLevel c => w.option (.clevel c)
  | .withMemory m => w.option (.mlevel m)
  | .withWindow n => w.option (.wbits n)
  | .newWriter u is => (.done, { w with objs := w.objs ++ [⟨true, is.filterMap (w.opts[·]?), u⟩] })
  | .newReader u is => (.done, { w with objs := w.objs ++ [⟨false, is.filterMap (w.opts[·]?), u⟩] })
  | .reset x u is => (.done, { w with objs := w.objs.modify x fun o => { o with given := o.given ++ is.filterMap (w.opts[·]?), under := u } })
  | .ask x q => match w.objs[x]? with
    | none => (.nothing, w)
    | some o => w.answer o q

def World.run (w : World) : List Act → List Seen
  | [] => []
  | a :: as => (w.step a).1 :: (w.step a).2.run as

end Flate.Spec.Snap
