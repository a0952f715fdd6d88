/-
Model of what a Writer remembers of its callers' memory.

`Write` copies the bytes into the LZ77 buffer before it returns (writer.go:382, contract of buffer.LZ77Buffer.Write), `WithDictionary` copies the dictionary (options.go:100-108).
`SetHeader` assigns the Header (writer.go:297), which copies everything but the slices in `ExtraData` (header.go:22-30): the array of the records, and the array of the bytes of each.  The Writer
looks at these when it writes a header (writer.go:676-700).

Simplifications: a slice is a reference to a memory cell which holds its contents; the records and their bytes are in one cell.
-/
import Verif.Model.WriterApi

namespace Flate.Model.Alias
open Flate.Spec Flate.Model

abbrev Ref := Nat

/-- the callers' memory: slices of bytes, and slices of records -/
structure Mem where
  data : Ref → List UInt8
  recs : Ref → List ExtraRec

/-- what a caller does -/
inductive ACall where
  | write (p : Ref)
  | flush (t : FlushType)
  | close
  /-- `h.ExtraData.Records` is at `x`; `h.extra` is not used -/
  | setHeader (h : Header) (x : Ref)
  /-- the caller writes to its own memory -/
  | pokeData (p : Ref) (b : List UInt8)
  | pokeRecs (x : Ref) (r : List ExtraRec)

structure ASt where
  mem : Mem
  w : WState
  /-- the slice of records in `fw.header` (nil: none) -/
  ref : Option Ref := none

/-- the Writer, with `fw.header.ExtraData` as it is now -/
def ASt.look (s : ASt) : WState := match s.ref with
  | none => s.w
  | some x => { s.w with header := { s.w.header with extra := s.mem.recs x } }

/-- the method called, with the present contents of its arguments -/
def ACall.now (m : Mem) : ACall → Option WOp
  | .write p => some (.write (m.data p))
  | .flush t => some (.flush t)
  | .close => some .close
  | .setHeader h x => some (.setHeader { h with extra := m.recs x })
  | .pokeData _ _ => none
  | .pokeRecs _ _ => none

/-- the caller's memory afterwards -/
def ACall.poke (m : Mem) : ACall → Mem
  | .pokeData p b => { m with data := fun q => if q = p then b else m.data q }
  | .pokeRecs x r => { m with recs := fun q => if q = x then r else m.recs q }
  | _ => m

/-- the reference kept by the Writer afterwards; writer.go:295-298 -/
def ACall.keeps (m : Mem) (old : Option Ref) : ACall → Option Ref
  | .setHeader h x => if headerOK { h with extra := m.recs x } then some x else old
  | _ => old

def astep (L : HuffLib) (c : ACall) : Go ASt (Option WRes) := fun s =>
  match c.now s.mem with
  | none => .ok (none, { s with mem := c.poke s.mem })
  | some op => match stepOp L op s.look with
    | .error e => .error e
    | .ok (r, w) => .ok (some r, { s with w := w, ref := c.keeps s.mem s.ref })

/-- a history, and the results of the calls in it -/
def arun (L : HuffLib) : List ACall → Go ASt (List WRes)
  | [] => fun s => .ok ([], s)
  | c :: cs => fun s => match astep L c s with
    | .error e => .error e
    | .ok (r, s) => match arun L cs s with
      | .error e => .error e
      | .ok (rs, s) => .ok (r.toList ++ rs, s)

end Flate.Model.Alias
