/-
What a sequence of successful calls of a Writer's methods amounts to: an abstract machine which knows
nothing about compression.
-/
import Verif.Model.Types
import Verif.Spec.Container

namespace Flate.Spec
open Flate.Model (FlushType Header DataType ExtraRec)

/-- the calls -/
inductive WOp where
  | write (p : List UInt8)
  | flush (t : FlushType)
  | setHeader (h : Header)
  | close

/-- The data of the streams completed so far, and of the one in progress, if any. -/
structure Segs where
  done : List (List UInt8) := []
  cur : Option (List UInt8) := none

/-- `Flush(FinishFlush)` and `Close` end the stream in progress; if there has been none at all, they
produce an empty one. -/
def Segs.finish (s : Segs) : Segs :=
  match s.cur with
  | some d => ⟨s.done ++ [d], none⟩
  | none => if s.done = [] then ⟨[[]], none⟩ else s

/-- effect of a successful call -/
def Segs.step (s : Segs) : WOp → Segs
  | .write p => if p = [] then s else { s with cur := some (s.cur.getD [] ++ p) }
  | .flush .finishFlush => s.finish
  | .flush _ => s
  | .setHeader _ => s
  | .close => s.finish

def segsOf (ops : List WOp) : Segs := ops.foldl Segs.step {}

/-- text as Writer's documentation of `DataType` has it: no control characters but TAB, LF, VT, FF, CR, and no DEL -/
def Textual (p : List UInt8) : Prop := ∀ b ∈ p, (32 ≤ b.toNat ∧ b.toNat ≠ 127) ∨ (9 ≤ b.toNat ∧ b.toNat ≤ 13)

instance (p : List UInt8) : Decidable (Textual p) := by unfold Textual; infer_instance

/-- What `SetHeader` accepts. -/
structure HeaderOK (h : Header) : Prop where
  name : h.fileName.length < 256
  nameChars : ∀ b ∈ h.fileName, b ≠ 0 ∧ b ≠ 0x2f ∧ b ≠ 0x5c
  comment : h.comment.length < 256
  commentChars : ∀ b ∈ h.comment, b ≠ 0
  time : ∀ t, h.lastModified = some t → 0 ≤ t ∧ t < 2 ^ 32 - 1
  os : h.osType ≤ 14
  recs : ∀ r ∈ h.extra, 4 + r.bytes.length ≤ 65535
  total : (h.extra.map fun r => 4 + r.bytes.length).sum ≤ 65535

/-- The header of a new stream: the one set by the caller (or left over from the stream before), with its
blanks filled in.  `first` is the beginning of the stream's data. -/
def newHeader (wbits : Nat) (clevel : Int) (h : Header) (first : List UInt8) : Header :=
  { h with
    dataType := if h.dataType = .unknown then (if Textual first then .text else .binary) else h.dataType
    osType := if h.osType = 0 then 4 else h.osType
    windowBits := wbits
    compressLevel := clevel }

/-- The same machine with headers. -/
structure Abs where
  hdr : Header := {}
  done : List (Header × List UInt8) := []
  cur : Option (Header × List UInt8) := none

/-- configuration of the abstract machine: window bits, level, and how much of the first `Write` of
a stream is looked at -/
structure AbsCfg where
  wbits : Nat
  clevel : Int
  look : Nat

def Abs.finish (c : AbsCfg) (a : Abs) : Abs :=
  match a.cur with
  | some x => { a with done := a.done ++ [x], cur := none }
  | none => if a.done = [] then
      { hdr := newHeader c.wbits c.clevel a.hdr [], done := [(newHeader c.wbits c.clevel a.hdr [], [])], cur := none }
    else a

/-- effect of a successful call; `acc` says whether a `SetHeader` accepted the header -/
noncomputable def Abs.step (c : AbsCfg) (a : Abs) : WOp → Abs
  | .write p =>
    if p = [] then a
    else match a.cur with
      | some (h, d) => { a with cur := some (h, d ++ p) }
      | none =>
        { a with
          hdr := newHeader c.wbits c.clevel a.hdr (p.take c.look)
          cur := some (newHeader c.wbits c.clevel a.hdr (p.take c.look), p) }
  | .flush .finishFlush => a.finish c
  | .flush _ => a
  | .setHeader h => open Classical in if HeaderOK h then { a with hdr := h } else a
  | .close => a.finish c

end Flate.Spec

namespace Flate.Spec
open Flate.Model (Header DataType ExtraRec)

/-- `GzOf h g`: the gzip member header `g` (RFC 1952) says what the `Header` `h` of this package says. -/
structure GzOf (h : Header) (g : GzHeader) : Prop where
  text : g.text = true ↔ h.dataType = .text
  mtime : (h.lastModified = none → g.mtime = 0) ∧ ∀ t, h.lastModified = some t → (g.mtime : Int) = t
  os : g.os.toNat = h.osType - 1
  extra : g.extra = if h.extra = [] then none else some (extraRecs (h.extra.map fun r => ((r.id0, r.id1), r.bytes)))
  name : g.name = if h.fileName = [] then none else some h.fileName
  comment : g.comment = if h.comment = [] then none else some h.comment

/-- The abstract machine's final state. -/
noncomputable def absOf (c : AbsCfg) (ops : List WOp) : Abs := ops.foldl (Abs.step c) {}

end Flate.Spec
