/-
Model of the accessors of Writer and Reader, and of the memory which options, Writers, Readers and their users share.

Slices are references to arrays on a heap.  `WithDictionary` and `WithTracers` copy their argument, NewWriter, NewReader and Reset pass references on, `Dict()` and `Tracers()` copy again.

Simplifications: a reference stands for a whole array (no subslices).  Only the fields with options and the underlying Writer or Reader are modelled here; that Reset panics in the middle of a stream is left out.
-/
import Verif.Spec.Snapshots

namespace Flate.Model.Share
open Flate.Spec.Snap (Query Act Seen)
open Flate.Model

/-- an Option, as a closure (options.go:8, 60-125): those of WithDictionary and WithTracers hold a slice -/
inductive OptV where
  | format (f : Format)
  | method (m : Method)
  | strategy (s : Strategy)
  | clevel (c : Int)
  | mlevel (m : Nat)
  | wbits (w : Nat)
  | dict (d : Option Nat)
  | tracers (ts : Option Nat)

/-- options.go:10-19, writer.go:38-45, reader.go:32-36; `none` is a nil slice -/
structure Fields where
  format : Format := .default
  method : Method := .default
  strategy : Strategy := .default
  clevel : Int := -1
  mlevel : Nat := 0
  wbits : Nat := 0
  dict : Option Nat := none
  tracers : Option Nat := none

structure Obj where
  writer : Bool
  f : Fields
  under : Nat

structure St where
  /-- all arrays there are -/
  heapB : List (List UInt8) := []
  heapT : List (List Nat) := []
  /-- the references which the program holds -/
  bytes : List Nat := []
  tracers : List Nat := []
  opts : List OptV := []
  objs : List Obj := []

/-- options.go:63, 69, 75, 81, 87, 94, 107, 124 -/
def OptV.apply (o : Fields) : OptV → Fields
  | .format f => { o with format := f }
  | .method m => { o with method := m }
  | .strategy s => { o with strategy := s }
  | .clevel c => { o with clevel := c }
  | .mlevel m => { o with mlevel := m }
  | .wbits w => { o with wbits := w }
  | .dict d => { o with dict := d }
  | .tracers ts => { o with tracers := ts }

/-- options.go:34-38 -/
def Fields.apply (o : Fields) (opts : List OptV) : Fields := opts.foldl OptV.apply o

/-- options.go:40-47 -/
def Fields.readerDefaults (o : Fields) : Fields :=
  { o with mlevel := if o.mlevel = 0 then 9 else o.mlevel, wbits := if o.wbits = 0 then 15 else o.wbits }

/-- options.go:49-57 -/
def Fields.writerDefaults (o : Fields) : Fields :=
  let o := o.readerDefaults
  { o with format := if o.format = .default then .zlib else o.format, clevel := if o.clevel = -1 then 6 else o.clevel }

/-- `make` and `copy`: a new array with the contents of another one -/
def St.copyB (s : St) (r : Nat) : Nat × St := (s.heapB.length, { s with heapB := s.heapB ++ [s.heapB.getD r []] })
def St.copyT (s : St) (r : Nat) : Nat × St := (s.heapT.length, { s with heapT := s.heapT ++ [s.heapT.getD r []] })

/-- the program gets an option -/
def St.give (s : St) (o : OptV) : Seen × St := (.done, { s with opts := s.opts ++ [o] })

/-- options.go:100-108 -/
def St.withDictionary (s : St) : Option Nat → Seen × St
  | none => s.give (.dict none)
  | some r =>
    if (s.heapB.getD r []).length = 0 then (.refused, s) else
    let (t, s) := s.copyB r
    s.give (.dict (some t))

/-- options.go:113-125 -/
def St.withTracers (s : St) : Option Nat → Seen × St
  | none => s.give (.tracers none)
  | some r =>
    if (s.heapT.getD r []).length = 0 then s.give (.tracers none) else
    let (t, s) := s.copyT r
    s.give (.tracers (some t))

/-- reader.go:163-173, writer.go:191-201; the program gets the reference -/
def St.getDict (s : St) (o : Obj) : Seen × St :=
  match o.f.dict with
  | none => (.dict none, s)
  | some r =>
    if (s.heapB.getD r []).length = 0 then (.dict none, s) else
    let (t, s) := s.copyB r
    (.dict (some (s.heapB.getD t [])), { s with bytes := s.bytes ++ [t] })

/-- reader.go:175-185, writer.go:203-213.  A nil slice is given to the program as a new array without elements, which cannot be told from it. -/
def St.getTracers (s : St) (o : Obj) : Seen × St :=
  match o.f.tracers with
  | none => (.tracers [], { s with heapT := s.heapT ++ [[]], tracers := s.tracers ++ [s.heapT.length] })
  | some r =>
    let (t, s) := s.copyT r
    (.tracers (s.heapT.getD t []), { s with tracers := s.tracers ++ [t] })

/-- the accessors, writer.go:142-220 and reader.go:138-190.  Reader has no Method, Strategy and CompressLevel. -/
def St.answer (s : St) (o : Obj) : Query → Seen × St
  | .format => (.format o.f.format, s)
  | .method => if o.writer then (.method o.f.method, s) else (.nothing, s)
  | .strategy => if o.writer then (.strategy o.f.strategy, s) else (.nothing, s)
  | .clevel => if o.writer then (.level o.f.clevel, s) else (.nothing, s)
  | .mlevel => (.memory o.f.mlevel, s)
  | .wbits => (.window o.f.wbits, s)
  | .dict => s.getDict o
  | .tracers => s.getTracers o
  | .underlying => (.underlying o.under, s)

/-- writer.go:70-94 -/
def newWriter (w : Nat) (opts : List OptV) : Obj := ⟨true, (({} : Fields).apply opts).writerDefaults, w⟩

/-- reader.go:91-119 -/
def newReader (r : Nat) (opts : List OptV) : Obj :=
  let o := (({} : Fields).apply opts).readerDefaults
  ⟨false, { format := o.format, mlevel := o.mlevel, wbits := o.wbits, dict := o.dict, tracers := o.tracers }, r⟩

/-- writer.go:236-269, reader.go:206-242: without options only the underlying Writer or Reader is changed -/
def Obj.reset (x : Obj) (w : Nat) (opts : List OptV) : Obj :=
  if opts.length = 0 then { x with under := w }
  else if x.writer then { x with f := (x.f.apply opts).writerDefaults, under := w }
  else
    let o := (({ format := x.f.format, mlevel := x.f.mlevel, wbits := x.f.wbits, dict := x.f.dict, tracers := x.f.tracers } : Fields).apply opts).readerDefaults
    { x with f := { format := o.format, mlevel := o.mlevel, wbits := o.wbits, dict := o.dict, tracers := o.tracers }, under := w }

/-- the assertions of options.go:62-93 -/
def St.plain (s : St) (ok : Bool) (o : OptV) : Seen × St := if ok then s.give o else (.refused, s)

def St.step (s : St) : Act → Seen × St
  | .makeBytes b => (.done, { s with heapB := s.heapB ++ [b], bytes := s.bytes ++ [s.heapB.length] })
  | .makeTracers t => (.done, { s with heapT := s.heapT ++ [t], tracers := s.tracers ++ [s.heapT.length] })
  | .pokeByte i pos b => match s.bytes[i]? with
    | none => (.done, s)
    | some r => (.done, { s with heapB := s.heapB.modify r (·.set pos b) })
  | .pokeTracer i pos t => match s.tracers[i]? with
    | none => (.done, s)
    | some r => (.done, { s with heapT := s.heapT.modify r (·.set pos t) })
  | .lookBytes i => match s.bytes[i]? with
    | none => (.nothing, s)
    | some r => (.bytes (s.heapB.getD r []), s)
  | .lookTracers i => match s.tracers[i]? with
    | none => (.nothing, s)
    | some r => (.tracers (s.heapT.getD r []), s)
  | .withDict none => s.withDictionary none
  | .withDict (some i) => match s.bytes[i]? with
    | none => (.nothing, s)
    | some r => s.withDictionary (some r)
  | .withTracers none => s.withTracers none
  | .withTracers (some i) => match s.tracers[i]? with
    | none => (.nothing, s)
    | some r => s.withTracers (some r)
  | .withFormat f => s.plain true (.format f)
  | .withMethod m => s.plain true (.method m)
  | .withStrategy x => s.plain true (.strategy x)
  | .withLevel c => s.plain (decide (-1 ≤ c ∧ c ≤ 9)) (.clevel c)
  | .withMemory m => s.plain (decide (m ≤ 9)) (.mlevel m)
  | .withWindow w => s.plain (decide (w = 0 ∨ (8 ≤ w ∧ w ≤ 15))) (.wbits w)
  | .newWriter w is => (.done, { s with objs := s.objs ++ [newWriter w (is.filterMap (s.opts[·]?))] })
  | .newReader r is => (.done, { s with objs := s.objs ++ [newReader r (is.filterMap (s.opts[·]?))] })
  | .reset x w is => (.done, { s with objs := s.objs.modify x (·.reset w (is.filterMap (s.opts[·]?))) })
  | .ask x q => match s.objs[x]? with
    | none => (.nothing, s)
    | some o => s.answer o q

def St.run (s : St) : List Act → List Seen
  | [] => []
  | a :: as => (s.step a).1 :: (s.step a).2.run as

end Flate.Model.Share
