/-
Model of options.go.
-/
import Verif.Model.Types

namespace Flate.Model

/-- options.go:10-19.  Tracers are represented by identifiers. -/
structure Options where
  format : Format := .default
  method : Method := .default
  strategy : Strategy := .default
  /-- -1 = DefaultCompression -/
  clevel : Int := -1
  /-- 0 = DefaultMemory -/
  mlevel : Nat := 0
  /-- 0 = DefaultWindowBits -/
  wbits : Nat := 0
  dict : Option (List UInt8) := none
  tracers : List Nat := []
  deriving DecidableEq, Repr

/-- options.go:8, 64-125: the functions which `With...` return -/
inductive Opt where
  | format (f : Format)
  | method (m : Method)
  | strategy (s : Strategy)
  | clevel (c : Int)
  | mlevel (m : Nat)
  | wbits (w : Nat)
  | dict (d : Option (List UInt8))
  | tracers (ts : List Nat)
  deriving DecidableEq, Repr

/-- the assertions of options.go:66-112 (the `IsValid` methods of the enums) -/
def Opt.valid : Opt → Bool
  | .format _ | .method _ | .strategy _ | .tracers _ => true
  | .clevel c => decide (-1 ≤ c ∧ c ≤ 9)
  | .mlevel m => decide (m ≤ 9)
  | .wbits w => decide (w = 0 ∨ (8 ≤ w ∧ w ≤ 15))
  | .dict none => true
  | .dict (some d) => !d.isEmpty

/-- options.go:68, 74, 80, 86, 92, 99, 111, 124 -/
def Opt.apply (o : Options) : Opt → Options
  | .format f => { o with format := f }
  | .method m => { o with method := m }
  | .strategy s => { o with strategy := s }
  | .clevel c => { o with clevel := c }
  | .mlevel m => { o with mlevel := m }
  | .wbits w => { o with wbits := w }
  | .dict d => { o with dict := d }
  | .tracers ts => { o with tracers := ts }

/-- options.go:34-38 -/
def Options.apply (o : Options) (opts : List Opt) : Options := opts.foldl Opt.apply o

/-- options.go:40-47 -/
def Options.readerDefaults (o : Options) : Options :=
  { o with mlevel := if o.mlevel = 0 then 9 else o.mlevel, wbits := if o.wbits = 0 then 15 else o.wbits }

/-- options.go:49-57 -/
def Options.writerDefaults (o : Options) : Options :=
  let o := o.readerDefaults
  { o with format := if o.format = .default then .zlib else o.format,
           clevel := if o.clevel = -1 then 6 else o.clevel }

end Flate.Model
