/-
Model of the choice of a compression function: writer.go:126-139, 936-959 and 1213-1243.
-/
import Verif.Model.Writer

namespace Flate.Model

/-- writer.go:927-959: the compression functions -/
inductive CompressFn where
  | store
  | huff
  | rle
  | fast
  | slow
  deriving DecidableEq, Repr

/-- writer.go:1213-1228 -/
structure CompressConfig where
  good : Nat
  lazy : Nat
  nice : Nat
  chain : Nat
  fn : CompressFn
  deriving DecidableEq, Repr

/-- writer.go:1230-1243 -/
def compressConfigs : List CompressConfig := [
  ⟨0x0000, 0x0000, 0x0000, 0x0000, .rle⟩,
  ⟨0x0000, 0x0000, 0x0000, 0x0000, .huff⟩,
  ⟨0x0000, 0x0000, 0x0000, 0x0000, .store⟩,
  ⟨0x0004, 0x0004, 0x0008, 0x0004, .fast⟩,
  ⟨0x0004, 0x0005, 0x0010, 0x0008, .fast⟩,
  ⟨0x0004, 0x0006, 0x0020, 0x0020, .fast⟩,
  ⟨0x0004, 0x0004, 0x0010, 0x0010, .slow⟩,
  ⟨0x0008, 0x0010, 0x0020, 0x0020, .slow⟩,
  ⟨0x0008, 0x0010, 0x0080, 0x0080, .slow⟩,
  ⟨0x0008, 0x0020, 0x0080, 0x0100, .slow⟩,
  ⟨0x0020, 0x0080, 0x0102, 0x0400, .slow⟩,
  ⟨0x0020, 0x0102, 0x0102, 0x1000, .slow⟩]

/-- writer.go:126-139 `compressConfig`; `none` is the panic of an index out of range -/
def compressConfig (o : Options) : Option CompressConfig :=
  if o.clevel = 0 then compressConfigs[2]?
  else if o.strategy = .huffmanOnly then compressConfigs[1]?
  else if o.strategy = .huffmanRLE then compressConfigs[0]?
  else if o.clevel > 0 then compressConfigs[2 + o.clevel.toNat]?
  else compressConfigs[2 + 6]?

/-- writer.go:927-959: what the functions do.  Only `compressStore` and `compressSlow` have a body of their own; neither uses `good`, `lazy`, `nice` and `chain`. -/
def CompressFn.run (L : HuffLib) (consumeAll : Bool) : CompressFn → Go WState Bool
  | .store => compressStore consumeAll
  | .huff | .rle | .fast | .slow => compressSlow L consumeAll

/-- writer.go:91, 282, 470: `fw.cfg` is always `fw.compressConfig()`, and its function is called -/
def compressCall (L : HuffLib) (consumeAll : Bool) : Go WState Bool := fun s =>
  match compressConfig s.o with
  | none => .error .bounds
  | some cc => cc.fn.run L consumeAll s

end Flate.Model
