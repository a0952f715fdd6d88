/-
The bits which a block with stored data skips.
-/
import Verif.Spec.Deflate

namespace Flate.Spec

/-- If the block, found at bit position `pos` of the compressed data, is one with stored data (its second and third bit are zero), then the bits up to the next byte
boundary, which a decoder skips, are zero. -/
def PadZero (pos : Nat) (bits : List Bool) : Prop :=
  ∀ (f : Bool) (rest : List Bool), bits = f :: false :: false :: rest → ∀ x ∈ rest.take (padLen (pos + 3)), x = false

end Flate.Spec
