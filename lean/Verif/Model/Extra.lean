/-
Model of header.go's `ExtraData.Parse`.
-/
import Verif.Model.Token

namespace Flate.Model

/-- header.go:33-48, the loop.  `rest` is `raw[index:]` and `spare` the bytes between the length and the
capacity of `raw`: slicing a Go slice is checked against its capacity, not its length. -/
def parseExtraLoop (spare : List UInt8) : Nat → List UInt8 → Partial (List ExtraRec)
  | fuel + 1, a :: b :: l0 :: l1 :: rest =>
    let recLen := l0.toNat + 256 * l1.toNat
    if recLen ≤ rest.length + spare.length then
      let r : ExtraRec := ⟨a, b, (rest ++ spare).take recLen⟩
      if recLen ≤ rest.length then do
        let rs ← parseExtraLoop spare fuel (rest.drop recLen)
        pure (r :: rs)
      else pure [r]
    else .error .bounds
  | _, _ => pure []

/-- header.go:33-48 `Parse`; the number of iterations is at most the number of bytes -/
def parseExtra (raw spare : List UInt8) : Partial (List ExtraRec) := parseExtraLoop spare raw.length raw

end Flate.Model
