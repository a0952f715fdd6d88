/-
The protocol of trace events (trace.go), as a grammar.
-/
import Verif.Model.Types

namespace Flate.Spec
open Flate.Model

/-- the events of one block: trees are announced exactly for the Huffman block types -/
inductive BlockTrace (final : Bool) : List EvKind → Prop
  | stored : BlockTrace final [.blockBegin .stored final, .blockEnd .stored final]
  | static (tr : Trees) :
      BlockTrace final [.blockBegin .static final, .blockTrees .static final tr, .blockEnd .static final]
  | dynamic (tr : Trees) :
      BlockTrace final [.blockBegin .dynamic final, .blockTrees .dynamic final tr, .blockEnd .dynamic final]

/-- the events of one complete stream: exactly its last block is marked final -/
inductive StreamTrace : List EvKind → Prop
  | mk (h : Header) (blocks : List (List EvKind)) (last : List EvKind) (adler crc : BitVec 32) :
      (∀ b ∈ blocks, BlockTrace false b) → BlockTrace true last →
      StreamTrace ([.streamBegin, .streamHeader h] ++ blocks.flatten ++ last ++ [.streamEnd adler crc, .streamClose])

/-- a prefix of a sequence of complete streams -/
def TracePrefix (ks : List EvKind) : Prop :=
  ∃ (streams : List (List EvKind)) (rest : List EvKind),
    (∀ st ∈ streams, StreamTrace st) ∧ ks ++ rest = streams.flatten

end Flate.Spec
