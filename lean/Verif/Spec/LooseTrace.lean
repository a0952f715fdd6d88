/-
The protocol of the events of a Reader whose input may be corrupt.
-/
import Verif.Spec.Trace

namespace Flate.Spec
open Flate.Model

/-- the events of a block which was begun but not completed -/
inductive LooseBlock (f : Bool) : List EvKind → Prop
  | early (t : BlockType) : t ≠ .static → LooseBlock f [.blockBegin t f]
  | static (tr : Trees) : LooseBlock f [.blockBegin .static f, .blockTrees .static f tr]
  | dynamic (tr : Trees) : LooseBlock f [.blockBegin .dynamic f, .blockTrees .dynamic f tr]

/-- the events of the blocks of a stream, as far as they could be read -/
def LooseBlocks (ks : List EvKind) : Prop := ∃ (bs : List (List EvKind)) (last : List EvKind), (∀ b ∈ bs, BlockTrace false b) ∧ ks = bs.flatten ++ last ∧
  (BlockTrace true last ∨ last = [] ∨ ∃ f, LooseBlock f last)

/-- the events of a stream which was read to the end of its footer -/
def LooseClosed (ks : List EvKind) : Prop := ∃ (h : Header) (bks : List EvKind) (a c : BitVec 32), LooseBlocks bks ∧
  ks = [.streamBegin, .streamHeader h] ++ bks ++ [.streamEnd a c, .streamClose]

/-- the events of a stream which was not -/
def LooseOpen (ks : List EvKind) : Prop := ks = [] ∨ ks = [.streamBegin] ∨ ∃ (h : Header) (bks : List EvKind) (a c : BitVec 32), LooseBlocks bks ∧
  ks = [.streamBegin, .streamHeader h] ++ bks ++ [.streamEnd a c]

/-- the events of a run: streams read to the end, and perhaps one which was not -/
def LooseTrace (ks : List EvKind) : Prop := ∃ (streams : List (List EvKind)) (rest : List EvKind), (∀ st ∈ streams, LooseClosed st) ∧ LooseOpen rest ∧ ks = streams.flatten ++ rest

end Flate.Spec
