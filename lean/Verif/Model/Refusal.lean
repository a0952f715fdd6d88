/-
The errors of `SetHeader` and of the `Parse` methods.
-/
import Verif.Model.Writer
import Verif.Model.Text
import Verif.Spec.Refusal

namespace Flate.Model.Refusal
open Flate.Spec Flate.Model

/-- writer.go:310-324 `checkHeaderFileName` -/
def checkFileName (h : Header) (l : List HeaderProblem) : List HeaderProblem :=
  let l := if h.fileName.length ≥ 256 then l ++ [.nameLong] else l
  let l := if h.fileName.contains 0 then l ++ [.nameNul] else l
  let l := if h.fileName.contains 0x2f then l ++ [.nameSlash] else l
  if h.fileName.contains 0x5c then l ++ [.nameBackslash] else l

/-- writer.go:326-334 `checkHeaderComment` -/
def checkComment (h : Header) (l : List HeaderProblem) : List HeaderProblem :=
  let l := if h.comment.length ≥ 256 then l ++ [.commentLong] else l
  if h.comment.contains 0 then l ++ [.commentNul] else l

/-- writer.go:336-344 `checkHeaderLastModified` -/
def checkTime (h : Header) (l : List HeaderProblem) : List HeaderProblem := match h.lastModified with
  | none => l
  | some t => if t < 0 ∨ (0 ≤ t ∧ t ≥ 2 ^ 32 - 1) then l ++ [.time] else l

/-- writer.go:346-351 `checkHeaderOSType` -/
def checkOS (h : Header) (l : List HeaderProblem) : List HeaderProblem := if h.osType ≤ 14 then l else l ++ [.os]

/-- writer.go:354-358, the loop over the records from the one with this index -/
def checkRecords : Nat → List ExtraRec → List HeaderProblem → List HeaderProblem
  | _, [], l => l
  | i, r :: rs, l => checkRecords (i + 1) rs (if 4 + r.bytes.length > 65535 then l ++ [.record i (4 + r.bytes.length)] else l)

/-- writer.go:353-362 `checkHeaderExtraData` -/
def checkExtra (h : Header) (l : List HeaderProblem) : List HeaderProblem :=
  let l := checkRecords 0 h.extra l
  if (extraAsBytes h.extra).length > 65535 then l ++ [.extra (extraAsBytes h.extra).length] else l

/-- writer.go:288-294: `errlist` -/
def headerProblems (h : Header) : List HeaderProblem := checkExtra h (checkOS h (checkTime h (checkComment h (checkFileName h []))))

/-- errors as `SetHeader` returns them -/
inductive HeaderErr where
  | one (p : HeaderProblem)
  | multi (l : List HeaderProblem)
  deriving DecidableEq, Repr

/-- writer.go:286-308 `SetHeader`, with the error -/
def setHeader (h : Header) (s : WState) : Option HeaderErr × WState := match headerProblems h with
  | [] => (none, { s with header := h })
  | [p] => (some (.one p), s)
  | l => (some (.multi l), s)

/-- enum_clevel.go:62-84 `CompressLevel.Parse`, with the error -/
def clevelParse (s : List Char) : Option ParseProblem × Int :=
  if Text.equalFold s Text.strDefault then (none, -1)
  else if Text.equalFold s Text.strNone then (none, 0)
  else match Text.parseUint s 10 8 with
    | none => (some .number, -1)
    | some u => if u > 9 then (some (.range u), -1) else (none, u)

/-- enum_mlevel.go:56-73 `MemoryLevel.Parse`, with the error -/
def mlevelParse (s : List Char) : Option ParseProblem × Nat :=
  if Text.equalFold s Text.strDefault then (none, 0)
  else match Text.parseUint s 10 8 with
    | none => (some .number, 0)
    | some u => if u > 9 then (some (.range u), 0) else (none, u)

/-- enum_wbits.go:58-79 `WindowBits.Parse`, with the error -/
def wbitsParse (s : List Char) : Option ParseProblem × Nat :=
  if Text.equalFold s Text.strDefault then (none, 0)
  else match Text.parseUint s 10 8 with
    | none => (some .number, 0)
    | some u => if u < 8 then (some (.small u 8), 0) else if u > 15 then (some (.large u 15), 0) else (none, u)

end Flate.Model.Refusal
