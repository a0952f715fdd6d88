/-
Which fields of a Reader a goroutine may access, and how, at each place of Model/Conc.lean.

Fields which are always accessed together are treated as one.  A place stands for the code from there to the next operation on a mutex (where Model/Conc.lean treats code
after the release of mu2 as part of the same place, because mu1 is still held, so does this table).
-/
import Verif.Model.Conc

namespace Flate.Model.Conc
open Flate.Model.Rd

/-- the fields of a Reader which more than one goroutine accesses: reader.go:43-86 -/
inductive Field where
  /-- format, mlevel, wbits, dict, tracers -/
  | options
  /-- r -/
  | source
  /-- inputError, inputBuffer, window, inputBytesTotal, inputBytesStream, numStreams, inputBytesCRC32, ibBlock, ibLen, header, actualFormat, hLL, hD, hd0, hd1, hd2, tmp -/
  | input
  | decodeBuffer
  /-- outputBytesTotal, outputBytesStream, outputBytesCRC32, outputBytesAdler32 -/
  | sums
  | readThreadWasStarted
  | readThreadWasStopped
  | outputErrorWasSet
  | stopIsForced
  | outputError
  | outputBuffer
  deriving DecidableEq, Repr

inductive Mode where
  | read
  | write
  deriving DecidableEq, Repr

/-- what the goroutine accesses -/
def threadAccess : TPc → List (Field × Mode)
  /- reader.go:330-354 and everything called there but for decodeBufferMustFlush (1316-1347) and closeWithError (1377-1382) -/
  | .run => [(.options, .read), (.source, .read), (.input, .write), (.decodeBuffer, .write), (.sums, .write), (.stopIsForced, .read), (.outputErrorWasSet, .read), (.readThreadWasStopped, .write)]
  /- reader.go:1378, 1382 -/
  | .errHeld _ => [(.outputError, .write), (.outputErrorWasSet, .write)]
  /- reader.go:1319 -/
  | .fl2 _ => [(.outputBuffer, .read)]
  /- reader.go:1325-1330 -/
  | .fl4 _ => [(.stopIsForced, .read), (.decodeBuffer, .write)]
  /- reader.go:1330-1346, 1316 -/
  | .fl5 _ => [(.outputBuffer, .write), (.sums, .write), (.decodeBuffer, .write)]
  | _ => []

/-- what a caller accesses -/
def callerAccess : CPc → List (Field × Mode)
  /- reader.go:301-302 -/
  | .rd1 _ => [(.readThreadWasStarted, .write)]
  /- reader.go:263-277 -/
  | .rd3 _ | .rd4 _ => [(.outputError, .read), (.outputBuffer, .write)]
  /- reader.go:310 -/
  | .cl1 => [(.readThreadWasStarted, .read), (.readThreadWasStopped, .read)]
  /- reader.go:312-319 -/
  | .cl3 => [(.outputError, .write), (.outputBuffer, .write), (.outputErrorWasSet, .write), (.stopIsForced, .write)]
  /- reader.go:310, 207-253 -/
  | .rs2 _ => [(.readThreadWasStarted, .write), (.readThreadWasStopped, .write), (.source, .write), (.input, .write), (.outputErrorWasSet, .write), (.stopIsForced, .write),
      (.decodeBuffer, .write), (.outputError, .write), (.outputBuffer, .write), (.options, .write)]
  /- reader.go:140, 148, 156, 166-169, 178-181 -/
  | .gt1 => [(.options, .read)]
  /- reader.go:188 -/
  | .ur => [(.source, .read)]
  | _ => []

/-- what somebody accesses when he goes on -/
def St.accesses (s : St) : Who → List (Field × Mode)
  | .thread => threadAccess s.th
  | .client i => ((s.cls[i]?).map callerAccess).getD []

/-- who makes a step.  (A goroutine which has only wg.Done before it accesses no fields.) -/
def Lab.who : Lab → Option Who
  | .callRead i _ | .callClose i | .callReset i _ | .callGet i | .callUnder i | .client i => some (.client i)
  | .thread => some .thread
  | .done => none

/-- the parts of the state of Model/Conc.lean which stand for a field: `Put f g` says that `g` gives the field `f` some value -/
inductive Put : Field → (St → St) → Prop
  | started (b : Bool) : Put .readThreadWasStarted fun s => { s with started := b }
  | stopped (b : Bool) : Put .readThreadWasStopped fun s => { s with stopped := b }
  | errSet (b : Bool) : Put .outputErrorWasSet fun s => { s with errSet := b }
  | forced (b : Bool) : Put .stopIsForced fun s => { s with forced := b }
  | outErr (e : Option Err) : Put .outputError fun s => { s with outErr := e }
  | buf (p : List UInt8) : Put .outputBuffer fun s => { s with buf := p }
  /-- what remains to be done is determined by the input -/
  | acts (a : List Act) : Put .input fun s => { s with acts := a }

end Flate.Model.Conc
