/-
Basic data types of the package.
-/
import Verif.Base
import Verif.Spec.Huffman
import Verif.Spec.Problem

namespace Flate.Model

/-- enum_format.go:14-27 -/
inductive Format where
  | default | raw | zlib | gzip
  deriving DecidableEq, Repr

/-- enum_strategy.go:14-30 -/
inductive Strategy where
  | default | huffmanOnly | huffmanRLE | fixed
  deriving DecidableEq, Repr

/-- enum_method.go: the only method besides "default" is DEFLATE -/
inductive Method where
  | default | deflate
  deriving DecidableEq, Repr

/-- enum_blocktype.go:12-26 -/
inductive BlockType where
  | invalid | stored | static | dynamic
  deriving DecidableEq, Repr

/-- enum_datatype.go:14-25 -/
inductive DataType where
  | unknown | binary | text
  deriving DecidableEq, Repr

/-- enum_flushtype.go:12-57 -/
inductive FlushType where
  | blockFlush | partialFlush | syncFlush | fullFlush | finishFlush
  deriving DecidableEq, Repr

/-- header.go:27-30 `ExtraDataRecord` -/
structure ExtraRec where
  id0 : UInt8
  id1 : UInt8
  bytes : List UInt8
  deriving DecidableEq, Repr

/-- header.go:10-19 `Header`.  Strings are byte lists.  `lastModified` is `none` when `IsZero()`,
otherwise the value of `.Unix()` (sub-second parts are never looked at).  `osType` is the numeric value of
the enum (0 = unknown, ..., 14; enum_ostype.go:13-70).  `compressLevel` -1 is DefaultCompression. -/
structure Header where
  fileName : List UInt8 := []
  comment : List UInt8 := []
  lastModified : Option Int := none
  dataType : DataType := .unknown
  osType : Nat := 0
  extra : List ExtraRec := []
  windowBits : Nat := 0
  compressLevel : Int := 0
  deriving DecidableEq, Repr

/-- trace.go:40-48 `TreesEvent` -/
structure Trees where
  codeCount : Nat := 0
  llCount : Nat := 0
  dCount : Nat := 0
  codeSizes : List Nat := []
  ll : List Nat := []
  d : List Nat := []
  deriving DecidableEq, Repr

/-- the type-specific part of an event, trace.go:18-54 -/
inductive EvKind where
  | streamBegin
  | streamHeader (h : Header)
  | blockBegin (t : BlockType) (final : Bool)
  | blockTrees (t : BlockType) (final : Bool) (trees : Trees)
  | blockEnd (t : BlockType) (final : Bool)
  | streamEnd (adler crc : BitVec 32)
  | streamClose
  deriving DecidableEq, Repr

/-- trace.go:18-31 `Event` -/
structure Event where
  kind : EvKind
  inTotal : Nat
  inStream : Nat
  outTotal : Nat
  outStream : Nat
  numStreams : Nat
  format : Format
  deriving DecidableEq, Repr

/-- Errors.  `corrupt` is errors.go:9-13 `CorruptInputError`, with the arguments from which its text is made (Model/Message.lean); `io n` is an error of the underlying reader or writer. -/
inductive Err where
  | eof
  | unexpectedEOF
  | canceled
  | closed
  | corrupt (offTotal offStream : Nat) (problem : Spec.Problem)
  | io (n : Nat)
  deriving DecidableEq, Repr

end Flate.Model
