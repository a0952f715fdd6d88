/-
Model of the name tables of enum_*.go and of `SizeList.MarshalJSON` (huffman.go).
The functions of the library `enumhelper` are modelled by their contracts; strings are lists of characters.
-/
import Verif.Model.Types
import Verif.Model.Text

namespace Flate.Model.Enum
open Flate Flate.Model.Text

/-- a row of a table (`enumhelper.EnumData`): `json = []` means "not given" -/
structure Row where
  goName : List Char
  name : List Char
  aliases : List (List Char) := []
  json : List Char := []
  deriving DecidableEq

/-- what a character folds to: the ASCII letters which other characters fold to as well are k (KELVIN SIGN) and s (LATIN SMALL LETTER LONG S) -/
def fold (c : Char) : Char := if c = Char.ofNat 0x212A then 'k' else if c = Char.ofNat 0x017F then 's' else c.toLower

/-- contract of `strings.EqualFold(s, w)` for an ASCII string `w` -/
def sameFold (s w : List Char) : Bool := s.map fold == w.map fold

/-- does row `r` answer to the spelling `s`?  `goNames`: whether the library also looks at the names of the constants (the theorems hold either way) -/
def Row.answers (goNames : Bool) (s : List Char) (r : Row) : Bool :=
  sameFold s r.name || r.aliases.any (sameFold s) || (goNames && sameFold s r.goName)

/-- contract of `enumhelper.ParseEnum`: the index of the first row which answers, or an error (`none`) -/
def parseEnum (goNames : Bool) (data : List Row) (s : List Char) : Option Nat := data.findIdx? (·.answers goNames s)

/-- contract of `enumhelper.DereferenceEnumData` for a number within the table -/
def deref (data : List Row) (i : Nat) : Row := data.getD i ⟨[], [], [], []⟩

/-- contract of `enumhelper.MarshalEnumToJSON`: the JSON text given in the table, otherwise the name in quotes (no name needs escaping) -/
def marshal (data : List Row) (i : Nat) : List Char :=
  if (deref data i).json = [] then jsonQuote (deref data i).name else (deref data i).json

/-- enum_format.go:29-34 `formatData` -/
def formatData : List Row := [
  { goName := "DefaultFormat".toList, name := "auto".toList, aliases := ["default".toList] },
  { goName := "RawFormat".toList, name := "raw".toList },
  { goName := "ZlibFormat".toList, name := "zlib".toList },
  { goName := "GZIPFormat".toList, name := "gzip".toList }]

/-- enum_strategy.go:32-37 `strategyData` -/
def strategyData : List Row := [
  { goName := "DefaultStrategy".toList, name := strDefault },
  { goName := "HuffmanOnlyStrategy".toList, name := "huffman-only".toList },
  { goName := "HuffmanRLEStrategy".toList, name := "huffman-rle".toList },
  { goName := "FixedStrategy".toList, name := "fixed".toList }]

/-- enum_blocktype.go:28-33 `blockTypeData` -/
def blockTypeData : List Row := [
  { goName := "InvalidBlock".toList, name := "invalid".toList },
  { goName := "StoredBlock".toList, name := "stored".toList },
  { goName := "StaticBlock".toList, name := "static".toList },
  { goName := "DynamicBlock".toList, name := "dynamic".toList }]

/-- enum_datatype.go:25-29 `dataTypeData` -/
def dataTypeData : List Row := [
  { goName := "UnknownData".toList, name := "unknown".toList },
  { goName := "BinaryData".toList, name := "binary".toList },
  { goName := "TextData".toList, name := "text".toList }]

/-- enum_flushtype.go:60-66 `flushTypeData` -/
def flushTypeData : List Row := [
  { goName := "BlockFlush".toList, name := "block".toList },
  { goName := "PartialFlush".toList, name := "partial".toList },
  { goName := "SyncFlush".toList, name := "sync".toList },
  { goName := "FullFlush".toList, name := "full".toList },
  { goName := "FinishFlush".toList, name := "finish".toList }]

/-- enum_method.go:24-26 `methodData` -/
def methodData : List Row := [{ goName := "DeflateMethod".toList, name := "deflate".toList }]

/-- enum_eventtype.go:41-49 `eventTypeData` -/
def eventTypeData : List Row := [
  { goName := "StreamBeginEvent".toList, name := "stream-begin".toList },
  { goName := "StreamHeaderEvent".toList, name := "stream-header".toList },
  { goName := "BlockBeginEvent".toList, name := "block-begin".toList },
  { goName := "BlockTreesEvent".toList, name := "block-trees".toList },
  { goName := "BlockEndEvent".toList, name := "block-end".toList },
  { goName := "StreamEndEvent".toList, name := "stream-end".toList },
  { goName := "StreamCloseEvent".toList, name := "stream-close".toList }]

/-- enum_ostype.go:69-145 `osTypeData` -/
def osTypeData : List Row := [
  { goName := "OSTypeUnknown".toList, name := "unknown".toList, json := "\"OSTypeUnknown\"".toList },
  { goName := "OSTypeFAT".toList, name := "FAT filesystem".toList, json := "\"OSTypeFAT\"".toList },
  { goName := "OSTypeAmiga".toList, name := "Amiga".toList, json := "\"OSTypeAmiga\"".toList },
  { goName := "OSTypeVMS".toList, name := "VMS".toList, json := "\"OSTypeVMS\"".toList },
  { goName := "OSTypeUnix".toList, name := "Unix".toList, json := "\"OSTypeUnix\"".toList },
  { goName := "OSTypeVMCMS".toList, name := "VM/CMS".toList, json := "\"OSTypeVMCMS\"".toList },
  { goName := "OSTypeAtariTOS".toList, name := "Atari TOS".toList, json := "\"OSTypeAtariTOS\"".toList },
  { goName := "OSTypeHPFS".toList, name := "HPFS filesystem".toList, json := "\"OSTypeHPFS\"".toList },
  { goName := "OSTypeMacintosh".toList, name := "Macintosh".toList, json := "\"OSTypeMacintosh\"".toList },
  { goName := "OSTypeZSystem".toList, name := "Z-System".toList, json := "\"OSTypeZSystem\"".toList },
  { goName := "OSTypeCPM".toList, name := "CP/M".toList, json := "\"OSTypeCPM\"".toList },
  { goName := "OSTypeTOPS20".toList, name := "TOPS-20".toList, json := "\"OSTypeTOPS20\"".toList },
  { goName := "OSTypeNTFS".toList, name := "NTFS filesystem".toList, json := "\"OSTypeNTFS\"".toList },
  { goName := "OSTypeQDOS".toList, name := "QDOS".toList, json := "\"OSTypeQDOS\"".toList },
  { goName := "OSTypeAcornRISCOS".toList, name := "Acorn RISCOS".toList, json := "\"OSTypeAcornRISCOS\"".toList }]

/-- the number of a constant (iota): enum_format.go:14-27 -/
def Format.num : Format → Nat
  | .default => 0 | .raw => 1 | .zlib => 2 | .gzip => 3

/-- enum_strategy.go:13-30 -/
def Strategy.num : Strategy → Nat
  | .default => 0 | .huffmanOnly => 1 | .huffmanRLE => 2 | .fixed => 3

/-- the constant with a number (the conversion `Format(value)`) -/
def Format.ofNum : Nat → Option Format
  | 0 => some .default | 1 => some .raw | 2 => some .zlib | 3 => some .gzip | _ => none

/-- the conversion `Strategy(value)` -/
def Strategy.ofNum : Nat → Option Strategy
  | 0 => some .default | 1 => some .huffmanOnly | 2 => some .huffmanRLE | 3 => some .fixed | _ => none

/-- enum_format.go:47-49 `Format.String` -/
def formatString (f : Format) : List Char := (deref formatData (Format.num f)).name

/-- enum_format.go:57-61 `Format.Parse`: the value stored if there is no error -/
def formatParse (goNames : Bool) (s : List Char) : Option Format := (parseEnum goNames formatData s).bind Format.ofNum

/-- enum_strategy.go:50-52 `Strategy.String` -/
def strategyString (f : Strategy) : List Char := (deref strategyData (Strategy.num f)).name

/-- enum_strategy.go:60-64 `Strategy.Parse` -/
def strategyParse (goNames : Bool) (s : List Char) : Option Strategy := (parseEnum goNames strategyData s).bind Strategy.ofNum

/-- contract of `json.Marshal` for a slice of unsigned numbers which is not nil -/
def jsonNums : List Nat → List Char
  | [] => ['[', ']']
  | a :: l => '[' :: (fmtDec a ++ (l.flatMap fun b => ',' :: fmtDec b) ++ [']'])

/-- huffman.go:74-84 `SizeList.MarshalJSON`: `none` is a nil list -/
def sizeListMarshal : Option (List UInt8) → List Char
  | none => "null".toList
  | some l => jsonNums (l.map (·.toNat))

end Flate.Model.Enum
