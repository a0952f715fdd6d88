/-
The texts of the errors which a Reader reports.
-/
import Verif.Model.Types

namespace Flate.Model.Msg
open Flate.Spec

/-- verb `%d` -/
def d (n : Nat) : String := toString n

/-- verb `%#0wx` (fmt/format.go of Go 1.16, fmtInteger): at least `w` hexadecimal digits, after `0x` -/
def x (w n : Nat) : String :=
  let ds := Nat.toDigits 16 n
  "0x" ++ String.ofList (List.replicate (w - ds.length) '0' ++ ds)

/-- The format strings of the calls of `corruptf`, reader.go:490, 496, 502, 518, 524, 530, 547, 565, 570, 595, 679, 700, 705, 743, 773, 820, 839, 853, 862,
911, 947, 978, 981, 998, 1008, 1025, 1030, 1065, 1077, 1098, 1114.  `lib` is the text of the error which huffman.Decoder.Init returned. -/
def problem (lib : String) : Problem → String
  | .zlibCheck v r => "invalid zlib header checksum -- expected " ++ x 4 v ++ " mod 31 == 0, got " ++ d r
  | .zlibMethod m => "invalid zlib compression method -- expected 0x8 (DEFLATE), got " ++ x 0 m
  | .zlibWindow b l => "zlib window size is too big -- data uses 2**" ++ d b ++ ", but this Reader is limited to 2**" ++ d l
  | .dictNeeded s => "zlib stream was compressed with a pre-set dictionary -- Adler-32 checksum of the dictionary required to decompress this stream is " ++ x 8 s
  | .dictOther s o => "zlib stream was compressed with a different pre-set dictionary -- Adler-32 checksum of the required dictionary is " ++ x 8 s ++
      ", checksum of the provided dictionary is " ++ x 8 o
  | .dictNeedless o => "zlib stream was not compressed with a pre-set dictionary -- Adler-32 checksum of the supplied dictionary is " ++ x 8 o
  | .zlibSum s c => "invalid zlib Adler-32 checksum -- footer value " ++ x 8 s ++ ", computed value " ++ x 8 c
  | .gzipMagic => "invalid gzip header identification bytes"
  | .gzipMethod m => "invalid gzip compression method " ++ x 2 m ++ " -- expected 0x08 (DEFLATE)"
  | .gzipFlags f => "invalid gzip flag bits " ++ x 2 f
  | .gzipHeaderSum s c => "invalid gzip header CRC-16 checksum -- header value " ++ x 4 s ++ ", computed value " ++ x 4 c
  | .gzipSum s c => "invalid gzip CRC-32 checksum -- footer value " ++ x 8 s ++ ", computed value " ++ x 8 c
  | .gzipLength s c => "invalid gzip decompressed length (mod 2**32) -- footer value " ++ d s ++ ", computed value " ++ d c
  | .reserved => "BTYPE 11 is reserved"
  | .storedLen l n w => "got LEN " ++ x 4 l ++ " NLEN " ++ x 4 n ++ ", expected NLEN " ++ x 4 w
  | .noLitLen => "degenerate literal/length Huffman code"
  | .noDist => "degenerate distance Huffman code"
  | .noCodeLen => "degenerate bootstrap Huffman code"
  | .badLitLen s => "invalid literal/length symbol " ++ d s
  | .badDist s => "invalid distance symbol " ++ d s
  | .tooFar dist size => "distance " ++ d dist ++ " > window.Size " ++ d size
  | .hlit n l => "HLIT " ++ d n ++ " > " ++ d l
  | .hdist n l => "HDIST " ++ d n ++ " > " ++ d l
  | .codeLenCode => "failed to initialize bootstrap Huffman decoder: " ++ lib
  | .litLenCode => "failed to initialize literal/length Huffman decoder: " ++ lib
  | .distCode => "failed to initialize distance Huffman decoder: " ++ lib
  | .repeatNothing => "attempt to repeat -1'st length"
  | .repeatMany c l => "attempt to repeat " ++ d c ++ " times but only " ++ d l ++ " codes remain"

/-- errors.go:16-18 `CorruptInputError.Error` -/
def corruptError (offStream : Nat) (p : String) : String := "corrupt input at/near byte offset " ++ d offStream ++ ": " ++ p

end Flate.Model.Msg
