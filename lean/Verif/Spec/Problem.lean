/-
The problems which a decompressor may find in its input, with the numbers which describe them.
-/
namespace Flate.Spec

/-- What is wrong with an input.  The numbers are those which the message about the problem states. -/
inductive Problem where
  /-- the first two bytes of a zlib header, and the remainder modulo 31 -/
  | zlibCheck (value remainder : Nat)
  | zlibMethod (method : Nat)
  /-- binary logarithms of the window size of the stream, and of that of the decoder -/
  | zlibWindow (bits limit : Nat)
  /-- the Adler-32 checksum of the dictionary which the stream needs -/
  | dictNeeded (sum : Nat)
  /-- checksums of the dictionary which the stream needs, and of the one which was given -/
  | dictOther (sum own : Nat)
  /-- checksum of the dictionary which was given -/
  | dictNeedless (own : Nat)
  /-- Adler-32 checksum in the footer, and that of the data -/
  | zlibSum (stored computed : Nat)
  | gzipMagic
  | gzipMethod (method : Nat)
  | gzipFlags (flags : Nat)
  /-- CRC-16 in the header, and that of the header -/
  | gzipHeaderSum (stored computed : Nat)
  /-- CRC-32 in the footer, and that of the data -/
  | gzipSum (stored computed : Nat)
  /-- length in the footer, and that of the data, modulo 2^32 -/
  | gzipLength (stored computed : Nat)
  | reserved
  /-- LEN, NLEN, and what NLEN should be -/
  | storedLen (len nlen wanted : Nat)
  /-- no code word of the literal/length code, distance code, code length code -/
  | noLitLen
  | noDist
  | noCodeLen
  | badLitLen (symbol : Nat)
  | badDist (symbol : Nat)
  /-- the distance, and the size of the window -/
  | tooFar (distance size : Nat)
  | hlit (count limit : Nat)
  | hdist (count limit : Nat)
  | codeLenCode
  | litLenCode
  | distCode
  | repeatNothing
  /-- how many repetitions, and how many code lengths are still to come -/
  | repeatMany (count left : Nat)
  deriving DecidableEq, Repr

end Flate.Spec
