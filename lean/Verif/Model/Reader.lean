/-
Model of reader.go: the decompression performed by the background goroutine `readThread`.

The fields of `Reader` are grouped: `Inp` (reading compressed data), `Out` (delivering decompressed data), and the rest.
What happens to the fields protected by mu2 (outputBuffer, outputError) is recorded as a list of actions; the
concurrent view of these is modelled in Model/Conc.lean.  `uint64` counters are `Nat` (no stream reaches
2^64 bytes).
-/
import Verif.Model.Options
import Verif.Model.Checksum
import Verif.Model.Extra
import Verif.Model.Block
import Verif.Spec.Deflate

namespace Flate.Model.Rd
open Flate.Spec

/-! ### the outside world -/

/-- The underlying `io.Reader`, as seen through `inputBuffer.ReadFrom` (contract: it adds bytes to the empty
buffer and returns nil, or adds some bytes, perhaps none, and returns an error).  `full` are the results of the calls
which return nil, each at least one byte (first byte, others); then a call adds `last` and returns `err`.  The way
the bytes are cut in pieces is thus arbitrary. -/
structure Src where
  full : List (UInt8 × List UInt8)
  last : List UInt8
  err : Err

/-- all bytes which the source will deliver -/
def Src.bytes (s : Src) : List UInt8 := s.full.flatMap (fun c => c.1 :: c.2) ++ s.last

/-- reader.go:45-49: the parameters which a Reader keeps -/
structure ROptions where
  format : Format
  mlevel : Nat
  wbits : Nat
  dict : Option (List UInt8)
  tracers : List Nat
  deriving DecidableEq, Repr

/-- reader.go:99-105, 235-239 -/
def ROptions.take (o : Options) : ROptions := ⟨o.format, o.mlevel, o.wbits, o.dict, o.tracers⟩

/-- reader.go:94-105: the parameters which `NewReader` chooses -/
def ROptions.new (opts : List Opt) : ROptions := .take (({} : Options).apply opts).readerDefaults

/-- Parameters which do not change while the goroutine runs: the Huffman library, the word size `bitsPerBlock`, the
options; `stop n` says whether (and after how many bytes, see `mustFlush`) a concurrent `Close` takes effect during the n-th flush;
`clip n` is the length of the slice which the n-th `window.LookupSlice` returns at most. -/
structure Env where
  L : HuffLib
  W : Nat
  o : ROptions
  stop : Nat → Option Nat
  clip : Nat → Nat

/-! ### the Reader -/

/-- reader.go:51-53, 56-57, 61, 64-65 -/
structure Inp where
  src : Src
  inputError : Option Err := none
  buf : List UInt8 := []
  inTotal : Nat := 0
  inStream : Nat := 0
  crc : BitVec 32 := Crc.init
  ibBlock : Nat := 0
  ibLen : Nat := 0

/-- what the goroutine does to outputBuffer and outputError -/
inductive Act where
  /-- append to outputBuffer (in as many pieces as its free space requires) -/
  | data (p : List UInt8)
  /-- set outputError -/
  | err (e : Err)
  deriving DecidableEq

/-- reader.go:54-55, 58-59, 62-63, 68-69 -/
structure Out where
  decodeBuffer : List UInt8 := []
  window : List UInt8 := []
  outTotal : Nat := 0
  outStream : Nat := 0
  crc : BitVec 32 := Crc.init
  adler : BitVec 32 := Adler.init
  errorWasSet : Bool := false
  stopIsForced : Bool := false
  acts : List Act := []
  /-- number of flushes and lookups so far -/
  nFlush : Nat := 0
  nLook : Nat := 0

/-- reader.go:21-87.  `events` is what the tracers have been sent. -/
structure RState where
  inp : Inp
  out : Out := {}
  numStreams : Nat := 0
  header : Header := {}
  actualFormat : Format := .default
  events : List Event := []

/-! ### input -/

/-- reader.go:1148-1160 `inputBufferFill` -/
def fill (stopped : Bool) (i : Inp) : Inp :=
  if i.inputError.isSome then i
  else if stopped then { i with inputError := some .eof }
  else match i.src.full with
    | (b, bs) :: cs => { i with buf := i.buf ++ b :: bs, src := { i.src with full := cs } }
    | [] => { i with buf := i.buf ++ i.src.last, src := { i.src with last := [] }, inputError := some i.src.err }

/-- `if inputBuffer.IsEmpty() { inputBufferFill(); if inputBuffer.IsEmpty() { fail } }; inputBuffer.ReadByte()` -/
def popByte (stopped : Bool) (i : Inp) : Option UInt8 × Inp :=
  let i := if i.buf.isEmpty then fill stopped i else i
  match i.buf with
  | [] => (none, i)
  | b :: r => (some b, { i with buf := r })

/-- reader.go:1170-1180, the loop of `inputBufferRead` (which takes as many bytes as there are from the buffer
at a time; here one at a time) -/
def popBytes (stopped : Bool) : Nat → Inp → List UInt8 × Inp
  | 0, i => ([], i)
  | n + 1, i => match popByte stopped i with
    | (none, i) => ([], i)
    | (some b, i) => let (r, i) := popBytes stopped n i; (b :: r, i)

/-- reader.go:1182-1184 (and 1219-1221, 1248-1250): bookkeeping of consumed bytes -/
def countIn (p : List UInt8) (i : Inp) : Inp :=
  { i with inTotal := i.inTotal + p.length, inStream := i.inStream + p.length, crc := Crc.genericUpdate i.crc p }

/-- reader.go:1277-1280 `inputBitsDiscard` -/
def discard (i : Inp) : Inp := { i with ibBlock := 0, ibLen := 0 }

/-- reader.go:1162-1186 `inputBufferRead` of `n` bytes -/
def bufRead (stopped : Bool) (n : Nat) (i : Inp) : (List UInt8 × Bool) × Inp :=
  let i := discard i
  if n = 0 then (([], true), i)
  else
    let (p, i) := popBytes stopped n i
    ((p, p.length == n), countIn p i)

/-- reader.go:1210-1229, the loop of `inputBufferReadStringZ` -/
def stringZLoop (stopped : Bool) : Nat → List UInt8 → Inp → Except Panic ((List UInt8 × Bool) × Inp)
  | 0, _, _ => .error .fuel
  | fuel + 1, acc, i => match popByte stopped i with
    | (none, i) => .ok ((acc, false), i)
    | (some ch, i) =>
      let i := countIn [ch] i
      if ch = 0 then .ok ((acc, true), i) else stringZLoop stopped fuel (acc ++ [ch]) i

/-- number of bytes not yet consumed -/
def Inp.size (i : Inp) : Nat := i.buf.length + i.src.bytes.length

/-- reader.go:1206-1233 `inputBufferReadStringZ` -/
def readStringZ (stopped : Bool) : Go Inp (List UInt8 × Bool) := fun i => stringZLoop stopped (i.size + 1) [] i

/-- reader.go:1239-1254, the loop of `inputBitsFill` -/
def bitsFillLoop (W : Nat) (stopped : Bool) (atLeast : Nat) : Nat → Go Inp Bool
  | 0 => Go.panic .fuel
  | fuel + 1 => fun i =>
    if i.ibLen < atLeast then
      match popByte stopped i with
      | (none, i) => .ok (false, i)
      | (some ch, i) =>
        let i := countIn [ch] i
        bitsFillLoop W stopped atLeast fuel
          { i with ibBlock := i.ibBlock ||| ((ch.toNat <<< i.ibLen) % 2 ^ W), ibLen := i.ibLen + 8 }
    else .ok (true, i)

/-- reader.go:1235-1257 `inputBitsFill` -/
def bitsFill (W : Nat) (stopped : Bool) (atLeast : Nat) : Go Inp Bool := do
  Go.assert (atLeast ≤ W - 8) "atLeast > limit"
  bitsFillLoop W stopped atLeast (atLeast + 1)

/-- util.go:14-22 `makeMask` -/
def mask (W shift : Nat) : Nat := if shift = 0 then 0 else if shift ≥ W then 2 ^ W - 1 else 2 ^ shift - 1

/-- reader.go:1265-1268 `inputBitsPeek` -/
def bitsPeek (W n : Nat) : Go Inp Nat := fun i =>
  if n ≤ i.ibLen then .ok (i.ibBlock &&& mask W n, i) else .error (.assert "wantLen > ibLen")

/-- reader.go:1270-1275 `inputBitsCommit` -/
def bitsCommit (n : Nat) : Go Inp Unit := fun i =>
  if n ≤ i.ibLen then .ok ((), { i with ibBlock := i.ibBlock >>> n, ibLen := i.ibLen - n }) else .error (.assert "wantLen > ibLen")

/-- reader.go:1259-1263 `inputBitsRead` -/
def bitsRead (W n : Nat) : Go Inp Nat := do
  let out ← bitsPeek W n
  bitsCommit n
  pure out

/-- reader.go:1127-1144, the loop of `readSymbol` -/
def symbolLoop (L : HuffLib) (W : Nat) (stopped : Bool) (lens : List Nat) : Nat → Nat → Go Inp (Option Nat)
  | 0, _ => Go.panic .fuel
  | fuel + 1, numBits =>
    if numBits ≤ L.maxSize lens then do
      let ok ← bitsFill W stopped numBits
      if !ok then pure none
      else do
        let out ← bitsPeek W numBits
        match L.decode lens numBits out with
        | (some symbol, _, _) => do
          bitsCommit numBits
          pure (some symbol)
        | (none, newMin, newMax) => if newMax = 0 then pure none else symbolLoop L W stopped lens fuel newMin
    else pure none

/-- reader.go:1123-1146 `readSymbol` of a decoder initialised with `lens`.  (Successive values of `numBits` increase and
are at most `MaxSize`.) -/
def readSymbolInp (L : HuffLib) (W : Nat) (stopped : Bool) (lens : List Nat) : Go Inp (Option Nat) :=
  symbolLoop L W stopped lens (L.maxSize lens + 2) (L.minSize lens)

/-- an operation on the input fields -/
def onInp {α : Type} (f : Bool → Go Inp α) : Go RState α := fun s =>
  match f s.out.stopIsForced s.inp with
  | .ok (a, i) => .ok (a, { s with inp := i })
  | .error e => .error e

/-! ### output -/

/-- an operation on the output fields -/
def onOut {α : Type} (f : Out → α × Out) : Go RState α := fun s =>
  let (a, o) := f s.out
  .ok (a, { s with out := o })

/-- reader.go:1372-1383 `closeWithError` -/
def closeWithError (e : Err) : Go RState Unit := onOut fun o =>
  if o.errorWasSet then ((), o) else ((), { o with acts := o.acts ++ [.err e], errorWasSet := true })

/-- reader.go:1350-1360 `propagateError` -/
def propagateError (eofIsError : Bool) : Go RState Unit := fun s =>
  match s.inp.inputError with
  | none => .ok ((), s)
  | some e => closeWithError (if eofIsError && e == .eof then .unexpectedEOF else e) s

/-- reader.go:1362-1370 `corruptf`.  The message is represented by the arguments of `fmt.Sprintf`; its text is in Model/Message.lean -/
def corruptf (problem : Spec.Problem) : Go RState Unit := fun s =>
  closeWithError (.corrupt s.inp.inTotal s.inp.inStream problem) s

/-- reader.go:1339-1344: bookkeeping of bytes put in outputBuffer -/
def countOut (p : List UInt8) (o : Out) : Out :=
  { o with outTotal := o.outTotal + p.length, outStream := o.outStream + p.length,
           crc := Crc.genericUpdate o.crc p, adler := Adler.update o.adler p }

/-- reader.go:1309-1348 `decodeBufferMustFlush`.  The loop moves everything to outputBuffer, in pieces, unless Close
intervenes (reader.go:309-325) after the first `k` bytes. -/
def mustFlush (E : Env) (o : Out) : Out :=
  if o.stopIsForced then { o with decodeBuffer := [] }
  else
    let n := o.nFlush
    let o := { o with nFlush := n + 1 }
    if o.decodeBuffer.isEmpty then o
    else
      match E.stop n with
      | some k =>
        if k < o.decodeBuffer.length then
          let p := o.decodeBuffer.take k
          { countOut p o with acts := o.acts ++ [.data p], decodeBuffer := [], stopIsForced := true, errorWasSet := true }
        else { countOut o.decodeBuffer o with acts := o.acts ++ [.data o.decodeBuffer], decodeBuffer := [] }
      | none => { countOut o.decodeBuffer o with acts := o.acts ++ [.data o.decodeBuffer], decodeBuffer := [] }

/-- reader.go:125-127: capacity of decodeBuffer -/
def Env.cap (E : Env) : Nat := 2 ^ (E.o.mlevel + 6)

/-- reader.go:1303-1307 `decodeBufferTryFlush` -/
def tryFlush (E : Env) (o : Out) : Out := if o.decodeBuffer.length ≥ E.cap then mustFlush E o else o

/-- contract of `buffer.Window.Write`: the last `2^n` bytes are kept -/
def windowWrite (n : Nat) (w p : List UInt8) : List UInt8 := (w ++ p).drop ((w ++ p).length - 2 ^ n)

/-- reader.go:1283-1290 `decodeBufferWrite`: loop -/
def dbWriteLoop (E : Env) : Nat → List UInt8 → Out → Except Panic Out
  | 0, _, _ => .error .fuel
  | fuel + 1, p, o =>
    if p.length > 0 then
      let o := tryFlush E o
      let nn := min p.length (E.cap - o.decodeBuffer.length)
      dbWriteLoop E fuel (p.drop nn)
        { o with decodeBuffer := o.decodeBuffer ++ p.take nn, window := windowWrite E.o.wbits o.window (p.take nn) }
    else .ok o

/-- reader.go:1282-1292 `decodeBufferWrite` -/
def dbWrite (E : Env) (p : List UInt8) : Go RState Unit := fun s =>
  match dbWriteLoop E (p.length + 1) p s.out with
  | .ok o => .ok ((), { s with out := o })
  | .error e => .error e

/-- reader.go:1294-1301 `decodeBufferWriteByte` (the returned value is not used) -/
def dbWriteByte (E : Env) (ch : UInt8) : Go RState Unit := onOut fun o =>
  let o := tryFlush E o
  if o.decodeBuffer.length < E.cap then
    ((), { o with decodeBuffer := o.decodeBuffer ++ [ch], window := windowWrite E.o.wbits o.window [ch] })
  else ((), o)

/-- contract of `buffer.Window.LookupByte` -/
def lookupByte (w : List UInt8) (distance : Nat) : Option UInt8 :=
  if 1 ≤ distance ∧ distance ≤ w.length then some (w.getD (w.length - distance) 0) else none

/-- contract of `buffer.Window.LookupSlice`: up to `length` bytes starting `distance` back, perhaps fewer -/
def lookupSlice (w : List UInt8) (distance length clip : Nat) : Option (List UInt8) :=
  if 1 ≤ distance ∧ distance ≤ w.length then
    some ((w.drop (w.length - distance)).take (min length clip))
  else none

/-- reader.go:1385-1395 `sendEvent` -/
def sendEvent (k : EvKind) : Go RState Unit := Go.modify fun s =>
  { s with events := s.events ++ [{ kind := k, inTotal := s.inp.inTotal, inStream := s.inp.inStream, outTotal := s.out.outTotal, outStream := s.out.outStream, numStreams := s.numStreams, format := s.actualFormat }] }

/-! ### reading values, or failing -/

/-- `if !ok { fr.propagateError(true); return fail }` -/
def exhausted {α : Type} (fail : α) : Go RState α := do
  propagateError true
  pure fail

/-- `if ok := fr.inputBitsFill(n); !ok { propagateError(true); return fail }; out := fr.inputBitsRead(n)` -/
def needBits {α : Type} (E : Env) (fail : α) (n : Nat) (k : Nat → Go RState α) : Go RState α := do
  let ok ← onInp fun st => bitsFill E.W st n
  if !ok then exhausted fail
  else do
    let out ← onInp fun _ => bitsRead E.W n
    k out

/-- `p, ok := fr.inputBufferRead(make([]byte, n)); if !ok { propagateError(true); return fail }` -/
def needBytes {α : Type} (fail : α) (n : Nat) (k : List UInt8 → Go RState α) : Go RState α := do
  let (p, ok) ← onInp fun st i => .ok (bufRead st n i)
  if !ok then exhausted fail else k p

/-- reader.go:1123-1146 -/
def readSymbol (E : Env) (lens : List Nat) : Go RState (Option Nat) := onInp fun st => readSymbolInp E.L E.W st lens

/-- value of little-endian bytes -/
def leVal : List UInt8 → Nat
  | [] => 0
  | b :: r => b.toNat + 256 * leVal r

/-- value of big-endian bytes -/
def beVal (p : List UInt8) : Nat := leVal p.reverse

def fail (problem : Spec.Problem) : Go RState Bool := do
  corruptf problem
  pure false

def modHeader (f : Header → Header) : Go RState Unit := Go.modify fun s => { s with header := f s.header }

/-! ### headers -/

/-- reader.go:470-474 `readHeaderRaw` -/
def readHeaderRaw : Go RState Bool := fun s =>
  .ok (true, { s with actualFormat := .raw, header := { s.header with compressLevel := -1 } })

/-- reader.go:535-536 -/
def setZlib : Go RState Bool := fun s => .ok (true, { s with actualFormat := .zlib })

/-- reader.go:480-537 `readHeaderZlib`.  `window.IsZero()` (contract: nothing has been written to it) holds iff no
dictionary was given, since dictionaries are not empty. -/
def readHeaderZlib (E : Env) : Go RState Bool :=
  needBytes false 2 fun p => do
    let u16 := beVal p
    let p0 := (p.getD 0 0).toNat
    let p1 := (p.getD 1 0).toNat
    if u16 % 31 ≠ 0 then fail (.zlibCheck u16 (u16 % 31))
    else if p0 &&& 0x0f ≠ 8 then fail (.zlibMethod (p0 &&& 0x0f))
    else do
      modHeader fun h => { h with windowBits := 8 + (p0 >>> 4) }
      if 8 + (p0 >>> 4) > E.o.wbits then fail (.zlibWindow (8 + (p0 >>> 4)) E.o.wbits)
      else do
        modHeader fun h => { h with compressLevel := [(1 : Int), 2, -1, 9].getD (p1 >>> 6) (-1) }
        if p1 &&& 0x20 ≠ 0 then
          needBytes false 4 fun q =>
            match E.o.dict with
            | none => fail (.dictNeeded (beVal q))
            | some d =>
              if beVal q ≠ (Adler.checksum d).toNat then fail (.dictOther (beVal q) (Adler.checksum d).toNat)
              else setZlib
        else
          match E.o.dict with
          | some d => fail (.dictNeedless (Adler.checksum d).toNat)
          | none => setZlib

/-- reader.go:624-641 `readHeaderGZIPExtraData` -/
def gzExtraData (bit : Bool) : Go RState Bool :=
  if bit then
    needBytes false 2 fun p => needBytes false (leVal p) fun raw => do
      let recs ← Go.lift (parseExtra raw [])
      modHeader fun h => { h with extra := recs }
      pure true
  else pure true

/-- reader.go:643-667 `readHeaderGZIPFileName`, `readHeaderGZIPComment` -/
def gzStr (bit : Bool) (set : List UInt8 → Header → Header) : Go RState Bool :=
  if bit then do
    let (str, ok) ← onInp readStringZ
    if !ok then exhausted false
    else do
      modHeader (set str)
      pure true
  else pure true

/-- reader.go:669-684 `readHeaderGZIPCRC16` -/
def gzCRC16 (bit : Bool) (c32 : BitVec 32) : Go RState Bool :=
  if bit then
    needBytes false 2 fun p =>
      if c32.toNat % 65536 ≠ leVal p then fail (.gzipHeaderSum (leVal p) (c32.toNat % 65536)) else pure true
  else pure true

/-- reader.go:605-607: the current value of `inputBytesCRC32` is checked -/
def gzCRC (bit : Bool) : Go RState Bool := fun s => gzCRC16 bit s.inp.crc s

def setGzip : Go RState Bool := fun s => .ok (true, { s with actualFormat := .gzip })

/-- enum_ostype.go:138-153 `gzipOSTypeDecodeTable` -/
def osDecode (b : UInt8) : Nat := if b.toNat < 14 then b.toNat + 1 else 0

/-- reader.go:554-614 `readHeaderGZIP` -/
def readHeaderGZIP : Go RState Bool := do
  onInp fun _ i => .ok ((), { i with crc := Crc.init })
  needBytes false 10 fun p => do
    let p3 := (p.getD 3 0).toNat
    if p.getD 0 0 ≠ 0x1f ∨ p.getD 1 0 ≠ 0x8b then fail .gzipMagic
    else if p.getD 2 0 ≠ 8 then fail (.gzipMethod (p.getD 2 0).toNat)
    else do
      let mtime := leVal ((p.drop 4).take 4)
      modHeader fun h => { h with
        lastModified := if mtime ≠ 0 then some (mtime : Int) else h.lastModified
        compressLevel := if p.getD 8 0 = 2 then 9 else if p.getD 8 0 = 4 then 1 else -1
        osType := osDecode (p.getD 9 0) }
      if p3 &&& 0xe0 ≠ 0 then fail (.gzipFlags (p3 &&& 0xe0))
      else do
        modHeader fun h => { h with dataType := if p3 &&& 1 ≠ 0 then .text else .binary }
        Go.chk (gzExtraData (p3 &&& 4 ≠ 0)) <|
          Go.chk (gzStr (p3 &&& 8 ≠ 0) fun str h => { h with fileName := str }) <|
          Go.chk (gzStr (p3 &&& 0x10 ≠ 0) fun str h => { h with comment := str }) <|
          Go.chk (gzCRC (p3 &&& 2 ≠ 0)) setGzip

/-- reader.go:452-468 `readHeaderAuto` -/
def readHeaderAuto (E : Env) : Go RState Bool := fun s =>
  match s.inp.buf with
  | p0 :: p1 :: _ =>
    if p0 = 0x1f ∧ p1 = 0x8b then readHeaderGZIP s
    else if p0.toNat &&& 0x0f = 8 ∧ (p0.toNat * 256 + p1.toNat) % 31 = 0 then readHeaderZlib E s
    else readHeaderRaw s
  | _ => readHeaderRaw s

/-- reader.go:387-399 -/
def readHeaderOf (E : Env) : Format → Go RState Bool
  | .default => readHeaderAuto E
  | .raw => readHeaderRaw
  | .zlib => readHeaderZlib E
  | .gzip => readHeaderGZIP

/-- reader.go:360-413 `readHeader` -/
def readHeader (E : Env) : Go RState Bool := do
  Go.modify fun s => { s with inp := { s.inp with inStream := 0 }, out := { s.out with outStream := 0 } }
  let empty ← onInp fun st i =>
    let i := if i.buf.isEmpty then fill st i else i
    .ok (i.buf.isEmpty, i)
  if empty then do
    propagateError false
    pure false
  else do
    Go.modify fun s => { s with
      numStreams := s.numStreams + 1, actualFormat := .default,
      out := { s.out with window := match E.o.dict with | none => [] | some d => windowWrite E.o.wbits [] d } }
    sendEvent .streamBegin
    Go.modify fun s => { s with header := {} }
    Go.chk (readHeaderOf E E.o.format) fun s => do
      let (_, s) ← sendEvent (.streamHeader s.header) s
      pure (true, s)

/-! ### footers -/

/-- reader.go:539-552 `readFooterZlib` -/
def readFooterZlib (a32 : BitVec 32) : Go RState Bool :=
  needBytes false 4 fun p => if beVal p ≠ a32.toNat then fail (.zlibSum (beVal p) a32.toNat) else pure true

/-- reader.go:686-710 `readFooterGZIP` -/
def readFooterGZIP (c32 : BitVec 32) : Go RState Bool :=
  needBytes false 4 fun p => needBytes false 4 fun q => fun s =>
    if leVal p ≠ c32.toNat then fail (.gzipSum (leVal p) c32.toNat) s
    else if leVal q ≠ s.out.outStream % 2 ^ 32 then fail (.gzipLength (leVal q) (s.out.outStream % 2 ^ 32)) s
    else .ok (true, s)

/-- reader.go:429-439 -/
def readFooterOf (f : Format) (a32 c32 : BitVec 32) : Go RState Bool :=
  match f with
  | .raw => pure true
  | .zlib => readFooterZlib a32
  | .gzip => readFooterGZIP c32
  | .default => Go.panic (.assert "Format not implemented")

/-- reader.go:415-450 `readFooter` -/
def readFooter : Go RState Bool := do
  onInp fun _ i => .ok ((), discard i)
  fun s =>
    (do
      sendEvent (.streamEnd s.out.adler s.out.crc)
      Go.chk (readFooterOf s.actualFormat s.out.adler s.out.crc) do
        sendEvent .streamClose
        pure true : Go RState Bool) s

/-! ### blocks -/

/-- reader.go:759-786 `readFlateBlockStored` -/
def readStored (E : Env) : Go RState Bool :=
  needBytes false 2 fun p => needBytes false 2 fun q =>
    if leVal q ≠ 65535 - leVal p then fail (.storedLen (leVal p) (leVal q) (65535 - leVal p))
    else needBytes false (leVal p) fun d => do
      dbWrite E d
      pure true

/-- reader.go:874-909: length and number of extra bits for symbols 257..285 -/
def lenSym (symbol : Nat) : Option (Nat × Nat) :=
  if symbol < 265 then some (symbol - 254, 0)
  else if symbol < 269 then some (2 * symbol - 519, 1)
  else if symbol < 273 then some (4 * symbol - 1057, 2)
  else if symbol < 277 then some (8 * symbol - 2149, 3)
  else if symbol < 281 then some (16 * symbol - 4365, 4)
  else if symbol < 285 then some (32 * symbol - 8861, 5)
  else if symbol = 285 then some (258, 0)
  else none

/-- `if additionalBits != 0 { fill; read; add }` -/
def addBits {α : Type} (E : Env) (fail : α) (n base : Nat) (k : Nat → Go RState α) : Go RState α :=
  if n ≠ 0 then needBits E fail n fun out => k (base + out) else k base

/-- reader.go:871-926 `decodeLL`; `none` is `ok == false` -/
def decodeLL (E : Env) (symbol : Nat) : Go RState (Option Token) :=
  if symbol < 256 then pure (some ⟨symbol, 0⟩)
  else if symbol = 256 then pure (some makeStopToken)
  else match lenSym symbol with
    | none => do
      corruptf (.badLitLen symbol)
      pure none
    | some (base, n) => addBits E none n base fun length => do
      let t ← Go.lift (makeCopyToken length 1)
      pure (some t)

/-- reader.go:931-949: distance and number of extra bits for distance symbols -/
def distSym (symbol : Nat) : Option (Nat × Nat) :=
  if symbol < 4 then some (symbol + 1, 0)
  else if symbol < logicalNumDCodes then
    let x0 := (symbol - 2) >>> 1
    some (1 <<< (x0 + 1) + (if symbol &&& 1 ≠ 0 then 1 <<< x0 else 0) + 1, x0)
  else none

/-- reader.go:928-962 `decodeD` -/
def decodeD (E : Env) (symbol length : Nat) : Go RState (Option Token) :=
  match distSym symbol with
  | none => do
    corruptf (.badDist symbol)
    pure none
  | some (base, n) => addBits E none n base fun distance => do
    let t ← Go.lift (makeCopyToken length distance)
    pure (some t)

/-- reader.go:859-867: the rest of a match is copied byte by byte -/
def copyLoop (E : Env) (distance : Nat) : Nat → Go RState Bool
  | 0 => pure true
  | n + 1 => fun s => match lookupByte s.out.window distance with
    | none => fail (.tooFar distance (2 ^ E.o.wbits)) s
    | some ch => (do dbWriteByte E ch; copyLoop E distance n : Go RState Bool) s

/-- reader.go:848-867: a match.  (The slice `p` lies in the window's memory, to which `decodeBufferWrite` writes in pieces.  Values are copied
here all the same: a piece is written at the end of the window, in memory which holds either nothing or the oldest bytes, and what is overwritten
with the j-th byte of the match is at most its j-th byte, which has been read by then.) -/
def copyMatch (E : Env) (distance length : Nat) : Go RState Bool := fun s =>
  match lookupSlice s.out.window distance length (E.clip s.out.nLook) with
  | none => fail (.tooFar distance (2 ^ E.o.wbits)) s
  | some p => (do
      Go.modify fun s => { s with out := { s.out with nLook := s.out.nLook + 1 } }
      dbWrite E p
      copyLoop E distance (length - p.length) : Go RState Bool) s

/-- reader.go:817-868, the loop of `decodeHuffmanBlock` -/
def huffLoop (E : Env) (hLL hD : List Nat) : Nat → Go RState Bool
  | 0 => Go.panic .fuel
  | fuel + 1 => do
    match ← readSymbol E hLL with
    | none => fail .noLitLen
    | some symbol => match ← decodeLL E symbol with
      | none => pure false
      | some t =>
        if t.dist = 0 then
          if t.ll ≥ 256 then pure true
          else do
            dbWriteByte E (UInt8.ofNat t.ll)
            huffLoop E hLL hD fuel
        else
          match ← readSymbol E hD with
          | none => fail .noDist
          | some symbol => match ← decodeD E symbol t.ll with
            | none => pure false
            | some t => Go.chk (copyMatch E t.dist t.ll) (huffLoop E hLL hD fuel)

/-- number of bits which can still be read -/
def Inp.bits (i : Inp) : Nat := 8 * i.size + i.ibLen

/-- reader.go:813-869 `decodeHuffmanBlock` -/
def decodeHuffmanBlock (E : Env) (hLL hD : List Nat) : Go RState Bool := fun s => huffLoop E hLL hD (s.inp.bits + 1) s

/-- reader.go:788-804 `readFlateBlockStaticHuffman` -/
def readStatic (E : Env) (isFinal : Bool) : Go RState Bool := do
  sendEvent (.blockTrees .static isFinal { ll := fixedSizesLL, d := fixedSizesD })
  decodeHuffmanBlock E fixedSizesLL fixedSizesD

/-- reader.go:987-995: the code length code lengths -/
def readCL (E : Env) : List Nat → List Nat → Go RState (Option (List Nat))
  | [], sX => pure (some sX)
  | i :: is, sX => needBits E none 3 fun out => readCL E is (sX.set i out)

/-- reader.go:1055-1121 `decodeX`.  The array `combinedLengths` with index `i` is represented by the list `acc` of the
`i` lengths known so far (the rest of the array is zero); writing beyond `total` panics. -/
def decodeX (E : Env) (sym : Nat) (total : Nat) (acc : List Nat) : Go RState (Option (List Nat)) :=
  if sym < 16 then
    if acc.length < total then pure (some (acc ++ [sym])) else Go.panic .bounds
  else if sym = 16 then
    if acc.length = 0 then do
      corruptf .repeatNothing
      pure none
    else needBits E none 2 fun out =>
      if 3 + out > total - acc.length then do
        corruptf (.repeatMany (3 + out) (total - acc.length))
        pure none
      else if acc.length + (3 + out) ≤ total then
        pure (some (acc ++ List.replicate (3 + out) (acc.getD (acc.length - 1) 0)))
      else Go.panic .bounds
  else if sym = 17 then
    needBits E none 3 fun out =>
      if 3 + out > total - acc.length then do
        corruptf (.repeatMany (3 + out) (total - acc.length))
        pure none
      else pure (some (acc ++ List.replicate (3 + out) 0))
  else if sym = 18 then
    needBits E none 7 fun out =>
      if 11 + out > total - acc.length then do
        corruptf (.repeatMany (11 + out) (total - acc.length))
        pure none
      else pure (some (acc ++ List.replicate (11 + out) 0))
  else pure (some acc)

/-- reader.go:1005-1016 -/
def lensLoop (E : Env) (lens : List Nat) (total : Nat) : Nat → List Nat → Go RState (Option (List Nat))
  | 0, _ => Go.panic .fuel
  | fuel + 1, acc =>
    if acc.length < total then do
      match ← readSymbol E lens with
      | none => do
        corruptf .noCodeLen
        pure none
      | some sym => match ← decodeX E sym total acc with
        | none => pure none
        | some acc => lensLoop E lens total fuel acc
    else pure (some acc)

def lensStart (E : Env) (lens : List Nat) (total : Nat) : Go RState (Option (List Nat)) := fun s =>
  lensLoop E lens total (s.inp.bits + 1) [] s

/-- reader.go:977-982: complaints which, however, do not end the function -/
def checkCounts (numLL numD : Nat) : Go RState Unit := do
  if numLL > logicalNumLLCodes then corruptf (.hlit numLL logicalNumLLCodes) else pure ()
  if numD > logicalNumDCodes then corruptf (.hdist numD logicalNumDCodes) else pure ()

/-- reader.go:964-1053 `readDynamicTrees`: the new values of `hLL` and `hD` -/
def readDynamicTrees (E : Env) (isFinal : Bool) : Go RState (Option (List Nat × List Nat)) :=
  needBits E none 14 fun out => do
    let numLL := 257 + (out &&& 0x1f)
    let numD := 1 + ((out >>> 5) &&& 0x1f)
    let numX := 4 + ((out >>> 10) &&& 0x0f)
    checkCounts numLL numD
    match ← readCL E (scramble.take numX) (List.replicate 19 0) with
    | none => pure none
    | some sX =>
      if !E.L.accepts sX then do
        corruptf .codeLenCode
        pure none
      else match ← lensStart E sX (numLL + numD) with
        | none => pure none
        | some lens => do
          let sLL := padTo physicalNumLLCodes ((lens.take numLL).take physicalNumLLCodes)
          let sD := padTo physicalNumDCodes ((lens.drop numLL).take physicalNumDCodes)
          if !E.L.accepts sLL then do
            corruptf .litLenCode
            pure none
          else if !E.L.accepts sD then do
            corruptf .distCode
            pure none
          else do
            sendEvent (.blockTrees .dynamic isFinal { codeCount := numX, llCount := numLL, dCount := numD, codeSizes := sX, ll := sLL, d := sD })
            pure (some (sLL, sD))

/-- reader.go:806-811 `readFlateBlockDynamicHuffman` -/
def readDynamic (E : Env) (isFinal : Bool) : Go RState Bool := do
  match ← readDynamicTrees E isFinal with
  | none => pure false
  | some (ll, d) => decodeHuffmanBlock E ll d

/-- reader.go:722 -/
def blockTypeOf (out : Nat) : BlockType :=
  match (1 + out / 2) % 4 with
  | 1 => .stored
  | 2 => .static
  | 3 => .dynamic
  | _ => .invalid

def readBlockOf (E : Env) (isFinal : Bool) : BlockType → Go RState Bool
  | .stored => readStored E
  | .static => readStatic E isFinal
  | .dynamic => readDynamic E isFinal
  | .invalid => fail .reserved

/-- reader.go:712-757 `readFlateBlock`: `none` if the block is not OK, otherwise whether it is the final one.
(The Go function returns `more`, that is `isOK && !isFinal`.) -/
def readFlateBlock (E : Env) : Go RState (Option Bool) :=
  needBits E none 3 fun out => do
    let isFinal := out % 2 = 1
    let bt := blockTypeOf out
    sendEvent (.blockBegin bt isFinal)
    let isOK ← readBlockOf E isFinal bt
    if isOK then do
      sendEvent (.blockEnd bt isFinal)
      pure (some isFinal)
    else pure none

/-! ### the goroutine -/

/-- reader.go:339-341 `for fr.readFlateBlock() {}` -/
def blockLoop (E : Env) : Nat → Go RState Unit
  | 0 => Go.panic .fuel
  | fuel + 1 => do
    match ← readFlateBlock E with
    | some false => blockLoop E fuel
    | _ => pure ()

def readBlocks (E : Env) : Go RState Unit := fun s => blockLoop E (s.inp.bits + 1) s

/-- reader.go:331-348, one iteration of the loop: `false` means `break` -/
def readStream (E : Env) : Go RState Bool :=
  Go.chk (readHeader E) do
    Go.modify fun s => { s with out := { s.out with adler := Adler.init, crc := Crc.init } }
    readBlocks E
    onOut fun o => ((), mustFlush E o)
    readFooter

/-- reader.go:331-348 -/
def streamLoop (E : Env) : Nat → Go RState Unit
  | 0 => Go.panic .fuel
  | fuel + 1 => fun s =>
    if s.inp.inputError.isNone then
      match readStream E s with
      | .error e => .error e
      | .ok (true, s) => streamLoop E fuel s
      | .ok (false, s) => .ok ((), s)
    else .ok ((), s)

/-- reader.go:350-354 -/
def finishThread : Go RState Unit := do
  onInp fun _ i => .ok ((), { i with inputError := some (i.inputError.getD .eof) })
  propagateError false

/-- reader.go:327-358 `readThread` -/
def readThread (E : Env) : Go RState Unit := do
  Go.modify fun s => { s with numStreams := 0 }
  fun s => streamLoop E (s.inp.size + 2) s
  finishThread

/-- reader.go:91-119 `NewReader`, followed by the first `Read`; `closed` says that `Close` was called before the goroutine
got to run -/
def start (src : Src) (closed : Bool) : RState :=
  { inp := { src := src }, out := { errorWasSet := closed, stopIsForced := closed } }

/-- reader.go:221-239: the parameters after `Reset` -/
def ROptions.reset (o : ROptions) (opts : List Opt) : ROptions :=
  if opts.isEmpty then o
  else .take ((({ format := o.format, mlevel := o.mlevel, wbits := o.wbits, dict := o.dict, tracers := o.tracers } : Options).apply opts).readerDefaults)

/-- reader.go:193-219, 241-252 `Reset`, followed by the first `Read`.  The goroutine has ended, so that `stopReadThreadLocked` (reader.go:205, 309) does
nothing; when it has not, `Reset` does not return, see Model/Conc.lean.  (The buffers and the window, which are re-created if their sizes change, are
empty anyway.)  The counts of flushes and lookups only serve to select the environment's choices.  `closed` is as for `start`. -/
def rReset (src : Src) (closed : Bool) (s : RState) : RState :=
  { s with
    inp := { s.inp with src := src, inputError := none, buf := [] }
    out := { s.out with decodeBuffer := [], window := [], errorWasSet := closed, stopIsForced := closed, acts := [], nFlush := 0, nLook := 0 } }

/-- the bytes put in outputBuffer by the actions -/
def actData : List Act → List UInt8
  | [] => []
  | .data p :: r => p ++ actData r
  | .err _ :: r => actData r

/-- the first error set by the actions -/
def actErr : List Act → Option Err
  | [] => none
  | .data _ :: r => actErr r
  | .err e :: _ => some e

end Flate.Model.Rd
