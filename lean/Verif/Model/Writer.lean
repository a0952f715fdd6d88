/-
Model of writer.go (and of header.go's `AsBytes`).
-/
import Verif.Model.Block
import Verif.Model.Options
import Verif.Model.Checksum
import Verif.Spec.Deflate

namespace Flate.Model
open Flate.Spec

/-! ### the outside world -/

/-- a call received by the underlying writer (writer.go:24-32) -/
inductive SinkCall where
  | write (p : List UInt8)
  | flush
  | sync
  deriving DecidableEq, Repr

/-- The underlying `io.Writer`.  `wfail n` says what the n-th `Write` does: accept everything (`none`), or
accept only the first `k` bytes and fail with error `e` (`some (k, e)`).  `hasFlush`/`hasSync`: whether the value
implements `Flush`/`Sync` (writer.go:24-32), whose n-th calls fail as given by `ffail`/`sfail`. -/
structure Sink where
  out : List UInt8 := []
  /-- the calls received so far, `Write` with the bytes offered (an observation, not looked at by the model) -/
  log : List SinkCall := []
  nWrites : Nat := 0
  wfail : Nat → Option (Nat × Nat) := fun _ => none
  hasFlush : Bool := false
  nFlush : Nat := 0
  ffail : Nat → Option Nat := fun _ => none
  hasSync : Bool := false
  nSync : Nat := 0
  sfail : Nat → Option Nat := fun _ => none
  /-- the errors it has returned so far (an observation, not looked at by the model) -/
  errs : List Nat := []

/-- `buffer.LZ77Options`.  `maxDist = none` is `!HasMaxMatchDistance`. -/
structure LZOpts where
  bufBits : Nat
  winBits : Nat
  minLen : Nat
  maxLen : Nat
  maxDist : Option Nat
  deriving DecidableEq, Repr

/-- External `buffer.LZ77`: buffered bytes not yet consumed and the history they may refer to.
`propose n` is what the match finder comes up with at the n-th `Advance` (distance, length). -/
structure LZ where
  opts : LZOpts
  hist : List UInt8 := []
  buf : List UInt8 := []
  step : Nat := 0
  propose : Nat → Option (Nat × Nat)

def LZ.cap (z : LZ) : Nat := 2 ^ z.opts.bufBits
def LZ.maxDist (z : LZ) : Nat := match z.opts.maxDist with
  | none => 2 ^ z.opts.winBits
  | some d => min d (2 ^ z.opts.winBits)

/-- Is (dist, len) a match which `Advance` may return?  (Contract of the library.) -/
def LZ.validMatch (z : LZ) (dist len : Nat) : Bool :=
  decide (1 ≤ dist ∧ dist ≤ z.maxDist ∧ dist ≤ z.hist.length ∧ z.opts.minLen ≤ len ∧ 1 ≤ len ∧
    len ≤ z.opts.maxLen ∧ len ≤ z.buf.length) &&
  (lzCopy z.hist dist len == z.hist ++ z.buf.take len)

/-- contract of `LZ77.Advance`: consumed bytes and the match, if any; without a match one byte is consumed -/
def LZ.advance (z : LZ) : List UInt8 × Option (Nat × Nat) × LZ :=
  let go (n : Nat) (m : Option (Nat × Nat)) :=
    (z.buf.take n, m, { z with hist := z.hist ++ z.buf.take n, buf := z.buf.drop n, step := z.step + 1 })
  match z.propose z.step with
  | some (dist, len) => if z.validMatch dist len then go len (some (dist, len)) else go 1 none
  | none => go 1 none

/-- contract of `LZ77.Read` -/
def LZ.read (z : LZ) (n : Nat) : List UInt8 × LZ :=
  (z.buf.take n, { z with hist := z.hist ++ z.buf.take n, buf := z.buf.drop n })

/-- contract of `LZ77.Write`: number of bytes accepted; `ErrFull` iff that is less than offered -/
def LZ.write (z : LZ) (p : List UInt8) : Nat × LZ :=
  let nn := min p.length (z.cap - z.buf.length)
  (nn, { z with buf := z.buf ++ p.take nn })

/-! ### the Writer -/

/-- enum_writerstate.go:11-39 -/
inductive WS where
  | noStream | openStream | closingStream | closedStream | error | closed
  deriving DecidableEq, Repr

/-- What a tracer has been sent (trace.go:14-16), together with two observations which are not part of the
event: the number of bytes the underlying writer had accepted, and the number of bytes waiting in the Writer's
input buffer, at that moment. -/
structure Sent where
  ev : Event
  delivered : Nat
  buffered : Nat

/-- writer.go:35-64.  `events` is what the tracers have been sent.  `W` is `bitsPerBlock` (64, or 32 on
386 and arm: block32.go, block64.go).  The mutex serialises the methods and is not modelled. -/
structure WState where
  W : Nat
  o : Options
  sink : Sink
  err : Option Err := none
  adler : BitVec 32 := Adler.init
  crcIn : BitVec 32 := Crc.init
  crcOut : BitVec 32 := Crc.init
  lz : LZ
  output : List UInt8 := []
  outBits : Nat
  inTotal : Nat := 0
  inStream : Nat := 0
  outTotal : Nat := 0
  outStream : Nat := 0
  numStreams : Nat := 0
  obBlock : Nat := 0
  obLen : Nat := 0
  state : WS := .noStream
  header : Header := {}
  events : List Sent := []

/-- writer.go:96-98 -/
def outputNumBits (o : Options) : Nat := o.mlevel + 7

/-- writer.go:100-124 -/
def hybridOptions (o : Options) : LZOpts :=
  match o.strategy with
  | .huffmanOnly => { bufBits := o.mlevel + 8, winBits := 8, minLen := 0, maxLen := 0, maxDist := some 0 }
  | .huffmanRLE => { bufBits := o.mlevel + 8, winBits := 8, minLen := 3, maxLen := 258, maxDist := some 1 }
  | _ => { bufBits := o.mlevel + 8, winBits := o.wbits, minLen := 4, maxLen := 258, maxDist := none }

/-- writer.go:126-139 and 1230-1243: is the compress function `compressStore`?  All others are `compressSlow`
(writer.go:949-959), which ignores the tuning parameters. -/
def usesStore (o : Options) : Bool := o.clevel == 0

/-- writer.go:68-94 -/
def newWriter (W : Nat) (propose : Nat → Option (Nat × Nat)) (sink : Sink) (opts : List Opt) : WState :=
  let o := (Options.apply {} opts).writerDefaults
  { W := W, o := o, sink := sink, outBits := outputNumBits o, lz := { opts := hybridOptions o, propose := propose } }

/-- writer.go:915-925 -/
def wEvent (s : WState) (k : EvKind) : Event :=
  { kind := k, inTotal := s.inTotal, inStream := s.inStream, outTotal := s.outTotal,
    outStream := s.outStream, numStreams := s.numStreams, format := s.o.format }

/-- writer.go:915-925 -/
def wSendEvent (k : EvKind) : Go WState Unit := Go.modify fun s =>
  { s with events := s.events ++ [⟨wEvent s k, s.sink.out.length, s.lz.buf.length⟩] }

/-- one `Write` call on the underlying writer with the whole buffer; nothing is called when it is empty.
(`Buffer.WriteTo`; a ring buffer may make two calls, which is covered by the accepted prefix, but is one entry of `log`.) -/
def sinkWrite (s : WState) : Option Err × WState :=
  if s.output = [] then (none, s)
  else
    match s.sink.wfail s.sink.nWrites with
    | none => (none, { s with
        sink := { s.sink with
          out := s.sink.out ++ s.output
          nWrites := s.sink.nWrites + 1
          log := s.sink.log ++ [.write s.output] }
        output := [] })
    | some (k, e) => (some (.io e), { s with
        sink := { s.sink with
          out := s.sink.out ++ s.output.take k
          nWrites := s.sink.nWrites + 1
          log := s.sink.log ++ [.write s.output]
          errs := s.sink.errs ++ [e] }
        output := s.output.drop k })

/-- writer.go:863-871 -/
def outputBufferFlush : Go WState Bool := fun s =>
  match sinkWrite s with
  | (none, s) => .ok (true, s)
  | (some e, s) => .ok (false, { s with state := .error, err := some e })

/-- writer.go:816-829: the loop of `outputBufferWrite` -/
def outLoop : Nat → List UInt8 → Go WState Bool
  | 0, _ => Go.panic .fuel
  | fuel + 1, p => fun s =>
    if p = [] then .ok (true, s)
    else
      let nn := min p.length (2 ^ s.outBits - s.output.length)
      let s := { s with output := s.output ++ p.take nn, crcOut := Crc.genericUpdate s.crcOut (p.take nn),
                        outTotal := s.outTotal + nn, outStream := s.outStream + nn }
      Go.chk outputBufferFlush (outLoop fuel (p.drop nn)) s

/-- writer.go:816-829 -/
def outWrite (p : List UInt8) : Go WState Bool := outLoop (2 * p.length + 2) p

/-- writer.go:902-913.  The nested `outputBufferWrite` first calls `outputBitsFlush` again, which does
nothing since `obLen` is 0 by then. -/
def wBitsFlush : Go WState Bool := fun s =>
  if s.obLen = 0 then .ok (true, s)
  else outWrite ((leBytes (s.W / 8) s.obBlock).take ((s.obLen + 7) / 8)) { s with obLen := 0, obBlock := 0 }

/-- writer.go:811-830 -/
def wBufWrite (p : List UInt8) : Go WState Bool := Go.chk wBitsFlush (outWrite p)

/-- writer.go:832-836 -/
def wBufWriteU16 (v : Nat) : Go WState Bool := wBufWrite (leBytes 2 v)
/-- writer.go:838-842 -/
def wBufWriteU32 (v : Nat) : Go WState Bool := wBufWrite (leBytes 4 v)

/-- writer.go:844-861 (the header checks exclude embedded NUL bytes) -/
def wBufWriteStringZ (str : List UInt8) : Go WState Bool :=
  match str.idxOf? 0 with
  | none => wBufWrite (str ++ [0])
  | some i => if i + 1 = str.length then wBufWrite str
    else Go.panic (.assert "string contains embedded ASCII NUL byte")

/-- util.go:14-22 -/
def makeMask (W shift : Nat) : Nat := if shift = 0 then 0 else if shift ≥ W then 2 ^ W - 1 else 2 ^ shift - 1

/-- writer.go:877-895: the loop of `outputBitsWrite` -/
def bitsLoop : Nat → Nat → Nat → Go WState Bool
  | 0, _, _ => Go.panic .fuel
  | fuel + 1, inLen, inBlock => fun s =>
    if inLen = 0 then .ok (true, s)
    else
      let shiftA := s.obLen
      let shiftB := min (s.W - shiftA) inLen
      let s := { s with
        obBlock := s.obBlock ||| (((inBlock &&& makeMask s.W shiftB) <<< shiftA) % 2 ^ s.W),
        obLen := s.obLen + shiftB }
      if s.obLen = s.W then Go.chk wBitsFlush (bitsLoop fuel (inLen - shiftB) (inBlock >>> shiftB)) s
      else bitsLoop fuel (inLen - shiftB) (inBlock >>> shiftB) s

/-- writer.go:873-896 -/
def wBitsWrite (inLen inBlock : Nat) : Go WState Bool := fun s =>
  if s.obLen ≤ s.W then
    if inLen ≤ s.W then bitsLoop (inLen + 2) inLen inBlock s
    else .error (.assert "inLen > bitsPerBlock")
  else .error (.assert "obLen > bitsPerBlock")

/-- writer.go: the Writer as a `bitwriter` -/
def wBW : BitWriter WState where
  bufWrite := wBufWrite
  bufWriteU16 := wBufWriteU16
  bitsWrite := wBitsWrite
  bitsFlush := wBitsFlush
  sendEvent := wSendEvent

/-- writer.go:794-798 and 804-807: accounting for consumed input -/
def account (p : List UInt8) (s : WState) : WState :=
  { s with adler := Adler.update s.adler p, crcIn := Crc.genericUpdate s.crcIn p,
           inTotal := s.inTotal + p.length, inStream := s.inStream + p.length }

/-- writer.go:792-800 -/
def inputBufferRead (n : Nat) : Go WState (List UInt8) := fun s =>
  let (p, z) := s.lz.read n
  .ok (p, account p { s with lz := z })

/-- writer.go:802-809 -/
def inputBufferAdvance : Go WState (List UInt8 × Option (Nat × Nat)) := fun s =>
  let (p, m, z) := s.lz.advance
  .ok ((p, m), account p { s with lz := z })

/-- writer.go:928 -/
def storedBlockSize : Nat := 61440

/-- writer.go:937-945 -/
def storeLoop : Nat → Nat → Go WState Bool
  | 0, _ => Go.panic .fuel
  | fuel + 1, available =>
    if available = 0 then pure true
    else do
      let buf ← inputBufferRead storedBlockSize
      Go.chk (writeStoredBlock wBW buf false) (storeLoop fuel (available - buf.length))

/-- writer.go:927-947.  (`available -= len(buf)` is unsigned: it does not wrap since `Read` returns at most
`available` bytes.) -/
def compressStore (consumeAll : Bool) : Go WState Bool := fun s =>
  let available := s.lz.buf.length
  if available < storedBlockSize ∧ consumeAll = false ∧ available < s.lz.cap then .ok (true, s)
  else storeLoop (available + 1) available s

/-- writer.go:976-989: consumed bytes and tokens -/
def tokenLoop : Nat → Nat → List UInt8 → List Token → Go WState (List UInt8 × List Token)
  | 0, _, _, _ => Go.panic .fuel
  | fuel + 1, available, bb, tokens =>
    if available = 0 then pure (bb, tokens)
    else do
      let (p, m) ← inputBufferAdvance
      match m with
      | some (distance, length) =>
        Go.assert (length ≥ 3) "length < 3"
        Go.assert (distance ≥ 1) "distance < 1"
        let t ← Go.lift (makeCopyToken (length % 65536) (distance % 65536))
        tokenLoop fuel (available - p.length) (bb ++ p) (tokens ++ [t])
      | none =>
        match p with
        | [] => Go.panic .bounds
        | ch :: _ => tokenLoop fuel (available - p.length) (bb ++ [ch]) (tokens ++ [makeLiteralToken ch])

/-- writer.go:961-994 (and 949-959).  The pooled buffers start empty (pools.go, bufferpool). -/
def compressSlow (L : HuffLib) (consumeAll : Bool) : Go WState Bool := fun s =>
  let available := s.lz.buf.length
  if available < 4096 ∧ consumeAll = false ∧ available < s.lz.cap then .ok (true, s)
  else (do
    let (data, tokens) ← tokenLoop (available + 1) available [] []
    compressTokens wBW s.W L data (tokens ++ [makeStopToken]) false) s

/-! ### headers and footers -/

/-- header.go:51-66 -/
def extraAsBytes (recs : List ExtraRec) : List UInt8 :=
  recs.flatMap fun r => [r.id0, r.id1] ++ leBytes 2 (r.bytes.length % 65536) ++ r.bytes

/-- writer.go:654-662 -/
def fLevel (o : Options) : Nat :=
  if o.strategy = .huffmanOnly ∨ o.strategy = .huffmanRLE ∨ o.clevel < 2 then 0
  else if o.clevel < 6 then 1
  else if o.clevel = 6 then 2
  else 3

/-- writer.go:649-682: the header bytes.  `byte(fw.wbits-8) << 4` and the other byte operations are
carried out on `UInt8`. -/
def zlibHeaderBytes (o : Options) : List UInt8 :=
  let b0 : UInt8 := (UInt8.ofNat (o.wbits - 8) <<< 4) ||| 0x08
  let b1 : UInt8 := UInt8.ofNat (fLevel o) <<< 6
  let b1 : UInt8 := if o.dict.isSome then b1 ||| 0x20 else b1
  let u16 := b0.toNat * 256 + b1.toNat
  let remainder := if u16 % 31 = 0 then 31 else u16 % 31
  let b1 : UInt8 := b1 ||| UInt8.ofNat (31 - remainder)
  match o.dict with
  | none => [b0, b1]
  | some d => [b0, b1] ++ beBytes 4 (Adler.checksum d).toNat

/-- writer.go:649-682 -/
def writeHeaderZlib : Go WState Bool := fun s => wBufWrite (zlibHeaderBytes s.o) s

/-- writer.go:684-688 -/
def writeFooterZlib (a32 : BitVec 32) : Go WState Bool := wBufWrite (beBytes 4 a32.toNat)

/-- enum_ostype.go:151-166 -/
def osTypeEncode (os : Nat) : Option UInt8 := if 1 ≤ os ∧ os ≤ 14 then some (UInt8.ofNat (os - 1)) else none

/-- writer.go:693-728: the ten fixed bytes -/
def gzipHeaderBytes (o : Options) (h : Header) : List UInt8 :=
  let flg : UInt8 := 0x02 ||| ((if h.dataType = .text then 0x01 else 0) |||
    (if h.extra = [] then 0 else 0x04) ||| (if h.fileName = [] then 0 else 0x08) |||
    (if h.comment = [] then 0 else 0x10))
  let mtime : List UInt8 := match h.lastModified with
    | none => [0, 0, 0, 0]
    | some t => leBytes 4 (t % 2 ^ 32).toNat
  let xfl : UInt8 := if o.strategy = .huffmanOnly ∨ o.strategy = .huffmanRLE ∨ o.clevel < 2 then 0x04
    else if o.clevel = 9 then 0x02 else 0x00
  let os : UInt8 := (osTypeEncode h.osType).getD 0xff
  [0x1f, 0x8b, 0x08, flg] ++ mtime ++ [xfl, os]

/-- writer.go:749-762 -/
def gzExtra (h : Header) : Go WState Bool :=
  if h.extra = [] then pure true
  else
    let xdata := extraAsBytes h.extra
    Go.chk (wBufWriteU16 (xdata.length % 65536)) (wBufWrite xdata)

/-- writer.go:764-784 -/
def gzString (str : List UInt8) : Go WState Bool := if str = [] then pure true else wBufWriteStringZ str

/-- writer.go:690-739 -/
def writeHeaderGZIP : Go WState Bool := fun s =>
  let h := s.header
  let s := { s with crcOut := Crc.init }
  (Go.chk (wBufWrite (gzipHeaderBytes s.o h)) <|
   Go.chk (gzExtra h) <|
   Go.chk (gzString h.fileName) <|
   Go.chk (gzString h.comment) <|
   fun s => wBufWriteU16 (s.crcOut.toNat % 65536) s) s

/-- writer.go:786-790: note that the second write is attempted even if the first one failed -/
def writeFooterGZIP (c32 : BitVec 32) : Go WState Bool := do
  let ok1 ← wBufWriteU32 c32.toNat
  let s ← Go.get
  let ok2 ← wBufWriteU32 (s.inStream % 2 ^ 32)
  pure (ok1 && ok2)

/-- writer.go:568-580: header fields filled in by the Writer -/
def fillHeader (s : WState) : Header :=
  { s.header with
    dataType := if s.header.dataType = .unknown then (if isText (s.lz.buf.take 4096) then .text else .binary)
      else s.header.dataType
    osType := if s.header.osType = 0 then 4 else s.header.osType
    windowBits := s.o.wbits
    compressLevel := s.o.clevel }

/-- writer.go:554-608 -/
def writeHeader : Go WState Bool := do
  Go.modify fun s => { s with inStream := 0, outStream := 0, numStreams := s.numStreams + 1 }
  Go.modify fun s => { s with lz := { s.lz with hist := s.o.dict.getD [] } }
  wSendEvent .streamBegin
  Go.modify fun s => { s with header := fillHeader s }
  let s ← Go.get
  Go.chk (match s.o.format with
    | .raw => pure true
    | .zlib => writeHeaderZlib
    | .gzip => writeHeaderGZIP
    | .default => Go.panic (.assert "Format not implemented")) <| do
  let s ← Go.get
  wSendEvent (.streamHeader s.header)
  Go.modify fun s => { s with adler := Adler.init, crcIn := Crc.init }
  pure true

/-- writer.go:610-647 -/
def writeFooter : Go WState Bool :=
  Go.chk wBitsFlush <| do
  let s ← Go.get
  let a32 := s.adler
  let c32 := s.crcIn
  wSendEvent (.streamEnd a32 c32)
  Go.chk (match s.o.format with
    | .raw => pure true
    | .zlib => writeFooterZlib a32
    | .gzip => writeFooterGZIP c32
    | .default => Go.panic (.assert "Format not implemented")) <| do
  wSendEvent .streamClose
  pure true

/-! ### the API -/

/-- `fw.state = x` as a step -/
def setState (x : WS) : Go WState Bool := fun s => .ok (true, { s with state := x })

/-- writer.go:456-461 and 495-501 -/
def finishClosing : Go WState Bool := fun s =>
  if s.state = .closingStream then Go.chk writeFooter (setState .closedStream) s else .ok (true, s)

/-- writer.go:451-475 -/
def compressImpl (L : HuffLib) (consumeAll : Bool) : Go WState Bool := fun s =>
  if s.lz.buf = [] then .ok (true, s)
  else
    (Go.chk finishClosing <|
     Go.chk (fun s => if s.state = .noStream ∨ s.state = .closedStream then
       Go.chk writeHeader (setState .openStream) s else .ok (true, s)) <|
     fun s => if usesStore s.o then compressStore consumeAll s else compressSlow L consumeAll s) s

/-- writer.go:522-552 -/
def flushGuts (t : FlushType) : Go WState Bool :=
  match t with
  | .blockFlush => pure true
  | .partialFlush => writeStaticBlock wBW [makeStopToken] false
  | .syncFlush => writeStoredBlock wBW [] false
  | .fullFlush => Go.chk (writeStoredBlock wBW [] false)
      (fun s => .ok (true, { s with lz := { s.lz with hist := [] } }))
  | .finishFlush => Go.chk (writeStoredBlock wBW [] true)
      (fun s => .ok (true, { s with lz := { s.lz with hist := [] }, state := .closingStream }))

/-- writer.go:1245-1247: EINVAL (22) -/
def ignoredSyncError (e : Nat) : Bool := e == 22

/-- writer.go:503-509 -/
def sinkFlush : Go WState Bool := fun s =>
  if s.sink.hasFlush then
    let s' := { s with sink := { s.sink with nFlush := s.sink.nFlush + 1, log := s.sink.log ++ [.flush] } }
    match s.sink.ffail s.sink.nFlush with
    | some e => .ok (false, { s' with
        sink := { s'.sink with errs := s.sink.errs ++ [e] }
        state := .error
        err := some (.io e) })
    | none => .ok (true, s')
  else .ok (true, s)

/-- writer.go:511-517 -/
def sinkSync : Go WState Bool := fun s =>
  if s.sink.hasSync then
    let s' := { s with sink := { s.sink with nSync := s.sink.nSync + 1, log := s.sink.log ++ [.sync] } }
    match s.sink.sfail s.sink.nSync with
    | some e => if ignoredSyncError e then .ok (true, s')
      else .ok (false, { s' with
        sink := { s'.sink with errs := s.sink.errs ++ [e] }
        state := .error
        err := some (.io e) })
    | none => .ok (true, s')
  else .ok (true, s)

/-- writer.go:477-520 -/
def flushImpl (L : HuffLib) (t : FlushType) : Go WState Bool :=
  Go.chk (compressImpl L true) <|
  Go.chk (fun s => if t = .finishFlush ∧ s.state = .noStream then
    Go.chk writeHeader (setState .openStream) s else .ok (true, s)) <|
  Go.chk (fun s => if s.state = .openStream then flushGuts t s else .ok (true, s)) <|
  Go.chk finishClosing <|
  Go.chk sinkFlush sinkSync

/-- writer.go:379-391: the loop of `Write`; `none` = all accepted, `some e` = `return 0, fw.err` -/
def writeLoop (L : HuffLib) : Nat → List UInt8 → Go WState (Option (Option Err))
  | 0, _ => Go.panic .fuel
  | fuel + 1, p => fun s =>
    if p = [] then .ok (none, s)
    else
      let (nn, z) := s.lz.write p
      let consumeAll := (nn == 0) || decide (nn < p.length)
      match compressImpl L consumeAll { s with lz := z } with
      | .error e => .error e
      | .ok (false, s) => .ok (some s.err, s)
      | .ok (true, s) => writeLoop L fuel (p.drop nn) s

/-- writer.go:366-393 -/
def wWrite (L : HuffLib) (p : List UInt8) : Go WState (Nat × Option Err) := fun s =>
  if s.state = .closed then .ok ((0, some .closed), s)
  else if s.state = .error then .ok ((0, s.err), s)
  else
    match writeLoop L (2 * p.length + 2) p s with
    | .error e => .error e
    | .ok (none, s) => .ok ((p.length, none), s)
    | .ok (some e, s) => .ok ((0, e), s)

/-- writer.go:396-416 -/
def wFlush (L : HuffLib) (t : FlushType) : Go WState (Option Err) := fun s =>
  if s.state = .closed then .ok (some .closed, s)
  else if s.state = .error then .ok (s.err, s)
  else
    match flushImpl L t s with
    | .error e => .error e
    | .ok (true, s) => .ok (none, s)
    | .ok (false, s) => .ok (s.err, s)

/-- writer.go:424-449 -/
def wClose (L : HuffLib) : Go WState (Option Err) := fun s =>
  if s.state = .closed then .ok (some .closed, s)
  else if s.state = .error then .ok (s.err, { s with state := .closed, err := none })
  else
    match flushImpl L .finishFlush s with
    | .error e => .error e
    | .ok (true, s) => .ok (none, { s with state := .closed })
    | .ok (false, s) => .ok (s.err, { s with state := .closed, err := none })

/-- writer.go:224-283.  Note what is not reset: checksums, counters, header, and the bit accumulator. -/
def wReset (w : Sink) (opts : List Opt) : Go WState Unit := fun s =>
  if s.state = .openStream ∨ s.state = .closingStream then
    .error (.assert "invalid state -- cannot Reset in the middle of a stream")
  else
    let s := { s with sink := w, err := none, state := .noStream, lz := { s.lz with hist := [], buf := [] },
                      output := [] }
    if opts = [] then .ok ((), s)
    else
      let o := (s.o.apply opts).writerDefaults
      .ok ((), { s with o := o, lz := { s.lz with opts := hybridOptions o }, outBits := outputNumBits o })

/-- writer.go:310-364: the number of complaints is zero -/
def headerOK (h : Header) : Bool :=
  decide (h.fileName.length < 256) && !h.fileName.contains 0 && !h.fileName.contains 0x2f &&
  !h.fileName.contains 0x5c && decide (h.comment.length < 256) && !h.comment.contains 0 &&
  (match h.lastModified with | none => true | some t => !decide (t < 0 ∨ t ≥ 2 ^ 32 - 1)) &&
  decide (h.osType ≤ 14) && h.extra.all (fun r => decide (4 + r.bytes.length ≤ 65535)) &&
  decide ((extraAsBytes h.extra).length ≤ 65535)

/-- writer.go:286-308; the result is `err == nil` -/
def wSetHeader (h : Header) : Go WState Bool := fun s =>
  if headerOK h then .ok (true, { s with header := h }) else .ok (false, s)

end Flate.Model
