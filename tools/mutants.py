"""Wrong programs: id, file (under lean/Verif), definition, edit in words, old and new text, the claims whose English statement the edit makes false."""
MUTANTS = []
def mut(id, file, d, edit, old, new, claim):
    MUTANTS.append(dict(id=id, file=file, **{"def": d}, edit=edit, old=old, new=new, claim=claim))

C = "Model/Conc.lean"
mut("K01", C, "Step.rd4wait / rd4", "an awoken Read does not look again whether there is data (if instead of for)",
    "s.cls[i]? = some (.rd4 n) → ¬ (s.outErr = none ∧ s.buf = []) → Finish", "s.cls[i]? = some (.rd4 n) → True → Finish", "C42: a Read may return (0, nil)")
mut("K02", C, "Step.fl4", "the goroutine keeps mu1 while it waits for mu2 during a flush, though stopIsForced is not checked",
    "s.th = .fl4 p → s.forced = false → s.mu2 = none", "s.th = .fl4 p → True → s.mu2 = none", "C43: data is delivered after Close")
mut("K03", C, "Step.errSet", "closeWithError does not broadcast cv1",
    "outErr := some e, errSet := true, cls := s.cls.map wakeC }", "outErr := some e, errSet := true }", "C42: lost wake-up")
mut("K04", C, "Step.cl3", "Close does not wake the Readers which wait",
    "cls := (s.cls.set i .cl4).map wakeC }", "cls := s.cls.set i .cl4 }", "C42/C43: a Read waits for ever")
mut("K05", C, "Step.cl3", "Close does not wake the goroutine",
    "forced := true, th := wakeT s.th, cls", "forced := true, th := s.th, cls", "C42/C43: Close waits for ever")
mut("K06", C, "Finish.all", "Read does not signal cv2 when it has emptied the buffer",
    "buf := [], th := wakeT s.th, log", "buf := [], th := s.th, log", "C42: the goroutine waits for space for ever")
mut("K07", C, "Step.fl5", "a flush drops what did not fit",
    "th := .fl1 r, mu1 := none, mu2 := none, buf := s.buf ++ q", "th := .run, mu1 := s.mu1, mu2 := none, buf := s.buf ++ q", "C39/C40: data is lost")
mut("K08", C, "Step.errSet", "closeWithError does not record that an error was set",
    "outErr := some e, errSet := true,", "outErr := some e,", "C45: an error is replaced by a later one")
mut("K09", C, "Step.cl4", "Close does not wait for the goroutine",
    "s.cls[i]? = some .cl4 → s.wg = 0 →", "s.cls[i]? = some .cl4 → True →", "C43")
mut("K10", C, "Step.rd1go", "Read starts another goroutine whenever it finds that the last one ended",
    "s.cls[i]? = some (.rd1 n) → s.started = false →", "s.cls[i]? = some (.rd1 n) → s.started = false ∨ s.stopped = true →", "C39/C45")
mut("K11", C, "Step.rs2", "Reset does not clear outputBuffer",
    "outErr := none, buf := [], acts := sc", "outErr := none, acts := sc", "C39/C44: data of the old source is returned")
mut("K12", C, "Step.rs2", "Reset does not clear outputError",
    "forced := false, outErr := none, buf := []", "forced := false, buf := []", "C44")
mut("K13", C, "Reads", "outputBuffer.Read may return nothing although there is something",
    "p.length ≤ n ∧ (0 < n → p ≠ [])", "p.length ≤ n ∧ True", "C39: a Read may return (0, nil)")
mut("K14", C, "Step.fl5end", "a flush does not signal cv1",
    "s.buf.length + p.length ≤ s.cap → Signal1 s.cls cs →\n      Step s .thread { s with th := .run, mu2 := none, buf := s.buf ++ p, cls := cs }", "s.buf.length + p.length ≤ s.cap → cs = s.cls →\n      Step s .thread { s with th := .run, mu2 := none, buf := s.buf ++ p, cls := cs }", "C42: lost wake-up")
mut("K15", C, "Finish.some", "a Read which leaves something does not pass the signal on",
    "rest ≠ [] → Signal1 (s.cls.set i .idle) cs →\n      Finish s i n { s with mu2 := none, buf := rest, cls := cs,", "rest ≠ [] → cs = s.cls.set i .idle →\n      Finish s i n { s with mu2 := none, buf := rest, cls := cs,", "C42")

W = "Model/Writer.lean"
mut("W01", W, "wBitsFlush", "one byte too few when the number of bits is not a multiple of 8", "((s.obLen + 7) / 8)", "(s.obLen / 8)", "C49 C02 C01")
mut("W02", W, "wBitsFlush", "the accumulator is not cleared", "{ s with obLen := 0, obBlock := 0 }", "{ s with obLen := 0 }", "C49 C02 C01")
mut("W03", W, "outLoop", "the flush happens only if the buffer is full, and its failure is ignored",
    "Go.chk outputBufferFlush (outLoop fuel (p.drop nn)) s", "(do let _ ← outputBufferFlush; outLoop fuel (p.drop nn)) s", "C15: an error of the underlying writer is not reported")
mut("W04", W, "account", "the Adler-32 is not updated", "adler := Adler.update s.adler p, crcIn", "adler := s.adler, crcIn", "C02 C01")
mut("W05", W, "writeHeader", "checksums are not reset at the start of a stream", "Go.modify fun s => { s with adler := Adler.init, crcIn := Crc.init }\n  pure true", "pure true", "C14: second stream of a Writer")
mut("W06", W, "writeHeader", "inStream is not reset at the start of a stream", "inStream := 0, outStream := 0, numStreams", "outStream := 0, numStreams", "C14: ISIZE of a second gzip stream; C35")
mut("W07", W, "writeHeader", "the history of the previous stream is kept", "hist := s.o.dict.getD [] }", "hist := s.lz.hist ++ s.o.dict.getD [] }", "(equivalent: history is cleared by FinishFlush)")
mut("W08", W, "flushGuts", "FullFlush keeps the history", ".fullFlush => Go.chk (writeStoredBlock wBW [] false)\n      (fun s => .ok (true, { s with lz := { s.lz with hist := [] } }))", ".fullFlush => writeStoredBlock wBW [] false", "C13")
mut("W09", W, "flushGuts", "SyncFlush writes nothing", "| .syncFlush => writeStoredBlock wBW [] false", "| .syncFlush => pure true", "C11")
mut("W10", W, "flushGuts", "FinishFlush writes a block which is not marked final", "Go.chk (writeStoredBlock wBW [] true)", "Go.chk (writeStoredBlock wBW [] false)", "C02 C01 C33")
mut("W11", W, "compressImpl", "a closed stream is not followed by a new header", "s.state = .noStream ∨ s.state = .closedStream then", "s.state = .noStream then", "C14")
mut("W12", W, "wClose", "Close forgets to mark the Writer closed", ".ok (true, s) => .ok (none, { s with state := .closed })", ".ok (true, s) => .ok (none, s)", "C16")
mut("W13", W, "wClose", "Close keeps the error", ".ok (false, s) => .ok (s.err, { s with state := .closed, err := none })", ".ok (false, s) => .ok (none, { s with state := .closed, err := none })", "C15: Close reports success")
mut("W14", W, "sinkFlush", "an error of Flush is not remembered", "sink := { s'.sink with errs := s.sink.errs ++ [e] }\n        state := .error\n        err := some (.io e) })\n    | none => .ok (true, s')\n  else .ok (true, s)\n\n/-- writer.go:511", "sink := { s'.sink with errs := s.sink.errs ++ [e] } })\n    | none => .ok (true, s')\n  else .ok (true, s)\n\n/-- writer.go:511", "C15")
mut("W15", W, "wWrite", "Write returns the number of bytes accepted last", "| .ok (none, s) => .ok ((p.length, none), s)", "| .ok (none, s) => .ok ((min p.length s.lz.cap, none), s)", "C18")
mut("W16", W, "writeLoop", "a full buffer does not force compression", "let consumeAll := (nn == 0) || decide (nn < p.length)", "let consumeAll := (nn == 0)", "(progress only: one more round)")
mut("W17", W, "zlibHeaderBytes", "check bits are wrong if the remainder is 0", "let remainder := if u16 % 31 = 0 then 31 else u16 % 31", "let remainder := u16 % 31", "C24 C02")
mut("W18", W, "zlibHeaderBytes", "FDICT bit is not set", "if o.dict.isSome then b1 ||| 0x20 else b1", "b1", "C24 C02")
mut("W19", W, "zlibHeaderBytes", "DICTID is little-endian", "[b0, b1] ++ beBytes 4 (Adler.checksum d).toNat", "[b0, b1] ++ leBytes 4 (Adler.checksum d).toNat", "C24 C02")
mut("W20", W, "gzipHeaderBytes", "FNAME and FCOMMENT flags are swapped", "(if h.fileName = [] then 0 else 0x08) |||\n    (if h.comment = [] then 0 else 0x10)", "(if h.fileName = [] then 0 else 0x10) |||\n    (if h.comment = [] then 0 else 0x08)", "C21 C02")
mut("W21", W, "gzipHeaderBytes", "mtime is big-endian", "some t => leBytes 4 (t % 2 ^ 32).toNat", "some t => beBytes 4 (t % 2 ^ 32).toNat", "C21")
mut("W22", W, "writeHeaderGZIP", "the header CRC is not started afresh", "let s := { s with crcOut := Crc.init }\n  (Go.chk", "(Go.chk", "C14 C02: second stream has a wrong CRC16")
mut("W23", W, "writeFooterGZIP", "ISIZE is the total of all streams", "wBufWriteU32 (s.inStream % 2 ^ 32)", "wBufWriteU32 (s.inTotal % 2 ^ 32)", "C14 C02")
mut("W24", W, "writeFooterZlib", "checksum is little-endian", "wBufWrite (beBytes 4 a32.toNat)", "wBufWrite (leBytes 4 a32.toNat)", "C02 C01")
mut("W25", W, "fillHeader", "text detection looks at one byte too few", "isText (s.lz.buf.take 4096)", "isText (s.lz.buf.take 4095)", "C48")
mut("W26", W, "headerOK", "a comment of 256 bytes is accepted", "decide (h.comment.length < 256)", "decide (h.comment.length ≤ 256)", "C22")
mut("W27", W, "headerOK", "an mtime of 2^32 - 1 is accepted", "t ≥ 2 ^ 32 - 1", "t ≥ 2 ^ 32", "C22")
mut("W28", W, "headerOK", "NUL in a comment is accepted", "decide (h.comment.length < 256) && !h.comment.contains 0 &&", "decide (h.comment.length < 256) &&", "C22 (later panic)")
mut("W29", W, "wSetHeader", "a rejected header is stored", "else .ok (false, s)\n\nend Flate.Model", "else .ok (false, { s with header := h })\n\nend Flate.Model", "C22")
mut("W30", W, "hybridOptions", "the window may be larger than announced", "winBits := o.wbits, minLen := 4", "winBits := 15, minLen := 4", "C25 C02")
mut("W31", W, "hybridOptions", "RLE matches may have distance 2", "maxLen := 258, maxDist := some 1 }", "maxLen := 258, maxDist := some 2 }", "C32")
mut("W32", W, "hybridOptions", "Huffman only allows matches", "minLen := 0, maxLen := 0, maxDist := some 0 }", "minLen := 3, maxLen := 258, maxDist := some 1 }", "C32")
mut("W33", W, "storeLoop", "a stored block may be too large", "def storedBlockSize : Nat := 61440", "def storedBlockSize : Nat := 65536", "C10")
mut("W34", W, "writeFooter", "the footer event is sent with the checksums swapped", "wSendEvent (.streamEnd a32 c32)", "wSendEvent (.streamEnd c32 a32)", "C19: Adler-32 in footer events")
mut("W35", W, "writeFooter", "no StreamClose event", "  wSendEvent .streamClose\n  pure true", "  pure true", "C33")
mut("W36", W, "finishClosing", "a finished stream gets its footer only at the next call", "Go.chk finishClosing <|\n  Go.chk sinkFlush sinkSync", "Go.chk sinkFlush sinkSync", "C14 C02 C01")
mut("W37", W, "tokenLoop", "a match is put before the tokens", "(tokens ++ [t])", "([t] ++ tokens)", "C02 C01")
mut("W38", W, "sinkWrite", "after a partial write everything is sent again", "output := s.output.drop k })", "output := s.output })", "(after an error nothing more is written)")
mut("W39", W, "wEvent", "the event carries the input counters in place of the output counters", "outTotal := s.outTotal,\n    outStream := s.outStream", "outTotal := s.inTotal,\n    outStream := s.inStream", "C35")
mut("W40", W, "wBufWriteStringZ", "the terminating NUL is missing", "| none => wBufWrite (str ++ [0])", "| none => wBufWrite str", "C21 C02")
mut("W41", W, "gzExtra", "XLEN is missing", "Go.chk (wBufWriteU16 (xdata.length % 65536)) (wBufWrite xdata)", "wBufWrite xdata", "C21 C02")
mut("W42", W, "extraAsBytes", "the record length includes the record header", "leBytes 2 (r.bytes.length % 65536) ++ r.bytes", "leBytes 2 ((r.bytes.length + 4) % 65536) ++ r.bytes", "C23 C21")
mut("W43", W, "compressSlow", "only part of the tokens are written", "compressTokens wBW s.W L data (tokens ++ [makeStopToken]) false", "compressTokens wBW s.W L data ((tokens.take 16384) ++ [makeStopToken]) false", "C02 C01")
mut("W44", W, "wFlush", "Flush on a closed Writer succeeds", "def wFlush (L : HuffLib) (t : FlushType) : Go WState (Option Err) := fun s =>\n  if s.state = .closed then .ok (some .closed, s)", "def wFlush (L : HuffLib) (t : FlushType) : Go WState (Option Err) := fun s =>\n  if s.state = .closed then .ok (none, s)", "C16")
mut("W45", W, "writeHeader", "numStreams is not counted", "outStream := 0, numStreams := s.numStreams + 1 }", "outStream := 0 }", "C35")

B = "Model/Block.lean"
mut("B01", B, "writeStoredBlock", "LEN and NLEN are swapped", "Go.chk (bw.bufWriteU16 (data.length % 65536)) <|\n  Go.chk (bw.bufWriteU16 (65535 - data.length % 65536)) <|", "Go.chk (bw.bufWriteU16 (65535 - data.length % 65536)) <|\n  Go.chk (bw.bufWriteU16 (data.length % 65536)) <|", "C02 C01")
mut("B02", B, "compressTokens", "the static block is preferred when it is longer", "else if staticLength ≤ dynamicLength then writeStaticBlock", "else if staticLength ≥ dynamicLength then writeStaticBlock", "C29 C30")
mut("B03", B, "compressTokens", "stored blocks are never chosen", "if storedLength < dynamicLength then", "if storedLength < 0 then", "C29")
mut("B04", B, "writeDynamicBlock", "HCLEN is written before HDIST", "Go.chk (bw.bitsWrite 5 (numD - 1)) <|\n  Go.chk (bw.bitsWrite 4 (numX - 4)) <|", "Go.chk (bw.bitsWrite 4 (numX - 4)) <|\n  Go.chk (bw.bitsWrite 5 (numD - 1)) <|", "C02 C28")
mut("B05", B, "trimX", "trims one code length too many", "n + 1 > 4 ∧ sX.getD (scramble.getD n 0) 0 = 0", "n + 1 > 4 ∧ sX.getD (scramble.getD (n - 1) 0) 0 = 0", "C02 C28")
mut("B06", B, "encodeLLD", "distance extra bits are not written", "Go.chk (bw.bitsWrite (hcSize d sd) (hcBits d sd)) <|\n      extraWrite bw sizeD bitsD", "bw.bitsWrite (hcSize d sd) (hcBits d sd)", "C02 C01")
mut("B07", B, "writeStaticBlock", "the event says the block is final", "Go.chk (evStep bw (.blockBegin .static isFinal))", "Go.chk (evStep bw (.blockBegin .static true))", "C33")
mut("B08", B, "bcFlush", "the counter does not round up", "if n % 8 ≠ 0 then n + (8 - n % 8) else n", "n", "(only block choice)")
mut("B09", B, "writeDynamicBlock", "the code length codes are written in natural order", "(fun i => bw.bitsWrite 3 (sX.getD (scramble.getD i 0) 0))", "(fun i => bw.bitsWrite 3 (sX.getD i 0))", "C02 C28")

T = "Model/Token.lean"
mut("T01", T, "Token.symbolLL", "length 258 is coded as 284 with 31 extra", "else if t.ll ≤ 257 then .ok (some (281", "else if t.ll ≤ 258 then .ok (some (281", "C26 (RFC 1951 table)")
mut("T02", T, "Token.symbolD", "distance 4 is taken as extended", "else if t.dist ≤ 4 then .ok", "else if t.dist ≤ 3 then .ok", "(equivalent?)")
mut("T03", T, "makeTreeZeroRunToken", "runs of 11 use the short form", "if count < 11 then", "if count ≤ 11 then", "C27")
mut("T04", T, "encodeNonZero", "a run of 6 is split wrongly", "pure (xt ++ [t], i + 4, run - 4)", "pure (xt ++ [t], i + 4, run - 3)", "C27 C28")
mut("T05", T, "encodeTreeLoop", "stops before the minimum", "if i ≥ min ∧ sizesAllZeroes", "if i + 1 ≥ min ∧ sizesAllZeroes", "C27 C28")
mut("T06", T, "isText", "DEL is accepted", "|| ch == 0x7f)", ")", "C48")
mut("T07", T, "studyLoopLLD", "distance frequencies are not counted", "let fD ← match sD with | some s => bump fD s | none => pure fD\n    studyLoopLLD", "studyLoopLLD", "C02 (symbols without code)")
mut("T08", T, "scramble", "two entries swapped", "[16, 17, 18, 0, 8, 7, 9, 6,", "[16, 17, 18, 0, 7, 8, 9, 6,", "C02 C03 (RFC 1951 order)")
mut("T09", T, "fixedSizesLL", "wrong boundary", "if i < 144 then 8 else", "if i < 143 then 8 else", "C02 C03")

S = "Model/Checksum.lean"
mut("S01", S, "Adler.modulus", "65535", "def modulus : BitVec 32 := 65521#32", "def modulus : BitVec 32 := 65535#32", "C19")
mut("S02", S, "Adler.nmax", "too large: overflow", "def nmax : Nat := 5552", "def nmax : Nat := 6000", "C19")
mut("S03", S, "Crc.sliceLoop", "two tables swapped", "table 5 ((sum >>> 16) &&& 0xff#32).toNat ^^^\n      table 6 ((sum >>> 8)", "table 6 ((sum >>> 16) &&& 0xff#32).toNat ^^^\n      table 5 ((sum >>> 8)", "C20")
mut("S04", S, "Crc.genericUpdate", "no final complement", "    ~~~ sum\n\n/-- crc32.go:92", "    sum\n\n/-- crc32.go:92", "C20")

R = "Model/Reader.lean"
mut("R01", R, "bufRead", "bits left over are not discarded", "let i := discard i\n  if n = 0 then", "if n = 0 then", "C03")
mut("R02", R, "readStored", "NLEN is not checked", "if leVal q ≠ 65535 - leVal p then fail (.storedLen (leVal p) (leVal q) (65535 - leVal p))\n    else needBytes", "needBytes", "C04")
mut("R03", R, "lenSym", "symbol 284 reaches length 258 with symbol 285 rejected", "else if symbol = 285 then some (258, 0)\n", "", "C03 C26")
mut("R04", R, "distSym", "distance symbols 30 and 31 are accepted", "else if symbol < logicalNumDCodes then", "else if symbol < 32 then", "C26 C04")
mut("R05", R, "windowWrite", "the window keeps one byte too few", "(w ++ p).drop ((w ++ p).length - 2 ^ n)", "(w ++ p).drop ((w ++ p).length - (2 ^ n - 1))", "C03")
mut("R06", R, "windowWrite", "the window keeps too much", "(w ++ p).drop ((w ++ p).length - 2 ^ n)", "(w ++ p).drop ((w ++ p).length - 2 ^ (n + 1))", "C25")
mut("R07", R, "readFooterGZIP", "ISIZE is not checked", "else if leVal q ≠ s.out.outStream % 2 ^ 32 then fail (.gzipLength (leVal q) (s.out.outStream % 2 ^ 32)) s\n", "", "C04")
mut("R08", R, "readFooterGZIP", "the CRC is not checked", "if leVal p ≠ c32.toNat then fail (.gzipSum (leVal p) c32.toNat) s\n    else if leVal q", "if leVal q", "C04")
mut("R09", R, "readStream", "the checksums are not reset for the second stream", "    Go.modify fun s => { s with out := { s.out with adler := Adler.init, crc := Crc.init } }\n", "", "C07 (second stream)")
mut("R10", R, "readStream", "the decode buffer is not flushed before the footer", "    onOut fun o => ((), mustFlush E o)\n    readFooter", "    readFooter", "C03")
mut("R11", R, "readHeader", "the window of the previous stream is kept", "out := { s.out with window := match E.o.dict with | none => [] | some d => windowWrite E.o.wbits [] d } }", "out := { s.out with window := match E.o.dict with | none => s.out.window | some d => windowWrite E.o.wbits [] d } }", "C04 C25: distance beyond the start of the stream")
mut("R12", R, "propagateError", "io.EOF is not turned into io.ErrUnexpectedEOF", "if eofIsError && e == .eof then .unexpectedEOF else e", "e", "C05")
mut("R13", R, "closeWithError", "a later error replaces the first", "if o.errorWasSet then ((), o) else ((), {", "if false then ((), o) else ((), {", "C45")
mut("R14", R, "readHeaderZlib", "the window size is not checked", "if 8 + (p0 >>> 4) > E.o.wbits then fail (.zlibWindow (8 + (p0 >>> 4)) E.o.wbits)\n      else do", "if false then fail (.zlibWindow (8 + (p0 >>> 4)) E.o.wbits)\n      else do", "C25")
mut("R15", R, "readHeaderZlib", "a stream without dictionary is accepted by a Reader with one", "          | some d => fail (.dictNeedless (Adler.checksum d).toNat)\n          | none => setZlib", "          | some _ => setZlib\n          | none => setZlib", "C24")
mut("R16", R, "gzCRC16", "the header CRC is not checked", "if c32.toNat % 65536 ≠ leVal p then fail (.gzipHeaderSum (leVal p) (c32.toNat % 65536)) else pure true", "pure true", "C04")
mut("R17", R, "decodeX", "code 17 repeats one more", "pure (some (acc ++ List.replicate (3 + out) 0))", "pure (some (acc ++ List.replicate (4 + out) 0))", "C27 C03 C09")
mut("R18", R, "decodeX", "a run may exceed the total", "if 11 + out > total - acc.length then do\n        corruptf (.repeatMany (11 + out) (total - acc.length))\n        pure none\n      else pure", "pure", "C27 C04")
mut("R19", R, "copyMatch", "the rest of a match is not copied", "copyLoop E distance (length - p.length)", "copyLoop E distance 0", "C03")
mut("R20", R, "lookupSlice", "the distance may be one more than the window holds", "if 1 ≤ distance ∧ distance ≤ w.length then\n    some ((w.drop", "if 1 ≤ distance ∧ distance ≤ w.length + 1 then\n    some ((w.drop", "C25 C04")
mut("R21", R, "readHeaderAuto", "the zlib check is skipped", "if p0.toNat &&& 0x0f = 8 ∧ (p0.toNat * 256 + p1.toNat) % 31 = 0 then", "if p0.toNat &&& 0x0f = 8 then", "C08")
mut("R22", R, "mustFlush", "the checksum does not cover what is flushed last", "| none => { countOut o.decodeBuffer o with", "| none => { o with", "C03 C35")
mut("R23", R, "readFooter", "StreamClose is sent before the footer is checked", "sendEvent (.streamEnd s.out.adler s.out.crc)\n", "sendEvent (.streamEnd s.out.adler s.out.crc)\n      sendEvent .streamClose\n", "C34")
mut("R24", R, "readFooter", "the footer event has swapped checksums", "sendEvent (.streamEnd s.out.adler s.out.crc)", "sendEvent (.streamEnd s.out.crc s.out.adler)", "C34: footer events carry the checksums")
mut("R25", R, "sendEvent", "the event has the stream counters in place of the totals", "inTotal := s.inp.inTotal, inStream := s.inp.inStream, outTotal", "inTotal := s.inp.inStream, inStream := s.inp.inStream, outTotal", "C35")
mut("R26", R, "blockTypeOf", "type 3 is taken as dynamic", "| 3 => .dynamic\n  | _ => .invalid", "| 3 => .dynamic\n  | _ => .dynamic", "C04")
mut("R27", R, "osDecode", "OS 13 is unknown", "if b.toNat < 14 then b.toNat + 1 else 0", "if b.toNat < 13 then b.toNat + 1 else 0", "C21")
mut("R28", R, "readHeaderGZIP", "the comment is stored as the file name", "Go.chk (gzStr (p3 &&& 0x10 ≠ 0) fun str h => { h with comment := str })", "Go.chk (gzStr (p3 &&& 0x10 ≠ 0) fun str h => { h with fileName := str })", "C21")
mut("R29", R, "readHeaderGZIP", "reserved flag bits are accepted", "if p3 &&& 0xe0 ≠ 0 then fail (.gzipFlags (p3 &&& 0xe0))\n      else do", "if false then fail (.gzipFlags (p3 &&& 0xe0))\n      else do", "C04")
mut("R30", R, "readSymbolInp", "decoding starts with one bit more than the shortest code", "symbolLoop L W stopped lens (L.maxSize lens + 2) (L.minSize lens)", "symbolLoop L W stopped lens (L.maxSize lens + 2) (L.minSize lens + 1)", "C03 C49")
mut("R31", R, "bitsFill", "always fills one byte more than needed", "bitsFillLoop W stopped atLeast (atLeast + 1)", "bitsFillLoop W stopped (atLeast + 8) (atLeast + 9)", "C49: looks at more input than needed")
mut("R32", R, "streamLoop", "only one stream is read", "| .ok (true, s) => streamLoop E fuel s", "| .ok (true, s) => .ok ((), s)", "C07 C45")
mut("R33", R, "countIn", "the counter is off by the size of each read", "{ i with inTotal := i.inTotal + p.length, inStream", "{ i with inTotal := i.inTotal + 1, inStream", "C35")
mut("R34", R, "readHeader", "the header of the previous stream is kept", "    Go.modify fun s => { s with header := {} }\n", "", "C21 (second stream)")
mut("R35", R, "readHeaderGZIP", "mtime is read big-endian", "let mtime := leVal ((p.drop 4).take 4)", "let mtime := beVal ((p.drop 4).take 4)", "C21")
mut("R36", R, "checkCounts", "too many literal/length codes are not reported", "if numLL > logicalNumLLCodes then corruptf (.hlit numLL logicalNumLLCodes) else pure ()", "pure ()", "C04")
mut("R37", R, "mustFlush", "after Close the rest is delivered all the same", "let p := o.decodeBuffer.take k\n", "let p := o.decodeBuffer\n", "C43 (goroutine side)")
mut("R38", R, "popByte", "an empty buffer is not refilled twice", "let i := if i.buf.isEmpty then fill stopped i else i\n  match i.buf with\n  | [] => (none, i)\n  | b :: r => (some b, { i with buf := r })", "match i.buf with\n  | [] => (none, fill stopped i)\n  | b :: r => (some b, { i with buf := r })", "C03 C06")

O = "Model/Options.lean"
mut("O01", O, "Options.readerDefaults", "the default window is 14 bits", "wbits := if o.wbits = 0 then 15 else o.wbits", "wbits := if o.wbits = 0 then 14 else o.wbits", "C36")
mut("O02", O, "Options.apply", "options are applied from the last to the first", "opts.foldl Opt.apply o", "opts.reverse.foldl Opt.apply o", "C36")
mut("O03", O, "Options.writerDefaults", "the default format is gzip", "if o.format = .default then .zlib else o.format", "if o.format = .default then .gzip else o.format", "C36")
mut("O04", O, "Opt.apply", "WithStrategy also sets the level", "| .strategy s => { o with strategy := s }", "| .strategy s => { o with strategy := s, clevel := 1 }", "C36")

X = "Model/Text.lean"
mut("X01", X, "clevelParse", "10 is accepted", "| some u => if u > 9 then (false, -1) else (true, u)", "| some u => if u > 10 then (false, -1) else (true, u)", "C37")
mut("X02", X, "wbitsString", "8 is printed as default", "if w < 8 then strDefault", "if w ≤ 8 then strDefault", "C37")
mut("X03", X, "checksumString", "seven digits", "hexFixed 8 c.toNat", "hexFixed 7 c.toNat", "C38")
mut("X04", X, "hexDigit", "upper case without offset", "Char.ofNat ('a'.toNat + (d - 10))", "Char.ofNat ('a'.toNat + (d - 9))", "C38")

E = "Model/Extra.lean"
mut("E01", E, "parseExtraLoop", "records without content are skipped", "pure (r :: rs)", "pure (if recLen = 0 then rs else r :: rs)", "C23 C21")
mut("E02", E, "parseExtraLoop", "the length is big-endian", "let recLen := l0.toNat + 256 * l1.toNat", "let recLen := l1.toNat + 256 * l0.toNat", "C23 C21")

# ---- models added later
TR = "Model/Trace.lean"
mut("N01", TR, "captureHeader", "only the first header is captured", "| .streamHeader h => h\n", "| .streamHeader h => if s = {} then h else s\n", "C60")
mut("N02", TR, "notifyAll", "an event goes to the first tracer only", "⟨t, s⟩ :: r => ⟨t, t.onEvent e s⟩ :: notifyAll e r", "⟨t, s⟩ :: r => ⟨t, t.onEvent e s⟩ :: r", "C60")
AL = "Model/Alias.lean"
mut("N03", AL, "ACall.keeps", "a rejected header's records are kept all the same", "if headerOK { h with extra := m.recs x } then some x else old", "some x", "C65 (partial: a rejected header leaves no reference)")
mut("N04", AL, "ASt.look", "the Writer has a copy of the records", "| some x => { s.w with header := { s.w.header with extra := s.mem.recs x } }", "| some _ => s.w", "C65_fails (the counterexample vanishes)")
WC = "Model/WConc.lean"
mut("N05", WC, "Step.lock", "the mutex is not checked", "M.early c = none → s.mu = none → Step s .lock", "M.early c = none → Step s .lock", "C63")
mut("N06", WC, "Step.unlock", "the mutex is not released", "pcs := s.pcs.set i .idle, mu := none }", "pcs := s.pcs.set i .idle }", "C63 C64 (progress)")
mut("N07", WC, "Step.ret", "the result is logged before the state changes", "pcs := s.pcs.set i .held, mem := m, log", "pcs := s.pcs.set i .held, log", "C63")
mut("N08", WC, "early", "an invalid header is not rejected early", "if headerOK h then none else some (.op (.header false))", "if headerOK h then none else some (.op (.header true))", "C63")
mut("N09", WC, "wNext", "an iteration of Write drops what the buffer did not take", "some (.inl (.loop fuel (p.drop nn) n), s)", "some (.inl (.loop fuel [] n), s)", "C63 (the steps are the code's)")
G = "Model/Gzip.lean"
mut("N10", G, "copyIn", "an error of Write is ignored", "if ew ≠ none ∨ n ≠ p.length then .ok (false, s)", "if n ≠ p.length then .ok (false, s)", "C54 (status 0 only if complete)")
mut("N11", G, "Flags.fmt", "the default format is the library's", "if f.format = .default ∧ f.decompress = false then .gzip else f.format", "f.format", "C54")
mut("N12", G, "compress", "the result of FinishFlush is ignored", "| .ok (some _, s) => .ok (false, s)\n    | .ok (none, s)", "| .ok (_, s)", "C54")
mut("N13", G, "compress", "the result of Close is ignored", "| .ok (e, s) => .ok (e.isNone, s)", "| .ok (_, s) => .ok (true, s)", "C54")
mut("N14", G, "afterRead", "every error of Read is taken for the end", "| some .eof => (.copied, k)\n    | some _ => (.exit 1, k)", "| some _ => (.copied, k)", "C55")
mut("N15", G, "afterRead", "an error of Stdout is ignored", "| (false, k) => (.exit 1, k)", "| (false, k) => (.copy, k)", "C55")
mut("N16", G, "Flags.level", "of several digits the largest counts", "(List.range 10).find? f.digit", "(List.range 10).reverse.find? f.digit", "C56")
mut("N17", G, "Flags.opts", "the dictionary is forgotten", "| some d => [.dict (some d)]", "| some _ => []", "C54 C55 (with a dictionary)")
mut("N18", G, "Flags.header", "the comment is forgotten", "{ fileName := f.fileName, comment := f.comment, lastModified", "{ fileName := f.fileName, lastModified", "C54 (header)")
A = "Model/CrcArch.lean"
mut("N19", A, "r5", "wrong constant", "0x163cd6124#64", "0x163cd6125#64", "C50")
mut("N20", A, "r4r3", "constants swapped", "quads 0x1751997d0#64 0x0ccaa009e#64", "quads 0x0ccaa009e#64 0x1751997d0#64", "C50")
mut("N21", A, "loop64", "a load at the wrong offset", "(foldX r2r1 x4 ^^^ load128 p 48)", "(foldX r2r1 x4 ^^^ load128 p 32)", "C50")
mut("N22", A, "finish", "wrong selector", "let x0 := pclmul 1 x1 r4r3", "let x0 := pclmul 0 x1 r4r3", "C50")
mut("N23", A, "amd64Update", "the rest is not aligned to 16", "let n := p.length - p.length % 16", "let n := p.length - p.length % 8", "C50")
mut("N24", A, "armStep", "the bit of a wrong length is tested", "armStep 2 1 r11 (armStep 4 2 r11 x)", "armStep 2 2 r11 (armStep 4 1 r11 x)", "C50")
mut("N25", A, "arm64Update", "no final complement", "~~~ armUpdate (~~~ sum) p", "armUpdate (~~~ sum) p", "C50")
mut("N26", "Model/Writer.lean", "wReset", "the history is not cleared", "lz := { s.lz with hist := [], buf := [] }", "lz := { s.lz with buf := [] }", "C17")
mut("N27", "Model/Writer.lean", "wReset", "output of the old Writer is kept", "buf := [] },\n                      output := [] }", "buf := [] } }", "C17")
mut("N28", "Model/Writer.lean", "wReset", "the error is not cleared", "sink := w, err := none, state := .noStream", "sink := w, state := .noStream", "C17")
mut("N29", "Model/Writer.lean", "writeFooterGZIP", "the second write is not tried after a failure: the result of the first is dropped", "pure (ok1 && ok2)", "pure ok2", "C15 C51")
mut("N30", "Model/Writer.lean", "compressSlow", "nothing is compressed below 8192 bytes", "if available < 4096 ∧", "if available < 8192 ∧", "C10 (sharp bound)")
mut("N31", "Model/Writer.lean", "outLoop", "the counter counts what was offered", "outTotal := s.outTotal + nn, outStream", "outTotal := s.outTotal + p.length, outStream", "C35")
RR = "Model/Reader.lean"
mut("N32", RR, "rReset", "decoded data of the old source is kept", "out := { s.out with decodeBuffer := [], window := []", "out := { s.out with window := []", "C50")
mut("N33", RR, "rReset", "input of the old source is kept", "src := src, inputError := none, buf := [] }", "src := src, inputError := none }", "C50")
mut("N34", RR, "rReset", "the input error is kept", "src := src, inputError := none, buf := [] }", "src := src, buf := [] }", "C50")
mut("N35", RR, "readFooter", "the rest of the last byte is not dropped", "onInp fun _ i => .ok ((), discard i)\n  fun s =>", "onInp fun _ i => .ok ((), i)\n  fun s =>", "C03 (the next byte-wise read drops it: equivalent?)")
mut("N36", RR, "ROptions.reset", "Reset forgets the earlier options", "({ format := o.format, mlevel := o.mlevel, wbits := o.wbits, dict := o.dict, tracers := o.tracers } : Options)", "({} : Options)", "C50")
mut("N37", RR, "readHeader", "the stream counters are not reset", "inp := { s.inp with inStream := 0 }, out := { s.out with outStream := 0 }", "inp := { s.inp with inStream := 0 }", "C35 C03 (ISIZE)")
mut("N38", RR, "readStream", "the Adler-32 is not reset", "{ s.out with adler := Adler.init, crc := Crc.init }", "{ s.out with crc := Crc.init }", "C03 C07 (second stream)")
mut("N39", RR, "readFooter", "StreamClose is sent regardless", "Go.chk (readFooterOf s.actualFormat s.out.adler s.out.crc) do\n        sendEvent .streamClose\n        pure true", "(do\n        let ok ← readFooterOf s.actualFormat s.out.adler s.out.crc\n        sendEvent .streamClose\n        pure ok)", "C34")
mut("N40", RR, "copyMatch", "a match is copied one byte too long", "copyLoop E distance (length - p.length)", "copyLoop E distance (length + 1 - p.length)", "C03 C66")
mut("N41", RR, "dbWriteLoop", "bytes are written twice when the buffer is full", "dbWriteLoop E fuel (p.drop nn)", "dbWriteLoop E fuel (p.drop (nn - 1))", "C03 C66")
BK = "Model/Block.lean"
mut("N42", BK, "writeDynamicBlock", "the event's code counts are swapped", "llCount := numLL, dCount := numD, codeSizes := sX, ll := sLL, d := sD })) <|", "llCount := numD, dCount := numLL, codeSizes := sX, ll := sLL, d := sD })) <|", "C70")
mut("N43", BK, "writeDynamicBlock", "the event gives the distance code as the literal code", "codeSizes := sX, ll := sLL, d := sD })) <|", "codeSizes := sX, ll := sD, d := sLL })) <|", "C70")
mut("N44", BK, "writeDynamicBlock", "the event's code length count is that of the untrimmed code", "{ codeCount := numX, llCount := numLL", "{ codeCount := physicalNumXCodes, llCount := numLL", "C70")
mut("N45", BK, "writeStaticBlock", "the event says that the block is dynamic", "Go.chk (evStep bw (.blockTrees .static isFinal", "Go.chk (evStep bw (.blockTrees .dynamic isFinal", "C70 C35")
mut("N46", BK, "writeStoredBlock", "BlockEnd is sent before the data is written", "Go.chk (bw.bufWrite data) <|\n  evStep bw (.blockEnd .stored isFinal)", "Go.chk (evStep bw (.blockEnd .stored isFinal)) <|\n  bw.bufWrite data", "C70")
mut("N47", BK, "writeStaticBlock", "BlockBegin is sent after the block's type", "Go.chk (evStep bw (.blockBegin .static isFinal)) <|\n  Go.chk (bw.bitsWrite 3 (if isFinal then 3 else 2)) <|", "Go.chk (bw.bitsWrite 3 (if isFinal then 3 else 2)) <|\n  Go.chk (evStep bw (.blockBegin .static isFinal)) <|", "C70")
mut("N48", BK, "writeDynamicBlock", "the event's code length code is empty", "codeSizes := sX, ll := sLL, d := sD })) <|", "codeSizes := [], ll := sLL, d := sD })) <|", "C70")
mut("N49", RR, "readDynamicTrees", "the event's code counts are swapped", "llCount := numLL, dCount := numD, codeSizes := sX, ll := sLL, d := sD })\n", "llCount := numD, dCount := numLL, codeSizes := sX, ll := sLL, d := sD })\n", "C68")
mut("N50", RR, "readDynamicTrees", "the event gives the distance code as the literal code", "codeSizes := sX, ll := sLL, d := sD })\n", "codeSizes := sX, ll := sD, d := sLL })\n", "C68")
mut("N51", RR, "readFlateBlock", "BlockEnd is sent for broken blocks, too", "    if isOK then do\n      sendEvent (.blockEnd bt isFinal)\n      pure (some isFinal)", "    sendEvent (.blockEnd bt isFinal)\n    if isOK then do\n      pure (some isFinal)", "C68 C34")
mut("N52", RR, "checkCounts", "HLIT is not checked", "  if numLL > logicalNumLLCodes then corruptf (.hlit numLL logicalNumLLCodes) else pure ()\n", "", "C69 C06")
mut("N53", RR, "blockTypeOf", "static and dynamic are confused", "  | 2 => .static\n  | 3 => .dynamic", "  | 2 => .dynamic\n  | 3 => .static", "C68 C03")
mut("N54", RR, "readStatic", "no BlockTrees event for static blocks", "  sendEvent (.blockTrees .static isFinal { ll := fixedSizesLL, d := fixedSizesD })\n", "", "C68 C34")
mut("N55", RR, "readFooterGZIP", "only the low half of the CRC is compared", "if leVal p ≠ c32.toNat then", "if leVal p % 65536 ≠ c32.toNat % 65536 then", "C71 C04")
mut("N56", RR, "readFooterZlib", "only the low half of the checksum is compared", "beVal p ≠ a32.toNat then", "beVal p % 65536 ≠ a32.toNat % 65536 then", "C71 C04")
PL = "Model/Pool.lean"
mut("N57", PL, "PGo.pooled", "the slice is not truncated before it is given back", "(f p s).bind fun r => .store p kd.empty (.put kd p (.done r))", "(f p s).bind fun r => .put kd p (.done r)", "C74")
mut("N58", PL, "PGo.pooled", "the slice is given back before it is used", ".get kd fun p => (f p s).bind fun r => .store p kd.empty (.put kd p (.done r))", ".get kd fun p => .put kd p (f p s)", "C74")
mut("N59", PL, "writeDynamicBlockP", "the code lengths' tokens are appended to the block's tokens", "pooled .tokens (writeTreesP bw L sLL sD tok n isFinal)", "writeTreesP bw L sLL sD tok n isFinal tok", "C74")
mut("N60", PL, "compressSlowP", "the stop token is forgotten", "    store tok (.tokens ((← load tok).toks ++ [makeStopToken]))\n", "", "C74")
EN = "Model/Enum.lean"
mut("N61", EN, "formatData", "the alias \"default\" belongs to gzip", "name := \"gzip\".toList }", "name := \"gzip\".toList, aliases := [\"default\".toList] }", "C72")
mut("N62", EN, "strategyData", "two strategies have the same name", "name := \"huffman-rle\".toList", "name := \"huffman-only\".toList", "C72")
mut("N63", EN, "osTypeData", "the JSON of two systems is the same", "json := \"\\\"OSTypeTOPS20\\\"\".toList", "json := \"\\\"OSTypeCPM\\\"\".toList", "C72")
mut("N64", EN, "jsonNums", "no commas", "',' :: fmtDec b", "fmtDec b", "C73")
mut("N65", EN, "sizeListMarshal", "nil is an empty array", "| none => \"null\".toList", "| none => \"[]\".toList", "C73")
mut("N66", W, "flushImpl", "the file is synced before the buffered writer is flushed", "  Go.chk sinkFlush sinkSync", "  Go.chk sinkSync sinkFlush", "C76")
mut("N67", W, "flushImpl", "the underlying writer is not synced", "  Go.chk sinkFlush sinkSync", "  sinkFlush", "C76")
mut("N68", W, "sinkFlush", "the flush is skipped for closed streams", "  if s.sink.hasFlush then\n", "  if s.sink.hasFlush ∧ s.state ≠ .closedStream then\n", "C76")
mut("N69", W, "compressStore", "stored blocks wait for 64 KiB", "if available < storedBlockSize ∧", "if available < 65536 ∧", "C75 (no: the cap decides; C75_exact)")
mut("N70", W, "flushImpl", "the footer is written after the sink was flushed", "  Go.chk finishClosing <|\n  Go.chk sinkFlush sinkSync", "  Go.chk sinkFlush <|\n  Go.chk sinkSync finishClosing", "C76")
SH = "Model/Share.lean"
mut("N71", SH, "withDictionary", "the dictionary is not copied", "    let (t, s) := s.copyB r\n    s.give (.dict (some t))", "    s.give (.dict (some r))", "C78")
mut("N72", SH, "getDict", "Dict() returns the array itself", "    let (t, s) := s.copyB r\n    (.dict (some (s.heapB.getD t [])), { s with bytes := s.bytes ++ [t] })", "    (.dict (some (s.heapB.getD r [])), { s with bytes := s.bytes ++ [r] })", "C78")
mut("N73", SH, "withTracers", "the list of tracers is not copied", "    let (t, s) := s.copyT r\n    s.give (.tracers (some t))", "    s.give (.tracers (some r))", "C78")
mut("N74", SH, "newWriter", "a new Writer has the Reader's defaults", "(({} : Fields).apply opts).writerDefaults", "(({} : Fields).apply opts).readerDefaults", "C78")
mut("N75", SH, "Obj.reset", "Reset without options keeps the underlying Writer", "then { x with under := w }", "then x", "C78")
mut("N76", W, "flushGuts", "SyncFlush writes two empty blocks", "  | .syncFlush => writeStoredBlock wBW [] false", "  | .syncFlush => Go.chk (writeStoredBlock wBW [] false) (writeStoredBlock wBW [] false)", "C77")
mut("N77", W, "compressSlow", "a block for every 16 bytes", "if available < 4096 ∧ consumeAll = false", "if available < 16 ∧ consumeAll = false", "C77")
mut("N78", W, "writeLoop", "every Write makes a block", "let consumeAll := (nn == 0) || decide (nn < p.length)", "let consumeAll := true", "C77")
mut("N79", "Model/Block.lean", "compressTokens", "the larger of the two Huffman encodings is chosen", "else if staticLength ≤ dynamicLength then", "else if staticLength ≥ dynamicLength then", "C77 C29")
HS = "Model/Hash.lean"
mut("N80", HS, "adlerStep", "Sum changes the state", "| .sum s => (.slice (s ++ beBytes 4 h.toNat), h)\n  | .sum32 => (.word h, h)\n  | .reset => (.unit, 1#32)", "| .sum s => (.slice (s ++ beBytes 4 h.toNat), 1#32)\n  | .sum32 => (.word h, h)\n  | .reset => (.unit, 1#32)", "C79")
mut("N81", HS, "adlerStep", "Reset sets the sum to zero", "(.unit, 1#32)", "(.unit, 0#32)", "C79")
mut("N82", HS, "crcStep", "Sum does not append but overwrites", "| .sum s => (.slice (s ++ beBytes 4 h.toNat), h)\n  | .sum32 => (.word h, h)\n  | .reset => (.unit, 0#32)", "| .sum _ => (.slice (beBytes 4 h.toNat), h)\n  | .sum32 => (.word h, h)\n  | .reset => (.unit, 0#32)", "C79")
mut("N83", HS, "newCrc", "a new hash starts with ones", "def newCrc : BitVec 32 := 0#32", "def newCrc : BitVec 32 := 0xffffffff#32", "C79")
mut("N84", HS, "crcStep", "the bytes of the sum are in little-endian order", "| .sum s => (.slice (s ++ beBytes 4 h.toNat), h)\n  | .sum32 => (.word h, h)\n  | .reset => (.unit, 0#32)", "| .sum s => (.slice (s ++ leBytes 4 h.toNat), h)\n  | .sum32 => (.word h, h)\n  | .reset => (.unit, 0#32)", "C79")
CC = "Model/Conc.lean"
mut("N85", CC, "Step.fl5end", "the goroutine does not check whether there is space", "| fl5end {p : List UInt8} {cs : List CPc} : s.th = .fl5 p → s.buf.length + p.length ≤ s.cap → Signal1 s.cls cs →", "| fl5end {p : List UInt8} {cs : List CPc} : s.th = .fl5 p → Signal1 s.cls cs →", "C80")
mut("N86", CC, "Step.fl5", "part of the data is copied, but not removed", "Step s .thread { s with th := .fl1 r, mu1 := none, mu2 := none, buf := s.buf ++ q, cls := cs }", "Step s .thread { s with th := .fl1 p, mu1 := none, mu2 := none, buf := s.buf ++ q, cls := cs }", "C80 C41 C66")
RR = "Model/Reader.lean"
mut("N87", RR, "tryFlush", "the decode buffer is flushed when it is over-full only", "if o.decodeBuffer.length ≥ E.cap then mustFlush E o else o", "if o.decodeBuffer.length > E.cap then mustFlush E o else o", "C80 C03")
CF = "Model/Config.lean"
mut("N88", CF, "compressConfigs", "level 1 stores", "⟨0x0004, 0x0004, 0x0008, 0x0004, .fast⟩", "⟨0x0004, 0x0004, 0x0008, 0x0004, .store⟩", "C81")
mut("N89", CF, "compressConfig", "the index is off by one", "compressConfigs[2 + o.clevel.toNat]?", "compressConfigs[3 + o.clevel.toNat]?", "C81")
mut("N90", W, "hybridOptions", "low levels look for matches in a smaller window", "| _ => { bufBits := o.mlevel + 8, winBits := o.wbits,", "| _ => { bufBits := o.mlevel + 8, winBits := if o.clevel < 4 then 8 else o.wbits,", "C81")
mut("N91", W, "hybridOptions", "FixedStrategy has another minimum match length", "minLen := 4, maxLen := 258, maxDist := none }", "minLen := if o.strategy = .fixed then 3 else 4, maxLen := 258, maxDist := none }", "C81")
mut("N92", W, "fLevel", "wrong boundary", "else if o.clevel < 6 then 1", "else if o.clevel ≤ 6 then 1", "C13 (hint)")
mut("N93", W, "gzipHeaderBytes", "the hint for slow compression is given from level 8", "else if o.clevel = 9 then 0x02", "else if o.clevel ≥ 8 then 0x02", "C13 (hint)")
mut("N94", W, "wBitsFlush", "eight bytes regardless of the platform", "(leBytes (s.W / 8) s.obBlock).take", "(leBytes 4 s.obBlock).take", "C82 C01")
mut("N95", W, "makeMask", "wrong mask for a full word", "else if shift ≥ W then 2 ^ W - 1 else 2 ^ shift - 1\n\n/-- writer.go:877", "else if shift ≥ W then 0 else 2 ^ shift - 1\n\n/-- writer.go:877", "C82 C01")
mut("N96", W, "bitsLoop", "the word is written one bit early", "let shiftB := min (s.W - shiftA) inLen", "let shiftB := min (32 - shiftA) inLen", "C82 C01")
mut("N97", W, "wBitsFlush", "a complete word is written", ".take ((s.obLen + 7) / 8)) { s with obLen := 0, obBlock := 0 }", ".take (s.W / 8)) { s with obLen := 0, obBlock := 0 }", "C82 C01")
mut("N98", RR, "bitsFillLoop", "shifted bits are lost beyond 16", "((ch.toNat <<< i.ibLen) % 2 ^ W)", "((ch.toNat <<< i.ibLen) % 2 ^ (W / 2))", "C83 C03")
mut("N99", RR, "bitsFill", "more bits are read ahead on 64-bit platforms", "  bitsFillLoop W stopped atLeast (atLeast + 1)", "  bitsFillLoop W stopped (if W = 64 then atLeast + 8 else atLeast) (atLeast + 9)", "C83")
mut("N100", RR, "copyMatch", "the rest of a match is forgotten when the slice is short", "      copyLoop E distance (length - p.length) : Go RState Bool) s", "      if p.length < length ∧ p.length < distance then pure true else copyLoop E distance (length - p.length) : Go RState Bool) s", "C84 C03")
mut("N101", RR, "mustFlush", "a flush of more than 64 bytes is not counted", "| none => { countOut o.decodeBuffer o with acts", "| none => { countOut (o.decodeBuffer.take 64) o with acts", "C84 C03 C35")
mut("N102", RR, "dbWriteLoop", "the window gets bytes only while the buffer has space", "window := windowWrite E.o.wbits o.window (p.take nn) }", "window := if nn < p.length then o.window else windowWrite E.o.wbits o.window (p.take nn) }", "C84 C03")
mut("N103", "Model/Gzip.lean", "Flags.dictionary", "the file's name is the dictionary", "if c = 0x40 then (readFile name).map some else some (some f.dict)", "some (some f.dict)", "C55 (flags) C57")
mut("N104", "Model/Gzip.lean", "Flags.fmt", "decompression assumes gzip", "if f.format = .default ∧ f.decompress = false then .gzip else f.format", "if f.format = .default then .gzip else f.format", "C55 (flags)")
mut("N105", RR, "corruptf", "the two offsets are swapped", ".corrupt s.inp.inTotal s.inp.inStream problem", ".corrupt s.inp.inStream s.inp.inTotal problem", "C86")
mut("N106", RR, "readHeader", "the offset within the stream is not reset when a stream begins", "{ s with inp := { s.inp with inStream := 0 }, out := { s.out with outStream := 0 } }", "{ s with out := { s.out with outStream := 0 } }", "C86")
mut("N107", RR, "countIn", "the total is not updated", "{ i with inTotal := i.inTotal + p.length, inStream", "{ i with inStream", "C86")
mut("N108", RR, "stringZLoop", "the zero byte is not counted", "let i := countIn [ch] i\n      if ch = 0 then .ok ((acc, true), i) else", "if ch = 0 then .ok ((acc, true), i) else let i := countIn [ch] i;", "C86")
mut("N109", RR, "corruptf", "the offset reported is that before the last byte", ".corrupt s.inp.inTotal s.inp.inStream problem", ".corrupt (s.inp.inTotal - 1) (s.inp.inStream - 1) problem", "C86")
mut("N110", W, "compressStore", "a stored block for every 256 bytes", "if available < storedBlockSize ∧ consumeAll = false", "if available < 256 ∧ consumeAll = false", "C87")
mut("N111", W, "writeLoop", "every Write of more than one byte makes a block", "let consumeAll := (nn == 0) || decide (nn < p.length)", "let consumeAll := (nn == 0) || decide (nn < p.length) || decide (1 < nn)", "C87")
mut("N112", W, "fillHeader", "the kind of data is always guessed", "dataType := if s.header.dataType = .unknown then (if isText (s.lz.buf.take 4096) then .text else .binary)\n      else s.header.dataType", "dataType := (if isText (s.lz.buf.take 4096) then .text else .binary)", "C87")
mut("N113", RR, "readHeaderGZIP", "what does not look like gzip is silently ignored", 'fail .gzipMagic', "pure false", "C88 C04")
mut("N114", RR, "streamLoop", "after the first stream the loop ends", "| .ok (true, s) => streamLoop E fuel s", "| .ok (true, s) => .ok ((), s)", "C07 C88")
mut("N115", RR, "readStream", "the data of a stream is delivered only after the next one has begun", "    onOut fun o => ((), mustFlush E o)\n", "", "C88 C03")

LG = "Model/Log.lean"
mut("N116", LG, "escape", "a quotation mark in a string is not escaped", "if c = '\"' ∨ c = '\\\\' then", "if c = '\\\\' then", "C89")
mut("N117", LG, "escape", "control characters are written with upper and lower half swapped", "hexDigit (c.toNat / 16), hexDigit (c.toNat % 16)]", "hexDigit (c.toNat % 16), hexDigit (c.toNat / 16)]", "C89")
mut("N118", LG, "yearDay", "the last day of a leap year falls into the next year", "let n1 := min (d / 365) 3", "let n1 := d / 365", "C89")
mut("N119", LG, "cumulative", "no leap day in February", "if isLeap y then [0, 31, 60, 91, 121, 152, 182, 213, 244, 274, 305, 335] else", "if isLeap y then [0, 31, 59, 90, 120, 151, 181, 212, 243, 273, 304, 335] else", "C89")
mut("N120", LG, "timeText", "the sign of the zone is wrong", "(if off < 0 then '-' else '+')", "(if off < 0 then '+' else '-')", "C89")
mut("N121", LG, "base64", "bits of the second byte are lost", "base64Digit (b.toNat % 16 * 4 + c.toNat / 64)", "base64Digit (b.toNat % 8 * 4 + c.toNat / 64)", "C89")
mut("N122", LG, "footerText", "the checksums are swapped", '("Adler32", checksumMarshal adler), ("CRC32", checksumMarshal crc)', '("Adler32", checksumMarshal crc), ("CRC32", checksumMarshal adler)', "C89")
mut("N123", LG, "eventText", "InputBytesStream shows the total", '("InputBytesStream", fmtDec e.inStream)', '("InputBytesStream", fmtDec e.inTotal)', "C89")
mut("N124", LG, "partsText", "BlockEnd events have no block", "| .blockBegin t f | .blockEnd t f => some (jsonNull, blockText t f, jsonNull, jsonNull)", "| .blockEnd _ _ => some (jsonNull, jsonNull, jsonNull, jsonNull)\n  | .blockBegin t f => some (jsonNull, blockText t f, jsonNull, jsonNull)", "C89")
mut("N125", LG, "decodeRune", "surrogates and overlong forms of three bytes are accepted as they are", "if cont b ∧ cont c ∧ 0x800 ≤ v ∧ v.isValidChar then (some (Char.ofNat v), 2)", "if cont b ∧ cont c ∧ 0x1000 ≤ v ∧ v.isValidChar then (some (Char.ofNat v), 2)", "C89")
mut("N126", LG, "headerText", "file name and comment are swapped", '("FileName", jsonString E.html h.fileName), ("Comment", jsonString E.html h.comment)', '("FileName", jsonString E.html h.comment), ("Comment", jsonString E.html h.fileName)', "C89")
mut("N127", LG, "headerText", "the last operating system cannot be marshalled", "if h.osType < osTypeData.length then", "if h.osType + 1 < osTypeData.length then", "C89")

# C90
RC = "Model/Race.lean"
mut("N128", C, "Step.gt0", "a getter does not wait for mu1", "  | gt0 {i : Nat} : s.cls[i]? = some .gt0 → s.mu1 = none → Step s", "  | gt0 {i : Nat} : s.cls[i]? = some .gt0 → Step s", "C90")
mut("N129", C, "Step.rs1", "Reset does not lock mu2", "  | rs1 {i : Nat} {sc : List Act} : s.cls[i]? = some (.rs1 sc) → s.mu2 = none → Step s (.client i) { s.setC i (.rs2 sc) with mu2 := some (.client i) }", "  | rs1 {i : Nat} {sc : List Act} : s.cls[i]? = some (.rs1 sc) → Step s (.client i) (s.setC i (.rs2 sc))", "C90")
mut("N130", RC, "threadAccess", "the goroutine looks at decodeBuffer after it has released mu1", "  | .fl2 _ => [(.outputBuffer, .read)]", "  | .fl2 _ => [(.outputBuffer, .read), (.decodeBuffer, .read)]", "C90")
mut("N131", RC, "threadAccess", "closeWithError sets outputError before it locks mu2", "(.readThreadWasStopped, .write)]\n  /- reader.go:1378", "(.readThreadWasStopped, .write), (.outputError, .write)]\n  /- reader.go:1378", "C90")
mut("N132", RC, "callerAccess", "the table forgets that Close reads readThreadWasStopped", "  | .cl1 => [(.readThreadWasStarted, .read), (.readThreadWasStopped, .read)]", "  | .cl1 => [(.readThreadWasStarted, .read)]", "C90")
mut("N133", RC, "callerAccess", "Format reads the options before it locks mu1", "  | .gt1 => [(.options, .read)]", "  | .gt0 => [(.options, .read)]", "C90")
mut("N134", C, "Step.exit", "wg.Done is called twice", "stopped := true, zomb := s.zomb + 1 }", "stopped := true, zomb := s.zomb + 2 }", "C90")
mut("N135", C, "Step.cl6", "Close keeps mu1", "  | cl6 {i : Nat} : s.cls[i]? = some .cl6 → Step s (.client i) { s.setC i .idle with mu1 := none,", "  | cl6 {i : Nat} : s.cls[i]? = some .cl6 → Step s (.client i) { s.setC i .idle with", "C90 C42")

# C91
mut("N136", RR, "readHeaderZlib", "two messages are exchanged", 'if u16 % 31 ≠ 0 then fail (.zlibCheck u16 (u16 % 31))\n    else if p0 &&& 0x0f ≠ 8 then fail (.zlibMethod (p0 &&& 0x0f))', 'if u16 % 31 ≠ 0 then fail (.zlibMethod (p0 &&& 0x0f))\n    else if p0 &&& 0x0f ≠ 8 then fail (.zlibCheck u16 (u16 % 31))', "C91")
mut("N137", RR, "readHeaderZlib", "the method is looked at before the check bits", 'if u16 % 31 ≠ 0 then fail (.zlibCheck u16 (u16 % 31))\n    else if p0 &&& 0x0f ≠ 8 then fail (.zlibMethod (p0 &&& 0x0f))', 'if p0 &&& 0x0f ≠ 8 then fail (.zlibMethod (p0 &&& 0x0f))\n    else if u16 % 31 ≠ 0 then fail (.zlibCheck u16 (u16 % 31))', "C91")
mut("N138", RR, "readFooterGZIP", "the messages about checksum and length are exchanged", 'fail (.gzipSum (leVal p) c32.toNat) s\n    else if leVal q ≠ s.out.outStream % 2 ^ 32 then fail (.gzipLength (leVal q) (s.out.outStream % 2 ^ 32)) s', 'fail (.gzipLength (leVal q) (s.out.outStream % 2 ^ 32)) s\n    else if leVal q ≠ s.out.outStream % 2 ^ 32 then fail (.gzipSum (leVal p) c32.toNat) s', "C91")
mut("N139", RR, "distOf", "a bad distance symbol is called a literal/length symbol", 'corruptf (.badDist symbol)', 'corruptf (.badLitLen symbol)', "C91")
mut("N140", RR, "checkCounts", "HDIST is checked first", '  if numLL > logicalNumLLCodes then corruptf (.hlit numLL logicalNumLLCodes) else pure ()\n  if numD > logicalNumDCodes then corruptf (.hdist numD logicalNumDCodes) else pure ()', '  if numD > logicalNumDCodes then corruptf (.hdist numD logicalNumDCodes) else pure ()\n  if numLL > logicalNumLLCodes then corruptf (.hlit numLL logicalNumLLCodes) else pure ()', "C91")
mut("N141", RR, "readTrees", "the message about the distance code says literal/length", 'corruptf .distCode', 'corruptf .litLenCode', "C91")
mut("N142", RR, "readStored", "a wrong complement is called a reserved block type", 'fail (.storedLen (leVal p) (leVal q) (65535 - leVal p))', 'fail .reserved', "C91")
mut("N143", RR, "readHeaderZlib", "the two messages about dictionaries are exchanged", '| none => fail (.dictNeeded (beVal q))', '| none => fail (.dictNeedless (beVal q))', "C91")
mut("N144", RR, "readHeaderZlib", "the position reported for a window too big includes a further byte", 'if 8 + (p0 >>> 4) > E.o.wbits then fail (.zlibWindow (8 + (p0 >>> 4)) E.o.wbits)', 'if 8 + (p0 >>> 4) > E.o.wbits then needBytes false 1 fun _ => fail (.zlibWindow (8 + (p0 >>> 4)) E.o.wbits)', "C91")

# C92
mut("N145", RR, "readHeaderZlib", "the dictionary identifier is not compared", "if beVal q ≠ (Adler.checksum d).toNat then fail", "if beVal q ≠ beVal q then fail", "C92")
mut("N146", RR, "checkCounts", "31 and 32 distance codes are not complained about", 'if numD > logicalNumDCodes then corruptf (.hdist numD logicalNumDCodes) else pure ()', 'if numD > physicalNumDCodes then corruptf (.hdist numD logicalNumDCodes) else pure ()', "C92")
mut("N147", RR, "readFooterZlib", "the checksum is not checked when it is zero", "if beVal p ≠ a32.toNat then fail", "if beVal p ≠ a32.toNat ∧ beVal p ≠ 0 then fail", "C92")
mut("N148", RR, "gzCRC16", "the header checksum is compared in one byte only", "if c32.toNat % 65536 ≠ leVal p then fail", "if c32.toNat % 256 ≠ leVal p % 256 then fail", "C92")

# C93
mut("N149", RR, "readStream", "what is left in decodeBuffer is thrown away when there is an error", "    onOut fun o => ((), mustFlush E o)\n    readFooter", "    onOut fun o => ((), if o.errorWasSet then { o with decodeBuffer := [] } else mustFlush E o)\n    readFooter", "C93")
mut("N150", RR, "tryFlush", "decodeBuffer is flushed when it is twice as full", "if o.decodeBuffer.length ≥ E.cap then mustFlush E o else o", "if o.decodeBuffer.length ≥ 2 * E.cap then mustFlush E o else o", "C93")

# C94
CL = "Model/CmdLine.lean"
mut("N151", CL, "Setting.apply", "the first memory level counts", "{ f with mlevel := v }", "{ f with mlevel := if f.mlevel = 0 then v else f.mlevel }", "C94")
mut("N152", CL, "Setting.apply", "--window-size-bits sets the memory level", "{ f with wbits := v }", "{ f with mlevel := v }", "C94")
mut("N153", CL, "parsed", "an error of Parse is ignored", "if r.1 then some r.2 else none", "some r.2", "C94")
mut("N154", CL, "timeSet", "the Unix epoch is taken for no time", "if t = noTime then none else some t", "if t = 0 then none else some t", "C94")

# C95
NT = "Model/Notify.lean"
mut("N155", NT, "EStep.other", "the goroutine flushes before it sends the events due", "(l = .thread → s.rd.th = .run → s.rd.forced = false → ¬ s.Due ∨ ∃ e r, s.rd.acts = .err e :: r)", "(l = .thread → s.rd.th = .run → True)", "C95")
mut("N156", NT, "EStep.event", "events may be sent early", "s.todo = e :: r → e.outTotal = flushed s.rd → EStep", "s.todo = e :: r → EStep", "C95")
mut("N157", RR, "readStream", "StreamHeader is not sent", "      let (_, s) ← sendEvent (.streamHeader s.header) s\n", "", "C95 C18")
mut("N158", "Model/Trace.lean", "captureHeader", "the first header is kept", "  | .streamHeader h => h\n", "  | .streamHeader h => if s = {} then h else s\n", "C95 C60")

# C91 C96: numbers in messages
mut("N159", RR, "readFooterZlib", "the two checksums in the message are swapped", "(.zlibSum (beVal p) a32.toNat)", "(.zlibSum a32.toNat (beVal p))", "C91 C96")
mut("N160", RR, "readStored", "what NLEN should be is computed from NLEN", "(.storedLen (leVal p) (leVal q) (65535 - leVal p))", "(.storedLen (leVal p) (leVal q) (65535 - leVal q))", "C91 C96")
mut("N161", RR, "checkCounts", "the message states the physical number of codes as limit", "(.hlit numLL logicalNumLLCodes)", "(.hlit numLL physicalNumLLCodes)", "C91 C96")
mut("N162", RR, "readHeaderZlib", "the window sizes in the message are swapped", "(.zlibWindow (8 + (p0 >>> 4)) E.o.wbits)", "(.zlibWindow E.o.wbits (8 + (p0 >>> 4)))", "C91 C96")
mut("N163", RR, "readHeaderGZIP", "the message shows all flags instead of the wrong ones", "(.gzipFlags (p3 &&& 0xe0))", "(.gzipFlags p3)", "C91 C96")
mut("N164", RR, "decodeX", "the message states how many lengths were read instead of how many remain", "(.repeatMany (11 + out) (total - acc.length))", "(.repeatMany (11 + out) acc.length)", "C91 C96")
mut("N165", RR, "readHeaderZlib", "the checksums of the dictionaries are swapped", "(.dictOther (beVal q) (Adler.checksum d).toNat)", "(.dictOther (Adler.checksum d).toNat (beVal q))", "C91 C96")
MSG = "Model/Message.lean"
mut("N166", MSG, "problem", "the text exchanges the two CRC-32 checksums", '"invalid gzip CRC-32 checksum -- footer value " ++ x 8 s ++ ", computed value " ++ x 8 c', '"invalid gzip CRC-32 checksum -- footer value " ++ x 8 c ++ ", computed value " ++ x 8 s', "C96")
mut("N167", MSG, "x", "no leading zeros", "String.ofList (List.replicate (w - ds.length) '0' ++ ds)", "String.ofList ds", "C96")
mut("N168", MSG, "problem", "NLEN is shown in decimal", '" NLEN " ++ x 4 n ++ ", expected', '" NLEN " ++ d n ++ ", expected', "C96")
mut("N169", MSG, "corruptError", "the offset is off by one", "d offStream", "d (offStream + 1)", "C96")
mut("N170", RR, "readHeaderZlib", "the remainder stated is that modulo 32", "(.zlibCheck u16 (u16 % 31))", "(.zlibCheck u16 (u16 % 32))", "C96 C91")

RF = "Model/Refusal.lean"
mut("N171", RF, "checkFileName", "the limit is that of the words", "h.fileName.length ≥ 256", "h.fileName.length > 256", "C97")
mut("N172", RF, "checkFileName", "the check for a slash is dropped", "if h.fileName.contains 0x2f then l ++ [.nameSlash] else l", "l", "C97")
mut("N173", RF, "checkFileName", "the words for slash and backslash are swapped", "if h.fileName.contains 0x5c then l ++ [.nameBackslash] else l", "if h.fileName.contains 0x5c then l ++ [.nameSlash] else l", "C97")
mut("N174", RF, "checkComment", "the comment's check looks at the name", "h.comment.contains 0 then", "h.fileName.contains 0 then", "C97")
mut("N175", RF, "checkRecords", "the index does not advance", "checkRecords (i + 1) rs", "checkRecords i rs", "C97")
mut("N176", RF, "checkRecords", "the size stated leaves out the four bytes of the record's header", "l ++ [.record i (4 + r.bytes.length)]", "l ++ [.record i r.bytes.length]", "C97")
mut("N177", RF, "headerProblems", "the operating system is checked before the time", "checkOS h (checkTime h (", "checkTime h (checkOS h (", "C97")
mut("N178", RF, "checkOS", "one more operating system is valid", "h.osType ≤ 14", "h.osType ≤ 15", "C97")
mut("N179", RF, "setHeader", "the header is set although there is a complaint", "| [p] => (some (.one p), s)", "| [p] => (some (.one p), { s with header := h })", "C97")
mut("N180", RF, "wbitsParse", "the limits are swapped", "(.small u 8)", "(.small u 15)", "C97")
mut("N181", RF, "clevelParse", "nine is out of range", "if u > 9 then (some (.range u), -1)", "if u ≥ 9 then (some (.range u), -1)", "C97")
mut("N182", RF, "checkTime", "negative times pass", "t < 0 ∨ (0 ≤ t ∧ t ≥ 2 ^ 32 - 1)", "0 ≤ t ∧ t ≥ 2 ^ 32 - 1", "C97")
mut("N183", "Model/Conc.lean", "Step.gt0", "the getters lock mu2 instead of mu1", "s.cls[i]? = some .gt0 → s.mu1 = none → Step s (.client i) { s.setC i .gt1 with mu1 := some (.client i) }", "s.cls[i]? = some .gt0 → s.mu2 = none → Step s (.client i) { s.setC i .gt1 with mu2 := some (.client i) }", "C98")
mut("N184", "Model/Conc.lean", "Step.ur", "UnderlyingReader waits for mu1", "| ur {i : Nat} : s.cls[i]? = some .ur → Step", "| ur {i : Nat} : s.cls[i]? = some .ur → s.mu1 = none → Step", "C98")

WR = "Model/Writer.lean"
mut("N185", WR, "hybridOptions", "gzip always uses the largest window", "winBits := o.wbits, minLen := 4", "winBits := (if o.format = .gzip then 15 else o.wbits), minLen := 4", "C100")
mut("N186", WR, "hybridOptions", "high levels accept matches of three bytes", "minLen := 4, maxLen := 258, maxDist := none", "minLen := (if o.clevel > 6 then 3 else 4), maxLen := 258, maxDist := none", "C100")
mut("N187", WR, "compressSlow", "the size of a block depends on what the stream took up so far, header included", "if available < 4096 ∧", "if available < 4096 + s.outStream ∧", "C100")
mut("N188", WR, "writeHeader", "the dictionary is only used in the zlib format", "hist := s.o.dict.getD []", "hist := if s.o.format = .zlib then s.o.dict.getD [] else []", "C100")
mut("N189", WR, "flushGuts", "FullFlush forgets the history only in raw streams", "| .fullFlush => Go.chk (writeStoredBlock wBW [] false)\n      (fun s => .ok (true, { s with lz := { s.lz with hist := [] } }))", "| .fullFlush => Go.chk (writeStoredBlock wBW [] false)\n      (fun s => .ok (true, { s with lz := { s.lz with hist := if s.o.format = .raw then [] else s.lz.hist } }))", "C100")
mut("N190", WR, "compressSlow", "the last block is marked final in the zlib format", "compressTokens wBW s.W L data (tokens ++ [makeStopToken]) false", "compressTokens wBW s.W L data (tokens ++ [makeStopToken]) (s.o.format == .zlib)", "C100")
mut("N191", WR, "wBitsFlush", "whole words only: the rest of the word is written too", ".take ((s.obLen + 7) / 8)) { s with obLen", ".take ((s.obLen + 15) / 8)) { s with obLen", "C101")
mut("N192", WR, "outLoop", "the buffer is flushed only when it is full", "Go.chk outputBufferFlush (outLoop fuel (p.drop nn)) s", "if s.output.length < 2 ^ s.outBits then .ok (true, s) else Go.chk outputBufferFlush (outLoop fuel (p.drop nn)) s", "C101")
mut("N193", WR, "outLoop", "the buffer takes one byte more", "min p.length (2 ^ s.outBits - s.output.length)", "min p.length (2 ^ s.outBits + 1 - s.output.length)", "C101")
mut("N194", WR, "outLoop", "the buffer takes everything", "min p.length (2 ^ s.outBits - s.output.length)", "p.length", "C101")
mut("N195", WR, "flushImpl", "FinishFlush always begins a new stream if none is open", "if t = .finishFlush ∧ s.state = .noStream then", "if t = .finishFlush ∧ (s.state = .noStream ∨ s.state = .closedStream) then", "C102")
mut("N196", WR, "flushImpl", "every flush begins a stream", "if t = .finishFlush ∧ s.state = .noStream then", "if s.state = .noStream then", "C102")
mut("N197", WR, "flushGuts", "BlockFlush writes an empty static block", "| .blockFlush => pure true", "| .blockFlush => writeStaticBlock wBW [makeStopToken] false", "C102")
mut("N198", WR, "flushGuts", "FullFlush adds a static block too", "| .syncFlush => writeStoredBlock wBW [] false\n", "| .syncFlush => Go.chk (writeStaticBlock wBW [makeStopToken] false) (writeStoredBlock wBW [] false)\n", "C102")
mut("N199", WR, "wBitsFlush", "the padding is filled with ones", "(leBytes (s.W / 8) s.obBlock)", "(leBytes (s.W / 8) (s.obBlock + (2 ^ s.W - 2 ^ s.obLen)))", "C104")
mut("N200", BK, "writeStoredBlock", "a non-zero reserved bit after the block type", "Go.chk (bw.bitsWrite 3 (if isFinal then 1 else 0)) <|", "Go.chk (bw.bitsWrite 4 (if isFinal then 9 else 8)) <|", "C104")
mut("N201", WR, "wBufWrite", "the byte before is lost", "Go.chk wBitsFlush (outWrite p)", "Go.chk wBitsFlush (outWrite p.dropLast)", "C103")
mut("N202", RR, "readHeaderGZIP", "the second byte of the magic number is not checked", "if p.getD 0 0 ≠ 0x1f ∨ p.getD 1 0 ≠ 0x8b then fail .gzipMagic", "if p.getD 0 0 ≠ 0x1f then fail .gzipMagic", "C105")
mut("N203", RR, "readStream", "the blocks are read even if the header is bad", "  Go.chk (readHeader E) do\n    Go.modify fun s => { s with out := { s.out with adler", "  readHeader E >>= fun _ => do\n    Go.modify fun s => { s with out := { s.out with adler", "C105")
mut("N204", RR, "readHeaderZlib", "a needless dictionary is reported but does not stop the Reader", "| some d => fail (.dictNeedless (Adler.checksum d).toNat)", "| some d => do corruptf (.dictNeedless (Adler.checksum d).toNat); setZlib", "C105")
mut("N205", RR, "readStatic", "BlockTrees of a static block is always reported as final", "sendEvent (.blockTrees .static isFinal {", "sendEvent (.blockTrees .static true {", "C106")
mut("N206", RR, "readDynamicTrees", "BlockTrees reports the number of distance codes as the header stores it", "llCount := numLL, dCount := numD,", "llCount := numLL, dCount := numD - 1,", "C106")
mut("N207", BK, "writeDynamicBlock", "the Writer reports the literal code in the place of the distance code", "codeSizes := sX, ll := sLL, d := sD })", "codeSizes := sX, ll := sLL, d := sLL })", "C106")
mut("N208", WR, "writeHeader", "StreamBegin is sent twice", "wSendEvent .streamBegin\n", "wSendEvent .streamBegin\n  wSendEvent .streamBegin\n", "C107")
mut("N209", WR, "flushImpl", "FinishFlush after FinishFlush begins an empty stream", "if t = .finishFlush ∧ s.state = .noStream then", "if t = .finishFlush ∧ (s.state = .noStream ∨ s.state = .closedStream) then", "C107")
mut("N210", WR, "writeHeader", "the count of streams is not advanced", "numStreams := s.numStreams + 1 }", "numStreams := s.numStreams }", "C107")
mut("N211", WR, "writeFooter", "StreamEnd carries the checksums in the wrong order", "wSendEvent (.streamEnd a32 c32)", "wSendEvent (.streamEnd c32 a32)", "C108")
mut("N212", RR, "readFooter", "StreamEnd is sent a second time in the place of StreamClose", "        sendEvent .streamClose\n", "        sendEvent (.streamEnd s.out.adler s.out.crc)\n", "C108")
mut("N213", RR, "readHeader", "StreamBegin is not sent", "    sendEvent .streamBegin\n", "", "C108")
mut("N214", WR, "writeFooterGZIP", "the length is left out of the footer", "  let ok2 ← wBufWriteU32 (s.inStream % 2 ^ 32)\n  pure (ok1 && ok2)", "  pure ok1", "C109")
mut("N215", WR, "writeFooter", "StreamClose is sent before the footer has been written", "  wSendEvent (.streamEnd a32 c32)\n", "  wSendEvent (.streamEnd a32 c32)\n  wSendEvent .streamClose\n", "C109")
mut("N216", WR, "writeHeader", "the count of output bytes is reset with every stream", "inStream := 0, outStream := 0, numStreams", "inStream := 0, outStream := 0, outTotal := 0, numStreams", "C109")
mut("N217", RR, "readFooterGZIP", "the length is not read", "  needBytes false 4 fun p => needBytes false 4 fun q => fun s =>\n    if leVal p ≠ c32.toNat then fail (.gzipSum (leVal p) c32.toNat) s\n    else if leVal q ≠ s.out.outStream % 2 ^ 32 then fail (.gzipLength (leVal q) (s.out.outStream % 2 ^ 32)) s\n    else", "  needBytes false 4 fun p => fun s =>\n    if leVal p ≠ c32.toNat then fail (.gzipSum (leVal p) c32.toNat) s\n    else", "C110")
mut("N218", RR, "readHeader", "a byte of padding is skipped before StreamBegin", "let i := if i.buf.isEmpty then fill st i else i\n", "let i := if i.buf.isEmpty then fill st i else i\n    let i := if i.buf.head? = some 0 then countIn [0] { i with buf := i.buf.tail } else i\n", "C110")
mut("N219", RR, "readFooter", "StreamClose is sent although the footer was not accepted", "      Go.chk (readFooterOf s.actualFormat s.out.adler s.out.crc) do\n        sendEvent .streamClose\n        pure true", "      let ok ← readFooterOf s.actualFormat s.out.adler s.out.crc\n      sendEvent .streamClose\n      pure ok", "C110")
mut("N220", RR, "bufRead", "bytes read as a whole are not counted", "((p, p.length == n), countIn p i)", "((p, p.length == n), i)", "C111")
mut("N221", RR, "readHeader", "the count of output bytes is reset with every stream", "out := { s.out with outStream := 0 } }\n  let empty", "out := { s.out with outStream := 0, outTotal := 0 } }\n  let empty", "C111")
mut("N222", RR, "sendEvent", "the events count the bytes of the stream only", "inTotal := s.inp.inTotal, inStream := s.inp.inStream, outTotal", "inTotal := s.inp.inStream, inStream := s.inp.inStream, outTotal", "C111")
