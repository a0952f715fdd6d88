{"id": "C01", "title": "Lossless round trip Writer -> Reader", "statement": "Whatever bytes are handed to Writer.Write (in whatever pieces, interleaved with whatever Flush calls other than FinishFlush) followed by a successful Close, decompressing the bytes received by the underlying io.Writer with a Reader of the same format and dictionary (and a window at least as large) returns exactly the concatenation of the written bytes and then io.EOF.", "quantifier": "all byte strings, all splits into Write calls, all flush sequences, all formats/strategies/levels/window sizes/dictionaries, all behaviours of the match finder and of the Huffman length assignment allowed by their contracts, all chunkings of the compressed source", "why_tests_cant": "The space of inputs x chunkings x options is infinite; tests sample ~25 rows with a handful of texts and always one Write call.", "anchors": ["writer.go:Write", "writer.go:Flush", "writer.go:Close", "writer.go:compressSlow", "writer.go:compressStore", "reader.go:readThread", "reader.go:Read"]}
{"id": "C02", "title": "Writer output is a conforming stream", "statement": "The bytes a Writer has delivered after a successful Close are a well-formed stream of the chosen container format (RFC 1951 raw DEFLATE, RFC 1950 zlib, RFC 1952 gzip) whose decoded content is exactly what was written, with the right checksums and length, so that any conforming decompressor accepts it.", "quantifier": "all data, option combinations and operation sequences (no underlying I/O error)", "why_tests_cant": "Tests only decompress with the package's own Reader; conformance is about every decoder and every input.", "anchors": ["writer.go:writeStoredBlock", "writer.go:writeStaticBlock", "writer.go:writeDynamicBlock", "writer.go:writeHeader", "writer.go:writeFooter"]}
{"id": "C03", "title": "Reader decodes every valid stream", "statement": "Given any well-formed DEFLATE/zlib/gzip stream (not only ones this package's Writer would produce: any block mix, any complete code lengths, any alternative encodings, any distance within the window), Read returns exactly the encoded data followed by io.EOF.", "quantifier": "all well-formed streams of all formats, all dictionaries, all source chunkings", "why_tests_cant": "There are infinitely many encodings of each content; test vectors come from one or two encoders.", "anchors": ["reader.go:readFlateBlock", "reader.go:decodeHuffmanBlock", "reader.go:readDynamicTrees", "reader.go:readHeader", "reader.go:readFooter"]}
{"id": "C04", "title": "Nothing invalid is accepted", "statement": "If reading ends with io.EOF (and no other error), the consumed input was a sequence of well-formed streams and the bytes returned are exactly their decoded content: every block was well formed, and for zlib/gzip the stored checksum and length equalled those of the returned data.", "quantifier": "all input byte strings (in particular all corruptions of valid streams), all formats and source chunkings", "why_tests_cant": "A corruption test flips some bits of some files; the claim is about every byte string.", "anchors": ["reader.go:readFooterZlib", "reader.go:readFooterGZIP", "reader.go:readHeaderGZIPCRC16", "reader.go:corruptf", "reader.go:decodeHuffmanBlock"]}
{"id": "C05", "title": "A truncated stream never ends in a clean EOF", "statement": "If the input is a proper non-empty prefix of a well-formed stream, reading ends in an error different from io.EOF.", "quantifier": "all well-formed streams, all cut points, all source chunkings", "why_tests_cant": "Every cut point of every stream cannot be enumerated.", "anchors": ["reader.go:propagateError", "reader.go:inputBitsFill", "reader.go:inputBufferRead"]}
{"id": "C06", "title": "Result does not depend on how the source is chunked", "statement": "For a fixed format other than autodetection, and a single-stream input, the bytes returned by the Reader depend only on the concatenation of the source bytes, not on the sizes of the pieces the underlying io.Reader delivers.", "quantifier": "all inputs and all pairs of chunkings", "why_tests_cant": "The number of chunkings is exponential; refill boundaries can fall in the middle of any field or code.", "anchors": ["reader.go:inputBufferFill", "reader.go:inputBufferRead", "reader.go:inputBitsFill"]}
{"id": "C07", "title": "Concatenated streams decode to the concatenation", "statement": "If the input is a concatenation of well-formed streams, the Reader returns the concatenation of their contents and then io.EOF (Flush(FinishFlush) promises that later data starts such a concatenated stream).", "quantifier": "all lists of streams, all source chunkings, in particular sources that report io.EOF together with or right after the last bytes", "why_tests_cant": "Depends on where refills and EOF fall relative to stream boundaries; no test has two streams.", "anchors": ["reader.go:readThread", "reader.go:readHeader", "enum_flushtype.go:FinishFlush"]}
{"id": "C08", "title": "Format autodetection", "statement": "With DefaultFormat the Reader treats input starting with 1f 8b as gzip, input whose first two bytes form a valid zlib header (CM=8, multiple of 31) as zlib, and everything else as raw, and then behaves exactly as a Reader with that explicit format, regardless of source chunking.", "quantifier": "all inputs and chunkings", "why_tests_cant": "The peek depends on how many bytes happen to be buffered at the stream start.", "anchors": ["reader.go:readHeaderAuto"]}
{"id": "C09", "title": "Reader never panics on malformed input", "statement": "No input byte string, however malformed, makes the decompression goroutine panic (which would crash the process): it always ends with an error value.", "quantifier": "all input byte strings, formats, dictionaries, chunkings", "why_tests_cant": "Needs all inputs; fuzzing can only sample.", "anchors": ["reader.go:readHeaderGZIPExtraData", "header.go:Parse", "reader.go:decodeX", "token.go:makeCopyToken"]}
{"id": "C10", "title": "Writer never panics on valid use", "statement": "With valid options, a header accepted by SetHeader, and Reset called only between streams, no sequence of Write/Flush/Close calls makes the Writer panic.", "quantifier": "all data (in particular incompressible data), all write sizes, options and operation sequences", "why_tests_cant": "Panics depend on data-dependent block-type choice for unbounded inputs.", "anchors": ["writer.go:writeStoredBlock", "writer.go:compressTokens", "token.go:makeCopyToken", "token.go:makeTreeLenToken", "writer.go:outputBufferWriteStringZ"]}
{"id": "C11", "title": "SyncFlush makes all data recoverable", "statement": "When Flush(SyncFlush) returns nil while a stream is open, the bytes received so far by the underlying writer end on a byte boundary with a complete block, and a decoder fed only those bytes reproduces everything written so far.", "quantifier": "all data and operation histories before the flush", "why_tests_cant": "All prefixes of all histories.", "anchors": ["writer.go:flushGuts", "enum_flushtype.go:SyncFlush", "writer.go:outputBitsFlush"]}
{"id": "C12", "title": "PartialFlush makes all bits of the current block reach the writer", "statement": "When Flush(PartialFlush) returns nil while a stream is open, all bits of the data blocks written so far have been received by the underlying io.Writer (as its documentation guarantees).", "quantifier": "all data and operation histories before the flush", "why_tests_cant": "Depends on how many bits are buffered at the flush, which varies with data.", "anchors": ["writer.go:flushGuts", "enum_flushtype.go:PartialFlush", "writer.go:outputBitsWrite"]}
{"id": "C13", "title": "FullFlush allows restart", "statement": "The bytes emitted after a successful Flush(FullFlush) start on a byte boundary with a block header, and their decoding needs none of the data (or dictionary) before the flush.", "quantifier": "all data and operation histories before and after the flush", "why_tests_cant": "Back-references depend on the match finder and on unbounded history.", "anchors": ["writer.go:flushGuts", "enum_flushtype.go:FullFlush"]}
{"id": "C14", "title": "Finish and Close produce each stream exactly once", "statement": "Close on a never-written Writer emits one complete empty stream; Flush(FinishFlush) followed by Close emits nothing more; Flush(FinishFlush), Write, Close emits exactly two concatenated complete streams; in general the output is a sequence of complete streams holding the data segments between FinishFlush calls.", "quantifier": "all sequences of Write/Flush/Close", "why_tests_cant": "Unbounded histories over the writer's state machine.", "anchors": ["writer.go:flushImpl", "writer.go:Close", "writer.go:compressImpl", "enum_writerstate.go"]}
{"id": "C15", "title": "Write errors are sticky and reported", "statement": "If a write, flush or sync of the underlying io.Writer fails with e during a call, that call returns e, every later Write/Flush returns e without touching the underlying writer, and the next Close returns e (also without touching it); no success is ever reported for data that was not accepted by the underlying writer.", "quantifier": "all histories, all failure points, all partial-write sizes", "why_tests_cant": "Crash points are unbounded: every byte offset of every output.", "anchors": ["writer.go:outputBufferFlush", "writer.go:Write", "writer.go:Flush", "writer.go:Close"]}
{"id": "C16", "title": "A closed Writer stays closed until Reset", "statement": "After Close, Write/Flush/Close return fs.ErrClosed and never touch the underlying writer, until Reset makes it usable again.", "quantifier": "all histories after Close", "why_tests_cant": "Unbounded histories.", "anchors": ["writer.go:Close", "writer.go:Reset"]}
{"id": "C17", "title": "Reset forgets the previous stream", "statement": "After Reset(w, opts) a Writer behaves on w exactly as a newly constructed Writer with the merged options: output bytes do not depend on anything written, flushed or failed before the Reset.", "quantifier": "all histories before the Reset and all operations after it", "why_tests_cant": "Leftover state (bit accumulator, header, window) only shows for particular histories.", "anchors": ["writer.go:Reset", "writer.go:obBlock", "writer.go:header"]}
{"id": "C18", "title": "Write result contract", "statement": "Write returns (len(p), nil) when all of p was accepted, otherwise (0, err) with err non-nil; it never returns a nil error with a short count and always terminates.", "quantifier": "all slices, states and failure points", "why_tests_cant": "All lengths relative to buffer capacity and all failure points.", "anchors": ["writer.go:Write"]}
{"id": "C19", "title": "Adler-32 is correct for every input and chunking", "statement": "The Adler-32 in zlib footers, FDICT fields and footer events equals the RFC 1950 definition (sums modulo 65521 with no 32-bit overflow effects) for data of any length fed in any pieces.", "quantifier": "all byte strings, all splits, all intermediate states", "why_tests_cant": "Overflow needs long runs of large bytes; lengths around multiples of 5552 and 4; infinite inputs.", "anchors": ["internal/adler32/adler32.go:Update", "internal/adler32/adler32.go:Checksum"]}
{"id": "C20", "title": "CRC-32 is correct for every input and chunking", "statement": "The CRC-32 used for gzip equals the bit-by-bit IEEE 802.3 definition (RFC 1952) for data of any length fed in any pieces, including the 8-byte slicing fast path.", "quantifier": "all byte strings, splits and intermediate states", "why_tests_cant": "2^32 states x all inputs; fast path only for >= 16 bytes with all residues.", "anchors": ["internal/crc32/crc32.go:genericUpdate", "internal/crc32/crc32.go:init"]}
{"id": "C21", "title": "gzip header fields survive a round trip", "statement": "For every header accepted by SetHeader, a Reader decompressing the gzip output reports (in StreamHeaderEvent) the same FileName, Comment, ExtraData records, OSType (Unknown becomes Unix), DataType and LastModified to the second (an mtime of exactly the Unix epoch reads back as unset).", "quantifier": "all accepted headers, all option combinations", "why_tests_cant": "Infinitely many strings and record lists; field presence combinations.", "anchors": ["writer.go:writeHeaderGZIP", "reader.go:readHeaderGZIP", "writer.go:SetHeader"]}
{"id": "C22", "title": "SetHeader rejects what cannot be represented", "statement": "SetHeader accepts a header exactly when FileName is < 256 bytes without NUL, '/' or '\\\\', Comment is < 256 bytes without NUL, LastModified is unset or fits an unsigned 32-bit time (below 2^32-1), OSType is known, and each ExtraData record and the whole field fit 16-bit lengths; a rejected header leaves the previous one in force, and an accepted header never makes a later Write/Flush/Close panic.", "quantifier": "all headers", "why_tests_cant": "Boundary cases on unbounded strings/lists.", "anchors": ["writer.go:SetHeader", "writer.go:checkHeaderExtraData"]}
{"id": "C23", "title": "ExtraData Parse/AsBytes", "statement": "Parse(AsBytes(x)) = x for every record list with record payloads below 64 KiB, and Parse never reads outside its argument: for arbitrary raw bytes it returns a record list without panicking.", "quantifier": "all record lists and all byte strings", "why_tests_cant": "Unbounded lists; malformed lengths.", "anchors": ["header.go:Parse", "header.go:AsBytes"]}
{"id": "C24", "title": "zlib header and preset dictionary identification", "statement": "Every zlib header the Writer emits has CM=8, CINFO = window bits - 8, a 16-bit value divisible by 31, and an FDICT/DICTID exactly when a dictionary is set; a Reader accepts a zlib stream only if its dictionary presence and Adler-32 agree with the header.", "quantifier": "all option combinations, all dictionaries, all header byte pairs", "why_tests_cant": "All dictionaries and all header values.", "anchors": ["writer.go:writeHeaderZlib", "reader.go:readHeaderZlib"]}
{"id": "C25", "title": "Window limits are enforced", "statement": "A Reader configured with window 2^w rejects zlib streams declaring a larger window and any back-reference reaching beyond min(2^w, bytes decoded so far plus dictionary); a Writer with window bits w never emits a distance above 2^w nor beyond the start of data/dictionary.", "quantifier": "all streams, histories and window sizes", "why_tests_cant": "Distances depend on unbounded history.", "anchors": ["reader.go:decodeHuffmanBlock", "reader.go:readHeaderZlib", "writer.go:hybridOptions"]}
{"id": "C26", "title": "Length and distance symbols follow RFC 1951", "statement": "For every copy length 3..258 and distance 1..32768 the emitted symbol and extra bits are those of the RFC 1951 tables, decoding inverts encoding, every decodable symbol/extra combination lies in the legal ranges, and symbols 286/287 and 30/31 are rejected.", "quantifier": "all lengths, distances, symbols and extra-bit values", "why_tests_cant": "Tests never enumerate the tables; an off-by-one in one range shows only for particular matches.", "anchors": ["token.go:symbolLL", "token.go:symbolD", "reader.go:decodeLL", "reader.go:decodeD"]}
{"id": "C27", "title": "Code length run-length coding is lossless", "statement": "The run-length tokens written for a dynamic block expand (by RFC 1951 3.2.7 rules) to exactly the code length list of the block (with only trailing zeros beyond the required minimum trimmed), and the Reader's expansion of any token sequence follows the same rules and never writes out of range.", "quantifier": "all code length lists usable in a block, all token sequences", "why_tests_cant": "Run lengths and positions are combinatorially many.", "anchors": ["analysis.go:encodeTreeTokens", "reader.go:decodeX", "token.go:symbolX"]}
{"id": "C28", "title": "Dynamic block header round trip", "statement": "For all literal/length and distance code length lists the Writer can choose, the dynamic block header it emits is parsed by the Reader into the same code lengths.", "quantifier": "all code length lists within the format's limits, all bootstrap code assignments of at most 7 bits", "why_tests_cant": "The space of code length lists is astronomically large.", "anchors": ["writer.go:writeDynamicBlock", "reader.go:readDynamicTrees", "huffman.go:scramble"]}
{"id": "C29", "title": "Bounded expansion", "statement": "No data block is ever encoded in more bits than storing it verbatim would take (35 bits of overhead plus padding), so compressed output never exceeds the input by more than a small overhead per block.", "quantifier": "all data blocks", "why_tests_cant": "Worst-case inputs are data dependent.", "anchors": ["writer.go:compressTokens"]}
{"id": "C30", "title": "Block cost estimates are exact", "statement": "The number of bits the Writer estimates for a static or dynamic block equals the number of bits actually emitted, and among the three encodings the cheapest is chosen.", "quantifier": "all token lists and code lengths", "why_tests_cant": "All token lists.", "anchors": ["bitwriter.go:bitcounter", "writer.go:compressTokens"]}
{"id": "C31", "title": "FixedStrategy uses only static Huffman blocks", "statement": "With FixedStrategy no dynamic Huffman block is ever emitted.", "quantifier": "all data", "why_tests_cant": "Depends on block-type choice for all inputs.", "anchors": ["enum_strategy.go:FixedStrategy", "writer.go:compressTokens"]}
{"id": "C32", "title": "Strategies and level 0 constrain the output", "statement": "NoCompression emits only stored blocks; HuffmanOnlyStrategy never emits a back-reference; HuffmanRLEStrategy only emits back-references of distance 1.", "quantifier": "all data and operation sequences", "why_tests_cant": "All data.", "anchors": ["writer.go:compressConfig", "writer.go:hybridOptions"]}
{"id": "C33", "title": "Writer event protocol", "statement": "The events seen by a Writer's tracers always form a prefix of (StreamBegin StreamHeader (BlockBegin BlockTrees? BlockEnd)* StreamEnd StreamClose)*, with BlockTrees exactly for Huffman blocks, and exactly the last block of each stream marked final.", "quantifier": "all operation sequences and failure points", "why_tests_cant": "Unbounded histories and failure points.", "anchors": ["trace.go", "writer.go:sendEvent"]}
{"id": "C34", "title": "Reader event protocol", "statement": "The events seen by a Reader's tracers form a prefix of the same grammar; StreamCloseEvent is only sent for a stream that was completely decoded and verified; footer events carry the checksums of the returned data.", "quantifier": "all inputs", "why_tests_cant": "All inputs including malformed ones.", "anchors": ["reader.go:sendEvent", "reader.go:readFooter", "reader.go:readThread"]}
{"id": "C35", "title": "Byte counters are exact", "statement": "The byte counters carried by events equal the number of bytes consumed from / delivered to the caller and the underlying stream at that moment, and never decrease within a Reader/Writer.", "quantifier": "all inputs and operation sequences", "why_tests_cant": "Unbounded histories.", "anchors": ["writer.go:sendEvent", "reader.go:sendEvent"]}
{"id": "C36", "title": "Options: defaults, merging, validation", "statement": "NewReader/NewWriter fill unset options with the documented defaults; Reset merges given options over previous ones (later options win, unspecified ones persist); resulting parameters are always within legal ranges.", "quantifier": "all option lists and Reset histories", "why_tests_cant": "Unbounded option histories.", "anchors": ["options.go", "reader.go:Reset", "writer.go:Reset"]}
{"id": "C37", "title": "Enum text round trips", "statement": "For every valid CompressLevel, MemoryLevel and WindowBits value, parsing its String() gives it back; Parse accepts exactly the documented spellings and never yields an out-of-range value.", "quantifier": "all strings and all values", "why_tests_cant": "Infinitely many strings.", "anchors": ["enum_clevel.go:Parse", "enum_mlevel.go:Parse", "enum_wbits.go:Parse"]}
{"id": "C38", "title": "Checksum32 text round trip", "statement": "UnmarshalJSON(MarshalJSON(c)) = c for every 32-bit checksum.", "quantifier": "all 2^32 values", "why_tests_cant": "Too many values for a test.", "anchors": ["checksum32.go"]}
{"id": "C39", "title": "Concurrent Read: order, no loss, no duplication", "statement": "Under every interleaving of the background goroutine with any number of concurrent Read calls, the bytes returned (in the order the Reads took effect) form a prefix of the decompressed data: nothing is lost, duplicated or reordered.", "quantifier": "all schedules, all buffer sizes, all read sizes", "why_tests_cant": "Schedules cannot be enumerated or controlled by tests.", "anchors": ["reader.go:Read", "reader.go:decodeBufferMustFlush"]}
{"id": "C40", "title": "EOF only after all data", "statement": "Under every schedule, a Read reports the final io.EOF only after every decompressed byte has been returned, when the input is well formed and the Reader is not closed.", "quantifier": "all schedules", "why_tests_cant": "Schedules.", "anchors": ["reader.go:Read", "reader.go:closeWithError"]}
{"id": "C41", "title": "Data before an error is delivered before the error", "statement": "When the stream turns out corrupt or truncated, every byte successfully decoded before the problem is returned by Read before the error is, under every schedule, and after an error Read returns no further data.", "quantifier": "all schedules, all corrupt inputs", "why_tests_cant": "Schedules; race between error publication and final flush.", "anchors": ["reader.go:closeWithError", "reader.go:Read", "reader.go:decodeBufferMustFlush"]}
{"id": "C42", "title": "Read never deadlocks", "statement": "No schedule leads to a state where a Read call is blocked and neither it nor the background goroutine can ever proceed (no lost wake-up), whatever the buffer sizes and number of concurrent readers.", "quantifier": "all schedules", "why_tests_cant": "Lost wake-ups show only under rare interleavings.", "anchors": ["reader.go:Read", "reader.go:decodeBufferMustFlush", "reader.go:cv1", "reader.go:cv2"]}
{"id": "C43", "title": "Close stops the background goroutine", "statement": "Close returns only after the background goroutine has exited; it wakes all blocked Reads, which (like later Reads) return an error and no data; Close can be called repeatedly; the goroutine always can exit (no schedule blocks it forever).", "quantifier": "all schedules, all points at which Close is called", "why_tests_cant": "Schedules.", "anchors": ["reader.go:Close", "reader.go:stopReadThreadLocked"]}
{"id": "C44", "title": "Reset is possible at any time", "statement": "Reader.Reset can be called at any point, including in the middle of a stream, and returns with the Reader ready to decode the new source.", "quantifier": "all schedules, all points at which Reset is called", "why_tests_cant": "Schedules.", "anchors": ["reader.go:Reset", "reader.go:stopReadThreadLocked"]}
{"id": "C45", "title": "Errors are final", "statement": "The first error recorded for a Reader is the one reported, it is never replaced by a later one, and once a Read has returned an error after the background goroutine ended all later Reads return the same error and no data.", "quantifier": "all inputs, schedules", "why_tests_cant": "Histories and schedules.", "anchors": ["reader.go:closeWithError", "reader.go:Read"]}
{"id": "C46", "title": "No data from beyond a corruption", "statement": "All bytes returned by Read come from correctly decoding the stream up to the point of corruption; nothing decoded from input after the corrupt point is ever returned.", "quantifier": "all corrupt inputs", "why_tests_cant": "All inputs.", "anchors": ["reader.go:readThread", "reader.go:readFooterRaw", "reader.go:readDynamicTrees"]}
{"id": "C47", "title": "Underlying read errors are reported", "statement": "If the underlying io.Reader fails with an error e (not io.EOF) before the stream is complete, Read eventually returns e.", "quantifier": "all inputs, all failure points", "why_tests_cant": "Crash points.", "anchors": ["reader.go:propagateError", "reader.go:readSymbol", "reader.go:decodeHuffmanBlock"]}
{"id": "C48", "title": "Text detection reflects the stream's own data", "statement": "When the caller leaves DataType unset, the gzip FTEXT flag of each stream is set exactly when the first buffered bytes (at most 4096) of that stream contain no control bytes other than TAB..CR and no DEL.", "quantifier": "all data and all streams written by one Writer", "why_tests_cant": "All data; state carried across streams.", "anchors": ["analysis.go:isText", "writer.go:writeHeader"]}
{"id": "C49", "title": "Bit packing is exact", "statement": "The byte sequence the Writer emits is exactly the LSB-first packing of the sequence of bit fields it was asked to write, zero padded to a byte boundary only at explicit flushes, on 32-bit and 64-bit platforms alike; and the Reader's bit extraction is the exact inverse and never looks at more input bytes than needed for the bits it consumes.", "quantifier": "all sequences of bit-field writes/reads, both word sizes", "why_tests_cant": "All alignments and field sequences; 32-bit builds are not exercised.", "anchors": ["writer.go:outputBitsWrite", "writer.go:outputBitsFlush", "reader.go:inputBitsFill", "reader.go:inputBitsRead", "block32.go", "block64.go"]}
{"id": "C50", "title": "Hardware CRC paths agree with the definition", "statement": "The accelerated CRC-32 code paths (arm64 CRC32 instructions, amd64 carry-less multiplication) return the same value as the definition for every input.", "quantifier": "all byte strings and states", "why_tests_cant": "2^32 states x all inputs.", "anchors": ["internal/crc32/crc32_amd64.go", "internal/crc32/crc32_amd64.s", "internal/crc32/crc32_arm64.go", "internal/crc32/crc32_arm64.s"]}
{"id": "C51", "title": "A failing underlying writer has received a prefix", "statement": "At every failure point, the bytes accepted by the underlying writer are a prefix of the bytes it would have received without the failure.", "quantifier": "all histories and failure points", "why_tests_cant": "Crash points.", "anchors": ["writer.go:outputBufferWrite", "writer.go:writeFooterGZIP"]}
{"id": "C52", "title": "Decompression terminates", "statement": "Reading any finite input terminates: the number of decoding steps is bounded by the number of input bits, whatever the input.", "quantifier": "all inputs", "why_tests_cant": "Non-termination cannot be observed by a test.", "anchors": ["reader.go:readSymbol", "reader.go:readThread", "reader.go:decodeHuffmanBlock"]}
{"id": "C53", "title": "Writer header and footer events are truthful", "statement": "Every StreamHeader event of a Writer carries a valid Header, and the bytes delivered to the underlying writer since that stream began are exactly a header of the configured format announcing that Header (raw: nothing). Every StreamEnd event carries the Adler-32 and the CRC-32 of exactly that stream's data: the last InputBytesStream of the first InputBytesTotal bytes handed to Write.", "quantifier": "all option sets, all sequences of calls (including failing ones), all behaviours of the underlying writer, all match finders", "why_tests_cant": "ranges over unbounded histories, data and failure points; a swapped or stale checksum shows only in the event, not in the bytes", "anchors": ["writer.go: writeHeader, writeFooter, sendEvent", "trace.go: FooterEvent, HeaderEvent"]}
{"id": "C54", "title": "gzip command: success means a complete archive", "statement": "If the gzip command, compressing, exits with status 0, then it has read its standard input up to the end of the file and standard output has received exactly one complete well-formed stream of the requested format (gzip by default), with the requested window size and dictionary, file name, comment and modification time, whose contents are exactly the bytes read. If the header flags are acceptable, the input can be read to its end and the output does not fail, it does exit with status 0. It never panics while compressing.", "quantifier": "every combination of flag values, every input, every division of it into the pieces returned by read(2), every failure of input or output", "why_tests_cant": "Input sizes, piece boundaries and the call at which output fails are unbounded; the claim relates an exit status to a whole byte stream", "anchors": ["cmd/gzip/main.go:main", "cmd/gzip/main.go:doCompressOrDecompress", "writer.go:Writer.Write", "writer.go:Writer.Flush", "writer.go:Writer.Close", "writer.go:Writer.SetHeader"]}
{"id": "C55", "title": "gzip -d command: success means a complete and valid archive", "statement": "If gzip -d exits with status 0, its input ended normally and begins with complete valid streams, and standard output has received exactly their contents. For a valid stream and an output that does not fail, what is written is at any moment a prefix of the contents, the command never exits with an error status, and on exit everything has been written. Cut-off input is never reported as success. The command never hangs: under every schedule it exits.", "quantifier": "every input, division into pieces, schedule of the two goroutines, failure of the output", "why_tests_cant": "Schedules and inputs are unbounded, liveness is about infinite executions", "anchors": ["cmd/gzip/main.go:doCompressOrDecompress", "reader.go:Reader.Read", "reader.go:Reader.Close", "reader.go:readThread"]}
{"id": "C56", "title": "gzip | gzip -d is the identity", "statement": "With the same dictionary, a window at least as large and the same format (or none at all), gzip -d applied to the output of a successful gzip run exits with status 0 having written exactly the first command's input.", "quantifier": "every input, flags, piece boundaries at both programs, schedule", "why_tests_cant": "Round trip over all inputs, options and schedules", "anchors": ["cmd/gzip/main.go:doCompressOrDecompress"]}
{"id": "C57", "title": "gzip command: flags", "statement": "Every combination of flag values is either refused with exit status 1 or leads to a run with valid options; the command does not panic. The level used is the smallest digit flag given, otherwise --compress-level.", "quantifier": "every combination of flag values and contents of the dictionary file", "why_tests_cant": "Combinations of flags and file contents are unbounded", "anchors": ["cmd/gzip/main.go:main", "options.go:WithDictionary", "cmd/gzip/flags.go"]}
{"id": "C58", "title": "Reader.Reset forgets the previous source", "statement": "After Reset(src, opts...) a Reader whose previous goroutine has ended (whether at EOF, with an error, or by Close) behaves exactly like NewReader(src, merged opts): it delivers the same data, the same error and the same events; nothing of the old source, window, dictionary state, bit buffer or error survives. Reported offsets and totals are relative to the new source.", "quantifier": "every previous source, bytes consumed of it, way of ending, new source and options", "why_tests_cant": "Leaks depend on the exact position at which the previous stream ended; all histories are quantified", "anchors": ["reader.go:Reset", "reader.go:newReaderOptions"]}
{"id": "C59", "title": "StreamHeader events of a Reader tell the truth", "statement": "Each StreamHeader event of a Reader is sent when exactly the header has been consumed; InputBytesStream/InputBytesTotal delimit that header in the input; it is a valid header of the format in the event; and every field of the Header in the event is what those bytes say, with nothing left over from an earlier stream.", "quantifier": "every input (also invalid or truncated later), source, option, and moment of Close", "why_tests_cant": "All inputs and stream sequences; stale fields only show for particular combinations of headers", "anchors": ["reader.go:readHeader", "reader.go:readHeaderZlib", "reader.go:readHeaderGZIP", "reader.go:sendEvent"]}
{"id": "C60", "title": "Tracers", "statement": "Every registered Tracer receives every event exactly once and in order, independently of other tracers; CaptureHeader leaves in its target the Header of the last StreamHeader event, and, when a Reader reads what a Writer wrote, the header which was given to that Writer.", "quantifier": "every list of tracers, event sequence, header, data", "why_tests_cant": "All histories and tracer lists", "anchors": ["trace.go:CaptureHeader", "trace.go:TracerFunc", "reader.go:sendEvent", "writer.go:sendEvent"]}
{"id": "C61", "title": "Flushed data can be read", "statement": "After Flush(SyncFlush) or Flush(FullFlush) has returned nil, a Reader which has been given exactly the bytes the underlying writer has received delivers everything written so far, without needing anything more from its source.", "quantifier": "every history of calls, data, options of Writer and (suitable) Reader, way of presenting the bytes", "why_tests_cant": "All data sizes relative to the Reader's buffers; a test with a source which ends cannot tell data delivered before the end from data delivered because of it", "anchors": ["writer.go:Flush", "reader.go:flushDecodeBuffer", "reader.go:readBlock", "reader.go:readThread"]}
{"id": "C62", "title": "Read and Close do not wait for the source when they need not", "statement": "A Read of a non-empty slice returns when decoded data is available, and Close (and the getters) return, whatever the underlying reader is doing (for instance while it blocks).", "quantifier": "every schedule of user and background goroutine, source, and moment of the call", "why_tests_cant": "Which lock is held when depends on the schedule; a test does not control it", "anchors": ["reader.go:Read", "reader.go:Close", "reader.go:readThread", "reader.go:mu1"]}
{"id": "C63", "title": "A Writer may be shared by goroutines", "statement": "When several goroutines call methods of one Writer, results and output are those of the same calls made one after the other, in an order which respects the real-time order of calls; each call completes if its goroutine and those before it are scheduled; and with Close last the output decodes to the written pieces in that order.", "quantifier": "every number of goroutines, program of each, and schedule", "why_tests_cant": "All interleavings", "anchors": ["writer.go:mu", "writer.go:Write", "writer.go:Flush", "writer.go:Close", "writer.go:SetHeader", "writer.go:Reset"]}
{"id": "C64", "title": "Callbacks may use the Writer", "statement": "A Tracer, or the underlying io.Writer, which calls a method of the Writer it is called from, gets an answer (the documentation does not forbid it).", "quantifier": "every schedule and program", "why_tests_cant": "A deadlock is not observable by a test other than by timeout", "anchors": ["writer.go:sendEvent", "writer.go:mu", "reader.go:sendEvent"]}
{"id": "C65", "title": "A Writer does not depend on the caller's memory after a call has returned", "statement": "What a Writer writes depends only on the contents the arguments of Write and SetHeader had when the call was made; the caller may reuse the memory afterwards.", "quantifier": "every history of calls and of writes of the caller to its own memory", "why_tests_cant": "All interleavings of calls and memory changes", "anchors": ["writer.go:SetHeader", "writer.go:Write", "header.go:Header", "options.go:WithDictionary"]}
{"id": "C66", "title": "Bounded amplification", "statement": "Whatever the input (well-formed, damaged or malicious), the data which a Reader delivers is at most 1032 times as long as the compressed input it was given.", "quantifier": "all inputs, all ways in which they are cut in pieces, all options and dictionaries, any number of streams, any moment of Close, all schedules of calls of Read", "why_tests_cant": "A bound on a ratio over all inputs, including adversarial ones, cannot be established by examples.", "anchors": ["reader.go:Reader.Read", "reader.go:decodeHuffmanBlock", "reader.go:readFlateBlockStored"]}
{"id": "C67", "title": "Headers can be copied from a Reader to a Writer", "statement": "Every Header which a Reader reports in a StreamHeader event is accepted by a Writer's SetHeader, so that a stream can be recompressed with its header kept.", "quantifier": "all inputs, all options, all StreamHeader events, all Writers", "why_tests_cant": "Headers found in the wild are arbitrary; the claim is about every header the Reader accepts.", "anchors": ["reader.go:readHeaderGZIP", "writer.go:SetHeader", "header.go:Header"]}
{"id": "C68", "title": "Block events of a Reader tell the truth", "statement": "The BlockBegin, BlockTrees and BlockEnd events which a Reader sends to its tracers between the StreamHeader and the StreamEnd event of a stream describe the blocks in the input, from the byte after the header on, one after the other without a gap: type, final mark and code lengths are those found in the input, InputBytesTotal is the number of bytes containing what the event announces, BlockEnd is sent exactly for complete blocks, and nothing follows a final block.", "quantifier": "all inputs (also damaged ones), all ways in which they are cut in pieces, all options, any number of streams, any moment of Close", "why_tests_cant": "Bit positions within bytes, code lengths and block sequences are unbounded; damaged inputs and Close at any time multiply the cases.", "anchors": ["reader.go:readFlateBlock", "reader.go:readDynamicTrees", "reader.go:sendEvent", "trace.go:Event"]}
{"id": "C69", "title": "Trees are announced only for permitted headers", "statement": "A BlockTrees event of a dynamic block is sent only if the block's header is one which RFC 1951 permits (at most 286 literal/length and 30 distance codes).", "quantifier": "all inputs, options, moments of Close", "why_tests_cant": "Quantifies over all inputs, including malicious ones.", "anchors": ["reader.go:readDynamicTrees"]}
{"id": "C70", "title": "Block events of a Writer tell the truth", "statement": "The BlockBegin, BlockTrees and BlockEnd events which a Writer sends to its tracers between the StreamHeader and the StreamEnd event of a stream describe the blocks of the output, one after the other without a gap, beginning with the byte after the stream's header: type, final mark, code counts and code lengths are those written, OutputBytesTotal is the number of bytes produced when the event's place in the output was reached (the last, incomplete word excepted), InputBytesStream is the amount of data in the blocks up to and including this one.", "quantifier": "all histories of Write, Flush, SetHeader and Close calls without an error; all options, data, match finders, Huffman libraries, word sizes", "why_tests_cant": "Positions within words, code lengths and block sequences are unbounded, and each depends on everything written before.", "anchors": ["writer.go:writeStoredBlock", "writer.go:writeStaticBlock", "writer.go:writeDynamicBlock", "writer.go:sendEvent", "trace.go:Event"]}
{"id": "C71", "title": "Damage to the data is noticed", "statement": "If the compressed data of a gzip or zlib stream has been changed so that it decodes to something else than the content for which the stream's footer was made, the Reader ends with an error other than io.EOF, without a panic: in a gzip stream whenever the length of the content changes modulo 2^32 or all changed bits of the content lie within 32 consecutive bits; in a zlib stream whenever one byte, or two bytes less than 65521 places apart, are changed. Any change of the footer itself is noticed as well. These limits are exact: some changes of 33 consecutive bits (gzip), of two bytes 65521 places apart or of three neighbouring bytes (zlib) are not noticed.", "quantifier": "all headers, contents, encodings of the content, changes of the kind described, data following the stream, ways of cutting the input in pieces, options", "why_tests_cant": "The number of contents and of changes is unbounded; the guarantee rests on algebraic properties of the checksums.", "anchors": ["reader.go:readFooterGZIP", "reader.go:readFooterZlib", "internal/crc32:Update", "internal/adler32:Update"]}
{"id": "C72", "title": "Names of formats, strategies and other enumerations", "statement": "Format.Parse and Strategy.Parse accept exactly the documented words (in any mixture of upper and lower case) and store the constant which has that name; parsing the String() of a constant gives it back; within each enumeration two different constants never share their String(), GoString() or JSON.", "quantifier": "all strings, all constants of all enumerations", "why_tests_cant": "the rejected strings are infinitely many, and case folding makes the accepted spellings many; a test can only sample them", "anchors": ["enum_format.go: Format.Parse, formatData", "enum_strategy.go: Strategy.Parse, strategyData", "enum_*.go: String, GoString, MarshalJSON", "cmd/gzip/flags.go"]}
{"id": "C73", "title": "Size lists as JSON", "statement": "The JSON of a SizeList is an array of numbers from which the list can be read back exactly; different lists (nil included) have different JSON.", "quantifier": "all size lists", "why_tests_cant": "lists of every length and content", "anchors": ["huffman.go: SizeList.MarshalJSON"]}
{"id": "C74", "title": "Writers and Readers do not disturb each other", "statement": "Different goroutines may use different Writers (and Readers) at the same time: although these share pools of buffers, each Writer returns the same results, reaches the same state and writes the same bytes as if it were used alone, and no Writer waits for another one.", "quantifier": "all numbers of goroutines, all call sequences on each Writer, all interleavings of their accesses to pooled memory, all choices of sync.Pool (which item Get returns, when items are dropped), failures and panics included", "why_tests_cant": "the interleavings and the pool's choices are not under a test's control", "anchors": ["pools.go: takeTokens, giveTokens", "writer.go: compressSlow, compressTokens, writeDynamicBlock", "reader.go: inputBufferReadStringZ"]}
{"id": "C75", "title": "Bounded delay of a Writer", "statement": "While a stream is open and no call has failed, the underlying writer has received (up to fewer bits than a machine word) the finished streams, the header and complete blocks encoding everything written to the stream except fewer than min(2^(mlevel+8), 61440) bytes at level 0 and fewer than min(2^(mlevel+8), 4096) bytes at any other level; the Writer does not hold back more, whatever the sizes of the Writes.", "quantifier": "all option lists, all histories of calls without Close and without errors, all match finders and Huffman libraries", "why_tests_cant": "the bound must hold after every history and every chunking of the writes", "anchors": ["writer.go: Write, compressStore, compressSlow, compressImpl"]}
{"id": "C76", "title": "Flush and Close are passed on to the underlying writer", "statement": "Every method of a Writer calls the underlying writer's Write only with non-empty data; Flush and Close, after all their writes, call its Flush method and then its Sync method, each at most once, as far as it has these methods, and exactly once if they return nil (EINVAL from Sync counts as success); Write and SetHeader call neither. Without errors the bytes received are exactly those of the Write calls, so nothing is written after a flush is passed on.", "quantifier": "all option lists, all histories of calls, all underlying writers (with or without Flush and Sync, failing at any call)", "why_tests_cant": "order and number of calls must be right after every history and for every failure point", "anchors": ["writer.go: Flush, Close, flushImpl, flushWriter, syncWriter, isIgnoredSyncError, outputBufferFlush"]}
{"id": "C77", "title": "Bounded size of the output", "statement": "At any time, and after Close, the output of a Writer whose calls have not failed is not longer than what was there before, plus the headers and footers of its streams (2 or 6 plus 4 bytes for zlib; 12 plus the name, comment and extra data plus 8 for gzip), plus the data written, plus 42 bits for each block; there are at most n/m blocks for n bytes of data (m = min(2^(mlevel+8), 4096), or at level 0 min(2^(mlevel+8), 61440) and twice as many for mlevel >= 8), however the data is divided among the Writes, and two for every Flush and for Close.", "quantifier": "all option lists, all histories of calls without errors, all data, all match finders and Huffman libraries", "why_tests_cant": "a bound on the size must hold for all data and all ways of dividing it among Writes; tests measure a few inputs", "anchors": ["writer.go: Writer.Write, Writer.Flush, Writer.Close, compressStore, compressSlow, compressTokens, flushImpl"]}
{"id": "C78", "title": "Options are snapshots, accessors return copies", "statement": "Format, Method, Strategy, CompressLevel, MemoryLevel, WindowBits, Dict, Tracers and UnderlyingWriter/UnderlyingReader report, for every Writer and Reader, the last option of each kind given to the constructor or to Reset, or its documented default. A dictionary or list of tracers is copied when the option is made, and again when Dict() or Tracers() returns it, so that later writes of the program to its own arrays change neither other options, nor any Writer or Reader, nor the result of a later call.", "quantifier": "all programs which make arrays and options, construct and reset any number of Writers and Readers (options may be used several times), call accessors, and write to the arrays they hold, in any order", "why_tests_cant": "a test tries a few orders of calls; aliasing depends on the whole history of who holds which array", "anchors": ["options.go: WithDictionary, WithTracers, options.apply, populateReaderDefaults, populateWriterDefaults", "writer.go: NewWriter, Writer.Reset, Writer.Format ... Writer.UnderlyingWriter", "reader.go: NewReader, Reader.Reset, Reader.Format ... Reader.UnderlyingReader"]}
{"id": "C79", "title": "The hash objects conform to hash.Hash32", "statement": "The Hash types of the checksum packages keep the contract of hash.Hash32 on every processor: after New or Reset and any sequence of calls, Sum32 is the checksum (RFC 1950, RFC 1952) of everything written since, Sum appends it in big-endian order to its argument and changes nothing, Write takes all of its argument and reports no error.", "quantifier": "all sequences of Write, Sum, Sum32, Reset, Size and BlockSize, all data, all earlier states, all processors (also changing between calls)", "why_tests_cant": "unbounded sequences of calls and data", "anchors": ["internal/adler32/adler32.go: Hash, New, Write, Sum, Sum32, Reset, Size, BlockSize", "internal/crc32/crc32.go: Hash, New, Write, Sum, Sum32, Reset, Size, BlockSize"]}
{"id": "C80", "title": "A Reader does not decompress ahead without bound", "statement": "Whatever its input (a decompression bomb included) and whatever callers do, a Reader holds at most 2*2^(mlevel+6) bytes of data which it has decompressed and which no Read has returned yet: its goroutine waits until callers have read. Unless Close was called, what has been decompressed is exactly what Read has returned, followed by what is held. (The window of 2^wbits bytes and the stored block being copied, at most 65535 bytes, are not counted.)", "quantifier": "every input, options, Huffman library, number of concurrent callers, slice sizes, and schedule of Read, Close and Reset", "why_tests_cant": "a test observes one input and a few schedules; memory use would have to be bounded for every input and every interleaving", "anchors": ["reader.go:121-131", "reader.go:259-289 (*Reader).Read", "reader.go:1282-1348 decodeBufferWrite, decodeBufferWriteByte, decodeBufferTryFlush, decodeBufferMustFlush"]}
{"id": "C81", "title": "Options which make no difference", "statement": "Tracers do not influence what a Writer does. Two Writers whose options agree in format, memory level, window size, dictionary and strategy (FixedStrategy and DefaultStrategy count as the same), and whose levels are both 0 or both different from 0 and give the same hint in the header (FLEVEL of zlib, XFL of gzip), return the same results from the same calls, write the same bytes to underlying writers which behave alike, and panic in the same circumstances. In particular raw deflate output is the same at all levels from 1 to 9.", "quantifier": "every pair of option lists, sequence of calls, match finder, Huffman library, and failures of the underlying writer", "why_tests_cant": "a test compares two runs on some data; the claim is about all data, calls and failures", "anchors": ["writer.go:96-139", "writer.go:649-728", "writer.go:949-959 compressSlow", "writer.go:1230-1243", "options.go"]}
{"id": "C82", "title": "What a Writer writes does not depend on the platform", "statement": "The same calls on 32-bit and on 64-bit platforms (the Writer then collects its bits in words of different size) return the same results, send the same events to tracers apart from counts of bytes delivered, and deliver the same bytes to underlying writers which do not fail; at any time the deliveries differ by less than 8 bytes at the end, and after Close, FinishFlush, SyncFlush or FullFlush not at all. (After PartialFlush they can differ.)", "quantifier": "every sequence of calls, options, match finder, Huffman library, pair of word sizes and pair of reliable underlying writers", "why_tests_cant": "a test runs on one platform with some data; nothing compares two platforms for all data", "anchors": ["block32.go", "block64.go", "bitwriter.go", "writer.go outputBitsWrite, outputBitsFlush"]}
{"id": "C83", "title": "A Reader does the same on all platforms", "statement": "On 32-bit and on 64-bit platforms (whose bit buffers have different widths), a Reader used in the same way, for any number of sources with Close and Reset in between, consumes the same input, delivers the same data and the same error in the same pieces, sends the same events, and panics in the same cases; for corrupt and truncated inputs too.", "quantifier": "every input, cut in any pieces, valid or not; every options, Huffman library, moment of Close, and history of resets", "why_tests_cant": "a test runs on one platform with some inputs; overflow of a 32-bit bit buffer would show only for inputs nobody tried there", "anchors": ["block32.go", "block64.go", "reader.go:1123-1146 readSymbol", "reader.go:1235-1280 inputBitsFill, inputBitsRead, inputBitsPeek, inputBitsCommit", "util.go makeMask"]}
{"id": "C84", "title": "Memory level and internal buffer sizes do not change what a Reader makes of its input", "statement": "Two Readers with the same format, window size and dictionary, but different memory levels, tracers, platforms, or slices returned by the window when matches are copied: given the same input they consume the same bytes of it, decompress the same data, report the same error, open the same number of streams and send the same events (apart from the counts of bytes delivered), and panic in the same cases; what has been delivered when an error is reported agrees as far as it goes, although one of them may then have delivered less (C61). Given an input which does not begin with a valid stream, cut in different pieces, the first error is still the same. A Reader with a larger window reads everything a Reader with a smaller one reads, with the same result.", "quantifier": "every input, valid or not, every pair of memory levels, platforms, and sequences of slice lengths; every piecing of the input for the verdict", "why_tests_cant": "buffer boundaries fall in different places for each memory level and each input; a boundary bug shows only for the matches which straddle one", "anchors": ["reader.go:121-131 (NewReader)", "reader.go:813-869 (decodeHuffmanBlock)", "reader.go:1282-1348 (decodeBufferWrite, decodeBufferFlush)"]}
{"id": "C85", "title": "Reported compression level and window size", "statement": "A Reader which decompresses what a Writer has written reports exactly one header for the stream, whose CompressLevel is the class of the Writer's level and strategy which the format can express (zlib: 1 for fastest, 2 for levels 2 to 5, DefaultCompression for 6, 9 for 7 to 9; gzip: 1 for fastest, 9 for level 9, DefaultCompression otherwise; raw: DefaultCompression; Huffman-only and RLE strategies count as fastest), and whose WindowBits is, for zlib, that of the Writer, otherwise 0; whatever SetHeader was given in these fields.", "quantifier": "every option combination and every sequence of Write, Flush and SetHeader calls within a stream", "why_tests_cant": "all levels, strategies, formats, window sizes, dictionaries and histories would have to be combined", "anchors": ["writer.go:649-682 (writeHeaderZlib)", "writer.go:693-728 (writeHeaderGZIP)", "reader.go:472-584 (readHeader*)"]}
{"id": "C86", "title": "A CorruptInputError tells where the problem is", "statement": "When a Reader reports a CorruptInputError with OffsetTotal T and OffsetStream b (the offset its message names), then b <= T <= the number of bytes the source supplied, the first T - b bytes consist of complete valid streams, the stream beginning there is not valid, and - unless T is the whole input - the first b bytes of that stream are already wrong: there is no continuation with which they would form a valid stream of the format for which it was taken.", "quantifier": "every input, every chunking by the source, every option combination, every number of preceding streams", "why_tests_cant": "the claim quantifies over all corrupt inputs, all positions of the damage and all possible continuations of the part reported", "anchors": ["errors.go:9-18 (CorruptInputError)", "reader.go:1362-1370 (corruptf)", "reader.go:1148-1280 (input buffering, inputBytesTotal, inputBytesStream)"]}
{"id": "C87", "title": "The output does not depend on how the data is divided among Write calls", "statement": "Two sequences of calls to a Writer (the same options, the same underlying writer) which differ only in how the data is divided among consecutive Write calls: if one does not fail, neither does the other, and the underlying writer receives the same bytes.", "quantifier": "every option combination, every sequence of Write, Flush, SetHeader and Close calls, every division of the data, including empty Writes, and every behaviour of the underlying writer", "why_tests_cant": "all divisions of all data would have to be compared, at every fill state of the input buffer and at every beginning of a stream", "anchors": ["writer.go:366-393 (Write)", "writer.go:451-475 (compressImpl)", "writer.go:554-608 (writeHeader)", "writer.go:927-994 (compressStore, compressSlow)"]}
{"id": "C88", "title": "Bytes after the last stream are not ignored", "statement": "If the input consists of well-formed streams followed by bytes which do not begin with another well-formed stream, Read returns the whole content of the streams and then an error other than io.EOF; io.EOF is returned only when all of the input has been consumed.", "quantifier": "all lists of streams, all trailing bytes, all source chunkings, all schedules of Read calls", "why_tests_cant": "Ranges over every list of streams, every trailing byte string, every way in which the source cuts its input into pieces and every schedule of readers and goroutine.", "anchors": ["reader.go: readThread, readStream, inputBufferFill, propagateError, closeWithError"]}
{"id": "C89", "title": "The log tells what happened", "statement": "With the Log tracer, every event of a Reader or Writer is logged, in order and without a marshalling error; each entry is a JSON text from which the type, the counters, the format, all fields of the header (time as RFC 3339, extra data in base64), the block, the code lengths and the checksums can be read; two different events never have the same entry (as far as names and comments are valid UTF-8).", "quantifier": "every run of a Reader (any input, source, moment of Close) or Writer (any calls, any failing underlying writer), every header, every time zone with offsets of whole minutes below 24 hours", "why_tests_cant": "strings with arbitrary bytes and all escape sequences, all times of 136 years in all zones, all lists of code lengths", "anchors": ["trace.go: Log, logTracer.OnEvent, Event", "enum_*.go: MarshalJSON", "checksum32.go: MarshalJSON", "huffman.go: SizeList.MarshalJSON", "header.go: Header, ExtraData"]}
{"id": "C90", "title": "Goroutines sharing a Reader do not race", "statement": "When goroutines share a Reader, whatever methods they call and however they are scheduled, no two of them (nor one of them and the Reader's background goroutine) ever access a field of the Reader at the same time with one of the accesses being a write; and the wait group with which Close waits for the background goroutine is used according to its contract (its counter never becomes negative, and is not increased from zero while a Close is still waiting).", "quantifier": "every number of callers, every history of calls of Read, Close, Reset, Format, MemoryLevel, WindowBits, Dict, Tracers and UnderlyingReader, every interleaving with the background goroutine, every buffer size and source", "why_tests_cant": "A race shows up only on particular interleavings, and the race detector reports only those which happen to occur; the property is about all of them.", "anchors": ["reader.go:Reader (mu1, mu2, wg)", "reader.go:Read", "reader.go:Close", "reader.go:Reset", "reader.go:UnderlyingReader", "reader.go:stopReadThreadLocked", "reader.go:readThread", "reader.go:decodeBufferMustFlush", "reader.go:closeWithError"]}
{"id": "C91", "title": "The problem named in a CorruptInputError is really there, and it is the first", "statement": "When a Reader reports a CorruptInputError with OffsetTotal T, OffsetStream b and Problem p, then the first T - b bytes of the input consist of complete valid streams, the stream that begins there is in order (by RFC 1950, 1951 and 1952, with the window size and dictionary of the Reader) up to one place, and at that place it has exactly the problem which p names - e.g. for 'invalid zlib Adler-32 checksum': a valid zlib header and complete valid compressed data are followed by four bytes which are not the checksum of its content; for 'distance > window.Size': after valid blocks and symbols there is a reference further back than the data or the window. The problem ends in byte b-1 of the stream (for 'no code word here' it begins there or before). No other messages occur.", "quantifier": "every input, every chunking by the source, every option combination, every number of preceding streams and blocks, every one of the messages", "why_tests_cant": "tests pick one corrupt input per message; that the message is never given for another reason, or when an earlier problem was overlooked, is a statement about all inputs", "anchors": ["reader.go:480-548 (zlib)", "reader.go:550-710 (gzip)", "reader.go:712-950 (blocks, symbols)", "reader.go:952-1146 (dynamic headers)", "reader.go:1362-1370 (corruptf)"]}
{"id": "C92", "title": "Every first problem of a stream is reported, by its name and at its place", "statement": "If the input from the beginning of a stream is in order (by RFC 1950, 1951, 1952 and the Reader's window size and dictionary) up to a first problem of one of the 28 kinds the Reader has messages for - a wrong check value, an unknown method, a reserved block type, a code length sequence which repeats nothing or too much, a code the Huffman decoder cannot take, a symbol which does not exist, a reference too far back, a wrong length complement, no code word at all - then reading ends with a CorruptInputError which names exactly this problem, with OffsetStream = the number of bytes up to and including the one in which the problem ends, and OffsetTotal = the same plus the lengths of the streams before. So no check is ever skipped, and none is made out of order.", "quantifier": "every input with a problem, every chunking by the source, every option combination, every number of preceding streams and blocks, everything that may follow the problem, every schedule of Read calls", "why_tests_cant": "a test shows that one bad input is refused with one message; that every input with this problem is, wherever it stands and whatever follows, is a statement about all inputs", "anchors": ["reader.go:480-548 (zlib)", "reader.go:550-710 (gzip)", "reader.go:712-950 (blocks, symbols)", "reader.go:952-1146 (dynamic headers)", "reader.go:1362-1370 (corruptf)", "errors.go CorruptInputError"]}
{"id": "C93", "title": "What can be decompressed of a damaged or incomplete input is delivered", "statement": "If the input is valid up to some point - a header, some complete blocks, the beginning of a further block with some complete symbols - then the content of all that is delivered by Read, whatever comes after this point: nothing, a read error of the source, or garbage. It is delivered before the error, but for at most 2^(MemoryLevel+6) bytes at the end.", "quantifier": "every input with a valid beginning, every continuation, every chunking by the source, every option combination, every number of preceding complete streams, every schedule of Read calls", "why_tests_cant": "where an input can be cut or damaged is unbounded, and what is delivered depends on which buffer is full at this moment", "anchors": ["reader.go:327-358 (readThread)", "reader.go:712-950 (readFlateBlocks, readFlateBlockStored, readFlateBlockData)", "reader.go:1280-1330 (decodeBufferMustFlush, decodeBufferTryFlush)"]}
{"id": "C94", "title": "gzip command: the words on the command line mean what they say", "statement": "A command line is refused (exit status 1) exactly if the value of an option means nothing or options exclude each other; otherwise every option has the value which its last occurrence names (the words of --format and --strategy in any case, 'default', 'none' and decimal numbers within the range for the levels and the window size, a time of RFC 3339 for --last-modified), all others have their defaults, and no assertion about options fails. The time given with --last-modified is the one in the archive's header; the text that the option prints for a time is accepted and gives the same time, in every time zone.", "quantifier": "all sequences of options with all texts, all times from the year 1 to 9892, all time zones", "why_tests_cant": "texts, times and their combinations are unbounded; calendar arithmetic goes wrong at single dates", "anchors": ["cmd/gzip/flags.go", "cmd/gzip/main.go:55-98, 101, 124-145, 233-242, 264-268", "enum_format.go:57 Format.Parse", "enum_strategy.go:60 Strategy.Parse", "enum_clevel.go:62", "enum_mlevel.go:56", "enum_wbits.go:58"]}
{"id": "C95", "title": "Reader: tracers hear of a stream before its data is returned", "statement": "When Read has returned some of the data of a stream, all events which concern what comes before this data have been sent to the tracers, in order and none of them lost, and the variable given to CaptureHeader holds what the header of this stream says; it keeps this value, and no goroutine writes to it, until Read has returned all data of the stream.", "quantifier": "all inputs that are concatenations of well-formed streams, all schedules of the goroutine and of any number of callers of Read, all buffer sizes", "why_tests_cant": "the goroutine decompresses ahead of the callers by an amount which depends on the schedule, the buffer size and the sizes of the streams", "anchors": ["trace.go:11 Tracer", "trace.go:83-99 CaptureHeader", "reader.go:327-356 readThread", "reader.go:385-411", "reader.go:1309-1348 decodeBufferMustFlush", "reader.go:1388-1395 sendEvent"]}
{"id": "C96", "title": "The text of a CorruptInputError is true, number by number", "statement": "Error() of a CorruptInputError names OffsetStream, and every other number in it is what the words before it say: checksum in the footer and checksum of the data, LEN, NLEN and the NLEN expected, window sizes, symbol, distance and window size, counts and their limits - in decimal or in hexadecimal with the usual width. What the message claims about the numbers (that two values differ, that one is greater than the other, that a remainder is not 0) is so.", "quantifier": "every input, every chunking, every option combination, every message, all values of the numbers in it", "why_tests_cant": "tests compare a few texts; that the arguments are never swapped, stale or taken from the wrong variable, and that the claim of the message never fails, ranges over all corrupt inputs", "anchors": ["errors.go:16-18 (CorruptInputError.Error)", "reader.go:490-1114 (calls of corruptf)", "reader.go:1362-1370 (corruptf)"]}
{"id": "C97", "title": "The errors of SetHeader and of the Parse methods say what is wrong", "statement": "SetHeader refuses a header with all reasons there are, each once, in a fixed order (a single error if there is one reason, otherwise a list), and with no other; each reason, read literally (longer than 256 bytes, contains a NUL byte, a slash, a backslash, out of range for an unsigned 32-bit time_t, not valid, encodes to n bytes which is beyond uint16_t, with the index of the record), is true of the header. CompressLevel.Parse, MemoryLevel.Parse and WindowBits.Parse refuse a text with the value it denotes and the limit that value violates, and what they say is true.", "quantifier": "all headers (any name, comment, time, system and any list of records), all states of the Writer, all texts", "why_tests_cant": "combinations of faults, the limiting values and the numbers in the texts range over all headers and all texts", "anchors": ["writer.go:SetHeader", "writer.go:checkHeaderFileName", "writer.go:checkHeaderComment", "writer.go:checkHeaderLastModified", "writer.go:checkHeaderOSType", "writer.go:checkHeaderExtraData", "enum_wbits.go:Parse", "enum_clevel.go:Parse", "enum_mlevel.go:Parse"]}
{"id": "C98", "title": "Callbacks may use the Reader", "statement": "A Tracer, or the underlying io.Reader, which calls a method of the Reader it is called from gets an answer (the documentation does not forbid it).", "quantifier": "every reachable state, every method, every schedule of all other callers", "why_tests_cant": "that a call never returns, whatever the other goroutines do, is a statement about all infinite schedules", "anchors": ["reader.go:sendEvent", "reader.go:inputBufferFill", "reader.go:Format", "reader.go:Close", "reader.go:Reset", "reader.go:Read", "reader.go:UnderlyingReader", "trace.go:Tracer"]}
{"id": "C99", "title": "What a Reader collects of its input before reporting it is bounded", "statement": "The size of each Event a Reader sends (hence of what it had to collect in memory for it: file name, comment, extra data, code lengths) is bounded by its options or by a constant, whatever the input.", "quantifier": "all inputs (also malicious ones), sources, options and moments of Close", "why_tests_cant": "a bound for all inputs; and its failure is unboundedness, for every size", "anchors": ["reader.go:inputBufferReadStringZ", "reader.go:readHeaderGZIPFileName", "reader.go:readHeaderGZIPComment", "reader.go:readHeaderGZIPExtraData", "reader.go:readDynamicTrees"]}
{"id": "C100", "title": "The compressed data does not depend on the container format", "statement": "Two Writers that agree in all options except the format, the compression level (both compress, or neither does), the header given to SetHeader, the platform and the underlying writer, and that get the same calls of Write and Flush and are then closed, produce the same streams with byte for byte the same DEFLATE data; only the header and the footer around it are those of the respective format. In particular a zlib or gzip file is a header, the output of a raw Writer, and a footer. The same is true of what has been written so far after each Flush which delivers everything.", "quantifier": "all pairs of formats, all options, headers, histories of calls, match finders, underlying writers that accept all they get, and 32 and 64 bit platforms", "why_tests_cant": "a relation of two executions for every history and every pair of configurations: the bytes a format's header leaves in the buffers shift everything that follows in the Writer's output buffer", "anchors": ["writer.go:Write", "writer.go:Flush", "writer.go:Close", "writer.go:writeHeader", "writer.go:writeFooter", "writer.go:SetHeader", "options.go:WithFormat"]}
{"id": "C101", "title": "A Writer passes its output on in pieces as large as its output buffer", "statement": "A Writer collects its output in a buffer (whose size is chosen by WithMemoryLevel: 2^(level+7) bytes) and calls the underlying writer only when the buffer is full or a call of Flush or Close asks for it; so within one call of the Writer, every Write of the underlying writer but the last one has the size of the buffer. (The code does not do so: every piece of output is passed on at once. What holds: no piece is empty or larger than the buffer, and a piece larger than a machine word is a contiguous part of the data given to Write or of a stream's header, so compressed data always comes in pieces of at most 8 (or 4) bytes, one Write call each.)", "quantifier": "all options, data, histories of calls without an error, match finders, underlying writers, 32 and 64 bit platforms", "why_tests_cant": "a statement about all calls of the underlying writer in all executions; tests look at the concatenated output only", "anchors": ["writer.go:outputBufferWrite", "writer.go:outputBufferFlush", "writer.go:outputBitsWrite", "writer.go:outputBitsFlush", "writer.go:NewWriter"]}
{"id": "C102", "title": "Calls with nothing to do", "statement": "A call with nothing to do writes nothing and sends no events: Write of no bytes; SetHeader; Flush of any type while no stream is in progress (Flush(FinishFlush) if there has been a stream already); Close directly after the end of a stream; Flush(BlockFlush) directly after another Flush. A Flush is still passed on to an underlying writer with Flush or Sync; if there are no such methods, such calls (other than SetHeader and Close) can be left out without any effect on the results and the output of the others. While a stream is in progress, each further Flush(SyncFlush) or Flush(FullFlush) without data in between adds exactly the five bytes 00 00 00 FF FF.", "quantifier": "all options, histories of calls without an error, data, match finders, underlying writers and platforms", "why_tests_cant": "all histories before and after the call", "anchors": ["writer.go:Write", "writer.go:Flush", "writer.go:Close", "writer.go:SetHeader", "writer.go:compressImpl", "writer.go:flushImpl", "writer.go:flushGuts"]}
{"id": "C103", "title": "The output determines the data", "statement": "If two Writers of the same format and with the same dictionary (whatever their other options, platforms and match finders) produce the same bytes up to and including a successful Close, then they were given the same data, cut into streams at the same places. More generally, if one output is the beginning of the other, the streams of the first are the first streams of the other; so for single streams with different data neither output is a beginning of the other. The dictionary matters: with different dictionaries, different data can produce the same bytes.", "quantifier": "all pairs of Writers (options, platforms, match finders, underlying writers) and all pairs of histories without errors", "why_tests_cant": "injectivity ranges over all pairs of data and histories", "anchors": ["writer.go:Write", "writer.go:Flush", "writer.go:Close", "reader.go:Read"]}
{"id": "C104", "title": "A Writer's output shows its format", "statement": "Whatever the format, options, data and calls, the beginning of every stream a Writer produces, whatever follows it, is classified correctly by the rule a Reader without a format option uses (1f 8b: gzip; CM=8 and a multiple of 31: zlib; otherwise raw); in particular a raw stream never looks like gzip or zlib, because the bits a decoder skips are always written as zeros. Hence such a Reader, if the first two bytes come together, delivers exactly what was written, in all three formats, and it delivers the contents of all the files if files written by different Writers in different formats are concatenated (with the piece boundaries excluded by C07 and C08).", "quantifier": "all options, histories of calls without an error, data, match finders, platforms, ways to divide the output into pieces", "why_tests_cant": "a collision between the first bytes of compressed data and a header is a matter of all data and all histories", "anchors": ["writer.go:writeStoredBlock", "writer.go:Write", "writer.go:Close", "reader.go:readHeaderAuto", "reader.go:Read"]}
{"id": "C105", "title": "Nothing is delivered of an input whose header is not acceptable", "statement": "If a non-empty input does not begin with a header of the container format the Reader was told (or detected) which this Reader accepts - another format, a bad check, a window larger than allowed, a missing, other or needless dictionary - then Read never returns a single byte, not even after the error, and never io.EOF. In particular a Reader told gzip (zlib) refuses whatever does not begin with 1f 8b (a zlib header), with a CorruptInputError at offset 10 (2), or io.ErrUnexpectedEOF if the input is shorter than that, so that it refuses what any Writer wrote in another format; and a Reader told raw refuses gzip, with a CorruptInputError at offset 1, before any data.", "quantifier": "all inputs, options, dictionaries, sources (division into pieces and errors), schedules of calls", "why_tests_cant": "all inputs, pieces and schedules; the goroutine goes on after some errors (C46), so that it must be excluded that it does so here", "anchors": ["reader.go:readHeader", "reader.go:readHeaderZlib", "reader.go:readHeaderGZIP", "reader.go:readStream", "reader.go:Read"]}
{"id": "C106", "title": "A Reader's tracers hear of the same blocks as the Writer's", "statement": "If a file written by a Writer without an error and closed, or a truncated copy of it, is read by any Reader, then for every stream of which the tracers of both have been told at the same byte of the file, the StreamHeader events are sent at the same byte offset, and the BlockBegin, BlockTrees and BlockEnd events which follow, up to StreamEnd, are of the same kinds, with the same block types, final marks and code lengths: those of the Reader are the first of those of the Writer, and they are exactly the same if the Reader reached the end of the final block, in particular if it reported io.EOF.", "quantifier": "all options, all calls of the Writer, all data, all Readers (options, dictionaries, platforms), all points of truncation, all divisions of the source into pieces, all moments at which the Reader is closed, all streams of the file", "why_tests_cant": "the blocks depend on the data, the options and the flushes, and it must be excluded that the bits have a second reading as other blocks", "anchors": ["trace.go:Event", "writer.go:writeBlock", "writer.go:sendEvent", "reader.go:readBlock", "reader.go:readFlateBlockDynamicHuffman", "reader.go:sendEvent"]}
{"id": "C107", "title": "A Writer's tracers hear of exactly the streams in the output", "statement": "After calls of a Writer none of which failed, the last of them Close, the tracers have been told of exactly as many complete streams (StreamBegin to StreamClose) as there are in the output; without Flush(FinishFlush) this is one, and its events are all events. At any time before, they have been told of the beginning of the streams completed so far and of the open one if data has been written to one, and of no other: empty Writes, flushes without data, and repeated FinishFlush begin no stream (but the first FinishFlush or Close does, if there was none).", "quantifier": "all options, all calls, all data, all moments between calls", "why_tests_cant": "streams are begun lazily, at a moment which depends on the amount of data and on the history of flushes; no suite covers every history", "anchors": ["writer.go:flushImpl", "writer.go:writeHeader", "writer.go:Close", "writer.go:Flush", "writer.go:sendEvent", "trace.go:Event"]}
{"id": "C108", "title": "The tracers of a Reader are told the same story as those of the Writer", "statement": "If a stream is written without an error (any Writes, header changes and flushes other than FinishFlush, then Close) and the file is read by a Reader with the same format and dictionary and a window at least as large, then the Reader's tracers are sent exactly the same sequence of events as the Writer's were: StreamBegin, StreamHeader, the same block events with the same types, final marks and code lengths, StreamEnd with the same checksums, StreamClose, and no others; only the Header values and the byte counters may differ (the position in the file at StreamHeader is the same).", "quantifier": "all options, all calls of the Writer, all data, all suitable Readers (options, platforms), all divisions of the source into pieces", "why_tests_cant": "which blocks there are depends on data, options and flushes, and on both sides the events are sent by different code; equality must hold for every file", "anchors": ["trace.go:Event", "writer.go:sendEvent", "writer.go:writeHeader", "writer.go:writeFooter", "reader.go:sendEvent", "reader.go:readHeader", "reader.go:readFooter", "reader.go:readBlock"]}
{"id": "C109", "title": "The byte ranges told to a Writer's tracers tile the output and the data", "statement": "As long as no call of a Writer fails: the first StreamBegin is at byte 0 of output and of data; every later StreamBegin follows the StreamClose of the stream before and is at exactly the same byte of output and of data, so that nothing is written or consumed between streams; every StreamClose follows a StreamEnd and is exactly one footer after it (0 bytes for raw, 4 for zlib, 8 for gzip), with no data consumed between; and after Close the last event is a StreamClose, at the end of the output and of the data written. So the ranges from StreamBegin to StreamClose divide the output, and the data, without gap or overlap.", "quantifier": "all options, all calls, all data, all divisions into streams", "why_tests_cant": "the counters are kept at many places and sent at others, with buffered bits and bytes in between; that they agree at every seam must hold for every history", "anchors": ["writer.go:writeHeader", "writer.go:writeFooter", "writer.go:sendEvent", "writer.go:outputBufferWrite", "trace.go:Event"]}
{"id": "C110", "title": "The byte ranges told to a Reader's tracers are adjacent", "statement": "In every run of a Reader, whatever the input (also corrupt or truncated) and whenever Close is called: the first event is at byte 0 of the input; every later StreamBegin directly follows the StreamClose of the stream before and is at exactly the same byte of input and of output, so that nothing is consumed or delivered between streams; every StreamClose directly follows a StreamEnd and is exactly one footer of the recognised format after it (0, 4 or 8 bytes), with no data delivered between. So the totals at StreamBegin and StreamClose are the boundaries at which a file can be cut into its streams.", "quantifier": "all options, sources, divisions of the source into pieces, moments of Close", "why_tests_cant": "bytes are read ahead into a buffer and bits into an accumulator; that the counters never include bytes of the next stream must hold for every file", "anchors": ["reader.go:readHeader", "reader.go:readFooter", "reader.go:sendEvent", "reader.go:inputBufferRead", "trace.go:Event"]}
{"id": "C111", "title": "A file can be cut into its streams at the places told to the Reader's tracers", "statement": "If a Reader reads its input to the end (io.EOF), then the input is a sequence of well-formed streams (followed at most by bytes which were not read, see C07), the data returned is the sequence of their contents, and the totals carried by the StreamBegin and StreamClose events are exactly the positions in the input where those streams begin and end, and the positions in the data where their contents begin and end. So each range from StreamBegin to StreamClose, cut out of the file, is by itself a file with the corresponding range of the data.", "quantifier": "all options, inputs (bytes, number and contents of streams), all divisions of the source into pieces", "why_tests_cant": "the Reader reads ahead, in buffers and in a bit accumulator, and counts at several places; that the counts are right at the boundary of every stream is a claim on all inputs", "anchors": ["reader.go:readThread", "reader.go:readHeader", "reader.go:readFooter", "reader.go:sendEvent", "reader.go:inputBufferRead", "trace.go:Event"]}
