# Formal model of chronos-tachyon/flate in Lean 4 — design

## 1. Layout

* `lean/Verif/Base.lean` — Go-style state+panic monad `Go σ α = σ → Except Panic (α × σ)`.
* `lean/Verif/Spec/*.lean` — small independent specification. Nothing in `Spec` imports the code model, except that `Trace`, `LooseTrace` and
  `Api` use the types of events, options and results (`Model/Types`, `Model/WriterApi`).
  `Checksum` (Adler-32, CRC-32 by polynomial division), `Bits` (LSB-first bit lists), `Huffman` (canonical codes), `Deflate` (RFC 1951 as a
  relation `BlockEnc ok win`; `BlockRel`, `DeflateOf` are parametrised by the kind of block so that strategies can be described),
  `Container` (RFC 1950/1952: `Stream ok win dict c bytes data`, `GzHeader`, `ZlibHeader`, `HeaderOf`, `footerOf`), `Trace`/`LooseTrace` (event grammars),
  `Api` (what a history of calls of a Writer means: which data belongs to which stream).
* `lean/Verif/Model/*.lean` — the code of /repo, function by function, each definition citing file:lines.
* `lean/Verif/Proof/*.lean` — lemmas: `W*` Writer, `R*` Reader, `Conc*` schedules.
* `lean/Verif/Props/*.lean` — the property theorems named in `MANIFEST.json`, each beside a concrete instance which meets its hypotheses.
* `tools/` — `mkmanifest.py` (writes MANIFEST.json), `mutate.py` and `mutants.py` (wrong programs, see 6).

## 2. Modelling decisions

General

* Bytes are `UInt8`; checksums `BitVec 32`; unbounded counters (`uint64` byte counters, lengths) are `Nat`, with explicit `% 2^16`/`% 2^32`
  at every narrowing conversion; bit accumulators are `Nat` with explicit `% 2^W`, `W ∈ {32, 64}` (block32.go, block64.go).
* `assert.*` failures and out-of-range slice operations are `panic`. Unbounded Go loops are recursion on fuel, whose
  exhaustion is a separate `Panic.fuel`, proved never to occur (C52, C10_only).

Writer (`Model/{Token,Block,Options,Writer,WriterApi,Extra}`)

* The underlying `io.Writer` is a `Sink`: accepted bytes plus an arbitrary script of failures (of `Write`, `Flush`, `Sync`), including short writes.
  `Sink.errs` is an observation which the model does not read.
* The match finder `buffer.LZ77` is an arbitrary oracle `propose`: at each position it proposes any match, which counts if it is a real
  match within the limits of the options; so the theorems hold for every match finder which returns true matches.
* The bit writer, the token list, the choice of block type, the run-length coding of code lengths, headers, footers, the API state machine, `Reset`, and events are modelled as they are.
* `Setup` = library, word size, match finder, sink, options; `Setup.Runs ops rs t`: the calls `ops` on a new Writer return `rs`.
  `Setup.Small`/`Fits` exclude the panic of C10 (they are only needed to show that histories exist: other theorems suppose that the history ran).

Reader (`Model/Reader`)

* The underlying `io.Reader`, as seen through `buffer.Buffer.ReadFrom`, is a `Src`: some fills followed by a last fill and an error; the
  way of cutting is arbitrary.
* The goroutine is a sequential function `readThread` which leaves a list of actions (`Act.data`, `Act.err`) and events. `Close` during the
  run is an arbitrary script `stop`. `ROptions` are the parameters a Reader keeps (reader.go:46-50).
* `buffer.Window` keeps the last `2^n` bytes; `LookupSlice` returns arbitrarily clipped slices.
* `RSetup`, `Runs`, `Delivers`, `Takes` (how the format of the input is determined), `Fills` (the contract of ReadFrom, only used by counterexamples).

Schedules (`Model/Conc`)

* A transition system: the goroutine, any number of callers of `Read`/`Close`/`Reset`, two mutexes, two condition variables, the wait group, and the
  output buffer with any capacity. A step is what one goroutine does between two synchronisation operations. `Signal` wakes any one waiter; no
  spurious wake-ups (sync.Cond's documentation). The goroutine's program is the list of actions of `readThread` (proved to be exactly what the model of section Reader produces: `C03_calls` and others compose the two).
* `Model/Notify` adds the events and tracers to this (histories with `Read` only).

Checksums (`Model/Checksum`, `Model/CrcArch`)

* Portable code; and the amd64 and arm64 assembly routines instruction by instruction, with the semantics of the manuals.

Command (`Model/Gzip`, `Model/CmdLine`): cmd/gzip/main.go and flags.go; `io.Copy`, `time.Parse` and getopt by their contracts; files, logging, profiling and the splitting of the command line into options not modelled.

Pools (`Model/Pool`): the functions of the Writer which use pooled memory, once more, with pointers into a heap shared by all goroutines; sync.Pool by its contract. `Model/Writer` uses fresh lists instead; C74 shows that this is the same.

Others: `Model/Text` (enums with numbers, Checksum32 as text and JSON), `Model/Enum` (enums with names, SizeList as JSON), `Model/Trace` (tracers), `Model/Log` (the Log tracer: an Event as JSON).

## 3. Trusted base

* Lean 4.33.0's kernel. Axioms: at most `propext`, `Quot.sound`, `Classical.choice` for every theorem (AXIOMS.md lists them for each theorem); no axioms of our own.
* The fidelity of the model to the Go source (checked by reading only).
* Contracts of external libraries, which are not available here:
  * `huffman.Encoder/Decoder`: `HuffLib.Lawful`. Canonical codes; the decoder accepts complete codes, accepts only prefix codes and decodes exactly them; the encoder's
    codes are acceptable to the decoder and give a code to every symbol which occurs. **Length limits are an assumption about the library**: the Go code calls `Encoder.Init` without a limit,
    so ≤ 15 bits (≤ 7 for the code length alphabet) must be ensured by the library. `refLib` (`Proof/RefLib`) is a proof that the contract can be met; every theorem is about all lawful libraries.
  * `buffer.LZ77` (`Write`, `Read`, `Advance`, `PrepareBulkRead`: a contiguous prefix of what is buffered, `SetWindow`, `WindowClear`, `IsFull`), `buffer.Window` (`Write`, `LookupByte`,
    `LookupSlice`, whose result is used before the next `Write`; `IsZero` = nothing written, `Size` = its capacity, which is what `Size` means for the other buffers), `buffer.Buffer.ReadFrom` (returns nil only if something was added; errors of the source are returned).
  * `strconv.ParseUint`, `strings.EqualFold`, `fmt.Sprintf` with `%d`, `%#x`, `%#0wx`, `%s`, `enumhelper`, `encoding/json` (Go 1.16: strings, structs, slices, numbers), `encoding/base64`, `time` (RFC 3339), `unicode/utf8`, `io.Copy` (32 KiB pieces, stops at the first error), `sync` (mutex, condition variable, wait group), Go's memory model
    for data protected by mutexes, `assert` (panics).
  * the manuals' semantics of the CPU instructions in crc32_amd64.s and crc32_arm64.s, and that the assembler encodes them.

## 4. What is not modelled

text of enum values outside their range, zerolog's line around the event of the `Log` tracer, the text of the Huffman library's errors (after "failed to initialize … decoder: "),
fractions of seconds and zone offsets which are not whole minutes, version.go, getopt and profiling in cmd/gzip, tracers or underlying readers/writers which panic (calls back: C64, C98).
The mutex of the Writer is not part of `Model/Writer` (its methods are taken as atomic there) but of `Model/WConc`.

## 5. Plan per property

| id | what is modelled | how it is proved |
|----|------------------|------------------|
| C01 | Writer and Reader | compose C02 with C03; `C01_calls` adds all schedules of `Read` calls |
| C02 | whole Writer | abstract machine + invariant over API histories: sink = complete streams ++ open stream encoding consumed data |
| C03 | Reader goroutine | induction over Spec's block/token relation |
| C04 | same | induction over Reader's loops: clean EOF implies Spec relation (`run_sound`) |
| C05 | same | from C04 + prefix-freeness of Spec streams |
| C06 | same, arbitrary `Src` | Reader functions commute with pre-fetching the whole source (`norm`) and with extending it (`ext`); false for corrupt input: witness |
| C07 | same | false when io.EOF comes with data: witness; `C07_partial` with exact condition |
| C08 | readHeaderAuto | false for 1-byte fills: witness; proved for the first stream |
| C09 | Reader panics | false: FEXTRA witness; the only panic there is |
| C10 | Writer panics | false: 64 KiB stored block; the only panic there is, sharp bound |
| C11 C13 C14 | Writer | corollaries of the C02 invariant after each flush kind |
| C12 | Writer | false: witness; partial: all but < W bits reach the writer |
| C15 C16 C18 C51 | Writer + failing Sink | invariant on state/err, per-call theorems; C51: two-run simulation (WSim) |
| C17 | Writer Reset | false (stale bit accumulator after a failure, sticky header): witnesses; partial: equal to a new Writer for histories without failure |
| C19 C20 C50 | internal/adler32, internal/crc32 | loop invariants; GF(2)-linearity |
| C21 C22 C23 C24 | headers | parser/printer inversion; C23 false in part |
| C25 C26 | token.go, decodeLL/decodeD | table equality for all lengths/distances; window invariant |
| C27 C28 | analysis.go, readDynamicTrees | induction over run-length loop |
| C29 C30 C31 C32 | compressTokens, bitcounter | bitcounter simulates Writer; C30/C31 false in part: witnesses |
| C33 C34 C35 | events | event-grammar automaton as invariant; C34 false after raw corruption: witness, loose grammar for all runs |
| C36 C37 C38 | options.go, enum_*.go, checksum32.go | direct |
| C39-C45 | Conc | inductive invariants, variant function for liveness; C41-C45 false in part: witness traces |
| C46 C47 | Reader | false in part: witness + partial |
| C48 | Writer header | first stream proved; later streams false: witness |
| C49 | bit I/O | refinement to bit lists, for both block widths |
| C52 | Reader loops | fuel bound from input length |
| C53 | Writer events | header and footer in events = bytes written / checksums of the data |
| C54-C56 | cmd/gzip | compose io.Copy's pieces with C02, C03 and Conc, including exit status |
| C57 | cmd/gzip flags | case analysis; false for an empty dictionary file: witness |
| C58 | Reader.Reset | two-run simulation (RSim): a reset Reader and a new one do the same; false for totals: witness |
| C59 | Reader header events | commutation with `norm` and `cut` (stopped Reader), header soundness |
| C60 | trace.go | fold over events; with C21 |
| C61 | Flush + the Reader | C11 gives complete blocks; the Reader on header + non-final blocks + end of source (`Proof/RFlush`); false: data is held back in the decode buffer |
| C62 | Read/Close and a blocking source | steps of `Model/Conc`; from states in which the goroutine holds mu1 no step of the others is enabled; false. Partial: nobody holds a mutex |
| C63 | concurrent Writers | `Model/WConc`: calls as micro-steps under the mutex; every schedule's log is a sequential run (`stepOp`) |
| C64 | callbacks | same model; a reentrant call waits for the mutex its own goroutine holds; false |
| C65 | memory of the caller | `Model/Alias`: memory cells, the Writer remembers the reference in `fw.header.ExtraData`; false. Partial: `Untouched` cells |
| C66 | amplification | potential: bytes made + 129 * bits left does not increase in any function of the goroutine (`Proof/RRatio`), any `stop`; lifted to calls of Read by C39 |
| C67 | headers copied | false (path separators, long names); partial: exact condition, from C59 and `headerOK_iff` |
| C68 | block events of a Reader | spec `Spec/BlockEvents` (`BlockRun`: a tiling of the bits of the input by blocks, with the events); which bits each function consumes when it succeeds (`Proof/RTake`), for any source and any `stop`; induction over blocks and streams (`Proof/RBlockEv`) |
| C69 | trees only for permitted headers | false (reader.go:977-982 complain but go on), with a 13-byte witness; partial: if the end of the input is reported, no such header was announced: an error, once recorded, stays the first one (`Proof/RCounts`) |
| C70 | block events of a Writer | `Spec/WBlockEvents` says which events describe a block at a place; proof: `run_sent` gives the place of each event of a command sequence, `Tr` collects the blocks of all streams (`Proof/WEvents`, `WEvents2`), by induction over the calls |
| C71 | damage is noticed | `Spec/Damage` says what a burst is; `Proof/Detect`: CRC-32 register steps are injective and linear, Adler sums are linear; `Proof/RDamage`: a stream whose footer is not that of its content is refused (`stream_close`) |
| C72 | name tables of enum_*.go (`Model/Enum`), enumhelper by contract | spellings of different rows are disjoint (evaluated for the whole tables), so the first match is the only one |
| C73 | SizeList.MarshalJSON | words between commas are determined by the text |
| C74 | the pools: programs with pointers, shared heap, any schedule (`Model/Pool`) | ownership invariant over all steps; the program of the Writer is verified with a small program logic (`wp`, `Tri`) against `Model/Writer` |
| C75 | Writer state between calls (`Live.cap`, `OpenAt`) | invariant: buffered < min(cap, 61440 or 4096), the rest is in the sink except < W bits; exactness by evaluation at both sides of the bound |
| C76 | log of the calls of the underlying writer (`Sink.log`) | traversal of all Writer functions (`Proof/WLog`): writes only, except for the last two steps of flushImpl |
| C77 | the number of bits written by each Writer method against the input it consumes (`Paid`), headers and footers from the abstract machine | every successful call is decomposed into its steps (inversion of checked sequencing); a block costs at most 42 bits more than its data, blocks before a Flush hold at least `room` bytes; sum over the history |
| C78 | options, constructors, Reset and accessors with a heap of arrays (`Model/Share`) | refinement of a machine without shared memory (`Spec/Snapshots`); invariant: arrays referred to by options and objects are not among those the program holds |
| C79 | Hash types (`Model/Hash`) | simulation with the list of bytes written since the last Reset |
| C80 | Model/Conc.lean: outputBuffer and the data the goroutine is about to put there; Model/Reader.lean: the pieces it makes | invariant `buf.length ≤ cap` over all steps, `Prog` of Proof/Conc.lean for what is on its way, invariant `Fit` over all functions of the goroutine (Proof/RFit.lean): Props/ReadAhead.lean |
| C81 | two runs of Model/Writer.lean side by side, from `newWriter` with different options | relational invariant of Proof/WSim.lean (weakened to options which are `Alike`) over all functions of the Writer: Props/WriterOptions.lean |
| C82 | two runs of Model/Writer.lean, with different word sizes W of the bit writer and different (reliable) sinks | relational invariant: equal `view` (bits delivered, followed by bits held) over all functions of the Writer, Proof/WWord.lean: Props/Platform.lean |
| C83 | two runs of Model/Reader.lean with different word sizes W | the bit buffer never holds 32 bits or more, by an invariant over all functions of the goroutine, so that no operation depends on W: Proof/RWord.lean, Props/ReaderPlatform.lean |
| C84 | two runs of Model/Reader.lean with different memory levels and LookupSlice lengths | a relation between the two states (delivered ++ held data equal, all else equal) kept by all functions of the goroutine: Proof/RLevel.lean, Props/ReaderLevel.lean |
| C85 | Model/Writer.lean headers, Model/Reader.lean readHeader | header bytes of the Writer (Proof/WHead, WFlow) are what the Reader reports (Proof/RHead): Props/Hints.lean |
| C86 | goroutine model, input counters; `corruptf` takes them | two inputs agreeing up to the reported offset give the same report (relation over all functions, Proof/RPos), plus completeness of decoding |
| C87 | Writer model, loop of `Write` | one byte at a time: a single byte first and then the rest leaves a state agreeing with the whole (Proof/WDiv, using the side-by-side relation of WSim); the header does not look at the input buffer unless it has to guess; false otherwise, two witnesses |
| C88 | Reader model of the goroutine: streams then garbage; classification by run_sound (induction over the stream loop), composed with the schedule model for calls | Props/Trailing.lean: C88_trailing_partial, C88_calls_partial, C88_eof_partial; refuted by C88_ignored, C88_fails |
| C89 | Model/Log.lean: the JSON of an Event as encoding/json writes it (strings with escapes and UTF-8 decoding, structs, arrays, base64, times with zones, enum names); Spec/Json.lean: readers for JSON, RFC 3339, base64 and what an entry must say | every written text is read back (compositional `Reads` lemmas, omega for dates), entries determine the event; loggable headers from C53/C59 |
| C90 | Model/Conc.lean extended with the getters; Model/Race.lean: which fields are accessed at each place of the code, with the table tied to the steps by `C90_untouched` | lock ownership invariant (Proof/Conc.lean): who accesses a field holds its mutex. False of the code: UnderlyingReader/Reset race, wait group reused: `C90_fails`, `C90_waitgroup_fails` |
| C91 | goroutine model with the messages of `corruptf`; Spec/Complaint.lean: for each message the fact about the formats it asserts | by induction along the decoding functions (Proof/RWhy, RWhyHead, RWhyRun), with the soundness of the parts decoded before (C03/C04 lemmas); position as for C86 |
| C92 | as C91: the same specification of problems (Spec/Complaint.lean), read in the other direction | forward induction along the decoding functions: when the specification says what comes next, the code takes the same step and reports the problem (Proof/RTell, RTellRun, RTellAll); completeness lemmas of C03 for the good part before it |
| C93 | the goroutine on inputs which are valid only up to some point (Begins in Props/Salvage.lean: header, blocks, BlockPart) | completeness lemmas of C03 for partial inputs, StepO (nothing in decodeBuffer is lost), induction over complete streams before (Proof/RSalvage); FALSE for stored blocks (C93_fails) |
| C94 | cmd/gzip/flags.go (Set, String) and the effect of getopt.Parse (Model/CmdLine.lean); getopt and time.Parse by contract | induction over the settings; C37, C72 for the texts; calendar arithmetic of C89 for the times |
| C95 | Model/Notify.lean: the steps of Model/Conc.lean and the sending of events, placed by their OutputBytesTotal | invariant (unsent events lie at or after what has been flushed, sent ones at or before) over all steps, with C35 for the order of events and Proof/RHeads.lean for the places of the headers; false if another stream follows: witness schedule |
| C96 | Spec/Problem.lean: the arguments of each `corruptf`; Model/Message.lean: the texts; Spec/Wording.lean: the words before each number, and what the message claims about the numbers | text: digit by digit, for all numbers; claims: from C91, by cases over the problems; FALSE for the distance message (witness; never true with the default window) |
| C97 | Spec/Refusal.lean: the complaints and what their words say; Model/Refusal.lean: the checks of SetHeader in order, with the list of errors, and the three Parse methods with their errors | membership in the list, by cases; order by an invariant of the list built so far; Parse via the description of ParseUint in Props/Text.lean; FALSE for names and comments of exactly 256 bytes, the time 2^32 - 1 and too many window bits; contracts: multierror.Error is its list of errors, strings.IndexByte, the error of strconv.ParseUint is one constant |
| C98 | the transition system of Model/Conc.lean; the callback acts as a caller, and the goroutine goes on only when that caller's call has returned (`During`) | FALSE: invariant that mu1 stays with the goroutine and the callback's call before it; UnderlyingReader by its two steps |
| C99 | events of the Reader model; what an event contains was read and held in memory (buffers of fixed size: C80) | extra data and code lengths: from C59 and C68; FALSE for names and comments of gzip headers: a valid stream for every name |
| C100 | two executions of the Writer model, with their own formats, levels, platforms, sinks and SetHeader calls | a relation of two states (`Proof/WForm.lean`): the same LZ state, the same bits behind the open header, finished streams pairwise equal between header and footer; preserved by every call although the buffers are shifted against each other |
| C101 | the log of `Write` calls of the underlying writer in the Writer model | false: `outputBufferWrite` flushes the buffer after every piece, and each machine word of bits is written at once (`C101_fails`: 43 bytes in seven calls with a buffer of 256). `C101_partial`: the sizes of all pieces, by a traversal of all Writer functions (`Proof/WPieces.lean`) under the invariant that the buffer is empty between writes. A piece which wraps around the ring of the real buffer may be passed on in two calls, which the model counts as one |
| C102 | the Writer model; `NothingToDo` is defined with the abstract machine of Spec/Api.lean (which data segments are complete, which one is open) | the invariant of `run_good` says the input buffer is empty and the state is noStream or closedStream; each function then reduces to the calls of Flush and Sync. Exact bytes of a repeated SyncFlush from `writeStoredBlock_does` |
| C103 | Writer output (two Writers) | conformance (C02) for both, then uniqueness of decoding stream by stream, window raised to the larger of the two; witness for the need of the dictionary |
| C104 | Writer output, autodetection, Reader | the invariant of the Writer (`BlockOK`) refined by `PadZero` (padding bits of every block are zero); first byte of a raw stream by its first block; then C03, C08 |
| C105 | Reader up to the first header | a header which is not valid makes the header functions return false (`header_true`), no function before the blocks delivers data (`Flow`); message and offset from C92; `C105_written` from C104 |
| C106 | Writer and Reader, events | C70 and C68 say that the block events describe the bits at the place; the bits have one reading only (`Proof/Unique.lean`, `blocks_agree`); the headers end at the same byte (`headers_agree`) |
| C107 | Writer, events | the invariant of the Writer counts streams (`Live.num`, `Closed.num`); the events count them too (C35), and each complete stream has one StreamBegin event |
| C108 | Writer and Reader, events | both begin at byte 0 (`Ev.first`, `reader_first`), so that C106 applies; C107: one stream; C53 and C34: checksums, with `Ev.stop` (all data is consumed before StreamEnd) |
| C109 | Writer, events | invariant `Ev.gaps` (each pair of neighbouring events at the seam of two streams or at a footer), `LastAt` for the time between streams; C33 for which kinds are neighbours; C107 for the last |
| C110 | Reader, events | invariant of the loop over streams (`TInv`: neighbouring events fit, the last is where the Reader is); which events there are within a stream is C34's; `footerOf_true`: a footer accepted has consumed its bytes |
| C111 | Reader, events | induction on the loop over streams with `stream_step` (what one iteration consumes and delivers) and C110's invariant; `bounds` says what the totals should be, from the lengths of the streams |

All `partial` entries of the manifest are properties which are false of the code as it is; for each the negation is a theorem (suffix `_fails`) and the `_partial` theorem is what remains true.

## 6. Tests against wrong programs

`tools/mutate.py` edits one definition of the model at a time (list in `tools/mutants.py`), re-elaborates all dependent modules with Lean's error recovery (a proof which breaks is recorded) and asks
which manifest theorems depend on a broken proof. `seeded/LOG.jsonl` has one line per attempt; `theorems_tightened` names theorems added or strengthened because of it.
A broken proof alone does not show that a statement is sharp; where a mutant only broke an auxiliary equation, the statement of the property was reviewed by hand and, if it did not exclude the mutant, tightened.
`tools/automut.py` makes random small edits (numbers, comparisons, arguments, dropped updates) of model definitions; `seeded/AUTO.jsonl` has one line per attempt. Edits which no theorem notices were looked at one by one;
those left are equivalent programs for every property listed: the tuning constants of the match finder in `Model/Config` (the proofs are about every match finder), the number of writes of a gzip header (`nWrites`, unobservable),
and defaults of record fields which are always given.
