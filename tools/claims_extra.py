claim("C21", "partial", ["C21_writer"], "writer half only")
claim("C24", "partial", ["C24_writer"], "writer half only")
claim("C25", "partial", ["C25_writer"], "writer half only")
claim("C35", "partial", ["C35_output", "C35_input"], "writer half only")
claim("C49", "partial", ["C49_writer", "C49_words"], "writer half only")
claim("C19", "proved", ["C19_adler", "C19_checksum", "C02_conforming"], "C02_conforming: the footer bytes carry it")
claim("C20", "proved", ["C20_crc"], "portable code path (crc32.go genericUpdate); the assembly paths are C50")
claim("C23", "partial", ["C23_round_trip", "C23_format", "C23_parse_partial", "C23_fails", "C23_fails_example", "C23_reads_outside"],
  "round trip proved; the no-panic half is FALSE of the code: Parse panics on every malformed field (C23_fails), and with spare capacity reads outside its argument")
claim("C26", "partial", ["C26_encode_length", "C26_encode_distance", "C26_encode_258", "C26_encode_literal", "C26_tables"], "encoding half")
claim("C27", "partial", ["C27_encode"], "encoding half")
claim("C36", "proved", ["C36_newWriter", "C36_buffers", "C36_writer_reset", "C36_newReader"], "")
claim("C37", "proved", ["C37_clevel_parse", "C37_clevel_total", "C37_clevel_round_trip", "C37_mlevel_parse", "C37_mlevel_total", "C37_mlevel_round_trip", "C37_wbits_parse", "C37_wbits_total", "C37_wbits_round_trip"], "")
claim("C38", "proved", ["C38_round_trip", "C38_injective"], "")
claim("C03", "proved", ["C03_decodes", "C03_complete"], "reader thread level: what is handed to Read callers, for every split of the source into reads")
claim("C04", "proved", ["C04_sound"], "")
claim("C05", "proved", ["C05_truncated"], "")
claim("C06", "partial", ["C06_valid", "C06_truncated", "C06_partial", "C06_fails"], "proved for valid and truncated input; FALSE for corrupt input (C06_fails)")
claim("C07", "partial", ["C07_some", "C07_partial", "C07_fails"], "FALSE of the code when io.EOF comes with the data (C07_fails)")
claim("C08", "partial", ["C08_first", "C08_fails"], "proved for the first stream; FALSE of later streams (C08_fails)")
claim("C09", "partial", ["C09_fails"], "FALSE of the code: a malformed gzip extra field panics the reader thread")
claim("C46", "partial", ["C46_fails"], "FALSE of the code after corruption")
claim("C47", "partial", ["C47_fails"], "")
claim("C09", "partial", ["C09_partial", "C09_fails"], "no panic except for a malformed gzip extra field, which does panic (FALSE of the code)")
claim("C34", "partial", ["C34_partial", "C34_fails"], "proved for runs ending in io.EOF; FALSE for corrupt input")
claim("C35", "proved", ["C35_output", "C35_input", "C35_reader"], "")
claim("C45", "partial", ["C45_once"], "the goroutine's part")
claim("C46", "partial", ["C46_partial", "C46_fails"], "data before the error; FALSE of data after it")
claim("C47", "partial", ["C47_partial", "C47_fails"], "e or corrupt input is reported; FALSE that it is always e")
claim("C52", "proved", ["C52_terminates"], "")
claim("C01", "proved", ["C01_round_trip", "C01_autodetect", "C01_finish_partial"], "for every writer history ending in Close, every split of the source; C01_finish_partial: streams ended by Flush(FinishFlush), needing io.EOF not to come with data (see C07)")
claim("C21", "proved", ["C21_writer", "C21_round_trip"], "")
claim("C24", "proved", ["C24_writer", "C24_reader", "C24_wrong_dict"], "")
claim("C25", "proved", ["C25_writer", "C25_declared", "C25_distances"], "")
claim("C26", "proved", ["C26_encode_length", "C26_encode_distance", "C26_encode_258", "C26_encode_literal", "C26_tables", "C26_decode_length", "C26_decode_distance", "C26_decode_legal", "C26_rejected", "C26_inverse"], "")
claim("C27", "proved", ["C27_encode", "C27_decode", "C27_decode_all"], "")
claim("C28", "proved", ["C28_round_trip", "C28_chosen"], "")
claim("C49", "proved", ["C49_writer", "C49_words", "C49_reader", "C49_inverse"], "")
claim("C39", "proved", ["C39_prefix", "C39_sizes"], "for every schedule of callers and goroutine, every outputBuffer size")
claim("C40", "proved", ["C40_eof", "C03_calls", "C01_calls", "C04_calls"], "")
claim("C41", "partial", ["C41_partial", "C41_fails"], "FALSE of the code: an error is recorded before the data decoded last is flushed, so a caller sees it, then data (C41_fails, a truncated stream)")
claim("C42", "partial", ["C42_live", "C42_calls", "runs_err", "C42_reset_fails"], "every call returns if Reset is not called; FALSE with Reset (C42_reset_fails: a caller waits for ever)")
claim("C43", "partial", ["C43_exited", "C43_partial", "C43_fails"], "FALSE of the code: Close before the first Read, or after the goroutine ended, does not stop later Reads")
claim("C44", "partial", ["C44_partial", "C44_like_new", "C44_blocked", "C44_fails"], "FALSE of the code: Reset while the goroutine runs deadlocks (C44_blocked: always)")
claim("C45", "partial", ["C45_once", "C45_first", "C45_final", "C45_fails"], "FALSE after Close: an error may be replaced by canceled")
claim("C01", "proved", ["C01_round_trip", "C01_autodetect", "C01_calls", "C01_finish_partial"], "for every writer history ending in Close, every split of the source, every schedule of Read calls (C01_calls); C01_finish_partial: streams ended by Flush(FinishFlush), needing io.EOF not to come with data (see C07)")
claim("C03", "proved", ["C03_decodes", "C03_complete", "C03_calls"], "for every split of the source into reads and every schedule of Read calls")
claim("C04", "proved", ["C04_sound", "C04_calls"], "")
claim("C05", "proved", ["C05_truncated", "C05_calls"], "")
claim("C17", "partial", ["C17_reset_partial", "C17_header_partial", "C17_header_fails", "C17_error_fails"],
      "After Reset and SetHeader, results and bytes are those of a new Writer with all options given so far, for every history (any number of earlier Resets) in which no underlying writer failed. "
      "False without the SetHeader (the header of the last stream, e.g. its file name, is used again) and after an error (bits left in the accumulator are written to the new stream): both refuted with witnesses.")
claim("C51", "proved", ["C51_prefix", "C51_results", "C51_exists"],
      "Two-run simulation: the failing run agrees with the run on a sink that never fails until the first failure, and afterwards adds nothing out of order; results agree up to the first error.")
claim("C50","proved",["C50_update","C50_crc","C50_amd64","C50_arm64"],"Both assembly routines modelled instruction by instruction with the manuals' semantics (PCLMULQDQ/PSRLDQ/PAND/PXOR/PEXTRD; CRC32B/H/W/X via Poly32Mod2); loops by induction over all lengths; GF(2)-linear steps reduced to all single-bit inputs (whole basis, kernel). Trusted: that assembler and processor follow the manuals.")

claim("C53","proved",["C53_footer","C53_header"],"Every event of every history, also of histories in which the underlying writer fails.")
claim("C35","proved",["C35_output","C35_input","C35_streams","C35_monotone","C35_perStream","C35_reader"],"C35_streams/monotone/perStream state the log facts of C35_output by position.")
claim("C19","proved",["C19_adler","C19_checksum","C02_conforming","C53_footer"],"C02_conforming: the footer bytes carry it; C53_footer: so do the events.")
claim("C35","proved",["C35_output","C35_input","C35_streams","C35_monotone","C35_perStream","C35_reader","C35_reader_streams","C35_reader_perStream"],"Writer: C35_output/input/streams/monotone/perStream, every history. Reader: every run, also of corrupt input and if Close is called.")
claim("C34", "partial", ["C34_partial", "C34_footer", "C34_order", "C34_fails"], "Footer checksums (C34_footer) and order of events (C34_order: the grammar, except that the blocks of a stream may stop early) hold in every run, also of corrupt input; the strict grammar and 'StreamClose only after a completely decoded stream' are proved for runs ending in io.EOF (C34_partial) and are FALSE for corrupt input (C34_fails).")
claim("C10","partial",["C10_partial","C10_writes_partial","C10_only","C10_fails","C10_sharp"],"FALSE of the code: at memory level 8 or 9 (the default) one Write of 64 KiB incompressible data without matches panics (C10_fails, every library). Proved: no panic with memory level <= 7, or level 0, or if no single Write exceeds 61440 bytes (C10_writes_partial); that bound cannot be improved (C10_sharp); and the only possible panic is that one (C10_only).")
claim("C54","proved",["C54_compress","C54_header","C54_succeeds","C54_no_panic"],"io.Copy is modelled by its contract (pieces of at most 32 KiB). Flags: C57.")
claim("C55","proved",["C55_sound","C55_valid","C55_ends","C55_exits","C55_failure","C55_truncated"],"All schedules of the Conc model. Inputs on which the Reader's goroutine panics (C09) crash the program and are not covered.")
claim("C56","proved",["C56_pipeline","C56_exits"],"")
claim("C57","partial",["C57_partial","C57_fails","C57_level","parsed_flags"],"FALSE of the code: --dictionary=@file with an empty file panics by an assertion in WithDictionary (C57_fails). Proved for all other flags.")
claim("C36", "proved", ["C36_newWriter", "C36_buffers", "C36_writer_reset", "C36_newReader", "C36_reader_reset"], "")
claim("C58", "partial", ["C58_reset_partial", "C58_decodes", "C58_offset_fails"], "FALSE of the code for the offset in CorruptInputError and the running totals in events: inputBytesTotal/outputBytesTotal are not cleared by Reset (C58_offset_fails). Proved: data, error kind and everything else agree with a new Reader.")
claim("C59", "proved", ["C59_header"], "")
claim("C60", "proved", ["C60_dispatch", "C60_capture", "C60_round_trip"], "The Log tracer (zerolog) is not modelled.")
claim("C61", "partial", ["C61_partial", "C61_fails"], "FALSE of the code: decoded data stays in the decode buffer until that is full or the stream or the input ends (C61_fails). Proved: everything is delivered once the source has ended, and at most 2^(MemoryLevel+6) bytes are held back.")

claim("C62", "partial", ["C62_blocked", "C62_fails", "C62_partial"], "FALSE of the code: Read, Close, Reset and the getters lock mu1, which the goroutine holds while the source blocks (C62_blocked, C62_fails). Proved: when no mutex is held and data is buffered, Read returns data by its own steps alone.")
claim("C63", "proved", ["C63_linearizable", "C63_real_time", "C63_progress", "C63_round_trip"], "")
claim("C64", "partial", ["C64_deadlock", "C64_fails", "C62_blocked"], "FALSE of the code: callbacks run with the mutex held, so a reentrant call never returns (C64_deadlock, C64_fails; for the Reader C62_blocked).")
claim("C65", "partial", ["C65_partial", "C65_fails"], "FALSE of the code: SetHeader keeps the caller's ExtraData slices (C65_fails). Proved: nothing else matters, if those slices are left alone.")
claim('C66','proved',['C66_ratio','C66_calls'],'Every input, options, sources, moments of Close.')
claim('C67','partial',['C67_partial','C67_fails'],'False of the code: a Reader reports file names with path separators or of 256 bytes and more, which SetHeader rejects. C67_partial: exactly which reported headers are accepted.')
claim('C68','proved',['C68_blocks','C68_trees'],'Every input, source, option and moment of Close. Distances are not part of the spec of a block here (see C02/C03 for decoding).')
claim('C69','partial',['C69_partial','C69_fails'],'False of the code: readDynamicTrees reports HLIT > 286 as corrupt but continues: it sends BlockTrees and BlockEnd and decodes data (C69_fails). C69_partial: true whenever the Reader ends with io.EOF.')
claim("C63", "proved", ["C63_linearizable", "C63_real_time", "C63_progress", "C63_round_trip", "C63_writer"], "")
claim('C70','proved',['C70_blocks'],'Every history without an error, any number of streams. (A call which fails may have sent events about output that never arrived; see C35 for their order.)')
claim('C71','proved',['C71_footer','C71_gzip','C71_zlib','C71_gzip_sharp','C71_zlib_sharp','C71_zlib_sharp3'],'CRC-32: the shift register is linear and invertible, so bursts up to its width cannot cancel; Adler-32: 65521 is coprime to every byte difference.')
claim("C72", "proved", ["C72_format_parse", "C72_strategy_parse", "C72_format_round_trip", "C72_strategy_round_trip", "C72_distinct"], "enumhelper by its contract (first row whose name or alias, and possibly constant name, folds to the same)")
claim("C73", "proved", ["C73_array", "C73_injective"], "json.Marshal of []uint by its contract")
claim("C74", "proved", ["C74_independent", "C74_runs", "C74_conforming", "C74_finish", "C74_reader_careful", "C74_reader"], "sync.Pool and bufferpool by their contracts; the Writer's accesses to pooled memory are single steps of a program with pointers (Model/Pool)")

claim("C75","proved",["C75_held","C75_exact"],"what a Writer holds back is bounded by its options, for every history; C75_exact: the bound is attained")

claim("C76","proved",["C76_calls","C76_history"],"the log of calls of the underlying writer; C76_calls: one call after any history, also failing; C76_history: whole histories without errors")
claim("C77", "proved", ["C77_so_far", "C77_closed", "C77_near"], "closed-form bound on the length of the output, for every history without errors; C77_near: a case five bytes below the bound")
claim("C78","proved",["C78_accessors","C78_writer","C78_reader"],"a machine with a heap of arrays and references (Model/Share) refines one without sharing (Spec/Snapshots)")
claim("C79","proved",["C79_adler","C79_adler_reset","C79_crc","C79_crc_reset"],"hash objects; uses C19, C20, C50")
claim("C80","proved",["C80_ahead","C80_bounded"],"All schedules of the goroutine with any number of callers; pieces of data bounded by an invariant of the whole goroutine (Proof/RFit.lean).")
claim("C31","partial",["C31_no_effect_partial","C31_fails"],"FALSE of the code: FixedStrategy emits dynamic blocks (C31_fails, a concrete run). What is true: FixedStrategy has no effect at all (C31_no_effect_partial).")
claim("C32","partial",["C32_stored_partial","C32_static_partial","C32_huffmanOnly","C32_rle","C32_fails"],"HuffmanOnly and RLE strategies: proved. Level 0 emits only stored blocks unless PartialFlush is called, which adds empty static blocks: C32_fails is a run, C32_static_partial covers such histories.")
claim("C81","proved",["C81_alike","C81_levels","C81_dispatch"],"C81_dispatch: the table of compression functions (writer.go:1230-1243), modelled literally, agrees with the step of the Writer model.")
claim("C82","proved",["C82_same","C82_delivered","C82_files","C82_early"],"Two runs with word sizes 32 and 64 side by side; C82_early is a run on which PartialFlush delivers 8 bytes on one platform and 12 on the other.")
claim("C83","proved",["C83_same","C83_thread","C83_delivers"],"Equality of the goroutine's runs with word sizes 32 and 64: fewer than 32 bits are ever held (Proof/RWord.lean).")
claim("C84","proved",["C84_same","C84_panics","C84_verdict","C84_window"],"Two runs of the goroutine with different decode buffers side by side (Proof/RLevel.lean), by a relation over all its functions. The example shows 256 against 0 bytes delivered before the error of a truncated input.")
claim("C55","proved",["C55_sound","C55_valid","C55_ends","C55_exits","C55_failure","C55_truncated","C55_flags"],"All schedules of the Conc model. Inputs on which the Reader's goroutine panics (C09) crash the program and are not covered. C55_flags (added after seeded edit N17): the dictionary, format and window which the command's flags mean.")
claim("C85","proved",["C85_reported"],"Writer followed by Reader; the classes of levels are stated in Props/Hints.lean (hintLevel), independently of the code.")
claim("C09", "partial", ["C09_partial", "C09_fails", "C09_panics"], "no panic except for a malformed gzip extra field (C09_partial); with one in the first header the goroutine always panics (C09_panics): FALSE of the code")
claim("C86","proved",["C86_position"],"For sources whose own error is not a CorruptInputError. Causality of every function of the goroutine (Proof/RPos.lean): two inputs which agree up to the offset reported lead to the same report; together with the completeness of decoding, no continuation is valid. When everything was consumed the report may stem from a truncated input (C47).")
claim("C87","partial",["C87_division_partial","C87_gzip_partial","C87_fails","C87_fails_blocks"],"FALSE of the code in general: (1) an undecided gzip Writer guesses text or binary from what the first Write happens to contain (C87_fails); (2) with an input buffer larger than a block, the end of a Write ends a block (C87_fails_blocks, even after Close). Proved for all calls otherwise: buffer no larger than a block (memory level at most 4, or at most 7 at level 0), and format other than gzip or DataType set by SetHeader.")
claim("C30","partial",["C30_static","C30_dynamic","C30_stored","C30_choice_partial","C30_best_partial","C30_fails"],"estimates are exact; the choice is not always the cheapest: a block is stored whenever its dynamic form is larger than the stored form without padding, even if the static form is smaller (C30_fails). C30_best_partial: otherwise the smallest form is written, and a stored block exceeds the dynamic form by at most 6 bits of padding.")
claim("C88","partial",["C88_trailing_partial","C88_calls_partial","C88_eof_partial","C88_ignored","C88_fails"],"FALSE of the code: trailing bytes which the source returns in one piece with (at least the last byte of) the last stream and io.EOF are silently ignored, whatever they are (C88_ignored, C88_fails). Proved: if that last piece lies within the trailing bytes, all data is delivered, then an error other than io.EOF; and at io.EOF nothing but a part of that piece is left.")
claim("C08","partial",["C08_first","C08_streams_partial","C08_calls_partial","C08_fails"],"proved for the first stream, and for all streams of an input whose pieces do not end one byte after the beginning of a stream (C08_streams_partial); FALSE otherwise: the format is then decided from one byte (C08_fails)")
claim("C07","partial",["C07_some","C07_partial","C08_streams_partial","C07_fails"],"FALSE of the code when io.EOF comes with the data (C07_fails); C07_some says exactly which streams are read, C08_streams_partial is the claim for DefaultFormat")
claim("C89","proved",["C89_entry","C89_distinct","C89_reader","C89_writer","C89_utf8"],"Spec/Json.lean contains a JSON reader, an RFC 3339 reader and a base64 reader, written independently of the encoder. encoding/json, encoding/base64, time and enumhelper are modelled by their documented behaviour; only the member event of zerolog's line is modelled. Names which are not UTF-8 appear with U+FFFD (C89_utf8).")
claim("C60","proved",["C60_dispatch","C60_capture","C60_round_trip"],"The Log tracer is the subject of C89.")

claim("C90","partial",["C90_partial","C90_only","C90_protected","C90_untouched","C90_waitgroup","C90_fails","C90_waitgroup_fails"],
"False of the code, in two ways. (1) UnderlyingReader reads fr.r without locking mu1, while Reset may be writing it (C90_fails); C90_only: this is the only data race there is, so there is none if UnderlyingReader is not called or Reset is not (C90_partial). C90_protected: every access but that one is made with the mutex held which reader.go:43, 83 say protects the field. C90_untouched ties the table of accesses to the steps of the model: a step neither depends on nor changes a field which it is not said to access. (2) Close waits for the wait group; if, after the goroutine has ended, another caller calls Reset and Read before the waiting Close goes on, wg.Add is called before the previous Wait has returned, which makes sync.WaitGroup panic (C90_waitgroup_fails); without Reset this does not happen (C90_waitgroup).")

claim("C91","proved",["C91_problem","C91_messages"],
"For each of the 28 messages, Spec/Complaint.lean says which fact about the formats it asserts (StreamWrong); C91_problem: that fact holds of the input, at the position reported, everything before it being in order. The numbers in the messages are part of the problem (Spec/Problem.lean) and so of the fact: e.g. the checksum stored and the one computed; their text is the subject of C96. For the three 'degenerate Huffman code' messages the fact is that no code word stands there in what is left of the input, which is also so when the input is merely truncated (see C06), and the position is only bounded from below, as the code fills its bit buffer while it searches.")
claim("C92","proved",["C92_reported","C92_later","C92_auto","C92_iff","C92_one","C92_calls"],
"The converse of C91, with the same Spec/Complaint.lean: C92_reported for the first stream, C92_later for a stream after others (with the condition of C07 on the source: the Reader does not look at anything after a stream which ends in the piece that comes with io.EOF), C92_auto for DefaultFormat (with the conditions of C08), C92_iff: message if and only if problem, C92_one: an input has only one first problem and then does not begin with a valid stream, C92_calls: what Read returns. For the three messages about missing code words the offset is not stated (it depends on how far the bit buffer was filled).")
claim("C47","partial",["C47_partial","C47_exact","C47_fails"],"The source's error or a CorruptInputError is reported, and C47_exact says which: the latter exactly if what has been read has one of the problems of Spec/Complaint.lean. FALSE that it is always the source's error: an input cut off within a code word is reported as corrupt (C47_fails).")
claim("C93","partial",["C93_partial","C93_later_partial","C93_calls_partial","C93_fails"],"FALSE for stored blocks: the Reader waits for the whole block and, if the input ends or fails before, delivers none of it (C93_fails). Otherwise true: whatever follows, the content of the complete blocks and of the complete symbols of the next compressed block is delivered (C93_partial; C93_later_partial for a stream after others, with the condition of C07), and C93_calls_partial: all but the last 2^(MemoryLevel+6) bytes of it before Read returns an error, under every schedule (C41: the rest may come after the error).")
claim("C94","proved",["C94_accepts","C94_last","C94_defaults","C94_ranges","C94_starts","C94_time","C94_time_text"],"Model/CmdLine.lean: the Set and String methods of cmd/gzip/flags.go. getopt by its contract (a sequence of settings handed to Set in order; an error ends the program), time.Parse by its contract (it understands RFC 3339; the specification Spec/Json.readTime says which time a text denotes), Time.Format as modelled in Model/Log.lean. The empty dictionary file (C57_fails) is excluded in C94_starts.")
claim("C95","partial",["C95_events","C95_partial","C95_fails"],"Model/Notify.lean puts the events back into the transition system of Model/Conc.lean, each at the place which its OutputBytesTotal names; Proof/RHeads.lean shows where the StreamHeader events of a run are. C95_events: what concerns earlier data has been sent, and what has been sent is ahead by no more than the buffer's capacity. FALSE for CaptureHeader if another stream follows and the rest of the data fits into the Reader's buffer: the goroutine goes on to the next stream and overwrites the variable while the caller still reads the first one's data (C95_fails: two gzip members, one of two bytes read; the same is a data race on the caller's variable). C95_partial: true in all other cases, in particular for a single stream. Close may be called: until it takes effect nothing changes, and what has been sent stays sent. Reset is left out here (C44).")
claim("C96","partial",["C96_numbers","C96_partial","C96_far","C96_fails"],"C96_numbers: in the text of Error() each number stands after the words which say what it is, and reads back (Spec/Wording.lean); that it is the right number is C91_problem and C92_reported. C96_partial: what a message claims about its numbers is true, except for 'distance D > window.Size S': FALSE when only the history is too short, C96_fails: 'distance 1 > window.Size 32768' (Size is taken to be the capacity of the window); C96_far: with the default window of 32768 bytes this message is never true, as no distance exceeds 32768. Text of the Huffman library's errors is a parameter.")
claim("C97","partial",["C97_setHeader","C97_partial","C97_header_fails","C97_clevel","C97_mlevel","C97_wbits","C97_parse_partial","C97_wbits_fails"],"C97_setHeader: exactly the reasons, once each, in order, and the Writer's header is set exactly if there is none (the SetHeader of C22). FALSE read literally in three limiting cases (C97_header_fails): a name or a comment of exactly 256 bytes 'is longer than 256 bytes', and 2^32 - 1 'is out of range for unsigned 32-bit time_t'; otherwise true, C97_partial. C97_clevel/mlevel/wbits: which error Parse returns, with which numbers. C97_wbits_fails: FALSE for every number above 15, 'value 16 is less than maximum 15' (enum_wbits.go:75); C97_parse_partial: the others are true.")
claim("C98","partial",["C98_stuck","C98_partial","C98_fails"],"FALSE of the code: tracers and the underlying reader are called with mu1 held, so a call of Read, Close, Reset or a getter from there never returns and the goroutine never goes on, from every reachable state and whatever else happens (C98_stuck); C98_fails: a reachable state where then nothing at all can happen. C98_partial: UnderlyingReader, which locks nothing, returns.")
claim("C99","partial",["C99_partial","C99_fails"],"FALSE for the file name and the comment of a gzip header, which are collected without a limit (reader.go:1206-1233) before anything is delivered: C99_fails, for every name of any length and all options. C99_partial: extra data take up at most 65535 bytes, code lengths are at most 19, 288 and 32; name and comment are no longer than the header in the input.")
claim("C01", "proved", ["C01_round_trip", "C01_autodetect", "C01_calls", "C01_close", "C01_finish_partial"], "for every writer history ending in Close, every split of the source, every schedule of calls of Read and the getters (C01_calls), and of Close (C01_close: up to the Close); C01_finish_partial: streams ended by Flush(FinishFlush), needing io.EOF not to come with data (see C07)")
claim("C03", "proved", ["C03_decodes", "C03_complete", "C03_calls", "C03_close"], "for every split of the source into reads and every schedule of calls of Read and the getters; C03_close: and of Close, up to which the same is returned")
claim("C40", "proved", ["C40_eof", "C40_close", "C03_calls", "C01_calls", "C04_calls"], "C40_eof: calls of Read and the getters; C40_close: and of Close")
claim("C100","proved",["C100_streams","C100_wrap","C100_sofar"],"C100_streams: whole histories ending in Close, any number of streams; C100_wrap: one stream against a raw Writer; C100_sofar: after each Flush that delivers everything. Levels may differ as long as both are 0 or neither is.")
claim("C101","partial",["C101_partial","C101_fails"],"the property is false of the code (C101_fails: seven calls for 43 bytes within one Close, buffer of 256 bytes); C101_partial says what sizes the pieces do have in every execution without an error")
claim("C102","proved",["C102_nothing","C102_skip","C102_again"],"C102_nothing: nothing is written, no events; C102_skip: the call can be left out; C102_again: repeated SyncFlush/FullFlush")
claim("C12", "partial", ["C12_partial", "C12_fails"], "FALSE of the code: up to 31 (63) bits stay in the bit accumulator of a machine word after a PartialFlush, which may be all of the output so far (C12_fails, a concrete run); C12_partial says what does hold: everything but less than a word has been passed on, and the rest completes it to whole blocks")
claim("C66","proved",["C66_ratio","C66_calls","C66_sharp"],"every input, options, sources, moments of Close; C66_sharp: the bound cannot be improved, n + 14 bytes can give 1032 n + 1")
claim("C103","proved",["C103_prefix","C103_equal","C103_single","C103_dictionary"],"From conformance of the output (C02) and the fact that streams are self-delimiting (uniqueness of decoding). C103_dictionary: the hypothesis on the dictionary is needed, with witness.")
claim("C104","proved",["C104_padding","C104_recognised","C104_round_trip","C104_files"],"C104_files has the conditions on the pieces which are part of the statement, without which the code fails (C08_fails, C07_fails).")
claim("C105","proved",["C105_nothing","C105_runs","C105_calls","C105_gzip","C105_zlib","C105_written","C105_raw"],"C105_nothing: what the goroutine delivers; C105_runs: it does run to its end; C105_calls: what calls of Read return; the others are the consequences for particular formats. (A Reader told raw does not always refuse zlib: that is not claimed.)")
claim("C106","proved",["C106_blocks","C106_complete"],"From C70 (what the Writer's events say of its output), C68 (what the Reader's say of its input) and the fact, proved about the specification, that header and blocks can be read in one way only (Proof/Unique.lean, blocks_agree). The two sides use the same Huffman library.")
claim("C107","proved",["C107_streams","C107_single","C107_sofar"],"C107_streams: histories ending in Close; C107_single: without FinishFlush; C107_sofar: after any calls before Close. The history begins with NewWriter.")
claim("C108","proved",["C108_story"],"One stream. For several streams in one file C106 compares the streams which begin at the same byte, and C107 counts them.")
claim("C109","proved",["C109_tiles","C109_end"],"C109_tiles: after any calls; C109_end: after Close. What the bytes of each range are is said by C02, C70 and C53.")
claim("C110","proved",["C110_tiles"],"Every run, also with errors. No hypothesis on the Huffman library.")
claim("C111","proved",["C111_cut","C111_pieces"],"Runs which end with io.EOF and are not interrupted by Close.")
