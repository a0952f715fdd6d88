# Axioms of each theorem

As printed by Lean (`tools/axioms.py`).

| property | theorem | axioms |
|---|---|---|
| C01 | C01_round_trip | propext, Classical.choice, Quot.sound |
| C01 | C01_autodetect | propext, Classical.choice, Quot.sound |
| C01 | C01_calls | propext, Classical.choice, Quot.sound |
| C01 | C01_close | propext, Classical.choice, Quot.sound |
| C01 | C01_finish_partial | propext, Classical.choice, Quot.sound |
| C02 | C02_conforming | propext, Classical.choice, Quot.sound |
| C02 | C02_complete | propext, Classical.choice, Quot.sound |
| C02 | C02_prefix_codes | propext, Classical.choice, Quot.sound |
| C03 | C03_decodes | propext, Classical.choice, Quot.sound |
| C03 | C03_complete | propext, Classical.choice, Quot.sound |
| C03 | C03_calls | propext, Classical.choice, Quot.sound |
| C03 | C03_close | propext, Classical.choice, Quot.sound |
| C04 | C04_sound | propext, Classical.choice, Quot.sound |
| C04 | C04_calls | propext, Classical.choice, Quot.sound |
| C05 | C05_truncated | propext, Classical.choice, Quot.sound |
| C05 | C05_calls | propext, Classical.choice, Quot.sound |
| C06 | C06_valid | propext, Classical.choice, Quot.sound |
| C06 | C06_truncated | propext, Classical.choice, Quot.sound |
| C06 | C06_partial | propext, Classical.choice, Quot.sound |
| C06 | C06_fails | propext, Quot.sound |
| C07 | C07_some | propext, Classical.choice, Quot.sound |
| C07 | C07_partial | propext, Classical.choice, Quot.sound |
| C07 | C08_streams_partial | propext, Classical.choice, Quot.sound |
| C07 | C07_fails | propext, Classical.choice, Quot.sound |
| C08 | C08_first | propext, Quot.sound |
| C08 | C08_streams_partial | propext, Classical.choice, Quot.sound |
| C08 | C08_calls_partial | propext, Classical.choice, Quot.sound |
| C08 | C08_fails | propext, Quot.sound |
| C09 | C09_partial | propext, Classical.choice, Quot.sound |
| C09 | C09_fails | propext, Classical.choice, Quot.sound |
| C09 | C09_panics | propext, Classical.choice, Quot.sound |
| C10 | C10_partial | propext, Classical.choice, Quot.sound |
| C10 | C10_writes_partial | propext, Classical.choice, Quot.sound |
| C10 | C10_only | propext, Classical.choice, Quot.sound |
| C10 | C10_fails | propext, Classical.choice, Quot.sound |
| C10 | C10_sharp | propext, Classical.choice, Quot.sound |
| C100 | C100_streams | propext, Classical.choice, Quot.sound |
| C100 | C100_wrap | propext, Classical.choice, Quot.sound |
| C100 | C100_sofar | propext, Classical.choice, Quot.sound |
| C101 | C101_partial | propext, Classical.choice, Quot.sound |
| C101 | C101_fails | propext, Classical.choice, Quot.sound |
| C102 | C102_nothing | propext, Classical.choice, Quot.sound |
| C102 | C102_skip | propext, Classical.choice, Quot.sound |
| C102 | C102_again | propext, Classical.choice, Quot.sound |
| C103 | C103_prefix | propext, Classical.choice, Quot.sound |
| C103 | C103_equal | propext, Classical.choice, Quot.sound |
| C103 | C103_single | propext, Classical.choice, Quot.sound |
| C103 | C103_dictionary | propext, Classical.choice, Quot.sound |
| C104 | C104_padding | propext, Classical.choice, Quot.sound |
| C104 | C104_recognised | propext, Classical.choice, Quot.sound |
| C104 | C104_round_trip | propext, Classical.choice, Quot.sound |
| C104 | C104_files | propext, Classical.choice, Quot.sound |
| C105 | C105_nothing | propext, Classical.choice, Quot.sound |
| C105 | C105_runs | propext, Classical.choice, Quot.sound |
| C105 | C105_calls | propext, Classical.choice, Quot.sound |
| C105 | C105_gzip | propext, Classical.choice, Quot.sound |
| C105 | C105_zlib | propext, Classical.choice, Quot.sound |
| C105 | C105_written | propext, Classical.choice, Quot.sound |
| C105 | C105_raw | propext, Classical.choice, Quot.sound |
| C106 | C106_blocks | propext, Classical.choice, Quot.sound |
| C106 | C106_complete | propext, Classical.choice, Quot.sound |
| C107 | C107_streams | propext, Classical.choice, Quot.sound |
| C107 | C107_single | propext, Classical.choice, Quot.sound |
| C107 | C107_sofar | propext, Classical.choice, Quot.sound |
| C108 | C108_story | propext, Classical.choice, Quot.sound |
| C109 | C109_tiles | propext, Classical.choice, Quot.sound |
| C109 | C109_end | propext, Classical.choice, Quot.sound |
| C11 | C11_sync | propext, Classical.choice, Quot.sound |
| C110 | C110_tiles | propext, Classical.choice, Quot.sound |
| C111 | C111_cut | propext, Classical.choice, Quot.sound |
| C111 | C111_pieces | propext, Classical.choice, Quot.sound |
| C12 | C12_partial | propext, Classical.choice, Quot.sound |
| C12 | C12_fails | propext, Classical.choice, Quot.sound |
| C13 | C13_full | propext, Classical.choice, Quot.sound |
| C14 | C14_segments | propext, Classical.choice, Quot.sound |
| C14 | C14_empty | propext, Classical.choice, Quot.sound |
| C14 | C14_two | propext, Classical.choice, Quot.sound |
| C14 | C14_close_after_finish | propext, Classical.choice, Quot.sound |
| C15 | C15_reported | propext, Classical.choice, Quot.sound |
| C15 | C15_no_false_success | propext, Classical.choice, Quot.sound |
| C15 | C15_sticky | propext, Classical.choice, Quot.sound |
| C16 | C16_closed | propext, Classical.choice, Quot.sound |
| C17 | C17_reset_partial | propext, Classical.choice, Quot.sound |
| C17 | C17_header_partial | propext, Classical.choice, Quot.sound |
| C17 | C17_header_fails | propext, Quot.sound |
| C17 | C17_error_fails | propext, Quot.sound |
| C18 | C18_write | propext, Classical.choice, Quot.sound |
| C19 | C19_adler | propext, Classical.choice, Quot.sound |
| C19 | C19_checksum | propext, Classical.choice, Quot.sound |
| C19 | C02_conforming | propext, Classical.choice, Quot.sound |
| C19 | C53_footer | propext, Classical.choice, Quot.sound |
| C20 | C20_crc | propext, Classical.choice, Quot.sound |
| C21 | C21_writer | propext, Classical.choice, Quot.sound |
| C21 | C21_round_trip | propext, Classical.choice, Quot.sound |
| C22 | C22_setHeader | propext, Classical.choice, Quot.sound |
| C23 | C23_round_trip | propext, Classical.choice, Quot.sound |
| C23 | C23_format | propext |
| C23 | C23_parse_partial | propext, Classical.choice, Quot.sound |
| C23 | C23_fails | propext, Classical.choice, Quot.sound |
| C23 | C23_fails_example | propext |
| C23 | C23_reads_outside | propext |
| C24 | C24_writer | propext, Classical.choice, Quot.sound |
| C24 | C24_reader | propext, Classical.choice, Quot.sound |
| C24 | C24_wrong_dict | propext, Classical.choice, Quot.sound |
| C25 | C25_writer | propext, Classical.choice, Quot.sound |
| C25 | C25_declared | propext, Classical.choice, Quot.sound |
| C25 | C25_distances | propext, Classical.choice, Quot.sound |
| C26 | C26_encode_length | propext, Quot.sound |
| C26 | C26_encode_distance | propext, Classical.choice, Quot.sound |
| C26 | C26_encode_258 | propext |
| C26 | C26_encode_literal | propext, Quot.sound |
| C26 | C26_tables | propext, Classical.choice, Quot.sound |
| C26 | C26_decode_length | propext, Classical.choice, Quot.sound |
| C26 | C26_decode_distance | propext, Classical.choice, Quot.sound |
| C26 | C26_decode_legal | propext, Classical.choice, Quot.sound |
| C26 | C26_rejected | propext, Classical.choice, Quot.sound |
| C26 | C26_inverse | propext, Classical.choice, Quot.sound |
| C27 | C27_encode | propext, Classical.choice, Quot.sound |
| C27 | C27_decode | propext, Classical.choice, Quot.sound |
| C27 | C27_decode_all | propext, Classical.choice, Quot.sound |
| C28 | C28_round_trip | propext, Classical.choice, Quot.sound |
| C28 | C28_chosen | propext, Classical.choice, Quot.sound |
| C29 | C29_bounded | propext, Classical.choice, Quot.sound |
| C29 | C29_total | propext, Quot.sound |
| C30 | C30_static | propext, Classical.choice, Quot.sound |
| C30 | C30_dynamic | propext, Classical.choice, Quot.sound |
| C30 | C30_stored | propext, Classical.choice, Quot.sound |
| C30 | C30_choice_partial | propext, Classical.choice, Quot.sound |
| C30 | C30_best_partial | propext, Classical.choice, Quot.sound |
| C30 | C30_fails | propext, Classical.choice, Quot.sound |
| C31 | C31_no_effect_partial | propext, Classical.choice, Quot.sound |
| C31 | C31_fails | propext, Classical.choice, Quot.sound |
| C32 | C32_stored_partial | propext, Classical.choice, Quot.sound |
| C32 | C32_static_partial | propext, Classical.choice, Quot.sound |
| C32 | C32_huffmanOnly | propext, Classical.choice, Quot.sound |
| C32 | C32_rle | propext, Classical.choice, Quot.sound |
| C32 | C32_fails | propext, Classical.choice, Quot.sound |
| C33 | C33_prefix | propext, Classical.choice, Quot.sound |
| C33 | C33_complete | propext, Classical.choice, Quot.sound |
| C34 | C34_partial | propext, Classical.choice, Quot.sound |
| C34 | C34_footer | propext, Classical.choice, Quot.sound |
| C34 | C34_order | propext, Classical.choice, Quot.sound |
| C34 | C34_fails | propext, Quot.sound |
| C35 | C35_output | propext, Classical.choice, Quot.sound |
| C35 | C35_input | propext, Classical.choice, Quot.sound |
| C35 | C35_streams | propext, Classical.choice, Quot.sound |
| C35 | C35_monotone | propext, Classical.choice, Quot.sound |
| C35 | C35_perStream | propext, Classical.choice, Quot.sound |
| C35 | C35_reader | propext, Classical.choice, Quot.sound |
| C35 | C35_reader_streams | propext, Classical.choice, Quot.sound |
| C35 | C35_reader_perStream | propext, Classical.choice, Quot.sound |
| C36 | C36_newWriter | propext, Classical.choice, Quot.sound |
| C36 | C36_buffers | propext |
| C36 | C36_writer_reset | propext, Classical.choice, Quot.sound |
| C36 | C36_newReader | propext, Classical.choice, Quot.sound |
| C36 | C36_reader_reset | propext, Quot.sound |
| C37 | C37_clevel_parse | propext, Quot.sound |
| C37 | C37_clevel_total | propext, Classical.choice, Quot.sound |
| C37 | C37_clevel_round_trip | propext, Quot.sound |
| C37 | C37_mlevel_parse | propext, Quot.sound |
| C37 | C37_mlevel_total | propext, Quot.sound |
| C37 | C37_mlevel_round_trip | propext, Quot.sound |
| C37 | C37_wbits_parse | propext, Classical.choice, Quot.sound |
| C37 | C37_wbits_total | propext, Classical.choice, Quot.sound |
| C37 | C37_wbits_round_trip | propext, Quot.sound |
| C38 | C38_round_trip | propext, Quot.sound |
| C38 | C38_injective | propext, Quot.sound |
| C39 | C39_prefix | propext, Quot.sound |
| C39 | C39_sizes | propext, Classical.choice, Quot.sound |
| C40 | C40_eof | propext, Classical.choice, Quot.sound |
| C40 | C40_close | propext, Classical.choice, Quot.sound |
| C40 | C03_calls | propext, Classical.choice, Quot.sound |
| C40 | C01_calls | propext, Classical.choice, Quot.sound |
| C40 | C04_calls | propext, Classical.choice, Quot.sound |
| C41 | C41_partial | propext, Classical.choice, Quot.sound |
| C41 | C41_fails | propext, Quot.sound |
| C42 | C42_live | propext, Classical.choice, Quot.sound |
| C42 | C42_calls | propext, Classical.choice, Quot.sound |
| C42 | runs_err | propext, Classical.choice, Quot.sound |
| C42 | C42_reset_fails | propext, Quot.sound |
| C43 | C43_exited | propext, Classical.choice, Quot.sound |
| C43 | C43_partial | propext, Classical.choice, Quot.sound |
| C43 | C43_fails | propext, Quot.sound |
| C44 | C44_partial | propext, Classical.choice, Quot.sound |
| C44 | C44_like_new | propext |
| C44 | C44_blocked | propext, Quot.sound |
| C44 | C44_fails | propext, Classical.choice, Quot.sound |
| C45 | C45_once | propext, Classical.choice, Quot.sound |
| C45 | C45_first | propext, Classical.choice, Quot.sound |
| C45 | C45_final | propext, Classical.choice, Quot.sound |
| C45 | C45_fails | propext, Quot.sound |
| C46 | C46_partial | propext, Classical.choice, Quot.sound |
| C46 | C46_fails | propext, Classical.choice, Quot.sound |
| C47 | C47_partial | propext, Classical.choice, Quot.sound |
| C47 | C47_exact | propext, Classical.choice, Quot.sound |
| C47 | C47_fails | propext, Quot.sound |
| C48 | C48_first_partial | propext, Classical.choice, Quot.sound |
| C48 | C48_after_SetHeader_partial | propext, Classical.choice, Quot.sound |
| C48 | C48_sticky | propext, Classical.choice, Quot.sound |
| C49 | C49_writer | propext, Classical.choice, Quot.sound |
| C49 | C49_words | propext, Classical.choice, Quot.sound |
| C49 | C49_reader | propext, Classical.choice, Quot.sound |
| C49 | C49_inverse | propext, Classical.choice, Quot.sound |
| C50 | C50_update | propext, Classical.choice, Quot.sound |
| C50 | C50_crc | propext, Classical.choice, Quot.sound |
| C50 | C50_amd64 | propext, Quot.sound |
| C50 | C50_arm64 | propext, Quot.sound |
| C51 | C51_prefix | propext, Classical.choice, Quot.sound |
| C51 | C51_results | propext, Classical.choice, Quot.sound |
| C51 | C51_exists | propext, Classical.choice, Quot.sound |
| C52 | C52_terminates | propext, Classical.choice, Quot.sound |
| C53 | C53_footer | propext, Classical.choice, Quot.sound |
| C53 | C53_header | propext, Classical.choice, Quot.sound |
| C54 | C54_compress | propext, Classical.choice, Quot.sound |
| C54 | C54_header | propext, Classical.choice, Quot.sound |
| C54 | C54_succeeds | propext, Classical.choice, Quot.sound |
| C54 | C54_no_panic | propext, Classical.choice, Quot.sound |
| C55 | C55_sound | propext, Classical.choice, Quot.sound |
| C55 | C55_valid | propext, Classical.choice, Quot.sound |
| C55 | C55_ends | propext, Classical.choice, Quot.sound |
| C55 | C55_exits | propext, Classical.choice, Quot.sound |
| C55 | C55_failure | propext, Classical.choice, Quot.sound |
| C55 | C55_truncated | propext, Classical.choice, Quot.sound |
| C55 | C55_flags | propext, Quot.sound |
| C56 | C56_pipeline | propext, Classical.choice, Quot.sound |
| C56 | C56_exits | propext, Classical.choice, Quot.sound |
| C57 | C57_partial | propext, Classical.choice, Quot.sound |
| C57 | C57_fails | none |
| C57 | C57_level | propext, Classical.choice, Quot.sound |
| C57 | parsed_flags | propext, Classical.choice, Quot.sound |
| C58 | C58_reset_partial | propext, Quot.sound |
| C58 | C58_decodes | propext, Classical.choice, Quot.sound |
| C58 | C58_offset_fails | propext, Quot.sound |
| C59 | C59_header | propext, Classical.choice, Quot.sound |
| C60 | C60_dispatch | propext, Quot.sound |
| C60 | C60_capture | propext, Quot.sound |
| C60 | C60_round_trip | propext, Classical.choice, Quot.sound |
| C61 | C61_partial | propext, Classical.choice, Quot.sound |
| C61 | C61_fails | propext, Classical.choice, Quot.sound |
| C62 | C62_blocked | propext, Quot.sound |
| C62 | C62_fails | propext, Quot.sound |
| C62 | C62_partial | propext, Classical.choice, Quot.sound |
| C63 | C63_linearizable | propext, Classical.choice, Quot.sound |
| C63 | C63_real_time | propext |
| C63 | C63_progress | propext, Classical.choice, Quot.sound |
| C63 | C63_round_trip | propext, Classical.choice, Quot.sound |
| C63 | C63_writer | propext, Classical.choice, Quot.sound |
| C64 | C64_deadlock | propext, Classical.choice, Quot.sound |
| C64 | C64_fails | propext, Quot.sound |
| C64 | C62_blocked | propext, Quot.sound |
| C65 | C65_partial | propext, Classical.choice, Quot.sound |
| C65 | C65_fails | propext, Classical.choice, Quot.sound |
| C66 | C66_ratio | propext, Classical.choice, Quot.sound |
| C66 | C66_calls | propext, Classical.choice, Quot.sound |
| C66 | C66_sharp | propext, Classical.choice, Quot.sound |
| C67 | C67_partial | propext, Classical.choice, Quot.sound |
| C67 | C67_fails | propext, Quot.sound |
| C68 | C68_blocks | propext, Classical.choice, Quot.sound |
| C68 | C68_trees | propext, Classical.choice, Quot.sound |
| C69 | C69_partial | propext, Classical.choice, Quot.sound |
| C69 | C69_fails | propext, Classical.choice, Quot.sound |
| C70 | C70_blocks | propext, Classical.choice, Quot.sound |
| C71 | C71_footer | propext, Classical.choice, Quot.sound |
| C71 | C71_gzip | propext, Classical.choice, Quot.sound |
| C71 | C71_zlib | propext, Classical.choice, Quot.sound |
| C71 | C71_gzip_sharp | propext, Classical.choice, Quot.sound |
| C71 | C71_zlib_sharp | propext, Classical.choice, Quot.sound |
| C71 | C71_zlib_sharp3 | propext, Classical.choice, Quot.sound |
| C72 | C72_format_parse | propext, Classical.choice, Quot.sound |
| C72 | C72_strategy_parse | propext, Classical.choice, Quot.sound |
| C72 | C72_format_round_trip | propext, Classical.choice, Quot.sound |
| C72 | C72_strategy_round_trip | propext, Classical.choice, Quot.sound |
| C72 | C72_distinct | propext, Classical.choice, Quot.sound |
| C73 | C73_array | propext, Classical.choice, Quot.sound |
| C73 | C73_injective | propext, Classical.choice, Quot.sound |
| C74 | C74_independent | propext, Quot.sound |
| C74 | C74_runs | propext, Quot.sound |
| C74 | C74_conforming | propext, Classical.choice, Quot.sound |
| C74 | C74_finish | propext, Quot.sound |
| C74 | C74_reader_careful | propext, Quot.sound |
| C74 | C74_reader | propext, Quot.sound |
| C75 | C75_held | propext, Classical.choice, Quot.sound |
| C75 | C75_exact | propext, Classical.choice, Quot.sound |
| C76 | C76_calls | propext, Classical.choice, Quot.sound |
| C76 | C76_history | propext, Classical.choice, Quot.sound |
| C77 | C77_so_far | propext, Classical.choice, Quot.sound |
| C77 | C77_closed | propext, Classical.choice, Quot.sound |
| C77 | C77_near | propext, Classical.choice, Quot.sound |
| C78 | C78_accessors | propext, Classical.choice, Quot.sound |
| C78 | C78_writer | propext, Quot.sound |
| C78 | C78_reader | propext |
| C79 | C79_adler | propext, Classical.choice, Quot.sound |
| C79 | C79_adler_reset | propext, Classical.choice, Quot.sound |
| C79 | C79_crc | propext, Classical.choice, Quot.sound |
| C79 | C79_crc_reset | propext, Classical.choice, Quot.sound |
| C80 | C80_ahead | propext, Quot.sound |
| C80 | C80_bounded | propext, Classical.choice, Quot.sound |
| C81 | C81_alike | propext, Classical.choice, Quot.sound |
| C81 | C81_levels | propext, Classical.choice, Quot.sound |
| C81 | C81_dispatch | propext, Classical.choice, Quot.sound |
| C82 | C82_same | propext, Classical.choice, Quot.sound |
| C82 | C82_delivered | propext, Classical.choice, Quot.sound |
| C82 | C82_files | propext, Classical.choice, Quot.sound |
| C82 | C82_early | propext, Classical.choice, Quot.sound |
| C83 | C83_same | propext, Classical.choice, Quot.sound |
| C83 | C83_thread | propext, Classical.choice, Quot.sound |
| C83 | C83_delivers | propext, Classical.choice, Quot.sound |
| C84 | C84_same | propext, Classical.choice, Quot.sound |
| C84 | C84_panics | propext, Classical.choice, Quot.sound |
| C84 | C84_verdict | propext, Classical.choice, Quot.sound |
| C84 | C84_window | propext, Classical.choice, Quot.sound |
| C85 | C85_reported | propext, Classical.choice, Quot.sound |
| C86 | C86_position | propext, Classical.choice, Quot.sound |
| C87 | C87_division_partial | propext, Classical.choice, Quot.sound |
| C87 | C87_gzip_partial | propext, Classical.choice, Quot.sound |
| C87 | C87_fails | propext, Classical.choice, Quot.sound |
| C87 | C87_fails_blocks | propext, Classical.choice, Quot.sound |
| C88 | C88_trailing_partial | propext, Classical.choice, Quot.sound |
| C88 | C88_calls_partial | propext, Classical.choice, Quot.sound |
| C88 | C88_eof_partial | propext, Classical.choice, Quot.sound |
| C88 | C88_ignored | propext, Classical.choice, Quot.sound |
| C88 | C88_fails | propext, Classical.choice, Quot.sound |
| C89 | C89_entry | propext, Classical.choice, Quot.sound |
| C89 | C89_distinct | propext, Classical.choice, Quot.sound |
| C89 | C89_reader | propext, Classical.choice, Quot.sound |
| C89 | C89_writer | propext, Classical.choice, Quot.sound |
| C89 | C89_utf8 | propext, Quot.sound |
| C90 | C90_partial | propext, Quot.sound |
| C90 | C90_only | propext, Quot.sound |
| C90 | C90_protected | propext, Quot.sound |
| C90 | C90_untouched | propext |
| C90 | C90_waitgroup | propext, Quot.sound |
| C90 | C90_fails | propext, Quot.sound |
| C90 | C90_waitgroup_fails | propext, Quot.sound |
| C91 | C91_problem | propext, Classical.choice, Quot.sound |
| C91 | C91_messages | propext, Classical.choice, Quot.sound |
| C92 | C92_reported | propext, Classical.choice, Quot.sound |
| C92 | C92_later | propext, Classical.choice, Quot.sound |
| C92 | C92_auto | propext, Classical.choice, Quot.sound |
| C92 | C92_iff | propext, Classical.choice, Quot.sound |
| C92 | C92_one | propext, Classical.choice, Quot.sound |
| C92 | C92_calls | propext, Classical.choice, Quot.sound |
| C93 | C93_partial | propext, Classical.choice, Quot.sound |
| C93 | C93_later_partial | propext, Classical.choice, Quot.sound |
| C93 | C93_calls_partial | propext, Classical.choice, Quot.sound |
| C93 | C93_fails | propext, Classical.choice, Quot.sound |
| C94 | C94_accepts | propext, Classical.choice, Quot.sound |
| C94 | C94_last | propext, Classical.choice, Quot.sound |
| C94 | C94_defaults | propext, Classical.choice, Quot.sound |
| C94 | C94_ranges | propext, Classical.choice, Quot.sound |
| C94 | C94_starts | propext, Classical.choice, Quot.sound |
| C94 | C94_time | propext, Classical.choice, Quot.sound |
| C94 | C94_time_text | propext, Classical.choice, Quot.sound |
| C95 | C95_events | propext, Classical.choice, Quot.sound |
| C95 | C95_partial | propext, Classical.choice, Quot.sound |
| C95 | C95_fails | propext, Classical.choice, Quot.sound |
| C96 | C96_numbers | propext, Classical.choice, Quot.sound |
| C96 | C96_partial | propext, Classical.choice, Quot.sound |
| C96 | C96_far | propext, Classical.choice, Quot.sound |
| C96 | C96_fails | propext, Quot.sound |
| C97 | C97_setHeader | propext, Classical.choice, Quot.sound |
| C97 | C97_partial | propext, Classical.choice, Quot.sound |
| C97 | C97_header_fails | propext, Classical.choice, Quot.sound |
| C97 | C97_clevel | propext, Quot.sound |
| C97 | C97_mlevel | propext, Quot.sound |
| C97 | C97_wbits | propext, Quot.sound |
| C97 | C97_parse_partial | propext, Quot.sound |
| C97 | C97_wbits_fails | propext, Quot.sound |
| C98 | C98_stuck | propext, Quot.sound |
| C98 | C98_partial | propext, Quot.sound |
| C98 | C98_fails | propext, Quot.sound |
| C99 | C99_partial | propext, Classical.choice, Quot.sound |
| C99 | C99_fails | propext, Classical.choice, Quot.sound |
