{
 "claims": [
  {
   "property": "C01",
   "status": "proved",
   "theorems": [
    "Ssp.C01_split_total_and_safe",
    "Ssp.C01_split_history"
   ],
   "note": "any setup, line, delimiter, trailing bytes; every history of one splitter object"
  },
  {
   "property": "C02",
   "status": "proved",
   "theorems": [
    "Ssp.C02_join_of_split",
    "Ssp.C02_split_of_join",
    "Ssp.C02_split_of_join_byte"
   ],
   "note": ""
  },
  {
   "property": "C03",
   "status": "proved",
   "theorems": [
    "Ssp.C03_split_const",
    "Ssp.C03_convert_const"
   ],
   "note": "splitting and converting"
  },
  {
   "property": "C04",
   "status": "proved",
   "theorems": [
    "Ssp.C04_quoted_roundtrip",
    "Ssp.C04_written_fields_roundtrip"
   ],
   "note": ""
  },
  {
   "property": "C05",
   "status": "proved",
   "theorems": [
    "Ssp.C05_escaped_roundtrip"
   ],
   "note": ""
  },
  {
   "property": "C06",
   "status": "proved",
   "theorems": [
    "Ssp.C06_trim_exact"
   ],
   "note": ""
  },
  {
   "property": "C07",
   "status": "proved",
   "theorems": [
    "Ssp.C07_fields_are_the_decoded_text",
    "Ssp.C07_valid_columns"
   ],
   "note": ""
  },
  {
   "property": "C08",
   "status": "proved",
   "theorems": [
    "Ssp.C08_unterminated_quote",
    "Ssp.C08_unterminated_quote_first"
   ],
   "note": "whatever complete row text precedes (single byte delimiter), any delimiter for the first field"
  },
  {
   "property": "C09",
   "status": "proved",
   "theorems": [
    "Ssp.C09_unterminated_escape_plain",
    "Ssp.C09_unterminated_escape_quoted"
   ],
   "note": ""
  },
  {
   "property": "C10",
   "status": "partial",
   "theorems": [
    "Ssp.C10_mismatched_quote_partial",
    "Ssp.C10_position_off_by_one",
    "Ssp.C10_throw_other_cause",
    "Ssp.C10_escaped_quote_is_doubled"
   ],
   "note": "false of the code when an escape character follows the closing quote (three witnesses); proved otherwise"
  },
  {
   "property": "C11",
   "status": "partial",
   "theorems": [
    "Ssp.C11_escape_partial",
    "Ssp.C11_escape_anywhere_partial",
    "Ssp.C11_trim_right_keeps_the_escape"
   ],
   "note": "false of the code for an escape directly behind trim_right spacing (witness); proved otherwise"
  },
  {
   "property": "C12",
   "status": "partial",
   "theorems": [
    "Ssp.C12_split_in_pieces_partial",
    "Ssp.C12_chain_exists",
    "Ssp.C12_position_differs",
    "Ssp.C12_cut_in_delimiter"
   ],
   "note": "fields, validity, exceptions and flags agree wherever the text is not cut inside a delimiter that begins with the quote or escape character (such a cut is shown to differ); only the position inside the mismatched-quote message differs (witness)"
  },
  {
   "property": "C13",
   "status": "proved",
   "theorems": [
    "Ssp.C13_integer_exact",
    "Ssp.C13_integer_shape",
    "Ssp.C13_extract_is_conv"
   ],
   "note": "std::from_chars modelled by its contract"
  },
  {
   "property": "C14",
   "status": "proved",
   "theorems": [
    "Ssp.C14_integer_roundtrip"
   ],
   "note": ""
  },
  {
   "property": "C15",
   "status": "proved",
   "theorems": [
    "Ssp.C15_bool_exact",
    "Ssp.C15_char_exact",
    "Ssp.C15_string_exact",
    "Ssp.C15_view_exact"
   ],
   "note": ""
  },
  {
   "property": "C16",
   "status": "proved",
   "theorems": [
    "Ssp.C16_optional_total"
   ],
   "note": ""
  },
  {
   "property": "C17",
   "status": "proved",
   "theorems": [
    "Ssp.C17_variant_first",
    "Ssp.C17_variant_fails_iff"
   ],
   "note": ""
  },
  {
   "property": "C18",
   "status": "partial",
   "theorems": [
    "Ssp.C18_restriction_exact_partial",
    "Ssp.C18_restriction_exact_same_sign",
    "Ssp.C18_column_partial",
    "Ssp.C18_convert_partial",
    "Ssp.C18_non_empty",
    "Ssp.C18_convert_non_empty",
    "Ssp.C18_mixed_sign_wraps"
   ],
   "note": "false of the code when a comparison mixes a negative number with an unsigned type (witness); proved otherwise"
  },
  {
   "property": "C19",
   "status": "proved",
   "theorems": [
    "Ssp.C19_wrong_number_of_columns",
    "Ssp.C19_wrong_number_of_columns_selected",
    "Ssp.C19_wrong_number_of_arguments",
    "Ssp.C19_empty_line",
    "Ssp.C22_defaults_partial"
   ],
   "note": "C22_defaults_partial: nothing is converted then"
  },
  {
   "property": "C20",
   "status": "proved",
   "theorems": [
    "Ssp.C20_valid_iff",
    "Ssp.C20_bad_split",
    "Ssp.C20_split_then_convert"
   ],
   "note": ""
  },
  {
   "property": "C21",
   "status": "proved",
   "theorems": [
    "Ssp.C21_first_failing_column",
    "Ssp.C21_or_all_pass"
   ],
   "note": ""
  },
  {
   "property": "C22",
   "status": "partial",
   "theorems": [
    "Ssp.C22_defaults_partial",
    "Ssp.C22_refused_column_partial",
    "Ssp.C22_end_of_file",
    "Ssp.C22_failed_column_keeps_earlier_values"
   ],
   "note": "false of the code when a column is rejected (witness); proved for bad splits and wrong column counts and, at the end of the file, for get_next; C22_refused_column_partial says exactly what a refused column returns instead"
  },
  {
   "property": "C23",
   "status": "proved",
   "theorems": [
    "Ssp.C23_no_memory",
    "Ssp.C23_total",
    "Ssp.C23_same_error",
    "Ssp.C23_stale_error_on_empty_line"
   ],
   "note": "validity and values: all setups incl. multiline, all histories of split/convert calls, all lines. The error text (not part of the statement) is independent, too, except on an empty line (witness)"
  },
  {
   "property": "C24",
   "status": "partial",
   "theorems": [
    "Ssp.C24_modes_same",
    "Ssp.C24_modes_same_text_partial",
    "Ssp.C24_text_differs"
   ],
   "note": "validity and values agree, for all setups incl. multiline, all histories and lines; the text differs for a mismatched quote followed by a final escape (witness)"
  },
  {
   "property": "C25",
   "status": "partial",
   "theorems": [
    "Ssp.C25_row",
    "Ssp.C25_error",
    "Ssp.C25_next_row",
    "Ssp.C25_sequence",
    "Ssp.C25_rows_are_the_lines",
    "Ssp.C25_stale_error"
   ],
   "note": "values and validity complete without multiline, any history of calls; error text of an empty line in string mode can be stale (witness)"
  },
  {
   "property": "C26",
   "status": "proved",
   "theorems": [
    "Ssp.C26_same_lines",
    "Ssp.C26_terminators",
    "Ssp.C26_same_lines_multiline"
   ],
   "note": "With multiline: inputs whose rows are of one line, get_next (terminators inside a row belong to its fields). Without multiline: two inputs with the same lines (any mix of LF/CRLF, also buffer vs file) give the same observations for every sequence of calls."
  },
  {
   "property": "C27",
   "status": "partial",
   "theorems": [
    "Ssp.C27_final_newline_partial"
   ],
   "note": "All setups incl. multiline, all call sequences; excluded: under multiline, or_else behind incomplete rows (can be undefined behaviour, C54_or_else_after_realloc)."
  },
  {
   "property": "C28",
   "status": "partial",
   "theorems": [
    "Ssp.C28_eof_is_final",
    "Ssp.C28_eof_is_final_multiline"
   ],
   "note": "complete without multiline; with multiline for histories with or_else behind complete rows only (behind others it is false of the code, see C41/C54)"
  },
  {
   "property": "C29",
   "status": "partial",
   "theorems": [
    "Ssp.C29_progress",
    "Ssp.C29_calls_partial",
    "Ssp.C29_loop_partial",
    "Ssp.C29_new_parser",
    "Ssp.C29_progress_multiline",
    "Ssp.C29_loop_multiline_partial",
    "Ssp.C29_new_parser_multiline",
    "Ssp.C37_sequence"
   ],
   "note": "with and without multiline; false of the code after the last row was skipped (C33_skipping_the_last_row)"
  },
  {
   "property": "C30",
   "status": "partial",
   "theorems": [
    "Ssp.C30_location",
    "Ssp.C30_at_end",
    "Ssp.C30_location_multiline",
    "Ssp.C30_at_end_multiline"
   ],
   "note": "complete without multiline; with multiline for histories with or_else behind complete rows only (behind others it is false of the code, see C41/C54)"
  },
  {
   "property": "C31",
   "status": "partial",
   "theorems": [
    "Ssp.C31_file_and_buffer_partial",
    "Ssp.C31_position_after_end"
   ],
   "note": "All pairs of readers (getline, portable fgets loop, buffer), all call sequences; positions until the end of the input is found (afterwards they differ: witness). Excluded: under multiline, or_else behind incomplete rows."
  },
  {
   "property": "C32",
   "status": "proved",
   "theorems": [
    "Ssp.C32_ignore_empty",
    "Ssp.C32_ignore_empty_multiline",
    "Ssp.C32_ignore_empty_ignore_header",
    "Ssp.C32_kept_exists",
    "Ssp.C32_empty_line_inside_row"
   ],
   "note": "with multiline: no NUL byte inside a quoted field still open, setups as in C37"
  },
  {
   "property": "C33",
   "status": "partial",
   "theorems": [
    "Ssp.C33_ignore_next_partial",
    "Ssp.C33_next_row_partial",
    "Ssp.C33_nothing_left",
    "Ssp.C33_skipping_the_last_row",
    "Ssp.C33_single_line_row_multiline_partial",
    "Ssp.C33_row_of_several_lines"
   ],
   "note": "exact, but eof() stays false after the last row is skipped (witness), and with multiline a line, not a row, is skipped (witness); proved for rows of one line"
  },
  {
   "property": "C34",
   "status": "proved",
   "theorems": [
    "Ssp.C34_row",
    "Ssp.C34_permuted",
    "Ssp.C34_other_rows"
   ],
   "note": "all setups incl. multiline (there: options not wrapped in ss::setup<>, or_else in between only behind complete rows); from any reachable state not at the end of the input, any calls except use_fields in between"
  },
  {
   "property": "C35",
   "status": "partial",
   "theorems": [
    "Ssp.C35_success_iff_partial",
    "Ssp.C35_failure_changes_nothing_partial",
    "Ssp.C35_throw_after_duplicate",
    "Ssp.C35_at_end_of_input"
   ],
   "note": "false of the code under throw_on_error with a duplicate header name and at the end of the input (witnesses); proved otherwise, incl. multiline with options not wrapped in ss::setup<>"
  },
  {
   "property": "C36",
   "status": "partial",
   "theorems": [
    "Ssp.C36_raw_header",
    "Ssp.C36_header",
    "Ssp.C36_bad_header",
    "Ssp.C36_field_exists",
    "Ssp.C36_field_exists_bad_partial",
    "Ssp.C36_same_rows",
    "Ssp.C36_same_rows_multiline",
    "Ssp.C36_wrapped_multiline"
   ],
   "note": "complete without ignore_header; with multiline for options not wrapped in ss::setup<> (wrapped: the header is split as a multiline row, witness)"
  },
  {
   "property": "C37",
   "status": "partial",
   "theorems": [
    "Ssp.C37_row",
    "Ssp.C37_exactly_one",
    "Ssp.C37_in_quote_iff",
    "Ssp.C37_error_partial",
    "Ssp.C37_next_row",
    "Ssp.C37_unfinished",
    "Ssp.C37_sequence",
    "Ssp.C37_rows_exist",
    "Ssp.C37_new_parser",
    "Ssp.C37_position_of_mismatched_quote",
    "Ssp.C37_delimiter_with_end_of_line",
    "Ssp.C37_nul_behind_doubled_quote"
   ],
   "note": "complete for values, validity, extent of rows and end of file, for inputs with no NUL byte inside a quoted field still open (with such a NUL it is false: C37_nul_behind_doubled_quote), histories with or_else behind complete rows only, and delimiters that do not start with a quote or escape character or contain no end of a line (for the others the claim is false, witness); the position in the error of a mismatched quote is off by the removed escapes (witness)"
  },
  {
   "property": "C38",
   "status": "partial",
   "theorems": [
    "Ssp.C38_bound",
    "Ssp.C38_too_long",
    "Ssp.C38_rows_unaffected",
    "Ssp.C38_unaffected",
    "Ssp.C37_next_row"
   ],
   "note": "complete for inputs with no NUL byte inside a quoted field still open (false otherwise: C37_nul_behind_doubled_quote) and histories with or_else behind complete rows only (behind others it is false of the code, see C41/C54), as C37"
  },
  {
   "property": "C39",
   "status": "proved",
   "theorems": [
    "Ssp.C39_row_alone",
    "Ssp.C39_other_rows",
    "Ssp.C39_row_alone_multiline",
    "Ssp.C39_other_rows_multiline"
   ],
   "note": "with multiline: setups and inputs as in C37 (MlOk)"
  },
  {
   "property": "C40",
   "status": "proved",
   "theorems": [
    "Ssp.C40_views",
    "Ssp.C40_chain",
    "Ssp.Demo.C40_until_next_row",
    "Ssp.Own.C48_released_once"
   ],
   "note": "any setup incl. multiline, any state of the parser; C40_until_next_row shows that the period ends with the next row"
  },
  {
   "property": "C41",
   "status": "partial",
   "theorems": [
    "Ssp.C41_first_that_suits",
    "Ssp.C41_at_most_one",
    "Ssp.C41_at_end_of_input",
    "Ssp.C41_first_that_suits_multiline",
    "Ssp.C41_at_most_one_multiline",
    "Ssp.C41_or_else_after_limit",
    "Ssp.C41_or_else_after_open_row"
   ],
   "note": "complete without multiline, and with multiline for complete rows; false of the code at the end of the input and, with multiline, behind a row with too many lines or one open at the end of the input (witnesses)"
  },
  {
   "property": "C42",
   "status": "proved",
   "theorems": [
    "Ssp.C42_iterate_is_loop"
   ],
   "note": "any setup, any state"
  },
  {
   "property": "C43",
   "status": "partial",
   "theorems": [
    "Ssp.Setup.C43_compiles_iff_partial",
    "Ssp.Setup.C43_perm_legal",
    "Ssp.Setup.C43_perm_compiles",
    "Ssp.Setup.C43_perm_same",
    "Ssp.Setup.C43_trim_is_both",
    "Ssp.Setup.C43_resolve_wf",
    "Ssp.Setup.C43_meaning",
    "Ssp.Setup.C43_repeated_ignore_disables"
   ],
   "note": "repeated ignore_header/ignore_empty compiles and silently disables the option (witness); everything else proved"
  },
  {
   "property": "C44",
   "status": "proved",
   "theorems": [
    "Ssp.C44_one_line",
    "Ssp.C44_all_lines",
    "Ssp.C44_lines_are_the_data",
    "Ssp.C44_one_LF"
   ],
   "note": "get_line on a data buffer, any contents, position, line buffer and allocator contents"
  },
  {
   "property": "C45",
   "status": "proved",
   "theorems": [
    "Ssp.C45_same_as_getline",
    "Ssp.C45_all_lines",
    "Ssp.C45_posix_all_lines",
    "Ssp.C45_nul_is_undefined"
   ],
   "note": "holds for data without NUL (the property's domain); a line beginning with NUL makes the portable reader read in front of its buffer (witness for all such data)"
  },
  {
   "property": "C46",
   "status": "partial",
   "theorems": [
    "Ssp.C46_float_in_bounds_partial",
    "Ssp.C46_length_64_out_of_bounds",
    "Ssp.C46_empty_is_accepted"
   ],
   "note": "violated for columns of exactly 64 bytes (proved); proved for all other lengths, strtod by contract"
  },
  {
   "property": "C47",
   "status": "partial",
   "theorems": [
    "Ssp.C47_modes_agree_partial",
    "Ssp.C47_modes_agree_multiline",
    "Ssp.C47_text_multiline_partial",
    "Ssp.C47_line_number",
    "Ssp.C47_text_at_end",
    "Ssp.C24_text_differs",
    "Ssp.C25_stale_error"
   ],
   "note": "values, validity and eof agree for every sequence of calls, with and without multiline; the error text agrees except in the listed cases (witnesses)"
  },
  {
   "property": "C48",
   "status": "partial",
   "theorems": [
    "Ssp.Own.C48_released_once",
    "Ssp.Own.C48_no_leak_partial",
    "Ssp.Own.C48_move_assignment_leaks"
   ],
   "note": "no double release, proved for all sequences of actions; false of the code: move assignment over a parser that holds something leaks its buffers and file for ever (proved for all histories); no leak otherwise"
  },
  {
   "property": "C49",
   "status": "partial",
   "theorems": [
    "Ssp.C49_construction",
    "Ssp.C49_null_buffer_partial",
    "Ssp.C49_size_zero",
    "Ssp.C49_ignore_next",
    "Ssp.C49_use_fields"
   ],
   "note": "construction and every call that reads no line is safe for any size; false of the code for size > 0: ignore_next, and field_exists followed by use_fields(\"\"), read through the null pointer (witnesses)"
  },
  {
   "property": "C50",
   "status": "partial",
   "theorems": [
    "Ssp.C50_no_impact_partial",
    "Ssp.C50_open_quote_accepted"
   ],
   "note": "false of the code on lines that end inside a quote (witness); proved for complete rows"
  },
  {
   "property": "C51",
   "status": "partial",
   "theorems": [
    "Ssp.C51_header_row_skipped_partial",
    "Ssp.C51_new_parser_at_line_zero",
    "Ssp.C51_blank_lines_before_header"
   ],
   "note": "false of the code with ignore_empty and blank lines before the header (witness); proved otherwise, incl. multiline with unwrapped options"
  },
  {
   "property": "C52",
   "status": "proved",
   "theorems": [
    "Ssp.C52_nul_ends_row",
    "Ssp.C52_nul_ends_row_multiline",
    "Ssp.C52_nul_in_quote_multiline"
   ],
   "note": "with and without multiline; with it, a NUL inside an open quoted field swallows the following lines (witness)"
  },
  {
   "property": "C53",
   "status": "partial",
   "theorems": [
    "Ssp.C53_uninitialised_memory_partial"
   ],
   "note": "Two runs with arbitrary different contents of fresh memory and growth policies give identical observations incl. position, forever. Excluded: under multiline, or_else behind incomplete rows (may read freed memory: C54_or_else_after_realloc)."
  },
  {
   "property": "C54",
   "status": "partial",
   "theorems": [
    "Ssp.C54_construction",
    "Ssp.C54_calls_are_defined",
    "Ssp.C54_construction_multiline",
    "Ssp.C54_calls_multiline_partial",
    "Ssp.C54_complete_input",
    "Ssp.C54_or_else_after_realloc"
   ],
   "note": "false of the code with multiline: or_else after an unfinished row is a use after free (witness); proved without multiline, and with multiline for all inputs and all histories with or_else behind complete rows only; if all rows of the input are complete, for all sequences of reading calls; try_next guarded by !eof()"
  },
  {
   "property": "C55",
   "status": "proved",
   "theorems": [
    "Ssp.C55_table_roundtrip",
    "Ssp.C55_strings",
    "Ssp.C55_open_last_row",
    "Ssp.C55_table_roundtrip_single",
    "Ssp.C55_ignore_header",
    "Ssp.C55_beyond_limit"
   ],
   "note": "with multiline_restricted<N>: rows with at most N line feeds (others are too long, C55_beyond_limit); with ignore_header: behind any first line; quote, escapes and delimiter contain no CR/LF, delimiter bytes are no escapes; the terminator of the last row is optional"
  },
  {
   "property": "C56",
   "status": "proved",
   "theorems": [
    "Ssp.C56_on_error_called_iff",
    "Ssp.C56_on_error_is_transparent"
   ],
   "note": "callbacks are pure"
  },
  {
   "property": "C57",
   "status": "proved",
   "theorems": [
    "Ssp.Tp.C57_result_type",
    "Ssp.Tp.C57_tuple_request",
    "Ssp.Tp.C57_destinations",
    "Ssp.Tp.C57_filter",
    "Ssp.Tp.C57_filter_not",
    "Ssp.Tp.C57_filter_single",
    "Ssp.Tp.C57_count",
    "Ssp.Tp.C57_quantifiers",
    "Ssp.Tp.C57_left",
    "Ssp.Tp.C57_right",
    "Ssp.Tp.C57_first_last",
    "Ssp.Tp.C57_last",
    "Ssp.Tp.C57_header_options",
    "Ssp.Tp.C57_header_setup",
    "Ssp.Tp.C57_setup_counts",
    "Ssp.Tp.C57_nested_tuple",
    "Ssp.C57_convert",
    "Ssp.C57_get_next",
    "Ssp.C57_chain"
   ],
   "note": "packs of types that are not themselves std::tuple or std::false_type (a nested tuple is spliced into the outer one: C57_nested_tuple); options given as one ss::setup<> keep multiline for the header (second part of C57_header_options, see C36)"
  },
  {
   "property": "C58",
   "status": "proved",
   "theorems": [
    "Ssp.C58_named_roundtrip",
    "Ssp.C58_typed_roundtrip",
    "Ssp.C58_typed_table",
    "Ssp.C58_printed",
    "Ssp.C58_open_last_row"
   ],
   "note": "with multiline: options not wrapped in ss::setup<> (see C36), rows within the limit of multiline_restricted; without multiline: fields without line feeds"
  },
  {
   "property": "C59",
   "status": "proved",
   "theorems": [
    "Ssp.C59_convert_object",
    "Ssp.C59_get_object",
    "Ssp.C59_row_object",
    "Ssp.C59_first_that_suits",
    "Ssp.C59_iterate_object",
    "Ssp.C59_constructed_from_failed_row"
   ],
   "note": "constructors and callbacks are pure functions; the constructor is called for failed rows too, with the values converted so far (C59_constructed_from_failed_row)"
  },
  {
   "property": "C60",
   "status": "partial",
   "theorems": [
    "Ssp.C60_recover_partial",
    "Ssp.C60_rows_partial",
    "Ssp.C60_callback",
    "Ssp.C60_no_throw",
    "Ssp.C60_quiet",
    "Ssp.C60_callback_no_throw",
    "Ssp.C60_callback_quiet",
    "Ssp.C60_chain",
    "Ssp.C60_chain_rows",
    "Ssp.C60_chain_rows_multiline",
    "Ssp.C60_chain_no_throw",
    "Ssp.C60_row_twice",
    "Ssp.C60_first_row"
   ],
   "note": "true of callbacks (try_next, or_else, on_error) and of conversions and validators of or_else (C60_chain: exactly the row is lost, nothing to repair); false of conversions and validators of get_next and of the first alternative: the next get_next returns the row before again (C60_row_twice) or reads through a null pointer (C60_first_row); proved instead: a call of ignore_next() after the exception repairs the parser completely, at any time of its life, multiline or not"
  },
  {
   "property": "C61",
   "status": "proved",
   "theorems": [
    "Ssp.C61_move_construct",
    "Ssp.C61_move_assign",
    "Ssp.C61_moves_change_nothing",
    "Ssp.C61_moves_are_defined",
    "Ssp.C61_moves_are_defined_multiline",
    "Ssp.C61_moved_from_is_unusable",
    "Ssp.C61_get_next_of_moved_from",
    "Ssp.C61_ignore_next_of_moved_from",
    "Ssp.C61_destroyed_is_unusable"
   ],
   "note": "moves between parsers of one type (the only ones that compile); a parser is not move assigned to itself; calling a parser that was moved from is undefined: get_next unless it was at the end, ignore_next once both line buffers were in use"
  },
  {
   "property": "C62",
   "status": "proved",
   "theorems": [
    "Ssp.Parser.C62_iterators_are_calls",
    "Ssp.Parser.C62_end_iff",
    "Ssp.Parser.C62_iterators_are_separate",
    "Ssp.Parser.C62_values",
    "Ssp.Parser.C62_equality",
    "Ssp.Parser.C62_is_defined",
    "Ssp.Parser.C62_is_defined_multiline",
    "Ssp.Parser.C62_rows",
    "Ssp.Parser.C62_rows_multiline",
    "Ssp.Parser.C62_copies_differ"
   ],
   "note": "iterators of iterate<Ts...>(); the parser is not moved or destroyed while they live; a copy of an iterator does not equal it (C62_copies_differ)"
  },
  {
   "property": "C63",
   "status": "proved",
   "theorems": [
    "Ssp.C63_appended"
   ],
   "note": "any setup incl. multiline, any calls; usable inputs (Src.Fine)"
  },
  {
   "property": "C64",
   "status": "proved",
   "theorems": [
    "Ssp.C64_memory",
    "Ssp.C64_memory_restricted",
    "Ssp.C64_memory_multiline"
   ],
   "note": "the line buffers at the moments between calls; not the strings of errors, headers and results, nor the vector of field positions"
  },
  {
   "property": "C65",
   "status": "partial",
   "theorems": [
    "Ssp.C65_as_with_memory_or_bad_alloc",
    "Ssp.C65_construction",
    "Ssp.C65_enough_memory",
    "Ssp.C65_defined_partial",
    "Ssp.C65_row_partial",
    "Ssp.C65_get_next_after_bad_alloc",
    "Ssp.C65_stale_errno",
    "Ssp.C65_rest_of_a_line",
    "Ssp.C65_multiline_append",
    "Ssp.C65_multiline_overrun"
   ],
   "note": "proved for all calls: as with memory, or bad_alloc; behind bad_alloc, without multiline, ignore_next is always defined and once it returns true every call is (and in a buffer position() is where the next row begins). Not so in the code: get_next directly behind bad_alloc reads a line that was never stored (undefined behaviour), with multiline a refused append leaves a wrong buffer size (undefined behaviour later), an old ENOMEM in errno makes the end of the input a bad_alloc, and the rest of a line cut off by a refusal becomes a row"
  },
  {
   "property": "C66",
   "status": "proved",
   "theorems": [
    "Ssp.C66_row",
    "Ssp.C66_row_multiline",
    "Ssp.C66_loop",
    "Ssp.C66_loop_multiline",
    "Ssp.C66_on_error_text",
    "Ssp.C66_variadic"
   ],
   "note": "with multiline for complete rows (or_else behind others is undefined, C54); callbacks on tuples and single values (try_next, or_else), not on objects; C66_variadic: a callback that can be called with anything is called without arguments, as documented in the code"
  },
  {
   "property": "C67",
   "status": "proved",
   "theorems": [
    "Ssp.C67_same_ahead",
    "Ssp.C67_resume",
    "Ssp.C67_resume_header"
   ],
   "note": "get_next and try_next chains; with multiline under MlOk and or_else behind complete rows only; error texts are not compared (they name the line, and string mode may repeat an old text, C25_stale_error)"
  },
  {
   "property": "C68",
   "status": "partial",
   "theorems": [
    "Ssp.C68_same_as_shorter_file",
    "Ssp.C68_all_lines",
    "Ssp.C68_lines_of_the_file",
    "Ssp.C68_before_the_failure_partial",
    "Ssp.C68_failure_is_silent",
    "Ssp.C68_failure_is_silent_portable"
   ],
   "note": "the part about the rows before the failure holds; the failure is never reported and the begin of a line is delivered as a row (witnesses). The failure is modelled in the line readers (glibc getline, fgets) and does not go away; the parser theorem speaks of the shorter file these readers are proved to see"
  },
  {
   "property": "C69",
   "status": "proved",
   "theorems": [
    "Ssp.C69_counting_changes_nothing",
    "Ssp.C69_split_is_linear",
    "Ssp.C69_all_lines"
   ],
   "note": "every line, also refused ones, and all lines of a text; rows of several lines: C72"
  },
  {
   "property": "C70",
   "status": "proved",
   "theorems": [
    "Ssp.C70_counting_changes_nothing",
    "Ssp.C70_buffer_is_linear",
    "Ssp.C70_buffer_all_lines"
   ],
   "note": "data buffers, upper and lower bound; files read with the portable reader: C72; POSIX getline is outside the library"
  },
  {
   "property": "C71",
   "status": "proved",
   "theorems": [
    "Ssp.C71_counting_changes_nothing",
    "Ssp.C71_whole_text_is_linear"
   ],
   "note": "texts in data buffers, without multiline; conversions are not counted"
  },
  {
   "property": "C72",
   "status": "partial",
   "theorems": [
    "Ssp.C72_pieces_partial",
    "Ssp.C72_columns_are_visited_again",
    "Ssp.C72_portable_partial",
    "Ssp.C72_portable_is_quadratic",
    "Ssp.C72_portable_is_not_linear"
   ],
   "note": "false of the code: for every further line of a row all its completed columns are visited again (bound and lower bound proved), and the portable file reader is quadratic in the length of a line (bounds proved)"
  },
  {
   "property": "C73",
   "status": "proved",
   "theorems": [
    "Ssp.C73_multiline_changes_nothing",
    "Ssp.C73_all_calls",
    "Ssp.C73_reading_calls",
    "Ssp.C73_behind_skipped_row",
    "Ssp.C73_thrown_quote"
   ],
   "note": "setups and inputs as in C37 (MlOk). C73_all_calls compares all observations (error texts, exceptions, line, position) of all calls; not for options wrapped in ss::setup (header calls), and excluded are a row read directly behind a skipped last row (C73_behind_skipped_row) and, in throw mode, an escape and a NUL behind a quoted field (C73_thrown_quote): there the text of the error is another one"
  },
  {
   "property": "C74",
   "status": "partial",
   "theorems": [
    "Ssp.C74_error_names_line",
    "Ssp.C74_error_names_line_multiline",
    "Ssp.C25_error",
    "Ssp.C37_error_partial",
    "Ssp.C47_line_number",
    "Ssp.C74_or_else_names_the_line_behind",
    "Ssp.C74_or_else_line"
   ],
   "note": "proved for get_next (also the first step of try_next); false of the code for exceptions if empty lines are skipped behind the row (the exception names the last of them, C47_line_number; said exactly in Names.throw and Names.skipped) and for or_else, which always names the line behind the row (C74_or_else_names_the_line_behind)"
  },
  {
   "property": "C75",
   "status": "proved",
   "theorems": [
    "Ssp.C75_unused_characters",
    "Ssp.C75_no_option",
    "Ssp.C75_no_option_multiline",
    "Ssp.C75_convert",
    "Ssp.C75_used_character"
   ],
   "note": "for all parsers (without multiline everything; with it all sequences that are Covered: or_else only behind a complete row; what it does behind others is undefined or converts what is no row: C54_or_else_after_realloc, C41_or_else_after_limit); C75_used_character shows the hypothesis is needed"
  },
  {
   "property": "C76",
   "status": "partial",
   "theorems": [
    "Ssp.C76_construction",
    "Ssp.C76_missing_file_partial",
    "Ssp.C76_missing_file_text_partial",
    "Ssp.Demo.C76_line",
    "Ssp.Demo.C76_text_after_or_else"
   ],
   "note": "all sequences of calls, composites without a look at eof() included: proved except for line(), which counts every ignore_next behind the end (C76_line), and for the text: an or_else at the end leaves its error in a converter, which a later get_next reports instead (C76_text_after_or_else; proved when no or_else is made)"
  },
  {
   "property": "C77",
   "status": "partial",
   "theorems": [
    "Ssp.C77_questions_change_nothing_else_partial",
    "Ssp.C77_questions_among_reads",
    "Ssp.Demo.C77_asked",
    "Ssp.Demo.C77_ignore_next_judges_nothing",
    "Ssp.C35_throw_after_duplicate",
    "Ssp.C35_at_end_of_input"
   ],
   "note": "proved in full for sequences without use_fields (C77_questions_among_reads); with use_fields it is proved when it is called before the end of the input and, under throw_on_error, the header names no column twice: in the other cases the code does let a question change what use_fields does (C35_throw_after_duplicate, C35_at_end_of_input)"
  },
  {
   "property": "C78",
   "status": "proved",
   "theorems": [
    "Ssp.C78_last_selection_counts",
    "Ssp.C78_line",
    "Ssp.Demo.C78_twice",
    "Ssp.Demo.C78_meets"
   ],
   "note": "for every state of a parser; that line() is not 0 behind a successful use_fields is C78_line, for every input that exists (a null buffer or a file that could not be opened: C49, C76)"
  },
  {
   "property": "C79",
   "status": "proved",
   "theorems": [
    "Ssp.C79_line_advances",
    "Ssp.C79_calls_counted",
    "Ssp.Demo.C79_lines"
   ],
   "note": "no condition on the setup or the history; inputs: a buffer of the given size that is not null, a file (without NUL when the portable reader is used)"
  },
  {
   "property": "C80",
   "status": "partial",
   "theorems": [
    "Ssp.C80_position_advances_partial",
    "Ssp.C80_positions_sorted",
    "Ssp.Demo.C80_positions"
   ],
   "note": "buffers: never goes back, never beyond the end - without any condition (C80_positions_sorted). That it strictly moves on, and files up to the last row: with multiline a composite must be made where its row can be taken up again (`Op.Tame`). Behind the last row of a file the property fails: C31_position_after_end"
  }
 ]
}