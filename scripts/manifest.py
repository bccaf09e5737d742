#!/usr/bin/env python3
"""Writes MANIFEST.json. One entry per property: status, theorems, note."""
import json, re, sys
C = {}
def claim(pid, status, theorems, note=""):
    C[pid] = {"property": pid, "status": status, "theorems": ["Ssp." + t for t in theorems], "note": note}

claim("C01", "proved", ["C01_split_total_and_safe", "C01_split_history"], "any setup, line, delimiter, trailing bytes; every history of one splitter object")
claim("C02", "proved", ["C02_join_of_split", "C02_split_of_join", "C02_split_of_join_byte"], "")
claim("C03", "proved", ["C03_split_const", "C03_convert_const"], "splitting and converting")
claim("C04", "proved", ["C04_quoted_roundtrip", "C04_written_fields_roundtrip"], "")
claim("C05", "proved", ["C05_escaped_roundtrip"], "")
claim("C06", "proved", ["C06_trim_exact"], "")
claim("C07", "proved", ["C07_fields_are_the_decoded_text", "C07_valid_columns"], "")
claim("C08", "proved", ["C08_unterminated_quote", "C08_unterminated_quote_first"], "whatever complete row text precedes (single byte delimiter), any delimiter for the first field")
claim("C09", "proved", ["C09_unterminated_escape_plain", "C09_unterminated_escape_quoted"], "")
claim("C10", "partial", ["C10_mismatched_quote_partial", "C10_position_off_by_one", "C10_throw_other_cause", "C10_escaped_quote_is_doubled"], "false of the code when an escape character follows the closing quote (three witnesses); proved otherwise")
claim("C11", "partial", ["C11_escape_partial", "C11_escape_anywhere_partial", "C11_trim_right_keeps_the_escape"], "false of the code for an escape directly behind trim_right spacing (witness); proved otherwise")
claim("C12", "partial", ["C12_split_in_pieces_partial", "C12_chain_exists", "C12_position_differs", "C12_cut_in_delimiter"], "fields, validity, exceptions and flags agree wherever the text is not cut inside a delimiter that begins with the quote or escape character (such a cut is shown to differ); only the position inside the mismatched-quote message differs (witness)")
claim("C13", "proved", ["C13_integer_exact", "C13_integer_shape", "C13_extract_is_conv"], "std::from_chars modelled by its contract")
claim("C14", "proved", ["C14_integer_roundtrip"], "")
claim("C15", "proved", ["C15_bool_exact", "C15_char_exact", "C15_string_exact", "C15_view_exact"], "")
claim("C16", "proved", ["C16_optional_total"], "")
claim("C17", "proved", ["C17_variant_first", "C17_variant_fails_iff"], "")
claim("C18", "partial", ["C18_restriction_exact_partial", "C18_restriction_exact_same_sign", "C18_column_partial", "C18_convert_partial", "C18_non_empty", "C18_convert_non_empty", "C18_mixed_sign_wraps"], "false of the code when a comparison mixes a negative number with an unsigned type (witness); proved otherwise")
claim("C19", "proved", ["C19_wrong_number_of_columns", "C19_wrong_number_of_columns_selected", "C19_wrong_number_of_arguments", "C19_empty_line", "C22_defaults_partial"], "C22_defaults_partial: nothing is converted then")
claim("C20", "proved", ["C20_valid_iff", "C20_bad_split", "C20_split_then_convert"], "")
claim("C21", "proved", ["C21_first_failing_column", "C21_or_all_pass"], "")
claim("C22", "partial", ["C22_defaults_partial", "C22_refused_column_partial", "C22_end_of_file", "C22_failed_column_keeps_earlier_values"], "false of the code when a column is rejected (witness); proved for bad splits and wrong column counts and, at the end of the file, for get_next; C22_refused_column_partial says exactly what a refused column returns instead")
claim("C23", "proved", ["C23_no_memory", "C23_total", "C23_same_error", "C23_stale_error_on_empty_line"], "validity and values: all setups incl. multiline, all histories of split/convert calls, all lines. The error text (not part of the statement) is independent, too, except on an empty line (witness)")
claim("C24", "partial", ["C24_modes_same", "C24_modes_same_text_partial", "C24_text_differs"], "validity and values agree, for all setups incl. multiline, all histories and lines; the text differs for a mismatched quote followed by a final escape (witness)")
claim("C50", "partial", ["C50_no_impact_partial", "C50_open_quote_accepted"], "false of the code on lines that end inside a quote (witness); proved for complete rows")
claim("C43","partial",["Setup.C43_compiles_iff_partial","Setup.C43_perm_legal","Setup.C43_perm_compiles","Setup.C43_perm_same","Setup.C43_trim_is_both","Setup.C43_resolve_wf","Setup.C43_meaning","Setup.C43_repeated_ignore_disables"],"repeated ignore_header/ignore_empty compiles and silently disables the option (witness); everything else proved")
claim("C44","proved",["C44_one_line","C44_all_lines","C44_lines_are_the_data","C44_one_LF"],"get_line on a data buffer, any contents, position, line buffer and allocator contents")
claim("C45","proved",["C45_same_as_getline","C45_all_lines","C45_posix_all_lines","C45_nul_is_undefined"],"holds for data without NUL (the property's domain); a line beginning with NUL makes the portable reader read in front of its buffer (witness for all such data)")
claim("C46","partial",["C46_float_in_bounds_partial","C46_length_64_out_of_bounds","C46_empty_is_accepted"],"violated for columns of exactly 64 bytes (proved); proved for all other lengths, strtod by contract")
claim("C25","partial",["C25_row","C25_error","C25_next_row","C25_sequence","C25_rows_are_the_lines","C25_stale_error"],"values and validity complete without multiline, any history of calls; error text of an empty line in string mode can be stale (witness)")
claim("C28","partial",["C28_eof_is_final","C28_eof_is_final_multiline"],"complete without multiline; with multiline for histories with or_else behind complete rows only (behind others it is false of the code, see C41/C54)")
claim("C29","partial",["C29_progress","C29_calls_partial","C29_loop_partial","C29_new_parser","C29_progress_multiline","C29_loop_multiline_partial","C29_new_parser_multiline","C37_sequence"],"with and without multiline; false of the code after the last row was skipped (C33_skipping_the_last_row)")
claim("C30","partial",["C30_location","C30_at_end","C30_location_multiline","C30_at_end_multiline"],"complete without multiline; with multiline for histories with or_else behind complete rows only (behind others it is false of the code, see C41/C54)")
claim("C32","proved",["C32_ignore_empty","C32_ignore_empty_multiline","C32_ignore_empty_ignore_header","C32_kept_exists","C32_empty_line_inside_row"],"with multiline: no NUL byte inside a quoted field still open, setups as in C37")
claim("C33","partial",["C33_ignore_next_partial","C33_next_row_partial","C33_nothing_left","C33_skipping_the_last_row","C33_single_line_row_multiline_partial","C33_row_of_several_lines"],"exact, but eof() stays false after the last row is skipped (witness), and with multiline a line, not a row, is skipped (witness); proved for rows of one line")
claim("C39","proved",["C39_row_alone","C39_other_rows","C39_row_alone_multiline","C39_other_rows_multiline"],"with multiline: setups and inputs as in C37 (MlOk)")
claim("C42","proved",["C42_iterate_is_loop"],"any setup, any state")
claim("C52","proved",["C52_nul_ends_row","C52_nul_ends_row_multiline","C52_nul_in_quote_multiline"],"with and without multiline; with it, a NUL inside an open quoted field swallows the following lines (witness)")
claim("C54","partial",["C54_construction","C54_calls_are_defined","C54_construction_multiline","C54_calls_multiline_partial","C54_complete_input","C54_or_else_after_realloc"],"false of the code with multiline: or_else after an unfinished row is a use after free (witness); proved without multiline, and with multiline for all inputs and all histories with or_else behind complete rows only; if all rows of the input are complete, for all sequences of reading calls; try_next guarded by !eof()")
claim("C34","proved",["C34_row","C34_permuted","C34_other_rows"],"all setups incl. multiline (there: options not wrapped in ss::setup<>, or_else in between only behind complete rows); from any reachable state not at the end of the input, any calls except use_fields in between")
claim("C35","partial",["C35_success_iff_partial","C35_failure_changes_nothing_partial","C35_throw_after_duplicate","C35_at_end_of_input"],"false of the code under throw_on_error with a duplicate header name and at the end of the input (witnesses); proved otherwise, incl. multiline with options not wrapped in ss::setup<>")
claim("C36","partial",["C36_raw_header","C36_header","C36_bad_header","C36_field_exists","C36_field_exists_bad_partial","C36_same_rows","C36_same_rows_multiline","C36_wrapped_multiline"],"complete without ignore_header; with multiline for options not wrapped in ss::setup<> (wrapped: the header is split as a multiline row, witness)")
claim("C51","partial",["C51_header_row_skipped_partial","C51_new_parser_at_line_zero","C51_blank_lines_before_header"],"false of the code with ignore_empty and blank lines before the header (witness); proved otherwise, incl. multiline with unwrapped options")
claim("C41","partial",["C41_first_that_suits","C41_at_most_one","C41_at_end_of_input","C41_first_that_suits_multiline","C41_at_most_one_multiline","C41_or_else_after_limit","C41_or_else_after_open_row"],"complete without multiline, and with multiline for complete rows; false of the code at the end of the input and, with multiline, behind a row with too many lines or one open at the end of the input (witnesses)")
claim("C47","partial",["C47_modes_agree_partial","C47_modes_agree_multiline","C47_text_multiline_partial","C47_line_number","C47_text_at_end","C24_text_differs","C25_stale_error"],"values, validity and eof agree for every sequence of calls, with and without multiline; the error text agrees except in the listed cases (witnesses)")
claim("C37","partial",["C37_row","C37_exactly_one","C37_in_quote_iff","C37_error_partial","C37_next_row","C37_unfinished","C37_sequence","C37_rows_exist","C37_new_parser","C37_position_of_mismatched_quote","C37_delimiter_with_end_of_line","C37_nul_behind_doubled_quote"],"complete for values, validity, extent of rows and end of file, for inputs with no NUL byte inside a quoted field still open (with such a NUL it is false: C37_nul_behind_doubled_quote), histories with or_else behind complete rows only, and delimiters that do not start with a quote or escape character or contain no end of a line (for the others the claim is false, witness); the position in the error of a mismatched quote is off by the removed escapes (witness)")
claim("C38","partial",["C38_bound","C38_too_long","C38_rows_unaffected","C38_unaffected","C37_next_row"],"complete for inputs with no NUL byte inside a quoted field still open (false otherwise: C37_nul_behind_doubled_quote) and histories with or_else behind complete rows only (behind others it is false of the code, see C41/C54), as C37")
claim("C26","proved",["C26_same_lines","C26_terminators","C26_same_lines_multiline"],"With multiline: inputs whose rows are of one line, get_next (terminators inside a row belong to its fields). Without multiline: two inputs with the same lines (any mix of LF/CRLF, also buffer vs file) give the same observations for every sequence of calls.")
claim("C27","partial",["C27_final_newline_partial"],"All setups incl. multiline, all call sequences; excluded: under multiline, or_else behind incomplete rows (can be undefined behaviour, C54_or_else_after_realloc).")
claim("C31","partial",["C31_file_and_buffer_partial","C31_position_after_end"],"All pairs of readers (getline, portable fgets loop, buffer), all call sequences; positions until the end of the input is found (afterwards they differ: witness). Excluded: under multiline, or_else behind incomplete rows.")
claim("C53","partial",["C53_uninitialised_memory_partial"],"Two runs with arbitrary different contents of fresh memory and growth policies give identical observations incl. position, forever. Excluded: under multiline, or_else behind incomplete rows (may read freed memory: C54_or_else_after_realloc).")
claim("C49", "partial", ["C49_construction","C49_null_buffer_partial","C49_size_zero","C49_ignore_next","C49_use_fields"],
  "construction and every call that reads no line is safe for any size; false of the code for size > 0: ignore_next, and field_exists followed by use_fields(\"\"), read through the null pointer (witnesses)")
claim("C40", "proved", ["C40_views","C40_chain","Demo.C40_until_next_row","Own.C48_released_once"],
  "any setup incl. multiline, any state of the parser; C40_until_next_row shows that the period ends with the next row")
claim("C48", "partial", ["Own.C48_released_once","Own.C48_no_leak_partial","Own.C48_move_assignment_leaks"],
  "no double release, proved for all sequences of actions; false of the code: move assignment over a parser that holds something leaks its buffers and file for ever (proved for all histories); no leak otherwise")
claim("C55","proved",["C55_table_roundtrip","C55_strings","C55_open_last_row","C55_table_roundtrip_single","C55_ignore_header","C55_beyond_limit"],"with multiline_restricted<N>: rows with at most N line feeds (others are too long, C55_beyond_limit); with ignore_header: behind any first line; quote, escapes and delimiter contain no CR/LF, delimiter bytes are no escapes; the terminator of the last row is optional")
claim("C56","proved",["C56_on_error_called_iff","C56_on_error_is_transparent"],"callbacks are pure")
claim("C57","proved",["Tp.C57_result_type","Tp.C57_tuple_request","Tp.C57_destinations","Tp.C57_filter","Tp.C57_filter_not","Tp.C57_filter_single","Tp.C57_count","Tp.C57_quantifiers","Tp.C57_left","Tp.C57_right","Tp.C57_first_last","Tp.C57_last","Tp.C57_header_options","Tp.C57_header_setup","Tp.C57_setup_counts","Tp.C57_nested_tuple","C57_convert","C57_get_next","C57_chain"],"packs of types that are not themselves std::tuple or std::false_type (a nested tuple is spliced into the outer one: C57_nested_tuple); options given as one ss::setup<> keep multiline for the header (second part of C57_header_options, see C36)")
claim("C58","proved",["C58_named_roundtrip","C58_typed_roundtrip","C58_typed_table","C58_printed","C58_open_last_row"],"with multiline: options not wrapped in ss::setup<> (see C36), rows within the limit of multiline_restricted; without multiline: fields without line feeds")
claim("C59","proved",["C59_convert_object","C59_get_object","C59_row_object","C59_first_that_suits","C59_iterate_object","C59_constructed_from_failed_row"],"constructors and callbacks are pure functions; the constructor is called for failed rows too, with the values converted so far (C59_constructed_from_failed_row)")
claim("C60","partial",["C60_recover_partial","C60_rows_partial","C60_callback","C60_no_throw","C60_quiet","C60_callback_no_throw","C60_callback_quiet","C60_chain","C60_chain_rows","C60_chain_rows_multiline","C60_chain_no_throw","C60_row_twice","C60_first_row"],"true of callbacks (try_next, or_else, on_error) and of conversions and validators of or_else (C60_chain: exactly the row is lost, nothing to repair); false of conversions and validators of get_next and of the first alternative: the next get_next returns the row before again (C60_row_twice) or reads through a null pointer (C60_first_row); proved instead: a call of ignore_next() after the exception repairs the parser completely, at any time of its life, multiline or not")
claim("C61","proved",["C61_move_construct","C61_move_assign","C61_moves_change_nothing","C61_moves_are_defined","C61_moves_are_defined_multiline","C61_moved_from_is_unusable","C61_get_next_of_moved_from","C61_ignore_next_of_moved_from","C61_destroyed_is_unusable"],"moves between parsers of one type (the only ones that compile); a parser is not move assigned to itself; calling a parser that was moved from is undefined: get_next unless it was at the end, ignore_next once both line buffers were in use")
claim("C62","proved",["Parser.C62_iterators_are_calls","Parser.C62_end_iff","Parser.C62_iterators_are_separate","Parser.C62_values","Parser.C62_equality","Parser.C62_is_defined","Parser.C62_is_defined_multiline","Parser.C62_rows","Parser.C62_rows_multiline","Parser.C62_copies_differ"],"iterators of iterate<Ts...>(); the parser is not moved or destroyed while they live; a copy of an iterator does not equal it (C62_copies_differ)")
claim("C63","proved",["C63_appended"],"any setup incl. multiline, any calls; usable inputs (Src.Fine)")
claim("C64","proved",["C64_memory","C64_memory_restricted","C64_memory_multiline"],"the line buffers at the moments between calls; not the strings of errors, headers and results, nor the vector of field positions")
claim("C65","partial",["C65_as_with_memory_or_bad_alloc","C65_construction","C65_enough_memory","C65_defined_partial","C65_row_partial","C65_get_next_after_bad_alloc","C65_stale_errno","C65_rest_of_a_line","C65_multiline_append","C65_multiline_overrun"],"proved for all calls: as with memory, or bad_alloc; behind bad_alloc, without multiline, ignore_next is always defined and once it returns true every call is (and in a buffer position() is where the next row begins). Not so in the code: get_next directly behind bad_alloc reads a line that was never stored (undefined behaviour), with multiline a refused append leaves a wrong buffer size (undefined behaviour later), an old ENOMEM in errno makes the end of the input a bad_alloc, and the rest of a line cut off by a refusal becomes a row")
claim("C66","proved",["C66_row","C66_row_multiline","C66_loop","C66_loop_multiline","C66_on_error_text","C66_variadic"],"with multiline for complete rows (or_else behind others is undefined, C54); callbacks on tuples and single values (try_next, or_else), not on objects; C66_variadic: a callback that can be called with anything is called without arguments, as documented in the code")
claim("C67","proved",["C67_same_ahead","C67_resume","C67_resume_header"],"get_next and try_next chains; with multiline under MlOk and or_else behind complete rows only; error texts are not compared (they name the line, and string mode may repeat an old text, C25_stale_error)")
claim("C68","partial",["C68_same_as_shorter_file","C68_all_lines","C68_lines_of_the_file","C68_before_the_failure_partial","C68_failure_is_silent","C68_failure_is_silent_portable"],"the part about the rows before the failure holds; the failure is never reported and the begin of a line is delivered as a row (witnesses). The failure is modelled in the line readers (glibc getline, fgets) and does not go away; the parser theorem speaks of the shorter file these readers are proved to see")
claim("C69","proved",["C69_counting_changes_nothing","C69_split_is_linear","C69_all_lines"],"every line, also refused ones, and all lines of a text; rows of several lines: C72")
claim("C70","proved",["C70_counting_changes_nothing","C70_buffer_is_linear","C70_buffer_all_lines"],"data buffers, upper and lower bound; files read with the portable reader: C72; POSIX getline is outside the library")
claim("C71","proved",["C71_counting_changes_nothing","C71_whole_text_is_linear"],"texts in data buffers, without multiline; conversions are not counted")
claim("C72","partial",["C72_pieces_partial","C72_columns_are_visited_again","C72_portable_partial","C72_portable_is_quadratic","C72_portable_is_not_linear"],"false of the code: for every further line of a row all its completed columns are visited again (bound and lower bound proved), and the portable file reader is quadratic in the length of a line (bounds proved)")
claim("C73","proved",["C73_multiline_changes_nothing","C73_all_calls","C73_reading_calls","C73_behind_skipped_row","C73_thrown_quote"],"setups and inputs as in C37 (MlOk). C73_all_calls compares all observations (error texts, exceptions, line, position) of all calls; not for options wrapped in ss::setup (header calls), and excluded are a row read directly behind a skipped last row (C73_behind_skipped_row) and, in throw mode, an escape and a NUL behind a quoted field (C73_thrown_quote): there the text of the error is another one")
claim("C74","partial",["C74_error_names_line","C74_error_names_line_multiline","C25_error","C37_error_partial","C47_line_number","C74_or_else_names_the_line_behind","C74_or_else_line"],"proved for get_next (also the first step of try_next); false of the code for exceptions if empty lines are skipped behind the row (the exception names the last of them, C47_line_number; said exactly in Names.throw and Names.skipped) and for or_else, which always names the line behind the row (C74_or_else_names_the_line_behind)")
claim("C75","proved",["C75_unused_characters","C75_no_option","C75_no_option_multiline","C75_convert","C75_used_character"],"for all parsers (without multiline everything; with it all sequences that are Covered: or_else only behind a complete row; what it does behind others is undefined or converts what is no row: C54_or_else_after_realloc, C41_or_else_after_limit); C75_used_character shows the hypothesis is needed")
claim("C76","partial",["C76_construction","C76_missing_file_partial","C76_missing_file_text_partial","Demo.C76_line","Demo.C76_text_after_or_else"],"all sequences of calls, composites without a look at eof() included: proved except for line(), which counts every ignore_next behind the end (C76_line), and for the text: an or_else at the end leaves its error in a converter, which a later get_next reports instead (C76_text_after_or_else; proved when no or_else is made)")
claim("C77","partial",["C77_questions_change_nothing_else_partial","C77_questions_among_reads","Demo.C77_asked","Demo.C77_ignore_next_judges_nothing","C35_throw_after_duplicate","C35_at_end_of_input"],"proved in full for sequences without use_fields (C77_questions_among_reads); with use_fields it is proved when it is called before the end of the input and, under throw_on_error, the header names no column twice: in the other cases the code does let a question change what use_fields does (C35_throw_after_duplicate, C35_at_end_of_input)")
claim("C78","proved",["C78_last_selection_counts","C78_line","Demo.C78_twice","Demo.C78_meets"],"for every state of a parser; that line() is not 0 behind a successful use_fields is C78_line, for every input that exists (a null buffer or a file that could not be opened: C49, C76)")
claim("C79","proved",["C79_line_advances","C79_calls_counted","Demo.C79_lines"],"no condition on the setup or the history; inputs: a buffer of the given size that is not null, a file (without NUL when the portable reader is used)")
claim("C80","partial",["C80_position_advances_partial","C80_positions_sorted","Demo.C80_positions"],"buffers: never goes back, never beyond the end - without any condition (C80_positions_sorted). That it strictly moves on, and files up to the last row: with multiline a composite must be made where its row can be taken up again (`Op.Tame`). Behind the last row of a file the property fails: C31_position_after_end")
#MORE

if __name__ == "__main__":
    ids = [json.loads(l)["id"] for l in open("/verif/properties.jsonl") if l.strip()]
    miss = [i for i in ids if i not in C]
    if miss: print("no claim yet:", *miss, file=sys.stderr)
    json.dump({"claims": [C[i] for i in ids if i in C]}, open("/verif/MANIFEST.json", "w"), indent=1)
