{"id": "C01", "title": "Splitting is total and memory safe", "statement": "For every valid setup, splitting any NUL-terminated line with any non-empty NUL-free delimiter terminates, and never reads or writes a byte outside the line and its terminator; the terminator and everything behind it are left as they were, and so is the length of the line's storage.", "quantifier": "all setups accepted by the static asserts, all lines, all NUL-free delimiters, all contents of the memory behind the line", "why_tests_cant": "an out-of-bounds access or a non-terminating scan may need one specific combination of escape, quote, trim and delimiter bytes at the very end of a line; tests only sample lines", "anchors": ["include/ss/splitter.hpp: split, match_delimiter, shift_and_set_current, read_normal, read_quoted"]}
{"id": "C02", "title": "Plain split inverts join", "statement": "Without quote, escape and trim, the fields reported for a line, joined with the delimiter, give back the line byte for byte, and no reported field contains the delimiter; for a single-byte delimiter and any non-empty list of fields that do not contain it, splitting the joined text reports exactly those fields.", "quantifier": "all lines, all delimiters of any length, all field lists", "why_tests_cant": "fields and delimiters can overlap in unboundedly many ways (e.g. a delimiter of repeated characters)", "anchors": ["include/ss/splitter.hpp: split, match_delimiter, read_normal", "include/ss/parser.hpp: delimiter constructor argument"]}
{"id": "C03", "title": "A line is not modified unless quoting or escaping is on", "statement": "With neither quote nor escape in the setup, splitting and converting a line leaves every byte of its storage unchanged.", "quantifier": "all setups without quote and escape, all lines, all delimiters", "why_tests_cant": "must hold for every byte of every line", "anchors": ["include/ss/splitter.hpp: is_const_line, shift_and_set_current"]}
{"id": "C04", "title": "Quoted fields round-trip", "statement": "With quoting enabled, writing any non-empty list of NUL-free byte strings as quoted fields (inner quotes doubled, and, when escaping is on, escape characters escaped) joined by the delimiter, and splitting that line, reports exactly the original strings and no error - whatever delimiters, spaces, quotes or newlines the strings contain, with or without spacing characters around the quoted fields when trimming is on.", "quantifier": "all valid setups with quote, all lists of NUL-free strings, all delimiters whose first byte is not the quote, an escape or a trim character", "why_tests_cant": "the payload may contain any byte sequence, in particular pieces that look like delimiters and closing quotes", "anchors": ["include/ss/splitter.hpp: read_quoted, shift_and_jump_escape, match_delimiter"]}
{"id": "C05", "title": "Escaped fields round-trip", "statement": "With escaping enabled, writing any non-empty list of strings with an escape character put before every special character (delimiter bytes, quote, escape, trim characters), joined by the delimiter, and splitting that line reports exactly the original strings and no error.", "quantifier": "all valid setups with escape, all lists of NUL-free strings (empty strings included), all delimiters whose bytes are not escape characters and whose first byte is not a quote or trim character", "why_tests_cant": "anything can be escaped, in any position", "anchors": ["include/ss/splitter.hpp: shift_if_escaped, match_delimiter, read_normal"]}
{"id": "C06", "title": "Trimming removes exactly the surrounding spacing", "statement": "With trimming (left, right or both) and no quote/escape, the fields of a line are the fields of the plain split with precisely the leading (trailing) trim characters removed; inner spacing is preserved.", "quantifier": "all trim sets, all lines, all delimiters whose first byte is not a trim character", "why_tests_cant": "spacing runs of any length anywhere in the line", "anchors": ["include/ss/splitter.hpp: trim_left_if_enabled, trim_right_if_enabled, match_delimiter"]}
{"id": "C07", "title": "Reported fields are the decoded text", "statement": "For every setup the byte ranges reported by split lie inside the line, in order and without overlap, and the bytes found in them after the whole line has been processed are those of a pure left-to-right decoding of the original text: the in-place removal of escape and quote characters never damages a neighbouring field.", "quantifier": "all valid setups, all lines, all delimiters", "why_tests_cant": "in-place shifting corrupts only for particular distances between several escaped characters and later fields", "anchors": ["include/ss/splitter.hpp: shift_and_set_current, shift_and_push, shift_push_and_start_next"]}
{"id": "C08", "title": "An unterminated quote is always reported", "statement": "Without multiline, a line whose last field opens a quote that is never closed is reported invalid and flagged as an unterminated quote, whatever precedes it and whatever follows the quote.", "quantifier": "all setups with quote and without multiline, all lines", "why_tests_cant": "silently accepting one broken line drops or merges data; tests only sample contents", "anchors": ["include/ss/splitter.hpp: read_quoted, handle_error_unterminated_quote", "include/ss/converter.hpp: convert"]}
{"id": "C09", "title": "An unterminated escape is always reported", "statement": "Without multiline, a line ending in an active escape character is reported invalid.", "quantifier": "all setups with escape and without multiline, all lines", "why_tests_cant": "depends on the parity and position of escapes in an arbitrary line", "anchors": ["include/ss/splitter.hpp: shift_if_escaped, read_quoted, handle_error_unterminated_escape"]}
{"id": "C10", "title": "Text after a closing quote is always reported", "statement": "A quoted field whose closing quote is followed by something other than spacing, a delimiter, the end of the line or another quote makes the line invalid, and the reported position is the offset of that quote in the line.", "quantifier": "all setups with quote, all quoted contents, all following texts", "why_tests_cant": "the offending text is arbitrary", "anchors": ["include/ss/splitter.hpp: read_quoted, handle_error_mismatched_quote"]}
{"id": "C11", "title": "An escape removes the special meaning of the next character wherever it occurs in a field", "statement": "In an unquoted field an escape character is dropped and the character behind it is kept, independently of what stands before it in the field (README: anything can be escaped), also when trimming is on.", "quantifier": "all setups with escape, all unquoted fields", "why_tests_cant": "depends on the interplay of spacing runs and escapes inside the field", "anchors": ["include/ss/splitter.hpp: match_delimiter, shift_if_escaped, shift_and_jump_escape"]}
{"id": "C12", "title": "Splitting in pieces equals splitting at once", "statement": "When a multiline row is split after its first line, found unterminated, extended by further text and continued - any number of times - the final fields, validity and error equal those of splitting the complete row text in one go.", "quantifier": "all multiline setups with quote, all texts, all ways to cut the text inside a quoted field, any number of continuations", "why_tests_cant": "the cut can fall anywhere relative to doubled quotes, escapes and shifts", "anchors": ["include/ss/splitter.hpp: resplit, adjust_ranges, size_shifted", "include/ss/parser.hpp: reader::parse"]}
{"id": "C13", "title": "Integer conversion accepts exactly the decimal literals in range", "statement": "A column converts to an integer type iff its whole text is a decimal literal (optional minus only for signed types, at least one digit, no plus, spaces or trailing characters) whose value is representable, and then yields that value; otherwise the conversion fails.", "quantifier": "all texts, all signed/unsigned widths", "why_tests_cant": "infinitely many texts; boundary values at every width", "anchors": ["include/ss/extract.hpp: to_num, extract", "include/ss/extract.hpp: numeric_wrapper"]}
{"id": "C14", "title": "Integers round-trip through their decimal text", "statement": "For every value of every integer type, converting its decimal text yields the value.", "quantifier": "all widths, all representable values", "why_tests_cant": "2^64 values", "anchors": ["include/ss/extract.hpp: to_num"]}
{"id": "C15", "title": "Bool, char and string conversions are exact", "statement": "bool accepts exactly 0, 1, true, false; char accepts exactly one-byte columns; std::string and std::string_view accept every column and return it unchanged.", "quantifier": "all column texts", "why_tests_cant": "all texts", "anchors": ["include/ss/extract.hpp: extract specializations"]}
{"id": "C16", "title": "std::optional never fails a row", "statement": "A column converted to std::optional<T> always succeeds; it holds T's conversion when that succeeds and nullopt otherwise.", "quantifier": "all types T (also nested and user-defined), all texts", "why_tests_cant": "quantifies over user-defined conversions", "anchors": ["include/ss/extract.hpp: extract (optional)"]}
{"id": "C17", "title": "std::variant takes the first alternative that converts", "statement": "A column converted to std::variant<T...> succeeds iff some alternative converts, and holds the value of the first one that does.", "quantifier": "all alternative lists, all texts", "why_tests_cant": "quantifies over type lists and user-defined conversions", "anchors": ["include/ss/extract.hpp: extract_variant"]}
{"id": "C18", "title": "Restrictions accept exactly their stated set", "statement": "ax/nx/gt/gte/lt/lte/ir/oor/ne accept a converted value iff it is in the documented set, for packs of any length; a column with a restriction is valid iff it converts and the restriction accepts it.", "quantifier": "all values, all template packs", "why_tests_cant": "unbounded packs and value ranges", "anchors": ["include/ss/restrictions.hpp: ax, nx, gt, gte, lt, lte, ir, oor, ne", "include/ss/converter.hpp: extract_one"]}
{"id": "C19", "title": "A row with the wrong number of columns is never accepted", "statement": "convert fails whenever the number of columns differs from the number of requested types (or, with selected fields, from the header), and no column is converted.", "quantifier": "all setups, lines, type lists, column selections", "why_tests_cant": "all lengths", "anchors": ["include/ss/converter.hpp: convert_impl, handle_error_number_of_columns, handle_error_incompatible_mapping"]}
{"id": "C20", "title": "A valid conversion returns each requested column", "statement": "If convert leaves the converter valid, the k-th returned element is the conversion of the column that belongs to the k-th non-void requested type (through the column selection if one is active), and every one of these columns converted and passed its restriction; conversely, if the column count fits and all do, convert is valid.", "quantifier": "all type lists with void anywhere, all column selections, all lines", "why_tests_cant": "arbitrary interleavings of void, restrictions and selections", "anchors": ["include/ss/converter.hpp: extract_multiple, extract_one, column_position, extract_tuple"]}
{"id": "C21", "title": "The first failing column is the one reported", "statement": "When the column count fits but some column fails, the error (message or exception) names the position and the exact text of the first failing column, and says whether conversion or validation failed.", "quantifier": "all type lists, all lines", "why_tests_cant": "combinations of failing columns", "anchors": ["include/ss/converter.hpp: extract_one, error_sufix, handle_error_invalid_conversion, handle_error_validation_failed"]}
{"id": "C22", "title": "A failed conversion returns default constructed objects", "statement": "README: if a conversion could not be applied the method returns a tuple of default constructed objects.", "quantifier": "all type lists, all lines", "why_tests_cant": "depends on which column fails", "anchors": ["include/ss/converter.hpp: extract_tuple, extract_multiple"]}
{"id": "C23", "title": "A converter has no memory", "statement": "The validity and value of convert(line) depend only on the setup, the delimiter, the requested types, the column selection and the line - not on previously converted or split lines, errors or exceptions.", "quantifier": "all histories of split/convert calls, all lines", "why_tests_cant": "histories are unbounded; stale error or split state shows only after particular sequences", "anchors": ["include/ss/converter.hpp: split, convert, clear_error", "include/ss/splitter.hpp: split, clear_error"]}
{"id": "C24", "title": "Exceptions and error flags agree (converter)", "statement": "With throw_on_error convert throws exactly when the other modes become invalid, with string_error's message as text, and otherwise returns the same value; bool and string error modes agree on validity and value.", "quantifier": "all setups, histories, lines, type lists", "why_tests_cant": "three code paths must agree everywhere", "anchors": ["include/ss/converter.hpp: handle_error_*", "include/ss/splitter.hpp: handle_error_*"]}
{"id": "C25", "title": "get_next returns the rows of the input in order", "statement": "Without multiline, for any data (file or buffer), the k-th get_next converts exactly the k-th line of the data (line terminator LF or CRLF removed), independent of the types used and errors met in earlier calls.", "quantifier": "all data, all setups without multiline, all sequences of type lists", "why_tests_cant": "unbounded data and call histories; buffers are reused and swapped", "anchors": ["include/ss/parser.hpp: get_next, reader::read_next, reader::remove_eol, reader::update", "include/ss/common.hpp: get_line"]}
{"id": "C26", "title": "LF and CRLF data parse alike", "statement": "Replacing any subset of the line terminators of the data by the other kind (LF/CRLF) does not change the outcome of any get_next (without multiline).", "quantifier": "all data, all mixes of terminators", "why_tests_cant": "all mixes of terminators", "anchors": ["include/ss/parser.hpp: reader::remove_eol"]}
{"id": "C27", "title": "A missing final newline does not matter", "statement": "Data with and without a terminator behind the last line gives the same sequence of outcomes and the same end of file.", "quantifier": "all data", "why_tests_cant": "all data", "anchors": ["include/ss/common.hpp: get_line_buffer", "include/ss/parser.hpp: reader::read_next"]}
{"id": "C28", "title": "End of file is final", "statement": "Once eof() is true it stays true under every sequence of calls, and every later get_next is an error that returns no data.", "quantifier": "all data, all call sequences", "why_tests_cant": "unbounded histories", "anchors": ["include/ss/parser.hpp: eof, get_next, read_line, handle_error_eof_reached"]}
{"id": "C29", "title": "The reading loop terminates after one call per row", "statement": "while(!p.eof()) p.get_next() ends after exactly as many calls as the data has rows, and every call on which eof() is false consumes at least one line.", "quantifier": "all data, all type lists, all error modes", "why_tests_cant": "must hold for all data, including malformed rows and embedded NUL bytes", "anchors": ["include/ss/parser.hpp: get_next, read_line, ignore_next"]}
{"id": "C30", "title": "position() and line() locate the next row", "statement": "Before a get_next, position() is the byte offset of the line it will read and line() the number of lines before it, counting lines skipped as empty, ignored or joined into multiline rows.", "quantifier": "all data, all call sequences before end of file", "why_tests_cant": "sums over arbitrary histories", "anchors": ["include/ss/parser.hpp: line, position, reader::read_next, append_next_line_to_buffer"]}
{"id": "C31", "title": "File mode and buffer mode are equivalent", "statement": "Parsing a file and parsing a buffer with the same contents give the same values, validity, error text, eof() and line() for every sequence of calls, and the same position() up to the end of file.", "quantifier": "all contents, all call sequences, all growth policies of getline", "why_tests_cant": "two independent line readers with different buffer management", "anchors": ["include/ss/common.hpp: get_line, get_line_file, get_line_buffer", "include/ss/parser.hpp: parser constructors"]}
{"id": "C32", "title": "ignore_empty drops exactly the empty lines", "statement": "With ignore_empty the rows delivered are those of the same data with the empty lines between rows removed (with multiline an empty line inside a row belongs to the row), with the same outcomes.", "quantifier": "all data", "why_tests_cant": "runs of empty lines anywhere, also at the ends", "anchors": ["include/ss/parser.hpp: ignore_empty, reader::read_next"]}
{"id": "C33", "title": "Skipping rows is exact and keeps eof() truthful", "statement": "ignore_next (and ignore_header) skips exactly one row; if rows remain the next get_next returns the following one, and if none remains eof() becomes true.", "quantifier": "all data, all call sequences", "why_tests_cant": "only shows when the skipped row is the last one", "anchors": ["include/ss/parser.hpp: ignore_next, parser constructors, use_fields"]}
{"id": "C34", "title": "use_fields selects columns by name", "statement": "After a successful use_fields(f1..fk), each row of the header's width yields as its i-th value the conversion of the column whose header is fi; other rows are errors; selecting the fields in another order permutes the values accordingly.", "quantifier": "all headers, all field lists, all rows", "why_tests_cant": "all permutations and subsets of columns", "anchors": ["include/ss/parser.hpp: use_fields, header_index, split_header_data", "include/ss/converter.hpp: set_column_mapping, column_position"]}
{"id": "C35", "title": "use_fields fails exactly on bad arguments and then changes nothing", "statement": "use_fields succeeds iff the header splits, has no duplicate name, the argument list is non-empty without repetition and every name is in the header; a failing call leaves the selection and the reading position unchanged, and repeating it fails again.", "quantifier": "all headers, argument lists, call sequences", "why_tests_cant": "combinatorics of headers and arguments, and repeated calls after an error", "anchors": ["include/ss/parser.hpp: use_fields, split_header_data, handle_error_duplicate_header_field"]}
{"id": "C36", "title": "field_exists, header and raw_header agree with the first line", "statement": "raw_header is the first line; header() is its split; field_exists(f) holds iff f is an element of header() (for headers without duplicates); none of them changes what later rows return.", "quantifier": "all headers, all names, all call sequences", "why_tests_cant": "all headers and interleavings", "anchors": ["include/ss/parser.hpp: raw_header, header, field_exists, strict_split"]}
{"id": "C37", "title": "A multiline row is the shortest run of lines that completes it", "statement": "With multiline a row is the split of the concatenation of consecutive lines with their original terminators, taken up to the first line at which no escape and no quote is left open; the next row starts on the following line.", "quantifier": "all data, all multiline setups with escape and/or quote", "why_tests_cant": "rows span arbitrarily many lines with shifts, re-allocation and buffer concatenation in between", "anchors": ["include/ss/parser.hpp: reader::parse, append_next_line_to_buffer, undo_remove_eol, realloc_concat, escaped_eol", "include/ss/splitter.hpp: resplit"]}
{"id": "C38", "title": "multiline_restricted bounds the rows", "statement": "With multiline_restricted<N> a row is made of at most N+1 lines; a row needing more is an error, a row needing at most N+1 is unaffected by the limit.", "quantifier": "all N, all data", "why_tests_cant": "all N and line counts", "anchors": ["include/ss/parser.hpp: multiline_limit_reached, reader::parse"]}
{"id": "C39", "title": "A bad row does not influence other rows", "statement": "The outcome of a row depends only on its own text (plus the selected fields): after a row that fails to split or convert, all following rows have the outcomes they would have had if the bad row had been a good one (without multiline).", "quantifier": "all data, all call sequences, all error modes", "why_tests_cant": "stale error state can surface many rows later because buffers and converters alternate", "anchors": ["include/ss/parser.hpp: get_next, reader::update, reader::read_next", "include/ss/converter.hpp: clear_error, split"]}
{"id": "C40", "title": "string_view results stay valid until the next row is read", "statement": "The bytes a get_next result points into are unchanged and still allocated until the next call that reads a row, also when line(), eof(), ignore_next, use_fields or header calls happen in between.", "quantifier": "all data, all setups, all such intermediate calls", "why_tests_cant": "a lifetime property over all interleavings; tests cannot observe dangling reads reliably", "anchors": ["include/ss/parser.hpp: reader::update, get_next, read_line"]}
{"id": "C41", "title": "Substitute conversions take the first alternative that fits", "statement": "In try_next(...).or_else(...)...: at most one optional is engaged, it is the first alternative whose conversion (and callback) succeeds on the current row, parser.valid() holds afterwards iff one is engaged, callbacks of later alternatives are not invoked, and exactly one row is consumed.", "quantifier": "all chains of alternatives and callbacks, all rows, all parser histories", "why_tests_cant": "unbounded chains and histories, including chains started at end of file", "anchors": ["include/ss/parser.hpp: composite, try_next, or_else, try_invoke, composite_with, try_same"]}
{"id": "C42", "title": "Iterating equals looping", "statement": "for (x : p.iterate<...>()) visits exactly the values that while(!p.eof()) p.get_next<...>() returns, in the same order, and leaves the parser in the same state.", "quantifier": "all data, all parser states", "why_tests_cant": "all data", "anchors": ["include/ss/parser.hpp: iterable, iterator::operator++, begin, end"]}
{"id": "C43", "title": "Setup options are order independent and conflicts are rejected", "statement": "Permuting the setup options gives an equivalent setup; trim is the same as trim_left plus trim_right with the same characters; a setup compiles iff no special character is shared by quote, escape and trim, NUL is not used, options are not repeated, and multiline comes with quote or escape.", "quantifier": "all option lists", "why_tests_cant": "all permutations of option packs", "anchors": ["include/ss/setup.hpp: setup, get_matcher, matches_intersect"]}
{"id": "C44", "title": "Reading a line from a buffer is exact and in bounds", "statement": "get_line on a data buffer returns exactly the next line including its terminator, NUL terminated, advances by its length, and never writes outside the line buffer while growing it.", "quantifier": "all data, all initial buffer sizes and positions", "why_tests_cant": "off-by-one at each doubling of the buffer", "anchors": ["include/ss/common.hpp: get_line_buffer, strict_realloc"]}
{"id": "C45", "title": "The portable line reader equals POSIX getline", "statement": "On data without NUL bytes the non-unix get_line_file returns the same lines as getline, for lines of any length, staying in its buffers.", "quantifier": "all NUL-free data", "why_tests_cant": "line lengths around each multiple of the chunk size", "anchors": ["include/ss/common.hpp: get_line_file (non unix)"]}
{"id": "C46", "title": "Float conversion in the single header build stays in its buffer", "statement": "With SSP_DISABLE_FAST_FLOAT, converting a column of any length to float/double never writes outside its local buffers, and rejects texts that are not entirely consumed by strtod.", "quantifier": "all column texts of all lengths", "why_tests_cant": "only one length may fail", "anchors": ["include/ss/extract.hpp: to_num (SSP_DISABLE_FAST_FLOAT)"]}
{"id": "C47", "title": "Exceptions and error flags agree (parser)", "statement": "For every sequence of get_next/ignore_next calls, throw_on_error throws exactly where the other modes are invalid afterwards, returns the same values otherwise, and reports the same text (file, line number and cause).", "quantifier": "all data, all call sequences", "why_tests_cant": "three code paths and different buffer handling on the error path", "anchors": ["include/ss/parser.hpp: get_next, decorate_rethrow, handle_error_invalid_conversion"]}
{"id": "C48", "title": "Moving parsers neither leaks nor frees twice", "statement": "Under any sequence of constructions, move constructions, move assignments and destructions, each line buffer and file handle is released exactly once.", "quantifier": "all sequences of moves", "why_tests_cant": "all histories", "anchors": ["include/ss/parser.hpp: reader move constructor, reader::operator=, ~reader"]}
{"id": "C49", "title": "A parser built from a null buffer is safely at end of file", "statement": "After constructing from a null pointer (any size) every call is safe: eof() is true, get_next is an error.", "quantifier": "all sizes, all call sequences", "why_tests_cant": "undefined behaviour is not observable by a passing test", "anchors": ["include/ss/parser.hpp: parser(const char*, size_t), ignore_next", "include/ss/common.hpp: get_line_buffer"]}
{"id": "C50", "title": "multiline does not change the converter", "statement": "README: multiline has no impact on the converter.", "quantifier": "all lines, all setups", "why_tests_cant": "all lines", "anchors": ["include/ss/converter.hpp: convert", "include/ss/splitter.hpp: read_quoted"]}
{"id": "C51", "title": "The header row is never delivered as data after use_fields", "statement": "After use_fields succeeded right after construction, the first get_next returns the row following the header.", "quantifier": "all data, setups including ignore_empty", "why_tests_cant": "depends on empty lines before the header", "anchors": ["include/ss/parser.hpp: use_fields, line"]}
{"id": "C52", "title": "An embedded NUL ends the row", "statement": "A NUL byte inside a line ends the row there: the columns are those of the text before it and no later byte of that line influences any result. With multiline the same holds of the whole row (its lines joined), as long as no NUL byte is inside a quoted field that is still open.", "quantifier": "all data with NUL bytes", "why_tests_cant": "all positions of NUL bytes", "anchors": ["include/ss/parser.hpp: reader::parse", "include/ss/converter.hpp: split"]}
{"id": "C53", "title": "Uninitialised memory never influences results", "statement": "No result, error text or eof/line/position value depends on the initial contents of freshly allocated buffers.", "quantifier": "all allocations' contents, all data, all call sequences", "why_tests_cant": "not observable by tests", "anchors": ["include/ss/parser.hpp: reader::realloc_concat", "include/ss/common.hpp: get_line_buffer, strict_realloc"]}
{"id": "C54", "title": "No call on a parser has undefined behaviour", "statement": "For every valid setup, delimiter and input, constructing a parser returns (or throws where the setup says so), and every sequence of get_next, ignore_next, header, raw_header, field_exists, use_fields and guarded try_next/or_else calls returns: no call reads or writes outside its buffers, uses a dangling pointer or fails to terminate.", "quantifier": "all setups, inputs (file or buffer), delimiters, requested types, call sequences", "why_tests_cant": "A test runs finitely many inputs and call sequences; memory errors depend on buffer sizes and contents.", "anchors": ["include/ss/parser.hpp: parser, reader", "include/ss/splitter.hpp", "include/ss/converter.hpp", "include/ss/common.hpp: get_line"]}
{"id": "C55", "title": "A written table is read back", "statement": "Write any table (rows of at least one field, fields any bytes but NUL) row by row: each field between quotes with inner quotes doubled and escape characters escaped, or as it is if it has no special characters; fields separated by the delimiter, rows ended by LF or CRLF. A parser with quote and multiline (or without multiline if no field contains a line feed) delivers exactly the rows of the table: the k-th get_next returns the conversions of the k-th row's fields, and eof() is true from the last row on.", "quantifier": "all tables, all choices of quoting and terminators, all requested types the fields convert to, buffers and files", "why_tests_cant": "ranges over all field contents, including quotes, escapes, delimiters and terminators in any combination, and over tables of any size", "anchors": ["include/ss/parser.hpp: parser::get_next, reader::parse, append_next_line_to_buffer", "include/ss/splitter.hpp: splitter::split, resplit"]}
{"id": "C56", "title": "on_error is called exactly when nothing succeeded so far", "statement": "In a chain try_next(...) followed by or_else(...) and on_error(...) in any order, the callback of an on_error is called iff no conversion before it in the chain succeeded, it is given the error text of the chain up to there, and on_error changes neither the values nor the state of the parser.", "quantifier": "all chains, all parser states, all inputs", "why_tests_cant": "chains of any length over all rows and parser states", "anchors": ["include/ss/parser.hpp: composite::on_error, composite::or_else, composite_with, parser::try_next"]}
{"id": "C57", "title": "The type of a row", "statement": "For every list of requested types: the result of convert/get_next (and of each optional of try_next/or_else) has one element for each requested type that is not void, in the order of the request, of that type (a restriction stands for the type it restricts); a single element is not wrapped in a tuple; requesting std::tuple<Ts...> is requesting Ts...; each conversion is stored in the element of its own type; whatever is returned, also after an error, is a value of each of these types (integers in range). The header of a parser is split with the parser's options without multiline.", "quantifier": "all packs of requested types and of options, all lines, all parser states", "why_tests_cant": "packs of types of every length and composition; a test instantiates a few of them", "anchors": ["include/ss/type_traits.hpp: tup_cat, apply_trait, remove_false, filter_if, filter_not, count, all_of, left_of_impl, right_of_impl", "include/ss/converter.hpp: no_void_validator_tup, extract_multiple, extract_tuple", "include/ss/parser.hpp: header_splitter", "include/ss/setup.hpp: setup"]}
{"id": "C58", "title": "A written table is read back by column name and type", "statement": "Write a header (names on one line, no name twice) and any table below it, as in C55. A new parser told use_fields with any names of the header, in any order, succeeds, does not deliver the header as a row, and the k-th get_next returns the conversions of the fields with these names of the k-th row, in the order given, exactly if the row has as many fields as the header and these fields convert; eof() is true from the last row on. If the fields are printed values (integers in decimal, bools as 0/1/true/false, chars, texts, optionals, variants), reading with the columns' types returns the values. The last row needs no terminator.", "quantifier": "all tables, headers, selections, value types, choices of quoting and terminators, buffers and files", "why_tests_cant": "ranges over all field contents, all selections and table sizes", "anchors": ["include/ss/parser.hpp: parser::use_fields, get_next, split_header_data, reader::parse", "include/ss/converter.hpp: set_column_mapping, convert", "include/ss/extract.hpp: extract"]}
{"id": "C59", "title": "Objects are the constructor applied to the row", "statement": "convert_object, get_object, try_object/or_object (alone or mixed in one chain) and iterate_object return the object that the user's constructor makes of the values that convert, get_next, try_next/or_else and iterate would return for the same types, and leave the converter or parser in the same state; in a chain the first alternative that converts the row and whose callback does not refuse the object wins, its callback is called once with that object, and no later alternative is tried.", "quantifier": "all constructors, requested types, chains of alternatives, inputs and parser states", "why_tests_cant": "ranges over all constructors, chains and rows", "anchors": ["include/ss/converter.hpp: converter::convert_object, to_object", "include/ss/parser.hpp: get_object, try_object, composite::or_object, iterable::iterator, iterate_object, try_invoke"]}
{"id": "C60", "title": "An exception of the user's code costs at most its row", "statement": "If a conversion, validator or callback supplied by the user throws an exception of its own out of get_next, try_next, or_else or on_error, the parser stays usable: the next call reads the row that follows. If nothing is thrown, the possibility of throwing changes nothing.", "quantifier": "all rows and positions in the input, all requests, all error modes, buffers and files, multiline or not", "why_tests_cant": "the exception may strike at any row and column of any input, in any state of the parser", "anchors": ["include/ss/parser.hpp: parser::get_next, read_line, reader::update, try_next, try_invoke", "include/ss/converter.hpp: extract_one, extract_multiple, convert_impl"]}
{"id": "C61", "title": "Moving a parser in the middle of reading changes nothing", "statement": "Move construct or move assign a parser at any point of its life, any number of times, in between any calls and among any number of parsers of one type: the sequence of results seen of each input (rows, errors, eof(), line(), position(), exceptions) is that of one parser that is never moved. A parser that was moved from can be assigned to and destroyed.", "quantifier": "all programs of moves, calls and destructions over any number of parsers, all inputs and states, multiline or not", "why_tests_cant": "a member that is not carried over shows only for particular states at the moment of the move", "anchors": ["include/ss/parser.hpp: parser(parser&&), operator=(parser&&), reader(reader&&), reader::operator=(reader&&), ~reader"]}
{"id": "C62", "title": "Iterators of a parser are handles on its reading position", "statement": "In a program that holds any number of iterators of one parser (from begin(), copies, results of the postfix ++), increments them in any order and calls the parser in between, each increment either is exactly one get_next call on the parser, whose result is the new value of that iterator alone, or gives the end without touching the parser; it gives the end exactly if the iterator was at the end or eof() was true. An iterator at the end stays there. So the values seen through all iterators together are the rows of the input, each once, in order.", "quantifier": "all programs over iterators, all inputs, requested types, error modes, buffers and files", "why_tests_cant": "ranges over all interleavings of increments, copies and calls", "anchors": ["include/ss/parser.hpp: iterable, iterable::iterator::operator++, operator==, begin, end, iterate"]}
{"id": "C63", "title": "Data appended to the input changes nothing of what was read before", "statement": "Take two inputs, the second being the first with bytes appended (a log that is still written, a download cut off). As long as the last complete line of the shorter input has not been passed (line() is less than the number of its newlines), the same calls on a parser of each return the same values, set the same errors, throw the same exceptions and report the same eof(), line() and position(). The parser reads at most one line further than what it returned.", "quantifier": "all inputs and continuations, all histories of calls, all setups including multiline, all error modes, files and buffers", "why_tests_cant": "ranges over all continuations of an input; a reader that looks too far ahead shows only for particular ones", "anchors": ["include/ss/parser.hpp: reader::read_next, reader::append_next_line_to_buffer, read_line, get_next", "include/ss/common.hpp: get_line_file, get_line_buffer, get_line"]}
{"id": "C64", "title": "Memory for lines is bounded by the longest line or row, not by the input", "statement": "However long the input is and whatever is called, the parser holds three blocks for lines, and each of them is at most the greater of 128 bytes and twice the longest line with its terminator (plus what the getline of the system allocates too much) when multiline is not used; with a multiline restriction to m additional lines, also (m+1) lines plus 3 bytes, even if a quote is never closed; with unrestricted multiline, also the size of the input plus 3 bytes.", "quantifier": "all inputs, all histories of calls, all setups and error modes, files (both implementations of getline) and buffers", "why_tests_cant": "a bound on memory over all inputs and histories; tests see single sizes", "anchors": ["include/ss/common.hpp: get_line_file, get_line_buffer, strict_realloc, get_line_initial_buffer_size", "include/ss/parser.hpp: reader::realloc_concat, append_next_line_to_buffer, multiline_limit_reached, read_next, update"]}
{"id": "C65", "title": "When memory runs out, calls do what they should or throw std::bad_alloc, and the parser stays usable", "statement": "Whatever requests for larger line buffers are refused, a constructor or call does exactly what it does when none is refused (and then none was refused during it), or std::bad_alloc leaves it; std::bad_alloc leaves it only if a request was refused during the call (or errno was ENOMEM before). After std::bad_alloc the parser can still be used: every call is defined, and get_next goes on with rows of the input that begin at position().", "quantifier": "all sequences of refused requests, all values of errno between the calls, all inputs, histories of calls, setups, error modes, files (both implementations of getline) and buffers", "why_tests_cant": "allocation failures can strike at any request of any history; tests do not inject them", "anchors": ["include/ss/common.hpp: strict_realloc, get_line_file, get_line_buffer, get_line", "include/ss/parser.hpp: reader::read_next, reader::realloc_concat, reader::append_next_line_to_buffer, read_line, get_next, ignore_next"]}
{"id": "C66", "title": "Callbacks of a loop see each row once, in order, and with its values", "statement": "In try_next(f) followed by any or_else(f) and on_error(f), with callbacks that read and change data of the program: the row is offered to the alternatives one after the other; a callback is called at most once, with the values of the row (as one object or one by one, or without arguments if it can be called so), exactly if the row converts to its types and no earlier alternative took the row; if it returns false the row is offered on; what it does to the data of the program and to the values stays; on_error is called exactly if no alternative before it took the row. A loop over the parser so calls the callbacks for each row of the input, once and in order, and never for anything else.", "quantifier": "all callbacks with any effects, all chains, all inputs, setups without throw_on_error (multiline included, for complete rows), all states of the parser", "why_tests_cant": "which callbacks are called with what, and in which order, depends on the whole input and on what earlier callbacks did", "anchors": ["include/ss/parser.hpp:parser::composite::or_else", "include/ss/parser.hpp:parser::composite::on_error", "include/ss/parser.hpp:parser::try_invoke", "include/ss/parser.hpp:parser::try_invoke_impl", "include/ss/parser.hpp:parser::try_next"]}
{"id": "C67", "title": "Reading can be resumed at position()", "statement": "What a parser does next depends only on the text behind position(), its setup and its column selection, not on what came before. Two parsers with the same setup, delimiter and column selection that have the same text with a row ahead give the same rows and the same failures for every sequence of get_next and try_next(...).or_else(...), see the end of the input with the same call, and until then move by the same numbers of lines and bytes. So a program that remembered position() and was interrupted can make a new parser of the text from there on (with ignore_header: behind any header line), and reads exactly the rows the old parser would still have delivered.", "quantifier": "all pairs of inputs and all histories of calls on both parsers, all setups (multiline included, or_else for complete rows), all later sequences of row reading calls", "why_tests_cant": "any interruption point in any input after any history, with state left over in two line buffers, two converters and counters", "anchors": ["include/ss/parser.hpp:parser::position", "include/ss/parser.hpp:parser::line", "include/ss/parser.hpp:parser::get_next", "include/ss/parser.hpp:parser::reader::read_next", "include/ss/parser.hpp:parser::reader::parse"]}
{"id": "C68", "title": "A file that cannot be read to its end", "statement": "When the system fails to read a file behind some byte (medium error, lost network drive), every call made before the last line that can be read to its end was passed returns exactly what it returns for the intact file; from then on the failure is reported as an error, is not taken for the end of the file, and no part of a line is delivered as a row.", "quantifier": "all files, all places of the failure, all setups and histories of calls, both implementations of the line reader", "why_tests_cant": "the failure can be at any byte, relative to line ends, pieces of 127 bytes, rows of several lines and the line read ahead; unit tests do not produce failing reads at all", "anchors": ["include/ss/common.hpp:get_line_file", "include/ss/common.hpp:get_line", "include/ss/parser.hpp:parser::reader::read_next"]}
{"id": "C69", "title": "The work of splitting a line is linear in its length", "statement": "Splitting a line takes a number of elementary steps (bytes looked at, bytes moved, columns noted) that is at most a constant, which depends only on the length of the delimiter, times the length of the line, also when it ends with an error; for all lines of a text together it is linear in the text.", "quantifier": "all lines, delimiters and setups (quotes, escapes, trimming), all texts", "why_tests_cant": "a test can time a few inputs; the bound has to hold for every line, in particular for lines made of escapes, doubled quotes and spacing, where bytes are moved and spacing is looked at more than once", "anchors": ["include/ss/splitter.hpp:splitter::split", "include/ss/splitter.hpp:splitter::resplit", "include/ss/splitter.hpp:splitter::match_delimiter", "include/ss/splitter.hpp:splitter::shift_and_set_current", "include/ss/splitter.hpp:splitter::adjust_ranges"]}
{"id": "C70", "title": "The work of reading lines of a data buffer is linear in their length", "statement": "Reading a line of a data buffer takes a number of elementary steps (bytes read, stored, moved by a growing buffer) that is at most a constant times the length of the line plus a constant, and reading all lines of a buffer is linear in its size, however often the line buffer has to grow.", "quantifier": "all data, positions, line buffers and their sizes", "why_tests_cant": "a bound on the work for every length of a line; tests time a few inputs", "anchors": ["include/ss/common.hpp:get_line_buffer", "include/ss/common.hpp:strict_realloc"]}
{"id": "C71", "title": "The work of going through a whole text is linear in its size", "statement": "Going through all rows of a text in a data buffer (without ss::multiline) takes a number of elementary steps for reading and splitting - empty lines that are passed over, refused rows, the growing of both line buffers and the search for the end included - that is at most a constant, which depends only on the length of the delimiter, times the size of the text, plus a constant; and it ends, with as many rows as there are lines to deliver.", "quantifier": "all texts, delimiters and setups without multiline, all error modes", "why_tests_cant": "the costs of growing buffers, of empty lines and of refused rows have to add up to a linear bound for every text; tests time a few inputs", "anchors": ["include/ss/parser.hpp:parser::reader::read_next", "include/ss/parser.hpp:parser::reader::parse", "include/ss/parser.hpp:parser::reader::update", "include/ss/common.hpp:get_line_buffer", "include/ss/splitter.hpp:splitter::split"]}
{"id": "C72", "title": "Rows of several lines and files read with the portable reader: linear too", "statement": "With ss::multiline a row over several lines takes a number of steps that is linear in the length of the row, in how many lines ever it is written; and where POSIX getline is not available, reading a line of a file is linear in its length.", "quantifier": "all rows, all ways they can be cut into lines, all delimiters and setups; all files, lines and line buffers", "why_tests_cant": "the cost depends on the number of lines and the number of columns together, and on the number of pieces of 127 bytes; tests use rows of a few short lines", "anchors": ["include/ss/splitter.hpp:splitter::resplit", "include/ss/splitter.hpp:splitter::adjust_ranges", "include/ss/parser.hpp:parser::reader::realloc_concat", "include/ss/common.hpp:get_line_file"]}
{"id": "C73", "title": "multiline changes nothing for rows of one line", "statement": "If every line of the input is a row for itself (it leaves no quote and no escape open at its end), adding ss::multiline or ss::multiline_restricted<N> to the setup changes nothing: the same sequence of get_next calls returns the same rows, the same rows are refused, and eof() is told at the same call.", "quantifier": "all inputs whose lines are rows for themselves, good or bad, all setups with quotes or escapes, all sequences of requested types", "why_tests_cant": "the multiline code takes part in the reading of every row; that it never joins, cuts or alters a row of one line has to hold for all lines and all rows that came before", "anchors": ["include/ss/parser.hpp:parser::reader::parse", "include/ss/parser.hpp:parser::reader::escaped_eol", "include/ss/splitter.hpp:splitter::read_quoted", "include/ss/setup.hpp:multiline_restricted"]}
{"id": "C74", "title": "An error names the input and the line of its row", "statement": "Whenever a row is refused, the error (error_msg() or the exception) begins with the name of the input and the number, from 1, of the line in which the row ends, as counted by line().", "quantifier": "all inputs, setups (with and without multiline), requested types, and all histories of calls before the refused row", "why_tests_cant": "the line counter is moved by reading ahead, by skipped empty lines, by rows of several lines and by skipped rows; the number has to be right after every combination of them", "anchors": ["include/ss/parser.hpp:parser::handle_error_invalid_conversion", "include/ss/parser.hpp:parser::decorate_rethrow", "include/ss/parser.hpp:parser::line", "include/ss/parser.hpp:parser::composite::try_same", "include/ss/parser.hpp:parser::get_next"]}
{"id": "C75", "title": "An option whose characters do not occur in the input changes nothing", "statement": "Two parsers of the same input whose ss::quote, ss::escape, ss::trim, ss::trim_left and ss::trim_right differ only in characters that do not occur in the input cannot be told apart: every sequence of calls gives the same results, error texts, exceptions, eof(), line() and position(). In particular, if none of their characters occurs, the options can be left out (with multiline, all of them together with multiline). The same for converter::convert of a line.", "quantifier": "all inputs, all pairs of setups that agree on the bytes of the input, all sequences of calls (get_next, try_next, get_object, or_else, iterators, header calls, ignore_next, ...; with multiline, or_else only behind a row that is complete)", "why_tests_cant": "the characters are compared in many places (splitting, trimming, unterminated rows, joining lines, header handling) and in reads beyond the row; that none of them is sensitive to anything but the bytes of the input has to hold for all inputs and all histories", "anchors": ["include/ss/splitter.hpp:splitter::read_normal", "include/ss/splitter.hpp:splitter::read_quoted", "include/ss/splitter.hpp:splitter::trim_left_if_enabled", "include/ss/setup.hpp:matcher", "include/ss/parser.hpp:parser::reader::escaped_eol", "include/ss/parser.hpp:parser::reader::parse"]}
{"id": "C76", "title": "A file that cannot be opened", "statement": "Constructing a parser of a file that cannot be opened throws \"<file>: could not be opened\" with throw_on_error; without it the parser is invalid with that error_msg() and at the end of the input. From then on no sequence of calls - also get_next, ignore_next, use_fields and composites (try_next, or_else, on_error) made without looking at eof() or valid() - crashes, throws or delivers anything: eof() stays true, line() and position() stay 0, get_next and every alternative of a composite are errors with the text \"<file>: read on end of file\", no callback of an alternative is called, ignore_next returns false, the header is empty.", "quantifier": "all file names, all setups, all sequences of calls on the parser", "why_tests_cant": "tests only try a call or two behind the failed constructor; that no combination of header calls, skipped lines and chained alternatives reads the buffers that were never allocated has to hold for all histories", "anchors": ["include/ss/parser.hpp:parser::parser(const std::string&, const std::string&)", "include/ss/parser.hpp:parser::get_next", "include/ss/parser.hpp:parser::ignore_next", "include/ss/parser.hpp:parser::composite::or_else", "include/ss/parser.hpp:parser::reader::read_next", "include/ss/common.hpp:get_line_buffer"]}
{"id": "C77", "title": "Questions about the header do not disturb reading", "statement": "header(), raw_header() and field_exists(name) may be called at any point between other calls without those noticing: every get_next, ignore_next, use_fields and composite returns (or throws) what it would have returned had nothing been asked, the same rows are read, and eof(), line(), position() and - behind a call that judges - valid() and error_msg() are the same as without the questions.", "quantifier": "all inputs, all setups, all error modes, all sequences of calls with any number of questions inserted at any points", "why_tests_cant": "tests ask a question at one or two fixed points (usually right after the construction); that no placement among reads, failed rows, selections and skipped lines changes what is read has to hold for all histories", "anchors": ["include/ss/parser.hpp:parser::header", "include/ss/parser.hpp:parser::raw_header", "include/ss/parser.hpp:parser::field_exists", "include/ss/parser.hpp:parser::split_header_data", "include/ss/parser.hpp:parser::use_fields", "include/ss/parser.hpp:parser::get_next"]}
{"id": "C78", "title": "The last use_fields counts", "statement": "After a successful use_fields(fs...), a further use_fields(gs...) replaces the selection completely: if it succeeds, everything observed from then on - rows, errors, validity, line(), position(), eof(), of any sequence of calls - is what would have been observed had use_fields(fs...) not been called. In particular the header line is skipped once, not once per use_fields.", "quantifier": "all inputs, all setups and error modes, all histories before the two calls, all field lists, all sequences of calls afterwards", "why_tests_cant": "a test compares one or two pairs of selections on one file; that no trace of the first selection (mapping of either buffer, number of columns, line count, position) survives in any later call has to hold for all histories", "anchors": ["include/ss/parser.hpp:parser::use_fields", "include/ss/parser.hpp:parser::ignore_next", "include/ss/converter.hpp:converter::set_column_mapping"]}
{"id": "C79", "title": "Every read advances", "statement": "line() never decreases, and every get_next, ignore_next and composite (try_next ...) made before the end of the input was found increases it - whether it delivers a row, reports an error or throws, with any setup (multiline included) and behind any calls. So as long as eof() stays false, at most as many such calls were made as line() says: no call ever stands still in front of a row.", "quantifier": "all inputs that exist, all setups and error modes, all types asked for, all histories of calls", "why_tests_cant": "a loop that stands still shows only for the one combination of a failing row, an error mode and a history that a test happens to contain; that no combination exists is a statement about all histories", "anchors": ["include/ss/parser.hpp:parser::get_next", "include/ss/parser.hpp:parser::ignore_next", "include/ss/parser.hpp:parser::line", "include/ss/parser.hpp:parser::reader::read_next", "include/ss/parser.hpp:parser::try_next"]}
{"id": "C80", "title": "position() never goes back", "statement": "position() never decreases from one call to the next and never exceeds the size of the input as long as there is a next row - for a buffer, ever - and every get_next, ignore_next and composite made while there is a next row increases it. A program that notes position() behind each call notes a sorted list of offsets into the input.", "quantifier": "all inputs that exist, all setups and error modes, all types asked for, all histories of calls", "why_tests_cant": "rows of several lines, skipped, empty, bad and ignored rows all move the offset by other code paths; a test tries one sequence of them", "anchors": ["include/ss/parser.hpp: position, reader::read_next, reader::append_next_line_to_buffer"]}
