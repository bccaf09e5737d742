# Design: a Lean 4 model of red0124/ssp

## Shape of the model

All of it is executable, total Lean code under `lean/Verif/`, written function by function after `/repo/include/ss`.

* **Bytes** are `UInt8`, a C string / heap buffer is a `List Byte`, a pointer into it is an offset. Every read and
  write goes through a bounds check; an access outside the buffer is the explicit outcome `Res.ub`. A C++ exception is the
  explicit outcome `Res.exc` and carries the state at the throw. Loops take a fuel argument; running out of fuel is the
  explicit outcome `Res.nofuel`, and termination is the theorem that this outcome never occurs for the fuel the model passes.
* **Setup** (`setup.hpp`): option lists, resolution to a `Cfg` record, static asserts as a decidable predicate.
* **Splitter** (`splitter.hpp`): in-place memory model with `begin_/curr_/end_/escaped_`, `split`, `resplit`.
* **Extraction** (`extract.hpp`, `restrictions.hpp`): integers by the `std::from_chars` contract, bool, char, string,
  optional, variant, user-defined conversions as arbitrary functions (floating point is one of these), the `strtod` fallback
  as buffer code around an abstract `strtod`.
* **Converter** (`converter.hpp`): error modes, column mapping, `convert`.
* **Line readers** (`common.hpp`): `get_line_buffer` with its growth loop, POSIX `getline` by its contract, the portable
  `fgets` based reader.
* **Parser** (`parser.hpp`): reader with two line buffers/converters and a helper buffer, `read_next`, `parse`, `update`,
  `get_next`, `ignore_next`, header functions, `use_fields`, composites, iterators, moves.

## Layers and proof method

1. *Memory model* -> *pure splitter* (`SplitSpec`): a left-to-right function on the raw text that builds the fields as fresh
   lists. The refinement (invariant on the shifting buffer, induction on the remaining text) gives C01, C03, C07.
2. Properties of the pure splitter by induction on the text / field list: C02, C04-C06, C08-C12.
3. Conversion laws (C13-C22) directly on the extraction/conversion functions, against small independent specifications.
4. *Parser model* -> *row machine*: an abstract machine whose state is the list of unread lines; C23-C42, C47-C53 follow.

Properties the code violates are kept: the negation is proved on a concrete witness, and the part that does hold is proved
with a `_partial` theorem.

The table property -> theorems, with what is missing of each, is `MANIFEST.json` (written by `scripts/manifest.py`).

## Plan per property

| id | modelled by | proof |
|----|-------------|-------|
| C01 | splitter memory model, `Res.ub`/`Res.nofuel` outcomes | refinement: the outcome is never ub/nofuel; memory frame |
| C02 | pure splitter, no specials | induction on text; independent `join` |
| C03 | splitter memory model | refinement frame lemma |
| C04 | pure splitter + encoder spec | induction on field contents and field list |
| C05 | pure splitter + encoder spec | same |
| C06 | pure splitter, trims only | induction; `dropWhile`-style trim spec |
| C07 | memory model vs pure splitter | loop invariant on the shifting region |
| C08-C10 | pure splitter | induction on the quoted content |
| C11 | pure splitter | violated with trim_right: witness; `_partial` without trim_right |
| C12 | resplit memory model vs pure splitter | resume lemma, induction on number of pieces |
| C13-C14 | from_chars model | digit induction |
| C15-C18 | extraction model | case analysis / induction on packs |
| C19-C21 | converter model | induction on the column list |
| C22 | converter model | violated: witness; `_partial`: defaults (`Spec/Returned.Blanks`, an inductive list of what `T{}` is) for bad splits, wrong counts and at the end of the file; `Spec/Returned.Returned`: what exactly is returned when a column is refused |
| C23-C24 | converter model, all histories | state-independence lemma; simulation between modes |
| C25-C36, C39 | parser model | refinement to the row machine, induction on operation lists |
| C37-C38 | parser model with multiline | refinement with resume lemma |
| C40 | parser model, allocation generations | frame lemma |
| C41 | composite model | induction on the chain; violated at EOF: witness |
| C42 | iterator model | induction on rows |
| C43 | option-list model | case analysis of the static asserts against `Legal`; permutation lemmas; `Means`: each member of the setup is determined by one option |
| C44-C45 | line reader models | loop invariants |
| C46 | strtod fallback model | violated for length 64: witness; `_partial` otherwise |
| C47 | parser model in two modes | simulation; line number violated with ignore_empty: witness |
| C48 | ownership model | invariant over op lists; leak witness |
| C49-C54 | parser model | witnesses / corollaries of the refinement |
| C55 | parser model + writer spec (`Spec/Write`) | a terminator in a written row is inside quotes (induction on the fields), so the rows of C37 are the written ones |
| C56 | composite model with `on_error` links | induction on the chain |
| C57 | type functions on packs of types (`Model/Types`) | induction on packs; every call returns well typed values |
| C58 | written header and table, printed values (`Spec/Table`) | from C55, C34, C51 (multiline or not), C13–C17 for printed values, C27 for an open last row |
| C59 | calls that return objects (`Model/Object`), the constructor an arbitrary function | simulation by the calls that return tuples |
| C60 | calls that an exception of the user's code may leave (`Model/UserThrow`: such a call returns `none`) | state after the exception = state after reading the row as strings, up to `ignore_next()`; violated without it: witnesses; composites: a composite that is left = one that is not (`or_else` to strings, or without the callback), so the state is one of an ordinary life |
| C61 | the special member functions as copies of each member (`Model/Move`), programs of moves and calls | simulation: who holds which input |
| C62 | programs with several iterators (`Model/Iterators`) | induction on programs; with C25/C37 for the rows |
| C63 | the whole parser on two inputs, the second with bytes appended (`Src.Grown`) | the two run in lockstep through every function (`Proofs/Grow`, `Proofs/GrowParser`) until a read meets the part behind the last LF; the line counter tells |
| C64 | sizes of the line buffers (`Parser.blocks`) | Hoare triples through every function (`Proofs/Memory`): the buffers are bounded, and the row in the next line buffer is not longer than its lines |
| C65 | `Model/Oom`: every function that reads lines again, with requests that may be refused and `errno`; `Life`: histories with `std::bad_alloc` and recovery by `ignore_next` | each function follows its copy in the rest of the model or `std::bad_alloc` leaves it (`Follows`, `Proofs/Oom`); what reading ahead preserves when it fails (`Kin`, `Proofs/OomState`); a machine without knowledge of line numbers (`MLite`, `Proofs/OomSim`) |
| C66 | `Model/Callback`: callbacks as callable objects (what they can be called with, what they do to data of the program and to the values), the choice between the three ways to call them, loops; `Spec/Callback`: `Offered`, `OfferedAll` | a callback at given data is a pure one, so the chain up to each alternative is one of C41 (`Proofs/Callback`, `freeze`); loops by induction over the rows |
| C67 | nothing new; `Spec/Resume`: what is observed of two parsers relative to where they started (`SameAhead`) | `Proofs/Resume`: the shape of the next row (its number of lines and its text) is a function of the raw lines ahead, which shift; one call of each kind keeps the two parsers abreast; induction on the calls |
| C68 | `Model/ReadError`: `getline` and `fgets` by their contracts on a file whose reads fail from some byte on | at the begin of every line the same as a file that ends there (`FailingFile.readable`), induction on the pieces of `fgets`; then C63; violated: witnesses |
| C69 | `Model/SplitCost`: the splitter once more with a count of steps, proved to do the same as `Model/Splitter` | potential argument (`pot`): every step is paid by the bytes passed, induction on the fuel of the loops |
| C70 | `Model/LineCost`: `get_line_buffer` with a count of steps | exact count (two steps for every byte, and the growth of the block), induction on the loop |
| C71 | `Model/ReaderCost`: the reader with a count of steps, proved to do the same as `Model/Reader` | the sizes of the two line buffers as potential, induction on the bytes left; C69 and C70 for the parts |
| C72 | `Model/SplitCost`, `Model/LineCost`: `resplit` and the portable `get_line_file` with a count of steps | rows of several lines by induction on `CountedChain`; portable reader: lower and upper bound; violated by the code: witnesses; POSIX `getline` is not the library's code |
| C73 | the parser with and without multiline on the same input | both sequences of rows are the lines (`C25_sequence`, `C37_sequence`), then line by line as C50; all calls: both parsers refine the same row machine, which parses a one-line row alike (`ParserNoMl`) |
| C74 | `handleErrorInvalidConversion`, `decorateRethrow`, `line()`, read ahead | from the outcome of one `get_next` at any reachable state (`row_core`, `multi_core`); `or_else` for every state of the parser |
| C75 | the same parser with two setups whose characters differ only outside the input | `decodeRow` alike for rows on which the setups agree (`Proofs/DecodeChars`); the row machine with either setup does the same, with the invariant that everything read consists of such characters (`MachineChars`, `MachineCharsRun`); both parsers refine that machine |
| C76 | the parser of the source "no file, no buffer", with calls and unguarded composites in any order | invariant: at the end, both converters were never given a line (their splitters are new, the column mapping is empty or wants a column), the buffers have size 0 (`Props/NoFile`) |
| C77 | two runs of the parser model side by side, one with the questions, one without | relation: equal but for header names already split (which are those of the raw header, or none) and an error that the next call overwrites; calls that judge overwrite it (`Props/Questions`) |
| C78 | `use_fields` twice and once on the same parser state | reading a line commutes with setting the column mapping; the fields accepted depend on the header names only; line counting by the simulation of C63 (`Props/LastSelection`) |
| C79 | every path of a call, with and without an exception | the invariant of C63 (lines counted) and: each path of `get_next` in front of the end reads a line (`Props/Progress`) |
| C80 | `position()` between any two calls | C79 (lines only grow) and C30 (`position()` is the length of the lines in front): `Props/Position`; buffers without any condition: every step of the reader only raises the offsets (`Proofs/Chars`); partial: strictness, and files, for multiline composites in front of rows that cannot be taken up again |

C34-C36, C51 also hold with multiline (`Ctx.HdrOk`), C32 has a multiline version (`Ctx.Kept`).

## Trusted base

* **Lean's kernel** (4.33.0). No axioms are added. Every claimed theorem depends on a subset of `propext`,
  `Classical.choice`, `Quot.sound` (checked with `#print axioms` for all names of `MANIFEST.json`: most need all three, the
  witnesses and some laws fewer). No `native_decide`, no `bv_decide`. Witnesses and non-vacuity examples use
  `decide +kernel`, that is evaluation in the kernel; no universally quantified claim rests on evaluation of samples.
  Mathlib is not imported.
* **The model**: that `Verif/Model/*.lean` says what the C++ code does. Every definition cites the lines it models. This
  cannot be proved here; it was written line by line next to the source. `Verif/Check/*.lean` transcribes the project's own
  test suite (test_splitter, test_converter, test_extractions, test_parser1_1 ... test_parser1_5; the tests were read as text)
  and evaluates it on the model in the kernel, in all error modes and for buffer, `getline` and portable file input: the model
  answers what the authors expect in every one of them. That is validation of the model by tests, not a proof, and no theorem
  uses these modules.
* **The specifications** `Verif/Spec/*.lean`, which say what the theorems mean. They are short and do not use the model's
  loops: lines of a text (`Spec/Lines`), rows by a left-to-right decoder (`Spec/Split`, used by the refinement), a printer of
  rows (`Spec/Write`, `Spec/Table`), numbers by their decimal value (`Spec/Number`), requested types (`Spec/Convert`), reachability and the
  observations of a parser (`Spec/Parser`), views (`Spec/Views`).

## What is modelled

| source | model | notes |
|--------|-------|-------|
| `splitter.hpp` | `Model/Splitter` | in-place memory, `split` (both overloads), `resplit`, `size_shifted`, all error modes, all matchers. |
| `splitter.hpp` | `Model/SplitCost` | the same functions with a count of bytes looked at, bytes moved and columns noted or corrected. |
| `setup.hpp` | `Model/Setup` | option lists (nested `ss::setup<...>`), resolution, the static asserts. Template metaprograms are functions on lists. |
| `extract.hpp` | `Model/Extract`, `Model/Strtod` | integers, bool, char, string, string_view, optional, variant; `std::from_chars` by its contract; the `strtod` fallback of the single-header build as buffer code around an abstract `strtod`. |
| `type_traits.hpp`, `converter.hpp` 17-93 | `Model/Types` | class templates as functions on types, specialisations as cases, an ambiguous or missing specialisation as `none`; not: `function_traits.hpp` (the argument type of `ss_valid` is part of the request). |
| `restrictions.hpp` | `Model/Extract` | `ax`, `nx`, `gt`, `gte`, `lt`, `lte`, `ir`, `oor`, `ne` with C++ integer promotions and conversions of the comparison. |
| `converter.hpp` | `Model/Converter` | `convert` (with and without a line), column mapping, number-of-columns checks, error texts, all modes; user types and user validators are arbitrary functions. |
| `common.hpp` | `Model/Line` | `get_line_buffer`, POSIX `getline` by its contract, the portable `fgets` loop; growth of buffers with arbitrary contents of fresh memory. |
| `common.hpp` 36-43, 53-125 | `Model/LineCost` | the same with a count of bytes read, stored, looked at and moved. |
| `parser.hpp` 842-1018 | `Model/ReaderCost` | the same with a count of bytes looked at, stored and moved (`realloc_concat` moves the whole block, the worst case of `realloc`). |
| `parser.hpp` | `Model/Reader`, `Model/Parser` | constructors, `get_next`, `ignore_next`, `eof`, `line`, `position`, header functions, `use_fields`, iterators, `try_next`/`or_else`/`on_error`, multiline with both buffers and the helper buffer. |
| `converter.hpp` `to_object`, `parser.hpp` objects | `Model/Object` | `convert_object`, `get_object`, `try_object`, `or_object`, `iterate_object`. |
| exceptions of user code | `Model/UserThrow`, `Model/UserThrowChain` | conversions and validators inside `get_next`, callbacks inside `try_next`; conversions, validators and callbacks of `or_else` and `on_error`. |
| `common.hpp` 36-150, `parser.hpp` 37-163, 205-249, 448-520, 842-1018 | `Model/Oom` | the same functions when requests for line buffers may be refused; POSIX `getline` that is refused has read some bytes of the line into the old block. |
| `common.hpp` 45-86, 127-150 | `Model/ReadError` | the line readers on a file whose reads fail from some byte on. |
| `parser.hpp` 356-446, 448-520 | `Model/Callback` | composites whose callbacks have effects, and how they are called. |
| `parser.hpp` 255-343 | `Model/Iterators` | `iterate`, `begin`, `end`, prefix and postfix `++`, copies, `==`. |
| `parser.hpp` 70-72, 776-825 | `Model/Move` | which members the moves carry over, and what they leave behind. |
| `parser.hpp` 764-838 | `Model/Own` | move construction, move assignment, destruction: which object owns which buffer or file. |

Memory: a block is a list of bytes of its real size; each access is checked against it (`Res.ub`). Reallocation keeps the old
contents and appends arbitrary bytes (`Env.junk`); pointers into an old block are recognised by its generation number.

## What is not modelled

* Compilers, templates as such (apart from the type functions of `Model/Types` a call is modelled with its resolved types), `constexpr`/`if constexpr` dispatch errors,
  the build files, `ssp.hpp` (the generated single header; it was compared as text with the headers it is made of and differs in the include lines and in
  `SSP_DISABLE_FAST_FLOAT` only; its `strtod` path is modelled).
* `std::bad_alloc`: allocations succeed, except in C65 (`Model/Oom`), where the requests for line buffers may be refused and `errno`
  is looked at; there the allocations of `std::string` and `std::vector` still succeed.
* Other processes changing the file; a file is a list of bytes.  Failing reads of `FILE*` are modelled for `get_line` only (`Model/ReadError`, failures
  that do not go away): there they are shown to be the same as a shorter file, and the theorems about parsers speak of that file.
* Sizes are natural numbers: no overflow of `size_t`, except `position()` going below zero, which is modelled as in the code's
  effects (modular) only as far as C31 needs it.
* Floating point values: `from_chars`/`fast_float` for floating point types are an arbitrary function from text to a value.
* User conversions and constructors are pure functions, and callbacks too except in C66; exceptions thrown by user code are modelled for `get_next`
  and `try_next(...).or_else(...).on_error(...)` only (C60), not for constructors of objects.
* Locale, `char` signedness (bytes are unsigned; comparisons of the code are for equality only), threads: the library keeps no
  global state and is not thread safe per object; no claim.
* With multiline: what a row of several lines is (C37, C38, C29, C32, C41, C47, C55, C56) is stated for inputs in which no
  NUL byte is inside a quoted field that is still open there (`Ctx.MlOk.quotes`; `C52_nul_in_quote_multiline` shows what
  happens otherwise) and delimiters that do not begin with a quote or escape character or contain no LF/CR (`C37_delimiter_with_end_of_line`: otherwise false); safety, the end of the input, locations, headers
  and the comparisons of two parsers hold for all inputs.  `or_else` after a row that could not be completed is outside
  (it is undefined behaviour in the code: `C54_or_else_after_realloc`).

## Where the code disagrees with the property

Each is a theorem about a concrete run (names in `MANIFEST.json`):

* C10: an escape character behind a closing quote: position off by one, other cause in throw mode.
* C11: with `trim_right`, an escape directly after trimmed spacing is kept.
* C12, C37: the position in "mismatched quote" of a row of several lines is off by the removed escapes.
* C18: restrictions comparing a negative number with an unsigned type wrap.
* C22: after a failed column the values of the columns before it are returned, not defaults.
* C23, C25: the error text of an empty line in string mode can be that of an earlier row.
* C24, C47: causes differ between throw and string mode for a mismatched quote followed by a final escape; line numbers differ
  with `ignore_empty`.
* C31: `position()` in file mode is wrong after the end of the input was hit (decreases with every further read).
* C33: `eof()` stays false after the last row was skipped; with multiline `ignore_next` skips a line, not a row.
* C35: `use_fields` in throw mode after a duplicate header name; at the end of the input it consumes.
* C36: with options wrapped in `ss::setup<...>` the header is split with multiline.
* C37: a NUL behind a doubled quote or an escape in a quoted field of a multiline row: the byte removed before it stays in the buffer and, when it
  is a quote, closes the field after the next line was appended: the next line is lost and the row is valid.
* C41: `or_else` at the end of the input, after a row with too many lines, and (without string_error) after a row open at the
  end of the input converts leftovers.
* C43: repeating `ignore_header`/`ignore_empty` compiles and disables the option.
* C46: `strtod` fallback with exactly 64 bytes writes one byte behind the buffer.
* C48: move assignment leaks the buffers and the file of the assigned-to parser.
* C49: a null buffer: `ignore_next` and `use_fields` dereference null.
* C50: with multiline a bare converter accepts an unterminated quote.
* C51: blank lines before the header with `ignore_empty` make the header appear as data.
* C54: `or_else` after an unfinished multiline row reads freed memory.
* C59: constructors of objects are called for rows that failed, with partial values.
* C60: an exception of a user's conversion makes the next `get_next` return the previous row again, or read through a null
  pointer if it was the first row; `ignore_next()` repairs it.
* C61: a parser that was moved from has null buffers with positive sizes: reading with it is undefined behaviour (a misuse).
* C62: a copy of an iterator never equals it unless both are at the end (no legal input iterator).
* C65: `get_next` directly behind `std::bad_alloc` is undefined; with multiline a refused append leaves a buffer size larger than the
  block; `errno == ENOMEM` left by other code makes the end of the input a `std::bad_alloc`; the rest of a line whose reading was
  cut off by a refusal is taken for a row.
* C68: `ferror` is never asked: a failing read is taken for the end of the file, and the begin of the line that cannot be read to its end is
  delivered as a valid row.
* C72: `resplit` corrects all columns of the row again for every further line (`adjust_ranges`), so that a row with `m` columns and a quoted
  field of `m` lines behind them takes `m * m` steps.
* C72: the portable `get_line_file` calls `std::strlen` on the whole line read so far for every piece of 127 bytes: a line of `L` bytes takes
  about `L * L / 254` steps.
* C74: an error of `or_else` names the line behind the row (the next line was already read); an exception names the last of the empty lines
  skipped behind the row.
* C76: `ignore_next` at the end of the input counts a line every time; behind an `or_else` at the end `get_next` reports the error of the
  `or_else` once more.
* C77: a question before `use_fields` changes what it does at the end of the input (C35_at_end_of_input) and, with `throw_on_error`, for a header
  that names a column twice (C35_throw_after_duplicate).


## Testing the theorems

`seeded/LOG.jsonl`: edits of the model in a scratch copy, with the claimed theorems that no longer check (a theorem counts as
failed when it, or anything it uses, fails to elaborate).
