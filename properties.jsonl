{"id": "C01", "title": "Splitting and re-joining loses nothing", "statement": "For every string s and delimiter c, splitting s on c with keep_empty and joining the pieces with c gives back exactly s.", "quantifier": "every finite sequence of characters (any character type), every delimiter", "why_tests_cant": "The set of strings is infinite; tests sample a few sentences and never cover every pattern of leading, trailing and repeated delimiters.", "anchors": ["wite/string/split.hpp: split, split_to, detail::split::first_token, advance_past_delimiter", "wite/string/join.hpp: join"]}
{"id": "C02", "title": "keep_empty split is exactly the field decomposition", "statement": "split(s, c, keep_empty) returns (number of occurrences of c in s) + 1 pieces, none of which contains c, and it is the only list of c-free pieces whose c-separated concatenation is s. The call terminates for every input.", "quantifier": "every string and delimiter", "why_tests_cant": "Uniqueness and termination range over all strings and all candidate decompositions.", "anchors": ["wite/string/split.hpp: split, split_to, first_token"]}
{"id": "C03", "title": "drop_empty split returns the non-empty fields in order", "statement": "split(s, c, drop_empty) (the default behaviour) returns exactly the non-empty pieces of split(s, c, keep_empty), in the same order; in particular no empty piece is ever returned.", "quantifier": "every string and delimiter", "why_tests_cant": "Relates two different code paths over all inputs (runs of delimiters of any length in any place).", "anchors": ["wite/string/split.hpp: split_to, advance_past_delimiter, split_behaviour"]}
{"id": "C04", "title": "join writes exactly its computed size", "statement": "join(strings, c) returns the strings in order separated by single c characters; its length is the sum of the lengths plus one per gap; it never writes outside the string it preallocated.", "quantifier": "every sequence of strings (including none and one), every delimiter", "why_tests_cant": "Out-of-bounds writes by a size miscalculation need not crash a test; the claim is for every sequence.", "anchors": ["wite/string/join.hpp: join"]}
{"id": "C05", "title": "join then split restores the pieces", "statement": "For every non-empty list of pieces none of which contains c, split(join(pieces, c), c, keep_empty) is the same list.", "quantifier": "every non-empty list of c-free strings", "why_tests_cant": "An all-inputs inverse law; fails in corner cases only (single empty piece, empty last piece).", "anchors": ["wite/string/join.hpp: join", "wite/string/split.hpp: split"]}
{"id": "C06", "title": "trim_left, trim_right and strip remove exactly the outer whitespace", "statement": "The result of trim_left / trim_right / strip is the unique contiguous piece of the input obtained by removing the longest whitespace prefix / suffix / both: what is removed is all whitespace and what remains does not start / end / start-or-end with whitespace. strip of an all-whitespace string is empty.", "quantifier": "every string, for every locale classification of whitespace", "why_tests_cant": "Tests use a handful of strings in one locale; the claim is for any string and any isspace predicate.", "anchors": ["wite/string/trim.hpp: trim_left, trim_right, is_not_whitespace", "wite/string/strip.hpp: strip"]}
{"id": "C07", "title": "trimming is idempotent and the two sides commute", "statement": "trim_left, trim_right and strip are each idempotent, strip equals trim_left after trim_right and equals trim_right after trim_left.", "quantifier": "every string, every whitespace predicate", "why_tests_cant": "Equations over all strings.", "anchors": ["wite/string/trim.hpp", "wite/string/strip.hpp"]}
{"id": "C08", "title": "trimming a char string is defined behaviour for every content", "statement": "Calling trim_left / trim_right / strip on any char string whatever its bytes (for example UTF-8 text) has defined behaviour.", "quantifier": "every char string, including bytes above 0x7F, with a signed char type", "why_tests_cant": "Undefined behaviour of std::isspace on negative values is invisible to a passing test.", "anchors": ["wite/string/trim.hpp: is_not_whitespace (std::isspace(c) without conversion to unsigned char)"]}
{"id": "C09", "title": "hexlify / unhexlify round trip", "statement": "For every byte sequence, unhexlify(hexlify(bytes)) returns the same bytes.", "quantifier": "every byte sequence of every length (each byte 0-255)", "why_tests_cant": "The claim covers all byte strings, including every one of the 256 table rows at every position.", "anchors": ["wite/binascii/hexlify.hpp: hexlify, unhexlify, upper_case_bytes, high_nibble, low_nibble"]}
{"id": "C10", "title": "unhexlify / hexlify normalises case and nothing else", "statement": "For every even-length string of hex digits s, hexlify(unhexlify(s)) is s with letters upper-cased.", "quantifier": "every even-length hex string", "why_tests_cant": "Infinite input space; a single wrong table row or nibble shows only on some strings.", "anchors": ["wite/binascii/hexlify.hpp: hexlify, unhexlify"]}
{"id": "C11", "title": "unhexlify rejects every malformed string", "statement": "unhexlify(str) (dynamic) returns normally only when str is an even-length string of hex digits; every other string throws std::invalid_argument.", "quantifier": "every string", "why_tests_cant": "Rejection of every malformed string cannot be enumerated by tests.", "anchors": ["wite/binascii/hexlify.hpp: unhexlify(std::string_view)"]}
{"id": "C12", "title": "from_hex_chars accepts exactly the right strings", "statement": "from_hex_chars<T>(s) returns normally iff s has exactly 2*sizeof(T) characters, all hex digits; a wrong length is reported as 'Invalid sequence length for type' (whatever the characters), otherwise a bad digit as 'Invalid hex char'. On success the bytes of the returned object, in memory order, are the digit pairs of s in order.", "quantifier": "every string, every type size", "why_tests_cant": "Acceptance set is infinite in its complement; the precedence of the two errors is a claim about all bad inputs.", "anchors": ["wite/binascii/hexlify.hpp: from_hex_chars, unsafe_from_hex_chars, is_all_valid_hex_chars"]}
{"id": "C13", "title": "try_from_hex_chars agrees with from_hex_chars", "statement": "For every string, try_from_hex_chars<T> returns the value that from_hex_chars<T> returns, and returns the error corresponding to the exception exactly when it throws.", "quantifier": "every string, every type size, narrow and wide characters", "why_tests_cant": "Agreement of two implementations on all inputs.", "anchors": ["wite/binascii/hexlify.hpp: from_hex_chars, try_from_hex_chars"]}
{"id": "C14", "title": "fixed-size unhexlify is exact, and its try_ twin agrees", "statement": "unhexlify<N>(s) returns normally iff s is exactly 2N hex digits, in which case it returns the N bytes denoted; try_unhexlify<N> agrees on every string (same value or the corresponding error).", "quantifier": "every N, every string", "why_tests_cant": "Acceptance over all strings and all N.", "anchors": ["wite/binascii/hexlify.hpp: unhexlify<N,V>, try_unhexlify<N,V>, unsafe_unhexlify<N,V>"]}
{"id": "C15", "title": "hex digits of an integer round trip through from_hex_chars", "statement": "For every unsigned value v of every width, from_hex_chars<T>(hexlify(to_bytes(v, little-endian))) == v on a little-endian machine.", "quantifier": "every width, every value of that width", "why_tests_cant": "2^64 values per width.", "anchors": ["wite/binascii/hexlify.hpp: hexlify, from_hex_chars", "wite/io/byte_buffer_write.hpp: to_bytes"]}
{"id": "C16", "title": "UUID text round trip in every format", "statement": "For every UUID u and every format letter among N n D d B b P p X x, constructing a uuid from u.str(f) with format f gives back u.", "quantifier": "all 2^128 UUIDs, all ten formats, any contents of the memory behind the internal buffer that contain a NUL (see C100)", "why_tests_cant": "2^128 values; tests use one example value per format.", "anchors": ["wite/core/uuid.hpp: uuid(string, fmt), str", "wite/core/uuid/uuid_functions.hpp: _to_c_str, formats, unsafe_basic_uuid_from_string"]}
{"id": "C17", "title": "UUID text is exactly the documented layout", "statement": "u.str(f) is, for every u, the documented text: N = 32 digits, D = 8-4-4-4-12 groups with dashes, B = D in braces, P = D in parentheses, X = {0x8,0x4,0x4,{0x2 x 8}}, upper-case letters for upper-case format letters and lower-case otherwise; the lengths are 32, 36, 38, 38, 68.", "quantifier": "all UUIDs, all formats", "why_tests_cant": "Zero-padding and case errors show only for particular field values.", "anchors": ["wite/core/uuid/uuid_functions.hpp: _to_c_str, _to_string, formats"]}
{"id": "C18", "title": "UUID fields appear in the text as their hexadecimal values", "statement": "For every d1, d2, d3, d4, uuid{d1,d2,d3,d4} printed in D format is the 8-digit value of d1, the 4-digit values of d2 and d3, then the bytes of d4 in order.", "quantifier": "all field values", "why_tests_cant": "Endianness mistakes show only for asymmetric values; claim is for all 2^128.", "anchors": ["wite/core/uuid.hpp: uuid(uint32_t,uint16_t,uint16_t,array)", "wite/core/uuid/uuid_functions.hpp: _to_c_str"]}
{"id": "C19", "title": "UUID parsing accepts exactly the format's language (N, D, B, P)", "statement": "Constructing a uuid from a string in format N, D, B or P (either case letter) succeeds iff the string has the format's length, its delimiters at the format's positions and hex digits (either case) everywhere else; otherwise std::invalid_argument is thrown.", "quantifier": "every string of characters below 256; memory behind the parser's buffer containing a NUL somewhere (see C100)", "why_tests_cant": "The rejected set is infinite.", "anchors": ["wite/core/uuid/uuid_functions.hpp: is_a_valid_uuid_string, formats", "wite/core/uuid.hpp: _init_from_string"]}
{"id": "C20", "title": "UUID parsing ignores letter case", "statement": "Two strings differing only in letter case of hex digits parse (N, D, B, P) to the same UUID, and upper and lower format letters parse alike.", "quantifier": "every string of characters below 256, every format letter of N, D, B, P; memory behind the parser's buffer containing a NUL somewhere (see C100)", "why_tests_cant": "All strings and all case patterns (2^32 per UUID).", "anchors": ["wite/core/uuid/uuid_functions.hpp: formats, unsafe_basic_uuid_from_string", "wite/binascii/hexlify.hpp: nibble tables"]}
{"id": "C21", "title": "try_make_uuid agrees with the throwing constructor", "statement": "For every string and format, try_make_uuid returns the same UUID as the throwing constructor, and returns an error exactly when the constructor throws.", "quantifier": "every string, every format character, any memory behind the parser's buffer", "why_tests_cant": "Two separately written switch statements must agree everywhere.", "anchors": ["wite/core/uuid.hpp: try_make_uuid, uuid(string, fmt)"]}
{"id": "C22", "title": "X-format parsing is memory safe", "statement": "Parsing any string in X format reads only the characters of that string and writes only inside its own 32-digit buffer.", "quantifier": "every string passed with format X or x", "why_tests_cant": "A stack overflow triggered by a crafted string of valid length is not exercised by tests.", "anchors": ["wite/core/uuid/uuid_functions.hpp: strip_non_hex, remove_0x_prefixes, is_a_valid_uuid_string"]}
{"id": "C23", "title": "to_c_str never overruns the caller's buffer", "statement": "to_c_str(u, buf, n, fmt) returns true iff fmt is a known format and n is at least the text length plus one; then buf holds the text and a terminating NUL; in every case nothing at or beyond buf[n] is written.", "quantifier": "every UUID, buffer size, prior buffer contents and format character", "why_tests_cant": "Buffer overruns may pass tests silently.", "anchors": ["wite/core/uuid/uuid_functions.hpp: to_c_str, _to_c_str"]}
{"id": "C24", "title": "Generated UUIDs carry the version-4 and variant bits", "statement": "For every behaviour of the random engine, a generated UUID has version nibble 4 and variant bits 10 in the byte positions the library documents by test (data[6], data[8]) and every other bit comes from the engine.", "quantifier": "every pair of 64-bit outputs of the engine", "why_tests_cant": "2^128 engine outputs.", "anchors": ["wite/core/uuid.hpp: uuid(random engine)"]}
{"id": "C25", "title": "Generated UUIDs print as RFC 4122 version-4 text", "statement": "The D-format text of every generated UUID has '4' as its 15th character and one of 8, 9, A, B as its 20th, as RFC 4122 version-4 text requires.", "quantifier": "every engine output", "why_tests_cant": "A sampled UUID hits the right digit by chance one time in sixteen.", "anchors": ["wite/core/uuid.hpp: uuid(random engine)", "wite/core/uuid/uuid_functions.hpp: _to_c_str"]}
{"id": "C26", "title": "UUID comparison is a total order consistent with equality", "statement": "operator<=> on UUIDs is a strict total order (irreflexive, transitive, any two are comparable) and a==b iff neither is less; it is the byte-wise lexicographic order of the stored bytes.", "quantifier": "all triples of UUIDs", "why_tests_cant": "Transitivity ranges over 2^384 triples.", "anchors": ["wite/core/uuid/basic_uuid.hpp: operator<=>, operator=="]}
{"id": "C27", "title": "Equal UUIDs hash equally; the hash uses both halves", "statement": "hash(u) is a function of u only, equal UUIDs have equal hashes, and for a fixed first half distinct second-half hashes give distinct UUID hashes.", "quantifier": "all UUIDs, every underlying std::hash<uint64_t>", "why_tests_cant": "Over all pairs of values and any standard-library hash.", "anchors": ["wite/core/uuid/uuid_hash.hpp", "wite/core/uuid.hpp: std::hash<uuid>"]}
{"id": "C28", "title": "Different UUIDs have different text", "statement": "In any one format, two UUIDs with the same text are equal (text is a faithful key), even if one was printed in upper and the other in lower case; texts of different formats are never the same.", "quantifier": "all pairs of UUIDs, all formats", "why_tests_cant": "Injectivity over 2^256 pairs.", "anchors": ["wite/core/uuid/uuid_functions.hpp: _to_string"]}
{"id": "C29", "title": "write then read gives the value back", "statement": "For every value of every fixed-size type and every buffer large enough, writing the value at the start of (or at a position in) the buffer and reading the same type from there returns the same value, for native, little- and big-endian encodings, on machines of either endianness.", "quantifier": "all types sizes, values, buffers, positions and endiannesses", "why_tests_cant": "Tests run on one machine with a few values.", "anchors": ["wite/io/byte_buffer_read.hpp: read, read_at, read_with_endian", "wite/io/byte_buffer_write.hpp: write, write_at, write_with_endian", "wite/io/encoding.hpp"]}
{"id": "C30", "title": "Endian encodings have fixed byte order on every machine", "statement": "Writing io::little_endian{v} stores the base-256 digits of v, least significant first; io::big_endian{v} stores them most significant first; both independent of the endianness of the machine.", "quantifier": "all widths, values, machine endiannesses", "why_tests_cant": "Tests run on little-endian hosts only; 2^64 values.", "anchors": ["wite/io/encoding.hpp: endian, byte_begin, byte_end", "wite/io/byte_buffer_write.hpp: unchecked_write"]}
{"id": "C31", "title": "write touches exactly its own bytes", "statement": "A successful write (single or multi-value) changes exactly the first byte_count bytes of the buffer, to the concatenated encodings, and leaves every other byte unchanged; a write that throws leaves the whole buffer unchanged.", "quantifier": "all buffers, all value lists", "why_tests_cant": "Frame conditions quantify over every other byte of every buffer.", "anchors": ["wite/io/byte_buffer_write.hpp: write, _recursive_unsafe_write, unchecked_write"]}
{"id": "C32", "title": "read throws exactly when the buffer is too short, and never reads outside it", "statement": "read<Ts...>(buffer) throws std::out_of_range iff the buffer is shorter than the total size of Ts; otherwise each component is decoded from its own bytes (the i-th value starts where the (i-1)-th ended) and no byte outside the buffer is accessed.", "quantifier": "all buffers, all lists of types", "why_tests_cant": "Out-of-bounds reads are invisible to tests; the claim is for every length.", "anchors": ["wite/io/byte_buffer_read.hpp: read, _recursive_read, unchecked_read"]}
{"id": "C33", "title": "write_at and read_at respect position and bounds", "statement": "write_at(pos, buf, v) and read_at<T>(pos, buf) succeed iff pos + sizeof(T) <= buf.size() (as mathematical integers), throwing out_of_range / invalid_argument otherwise; on success only bytes [pos, pos+sizeof(T)) are written / read; write_at returns pos + sizeof(T).", "quantifier": "all positions up to 2^64-1, all buffers, all types", "why_tests_cant": "Position arithmetic near 2^64 is never tested.", "anchors": ["wite/io/byte_buffer_read.hpp: read_at", "wite/io/byte_buffer_write.hpp: write_at"]}
{"id": "C34", "title": "try_read and try_read_at agree with the throwing forms", "statement": "try_read<T> / try_read_at<T> return the value the throwing form returns, and an error exactly when the throwing form throws.", "quantifier": "all buffers, positions and types", "why_tests_cant": "Agreement of separately written paths on every input.", "anchors": ["wite/io/byte_buffer_read.hpp: try_read, try_read_at, read, read_at"]}
{"id": "C35", "title": "multi-value try_read stops at the first value that does not fit", "statement": "try_read<Ts...>(buffer) returns, for each type in order, a value while everything so far fits and insufficient_buffer from the first value that does not fit onwards; the values returned are those a throwing read of that prefix would return.", "quantifier": "all buffers and type lists", "why_tests_cant": "Every split point of every type list and buffer length.", "anchors": ["wite/io/byte_buffer_read.hpp: try_read<...>, _recursive_try_read"]}
{"id": "C36", "title": "multi-value try_read_at never returns a value from the wrong place", "statement": "Every value returned by multi-value try_read_at(pos, buf) is decoded from the bytes at pos plus the sizes of the preceding types, for every pos.", "quantifier": "all positions up to 2^64-1, buffers and type lists", "why_tests_cant": "Wrap-around of pos + size needs positions near 2^64.", "anchors": ["wite/io/byte_buffer_read.hpp: _recursive_try_read_at"]}
{"id": "C37", "title": "write and try_write agree on success; failed try_write leaves later bytes alone", "statement": "try_write(buf, vs...) succeeds iff write(buf, vs...) does and then produces the same buffer; on failure it has written only the leading values that fit and every byte after them is unchanged.", "quantifier": "all buffers and value lists", "why_tests_cant": "All failure points of all lists.", "anchors": ["wite/io/byte_buffer_write.hpp: try_write, _recursive_try_write, write"]}
{"id": "C38", "title": "try_write_at agrees with write_at", "statement": "try_write_at(pos, buf, v) returns ok(pos+sizeof v) iff write_at succeeds, with the same resulting buffer, otherwise an error with the buffer unchanged.", "quantifier": "all positions up to 2^64-1, buffers, values", "why_tests_cant": "Boundary and wrap-around positions.", "anchors": ["wite/io/byte_buffer_write.hpp: try_write_at, write_at"]}
{"id": "C39", "title": "to_bytes and from_bytes are inverse", "statement": "from_bytes<T>(to_bytes(v)) == v for every v and to_bytes(from_bytes<T>(b)) == b for every byte array of the right size; try_ versions agree.", "quantifier": "all types sizes and values / byte arrays", "why_tests_cant": "2^64 values.", "anchors": ["wite/io/byte_buffer_write.hpp: to_bytes, try_to_bytes", "wite/io/byte_buffer_read.hpp: from_bytes, try_from_bytes"]}
{"id": "C40", "title": "range reads and writes are element-wise", "statement": "Writing a range then reading the same number of elements returns the same elements; a range operation on an insufficient buffer throws (or reports an error).", "quantifier": "all ranges, buffers, element types", "why_tests_cant": "All lengths and contents.", "anchors": ["wite/io/byte_buffer_read.hpp: read_range, try_read_range", "wite/io/byte_buffer_write.hpp: write (range)"]}
{"id": "C41", "title": "buffer view cursor never leaves the buffer", "statement": "After any sequence of seek, try_seek, read, try_read, write, try_write, range operations on a read or write view (whether they succeed, fail or throw), 0 <= read/write position <= buffer size.", "quantifier": "every finite history of operations with any arguments, any buffer", "why_tests_cant": "Histories are unbounded; the invariant must hold at every point of each.", "anchors": ["wite/io/byte_read_buffer_view.hpp: byte_read_buffer_view", "wite/io/byte_write_buffer_view.hpp: byte_write_buffer_view"]}
{"id": "C42", "title": "failed throwing view operations do not move the cursor", "statement": "A view operation that throws leaves the position and the buffer unchanged; a successful one advances by exactly the total size of the values.", "quantifier": "every view state and operation", "why_tests_cant": "All states and operations.", "anchors": ["wite/io/byte_read_buffer_view.hpp: read, read_range, seek", "wite/io/byte_write_buffer_view.hpp: write, seek"]}
{"id": "C43", "title": "a sequence of view writes followed by reads returns the sequence", "statement": "If a list of values (of any mixture of types and endiannesses) is written through a write view one after another without error, reading the same types in the same order through a read view over the same buffer returns exactly that list, and the bytes after the last value are untouched.", "quantifier": "every list of typed values, every buffer with room", "why_tests_cant": "Unbounded sequences of heterogeneous values.", "anchors": ["wite/io/byte_read_buffer_view.hpp", "wite/io/byte_write_buffer_view.hpp"]}
{"id": "C44", "title": "try_read on a view consumes exactly what was decoded, or the rest", "statement": "try_read of one type on a read view returns a value and advances by its size when enough bytes remain; otherwise it returns insufficient_buffer and leaves the cursor at the end of the buffer; it never throws and never passes the end.", "quantifier": "every view state and type size below 2^64", "why_tests_cant": "All cursor positions and sizes.", "anchors": ["wite/io/byte_read_buffer_view.hpp: try_read, try_read_range"]}
{"id": "C45", "title": "stream write then read returns the values", "statement": "Writing values to a byte stream and reading the same types back in order returns the same values, for any sequence.", "quantifier": "every sequence of typed values", "why_tests_cant": "Unbounded sequences.", "anchors": ["wite/io/byte_stream.hpp: read, write"]}
{"id": "C46", "title": "file write then read returns the bytes", "statement": "On a file system that performs complete writes, io::write(path, bytes) followed by io::read(path) returns the same bytes, replaces previous content, and leaves other files unchanged; io::write(path, count, bytes) with count <= size stores the first count bytes.", "quantifier": "every content, previous file system state, count <= size", "why_tests_cant": "All contents and prior states.", "anchors": ["wite/io/byte_buffer_file.hpp: read, write, try_read, try_write"]}
{"id": "C47", "title": "file read returns the requested prefix", "statement": "On a file system that performs complete reads, io::read(path, count) of an existing file returns exactly the first min(count, file size) bytes, io::read(path) the whole content, and io::try_read fills the caller's range with that prefix (shortening a range longer than the file). A missing file is reported.", "quantifier": "every file content, count and output range", "why_tests_cant": "All sizes and counts.", "anchors": ["wite/io/byte_buffer_file.hpp: read, file_size"]}
{"id": "C48", "title": "try_write reports success only if the bytes reached the file", "statement": "If io::try_write(path, bytes) reports success then the file contains exactly those bytes, whatever the operating system does (including short writes such as a full disk).", "quantifier": "every content and every behaviour of fopen/fwrite permitted by C", "why_tests_cant": "Short writes cannot be provoked portably in unit tests.", "anchors": ["wite/io/byte_buffer_file.hpp: try_write, write"]}
{"id": "C49", "title": "file operations never read past the caller's buffer", "statement": "io::write / try_write with an explicit byte count read at most bytes.size() bytes of the buffer.", "quantifier": "every count and buffer", "why_tests_cant": "Over-reads are undefined behaviour that tests do not observe.", "anchors": ["wite/io/byte_buffer_file.hpp: write(path, count, bytes), try_write(path, count, bytes)"]}
{"id": "C50", "title": "a result is exactly one of value or error", "statement": "At every moment of every history of construction, assignment, emplace, swap and transform, exactly one of ok() and is_error() is true; value() yields the last value stored and error() the last error stored; using the accessor of the other alternative terminates the program.", "quantifier": "every history of operations", "why_tests_cant": "Unbounded histories.", "anchors": ["wite/core/result.hpp: result"]}
{"id": "C51", "title": "result combinators satisfy the expected laws", "statement": "and_then/transform apply the function exactly to a held value and propagate errors unchanged; or_else/transform_error are the mirror image; and_then with the identity is the identity; chained and_then equals and_then of the composition; value_or returns the value or the default.", "quantifier": "all functions (including ones returning results), all results", "why_tests_cant": "Laws quantify over all functions.", "anchors": ["wite/core/result.hpp: and_then, or_else, transform, transform_error, value_or"]}
{"id": "C52", "title": "scope_exit runs its function exactly once unless released", "statement": "For every program using scope_exit guards (nested in any way, with exceptions thrown and caught anywhere), each guard that is not released runs its function exactly once, at the end of its scope, in reverse order of declaration, whether the scope is left normally or by exception; a released guard never runs.", "quantifier": "every structured program over guards, throw, try/catch and release", "why_tests_cant": "All programs and all exception paths.", "anchors": ["wite/core/scope.hpp: scope_exit, _basic_scope_exit_runner"]}
{"id": "C53", "title": "scope_success runs only on normal exit and scope_fail only on exception", "statement": "A scope_success guard runs iff its scope is left normally and a scope_fail guard iff it is left by an exception, in every context (including code executed by destructors during stack unwinding).", "quantifier": "every structured program, including guards in destructors run during unwinding", "why_tests_cant": "Needs exceptions in flight while another scope exits; no test does this.", "anchors": ["wite/core/scope.hpp: _chech_exit_condition"]}
{"id": "C54", "title": "guard functions run exactly once under assignment", "statement": "If one guard is move-assigned to another of the same type, the moved function still runs exactly once overall.", "quantifier": "all pairs of guards", "why_tests_cant": "Move-assignment leaves the source engaged; not covered by tests.", "anchors": ["wite/core/scope.hpp: WITE_MOVABLE_ONLY", "wite/common/constructor_macros.hpp: WITE_MOVABLE_ONLY"]}
{"id": "C55", "title": "index arithmetic is exact while in range", "statement": "Whenever idx + k (k any signed offset) lies in [0, 2^64), index + k has that value; (i + k) - k == i and (i - k) + k == i for every i and k, in debug builds exactly if the first step stays in the range; ++ and -- are inverse; ordering of indices is the ordering of their values.", "quantifier": "all 2^64 index values and all signed offsets (except the most negative one, whose negation is undefined)", "why_tests_cant": "2^128 combinations.", "anchors": ["wite/core/index.hpp: index"]}
{"id": "C56", "title": "debug builds reject exactly the out-of-range index moves", "statement": "In a debug build, index operators ++, --, += and -= raise an assertion iff the mathematical result would leave [0, 2^64).", "quantifier": "all index values and offsets other than the most negative", "why_tests_cant": "All boundary combinations.", "anchors": ["wite/core/index.hpp: operator++, operator--, operator+=, operator-="]}
{"id": "C57", "title": "typed ids compare exactly as the wrapped values", "statement": "Comparison and equality of wite::id coincide with those of the wrapped values for any value type with a total order, and value()/operator* return the wrapped value.", "quantifier": "all value types with a total order, all pairs", "why_tests_cant": "All types and values.", "anchors": ["wite/core/id.hpp: id"]}
{"id": "C58", "title": "static_vector behaves as a bounded list", "statement": "After any sequence of push_back, resize (with and without fill), clear, swap, element assignment and construction from an initialiser list, size(), at(i), front(), back() and iteration give exactly the contents of an ordinary list subjected to the same operations, with push_back/resize beyond the capacity throwing std::length_error and leaving the vector unchanged.", "quantifier": "every capacity, element type and finite history of operations", "why_tests_cant": "Unbounded histories.", "anchors": ["wite/collections/static_vector.hpp: static_vector"]}
{"id": "C59", "title": "static_vector never exceeds its capacity", "statement": "In every reachable state size() <= capacity() and every element below size() is a live object.", "quantifier": "every history starting from any constructor", "why_tests_cant": "Invariant over unbounded histories, including the size constructor with any argument.", "anchors": ["wite/collections/static_vector.hpp: static_vector(uint8_t), resize, push_back"]}
{"id": "C60", "title": "static_vector out-of-range access throws", "statement": "at(i) throws std::out_of_range iff i >= size(); front() and back() throw iff the vector is empty.", "quantifier": "every state and 64-bit index", "why_tests_cant": "All indices, including back() of an empty vector computing size()-1.", "anchors": ["wite/collections/static_vector.hpp: at, front, back"]}
{"id": "C61", "title": "static_vector equality is element-wise equality", "statement": "v == w iff they have the same size and equal elements, irrespective of what was stored beyond size() earlier.", "quantifier": "every pair of states reachable by any histories", "why_tests_cant": "Stale elements remain beyond size after clear(); all histories.", "anchors": ["wite/collections/static_vector.hpp: operator==, clear"]}
{"id": "C62", "title": "removing elements destroys them", "statement": "After clear() or resize to a smaller size, the removed elements no longer exist (their destructors have run).", "quantifier": "every state", "why_tests_cant": "Destruction is not observable through the tested interface.", "anchors": ["wite/collections/static_vector.hpp: clear, _destroy_last_n"]}
{"id": "C63", "title": "identifiable_item_collection behaves as an insertion-ordered set of unique ids", "statement": "After any history of insert, try_insert (single, range, variadic), emplace, erase (single, range, variadic), excise and clear, the collection holds at most one item per id, iteration and at(index) give the surviving items in order of insertion, at(id) gives the item with that id, size() their number, contains(id) membership.", "quantifier": "every history of operations, every id and item type with a total order on ids", "why_tests_cant": "Unbounded histories over two redundant containers that must stay synchronised.", "anchors": ["wite/collections/identifiable_item_collection.hpp"]}
{"id": "C64", "title": "collection items are owned exactly once and pointers never dangle", "statement": "In every reachable state every pointer in the iteration order refers to a live item owned by the collection, each item once; excise transfers ownership to the caller; erase and clear destroy the items they remove; no item is leaked or destroyed twice.", "quantifier": "every history of operations", "why_tests_cant": "Use-after-free and leaks are not detected by assertions on values.", "anchors": ["wite/collections/identifiable_item_collection.hpp: _items, _ordered_items, excise, erase"]}
{"id": "C65", "title": "duplicate insertion is reported and changes nothing", "statement": "insert(item) with an id already present throws std::logic_error and leaves the collection unchanged; try_insert returns false and leaves it unchanged; emplace throws and leaves it unchanged; range and variadic forms report per element in order.", "quantifier": "every state, every item", "why_tests_cant": "All states.", "anchors": ["wite/collections/identifiable_item_collection.hpp: insert, try_insert, emplace"]}
{"id": "C66", "title": "collection invariants survive modification through emplace's reference", "statement": "Modifying an item through the reference returned by emplace (including its id) cannot break the correspondence between at(id), contains(id), iteration and erase.", "quantifier": "every state, every modification", "why_tests_cant": "Tests never modify the id of a stored item.", "anchors": ["wite/collections/identifiable_item_collection.hpp: emplace, erase"]}
{"id": "C67", "title": "lookup failures throw", "statement": "at(id) throws std::out_of_range iff no item has that id; at(index) iff index >= size(); erase returns false and excise returns null iff the id is absent, leaving the collection unchanged.", "quantifier": "every reachable state, id and 64-bit index", "why_tests_cant": "All states.", "anchors": ["wite/collections/identifiable_item_collection.hpp: at, erase, excise"]}
{"id": "C68", "title": "static_lookup finds the first matching mapping", "statement": "at(k) returns the value of the first mapping with key k and throws std::out_of_range iff there is none; with(v) symmetrically; if keys and values are all distinct then with(at(k)) == k and at(with(v)) == v.", "quantifier": "all tables and all keys/values", "why_tests_cant": "All tables.", "anchors": ["wite/collections/static_lookup.hpp: at, with, get, _init"]}
{"id": "C69", "title": "make_vector argument order does not matter", "statement": "make_vector<T>(args...) with a reserve and a size argument in either order gives the same vector contents with capacity at least the reserve, size as requested and every element equal to the initial value.", "quantifier": "all sizes, reserves, initial values, argument orders", "why_tests_cant": "All values.", "anchors": ["wite/collections/make_vector.hpp: make_vector"]}
{"id": "C70", "title": "container iterators obey random-access laws", "statement": "For iterators of static_vector and identifiable_item_collection: it + n - n == it, (it + n) - it == n, it + n is n increments, comparison agrees with distance, and stepping from begin() visits each element once and reaches end() after size() steps; in debug builds moves within [begin, end] are accepted.", "quantifier": "all containers, offsets", "why_tests_cant": "All offsets and sizes.", "anchors": ["wite/collections/dereferencing_iterator.hpp"]}
{"id": "C71", "title": "point get/set obey array laws and compare lexicographically", "statement": "get after set of the same coordinate returns the value set, other coordinates are unchanged, and comparison of points is the lexicographic order of their coordinates, a strict total order for totally ordered coordinate types.", "quantifier": "all dimensions, points, coordinates", "why_tests_cant": "All dimensions and values.", "anchors": ["wite/geometry/point.hpp: point"]}
{"id": "C72", "title": "point initialiser lists fill exactly the coordinates", "statement": "Constructing an N-dimensional point from an initialiser list is defined for every list length, setting the given coordinates and no memory outside the point.", "quantifier": "all dimensions and list lengths", "why_tests_cant": "Writing past the array or leaving coordinates indeterminate is not observed by tests.", "anchors": ["wite/geometry/point.hpp: point(std::initializer_list)"]}
{"id": "C73", "title": "next_value and prev_value give the adjacent representable values", "statement": "For every finite value other than the extreme, next_value(x) is the least representable value above x and prev_value(x) the greatest representable value below x (integers and floating point); prev_value(next_value(x)) == x.", "quantifier": "all integers and all finite floating-point values, of every sign", "why_tests_cant": "2^64 doubles; tests use only positive normal values.", "anchors": ["wite/maths/numeric.hpp: next_value, prev_value"]}
{"id": "C74", "title": "variadic min, max and minmax are the extrema of their arguments", "statement": "min(xs...) is one of the arguments and no argument is smaller; likewise max; minmax returns both; the results do not depend on the order of the arguments.", "quantifier": "any number (>=2) of arguments of any totally ordered type", "why_tests_cant": "Arity is unbounded; all permutations.", "anchors": ["wite/maths/numeric.hpp: min, max, minmax"]}
{"id": "C75", "title": "interpolate and fraction are inverse", "statement": "In exact arithmetic fraction(interpolate(f, a, b), a, b) == f and interpolate(fraction(x, a, b), a, b) == x whenever a != b; interpolate(0)=a, interpolate(1)=b; interpolate is monotone in f when a <= b.", "quantifier": "all reals/rationals f, a, b, x with a != b", "why_tests_cant": "All reals.", "anchors": ["wite/maths/numeric.hpp: interpolate, fraction"]}
{"id": "C76", "title": "fraction of an empty range is NaN", "statement": "fraction(x, a, a) returns NaN for every arithmetic type and every x, a.", "quantifier": "all arithmetic types and values", "why_tests_cant": "The integral instantiations are not tested with empty ranges.", "anchors": ["wite/maths/numeric.hpp: fraction"]}
{"id": "C77", "title": "integer interpolate stays in the range for fractions in [0,1]", "statement": "For integers a <= b and 0 <= f <= 1, interpolate(f, a, b) lies in [a, b] and is a + floor(f*(b-a)) (exact arithmetic, no overflow of b-a).", "quantifier": "all integers, all f in [0,1]", "why_tests_cant": "All combinations.", "anchors": ["wite/maths/numeric.hpp: interpolate"]}
{"id": "C78", "title": "value_range membership matches its bounds", "statement": "contains(x) iff x is within the bounds with open/closed ends respected; exactly one of below_min(x), contains(x), above_max(x) holds for a range with min <= max that is not empty; contains is false for everything when an open end meets min == max.", "quantifier": "all totally ordered value types, all four open/closed combinations", "why_tests_cant": "All values and bound kinds.", "anchors": ["wite/maths/value_range.hpp: contains, below_min, above_max"]}
{"id": "C79", "title": "overlap is intersection", "statement": "a.overlap(b) is a range containing exactly the values both contain, or nullopt exactly when no value is in both.", "quantifier": "all ranges over a totally ordered type, all bound kinds", "why_tests_cant": "All pairs.", "anchors": ["wite/maths/value_range.hpp: overlap"]}
{"id": "C80", "title": "clamp returns a value of the range nearest to the argument", "statement": "clamp(x) returns x if x is in the range, otherwise the nearest bound; the result is always contained in the range; clamp is idempotent and monotone.", "quantifier": "all ranges with min <= max, all bound kinds, all values", "why_tests_cant": "All values.", "anchors": ["wite/maths/value_range.hpp: clamp", "wite/maths/bounded_value.hpp: clamp"]}
{"id": "C81", "title": "value_range setters keep min <= max in debug builds", "statement": "In a debug build, after any history of min(x)/max(x) calls that do not assert, min() <= max().", "quantifier": "every history of setter calls, integer value types of any width, all bound kinds", "why_tests_cant": "Unbounded histories and extreme values.", "anchors": ["wite/maths/value_range.hpp: min(x), max(x)"]}
{"id": "C82", "title": "mid lies in the range", "statement": "For every range, mid() is between min() and max() and within one unit of the centre.", "quantifier": "all integer ranges", "why_tests_cant": "Overflow only at extremes.", "anchors": ["wite/maths/value_range.hpp: mid, size"]}
{"id": "C83", "title": "envelope is the smallest range containing its arguments", "statement": "envelope(xs...) contains every argument and is contained in every closed range containing them all; envelope of ranges that are not inverted contains every value of every argument, takes its bounds from the arguments and, for closed ranges, is contained in every closed range containing all those values.", "quantifier": "any number of values / ranges", "why_tests_cant": "All arities and values.", "anchors": ["wite/maths/value_range.hpp: envelope, min, max"]}
{"id": "C84", "title": "a bounded value with default bounds is in bounds", "statement": "bounded_value{x} with default bounds is in bounds for every finite x, and clamp() leaves it unchanged.", "quantifier": "all finite x of every arithmetic type", "why_tests_cant": "Tests use positive values only.", "anchors": ["wite/maths/bounded_value.hpp: bounded_value, clamp, is_in_bounds"]}
{"id": "C85", "title": "a fragment_string iterates over the concatenation of its fragments", "statement": "Iterating a fragment_string from begin() to end() yields exactly the characters of the concatenated fragments, in order, and reverse iteration yields them reversed.", "quantifier": "any number of fragments of any lengths (including empty ones)", "why_tests_cant": "All partitions of all strings into fragments.", "anchors": ["wite/string/fragment_string.hpp: iterator::operator++, operator--, begin, end, rbegin, rend"]}
{"id": "C86", "title": "fragment_string iterator arithmetic is consistent", "statement": "For positions i, j in the string, (begin()+i) is the iterator reached by i increments, (begin()+j)-(begin()+i) == j-i, (it+n)-n == it, comparison agrees with position.", "quantifier": "all strings, fragmentations, positions", "why_tests_cant": "All partitions and offsets.", "anchors": ["wite/string/fragment_string.hpp: iterator::operator+=, _seek_forward, _seek_backward, operator-, _distance"]}
{"id": "C87", "title": "fragment_string indexing matches the concatenated string", "statement": "at(i) and [i] return the i-th character of the concatenation for i < length(), at throws std::out_of_range otherwise; front()/back() return the first/last character of a non-empty string.", "quantifier": "all strings, fragmentations and indices", "why_tests_cant": "All partitions.", "anchors": ["wite/string/fragment_string.hpp: at, operator[], front, back"]}
{"id": "C88", "title": "fragment_string compare is lexicographic on the concatenation", "statement": "compare(other) is negative / zero / positive iff the concatenation is lexicographically less / equal / greater than other (by the character type's <), regardless of how either is fragmented.", "quantifier": "all pairs of strings and fragmentations", "why_tests_cant": "All pairs of partitions.", "anchors": ["wite/string/fragment_string.hpp: compare, _compare"]}
{"id": "C89", "title": "starts_with / ends_with test prefixes and suffixes of the concatenation", "statement": "starts_with(p) iff p is a prefix of the concatenation, ends_with(p) iff p is a suffix, for character, string and fragment_string arguments including empty ones.", "quantifier": "all strings, fragmentations and patterns", "why_tests_cant": "All pairs.", "anchors": ["wite/string/fragment_string.hpp: starts_with, ends_with, _match_substring"]}
{"id": "C90", "title": "contains tests for substrings of the concatenation", "statement": "contains(p) iff p occurs as a contiguous substring of the concatenation, for character, string and fragment_string arguments, wherever fragment boundaries fall.", "quantifier": "all strings, fragmentations and patterns", "why_tests_cant": "All pairs.", "anchors": ["wite/string/fragment_string.hpp: contains, find"]}
{"id": "C91", "title": "find(ch, pos) returns the first occurrence at or after pos", "statement": "find(ch, pos) returns the least i >= pos with s[i] == ch, or npos if there is none.", "quantifier": "all strings, fragmentations, characters and positions", "why_tests_cant": "All positions; tests use the default position.", "anchors": ["wite/string/fragment_string.hpp: find(Char_T, size_type), _seek_fragment_containing_position"]}
{"id": "C92", "title": "find(str, pos) returns the first occurrence at or after pos", "statement": "find(p, pos) returns the least i >= pos at which p occurs in the concatenation, or npos; with defined behaviour for every pos.", "quantifier": "all strings, fragmentations, patterns and 64-bit positions", "why_tests_cant": "All positions including length() and values near 2^64.", "anchors": ["wite/string/fragment_string.hpp: find(string_view, size_type)"]}
{"id": "C93", "title": "substr and copy return the requested slice", "statement": "substr(pos, count) returns characters [pos, min(pos+count, length)) of the concatenation and copy writes the same slice and returns its length, throwing std::out_of_range iff pos is out of range; defined for every count.", "quantifier": "all strings, fragmentations, positions and 64-bit counts", "why_tests_cant": "Counts near 2^64.", "anchors": ["wite/string/fragment_string.hpp: substr, copy"]}
{"id": "C94", "title": "concatenation of fragment_strings is string concatenation", "statement": "(a + b) has the characters of a followed by those of b, is associative, length adds, and to_str()/stream output equal the concatenated string.", "quantifier": "all operands", "why_tests_cant": "All operands.", "anchors": ["wite/string/fragment_string.hpp: operator+, basic_fragment_string(left,right), to_str, length, operator<<"]}
{"id": "C95", "title": "Pointer overloads of split read exactly the C string", "statement": "split / split_to called with a null pointer return no pieces; called with a pointer to NUL-terminated text they return the pieces of the text before the first NUL, whatever memory lies behind it; without a NUL inside the object the call is undefined behaviour.", "quantifier": "every text without NUL, every memory content behind it, every delimiter and behaviour", "why_tests_cant": "Independence from the memory behind the terminator and behaviour for every text are universally quantified; a test sees one memory layout.", "anchors": ["wite/string/split.hpp:split_to(const Char_T*)", "wite/string/split.hpp:split(const Char_T*)"]}
{"id": "C96", "title": "io::to_integer gives the unsigned value of any byte", "statement": "io::to_integer<R>(b) equals the value of b read as an unsigned byte (0-255) for signed and unsigned byte types and every unsigned result type R of at least 8 bits.", "quantifier": "every byte value, every result width >= 8", "why_tests_cant": "Tests pick a few bytes and one result type; the claim covers every result width and the wrap-around arithmetic used for negative bytes.", "anchors": ["wite/io/types.hpp:to_integer"]}
{"id": "C97", "title": "a file read that returns normally returns bytes of the file", "statement": "If io::read(path) or io::try_read(path, range) reports success, then the bytes it returns are a prefix of the file's content, whatever the operating system does (including short reads and I/O errors).", "quantifier": "every content and every behaviour of fopen/fread permitted by C", "why_tests_cant": "Short reads and I/O errors cannot be provoked portably in unit tests.", "anchors": ["wite/io/byte_buffer_file.hpp: read, try_read, unsafe_read"]}
{"id": "C98", "title": "non-throwing view operations: exact effect", "statement": "try_seek and the view factories move/place the cursor iff the position is within [0, size]; try_read_range returns all elements and advances by their total size or returns insufficient_buffer with the cursor at the end; try_write succeeds iff all values fit and then behaves as write, otherwise it reports insufficient_buffer, does not move the cursor and has changed only the bytes of the leading values that fit.", "quantifier": "every view state, offset, type, count and list of values", "why_tests_cant": "All cursor positions and value lists, in particular the partial effect of a failed multi-value write.", "anchors": ["wite/io/byte_read_buffer_view.hpp: try_seek, try_read_range, try_make_byte_read_buffer_view", "wite/io/byte_write_buffer_view.hpp: try_seek, try_write"]}
{"id": "C99", "title": "UUID parsing is defined for every wide string", "statement": "Constructing a uuid from any string in the formats N, D, B, P either gives a UUID or throws std::invalid_argument, whatever characters the string contains.", "quantifier": "every narrow and wide string, every format letter", "why_tests_cant": "All wide characters; undefined behaviour of std::isxdigit beyond 255 may look like a rejection when tested.", "anchors": ["wite/core/uuid/uuid_functions.hpp: strip_non_hex_characters", "wite/core/uuid.hpp: _init_from_wrapped_fmt_string"]}
{"id": "C100", "title": "UUID parsing reads only its own buffer", "statement": "Parsing a UUID string reads only the string and the parser's own 32-character buffer; the result does not depend on any other memory.", "quantifier": "every string, every format, every content of the memory behind the buffer", "why_tests_cant": "A test cannot control or observe the memory behind a local array; an over-read usually finds a zero byte.", "anchors": ["wite/core/uuid/uuid_functions.hpp: unsafe_basic_uuid_from_string", "wite/core/uuid.hpp: _init_from_wrapped_fmt_string, try_make_uuid"]}
{"id": "C101", "title": "X-format parsing accepts exactly X text", "statement": "Constructing a uuid from a string in X format succeeds iff the string is X text: {0x8 digits,0x4,0x4,{0x2 eight times}} with digits of either case, and the UUID is the one the digits denote.", "quantifier": "every string of characters below 256", "why_tests_cant": "All strings of 68 characters.", "anchors": ["wite/core/uuid/uuid_functions.hpp: remove_0x_prefixes_and_nonhex_chars, uuid_format::X"]}
{"id": "C102", "title": "UUID hash depends on the order of the halves", "statement": "UUIDs that differ only in the order of their halves, or whose halves are equal, do not systematically share a hash value.", "quantifier": "all UUIDs, every underlying std::hash<uint64_t>", "why_tests_cant": "A statement about all values and all underlying hash functions.", "anchors": ["wite/core/uuid.hpp: std::hash<wite::uuid>", "wite/core/uuid/uuid_hash.hpp"]}
{"id": "C103", "title": "running out of memory leaves the collection as it was", "statement": "If insert, try_insert or emplace of one item throws std::bad_alloc, the collection (and every object it owns) is as before the call.", "quantifier": "every reachable state, every item, every allocation that fails", "why_tests_cant": "Tests do not make allocations fail.", "anchors": ["wite/collections/identifiable_item_collection.hpp: insert, try_insert, emplace, _unchecked_insert, _try_unchecked_insert"]}
{"id": "C104", "title": "floating-point interpolate stays between its ends", "statement": "In IEEE arithmetic, for finite a <= b whose difference does not overflow and finite f: interpolate(0, a, b) == a, interpolate(1, a, b) == b, interpolate is monotone in f, and for 0 <= f <= 1 the result lies in [a, b].", "quantifier": "all float and double values and every narrower IEEE format", "why_tests_cant": "Rounding errors depend on the operands; 2^192 combinations.", "anchors": ["wite/maths/numeric.hpp: interpolate"]}
{"id": "C105", "title": "fraction lies in [0, 1] and is monotone", "statement": "In IEEE arithmetic, for a < b whose difference does not overflow and a <= x <= b: fraction(x, a, b) is a number in [0, 1], is 0 at a and 1 at b, and is monotone in x.", "quantifier": "all float and double values, all integer types of up to 128 bits", "why_tests_cant": "Rounding at every operand combination, subnormal differences included.", "anchors": ["wite/maths/numeric.hpp: fraction"]}
{"id": "C106", "title": "integer interpolate in double arithmetic stays in the range", "statement": "With the double arithmetic the code uses, for integers a <= b whose difference the type can hold and 0 <= f <= 1: interpolate(f, a, b) is defined, lies in [a, b], is a at 0 and b at 1, and is monotone in f.", "quantifier": "all integer types and values, all doubles in [0, 1]", "why_tests_cant": "64-bit differences are rounded to double; tests use small numbers.", "anchors": ["wite/maths/numeric.hpp: interpolate"]}
{"id": "C107", "title": "mid of a floating-point range lies in the range", "statement": "For a value_range of a floating-point type with finite min <= max, mid() is finite and lies between min() and max().", "quantifier": "all finite bounds of every IEEE format, debug and release builds", "why_tests_cant": "Rounding of the half near subnormal numbers and overflow of the size.", "anchors": ["wite/maths/value_range.hpp: mid, size"]}
{"id": "C108", "title": "value_range::interpolate is interpolate between its bounds", "statement": "r.interpolate(f) with a double f equals maths::interpolate(f, r.min(), r.max()).", "quantifier": "all arithmetic value types, ranges and doubles f", "why_tests_cant": "The parameter has the value type, so the argument is converted first; tests call it with double ranges only.", "anchors": ["wite/maths/value_range.hpp: interpolate"]}
{"id": "C109", "title": "setters of floating-point ranges keep min <= max in debug builds", "statement": "In a debug build, after any history of min(x)/max(x) calls on a value_range of a floating-point type that do not assert, min() <= max().", "quantifier": "every history of setter calls, all floating-point arguments, all bound kinds", "why_tests_cant": "NaN, infinities, negative and subnormal arguments; unbounded histories.", "anchors": ["wite/maths/value_range.hpp: min(x), max(x)", "wite/maths/numeric.hpp: next_value, prev_value"]}
{"id": "C110", "title": "comparison of points with floating-point coordinates", "statement": "For points of a floating-point type, <, <=, >, >= are lexicographic by the type's < and ==, and == compares all coordinates; < is a strict partial order also with NaN coordinates and total, up to ==, without; if the first coordinates that differ include NaN the points are unordered and unequal.", "quantifier": "all dimensions and coordinates including NaN, infinities and both zeros", "why_tests_cant": "All coordinate combinations.", "anchors": ["wite/geometry/point.hpp: operator<=>"]}
{"id": "C111", "title": "printed points and ranges can be told apart", "statement": "A point prints as '[ x, y, ... ]' and a range with the brackets of its bounds; two points, or two ranges, that print alike have the same coordinates, or the same bounds and kinds of bounds, whenever the value type's own output is injective and contains no comma.", "quantifier": "all dimensions, value types, values and bound kinds", "why_tests_cant": "All values.", "anchors": ["wite/geometry/io.hpp: operator<<", "wite/maths/io.hpp: operator<<"]}
{"id": "C112", "title": "fragment_string::compare agrees with std::string's comparison", "statement": "For char strings, compare(other) has the sign of to_str().compare(other), which orders characters as unsigned char.", "quantifier": "all strings of all char values, all fragmentations", "why_tests_cant": "Test strings are ASCII, where signed and unsigned char agree.", "anchors": ["wite/string/fragment_string.hpp: compare, _compare"]}
{"id": "C113", "title": "a _fs literal has the characters of the literal", "statement": "\"...\"_fs has the length and the characters of the literal, whatever characters occur in it.", "quantifier": "all literals, including embedded zeros", "why_tests_cant": "All literals.", "anchors": ["wite/string/fragment_string.hpp: operator\"\"_fs, operator\"\"_wfs, basic_fragment_string(pointer)"]}
{"id": "C114", "title": "a fragment_string is printed as one string", "statement": "os << fs pads to the stream's width as os << fs.to_str() does.", "quantifier": "all widths, fill characters, strings and fragmentations", "why_tests_cant": "All widths and fragmentations.", "anchors": ["wite/string/fragment_string.hpp: operator<<"]}
{"id": "C115", "title": "trimming accepts C strings like split does", "statement": "trim_left, trim_right and strip of a const char* remove exactly the outer whitespace of the text before the terminator, and accept every pointer split accepts.", "quantifier": "all pointers, texts, memory behind the text and classifications of whitespace", "why_tests_cant": "All texts and contents of the memory behind them.", "anchors": ["wite/string/trim.hpp: trim_left, trim_right", "wite/string/strip.hpp: strip"]}
{"id": "C116", "title": "the unchecked hex functions on arbitrary text", "statement": "unsafe_from_hex_chars and unsafe_unhexlify are defined exactly if the text has two characters per byte; each byte is the value of its two digits, or 0xFF if one is not a digit; they agree with the checked functions wherever those accept.", "quantifier": "all sizes and texts", "why_tests_cant": "All texts and sizes; undefined behaviour cannot be observed by a test.", "anchors": ["wite/binascii/hexlify.hpp: unsafe_from_hex_chars, unsafe_unhexlify"]}
{"id": "C117", "title": "wide hex text is treated like narrow hex text", "statement": "Every wide overload returns, throws or is undefined exactly as the narrow one on the same characters; the checked ones accept only ASCII hexadecimal digits.", "quantifier": "all sizes and wide texts", "why_tests_cant": "The wide tables are written out separately; all wide characters.", "anchors": ["wite/binascii/hexlify.hpp: wchar_t overloads, wide tables"]}
{"id": "C118", "title": "make_uuid can return every version-4 UUID and threads get different ones", "statement": "Every version-4 UUID is a possible result of a call of make_uuid, no two calls use the same random bits, and different threads get different sequences.", "quantifier": "all engines, random devices, numbers of calls and hosts", "why_tests_cant": "Concerns the set of all results and all seeds.", "anchors": ["wite/core/uuid.hpp: make_uuid, uuid(Engine_T&&)"]}
{"id": "C119", "title": "a UUID can be hashed and generated wherever it is stored", "statement": "std::hash and the random constructor are defined for a UUID at any address allowed by alignof(uuid), and the result does not depend on the address.", "quantifier": "all addresses, UUIDs, draws and hosts", "why_tests_cant": "Undefined behaviour that usual hardware hides; all addresses.", "anchors": ["wite/core/uuid.hpp: std::hash<uuid>, uuid(Engine_T&&)", "wite/core/uuid/uuid_hash.hpp: std::hash<basic_uuid>"]}
{"id": "C120", "title": "a GUID structure is printed as its members", "statement": "to_string of a structure with Data1 to Data4 shows the values of these members in every format.", "quantifier": "all member values, formats and hosts", "why_tests_cant": "All values; hosts of both byte orders.", "anchors": ["wite/core/uuid/uuid_functions.hpp: to_string, _to_c_str", "wite/core/uuid/basic_uuid.hpp: guid_like"]}
{"id": "C121", "title": "a UUID is inserted into a stream as one field", "statement": "os << id writes the D text padded as a whole to the width of the stream, resets the width and changes nothing else; different UUIDs give different output, and the text can be read back; an id holding a UUID is written as the UUID.", "quantifier": "all UUIDs and stream states", "why_tests_cant": "All combinations of width, fill and adjustment.", "anchors": ["wite/core/io.hpp: operator<<(ostream&, const Uuid_T&), operator<<(ostream&, const Id_T&)"]}
{"id": "C122", "title": "an index is inserted into a stream as its number", "statement": "os << idx writes the number in the base of the stream, padded to its width, and different indexes give different output.", "quantifier": "all indexes and stream states", "why_tests_cant": "All numbers, bases, widths and flags.", "anchors": ["wite/core/io.hpp: operator<<(ostream&, const Idx_T&)"]}
{"id": "C123", "title": "a point or range is inserted into a stream as one field", "statement": "os << setw(n) << p pads the text of the point or range as a whole, as it does for strings.", "quantifier": "all points, ranges and stream states", "why_tests_cant": "All widths and values.", "anchors": ["wite/geometry/io.hpp: operator<<", "wite/maths/io.hpp: operator<<"]}
{"id": "C124", "title": "reverse iteration visits the elements last to first", "statement": "For static_vector and identifiable_item_collection a loop from rbegin() to rend() yields the elements in reverse order, and reverse iterators are random-access: r + n, r - n, r += n, r[n], distance and order agree with n single steps, in both builds.", "quantifier": "all containers, positions and offsets, both builds, both ways standard libraries compute r[n]", "why_tests_cant": "All offsets and sizes, and library implementations that differ in which operator of the base iterator they call.", "anchors": ["wite/collections/static_vector.hpp: rbegin, rend", "wite/collections/identifiable_item_collection.hpp: rbegin, rend", "wite/collections/dereferencing_iterator.hpp"]}
{"id": "C125", "title": "iterators of a static_vector stay usable when it grows", "statement": "A static_vector never reallocates: an iterator obtained before push_back or resize to a larger size still refers to the same element and can be stepped to the new elements and the new end().", "quantifier": "all vectors, sizes and positions, both builds", "why_tests_cant": "All sizes and positions; tests take new iterators after each change.", "anchors": ["wite/collections/static_vector.hpp: begin, resize, push_back", "wite/collections/dereferencing_iterator.hpp: operator++"]}
{"id": "C126", "title": "resize and push_back have the strong exception guarantee", "statement": "If constructing or copying an element throws during resize or push_back of a static_vector, the vector shows the same elements as before, no further elements stay alive, and shrinking cannot throw.", "quantifier": "all programs and all choices of the construction that fails", "why_tests_cant": "Every position at which an exception can arise in every program.", "anchors": ["wite/collections/static_vector.hpp: resize, push_back, _unsafe_resize, _alloc"]}
{"id": "C127", "title": "a failed copy assignment leaves a usable static_vector", "statement": "If copying an element throws during copy assignment of a static_vector, the target can still be used: every position below size() has an element.", "quantifier": "all programs, sources, targets and all choices of the copy that fails", "why_tests_cant": "Every position at which an exception can arise, after every history of both vectors.", "anchors": ["wite/collections/static_vector.hpp: WITE_DEFAULT_CONSTRUCTORS, clear"]}
{"id": "C128", "title": "a result that is not a value is an error that can be read", "statement": "After every program on results, including calls that threw because copying or moving a value or an error threw, every result with ok() shows its value and every result with is_error() shows its error.", "quantifier": "all programs, all element types (which operations are noexcept, which fail when)", "why_tests_cant": "Every position at which an exception can arise, for every combination of noexcept declarations.", "anchors": ["wite/core/result.hpp: _storage_t, is_error, error, WITE_DEFAULT_CONSTRUCTORS", "wite/common/constructor_macros.hpp: WITE_DEFAULT_CONSTRUCTORS"]}
{"id": "C129", "title": "an exception of a value or error type reaches the caller and changes nothing", "statement": "If constructing, copying, moving or swapping a value or an error throws during a call on a result, the exception reaches the caller and all results hold what they held before; a call that returns has stored exactly what it should.", "quantifier": "all calls, all states of the program, all element types", "why_tests_cant": "Every position at which an exception can arise, for every combination of noexcept declarations.", "anchors": ["wite/core/result.hpp: result(Value_T), emplace, transform, transform_error, swap", "wite/common/constructor_macros.hpp: WITE_DEFAULT_CONSTRUCTORS"]}
{"id": "C130", "title": "moving a collection hands over its items", "statement": "In a program with several collections on which any calls and moves are made, every collection shows at every moment the insertion-ordered list of the same calls, where a move gives the target the items of the source and leaves the source empty. Items are neither copied nor relocated by a move, the former items of the target are destroyed, and every live item belongs to exactly one collection or to the caller.", "quantifier": "all programs, all numbers of collections, all item and id types", "why_tests_cant": "All interleavings of calls on several collections, including moves of a collection to itself and moves onto collections with items.", "anchors": ["wite/collections/identifiable_item_collection.hpp: move constructor, move assignment"]}
{"id": "C131", "title": "iterators survive the move of a collection", "statement": "Iterators into a collection stay usable when the collection is moved: they show the same items, a loop from one to the end of the new owner visits the remaining items, and they can be compared with and subtracted from the iterators of the new owner.", "quantifier": "all programs, all moves, all iterators, both builds", "why_tests_cant": "Every position, every size and every order of moves; the debug-only members of the iterators matter.", "anchors": ["wite/collections/identifiable_item_collection.hpp: begin, end, move assignment", "wite/collections/dereferencing_iterator.hpp: operator-, operator<=>, operator=="]}
{"id": "C132", "title": "reads stay inside the buffer and the value", "statement": "Whatever range is accepted as the buffer by io::read, read_at, read_range, read_range_at and their try_ forms, a call either reports that the buffer is too short or returns the values at that place, without touching memory outside the buffer or outside the values.", "quantifier": "all buffers of elements of any width, all types, encodings, positions, both byte orders", "why_tests_cant": "All element widths and sizes; the failure is an out-of-bounds write that a test may not notice.", "anchors": ["wite/io/concepts.hpp: byte_range_like, byte_iterator_like", "wite/io/byte_buffer_read.hpp: unchecked_read, read, read_range, read_at, read_range_at, try_read, try_read_range, try_read_at, try_read_range_at"]}
{"id": "C133", "title": "values of range types are read and written whole", "statement": "A value of a trivial type that is itself a range (std::array, a fixed-capacity vector) is stored in sizeof bytes like any other value: what is written is read back, several values lie one behind the other, from_bytes undoes to_bytes, and the bytes being read cannot lead the reader out of the buffer.", "quantifier": "all trivial types that are ranges, all their objects, all buffers", "why_tests_cant": "All types with all relations between size() and sizeof, all contents of the buffer including hostile ones.", "anchors": ["wite/io/byte_utilities.hpp: value_size", "wite/io/byte_buffer_read.hpp: unchecked_read, _recursive_read, _recursive_try_read", "wite/io/byte_buffer_write.hpp: unchecked_write, to_bytes"]}
{"id": "C134", "title": "running out of memory while writing or reading ranges", "statement": "If memory runs out while ranges are written to a buffer or read from it, the failure is reported (an exception, an error value for the try_ forms), and the buffer or the caller's range is as it was before the call.", "quantifier": "all argument lists, all buffers, every choice of failing allocations", "why_tests_cant": "Every allocation of every call may fail; tests do not run out of memory.", "anchors": ["wite/io/byte_utilities.hpp: byte_count", "wite/io/byte_buffer_write.hpp: write, write_at, try_write, _recursive_unsafe_write, _recursive_try_write", "wite/io/byte_buffer_read.hpp: read_range, try_read_range"]}
{"id": "C135", "title": "file functions leave no handle open", "statement": "However a call of io::read, try_read, write or try_write with a path ends (return or exception), the file handles open afterwards are those that were open before.", "quantifier": "all files, contents, ranges, counts, amounts of memory, all behaviours of the C stream functions", "why_tests_cant": "Handles leak only on failure paths that tests cannot provoke, and a leak is not visible in one call.", "anchors": ["wite/io/byte_buffer_file.hpp: read, try_read, write, try_write, file_size"]}
{"id": "C136", "title": "every readable file is read as it is", "statement": "For every file that can be opened, and given enough memory, io::read(path) returns its content, io::read(path, count) the first count bytes of it (or all), and io::try_read fills the caller's range with the beginning of the file and says how many bytes it got.", "quantifier": "all files including those longer than LONG_MAX and those that cannot be positioned", "why_tests_cant": "Needs files of more than 2 GiB on a platform with a 32-bit long, or pipes.", "anchors": ["wite/io/byte_buffer_file.hpp: read, try_read, file_size"]}
{"id": "C137", "title": "files of ranges hold the whole range", "statement": "io::write and try_write accept every contiguous range and store all its elements; io::try_read fills such a range; what was written is read back.", "quantifier": "all ranges with elements of any width, all file contents", "why_tests_cant": "All element widths and sizes; tests use byte buffers.", "anchors": ["wite/io/byte_buffer_file.hpp: unsafe_read, unsafe_write, write, try_write, try_read", "wite/common/concepts.hpp: contiguous_range_like"]}
{"id": "C138", "title": "only the named file is touched", "statement": "A call that writes to a path changes no file other than the one with that path, and a call that reads returns content of that file only.", "quantifier": "all paths, including those with NUL characters, all contents", "why_tests_cant": "All strings as paths.", "anchors": ["wite/io/byte_buffer_file.hpp: get_file_pointer, read, try_read, write, try_write"]}
{"id": "C139", "title": "functions on FILE handles", "statement": "io::file_size(FILE*) returns the size of the file and leaves the handle where it stood; successive unsafe_read calls deliver successive pieces of the file; successive unsafe_write calls append.", "quantifier": "all files, positions, sequences of calls", "why_tests_cant": "All sequences of calls and all positions, including ones a long cannot represent.", "anchors": ["wite/io/byte_buffer_file.hpp: file_size, unsafe_read, unsafe_write"]}
{"id": "C140", "title": "no memory for the path of a file", "statement": "If memory for the path string runs out, io::read and write throw std::bad_alloc and try_read and try_write report an error; the program continues.", "quantifier": "all paths, each of the strings made from a path", "why_tests_cant": "Tests do not run out of memory.", "anchors": ["wite/io/byte_buffer_file.hpp: get_file_pointer, read, try_read, write, try_write"]}
{"id": "C141", "title": "the results of min, max and minmax stay what they were", "statement": "The pair returned by minmax, stored in a variable, goes on holding the smallest and the largest of the values the arguments had, whatever is assigned to the arguments later and after temporaries are gone; likewise the results of min and max.", "quantifier": "all types, numbers of arguments, values, ways of passing arguments, later states of the objects", "why_tests_cant": "A dangling or aliased reference usually still shows the right value in a test.", "anchors": ["wite/maths/numeric.hpp: min, max, minmax"]}
{"id": "C142", "title": "min, max and minmax of floating-point numbers", "statement": "For floating-point arguments the results of min, max and minmax depend neither on the order of the arguments nor on whether variables or temporaries are passed, and no argument is smaller than the minimum or larger than the maximum.", "quantifier": "all formats, numbers of arguments and values including NaN, infinities and both zeros", "why_tests_cant": "All bit patterns at all positions of an argument list of any length.", "anchors": ["wite/maths/numeric.hpp: min, max, minmax"]}
{"id": "C143", "title": "views can be used while the buffer changes", "statement": "Read and write views over a buffer can be used together and while the owner modifies or resizes the buffer: every operation acts on the bytes the buffer has at that moment, at the view's own position, or reports an error.", "quantifier": "all buffers, numbers of views, interleavings of view operations with assignments, resize, push_back, reserve, clear and the end of the buffer's life", "why_tests_cant": "All interleavings; an invalid iterator usually still reads the old memory.", "anchors": ["wite/io/byte_read_buffer_view.hpp: byte_read_buffer_view", "wite/io/byte_write_buffer_view.hpp: byte_write_buffer_view"]}
{"id": "C144", "title": "reading a value from a stream succeeds or says so", "statement": "read<T>(stream) returns the next sizeof(T) bytes of the stream as a value, or reports that there are none.", "quantifier": "all sequences of types, stream contents, ways a source can end, initial states and exception masks", "why_tests_cant": "Unbounded sequences; sources that end or fail at every possible byte.", "anchors": ["wite/io/byte_stream.hpp: read"]}
{"id": "C145", "title": "writing a value to a stream succeeds or says so", "statement": "write(stream, value) puts the bytes of the value into the stream, or reports that it could not; what was written is read back.", "quantifier": "all sequences of values, capacities of the device, initial states and exception masks", "why_tests_cant": "Devices that run full at every possible byte.", "anchors": ["wite/io/byte_stream.hpp: read, write"]}
{"id": "C146", "title": "text in a variable can be trimmed and stripped", "statement": "trim_left, trim_right, trim and strip accept a text held in a variable: a string, a view or a literal; the result of one trim can be kept and passed to the next, as the documentation does.", "quantifier": "all argument types (characters of any width, strings, views, pointers, arrays, containers), const or not, variables and temporaries", "why_tests_cant": "Which calls compile is a statement about all types; a test that does not compile is not a test.", "anchors": ["wite/string/trim.hpp: trim_left, trim_right, trim", "wite/string/strip.hpp: strip"]}
{"id": "C147", "title": "split and join take text in any of its usual forms", "statement": "split, split_to and join accept strings, views and C strings with or without a delimiter, and every accepted call with a text that is not null gives the pieces of that text.", "quantifier": "all argument and delimiter types, result containers, language standards and texts", "why_tests_cant": "Overload resolution over all combinations of argument types; unbounded texts.", "anchors": ["wite/string/split.hpp: split, split_to", "wite/string/join.hpp: join"]}
{"id": "C148", "title": "WITE_NO_EXCEPTIONS", "statement": "With WITE_NO_EXCEPTIONS defined every header still compiles and Wite throws no exception.", "quantifier": "all combinations of the other macros, all headers, all arguments of the functions that remain", "why_tests_cant": "The configurations multiply, and the absence of a throw is a statement about all arguments.", "anchors": ["README.md: WITE_NO_EXCEPTIONS", "wite/string/join.hpp", "wite/string/fragment_string.hpp: at, substr, copy", "wite/core/uuid/uuid_functions.hpp: to_string", "wite/collections/identifiable_item_collection.hpp: insert, emplace, at", "wite/collections/static_lookup.hpp: at, with"]}
{"id": "C149", "title": "the umbrella header brings in everything", "statement": "Including wite/wite.hpp brings in every header of the library.", "quantifier": "all combinations of macros, all headers", "why_tests_cant": "A test includes what it needs; that nothing is missing is a statement about all headers.", "anchors": ["README.md: Getting started", "wite/wite.hpp"]}
{"id": "C150", "title": "the byte type and the byte order can be chosen", "statement": "Each of the byte types and byte orders the documentation offers can be chosen and every header compiles with it; choosing two is an error.", "quantifier": "all combinations of macros, signedness of char, all headers", "why_tests_cant": "The configurations multiply; each needs its own build.", "anchors": ["README.md: WITE_USER_DEFINED_BYTE_TYPE_, WITE_LITTLE_ENDIAN and WITE_BIG_ENDIAN", "wite/env/features.hpp", "wite/io/encoding.hpp", "wite/binascii/hexlify.hpp"]}
{"id": "C151", "title": "the byte order can be overridden and the wrappers keep their meaning", "statement": "With WITE_LITTLE_ENDIAN or WITE_BIG_ENDIAN defined, io::little_endian still stores the least and io::big_endian the most significant byte first, numbers written are read back, and two programs with different settings understand each other's wrapped numbers.", "quantifier": "all settings of the macros, byte orders of the machines, sequences of wrapped and unwrapped numbers of every size, buffers", "why_tests_cant": "The tests run on one machine with one setting; the statement is about all pairs of machine and setting and all numbers.", "anchors": ["README.md: WITE_LITTLE_ENDIAN and WITE_BIG_ENDIAN", "wite/io/encoding.hpp: system_native_endianness, little_endian, big_endian", "wite/io/byte_buffer_write.hpp: write", "wite/io/byte_buffer_read.hpp: read"]}
{"id": "C152", "title": "UUIDs keep their text when the byte order is overridden", "statement": "With WITE_LITTLE_ENDIAN or WITE_BIG_ENDIAN defined, a UUID made from a text prints that text, one made from fields prints these fields, and the two are equal when the text shows the fields.", "quantifier": "all settings of the macros, machines, UUIDs, fields and formats", "why_tests_cant": "The tests run with one setting; 2^128 UUIDs.", "anchors": ["README.md: WITE_LITTLE_ENDIAN and WITE_BIG_ENDIAN", "wite/core/uuid/uuid_functions.hpp: _to_c_str, format_as_uuid_data", "wite/core/uuid.hpp: uuid(data_1, data_2, data_3, data_4), str"]}
{"id": "C153", "title": "the string functions report that memory has run out", "statement": "When an allocation is refused, split, split_to, trim_left, trim_right, strip and join throw std::bad_alloc; when none is, the result is the one with unlimited memory.", "quantifier": "all texts, delimiters and behaviours, patterns of refused allocations, sizes of the text a string object holds and growth policies of vectors, pieces that are strings or views", "why_tests_cant": "Which allocation fails is up to the environment; a test runs with enough memory.", "anchors": ["wite/string/split.hpp: split_to, split, detail::split::first_token", "wite/string/trim.hpp: trim_left, trim_right", "wite/string/strip.hpp: strip", "wite/string/join.hpp: join"]}
{"id": "C154", "title": "the views split_to makes are parts of its argument", "statement": "With views as pieces split_to copies nothing: the views show what split returns as strings, lie within the argument, one behind the other with a gap between them, cover exactly the characters that are not the delimiter, and depend on nothing outside of the argument.", "quantifier": "all memory contents, views into it, delimiters and behaviours", "why_tests_cant": "Tests compare texts, not where the texts are; unbounded texts.", "anchors": ["wite/string/split.hpp: split_to, detail::split::first_token, detail::split::advance_past_delimiter"]}
{"id": "C155", "title": "a fragment_string and the texts it was made from", "statement": "At every moment length(), the characters, to_str(), substr(), copy() and the printed form of a fragment_string describe the same text, whatever the program has done with the texts the string was made from.", "quantifier": "all memory contents, fragments pointing anywhere, texts, and sequences of writes, frees and allocations by the rest of the program; debug and release builds", "why_tests_cant": "Tests use literals, which never change or go away; the sequences of actions and the texts are unbounded.", "anchors": ["wite/string/fragment_string.hpp: basic_fragment_string(pointer), to_str, length, at, operator[], begin, end, substr, copy, iterator, operator<<"]}
{"id": "C156", "title": "exceptions of items, ids and comparisons in a collection", "statement": "If copying, moving or making an item, asking for its id, copying or comparing an id or allocating memory throws inside a call on an identifiable_item_collection, the exception reaches the caller and the collection is as it was; a call for several arguments has done a first part of them.", "quantifier": "all programs of calls with any of the throwing events failing any number of times, all item and id types, debug and release builds", "why_tests_cant": "The places where an exception can start multiply with the calls and the sizes; tests use items and ids that never throw.", "anchors": ["wite/collections/identifiable_item_collection.hpp: insert, try_insert, erase, emplace, excise, contains, at, _try_unchecked_insert, _unchecked_insert"]}
{"id": "C157", "title": "wrapped numbers in structs, arrays and streams", "statement": "A number wrapped in io::little_endian or io::big_endian is stored in that byte order wherever it stands: by itself, as a member of a struct or element of an array, in a buffer or in a stream; so data written on one machine can be read on another.", "quantifier": "all numbers of all sizes and wrappers, all structs and arrays of them, all buffers and streams, machines of either byte order", "why_tests_cant": "Tests wrap single numbers and run on one machine, where a value that is written and read back natively looks right.", "anchors": ["wite/io/encoding.hpp: little_endian, big_endian", "wite/io/concepts.hpp: is_encoded, is_buffer_readable", "wite/io/byte_stream.hpp: read, write", "wite/io/byte_buffer_read.hpp: unchecked_read, read_range", "wite/io/byte_buffer_write.hpp: unchecked_write"]}
{"id": "C158", "title": "a function and its try_ twin take the same arguments", "statement": "Whenever a call of read, read_at, read_range, read_range_at, from_bytes, write, write_at or to_bytes compiles, so does the call of the try_ function of the same name with the same arguments, and the other way round.", "quantifier": "all types of values and buffers, variables and temporaries, any number of values", "why_tests_cant": "A test that does not compile is not written; the combinations of types, value categories and functions are unbounded.", "anchors": ["wite/io/byte_buffer_read.hpp: all functions", "wite/io/byte_buffer_write.hpp: all functions", "wite/io/byte_read_buffer_view.hpp", "wite/io/byte_write_buffer_view.hpp"]}
{"id": "C159", "title": "what can be read can be written", "statement": "Every type that can be read from a buffer, as a value or as a range, can be written to one, and the functions take exactly the types their constraints describe; pointers are refused everywhere.", "quantifier": "all types built from integers, structs, wrappers, arrays, containers and pointers, any number of values, buffers and streams", "why_tests_cant": "The types are unbounded (arrays of arrays of ...), and what does not compile cannot be in a test.", "anchors": ["wite/io/concepts.hpp: is_buffer_readable, is_buffer_writeable", "wite/io/byte_utilities.hpp: value_size, byte_count", "wite/io/byte_buffer_read.hpp: all functions", "wite/io/byte_buffer_write.hpp: all functions", "wite/io/byte_stream.hpp: read, write"]}
{"id": "C160", "title": "every container of bytes is a buffer", "statement": "Every container that satisfies byte_range_like can be used as a buffer with every function and view, only containers of bytes satisfy it, and which values are taken does not depend on the container.", "quantifier": "all containers, constant and not, of elements of any size; all value types, any number of values", "why_tests_cant": "Tests use vectors and arrays of bytes; the claim is about all containers and what must not compile.", "anchors": ["wite/io/concepts.hpp: byte_range_like, byte_iterator_like", "wite/io/byte_buffer_read.hpp: all functions", "wite/io/byte_buffer_write.hpp: all functions", "wite/io/byte_read_buffer_view.hpp: byte_read_buffer_view"]}
{"id": "C161", "title": "the three builds do the same as long as no assertion fails", "statement": "A debug build without assertion exceptions (what users get) stops exactly where the debug build with them (what the library's tests use) throws a failed assertion, and does the same otherwise; a release build does the same as a debug build in which no assertion fails.", "quantifier": "every function that asserts something, all arguments, objects and states, all programs on collections including ones with failing memory and throwing items", "why_tests_cant": "The tests run one configuration, in which assertions throw; no test compares builds, and the claim is about all calls.", "anchors": ["wite/core/assert.hpp: _WITE_DEBUG_ASSERT", "wite/core/index.hpp: index", "wite/collections/dereferencing_iterator.hpp: all operators", "wite/collections/identifiable_item_collection.hpp: _unchecked_insert, _try_unchecked_insert, excise", "wite/string/fragment_string.hpp: iterator, front, back", "wite/maths/value_range.hpp: value_range"]}
{"id": "C162", "title": "checks run in every build without NDEBUG and never throw out of noexcept functions", "statement": "The library's checks run in every build without NDEBUG and in none with it; the functions that check are noexcept exactly when a failed check cannot throw; what can be used in constant expressions in release builds can be in debug builds.", "quantifier": "all combinations of the macros that compilers, command lines and users define before the first include, all headers included first", "why_tests_cant": "The tests are built in the configurations of the CMake presets and always with throwing assertions; a test cannot see that a build does not check, and no build defines the macros that go wrong.", "anchors": ["wite/env/compiler.hpp", "wite/env/configuration.hpp", "wite/core/assert.hpp: _WITE_DEBUG_ASSERT, _WITE_RELEASE_NOEXCEPT, _WITE_RELEASE_CONSTEXPR", "wite/collections/dereferencing_iterator.hpp: operator++, operator--, operator+=, operator-="]}
{"id": "C163", "title": "the default UUID format can be any of the ten letters", "statement": "With any format letter as WITE_DEFAULT_UUID_FMT, what the default functions print the default functions read as the same UUID; two programs with different defaults read each other's text as the same UUID or refuse it; any other default makes every default call fail without an effect.", "quantifier": "all UUIDs, all default letters of the writing and of the reading program, all strings, buffers and streams, both byte orders", "why_tests_cant": "The macro is set once per build and the tests never set it, so only 'D' is ever the default.", "anchors": ["wite/core/uuid/basic_uuid.hpp: WITE_DEFAULT_UUID_FMT, default_uuid_format", "wite/core/uuid.hpp: uuid, str, wstr, into_c_str, try_make_uuid", "wite/core/uuid/uuid_functions.hpp: to_string, to_wstring, to_c_str", "wite/core/io.hpp: operator<<"]}
{"id": "C164", "title": "a format object parses like its letter", "statement": "try_make_uuid with one of the ten objects of uuid_format gives what it gives with the letter of the same name, and the lower-case and the upper-case object accept the same texts.", "quantifier": "all ten format objects, all texts, all contents of the memory behind the parser's buffer", "why_tests_cant": "The tests call try_make_uuid with letters only; agreement on all texts cannot be sampled, and the one difference shows only with texts no printing function makes.", "anchors": ["wite/core/uuid/uuid_functions.hpp: uuid_format", "wite/core/uuid/uuid_functions.hpp: is_opening, is_closing, is_a_valid_uuid_string", "wite/core/uuid.hpp: try_make_uuid"]}
{"id": "C165", "title": "unsafe_basic_uuid_from_string reads its view and nothing else", "statement": "unsafe_basic_uuid_from_string, given a view of 32 hexadecimal digits, returns the UUID of these digits and reads no character outside the view; with a shorter view its result does not depend on what lies behind the view.", "quantifier": "all views of all lengths, all contents of the memory behind them", "why_tests_cant": "The tests pass whole string literals, which end in NUL; what lies behind a view is not under a test's control.", "anchors": ["wite/core/uuid/uuid_functions.hpp: unsafe_basic_uuid_from_string", "wite/binascii/hexlify.hpp: unsafe_unhexlify"]}
{"id": "C166", "title": "iterators of different fragment_strings are never taken for iterators of one string", "statement": "Comparing or subtracting iterators of two different fragment_strings is reported in every build, and a loop from the begin of one string to the end of another is noticed; between iterators of one string the operators give the same result in every build.", "quantifier": "all fragment_strings (copies included), all pairs of iterators, all three builds", "why_tests_cant": "The tests run in one build only; what a release build does with iterators that do not belong together is undefined in part, and a test that happens to pass shows nothing.", "anchors": ["wite/string/fragment_string.hpp: iterator::operator==, iterator::operator<=>, iterator::operator-", "wite/string/fragment_string.hpp: iterator::_debug_verify_integrity"]}
{"id": "C167", "title": "a list of UUIDs survives being written as one line of text", "statement": "UUIDs printed with one format letter, joined with a delimiter, split with drop_empty and parsed with the same letter are the same list if the delimiter is neither a hexadecimal digit nor a character of the format; with a character of the format for delimiter, reading a list of at least one UUID throws. With keep_empty and at least one UUID the result is, for every delimiter, the same list or the exception, never another list.", "quantifier": "all lists of UUIDs of all lengths, all ten letters, all delimiters, machines of both byte orders", "why_tests_cant": "Each function is tested by itself on a few strings; whether they fit together for all lists and delimiters is not.", "anchors": ["wite/core/uuid.hpp: basic_uuid::str, basic_uuid(std::string_view, char)", "wite/string/join.hpp: join", "wite/string/split.hpp: split"]}
{"id": "C168", "title": "hexlify of the bytes of a UUID is its text in format N", "statement": "hexlify(id.data) is id.str('N'), unhexlify of id.str('N') is id.data, and parsing hexlify(id.data) with 'N' gives id.", "quantifier": "all UUIDs, machines of both byte orders", "why_tests_cant": "No test uses the two together, and on UUIDs such as the nil UUID they agree.", "anchors": ["wite/binascii/hexlify.hpp: hexlify, unhexlify", "wite/core/uuid.hpp: basic_uuid::str", "wite/core/uuid/uuid_functions.hpp: format_as_uuid_data"]}
{"id": "C169", "title": "byte strings survive being kept as hexadecimal digits in a file", "statement": "Byte strings turned into digits by hexlify, joined with a delimiter that hexlify does not print, written to a file, read, split and turned back by unhexlify are the same byte strings: all of a list of at least one with keep_empty, exactly those that are not empty with drop_empty; no other file changes.", "quantifier": "all lists of byte strings, all delimiters but the sixteen digits, all paths and file systems, operating systems that transfer everything", "why_tests_cant": "Each function is tested by itself on a few inputs; a program that uses five of them relies on all lists of all byte strings.", "anchors": ["wite/binascii/hexlify.hpp: hexlify, unhexlify", "wite/string/join.hpp: join", "wite/string/split.hpp: split", "wite/io/byte_buffer_file.hpp: write, read"]}
{"id": "C170", "title": "files of wrapped numbers and UUIDs mean the same on every machine", "statement": "Numbers wrapped in io::little_endian or io::big_endian and UUIDs, written to a buffer and the buffer to a file on one machine, are read as the same numbers and UUIDs on a machine of the same or the other byte order, and the UUIDs print the same; a number that is not wrapped is read as another number exactly if the byte orders differ and its bytes read differently backwards.", "quantifier": "all lists of numbers of all sizes, wrappers and UUIDs, both byte orders of the writer and the reader", "why_tests_cant": "The tests run on one machine.", "anchors": ["wite/io/byte_buffer_write.hpp: write","wite/io/byte_buffer_read.hpp: read", "wite/io/encoding.hpp: little_endian, big_endian", "wite/io/byte_buffer_file.hpp: write, read", "wite/core/uuid.hpp: basic_uuid::str"]}
{"id": "C171", "title": "empty() and size() of a range tell how many values it has", "statement": "empty() is true exactly if the range contains no value; size() is max() - min() for every range with min() <= max(), and 0 exactly if the range is empty.", "quantifier": "all value types, all four kinds of bounds, all ranges, all builds", "why_tests_cant": "All ranges and value types; the wrong results need ranges the tests do not make.", "anchors": ["wite/maths/value_range.hpp: empty, size, width, contains"]}
{"id": "C172", "title": "ranges of floating-point numbers behave like ranges of real numbers", "statement": "For ranges of floating-point numbers contains means to lie within the bounds, overlap is the intersection, clamp gives a value between the bounds, and envelope the smallest range with all arguments.", "quantifier": "all binary floating-point formats, all ranges, all values including infinities, zeros of both signs and NaN, all builds", "why_tests_cant": "The tests use a few finite numbers.", "anchors": ["wite/maths/value_range.hpp: contains, overlap, clamp, envelope"]}
{"id": "C173", "title": "two ranges are equal exactly if they contain the same values", "statement": "For value_ranges of one type, r == s exactly if every value is contained in both or in neither; == is an equivalence and != its opposite.", "quantifier": "all value types with a total order and all floating-point formats, all four kinds of bounds, all pairs of ranges", "why_tests_cant": "The tests compare a few pairs of ranges; the statement is about all pairs and all values.", "anchors": ["wite/maths/value_range.hpp: operator==, operator!=, contains"]}
{"id": "C174", "title": "interpolate and fraction of long double", "statement": "For long double ends a < b whose difference does not overflow: interpolate(f, a, b) is monotone in f, a at 0, b at 1 and between them for f in [0, 1]; fraction(x, a, b) for a <= x <= b is between 0 and 1, monotone in x, 0 at a and 1 at b; both agree with the functions for double where the two types are the same.", "quantifier": "all finite long double ends and values, all double fractions, every binary format at least as wide as double (x87 extended, binary128)", "why_tests_cant": "The tests use no long double; fraction passes one of its two differences through double, which matters only for some of the 2^240 arguments.", "anchors": ["wite/maths/numeric.hpp: interpolate, fraction"]}
{"id": "C175", "title": "std::sort and std::lower_bound over a static_vector", "statement": "In every build, std::sort(v.begin(), v.end(), lt) leaves the same elements in order, and std::lower_bound(v.begin(), v.end(), x) returns the iterator to the first element that is not less than x, end() if there is none; sorting and then searching finds every element.", "quantifier": "all capacities, contents, strict weak orders and values searched for; all builds", "why_tests_cant": "The tests call neither; whether the debug checks of the iterators let the library's own arithmetic pass depends on the order of the elements, of which there are n! for every n.", "anchors": ["wite/collections/dereferencing_iterator.hpp: operator+, operator+=, operator++, operator--, operator-", "wite/collections/static_vector.hpp: begin, end"]}
{"id": "C176", "title": "Insertion into streams that fail", "statement": "Inserting a UUID, index, point, range or fragment string into a stream that is good either delivers the whole text and leaves the stream as good as it was, or, if the device takes only k characters, exactly the first k of the same text, with the stream marked as failed; the call throws if the caller asked for exceptions on failure and returns if they asked for none. A stream that failed before receives nothing and stays failed. After any sequence of insertions, a stream that is still good holds everything.", "quantifier": "all values, widths, fills, adjustments, room left, exception masks, ways the device fails, library choices of error bits; all sequences of insertions", "why_tests_cant": "The tests insert into string streams, which never fail.", "anchors": ["wite/core/io.hpp: operator<<", "wite/geometry/io.hpp: operator<<", "wite/maths/io.hpp: operator<<", "wite/string/fragment_string.hpp: operator<<"]}
{"id": "C177", "title": "make_uuid in many threads, with a random device that may fail", "statement": "In every run of any number of threads, each thread gets the UUIDs it would get alone. While the random device throws, make_uuid throws the same and nothing else changes; from the first time it answers, the thread gets the sequence of that seed, whatever the device does later. Every UUID returned is a version-4 UUID.", "quantifier": "all interleavings of calls by all threads, all engines, all behaviours of the random device at each call", "why_tests_cant": "Concerns every interleaving, and a device that cannot be made to fail.", "anchors": ["wite/core/uuid.hpp: make_uuid"]}
{"id": "C178", "title": "How a text is divided into fragments makes no difference", "statement": "For texts with characters, at, [], front, back, copy, substr, compare, starts_with, ends_with, find and contains give the same results however the text and a fragment_string given as argument are divided into fragments, empty fragments included.", "quantifier": "all texts, all divisions into fragments with empty ones at any places, all positions, counts and arguments; all builds", "why_tests_cant": "The tests have a few literal fragments, hardly any of them empty; what goes wrong depends on where the empty fragments stand relative to the characters a call looks at.", "anchors": ["wite/string/fragment_string.hpp: operator[], at, front, back, copy, substr, compare, starts_with, ends_with, find, contains"]}
{"id": "C179", "title": "Standard algorithms do over the library's containers what they do over arrays", "statement": "Whatever an algorithm for random-access iterators does, if it is defined for an array of the same elements then it gives the same result over begin() and end(), or rbegin() and rend(), of a static_vector, of an identifiable_item_collection after any sequence of operations and of a fragment_string, and leaves the same elements behind.", "quantifier": "all algorithms that use iterators only through *, ++, --, +=, -=, +, -, [], ==, <=> and end on every input; all contents; all builds", "why_tests_cant": "The tests run a handful of algorithms over a few literal contents; the claim is about every algorithm, including those of other standard libraries.", "anchors": ["wite/collections/dereferencing_iterator.hpp: dereferencing_iterator", "wite/collections/static_vector.hpp: begin, end, rbegin, rend", "wite/collections/identifiable_item_collection.hpp: begin, end", "wite/string/fragment_string.hpp: iterator, begin, end, rbegin, rend"]}
{"id": "C180", "title": "contains, at, erase and excise agree on which item an id names", "statement": "For every type of id, whatever the container's ordering and the type's ==, at every moment of every program contains(id), at(id), erase(id) and excise(id) agree on whether there is an item with that id and which it is, and the collection stays consistent: what it iterates over is what it contains, in the order of insertion.", "quantifier": "all id types with any two comparisons (the associative container's equivalence of keys and operator==), all programs over the member functions, all builds", "why_tests_cant": "The tests use ids whose == and < agree; the header does not ask for that, and an associative container with its own ordering can be given as a template argument.", "anchors": ["wite/collections/identifiable_item_collection.hpp: erase, excise, contains, at, insert, try_insert, emplace"]}
{"id": "C181", "title": "Writing what lies in the buffer writes what a copy of it would", "statement": "For every buffer and every list of arguments, some of which are references to objects in the buffer or spans over such objects, write, write_at and try_write have the result and leave the bytes that they would with copies of the arguments made before the call; and read_range into a span over objects in the buffer stores there what the buffer held before the call.", "quantifier": "all contents of memory, all arguments and places in it, all sizes of objects and spans, both byte orders, copy_n byte after byte or at once", "why_tests_cant": "The tests write from variables and containers of their own; whether an argument has been overwritten when its turn comes depends on where every argument lies relative to every destination.", "anchors": ["wite/io/byte_buffer_write.hpp: write, write_at, try_write, _recursive_unsafe_write, _recursive_try_write, _write_single_range_value", "wite/io/byte_buffer_read.hpp: read_range"]}
{"id": "C182", "title": "A collection can be told which items are meant by references into itself", "statement": "In every collection, erase, excise, contains and at with references to ids that lie in items of the collection, or in items it handed out, do what they do with copies of those ids, also when one call of erase names several; and inserting a collection into itself changes nothing and reports every item as already there.", "quantifier": "all programs of calls that make the collection, all arguments, any id type and item type, every build", "why_tests_cant": "The tests name items by ids of their own; whether a reference is still valid when it is used depends on which items the arguments before it name and on what is left in the collection.", "anchors": ["wite/collections/identifiable_item_collection.hpp: erase, excise, contains, at, insert, try_insert"]}
{"id": "C183", "title": "What push_back and resize do with the object they are given", "statement": "push_back and resize of a static_vector take any object of the element type, an element of the vector itself included, and do what they would do with a copy made beforehand; a call that throws leaves its argument as it was; push_back(x) copies x once and push_back(std::move(x)) copies nothing; every object made on the way is destroyed exactly once.", "quantifier": "all capacities, contents, programs of calls, arguments (variables and elements, moved or not), and all ways moving may leave an object", "why_tests_cant": "The tests pass literals of built-in types, where copying, moving and losing a value cannot be told apart.", "anchors": ["wite/collections/static_vector.hpp: push_back, resize, _unsafe_resize, _alloc, clear"]}
{"id": "C184", "title": "static_lookup with numbers of several types", "statement": "Whenever the constructor of static_lookup or make_static_lookup compiles with pairs of numbers, at(x) with any number x gives the value of the first pair whose key equals x and throws std::out_of_range if there is none; likewise with(x) with the roles swapped.", "quantifier": "all integer and floating-point types of keys, values and arguments, all lists of pairs, all numbers", "why_tests_cant": "The tests use pairs of one type and arguments of the key type; which other types compile, and what conversions do to every number, is a matter of all types and all values.", "anchors": ["wite/collections/static_lookup.hpp: static_lookup, make_static_lookup, at, with", "wite/common/concepts.hpp: common_type_t"]}
{"id": "C185", "title": "Ranges and numbers of other types", "statement": "For every value_range of a number type and every number x of any number type, contains(x), below_min(x) and above_max(x) tell how the number x lies to the bounds, clamp(x) is the number between the bounds nearest to x, and value_range(a, b) has the numbers a and b as bounds.", "quantifier": "all integer and floating-point types of ranges and arguments, all ranges, all kinds of bounds, all numbers", "why_tests_cant": "The tests pass numbers of the type of the range; every other call compiles with a conversion, whose effect depends on all pairs of types and all values.", "anchors": ["wite/maths/value_range.hpp: value_range, contains, below_min, above_max, clamp"]}
{"id": "C186", "title": "The envelope of ranges with bounds of different kinds", "statement": "envelope(ranges...) with open, closed and half-open ranges of one value type in any order contains every value of every argument, and no smaller range does; envelope(values) takes every container, in a variable or not.", "quantifier": "all linearly ordered value types, all numbers and kinds of ranges, all builds", "why_tests_cant": "The tests only take envelopes of closed ranges and of a temporary vector; the kinds, positions and orders of the ranges are unbounded.", "anchors": ["wite/maths/value_range.hpp: envelope, min, max", "wite/common/concepts.hpp: common_type_t"]}
{"id": "C187", "title": "Splitting into containers of fixed capacity", "statement": "split_to<Container>(text, delimiter, behaviour) gives the pieces of split for every container with push_back; if the container cannot take all pieces, the caller gets the exception of its push_back.", "quantifier": "all texts, delimiters and behaviours, all containers with push_back, all capacities of static_vector", "why_tests_cant": "The tests only split into vectors; how many pieces a text has is unbounded, so whether they fit depends on every text and capacity.", "anchors": ["wite/string/split.hpp: split_to", "wite/collections/static_vector.hpp: push_back, resize"]}
{"id": "C188", "title": "Results and numbers of other types", "statement": "A number given to a result - at construction, as what a function passed to and_then or or_else returns, or as default of value_or - comes back from it as the same number, and as the value unless it has the type of the error.", "quantifier": "all integer and floating-point types of values, errors and arguments, all errors of other types, all numbers, all functions", "why_tests_cant": "The tests give numbers of exactly the value or error type; every other pair of types goes through overload resolution and a conversion, with different outcomes for different types and values.", "anchors": ["wite/core/result.hpp: result, and_then, or_else, value_or"]}
{"id": "C189", "title": "Points, ids and bounded values given numbers of other types", "statement": "A point, an id or a bounded value made of numbers of any number types, and a coordinate set to such a number, holds the numbers given.", "quantifier": "all integer and floating-point types of arguments and of coordinates, ids and values, all numbers, all numbers of dimensions, parentheses and braces, point and point_2d, point_3d, point_4d", "why_tests_cant": "The tests use constants of exactly the type of the coordinates; which other calls compile, and what they store, depends on every pair of types, on the brackets and on the value.", "anchors": ["wite/geometry/point.hpp: point, point_2d, set", "wite/core/id.hpp: id", "wite/maths/bounded_value.hpp: bounded_value"]}
{"id": "C190", "title": "Indices made of and moved by numbers of other types", "statement": "An index made of a number is this number, and adding a number to an index or subtracting it gives the sum or the difference, or, in a debug build, an assertion error exactly if that is not an index.", "quantifier": "all integer and floating-point types, all numbers, all indices, all builds", "why_tests_cant": "The tests move by small int constants; offsets of unsigned and floating-point types are converted to a signed 64-bit type first, which matters only for particular values.", "anchors": ["wite/core/index.hpp: index, operator+=, operator-=, operator+, operator-"]}
{"id": "C191", "title": "Functions for the alternatives of a variant", "statement": "A call of wite::overloaded, and std::visit with it, calls the function with a parameter of the type of the object, else the one with an auto parameter, with the object as it is and whatever the order of the functions; if an alternative of the variant has neither, it does not compile.", "quantifier": "all number types and other types, all sets and orders of functions, all variants and values held", "why_tests_cant": "Which function is called is decided by overload resolution for each pair of argument and parameter types; tests try a few types and cannot contain calls that should not compile.", "anchors": ["wite/core/overload.hpp: overloaded"]}
{"id": "C192", "title": "Objects declared without an initialiser", "statement": "An object of one of the library's value types that is declared without an initialiser has a defined value, the one that empty braces and static storage give it - the null UUID, an empty vector or string, zero - so that it can be read, copied and compared.", "quantifier": "all value types of the library with all element and value types, capacities and dimensions, all ways to declare an object, all builds", "why_tests_cant": "An object that was not initialised has whatever its memory held; a test that reads it mostly sees zero and cannot see that the read was undefined.", "anchors": ["wite/common/constructor_macros.hpp: WITE_DEFAULT_CONSTRUCTORS", "wite/core/id.hpp: id", "wite/core/index.hpp: index", "wite/core/uuid/basic_uuid.hpp: basic_uuid", "wite/geometry/point.hpp: point", "wite/maths/value_range.hpp: value_range", "wite/io/encoding.hpp: endianness"]}
{"id": "C193", "title": "The iterators compile wherever random access iterators do", "statement": "The iterators of static_vector, identifiable_item_collection and fragment_string, which declare themselves random access iterators, have all operations that the standard requires of such iterators; an iterator can be used wherever a const_iterator can, and the two can be compared with and subtracted from each other.", "quantifier": "all expressions made of iterators of all five classes, numbers, the operators of iterators, copies, default construction, assignment and swap", "why_tests_cant": "An operation that is missing in a template is found only by code that uses it; a test that compiles uses only operations that exist, and the algorithm of another standard library may use others.", "anchors": ["wite/collections/dereferencing_iterator.hpp: dereferencing_const_iterator", "wite/collections/dereferencing_iterator.hpp: dereferencing_iterator", "wite/string/fragment_string.hpp: basic_fragment_string::iterator"]}
{"id": "C194", "title": "Ids and indices of different kinds of objects cannot be mixed up", "statement": "Ids (and indices) of different kinds of objects can be compared with, converted to and assigned to each other only by way of value() or * and an explicit construction; a program that uses neither takes the same course whatever values the ids of each kind have, as long as their comparisons within the kind are the same, and wherever the indices of each kind start.", "quantifier": "all programs of assignments, comparisons, conditionals and loops over ids and indices of any number of kinds, all renamings of ids that keep comparisons, all shifts of indices, debug builds", "why_tests_cant": "That an expression does not compile cannot be tested by a program that compiles, and independence from the values of other kinds is a statement about all values and all programs.", "anchors": ["wite/core/id.hpp: id", "wite/core/index.hpp: index"]}
{"id": "C195", "title": "Exceptions of values in ranges reach the caller", "statement": "If copying, moving, comparing or assigning a value, or computing with it, throws during a call of a function of value_range or bounded_value, the exception reaches the caller and the range and the value are as before; if nothing throws, the call returns what it returns for values that never throw.", "quantifier": "all value types with a total order, all choices of operations that throw, all ranges and values, all builds", "why_tests_cant": "A test has to provoke the exception at one particular operation; which operations a call performs, and in which of them a noexcept function is active, depends on the values and on the build, and a test program does not survive the termination it would have to report.", "anchors": ["wite/maths/value_range.hpp: value_range", "wite/maths/bounded_value.hpp: bounded_value"]}
{"id": "C196", "title": "UUIDs are ordered like their texts", "statement": "For UUIDs u and v and any format, u < v exactly if u.str(format) < v.str(format), so that a list sorted as UUIDs is sorted as text.", "quantifier": "all pairs of UUIDs, all ten formats, machines of both byte orders", "why_tests_cant": "Whether the two orders agree depends on the first byte in which two UUIDs differ; tests compare a few pairs, and pairs that differ in one byte only agree.", "anchors": ["wite/core/uuid.hpp: uuid::operator<=>", "wite/core/uuid.hpp: uuid::str"]}
{"id": "C197", "title": "Blocks with scope_fail guards are all or nothing", "statement": "If each change in a block is followed by a scope_fail guard whose function undoes it, then after an exception leaves the block everything is as before, and if no step throws all changes are made; this holds wherever the block is executed.", "quantifier": "all blocks of any number of steps, all steps that change nothing if they throw, all guard functions that undo their step, all contexts including functions called during stack unwinding", "why_tests_cant": "A test makes one step fail in one context; that any prefix of steps is undone in the right order, and that nothing is undone after success whatever exceptions are in flight around the block, is about all blocks and contexts.", "anchors": ["wite/core/scope.hpp: scope_fail", "wite/core/scope.hpp: _chech_exit_condition"]}
{"id": "C198", "title": "The library's types can be inserted into streams", "statement": "Once the header with the operator for a type of the library is included, an object of that type whose parts can be inserted can be inserted into a stream with << anywhere: in every namespace, by templates of the standard library, whatever the order of the includes.", "quantifier": "all library types with operators nested to any depth (ids and ranges of ids, UUIDs, points and so on), all orders of includes, all namespaces the code is in and all declarations of operator<< in them, narrow and wide streams", "why_tests_cant": "A test shows that one expression compiles in one place; that another does not compile elsewhere cannot be put in a test that compiles, and which places and orders of includes work is a statement about all of them.", "anchors": ["wite/core/io.hpp: operator<<", "wite/geometry/io.hpp: operator<<", "wite/maths/io.hpp: operator<<", "wite/string/fragment_string.hpp: operator<<", "wite/wite.hpp"]}
{"id": "C199", "title": "insert, try_insert and erase do the same with whatever stands for an item or an id", "statement": "A call of insert, try_insert or erase of a collection with anything that converts to an item (or id) compiles and does what the call with the item (or id) itself does, with a result of the same type. Several items or ids can be given in one call, as arguments or in a range. What is passed as a temporary is moved, not copied.", "quantifier": "all item and id types (also ones that are ranges of themselves, or cannot be copied or moved), all types of arguments described by how they convert, whether they have id() and what they contain, all numbers of arguments, const and not, variables and temporaries", "why_tests_cant": "Which overload is found depends on facts about the types a user brings; a test fixes the types, and that a call does not compile, or compiles only for some types, cannot be observed by a test that compiles.", "anchors": ["wite/collections/identifiable_item_collection.hpp: insert", "wite/collections/identifiable_item_collection.hpp: try_insert", "wite/collections/identifiable_item_collection.hpp: erase", "wite/core/id.hpp: id_like"]}
{"id": "C200", "title": "Whatever the bytes, a read or parse fails or gives a value of its type", "statement": "Bytes and texts from outside can be read with read, try_read, their range and position forms, views, streams and from_hex_chars: the call reports that there are too few bytes or wrong characters, or returns a value of the type asked for. It is never undefined.", "quantifier": "all lists of types, described by size, encoding, whether they are classes and which patterns of bytes are values (a bool is 0 or 1), all buffers, positions, stream states and texts", "why_tests_cant": "Tests read back what they wrote, which are values. A bool made from another byte has no defined behaviour, so a test that reads one shows nothing, and no test covers every type.", "anchors": ["wite/io/byte_buffer_read.hpp: unchecked_read", "wite/io/byte_buffer_read.hpp: read", "wite/io/byte_buffer_read.hpp: try_read", "wite/io/byte_read_buffer_view.hpp: read", "wite/io/byte_stream.hpp: read", "wite/binascii/hexlify.hpp: unsafe_from_hex_chars", "wite/binascii/hexlify.hpp: try_from_hex_chars"]}
{"id": "C201", "title": "Buffers may have elements of any one-byte type", "statement": "The reading and writing functions accept buffers of any one-byte elements, and WITE_BYTE can be configured as char, uint8_t or int8_t. Whatever the element type, a call does the same with the bytes and is never undefined on account of the element type.", "quantifier": "all one-byte scalar element types of buffers, all types of values (described by the scalar each of their bytes belongs to), all buffers, positions, encodings and byte orders", "why_tests_cant": "Accessing an int as int8_t, char8_t or an enumeration is undefined, but compilers usually produce the expected bytes, so tests pass until an optimiser uses the rule. No test covers all pairs of types.", "anchors": ["wite/io/byte_buffer_read.hpp: unchecked_read", "wite/io/byte_buffer_write.hpp: _write_single_value", "wite/io/byte_buffer_write.hpp: _write_single_encoded_value", "wite/io/encoding.hpp: byte_begin", "wite/io/byte_buffer_write.hpp: to_bytes", "wite/env/features.hpp: WITE_BYTE"]}
{"id": "C202", "title": "A file can be named by anything a path can be made of", "statement": "read, write, try_read and try_write of files take a std::filesystem::path, so a literal, a pointer, a string, a string view or a path names the file, whether variable, constant or temporary, and whatever other headers of the library are included. The name is not changed.", "quantifier": "all forms of names, character sizes, constness and value categories, all combinations of included headers, all containers of bytes, counts, contents of file systems and byte orders", "why_tests_cant": "The tests name files by std::filesystem::path variables only. Which overload is found depends on the type of the name and on the headers included, and a call that finds the wrong one compiles, returns normally and reports success.", "anchors": ["wite/io/byte_buffer_file.hpp: read", "wite/io/byte_buffer_file.hpp: write", "wite/io/byte_buffer_file.hpp: try_write", "wite/io/byte_buffer_write.hpp: write", "wite/io/byte_buffer_write.hpp: try_write", "wite/io/concepts.hpp: byte_range_like"]}
{"id": "C203", "title": "What is declared constexpr can be evaluated at compile time", "statement": "Calls of the functions of fragment_string, static_vector and static_lookup that are declared constexpr, of is_not_whitespace and of the check of a scope guard are constant expressions whenever they return normally at run time, in every build.", "quantifier": "all strings of fragments, vectors, tables, elements, arguments and builds", "why_tests_cant": "A test evaluated at run time does not show whether the call could be evaluated at compile time, and compilers do not diagnose constexpr templates none of whose calls is a constant expression. Which functions are constexpr depends on the build.", "anchors": ["wite/string/fragment_string.hpp: basic_fragment_string", "wite/collections/static_vector.hpp: static_vector", "wite/collections/static_lookup.hpp: static_lookup", "wite/collections/dereferencing_iterator.hpp: operator++", "wite/env/configuration.hpp: _WITE_RELEASE_CONSTEXPR", "wite/string/trim.hpp: is_not_whitespace", "wite/core/scope.hpp: _chech_exit_condition"]}
{"id": "C204", "title": "A fragment string takes text in the forms in which std::string takes it", "statement": "Construction, compare, starts_with, ends_with, contains, find, + and == of basic_fragment_string<C, N> take text of characters C as array, pointer, string, view, fragment string or single character wherever std::basic_string<C> does, treat every form of a text alike, and take no text and no characters of other character types.", "quantifier": "all character types, numbers of fragments, functions, forms of text, texts, strings of fragments and positions", "why_tests_cant": "Calls that do not compile cannot stand in a test, and a test exercises the forms of text its author thought of. The overload found depends on the form and the character type together.", "anchors": ["wite/string/fragment_string.hpp: basic_fragment_string", "wite/string/fragment_string.hpp: compare", "wite/string/fragment_string.hpp: starts_with", "wite/string/fragment_string.hpp: ends_with", "wite/string/fragment_string.hpp: contains", "wite/string/fragment_string.hpp: find", "wite/string/fragment_string.hpp: operator+"]}
{"id": "C205", "title": "Copying, moving and swapping vectors concerns their elements and nothing else", "statement": "Copying a static_vector copies each of its elements once; moving it moves each of them and leaves it without elements; assignment and swap assign, make, destroy, swap or move across elements only; no vector keeps objects alive that are not its elements; every object made is destroyed exactly once.", "quantifier": "all capacities, element types, contents, ways moving may leave an object, and programs of copies, moves, assignments, swaps, calls and ends of any number of vectors", "why_tests_cant": "Which objects live in the slots behind the elements does not show in what a vector returns, and it depends on the whole history of calls; a test follows a few objects through a few calls.", "anchors": ["wite/collections/static_vector.hpp: static_vector", "wite/collections/static_vector.hpp: swap", "wite/collections/static_vector.hpp: clear", "wite/common/constructor_macros.hpp: WITE_DEFAULT_CONSTRUCTORS"]}
{"id": "C206", "title": "The library's types can be keys of the standard's containers", "statement": "UUIDs, ids, indices, points, ranges, vectors and fragment strings can be keys of std::map, std::set and their unordered counterparts; a container with such keys finds exactly what was put in under equal keys and has not been erased, and an ordered one iterates in ascending order.", "quantifier": "all sequences of insert, find and erase, all keys, every shape the search tree may take and every number of buckets and rehashing, every std::hash<uint64_t>, both endiannesses, all dimensions and floating-point formats", "why_tests_cant": "Whether a tree stays searchable depends on the order being a strict weak order on all triples of keys and on all shapes of the tree; a test inserts a few keys into the tree of one implementation, and NaN keys corrupt the answers only in combination with others.", "anchors": ["wite/core/uuid.hpp: operator<=>", "wite/core/uuid.hpp: std::hash<uuid>", "wite/core/uuid/uuid_hash.hpp: std::hash<basic_uuid>", "wite/core/id.hpp: operator<=>", "wite/core/index.hpp: operator<=>", "wite/geometry/point.hpp: operator<=>", "wite/maths/value_range.hpp: operator==", "wite/collections/static_vector.hpp: operator=="]}
{"id": "C207", "title": "The library's types are values made of values", "statement": "Objects of the library's types can be made without arguments, copied, moved, assigned and swapped whenever objects of the types they are made of can, so they nest in one another and in containers to any depth, and the members of vectors, results and lookups compile for them.", "quantifier": "all types built from the library's class templates to any depth over any other types, whatever these can do", "why_tests_cant": "Which special member functions exist is decided by the compiler for each of the infinitely many instantiations; a test instantiates a few, mostly with int, and a deleted member shows up only as a compile error in a user's program.", "anchors": ["wite/common/constructor_macros.hpp: WITE_DEFAULT_CONSTRUCTORS", "wite/common/constructor_macros.hpp: WITE_MOVABLE_ONLY", "wite/collections/static_vector.hpp: static_vector", "wite/core/result.hpp: result", "wite/collections/static_lookup.hpp: static_lookup", "wite/collections/identifiable_item_collection.hpp: identifiable_item_collection", "wite/io/byte_read_buffer_view.hpp: byte_read_buffer_view", "wite/core/scope.hpp: scope_exit", "wite/maths/bounded_value.hpp: bounded_value", "wite/maths/value_range.hpp: value_range"]}
{"id": "C208", "title": "Vectors serialised behind their sizes", "statement": "Vectors written one after another through a view, each behind its size as the README suggests, are read back as they were, whatever the sizes of their elements and in whatever encoding the sizes are stored. A record that does not fit is not written at all. A reader given any other bytes reads a vector that is there or reports an error with the cursor where it was, and asks for no more memory than the buffer holds.", "quantifier": "all lists of vectors of all element sizes, all widths and encodings of the stored size, both endiannesses, all buffers, cursors and decisions of the allocator", "why_tests_cant": "Tests round-trip one vector; that no bytes of a hostile or truncated buffer lead out of bounds, and what is left of the reader when they do not parse, is a statement about all buffers.", "anchors": ["README.md: writer.write(uint64_t{v.size()}, v)", "wite/io/byte_write_buffer_view.hpp: write", "wite/io/byte_write_buffer_view.hpp: try_write", "wite/io/byte_read_buffer_view.hpp: read_range", "wite/io/byte_read_buffer_view.hpp: try_read_range"]}
{"id": "C209", "title": "Lookups with text", "statement": "A static_lookup whose keys or values are text finds by text, whichever of the usual forms of text (C string, string view, string) it is made of and asked with: a mapping is found by any text with the same characters as the one it was made with, and by no other.", "quantifier": "all lookups of any number of mappings, all texts in all forms, all memories at the time of making and asking", "why_tests_cant": "In tests equal literals usually share one address and nothing they refer to changes or dies, so lookups of pointers and dangling views appear to work.", "anchors": ["README.md: static_lookup, Warning", "wite/collections/static_lookup.hpp: static_lookup", "wite/collections/static_lookup.hpp: _init", "wite/collections/static_lookup.hpp: get"]}
{"id": "C210", "title": "The associative container of a collection can be chosen", "statement": "An identifiable_item_collection does the same on whichever associative container it is built: with std::map in any strict weak order and with std::unordered_map with any hash that is the same for equal ids, every program gets the same answers and sees the same items in the same order, provided the two containers tell the same ids apart. How the map balances its tree and when the table grows makes no difference.", "quantifier": "all id and item types, all containers that do what a map has to do, all strict weak orders, all hash functions and equalities that fit, all ways of balancing and growing, all programs over the member functions, all patterns of failing allocations, all builds", "why_tests_cant": "Tests use one container with one type of id and a few items; that collisions, rehashing and tree shapes are never visible is a statement about all of them.", "anchors": ["wite/collections/identifiable_item_collection.hpp: identifiable_item_collection", "wite/collections/identifiable_item_collection.hpp: _try_unchecked_insert", "wite/collections/identifiable_item_collection.hpp: erase", "wite/collections/identifiable_item_collection.hpp: clear"]}
{"id": "C211", "title": "Nested data of any shape survives a write and a read through the views, and nothing else is read", "statement": "A program serialises data of any shape built from numbers (of any width, native or in an endian wrapper, several in one call), pairs, sequences behind their count and alternatives behind a tag, with write on a byte_write_buffer_view, and reads it with read on a byte_read_buffer_view. Writing leaves exactly the digits of the numbers at the cursor and changes nothing else, or throws std::out_of_range with only a proper part of them written and the cursor behind that part. Reading arbitrary bytes returns a piece of data exactly if what follows the cursor begins with its bytes, and uses up exactly those; otherwise it throws, with the cursor inside the buffer and the bytes unchanged, and data cut short anywhere throws std::out_of_range. No bytes mean two things. What was written is read back, in any number of pieces, also on a machine of the other byte order if every number is in an endian wrapper. The same programs with try_write and try_read return a value exactly where these return, with the same view.", "quantifier": "for all layouts, all data fitting its types, all buffers, cursors and byte orders of the two machines, and, for reading, all bytes", "why_tests_cant": "The layouts are an infinite family closed under nesting, and the reading half is about every possible content of the buffer, including every truncation of every message; a test has one layout and a few messages.", "anchors": ["wite/io/byte_write_buffer_view.hpp:74", "wite/io/byte_write_buffer_view.hpp:92", "wite/io/byte_read_buffer_view.hpp:77", "wite/io/byte_read_buffer_view.hpp:103", "README.md:642"]}
{"id": "C212", "title": "Nested data under UUIDs kept in a text file is loaded as it was saved, or loading throws", "statement": "A program keeps records, each a UUID and nested data of any shape, in a text file: each record is a line made with uuid::str, a byte_write_buffer_view, hexlify and join; the lines are joined and written with io::write, and loaded with io::read, split, uuid's constructor, unhexlify and a byte_read_buffer_view. Saving leaves exactly one line for each record in the file and all other files alone; if a record does not fit into the program's buffer, saving throws std::out_of_range and touches no file. Loading returns the records that were saved, in every format of UUIDs, and on a machine of the other byte order if the data uses only endian wrappers. In the formats other than X, loading any file returns records exactly if its non-empty lines mean those records, and otherwise throws; what was loaded can be saved and loaded again in any format. A saved file that was cut short loads as the records in front of the cut if it was cut at the end of a line, and otherwise loading throws. If the operating system delivers fewer bytes than the file has, loading throws.", "quantifier": "for all layouts, records, formats, separators and line ends that are neither hexadecimal digits nor characters of the format nor NUL, byte orders, operating systems, contents of files and places of the cut", "why_tests_cant": "The claim is about a program through seven parts of the library, for every layout, every content of the file and every place where it may be cut; that a file read short is noticed although io::read ignores how much fread delivered depends on NULs never being digits and on lines having an even number of digits.", "anchors": ["wite/core/uuid.hpp:79", "wite/core/uuid.hpp:96", "wite/binascii/hexlify.hpp:370", "wite/binascii/hexlify.hpp:391", "wite/string/join.hpp:42", "wite/string/split.hpp:117", "wite/io/byte_buffer_file.hpp:86", "wite/io/byte_buffer_file.hpp:135"]}
{"id": "C213", "title": "min, max, minmax and envelope accept any number of values of every ordered type, and envelope ranges of them", "statement": "For every totally ordered type, maths::min, max, minmax and envelope can be called with any number of values of it from two on, and maths::min, max and envelope with any number of ranges of it from two on: such a program compiles.", "quantifier": "for all types, by whether they are plain, ordered, associated with namespace std, have min(), max() and value_type; for all numbers of arguments; for all ways of passing them as variables, const variables and temporaries", "why_tests_cant": "A test suite consists of the calls that compile; which calls do not, for which types and from which number of arguments on, is a statement about overload resolution over all types. The calls inside are unqualified, so that std::min with a comparison function is chosen where three values of a type of std are left.", "anchors": ["wite/maths/numeric.hpp:45", "wite/maths/numeric.hpp:52", "wite/maths/numeric.hpp:58", "wite/maths/numeric.hpp:112", "wite/maths/numeric.hpp:122", "wite/maths/value_range.hpp:163", "wite/maths/value_range.hpp:168", "wite/maths/value_range.hpp:202"]}
{"id": "C214", "title": "Every version-4 UUID is equally likely", "statement": "Whether made with an engine of the user's or with make_uuid, every version-4 UUID and every sequence of them is equally likely: it is made by as many of the possible random numbers as any other, so two UUIDs are the same with probability 2^-122, and UUIDs made one after the other do not depend on each other.", "quantifier": "for all engines whose results are all numbers of w bits with w a divisor of 64, all UUIDs, all sequences of UUIDs of any length, both byte orders, and for make_uuid all engines, random devices and threads", "why_tests_cant": "Of the 2^128 draws no test can count those that give a UUID, and no sample shows that every one of the 2^122 UUIDs is made by the same number of draws. That make_uuid has only 2^32 first results per thread is invisible in the UUIDs themselves.", "anchors": ["wite/core/uuid.hpp:62", "wite/core/uuid.hpp:69", "wite/core/uuid.hpp:72", "wite/core/uuid.hpp:75"]}
{"id": "C215", "title": "A stream that is read and written at once is a queue of values", "statement": "With one stream for both, the values read are those written, in the order in which they were written, however writing and reading alternate; a value that is not there yet can be read later, when it is; and with the stream positioned before each call, what is written at a place is what is read from there.", "quantifier": "for all string streams and files opened for both, all contents, positions and exception masks, all programs of any length that write, read, position and clear", "why_tests_cant": "A test writes some values and reads them. That no interleaving of any length mixes up values, and that one read too early makes every later write vanish without a report, are statements about all programs on a stream.", "anchors": ["wite/io/byte_stream.hpp:25", "wite/io/byte_stream.hpp:28", "wite/io/byte_stream.hpp:36", "wite/io/byte_stream.hpp:39"]}
{"id": "C216", "title": "Exceptions of keys and values in a lookup reach the caller", "statement": "Making a lookup copies every mapping once; an exception of making, copying, assigning or comparing a key or value reaches the caller; at(k) and with(v) compare in order, up to the first that is equal and no further, and change nothing.", "quantifier": "for all types of keys and values, every operation of which may throw at any time, all numbers of mappings, all lookups and arguments", "why_tests_cant": "It is about every point at which any of the user's operations may throw, and about how many there are for every number of mappings; a test lets one operation throw in a lookup of a few mappings.", "anchors": ["wite/collections/static_lookup.hpp:44", "wite/collections/static_lookup.hpp:59", "wite/collections/static_lookup.hpp:61", "wite/collections/static_lookup.hpp:64", "wite/collections/static_lookup.hpp:70", "wite/collections/static_lookup.hpp:101"]}
{"id": "C217", "title": "What was written to a file stream is in the file", "statement": "If write(stream, value) returns and the std::ofstream is good, the bytes of the value and of all values written before are in the file when the stream is gone, and the call that reports an error is the one whose bytes did not fit.", "quantifier": "for all programs of writes and flushes, all sizes of buffers and all times at which an implementation empties them, all devices, all exceptions() masks, with and without unitbuf", "why_tests_cant": "A test has one implementation, whose buffer is larger than what the test writes, and a device that never runs full; the bytes are lost in the destructor, which reports nothing.", "anchors": ["wite/io/byte_stream.hpp:36", "wite/io/byte_stream.hpp:38", "wite/io/byte_stream.hpp:39"]}
{"id": "C218", "title": "A file that is replaced while it is read is read as it was before or after", "statement": "A program that reads a file with io::read or io::try_read while other programs replace its content with io::write or io::try_write gets the bytes before or after a replacement, never a mixture or a part, and a program that is stopped while it writes leaves the old bytes or the new ones.", "quantifier": "for all old and new bytes, all numbers of processes, all interleavings of the steps of their calls, all sizes of the pieces in which bytes are transferred, and processes killed at any step", "why_tests_cant": "A unit test is one process that does one call after the other; the interleavings with other processes, and the moments at which a process may be killed, cannot be enumerated or even provoked from a test.", "anchors": ["wite/io/byte_buffer_file.hpp:86", "wite/io/byte_buffer_file.hpp:92", "wite/io/byte_buffer_file.hpp:102", "wite/io/byte_buffer_file.hpp:109", "wite/io/byte_buffer_file.hpp:135", "wite/io/byte_buffer_file.hpp:136", "wite/io/byte_buffer_file.hpp:165"]}
{"id": "C219", "title": "Threads may use different parts of one buffer at the same time", "statement": "Threads that read and write one buffer with read_at, write_at, try_read_at and try_write_at, none of them writing over bytes that another one reads or writes, have no data race, each call has the result it has when its thread has the buffer to itself, and the bytes afterwards do not depend on the order of the accesses. A thread finishes without waiting for another. Where one thread writes over bytes that another one uses, every completed run has a race.", "quantifier": "for all buffers, all numbers of threads, all sequences of calls with all values, types and positions, including calls that fail, and all interleavings of the accesses to single bytes", "why_tests_cant": "A test run sees a few interleavings, chosen by the scheduler; that no interleaving whatsoever of any calls has a race, or changes a result, is a statement about all of them.", "anchors": ["wite/io/byte_buffer_read.hpp:110", "wite/io/byte_buffer_read.hpp:189", "wite/io/byte_buffer_read.hpp:49", "wite/io/byte_buffer_write.hpp:281", "wite/io/byte_buffer_write.hpp:193", "wite/io/byte_buffer_write.hpp:40"]}
{"id": "C220", "title": "Tables of text of any depth survive being joined and split", "statement": "A list of texts, a table, a list of tables and so on, joined level by level with a different delimiter for each level and split again in the opposite order, is what it was before. Whitespace that was added around the cells can be removed with strip.", "quantifier": "for all depths, all shapes of tables, all texts, all delimiters, both behaviours of split, and all classifications of whitespace", "why_tests_cant": "The tables have any depth and any shape, with empty cells, rows and tables at any places; tests use a few small ones, and which empty parts come back and which do not shows only when all are considered.", "anchors": ["wite/string/join.hpp:42", "wite/string/split.hpp:78", "wite/string/split.hpp:117", "wite/string/strip.hpp:25"]}
{"id": "C221", "title": "interpolate finds an integer again from its fraction", "statement": "For integers a < b whose difference the type can hold and every x with a <= x <= b, interpolate(fraction(x, a, b), a, b) == x, with the double arithmetic the code uses. For 0 <= f <= 1, fraction(interpolate(f, a, b), a, b) is f up to less than two steps of the range. The README calls fraction the inverse of interpolate.", "quantifier": "for all integer types, all a < b, all x between them and all doubles f in [0, 1]", "why_tests_cant": "Whether x comes back depends on how x - a divided by b - a is rounded; most small examples work, 1 of 49 does not, and no finite set of pairs settles the others.", "anchors": ["wite/maths/numeric.hpp:128", "wite/maths/numeric.hpp:133", "README.md:986"]}
