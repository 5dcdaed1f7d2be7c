{
 "C08": "False as stated: std::isspace is called on a plain char, so any reachable byte above 0x7F is undefined behaviour (c08_refuted_...). Proved for ASCII strings, plus an exact characterisation of when trim_left is undefined.",
 "C11": "False as stated: unhexlify of an odd-length string returns normally and never examines the last character (c11_refuted_...). Proved: exact behaviour on every string, and the full claim for even lengths.",
 "C36": "False as stated when position + increment wraps modulo 2^64 (c36_refuted_...). Proved whenever the sum does not wrap, and, for every position, exactly what each value is (c36_every_position_partial).",
 "C48": "False as stated: the number of bytes fwrite accepted is ignored, so a short write is reported as success (c48_refuted_...). Proved: the file then holds exactly the accepted prefix.",
 "C49": "False as stated: a count beyond the buffer makes fwrite read past its end (c49_refuted_...). Proved for counts within the buffer, and that these are exactly the undefined calls.",
 "C97": "False as stated: the number of bytes fread delivered is ignored, so after a short read the rest of the result is zero bytes (read) or stale caller bytes (try_read) reported as file content (c97_refuted_...). Proved for reads the system completes, and the exact result otherwise.",
 "C22": "False as stated: a 68-character string with more than 32 digits overruns the 32-digit buffer, and one ending in '0' reads past the end of the string (c22_refuted_...). Proved: exactly which strings are undefined (c22_undefined_iff_partial), for strings of any characters; strings of another length are rejected.",
 "C25": "False as stated: byte 6 is the low byte of the little-endian third field, so the '4' is printed as the 17th character and the 15th is arbitrary (c25_refuted). Proved: the actual position, and the variant character.",
 "C99": "False as stated: wide characters above 255 are passed to std::isxdigit, which is undefined (c99_refuted_...). Proved, for strings of any characters: undefined exactly for strings of the right length with all separators in place and a character above 255; accepted exactly if the string has the shape of the format; everything else is rejected safely.",
 "C100": "False as stated: every successful parse searches for a NUL behind the full 32-character buffer (c100_refuted_...). Proved: given a NUL behind the buffer, the other contents make no difference.",
 "C101": "False as stated: any 68 characters with 32 digits among them are accepted (c101_refuted_...). Proved: X text is accepted with the right value, and exactly which strings are accepted (with which UUID) and which are rejected.",
 "C102": "False as stated: the hash is the exclusive or of the hashes of the halves, so equal halves give 0 and swapped halves collide (c102_refuted_...). Proved: with an injective underlying hash two UUIDs sharing a half in the same place do not collide.",
 "C53": "False as stated: the condition is whether any exception is in flight, so in code run by a destructor during unwinding scope_success does not run and scope_fail does although their scope is left normally (c53_refuted_...). Proved: the documented behaviour for programs whose guard functions declare only scope_exit guards, and the exact rule followed in every program.",
 "C54": "False as stated: assignment leaves both guards engaged, so a function pointer runs twice and the target's old function never (c54_refuted...). Proved: exactly once if the source is released after the assignment.",
 "C59": "False for the size constructor, which sets the size without creating elements and without checking the capacity. Proved for programs using the other constructors.",
 "C62": "False for clear(), which only resets the count. Proved for resize to a smaller size.",
 "C65": "False for insert of a range and the initialiser-list constructor, which drop duplicates silently. Proved for single insert, try_insert, emplace, variadic insert and the try_insert forms for several items.",
 "C66": "False: an id changed through the reference leaves map and order inconsistent, up to undefined behaviour. Proved for modifications that keep the id.",
 "C70": "False in debug builds for moves by an offset to end(). Proved for release builds without restriction, and for debug builds for moves to elements and for single steps.",
 "C103": "False if the vector of pointers cannot grow: the item stays in the map. Proved for failing to allocate the item or the map node.",
 "C73": "False for floating-point prev_value at and below numeric_limits<T>::min(), the smallest positive normal number: it moves up instead of down (c73_refuted_prev). Proved for integers, for next_value everywhere and for prev_value above that number.",
 "C79": "False for ranges with an open end: ranges that only touch overlap in an empty range instead of nullopt (c79_refuted_open). Proved: the values are right for every kind of bounds, and nullopt is exact for closed ranges.",
 "C80": "False for open ends: clamp returns the bound itself, which the range does not contain (c80_refuted_open). Proved: nearest bound, idempotent, monotone for every kind of bounds; contained for closed ones.",
 "C81": "False for unsigned types, and signed ones of fewer than 32 bits, with open bounds at the extremes of the type, where next_value/prev_value wrap (c81_refuted_...). Proved for closed ranges, for signed types of at least 32 bits, and for histories that avoid the extremes.",
 "C82": "False for signed types when max - min overflows (c82_refuted). Proved whenever the size fits, which every unsigned range's does.",
 "C84": "False for floating-point types: the default lower bound is the smallest positive normal number, so zero and every negative number are out of bounds (c84_refuted). Proved for integers and for floating-point numbers from that bound on.",
 "C76": "False for integers, whose numeric_limits NaN is 0 (c76_refuted_int). Proved for floating-point types.",
 "C104": "False at the upper end: rounding of the difference makes interpolate(1, a, b) miss b, in either direction (c104_refuted_...), and even infinite for some finite a and the largest b (c104_refuted_infinite). Proved: never NaN, monotone, a at 0, not below a; the upper end too where the difference is representable; otherwise finite results miss it by at most 2^-m of the difference, where m is the number of stored bits of the significand, 52 for double (c104_near_partial), and results are finite if a <= 0 or there is that much room above b (c104_finite_partial). What happens with infinite ends is c104_infinite.",
 "C106": "False for differences above 2^53, where the rounded product can exceed the difference, up to undefined behaviour and unsigned wrap-around (c106_refuted); f = 1 is undefined for every signed 64-bit range at least 2^63 - 512 wide and every unsigned one at least 2^64 - 1024 wide (c106_refuted_wide). Proved for differences up to 2^53 (c106_partial). For differences up to 2^(54+s), where the type also holds b + 2^s and b - a + 2^s, everything holds except that the upper end is met only to within 2^s (c106_near_partial). Fractions that are not finite are always undefined (c106_nonfinite).",
 "C107": "False whenever max - min overflows to infinity: mid() is then minus infinity (c107_refuted). Proved whenever it does not.",
 "C108": "False for integer types: the fraction is truncated to an integer, so every fraction in [0, 1) gives the lower bound (c108_refuted, c108_int_truncated). Proved for floating-point types and fractions of that type.",
 "C109": "False for NaN, which is accepted as either bound, and for open bounds with infinity or with arguments below numeric_limits<T>::min(), where prev_value moves up (c109_refuted_...). Proved for the other arguments.",
 "C72": "False for lists longer than the dimension, which are written past the end of the array (c72_refuted). Proved for lists up to the dimension; coordinates left over are indeterminate.",
 "C85": "False as stated: iterating over a string with an empty fragment before the last one is undefined (c85_refuted, c85_refuted_general: for every such string, both directions). Proved for every string in which only the last fragment may be empty.",
 "C86": "False as stated when a fragment before the last is empty (c86_refuted). Proved in full when only the last fragment may be empty, together with what happens outside the string: assertion in debug; endless loop forward, undefined backward in release. The distance from begin() to end() is right for every string.",
 "C87": "False as stated: front(), back(), at() and [] are undefined at or next to empty fragments (c87_refuted for all strings that begin or end with an empty fragment; c87_refuted_position for all positions at which an empty fragment begins). Proved when only the last fragment may be empty (at, []), at every other position whatever the fragments (c87_position_partial), and when the first / last fragment is not empty (front / back); at() throws exactly outside the string for every fragmentation.",
 "C88": "False as stated when a fragment before the last is empty: undefined (c88_refuted; C178 has the exact outcome of comparing such a string with a text). Proved when only last fragments may be empty.",
 "C89": "False as stated: a string without characters does not start or end with the empty string, and empty fragments make the character overloads undefined (c89_refuted). Proved: the exact result when only last fragments may be empty.",
 "C90": "False as stated: contains(fragment_string) misses an occurrence at the very end, so no string contains itself (c90_refuted, c90_refuted_self). Proved: the character overload in full; the string overload when only the last fragment may be empty; for the fragment_string overload the exact result.",
 "C91": "False as stated: find(ch, pos) searches from the beginning of the fragment that contains pos and can return an offset below pos (c91_refuted; c91_refuted_all: it does so for every string whose fragment with pos has the character before pos). Proved: exact behaviour; right without a position and whenever the character does not occur in the fragment before pos.",
 "C92": "False as stated: find(\"\", length()) and positions for which pos + size wraps are undefined (c92_refuted_end, c92_refuted_wrap). Proved in all other cases when only the last fragment may be empty.",
 "C93": "False as stated: substr is undefined whenever pos + count wraps modulo 2^64 and count is not npos (c93_refuted). Proved in all other cases, and copy for every count, when only the last fragment may be empty. As in the code, pos == length() counts as out of range.",
 "C94": "False as stated: to_str() of a string with a default-constructed part appends a null pointer, which is undefined (c94_refuted). Proved for all strings made from C strings and +; length and stream output are right for every string.",
 "C112": "False as stated for negative char values (c112_refuted; c112_refuted_all: the order is reversed whenever the texts first differ in one negative and one non-negative character). Proved for ASCII characters when only the last fragment may be empty.",
 "C113": "False as stated: the literal operators ignore the length they are given, so characters after an embedded zero are lost (c113_refuted, for every such literal). Proved for literals without zeros.",
 "C114": "False as stated: only the first fragment is padded (c114_refuted). Proved: it holds exactly when the first fragment fills the width or the others have no characters (c114_exact_partial).",
 "C115": "False as stated for a null pointer: split(nullptr) returns no pieces, the trimming functions are undefined (c115_refuted_null). Proved for every pointer to terminated text, and that text without a terminator is undefined.",
 "C118": "False as stated: the engine is seeded with 32 bits, so for every engine some version-4 UUID is never the first result of a thread (c118_refuted_reachable), and threads whose devices return the same 32 bits once get the same UUIDs for ever (c118_refuted_threads). Proved: call i uses draws 2i and 2i+1 of the thread's engine, and every result is a version-4 UUID.",
 "C119": "False as stated: the class has alignment 1 but both functions access it through uint64_t*, undefined at every address that is not a multiple of 8 (c119_refuted); by the aliasing rule they are undefined at every address, because the bytes of a UUID are no uint64_t (c119_refuted_aliasing). Proved: without the aliasing rule the results at multiples of 8 do not depend on the address (c119_partial), and printing is always allowed (c119_text_partial).",
 "C120": "False on big-endian hosts: the numbers are printed byte-reversed (c120_refuted; c120_text says exactly what is printed on every host). Proved on little-endian hosts.",
 "C122": "False with a width and a digit as fill character (c122_refuted_fill). Proved: the digits denote the number in every base; distinct output when no width is set, whatever the other flags.",
 "C123": "False for every width above 2, all values, fills and adjustments: only the opening bracket is padded (c123_refuted; c123_point and c123_range say exactly what is written). Proved up to width 2.",
 "C124": "True of loops in both builds and of everything in release builds. In debug builds every move by an offset to rbegin() (even rbegin() + 0, hence rbegin()[0] with libstdc++ and libc++, and rend() - size()) fails the assertion that the base iterator stays before end(); with a library that computes r[n] as base[-n - 1] every reverse subscript fails the assertion against negative indices.",
 "C125": "True in release builds. In debug builds an iterator remembers the end the vector had when the iterator was made, so stepping it past that end fails an assertion although the elements exist.",
 "C126": "The contents and size are unchanged in every case. False: copies made before the failing one stay alive behind size() until they are overwritten or the vector is destroyed; resize(n) constructs a fill value also when it only removes elements, so shrinking can throw.",
 "C127": "False: copy assignment also copies elements removed by clear() (they are still alive), slot by slot, and sets the count last. If the copy of such an element throws, slots below the target's old size() can have been emptied; reading them, also with at(), is undefined. Proved if clear() was never called: the target keeps its size and all elements can be read.",
 "C128": "False: the storage is a variant, and if neither copying nor moving of the assigned alternative is noexcept, a copy assignment that changes the alternative and throws leaves it without content. is_error() is then true and error() terminates the program. Proved if for values and for errors copying or moving is noexcept; and only copy assignment can do this.",
 "C129": "False: the constructors from a value or error, the move operations, emplace and swap are noexcept whatever the types, so a move or constructor that throws there terminates the program; a copy assignment can leave its target changed. Proved: other objects never change, the target neither if copies or moves are noexcept and assignments of elements are atomic; calls that return store what they should; only copies failing never ends the program.",
 "C131": "False in debug builds for differences and ordering: an iterator remembers the collection it was obtained from, so after a move the assertion about different parents fails (c131_refuted). Proved: iterators show the same items, loops and equality work in both builds, differences and ordering in release builds.",
 "C132": "False for every buffer whose elements are wider than a byte: the concepts check that `sizeof(...) == 1` is a valid expression, not that it is true, so e.g. a std::vector<uint32_t> is accepted. The number of bytes wanted is compared with the number of elements, and that many elements are copied into the value, out of its bounds, on every call that is not refused (c132_refuted_*). Proved for buffers of bytes.",
 "C133": "False: sizeof(T) bytes are copied but the position moves by size() * sizeof(value_type) of the value just read, and only the elements are written. A value whose size() exceeds the buffer makes read and try_read move an iterator past the end; a following value is read from inside the first one by read (not by try_read); a value with fewer elements cannot be read back, and from_bytes(to_bytes(v)) can be undefined. Proved for types that consist of exactly their elements, such as std::array with at least one element.",
 "C134": "False: byte_count takes its arguments by value and is noexcept. With several arguments a failing copy can end the program, or throw std::bad_alloc after some values have been written; in try_write and try_read_range it always ends the program; read_range can throw after having filled the caller's range. Proved: one value is written or the buffer is as it was; the first copies fail cleanly; if no allocation fails all is as usual.",
 "C135": "False for read: the handle is a plain FILE*, and when the vector for the content cannot be made (no memory, or an impossible size) it is never closed; a program that catches the exception and tries again soon cannot open any file (c135_refuted_*). Proved for the other functions whatever the system does, and for read whenever it returns; for ordinary files a handle is left exactly when there is no memory.",
 "C136": "False: the size comes from ftell without looking for errors. A file longer than LONG_MAX makes read throw std::length_error (and leak), or, where fseek refuses, come back empty; a pipe makes read throw, and read with a count or try_read report bytes that are not in the file (c136_refuted_*). Proved for files whose size ftell can say.",
 "C137": "False for elements wider than a byte: size() is used as the number of bytes, so a quarter of a std::vector<uint32_t> is written with success reported, and try_read fills as little (c137_refuted_*). Proved for ranges of bytes.",
 "C138": "False for paths with a NUL character: fopen sees the part before it, so another file is overwritten or read (c138_refuted_*). Proved for all other paths.",
 "C139": "False for handles standing further than a long can say (file_size moves them to the end) and for files that cannot be positioned (c139_refuted_*). Proved otherwise: the size, and sequences of reads and writes of any length.",
 "C140": "False: get_file_pointer is noexcept and makes a std::string, so write and try_write always end the program, try_read for each of its three strings, read for the third (c140_refuted_*). Proved for the first two strings of read.",
 "C141": "False: minmax of two variables returns references to them, even for int (the constraint is checked on the reference type), so after an assignment the pair shows the new values and need not be ordered; with temporaries of other types the pair dangles (c141_refuted_*). Proved: use within the expression, the by-value cases, variables that are left alone, and min and max whenever they compile; which they do not for a variable that is not const of a type that is not plain.",
 "C142": "False with NaN: min and max ignore everything from the first NaN on, unless it is the first argument and then the result; minmax gives different pairs for variables and for temporaries; the sign of a zero depends on the order (c142_refuted_*). Proved without NaN, up to the choice between equal arguments.",
 "C143": "False: a view keeps an iterator, so after reallocation, clear, or shrinking to its position it cannot even be asked where it stands; nor at the end of a buffer that grows in place (c143_refuted_*). Proved: seek and try_seek repair a view after any change while the buffer exists; changes in place are seen; two views of one buffer agree; programs that seek after every change of size have no undefined behaviour in any interleaving.",
 "C144": "False with the default exception mask: a short or failed read returns a value padded with zeros, or all zeros, as if the stream held them (c144_refuted_*). Proved: the stream is good() after a sequence of reads exactly if all values are genuine, and with exceptions on failbit and badbit a sequence returns genuine values or throws.",
 "C145": "False with the default exception mask: a full device takes part of a value and nothing of later ones, and the calls return normally (c145_refuted_full). Proved: good() afterwards exactly if everything was written, then it is read back; with exceptions on badbit everything is written or the call throws.",
 "C146": "False: a variable of a string, view or container type is deduced as a reference, which has no value_type, so no overload accepts it; the two-step example of the documentation does not compile (c146_refuted_*). Proved: exactly which temporaries are accepted and what type the result has, and the ways round for variables.",
 "C147": "False: split takes no std::string, a C string cannot be split with a delimiter, join takes no views and no C strings, and nullptr compiles and is undefined (c147_refuted_*). Proved: exactly which calls of split and join compile, that the overloads of split_to agree on every text that is not null, and that the result of split can be joined.",
 "C148": "False: the string headers, and with them the umbrella header, stop with an #error, and fragment_string, the string of a UUID, identifiable_item_collection and static_lookup still throw (c148_refuted_*). Proved: exactly which headers compile, and that no function that reports through a result throws.",
 "C149": "False: fragment_string.hpp, bounded_value.hpp and core/io.hpp are not included, directly or indirectly; every other header is (c149_refuted_umbrella). Proved: the umbrella header compiles with exceptions, consistent macros and an unsigned byte type.",
 "C150": "False: with int8_t, or with char where it is signed, hexlify.hpp and everything that includes it is ill-formed, among others the UUIDs and the umbrella header (c150_refuted_signed, which says exactly which headers). Proved: with an unsigned byte type all headers compile; two byte types, or both byte orders, are an error in exactly the headers listed.",
 "C151": "False: the macros do not look at the machine. With the macro for the order the machine does not have, little_endian and big_endian exchange their meanings, unwrapped numbers do not follow the macro, and a number passed between a program with and one without the macro arrives with its bytes reversed (c151_refuted_*). Proved: without such a macro the wrappers keep their word, and numbers always arrive in the program that wrote them and between two programs that both have such a macro or both have none.",
 "C152": "False: with the macro for the order the machine does not have, every UUID prints its first three fields with their bytes reversed, so a UUID made from a text prints another one, and differs from the UUID made from the same fields (c152_refuted_*, with the exact exceptions). Proved: a UUID made from fields prints these fields in every configuration, and everything is as it should be without such a macro.",
 "C153": "False for split and split_to: they are noexcept, so every refused allocation ends the program (c153_refuted_split). Proved: which allocations they make, that the result is right if none of them is refused, and the other functions in full.",
 "C155": "False: the lengths are found once, but to_str() looks for the zero again. Writing a zero into a text cuts to_str() short, overwriting the zero lets it run on, and freeing a text makes it undefined, while length() stays (c155_refuted_*). Proved: what is shown is always what memory holds within the old lengths; to_str() agrees while every text is a C string as long as it was; nothing changes under actions that touch neither the texts, their zeros nor their buffers.",
 "C156": "False: erase() takes the pointer out of the sequence before it asks the map, so a comparison that throws there leaves an item that size(), contains() and at() show and iteration does not, and a later excise() of it is undefined (c156_refuted_erase); contains() is noexcept, so a comparison that throws in it, or in insert(), ends the program (c156_refuted_contains). Proved for all other events: nothing is lost, leaked or half done, in any program. Memory of the vector of pointers is C103.",
 "C157": "False: little_endian and big_endian are trivial types, so everything made of them passes for a natively stored type. The stream functions ignore the wrappers altogether (c157_refuted_stream), write ignores them inside structs (c157_refuted_struct), and read<std::array<big_endian<T>, n>> gives other numbers than read_range with the same array (c157_refuted_array). The numbers in a struct come out reversed on a machine of the other byte order (c157_refuted_portable), and a wrapped number stored by the buffer functions is another number when read from a stream (c157_refuted_mixed). Proved: numbers that stand alone, in buffers, are as said, and on one machine everything is read back. Padding inside structs is not modelled.",
 "C158": "False: try_read_range and try_read_range_at take no variable as range, try_to_bytes takes no variable, try_write_at takes no vectors, try_write of several values does not work in a deque, and write of one value does not work in a list (all refuted for every type concerned). Proved: everything else agrees, for all types, buffers and numbers of values.",
 "C159": "False: ranges of wrapped numbers and of arrays can be read but not written; read_with_endian and write_with_endian compile only for integers wider than a byte although their constraints let every trivial type through; the stream functions take pointers and string literals and store the address. Proved: exactly which types can be read and written.",
 "C160": "False: a deque can be read from only one value at a time and not at a position, a list only works with try_write of one value, byte_read_buffer_view cannot be made of a span in C++20, and read takes containers of wide elements. Proved: all contiguous containers are treated alike.",
 "C161": "False in three places. index += and -= with the least offset negate it in the check, so they are undefined in debug builds and fine in release builds; the setters of open ranges look at the neighbour of the ends of a signed type, likewise; it[n] through an iterator older than a shrinking of the static_vector throws std::bad_optional_access in the tests' build and ends the program in the others. Proved: everything else agrees in all three builds, for single calls and for whole programs on collections.",
 "C162": "False with every compiler but gcc: the debug configuration there depends on _DEBUG, which clang on Linux and macOS does not define, so ordinary debug builds check nothing; and _DEBUG with NDEBUG is a debug configuration without checks. The line meant to define _WITE_RELEASE_CONSTEXPR in debug configurations defines _WITW_RELEASE_CONSTEXPR, so iterators cannot be moved in constant expressions there. Proved: gcc builds check exactly without NDEBUG; exactly which builds check elsewhere; noexcept exactly where failed checks do not throw; include order does not matter.",
 "C164": "False for uuid_format::x, the only prefixed format with opening and closing characters: for every UUID there is a text that 'x', 'X' and uuid_format::X read as that UUID and uuid_format::x refuses. Proved: the other nine agree with their letters on all texts; uuid_format::x accepts exactly what its letter accepts between braces, and does not look behind the end of the text.",
 "C165": "False: the function passes s.data() on as a NUL-terminated string, so the end of the view is ignored. Views of fewer than 32 digits give different UUIDs in different surroundings; a view of 32 digits is undefined behaviour if no NUL follows. Proved: exactly when it is defined, and that 32 digits with a NUL somewhere behind them give their UUID.",
 "C166": "False in release builds, which do not check: the distance between iterators of different strings is undefined, and a loop to another string's end, even that of a copy, runs off the end of the first string. Proved: both checking builds always notice; release builds never call such iterators equal; a loop to the string's own end reads its text in all builds.",
 "C168": "False for every UUID of which one of the first three fields reads differently backwards: str prints these fields as numbers, most significant byte first, and they are stored least significant byte first. Proved: hexlify(id.data) is the text of the UUID with these fields reversed, and the two agree exactly if reversing changes nothing.",
 "C171": "False: empty() compares the ends only, so a closed range of one value is called empty, and an open range between neighbours (integers or floating-point numbers), which contains nothing, is not; size() of a signed range wider than the largest value is undefined, or negative for types narrower than int. Proved: empty() is right for ranges with one open end; how many integers each range contains; size() is right where the type holds the difference, for unsigned types always.",
 "C172": "False for NaN only: every range contains it, ranges without overlap too; clamp returns it; with NaN first, envelope ends the program in checking builds and gives a range of everything in release builds. Proved for all other values, infinities and signed zeros included.",
 "C173": "False for ranges without values: two that consist of one point each and have an open end contain the same and are not equal; and a range with NaN for an end, which release builds make, is not equal to itself. Proved for all ranges that contain something, signed zeros included; equal ranges always contain the same.",
 "C174": "False: fraction converts only value - min to double, so fraction(b, a, b) is infinite if the difference is above the largest double, 0 if it is below the smallest, 1 - 2^-53 or above 1 for others; interpolate misses b at 1 as for double (C104). Proved: fraction is never NaN, not negative, monotone, 0 at a; between 0 and 1 where the difference is in the range of normal doubles, and 1 at b where it is a double; interpolate is monotone, a at 0, never below a, and b at 1 if b - a is exact; otherwise finite results miss b by at most 2^-m of the difference, where m is 63 for the long double of x86 (c174_near_partial).",
 "C175": "False for sorting in builds that check, where the standard library computes the next iterator by `+ 1` (libstdc++, at most sixteen elements): operator+ does not admit the end, so sorting one element fails an assertion, and so does sorting two or more of which the last is less than all others. Proved: the search in every build; the sort in release builds, in checking builds for all other contents, and in every build where the library uses `++`. Not modelled: std::sort of more elements (introsort).",
 "C178": "False as stated. compare says of every text followed by two or more empty fragments that it is greater than itself, in every build (c178_refuted_compare); no fragment string with an empty fragment before its last can be compared with itself (c178_refuted_self); find of a character as a string is undefined unless it stands before the first empty fragment (c178_refuted_find). Proved: the exact result of every call of each of these functions, with strings and with other fragment strings, in terms of where the empty fragments of both stand (GapAt); contains of a fragment string leaves the last offset out (C90). Missing: substr when pos + count wraps (C93) and find when pos + size wraps (C92).",
 "C179": "False in builds with assertions: begin() + (end() - begin()) is defined for arrays and fails an assertion for every static_vector (c179_refuted). Proved: in release builds the whole claim for static_vector; in the others the same up to the first jump by +, -, += or -= to end() or [] with a negative index, and exactly that assertion there; algorithms that only step, in every build; collections likewise for algorithms that do not write; fragment strings without empty fragments before the last, in every build. An algorithm must also compile: iterators of fragment strings cannot be assigned, and [] exists neither for them nor for those of collections (C193 says exactly what compiles). Algorithms that take iterators of two containers of any of these kinds likewise: the same results and contents as for two arrays in release builds, and in the others if they only step; if they jump, the same or a failed assertion (c179_two_partial, with std::copy and std::equal). Missing: algorithms over more than two containers, containers of different element types, and fragment strings with inner empty fragments (C178 has what the member functions do there).",
 "C180": "False: erase looks for the item with == and then erases the key from the map. An id that is == to an item's but a different key hides the item and keeps it in the map (c180_refuted_coarser), or with two such items leaves a dangling pointer in the iteration order (c180_refuted_dangling); an id with an equivalent key that is not == is contained but not erased (c180_refuted_finer). All three for every type with such ids. Proved: for std::map whenever == means that neither id is less, the whole claim (c180_map); whenever == implies equivalence, every program behaves as an insertion-ordered list with pairwise inequivalent ids, erase going by == (c180_partial). Missing: ids whose comparisons throw (C156) or change their answers, comparisons that are no equivalence (undefined for std::map).",
 "C181": "False: write refers to its arguments while it writes. write(buffer, second, first) stores second twice for every two different objects, where try_write swaps them (c181_refuted_swap); a span written an object or more further up repeats its first bytes (c181_span, c181_refuted_span), and so does read_range (c181_refuted_read). Proved: with every argument at or after its own destination or before all of them, write and write_at are as with copies (c181_write_partial, c181_write_at_partial); for try_write of several values only the spans have to be (c181_try_partial); read_range accordingly (c181_read_partial). Missing: which of the other overlaps happen to give the right bytes, try_write_at of spans, ranges of encoded values read into the buffer; whether copy_n has to support overlapping ranges at all is taken from its wording in the standard.",
 "C182": "False for erase of several arguments: an argument that refers to an item which an argument before it has erased is read after the item's destruction, unless the collection is empty by then. Exact: the call is undefined precisely in that case (c182_refuted_erase), and is as with copies in every other (c182_erase_partial); naming the same item twice by a reference is undefined precisely if there is another item (c182_refuted_twice). Functions that take one id are always as with a copy (c182_one), given that map::erase finds the node before it destroys it, as the three standard libraries do. Inserting a collection into itself: c182_insert_self. Ids are compared by one equality here (C180 has two).",
 "C183": "True for arguments that are not moved from, elements of the vector included (c183_same_as_copy), and no object is leaked or destroyed twice (c183_destroyed). False for moved arguments: the parameter of resize is made before the size is checked, so a call that throws has taken the value away and no element has it (c183_refuted_lost, for every vector and argument), and so has a call that shrinks. False for the number of copies: two for push_back(x), one for push_back(std::move(x)), always (c183_refuted_copies), so that types which can only be moved cannot be stored. Exact effects and exact numbers of copies, moves, assignments and destructions of every call: c183_effect_partial, c183_counts_partial. Missing: programs in which these operations throw (C126 has throwing copies of values).",
 "C184": "True if the types of the lookup have all the numbers involved (c184_same_numbers_partial). False otherwise, because common_type_t only looks at the first type (c184_compiles says exactly which calls compile; make_static_lookup of a single pair does not) and everything else is converted: at(key + m * 2^bits) finds key, for every integer key type and every table (c184_refuted_argument); at of a floating-point number drops the fraction (c184_refuted_fraction); values come back as remainders (c184_refuted_value); keys of different pairs become the same key (c184_refuted_key). Missing: types that are not numbers, and bool.",
 "C185": "True for every number the type of the range has (c185_same_numbers_partial), and a closed range never rejects a number between its bounds, whatever the types (c185_never_rejects_partial). False otherwise, because the argument is converted first: every range of integers contains v + m * 2^bits with v (c185_refuted_wrap, for all types, ranges and numbers), bounds are taken modulo 2^bits (c185_refuted_make), closed ranges of integers contain fractions beyond their bounds (c185_refuted_fraction) and open ones reject fractions inside (c185_refuted_open). The setters min(x) and max(x) set the number given if the type has it (c185_setters_partial) and its remainder otherwise, without a complaint in any build (c185_refuted_setters). Missing: types that are not numbers.",
 "C186": "The bounds are the least and greatest bound (c186_bounds_partial), but their kinds are those of the first argument alone. Exactly when all values are contained: c186_contains_partial. Not so whenever an open range comes first and a closed one reaches as far (c186_refuted_contains, which also shows that the order matters); not the smallest range whenever a closed one comes first and an open one lies around it (c186_refuted_smallest); and envelope of a container in a variable does not compile, because the return type asks a reference for its value_type (c186_refuted_variable). Missing: nothing for ranges of one value type; ranges of several value types do not compile.",
 "C187": "True for every container whose push_back appends and does not fail (c187_any_container_partial) and for every static_vector with room for all pieces (c187_static_fits_partial). False otherwise: split_to is noexcept, so no exception reaches the caller (c187_no_exception), and the program is terminated for every text with more pieces than the capacity (c187_refuted_full); with keep_empty exactly when there are at least as many delimiters as the capacity (c187_refuted_delimiters). Missing: failing allocations of the pieces.",
 "C188": "Numbers of the value or error type are kept (c188_own_types). With numbers as both value and error type, whatever compiles keeps the number (c188_number_kept_partial), but it may become an error: always for types narrower than int when the error is an int and the value is not, also through and_then (c188_refuted_promoted); and types that are neither of the two nor promoted to one do not compile (c188_refuted_ambiguous, exactly those). With an error that is not a number, what is put in braces is kept if it compiles (c188_braces_partial), integers for floating-point values do not compile there (c188_refuted_braces), and without braces, and in value_or, numbers the value type does not have become their remainder (c188_refuted_wrap) or lose their fraction (c188_refuted_fraction); value_or is right for all others (c188_value_or_partial). Missing: bool, enumerations and constants in braces.",
 "C189": "Every construction of a point that compiles keeps the numbers (c189_points_kept), but point<n, t>(...) compiles only for arguments of type t itself, and point_2d and its like never take an integer for a floating-point coordinate (c189_refuted_parens). Setting a coordinate and making an id or a bounded value keeps every number the type has, and ids and bounded values in braces keep whatever compiles (c189_same_number_partial); other integers become their remainder, so that ids made of different numbers are equal (c189_refuted_wrap), and fractions are cut off (c189_refuted_fraction). Missing: bool, and constants in braces (which may be of any type that holds their value).",
 "C190": "Numbers that are a size_t, and offsets strictly between -2^63 and 2^63, do what they should whatever their type (c190_exact_partial). Offsets of type size_t above 2^63 do the opposite in debug builds: exactly the moves that stay in the range are rejected and exactly those that leave it are let through (c190_refuted_unsigned); 2^63 itself is undefined there (c190_refuted_half). Indices made of negative numbers are their remainder (c190_refuted_make), and moves by fractions are cut off towards zero (c190_refuted_fraction).",
 "C191": "The function of the type and the auto function are called as stated (c191_own, c191_generic, c191_visit) in any order (c191_order). Forgotten alternatives that are not numbers are noticed (c191_forgotten_partial). False for numbers: a forgotten number type is converted to the parameter of the only function for numbers (c191_refuted_forgotten) or to what it is promoted to (c191_refuted_promoted); only with functions for two other number types it is noticed (c191_ambiguous_partial). Missing: bool, parameters that are references to non-const, classes with conversions, variants without a value.",
 "C192": "With empty braces or static storage it holds for every type (c192_braces); without an initialiser exactly for types without a number or pointer outside of members with an initialiser (c192_exact): UUIDs, results, static_vectors, fragment strings, iterators, arguments of make_vector, and ids and ranges of these (c192_defined_partial). False for indices, ids and ranges of numbers, points and the endianness wrappers: all of their members are indeterminate, and reading or comparing them is undefined (c192_refuted).",
 "C193": "False: n + a compiles for no iterator of the library (c193_refuted) and swap(a, b) neither, because the friend of the class names a member that does not exist (c193_refuted_swap); a[n] does not compile for iterators of collections (c193_refuted_collections); those of fragment strings have no default constructor, assignment, postfix operators, -> or [] (c193_refuted_fragments); iterator - const_iterator does not compile (c193_mixed). Proved: exactly which of the required expressions compile, with the required types (c193_exact_partial); what compiles with const_iterators compiles with iterators in their place (c193_substitute); comparisons of the two compile (c193_mixed).",
 "C195": "False: apart from the copies of arguments, which the caller makes, every exception inside contains, below_min, above_max, clamp, ==, !=, empty, min(), max(), is_in_bounds and clamp() ends the program in every build, and every exception inside the constructor, overlap and the setters does in builds other than the debug build with exceptions. c195_exact_partial gives the operations a call performs in order, and what the exception of each leads to; c195_set_min_partial and c195_set_max_partial the same for the setters, whose assignment can leave a torn bound (c195_refuted_torn). c195_computes_partial does the same for the functions that compute, of which only size and width in a debug build let the exception of the arithmetic out (c195_refuted_arith), and c195_set_min_open_partial and c195_set_max_open_partial for the setters of open bounds; c195_disorder says what size, width and mid do on a range that is not in order. Missing: other calls on ranges that are not in order, and temporaries as arguments.",
 "C196": "False: a UUID is stored with its first three fields in little-endian order and compared byte by byte, but printed with the most significant digits first; two UUIDs of which one is less in its first byte and greater in its fourth are ordered one way and their texts the other, in every format (c196_refuted). Proved: the texts are ordered by the fields as numbers, then by the last eight bytes (c196_text_order_partial), and UUIDs with the same first eight bytes are ordered like their texts.",
 "C197": "False: during stack unwinding the guards run although the block succeeds, so no such block ever has an effect there (c197_refuted). Proved: with no exception in flight around it the block is all or nothing, and a later exception undoes nothing.",
 "C198": "False: the operators are in the global namespace and the types in wite, so argument-dependent lookup does not find them. In a namespace that declares any operator<<, and from the standard library (std::ostream_iterator), nothing of the library can be inserted unless a class in the global namespace is among its template arguments (c198_refuted_namespaces, c198_refuted_standard); a range of ids cannot be inserted if maths/io.hpp was included before core/io.hpp (c198_refuted_order); ids and indices never go into wide streams (c198_refuted_wide); wite.hpp, core.hpp and string.hpp do not include core/io.hpp and fragment_string.hpp (c198_refuted_umbrella). Proved: exactly when an insertion compiles (c198_exact), in particular in code outside such namespaces with the includes in the right order.",
 "C199": "False: try_insert of an object of a derived class returns std::array<bool, 1> (c199_refuted_result); what converts to an item but contains items is inserted element by element (c199_refuted_container); ranges without a nested value_type, like the standard views, are not accepted (c199_refuted_views); the items of a temporary range are copied (c199_refuted_moved), so that items that can only be moved cannot be inserted from one (c199_refuted_move_only); several ids in one call are possible only if they are wite::id (c199_refuted_ids); ids of other classes are accepted by overload resolution and fail in the body (c199_refuted_detect); items that cannot be moved can only be emplaced (c199_refuted_immovable). Proved: exactly which calls compile and what they do (c199_exact, c199_several_partial), in particular for arguments of the item type itself, even if it is a range of items. Missing: braced lists, explicit template arguments.",
 "C200": "False: a scalar whose bytes are no value, for example a bool from a byte other than 0 and 1 as in the README's example of a view, makes every reading function undefined, the try_ functions included (c200_refuted_read, c200_refuted_ranges, c200_refuted_streams, c200_refuted_hex); a class with such a member is returned without complaint (c200_refuted_classes); from_hex_chars accepts types that are not trivially copyable (c200_refuted_unconstrained). Proved: exactly when each function is undefined (c200_exact and the other c200_exact theorems), never for types all of whose bytes are values (c200_integers_partial), nor for what the library wrote (c200_written_partial). Missing: copies of classes that load their members, loads by the caller after the call.",
 "C201": "False: objects are accessed through a pointer to the buffer's element type, which C++ allows only for char, unsigned char and std::byte, or if the object is made of that type or its unsigned counterpart. For every other element type reading or writing any type with a wider member is undefined (c201_refuted); with WITE_USER_DEFINED_BYTE_TYPE_I8 to_bytes is undefined for all such values (c201_refuted_to_bytes). Proved: exactly when each function is undefined (c201_exact_read, c201_exact_try, c201_exact_write, c201_exact_try_write), never for the three types (c201_char_like_partial), nor for objects made of the element type (c201_same_type_partial). Missing: std::vector<bool>, elements that are classes, try_write through views.",
 "C202": "False: strings and string views are buffers too, and an exact match beats the conversion to a path. With byte_buffer_write.hpp included, write and try_write of a std::string that is not const overwrite the name and leave the file alone, reporting success if the name is long enough (c202_refuted_write, c202_refuted_try_write, c202_refuted_count); const strings, wide strings and views do not compile, nor does read of a whole file with byte_buffer_read.hpp (c202_refuted_compile); so an include changes what a call means (c202_refuted_headers). Proved: in all other cases the file is found (c202_partial, c202_cases_partial) and the call does what the functions for files do (c202_effect_partial). Missing: names of other types, for instance iterators.",
 "C203": "False. The constructor of fragment_string's iterators is not constexpr, so indexing, comparing, copying, substrings, prefixes and suffixes are never constant expressions (c203_refuted_string, c203_refuted_index), and searches only if they have nothing to do (c203_refuted_search). Stepping the iterators of a static_vector is constexpr in release builds only, so comparing equal vectors is a constant expression there and nowhere else (c203_refuted_builds), and making a vector smaller never is (c203_refuted_shrink); is_not_whitespace and the guards for success and failure never are (c203_refuted_others). Proved: exactly when the functions of vectors are (c203_vector_exact), and that the remaining functions are whenever they return (c203_string_partial, c203_others_partial); the evaluations modelled have the outcomes of the models of the functions (c203_same_string_partial, c203_same_vector_partial). Missing: collections of identifiable items, whose member of type std::map rules out constant expressions altogether; bounded values, points and vectors; element types whose own operations are not constexpr.",
 "C204": "False. No fragment string can be made of a string or a view or joined with a string, no text can stand on the left of +, there is no ==, and strings of other than narrow characters compare with no text of their own characters (c204_refuted_forms) but do compare with narrow text, where characters of the same code differ (c204_refuted_wide_compare, c204_refuted_char32_compare). Characters of every type are converted silently, and + takes none (c204_refuted_characters); fragment strings cannot be searched for with find (c204_refuted_fragments). Proved: exactly what is taken (c204_exact, c204_exact_others, c204_partial), that all forms of a text are treated alike (c204_same_text), and what the calls give (c204_answers_partial) and how wide strings compare with narrow text (c204_wide_compare_partial). Missing: null pointers, braced lists, numbers that are no characters, classes with conversions; empty fragments other than the last in c204_answers_partial.",
 "C205": "False. A vector that was cleared still holds its old elements, and copies of it copy them and keep them alive (c205_refuted_cleared); a vector that was moved from has as many elements as before, each of them moved from (c205_refuted_moved). Proved: what the new vector shows and exactly which objects are copied or moved (c205_copy, c205_move), that every object made is destroyed exactly once in every program (c205_destroyed), that without clear() all vectors hold nothing but their elements (c205_only_partial), and what copying, assigning and swapping such vectors does (c205_copy_partial, c205_assign_partial, c205_swap_partial); vectors assigned to, swapped with or moved onto themselves (c205_self). Missing: element operations that throw (C126, C127), trivially copyable elements.",
 "C206": "False. Only UUIDs have a hash (c206_refuted_hash); ranges, vectors and fragment strings have neither an order nor a hash (c206_refuted_ranges); ids of values with < and == but no <=> have no order (c206_refuted_ids); a point with a NaN coordinate in front is never inserted into a map that has entries, finds its first entry and erases it (c206_refuted_nan), and while it is the only key every point is found and none inserted (c206_refuted_nan_first). Proved: maps with UUIDs, indices, ids of totally ordered values and points of totally ordered coordinates work for every sequence of calls and every shape of the tree (c206_uuid_map, c206_index_map, c206_id_map, c206_point_map, c206_int_map), with floating-point coordinates as long as none is NaN (c206_float_map_partial); in general if < is a strict weak order (c206_map_partial); unordered maps of UUIDs (c206_uuid_unordered, c206_unordered_partial); exactly which types have the operators (c206_types_map). Missing: iterators, node handles and hints, multimaps.",
 "C207": "False. Views and iterators of fragment strings cannot be assigned, nor anything in which there is one (c207_refuted_views), so results of try_make_byte_read_buffer_view cannot be assigned, swapped or transformed (c207_refuted_view_results) and vectors of views cannot be filled (c207_refuted_views_filled); collections cannot be copied (c207_refuted_collections), guards neither copied nor moved (c207_refuted_guards), nor anything in which there is one; bounded values and lookups have no default constructor (c207_refuted_default); nothing can be put into a vector of objects that can be moved but not copied (c207_refuted_filled), and most members of a result of such a value do not compile (c207_refuted_results); lookups need keys and values that can be made without arguments and assigned (c207_refuted_lookups). Proved: for every type exactly when it can be copied, moved and assigned, in terms of the types it is made of (c207_copy, c207_move, c207_assign, c207_move_assign, c207_default); what is made of types that can be copied, moved and assigned can be, to any depth (c207_values_partial), and the members compile (c207_members_partial). Missing: noexcept, constexpr and triviality; const types and references as parameters; empty arrays.",
 "C208": "False. When the size is there but the elements are not, the read throws with the cursor behind the size (c208_refuted_cursor), and the try_ functions leave it at the end of the buffer (c208_refuted_try_cursor); the vector has to be made before anything is checked, so a size alone makes the reader ask for as much memory as it says (c208_refuted_memory); a size stored in too few bytes is silently reduced and another vector is read (c208_refuted_width); try_write of a record that does not fit overwrites the buffer with its size (c208_refuted_try_write). Proved: the round trip for all vectors whose sizes can be stored, if there is memory (c208_round_trip_partial); a record is written whole or not at all by write (c208_whole); any bytes are read within bounds, as exactly the elements behind the size or an exception (c208_any_bytes_partial), and when which (c208_read_iff); the try_ functions do the same when they return a value (c208_try); seeking back makes the view what it was whatever happened (c208_recover). Missing: elements in endian wrappers; other containers than vectors.",
 "C209": "False. A lookup of C strings compares addresses, so no text is found at another address (c209_pointers, c209_refuted_pointers; the README warns of this); a lookup of views finds by what the characters are now, not by what they were (c209_refuted_changed), and asking it is undefined once they are gone (c209_refuted_gone), as they are at once for strings given among views (c209_refuted_strings_as_views); a text with a NUL is not found by a pointer to it (c209_refuted_nul); some forms do not compile (c209_refuted_forms). Proved: lookups of strings find by text whatever happens to memory (c209_strings_partial), lookups of views do so as long as their texts stay what they were (c209_views_partial), so the use in the README works (c209_readme). Missing: wide text, text as keys and values at once, lookups changed through at, failing allocations of strings, what the compiler refuses in constant expressions.",
 "C213": "False: where std is an associated namespace of the type (std::byte, std::string, chrono durations, pointers to them), min and max of four or more plain values, minmax and envelope of three or more values, and every envelope of ranges fail to compile, because the unqualified calls inside find std::min (c213_refuted_min, _minmax, _ranges); envelope of values with members min() and max(), as durations, never compiles (c213_refuted_members). Proved: exactly which calls compile, for types without min(), max() and value_type together and for value ranges.",
 "C214": "False of make_uuid: the engine of a thread is seeded with 32 bits, so at most 2^32 of the 2^122 UUIDs can come first in a thread (c214_refuted_first), and of any 2^32 + 1 threads two get the same UUIDs for ever (c214_refuted_threads). Proved for uuid{engine}: exactly 64 of the 2^128 draws make each UUID, 64^n of 2^(128 n) each sequence of n, and UUIDs made one after the other use different results of the engine. Engines whose range is not all numbers of w bits with w dividing 64 are not modelled.",
 "C215": "False. Reading and writing share one state: after a read that comes too early, everything written is lost and everything read is zero until clear() is called, and nothing reports it (c215_refuted_early); after clear() alone the bytes that were there are lost (c215_refuted_rest). A string stream made with a text is written over from its beginning (c215_refuted_text), one positioned behind its end loses what is written (c215_refuted_gap), and in a file reading directly after writing, or the reverse, is undefined (c215_refuted_file). Proved: a string stream is a queue of values as long as every value is read after it is written (c215_queue_partial); with exceptions on failbit it is a queue of bytes or throws (c215_exceptions_partial); clear() and seekg undo an early read (c215_recover_partial); strings and files positioned before each call are arrays of records (c215_records_partial), files grow with zeros (c215_file_gap).",
 "C216": "False of making lookups: the constructor, _init and make_static_lookup are noexcept, so every exception after the caller's own copies ends the program (c216_refuted_terminate), and because each call of _init copies all remaining mappings, n mappings are copied n + n (n + 1) / 2 times (c216_refuted_copies). Proved: exactly which operations are performed in which order and what the exception of each leads to (c216_construct_partial, c216_make_partial); at and with compare in order and stop at the first that is equal, and their exceptions reach the caller (c216_at_partial, c216_with_partial).",
 "C217": "False for every stream that keeps bytes in a buffer: write reports success and the bytes are lost in the destructor (c217_refuted, for every value and every policy that keeps a byte of it), the error is reported by a later write than the one whose bytes are missing (c217_refuted_which), and with unitbuf an error that is found when the stream is synchronised is never thrown (c217_refuted_unit). Proved for every policy: the file always holds the beginning of what was written (c217_prefix); everything arrives if the device has room (c217_room_partial); flush and close leave a good stream good exactly if everything is in the file (c217_flush_partial); with unitbuf the stream is good exactly if everything is in the file (c217_unit_partial); without a buffer everything is as C145 has it (c217_unbuffered).",
 "C218": "False of write to the path itself, for all old and new bytes: a read after the file was emptied succeeds and gives nothing (c218_refuted_empty), a read during a replacement gives old bytes up to any place and new ones, or zeros, behind it (c218_refuted_torn), a killed process leaves a part of the new bytes and nothing of the old ones (c218_refuted_killed), and of two processes both are told of success while the file holds a mixture (c218_refuted_two). Proved for processes that write to another name and rename: each call gives what was in the file when it was opened, whatever all processes do (c218_rename_partial), and that is always all of the old bytes or all of some write (c218_rename_whole_partial), unless a device is full, which write does not report (c218_refuted_short). Proved for write to the path itself: calls during which nobody writes give the content (c218_quiet_partial), undisturbed writes arrive whole (c218_write_partial), and every byte ever seen is zero or comes from the same place of the old bytes or of some write (c218_bytes_partial; c218_growing_partial for files that only grow). Missing: files removed or renamed while they are open, and handles used for more than one call.",
 "C220": "False of every table with an empty list in it, whose text is that of another table too (c220_refuted_empty), of every table with a delimiter in a cell (c220_refuted_cell), and with the default behaviour of split of every table with a part that looks like an empty text (c220_refuted_drop). Proved: writing always gives the text meant (c220_text_partial); the exact table that comes back with keep_empty (c220_keep_partial) and with drop_empty (c220_drop_partial); the same table if no list is empty and no cell contains a delimiter (c220_partial), also with whitespace around the cells and strip (c220_strip_partial). Missing: delimiters that are used for more than one level, and characters for which isspace is undefined (C08).",
 "C221": "False: in every range of 49 the number after the first comes back as the first (c221_refuted). Proved for ends at most 2^52 apart (c221_partial): x or x - 1 comes back, never anything below a, and x itself if x is an end or b - a is a power of two. For all fractions in [0, 1] the way back is less than two steps off (c221_back_partial). Missing: wider ranges, an exact description of the numbers that do not come back."
}