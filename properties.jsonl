{"id": "C01", "title": "Unsigned MBN round-trip", "statement": "Encoding any 64-bit unsigned number with gutil_unsigned_mbn_encode and decoding the result with gutil_unsigned_mbn_decode yields the same number, consumes exactly the encoded bytes and leaves whatever follows them in the range untouched.", "quantifier": "every 64-bit value and every sequence of bytes following the encoding", "why_tests_cant": "2^64 values times unbounded tails; tests sample a handful", "anchors": ["src/gutil_datapack.c:gutil_unsigned_mbn_encode", "src/gutil_datapack.c:gutil_unsigned_mbn_decode"]}
{"id": "C02", "title": "Unsigned MBN decoder accepts exactly the valid frames", "statement": "gutil_unsigned_mbn_decode succeeds if and only if the range starts with at most nine bytes having the continuation bit followed by one byte without it, and the base-128 number they spell fits in 64 bits; the result is that number and the range moves past exactly these bytes. On failure the range is unchanged, and no byte outside the range is ever read.", "quantifier": "every byte sequence", "why_tests_cant": "the set of inputs is infinite; rejection of all malformed inputs can't be enumerated", "anchors": ["src/gutil_datapack.c:gutil_unsigned_mbn_decode"]}
{"id": "C03", "title": "Unsigned MBN size is exact and minimal", "statement": "gutil_unsigned_mbn_size returns the least n with value < 128^n; gutil_unsigned_mbn_encode returns that n, writes exactly the first n bytes of the buffer and nothing else; no shorter byte sequence decodes to the value.", "quantifier": "every 64-bit value, every buffer", "why_tests_cant": "minimality quantifies over all values and all shorter encodings", "anchors": ["src/gutil_datapack.c:gutil_unsigned_mbn_size", "src/gutil_datapack.c:gutil_unsigned_mbn_encode2"]}
{"id": "C04", "title": "Fixed-width unsigned encoding", "statement": "gutil_unsigned_mbn_encode2 with any size from the minimal one up to 10 produces bytes that decode to the same value; with a smaller non-zero size the result decodes to the value modulo 128^size; exactly `size` bytes are written.", "quantifier": "every 64-bit value and every size", "why_tests_cant": "two-dimensional unbounded input space", "anchors": ["src/gutil_datapack.c:gutil_unsigned_mbn_encode2"]}
{"id": "C05", "title": "Signed MBN round-trip", "statement": "Encoding any 64-bit signed number with gutil_signed_mbn_encode and decoding it with gutil_signed_mbn_decode yields the same number, consumes exactly the encoded bytes and leaves the rest of the range untouched.", "quantifier": "every 64-bit signed value and every tail", "why_tests_cant": "2^64 values; sign-extension boundaries are where tests miss", "anchors": ["src/gutil_datapack.c:gutil_signed_mbn_encode", "src/gutil_datapack.c:gutil_signed_mbn_decode"]}
{"id": "C06", "title": "Signed MBN size is exact and minimal", "statement": "gutil_signed_mbn_size returns the least n such that the value fits in a 7n-bit two's complement number, encode returns it and writes exactly that many bytes.", "quantifier": "every 64-bit signed value", "why_tests_cant": "boundaries at every power of 128, both signs", "anchors": ["src/gutil_datapack.c:gutil_signed_mbn_size", "src/gutil_datapack.c:gutil_signed_mbn_encode2"]}
{"id": "C07", "title": "Signed MBN decoder: sign of the result", "statement": "Whenever gutil_signed_mbn_decode succeeds, the result is negative if and only if bit 0x40 of the first byte is set (that is how the header defines the sign bit), and it equals the 7n-bit two's complement number spelled by the bytes.", "quantifier": "every byte sequence accepted by the decoder", "why_tests_cant": "infinite input set; the only counterexamples are 10-byte frames with specific first bytes", "anchors": ["src/gutil_datapack.c:gutil_signed_mbn_decode", "include/gutil_datapack.h"]}
{"id": "C08", "title": "Signed MBN decoder accepts exactly the valid frames", "statement": "gutil_signed_mbn_decode succeeds iff the range starts with a terminated frame of at most 10 bytes whose unused top bits (in a 10-byte frame) are all equal to the sign bit; the range advances by exactly the frame, and is unchanged on failure; nothing outside the range is read and no arithmetic in it is undefined in C.", "quantifier": "every byte sequence", "why_tests_cant": "infinite input set", "anchors": ["src/gutil_datapack.c:gutil_signed_mbn_decode"]}
{"id": "C09", "title": "Whole-buffer decoders reject trailing bytes", "statement": "gutil_unsigned_mbn_decode2 / gutil_signed_mbn_decode2 succeed iff the whole block is exactly one encoded number, and then return the same value as the range decoder.", "quantifier": "every data block including NULL and empty", "why_tests_cant": "infinite input set", "anchors": ["src/gutil_datapack.c:gutil_unsigned_mbn_decode2", "src/gutil_datapack.c:gutil_signed_mbn_decode2"]}
{"id": "C10", "title": "TLV round-trip", "statement": "For every tag from 1 to INT_MAX and every value block, gutil_tlv_decode applied to the output of gutil_tlv_encode returns that tag, points at exactly that value and leaves the range right after the entry.", "quantifier": "every tag, value length and contents, every following bytes", "why_tests_cant": "unbounded lengths and contents", "anchors": ["src/gutil_datapack.c:gutil_tlv_encode", "src/gutil_datapack.c:gutil_tlv_decode"]}
{"id": "C11", "title": "gutil_tlv_size predicts the encoded size", "statement": "gutil_tlv_size(tag,len) equals the number of bytes gutil_tlv_encode writes for a value of len bytes, for every len.", "quantifier": "every tag and every gsize length", "why_tests_cant": "lengths beyond 4 GiB are never tested", "anchors": ["src/gutil_datapack.c:gutil_tlv_size", "src/gutil_datapack.c:gutil_tlv_encode"]}
{"id": "C12", "title": "TLV decoder never leaves its input", "statement": "For every input, a TLV returned by gutil_tlv_decode lies within the input range and the range pointer only moves forward, staying within the range.", "quantifier": "every byte sequence", "why_tests_cant": "malicious length fields near 2^64 are not in any test", "anchors": ["src/gutil_datapack.c:gutil_tlv_decode"]}
{"id": "C13", "title": "Decoding a TLV sequence terminates", "statement": "gutil_tlvs_decode terminates for every input block.", "quantifier": "every byte sequence, tag list and flags", "why_tests_cant": "non-termination can't be observed by a terminating test", "anchors": ["src/gutil_datapack.c:gutil_tlvs_decode"]}
{"id": "C14", "title": "TLV sequence decoding is exact on well-formed input", "statement": "For a concatenation of encoded TLVs with distinct known tags, gutil_tlvs_decode returns the mask of exactly those positions of the tags array (among the first 31) whose tag is present, sets the corresponding values to the encoded values and zeroes all the others; unknown tags are ignored iff GUTIL_TLVS_DECODE_FLAG_SKIP_UNKNOWN_TAGS is given.", "quantifier": "every list of entries, every tags array, every flags", "why_tests_cant": "unbounded number and size of entries", "anchors": ["src/gutil_datapack.c:gutil_tlvs_decode"]}
{"id": "C15", "title": "TLV sequence errors are reported", "statement": "On a concatenation of encoded TLVs, gutil_tlvs_decode returns DUPLICATE_TAG or UNKNOWN_TAG according to the first offending entry, and DECODE_ERROR iff no entry offends and undecodable bytes follow.", "quantifier": "every list of entries and every trailing garbage", "why_tests_cant": "unbounded input", "anchors": ["src/gutil_datapack.c:gutil_tlvs_decode"]}
{"id": "C16", "title": "A zero tag is never accepted as part of a valid sequence", "statement": "gutil_tlvs_decode reports an error for every input which is not a concatenation of TLVs with non-zero tags (tags are documented as non-zero).", "quantifier": "every byte sequence", "why_tests_cant": "infinite input set", "anchors": ["src/gutil_datapack.c:gutil_tlvs_decode", "src/gutil_datapack.c:gutil_tlv_decode", "include/gutil_datapack.h:gutil_tlv_decode"]}
{"id": "C17", "title": "Ring buffer behaves as a double-ended queue", "statement": "Any sequence of put, put_front, get, get_last, data_at, size, drop, drop_last, clear, reserve, compact, flatten, set_max_size calls returns exactly what the same sequence returns on a plain list of pointers.", "quantifier": "every history of calls, any sizes", "why_tests_cant": "wrap-around, growth and compaction interact over unbounded histories", "anchors": ["src/gutil_ring.c"]}
{"id": "C18", "title": "Ring buffer never exceeds its maximum size", "statement": "After any history of calls the number of elements does not exceed gutil_ring_max_size (unless it's unlimited).", "quantifier": "every history", "why_tests_cant": "needs particular combinations of reserve and max size", "anchors": ["src/gutil_ring.c:gutil_ring_put", "src/gutil_ring.c:gutil_ring_reserve", "src/gutil_ring.c:gutil_ring_set_max_size"]}
{"id": "C19", "title": "gutil_ring_can_put predicts gutil_ring_put", "statement": "gutil_ring_put succeeds if and only if gutil_ring_can_put(r,1) was true immediately before.", "quantifier": "every reachable ring state", "why_tests_cant": "states are reached by unbounded histories", "anchors": ["src/gutil_ring.c:gutil_ring_can_put", "src/gutil_ring.c:gutil_ring_put"]}
{"id": "C20", "title": "Ring buffer accesses stay within its allocation", "statement": "No history of calls makes the ring read or write outside the memory block it has allocated or read an element which has never been stored.", "quantifier": "every history including flatten", "why_tests_cant": "the overflow needs flatten of a wrapped partially filled ring followed by put", "anchors": ["src/gutil_ring.c:gutil_ring_flatten", "src/gutil_ring.c:gutil_ring_put"]}
{"id": "C21", "title": "Ring buffer frees each element exactly once", "statement": "Elements removed by clear, drop, drop_last, set_max_size and the last unref are passed to the free function exactly once, in the documented order (oldest first for clear, drop and unref, newest first for a partial drop_last); elements returned by get/get_last are never passed to it; no other element is.", "quantifier": "every history, with and without a free function", "why_tests_cant": "needs accounting over whole histories", "anchors": ["src/gutil_ring.c:gutil_ring_clear", "src/gutil_ring.c:gutil_ring_drop", "src/gutil_ring.c:gutil_ring_drop_last", "src/gutil_ring.c:gutil_ring_unref"]}
{"id": "C22", "title": "Flatten exposes the ring contents contiguously", "statement": "gutil_ring_flatten returns a pointer to a contiguous block holding the elements in order together with their number (NULL and zero for an empty ring) and does not change the contents.", "quantifier": "every reachable ring state", "why_tests_cant": "depends on the wrap position reached by the history", "anchors": ["src/gutil_ring.c:gutil_ring_flatten"]}
{"id": "C23", "title": "Reserving succeeds only if the space is really there", "statement": "If gutil_ring_reserve(r,n) returns TRUE then n elements can be stored without further allocation.", "quantifier": "every reachable state and n", "why_tests_cant": "needs a particular combination of limit, allocation and request", "anchors": ["src/gutil_ring.c:gutil_ring_reserve"]}
{"id": "C24", "title": "History keeps exactly the recent samples", "statement": "After any sequence of calls with any clock readings, the history holds the last at most max_size distinct-time samples that are not older than max_interval at the latest observed time; adding at an unchanged (or earlier) time replaces the last sample.", "quantifier": "every history of calls and every sequence of clock readings", "why_tests_cant": "ring indices wrap over unbounded histories", "anchors": ["src/gutil_history.c"]}
{"id": "C25", "title": "History size and interval bounds", "statement": "gutil_int_history_size is between 0 and max_size and, with a non-decreasing clock, gutil_int_history_interval is between 0 and max_interval.", "quantifier": "every history of calls with a non-decreasing clock", "why_tests_cant": "unbounded histories", "anchors": ["src/gutil_history.c:gutil_int_history_size", "src/gutil_history.c:gutil_int_history_interval"]}
{"id": "C26", "title": "Median lies between the smallest and the largest sample", "statement": "The value returned by gutil_int_history_add and gutil_int_history_median lies between the minimum and maximum of the live samples; it equals the time-weighted trapezoid average truncated as in C.", "quantifier": "every history of calls", "why_tests_cant": "integer truncation and overflow depend on the values", "anchors": ["src/gutil_history.c:gutil_int_history_median_at"]}
{"id": "C27", "title": "History arithmetic is well-defined", "statement": "No history call performs an undefined arithmetic operation (signed overflow, division by zero, out of bounds index).", "quantifier": "every history and sample values", "why_tests_cant": "overflow needs extreme values, division by zero needs equal timestamps", "anchors": ["src/gutil_history.c:gutil_int_history_median_at", "src/gutil_history.c:gutil_int_history_flush"]}
{"id": "C28", "title": "String vector lookup", "statement": "gutil_strv_length, gutil_strv_at, gutil_strv_last, gutil_strv_find, gutil_strv_find_last and gutil_strv_contains return respectively the number of strings, the i-th string or NULL if out of range, the last string, the first and the last index of an equal string or -1, and whether there is one. NULL behaves as an empty vector. Nothing past the terminating NULL is read.", "quantifier": "every vector, string and index", "why_tests_cant": "unbounded vectors", "anchors": ["src/gutil_strv.c"]}
{"id": "C29", "title": "String vector append", "statement": "gutil_strv_add and gutil_strv_addv append copies of the given strings in order, keep the existing strings and NULL termination; a NULL string changes nothing.", "quantifier": "every vector and list of strings", "why_tests_cant": "unbounded vectors", "anchors": ["src/gutil_strv.c:gutil_strv_add", "src/gutil_strv.c:gutil_strv_addv"]}
{"id": "C30", "title": "String vector removal", "statement": "gutil_strv_remove_at removes exactly the element at the position (nothing if out of range); gutil_strv_remove removes the first or all equal strings and keeps the order of the others; exactly the removed strings are freed, once each.", "quantifier": "every vector, position and string not owned by the vector", "why_tests_cant": "unbounded vectors and duplicates patterns", "anchors": ["src/gutil_strv.c:gutil_strv_remove_at", "src/gutil_strv.c:gutil_strv_remove"]}
{"id": "C31", "title": "Removal is safe when the searched string belongs to the vector", "statement": "gutil_strv_remove may be given a string owned by the vector itself.", "quantifier": "every vector and element", "why_tests_cant": "use-after-free often goes unnoticed by tests", "anchors": ["src/gutil_strv.c:gutil_strv_remove"]}
{"id": "C32", "title": "Duplicate removal keeps first occurrences", "statement": "gutil_strv_remove_dups yields the vector of first occurrences in the original order, with no two equal strings, and frees exactly the removed ones.", "quantifier": "every vector", "why_tests_cant": "unbounded vectors and duplicates patterns", "anchors": ["src/gutil_strv.c:gutil_strv_remove_dups"]}
{"id": "C33", "title": "String vector equality", "statement": "gutil_strv_equal holds iff both vectors contain equal strings in the same order, NULL being equal to empty; it's an equivalence.", "quantifier": "all pairs of vectors", "why_tests_cant": "infinite domain", "anchors": ["src/gutil_strv.c:gutil_strv_equal"]}
{"id": "C34", "title": "String vector sorting and binary search agree", "statement": "gutil_strv_sort produces a permutation sorted by strcmp order (ascending or descending) and gutil_strv_bsearch on the sorted vector returns an index of an equal string iff the vector contains one, -1 otherwise.", "quantifier": "every vector and string, both directions", "why_tests_cant": "unbounded vectors; off-by-one in comparator direction", "anchors": ["src/gutil_strv.c:gutil_strv_sort", "src/gutil_strv.c:gutil_strv_bsearch"]}
{"id": "C35", "title": "String vector strip", "statement": "gutil_strv_strip replaces each string by itself without leading and trailing ASCII whitespace and changes nothing else; it's idempotent.", "quantifier": "every vector", "why_tests_cant": "infinite domain", "anchors": ["src/gutil_strv.c:gutil_strv_strip"]}
{"id": "C36", "title": "Object vector contents", "statement": "gutil_objv_new, copy, add, insert, append, remove, remove_at, at, first, last, find, find_last, contains and equal behave as the corresponding operations on lists of object pointers; NULL behaves as an empty vector; NULL objects are never added.", "quantifier": "every vector, object and position", "why_tests_cant": "unbounded vectors", "anchors": ["src/gutil_objv.c"]}
{"id": "C37", "title": "Object vector reference accounting", "statement": "Every operation changes the reference count of each object by exactly the change of its number of occurrences in the vectors owned by the caller; after gutil_objv_free all references taken are released.", "quantifier": "every vector and operation; every history of operations", "why_tests_cant": "needs accounting over whole histories", "anchors": ["src/gutil_objv.c"]}
{"id": "C38", "title": "Appending an object vector to itself", "statement": "gutil_objv_append(v, v) is safe and doubles the vector.", "quantifier": "every vector", "why_tests_cant": "aliasing case", "anchors": ["src/gutil_objv.c:gutil_objv_append"]}
{"id": "C39", "title": "Int blocks: data lifetime", "statement": "The data behind a GUtilInts is released exactly once, when the last reference to it and to every sub-range created from it is dropped, and never before.", "quantifier": "every history of new, ref, unref, sub-range and unref_to_data calls", "why_tests_cant": "reference graphs of unbounded depth", "anchors": ["src/gutil_ints.c"]}
{"id": "C40", "title": "Int blocks: sub-ranges", "statement": "gutil_ints_new_from_ints(ints,offset,count) gives exactly the elements from offset on, at most count of them, and NULL if there are none; it never refers to memory outside of the parent's data.", "quantifier": "every block, offset and count in the whole guint range", "why_tests_cant": "offset+count overflow is not tested", "anchors": ["src/gutil_ints.c:gutil_ints_new_from_ints"]}
{"id": "C41", "title": "Int blocks: failed creation takes no reference", "statement": "If gutil_ints_new_from_ints returns NULL, the parent's reference count is unchanged.", "quantifier": "every block, offset and count", "why_tests_cant": "leaks are invisible to functional tests", "anchors": ["src/gutil_ints.c:gutil_ints_new_from_ints"]}
{"id": "C42", "title": "Int blocks: unref_to_data", "statement": "gutil_ints_unref_to_data returns a block the caller can free, with the same contents, and drops exactly one reference, whatever constructor created the block.", "quantifier": "every way of constructing a block", "why_tests_cant": "the static constructor case is not tested", "anchors": ["src/gutil_ints.c:gutil_ints_unref_to_data", "src/gutil_ints.c:gutil_ints_new_static"]}
{"id": "C43", "title": "Int blocks: equality, hash and ordering are coherent", "statement": "gutil_ints_equal is equality of contents; equal blocks have equal hashes; gutil_ints_compare is a total order which is zero exactly for equal blocks, NULL being the smallest.", "quantifier": "all pairs and triples of blocks", "why_tests_cant": "infinite domain", "anchors": ["src/gutil_ints.c:gutil_ints_equal", "src/gutil_ints.c:gutil_ints_hash", "src/gutil_ints.c:gutil_ints_compare"]}
{"id": "C44", "title": "Int blocks: search", "statement": "gutil_ints_find returns the first index of a value or -1, and gutil_ints_contains whether it's there.", "quantifier": "every block and value", "why_tests_cant": "infinite domain", "anchors": ["src/gutil_ints.c:gutil_ints_find", "src/gutil_ints.c:gutil_ints_contains"]}
{"id": "C45", "title": "Int array is a list", "statement": "append, append_vals, prepend, prepend_vals, insert (within bounds), set_count (shrinking), remove_index, remove_index_fast, find, contains behave as the corresponding list operations.", "quantifier": "every array and argument", "why_tests_cant": "infinite domain", "anchors": ["src/gutil_intarray.c"]}
{"id": "C46", "title": "Int array: removal by value", "statement": "gutil_int_array_remove_all and remove_all_fast remove every occurrence and return their number; remove_all keeps the order of the others; remove_all_fast keeps them as a multiset; remove and remove_fast remove exactly one occurrence.", "quantifier": "every array and value", "why_tests_cant": "unbounded patterns of duplicates", "anchors": ["src/gutil_intarray.c:gutil_int_array_remove_all", "src/gutil_intarray.c:gutil_int_array_remove_all_fast"]}
{"id": "C47", "title": "Int array: range removal", "statement": "gutil_int_array_remove_range(array,pos,count) removes the elements from pos on, at most count of them, for every pos and count.", "quantifier": "every array, pos and count in the whole guint range", "why_tests_cant": "pos+count overflow is not tested", "anchors": ["src/gutil_intarray.c:gutil_int_array_remove_range"]}
{"id": "C48", "title": "Int array: sorting", "statement": "gutil_int_array_sort_ascending/descending sort any array of ints.", "quantifier": "every array of ints", "why_tests_cant": "comparator overflow needs values more than 2^31 apart", "anchors": ["src/gutil_intarray.c:gutil_int_array_sort_ascending_proc", "src/gutil_intarray.c:gutil_int_array_sort_descending_proc"]}
{"id": "C49", "title": "Hex round-trip", "statement": "gutil_hex2bin and gutil_hex2bytes applied to the output of gutil_bin2hex (any case) give back the original bytes.", "quantifier": "every non-empty byte block, both cases", "why_tests_cant": "infinite domain", "anchors": ["src/gutil_misc.c:gutil_hex2bin", "src/gutil_misc.c:gutil_bin2hex", "src/gutil_misc.c:gutil_hex2bytes"]}
{"id": "C50", "title": "Hex decoder accepts exactly hex strings", "statement": "gutil_hex2bytes succeeds iff the string is non-empty, of even length and consists of hex digits only, and then each pair of digits gives one byte; table lookups are always in bounds.", "quantifier": "every string", "why_tests_cant": "infinite domain", "anchors": ["src/gutil_misc.c:gutil_hex2bin", "src/gutil_misc.c:gutil_hex2bytes"]}
{"id": "C51", "title": "Hex dump line format", "statement": "gutil_hexdump dumps min(len,16) bytes, writes at most GUTIL_HEXDUMP_BUFSIZE characters including the terminating zero, and the line contains the two hex digits of each byte at a fixed column.", "quantifier": "every block and length", "why_tests_cant": "every byte value and length", "anchors": ["src/gutil_misc.c:gutil_hexdump"]}
{"id": "C52", "title": "Integer parsing", "statement": "gutil_parse_int64/uint64/int/uint succeed iff the string without leading and trailing white space is a number in the given base that fits in the type, and yield that number; otherwise the output is untouched.", "quantifier": "every string and base", "why_tests_cant": "infinite domain", "anchors": ["src/gutil_misc.c:gutil_parse_int64", "src/gutil_misc.c:gutil_parse_uint64", "src/gutil_misc.c:gutil_parse_int", "src/gutil_misc.c:gutil_parse_uint"]}
{"id": "C53", "title": "A blank string is not a number", "statement": "gutil_parse_int and friends fail on strings that contain no digits.", "quantifier": "every string without digits", "why_tests_cant": "white-space only strings are not tested", "anchors": ["src/gutil_misc.c:gutil_parse_int64", "src/gutil_misc.c:gutil_strstrip"]}
{"id": "C54", "title": "Data block comparison", "statement": "gutil_data_equal, gutil_data_has_prefix, gutil_data_has_suffix, gutil_bytes_equal, gutil_bytes_equal_data, gutil_bytes_has_prefix and gutil_bytes_has_suffix hold iff the contents are equal, start with or end with the given block, with the documented treatment of NULL and empty blocks.", "quantifier": "all pairs of blocks", "why_tests_cant": "infinite domain", "anchors": ["src/gutil_misc.c"]}
{"id": "C55", "title": "Bytes concatenation and xor", "statement": "gutil_bytes_concat returns the concatenation of its arguments; gutil_bytes_xor returns the byte-wise xor truncated to the shorter argument.", "quantifier": "every list of blocks, every pair of blocks", "why_tests_cant": "infinite domain, word-size tails", "anchors": ["src/gutil_misc.c:gutil_bytes_concat", "src/gutil_misc.c:gutil_bytes_xor"]}
{"id": "C56", "title": "Range prefix", "statement": "gutil_range_skip_prefix advances the range by the prefix iff the range starts with it, otherwise the range is unchanged; the range never passes its end.", "quantifier": "every range and prefix", "why_tests_cant": "infinite domain", "anchors": ["src/gutil_misc.c:gutil_range_has_prefix", "src/gutil_misc.c:gutil_range_skip_prefix"]}
{"id": "C57", "title": "Data copies", "statement": "gutil_data_new and gutil_data_copy produce a block with equal contents.", "quantifier": "every data block", "why_tests_cant": "blocks over 4 GiB are never tested", "anchors": ["src/gutil_misc.c:gutil_data_new", "src/gutil_misc.c:gutil_data_copy"]}
{"id": "C58", "title": "Logging decision", "statement": "A message is passed to the log handler exactly when gutil_log_enabled returns TRUE for its module and level.", "quantifier": "every module chain, flags, levels and default configuration", "why_tests_cant": "many configurations; disagreement only for the NULL module", "anchors": ["src/gutil_log.c:gutil_logv", "src/gutil_log.c:gutil_log_enabled"]}
{"id": "C59", "title": "Log level inheritance", "statement": "The effective level of a module is its own level unless it's INHERIT, else that of its closest ancestor with an explicit level, else the default level; a disabled module anywhere on that path up to the level's owner silences it; ALWAYS messages pass every level; NONE messages never pass.", "quantifier": "every module chain of any depth", "why_tests_cant": "unbounded depth", "anchors": ["src/gutil_log.c:gutil_log_enabled_r", "src/gutil_log.c:gutil_logv_r"]}
{"id": "C60", "title": "Log option parsing", "statement": "gutil_log_parse_option sets exactly one level (the first module whose name matches case-insensitively, or the default one) to the parsed value and returns TRUE, or changes nothing and returns FALSE.", "quantifier": "every option string and module list", "why_tests_cant": "infinite domain", "anchors": ["src/gutil_log.c:gutil_log_parse_option", "src/gutil_log.c:gutil_log_parse_level"]}
{"id": "C61", "title": "Log type selection", "statement": "After gutil_log_set_type succeeds, gutil_log_get_type returns the same type; if it fails the logging configuration is unchanged.", "quantifier": "every type string, name and current configuration", "why_tests_cant": "failing calls combined with particular current state", "anchors": ["src/gutil_log.c:gutil_log_set_type", "src/gutil_log.c:gutil_log_get_type"]}
{"id": "C62", "title": "Log dump covers all data", "statement": "gutil_log_dump terminates and prints one line for each 16 bytes, with consecutive offsets, covering all the data exactly once, if and only if the level is enabled.", "quantifier": "every data size", "why_tests_cant": "sizes over 4 GiB never tested", "anchors": ["src/gutil_log.c:gutil_log_dump", "src/gutil_misc.c:gutil_hexdump"]}
{"id": "C63", "title": "Timestamp format", "statement": "After gutil_log_set_timestamp_format(f) the format in effect is f, NULL restores the default, and each allocated copy is freed exactly once.", "quantifier": "every sequence of calls", "why_tests_cant": "ownership over histories", "anchors": ["src/gutil_log.c:gutil_log_set_timestamp_format"]}
{"id": "C64", "title": "Idle queue: each callback runs at most once, in order", "statement": "Callbacks added to the queue are invoked in the order they have been added, each at most once, and never after having been cancelled.", "quantifier": "every interleaving of adds, cancels and main loop iterations, including calls made from inside the callbacks", "why_tests_cant": "unbounded histories and re-entrancy", "anchors": ["src/gutil_idlequeue.c"]}
{"id": "C65", "title": "Idle queue: destroy function is invoked exactly once", "statement": "The destroy function of each item is invoked exactly once: after its callback or when it's cancelled; items never leak while the queue is alive.", "quantifier": "every history including re-entrant calls", "why_tests_cant": "accounting over histories", "anchors": ["src/gutil_idlequeue.c"]}
{"id": "C66", "title": "Idle queue: items added by callbacks wait for the next iteration", "statement": "Items added while the queue is being run are not run until the next idle iteration.", "quantifier": "every callback behaviour", "why_tests_cant": "callback behaviours are unbounded", "anchors": ["src/gutil_idlequeue.c:gutil_idle_queue_run"]}
{"id": "C67", "title": "Idle queue: pending items always have a scheduled source", "statement": "Whenever there are items in the queue, an idle source which will run them exists; when the queue is empty and not running, there is none.", "quantifier": "every history including re-entrant calls", "why_tests_cant": "lost wake-ups show only for particular histories", "anchors": ["src/gutil_idlequeue.c"]}
{"id": "C68", "title": "Idle queue: tags", "statement": "contains_tag tells whether an item with the tag is pending; cancel_tag removes exactly the first pending item with that tag.", "quantifier": "every queue state", "why_tests_cant": "unbounded states", "anchors": ["src/gutil_idlequeue.c:gutil_idle_queue_contains_tag", "src/gutil_idlequeue.c:gutil_idle_queue_cancel_tag"]}
{"id": "C69", "title": "Idle queue: safe to release from its own callback", "statement": "Dropping the last reference to the queue from a callback invoked by the queue is safe.", "quantifier": "every history", "why_tests_cant": "use-after-free often goes unnoticed", "anchors": ["src/gutil_idlequeue.c:gutil_idle_queue_run", "src/gutil_idlequeue.c:gutil_idle_queue_unref"]}
{"id": "C70", "title": "Idle pool: each item is released exactly once, in order", "statement": "Every pointer added to the pool is passed to its destroy function exactly once, in the order of addition, no later than the next drain or the pool's destruction.", "quantifier": "every history including destroy functions which add more items", "why_tests_cant": "re-entrancy over unbounded histories", "anchors": ["src/gutil_idlepool.c"]}
{"id": "C71", "title": "Idle pool: pending items always have a scheduled source or reference", "statement": "As long as there are items in the pool (and no drain is in progress) the pool is kept alive by a scheduled idle source.", "quantifier": "every history", "why_tests_cant": "unbounded histories", "anchors": ["src/gutil_idlepool.c:gutil_idle_pool_add", "src/gutil_idlepool.c:gutil_idle_pool_drain"]}
{"id": "C72", "title": "Idle pool: shared pool pointer never dangles", "statement": "The pointer set by gutil_idle_pool_get always refers to a live pool or is NULL.", "quantifier": "every history", "why_tests_cant": "lifetime over histories", "anchors": ["src/gutil_idlepool.c:gutil_idle_pool_get", "src/gutil_idlepool.c:gutil_idle_pool_unref"]}
{"id": "C73", "title": "Inotify watches are independent", "statement": "Every live watch receives all events for its path; creating and destroying other watches doesn't affect it.", "quantifier": "every history of watch creation, destruction and kernel events", "why_tests_cant": "needs two watches on the same path", "anchors": ["src/gutil_inotify.c"]}
{"id": "C74", "title": "Inotify instance lifetime", "statement": "The shared inotify descriptor is open exactly while at least one watch exists, and is closed exactly once.", "quantifier": "every history of watch creation and destruction, including from callbacks", "why_tests_cant": "unbounded histories", "anchors": ["src/gutil_inotify.c:gutil_inotify_ref", "src/gutil_inotify.c:gutil_inotify_unref"]}
{"id": "C75", "title": "Inotify event parsing", "statement": "A buffer of kernel events is split into exactly the events it contains, each delivered once in order.", "quantifier": "every sequence of events fitting the buffer", "why_tests_cant": "unbounded input", "anchors": ["src/gutil_inotify.c:gutil_inotify_read"]}
{"id": "C76", "title": "Weak reference", "statement": "gutil_weakref_get returns a new strong reference to the object last set while the object is alive, NULL otherwise; the weak reference itself never keeps the object alive.", "quantifier": "every history of ref, unref, set, get", "why_tests_cant": "unbounded histories", "anchors": ["src/gutil_weakref.c"]}
{"id": "C77", "title": "Version packing", "statement": "The single word version is decoded to its components and orders as the (major,minor,micro) triple.", "quantifier": "all components within their bit widths", "why_tests_cant": "2^31 combinations", "anchors": ["include/gutil_version.h:GUTIL_VERSION_", "include/gutil_version.h:GUTIL_VERSION_MAJOR_", "include/gutil_version.h:GUTIL_VERSION_MINOR_", "include/gutil_version.h:GUTIL_VERSION_MICRO_", "include/gutil_version.h:gutil_version"]}
{"id": "C78", "title": "Alignment macros", "statement": "G_ALIGN2/4/8(x) is the least multiple of 2/4/8 not less than x.", "quantifier": "every unsigned value that doesn't overflow", "why_tests_cant": "2^32 or 2^64 values", "anchors": ["include/gutil_macros.h:G_ALIGN2", "include/gutil_macros.h:G_ALIGN4", "include/gutil_macros.h:G_ALIGN8"]}
{"id": "C79", "title": "NULL-tolerance", "statement": "All the functions documented or written as NULL-tolerant return their default and have no effect on NULL.", "quantifier": "all argument combinations", "why_tests_cant": "combinatorial", "anchors": ["src/gutil_misc.c", "src/gutil_ring.c", "src/gutil_strv.c", "src/gutil_objv.c"]}
{"id": "C80", "title": "Int array: removal out of range", "statement": "Removing an element or a range at a position past the end of an int array leaves the array alone.", "quantifier": "every array and every position not less than its size", "why_tests_cant": "infinite domain", "anchors": ["src/gutil_intarray.c:gutil_int_array_remove_index", "src/gutil_intarray.c:gutil_int_array_remove_index_fast", "src/gutil_intarray.c:gutil_int_array_remove_range"]}
{"id": "C81", "title": "Int array: handing over the data", "statement": "gutil_int_array_free_to_ints and gutil_int_array_free return all the ints of the array, or NULL if there are none; gutil_int_array_free returns NULL if it frees the data.", "quantifier": "every array", "why_tests_cant": "infinite domain", "anchors": ["src/gutil_intarray.c:gutil_int_array_free", "src/gutil_intarray.c:gutil_int_array_free_to_ints"]}
{"id": "C82", "title": "Int array: every element is initialised", "statement": "Every element of an int array is one which has been put there, whatever the position or count given to insert and set_count.", "quantifier": "every array, position and count", "why_tests_cant": "reads of uninitialised memory are invisible to functional tests", "anchors": ["src/gutil_intarray.c:gutil_int_array_insert_vals", "src/gutil_intarray.c:gutil_int_array_set_count"]}
{"id": "C83", "title": "Pointer vectors", "statement": "gutil_ptrv_length is the number of pointers before the terminating NULL, gutil_ptrv_is_empty tells whether there are none, gutil_ptrv_free releases every one of them exactly once; NULL is an empty vector.", "quantifier": "every NULL-terminated vector of pointers", "why_tests_cant": "infinite domain", "anchors": ["src/gutil_misc.c:gutil_ptrv_length", "src/gutil_misc.c:gutil_ptrv_is_empty", "src/gutil_misc.c:gutil_ptrv_free"]}
{"id": "C84", "title": "Copies of memory", "statement": "gutil_memdup returns a copy of exactly the given bytes, or NULL if there are none; gutil_strlen0 is the length of the string, zero for NULL.", "quantifier": "every block and every string", "why_tests_cant": "infinite domain", "anchors": ["src/gutil_misc.c:gutil_memdup", "src/gutil_misc.c:gutil_strlen0"]}
{"id": "C85", "title": "Disconnecting handlers and removing sources", "statement": "gutil_disconnect_handlers disconnects each non-zero id exactly once and zeroes it; gutil_source_remove and gutil_source_clear remove the source exactly if its id isn't zero, the latter zeroes the id.", "quantifier": "every array of ids and every count", "why_tests_cant": "infinite domain", "anchors": ["src/gutil_misc.c:gutil_disconnect_handlers", "src/gutil_misc.c:gutil_source_remove", "src/gutil_misc.c:gutil_source_clear"]}
{"id": "C86", "title": "Log handlers", "statement": "A message which is to be logged is passed exactly once to the log function of its module, or to the common one if the module has none; the default one passes it to gutil_log_func with the name of the module, or NULL if the name is hidden.", "quantifier": "every configuration, module and message", "why_tests_cant": "many configurations", "anchors": ["src/gutil_log.c:gutil_logv_r", "src/gutil_log.c:gutil_log_default_proc"]}
{"id": "C87", "title": "Log lines", "statement": "Each message logged to stdout or stderr becomes one line consisting of the thread id and timestamp (if enabled), name, severity of warnings and errors, and the whole message, of whatever length.", "quantifier": "every message, name, level and timestamp format", "why_tests_cant": "unbounded lengths; uninitialised memory is invisible to functional tests", "anchors": ["src/gutil_log.c:gutil_log_stdio", "src/gutil_log.c:gutil_log_format"]}
{"id": "C88", "title": "Log severity", "statement": "Passing messages to syslog and GLib preserves the order of severity and the whole text; the default name isn't repeated in the system log.", "quantifier": "every pair of levels, name and message", "why_tests_cant": "combinatorial", "anchors": ["src/gutil_log.c:gutil_log_syslog", "src/gutil_log.c:gutil_log_glib"]}
{"id": "C89", "title": "Log environment variables", "statement": "The environment variables set the default level, timestamps and thread ids if they are integers in the range, and have no effect otherwise.", "quantifier": "every value of the variables", "why_tests_cant": "infinite domain", "anchors": ["src/gutil_log.c:gutil_log_init"]}
{"id": "C90", "title": "Log description", "statement": "The description lists all the levels, and all the modules each on its own line.", "quantifier": "every list of modules", "why_tests_cant": "infinite domain", "anchors": ["src/gutil_log.c:gutil_log_description"]}
{"id": "C91", "title": "Idle pool: sources of others", "statement": "Draining or destroying an idle pool removes the idle source of that pool, and never a source which belongs to someone else.", "quantifier": "every history and every set of sources in the default main context", "why_tests_cant": "which ids collide depends on the rest of the program", "anchors": ["src/gutil_idlepool.c:gutil_idle_pool_drain", "src/gutil_idlepool.c:gutil_idle_pool_add"]}
{"id": "C92", "title": "Specific version macros", "statement": "Each GUTIL_VERSION_X_Y_Z macro is an expression whose value is that version, so that it can be compared with GUTIL_VERSION.", "quantifier": "every such macro defined by the header", "why_tests_cant": "the macros are not used by the library nor by its tests", "anchors": ["include/gutil_version.h:GUTIL_VERSION_1_0_69", "include/gutil_version.h:GUTIL_VERSION_1_0_79"]}
{"id": "C93", "title": "Inotify memory safety", "statement": "Whatever sequence of watch creation, referencing, unreferencing, destruction (also from the handlers of a watch, and also of the watch whose handler is running), file events and dispatching takes place, neither the shared inotify instance nor a watch is used after it has been freed.", "quantifier": "every history following the rules, every schedule of callbacks", "why_tests_cant": "unbounded histories, re-entrancy", "anchors": ["src/gutil_inotify.c:gutil_inotify_read", "src/gutil_inotify.c:gutil_inotify_unref", "src/gutil_inotify.c:gutil_inotify_watch_finalize"]}
{"id": "C94", "title": "Reference counters shared by threads", "statement": "However the threads which share a reference-counted object (ints, ring, history, idle queue, idle pool, weak reference) interleave their ref and unref calls, the object and its contents stay while any thread has a reference, its free function is called exactly once and the object is deallocated exactly once after the last reference has been dropped.", "quantifier": "every number of threads and every interleaving of their steps", "why_tests_cant": "schedules can't be enumerated by tests", "anchors": ["src/gutil_ints.c:gutil_ints_ref", "src/gutil_ints.c:gutil_ints_unref", "src/gutil_ring.c:gutil_ring_unref", "src/gutil_history.c:gutil_int_history_unref", "src/gutil_idlequeue.c:gutil_idle_queue_unref", "src/gutil_idlepool.c:gutil_idle_pool_unref", "src/gutil_weakref.c:gutil_weakref_unref"]}
{"id": "C95", "title": "Ints: turning a shared array to data", "statement": "gutil_ints_unref_to_data gives the caller the data (or a copy of them) and is safe whatever the other threads which have references to the same array do to it.", "quantifier": "every number of threads and every interleaving of their steps", "why_tests_cant": "the race window is a few instructions", "anchors": ["src/gutil_ints.c:gutil_ints_unref_to_data"]}
{"id": "C96", "title": "Ring: free functions which use the ring", "statement": "The free function of a ring may use the same ring (add, take, drop and clear elements, change its size limit and its free function): each element stored is still returned to the caller or passed to a free function exactly once, and nothing else happens to it.", "quantifier": "every history, including calls made by the free functions while the ring is being cleared or trimmed, nested to any depth", "why_tests_cant": "re-entrancy: the combinations of outer and nested calls can't be enumerated", "anchors": ["src/gutil_ring.c:gutil_ring_clear", "src/gutil_ring.c:gutil_ring_drop", "src/gutil_ring.c:gutil_ring_drop_last", "src/gutil_ring.c:gutil_ring_set_max_size", "src/gutil_ring.c:gutil_ring_unref"]}
{"id": "C97", "title": "Clock notifier: lifetime", "statement": "All users of the clock notifier share one object while anybody has a reference to it; references may be dropped anywhere, including the handlers; when the last one is dropped, the object, its timer and its event source go away, each descriptor being closed exactly once, and the object isn't used after that.", "quantifier": "every history of calls (also from handlers), clock changes and main loop iterations, including failures of the timer", "why_tests_cant": "unbounded histories, re-entrancy", "anchors": ["src/gutil_timenotify.c:gutil_time_notify_new", "src/gutil_timenotify.c:gutil_time_notify_ref", "src/gutil_timenotify.c:gutil_time_notify_unref", "src/gutil_timenotify.c:gutil_time_notify_callback", "src/gutil_timenotify.c:gutil_time_notify_finalize"]}
{"id": "C98", "title": "Clock notifier: handlers", "statement": "After each change of the system clock, all the handlers which are connected are called, in the order of connection and exactly once (changes which happen before the main loop gets to it may be merged), except those which get removed before their turn; handlers aren't called without a change of the clock.", "quantifier": "every history of calls (also from handlers), clock changes and main loop iterations", "why_tests_cant": "unbounded histories, re-entrancy", "anchors": ["src/gutil_timenotify.c:gutil_time_notify_add_handler", "src/gutil_timenotify.c:gutil_time_notify_remove_handler", "src/gutil_timenotify.c:gutil_time_notify_callback", "src/gutil_timenotify.c:gutil_time_notify_init"]}
{"id": "C99", "title": "Clock notifier: the timer never expires", "statement": "The timer used for tracking clock changes is set to the latest time which can be represented.", "quantifier": "all sizes of long and time_t", "why_tests_cant": "depends on the platform", "anchors": ["src/gutil_timenotify.c:TIME_T_MAX"]}
{"id": "C100", "title": "Assertions: ring", "statement": "In a debug build, no assertion fails whatever is done to a ring.", "quantifier": "every history of ring calls, every initial capacity and limit", "why_tests_cant": "unbounded histories", "anchors": ["src/gutil_ring.c:gutil_ring_size", "src/gutil_ring.c:gutil_ring_compact", "src/gutil_ring.c:gutil_ring_reserve", "src/gutil_ring.c:gutil_ring_put", "src/gutil_ring.c:gutil_ring_drop", "src/gutil_ring.c:gutil_ring_drop_last", "src/gutil_ring.c:gutil_ring_ref", "src/gutil_ring.c:gutil_ring_unref", "include/gutil_log.h:GASSERT"]}
{"id": "C101", "title": "Assertions: history", "statement": "In a debug build, no assertion fails whatever is done to a history.", "quantifier": "every history of calls and clock values", "why_tests_cant": "unbounded histories; depends on timing", "anchors": ["src/gutil_history.c:gutil_int_history_size", "include/gutil_log.h:GASSERT"]}
{"id": "C102", "title": "Assertions: idle queue", "statement": "In a debug build, no assertion fails whatever is done to an idle queue, by callbacks too.", "quantifier": "every history of calls (also from callbacks) and main loop iterations", "why_tests_cant": "unbounded histories, re-entrancy", "anchors": ["src/gutil_idlequeue.c:gutil_idle_queue_cancel_tag", "src/gutil_idlequeue.c:gutil_idle_queue_add_tag_full", "include/gutil_log.h:GASSERT"]}
{"id": "C103", "title": "Assertions: idle pool", "statement": "In a debug build, no assertion fails whatever is done to an idle pool, by destroy functions too.", "quantifier": "every history of calls (also from destroy functions) and main loop iterations", "why_tests_cant": "unbounded histories, re-entrancy", "anchors": ["src/gutil_idlepool.c:gutil_idle_pool_drain", "src/gutil_idlepool.c:gutil_idle_pool_add", "include/gutil_log.h:GASSERT"]}
{"id": "C104", "title": "Assertions: inotify", "statement": "In a debug build, no assertion fails whatever is done to inotify watches, by handlers too, and whatever events the kernel delivers.", "quantifier": "every history of calls (also from handlers) and events, every sequence of events in a buffer", "why_tests_cant": "unbounded histories, re-entrancy", "anchors": ["src/gutil_inotify.c:gutil_inotify_watch_destroy", "src/gutil_inotify.c:gutil_inotify_read", "include/gutil_log.h:GVERIFY"]}
{"id": "C105", "title": "Idle pool: references to objects", "statement": "Objects passed to the typed functions of an idle pool stay alive until the pool is drained, and are released exactly once after that unless the client has more references: the pool holds exactly one reference for each time the object has been added, taken from the caller or added (depending on the function). The functions return what they are given and ignore NULL. Nothing is left in the pool after it has been drained or deallocated.", "quantifier": "every history of creating, referencing, releasing and adding objects of all supported types, draining, main loop iterations and re-entrant calls", "why_tests_cant": "unbounded histories, re-entrancy", "anchors": ["src/gutil_idlepool.c:gutil_idle_pool_add_strv", "src/gutil_idlepool.c:gutil_idle_pool_add_object", "src/gutil_idlepool.c:gutil_idle_pool_add_variant", "src/gutil_idlepool.c:gutil_idle_pool_add_ptr_array", "src/gutil_idlepool.c:gutil_idle_pool_add_bytes", "src/gutil_idlepool.c:gutil_idle_pool_add_object_ref", "src/gutil_idlepool.c:gutil_idle_pool_add_bytes_ref"]}
{"id": "C106", "title": "inotify: handlers and callbacks", "statement": "When an event comes for an inotify watch, the handlers which are connected to the watch are called with the arguments of that event, once each and in the order of connection, except for those which get disconnected before their turn; handlers connected in the meantime wait for the next event. Once a handler has been removed or a callback has been freed, even by the function which is running, it's never called again. A callback holds one reference to its own watch, so freeing it makes the watch go away unless the client has more references or its handlers are being called.", "quantifier": "every history of creating and destroying watches, callbacks and handlers, file events, and re-entrant calls from handlers", "why_tests_cant": "unbounded histories, re-entrancy, object lifetime", "anchors": ["src/gutil_inotify.c:gutil_inotify_watch_add_handler", "src/gutil_inotify.c:gutil_inotify_watch_remove_handler", "src/gutil_inotify.c:gutil_inotify_watch_callback_new", "src/gutil_inotify.c:gutil_inotify_watch_callback_free", "src/gutil_inotify.c:gutil_inotify_read"]}
{"id": "C107", "title": "Assertions: reference counters and clock notifier", "statement": "In a debug build, no assertion about a reference counter fails as long as those who reference and unreference the object hold a reference to it, whatever the other threads are doing in the meantime, and neither does the one in the clock notifier.", "quantifier": "every interleaving of any number of threads, every history of calls and clock changes", "why_tests_cant": "data races; unbounded histories", "anchors": ["src/gutil_ring.c:gutil_ring_ref", "src/gutil_history.c:gutil_int_history_unref", "src/gutil_idlequeue.c:gutil_idle_queue_ref", "src/gutil_idlepool.c:gutil_idle_pool_unref", "src/gutil_weakref.c:gutil_weakref_ref", "src/gutil_weakref.c:gutil_weakref_unref", "src/gutil_timenotify.c:gutil_time_notify_callback", "include/gutil_log.h:GASSERT"]}
{"id": "C108", "title": "Int array: several owners", "statement": "Those who have a reference to an int array share its contents. The array goes away with its last owner, and not before. The one who frees it while keeping the data, or turns it into ints, gets all of the contents, which then don't depend on what happens to the array; the others are left with an empty array which they can use. No memory is leaked, used after having been deallocated, or deallocated twice.", "quantifier": "every history of calls made by any number of owners of any number of arrays", "why_tests_cant": "unbounded histories, memory lifetime", "anchors": ["src/gutil_intarray.c:gutil_int_array_ref", "src/gutil_intarray.c:gutil_int_array_unref", "src/gutil_intarray.c:gutil_int_array_free", "src/gutil_intarray.c:gutil_int_array_free_to_ints"]}
{"id": "C109", "title": "Whole calls whose free functions add elements", "statement": "If the free functions called by gutil_ring_clear, gutil_ring_drop, gutil_ring_drop_last and gutil_ring_set_max_size add elements to the ring, the call still releases exactly the elements it would release otherwise (those which were in the ring when it was called), and what has been added stays in the ring, unless that exceeds the maximum size.", "quantifier": "every state of the ring, every count, every sequence of non-removing calls made by each of the free functions", "why_tests_cant": "what's added depends on what is being released, and the loops re-read the state of the ring after each call", "anchors": ["src/gutil_ring.c:gutil_ring_clear", "src/gutil_ring.c:gutil_ring_drop", "src/gutil_ring.c:gutil_ring_drop_last", "src/gutil_ring.c:gutil_ring_set_max_size"]}
{"id": "C110", "title": "Notifications which use the same ids", "statement": "gutil_disconnect_handlers and gutil_source_clear may be used by the notifications they cause (GClosureNotify of a disconnected handler, GDestroyNotify of a removed source): nothing is disconnected or removed twice, and when everything has returned, the ids kept by the program are exactly those of existing handlers and sources.", "quantifier": "every sequence of connecting, disconnecting, adding and removing, every nesting of notifications, any number of ids", "why_tests_cant": "notifications nest to any depth, and what they do may depend on everything done before", "anchors": ["src/gutil_misc.c:gutil_disconnect_handlers", "src/gutil_misc.c:gutil_source_clear"]}
{"id": "C111", "title": "Finalizers which use object vectors", "statement": "gutil_objv_free, gutil_objv_remove and gutil_objv_remove_at drop references, and finalizers of the objects may make, change and free object vectors and drop other references in turn. Nothing is used after it's gone; when everything has returned, all vectors have the contents they should have, each object has exactly as many references as the program and the vectors have to it, no memory is lost, and each object without references has been finalized once.", "quantifier": "every set of objects, every sequence of calls made by the program and by its finalizers, every nesting of them", "why_tests_cant": "finalizers nest to any depth and may do anything at every reference dropped", "anchors": ["src/gutil_objv.c:gutil_objv_free", "src/gutil_objv.c:gutil_objv_remove", "src/gutil_objv.c:gutil_objv_remove_at"]}
{"id": "C112", "title": "Log functions which use the log", "statement": "A custom log function may itself log and dump things, and change anything about the configuration of the log (levels, log functions, type, timestamps). That never goes wrong; each message is treated according to the configuration of the moment when it is logged; calls are nested properly, so a message is passed on before anything its log function logs; all lines of a dump which was enabled when it began are logged one after another, whatever the log function does between them; and everything returns if log functions do.", "quantifier": "every sequence of calls made by the program and by its log functions, every nesting of them, every configuration whose modules have no cycles", "why_tests_cant": "log functions nest to any depth and may do anything at every message", "anchors": ["src/gutil_log.c:gutil_logv", "src/gutil_log.c:gutil_log_dump", "src/gutil_log.c:gutil_log_set_timestamp_format", "src/gutil_log.c:gutil_log_set_type", "src/gutil_log.c:gutil_log_parse_option"]}
{"id": "C113", "title": "Log used by several threads", "statement": "Several threads may log at the same time without any locking by the program. Whatever else is going on, a thread logs each message no more than once, and what it prints or passes to a log function is the message it has been asked to log, with its level; it only calls log functions which have been set, for its module; it never waits for another thread. As long as nobody changes the configuration, each thread logs exactly what it would log if it were alone, in the same order. Other threads may change the configuration at any time; as long as they don't change levels, parents and flags of modules (or remove the log function), each message which is to be logged is passed to a log function exactly once, and others aren't.", "quantifier": "every number of threads, every interleaving of their steps, every sequence of messages and of changes of configuration", "why_tests_cant": "the outcome depends on the scheduler; a test only sees the interleavings which happen to occur", "anchors": ["src/gutil_log.c:gutil_logv", "src/gutil_log.c:gutil_logv_r", "src/gutil_log.c:gutil_log_default_proc", "src/gutil_log.c:gutil_log_stdio", "src/gutil_log.c:gutil_log_set_timestamp_format"]}
{"id": "C114", "title": "Lifetime of the idle queue", "statement": "The idle queue exists for exactly as long as there are references to it: the one which gutil_idle_queue_new returns, plus those taken by gutil_idle_queue_ref, minus those dropped by gutil_idle_queue_unref. Dropping any reference but the last one changes nothing. When the last one is dropped, what's pending is destroyed without being run, the idle source is removed and the queue is deallocated.", "quantifier": "every sequence of calls, including calls made by callbacks, as long as the queue isn't used by somebody who has no reference to it", "why_tests_cant": "the lifetime depends on the whole history of references, and callbacks take and drop references too", "anchors": ["src/gutil_idlequeue.c:gutil_idle_queue_new", "src/gutil_idlequeue.c:gutil_idle_queue_ref", "src/gutil_idlequeue.c:gutil_idle_queue_unref"]}
{"id": "C115", "title": "Int array: reserved size", "statement": "gutil_int_array_sized_new(n) makes an empty array with room for n elements, and gutil_int_array_new_from_vals makes an array of the given values, for every number of elements which such an array can hold.", "quantifier": "every number of elements in the whole guint range, every limit imposed by GLib", "why_tests_cant": "gigabytes of memory are needed to see it", "anchors": ["src/gutil_intarray.c:gutil_int_array_sized_new", "src/gutil_intarray.c:gutil_int_array_new_from_vals"]}
{"id": "C116", "title": "Lifetime of the idle pool", "statement": "The idle pool isn't deallocated as long as the program has references to it: the one returned by gutil_idle_pool_new (none by gutil_idle_pool_get), plus those taken by gutil_idle_pool_ref, minus those dropped by gutil_idle_pool_unref and gutil_idle_pool_destroy. Without those, it's deallocated as soon as there is nothing left to do: no idle source, and no destroy function being called.", "quantifier": "every sequence of calls, including those made by destroy functions and by the main loop", "why_tests_cant": "the lifetime depends on the whole history of references, and destroy functions take and drop references too", "anchors": ["src/gutil_idlepool.c:gutil_idle_pool_new", "src/gutil_idlepool.c:gutil_idle_pool_get", "src/gutil_idlepool.c:gutil_idle_pool_ref", "src/gutil_idlepool.c:gutil_idle_pool_unref", "src/gutil_idlepool.c:gutil_idle_pool_destroy"]}
{"id": "C117", "title": "Default idle pools of threads", "statement": "gutil_idle_pool_get_default always returns the same pool to a thread, different threads get different pools, and the pool exists until the thread exits no matter what anyone else does. gutil_idle_pool_add and gutil_idle_pool_drain use that pool if they are given NULL. When the thread exits, everything in its pool is destroyed and the pool is deallocated, unless somebody else has a reference to it; destroy functions may use the default pool even then, that's a new one.", "quantifier": "every number of threads and pools, every interleaving of their calls including those made by destroy functions, threads exiting at any moment", "why_tests_cant": "the pools depend on which threads exist and when they exit, and on what destroy functions do then", "anchors": ["src/gutil_idlepool.c:gutil_idle_pool_get_default", "src/gutil_idlepool.c:gutil_idle_pool_add", "src/gutil_idlepool.c:gutil_idle_pool_drain"]}
{"id": "C118", "title": "Int array: histories of calls", "statement": "Any sequence of calls changes an int array in the same way as it changes a list of ints, and each call returns what is true of the list at that moment, as long as there are no more than 2^31 ints, nothing is inserted past the end, the count isn't increased, positions given to gutil_int_array_remove_index_fast exist, ends of the ranges to remove are unsigned ints, and sorted ints differ by less than 2^31.", "quantifier": "every initial array and every sequence of calls following those rules, every sorting function meeting the contract of g_array_sort", "why_tests_cant": "unbounded histories", "anchors": ["src/gutil_intarray.c:gutil_int_array_append", "src/gutil_intarray.c:gutil_int_array_insert_vals", "src/gutil_intarray.c:gutil_int_array_remove_all_fast", "src/gutil_intarray.c:gutil_int_array_remove_range", "src/gutil_intarray.c:gutil_int_array_sort_ascending"]}
{"id": "C119", "title": "String vectors: histories of calls", "statement": "Any sequence of calls of the gutil_strv functions, on any number of string vectors and with strings which are NULL, belong to the caller or are elements of the vectors, has the effect and the results it would have on lists of strings. Nothing which has been freed is used, nothing is freed twice, and at any time there are exactly as many strings allocated as there are in the vectors and in the hands of the caller (who owns those taken out with gutil_strv_remove_at without freeing them), so that nothing is left once the vectors and the caller's strings have been freed. The caller doesn't remove all strings equal to an element of the same vector by giving that element (see C31), and only searches sorted vectors with gutil_strv_bsearch.", "quantifier": "all sequences of calls, numbers of vectors, strings, positions and directions; all qsort and bsearch which do what the C standard says", "why_tests_cant": "Tests run a few fixed sequences; ownership mistakes depend on the combination of calls and on which strings are equal or shared.", "anchors": ["src/gutil_strv.c: gutil_strv_add", "src/gutil_strv.c: gutil_strv_addv", "src/gutil_strv.c: gutil_strv_remove", "src/gutil_strv.c: gutil_strv_remove_at", "src/gutil_strv.c: gutil_strv_remove_dups", "src/gutil_strv.c: gutil_strv_sort", "src/gutil_strv.c: gutil_strv_strip", "src/gutil_strv.c: gutil_strv_equal"]}
{"id": "C120", "title": "Ring: lifetime of the flattened block", "statement": "The block returned by gutil_ring_flatten stays at the same address and keeps holding the elements the ring had at that moment, whatever else is done to the ring (taking, dropping and clearing elements, changing its limit and its free function), until elements are added, the ring is reserved, compacted or flattened again, or goes away.", "quantifier": "all histories before and after the call, all capacities up to 2^30", "why_tests_cant": "removing an element or changing a limit must not move or overwrite the block, which depends on the whole history", "anchors": ["src/gutil_ring.c:gutil_ring_flatten", "src/gutil_ring.c:gutil_ring_get", "src/gutil_ring.c:gutil_ring_get_last", "src/gutil_ring.c:gutil_ring_drop", "src/gutil_ring.c:gutil_ring_drop_last", "src/gutil_ring.c:gutil_ring_clear", "src/gutil_ring.c:gutil_ring_set_max_size"]}
{"id": "C121", "title": "Idle pool: main loop run by another thread", "statement": "If the thread which uses an idle pool has no main context of its own, the sources of the pool are dispatched by the main thread, at any moment and without synchronization. Even then the pool isn't used after it has been deallocated, each item is destroyed at most once and in order, and the main thread destroys nothing unless it has got the last reference. Something pending is released by the main loop at the latest after something else has been added, and ids of sources which don't exist aren't removed.", "quantifier": "every interleaving of the steps of the two threads, every history of calls", "why_tests_cant": "the result depends on the moment at which the main thread interferes", "anchors": ["src/gutil_idlepool.c:gutil_idle_pool_idle", "src/gutil_idlepool.c:gutil_idle_pool_add", "src/gutil_idlepool.c:gutil_idle_pool_drain", "src/gutil_idlepool.c:gutil_idle_pool_unref"]}
{"id": "C122", "title": "Logging macros", "statement": "The macros leave out messages above the compile time limit (and assertions in release builds) without changing anything else: whatever the program is compiled with, it ends up in the same state, and what gets to the log is exactly the messages within the limit, and the failed assertions if assertions are compiled in.", "quantifier": "every program which uses the macros, every compile time limit and assertion level, every order of evaluation", "why_tests_cant": "tests run one build of the program", "anchors": ["include/gutil_log.h:GERR", "include/gutil_log.h:GASSERT", "include/gutil_log.h:GVERIFY", "include/gutil_log.h:GVERIFY_EQ", "src/gutil_log.c:gutil_log_assert"]}
{"id": "C123", "title": "Weak references shared by threads", "statement": "Weak references can be shared by threads. Whatever the threads do at the same time - take and drop references to objects and to weak references, assign objects and get them back - nothing is used after it has been released, what's returned by gutil_weakref_get is the object which was assigned the last time, with a reference added to it, or NULL if there are no references to that object anymore, weak references don't keep objects alive, and a weak reference is released once, after the last reference to it has been dropped, no matter whether its object is going away at the same time.", "quantifier": "every interleaving of the steps of any number of threads, any number of objects and weak references", "why_tests_cant": "the result depends on the moment at which other threads interfere", "anchors": ["src/gutil_weakref.c:gutil_weakref_new", "src/gutil_weakref.c:gutil_weakref_ref", "src/gutil_weakref.c:gutil_weakref_unref", "src/gutil_weakref.c:gutil_weakref_get", "src/gutil_weakref.c:gutil_weakref_set"]}
{"id": "C124", "title": "Int array: adding its own elements", "statement": "Elements of an array may be added to the same array: appending, prepending or inserting count values starting at array->data + i inserts copies of those elements, as if the values had been somewhere else.", "quantifier": "all arrays and capacities, all positions and parts of the array", "why_tests_cant": "whether the memory has to be reallocated depends on the capacity, which isn't visible", "anchors": ["src/gutil_intarray.c:gutil_int_array_append_vals", "src/gutil_intarray.c:gutil_int_array_prepend_vals", "src/gutil_intarray.c:gutil_int_array_insert_vals"]}
{"id": "C125", "title": "How many references there may be", "statement": "An object with a reference counter (ints, ring, history, idle queue, idle pool, weak reference, inotify) exists exactly as long as somebody has a reference to it, and is deallocated once, however many references there are.", "quantifier": "every sequence of ref and unref calls made by those who have references, in the order in which they take effect", "why_tests_cant": "it takes more than four billion calls to get there", "anchors": ["src/gutil_ints.c:gutil_ints_ref", "src/gutil_ints.c:gutil_ints_unref", "src/gutil_ring.c:gutil_ring_ref", "src/gutil_ring.c:gutil_ring_unref", "src/gutil_history.c:gutil_int_history_ref", "src/gutil_idlequeue.c:gutil_idle_queue_ref", "src/gutil_idlepool.c:gutil_idle_pool_ref", "src/gutil_weakref.c:gutil_weakref_ref", "src/gutil_inotify.c:gutil_inotify_ref"]}
{"id": "C126", "title": "Structures from the addresses of their fields", "statement": "G_CAST(address,type,field) applied to the address of a field of a structure is the address of the structure, wherever the structure is, whatever its other fields are. Nothing but the address of that field is converted to the address of the structure; naming another field gives something else, or a pointer to what is before the block of memory, which is undefined.", "quantifier": "every structure, its fields, the field, the place of the structure in memory", "why_tests_cant": "any layout of structures of any number of fields", "anchors": ["include/gutil_macros.h:G_CAST"]}
{"id": "C127", "title": "Threads and the timestamp format", "statement": "Several threads may log things and set the timestamp format. Whatever they do and whatever the scheduler does, each message gets the timestamp of a format which has been set (or the default one), and each copy of a format is freed once, after it has been used for the last time. That isn't so: the format isn't protected, and setting it frees the old one while other threads may be using it. If the calls which set it don't overlap each other, then memory doesn't leak and nothing is freed twice; if they don't overlap a message being logged either, then the message gets the timestamp of the format which was set last; whatever happens, formats which nobody has set are never used.", "quantifier": "every number of threads, every interleaving of their steps, every sequence of formats set and messages logged", "why_tests_cant": "the outcome depends on the scheduler; memory which has been freed usually has the same contents for a while", "anchors": ["src/gutil_log.c:gutil_log_set_timestamp_format", "src/gutil_log.c:gutil_log_stdio"]}
{"id": "C128", "title": "Logging without any configuration", "statement": "Before anything is configured, a message is printed to stdout as one line, without a timestamp, if its level is positive and not greater than the default one (or is GLOG_LEVEL_ALWAYS), otherwise it goes nowhere; gutil_log_enabled says which. The line consists of the name of the module in brackets, if there's one, severity and the text. It's the same for all modules defined by GLOG_MODULE_DEFINE and GLOG_MODULE_DEFINE2, however deep the tree of their parents is. GDEBUG_DUMP and GDEBUG_DUMP_BYTES don't evaluate their arguments if messages of the debug level aren't compiled in.", "quantifier": "every message shorter than 2 GiB, level, list of modules whose parents don't form a cycle", "why_tests_cant": "trees of modules may be arbitrarily deep, levels are any integers", "anchors": ["include/gutil_log.h:GLOG_MODULE_DEFINE2_", "src/gutil_log.c:gutil_log_default", "src/gutil_log.c:gutil_logv"]}
{"id": "C129", "title": "An idle queue which another thread adds to", "statement": "A thread calls gutil_idle_queue_add_full (as it may call g_idle_add), the callbacks are run by the main loop: each one is run once, in the order in which they were added, what has been added is going to be run, and nothing bad happens. That's only true as long as nothing is being added while the main loop is running the callbacks. Otherwise the thread may use an item which has been freed, or a null pointer; what it has added may be lost; and if the main loop is faster than g_idle_add then nothing is ever run again. In any case, none of the callbacks is run twice, and the order is kept.", "quantifier": "every interleaving of single accesses to the queue and its items by the thread and by the main loop, every sequence of calls", "why_tests_cant": "there are arbitrarily many interleavings, and the windows are too short to be hit by tests", "anchors": ["src/gutil_idlequeue.c:gutil_idle_queue_run", "src/gutil_idlequeue.c:gutil_idle_queue_add_tag_full"]}
{"id": "C130", "title": "An idle queue whose last reference is dropped by another thread", "statement": "References to an idle queue are counted atomically. If the last one is dropped by a thread other than the one which runs the main loop: the destroy function is called for everything that hasn't been run, in the order in which it was added, the queue is deallocated, nothing is left in the main loop, nothing is run after that, and nothing bad happens. That's only true as long as the main loop isn't running the callbacks at that time. Otherwise the main loop may use the queue after it has been deallocated, and the destroy function may be called twice for the same data.", "quantifier": "every interleaving of single accesses to the queue and its items by the thread and by the main loop, every sequence of calls before that", "why_tests_cant": "there are arbitrarily many interleavings, and the windows are too short to be hit by tests", "anchors": ["src/gutil_idlequeue.c:gutil_idle_queue_unref", "src/gutil_idlequeue.c:gutil_idle_queue_cancel_all", "src/gutil_idlequeue.c:gutil_idle_queue_cancel_first", "src/gutil_idlequeue.c:gutil_idle_queue_run"]}
{"id": "C131", "title": "The logging macros are portable", "statement": "With compilers other than gcc and clang (or any others which don't define __GNUC__) GERR, GWARN, GINFO, GDEBUG and GVERBOSE are functions. Every program does the same as if it was compiled by gcc with the same GLOG_LEVEL_MAX: it logs the same messages and its state is the same. That's only true if there are no side effects in the arguments of those messages which gcc would leave out, no messages with empty formats, and if no names of functions are expected from GERR_ and the like. The state of the program never depends on the level of messages that it's compiled for. If GLOG_LEVEL_MAX is less than GLOG_LEVEL_DEBUG then it doesn't compile.", "quantifier": "every program which uses the macros, every configuration it's compiled with, every state of the log", "why_tests_cant": "the variant isn't even compiled by the tests; there are infinitely many programs", "anchors": ["include/gutil_log.h:GLOG_VA_", "include/gutil_log.h:GLOG_VA_NONE", "include/gutil_log.h:GERR", "include/gutil_log.h:GDEBUG"]}
{"id": "C132", "title": "Adding to a ring takes amortised constant time", "statement": "Adding elements to a GUtilRing is cheap however many there are: storing n elements with gutil_ring_put and gutil_ring_put_front, with anything taken out and dropped in between, copies no more than 2(n-1) pointers from one memory block to another, and allocates no more than log2(4n) blocks. That's only true as long as the caller doesn't change the limit or reorganise the memory in between: with gutil_ring_compact after each element, or the limit raised by one before each of them, n(n-1)/2 pointers are copied.", "quantifier": "every ring, every reserved size and limit, every sequence of calls", "why_tests_cant": "time measured in a test says nothing about longer sequences, and the number of sequences is unlimited", "anchors": ["src/gutil_ring.c:gutil_ring_reserve", "src/gutil_ring.c:gutil_ring_put", "src/gutil_ring.c:gutil_ring_put_front", "src/gutil_ring.c:gutil_ring_compact"]}
{"id": "C133", "title": "Encoding what has been decoded", "statement": "If a number, a TLV or a sequence of TLVs has been decoded, and is encoded again, then there's enough room for it where it came from, and the result consists of the same bytes (so that for example a checksum of it still matches). The latter is only true if it was encoded in the shortest possible way; the decoders don't insist on that. If each number was then the bytes are the same, otherwise they are always different.", "quantifier": "every sequence of bytes which is accepted by a decoder", "why_tests_cant": "the number of sequences of bytes is unlimited, and tests usually decode what they have encoded", "anchors": ["src/gutil_datapack.c:gutil_unsigned_mbn_decode", "src/gutil_datapack.c:gutil_signed_mbn_decode", "src/gutil_datapack.c:gutil_tlv_decode", "src/gutil_datapack.c:gutil_tlv_encode"]}
{"id": "C134", "title": "Accuracy of averages", "statement": "The value returned by gutil_int_history_add and gutil_int_history_median is the time-weighted average of the samples, truncated towards zero. That's true of a single sample. Otherwise it's not (areas are truncated too), but if nothing overflows then the difference is less than 3/2, and averages of non-negative samples are never exceeded. There is no better bound.", "quantifier": "all histories of calls and clocks, with any number of samples", "why_tests_cant": "rounding errors of many samples add up, the worst case depends on the number of samples and the time between them", "anchors": ["src/gutil_history.c:gutil_int_history_median_at", "src/gutil_history.c:gutil_int_history_add", "src/gutil_history.c:gutil_int_history_median"]}
{"id": "C135", "title": "Averages and values", "statement": "As long as nothing overflows: with larger values, the same calls at the same times never return anything smaller; with the opposite values, they return the opposite averages; and at any other time, they return the same.", "quantifier": "all pairs of histories of calls which differ in this way", "why_tests_cant": "these are properties of pairs of histories, of any length", "anchors": ["src/gutil_history.c:gutil_int_history_median_at", "src/gutil_history.c:gutil_int_history_add", "src/gutil_history.c:gutil_int_history_median"]}
{"id": "C136", "title": "Truncated data", "statement": "If only the first bytes of encoded data are there (e.g. because a writer has crashed, or something hasn't been received yet) then no number, and no TLV, is decoded unless all its bytes are there; those which are there are decoded correctly, and the range isn't moved any further. Decoding a sequence of TLVs then fails, unless it was cut between two TLVs, and the values of those which precede the incomplete one have been stored.", "quantifier": "every encoded sequence, and every position where it may end", "why_tests_cant": "the number of sequences is unlimited, and they may end at every byte", "anchors": ["src/gutil_datapack.c:gutil_unsigned_mbn_decode", "src/gutil_datapack.c:gutil_signed_mbn_decode", "src/gutil_datapack.c:gutil_tlv_decode", "src/gutil_datapack.c:gutil_tlvs_decode"]}
{"id": "C137", "title": "Parsing of printed numbers", "statement": "A number which has been printed (in any base from 2 to 36, or as a decimal, hexadecimal or octal constant of C, with a sign, and with any white space around it) is parsed by gutil_parse_int, gutil_parse_uint, gutil_parse_int64 and gutil_parse_uint64 as that number if the type has it. Otherwise it's rejected; nothing wraps around, and negative numbers are never taken for unsigned ones.", "quantifier": "all integers (not just those which fit), bases, styles, and white space around the number", "why_tests_cant": "the numbers are unlimited, those which don't fit have to be rejected however many digits they have", "anchors": ["src/gutil_misc.c:gutil_parse_int", "src/gutil_misc.c:gutil_parse_uint", "src/gutil_misc.c:gutil_parse_int64", "src/gutil_misc.c:gutil_parse_uint64"]}
{"id": "C138", "title": "Dumps can be read", "statement": "The bytes can be restored from a line produced by gutil_hexdump. Two blocks of data (of less than 4 GiB) logged by gutil_log_dump with the same arguments look the same, whichever log function gets the messages, only if they are the same data.", "quantifier": "all data of any size, all settings of the log and all locales", "why_tests_cant": "all pairs of data would have to be compared", "anchors": ["src/gutil_misc.c:gutil_hexdump", "src/gutil_log.c:gutil_log_dump", "src/gutil_log.c:gutil_logv"]}
{"id": "C139", "title": "Looking at the history", "statement": "gutil_int_history_size, gutil_int_history_interval and gutil_int_history_median only look at the history: if some of these calls aren't made then all other calls still return the same. That's true as long as the clock doesn't go back; otherwise it's not, because samples which are too old then are removed, and won't be there at an earlier time.", "quantifier": "all histories of calls, all clocks, and all subsets of these calls", "why_tests_cant": "whether removing a call changes later results depends on the whole history", "anchors": ["src/gutil_history.c:gutil_int_history_size", "src/gutil_history.c:gutil_int_history_interval", "src/gutil_history.c:gutil_int_history_median"]}
{"id": "C140", "title": "Changes of log levels", "statement": "If levels of log modules are lowered, or modules are disabled, then each message either still is logged in the same way, or isn't logged; gutil_log_enabled doesn't become true. Modules other than the default one, the one which logs, and its ancestors don't matter, whatever is done to them.", "quantifier": "all pairs of configurations with any number of modules, all messages and log functions", "why_tests_cant": "this compares all pairs of configurations, with unlimited numbers of modules", "anchors": ["src/gutil_log.c:gutil_logv", "src/gutil_log.c:gutil_log_enabled"]}
{"id": "C141", "title": "Sorting makes the order irrelevant", "statement": "Two string vectors are equal after gutil_strv_sort exactly if each string is the same number of times in both of them. Sorting again changes nothing, sorting in the other direction gives the opposite order. The same is true of int arrays whose elements differ by less than 2^31.", "quantifier": "all pairs of vectors and arrays, and all sorting functions which do what the standard says", "why_tests_cant": "there are n! orders of n strings, and different sorting algorithms", "anchors": ["src/gutil_strv.c:gutil_strv_sort", "src/gutil_strv.c:gutil_strv_equal", "src/gutil_intarray.c:gutil_int_array_sort_ascending", "src/gutil_intarray.c:gutil_int_array_sort_descending"]}
{"id": "C142", "title": "Strings which stand for the same number", "statement": "gutil_parse_int, gutil_parse_uint, gutil_parse_int64 and gutil_parse_uint64: white space around the string doesn't matter (unless there's nothing else), upper and lower case are the same, base zero stands for the base which is written in front of the digits. The four functions agree on numbers which are in the ranges of both, if there's no minus; that's not true of minus zero.", "quantifier": "all strings, all bases, all pairs of functions", "why_tests_cant": "this compares all pairs of strings which differ by white space or letter case, without a limit on their length", "anchors": ["src/gutil_misc.c:gutil_parse_int", "src/gutil_misc.c:gutil_parse_uint", "src/gutil_misc.c:gutil_parse_int64", "src/gutil_misc.c:gutil_parse_uint64"]}
{"id": "C143", "title": "A ring seen from its other end", "statement": "Both ends of a ring are alike: if each call is replaced by the one which does the same at the other end (gutil_ring_put and gutil_ring_put_front, gutil_ring_get and gutil_ring_get_last, gutil_ring_drop and gutil_ring_drop_last) then all calls return the same (flattened blocks being in the opposite order), and each element is released as often by the same function, in the same order. That's not true of the order of releasing if gutil_ring_drop_last drops everything, nor if gutil_ring_set_max_size drops elements.", "quantifier": "all histories of calls, all sizes and limits", "why_tests_cant": "this compares pairs of histories of any length", "anchors": ["src/gutil_ring.c:gutil_ring_put_front", "src/gutil_ring.c:gutil_ring_get_last", "src/gutil_ring.c:gutil_ring_drop_last", "src/gutil_ring.c:gutil_ring_set_max_size"]}
{"id": "C144", "title": "Decoding depends only on the bytes which are decoded", "statement": "If a number or a TLV has been decoded by gutil_unsigned_mbn_decode, gutil_signed_mbn_decode or gutil_tlv_decode then the same bytes are decoded in the same way wherever they are, and whatever comes before and after them, and the decoder moves past the same number of bytes.", "quantifier": "all pairs of blocks of data which have these bytes in common", "why_tests_cant": "this compares all pairs of blocks of any size, and all positions in them", "anchors": ["src/gutil_datapack.c:gutil_unsigned_mbn_decode", "src/gutil_datapack.c:gutil_signed_mbn_decode", "src/gutil_datapack.c:gutil_tlv_decode"]}
{"id": "C145", "title": "Laws of concatenation and exclusive or", "statement": "gutil_bytes_xor: it doesn't matter which block is the first one; doing it again with the second one gives the first one back, as much of it as was used; a block with itself gives zeros. gutil_bytes_concat: it doesn't matter which blocks are concatenated first; the result begins with the first one and ends with the last one. That's true if the sizes fit, addresses are aligned and empty blocks are acceptable for memcpy.", "quantifier": "all blocks of data of any size, all word sizes and addresses", "why_tests_cant": "these laws are about all triples of blocks", "anchors": ["src/gutil_misc.c:gutil_bytes_xor", "src/gutil_misc.c:gutil_bytes_concat", "src/gutil_misc.c:gutil_bytes_has_prefix", "src/gutil_misc.c:gutil_bytes_has_suffix"]}
{"id": "C146", "title": "Several log options", "statement": "Any number of log options given to gutil_log_parse_option one after another, all the modules having names: each of them is accepted or rejected no matter which ones have been before it; after all of them, each module has the level of the last accepted option which is about it, and the level which it had before if there's none. Nothing else changes. It crashes if one of the modules has no name and the option has one.", "quantifier": "all sequences of options of any length, all modules, all states of the log", "why_tests_cant": "this is about sequences of strings of any length", "anchors": ["src/gutil_log.c:gutil_log_parse_option", "src/gutil_log.c:gutil_log_parse_level"]}
{"id": "C147", "title": "Changes of an array of ints can be undone", "statement": "Removing the ints which have been appended, prepended or inserted gives the array as it was, and inserting the removed ones at the same position does too.", "quantifier": "all arrays, positions and numbers of ints", "why_tests_cant": "this is about all arrays and all positions", "anchors": ["src/gutil_intarray.c:gutil_int_array_insert_vals", "src/gutil_intarray.c:gutil_int_array_remove_range", "src/gutil_intarray.c:gutil_int_array_set_count", "src/gutil_intarray.c:gutil_int_array_remove_index"]}
{"id": "C148", "title": "Parts of parts of blocks of ints", "statement": "gutil_ints_new_from_ints applied to its own result gives the same ints (and the same number of them) as the corresponding part of the original block, or nothing if there would be no ints in it. That's true if the sums of offsets and counts don't overflow.", "quantifier": "all blocks of ints, all offsets and counts", "why_tests_cant": "this is about all pairs of offsets and counts, including the largest ones", "anchors": ["src/gutil_ints.c:gutil_ints_new_from_ints", "src/gutil_ints.c:gutil_ints_get_data"]}
{"id": "C149", "title": "Changes of a string vector can be undone or repeated", "statement": "Adding a string by gutil_strv_add and removing the last one gives the same strings at the same addresses, and the copy is released; removing it by value gives the same strings if there was no equal one. Removing duplicates twice is the same as doing it once, nothing is released the second time; it doesn't matter whether a string which is already there is added before that.", "quantifier": "all vectors of all strings", "why_tests_cant": "this is about vectors and strings of any length", "anchors": ["src/gutil_strv.c:gutil_strv_add", "src/gutil_strv.c:gutil_strv_remove_at", "src/gutil_strv.c:gutil_strv_remove", "src/gutil_strv.c:gutil_strv_remove_dups"]}
{"id": "C150", "title": "Cancelled items of an idle queue leave no trace", "statement": "Adding an item with an unused tag to an idle queue and cancelling it by gutil_idle_queue_cancel_tag has no effect, except that its destroy function is called: whatever is done after that, the same callbacks are invoked in the same order as if it hadn't been added. That's not true inside of a callback if the queue is empty otherwise: a nested main loop may then invoke items which it wouldn't have invoked.", "quantifier": "all reachable states of the queue, all sequences of calls, callbacks and iterations of the main loop after that", "why_tests_cant": "this compares pairs of histories of any length", "anchors": ["src/gutil_idlequeue.c:gutil_idle_queue_add_tag_full", "src/gutil_idlequeue.c:gutil_idle_queue_cancel_tag", "src/gutil_idlequeue.c:gutil_idle_queue_run"]}
{"id": "C151", "title": "The order of TLVs doesn't matter", "statement": "If two sequences of TLVs contain the same expected TLVs, in any order and with any other TLVs in between (which are skipped), then gutil_tlvs_decode returns the same set of tags for both of them, and the same values. The tags found in the concatenation of two sequences which have no expected tag in common are those found in either of them.", "quantifier": "all sequences of TLVs, all sets of expected tags", "why_tests_cant": "this is about all permutations of sequences of any length", "anchors": ["src/gutil_datapack.c:gutil_tlvs_decode"]}
{"id": "C152", "title": "The memory of a ring can't be noticed", "statement": "How much is reserved when a ring is created, and where gutil_ring_reserve and gutil_ring_compact are called, has no effect on what other calls return, nor on which elements are released and in which order, if no more is reserved than allowed by the maximum size and the maximum size isn't lowered. Putting an element and taking it back from the same end has no effect either.", "quantifier": "all sequences of calls of any length, all rings", "why_tests_cant": "this compares pairs of histories of any length", "anchors": ["src/gutil_ring.c:gutil_ring_reserve", "src/gutil_ring.c:gutil_ring_compact", "src/gutil_ring.c:gutil_ring_put", "src/gutil_ring.c:gutil_ring_get_last"]}
{"id": "C153", "title": "Laws of hexadecimal strings", "statement": "The hexadecimal form of concatenated data is the concatenation of the hexadecimal forms; a string of digits can be decoded exactly if its parts of even length can, and the result is the concatenation of their results; hexadecimal strings are in the same order as the data.", "quantifier": "all data and all strings", "why_tests_cant": "this is about pairs of strings of any length", "anchors": ["src/gutil_misc.c:gutil_bin2hex", "src/gutil_misc.c:gutil_hex2bin", "src/gutil_misc.c:gutil_hex2bytes"]}
{"id": "C154", "title": "Changes of an object vector can be undone", "statement": "After an object has been added to a vector or inserted and then removed, by its position or by its value, and after a copy has been made and released, the vector contains the same objects and each object has as many references as before. An object which has been removed can be put back if there are other references to it, otherwise it's released.", "quantifier": "all vectors, objects, positions and reference counts", "why_tests_cant": "this is about vectors of any length and all positions", "anchors": ["src/gutil_objv.c:gutil_objv_add", "src/gutil_objv.c:gutil_objv_insert", "src/gutil_objv.c:gutil_objv_remove", "src/gutil_objv.c:gutil_objv_remove_at", "src/gutil_objv.c:gutil_objv_copy", "src/gutil_objv.c:gutil_objv_free"]}
{"id": "C155", "title": "The order of encoded numbers", "statement": "Encoded unsigned numbers can be compared without decoding them: the one which takes less bytes is less, and those which take the same number of bytes are compared byte by byte. That includes numbers encoded by gutil_unsigned_mbn_encode2 with the same requested size, if they fit. The same is true for signed numbers of the same sign, except that the negative number which takes more bytes is less.", "quantifier": "all pairs of 64-bit numbers, signed and unsigned, all requested sizes", "why_tests_cant": "this is about all pairs of 64-bit numbers", "anchors": ["src/gutil_datapack.c:gutil_unsigned_mbn_encode", "src/gutil_datapack.c:gutil_unsigned_mbn_encode2", "src/gutil_datapack.c:gutil_signed_mbn_encode"]}
{"id": "C156", "title": "The order of blocks of ints", "statement": "gutil_ints_compare compares blocks lexicographically: the first int which differs decides, and if there's none, then the shorter block is less. The ints are compared as numbers.", "quantifier": "all pairs of blocks, both byte orders", "why_tests_cant": "this is about all pairs of blocks, on machines of both kinds", "anchors": ["src/gutil_ints.c:gutil_ints_compare"]}
{"id": "C157", "title": "Skipping several prefixes", "statement": "Skipping prefixes by gutil_range_skip_prefix one after another until one of them isn't there: all of them are skipped exactly if the range starts with their concatenation, and what's left is what follows the skipped ones. Skipping the same non-empty prefix as long as it's there comes to an end and skips all its copies; with an empty one it never ends.", "quantifier": "all ranges, all sequences of prefixes of any length", "why_tests_cant": "this is about loops with any number of iterations, some of which never end", "anchors": ["src/gutil_misc.c:gutil_range_skip_prefix", "src/gutil_misc.c:gutil_range_has_prefix"]}
{"id": "C158", "title": "Events may be read in portions", "statement": "If the handlers do nothing to the watches, then it doesn't matter how many events each read() from the inotify descriptor returns: the same handlers are called with the same events in the same order, and everything is the same in the end.", "quantifier": "all reachable states, all ways to split the events which the kernel has reported", "why_tests_cant": "how the events are split is up to the kernel", "anchors": ["src/gutil_inotify.c:gutil_inotify_read", "src/gutil_inotify.c:gutil_inotify_callback"]}
{"id": "C159", "title": "A larger history remembers more", "statement": "Of two histories which are used in the same way, the one created with smaller limits (on the number of samples, on the age, or on both) contains exactly those samples of the other one which it would keep: the most recent ones which aren't too old for it.", "quantifier": "all pairs of limits, all sequences of calls, all values of the clock", "why_tests_cant": "this compares two runs of any length, with any limits", "anchors": ["src/gutil_history.c:gutil_int_history_new", "src/gutil_history.c:gutil_int_history_add", "src/gutil_history.c:gutil_int_history_size"]}
{"id": "C160", "title": "Removing all and removing one at a time", "statement": "Removing all strings which are equal to a given one by gutil_strv_remove is the same as removing the first of them by the same function at least as many times as there are of them: the same strings are left in memory, and the same strings are released. It's the same for gutil_objv_remove and for references to objects.", "quantifier": "all vectors, all strings and objects, any number of repetitions", "why_tests_cant": "this is about two ways of doing the same, for vectors of any length", "anchors": ["src/gutil_strv.c:gutil_strv_remove", "src/gutil_objv.c:gutil_objv_remove"]}
{"id": "C161", "title": "The limit of a ring can't be noticed until it's reached", "statement": "As long as a ring rejects nothing, another ring which is used in the same way but has a higher limit, or none, doesn't reject anything either, no matter how much has been reserved for each of them; all calls which aren't about the limit return the same, and the same elements are released in the same order.", "quantifier": "all pairs of limits and reserved sizes, all sequences of calls", "why_tests_cant": "this compares two runs of any length, with any limits", "anchors": ["src/gutil_ring.c:gutil_ring_new_full", "src/gutil_ring.c:gutil_ring_put", "src/gutil_ring.c:gutil_ring_put_front", "src/gutil_ring.c:gutil_ring_reserve"]}
{"id": "C162", "title": "Cancelling everything and cancelling each item", "statement": "If there are items in an idle queue and the destroy callbacks do nothing to the queue, then gutil_idle_queue_cancel_all is the same as gutil_idle_queue_cancel_tag called once for each item with its tag, in any order: the callbacks of the same items are invoked, and the queue is in the same state then. If the tags are given in the order of the items then the callbacks are invoked in the same order too.", "quantifier": "all reachable states with any number of items, all orders", "why_tests_cant": "this is about all states which can be reached and all orders of the tags, some of which are equal", "anchors": ["src/gutil_idlequeue.c:gutil_idle_queue_cancel_all", "src/gutil_idlequeue.c:gutil_idle_queue_cancel_tag"]}
{"id": "C163", "title": "Only the strings of a string vector matter", "statement": "If two programs have done different things to their string vectors, and now their vectors contain the same strings, then whatever they do next has the same effect: the calls return the same, the vectors contain the same strings, and as many strings are allocated. E.g. it doesn't matter whether an empty vector is NULL. (Binary search may find any of several equal strings.)", "quantifier": "all pairs of histories which lead to the same strings, all sequences of calls after that, all functions which sort and search", "why_tests_cant": "this compares all histories with each other", "anchors": ["src/gutil_strv.c:gutil_strv_add", "src/gutil_strv.c:gutil_strv_addv", "src/gutil_strv.c:gutil_strv_remove", "src/gutil_strv.c:gutil_strv_remove_at", "src/gutil_strv.c:gutil_strv_sort", "src/gutil_strv.c:gutil_strv_find", "src/gutil_strv.c:gutil_strv_equal"]}
{"id": "C164", "title": "Prefixes of prefixes and suffixes of suffixes", "statement": "gutil_data_has_prefix is a partial order of blocks, including NULL: each block begins with itself, whatever a prefix of a block begins with the block begins with too, and two blocks begin with each other exactly if gutil_data_equal finds them equal. Of two prefixes of the same block, one begins with the other. The same is true of gutil_data_has_suffix. A block which is as long as two others together begins with one and ends with the other exactly if it's equal to their concatenation by gutil_bytes_concat.", "quantifier": "all triples of blocks of any size, NULL and empty ones included", "why_tests_cant": "this is about all triples of blocks of any contents", "anchors": ["src/gutil_misc.c:gutil_data_has_prefix", "src/gutil_misc.c:gutil_data_has_suffix", "src/gutil_misc.c:gutil_data_equal", "src/gutil_misc.c:gutil_bytes_has_prefix", "src/gutil_misc.c:gutil_bytes_has_suffix", "src/gutil_misc.c:gutil_bytes_concat", "src/gutil_misc.c:gutil_bytes_equal_data"]}
{"id": "C165", "title": "Adding several strings, and stripping", "statement": "gutil_strv_addv does exactly what gutil_strv_add does if it's called for each of the strings: the same copies are made in the same order, and the vector contains them in the same order, even if the strings belong to the vector itself. After gutil_strv_strip it doesn't matter whether the vector had already been stripped before the last string was added.", "quantifier": "all vectors, all numbers of strings of any length, those of the vector included", "why_tests_cant": "this is about all vectors and any number of strings", "anchors": ["src/gutil_strv.c:gutil_strv_addv", "src/gutil_strv.c:gutil_strv_add", "src/gutil_strv.c:gutil_strv_strip"]}
{"id": "C166", "title": "Events of other files don't matter", "statement": "If the handlers do nothing to the watches, then the handlers of an inotify watch (the last one created for its file) are called exactly for those events which have been read and which have its watch descriptor, in that order. So whatever happens to other files, how many other watches there are and how the events are interleaved makes no difference: two programs which get the same events for a file call the handlers of their watches with the same events in the same order.", "quantifier": "all pairs of reachable states with any number of watches, all queues of events, all sizes of reads", "why_tests_cant": "this compares all histories and all interleavings of events with each other", "anchors": ["src/gutil_inotify.c:gutil_inotify_watch_new", "src/gutil_inotify.c:gutil_inotify_read", "src/gutil_inotify.c:gutil_inotify_callback"]}
{"id": "C167", "title": "Different ways to make the same object vector", "statement": "Appending a vector of objects to another one by gutil_objv_append is the same as adding each of its objects by gutil_objv_add; gutil_objv_new is the same as adding each of its arguments to NULL; gutil_objv_copy is the same as appending the vector to NULL; and gutil_objv_insert at the end, or at any position behind it, is the same as gutil_objv_add. In each case both ways give vectors of the same objects in the same order, and there are as many references to each object after that.", "quantifier": "all object vectors, all numbers of objects, all reference counts", "why_tests_cant": "this is about all vectors, any number of objects and all reference counts", "anchors": ["src/gutil_objv.c:gutil_objv_append", "src/gutil_objv.c:gutil_objv_add", "src/gutil_objv.c:gutil_objv_new", "src/gutil_objv.c:gutil_objv_copy", "src/gutil_objv.c:gutil_objv_insert"]}
{"id": "C168", "title": "Several ints at once and one at a time", "statement": "Appending, prepending or inserting several ints to an int array (which has room for them) is the same as doing that with each of them one at a time; prepending, and inserting at the same position, has to be done from the last one to the first. Inserting at the beginning is prepending, and inserting at the end is appending. Removing a range of an array is the same as removing the element at that position as many times. Making an array of several ints is the same as appending each of them to an empty one.", "quantifier": "all int arrays, all numbers of ints, all positions", "why_tests_cant": "this is about arrays of any size and any number of ints", "anchors": ["src/gutil_intarray.c:gutil_int_array_append_vals", "src/gutil_intarray.c:gutil_int_array_prepend_vals", "src/gutil_intarray.c:gutil_int_array_insert_vals", "src/gutil_intarray.c:gutil_int_array_remove_range", "src/gutil_intarray.c:gutil_int_array_new_from_vals"]}
{"id": "C169", "title": "Only the samples of a history matter", "statement": "If two histories of the same maximum size and interval contain the same samples, then whatever has been done to them before, the same calls return the same results from then on, the samples of the two stay the same, and if there is an overflow (C27) then it is in both of them. In particular, a history which has been cleared is like a new one.", "quantifier": "all maximum sizes and intervals, all pairs of earlier histories of calls, all further calls (times as in C27)", "why_tests_cant": "this is about all pairs of histories of calls", "anchors": ["src/gutil_history.c:gutil_int_history_add", "src/gutil_history.c:gutil_int_history_median", "src/gutil_history.c:gutil_int_history_size", "src/gutil_history.c:gutil_int_history_interval", "src/gutil_history.c:gutil_int_history_clear"]}
{"id": "C170", "title": "Elements of a ring may be dropped in several steps", "statement": "Dropping several of the oldest elements of a ring is the same as dropping some of them and then the others: the returned numbers add up, all later calls return the same, and the same elements are released in the same order. That is the same with the newest elements. Clearing a ring is the same as dropping as many elements as it contains, or more.", "quantifier": "all histories of calls before and after that, all numbers of elements", "why_tests_cant": "this is about pairs of histories of calls of any length", "anchors": ["src/gutil_ring.c:gutil_ring_drop", "src/gutil_ring.c:gutil_ring_drop_last", "src/gutil_ring.c:gutil_ring_clear"]}
{"id": "C171", "title": "Only the elements of a ring matter", "statement": "If two rings contain the same elements in the same order, and have the same limit, the same free function and the same number of references, then whatever has been done to them before, and however much memory each of them has, all further calls return the same (except for those which reserve memory), and the same elements are released in the same order.", "quantifier": "all pairs of earlier histories of calls, all further calls", "why_tests_cant": "this is about all pairs of histories of calls", "anchors": ["src/gutil_ring.c:gutil_ring_put", "src/gutil_ring.c:gutil_ring_put_front", "src/gutil_ring.c:gutil_ring_get", "src/gutil_ring.c:gutil_ring_get_last", "src/gutil_ring.c:gutil_ring_drop", "src/gutil_ring.c:gutil_ring_drop_last", "src/gutil_ring.c:gutil_ring_data_at", "src/gutil_ring.c:gutil_ring_flatten"]}
{"id": "C172", "title": "The order of cancelling does not matter", "statement": "Cancelling items of an idle queue by two different tags can be done in either order, as long as their callbacks do nothing: the same callbacks are invoked, in the order of the calls, and everything else is the same in the end.", "quantifier": "all reachable states of a queue, all pairs of tags", "why_tests_cant": "this is about queues of any length, whose items and tags are in any order", "anchors": ["src/gutil_idlequeue.c:gutil_idle_queue_cancel_tag"]}
{"id": "C173", "title": "The order of removals does not matter", "statement": "Ints can be removed by value from an int array in any order (one of each value, or all of them): the same ints are left in the same order, and the same is returned for each value. Strings can be removed from a string vector, and objects from an object vector, in any order: the same ones are left in the same order, and the objects have the same numbers of references.", "quantifier": "all arrays and vectors, all pairs of values, strings or objects, removing one or all of each", "why_tests_cant": "this is about arrays and vectors of any size", "anchors": ["src/gutil_intarray.c:gutil_int_array_remove", "src/gutil_intarray.c:gutil_int_array_remove_all", "src/gutil_strv.c:gutil_strv_remove", "src/gutil_objv.c:gutil_objv_remove"]}
