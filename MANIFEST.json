{
 "claims": [
  {
   "property": "C01",
   "status": "proved",
   "theorems": [
    "Verif.Datapack.C01_unsigned_round_trip",
    "Verif.Datapack.C01_buffer_of_ten_is_enough"
   ],
   "note": ""
  },
  {
   "property": "C02",
   "status": "proved",
   "theorems": [
    "Verif.Datapack.C02_unsigned_decode_exact",
    "Verif.Datapack.C02_frame_unique"
   ],
   "note": ""
  },
  {
   "property": "C03",
   "status": "proved",
   "theorems": [
    "Verif.Datapack.C03_unsigned_size_minimal"
   ],
   "note": ""
  },
  {
   "property": "C04",
   "status": "proved",
   "theorems": [
    "Verif.Datapack.C04_unsigned_encode2",
    "Verif.Datapack.C04_decodes_modulo"
   ],
   "note": ""
  },
  {
   "property": "C05",
   "status": "partial",
   "theorems": [
    "Verif.Datapack.C05_signed_round_trip_wrap",
    "Verif.Datapack.C05_signed_round_trip_partial",
    "Verif.Datapack.C05_signed_round_trip_ub"
   ],
   "note": "Full round trip proved for wrap-around arithmetic; in strict C the 9-byte negative encodings hit a signed overflow (proved), all others round-trip."
  },
  {
   "property": "C06",
   "status": "proved",
   "theorems": [
    "Verif.Datapack.C06_signed_size_minimal",
    "Verif.Datapack.C06_signed_encode2",
    "Verif.Datapack.C06_oversized"
   ],
   "note": ""
  },
  {
   "property": "C07",
   "status": "partial",
   "theorems": [
    "Verif.Datapack.C07_exactly",
    "Verif.Datapack.C07_refuted",
    "Verif.Datapack.C07_signed_decode_sign_partial"
   ],
   "note": "False as documented for some 10-byte frames (refuted with a witness); proved for all the others. C07_exactly: each of those frames is decoded to a number of the opposite sign."
  },
  {
   "property": "C08",
   "status": "partial",
   "theorems": [
    "Verif.Datapack.C08_signed_decode_exact_partial",
    "Verif.Datapack.C08_iso_c_partial",
    "Verif.Datapack.C08_refuted"
   ],
   "note": "Proved for all frames except for the 10-byte quirk and the strict-C overflow for 9-byte negative frames; C08_iso_c_partial says that in ISO C exactly the negative numbers of nine bytes are undefined behaviour and everything else is decoded as with wrap-around; refuted in full."
  },
  {
   "property": "C09",
   "status": "proved",
   "theorems": [
    "Verif.Datapack.C09_iso_c",
    "Verif.Datapack.C09_unsigned_decode2",
    "Verif.Datapack.C09_signed_decode2"
   ],
   "note": ""
  },
  {
   "property": "C10",
   "status": "proved",
   "theorems": [
    "Verif.Datapack.C10_tlv_encode",
    "Verif.Datapack.C10_tlv_decode",
    "Verif.Datapack.C10_tlv_round_trip"
   ],
   "note": ""
  },
  {
   "property": "C11",
   "status": "partial",
   "theorems": [
    "Verif.Datapack.C11_tlv_size_partial",
    "Verif.Datapack.C11_tlv_size_mod",
    "Verif.Datapack.C11_refuted"
   ],
   "note": "False when the size does not fit in 32 bits (refuted); proved otherwise."
  },
  {
   "property": "C12",
   "status": "partial",
   "theorems": [
    "Verif.Datapack.C12_refuted",
    "Verif.Datapack.C12_tlv_decode_within_partial",
    "Verif.Datapack.C12_every_huge_header_breaks"
   ],
   "note": "False for lengths of 2^63 or more (refuted, and every such input is proved to break it); proved for all other inputs."
  },
  {
   "property": "C13",
   "status": "partial",
   "theorems": [
    "Verif.Datapack.C13_known_tags",
    "Verif.Datapack.C13_refuted",
    "Verif.Datapack.C13_tlvs_decode_terminates_partial"
   ],
   "note": "False in a flat address space (a witness input loops forever); termination proved for all the other inputs, and for all inputs whatsoever if unknown tags are not skipped (C13_known_tags)."
  },
  {
   "property": "C14",
   "status": "proved",
   "theorems": [
    "Verif.Datapack.C14_tlvs_decode_exact"
   ],
   "note": ""
  },
  {
   "property": "C15",
   "status": "proved",
   "theorems": [
    "Verif.Datapack.C15_duplicate_tag",
    "Verif.Datapack.C15_unknown_tag",
    "Verif.Datapack.C15_decode_error"
   ],
   "note": ""
  },
  {
   "property": "C16",
   "status": "partial",
   "theorems": [
    "Verif.Datapack.C16_refuted",
    "Verif.Datapack.C16_accepted_partial",
    "Verif.Datapack.C16_zero_tag",
    "Verif.Datapack.C16_exactly"
   ],
   "note": "False: a TLV with tag zero at the end is accepted (refuted); proved that nothing else is (C16_exactly), and what happens if anything follows it (C16_zero_tag). What holds is proved both when leaving the object is an error and when pointers wrap, the latter for inputs without lengths of 2^63 or more."
  },
  {
   "property": "C17",
   "status": "partial",
   "theorems": [
    "Verif.Ring.C17_ring_is_a_deque_partial",
    "Verif.Ring.C17_exact_partial",
    "Verif.Ring.C17_refuted",
    "Verif.Ring.C17_refuted_by_size",
    "Verif.Ring.C17_or_oob",
    "Verif.Ring.C17_or_oob_freed"
   ],
   "note": "C17_exact_partial tells what each call returns, for capacities up to 2^30 (C17_refuted_by_size: growing beyond that overflows), if nothing is added after a flatten which may have reallocated the memory (C17_refuted: it writes past the end). C17_or_oob and C17_or_oob_freed drop that condition: any history either returns (and releases) what a list does, or contains a flatten and writes out of bounds; C20_exactly tells which of the two. Free functions do not re-enter the ring (C96 is about those)."
  },
  {
   "property": "C18",
   "status": "partial",
   "theorems": [
    "Verif.Ring.C18_refuted",
    "Verif.Ring.C18_refuted_by_lowering",
    "Verif.Ring.C18_ring_size_bounded_partial",
    "Verif.Ring.C18_exactly"
   ],
   "note": "False if the capacity exceeds the limit (two refutations); proved otherwise. C17_exact_partial tells in advance, for every history, which put will fail. C18_exactly: the size never exceeds the largest of all the limits and of the size reserved at creation."
  },
  {
   "property": "C19",
   "status": "partial",
   "theorems": [
    "Verif.Ring.C19_refuted",
    "Verif.Ring.C19_can_put_predicts_put_partial",
    "Verif.Ring.C19_exactly"
   ],
   "note": "can_put implies put proved for all histories; the converse is false if the capacity exceeds the limit (refuted), proved otherwise. C17_exact_partial tells exactly when they differ. C19_exactly gives the condition under which each of the calls succeeds, without exceptions."
  },
  {
   "property": "C20",
   "status": "partial",
   "theorems": [
    "Verif.Ring.C20_refuted",
    "Verif.Ring.C20_ring_memory_safe_partial",
    "Verif.Ring.C20_exactly",
    "Verif.Ring.C20_without_flatten"
   ],
   "note": "False: flatten followed by put writes out of bounds (refuted). C20_exactly is the complete answer for capacities up to 2^30: Spec/RingMem.lean predicts from the slots occupied which histories write out of bounds, and those which do not are defined and return what it says. C20_without_flatten: nothing goes wrong if flatten is never called."
  },
  {
   "property": "C21",
   "status": "proved",
   "theorems": [
    "Verif.Ring.C21_ring_frees_once",
    "Verif.Ring.C21_ring_frees_nothing",
    "Verif.Ring.C21_every_history",
    "Verif.Ring.C21_every_history_func",
    "Verif.Ring.C21_every_history_none"
   ],
   "note": ""
  },
  {
   "property": "C22",
   "status": "proved",
   "theorems": [
    "Verif.Ring.C22_ring_flatten",
    "Verif.Ring.C22_every_history"
   ],
   "note": ""
  },
  {
   "property": "C23",
   "status": "partial",
   "theorems": [
    "Verif.Ring.C23_refuted",
    "Verif.Ring.C23_reserve_partial",
    "Verif.Ring.C23_exactly"
   ],
   "note": "False beyond the maximum size (refuted); proved within it. C23_exactly says when reserve fails with a limit, for any number."
  },
  {
   "property": "C24",
   "status": "proved",
   "theorems": [
    "Verif.History.C24_history_contents",
    "Verif.History.C24_history_keeps_recent_samples",
    "Verif.History.C24_history_bad_parameters"
   ],
   "note": "Any size, any interval, any clock which is never negative (or is not too far from the smallest 64-bit number, see ClockOk)."
  },
  {
   "property": "C25",
   "status": "proved",
   "theorems": [
    "Verif.History.C25_size_bounded",
    "Verif.History.C25_interval_bounded"
   ],
   "note": "Any size, any interval, any clock which is never negative (or is not too far from the smallest 64-bit number, see ClockOk)."
  },
  {
   "property": "C26",
   "status": "partial",
   "theorems": [
    "Verif.History.C26_average_partial",
    "Verif.History.C26_refuted",
    "Verif.History.C26_exactly_partial"
   ],
   "note": "False when the sum of two values overflows (refuted for wrapping arithmetic). C26_exactly_partial: whenever the sums and areas fit in their types the result is the time-weighted average and is between the smallest and the largest sample, otherwise it is a signed overflow (capacity up to 2^30, interval up to 2^62)."
  },
  {
   "property": "C27",
   "status": "partial",
   "theorems": [
    "Verif.History.C27_refuted",
    "Verif.History.C27_refuted_by_interval",
    "Verif.History.C27_history_defined_partial",
    "Verif.History.C27_history_defined_if_wrapping",
    "Verif.History.C27_exactly",
    "Verif.History.C27_size_refuted",
    "Verif.History.C27_clock_refuted"
   ],
   "note": " The size query overflows too if the maximum size is over 2^30 (C27_size_refuted, for each such size), and so does a clock near the smallest 64-bit number (C27_clock_refuted); those are the only cases excluded from C27_exactly."
  },
  {
   "property": "C28",
   "status": "proved",
   "theorems": [
    "Verif.Strv.C28_lookup",
    "Verif.Strv.C28_find",
    "Verif.Strv.C28_index_meaning",
    "Verif.Strv.C28_null"
   ],
   "note": ""
  },
  {
   "property": "C29",
   "status": "proved",
   "theorems": [
    "Verif.Strv.C29_add",
    "Verif.Strv.C29_addv",
    "Verif.Strv.C29_add_null"
   ],
   "note": ""
  },
  {
   "property": "C30",
   "status": "proved",
   "theorems": [
    "Verif.Strv.C30_remove_at",
    "Verif.Strv.C30_remove_at_out_of_range",
    "Verif.Strv.C30_remove",
    "Verif.Strv.C30_free"
   ],
   "note": "Vectors owning their strings (no string twice); string given by the caller not owned by the vector (see C31)."
  },
  {
   "property": "C31",
   "status": "partial",
   "theorems": [
    "Verif.Strv.C31_refuted",
    "Verif.Strv.C31_remove_own_string_partial",
    "Verif.Strv.C31_exactly"
   ],
   "note": "False: gutil_strv_remove(sv, sv[i], TRUE) uses the string after it has been released (refuted for all vectors in which the string is the first of its kind and not the last element); proved when only one string is removed. C31_exactly says which of the vector's own strings can be used to remove all the equal ones: the first one if it's the very last string, and the one right after the first one; all the others are used after they have been released."
  },
  {
   "property": "C32",
   "status": "proved",
   "theorems": [
    "Verif.Strv.C32_remove_dups",
    "Verif.Strv.C32_firsts_meaning"
   ],
   "note": ""
  },
  {
   "property": "C33",
   "status": "proved",
   "theorems": [
    "Verif.Strv.C33_equal",
    "Verif.Strv.C33_equal_null",
    "Verif.Strv.C33_equal_equivalence"
   ],
   "note": ""
  },
  {
   "property": "C34",
   "status": "proved",
   "theorems": [
    "Verif.Strv.C34_sort",
    "Verif.Strv.C34_bsearch",
    "Verif.Strv.C34_sort_then_bsearch",
    "Verif.Strv.C34_bsearch_null"
   ],
   "note": "For every qsort/bsearch meeting the C standard contract."
  },
  {
   "property": "C35",
   "status": "proved",
   "theorems": [
    "Verif.Strv.C35_strip",
    "Verif.Strv.C35_strip_meaning",
    "Verif.Strv.C35_strip_idempotent"
   ],
   "note": ""
  },
  {
   "property": "C36",
   "status": "proved",
   "theorems": [
    "Verif.Objv.C36_lookup",
    "Verif.Objv.C36_index_meaning",
    "Verif.Objv.C36_equal",
    "Verif.Objv.C36_null",
    "Verif.Objv.C36_changes"
   ],
   "note": ""
  },
  {
   "property": "C37",
   "status": "proved",
   "theorems": [
    "Verif.Objv.C37_accounting",
    "Verif.Objv.C37_history",
    "Verif.Objv.C37_all_released"
   ],
   "note": "For every history of calls with existing objects and vectors, without append of a vector to itself (see C38)."
  },
  {
   "property": "C38",
   "status": "partial",
   "theorems": [
    "Verif.Objv.C38_refuted",
    "Verif.Objv.C38_exactly",
    "Verif.Objv.C38_append_self_empty_partial"
   ],
   "note": "False for every non-empty vector (refuted in general); true for empty ones. C38_exactly says what goes wrong: a read of released memory if the block moves, writing past its end if it does not."
  },
  {
   "property": "C39",
   "status": "partial",
   "theorems": [
    "Verif.Ints.C39_refuted",
    "Verif.Ints.C39_lifetime_partial",
    "Verif.Ints.C39_exactly"
   ],
   "note": "False: asking for an empty sub-range leaks a reference (refuted); proved for all the histories without that and without guint overflow of offset+count. C39_exactly: with empty sub-ranges, everything is as it would be if each of them were a reference."
  },
  {
   "property": "C40",
   "status": "partial",
   "theorems": [
    "Verif.Ints.C40_refuted",
    "Verif.Ints.C40_subrange_partial",
    "Verif.Ints.C40_exactly"
   ],
   "note": "False if offset+count overflows (refuted); proved otherwise. C40_exactly covers the excluded cases: if the sum isn't a guint, the part claims to have more ints than there are."
  },
  {
   "property": "C41",
   "status": "partial",
   "theorems": [
    "Verif.Ints.C41_refuted",
    "Verif.Ints.C41_null_partial",
    "Verif.Ints.C41_exactly"
   ],
   "note": "False for every empty sub-range within the range (refuted in general); proved in all other cases. C41_exactly says when NULL is returned and when there's one reference too many."
  },
  {
   "property": "C42",
   "status": "partial",
   "theorems": [
    "Verif.Ints.C42_static_refuted",
    "Verif.Ints.C42_gfree_refuted",
    "Verif.Ints.C42_to_data_partial",
    "Verif.Ints.C42_static_exactly"
   ],
   "note": "False for the last reference to static data (NULL is called) and for g_free with other user data (refuted); proved for all other histories. C42_static_exactly: what the block made from static memory is in all cases."
  },
  {
   "property": "C43",
   "status": "proved",
   "theorems": [
    "Verif.Ints.C43_equal",
    "Verif.Ints.C43_hash",
    "Verif.Ints.C43_compare",
    "Verif.Ints.C43_prefix"
   ],
   "note": ""
  },
  {
   "property": "C44",
   "status": "partial",
   "theorems": [
    "Verif.Ints.C44_find_refuted",
    "Verif.Ints.C44_find_partial",
    "Verif.Ints.C44_contains",
    "Verif.Ints.C44_find_exactly"
   ],
   "note": "find is false for more than 2^31 ints (refuted), proved otherwise; contains proved for all. C44_find_exactly covers blocks of any size: the first index is converted to an int."
  },
  {
   "property": "C45",
   "status": "partial",
   "theorems": [
    "Verif.IntArray.C45_add",
    "Verif.IntArray.C45_new",
    "Verif.IntArray.C45_remove",
    "Verif.IntArray.C45_find_refuted",
    "Verif.IntArray.C45_find_partial",
    "Verif.IntArray.C45_exactly"
   ],
   "note": "Searching is false beyond 2^31 elements (refuted; recent versions of GLib don't support that many), everything else proved for all arrays. C45_exactly covers arrays of any size: only the first 2^31 ints are found."
  },
  {
   "property": "C46",
   "status": "partial",
   "theorems": [
    "Verif.IntArray.C46_refuted",
    "Verif.IntArray.C46_remove_partial",
    "Verif.IntArray.C46_exactly"
   ],
   "note": "False beyond 2^31 elements (refuted; recent versions of GLib don't support that many), proved otherwise. C46_exactly covers arrays of any size."
  },
  {
   "property": "C47",
   "status": "partial",
   "theorems": [
    "Verif.IntArray.C47_refuted",
    "Verif.IntArray.C47_range_partial",
    "Verif.IntArray.C47_exactly"
   ],
   "note": "False for all the pos and count whose sum overflows (refuted in general); proved for all others. C47_exactly covers all the positions and counts."
  },
  {
   "property": "C48",
   "status": "partial",
   "theorems": [
    "Verif.IntArray.C48_refuted",
    "Verif.IntArray.C48_sort_partial",
    "Verif.IntArray.C48_compare_exactly",
    "Verif.IntArray.C48_wrap_exactly"
   ],
   "note": "False if two elements differ by 2^31 or more (refuted for every sorting function meeting the contract); proved otherwise. C48_compare_exactly and C48_wrap_exactly: which pairs overflow, and what the order becomes if arithmetic wraps."
  },
  {
   "property": "C49",
   "status": "proved",
   "theorems": [
    "Verif.Misc.C49_roundtrip",
    "Verif.Misc.C49_digits"
   ],
   "note": ""
  },
  {
   "property": "C50",
   "status": "proved",
   "theorems": [
    "Verif.Misc.C50_decode",
    "Verif.Misc.C50_decode_bin",
    "Verif.Misc.C50_null"
   ],
   "note": ""
  },
  {
   "property": "C51",
   "status": "partial",
   "theorems": [
    "Verif.Misc.C51_exactly",
    "Verif.Misc.C51_refuted",
    "Verif.Misc.C51_hexdump_partial"
   ],
   "note": "False in the strict reading of isprint() which allows no negative values (refuted for all blocks with such a byte on a platform with signed char); proved for all sizes otherwise. C51_exactly: any byte over 0x7f is undefined behaviour if char is signed and isprint takes only what the standard allows."
  },
  {
   "property": "C52",
   "status": "partial",
   "theorems": [
    "Verif.Parse.C52_refuted",
    "Verif.Parse.C52_int64_partial",
    "Verif.Parse.C52_uint64_partial",
    "Verif.Parse.C52_empty",
    "Verif.Parse.C52_base",
    "Verif.Parse.C52_int64_exactly",
    "Verif.Parse.C52_uint64_exactly"
   ],
   "note": "False: vertical tab is skipped by strtoll but not by g_strstrip, so that the minus sign after it is not noticed by the unsigned parser (refuted); proved for all strings without vertical tabs which are not blank (those are C53). The `_exactly` theorems tell what is accepted for all strings; other bases are never accepted."
  },
  {
   "property": "C53",
   "status": "partial",
   "theorems": [
    "Verif.Parse.C53_refuted",
    "Verif.Parse.C53_partial",
    "Verif.Parse.C53_exactly"
   ],
   "note": "False: all blank non-empty strings are parsed as zero (refuted in general); proved for all others. C53_exactly: the result for any string without digits."
  },
  {
   "property": "C54",
   "status": "partial",
   "theorems": [
    "Verif.Misc.C54_refuted",
    "Verif.Misc.C54_data_equal_partial",
    "Verif.Misc.C54_data_prefix_partial",
    "Verif.Misc.C54_data_suffix_partial",
    "Verif.Misc.C54_bytes_equal",
    "Verif.Misc.C54_bytes_prefix",
    "Verif.Misc.C54_exactly"
   ],
   "note": "False if memcmp may not be called with NULL and zero size (refuted for the data the library itself produces); proved if it may, or if the pointers are not NULL. gutil_bytes_xxx proved in all cases. C54_exactly: comparisons with a block without memory."
  },
  {
   "property": "C55",
   "status": "partial",
   "theorems": [
    "Verif.Misc.C55_refuted",
    "Verif.Misc.C55_concat_partial",
    "Verif.Misc.C55_xor_partial",
    "Verif.Misc.C55_null",
    "Verif.Misc.C55_concat_exactly",
    "Verif.Misc.C55_xor_exactly"
   ],
   "note": "False if the sum of the sizes overflows gsize (refuted), and in the strict reading for empty NULL blocks and unaligned data (refuted); proved otherwise. C55_concat_exactly and C55_xor_exactly: the result in the excluded cases."
  },
  {
   "property": "C56",
   "status": "proved",
   "theorems": [
    "Verif.Misc.C56_range",
    "Verif.Misc.C56_null",
    "Verif.Misc.C56_init"
   ],
   "note": ""
  },
  {
   "property": "C57",
   "status": "partial",
   "theorems": [
    "Verif.Misc.C57_refuted",
    "Verif.Misc.C57_copy_partial",
    "Verif.Misc.C57_variant",
    "Verif.Misc.C57_from",
    "Verif.Misc.C57_exactly"
   ],
   "note": "False for all blocks of 4 GiB and more (refuted in general); proved for all smaller ones. C57_exactly: the copy of a block of any size."
  },
  {
   "property": "C58",
   "status": "partial",
   "theorems": [
    "Verif.Log.C58_refuted",
    "Verif.Log.C58_module_partial",
    "Verif.Log.C58_null_partial",
    "Verif.Log.C58_null_exactly",
    "Verif.Log.C58_nobody"
   ],
   "note": "False for the NULL module if the default module is disabled, or inherits from a parent (refuted); proved for all modules, and for NULL otherwise. Handlers which change the configuration: C112. C58_null_exactly: NULL module without conditions on the default module. C58_nobody: with level zero or no log function nothing is logged."
  },
  {
   "property": "C59",
   "status": "proved",
   "theorems": [
    "Verif.Log.C59_level",
    "Verif.Log.C59_chain",
    "Verif.Log.C59_null"
   ],
   "note": "For every module which is not its own ancestor; C59_chain shows that there is one chain of settings for each."
  },
  {
   "property": "C60",
   "status": "partial",
   "theorems": [
    "Verif.Log.C60_unique",
    "Verif.Log.C60_default",
    "Verif.Log.C60_refuted",
    "Verif.Log.C60_module_partial",
    "Verif.Log.C60_exactly"
   ],
   "note": "False if one of the modules has no name (crash, refuted); proved otherwise. C60_exactly: which module is chosen if some given modules have no name."
  },
  {
   "property": "C61",
   "status": "partial",
   "theorems": [
    "Verif.Log.C61_refuted",
    "Verif.Log.C61_success",
    "Verif.Log.C61_failure_partial",
    "Verif.Log.C61_failure_exactly"
   ],
   "note": "False: a failing call changes the default name and closes the system log (refuted); everything else proved. C61_failure_exactly: what a failing call changes."
  },
  {
   "property": "C62",
   "status": "partial",
   "theorems": [
    "Verif.Log.C62_refuted",
    "Verif.Log.C62_dump_partial",
    "Verif.Log.C62_disabled",
    "Verif.Log.C62_exactly"
   ],
   "note": "False for 4 GiB and more: it never ends (refuted in general); proved below that, under the same condition on isprint as C51. C62_exactly: the other excluded case, bytes over 0x7f with signed char."
  },
  {
   "property": "C63",
   "status": "proved",
   "theorems": [
    "Verif.Log.C63_format"
   ],
   "note": ""
  },
  {
   "property": "C64",
   "status": "proved",
   "theorems": [
    "Verif.Idle.C64_order",
    "Verif.Idle.C64_added",
    "Verif.Idle.C64_cancelled",
    "Verif.Idle.C64_cancel_all",
    "Verif.Idle.C64_not_lost",
    "Verif.Idle.C64_cancellation"
   ],
   "note": "Labelled transition system: the client may call any function from any callback, and run the main loop recursively; every reachable state. Cancelled items never run; nothing added before cancel_all was called runs after it has returned. C64_cancellation: complete effect of the call if destroy functions just return."
  },
  {
   "property": "C65",
   "status": "proved",
   "theorems": [
    "Verif.Idle.C65_at_most_once",
    "Verif.Idle.C65_exactly_once",
    "Verif.Idle.C65_after_run",
    "Verif.Idle.C65_freed",
    "Verif.Idle.C65_last_unref"
   ],
   "note": "Same transition system. At most once at any moment, exactly once outside of callbacks for each item which isn't in the queue, and for all of them once the queue is deallocated. C65_last_unref: complete effect of dropping the last reference if destroy functions just return."
  },
  {
   "property": "C66",
   "status": "proved",
   "theorems": [
    "Verif.Idle.C66_next_iteration",
    "Verif.Idle.C66_all_of_them",
    "Verif.Idle.C66_iteration"
   ],
   "note": "Same transition system; also, when the idle callback returns, everything added before it was invoked has been run or cancelled. C66_iteration: complete effect of an iteration of the main loop if callbacks just return."
  },
  {
   "property": "C67",
   "status": "proved",
   "theorems": [
    "Verif.Idle.C67_scheduled",
    "Verif.Idle.C67_not_scheduled",
    "Verif.Idle.C67_at_most_one"
   ],
   "note": "Same transition system; exactly one source if there's something in the queue, none if it's empty and not being run."
  },
  {
   "property": "C68",
   "status": "proved",
   "theorems": [
    "Verif.Idle.C68_add",
    "Verif.Idle.C68_contains",
    "Verif.Idle.C68_cancel"
   ],
   "note": "For every reachable state: the first item with the tag and nothing else is removed."
  },
  {
   "property": "C69",
   "status": "partial",
   "theorems": [
    "Verif.Idle.C69_safe_partial",
    "Verif.Idle.C69_unref_in_callback_refuted",
    "Verif.Idle.C69_unref_in_cancel_refuted",
    "Verif.Idle.C69_add_when_deallocating_refuted",
    "Verif.Idle.C69_unref_in_callback_always",
    "Verif.Idle.C69_exactly"
   ],
   "note": "Refuted: dropping the last reference inside of a callback is a use after free (theorems with concrete histories and a general one); adding an item from a destroy callback when the queue is being deallocated leaves a dangling source. Partial: no undefined behaviour in any history which doesn't do that. C69_exactly: in any reachable state, dropping the last reference (with all callbacks returning afterwards) goes well if and only if no callback is being run other than destroy functions called by gutil_idle_queue_cancel_tag for items which were not the first ones."
  },
  {
   "property": "C70",
   "status": "partial",
   "theorems": [
    "Verif.Pool.C70_once",
    "Verif.Pool.C70_accounted",
    "Verif.Pool.C70_drained",
    "Verif.Pool.C70_empty",
    "Verif.Pool.C70_deallocated",
    "Verif.Pool.C70_order_partial",
    "Verif.Pool.C70_order_refuted",
    "Verif.Pool.C70_safe_partial",
    "Verif.Pool.C70_safe_refuted",
    "Verif.Pool.C70_safe_always",
    "Verif.Pool.C70_order_exactly",
    "Verif.Pool.C70_runs",
    "Verif.Pool.C70_added"
   ],
   "note": "Labelled transition system: the client may call any function from any destroy function, and run the main loop recursively. Exactly once and no later than the drain or deallocation: proved. Order: refuted when a destroy function adds something and drains the pool, proved otherwise. Safety: refuted (double free) if a destroy function adds to the pool which is being deallocated, proved for all other histories. C70_runs: if destroy functions just return, exactly all items are destroyed, in order, and the call returns. C70_added says what add does: the object is in the pool afterwards, to be destroyed. C70_order_exactly: whatever the destroy functions do, the items which get overtaken are exactly those which the interrupted drains have not got to yet. C70_safe_always: adding to any pool which is being deallocated goes wrong."
  },
  {
   "property": "C71",
   "status": "partial",
   "theorems": [
    "Verif.Pool.C71_scheduled_partial",
    "Verif.Pool.C71_scheduled_refuted",
    "Verif.Pool.C71_idle",
    "Verif.Pool.C71_alive",
    "Verif.Pool.C71_exactly"
   ],
   "note": "Refuted if the source is dispatched by a wrong thread (the items are left without a source, contrary to the comment in the code); proved for all other histories. C71_exactly: nothing else leaves items without a source, that always does unless the pool goes away, and adding one more item schedules it again."
  },
  {
   "property": "C72",
   "status": "proved",
   "theorems": [
    "Verif.Pool.C72_pointer",
    "Verif.Pool.C72_unused"
   ],
   "note": "Every reachable state of a shared pool, including other pools being stored to the same pointer."
  },
  {
   "property": "C73",
   "status": "partial",
   "theorems": [
    "Verif.Inotify.C73_sound",
    "Verif.Inotify.C73_prefix_partial",
    "Verif.Inotify.C73_complete_partial",
    "Verif.Inotify.C73_merged_partial",
    "Verif.Inotify.C73_lost_refuted",
    "Verif.Inotify.C73_dispatch_partial",
    "Verif.Inotify.C73_early_refuted",
    "Verif.Inotify.C73_shared_refuted",
    "Verif.Inotify.C73_destroyed_refuted",
    "Verif.Inotify.C73_mask_refuted",
    "Verif.Inotify.C73_failed_refuted",
    "Verif.Inotify.C73_newest",
    "Verif.Inotify.C73_group_prefix",
    "Verif.Inotify.C73_group_complete",
    "Verif.Inotify.C73_group_member",
    "Verif.Inotify.C73_stops",
    "Verif.Inotify.C73_silent",
    "Verif.Inotify.C73_main_loop",
    "Verif.Inotify.C73_recorded",
    "Verif.Inotify.C73_iteration"
   ],
   "note": "False as stated: two watches of the same file share a watch descriptor, so the first one gets nothing (C73_shared_refuted), destroying it makes the second one deaf (C73_destroyed_refuted), masks are replaced (C73_mask_refuted), and a watch may get what happened before its creation (C73_early_refuted); a read failure makes all watches deaf (C73_failed_refuted). Proved for every file which isn't being watched twice at once, whatever the other watches do: order, exactness, completeness. Proved for all watches: only what happened to the file, and was asked for by someone watching it, is delivered (C73_sound); the main loop is able to dispatch unless reads fail. The kernel may merge events (C73_merged_partial: only into those which have yet to be delivered) and lose them (C73_lost_refuted: nobody is told). C73_iteration: the main loop takes events from the kernel and gets done if handlers leave the watches alone."
  },
  {
   "property": "C74",
   "status": "partial",
   "theorems": [
    "Verif.Inotify.C74_alive",
    "Verif.Inotify.C74_open",
    "Verif.Inotify.C74_twice_refuted",
    "Verif.Inotify.C74_foreign_refuted",
    "Verif.Inotify.C74_foreign_partial",
    "Verif.Inotify.C74_foreign_exactly",
    "Verif.Inotify.C74_references"
   ],
   "note": "Lifetime proved (C74_alive, C74_open). 'Closed exactly once' is false: every descriptor is closed twice (C74_twice_refuted, for every history), which closes a descriptor of another thread under a race (C74_foreign_refuted); without the race other descriptors aren't affected (C74_foreign_partial). C74_references: the effect of every call on the references of the client. C74_foreign_exactly: the descriptors of others after any step, for any descriptor opened meanwhile by another thread."
  },
  {
   "property": "C75",
   "status": "proved",
   "theorems": [
    "Verif.Inotify.C75_parse",
    "Verif.Inotify.C75_fits",
    "Verif.Inotify.C75_read",
    "Verif.Inotify.C75_truncated"
   ],
   "note": "Byte-level, both byte orders. C75_read combines it with how many events the kernel puts to the 272 byte buffer."
  },
  {
   "property": "C76",
   "status": "proved",
   "theorems": [
    "Verif.Weak.C76_get",
    "Verif.Weak.C76_weak",
    "Verif.Weak.C76_new",
    "Verif.Weak.C76_lifetime",
    "Verif.Weak.C76_safe",
    "Verif.Weak.C76_recorded",
    "Verif.Weak.C76_created"
   ],
   "note": "Labelled transition system with any number of objects; GWeakRef itself is a contract (GLib). One thread. C76_recorded and C76_created connect calls with the history."
  },
  {
   "property": "C77",
   "status": "proved",
   "theorems": [
    "Verif.Version.C77_decode",
    "Verif.Version.C77_order",
    "Verif.Version.C77_current"
   ],
   "note": "All components within their bit widths."
  },
  {
   "property": "C78",
   "status": "proved",
   "theorems": [
    "Verif.Macros.C78_unsigned",
    "Verif.Macros.C78_signed",
    "Verif.Macros.C78_overflow"
   ],
   "note": "Unsigned and signed types of any width of at least 4 bits; values for which the addition doesn't overflow. C78_overflow tells what happens otherwise."
  },
  {
   "property": "C79",
   "status": "proved",
   "theorems": [
    "Verif.Ring.C79_ring",
    "Verif.History.C79_history",
    "Verif.Ints.C79_ints",
    "Verif.IntArray.C79_intarray",
    "Verif.Objv.C79_object",
    "Verif.Misc.C79_misc",
    "Verif.Strv.C79_strv",
    "Verif.Objv.C79_objv",
    "Verif.Idle.C79_idle_queue"
   ],
   "note": "NULL ring and history can't be told from empty ones; the other modules: all the functions written as NULL-tolerant (see also the _null theorems of the vectors, miscellaneous functions and the log). NULL idle queue and idle pool: see the models."
  },
  {
   "property": "C80",
   "status": "partial",
   "theorems": [
    "Verif.IntArray.C80_fast_refuted",
    "Verif.IntArray.C80_index_partial"
   ],
   "note": "False of gutil_int_array_remove_index_fast (refuted); proved for the other functions."
  },
  {
   "property": "C81",
   "status": "proved",
   "theorems": [
    "Verif.IntArray.C81_handover"
   ],
   "note": ""
  },
  {
   "property": "C82",
   "status": "partial",
   "theorems": [
    "Verif.IntArray.C82_refuted",
    "Verif.IntArray.C82_partial",
    "Verif.IntArray.C82_exactly"
   ],
   "note": "False: every insertion past the end and every growth leaves uninitialised ints (refuted). C82_partial proves it for every history without such calls (and without sorts where the comparison overflows, where anything could happen), without other conditions. C82_exactly: each of the excluded calls does leave uninitialised elements."
  },
  {
   "property": "C83",
   "status": "proved",
   "theorems": [
    "Verif.Misc.C83_ptrv",
    "Verif.Misc.C83_null"
   ],
   "note": ""
  },
  {
   "property": "C84",
   "status": "proved",
   "theorems": [
    "Verif.Misc.C84_memdup",
    "Verif.Misc.C84_strlen"
   ],
   "note": ""
  },
  {
   "property": "C85",
   "status": "proved",
   "theorems": [
    "Verif.Misc.C85_disconnect",
    "Verif.Misc.C85_nothing",
    "Verif.Misc.C85_source"
   ],
   "note": ""
  },
  {
   "property": "C86",
   "status": "proved",
   "theorems": [
    "Verif.Log.C86_handler",
    "Verif.Log.C86_provided"
   ],
   "note": ""
  },
  {
   "property": "C87",
   "status": "partial",
   "theorems": [
    "Verif.Log.C87_refuted",
    "Verif.Log.C87_line_partial",
    "Verif.Log.C87_refuted_long",
    "Verif.Log.C87_exactly"
   ],
   "note": "False for timestamps of more than 31 characters: uninitialised memory is printed (refuted in general), and for messages of 2^31-1 characters (refuted); proved otherwise. C87_exactly: what is printed if the timestamp does not fit."
  },
  {
   "property": "C88",
   "status": "proved",
   "theorems": [
    "Verif.Log.C88_severity",
    "Verif.Log.C88_logged",
    "Verif.Log.C88_name",
    "Verif.Log.C88_syslog_exactly",
    "Verif.Log.C88_glib_exactly"
   ],
   "note": ""
  },
  {
   "property": "C89",
   "status": "proved",
   "theorems": [
    "Verif.Log.C89_environment",
    "Verif.LogMacros.C89_messages"
   ],
   "note": "C89_environment: the resulting state. C89_messages: everything which is printed meanwhile, for any way the library may be compiled."
  },
  {
   "property": "C90",
   "status": "proved",
   "theorems": [
    "Verif.Log.C90_description"
   ],
   "note": ""
  },
  {
   "property": "C91",
   "status": "partial",
   "theorems": [
    "Verif.Pool.C91_foreign_partial",
    "Verif.Pool.C91_foreign_refuted",
    "Verif.Pool.C91_exactly",
    "Verif.Pool.C91_empty_exactly"
   ],
   "note": "Refuted for threads with a main context of their own: g_source_remove acts on the default context and removes whatever has the same id there. Proved for the default context. C91_exactly and C91_empty_exactly say what's removed otherwise: the source of the default context which has the same id as the pool's own source, if there's one, and nothing else."
  },
  {
   "property": "C92",
   "status": "partial",
   "theorems": [
    "Verif.Version.C92_specific_partial",
    "Verif.Version.C92_specific_refuted",
    "Verif.Version.C92_others"
   ],
   "note": "Refuted for 1.0.75 and later: unbalanced parenthesis. Proved for the others."
  },
  {
   "property": "C93",
   "status": "proved",
   "theorems": [
    "Verif.Inotify.C93_safe"
   ],
   "note": "Transition system with the kernel, the client and handlers; Lean step returns useAfterFree if a freed instance or watch is accessed."
  },
  {
   "property": "C94",
   "status": "proved",
   "theorems": [
    "Verif.Shared.C94_safe",
    "Verif.Shared.C94_alive",
    "Verif.Shared.C94_once",
    "Verif.Shared.C94_references",
    "Verif.Shared.C94_done"
   ],
   "note": "Transition system with any number of threads, one step per atomic operation, any interleaving (sequentially consistent). Each thread only uses the object while it has a reference. C94_references and C94_done: the effect of every step on the references of threads; calls get done without waiting."
  },
  {
   "property": "C95",
   "status": "partial",
   "theorems": [
    "Verif.Shared.C95_refuted",
    "Verif.Shared.C95_safe_partial",
    "Verif.Shared.C95_once_partial",
    "Verif.Shared.C95_exactly",
    "Verif.Shared.C95_lifetime"
   ],
   "note": "Refuted: the function drops its reference before it copies the data, so that another thread may deallocate them in the meantime. Proved when the caller has another reference, or nobody else has one. C95_exactly: in any history the only thing which goes wrong is copying the data after everybody has dropped their references (or calling the free function which doesn't exist, for ints made without one); C95_lifetime: apart from that, the array stays as long as somebody has a reference, and its data are released or given away once."
  },
  {
   "property": "C96",
   "status": "partial",
   "theorems": [
    "Verif.RingCb.C96_drop_refuted",
    "Verif.RingCb.C96_drop_last_refuted",
    "Verif.RingCb.C96_compact_refuted",
    "Verif.RingCb.C96_safe_partial",
    "Verif.RingCb.C96_once_partial",
    "Verif.RingCb.C96_inside_partial",
    "Verif.RingCb.C96_end_partial",
    "Verif.RingCb.C96_plain",
    "Verif.RingCb.C96_recorded",
    "Verif.RingCb.C96_no_free_function",
    "Verif.RingCb.C96_drop_front_refuted"
   ],
   "note": "Refuted for drop and drop_last (also as called by set_max_size) when they don't remove everything and the free function removes something: double release, loss, division by zero. Proved (safety, exactly once, contents) for all the histories in which free functions called by a partial drop don't remove anything or add to the front, and those called by a partial drop_last don't remove anything; free functions called by clear, or by others when everything is removed, may do anything but drop the last reference. C96_recorded: what is counted as accepted and as taken is what the functions have returned. C96_drop_front_refuted: adding to the front during a partial drop."
  },
  {
   "property": "C97",
   "status": "proved",
   "theorems": [
    "Verif.TimeNotify.C97_safe",
    "Verif.TimeNotify.C97_shared",
    "Verif.TimeNotify.C97_end",
    "Verif.TimeNotify.C97_once",
    "Verif.TimeNotify.C97_references"
   ],
   "note": "Labelled transition system with the kernel (timerfd), the main loop, GObject, GSignal and GIOChannel as contracts; any failures. C97_references: the effect of every call on the references of the client."
  },
  {
   "property": "C98",
   "status": "partial",
   "theorems": [
    "Verif.TimeNotify.C98_due_partial",
    "Verif.TimeNotify.C98_kept_partial",
    "Verif.TimeNotify.C98_dispatched",
    "Verif.TimeNotify.C98_exact",
    "Verif.TimeNotify.C98_at_most",
    "Verif.TimeNotify.C98_refuted",
    "Verif.TimeNotify.C98_works_exactly",
    "Verif.TimeNotify.C98_due_exactly",
    "Verif.TimeNotify.C98_connected",
    "Verif.TimeNotify.C98_called",
    "Verif.TimeNotify.C98_round"
   ],
   "note": "Refuted if the timer can't be created or reports an error (the object stays, deaf). Otherwise proved: the callback becomes due, stays due until it's called, calls the handlers exactly; at most one call per clock change holds always. C98_connected, C98_called and C98_round: which handlers are connected, and when they are called; complete effect of an iteration of the main loop if handlers just return. C98_works_exactly and C98_due_exactly: whether a clock change is noticed, and whether the callback is due, after each step."
  },
  {
   "property": "C99",
   "status": "partial",
   "theorems": [
    "Verif.TimeNotify.C99_exactly",
    "Verif.TimeNotify.C99_partial",
    "Verif.TimeNotify.C99_refuted"
   ],
   "note": "Refuted for 32-bit long with 64-bit time_t (shift count too large), proved if time_t is not longer than long. C99_exactly: right if and only if time_t is not longer than long."
  },
  {
   "property": "C100",
   "status": "proved",
   "theorems": [
    "Verif.Ring.C100_ring",
    "Verif.Ring.C100_ring_rules"
   ],
   "note": "Debug functions with the assertions are equal to the release ones whatever is done to the ring: if what the release build does is undefined then no assertion fails before that."
  },
  {
   "property": "C101",
   "status": "partial",
   "theorems": [
    "Verif.History.C101_refuted",
    "Verif.History.C101_exactly",
    "Verif.History.C101_history_partial"
   ],
   "note": "Refuted: querying the size of a history with exactly one sample fails the assertion at line 142. Proved that it's the only case."
  },
  {
   "property": "C102",
   "status": "partial",
   "theorems": [
    "Verif.Idle.C102_refuted",
    "Verif.Idle.C102_exactly",
    "Verif.Idle.C102_queue_partial"
   ],
   "note": "Refuted: the assertion at line 270 fails if the destroy function of the first item being cancelled by tag empties the queue. Proved that it's the only case, and that it doesn't occur if those functions don't cancel anything and run no main loop."
  },
  {
   "property": "C103",
   "status": "proved",
   "theorems": [
    "Verif.Pool.C103_pool",
    "Verif.Pool.C103_shared"
   ],
   "note": "Equality with the release build for all the reachable states of the LTS of C91 (the weakest conditions)."
  },
  {
   "property": "C104",
   "status": "partial",
   "theorems": [
    "Verif.Inotify.C104_refuted",
    "Verif.Inotify.C104_inotify_partial",
    "Verif.Inotify.C104_read",
    "Verif.Inotify.C104_exactly"
   ],
   "note": "Refuted if two watches share a kernel descriptor (line 268). Proved if no file is watched twice at the same time; the parser for all sequences of events. C104_exactly: the assertion fails if and only if a watch is stopped after another one which it has been sharing the file with."
  },
  {
   "property": "C105",
   "status": "proved",
   "theorems": [
    "Verif.PoolObj.C105_safe",
    "Verif.PoolObj.C105_refs",
    "Verif.PoolObj.C105_released",
    "Verif.PoolObj.C105_null",
    "Verif.PoolObj.C105_returns",
    "Verif.PoolObj.C105_given",
    "Verif.PoolObj.C105_drained",
    "Verif.PoolObj.C105_deallocated",
    "Verif.PoolObj.C105_owned",
    "Verif.PoolObj.C105_pool"
   ],
   "note": "The LTS of the pool with a heap of reference counted objects; dropping a reference happens whenever the pool destroys an item. The rules for the pool are those of C70 (nothing is added to a pool which is being deallocated). C105_owned and C105_pool: the effect of every call on the references of the client."
  },
  {
   "property": "C106",
   "status": "proved",
   "theorems": [
    "Verif.InotifyCb.C106_safe",
    "Verif.InotifyCb.C106_exact",
    "Verif.InotifyCb.C106_events",
    "Verif.InotifyCb.C106_removed",
    "Verif.InotifyCb.C106_freed",
    "Verif.InotifyCb.C106_released",
    "Verif.InotifyCb.C106_gone",
    "Verif.InotifyCb.C106_created",
    "Verif.InotifyCb.C106_recorded",
    "Verif.InotifyCb.C106_done"
   ],
   "note": "The LTS of C73-C75 with each handler being called separately. The specification is a monitor which goes over the history and knows nothing about the state of the model. GSignal's order of calls is a contract. Descriptors aren't opened by other threads in the middle of a call (C74 is about that). C106_recorded connects calls with the history; C106_done: events get handled as long as handlers return."
  },
  {
   "property": "C107",
   "status": "proved",
   "theorems": [
    "Verif.Shared.C107_counters",
    "Verif.Weak.C107_weakref",
    "Verif.TimeNotify.C107_timenotify"
   ],
   "note": "The assertion and the atomic operation which follows it are separate steps of the thread, i.e. other threads may run in between. Reading from the cancelled timer returns an error: that's a contract of the kernel."
  },
  {
   "property": "C108",
   "status": "proved",
   "theorems": [
    "Verif.IntArray.Ref.C108_exact",
    "Verif.IntArray.Ref.C108_lifetime",
    "Verif.IntArray.Ref.C108_freed"
   ],
   "note": "GArray (reference counter, block with the elements) is a contract. Functions which change the contents are represented by setting them to anything; C45-C48 and C80-C82 are about those. One thread."
  },
  {
   "property": "C109",
   "status": "partial",
   "theorems": [
    "Verif.RingCb.C109_max_refuted",
    "Verif.RingCb.C109_drop_last_refuted",
    "Verif.RingCb.C109_clear_partial",
    "Verif.RingCb.C109_drop_partial",
    "Verif.RingCb.C109_set_max_size_partial",
    "Verif.RingCb.C109_drop_last_partial",
    "Verif.RingCb.C109_clear_exactly",
    "Verif.RingCb.C109_drop_last_exactly",
    "Verif.RingCb.C109_clear_refuted"
   ],
   "note": "Proved for clear, drop and set_max_size if the free functions add only to the end of the ring, and for drop_last (not removing everything) if they add only to its front. False otherwise: drop_last releases what the free function has added to the end, and the ring may contain more than its maximum size after set_max_size. C109_clear_exactly and C109_drop_last_exactly: what is released and what stays if the free functions add to either end (clear is affected by what is added to the front)."
  },
  {
   "property": "C110",
   "status": "partial",
   "theorems": [
    "Verif.MiscCb.C110_disconnect_refuted",
    "Verif.MiscCb.C110_clear_refuted",
    "Verif.MiscCb.C110_handler_lost_refuted",
    "Verif.MiscCb.C110_source_lost_refuted",
    "Verif.MiscCb.C110_safe_partial",
    "Verif.MiscCb.C110_exact_partial",
    "Verif.MiscCb.C110_once_partial",
    "Verif.MiscCb.C110_disconnect_partial",
    "Verif.MiscCb.C110_clear_partial",
    "Verif.MiscCb.C110_exactly",
    "Verif.MiscCb.C110_once",
    "Verif.MiscCb.C110_lost_exactly",
    "Verif.MiscCb.C110_source_lost_exactly"
   ],
   "note": "Proved if notifications leave alone the ids which are being disconnected or removed. False otherwise: the id is zeroed after the notification, so that a notification calling the same function disconnects (removes) the same thing again, and an id which the notification stores in the same place gets lost. C110_exactly: whatever notifications do, nothing else can go wrong at once than that second disconnection (removal) of an id which has not been replaced; C110_lost_exactly and C110_source_lost_exactly: an id is lost exactly when the notification which has replaced it returns."
  },
  {
   "property": "C111",
   "status": "partial",
   "theorems": [
    "Verif.ObjvCb.C111_copy_refuted",
    "Verif.ObjvCb.C111_add_refuted",
    "Verif.ObjvCb.C111_safe_partial",
    "Verif.ObjvCb.C111_exact_partial",
    "Verif.ObjvCb.C111_meantime_partial",
    "Verif.ObjvCb.C111_once_partial",
    "Verif.ObjvCb.C111_done_partial",
    "Verif.ObjvCb.C111_contents_exactly",
    "Verif.ObjvCb.C111_copy_exactly",
    "Verif.ObjvCb.C111_add_exactly"
   ],
   "note": "Proved if finalizers leave alone the vector which is being changed (or freed). False otherwise: references are dropped before the vector is updated, so that a finalizer copying the vector brings back a dead object, and if it adds something to the vector then the function goes on with released memory. C111_contents_exactly, C111_copy_exactly and C111_add_exactly say that this is so in each program and at each moment when a finalizer is running."
  },
  {
   "property": "C112",
   "status": "proved",
   "theorems": [
    "Verif.LogCb.C112_safe",
    "Verif.LogCb.C112_history",
    "Verif.LogCb.C112_finish",
    "Verif.LogCb.C112_recorded"
   ],
   "note": "What a single message results in is the subject of C58, C59 and C86-C88. The limits are those of C62 and C87 (dumps of 4 GiB, long timestamps). Time doesn't pass: timestamps don't change. C112_recorded connects calls with the history."
  },
  {
   "property": "C113",
   "status": "partial",
   "theorems": [
    "Verif.LogThreads.C113_message",
    "Verif.LogThreads.C113_once",
    "Verif.LogThreads.C113_recorded",
    "Verif.LogThreads.C113_func",
    "Verif.LogThreads.C113_func2",
    "Verif.LogThreads.C113_undisturbed",
    "Verif.LogThreads.C113_safe_partial",
    "Verif.LogThreads.C113_finish",
    "Verif.LogThreads.C113_func2_null_refuted",
    "Verif.LogThreads.C113_proc_null_refuted",
    "Verif.LogThreads.C113_format_refuted",
    "Verif.LogThreads.C113_moment_refuted",
    "Verif.LogThreads.C113_exactly",
    "Verif.LogThreads.C113_wanted",
    "Verif.LogThreads.C113_level_refuted"
   ],
   "note": "Not every change of configuration is safe: gutil_log_func2 and log_proc are read twice (compared with NULL and then called), and gutil_log_set_timestamp_format frees the string which other threads may be using, hence C113_safe_partial and the three refutations. C113_moment_refuted: what's logged during a change may be a mixture of the old and the new configuration. C113_level_refuted: a message may be lost while the level is being changed although it's to be logged both before and after that, because the level is read twice. Single reads and writes of variables are assumed to be atomic and to happen in program order, see DESIGN.md; formally these are data races in C11. C113_recorded connects calls with the history. C113_exactly says that, whatever is changed and when, a thread only fails by calling a log function which was set to NULL during the thread's own call, or by using the format which was replaced during it; what happens during calls of other threads doesn't matter."
  },
  {
   "property": "C114",
   "status": "proved",
   "theorems": [
    "Verif.Idle.C114_counted",
    "Verif.Idle.C114_alive",
    "Verif.Idle.C114_gone",
    "Verif.Idle.C114_not_run"
   ],
   "note": "Dropping the last reference in a callback of the queue is excluded, see C69. The number of references isn't limited, i.e. overflow of the 32-bit counter is excluded."
  },
  {
   "property": "C115",
   "status": "partial",
   "theorems": [
    "Verif.IntArray.C115_refuted",
    "Verif.IntArray.C115_room_refuted",
    "Verif.IntArray.C115_partial",
    "Verif.IntArray.C115_exactly"
   ],
   "note": "The size is multiplied by the size of an element, and once more by GLib: four times as much memory as necessary is allocated, and the program is aborted by GLib for more than a quarter of what could be stored (refuted); otherwise proved. The limit is a parameter since it depends on the version of GLib. C115_exactly covers all the sizes."
  },
  {
   "property": "C116",
   "status": "proved",
   "theorems": [
    "Verif.Pool.C116_alive",
    "Verif.Pool.C116_exists",
    "Verif.Pool.C116_gone"
   ],
   "note": "Proved for pools created by gutil_idle_pool_new and by gutil_idle_pool_get; sources of threads with their own main context may outlive their items (C91), hence the hypothesis of C116_gone."
  },
  {
   "property": "C117",
   "status": "partial",
   "theorems": [
    "Verif.PoolDefault.C117_safe",
    "Verif.PoolDefault.C117_same",
    "Verif.PoolDefault.C117_others",
    "Verif.PoolDefault.C117_new",
    "Verif.PoolDefault.C117_alive",
    "Verif.PoolDefault.C117_add",
    "Verif.PoolDefault.C117_drain",
    "Verif.PoolDefault.C117_exit_partial",
    "Verif.PoolDefault.C117_exit_refuted",
    "Verif.PoolDefault.C117_recorded",
    "Verif.PoolDefault.C117_pools",
    "Verif.PoolDefault.C117_exit_exactly"
   ],
   "note": "Proved, except that the pool isn't deallocated, and nothing is destroyed, when the thread exits with something in the pool which waits for the main loop: the idle source has a reference too (C117_exit_refuted, for every such state). C117_exit_partial: what happens if nothing else refers to the pool. The pools are the ones of C70-C72, C91; GPrivate is a contract. C117_recorded and C117_pools connect calls with the history. C117_exit_exactly covers every exit: the pool is deallocated if nothing else refers to it, otherwise nothing changes except for the number of references."
  },
  {
   "property": "C118",
   "status": "proved",
   "theorems": [
    "Verif.IntArray.C118_list"
   ],
   "note": "Refinement of the calls to lists (Spec/IntArray.lean). What happens without the rules is in C45-C48, C80 and C82."
  },
  {
   "property": "C119",
   "status": "proved",
   "theorems": [
    "Verif.Strv.C119_histories",
    "Verif.Strv.C119_nothing_left"
   ],
   "note": "Any number of vectors and strings in one heap; refinement to lists of strings, and accounting of all allocated strings. The rules (Spec.Pre) exclude removing all strings equal to an element of the same vector (C31_refuted) and searching vectors which are not sorted. Vectors are shorter than 2^31 elements; the arrays of pointers themselves are values."
  },
  {
   "property": "C120",
   "status": "proved",
   "theorems": [
    "Verif.Ring.C120_block_stays"
   ],
   "note": "Proved for all histories, also those which add elements after an earlier flatten (if they are defined). The same block: the number of blocks allocated so far does not change, and neither do its contents."
  },
  {
   "property": "C121",
   "status": "partial",
   "theorems": [
    "Verif.PoolThreads.C121_safe",
    "Verif.PoolThreads.C121_items",
    "Verif.PoolThreads.C121_alive",
    "Verif.PoolThreads.C121_added",
    "Verif.PoolThreads.C121_wrong_thread",
    "Verif.PoolThreads.C121_stuck_refuted",
    "Verif.PoolThreads.C121_scheduled_partial",
    "Verif.PoolThreads.C121_drain",
    "Verif.PoolThreads.C121_critical_refuted",
    "Verif.PoolThreads.C121_pending_refuted",
    "Verif.PoolThreads.C121_stale_exactly",
    "Verif.PoolThreads.C121_exactly",
    "Verif.PoolThreads.C121_critical_exactly"
   ],
   "note": "Memory safety, order and lifetime are proved for every interleaving. The last sentence is false: if the source is dispatched after it has been attached but before its id is stored then nothing is scheduled anymore, no matter how much is added (C121_stuck_refuted); otherwise adding schedules a source if there are none (C121_scheduled_partial); draining always repairs that (C121_drain). g_source_remove can be given an id of a source which is gone (C121_critical_refuted), and items may have no source even if that isn't the case (C121_pending_refuted). C121_stale_exactly, C121_exactly and C121_critical_exactly say when exactly that happens, and when g_source_remove complains."
  },
  {
   "property": "C122",
   "status": "partial",
   "theorems": [
    "Verif.LogMacros.C122_builds_partial",
    "Verif.LogMacros.C122_refuted",
    "Verif.LogMacros.C122_default",
    "Verif.LogMacros.C122_both_levels"
   ],
   "note": "False if an expression which may be left out has side effects (refuted); proved of all other programs. Arguments of messages and assertions may be left out, and so may be the second argument of GVERIFY_EQ and friends. C122_both_levels combines that with the levels set at run time."
  },
  {
   "property": "C123",
   "status": "proved",
   "theorems": [
    "Verif.WeakThreads.C123_safe",
    "Verif.WeakThreads.C123_get",
    "Verif.WeakThreads.C123_weak",
    "Verif.WeakThreads.C123_alive",
    "Verif.WeakThreads.C123_quiet",
    "Verif.WeakThreads.C123_recorded"
   ],
   "note": "Proved for every interleaving. The functions of GLib (GWeakRef, reference counters) are single steps, gutil_weakref_unref is three."
  },
  {
   "property": "C124",
   "status": "partial",
   "theorems": [
    "Verif.IntArray.Self.C124_other",
    "Verif.IntArray.Self.C124_before_partial",
    "Verif.IntArray.Self.C124_exactly",
    "Verif.IntArray.Self.C124_full_refuted",
    "Verif.IntArray.Self.C124_after_refuted",
    "Verif.IntArray.Self.C124_beyond_exactly",
    "Verif.IntArray.Self.C124_reserved_exactly",
    "Verif.IntArray.Self.C124_reserved_partial"
   ],
   "note": "False: if the memory has to be reallocated then the values are read after they have been released (refuted for every full array), and if there's enough memory then other elements are inserted instead of those which are after that position (refuted). C124_exactly and C124_beyond_exactly tell what happens in each case. Proved of values which are elsewhere (C124_other), and of those before the position if there's enough memory (C124_before_partial). C124_reserved_exactly says how much memory gutil_int_array_sized_new reserves, C124_reserved_partial is an application."
  },
  {
   "property": "C125",
   "status": "partial",
   "theorems": [
    "Verif.Counter32.C125_partial",
    "Verif.Counter32.C125_refuted",
    "Verif.Counter32.C125_exactly",
    "Verif.Counter32.C125_assertions"
   ],
   "note": "True of less than 2^32 references at a time (C125_partial). False of more: the counter is a 32-bit number which wraps around, so the object is deallocated whenever dropping a reference leaves a multiple of 2^32 of them (C125_refuted, C125_exactly). In debug builds assertions fail from 2^31 references on (C125_assertions). The other models have unbounded counters."
  },
  {
   "property": "C126",
   "status": "proved",
   "theorems": [
    "Verif.Macros.C126_back",
    "Verif.Macros.C126_only",
    "Verif.Macros.C126_exactly"
   ],
   "note": "Layout of structures (each field at the first suitable offset) is a contract of the ABI. Fields of zero size, and bit fields, are not covered by C126_exactly."
  },
  {
   "property": "C127",
   "status": "partial",
   "theorems": [
    "Verif.LogFormat.C127_serial_safe_partial",
    "Verif.LogFormat.C127_quiet",
    "Verif.LogFormat.C127_memory",
    "Verif.LogFormat.C127_any",
    "Verif.LogFormat.C127_known",
    "Verif.LogFormat.C127_reader_refuted",
    "Verif.LogFormat.C127_setters_refuted"
   ],
   "note": "Model/LogFormat.lean splits gutil_log_set_timestamp_format and the use of the format by gutil_log_stdio into accesses to one variable (or to the memory it points to) each, interleaved in any order. The full statement is false: C127_reader_refuted (a message being logged uses freed memory if the format is set meanwhile; with NULL even a message which begins after the old format has been freed, because src/gutil_log.c:575 frees it before lines 576-577 forget it) and C127_setters_refuted (calls which set the format at the same time free memory twice, use freed memory, and leak). C127_serial_safe_partial, C127_memory, C127_quiet: what's true if calls which set the format don't overlap each other. C127_any, C127_known: what's true in any case. Missing: an exact description of the schedules which fail in terms of calls (it depends on steps within calls, all that is observable is that they overlap)."
  },
  {
   "property": "C128",
   "status": "proved",
   "theorems": [
    "Verif.LogDefine.C128_module",
    "Verif.LogDefine.C128_default",
    "Verif.LogDefine.C128_level",
    "Verif.LogDefine.C128_dump"
   ],
   "note": "Model/LogDefine.lean has the macros which define modules and dump data; the rest is Model/Log.lean from the initial values of its variables. C128_module, C128_default: what's printed; C128_level: the default level; C128_dump: the macros. Cycles of parents are excluded (`rank`), with them the recursion never ends."
  },
  {
   "property": "C129",
   "status": "partial",
   "theorems": [
    "Verif.IdleThreads.C129_safe_partial",
    "Verif.IdleThreads.C129_order_partial",
    "Verif.IdleThreads.C129_run_partial",
    "Verif.IdleThreads.C129_once",
    "Verif.IdleThreads.C129_stuck_refuted",
    "Verif.IdleThreads.C129_lost_refuted",
    "Verif.IdleThreads.C129_freed_refuted",
    "Verif.IdleThreads.C129_null_refuted"
   ],
   "note": "Model/IdleThreads.lean has one access to a field of the queue or of an item per step. C129_safe_partial, C129_order_partial and C129_run_partial assume that the thread and the main loop don't overlap (`Apart`); C129_once holds for any interleaving. False in general: C129_stuck_refuted (nothing is run after the source was dispatched before its id was stored), C129_lost_refuted, C129_freed_refuted, C129_null_refuted. One thread which adds things; nothing is cancelled there and the queue isn't deallocated."
  },
  {
   "property": "C130",
   "status": "partial",
   "theorems": [
    "Verif.IdleRelease.C130_safe_partial",
    "Verif.IdleRelease.C130_end_partial",
    "Verif.IdleRelease.C130_finish_partial",
    "Verif.IdleRelease.C130_freed_refuted",
    "Verif.IdleRelease.C130_twice_refuted"
   ],
   "note": "Model/IdleRelease.lean adds gutil_idle_queue_unref, by the thread, to the model of C129. C130_safe_partial, C130_end_partial and C130_finish_partial assume that the thread and the main loop don't overlap (`Apart`). False in general: C130_freed_refuted (the main loop uses the queue after it was deallocated), C130_twice_refuted (the destroy function is called by both, and the item is freed twice)."
  },
  {
   "property": "C131",
   "status": "partial",
   "theorems": [
    "Verif.LogPortable.C131_builds_partial",
    "Verif.LogPortable.C131_same_partial",
    "Verif.LogPortable.C131_compile_refuted",
    "Verif.LogPortable.C131_names_refuted",
    "Verif.LogPortable.C131_args_refuted",
    "Verif.LogPortable.C131_empty_refuted"
   ],
   "note": "Model/LogPortable.lean is the variant of the macros without GLOG_VARARGS. C131_builds_partial says what any build does, C131_same_partial compares it with gcc; both assume that GLOG_LEVEL_MAX is at least GLOG_LEVEL_DEBUG. False in general: C131_compile_refuted (exactly when it doesn't compile: GLOG_VA_NONE_ isn't defined), C131_names_refuted, C131_args_refuted, C131_empty_refuted."
  },
  {
   "property": "C132",
   "status": "partial",
   "theorems": [
    "Verif.RingCost.C132_counted",
    "Verif.RingCost.C132_amortised_partial",
    "Verif.RingCost.C132_compact_refuted",
    "Verif.RingCost.C132_limit_refuted"
   ],
   "note": "Model/RingCost.lean has the functions of Model/Ring.lean with counters of what's passed to memcpy and of allocated blocks; C132_counted says that they are otherwise the same. C132_amortised_partial assumes that gutil_ring_set_max_size, gutil_ring_compact, gutil_ring_reserve and gutil_ring_flatten aren't called; C132_compact_refuted and C132_limit_refuted have sequences of any length (up to 2^20 elements) which take quadratic time. Assignments of single elements aren't counted (one per call)."
  },
  {
   "property": "C133",
   "status": "partial",
   "theorems": [
    "Verif.Datapack.C133_unsigned_partial",
    "Verif.Datapack.C133_unsigned_refuted",
    "Verif.Datapack.C133_signed_partial",
    "Verif.Datapack.C133_tlv_partial",
    "Verif.Datapack.C133_sequence_partial"
   ],
   "note": "C133_unsigned_partial, C133_signed_partial, C133_tlv_partial and C133_sequence_partial say exactly when the bytes are the same (`Short`, `SShort`, `ShortTlv`, `ShortSeq` in Spec/DatapackShort.lean), and that what's encoded is never longer. C133_unsigned_refuted: every number of less than 64 bits has at least two encodings. TLVs with an impossible length (C12) are excluded. tlvsEncode in Model/DatapackSeq.lean calls gutil_tlv_encode for each one."
  },
  {
   "property": "C134",
   "status": "partial",
   "theorems": [
    "Verif.History.C134_accuracy_partial",
    "Verif.History.C134_refuted",
    "Verif.History.C134_bound_refuted",
    "Verif.History.C134_shift_refuted"
   ],
   "note": "C134_accuracy_partial: less than 3/2 (`Near` in Spec/HistoryMean.lean). C134_refuted: 0, 1, 2, 1 give 0 although the average is 7/6. C134_bound_refuted: for any duration D there is a history with an error of 3/2 - 1/D. C134_shift_refuted: adding a constant to the samples doesn't add it to the result, because truncation depends on the sign. Overflows are those of C27."
  },
  {
   "property": "C135",
   "status": "proved",
   "theorems": [
    "Verif.History.C135_larger_values",
    "Verif.History.C135_opposite_values",
    "Verif.History.C135_any_time"
   ],
   "note": "C135_larger_values, C135_opposite_values, C135_any_time are about pairs of runs of the model. Overflows are those of C27 (`RunFits`); C135_any_time doesn't exclude them."
  },
  {
   "property": "C136",
   "status": "proved",
   "theorems": [
    "Verif.Datapack.C136_unsigned",
    "Verif.Datapack.C136_signed",
    "Verif.Datapack.C136_tlv",
    "Verif.Datapack.C136_numbers",
    "Verif.Datapack.C136_sequence"
   ],
   "note": "C136_unsigned, C136_signed, C136_tlv are about single items, C136_numbers about numbers which are decoded until that fails (unsignedsDecode in Model/DatapackStream.lean calls the decoder of the library), C136_sequence about gutil_tlvs_decode."
  },
  {
   "property": "C137",
   "status": "proved",
   "theorems": [
    "Verif.Parse.C137_roundtrip"
   ],
   "note": "C137_roundtrip. What's printed is defined in Spec/Print.lean. White space is that of g_ascii_isspace, without the vertical tab (see C52)."
  },
  {
   "property": "C138",
   "status": "proved",
   "theorems": [
    "Verif.Misc.C138_read",
    "Verif.Misc.C138_line",
    "Verif.Log.C138_dump"
   ],
   "note": "C138_read is the reader of a line (Spec/HexRead.lean), C138_line and C138_dump compare what's shown, also in different locales. isprint has to accept the bytes, as in C62."
  },
  {
   "property": "C139",
   "status": "partial",
   "theorems": [
    "Verif.History.C139_refuted",
    "Verif.History.C139_looking_partial"
   ],
   "note": "C139_looking_partial: clocks which don't go back, as long as nothing overflows (see C27); C139_refuted: a history whose clock goes back."
  },
  {
   "property": "C140",
   "status": "proved",
   "theorems": [
    "Verif.Log.C140_lower",
    "Verif.Log.C140_others"
   ],
   "note": "C140_lower and C140_others are about pairs of configurations (`Quieter` and `SameFamily` in Spec/LogLaws.lean)."
  },
  {
   "property": "C141",
   "status": "proved",
   "theorems": [
    "Verif.Strv.C141_strings",
    "Verif.Strv.C141_directions",
    "Verif.IntArray.C141_numbers"
   ],
   "note": "C141_strings, C141_directions and C141_numbers. qsort and g_array_sort are any functions which fulfil their contracts (see C34 and C48)."
  },
  {
   "property": "C142",
   "status": "partial",
   "theorems": [
    "Verif.Parse.C142_blanks",
    "Verif.Parse.C142_case",
    "Verif.Parse.C142_base",
    "Verif.Parse.C142_agree_partial",
    "Verif.Parse.C142_refuted"
   ],
   "note": "C142_blanks, C142_case and C142_base hold for all strings; C142_agree_partial is about strings without minus, C142_refuted about minus zero."
  },
  {
   "property": "C143",
   "status": "partial",
   "theorems": [
    "Verif.Ring.C143_mirror_partial",
    "Verif.Ring.C143_refuted",
    "Verif.Ring.C143_refuted_by_limit"
   ],
   "note": "C143_mirror_partial: histories as in C17, unless the maximum size is lowered so that elements are dropped; the order of releasing is open. C143_refuted and C143_refuted_by_limit are about these."
  },
  {
   "property": "C144",
   "status": "proved",
   "theorems": [
    "Verif.Datapack.C144_unsigned",
    "Verif.Datapack.C144_signed",
    "Verif.Datapack.C144_tlv"
   ],
   "note": "C144_unsigned, C144_signed, C144_tlv. Decoded means that the decoder succeeded; incomplete data is C136."
  },
  {
   "property": "C145",
   "status": "partial",
   "theorems": [
    "Verif.Misc.C145_xor_partial",
    "Verif.Misc.C145_concat_partial",
    "Verif.Misc.C145_refuted"
   ],
   "note": "C145_xor_partial and C145_concat_partial: with the conditions of C55. C145_refuted: what happens without them in the strict reading of the standard."
  },
  {
   "property": "C146",
   "status": "partial",
   "theorems": [
    "Verif.Log.C146_options_partial",
    "Verif.Log.C146_refuted"
   ],
   "note": "C146_options_partial: all modules have names, as in C60. C146_refuted: what happens if one has none."
  },
  {
   "property": "C147",
   "status": "proved",
   "theorems": [
    "Verif.IntArray.C147_undo"
   ],
   "note": "C147_undo, as long as the number of ints is a guint."
  },
  {
   "property": "C148",
   "status": "partial",
   "theorems": [
    "Verif.Ints.C148_parts_partial",
    "Verif.Ints.C148_refuted"
   ],
   "note": "C148_parts_partial: offset + count and the sum of offsets are guints, as in C40. C148_refuted: what happens otherwise."
  },
  {
   "property": "C149",
   "status": "proved",
   "theorems": [
    "Verif.Strv.C149_undo",
    "Verif.Strv.C149_undo_value",
    "Verif.Strv.C149_dups_twice",
    "Verif.Strv.C149_dups_absorb"
   ],
   "note": "C149_undo, C149_undo_value, C149_dups_twice, C149_dups_absorb. The vector owns its strings, as in C29."
  },
  {
   "property": "C150",
   "status": "partial",
   "theorems": [
    "Verif.Idle.C150_no_trace_partial",
    "Verif.Idle.C150_refuted"
   ],
   "note": "C150_no_trace_partial: there are other items, or it's done outside of callbacks. C150_refuted: inside of a callback of the only item."
  },
  {
   "property": "C151",
   "status": "proved",
   "theorems": [
    "Verif.Datapack.C151_order",
    "Verif.Datapack.C151_concat"
   ],
   "note": "C151_order: the two sequences may be decoded with different flags. C151_concat: no expected tag is repeated, as in C14."
  },
  {
   "property": "C152",
   "status": "partial",
   "theorems": [
    "Verif.Ring.C152_memory_partial",
    "Verif.Ring.C152_undo_partial",
    "Verif.Ring.C152_refuted",
    "Verif.Ring.C152_refuted_by_lowering",
    "Verif.Ring.C152_refuted_by_reserve"
   ],
   "note": "C152_memory_partial, C152_undo_partial: the histories of C17, the limit is respected in the beginning and never lowered. C152_refuted, C152_refuted_by_lowering: what happens otherwise. C152_refuted_by_reserve: reserve itself may return something else."
  },
  {
   "property": "C153",
   "status": "proved",
   "theorems": [
    "Verif.Misc.C153_encode",
    "Verif.Misc.C153_decode",
    "Verif.Misc.C153_order"
   ],
   "note": "C153_encode, C153_decode, C153_order."
  },
  {
   "property": "C154",
   "status": "proved",
   "theorems": [
    "Verif.Objv.C154_undo",
    "Verif.Objv.C154_put_back"
   ],
   "note": "C154_undo, C154_put_back. There's a reference for each object in the vector, as in C37."
  },
  {
   "property": "C155",
   "status": "proved",
   "theorems": [
    "Verif.Datapack.C155_unsigned",
    "Verif.Datapack.C155_fixed",
    "Verif.Datapack.C155_signed"
   ],
   "note": "C155_unsigned, C155_fixed, C155_signed."
  },
  {
   "property": "C156",
   "status": "partial",
   "theorems": [
    "Verif.Ints.C156_exactly",
    "Verif.Ints.C156_order_partial",
    "Verif.Ints.C156_refuted"
   ],
   "note": "C156_order_partial: non-negative ints on a big-endian machine. C156_refuted: it's not the case for negative ints, nor on little-endian machines. C156_exactly: what is compared there."
  },
  {
   "property": "C157",
   "status": "proved",
   "theorems": [
    "Verif.Misc.C157_sequence",
    "Verif.Misc.C157_repeat",
    "Verif.Misc.C157_empty"
   ],
   "note": "C157_sequence, C157_repeat, C157_empty. The pointers are those which memcmp accepts, as in C56."
  },
  {
   "property": "C158",
   "status": "proved",
   "theorems": [
    "Verif.Inotify.C158_split",
    "Verif.Inotify.C158_possible"
   ],
   "note": "C158_split, C158_possible."
  },
  {
   "property": "C159",
   "status": "partial",
   "theorems": [
    "Verif.History.C159_larger_partial",
    "Verif.History.C159_refuted"
   ],
   "note": "C159_larger_partial: the clock never goes backwards. C159_refuted: what may happen otherwise."
  },
  {
   "property": "C160",
   "status": "proved",
   "theorems": [
    "Verif.RemoveEach.C160_strings",
    "Verif.RemoveEach.C160_objects"
   ],
   "note": "C160_strings: the string which is searched for doesn't belong to the vector (for those which do, see C31). C160_objects."
  },
  {
   "property": "C161",
   "status": "partial",
   "theorems": [
    "Verif.Ring.C161_limit_partial",
    "Verif.Ring.C161_refuted"
   ],
   "note": "C161_limit_partial: the histories of C17, the limit isn't changed, and no more is reserved in the beginning than the lower limit allows. C161_refuted: otherwise the ring with the higher limit may be the one which is full."
  },
  {
   "property": "C162",
   "status": "proved",
   "theorems": [
    "Verif.Idle.C162_each"
   ],
   "note": "C162_each."
  },
  {
   "property": "C163",
   "status": "proved",
   "theorems": [
    "Verif.Strv.C163_contents",
    "Verif.Strv.C163_search"
   ],
   "note": "C163_contents: the histories of C119. C163_search: why binary search is excluded."
  },
  {
   "property": "C164",
   "status": "partial",
   "theorems": [
    "Verif.Misc.C164_prefixes_partial",
    "Verif.Misc.C164_suffixes_partial",
    "Verif.Misc.C164_split_partial",
    "Verif.Misc.C164_refuted"
   ],
   "note": "C164_prefixes_partial, C164_suffixes_partial, C164_split_partial: unless the data pointer of an empty block is NULL and memcmp is as strict as the C standard allows (C164_refuted)."
  },
  {
   "property": "C165",
   "status": "proved",
   "theorems": [
    "Verif.Strv.C165_several",
    "Verif.Strv.C165_strip"
   ],
   "note": "C165_several, C165_strip."
  },
  {
   "property": "C166",
   "status": "proved",
   "theorems": [
    "Verif.Inotify.C166_own",
    "Verif.Inotify.C166_others"
   ],
   "note": "C166_own, C166_others: a watch is the one which the table of watches has for the descriptor (not the case if another watch was created for the same file later, see C73)."
  },
  {
   "property": "C167",
   "status": "proved",
   "theorems": [
    "Verif.Objv.C167_append",
    "Verif.Objv.C167_new",
    "Verif.Objv.C167_copy"
   ],
   "note": "C167_append (of another vector, see C38), C167_new, C167_copy."
  },
  {
   "property": "C168",
   "status": "proved",
   "theorems": [
    "Verif.IntArray.C168_adding",
    "Verif.IntArray.C168_removing",
    "Verif.IntArray.C168_new"
   ],
   "note": "C168_adding, C168_removing, C168_new."
  },
  {
   "property": "C169",
   "status": "proved",
   "theorems": [
    "Verif.History.C169_samples",
    "Verif.History.C169_clear"
   ],
   "note": "C169_samples, C169_clear. The clock is as in C27, and the maximum size is at most 2^30 or the size is not asked for (SizeOk)."
  },
  {
   "property": "C170",
   "status": "partial",
   "theorems": [
    "Verif.Ring.C170_drop_partial",
    "Verif.Ring.C170_drop_last_partial",
    "Verif.Ring.C170_refuted",
    "Verif.Ring.C170_clear_partial"
   ],
   "note": "C170_drop_partial, C170_drop_last_partial, C170_clear_partial, C170_refuted. Partial: the histories are those of C17, and if dropping the newest elements leaves nothing in the ring, then they are released in another order than if they are dropped in several steps (C170_refuted); they are still the same elements."
  },
  {
   "property": "C171",
   "status": "partial",
   "theorems": [
    "Verif.Ring.C171_elements_partial",
    "Verif.Ring.C171_refuted"
   ],
   "note": "C171_elements_partial, C171_refuted. Partial: the histories are those of C17, the limit is never lowered, and no more is reserved in the beginning than the limit allows (C171_refuted shows that this is necessary)."
  },
  {
   "property": "C172",
   "status": "proved",
   "theorems": [
    "Verif.Idle.C172_order"
   ],
   "note": "C172_order."
  },
  {
   "property": "C173",
   "status": "partial",
   "theorems": [
    "Verif.RemoveEach.C173_ints_partial",
    "Verif.RemoveEach.C173_refuted",
    "Verif.RemoveEach.C173_strings",
    "Verif.RemoveEach.C173_objects"
   ],
   "note": "C173_ints_partial, C173_strings, C173_objects, C173_refuted. Partial: arrays of more than 2^31 ints (C46), of which that is not true (C173_refuted)."
  }
 ]
}
