{
 "claims": [
  {
   "property": "C01",
   "status": "proved",
   "theorems": [
    "Verif.C01_write_then_read",
    "Verif.C01_text_tables",
    "Verif.C01_shipped",
    "Verif.C01_shipped_text"
   ],
   "note": "For every causal table; C01_text_tables has no representability hypothesis."
  },
  {
   "property": "C02",
   "status": "partial",
   "theorems": [
    "Verif.C02_literal_identity_partial",
    "Verif.C02_literal_reserved_blanked",
    "Verif.C02_reserved_lost",
    "Verif.C02_shipped_partial",
    "Verif.C02_shipped_reserved"
   ],
   "note": "Proved for tables without reserved (unnamed) fields; with them the code loses their content (C02_reserved_lost), and C02_literal_reserved_blanked says exactly what is kept."
  },
  {
   "property": "C03",
   "status": "proved",
   "theorems": [
    "Verif.C03_exact_consumption",
    "Verif.C03_end_to_end",
    "Verif.C03_shipped"
   ],
   "note": ""
  },
  {
   "property": "C04",
   "status": "proved",
   "theorems": [
    "Verif.C04_fixed_width",
    "Verif.C04_misfit_raises",
    "Verif.C04_no_truncation"
   ],
   "note": ""
  },
  {
   "property": "C05",
   "status": "proved",
   "theorems": [
    "Verif.C05_truncated_rejected",
    "Verif.C05_shipped"
   ],
   "note": ""
  },
  {
   "property": "C06",
   "status": "proved",
   "theorems": [
    "Verif.C06_raw_bytes",
    "Verif.C06_raw_after_assign",
    "Verif.C06_shipped"
   ],
   "note": ""
  },
  {
   "property": "C07",
   "status": "proved",
   "theorems": [
    "Verif.C07_update_is_rewrite",
    "Verif.C07_misfit_raises"
   ],
   "note": "For fields nothing else in the table depends on (otherwise the layout changes)."
  },
  {
   "property": "C08",
   "status": "proved",
   "theorems": [
    "Verif.C08_fits_iff",
    "Verif.C08_overflow_raises",
    "Verif.C08_read_back"
   ],
   "note": ""
  },
  {
   "property": "C09",
   "status": "proved",
   "theorems": [
    "Verif.C09_fits_iff",
    "Verif.C09_misfit_raises",
    "Verif.C09_read_back"
   ],
   "note": ""
  },
  {
   "property": "C10",
   "status": "proved",
   "theorems": [
    "Verif.C10_none_written",
    "Verif.C10_none_iff_fill",
    "Verif.C10_none_read_back",
    "Verif.C10_unset",
    "Verif.C10_unset_value",
    "Verif.C10_literal_fill",
    "Verif.C10_required_never_none",
    "Verif.C10_required_blank"
   ],
   "note": ""
  },
  {
   "property": "C11",
   "status": "proved",
   "theorems": [
    "Verif.C11_reads_none",
    "Verif.C11_writes_nothing",
    "Verif.C11_consumes_nothing",
    "Verif.C11_set_raises"
   ],
   "note": ""
  },
  {
   "property": "C12",
   "status": "proved",
   "theorems": [
    "Verif.C12_attribute",
    "Verif.C12_no_attribute",
    "Verif.C12_attributes",
    "Verif.C12_set_get",
    "Verif.C12_plain_value",
    "Verif.C12_sized_local",
    "Verif.C12_unaffected",
    "Verif.C12_leaf"
   ],
   "note": ""
  },
  {
   "property": "C13",
   "status": "proved",
   "theorems": [
    "Verif.C13_size_consistent",
    "Verif.C13_text",
    "Verif.C13_fixed_size",
    "Verif.C13_rejected_but_stored",
    "Verif.C13_shipped_lengths"
   ],
   "note": "C13_rejected_but_stored records that a rejected value of the wrong length is nevertheless stored."
  },
  {
   "property": "C14",
   "status": "proved",
   "theorems": [
    "Verif.C14_pack_unpack",
    "Verif.C14_unpack_pack",
    "Verif.C14_other_widths",
    "Verif.C14_field"
   ],
   "note": ""
  },
  {
   "property": "C15",
   "status": "partial",
   "theorems": [
    "Verif.C15_last_index_partial",
    "Verif.C15_leading_index_unchecked",
    "Verif.C15_checked_index_partial",
    "Verif.C15_ignored_index",
    "Verif.C15_shipped_partial",
    "Verif.C15_shipped_ignored",
    "Verif.C15_illumb"
   ],
   "note": "The code only checks the last index (C15_leading_index_unchecked, and C15_illumb for a shipped table). Proved: last index and number of indices in all tables; all indices in all shipped tables but four (C15_shipped_partial); C15_shipped_ignored says which indices of these four go unchecked."
  },
  {
   "property": "C16",
   "status": "proved",
   "theorems": [
    "Verif.C16_deepcopy",
    "Verif.C16_literal_reformatted",
    "Verif.C16_shipped"
   ],
   "note": "Structs of values; structs holding NitfLiteral are reformatted by a copy (C16_literal_reformatted)."
  },
  {
   "property": "C17",
   "status": "proved",
   "theorems": [
    "Verif.C17_not_assignable"
   ],
   "note": ""
  },
  {
   "property": "C18",
   "status": "partial",
   "theorems": [
    "Verif.C18_references_earlier",
    "Verif.C18_loop_counts_earlier",
    "Verif.C18_names_distinct_partial",
    "Verif.C18_names_not_distinct",
    "Verif.C18_tre_tags"
   ],
   "note": "References: proved for all 50 shipped tables (Lean descriptions generated from the sources by tools/gen_tables.py). Distinct names: false for SENSRB and CSCSDB (C18_names_not_distinct); C18_names_distinct_partial is the exact characterisation of the hidden fields."
  },
  {
   "property": "C19",
   "status": "proved",
   "theorems": [
    "Verif.C19_format",
    "Verif.C19_too_long",
    "Verif.C19_unknown_round_trip",
    "Verif.C19_known_round_trip",
    "Verif.C19_length_checked",
    "Verif.C19_non_ascii_tag"
   ],
   "note": "Tags of at most six ASCII characters not ending in white space; for other tags see C19_non_ascii_tag."
  },
  {
   "property": "C20",
   "status": "proved",
   "theorems": [
    "Verif.C20_area_round_trip",
    "Verif.C20_shipped_representable",
    "Verif.C20_shipped"
   ],
   "note": "Any registry of causal tables; instantiated to the shipped classes. Representable restricts tags and values to those that can be written."
  },
  {
   "property": "C21",
   "status": "proved",
   "theorems": [
    "Verif.C21_nothing_lost",
    "Verif.C21_unknown_rewritten"
   ],
   "note": "Rewriting byte for byte assumes the usual form of tag padding and length digits."
  },
  {
   "property": "C22",
   "status": "proved",
   "theorems": [
    "Verif.C22_placement",
    "Verif.C22_nothing_lost",
    "Verif.C22_all_large_raises"
   ],
   "note": "For every header state, whenever the call succeeds; it raises when all TREs are too large for an area (C22_all_large_raises)."
  },
  {
   "property": "C23",
   "status": "partial",
   "theorems": [
    "Verif.C23_rearranged_partial",
    "Verif.C23_new_header_partial",
    "Verif.C23_in_order_partial",
    "Verif.C23_stale_area",
    "Verif.C23_any_state"
   ],
   "note": "Proved when every area is unused, or in use and needed again (the new TREs are longer than the areas before it can hold). False when an area in use gets nothing: its TREs are duplicated (C23_stale_area). C23_any_state says exactly what is read for a header in any state."
  },
  {
   "property": "C24",
   "status": "partial",
   "theorems": [
    "Verif.C24_file_keeps",
    "Verif.C24_replaced_partial",
    "Verif.C24_never_cleared",
    "Verif.C24_still_there",
    "Verif.C24_remove_all",
    "Verif.C24_removed_still_there"
   ],
   "note": "False: areas that get no TREs are never cleared (C24_never_cleared, C24_still_there; C24_removed_still_there for every list that fits the first area; C24_remove_all says exactly what is left). Proved: an area that gets TREs holds exactly these."
  },
  {
   "property": "C25",
   "status": "proved",
   "theorems": [
    "Verif.C25_lengths",
    "Verif.C25_total"
   ],
   "note": "For every file whose header holds no raw literal and whose segments are linked to the file (as append to a new file and reading make them); the unlinked case is C29."
  },
  {
   "property": "C26",
   "status": "partial",
   "theorems": [
    "Verif.C26_standard_partial",
    "Verif.C26_any_areas_partial",
    "Verif.C26_any_untouched_partial",
    "Verif.C26_session",
    "Verif.C26_removed_comes_back",
    "Verif.C26_round_trip_partial",
    "Verif.C26_untouched_partial",
    "Verif.C26_user_lost",
    "Verif.C26_res_user_lost"
   ],
   "note": "Proved for files without stored literals, without TREs on graphics, and with data handlers that give their data back: for TRE areas that are unused or needed again the TREs are the same (C26_round_trip_partial), for areas in any readable state they are exactly those C26_any_areas_partial says, over any sequence of writes and edits (C26_session). C26_untouched_partial relates the object after writing to the one before. False for user subheaders without a registered class (C26_user_lost), of RES segments (C26_res_user_lost), graphics with TREs (C52_unreadable) and removed TREs (C26_removed_comes_back)."
  },
  {
   "property": "C27",
   "status": "partial",
   "theorems": [
    "Verif.C27_no_overflow",
    "Verif.C27_des_kept",
    "Verif.C27_any_number_partial",
    "Verif.C27_write_again_partial",
    "Verif.C27_read",
    "Verif.C27_new",
    "Verif.C27_stale"
   ],
   "note": "No overflow segment remains after any write (C27_no_overflow), and any number of writes gives the same bytes for every new object, every object read from a file (with TREs or segments changed) and every object whose unused TRE areas have no stale overflow number. The unrestricted claim is false: C27_stale."
  },
  {
   "property": "C28",
   "status": "proved",
   "theorems": [
    "Verif.C28_order",
    "Verif.C28_index",
    "Verif.C28_count"
   ],
   "note": ""
  },
  {
   "property": "C29",
   "status": "partial",
   "theorems": [
    "Verif.C29_appended",
    "Verif.C29_not_described",
    "Verif.C29_new_file_partial",
    "Verif.C29_read_file_partial"
   ],
   "note": "False for every file that is read: reading replaces the segment lists by plain lists, so an appended segment is not linked and the header of the file written says 0 for its lengths, whatever was appended (C29_appended; C29_not_described is an example). For DES segments C29_appended supposes that no segment of the list is an overflow segment. Proved: segments appended to a new file, in any number and order, are described; segments a file was read with are linked and stay described."
  },
  {
   "property": "C30",
   "status": "proved",
   "theorems": [
    "Verif.C30_unique",
    "Verif.C30_result",
    "Verif.C30_order",
    "Verif.C30_history"
   ],
   "note": "Any handlers, priorities, histories of registration and iteration orders. C30_unique also covers handlers with side effects on a state (the file position)."
  },
  {
   "property": "C31",
   "status": "proved",
   "theorems": [
    "Verif.C31_refines",
    "Verif.C31_copy"
   ],
   "note": "Handler sets with set objects in a heap; any sequence of operations, and any interleaving on an original and its copy."
  },
  {
   "property": "C32",
   "status": "partial",
   "theorems": [
    "Verif.C32_round_trip",
    "Verif.C32_fresh",
    "Verif.C32_attributes",
    "Verif.C32_new_header",
    "Verif.C32_none_refused",
    "Verif.C32_equal_partial",
    "Verif.C32_codewords_ignored"
   ],
   "note": "Setting a security object into any of the six shipped headers and getting it back gives the same nineteen values (C32_round_trip), a fresh header gives the default object (C32_fresh). Equality: C32_equal_partial shows what `==` compares; C32_codewords_ignored proves that two objects with different codewords compare equal, so the equality half of the property is false of the code as it is."
  },
  {
   "property": "C33",
   "status": "proved",
   "theorems": [
    "Verif.C33_set_get",
    "Verif.C33_bands",
    "Verif.C33_too_many",
    "Verif.C33_zero"
   ],
   "note": "Zero is not a count: C33_zero shows it reads back as the previous XBANDS."
  },
  {
   "property": "C34",
   "status": "proved",
   "theorems": [
    "Verif.C34_round_trip",
    "Verif.C34_unsupported",
    "Verif.C34_distinct",
    "Verif.C34_complex128_unwritable"
   ],
   "note": "C34_complex128_unwritable: the accepted 16-byte complex type can never be written (128 does not fit the 2-digit fields)."
  },
  {
   "property": "C35",
   "status": "proved",
   "theorems": [
    "Verif.C35_address",
    "Verif.C35_read_back",
    "Verif.C35_tiling",
    "Verif.C35_same_header",
    "Verif.C35_numpy_writer",
    "Verif.C35_large_unwritable",
    "Verif.C35_one_block_interleaved"
   ],
   "note": "For the three modes the constructor accepts. Also shown: images over 9999 rows/columns cannot be written, the numpy writer only works in the default mode, and a one-block pixel-interleaved file is misread as band sequential (C35_one_block_interleaved)."
  },
  {
   "property": "C36",
   "status": "proved",
   "theorems": [
    "Verif.C36_copy_exact",
    "Verif.C36_segment"
   ],
   "note": "The source is taken as it is at writing time; writing over the source file itself is not modelled (opening for writing truncates it)."
  },
  {
   "property": "C37",
   "status": "partial",
   "theorems": [
    "Verif.C37_text",
    "Verif.C37_read_str",
    "Verif.C37_header_partial",
    "Verif.C37_north_east",
    "Verif.C37_hemisphere_lost",
    "Verif.C37_decimal",
    "Verif.C37_blank"
   ],
   "note": "The text is proved correct (60 characters, minutes and seconds below 60, nearest second, hemisphere letter) for all corners in range, with the rounding error of float arithmetic as a parameter. Reading from a str gives the corners within half a second in every quadrant, and decimal degrees round-trip with sign. The header property geolo_corner passes bytes, so the hemisphere is lost: proved to return magnitudes (C37_header_partial), exact in the north-east, with a witness for the south-west (C37_hemisphere_lost)."
  },
  {
   "property": "C38",
   "status": "partial",
   "theorems": [
    "Verif.C38_short_partial",
    "Verif.C38_swapped",
    "Verif.C38_long",
    "Verif.C38_digit_lost"
   ],
   "note": "For northings of at most six characters the text has 60 characters and reads back the zone and the floored coordinates, but exchanged (C38_short_partial, C38_swapped). From a northing of 1000000 on, the header cannot be written (C38_long), or a corner silently loses a digit (C38_digit_lost)."
  },
  {
   "property": "C39",
   "status": "proved",
   "theorems": [
    "Verif.C39_level",
    "Verif.C39_elem",
    "Verif.C39_history",
    "Verif.C39_ordered_set",
    "Verif.C39_order",
    "Verif.C39_all",
    "Verif.C39_trailing_blank"
   ],
   "note": "For every sequence of additions to a new subheader (and for one addition to any subheader whose counts and lists agree). Ids are assumed to have no trailing white space (C39_trailing_blank shows why); a subheader with numais ALL refuses levels without change (C39_all)."
  },
  {
   "property": "C40",
   "status": "proved",
   "theorems": [
    "Verif.C40_find_tre",
    "Verif.C40_find_one",
    "Verif.C40_cases_exclusive"
   ],
   "note": ""
  },
  {
   "property": "C41",
   "status": "partial",
   "theorems": [
    "Verif.C41_update_partial",
    "Verif.C41_lookup",
    "Verif.C41_absent",
    "Verif.C41_history_partial",
    "Verif.C41_last_partial",
    "Verif.C41_big_endian",
    "Verif.C41_clobbered",
    "Verif.C41_read_only",
    "Verif.C41_non_ascii"
   ],
   "note": "For every sequence of add_or_update calls with ASCII text, bytes, or one/two-dimensional arrays of a supported type that are single byte or little endian and writable: last value wins, other labels untouched, length is the number of distinct labels, absent labels raise KeyError. Missing: big endian arrays (stored swapped), repeated storing of one array (swapped in place), read-only arrays and non-ASCII text (raise after adding an entry): proved as witnesses. Iteration (NameError) is not modelled."
  },
  {
   "property": "C42",
   "status": "proved",
   "theorems": [
    "Verif.C42_segments",
    "Verif.C42_tre",
    "Verif.C42_header",
    "Verif.C42_rest"
   ],
   "note": "Every list of files; parts are opaque lists or None."
  },
  {
   "property": "C43",
   "status": "partial",
   "theorems": [
    "Verif.C43_field",
    "Verif.C43_log",
    "Verif.C43_same_iff_partial",
    "Verif.C43_same_iff",
    "Verif.C43_same_iff_counts",
    "Verif.C43_shipped",
    "Verif.C43_defaults",
    "Verif.C43_other_fields",
    "Verif.C43_returns",
    "Verif.C43_self",
    "Verif.C43_raises",
    "Verif.C43_raises_mixed",
    "Verif.C43_outer_counts",
    "Verif.C43_nan"
   ],
   "note": "Proved for the comparison of two structures of the same class, any configuration: what is logged (C43_log), field by field (C43_field), the equivalence for every shipped table and every default configuration with nothing assumed about the counts (C43_shipped, C43_defaults), when it returns (C43_returns), and comparing with itself (C43_self). False as stated for: structures with different outer counts (C43_raises, the comparison raises; C43_outer_counts, unreported when the count is excluded) and NaN values (C43_nan)."
  },
  {
   "property": "C44",
   "status": "partial",
   "theorems": [
    "Verif.C44_file_handler",
    "Verif.C44_segment_handler",
    "Verif.C44_file",
    "Verif.C44_segment",
    "Verif.C44_not_masked",
    "Verif.C44_dispatch",
    "Verif.C44_skipped",
    "Verif.C44_overflow",
    "Verif.C44_leaf",
    "Verif.C44_default_partial",
    "Verif.C44_placeholder",
    "Verif.C44_user_subheader",
    "Verif.C44_raises",
    "Verif.C44_desshf"
   ],
   "note": "Proved for all files, skip functions, handler sets, iteration orders and handler outcomes: the result of comparing files and segments is 'same' exactly if all parts compare the same with equal counts, every pair is compared, and nothing is masked (C44_file, C44_segment, C44_not_masked); for the default handlers the decision is spelled out down to the content (C44_default_partial, C44_leaf, C44_dispatch). Not sound in these cases, each with a witness: data only a placeholder class can read (C44_placeholder), a user subheader only the second segment has (C44_user_subheader), a DES user subheader without registered class (C44_desshf). Some differences raise instead of being reported (C44_raises)."
  },
  {
   "property": "C45",
   "status": "proved",
   "theorems": [
    "Verif.C45_most_precise",
    "Verif.C45_raises",
    "Verif.C45_narrow"
   ],
   "note": "float_to_fixed_width over exact rationals: the result fits, its error is at most half a unit of the last place kept, no longer text fits, and the call raises exactly when not even the integer part fits (widths of at least 2; below 2 the code always raises a NameError, which is proved). The maximum_precision argument is not modelled."
  },
  {
   "property": "C46",
   "status": "partial",
   "theorems": [
    "Verif.C46_text_partial",
    "Verif.C46_exact",
    "Verif.C46_file_partial",
    "Verif.C46_writes",
    "Verif.C46_colon",
    "Verif.C46_newline",
    "Verif.C46_injection",
    "Verif.C46_last_line_end",
    "Verif.C46_none"
   ],
   "note": "C46_file_partial: whatever write_to_file writes, read_from_file takes exactly it and every attribute has its value, for values without ': ' or CRLF, no CR/LF at the end of DES-ID2, None only in encoding and range; C46_writes gives the exact condition for the write to succeed.  The restriction is exact: C46_exact; witnesses C46_colon, C46_newline, C46_injection, C46_last_line_end, C46_none."
  },
  {
   "property": "C47",
   "status": "partial",
   "theorems": [
    "Verif.C47_ready",
    "Verif.C47_first_look_partial",
    "Verif.C47_lost",
    "Verif.C47_set_lost",
    "Verif.C47_write_mixed",
    "Verif.C47_write_defaults"
   ],
   "note": "C47_first_look_partial: if the first operation gets a value, sets an element in a loop, sets a number whose size depends on other fields, sets a conditional field or (outside TREs) sets any field, every later result equals that of an immediate read.  The full statement fails: C47_lost shows for every TRE table that values set before the first look are silently lost; witnesses C47_set_lost, C47_write_mixed (writing first mixes default and read values), C47_write_defaults."
  },
  {
   "property": "C48",
   "status": "partial",
   "theorems": [
    "Verif.C48_converted",
    "Verif.C48_lookup",
    "Verif.C48_contains",
    "Verif.C48_other_partial",
    "Verif.C48_newline"
   ],
   "note": "C48_lookup and C48_converted are the full lookup order and classification.  'Every other text unchanged' fails for a number followed by a newline (C48_newline), hence C48_other_partial.  float(text) is symbolic."
  },
  {
   "property": "C49",
   "status": "proved",
   "theorems": [
    "Verif.C49_idlvl",
    "Verif.C49_iid1",
    "Verif.C49_single"
   ],
   "note": "For image segments whose attribute can be read."
  },
  {
   "property": "C50",
   "status": "proved",
   "theorems": [
    "Verif.C50_own",
    "Verif.C50_match",
    "Verif.C50_refused",
    "Verif.C50_data",
    "Verif.C50_file",
    "Verif.C50_two_files"
   ],
   "note": "Every segment list and key; also the whole notify_file_merge for a delta file and one base."
  },
  {
   "property": "C51",
   "status": "proved",
   "theorems": [
    "Verif.C51_event",
    "Verif.C51_segments",
    "Verif.C51_str",
    "Verif.C51_tre",
    "Verif.C51_tres"
   ],
   "note": "Calls are logged in the state; any iteration order; hooks are assumed not to change the hook set while it is iterated."
  },
  {
   "property": "C52",
   "status": "partial",
   "theorems": [
    "Verif.C52_unreadable",
    "Verif.C52_no_tres_partial"
   ],
   "note": "False: reading any graphic segment with TREs raises AttributeError (C52_unreadable). Proved only for graphic segments without TREs."
  },
  {
   "property": "C53",
   "status": "proved",
   "theorems": [
    "Verif.C53_assoc_elem"
   ],
   "note": "The objects and the search for CSEXRB TREs in an image (find_tre, C40) are opaque."
  },
  {
   "property": "C54",
   "status": "proved",
   "theorems": [
    "Verif.C54_items_exact",
    "Verif.C54_to_list",
    "Verif.C54_struct_items",
    "Verif.C54_shipped"
   ],
   "note": "Enumeration is exact, row-major, agrees with indexed access; nested list and struct items likewise."
  },
  {
   "property": "C55",
   "status": "proved",
   "theorems": [
    "Verif.C55_written_elements",
    "Verif.C55_bytes",
    "Verif.C55_read_elements"
   ],
   "note": "The pieces written (read) of each field are exactly the enumerated elements with a true condition, once each, in order."
  },
  {
   "property": "C56",
   "status": "proved",
   "theorems": [
    "Verif.C56_written",
    "Verif.C56_assigned",
    "Verif.C56_refused",
    "Verif.C56_read_back"
   ],
   "note": "Assigned literals: bytes written, value read, agreement with reading back, locality."
  },
  {
   "property": "C57",
   "status": "partial",
   "theorems": [
    "Verif.C57_prefix_partial",
    "Verif.C57_one_short"
   ],
   "note": "The code cuts at trunc_size-1 (C57_one_short); proved: a prefix of fewer than trunc_size bytes, the whole value if shorter than trunc_size."
  },
  {
   "property": "C58",
   "status": "partial",
   "theorems": [
    "Verif.C58_text_of_bytes",
    "Verif.C58_text_printable",
    "Verif.C58_restore_is_copy",
    "Verif.C58_restored_partial",
    "Verif.C58_explicit_description",
    "Verif.C58_tre_restored",
    "Verif.C58_unknown_tre",
    "Verif.C58_tre_copied"
   ],
   "note": "Restored for classes with their own description and for registered TREs; C58_explicit_description and C58_unknown_tre prove that other objects are not restored."
  },
  {
   "property": "C59",
   "status": "partial",
   "theorems": [
    "Verif.C59_utf8",
    "Verif.C59_written",
    "Verif.C59_copy_partial",
    "Verif.C59_copy_fails",
    "Verif.C59_not_utf8"
   ],
   "note": "Holds for str and for bytes that are UTF-8; C59_not_utf8 is a text that cannot be copied, C59_copy_fails says exactly which."
  },
  {
   "property": "C60",
   "status": "proved",
   "theorems": [
    "Verif.C60_key",
    "Verif.C60_segment",
    "Verif.C60_file",
    "Verif.C60_merged"
   ],
   "note": "For files whose headers can be written and hold values, and whose TREs and user subheaders can be read back (C01, C19)."
  },
  {
   "property": "C61",
   "status": "partial",
   "theorems": [
    "Verif.C61_other_desid",
    "Verif.C61_exact",
    "Verif.C61_wrong_size",
    "Verif.C61_round_trip",
    "Verif.C61_copy_partial",
    "Verif.C61_copy_drops",
    "Verif.C61_print_partial",
    "Verif.C61_print_changed",
    "Verif.C61_copy_loses",
    "Verif.C61_print_rewrites",
    "Verif.C61_dispatch",
    "Verif.C61_shipped_tags",
    "Verif.C61_data",
    "Verif.C61_skipped",
    "Verif.C61_plain",
    "Verif.C61_not_written"
   ],
   "note": "Reading, writing, dispatch and placeholders in full. Copying loses bytes after the fields (C61_copy_loses), printing raises after a change of length (C61_print_changed) or changes values that do not survive writing (C61_print_rewrites)."
  },
  {
   "property": "C62",
   "status": "proved",
   "theorems": [
    "Verif.C62_format_text",
    "Verif.C62_printf",
    "Verif.C62_rpc",
    "Verif.C62_default",
    "Verif.C62_default_raises",
    "Verif.C62_shipped",
    "Verif.C62_stable",
    "Verif.C62_no_negative",
    "Verif.C62_sensrb_distortion",
    "Verif.C62_sensrb_focal_length"
   ],
   "note": "floats as the structure Doubles (assumption about CPython: correct rounding, relative error 2^-53); second write for zero or magnitudes 1e-249..1e249, quaternion components up to 4. Findings: C62_sensrb_distortion, C62_sensrb_focal_length"
  },
  {
   "property": "C63",
   "status": "partial",
   "theorems": [
    "Verif.C63_second_write_partial",
    "Verif.C63_dash_text"
   ],
   "note": "false for dash-only text in optional SENSRB fields (C63_dash_text); everything else proved, floats in the range of C62"
  },
  {
   "property": "C64",
   "status": "partial",
   "theorems": [
    "Verif.C64_attached",
    "Verif.C64_round_partial",
    "Verif.C64_other_content_zeros",
    "Verif.C64_class",
    "Verif.C64_length_partial",
    "Verif.C64_new_h5",
    "Verif.C64_compare",
    "Verif.C64_stale_length",
    "Verif.C64_attach_after_read",
    "Verif.C64_no_size",
    "Verif.C64_new_text",
    "Verif.C64_compare_unread"
   ],
   "note": "Round trip for HDF5 content, announced length while the file keeps its length, class selection, comparison. The full claim is false in the code: C64_other_content_zeros, C64_stale_length, C64_attach_after_read, C64_no_size, C64_compare_unread."
  },
  {
   "property": "C65",
   "status": "partial",
   "theorems": [
    "Verif.C65_lines",
    "Verif.C65_succeeds",
    "Verif.C65_line",
    "Verif.C65_name",
    "Verif.C65_text",
    "Verif.C65_head",
    "Verif.C65_heads",
    "Verif.C65_columns",
    "Verif.C65_written_prints_partial",
    "Verif.C65_shipped_partial",
    "Verif.C65_read_prints_partial",
    "Verif.C65_shipped_read_partial",
    "Verif.C65_frame_time_size"
   ],
   "note": "Every element exactly once, in order, in aligned columns; success iff all elements can be read; what can be written can be printed. The full claim is false for frame times of 5 to 7 bytes: C65_frame_time_size."
  },
  {
   "property": "C66",
   "status": "proved",
   "theorems": [
    "Verif.C66_add",
    "Verif.C66_new",
    "Verif.C66_no_id",
    "Verif.C66_uuid",
    "Verif.C66_elems",
    "Verif.C66_assoc_elem",
    "Verif.C66_found",
    "Verif.C66_trailing_blank"
   ],
   "note": "For ids without trailing white space (C66_trailing_blank shows the exception). UUIDs are inputs."
  },
  {
   "property": "C67",
   "status": "partial",
   "theorems": [
    "Verif.C67_load_save_partial",
    "Verif.C67_overflow_swaps"
   ],
   "note": "Proved for files all of whose TREs fit into their headers; C67_overflow_swaps proves that with overflow the TREs are exchanged."
  },
  {
   "property": "C68",
   "status": "partial",
   "theorems": [
    "Verif.C68_settles_partial",
    "Verif.C68_untouched_partial",
    "Verif.C68_grows"
   ],
   "note": "Proved for loaded files whose TREs and user subheaders survive being written, with no TRE area left over and no overflow; C68_grows proves that with a leftover area every load and save adds a copy of the TREs."
  },
  {
   "property": "C69",
   "status": "proved",
   "theorems": [
    "Verif.C69_overflow",
    "Verif.C69_new_segment"
   ],
   "note": "Stated on the file read back. Graphic segments cannot have TREs that are read back (C52)."
  },
  {
   "property": "C70",
   "status": "proved",
   "theorems": [
    "Verif.C70_writes_iff",
    "Verif.C70_prepare_raises",
    "Verif.C70_data_too_long",
    "Verif.C70_too_many",
    "Verif.C70_too_many_des"
   ],
   "note": "write succeeds iff every part can be written and all lengths fit (C70_writes_iff); over-long data and over 999 segments raise"
  },
  {
   "property": "C71",
   "status": "partial",
   "theorems": [
    "Verif.C71_copy_partial",
    "Verif.C71_interleaved",
    "Verif.C71_wrong",
    "Verif.C71_no_pixels",
    "Verif.C71_no_type"
   ],
   "note": "Copies of interleaved images with several bands are written wrongly by the code; C71_interleaved characterises what is read, C71_wrong is the negation."
  },
  {
   "property": "C72",
   "status": "partial",
   "theorems": [
    "Verif.C72_written_read",
    "Verif.C72_round_trip_partial",
    "Verif.C72_int_becomes_float",
    "Verif.C72_writable",
    "Verif.C72_prefix",
    "Verif.C72_tag",
    "Verif.C72_readable",
    "Verif.C72_no_namespace",
    "Verif.C72_quotes"
   ],
   "note": "Proved for the documents the writer makes, in any object state (C72_written_read, C72_round_trip_partial). False for documents without namespace: nothing is read (C72_no_namespace)."
  },
  {
   "property": "C73",
   "status": "partial",
   "theorems": [
    "Verif.C73_file",
    "Verif.C73_segment",
    "Verif.C73_object",
    "Verif.C73_default_partial",
    "Verif.C73_contexts",
    "Verif.C73_tags",
    "Verif.C73_tre",
    "Verif.C73_subheader",
    "Verif.C73_names",
    "Verif.C73_segment_not_named",
    "Verif.C73_user_subheader_not_named"
   ],
   "note": "Proved for all files, handlers and contexts: result, log and context (C73_file, C73_segment, C73_object; default handlers C73_default_partial, C73_contexts). Missing because the code violates it: lines about user subheaders and the data of some DES name neither the segment nor, for CSATTA, the right class (C73_segment_not_named, C73_user_subheader_not_named)."
  },
  {
   "property": "C74",
   "status": "partial",
   "theorems": [
    "Verif.C74_session_partial",
    "Verif.C74_written",
    "Verif.C74_not_moved",
    "Verif.C74_moved",
    "Verif.C74_other_modes",
    "Verif.C74_read"
   ],
   "note": "proved for all sessions as long as the memory map is not moved; the code loses the arrays of earlier images when it is (C74_moved)"
  },
  {
   "property": "C75",
   "status": "partial",
   "theorems": [
    "Verif.C75_agree_partial",
    "Verif.C75_seen",
    "Verif.C75_ties",
    "Verif.C75_apart",
    "Verif.C75_assign",
    "Verif.C75_merge",
    "Verif.C75_base",
    "Verif.C75_delta"
   ],
   "note": "every session of creating, reading and setting proved; assigning data and merging deltas break the claim (negations for all states)"
  },
  {
   "property": "C76",
   "status": "partial",
   "theorems": [
    "Verif.DiffProg.C76_status",
    "Verif.DiffProg.C76_verdict",
    "Verif.DiffProg.C76_options",
    "Verif.DiffProg.C76_screen",
    "Verif.DiffProg.C76_log_partial",
    "Verif.DiffProg.C76_printed",
    "Verif.DiffProg.C76_quiet",
    "Verif.DiffProg.C76_color",
    "Verif.DiffProg.C76_screen_log",
    "Verif.DiffProg.C76_lines",
    "Verif.DiffProg.C76_found",
    "Verif.DiffProg.C76_quiet_log",
    "Verif.DiffProg.C76_config_fails"
   ],
   "note": "With --quiet the log file lacks the verdict that files are the same, and a JSON configuration always fails; both negations are proved. Everything else holds for all options and results."
  },
  {
   "property": "C77",
   "status": "partial",
   "theorems": [
    "Verif.Defaults.C77_file",
    "Verif.Defaults.C77_diff",
    "Verif.Defaults.C77_default_partial",
    "Verif.Defaults.C77_diff_new",
    "Verif.Defaults.C77_file_discard",
    "Verif.Defaults.C77_diff_discard",
    "Verif.Defaults.C77_diff_again",
    "Verif.Defaults.C77_derived",
    "Verif.Defaults.C77_base"
   ],
   "note": "Default handlers can not be discarded from a comparison (deep copy) and deriving classes share or split their default sets depending on order; negations proved. Files, and classes that do not derive from one another, satisfy the claim for all programs."
  },
  {
   "property": "C78",
   "status": "partial",
   "theorems": [
    "Verif.PrintFile.C78_file",
    "Verif.PrintFile.C78_summary",
    "Verif.PrintFile.C78_segment_summary",
    "Verif.PrintFile.C78_order",
    "Verif.PrintFile.C78_error",
    "Verif.PrintFile.C78_segment_partial",
    "Verif.PrintFile.C78_overflow",
    "Verif.PrintFile.C78_tre",
    "Verif.PrintFile.C78_raw",
    "Verif.PrintFile.C78_no_hooks",
    "Verif.PrintFile.C78_info_partial",
    "Verif.PrintFile.C78_info_delta",
    "Verif.PrintFile.C78_header",
    "Verif.PrintFile.C78_no_file",
    "Verif.PrintFile.C78_merge_report_raw",
    "Verif.PrintFile.C78_info_raw_merge",
    "Verif.PrintFile.C78_text_fails",
    "Verif.PrintFile.C78_text",
    "Verif.PrintFile.C78_counts"
   ],
   "note": "The text is stated exactly, for all hooks. The claim fails for segments with TREs in no file, merged files, text that is not UTF-8 and the counts in a summary (negations proved)."
  },
  {
   "property": "C79",
   "status": "partial",
   "theorems": [
    "Verif.DeltaDiff.C79_same_partial",
    "Verif.DeltaDiff.C79_error",
    "Verif.DeltaDiff.C79_overflow",
    "Verif.DeltaDiff.C79_removed"
   ],
   "note": "The exact condition for a clean comparison with a delta is proved for files without TRE overflow whose parts cover those of the base file and whose keys are different; outside of that the claim is false (C79_overflow, C79_removed). The hooks called for merged segments are not modelled; copies are parameters."
  },
  {
   "property": "C80",
   "status": "partial",
   "theorems": [
    "Verif.Owner.C80_alone_partial",
    "Verif.Owner.C80_session_partial",
    "Verif.Owner.C80_raises",
    "Verif.Owner.C80_corrupted",
    "Verif.Owner.C80_orphan",
    "Verif.Owner.C80_other_changed"
   ],
   "note": "Proved: a file whose segments refer to no other living file is written as if it were alone, and nothing else changes (C80_alone_partial); after every session in which segments are appended only while they are in no file, the header describes the file and other files are unchanged (C80_session_partial). The claim is false for segments appended to a second file: C80_raises (general), C80_corrupted, C80_orphan, C80_other_changed (witnesses). State after an exception, hooks and two files having the same list object are not modelled."
  },
  {
   "property": "C81",
   "status": "partial",
   "theorems": [
    "Verif.Attempt.C81_attempt",
    "Verif.Attempt.C81_untouched",
    "Verif.Attempt.C81_interrupted",
    "Verif.Attempt.C81_interrupted_often",
    "Verif.Attempt.C81_retry_partial",
    "Verif.Attempt.C81_stuck",
    "Verif.Attempt.C81_stale"
   ],
   "note": "Violated for lengths that do not fit: C81_stuck, for every file that can be written and any of its image, graphic and text segments. C81_untouched, C81_interrupted and C81_interrupted_often hold at every listed state without condition on the kind of failure (the last two need that unused TRE areas hold no stale overflow number, C81_stale). C81_retry_partial covers exchange of data, user subheaders and TREs of segments; assigning header fields, and adding or removing segments, between the attempts is not covered. One prepare_tre_write of a header counts as one step, and so does storing the user subheader and its length in a DES subheader: states inside them are not listed."
  },
  {
   "property": "C82",
   "status": "partial",
   "theorems": [
    "Verif.C82_read_again_partial",
    "Verif.C82_shipped",
    "Verif.C82_des_partial",
    "Verif.C82_des_old_extra",
    "Verif.C82_raw_absent",
    "Verif.C82_outer_index"
   ],
   "note": "Holds for fields, values, raw bytes and writing of every element that is present, for all histories of the object; raw bytes of absent elements, outer indices out of range (C15) and old extra data of a DES are left over, as proved in the negations."
  },
  {
   "property": "C83",
   "status": "partial",
   "theorems": [
    "Verif.Implement.C83_format",
    "Verif.Implement.C83_written",
    "Verif.Implement.C83_fields",
    "Verif.Implement.C83_refused",
    "Verif.Implement.C83_round_trip",
    "Verif.Implement.C83_copy",
    "Verif.Implement.C83_plain_reader",
    "Verif.Implement.C83_fallback",
    "Verif.Implement.C83_other_tag",
    "Verif.Implement.C83_not_text",
    "Verif.Implement.C83_stale",
    "Verif.Implement.C83_second_look",
    "Verif.Implement.C83_truncated",
    "Verif.Implement.C83_des_round_trip",
    "Verif.Implement.C83_des_other",
    "Verif.Implement.C83_des_ignored",
    "Verif.Implement.C83_des_length",
    "Verif.Implement.C83_des_position",
    "Verif.Implement.C83_raw_stale",
    "Verif.Implement.C83_des_ignored_case",
    "Verif.Implement.C83_des_overrun"
   ],
   "note": "Writing, reading back, copying, refusing assignments, fields after update and the fallback are proved for all implementation classes; the fields of a DES, changed objects before update, truncated records and bytes that are not text violate the claim, as proved in the negations."
  },
  {
   "property": "C84",
   "status": "partial",
   "theorems": [
    "Verif.C84_file",
    "Verif.C84_history_partial",
    "Verif.C84_in",
    "Verif.C84_get",
    "Verif.C84_setdefault_partial",
    "Verif.C84_update",
    "Verif.C84_not_a_pair",
    "Verif.C84_pop_absent",
    "Verif.C84_pop_present",
    "Verif.C84_iter",
    "Verif.C84_hash",
    "Verif.C84_hash_twice"
   ],
   "note": "Proved for all histories of stores and files; iteration, deletion and pop of a present label raise (negations proved)"
  },
  {
   "property": "C85",
   "status": "proved",
   "theorems": [
    "Verif.Meaning.C85_shows",
    "Verif.Meaning.C85_read",
    "Verif.Meaning.C85_shipped"
   ],
   "note": "Every field that is stored (computed and reserved fields have no stored value). The text of a floating point number is parsed by the parameter P.parse, its four byte form by P.unpack32. Python's int() of a str also accepts digits of other scripts; fields are Latin-1, so none arise in bytes."
  },
  {
   "property": "C86",
   "status": "proved",
   "theorems": [
    "Verif.Sense.C86_written",
    "Verif.Sense.C86_read",
    "Verif.Sense.C86_absent",
    "Verif.Sense.C86_one_value",
    "Verif.Sense.C86_shipped"
   ],
   "note": "Expressions of the forms used in the shipped tables (all of them are parsed into Expr). Ordering comparisons and arithmetic are on integers, & on non-negative integers; other operand types raise in the model."
  },
  {
   "property": "C87",
   "status": "proved",
   "theorems": [
    "Verif.Spell.C87_written",
    "Verif.Spell.C87_raises",
    "Verif.Spell.C87_data",
    "Verif.Spell.C87_one_spelling",
    "Verif.Spell.C87_shipped"
   ],
   "note": "All tables whose FieldData fields have type bytes (all shipped ones). The text of a floating point value is P.fixedWidth (C45) or P.fmt (C62); literals with a truncation size are C57."
  },
  {
   "property": "C88",
   "status": "proved",
   "theorems": [
    "Verif.Split.C88_pieces",
    "Verif.Split.C88_magic"
   ],
   "note": "Every written file is taken apart by a splitter that knows only the widths of the standard, into the header and the subheaders and data of the segments, nothing left over; and it starts with NITF02.10 if the header says so. Segments linked to the file and no literals in the header, as in C25."
  },
  {
   "property": "C89",
   "status": "proved",
   "theorems": [
    "Verif.Finds.C89_text",
    "Verif.Finds.C89_graphic",
    "Verif.Finds.C89_file",
    "Verif.Finds.C89_image",
    "Verif.Finds.C89_tres",
    "Verif.Finds.C89_found",
    "Verif.Finds.C89_file_tres",
    "Verif.Finds.C89_text_tres",
    "Verif.Finds.C89_image_tres"
   ],
   "note": "Readers written from the format alone find all TREs of file, image and text segments in the written bytes, with those in overflow segments. Graphic segments: the area is found (C89_graphic), their overflow is C90."
  },
  {
   "property": "C90",
   "status": "partial",
   "theorems": [
    "Verif.Graphic.C90_graphic",
    "Verif.Graphic.C90_fits_partial",
    "Verif.Graphic.C90_lost"
   ],
   "note": "False: the subheader never names the overflow segment (C90_lost, concrete file). C90_graphic: found are all TREs just if they fit into the subheader area; C90_fits_partial."
  },
  {
   "property": "C91",
   "status": "proved",
   "theorems": [
    "Verif.Limits.C91_within",
    "Verif.Limits.C91_too_many",
    "Verif.Limits.C91_too_large"
   ],
   "note": "All written files are within the limits of the format; too many segments or too long data raise. Hypotheses as C88."
  },
  {
   "property": "C92",
   "status": "partial",
   "theorems": [
    "Verif.Limits.C92_text_partial",
    "Verif.Limits.C92_graphic_partial",
    "Verif.Limits.C92_text_raises",
    "Verif.Limits.C92_graphic_raises"
   ],
   "note": "False: TREs of 9715 to 99995 bytes of a text segment (9739 to 99995, graphic) make the write raise (C92_text_raises, C92_graphic_raises). Proved: up to there the subheader fits."
  },
  {
   "property": "C93",
   "status": "proved",
   "theorems": [
    "Verif.Summary.C93_templates",
    "Verif.Summary.C93_tre_written",
    "Verif.Summary.C93_tre_read",
    "Verif.Summary.C93_tre_begins",
    "Verif.Summary.C93_header_read",
    "Verif.Summary.C93_sub_read",
    "Verif.Summary.C93_header_written",
    "Verif.Summary.C93_sub_written",
    "Verif.Summary.C93_des_templates",
    "Verif.Summary.C93_des",
    "Verif.Summary.C93_file",
    "Verif.Summary.C93_all",
    "Verif.Summary.C93_read",
    "Verif.Summary.C93_counts"
   ],
   "note": "For files read with the classes of pynitf registered (or classes of the user with tags that have no summary of their own). C93_counts assumes that the header has no negative numbers (a header may say -05; then no segments are read)."
  },
  {
   "property": "C94",
   "status": "partial",
   "theorems": [
    "Verif.Explore.C94_list",
    "Verif.Explore.C94_list_tre",
    "Verif.Explore.C94_print_at",
    "Verif.Explore.C94_save_des",
    "Verif.Explore.C94_documented_partial",
    "Verif.Explore.C94_session_partial",
    "Verif.Explore.C94_load_useless",
    "Verif.Explore.C94_load_default",
    "Verif.Explore.C94_print_alone",
    "Verif.Explore.C94_image_alone",
    "Verif.Explore.C94_diff_range",
    "Verif.Explore.C94_merged",
    "Verif.Explore.C94_not_a_number",
    "Verif.Explore.C94_print_tre",
    "Verif.Explore.C94_display",
    "Verif.Explore.C94_diff",
    "Verif.Explore.C94_completion",
    "Verif.Explore.C94_completion_missing"
   ],
   "note": "Proved for the commands of the help text with indices in range on files that are not merged; the code ends the program on other commands and never uses files loaded under another alias (negations proved)."
  },
  {
   "property": "C95",
   "status": "partial",
   "theorems": [
    "Verif.Layout.C95_right_iff",
    "Verif.Layout.C95_right_partial",
    "Verif.Layout.C95_accepted",
    "Verif.Layout.C95_wrong",
    "Verif.Layout.C95_taken",
    "Verif.Layout.C95_wrong_fill"
   ],
   "note": "Exact characterisation of the layouts that are read right (C95_right_iff, C95_taken); the code reads one-block pixel-interleaved images and blocks with fill wrong (negations proved)."
  },
  {
   "property": "C96",
   "status": "proved",
   "theorems": [
    "Verif.NewImage.C96_filled",
    "Verif.NewImage.C96_raises"
   ],
   "note": "All subheaders, sizes, supported pixel types and numbers of bands; the raising cases as well."
  },
  {
   "property": "C97",
   "status": "proved",
   "theorems": [
    "Verif.InFile.C97_new",
    "Verif.InFile.C97_file",
    "Verif.InFile.C97_loaded",
    "Verif.InFile.C97_ready",
    "Verif.InFile.C97_new_file"
   ],
   "note": "images through write and read, all shapes and pixels; images loaded from any file; files made from scratch"
  },
  {
   "property": "C98",
   "status": "proved",
   "theorems": [
    "Verif.Standard.C98_file_written",
    "Verif.Standard.C98_file_read",
    "Verif.Standard.C98_image_written",
    "Verif.Standard.C98_image_read",
    "Verif.Standard.C98_graphic_written",
    "Verif.Standard.C98_graphic_read",
    "Verif.Standard.C98_text_written",
    "Verif.Standard.C98_text_read",
    "Verif.Standard.C98_des_written",
    "Verif.Standard.C98_des_read",
    "Verif.Standard.C98_res_written",
    "Verif.Standard.C98_res_read",
    "Verif.Standard.C98_total",
    "Verif.Standard.C98_place",
    "Verif.Standard.C98_lengths",
    "Verif.Standard.C98_places",
    "Verif.Standard.C98_file"
   ],
   "note": "the six headers against the tables of MIL-STD-2500C, written and read"
  },
  {
   "property": "C99",
   "status": "proved",
   "theorems": [
    "Verif.Standard.C99_written",
    "Verif.Standard.C99_read",
    "Verif.Standard.C99_fixed",
    "Verif.Standard.C99_csatta"
   ],
   "note": "fixed lengths and lengths by counts, written and read"
  },
  {
   "property": "C100",
   "status": "proved",
   "theorems": [
    "Verif.NewFile.C100_writes_iff",
    "Verif.NewFile.C100_round_trip"
   ],
   "note": "Files of new images without TREs: written if and only if within the limits; then length, reading and pixels."
  },
  {
   "property": "C101",
   "status": "proved",
   "theorems": [
    "Verif.NewText.C101_writes_iff",
    "Verif.NewText.C101_ready",
    "Verif.NewText.C101_round_trip"
   ],
   "note": "files of new images and texts without TREs"
  },
  {
   "property": "C102",
   "status": "partial",
   "theorems": [
    "Verif.MaxPrec.C102_default",
    "Verif.MaxPrec.C102_shows",
    "Verif.MaxPrec.C102_same",
    "Verif.MaxPrec.C102_always",
    "Verif.MaxPrec.C102_never_worse_partial",
    "Verif.MaxPrec.C102_worse_negative",
    "Verif.MaxPrec.C102_worse_large",
    "Verif.MaxPrec.C102_worse_short",
    "Verif.MaxPrec.C102_can_be_worse"
   ],
   "note": "shows, always, same and default proved for all finite numbers and widths; the comparison with the default is proved for 0 <= n <= 10^(w-5) and w >= 8 and refuted by witnesses for negative numbers, larger numbers and shorter texts; the float nearest to 10^(5-w) is taken as the exact power"
  },
  {
   "property": "C103",
   "status": "partial",
   "theorems": [
    "Verif.RadCalc.C103_writes_iff",
    "Verif.RadCalc.C103_pixels_partial",
    "Verif.RadCalc.C103_other_modes",
    "Verif.RadCalc.C103_not_all_modes"
   ],
   "note": "exact conditions and all pixels for the mode that generates everything at once; in every other mode writing always raises, which is proved; numpy arithmetic on pixels is a parameter"
  },
  {
   "property": "C104",
   "status": "partial",
   "theorems": [
    "Verif.UserSize.C104_size",
    "Verif.UserSize.C104_put",
    "Verif.UserSize.C104_too_long",
    "Verif.UserSize.C104_fits_partial",
    "Verif.UserSize.C104_raises",
    "Verif.UserSize.C104_limit_missed"
   ],
   "note": "size, length field and subheader length proved for all written DES segments; above 9999 never written; from 9800 on every file raises, which refutes the last clause; up to 9799 only the length condition of the subheader is shown, not that all other fields of the file can be written"
  },
  {
   "property": "C105",
   "status": "partial",
   "theorems": [
    "Verif.UserSize.C105_size",
    "Verif.UserSize.C105_fits_partial",
    "Verif.UserSize.C105_raises",
    "Verif.UserSize.C105_count_missed"
   ],
   "note": "length of every user subheader that can be written; from 271 elements on every file raises, which refutes the last clause; below, only the length condition is shown, not that all other fields of the file can be written"
  },
  {
   "property": "C106",
   "status": "proved",
   "theorems": [
    "Verif.UserSize.C106_runtime",
    "Verif.UserSize.C106_class",
    "Verif.UserSize.C106_free"
   ],
   "note": "for one segment and for whole files; classes stand for their descriptions"
  }
 ]
}