{
 "C01": {
  "note": "For every causal table; C01_text_tables has no representability hypothesis.",
  "status": "proved"
 },
 "C02": {
  "note": "Proved for tables without reserved (unnamed) fields; with them the code loses their content (C02_reserved_lost), and C02_literal_reserved_blanked says exactly what is kept.",
  "status": "partial"
 },
 "C03": {
  "note": "",
  "status": "proved"
 },
 "C04": {
  "note": "",
  "status": "proved"
 },
 "C05": {
  "note": "",
  "status": "proved"
 },
 "C06": {
  "note": "",
  "status": "proved"
 },
 "C07": {
  "note": "For fields nothing else in the table depends on (otherwise the layout changes).",
  "status": "proved"
 },
 "C08": {
  "note": "",
  "status": "proved"
 },
 "C09": {
  "note": "",
  "status": "proved"
 },
 "C10": {
  "note": "",
  "status": "proved"
 },
 "C11": {
  "note": "",
  "status": "proved"
 },
 "C12": {
  "note": "",
  "status": "proved"
 },
 "C13": {
  "note": "C13_rejected_but_stored records that a rejected value of the wrong length is nevertheless stored.",
  "status": "proved"
 },
 "C14": {
  "note": "",
  "status": "proved"
 },
 "C15": {
  "status": "partial",
  "note": "The code only checks the last index (C15_leading_index_unchecked, and C15_illumb for a shipped table). Proved: last index and number of indices in all tables; all indices in all shipped tables but four (C15_shipped_partial); C15_shipped_ignored says which indices of these four go unchecked."
 },
 "C16": {
  "note": "Structs of values; structs holding NitfLiteral are reformatted by a copy (C16_literal_reformatted).",
  "status": "proved"
 },
 "C17": {
  "note": "",
  "status": "proved"
 },
 "C18": {
  "status": "partial",
  "note": "References: proved for all 50 shipped tables (Lean descriptions generated from the sources by tools/gen_tables.py). Distinct names: false for SENSRB and CSCSDB (C18_names_not_distinct); C18_names_distinct_partial is the exact characterisation of the hidden fields."
 },
 "C19": {
  "status": "proved",
  "note": "Tags of at most six ASCII characters not ending in white space; for other tags see C19_non_ascii_tag."
 },
 "C20": {
  "status": "proved",
  "note": "Any registry of causal tables; instantiated to the shipped classes. Representable restricts tags and values to those that can be written."
 },
 "C21": {
  "status": "proved",
  "note": "Rewriting byte for byte assumes the usual form of tag padding and length digits."
 },
 "C22": {
  "status": "proved",
  "note": "For every header state, whenever the call succeeds; it raises when all TREs are too large for an area (C22_all_large_raises)."
 },
 "C23": {
  "status": "partial",
  "note": "Proved when every area is unused, or in use and needed again (the new TREs are longer than the areas before it can hold). False when an area in use gets nothing: its TREs are duplicated (C23_stale_area). C23_any_state says exactly what is read for a header in any state."
 },
 "C24": {
  "status": "partial",
  "note": "False: areas that get no TREs are never cleared (C24_never_cleared, C24_still_there; C24_removed_still_there for every list that fits the first area; C24_remove_all says exactly what is left). Proved: an area that gets TREs holds exactly these."
 },
 "C25": {
  "status": "proved",
  "note": "For every file whose header holds no raw literal and whose segments are linked to the file (as append to a new file and reading make them); the unlinked case is C29."
 },
 "C26": {
  "status": "partial",
  "note": "Proved for files without stored literals, without TREs on graphics, and with data handlers that give their data back: for TRE areas that are unused or needed again the TREs are the same (C26_round_trip_partial), for areas in any readable state they are exactly those C26_any_areas_partial says, over any sequence of writes and edits (C26_session). C26_untouched_partial relates the object after writing to the one before. False for user subheaders without a registered class (C26_user_lost), of RES segments (C26_res_user_lost), graphics with TREs (C52_unreadable) and removed TREs (C26_removed_comes_back)."
 },
 "C27": {
  "status": "partial",
  "note": "No overflow segment remains after any write (C27_no_overflow), and any number of writes gives the same bytes for every new object, every object read from a file (with TREs or segments changed) and every object whose unused TRE areas have no stale overflow number. The unrestricted claim is false: C27_stale."
 },
 "C28": {
  "status": "proved",
  "note": ""
 },
 "C29": {
  "status": "partial",
  "note": "False for every file that is read: reading replaces the segment lists by plain lists, so an appended segment is not linked and the header of the file written says 0 for its lengths, whatever was appended (C29_appended; C29_not_described is an example). For DES segments C29_appended supposes that no segment of the list is an overflow segment. Proved: segments appended to a new file, in any number and order, are described; segments a file was read with are linked and stay described."
 },
 "C30": {
  "status": "proved",
  "note": "Any handlers, priorities, histories of registration and iteration orders. C30_unique also covers handlers with side effects on a state (the file position)."
 },
 "C31": {
  "status": "proved",
  "note": "Handler sets with set objects in a heap; any sequence of operations, and any interleaving on an original and its copy."
 },
 "C32": {
  "status": "partial",
  "note": "Setting a security object into any of the six shipped headers and getting it back gives the same nineteen values (C32_round_trip), a fresh header gives the default object (C32_fresh). Equality: C32_equal_partial shows what `==` compares; C32_codewords_ignored proves that two objects with different codewords compare equal, so the equality half of the property is false of the code as it is."
 },
 "C33": {
  "status": "proved",
  "note": "Zero is not a count: C33_zero shows it reads back as the previous XBANDS."
 },
 "C34": {
  "status": "proved",
  "note": "C34_complex128_unwritable: the accepted 16-byte complex type can never be written (128 does not fit the 2-digit fields)."
 },
 "C35": {
  "status": "proved",
  "note": "For the three modes the constructor accepts. Also shown: images over 9999 rows/columns cannot be written, the numpy writer only works in the default mode, and a one-block pixel-interleaved file is misread as band sequential (C35_one_block_interleaved)."
 },
 "C36": {
  "status": "proved",
  "note": "The source is taken as it is at writing time; writing over the source file itself is not modelled (opening for writing truncates it)."
 },
 "C37": {
  "status": "partial",
  "note": "The text is proved correct (60 characters, minutes and seconds below 60, nearest second, hemisphere letter) for all corners in range, with the rounding error of float arithmetic as a parameter. Reading from a str gives the corners within half a second in every quadrant, and decimal degrees round-trip with sign. The header property geolo_corner passes bytes, so the hemisphere is lost: proved to return magnitudes (C37_header_partial), exact in the north-east, with a witness for the south-west (C37_hemisphere_lost)."
 },
 "C38": {
  "status": "partial",
  "note": "For northings of at most six characters the text has 60 characters and reads back the zone and the floored coordinates, but exchanged (C38_short_partial, C38_swapped). From a northing of 1000000 on, the header cannot be written (C38_long), or a corner silently loses a digit (C38_digit_lost)."
 },
 "C39": {
  "status": "proved",
  "note": "For every sequence of additions to a new subheader (and for one addition to any subheader whose counts and lists agree). Ids are assumed to have no trailing white space (C39_trailing_blank shows why); a subheader with numais ALL refuses levels without change (C39_all)."
 },
 "C40": {
  "status": "proved",
  "note": ""
 },
 "C41": {
  "status": "partial",
  "note": "For every sequence of add_or_update calls with ASCII text, bytes, or one/two-dimensional arrays of a supported type that are single byte or little endian and writable: last value wins, other labels untouched, length is the number of distinct labels, absent labels raise KeyError. Missing: big endian arrays (stored swapped), repeated storing of one array (swapped in place), read-only arrays and non-ASCII text (raise after adding an entry): proved as witnesses. Iteration (NameError) is not modelled."
 },
 "C42": {
  "status": "proved",
  "note": "Every list of files; parts are opaque lists or None."
 },
 "C43": {
  "status": "partial",
  "note": "Proved for the comparison of two structures of the same class, any configuration: what is logged (C43_log), field by field (C43_field), the equivalence for every shipped table and every default configuration with nothing assumed about the counts (C43_shipped, C43_defaults), when it returns (C43_returns), and comparing with itself (C43_self). False as stated for: structures with different outer counts (C43_raises, the comparison raises; C43_outer_counts, unreported when the count is excluded) and NaN values (C43_nan)."
 },
 "C44": {
  "status": "partial",
  "note": "Proved for all files, skip functions, handler sets, iteration orders and handler outcomes: the result of comparing files and segments is 'same' exactly if all parts compare the same with equal counts, every pair is compared, and nothing is masked (C44_file, C44_segment, C44_not_masked); for the default handlers the decision is spelled out down to the content (C44_default_partial, C44_leaf, C44_dispatch). Not sound in these cases, each with a witness: data only a placeholder class can read (C44_placeholder), a user subheader only the second segment has (C44_user_subheader), a DES user subheader without registered class (C44_desshf). Some differences raise instead of being reported (C44_raises)."
 },
 "C45": {
  "status": "proved",
  "note": "float_to_fixed_width over exact rationals: the result fits, its error is at most half a unit of the last place kept, no longer text fits, and the call raises exactly when not even the integer part fits (widths of at least 2; below 2 the code always raises a NameError, which is proved). The maximum_precision argument is not modelled."
 },
 "C46": {
  "status": "partial",
  "note": "C46_file_partial: whatever write_to_file writes, read_from_file takes exactly it and every attribute has its value, for values without ': ' or CRLF, no CR/LF at the end of DES-ID2, None only in encoding and range; C46_writes gives the exact condition for the write to succeed.  The restriction is exact: C46_exact; witnesses C46_colon, C46_newline, C46_injection, C46_last_line_end, C46_none."
 },
 "C47": {
  "status": "partial",
  "note": "C47_first_look_partial: if the first operation gets a value, sets an element in a loop, sets a number whose size depends on other fields, sets a conditional field or (outside TREs) sets any field, every later result equals that of an immediate read.  The full statement fails: C47_lost shows for every TRE table that values set before the first look are silently lost; witnesses C47_set_lost, C47_write_mixed (writing first mixes default and read values), C47_write_defaults."
 },
 "C48": {
  "status": "partial",
  "note": "C48_lookup and C48_converted are the full lookup order and classification.  'Every other text unchanged' fails for a number followed by a newline (C48_newline), hence C48_other_partial.  float(text) is symbolic."
 },
 "C49": {
  "status": "proved",
  "note": "For image segments whose attribute can be read."
 },
 "C50": {
  "status": "proved",
  "note": "Every segment list and key; also the whole notify_file_merge for a delta file and one base."
 },
 "C51": {
  "status": "proved",
  "note": "Calls are logged in the state; any iteration order; hooks are assumed not to change the hook set while it is iterated."
 },
 "C52": {
  "status": "partial",
  "note": "False: reading any graphic segment with TREs raises AttributeError (C52_unreadable). Proved only for graphic segments without TREs."
 },
 "C53": {
  "status": "proved",
  "note": "The objects and the search for CSEXRB TREs in an image (find_tre, C40) are opaque."
 },
 "C54": {
  "status": "proved",
  "note": "Enumeration is exact, row-major, agrees with indexed access; nested list and struct items likewise."
 },
 "C55": {
  "status": "proved",
  "note": "The pieces written (read) of each field are exactly the enumerated elements with a true condition, once each, in order."
 },
 "C56": {
  "status": "proved",
  "note": "Assigned literals: bytes written, value read, agreement with reading back, locality."
 },
 "C57": {
  "status": "partial",
  "note": "The code cuts at trunc_size-1 (C57_one_short); proved: a prefix of fewer than trunc_size bytes, the whole value if shorter than trunc_size."
 },
 "C58": {
  "status": "partial",
  "note": "Restored for classes with their own description and for registered TREs; C58_explicit_description and C58_unknown_tre prove that other objects are not restored."
 },
 "C59": {
  "status": "partial",
  "note": "Holds for str and for bytes that are UTF-8; C59_not_utf8 is a text that cannot be copied, C59_copy_fails says exactly which."
 },
 "C60": {
  "status": "proved",
  "note": "For files whose headers can be written and hold values, and whose TREs and user subheaders can be read back (C01, C19)."
 },
 "C61": {
  "status": "partial",
  "note": "Reading, writing, dispatch and placeholders in full. Copying loses bytes after the fields (C61_copy_loses), printing raises after a change of length (C61_print_changed) or changes values that do not survive writing (C61_print_rewrites)."
 },
 "C62": {
  "status": "proved",
  "note": "floats as the structure Doubles (assumption about CPython: correct rounding, relative error 2^-53); second write for zero or magnitudes 1e-249..1e249, quaternion components up to 4. Findings: C62_sensrb_distortion, C62_sensrb_focal_length"
 },
 "C63": {
  "status": "partial",
  "note": "false for dash-only text in optional SENSRB fields (C63_dash_text); everything else proved, floats in the range of C62"
 },
 "C64": {
  "status": "partial",
  "note": "Round trip for HDF5 content, announced length while the file keeps its length, class selection, comparison. The full claim is false in the code: C64_other_content_zeros, C64_stale_length, C64_attach_after_read, C64_no_size, C64_compare_unread."
 },
 "C65": {
  "status": "partial",
  "note": "Every element exactly once, in order, in aligned columns; success iff all elements can be read; what can be written can be printed. The full claim is false for frame times of 5 to 7 bytes: C65_frame_time_size."
 },
 "C66": {
  "status": "proved",
  "note": "For ids without trailing white space (C66_trailing_blank shows the exception). UUIDs are inputs."
 },
 "C67": {
  "status": "partial",
  "note": "Proved for files all of whose TREs fit into their headers; C67_overflow_swaps proves that with overflow the TREs are exchanged."
 },
 "C68": {
  "status": "partial",
  "note": "Proved for loaded files whose TREs and user subheaders survive being written, with no TRE area left over and no overflow; C68_grows proves that with a leftover area every load and save adds a copy of the TREs."
 },
 "C69": {
  "status": "proved",
  "note": "Stated on the file read back. Graphic segments cannot have TREs that are read back (C52)."
 },
 "C70": {
  "status": "proved",
  "note": "write succeeds iff every part can be written and all lengths fit (C70_writes_iff); over-long data and over 999 segments raise"
 },
 "C71": {
  "status": "partial",
  "note": "Copies of interleaved images with several bands are written wrongly by the code; C71_interleaved characterises what is read, C71_wrong is the negation."
 },
 "C72": {
  "status": "partial",
  "note": "Proved for the documents the writer makes, in any object state (C72_written_read, C72_round_trip_partial). False for documents without namespace: nothing is read (C72_no_namespace)."
 },
 "C73": {
  "status": "partial",
  "note": "Proved for all files, handlers and contexts: result, log and context (C73_file, C73_segment, C73_object; default handlers C73_default_partial, C73_contexts). Missing because the code violates it: lines about user subheaders and the data of some DES name neither the segment nor, for CSATTA, the right class (C73_segment_not_named, C73_user_subheader_not_named)."
 },
 "C74": {
  "status": "partial",
  "note": "proved for all sessions as long as the memory map is not moved; the code loses the arrays of earlier images when it is (C74_moved)"
 },
 "C75": {
  "status": "partial",
  "note": "every session of creating, reading and setting proved; assigning data and merging deltas break the claim (negations for all states)"
 },
 "C76": {
  "status": "partial",
  "note": "With --quiet the log file lacks the verdict that files are the same, and a JSON configuration always fails; both negations are proved. Everything else holds for all options and results."
 },
 "C77": {
  "status": "partial",
  "note": "Default handlers can not be discarded from a comparison (deep copy) and deriving classes share or split their default sets depending on order; negations proved. Files, and classes that do not derive from one another, satisfy the claim for all programs."
 },
 "C78": {
  "status": "partial",
  "note": "The text is stated exactly, for all hooks. The claim fails for segments with TREs in no file, merged files, text that is not UTF-8 and the counts in a summary (negations proved)."
 },
 "C79": {
  "status": "partial",
  "note": "The exact condition for a clean comparison with a delta is proved for files without TRE overflow whose parts cover those of the base file and whose keys are different; outside of that the claim is false (C79_overflow, C79_removed). The hooks called for merged segments are not modelled; copies are parameters."
 },
 "C80": {
  "status": "partial",
  "note": "Proved: a file whose segments refer to no other living file is written as if it were alone, and nothing else changes (C80_alone_partial); after every session in which segments are appended only while they are in no file, the header describes the file and other files are unchanged (C80_session_partial). The claim is false for segments appended to a second file: C80_raises (general), C80_corrupted, C80_orphan, C80_other_changed (witnesses). State after an exception, hooks and two files having the same list object are not modelled."
 },
 "C81": {
  "status": "partial",
  "note": "Violated for lengths that do not fit: C81_stuck, for every file that can be written and any of its image, graphic and text segments. C81_untouched, C81_interrupted and C81_interrupted_often hold at every listed state without condition on the kind of failure (the last two need that unused TRE areas hold no stale overflow number, C81_stale). C81_retry_partial covers exchange of data, user subheaders and TREs of segments; assigning header fields, and adding or removing segments, between the attempts is not covered. One prepare_tre_write of a header counts as one step, and so does storing the user subheader and its length in a DES subheader: states inside them are not listed."
 },
 "C82": {
  "status": "partial",
  "note": "Holds for fields, values, raw bytes and writing of every element that is present, for all histories of the object; raw bytes of absent elements, outer indices out of range (C15) and old extra data of a DES are left over, as proved in the negations."
 },
 "C83": {
  "status": "partial",
  "note": "Writing, reading back, copying, refusing assignments, fields after update and the fallback are proved for all implementation classes; the fields of a DES, changed objects before update, truncated records and bytes that are not text violate the claim, as proved in the negations."
 },
 "C84": {
  "status": "partial",
  "note": "Proved for all histories of stores and files; iteration, deletion and pop of a present label raise (negations proved)"
 },
 "C85": {
  "status": "proved",
  "note": "Every field that is stored (computed and reserved fields have no stored value). The text of a floating point number is parsed by the parameter P.parse, its four byte form by P.unpack32. Python's int() of a str also accepts digits of other scripts; fields are Latin-1, so none arise in bytes."
 },
 "C86": {
  "status": "proved",
  "note": "Expressions of the forms used in the shipped tables (all of them are parsed into Expr). Ordering comparisons and arithmetic are on integers, & on non-negative integers; other operand types raise in the model."
 },
 "C87": {
  "status": "proved",
  "note": "All tables whose FieldData fields have type bytes (all shipped ones). The text of a floating point value is P.fixedWidth (C45) or P.fmt (C62); literals with a truncation size are C57."
 },
 "C88": {
  "status": "proved",
  "note": "Every written file is taken apart by a splitter that knows only the widths of the standard, into the header and the subheaders and data of the segments, nothing left over; and it starts with NITF02.10 if the header says so. Segments linked to the file and no literals in the header, as in C25."
 },
 "C89": {
  "status": "proved",
  "note": "Readers written from the format alone find all TREs of file, image and text segments in the written bytes, with those in overflow segments. Graphic segments: the area is found (C89_graphic), their overflow is C90."
 },
 "C90": {
  "status": "partial",
  "note": "False: the subheader never names the overflow segment (C90_lost, concrete file). C90_graphic: found are all TREs just if they fit into the subheader area; C90_fits_partial."
 },
 "C91": {
  "status": "proved",
  "note": "All written files are within the limits of the format; too many segments or too long data raise. Hypotheses as C88."
 },
 "C92": {
  "status": "partial",
  "note": "False: TREs of 9715 to 99995 bytes of a text segment (9739 to 99995, graphic) make the write raise (C92_text_raises, C92_graphic_raises). Proved: up to there the subheader fits."
 },
 "C93": {
  "status": "proved",
  "note": "For files read with the classes of pynitf registered (or classes of the user with tags that have no summary of their own). C93_counts assumes that the header has no negative numbers (a header may say -05; then no segments are read)."
 },
 "C94": {
  "status": "partial",
  "note": "Proved for the commands of the help text with indices in range on files that are not merged; the code ends the program on other commands and never uses files loaded under another alias (negations proved)."
 },
 "C95": {
  "status": "partial",
  "note": "Exact characterisation of the layouts that are read right (C95_right_iff, C95_taken); the code reads one-block pixel-interleaved images and blocks with fill wrong (negations proved)."
 },
 "C96": {
  "status": "proved",
  "note": "All subheaders, sizes, supported pixel types and numbers of bands; the raising cases as well."
 },
 "C97": {
  "status": "proved",
  "note": "images through write and read, all shapes and pixels; images loaded from any file; files made from scratch"
 },
 "C98": {
  "status": "proved",
  "note": "the six headers against the tables of MIL-STD-2500C, written and read"
 },
 "C99": {
  "status": "proved",
  "note": "fixed lengths and lengths by counts, written and read"
 },
 "C100": {
  "status": "proved",
  "note": "Files of new images without TREs: written if and only if within the limits; then length, reading and pixels."
 },
 "C101": {
  "status": "proved",
  "note": "files of new images and texts without TREs"
 },
 "C102": {
  "status": "partial",
  "note": "shows, always, same and default proved for all finite numbers and widths; the comparison with the default is proved for 0 <= n <= 10^(w-5) and w >= 8 and refuted by witnesses for negative numbers, larger numbers and shorter texts; the float nearest to 10^(5-w) is taken as the exact power"
 },
 "C103": {
  "status": "partial",
  "note": "exact conditions and all pixels for the mode that generates everything at once; in every other mode writing always raises, which is proved; numpy arithmetic on pixels is a parameter"
 },
 "C104": {
  "status": "partial",
  "note": "size, length field and subheader length proved for all written DES segments; above 9999 never written; from 9800 on every file raises, which refutes the last clause; up to 9799 only the length condition of the subheader is shown, not that all other fields of the file can be written"
 },
 "C105": {
  "status": "partial",
  "note": "length of every user subheader that can be written; from 271 elements on every file raises, which refutes the last clause; below, only the length condition is shown, not that all other fields of the file can be written"
 },
 "C106": {
  "status": "proved",
  "note": "for one segment and for whole files; classes stand for their descriptions"
 }
}