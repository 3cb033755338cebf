{"id": "C01", "title": "Field structures survive write then read", "statement": "If every value stored in a field structure (file header, subheader, TRE or field-based DES) is representable in its field, then reading back the bytes produced by write_to_file into a fresh structure of the same type succeeds and every field, at every loop index, returns the same value (or the same exception) as in the original.", "quantifier": "every table shipped in pynitf, every assignment of values to its fields (any loop counts, any conditions, any nesting), every float formatter", "why_tests_cant": "the number of combinations of loop counts, conditions and values is unbounded; tests exercise one or two instances per table", "anchors": ["pynitf/nitf_field.py:NitfField", "pynitf/nitf_field.py:NitfLoop", "pynitf/nitf_field.py:FieldStruct.write_to_file", "pynitf/nitf_field.py:FieldStruct.read_from_file"]}
{"id": "C02", "title": "Literal read then write reproduces the input bytes", "statement": "Reading a field structure with nitf_literal=True and writing it again yields exactly the bytes consumed by the read, whatever odd formatting they contain.", "quantifier": "every shipped table and every byte string on which the read succeeds", "why_tests_cant": "byte strings are unbounded and the property concerns exactly the unusual ones nobody thought of", "anchors": ["pynitf/nitf_field.py:NitfLiteral", "pynitf/nitf_field.py:NitfField.bytes", "pynitf/nitf_field.py:NitfField.read_from_file"]}
{"id": "C03", "title": "A read consumes exactly the bytes its structure describes", "statement": "Reading a structure from a stream that starts with the serialisation of a structure consumes exactly those bytes, whatever follows, so structures laid end to end are read back one after another.", "quantifier": "every shipped table, every content, every following byte sequence", "why_tests_cant": "requires quantifying over arbitrary trailing data and content", "anchors": ["pynitf/nitf_field.py:NitfLoop.read_from_file", "pynitf/nitf_field.py:NitfLoop.write_to_file"]}
{"id": "C04", "title": "Fixed width: a value either fills exactly its field or the write fails", "statement": "Whenever a structure is written, every field instance contributes exactly the number of bytes its size expression specifies; a value whose text does not fit raises an exception, so no value is ever truncated and no later field is ever shifted.", "quantifier": "every table, every value of every field, every formatter", "why_tests_cant": "overflow at a width boundary happens for values no test uses", "anchors": ["pynitf/nitf_field.py:NitfField._format_val", "pynitf/nitf_field.py:NitfField.bytes"]}
{"id": "C05", "title": "Truncated input is never accepted", "statement": "If reading a structure from a byte string succeeds and consumes n bytes, reading the same structure from any proper prefix shorter than n bytes raises.", "quantifier": "every table, every byte string, every truncation point", "why_tests_cant": "the number of truncation points and contents is unbounded", "anchors": ["pynitf/nitf_field.py:NitfField.read_from_file"]}
{"id": "C06", "title": "Raw bytes accessor returns the file's own bytes", "statement": "After a read, get_raw_bytes(name, key) of a field returns exactly the slice of the input occupied by that field; once the field is assigned it returns the bytes that would be written instead.", "quantifier": "every table, every input, every field and index", "why_tests_cant": "needs all inputs, in particular ones whose text is not what the formatter would produce", "anchors": ["pynitf/nitf_field.py:NitfField.get_raw_bytes", "pynitf/nitf_field.py:FieldStruct.get_raw_bytes"]}
{"id": "C07", "title": "In-place update of a field equals re-serialising the structure", "statement": "update_field on a structure that has just been written rewrites exactly the bytes of that field, at the place it was written, and the resulting file content equals writing the whole structure again with the new value, provided no size, loop count or condition depends on the field; the file position is unchanged.", "quantifier": "every table, every content, every such field and index, every new value that fits, any data following in the file", "why_tests_cant": "off-by-one in recorded locations only shows up with particular loop shapes", "anchors": ["pynitf/nitf_field.py:NitfField.update_file", "pynitf/nitf_field.py:FieldStruct.update_field"]}
{"id": "C08", "title": "Integer fields round-trip or raise", "statement": "An integer assigned to an n byte integer field is read back unchanged from the written bytes if its decimal representation (with sign) fits in n characters, and the write raises otherwise; integers of any sign are never silently changed.", "quantifier": "every integer and every field width", "why_tests_cant": "unbounded range of integers and widths", "anchors": ["pynitf/nitf_field.py:NitfField._format_val", "pynitf/nitf_field.py:NitfField.read_from_file"]}
{"id": "C09", "title": "String fields round-trip up to trailing blanks", "statement": "A string assigned to an n byte string field is read back with trailing white space removed and otherwise unchanged when it fits and is Latin-1 encodable; longer strings and non Latin-1 strings raise at write time.", "quantifier": "every string (any code points) and every field width", "why_tests_cant": "unbounded set of strings, including code points where str and bytes stripping differ", "anchors": ["pynitf/nitf_field.py:NitfField._format_val", "pynitf/nitf_field.py:NitfField.__getitem__"]}
{"id": "C10", "title": "Optional fields: None and the fill pattern correspond exactly", "statement": "For an optional field, None is written as the fill character repeated over the field and read back as None; a field content is read as None exactly when it consists only of the fill character and blanks. An element that was never set has the default of its field; without one, an optional element is None (and written as fill), any other is zero or the empty text.", "quantifier": "every optional field definition, every fill character, every content", "why_tests_cant": "needs all contents; mixed fill and blank contents are easy to miss", "anchors": ["pynitf/nitf_field.py:NitfField.__getitem__", "pynitf/nitf_field.py:NitfField.read_from_file", "pynitf/nitf_field.py:NitfField.bytes"]}
{"id": "C11", "title": "Conditional fields are absent exactly when their condition is false", "statement": "When a field's condition is false for the current values, reading the field gives None, writing the structure emits no bytes for it, reading the structure consumes none, and assigning to it raises and leaves the structure unchanged.", "quantifier": "every table, every state of the structure, every field and index", "why_tests_cant": "conditions depend on arbitrary combinations of other fields", "anchors": ["pynitf/nitf_field.py:NitfField.check_condition", "pynitf/nitf_field.py:NitfField.__setitem__"]}
{"id": "C12", "title": "Assignment is visible and local", "statement": "After a successful assignment to a field, reading that field and index returns the assigned value (as its field type), and the stored value of every other field and index is unchanged, except the length field that a variable-size data field maintains.", "quantifier": "every table, every state, every field, index and value", "why_tests_cant": "frame conditions quantify over all other fields and all states", "anchors": ["pynitf/nitf_field.py:NitfField.__setitem__", "pynitf/nitf_field.py:FieldStruct.__setattr__"]}
{"id": "C13", "title": "Variable-length data keeps its length field consistent", "statement": "Assigning bytes to a variable-length data field whose length lives in another field leaves the structure such that the declared size of the data field equals the length of the data, including the 3 byte overflow-counter offset of TRE areas and the empty case; a fixed-size data field rejects data of any other length.", "quantifier": "every byte string, every state of the structure", "why_tests_cant": "the offset makes 0 a special case; lengths are unbounded", "anchors": ["pynitf/nitf_field.py:NitfField._set_size", "pynitf/nitf_field.py:NitfField.size", "pynitf/nitf_field.py:NitfField.__setitem__"]}
{"id": "C14", "title": "Binary integers round-trip in every width and signedness", "statement": "For binary integer fields of 1,2,3,4 and 8 bytes, signed or unsigned, pack followed by unpack is the identity on the representable range, unpack followed by pack is the identity on all byte strings of that width, and values outside the range or other widths raise.", "quantifier": "every integer, every width, both signednesses", "why_tests_cant": "2^64 values per width", "anchors": ["pynitf/nitf_field.py:IntFieldData.pack", "pynitf/nitf_field.py:IntFieldData.unpack"]}
{"id": "C15", "title": "Out-of-range loop indices are rejected", "statement": "Accessing a looped field with an index outside the loop's current shape raises IndexError instead of returning or storing a value.", "quantifier": "every table, every state, every index tuple", "why_tests_cant": "index tuples and shapes are unbounded", "anchors": ["pynitf/nitf_field.py:NitfLoop.check_index"]}
{"id": "C16", "title": "Copying a structure preserves it", "statement": "copy.deepcopy and pickling of a field structure whose values are representable give a structure with the same field values that writes the same bytes, and copying a copy changes nothing further.", "quantifier": "every shipped table, every representable content", "why_tests_cant": "copy is implemented by write and read, so it inherits the unbounded space of C01", "anchors": ["pynitf/nitf_field.py:FieldStruct.__deepcopy__", "pynitf/nitf_field.py:FieldStruct.__getstate__", "pynitf/nitf_field.py:FieldStruct.__setstate__"]}
{"id": "C17", "title": "Hard-coded, computed and reserved fields cannot be assigned", "statement": "Assigning to a field marked hardcoded_value or computed from other fields always raises and changes nothing; such fields can only change through reading a file.", "quantifier": "every table, every state, every value", "why_tests_cant": "quantifies over all states and histories of assignments", "anchors": ["pynitf/nitf_field.py:NitfField.__setitem__"]}
{"id": "C18", "title": "Shipped tables are well formed", "statement": "In every shipped table, every size, loop count and condition expression refers only to fields that appear earlier in the record and that are visible at the loop index in use, and distinct fields have distinct names so that each value in the record is reachable by name.", "quantifier": "every field of every shipped table", "why_tests_cant": "needs an exhaustive check of all expressions of all tables together with the theorem that this implies C01-C05", "anchors": ["pynitf/nitf_tre_sensrb.py:desc", "pynitf/nitf_des_cscsdb.py:desc", "pynitf/nitf_field.py:NitfLoop.__init__"]}
{"id": "C19", "title": "A single TRE survives write then read", "statement": "A TRE is written as its 6 character tag, a 5 digit length and its body; reading it back yields the same tag and body and consumes exactly those bytes; a body over 99999 bytes raises; a known TRE whose declared length differs from what its fields consume is rejected by its class.", "quantifier": "every TRE table and unknown TRE, every content", "why_tests_cant": "bodies and tags are unbounded", "anchors": ["pynitf/nitf_tre.py:Tre.write_to_file", "pynitf/nitf_tre.py:Tre.read_from_file", "pynitf/nitf_tre.py:TreUnknown"]}
{"id": "C20", "title": "A TRE area parses back into the same sequence of TREs", "statement": "read_tre_data applied to the concatenation of the serialisations of a list of TREs returns that list in order: known TREs with the same field values, unknown ones byte for byte.", "quantifier": "every finite list of TREs (known and unknown, any content)", "why_tests_cant": "lists are unbounded; framing errors appear only for particular sequences", "anchors": ["pynitf/nitf_tre.py:read_tre_data", "pynitf/nitf_tre.py:TreTagToCls.tre_object"]}
{"id": "C21", "title": "No TRE data is lost when a TRE cannot be interpreted", "statement": "If a known TRE cannot be parsed by its class, read_tre_data keeps it as an unknown TRE with its exact bytes and continues with the next TRE; writing the resulting list reproduces the input area byte for byte for unknown TREs.", "quantifier": "every TRE area whose framing (tags and lengths) is intact, any body content", "why_tests_cant": "malformed bodies are unbounded in number", "anchors": ["pynitf/nitf_tre.py:read_tre_data", "pynitf/nitf_tre.py:TreUnknown.read_from_file"]}
{"id": "C22", "title": "TRE placement respects field capacity and loses nothing", "statement": "When TREs are distributed over the header areas and the overflow segment, each TRE is placed whole in exactly one place, no header area exceeds what its 5 digit length field can hold including the 3 byte overflow counter, and the concatenation of all places holds exactly the TREs of the list.", "quantifier": "every list of TREs of any sizes, one or two header areas", "why_tests_cant": "first-fit packing depends on the exact sequence of sizes", "anchors": ["pynitf/nitf_tre.py:prepare_tre_write"]}
{"id": "C23", "title": "Segment TREs survive write then read", "statement": "After prepare_tre_write, read_tre on the header and DES list returns the same TREs: the same list, in the same order, whenever everything fits into the first header area, and a rearrangement of the list (nothing lost, nothing duplicated) when the other areas or an overflow segment are used.", "quantifier": "every list of TREs, any state of the header before the call", "why_tests_cant": "stale header contents from earlier reads or writes are part of the quantification", "anchors": ["pynitf/nitf_tre.py:prepare_tre_write", "pynitf/nitf_tre.py:read_tre"]}
{"id": "C24", "title": "Removing all TREs removes them from the file", "statement": "If a header's TRE list is emptied (or no longer uses one of the areas), the header written next contains no TREs in that area.", "quantifier": "every previous header content", "why_tests_cant": "depends on history: what an earlier read or write left in the header", "anchors": ["pynitf/nitf_tre.py:prepare_tre_write"]}
{"id": "C25", "title": "The written file's length fields describe the file", "statement": "In a file produced by NitfFile.write, the file length field equals the total number of bytes, the header length field equals the length of the header, and for every segment the subheader length and data length fields equal the bytes actually written for it, in the order image, graphic, text, DES, RES, so that the lengths add up to the file length.", "quantifier": "every file content: any numbers of segments, any subheaders, TREs and data", "why_tests_cant": "sums over unboundedly many segments of any size", "anchors": ["pynitf/nitf_file.py:NitfFile.write", "pynitf/nitf_segment.py:NitfSegment.write_to_file", "pynitf/nitf_segment.py:NitfSegment._update_file_header"]}
{"id": "C26", "title": "A file survives write then read", "statement": "Reading a written file gives back the same number of segments of each kind in the same order, each with the same subheader field values, data bytes and TREs, and the same file-level values and TREs.", "quantifier": "every file content whose values are representable", "why_tests_cant": "end-to-end composition over unbounded content", "anchors": ["pynitf/nitf_file.py:NitfFile.read", "pynitf/nitf_file.py:NitfFile.write", "pynitf/nitf_segment.py:NitfSegment.read_from_file"]}
{"id": "C27", "title": "Writing twice gives the same file and leaves no overflow segments", "statement": "NitfFile.write leaves no TRE_OVERFLOW segment in the in-memory DES list, and writing the same object again produces the identical byte sequence.", "quantifier": "every file content, any number of writes", "why_tests_cant": "the write mutates the header; repetition is a history property", "anchors": ["pynitf/nitf_file.py:NitfFile.write"]}
{"id": "C28", "title": "Segments are enumerated in file order with per-kind indices", "statement": "segments(include_seg_index=True) yields each segment exactly once, in the order image, graphic, text, DES, RES, with an index counting from 0 within each kind.", "quantifier": "every combination of segment lists", "why_tests_cant": "list lengths are unbounded", "anchors": ["pynitf/nitf_file.py:NitfFile.segments"]}
{"id": "C29", "title": "Segments appended to a file that was read are written with correct lengths", "statement": "After NitfFile.read, appending a segment to one of the segment lists and writing gives a file whose header describes the appended segment.", "quantifier": "every file read, every appended segment", "why_tests_cant": "history property: read, then append, then write", "anchors": ["pynitf/nitf_file.py:NitfFile.read", "pynitf/nitf_file.py:ListNitfFileReference", "pynitf/nitf_segment.py:NitfSegment.write_to_file"]}
{"id": "C30", "title": "Handler dispatch is by priority and independent of registration order", "statement": "A handler set returns the result of the unique handler that accepts the arguments at the highest priority at which any handler accepts; it raises if that priority has two acceptors or if no handler accepts; the outcome does not depend on the order in which handlers were added or the iteration order of the sets.", "quantifier": "every set of handlers and priorities, every acceptance behaviour, every iteration order", "why_tests_cant": "hash iteration order is not under test control", "anchors": ["pynitf/priority_handle_set.py:PriorityHandleSet.handle"]}
{"id": "C31", "title": "Handler sets: add, discard, clear and copy behave as sets", "statement": "Membership, length and iteration agree with the abstract set of (handler, priority) pairs after any sequence of add, discard and clear; iteration is by decreasing priority; a copy is equal to the original and later changes to either do not affect the other.", "quantifier": "every sequence of operations", "why_tests_cant": "histories are unbounded", "anchors": ["pynitf/priority_handle_set.py:PriorityHandleSet"]}
{"id": "C32", "title": "Security settings round-trip through every header", "statement": "Setting the security information of a file header or subheader and reading it back returns the same value for every attribute the header stores, and two security objects compare equal only if all those attributes agree.", "quantifier": "every security object, every header kind", "why_tests_cant": "19 free-form attributes times 6 header kinds", "anchors": ["pynitf/nitf_security.py:NitfSecurity"]}
{"id": "C33", "title": "Band count survives the NBANDS/XBANDS split", "statement": "Setting number_band to n (at least 1) and reading it back gives n, with 1-9 stored in NBANDS and larger counts in XBANDS, and looped band fields have exactly n entries; counts that do not fit raise at write.", "quantifier": "every band count from 1 on, every previous header state", "why_tests_cant": "boundary at 10, unbounded counts", "anchors": ["pynitf/nitf_image_subheader.py:NitfImageSubheader.number_band"]}
{"id": "C34", "title": "Pixel type mapping is lossless up to byte order", "statement": "Setting dtype to any supported numpy type and reading it back gives that type in big-endian byte order, unsupported types raise and leave the header unchanged, and distinct types up to byte order are never confused.", "quantifier": "every supported and unsupported data type, every previous header state", "why_tests_cant": "the mapping has to be injective across all types", "anchors": ["pynitf/nitf_image_subheader.py:NitfImageSubheader.dtype"]}
{"id": "C35", "title": "Pixel-interleaved image data is addressed correctly", "statement": "For image data written one row at a time with pixels interleaved, and for band-sequential data, reading element [band,line,sample] from the file through the reader's strides returns the value written for that band, line and sample; different elements never share bytes and the elements exactly tile the data.", "quantifier": "every shape (bands, rows, columns), item size and every index", "why_tests_cant": "index arithmetic over all shapes", "anchors": ["pynitf/nitf_image.py:NitfImageReadNumpy.read_from_file", "pynitf/nitf_image.py:NitfImageWriteDataOnDemand.write_to_file"]}
{"id": "C36", "title": "Chunked copy of image data is exact", "statement": "Writing an image that was only skipped over during reading copies exactly the data_size bytes of the source starting at the recorded position, for any size relative to the copy buffer.", "quantifier": "every source file, offset and size", "why_tests_cant": "loop boundary cases at multiples of the buffer size", "anchors": ["pynitf/nitf_image.py:NitfImagePlaceHolder.write_to_file"]}
{"id": "C37", "title": "Corner coordinates round-trip through IGEOLO", "statement": "Geographic corner coordinates written to IGEOLO and read back differ by at most half a second of arc, with the same hemisphere, in every quadrant; the encoded text always has minutes and seconds below 60 and exactly 60 characters.", "quantifier": "every coordinate in range", "why_tests_cant": "rounding carries (59.9 seconds) and hemisphere signs over a continuum of values", "anchors": ["pynitf/nitf_image_subheader.py:nitf_encode_dms_loc", "pynitf/nitf_image_subheader.py:nitf_write_igeolo", "pynitf/nitf_image_subheader.py:nitf_read_igeolo"]}
{"id": "C38", "title": "UTM corner coordinates round-trip through IGEOLO", "statement": "UTM corners accepted by the writer are read back as the same zone, easting and northing (floored to metres) and the text has exactly 60 characters.", "quantifier": "every zone, easting and northing accepted", "why_tests_cant": "width boundaries between 6 and 7 digit values", "anchors": ["pynitf/nitf_image_subheader.py:nitf_write_igeolo", "pynitf/nitf_image_subheader.py:nitf_read_igeolo"]}
{"id": "C39", "title": "Associated display levels and element ids form an ordered set", "statement": "add_display_level and add_assoc_elem_id append a new entry once, are idempotent, keep the order of first addition, and keep the stored count equal to the number of entries.", "quantifier": "every sequence of additions", "why_tests_cant": "histories are unbounded", "anchors": ["pynitf/nitf_des_associated_user_subheader.py:_add_display_level", "pynitf/nitf_des_associated_user_subheader.py:_add_assoc_elem_id"]}
{"id": "C40", "title": "TRE lookup by tag", "statement": "find_tre returns exactly the TREs with the tag in order; find_one_tre returns None, the TRE, or raises according to whether there are zero, one or more; find_exactly_one_tre raises unless there is exactly one.", "quantifier": "every TRE list and tag", "why_tests_cant": "lists are unbounded", "anchors": ["pynitf/nitf_tre.py:_find_tre", "pynitf/nitf_tre.py:_find_one_tre", "pynitf/nitf_tre.py:_find_exactly_one_tre"]}
{"id": "C41", "title": "ENGRDA acts as a dictionary", "statement": "After any sequence of add_or_update calls the ENGRDA TRE behaves as an insertion-ordered dictionary from label to (data, units): lookup returns the last value stored under the label, other labels are untouched, and the number of entries is the number of distinct labels.", "quantifier": "every sequence of updates, labels, data", "why_tests_cant": "histories are unbounded and update in place reuses record slots", "anchors": ["pynitf/nitf_tre_engrda.py:TreENGRDA.add_or_update", "pynitf/nitf_tre_engrda.py:TreENGRDA.__getitem__"]}
{"id": "C42", "title": "Merged files take each part from the first file that has it", "statement": "For every part (header, each segment list, TRE list) a merged file returns the part of the first file in the list where it is non-empty, and an empty result if none has it; merging is insensitive to files after the first non-empty one.", "quantifier": "every list of files", "why_tests_cant": "lists are unbounded", "anchors": ["pynitf/nitf_file_merge.py:NitfFileMerge"]}
{"id": "C43", "title": "Structure comparison reports exactly the relevant differences", "statement": "Comparing two structures of the same table reports them the same if and only if all fields that are not excluded (and are included when an include list is given, and are not warn-only) agree in shape and in every element under the field's comparison function; in particular a structure always compares equal to itself.", "quantifier": "every pair of structures, every configuration", "why_tests_cant": "pairs of structures with arbitrary loop shapes are unbounded", "anchors": ["pynitf/nitf_field.py:FieldStructDiff.compare_obj", "pynitf/nitf_field.py:FieldStructDiff._cmp_nitf_field"]}
{"id": "C44", "title": "File comparison is sound", "statement": "Comparing two files reports equality only if the headers and, kind by kind, the non-skipped TREs and segments agree pairwise and the counts are equal; a single differing element anywhere is never masked by later equal ones.", "quantifier": "every pair of files, every handler outcome", "why_tests_cant": "accumulating a boolean over unbounded lists", "anchors": ["pynitf/nitf_file_diff.py:NitfFileHandle.handle_diff", "pynitf/nitf_file_diff.py:SegmentDiff.handle_diff"]}
{"id": "C45", "title": "float_to_fixed_width uses the most precise fixed-point text that fits", "statement": "float_to_fixed_width(n, w) returns text of length at most w with the largest number of decimals that fits, so the written value differs from n by at most half a unit of the last decimal shown; if not even zero decimals fit it raises.", "quantifier": "every number and width", "why_tests_cant": "continuum of values; rounding can lengthen the integer part", "anchors": ["pynitf/nitf_field.py:float_to_fixed_width"]}
{"id": "C46", "title": "Content headers round-trip", "statement": "The content header block of an EXT_DEF_CONTENT DES, written from its attributes and parsed again, yields the same attribute values.", "quantifier": "every assignment of byte strings to the attributes", "why_tests_cant": "delimiters may occur inside values", "anchors": ["pynitf/nitf_des_ext_def_content.py:DesExtContentHeader"]}
{"id": "C47", "title": "Delayed reads are indistinguishable from immediate reads", "statement": "A structure read with delayed_read=True gives the same field values, and writes the same bytes, as one read immediately, whatever operations are performed first.", "quantifier": "every structure, every sequence of get, set and write operations", "why_tests_cant": "the bug class is an operation order; histories are unbounded", "anchors": ["pynitf/nitf_field.py:FieldStruct.__getattr__", "pynitf/nitf_field.py:FieldStruct.read_from_file"]}
{"id": "C48", "title": "Option lookup and typing of command line values", "statement": "Attribute lookup on parsed options tries name, <name>, --name and --na-me in that order; text that looks like an integer or a float is returned as that number and every other text is returned unchanged.", "quantifier": "every option dictionary, every name and text", "why_tests_cant": "unbounded strings; the classification is by regular expression", "anchors": ["pynitf/docopt_simple.py:DocOptSimple.__getattr__"]}
{"id": "C49", "title": "Image segment lookup", "statement": "iseg_by_idlvl returns the first image segment with the display level or raises KeyError; iseg_by_iid1 returns all matches in order; iseg_by_iid1_single returns the unique match, raising for none or several.", "quantifier": "every list of image segments", "why_tests_cant": "lists are unbounded", "anchors": ["pynitf/nitf_file.py:NitfFile.iseg_by_idlvl", "pynitf/nitf_file.py:NitfFile.iseg_by_iid1", "pynitf/nitf_file.py:NitfFile.iseg_by_iid1_single"]}
{"id": "C50", "title": "JSON delta segments are matched by unique primary key", "statement": "A delta segment without own data takes its data from the base segment with the same primary key exactly when there is one such segment, and raises otherwise.", "quantifier": "every segment list and key", "why_tests_cant": "lists with repeated keys are unbounded", "anchors": ["pynitf/nitf_file_json.py:NitfSegmentJson.notify_segment_merge"]}
{"id": "C51", "title": "Segment hooks: every hook runs once and TRE printing stops at the first taker", "statement": "For each event every registered hook is called exactly once per segment; for TRE printing, hooks suppressed by raw reporting are not called, and the result is true exactly if some called hook handled the TRE.", "quantifier": "every hook set, every iteration order", "why_tests_cant": "set iteration order is not under test control", "anchors": ["pynitf/nitf_segment_hook.py:NitfSegmentHookSet"]}
{"id": "C52", "title": "Graphic segment TREs are readable", "statement": "Reading a file with a graphic segment whose extended subheader holds TREs returns those TREs.", "quantifier": "every graphic segment content", "why_tests_cant": "no shipped test file has graphic TREs", "anchors": ["pynitf/nitf_segment.py:NitfGraphicSegment", "pynitf/nitf_graphic_subheader.py:desc"]}
{"id": "C53", "title": "Associated elements are found in id order", "statement": "assoc_elem(f) returns one entry per associated id, in the order of the ids; the entry is the last CSEXRB TRE of the file's images whose image_uuid is the id, otherwise the last DES of the file with that id, otherwise None.", "quantifier": "every list of ids, DES and TREs", "why_tests_cant": "files with arbitrary numbers of DES and TREs sharing ids", "anchors": ["pynitf/nitf_des_associated_user_subheader.py:_assoc_elem"]}
{"id": "C54", "title": "Enumerating a field gives exactly its elements", "statement": "items(), values() and to_list() of a field list exactly the elements whose indices are all within the loops around the field, each once, in row-major order, with the same value that indexed access gives; items() of a struct lists every field name once, in table order.", "quantifier": "every description table, every struct state, every field", "why_tests_cant": "nested loop counts and conditions depend on the data; tests see a few shapes", "anchors": ["pynitf/nitf_field.py:NitfLoop.keys", "pynitf/nitf_field.py:NitfField.items", "pynitf/nitf_field.py:NitfField.to_list", "pynitf/nitf_field.py:FieldStruct.items"]}
{"id": "C55", "title": "What is written or read of a field are exactly its present elements", "statement": "Writing emits, for every field, exactly the enumerated elements whose condition holds, each once and in order, and nothing else; reading consumes exactly the bytes of the elements the resulting struct enumerates and has.", "quantifier": "every description table, every struct state, every input", "why_tests_cant": "an element written twice or skipped in an unusual loop shape passes all tests with other shapes", "anchors": ["pynitf/nitf_field.py:NitfLoop.write_to_file", "pynitf/nitf_field.py:NitfLoop.read_from_file", "pynitf/nitf_field.py:NitfField.write_to_file"]}
{"id": "C56", "title": "A literal goes into the file as it is", "statement": "A NitfLiteral assigned to a field of w bytes is written unchanged, padded with blanks to w bytes, and refused when writing if it is longer; the field reads as the literal converted to the field type (None if optional and only fill), which for fields of text or numbers is also what is read back from the file (in a field of raw bytes the blanks belong to the value); nothing else changes, and a refused assignment changes nothing.", "quantifier": "every table, state, field, index and literal", "why_tests_cant": "all byte strings, sizes and field types", "anchors": ["pynitf/nitf_field.py:NitfLiteral", "pynitf/nitf_field.py:NitfField.bytes", "pynitf/nitf_field.py:NitfField.__getitem__", "pynitf/nitf_field.py:NitfField.__setitem__"]}
{"id": "C57", "title": "A literal with a truncation size keeps what fits", "statement": "NitfLiteral(value, trunc_size) holds the first trunc_size bytes of value, the whole value if it is not longer than that.", "quantifier": "every value and size", "why_tests_cant": "boundary between sizes", "anchors": ["pynitf/nitf_field.py:NitfLiteral.__init__"]}
{"id": "C58", "title": "An object is restored from its state", "statement": "The state of a struct or TRE (what pickling, and thus the JSON delta, stores) is printable ASCII text for every content; restoring from it gives an object with the same field values (tag included for a TRE), exactly as copying does; a copy of a TRE is the same TRE.", "quantifier": "every byte content, table and state; known and unknown TREs", "why_tests_cant": "all byte strings (quotes, escapes, control and non-ASCII bytes)", "anchors": ["pynitf/nitf_field.py:FieldStruct.__getstate__", "pynitf/nitf_field.py:FieldStruct.__setstate__", "pynitf/nitf_field.py:FieldStruct.__deepcopy__", "pynitf/nitf_tre.py:TreUnknown"]}
{"id": "C59", "title": "A copy of text data is the same text", "statement": "Copying or pickling the data of a text segment keeps its string and the bytes that are written; text given as str is written as bytes that decode to it.", "quantifier": "every text, given as str or bytes", "why_tests_cant": "all Unicode texts and byte strings", "anchors": ["pynitf/nitf_text.py:NitfTextStr.string_as_str", "pynitf/nitf_text.py:NitfTextStr.string_as_bytes", "pynitf/nitf_text.py:NitfTextStr.__getstate__", "pynitf/nitf_text.py:NitfTextStr.__setstate__"]}
{"id": "C60", "title": "A delta keeps everything but the large data", "statement": "The JSON delta made of a file has the same TREs, and headers with the same fields except that the TRE areas are empty; it has an entry for every image, text and DES segment except TRE overflows, in order, with the same user subheader and primary key; texts and DES made of fields carry a copy of their data, and the others, when the delta is merged with the file, get the data of the segment they were made from if its key is unique.", "quantifier": "every file whose parts can be written and read back", "why_tests_cant": "all combinations of segments, TREs and field values; interaction of cleared areas with dependent fields", "anchors": ["pynitf/nitf_file_json.py:NitfFileJson.create_delta", "pynitf/nitf_file_json.py:NitfSegmentJson.create_delta", "pynitf/nitf_file_json.py:NitfSegmentJson.notify_segment_merge", "pynitf/nitf_segment.py:NitfSegment.primary_key"]}
{"id": "C61", "title": "The data of DES, text and raw segments survives, or is refused", "statement": "A DES whose data are fields is read only by the class registered for its desid, only if the fields take up exactly the data of its segment, and what is written is read back with the same values (and bytes after the fields where the class keeps them); text and raw data come back byte for byte; data no class can read is skipped exactly, and a file containing it is never written with other data. Copying or printing a DES leaves its values as they are. (Violated: copying loses the bytes after the fields; printing a DES of changed length raises, and printing can change an empty optional text.)", "quantifier": "every DES class, values, registered set, order of the set, and bytes", "why_tests_cant": "sizes are data dependent; the handler order is that of a Python set; printing writes and reads the object again", "anchors": ["pynitf/nitf_des.py:NitfDesFieldStruct.read_from_file", "pynitf/nitf_des.py:NitfDesFieldStruct.write_to_file", "pynitf/nitf_des.py:NitfDesFieldStruct.update_raw_field", "pynitf/nitf_des.py:NitfDesFieldStruct.__str__", "pynitf/nitf_text.py:NitfTextStr", "pynitf/nitf_segment_data_handle.py:NitfDataPlaceHolder", "pynitf/nitf_segment_data_handle.py:NitfSegmentDataHandleSet.handle_h"]}
{"id": "C62", "title": "Floats in formatted fields: rounded once, never cut", "statement": "Writing a float into a field with a printf format, the RPC coefficient format or no format either raises or fills the field exactly with text that stands for a number with the sign of the value, off by at most half a unit of the last digit (coefficients below 1e-9 are written as zero; without a format as many decimals as fit are written). It raises exactly if the number with its sign, digits and exponent does not fit. Every float field of every shipped table has one of these formats with room for it. The number read back is written as the very same characters: only the first write rounds. (Finding: the formats of the SENSRB distortion coefficients leave no room for a minus sign, so no negative coefficient can be written; focal lengths of 10 or more cannot be written.)", "quantifier": "every float field of every shipped table, every finite value (for the second write: zero or magnitudes 1e-249 to 1e249, quaternion components up to 4)", "why_tests_cant": "carries in rounding, exponents that get longer and widths at the limit occur for few values; the second write depends on decimal to binary rounding of every value", "anchors": ["pynitf/nitf_field.py:NitfField._format_val", "pynitf/nitf_field.py:float_to_fixed_width", "pynitf/nitf_field.py:NitfField.bytes", "pynitf/nitf_tre_rpc.py:_tre_rpc_coeff_format", "pynitf/nitf_tre_sensrb.py"]}
{"id": "C63", "title": "Write, read, write: the second write changes nothing", "statement": "If a record of any shipped kind holds values (no NitfLiteral) and can be written, reading its bytes succeeds and consumes exactly them, and writing what was read gives the same bytes again: floats are rounded and blank text in optional fields becomes None on the first trip only. All other fields keep their values. (Violated: text of dashes only in the optional SENSRB fields filled with dashes is written with blanks first and with dashes the second time.)", "quantifier": "every shipped table, every struct of values in the range of C62, every loop count and condition", "why_tests_cant": "values are rounded on the first trip, so comparing values needs tolerances, and any float field could drift; conditions and sizes could see the changed value", "anchors": ["pynitf/nitf_field.py:FieldStruct.write_to_file", "pynitf/nitf_field.py:FieldStruct.read_from_file", "pynitf/nitf_field.py:NitfField.bytes", "pynitf/nitf_field.py:NitfField.read_from_file", "pynitf/nitf_tre_sensrb.py"]}
{"id": "C64", "title": "External content DES: content and announced length", "statement": "A DES with external content that is written and read back has exactly the content and header values written; the header Content-Length is the number of content bytes; HDF5 content is read by DesEXT_h5 and everything else by DesEXT_DEF_CONTENT; writing the object read gives the same bytes. (Violated: content other than HDF5 is replaced by zero bytes when a file is read and written; Content-Length is the length at the time the file was attached, is not updated when a DES that was read gets another file, and is the text None for a DES without a size.)", "quantifier": "every content, every state of the attached file, every sequence of attaching files and setting header values, every header value the block can carry", "why_tests_cant": "the content comes from a file that can change between attaching and writing, and the fallback class only shows its behaviour for content kinds not in the test data", "anchors": ["pynitf/nitf_des_ext_def_content.py:DesEXT_DEF_CONTENT", "pynitf/nitf_des_ext_def_content.py:DesEXT_h5", "pynitf/nitf_des_ext_def_content.py:DesExtDefContentDiff"]}
{"id": "C65", "title": "Printing a record", "statement": "str(record) shows every element of every named field exactly once, with the value it has or 'Not used', fields in the order of the description and elements in the order of items(), one line per element, indented by the number of loops and with the values of one loop in one column. A record of values that can be written can be printed. (Violated: CSEXRB and MTIMSA records with frame times of 5, 6 or 7 bytes can be read and written back but not printed; their frame times cannot be accessed.)", "quantifier": "every description, every state of the record, every loop count and condition", "why_tests_cant": "tests compare the text of a few records; widths, loops and conditions vary with the data", "anchors": ["pynitf/nitf_field.py:NitfLoop.print_to_fh", "pynitf/nitf_field.py:NitfField.get_print", "pynitf/nitf_field.py:FieldStruct.__str__", "pynitf/nitf_field.py:IntFieldData.unpack"]}
{"id": "C66", "title": "DES associated with a CSEXRB TRE", "statement": "add_assoc_elem_id and add_assoc_elem of a CSEXRB TRE append a new id once, keep the order of first addition and keep num_assoc_des equal to the number of ids; an object without a UUID is given one that it then keeps, an object that cannot have one raises RuntimeError and changes nothing. assoc_elem(f) returns one entry for each id in order: the last DES of the file with that id or None; so DES that are added to a new TRE and are in the file with ids of their own are returned exactly once, in the order of first addition. Ids have no trailing white space.", "quantifier": "every sequence of additions of every set of objects, every state of the TRE, every list of DES", "why_tests_cant": "histories and numbers of DES are unbounded", "anchors": ["pynitf/nitf_tre_csexrb.py:TreCSEXRB.add_assoc_elem_id", "pynitf/nitf_tre_csexrb.py:TreCSEXRB.add_assoc_elem", "pynitf/nitf_tre_csexrb.py:TreCSEXRB.assoc_elem", "pynitf/nitf_tre_csexrb.py:TreCSEXRB.generate_uuid_if_needed"]}
{"id": "C67", "title": "Load then save gives the same bytes", "statement": "Reading a file that the library wrote and writing the object read, without any change, produces the same bytes, and leaves the object with the same values in its file header, segments and TREs. When the TREs of a header overflow into a TRE_OVERFLOW segment this fails: the overflow is read first, so saving moves the TREs.", "quantifier": "every file object that can be written and read back, every number of segments and TREs, every registry of TREs and every set of handlers that write data that was read as the bytes it came from", "why_tests_cant": "the contents, numbers and sizes of segments and TREs are unbounded, and the saved bytes depend on how every TRE is placed again", "anchors": ["pynitf/nitf_file.py:NitfFile.read", "pynitf/nitf_file.py:NitfFile.write", "pynitf/nitf_tre.py:prepare_tre_write", "pynitf/nitf_tre.py:read_tre", "pynitf/nitf_segment.py:NitfSegment.write_to_file"]}
{"id": "C68", "title": "Saving a loaded file settles after one step", "statement": "Whatever file was loaded (written by this library or not), if it can be saved then the saved file can be loaded again, has the same field values, TREs and segments as the object loaded first, and saving that one gives the same bytes again. This fails for a file that has its TREs in the second area of a header only: each time it is loaded and saved it gets another copy of them.", "quantifier": "every sequence of bytes that can be read as a file, every number of load and save rounds", "why_tests_cant": "the input is an arbitrary file, including ones the library would never write; tests load a few sample files", "anchors": ["pynitf/nitf_file.py:NitfFile.read", "pynitf/nitf_file.py:NitfFile.write", "pynitf/nitf_tre.py:prepare_tre_write", "pynitf/nitf_tre.py:read_tre"]}
{"id": "C69", "title": "Overflow segments say where they belong", "statement": "When a file is written and read back, the TRE_OVERFLOW segments come after all other DES segments, in the order of the headers whose TREs did not fit (file header, image subheaders, text subheaders). Each one names its header in desoflw and desitem, has the header's classification and other security attributes, and holds a non-empty part of the header's TREs in order. The first TRE area of that header has the number of the segment in the DES list, and no other area of any header refers to an overflow segment.", "quantifier": "every file object that can be written and read back (as in C26), any number of segments, TREs and overflows", "why_tests_cant": "the numbers depend on how many DES segments and earlier overflows there are; the tests have at most one overflow segment", "anchors": ["pynitf/nitf_tre.py:prepare_tre_write", "pynitf/nitf_des.py:TreOverflow", "pynitf/nitf_file.py:NitfFile.write", "pynitf/nitf_segment.py:NitfSegment.prepare_tre_write", "pynitf/security.py:NitfSecurity"]}
{"id": "C70", "title": "Exactly when a file can be written", "statement": "NitfFile.write either raises or writes a file whose length fields are right. It succeeds exactly when the TREs could be placed, the header and each segment can be written by themselves, and every length fits its field of the file header: header under 10^6 bytes, file under 10^12, image subheader/data under 10^6/10^10, graphic 10^4/10^6, text 10^4/10^5, DES 10^4/10^9, RES 10^4/10^7. In particular a text of 100000 bytes, or 1000 segments of one kind, raise.", "quantifier": "all file objects, all data classes", "why_tests_cant": "the limits are up to 10^12 bytes, and the claim that nothing else can go wrong is about all files", "anchors": ["pynitf/nitf_file.py:NitfFile.write", "pynitf/nitf_segment.py:NitfSegment.write_to_file", "pynitf/nitf_field.py:FieldStruct.update_field"]}
{"id": "C71", "title": "Copies of images", "statement": "copy.deepcopy of an image segment's data gives an image with the same header values and the same pixels, and writing the copy gives a file in which every band, line and sample has the pixel of the original. An image whose pixels are not available cannot be copied.", "quantifier": "all image headers the reader accepts, all pixel values, sizes and numbers of bands, any file around the data", "why_tests_cant": "the layouts depend on the values of seven header fields, and a test image with one band or equal pixels does not show a wrong order", "anchors": ["pynitf/nitf_image.py:_deepcopy", "pynitf/nitf_image.py:NitfImageWriteDataOnDemand.write_to_file", "pynitf/nitf_image.py:NitfImageReadNumpy.read_from_file"]}
{"id": "C72", "title": "ILLUMA TRE", "statement": "The eleven attributes of an ILLUMA TRE are written as an XML document and read back with the same values: floats as the same float, attributes that are None as None, and reading stops at the end of the TRE. Reading into an object leaves attributes the document does not have as they are. Documents with and without the namespace of the schema are read.", "quantifier": "all assignments of the attributes, all object states before reading, all bytes after the TRE, all documents without namespace", "why_tests_cant": "2048 combinations of set attributes with arbitrary numbers; a test that reads what the writer wrote never sees a document without namespace", "anchors": ["pynitf/nitf_tre_illuma.py:TreILLUMA.tre_bytes", "pynitf/nitf_tre_illuma.py:TreILLUMA.read_from_tre_bytes", "pynitf/nitf_tre_illuma.py:TreILLUMA.read_from_file"]}
{"id": "C73", "title": "The log of a comparison of files", "statement": "Comparing two files reports a difference in the log exactly if the result is that they differ. Every TRE or segment that compares different, and every kind of which there are different numbers, has a line of its own. Lines about a segment are in the context of that segment, the context is the same after as before, and earlier lines stay.", "quantifier": "all pairs of files, configurations, skip functions, sets of honest handlers, iteration orders and contexts", "why_tests_cant": "there are unboundedly many combinations of parts and handlers; a test only compares one log with an expected one, and a line that is missing or in the wrong context for one class shows only in files with that class", "anchors": ["pynitf/nitf_file_diff.py:NitfDiff.diff_context", "pynitf/nitf_file_diff.py:NitfFileHandle.handle_diff", "pynitf/nitf_file_diff.py:SegmentDiff.handle_diff", "pynitf/nitf_diff_handle.py:DiffContextFilter", "pynitf/nitf_des_csatta.py:CsattaDiff.handle_diff"]}
{"id": "C74", "title": "The array of a written image", "statement": "After an image generated on demand was written, its data_written shows every pixel as it was written, and assigning to an element changes exactly that pixel in the file, for the reader too: no other pixel, image, header or other data. This stays so whatever is written to the file afterwards.", "quantifier": "all sequences of writing data and images of any size, number of bands, pixel type and usable mode to a file, changing pixels through the arrays and updating header fields in place", "why_tests_cant": "a test changes the pixels of one image of one size in a file with nothing after it; the address of each pixel depends on the mode and all sizes, and what goes wrong with several images depends on where the system puts the memory map", "anchors": ["pynitf/nitf_image.py:NitfImageWriteDataOnDemand.write_to_file", "pynitf/nitf_image.py:NitfImageWriteDataOnDemand.__getitem__", "pynitf/nitf_image.py:NitfImageWriteDataOnDemand.flush_update"]}
{"id": "C75", "title": "A segment and its data share their headers", "statement": "A segment and its data always show the same subheader and user subheader: a header or field set through one is seen through the other and is what is written. Objects that were not made from one another do not influence each other.", "quantifier": "all sequences of creating data and segments, reading segments with any number of handlers tried, installing headers and setting fields through any of the objects, assigning data, and creating and merging deltas", "why_tests_cant": "a test sets a few fields of one pair; sharing is a matter of references between all objects of a session, in any order of creation and assignment", "anchors": ["pynitf/nitf_segment.py:NitfSharedHeader", "pynitf/nitf_segment.py:NitfSegment", "pynitf/nitf_segment_data_handle.py:NitfData", "pynitf/nitf_segment_data_handle.py:NitfSegmentDataHandleSet.handle_h", "pynitf/nitf_file_json.py:NitfSegmentJson.create_delta", "pynitf/nitf_file_json.py:NitfFileJson.notify_file_merge"]}
{"id": "C76", "title": "Exit status, output and log of nitf_diff", "statement": "The program nitf_diff ends with status 0 exactly if the comparison says that the files are the same, whatever options are given for showing the result. The screen and the log file get exactly the differences and messages that the options ask for, in order, the same in both but for color, followed by the verdict. A JSON configuration is merged into the default configuration.", "quantifier": "all combinations of options, all sequences of messages the comparison logs, all results of the comparison including exceptions, all contents of the configuration file", "why_tests_cant": "a test runs a few combinations of options on a few pairs of files; options interact (levels of the logger and of its handlers, log file, quiet), and scripts rely on the status for every pair of files", "anchors": ["bin/nitf_diff", "pynitf/nitf_diff_handle.py:DifferenceFormatter", "pynitf/nitf_file_diff.py:NitfDiff.update_config"]}
{"id": "C77", "title": "Default sets of handlers and hooks", "statement": "Each class of handler or hook sets has one default set, holding what was registered for that class and not discarded. A file or comparison starts with what is registered by default when it is created; afterwards its set can be changed (handlers added, default handlers discarded) without affecting the default set or other files and comparisons, and the other way round.", "quantifier": "all class hierarchies, all sequences of registering and discarding default handlers, creating files and comparisons, and changing their sets", "why_tests_cant": "the default sets are global state changed at import time by any number of modules; tests see one order of imports and one hierarchy, and look at one set at a time", "anchors": ["pynitf/priority_handle_set.py:PriorityHandleSet.default_handle_set", "pynitf/nitf_segment_hook.py:NitfSegmentHookSet.default_hook_set", "pynitf/nitf_file.py:NitfFile.__init__", "pynitf/nitf_file_diff.py:NitfDiff.__init__"]}
{"id": "C78", "title": "Printing a file", "statement": "str() and summary() of a file show its header, each of its TREs and each of its segments exactly once, in the order of the file and numbered; a segment shows its headers, each of its TREs exactly once (by the first hook that takes it or by its own text) and its data. Printing succeeds whenever the parts can be printed. With report_raw (nitf_info --report-raw) hooks have no influence on the text, unless they ask to be kept.", "quantifier": "all files, segments, TREs and hooks, in any order of iteration over the hooks, and all arguments of nitf_info", "why_tests_cant": "hooks are user code and segments come and go between files; tests print a few files without hooks and compare with nothing", "anchors": ["pynitf/nitf_file.py:NitfFile.__str__", "pynitf/nitf_file.py:NitfFile.summary", "pynitf/nitf_segment.py:NitfSegment.__str__", "pynitf/nitf_segment.py:NitfSegment.summary", "pynitf/nitf_segment_hook.py:NitfSegmentHookSet", "bin/nitf_info"]}
{"id": "C79", "title": "A delta makes the comparison with an old gold file clean", "statement": "After nitf_json_delta new gold delta, nitf_diff new gold delta reports no difference exactly if the data that is not in the delta (images, DES not made of fields, graphic and RES segments) agrees with the gold file, segments being found by their key; everything else in the gold file is irrelevant. If such data is not found by a unique key in the gold file, the comparison raises RuntimeError.", "quantifier": "all pairs of files, all handlers, skip functions and configurations, any order of iteration over the handlers", "why_tests_cant": "the result depends on which of two files has which parts, keys that are repeated, TRE overflow, and user supplied handlers; the tests use one pair of files", "anchors": ["pynitf/nitf_file_diff.py:NitfDiff.compare", "pynitf/nitf_file_json.py:NitfFileJson.create_delta", "pynitf/nitf_file_json.py:NitfFileJson.notify_file_merge", "pynitf/nitf_file_merge.py:NitfFileMerge", "bin/nitf_json_delta"]}
{"id": "C80", "title": "A segment that is in several files", "statement": "A segment object may be put into the segment lists of several NitfFile objects. Whenever one of the files is written, its header describes all its segments (counts, subheader and data lengths), whatever other files hold the same segments and whichever files have been written, changed or dropped before; writing a file changes no other file object.", "quantifier": "all sessions of any length that make, read, change, write and drop any number of files and segments; all contents of files, all data handlers", "why_tests_cant": "the outcome depends on the order in which a segment was appended to files, on which of them were written before and how their headers are laid out; tests append a segment to two files but write them in one order and layout", "anchors": ["pynitf/nitf_file.py:ListNitfFileReference", "pynitf/nitf_file.py:NitfFile.write", "pynitf/nitf_segment.py:NitfSegment.write_to_file", "pynitf/nitf_segment.py:NitfSegment._update_file_header", "pynitf/nitf_field.py:NitfField.update_file"]}
{"id": "C81", "title": "A write that fails or is interrupted does no harm", "statement": "If NitfFile.write raises an exception or is interrupted at any point, the file object keeps its TREs, its segments and their content, and it can be written later, once the cause is removed, with the same bytes as if the attempt had not been made.", "quantifier": "all file objects, all data handlers and registered classes, all points at which a write may stop, any number of attempts, all exchanges of the data, user subheaders and unserialisable TREs of segments in between", "why_tests_cant": "a write can stop in any of its steps, and what is left in the headers depends on where; tests at most check that an exception is raised", "anchors": ["pynitf/nitf_file.py:NitfFile.write", "pynitf/nitf_segment.py:NitfSegment.write_to_file", "pynitf/nitf_field.py:FieldStruct.update_field", "pynitf/nitf_tre.py:prepare_tre_write"]}
{"id": "C82", "title": "Reading into an object that was used before", "statement": "Reading a record into an object that has been used before (read, assigned to, or read in part up to an exception) gives the same result, the same exception or the same remaining bytes as reading it into a new object, and the object then has the same fields, raw bytes and written form as the new one: nothing of the earlier record is left.", "quantifier": "all tables whose sizes, counts and conditions refer to earlier fields (all shipped ones), all histories of the object, all byte strings", "why_tests_cant": "the values of the earlier record stay in the object and are only hidden by the counts and conditions of the new one; tests read each object once", "anchors": ["pynitf/nitf_field.py:FieldStruct.read_from_file", "pynitf/nitf_field.py:FieldValue.read_from_file", "pynitf/nitf_des.py:NitfDesFieldStruct.read_from_file"]}
{"id": "C83", "title": "A TRE or DES that stands for an object", "statement": "For a TRE or DES class with an implementation class, what is written is always the object's own bytes, whatever is done with the fields; reading gives the object made from these bytes, and the fields show what an ordinary TRE read from the same bytes shows; fields cannot be assigned; a record the object cannot be made from is kept as an unknown TRE; and a program without the implementation class reads the same fields.", "quantifier": "all implementation classes, all tables, all objects, all sequences of reads, assignments, updates, exchanges of the object and writes", "why_tests_cant": "the hook is for classes of other packages, which the tests cannot know; the fields are read late, at the first look, over whatever was there before", "anchors": ["pynitf/nitf_tre.py:Tre.read_from_tre_bytes", "pynitf/nitf_tre.py:Tre.tre_bytes", "pynitf/nitf_tre.py:Tre.update_raw_field", "pynitf/nitf_des.py:NitfDesFieldStruct.update_raw_field", "pynitf/nitf_field.py:FieldValue.__setitem__"]}
{"id": "C84", "title": "ENGRDA as a mapping and in a file", "statement": "An ENGRDA TRE is a mapping from labels to (data, units): after any sequence of assignments, with the TRE written to a file and read back at any points between them, each label has the data and units last assigned to it, in the order of first assignment, and no other label is there; `in`, `get`, `setdefault`, `update`, `pop`, iteration and `clear` behave as for a dictionary with these entries; and `engrda` of a file or segment is the dictionary of its ENGRDA TREs by resource name, refused if two have the same name.", "quantifier": "all sequences of assignments and of saving and reading back, all labels, data of the supported types and units, all lists of TREs", "why_tests_cant": "the mapping methods come from an abstract base class on top of parallel arrays of fields; tests store a few entries once and read them by label", "anchors": ["pynitf/nitf_tre_engrda.py:TreENGRDA.__getitem__", "pynitf/nitf_tre_engrda.py:TreENGRDA.__setitem__", "pynitf/nitf_tre_engrda.py:TreENGRDA.__iter__", "pynitf/nitf_tre_engrda.py:TreENGRDA.__delitem__", "pynitf/nitf_tre_engrda.py:_engrda_as_hash"]}
{"id": "C85", "title": "What bytes mean", "statement": "Reading a record of any origin, a field shows a value exactly if its bytes say that value: text is the bytes without trailing blanks as Latin-1 characters, an integer is the number its decimal text denotes (blanks around, optional sign, single underscores between digits), a binary integer is the big-endian number (two's complement if signed), a fill of an optional field is None, and data is the bytes; if the bytes of a text or number field say nothing, reading raises.", "quantifier": "all tables whose sizes, counts and conditions refer to earlier fields (all shipped ones), all byte strings", "why_tests_cant": "tests read records written by the library itself; files of other writers use every spelling of a number the format and the parser admit", "anchors": ["pynitf/nitf_field.py:NitfField.read_from_file", "pynitf/nitf_field.py:NitfField.__getitem__", "pynitf/nitf_field.py:StringFieldData.unpack", "pynitf/nitf_field.py:IntFieldData.unpack"]}
{"id": "C86", "title": "Sizes, counts and conditions mean what they say", "statement": "The elements of a record that are written, and those that are read, are exactly those inside the loops around the field whose condition holds, each of the size its table gives, where loops, conditions and sizes have the value the Python expression in the table has for the values the fields show; an element whose condition does not hold shows None and cannot be assigned.", "quantifier": "all tables whose sizes, counts and conditions refer to earlier fields (all shipped ones), all records, all byte strings", "why_tests_cant": "each table has its own expressions over counts, flags and bits; tests use a few combinations", "anchors": ["pynitf/nitf_field.py:NitfField.eval_expr", "pynitf/nitf_field.py:NitfField.check_condition", "pynitf/nitf_field.py:NitfField.size", "pynitf/nitf_field.py:NitfLoop.shape"]}
{"id": "C87", "title": "What is written for a value", "statement": "A record is written exactly if every element that belongs to it has a spelling of its size, and then the bytes are these spellings: an integer in decimal digits with zeros after the sign up to the width, text followed by blanks, None as fill characters, a formatted field as its format says, a binary integer big-endian (two's complement if signed), a literal followed by blanks; a value with no spelling of the size makes the write raise, and a value has one spelling of each size.", "quantifier": "all tables, all records", "why_tests_cant": "other programs read these files, so the exact spelling counts, not that the library reads its own output; tests cover a few values of a few fields", "anchors": ["pynitf/nitf_field.py:NitfField.bytes", "pynitf/nitf_field.py:NitfField._format_val", "pynitf/nitf_field.py:NitfField.write_to_file", "pynitf/nitf_field.py:IntFieldData.pack"]}
{"id": "C88", "title": "A written file can be taken apart with the format alone", "statement": "A program that knows only the layout of the NITF 2.1 file header (file length in twelve digits at byte 342, header length in six, then for each kind a count of three digits and the lengths of subheader and data in 6+10, 4+6, 4+5, 4+9 and 4+7 digits) takes every written file apart into exactly the header and the subheader and data of every segment, with nothing left over; the file begins with NITF02.10 if its header says so.", "quantifier": "all files, all data handlers, all segments and TREs", "why_tests_cant": "the library reads its own files through the same tables it wrote them with, so a wrong width or a missing field would go unnoticed; other programs rely on the offsets of the standard", "anchors": ["pynitf/nitf_file.py:NitfFile.write", "pynitf/nitf_file_header.py:NitfFileHeader", "pynitf/nitf_segment.py:NitfSegment.write_to_file"]}
{"id": "C89", "title": "The TREs of a written file can be found with the format alone", "statement": "A program that knows only the layout of the NITF 2.1 headers (where the TRE areas are in the file header and the image, graphic and text subheaders: length in five digits, then the number of the overflow segment in three digits and the data; a TRE is a tag of six bytes, a length in five digits and a body) finds, in every written file, for the file and for every image and text segment whose areas were unused before, all TREs of the object, each once and no others, with its tag and the bytes of its body, including those moved to an overflow segment.", "quantifier": "all files, all TREs with a tag of at most six characters, all ways the TREs are spread over the areas and overflow segments", "why_tests_cant": "the library looks for TREs through the same tables it wrote the headers with, so a wrong condition or width in front of an area would go unnoticed; where the areas are depends on comments, bands, lookup tables and earlier areas, and on the sizes of all TREs", "anchors": ["pynitf/nitf_tre.py:prepare_tre_write", "pynitf/nitf_tre.py:Tre.write_to_file", "pynitf/nitf_file.py:NitfFile.write", "pynitf/nitf_image_subheader.py:NitfImageSubheader", "pynitf/nitf_text_subheader.py:NitfTextSubheader"]}
{"id": "C90", "title": "The TREs of graphic segments can be found in the file", "statement": "As C89 for graphic segments: the TREs of a graphic segment of a written file are found in the area of its subheader and in the overflow segment the subheader names, all of them, each once.", "quantifier": "all files, all graphic segments with an unused TRE area, all lists of TREs", "why_tests_cant": "needs TREs of 100000 bytes, and a reader that does not share the library's names of the fields", "anchors": ["pynitf/nitf_segment.py:NitfGraphicSegment", "pynitf/nitf_tre.py:prepare_tre_write"]}
{"id": "C91", "title": "What is too large for the format is never written", "statement": "Every file that is written is within the limits of the format (fewer than 1000 segments of each kind; subheaders below 10^6 bytes for images and 10^4 for other kinds; data below 10^10, 10^6, 10^5, 10^9, 10^7 bytes for image, graphic, text, DES, RES; header below 10^6, file below 10^12). A file with more segments or with longer data raises an exception; no length is ever cut or written wrong.", "quantifier": "all files, all data handlers, all segments", "why_tests_cant": "the limits are far beyond what a test can hold (10^10 bytes), and a length that wraps or spills into the next field would produce a file that still looks right up to that point", "anchors": ["pynitf/nitf_file.py:NitfFile.write", "pynitf/nitf_segment.py:NitfSegment.write_to_file", "pynitf/nitf_field.py:FieldStruct.update_field"]}
{"id": "C92", "title": "The size of TREs never prevents a file from being written", "statement": "TREs of a text or graphic segment that are too large for its subheader are moved to an overflow segment, so that the file can be written.", "quantifier": "all files, all text and graphic segments, all lists of TREs", "why_tests_cant": "depends on the sum of the sizes of all TREs of a segment against two limits in different places (area length of five digits, subheader length of four digits)", "anchors": ["pynitf/nitf_tre.py:prepare_tre_write", "pynitf/nitf_file_header.py:NitfFileHeader", "pynitf/nitf_text_subheader.py:NitfTextSubheader"]}
{"id": "C93", "title": "Summaries", "statement": "Every file that was read has a summary: file.summary() does not raise. It consists of the summaries of the header, the TREs and the segments; that of a TRE is one line that begins with 'TRE - ' and its tag, and shows the values its class names (CSEXRB: the number of FDTs if there is one); that of an image shows the number of bands from xbands if nbands is 0. Headers, subheaders and TREs that can be written have a summary as well. After a read the numbers shown are the numbers of segments.", "quantifier": "all files that can be read, all records that can be written, all TRE classes of pynitf", "why_tests_cant": "an attribute that is missing for some values of the record makes the summary of the whole file raise; tests print the summaries of a few files", "anchors": ["pynitf/nitf_file.py:NitfFile.summary", "pynitf/nitf_file_header.py:NitfFileHeader.summary", "pynitf/nitf_image_subheader.py:NitfImageSubheader.summary", "pynitf/nitf_tre.py:Tre.summary"]}
{"id": "C94", "title": "Commands of explore_nitf", "statement": "In explore_nitf the commands of the help text with indices in range do not end the program, and a session of them goes on to its end. 'list image', 'list text', 'list des' and 'list tre' show exactly one line for each segment or TRE, with its index; 'print image i' (text, des) shows exactly segment i, or the allowed range; 'save_des i' writes exactly the data of DES i; 'image display i' draws image i exactly if it is an array with two dimensions (or three, the last of size 3), 'image diff i j' exactly if both are and have the same type and shape. Completion offers, in order, exactly the words that begin with what was typed. A file loaded as 'default' is used from then on, one loaded under another alias can be used as well.", "quantifier": "all files, all loaded files, all lines of words, all sessions", "why_tests_cant": "the program is interactive and has no tests; an exception in one command ends the session, and the ranges of all indices for all files cannot be tried", "anchors": ["bin/explore_nitf:processCommand", "bin/explore_nitf:processTRE", "bin/explore_nitf:display_diff"]}
{"id": "C95", "title": "Images of other programs", "statement": "An uncompressed image that NitfImageReadNumpy accepts is shown as the NITF standard lays it out: element [band, line, sample] of the array is the pixel that the standard places there according to IMODE, NBPR, NBPC, NPPBH and NPPBV, the file is read on behind the data of the image, and writing the image again writes all of its data. Every other image is left to another reader.", "quantifier": "all image subheaders with a consistent size and blocking, all pixel types, all data, all bands, lines and samples", "why_tests_cant": "the tests read images the library wrote itself, in two layouts; the layouts of the standard are an infinite family", "anchors": ["pynitf/nitf_image.py:NitfImageReadNumpy.read_from_file", "pynitf/nitf_image.py:NitfImageReadNumpy.write_to_file", "pynitf/nitf_image.py:NitfImageReadNumpy.__getitem__"]}
{"id": "C96", "title": "The header of a new image", "statement": "set_default_image_subheader, called for a subheader that holds anything, with a supported pixel type and at least one band, succeeds, and the subheader then reads as asked for: texts without trailing blanks, display level, unclassified, not encrypted, size as a single uncompressed block, pixel type, number of bands and no comments; every band has its number (from 1) as subcategory, no lookup tables, and the first band is R, the middle one G, the last one B, the others M, where the first one of these that applies counts. No other field changes. A pixel type that is not supported or no bands at all raises.", "quantifier": "all subheaders, texts, sizes, pixel types, numbers of bands, all bands", "why_tests_cant": "the tests make a few images with one or a few bands in fresh subheaders; the number of bands decides where the count is kept and which assignments overwrite each other", "anchors": ["pynitf/nitf_image_subheader.py:set_default_image_subheader"]}
{"id": "C97", "title": "Images survive in files", "statement": "Image segments that are put into a file (new images with the pixels of their callbacks, of any size, supported pixel type, number of bands and supported generation mode, and images loaded from other files with any contents), with any TREs that fit: if the file is written, it can be read again, the images are as many and in the same order, and image[b, l, s] of each is the pixel given for band b, line l and sample s, in the same type; outside the image it is an IndexError. Images that are not interpreted keep their bytes. Header fields that do not describe the pixels may be changed before. The images read can be put into files again with the same result.", "quantifier": "all files, all numbers of images, all sizes, bands, pixel types and callbacks, all pixels, all files the images were loaded from", "why_tests_cant": "the tests write one or two images of one shape and compare a few pixels; layout, segment lengths, offsets and the decision of the reader must agree for all shapes and for images after each other", "anchors": ["pynitf/nitf_image.py:NitfImageWriteDataOnDemand", "pynitf/nitf_image.py:NitfImageReadNumpy", "pynitf/nitf_file.py:NitfFile.write", "pynitf/nitf_file.py:NitfFile.read"]}
{"id": "C98", "title": "Headers are laid out as the standard says", "statement": "File headers and image, graphic, text, DES and RES subheaders that are written consist of the fields of tables A-1, A-3, A-5, A-6, A-8 and A-9 of MIL-STD-2500C, in this order and of these widths, nothing else; the optional fields are there exactly under the conditions of the standard, and repeated fields as often as the counts say (segments of the file, comments, bands, lookup tables). What is read is taken from these places. So the length of a header is what the standard says, and the file length, header length and number of images are at bytes 342, 354 and 360 of every file.", "quantifier": "all contents of all headers that can be written, all bytes that can be read", "why_tests_cant": "a test of the code against itself agrees with any layout; sample files have few combinations of optional and repeated fields", "anchors": ["pynitf/nitf_file_header.py:NitfFileHeader", "pynitf/nitf_image_subheader.py:NitfImageSubheader", "pynitf/nitf_graphic_subheader.py", "pynitf/nitf_text_subheader.py", "pynitf/nitf_des_subheader.py", "pynitf/nitf_res_subheader.py"]}
{"id": "C99", "title": "TREs have the lengths of their standard", "statement": "TREs whose length the standard fixes (CSCRNA, STDIDC, USE00A, CSDIDA, MAPLOB, GEOPSB, ICHIPB, MIMCSA, PIAIMC, RPC00A, RPC00B, RSMGIA, RSMIDA, RSMPIA) are written with exactly this length, whatever their contents, and the length in front says so; TREs with repeated groups (CSEPHA, PRJPSB, RSMAPA, RSMPCA, TMINTA, DES CSATTA) with the length that belongs to the numbers of groups. Bytes with such a tag become an object of the class only if their length is this; otherwise they are kept unchanged as an unknown TRE.", "quantifier": "all contents of the TREs, all numbers of groups, all bytes", "why_tests_cant": "a test of the code against itself agrees with any widths; the lengths have to hold for all values and counts", "anchors": ["pynitf/nitf_tre.py:Tre.write_to_file", "pynitf/nitf_tre.py:Tre.read_from_file", "pynitf/nitf_tre_csde.py", "pynitf/nitf_tre_rpc.py", "pynitf/nitf_tre_rsmida.py"]}
{"id": "C100", "title": "New image files are written exactly within the limits of the format", "statement": "A file made from scratch with new images of any size, at least one band, a supported pixel type and a supported layout (and no TREs) is written if and only if: the texts fit their fields, the display level is between -99 and 999, there are at most 9999 rows and 9999 columns, at most 99 bits per pixel, the subheader is shorter than 1000000 bytes and the pixels shorter than 10^10 bytes for each image, there are at most 999 images, and the file is shorter than 10^12 bytes. It then has 388 bytes, 16 more for each image, 426 and 13 per band (5 more from 10 bands on) for each subheader, and the pixels; unless it has 999999999999 bytes (which means unknown length) it can be read back and each image shows exactly the pixels given.", "quantifier": "all lists of images, all arguments of their constructors, all callbacks", "why_tests_cant": "success of writing depends on every field of every subheader at once; tests write a handful of small images", "anchors": ["pynitf/nitf_file.py:NitfFile.write", "pynitf/nitf_image.py:NitfImageWriteDataOnDemand", "pynitf/nitf_image_subheader.py:set_default_image_subheader", "pynitf/nitf_segment.py:NitfSegment.write_to_file"]}
{"id": "C101", "title": "New files of images and texts are written exactly within the limits of the format", "statement": "A file made from scratch with any new images (C100) and any new texts (str or bytes, with or without an attachment level, and no TREs) is written if and only if the images are within the limits of C100, for each text the id, date, title and format fit 7, 14, 80 and 3 characters, the level if given is between -99 and 999, the text encoded as UTF-8 is shorter than 100000 bytes, there are at most 999 images and 999 texts, and the file is shorter than 10^12 bytes. It then has exactly 388 bytes, 16 per image, 9 per text, the images, and 282 bytes and the text for each text; it can be read back, the images show the pixels given, and the texts show the fields (without trailing blanks) and the bytes given; a level not given reads None.", "quantifier": "all lists of images and texts, all their fields and contents", "why_tests_cant": "success of writing depends on every field of every subheader at once; tests write a handful of small files", "anchors": ["pynitf/nitf_file.py:NitfFile.write", "pynitf/nitf_text.py:NitfTextStr", "pynitf/nitf_text_subheader.py:desc", "pynitf/nitf_segment.py:NitfTextSegment"]}
{"id": "C102", "title": "Asking for the maximum precision never makes the text of a number worse", "statement": "float_to_fixed_width(n, w, maximum_precision=True) gives a text of at most w characters with the sign of n and as many decimals as fit, that stands for n to half a unit of the last decimal; with w of at least 7 it succeeds for every finite float; and the number the text stands for is at least as near to n as that of the text given without maximum_precision.", "quantifier": "all finite numbers, all widths", "why_tests_cant": "the switch between the notations depends on number, sign and width together; the tests check the length of one text", "anchors": ["pynitf/nitf_field.py:float_to_fixed_width"]}
{"id": "C103", "title": "Images computed from others while they are written", "statement": "An image whose data are generated by NitfRadCalc(dn, gain, offset).data_to_write is written with dn * gain + offset, converted to the pixel type, at every pixel, in each mode an image can be made with; an image with only one band, line or sample counts for all of them. It raises exactly if one of the three images has too few of them (and more than one).", "quantifier": "all shapes and contents of the three images, all shapes of the result, all modes, any arithmetic of pixels", "why_tests_cant": "the test has three images of the same shape in the default mode; broadcasting and shortened slices depend on all four shapes", "anchors": ["pynitf/nitf_image.py:NitfRadCalc.data_to_write", "pynitf/nitf_image.py:NitfImageWriteDataOnDemand.write_to_file"]}
{"id": "C104", "title": "user_subheader_size tells whether a user subheader is too long", "statement": "user_subheader_size is the length the DES subheader gives for the user subheader when it is written. A DES whose user_subheader_size is above 9999, the largest number the field desshl can hold, is not written, and one with up to 9999 bytes can be written to a file.", "quantifier": "all user subheaders of all classes, all DES segments, all files", "why_tests_cant": "the limit involves the length field of the subheader, the length of the whole subheader and a field of the file header; tests have user subheaders of a few hundred bytes", "anchors": ["pynitf/nitf_segment_data_handle.py:NitfData.user_subheader_size", "pynitf/nitf_segment.py:NitfSegment._write_user_subheader", "pynitf/nitf_des_subheader.py:desc", "pynitf/nitf_file_header.py:desc"]}
{"id": "C105", "title": "How many elements can be associated with a DES", "statement": "The user subheader of a DES takes 46 bytes, 3 for each associated display level, 36 for each associated element, and the reserved bytes. As num_assoc_elem has three digits, up to 999 different elements added by add_assoc_elem_id can be in a file.", "quantifier": "all sequences of additions of levels and elements, all files with the DES", "why_tests_cant": "the number of elements is unbounded in a test of the additions, and the limit comes from a length field two levels above", "anchors": ["pynitf/nitf_des_associated_user_subheader.py:_add_assoc_elem_id", "pynitf/nitf_des_associated_user_subheader.py:_add_display_level", "pynitf/nitf_segment.py:NitfSegment._write_user_subheader"]}
{"id": "C106", "title": "User subheaders are of the class registered for the id", "statement": "Writing a file raises unless every DES and RES with an id for which a user subheader class is registered has a user subheader of this class; with other ids any user subheader is taken.", "quantifier": "all registered classes, all files, all segments", "why_tests_cant": "ranges over all registrations, ids and segments", "anchors": ["pynitf/nitf_segment.py:NitfSegment.write_to_file", "pynitf/nitf_segment_user_subheader_handle.py:NitfSegmentUserSubheaderHandleSet.user_subheader_cls"]}
