# Design: a Lean 4 model of pynitf

The properties are in `properties.jsonl` (C01 …), the claims in `MANIFEST.json`,
the mutation tests in `seeded/LOG.jsonl`. The theorems of a property are named
`Cnn_…` and are in `lean/Verif/Props/`; everything else under `lean/Verif/` is
the model or a helper.

## Trusted base

* Lean 4.33.0's kernel. No axioms are added, there is no `sorry` or `admit`, no
  `native_decide`, no `bv_decide`. Every property theorem depends at most on
  `propext`, `Classical.choice` and `Quot.sound` (checked with `#print axioms`;
  `vcheck` repeats the check).
* The correspondence between the Python text in `/repo/pynitf` and the Lean
  definitions. Each definition of the model cites the file and lines it models
  and says where it simplifies. The record tables are translated by
  `tools/gen_tables.py`, which parses the Python source with `ast` (it never
  imports or runs it) and prints `Verif/Tables/T1.lean` … `T4.lean`.
* Python and numpy runtime facts used by the model: `int(bytes)`, `rstrip`,
  `"%0nd" % v`, `"{:ns}".format(s)`, Latin-1 and UTF-8, `struct.pack/unpack`,
  dict, list and set semantics, `re.match`, C order of arrays, `byteswap`. They
  are written out where they are used, most of them in `Verif/Py.lean`.
* Floating point: in fields, everything done with floats (formatting, parsing,
  conversion, comparison) is a *parameter* (`PyFloat`) over which the theorems
  quantify. `float_to_fixed_width` and the IGEOLO arithmetic are modelled over
  exact rationals; the operations of the degree/minute/second encoder that may
  round are a parameter with an error bound. For C62 the parameter has to meet
  the structure `Doubles`: CPython formats the exact value of a double with
  correct rounding (half to even), `float(text)` has relative error at most 2^-53
  in the range of the theorem and is monotone at 1e-9.

Mathlib is used only by `Fixed`, `Decimal`, `Igeolo`, `Format` and their property files
(rationals and floor); all other modules use Lean's core library only.

## The model

The engine: a record table is a tree `Desc` of fields and loops. The store maps
(position of the field, loop key) to an optional cell, as the `value_dict`s of
the code do. Expressions (conditions, sizes, counts, computed values) are a deep
embedding evaluated through the same `__getitem__` the code uses (index check,
condition, default, coercion). Writing gives the list of chunks
`(field, key, bytes)`; reading is a state transformer on (store, remaining
bytes). Exceptions are values of `Except Err`; setters return the new state
together with the exception, so that partial effects of a failing call are
visible. Names are coded as numbers by the macro `n!"name"`, so that the kernel
can compare them fast.

| module | models |
| --- | --- |
| `Py`, `PyLemmas` | Python runtime helpers |
| `Field` | `nitf_field.py`: expressions, `NitfField`, `FieldData`, `NitfLoop`, `FieldStruct` |
| `Causal`, `Traverse`, `RoundTrip`, `Represent`, `Chunks`, `Items`, `Layout`, `Copy`, `Update`, `StructLemmas`, `FieldLemmas`, `AssignLemmas`, `Scalar`, `Row`, `LoopRow`, `Index`, `Enum`, `Frame`, `Literal`, `Settle` | theory of the engine; `Copy` also deep copy, `Update` also `update_field`, `Items` also `items()`, `Enum` also `to_list()` and struct `items()`, `Literal` also the constructor of `NitfLiteral`, `Frame` which fields an assignment can affect |
| `Format`, `FormatLemmas` | `frmt` of float fields (`_format_val`), `_tre_rpc_coeff_format`, numbers in field contents |
| `State`, `StateLemmas` | `__getstate__`/`__setstate__` of structs and TREs, deep copy of TREs, `NitfTextStr` of `nitf_text.py` |
| `Example` | a small table and objects used in concrete cases |
| `Tables`, `Tables/T1`–`T4` | generated: the 50 `desc` tables shipped |
| `Tre`, `TreLemmas`, `TreArea`, `TrePlace`, `TreRound` | `nitf_tre.py`: one TRE, areas, registry, placement, reading, searching |
| `Security` | `nitf_security.py` |
| `File`, `FileLemmas`, `FileRun`, `FileRead`, `Same`, `Rewrite`, `ReadClear` | `nitf_file.py`, `nitf_segment.py`, `nitf_segment_data_handle.py`, user subheaders of `nitf_segment_user_subheader_handle.py` |
| `ExtContent` | the data classes of `nitf_des_ext_def_content.py` |
| `Print` | `NitfLoop.print_to_fh`, `key_to_str`, `get_print`, `FieldStruct.__str__` |
| `Csexrb` | `TreCSEXRB.assoc_elem`, `add_assoc_elem_id`, `add_assoc_elem`, `generate_uuid_if_needed`, `id`; `_add_assoc_elem` |
| `SaveLoad` | lemmas for `NitfFile.write` of an object made by `NitfFile.read` |
| `ReadReady` | lemmas for objects made by `NitfFile.read` from any bytes |
| `Overflow` | lemmas for the overflow segments made while writing (C69) |
| `WriteOk` | when writing a file succeeds (C70) |
| `ImageCopy` | copies of images (C71) |
| `Illuma`, `IllumaLemmas` | ILLUMA TRE and the XML it needs (C72) |
| `DiffLog` | the log of the comparison of files (C73) |
| `View` | the array of a written image (C74) |
| `Shared` | headers shared by segments and data (C75) |
| `DiffProg` | the program nitf_diff (C76) |
| `Defaults` | default sets of handlers and hooks (C77) |
| `PrintFile` | printing files and segments, `nitf_info` (C78) |
| `DeltaDiff` | making a delta and comparing with it (C79) |
| `Owner`, `OwnerLemmas` | several files holding the same segments (C80) |
| `Attempt`, `AttemptLemmas`, `AttemptRetry`, `AttemptHalf`, `AttemptTrace`, `AttemptDone`, `AttemptStuck`, `AttemptCalm`, `AttemptKeep` | writes that do not come to their end (C81) |
| `ReadAny` | reading over any state of an object (C82) |
| `Implement` | TREs and DES with an implementation class (C83) |
| `EngrdaMap` | the mapping interface of ENGRDA and the `engrda` property (C84) |
| `Props/Meaning`, `Props/Sense` | what bytes mean (C85) and what the expressions of the tables mean (C86), as relations |
| `Props/Spell` | what is written for a value (C87), as a relation |
| `Props/Split` | a written file taken apart with the format alone (C88) |
| `Props/Finds` | the TREs of a written file found with the format alone (C89) |
| `Props/Graphic` | the TREs of graphic segments (C90) |
| `Props/Limits` | what is too large is not written (C91); TREs of text and graphic segments of 9715 bytes and more (C92) |
| `Summary`, `Props/Summary` | summaries of headers, TREs, segments and files (C93) |
| `Explore`, `Props/Explore` | the commands of explore_nitf (C94) |
| `ImageLayout`, `Props/ImageLayout` | layout of image data by the standard against the reader (C95) |
| `Props/NewImage` | the header of a new image (C96) |
| `Props/Attr` | which attribute names a record has (C12) |
| `ImageFile`, `Props/ImageFile` | images in files (C97) |
| `StandardSpec`, `StandardLayout`, `Props/Standard`, `Props/StandardFile` | headers against MIL-STD-2500C (C98) |
| `TreLength`, `Props/TreLength` | lengths of TREs against STDI-0002 (C99) |
| `Ready`, `Props/NewFile` | when new image files can be written (C100) |
| `Props/NewText` | when new files of images and texts can be written (C101) |
| `MaxPrec` | `float_to_fixed_width` with `maximum_precision` (nitf_field.py:20-34) |
| `Props/MaxPrec` | what asking for the maximum precision gives (C102) |
| `RadCalc` | `NitfRadCalc` (nitf_image.py:454-470) |
| `Props/RadCalc` | images computed from others while they are written (C103) |
| `UserSize` | `user_subheader_size` (nitf_segment_data_handle.py:88-97) |
| `Props/UserSize` | how long the user subheader of a DES may be (C104) |
| `Props/AssocSize` | how many elements can be associated with a DES (C105) |
| `Props/UserClass` | user subheaders and the classes registered (C106) |
| `Handle`, `HandleLemmas` | `priority_handle_set.py`, `nitf_segment_hook.py` |
| `Image`, `ImageLemmas` | `nitf_image.py`, `nitf_image_subheader.py` |
| `Decimal`, `Fixed`, `Igeolo` | `float_to_fixed_width`; corner coordinates of `nitf_image_subheader.py` |
| `Assoc` | `nitf_des_associated_user_subheader.py` |
| `Engrda` | `nitf_tre_engrda.py` |
| `Merge`, `Delta` | `nitf_file_merge.py`; `nitf_file_json.py` without reading and writing JSON |
| `Content` | `nitf_des_ext_def_content.py` |
| `Docopt` | `docopt_simple.py` |
| `Delayed`, `DelayedLemmas` | delayed reading in `nitf_field.py` |
| `Diff`, `DiffLemmas`, `DiffRefs`, `FileDiff` | `FieldStructDiff`, `nitf_file_diff.py`, `nitf_diff_handle.py`, the default handlers |

## Per property: how it is proved

General theorems are about every *causal* table (expressions refer only to
earlier fields of enclosing loops); the `_shipped` theorems instantiate them to
the 50 tables, for which causality is a kernel computation (C18).

| id | status | how |
| --- | --- | --- |
| C01 | proved | induction over `Desc`; invariant: every visible field read so far gives the same `__getitem__` result as in the writer's store |
| C02 | partial | same induction for literals. Reserved (unnamed) fields are read but written as blanks: `C02_reserved_lost`, and `C02_literal_reserved_blanked` says exactly what comes out |
| C03 | proved | same induction, remaining input |
| C04 | proved | length invariant of chunks |
| C05 | proved | prefix argument over the read |
| C06 | proved | layout of a read (`Layout`): every cell's raw bytes are the input at its slot |
| C07 | proved | patching the chunk list; fields nothing depends on do not change other chunks |
| C08, C09, C10, C14 | proved | lemmas on formatting and parsing, stated on writing and reading a field |
| C11, C12, C17 | proved | case analysis of `__setitem__`, `__getitem__`; `C12_unaffected`: fields that do not depend, directly or indirectly, on the assigned one keep their values; `C12_attribute`, `C12_no_attribute`, `C12_attributes`: which names are attributes and what they read |
| C13 | proved | assignment updates the length field; `C13_rejected_but_stored` records that a value of the wrong length is stored although the call raises |
| C15 | partial | the code itself only checks the last index; other indices are checked if the count or the condition of the field looks at another field with that index. Proved: the last index always; all indices in every shipped table but ILLUMB, RSMECB, CSCSDB, CSSFAB (`C15_shipped_partial`); in these four, which indices have no influence at all (`C15_shipped_ignored`, `C15_ignored_index`), and a witness (`C15_illumb`) |
| C16 | proved | C01 applied to the copy; literals are reformatted by a copy (`C16_literal_reformatted`) |
| C18 | partial | kernel computation over the generated tables. Distinct names fail for SENSRB and CSCSDB: `C18_names_not_distinct` |
| C19, C20, C21 | proved | framing lemmas over byte lists, for any registry of causal tables |
| C22 | proved | induction over the placement loop; raises when every TRE is too large (`C22_all_large_raises`) |
| C23, C24 | partial | headers whose areas are unused or will be used again (`Reusable`, `place_reaches`). False otherwise, areas that get no TREs are not cleared: `C23_stale_area`, `C24_never_cleared`, `C24_still_there`. `C23_any_state` and `C24_remove_all` say exactly what is read for a header in any state in which the areas parse, `C24_removed_still_there` is the negation of C24 for every list that fits the first area |
| C25 | proved | run of the writer (`FileRun`): the header's chunks patched by `update_field` |
| C26 | partial | composition of C01, C23, C25 over the five segment lists. `C26_any_areas_partial` says exactly what is read when the TRE areas hold anything readable, and `C26_session` that this stays so over any sequence of writes, replaced TREs and added segments. False for user subheaders without class and of RES segments (`C26_user_lost`, `C26_res_user_lost`), and removed TREs come back (`C26_removed_comes_back`) |
| C27 | partial | relation `FileEqv` between objects that write the same; a write leaves the object in the relation. False if an unused area has a stale overflow number: `C27_stale` |
| C28 | proved | lists |
| C29 | partial | after reading, the lists are plain lists: `C29_not_described`; `Props/Append`: `C29_appended` says the same of every file read and every list of segments appended (the header of the file written says 0 for the lengths of each), and that the segments the file was read with are described |
| C30, C31, C51 | proved | sets in a heap; iteration order is an arbitrary permutation |
| C32 | partial | attribute maps over the six headers; `==` ignores codewords and encryption: `C32_codewords_ignored` |
| C33, C34, C35, C36 | proved | assignments to the image table, strides, induction over the copy loop |
| C37, C38 | partial | rationals. The sign is lost when reading through the header (`C37_hemisphere_lost`), UTM exchanges the axes and loses digits (`C38_swapped`, `C38_long`, `C38_digit_lost`). A corner with a blank number is refused (`C37_blank`) |
| C39, C53 | proved | invariant of the table; fold over the candidates |
| C40, C42, C49, C50 | proved | lists |
| C41 | partial | refinement to a dictionary. False for big-endian and read-only arrays, non-ASCII text: `C41_big_endian`, `C41_clobbered`, `C41_read_only`, `C41_non_ascii` |
| C43 | partial | induction over names and counts. `C43_raises`, `C43_outer_counts`, `C43_nan` |
| C44 | partial | handler dispatch (C30) and C43; which parts are left out is stated by `C44_overflow` and `C44_leaf` without the model's helpers. Not sound for placeholders, one-sided user subheaders, unregistered DES user subheaders: `C44_placeholder`, `C44_user_subheader`, `C44_desshf`; some differences raise: `C44_raises`. What is skipped is exactly what the user's functions ask for (`C44_skipped`) |
| C45 | proved | rationals |
| C46 | partial | splitting and joining; witnesses `C46_colon`, `C46_newline`, `C46_injection`, `C46_last_line_end`, `C46_none`; `C46_exact`: the attributes come back if and only if they meet the restriction of `C46_text_partial` |
| C47 | partial | simulation between the lazy object and the one read at once; witnesses `C47_lost`, `C47_set_lost`, `C47_write_mixed`, `C47_write_defaults` |
| C48 | partial | matcher for the three regular expressions; a final newline is accepted (`C48_newline`) |
| C52 | partial | graphic subheaders name a field that does not exist: `C52_unreadable` |
| C54, C55 | proved | induction over the loop nest (`keysFrom`), order by `Before` (row-major); the pieces of a written or read struct filtered by field are the enumerated, present indices (`layout_keys`) |
| C56 | proved | store after the assignment, then writing and parsing of the padded bytes |
| C57 | partial | one byte too many is cut: `C57_one_short` |
| C58 | partial | Python's `repr` of bytes and its evaluation, then C16 and C19. Objects made with an explicit description and unknown TREs have a state but cannot be restored: `C58_explicit_description`, `C58_unknown_tre` |
| C59 | partial | UTF-8 coder inverse to decoder. Text that is not UTF-8 cannot be copied: `C59_not_utf8` |
| C60 | proved | The keys and which DES keep their data are specified apart from the model (`SegKey`, `FieldDes`). C16 and C58 for the copies, `Frame` for the fields outside the cleared areas, C50 for the merge. Through a JSON file a delta with an unknown TRE cannot be restored (C58). Which data a copied segment has is `DataKept`, apart from the model |
| C61 | partial | `DesData.lean` models the field DES, text, raw and placeholder classes and the handler dispatch; C01/C03 for the fields. False for copies of DES with bytes after the fields, for printing a DES whose length changed since it was read and for values that do not survive writing: `C61_copy_loses`, `C61_print_changed`, `C61_print_rewrites`. `C26_standard_partial` instantiates the file round trip with these classes. Data of DES without a class: `C61_plain` |
| C62 | proved | `Format.lean` models the printf formats of the tables, `_tre_rpc_coeff_format` and `float_to_fixed_width` on signed rationals; `formatSource` takes the format texts from the translated tables. Format texts are read back from any spelling (`C62_format_text`). The floats are a structure `Doubles`: formatting is exact, parsing has relative error 2^-53 (an instance is given). Second writes: the error is too small to reach another rounding. The formats of all float fields are checked by a table scan. The default format raises exactly if the text does not fit (`C62_default_raises`) |
| C63 | partial | `Settle.lean`: replace every float and optional text by what its bytes are read as; no row of a shipped table refers to such a field (table scan), so the new struct is written alike and survives (C01). False for text of dashes in dash-filled fields: `C63_dash_text` |
| C64 | partial | `ExtContent.lean` models the two classes, the files on disk as a function from path to content that may be different at each step, and the dispatch; built on C46. False for content other than HDF5 (`C64_other_content_zeros`), a file that changes its length (`C64_stale_length`), a second file after reading (`C64_attach_after_read`), no size (`C64_no_size`, `C64_new_text`) |
| C65 | partial | `Print.lean` models the lines; `str(v)` and the source text of loop counts are parameters. The lines are compared with an independent list of all elements (`allItems`); induction over the description. The texts of names, values, indices and heads of loops are given exactly (`C65_name`, `C65_text`, `C65_head`, `C65_heads`). A record that was read can be printed (`C65_read_prints_partial`, `C65_shipped_read_partial`). False for frame times of 5 to 7 bytes: `C65_frame_time_size` |
| C66 | proved | `Csexrb.lean` models the methods on the CSEXRB tables; the objects are a heap of ids, UUIDs are inputs. Induction over the calls with the invariant that the loop holds exactly the ordered set of ids and the count is its size |
| C67 | partial | `SaveLoad.lean`. The values read are those written (`Loaded`), the TREs read from an area are placed there again (`place_again`: replaying first-fit on its own result), so every step of the writer stores what is there already and the bytes are the same (`writeFile_settled`). Fails with overflow: `C67_overflow_swaps` |
| C68 | partial | `ReadReady.lean`: an invariant of the reader (every cell was parsed from bytes of its field, so no literals and well-typed TRE areas) gives the conditions of C26 and C67 for an object read from any bytes, except those of `Savable` (TREs and user subheaders survive being written, no leftover area). `C68_grows`: with a leftover area every round adds a copy |
| C69 | proved | `Overflow.lean`: the cells of a new overflow segment, and an induction over the segments giving the list of headers with their overflow segments; together with C22 and the reader lemmas of C26. The specification names headers by `Owner`, with its own tables of labels and field names |
| C70 | proved | `WriteOk.lean`: `write` is split into what happens before the first byte (`prepareFile`) and after it (`writePrepared`); one header update succeeds if the field was written and the value fits, and induction over the segments. The limits of the specification are numbers of their own, compared with the header table. When `prepareFile` itself succeeds is C22. `C70_too_many_des`: more than 999 DES, not counting TRE overflow, are not written |
| C71 | partial: the code writes interleaved copies wrongly | `ImageCopy.lean`: `copyImg`, `writeImg`; C16 for the header, C35 for the addresses. `C71_copy_partial` for band sequential or single band images, `C71_interleaved` says exactly what is read otherwise, `C71_wrong` that it is not the original. Without a supported pixel type there is no copy (`C71_no_type`) |
| C72 | partial: documents without namespace are not read | `Illuma.lean`: `xmlParse` models the part of ElementTree in use (cutting, tokens, tree, namespaces), `illumaBytes`, `illumaRead`, `illumaReadTre`. `C72_written_read` for any object state, `C72_round_trip_partial` for floats, `C72_int_becomes_float`, `C72_writable`; `C72_no_namespace` is the negation for every document without namespace; `C72_quotes`: attributes in either kind of quote |
| C73 | partial: lines about user subheaders and some DES do not name the segment | `DiffLog.lean` gives the handlers of C44 their log and context. `C73_file`, `C73_segment`, `C73_object` for any honest handlers, `C73_default_partial` and `C73_contexts` for the default ones; the result is that of the comparison of C44 (`Erases`). Negations: `C73_segment_not_named`, `C73_user_subheader_not_named`. Lines about TREs and subheaders of segments: `C73_tre`, `C73_subheader` |
| C74 | partial: arrays of earlier images are lost when the map is moved for a further one | `View.lean`: the file with its memory map, arrays with the move count of the map they were made for. `Writing` runs any sequence of writes, images, pixel changes and header updates beside the list of what was written; `C74_session_partial` and `C74_not_moved` by induction over it, with the tiling of C35. `C74_written`, `C74_read`, `C74_other_modes`. Negation: `C74_moved` |
| C75 | partial: assigning `data` and merging a delta break it | `Shared.lean`: the objects of a session with their references, one step per operation. `C75_agree_partial` and `C75_ties` by induction over the session, `C75_seen`, `C75_apart` (needs that installed headers are not those of other objects), `C75_merge`, `C75_delta`. Negations, for all states: `C75_assign`, `C75_base`, last part of `C75_delta` |
| C76 | partial: the verdict is missing from the log with `--quiet`, and no JSON configuration can be used | `DiffProg.lean`: the whole program, with what it works with (reading JSON, opening files, the comparison) as a parameter. `C76_status`, `C76_verdict`, `C76_options`, `C76_screen`, `C76_log_partial`, `C76_printed`, `C76_quiet`, `C76_color`, `C76_screen_log`, `C76_lines`; `C76_found` joins it with C73. Negations: `C76_quiet_log`, and for all configurations `C76_config_fails`. Not modelled: Python configuration files, plugins, warnings about TREs (they go to the screen even with `--quiet`) |
| C77 | partial: default handlers cannot be discarded from a comparison, and classes deriving from one another share or split their sets depending on order | `Defaults.lean`: default sets by owning class (lookup along the method resolution order), sets of files and comparisons. `C77_file`, `C77_diff`, `C77_default_partial` by induction over the program, `C77_file_discard`. Negations, for all programs: `C77_diff_discard`, `C77_diff_again` (with C30); with witnesses `C77_derived`, `C77_base` |
| C78 | partial: segments in no file, merged files and text that is not UTF-8 | `PrintFile.lean`; texts of the parts are parameters. Exact text from the texts of the parts, as an equivalence (`C78_file`, `C78_summary`, `C78_segment_partial`, `C78_segment_summary`), nothing left out (`C78_order`), origin of exceptions (`C78_error`), hooks (`C78_tre`, `C78_raw`, `C78_no_hooks`), the program (`C78_info_partial`). Negations: `C78_no_file`, `C78_merge_report_raw`, `C78_info_raw_merge`, `C78_text_fails`, `C78_counts` |
| C79 | partial: fails with TRE overflow and for parts that were removed | `DeltaDiff.lean` at the level of `FileDiff`; copies are parameters (C58, C60). `C79_same_partial` is an equivalence from `C44_file`; `C79_error` for data not found. Negations for all files: `C79_overflow`, `C79_removed` |
| C80 | partial: a segment updates the header of the file it was last appended to | worlds of file and segment objects with weak references, `fh_loc` kept over writes, writing at positions. `C80_alone_partial`: lock step simulation with `writeFile`; `C80_session_partial`: invariant of sessions. Negations: `C80_raises` (all worlds), `C80_corrupted`, `C80_orphan`, `C80_other_changed` |
| C81 | partial: a length that does not fit stays in the file header | `NitfFile.write` as a program that lists every state of the object (`states`); `C81_attempt`: same result as `writeFile`. `C81_untouched`: invariant of all states. `C81_interrupted`, `C81_interrupted_often`: a file that can be written gives the same bytes after any number of interrupted writes. `C81_retry_partial`: the same for a write that failed and a file repaired since, if the lengths in the header fit. Negations: `C81_stuck` (all files), `C81_stale` |
| C82 | partial: `get_raw_bytes` of an absent element, an unchecked outer index and the extra data of a DES show the old record | `C82_read_again_partial`: for all causal tables and all histories (`Used`), same error, or same rest and `SameRecord` (items, values, raw bytes, written bytes); `C82_shipped` for all shipped tables; `C82_des_partial` for DES. Negations: `C82_des_old_extra`, `C82_raw_absent`, `C82_outer_index` |
| C83 | partial: fields are stale until `update_raw_field`, fields of a DES can be assigned without effect, truncated records are accepted | `C83_format`, `C83_written` (any operations), `C83_fields` (any earlier use, by `readInto_any`), `C83_refused`, `C83_round_trip`, `C83_copy`, `C83_plain_reader`, `C83_fallback`, `C83_other_tag`, `C83_des_round_trip`, `C83_des_other`, `C83_des_position`. Negations: `C83_not_text`, `C83_stale`, `C83_second_look`, `C83_truncated`, `C83_raw_stale`, `C83_des_ignored`, `C83_des_ignored_case`, `C83_des_length`, `C83_des_overrun` |
| C84 | partial: iteration, `keys`, `popitem`, `clear`, `del` and `pop` of a present label raise; the limits of C41 on data | `C84_file` (entries survive a file), `C84_history_partial` (any sequence of stores and files, by induction), `C84_in`, `C84_get`, `C84_setdefault_partial`, `C84_update`, `C84_not_a_pair`, `C84_pop_absent`, `C84_hash` (exact). Negations: `C84_iter`, `C84_pop_present`; `C84_hash_twice` |
| C85 | proved | `Props/Meaning`: the meaning of bytes as a relation `Says` (digits, signs, blanks, positional notation, two's complement, fills), no function of the model in it. `C85_shows` (for any bytes, element shows v iff its bytes say v), `C85_read` (without literals every text or number field shows a value), `C85_shipped` |
| C86 | proved | `Props/Sense`: the value of an expression as an inductive relation `Means` (Python's equality, truth, floor division, bits, `int`, `rstrip`), proved equal to evaluation (`eval_iff`). `C86_written`, `C86_read`, `C86_absent`, `C86_one_value`, `C86_shipped` |
| C87 | proved | `Props/Spell`: the spelling of a value as a relation `Spells` (`Decimal`: sign, digits, number denoted, width), no function of the model in it except the value shown. `C87_written` (iff), `C87_raises`, `C87_data`, `C87_one_spelling`, `C87_shipped`. Floats: the text is `P.fixedWidth` or `P.fmt`, specified in C45 and C62 |
| C88 | proved | `Props/Split`: the splitter `pieces` (30 lines, from the format: no table, field or expression of the model), `C88_pieces`: on the bytes of every written file it gives the header and, kind by kind, what `WrittenAs` says was written for each segment; `C88_magic`: the first nine bytes. Hypotheses as in C25 (no literal in the header, segments linked to the file, C29) |
| C89 | proved | `Props/Finds`: readers from the format alone (`area`, `fileHeader`, `imageHeader`, `graphicHeader`, `textHeader`, `tres`, `allTres`, about 90 lines, no table or expression of the model). `C89_file`, `C89_image`, `C89_graphic`, `C89_text`: what they find in a written header is what the fields of the areas show. `C89_tres`, `C89_found`: the TREs in the areas and the overflow segment. `C89_file_tres`, `C89_image_tres`, `C89_text_tres`: the whole file. Hypotheses: as C88; areas unused before; for images `xbands` not below 0 (a negative one is written as text the format does not know) |
| C90 | partial | `Props/Graphic`: false. `C90_graphic` says exactly what is found: a sublist of the TREs, all of them just if together they are below 99996 bytes; `C90_lost` is the negation (with a concrete file), `C90_fits_partial` the case that holds |
| C91 | proved | `Props/Limits`: `pieces_some` (about the splitter of C88 alone: what it takes apart is within the limits and is the whole file), `C91_within`, `C91_too_many`, `C91_too_large` |
| C92 | partial | `Props/Limits`: false. `C92_text_raises`, `C92_graphic_raises`: every file with a text (graphic) segment whose TREs together have 9715 (9739) to 99995 bytes raises on write. `C92_text_partial`, `C92_graphic_partial`: up to 9714 (9738) bytes the subheader fits |
| C93 | proved | `Summary.lean`, `Props/Summary`: the templates with the attributes they name (a finite check over the tables that every one is a single unconditional field, `C93_templates`) and a theorem that such a field always has a value, in what was read (`gets_of_read`) and in what can be written (`gets_of_written`). `C93_tre_read`, `C93_tre_written`, `C93_header_read`, `C93_header_written`, `C93_sub_read`, `C93_sub_written`, `C93_file`, `C93_read`, `C93_counts`; the summaries of the DES classes, `C93_des_templates`, `C93_des`. The whole summary line by line: `C93_all` |
| C94 | partial | `Explore.lean`, `Props/Explore`: the commands, branch by branch, over files given by what the program asks of them. `C94_list`, `C94_list_tre`, `C94_print_at`, `C94_save_des`, `C94_load_default`, `C94_display`, `C94_diff`, `C94_completion`; the commands of the help text (`Documented`) do not raise, `C94_documented_partial`, `C94_session_partial`. False: a file loaded under another alias is never used (`C94_load_useless`, a simulation over all sessions); `print` and `image` alone, `image diff` out of range, words that are no numbers and `print` of the segments of a merged file end the program (`C94_print_alone`, `C94_image_alone`, `C94_diff_range`, `C94_not_a_number`, `C94_merged`); `print tre` lists the TREs of the file without printing them (`C94_print_tre`); `help`, `exit` and `files` are not completed, `save_des` is offered twice (`C94_completion_missing`) |
| C95 | partial | `ImageLayout.lean`, `Props/ImageLayout`: the layout of the standard (`Image.place`, four modes, blocks with fill) written down apart from the model, and the reader's addresses (C35). `C95_right_iff` says for exactly which layouts an accepted image is shown right (`C95_right_partial`), `C95_accepted` which are left to other readers, `C95_taken` when all of the data is taken. False for one-block pixel-interleaved images and for blocks with fill: `C95_wrong`, `C95_wrong_fill` |
| C96 | proved | `Image.lean` (`setDefaultImage`), `Props/NewImage`: the result is described by a record of attribute reads (`Reads`) apart from the order of the statements; `C96_filled` for every subheader, induction over the bands; `C96_raises`. That sizes above 9999 cannot be written afterwards is `C35_large_unwritable` |
| C97 | proved | `ImageFile.lean`: the image classes as data handlers of a file (`imgIO`), `Props/ImageFile`: what an image holds (`Content`, `SegHolds`, `Shows`) is stated for pixels, apart from the layout; `C97_new` (new images), `C97_loaded` (any image read from any bytes), `C97_file` (through write and read, by C26 and C35), `C97_ready` (new images meet the conditions of C26), `C97_new_file` (a file made from scratch, no conditions on the state left). An example writes and reads two images in different modes |
| C98 | proved | `StandardSpec.lean` lists the fields as the tables of the standard do, without the descriptions of the model; `Props/Standard`: `C98_*_written` and `C98_*_read` for the six headers (names, loop indices, widths, and that each piece is the text of its field), `C98_total`, `C98_lengths`, `C98_place`, `C98_places`. `Props/StandardFile`: `C98_file`, every written file: the file and header lengths at 342 and 354, the counts and segment lengths at the places that follow from the widths, whatever the number of segments. Proved by taking `layout` apart along the tables. The standard itself is quoted from its text (not in the repository) |
| C99 | proved | `Props/TreLength`: the lengths are listed as in STDI-0002 (`treLengths`); `C99_written`, `C99_fixed`, `C99_read`, `C99_csatta`, from a lemma for all tables without optional fields (`linear_sizes`) |
| C100 | proved | `Props/NewFile`: `C100_writes_iff`, `C100_round_trip`; all fields of a new subheader and of the file header are shown to be writable from their cells (`Ready.lean`), lengths by C98, then C70 and C97. TREs are left out (areas can overflow, C24) |
| C101 | proved | `Props/NewText`: `C101_writes_iff`, `C101_ready`, `C101_round_trip`; the header for any numbers of segments and all fields of a new text subheader are shown to be writable from their cells (`Ready.lean`), lengths by C98, then C70, C97 and C26 |
| C102 | partial | `Props/MaxPrec`: `C102_shows`, `C102_always`, `C102_same`, `C102_default`; the last claim holds for 0 ≤ n ≤ 10^(w-5) and w ≥ 8 (`C102_never_worse_partial`: exponents give a finer grid, and rounding finds a nearest point of it); it fails for negative numbers, larger ones and shorter texts (`C102_worse_negative`, `C102_worse_large`, `C102_worse_short`, `C102_can_be_worse`) |
| C103 | partial | `RadCalc.lean`, `Props/RadCalc`: slices, broadcasting and assignment of numpy in three dimensions. `C103_writes_iff`, `C103_pixels_partial` for the mode that generates everything at once. In all other modes the callback raises (`C103_other_modes`, `C103_not_all_modes`) |
| C104 | partial | `UserSize.lean`, `Props/UserSize`: `C104_size` (size, `desshl` and length of the subheader), `C104_put` (whenever there is a size), `C104_too_long`, `C104_fits_partial` (up to 9799 bytes the subheader is short enough). False from 9800 bytes on: every file with such a DES raises, `C104_raises`, `C104_limit_missed` |
| C105 | partial | `Props/AssocSize`: `C105_size` (the length, for every user subheader that can be written), `C105_fits_partial` (short enough for the file header if and only if the levels, elements and reserved bytes come to at most 9753 bytes). False from 271 elements on: `C105_raises`, `C105_count_missed` |
| C106 | proved | `Props/UserClass`: `C106_runtime` (RuntimeError for one segment), `C106_class` (for files that are written), `C106_free` (other ids). Classes stand for their descriptions; a subclass with another description is not modelled |

## What the code does wrong (proved unless marked)

1. Graphic segments with TREs cannot be read: the area list says `sxsofl`, the
   field is `sxofl` (C52).
2. TRE areas that get no TREs keep their old content (C23, C24) and may keep an
   old overflow number (C27).
3. When all TREs are too large for an area and the area is unused, writing
   raises (C22).
4. TREs change their order when they overflow or by first fit (C23 is up to
   order).
5. After reading, segment lists are plain lists: appended segments are not
   linked (C29).
6. An unknown TRE with truncated data is accepted (C19 covers complete ones).
7. Corner coordinates: hemisphere lost (C37), UTM axes exchanged and digits lost
   (C38).
8. One-block pixel-interleaved images are misread; the numpy writer works in one
   mode only; more than 9999 rows or columns cannot be written (C35).
9. Only the last index of a nested field is checked (C15). In ILLUMB, RSMECB, CSCSDB and CSSFAB
   this lets one assign and read elements outside the loops, which are never written.
10. `NitfSecurity.__eq__` ignores codewords and encryption (C32).
11. `SegmentDiff` ignores a user subheader only the second segment has, images
    without reader always compare equal, unknown TREs that are not UTF-8 make
    the comparison raise (C44).
12. Values set before a delayed read are lost (C47).
13. ENGRDA: big-endian arrays stored swapped, the caller's array swapped in
    place, read-only arrays and non-ASCII text raise half way (C41).
14. Content headers: separators inside values break or inject lines (C46).
15. Duplicate field names in SENSRB and CSCSDB (C18).
16. Reserved fields lose their content on read and write (C02).
17. User subheaders of DES without class and of RES are lost (C26).
18. `complex128` images and a band count of zero (C34, C33).
19. `float_to_fixed_width` below width 2 raises NameError (C45).
20. `add_display_level` on `numais` "ALL" raises; ids with trailing blanks are
    added again (C39).
21. A JSON merge re-points the data of the base file (C50).
22. docopt converts a number followed by a newline (C48).
23. A fixed-size data field keeps a rejected value (C13).
24. `NitfLiteral(value, trunc_size)` keeps one byte too few (C57).
25. Objects made with an explicit description and unknown TREs cannot be
    unpickled; text that is not UTF-8 cannot be copied or pickled (C58, C59).
26. `str(des)` writes and re-reads the fields: it raises once the length has
    changed, and changes values that do not survive writing; copying a DES
    drops the bytes after its fields (C61).
27. SENSRB: no negative distortion coefficient and no focal length, row or column metric of 10 or
    more can be written; RPC coefficients from 9.9999995e9 to 1e10 raise (C62).
28. A file with an EXT_DEF_CONTENT DES that is not HDF5 loses the content when it is read and
    written: zeros are written (C64).
29. CSEXRB and MTIMSA with frame times of 5, 6 or 7 bytes are read and written, but cannot be
    printed and the times cannot be accessed (C65).
30. C67: a header whose TREs overflow comes back with the TREs of the overflow segment first, so loading and saving the file exchanges what is in the header and in the overflow segment (`C67_overflow_swaps`); C23 has the order of the list, this the bytes of the file.
31. C68: a file whose file header has TREs in UDHD and none in XHD gets another copy of all of them every time it is loaded and saved (`C68_grows`, for any number of rounds until XHD is full).
32. C69: the overflow segment of the file header gets desitem 1, like that of the first image (`Owner.item`), because the file header is passed as segment index 0; MIL-STD-2500C asks for 0 there. Reading does not use the field.
33. Copies of pixel-interleaved images are scrambled when written (nitf_image.py:445-450): the copy keeps the header with `imode` "P" but is always written one band after the other (`C71_interleaved`, `C71_wrong`).
34. The values of an ILLUMA document without namespace are ignored (nitf_tre_illuma.py:73, `C72_no_namespace`): the element found is combined with `or`, and an element without children is false. Also, read but not modelled: the class has no field table, so comparing two files with an ILLUMA TRE, or copying the TRE with `copy.deepcopy`, raises AttributeError.
35. Differences in the data of CSATTA, CSATTB, CSCSDB, CSEPHB, CSSFAB and external content DES, and in user subheaders, are logged in a context that replaces that of the segment, so that the log does not tell which segment differs; for CSATTA the context is "DesCSATTB" (nitf_des_csatta.py:53, `C73_segment_not_named`).
36. A memory map is made longer for each further image in a file (nitf_image.py:403-405). The system may have to move it; numpy arrays made over the map before keep the old address, so that `data_written` of the earlier images reads and writes memory that is no longer mapped (`C74_moved`). Images in one of the modes that cannot be chosen at creation raise a KeyError after the data was written (`C74_other_modes`).
37. Merging a delta gives the data of the base file the headers of the delta (nitf_file_json.py:185) but leaves the segment of the base file with its own, so that this segment no longer agrees with its data (`C75_base`). A delta that includes data has two separate copies of the headers until it is merged (`C75_delta`), and `seg.data = x` leaves the segment with its old headers (`C75_assign`).
38. A JSON configuration file can not be used with nitf_diff: `_update_dict` uses `collections`, which nitf_file_diff.py does not import, so that any configuration that is not empty raises NameError (nitf_file_diff.py:57, `C76_config_fails`); the status is 1, as for files that differ. With `--quiet` and a log file, the log gets the verdict "Files are different" but not "Files are the same" (bin/nitf_diff:145-155, `C76_quiet_log`).
39. `NitfDiff` starts with a deep copy of the default handlers (nitf_file_diff.py:24), so its handlers are other objects than those registered: discarding a default handler from it does nothing (`C77_diff_discard`), and adding one again makes comparisons fail with "Multiple handles" (`C77_diff_again`). A class deriving from a handler set class shares the default set of its base class if that exists already, and has its own otherwise (`C77_derived`, `C77_base`).
40. A segment with TREs that is in no file (or whose file object is gone) cannot be printed (nitf_segment.py:130, `C78_no_file`). A `NitfFileMerge` has no `report_raw`, so with a hook it cannot be printed unless the caller sets it (`C78_merge_report_raw`); `nitf_info --report-raw` with a delta sets it on the merged file only, the segments of the file itself are not reported raw (`C78_info_raw_merge`). A file with a text segment that is not UTF-8 cannot be printed (nitf_text.py:26, `C78_text_fails`). The numbers of segments in a summary are those of the header, not updated until the file is written (`C78_counts`).
41. A delta leaves out the TRE_OVERFLOW segments, so a file with TRE overflow and another DES is never reported the same as its own delta (nitf_file_json.py:152, nitf_file_diff.py:127, `C79_overflow`). TREs, images, texts or DES cannot be removed by a delta: where the new file has none, those of the gold file are compared (nitf_file_merge.py:38-78, `C79_removed`); a delta never covers graphic and RES segments.
42. A segment belongs to the file it was last appended to. Written as part of another file it updates the header object of its owner and writes the lengths where the owner's header had them, so that the file written is corrupted, or a KeyError is raised if the owner was not written (nitf_file.py:29-31, nitf_segment.py:180-185, C80).
43. `update_field` assigns before it formats (nitf_field.py:935-939, 349-362): when a write fails because the data of a segment is too long, the length stays in the file header, and every later write of the object fails when the header is written, even after the data is replaced by short data (`C81_stuck`). Only assigning the length field of the file header by hand helps.
44. A DES object that is read again from a segment without data after its fields keeps the extra data of the earlier read and writes it (nitf_des.py:38-62, `C82_des_old_extra`).
45. Implementation classes (nitf_tre.py:28-107, nitf_des.py:25-109): the fields of a DES can be assigned but the object is written (`C83_des_ignored`, only `tre_implementation_field` is looked at, nitf_field.py:294); `update_raw_field` of a DES read from a file raises RuntimeError once the object has another length (`C83_des_length`); an object giving bytes that are not UTF-8 is written but comes back as TreUnknown (`C83_not_text`); a truncated TRE is accepted (`C83_truncated`); if the table cannot read the object's bytes the first look raises and the second shows old values (`C83_second_look`).
46. `list(t)`, `t.keys()`, `t.values()`, `t.popitem()` and `t.clear()` of an ENGRDA TRE with an entry raise NameError (`_as_array` in nitf_tre_engrda.py:191-192 is not a name; `C84_iter`), `del t[k]` and `t.pop(k)` NotImplementedError; `t.items()` is that of the fields.
47. The number of the overflow segment of a graphic segment is written to `sxsofl`,
   which is not a field, so the subheader says 000 and TREs in the overflow
   segment belong to no segment (C90).
48. TREs go to an overflow segment only from 99996 bytes on, but the subheader of a
   text or graphic segment must stay below 10000 bytes: in between, the file
   cannot be written (C92).
49. **C94** `explore_nitf`: every command is for the file with alias `default`, so `load alias path` is useless for any other alias; `print` alone, `image` alone and `image diff i j` with `j` too large raise, as does `print image|text|des` for a merged file (`vars(f)` has no such key); `print tre` prints the TREs of the segments in full but only the tags of those of the file.
50. **C95** `NitfImageReadNumpy` accepts any single block, whatever NPPBH and NPPBV: with fill at the edges of the block the pixels are taken from wrong places (`C95_wrong`), the file is read on from the middle of the image and a copy of the image is too short (`C95_wrong_fill`); one-block images interleaved by pixel are shown as band sequential.
51. Images with more than 9999 rows or columns can be made, but not written: `nppbh`, `nppbv` or `nbpc` get the number of columns or rows (nitf_image_subheader.py:402-405, nitf_image.py:316-319), which have four digits; the standard has 0000 for this (C100).
52. C102: `float_to_fixed_width(..., maximum_precision=True)` compares the signed number with `10 ** (5 - max_width)`, so every negative number gets an exponent: -123.4375 in ten characters becomes `-1.234e+02` instead of `-123.43750`. Numbers above `10 ** (max_width - 5)` lose digits too: 123456.75 becomes `1.2346e+05` instead of `123456.750`.
53. C103: `NitfRadCalc.data_to_write` (like `NitfImageWriteNumpy.data_to_write`) asks for `d.shape[2]`, but in the modes by band and by row the array handed over has two dimensions: writing raises IndexError.
54. C104: `user_subheader_size` is documented for checking against the limit of `desshl` (9999), but the length of the whole DES subheader, 200 bytes more, has four digits in the file header: every file with a user subheader of 9800 to 9999 bytes raises when it is written.
55. C105: `add_assoc_elem_id` takes up to 999 elements, but a file with a DES that has more than 270 of them raises when it is written.
56. Read, not modelled: `WeakKeyValueDict.pop(key, default)` returns a weak
    reference; writing to the file a
    placeholder was read from truncates the source; `NitfDataPlaceHolder`
    cannot be written; a new PIXMTA cannot be written.

## Mutation tests

Every line of `seeded/LOG.jsonl` is one wrong program: one definition of the
model is edited in a scratch copy, all dependent modules are elaborated again
with failing theorems replaced by `sorry`, and the property theorems that fail
or depend on a failing one are listed. Where a claim became false without a
theorem failing, the theorem was strengthened (`tightened`).

## Not modelled

GDAL, h5py and jsonpickle interoperability, memory mapping,
the parts of XML that ILLUMA does not write (comments, references, CDATA), geocal plug-in objects
themselves (the hook for them is C83), the command line
programs other than nitf_diff, nitf_info and nitf_json_delta, weak references
other than `nitf_file`, a file that changes while it
is read. The coordinate kinds of fields are treated as the text or float field
they format to.
