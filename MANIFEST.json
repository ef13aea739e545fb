{
 "claims": [
  {
   "property": "C01",
   "status": "proved",
   "theorems": [
    "Verif.Props.C01_round_trip",
    "Verif.Props.C01_round_trip_normal_form"
   ],
   "note": "Encode then decode, all grain types, versions 7-9, unbounded grain/segment/tag counts. Quantified over files whose fields fit their fields (FileSpec.Ok)."
  },
  {
   "property": "C02",
   "status": "proved",
   "theorems": [
    "Verif.Props.C02_grain",
    "Verif.Props.C02_head",
    "Verif.Props.C02_file"
   ],
   "note": "An independent block walker parses everything the encoder writes and the sizes tile exactly."
  },
  {
   "property": "C03",
   "status": "proved",
   "theorems": [
    "Verif.Props.C03_uint",
    "Verif.Props.C03_uint_any",
    "Verif.Props.C03_sint",
    "Verif.Props.C03_sint_any",
    "Verif.Props.C03_sint_range"
   ],
   "note": ""
  },
  {
   "property": "C04",
   "status": "proved",
   "theorems": [
    "Verif.Props.C04_unknown_blocks_ignored",
    "Verif.Props.C04_unknown_blocks_ignored_any"
   ],
   "note": "DecoFile lists the insertion points; inside grai a block before gbhd is not ignored by the code (see C26)."
  },
  {
   "property": "C05",
   "status": "proved",
   "theorems": [
    "Verif.Props.C05_truncated",
    "Verif.Props.C05_truncated_plain",
    "Verif.Props.C05_any_file"
   ],
   "note": "Truncation after the head: the decode is a prefix of the full decode; only the last grain returned may have shortened data."
  },
  {
   "property": "C06",
   "status": "partial",
   "theorems": [
    "Verif.Props.C06_reported_partial",
    "Verif.Props.C06_counterexample",
    "Verif.Props.C51_cut_head"
   ],
   "note": "Proved for every cut of every written file except inside flow metadata that ends the head; there the code violates it (witness proved). On standard input it holds for every cut (C51_cut_head)."
  },
  {
   "property": "C07",
   "status": "partial",
   "theorems": [
    "Verif.Props.C07_prefix",
    "Verif.Props.C07_exact_break",
    "Verif.Props.C07_exact_eof",
    "Verif.Props.C07_written",
    "Verif.Props.C07_malformed_counterexample"
   ],
   "note": "Filtering is exact for every file whose grain blocks all contain a grdt block (all written files); for malformed files the code violates it and the violation is proved by witness."
  },
  {
   "property": "C08",
   "status": "proved",
   "theorems": [
    "Verif.Props.C08_modes_agree",
    "Verif.Props.C08_modes"
   ],
   "note": ""
  },
  {
   "property": "C09",
   "status": "proved",
   "theorems": [
    "Verif.Props.C09_concatenated",
    "Verif.Props.C09_first_only"
   ],
   "note": ""
  },
  {
   "property": "C10",
   "status": "proved",
   "theorems": [
    "Verif.Props.C10_accepts",
    "Verif.Props.C10_bad_file_type",
    "Verif.Props.C10_not_text",
    "Verif.Props.C10_bad_version",
    "Verif.Props.C10_short",
    "Verif.Props.C10_concatenated",
    "Verif.Props.C10_concatenated_bad_version"
   ],
   "note": ""
  },
  {
   "property": "C11",
   "status": "proved",
   "theorems": [
    "Verif.Props.C11_terminates",
    "Verif.Props.C11_progress"
   ],
   "note": ""
  },
  {
   "property": "C12",
   "status": "proved",
   "theorems": [
    "Verif.Props.C12_streaming",
    "Verif.Props.C12_streaming_unseekable",
    "Verif.Props.C12_all_at_once",
    "Verif.Props.C12_dump",
    "Verif.Props.C12_decoded"
   ],
   "note": "For the first dump of an encoder, any edits before and during the dump; repeated dumps are C18."
  },
  {
   "property": "C13",
   "status": "proved",
   "theorems": [
    "Verif.Props.C13_modes_agree"
   ],
   "note": ""
  },
  {
   "property": "C14",
   "status": "partial",
   "theorems": [
    "Verif.Props.C14_header_frozen_partial",
    "Verif.Props.C14_only_declared_grains_partial",
    "Verif.Props.C14_stale_handle_counterexample"
   ],
   "note": "Proved for every history of the synchronous interface that uses only the open handle; violated by the code when a handle is used after its block ended."
  },
  {
   "property": "C15",
   "status": "partial",
   "theorems": [
    "Verif.Props.C15_handle_partial",
    "Verif.Props.C15_segment_grains_lost",
    "Verif.Props.C15_segment_added_counterexample"
   ],
   "note": "Violated by the code: grains given to a segment are lost (proved for all states), segments can be added through the encoder. Calls through the asynchronous handle keep the freeze."
  },
  {
   "property": "C16",
   "status": "partial",
   "theorems": [
    "Verif.Props.C16_local_ids_partial",
    "Verif.Props.C16_async_counterexample"
   ],
   "note": "Proved for every synchronous history (encoder and open handle, interleaved with all other operations); with an asynchronous handle open the two counters diverge and an automatic id is refused."
  },
  {
   "property": "C17",
   "status": "proved",
   "theorems": [
    "Verif.Props.C17_existing",
    "Verif.Props.C17_new_segment",
    "Verif.Props.C17_new_segment_sync"
   ],
   "note": ""
  },
  {
   "property": "C18",
   "status": "partial",
   "theorems": [
    "Verif.Props.C18_repeated_dump_partial",
    "Verif.Props.C18_counterexample"
   ],
   "note": "Violated by the code: counts are cumulative over dumps, so the second file declares more grains than it holds."
  },
  {
   "property": "C19",
   "status": "partial",
   "theorems": [
    "Verif.Props.C19_partial",
    "Verif.Props.encoded_data_block",
    "Verif.Props.C19_pending_counterexample",
    "Verif.Props.C19_truncated_counterexample",
    "Verif.Props.C19_items_counterexample"
   ],
   "note": "Proved for grains with nothing left to load and data whose len is its byte count. Violated by the code for a grain with a pending load, for an IOBytes over a truncated file, and for data whose len counts items wider than a byte."
  },
  {
   "property": "C20",
   "status": "partial",
   "theorems": [
    "Verif.Props.C20_optional_fields_partial",
    "Verif.Props.C20_absent_before_v9",
    "Verif.Props.C20_sentinel_v9"
   ],
   "note": "The code violates the property for absent fields before version 9 and for the reserved offset in version 9; both violations are proved in general."
  },
  {
   "property": "C21",
   "status": "partial",
   "theorems": [
    "Verif.Props.C21_fitting_strings",
    "Verif.Props.C21_truncated_partial",
    "Verif.Props.C21_truncated_tag_partial",
    "Verif.Props.C21_counterexample"
   ],
   "note": "First half proved; second half violated by the code when a cut splits a character (witness proved)."
  },
  {
   "property": "C22",
   "status": "partial",
   "theorems": [
    "Verif.Props.C22_timestamps_partial",
    "Verif.Props.C22_negative_v7"
   ],
   "note": "Violated by the code for negative timestamps in version 7 (proved in general)."
  },
  {
   "property": "C23",
   "status": "proved",
   "theorems": [
    "Verif.Props.C23_decode_groups",
    "Verif.Props.C23_written",
    "Verif.Props.C23_async"
   ],
   "note": "C23_async: the same for all bytes when the file is asynchronous (not AsyncBytesIO, for which see C71)."
  },
  {
   "property": "C24",
   "status": "partial",
   "theorems": [
    "Verif.Props.C24_open",
    "Verif.Props.C24_schedules",
    "Verif.Props.C24_same_grains",
    "Verif.Props.C24_await",
    "Verif.Props.C24_leave",
    "Verif.Props.C24_bytesio_partial",
    "Verif.Props.C24_bytesio_complete",
    "Verif.Props.C24_bytesio_single",
    "Verif.Props.C24_one_at_a_time",
    "Verif.Props.C24_event_counterexample",
    "Verif.Props.C24_bytesio_counterexample",
    "Verif.Props.C24_concurrent_counterexample"
   ],
   "note": "For the file wrappers: proved for all bytes and all schedules of generator steps, awaits and assignments, when no event grain has deferred data. Violated for event grains in the default mode (AttributeError), for AsyncBytesIO on truncated files (no difference on files written whole: C24_bytesio_complete), and when grains are awaited at the same time (the shared file position is overwritten)."
  },
  {
   "property": "C25",
   "status": "partial",
   "theorems": [
    "Verif.Props.C25_leave_exact",
    "Verif.Props.C25_counterexample"
   ],
   "note": "Violated by the code: after every program leaving loads only the first remaining grain and raises RuntimeError; ends normally exactly when no grain remains."
  },
  {
   "property": "C26",
   "status": "proved",
   "theorems": [
    "Verif.Props.C26_confined",
    "Verif.Props.C26_malformed_rejected",
    "Verif.Props.C26_short_child_misread"
   ],
   "note": "C26_short_child_misread shows a limit: children that claim too little are not detected."
  },
  {
   "property": "C27",
   "status": "partial",
   "theorems": [
    "Verif.Props.C27_keeps",
    "Verif.Props.C27_adds_only",
    "Verif.Props.C27_timestamps",
    "Verif.Props.C27_defaults",
    "Verif.Props.C27_class_defaults",
    "Verif.Props.C27_plain",
    "Verif.Props.C27_stable",
    "Verif.Props.C27_new",
    "Verif.Props.C27_data_counterexample",
    "Verif.Props.C27_video_counterexample"
   ],
   "note": "Proved for every metadata dictionary the constructor accepts: nothing supplied is lost (up to representation), only documented entries are added, fallbacks and defaults of every class, one representation, and construction again changes nothing. Violated by the code for grain_type data (replaced by event) and for a video grain whose cog_frame lacks format or layout (KeyError instead of a default)."
  },
  {
   "property": "C28",
   "status": "partial",
   "theorems": [
    "Verif.Props.C28_class",
    "Verif.Props.C28_type_agrees_partial",
    "Verif.Props.C28_unknown_counterexample"
   ],
   "note": "The class is the one named by grain_type for every dictionary; grain_type agrees with the class for every known, empty or missing type. Violated for an unknown type: a plain Grain keeps it."
  },
  {
   "property": "C29",
   "status": "partial",
   "theorems": [
    "Verif.Props.C29_partial",
    "Verif.Props.C29_timelabels",
    "Verif.Props.C29_unit_offsets",
    "Verif.Props.C29_list_insert",
    "Verif.Props.C29_list_slice",
    "Verif.Props.C29_list_step",
    "Verif.Props.C29_list_backwards",
    "Verif.Props.C29_slice_counterexample",
    "Verif.Props.C29_setSlice_counterexample",
    "Verif.Props.C29_iadd_counterexample",
    "Verif.Props.C29_iadd_loses"
   ],
   "note": "All list operations on a list that is present, by refinement to a python list. Violated by the code for a slice of an absent list, for slice assignment to timelabels, and for augmented assignment of the property, which erases all labels."
  },
  {
   "property": "C30",
   "status": "partial",
   "theorems": [
    "Verif.Props.C30_loaded",
    "Verif.Props.C30_assign",
    "Verif.Props.C30_assign_none",
    "Verif.Props.C30_pending",
    "Verif.Props.C30_load_once",
    "Verif.Props.C30_reads_pure",
    "Verif.Props.C30_at_most_once",
    "Verif.Props.C30_none_counterexample",
    "Verif.Props.C30_overlap_assign_counterexample",
    "Verif.Props.C30_overlap_await_counterexample"
   ],
   "note": "Proved for every history in which awaits do not overlap other operations and the load gives data; reads are pure and no coroutine starts twice in every history. Violated by the code when the load gives None, and when an await overlaps an assignment or another await."
  },
  {
   "property": "C31",
   "status": "partial",
   "theorems": [
    "Verif.Props.C31_tiles",
    "Verif.Props.C31_disjoint",
    "Verif.Props.C31_expected_length",
    "Verif.Props.C31_lines",
    "Verif.Props.C31_exact_planes",
    "Verif.Props.C31_odd_waste",
    "Verif.Props.C31_ayuv_counterexample",
    "Verif.Props.C31_compressed_layout"
   ],
   "note": "Components tile the data for every format and size and the expected length is their sum. Violated for AYUV, whose stride is half of a line; compressed formats get a planar layout."
  },
  {
   "property": "C32",
   "status": "proved",
   "theorems": [
    "Verif.Props.C32_audio_size",
    "Verif.Props.C32_sample_widths",
    "Verif.Props.C32_compressed"
   ],
   "note": "For every audio format, channel count and sample count."
  },
  {
   "property": "C33",
   "status": "partial",
   "theorems": [
    "Verif.Props.C33_round_trip",
    "Verif.Props.C33_round_trip_eq",
    "Verif.Props.C33_append",
    "Verif.Props.C33_refused",
    "Verif.Props.C33_dictionary_only",
    "Verif.Props.C33_plain_items",
    "Verif.Props.C33_surrogate_counterexample",
    "Verif.Props.C33_half_done_counterexample",
    "Verif.Props.C33_extra_key_lost",
    "Verif.Props.C33_pre_none_counterexample"
   ],
   "note": "Round trip through the bytes of json.dumps and json.loads, both modelled, for every payload whose strings have no high surrogate directly before a low one. Violated for such strings; an item that is refused leaves the grain half changed; floats are taken as the text of their repr."
  },
  {
   "property": "C34",
   "status": "partial",
   "theorems": [
    "Verif.Props.C34_tables_cover",
    "Verif.Props.C34_planar",
    "Verif.Props.C34_alpha",
    "Verif.Props.C34_kinds",
    "Verif.Props.C34_lookup_sound",
    "Verif.Props.C34_consistent",
    "Verif.Props.C34_bits_fit",
    "Verif.Props.C34_audio",
    "Verif.Props.C34_one_bit_counterexample",
    "Verif.Props.C34_packed_shift_counterexample",
    "Verif.Props.C34_placeholders"
   ],
   "note": "Format predicates agree with the format tables for every member. Violated by ALPHA_U8_1BIT active bits, by the shifts of the packed 4:2:2 formats, and by the placeholders, which are in every class."
  },
  {
   "property": "C35",
   "status": "partial",
   "theorems": [
    "Verif.Props.C35_partial",
    "Verif.Props.C35_no_trace",
    "Verif.Props.C35_index",
    "Verif.Props.C35_len_lazy",
    "Verif.Props.C35_eq_counterexample",
    "Verif.Props.C35_add_counterexample",
    "Verif.Props.C35_len_counterexample"
   ],
   "note": "All uses except + and == between two IOBytes objects, over all interleavings with other users of the stream. Those two, and len on a range past the end of the file, are violated by the code."
  },
  {
   "property": "C36",
   "status": "partial",
   "theorems": [
    "Verif.Props.C36_partial",
    "Verif.Props.C36_basic",
    "Verif.Props.C36_readall_counterexample",
    "Verif.Props.C36_stale_counterexample",
    "Verif.Props.C36_extend_counterexample",
    "Verif.Props.C36_negative_counterexample",
    "Verif.Props.C36_empty_write_counterexample"
   ],
   "note": "Equality of all observations with a byte array and position, for every sequence in Allowed. Violated by the code outside it: readall keeps the position, bytes cut off by truncate come back in a gap, truncate to more than the length, negative positions, empty writes past the end."
  },
  {
   "property": "C37",
   "status": "partial",
   "theorems": [
    "Verif.Props.C37_async_partial",
    "Verif.Props.C37_async_split",
    "Verif.Props.C37_write",
    "Verif.Props.C37_stdin_reads",
    "Verif.Props.C37_stdin_seeks_partial",
    "Verif.Props.C37_readall_counterexample",
    "Verif.Props.C37_short_skip_counterexample",
    "Verif.Props.C37_eof_counterexample"
   ],
   "note": "All operation sequences and all splittings of the stream, except readall on the asynchronous wrapper (position counted twice), skips over short reads and use after EOFError on standard input, which the code gets wrong."
  },
  {
   "property": "C38",
   "status": "partial",
   "theorems": [
    "Verif.Props.C38_stdin",
    "Verif.Props.C38_file_partial",
    "Verif.Props.C38_unwrap",
    "Verif.Props.C38_timestamps",
    "Verif.Props.C38_end_to_end",
    "Verif.Props.C38_counterexample",
    "Verif.Props.C38_unknown_length"
   ],
   "note": "Standard input: the full property. Files: nothing is lost, but a final partial grain is delivered short instead of dropped (counterexample). The timestamp iterator of the external library mediatimestamp is modelled from its documentation."
  },
  {
   "property": "C39",
   "status": "partial",
   "theorems": [
    "Verif.Props.C39_header",
    "Verif.Props.C39_values",
    "Verif.Props.C39_sync",
    "Verif.Props.C39_split",
    "Verif.Props.C39_partition_partial",
    "Verif.Props.C39_stdin",
    "Verif.Props.C39_stdin_never_ends",
    "Verif.Props.C39_grains",
    "Verif.Props.C39_short_counterexample",
    "Verif.Props.C39_six_counterexample",
    "Verif.Props.C39_five_counterexample"
   ],
   "note": "Header fields against the bit positions of the standard, splitting of well formed streams and rejection: full. For arbitrary streams the last frame may be shorter than its header says, and lengths below seven are mishandled (counterexamples)."
  },
  {
   "property": "C40",
   "status": "partial",
   "theorems": [
    "Verif.Props.C40_partition",
    "Verif.Props.C40_ends",
    "Verif.Props.C40_chunking",
    "Verif.Props.C40_stdin",
    "Verif.Props.C40_stdin_counterexample",
    "Verif.Props.C40_chunking_counterexample",
    "Verif.Props.C40_truncated_counterexample"
   ],
   "note": "Partition and offsets for every input and every chunking. Independence of the chunking for every stream that splits without an exception and has no redundant slices; it is false for malformed streams (counterexample). Standard input never ends normally and loses its last frames."
  },
  {
   "property": "C41",
   "status": "proved",
   "theorems": [
    "Verif.Props.C41_ue",
    "Verif.Props.C41_se",
    "Verif.Props.C41_uint",
    "Verif.Props.C41_emulation",
    "Verif.Props.C41_no_start_code"
   ],
   "note": "Both directions for each code: what is read is what was written and nothing else is accepted. The reads of the external library bitstring are modelled from its documentation."
  },
  {
   "property": "C42",
   "status": "partial",
   "theorems": [
    "Verif.Props.C42_verdict",
    "Verif.Props.C42_no_options",
    "Verif.Props.C42_bytes",
    "Verif.Props.C42_video_words",
    "Verif.Props.C42_raises",
    "Verif.Props.C42_self_partial",
    "Verif.Props.C42_odd_counterexample",
    "Verif.Props.C42_nan_counterexample",
    "Verif.Props.C42_bytes_counterexample"
   ],
   "note": "Verdict without options is proved to be equality of every compared attribute but the creation timestamp, with the exact condition for an exception, leaving out those raised while making the texts (C93: only for keys with braces). Self comparison is proved for data of whole words without NaN; it is false otherwise (odd 16 bit data raises, NaN differs from itself). == on dictionary values is taken as given; that the matcher of difflib decides equality of the samples is proved in C87."
  },
  {
   "property": "C43",
   "status": "partial",
   "theorems": [
    "Verif.Props.C43_monotone",
    "Verif.Props.C43_verdict",
    "Verif.Props.C43_same_tests",
    "Verif.Props.C43_local",
    "Verif.Props.C43_expected_difference",
    "Verif.Props.C43_format_counterexample",
    "Verif.Props.C43_topic_counterexample",
    "Verif.Props.C43_length_counterexample",
    "Verif.Props.C43_creation_counterexample"
   ],
   "note": "Monotonicity is proved for all option lists and paths; the exact verdict for options on attributes. Locality is false in four ways shown by the counterexamples (excluding the format also ignores data, excluding an event attribute also ignores the length, expected differences of non-timestamps are ignored)."
  },
  {
   "property": "C44",
   "status": "partial",
   "theorems": [
    "Verif.Props.C44_verdict",
    "Verif.Props.C44_raises",
    "Verif.Props.C44_last_only_partial",
    "Verif.Props.C44_last_only_counterexample",
    "Verif.Props.C44_two_kept_counterexample"
   ],
   "note": "The verdict is proved for all finite sequences. return_last_only raises an exception when no pair is compared and keeps two results, in the wrong order, when the lengths differ."
  },
  {
   "property": "C45",
   "status": "partial",
   "theorems": [
    "Verif.Props.C45_history",
    "Verif.Props.C45_signal",
    "Verif.Props.C45_cut",
    "Verif.Props.C45_loop",
    "Verif.Props.C45_length_partial",
    "Verif.Props.C45_present",
    "Verif.Props.C45_length_counterexample",
    "Verif.Props.C45_odd_counterexample",
    "Verif.Props.C45_full_volume_counterexample"
   ],
   "note": "For every usable tone (format, layout, volume) each sample of each grain is a function of its index in the stream only, two generators with other grain sizes agree, the signal is periodic and the order of calls does not matter. The length is as expected except for S24_PLANES, and odd channel counts in pair layouts or full volume fail: see the counterexamples. Floating point sine values are an arbitrary function of the phase."
  },
  {
   "property": "C46",
   "status": "proved",
   "theorems": [
    "Verif.Props.C46_every_nth",
    "Verif.Props.C46_endless",
    "Verif.Props.C46_getitem",
    "Verif.Props.C46_copies",
    "Verif.Props.C46_timestamps",
    "Verif.Props.C46_iterate",
    "Verif.Props.C46_zero_counterexample",
    "Verif.Props.C46_overlay_counterexample",
    "Verif.Props.C46_template_counterexample"
   ],
   "note": "Time values and ranges are those of the timestamp library: a range is the list of values its iterator yields, converting a time value to a rate is any idempotent function. A skip of 0 raises ZeroDivisionError; a template grain the caller keeps and changes shows in later grains; a moving bar also answers between the grains of its source."
  },
  {
   "property": "C47",
   "status": "partial",
   "theorems": [
    "Verif.Props.C47_ranges",
    "Verif.Props.C47_formats",
    "Verif.Props.C47_luma_steps",
    "Verif.Props.C47_luma_nominal_partial",
    "Verif.Props.C47_bars_widths",
    "Verif.Props.C47_bars_samples",
    "Verif.Props.C47_overlay",
    "Verif.Props.C47_overlay_nominal",
    "Verif.Props.C47_narrow_counterexample",
    "Verif.Props.C47_wrap_counterexample",
    "Verif.Props.C47_bars_nominal_counterexample"
   ],
   "note": "The property as stated is false. Proved: luma steps are drawn for all widths but 1 to 7 and stay in the nominal range exactly if w % 8 <= w / 8; colour bars are drawn exactly if 8 divides the width of each component, samples are below 2^bits, and some are always outside the nominal range; the moving bar changes only its lines and keeps the range."
  },
  {
   "property": "C48",
   "status": "proved",
   "theorems": [
    "Verif.Props.C48_round_trip",
    "Verif.Props.C48_layout",
    "Verif.Props.C48_range_counterexample"
   ],
   "note": "For every width (odd ones too) and height and all samples below 1024 the conversion to v210 and back is the identity on frames; C48_layout gives the place of each sample. The counterexample shows the bound 1024 is needed."
  },
  {
   "property": "C49",
   "status": "partial",
   "theorems": [
    "Verif.Props.C49_mean",
    "Verif.Props.C49_mean_self",
    "Verif.Props.C49_chroma_444",
    "Verif.Props.C49_chroma_420",
    "Verif.Props.C49_chroma_420_444",
    "Verif.Props.C49_lower_depth",
    "Verif.Props.C49_lower_fits",
    "Verif.Props.C49_depth_partial",
    "Verif.Props.C49_depth_frame_partial",
    "Verif.Props.C49_odd_counterexample",
    "Verif.Props.C49_wrap_counterexample",
    "Verif.Props.C49_narrow_counterexample",
    "Verif.Props.C49_range_counterexample"
   ],
   "note": "Mean and chroma parts proved in full (even sizes; odd sizes cannot be converted at all). Depth: proved for every sample but the largest; the largest wraps to 0 (counterexample), so the claim as stated is false of the code."
  },
  {
   "property": "C50",
   "status": "partial",
   "theorems": [
    "Verif.Props.C50_chain",
    "Verif.Props.C50_advertised",
    "Verif.Props.C50_same",
    "Verif.Props.C50_refused",
    "Verif.Props.C50_planar",
    "Verif.Props.C50_frame_partial",
    "Verif.Props.C50_any_size"
   ],
   "note": "The table is closed for all 812 pairs, every step fits its formats, and every well formed frame of even width and height is converted; odd sizes fail in chroma conversions (C49_odd_counterexample) but never when the subsampling stays the same (C50_any_size). The RGB/YUV arithmetic is an arbitrary function here (see C66)."
  },
  {
   "property": "C51",
   "status": "partial",
   "theorems": [
    "Verif.Props.C51_read",
    "Verif.Props.C51_seek",
    "Verif.Props.C51_reader_read",
    "Verif.Props.C51_reader_exit",
    "Verif.Props.C51_stdin_same",
    "Verif.Props.C51_stdin_single",
    "Verif.Props.C51_stdin_contents",
    "Verif.Props.C51_never_deferred",
    "Verif.Props.C51_cut",
    "Verif.Props.C51_cut_head",
    "Verif.Props.C51_seek_short_counterexample",
    "Verif.Props.C51_truncated_counterexample",
    "Verif.Props.C51_overrun_counterexample"
   ],
   "note": "Proved for every sequence of files written whole, with unknown blocks anywhere, all selections and loading modes. For files cut short what standard input gives is proved (exactly the whole grains, C51_cut); it is not what a file gives, which has part of the cut grain as well, and data blocks that overrun their grain are also read differently (counterexamples), and seeking relies on the pipe handing out all that was asked for."
  },
  {
   "property": "C54",
   "status": "partial",
   "theorems": [
    "Verif.Props.C54_size",
    "Verif.Props.C54_channels",
    "Verif.Props.C54_write",
    "Verif.Props.C54_s24",
    "Verif.Props.C54_s24_planes",
    "Verif.Props.C54_s24_planes_bytes_counterexample",
    "Verif.Props.C54_s24_planes_again_counterexample",
    "Verif.Props.C54_short_counterexample"
   ],
   "note": "Proved for every sampled format, channel and sample count. The statement fails for 24-bit planes: the grain cannot be made from bytes, and making one over a bytearray or copying one moves the data of the grain itself by eight bits. With less data than the format asks for the interleaved and paired arrays reach outside it."
  },
  {
   "property": "C55",
   "status": "partial",
   "theorems": [
    "Verif.Props.C55_inside",
    "Verif.Props.C55_disjoint",
    "Verif.Props.C55_write",
    "Verif.Props.C55_planar",
    "Verif.Props.C55_planar_full",
    "Verif.Props.C55_packed",
    "Verif.Props.C55_v210",
    "Verif.Props.C55_ayuv_counterexample",
    "Verif.Props.C55_ayuv_overlap_counterexample",
    "Verif.Props.C55_bgra_counterexample",
    "Verif.Props.C55_short_counterexample"
   ],
   "note": "Proved for every supported format but AYUV and every size. The statement fails for AYUV, whose size counts two bytes for a pixel of four: its arrays reach past the end of the data and overlap. BGRA is not supported although its parts are. Arrays over less data than the components need are made without complaint."
  },
  {
   "property": "C58",
   "status": "partial",
   "theorems": [
    "Verif.Props.C58_instant",
    "Verif.Props.C58_audio",
    "Verif.Props.C58_audio_disjoint",
    "Verif.Props.C58_last_sample_partial",
    "Verif.Props.C58_presentation",
    "Verif.Props.C58_media_rate",
    "Verif.Props.C58_normalise_range",
    "Verif.Props.C58_last_sample_counterexample",
    "Verif.Props.C58_no_samples_counterexample",
    "Verif.Props.C58_no_sample_rate_counterexample",
    "Verif.Props.C58_no_rate_counterexample"
   ],
   "note": "Proved for every grain with a positive rate and at least one sample. The time of the last sample may be a nanosecond before its timestamp. Audio grains without samples end before they start, ones with sample rate zero have no range, and coded video grains with an offset and rate zero have no presentation time. The timestamp library is a parameter with two assumptions on rounding."
  },
  {
   "property": "C52",
   "status": "partial",
   "theorems": [
    "Verif.Props.C52_file",
    "Verif.Props.C52_raw",
    "Verif.Props.C52_stdout",
    "Verif.Props.C52_stopped",
    "Verif.Props.C52_read_back",
    "Verif.Props.C52_stopped_read_back",
    "Verif.Props.C52_audio_counterexample"
   ],
   "note": "Proved for every sequence of grains and every point of failure. wrap_audio_in_gsf makes its template with rate 0, which the timestamp library refuses: it always fails and leaves a file without grains."
  },
  {
   "property": "C53",
   "status": "partial",
   "theorems": [
    "Verif.Props.C53_essence",
    "Verif.Props.C53_one_file",
    "Verif.Props.C53_cut_partial",
    "Verif.Props.C53_cut_stdin",
    "Verif.Props.C53_wrapped",
    "Verif.Props.C53_raw",
    "Verif.Props.C53_pieces",
    "Verif.Props.C53_h264",
    "Verif.Props.C53_aac",
    "Verif.Props.C53_no_data_counterexample",
    "Verif.Props.C53_event_counterexample"
   ],
   "note": "Proved for all grains whose data can be written. A plain grain without data ends the tool with an exception, and the data of events is written as new JSON text. Cut files are covered unless the cut is in an event, and standard input with any cut. C53_aac is about wrap_to_gsf; the command itself fails before, see C52."
  },
  {
   "property": "C56",
   "status": "partial",
   "theorems": [
    "Verif.Props.C56_frame",
    "Verif.Props.C56_deepcopy_equal_partial",
    "Verif.Props.C56_deepcopy_original_safe",
    "Verif.Props.C56_deepcopy_copy_safe",
    "Verif.Props.C56_deepcopy_identity",
    "Verif.Props.C56_deepcopy_succeeds",
    "Verif.Props.C56_copy_equal_partial",
    "Verif.Props.C56_copy_shares",
    "Verif.Props.C56_copy_outer",
    "Verif.Props.C56_copy_counterexample",
    "Verif.Props.C56_made_counterexample",
    "Verif.Props.C56_pending_counterexample",
    "Verif.Props.C56_label_counterexample"
   ],
   "note": "Deep copies: independence proved for all grains but event grains, equality for grains whose data is there. A pending load is dropped by both kinds of copy, and data that is None becomes an empty bytearray in copies of video, audio, coded video and coded audio grains (counterexample). Shallow copies share the inner dictionary, where all the metadata is: setting anything on the copy changes the original (counterexample). Objects that load on first use (IOBytes) are not part of the object model."
  },
  {
   "property": "C57",
   "status": "partial",
   "theorems": [
    "Verif.Props.C57_python_lists",
    "Verif.Props.C57_filled",
    "Verif.Props.C57_timelabels",
    "Verif.Props.C57_unit_offsets",
    "Verif.Props.C57_components",
    "Verif.Props.C57_assign_labels_partial",
    "Verif.Props.C57_add_label",
    "Verif.Props.C57_assign_offsets",
    "Verif.Props.C57_label_slice_partial",
    "Verif.Props.C57_offset_slice_partial",
    "Verif.Props.C57_component_slice_partial",
    "Verif.Props.C57_self_assign_counterexample",
    "Verif.Props.C57_iadd_counterexample",
    "Verif.Props.C57_extend_view_counterexample",
    "Verif.Props.C57_label_slice_counterexample",
    "Verif.Props.C57_offset_slice_counterexample",
    "Verif.Props.C57_component_slice_counterexample"
   ],
   "note": "Proved in full for integer indices, the methods of MutableSequence, and for slices with any step of lists that are there. False for time labels: assigning them to themselves and += lose all of them, extending them by themselves does not end, slices of missing labels are errors, and slices cannot be assigned (counterexamples). Slices of components are assigned place by place. Slices of missing unit offsets are errors."
  },
  {
   "property": "C59",
   "status": "partial",
   "theorems": [
    "Verif.Props.C59_report",
    "Verif.Props.C59_one_file",
    "Verif.Props.C59_stdin",
    "Verif.Props.C59_stdin_cut",
    "Verif.Props.C59_undeclared",
    "Verif.Props.C59_concat_counterexample",
    "Verif.Props.C59_no_rate_counterexample"
   ],
   "note": "Proved for files, one or more after the other, whose grains all belong to segments of the first head. A grain of another segment, or audio without a sample rate, ends the tool with an exception (C59_undeclared and counterexamples). Standard input, also if it ends early, is covered (C59_stdin, C59_stdin_cut). The printed JSON text is not."
  },
  {
   "property": "C60",
   "status": "partial",
   "theorems": [
    "Verif.Props.C60_set_get",
    "Verif.Props.C60_absent",
    "Verif.Props.C60_history",
    "Verif.Props.C60_made",
    "Verif.Props.C60_unchecked_enum",
    "Verif.Props.C60_unchecked_identifier",
    "Verif.Props.C60_aspect_stays"
   ],
   "note": "Set and get laws for all scalar attributes of all classes and all histories of assignments, given that texts of identifiers and times are read back by the libraries that wrote them. Violated parts: formats, layouts and identifiers are not checked when set, so the attribute may become unreadable; an aspect ratio cannot be made absent."
  },
  {
   "property": "C61",
   "status": "partial",
   "theorems": [
    "Verif.Props.C61_infinite",
    "Verif.Props.C61_value",
    "Verif.Props.C61_symmetric",
    "Verif.Props.C61_closer",
    "Verif.Props.C61_within",
    "Verif.Props.C61_video",
    "Verif.Props.C61_audio",
    "Verif.Props.C61_refused",
    "Verif.Props.C61_limits",
    "Verif.Props.C61_expected",
    "Verif.Props.C61_combination",
    "Verif.Props.C61_v210_counterexample",
    "Verif.Props.C61_no_data_counterexample",
    "Verif.Props.C61_few_limits_counterexample",
    "Verif.Props.C61_formats_counterexample",
    "Verif.Props.C61_data_changes_counterexample"
   ],
   "note": "Proved with exact arithmetic for every component and for whole grains of all formats with component arrays (but AYUV) and of integer audio. Violated parts: v210 grains and grains without data have no ratios and pass any limits; components beyond the limits are not checked; different video formats of the same size are compared; 24 bit planes in writable memory are changed by the comparison; & and | never give a working option. Rounding of doubles, floating point samples and the decibel scale are not covered."
  },
  {
   "property": "C62",
   "status": "partial",
   "theorems": [
    "Verif.Props.C62_sps",
    "Verif.Props.C62_pps_partial",
    "Verif.Props.C62_pps_explicit",
    "Verif.Props.C62_slice",
    "Verif.Props.C62_info",
    "Verif.Props.C62_explicit_counterexample"
   ],
   "note": "Proved for all valid sequence parameter sets and slice headers and what is derived from them. Violated for picture parameter sets with explicitly assigned slice groups (map type 6): the parser takes the width of the group numbers from the number of map units instead of the number of groups."
  },
  {
   "property": "C63",
   "status": "partial",
   "theorems": [
    "Verif.Props.C63_frames_partial",
    "Verif.Props.C63_ref_idc_counterexample"
   ],
   "note": "Proved from the bits to the frames for all streams without redundant pictures, data partitions B and C, prefix units at the beginning of a picture and explicit slice groups, in which the slices of a picture have the same nal_ref_idc. Violated if they have different ones above zero: the picture is then split in two."
  },
  {
   "property": "C64",
   "status": "partial",
   "theorems": [
    "Verif.Props.C64_attributes_partial",
    "Verif.Props.C64_data",
    "Verif.Props.C64_components",
    "Verif.Props.C64_no_id_counterexample"
   ],
   "note": "Proved for all classes and all arguments of the documented types, if both identifiers are given. Violated without them, although their type is Optional: the text None is stored and source_id or flow_id cannot be read. Data given to event grains are in C33."
  },
  {
   "property": "C65",
   "status": "partial",
   "theorems": [
    "Verif.Props.C65_drawn_partial",
    "Verif.Props.C65_audio_data",
    "Verif.Props.C65_coded_data",
    "Verif.Props.C65_format_counterexample",
    "Verif.Props.C65_creation_counterexample",
    "Verif.Props.C65_event_counterexample",
    "Verif.Props.C65_unknown_counterexample",
    "Verif.Props.C65_offsets_counterexample",
    "Verif.Props.C65_event_items",
    "Verif.Props.C65_event_default",
    "Verif.Props.C65_event_missing_counterexample",
    "Verif.Props.C65_event_donotset_counterexample",
    "Verif.Props.C65_event_template_counterexample",
    "Verif.Props.C65_event_newline_counterexample"
   ],
   "note": "Proved for all types and arguments, but not for format and for creation_timestamp of coded audio, which are ignored, nor for DONOTSET of event grains, which raises. Default coded formats include UNKNOWN, default unit offsets need not increase, random data of coded grains are always empty. Items of events are as asked for if each has a path, a pre and a post; without pre or post every draw raises. Random data for an event template are bytes that need not be JSON, and then raise."
  },
  {
   "property": "C66",
   "status": "partial",
   "theorems": [
    "Verif.Props.C66_to_yuv",
    "Verif.Props.C66_grey_partial",
    "Verif.Props.C66_to_rgb_partial",
    "Verif.Props.C66_overflow",
    "Verif.Props.C66_there_and_back_partial",
    "Verif.Props.C66_white_counterexample",
    "Verif.Props.C66_wrap_counterexample",
    "Verif.Props.C66_range_counterexample",
    "Verif.Props.C66_deep_counterexample"
   ],
   "note": "To YUV: proved for all frames, with IEEE doubles. To RGB: proved for components below the top of the range; above it the code stores 1 << depth, that is 0 in 8, 16 and 32 bits and a value outside the range in 10 and 12 bits (C66_overflow). There and back, and greys: up to 16 bits; in 32 bits the six digits of the constants make colours wrap. White loses one step."
  },
  {
   "property": "C67",
   "status": "partial",
   "theorems": [
    "Verif.Props.C67_pair",
    "Verif.Props.C67_search_partial",
    "Verif.Props.C67_equal_partial",
    "Verif.Props.C67_tuple_partial",
    "Verif.Props.C67_equivalence_partial",
    "Verif.Props.C67_bytes_partial",
    "Verif.Props.C67_deepcopy_partial",
    "Verif.Props.C67_copy_counterexample",
    "Verif.Props.C67_lazy_counterexample",
    "Verif.Props.C67_buffer_counterexample",
    "Verif.Props.C67_numpy_counterexample",
    "Verif.Props.C67_event_counterexample",
    "Verif.Props.C67_event_loaded_counterexample"
   ],
   "note": "The pair: proved for all grains. Searching and equality: proved for data that is there and no numpy array. Violated by the code: two lazily loaded grains with the same bytes differ, so equality is not transitive; comparing numpy grains with the same metadata raises; event grains say that they have no data, and bytes() of them is a TypeError, or, once awaited, bytes that are not those of their payload; a copy of a video, audio, coded video or coded audio grain without data has an empty bytearray and is not equal."
  },
  {
   "property": "C68",
   "status": "partial",
   "theorems": [
    "Verif.Props.C68_attributes_partial",
    "Verif.Props.C68_new_partial",
    "Verif.Props.C68_creation_counterexample",
    "Verif.Props.C68_coded_aspect_counterexample"
   ],
   "note": "Proved for all attributes that files have a place for. Violated by the code for the others: the creation timestamp becomes the time of reading, and the aspect ratios of coded pictures become None. A grain without data may come back with empty data, and the other way round. What versions before 9 cannot hold is excluded by the hypothesis on plain values (see C01)."
  },
  {
   "property": "C69",
   "status": "partial",
   "theorems": [
    "Verif.Props.C69_add_partial",
    "Verif.Props.C69_cancel",
    "Verif.Props.C69_completes",
    "Verif.Props.C69_leave_counterexample",
    "Verif.Props.C69_cancel_counterexample",
    "Verif.Props.C69_memory_counterexample"
   ],
   "note": "Proved for all schedules in which the tasks end before the encoder is left, with and without cancellations, for files whose write is one step. Violated by the code otherwise: leaving while a task writes damages the head; a write dropped by a cancellation is counted although it is not in the file; writes by threads to the AsyncBytesIO of the library are not one step, and one can be lost."
  },
  {
   "property": "C70",
   "status": "partial",
   "theorems": [
    "Verif.Props.C70_calls",
    "Verif.Props.C70_streaming",
    "Verif.Props.C70_readable",
    "Verif.Props.C70_survives",
    "Verif.Props.C70_all_at_once",
    "Verif.Props.C70_failed_write_counterexample"
   ],
   "note": "Proved for all crash points and histories of the synchronous encoder, under the assumption that the operating system keeps writes in order. Cuts in the head (crash in the very first write) are errors of the reader, see C06. Violated by the code for programs that go on after a write raised: the grain is counted, and a part of it that was written swallows the next grain."
  },
  {
   "property": "C71",
   "status": "partial",
   "theorems": [
    "Verif.Props.C71_round_trip_partial",
    "Verif.Props.C71_dump",
    "Verif.Props.C71_refused",
    "Verif.Props.C71_dumps_raises",
    "Verif.Props.C71_streaming_counterexample",
    "Verif.Props.C71_bad_grain_counterexample",
    "Verif.Props.C71_kwargs_counterexample",
    "Verif.Props.C71_load_async",
    "Verif.Props.C71_async_partial",
    "Verif.Props.C23_bytesio",
    "Verif.Props.C23_bytesio_single",
    "Verif.Props.C23_bytesio_counterexample"
   ],
   "note": "Proved for the grains of C68 and headers that fit their fields. load of an asynchronous file gives the same for all bytes (C71_load_async); for an AsyncBytesIO this is proved for files written whole and false for cut ones. Violated by the code in three ways: dump with streaming=True always raises, a grain that cannot be encoded costs the old contents of the file, loads drops its keyword arguments."
  },
  {
   "property": "C72",
   "status": "partial",
   "theorems": [
    "Verif.Props.C72_converted_partial",
    "Verif.Props.C72_same",
    "Verif.Props.C72_chain_partial",
    "Verif.Props.C72_any_size",
    "Verif.Props.C72_any_chain",
    "Verif.Props.C72_refused",
    "Verif.Props.C72_flows_partial",
    "Verif.Props.C72_lost_counterexample"
   ],
   "note": "Proved for even sizes, and for any size between formats of the same subsampling (odd ones cannot be converted in general, C49); uuid5 is a parameter. Violated by the code for extension, aspect ratios, time labels and creation timestamp, which a conversion loses although a copy to the same format keeps them."
  },
  {
   "property": "C73",
   "status": "partial",
   "theorems": [
    "Verif.Props.C73_programs_partial",
    "Verif.Props.C73_promised",
    "Verif.Props.C73_once",
    "Verif.Props.C73_shared",
    "Verif.Props.C73_one_by_one",
    "Verif.Props.C73_deprecated",
    "Verif.Props.C73_filters_counterexample",
    "Verif.Props.C73_again_counterexample",
    "Verif.Props.C73_cut_counterexample"
   ],
   "note": "Synchronous sessions; files as the encoder writes them. Violated by the code: generators with filters on one session take each other's grains away; asking for grains once more after the end, or a missing terminator, makes the next file unreadable when concatenation is not supported."
  },
  {
   "property": "C74",
   "status": "partial",
   "theorems": [
    "Verif.Props.C74_streaming",
    "Verif.Props.C74_all_at_once",
    "Verif.Props.C74_unchanged",
    "Verif.Props.C74_reuse_streaming",
    "Verif.Props.C74_reuse_counterexample"
   ],
   "note": "Synchronous use. Violated by the code without streaming: all grains are written as they are at the end of the dump, so that an object that is changed and added n times is written n times with its last value."
  },
  {
   "property": "C75",
   "status": "partial",
   "theorems": [
    "Verif.Props.C75_exact",
    "Verif.Props.C75_grain_partial",
    "Verif.Props.C75_file_partial",
    "Verif.Props.C75_absent_counterexample"
   ],
   "note": "Exact verdict: equal, except for a plain grain with empty data (read back as None) and a media grain without data (read back as empty). Event items with other keys than path, pre and post, and data with floating point NaN or partial words, are left out."
  },
  {
   "property": "C76",
   "status": "partial",
   "theorems": [
    "Verif.Props.C76_attribute",
    "Verif.Props.C76_other",
    "Verif.Props.C76_failing",
    "Verif.Props.C76_verdict",
    "Verif.Props.C76_ratio",
    "Verif.Props.C76_containers",
    "Verif.Props.C76_shown",
    "Verif.Props.C76_sequence",
    "Verif.Props.C76_entry_counterexample",
    "Verif.Props.C76_excluded_counterexample",
    "Verif.Props.C76_ratio_counterexample"
   ],
   "note": "Proved as stated unless the data is compared by PSNR: such a result has no attribute name, so result.data is an error and failing_attributes() does not list it although the comparison fails (exact statement in C76_ratio). failing_attributes() also lists excluded attributes, for data even if it is the same. Options that name something inside a container are left out, and so are the texts of messages."
  },
  {
   "property": "C77",
   "status": "partial",
   "theorems": [
    "Verif.Props.C77_names",
    "Verif.Props.C77_expected",
    "Verif.Props.C77_top_level",
    "Verif.Props.C77_window",
    "Verif.Props.C77_chain_counterexample",
    "Verif.Props.C77_combined_counterexample"
   ],
   "note": "Proved but for chains and combinations, where it is false: lo < ExpectedDifference.x < hi silently drops the lower bound, and no expression with & or | makes an option that can be used (TypeError for two tests, an exception in the comparison otherwise). PSNR expressions are in C61. Values are numbers or time offsets."
  },
  {
   "property": "C78",
   "status": "partial",
   "theorems": [
    "Verif.Props.C78_symmetric",
    "Verif.Props.C78_swap",
    "Verif.Props.C78_transitive",
    "Verif.Props.C78_sequences_swap",
    "Verif.Props.C78_format_counterexample",
    "Verif.Props.C78_difference_counterexample"
   ],
   "note": "Symmetry proved in full for options without PSNR. Transitivity is proved when the type and the format are compared and false otherwise: with Exclude.format data of different formats is not compared, so two different grains are equal to a third. Equality of values in time labels and events is assumed symmetric and transitive."
  },
  {
   "property": "C79",
   "status": "partial",
   "theorems": [
    "Verif.Props.C79_copy",
    "Verif.Props.C79_same",
    "Verif.Props.C79_objects",
    "Verif.Props.C79_twice",
    "Verif.Props.C79_label_counterexample",
    "Verif.Props.C79_key_counterexample",
    "Verif.Props.C79_event_counterexample",
    "Verif.Props.C79_undeclared_counterexample"
   ],
   "note": "Proved for seekable output files, local ids that are distinct and declared, times that are not negative, formats and layouts that are members of the enumerations, and event data that the library has written. False of events without data, which get a payload, of time labels whose rate is not in lowest terms and of unknown key frame flags before version 9; a file with a grain of an undeclared segment can be read but not copied. The copying program is modelled as reading everything before it writes; C92 shows that this makes no difference."
  },
  {
   "property": "C80",
   "status": "partial",
   "theorems": [
    "Verif.Props.C80_follow",
    "Verif.Props.C80_in_order",
    "Verif.Props.C80_each_once",
    "Verif.Props.C80_writer",
    "Verif.Props.C80_live",
    "Verif.Props.C80_grain_lost_counterexample",
    "Verif.Props.C80_place_lost_counterexample",
    "Verif.Props.C80_short_data_counterexample"
   ],
   "note": "Proved for synchronous decoders of files that can seek; the reader sees the file at rest between two calls of the writer, or cut anywhere. When a file ends within the eight bytes with which a block begins, the reader loses its place for good (counterexample), and nothing else is stated. A writer whose file object buffers can show such files, so the positive result is for writers whose bytes are visible after each call."
  },
  {
   "property": "C81",
   "status": "proved",
   "theorems": [
    "Verif.Props.C81_any_bytes",
    "Verif.Props.C81_async",
    "Verif.Props.C81_other_exceptions"
   ],
   "note": "Synchronous and asynchronous decoder. Proved which exceptions can occur and at which grain; that catching GSFDecodeError and EOFError is not enough is C81_other_exceptions. Memory is unbounded in the model, so MemoryError is left out."
  },
  {
   "property": "C82",
   "status": "partial",
   "theorems": [
    "Verif.Props.C82_contained",
    "Verif.Props.C82_recovered",
    "Verif.Props.C82_before",
    "Verif.Props.C82_tail",
    "Verif.Props.C82_tag",
    "Verif.Props.C82_head_tag",
    "Verif.Props.C82_silent_counterexample",
    "Verif.Props.C82_size_counterexample",
    "Verif.Props.C82_head_size_counterexample"
   ],
   "note": "Synchronous decoder; for the loop of an asynchronous one with data loaded at once see C86_damaged. Going on after an exception or end is proved for files that can seek. Damage to the size of a grain block is not contained (C82_size_counterexample): proved is that the grains before it are given (C82_tail, for damage of any kind). Damage to the size of the head may lose grains (C82_head_size_counterexample), and is not covered further. The exception that the constructor of an event raises for damaged data is not part of the replies (C81). That all damage is reported is refuted (C82_silent_counterexample)."
  },
  {
   "property": "C83",
   "status": "partial",
   "theorems": [
    "Verif.Props.C83_joined",
    "Verif.Props.C83_first",
    "Verif.Props.C83_mixed",
    "Verif.Props.C83_mixed_counterexample"
   ],
   "note": "Synchronous decoder. Proved but for the last sentence, which is false of the code: C83_mixed proves for every cut in the data that the grain is delivered with the first bytes of what was joined as the rest of its data."
  },
  {
   "property": "C84",
   "status": "proved",
   "theorems": [
    "Verif.Props.C84_prompt",
    "Verif.Props.C84_pipeline"
   ],
   "note": "Synchronous decoder over InputStreamWrapper; one file. What the encoder has written counts as sent: a buffer of standard output, which the encoder does not flush, is not modelled."
  },
  {
   "property": "C85",
   "status": "partial",
   "theorems": [
    "Verif.Props.C85_read_partial",
    "Verif.Props.C85_unambiguous",
    "Verif.Props.C85_written",
    "Verif.Props.C85_minor",
    "Verif.Props.C85_minor_async",
    "Verif.Props.C85_version8",
    "Verif.Props.C85_version8_async",
    "Verif.Props.C85_tags",
    "Verif.Props.C85_null_date",
    "Verif.Props.C85_string_end_counterexample",
    "Verif.Props.C85_fill_counterexample"
   ],
   "note": "The grammar is written from the documents, independently of the model of the code. Read exactly as documented: every file with a creation date in which strings are padded with zeros only and no block comes before the header of a grain. Violations: a null creation date, allowed by the documents, makes every file unreadable; a NUL character does not end a string; a block before the grain header is an error. Written files follow the documents exactly if no string has a NUL character. The documents are those of version 9.0; of the same bytes with another minor version the reader makes the same, and as version 8 the same but for the two optional values of coded pictures, which are always there in version 8."
  },
  {
   "property": "C86",
   "status": "partial",
   "theorems": [
    "Verif.Props.C86_awaited",
    "Verif.Props.C86_same",
    "Verif.Props.C86_written",
    "Verif.Props.C86_cut",
    "Verif.Props.C86_joined",
    "Verif.Props.C86_documented",
    "Verif.Props.C86_damaged",
    "Verif.Props.C86_tail",
    "Verif.Props.C86_tag",
    "Verif.Props.C86_head_tag",
    "Verif.Props.C86_bytesio",
    "Verif.Props.C86_event_counterexample",
    "Verif.Props.C86_bytesio_counterexample"
   ],
   "note": "C86_awaited says exactly what happens for all bytes. Violated by the code for events whose data is deferred (the default mode): the generator raises AttributeError at the first one. On AsyncBytesIO proved for files written whole; awaiting a grain whose data is cut raises EOFError there."
  },
  {
   "property": "C87",
   "status": "partial",
   "theorems": [
    "Verif.Props.C87_verdict",
    "Verif.Props.C87_message",
    "Verif.Props.C87_position_partial",
    "Verif.Props.C87_replacement",
    "Verif.Props.C87_more_first",
    "Verif.Props.C87_more_second",
    "Verif.Props.C87_changes",
    "Verif.Props.C87_report_partial",
    "Verif.Props.C87_position_counterexample",
    "Verif.Props.C87_report_counterexample",
    "Verif.Props.C87_similarity_counterexample"
   ],
   "note": "Proved: the verdict, that there always is a message, the two messages about extra values (exactly when they occur and what they say), and that the list of changes turns one into the other. Violated by the code: the position named need not be the first difference, and the two values named may be equal; proved is that everything before it agrees, that it is right exactly if the two values named differ, and that it is right if the first change is a replacement. Violated by the code: the report prints samples of the second grain at the positions of the first. The words of the messages are not modelled."
  },
  {
   "property": "C88",
   "status": "partial",
   "theorems": [
    "Verif.Props.C88_reader",
    "Verif.Props.C88_borrowed",
    "Verif.Props.C88_read_partial",
    "Verif.Props.C88_writer_counterexample",
    "Verif.Props.C88_written_counterexample",
    "Verif.Props.C88_headers_counterexample",
    "Verif.Props.C88_left_counterexample"
   ],
   "note": "Decoder: opened and closed in turn for all histories; after a use it is closed exactly if the headers were read and leaving did not fail, and for each file, mode and program it is said which is the case. Violated by the code otherwise: a file whose headers cannot be read stays open, and so does one with grains left to load on leaving. Encoder: violated by the code for every history, the file is opened at each use and never closed. Closing is taken not to raise. What a program reads does not depend on whether the file is closed."
  },
  {
   "property": "C89",
   "status": "partial",
   "theorems": [
    "Verif.Props.C89_arrays_partial",
    "Verif.Props.C89_length_partial",
    "Verif.Props.C89_write",
    "Verif.Props.C89_refused",
    "Verif.Props.C89_await",
    "Verif.Props.C89_once",
    "Verif.Props.C89_copies",
    "Verif.Props.C89_format_counterexample",
    "Verif.Props.C89_pending_counterexample",
    "Verif.Props.C89_copy_counterexample",
    "Verif.Props.C89_none_counterexample",
    "Verif.Props.C89_overlap_counterexample"
   ],
   "note": "Proved for all histories in which the metadata of existing grains are not changed. Violated by the code: changing the format leaves the old arrays; the length of a grain still to be loaded is 0; a copy of such a grain has no load but empty data, with arrays that lie outside it; a load that gives None, or an assignment that is refused, forgets the load; a load overwrites data assigned during the await. AYUV is left out (C55)."
  },
  {
   "property": "C90",
   "status": "partial",
   "theorems": [
    "Verif.Props.C90_shared",
    "Verif.Props.C90_separate",
    "Verif.Props.C90_values",
    "Verif.Props.C90_copy_partial",
    "Verif.Props.C90_view",
    "Verif.Props.C90_items",
    "Verif.Props.C90_detached_counterexample",
    "Verif.Props.C90_keys_counterexample",
    "Verif.Props.C90_path_counterexample"
   ],
   "note": "Sharing and independence: proved for all programs that reach items through grains and DATA objects; values inside items are not changed in place. Violated by the code: copy.copy gives the original new items, so DATA objects made before no longer belong to it, and removes keys other than path, pre and post from it; if an item has no path, both kinds of copy raise KeyError, and copy.copy has removed the items of the original by then. Copies of payloads that JSON does not give back as they were are not covered."
  },
  {
   "property": "C91",
   "status": "partial",
   "theorems": [
    "Verif.Props.C91_arrays_partial",
    "Verif.Props.C91_length",
    "Verif.Props.C91_write",
    "Verif.Props.C91_refused",
    "Verif.Props.C91_await",
    "Verif.Props.C91_once",
    "Verif.Props.C91_copies",
    "Verif.Props.C91_s24_partial",
    "Verif.Props.C91_format_counterexample",
    "Verif.Props.C91_s24_detached_counterexample",
    "Verif.Props.C91_s24_copy_counterexample",
    "Verif.Props.C91_s24_refused_counterexample",
    "Verif.Props.C91_pending_counterexample",
    "Verif.Props.C91_copy_counterexample",
    "Verif.Props.C91_await_counterexample",
    "Verif.Props.C91_compressed_counterexample"
   ],
   "note": "Proved for formats whose samples do not have 24 bits and programs that do not change the metadata of a grain that is there; the length and that no load is started twice are proved for all. Violated by the code: 24-bit samples (in three bytes the arrays are not over the data; in planes copy and deepcopy multiply the samples by 256 again, and data that cannot be written to is kept although ValueError is raised, with the arrays of the data before); changed formats; length, copies and failed loads of grains still to be loaded; compressed audio, which is taken for planes of 16-bit samples."
  },
  {
   "property": "C92",
   "status": "partial",
   "theorems": [
    "Verif.Props.C92_joined",
    "Verif.Props.C92_first",
    "Verif.Props.C92_copy",
    "Verif.Props.C92_unfinished",
    "Verif.Props.C92_salvaged",
    "Verif.Props.C92_cut",
    "Verif.Props.C92_cut_counterexample",
    "Verif.Props.C92_grouped_counterexample",
    "Verif.Props.C92_segment_counterexample",
    "Verif.Props.C92_event_counterexample"
   ],
   "note": "Proved for distinct local ids, grains whose segments are declared in the first file, and grains that objects can be made of (C79). Cut files: proved when the data is loaded at once and the cut grain is not an event. Violated by the code: with the default options the copy of a cut file declares the full length of the data and has less, so that bytes of the following block are read as data; an encoder that writes at the end then loses whole grains of other segments. A grain whose segment the first file does not declare stops the copy. An encoder that streams to a pipe leaves counts of -1."
  },
  {
   "property": "C93",
   "status": "partial",
   "theorems": [
    "Verif.Props.C93_message",
    "Verif.Props.C93_text",
    "Verif.Props.C93_report",
    "Verif.Props.C93_verdict",
    "Verif.Props.C93_attribute",
    "Verif.Props.C93_raises",
    "Verif.Props.C93_plain_keys",
    "Verif.Props.C93_braces_counterexample",
    "Verif.Props.C93_same_named_counterexample"
   ],
   "note": "Messages and reports: proved for all results; the text of a single result is named by its place, the values printed in it are left out. Violated by the code: a key of a time label or of an event item with a brace that is not doubled makes the comparison raise, because the text of the identifier is used as a format string; the exact condition is proved, and that nothing changes for keys without braces. The message of grains that are the same can name excluded data as ignored."
  },
  {
   "property": "C94",
   "status": "partial",
   "theorems": [
    "Verif.Props.C94_same",
    "Verif.Props.C94_joined",
    "Verif.Props.C94_unfinished",
    "Verif.Props.C94_cut",
    "Verif.Props.C94_salvaged",
    "Verif.Props.C94_bytesio",
    "Verif.Props.C94_event_counterexample",
    "Verif.Props.C94_bytesio_counterexample"
   ],
   "note": "Equality with the synchronous program is proved for all bytes if no data is deferred. With deferred data it is proved for whole, joined and unfinished files without events among the grains asked for, under the conditions of C92. Violated by the code: the asynchronous generator raises AttributeError at an event whose data is deferred (the default), so that the copy ends there; AsyncBytesIO raises EOFError for a grain whose data was cut. For cut files in the default mode the asynchronous copy is well-formed and the synchronous one is not (C92). What leaving the block of the decoder does to grains that nobody awaited is not part of this model (C25, C88)."
  },
  {
   "property": "C95",
   "status": "partial",
   "theorems": [
    "Verif.Props.C95_grains_partial",
    "Verif.Props.C95_in_order",
    "Verif.Props.C95_file_partial",
    "Verif.Props.C95_damaged",
    "Verif.Props.C95_refused",
    "Verif.Props.C95_duration_counterexample",
    "Verif.Props.C95_sync_counterexample",
    "Verif.Props.C95_size_counterexample",
    "Verif.Props.C95_resized_counterexample"
   ],
   "note": "Violated by the code and so left out: the duration stays that of the template when the stream has another rate; the sync timestamp stays that of the template in every grain; all grains have the size of the first picture. Streams are those of C63. C95_damaged asks that the size and rate in the first frame can be written and, as C52 does, that all fields fit."
  },
  {
   "property": "C96",
   "status": "partial",
   "theorems": [
    "Verif.Props.C96_raw_partial",
    "Verif.Props.C96_h264_partial",
    "Verif.Props.C96_aac_partial",
    "Verif.Props.C96_aac_stopped",
    "Verif.Props.C96_aac_zero",
    "Verif.Props.C96_stdout",
    "Verif.Props.C96_untouched",
    "Verif.Props.C96_untouched_audio",
    "Verif.Props.C96_aac_stdin_counterexample",
    "Verif.Props.C96_h264_stdin_counterexample",
    "Verif.Props.C96_compressed_counterexample",
    "Verif.Props.C96_no_size_counterexample",
    "Verif.Props.C96_audio_counterexample",
    "Verif.Props.C96_aac_counterexample"
   ],
   "note": "Violated by the code and so left out: uncompressed audio always ends with an exception and an unfinished file; compressed video formats other than H.264 and AVC-Intra are cut like uncompressed ones; formats without a size give a file without grains; AAC needs the number of samples and the sample rate; from standard input AAC and H.264 always end with an exception and an unfinished file; the sync timestamp of uncompressed video stays the start time; a rest shorter than a picture makes a grain. The theorems ask, as C52 does, that all fields fit. Parsing of the command line is not modelled."
  },
  {
   "property": "C97",
   "status": "partial",
   "theorems": [
    "Verif.Props.C97_local",
    "Verif.Props.C97_same_depth",
    "Verif.Props.C97_pointwise",
    "Verif.Props.C97_from_v210",
    "Verif.Props.C97_to_v210",
    "Verif.Props.C97_rgb_to_yuv",
    "Verif.Props.C97_yuv_to_rgb",
    "Verif.Props.C97_444_to_rgb",
    "Verif.Props.C97_rgb_luma",
    "Verif.Props.C97_top_counterexample"
   ],
   "note": "Conversions between RGB and YUV are split into one change of colours at a single depth (C66) and conversions of this statement; packing and unpacking v210 is in C48. Violated by the code and so left out: samples that round up beyond the depth of the result become 0."
  }
 ]
}