{"id": "C01", "title": "GSF whole-file round trip", "statement": "Encoding any file-level tags, segments (with tags and optional flow metadata) and grains of every grain type with the GSF encoder and decoding the bytes with the GSF decoder gives back the same file id, creation time, tags, segments, flow metadata and, in order, the same (grain metadata, grain data, local id) triples, provided every field lies in the range its on-disk field can hold.", "quantifier": "all versions 7, 8 and 9, all lists of tags, segments and grains, all field values inside the documented field ranges, data of any length", "why_tests_cant": "The input space (nested lists of records with 32-bit fields and arbitrary byte payloads) is unbounded; tests try a handful of files.", "anchors": ["mediagrains/gsf.py: GSFEncoder, OpenGSFEncoder, GSFEncoderSegment.encode_grain, GSFDecoder.decode, _sync_decode_head, _sync_decode_gbhd"]}
{"id": "C02", "title": "Declared block sizes are exact", "statement": "Every block the encoder writes (head, segm, flow, tag, grai, gbhd, tils, vghd, comp, cghd, unof, aghd, cahd, eghd, grdt) is exactly as many bytes long as the size written in its header says, children tile their parent without gap or overlap, so a reader that only knows block headers can walk the file.", "quantifier": "all grains, segments, tags, versions", "why_tests_cant": "Size arithmetic is written separately from the byte emission; a mismatch for one combination of optional parts only shows on that combination.", "anchors": ["mediagrains/gsf.py: _gbhd_size_for_grain, _vghd_size_for_grain, _cghd_size_for_grain, segm_block_size, tag_block_size, flow_block_size, _encode_head_block"]}
{"id": "C03", "title": "Integer field codecs", "statement": "Unsigned and signed little-endian fields of any byte width read back as the value written when it is in range; a value out of range is written modulo 256^width (never longer than its field); a signed read always lands in the two's-complement range.", "quantifier": "all integers (including negative and oversized), all widths", "why_tests_cant": "Boundary values for each width are infinitely many over all widths.", "anchors": ["mediagrains/gsf.py: _encode_uint, _encode_sint, read_uint, read_sint, read_optional_sint, read_optional_bool"]}
{"id": "C04", "title": "Unknown blocks are ignored", "statement": "Inserting blocks with unrecognised tags between top-level blocks, inside head, or inside a grain header never changes what the decoder returns.", "quantifier": "all unknown tags, all block bodies, all insertion points between blocks at those levels, all files", "why_tests_cant": "Requires every unknown tag, body and position.", "anchors": ["mediagrains/gsf.py: SyncGSFBlock.__enter__, child_blocks, GSFSyncDecoderSession.grains, _sync_decode_head, _sync_decode_gbhd"]}
{"id": "C05", "title": "Truncated files (crash points)", "statement": "If a complete file is cut at any byte after the head block, the decoder yields exactly the grains fully contained in the remaining prefix, plus at most one further grain whose metadata is intact and whose data is a prefix of what was written; it never yields a wrong, reordered or duplicated grain and never raises.", "quantifier": "all files the encoder can produce, every cut position", "why_tests_cant": "Needs every byte offset of every file.", "anchors": ["mediagrains/gsf.py: GSFSyncDecoderSession.grains, SyncGSFBlock.read_uint, read_remaining_block"]}
{"id": "C06", "title": "Truncation inside the head is reported", "statement": "A file cut before the end of its head block is reported as an error when it is opened, not silently opened with partial headers.", "quantifier": "all files, every cut position up to the end of the head block", "why_tests_cant": "Needs every byte offset; there is exactly one kind of offset (inside trailing flow data) where the code behaves differently.", "anchors": ["mediagrains/gsf.py: _decode_file_headers, _sync_decode_head, read_varbytes"]}
{"id": "C07", "title": "local_ids filter is a pure filter", "statement": "Asking the decoder for a set of local ids yields exactly the subsequence of the full decode whose local id is in the set, for any file on which the full decode succeeds.", "quantifier": "all byte strings that decode, all id sets", "why_tests_cant": "Skipping and parsing take different code paths, which must land on the same next block for every input.", "anchors": ["mediagrains/gsf.py: GSFSyncDecoderSession.grains(local_ids)"]}
{"id": "C08", "title": "Loading modes agree", "statement": "For every file the four loading modes yield the same grains' metadata and local ids in the same order; immediate loading, and deferred loading when the data is later accessed, give the same bytes; never-load gives no data.", "quantifier": "all byte strings, both seekable and non-seekable inputs, all modes", "why_tests_cant": "Deferred loading moves the file position differently; equality must hold after every grain of every file.", "anchors": ["mediagrains/gsf.py: GSFSyncDecoderSession.grains(loading_mode), GrainDataLoadingMode", "mediagrains/utils/iobytes.py: IOBytes"]}
{"id": "C09", "title": "Concatenated files", "statement": "Decoding the concatenation of encoder-produced files with concatenation support yields the grains of all of them in order and ends with the last file's headers; without support it yields just the first file's grains.", "quantifier": "all lists of files produced by the encoder, any versions mixed", "why_tests_cant": "The number of files and their contents is unbounded.", "anchors": ["mediagrains/gsf.py: GSFSyncDecoderSession.grains, _decode_file_headers"]}
{"id": "C10", "title": "File type and version gate", "statement": "Opening succeeds only if the first 8 bytes are SSBBgrsg and the major version is 7, 8 or 9; otherwise an error is raised and no grain is produced: bad-file-type for other readable signatures, a decode error for unreadable ones, bad-version for other versions, EOFError for files shorter than the header. A header of another version found inside a concatenation ends the decode with bad-version and never takes effect.", "quantifier": "all byte strings", "why_tests_cant": "All 2^16 versions and all signatures.", "anchors": ["mediagrains/gsf.py: _decode_ssb_header, _decode_file_headers"]}
{"id": "C11", "title": "Decoding always terminates and makes progress", "statement": "On every byte string, decoding terminates with a list of grains or an error; each step of the grain loop consumes at least 8 bytes, so at most len/8 blocks are visited.", "quantifier": "all byte strings, all options", "why_tests_cant": "Non-termination for one crafted size field cannot be excluded by testing.", "anchors": ["mediagrains/gsf.py: SyncGSFBlock.__enter__, __exit__, GSFSyncDecoderSession.grains"]}
{"id": "C12", "title": "Segment counts in the header", "statement": "After a completed dump to a seekable file (streaming or all at once) from a fresh encoder, every segment's count in the header equals the number of grains of that segment in the file; streaming to a non-seekable output leaves -1.", "quantifier": "all sequences of add_grain calls to any declared segments, any number of segments", "why_tests_cant": "Counts are patched by seeking back into the file; every interleaving and every head layout must patch the right 8 bytes.", "anchors": ["mediagrains/gsf.py: _set_segment_offsets, OpenGSFEncoder._start_dump, _end_dump, GSFEncoderSegment._encode_header"]}
{"id": "C13", "title": "Streaming and all-at-once agree", "statement": "For any sequence of add_grain calls, a streaming dump decodes to the grains in call order, an all-at-once dump to the grains grouped by segment; per segment both give the same grain sequence, and the two files' headers agree.", "quantifier": "all interleavings of grains over segments", "why_tests_cant": "Number of interleavings is unbounded.", "anchors": ["mediagrains/gsf.py: OpenGSFEncoder.add_grains, _encode_all_grains, GSFEncoder.__enter__, __exit__"]}
{"id": "C14", "title": "Header is frozen once a dump is active", "statement": "While a dump is active on the synchronous encoder, adding a tag, a segment, or a flow/tag to an already written segment raises GSFEncodeAddToActiveDump (or GSFEncodeError) and changes neither the output nor the declared segments; no grain is ever written for an undeclared segment.", "quantifier": "all histories of encoder operations", "why_tests_cant": "A property of every history of API calls.", "anchors": ["mediagrains/gsf.py: OpenGSFEncoderBase.add_tag, add_segment, _get_segment, GSFEncoderSegment.add_tag, add_flow, GSFEncoder.add_tag, add_segment"]}
{"id": "C15", "title": "Header is frozen on the asynchronous encoder", "statement": "The same freeze holds while an asynchronous streaming dump is active: no grain handed to the encoder or one of its segments during the dump is lost and no segment is added.", "quantifier": "all histories of encoder operations with an asynchronous dump open", "why_tests_cant": "A property of every history of API calls.", "anchors": ["mediagrains/gsf.py: GSFEncoder.add_segment, GSFEncoder.add_grains, GSFEncoderSegment._get_parent_open_encoder, OpenAsyncGSFEncoder"]}
{"id": "C16", "title": "Local ids are unique and fresh", "statement": "For any sequence of add_segment calls with explicit or automatic local ids, the accepted local ids are pairwise distinct, an automatic id is never refused and is larger than every id accepted before, and a duplicate explicit id is refused leaving the segments unchanged.", "quantifier": "all sequences of add_segment calls", "why_tests_cant": "Unbounded call sequences.", "anchors": ["mediagrains/gsf.py: OpenGSFEncoderBase.add_segment, GSFEncoder.add_segment"]}
{"id": "C17", "title": "Segment selection for add_grain", "statement": "add_grain with a local id uses that segment; with only a segment id it uses the matching segment with the lowest local id; with neither it uses the segment with the lowest local id; a new segment is made only when nothing matches, and it then receives the grain.", "quantifier": "all encoder states, all id arguments", "why_tests_cant": "Depends on the entire set of segments.", "anchors": ["mediagrains/gsf.py: _get_segment, GSFEncoder.add_grains"]}
{"id": "C18", "title": "Repeated dumps", "statement": "Dumping the same encoder again to the same file produces a file whose segment counts equal the number of grains in the file.", "quantifier": "all encoder histories with more than one dump", "why_tests_cant": "A property of histories; the second dump is rarely tested.", "anchors": ["mediagrains/gsf.py: GSFEncoder.dump, encode_all_grains, _write_count"]}
{"id": "C19", "title": "Encoding a grain whose data is not loaded", "statement": "Whatever grain object is passed to the encoder, the grain data block it writes contains as many bytes as its header declares.", "quantifier": "all grains, including lazily loaded ones that were not awaited", "why_tests_cant": "Requires the combination of lazy loading with re-encoding.", "anchors": ["mediagrains/gsf.py: GSFEncoderSegment.encode_grain", "mediagrains/grains/Grain.py: Grain.length"]}
{"id": "C20", "title": "Optional coded-video fields", "statement": "Absent key-frame flag and absent temporal offset survive a round trip as absent, and present values survive as present.", "quantifier": "all key-frame flags and temporal offsets, versions 7, 8, 9", "why_tests_cant": "Sentinel values can collide with real ones on single points of a 32-bit range.", "anchors": ["mediagrains/gsf.py: _encode_cghd_for_grain, read_optional_bool, read_optional_sint, _sync_decode_gbhd"]}
{"id": "C21", "title": "Strings survive or are rejected", "statement": "Every tag, timelabel tag and flow format string that fits its field reads back identically, and the encoder never writes a file whose strings the decoder cannot decode.", "quantifier": "all Unicode strings", "why_tests_cant": "Truncation at a byte limit interacts with multi-byte characters.", "anchors": ["mediagrains/gsf.py: GSFEncoderTag, encode_grain (timelabels), _encode_header (flow), read_string, read_varstring"]}
{"id": "C22", "title": "Timestamps survive", "statement": "Origin and sync timestamps of every sign survive a round trip exactly.", "quantifier": "all timestamps the timestamp type can hold, versions 7, 8, 9", "why_tests_cant": "Range is 2^48 seconds times 10^9 nanoseconds times a sign.", "anchors": ["mediagrains/gsf.py: _encode_ts, _encode_ts_v7, read_timestamp, read_timestamp_v7"]}
{"id": "C23", "title": "decode() groups without loss or reordering", "statement": "GSFDecoder.decode / loads returns a mapping from local id to grains whose concatenation per id is the subsequence of the stream with that id; every grain in the stream appears exactly once and no id maps to an empty list.", "quantifier": "all grain streams", "why_tests_cant": "Unbounded streams.", "anchors": ["mediagrains/gsf.py: GSFDecoder._synchronously_decode, loads"]}
{"id": "C24", "title": "Asynchronous decoder equals synchronous decoder", "statement": "On every input the asynchronous decoder yields the same grains, local ids and errors as the synchronous decoder, and awaiting a deferred grain inside the context gives the same data, in any order of awaiting; after leaving the context in defer mode unawaited grains give no data.", "quantifier": "all byte strings, all schedules of awaiting grains", "why_tests_cant": "Number of await schedules is exponential.", "anchors": ["mediagrains/gsf.py: AsyncGSFBlock, GSFAsyncDecoderSession.grains, _read_out_of_order, _kill_unused_lazy_loaders"]}
{"id": "C25", "title": "Leaving the async decoder in load-on-exit mode", "statement": "In ALWAYS_LOAD_DEFER_IF_POSSIBLE mode, leaving the async context loads all remaining grains' data.", "quantifier": "all files and all subsets of grains already awaited", "why_tests_cant": "Needs the exit path with outstanding grains.", "anchors": ["mediagrains/gsf.py: GSFDecoder.__aexit__, _kill_unused_lazy_loaders, _read_out_of_order"]}
{"id": "C26", "title": "Malformed nesting is rejected, not misread", "statement": "If a child block claims to extend past its parent, or 1 to 7 stray bytes remain where a block is expected, decoding raises GSFDecodeError or ends; it never takes bytes outside the grain header as header fields.", "quantifier": "all byte strings as grain-header bodies", "why_tests_cant": "All malformed inputs.", "anchors": ["mediagrains/gsf.py: has_child_block, read_remaining_block, child_blocks"]}
{"id": "C27", "title": "Grain metadata defaults", "statement": "Constructing a grain from any metadata keeps every field that was supplied and fills only missing ones; a missing origin timestamp falls back to creation and a missing sync timestamp to origin; constructing again from the result changes nothing.", "quantifier": "all metadata dictionaries with any subset of fields present", "why_tests_cant": "2^8 subsets of fields times arbitrary values.", "anchors": ["mediagrains/grains/Grain.py: Grain.__init__, GrainFactory"]}
{"id": "C28", "title": "Grain factory dispatch", "statement": "GrainFactory builds the class named by grain_type (event and data both give an event grain), and any other or missing type gives a plain Grain; the resulting grain's grain_type agrees with its class.", "quantifier": "all grain_type strings and missing fields", "why_tests_cant": "All strings.", "anchors": ["mediagrains/grains/Grain.py: GrainFactory", "mediagrains/grains/*.py: __init__"]}
{"id": "C29", "title": "Time label and unit offset lists behave like lists", "statement": "grain.timelabels and grain.unit_offsets behave as a Python list under any sequence of get, set, insert, append, delete and len operations, with IndexError exactly where a list raises it, regardless of the key appearing and disappearing from the metadata.", "quantifier": "all operation sequences and indices (including negative)", "why_tests_cant": "Unbounded operation sequences.", "anchors": ["mediagrains/grains/Grain.py: Grain.TIMELABELS", "mediagrains/grains/CodedVideoGrain.py: UNITOFFSETS"]}
{"id": "C30", "title": "Lazy grain data", "statement": "Awaiting a grain loads its data once and later awaits return the same data; length is the declared length before loading and the real length after; assigning data cancels the pending load; reading data never triggers I/O.", "quantifier": "all sequences of await, data assignment, length assignment and reads", "why_tests_cant": "All histories.", "anchors": ["mediagrains/grains/Grain.py: Grain.__await__, data, length"]}
{"id": "C31", "title": "Video component layout", "statement": "For every supported format and frame size the components of a newly created video grain are in order, contiguous from offset 0, disjoint, fit exactly in the allocated data, and expected_length equals the allocated size; each line of each component lies inside its component.", "quantifier": "all formats and all widths and heights", "why_tests_cant": "All width/height pairs; odd sizes are the exceptional ones.", "anchors": ["mediagrains/grains/VideoGrain.py: size_for_format, components_for_format, expected_length"]}
{"id": "C32", "title": "Audio data size", "statement": "For every PCM audio format, channel count and sample count the allocated/expected size is channels (rounded up to pairs for pair formats) x samples x the sample width reported by the format table, and is 0 for compressed formats.", "quantifier": "all formats, all channel and sample counts", "why_tests_cant": "All counts times formats.", "anchors": ["mediagrains/grains/AudioGrain.py: size_for_audio_format", "mediagrains/cogenums.py: COG_AUDIO_FORMAT_SAMPLEBYTES"]}
{"id": "C33", "title": "Event grain payload round trip", "statement": "Setting an event grain's data to the data of another event grain reproduces its type, topic and data items (path, pre, post); append adds exactly one item at the end; a payload missing type, topic or data is refused.", "quantifier": "all payloads", "why_tests_cant": "Arbitrary nested JSON values and item lists.", "anchors": ["mediagrains/grains/EventGrain.py: data, append, event_data, DATA"]}
{"id": "C34", "title": "Format enumeration tables", "statement": "For every frame format the predicates and derived values (planar, RGB, compressed, alpha, bytes per value, horizontal/vertical shift, active bits) are mutually consistent, and the planar format lookup inverts them.", "quantifier": "all members of the enumerations", "why_tests_cant": "Finite but cross-product of predicates; needs the whole table.", "anchors": ["mediagrains/cogenums.py: COG_FRAME_*, COG_PLANAR_FORMAT, COG_AUDIO_*"]}
{"id": "C35", "title": "Deferred bytes object", "statement": "An IOBytes object reads exactly the byte range it was created for, at most once, leaves the underlying file position unchanged by any access, and compares/indexes/concatenates like the bytes themselves.", "quantifier": "all files, ranges, positions and access sequences", "why_tests_cant": "All access sequences interleaved with other file use.", "anchors": ["mediagrains/utils/iobytes.py: IOBytes, LazyLoader"]}
{"id": "C36", "title": "In-memory async file behaves like a file", "statement": "AsyncBytesIO's open file behaves as a file (a byte array with a position) under any sequence of read, readinto, write, seek, tell, truncate.", "quantifier": "all operation sequences", "why_tests_cant": "Unbounded histories.", "anchors": ["mediagrains/utils/asyncbinaryio.py: OpenAsyncBytesIO"]}
{"id": "C37", "title": "Forward-only stream wrapper", "statement": "Reading through the async stream wrapper and the non-seekable stdin wrapper delivers each byte of the stream at its true position: reads and forward skips interleaved in any way return the bytes at tell(), and backward seeks are refused.", "quantifier": "all streams, all splits of the stream into short reads, all operation sequences", "why_tests_cant": "All chunkings of a pipe.", "anchors": ["mediagrains/utils/asyncbinaryio.py: OpenAsyncStreamWrapper", "mediagrains/tools/_file_or_pipe.py"]}
{"id": "C38", "title": "Wrapping raw essence into grains", "statement": "Wrapping a raw byte stream produces grains whose data, concatenated, is the input minus a final partial grain, each exactly the expected length, with timestamps advancing by exactly one grain each; unwrapping (concatenating) gives the input back when its length is a multiple of the grain length.", "quantifier": "all inputs and grain sizes", "why_tests_cant": "All input lengths.", "anchors": ["mediagrains/utils/grain_wrapper.py", "mediagrains/tools/wrap_in_gsf.py", "mediagrains/tools/extract_from_gsf.py"]}
{"id": "C39", "title": "ADTS AAC framing", "statement": "Splitting an ADTS stream gives frames whose concatenation is the stream, each frame as long as its header says; header fields are extracted from the right bits; malformed sync words are rejected.", "quantifier": "all byte streams", "why_tests_cant": "All bit patterns.", "anchors": ["mediagrains/utils/adts_aac_parser.py", "mediagrains/utils/adts_aac_grain_wrapper.py"]}
{"id": "C40", "title": "H.264 framing", "statement": "Splitting an H.264 byte stream into access units partitions the bytes: concatenated frames equal the input from the first start code on, regardless of how the input is chunked; unit offsets point at start codes.", "quantifier": "all byte streams and all chunkings", "why_tests_cant": "All byte streams times chunkings.", "anchors": ["mediagrains/utils/h264_parser.py", "mediagrains/utils/h264_grain_wrapper.py"]}
{"id": "C41", "title": "H.264 bit-level parsing", "statement": "Exp-Golomb codes decode to the numbers they encode, and removing emulation-prevention bytes inverts inserting them.", "quantifier": "all numbers, all byte strings", "why_tests_cant": "Unbounded.", "anchors": ["mediagrains/utils/h264_parser.py: RBSP parsing"]}
{"id": "C42", "title": "Comparison accepts equals and only equals", "statement": "Comparing two grains with no options succeeds iff all compared attributes are equal (creation timestamp is excluded by default); a grain always compares equal to itself.", "quantifier": "all pairs of grains of all types", "why_tests_cant": "All attribute combinations.", "anchors": ["mediagrains/comparison/_internal.py", "mediagrains/comparison/__init__.py: compare_grain"]}
{"id": "C43", "title": "Comparison options are monotone and local", "statement": "Adding an exclusion only ever turns failure into success, never the reverse, and affects only the excluded attributes; expected-difference options replace the equality test of exactly their attribute.", "quantifier": "all pairs of grains, all option lists", "why_tests_cant": "All option subsets.", "anchors": ["mediagrains/comparison/_internal.py", "mediagrains/comparison/options.py"]}
{"id": "C44", "title": "Comparing grain iterators", "statement": "Comparing two grain iterators succeeds iff they have the same length and compare equal pairwise; with return_last_only the verdict is the same but only the last comparison is kept.", "quantifier": "all pairs of finite grain sequences", "why_tests_cant": "All lengths.", "anchors": ["mediagrains/comparison/_internal.py: GrainIteratorComparisonResult"]}
{"id": "C45", "title": "Tone generator continuity", "statement": "The tone pattern generator produces grains whose samples, concatenated, are one continuous periodic signal: sample n of the stream depends only on n, independent of how the stream is cut into grains, and each grain's data has exactly its expected length.", "quantifier": "all frequencies, sample rates, grain sizes, positions", "why_tests_cant": "Infinitely many positions.", "anchors": ["mediagrains/patterngenerators/audio/tone.py", "mediagrains/patterngenerators/audio/abc.py"]}
{"id": "C46", "title": "Pattern generator indexing", "statement": "Iterating a pattern generator over a range with a skip yields exactly the grains at every skip-th position of the range in order; still generators return independent copies with the requested timestamps.", "quantifier": "all ranges, skips and generators", "why_tests_cant": "All ranges.", "anchors": ["mediagrains/patterngenerators/abc.py", "mediagrains/patterngenerators/video/still.py"]}
{"id": "C47", "title": "Video test patterns stay in range", "statement": "Luma steps and colour bars are produced for every frame width without failing and every sample written lies in the nominal range of the format.", "quantifier": "all widths, heights and supported formats", "why_tests_cant": "All widths; small or non-multiple-of-8 widths are exceptional.", "anchors": ["mediagrains/patterngenerators/video/lumasteps.py", "mediagrains/patterngenerators/video/colourbars.py", "mediagrains/patterngenerators/video/movingbaroverlay.py"]}
{"id": "C48", "title": "v210 packing round trip", "statement": "Converting 10-bit 4:2:2 planar to v210 and back is the identity on 10-bit samples for every frame size.", "quantifier": "all widths (even), heights and sample values below 1024", "why_tests_cant": "All widths mod 48 and sample values.", "anchors": ["mediagrains/numpy/convert.py: _convert_v210_to_yuv422_10bit, _convert_yuv422_10bit_to_v210"]}
{"id": "C49", "title": "Chroma resampling and bit-depth arithmetic", "statement": "The overflow-free mean of two samples lies between them and is within one of the true mean; upsampling chroma by duplication then downsampling by mean is the identity; raising bit depth then lowering it loses at most rounding and never wraps a sample round.", "quantifier": "all sample values at all supported bit depths", "why_tests_cant": "All pairs of 32-bit samples.", "anchors": ["mediagrains/numpy/convert.py: _int_array_mean, _unbiased_right_shift, _noisy_left_shift"]}
{"id": "C50", "title": "Conversion table is closed", "statement": "Every frame format pair advertised as convertible can actually be converted: the chain of registered steps always ends in direct conversions and never loops or hits a missing step; converting to the same format is a copy.", "quantifier": "all registered format pairs", "why_tests_cant": "About a thousand pairs built by nested loops and late-bound lookups.", "anchors": ["mediagrains/numpy/convert.py: registration loops", "mediagrains/numpy/numpy_grains/VideoGrain.py: grain_conversion_two_step, convert"]}
{"id": "C51", "title": "Decoding from standard input", "statement": "Decoding a GSF stream from standard input, which can not seek, gives the same headers and the same grains with the same data as decoding the same bytes from a file, however the pipe cuts up what it delivers.", "quantifier": "all streams, all selections of local ids, all loading modes, all ways the pipe can split its data", "why_tests_cant": "The tests of the tools use one file; the short reads and forward-only seeks of a pipe only matter for some block layouts.", "anchors": ["mediagrains/tools/_file_or_pipe.py: InputStreamWrapper, file_or_pipe", "mediagrains/gsf.py: SyncGSFBlock.__exit__, GSFSyncDecoderSession.grains"]}
{"id": "C54", "title": "Channel arrays of numpy audio grains are the samples", "statement": "A numpy audio grain over data of the length its format, channel count and sample count ask for has one array per channel with one element per sample, and that element is that sample of that channel: in planes, interleaved or in pairs (with an unused channel after an odd last one). Except for 24-bit formats the arrays are over the data of the grain: assigning to an element changes that sample and no other. 24-bit samples read as 32-bit ones moved up by eight bits.", "quantifier": "every sampled format, number of channels, number of samples and sample values", "why_tests_cant": "Whether strided arrays stay inside the data and meet no other channel depends on the product of channels and samples, for every count, odd and even; tests look at a few sizes.", "anchors": ["mediagrains/numpy/numpy_grains/AudioGrain.py:_channel_arrays_for_data_and_type", "mediagrains/numpy/numpy_grains/AudioGrain.py:_dtype_from_cogaudioformat", "mediagrains/numpy/numpy_grains/AudioGrain.py:AudioGrain"]}
{"id": "C55", "title": "Component arrays of numpy video grains are the samples", "statement": "The component arrays of a numpy video grain with the components and data of its format and size lie inside the data, and no two of their elements share a byte. Element [x, y] of the array of a component is the xth sample of that component in line y, for planar formats and for the packed ones, whose order of samples the format fixes. Assigning to an element changes that element and no other. Every byte of a planar grain of even size belongs to an element.", "quantifier": "every supported format, width and height (odd ones too), element and data", "why_tests_cant": "The arrays are made without bounds checks, so one wrong stride or offset for one size reads or writes memory of something else; tests use a few even sizes.", "anchors": ["mediagrains/numpy/numpy_grains/VideoGrain.py:_component_arrays_for_data_and_type", "mediagrains/numpy/numpy_grains/VideoGrain.py:_component_arrays_for_interleaved_422", "mediagrains/numpy/numpy_grains/VideoGrain.py:_component_arrays_for_interleaved_444_take_three", "mediagrains/numpy/numpy_grains/VideoGrain.py:ComponentDataList", "mediagrains/grains/VideoGrain.py:components_for_format"]}
{"id": "C58", "title": "Times of grains", "statement": "The range of origin times of an audio grain starts at its origin timestamp and ends at the time of its last sample; of other grains it is the origin timestamp alone. Ranges of audio grains that follow each other in a flow share no time. Presentation times are the origin times moved by the temporal offset of coded video grains, the same for first, last and range. Normalising uses the frame rate of video and the sample rate of audio, and changes nothing without one.", "quantifier": "every grain type, timestamp, rate, number of samples, temporal offset, and every rounding the timestamp library may use", "why_tests_cant": "Whether neighbouring ranges touch depends on rounding to nanoseconds for every sample rate and position; tests use a few rates that divide a second.", "anchors": ["mediagrains/grains/Grain.py:final_origin_timestamp", "mediagrains/grains/Grain.py:normalise_time", "mediagrains/grains/AudioGrain.py:final_origin_timestamp", "mediagrains/grains/CodedAudioGrain.py:final_origin_timestamp", "mediagrains/grains/CodedVideoGrain.py:presentation_origin_timerange", "mediagrains/grains/VideoGrain.py:media_rate"]}
{"id": "C52", "title": "What the wrapping tools write", "statement": "wrap_video_in_gsf and wrap_audio_in_gsf turn the grains of their wrapper into a GSF file with one segment that has local id 1 and the id of the flow, all grains in order, and in its head their number (or -1 when writing to standard output). If the wrapper fails half way the grains it had made are in the file and can be read.", "quantifier": "every sequence of grains, every previous content of the output, output that can or cannot seek, and every point at which the wrapper may fail", "why_tests_cant": "Failing after every possible grain and output of every length are not covered by a few runs.", "anchors": ["mediagrains/tools/wrap_in_gsf.py:wrap_to_gsf", "mediagrains/tools/wrap_in_gsf.py:wrap_audio_in_gsf", "mediagrains/tools/_file_or_pipe.py:file_or_pipe", "mediagrains/gsf.py:GSFEncoder"]}
{"id": "C53", "title": "Extraction gives the essence back", "statement": "extract_gsf_essence writes the data of the grains with the chosen local ids, in order, from a file or standard input. Of a file that was cut it writes a first part of what it writes of the whole file. Wrapping raw video, H.264 or AAC from a file and extracting it gives the file back, or a first part of it if wrapping failed half way.", "quantifier": "every GSF file or sequence of files, every choice of ids, every cut, every input to the wrappers", "why_tests_cant": "It is a property of two programs one after the other over all inputs, cuts and failures.", "anchors": ["mediagrains/tools/extract_from_gsf.py:extract_gsf_essence", "mediagrains/tools/wrap_in_gsf.py:wrap_to_gsf", "mediagrains/gsf.py:GSFDecoder.grains", "mediagrains/utils/grain_wrapper.py:GrainWrapper"]}
{"id": "C56", "title": "A deep copy of a grain is equal and independent", "statement": "copy.deepcopy of a grain gives a grain with the same metadata and data, with the same sharing inside, and without any object in common with what was there before. Whatever a program then does with the copy cannot be seen in the original, and whatever is done with the original cannot be seen in the copy. copy.copy of a grain shares all but the outer dictionary.", "quantifier": "every grain with metadata of any shape and depth (shared and cyclic parts included), and every sequence of changes by any program", "why_tests_cant": "Independence is about all later changes at all depths; a test changes a few fields.", "anchors": ["mediagrains/grains/Grain.py:Grain.__copy__", "mediagrains/grains/Grain.py:Grain.__deepcopy__", "mediagrains/grains/Grain.py:Grain.__eq__", "mediagrains/grains/Grain.py:Grain.TIMELABELS", "mediagrains/numpy/numpy_grains/VideoGrain.py:VideoGrain.__deepcopy__"]}
{"id": "C57", "title": "The list-like attributes of grains behave like lists", "statement": "The time labels, unit offsets and components of a grain can be used like python lists: indexing, slicing, assigning, deleting, inserting, iterating, searching, counting, appending, extending, popping, removing, clearing and reversing give the values and errors that a list gives and leave the metadata as they would leave a list. Assigning to the attribute replaces the contents.", "quantifier": "every grain, with or without such a list, every index including negative and out of range ones, every slice with any bounds and step, every value (time labels with any part missing), every sequence of these operations", "why_tests_cant": "There are 17 operations on three kinds of lists that may be missing, empty or not, with all indices; tests cover a few.", "anchors": ["mediagrains/grains/Grain.py:Grain.TIMELABELS", "mediagrains/grains/Grain.py:Grain.timelabels", "mediagrains/grains/Grain.py:Grain.add_timelabel", "mediagrains/grains/CodedVideoGrain.py:CodedVideoGrain.UNITOFFSETS", "mediagrains/grains/CodedVideoGrain.py:CodedVideoGrain.unit_offsets", "mediagrains/grains/VideoGrain.py:VideoGrain.COMPONENT_LIST"]}
{"id": "C59", "title": "What gsf_probe reports", "statement": "gsf_probe reports every segment of the head of a file, with the smallest range of times that has the times of all grains of the segment in it, the first grain or all grains, and on request the timestamps of all grains in order.", "quantifier": "every GSF file or sequence of files with any segments and grains, every combination of options", "why_tests_cant": "The range and the lists depend on all grains in any order and with any overlap; tests use a few files.", "anchors": ["mediagrains/tools/extract_from_gsf.py:gsf_probe", "mediagrains/gsf.py:GSFDecoder.decode_file_headers", "mediagrains/grains/Grain.py:Grain.origin_timerange"]}
{"id": "C60", "title": "Attributes hold what they are given", "statement": "Setting an attribute of a grain (identifiers, timestamps, rate, duration, formats, layouts, sizes, sample counts, key frame flag, temporal offset, aspect ratios, event type and topic) to a value makes it read as that value, under each of its names, until it is set again; no other attribute changes. Attributes that may be absent can be made absent by setting them to None. Values that could not be read back are rejected.", "quantifier": "every grain class, every attribute, every value, every sequence of assignments", "why_tests_cant": "Tests set each attribute once to one value; interference between attributes that share a dictionary, and values that are accepted but cannot be read, show only over all pairs and values.", "anchors": ["mediagrains/grains/Grain.py:Grain", "mediagrains/grains/VideoGrain.py:VideoGrain", "mediagrains/grains/AudioGrain.py:AudioGrain", "mediagrains/grains/CodedVideoGrain.py:CodedVideoGrain", "mediagrains/grains/CodedAudioGrain.py:CodedAudioGrain", "mediagrains/grains/EventGrain.py:EventGrain"]}
{"id": "C61", "title": "Signal to noise ratios and the options that use them", "statement": "Comparing with PSNR limits gives one ratio for each component or channel: infinite exactly if all samples are the same, otherwise the square of the peak over the mean square error, so it does not depend on the order of the grains and does not get worse when samples get closer. A comparison with limits passes exactly if every component with a limit meets it, ExpectedDifference operators accept exactly the differences they state, they can be combined with & and |, and comparing does not change the grains.", "quantifier": "all pairs of video and audio grains of the same format and size, all samples, all limits and comparison operators", "why_tests_cant": "The ratio ranges over all sample values and the options over all operators and limits; tests compare a few pattern frames with a few limits.", "anchors": ["mediagrains/comparison/psnr.py:compute_psnr", "mediagrains/comparison/options.py:PSNR", "mediagrains/comparison/options.py:ExpectedDifference", "mediagrains/comparison/_internal.py:PSNRComparisonResult"]}
{"id": "C62", "title": "H.264 parameter sets and slice headers are read as they are written", "statement": "A sequence parameter set, picture parameter set or slice header written in the syntax of the standard (ISO/IEC 14496-10, 7.3) is read with every field the value that was written, or the inferred one if it is optional and absent, and nothing after it is consumed. The picture size, coded size, frame rate and key frame flag reported are those the standard defines from these fields.", "quantifier": "all valid parameter sets and slice headers, with any combination of optional parts, any scaling lists and slice groups, and any bits after them", "why_tests_cant": "The optional parts nest (profile, chroma format, scaling lists, order count type, VUI), so a misread field depends on combinations; tests have one or two recorded streams.", "anchors": ["mediagrains/utils/h264_parser.py:_parse_sps", "mediagrains/utils/h264_parser.py:_parse_pps", "mediagrains/utils/h264_parser.py:_parse_slice_header", "mediagrains/utils/h264_parser.py:_extract_frame_info"]}
{"id": "C63", "title": "The frames of an H.264 stream are its pictures", "statement": "Wrapping an H.264 byte stream gives one frame for each coded picture, in order: with exactly the bytes of the picture's NAL units (from its delimiter or parameter sets to its last slice or filler), the positions of their start codes in it, and the size, rate and key frame flag its headers define. Where one picture ends and the next begins is as the standard says (7.4.1.2.3 and 7.4.1.2.4), whatever the sizes in which the stream is read.", "quantifier": "all streams of valid pictures, with any number of slices, parameter sets that change on the way, any slice data, emulation prevention, three or four byte start codes, and all read sizes", "why_tests_cant": "The end of a picture is only known from the beginning of the next, of which there are a dozen kinds, and data arrive in pieces that may end anywhere; tests have a few streams read in one way.", "anchors": ["mediagrains/utils/h264_parser.py:parse_frame", "mediagrains/utils/h264_parser.py:parse_frame_info", "mediagrains/utils/h264_grain_wrapper.py:H264GrainWrapper"]}
{"id": "C64", "title": "A grain made from arguments has them as its attributes", "statement": "Constructing a grain of any type from keyword arguments of the documented types succeeds, and each attribute of the new grain reads as the argument given or its documented default; the sync timestamp defaults to the origin timestamp, that to the creation timestamp, that to the current time, and the coded size to the origin size. The data are those given; if none are, they are zeros of exactly the size the format, width, height, samples and channels ask for (or of the length asked for, for coded formats), and the components of a picture tile them.", "quantifier": "all grain types, all sets of keyword arguments of the documented types, with or without data", "why_tests_cant": "Tests construct a few grains with one set of arguments each; every subset of up to seventeen optional arguments, with every format and size, must give a consistent grain.", "anchors": ["mediagrains/grains/Grain.py:GrainFactory", "mediagrains/grains/VideoGrain.py:VideoGrain.__init__", "mediagrains/grains/AudioGrain.py:AudioGrain.__init__", "mediagrains/grains/CodedVideoGrain.py:CodedVideoGrain.__init__", "mediagrains/grains/CodedAudioGrain.py:CodedAudioGrain.__init__", "mediagrains/grains/EventGrain.py:EventGrain.__init__"]}
{"id": "C65", "title": "Grains drawn from the hypothesis strategies are as asked for", "statement": "For each grain type the strategy function accepts values, strategies, None or DONOTSET for its parameters. Drawing from the strategy never raises, and in every drawn grain each attribute is as asked for: the value given, a value the given strategy can draw, for None a value of the documented default range, for DONOTSET the constructor's default (timestamps following one another). The data are zeros of exactly the size the format asks for; random data drawn for a template have the expected length and the grain compares equal to itself. Drawn event grains have the type, topic and items asked for, and by default can be written and read back.", "quantifier": "all grain types, all combinations of arguments of the documented types, all values the strategies may draw", "why_tests_cant": "Strategies are themselves what tests sample from: a value that is never drawn, an argument that is ignored or a draw that raises only shows for particular arguments and draws.", "anchors": ["mediagrains/hypothesis/strategies.py:_grain_strategy", "mediagrains/hypothesis/strategies.py:strategy_for_grain_attribute", "mediagrains/hypothesis/strategies.py:grains", "mediagrains/hypothesis/strategies.py:event_grains", "mediagrains/hypothesis/strategies.py:grains_from_template_with_data", "mediagrains/grains/Grain.py:new_attributes_for_grain_type"]}
{"id": "C66", "title": "Colour conversions follow BT.709", "statement": "Converting a frame between RGB and YUV 4:4:4 of the same depth gives, for every pixel, the BT.709 colour: each sample is within one step of the exact value, values outside the range become the nearest end of the range, greys stay grey, and converting RGB to YUV and back changes each component by a few steps at most.", "quantifier": "all frames, sizes, depths and pixel values of the formats with a registered conversion", "why_tests_cant": "The calculation uses rounded constants and double precision; whether truncation, rounding and clipping are right shows only for some of the 2**24 (or 2**96) colours.", "anchors": ["mediagrains/numpy/convert.py:_convert_rgb_to_yuv444", "mediagrains/numpy/convert.py:_convert_yuv444_to_rgb"]}
{"id": "C67", "title": "A grain is the pair of its metadata and its data", "statement": "A grain can be used as the tuple (metadata, data): its length is 2, and indices, slices, iteration, unpacking, reversed, in, count and index give what the tuple gives. Two grains are equal exactly if their metadata are equal and their data have the same bytes, a grain is equal to the tuple of equal metadata and data, and equality is reflexive, symmetric and transitive; a deep copy is equal. bytes(grain) are the bytes of grain.data, has_data() says whether there is data, and awaiting a grain gives its data.", "quantifier": "all grains of all classes, all kinds of data objects (None, bytes, bytearray, memoryview, lazily loaded, numpy arrays), all indices, slices and bounds", "why_tests_cant": "Equality depends on python's rules for operands that do not know each other, for every pair of kinds of data; transitivity ranges over triples of grains.", "anchors": ["mediagrains/grains/Grain.py:Grain.__getitem__", "mediagrains/grains/Grain.py:Grain.__len__", "mediagrains/grains/Grain.py:Grain.__eq__", "mediagrains/grains/Grain.py:Grain.__ne__", "mediagrains/grains/Grain.py:Grain.__bytes__", "mediagrains/grains/Grain.py:Grain.has_data", "mediagrains/grains/Grain.py:Grain.__await__", "mediagrains/grains/EventGrain.py:EventGrain.data", "mediagrains/utils/iobytes.py:LazyLoader.__eq__", "mediagrains/numpy/numpy_grains/VideoGrain.py:VideoGrain.__bytes__"]}
{"id": "C68", "title": "Attributes survive a GSF file", "statement": "Grain objects written to a GSF file and read back have the same class and, attribute by attribute, the same values: ids, timestamps, rate, duration, timelabels, the format, layout, sizes, aspect ratios and components of pictures, the format and sizes of coded pictures with key frame flag, temporal offset and unit offsets, the fields of audio and coded audio, the type, topic and data of events, and the bytes of the data. In particular a grain constructed from arguments comes back with these arguments as its attributes.", "quantifier": "all lists of grains of all classes with attributes of the documented types and values that the file format can hold, all files around them, all times of reading", "why_tests_cant": "It composes the attribute getters, the encoder's headers, the decoder and the constructors, for every combination of values; each of them converts between representations on its own.", "anchors": ["mediagrains/gsf.py:GSFEncoderSegment.encode_grain", "mediagrains/gsf.py:BaseGSFDecoderSession", "mediagrains/gsf.py:GSFSyncDecoderSession", "mediagrains/gsf.py:GSFAsyncDecoderSession", "mediagrains/grains/Grain.py:GrainFactory", "mediagrains/grains/Grain.py:Grain", "mediagrains/grains/VideoGrain.py:VideoGrain", "mediagrains/grains/CodedVideoGrain.py:CodedVideoGrain", "mediagrains/grains/AudioGrain.py:AudioGrain", "mediagrains/grains/CodedAudioGrain.py:CodedAudioGrain", "mediagrains/grains/EventGrain.py:EventGrain"]}
{"id": "C69", "title": "Several tasks may add grains to one open asynchronous encoder", "statement": "When several tasks call add_grain or add_grains on the same open asynchronous GSF encoder, the file holds every grain they handed over exactly once and undamaged, each task's grains in its order, and the grain counts in its head are right. No schedule gets stuck.", "quantifier": "all numbers of tasks with all lists of grains and segments, all orders in which the event loop runs the tasks and in which threads carry out their writes, all points at which tasks are cancelled, all times of leaving the encoder, seekable files and streams", "why_tests_cant": "The number of schedules is exponential and their choice is not under the control of a test; on one machine one order of the threads is nearly always seen.", "anchors": ["mediagrains/gsf.py:OpenAsyncGSFEncoder.add_grain", "mediagrains/gsf.py:OpenAsyncGSFEncoder.add_grains", "mediagrains/gsf.py:OpenAsyncGSFEncoder._end_dump", "mediagrains/gsf.py:GSFEncoder.__aexit__", "mediagrains/utils/asyncbinaryio.py:wrap_in_executor", "mediagrains/utils/asyncbinaryio.py:OpenAsyncFileWrapper.write", "mediagrains/utils/asyncbinaryio.py:OpenAsyncBytesIO.write"]}
{"id": "C70", "title": "What a program that dies while it writes leaves can be read", "statement": "If the process dies at any point while a GSF file is written as a stream, what is left of the file can be read without error and begins with all grains handed over by calls that had returned; segments, flows and tags are right, and each count is right or unknown. A dump that is not a stream leaves the old file untouched until the encoder is left. A failed write does not damage what is written later.", "quantifier": "all set-ups of an encoder, all sequences of calls, all crash points between any two calls on the output file and inside every write, seekable files and streams, old contents of the file", "why_tests_cant": "A crash can fall between any two bytes of any write, including the middle of a count that is patched in; a test would have to kill the process at each of them, for each history.", "anchors": ["mediagrains/gsf.py:OpenGSFEncoder._start_dump", "mediagrains/gsf.py:OpenGSFEncoder._end_dump", "mediagrains/gsf.py:OpenGSFEncoder.add_grains", "mediagrains/gsf.py:OpenGSFEncoderBase._encode_head_block", "mediagrains/gsf.py:GSFEncoderSegment.encode_grain", "mediagrains/gsf.py:GSFDecoder"]}
{"id": "C71", "title": "What dumps makes of grains, loads turns into the same grains", "statement": "Any list of grains that can be written, handed to dumps with any tags, segments and versions, comes back from loads: one list with the same grains in the same order, under the local id of the new segment, and a header with the tags and segments that were given. load of an asynchronous file gives the same. dump leaves the same bytes in a file whatever the file held before. An iterable that raises costs no grain it had yielded. Keyword arguments are handed on to the encoder and the decoder.", "quantifier": "all lists of grains of all classes, all encoder arguments (segments with and without local ids, tags, versions), all old contents and positions of the output file, iterables that raise after any number of grains", "why_tests_cant": "The local id of the new segment depends on all segments declared before, and the contents on the whole list of grains and on what the file held; tests use a handful of lists.", "anchors": ["mediagrains/gsf.py:loads", "mediagrains/gsf.py:load", "mediagrains/gsf.py:dump", "mediagrains/gsf.py:dumps", "mediagrains/gsf.py:GSFEncoder.__init__", "mediagrains/gsf.py:GSFDecoder._synchronously_decode", "mediagrains/gsf.py:GSFDecoder._asynchronously_decode"]}
{"id": "C72", "title": "A converted numpy grain keeps its place in the stream", "statement": "Converting a numpy video grain to another format gives a new grain with the samples of the conversion and with the same source, origin and sync times, rate, duration, width, height and layout; its flow id depends on the old flow id and the formats only, so the grains of one flow end up in one flow. Everything that is not about the format is kept. Converting to the format it has gives an equal copy, and asformat the grain itself. Formats outside the table are refused.", "quantifier": "all video grains with attributes of their types, all pairs of formats, all lists of conversions one after the other", "why_tests_cant": "The attributes of a grain and the pairs and chains of 29 formats are too many to try, and tests look at the samples.", "anchors": ["mediagrains/numpy/numpy_grains/VideoGrain.py:VideoGrain.convert", "mediagrains/numpy/numpy_grains/VideoGrain.py:VideoGrain.asformat", "mediagrains/numpy/numpy_grains/VideoGrain.py:VideoGrain._similar_grain", "mediagrains/numpy/numpy_grains/VideoGrain.py:VideoGrain.flow_id_for_converted_flow"]}
{"id": "C73", "title": "Reading a file in parts loses no grain and repeats none", "statement": "Inside a decoder session grains can be taken one at a time, by several generators in turn, generators can be left and new ones made, grain data can be taken and headers looked at at any moment: no grain is delivered twice or out of order, generators without filter together deliver every grain, each generator with a filter gets all of its grains, data taken late is the grain's own, and file_headers are those of the file the last grain came from. Without support for concatenation, entering the decoder again after the end of a file reads the next file.", "quantifier": "all lists of files with any contents, all programs that enter the decoder, make, advance and close generators with any filters and loading modes, take data and look at headers in any order", "why_tests_cant": "The generators share one file position; whether they disturb each other depends on the interleaving, and there are infinitely many programs.", "anchors": ["mediagrains/gsf.py:GSFSyncDecoderSession.grains", "mediagrains/gsf.py:GSFDecoder.__enter__", "mediagrains/gsf.py:GSFDecoder.decode_file_headers", "mediagrains/gsf.py:GSFDecoder.grains", "mediagrains/utils/iobytes.py:IOBytes"]}
{"id": "C74", "title": "A file holds grains as they were when the program added them", "statement": "A program that changes grain objects after it has added them to an encoder, or adds one object again with a new value, gets a complete file with right counts. A streaming encoder keeps each grain as it was when it was added; grains added before the dump starts are as they were at its start. An encoder that does not stream should keep them too, and does when they are not changed before its end.", "quantifier": "all programs that change grain objects in any way and add tags, segments, flows and grains through the encoder, its handle and its segments, before and during a dump; all values of the objects", "why_tests_cant": "Encoders keep references to objects for an unbounded time; what is written depends on every change made in between, in any order.", "anchors": ["mediagrains/gsf.py:GSFEncoderSegment.add_grains", "mediagrains/gsf.py:GSFEncoderSegment.encode_all_grains", "mediagrains/gsf.py:OpenGSFEncoder.add_grains", "mediagrains/gsf.py:OpenGSFEncoder._start_dump"]}
{"id": "C75", "title": "A grain that was written and read again compares equal to the one that was written", "statement": "compare_grain between a grain object and the object read back from a file that it was written to raises nothing and finds them equal; compare_grains_pairwise between any sequence of grains and the sequence read back finds them equal. This holds although creation timestamps and the aspect ratios of coded video are not kept.", "quantifier": "all grain objects of every class, with all values of attributes that can be written, all data of whole words, all lists of grains in a file, all times of reading", "why_tests_cant": "It joins the writer, the reader and the comparison over every value of every attribute; the round trip tests of the library compare a handful of grains attribute by attribute.", "anchors": ["mediagrains/comparison/_internal.py:GrainComparisonResult.compare", "mediagrains/comparison/_internal.py:GrainIteratorComparisonResult.compare", "mediagrains/gsf.py:GSFEncoderSegment.encode_grain", "mediagrains/gsf.py:loads"]}
{"id": "C76", "title": "A comparison result reports which attributes, items and keys differ", "statement": "Of the result of compare_grain, result.name exists for every compared attribute and for no other name; it is truthy exactly when the attribute is the same (or meets the options), and excluded() tells exactly whether it does not count. failing_attributes() lists, in order, exactly the attributes whose sub-result is falsy; the result is falsy exactly when one of them is not excluded. result.timelabels[i][key], result.event_data[i][key] and result.unit_offsets[i] report on each index and key of either container in the same way, and failing_keys() lists exactly the falsy ones. Of compare_grains_pairwise, result[i] is the comparison of the i-th pair up to the first difference, whose index is failing_keys(). str(result) has a cross on the first line exactly when the result is falsy, and then has a chain of crosses down to something that was compared.", "quantifier": "all pairs of grains of every type, all options that name attributes, all names, indices and keys", "why_tests_cant": "The report must agree with the verdict for every combination of types, differences, container lengths, keys and options.", "anchors": ["mediagrains/comparison/_internal.py:ComparisonResult", "mediagrains/comparison/_internal.py:OrderedContainerComparisonResult", "mediagrains/comparison/_internal.py:MappingContainerComparisonResult", "mediagrains/comparison/_internal.py:PSNRComparisonResult"]}
{"id": "C77", "title": "Comparison options written as expressions mean what they say", "statement": "Exclude.name and Include.name name that attribute. ExpectedDifference.name OP value, for each of the six operators and with the operands in either order, makes an option that accepts exactly the differences a.name - b.name for which the expression is true; several such options for one timestamp require all of them. Options can only name attributes of the grain, not something inside a container. Chained comparisons and combinations with & and | mean what they say.", "quantifier": "all option expressions: all attribute names, operators, values, nestings", "why_tests_cant": "The options are built by operator overloading on any attribute name; the meaning of every expression under the rules of the language cannot be enumerated.", "anchors": ["mediagrains/comparison/options.py:_Exclude", "mediagrains/comparison/options.py:_Include", "mediagrains/comparison/options.py:_ExpectedDifference", "mediagrains/comparison/options.py:ComparisonExpectDifferenceMatches"]}
{"id": "C78", "title": "Comparison does not depend on the order of its arguments, and equality carries over", "statement": "Comparing two grains, or two sequences of grains, in the other order raises exactly when the comparison raises and gives the same answer, provided expected differences are given with the opposite sign. If a compares equal to b and b to c under some exclusions and inclusions, then a compares equal to c.", "quantifier": "all grains, all sequences, all options on attributes other than requirements on the signal to noise ratio", "why_tests_cant": "A relation between the results for all pairs and triples of grains and all sets of options.", "anchors": ["mediagrains/comparison/__init__.py:compare_grain", "mediagrains/comparison/__init__.py:compare_grains_pairwise", "mediagrains/comparison/_internal.py:GrainComparisonResult"]}
{"id": "C79", "title": "A file copied through the library is the same file", "statement": "A program opens a file with GSFDecoder, makes a GSFEncoder with what the file headers say, adds the flows, and hands every grain that the decoder yields to the encoder. Nothing raises, and the new file has the same header, with the right counts, and the same grains, byte for byte if the counts were right, time label rates are in lowest terms and key frame flags are known; blocks with unknown tags are dropped. The encoder keeps the order of the grains when it streams and groups them by segment when it does not. A copy of a copy is the copy.", "quantifier": "all well-formed files of versions 7, 8 and 9 with unknown blocks anywhere, whose grains have times that are not negative and members of the enumerations; all loading modes that hand out the data, all selections of segments, both modes of the encoder", "why_tests_cant": "Equality of files for every file, through the decoder, the grain classes and the encoder.", "anchors": ["mediagrains/gsf.py:GSFDecoder", "mediagrains/gsf.py:GSFEncoder", "mediagrains/gsf.py:GSFEncoderSegment", "mediagrains/__init__.py:GrainFactory"]}
{"id": "C80", "title": "A file can be read while it is written", "statement": "A program opens a file that another program is still writing, and asks for grains from time to time; when there are none the generator ends, and the program makes another one later. If every file it sees ends between two grains, as the files that the calls of the encoder leave behind do, it gets the grains in the order in which they were written, each once and none missed; a generator ends only when all the grains written so far were given; and the data of a grain can be taken at once and at any later time, also after the dump was ended. If the file it sees ends within a grain, that grain is lost unless all but its data is there, no grain is given twice, and the order is kept, as long as no file ends within the eight bytes with which a block begins.", "quantifier": "all well-formed files, all sequences of calls with any loading modes and selections of segments, all lengths that the file has at each call; all streaming dumps and all times of the calls relative to those of the writer", "why_tests_cant": "Any interleaving of the reader with the writer.", "anchors": ["mediagrains/gsf.py:GSFSyncDecoderSession.grains", "mediagrains/gsf.py:SyncGSFBlock", "mediagrains/gsf.py:GSFEncoder"]}
{"id": "C81", "title": "What a program that reads bytes of unknown origin has to expect", "statement": "Whatever the bytes: opening a file raises one of GSFDecodeError and its subclasses, EOFError if there are less than twelve bytes, UnicodeDecodeError or ValueError, and no other exception. If it opens, the loop over the grains makes a grain of every item, with all the metadata that the constructors of grains need, until it ends or raises. It never raises EOFError. What it raises is a GSFDecodeError; if concatenated files are supported, also what opening the next file may raise; or, for an event whose data is not that of an event, the exception of the constructor for just that data. A program that catches GSFDecodeError and EOFError only is not safe. The asynchronous decoder opens or fails to open with the same exceptions, and whatever a program then does with the session, asking for grains, awaiting their data and assigning data in any order: the generator gives grains, ends, or raises one of the above or, for an event whose data is deferred, AttributeError; awaiting gives data or raises RuntimeError, or, only for AsyncBytesIO, EOFError.", "quantifier": "all byte strings, all loading modes, selections of segments and other options, all clocks and all text conversions of the libraries used; for the asynchronous decoder also all programs", "why_tests_cant": "Any bytes at all; fuzzing can find an exception that was not expected but cannot show that there are no more.", "anchors": ["mediagrains/gsf.py:GSFSyncDecoderSession.grains", "mediagrains/gsf.py:GSFSyncDecoderSession._decode_file_headers", "mediagrains/gsf.py:SyncGSFBlock", "mediagrains/grains/Grain.py:GrainFactory", "mediagrains/grains/EventGrain.py:EventGrain", "mediagrains/gsf.py:GSFAsyncDecoderSession.grains", "mediagrains/gsf.py:_read_out_of_order"]}
{"id": "C82", "title": "Damage inside a block stays there", "statement": "Any bytes of the head and of any of the grains of a file are changed, other than the sizes of these blocks and the tag of the head; a tag of a grain that was changed still is text. If the file cannot be opened the head was damaged, and the exception is a GSFDecodeError, UnicodeDecodeError or ValueError. If it can, its version is right, and so is the head unless it was damaged. There is one sequence of replies, right for every grain that was not damaged; for a damaged one it has nothing, some grain, an end or a GSFDecodeError. A for loop sees the part of it before the first end or exception, so it gets every grain before the first damaged one. A program that goes on after an exception or end, by asking the session for its grains again, gets all replies, so it gets every undamaged grain, in order. Whatever becomes of a file after its first k grains, sizes and tags included, a loop gets these grains first, as they were; if the next tag is not text, it then raises GSFDecodeError. If the tag of the head is changed, to anything but the beginning of a signature, the file is refused with GSFDecodeError.", "quantifier": "all contents of files, all changes of bytes inside the head and the grains, any number of damaged grains, all options, any number of further requests", "why_tests_cant": "Every byte may take every value, in any number of places at once.", "anchors": ["mediagrains/gsf.py:SyncGSFBlock.__exit__", "mediagrains/gsf.py:SyncGSFBlock.__enter__", "mediagrains/gsf.py:GSFSyncDecoderSession.grains", "mediagrains/gsf.py:GSFDecoder"]}
{"id": "C83", "title": "Joining files whose writers did not finish", "statement": "Files are joined byte for byte, and the writers of some of them did not get as far as the terminator, but each ends after a whole grain or after its head. A decoder that supports concatenation gives all grains of all files that are asked for, in order, ends normally, and has the head of the last file; one that does not gives those of the first file and ends normally. If the last grain of a file is incomplete, nothing of another file is taken for its data.", "quantifier": "all sequences of files, finished or not, with any contents, all loading modes and selections; for the last part all places of the cut in the data and all bytes that are joined", "why_tests_cant": "Any number of files with any contents, cut at any grain.", "anchors": ["mediagrains/gsf.py:GSFSyncDecoderSession.grains", "mediagrains/gsf.py:GSFDecoder", "mediagrains/gsf.py:SyncGSFBlock"]}
{"id": "C84", "title": "A reader on a pipe is never behind", "statement": "A GSF file arrives on standard input piece by piece. As soon as the head has arrived the decoder can be opened, and as soon as the last byte of a grain has arrived that grain can be delivered, with its data: the decoder never waits for bytes behind the grain. It delivers no grain that has not arrived in full, and raises nothing: it waits. If an encoder writes a streaming dump into the pipe, then after each call a reader that got all that was written delivers all the grains that were handed over so far.", "quantifier": "all files, all numbers of bytes that have arrived, all loading modes, selections of segments and concatenation options; all encoders and all sequences of calls during a streaming dump into a pipe", "why_tests_cant": "A test of timing is a race; every number of bytes that can have arrived is another case.", "anchors": ["mediagrains/gsf.py:GSFSyncDecoderSession.grains", "mediagrains/tools/_file_or_pipe.py:InputStreamWrapper", "mediagrains/gsf.py:OpenGSFEncoder"]}
{"id": "C85", "title": "Files are what the format documents say", "statement": "The format is described in gsf_docs, and other programs read and write it from that description. Every file of version 9 that follows the description is read as the contents the description gives it: its version, head, segments, tags, grains with all their metadata, and data, whatever further blocks and properties it has that the reader does not know. Files of another minor version are read in the same way, and those of version 8 with the differences of that version only. What the encoder writes follows the description and says what was given to the encoder.", "quantifier": "all byte strings that are files according to gsf_docs/ssb.md and gsf_docs/gsf.md (any contents, any further blocks and properties, with or without an end), all loading modes and stream filters; for writing all heads, segments, tags and grains of all types", "why_tests_cant": "Tests read back what the same code wrote, or a few example files; a field written and read in the same wrong place passes them. That all files of other writers are understood is a statement about all byte strings.", "anchors": ["gsf_docs/ssb.md", "gsf_docs/gsf.md", "mediagrains/gsf.py:SyncGSFBlock", "mediagrains/gsf.py:GSFSyncDecoderSession", "mediagrains/gsf.py:OpenGSFEncoder", "mediagrains/gsf.py:GSFEncoderSegment"]}
{"id": "C86", "title": "An asynchronous program that awaits each grain reads what a synchronous one reads", "statement": "A program that opens a file with the asynchronous decoder, takes one grain after the other and awaits each before it goes on, gets the grains, local ids, data and the end (or exception) that a synchronous program gets. So it gets what was written: from files written whole, cut behind the head, joined whether or not their writers finished, and from files of other writers that follow the format documents.", "quantifier": "all bytes as files, all loading modes and filters, with and without support for concatenation, all numbers of turns of the loop; for the corollaries all heads, segments and grains, all cuts, all joins", "why_tests_cant": "The data comes from a coroutine that seeks in the file while a generator is suspended in it; that neither disturbs the other, in any file, is a statement about all files and all moments.", "anchors": ["mediagrains/gsf.py:GSFAsyncDecoderSession.grains", "mediagrains/gsf.py:AsyncGSFBlock", "mediagrains/grains/Grain.py:Grain.__await__", "mediagrains/utils/asyncbinaryio.py"]}
{"id": "C87", "title": "What a comparison says about binary data", "statement": "A comparison of the data of two grains says they are equal exactly if they have the same number of samples and these are equal one by one. Otherwise it says where they first differ and which values are there, or, if one is the start of the other, how many more values the other has and the first of these. The printed report lists changes that turn the first into the second, with the samples concerned.", "quantifier": "all lists of samples, whole or floating point numbers, of any length (also 200 or more, where the matcher leaves out frequent values)", "why_tests_cant": "The position comes from a heuristic search for longest common blocks; the tests compare data whose first difference the heuristic happens to find. Which data it misleads on can only be seen for all of them.", "anchors": ["mediagrains/comparison/_internal.py:DataEqualityComparisonResult.compare", "mediagrains/comparison/_internal.py:DataEqualityComparisonResult._str"]}
{"id": "C88", "title": "Asynchronous files are closed", "statement": "When a program hands an asynchronous file that is not open yet to the decoder or to the encoder, the library opens it when it is needed, never twice at the same time, and has closed it when the `async with` block is left, whatever happened in it. A file that the program has opened itself is neither opened nor closed.", "quantifier": "all numbers of uses of a decoder or encoder one after the other, with every combination of failures of opening, reading the headers, loading what is left, and writing; for one use of a decoder also all bytes as file, all loading modes and all programs", "why_tests_cant": "Every way in which a use can fail, and every sequence of them, has to be followed to its end; a file that stays open is not seen by a test that looks at what was read or written.", "anchors": ["mediagrains/gsf.py:GSFDecoder.__aenter__", "mediagrains/gsf.py:GSFDecoder.__aexit__", "mediagrains/gsf.py:OpenAsyncGSFEncoder._start_dump", "mediagrains/gsf.py:OpenAsyncGSFEncoder._end_dump", "mediagrains/utils/asyncbinaryio.py:AsyncBinaryIO"]}
{"id": "C89", "title": "The arrays of a numpy video grain are those of its data at any time", "statement": "Whatever a program has done with numpy video grains (made them, given them data or an awaitable, awaited them, copied them, written to their arrays or to the memory under them), the component arrays of each grain show what its format makes of the data it has now, and length is the number of bytes. Assigning to an element is seen in this element, in bytes(grain) and in every grain over the same memory, and nowhere else. A load is started at most once, an await gives its data and further awaits give them again. copy gives a grain over the same memory, deepcopy one with the same bytes over memory of its own.", "quantifier": "all sequences of these operations on any number of grains, with awaits that overlap other operations, all formats, sizes and data, operations that raise included", "why_tests_cant": "The arrays are made when data arrives and kept in an attribute; whether they are stale depends on the whole history, including operations that failed half way.", "anchors": ["mediagrains/numpy/numpy_grains/VideoGrain.py:VideoGrain", "mediagrains/grains/VideoGrain.py:VideoGrain.__init__"]}
{"id": "C90", "title": "Copies of event grains and the items they show stay what they are", "statement": "copy.copy of an event grain gives a grain that shows the same type, topic and items as the original at any later time; copy.deepcopy gives one that shows the same and that nothing done to other grains or their items changes, nor the other way round. Neither changes what the original shows. An object that event_data gives reads and writes the item at its position, in the grain and in its shallow copies, until the items are replaced. Assignments and append do to one grain what they do to its payload as a value.", "quantifier": "all programs that make, copy, change and read any number of event grains and their items, with any payload, operations that raise included", "why_tests_cant": "Sharing between copies shows only in what is done later, through any of them; the number of interleavings is unbounded.", "anchors": ["mediagrains/grains/Grain.py:Grain.__copy__", "mediagrains/grains/Grain.py:Grain.__deepcopy__", "mediagrains/grains/EventGrain.py:EventGrain.__init__", "mediagrains/grains/EventGrain.py:EventGrain.data", "mediagrains/grains/EventGrain.py:EventGrain.event_data", "mediagrains/grains/EventGrain.py:EventGrain.append", "mediagrains/grains/EventGrain.py:EventGrain.DATA"]}
{"id": "C91", "title": "The arrays of a numpy audio grain are those of its data at any time", "statement": "Whatever a program has done with numpy audio grains (made them, given them data or an awaitable, awaited them, copied them, written to their arrays or to the memory under them), the channel arrays of each grain show what its format makes of the data it has now, and length is the number of bytes. Assigning to an element is seen in this element, in bytes(grain) and in every grain over the same memory, and nowhere else. A load is started at most once, an await gives its data and further awaits give them again. copy gives a grain over the same memory, deepcopy one with the same bytes over memory of its own.", "quantifier": "all sequences of these operations on any number of grains, with awaits that overlap other operations, all formats, numbers of samples and channels and data, operations that raise included", "why_tests_cant": "The arrays are made when data arrives and kept in an attribute, for some formats over memory of their own or after changing the data; whether they are stale depends on the whole history, including operations that failed half way.", "anchors": ["mediagrains/numpy/numpy_grains/AudioGrain.py:AudioGrain", "mediagrains/numpy/numpy_grains/AudioGrain.py:_channel_arrays_for_data_and_type", "mediagrains/grains/AudioGrain.py:AudioGrain.__init__"]}
{"id": "C92", "title": "Copying a file grain by grain gives one whole file, for joined and unfinished files too, and saves the whole grains of damaged ones", "statement": "A program opens a GSF file with the decoder and a new one with an encoder that has the same headers, and adds each grain to the encoder before it asks for the next one. For joined files, some of which may lack the terminator, the result is one whole file with the headers of the first, right counts, and the grains of all of them, each as it was read; in an output that cannot seek it follows what was there, and the counts of an encoder that streams are -1. If the input begins with the headers and some whole grains, then, whatever follows and however the program ends, an encoder that streams leaves a file that can be read and begins with these grains. If the input was cut, the copy has the whole grains and at most one more with the part of its data that was left.", "quantifier": "all files of the three versions, also with unknown blocks, all lists of joined files, all bytes that may follow the whole grains, all cuts, all options that hand out the data, both kinds of encoder, outputs that can seek and pipes", "why_tests_cant": "Decoder, deferred data, grain objects and encoder take turns on two files, and an exception of any of them at any grain leaves the encoder half way; a test can break a file in a few places only.", "anchors": ["mediagrains/gsf.py:GSFDecoder.grains", "mediagrains/gsf.py:GSFSyncDecoderSession", "mediagrains/gsf.py:GSFEncoder.__exit__", "mediagrains/gsf.py:GSFEncoder.add_grain", "mediagrains/utils/iobytes.py:IOBytes"]}
{"id": "C93", "title": "The message and the printed report of a comparison name exactly what differs, and say what is ignored", "statement": "The `msg` of a comparison result contains its own text and, in brackets, the texts of exactly those results inside it that are falsy and are inside falsy results only, each once. A result is inside `<IGNORING: …>` brackets exactly if it, or one it is inside of, is excluded. The message of a comparison of two grains names an attribute that is not ignored exactly if the grains are found to differ, and names `result.name` exactly if that is falsy. The printed report has exactly one line for each result, indented by its depth, with the sign of that result. Making these texts does not fail and does not change the result.", "quantifier": "all grains of all types, all options, all results however deep, all dictionaries in time labels and events", "why_tests_cant": "Messages are built recursively from results of any depth, by two passes over the same list and a join; a test looks at a few messages, and with keys that happen to be harmless in a format string.", "anchors": ["mediagrains/comparison/_internal.py:ComparisonResult.msg", "mediagrains/comparison/_internal.py:ComparisonResult._str", "mediagrains/comparison/_internal.py:EqualityComparisonResult.compare", "mediagrains/comparison/_internal.py:MappingContainerComparisonResult.compare"]}
{"id": "C94", "title": "Copying a file with the asynchronous interfaces gives the copy that the synchronous interfaces give", "statement": "A program that reads a file with `async with GSFDecoder` / `async for` / `await grain` and writes each grain with `await open_enc.add_grain(...)` inside `async with GSFEncoder` makes, byte for byte, the file that the same program makes with the synchronous interfaces, streaming or not, and raises what that raises. Joined files, files whose writers did not finish and damaged files are copied as by the synchronous program; a file that was cut is copied to a well-formed file with the whole grains and the part of the cut one that is left, whatever the loading mode. It makes no difference whether the input is an `AsyncBytesIO`. If something raises inside the blocks, an encoder that streams leaves a file that can be read and has the grains copied before.", "quantifier": "all input bytes, all whole, joined, unfinished, cut and damaged files, all loading modes and selections of segments, streaming or not, outputs that can seek or not", "why_tests_cant": "Two decoders and two encoders, written separately, take turns on two files; the agreement has to hold for every input and at every place where one of them raises, and tests copy a few good files with one pair of interfaces.", "anchors": ["mediagrains/gsf.py:GSFAsyncDecoderSession.grains", "mediagrains/gsf.py:OpenAsyncGSFEncoder", "mediagrains/gsf.py:GSFEncoder.__aenter__", "mediagrains/gsf.py:GSFEncoder.__aexit__", "mediagrains/grains/Grain.py:Grain.__await__"]}
{"id": "C95", "title": "Wrapping H.264 video gives one grain for each picture, timed and described as the stream says", "statement": "`H264GrainWrapper` yields one coded video grain for each picture of an H.264 stream, in order, however its input is read in pieces. Each has all bytes of its picture, the positions of the start codes in them and the key frame flag, and the size and rate that the stream has (the rate of the template if the stream has none). The first origin timestamp is the start of the frame nearest to the template's timestamp, the others are the starts of the frames after it, the sync timestamps are the same and each grain lasts one frame. `wrap_to_gsf` writes exactly these grains to a file that can be read. If the stream is damaged the pictures found before the damage are in the file, which can be read, and the data of its grains is the input from its beginning on.", "quantifier": "all H.264 streams in the sense of C63, all templates, all rates up to 500 million frames a second, all ways in which the input comes in pieces; all bytes for damaged streams", "why_tests_cant": "Streams differ in their parameter sets, in rate and in size; timestamps are rounded, so that an error of one frame may only show for some rates and after many frames; and the wrapped file has to be usable wherever a stream is damaged. Tests wrap one file.", "anchors": ["mediagrains/utils/h264_grain_wrapper.py:H264GrainWrapper.grains", "mediagrains/tools/wrap_in_gsf.py:wrap_to_gsf"]}
{"id": "C96", "title": "The wrapping tools write what their arguments and their input describe", "statement": "`wrap_video_in_gsf` and `wrap_audio_in_gsf` end with a file that can be read and that has one grain for each picture or frame of the input, in order. Each grain has the identifiers of the arguments; for uncompressed video the format, size and rate of the arguments, for H.264 and AVC-Intra those of the stream (C95), for AAC the channels and sample rate of the stream and the samples for each grain of the arguments. Timestamps are the starts of consecutive frames, the first being at the start time of the arguments, rounded to a frame. `extract_from_gsf` gives back uncompressed input. If bytes that are no frame follow the frames of an AAC stream, the grains of these frames are in the file, which can be read. The same comes to standard output, except that the number of grains is left open, and the same is made of standard input. With arguments that cannot be used, or without an input, the output file is not touched.", "quantifier": "all identifiers, start times, formats, sizes and rates, all uncompressed inputs, all H.264 streams in the sense of C63, all streams of complete ADTS frames", "why_tests_cant": "Every combination of format, size, rate and start time gives another layout of the file and another rounding of the timestamps; tests run the tools, if at all, with one of them.", "anchors": ["mediagrains/tools/wrap_in_gsf.py:wrap_video_in_gsf", "mediagrains/tools/wrap_in_gsf.py:wrap_audio_in_gsf", "mediagrains/tools/wrap_in_gsf.py:wrap_to_gsf", "mediagrains/utils/adts_aac_grain_wrapper.py:ADTSAACGrainWrapper.grains"]}
{"id": "C97", "title": "Conversions between formats of one colour model change samples in their place only", "statement": "Converting a frame between two RGB formats, or between two YUV formats with the same subsampling, always succeeds and moves nothing: each sample of each component of the result is the sample at the same place, unchanged at the same depth, rounded at a lower depth, followed by arbitrary lower bits at a greater depth. Between YUV formats with different subsampling the same holds for the luma of frames of even size, and the chroma samples of each block of two by two pixels of the result lie between the least and the greatest chroma sample of the same block of the source, at the new depth, whatever formats the conversion goes through on the way. Conversions from v210 unpack the frame first and those to v210 pack it last, and are otherwise those from and to 10 bits and 4:2:2. Conversions between RGB and YUV change the colours once, between RGB and 4:4:4 of the same depth; the rest is as above.", "quantifier": "all pairs of RGB formats and all pairs of YUV formats (v210 by way of 10 bits and 4:2:2), all frames (of even size if the subsampling changes), all samples that are not rounded up beyond the depth of the result, all random bits", "why_tests_cant": "There are hundreds of pairs of formats, most of them converted in several steps through other formats, and each step may lose or shift samples; tests look at a few pairs with one picture each.", "anchors": ["mediagrains/numpy/convert.py: registration loops", "mediagrains/numpy/numpy_grains/VideoGrain.py: grain_conversion_two_step, convert"]}
