# Formal model of mediagrains: design

Source: `/repo` (bbc/rd-apmm-python-lib-mediagrains, python).  The code is never run; it is
read as text and transcribed, function by function, into Lean 4 (`lean/Verif`).

## 1. Trusted base

* Lean 4.33.0's kernel. Axioms allowed in any property theorem: `propext`, `Classical.choice`,
  `Quot.sound`. No own axioms, no `sorry`, no `native_decide`, no `bv_decide`.
* The reading of the python source: each Lean definition cites the file and lines it models and
  states its simplifications.
* External libraries are not modelled from source; their assumed behaviour is written out in the
  definitions that stand for them:
  * `mediatimestamp`: a timestamp is an integer number of nanoseconds; `sec`, `ns`, `sign` are the
    quotient, remainder and sign of it.
  * `fractions.Fraction`: a reduced rational with positive denominator.
  * python `bytes`/`str`: lists of bytes / lists of Unicode scalar values; utf-8 is written out in
    Lean (encoder and strict decoder), it is not assumed.
  * `json.dumps`/`json.loads`: written out in Lean (`Grain/Json`) for the values event payloads
    hold; a float is the text of its `repr`.
  * `bitstring`: the reads used by the H.264 parser, from its documentation (`Wrap/Bits`).
  * `difflib.SequenceMatcher`: written out in Lean from its source (`Compare/Matcher`), with recursion in place of its list of ranges and
    the sort, and an exact quotient in place of a floating point one. That `ratio() == 1.0` exactly when the sequences are equal is proved.
    The operations of 400 random pairs, 60 of them with more than 150 elements, were compared with those of the module itself.
  * `io` files: a byte array and a position (the contract is written as a Lean structure).
  * `uuid.UUID`: 16 bytes. `datetime`: the six calendar fields as integers (calendar validity is a
    predicate).
  * `numpy`: arrays are functions or lists of fixed-width integers; wrap-around is explicit.

## 2. Architecture

| Lean module | models |
|---|---|
| `Verif/Bytes` | integer fields: `_encode_uint`, `_encode_sint`, `read_uint`, `read_sint` |
| `Verif/Utf8` | python's utf-8 codec, NUL padding/stripping |
| `Verif/Gsf/Reader` | `SyncGSFBlock` over a seekable byte stream with absolute positions |
| `Verif/Gsf/Types` | the values that cross the codec: grains, segments, tags, head |
| `Verif/Gsf/Decode` | `_sync_decode_head`, `_sync_decode_gbhd`, `GSFSyncDecoderSession.grains` |
| `Verif/Gsf/Encode` | `GSFEncoderTag`, `GSFEncoderSegment.encode_*`, `_encode_head_block` |
| `Verif/Gsf/Encoder` | the encoder state machine: `GSFEncoder`, `OpenGSFEncoder`, `OpenAsyncGSFEncoder` |
| `Verif/Gsf/Group` | `GSFDecoder.decode` / `loads` |
| `Verif/Gsf/Async` | `AsyncGSFBlock`, `GSFAsyncDecoderSession` and deferred loading |
| `Verif/Gsf/Pipe` | the synchronous decoder over a device that can not seek back (standard input), and over AsyncBytesIO |
| `Verif/Gsf/{Codec,Blocks,Layout,GrainRT,HeadRT,Loop,Whole,Trunc,Total,Short,ReaderLemmas,EncoderLemmas,EncoderLive,EncoderSync,AsyncLemmas}` | lemmas only |
| `Verif/Grain/Meta` | `GrainFactory`, constructors and metadata defaults |
| `Verif/Grain/Views` | the timelabel and unit offset list views |
| `Verif/Grain/Lazy` | grain data, awaiting, `length` |
| `Verif/Grain/Event`, `Json` (lemmas in `JsonRT`) | event payloads; `json.dumps` / `json.loads` |
| `Verif/Cog/Enums`, `Sizes` | `cogenums`; sizes and components of video and audio data |
| `Verif/IO/IOBytes`, `AsyncBytes`, `Streams` | `IOBytes`; `OpenAsyncBytesIO`; stream wrappers and standard input |
| `Verif/Wrap/Raw`, `Adts`, `Bits`, `H264` | the three grain wrappers and their parsers |
| `Verif/Compare/Model` | `comparison` |
| `Verif/Pattern/Tone`, `Video`, `Generator` (lemmas in `VideoLemmas`) | tone and video pattern generators |
| `Verif/Conformance` | a program that runs the model on the data files of the repository; nothing depends on it |
| `Verif/Numpy/Table`, `Samples` (lemmas in `Lemmas`, `Shape`) | conversion registry; sample arithmetic and v210 |
| `Verif/Wrap/Tools` | `wrap_to_gsf` and `extract_gsf_essence`, on top of the encoder, decoder, wrappers and events |
| `Verif/Grain/Heap` | grains as objects with references: `copy`, `deepcopy` with its memo, setters, appending time labels |
| `Verif/Grain/Seqs` | time labels, unit offsets and components as list-like objects, the methods of `MutableSequence` |
| `Verif/Wrap/Probe` | `gsf_probe` |
| `Verif/Grain/Attrs` | getters and setters of the scalar attributes of all grain classes, as a table of attributes and kinds of storage |
| `Verif/Compare/Psnr` | `comparison/psnr.py` in exact arithmetic over the arrays of `Numpy/Arrays`, the operators of `comparison/options.py` |
| `Verif/Grain/New` | the constructors called with arguments instead of metadata: `Grain.py` 58-122, `VideoGrain.py` 247-447, `AudioGrain.py` 102-174, `CodedVideoGrain.py` 107-210, `CodedAudioGrain.py` 94-179, `EventGrain.py` 104-176 |
| `Verif/Hypothesis/Strategies` | `hypothesis/strategies.py`: a strategy is the set of values it draws; `Grain.py` 138-168 |
| `Verif/Hypothesis/Events` | `hypothesis/strategies.py` 75-81, 111-116, 544-624: type, topic and items of drawn event grains |
| `Verif/Numpy/Colour` | `numpy/convert.py` 160-188: the RGB/YUV formulas in IEEE double precision (rationals, rounded to 53 bits after each operation) |
| `Verif/Grain/Pair` | `Grain.py` 341-400: a grain as a tuple, `==`, `bytes`, `has_data`; `collections.abc.Sequence`; python's `==` between the kinds of data objects |
| `Verif/Gsf/Objects` | Grain objects at both ends of a file: what `encode_grain` (`gsf.py` 2262-2448) reads of the attributes of an object, the metadata dict that the decoder builds (`gsf.py` 1100-1206), and what `GrainFactory` and the constructors make of it |
| `Verif/Gsf/Concurrent` | Several tasks with one open asynchronous encoder (`gsf.py` 1783-1876, 2002-2008): the event loop, the threads that carry out writes, cancellations and leaving as arbitrary lists of steps; two threads in `OpenAsyncBytesIO.write` (`utils/asyncbinaryio.py` 139-153) statement by statement |
| `Verif/Gsf/Crash` | The operations of the encoder as lists of calls on the output file (`gsf.py` 1731-1780, 1817-1876), a process that dies after any of them or inside a write, and a write that raises |
| `Verif/Gsf/Easy` | `dump`, `dumps`, `load`, `loads` (`gsf.py` 86-187) for grain objects, and the arguments of `GSFEncoder` (1915-1957) |
| `Verif/Numpy/Grains` | `convert`, `asformat`, `_similar_grain`, `flow_id_for_converted_flow` (`numpy_grains/VideoGrain.py` 359-399) on whole grains |
| `Verif/Gsf/Session` | `GSFDecoder` entered several times, generators of a session advanced in turn (`gsf.py` 1218-1511), sharing one file position |
| `Verif/Gsf/Alias` | synchronous encoder whose segments hold references to grain objects that the program changes (`gsf.py` 1731-1767, 1959-2117, 2254-2260, 2470-2486) |
| `Verif/Compare/Objects` | what the comparison reads of grain objects, comparison of objects and of sequences of objects (`comparison/_internal.py` 616-876) |
| `Verif/Compare/Report` | what can be asked of a result: failing attributes and keys, sub-results, signs (`comparison/_internal.py` 75-223) |
| `Verif/Compare/Options` | options written as expressions, with the rules of python for operators (`comparison/options.py` 45-222) |
| `Verif/Gsf/Copy` | a program that copies a file with `GSFDecoder` and `GSFEncoder` |
| `Verif/Gsf/Follow` | a session on a file that grows between the calls of `next()` |
| `Verif/Gsf/Waiting` | reading from a pipe whose writer is still writing: what can be done before waiting |
| `Verif/Gsf/Document` | the format as `gsf_docs/ssb.md` and `gsf_docs/gsf.md` describe it: a declarative grammar that mentions no code |
| `Verif/Gsf/DocLemmas`, `Verif/Gsf/DocWrite` | the reader and the writer against that grammar |
| `Verif/Gsf/AwaitEach` | an asynchronous program that awaits each grain as it comes |
| `Verif/Compare/Matcher`, `MatcherLemmas` | the matcher of `difflib` and the message and report on binary data |
| `Verif/Gsf/Lifetime` | which calls that open or close an asynchronous file the decoder and the encoder make |
| `Verif/Gsf/GroupAsync` | `load` of an asynchronous file |
| `Verif/Numpy/Live` | programs that use numpy video grains: memory blocks, shared metadata, awaitables |
| `Verif/Grain/EventLive` | programs that use event grains: payload dictionaries, lists and items as objects, copies, `DATA` objects |
| `Verif/Numpy/LiveAudio` | programs that use numpy audio grains, as `Numpy/Live` |
| `Verif/Gsf/CopyLive` | the copying program with decoder and encoder taking turns, and exceptions inside the `with` blocks |
| `Verif/Compare/Text` | `msg` and `str` of comparison results as lists of pieces, and identifiers as format strings |
| `Verif/Gsf/CopyAsync` | the copying program with the asynchronous decoder and encoder |
| `Verif/Wrap/H264Grains` | the grains that `H264GrainWrapper` makes of the frames, and the file written with them |
| `Verif/Wrap/Commands` | `wrap_video_in_gsf` and `wrap_audio_in_gsf` from the parsed arguments to the file |
| `Verif/Grain/Times` | origin and presentation times and ranges, media rate, normalising; the timestamp library as a parameter |
| `Verif/Numpy/Arrays` | component and channel arrays of numpy grains, as strided views of the data |
| `Verif/Props/*` | the property theorems, one file per group, each beside an `example` |

Modelled lines of the main files: `gsf.py` 86-187 and 238-2486 without the deprecated aliases;
`cogenums.py` whole; `comparison/_internal.py` whole except messages; `h264_parser.py` 50-698.

Conventions: python exceptions are values of `Err`; python generators are lists plus the way they
ended (normal end, silent end at EOF, exception); mutation returns the new state.

## 3. Properties: what is modelled and how it is proved

* **C01 round trip** – encoder output as `List UInt8`; lemma per field ("reading what was written at
  position p of any stream returns it and ends right after it"), composed by induction over lists of
  timelabels, components, offsets, tags, segments and grains.
* **C02 sizes** – `length (encode x) = declared size` per block, plus the walk theorem: a generic
  header-only walker applied to the bytes recovers the block tree.
* **C03 integers** – induction over the width.
* **C04 unknown blocks** – files as arbitrary lists of top-level blocks; decoding commutes with
  deleting unknown blocks; same for head and gbhd children.
* **C05, C06 truncation** – decoder on `take n` of an encoded file; induction over the grain list.
  C06 is false at one kind of offset (trailing flow data): negation witness and `_partial` theorem.
* **C07 filter** – simulation between the filtered and unfiltered loops on any byte string.
* **C08 loading modes** – the loop is parametrised by mode; simulation; deferred data is resolved
  against the file.
* **C09 concatenation** – induction over the list of files.
* **C10 gate**, **C11 termination** – decision logic and well-founded recursion without fuel in the
  final statement.
* **C12–C18** – encoder state machine with an explicit output file; invariants by induction over
  operation histories. C15 and C18 are expected to be violated by the code: negation by witness.
* **C19** – violated for un-awaited lazy grains: witness, and the theorem for loaded grains.
* **C20–C22** – codec theorems with the exact exceptional values (sentinels, v7 signs, truncation).
* **C23** – fold over the stream.
* **C24, C25** – async decoder as a state machine with a table of pending loads; schedules are
  arbitrary lists of operations. The event loop and real concurrency are not modelled: reads are
  atomic at await points. C25 is expected to be violated (dict changed during iteration).
* **C26** – parser totality: a sub-stream cannot see bytes outside its block.
* **C27–C30** – records with optional fields; list refinement; state machine for lazy data.
* **C31, C32, C34** – arithmetic over all sizes; whole-table `decide` where the domain is an enum.
* **C33** – payload record, JSON codec as a parameter.
* **C35–C37** – file objects refine a byte-array-with-position spec; violations by witness.
* **C38–C41** – stream splitters as list functions; H.264 chunk independence by simulation.
* **C42–C44** – comparison tree evaluated with options; monotonicity by structural induction.
* **C45–C47** – generators as functions of the index. The sine values (floating point) are an opaque
  sample table; only indexing and layout are proved.
  The tables of nominal ranges and of ADTS channel counts and rates are checked against the rules of the standards in
  `Verif/Props/C39Values` (`C47_ranges`, `C39_values`).
* **C48–C50** – integer arithmetic on samples; v210 word packing; finite registry table.
* **C51** – the decoder parametrised by what its device does at the end of the data and when seeking
  back; every turn over a written file does the same on every device; the wrapper itself refines that
  device for every way the pipe can split its data. Also gives C24 for AsyncBytesIO on whole files.
* **C54, C55** – arrays as first address, element size and strides; element addresses are whole
  multiples of the element size of an injective index, which gives bounds and disjointness; audio
  data as nested concatenations of samples; packed orders as an infinitely repeating list of parts.

* **C58** – times in nanoseconds; the timestamp library is a parameter with two laws (a count times
  its period lies within a nanosecond of the result, and counts from zero up round down); the ranges
  follow by linear arithmetic on products with the rate.
* **C52, C53** – the tools as programs over the encoder and decoder models. C52 follows from the
  invariant of an active dump (C12), C53 from the decoding of whole and cut files (C01, C05, C51), the
  event round trip (C33) and the partition theorems of the wrappers (C38, C39, C40).
* **C56** objects live in a heap; what can be seen of a value is given by paths. The invariant of `deepcopy` relates
  every object entered in the memo to its copy; at the end all of them are filled, so all paths show the same, and
  all that the copy leads to is new. Programs are sequences of allocations and writes to objects they hold; a frame
  theorem says that they leave the rest alone.
* **C57** the five methods each class defines refine python lists; all that `MutableSequence` derives from them is then
  proved once for any such class, with a round-by-round invariant for `reverse`.
* **C59** the loop of `gsf_probe` keeps, per segment, what is to be reported on the grains so far; ranges by the
  universal property of the smallest range.
* **C60** one getter and one setter per kind of storage, proved inverse; the table of attributes shows that different
  names without alias have different places, so assignments do not interfere; induction over histories.
* **C61** algebra of sums of squares over arrays (Mathlib ordered fields on rationals), combined with what the arrays
  of C54 and C55 hold; options by cases on the operator.
* **C62** the syntax tables of the standard as records and bit writers (specification); the parser, a program of
  reads, is run backwards over them: `Reads p bits value` composes along the tables, each field by C41.
* **C63** a stream is a list of pictures, each a list of units (parameter sets, slices, others) written as in C62,
  escaped and put behind start codes; the sets a decoder has are carried along. The units the parser finds are laid
  out (`units_layout`), its loop is followed through a picture and to the next (`loop_picture`, `loop_next`), and with
  C62 for the headers and C40 for the reads in pieces every stream gives its pictures.
* **C64** the metadata made of the common arguments are computed (`newMeta_ok`) and read back with the laws of C60
  (`common_reads`), the rest class by class (`made_video` and so on); the specification is a table of defaults (`default`),
  a table of types (`Fits`) and a table of what each attribute must read as (`reads`). The size of the data is tied to the
  components by C31.
* **C65** strategies are predicates; `draw_lookup` says what can be among the drawn arguments, `drawn` sorts it by what was
  asked for, `drawn_valid` gives the hypotheses of C64, whose attributes are then matched with the specification (`Asked`,
  `Documented`, `unset`). For the data of audio grains C32 gives the length and C42 the comparison. The
  contents of event grains have a model of their own; C33 gives that they can be written and read.
* **C66** `rnd_near` bounds the error of one rounding, `rnd_double` says that it gives doubles; the errors of the formulas
  follow by linear arithmetic. The exact values are specified from the luma coefficients of BT.709, not with the constants in
  the code. `frame_step` carries the statement from pixels to frames with the model of C48 to C50.
* **C67** the methods of `Sequence` on the pair; equality by cases on the kinds of data objects, with the order in which
  python asks the operands. Slices by the specification of C57.
* **C68** joins C33 (attributes), C64 (constructors) and C01 (files): the headers are functions of the getters (`write`), the
  constructors are run on the dict of the decoder (`read`); the round trip of the bytes is C01.
* **C69** is an invariant over all schedules: what has been written is an interleaving of what the tasks handed over, and what is
  counted is what is written, pending in a thread, or dropped by a cancellation. `C69_completes` shows that schedules can always be
  finished. One write of the underlying file is one step (CPython's buffered files take a lock); for `AsyncBytesIO`, which takes none,
  `C69_memory_counterexample` goes statement by statement.
* **C70**: `C70_calls` shows that the lists of calls do what the operations of `Gsf/Encoder` do. The bytes left by a crash are found with the
  invariant of C12; a count of which only some bytes are patched is a negative number, because the last byte of -1 is 255
  (`half_count`). Reading what is left is C05.
* **C71**: the encoder after its constructor is given in closed form (`made`), by induction over the segments given; the file follows with
  C12, the dictionary with C23, the grains with C68.
  For an asynchronous file the generator, resumed until it ends, is the loop of the synchronous decoder (`C23_async`).
* **C72**: the new grain is one made of arguments (C64), its samples those of C50; a converted grain is sound again, which gives chains by
  induction. Grains of any size are covered where the subsampling stays the same (`C50_any_size`, `C72_any_size`), as between RGB and 4:4:4.
* **C73**: a simulation between the decoder (bytes, one position, generators) and a desk on which the files' contents lie as lists; what is
  promised of programs is then read off the desk.
* **C74**: the encoder with references is simulated by the one with values of C12: before a dump with the values of its start, in a streaming
  dump with those at each call, without streaming with those at the end.
* **C75**: the attributes read back (C68), the payload of events (C33) and the exact verdict of the comparison (C42, C44) put together.
* **C76**: one result for each attribute, in order (`Rows`), from which names, verdict and failing attributes follow; containers by the
  place of each index and key; signs by induction over results.
* **C77**: evaluation of expressions; invariants of their values by induction over expressions.
* **C78**: from the verdict of C43 and the exceptions of C42, attribute by attribute.
* **C79**: a program over the models of the decoder (C01, C05), of the grain classes (C68) and of the encoder (C12, C71). Every grain is
  taken through `read` and `write`; the normal form of C01 is shown to be a fixed point.
* **C80**: the turns of the session (C73) run on a different file at each call; where an `EOFError` leaves the file is modelled exactly
  (`eofPos`). A turn on a file that is cut is the turn on the whole file or an `EOFError` (the lemmas of C05), and the cut decides which. The
  files of the writer are those of C12 and C70.
* **C81**: for every function of the reader the set of exceptions it raises (`Raises`), composed along the program; for the loop the
  metadata of each item is shown to be complete (`Coherent`), so that the constructors of C68 accept it, except the one of events, whose
  verdict on the data is that of C23. Each outcome occurs in an example. For the asynchronous decoder an invariant of sessions (`C81.Sound`) says
  that the suspended generator has not lost its place and that every grain whose coroutine was not started is in the table.
* **C82**: induction on the grains of the file, with what is now in place of each. One turn over a damaged grain enters the block, as its
  size is right, and leaves it at its end on every path, also on an exception (`__exit__` seeks to the end of the block); if its tag is
  another one it is skipped. The same induction gives the result of the loop and the answers to repeated requests. For damage of any kind
  (`C82_tail`) the turns over the grains before it do not depend on what follows. Without the tag of the head (`C82_head_tag`) the
  search for it passes every block of the file.
* **C83**: the turns of the loop over each piece (`Turns`) compose, since a signature is accepted after any grain, not only
  after a terminator. For a grain that is cut in its data, the joined bytes are those of a file with another grain, with the same header.
* **C84**: `nextNow`, `readNow` run the decoder over what has arrived; a read or skip past its end is where it waits. Over a pipe a
  turn is monotone in the bytes (`Mono`): with fewer bytes it does the same or reads past the end. So no half grain is delivered,
  and a whole one needs nothing behind it.
* **C85**: `IsFile tidy c bs` is transcribed from the two documents (data types, blocks, each kind of block, files), with unknown
  blocks and properties everywhere the documents allow them. Reading: one lemma for each production of the grammar, then the turns
  of the main loop. Writing: each layout lemma of C01 gives a derivation in the grammar. Since the round trips (C01) relate the
  reader only to the writer, this is the theorem that notices a change made to both. Other versions: two readers of the same bytes are
  related action by action (`Twin`), up to the whole loop.
* **C86**: the loop of such a program over the session of C24; by induction over its turns with the invariant of C24 it gives what the
  synchronous decoder gives. The theorems on whole, cut, joined and documented files (C01, C05, C83, C85) carry over.
  Damage after the first grains or in tags is carried over from C82 in `C86Tail`.
* **C87**: the rows of the search are runs of hits (`run`), which gives that blocks agree and tile both lists (`Tiled`). If one list is the
  start of the other then no run ends longer than the one on the diagonal, so the first block is all of it. The verdict, the messages about
  extra values and the list of changes follow.
* **C88**: the calls as a list; by induction over the uses they alternate for the decoder. For one use the outcome of leaving is that of
  C24 and C25.
* **C89**: an invariant of all operations (`C89L.Inv`): the arrays a grain keeps are those that would be made now. With C55 it follows what
  writing to an array does.
* **C90**: an invariant of all operations: no two payload dictionaries share a list, no two lists an item (`C90L.Ok`), and the families of
  shallow copies are the payload dictionaries (`C90L.Fam`). Every operation changes one dictionary (`C90L.Chg`); what it does there is what
  `Verif/Grain/Event` says of values.
* **C91**: as C89, with the invariant that the data of a grain is a whole number of elements (all formats, all programs) and that the arrays
  are those of the data (no 24-bit samples, metadata not changed). Witnesses for 24-bit samples.
* **C92**: the loop over `Session.pull` is shown equal to feeding the items of `run` one by one; a grain that is made again is written like its
  normal form (C79), so a list of good items gives the session of C12 with these grains. For damaged inputs the calls after the good ones are
  arbitrary, and the streaming session theorem of C12 covers any calls. Cut files through C05.
* **C93**: a reader of messages with a stack of brackets; reading back what `msg` gives is shown, by recursion over results, to give the falsy
  ones with the brackets they are in. Identifiers: `str.format` written out for one argument; the results of `compare_grain` are gone through to
  see which of them have a key in their identifier.
* **C94**: an encoder whose handle is asynchronous is shown to do, call by call, what the one with a synchronous handle does (a simulation); the
  loop over awaited grains is shown, with the invariant of C24, to hand over the items of the synchronous decoder up to the first refused
  event, with their data loaded; then the lemmas of C92 apply.
* **C95**: the frames are those of C63, the timestamps are shown to be the starts of consecutive frames by arithmetic with rational rates
  (rounding to a frame undoes rounding a frame down to nanoseconds up to 500 million frames a second), the file is that of C52; damaged
  streams by the partition of C40.
* **C96**: what the constructors make of the arguments is that of C64, what the encoder reads of it that of C68; the grains are those of C38,
  C39 and C95 and the file that of C52. Timestamps are compared with the start of frame `n` at a rational rate, rounded down.
* **C97**: for each pair of YUV formats the steps of the table (C50) are of the seven kinds for YUV and at most one of them changes the depth
  (checked over the whole table). Each kind keeps luma in place and the chroma of each block of two by two pixels within its bounds (C49); induction over the steps.
  Between formats with the same components only the kinds that copy or change the depth occur, which keep every sample in its place.
  Between RGB and YUV the table changes the colours once, at one depth: from RGB first of all, to RGB last of all (from 4:4:4: before the depth).

Not modelled (whole repo): command-line argument parsing, type stubs,
the values printed in messages, floating point (rounding in PSNR, sine samples), OS files. The asyncio event
loop and thread pools are modelled only as arbitrary schedules of steps (C24, C25, C69), not as programs.

## 4. Findings

Behaviour of the code that contradicts a property, or that a user would not expect. Each line
names the theorem (namespace `Verif.Props`) that exhibits it; lines without a theorem were seen
when reading and are in the model but not stated separately.

Reading files
* A file cut inside flow metadata that ends the head opens without an error and with less flow
  data (`C06_counterexample`). A cut in the first 12 bytes raises `EOFError`, not a GSF error
  (`C10_short`).
* A cut inside the data of a grain delivers the grain with shorter or no data; a cut elsewhere in
  the grain drops it without an error (`C05_truncated`).
* A grain block without a data block is read beyond its end when a filter is not used
  (`C07_malformed_counterexample`); an unknown block before `gbhd` is an error, after it is not.
* A child block that declares too little is read into its neighbour (`C26_short_child_misread`).
* Asynchronous decoder: event grains fail in the default mode (`C24_event_counterexample`);
  AsyncBytesIO drops a truncated last grain (`C24_bytesio_counterexample`); grains awaited at the
  same time get each other's data (`C24_concurrent_counterexample`); leaving in load-on-exit mode
  loads one grain and raises RuntimeError (`C25_counterexample`, and `C25_leave_exact` in general).
* From standard input a truncated last grain is dropped (`C51_truncated_counterexample`; exactly the whole
  grains are read, `C51_cut`), and a seek
  back at the end of a block is silently skipped, so that grains can be lost
  (`C51_overrun_counterexample`).

Writing files
* Version 7 loses the sign of timestamps (`C22_negative_v7`); before version 9 an absent key frame
  flag or temporal offset comes back as present (`C20_absent_before_v9`); in version 9 the offset
  0x7fffffff comes back as absent (`C20_sentinel_v9`).
* Cutting a string to its field may split a character, which the decoder refuses
  (`C21_counterexample`).
* A second dump adds to the counts of the first (`C18_counterexample`).
* A handle used after its dump writes into the old file (`C14_stale_handle_counterexample`); on the
  asynchronous encoder grains given to a segment during a dump are lost
  (`C15_segment_grains_lost`), segments can be added (`C15_segment_added_counterexample`) and an
  automatic id can be refused (`C16_async_counterexample`).
* The declared size of the data is wrong for a pending load, a truncated IOBytes, and for data whose
  `len` does not count bytes (`C19_pending_counterexample`, `C19_truncated_counterexample`,
  `C19_items_counterexample`).

Grains
* Awaiting: a load that gives None fails the second time; an assignment during an await is
  overwritten; two overlapping awaits raise RuntimeError (`C30_none_counterexample`,
  `C30_overlap_assign_counterexample`, `C30_overlap_await_counterexample`).
* Type "data" becomes "event" (`C27_data_counterexample`); a video grain without format raises
  KeyError where coded video has a default (`C27_video_counterexample`); an unknown type is kept by
  a plain grain (`C28_unknown_counterexample`).
* Lists: a slice of an absent list raises IndexError, slice assignment to timelabels raises
  TypeError, `grain.timelabels += ...` erases every label (`C29_slice_counterexample`,
  `C29_setSlice_counterexample`, `C29_iadd_counterexample`, `C29_iadd_loses`).
  What the Python list of the comparison does with indices and slices is pinned down in `Verif/Props/C29List`.
* Events: surrogate pairs are joined (`C33_surrogate_counterexample`), a refused payload leaves the
  grain half changed (`C33_half_done_counterexample`), other keys are lost (`C33_extra_key_lost`),
  `pre = None` on an item without pre raises KeyError (`C33_pre_none_counterexample`).
* AYUV has half the stride its lines need (`C31_ayuv_counterexample`); compressed formats get a
  planar layout (`C31_compressed_layout`); odd sizes waste bytes (`C31_odd_waste`).
* Times: an audio grain without samples (the default) ends before it starts
  (`C58_no_samples_counterexample`), with sample rate 0 its time range is an exception
  (`C58_no_sample_rate_counterexample`), and so is the presentation time of a coded video grain with a
  temporal offset and rate 0, although the class means to check for a rate
  (`C58_no_rate_counterexample`). The final timestamp of an audio grain can be a nanosecond before the
  timestamp of its last sample (`C58_last_sample_counterexample`).
* Tools: `wrap_audio_in_gsf` makes its template with rate 0, which the timestamp library refuses, so it
  always fails and leaves a head without grains (`C52_audio_counterexample`). `extract_gsf_essence`
  fails at a plain grain without data (`C53_no_data_counterexample`) and writes events as new JSON
  text (`C53_event_counterexample`). The raw wrapper leaves the sync timestamp of the template on
  every grain.
* The class documentation of `GSFEncoder` says that the major version is 8 by default; it is 9 (`gsf.py` 1907, 1917).
* `copy.copy(grain)` copies the outer dictionary only, and all properties live in the inner one: setting the origin
  timestamp of a copy changes the original (`C56_copy_counterexample`). `copy` and `deepcopy` of a video, audio, coded
  video or coded audio grain whose data is still to be loaded, or is `None`, give a grain with an empty `bytearray` and without a load
  (`C56_pending_counterexample`), which is not equal to the grain and says `has_data()` (`C67_copy_counterexample`). A grain keeps
  the dictionary it is made from, so two grains made from one dictionary share it (`C56_made_counterexample`).
  Appending or assigning time labels copies the tag and shares count, rate and drop-frame flag
  (`C56_label_counterexample`).
* `g.timelabels = g.timelabels` removes all time labels, because the setter empties the list before it reads the new
  value, which is the same list (`C57_self_assign_counterexample`). `g.timelabels += [label]` does the same after
  appending: the grain is left without time labels (`C57_iadd_counterexample`).
  `g.timelabels.extend(g.timelabels)` does not end (`C57_extend_view_counterexample`).
* A slice of the time labels of a grain that has none is an `IndexError` instead of an empty list, and assigning to a
  slice is always a `TypeError` (`C57_label_slice_counterexample`). Assigning to a slice of components replaces place by
  place: too few values end in `StopIteration`, surplus values are dropped (`C57_component_slice_counterexample`).
  Slices of missing unit offsets are `IndexError` too, where an empty list gives an empty list, and `offsets[:] = values`
  cannot set them (`C57_offset_slice_counterexample`). Components that are assigned or inserted are stored in the metadata
  as `COMPONENT` objects, not as dictionaries.
  Assigning to the attribute `components` itself leaves the metadata as it was (not modelled).
* `gsf_probe` ends with `KeyError` on a grain whose segment is not in the head of the first file, so it cannot report on
  concatenated files that `GSFDecoder` reads (`C59_concat_counterexample`), nor on audio without a sample rate
  (`C59_no_rate_counterexample`).
* Setters of formats and layouts accept numbers outside the enumeration, setters of identifiers any text; the attribute
  then raises `ValueError` when it is read (`C60_unchecked_enum`, `C60_unchecked_identifier`). An aspect ratio that has
  been set cannot be removed: setting `None` raises `TypeError` (`C60_aspect_stays`).
* PSNR comparison: v210 grains, and pairs of which one grain has no data, have an empty list of ratios, so that
  any limits are met (`C61_v210_counterexample`, `C61_no_data_counterexample`); fewer limits than components leave the
  others unchecked; video of different formats is compared sample by sample, with the peak of the first grain
  (`C61_formats_counterexample`); audio of 24 bit planes in a `bytearray` is shifted in place by the comparison
  (`C61_data_changes_counterexample`). `&` and `|` between expected differences always raise (`C61_combination`).
* H.264 picture parameter sets with slice group map type 6: `h264_parser.py` 594-600 reads `slice_group_id` with
  floor(log2(number of map units)) bits; the standard has Ceil(Log2(number of slice groups)). Everything after is
  misread (`C62_explicit_counterexample`).
* H.264 slices with different `nal_ref_idc`: the standard (7.4.1.2.4) says that they are of different pictures if one of
  the two numbers is zero; `h264_parser.py` 205-206 asks whether one of them is *not* zero, which is true whenever they
  differ. A picture whose slices have the numbers 2 and 1 becomes two frames (`C63_ref_idc_counterexample`).
* H.264 prefix units (type 14) before the first slice of a picture are counted to the frame before: lines 227-232 have
  the types 15 to 18 where 7.4.1.2.3 has 14 to 18.
* Grains made without `src_id` or `flow_id`: the parameters are `Optional`, but the text `None` is stored as the
  identifier and reading it is a `ValueError` (`C64_no_id_counterexample`); only `GrainFactory` checks.
* `CodedAudioGrain` tests `creation_timestamp` for truth, the other classes for `None`. The metadata of a coded video grain
  made from arguments have `length` 0 whatever the data. Made from metadata and without data, audio and video grains get data
  of the size of the constructor's default arguments (no bytes), not of the metadata.
* Hypothesis strategies: `format=` is ignored by all four functions that have it (`C65_format_counterexample`),
  `creation_timestamp=` by `coded_audio_grains` (`C65_creation_counterexample`); `event_grains` with a timestamp `DONOTSET`
  raises when drawing (`C65_event_counterexample`); coded formats include `UNKNOWN` (`C65_unknown_counterexample`);
  `.filter(sorted)` only removes the empty list (`C65_offsets_counterexample`); `grains_with_data` of a coded type always
  gives empty data (`C65_coded_data`). `event_grains` given items without a pre or a post, as grains have them, raises when
  drawing (`C65_event_missing_counterexample`), and `grains_from_template_with_data` draws arbitrary bytes for an event grain,
  which its data setter refuses unless they are JSON (`C65_event_template_counterexample`). Topics and paths may end in a line feed, which
  their expression does not mean to allow (`C65_event_newline_counterexample`).
* Colours: `np.clip` is given the upper bound `1 << depth`, one too many: overbright components become 0 in 8, 16 and 32 bits
  (`C66_wrap_counterexample`, a legal video red loses all its red; what the cast gives is undefined in C, 0 on x86-64), and 1024
  in 10 bits (`C66_range_counterexample`), for all of them (`C66_overflow`). Values are truncated, not rounded: white becomes 254
  (`C66_white_counterexample`). In 32 bits RGB to YUV and back turns some highest components into 0 (`C66_deep_counterexample`).
* Equality: two grains loaded lazily from files are different even if metadata and bytes are the same, because two
  `IOBytes` objects do not know each other (`C67_lazy_counterexample`); both are equal to a grain with these bytes, so equality is not
  transitive. Comparing two numpy grains with the same metadata raises `ValueError`, also a grain with its deep copy
  (`C67_numpy_counterexample`). Event grains have `data`, but `has_data()` is false, `await grain` is `None` and
  `bytes(grain)` is a `TypeError` (`C67_event_counterexample`); so is `bytes` of any grain without data. Defining `__eq__` without
  `__hash__` makes grains unhashable (not modelled). A deep copy of lazily loaded data loads it and gives plain `bytes`.
* Files do not hold the creation timestamp, although grains have it: after reading it is the time of reading
  (`C68_creation_counterexample`). They hold the aspect ratios of pictures but not those of coded pictures, which come back as `None`
  (`C68_coded_aspect_counterexample`).
* Leaving an asynchronous encoder while another task still writes to it overwrites the head of the file: `__aexit__` moves the file
  position and does not wait (`C69_leave_counterexample`). A task that is cancelled before a thread has begun with its write leaves a
  grain that is counted and not in the file (`C69_cancel_counterexample`). Two threads that write to an `AsyncBytesIO` can both store
  at the same position (`C69_memory_counterexample`).
* `encode_grain` counts a grain before it is written. If the write raises and the program goes on, the count in the head is too high; and
  if a part of the grain was written, the decoder takes the next grain for the rest of it, and that grain is lost although its
  call succeeded (`C70_failed_write_counterexample`).
* `dump` and `dumps` with `streaming=True` always raise, because they add their segment when the dump is already active; a file without
  grains is left (`C71_streaming_counterexample`).
* `dump` cuts the file before it encodes the grains. If one of them cannot be encoded, it raises and the old contents are gone
  (`C71_bad_grain_counterexample`).
* `loads` documents that further keyword arguments go to the decoder, and drops them (`C71_kwargs_counterexample`).
* `_similar_grain` says that the other parameters are identical, but a converted grain has lost extension, aspect ratios, time labels and
  creation timestamp (`C72_lost_counterexample`).
* All generators of a session share one position: one with a filter drops the grains another one waits for (`C73_filters_counterexample`).
  Without support for concatenation a generator made after the end of a file, or the end of a file without terminator, eats the first bytes
  of the next file, which cannot be entered then (`C73_again_counterexample`, `C73_cut_counterexample`).
* An encoder that does not stream holds references until the end and writes all grains as they are then; one object that is changed and
  added for every grain is written n times with its last value (`C74_reuse_counterexample`). A streaming encoder writes each value.
* Files do not tell absent from empty data: a plain grain with `b''` comes back with `None`, a media grain with `None` with `b''`, and the
  library's own comparison says that they differ from what was written (`C75_absent_counterexample`).
* A comparison that fails only by its signal to noise ratio reports no failing attribute and has no `result.data`
  (`C76_ratio_counterexample`). `failing_attributes()` lists excluded attributes too, and excluded data even if it is the same
  (`C76_excluded_counterexample`). "Iterators differ first at entry n" counts from one or from zero
  (`C76_entry_counterexample`).
* Options: `1 < ExpectedDifference.x < 5` is `ExpectedDifference.x < 5` (`C77_chain_counterexample`). The operators `&` and `|` are defined on
  the wrong class: they fail for two tests, and what they make of other operands fails when it is used
  (`C77_combined_counterexample`).
* With `Exclude.format` comparison is not transitive: data of grains of different formats is not compared at all
  (`C78_format_counterexample`).
* Copying a file is not the identity on events without data (the copy has a payload with an empty type and topic), on time labels with a
  rate such as 50/2, and, before version 9, on coded pictures with an unknown key frame flag (in the copy they are key frames). A file
  with a grain of an undeclared segment is read without complaint and cannot be written (`C79_*_counterexample`).
* Reading a file while it is written: the reader that meets the end of the file inside the header of a grain skips that grain, since
  `__exit__` seeks to where the block is going to end; if it meets the end inside the tag and size of a block it has consumed part of them and
  finds no grain any more; no error is reported in either case (`C80_grain_lost_counterexample`, `C80_place_lost_counterexample`). A
  writer whose output is buffered shows such files.
* Files that are not well formed: the decoder converts most errors to `GSFDecodeError`, but flow metadata that is not UTF-8 raises
  `UnicodeDecodeError`, a creation time that is no date raises `ValueError`, and an event whose data is not that of an event raises
  `ValueError`, `KeyError` or `TypeError` out of the loop over the grains, which cannot be continued (`C81_other_exceptions`).
* A damaged grain can end the loop over the grains without an exception: if a number inside the block is too large, the reader runs to
  the end of the file and the `EOFError` is taken for the end of the grains, so that all later grains are lost and nothing is reported. They
  are still there for a program that asks the session again (`C82_silent_counterexample`, `C82_recovered`).
  A single wrong byte in the size of a grain loses all later grains for good, without a report (`C82_size_counterexample`). A wrong size of the
  head can swallow the first grains, as blocks of the head that are not known (`C82_head_size_counterexample`).
* A file that ends inside the data of a grain must not be joined to another one: the grain is delivered with the first bytes of the
  second file as the rest of its data, and the grains of the second file are lost, usually without an error (`C83_mixed`,
  `C83_mixed_counterexample`). If it is shortened to whole grains first, nothing is lost (`C83_joined`).
* The tools that write to standard output never flush it, nor does the encoder: a reader at the other end of a pipe can be behind by
  what the buffer of standard output holds, although the decoder itself is never behind (`C84_prompt`).
* Against the format documents: a null creation date (seven zeros, allowed by `ssb.md:49-51`) raises ValueError and makes the file
  unreadable (`C85_null_date`); a string does not end at its first NUL (`ssb.md:35-37`): only NULs at its end are removed, and bytes
  behind a NUL become part of the value or, if they are not UTF-8, an error (`C85_string_end_counterexample`); a `fill` block before
  the header of a grain is an error (`C85_fill_counterexample`).
* The unit offsets of `examples/coded_video_9.gsf` start at the leading zero of four byte start codes
  ([0, 6, 34, 42, …]); the splitter (`h264_parser.py:140-150`) reports the last three bytes of the start code
  ([1, 7, 35, 42, …]). Grains from both sources cannot be compared by their unit offsets.
* A grain writer of the lower level does not check that the grains of a segment are of one flow, which
  `gsf_docs/gsf.md:159` demands. A file opened for appending gets the counts that are filled in when the
  writer stops at its end instead of in the header.
* `PSNR.data == [...]` is `False`, not an option, and giving it to a comparison raises `AttributeError`.
* On AsyncBytesIO awaiting a grain whose data is cut raises EOFError, on the file wrappers it gives the bytes that are there
  (`C86_bytesio_counterexample`).
* The position of the first difference that a comparison of data names may be one where both are the same: for samples 0, 0, 1 and 0, 1, 1
  it says "first different values are a[0] == 0 and b[0] == 0" (`C87_position_counterexample`). The printed list of changes shows
  `b[i1:i2]` where `b[j1:j2]` is meant (`C87_report_counterexample`). The similarity of a to b is not that of b to a
  (`C87_similarity_counterexample`).
* The asynchronous encoder never closes the file it has opened (`C88_writer_counterexample`): the connection under an
  `AsyncStreamWrapper` stays open. The decoder leaves its file open if the headers cannot be read (`C88_headers_counterexample`) and if
  leaving raises because grains were left to load (`C88_left_counterexample`).
* `load` of an `AsyncBytesIO` that holds a file cut inside its last grain loses this grain; of any other file it gives the grain with the
  data that is there (`C23_bytesio_counterexample`).
* The README calls `dump(f, [grain])`; the arguments of `dump` are the grains, then the file. It imports `mediagrains.cogenum` (it is
  `cogenums`). Not part of a theorem.
* A copy (of either kind) of a numpy video grain that is still to be loaded gets empty data instead of the load, and component arrays of full
  size that lie outside this data (`C89_copy_counterexample`): `VideoGrain.__init__` fills in absent data for the default format, not for
  the one in the metadata. The length of such a grain is 0, whatever was declared (`C89_pending_counterexample`). Changing the format of a
  numpy grain leaves the arrays of the old one (`C89_format_counterexample`).
* `copy.copy` of an event grain writes to the original: the constructor of the copy assigns the JSON text of the payload to `data`, and
  the payload dictionary is shared. The original gets new items (`C90_detached_counterexample`) without keys other than `path`, `pre` and `post`
  (`C90_keys_counterexample`), and none from the first item without a path on, where `KeyError` is raised (`C90_path_counterexample`).
* Numpy audio grains of 24-bit planes: `copy` multiplies the samples of the original by 256, `deepcopy` gives other samples
  (`C91_s24_copy_counterexample`). Awaiting one whose load gives `bytes`, as GSF files do, raises `ValueError`, but the grain has the data
  afterwards, without arrays; assigning `bytes` raises too and leaves the arrays of the data before (`C91_s24_refused_counterexample`). The
  arrays of 24-bit samples in three bytes are not over the data (`C91_s24_detached_counterexample`). Compressed audio is taken for planes of
  16-bit samples (`C91_compressed_counterexample`).
* The copy of a file that was cut is malformed with the default options: the `IOBytes` of the cut grain has the declared length, fewer bytes are
  written, and readers of the copy take bytes of the next block for data (`C92_cut_counterexample`); an encoder that writes at the end loses
  whole grains of other segments this way (`C92_grouped_counterexample`).
* A key with a brace in a time label or in an item of an event (for instance `a{b}`) makes `compare_grain` raise, also of a grain with itself:
  identifiers with the key in them are used as format strings (`C93_braces_counterexample`).
* An event grain made with an awaitable never has the payload that arrives: after `await grain`, `bytes(grain)` are these bytes and `grain.data`
  is the text of an empty payload (`C67_event_loaded_counterexample`).
* A program that copies a file with the asynchronous interfaces and the default loading mode stops at the first event with an `AttributeError`
  (`C94_event_counterexample`), whereas of a cut file it makes a good copy and the synchronous program does not (`C94_cut`,
  `C92_cut_counterexample`).
* Wrapping H.264 video changes the rate of the grains to that of the stream but not their duration, so that with the default rate of the tool
  and a stream of another rate the two contradict each other (`C95_duration_counterexample`); every grain has the sync timestamp of the
  template (`C95_sync_counterexample`); the size of every grain is that of the first picture (`C95_size_counterexample`).
* `wrap_video_in_gsf` takes all formats: MJPEG, MPEG-2, VC-2 and the other compressed formats besides H.264 and AVC-Intra are cut into pieces
  as long as an uncompressed picture and called uncompressed (`C96_compressed_counterexample`); formats without a size give a finished file
  without grains for any input (`C96_no_size_counterexample`).
* `wrap_audio_in_gsf` makes its template with the rate 0. For uncompressed audio it always ends with an exception
  (`C96_audio_counterexample`). For AAC it fails without `--samples-per-grain` and `--sample-rate`, although the wrapper would assume 1024
  samples and takes the sample rate from the stream (`C96_aac_counterexample`).
* Wrapping AAC or H.264 from standard input always ends with an exception and leaves a file without its last block
  (`C96_aac_stdin_counterexample`, `C96_h264_stdin_counterexample`), because the wrapper of standard input raises at the end.
* Numpy arrays: those of AYUV reach past the end of the data and overlap (`C55_ayuv_counterexample`,
  `C55_ayuv_overlap_counterexample`); there are none for BGRA, `BGRx` is listed twice instead
  (`C55_bgra_counterexample`); arrays over too little data reach outside it
  (`C55_short_counterexample`, `C54_short_counterexample`).
* 24-bit audio in planes: a numpy grain can not be made from bytes, and making one over a bytearray
  moves the data of the grain by eight bits each time, also when it is copied
  (`C54_s24_planes_bytes_counterexample`, `C54_s24_planes_again_counterexample`).
* `ALPHA_U8_1BIT` has 4 active bits, packed 4:2:2 formats disagree about their shift, placeholders
  belong to every class (`C34_one_bit_counterexample`, `C34_packed_shift_counterexample`,
  `C34_placeholders`).

Files and streams
* IOBytes: `==` between two is always false, `+` raises TypeError, `len` changes when the file is
  shorter (`C35_eq_counterexample`, `C35_add_counterexample`, `C35_len_counterexample`).
* AsyncBytesIO: `C36_readall_counterexample` (position kept), `C36_stale_counterexample` (cut off
  bytes come back), `C36_extend_counterexample`, `C36_negative_counterexample`,
  `C36_empty_write_counterexample`.
* Stream wrappers: `C37_readall_counterexample` (position counted twice),
  `C37_short_skip_counterexample` (a skip lands before its target), `C37_eof_counterexample`.

Wrapping
* A file delivers a short last grain where standard input drops it (`C38_counterexample`).
* ADTS: a short last frame is delivered (`C39_short_counterexample`); length 6 takes the rest of the
  stream (`C39_six_counterexample`), less is handled differently per kind of input
  (`C39_five_counterexample`); standard input always ends in EOFError (`C39_stdin_never_ends`).
* H.264: standard input always ends in an exception and loses its last frames
  (`C40_stdin_counterexample`); a truncated unit joins all that follows to one frame
  (`C40_truncated_counterexample`); malformed streams split differently depending on how they are
  read (`C40_chunking_counterexample`).

Comparison
* Odd 16 bit data raises an exception even if data is excluded (`C42_odd_counterexample`); a grain
  with NaN differs from itself (`C42_nan_counterexample`); a trailing part of a 24 bit sample is
  ignored and the two zeros are equal (`C42_bytes_counterexample`).
* Excluding the format ignores data too (`C43_format_counterexample`), excluding an event attribute
  ignores the length (`C43_topic_counterexample`); expected differences of other attributes than
  timestamps have no effect (`C43_length_counterexample`), that of the creation timestamp needs an
  Include (`C43_creation_counterexample`).
* `return_last_only` raises when nothing was compared (`C44_last_only_counterexample`), and keeps two
  results in the wrong order when the lengths differ (`C44_two_kept_counterexample`).

Patterns and conversion
* S24_PLANES tones are too short (`C45_length_counterexample`); pairs of an odd number of channels
  and full volume fail (`C45_odd_counterexample`, `C45_full_volume_counterexample`).
* A skip of 0 raises ZeroDivisionError (`C46_zero_counterexample`); changes to the template show in
  later grains (`C46_template_counterexample`); the moving bar answers between the grains of its
  source (`C46_overlay_counterexample`).
* Luma steps fail for widths 1-7 (`C47_narrow_counterexample`) and leave the range or wrap round for
  some others (`C47_wrap_counterexample`, `C47_luma_nominal_partial`); colour bars need each
  component width to be a multiple of 8 (`C47_bars_widths`) and always contain samples outside the
  nominal range (`C47_bars_nominal_counterexample`).
* A sample of 1024 or more changes its neighbour in v210 (`C48_range_counterexample`); the largest
  samples wrap to 0 when the depth is lowered (`C49_wrap_counterexample`,
  `C49_narrow_counterexample`); odd sizes cannot be converted (`C49_odd_counterexample`).

## 5. Tests of the theorems

`seeded/LOG.jsonl` has one line per wrong program tried: the definition edited, the edit, the claim it
breaks, the theorems that failed, and what was tightened if none did. The edits were made in a scratch
copy. A theorem counts as failed if, after marking every proof that no longer checks, it depends on one
of them.

The model itself was compared with data of the repository by running it (`Verif/Conformance`, which says how).
These are tests, not proofs.

* The eleven single files in `/repo/examples` (format versions 7, 8 and 9; every kind of grain; up to
  1.9 MB) are read to the end with ten grains each, and the model's writer makes the same bytes again
  from what its reader found. Identifiers, dates, times and formats are those that `tests/test_gsf.py` expects.
* The ADTS splitter finds in `tests/audio.aac` what `tests/test_wrap.py` expects, and splits the data of
  `coded_audio_8.gsf` into its grains. The H.264 splitter splits the data of `coded_video_9.gsf` into its grains.
* The payloads of `event_8.gsf` are read as JSON and written again with the same bytes.
* The pictures of the pattern generators are those that `tests/test_patterngenerators.py` expects, for its formats,
  intensities and bar heights.
* The signal to noise ratios of `tests/test_video_psnr.py` come out with all the digits given there.
* The sizes of components are those of `tests/test_grain.py`; the component arrays of 31 formats have the shapes, and
  their samples the places in the data, that `tests/test_numpy_videograin.py` expects.
* All 841 conversions between the 29 formats of `tests/test_numpy_videograin.py` give its test pattern, within the
  differences it allows; the model computes the colour conversion in double precision.
* The channel arrays of 15 audio formats have the samples of `tests/test_numpy_audiograin.py`, and their signal to noise
  ratios lie between the bounds of `tests/test_audio_psnr.py`.
