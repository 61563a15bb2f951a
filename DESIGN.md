# Formal model of etiennedi/vibe-col in Lean 4 — design

The property list is `properties.jsonl`; what was proved about each is in `MANIFEST.json` and in the table at the
end of this file. The order of work was: model the code function by function, write the specification vocabulary
separately, state the properties in that vocabulary, prove, then attack the theorems with seeded bugs
(`seeded/LOG.jsonl`).

## Layers

| Lean module | models | how |
|---|---|---|
| `Model/Prim.lean` | Go primitives: byte slices, little-endian, `os.File` Seek/Write/Sync with a fault oracle, slicing and `make` with a `panic` outcome | byte lists, explicit cursor, total functions |
| `Model/Bitmap.lean` | the part of `weaviate/sroar` used by the code | class `Bitmap` with laws `LawfulBitmap` (assumptions), and a concrete lawful instance `IdSet` for the examples |
| `Model/Encoding.lean` | `encoding.go`, `constants.go`, `utils.go`, `types.go`, `encoding/binary` varints | functions on `UInt64`/`Int64`/`UInt32`/`UInt8` with wrap-around |
| `Model/Writer.lean` | `writer*.go`, `format.go` | state monad over the writer struct; every file operation can fail, writes also after part of their bytes |
| `Model/Reader.lean` | `reader.go`, `reader_io.go`, `reader_header.go`, `reader_block.go`, `reader_decode.go` | functions of the file bytes with `Int64` offset arithmetic, outcomes `ok`/`err`/`panic` |
| `Model/Aggregate.lean` | `reader_aggregate.go` | folds; the parallel merge takes the arrival order as an argument |
| `Model/Parallel.lean` | the goroutines, channel and WaitGroup of `reader_aggregate.go` | small-step machine, any interleaving; refines the functional model |
| `Model/Concurrent.lean` | concurrent use of the bitmap cache of one reader | interleaving of single field accesses |
| `Model/ReaderIO.lean` | the reader again, with reads that fail and `Close` | per-call fault oracle, open/closed flag |
| `Model/SimpleWriter.lean` | `simple_writer.go` | state machine on top of the writer; `sort.Slice` is a parameter |
| `Model/MultiCol.lean` | `pkg/multicol/aggregate.go` | fold from newest to oldest |
| `Model/Cli.lean` | `cmd/vibecol/main.go` | argument strings to exit status, output text and file |
| `Model/Examples.lean` | `cmd/write_example`, `cmd/read_example` | crc64, clock and `%.2f` are parameters (the latter instantiated in C64); file operations succeed |
| `Model/Debug.lean` | `DebugInfo` | `%d`, `%X` modelled |
| `Model/FilterExample.lean` | `examples/filtered_aggregation_example.go` | temporary file handling left out; `%.2f` is a parameter (instantiated in C64) |
| `Model/SharedSlices.lean` | `pkg/col/simple_writer.go` with arrays and slices in memory | growth of `append` is a parameter; out-of-bounds accesses have no effect |
| `Model/SharedBitmaps.lean` | `pkg/col/reader.go` 128-179, `pkg/multicol/aggregate.go` with bitmaps as pointers | reading the file and aggregating one file as in the other models |
| `Model/Live.lean` | `pkg/col/reader*.go` reading a file that is being changed | which moment each access sees is arbitrary |
| `Model/Float.lean` | `float64(sum)/float64(count)` and `%.2f`, wherever the code has them | Go's specification of conversion, division and formatting |
| `Model/MultiIO.lean` | `MultiReader.Aggregate` and `Close` with failing reads and closed readers, histories of calls | `pkg/multicol/aggregate.go` |
| `Model/Closing.lean` | `Writer.Close`, `FinalizeAndClose` and runs of all five writer methods | `pkg/col/writer_finalize.go` |
| `Model/CommandLine.lean` | `main` of `cmd/vibecol` with the parser of package `flag`, and files by name | argument lists and file systems to output, exit status and files |
| `Model/Memory.lean` | the reader of reader*.go again, recording the size of every `make`; a `FooterEntry` takes 64 bytes in memory; not counted: fixed-size objects, growth by `append`, the bitmap library | see there |
| `Model/ReadLog.lean` | the reader of reader*.go and MultiReader.Aggregate again, recording offset and length of every `ReadAt` | see there |
| `Model/LoadTestMain.lean` | cmd/loadtest/main.go from the command line on: `main`, flag sets, number flags (`strconv.ParseInt`, `ParseUint` with base 0), the files | see there |
| `Model/MultiLive.lean` | multicol/aggregate.go over files that change while they are read | each read has its own view of the file |
| `Model/ExamplesMain.lean` | cmd/write_example/main.go, cmd/read_example/main.go with command lines and failing file operations | texts of error messages dropped |
| `Model/ProgramsIO.lean` | `vibecol read`, `loadtest aggregate` and the filter example again, with reads that fail | as their first models |
| `Lemmas/SimpleCrash.lean` | the `SimpleWriter` when the process dies | - |
| `Tests/Repo.lean` | unit tests of the project (/repo/pkg/**/*_test.go) run on the model, expected values copied from the tests | evidence that the model computes what the code computes; tests, not listed in the manifest |
| `Lemmas/Prefix.lean` | `Finalize` as a part that overwrites and a part that appends | - |
| `Lemmas/Cuts.lean` | a run that is cut off leaves a prefix, beyond the header | - |
| `Model/Goroutines.lean` | readers shared by goroutines: calls as programs of accesses, the scheduler | pkg/col/reader.go, reader_io.go, reader_aggregate.go, pkg/multicol/aggregate.go |
| `Model/Work.lean` | writing with a count of the numbers encoded | pkg/col/writer_block_io.go, pkg/col/simple_writer.go |
| `Model/ManyWriters.lean` | several writers on any files | contents per path, offset per writer; whole calls interleave |
| `Model/Handles.lean` | the constructors with the closing of their file on error paths, and a process with any number of objects | writer.go, simple_writer.go, reader.go, multicol/aggregate.go |
| `Model/LoadTest.lean` | `cmd/loadtest/main.go` | the random number generator is a parameter; exit status, totals and file |
| `Spec/*.lean` | nothing: the vocabulary of the theorems (histories, acknowledged blocks, aggregates, the documented file format, decimal numbers, ...) | defined without the model's helpers wherever possible |
| `Lemmas/*.lean` | invariants and symbolic execution | |
| `Props/*.lean` | the property theorems `Cnn_...`, each with a non-vacuity example | |

Every definition in `Model/` cites the lines it models.

## Conventions

* `Cnn_name` is a theorem for property `Cnn`. `Cnn_refuted...` proves that a natural stronger reading is false of the
  code (a concrete counterexample, or all of a class); the statement in `properties.jsonl` then says exactly what
  holds and what does not.
* A history is a successful `NewWriter` followed by arbitrary calls with their results (`Spec/History.lean`). `acked log`
  are the blocks the user was told are stored: the batch of each `WriteBlock` that returned nil, and the first `n` pairs
  of each that returned `BlockFullError{n}`. `Finalized` means: such a history without reported I/O error (operations
  may fail as long as no call reports it), `Finalize` returned nil, and `file` are the bytes at that moment.
* Bounds that appear in statements are limits of the code itself and not of the proof method: at most 2^27 pairs per
  call (32-bit sizes, see C35 for what happens above), 76,695,844 blocks (32-bit index arithmetic, see C41), files
  below 2^63 bytes (`int64` offsets), a serialized bitmap below 4 GiB (32-bit length field).

## Trusted base

* **The Lean 4.33.0 kernel.** No `native_decide`, no `bv_decide`; evaluation of concrete examples uses `decide`, `rfl` or
  `decide +kernel` (the kernel itself).
* **Axioms.** Every theorem in the manifest depends on a subset of `propext`, `Classical.choice`, `Quot.sound`
  (checked with `#print axioms`). No axiom is declared in this project.
* **The reading of the Go source**, recorded in the comment of every model definition.
* **Assumptions that appear as hypotheses or parameters** (so they are visible in the statements):
  - `LawfulBitmap B`: `sroar` bitmaps behave as sets of `uint64`, `FromBuffer(ToBuffer b)` has the same elements, `Minimum`
    and `Maximum` bound the elements. `FromBuffer` is total (what `sroar` does with malformed buffers is left open). `IdSet`
    shows the laws consistent.
  - `LawfulSort env.sort`: `sort.Slice` returns a permutation in order; nothing is assumed about equal IDs.
  - `Sched.Fair`: every worker's result arrives exactly once, in any order. `Model/Parallel.lean` derives this from the
    interleaving machine (C16).
  - `env.fault`, `env.clock`: arbitrary unless a theorem says `NoFault` or bounds the clock.
* **Assumptions built into the model:**
  - `int` is 64 bits wide. Memory allocation succeeds, except that `make` with a negative length or of more than 2^48
    bytes panics (the channel of more than 2^42 workers is left out).
  - One writer writes the file (except in `Model/ManyWriters.lean`, C88, and when it is replaced, C67); reads see the bytes written (in `Model/Live.lean` at any moment during or after the
    writer's calls, byte by byte). A failing `Write` may have written any prefix of its
    bytes; a failing `Seek`, `Sync` or `Read` has no effect. A crash of the process keeps all completed writes; a power
    failure may keep or lose any byte written since the last successful `Sync` (`Spec/Power.lean`). After a failed `Sync` the data stays in the file and a later
    successful `Sync` persists it, except in C90, whose runs may lose dropped pages (`Spec/SyncLoss.lean`). The directory entry of the file is
    assumed to survive a power failure (the code never syncs the directory, so this depends on the file system).
  - `ReadAt` returns all bytes available or fails; EOF is ignored by the code and the rest of the buffer is zero. An offset beyond the end is EOF however large it is (Linux may report an error for offsets near 2⁶³).
  - Bitmaps are values in the single-threaded models (`Model/SharedBitmaps.lean` has them on a heap, C60).
  - `totalItems`, `count` of aggregates and the writer's `blockCount` are natural numbers (they count things in memory or
    calls and cannot reach 2^64). Everything else has its machine type.
  - `Avg` is the pair of sum and count; `Model/Float.lean` evaluates `float64(sum)/float64(count)` and `%.2f` as the Go
    specification and package `fmt` promise (IEEE 754 binary64, round to nearest, ties to even; C63, C64).
  - Error texts and `%w` wrapping are dropped; error *kinds* are kept where callers can tell them apart.
  - `Model/Concurrent.lean` assumes that single field accesses are atomic and sequentially consistent (the Go memory
    model promises less for racy programs; C40_refuted is a refutation already under this stronger assumption, and
    C40_enabled is the claim under it).
* **Not modelled:** usage texts, timing output, performance (except what C70 and C83 count).

## How properties are stated

Theorem statements use only: the API functions of the model (`newWriter`, `writeBlock`, `finalize`, `newReader`,
`getPairs`, `aggregateWithOptions`, ...), and the vocabulary of `Spec/`. The specification of aggregates (`IsAggregate`) is
by minimality/maximality and integer sums modulo 2^64, not by a fold; the documented format is written with natural
numbers and integers and powers of two, not with the model's encoders; the meaning of command-line numbers is given by
decimal expansions, not by the parser.

## Per-property table

<!-- table begin -->
| id | property | modelled / proved how | status | theorems |
|---|---|---|---|---|
| C01 | Write/read round trip for the four symmetric encodings | Invariant `Good`-style relation (`Lemmas/Committed`, `WriteBlock`, `Finalize`) between the writer and the list of committed blocks, by induction over the calls; then the reader is run symbolically on the finished bytes. | proved | `C01_roundtrip`, `C01_accepted`, `C01_progress` |
| C02 | Which encodings round-trip: exactly four of the eight documented ones | Positive half from C01; for the others the exact values read back are proved for all inputs, and a file refuting the round trip is exhibited for each. | proved | `C02_deltaID`, `C02_deltaValue`, `C02_varIntID`, `C02_varIntValue`, `C02_refuted`, `C02_classification` |
| C03 | BlockFullError contract | From the case analysis of WriteBlock (`writeBlock_out`) and C01; the bounds on n in every state. | proved | `C03_blockFull`, `C03_bounds` |
| C04 | Block size never exceeds the target except for a single pair | Index entries of a finalized file (`Laid`) carry the estimate that was compared with the target. | proved | `C04_size` |
| C05 | Where WriteBlock splits a batch | The (linear) search is shown to find the last prefix whose estimate fits (`findOptimal_spec`, monotonicity of the estimate), and the estimate equals the length of the documented block. | proved | `C05_maximal`, `C05_exact`, `C05_default` |
| C06 | EstimateBlockSize is exact and has no effect | Estimate = length of the block image plus padding; frame lemma for all state. | proved | `C06_noEffect`, `C06_exact`, `C06_total` |
| C07 | Page alignment | Layout invariant (`Chain`, `Laid`). | proved | `C07_ends`, `C07_starts` |
| C08 | Blocks are disjoint, ordered and inside the file | Layout invariant, read through NewReader. | proved | `C08_extents` |
| C09 | Block statistics are exact | Statistics of the model's loops against order/sum specifications (`ExactStats`). | proved | `C09_stats`, `C09_blockHeader`, `C09_refuted` |
| C10 | Aggregate() from the footer is exact | Fold over index entries against `IsAggregate`; parallel version by C15. | proved | `C10_aggregate`, `C10_parallel`, `C10_refuted` |
| C11 | SkipPreCalculated aggregation is exact for all values | Fold over blocks read back. | proved | `C11_skip` |
| C12 | Footer and reading aggregation agree | C10 and C11 against the same specification. | proved | `C12_agree`, `C12_refuted` |
| C13 | Filtered aggregation semantics | Fold over filtered blocks; skipped blocks contribute nothing by the ID range. | proved | `C13_filtered`, `C13_general` |
| C14 | Block skipping is sound | Iterator over the index of a finalized file; exact list for every reader. | proved | `C14_iterator`, `C14_exact` |
| C15 | Parallel aggregation equals sequential aggregation under every schedule | Merge of per-worker results is a commutative monoid action, chunks partition the blocks; any arrival order. | proved | `C15_parallel`, `C15_arbitrary`, `C15_refuted`, `C15_refuted_count` |
| C16 | Parallel aggregation protocol safety and progress | Small-step machine of spawner, workers, collector, channel and WaitGroup; inductive invariant, decreasing measure, and refinement to the functional model. | proved | `C16_progress`, `C16_finite`, `C16_safe`, `C16_refines`, `C16_sequential`, `C16_finalized`, `C16_completes`, `C16_starts` |
| C17 | Empty aggregates | From C13 and the zero cases. | proved | `C17_empty`, `C17_refuted` |
| C18 | Global ID bitmap is exactly the set of IDs | Bitmap bytes in the file are the serialized union of IDs; `LawfulBitmap` round trip. | proved | `C18_bitmap`, `C18_faulty`, `C18_refuted` |
| C19 | Bitmap caching is transparent | Simulation: every reader state reachable by calls equals the fresh one up to a right cache. | proved | `C19_transparent` |
| C20 | SimpleWriter loses, duplicates and reorders nothing | Simulation between SimpleWriter and the list of accepted batches (`SWOpen`/`SWClosed`), by induction over calls and over the flush recursion. | proved | `C20_stream`, `C20_sized` |
| C21 | SimpleWriter item accounting | Same invariant. | proved | `C21_accounting`, `C21_persisted`, `C20_stream` |
| C22 | SimpleWriter closed state | Induction over the later calls. | proved | `C22_closed`, `SimpleClosed.C22_isClosed`, `SimpleClosed.C22_example` |
| C23 | SimpleWriter flush terminates | The recursion is given as a relation `FlushRuns` with a round counter, and shown total with a bound; success without faults by the same invariant. | proved | `C23_terminates`, `C23_deterministic`, `C23_succeeds` |
| C24 | MultiReader implements newest-file-wins | Fold from newest to oldest; deny bitmap = union of newer ID bitmaps. | proved | `C24_newestWins` |
| C25 | MultiReader equals last-writer-wins map aggregation | C24 plus uniqueness of keys. | proved | `C25_lastWriterWins`, `C25_refuted_duplicates` |
| C26 | NewReader validation | Case analysis on arbitrary bytes. | proved | `C26_validation`, `C26_rejected` |
| C27 | Interrupted writes are not mistaken for complete files | A crash is a fault after which nothing runs (`Env.crashAt`); invariants of unfinished files; lengths; a calculus (`Lemmas/Cuts.lean`) in which every program extends the file beyond the header and a cut run leaves a prefix; for fixed-width encodings the documented bytes (C47) show a byte foreign to the magic number every seven bytes. | proved | `C27_newWriter`, `C27_finalize`, `C27_whole`, `C27_crash`, `C27_between`, `C27_raw`, `C27_refuted`, `C27_prefix`, `C27_detected`, `C27_fixedWidth`, `C27_faults`, `C27_faults_example` |
| C28 | Rejected input has no effect | Direct case analysis in all states. | proved | `C28_writeBlock`, `C28_estimate`, `C28_simpleWriter`, `C28_histories` |
| C29 | Header accessors | Header bytes read back. | proved | `C29_accessors`, `C29_isVarInt`, `C29_isDelta` |
| C30 | GetPairs bounds | Case analysis. | proved | `C30_bounds`, `C30_index_small`, `C31_getPairs` |
| C31 | When readers panic on arbitrary bytes | Case analysis, `panic` is an explicit outcome. | proved | `C31_refuted_count`, `C31_newReader`, `C31_index_in_range`, `C31_getPairs`, `C31_getPairs_wellformed`, `C31_aggregate_sequential`, `C31_aggregate_parallel`, `C31_refuted` |
| C32 | Repeated and interleaved Finalize | C01 at every Finalize of the history. | proved | `C32_every_finalize`, `C32_succeeds`, `C01_roundtrip` |
| C33 | I/O failure in WriteBlock is never silently finalized | Invariant with uncommitted tail; position list longer than block count is absorbing. | proved | `C33_contents`, `C33_stuck` |
| C34 | Retrying after a failure: what is safe and what is not | Invariant as long as the cursor is at the end; evaluation of two concrete fault schedules for the limits. | proved | `C34_retry`, `C34_refuted_finalize`, `C34_refuted_write` |
| C35 | 4 GiB blocks | Symbolic evaluation for an arbitrary list of 2^28 pairs (no enumeration). | proved | `C35_refuted`, `C01_roundtrip` |
| C36 | Content does not depend on the block split | Both files determine the same pairs and specification aggregates. | proved | `C36_split`, `C01_roundtrip` |
| C37 | Compactness of variable-length encoding | Induction on the varint encoder against base-128 digit counts. | proved | `C37_unsigned`, `C37_signed`, `C37_bounds`, `C37_blocks` |
| C38 | Pairs returned are aligned | Case analysis of the decoders on arbitrary bytes. | proved | `C38_aligned`, `C38_filtered`, `C48_varint` |
| C39 | Sorted batches | `LawfulSort` and the isSorted test. | proved | `C39_sorted`, `C39_buffer`, `C20_stream` |
| C40 | Concurrent bitmap access | Interleaving machine for field accesses; invariant on every thread's local state. | proved | `C40_enabled`, `C40_disabled`, `C40_refuted`, `C40_solo` |
| C41 | Files with more than 76,695,844 blocks | Reader index arithmetic with 32-bit wrap-around, symbolic file with 76,695,845 blocks. | proved | `C41_prefix`, `C41_refuted`, `C09_stats`, `C08_extents` |
| C42 | Writing on after Finalize | C01, C27 composed. | proved | `C42_extend` |
| C43 | File size bound and progress | Sum of lengths over the layout; progress by induction over calls. | proved | `C43_size`, `C43_progress` |
| C44 | SimpleWriter loses nothing under faults | Invariant `SWLive`/`SWDone` allowing duplicated prefixes. `C44_early` (repeated Close) is the lossless case of C90's run relation. | proved | `C44_nothing_lost`, `C44_refuted`, `SyncLossSimple.C44_early` |
| C45 | Durability of acknowledged data | Ghost log of writes since the last Sync in the writer state; `MayRemain` describes what a power failure can leave. | proved | `C45_current`, `C45_writeBlock`, `C45_finalize`, `C45_finalized`, `C45_kept`, `C45_close` |
| C46 | Power failure during Finalize | Ditto, with the old and new header bytes mixed arbitrarily. | proved | `C46_recovers`, `C46_refuted_bitmap`, `C46_refuted_empty` |
| C47 | Finalized files have the documented format | Independent description of the documented format (`Spec/Format.lean`, naturals and integers only) proved equal to the bytes. | proved | `C47_bytes`, `C47_layout`, `C47_deterministic` |
| C48 | Damage inside blocks goes unnoticed but stays isolated | Readers of two files that agree outside blocks. | proved | `C48_unnoticed`, `C48_isolated`, `C48_undetected`, `C48_fixed`, `C48_varint` |
| C49 | Aggregates over unreadable blocks | Fold over blocks skipping errors, arbitrary reader. | proved | `C49_skip`, `C49_filtered`, `C49_lost` |
| C50 | vibecol write | Model of cmd/vibecol (`Model/Cli.lean`): argument parsing, runWrite; specification of denoted numbers independent of the parser. | proved | `Cli.C50_arguments`, `Cli.C50_success`, `Cli.C50_capacity`, `Cli.C50_refuted` |
| C51 | vibecol read | Model of runRead; output text compared with a specification of the text. | proved | `Cli.C51_read` |
| C52 | Read errors and closed readers | Second model of the reader with failing reads and an open/closed flag, related to the first one; block-wise fold. | proved | `C52_open`, `C52_pairs`, `C52_bitmap`, `C52_aggregate`, `C52_closed_silent`, `C52_footer`, `C52_close`, `C52_closeAll` |
| C53 | SimpleWriter block layout | Specification `Layout.Run` of call sequences in terms of documented block sizes; simulation between the model and the specification; `Cut.unique`: the specification determines the blocks. | proved | `C53_layout`, `C53_blocks`, `C53_fits`, `C53_ordered`, `Cut.unique` |
| C54 | loadtest import | Model of cmd/loadtest (`Model/LoadTest.lean`) with an arbitrary random number generator; the import loop is shown to be a history of SimpleWriter calls, then C20/C21/C23; ranges by induction over the generator. | proved | `LoadTest.C54_import`, `LoadTest.C54_panicked`, `LoadTest.C54_succeeds`, `LoadTest.C54_badflags`, `LoadTest.C54_range`, `LoadTest.C54_refuted` |
| C55 | loadtest aggregate | Model of runAggregate on the file of C54; C10/C11 on it, block statistics shown to be representable. | proved | `LoadTest.C55_aggregate` |
| C56 | write_example and read_example | Model of both programs (`Model/Examples.lean`); the writer is executed symbolically for any clock and checksum function, the reader on any file. | proved | `Examples.C56_file`, `Examples.C56_dump`, `Examples.C56_foreign`, `Examples.C56_roundtrip`, `Examples.C56_agg` |
| C57 | DebugInfo | Model of DebugInfo (`Model/Debug.lean`); the text is compared with a relational description (`Spec/Debug.lean`) of the blocks of C47. | proved | `C57_debug`, `C57_once` |
| C58 | The filtered aggregation example prints the right numbers or an error | The program is modelled line by line on top of the writer, reader and aggregation models; the printed text is written out in Spec/FilterExample.lean. C13 gives the aggregates, the five results are evaluated by the kernel. | proved | `FilterExample.C58_example` |
| C59 | SimpleWriter shares no memory with its caller | Second model of simple_writer.go with arrays, slices, in-place stores, make/copy/append/reslicing (`Model/SharedSlices.lean`); the specification is a machine whose writer takes lists and shares nothing. Simulation: pending slices hold the pending lists in arrays that are not the program's. | proved | `Shared.C59_separate`, `Shared.C59_history` |
| C60 | Bitmaps are only shared through the cache | Second model of the cache and of MultiReader with bitmaps as pointers into a heap (`Model/SharedBitmaps.lean`); the specification has variables with values and no cache. Simulation for polite programs; a frame invariant for all programs; two counterexamples for impolite ones. | proved | `Pointers.C60_separate`, `Pointers.C60_uncached`, `Pointers.C60_untouched`, `Pointers.C60_shared`, `Pointers.C60_refuted` |
| C61 | A reader is not disturbed by its file being extended | Third model of the reader in which each access finds a file of its own (`Model/Live.lean`, equal to the first one if the file stays the same). After Finalize the writer keeps every byte from 64 to the end (`runCalls_keep`), and all reads of an open reader stay there (C08). | proved | `C61_snapshot`, `C61_blocks` |
| C62 | A file can be opened while blocks are added to it | As for C61; the footer is found because its position depends only on the size determined first. The panic for any reader whose header claims more blocks than its index; a concrete run as a counterexample. | proved | `C62_open`, `C62_mixed`, `C62_mixed_blocks`, `C62_panics`, `C62_mixed_bitmap`, `C62_refuted` |
| C63 | Averages are accurate to 2^-51 | Executable model of `float64(int64)`, `float64(int)` and division (IEEE 754, nearest-even) on integers (`Model/Float.lean`). Specification over the rational numbers: `Rounds x y` says that no float64 is nearer to x than y, ties to even. Proved: the model computes such roundings, rounding is a function and monotone, its relative error is at most 2^-53; hence the three errors combine to 2^-51. | proved | `C63_average`, `C63_between`, `C63_multi`, `C63_refuted`, `C63_refuted_overflow` |
| C64 | Averages are printed correctly rounded | `%.2f` modelled on the exact value of the float64 (`fmtFixed2`), specified by `Printed2` (nearest two-decimal number, ties to even, minus sign iff negative), proved for all floats and plugged into C51, C56 and C58, whose theorems hold for every formatting function. | proved | `C64_read`, `C64_error`, `C64_example`, `C64_readExample`, `C64_minusZero` |
| C65 | Aggregates over a stack of files when reads fail or readers are closed | `Model/MultiIO.lean`: the loop of Aggregate over open or closed readers with an oracle of failing reads, and histories of calls. Invariant over histories: each reader is its freshly opened state up to a correct cache, open iff no call closed it. The loop is proved by induction with the deny bitmap equal to all IDs of the newer files, read or not. Specification `visibleRead` (`Spec/MultiIO.lean`). C65_refuted_silent shows the silent empty aggregate is reachable. | proved | `MultiIO.C65_aggregate`, `MultiIO.C65_noStale`, `MultiIO.C65_recovers`, `MultiIO.C65_closed`, `MultiIO.C65_afterClose`, `MultiIO.C65_refuted_silent` |
| C66 | Closing a writer | `Model/Closing.lean`: runs over all five methods. C66_phases: every such run is a history without Close (to which C01–C49 apply), then at most one closing call, then refused calls. On a closed file every method fails at its first file operation and changes nothing (structural lemma `Dead`). C66_complete combines this with C01 and C45. | proved | `Closing.C66_refused`, `Closing.C66_phases`, `Closing.C66_complete` |
| C67 | A file cut off, overwritten or replaced under an open reader | On the live model of C61/C62, in which every read sees its own contents. C67_noPanic: the only panics of a reader come from index entries (block sizes, block count), which stem from the file as it was opened (C31 applied to each read). C67_index: the index path reads no byte. C67_truncated, C67_silent, C67_bitmap: reads behind the end give zeros without an error. C67_replaced: a block is decoded from the bytes, the encoding and the entry's offset, size and count, and these agree for equal numbers of pairs. C67_overwritten: the same for a file that is still being written (invariant of the new writer, MaySee of C62), the old index entry having the offset, size and count of the new block (alike_chain of C88). | proved | `Overwritten.C67_overwritten`, `Overwritten.C67_overwritten_example`, `Replaced.C67_noPanic`, `Replaced.C67_index`, `Replaced.C67_truncated`, `Replaced.C67_silent`, `Replaced.C67_bitmap`, `Replaced.C67_replaced`, `Replaced.C67_unnoticed` |
| C68 | The vibecol command line, end to end | Model/CommandLine.lean adds main with package flag's parser and a file system (names to contents) around the model of C50/C51. Spec/CommandLine.lean defines by a grammar what an argument list asks for. parse_iff shows that the parser accepts exactly the grammar and yields the last settings, by induction over the arguments in both directions; C68_commands, C68_untouched, C68_session and C68_capacity follow with C50 and C51. | proved | `Cmd.C68_commands`, `Cmd.C68_untouched`, `Cmd.C68_session`, `Cmd.C68_capacity`, `Cmd.C68_usageWrite`, `Cmd.C68_usageRead`, `Cmd.C68_example` |
| C69 | Power failure during a repeated Finalize | On the disk model of C45/C46 (Disk, MayRemain). Again packages the history; runCalls_synced and runCalls_keep show that at the start of the later Finalize everything is synced and the header is the earlier one; torn_header shows that any mixture of two headers with the same magic, version and encoding is accepted; torn_reads that blocks and footer do the rest. C69_refuted takes the file as long as the new one with zeros beyond the old end. | proved | `PowerAgain.C69_recovers`, `PowerAgain.C69_oldLength`, `PowerAgain.C69_refuted` |
| C70 | How much memory reading asks for | Model/Memory.lean repeats the reader in a monad that records the size of every make; C70_results proves that erasing the record gives the model of the other properties, newReaderA_req the exact list of requests of NewReader. The bounds follow from the file layout (FileOK): the block index has 56 bytes per block in the file, a block of n pairs takes at least 80+2n bytes, blocks do not overlap. | proved | `Memory.C70_results`, `Memory.C70_finalized`, `Memory.C70_anyFile`, `Memory.C70_refuted`, `Memory.C70_results_all`, `Memory.C70_parallel`, `Memory.C70_stack`, `Memory.C70_example_parallel` |
| C71 | Opening a file at any moment while its writer finalizes it again | On the live model of C61/C62. Invariant: each of the first 60 bytes is that of some header with the right magic number, version and encoding (Headed), kept by every call and closed under mixing bytes of different moments; so readHeader accepts it. The footer is found as in C62, the blocks as in C61, the aggregates by C49 (any reader) and C13. | proved | `Torn.C71_opens`, `Torn.C71_blocks`, `Torn.C71_aggregate` |
| C72 | Which parts of a file are read | The reader again in a monad that records offset and length of every ReadAt (Model/ReadLog), proved to compute the same results. Reads of a loop over blocks are the concatenation of the blocks' reads if none panics (C31), the slices of the workers concatenate to the list of blocks; where the parts lie follows from C08. | proved | `ReadLog.C72_results`, `ReadLog.C72_indexOnly`, `ReadLog.C72_anyFile`, `ReadLog.C72_open`, `ReadLog.C72_pairs`, `ReadLog.C72_aggregate`, `ReadLog.C72_bitmap`, `ReadLog.C72_within`, `ReadLog.C72_multi` |
| C73 | The loadtest command line, end to end | main with Go's flag and strconv (base 0) in Model/LoadTestMain; what command lines and numerals mean is a separate grammar (Spec/LoadTestMain) proved equivalent to the parser in both directions, by induction on the arguments and on the digits with the overflow checks. The session follows from C54 and C55. | proved | `LoadCmd.C73_numerals`, `LoadCmd.C73_commands`, `LoadCmd.C73_untouched`, `LoadCmd.C73_session`, `LoadCmd.C73_succeeds`, `LoadCmd.C73_reproducible`, `LoadCmd.C73_usage`, `LoadCmd.C73_example` |
| C74 | A stack of files that are still being written | Aggregate over readers whose reads see what each file holds at that moment (Model/MultiLive). An invariant over all calls (reader unchanged up to its cache; a cached bitmap is the one it would load) with the lemmas of C61 reduces it to Aggregate over files that do not change; for readers opened across a Finalize the readable blocks are those of the older index (C49), the bitmap that of the newer header (C62). | proved | `MultiLive.C74_snapshot`, `MultiLive.C74_aggregate`, `MultiLive.C74_newestWins`, `MultiLive.C74_leftOut`, `MultiLive.C74_refuted` |
| C75 | The example programs from the command line to the exit status | The two programs with failing operations and package flag (Model/ExamplesMain). write_example: an invariant on the cursor through the straight-line program shows that its reads succeed whichever writes fail. read_example: a simulation relation to the programs of C56 (same result unless an operation fails), and the flag parser of C68. | proved | `ExampleCmd.C75_lossy`, `ExampleCmd.C75_status`, `ExampleCmd.C75_written`, `ExampleCmd.C75_commands`, `ExampleCmd.C75_untouched`, `ExampleCmd.C75_faults`, `ExampleCmd.C75_session`, `ExampleCmd.C75_usage`, `ExampleCmd.C75_example`, `ExampleCmd.C75_refuted` |
| C76 | Files made by other programs | Spec/Foreign.lean states the layout rules by what bytes stand where. The reader's arithmetic on offsets is followed once for arbitrary placements; the result is the same predicate (blocks delivered, index describes them) from which C10 to C15 and C24 are derived. The files of the writer satisfy the rules by C47's lemmas. | proved | `Foreign.C76_pairs`, `Foreign.C76_aggregate`, `Foreign.C76_bitmap`, `Foreign.C76_stack`, `Foreign.C76_ours`, `Foreign.C76_example_long`, `Foreign.C76_example`, `Foreign.C76_stack_example`, `Foreign.C76_refuted`, `Foreign.C76_conditions`, `Foreign.C76_eleven` |
| C77 | Merging, dropping and reordering the files of a stack | C24's induction over the stack only needs what each reader provides (aggregates and bitmap), which is proved for the three kinds of files; what remains of a concatenation of runs is computed from what remains of the runs. The recipe uses C23 (nothing fails) and C20. | proved | `Merge.C77_replace`, `Merge.C77_merge`, `Merge.C77_single`, `Merge.C77_drop`, `Merge.C77_reorder`, `Merge.C77_compact`, `Merge.C77_example`, `Merge.C77_refuted` |
| C78 | The programs when reads fail | The three programs are modelled a second time on the reader with failing reads (Model/ProgramsIO.lean). C52 gives opening, blocks and aggregates; loops by induction over the blocks. | proved | `ProgramsIO.C78_read`, `ProgramsIO.C78_status`, `ProgramsIO.C78_loadtest`, `ProgramsIO.C78_import`, `ProgramsIO.C78_detect`, `ProgramsIO.C78_filtered`, `ProgramsIO.C78_filtered_refuted`, `ProgramsIO.C78_loadtest_refuted` |
| C79 | A SimpleWriter that is interrupted | A crash at operation n is an environment in which every later operation fails (Crash.lean). Every operation of the SimpleWriter is shown to behave under the crash as without it until the crash, and to leave a prefix state after it; the Finalize part is the core lemma of C27/C46 (finalize_cut, finalize_power). C79_prefix lifts the prefix calculus of C27 (Lemmas/Cuts.lean) to the SimpleWriter; C79_fixedWidth uses the exact documented bytes of a session (C53_layout). | proved | `CutSimple.C79_prefix`, `CutSimple.C79_detected`, `CutSimple.C79_fixedWidth`, `SimpleCrash.C79_whole`, `SimpleCrash.C79_crash`, `SimpleCrash.C79_headerOnly`, `SimpleCrash.C79_unclosed`, `SimpleCrash.C79_raw`, `SimpleCrash.C79_power`, `SimpleCrash.C79_example` |
| C80 | A command-line program that is killed while it writes | A kill at operation n is the crash environment of C27 in the world of C68/C73. The programs' runs are shown to leave the file of the corresponding library calls (C27_whole, C79_whole), where the file left is identified byte by byte: Finalize is split into a part that rewrites the header and a part that only appends (Lemmas/Prefix.lean). C80_writeDetected, C80_writeTame and C80_importDetected follow from C27_detected, C27_fixedWidth and C79_detected. | proved | `Killed.C80_write`, `Killed.C80_writeAgain`, `Killed.C80_refuted`, `Killed.C80_writeExample`, `Killed.C80_import`, `Killed.C80_importAgain`, `Killed.C80_importExample`, `KilledCut.C80_writeDetected`, `KilledCut.C80_writeTame`, `KilledCut.C80_writeUsage`, `KilledCut.C80_importDetected` |
| C81 | Readers shared by goroutines | Third model of the reader: calls are trees of accesses to what is shared (Model/Goroutines.lean), interleaved by an arbitrary schedule. Rely/guarantee argument: a program is sound if it returns a right answer whatever the accesses yield within what other goroutines may do (a cached bitmap is right and stays; only faulty readers fail); every program is shown sound and the invariant is preserved by every step. Workers: any interleaving of their blocks sends the same results in some order. Progress by induction on the tree. | proved | `Goroutines.C81_faulty`, `Goroutines.C81_alone`, `Goroutines.C81_progress`, `Goroutines.C81_closing`, `Goroutines.C81_written`, `Goroutines.C81_example`, `Goroutines.C81_closeOnce`, `Goroutines.C81_afterClose`, `Goroutines.C81_example_close` |
| C82 | Data races between goroutines that share readers | On the model of C81: a data race is a reachable state in which two goroutines are about to access the same field, one of them writing (Spec/Races.lean). A predicate on programs bounds the accesses they can make while the fields keep their values; every call satisfies it and it is preserved by every step. The races are exhibited by schedules constructed for arbitrary readers. | proved | `Goroutines.C82_free`, `Goroutines.C82_untouched`, `Goroutines.C82_race`, `Goroutines.C82_raceEnable`, `Goroutines.C82_opened`, `Goroutines.C82_warm`, `Goroutines.C82_example` |
| C83 | How much work writing is | The functions are written again with a count of the numbers handed to the encoder beside their results (Model/Work.lean), and proved to compute the same results as the model (C83_same); file operations are those the model's environment counts. Bounds by a calculus of operation counts and by induction over the flush loop. | proved | `Work.C83_same`, `Work.C83_block`, `Work.C83_write`, `Work.C83_fresh`, `Work.C83_example`, `Work.C83_million` |
| C84 | Laws that relate the results of different aggregations | Each result is the exact aggregate of the selected pairs (C13, C24); the laws follow by permutations and inclusions of filtered lists. | proved | `Laws.C84_monotone`, `Laws.C84_same`, `Laws.C84_union`, `Laws.C84_split`, `Laws.C84_complement`, `Laws.C84_minus`, `Laws.C84_order`, `Laws.C84_multi`, `Laws.C84_returns`, `Laws.C84_example`, `Laws.C84_multi_example` |
| C85 | Files are reproducible: what reads the same is the same | Both kinds of files are the documented byte string of their blocks (C47, C53), the reader gives the blocks back (C01), so the blocks are equal and only the clock reading is left; for the copy each block fits at its place, because it did so in the original (chain of block offsets), hence C05 says that WriteBlock accepts it whole. | proved | `Repro.C85_identical`, `Repro.C85_sessions`, `Repro.C85_copy`, `Repro.C85_writerFits`, `Repro.C85_simpleFits` |
| C86 | A dump determines the data, and `vibecol write` restores it | Decimal numerals without superfluous zeros are unique (induction over the number) and contain no TAB, newline or comma, so that the text splits in one way; C51 gives the text, C68 the reading of the arguments and the write. | proved | `Dump.C86_dump`, `Dump.C86_injective`, `Dump.C86_restore` |
| C87 | How much the encodings compress | The two size fields of the layout are read from the bytes at the block's offset (layout invariant); the sizes of variable-length numbers are monotone (C37), differences of ascending numbers are no larger than the numbers, induction over the list. | proved | `Compress.C87_ratio`, `Compress.C87_sequential`, `Compress.C87_sorted`, `Compress.C87_example`, `Compress.C87_refuted` |
| C88 | Several writers at a time | Model of many writers with one contents per path and one offset per writer; simulation of the single-writer run by induction over the schedule; for the mixture the bytes outside the blocks are those of the first writer and the blocks those of the second, then the damaged-file lemma of C05. | proved | `ManyWriters.C88_alone`, `ManyWriters.C88_mixed`, `ManyWriters.C88_last`, `ManyWriters.C88_refuted`, `ManyWriters.C88_example` |
| C89 | Open files | `Model/Handles.lean`: constructors with the closing of their file on error paths, and a process with any number of objects. Every method other than the closing ones keeps the file open or closed (structural lemma `Steady`); the accounting is an invariant over the run. For the file that stays open: once there are more recorded positions than blocks, no call removes the difference. | proved | `Handles.C89_constructors`, `Handles.C89_accounting`, `Handles.C89_allClosed`, `Handles.C89_stuck`, `Handles.C89_stuck_example`, `Handles.C89_example` |
| C90 | What a failed Sync may take with it | `Spec/SyncLoss.lean`: runs in which each failed call may be followed by a loss. No writer method looks at the bytes in its file (structural lemma `Blind`), so the run has a twin in which nothing is lost, with the same results and the same index. Acknowledged blocks were synced and no later write touches them, so that no loss can reach them; everything else the reader needs is written by the last Finalize. For `SimpleWriter`: the acknowledged blocks and the buffer together are always exactly what was handed over. | proved | `SyncLoss.C90_acknowledged`, `SyncLoss.C90_refuted`, `SyncLoss.C90_example`, `SyncLossSimple.C90_simple`, `SyncLossSimple.C90_simple_refuted` |
| C91 | A power failure while a command writes | `AfterPower` and `PowerLeft` (Props/PowerCut.lean) put in the place of the output file any file that may remain (Spec/Power.lean). Before `Finalize` nothing reaches beyond the bytes written so far, which are fewer than those of the complete file; from then on C46 applies. For the import (Props/PowerImport.lean): a crashed import leaves what the crashed calls leave, or a file that is too short; then C79_power. C91_refuted: the power fails in the last Sync, and only the footer metadata and the data arrived. | proved | `PowerCut.C91_durable`, `PowerCut.C91_write`, `PowerCut.C91_refuted`, `PowerCut.C91_writeExample`, `PowerCut.C91_durableExample`, `PowerCut.C91_importDurable`, `PowerCut.C91_import`, `PowerCut.C91_importExample` |
<!-- table end -->
