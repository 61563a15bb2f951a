{"id": "C01", "title": "Write/read round trip for the four symmetric encodings", "statement": "If a file is created with WithEncoding(Raw, DeltaBoth, VarInt or VarIntBoth), any sequence of WriteBlock calls is made and Finalize returns nil, then NewReader on the file succeeds, BlockCount() is the number of blocks persisted, and GetPairs(i) returns exactly the IDs and values of the i-th persisted block, in order, without error.", "quantifier": "every list of blocks, every ID in uint64 and value in int64 (unsorted, duplicated, extreme), every block-size target, every clock value, for calls of at most 2^27 pairs, at most 76,695,844 blocks (see C41) and files below 2^63 bytes; \"finalized file\" means the same in the other properties", "why_tests_cant": "the space of ID/value sequences and block splits is unbounded; tests sample a few hand-picked arrays", "anchors": ["pkg/col/writer_block_io.go:WriteBlock", "pkg/col/writer_finalize.go:Finalize", "pkg/col/reader.go:NewReader", "pkg/col/reader_block.go:readBlock", "pkg/col/reader_decode.go:decodeBlockData"]}
{"id": "C02", "title": "Which encodings round-trip: exactly four of the eight documented ones", "statement": "A documented encoding type guarantees that every finalized file returns from GetPairs exactly the acknowledged pairs if and only if it is Raw, DeltaBoth, VarInt or VarIntBoth. For the other four: a DeltaID file returns the right IDs but the consecutive differences of the values, a DeltaValue file the right values but the consecutive differences of the IDs, and VarIntID/VarIntValue accept a block only when the lengths of its varints happen to sum to eight bytes per pair; for each of the four there is a file for which WriteBlock and Finalize return nil and which does not read back.", "quantifier": "every documented encoding type and every block of pairs (finalized files as in C01)", "why_tests_cant": "needs the cross product of encodings and data; the repository has no test that writes DeltaID, DeltaValue, VarIntID or VarIntValue files, and the failing cases depend on exact varint lengths", "anchors": ["pkg/col/writer_encoding.go:encodeData", "pkg/col/reader_decode.go:decodeBlockData", "pkg/col/writer_block_io.go:writeBlockInternal"]}
{"id": "C03", "title": "BlockFullError contract", "statement": "When WriteBlock returns BlockFullError{n}, 1 <= n < len(ids), exactly one block holding the first n pairs was appended, and nothing else about the file's earlier blocks changed.", "quantifier": "every history of calls without I/O errors in a symmetric encoding, every pair list (at most 2^27 pairs), every block-size target; the bounds on n for every writer state whatever", "why_tests_cant": "the cut position depends on varint widths, the current file offset and page padding; unbounded combinations", "anchors": ["pkg/col/writer_block_io.go:BlockFullError", "pkg/col/writer_block_io.go:WriteBlock"]}
{"id": "C04", "title": "Block size never exceeds the target except for a single pair", "statement": "Every block persisted by WriteBlock occupies at most the configured block size on disk, padding included, unless the block holds a single pair.", "quantifier": "every history, pair list (at most 2^27 pairs) and target (finalized files as in C01, every encoding)", "why_tests_cant": "depends on all data-dependent encoded sizes and file offsets", "anchors": ["pkg/col/writer_block_io.go:WriteBlock", "pkg/col/writer_block_io.go:EstimateBlockSize"]}
{"id": "C05", "title": "Where WriteBlock splits a batch", "statement": "When WriteBlock returns BlockFullError{n} and no file operation failed, writing the first n+1 pairs (or any longer prefix) as one block would have exceeded the block size target. More exactly (all encodings but VarIntID and VarIntValue): WriteBlock returns nil if and only if the whole batch, laid out as documented at the end of the file and filled up to a page, fits into the target or is a single pair, and otherwise BlockFullError{n} for the greatest prefix that does; exactly that block is appended. With default options a first block takes up to 1015 pairs and any later one up to 1019.", "quantifier": "every history of calls, pair list (at most 2^27 pairs) and target, without I/O faults", "why_tests_cant": "greedy search is only correct if the size estimate is monotone for all data", "anchors": ["pkg/col/writer_block_io.go:WriteBlock"]}
{"id": "C06", "title": "EstimateBlockSize is exact and has no effect", "statement": "EstimateBlockSize returns exactly the number of bytes by which writing those pairs as one block grows the file, and it changes neither the file nor the writer.", "quantifier": "every history without I/O errors and rejected blocks, every pair list (at most 2^27 pairs), every encoding", "why_tests_cant": "must hold for every width combination and offset", "anchors": ["pkg/col/writer_block_io.go:EstimateBlockSize", "pkg/col/writer_block_io.go:writeBlockInternal"]}
{"id": "C07", "title": "Page alignment", "statement": "Every persisted block ends on a 4096-byte boundary, every block after the first starts on one when no Finalize came in between, and the footer of every finalized file starts on one.", "quantifier": "every history of WriteBlock and Finalize calls (finalized files as in C01, every encoding)", "why_tests_cant": "alignment is an inductive invariant over all histories of offsets", "anchors": ["pkg/col/constants.go:calculatePadding", "pkg/col/writer_block_io.go:writeBlockInternal", "pkg/col/writer_finalize.go:Finalize"]}
{"id": "C08", "title": "Blocks are disjoint, ordered and inside the file", "statement": "In a finalized file the byte extents given by the block index are pairwise disjoint, in increasing order, start after the 64-byte header and end before the footer.", "quantifier": "every history of WriteBlock and Finalize calls (finalized files as in C01, every encoding)", "why_tests_cant": "a global layout invariant over all histories", "anchors": ["pkg/col/writer_block_io.go:writeBlockInternal", "pkg/col/writer_finalize.go:Finalize"]}
{"id": "C09", "title": "Block statistics are exact", "statement": "For each block the index carries the true minimum and maximum ID and the count and, if neither a value nor the wrapped 64-bit sum of the block is the minimum int64, the true minimum, maximum and wrapped sum of its values; the block's own header repeats them. For the block with values [-2^63, 5] the index gives the minimum 0.", "quantifier": "every history of calls, every block, every encoding (finalized files as in C01)", "why_tests_cant": "unbounded data; extreme values break the sign-magnitude storage", "anchors": ["pkg/col/utils.go", "pkg/col/encoding.go:int64ToUint64", "pkg/col/reader_header.go:readFooter"]}
{"id": "C10", "title": "Aggregate() from the footer is exact", "statement": "If no value and no block sum is the minimum int64, Aggregate() returns the exact count, minimum, maximum and wrapped sum of all persisted pairs, and Avg = float64(sum)/float64(count), with any number of workers. Without that condition it is false: for the values [-2^63, 5] it reports the minimum 0.", "quantifier": "every finalized file, every encoding", "why_tests_cant": "the failing inputs are single points of a 2^64 domain", "anchors": ["pkg/col/reader_aggregate.go:AggregateWithOptions", "pkg/col/encoding.go:uint64ToInt64"]}
{"id": "C11", "title": "SkipPreCalculated aggregation is exact for all values", "statement": "AggregateWithOptions{SkipPreCalculated:true} returns the exact count, minimum, maximum and wrapped sum of all pairs in the file for every int64 value including the minimum int64.", "quantifier": "every finalized file in a symmetric encoding, every number of workers and schedule", "why_tests_cant": "all value sequences and all block splits", "anchors": ["pkg/col/reader_aggregate.go:AggregateWithOptions"]}
{"id": "C12", "title": "Footer and reading aggregation agree", "statement": "For a finalized file in which no value and no block sum is the minimum int64, aggregation with and without SkipPreCalculated return the same result, with any number of workers; without that condition they can differ.", "quantifier": "every finalized file in a symmetric encoding, every schedule", "why_tests_cant": "an equality of two code paths over all files", "anchors": ["pkg/col/reader_aggregate.go:AggregateWithOptions"]}
{"id": "C13", "title": "Filtered aggregation semantics", "statement": "With Filter and/or DenyFilter set, the result is the exact aggregate of those pairs whose ID is in Filter (if given) and not in DenyFilter (if given); block skipping never loses or adds a pair.", "quantifier": "every finalized file in a symmetric encoding, every allow and deny bitmap (including empty), every option combination and schedule", "why_tests_cant": "pruning correctness relates every bitmap to every block layout", "anchors": ["pkg/col/reader_aggregate.go:aggregateWithFilter", "pkg/col/reader_aggregate.go:FilteredBlockIterator", "pkg/col/reader_aggregate.go:readBlockFiltered"]}
{"id": "C14", "title": "Block skipping is sound", "statement": "FilteredBlockIterator returns, in strictly increasing order and without out-of-range indices, a list containing every block that holds an ID in the allow filter.", "quantifier": "every finalized file and every pair of bitmaps", "why_tests_cant": "all bitmaps times all files", "anchors": ["pkg/col/reader_aggregate.go:FilteredBlockIterator"]}
{"id": "C15", "title": "Parallel aggregation equals sequential aggregation under every schedule", "statement": "On a finalized file AggregateWithOptions with any non-zero Parallel returns the same result as with Parallel=0, whatever the number of workers, GOMAXPROCS and the order in which workers finish; with a filter this holds for arbitrary file contents too, and with SkipPreCalculated for those whose header claims at most 2^45 blocks. (On a corrupt file whose header claims more blocks than the index has, the parallel footer path panics where the sequential one returns; so does parallel reading beyond 2^45 blocks.)", "quantifier": "every finalized file (or arbitrary bytes), option set, worker count and arrival order of worker results", "why_tests_cant": "goroutine schedules cannot be enumerated by tests", "anchors": ["pkg/col/reader_aggregate.go:aggregateParallel", "pkg/col/reader_aggregate.go:aggregateParallelWithFooter", "pkg/col/reader_aggregate.go:aggregateParallelWithReading"]}
{"id": "C16", "title": "Parallel aggregation protocol safety and progress", "statement": "Under every interleaving of the spawner, workers and collector: a worker's send never blocks and never hits a closed channel, the collector never closes early, some step is always enabled until the result is returned, every execution is finite, and the returned value is the sequential one.", "quantifier": "every interleaving of goroutine steps, every number of workers and blocks", "why_tests_cant": "interleavings are unbounded; tests observe a handful", "anchors": ["pkg/col/reader_aggregate.go:aggregateParallelWithFooter", "pkg/col/reader_aggregate.go:aggregateParallelWithReading"]}
{"id": "C17", "title": "Empty aggregates", "statement": "When no pair contributes, every aggregation reports Count 0, Sum 0 and Avg 0. Min and Max are then not determined: on a file without blocks Aggregate() reports the sentinels 2^63-1 and -2^63 and a filtered aggregate reports 0 and 0.", "quantifier": "every finalized file in a symmetric encoding, every filter and option set that selects no pair", "why_tests_cant": "emptiness arises through many different paths", "anchors": ["pkg/col/reader_aggregate.go:AggregateWithOptions", "pkg/col/reader_aggregate.go:aggregateWithFilter"]}
{"id": "C18", "title": "Global ID bitmap is exactly the set of IDs", "statement": "GetGlobalIDBitmap on a finalized file returns a bitmap that contains an ID if and only if some persisted pair has that ID, provided no WriteBlock failed. If some did, the bitmap still contains the IDs of all blocks in the file and only IDs that were passed to some WriteBlock, but it can contain IDs of which no pair was persisted (example: EncodingVarIntID, WriteBlock([9],[1]) is rejected, the finalized file has no block, and the bitmap contains 9).", "quantifier": "every history of calls, every fault schedule (without failed Finalize calls), every ID, given that the bitmap library round-trips its serialization and that it stays below 4 GiB", "why_tests_cant": "set equality over uint64 for all histories", "anchors": ["pkg/col/writer_finalize.go:writeGlobalIDBitmap", "pkg/col/reader.go:GetGlobalIDBitmap"]}
{"id": "C19", "title": "Bitmap caching is transparent", "statement": "Any sequence of EnableGlobalIDBitmapCaching, DisableGlobalIDBitmapCaching and GetGlobalIDBitmap calls returns from every Get the same outcome as on a fresh reader.", "quantifier": "every sequence of cache operations on any reader", "why_tests_cant": "unbounded call sequences over mutable cache state", "anchors": ["pkg/col/reader.go:GetGlobalIDBitmap", "pkg/col/reader.go:EnableGlobalIDBitmapCaching"]}
{"id": "C20", "title": "SimpleWriter loses, duplicates and reorders nothing", "statement": "After any sequence of Write and SetTargetBlockSize calls and a Close that returned nil, reading all blocks in order yields the concatenation, in call order, of the accepted batches, each sorted by ID.", "quantifier": "every sequence of batches, every target size, every (unstable) sort of equal IDs, symmetric encodings", "why_tests_cant": "histories with partial flushes at data-dependent cut points", "anchors": ["pkg/col/simple_writer.go"]}
{"id": "C21", "title": "SimpleWriter item accounting", "statement": "At every moment TotalItems() equals the number of pairs in persisted blocks, TotalItems() plus the buffered pairs equals the number of pairs accepted, and after a successful Close TotalItems() equals the number accepted.", "quantifier": "every sequence of calls without I/O failure, symmetric encodings", "why_tests_cant": "an invariant over all histories", "anchors": ["pkg/col/simple_writer.go:flushIfNeeded", "pkg/col/simple_writer.go:TotalItems"]}
{"id": "C22", "title": "SimpleWriter closed state", "statement": "After Close returned nil, Write and SetTargetBlockSize return an error and change nothing, and Close returns nil and changes nothing, forever; IsClosed() is true exactly from the first Close that returned nil on, so not after a Close that failed.", "quantifier": "every history before and every sequence of calls after Close", "why_tests_cant": "unbounded call sequences", "anchors": ["pkg/col/simple_writer.go:Close", "pkg/col/simple_writer.go:Write", "pkg/col/simple_writer.go:IsClosed"]}
{"id": "C23", "title": "SimpleWriter flush terminates", "statement": "Write and Close always return: the internal flush retries at most once per pending pair.", "quantifier": "every pending buffer, target size, encoding and fault schedule", "why_tests_cant": "termination cannot be observed by finite tests", "anchors": ["pkg/col/simple_writer.go:flushIfNeeded"]}
{"id": "C24", "title": "MultiReader implements newest-file-wins", "statement": "MultiReader.Aggregate returns the exact aggregate of the pairs that are in the filter (if any) and whose ID occurs in no newer file.", "quantifier": "every list of finalized files in symmetric encodings, every filter and schedule", "why_tests_cant": "all stacks of overlapping files", "anchors": ["pkg/multicol/aggregate.go:Aggregate", "pkg/multicol/aggregate.go:mergeAggregateResults"]}
{"id": "C25", "title": "MultiReader equals last-writer-wins map aggregation", "statement": "If IDs are unique inside each file, MultiReader.Aggregate over the stack equals the aggregate of the map obtained by applying the files as upserts from oldest to newest.", "quantifier": "every list of finalized files in symmetric encodings with distinct IDs per file, every filter and schedule", "why_tests_cant": "refinement to a map over all update histories", "anchors": ["pkg/multicol/aggregate.go:Aggregate"]}
{"id": "C26", "title": "NewReader validation", "statement": "NewReader never returns a reader for a byte string shorter than 24 bytes, whose first 8 bytes are not the magic number, whose version is not 1, or whose last 8 bytes are not the magic number.", "quantifier": "every byte string", "why_tests_cant": "all byte strings", "anchors": ["pkg/col/reader_header.go:readHeader", "pkg/col/reader_header.go:readFooter"]}
{"id": "C27", "title": "Interrupted writes are not mistaken for complete files", "statement": "If the process stops at any file operation (possibly after a partial write) before Finalize has returned, NewReader rejects the file unless its last 8 bytes happen to be the magic number, which for a crash after the block index was written is impossible unless all bytes of the file were already written; then the file is byte for byte the file an undisturbed session produces and reads back completely. From byte 60 on, what is left is always a prefix of the file of the undisturbed session, so that an interruption can be mistaken only if that file contains the magic number between its header and its last 24 bytes. With the raw or delta encoding, IDs and values below 2^47, sums below 2^48, at most 2^24 pairs per block, one Finalize, and a serialized bitmap without seven neighbouring bytes of the magic number it does not, and every interruption is detected. If earlier calls failed and were repeated (but no Finalize failed while rewriting the header), an interrupted Finalize that could have succeeded leaves a file that reads back as the file of the Finalize that succeeds, or is rejected, or was cut off before the footer metadata and happens to end with the magic number. (Unconditional rejection is refuted.)", "quantifier": "every history of WriteBlock calls in a symmetric encoding, every crash point at byte granularity, every clock below 2^48 seconds", "why_tests_cant": "crash points cannot be enumerated by tests", "anchors": ["pkg/col/writer_finalize.go:Finalize", "pkg/col/reader_header.go:readFooter"]}
{"id": "C28", "title": "Rejected input has no effect", "statement": "WriteBlock with mismatched lengths, with no pairs, or on a writer with an unknown encoding type returns an error and leaves the file and the writer unchanged; SimpleWriter.Write with mismatched lengths likewise, and with no pairs returns nil and changes nothing.", "quantifier": "every writer state, every such input, every encoding type above 7", "why_tests_cant": "all states and inputs", "anchors": ["pkg/col/writer_block_io.go:WriteBlock", "pkg/col/simple_writer.go:Write"]}
{"id": "C29", "title": "Header accessors", "statement": "On a finalized file Version() is 1, EncodingType() is the configured encoding, BlockCount() is the number of persisted blocks, and IsVarIntEncoded/IsDeltaEncoded classify the encoding as documented.", "quantifier": "every history and every encoding type", "why_tests_cant": "all histories", "anchors": ["pkg/col/reader.go", "pkg/col/writer_header.go"]}
{"id": "C30", "title": "GetPairs bounds", "statement": "GetPairs with an index outside the block index returns an error, never data and never a panic.", "quantifier": "every reader and every uint64 index", "why_tests_cant": "2^64 indices, including those that become negative as int", "anchors": ["pkg/col/reader_block.go:readBlock"]}
{"id": "C31", "title": "When readers panic on arbitrary bytes", "statement": "NewReader never panics on any byte string. GetPairs panics exactly if the index entry gives a block size below 64 bytes, or one below 80 with an offset that is not rejected as negative; such files exist and are accepted by NewReader. If every index entry gives at least 80 bytes, sequential aggregation returns a result (unless there is a deny filter without allow filter and the header claims more than 2^45 blocks: then it panics, and such files are accepted), and so does parallel aggregation if also the header claims no more blocks than the index has.", "quantifier": "every byte string", "why_tests_cant": "all corrupt files", "anchors": ["pkg/col/reader_block.go:readBlock", "pkg/col/reader_header.go:readFooter"]}
{"id": "C32", "title": "Repeated and interleaved Finalize", "statement": "Finalize may be called repeatedly and interleaved with WriteBlock; after each successful Finalize the file reads back as all blocks persisted so far.", "quantifier": "every history of WriteBlock and Finalize calls without I/O failure, symmetric encodings", "why_tests_cant": "unbounded histories", "anchors": ["pkg/col/writer_finalize.go:Finalize"]}
{"id": "C33", "title": "I/O failure in WriteBlock is never silently finalized", "statement": "Under any I/O fault schedule during WriteBlock calls, if Finalize returns nil then the file reads back as the acknowledged blocks in order, with in between, for some of the WriteBlock calls that reported an I/O error, a block holding a prefix of that call's pairs, and nothing else; once Finalize has reported that positions and blocks do not match, no later Finalize on that writer returns nil.", "quantifier": "every fault schedule (any operation, any partial length) during WriteBlock calls", "why_tests_cant": "fault schedules are unbounded", "anchors": ["pkg/col/writer_block_io.go:writeBlockInternal", "pkg/col/writer_finalize.go:Finalize"]}
{"id": "C34", "title": "Retrying after a failure: what is safe and what is not", "statement": "If calls fail with I/O errors and are repeated in any way, and no Finalize failed while it was rewriting the file header, then a Finalize that returns nil leaves a file that reads back as the acknowledged blocks in order plus, for some WriteBlock calls that reported an I/O error, a block with a prefix of their pairs. Both limits are real: after a Finalize that failed in the header a second Finalize can return nil and leave a file that opens but has lost its block, and repeating a WriteBlock whose Sync failed stores the pairs twice.", "quantifier": "every fault schedule", "why_tests_cant": "needs a fault at a specific operation", "anchors": ["pkg/col/writer_finalize.go:Finalize", "pkg/col/simple_writer.go:Close"]}
{"id": "C35", "title": "4 GiB blocks", "statement": "Blocks accepted by WriteBlock calls of at most 2^27 pairs read back (C01). Above 4 GiB the 32-bit size arithmetic wraps: for every list of exactly 2^28 pairs, raw encoding and the default block size of 16 KiB, WriteBlock and Finalize return nil without any I/O error, the file opens and its index counts the pairs, but GetPairs refuses the block and every aggregate that reads blocks silently counts none of them.", "quantifier": "every list of 2^28 pairs, every filter and option, every number of workers", "why_tests_cant": "needs inputs above 4 GiB", "anchors": ["pkg/col/writer_block_io.go:EstimateBlockSize"]}
{"id": "C36", "title": "Content does not depend on the block split", "statement": "Two files written from the same pair sequence with different block size targets, encodings (symmetric ones) or call boundaries return the same concatenated pairs, and the same aggregates if something contributes (for footer aggregates: if no value or block sum is the minimum int64).", "quantifier": "every pair sequence and every two splits", "why_tests_cant": "all splits of all sequences", "anchors": ["pkg/col/writer_block_io.go:WriteBlock", "pkg/col/reader_aggregate.go:AggregateWithOptions"]}
{"id": "C37", "title": "Compactness of variable-length encoding", "statement": "Under VarInt encoding each ID and each value takes between 1 and 10 bytes, IDs below 128 and values in [-64,63] take exactly one, and a varint-encoded block never needs more than 80+20n bytes before padding.", "quantifier": "every pair list", "why_tests_cant": "all of uint64 and int64", "anchors": ["pkg/col/encoding.go:encodeVarInt", "pkg/col/encoding.go:encodeSignedVarInt"]}
{"id": "C38", "title": "Pairs returned are aligned", "statement": "For fixed-width encodings GetPairs returns equally many IDs and values for any file contents, and for every encoding at most as many IDs as values, so filtered reads never index out of range.", "quantifier": "every reader over any byte string", "why_tests_cant": "all corrupt and intact files", "anchors": ["pkg/col/reader_decode.go:decodeBlockData", "pkg/col/reader_aggregate.go:readBlockFiltered"]}
{"id": "C39", "title": "Sorted batches", "statement": "Every batch passed to SimpleWriter.Write is stored in ascending ID order, as a permutation of the pairs passed (each value stays with its ID).", "quantifier": "every batch and every sort implementation", "why_tests_cant": "all batches", "anchors": ["pkg/col/simple_writer.go:sortByID", "pkg/col/simple_writer.go:isSorted"]}
{"id": "C40", "title": "Concurrent bitmap access", "statement": "Concurrent GetGlobalIDBitmap and EnableGlobalIDBitmapCaching calls on one reader all obtain the file's bitmap under every interleaving. (With concurrent DisableGlobalIDBitmapCaching a nil bitmap can be returned.)", "quantifier": "every interleaving of any number of goroutines", "why_tests_cant": "interleavings cannot be enumerated", "anchors": ["pkg/col/reader.go:GetGlobalIDBitmap", "pkg/col/reader.go:DisableGlobalIDBitmapCaching"]}
{"id": "C41", "title": "Files with more than 76,695,844 blocks", "statement": "However many blocks (below 2^32) a finalized file has, NewReader opens it, BlockCount() is right and the first 76,695,844 blocks read back; up to that number the index gives each block's true extent and statistics. Beyond it the reader's 32-bit index arithmetic wraps: with one more block of one pair each, Aggregate() counts six pairs too many.", "quantifier": "every block count", "why_tests_cant": "files of hundreds of gigabytes cannot be unit-tested", "anchors": ["pkg/col/reader_header.go:readFooter", "pkg/col/writer_finalize.go:Finalize"]}
{"id": "C42", "title": "Writing on after Finalize", "statement": "A WriteBlock after a successful Finalize makes the previously readable file unreadable until the next successful Finalize, which lists old and new blocks (unless the new block exactly fills its page and ends with the magic number).", "quantifier": "every history with Finalize in the middle, every batch, symmetric encodings", "why_tests_cant": "all histories and batches", "anchors": ["pkg/col/writer_block_io.go:WriteBlock", "pkg/col/writer_finalize.go:Finalize", "pkg/col/reader.go:NewReader"]}
{"id": "C43", "title": "File size bound and progress", "statement": "Without I/O faults every sequence of calls in a symmetric encoding can be finalized, and a file finalized once is no larger than a bound linear in the pairs and blocks (page padding, index and bitmap included).", "quantifier": "every call sequence (calls of at most 2^27 pairs)", "why_tests_cant": "all call sequences", "anchors": ["pkg/col/writer_block_io.go:WriteBlock", "pkg/col/writer_finalize.go:Finalize"]}
{"id": "C44", "title": "SimpleWriter loses nothing under faults", "statement": "Under any fault schedule, if some Close returned nil and no Close failed with an I/O error, then the file opens and contains, in order, every batch handed to a Write that returned nil or an I/O error, each sorted, and no pair that was not handed over. If a Close failed before all pairs were written (TotalItems still smaller than the number handed over) and a later Close succeeded, some blocks of the file hold together exactly the batches, in order, and the other blocks only pairs that were handed over. Exactly-once fails: a pair may appear twice (if the Sync of a block fails and Close is repeated).", "quantifier": "every fault schedule, every sequence of batches (2^27 pairs in total), symmetric encodings", "why_tests_cant": "all fault schedules", "anchors": ["pkg/col/simple_writer.go:Write", "pkg/col/simple_writer.go:flushIfNeeded", "pkg/col/simple_writer.go:Close"]}
{"id": "C45", "title": "Durability of acknowledged data", "statement": "When WriteBlock returns nil or BlockFullError, when Finalize returns nil, or when SimpleWriter.Close returns nil, the file as it is then is on stable storage: a power failure can leave nothing else. After any further calls under any faults (a Finalize that failed with an I/O error only as the last one) a power failure can still not change a byte of the blocks acknowledged before. A power failure may keep or lose any part of the bytes written since the last successful Sync. (All this about the contents of the file; that its directory entry survives is not the code's doing, which never syncs the directory.)", "quantifier": "every history, fault schedule and set of surviving writes", "why_tests_cant": "power failures cannot be unit-tested and the surviving subsets cannot be enumerated", "anchors": ["pkg/col/writer_block_io.go:writeBlockInternal", "pkg/col/writer_finalize.go:Finalize", "pkg/col/simple_writer.go:Close"]}
{"id": "C46", "title": "Power failure during Finalize", "statement": "If the power fails during the first Finalize, whatever part of its writes survives: a file of full length whose index and footer survived opens and every acknowledged block reads back, even with the old header or a mixture of the old and the new one. More does not hold: after every such history a file may remain in which all blocks read back but GetGlobalIDBitmap is empty, and one that opens as a file without blocks (Finalize calls Sync only once, at the very end).", "quantifier": "every history and every set of surviving writes", "why_tests_cant": "the surviving subsets cannot be enumerated", "anchors": ["pkg/col/writer_finalize.go:Finalize", "pkg/col/reader_header.go:readFooter"]}
{"id": "C47", "title": "Finalized files have the documented format", "statement": "A file finalized once, in any encoding but VarIntID and VarIntValue, is byte for byte the one described by column_format_spec.md (with its three arithmetic slips corrected, checksums and compression sizes zero, negative statistics as sign and magnitude): it depends only on the options, the acknowledged blocks, the serialized ID bitmap and one reading of the clock. After several Finalize calls the header, the blocks at their indexed offsets, the bitmap and the footer still have that form.", "quantifier": "every call history, every option list, every fault schedule without a reported I/O error", "why_tests_cant": "all histories; a foreign reader of the documented format must be able to read every file", "anchors": ["column_format_spec.md", "pkg/col/writer_header.go:writeHeader", "pkg/col/writer_block.go:writeBlockHeader", "pkg/col/writer_finalize.go:Finalize"]}
{"id": "C48", "title": "Damage inside blocks goes unnoticed but stays isolated", "statement": "Change any bytes inside the block extents of a finalized file: it still opens, with the same block count, index, ID bitmap and unfiltered aggregates (taken from the index), and every block none of whose bytes changed reads back as before. Nothing detects the damage: the pairs of a block can be replaced by any others with equally long encodings, and GetPairs returns them. In fixed-width encodings damaged data never gives an error; in the variable-length encoding missing IDs are made up (their positions) and an error appears only if the very first number is malformed.", "quantifier": "every finalized file and every change of bytes inside blocks", "why_tests_cant": "all corruptions of all files", "anchors": ["pkg/col/reader_block.go:readBlock", "pkg/col/reader_decode.go:decodeBlockData", "pkg/col/reader.go:NewReader"]}
{"id": "C49", "title": "Aggregates over unreadable blocks", "statement": "For any file whatever whose blocks can be read without a panic and whose header claims at most 2^45 blocks, SkipPreCalculated and filtered aggregates, with any number of workers, are the exact aggregates of precisely the blocks for which GetPairs succeeds (with an allow filter: among those whose indexed ID range meets the filter's range); unreadable blocks are left out without an error. In particular, if some blocks of a finalized file are lost (zero layout), reading them is an error, the others read back, and the aggregate is that of the others.", "quantifier": "every byte string accepted by NewReader, every options and schedule", "why_tests_cant": "all corrupt files", "anchors": ["pkg/col/reader_aggregate.go:AggregateWithOptions", "pkg/col/reader_aggregate.go:aggregateWithFilter", "pkg/col/reader_block.go:readBlock"]}
{"id": "C50", "title": "vibecol write", "statement": "`vibecol write` opens its output file only if -ids and -values denote equally many numbers (comma separated decimal uint64 and optionally signed int64, white space around them allowed); otherwise it exits with status 1 and the file is untouched. If it exits with status 0, under any faults, the file holds exactly these pairs in order. Without faults it succeeds exactly up to 1015 pairs; more are refused, after the old contents of the output file were destroyed, and the file left behind cannot be opened.", "quantifier": "all argument strings, all fault schedules", "why_tests_cant": "all strings; the limit comes from the block size, not from anything the command says", "anchors": ["cmd/vibecol/main.go:runWrite", "cmd/vibecol/main.go:main", "pkg/col/writer.go:NewWriter"]}
{"id": "C51", "title": "vibecol read", "statement": "For every finalized file (symmetric encodings), whoever wrote it, `vibecol read` exits with status 0; with --dump it prints every acknowledged pair, in order, one per line, as canonical decimal numbers separated by a TAB, and with --agg count, minimum, maximum and sum of all values (unless a block's minimum or sum is the least int64, see C09).", "quantifier": "all finalized files and flags", "why_tests_cant": "all histories and all 64-bit numbers", "anchors": ["cmd/vibecol/main.go:runRead", "pkg/col/reader_aggregate.go:Aggregate"]}
{"id": "C52", "title": "Read errors and closed readers", "statement": "Whatever reads fail and whenever Close is called: NewReader, GetPairs and GetGlobalIDBitmap return an error or exactly what they return when nothing fails (GetPairs always an error if its read failed or the reader is closed). Aggregates that read blocks (filters, SkipPreCalculated) never report a failed read: they are the exact aggregates of the blocks that could be read, and on a closed reader they return count 0 without an error. Aggregates from the index need no read and stay exact even after Close. Close returns nil only the first time; MultiReader.Close closes every reader and returns nil exactly if all did.", "quantifier": "every finalized file, every sequence of calls, every set of failing reads, every options and schedule", "why_tests_cant": "all read faults in all call sequences", "anchors": ["pkg/col/reader_io.go:readBytesAt", "pkg/col/reader.go:Close", "pkg/col/reader.go:GetPairs", "pkg/col/reader_aggregate.go:AggregateWithOptions", "pkg/multicol/aggregate.go:Close"]}
{"id": "C53", "title": "SimpleWriter block layout", "statement": "Without faults, the blocks a SimpleWriter writes are determined by its input: Write appends the batch, in ascending ID order, to a buffer; as soon as 1000 pairs are buffered (at Close: if any are) the longest beginnings of the buffer whose documented size does not exceed the block size target (or single pairs) become blocks one after the other, until fewer than 1000 (none) are left. SetTargetBlockSize changes the target, modulo 2^32. Until Close the file is a header without blocks followed by exactly these blocks; after Close it is the documented file of these blocks byte for byte, and reading it yields them one by one. If the input comes in ascending ID order, the ID ranges of the blocks follow each other.", "quantifier": "every sequence of calls, every target size, every encoding but VarIntID and VarIntValue, every implementation of sort.Slice", "why_tests_cant": "block boundaries depend on the encoded size of every prefix of the input", "anchors": ["pkg/col/simple_writer.go:flushIfNeeded", "pkg/col/simple_writer.go:Write", "pkg/col/simple_writer.go:Close", "pkg/col/writer_block_io.go:WriteBlock"]}
{"id": "C54", "title": "loadtest import", "statement": "Whatever the seed, flags and disk errors, `loadtest import -n N` that reports success reports N values and N items, and the file opens and holds exactly the generated pairs, batch after batch of up to 10000, each in ascending ID order. Without disk errors it succeeds for every seed whenever -max-value is at least 10 and -max-id is between 1 and 2^63-1; it panics, leaving a readable file of the completed batches, if a random bound is not positive, and always (for N > 0, leaving an empty file) if -max-value <= 0, -max-id = 0 or -max-id >= 2^63. The j-th ID of a batch is below max-id + 10 j and (for -max-value up to 2^62) every value v satisfies -max-value/20 <= v < max-value + max-value/10 - max-value/20; the flags are not maxima.", "quantifier": "every random number generator, every number of values, block size, -max-value, -max-id, every fault schedule", "why_tests_cant": "all seeds; the stream of random draws is unbounded", "anchors": ["cmd/loadtest/main.go:runImport", "pkg/col/simple_writer.go:Write", "pkg/col/simple_writer.go:Close"]}
{"id": "C55", "title": "loadtest aggregate", "statement": "`loadtest aggregate` on the file of a successful `loadtest import -n N` reports version 1, encoding VarIntBoth, Count N, the exact minimum, maximum, sum (mod 2^64) and average of the generated values, and N values in the full scan, for every -parallel and schedule, and with -skip-cache or -max-value up to 2^35.", "quantifier": "every import that succeeded (any seed, flags, faults), every -parallel, -skip-cache and goroutine schedule", "why_tests_cant": "all seeds and schedules", "anchors": ["cmd/loadtest/main.go:runAggregate", "cmd/loadtest/main.go:runAggregations", "pkg/col/reader_aggregate.go:AggregateWithOptions"]}
{"id": "C56", "title": "write_example and read_example", "statement": "write_example writes exactly one file of 396 bytes, determined by the clock and the checksum function (its footer size field is overwritten by the file checksum); read_example, given that file, prints exactly the ten pairs and their statistics. On whatever file read_example opens, -dump succeeds and prints exactly the ten numbers at offset 160 and the ten at offset 240, not looking at counts or offsets, and -agg prints the totals of the index entries at offset 324 (count modulo 2^32, sum modulo 2^64, least minimum, greatest maximum). No file is accepted both by read_example and by the library's NewReader: each rejects the other's for its magic number.", "quantifier": "every clock and checksum function, every byte string, all flags", "why_tests_cant": "all files and all checksum values", "anchors": ["cmd/write_example/main.go:writeFile", "cmd/read_example/main.go:NewReader", "cmd/read_example/main.go:DumpKVPairs", "cmd/read_example/main.go:AggregateFromMetadataOnly"]}
{"id": "C57", "title": "DebugInfo", "statement": "DebugInfo of a finalized file (any encoding but VarIntID and VarIntValue) is exactly the text with the magic numbers, version 1, the number of acknowledged blocks, the encoding, the footer size 4+56n, and for each block in order its number, the offset and size recorded in the index, the number of pairs, the exact minimum and maximum ID, and the exact minimum, maximum and (wrapped) sum of the values, all as canonical decimal numbers (the least int64 is shown as 0). If the file was finalized once, the offsets are 64 and then each the previous offset plus the previous size, and the sizes those of the documented blocks filled up to a page.", "quantifier": "every finalized file (any history of calls and faults), any number of blocks", "why_tests_cant": "all histories and all 64-bit numbers", "anchors": ["pkg/col/reader.go:DebugInfo", "pkg/col/reader_header.go:readFooter"]}
{"id": "C58", "title": "The filtered aggregation example prints the right numbers or an error", "statement": "Whatever operations fail while the file is created, and whatever the scheduler does, examples/filtered_aggregation_example stops with an error or prints exactly the text with Count/Min/Max/Sum 300/10/1000/175850 (no filter), 9/100/650/3720 (allow list), 200/402/1000/125350 (deny list), 100/10/995/62500 (both) and 60/502/870/39250 (ranges minus multiples of five, not using stored statistics), if the reads succeed (see C78 for failing reads). If no file operation fails, it prints that text.", "quantifier": "every sequence of results of the writing operations, every fair schedule of the workers, every bitmap implementation meeting the bitmap laws (with buffers below 4 GiB for up to 300 IDs), every rendering of the average", "why_tests_cant": "A run checks one schedule and one file system; that no failing operation leads to a wrong number needs all of them.", "anchors": ["examples/filtered_aggregation_example.go:main", "examples/filtered_aggregation_example.go:createSampleData", "examples/filtered_aggregation_example.go:printResult"]}
{"id": "C59", "title": "SimpleWriter shares no memory with its caller", "statement": "A program may reuse, overlap and change the slices it passes to SimpleWriter.Write as soon as Write returns: results, file and the program's own arrays are the same as if every call had been given a private copy of the contents at the time of the call. In particular Write never changes the caller's slices (though it sorts), and changes the caller makes later never reach the file.", "quantifier": "every program that makes arrays, loads, stores and calls Write/SetTargetBlockSize/Close in any order, with any slices of its arrays; every capacity the runtime chooses when append grows a slice; every sequence of file operation results; every sorting routine that sorts", "why_tests_cant": "Aliasing bugs show only for particular overlaps, capacities and orders of later stores.", "anchors": ["pkg/col/simple_writer.go:Write", "pkg/col/simple_writer.go:sortByID", "pkg/col/simple_writer.go:flushIfNeeded", "pkg/col/simple_writer.go:Close"]}
{"id": "C60", "title": "Bitmaps are only shared through the cache", "statement": "A program may use bitmaps obtained from GetGlobalIDBitmap, and change them, as if each were its own copy, except that a bitmap obtained while caching is enabled is the reader's cached one: if the program leaves those unchanged, all its calls (GetGlobalIDBitmap, AggregateWithOptions with filters, MultiReader.Aggregate, enabling and disabling caching) return what they would return without any cache. The library itself never changes a bitmap the program holds, neither a filter nor a cached one. If the program does change a cached bitmap, later GetGlobalIDBitmap calls return the changed one and MultiReader.Aggregate counts replaced values.", "quantifier": "every program over any number of readers of any files, with any number of bitmap variables, any in-place changes and any order of calls; Or in place or copying; every schedule of the aggregation workers", "why_tests_cant": "Aliasing shows only for particular orders of enable, get, change and aggregate calls.", "anchors": ["pkg/col/reader.go:GetGlobalIDBitmap", "pkg/col/reader.go:EnableGlobalIDBitmapCaching", "pkg/col/reader.go:DisableGlobalIDBitmapCaching", "pkg/multicol/aggregate.go:Aggregate"]}
{"id": "C61", "title": "A reader is not disturbed by its file being extended", "statement": "Once a reader has been opened on a finalized file, every later call on it (GetPairs, AggregateWithOptions, GetGlobalIDBitmap, enabling and disabling caching) returns exactly what it would return if the file had stayed as it was when Finalize returned nil, although the writer goes on: adds blocks, calls Finalize again, fails or is stopped in the middle of any call.", "quantifier": "every write history before the Finalize, every further sequence of writer calls under any faults, every sequence of reader calls, every moment at which each read happens, with bytes of one read possibly from different moments", "why_tests_cant": "The outcome of a race between a reader and a writer of the same file depends on the moments of the reads.", "anchors": ["pkg/col/reader_block.go:readBlock", "pkg/col/reader.go:GetGlobalIDBitmap", "pkg/col/reader_aggregate.go:AggregateWithOptions", "pkg/col/writer_block_io.go:WriteBlock", "pkg/col/writer_finalize.go:Finalize"]}
{"id": "C62", "title": "A file can be opened while blocks are added to it", "statement": "If NewReader determines the size of a file after a Finalize returned nil, and reads header and footer at any later moments before the next Finalize is called, it returns the same reader as if nothing had been added. If the header is read only after a later Finalize, NewReader still succeeds: the reader delivers exactly the older blocks, in their encoding, but has the newer block count and ID bitmap, and aggregating from the index with two or more workers panics if blocks were added.", "quantifier": "every write history, every further sequence of calls under any faults, every moment at which NewReader's accesses happen", "why_tests_cant": "A race between NewReader and a writer; the harmful interleaving needs a Finalize between two system calls of NewReader.", "anchors": ["pkg/col/reader.go:NewReader", "pkg/col/reader_header.go:readHeader", "pkg/col/reader_header.go:readFooter", "pkg/col/reader_aggregate.go:aggregateParallelWithFooter", "pkg/col/writer_finalize.go:Finalize"]}
{"id": "C63", "title": "Averages are accurate to 2^-51", "statement": "The Avg of every aggregation over finalized files (any options, any number of workers, also over a stack of files) is 0 if no value is selected and otherwise a float64 whose relative error with respect to the arithmetic mean of the selected values is at most 2^-51, provided their sum fits in int64. If the sum (in absolute value) and the count are at most 2^53 it is the float64 nearest to the mean (ties to even), and so lies between the smallest and the greatest value. Beyond 2^53 it need not: the average of three equal values can exceed their maximum, and if the sum exceeds int64 the average is that of the wrapped sum.", "quantifier": "every write history, every selection of values by filters, all options and schedules, all sums and counts", "why_tests_cant": "Rounding errors appear only for sums beyond 2^53, and the bound is over all pairs of sums and counts.", "anchors": ["pkg/col/reader_aggregate.go:AggregateWithOptions", "pkg/col/reader_aggregate.go:AggregateWithOptions", "pkg/multicol/aggregate.go:Aggregate"]}
{"id": "C64", "title": "Averages are printed correctly rounded", "statement": "`vibecol read --agg` prints as Average a decimal number with two digits after the point such that no other such number is nearer to the float64 average; it differs from the arithmetic mean by at most 1/200 plus 2^-51 of the mean if the sum fits in int64. The filter example prints exactly its documented text with the averages 586.17, 413.33, 626.75, 625.00 and 654.17, and read_example prints 550.00 for the file of write_example. A negative average above -0.005 is printed as -0.00.", "quantifier": "every write history, flags and schedule; every sum and count", "why_tests_cant": "Rounding to two decimals depends on every bit of the average.", "anchors": ["cmd/vibecol/main.go:runRead", "cmd/read_example/main.go", "examples/filtered_aggregation_example.go:printResult"]}
{"id": "C65", "title": "Aggregates over a stack of files when reads fail or readers are closed", "statement": "MultiReader.Aggregate over finalized files never panics, after any calls on the MultiReader or its readers and whatever reads fail. It returns a read error only if a read of a global ID bitmap failed or a reader has been closed; otherwise it returns the exact aggregate of those visible pairs (newest file wins, filter applied) that lie in blocks that could be read. In particular an unreadable newest value is dropped and never replaced by the overwritten value of an older file, and failures leave no trace in later calls. If any reader has been closed and no bitmap cache was enabled, Aggregate returns the error; with cached bitmaps it returns the error or, after MultiReader.Close, silently the empty aggregate.", "quantifier": "every stack of finalized files, every history of calls (Aggregate, Close, and any call on a single reader) with any failing reads, all filters, options and schedules", "why_tests_cant": "The claim is over all subsets of failing reads and all call histories; tests have no failing reads.", "anchors": ["pkg/multicol/aggregate.go:Aggregate", "pkg/multicol/aggregate.go:Close", "pkg/multicol/aggregate.go:mergeAggregateResults", "pkg/col/reader.go:GetGlobalIDBitmap"]}
{"id": "C66", "title": "Closing a writer", "statement": "Close and FinalizeAndClose end the life of a Writer: once Close was called, or FinalizeAndClose got past a successful Finalize, every later call returns an error (never a BlockFullError, so nothing is acknowledged) and neither the file nor what is on stable storage changes any more. A FinalizeAndClose that fails in Finalize leaves the file open and is indistinguishable from a failed Finalize. If FinalizeAndClose returned nil, the file reads back as exactly the blocks acknowledged before it, whatever was called afterwards, and a power failure cannot leave anything else; if only closing the descriptor failed, it returns an error although the file is complete.", "quantifier": "every sequence of WriteBlock, EstimateBlockSize, Finalize, Close and FinalizeAndClose calls, every fault schedule", "why_tests_cant": "The claim is over all call orders including calls after Close and failures inside FinalizeAndClose.", "anchors": ["pkg/col/writer_finalize.go:Close", "pkg/col/writer_finalize.go:FinalizeAndClose", "pkg/col/writer_finalize.go:Finalize", "pkg/col/writer_block_io.go:WriteBlock"]}
{"id": "C67", "title": "A file cut off, overwritten or replaced under an open reader", "statement": "A reader opened on a finalized file never panics, whatever its later reads find in the file: cut off, damaged, overwritten or replaced by another file, before or in the middle of a call. Aggregating without filters and without SkipPreCalculated uses only the index read by NewReader, so it goes on to return the exact aggregate of the blocks the file held when it was opened. If the file was cut off before a block (as a new NewWriter on the same path does), GetPairs of that block returns an error, but filtered aggregations and those with SkipPreCalculated report no error: they return count 0 and sum 0, and GetGlobalIDBitmap returns the bitmap of an empty buffer. A replacement is not noticed: if the new file has the same fixed-width encoding (0 or 3) and as many pairs in each block, GetPairs on the old reader returns the new blocks while Aggregate still returns the old values. More generally, in every symmetric encoding (0, 3, 4 or 7), while a new writer with the same encoding is still overwriting the file: as long as its blocks have as many pairs and as many bytes of IDs and values as the old file's first blocks, GetPairs on the old reader delivers each new block, without an error, from the moment it is acknowledged on, whatever the new writer does next.", "quantifier": "every finalized file, every sequence of reader calls, every contents the file may have at each single read, every schedule", "why_tests_cant": "The claim is over arbitrary contents at every read of every call; tests can only replace a file at a few chosen moments.", "anchors": ["pkg/col/reader_io.go:readBytesAt", "pkg/col/reader.go:GetGlobalIDBitmap", "pkg/col/reader_block.go:readBlock", "pkg/col/reader_aggregate.go:AggregateWithOptions", "pkg/col/writer.go:NewWriter"]}
{"id": "C68", "title": "The vibecol command line, end to end", "statement": "Every command line of vibecol is a write command, a read command, or is rejected without touching a file, with status 0 if it asks for help (-h, -help, --help after settings of flags), 1 if it does not begin with write or read, otherwise 2. Flags may be written -x v, --x v, -x=v, --x=v (switches -x, -x=true, ...), in any order; the last setting wins; everything after `--` or after the first word that is not a flag is ignored (so `vibecol read input.col --agg` reads example.col). No command changes any file except a write command its own output file, and that only if its two lists denote equally many numbers and the file can be created. If a write command ends successfully, then after any further commands none of which writes the same file, every read command for it succeeds and prints exactly the written pairs (--dump) and their aggregates (--agg). Without file system errors write succeeds for non-empty lists of up to 1015 pairs; with more it ends with status 1 and whatever the output file held before is lost: no read command for it works (unless the 1015th value is the magic number of the format).", "quantifier": "every argument list, every contents of the file system, every sequence of commands in between, every file system fault during the write", "why_tests_cant": "Argument lists, file systems and command sequences are unbounded; tests run a few fixed command lines.", "anchors": ["cmd/vibecol/main.go:main", "cmd/vibecol/main.go:runWrite", "cmd/vibecol/main.go:runRead"]}
{"id": "C69", "title": "Power failure during a repeated Finalize", "statement": "A writer that was finalized without error can go on to write blocks and be finalized again. If the power fails at any point of the later Finalize, then whatever of its writes arrived: when the remaining file has full length and its block index and footer arrived, it opens, every acknowledged block (from before and after the first Finalize) reads back and indexes beyond them are refused, even with the old header or an arbitrary mixture of the old and the new header (then BlockCount() may exceed the number of blocks). When Finalize is called twice in a row and nothing arrived beyond the old end of the file, the file reads back exactly, block count included. Not guaranteed: a complete, synced file is put at risk by calling Finalize again. For every such history a power failure in the second call can leave a file that no longer opens.", "quantifier": "every history of writes and Finalize calls without I/O errors, every point of failure in the later Finalize, every subset of its unsynced bytes that reached the disk", "why_tests_cant": "The remaining files are arbitrary mixtures of old and new bytes; no test harness can enumerate them, and a normal test never loses power.", "anchors": ["pkg/col/writer_finalize.go:FinalizeAndClose", "pkg/col/writer_finalize.go:Finalize", "pkg/col/writer_block_io.go:WriteBlock", "pkg/col/reader.go:NewReader", "pkg/col/reader_header.go:readHeader"]}
{"id": "C70", "title": "How much memory reading asks for", "statement": "On a finalized file, NewReader asks for at most as many bytes of memory as the file is long. GetPairs asks for at most nine times the target block size (or nine times 4196 bytes when that is more), however large the file is. GetGlobalIDBitmap and FilteredBlockIterator ask for at most the length of the file, one whole aggregation, with any filters, options and number of workers, for at most eighteen times the length of the file over its whole run, and one over a stack of finalized files for at most nineteen times their total length. On any file whatsoever no single request of NewReader, GetPairs, GetGlobalIDBitmap or a filtered block read reaches 2^38 bytes. Not guaranteed: the number of index entries is not compared with the length of the file, so for every 32-bit number n there is a file of 92 bytes that opens and makes NewReader ask for 56*n and 64*n bytes (half a terabyte for the largest n).", "quantifier": "every finalized file, every block index, every filter and option; every byte string and every reader for the bound on single requests; every 32-bit count for the refutation", "why_tests_cant": "A bound on the memory requested must hold for every file a writer can produce and for arbitrary corrupt files; tests allocate for a handful of small files and would crash, not fail, on the bad one.", "anchors": ["pkg/col/reader.go:NewReader", "pkg/col/reader.go:GetPairs", "pkg/col/reader.go:GetGlobalIDBitmap", "pkg/col/reader_header.go:readFooter", "pkg/col/reader_block.go:readBlock", "pkg/col/reader_decode.go:decodeUVarInts", "pkg/col/reader_aggregate.go:FilteredBlockIterator", "pkg/col/reader_aggregate.go:readBlockFiltered"]}
{"id": "C71", "title": "Opening a file at any moment while its writer finalizes it again", "statement": "If NewReader determines the size of a file after a Finalize returned nil, it succeeds whatever the writer does while NewReader reads header and footer: adds blocks, fails, is stopped in the middle of a call, or finalizes again, so that the header is found half rewritten. The reader has the right encoding and the index of the earlier Finalize: at any later moment it delivers exactly the blocks acknowledged before that Finalize and refuses all other indexes. BlockCount() is the count found in the header or the number of these blocks, whichever is greater. Aggregates with filters or with SkipPreCalculated, with any number of workers and in every schedule, and aggregates from the index without workers, are exact for these blocks (as long as the count does not exceed 2^45).", "quantifier": "every write history before the Finalize, every further sequence of writer calls under any faults, every moment of every read, with bytes of one read (the header too) possibly from different moments; every block index, every aggregation option and schedule", "why_tests_cant": "How the reads of NewReader interleave with the ten small writes by which Finalize rewrites the header cannot be controlled in a test; the claim is for every interleaving and for reads torn at any byte.", "anchors": ["pkg/col/reader.go:NewReader", "pkg/col/reader_header.go:readHeader", "pkg/col/reader_header.go:readFooter", "pkg/col/writer_finalize.go:Finalize", "pkg/col/reader_aggregate.go:AggregateWithOptions"]}
{"id": "C72", "title": "Which parts of a file are read", "statement": "On a finalized file NewReader reads the file header, the last 24 bytes, the number of index entries and the index entries, each once, and not a byte of a block. GetPairs reads the one block asked for (without its 64 byte header), and nothing if there is no such block. An unfiltered aggregation without SkipPreCalculated reads nothing at all, with any number of workers; every other aggregation reads each block it considers exactly once and nothing else: all blocks, or with an allow filter only those whose ID range meets the range of the filter. GetGlobalIDBitmap reads the bitmap and its length. All these parts lie inside the file and do not overlap. MultiReader.Aggregate never uses the index: it reads the considered blocks and the bitmap of every file. Whatever the file, NewReader makes at most four reads, GetPairs one, GetGlobalIDBitmap two (none once it is cached).", "quantifier": "every finalized file (counts: every file and every reader), every block index, filter, aggregation option, number of workers and schedule, every list of files", "why_tests_cant": "That the index spares reading the blocks, that no block is read twice by two workers and that filters skip blocks is a claim about all files, filters and splits of blocks among workers; results alone do not show it.", "anchors": ["pkg/col/reader.go:NewReader", "pkg/col/reader.go:GetPairs", "pkg/col/reader.go:GetGlobalIDBitmap", "pkg/col/reader_io.go:readBytesAt", "pkg/col/reader_header.go:readFooter", "pkg/col/reader_block.go:readBlock", "pkg/col/reader_aggregate.go:AggregateWithOptions", "pkg/col/reader_aggregate.go:aggregateParallel", "pkg/multicol/aggregate.go:Aggregate"]}
{"id": "C73", "title": "The loadtest command line, end to end", "statement": "Every command line of loadtest is an import command, an aggregate command, or is rejected, touching no file and with status 0 for a request for help, 1 if it does not begin with one of the two commands, otherwise 2. Number flags accept exactly the numerals of the Go language that fit in 64 bits (decimal, 0x, 0o, 0b, a leading 0 for octal, underscores between digits; no sign for -max-id), whichever way flags are written (-f v, --f v, -f=v, the last one counts). No file changes except the one an import names, and only if its directory and the file can be created. If an import ends with status 0 it reports as many values generated and written as it was asked for; after any further commands none of which imports to the same file, every aggregate command for it reports the exact count, minimum, maximum, sum and average of the values generated from the seed and finds all of them in its scan, for every value of -skip-cache and -parallel and every schedule. Without file system errors an import with -max-value at least 10 and -max-id from 1 to 2^63-1 ends with status 0. The result reported depends only on the seed, -n, -max-value and -max-id, not on time, file or block size. Note: -n 010 asks for eight values, and -skip-cache false does not switch it off and hides all flags after it.", "quantifier": "every list of arguments, every content of every file, every time, random number generator, schedule and file system behaviour, every series of commands in between", "why_tests_cant": "There are infinitely many ways to write the same flags and infinitely many sessions; which of them mean the same, and that none of them touches another file, no set of runs can show.", "anchors": ["cmd/loadtest/main.go:main", "cmd/loadtest/main.go:runImport", "cmd/loadtest/main.go:runAggregate", "cmd/loadtest/main.go:runAggregations"]}
{"id": "C74", "title": "A stack of files that are still being written", "statement": "MultiReader.Aggregate over files whose writers go on (adding blocks, calling Finalize again, failing or stopped in the middle of any call) never fails. If each reader was opened between two Finalizes of its file, Aggregate returns what it returns if no file had changed since: the exact aggregate over the pairs that pass the filter and whose ID is in no newer file, of the blocks acknowledged before that Finalize; whatever was called on the stack and its readers before, caching enabled or not. If a reader was opened across a Finalize (size determined before, header read after), the blocks added in between are not counted, but their IDs still hide the values of those IDs in older files: no overwritten value counts, but such an ID may count with neither its old nor its new value, so that the result is neither that of the stack before nor that of the stack after.", "quantifier": "every stack of files and their write histories, every further sequence of writer calls under any faults, every sequence of calls on the stack and its readers, every filter and schedule, every moment at which each read happens, with bytes of one read possibly from different moments", "why_tests_cant": "The outcome of races between Aggregate and several writers depends on the moments of the reads; the harmful case needs a Finalize between two system calls of NewReader.", "anchors": ["pkg/multicol/aggregate.go:Aggregate", "pkg/multicol/aggregate.go:NewMultiReader", "pkg/col/reader.go:GetGlobalIDBitmap", "pkg/col/reader.go:NewReader", "pkg/col/reader_aggregate.go:AggregateWithOptions", "pkg/col/writer_finalize.go:Finalize"]}
{"id": "C75", "title": "The example programs from the command line to the exit status", "statement": "Every command line of read_example either asks for exactly one file (example.col by default) and certain operations, or is rejected with status 2 (0 if it asks for help) without reading anything. read_example changes no file; write_example changes no file except example.col, and that only if it can be created. A run of read_example that ends with status 0 printed what a run without failing file operations prints. After an undisturbed write_example and any further runs of both programs whose writing is undisturbed, read_example for the default file prints exactly the ten pairs and/or their statistics unless reading fails. write_example ends with status 0 exactly if example.col can be created and none of its operations other than writes fails, else with status 1 and without claiming anything. But it ignores errors of writes: whichever of its writes fail, it ends with status 0 and claims ten entries; on a full disk it leaves an empty file, and after a single failed write read_example may show, with status 0, a pair that was never written.", "quantifier": "every list of arguments, every content of all files, every choice of operations that fail, in part or entirely, every clock and checksum function, every sequence of runs", "why_tests_cant": "Needs every command line, every combination of failing operations and every sequence of runs; faults of single writes cannot be injected into the programs.", "anchors": ["cmd/read_example/main.go:main", "cmd/read_example/main.go:NewReader", "cmd/read_example/main.go:DumpKVPairs", "cmd/write_example/main.go:main", "cmd/write_example/main.go:writeFile"]}
{"id": "C76", "title": "Files made by other programs", "statement": "Every file laid out as column_format_spec.md says, whoever wrote it, is opened and read back exactly, in the encodings 0, 1, 2, 3, 4 and 7 as documented: GetPairs returns its blocks in the order of the index, all aggregates (any options, workers and schedule) and aggregates over a stack of such files are those of the pairs, GetGlobalIDBitmap returns the stored bitmap. It does not matter whether variable-length numbers are in shortest form (up to ten bytes), where in the file blocks, sections and bitmap lie, what is between them, or what the fields for information (column type, target, compression, time, reserved bytes, block headers, checksums) hold, and the header may count too few blocks. The files of this program in the symmetric encodings are such files. But documented files in the encodings 5 and 6 are read back wrong without an error; an encoding given in a block's own header is ignored (the block may read as empty); statistics of negative values must be sign and magnitude, which the document does not say; and blocks without pairs cannot be read.", "quantifier": "every file that satisfies the layout rules of the document: every number, order and placement of blocks and sections, every padding, every content of the uninterpreted fields, every pairs, all aggregation options and schedules", "why_tests_cant": "Files of this program only ever have one placement; other placements and contents are unboundedly many.", "anchors": ["pkg/col/reader_header.go:readHeader", "pkg/col/reader_header.go:readFooter", "pkg/col/reader_block.go:readBlock", "pkg/col/reader_decode.go:decodeBlockData", "pkg/col/reader.go:GetGlobalIDBitmap", "pkg/col/reader.go:GetPairs", "pkg/col/reader_aggregate.go:AggregateWithOptions"]}
{"id": "C77", "title": "Merging, dropping and reordering the files of a stack", "statement": "In a stack of files any run of neighbouring files can be replaced by other files of which the same pairs remain (a pair remains if no newer file has its ID), in any order: MultiReader.Aggregate answers the same, with every filter, option and schedule. So a run can be merged into one file; in particular writing the remaining pairs, in any batches, with a SimpleWriter of any block size in a symmetric encoding works when nothing fails (all calls return nil, the file opens), and its file can take the place of the run; aggregating a file into which everything was merged answers what the stack answered. A file all of whose IDs occur in newer files can be dropped; neighbouring files without common IDs can be reordered. The files may be finalized by a Writer, closed by a SimpleWriter, or made by another program. Not allowed: merging files that are not neighbours.", "quantifier": "all stacks, all runs in them, all replacements of which the same pairs remain, all batches, block sizes and symmetric encodings, all filters, options and schedules", "why_tests_cant": "It relates two stacks of unbounded length over all contents; tests compare a few.", "anchors": ["pkg/multicol/aggregate.go:Aggregate", "pkg/multicol/aggregate.go:mergeAggregateResults", "pkg/multicol/aggregate.go:NewMultiReader", "pkg/col/simple_writer.go:Write", "pkg/col/simple_writer.go:Close", "pkg/col/reader_aggregate.go:AggregateWithOptions"]}
{"id": "C78", "title": "The programs when reads fail", "statement": "When reads fail, `vibecol read` on any file behaves as if nothing had failed or stops with status 1 after a beginning of the right text; so on a finalized file status 0 means that the text is complete and right, and with --dump the failure of any block's read gives status 1. `loadtest aggregate` ends with status 1 if the file cannot be opened, else with status 0, having printed the exact aggregates of the blocks it could read (of all blocks, if taken from the index), and the true number of values as result of its full scan, or no such line. If it reads the blocks, the printed count is never too large and is right exactly if no read failed, so a count that differs from the scan's reveals a failed read. The filter example stops with an error only if creating or opening its file failed; of the results it prints the first is exact and each other is the exact aggregate of the selected values in the blocks it could read. The silent cases exist: status 0 with a wrong count or text.", "quantifier": "all files (vibecol read), all finalized files and all files of a successful import (loadtest), all sets of failing operations and reads, all options and schedules", "why_tests_cant": "Tests do not make reads fail, and which reads fail is unbounded.", "anchors": ["cmd/vibecol/main.go:runRead", "cmd/loadtest/main.go:runAggregate", "cmd/loadtest/main.go:runAggregations", "examples/filtered_aggregation_example.go:main", "pkg/col/reader_io.go:readBytesAt", "pkg/col/reader_aggregate.go:AggregateWithOptions"]}
{"id": "C79", "title": "A SimpleWriter that is interrupted", "statement": "If the process dies at any file operation of any SimpleWriter session (NewSimpleWriter, any calls of Write, then Close), the file left behind either is byte for byte the file an undisturbed session produces, which holds every accepted batch, readable in call order with ascending IDs in each, or is rejected by NewReader, or was cut off before the footer metadata was begun and happens to end with the magic number; there is never a readable file with only some of the batches and a complete footer. In every case the file left is, from byte 60 on, a prefix of the file an undisturbed session produces; so if that file contains the magic number nowhere between its header and its last 24 bytes, the cut is always noticed. With raw or delta encoding, IDs and values below 2^47 in absolute value, at most 2^24 pairs whose absolute values add up to less than 2^48 and a bitmap with the same kind of bytes, this is so. As long as Close was not called, nothing written is readable: whatever a power failure leaves of the file is rejected, unless the bytes of the last block happen to end with the magic number (for raw encoding: unless some value equals the magic number). After a power failure at any point of the session, a file with the length of the completed file and its footer holds every accepted batch.", "quantifier": "all options with symmetric encodings, all sequences of Write calls, all crash points and numbers of bytes written by the last write, all subsets of unsynced writes that survive a power failure", "why_tests_cant": "Tests do not kill the process or the machine, and crash points and surviving writes are unbounded.", "anchors": ["pkg/col/simple_writer.go:NewSimpleWriter", "pkg/col/simple_writer.go:Write", "pkg/col/simple_writer.go:Close", "pkg/col/simple_writer.go:flushIfNeeded", "pkg/col/writer_finalize.go:Finalize", "pkg/col/writer_block_io.go:WriteBlock"]}
{"id": "C80", "title": "A command-line program that is killed while it writes", "statement": "If `vibecol write` or `loadtest import` is killed - before it creates its output file, or at any file operation of the run, a write possibly having put only some of its bytes into the file - then no other file changes, and the output file is afterwards either what it was before (killed before creating it), or byte for byte the complete file the undisturbed command would have produced, or a file for which every later `read` (`aggregate`) command ends with a nonzero exit status, `read` having printed nothing, or a file cut off before the footer metadata that happens to end with the magic number. This last case does not occur if the complete file contains the magic number nowhere between its header and its last 24 bytes; so it does not occur for `vibecol write` with IDs and values below 2^47 in absolute value and a sum below 2^48 (and a bitmap with the same kind of bytes). Giving the same command again afterwards does exactly what it would have done before the kill. What is not guaranteed: the old contents of the output file survive no kill after its creation; killed at the first file operation, the command leaves an empty file.", "quantifier": "all command lines that ask for a write or an import and would have succeeded, all files existing before, all kill points and numbers of bytes written by the last write, all later read commands", "why_tests_cant": "Tests do not kill the programs, and kill points and command lines are unbounded.", "anchors": ["cmd/vibecol/main.go:runWrite", "cmd/vibecol/main.go:runRead", "cmd/loadtest/main.go:runImport", "cmd/loadtest/main.go:runAggregate", "pkg/col/writer.go:NewWriter", "pkg/col/writer_finalize.go:FinalizeAndClose"]}
{"id": "C81", "title": "Readers shared by goroutines", "statement": "Any number of goroutines share readers of any files, without locks, and call GetPairs, AggregateWithOptions (with any number of workers), GetGlobalIDBitmap, EnableGlobalIDBitmapCaching and MultiReader.Aggregate on them in any interleaving. Every call that returns has returned what the same call returns when it is alone; if some reads fail or readers are closed meanwhile, what it returns alone when some of its reads from those readers fail. For readers of finalized files that is: the pairs that were written, an aggregate of exactly the selected values, the set of the IDs, the aggregate of the pairs visible in the stack - with failing reads or closed readers instead an error, or the aggregate of the blocks that could be read. However many goroutines close a reader, at most one Close returns nil, and once a Close has returned, every GetPairs on that reader that begins later returns the error of a failing read. No call waits for another goroutine: a goroutine that is scheduled again and again gets an answer to every call, even if the others stop for ever.", "quantifier": "all numbers of goroutines and readers, all sequences of calls of each, all interleavings of their file and field accesses and of the workers inside a parallel aggregation, all choices of failing reads, all moments at which a reader is closed", "why_tests_cant": "The number of interleavings is unbounded and a test runs only those the Go scheduler happens to produce.", "anchors": ["pkg/col/reader.go:GetGlobalIDBitmap", "pkg/col/reader.go:GetPairs", "pkg/col/reader.go:Close", "pkg/col/reader.go:EnableGlobalIDBitmapCaching", "pkg/col/reader_io.go:readBytesAt", "pkg/col/reader_aggregate.go:AggregateWithOptions", "pkg/multicol/aggregate.go:Aggregate", "pkg/col/concurrent_test.go"]}
{"id": "C82", "title": "Data races between goroutines that share readers", "statement": "Goroutines share readers without locks. If no reader has caching of its ID bitmap enabled (as NewReader returns them), or if the bitmap of each reader with caching enabled was got once before the goroutines start, and no goroutine calls EnableGlobalIDBitmapCaching, then no goroutine ever writes a field of a reader and there is no data race, whatever else they call. GetPairs, AggregateWithOptions and Close take part in no data race in any case. Otherwise data races do occur: two goroutines that call GetGlobalIDBitmap on a reader with caching enabled and nothing cached can race, and so can two that enable caching.", "quantifier": "all numbers of goroutines and readers, all sequences of calls of each, all interleavings, all reachable states", "why_tests_cant": "The race detector reports only races in executions that happen to be run.", "anchors": ["pkg/col/reader.go:GetGlobalIDBitmap", "pkg/col/reader.go:EnableGlobalIDBitmapCaching", "pkg/col/reader.go:GetPairs", "pkg/col/reader.go:Close", "pkg/col/reader_aggregate.go:AggregateWithOptions", "pkg/multicol/aggregate.go:Aggregate"]}
{"id": "C83", "title": "How much work writing is", "statement": "WriteBlock of n pairs that are written whole encodes exactly 4n numbers and makes 2n+21 or 2n+22 file operations. WriteBlock that returns BlockFullError after k of n pairs encodes between 2n + k(k+1) + 2k and 2n + (k+1)(k+2) + 2k numbers (the split point is searched by encoding 1, 2, 3, ... pairs) and makes between 3k+21 and 3k+23 file operations. One call of SimpleWriter.Write with n pairs is quadratic in n: with c the number of numbers encoded and K the number of pairs a block can hold, n*n <= K*c + 999*999 and c <= n*n + n*(K+8).", "quantifier": "all data, all options, all states of the writer, all environments (also if file operations fail or are short); for SimpleWriter.Write all calls that succeed with up to 2^27 pairs", "why_tests_cant": "A benchmark measures particular sizes on a particular machine; it cannot show a bound, nor that the cost grows with the square of the number of pairs.", "anchors": ["pkg/col/writer_block_io.go:WriteBlock", "pkg/col/writer_block_io.go:EstimateBlockSize", "pkg/col/writer_block_io.go:writeBlockInternal", "pkg/col/writer_encoding.go:encodeData", "pkg/col/simple_writer.go:flushIfNeeded", "pkg/col/simple_writer.go:Write"]}
{"id": "C84", "title": "Laws that relate the results of different aggregations", "statement": "For one finalized file and any bitmaps, option combinations, numbers of workers and schedules: options that let through more IDs cannot lower the count, raise the minimum or lower the maximum; options that let through the same IDs give the same result; the union and the intersection of two selections have together the count and (wrapped) sum of the two; a disjoint union has the counts and sums added up, the smaller minimum and the larger maximum, so that a bitmap as Filter and the same bitmap as DenyFilter split the file; Filter together with DenyFilter takes away the count and sum of what is in both. Aggregates do not depend on the order in which pairs were written. MultiReader.Aggregate obeys the laws of larger filters, union and intersection too.", "quantifier": "every finalized file in a symmetric encoding, every pair of options and bitmaps related as stated, every schedule (for aggregates taken from the index: files in which no value and no block sum is the minimum int64)", "why_tests_cant": "filtered_aggregation_property_test.go checks some of these laws on one random file and a few random filters.", "anchors": ["pkg/col/reader_aggregate.go:AggregateWithOptions", "pkg/col/reader_aggregate.go:aggregateWithFilter", "pkg/col/reader_aggregate.go:FilteredBlockIterator", "pkg/multicol/aggregate.go:Aggregate"]}
{"id": "C85", "title": "Files are reproducible: what reads the same is the same", "statement": "Two files written by this library in a symmetric encoding (by a Writer finalized once, or by a closed SimpleWriter) for which a Reader reports the same encoding, block size target and number of blocks and GetPairs returns the same for every block are byte for byte identical except for the eight bytes of the creation time, and identical if the creation times agree. In particular the bytes depend only on the acknowledged blocks, not on rejected calls, BlockFullErrors, estimates or which writer was used; and writing every block that GetPairs returns to a new Writer with the encoding and target of the header reproduces the file (each WriteBlock returns nil) except for the creation time, provided no block is larger than the target, which is so for every Writer file and every SimpleWriter file whose target was not changed.", "quantifier": "all options, call sequences and clocks of both sessions, all batches and block counts, all lawful bitmap implementations", "why_tests_cant": "It compares every pair of histories that leave the same data; a test compares a few files.", "anchors": ["pkg/col/writer_finalize.go:Finalize", "pkg/col/writer_block_io.go:WriteBlock", "pkg/col/simple_writer.go:Close", "pkg/col/reader.go:GetPairs"]}
{"id": "C86", "title": "A dump determines the data, and `vibecol write` restores it", "statement": "The outputs of `vibecol read --dump` for two finalized files (symmetric encodings) agree apart from the file name exactly if the files have the same number of blocks and the same pairs in the same order. For a file with 1 to 1015 pairs, whatever its encoding, block size and number of blocks, the two columns of the dump, each joined by commas, are arguments with which `vibecol write` succeeds (without I/O errors), and the dump of the file it writes shows the same lines.", "quantifier": "all finalized files, file names, command lines asking for these commands and 64-bit numbers", "why_tests_cant": "All numbers and all files: printing and parsing must be inverse, and no two data sets may look alike.", "anchors": ["cmd/vibecol/main.go:runRead", "cmd/vibecol/main.go:runWrite", "cmd/vibecol/main.go:main"]}
{"id": "C87", "title": "How much the encodings compress", "statement": "In a finalized file the data of a block of n pairs take exactly 16n bytes in the fixed-width encodings (raw and delta) and between 2n and 20n in the others: at best 8 times smaller than raw (the README's \"up to 8x\"), at worst a quarter larger; 80 bytes of header and layout and the padding come on top. If neighbouring IDs ascend by at most 127 and neighbouring values differ by -64 to 63, delta with variable length takes at most 2n+18 bytes, and exactly 2n if the first ID is below 128 and the first value from -64 to 63. For ascending IDs and ascending values that are not negative, delta with variable length never takes more than variable length alone. Not guaranteed otherwise: descending IDs take 10 bytes each as differences, and variable length can be larger than raw.", "quantifier": "every finalized file, every block, every encoding, all IDs and values", "why_tests_cant": "The bound must hold for every sequence of 64-bit numbers; benchmarks measure a few.", "anchors": ["pkg/col/writer_encoding.go:encodeData", "pkg/col/encoding.go:encodeVarInt", "pkg/col/encoding.go:deltaEncode", "pkg/col/writer_block_io.go:WriteBlock"]}
{"id": "C88", "title": "Several writers at a time", "statement": "Any number of writers, in one process or several, on any files, called in any order. A writer on whose file nobody else works after its creation behaves as if it were alone in the world: every call returns what it would return then, and the file becomes byte for byte what it would become then, whatever earlier writers did to that file and whatever other writers do to other files. Earlier writers on the same file may still call EstimateBlockSize and Close, and those whose file is closed may call anything. So the writer created last on a path wins: after its FinalizeAndClose returned nil a reader finds exactly the blocks acknowledged to it. Not guaranteed: there is no lock, so a second writer on a file in use goes unnoticed. If a second writer is created on the file of a first, and writes as many blocks of equal sizes, and then the first calls Finalize, every call returns nil and the file opens, but GetPairs delivers the blocks of the second and Aggregate() the statistics of the first.", "quantifier": "every number of writers, every order of their calls, all files, options, faults; for the mixture all histories of two writers with blocks of equal sizes", "why_tests_cant": "Orders of calls of several writers cannot be enumerated; tests create one writer per temporary file.", "anchors": ["pkg/col/writer.go:NewWriter", "pkg/col/writer_block_io.go:WriteBlock", "pkg/col/writer_finalize.go:Finalize", "pkg/col/writer_finalize.go:FinalizeAndClose", "pkg/col/writer_finalize.go:Close"]}
{"id": "C89", "title": "Open files", "statement": "A process that calls the constructors of Writer, SimpleWriter and Reader and any of their methods in any order, under any faults. A constructor that returns an error leaves no file open, one that returns an object leaves exactly that object's file open. Close of a Writer, a Reader or a MultiReader releases its files whatever it returns; FinalizeAndClose and SimpleWriter.Close do when they return nil. No other call closes a file. So when no constructor panicked, the process has exactly as many files open as objects that are not closed, and none if it has closed all of them. Not guaranteed: a SimpleWriter whose Close once reported a position tracking mismatch, which one transient failure halfway through a block is enough for, can never be closed again, and its file stays open.", "quantifier": "every number of objects, every sequence of constructor and method calls, every fault of every call, all file contents", "why_tests_cant": "Leaks on error paths appear only under faults at particular operations and in particular orders of calls; tests close what they open and inject no faults.", "anchors": ["pkg/col/reader.go:NewReader", "pkg/col/reader.go:Close", "pkg/col/writer.go:NewWriter", "pkg/col/writer_finalize.go:FinalizeAndClose", "pkg/col/writer_finalize.go:Close", "pkg/col/simple_writer.go:Close", "pkg/multicol/aggregate.go:Close"]}
{"id": "C90", "title": "What a failed Sync may take with it", "statement": "An operating system may give up on data whose Sync failed and report success on the next Sync (Linux does). Suppose that after any call that reported an I/O error the file may hold, from then on, anything that a power failure at that moment could have left. If a later Finalize nevertheless returns nil (and no earlier one reported an I/O error), then the file opens, also after a power failure, and every acknowledged block reads back exactly, in the order of acknowledgement. The only other blocks are prefixes of WriteBlock calls that reported an I/O error; these count in BlockCount and in Aggregate without filters. Not guaranteed: such a block may read back without any error as pairs that were never written, even after the call was repeated successfully and Finalize returned nil. The same for SimpleWriter: if some Close returned nil, and every Close that reported an I/O error did so before all pairs were written (TotalItems was still smaller than the number of pairs handed over), then some blocks of the file hold together exactly the batches handed over, each sorted, in order; the other blocks are attempts to write some of these pairs that failed.", "quantifier": "every sequence of calls on a Writer or SimpleWriter (2^27 pairs in total for the latter), every fault of every call, every choice of what is dropped after each failed call, every symmetric encoding and block size", "why_tests_cant": "No test can make an operating system drop pages after a failed fsync; what is lost depends on which of the pages had been written back.", "anchors": ["pkg/col/writer_block_io.go:writeBlockInternal", "pkg/col/writer_block_io.go:WriteBlock", "pkg/col/writer_finalize.go:Finalize", "pkg/col/reader.go:GetPairs", "pkg/col/simple_writer.go:flushIfNeeded", "pkg/col/simple_writer.go:Close"]}
{"id": "C91", "title": "A power failure while a command writes", "statement": "Once `vibecol write` (or `loadtest import`) has ended with status 0, a power failure leaves exactly the files it made, whatever faults it met. If the power fails while a `vibecol write` that would have succeeded is writing, no other file changes; and if (the creation or truncation of the output file having reached the disk) the output file that remains has the length of the complete file and ends with the same 84 bytes (the index of its block and the footer), then every later `read --dump` ends with status 0 and prints exactly the pairs of the command, in order, whatever of the other unsynced writes arrived. The same for `loadtest import`: a file of full length that ends with the same index and footer holds every batch of the generated values. Not guaranteed: for every such `write` command there is a moment at which a power failure may leave a file for which `read --dump` ends with status 0 and prints no pairs at all.", "quantifier": "every command line that asks to write or import, every fault, every moment of the power failure, every file that may remain then", "why_tests_cant": "No test can cut the power at every operation, and what remains depends on which of the pages had been written back.", "anchors": ["cmd/vibecol/main.go:runWrite", "cmd/vibecol/main.go:runRead", "cmd/loadtest/main.go:runImport", "pkg/col/writer_finalize.go:Finalize", "pkg/col/writer_block_io.go:WriteBlock"]}
