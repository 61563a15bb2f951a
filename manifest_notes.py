EXTRA.update({
"C53":["Cut.unique"],
"C35":["C01_roundtrip"],
"C41":["C09_stats","C08_extents"],
"C38":["C48_varint"],
"C39":["C20_stream"],
"C32":["C01_roundtrip"],
"C36":["C01_roundtrip"],
"C30":["C31_getPairs"],
"C21":["C20_stream"],
})
NOTE.update({
"C01":"Symmetric encodings; C01_progress/accepted show that fault-free histories reach the hypotheses.",
"C02":"Includes the refutation for the four asymmetric encodings.",
"C05":"C05_exact is the exact characterisation; C05_default the numbers for default options.",
"C09":"Limit at the least int64 refuted by C09_refuted.",
"C10":"Limit at the least int64 refuted by C10_refuted.",
"C15":"Parallel footer path on corrupt headers refuted by C15_refuted, parallel reading with a block count above 2^45 by C15_refuted_count.",
"C16":"Interleaving model; C16_refines connects it to the functional model used by C10-C15.",
"C17":"Min/Max of empty aggregates are refuted to be determined.",
"C18":"Under LawfulBitmap.",
"C27":"Unconditional rejection is refuted (C27_refuted); exact exception proved; C27_fixedWidth has a hypothesis on the bytes of the serialized bitmap, whose format (sroar) is a parameter.",
"C34":"Both limits refuted by explicit fault schedules.",
"C35":"C35_refuted holds for every list of 2^28 pairs.",
"C40":"Atomic field accesses assumed; with Disable a nil bitmap is possible (C40_refuted).",
"C44":"Exactly-once is refuted (C44_refuted).",
"C45":"Power-failure model of Spec/Power.lean: the contents of the file. The directory entry is assumed to survive; the code never syncs the directory.",
"C46":"Recovery under surviving index and footer; limits hold after every history.",
"C50":"Flag parsing and error texts not modelled.",
"C51":"Avg formatting is a parameter (instantiated in C64).",
"C54":"Any random number generator; -max-value/-max-id are not maxima (C54_refuted).",
"C56":"crc64 and %.2f are parameters; I/O faults of these programs are the subject of C75.",
"C58":"`%.2f` is a parameter. What was printed before log.Fatalf is not modelled; temporary file creation and removal are not modelled.",
"C59":"WriteBlock is the function of the contents (it only reads its arguments while it runs). Out-of-bounds accesses of the program are without effect instead of a panic. Programs with data races during a call are outside.",
"C60":"Sequential programs (concurrent ones: C40). Whether sroar's Or works in place is left open; FromBuffer is taken to give a bitmap of its own (the buffer is made by GetGlobalIDBitmap and not used again).",
"C61":"At most the last writer call is a Finalize that reports an I/O error (after such an error the cursor is in the header and the next call overwrites data, C34). Torn reads are covered byte by byte.",
"C62":"If the size is determined while a block is being added, NewReader fails unless the data happens to look like a footer (C27). A header read in the middle of its being rewritten is C71.",
"C63":"That Go's conversions and division are those of IEEE 754 (Go specification; amd64 SSE2) is part of the trusted base.",
"C64":"That package fmt rounds the exact binary value to nearest-even decimals is its documented behaviour and is trusted.",
"C65":"Hypotheses of C24 (symmetric encodings, at most maxBlocks blocks, bitmap below 4 GiB per file).",
"C66":"C66_complete has the hypotheses of C01 (symmetric encodings, no I/O error reported before, size limits).",
"C67":"What the bitmap library does with garbage (FromBuffer) is outside the model. C67_index needs the hypotheses of C10. C67_unnoticed and C67_overwritten_example are concrete runs.",
"C68":"File names are identified with files (no links, no two names for one file). Texts of usage and error messages are not modelled. The command line of loadtest is C73. The hypotheses of C50/C51 (at most 2^27 pairs, file below 2^63 bytes, representable statistics for --agg) appear in C68_session.",
"C69":"The guarantee is conditional (C69_recovers, C69_oldLength); C69_refuted proves that it fails without the condition.",
"C70":"Counted are the sizes passed to make; not counted are fixed-size objects, goroutines, the growth of slices by append and the bitmap library. C70_refuted proves the failure on corrupt files for every count.",
"C71":"Further calls have blocks of at most 2^27 pairs. Not described: the ID bitmap of such a reader (if the eight bytes of its offset are torn, it is read from a place at which no bitmap was written). Aggregating from the index with two or more workers panics if the count found is greater than the number of blocks (C62_panics).",
"C72":"The reads of parallel workers are listed worker by worker; in which order they happen is up to the scheduler. Stat and Open are not counted as reads.",
"C73":"File names are identified with files (no links, no two names for one file). Texts of usage, error messages and progress are not modelled. The file must be at most maxFileSize bytes (about 314 GB), which C73_succeeds proves up to 70 million values if the bitmap takes less than 2^32 bytes; with -skip-cache=false -max-value at most 2^35 (see C55).",
"C74":"C74_refuted is a finding about the code: an ID that counts with neither value. Not covered: a header that is read while it is being rewritten (C71 describes such readers alone). The serialized bitmap of each file must fit its 32-bit length field, as in C24.",
"C75":"C75_lossy and C75_refuted are findings about the code (errors of binary.Write are ignored). Texts of error messages are not modelled; crc64 is a parameter.",
"C76":"C76_refuted, C76_conditions and C76_eleven are findings (document and reader disagree, or the document leaves a choice that the reader does not have).",
"C77":"C77_refuted is a finding about files that are not neighbours. Of an empty answer Min and Max mean nothing (C17).",
"C78":"C78_loadtest_refuted and C78_filtered_refuted are findings: errors of reads are not reported by aggregations. A failing Close is ignored by the programs (deferred).",
"C79":"The third case of C79_crash (without the hypothesis of C79_detected) and the second of C79_unclosed are possible in the code: NewReader decides by the last 8 bytes. C79_power asks for the complete footer; a lost footer is C79_unclosed/C26.",
"C80":"The last case is possible in the code: NewReader decides by the last 8 bytes. C80_refuted is the loss of the old contents (os.Create truncates).",
"C81":"The two unsynchronised fields are taken to be atomic and sequentially consistent, which Go promises only for programs without data races (C82 says which these are); DisableGlobalIDBitmapCaching is not among the calls, since with it GetGlobalIDBitmap can return nil (C40). Bitmaps are values here; programs that change a shared one are C60.",
"C82":"Go guarantees sequential consistency for programs whose sequentially consistent executions have no data race, so under the conditions of C82 the assumption of C81 that field accesses are atomic and sequentially consistent is justified. DisableGlobalIDBitmapCaching is not among the calls.",
"C83":"The work counted is the IDs and values given to encodeData (delta and varint encoding are linear in them) and the operations on the file. Sorting, copying slices and the bitmap are not counted. K is (target size - 80) / 16, or / 2 for the variable-length encodings.",
"C84":"Minimum and maximum of an empty selection are not determined (C17), so results are compared as a whole only if the count is not 0.",
"C85":"C85_identical, C85_sessions, C85_copy; C85_writerFits and C85_simpleFits discharge its size condition.",
"C87":"C87_refuted shows what is not guaranteed.",
"C88":"C88_mixed and C88_refuted show what is not guaranteed. Calls are atomic in the model.",
"C89":"C89_stuck shows what is not guaranteed. Open files are those not closed by a call; that the Go runtime closes the file of an unreachable os.File is not modelled.",
"C90":"C90_refuted and C90_simple_refuted show what is not guaranteed. Encodings 0, 3, 4 and 7.",
"C91":"The creation (or truncation) of the output file is taken to have reached the disk: the code never syncs the directory, and the model has no directories. C91_refuted shows what is not guaranteed.",
"C55":"Timing output not modelled; %.2f of the average is a formal quotient.",
})
