{
 "claims": [
  {
   "property": "C01",
   "status": "proved",
   "theorems": [
    "VibeCol.C01_roundtrip",
    "VibeCol.C01_accepted",
    "VibeCol.C01_progress"
   ],
   "note": "Symmetric encodings; C01_progress/accepted show that fault-free histories reach the hypotheses."
  },
  {
   "property": "C02",
   "status": "proved",
   "theorems": [
    "VibeCol.C02_deltaID",
    "VibeCol.C02_deltaValue",
    "VibeCol.C02_varIntID",
    "VibeCol.C02_varIntValue",
    "VibeCol.C02_refuted",
    "VibeCol.C02_classification"
   ],
   "note": "Includes the refutation for the four asymmetric encodings."
  },
  {
   "property": "C03",
   "status": "proved",
   "theorems": [
    "VibeCol.C03_blockFull",
    "VibeCol.C03_bounds"
   ],
   "note": ""
  },
  {
   "property": "C04",
   "status": "proved",
   "theorems": [
    "VibeCol.C04_size"
   ],
   "note": ""
  },
  {
   "property": "C05",
   "status": "proved",
   "theorems": [
    "VibeCol.C05_maximal",
    "VibeCol.C05_exact",
    "VibeCol.C05_default"
   ],
   "note": "C05_exact is the exact characterisation; C05_default the numbers for default options."
  },
  {
   "property": "C06",
   "status": "proved",
   "theorems": [
    "VibeCol.C06_noEffect",
    "VibeCol.C06_exact",
    "VibeCol.C06_total"
   ],
   "note": ""
  },
  {
   "property": "C07",
   "status": "proved",
   "theorems": [
    "VibeCol.C07_ends",
    "VibeCol.C07_starts"
   ],
   "note": ""
  },
  {
   "property": "C08",
   "status": "proved",
   "theorems": [
    "VibeCol.C08_extents"
   ],
   "note": ""
  },
  {
   "property": "C09",
   "status": "proved",
   "theorems": [
    "VibeCol.C09_stats",
    "VibeCol.C09_blockHeader",
    "VibeCol.C09_refuted"
   ],
   "note": "Limit at the least int64 refuted by C09_refuted."
  },
  {
   "property": "C10",
   "status": "proved",
   "theorems": [
    "VibeCol.C10_aggregate",
    "VibeCol.C10_parallel",
    "VibeCol.C10_refuted"
   ],
   "note": "Limit at the least int64 refuted by C10_refuted."
  },
  {
   "property": "C11",
   "status": "proved",
   "theorems": [
    "VibeCol.C11_skip"
   ],
   "note": ""
  },
  {
   "property": "C12",
   "status": "proved",
   "theorems": [
    "VibeCol.C12_agree",
    "VibeCol.C12_refuted"
   ],
   "note": ""
  },
  {
   "property": "C13",
   "status": "proved",
   "theorems": [
    "VibeCol.C13_filtered",
    "VibeCol.C13_general"
   ],
   "note": ""
  },
  {
   "property": "C14",
   "status": "proved",
   "theorems": [
    "VibeCol.C14_iterator",
    "VibeCol.C14_exact"
   ],
   "note": ""
  },
  {
   "property": "C15",
   "status": "proved",
   "theorems": [
    "VibeCol.C15_parallel",
    "VibeCol.C15_arbitrary",
    "VibeCol.C15_refuted",
    "VibeCol.C15_refuted_count"
   ],
   "note": "Parallel footer path on corrupt headers refuted by C15_refuted, parallel reading with a block count above 2^45 by C15_refuted_count."
  },
  {
   "property": "C16",
   "status": "proved",
   "theorems": [
    "VibeCol.C16_progress",
    "VibeCol.C16_finite",
    "VibeCol.C16_safe",
    "VibeCol.C16_refines",
    "VibeCol.C16_sequential",
    "VibeCol.C16_finalized",
    "VibeCol.C16_completes",
    "VibeCol.C16_starts"
   ],
   "note": "Interleaving model; C16_refines connects it to the functional model used by C10-C15."
  },
  {
   "property": "C17",
   "status": "proved",
   "theorems": [
    "VibeCol.C17_empty",
    "VibeCol.C17_refuted"
   ],
   "note": "Min/Max of empty aggregates are refuted to be determined."
  },
  {
   "property": "C18",
   "status": "proved",
   "theorems": [
    "VibeCol.C18_bitmap",
    "VibeCol.C18_faulty",
    "VibeCol.C18_refuted"
   ],
   "note": "Under LawfulBitmap."
  },
  {
   "property": "C19",
   "status": "proved",
   "theorems": [
    "VibeCol.C19_transparent"
   ],
   "note": ""
  },
  {
   "property": "C20",
   "status": "proved",
   "theorems": [
    "VibeCol.C20_stream",
    "VibeCol.C20_sized"
   ],
   "note": ""
  },
  {
   "property": "C21",
   "status": "proved",
   "theorems": [
    "VibeCol.C21_accounting",
    "VibeCol.C21_persisted",
    "VibeCol.C20_stream"
   ],
   "note": ""
  },
  {
   "property": "C22",
   "status": "proved",
   "theorems": [
    "VibeCol.C22_closed",
    "VibeCol.SimpleClosed.C22_isClosed",
    "VibeCol.SimpleClosed.C22_example"
   ],
   "note": ""
  },
  {
   "property": "C23",
   "status": "proved",
   "theorems": [
    "VibeCol.C23_terminates",
    "VibeCol.C23_deterministic",
    "VibeCol.C23_succeeds"
   ],
   "note": ""
  },
  {
   "property": "C24",
   "status": "proved",
   "theorems": [
    "VibeCol.C24_newestWins"
   ],
   "note": ""
  },
  {
   "property": "C25",
   "status": "proved",
   "theorems": [
    "VibeCol.C25_lastWriterWins",
    "VibeCol.C25_refuted_duplicates"
   ],
   "note": ""
  },
  {
   "property": "C26",
   "status": "proved",
   "theorems": [
    "VibeCol.C26_validation",
    "VibeCol.C26_rejected"
   ],
   "note": ""
  },
  {
   "property": "C27",
   "status": "proved",
   "theorems": [
    "VibeCol.C27_newWriter",
    "VibeCol.C27_finalize",
    "VibeCol.C27_whole",
    "VibeCol.C27_crash",
    "VibeCol.C27_between",
    "VibeCol.C27_raw",
    "VibeCol.C27_refuted",
    "VibeCol.C27_prefix",
    "VibeCol.C27_detected",
    "VibeCol.C27_fixedWidth",
    "VibeCol.C27_faults",
    "VibeCol.C27_faults_example"
   ],
   "note": "Unconditional rejection is refuted (C27_refuted); exact exception proved; C27_fixedWidth has a hypothesis on the bytes of the serialized bitmap, whose format (sroar) is a parameter."
  },
  {
   "property": "C28",
   "status": "proved",
   "theorems": [
    "VibeCol.C28_writeBlock",
    "VibeCol.C28_estimate",
    "VibeCol.C28_simpleWriter",
    "VibeCol.C28_histories"
   ],
   "note": ""
  },
  {
   "property": "C29",
   "status": "proved",
   "theorems": [
    "VibeCol.C29_accessors",
    "VibeCol.C29_isVarInt",
    "VibeCol.C29_isDelta"
   ],
   "note": ""
  },
  {
   "property": "C30",
   "status": "proved",
   "theorems": [
    "VibeCol.C30_bounds",
    "VibeCol.C30_index_small",
    "VibeCol.C31_getPairs"
   ],
   "note": ""
  },
  {
   "property": "C31",
   "status": "proved",
   "theorems": [
    "VibeCol.C31_refuted_count",
    "VibeCol.C31_newReader",
    "VibeCol.C31_index_in_range",
    "VibeCol.C31_getPairs",
    "VibeCol.C31_getPairs_wellformed",
    "VibeCol.C31_aggregate_sequential",
    "VibeCol.C31_aggregate_parallel",
    "VibeCol.C31_refuted"
   ],
   "note": ""
  },
  {
   "property": "C32",
   "status": "proved",
   "theorems": [
    "VibeCol.C32_every_finalize",
    "VibeCol.C32_succeeds",
    "VibeCol.C01_roundtrip"
   ],
   "note": ""
  },
  {
   "property": "C33",
   "status": "proved",
   "theorems": [
    "VibeCol.C33_contents",
    "VibeCol.C33_stuck"
   ],
   "note": ""
  },
  {
   "property": "C34",
   "status": "proved",
   "theorems": [
    "VibeCol.C34_retry",
    "VibeCol.C34_refuted_finalize",
    "VibeCol.C34_refuted_write"
   ],
   "note": "Both limits refuted by explicit fault schedules."
  },
  {
   "property": "C35",
   "status": "proved",
   "theorems": [
    "VibeCol.C35_refuted",
    "VibeCol.C01_roundtrip"
   ],
   "note": "C35_refuted holds for every list of 2^28 pairs."
  },
  {
   "property": "C36",
   "status": "proved",
   "theorems": [
    "VibeCol.C36_split",
    "VibeCol.C01_roundtrip"
   ],
   "note": ""
  },
  {
   "property": "C37",
   "status": "proved",
   "theorems": [
    "VibeCol.C37_unsigned",
    "VibeCol.C37_signed",
    "VibeCol.C37_bounds",
    "VibeCol.C37_blocks"
   ],
   "note": ""
  },
  {
   "property": "C38",
   "status": "proved",
   "theorems": [
    "VibeCol.C38_aligned",
    "VibeCol.C38_filtered",
    "VibeCol.C48_varint"
   ],
   "note": ""
  },
  {
   "property": "C39",
   "status": "proved",
   "theorems": [
    "VibeCol.C39_sorted",
    "VibeCol.C39_buffer",
    "VibeCol.C20_stream"
   ],
   "note": ""
  },
  {
   "property": "C40",
   "status": "proved",
   "theorems": [
    "VibeCol.C40_enabled",
    "VibeCol.C40_disabled",
    "VibeCol.C40_refuted",
    "VibeCol.C40_solo"
   ],
   "note": "Atomic field accesses assumed; with Disable a nil bitmap is possible (C40_refuted)."
  },
  {
   "property": "C41",
   "status": "proved",
   "theorems": [
    "VibeCol.C41_prefix",
    "VibeCol.C41_refuted",
    "VibeCol.C09_stats",
    "VibeCol.C08_extents"
   ],
   "note": ""
  },
  {
   "property": "C42",
   "status": "proved",
   "theorems": [
    "VibeCol.C42_extend"
   ],
   "note": ""
  },
  {
   "property": "C43",
   "status": "proved",
   "theorems": [
    "VibeCol.C43_size",
    "VibeCol.C43_progress"
   ],
   "note": ""
  },
  {
   "property": "C44",
   "status": "proved",
   "theorems": [
    "VibeCol.C44_nothing_lost",
    "VibeCol.C44_refuted",
    "VibeCol.SyncLossSimple.C44_early"
   ],
   "note": "Exactly-once is refuted (C44_refuted)."
  },
  {
   "property": "C45",
   "status": "proved",
   "theorems": [
    "VibeCol.C45_current",
    "VibeCol.C45_writeBlock",
    "VibeCol.C45_finalize",
    "VibeCol.C45_finalized",
    "VibeCol.C45_kept",
    "VibeCol.C45_close"
   ],
   "note": "Power-failure model of Spec/Power.lean: the contents of the file. The directory entry is assumed to survive; the code never syncs the directory."
  },
  {
   "property": "C46",
   "status": "proved",
   "theorems": [
    "VibeCol.C46_recovers",
    "VibeCol.C46_refuted_bitmap",
    "VibeCol.C46_refuted_empty"
   ],
   "note": "Recovery under surviving index and footer; limits hold after every history."
  },
  {
   "property": "C47",
   "status": "proved",
   "theorems": [
    "VibeCol.C47_bytes",
    "VibeCol.C47_layout",
    "VibeCol.C47_deterministic"
   ],
   "note": ""
  },
  {
   "property": "C48",
   "status": "proved",
   "theorems": [
    "VibeCol.C48_unnoticed",
    "VibeCol.C48_isolated",
    "VibeCol.C48_undetected",
    "VibeCol.C48_fixed",
    "VibeCol.C48_varint"
   ],
   "note": ""
  },
  {
   "property": "C49",
   "status": "proved",
   "theorems": [
    "VibeCol.C49_skip",
    "VibeCol.C49_filtered",
    "VibeCol.C49_lost"
   ],
   "note": ""
  },
  {
   "property": "C50",
   "status": "proved",
   "theorems": [
    "VibeCol.Cli.C50_arguments",
    "VibeCol.Cli.C50_success",
    "VibeCol.Cli.C50_capacity",
    "VibeCol.Cli.C50_refuted"
   ],
   "note": "Flag parsing and error texts not modelled."
  },
  {
   "property": "C51",
   "status": "proved",
   "theorems": [
    "VibeCol.Cli.C51_read"
   ],
   "note": "Avg formatting is a parameter (instantiated in C64)."
  },
  {
   "property": "C52",
   "status": "proved",
   "theorems": [
    "VibeCol.C52_open",
    "VibeCol.C52_pairs",
    "VibeCol.C52_bitmap",
    "VibeCol.C52_aggregate",
    "VibeCol.C52_closed_silent",
    "VibeCol.C52_footer",
    "VibeCol.C52_close",
    "VibeCol.C52_closeAll"
   ],
   "note": ""
  },
  {
   "property": "C53",
   "status": "proved",
   "theorems": [
    "VibeCol.C53_layout",
    "VibeCol.C53_blocks",
    "VibeCol.C53_fits",
    "VibeCol.C53_ordered",
    "VibeCol.Cut.unique"
   ],
   "note": ""
  },
  {
   "property": "C54",
   "status": "proved",
   "theorems": [
    "VibeCol.LoadTest.C54_import",
    "VibeCol.LoadTest.C54_panicked",
    "VibeCol.LoadTest.C54_succeeds",
    "VibeCol.LoadTest.C54_badflags",
    "VibeCol.LoadTest.C54_range",
    "VibeCol.LoadTest.C54_refuted"
   ],
   "note": "Any random number generator; -max-value/-max-id are not maxima (C54_refuted)."
  },
  {
   "property": "C55",
   "status": "proved",
   "theorems": [
    "VibeCol.LoadTest.C55_aggregate"
   ],
   "note": "Timing output not modelled; %.2f of the average is a formal quotient."
  },
  {
   "property": "C56",
   "status": "proved",
   "theorems": [
    "VibeCol.Examples.C56_file",
    "VibeCol.Examples.C56_dump",
    "VibeCol.Examples.C56_foreign",
    "VibeCol.Examples.C56_roundtrip",
    "VibeCol.Examples.C56_agg"
   ],
   "note": "crc64 and %.2f are parameters; I/O faults of these programs are the subject of C75."
  },
  {
   "property": "C57",
   "status": "proved",
   "theorems": [
    "VibeCol.C57_debug",
    "VibeCol.C57_once"
   ],
   "note": ""
  },
  {
   "property": "C58",
   "status": "proved",
   "theorems": [
    "VibeCol.FilterExample.C58_example"
   ],
   "note": "`%.2f` is a parameter. What was printed before log.Fatalf is not modelled; temporary file creation and removal are not modelled."
  },
  {
   "property": "C59",
   "status": "proved",
   "theorems": [
    "VibeCol.Shared.C59_separate",
    "VibeCol.Shared.C59_history"
   ],
   "note": "WriteBlock is the function of the contents (it only reads its arguments while it runs). Out-of-bounds accesses of the program are without effect instead of a panic. Programs with data races during a call are outside."
  },
  {
   "property": "C60",
   "status": "proved",
   "theorems": [
    "VibeCol.Pointers.C60_separate",
    "VibeCol.Pointers.C60_uncached",
    "VibeCol.Pointers.C60_untouched",
    "VibeCol.Pointers.C60_shared",
    "VibeCol.Pointers.C60_refuted"
   ],
   "note": "Sequential programs (concurrent ones: C40). Whether sroar's Or works in place is left open; FromBuffer is taken to give a bitmap of its own (the buffer is made by GetGlobalIDBitmap and not used again)."
  },
  {
   "property": "C61",
   "status": "proved",
   "theorems": [
    "VibeCol.C61_snapshot",
    "VibeCol.C61_blocks"
   ],
   "note": "At most the last writer call is a Finalize that reports an I/O error (after such an error the cursor is in the header and the next call overwrites data, C34). Torn reads are covered byte by byte."
  },
  {
   "property": "C62",
   "status": "proved",
   "theorems": [
    "VibeCol.C62_open",
    "VibeCol.C62_mixed",
    "VibeCol.C62_mixed_blocks",
    "VibeCol.C62_panics",
    "VibeCol.C62_mixed_bitmap",
    "VibeCol.C62_refuted"
   ],
   "note": "If the size is determined while a block is being added, NewReader fails unless the data happens to look like a footer (C27). A header read in the middle of its being rewritten is C71."
  },
  {
   "property": "C63",
   "status": "proved",
   "theorems": [
    "VibeCol.C63_average",
    "VibeCol.C63_between",
    "VibeCol.C63_multi",
    "VibeCol.C63_refuted",
    "VibeCol.C63_refuted_overflow"
   ],
   "note": "That Go's conversions and division are those of IEEE 754 (Go specification; amd64 SSE2) is part of the trusted base."
  },
  {
   "property": "C64",
   "status": "proved",
   "theorems": [
    "VibeCol.C64_read",
    "VibeCol.C64_error",
    "VibeCol.C64_example",
    "VibeCol.C64_readExample",
    "VibeCol.C64_minusZero"
   ],
   "note": "That package fmt rounds the exact binary value to nearest-even decimals is its documented behaviour and is trusted."
  },
  {
   "property": "C65",
   "status": "proved",
   "theorems": [
    "VibeCol.MultiIO.C65_aggregate",
    "VibeCol.MultiIO.C65_noStale",
    "VibeCol.MultiIO.C65_recovers",
    "VibeCol.MultiIO.C65_closed",
    "VibeCol.MultiIO.C65_afterClose",
    "VibeCol.MultiIO.C65_refuted_silent"
   ],
   "note": "Hypotheses of C24 (symmetric encodings, at most maxBlocks blocks, bitmap below 4 GiB per file)."
  },
  {
   "property": "C66",
   "status": "proved",
   "theorems": [
    "VibeCol.Closing.C66_refused",
    "VibeCol.Closing.C66_phases",
    "VibeCol.Closing.C66_complete"
   ],
   "note": "C66_complete has the hypotheses of C01 (symmetric encodings, no I/O error reported before, size limits)."
  },
  {
   "property": "C67",
   "status": "proved",
   "theorems": [
    "VibeCol.Overwritten.C67_overwritten",
    "VibeCol.Overwritten.C67_overwritten_example",
    "VibeCol.Replaced.C67_noPanic",
    "VibeCol.Replaced.C67_index",
    "VibeCol.Replaced.C67_truncated",
    "VibeCol.Replaced.C67_silent",
    "VibeCol.Replaced.C67_bitmap",
    "VibeCol.Replaced.C67_replaced",
    "VibeCol.Replaced.C67_unnoticed"
   ],
   "note": "What the bitmap library does with garbage (FromBuffer) is outside the model. C67_index needs the hypotheses of C10. C67_unnoticed and C67_overwritten_example are concrete runs."
  },
  {
   "property": "C68",
   "status": "proved",
   "theorems": [
    "VibeCol.Cmd.C68_commands",
    "VibeCol.Cmd.C68_untouched",
    "VibeCol.Cmd.C68_session",
    "VibeCol.Cmd.C68_capacity",
    "VibeCol.Cmd.C68_usageWrite",
    "VibeCol.Cmd.C68_usageRead",
    "VibeCol.Cmd.C68_example"
   ],
   "note": "File names are identified with files (no links, no two names for one file). Texts of usage and error messages are not modelled. The command line of loadtest is C73. The hypotheses of C50/C51 (at most 2^27 pairs, file below 2^63 bytes, representable statistics for --agg) appear in C68_session."
  },
  {
   "property": "C69",
   "status": "proved",
   "theorems": [
    "VibeCol.PowerAgain.C69_recovers",
    "VibeCol.PowerAgain.C69_oldLength",
    "VibeCol.PowerAgain.C69_refuted"
   ],
   "note": "The guarantee is conditional (C69_recovers, C69_oldLength); C69_refuted proves that it fails without the condition."
  },
  {
   "property": "C70",
   "status": "proved",
   "theorems": [
    "VibeCol.Memory.C70_results",
    "VibeCol.Memory.C70_finalized",
    "VibeCol.Memory.C70_anyFile",
    "VibeCol.Memory.C70_refuted",
    "VibeCol.Memory.C70_results_all",
    "VibeCol.Memory.C70_parallel",
    "VibeCol.Memory.C70_stack",
    "VibeCol.Memory.C70_example_parallel"
   ],
   "note": "Counted are the sizes passed to make; not counted are fixed-size objects, goroutines, the growth of slices by append and the bitmap library. C70_refuted proves the failure on corrupt files for every count."
  },
  {
   "property": "C71",
   "status": "proved",
   "theorems": [
    "VibeCol.Torn.C71_opens",
    "VibeCol.Torn.C71_blocks",
    "VibeCol.Torn.C71_aggregate"
   ],
   "note": "Further calls have blocks of at most 2^27 pairs. Not described: the ID bitmap of such a reader (if the eight bytes of its offset are torn, it is read from a place at which no bitmap was written). Aggregating from the index with two or more workers panics if the count found is greater than the number of blocks (C62_panics)."
  },
  {
   "property": "C72",
   "status": "proved",
   "theorems": [
    "VibeCol.ReadLog.C72_results",
    "VibeCol.ReadLog.C72_indexOnly",
    "VibeCol.ReadLog.C72_anyFile",
    "VibeCol.ReadLog.C72_open",
    "VibeCol.ReadLog.C72_pairs",
    "VibeCol.ReadLog.C72_aggregate",
    "VibeCol.ReadLog.C72_bitmap",
    "VibeCol.ReadLog.C72_within",
    "VibeCol.ReadLog.C72_multi"
   ],
   "note": "The reads of parallel workers are listed worker by worker; in which order they happen is up to the scheduler. Stat and Open are not counted as reads."
  },
  {
   "property": "C73",
   "status": "proved",
   "theorems": [
    "VibeCol.LoadCmd.C73_numerals",
    "VibeCol.LoadCmd.C73_commands",
    "VibeCol.LoadCmd.C73_untouched",
    "VibeCol.LoadCmd.C73_session",
    "VibeCol.LoadCmd.C73_succeeds",
    "VibeCol.LoadCmd.C73_reproducible",
    "VibeCol.LoadCmd.C73_usage",
    "VibeCol.LoadCmd.C73_example"
   ],
   "note": "File names are identified with files (no links, no two names for one file). Texts of usage, error messages and progress are not modelled. The file must be at most maxFileSize bytes (about 314 GB), which C73_succeeds proves up to 70 million values if the bitmap takes less than 2^32 bytes; with -skip-cache=false -max-value at most 2^35 (see C55)."
  },
  {
   "property": "C74",
   "status": "proved",
   "theorems": [
    "VibeCol.MultiLive.C74_snapshot",
    "VibeCol.MultiLive.C74_aggregate",
    "VibeCol.MultiLive.C74_newestWins",
    "VibeCol.MultiLive.C74_leftOut",
    "VibeCol.MultiLive.C74_refuted"
   ],
   "note": "C74_refuted is a finding about the code: an ID that counts with neither value. Not covered: a header that is read while it is being rewritten (C71 describes such readers alone). The serialized bitmap of each file must fit its 32-bit length field, as in C24."
  },
  {
   "property": "C75",
   "status": "proved",
   "theorems": [
    "VibeCol.ExampleCmd.C75_lossy",
    "VibeCol.ExampleCmd.C75_status",
    "VibeCol.ExampleCmd.C75_written",
    "VibeCol.ExampleCmd.C75_commands",
    "VibeCol.ExampleCmd.C75_untouched",
    "VibeCol.ExampleCmd.C75_faults",
    "VibeCol.ExampleCmd.C75_session",
    "VibeCol.ExampleCmd.C75_usage",
    "VibeCol.ExampleCmd.C75_example",
    "VibeCol.ExampleCmd.C75_refuted"
   ],
   "note": "C75_lossy and C75_refuted are findings about the code (errors of binary.Write are ignored). Texts of error messages are not modelled; crc64 is a parameter."
  },
  {
   "property": "C76",
   "status": "proved",
   "theorems": [
    "VibeCol.Foreign.C76_pairs",
    "VibeCol.Foreign.C76_aggregate",
    "VibeCol.Foreign.C76_bitmap",
    "VibeCol.Foreign.C76_stack",
    "VibeCol.Foreign.C76_ours",
    "VibeCol.Foreign.C76_example_long",
    "VibeCol.Foreign.C76_example",
    "VibeCol.Foreign.C76_stack_example",
    "VibeCol.Foreign.C76_refuted",
    "VibeCol.Foreign.C76_conditions",
    "VibeCol.Foreign.C76_eleven"
   ],
   "note": "C76_refuted, C76_conditions and C76_eleven are findings (document and reader disagree, or the document leaves a choice that the reader does not have)."
  },
  {
   "property": "C77",
   "status": "proved",
   "theorems": [
    "VibeCol.Merge.C77_replace",
    "VibeCol.Merge.C77_merge",
    "VibeCol.Merge.C77_single",
    "VibeCol.Merge.C77_drop",
    "VibeCol.Merge.C77_reorder",
    "VibeCol.Merge.C77_compact",
    "VibeCol.Merge.C77_example",
    "VibeCol.Merge.C77_refuted"
   ],
   "note": "C77_refuted is a finding about files that are not neighbours. Of an empty answer Min and Max mean nothing (C17)."
  },
  {
   "property": "C78",
   "status": "proved",
   "theorems": [
    "VibeCol.ProgramsIO.C78_read",
    "VibeCol.ProgramsIO.C78_status",
    "VibeCol.ProgramsIO.C78_loadtest",
    "VibeCol.ProgramsIO.C78_import",
    "VibeCol.ProgramsIO.C78_detect",
    "VibeCol.ProgramsIO.C78_filtered",
    "VibeCol.ProgramsIO.C78_filtered_refuted",
    "VibeCol.ProgramsIO.C78_loadtest_refuted"
   ],
   "note": "C78_loadtest_refuted and C78_filtered_refuted are findings: errors of reads are not reported by aggregations. A failing Close is ignored by the programs (deferred)."
  },
  {
   "property": "C79",
   "status": "proved",
   "theorems": [
    "VibeCol.CutSimple.C79_prefix",
    "VibeCol.CutSimple.C79_detected",
    "VibeCol.CutSimple.C79_fixedWidth",
    "VibeCol.SimpleCrash.C79_whole",
    "VibeCol.SimpleCrash.C79_crash",
    "VibeCol.SimpleCrash.C79_headerOnly",
    "VibeCol.SimpleCrash.C79_unclosed",
    "VibeCol.SimpleCrash.C79_raw",
    "VibeCol.SimpleCrash.C79_power",
    "VibeCol.SimpleCrash.C79_example"
   ],
   "note": "The third case of C79_crash (without the hypothesis of C79_detected) and the second of C79_unclosed are possible in the code: NewReader decides by the last 8 bytes. C79_power asks for the complete footer; a lost footer is C79_unclosed/C26."
  },
  {
   "property": "C80",
   "status": "proved",
   "theorems": [
    "VibeCol.Killed.C80_write",
    "VibeCol.Killed.C80_writeAgain",
    "VibeCol.Killed.C80_refuted",
    "VibeCol.Killed.C80_writeExample",
    "VibeCol.Killed.C80_import",
    "VibeCol.Killed.C80_importAgain",
    "VibeCol.Killed.C80_importExample",
    "VibeCol.KilledCut.C80_writeDetected",
    "VibeCol.KilledCut.C80_writeTame",
    "VibeCol.KilledCut.C80_writeUsage",
    "VibeCol.KilledCut.C80_importDetected"
   ],
   "note": "The last case is possible in the code: NewReader decides by the last 8 bytes. C80_refuted is the loss of the old contents (os.Create truncates)."
  },
  {
   "property": "C81",
   "status": "proved",
   "theorems": [
    "VibeCol.Goroutines.C81_faulty",
    "VibeCol.Goroutines.C81_alone",
    "VibeCol.Goroutines.C81_progress",
    "VibeCol.Goroutines.C81_closing",
    "VibeCol.Goroutines.C81_written",
    "VibeCol.Goroutines.C81_example",
    "VibeCol.Goroutines.C81_closeOnce",
    "VibeCol.Goroutines.C81_afterClose",
    "VibeCol.Goroutines.C81_example_close"
   ],
   "note": "The two unsynchronised fields are taken to be atomic and sequentially consistent, which Go promises only for programs without data races (C82 says which these are); DisableGlobalIDBitmapCaching is not among the calls, since with it GetGlobalIDBitmap can return nil (C40). Bitmaps are values here; programs that change a shared one are C60."
  },
  {
   "property": "C82",
   "status": "proved",
   "theorems": [
    "VibeCol.Goroutines.C82_free",
    "VibeCol.Goroutines.C82_untouched",
    "VibeCol.Goroutines.C82_race",
    "VibeCol.Goroutines.C82_raceEnable",
    "VibeCol.Goroutines.C82_opened",
    "VibeCol.Goroutines.C82_warm",
    "VibeCol.Goroutines.C82_example"
   ],
   "note": "Go guarantees sequential consistency for programs whose sequentially consistent executions have no data race, so under the conditions of C82 the assumption of C81 that field accesses are atomic and sequentially consistent is justified. DisableGlobalIDBitmapCaching is not among the calls."
  },
  {
   "property": "C83",
   "status": "proved",
   "theorems": [
    "VibeCol.Work.C83_same",
    "VibeCol.Work.C83_block",
    "VibeCol.Work.C83_write",
    "VibeCol.Work.C83_fresh",
    "VibeCol.Work.C83_example",
    "VibeCol.Work.C83_million"
   ],
   "note": "The work counted is the IDs and values given to encodeData (delta and varint encoding are linear in them) and the operations on the file. Sorting, copying slices and the bitmap are not counted. K is (target size - 80) / 16, or / 2 for the variable-length encodings."
  },
  {
   "property": "C84",
   "status": "proved",
   "theorems": [
    "VibeCol.Laws.C84_monotone",
    "VibeCol.Laws.C84_same",
    "VibeCol.Laws.C84_union",
    "VibeCol.Laws.C84_split",
    "VibeCol.Laws.C84_complement",
    "VibeCol.Laws.C84_minus",
    "VibeCol.Laws.C84_order",
    "VibeCol.Laws.C84_multi",
    "VibeCol.Laws.C84_returns",
    "VibeCol.Laws.C84_example",
    "VibeCol.Laws.C84_multi_example"
   ],
   "note": "Minimum and maximum of an empty selection are not determined (C17), so results are compared as a whole only if the count is not 0."
  },
  {
   "property": "C85",
   "status": "proved",
   "theorems": [
    "VibeCol.Repro.C85_identical",
    "VibeCol.Repro.C85_sessions",
    "VibeCol.Repro.C85_copy",
    "VibeCol.Repro.C85_writerFits",
    "VibeCol.Repro.C85_simpleFits"
   ],
   "note": "C85_identical, C85_sessions, C85_copy; C85_writerFits and C85_simpleFits discharge its size condition."
  },
  {
   "property": "C86",
   "status": "proved",
   "theorems": [
    "VibeCol.Dump.C86_dump",
    "VibeCol.Dump.C86_injective",
    "VibeCol.Dump.C86_restore"
   ],
   "note": ""
  },
  {
   "property": "C87",
   "status": "proved",
   "theorems": [
    "VibeCol.Compress.C87_ratio",
    "VibeCol.Compress.C87_sequential",
    "VibeCol.Compress.C87_sorted",
    "VibeCol.Compress.C87_example",
    "VibeCol.Compress.C87_refuted"
   ],
   "note": "C87_refuted shows what is not guaranteed."
  },
  {
   "property": "C88",
   "status": "proved",
   "theorems": [
    "VibeCol.ManyWriters.C88_alone",
    "VibeCol.ManyWriters.C88_mixed",
    "VibeCol.ManyWriters.C88_last",
    "VibeCol.ManyWriters.C88_refuted",
    "VibeCol.ManyWriters.C88_example"
   ],
   "note": "C88_mixed and C88_refuted show what is not guaranteed. Calls are atomic in the model."
  },
  {
   "property": "C89",
   "status": "proved",
   "theorems": [
    "VibeCol.Handles.C89_constructors",
    "VibeCol.Handles.C89_accounting",
    "VibeCol.Handles.C89_allClosed",
    "VibeCol.Handles.C89_stuck",
    "VibeCol.Handles.C89_stuck_example",
    "VibeCol.Handles.C89_example"
   ],
   "note": "C89_stuck shows what is not guaranteed. Open files are those not closed by a call; that the Go runtime closes the file of an unreachable os.File is not modelled."
  },
  {
   "property": "C90",
   "status": "proved",
   "theorems": [
    "VibeCol.SyncLoss.C90_acknowledged",
    "VibeCol.SyncLoss.C90_refuted",
    "VibeCol.SyncLoss.C90_example",
    "VibeCol.SyncLossSimple.C90_simple",
    "VibeCol.SyncLossSimple.C90_simple_refuted"
   ],
   "note": "C90_refuted and C90_simple_refuted show what is not guaranteed. Encodings 0, 3, 4 and 7."
  },
  {
   "property": "C91",
   "status": "proved",
   "theorems": [
    "VibeCol.PowerCut.C91_durable",
    "VibeCol.PowerCut.C91_write",
    "VibeCol.PowerCut.C91_refuted",
    "VibeCol.PowerCut.C91_writeExample",
    "VibeCol.PowerCut.C91_durableExample",
    "VibeCol.PowerCut.C91_importDurable",
    "VibeCol.PowerCut.C91_import",
    "VibeCol.PowerCut.C91_importExample"
   ],
   "note": "The creation (or truncation) of the output file is taken to have reached the disk: the code never syncs the directory, and the model has no directories. C91_refuted shows what is not guaranteed."
  }
 ]
}