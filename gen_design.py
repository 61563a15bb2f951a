#!/usr/bin/env python3
# Regenerates the per-property table at the end of DESIGN.md (between the markers) from
# properties.jsonl, MANIFEST.json and the dictionary HOW below.
import json,re
HOW={
"C01":"Invariant `Good`-style relation (`Lemmas/Committed`, `WriteBlock`, `Finalize`) between the writer and the list of committed blocks, by induction over the calls; then the reader is run symbolically on the finished bytes.",
"C02":"Positive half from C01; for the others the exact values read back are proved for all inputs, and a file refuting the round trip is exhibited for each.",
"C03":"From the case analysis of WriteBlock (`writeBlock_out`) and C01; the bounds on n in every state.",
"C04":"Index entries of a finalized file (`Laid`) carry the estimate that was compared with the target.",
"C05":"The (linear) search is shown to find the last prefix whose estimate fits (`findOptimal_spec`, monotonicity of the estimate), and the estimate equals the length of the documented block.",
"C06":"Estimate = length of the block image plus padding; frame lemma for all state.",
"C07":"Layout invariant (`Chain`, `Laid`).","C08":"Layout invariant, read through NewReader.",
"C09":"Statistics of the model's loops against order/sum specifications (`ExactStats`).",
"C10":"Fold over index entries against `IsAggregate`; parallel version by C15.",
"C11":"Fold over blocks read back.","C12":"C10 and C11 against the same specification.",
"C13":"Fold over filtered blocks; skipped blocks contribute nothing by the ID range.",
"C14":"Iterator over the index of a finalized file; exact list for every reader.",
"C15":"Merge of per-worker results is a commutative monoid action, chunks partition the blocks; any arrival order.",
"C16":"Small-step machine of spawner, workers, collector, channel and WaitGroup; inductive invariant, decreasing measure, and refinement to the functional model.",
"C17":"From C13 and the zero cases.","C18":"Bitmap bytes in the file are the serialized union of IDs; `LawfulBitmap` round trip.",
"C19":"Simulation: every reader state reachable by calls equals the fresh one up to a right cache.",
"C20":"Simulation between SimpleWriter and the list of accepted batches (`SWOpen`/`SWClosed`), by induction over calls and over the flush recursion.",
"C21":"Same invariant.","C22":"Induction over the later calls.",
"C23":"The recursion is given as a relation `FlushRuns` with a round counter, and shown total with a bound; success without faults by the same invariant.",
"C24":"Fold from newest to oldest; deny bitmap = union of newer ID bitmaps.","C25":"C24 plus uniqueness of keys.",
"C26":"Case analysis on arbitrary bytes.","C27":"A crash is a fault after which nothing runs (`Env.crashAt`); invariants of unfinished files; lengths; a calculus (`Lemmas/Cuts.lean`) in which every program extends the file beyond the header and a cut run leaves a prefix; for fixed-width encodings the documented bytes (C47) show a byte foreign to the magic number every seven bytes.",
"C28":"Direct case analysis in all states.","C29":"Header bytes read back.","C30":"Case analysis.","C31":"Case analysis, `panic` is an explicit outcome.",
"C32":"C01 at every Finalize of the history.","C33":"Invariant with uncommitted tail; position list longer than block count is absorbing.",
"C34":"Invariant as long as the cursor is at the end; evaluation of two concrete fault schedules for the limits.",
"C35":"Symbolic evaluation for an arbitrary list of 2^28 pairs (no enumeration).",
"C36":"Both files determine the same pairs and specification aggregates.","C37":"Induction on the varint encoder against base-128 digit counts.",
"C38":"Case analysis of the decoders on arbitrary bytes.","C39":"`LawfulSort` and the isSorted test.",
"C40":"Interleaving machine for field accesses; invariant on every thread's local state.",
"C41":"Reader index arithmetic with 32-bit wrap-around, symbolic file with 76,695,845 blocks.",
"C42":"C01, C27 composed.","C43":"Sum of lengths over the layout; progress by induction over calls.",
"C44":"Invariant `SWLive`/`SWDone` allowing duplicated prefixes. `C44_early` (repeated Close) is the lossless case of C90's run relation.",
"C45":"Ghost log of writes since the last Sync in the writer state; `MayRemain` describes what a power failure can leave.",
"C46":"Ditto, with the old and new header bytes mixed arbitrarily.",
"C47":"Independent description of the documented format (`Spec/Format.lean`, naturals and integers only) proved equal to the bytes.",
"C48":"Readers of two files that agree outside blocks.","C49":"Fold over blocks skipping errors, arbitrary reader.",
"C50":"Model of cmd/vibecol (`Model/Cli.lean`): argument parsing, runWrite; specification of denoted numbers independent of the parser.",
"C51":"Model of runRead; output text compared with a specification of the text.",
"C53":"Specification `Layout.Run` of call sequences in terms of documented block sizes; simulation between the model and the specification; `Cut.unique`: the specification determines the blocks.",
"C54":"Model of cmd/loadtest (`Model/LoadTest.lean`) with an arbitrary random number generator; the import loop is shown to be a history of SimpleWriter calls, then C20/C21/C23; ranges by induction over the generator.",
"C55":"Model of runAggregate on the file of C54; C10/C11 on it, block statistics shown to be representable.",
"C56":"Model of both programs (`Model/Examples.lean`); the writer is executed symbolically for any clock and checksum function, the reader on any file.",
"C57":"Model of DebugInfo (`Model/Debug.lean`); the text is compared with a relational description (`Spec/Debug.lean`) of the blocks of C47.",
"C58":"The program is modelled line by line on top of the writer, reader and aggregation models; the printed text is written out in Spec/FilterExample.lean. C13 gives the aggregates, the five results are evaluated by the kernel.",
"C59":"Second model of simple_writer.go with arrays, slices, in-place stores, make/copy/append/reslicing (`Model/SharedSlices.lean`); the specification is a machine whose writer takes lists and shares nothing. Simulation: pending slices hold the pending lists in arrays that are not the program's.",
"C60":"Second model of the cache and of MultiReader with bitmaps as pointers into a heap (`Model/SharedBitmaps.lean`); the specification has variables with values and no cache. Simulation for polite programs; a frame invariant for all programs; two counterexamples for impolite ones.",
"C61":"Third model of the reader in which each access finds a file of its own (`Model/Live.lean`, equal to the first one if the file stays the same). After Finalize the writer keeps every byte from 64 to the end (`runCalls_keep`), and all reads of an open reader stay there (C08).",
"C62":"As for C61; the footer is found because its position depends only on the size determined first. The panic for any reader whose header claims more blocks than its index; a concrete run as a counterexample.",
"C63":"Executable model of `float64(int64)`, `float64(int)` and division (IEEE 754, nearest-even) on integers (`Model/Float.lean`). Specification over the rational numbers: `Rounds x y` says that no float64 is nearer to x than y, ties to even. Proved: the model computes such roundings, rounding is a function and monotone, its relative error is at most 2^-53; hence the three errors combine to 2^-51.",
"C64":"`%.2f` modelled on the exact value of the float64 (`fmtFixed2`), specified by `Printed2` (nearest two-decimal number, ties to even, minus sign iff negative), proved for all floats and plugged into C51, C56 and C58, whose theorems hold for every formatting function.",
"C65":"`Model/MultiIO.lean`: the loop of Aggregate over open or closed readers with an oracle of failing reads, and histories of calls. Invariant over histories: each reader is its freshly opened state up to a correct cache, open iff no call closed it. The loop is proved by induction with the deny bitmap equal to all IDs of the newer files, read or not. Specification `visibleRead` (`Spec/MultiIO.lean`). C65_refuted_silent shows the silent empty aggregate is reachable.",
"C66":"`Model/Closing.lean`: runs over all five methods. C66_phases: every such run is a history without Close (to which C01\u2013C49 apply), then at most one closing call, then refused calls. On a closed file every method fails at its first file operation and changes nothing (structural lemma `Dead`). C66_complete combines this with C01 and C45.",
"C67":"On the live model of C61/C62, in which every read sees its own contents. C67_noPanic: the only panics of a reader come from index entries (block sizes, block count), which stem from the file as it was opened (C31 applied to each read). C67_index: the index path reads no byte. C67_truncated, C67_silent, C67_bitmap: reads behind the end give zeros without an error. C67_replaced: a block is decoded from the bytes, the encoding and the entry's offset, size and count, and these agree for equal numbers of pairs. C67_overwritten: the same for a file that is still being written (invariant of the new writer, MaySee of C62), the old index entry having the offset, size and count of the new block (alike_chain of C88).",
"C68":"Model/CommandLine.lean adds main with package flag's parser and a file system (names to contents) around the model of C50/C51. Spec/CommandLine.lean defines by a grammar what an argument list asks for. parse_iff shows that the parser accepts exactly the grammar and yields the last settings, by induction over the arguments in both directions; C68_commands, C68_untouched, C68_session and C68_capacity follow with C50 and C51.",
"C69":"On the disk model of C45/C46 (Disk, MayRemain). Again packages the history; runCalls_synced and runCalls_keep show that at the start of the later Finalize everything is synced and the header is the earlier one; torn_header shows that any mixture of two headers with the same magic, version and encoding is accepted; torn_reads that blocks and footer do the rest. C69_refuted takes the file as long as the new one with zeros beyond the old end.",
"C70":"Model/Memory.lean repeats the reader in a monad that records the size of every make; C70_results proves that erasing the record gives the model of the other properties, newReaderA_req the exact list of requests of NewReader. The bounds follow from the file layout (FileOK): the block index has 56 bytes per block in the file, a block of n pairs takes at least 80+2n bytes, blocks do not overlap.",
"C71":"On the live model of C61/C62. Invariant: each of the first 60 bytes is that of some header with the right magic number, version and encoding (Headed), kept by every call and closed under mixing bytes of different moments; so readHeader accepts it. The footer is found as in C62, the blocks as in C61, the aggregates by C49 (any reader) and C13.",
"C72":"The reader again in a monad that records offset and length of every ReadAt (Model/ReadLog), proved to compute the same results. Reads of a loop over blocks are the concatenation of the blocks' reads if none panics (C31), the slices of the workers concatenate to the list of blocks; where the parts lie follows from C08.",
"C73":"main with Go's flag and strconv (base 0) in Model/LoadTestMain; what command lines and numerals mean is a separate grammar (Spec/LoadTestMain) proved equivalent to the parser in both directions, by induction on the arguments and on the digits with the overflow checks. The session follows from C54 and C55.",
"C74":"Aggregate over readers whose reads see what each file holds at that moment (Model/MultiLive). An invariant over all calls (reader unchanged up to its cache; a cached bitmap is the one it would load) with the lemmas of C61 reduces it to Aggregate over files that do not change; for readers opened across a Finalize the readable blocks are those of the older index (C49), the bitmap that of the newer header (C62).",
"C75":"The two programs with failing operations and package flag (Model/ExamplesMain). write_example: an invariant on the cursor through the straight-line program shows that its reads succeed whichever writes fail. read_example: a simulation relation to the programs of C56 (same result unless an operation fails), and the flag parser of C68.",
"C76":"Spec/Foreign.lean states the layout rules by what bytes stand where. The reader's arithmetic on offsets is followed once for arbitrary placements; the result is the same predicate (blocks delivered, index describes them) from which C10 to C15 and C24 are derived. The files of the writer satisfy the rules by C47's lemmas.",
"C77":"C24's induction over the stack only needs what each reader provides (aggregates and bitmap), which is proved for the three kinds of files; what remains of a concatenation of runs is computed from what remains of the runs. The recipe uses C23 (nothing fails) and C20.",
"C78":"The three programs are modelled a second time on the reader with failing reads (Model/ProgramsIO.lean). C52 gives opening, blocks and aggregates; loops by induction over the blocks.",
"C79":"A crash at operation n is an environment in which every later operation fails (Crash.lean). Every operation of the SimpleWriter is shown to behave under the crash as without it until the crash, and to leave a prefix state after it; the Finalize part is the core lemma of C27/C46 (finalize_cut, finalize_power). C79_prefix lifts the prefix calculus of C27 (Lemmas/Cuts.lean) to the SimpleWriter; C79_fixedWidth uses the exact documented bytes of a session (C53_layout).",
"C80":"A kill at operation n is the crash environment of C27 in the world of C68/C73. The programs' runs are shown to leave the file of the corresponding library calls (C27_whole, C79_whole), where the file left is identified byte by byte: Finalize is split into a part that rewrites the header and a part that only appends (Lemmas/Prefix.lean). C80_writeDetected, C80_writeTame and C80_importDetected follow from C27_detected, C27_fixedWidth and C79_detected.",
"C81":"Third model of the reader: calls are trees of accesses to what is shared (Model/Goroutines.lean), interleaved by an arbitrary schedule. Rely/guarantee argument: a program is sound if it returns a right answer whatever the accesses yield within what other goroutines may do (a cached bitmap is right and stays; only faulty readers fail); every program is shown sound and the invariant is preserved by every step. Workers: any interleaving of their blocks sends the same results in some order. Progress by induction on the tree.",
"C82":"On the model of C81: a data race is a reachable state in which two goroutines are about to access the same field, one of them writing (Spec/Races.lean). A predicate on programs bounds the accesses they can make while the fields keep their values; every call satisfies it and it is preserved by every step. The races are exhibited by schedules constructed for arbitrary readers.",
"C83":"The functions are written again with a count of the numbers handed to the encoder beside their results (Model/Work.lean), and proved to compute the same results as the model (C83_same); file operations are those the model's environment counts. Bounds by a calculus of operation counts and by induction over the flush loop.",
"C84":"Each result is the exact aggregate of the selected pairs (C13, C24); the laws follow by permutations and inclusions of filtered lists.",
"C85":"Both kinds of files are the documented byte string of their blocks (C47, C53), the reader gives the blocks back (C01), so the blocks are equal and only the clock reading is left; for the copy each block fits at its place, because it did so in the original (chain of block offsets), hence C05 says that WriteBlock accepts it whole.",
"C86":"Decimal numerals without superfluous zeros are unique (induction over the number) and contain no TAB, newline or comma, so that the text splits in one way; C51 gives the text, C68 the reading of the arguments and the write.",
"C87":"The two size fields of the layout are read from the bytes at the block's offset (layout invariant); the sizes of variable-length numbers are monotone (C37), differences of ascending numbers are no larger than the numbers, induction over the list.",
"C88":"Model of many writers with one contents per path and one offset per writer; simulation of the single-writer run by induction over the schedule; for the mixture the bytes outside the blocks are those of the first writer and the blocks those of the second, then the damaged-file lemma of C05.",
"C89":"`Model/Handles.lean`: constructors with the closing of their file on error paths, and a process with any number of objects. Every method other than the closing ones keeps the file open or closed (structural lemma `Steady`); the accounting is an invariant over the run. For the file that stays open: once there are more recorded positions than blocks, no call removes the difference.",
"C90":"`Spec/SyncLoss.lean`: runs in which each failed call may be followed by a loss. No writer method looks at the bytes in its file (structural lemma `Blind`), so the run has a twin in which nothing is lost, with the same results and the same index. Acknowledged blocks were synced and no later write touches them, so that no loss can reach them; everything else the reader needs is written by the last Finalize. For `SimpleWriter`: the acknowledged blocks and the buffer together are always exactly what was handed over.",
"C91":"`AfterPower` and `PowerLeft` (Props/PowerCut.lean) put in the place of the output file any file that may remain (Spec/Power.lean). Before `Finalize` nothing reaches beyond the bytes written so far, which are fewer than those of the complete file; from then on C46 applies. For the import (Props/PowerImport.lean): a crashed import leaves what the crashed calls leave, or a file that is too short; then C79_power. C91_refuted: the power fails in the last Sync, and only the footer metadata and the data arrived.",
"C52":"Second model of the reader with failing reads and an open/closed flag, related to the first one; block-wise fold.",
}
try: exec(open("/verif/design_more.py").read())
except FileNotFoundError: pass
props=[json.loads(l) for l in open("/verif/properties.jsonl")]
man={c["property"]:c for c in json.load(open("/verif/MANIFEST.json"))["claims"]}
rows=["| id | property | modelled / proved how | status | theorems |","|---|---|---|---|---|"]
for p in props:
    c=man[p["id"]]
    rows.append("| %s | %s | %s | %s | %s |"%(p["id"],p["title"],HOW.get(p["id"],"MISSING"),c["status"],", ".join("`%s`"%t.replace("VibeCol.","") for t in c["theorems"])))
d=open("/verif/DESIGN.md").read()
a,b="<!-- table begin -->","<!-- table end -->"
d=d[:d.index(a)+len(a)]+"\n"+"\n".join(rows)+"\n"+d[d.index(b):]
open("/verif/DESIGN.md","w").write(d)
print([p["id"] for p in props if p["id"] not in HOW])
