import Verif.Model.Prim
import Verif.Model.Bitmap
import Verif.Model.Encoding
import Verif.Model.Writer
import Verif.Model.Reader
import Verif.Model.Aggregate
import Verif.Model.SimpleWriter
import Verif.Model.MultiCol
import Verif.Lemmas.BlockFull
import Verif.Lemmas.Bytes
import Verif.Lemmas.Varint
import Verif.Lemmas.Sections
import Verif.Lemmas.WP
import Verif.Lemmas.WriteInternal
import Verif.Lemmas.WriteBlock
import Verif.Lemmas.Finalize
import Verif.Lemmas.Ints
import Verif.Lemmas.FileOK
import Verif.Lemmas.Inv
import Verif.Spec.History
import Verif.Lemmas.Hist
import Verif.Spec.Aggregate
import Verif.Lemmas.Stats
import Verif.Lemmas.Acc
import Verif.Lemmas.Agg
import Verif.Spec.Encodings
import Verif.Spec.Files
import Verif.Lemmas.Par
import Verif.Lemmas.Reads
import Verif.Lemmas.Opened
import Verif.Props.Example
import Verif.Lemmas.Progress
import Verif.Props.RoundTrip
import Verif.Props.Blocks
import Verif.Props.Aggregation
import Verif.Model.Parallel
import Verif.Lemmas.Ids
import Verif.Lemmas.Machine
import Verif.Props.Bitmap
import Verif.Props.Parallel
import Verif.Model.Concurrent
import Verif.Props.Concurrent
import Verif.Spec.Simple
import Verif.Lemmas.Simple
import Verif.Props.Simple
import Verif.Props.SimpleProgress
import Verif.Props.SimpleClosed
import Verif.Lemmas.SimpleFaults
import Verif.Props.SimpleFaults
import Verif.Props.Multi
import Verif.Props.Robust
import Verif.Props.Inputs
import Verif.Lemmas.Crash
import Verif.Props.Crash
import Verif.Lemmas.Cuts
import Verif.Props.Cut
import Verif.Props.CutSimple
import Verif.Lemmas.Refinalize
import Verif.Lemmas.Track
import Verif.Lemmas.Retry
import Verif.Props.Faults
import Verif.Props.Size
import Verif.Props.Large
import Verif.Spec.Power
import Verif.Lemmas.Power
import Verif.Lemmas.PowerFinal
import Verif.Lemmas.PowerRemain
import Verif.Lemmas.Mixed
import Verif.Lemmas.PowerHist
import Verif.Props.Power
import Verif.Spec.Format
import Verif.Lemmas.Format
import Verif.Props.Format
import Verif.Props.Damage
import Verif.Props.Readable
import Verif.Props.Split
import Verif.Model.Cli
import Verif.Spec.Cli
import Verif.Lemmas.Cli
import Verif.Props.Cli
import Verif.Model.ReaderIO
import Verif.Spec.ReadFaults
import Verif.Lemmas.ReadFaults
import Verif.Props.ReadFaults
import Verif.Spec.SimpleLayout
import Verif.Props.SimpleLayout
import Verif.Model.LoadTest
import Verif.Spec.LoadTest
import Verif.Props.LoadTest
import Verif.Model.Examples
import Verif.Spec.Examples
import Verif.Props.Examples
import Verif.Model.Debug
import Verif.Spec.Debug
import Verif.Props.Debug
import Verif.Model.FilterExample
import Verif.Spec.FilterExample
import Verif.Props.FilterExample
import Verif.Model.SharedSlices
import Verif.Spec.SharedSlices
import Verif.Props.SharedSlices
import Verif.Model.SharedBitmaps
import Verif.Spec.SharedBitmaps
import Verif.Props.SharedBitmaps
import Verif.Model.Live
import Verif.Spec.Live
import Verif.Props.Live
import Verif.Model.Float
import Verif.Spec.Float
import Verif.Lemmas.Float
import Verif.Lemmas.FloatOps
import Verif.Props.Float
import Verif.Props.ExamplesAgg
import Verif.Model.MultiIO
import Verif.Spec.MultiIO
import Verif.Props.MultiIO
import Verif.Model.Closing
import Verif.Spec.Closing
import Verif.Props.Closing
import Verif.Props.Replaced
import Verif.Props.CommandLine
import Verif.Props.PowerAgain
import Verif.Model.Memory
import Verif.Props.Memory
import Verif.Props.MemoryParallel
import Verif.Props.Torn
import Verif.Model.ReadLog
import Verif.Props.ReadLog
import Verif.Model.LoadTestMain
import Verif.Spec.LoadTestMain
import Verif.Props.LoadTestMain
import Verif.Model.MultiLive
import Verif.Spec.MultiLive
import Verif.Props.MultiLive
import Verif.Model.ExamplesMain
import Verif.Spec.ExamplesMain
import Verif.Props.ExamplesMain
import Verif.Spec.Foreign
import Verif.Props.Foreign
import Verif.Spec.Merge
import Verif.Props.Merge
import Verif.Model.ProgramsIO
import Verif.Spec.ProgramsIO
import Verif.Props.ProgramsIO
import Verif.Lemmas.SimpleCrash
import Verif.Props.SimpleCrash
import Verif.Tests.Repo
import Verif.Lemmas.Prefix
import Verif.Props.Killed
import Verif.Model.Goroutines
import Verif.Spec.Goroutines
import Verif.Lemmas.Goroutines
import Verif.Props.Goroutines
import Verif.Props.GoroutinesClose
import Verif.Spec.Races
import Verif.Props.Races
import Verif.Model.Work
import Verif.Props.Work
import Verif.Props.Laws
import Verif.Props.KilledCut
import Verif.Props.Repro
import Verif.Props.Dump
import Verif.Props.Compress
import Verif.Props.ManyWriters
import Verif.Props.Overwritten
import Verif.Props.Handles
import Verif.Props.SyncLoss
import Verif.Props.SyncLossSimple
import Verif.Props.RepeatedClose
import Verif.Props.PowerCut
import Verif.Props.PowerImport
