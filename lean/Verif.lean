import Verif.Basic
import Verif.Utils
import Verif.CompCode
import Verif.UtilsLemmas
import Verif.Props.Encoding
import Verif.Seq
import Verif.SeqLemmas
import Verif.SeqSpec
import Verif.Props.Sequence
import Verif.Search
import Verif.Diff
import Verif.Recon
import Verif.ReconLemmas
import Verif.DiffLemmas
import Verif.SearchLemmas
import Verif.DiffSpec
import Verif.WalkLemmas
import Verif.Props.Diff
import Verif.Format
import Verif.FormatSpec
import Verif.FormatLemmas
import Verif.MagicLemmas
import Verif.AcceptLemmas
import Verif.MadeLemmas
import Verif.Props.Format
import Verif.Strm
import Verif.StrmLemmas
import Verif.Props.Stream
import Verif.Blocks
import Verif.BlocksLemmas
import Verif.CacheLemmas
import Verif.CacheRefine
import Verif.Props.Blocks
import Verif.BoundLemmas
import Verif.Props.Bound
import Verif.Cpio
import Verif.CpioLemmas
import Verif.CpioSpec
import Verif.CpioMake
import Verif.CpioAdj
import Verif.CpioRead
import Verif.Props.Cpio
import Verif.OpenFiles
import Verif.OpenFilesSpec
import Verif.OpenFilesLemmas
import Verif.OnceSpec
import Verif.CacheOnce
import Verif.PrelinkFill
import Verif.CacheFiles
import Verif.PrelinkFillLemmas
import Verif.Props.Files
import Verif.Options
import Verif.Props.Options
import Verif.Api
import Verif.Props.Api
import Verif.Prelink
import Verif.PrelinkLemmas
import Verif.Props.Prelink
import Verif.Check
import Verif.CheckLemmas
import Verif.SeqMetaLemmas
import Verif.Props.Check
import Verif.Props.SameFiles
import Verif.CutLemmas
import Verif.Props.Cut
import Verif.Apply
import Verif.Make
import Verif.ApplyLemmas
import Verif.MakeLemmas
import Verif.Props.Apply
import Verif.Patches
import Verif.Props.Patches
import Verif.Codec
import Verif.CodecSpec
import Verif.CodecLemmas
import Verif.Props.Codec
import Verif.ColorLemmas
import Verif.RpmFile
import Verif.RpmFileSpec
import Verif.RpmFileLemmas
import Verif.RpmToy
import Verif.RpmDemo
import Verif.RpmMarkLemmas
import Verif.Props.RpmFile
import Verif.Props.RpmMake
import Verif.Props.Make
import Verif.SafeLemmas
import Verif.ApplySafe
import Verif.Props.Safe
import Verif.MakeSafe
import Verif.Props.SafeMake
import Verif.Own
import Verif.OwnRead
import Verif.OwnReadLemmas
import Verif.OwnCheck
import Verif.OwnCheckLemmas
import Verif.OwnApply
import Verif.OwnBlockLemmas
import Verif.OwnApplyLemmas
import Verif.OwnMake
import Verif.OwnMakeLemmas
import Verif.Props.Own
import Verif.Props.OwnApply
import Verif.Props.OwnMake
import Verif.WriteFault
import Verif.WriteFaultLemmas
import Verif.Props.WriteFault
import Verif.Props.Describe
import Verif.SameLemmas
import Verif.Props.Same
import Verif.EraseLemmas
import Verif.InstalledSafe
import Verif.Props.SafeInstalled
import Verif.OrderSpec
import Verif.OrderLemmas
import Verif.Props.SafeCheck
import Verif.Props.SafeFiles
import Verif.Props.Once
import Verif.Props.CodecErr
import Verif.Props.Identity
import Verif.Props.Checked
import Verif.HistoryLemmas
import Verif.SizeLemmas
import Verif.Threads
import Verif.ThreadLemmas
import Verif.OnlyLemmas
import Verif.Props.History
import Verif.Props.Threads
import Verif.Props.Only
import Verif.KeepSpec
import Verif.KeepLemmas
import Verif.NewcSpec
import Verif.MakeRuns
import Verif.NewcLemmas
import Verif.Props.Keep
import Verif.Props.Newc
import Verif.DeltaSpec
import Verif.DeltaLemmas
import Verif.RebuildLemmas
import Verif.Props.Delta
import Verif.Props.Size
import Verif.Props.Chain
import Verif.Props.BigWrite
import Verif.Names
import Verif.Props.Names
import Verif.PickSpec
import Verif.PickLemmas
import Verif.Props.Pick
import Verif.Props.Adjust
import Verif.Moving
import Verif.Props.Moving
import Verif.Retry
import Verif.Props.Retry
import Verif.Props.Right
import Verif.Props.Consistent
import Verif.DiffWrap
import Verif.Props.DiffWrap
import Verif.Requests
import Verif.RequestsLemmas
import Verif.Props.Requests
import Verif.NamesInstalled
import Verif.Props.NamesInstalled
import Verif.ShortReads
import Verif.Props.ShortReads
import Verif.ShortReadsApi
import Verif.Props.ShortReadsApi
import Verif.Replaced
import Verif.Props.Replaced
import Verif.Props.Either
import Verif.Props.EitherFiles
import Verif.Props.Nameless
import Verif.Props.ReplacedOnly
import Verif.Props.CheckedBad
