import Verif.Basic
import Verif.StructMod
import Verif.Structs
import Verif.Ser
import Verif.Ops
import Verif.Spec.Struct
import Verif.Proofs.StructLemmas
import Verif.Proofs.FormatLemmas
import Verif.Proofs.AddLemmas
import Verif.Proofs.ActionLemmas
import Verif.Proofs.IntLemmas
import Verif.Proofs.NetLemmas
import Verif.Props.StructFormats
import Verif.Props.Integers
import Verif.Props.StructActions
import Verif.Props.NetStrings
import Verif.Spec.Sem
import Verif.Proofs.Rel
import Verif.Proofs.RefinePack
import Verif.Proofs.StreamLemmas
import Verif.Proofs.RefineWrite
import Verif.Proofs.RefineUnpack
import Verif.Proofs.RefineInto
import Verif.Proofs.Frames
import Verif.Samples
import Verif.Proofs.SimWrite
import Verif.Proofs.SimInto
import Verif.Proofs.Fuel
import Verif.Props.Packing
import Verif.Proofs.Enough
import Verif.Props.Recursion
import Verif.Spec.History
import Verif.Proofs.HistoryPack
import Verif.Proofs.HistoryUnpack
import Verif.Props.History
import Verif.Spec.Read
import Verif.Proofs.ReadLemmas
import Verif.Proofs.ReadExt
import Verif.Proofs.ReadExt2
import Verif.Proofs.ReadSame
import Verif.Proofs.ReadTrim
import Verif.Proofs.ReadLift
import Verif.Props.Reading
import Verif.Spec.RoundTrip
import Verif.Proofs.RoundTripLeaf
import Verif.Proofs.RoundTrip
import Verif.Proofs.RoundTripLift
import Verif.Props.RoundTrip
import Verif.Spec.Strings
import Verif.Proofs.StringPack
import Verif.Props.Strings
import Verif.Spec.Arrays
import Verif.Proofs.ArrayRun
import Verif.Proofs.ArrayBasic
import Verif.Props.Arrays
import Verif.Spec.Values
import Verif.Props.Values
import Verif.Spec.Choices
import Verif.Proofs.ChoiceLemmas
import Verif.Proofs.Proxy
import Verif.Props.Choices
import Verif.Proofs.PeekAhead
import Verif.Props.Peeking
import Verif.Props.Nested
import Verif.Spec.Adding
import Verif.Proofs.Adding
import Verif.Proofs.AddJoin
import Verif.Proofs.AddRun
import Verif.Props.Adding
import Verif.Instances
import Verif.Spec.Instances
import Verif.Proofs.InstanceLemmas
import Verif.Proofs.EqLemmas
import Verif.Proofs.LooksAt
import Verif.Props.Instances
import Verif.Spec.ByteOrder
import Verif.Proofs.ByteOrderLemmas
import Verif.Proofs.HostLemmas
import Verif.Proofs.HostOps
import Verif.Proofs.LastWins
import Verif.Props.ByteOrder
import Verif.Hints
import Verif.Classes
import Verif.Spec.Hints
import Verif.Proofs.HintLemmas
import Verif.Props.Hints
import Verif.Spec.ReadToEnd
import Verif.Props.ReadToEnd
import Verif.Proofs.AnonLemmas
import Verif.Spec.Classes
import Verif.Proofs.ClassLemmas
import Verif.Props.Classes
import Verif.Proofs.ClassSum
import Verif.Spec.Layout
import Verif.Props.Layout
import Verif.Spec.Pads
import Verif.Proofs.PadLemmas
import Verif.Proofs.PadNames
import Verif.Props.Pads
import Verif.Props.PadsMore
import Verif.Spec.Override
import Verif.Proofs.OverrideLemmas
import Verif.Props.Override
import Verif.Spec.Generics
import Verif.Proofs.GenericLemmas
import Verif.Proofs.SpecHints
import Verif.Props.Generics
import Verif.Spec.ArrayHints
import Verif.Props.ArrayHints
import Verif.Props.Truncation
import Verif.Threads
import Verif.Spec.Threads
import Verif.Proofs.ThreadRun
import Verif.Proofs.ThreadWp
import Verif.Proofs.ThreadPack
import Verif.Proofs.ThreadWrite
import Verif.Proofs.ThreadInto
import Verif.Proofs.ThreadUnpack
import Verif.Proofs.ThreadSafe
import Verif.Proofs.ThreadTasks
import Verif.Props.Threads
import Verif.Zips
import Verif.Proofs.ZipLemmas
import Verif.Props.Zips
import Verif.NegOffset
import Verif.Spec.NegOffset
import Verif.Proofs.NegUnpack
import Verif.Proofs.NegInto
import Verif.Props.NegOffset
import Verif.Spec.Scalars
import Verif.Proofs.ScalarLemmas
import Verif.Props.Scalars
import Verif.InPlace
import Verif.Proofs.InPlaceLemmas
import Verif.Props.InPlace
import Verif.Buffers
import Verif.Spec.Buffers
import Verif.Proofs.PlainValues
import Verif.Proofs.BufferLemmas
import Verif.Proofs.BufferViews
import Verif.Props.Buffers
import Verif.Spec.Footprint
import Verif.Proofs.FootprintBasic
import Verif.Proofs.FootprintPack
import Verif.Proofs.FootprintUnpack
import Verif.Proofs.FootprintOrder
import Verif.Proofs.FootprintTasks
import Verif.Props.Footprint
import Verif.Spec.Supplied
import Verif.Proofs.LedgerBasic
import Verif.Proofs.LedgerPack
import Verif.Proofs.LedgerUnpack
import Verif.Proofs.LedgerOrder
import Verif.Props.Supplied
import Verif.Rest
import Verif.Spec.Rest
import Verif.Proofs.RestLemmas
import Verif.Props.Rest
import Verif.Spec.Sequence
import Verif.Props.Sequence
import Verif.Spec.Exact
import Verif.Proofs.ExactLeaf
import Verif.Proofs.Exact
import Verif.Proofs.ExactMain
import Verif.Props.Exact
import Verif.Text
import Verif.Spec.Text
import Verif.Proofs.Text
import Verif.Props.Text
import Verif.Spec.Format
import Verif.Proofs.FormatHints
import Verif.Proofs.FormatEnc
import Verif.Proofs.FormatRuns
import Verif.Proofs.FormatWrite
import Verif.Proofs.FormatClass
import Verif.Proofs.EncMono
import Verif.Props.Format
import Verif.Spec.FormatBack
import Verif.Proofs.FormatRead
import Verif.Props.FormatBack
import Verif.Spec.Brackets
import Verif.Props.Brackets
import Verif.Spec.Indexing
import Verif.Props.Indexing
import Verif.Deprecate
import Verif.Spec.Deprecate
import Verif.Props.Deprecate
import Verif.Spec.Align
import Verif.Proofs.Align
import Verif.Proofs.AlignClass
import Verif.Props.Align
import Verif.Spec.FormatParse
import Verif.Proofs.ParseAgree
import Verif.Proofs.ParseParts
import Verif.Proofs.ParseLeaf
import Verif.Proofs.ParseFormats
import Verif.Proofs.ParseObj
import Verif.Props.FormatParse
import Verif.Props.FormatAhead
import Verif.Props.FormatVia
import Verif.Spec.FormatRaises
import Verif.Proofs.ParseRaises
import Verif.Props.FormatRaises
import Verif.Props.Sequences
import Verif.GenInit
import Verif.Spec.PyText
import Verif.Spec.PlainAnn
import Verif.Proofs.GenInit
import Verif.Props.InitSource
import Verif.Caches
import Verif.Spec.Caches
import Verif.Proofs.Caches
import Verif.Props.Caches
import Verif.Spec.FormatStore
import Verif.Proofs.StoreBytes
import Verif.Proofs.StoreInverse
import Verif.Proofs.StoreClass
import Verif.Proofs.StoreWrites
import Verif.Props.Accepts
import Verif.Spec.FormatPut
import Verif.Proofs.AnyOrder
import Verif.Proofs.PutRuns
import Verif.Proofs.PutBytes
import Verif.Proofs.PutValues
import Verif.Proofs.PutClass
import Verif.Proofs.PutFew
import Verif.Proofs.PutRaises
import Verif.Props.Puts
import Verif.Dataclass
import Verif.Spec.Dataclass
import Verif.Proofs.Dataclass
import Verif.Proofs.DataclassMade
import Verif.Props.Dataclass
import Verif.Names
import Verif.Spec.Names
import Verif.Proofs.Names
import Verif.Props.Names
import Verif.Props.Shared
import Verif.ShortReads
import Verif.Spec.ShortReads
import Verif.Proofs.ShortReads
import Verif.Props.ShortReads
import Verif.Spec.NoSeek
import Verif.Proofs.NoSeek
import Verif.Props.NoSeek
import Verif.Spec.Widths
import Verif.Proofs.Widths
import Verif.Proofs.WidthsMain
import Verif.Props.Widths
import Verif.ShortWrites
import Verif.Spec.ShortWrites
import Verif.Proofs.ShortWrites
import Verif.Props.ShortWrites
import Verif.Spec.Steps
import Verif.Proofs.Steps
import Verif.Props.Steps
import Verif.Share
import Verif.Spec.Share
import Verif.Proofs.Share
import Verif.Props.Share
import Verif.Spec.Spans
import Verif.Proofs.Spans
import Verif.Props.Spans
import Verif.RepoTests.Common
import Verif.RepoTests.Arrays
import Verif.RepoTests.Strings
import Verif.RepoTests.Classes
import Verif.RepoTests.Choices
import Verif.Spec.Extends
import Verif.Proofs.Extends
import Verif.Props.Extends
import Verif.Proofs.Places
import Verif.Props.Places
import Verif.Spec.Mirror
import Verif.Proofs.Mirror
import Verif.Props.Mirror
import Verif.Spec.Grows
import Verif.Proofs.Grows
import Verif.Props.Grows
import Verif.Spec.Near
import Verif.Proofs.Near
import Verif.Props.Patch
import Verif.Spec.Template
import Verif.Proofs.Template
import Verif.Props.Template
import Verif.Spec.Renames
import Verif.Proofs.Renames
import Verif.Props.Renames
import Verif.Spec.Grounded
import Verif.Proofs.Grounded
import Verif.Props.Grounded
import Verif.Proofs.MirrorRead
import Verif.Props.MirrorRead
import Verif.Spec.Twins
import Verif.Proofs.Twins
import Verif.Props.Twins
import Verif.Spec.Shuffled
import Verif.Proofs.Shuffled
import Verif.Props.Shuffled
import Verif.Spec.Spelled
import Verif.Proofs.Spelled
import Verif.Props.Spelled
import Verif.Proofs.ActionSums
import Verif.Props.ActionSums
import Verif.Proofs.Repeats
import Verif.Props.Repeats
import Verif.Proofs.Reorder
import Verif.Props.Reorder
import Verif.NumValues
import Verif.Proofs.NumValues
import Verif.Props.NumValues
import Verif.AttrGetter
import Verif.Proofs.AttrGetter
import Verif.Props.AttrGetter
import Verif.Props.ActionRepeats
import Verif.Registry
import Verif.Proofs.Registry
import Verif.Props.Registry
