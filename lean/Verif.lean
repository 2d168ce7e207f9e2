import Verif.Model.Py
import Verif.Model.Float
import Verif.Model.Str
import Verif.Model.Uuid
import Verif.Model.Reader
import Verif.Model.Writer
import Verif.Model.Raw.ConcreteTable
import Verif.Model.Raw.Simple
import Verif.Model.Raw.Nested
import Verif.Model.Codec
import Verif.Model.Props
import Verif.Model.PalTypes
import Verif.Model.Base64
import Verif.Model.Gvas
import Verif.Model.PalSav
import Verif.Model.Json
import Verif.Model.Cli
import Verif.Spec.Prim
import Verif.Spec.Float
import Verif.Spec.Uuid
import Verif.Lemmas.Prim
import Verif.Lemmas.Float
import Verif.Lemmas.Uuid
import Verif.Props.Prim
import Verif.Props.Float
import Verif.Props.Uuid
import Verif.Spec.Sav
import Verif.Spec.Value
import Verif.Spec.Packed
import Verif.Lemmas.Round
import Verif.Lemmas.Packed
import Verif.Props.Sav
import Verif.Props.Packed
import Verif.Spec.Types
import Verif.Spec.Header
import Verif.Lemmas.Attr
import Verif.Lemmas.Sim
import Verif.Lemmas.Json
import Verif.Lemmas.Fields
import Verif.Props.Header
import Verif.Spec.Blobs
import Verif.Lemmas.Mono
import Verif.Lemmas.Blobs
import Verif.Lemmas.Foliage
import Verif.Lemmas.Blobs2
import Verif.Lemmas.Blobs3
import Verif.Lemmas.BlobOk
import Verif.Props.Blobs
import Verif.Spec.Tree
import Verif.Lemmas.TreeRead
import Verif.Lemmas.PreMono
import Verif.Lemmas.Wrote
import Verif.Lemmas.TreeMono
import Verif.Lemmas.TreeWrite
import Verif.Lemmas.Rank
import Verif.Spec.Custom
import Verif.Lemmas.Put
import Verif.Lemmas.TreeJson
import Verif.Lemmas.TreeCodec
import Verif.Lemmas.TreeCodec2
import Verif.Lemmas.TreeCodec3
import Verif.Lemmas.TreeCustom
import Verif.Spec.File
import Verif.Lemmas.WfSub
import Verif.Props.RoundTrip
import Verif.Props.Sample
import Verif.Lemmas.Idem
import Verif.Props.Writing
import Verif.Spec.Cli
import Verif.Props.Cli
import Verif.Props.Registry
import Verif.Props.Nested
import Verif.Lemmas.Inv
import Verif.Props.Unknown
import Verif.Spec.Skip
import Verif.Props.Sizes
import Verif.Lemmas.Bound
import Verif.Lemmas.BoundBlob
import Verif.Lemmas.BoundProps
import Verif.Lemmas.Grow
import Verif.Lemmas.Cut
import Verif.Props.Termination
import Verif.Props.Truncate
import Verif.Lemmas.Invert
import Verif.Lemmas.InvertTree
import Verif.Props.Resave
import Verif.Spec.Resave
import Verif.Lemmas.Stable
import Verif.Lemmas.StableBlobs
import Verif.Lemmas.StableBlobs2
import Verif.Lemmas.StableBlobs3
import Verif.Lemmas.StableBlobs4
import Verif.Lemmas.StableBlobs5
import Verif.Lemmas.StableFoliage
import Verif.Props.BlobResave
import Verif.Props.CliSample
import Verif.Props.Embedded
import Verif.Props.UuidHistory
import Verif.Lemmas.Relaxed
import Verif.Lemmas.Alt
import Verif.Lemmas.Ext
import Verif.Lemmas.ExtTree
import Verif.Lemmas.Nice
import Verif.Lemmas.Redo
import Verif.Lemmas.RedoBlobs
import Verif.Lemmas.RedoEmbed
import Verif.Lemmas.RedoCodec
import Verif.Lemmas.RedoTree
import Verif.Props.CustomResave
import Verif.Lemmas.RedoCamp
import Verif.Spec.OneNaN
import Verif.Lemmas.JsonRead
import Verif.Lemmas.JsonTree
import Verif.Props.JsonResave
import Verif.Model.JsonText
import Verif.Model.FloatRepr
import Verif.Spec.JsonText
import Verif.Lemmas.JsonScan
import Verif.Lemmas.Nearest
import Verif.Lemmas.JsonNum
import Verif.Lemmas.JsonParse
import Verif.Lemmas.Utf8
import Verif.Lemmas.JsonWrite
import Verif.Lemmas.FloatRepr
import Verif.Lemmas.JsonDump
import Verif.Lemmas.JsonCut
import Verif.Props.JsonText
import Verif.Props.Crash
import Verif.Props.Single
import Verif.Lemmas.Single
import Verif.Spec.Single
import Verif.Spec.Says
import Verif.Lemmas.SaysPrim
import Verif.Lemmas.Says
import Verif.Lemmas.SaysVal
import Verif.Props.Says
import Verif.Props.SaysCmd
import Verif.Spec.SaysBlobs
import Verif.Lemmas.Codes
import Verif.Lemmas.SaysBlob
import Verif.Lemmas.SaysBlob2
import Verif.Lemmas.SaysFoliage
import Verif.Lemmas.SaysOpen
import Verif.Props.SaysBlobs
import Verif.Spec.Edit
import Verif.Lemmas.Edit
import Verif.Props.Edit
import Verif.Spec.Layout
import Verif.Lemmas.Layout
import Verif.Spec.Shown
import Verif.Lemmas.Shown
import Verif.Props.Shown
import Verif.Spec.ShownBlobs
import Verif.Lemmas.ShownBlobs
import Verif.Lemmas.ShownBlobs2
import Verif.Lemmas.ShownFoliage
import Verif.Lemmas.ShownBlobs3
import Verif.Lemmas.ShownBlobs4
import Verif.Lemmas.ShownCongr
import Verif.Props.ShownBlobs
import Verif.Spec.InJson
import Verif.Lemmas.InJson
import Verif.Props.ShownCmd
import Verif.Props.WrittenCmd
import Verif.Model.Steps
import Verif.Lemmas.Steps
import Verif.Lemmas.Interrupt
import Verif.Props.Interrupt
import Verif.Props.Parallel
import Verif.Model.Extract
import Verif.Spec.Extract
import Verif.Lemmas.Extract
import Verif.Props.Extract
import Verif.Model.Argv
import Verif.Spec.Argv
import Verif.Lemmas.Argv
import Verif.Lemmas.ArgvSound
import Verif.Props.Argv
import Verif.Spec.Whole
import Verif.Props.Whole
import Verif.Model.Left
import Verif.Lemmas.Left
import Verif.Lemmas.LeftFuel
import Verif.Lemmas.LeftRel
import Verif.Lemmas.LeftEdit
import Verif.Lemmas.LeftKept
import Verif.Spec.History
import Verif.Props.History
import Verif.Spec.Base64
import Verif.Lemmas.Base64
import Verif.Props.Trailer
import Verif.Props.ResaveRun
import Verif.Spec.UuidText
import Verif.Lemmas.UuidText
import Verif.Props.UuidText
import Verif.Model.Shallow
import Verif.Lemmas.Shallow
import Verif.Props.Shallow
import Verif.Model.Warn
import Verif.Spec.Warn
import Verif.Lemmas.Warn
import Verif.Lemmas.WarnLog
import Verif.Lemmas.WarnFound
import Verif.Lemmas.WarnJust
import Verif.Props.Warn
import Verif.Spec.Size
import Verif.Lemmas.Size
import Verif.Props.Size
import Verif.Spec.Fewer
import Verif.Lemmas.Fewer
import Verif.Lemmas.FewerBlob
import Verif.Lemmas.FewerLoop
import Verif.Props.Fewer
import Verif.Lemmas.OneNaN
import Verif.Lemmas.BadKept
import Verif.Props.Exactly
import Verif.Props.RealSave
import Verif.Lemmas.Weight
import Verif.Lemmas.WeightBlob
import Verif.Lemmas.WeightPost
import Verif.Props.ExactlyJson
