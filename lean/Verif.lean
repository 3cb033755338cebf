import Verif.Py
import Verif.PyLemmas
import Verif.Field
import Verif.Causal
import Verif.Traverse
import Verif.RoundTrip
import Verif.Represent
import Verif.Chunks
import Verif.Items
import Verif.Layout
import Verif.Copy
import Verif.Update
import Verif.Example
import Verif.StructLemmas
import Verif.FieldLemmas
import Verif.Props.Struct
import Verif.AssignLemmas
import Verif.Props.Fields
import Verif.Tables
import Verif.Props.Tables
import Verif.Tre
import Verif.TreLemmas
import Verif.Scalar
import Verif.TreArea
import Verif.TrePlace
import Verif.TreRound
import Verif.Props.Tre
import Verif.Security
import Verif.Props.Security
import Verif.File
import Verif.FileLemmas
import Verif.FileRun
import Verif.Props.File
import Verif.FileRead
import Verif.Props.FileRound
import Verif.Handle
import Verif.HandleLemmas
import Verif.Props.Handle
import Verif.Row
import Verif.Image
import Verif.ImageLemmas
import Verif.Props.Image
import Verif.Decimal
import Verif.Fixed
import Verif.Props.Fixed
import Verif.Igeolo
import Verif.Props.Igeolo
import Verif.LoopRow
import Verif.Assoc
import Verif.Props.Assoc
import Verif.Engrda
import Verif.Props.Engrda
import Verif.Merge
import Verif.Props.Merge
import Verif.Content
import Verif.Props.Content
import Verif.Docopt
import Verif.Props.Docopt
import Verif.Delayed
import Verif.DelayedLemmas
import Verif.Props.Delayed
import Verif.Diff
import Verif.DiffLemmas
import Verif.DiffRefs
import Verif.Props.Diff
import Verif.FileDiff
import Verif.Props.FileDiff
import Verif.DiffLog
import Verif.Props.DiffLog
import Verif.View
import Verif.Props.View
import Verif.Shared
import Verif.Props.Shared
import Verif.DiffProg
import Verif.Props.DiffProg
import Verif.Defaults
import Verif.Props.Defaults
import Verif.PrintFile
import Verif.Props.PrintFile
import Verif.DeltaDiff
import Verif.Props.DeltaDiff
import Verif.Owner
import Verif.OwnerLemmas
import Verif.Props.Owner
import Verif.Attempt
import Verif.AttemptLemmas
import Verif.AttemptRetry
import Verif.AttemptHalf
import Verif.AttemptTrace
import Verif.AttemptDone
import Verif.AttemptStuck
import Verif.AttemptCalm
import Verif.AttemptKeep
import Verif.Props.Attempt
import Verif.ReadAny
import Verif.Props.ReadAny
import Verif.Implement
import Verif.Props.Implement
import Verif.EngrdaMap
import Verif.Props.EngrdaMap
import Verif.Props.Meaning
import Verif.Props.Sense
import Verif.Props.Spell
import Verif.Props.Split
import Verif.Props.Finds
import Verif.Props.Graphic
import Verif.Props.Limits
import Verif.Summary
import Verif.Props.Summary
import Verif.Explore
import Verif.Props.Explore
import Verif.ImageLayout
import Verif.Props.ImageLayout
import Verif.Props.NewImage
import Verif.ImageFile
import Verif.Props.ImageFile
import Verif.StandardSpec
import Verif.StandardLayout
import Verif.Props.Standard
import Verif.Props.StandardFile
import Verif.TreLength
import Verif.Props.TreLength
import Verif.Ready
import Verif.Props.NewFile
import Verif.Props.NewText
import Verif.MaxPrec
import Verif.Props.MaxPrec
import Verif.RadCalc
import Verif.Props.RadCalc
import Verif.UserSize
import Verif.Props.UserSize
import Verif.Props.AssocSize
import Verif.Props.UserClass
import Verif.Props.Attr
import Verif.Props.Append
import Verif.Same
import Verif.Rewrite
import Verif.ReadClear
import Verif.Props.Rewrite
import Verif.Index
import Verif.Props.Index
import Verif.Enum
import Verif.Props.Enum
import Verif.Literal
import Verif.Props.Literal
import Verif.Frame
import Verif.Props.Frame
import Verif.State
import Verif.StateLemmas
import Verif.Props.State
import Verif.Delta
import Verif.Props.Delta
import Verif.DesData
import Verif.Props.DesData
import Verif.Format
import Verif.FormatLemmas
import Verif.Props.Format
import Verif.Settle
import Verif.Props.Settle
import Verif.ExtContent
import Verif.Props.ExtContent
import Verif.Print
import Verif.Csexrb
import Verif.SaveLoad
import Verif.Props.Print
import Verif.Props.Csexrb
import Verif.Props.SaveLoad
import Verif.ReadReady
import Verif.Props.Resave
import Verif.Overflow
import Verif.Props.Overflow
import Verif.WriteOk
import Verif.Props.WriteOk
import Verif.ImageCopy
import Verif.Props.ImageCopy
import Verif.Props.TreState
import Verif.Props.FileAny
import Verif.Illuma
import Verif.IllumaLemmas
import Verif.Props.Illuma
