import Verif.Basic
import Verif.Io
import Verif.IoLemmas
import Verif.Props.Io
import Verif.Values
import Verif.Codec
import Verif.Spec.Column
import Verif.Spec.Layout
import Verif.CodecLemmas
import Verif.CodecRt
import Verif.CodecMain
import Verif.CodecSafe
import Verif.CodecLayout
import Verif.Props.Column
import Verif.Text
import Verif.TypeText
import Verif.Spec.TypeText
import Verif.TypeTextLemmas
import Verif.TypeTextMain
import Verif.Props.TypeText
import Verif.Block
import Verif.Spec.Block
import Verif.BlockLemmas
import Verif.Props.Block
import Verif.Spec.Calendar
import Verif.Sql
import Verif.Spec.Sql
import Verif.SqlLemmas
import Verif.Props.Sql
import Verif.Compress
import Verif.Spec.Compress
import Verif.Props.Compress
import Verif.Spec.Steady
import Verif.Steady
import Verif.Packets
import Verif.Spec.Packets
import Verif.PacketLemmas
import Verif.Props.Packets
import Verif.Props.Outgoing
import Verif.Props.Truncation
import Verif.Client
import Verif.Spec.Client
import Verif.ClientLemmas
import Verif.ClientInv
import Verif.ClientTexts
import Verif.Props.Client
import Verif.Cancel
import Verif.Spec.Cancel
import Verif.Props.Cancel
import Verif.Query
import Verif.Spec.Query
import Verif.Props.Query
import Verif.Props.Insert
import Verif.Convert
import Verif.Spec.Convert
import Verif.ConvertLemmas
import Verif.Props.Convert
import Verif.Dates
import Verif.Spec.Time
import Verif.Props.Dates
import Verif.Numeric
import Verif.Spec.Numeric
import Verif.Props.Numeric
import Verif.RawRow
import Verif.Spec.RawRow
import Verif.Props.RawRow
import Verif.Spec.Bf16
import Verif.Props.Bf16
import Verif.Geo
import Verif.Spec.Geo
import Verif.Props.Geo
import Verif.Derive
import Verif.Spec.Derive
import Verif.DeriveLemmas
import Verif.DeriveMain
import Verif.DerivePos
import Verif.DeriveSource
import Verif.Props.Derive
import Verif.Case
import Verif.Spec.Case
import Verif.Props.Case
import Verif.Lock
import Verif.Spec.Lock
import Verif.LockLemmas
import Verif.MigrateLemmas
import Verif.Props.Lock
import Verif.Props.Derive2
import Verif.Attr
import Verif.Spec.Attr
import Verif.AttrLemmas
import Verif.AttrLemmas2
import Verif.Props.Attr
import Verif.ValueHash
import Verif.Spec.ValueEq
import Verif.Props.ValueEq
import Verif.Migration
import Verif.Spec.Migration
import Verif.Props.Migration
import Verif.Session
import Verif.Spec.Session
import Verif.Props.Session
import Verif.Spec.Storage
import Verif.Props.Storage
import Verif.Order
import Verif.Props.Order
import Verif.Serde
import Verif.Spec.Serde
import Verif.Props.Serde
import Verif.RawInsert
import Verif.Spec.RawInsert
import Verif.Props.RawInsert
import Verif.Spec.Guess
import Verif.Props.Guess
import Verif.Bound
import Verif.Spec.Bound
import Verif.Props.Bound
import Verif.Link
import Verif.Spec.Link
import Verif.Props.Link
import Verif.Spec.Orderly
import Verif.Props.Orderly
import Verif.NestedVec
import Verif.Spec.NestedVec
import Verif.Props.NestedVec
import Verif.Spec.Fair
import Verif.Props.Fair
import Verif.Props.FairRun
import Verif.Spec.LockWait
import Verif.Props.LockWait
import Verif.Props.LockStarve
import Verif.ClusterText
import Verif.Spec.Template
import Verif.Props.Template
import Verif.Handles
import Verif.Spec.Handles
import Verif.Props.Handles
import Verif.Spec.Granule
import Verif.Props.Granules
import Verif.Lexer
import Verif.Spec.Lexer
import Verif.Props.Lexer
import Verif.UnitTests
import Verif.Watch
import Verif.Spec.Watch
import Verif.Props.Watch
import Verif.FixedF64
import Verif.Spec.F64
import Verif.F64Lemmas
import Verif.Props.F64
import Verif.Spec.Size
import Verif.Room
import Verif.RoomMain
import Verif.Props.Size
import Verif.Spec.AttrReport
import Verif.AttrReport
import Verif.Props.AttrReport
import Verif.Spec.Refuse
import Verif.Props.Refuse
import Verif.Spec.ServerText
import Verif.Props.ServerText
import Verif.Spec.Depth
import Verif.Props.Depth
import Verif.Props.MigrateEnd
import Verif.Props.MigrateStarve
import Verif.Props.Accepted
import Verif.Spec.DeriveNested
import Verif.Props.DeriveNested
import Verif.ErrorText
import Verif.Spec.ErrorText
import Verif.Props.ErrorText
import Verif.Spec.LinkFair
import Verif.Props.LinkFair
import Verif.Spec.Reading
import Verif.Props.Reading
import Verif.Props.Filled
import Verif.Scope
import Verif.Spec.Scope
import Verif.Props.Scope
import Verif.Props.Backlog
import Verif.Outcome
import Verif.Spec.Outcome
import Verif.Props.Outcome
import Verif.Spec.Fitting
import Verif.Props.Fitting
import Verif.Nest
import Verif.Spec.Nest
import Verif.Props.Nest
import Verif.Spec.Record
import Verif.Props.Record
import Verif.Spec.Calls
import Verif.Props.Calls
import Verif.Spec.Answers
import Verif.Props.Answers
import Verif.Reserve
import Verif.Spec.Reserve
import Verif.ReserveLemmas
import Verif.Props.Reserve
import Verif.Loose
import Verif.Spec.Loose
import Verif.Props.Loose
import Verif.Shown
import Verif.Spec.Shown
import Verif.Props.Shown
import Verif.ValueSerde
import Verif.Spec.ValueSerde
import Verif.Props.ValueSerde
import Verif.Props.HashTells
import Verif.Spec.LockTables
import Verif.Props.LockTables
