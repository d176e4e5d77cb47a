import Verif.Basic
import Verif.Model.Active
import Verif.Model.Api
import Verif.Model.Async
import Verif.Model.AsyncRelease
import Verif.Model.Auth
import Verif.Model.Buffer
import Verif.Model.Convert
import Verif.Model.Crypt
import Verif.Model.Debug
import Verif.Model.DebugTree
import Verif.Model.Derive
import Verif.Model.Dialog
import Verif.Model.Display
import Verif.Model.Dormant
import Verif.Model.Features
import Verif.Model.FieldType
import Verif.Model.Fill
import Verif.Model.Io
import Verif.Model.MigPool
import Verif.Model.Migrator
import Verif.Model.MigratorWire
import Verif.Model.ModelQuery
import Verif.Model.Narrow
import Verif.Model.NarrowAuth
import Verif.Model.NarrowModels
import Verif.Model.Orm
import Verif.Model.Packets
import Verif.Model.Pool
import Verif.Model.PoolConn
import Verif.Model.Query
import Verif.Model.Raw
import Verif.Model.Release
import Verif.Model.Serde
import Verif.Model.Stmt
import Verif.Model.Text
import Verif.Model.Types
import Verif.Model.Utf8
import Verif.Model.Value
import Verif.Model.Wire
import Verif.Proofs.Active
import Verif.Proofs.Async
import Verif.Proofs.Auth
import Verif.Proofs.AuthBlind
import Verif.Proofs.BinValue
import Verif.Proofs.Blind
import Verif.Proofs.Causal
import Verif.Proofs.Changed
import Verif.Proofs.Command
import Verif.Proofs.DataKept
import Verif.Proofs.DebugTree
import Verif.Proofs.Decodes
import Verif.Proofs.Dialog
import Verif.Proofs.Display
import Verif.Proofs.Example
import Verif.Proofs.Fill
import Verif.Proofs.FillRun
import Verif.Proofs.Fixed
import Verif.Proofs.Handshake
import Verif.Proofs.Io
import Verif.Proofs.Live
import Verif.Proofs.MigMany
import Verif.Proofs.MigOpen
import Verif.Proofs.MigPool
import Verif.Proofs.MigServer
import Verif.Proofs.MigSql
import Verif.Proofs.MigTogether
import Verif.Proofs.Migrator
import Verif.Proofs.MigratorWire
import Verif.Proofs.Narrow
import Verif.Proofs.NarrowSame
import Verif.Proofs.NoPanic
import Verif.Proofs.Orm
import Verif.Proofs.Packets
import Verif.Proofs.Pool
import Verif.Proofs.Query
import Verif.Proofs.Raw
import Verif.Proofs.Relational
import Verif.Proofs.Reported
import Verif.Proofs.ResultSet
import Verif.Proofs.RoundTrip
import Verif.Proofs.Row
import Verif.Proofs.Rsa
import Verif.Proofs.SqlServer
import Verif.Proofs.SqlTokens
import Verif.Proofs.Stmt
import Verif.Proofs.StoreMany
import Verif.Proofs.Talk
import Verif.Proofs.Text
import Verif.Proofs.Unseen
import Verif.Proofs.Utf8
import Verif.Proofs.Value
import Verif.Proofs.Whole
import Verif.Proofs.Wire
import Verif.Proofs.Xor
import Verif.Props.C01_Lenenc
import Verif.Props.C02_WriteFraming
import Verif.Props.C03_ReadFraming
import Verif.Props.C04_OutOfSync
import Verif.Props.C05_StmtParams
import Verif.Props.C06_LongData
import Verif.Props.C07_BinLen
import Verif.Props.C08_NullBitmap
import Verif.Props.C09_BinRows
import Verif.Props.C100_MigExample
import Verif.Props.C100_MigLimit
import Verif.Props.C100_MigPool
import Verif.Props.C101_MigRace
import Verif.Props.C101_MigTogether
import Verif.Props.C102_Polls
import Verif.Props.C102_Release
import Verif.Props.C103_Dormant
import Verif.Props.C104_Raw
import Verif.Props.C105_Connect
import Verif.Props.C105_Models
import Verif.Props.C105_Narrow
import Verif.Props.C106_MigAgree
import Verif.Props.C106_MigMany
import Verif.Props.C106_MigOrder
import Verif.Props.C106_MigSomeone
import Verif.Props.C107_StoreFound
import Verif.Props.C107_StoreMany
import Verif.Props.C107_StoreUpdates
import Verif.Props.C108_Moments
import Verif.Props.C109_Links
import Verif.Props.C109_Whole
import Verif.Props.C10_TextRows
import Verif.Props.C110_StorePool
import Verif.Props.C111_DebugTree
import Verif.Props.C111_Errors
import Verif.Props.C112_Enough
import Verif.Props.C112_Fair
import Verif.Props.C112_PoolFinish
import Verif.Props.C112_PoolTasks
import Verif.Props.C113_Deadlock
import Verif.Props.C113_Fair
import Verif.Props.C113_PoolHold
import Verif.Props.C114_Every
import Verif.Props.C114_Turn
import Verif.Props.C115_Enough
import Verif.Props.C115_Sharp
import Verif.Props.C11_RowsAndTerminators
import Verif.Props.C12_Iteration
import Verif.Props.C13_Abandoned
import Verif.Props.C14_ServerErrors
import Verif.Props.C15_OkPackets
import Verif.Props.C16_EofStatus
import Verif.Props.C17_ParamCount
import Verif.Props.C18_Prepare
import Verif.Props.C19_Commands
import Verif.Props.C20_StringEscape
import Verif.Props.C21_Identifier
import Verif.Props.C22_UnquotedIdentifier
import Verif.Props.C23_DisplayValue
import Verif.Props.C23_Exact
import Verif.Props.C24_Hex
import Verif.Props.C25_Scalars
import Verif.Props.C26_Calendar
import Verif.Props.C27_Durations
import Verif.Props.C27_Exact
import Verif.Props.C28_Password
import Verif.Props.C29_ForcedPlugin
import Verif.Props.C30_AuthTerminates
import Verif.Props.C31_Scramble
import Verif.Props.C32_Verdict
import Verif.Props.C33_Oaep
import Verif.Props.C34_Rsa
import Verif.Props.C35_Pem
import Verif.Props.C35_PemExact
import Verif.Props.C36_Handshake
import Verif.Props.C37_Login
import Verif.Props.C38_Pool
import Verif.Props.C42_Buffers
import Verif.Props.C44_Migrator
import Verif.Props.C48_Versions
import Verif.Props.C49_Exact
import Verif.Props.C49_MigrationSql
import Verif.Props.C50_ModelQuery
import Verif.Props.C51_InsertUpdate
import Verif.Props.C52_ActiveModel
import Verif.Props.C53_NoPanic
import Verif.Props.C54_Columns
import Verif.Props.C54_Exact
import Verif.Props.C55_Capabilities
import Verif.Props.C56_Dialog
import Verif.Props.C57_Settings
import Verif.Props.C58_FieldTypes
import Verif.Props.C59_ErrorInRows
import Verif.Props.C60_OldEof
import Verif.Props.C61_AfterFailure
import Verif.Props.C62_StmtClose
import Verif.Props.C63_LoginServer
import Verif.Props.C64_Session
import Verif.Props.C65_ModelQuery
import Verif.Props.C66_Stored
import Verif.Props.C67_RoundTrip
import Verif.Props.C68_MigratorWire
import Verif.Props.C69_MigServer
import Verif.Props.C70_Derive
import Verif.Props.C71_Exact
import Verif.Props.C71_Typed
import Verif.Props.C72_AnyQuery
import Verif.Props.C73_Packets
import Verif.Props.C74_TextExact
import Verif.Props.C75_BinExact
import Verif.Props.C76_Streams
import Verif.Props.C77_AnyState
import Verif.Props.C78_LoginStreams
import Verif.Props.C79_LoginPanics
import Verif.Props.C80_UpdateQuery
import Verif.Props.C81_Lookup
import Verif.Props.C82_ErrorText
import Verif.Props.C83_PasswordText
import Verif.Props.C84_MigMove
import Verif.Props.C85_PoolUsers
import Verif.Props.C86_Torn
import Verif.Props.C87_Connect
import Verif.Props.C88_Interactive
import Verif.Props.C89_Serde
import Verif.Props.C90_Polls
import Verif.Props.C90_Total
import Verif.Props.C91_Dropped
import Verif.Props.C92_Time
import Verif.Props.C93_Features
import Verif.Props.C94_Procedures
import Verif.Props.C95_Unseen
import Verif.Props.C96_Limit
import Verif.Props.C97_Several
import Verif.Props.C98_Hello
import Verif.Props.C98_Program
import Verif.Props.C99_Fill
import Verif.Props.UnitTests
import Verif.Spec.Accepted
import Verif.Spec.AcceptedBin
import Verif.Spec.AcceptedText
import Verif.Spec.Active
import Verif.Spec.Async
import Verif.Spec.Attrs
import Verif.Spec.Auth
import Verif.Spec.Changed
import Verif.Spec.Commands
import Verif.Spec.Connecting
import Verif.Spec.Debug
import Verif.Spec.DebugTree
import Verif.Spec.Declared
import Verif.Spec.Dialog
import Verif.Spec.FieldType
import Verif.Spec.Fill
import Verif.Spec.Handshake
import Verif.Spec.Interactive
import Verif.Spec.Links
import Verif.Spec.Login
import Verif.Spec.LoginStream
import Verif.Spec.Lookup
import Verif.Spec.MigMany
import Verif.Spec.MigMove
import Verif.Spec.MigPool
import Verif.Spec.MigServer
import Verif.Spec.MigSql
import Verif.Spec.MigTogether
import Verif.Spec.Migrate
import Verif.Spec.MigrateWire
import Verif.Spec.Moments
import Verif.Spec.Narrow
import Verif.Spec.Oaep
import Verif.Spec.Orm
import Verif.Spec.Packet
import Verif.Spec.ParamTypes
import Verif.Spec.Pem
import Verif.Spec.PoolEnough
import Verif.Spec.PoolFair
import Verif.Spec.PoolHold
import Verif.Spec.PoolTasks
import Verif.Spec.PoolTurn
import Verif.Spec.Procedure
import Verif.Spec.Relational
import Verif.Spec.Response
import Verif.Spec.RoundTrip
import Verif.Spec.Rsa
import Verif.Spec.Scramble
import Verif.Spec.Sending
import Verif.Spec.Serde
import Verif.Spec.Server
import Verif.Spec.Several
import Verif.Spec.Sql
import Verif.Spec.SqlServer
import Verif.Spec.SqlTokens
import Verif.Spec.StoreFair
import Verif.Spec.StoreMany
import Verif.Spec.StorePool
import Verif.Spec.StoreWoken
import Verif.Spec.Streams
import Verif.Spec.Text
import Verif.Spec.Typed
import Verif.Spec.Value
import Verif.Spec.Wire
