import Verif.Common.SMap
import Verif.Model.Adapter
import Verif.Model.Adb
import Verif.Model.Clean
import Verif.Model.Cli
import Verif.Model.CliData
import Verif.Model.Codegen
import Verif.Model.ConnSpec
import Verif.Model.Convert
import Verif.Model.DataObject
import Verif.Model.Ddl
import Verif.Model.Describe
import Verif.Model.Embed
import Verif.Model.EmbedCli
import Verif.Model.FKey
import Verif.Model.FilterMacro
import Verif.Model.KeyCmp
import Verif.Model.Many
import Verif.Model.MigStore
import Verif.Model.Migrations
import Verif.Model.ObjRow
import Verif.Model.PgErase
import Verif.Model.PgFirst
import Verif.Model.PgMigrate
import Verif.Model.PgObj
import Verif.Model.PgTypeSer
import Verif.Model.Query
import Verif.Model.Record
import Verif.Model.Resolve
import Verif.Model.Rows
import Verif.Model.Serde
import Verif.Model.SqlGen
import Verif.Model.SqliteMany
import Verif.Model.SqliteMigrate
import Verif.Model.SqliteObj
import Verif.Model.Statements
import Verif.Model.Turso
import Verif.Model.TursoDdl
import Verif.Model.TursoInsert
import Verif.Model.TursoRows
import Verif.Model.TursoTx
import Verif.Model.Tx
import Verif.Model.TypeKey
import Verif.Model.Value
import Verif.Model.WithSync
import Verif.Proofs.BoundVals
import Verif.Proofs.Clean
import Verif.Proofs.ClearData
import Verif.Proofs.Cli
import Verif.Proofs.CliFs
import Verif.Proofs.Codegen
import Verif.Proofs.CodegenDb
import Verif.Proofs.CodegenRecord
import Verif.Proofs.CodegenTypes
import Verif.Proofs.ConnSpec
import Verif.Proofs.Convert
import Verif.Proofs.CopyStore
import Verif.Proofs.CrateDb
import Verif.Proofs.CrateObj
import Verif.Proofs.DataObject
import Verif.Proofs.DdlCheck
import Verif.Proofs.DdlExec
import Verif.Proofs.DdlLex
import Verif.Proofs.DdlParse
import Verif.Proofs.DdlRun
import Verif.Proofs.DdlSqlite
import Verif.Proofs.Diff
import Verif.Proofs.Eval
import Verif.Proofs.Exec
import Verif.Proofs.Filter
import Verif.Proofs.FilterMacro
import Verif.Proofs.FsExact
import Verif.Proofs.FsStore
import Verif.Proofs.Lex
import Verif.Proofs.LiveRefs
import Verif.Proofs.MacroObjects
import Verif.Proofs.MacroPg
import Verif.Proofs.Many
import Verif.Proofs.MemStore
import Verif.Proofs.MigStore
import Verif.Proofs.Migrations
import Verif.Proofs.ObjKept
import Verif.Proofs.ObjLoad
import Verif.Proofs.ObjMany
import Verif.Proofs.ObjQuery
import Verif.Proofs.ObjRow
import Verif.Proofs.Parse
import Verif.Proofs.PgAccept
import Verif.Proofs.PgCheck
import Verif.Proofs.PgCrate
import Verif.Proofs.PgCrateObj
import Verif.Proofs.PgErase
import Verif.Proofs.PgExec
import Verif.Proofs.PgFirst
import Verif.Proofs.PgGo
import Verif.Proofs.PgKept
import Verif.Proofs.PgLive
import Verif.Proofs.PgMigrate
import Verif.Proofs.PgOps
import Verif.Proofs.PgQuery
import Verif.Proofs.PgRead
import Verif.Proofs.PgRows
import Verif.Proofs.PgRun
import Verif.Proofs.PgSaved
import Verif.Proofs.PgShows
import Verif.Proofs.PgStmt
import Verif.Proofs.PgText
import Verif.Proofs.Record
import Verif.Proofs.RecordStep
import Verif.Proofs.RecordTables
import Verif.Proofs.Resolve
import Verif.Proofs.SqliteData
import Verif.Proofs.SqliteExec
import Verif.Proofs.SqliteFrame
import Verif.Proofs.SqliteMigrate
import Verif.Proofs.SqliteObj
import Verif.Proofs.SqliteRewrites
import Verif.Proofs.SqliteSame
import Verif.Proofs.SqliteSave
import Verif.Proofs.SqliteSaveAll
import Verif.Proofs.SqliteSaveKey
import Verif.Proofs.SqliteSaved
import Verif.Proofs.SqliteShows
import Verif.Proofs.SqliteStmt
import Verif.Proofs.SqliteSucceeds
import Verif.Proofs.SqliteTotal
import Verif.Proofs.SqliteWhole
import Verif.Proofs.Stmt
import Verif.Proofs.StoresObjs
import Verif.Proofs.Turso
import Verif.Proofs.TursoDdl
import Verif.Proofs.TursoRun
import Verif.Proofs.TursoSplit
import Verif.Proofs.TypeKey
import Verif.Proofs.WorldCleared
import Verif.Proofs.WorldKept
import Verif.Props.Adapter
import Verif.Props.Clean
import Verif.Props.ClearData
import Verif.Props.ClearDataEx
import Verif.Props.Cli
import Verif.Props.CliFs
import Verif.Props.CliMake
import Verif.Props.Codegen
import Verif.Props.ConnSpec
import Verif.Props.Convert
import Verif.Props.CrateDb
import Verif.Props.CrateObj
import Verif.Props.CrateProgram
import Verif.Props.CrateProgramEx
import Verif.Props.Ddl
import Verif.Props.Describe
import Verif.Props.Diff
import Verif.Props.Embed
import Verif.Props.EmbedCli
import Verif.Props.FKey
import Verif.Props.Filter
import Verif.Props.FilterMacro
import Verif.Props.KeyCmp
import Verif.Props.LiveRefs
import Verif.Props.MacroCrate
import Verif.Props.MacroObjects
import Verif.Props.MacroPg
import Verif.Props.MacroProject
import Verif.Props.Many
import Verif.Props.MigStore
import Verif.Props.Migrations
import Verif.Props.ObjKept
import Verif.Props.ObjMany
import Verif.Props.ObjQuery
import Verif.Props.ObjRow
import Verif.Props.Objects
import Verif.Props.PgAccept
import Verif.Props.PgCrate
import Verif.Props.PgCrateObj
import Verif.Props.PgDdl
import Verif.Props.PgErase
import Verif.Props.PgMigrate
import Verif.Props.PgObj
import Verif.Props.PgQuery
import Verif.Props.PgTypeSer
import Verif.Props.PgUndo
import Verif.Props.ProjectUndo
import Verif.Props.Recompile
import Verif.Props.Record
import Verif.Props.Resolve
import Verif.Props.Rows
import Verif.Props.Serde
import Verif.Props.SqliteMigrate
import Verif.Props.SqliteObj
import Verif.Props.SqliteUndo
import Verif.Props.Statements
import Verif.Props.Turso
import Verif.Props.TursoDdl
import Verif.Props.TursoInsert
import Verif.Props.TursoRows
import Verif.Props.TursoTx
import Verif.Props.Tx
import Verif.Props.TypeKey
import Verif.Props.WithSync
import Verif.Spec.Adapter
import Verif.Spec.Clean
import Verif.Spec.ClearData
import Verif.Spec.Cli
import Verif.Spec.Codegen
import Verif.Spec.ConnSpec
import Verif.Spec.Convert
import Verif.Spec.CrateDb
import Verif.Spec.CrateObj
import Verif.Spec.CrateProgram
import Verif.Spec.Data
import Verif.Spec.Ddl
import Verif.Spec.DdlMigrate
import Verif.Spec.DdlNames
import Verif.Spec.Describe
import Verif.Spec.EmbedCli
import Verif.Spec.FKey
import Verif.Spec.Filter
import Verif.Spec.FilterMacro
import Verif.Spec.KeyCmp
import Verif.Spec.LiveRefs
import Verif.Spec.MacroCrate
import Verif.Spec.MacroObjects
import Verif.Spec.MacroPg
import Verif.Spec.Many
import Verif.Spec.MigStore
import Verif.Spec.Migrations
import Verif.Spec.ObjKept
import Verif.Spec.ObjMany
import Verif.Spec.ObjQuery
import Verif.Spec.ObjRow
import Verif.Spec.Objects
import Verif.Spec.PgAccept
import Verif.Spec.PgCrate
import Verif.Spec.PgCrateObj
import Verif.Spec.PgData
import Verif.Spec.PgDdl
import Verif.Spec.PgErase
import Verif.Spec.PgMigrate
import Verif.Spec.PgObj
import Verif.Spec.PgQuery
import Verif.Spec.PgTypeSer
import Verif.Spec.Record
import Verif.Spec.Rows
import Verif.Spec.Schema
import Verif.Spec.Serde
import Verif.Spec.Sql
import Verif.Spec.SqliteData
import Verif.Spec.SqliteMigrate
import Verif.Spec.SqliteObj
import Verif.Spec.SqliteUndo
import Verif.Spec.Stmt
import Verif.Spec.Turso
import Verif.Spec.TursoDdl
import Verif.Spec.TursoTx
import Verif.Spec.Tx
import Verif.Spec.Types
