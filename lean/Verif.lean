import Verif.Py
import Verif.Types
import Verif.DictLemmas
import Verif.FuelLemmas
import Verif.FuelLemmas2
import Verif.TypesSpec
import Verif.AliasRegex
import Verif.Built
import Verif.ConformTypes
import Verif.TypesState
import Verif.RegistryThms
import Verif.EqLemmas
import Verif.NullThms
import Verif.ResolveThms
import Verif.ParseThms
import Verif.RoundTrip
import Verif.RoundTripThms
import Verif.Parsed
import Verif.ResolveValid
import Verif.Quote
import Verif.Storage
import Verif.StorageSpec
import Verif.StorageLemmas
import Verif.StorageThms
import Verif.Server
import Verif.ServerLemmas
import Verif.ServerThms
import Verif.ServerThms2
import Verif.CompactSpec
import Verif.CompactLemmas
import Verif.CompactRead
import Verif.CompactClean
import Verif.CompactWrite
import Verif.CompactAlias
import Verif.CompactAliased
import Verif.CompactThms
import Verif.AliasThms
import Verif.CompactStable
import Verif.CompactNestedSpec
import Verif.CompactNested
import Verif.CompactNestedThms
import Verif.CompactFaithful
import Verif.ServerThms3
import Verif.Relational
import Verif.RelationalSpec
import Verif.RelationalLemmas
import Verif.RelationalThms
import Verif.RelationalThms2
import Verif.SqliteClient
import Verif.SqliteThms
import Verif.Hive
import Verif.HiveSpec
import Verif.HiveLemmas
import Verif.HiveMirror
import Verif.HiveMirror2
import Verif.HiveThms
import Verif.BigQuery
import Verif.BigQuerySpec
import Verif.BigQueryThms
import Verif.DecimalThms
import Verif.Url
import Verif.Settings
import Verif.SettingsSpec
import Verif.UrlLemmas
import Verif.QueryLemmas
import Verif.SettingsLemmas
import Verif.SettingsThms
import Verif.Clients
import Verif.ClientsSpec
import Verif.ClientsLemmas
import Verif.ClientsThms
import Verif.ClientsThms2
import Verif.ClientsThms3
import Verif.ClientsThms4
import Verif.Weight
import Verif.JsonSchema
import Verif.JsonSchemaSpec
import Verif.JsonSchemaLemmas
import Verif.JsonSchemaRead
import Verif.JsonSchemaWrite
import Verif.JsonSchemaRefs
import Verif.JsonSchemaEnds
import Verif.JsonSchemaWriteThms
import Verif.JsonSchemaRound
import Verif.Sealed
import Verif.JsonSchemaFuel
import Verif.Avro
import Verif.AvroSpec
import Verif.AvroLemmas
import Verif.AvroInts
import Verif.AvroNames
import Verif.AvroNamesThms
import Verif.AvroRound
import Verif.AvroRoundThms
import Verif.AvroFuel
import Verif.AvroMeans
import Verif.AvroRead
import Verif.AvroReadThms
import Verif.Protobuf
import Verif.ProtobufSpec
import Verif.ProtobufWrite
import Verif.ProtobufFile
import Verif.ProtobufWriteThms
import Verif.ProtobufMeans
import Verif.ProtobufRead
import Verif.ProtobufResolve
import Verif.ProtobufOrder
import Verif.ProtobufParse
import Verif.ProtobufReady
import Verif.ProtobufReadThms
import Verif.ProtobufRoundSpec
import Verif.ProtobufRound
import Verif.ProtobufRoundThms
import Verif.ProtobufFuel
import Verif.Commands
import Verif.CommandsSpec
import Verif.CommandsThms
import Verif.Shown
import Verif.CommandsRecap
import Verif.CommandsRecapBig
import Verif.CommandsRecapHive
import Verif.CommandsRecapFree
import Verif.CommandsRecapThms
import Verif.CommandsJson
import Verif.CommandsJsonMore
import Verif.CommandsJsonThms
import Verif.AvroValid
import Verif.CommandsAvro
import Verif.CommandsAvroUnion
import Verif.CommandsAvroThms
import Verif.HiveStats
import Verif.HiveStatsSpec
import Verif.HiveStatsLemmas
import Verif.HiveStatsThms
import Verif.HiveStatsShown
import Verif.HiveStatsShownThms
import Verif.ProtobufWritten
import Verif.JsonText
import Verif.JsonTextSpec
import Verif.JsonTextLemmas
import Verif.JsonTextSound
import Verif.JsonTextCut
import Verif.JsonTextWrite
import Verif.JsonTextBytes
import Verif.JsonTextFloats
import Verif.JsonTextThms
import Verif.StorageBytes
import Verif.StorageBytesLemmas
import Verif.StorageBytesThms
import Verif.ServerBytes
import Verif.ValuesSpec
import Verif.ValuesLemmas
import Verif.ValuesNested
import Verif.ValuesThms
import Verif.Listed
import Verif.ListedSpec
import Verif.ListedThms
import Verif.AvroDataSpec
import Verif.AvroDataLemmas
import Verif.AvroDataRead
import Verif.AvroDataThms
import Verif.AvroWriteSpec
import Verif.AvroWriteLemmas
import Verif.AvroWriteThms
import Verif.JsonDataSpec
import Verif.JsonDataLemmas
import Verif.JsonDataWrite
import Verif.JsonDataOnly
import Verif.JsonDataThms
import Verif.ProtoDataSpec
import Verif.ProtoDataRead
import Verif.ProtoDataWrite
import Verif.ProtoDataThms
import Verif.ProtoDataWriteThms
import Verif.AvroOnlySpec
import Verif.AvroOnlyRead
import Verif.AvroOnlyRead2
import Verif.AvroOnlyThms
import Verif.AvroStoredSpec
import Verif.AvroStoredLemmas
import Verif.AvroStoredLemmas2
import Verif.AvroStoredThms
import Verif.JsonReadSpec
import Verif.JsonReadLemmas
import Verif.JsonReadThms
import Verif.ProtoOnlySpec
import Verif.ProtoOnlyLemmas
import Verif.ProtoOnlyThms
import Verif.PgCatalog
import Verif.PgCatalogSpec
import Verif.PgCatalogLemmas
import Verif.PgCatalogThms
import Verif.MissingThms
import Verif.PgArraysSpec
import Verif.PgArraysThms
import Verif.PgArraysOther
import Verif.RowsSpec
import Verif.RowsLemmas
import Verif.RowsThms
import Verif.JsonRefsSpec
import Verif.JsonRefsLemmas
import Verif.JsonRefsThms
import Verif.JsonBackThms
import Verif.InfoQuery
import Verif.InfoQuerySpec
import Verif.InfoQueryThms
import Verif.NestedRowsSpec
import Verif.NestedRowsLemmas
import Verif.NestedRowsThms
import Verif.NestedRowsUnions
import Verif.NestedRowsDeep
import Verif.Cli
import Verif.CliSpec
import Verif.CliThms
import Verif.JsonAliasSpec
import Verif.JsonAliasLemmas
import Verif.JsonAliasThms
import Verif.AvroRefsSpec
import Verif.AvroRefs
import Verif.AvroRefsThms
import Verif.AvroRowsSpec
import Verif.AvroRowsLemmas
import Verif.AvroRowsNested
import Verif.AvroRowsThms
import Verif.AvroRowsFixed
import Verif.AvroRowsArrays
import Verif.EndToEndSpec
import Verif.EndToEndLemmas
import Verif.EndToEndThms
import Verif.EndToEndPgSpec
import Verif.EndToEndPgThms
import Verif.EndToEndBqSpec
import Verif.EndToEndBqThms
import Verif.EndToEndLiteSpec
import Verif.EndToEndLiteThms
import Verif.ClientsPlusSpec
import Verif.ClientsThms5
import Verif.JsonKeptSpec
import Verif.JsonKeptLemmas
import Verif.JsonKeptTypes
import Verif.JsonKeptThms
import Verif.FilesSpec
import Verif.FilesThms
import Verif.FilesConfigured
import Verif.EndToEndFileSpec
import Verif.EndToEndFileThms
import Verif.EndToEndAvroSpec
import Verif.EndToEndAvroThms
import Verif.AvroKeptSpec
import Verif.AvroKeptThms
