# Formal model of alexdemeo/recap in Lean 4

## Layout

All modules are in `lean/Verif/` and imported from `lean/Verif.lean`.  For each part of the code there are

* the model, which follows the Python code function by function and cites its lines;
* a specification (`*Spec.lean`, `*Means.lean`), which does not use the model's helpers and which the property
  theorems are stated against;
* helper lemmas (`*Lemmas.lean` and other files);
* the property theorems (`*Thms.lean` and other files; their names start with the number of the property), with
  `example`s that show that their hypotheses can be met.

| Part of the code | Model | Specification |
|---|---|---|
| Python values, dictionaries, `==`, truthiness, iteration | `Py` | |
| `recap/types.py` | `Types` | `TypesSpec`, `AliasRegex`, `CompactSpec` |
| `recap/storage/registry.py` on a local file system | `Quote`, `Storage` | `StorageSpec` |
| `recap/server/registry.py` | `Server` | `StorageSpec` |
| `recap/converters/dbapi.py`, `mysql.py`, `postgresql.py`, `snowflake.py`, `sqlite.py` | `Relational` | `RelationalSpec` |
| `recap/clients/sqlite.py` (columns) | `SqliteClient` | in `SqliteThms` |
| `recap/converters/hive_metastore.py` | `Hive` | `HiveSpec` |
| `recap/clients/hive_metastore.py` (`schema`, `_load_stats`) | `HiveStats` | `HiveStatsSpec` |
| `recap/converters/bigquery.py` | `BigQuery` | `BigQuerySpec` |
| `urllib.parse`, `pathlib` of CPython 3.11 as far as used | `Url` | `SettingsSpec` |
| `recap/settings.py` (`safe_urls`, `unsafe_url`) | `Settings` | `SettingsSpec` |
| `recap/clients/*.py` (`parse`, `create`, dispatch of `ls` and `schema`), `recap/commands.py` 28-60 | `Clients` | `ClientsSpec` |
| `recap/commands.py`, `recap/server/gateway.py`, `recap/cli.py` 11-43, composed with the converters | `Commands`, `Cli` | `CommandsSpec`, `CliSpec` |
| `recap/converters/json_schema.py` | `JsonSchema` | `JsonSchemaSpec` |
| `recap/converters/avro.py` | `Avro` | `AvroSpec`, `AvroMeans` |
| `recap/converters/protobuf.py` | `Protobuf` | `ProtobufSpec`, `ProtobufMeans`, `ProtobufRoundSpec` |

`tools/` holds scripts: `props.py` writes `properties.jsonl`, `manifest.py` writes `MANIFEST.json` from the names of
the theorems and from `notes.py`, `design.py` writes the generated sections of this file, and `mutate.py` tests the
theorems against the wrong programs in `tools/mutants/`, with the results in `seeded/LOG.jsonl`.

## Method

Model functions are total computable Lean functions that follow the Python code branch by branch.
Python exceptions are values of `Except PyErr`.  Recursion that is not structural (because
`from_dict` rewrites its input before recursing, or because references are followed) uses fuel; theorems show that the
fuel always suffices (`PyErr.fuel` is never returned: `C07`, `fromRecap_ne_fuel`, `fromRecap_fuel`, `toRecap_fuel`) and
that more fuel does not change the result.

Registries are explicit state.  `copy.deepcopy` of a type also copies the registry its references
point to; the model represents this by references that are either *live* (the ambient registry) or
carry a *snapshot*.  Files are explicit state too: a crash can happen between any two states of the file system that
`put` goes through.  The handlers of the server run up to their next `await`; a schedule is any list of task numbers.

When a property is false of the code as it stands, the model is kept faithful, the negation is
proved on a concrete witness or for a whole class of inputs (theorem name `..._refuted`), the strongest true
restriction is proved under a name ending in `_partial`, and the disagreement is listed below.

The model of `urllib.parse` was compared with the one of CPython 3.11 on 4000 random URLs (the same text goes
through Lean's `#eval` and through Python).  They agree, except on malformed UTF-8, where the test used a stand-in for
`repair`.  This is a test of the translation, not part of a proof.

## Plan per property

| Property | Model | Proof |
|---|---|---|
| C01 | `toDict false false`, `fromDict` | induction on the type, registry threaded; keys-disjointness lemmas |
| C02 | `cleanDict` | refutation by witnesses; `_partial` for canonical types by induction |
| C03 | `aliasDict` + `cleanDict` | induction; idempotence of alias substitution on written children |
| C04 | `toDict` | refutation by witness; `_partial` for types whose aliases are kept apart (`CompactNestedSpec`) |
| C05 | `cleanDict` | refutation; `_partial` for non-optional unions and non-unions |
| C06 | `fromDict`, `validate` | induction on fuel: all nested types valid |
| C07 | `fromDict` | fuel sufficiency by size |
| C08, C09, C11 | registry state | invariants over `fromDict` by induction on fuel |
| C10 | `aliasOk` | equivalence with the regex language |
| C12, C13 | `RType.pyEq` | mutual induction |
| C14–C17 | `makeNullable`, `isNullable` | case analysis; C15 refuted by witness and characterised |
| C18, C19, C72 | `resolve`, snapshots | invariant over registry histories; C19, C72 refuted by witness |
| C20–C23 | `fromDict` | unfolding; C21–C23 refuted by witness where false |
| C24 | `aliasDict` | inversion |
| C71 | `fromDict`, `toDict` | what is parsed is well-formed (induction on fuel), then C01 |
| C25–C30 | storage over a file system | refinement, invariant over operation sequences; C29 refuted for `..` |
| C31, C32 | the states `put` goes through | every prefix of the states; C32 refuted |
| C33–C38, C73, C74 | HTTP handlers split at awaits | invariants over schedules and histories; C34, C73, C74 refuted |
| C39–C45 | `urlsplit`/`urlunsplit`, settings | inversion on the form of a URL; C40, C41, C43–C45 refuted |
| C46, C47, C86–C92 | client table, `parse_url`, `create_client` | for all URLs of the form of `SettingsSpec`, through the URL dictionary |
| C48–C53, C75–C78, C85 | dialect converters | induction over columns, arithmetic on precisions |
| C54 | converters with their registries | run twice; refuted for PostgreSQL arrays |
| C55, C79, C80 | SQLite affinity and columns | case analysis on the declared text |
| C56, C84 | BigQuery converter | structural induction |
| C57–C59, C81–C83 | Hive converter | structural induction, mirror relation |
| C60 | `intSchema` | arithmetic on widths and digits |
| C61–C63, C94–C98 | Avro converter | induction on the meaning relation, registry invariants |
| C64, C100, C101, C103, C104, C106, C108 | Protobuf writer | the writer as a state machine; invariants of counter and queue |
| C66, C99, C102, C107, C109–C111 | Protobuf reader | order of declarations, resolution as a fixed point |
| C65, C105 | both | flat messages by induction, refutations by class |
| C67, C93 | JSON Schema reader | induction on fuel against `Readable` |
| C68, C69 | JSON Schema writer | induction over places in the output; order on definitions |
| C70 | both | induction on `Native` |
| C112, C113 | commands and gateway over a world that is a parameter | case analysis, C39, C42 and C86 |
| C114 | a table of any database through `from_recap` for Protobuf | refuted universally |
| C115 | a table of any database through `to_dict` and back through `from_dict` | by C03, after showing for each converter that the types it builds are among those that C03 covers; refuted for documented nullable columns |
| C116 | a table of any database through JSON Schema's `from_recap` | induction on the weight of the type: types without aliases, references and unnamed fields are always written; C68 for the object; refuted for columns whose own type is a union, and for free arrays |
| C117 | a table of any database through Avro's `from_recap`; the schemas of the Avro specification as an inductive predicate | relational tables and BigQuery: the record has no name; Hive: case analysis over column types in both directions, and for unions an induction over nested unions that relates the members to the options of the column |
| C118 | `HiveMetastoreClient.schema` and `_load_stats` over a table and a list of column statistics; what statistics say as an inductive relation | induction on the list of statistics, for every field separately; the last statistics that say a quantity count |
| C119 | a Hive table with statistics through the `from_recap` of JSON Schema, Avro and Protobuf and Recap's `to_dict` | types that differ only in attributes JSON Schema and Avro do not read have the same schema; Recap's own format: the dictionary of an optional union with another attribute loses its name, followed through `to_dict`'s passes |
| C120 | what `from_recap` writes for the fields of a declared struct, against a relation between fields and elements | case analysis of `_recap_to_field`; the types of fields as in C104 |
| C121 | the same, against the rules of Protobuf for map keys and oneofs | an equivalence for each field, by induction through lists and optional types for the keys; refuted for fields outside it |
| C122 | `json.loads` as a scanner over characters, `_request_to_type` over bytes; the grammar of RFC 8259 as inductive relations | completeness by induction on derivations, soundness by induction on the scanner's fuel; the two give an equivalence |
| C123 | `json.dumps` in the three layouts used, encodings as functions from characters to bytes | induction on values: what is written is derivable in the grammar, then C122; printable characters for the registry's files |
| C124 | the storage over a file system with bytes, `put` as the list of states after each byte | the bytes are projected to the file system of C25 to C32 and every operation commutes with the projection; a proper prefix of a JSON text is no JSON text, by induction on derivations |
| C125 | `_request_to_type` on texts that are names | the scanner stops at the first letter of anything but five words; refuted for `null` |
| C126 | the values of types and of columns (`ValuesSpec.lean`); all converters for databases | case analysis on the stored value for the scalar types; induction on the schema for BigQuery and Hive, where flattening a union loses no value because Python's equality of types implies that they have the same values; one refutation per database |
| C127 | listing and reading of a SQLite file, with the part of SQLite's grammar that reads the argument of `PRAGMA table_info`; subjects of a Confluent registry; queries to `information_schema` (`Listed.lean`) | from C88 and the lemmas for C87 for servers; uniqueness of names for SQLite; exact characterisation for subjects; refutations for all names with a slash, all reserved words and all names of two words |
| C128 | Avro's data for each schema, with namespaces and definitions, and the values of a type with references (`AvroDataSpec.lean`), over `Avro.lean` | induction on the order of definitions, with the invariant that what is registered under a name holds the data of the name's definition; copies of types hold the same values; refutations for all strings, all integers, all amounts and all lists of three numbers |
| C129 | the values of a type (`Values.Holds`) and Avro's data (`AvroDataSpec.lean`), over the writer of `Avro.lean` (`AvroWriteSpec.lean`) | strong induction on the depth of the conversion, for all types in positions where Avro expects a schema and in fields; refutations for all structures with a field that is written inline, for all structures with a field of a logical type and for all lists of unions; references by showing that the same is written without them (`Expanded`, `AvroRefsSpec.lean`) |
| C130 | validation of JSON Schema 2020-12 for the keywords type, enum, required, $ref, items, additionalProperties, properties and oneOf, and the JSON values of a type (`JsonDataSpec.lean`), over the reader of `JsonSchema.lean` | induction on the depth of the reader with the schema of each nested position, for all schemas without references and all values; refutation for every integer outside 32 bits | 
| C131 | the same specification, over the writer of `JsonSchema.lean`; references mean any predicate that agrees with the definitions of the schema | structural induction over the type, where a reference to an alias is replaced by its definition; members of unions are told apart by the kind of the value; existence of a meaning by iteration over the size of the defined types; refutations for shared values of members, for null and for defaults |
| C132 | the same specification, with the values of a type apart from ranges and lengths (`Shaped`) | strong induction on the size of the type, for all types and values, with the fields one by one; together with C131 an exact description of the valid values; refutations for every value outside a range, every string that is too long, and fields with the same name |
| C133 | the data of a file by the language guide of Protobuf: scalars, scopes of names, messages, enums, repeated fields, maps and oneofs (`ProtoDataSpec.lean`), over the reader of `Protobuf.lean` | mutual induction on the data, with the meaning of types from C99 and the uniqueness of names from C107; refutations for all points in time outside 64 bits and all lists of two numbers |
| C134 | the same data and the values of a type, over the writer of `Protobuf.lean` | mutual induction on the values as they are stored, with what is declared from C108 and C121; refutations for all points in time, all lists in optional fields and all lists of lists |
| C135 | the same data, with the values as Protobuf stores them (`Stored`) | mutual induction on the data: both directions, so that the data are described exactly; refutations for every integer outside eight bits and for absent fields |
| C136 | the data and values of C128, with data whose byte strings are shortened (`Shorter`, `AvroOnlySpec.lean`) | induction on the order of definitions, with the invariant that what is registered under a name holds only data of its definition; both directions, so that the values are described exactly; refutations for all shorter byte strings, all points in time and all integers |
| C137 | the data of C129, and by recursion on the type the data that Avro has for it as a schema and as a field (`Stored`, `StoredField`, `AvroStoredSpec.lean`) | induction on the converter's calls, an equivalence for every kind of type at once for both positions; the types of which all data are values by induction on `Stored`; refutations for all numbers of bits and all lengths |
| C138 | the validity of C130, and an inductive definition of the values that the schema lets pass if only what the converter reads counts (`Nearly`, `JsonReadSpec.lean`) | induction on the converter's recursion depth, an equivalence at each schema; from there to validity by induction on the schemas with only such keywords (`Understood`); refutations for null, defaults, enum and names that are no property |
| C139 | the data of C133, and the same with null for repeated fields and map fields and one byte more (`NearDatum`, `NearDeclared`, `NearElement`, `ProtoOnlySpec.lean`) | induction on the values of the type, with a statement for every way in which the converter makes a type; the other direction by recursion on the data; refutations for null, for the length and for names of other messages |
| C140 | the catalogs `pg_namespace`, `pg_class`, `pg_attribute`, `pg_type` and `pg_enum`, the view `information_schema.columns`, and the joins, the aggregate and the order of the query (`PgCatalog.lean`); columns, enums and labels by their identifiers (`PgCatalogSpec.lean`) | each join keeps exactly one row (lists without duplicate keys); an attribute gives one row if it is a column of the table, else none; the order by uniqueness of the column numbers; refutations with a database and, for types that are not read, for all databases |
| C141 | the reads of C127 and C140 | by cases for SQLite; the empty answer for all databases without the table |
| C142 | the values of arrays (`PgArraysSpec.lean`); the PostgreSQL converter and the registry | what the reference to itself resolves to, for the type without enforced dimensions; induction on the number of dimensions, if they are enforced |
| C143 | rows as JSON objects (`RowsSpec.lean`); the relational converters and the JSON Schema writer | what is valid against the schema (C131, C132) is compared with the form of the values of each column, case by case over the types of each database, and by induction on dimensions |
| C144 | the reader of `JsonSchema.lean` with its resources, references in a type and in a document (`JsonRefsSpec.lean`) | induction on the depth of the reader: each reference that is returned comes from one in the document, with the schema it was read for; refutations for all documents and references, because nothing that is read is registered |
| C145 | how `alias` is made of an identifier, with `urlparse` (`Url.lean`) and the rule for aliases; URLs described as hosts and words | an equivalence between the accepted aliases and a description of the URL by characters; from there to all aliases of what is read, by induction on the depth of the reader |
| C146 | the rows of `information_schema.columns`, and the query as a relation between the view and the answers of the server (`InfoQuery.lean`, `InfoQuerySpec.lean`) | the answer is a permutation of the columns of one table, ordered by distinct positions, hence unique; then field by field through the converter |
| C147 | rows with records, arrays, maps and structures as JSON objects (`NestedRowsSpec.lean`); the BigQuery and Hive converters and the JSON Schema writer | induction on the type of the column, with what is valid against the schema (C131, C132); refutations for all rows in which null is written |
| C148 | `recap ls` and `recap schema` with what is printed (`Cli.lean`), and the gateway of `Commands.lean` | both call the same functions with the same arguments; the texts by C123; a URL that the gateway refuses by cases of `unsafe_url` |
| C149 | the rows of C126 and C147, Avro's data of C129 (`AvroRowsSpec.lean`), all converters for databases and the Avro writer | C126 and C129 for the columns of which both speak, each type of each database on its own for the shape of the schema; refutations for all rows of tables with such columns |
| C150 | servers with an `information_schema`, the URL of a table, the rows of C143 and C149 (`EndToEndSpec.lean`, `EndToEndPgSpec.lean` for PostgreSQL, `EndToEndBqSpec.lean` for BigQuery, `EndToEndLiteSpec.lean` for SQLite); settings, clients, converters, writers, gateway and command line together | composition of C87, C46 or C90, C146, C140 or C127, C143, C147 or C149, C112, C122 and C123; that the schema of a table is a value of Python by induction on types; refutations for all such rows |
| C151 | the dictionary of a URL whose scheme has a `+`, `create` and `parse` of both clients (`Clients.lean`), what is given to the driver (`ClientsPlusSpec.lean`) | `str.replace` by induction on the text; what the dictionary has under each key; refutations for all URLs and configurations with C47 |
| C152 | reading and writing JSON Schema (`JsonSchema.lean`), which values are valid (`JsonDataSpec.lean`), which schemas keep their meaning (`JsonKeptSpec.lean`); the path of a file and what is printed for it (`EndToEndFileSpec.lean`) | induction on the schema: the valid values are those that have the shape of the type that is read; then C132; from the path to the text with C153 and the model of JSON texts |
| C153 | `parse`, `create` and `schema` of the filesystem client and `parse_url` (`Clients.lean`), the place of a path and of a URL (`FilesSpec.lean`) | what `urlparse` makes of a path without special characters, then the parts of the path; four refutations by witnesses |
| C154 | reading and writing Avro (`Avro.lean`), the data of a schema (`AvroDataSpec.lean`), which schemas keep their data (`AvroKeptSpec.lean`); the path, the client for files and the printed text (`EndToEndAvroSpec.lean`) | induction on the schema: the types that are read are of those for which C129 and C137 are proved; then C128 and C136; refutations by witnesses |

Every property can be expressed in the model.

## Trusted base

* Lean 4.33.0's kernel.
* The axioms `propext`, `Classical.choice` and `Quot.sound`, as far as listed per theorem at the end of this file; none
  is added, and no proof rests on compiled code.
* The hand translation of the Python code into the Lean model.  Each definition cites the lines it models and says
  what it simplifies.

### What is modelled

The functions in the table above.  What is simplified:

* JSON texts: `json.loads` and `json.dumps` are modelled character by character for the registry's files, the bodies
  of requests and the documents shown (C122 to C125); how a decimal fraction denotes a double is a parameter.
  Elsewhere JSON texts are the values they encode.  Dictionaries have string keys; floats are finite and not integral
  (`1.0`, infinities and NaN are not modelled); strings have no lone surrogates.
* Values of columns (C126): which values a database stores is taken from its documentation, for the type names that
  its information schema uses; floating point numbers are known by the size of their format only.
* Listing and reading (C127): of a SQLite file only tables, views and the rows of `PRAGMA table_info`; the set of
  reserved words of SQLite is a parameter; table names that could end the `PRAGMA` statement early are not modelled.
* Storage: only `fsspec`'s local file system, without symbolic links, permissions and full disks; writes become
  durable in program order; a crash leaves one of the states that `put` goes through.
* Server: routing, HTTP parsing and FastAPI's own validation are not modelled; an uncaught exception is a 500.  There is
  one event loop per process; C74 has two processes.
* Relational converters: the rows of the information schema are given as dictionaries.
* Hive and BigQuery: the classes of the drivers (`HTable`, `SchemaField`) are given as trees.
* URLs: operations that rest on Unicode tables (case mapping outside ASCII, NFKC), the syntax of IPv6 addresses and the
  repair of malformed UTF-8 are parameters (`Env`); theorems hold for all of them.
* The catalogs of PostgreSQL (C140): of their columns only those that the query and `information_schema.columns` use; what
  the view shows and what the catalogs guarantee is taken from the documentation of PostgreSQL.
* Clients: drivers are not modelled; a connection is the keyword arguments given to the driver, a query what is asked of it.
* Data of schemas (C128–C139): what is valid is taken from the specifications of Avro 1.11, JSON Schema 2020-12 and the
  language guide of Protobuf, not from code in the repository; durations are no values.
* JSON Schema: of `referencing` only resources by identifier; retrieval over the network is not modelled.
* Protobuf: files are the syntax trees of `proto_schema_parser`, not texts.

### What is not modelled

* `recap/server/app.py`, the colours and the command `serve` of `recap/cli.py`, the text that `proto_schema_parser`
  generates for a Protobuf file;
* the SQL texts of the clients other than the query of C140, and network calls;
* how pydantic reads and validates settings and `.env` files;
* the parsers and printers of Protobuf texts, and time and memory use.

## Disagreements between the code and the properties

Each line says what is false of the code, and where it is proved.

<!-- disagreements -->

* C02: False of the code: a union with a default, a null and any further attribute loses default, doc, alias, logical and name (refuted). — `C02_lossy_union_refuted`
* C03: False of the code for the same unions (refuted). — `C03_user_alias_refuted`, `C03_lossy_union_refuted`
* C04: False of the code: an alias two levels below types without alias is registered twice, and a nested union fails an assertion (both refuted). — `C04_uncompacted_refuted`, `C04_deep_alias_refuted`, `C04_nested_union_refuted`
* C05: False of the code for unions with a default and an attribute of their own, and for a list as `type` (both refuted). — `C05_lossy_union_refuted`, `C05_type_list_refuted`
* C15: False of the code: make_nullable pops name and default from the receiver and shares a union's member list with the result (both refuted with witnesses). — `C15_receiver_changes_refuted`, `C15_receiver_union_changes_refuted`
* C16: False of the code for unions whose null member is not plain (refuted). — `C16_nullable_union_changes_refuted`
* C18: Proved for references whose overrides are ordinary attribute names, in every later registry state. The overrides `bytes`, `doc` and `logical` written in a document do not take effect (refuted with witnesses). — `C18_bytes_override_lost_refuted`, `C18_doc_override_lost_refuted`
* C19: False of the code for recursive types (refuted: the second step fails). — `C19_recursive_reference_refuted`
* C21: False of the code when a member is itself a list, and with `optional` (both refuted). — `C21_nested_list_refuted`, `C21_optional_refuted`
* C22: False of the code when `types` is a string (refuted). — `C22_string_types_refuted`
* C23: False of the code when an alias is given on the reference (TypeError; refuted). — `C23_alias_refuted`
* C29: False of the code for the names . and .. (quote_plus leaves dots alone; refuted: a put under .. writes outside the storage directory). — `C29_parent_directory_refuted`
* C31: False of the code when an existing version is written again (refuted). — `C31_overwrite_refuted`
* C32: False of the code: a crash between opening and writing leaves a version that is listed but cannot be read (refuted). — `C32_unreadable_version_refuted`
* C34: False of the code for PUTs that overlap (refuted: both answer 200). — `C34_overlapping_puts_refuted`
* C36: False of the code for types that do not survive to_dict and from_dict (refuted with a document). — `C36_lossy_document_refuted`
* C38: False of the code: a stored document that cannot be written again gives 500 (C38_known_refuted: a union with an alias, a default and an attribute that is called values is stored without its alias, and then the attribute is taken for a type). 404 exactly for what has not been stored: proved for all histories of ordinary names. 200 for what has been stored: proved for histories of canonical types whose aliases are kept apart (see C03). — `C38_known_refuted`
* C40: False of the code: the brackets of an IPv6 host are dropped with the credentials, and file URLs gain slashes (both refuted). — `C40_ipv6_refuted`, `C40_file_refuted`
* C41: False of the code: a configured URL with an empty path answers for nothing, and a merged file URL has extra slashes (both refuted). — `C41_empty_path_refuted`, `C41_file_refuted`
* C43: False of the code: the comparison of paths is textual, so credentials for /data are added to /database (refuted). — `C43_sibling_refuted`
* C44: False of the code for configured URLs with an empty path (refuted). — `C44_empty_path_refuted`
* C45: False of the code for parameters of the request that are blank or have no value: they are dropped and the configured value is used (refuted). — `C45_blank_refuted`
* C46: False of the code for http+csr, https+csr and thrift+hms: parse_url makes an http, https or thrift URL, which create_client refuses (both refuted). — `C46_registry_refuted`, `C46_hive_refuted`
* C47: False of the code: a query parameter called scheme replaces the scheme (refuted). — `C47_parameter_refuted`
* C49: False of the code: a NOT NULL SQLite column of NUMERIC affinity and a zero-dimensional PostgreSQL array are nullable (refuted). — `C49_not_null_refuted`
* C51: False of the code: MySQL CHAR(0) gives a type that validate() rejects (refuted). — `C51_zero_length_refuted`
* C52: False of the code for MySQL and PostgreSQL precisions above 6 (refuted; such columns do not exist in these systems). — `C52_nanoseconds_refuted`
* C54: False of the code: a second read of a PostgreSQL table with an array column fails because the alias is taken (refuted, and proved in general). — `C54_second_read_refuted`
* C59: False of the code: a list or map inside a union loses its attributes to a bogus attribute named extra_attrs (refuted). — `C59_list_attributes_refuted`
* C60: Proved for signed integers of 1 to 64 bits and unsigned integers of 1 to 32 bits. False of every wider integer that is written: its largest value has one digit more than the decimal has (refuted universally). — `C60_wide_refuted`
* C61: Proved for every struct, of any depth, of the types in Native whose aliases are those of the namespace given to to_recap and new to the converter. False of fixed-length bytes (every length), durations, other widths, sized strings, fixed lists and sized decimals, which come back changed, and of aliases in other namespaces (all refuted). — `C61_fixed_refuted`, `C61_lossy_refuted`, `C61_namespace_refuted`, `C61_duration_refuted`
* C62: False of the code: two records in one namespace with a field of the same name, and arrays and maps of unions, are refused (both refuted). — `C62_fields_refuted`, `C62_array_refuted`
* C63: False of the code: a list of int32 becomes an array of the undefined type int32, and a recursive schema that is read and written refers to a name that is only an alias (both refuted). — `C63_nameless_refuted`, `C63_names_refuted`
* C64: False of the code: the field after a oneof with several members has the number of one of them (refuted). — `C64_numbers_refuted`
* C65: False of the code: what is read from a first message with a string, bytes or map field is never written (both refuted universally), and field numbers change (refuted). — `C65_text_refuted`, `C65_map_refuted`, `C65_number_refuted`
* C66: False of the code: a message other than the first that refers to a later one is not read (refuted). — `C66_forward_refuted`
* C67: False of the code: a required property that accepts null and has a default becomes optional (refuted). — `C67_required_refuted`
* C69: False of the code: a list of references to an alias defined in the same type overwrites its definition by a reference to itself, and a field that refers to a type read earlier leaves references undefined (both refuted). — `C69_refuted`, `C69_dangling_refuted`
* C70: Proved for every struct, of any depth, of strings, 64-bit floats, signed 32-bit integers, booleans, null, lists, structs and optional fields, with descriptions and defaults (Native). False of bytes, enums, sized strings, other widths, dates and fixed lists, which come back as something else, and of maps, unions and aliased types, which are not read (both refuted). — `C70_lossy_refuted`, `C70_unread_refuted`
* C72: False of the code: overrides are applied after validation (refuted: int32 with bits 0). — `C72_invalid_override_refuted`
* C73: False of the code: a body that is neither JSON nor a type name is accepted as a reference and stored (refuted). — `C73_any_text_accepted_refuted`
* C74: False of the code: two processes choose the same version before either writes, and one schema is lost (refuted). — `C74_lost_schema_refuted`
* C76: False of the code: the array columns a.b and a_b share an alias, so a table with both cannot be converted (refuted). — `C76_array_names_refuted`
* C77: False of the code: arrays of timestamps raise KeyError (refuted). — `C77_timestamp_array_refuted`
* C78: False of the code: Snowflake TIME becomes a 32 bit integer counting nanoseconds (refuted). — `C78_bigquery_refuted`, `C78_time_overflow_refuted`
* C79: False of the code for NOT NULL columns of NUMERIC affinity (refuted). — `C79_not_null_refuted`
* C80: False of the code for declared types of several words (refuted: CHARACTER VARYING(10)). — `C80_two_words_refuted`
* C85: False of the code for PostgreSQL: NUMERIC(100,0) becomes a decimal of 32 bytes (refuted). — `C85_postgresql_refuted`
* C86: False of the code: with ?host=... strict mode sends the configured credentials to another host (refuted). — `C86_host_refuted`
* C87: Proved for PostgreSQL and MySQL. False for Snowflake: the driver is not told the database (refuted); the rest is proved for it. — `C87_snowflake_refuted`
* C88: False of the code for MySQL, where a path that is too deep lists the tables of the schema (refuted). — `C88_mysql_refuted`
* C89: False of the code for every BigQuery URL: the negation is proved universally, listing never succeeds because parse makes three arguments and ls takes two. — `C89_bigquery_refuted`
* C90: False of the code for absolute paths and for URLs with parameters (both refuted). — `C90_absolute_refuted`, `C90_parameter_refuted`
* C91: False of the code: percent escapes reach the driver undecoded (refuted). — `C91_escape_refuted`
* C92: False of the code in one direction: with file:///data configured nothing below /data can be read (refuted). — `C92_below_refuted`
* C93: False of the code: items: true is refused with a TypeError (refuted). — `C93_error_refuted`
* C95: False of the code: the doc of a field whose type is a dictionary ends up among the other attributes (refuted). — `C95_doc_refuted`
* C97: False of the code: a schema that gives any name cannot be read twice by one converter (refuted universally). — `C97_twice_refuted`
* C98: False of the code for every unknown logical type on a field: the negation is proved universally, to_recap fails with a ValueError. Nothing is left to prove. — `C98_logical_refuted`
* C100: False of the code: an optional field whose type has no name of its own is called field_N (refuted universally). — `C100_optional_refuted`
* C101: False of the code: a struct in a package whose name only begins like the root package is dropped, and a struct that is used twice is declared twice (both refuted). — `C101_dropped_refuted`, `C101_twice_refuted`
* C102: False of the code: after a file without a package no other file without a package can be read (refuted universally). — `C102_again_refuted`
* C105: False of the code: what is written for a struct with an enum or a reference and no nested struct is never read (refuted universally), and a struct with a nested struct comes back as the nested one (refuted). — `C105_reference_refuted`, `C105_root_refuted`
* C106: False of the code: lists of lists are flattened, optional lists and maps of lists lose the list (refuted universally). — `C106_nested_refuted`
* C107: False of the code: a file in which two nested messages or enums have the same name is never read (refuted universally), and a dotted reference to a nested message is refused (refuted). Nothing is left to prove. — `C107_scopes_refuted`, `C107_dotted_refuted`
* C108: False of the code: a reference to a built-in alias such as int32 is written as the undeclared type .int32 (refuted). — `C108_types_refuted`
* C109: False of the code: a reference of a second message to itself cannot be resolved (refuted). — `C109_resolved_refuted`
* C111: False of the code: the negation is proved universally, a file whose first message has such a reference is never read. Nothing is left to prove. — `C111_absolute_refuted`
* C112: Proved: the answer is exactly what the converter for the format makes of what the client reads, and 415 is exactly for content types that ask for no format. False of the code for content types with parameters or upper-case letters, which are refused (refuted). — `C112_media_type_refuted`
* C113: Proved that without configured URLs nothing is shown and that the root list does not depend on credentials; the server and credentials for the URLs of C86. False of the code for a query that sets a parameter of the driver (refuted). — `C113_host_refuted`
* C114: False of the code: the negation is proved universally, no table of any database can be shown as Protobuf. Nothing is left to prove. — `C114_no_table_refuted`, `C114_refuted`
* C115: Proved for tables of relational databases whose lengths lie in the documented range, with PostgreSQL arrays of either kind, for BigQuery tables without descriptions of nullable fields and for Hive tables without comments on columns. False of the code for nullable BigQuery columns with a description and for Hive columns with a comment: the doc moves from the column to the alternative that is not null. — `C115_bigquery_refuted`, `C115_hive_refuted`
* C116: Proved for BigQuery, for relational databases except nullable-by-themselves types (SQLite columns of NUMERIC affinity, enforced PostgreSQL arrays of zero dimensions) and free PostgreSQL arrays, and for Hive except columns of type void and unions. False of the code for nullable SQLite NUMERIC columns and for Hive columns of type void or a union of two types, which are required though they can be null, and for PostgreSQL arrays with the default settings, whose definition is a reference to itself (all refuted). — `C116_sqlite_refuted`, `C116_hive_refuted`, `C116_postgresql_refuted`
* C117: False of the code for relational databases and BigQuery, whatever the table (refuted universally): the record has no name. For Hive, proved that a table is written as an Avro schema exactly if each column is a boolean, integer, float, void, binary, date, decimal, a varchar or char with a length, a list of void, or a union of these without two different types of one Avro kind; strings, timestamps, intervals, maps, structs, other lists and other unions are refused or written as something that is no schema (refuted). References to named types and non-null defaults are not part of the specification of schemas used here. — `C117_relational_refuted`, `C117_bigquery_refuted`, `C117_hive_refuted`, `C117_union_refuted`
* C119: Proved for JSON Schema and Avro: the schema is the same with and without statistics, and for Protobuf, where both are refused. False of the code for Recap's own format, whatever the table (refuted universally): each column that has statistics and is neither void nor of a union type is shown without its name; the witness also shows that the default is gone and that reading back does not restore them. — `C119_names_refuted`, `C119_recap_refuted`
* C121: False of the code: maps with float keys, unions of a list and another type, and unions of null alone are written (refuted). — `C121_lawful_refuted`
* C125: False of the code for the name null, which is a type of Recap (refuted: 400 for every storage, while the quoted name is stored). — `C125_null_refuted`
* C126: False of the code. Refuted for MySQL (UNSIGNED integers), PostgreSQL (NUMERIC without digits, timestamps after 294247), Snowflake and Hive (timestamps after 2262 in nanoseconds), SQLite (text in an INTEGER column, text longer than the declared length) and BigQuery (NUMERIC has nine digits after the point, the type none; STRING(n) counts characters, the type bytes). — `C126_mysql_refuted`, `C126_postgresql_refuted`, `C126_postgresql_timestamp_refuted`, `C126_snowflake_refuted`, `C126_sqlite_refuted`, `C126_sqlite_length_refuted`, `C126_bigquery_refuted`, `C126_bigquery_string_refuted`, `C126_hive_refuted`
* C127: False of the code. SQLite: the name is put into the PRAGMA statement without quotes, so that reserved words and names of two words raise, and a name in quotes reads another table. PostgreSQL, MySQL and Snowflake: no URL reads a table with a slash in its name; a MySQL URL that names a table lists its schema. Confluent: exactly the subjects that end in -key or -value are read as themselves. — `C127_slash_refuted`, `C127_mysql_refuted`, `C127_sqlite_reserved_refuted`, `C127_sqlite_space_refuted`, `C127_sqlite_quoted_refuted`, `C127_subject_refuted`
* C128: False of the code: references inside a type that a reference resolves to are to a copy of the registry without that type, so a list of three numbers is no value of the recursive type of lists; a logical type that Avro ignores, because it does not apply to the type or is that of a field, is read as the type; a fixed decimal that is referred to by its name cannot be resolved. — `C128_annotation_refuted`, `C128_field_refuted`, `C128_reference_refuted`, `C128_recursive_refuted`, `C128_data_refuted`
* C129: False of the code: a field that is an enum, a list, a map, a structure or a byte string of a fixed length is written with the type inline, which Avro takes for the name of a type, so the schema has no data at all; the logical type of a field is written as an attribute of the field, which Avro ignores; a union inside a list is written as {"type": [...]}, which is no schema. — `C129_bare_refuted`, `C129_inline_refuted`, `C129_logical_refuted`, `C129_items_refuted`, `C129_values_refuted`
* C130: False of the code: integers of JSON Schema have no bound, while the type that is read has 32 bits (C130_integers_refuted, for every integer outside; C130_instances_refuted negates the full statement InstancesHeld). C130_instances_partial proves it for all accepted schemas without $ref and $dynamicRef and all valid values whose whole numbers have at most 32 bits and whose other numbers have at most 53 binary digits. C130_references_partial proves it also for schemas with references to identifiers in the document, where a reference in the type stands for a type in it with the same alias; with what a reference resolves to it is false, as it never resolves (C130_references_refuted, C144). Missing: $dynamicRef and schemas that have to be retrieved; keywords that the converter does not read only make fewer values valid, which the specification ignores; how bytes are written as strings is left open. — `C130_integers_refuted`, `C130_instances_refuted`, `C130_references_refuted`
* C131: False of the code: a value that two members of a union share is rejected by oneOf (C131_oneOf_refuted: every whole number, for an integer and a float); null is rejected for an optional field (C131_null_refuted); a field with a default that is not optional cannot be left out (C131_default_refuted); C131_values_refuted negates the full statement ValuesAccepted. C131_values_partial proves it for values without these cases: optional values are left out rather than null, other fields are there, and members of unions that are not optional are of different kinds; and for types in which it is definite what the references in the schema are to (Definite): each reference in the type, to a built-in alias or to one of the registry, is to a built-in one or has attributes of its own, such as the name of a field, and resolves to something without aliases; the type's own aliases are distinct, not built in and not referred to. C131_interpretation shows that the references in such a schema always have a meaning that meets the definitions. Other references: C131_reference_refuted shows for every registry and every alias that is not built in that the definition written for a reference without attributes, as in a list, is a reference to itself, so that the definitions allow everything or nothing. — `C131_reference_refuted`, `C131_oneOf_refuted`, `C131_null_refuted`, `C131_default_refuted`, `C131_values_refuted`
* C132: False of the code: bits and lengths are not written, so every integer is valid for every integer type (C132_range_refuted) and every string for every string type (C132_length_refuted); of fields with the same name only the last is checked (C132_names_refuted); C132_only_refuted negates the full statement OnlyValuesAccepted. C132_only_partial proves that valid values are values of the type apart from the range of numbers, the length of strings and lists and the keys of maps (Shaped), for types whose structures have fields with different names and in which it is definite what the references in the schema are to (Definite, as in C131: with references to the registry that have attributes of their own). C132_exactly_partial: if the members of unions that are not optional are of different kinds, the valid values are exactly those. For other references see C131_reference_refuted. — `C132_range_refuted`, `C132_length_refuted`, `C132_names_refuted`, `C132_only_refuted`
* C133: False of the code: points in time that are 2^63 nanoseconds or more away from 1970, which Protobuf allows up to the year 9999, are no values of the type that is read (C133_timestamps_refuted, for each of them); a reference that is left in a recursive type cannot be resolved, so lists of more than one number are no values of it (C133_recursive_refuted); C133_messages_refuted negates the full statement MessagesHeld. C133_references_partial proves, for every accepted file and all data of its first message within these points in time, that they are values of the type, where a reference has the data of the message or enum with its name; C133_messages_partial the same with the values of the type itself, if no reference is left in it. Both are for a converter that has read no other file, and for names of messages and enums without dots, which is what the language has. Missing: files that need other files. Enum numbers that are not declared and durations are outside the specification. — `C133_timestamps_refuted`, `C133_recursive_refuted`, `C133_messages_refuted`
* C134: False of the code: logical types are dropped, so a point in time is no datum of the int64 that is written (C134_timestamps_refuted); a list that can be null, which is what to_recap reads for a repeated field, is written as an optional field (C134_optional_refuted); a list of lists is written as one list (C134_nested_refuted); C134_values_refuted negates the full statement ValuesWritten. C134_references_partial proves it for all structs that Protobuf can express (Regular: no nesting of lists, maps and unions in each other; the package of every alias is that of the file or of a message around; types with the same alias are the same) without logical types on integers and bytes, where a reference has the data of the declaration with its name; C134_values_partial the same for values of the type itself, without references. Missing: types that cannot be expressed; references to types of the registry. — `C134_timestamps_refuted`, `C134_optional_refuted`, `C134_nested_refuted`, `C134_values_refuted`
* C135: False of the code: an integer with eight bits is written as int32, so other integers pass (C135_bits_refuted, for each of them); a field that is not optional can be absent (C135_absent_refuted); C135_only_refuted negates the full statement OnlyValuesWritten. C135_exactly_partial describes the data of the message exactly, for all structs that Protobuf can express (Regular, as in C134): the values as Protobuf stores them (Stored), where numbers have 32 or 64 bits, strings and bytes are shorter than 2 GiB and fields that are no lists or maps can be absent. C135_references_partial and C135_only_partial: if the struct has nothing that Protobuf does not keep (Exact), the data are exactly the values, with and without references. — `C135_bits_refuted`, `C135_absent_refuted`, `C135_only_refuted`
* C136: False of the code: a fixed is read as byte strings of any length up to its size (C136_fixed_refuted); points in time are values of a string with a logical type that Avro ignores (C136_annotation_refuted); the name of a field can be used as that of a type, so an invalid schema has values (C136_name_refuted); C136_values_refuted negates the full statement OnlyDataHeld. C136_exactly_partial describes the values exactly, for the schemas of C128 (every name defined completely before its use, logical types that apply): the data, with byte strings in them possibly shortened. C136_values_partial: without fixed, every value is a datum. — `C136_fixed_refuted`, `C136_annotation_refuted`, `C136_name_refuted`, `C136_values_refuted`
* C137: False of the code: integers with other than 32 or 64 bits, or without a sign, have data outside their range (C137_bits_refuted, for all numbers of bits); the data of wider integers are decimals, none of them a value (C137_wide_refuted); strings and byte strings that are longer than any limit are data (C137_strings_refuted, C137_length_refuted); C137_only_refuted negates the full statement OnlyValuesWritten. C137_exactly_partial describes the data exactly, for all types without references (Stored: logical types outside fields only, unions only in fields, nothing for the parts that Avro does not find). C137_only_partial: if numbers have all the bits of Avro's types, strings and byte strings the largest length and fields no logical type (Kept), every datum is a value; C137_same_partial: with C129, the data are exactly the values. C137_references_partial and C137_references_only_partial: the same for types with references to built-in aliases, if what they refer to has a name, a default or a logical type (other references: C129_bare_refuted, C63). — `C137_bits_refuted`, `C137_wide_refuted`, `C137_strings_refuted`, `C137_length_refuted`, `C137_only_refuted`
* C138: False of the code: a property that is not required can be null (C138_null_refuted), a required property with a default can be left out (C138_default_refuted), the converter does not read enum (C138_enum_refuted, for all lists of strings) nor required names that are no property (C138_required_refuted, for all names); C138_only_refuted negates the full statement OnlyInstancesHeld. C138_exactly_partial describes the values exactly, for all accepted schemas without references (Nearly). C138_only_partial: if the schema has only the keywords that are read, and what is required is a property without a default (Understood), every value without properties that are null is valid; C138_same_partial: with C130, being a value and being valid are the same if numbers are moderate. C138_references_partial and C138_references_same_partial: the same for schemas with references to schemas in the document, if different identifiers have different aliases (otherwise C138_colliding_refuted) and a property with an identifier and a list of types without null is required (otherwise C138_optional_refuted: null is added wherever there is a reference to it). Missing: values with null properties where the schema lists the type null; $dynamicRef; schemas that have to be retrieved. — `C138_colliding_refuted`, `C138_optional_refuted`, `C138_null_refuted`, `C138_default_refuted`, `C138_enum_refuted`, `C138_required_refuted`, `C138_only_refuted`
* C139: False of the code: repeated fields and map fields can be null (C139_null_refuted), strings and bytes can have exactly 2 GiB (C139_size_refuted), and a message can use the name of what is declared in another message (C139_names_refuted); C139_only_refuted negates the full statement OnlyMessagesHeld. C139_near_partial: every value is a datum apart from that, for all files in which every name means something where it is used, with or without references left in the type. C139_exactly_partial: without references, the values are exactly those (NearRoot). C139_only_partial: every value with strings and bytes smaller than 2 GiB is a datum if nothing in it is null or the file has no repeated fields and map fields. Missing: converters that have read other files before. — `C139_null_refuted`, `C139_size_refuted`, `C139_names_refuted`, `C139_only_refuted`
* C140: False of the code: the query collects the labels of an enum without an order, so that the same table can be read with different types (C140_order_refuted), and a table with a column of any other type that a user has made, such as a domain over an enum, or of an enum without labels is not read at all (C140_types_refuted, for all databases); C140_tables_refuted negates the full statement TablesRead. — `C140_types_refuted`, `C140_order_refuted`, `C140_tables_refuted`
* C141: False of the code for PostgreSQL, MySQL and Snowflake: a struct without fields is returned, for all databases without the table (C141_postgresql_refuted, C141_others_refuted), and also for another database than the one that is connected to, whatever tables it has (C141_catalog_refuted). — `C141_postgresql_refuted`, `C141_catalog_refuted`, `C141_others_refuted`
* C142: False of the code. Without enforced dimensions, no array with three dimensions that is not empty is a value, because the reference of the type to itself is to a copy of the registry without it (C142_dimensions_refuted), and none with an element that is null (C142_null_refuted). With enforced dimensions, no array with fewer or more dimensions than declared is (C142_enforced_refuted). Tables with arrays of smallint, boolean, character, bit varying, numeric or timestamps are not read at all (C142_types_refuted). Nor are those with arrays of any type with another name, such as enums and domains (C142_others_refuted), unless the name starts like one that is known: elements of a type whose name starts with char, varchar or bit are taken for strings or bytes, so that integers of such a domain are no values (C142_confused_refuted). C142_arrays_refuted negates the full statement ArraysHeld, for both settings. — `C142_others_refuted`, `C142_confused_refuted`, `C142_dimensions_refuted`, `C142_null_refuted`, `C142_types_refuted`, `C142_enforced_refuted`, `C142_arrays_refuted`
* C143: False of the code. A row in which null is written is never valid, because the schema of an optional property does not admit null (C143_null_refuted; C143_written_refuted negates the full statement RowsAccepted for every database). With null left out, it is false of SQLite: whole numbers, text and bytes in a column of NUMERIC affinity match two alternatives of oneOf (C143_numeric_refuted), and values that do not go with the affinity of the column are not valid (C143_affinity_refuted). It is false of PostgreSQL with the default settings: the schema of an array is a reference to itself (C143_array_refuted). C143_rows_refuted negates RowsAccepted for both. — `C143_null_refuted`, `C143_affinity_refuted`, `C143_numeric_refuted`, `C143_array_refuted`, `C143_written_refuted`, `C143_rows_refuted`
* C144: False of the code: nothing that is read is registered, so that no reference resolves unless its alias is that of a built-in type (C144_dangling_refuted, for all documents and all references in what is read), and then it can resolve to another type than was read (C144_builtin_refuted). If the user registers the type that was read, references to it resolve, but those in what they resolve to do not (C144_registered_refuted). Two identifiers can have the same alias, so that it does not say which schema is meant (C144_ambiguous_refuted). C144_references_refuted negates the full statement ReferencesResolve. — `C144_dangling_refuted`, `C144_references_refuted`, `C144_registered_refuted`, `C144_ambiguous_refuted`, `C144_builtin_refuted`
* C145: False of the code: the alias of an identifier without a host, such as person.json or urn:example:person, starts with a dot or is empty and cannot be registered (C145_relative_refuted, for all of them and all registries); also those of a URL with a number in its path (C145_version_refuted) and of hosts with a port or without a dot (C145_host_refuted). C145_aliases_refuted negates the full statement AliasesQualified. — `C145_relative_refuted`, `C145_version_refuted`, `C145_host_refuted`, `C145_aliases_refuted`
* C146: C146_columns and, for MySQL with its single catalog, C146_mysql: for all views, answers of the server and ways to compare names by which the requested names are those of one table (Means): the fields are those of the columns of that table, in order, with their names and nullability, each as the converter makes it of the column alone; which type that is, is in C51 and C52. C146_deterministic: the result does not depend on the order of the rows in the view, on the spelling of its column names or on the way names are compared. C146_missing: for a name that no table has, an empty struct is returned, and no exception. C146_confused_refuted: without Means, if the server takes the names of two tables for the same, the struct has the columns of both. Modelled: the query as a relation between the view and the rows that can be returned; not modelled: SQL itself and the driver. — `C146_confused_refuted`
* C147: False of the code. An object that has null for a column that can be null is never valid (C147_bigquery_null_refuted; C147_hive_null_refuted for columns without unions or void, C147_hive_inner_null_refuted for those with unions in Told inside), as the schema of an optional property does not admit null. With null left out it is false of Hive: the schema of a list does not admit null as an element (C147_hive_elements_refuted, C147_hive_inner_elements_refuted), a column of a union of two types is required although it can be null (C147_hive_union_refuted; C147_hive_required_refuted for the unions in Told of several types, and for columns of type void, whose rows are all not valid), and an integer in a union of int and double matches two alternatives of oneOf (C147_hive_overlap_refuted; C147_hive_numbers_refuted for all types of integers and floats and all tables). C147_refuted negates the full statements, for BigQuery if null is written and for Hive in both cases. — `C147_hive_required_refuted`, `C147_hive_inner_null_refuted`, `C147_hive_inner_elements_refuted`, `C147_hive_numbers_refuted`, `C147_bigquery_null_refuted`, `C147_hive_null_refuted`, `C147_hive_elements_refuted`, `C147_hive_union_refuted`, `C147_hive_overlap_refuted`, `C147_refuted`
* C148: False of the code for empty lists: if the gateway answers with an empty list, recap ls prints nothing, which is no JSON (C148_empty_refuted for all such URLs; C148_refuted negates the full statement SamePrinted). — `C148_empty_refuted`, `C148_refuted`
* C149: False of the code. A row of a table with a NOT NULL column of dates, times, points in time or decimals is never a datum, because the logical type is written as an attribute of the field, where Avro ignores it (C149_required_refuted, C149_bigquery_required_refuted). A table with a NOT NULL column of fixed bytes, bits, enums or arrays, or a BigQuery table with an array or a record that is not NULLABLE, has a schema without any data (C149_inline_refuted, C149_bigquery_inline_refuted). Arrays and lists that can be null have no data with an element: only null and the empty list (C149_elements_refuted for PostgreSQL arrays of one dimension, C149_arrays_refuted for those whose dimensions are not enforced, C149_hive_lists_refuted for Hive lists of anything but void), and, of arrays with k dimensions, those without any element (C149_dimensions_refuted). A text in an INTEGER column of SQLite is no datum (C149_sqlite_refuted). In a BIT column of MySQL that can be null only null and exactly eight bytes are data, in a BINARY(n) column only null and exactly n bytes (C149_fixed_refuted). C149_rows_refuted, C149_sqlite_refuted and C149_nested_refuted negate the full statements. — `C149_dimensions_refuted`, `C149_arrays_refuted`, `C149_fixed_refuted`, `C149_required_refuted`, `C149_inline_refuted`, `C149_elements_refuted`, `C149_bigquery_inline_refuted`, `C149_bigquery_required_refuted`, `C149_hive_lists_refuted`, `C149_rows_refuted`, `C149_sqlite_refuted`, `C149_nested_refuted`
* C150: False of the code if columns that are null are written as null, which the schema allows in no property: the object of such a row is never valid against what is printed (C150_null_refuted, C150_refuted, C150_bigquery_refuted). False of SQLite, where a column of a primary key can be null unless it is INTEGER, but its property is required: no row with null in the key is valid (C150_sqlite_key_refuted, C150_sqlite_refuted). False in Avro: if a column with a date, a time, a point in time or a decimal is NOT NULL, no row of the table is a datum (C150_avro_required_refuted, C150_avro_refuted). False of PostgreSQL tables with arrays, whose declared dimensions the server does not enforce (C150_pg_refuted). — `C150_bigquery_refuted`, `C150_sqlite_key_refuted`, `C150_sqlite_refuted`, `C150_pg_refuted`, `C150_avro_required_refuted`, `C150_null_refuted`, `C150_refuted`, `C150_avro_refuted`
* C151: False of listing and reading: no URL of a metastore whose host is a name and no URL of a registry can ever be listed or read, whatever is configured, because parse_url makes a URL with the scheme thrift, http or https of it, for which there is no client (C151_hive_refuted, C151_registry_refuted). False of a registry if +csr:// occurs again in the URL, which is replaced there too (C151_marker_refuted). — `C151_hive_refuted`, `C151_registry_refuted`, `C151_marker_refuted`
* C152: False: a property that is not required but can be null cannot be null afterwards (C152_null_refuted); a property that is not required and has two types is required afterwards (C152_types_refuted) and can be null (C152_null_accepted_refuted); a whole number is rejected afterwards where number and integer are allowed (C152_numbers_refuted); enum is dropped (C152_enum_refuted, C152_same_refuted). — `C152_null_refuted`, `C152_types_refuted`, `C152_null_accepted_refuted`, `C152_numbers_refuted`, `C152_enum_refuted`, `C152_same_refuted`
* C153: False of the code: for a relative path the first character is dropped and a file in the root of the file system is read, /ata/a.json for data/a.json (C153_relative_refuted); a path is cut at the first # or ?, so that for /data/a.json#old.json the file /data/a.json is read (C153_hash_refuted); percent escapes in a URL are not decoded (C153_escapes_refuted); localhost as the host of a URL is taken for a directory (C153_localhost_refuted); a parameter of a configured URL that is named like a part of it replaces that part, so that with file:///?scheme=s3 no path is read any more (C153_parameters_refuted). — `C153_parameters_refuted`, `C153_relative_refuted`, `C153_hash_refuted`, `C153_escapes_refuted`, `C153_localhost_refuted`
* C154: False of the code: a record with a field that is an array has no data at all afterwards (C154_array_refuted); a record with a field that is a date has integers instead of dates (C154_date_refuted); a fixed inside a union becomes byte strings of any length (C154_fixed_refuted); a record with a reference to a record has no data at all afterwards, as the name that is referred to is only an alias of the record that is written (C154_reference_refuted); C154_same_refuted negates the full statement SameData. — `C154_array_refuted`, `C154_date_refuted`, `C154_fixed_refuted`, `C154_reference_refuted`, `C154_same_refuted`

<!-- end -->

## Axioms

<!-- axioms -->

Axioms: `propext`, `Classical.choice`, `Quot.sound`

`C01_verbatim_round_trip_any_registry`, `C01_verbatim_round_trip`, `C02_canonical_round_trip_partial`, `C02_lossy_union_refuted`, `C03_nested_round_trip_partial`, `C03_nested_uncompacted_partial`, `C03_user_alias_refuted`, `C03_default_round_trip_partial`, `C03_uncompacted_round_trip_partial`, `C03_lossy_union_refuted`, `C04_nested_partial`, `C04_uncompacted_refuted`, `C04_default_form_partial`, `C04_without_aliases_partial`, `C04_verbatim_partial`, `C04_deep_alias_refuted`, `C04_nested_union_refuted`, `C05_attributes_kept_partial`, `C05_lossy_union_refuted`, `C05_type_list_refuted`, `C06_parsed_types_bounded`, `C06_nested_types_bounded`, `C07_from_dict_terminates`, `C08_aliases_distinct_and_registered`, `C08_alias_stands_for_its_type`, `C09_aliases_never_overwritten`, `C09_second_registration_raises`, `C10_alias_grammar`, `C10_alias_regex`, `C11_user_alias_is_not_builtin`, `C11_builtins_stable`, `C12_eq_reflexive`, `C12_eq_symmetric`, `C13_equality_characterised`, `C14_make_nullable_promotes`, `C14_make_nullable_wraps`, `C14_make_nullable_union`, `C15_receiver_unchanged_partial`, `C16_make_nullable_idempotent_partial`, `C16_nullable_with_default_partial`, `C17_is_optional`, `C17_made_nullable_is_optional`, `C18_reference_resolves`, `C18_unregistered_reference_fails`, `C18_bytes_override_lost_refuted`, `C18_doc_override_lost_refuted`, `C19_recursive_reference_refuted`, `C19_backward_references_partial`, `C20_list_shorthand`, `C20_string_shorthand`, `C20_list_is_union_of_members`, `C21_nested_list_refuted`, `C21_optional_refuted`, `C21_type_list_partial`, `C22_string_types_refuted`, `C22_optional_partial`, `C22_optional_means_union`, `C23_alias_refuted`, `C23_unknown_names_are_references_partial`, `C24_substitution_sound`, `C24_reference_equal`, `C25_storage_refines_map`, `C26_versions_increase`, `C26_put_is_fresh`, `C27_versions_and_latest`, `C28_names_survive`, `C29_parent_directory_refuted`, `C29_own_directory_partial`, `C30_ls_sorted_and_complete`, `C31_crash_loses_nothing_partial`, `C31_overwrite_refuted`, `C32_crash_outcomes_partial`, `C32_unreadable_version_refuted`, `C33_published_versions_immutable`, `C34_later_puts_rejected_partial`, `C34_sequential_puts_partial`, `C34_overlapping_puts_refuted`, `C35_posts_get_distinct_versions`, `C36_get_returns_stored_partial`, `C36_lossy_document_refuted`, `C36_get_equal_partial`, `C37_rejected_requests_change_nothing`, `C38_unknown_is_404_partial`, `C38_known_is_200_partial`, `C38_known_refuted`, `C39_credentials_hidden`, `C39_list_hidden`, `C40_rest_kept_partial`, `C40_ipv6_refuted`, `C40_file_refuted`, `C41_first_match_partial`, `C41_empty_path_refuted`, `C41_file_refuted`, `C42_uncovered`, `C42_strict_server`, `C43_prefix_partial`, `C43_sibling_refuted`, `C44_shown_usable_partial`, `C44_empty_path_refuted`, `C45_request_wins_partial`, `C45_blank_refuted`, `C46_server_partial`, `C46_registry_refuted`, `C46_hive_refuted`, `C46_bigquery_partial`, `C46_sqlite_partial`, `C47_unsupported_partial`, `C47_parameter_refuted`, `C48_fields_match_columns`, `C49_nullability_partial`, `C49_not_null_refuted`, `C50_defaults`, `C51_all_valid_partial`, `C51_zero_length_refuted`, `C52_timestamp_precision_partial`, `C52_nanoseconds_refuted`, `C52_snowflake_precision`, `C53_dimensions`, `C54_repeatable_partial`, `C54_second_read_fails`, `C54_second_read_refuted`, `C55_affinity`, `C55_total`, `C56_fields_kept`, `C60_integers_partial`, `C60_wide_refuted`, `C61_round_trip_partial`, `C61_fixed_refuted`, `C61_lossy_refuted`, `C61_namespace_refuted`, `C61_duration_refuted`, `C62_accepted_partial`, `C62_fields_refuted`, `C62_array_refuted`, `C63_names_partial`, `C63_nameless_refuted`, `C63_names_refuted`, `C64_numbers_partial`, `C64_numbers_refuted`, `C65_flat_partial`, `C65_text_refuted`, `C65_map_refuted`, `C65_number_refuted`, `C66_order_partial`, `C66_forward_refuted`, `C67_required_partial`, `C67_required_refuted`, `C68_everywhere`, `C68_struct`, `C68_aliased`, `C69_ends_partial`, `C69_resolves_partial`, `C69_refuted`, `C69_dangling_refuted`, `C70_round_trip_partial`, `C70_lossy_refuted`, `C70_unread_refuted`, `C71_parsed_types_well_formed`, `C71_parsed_documents_round_trip`, `C72_invalid_override_refuted`, `C72_resolved_types_valid_partial`, `C72_builtin_references_valid_partial`, `C73_stored_types_bounded_partial`, `C73_any_text_accepted_refuted`, `C74_lost_schema_refuted`, `C74_later_process_partial`, `C75_self_reference`, `C76_columns_independent_partial`, `C76_array_names_refuted`, `C77_array_elements_partial`, `C77_timestamp_array_refuted`, `C78_time_of_day_partial`, `C78_time_overflow_refuted`, `C79_sqlite_fields_partial`, `C79_not_null_refuted`, `C80_declared_length_partial`, `C80_text_length_partial`, `C80_two_words_refuted`, `C82_mirrors_table`, `C84_known_schemas`, `C85_hive_decimals_fit`, `C85_mysql_decimals_fit`, `C85_snowflake_decimals_fit`, `C85_postgresql_refuted`, `C86_strict_partial`, `C86_host_refuted`, `C87_postgresql`, `C87_mysql`, `C87_snowflake_partial`, `C87_snowflake_refuted`, `C88_levels_partial`, `C88_mysql_refuted`, `C89_bigquery_refuted`, `C90_sqlite_partial`, `C90_absolute_refuted`, `C90_parameter_refuted`, `C91_decoded_partial`, `C91_escape_refuted`, `C92_files_partial`, `C92_below_refuted`, `C93_accepted_partial`, `C93_error_refuted`, `C94_meaning`, `C95_documented_partial`, `C95_doc_refuted`, `C96_references`, `C97_independent_partial`, `C97_twice_refuted`, `C98_logical_refuted`, `C99_meaning`, `C99_package`, `C100_names_partial`, `C100_optional_refuted`, `C101_declared_partial`, `C101_only`, `C101_dropped_refuted`, `C101_twice_refuted`, `C102_packages_partial`, `C102_again_refuted`, `C103_enums`, `C104_integers`, `C105_flat_partial`, `C105_reference_refuted`, `C105_root_refuted`, `C106_nested_refuted`, `C106_refused_partial`, `C107_scopes_refuted`, `C107_dotted_refuted`, `C108_types_partial`, `C108_types_refuted`, `C109_inside_partial`, `C109_resolved_refuted`, `C110_declared`, `C111_absolute_refuted`, `C112_answers`, `C112_unsupported`, `C112_media_type_refuted`, `C113_nothing_configured`, `C113_configured_partial`, `C113_root_hides_credentials`, `C113_host_refuted`, `C114_no_table_refuted`, `C114_refuted`, `C115_relational_partial`, `C115_bigquery_partial`, `C115_hive_partial`, `C115_bigquery_refuted`, `C115_hive_refuted`, `C116_relational_partial`, `C116_bigquery`, `C116_hive_partial`, `C116_sqlite_refuted`, `C116_hive_refuted`, `C116_postgresql_refuted`, `C117_relational_refuted`, `C117_bigquery_refuted`, `C117_hive_partial`, `C117_hive_refuted`, `C117_union_refuted`, `C118_statistics`, `C118_reads`, `C119_names_refuted`, `C119_recap_refuted`, `C119_json_partial`, `C119_avro_partial`, `C119_protobuf_partial`, `C120_written`, `C121_lawful_partial`, `C121_messages_partial`, `C121_lawful_refuted`, `C122_exactly_json`, `C122_unambiguous`, `C122_bodies`, `C122_any_layout`, `C123_read_back`, `C123_any_encoding`, `C124_bytes_refine_map`, `C124_torn_write`, `C124_whole_write`, `C124_readers`, `C125_bare_names_partial`, `C125_null_refuted`, `C126_mysql_partial`, `C126_postgresql_partial`, `C126_snowflake_partial`, `C126_sqlite_partial`, `C126_mysql_refuted`, `C126_postgresql_refuted`, `C126_postgresql_timestamp_refuted`, `C126_snowflake_refuted`, `C126_sqlite_refuted`, `C126_sqlite_length_refuted`, `C126_bigquery_partial`, `C126_bigquery_refuted`, `C126_bigquery_string_refuted`, `C126_hive_partial`, `C126_hive_refuted`, `C127_server_partial`, `C127_slash_refuted`, `C127_mysql_refuted`, `C127_sqlite_partial`, `C127_sqlite_reserved_refuted`, `C127_sqlite_space_refuted`, `C127_sqlite_quoted_refuted`, `C127_subject_partial`, `C127_subject_refuted`, `C128_data_partial`, `C128_annotation_refuted`, `C128_field_refuted`, `C128_reference_refuted`, `C128_recursive_refuted`, `C128_data_refuted`, `C129_references_partial`, `C129_bare_refuted`, `C129_values_partial`, `C129_inline_refuted`, `C129_logical_refuted`, `C129_items_refuted`, `C129_values_refuted`, `C130_instances_partial`, `C130_integers_refuted`, `C130_instances_refuted`, `C130_references_partial`, `C130_references_refuted`, `C131_values_partial`, `C131_interpretation`, `C131_reference_refuted`, `C131_oneOf_refuted`, `C131_null_refuted`, `C131_default_refuted`, `C131_values_refuted`, `C132_only_partial`, `C132_exactly_partial`, `C132_range_refuted`, `C132_length_refuted`, `C132_names_refuted`, `C132_only_refuted`, `C133_references_partial`, `C133_messages_partial`, `C133_timestamps_refuted`, `C133_recursive_refuted`, `C133_messages_refuted`, `C134_references_partial`, `C134_values_partial`, `C134_timestamps_refuted`, `C134_optional_refuted`, `C134_nested_refuted`, `C134_values_refuted`, `C135_exactly_partial`, `C135_references_partial`, `C135_only_partial`, `C135_bits_refuted`, `C135_absent_refuted`, `C135_only_refuted`, `C136_exactly_partial`, `C136_values_partial`, `C136_fixed_refuted`, `C136_annotation_refuted`, `C136_name_refuted`, `C136_values_refuted`, `C137_references_partial`, `C137_references_only_partial`, `C137_exactly_partial`, `C137_only_partial`, `C137_same_partial`, `C137_bits_refuted`, `C137_wide_refuted`, `C137_strings_refuted`, `C137_length_refuted`, `C137_only_refuted`, `C138_references_partial`, `C138_references_same_partial`, `C138_colliding_refuted`, `C138_optional_refuted`, `C138_exactly_partial`, `C138_only_partial`, `C138_same_partial`, `C138_null_refuted`, `C138_default_refuted`, `C138_enum_refuted`, `C138_required_refuted`, `C138_only_refuted`, `C139_near_partial`, `C139_exactly_partial`, `C139_only_partial`, `C139_null_refuted`, `C139_size_refuted`, `C139_names_refuted`, `C139_only_refuted`, `C140_rows`, `C140_table_partial`, `C140_types_refuted`, `C140_order_refuted`, `C140_tables_refuted`, `C141_sqlite_partial`, `C141_postgresql_refuted`, `C141_catalog_refuted`, `C141_others_refuted`, `C142_others_refuted`, `C142_confused_refuted`, `C142_exactly_partial`, `C142_arrays_partial`, `C142_enforced_partial`, `C142_dimensions_refuted`, `C142_null_refuted`, `C142_types_refuted`, `C142_enforced_refuted`, `C142_arrays_refuted`, `C143_rows_partial`, `C143_null_refuted`, `C143_affinity_refuted`, `C143_numeric_refuted`, `C143_array_refuted`, `C143_written_refuted`, `C143_rows_refuted`, `C144_named_partial`, `C144_dangling_refuted`, `C144_references_refuted`, `C144_registered_refuted`, `C144_ambiguous_refuted`, `C144_builtin_refuted`, `C145_exactly_partial`, `C145_aliases_partial`, `C145_relative_refuted`, `C145_version_refuted`, `C145_host_refuted`, `C145_aliases_refuted`, `C146_columns`, `C146_deterministic`, `C146_mysql`, `C146_missing`, `C146_confused_refuted`, `C147_hive_nested_partial`, `C147_hive_required_refuted`, `C147_hive_inner_null_refuted`, `C147_hive_inner_elements_refuted`, `C147_hive_numbers_refuted`, `C147_bigquery`, `C147_bigquery_null_refuted`, `C147_hive_partial`, `C147_hive_null_refuted`, `C147_hive_elements_refuted`, `C147_hive_union_refuted`, `C147_hive_overlap_refuted`, `C147_refuted`, `C147_hive_unions_partial`, `C148_schema`, `C148_ls_partial`, `C148_empty_refuted`, `C148_refuted`, `C148_only_schema`, `C148_only_ls`, `C149_dimensions_refuted`, `C149_arrays_refuted`, `C149_hive_maps`, `C149_fixed_refuted`, `C149_fixed_partial`, `C149_rows_partial`, `C149_required_refuted`, `C149_inline_refuted`, `C149_elements_refuted`, `C149_bigquery_partial`, `C149_bigquery_inline_refuted`, `C149_bigquery_required_refuted`, `C149_hive_partial`, `C149_hive_lists_refuted`, `C149_rows_refuted`, `C149_sqlite_refuted`, `C149_nested_refuted`, `C150_bigquery_printed`, `C150_bigquery_answered`, `C150_bigquery_avro_partial`, `C150_bigquery_refuted`, `C150_sqlite_printed_partial`, `C150_sqlite_answered_partial`, `C150_sqlite_key_refuted`, `C150_sqlite_refuted`, `C150_pg_printed_partial`, `C150_pg_answered_partial`, `C150_pg_avro_partial`, `C150_pg_refuted`, `C150_printed`, `C150_answered`, `C150_printed_always`, `C150_avro_partial`, `C150_avro_required_refuted`, `C150_null_refuted`, `C150_refuted`, `C150_avro_refuted`, `C151_hive`, `C151_hive_refuted`, `C151_registry`, `C151_registry_refuted`, `C151_marker_refuted`, `C152_file_partial`, `C152_file_printed_partial`, `C152_same_partial`, `C152_valid_partial`, `C152_written_partial`, `C152_null_refuted`, `C152_types_refuted`, `C152_null_accepted_refuted`, `C152_numbers_refuted`, `C152_enum_refuted`, `C152_same_refuted`, `C153_configured_partial`, `C153_configured_urls_partial`, `C153_refused`, `C153_parameters_refuted`, `C153_paths_partial`, `C153_urls_partial`, `C153_strict_partial`, `C153_relative_refuted`, `C153_hash_refuted`, `C153_escapes_refuted`, `C153_localhost_refuted`, `C154_same_partial`, `C154_written_partial`, `C154_array_refuted`, `C154_date_refuted`, `C154_fixed_refuted`, `C154_reference_refuted`, `C154_same_refuted`, `C154_file_partial`, `C154_file_printed_partial`

Axioms: `propext`, `Quot.sound`

`C12_eq_transitive`, `C15_receiver_changes_refuted`, `C16_nullable_union_changes_refuted`, `C17_is_nullable`, `C57_columns_nullable`, `C58_unions_flat`, `C59_attributes_kept_partial`, `C59_list_attributes_refuted`, `C78_bigquery_refuted`, `C81_supported_tables`, `C83_bigquery_valid`, `C83_hive_valid`, `C85_bigquery_decimals_fit`

Axioms: `propext`

`C13_different_classes_differ`, `C15_receiver_union_changes_refuted`, `C81_only_value_error`, `C84_only_value_error`

<!-- end -->
