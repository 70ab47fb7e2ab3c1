"""Writes /verif/properties.jsonl.  Run: python3 tools/props.py"""
import json, os

P = []
def p(title, statement, quantifier, why, *anchors):
    P.append(dict(id=f"C{len(P)+1:02d}", title=title, statement=statement,
                  quantifier=quantifier, why_tests_cant=why, anchors=list(anchors)))

T = "recap/types.py:"

# --- types: reading and writing -------------------------------------------------
p("Verbatim dictionary round trip",
  "For every well-formed Recap type t, from_dict(to_dict(t, clean=False, alias=False)) returns a type equal (==) to t.",
  "all Recap types of any nesting depth, any extra attributes that do not clash with constructor parameter names, any set of distinct valid aliases",
  "types are recursive trees of unbounded depth with arbitrary extra attributes; tests only sample a few shapes",
  T+"from_dict", T+"to_dict", T+"RecapType.__eq__")
p("Clean dictionary round trip",
  "For every Recap type t, from_dict(to_dict(t, clean=True, alias=False)) == t.",
  "all Recap types",
  "the compaction rules interact with each other over arbitrary nesting; a sample of types cannot show there is no interfering combination",
  T+"clean_dict", T+"to_dict", T+"from_dict")
p("Default serialisation round trip up to built-in aliases",
  "For every Recap type t, from_dict(to_dict(t)) is t with every subterm that matches a built-in alias replaced by a reference to that alias.",
  "all Recap types without user-defined aliases",
  "unbounded type trees; alias substitution happens at every level and is re-applied by every enclosing level",
  T+"alias_dict", T+"to_dict", T+"from_dict")
p("to_dict never raises on a valid type",
  "to_dict(t) returns a value, and does not raise, for every Recap type t that validates.",
  "all valid Recap types, with any placement of aliases in the tree",
  "the failing placements are a structural pattern (an alias two levels below an un-aliased node), not a particular value",
  T+"to_dict", T+"alias_dict", T+"RecapTypeRegistry.register_alias")
p("Compaction keeps names, defaults and documentation",
  "clean_dict never drops a non-None name, default, doc, alias or logical attribute of the type it compacts.",
  "all type dictionaries",
  "the attributes lost depend on which other attributes are present, over all dictionaries",
  T+"clean_dict")
p("Parsed types respect the documented bounds everywhere",
  "Every type returned by from_dict, and every type nested in it at any depth, has bits in 1..2^31-1, byte lengths and list lengths in 1..2^63-1 or unset, and a length whenever it is fixed-size.",
  "all JSON inputs on which from_dict returns",
  "arbitrary JSON documents nested to any depth, including documents whose bounds are booleans, floats, strings or null",
  T+"from_dict", T+"RecapType.validate")
p("from_dict terminates with a type or an exception on every JSON value",
  "from_dict applied to any JSON value finishes: it returns a Recap type or raises; the optional rewrite never makes it loop.",
  "all JSON values",
  "termination over all inputs is not observable by running some inputs",
  T+"from_dict")
p("Aliases defined by one document are distinct, qualified and registered",
  "When from_dict returns, all aliases defined by the returned type are pairwise distinct, match the fully-qualified-name grammar, were not registered before, and are all registered afterwards.",
  "all JSON documents and all starting registries",
  "quantifies over all documents and registry histories",
  T+"from_dict", T+"RecapTypeRegistry.register_alias")
p("Registered aliases are never overwritten",
  "Once an alias is in a registry, no later sequence of from_dict, to_dict or register_alias calls on that registry changes or removes what it maps to.",
  "all registries, all sequences of later operations",
  "an invariant over unbounded histories",
  T+"RecapTypeRegistry.register_alias", T+"from_dict", T+"alias_dict")
p("Alias grammar",
  "register_alias accepts a previously unused alias exactly when it is two or more identifiers ([A-Za-z_][A-Za-z0-9_]*) joined by dots.",
  "all strings",
  "an infinite input domain; tests cannot show that no other string is accepted",
  T+"ALIAS_REGEX", T+"RecapTypeRegistry.register_alias")
p("User aliases never shadow built-in aliases",
  "No user alias that register_alias accepts is equal to a built-in alias, and from_alias keeps returning the built-in definition of every built-in alias, whatever has been registered.",
  "all registries reachable by any sequence of registrations",
  "an invariant over unbounded histories",
  T+"BUILTIN_ALIASES", T+"RecapTypeRegistry")
p("Type equality is an equivalence relation",
  "== on Recap types is reflexive, symmetric and transitive.",
  "all Recap types and all attribute values",
  "three universally quantified types of any depth",
  T+"RecapType.__eq__", T+"IntType.__eq__", T+"ProxyType.__eq__")
p("Types of different classes are never equal",
  "Two Recap types of different classes are never ==, and equal types agree on every attribute.",
  "all pairs of Recap types",
  "all pairs of types",
  T+"RecapType.__eq__")
p("make_nullable yields a nullable union with the promoted attributes",
  "make_nullable() returns a union that is nullable, contains the original type as a member, carries the original doc, name and default, and has a default attribute even if the original had none.",
  "all Recap types",
  "all types with arbitrary attributes",
  T+"RecapType.make_nullable", T+"RecapType.is_nullable")
p("make_nullable leaves the receiver unchanged",
  "Calling t.make_nullable() does not change t.",
  "all Recap types",
  "depends on which attributes are present on the receiver",
  T+"RecapType.make_nullable")
p("make_nullable is idempotent",
  "Making an already nullable type nullable again gives an equal type.",
  "all Recap types",
  "all types with arbitrary attributes",
  T+"RecapType.make_nullable")
p("Nullability test",
  "is_nullable() is true exactly for the null type and for unions with a null member; is_optional is true exactly for unions with a plain null, a default, and exactly one member that is not a plain null.",
  "all Recap types",
  "unions of any length",
  T+"RecapType.is_nullable", T+"UnionType.is_optional")
p("A reference resolves to the registered definition",
  "Resolving a reference to a registered alias gives the registered type with exactly the attribute overrides given on the reference, and never the definition's doc, default or alias.",
  "all registries and all references",
  "all registries and overrides",
  T+"ProxyType.resolve", T+"RecapTypeRegistry.from_alias")
p("References can be followed to any depth",
  "If a document parses and every alias it mentions is defined in it, then following references from the parsed type never fails, however many references are followed.",
  "all documents, all paths of references",
  "recursive types give infinite reference paths",
  T+"ProxyType.resolve", T+"RecapTypeRegistry.register_alias")
p("Shorthand forms parse like their long forms",
  "from_dict of a list equals from_dict of the union dictionary with that list as types, from_dict of a string equals from_dict of {'type': string}.",
  "all lists and strings, all registries",
  "all documents",
  T+"from_dict")
p("A type list and a types list mean the same union",
  "from_dict({'type': [..members..], ..attrs..}) equals from_dict({'type': 'union', 'types': [..members..], ..attrs..}).",
  "all member lists and attributes",
  "the member forms are arbitrary JSON",
  T+"from_dict")
p("optional=True makes the type nullable and gives it a default",
  "When from_dict accepts a dictionary with a truthy 'optional', the result is a union with a null member and a default attribute.",
  "all type dictionaries",
  "all documents",
  T+"from_dict")
p("Unknown type names become references that carry the attributes",
  "from_dict({'type': n, ..attrs..}) with n not a core type name is a reference to n with these attributes, whether or not n is registered, and registers nothing.",
  "all names and attribute dictionaries",
  "all names",
  T+"from_dict", T+"ProxyType")
p("Alias substitution is sound",
  "Whenever alias_dict replaces a dictionary by a reference, the referenced alias is in the registry and its definition is == to the type the dictionary denotes.",
  "all dictionaries and registries",
  "all dictionaries and registries",
  T+"alias_dict")

# --- storage ---------------------------------------------------------------------
S = "recap/storage/registry.py:"
p("Schema storage refines a map from name and version to type",
  "After any sequence of put and post operations with ordinary names, get, versions and ls answer exactly as an abstract map from name and version to serialised type would.",
  "all operation sequences, all names other than '', '.' and '..'",
  "unbounded histories",
  S+"RegistryStorage")
p("Version numbers are fresh and increasing",
  "put without a version returns latest+1 (1 for a new name), never a version that already exists, and leaves every existing version untouched.",
  "all storage histories",
  "unbounded histories",
  S+"RegistryStorage.put", S+"RegistryStorage.latest")
p("versions() is sorted and latest() is the maximum",
  "versions(name) is strictly increasing and lists exactly the stored versions; latest(name) is their maximum or None.",
  "all storage histories",
  "unbounded histories; string versus numeric ordering of file names",
  S+"RegistryStorage.versions", S+"RegistryStorage.latest")
p("Schema names survive the trip through directory names",
  "For every name, the directory name used for it contains no '/', and unquoting it gives the name back, so that two different names never share a directory.",
  "all strings",
  "all Unicode strings",
  S+"RegistryStorage.put", S+"RegistryStorage.ls")
p("Every schema stays inside its own directory",
  "No schema name makes the storage read or write outside its own sub-directory of the root.",
  "all names",
  "all strings, including path-like ones",
  S+"RegistryStorage")
p("ls() is sorted and complete",
  "ls() returns in ascending order exactly the names that have been stored, each once.",
  "all storage histories",
  "unbounded histories",
  S+"RegistryStorage.ls")
p("A crash while storing loses nothing already stored",
  "If the process stops at any point during put, every version stored before is still readable and unchanged.",
  "all histories, all crash points",
  "all crash points",
  S+"RegistryStorage.put")
p("A crash while storing is all-or-nothing",
  "After a crash at any point during put, the new version is either completely stored or absent.",
  "all crash points",
  "all crash points",
  S+"RegistryStorage.put")
V = "recap/server/registry.py:"
p("Published versions are immutable over HTTP",
  "If requests are handled one after another, no request changes the answer to GET of an existing name and version.",
  "all request sequences",
  "unbounded histories",
  V+"put", V+"post")
p("Concurrent PUTs of one version: at most one succeeds",
  "Under every interleaving of concurrent requests, at most one PUT of a given name and version returns 200.",
  "all interleavings of handlers at their await points",
  "all schedules",
  V+"put")
p("Concurrent POSTs get distinct versions",
  "Under every interleaving of concurrent requests at their await points within one server process, POSTs to one name get pairwise distinct versions.",
  "all interleavings",
  "all schedules",
  V+"post", S+"RegistryStorage.put")
p("GET returns what was stored",
  "After a successful POST or PUT of a document, GET of that version returns the canonical form of the document's type, and reading it gives an equal type.",
  "all documents, all histories",
  "all documents and histories",
  V+"latest", V+"version", S+"RegistryStorage.get")
p("Rejected requests change nothing",
  "A request answered with an error status leaves the storage unchanged.",
  "all requests and storages",
  "all requests",
  V+"post", V+"put")
p("Unknown names and versions are 404",
  "GET of a name or version that has never been stored answers 404, and GET of a stored one answers 200.",
  "all histories, names and versions",
  "all histories",
  V+"latest", V+"version", V+"versions")

# --- settings and URLs -------------------------------------------------------------
G = "recap/settings.py:"
p("safe_urls never reveals credentials",
  "The URLs returned by safe_urls do not depend on the user name or password in the configured URLs.",
  "all configured URLs with a host, all credentials",
  "non-interference compares all pairs of credentials",
  G+"RecapSettings.safe_urls")
p("safe_urls keeps everything else",
  "safe_urls keeps scheme, host, port, path, query and fragment of each configured URL.",
  "all configured URLs",
  "all URLs",
  G+"RecapSettings.safe_urls")
p("unsafe_url only adds credentials of a matching configured URL",
  "unsafe_url returns the given URL with user and password from the first configured URL with the same scheme, host and port whose path is a prefix of the given path.",
  "all configured URL lists, all given URLs",
  "all lists of URLs",
  G+"RecapSettings.unsafe_url")
p("Strict mode refuses unconfigured URLs",
  "unsafe_url in strict mode raises ValueError when no configured URL matches, and in non-strict mode returns the URL unchanged.",
  "all configured URL lists, all given URLs",
  "all URLs",
  G+"RecapSettings.unsafe_url")
p("Credentials are only used below the configured path",
  "unsafe_url adds the credentials of a configured URL only to URLs whose path equals its path or continues it at a '/'.",
  "all configured URLs, all given URLs",
  "all path strings",
  G+"RecapSettings.unsafe_url")
p("Every configured URL can be used in strict mode",
  "For every configured URL u, unsafe_url of the safe form of u succeeds in strict mode.",
  "all configured URLs",
  "all URLs, including those without a path",
  G+"RecapSettings.unsafe_url", G+"RecapSettings.safe_urls")
p("Query parameters of the request win",
  "In the URL returned by unsafe_url each query parameter has the value given in the request if the request has it, and the configured value otherwise.",
  "all queries",
  "all query strings",
  G+"RecapSettings.unsafe_url")
L = "recap/clients/__init__.py:"
p("Every supported scheme can be listed and read",
  "For every scheme in the client table, the URL produced by parse_url is accepted by create_client.",
  "all supported schemes, all URLs with them",
  "all URLs",
  L+"parse_url", L+"create_client")
p("Unsupported schemes are refused",
  "create_client and parse_url raise ValueError for every scheme outside the client table.",
  "all URLs",
  "all URLs",
  L+"create_client", L+"parse_url")

# --- converters -------------------------------------------------------------------
p("Relational columns become struct fields one to one",
  "to_recap of a relational table gives a struct with one field per column, in column order, each named after its column.",
  "all column lists on which conversion succeeds, for every dialect",
  "column lists of any length",
  "recap/converters/dbapi.py:DbapiConverter.to_recap")
p("Relational nullability is preserved",
  "A field is nullable exactly when its column has IS_NULLABLE = YES (in any letter case).",
  "all columns, every dialect",
  "all columns and dialect types",
  "recap/converters/dbapi.py:DbapiConverter.to_recap", T+"RecapType.make_nullable")
p("Relational defaults are preserved",
  "A field has a default attribute exactly when the column is nullable or has a default, and its value is the column default.",
  "all columns, every dialect",
  "all columns",
  "recap/converters/dbapi.py:DbapiConverter.to_recap")
p("Relational conversions yield valid types",
  "Every type produced by a relational converter passes validate(), so that it can be serialised.",
  "all columns, every dialect",
  "all column property values",
  "recap/converters/mysql.py:MysqlConverter", "recap/converters/postgresql.py:PostgresqlConverter", "recap/converters/snowflake.py:SnowflakeConverter", "recap/converters/sqlite.py:SQLiteConverter")
p("Time precision maps to a unit fine enough to hold it",
  "The unit chosen for a fractional-second precision p is at least as fine as 10^-p seconds.",
  "all precisions",
  "all integers",
  "recap/converters/dbapi.py:DbapiConverter._get_time_unit")
p("PostgreSQL arrays have the declared number of dimensions",
  "With enforce_array_dimensions, an array of n dimensions becomes exactly n nested lists around a nullable element.",
  "all n",
  "induction over n",
  "recap/converters/postgresql.py:PostgresqlConverter._create_n_dimension_list")
p("Reading a PostgreSQL table is repeatable",
  "Converting the same PostgreSQL columns again with the same converter gives the same result.",
  "all column lists, all earlier conversions",
  "depends on the history of the converter",
  "recap/converters/postgresql.py:PostgresqlConverter._parse_type")
p("SQLite affinity",
  "The type chosen for a SQLite column follows SQLite's documented affinity rules in order.",
  "all declared type strings",
  "all strings",
  "recap/converters/sqlite.py:SQLiteConverter")
p("BigQuery fields are preserved at every depth",
  "to_recap of a BigQuery schema keeps field order, names, descriptions, repetition and nullability at every nesting depth.",
  "all schemas of any depth",
  "recursive schemas",
  "recap/converters/bigquery.py:BigQueryConverter")
p("Hive columns are always nullable",
  "Every column of a converted Hive table, at every depth, is nullable.",
  "all Hive types",
  "recursive types",
  "recap/converters/hive_metastore.py:HiveMetastoreConverter")
p("Hive unions are flat",
  "No union produced from a Hive type has a union among its members, and no two members are equal.",
  "all Hive types",
  "recursive types",
  "recap/converters/hive_metastore.py:HiveMetastoreConverter._flatten_unions")
p("Flattening Hive unions keeps element attributes",
  "Flattening keeps the attributes of lists and maps inside unions.",
  "all Hive types",
  "recursive types",
  "recap/converters/hive_metastore.py:HiveMetastoreConverter._flatten_unions")
A = "recap/converters/avro.py:AvroConverter."
p("Avro integers can hold every value",
  "The Avro type written for an integer type can hold every value of that integer type.",
  "all bit widths, signed and unsigned",
  "all widths",
  A+"from_recap")
p("Avro round trip",
  "to_recap(from_recap(t)) equals t for every type in the Avro-native subset.",
  "all types in the subset, of any depth",
  "recursive types",
  A+"from_recap", A+"to_recap")
p("Avro accepts every valid Avro schema built from supported types",
  "to_recap accepts every Avro schema made of records, arrays, maps, unions, enums and primitives with distinct fully-qualified type names.",
  "all such schemas",
  "recursive schemas",
  A+"to_recap")
p("Avro output uses only Avro type names",
  "Every type name in the output of from_recap is an Avro primitive, an Avro complex type keyword or a name defined in the output.",
  "all Recap types on which from_recap succeeds",
  "recursive types",
  A+"from_recap")
B = "recap/converters/protobuf.py:ProtobufConverter."
p("Protobuf field numbers are unique in each message",
  "In every message written by from_recap the field numbers are pairwise distinct.",
  "all struct types",
  "all field lists",
  B+"from_recap")
p("Protobuf round trip",
  "from_recap(to_recap(file)) succeeds and declares the same messages and fields.",
  "all proto files with supported types",
  "recursive types",
  B+"from_recap", B+"to_recap")
p("Protobuf messages may reference each other in any order",
  "to_recap accepts a proto file whatever the order in which its messages are declared.",
  "all orders of declarations",
  "all permutations",
  B+"to_recap")
J = "recap/converters/json_schema.py:JSONSchemaConverter."
p("JSON Schema required and optional agree",
  "A property of a JSON Schema object becomes an optional field exactly when it is not listed in required.",
  "all object schemas",
  "all property lists",
  J+"to_recap")
p("JSON Schema output lists exactly the non-optional fields as required",
  "from_recap of a struct lists in required exactly the names of the fields that are not optional, and has one property per field name.",
  "all struct types",
  "all field lists",
  J+"from_recap")
p("JSON Schema output is self-contained",
  "Every $ref in the output of from_recap points to an entry of $defs, and following $refs ends at a schema that is not a $ref.",
  "all types on which from_recap succeeds",
  "recursive types",
  J+"from_recap")
p("JSON Schema round trip",
  "to_recap(from_recap(t)) == t for every type in the JSON-Schema-native subset.",
  "all types in the subset",
  "recursive types",
  J+"from_recap", J+"to_recap")

# --- types: appended later ---------------------------------------------------------
p("Whatever can be read can be written and read back",
  "If from_dict(v) returns t, then t is well formed, and from_dict(to_dict(t, clean=False, alias=False)) == t.",
  "all JSON documents v that from_dict accepts",
  "documents are unbounded trees with arbitrary extra keys",
  T+"from_dict", T+"to_dict")
p("Resolved references are valid",
  "The type that a reference resolves to respects the documented bounds on bits, bytes and length.",
  "all definitions accepted by from_dict, all references to them with any attribute overrides",
  "overrides are arbitrary; they are applied after validation",
  T+"ProxyType.resolve", T+"from_dict")
p("Only valid schemas can be stored",
  "When the registry server answers 200 to a POST or PUT, the body is a Recap type: it and every nested type respect the documented bounds, and every reference in it resolves.",
  "all request bodies, all registry contents",
  "bodies are arbitrary documents or text; rejecting a sample of bad ones says nothing about the rest",
  V+"post", V+"put", V+"_request_to_type")
p("Server processes that share a storage get distinct versions",
  "Two server processes that store a schema under the same name without choosing a version are given different versions.",
  "all interleavings of any number of processes, all registry contents",
  "the outcome depends on the schedule; tests run one",
  S+"RegistryStorage.put")

# --- relational databases: appended later ---------------------------------------------
R = "recap/converters/"
p("Self-references of PostgreSQL arrays resolve to the array",
  "The type of a PostgreSQL array column refers to itself for further dimensions, and that reference resolves, in the registry after the conversion, to the very array type of that column.",
  "all tables, all columns with an array type",
  "the reference is resolved later, after any number of further columns",
  R+"postgresql.py:PostgresqlConverter._parse_type")
p("Columns are converted independently of each other",
  "The field of a column does not depend on which other columns the table has, and a table whose columns can each be converted can be converted as a whole.",
  "all tables, all dialects",
  "all combinations of columns",
  R+"dbapi.py:DbapiConverter.to_recap", R+"postgresql.py:PostgresqlConverter")
p("Whatever PostgreSQL column type is supported is supported inside arrays",
  "If a column of type T can be converted, so can a column of type T[], and its elements are converted like T.",
  "all columns",
  "all data types and their parameters",
  R+"postgresql.py:PostgresqlConverter._parse_type")
p("The integer for a time of day can hold every time of day",
  "A column of a time-of-day type becomes an integer type wide enough for every time of day in its unit.",
  "all columns with a TIME type, all dialects, all precisions",
  "all precisions and dialects",
  R+"snowflake.py:SnowflakeConverter")
p("A SQLite table is read as SQLite declares it",
  "schema of a SQLite table has one field per row of PRAGMA table_info, in order, with its name and default, nullable exactly when the column is neither NOT NULL nor part of the primary key.",
  "all results of PRAGMA table_info",
  "all tables",
  "recap/clients/sqlite.py:SQLiteClient.schema", "recap/clients/sqlite.py:SQLiteClient.add_information_schema", R+"sqlite.py:SQLiteConverter")
p("Lengths declared in SQLite are honoured",
  "A SQLite column declared with a character or binary type and a length becomes a type of at most that length.",
  "all declared types",
  "declared types are arbitrary text",
  "recap/clients/sqlite.py:SQLiteClient.add_information_schema", R+"sqlite.py:SQLiteConverter")

p("Exactly the Hive tables with known types can be converted",
  "Converting a Hive table succeeds exactly when every type in its columns, at every depth, is one the converter supports; otherwise a ValueError is raised.",
  "all Hive tables, types of any depth",
  "Hive types nest without bound",
  R+"hive_metastore.py:HiveMetastoreConverter.to_recap", R+"hive_metastore.py:HiveMetastoreConverter._parse_schema")
p("A converted Hive table mirrors the table",
  "The result has one field per column, in order, with the column's name and comment, and at every depth structs, lists, maps and unions of the result correspond to those of the Hive type, with the same field names and with primitives of the documented sizes.",
  "all Hive tables, types of any depth",
  "Hive types nest without bound",
  R+"hive_metastore.py:HiveMetastoreConverter.to_recap", R+"hive_metastore.py:HiveMetastoreConverter._parse_schema")

p("Converted schemas are valid",
  "A Hive table or BigQuery schema whose declared lengths are positive and below 2^63 converts to a type that passes validate(), and so does every type nested in it.",
  "all tables and schemas, types of any depth",
  "types nest without bound",
  R+"hive_metastore.py:HiveMetastoreConverter.to_recap", R+"bigquery.py:BigQueryConverter.to_recap", T+"RecapType.validate")
p("Exactly the BigQuery schemas with known types can be converted",
  "Converting a BigQuery schema succeeds exactly when every field at every depth has a supported type name; otherwise a ValueError is raised.",
  "all BigQuery schemas, records of any depth",
  "records nest without bound",
  R+"bigquery.py:BigQueryConverter.to_recap")
p("Decimals fit into their bytes",
  "The bytes of a decimal type produced by a database converter can hold every number with the type's precision as a signed integer.",
  "all tables with decimal columns, all precisions the database allows",
  "all precisions and nested types",
  R+"hive_metastore.py:HiveMetastoreConverter", R+"bigquery.py:BigQueryConverter", R+"mysql.py:MysqlConverter", R+"postgresql.py:PostgresqlConverter", R+"snowflake.py:SnowflakeConverter")

C = "recap/clients/"
p("Strict mode connects only to configured servers",
  "Whatever strict mode lists or reads, the driver is given the host and port of a configured URL, and only the credentials of that URL.",
  "all configurations, all requested MySQL, PostgreSQL and Snowflake URLs",
  "all URLs and configurations",
  C+"__init__.py:parse_url", C+"__init__.py:create_client", "recap/settings.py:RecapSettings.unsafe_url", "recap/commands.py:ls", "recap/commands.py:schema")
p("A database URL reads the table it names",
  "Reading a database URL asks for exactly the table named by its path, over a connection to its host, port and database, with the credentials of the first configured URL that covers it, or else its own.",
  "all configurations, all requested URLs whose query does not use the names of the connection's own arguments, strict or not",
  "all URLs and configurations",
  C+"postgresql.py:PostgresqlClient", C+"mysql.py:MysqlClient", C+"snowflake.py:SnowflakeClient", C+"dbapi.py:DbapiClient.parse", "recap/commands.py:schema")
p("A database URL lists the level its path names",
  "Listing a database URL lists the databases, schemas or tables below exactly the object named by the path; a path that is too deep is refused.",
  "all configurations, all MySQL, PostgreSQL and Snowflake URLs, strict or not",
  "all URLs and configurations",
  C+"dbapi.py:DbapiClient.ls", C+"mysql.py:MysqlClient.ls", C+"dbapi.py:DbapiClient.parse", C+"mysql.py:MysqlClient.parse", "recap/commands.py:ls")
p("BigQuery URLs can be listed",
  "Listing a BigQuery URL lists the projects, datasets or tables below the object that it names.",
  "all configurations, all BigQuery URLs",
  "all URLs and configurations",
  C+"bigquery.py:BigQueryClient.parse", C+"bigquery.py:BigQueryClient.ls", "recap/commands.py:ls")
p("A SQLite URL means the same file for listing and reading",
  "Listing the URL of a database file opens that file; reading the URL of a table in it opens the same file and reads that table; in strict mode both are refused unless a configured URL covers the file.",
  "all paths of files, all tables, all configurations, strict or not",
  "all URLs and configurations",
  C+"sqlite.py:SQLiteClient.parse", C+"sqlite.py:SQLiteClient.create", "recap/commands.py:ls", "recap/commands.py:schema")
p("Drivers are given the credentials that the URL means",
  "The user and the password given to the driver are those of the URL with percent escapes decoded.",
  "all URLs with credentials",
  "all credentials, with any escapes",
  C+"__init__.py:_url_to_dict", C+"__init__.py:create_client")
p("Strict mode allows exactly the files below configured URLs",
  "In strict mode a file can be listed or read exactly when a configured file URL covers it.",
  "all configurations, all file URLs",
  "all URLs and configurations",
  C+"fs.py:FilesystemClient.parse", "recap/settings.py:RecapSettings.unsafe_url")
p("Exactly the supported JSON schemas are accepted",
  "to_recap accepts exactly the object schemas built from basic types, arrays, objects and lists of alternatives, at any depth, whatever other keywords they carry; everything else is refused with a ValueError.",
  "all JSON documents",
  "recursive documents",
  R+"json_schema.py:JSONSchemaConverter.to_recap", R+"json_schema.py:JSONSchemaConverter._parse")
p("Avro names are read as full names",
  "to_recap gives each type of an accepted schema the alias that is its full name under Avro's namespace rules, reads references as references to full names, keeps Avro's types of values, and the converter then knows exactly the names it knew and those of the schema.",
  "all accepted schemas of any depth, all namespaces, all earlier states of the converter",
  "recursive schemas with nested namespaces",
  R+"avro.py:AvroConverter.to_recap", R+"avro.py:AvroConverter._parse")
p("Avro docs and defaults are kept",
  "to_recap keeps the doc of every type and field and the default of every field of an accepted schema.",
  "all accepted schemas, all fields at any depth",
  "recursive schemas",
  R+"avro.py:AvroConverter.to_recap", R+"avro.py:AvroConverter._parse")
p("Avro references can be resolved after reading",
  "Every reference in what to_recap returns can be resolved exactly when the type it names is in the schema or was read by the converter before; otherwise resolving it is a TypeError.",
  "all accepted schemas, all references in them, all earlier states of the converter",
  "recursive schemas and histories of the converter",
  R+"avro.py:AvroConverter.to_recap", T+"ProxyType.resolve")
p("An Avro converter can be used again",
  "What to_recap returns for a schema does not depend on the schemas that the same converter has read before.",
  "all pairs of accepted schemas, all states of the converter",
  "all histories of the converter",
  R+"avro.py:AvroConverter.__init__", R+"avro.py:AvroConverter.to_recap")
p("Unknown Avro logical types are ignored",
  "A schema with a logical type that recap does not know is read as its underlying type, as the Avro specification demands.",
  "all logical type names",
  "all names",
  R+"avro.py:AvroConverter._parse_logical")

p("Protobuf messages are read with their meaning",
  "to_recap returns a struct for the first message of the file, named after the package, with a field for each field, map field and oneof of the message, in order, under the same name: with the type that Protobuf means, optional unless required, a list if repeated, a union for a oneof; so at any depth.",
  "all accepted files, all earlier states of the converter",
  "recursive messages and histories of the converter",
  R+"protobuf.py:ProtobufConverter.to_recap", R+"protobuf.py:ProtobufConverter._parse_message")
p("Protobuf field names are kept",
  "In what from_recap writes, the message for a struct has a field, map field or oneof with the name of each named field of the struct.",
  "all struct types, all fields at any depth",
  "recursive types",
  R+"protobuf.py:ProtobufConverter._recap_to_field")
p("Protobuf files declare exactly the structs and enums of the type",
  "from_recap declares each struct and enum in the type exactly once, under its alias, and nothing else.",
  "all struct types of any depth",
  "recursive types with nested packages",
  R+"protobuf.py:ProtobufConverter._from_recap_gather_types", R+"protobuf.py:ProtobufConverter._from_recap_construct_elements")
p("A Protobuf converter can be used again",
  "After a file has been read, the converter reads another file in the same way as before, apart from knowing more types.",
  "all histories of the converter",
  "all histories",
  R+"protobuf.py:ProtobufConverter._parse")
p("Protobuf enums have the symbols of the type",
  "Each enum that from_recap writes has the symbols of an enum of the type, in order, numbered from zero.",
  "all struct types of any depth",
  "recursive types",
  R+"protobuf.py:ProtobufConverter._from_recap_gather_types")
p("Protobuf integer types hold all values of the field",
  "Every value of an integer field of a struct is a value of the type that from_recap writes for the field.",
  "all struct types, all integer fields, all values",
  "infinitely many widths and values",
  R+"protobuf.py:ProtobufConverter._recap_to_field")
p("Written Protobuf files can be read",
  "to_recap(from_recap(t)) succeeds and returns a struct with the alias, the fields and the names of t, whose types hold at least the same values.",
  "all struct types that from_recap accepts",
  "recursive types",
  R+"protobuf.py:ProtobufConverter.from_recap", R+"protobuf.py:ProtobufConverter.to_recap")
p("Nesting that Protobuf does not have is refused",
  "from_recap refuses lists of lists, maps and unions, optional lists and maps of lists rather than writing another type.",
  "all struct types",
  "recursive types",
  R+"protobuf.py:ProtobufConverter._recap_to_field")
p("Nested Protobuf messages have their own scope",
  "to_recap reads files in which messages or enums of the same name are nested in different messages, and references to nested messages by the names of the messages around them.",
  "all files with nested messages",
  "recursive messages",
  R+"protobuf.py:ProtobufConverter._parse_message", R+"protobuf.py:ProtobufConverter._protobuf_type_to_recap_type")
p("Protobuf types that are written are defined",
  "Each type that a field written by from_recap has is a type of Protobuf or is declared in the file.",
  "all struct types of any depth",
  "recursive types",
  R+"protobuf.py:ProtobufConverter.from_recap")
p("References left in what is read from Protobuf can be resolved",
  "Each reference in what to_recap returns can be resolved.",
  "all accepted files",
  "recursive messages",
  R+"protobuf.py:ProtobufConverter._resolve_proxies")
p("Undeclared Protobuf types are refused",
  "to_recap refuses a file whose first message refers to a type that is not part of Protobuf and is declared neither in the file nor in one that the converter has read before.",
  "all files, all histories of the converter",
  "all histories",
  R+"protobuf.py:ProtobufConverter.to_recap")
p("Absolute Protobuf references are read",
  "to_recap reads references by full names with a leading dot, as Protobuf has them and from_recap writes them.",
  "all files with such references",
  "all files",
  R+"protobuf.py:ProtobufConverter._protobuf_type_to_recap_type")

p("The gateway answers in the requested format",
  "GET /gateway/schema/{url} answers exactly with what the client reads at the URL, converted to the format that the content type asks for (Recap's own if there is none); any other content type is refused with 415, and no other request is.",
  "all URLs, content types, settings and answers of the system",
  "all requests and systems",
  "recap/server/gateway.py:schema", "recap/commands.py:schema", "recap/commands.py:FORMAT_MAP")
p("The gateway only shows what is configured",
  "What the gateway lists or reads comes from the server of a configured URL, with the credentials of that URL; the list of configured URLs shows no credentials; with nothing configured, nothing is shown.",
  "all settings, URLs and answers of the system",
  "all settings and URLs",
  "recap/server/gateway.py:ls", "recap/server/gateway.py:schema", "recap/commands.py:ls", "recap/commands.py:schema")
p("A table can be shown as Protobuf",
  "The schema of a table that a database client reads can be written as Protobuf.",
  "all tables of all databases",
  "all tables",
  "recap/commands.py:schema", R+"protobuf.py:ProtobufConverter.from_recap")
p("A table can be shown in Recap's own format and read back",
  "The schema of a table that a database client reads can be written in Recap's own format, and whoever reads what is written gets an equal type: the same columns with the same types, defaults and docs, where built-in aliases may stand for types.",
  "all tables of all databases",
  "all tables, nested to any depth",
  "recap/commands.py:schema", T+"to_dict", T+"from_dict")

p("A table can be shown as JSON Schema",
  "The schema of a table that a database client reads can be written as JSON Schema: an object with one property for each column, where exactly the columns that are not nullable are required.",
  "all tables of all databases whose columns have names",
  "all tables, nested to any depth",
  "recap/commands.py:schema", R+"json_schema.py:JSONSchemaConverter.from_recap")

p("A table can be shown as Avro",
  "The schema of a table that a database client reads can be written as Avro: what is written is a schema by the Avro specification, a record with a name and with one field for each column, in order.",
  "all tables of all databases whose tables and columns have names that Avro allows",
  "all tables, nested to any depth",
  "recap/commands.py:schema", R+"avro.py:AvroConverter.from_recap")

p("Statistics only add to the schema of a Hive table",
  "With statistics, the schema of a Hive table has the same columns, in the same order and with the same types, names, docs and defaults as without; each column also says the quantities that its statistics say, with their values, and nothing else. Reading with statistics fails only if reading without fails or if there are statistics for a column that the table does not have.",
  "all Hive tables and all lists of statistics, also several for one column",
  "all tables and all combinations of statistics, in every order",
  C+"hive_metastore.py:HiveMetastoreClient.schema", C+"hive_metastore.py:HiveMetastoreClient._load_stats")

p("A Hive table with statistics is shown like one without",
  "The schema of a Hive table read with statistics is shown with the same columns, names, defaults and types as the one read without: in JSON Schema it is the same schema, and in Recap's own format each column keeps its name and default.",
  "all Hive tables and all lists of statistics",
  "all tables and all combinations of statistics",
  C+"hive_metastore.py:HiveMetastoreClient._load_stats", "recap/types.py:clean_dict", "recap/commands.py:schema")

p("Protobuf messages say what the struct says",
  "The message that from_recap writes for a struct has an element for each field, in order: a field whose Protobuf type holds the values of the type; a repeated field for a list, an optional one for an optional type, a map field for a map with the types of its keys and values, a oneof with a field for each type of a union; and the full name of a struct, enum or reference.",
  "all types that from_recap accepts, all their structs that are declared, and all fields with the nesting that Protobuf has",
  "all types, nested to any depth",
  R+"protobuf.py:ProtobufConverter.from_recap", R+"protobuf.py:ProtobufConverter._recap_to_field")

p("Written Protobuf messages follow the rules of Protobuf",
  "In what from_recap writes, the keys of map fields are integers, booleans or strings, and oneofs have at least one field, all of them without a cardinality; types that have no such form are refused.",
  "all types that from_recap accepts",
  "all types, nested to any depth",
  R+"protobuf.py:ProtobufConverter._recap_to_field")

p("The layout of a posted document does not matter",
  "A body posted to the registry is taken for the document v exactly if its bytes are a JSON text of v in UTF-8, whatever its white space, escapes, order of repeated names and spelling of numbers; no text denotes two documents; and the answer and the stored version depend on the document only.",
  "all byte strings, all documents, all storages, names and content types",
  "documents nest to any depth and each has infinitely many texts",
  "recap/server/registry.py:_request_to_type", "recap/server/registry.py:post", "recap/server/registry.py:put")

p("What is written is JSON that reads back",
  "The text that is written for a type, in the registry's files, in the server's answers and on the command line, is a JSON text of the type's document and of no other, and reading it gives the document; in the registry's files it is printable ASCII, so that it does not depend on the encoding of the platform.",
  "all types with Python values as attributes, all three layouts, all encodings that agree with ASCII",
  "all strings, numbers and nestings have to be written and read",
  "recap/storage/registry.py:RegistryStorage.put", "recap/storage/registry.py:RegistryStorage.get", "recap/types.py:to_dict")

p("A torn write is never taken for a schema",
  "If the process stops after any byte of what put writes, then the storage still answers as a map from names and versions to types in which at most the version being written is unreadable: reading it raises an error, and never gives a type that nobody stored. Readers during a put see, for the version being written, what was there before, an error or the new type, and everything else as before.",
  "all sequences of calls, all crash points after any byte, all readers between two bytes, all types whose document is not a bare number",
  "every prefix of every text has to be refused, at every point of every history",
  "recap/storage/registry.py:RegistryStorage.put", "recap/storage/registry.py:RegistryStorage.get", "recap/storage/registry.py:RegistryStorage.versions")

p("A type name may be posted without quotes",
  "Posting the name of a type as plain text has the same answer and effect as posting the JSON string with the name.",
  "all names that begin with a letter or an underscore and have no white space; all storages and content types",
  "all names",
  "recap/server/registry.py:_request_to_type")


p("Every value in a column is a value of its type",
  "Every value that the database can store in a column (by its documentation) is a value of the type that schema gives for the column: integers and points in time are in range, strings and bytes fit the length, decimals have enough digits before and after the point, null is allowed where the column allows it.",
  "all tables of MySQL, PostgreSQL, Snowflake, SQLite, BigQuery and Hive, all columns (nested records, arrays, maps and unions to any depth for BigQuery and Hive), all values that the column can hold",
  "Tests compare the converted type with an expected type written by the same author; whether a type holds all values of the column is a statement about infinitely many values, most of which no fixture contains.",
  R+"mysql.py MysqlConverter._parse_type", R+"postgresql.py PostgresqlConverter._parse_type", R+"snowflake.py SnowflakeConverter._parse_type", R+"sqlite.py SQLiteConverter._parse_type", R+"bigquery.py BigQueryConverter.to_recap", R+"hive_metastore.py HiveMetastoreConverter._parse_schema", "recap/types.py RecapType.make_nullable")

p("What is listed can be read",
  "A table or subject that ls returns for a URL can be read by schema: appending its name to that URL reads that table, and no other, from the same server with the same credentials; a SQLite table is read from its own columns; a subject of a registry is read from its own latest schema.",
  "all URLs that list tables, all contents of the database, database file or registry, all names that are listed",
  "Tests list and read a few fixtures with harmless names; a listed name is chosen by whoever created the table, so it can be a reserved word or contain spaces, quotes and slashes.",
  C+"dbapi.py DbapiClient.ls_tables", C+"dbapi.py DbapiClient.schema", C+"sqlite.py SQLiteClient.ls", C+"sqlite.py SQLiteClient.schema", C+"confluent_registry.py ConfluentRegistryClient.schema", "recap/commands.py ls", "recap/commands.py schema")

p("Avro data are values of the type that is read",
  "Every datum that Avro allows for a schema is a value of the Recap type that is read from the schema, where the references in the type are followed with resolve: integers are within the number of bits, decimals within precision, scale and bytes, enum symbols among the symbols, times and dates in the given unit, and nested data in the nested types.",
  "all accepted Avro schemas, of any size and nesting, with any definitions and references; all data of the schema of any size and depth",
  "A test checks the converted type against an expected type, not against data, and cannot enumerate schemas and data; references are followed to a depth that depends on the datum.",
  R+"avro.py AvroConverter.to_recap", R+"avro.py AvroConverter._parse", R+"avro.py AvroConverter._parse_logical", "recap/types.py ProxyType.resolve", "recap/types.py RecapTypeRegistry.register_alias")

p("The values of a type are data of the Avro schema written for it",
  "Every value that a Recap type describes is a datum, by the rules of Avro, of the schema that from_recap returns for the type, so that a value can be written with that schema: integers and floats fit, decimals, dates, times and timestamps are encoded in the unit of the schema, strings and bytes are within the length, and lists, maps, structures and unions are schemas of their parts.",
  "all Recap types of any size and nesting for which a schema is written; all values of the type of any size and depth",
  "A test compares the written schema with an expected one, or reads it back with Recap's own reader, which accepts what Avro does not; it cannot enumerate types and values.",
  R+"avro.py AvroConverter.from_recap", R+"avro.py AvroConverter._from_recap", R+"avro.py AvroConverter._from_recap_logical")

p("JSON values that are valid against a schema are values of the type that is read",
  "Every JSON value that is valid against a JSON Schema, by the rules of JSON Schema, is a value of the Recap type that to_recap reads from the schema: numbers within the bits, properties in the types of the fields, properties that may be left out are fields with a default, items of arrays in the type of the list, and values of a list of types in one member of the union.",
  "all accepted JSON Schemas of any size and nesting; all JSON values of any size and depth",
  "A test compares the type that is read with an expected one, for a few schemas; valid values are infinitely many, and their numbers have no bound.",
  R+"json_schema.py JSONSchemaConverter.to_recap", R+"json_schema.py JSONSchemaConverter._parse", "recap/types.py RecapType.make_nullable")

p("The values of a type are valid against the JSON Schema written for it",
  "Every JSON value that a Recap type describes is valid, by the rules of JSON Schema, against the schema that from_recap returns for the type, whatever the references to its definitions stand for as long as they mean the definitions: required properties are there, values of unions are valid against exactly one member, and values of aliased types are valid against the definition.",
  "all Recap types of any size and nesting for which a schema is written; all JSON values of the type of any size and depth; all meanings of references that meet the definitions",
  "A test compares the written schema with an expected one; whether all values of a type pass validation is a statement about infinitely many values, and oneOf fails only for values that two members share.",
  R+"json_schema.py JSONSchemaConverter.from_recap", R+"json_schema.py JSONSchemaConverter._convert_field", R+"json_schema.py JSONSchemaConverter._generate_alias_defs")

p("Only values of a type are valid against the JSON Schema written for it",
  "Every JSON value that is valid, by the rules of JSON Schema, against the schema that from_recap returns for a type is a value of the type: fields that are not optional are there, each property is a value of the field with that name, elements, map values and members of unions likewise, enum values are among the symbols, and numbers and lengths are in the range of the type.",
  "all Recap types of any size and nesting for which a schema is written; all JSON values of any size and depth; all meanings of references that meet the definitions",
  "A test cannot enumerate the values that a schema lets pass; a missing keyword makes the schema weaker without any error.",
  R+"json_schema.py JSONSchemaConverter.from_recap", R+"json_schema.py JSONSchemaConverter._convert_field", R+"json_schema.py JSONSchemaConverter._generate_alias_defs")

p("The data of a Protobuf message are values of the type that is read",
  "Every datum of the first message of a Protobuf file, by the rules of the Protobuf language, is a value of the Recap type that to_recap reads from the file: integers within the bits, points in time, strings and bytes of any length Protobuf allows, symbols of enums, nested messages wherever they are declared, repeated fields as lists, map fields as maps, absent fields as null and oneofs as one of the members.",
  "all accepted files of any size and nesting, with a converter that has read no other file; all data of any size and depth",
  "A test compares the type that is read with an expected one, for a few files; the data of a file are infinitely many, and which declaration a name means depends on all the scopes around it.",
  R+"protobuf.py ProtobufConverter.to_recap", R+"protobuf.py ProtobufConverter._parse_message", R+"protobuf.py ProtobufConverter._parse_field", R+"protobuf.py ProtobufConverter._protobuf_type_to_recap_type", R+"protobuf.py ProtobufConverter._parse_oneof")

p("The values of a struct are data of the Protobuf message written for it",
  "Every value of a struct is a datum, by the rules of the Protobuf language, of the message with its name in the file that from_recap returns: numbers fit the scalar type that is chosen, symbols are declared, fields of structs and enums refer to declarations that describe them, lists, maps, nulls and members of unions are what the element allows.",
  "all structs of any size and nesting for which a file is written; all values of any size and depth",
  "A test compares the written file with an expected one; that no value is lost is a statement about all values of all types, including the boundaries of every number of bits.",
  R+"protobuf.py ProtobufConverter.from_recap", R+"protobuf.py ProtobufConverter._from_recap_gather_types", R+"protobuf.py ProtobufConverter._from_recap_construct_elements", R+"protobuf.py ProtobufConverter._recap_to_field")

p("Only values of a struct are data of the Protobuf message written for it",
  "Every datum, by the rules of the Protobuf language, of the message that from_recap writes for a struct is a value of the struct: numbers are in the range of the type, fields that are not optional are there, symbols are among those of the enum, and the parts of lists, maps, unions and nested structs are values of their types.",
  "all structs of any size and nesting for which a file is written; all data of any size and depth",
  "A test cannot enumerate the data that a message lets pass; a scalar type that is too wide or a declaration that is taken from another type makes no error.",
  R+"protobuf.py ProtobufConverter.from_recap", R+"protobuf.py ProtobufConverter._from_recap_gather_types", R+"protobuf.py ProtobufConverter._from_recap_construct_elements", R+"protobuf.py ProtobufConverter._recap_to_field")

p("Only data of an Avro schema are values of the type that is read",
  "Every value of the Recap type that to_recap reads from an Avro schema is a datum of the schema, by the specification of Avro: integers and floats within the bits, byte strings of a fixed type with its size, symbols of the enum, one of the members of a union, elements, map values and fields that are data of their schemas, and what a name refers to a datum of its definition.",
  "all accepted schemas of any size and nesting, with a converter that may have read other schemas; all values of any size and depth, through all references",
  "A test compares the type that is read with an expected one, for a few schemas; that no value of the type is foreign to the schema is a statement about infinitely many values, and what a name refers to depends on everything registered before.",
  R+"avro.py AvroConverter.to_recap", R+"avro.py AvroConverter._parse", R+"avro.py AvroConverter._parse_logical", "recap/types.py RecapTypeRegistry.from_alias", "recap/types.py ProxyType.resolve")

p("Only values of a type are data of the Avro schema written for it",
  "Every datum, by the specification of Avro, of the schema that from_recap returns for a type is a value of the type: numbers are in the range of the type, strings and byte strings no longer than its limit, dates, times, decimals and UUIDs in the fields where the type has them, symbols among those of the enum, and elements, map values, fields and members of unions values of their types.",
  "all Recap types of any size and nesting for which a schema is written; all data of any size and depth",
  "A test cannot enumerate the data that a schema lets pass; a type that is too wide, or an annotation that Avro ignores, makes no error.",
  R+"avro.py AvroConverter.from_recap", R+"avro.py AvroConverter._from_recap", R+"avro.py AvroConverter._from_recap_logical")

p("Only valid JSON values are values of the type that is read from a JSON Schema",
  "Every JSON value of the Recap type that to_recap reads from a JSON Schema is valid against the schema, by the rules of JSON Schema: the values of the fields are valid against the properties, required properties are there, items of lists are valid against the schema of the items, and members of unions are of one of the types listed.",
  "all accepted JSON Schemas of any size and nesting; all JSON values of any size and depth",
  "A test compares the type that is read with an expected one, for a few schemas; a keyword that is not read, or a default that makes a required field optional, makes no error, and that no value of the type is invalid is a statement about infinitely many values.",
  R+"json_schema.py JSONSchemaConverter.to_recap", R+"json_schema.py JSONSchemaConverter._parse", "recap/types.py RecapType.make_nullable")

p("Only data of a Protobuf file are values of the type that is read from it",
  "Every value of the Recap type that to_recap reads from a Protobuf file is a datum, by the language guide of Protobuf, of the first message: numbers are in the range of the field's type, symbols among those of the enum, repeated fields lists and map fields maps, a oneof has a value of one of its members or none, and fields with the type of a message have data of the message that the name means there.",
  "all Protobuf files with any number of messages of any nesting for which a type is returned; all values of any size and depth",
  "A test compares the type that is read with an expected one, for a few files; a type that is too wide makes no error, and that all its values can be sent is a statement about infinitely many values.",
  R+"protobuf.py ProtobufConverter.to_recap", R+"protobuf.py ProtobufConverter._parse", R+"protobuf.py ProtobufConverter._protobuf_type_to_recap_type", "recap/types.py RecapTypeRegistry.from_alias")

p("A PostgreSQL table is read with exactly its columns",
  "schema(catalog, schema, table) of the PostgreSQL client returns a struct with one field for each column of the table that the user may see, in the order of the columns and with their names, and none for dropped columns, system columns or columns of tables with the same name in other schemas. Fields of columns that can be null are nullable, and the field of a column whose type is an enum has the labels of that enum, in their order.",
  "all contents of the catalogs of a database, with any number of schemas, tables, columns, types and labels; all orders in which the database may return what the query leaves unordered",
  "A test runs the query against one small database, in which no names collide and the order happens to be right; a join that multiplies or loses rows, or an aggregate without an order, shows only for other contents.",
  C+"postgresql.py PostgresqlClient.schema", C+"dbapi.py DbapiClient.schema", R+"postgresql.py PostgresqlConverter._parse_type", R+"dbapi.py DbapiConverter.to_recap")

p("Reading a table that does not exist is an error",
  "If the database has no table with the given name, schema raises an exception; it does not return a type.",
  "all databases and all names of catalogs, schemas and tables that are not in them",
  "A test asks for one name that is missing; whether the answer differs from that for a table without columns depends on the contents of the database and on the rights of the user.",
  C+"sqlite.py SQLiteClient.schema", C+"sqlite.py SQLiteClient._table_exists", C+"postgresql.py PostgresqlClient.schema", C+"dbapi.py DbapiClient.schema", R+"dbapi.py DbapiConverter.to_recap")

p("Arrays stored in a PostgreSQL column are values of the type that is read",
  "Every array that PostgreSQL stores in a column - with any number of dimensions up to six, whatever is declared, and with elements that can be null - is a value of the field that the converter reads for the column, also after other tables have been read with the same converter.",
  "all tables with columns that are arrays, of any element type; all arrays of any size and number of dimensions; all states of the registry",
  "A test looks at the type for one column; that an array has the type depends on its dimensions, on what a reference of the type to itself resolves to, and on the element type, and there are infinitely many arrays.",
  R+"postgresql.py PostgresqlConverter._parse_type", R+"postgresql.py PostgresqlConverter._create_n_dimension_list", "recap/types.py RecapTypeRegistry.register_alias", "recap/types.py ProxyType.resolve")

p("The rows of a table are valid against the JSON Schema that is written for it",
  "If a table is read and its type is written as JSON Schema, every row that the database stores in the table is valid against the schema, when it is written as a JSON object with the columns' names: byte strings and decimal numbers as strings, points in time, days and times of day as whole numbers, arrays as arrays.",
  "all tables of MySQL, PostgreSQL, Snowflake and SQLite with any number of columns for which a schema is written; all rows; all settings of the converters",
  "A test compares a schema with an expected one; whether all rows are valid depends on what the database can store in a column and on what the keywords of the schema mean together, and there are infinitely many rows.",
  R+"json_schema.py JSONSchemaConverter.from_recap", R+"json_schema.py JSONSchemaConverter._convert_field", R+"dbapi.py DbapiConverter.to_recap", R+"mysql.py MysqlConverter._parse_type", R+"postgresql.py PostgresqlConverter._parse_type", R+"snowflake.py SnowflakeConverter._parse_type", R+"sqlite.py SQLiteConverter._parse_type")

p("References in a JSON Schema that is read resolve to what is read for the schema they refer to",
  "If a new converter reads a JSON Schema, every reference in the Recap type that it returns resolves, and it resolves to the type that was read from the schema in the document which has the identifier that is referred to.",
  "all JSON Schemas of any size and depth whose references are to identifiers of schemas in the document, including those that refer to themselves; all references in the type that is returned",
  "A test compares the returned type with an expected one, in which a reference is equal to every other with the same alias; whether it resolves depends on what the registry contains, and whether it is to the right schema on the aliases of all other schemas.",
  R+"json_schema.py JSONSchemaConverter.to_recap", R+"json_schema.py JSONSchemaConverter._parse", R+"json_schema.py JSONSchemaConverter.urn_to_alias", "recap/types.py ProxyType.resolve", "recap/types.py RecapTypeRegistry.register_alias")

p("The aliases of types that are read from JSON Schemas are accepted by Recap",
  "If a JSON Schema has identifiers, every alias in the Recap type that is read, of the types and of the references, is a fully qualified name as Recap requires, so that the type can be registered and its dictionary read again.",
  "all JSON Schemas of any size with any identifiers: URLs with any host, port, path and fragment, and references without a host; all types inside the type that is read",
  "A test has a few URLs; whether the alias is accepted depends on every character of the identifier, and there are infinitely many identifiers.",
  R+"json_schema.py JSONSchemaConverter.urn_to_alias", R+"json_schema.py JSONSchemaConverter._parse", "recap/types.py RecapTypeRegistry.register_alias", "recap/types.py ALIAS_REGEX")

p("A MySQL or Snowflake table is read with exactly its columns",
  "Reading a table of a MySQL or Snowflake server gives a struct with one field for each column of that table, and for no column of another table, in the order of the columns in the table, with the column's name, nullable exactly when the column is, and with the type of that column; it does not depend on the order in which the server keeps the rows of information_schema, nor on how it spells the names of the columns of information_schema.",
  "all servers with any number of catalogs, schemas, tables and columns; all answers the server may give to the query; all ways in which the server compares names for which the requested names are those of one table",
  "A test asks one server with one table; which rows are selected and in which order depends on all other tables of the server and on choices that the server makes.",
  C+"dbapi.py DbapiClient.schema", C+"mysql.py MysqlClient.schema", C+"snowflake.py SnowflakeClient", R+"dbapi.py DbapiConverter.to_recap")

p("The rows of BigQuery and Hive tables are valid against the JSON Schema that is written for them",
  "If a BigQuery or Hive table is read and a JSON Schema is written for it, every row that the table can contain, written as a JSON object, is valid against that schema; records and structures are objects with the names of their fields, arrays are arrays and maps are objects. Values that are null are written as null, or left out.",
  "all BigQuery tables with records and arrays of any depth, all Hive tables with arrays, maps, structures and unions of any depth; all rows that can be stored in them",
  "A test compares a schema with an expected one; whether all rows are valid depends on the values at all depths and on what the keywords of the schema mean together, and there are infinitely many rows.",
  R+"bigquery.py BigQueryConverter.to_recap", R+"hive_metastore.py HiveMetastoreConverter.to_recap", R+"hive_metastore.py HiveMetastoreConverter._parse_schema", R+"json_schema.py JSONSchemaConverter.from_recap", R+"json_schema.py JSONSchemaConverter._convert_field")

p("The command line prints what the gateway answers",
  "If the HTTP gateway answers a request for the schema of a URL in some format, or for the children of a URL, the command line prints the same for the same URL and format, as JSON or as the same Protobuf file. Conversely, what the command line prints is what the gateway answers, unless the gateway refuses the URL because it is not configured, and then the configured URLs have no influence on what is printed.",
  "all URLs, configured URLs, formats, and answers of the systems behind the clients",
  "A test compares the two for a few URLs; whether they agree depends on how a URL is matched with every configured one, on all answers of the systems and on all characters that are printed.",
  "recap/cli.py ls", "recap/cli.py schema", "recap/commands.py ls", "recap/commands.py schema", "recap/server/gateway.py ls", "recap/server/gateway.py schema", "recap/settings.py RecapSettings.unsafe_url")

p("The rows of a table are data of the Avro schema that is written for the table",
  "If a table of MySQL, PostgreSQL, Snowflake, SQLite, BigQuery or Hive is read and an Avro schema is written for it, every row that the table can contain is a datum of that schema: it can be encoded with it, column by column, including null where a column can be null.",
  "all tables of the six systems, with records, arrays and structures of any depth; all rows that can be stored in them",
  "A test compares a schema with an expected one; whether all rows can be encoded depends on what every attribute of the schema means in Avro and on the values of all columns, and there are infinitely many rows.",
  R+"dbapi.py DbapiConverter.to_recap", R+"mysql.py MysqlConverter", R+"postgresql.py PostgresqlConverter", R+"snowflake.py SnowflakeConverter", R+"sqlite.py SQLiteConverter", R+"bigquery.py BigQueryConverter.to_recap", R+"hive_metastore.py HiveMetastoreConverter.to_recap", R+"avro.py AvroConverter.from_recap")

p("What is shown for the URL of a table describes the rows of that table",
  "If a user asks for the JSON Schema of the URL of a table of MySQL, PostgreSQL, Snowflake, BigQuery or SQLite, on the command line or over HTTP, then every row of that table, as a JSON object, is valid against the schema that is printed: the table with the names in the URL, on the host and port or in the file of the URL, reached with the credentials configured for it, whatever other tables the server has and in whatever order it lists columns. Likewise, if Avro is asked for, every row is a datum of the schema. If the types of the columns can be read, a schema is printed.",
  "all URLs of tables, configured URLs, servers with any number of tables and columns, and rows that can be stored in the table",
  "A test asks for one URL of one server and looks at the text; the claim spans the parsing of all URLs, the choice of credentials, the query, the converter, the writer and the printed text, for all tables and all rows in them.",
  "recap/cli.py schema", "recap/commands.py schema", "recap/server/gateway.py schema", "recap/settings.py RecapSettings.unsafe_url", C+"__init__.py create_client", C+"mysql.py MysqlClient.parse", C+"dbapi.py DbapiClient.parse", C+"snowflake.py SnowflakeClient", C+"dbapi.py DbapiClient.schema", C+"postgresql.py PostgresqlClient.schema", C+"bigquery.py BigQueryClient", C+"sqlite.py SQLiteClient", R+"dbapi.py DbapiConverter.to_recap", R+"mysql.py MysqlConverter", R+"postgresql.py PostgresqlConverter", R+"snowflake.py SnowflakeConverter", R+"bigquery.py BigQueryConverter.to_recap", R+"sqlite.py SQLiteConverter", R+"json_schema.py JSONSchemaConverter.from_recap", R+"avro.py AvroConverter.from_recap")

p("The URL of a Hive metastore or of a Confluent registry leads to that server",
  "Creating a client with the URL of a Hive metastore connects to the host and port in the URL. Creating one with the URL of a Confluent registry connects to the same URL with http or https as its scheme, and uses the certificates and the authentication that are given in its query, and nothing else of it. Listing or reading such a URL with the commands, over HTTP or on the command line reaches the same server.",
  "all URLs of metastores and registries, with any host, port, path and parameters; all configured URLs",
  "A test creates one client with one URL; the claim is about all URLs, about the texts that are replaced in them, and about every set of configured URLs.",
  C+"__init__.py create_client", C+"__init__.py parse_url", C+"__init__.py _url_to_dict", C+"hive_metastore.py HiveMetastoreClient.create", C+"hive_metastore.py HiveMetastoreClient.parse", C+"confluent_registry.py ConfluentRegistryClient.create", C+"confluent_registry.py ConfluentRegistryClient.parse", C+"confluent_registry.py ALLOWED_ATTRS", "recap/settings.py RecapSettings.unsafe_url")

p("A JSON Schema that is read and written again accepts the same values",
  "If a JSON Schema is read and a JSON Schema is written for the type, a JSON value is valid against the second exactly if it is valid against the first: nothing that was allowed is rejected afterwards, and nothing that was rejected is allowed.",
  "all JSON Schemas that can be read, nested to any depth, and all JSON values",
  "A test compares the text of one schema with an expected one; whether two schemas accept the same values depends on what their keywords mean, for infinitely many values and schemas.",
  R+"json_schema.py JSONSchemaConverter.to_recap", R+"json_schema.py JSONSchemaConverter._parse", R+"json_schema.py JSONSchemaConverter.from_recap", R+"json_schema.py JSONSchemaConverter._from_recap")

p("The file that is named is the file that is read",
  "If a user asks for the schema of the path of a file, that file is read, and its suffix says in which format: .avsc, .avro, .avdl and .avpr for Avro, .proto, .protobuf, .protos, .proto2 and .proto3 for Protobuf, .json, .jsonschema and .jsons for JSON Schema, in lower or upper case. If a user asks for a URL with the scheme file, the file that the URL names is read: the one whose path is the path of the URL with percent escapes decoded, on this machine if the host is empty or localhost.",
  "all paths, absolute and relative, and all URLs of files; all configured URLs",
  "A test reads a few files with plain names; the claim is about all paths and URLs, including those with characters that mean something in a URL.",
  C+"fs.py FilesystemClient.create", C+"fs.py FilesystemClient.parse", C+"fs.py FilesystemClient.schema", C+"fs.py FilesystemClient._read_file", C+"__init__.py parse_url", C+"__init__.py _url_to_dict", "recap/settings.py RecapSettings.unsafe_url")

p("An Avro schema that is read and written again has the same data",
  "If an Avro schema is read and an Avro schema is written for the type, the second has the same data as the first: whatever could be encoded with the first can be encoded with the second, and nothing else.",
  "all Avro schemas that can be read, nested to any depth, in any namespace, and all data",
  "A test compares the text of one schema with an expected one; whether two schemas have the same data depends on what every attribute means in Avro, for infinitely many data and schemas.",
  R+"avro.py AvroConverter.to_recap", R+"avro.py AvroConverter._parse", R+"avro.py AvroConverter._parse_logical", R+"avro.py AvroConverter.from_recap", R+"avro.py AvroConverter._from_recap")

def extra():
    pass

if __name__ == "__main__":
    out = os.path.join(os.path.dirname(__file__), "..", "properties.jsonl")
    with open(out, "w") as f:
        for x in P:
            f.write(json.dumps(x, ensure_ascii=False) + "\n")
    print(len(P))
