{"id": "C01", "title": "Verbatim dictionary round trip", "statement": "For every well-formed Recap type t, from_dict(to_dict(t, clean=False, alias=False)) returns a type equal (==) to t.", "quantifier": "all Recap types of any nesting depth, any extra attributes that do not clash with constructor parameter names, any set of distinct valid aliases", "why_tests_cant": "types are recursive trees of unbounded depth with arbitrary extra attributes; tests only sample a few shapes", "anchors": ["recap/types.py:from_dict", "recap/types.py:to_dict", "recap/types.py:RecapType.__eq__"]}
{"id": "C02", "title": "Clean dictionary round trip", "statement": "For every Recap type t, from_dict(to_dict(t, clean=True, alias=False)) == t.", "quantifier": "all Recap types", "why_tests_cant": "the compaction rules interact with each other over arbitrary nesting; a sample of types cannot show there is no interfering combination", "anchors": ["recap/types.py:clean_dict", "recap/types.py:to_dict", "recap/types.py:from_dict"]}
{"id": "C03", "title": "Default serialisation round trip up to built-in aliases", "statement": "For every Recap type t, from_dict(to_dict(t)) is t with every subterm that matches a built-in alias replaced by a reference to that alias.", "quantifier": "all Recap types without user-defined aliases", "why_tests_cant": "unbounded type trees; alias substitution happens at every level and is re-applied by every enclosing level", "anchors": ["recap/types.py:alias_dict", "recap/types.py:to_dict", "recap/types.py:from_dict"]}
{"id": "C04", "title": "to_dict never raises on a valid type", "statement": "to_dict(t) returns a value, and does not raise, for every Recap type t that validates.", "quantifier": "all valid Recap types, with any placement of aliases in the tree", "why_tests_cant": "the failing placements are a structural pattern (an alias two levels below an un-aliased node), not a particular value", "anchors": ["recap/types.py:to_dict", "recap/types.py:alias_dict", "recap/types.py:RecapTypeRegistry.register_alias"]}
{"id": "C05", "title": "Compaction keeps names, defaults and documentation", "statement": "clean_dict never drops a non-None name, default, doc, alias or logical attribute of the type it compacts.", "quantifier": "all type dictionaries", "why_tests_cant": "the attributes lost depend on which other attributes are present, over all dictionaries", "anchors": ["recap/types.py:clean_dict"]}
{"id": "C06", "title": "Parsed types respect the documented bounds everywhere", "statement": "Every type returned by from_dict, and every type nested in it at any depth, has bits in 1..2^31-1, byte lengths and list lengths in 1..2^63-1 or unset, and a length whenever it is fixed-size.", "quantifier": "all JSON inputs on which from_dict returns", "why_tests_cant": "arbitrary JSON documents nested to any depth, including documents whose bounds are booleans, floats, strings or null", "anchors": ["recap/types.py:from_dict", "recap/types.py:RecapType.validate"]}
{"id": "C07", "title": "from_dict terminates with a type or an exception on every JSON value", "statement": "from_dict applied to any JSON value finishes: it returns a Recap type or raises; the optional rewrite never makes it loop.", "quantifier": "all JSON values", "why_tests_cant": "termination over all inputs is not observable by running some inputs", "anchors": ["recap/types.py:from_dict"]}
{"id": "C08", "title": "Aliases defined by one document are distinct, qualified and registered", "statement": "When from_dict returns, all aliases defined by the returned type are pairwise distinct, match the fully-qualified-name grammar, were not registered before, and are all registered afterwards.", "quantifier": "all JSON documents and all starting registries", "why_tests_cant": "quantifies over all documents and registry histories", "anchors": ["recap/types.py:from_dict", "recap/types.py:RecapTypeRegistry.register_alias"]}
{"id": "C09", "title": "Registered aliases are never overwritten", "statement": "Once an alias is in a registry, no later sequence of from_dict, to_dict or register_alias calls on that registry changes or removes what it maps to.", "quantifier": "all registries, all sequences of later operations", "why_tests_cant": "an invariant over unbounded histories", "anchors": ["recap/types.py:RecapTypeRegistry.register_alias", "recap/types.py:from_dict", "recap/types.py:alias_dict"]}
{"id": "C10", "title": "Alias grammar", "statement": "register_alias accepts a previously unused alias exactly when it is two or more identifiers ([A-Za-z_][A-Za-z0-9_]*) joined by dots.", "quantifier": "all strings", "why_tests_cant": "an infinite input domain; tests cannot show that no other string is accepted", "anchors": ["recap/types.py:ALIAS_REGEX", "recap/types.py:RecapTypeRegistry.register_alias"]}
{"id": "C11", "title": "User aliases never shadow built-in aliases", "statement": "No user alias that register_alias accepts is equal to a built-in alias, and from_alias keeps returning the built-in definition of every built-in alias, whatever has been registered.", "quantifier": "all registries reachable by any sequence of registrations", "why_tests_cant": "an invariant over unbounded histories", "anchors": ["recap/types.py:BUILTIN_ALIASES", "recap/types.py:RecapTypeRegistry"]}
{"id": "C12", "title": "Type equality is an equivalence relation", "statement": "== on Recap types is reflexive, symmetric and transitive.", "quantifier": "all Recap types and all attribute values", "why_tests_cant": "three universally quantified types of any depth", "anchors": ["recap/types.py:RecapType.__eq__", "recap/types.py:IntType.__eq__", "recap/types.py:ProxyType.__eq__"]}
{"id": "C13", "title": "Types of different classes are never equal", "statement": "Two Recap types of different classes are never ==, and equal types agree on every attribute.", "quantifier": "all pairs of Recap types", "why_tests_cant": "all pairs of types", "anchors": ["recap/types.py:RecapType.__eq__"]}
{"id": "C14", "title": "make_nullable yields a nullable union with the promoted attributes", "statement": "make_nullable() returns a union that is nullable, contains the original type as a member, carries the original doc, name and default, and has a default attribute even if the original had none.", "quantifier": "all Recap types", "why_tests_cant": "all types with arbitrary attributes", "anchors": ["recap/types.py:RecapType.make_nullable", "recap/types.py:RecapType.is_nullable"]}
{"id": "C15", "title": "make_nullable leaves the receiver unchanged", "statement": "Calling t.make_nullable() does not change t.", "quantifier": "all Recap types", "why_tests_cant": "depends on which attributes are present on the receiver", "anchors": ["recap/types.py:RecapType.make_nullable"]}
{"id": "C16", "title": "make_nullable is idempotent", "statement": "Making an already nullable type nullable again gives an equal type.", "quantifier": "all Recap types", "why_tests_cant": "all types with arbitrary attributes", "anchors": ["recap/types.py:RecapType.make_nullable"]}
{"id": "C17", "title": "Nullability test", "statement": "is_nullable() is true exactly for the null type and for unions with a null member; is_optional is true exactly for unions with a plain null, a default, and exactly one member that is not a plain null.", "quantifier": "all Recap types", "why_tests_cant": "unions of any length", "anchors": ["recap/types.py:RecapType.is_nullable", "recap/types.py:UnionType.is_optional"]}
{"id": "C18", "title": "A reference resolves to the registered definition", "statement": "Resolving a reference to a registered alias gives the registered type with exactly the attribute overrides given on the reference, and never the definition's doc, default or alias.", "quantifier": "all registries and all references", "why_tests_cant": "all registries and overrides", "anchors": ["recap/types.py:ProxyType.resolve", "recap/types.py:RecapTypeRegistry.from_alias"]}
{"id": "C19", "title": "References can be followed to any depth", "statement": "If a document parses and every alias it mentions is defined in it, then following references from the parsed type never fails, however many references are followed.", "quantifier": "all documents, all paths of references", "why_tests_cant": "recursive types give infinite reference paths", "anchors": ["recap/types.py:ProxyType.resolve", "recap/types.py:RecapTypeRegistry.register_alias"]}
{"id": "C20", "title": "Shorthand forms parse like their long forms", "statement": "from_dict of a list equals from_dict of the union dictionary with that list as types, from_dict of a string equals from_dict of {'type': string}.", "quantifier": "all lists and strings, all registries", "why_tests_cant": "all documents", "anchors": ["recap/types.py:from_dict"]}
{"id": "C21", "title": "A type list and a types list mean the same union", "statement": "from_dict({'type': [..members..], ..attrs..}) equals from_dict({'type': 'union', 'types': [..members..], ..attrs..}).", "quantifier": "all member lists and attributes", "why_tests_cant": "the member forms are arbitrary JSON", "anchors": ["recap/types.py:from_dict"]}
{"id": "C22", "title": "optional=True makes the type nullable and gives it a default", "statement": "When from_dict accepts a dictionary with a truthy 'optional', the result is a union with a null member and a default attribute.", "quantifier": "all type dictionaries", "why_tests_cant": "all documents", "anchors": ["recap/types.py:from_dict"]}
{"id": "C23", "title": "Unknown type names become references that carry the attributes", "statement": "from_dict({'type': n, ..attrs..}) with n not a core type name is a reference to n with these attributes, whether or not n is registered, and registers nothing.", "quantifier": "all names and attribute dictionaries", "why_tests_cant": "all names", "anchors": ["recap/types.py:from_dict", "recap/types.py:ProxyType"]}
{"id": "C24", "title": "Alias substitution is sound", "statement": "Whenever alias_dict replaces a dictionary by a reference, the referenced alias is in the registry and its definition is == to the type the dictionary denotes.", "quantifier": "all dictionaries and registries", "why_tests_cant": "all dictionaries and registries", "anchors": ["recap/types.py:alias_dict"]}
{"id": "C25", "title": "Schema storage refines a map from name and version to type", "statement": "After any sequence of put and post operations with ordinary names, get, versions and ls answer exactly as an abstract map from name and version to serialised type would.", "quantifier": "all operation sequences, all names other than '', '.' and '..'", "why_tests_cant": "unbounded histories", "anchors": ["recap/storage/registry.py:RegistryStorage"]}
{"id": "C26", "title": "Version numbers are fresh and increasing", "statement": "put without a version returns latest+1 (1 for a new name), never a version that already exists, and leaves every existing version untouched.", "quantifier": "all storage histories", "why_tests_cant": "unbounded histories", "anchors": ["recap/storage/registry.py:RegistryStorage.put", "recap/storage/registry.py:RegistryStorage.latest"]}
{"id": "C27", "title": "versions() is sorted and latest() is the maximum", "statement": "versions(name) is strictly increasing and lists exactly the stored versions; latest(name) is their maximum or None.", "quantifier": "all storage histories", "why_tests_cant": "unbounded histories; string versus numeric ordering of file names", "anchors": ["recap/storage/registry.py:RegistryStorage.versions", "recap/storage/registry.py:RegistryStorage.latest"]}
{"id": "C28", "title": "Schema names survive the trip through directory names", "statement": "For every name, the directory name used for it contains no '/', and unquoting it gives the name back, so that two different names never share a directory.", "quantifier": "all strings", "why_tests_cant": "all Unicode strings", "anchors": ["recap/storage/registry.py:RegistryStorage.put", "recap/storage/registry.py:RegistryStorage.ls"]}
{"id": "C29", "title": "Every schema stays inside its own directory", "statement": "No schema name makes the storage read or write outside its own sub-directory of the root.", "quantifier": "all names", "why_tests_cant": "all strings, including path-like ones", "anchors": ["recap/storage/registry.py:RegistryStorage"]}
{"id": "C30", "title": "ls() is sorted and complete", "statement": "ls() returns in ascending order exactly the names that have been stored, each once.", "quantifier": "all storage histories", "why_tests_cant": "unbounded histories", "anchors": ["recap/storage/registry.py:RegistryStorage.ls"]}
{"id": "C31", "title": "A crash while storing loses nothing already stored", "statement": "If the process stops at any point during put, every version stored before is still readable and unchanged.", "quantifier": "all histories, all crash points", "why_tests_cant": "all crash points", "anchors": ["recap/storage/registry.py:RegistryStorage.put"]}
{"id": "C32", "title": "A crash while storing is all-or-nothing", "statement": "After a crash at any point during put, the new version is either completely stored or absent.", "quantifier": "all crash points", "why_tests_cant": "all crash points", "anchors": ["recap/storage/registry.py:RegistryStorage.put"]}
{"id": "C33", "title": "Published versions are immutable over HTTP", "statement": "If requests are handled one after another, no request changes the answer to GET of an existing name and version.", "quantifier": "all request sequences", "why_tests_cant": "unbounded histories", "anchors": ["recap/server/registry.py:put", "recap/server/registry.py:post"]}
{"id": "C34", "title": "Concurrent PUTs of one version: at most one succeeds", "statement": "Under every interleaving of concurrent requests, at most one PUT of a given name and version returns 200.", "quantifier": "all interleavings of handlers at their await points", "why_tests_cant": "all schedules", "anchors": ["recap/server/registry.py:put"]}
{"id": "C35", "title": "Concurrent POSTs get distinct versions", "statement": "Under every interleaving of concurrent requests at their await points within one server process, POSTs to one name get pairwise distinct versions.", "quantifier": "all interleavings", "why_tests_cant": "all schedules", "anchors": ["recap/server/registry.py:post", "recap/storage/registry.py:RegistryStorage.put"]}
{"id": "C36", "title": "GET returns what was stored", "statement": "After a successful POST or PUT of a document, GET of that version returns the canonical form of the document's type, and reading it gives an equal type.", "quantifier": "all documents, all histories", "why_tests_cant": "all documents and histories", "anchors": ["recap/server/registry.py:latest", "recap/server/registry.py:version", "recap/storage/registry.py:RegistryStorage.get"]}
{"id": "C37", "title": "Rejected requests change nothing", "statement": "A request answered with an error status leaves the storage unchanged.", "quantifier": "all requests and storages", "why_tests_cant": "all requests", "anchors": ["recap/server/registry.py:post", "recap/server/registry.py:put"]}
{"id": "C38", "title": "Unknown names and versions are 404", "statement": "GET of a name or version that has never been stored answers 404, and GET of a stored one answers 200.", "quantifier": "all histories, names and versions", "why_tests_cant": "all histories", "anchors": ["recap/server/registry.py:latest", "recap/server/registry.py:version", "recap/server/registry.py:versions"]}
{"id": "C39", "title": "safe_urls never reveals credentials", "statement": "The URLs returned by safe_urls do not depend on the user name or password in the configured URLs.", "quantifier": "all configured URLs with a host, all credentials", "why_tests_cant": "non-interference compares all pairs of credentials", "anchors": ["recap/settings.py:RecapSettings.safe_urls"]}
{"id": "C40", "title": "safe_urls keeps everything else", "statement": "safe_urls keeps scheme, host, port, path, query and fragment of each configured URL.", "quantifier": "all configured URLs", "why_tests_cant": "all URLs", "anchors": ["recap/settings.py:RecapSettings.safe_urls"]}
{"id": "C41", "title": "unsafe_url only adds credentials of a matching configured URL", "statement": "unsafe_url returns the given URL with user and password from the first configured URL with the same scheme, host and port whose path is a prefix of the given path.", "quantifier": "all configured URL lists, all given URLs", "why_tests_cant": "all lists of URLs", "anchors": ["recap/settings.py:RecapSettings.unsafe_url"]}
{"id": "C42", "title": "Strict mode refuses unconfigured URLs", "statement": "unsafe_url in strict mode raises ValueError when no configured URL matches, and in non-strict mode returns the URL unchanged.", "quantifier": "all configured URL lists, all given URLs", "why_tests_cant": "all URLs", "anchors": ["recap/settings.py:RecapSettings.unsafe_url"]}
{"id": "C43", "title": "Credentials are only used below the configured path", "statement": "unsafe_url adds the credentials of a configured URL only to URLs whose path equals its path or continues it at a '/'.", "quantifier": "all configured URLs, all given URLs", "why_tests_cant": "all path strings", "anchors": ["recap/settings.py:RecapSettings.unsafe_url"]}
{"id": "C44", "title": "Every configured URL can be used in strict mode", "statement": "For every configured URL u, unsafe_url of the safe form of u succeeds in strict mode.", "quantifier": "all configured URLs", "why_tests_cant": "all URLs, including those without a path", "anchors": ["recap/settings.py:RecapSettings.unsafe_url", "recap/settings.py:RecapSettings.safe_urls"]}
{"id": "C45", "title": "Query parameters of the request win", "statement": "In the URL returned by unsafe_url each query parameter has the value given in the request if the request has it, and the configured value otherwise.", "quantifier": "all queries", "why_tests_cant": "all query strings", "anchors": ["recap/settings.py:RecapSettings.unsafe_url"]}
{"id": "C46", "title": "Every supported scheme can be listed and read", "statement": "For every scheme in the client table, the URL produced by parse_url is accepted by create_client.", "quantifier": "all supported schemes, all URLs with them", "why_tests_cant": "all URLs", "anchors": ["recap/clients/__init__.py:parse_url", "recap/clients/__init__.py:create_client"]}
{"id": "C47", "title": "Unsupported schemes are refused", "statement": "create_client and parse_url raise ValueError for every scheme outside the client table.", "quantifier": "all URLs", "why_tests_cant": "all URLs", "anchors": ["recap/clients/__init__.py:create_client", "recap/clients/__init__.py:parse_url"]}
{"id": "C48", "title": "Relational columns become struct fields one to one", "statement": "to_recap of a relational table gives a struct with one field per column, in column order, each named after its column.", "quantifier": "all column lists on which conversion succeeds, for every dialect", "why_tests_cant": "column lists of any length", "anchors": ["recap/converters/dbapi.py:DbapiConverter.to_recap"]}
{"id": "C49", "title": "Relational nullability is preserved", "statement": "A field is nullable exactly when its column has IS_NULLABLE = YES (in any letter case).", "quantifier": "all columns, every dialect", "why_tests_cant": "all columns and dialect types", "anchors": ["recap/converters/dbapi.py:DbapiConverter.to_recap", "recap/types.py:RecapType.make_nullable"]}
{"id": "C50", "title": "Relational defaults are preserved", "statement": "A field has a default attribute exactly when the column is nullable or has a default, and its value is the column default.", "quantifier": "all columns, every dialect", "why_tests_cant": "all columns", "anchors": ["recap/converters/dbapi.py:DbapiConverter.to_recap"]}
{"id": "C51", "title": "Relational conversions yield valid types", "statement": "Every type produced by a relational converter passes validate(), so that it can be serialised.", "quantifier": "all columns, every dialect", "why_tests_cant": "all column property values", "anchors": ["recap/converters/mysql.py:MysqlConverter", "recap/converters/postgresql.py:PostgresqlConverter", "recap/converters/snowflake.py:SnowflakeConverter", "recap/converters/sqlite.py:SQLiteConverter"]}
{"id": "C52", "title": "Time precision maps to a unit fine enough to hold it", "statement": "The unit chosen for a fractional-second precision p is at least as fine as 10^-p seconds.", "quantifier": "all precisions", "why_tests_cant": "all integers", "anchors": ["recap/converters/dbapi.py:DbapiConverter._get_time_unit"]}
{"id": "C53", "title": "PostgreSQL arrays have the declared number of dimensions", "statement": "With enforce_array_dimensions, an array of n dimensions becomes exactly n nested lists around a nullable element.", "quantifier": "all n", "why_tests_cant": "induction over n", "anchors": ["recap/converters/postgresql.py:PostgresqlConverter._create_n_dimension_list"]}
{"id": "C54", "title": "Reading a PostgreSQL table is repeatable", "statement": "Converting the same PostgreSQL columns again with the same converter gives the same result.", "quantifier": "all column lists, all earlier conversions", "why_tests_cant": "depends on the history of the converter", "anchors": ["recap/converters/postgresql.py:PostgresqlConverter._parse_type"]}
{"id": "C55", "title": "SQLite affinity", "statement": "The type chosen for a SQLite column follows SQLite's documented affinity rules in order.", "quantifier": "all declared type strings", "why_tests_cant": "all strings", "anchors": ["recap/converters/sqlite.py:SQLiteConverter"]}
{"id": "C56", "title": "BigQuery fields are preserved at every depth", "statement": "to_recap of a BigQuery schema keeps field order, names, descriptions, repetition and nullability at every nesting depth.", "quantifier": "all schemas of any depth", "why_tests_cant": "recursive schemas", "anchors": ["recap/converters/bigquery.py:BigQueryConverter"]}
{"id": "C57", "title": "Hive columns are always nullable", "statement": "Every column of a converted Hive table, at every depth, is nullable.", "quantifier": "all Hive types", "why_tests_cant": "recursive types", "anchors": ["recap/converters/hive_metastore.py:HiveMetastoreConverter"]}
{"id": "C58", "title": "Hive unions are flat", "statement": "No union produced from a Hive type has a union among its members, and no two members are equal.", "quantifier": "all Hive types", "why_tests_cant": "recursive types", "anchors": ["recap/converters/hive_metastore.py:HiveMetastoreConverter._flatten_unions"]}
{"id": "C59", "title": "Flattening Hive unions keeps element attributes", "statement": "Flattening keeps the attributes of lists and maps inside unions.", "quantifier": "all Hive types", "why_tests_cant": "recursive types", "anchors": ["recap/converters/hive_metastore.py:HiveMetastoreConverter._flatten_unions"]}
{"id": "C60", "title": "Avro integers can hold every value", "statement": "The Avro type written for an integer type can hold every value of that integer type.", "quantifier": "all bit widths, signed and unsigned", "why_tests_cant": "all widths", "anchors": ["recap/converters/avro.py:AvroConverter.from_recap"]}
{"id": "C61", "title": "Avro round trip", "statement": "to_recap(from_recap(t)) equals t for every type in the Avro-native subset.", "quantifier": "all types in the subset, of any depth", "why_tests_cant": "recursive types", "anchors": ["recap/converters/avro.py:AvroConverter.from_recap", "recap/converters/avro.py:AvroConverter.to_recap"]}
{"id": "C62", "title": "Avro accepts every valid Avro schema built from supported types", "statement": "to_recap accepts every Avro schema made of records, arrays, maps, unions, enums and primitives with distinct fully-qualified type names.", "quantifier": "all such schemas", "why_tests_cant": "recursive schemas", "anchors": ["recap/converters/avro.py:AvroConverter.to_recap"]}
{"id": "C63", "title": "Avro output uses only Avro type names", "statement": "Every type name in the output of from_recap is an Avro primitive, an Avro complex type keyword or a name defined in the output.", "quantifier": "all Recap types on which from_recap succeeds", "why_tests_cant": "recursive types", "anchors": ["recap/converters/avro.py:AvroConverter.from_recap"]}
{"id": "C64", "title": "Protobuf field numbers are unique in each message", "statement": "In every message written by from_recap the field numbers are pairwise distinct.", "quantifier": "all struct types", "why_tests_cant": "all field lists", "anchors": ["recap/converters/protobuf.py:ProtobufConverter.from_recap"]}
{"id": "C65", "title": "Protobuf round trip", "statement": "from_recap(to_recap(file)) succeeds and declares the same messages and fields.", "quantifier": "all proto files with supported types", "why_tests_cant": "recursive types", "anchors": ["recap/converters/protobuf.py:ProtobufConverter.from_recap", "recap/converters/protobuf.py:ProtobufConverter.to_recap"]}
{"id": "C66", "title": "Protobuf messages may reference each other in any order", "statement": "to_recap accepts a proto file whatever the order in which its messages are declared.", "quantifier": "all orders of declarations", "why_tests_cant": "all permutations", "anchors": ["recap/converters/protobuf.py:ProtobufConverter.to_recap"]}
{"id": "C67", "title": "JSON Schema required and optional agree", "statement": "A property of a JSON Schema object becomes an optional field exactly when it is not listed in required.", "quantifier": "all object schemas", "why_tests_cant": "all property lists", "anchors": ["recap/converters/json_schema.py:JSONSchemaConverter.to_recap"]}
{"id": "C68", "title": "JSON Schema output lists exactly the non-optional fields as required", "statement": "from_recap of a struct lists in required exactly the names of the fields that are not optional, and has one property per field name.", "quantifier": "all struct types", "why_tests_cant": "all field lists", "anchors": ["recap/converters/json_schema.py:JSONSchemaConverter.from_recap"]}
{"id": "C69", "title": "JSON Schema output is self-contained", "statement": "Every $ref in the output of from_recap points to an entry of $defs, and following $refs ends at a schema that is not a $ref.", "quantifier": "all types on which from_recap succeeds", "why_tests_cant": "recursive types", "anchors": ["recap/converters/json_schema.py:JSONSchemaConverter.from_recap"]}
{"id": "C70", "title": "JSON Schema round trip", "statement": "to_recap(from_recap(t)) == t for every type in the JSON-Schema-native subset.", "quantifier": "all types in the subset", "why_tests_cant": "recursive types", "anchors": ["recap/converters/json_schema.py:JSONSchemaConverter.from_recap", "recap/converters/json_schema.py:JSONSchemaConverter.to_recap"]}
{"id": "C71", "title": "Whatever can be read can be written and read back", "statement": "If from_dict(v) returns t, then t is well formed, and from_dict(to_dict(t, clean=False, alias=False)) == t.", "quantifier": "all JSON documents v that from_dict accepts", "why_tests_cant": "documents are unbounded trees with arbitrary extra keys", "anchors": ["recap/types.py:from_dict", "recap/types.py:to_dict"]}
{"id": "C72", "title": "Resolved references are valid", "statement": "The type that a reference resolves to respects the documented bounds on bits, bytes and length.", "quantifier": "all definitions accepted by from_dict, all references to them with any attribute overrides", "why_tests_cant": "overrides are arbitrary; they are applied after validation", "anchors": ["recap/types.py:ProxyType.resolve", "recap/types.py:from_dict"]}
{"id": "C73", "title": "Only valid schemas can be stored", "statement": "When the registry server answers 200 to a POST or PUT, the body is a Recap type: it and every nested type respect the documented bounds, and every reference in it resolves.", "quantifier": "all request bodies, all registry contents", "why_tests_cant": "bodies are arbitrary documents or text; rejecting a sample of bad ones says nothing about the rest", "anchors": ["recap/server/registry.py:post", "recap/server/registry.py:put", "recap/server/registry.py:_request_to_type"]}
{"id": "C74", "title": "Server processes that share a storage get distinct versions", "statement": "Two server processes that store a schema under the same name without choosing a version are given different versions.", "quantifier": "all interleavings of any number of processes, all registry contents", "why_tests_cant": "the outcome depends on the schedule; tests run one", "anchors": ["recap/storage/registry.py:RegistryStorage.put"]}
{"id": "C75", "title": "Self-references of PostgreSQL arrays resolve to the array", "statement": "The type of a PostgreSQL array column refers to itself for further dimensions, and that reference resolves, in the registry after the conversion, to the very array type of that column.", "quantifier": "all tables, all columns with an array type", "why_tests_cant": "the reference is resolved later, after any number of further columns", "anchors": ["recap/converters/postgresql.py:PostgresqlConverter._parse_type"]}
{"id": "C76", "title": "Columns are converted independently of each other", "statement": "The field of a column does not depend on which other columns the table has, and a table whose columns can each be converted can be converted as a whole.", "quantifier": "all tables, all dialects", "why_tests_cant": "all combinations of columns", "anchors": ["recap/converters/dbapi.py:DbapiConverter.to_recap", "recap/converters/postgresql.py:PostgresqlConverter"]}
{"id": "C77", "title": "Whatever PostgreSQL column type is supported is supported inside arrays", "statement": "If a column of type T can be converted, so can a column of type T[], and its elements are converted like T.", "quantifier": "all columns", "why_tests_cant": "all data types and their parameters", "anchors": ["recap/converters/postgresql.py:PostgresqlConverter._parse_type"]}
{"id": "C78", "title": "The integer for a time of day can hold every time of day", "statement": "A column of a time-of-day type becomes an integer type wide enough for every time of day in its unit.", "quantifier": "all columns with a TIME type, all dialects, all precisions", "why_tests_cant": "all precisions and dialects", "anchors": ["recap/converters/snowflake.py:SnowflakeConverter"]}
{"id": "C79", "title": "A SQLite table is read as SQLite declares it", "statement": "schema of a SQLite table has one field per row of PRAGMA table_info, in order, with its name and default, nullable exactly when the column is neither NOT NULL nor part of the primary key.", "quantifier": "all results of PRAGMA table_info", "why_tests_cant": "all tables", "anchors": ["recap/clients/sqlite.py:SQLiteClient.schema", "recap/clients/sqlite.py:SQLiteClient.add_information_schema", "recap/converters/sqlite.py:SQLiteConverter"]}
{"id": "C80", "title": "Lengths declared in SQLite are honoured", "statement": "A SQLite column declared with a character or binary type and a length becomes a type of at most that length.", "quantifier": "all declared types", "why_tests_cant": "declared types are arbitrary text", "anchors": ["recap/clients/sqlite.py:SQLiteClient.add_information_schema", "recap/converters/sqlite.py:SQLiteConverter"]}
{"id": "C81", "title": "Exactly the Hive tables with known types can be converted", "statement": "Converting a Hive table succeeds exactly when every type in its columns, at every depth, is one the converter supports; otherwise a ValueError is raised.", "quantifier": "all Hive tables, types of any depth", "why_tests_cant": "Hive types nest without bound", "anchors": ["recap/converters/hive_metastore.py:HiveMetastoreConverter.to_recap", "recap/converters/hive_metastore.py:HiveMetastoreConverter._parse_schema"]}
{"id": "C82", "title": "A converted Hive table mirrors the table", "statement": "The result has one field per column, in order, with the column's name and comment, and at every depth structs, lists, maps and unions of the result correspond to those of the Hive type, with the same field names and with primitives of the documented sizes.", "quantifier": "all Hive tables, types of any depth", "why_tests_cant": "Hive types nest without bound", "anchors": ["recap/converters/hive_metastore.py:HiveMetastoreConverter.to_recap", "recap/converters/hive_metastore.py:HiveMetastoreConverter._parse_schema"]}
{"id": "C83", "title": "Converted schemas are valid", "statement": "A Hive table or BigQuery schema whose declared lengths are positive and below 2^63 converts to a type that passes validate(), and so does every type nested in it.", "quantifier": "all tables and schemas, types of any depth", "why_tests_cant": "types nest without bound", "anchors": ["recap/converters/hive_metastore.py:HiveMetastoreConverter.to_recap", "recap/converters/bigquery.py:BigQueryConverter.to_recap", "recap/types.py:RecapType.validate"]}
{"id": "C84", "title": "Exactly the BigQuery schemas with known types can be converted", "statement": "Converting a BigQuery schema succeeds exactly when every field at every depth has a supported type name; otherwise a ValueError is raised.", "quantifier": "all BigQuery schemas, records of any depth", "why_tests_cant": "records nest without bound", "anchors": ["recap/converters/bigquery.py:BigQueryConverter.to_recap"]}
{"id": "C85", "title": "Decimals fit into their bytes", "statement": "The bytes of a decimal type produced by a database converter can hold every number with the type's precision as a signed integer.", "quantifier": "all tables with decimal columns, all precisions the database allows", "why_tests_cant": "all precisions and nested types", "anchors": ["recap/converters/hive_metastore.py:HiveMetastoreConverter", "recap/converters/bigquery.py:BigQueryConverter", "recap/converters/mysql.py:MysqlConverter", "recap/converters/postgresql.py:PostgresqlConverter", "recap/converters/snowflake.py:SnowflakeConverter"]}
{"id": "C86", "title": "Strict mode connects only to configured servers", "statement": "Whatever strict mode lists or reads, the driver is given the host and port of a configured URL, and only the credentials of that URL.", "quantifier": "all configurations, all requested MySQL, PostgreSQL and Snowflake URLs", "why_tests_cant": "all URLs and configurations", "anchors": ["recap/clients/__init__.py:parse_url", "recap/clients/__init__.py:create_client", "recap/settings.py:RecapSettings.unsafe_url", "recap/commands.py:ls", "recap/commands.py:schema"]}
{"id": "C87", "title": "A database URL reads the table it names", "statement": "Reading a database URL asks for exactly the table named by its path, over a connection to its host, port and database, with the credentials of the first configured URL that covers it, or else its own.", "quantifier": "all configurations, all requested URLs whose query does not use the names of the connection's own arguments, strict or not", "why_tests_cant": "all URLs and configurations", "anchors": ["recap/clients/postgresql.py:PostgresqlClient", "recap/clients/mysql.py:MysqlClient", "recap/clients/snowflake.py:SnowflakeClient", "recap/clients/dbapi.py:DbapiClient.parse", "recap/commands.py:schema"]}
{"id": "C88", "title": "A database URL lists the level its path names", "statement": "Listing a database URL lists the databases, schemas or tables below exactly the object named by the path; a path that is too deep is refused.", "quantifier": "all configurations, all MySQL, PostgreSQL and Snowflake URLs, strict or not", "why_tests_cant": "all URLs and configurations", "anchors": ["recap/clients/dbapi.py:DbapiClient.ls", "recap/clients/mysql.py:MysqlClient.ls", "recap/clients/dbapi.py:DbapiClient.parse", "recap/clients/mysql.py:MysqlClient.parse", "recap/commands.py:ls"]}
{"id": "C89", "title": "BigQuery URLs can be listed", "statement": "Listing a BigQuery URL lists the projects, datasets or tables below the object that it names.", "quantifier": "all configurations, all BigQuery URLs", "why_tests_cant": "all URLs and configurations", "anchors": ["recap/clients/bigquery.py:BigQueryClient.parse", "recap/clients/bigquery.py:BigQueryClient.ls", "recap/commands.py:ls"]}
{"id": "C90", "title": "A SQLite URL means the same file for listing and reading", "statement": "Listing the URL of a database file opens that file; reading the URL of a table in it opens the same file and reads that table; in strict mode both are refused unless a configured URL covers the file.", "quantifier": "all paths of files, all tables, all configurations, strict or not", "why_tests_cant": "all URLs and configurations", "anchors": ["recap/clients/sqlite.py:SQLiteClient.parse", "recap/clients/sqlite.py:SQLiteClient.create", "recap/commands.py:ls", "recap/commands.py:schema"]}
{"id": "C91", "title": "Drivers are given the credentials that the URL means", "statement": "The user and the password given to the driver are those of the URL with percent escapes decoded.", "quantifier": "all URLs with credentials", "why_tests_cant": "all credentials, with any escapes", "anchors": ["recap/clients/__init__.py:_url_to_dict", "recap/clients/__init__.py:create_client"]}
{"id": "C92", "title": "Strict mode allows exactly the files below configured URLs", "statement": "In strict mode a file can be listed or read exactly when a configured file URL covers it.", "quantifier": "all configurations, all file URLs", "why_tests_cant": "all URLs and configurations", "anchors": ["recap/clients/fs.py:FilesystemClient.parse", "recap/settings.py:RecapSettings.unsafe_url"]}
{"id": "C93", "title": "Exactly the supported JSON schemas are accepted", "statement": "to_recap accepts exactly the object schemas built from basic types, arrays, objects and lists of alternatives, at any depth, whatever other keywords they carry; everything else is refused with a ValueError.", "quantifier": "all JSON documents", "why_tests_cant": "recursive documents", "anchors": ["recap/converters/json_schema.py:JSONSchemaConverter.to_recap", "recap/converters/json_schema.py:JSONSchemaConverter._parse"]}
{"id": "C94", "title": "Avro names are read as full names", "statement": "to_recap gives each type of an accepted schema the alias that is its full name under Avro's namespace rules, reads references as references to full names, keeps Avro's types of values, and the converter then knows exactly the names it knew and those of the schema.", "quantifier": "all accepted schemas of any depth, all namespaces, all earlier states of the converter", "why_tests_cant": "recursive schemas with nested namespaces", "anchors": ["recap/converters/avro.py:AvroConverter.to_recap", "recap/converters/avro.py:AvroConverter._parse"]}
{"id": "C95", "title": "Avro docs and defaults are kept", "statement": "to_recap keeps the doc of every type and field and the default of every field of an accepted schema.", "quantifier": "all accepted schemas, all fields at any depth", "why_tests_cant": "recursive schemas", "anchors": ["recap/converters/avro.py:AvroConverter.to_recap", "recap/converters/avro.py:AvroConverter._parse"]}
{"id": "C96", "title": "Avro references can be resolved after reading", "statement": "Every reference in what to_recap returns can be resolved exactly when the type it names is in the schema or was read by the converter before; otherwise resolving it is a TypeError.", "quantifier": "all accepted schemas, all references in them, all earlier states of the converter", "why_tests_cant": "recursive schemas and histories of the converter", "anchors": ["recap/converters/avro.py:AvroConverter.to_recap", "recap/types.py:ProxyType.resolve"]}
{"id": "C97", "title": "An Avro converter can be used again", "statement": "What to_recap returns for a schema does not depend on the schemas that the same converter has read before.", "quantifier": "all pairs of accepted schemas, all states of the converter", "why_tests_cant": "all histories of the converter", "anchors": ["recap/converters/avro.py:AvroConverter.__init__", "recap/converters/avro.py:AvroConverter.to_recap"]}
{"id": "C98", "title": "Unknown Avro logical types are ignored", "statement": "A schema with a logical type that recap does not know is read as its underlying type, as the Avro specification demands.", "quantifier": "all logical type names", "why_tests_cant": "all names", "anchors": ["recap/converters/avro.py:AvroConverter._parse_logical"]}
{"id": "C99", "title": "Protobuf messages are read with their meaning", "statement": "to_recap returns a struct for the first message of the file, named after the package, with a field for each field, map field and oneof of the message, in order, under the same name: with the type that Protobuf means, optional unless required, a list if repeated, a union for a oneof; so at any depth.", "quantifier": "all accepted files, all earlier states of the converter", "why_tests_cant": "recursive messages and histories of the converter", "anchors": ["recap/converters/protobuf.py:ProtobufConverter.to_recap", "recap/converters/protobuf.py:ProtobufConverter._parse_message"]}
{"id": "C100", "title": "Protobuf field names are kept", "statement": "In what from_recap writes, the message for a struct has a field, map field or oneof with the name of each named field of the struct.", "quantifier": "all struct types, all fields at any depth", "why_tests_cant": "recursive types", "anchors": ["recap/converters/protobuf.py:ProtobufConverter._recap_to_field"]}
{"id": "C101", "title": "Protobuf files declare exactly the structs and enums of the type", "statement": "from_recap declares each struct and enum in the type exactly once, under its alias, and nothing else.", "quantifier": "all struct types of any depth", "why_tests_cant": "recursive types with nested packages", "anchors": ["recap/converters/protobuf.py:ProtobufConverter._from_recap_gather_types", "recap/converters/protobuf.py:ProtobufConverter._from_recap_construct_elements"]}
{"id": "C102", "title": "A Protobuf converter can be used again", "statement": "After a file has been read, the converter reads another file in the same way as before, apart from knowing more types.", "quantifier": "all histories of the converter", "why_tests_cant": "all histories", "anchors": ["recap/converters/protobuf.py:ProtobufConverter._parse"]}
{"id": "C103", "title": "Protobuf enums have the symbols of the type", "statement": "Each enum that from_recap writes has the symbols of an enum of the type, in order, numbered from zero.", "quantifier": "all struct types of any depth", "why_tests_cant": "recursive types", "anchors": ["recap/converters/protobuf.py:ProtobufConverter._from_recap_gather_types"]}
{"id": "C104", "title": "Protobuf integer types hold all values of the field", "statement": "Every value of an integer field of a struct is a value of the type that from_recap writes for the field.", "quantifier": "all struct types, all integer fields, all values", "why_tests_cant": "infinitely many widths and values", "anchors": ["recap/converters/protobuf.py:ProtobufConverter._recap_to_field"]}
{"id": "C105", "title": "Written Protobuf files can be read", "statement": "to_recap(from_recap(t)) succeeds and returns a struct with the alias, the fields and the names of t, whose types hold at least the same values.", "quantifier": "all struct types that from_recap accepts", "why_tests_cant": "recursive types", "anchors": ["recap/converters/protobuf.py:ProtobufConverter.from_recap", "recap/converters/protobuf.py:ProtobufConverter.to_recap"]}
{"id": "C106", "title": "Nesting that Protobuf does not have is refused", "statement": "from_recap refuses lists of lists, maps and unions, optional lists and maps of lists rather than writing another type.", "quantifier": "all struct types", "why_tests_cant": "recursive types", "anchors": ["recap/converters/protobuf.py:ProtobufConverter._recap_to_field"]}
{"id": "C107", "title": "Nested Protobuf messages have their own scope", "statement": "to_recap reads files in which messages or enums of the same name are nested in different messages, and references to nested messages by the names of the messages around them.", "quantifier": "all files with nested messages", "why_tests_cant": "recursive messages", "anchors": ["recap/converters/protobuf.py:ProtobufConverter._parse_message", "recap/converters/protobuf.py:ProtobufConverter._protobuf_type_to_recap_type"]}
{"id": "C108", "title": "Protobuf types that are written are defined", "statement": "Each type that a field written by from_recap has is a type of Protobuf or is declared in the file.", "quantifier": "all struct types of any depth", "why_tests_cant": "recursive types", "anchors": ["recap/converters/protobuf.py:ProtobufConverter.from_recap"]}
{"id": "C109", "title": "References left in what is read from Protobuf can be resolved", "statement": "Each reference in what to_recap returns can be resolved.", "quantifier": "all accepted files", "why_tests_cant": "recursive messages", "anchors": ["recap/converters/protobuf.py:ProtobufConverter._resolve_proxies"]}
{"id": "C110", "title": "Undeclared Protobuf types are refused", "statement": "to_recap refuses a file whose first message refers to a type that is not part of Protobuf and is declared neither in the file nor in one that the converter has read before.", "quantifier": "all files, all histories of the converter", "why_tests_cant": "all histories", "anchors": ["recap/converters/protobuf.py:ProtobufConverter.to_recap"]}
{"id": "C111", "title": "Absolute Protobuf references are read", "statement": "to_recap reads references by full names with a leading dot, as Protobuf has them and from_recap writes them.", "quantifier": "all files with such references", "why_tests_cant": "all files", "anchors": ["recap/converters/protobuf.py:ProtobufConverter._protobuf_type_to_recap_type"]}
{"id": "C112", "title": "The gateway answers in the requested format", "statement": "GET /gateway/schema/{url} answers exactly with what the client reads at the URL, converted to the format that the content type asks for (Recap's own if there is none); any other content type is refused with 415, and no other request is.", "quantifier": "all URLs, content types, settings and answers of the system", "why_tests_cant": "all requests and systems", "anchors": ["recap/server/gateway.py:schema", "recap/commands.py:schema", "recap/commands.py:FORMAT_MAP"]}
{"id": "C113", "title": "The gateway only shows what is configured", "statement": "What the gateway lists or reads comes from the server of a configured URL, with the credentials of that URL; the list of configured URLs shows no credentials; with nothing configured, nothing is shown.", "quantifier": "all settings, URLs and answers of the system", "why_tests_cant": "all settings and URLs", "anchors": ["recap/server/gateway.py:ls", "recap/server/gateway.py:schema", "recap/commands.py:ls", "recap/commands.py:schema"]}
{"id": "C114", "title": "A table can be shown as Protobuf", "statement": "The schema of a table that a database client reads can be written as Protobuf.", "quantifier": "all tables of all databases", "why_tests_cant": "all tables", "anchors": ["recap/commands.py:schema", "recap/converters/protobuf.py:ProtobufConverter.from_recap"]}
{"id": "C115", "title": "A table can be shown in Recap's own format and read back", "statement": "The schema of a table that a database client reads can be written in Recap's own format, and whoever reads what is written gets an equal type: the same columns with the same types, defaults and docs, where built-in aliases may stand for types.", "quantifier": "all tables of all databases", "why_tests_cant": "all tables, nested to any depth", "anchors": ["recap/commands.py:schema", "recap/types.py:to_dict", "recap/types.py:from_dict"]}
{"id": "C116", "title": "A table can be shown as JSON Schema", "statement": "The schema of a table that a database client reads can be written as JSON Schema: an object with one property for each column, where exactly the columns that are not nullable are required.", "quantifier": "all tables of all databases whose columns have names", "why_tests_cant": "all tables, nested to any depth", "anchors": ["recap/commands.py:schema", "recap/converters/json_schema.py:JSONSchemaConverter.from_recap"]}
{"id": "C117", "title": "A table can be shown as Avro", "statement": "The schema of a table that a database client reads can be written as Avro: what is written is a schema by the Avro specification, a record with a name and with one field for each column, in order.", "quantifier": "all tables of all databases whose tables and columns have names that Avro allows", "why_tests_cant": "all tables, nested to any depth", "anchors": ["recap/commands.py:schema", "recap/converters/avro.py:AvroConverter.from_recap"]}
{"id": "C118", "title": "Statistics only add to the schema of a Hive table", "statement": "With statistics, the schema of a Hive table has the same columns, in the same order and with the same types, names, docs and defaults as without; each column also says the quantities that its statistics say, with their values, and nothing else. Reading with statistics fails only if reading without fails or if there are statistics for a column that the table does not have.", "quantifier": "all Hive tables and all lists of statistics, also several for one column", "why_tests_cant": "all tables and all combinations of statistics, in every order", "anchors": ["recap/clients/hive_metastore.py:HiveMetastoreClient.schema", "recap/clients/hive_metastore.py:HiveMetastoreClient._load_stats"]}
{"id": "C119", "title": "A Hive table with statistics is shown like one without", "statement": "The schema of a Hive table read with statistics is shown with the same columns, names, defaults and types as the one read without: in JSON Schema it is the same schema, and in Recap's own format each column keeps its name and default.", "quantifier": "all Hive tables and all lists of statistics", "why_tests_cant": "all tables and all combinations of statistics", "anchors": ["recap/clients/hive_metastore.py:HiveMetastoreClient._load_stats", "recap/types.py:clean_dict", "recap/commands.py:schema"]}
{"id": "C120", "title": "Protobuf messages say what the struct says", "statement": "The message that from_recap writes for a struct has an element for each field, in order: a field whose Protobuf type holds the values of the type; a repeated field for a list, an optional one for an optional type, a map field for a map with the types of its keys and values, a oneof with a field for each type of a union; and the full name of a struct, enum or reference.", "quantifier": "all types that from_recap accepts, all their structs that are declared, and all fields with the nesting that Protobuf has", "why_tests_cant": "all types, nested to any depth", "anchors": ["recap/converters/protobuf.py:ProtobufConverter.from_recap", "recap/converters/protobuf.py:ProtobufConverter._recap_to_field"]}
{"id": "C121", "title": "Written Protobuf messages follow the rules of Protobuf", "statement": "In what from_recap writes, the keys of map fields are integers, booleans or strings, and oneofs have at least one field, all of them without a cardinality; types that have no such form are refused.", "quantifier": "all types that from_recap accepts", "why_tests_cant": "all types, nested to any depth", "anchors": ["recap/converters/protobuf.py:ProtobufConverter._recap_to_field"]}
{"id": "C122", "title": "The layout of a posted document does not matter", "statement": "A body posted to the registry is taken for the document v exactly if its bytes are a JSON text of v in UTF-8, whatever its white space, escapes, order of repeated names and spelling of numbers; no text denotes two documents; and the answer and the stored version depend on the document only.", "quantifier": "all byte strings, all documents, all storages, names and content types", "why_tests_cant": "documents nest to any depth and each has infinitely many texts", "anchors": ["recap/server/registry.py:_request_to_type", "recap/server/registry.py:post", "recap/server/registry.py:put"]}
{"id": "C123", "title": "What is written is JSON that reads back", "statement": "The text that is written for a type, in the registry's files, in the server's answers and on the command line, is a JSON text of the type's document and of no other, and reading it gives the document; in the registry's files it is printable ASCII, so that it does not depend on the encoding of the platform.", "quantifier": "all types with Python values as attributes, all three layouts, all encodings that agree with ASCII", "why_tests_cant": "all strings, numbers and nestings have to be written and read", "anchors": ["recap/storage/registry.py:RegistryStorage.put", "recap/storage/registry.py:RegistryStorage.get", "recap/types.py:to_dict"]}
{"id": "C124", "title": "A torn write is never taken for a schema", "statement": "If the process stops after any byte of what put writes, then the storage still answers as a map from names and versions to types in which at most the version being written is unreadable: reading it raises an error, and never gives a type that nobody stored. Readers during a put see, for the version being written, what was there before, an error or the new type, and everything else as before.", "quantifier": "all sequences of calls, all crash points after any byte, all readers between two bytes, all types whose document is not a bare number", "why_tests_cant": "every prefix of every text has to be refused, at every point of every history", "anchors": ["recap/storage/registry.py:RegistryStorage.put", "recap/storage/registry.py:RegistryStorage.get", "recap/storage/registry.py:RegistryStorage.versions"]}
{"id": "C125", "title": "A type name may be posted without quotes", "statement": "Posting the name of a type as plain text has the same answer and effect as posting the JSON string with the name.", "quantifier": "all names that begin with a letter or an underscore and have no white space; all storages and content types", "why_tests_cant": "all names", "anchors": ["recap/server/registry.py:_request_to_type"]}
{"id": "C126", "title": "Every value in a column is a value of its type", "statement": "Every value that the database can store in a column (by its documentation) is a value of the type that schema gives for the column: integers and points in time are in range, strings and bytes fit the length, decimals have enough digits before and after the point, null is allowed where the column allows it.", "quantifier": "all tables of MySQL, PostgreSQL, Snowflake, SQLite, BigQuery and Hive, all columns (nested records, arrays, maps and unions to any depth for BigQuery and Hive), all values that the column can hold", "why_tests_cant": "Tests compare the converted type with an expected type written by the same author; whether a type holds all values of the column is a statement about infinitely many values, most of which no fixture contains.", "anchors": ["recap/converters/mysql.py MysqlConverter._parse_type", "recap/converters/postgresql.py PostgresqlConverter._parse_type", "recap/converters/snowflake.py SnowflakeConverter._parse_type", "recap/converters/sqlite.py SQLiteConverter._parse_type", "recap/converters/bigquery.py BigQueryConverter.to_recap", "recap/converters/hive_metastore.py HiveMetastoreConverter._parse_schema", "recap/types.py RecapType.make_nullable"]}
{"id": "C127", "title": "What is listed can be read", "statement": "A table or subject that ls returns for a URL can be read by schema: appending its name to that URL reads that table, and no other, from the same server with the same credentials; a SQLite table is read from its own columns; a subject of a registry is read from its own latest schema.", "quantifier": "all URLs that list tables, all contents of the database, database file or registry, all names that are listed", "why_tests_cant": "Tests list and read a few fixtures with harmless names; a listed name is chosen by whoever created the table, so it can be a reserved word or contain spaces, quotes and slashes.", "anchors": ["recap/clients/dbapi.py DbapiClient.ls_tables", "recap/clients/dbapi.py DbapiClient.schema", "recap/clients/sqlite.py SQLiteClient.ls", "recap/clients/sqlite.py SQLiteClient.schema", "recap/clients/confluent_registry.py ConfluentRegistryClient.schema", "recap/commands.py ls", "recap/commands.py schema"]}
{"id": "C128", "title": "Avro data are values of the type that is read", "statement": "Every datum that Avro allows for a schema is a value of the Recap type that is read from the schema, where the references in the type are followed with resolve: integers are within the number of bits, decimals within precision, scale and bytes, enum symbols among the symbols, times and dates in the given unit, and nested data in the nested types.", "quantifier": "all accepted Avro schemas, of any size and nesting, with any definitions and references; all data of the schema of any size and depth", "why_tests_cant": "A test checks the converted type against an expected type, not against data, and cannot enumerate schemas and data; references are followed to a depth that depends on the datum.", "anchors": ["recap/converters/avro.py AvroConverter.to_recap", "recap/converters/avro.py AvroConverter._parse", "recap/converters/avro.py AvroConverter._parse_logical", "recap/types.py ProxyType.resolve", "recap/types.py RecapTypeRegistry.register_alias"]}
{"id": "C129", "title": "The values of a type are data of the Avro schema written for it", "statement": "Every value that a Recap type describes is a datum, by the rules of Avro, of the schema that from_recap returns for the type, so that a value can be written with that schema: integers and floats fit, decimals, dates, times and timestamps are encoded in the unit of the schema, strings and bytes are within the length, and lists, maps, structures and unions are schemas of their parts.", "quantifier": "all Recap types of any size and nesting for which a schema is written; all values of the type of any size and depth", "why_tests_cant": "A test compares the written schema with an expected one, or reads it back with Recap's own reader, which accepts what Avro does not; it cannot enumerate types and values.", "anchors": ["recap/converters/avro.py AvroConverter.from_recap", "recap/converters/avro.py AvroConverter._from_recap", "recap/converters/avro.py AvroConverter._from_recap_logical"]}
{"id": "C130", "title": "JSON values that are valid against a schema are values of the type that is read", "statement": "Every JSON value that is valid against a JSON Schema, by the rules of JSON Schema, is a value of the Recap type that to_recap reads from the schema: numbers within the bits, properties in the types of the fields, properties that may be left out are fields with a default, items of arrays in the type of the list, and values of a list of types in one member of the union.", "quantifier": "all accepted JSON Schemas of any size and nesting; all JSON values of any size and depth", "why_tests_cant": "A test compares the type that is read with an expected one, for a few schemas; valid values are infinitely many, and their numbers have no bound.", "anchors": ["recap/converters/json_schema.py JSONSchemaConverter.to_recap", "recap/converters/json_schema.py JSONSchemaConverter._parse", "recap/types.py RecapType.make_nullable"]}
{"id": "C131", "title": "The values of a type are valid against the JSON Schema written for it", "statement": "Every JSON value that a Recap type describes is valid, by the rules of JSON Schema, against the schema that from_recap returns for the type, whatever the references to its definitions stand for as long as they mean the definitions: required properties are there, values of unions are valid against exactly one member, and values of aliased types are valid against the definition.", "quantifier": "all Recap types of any size and nesting for which a schema is written; all JSON values of the type of any size and depth; all meanings of references that meet the definitions", "why_tests_cant": "A test compares the written schema with an expected one; whether all values of a type pass validation is a statement about infinitely many values, and oneOf fails only for values that two members share.", "anchors": ["recap/converters/json_schema.py JSONSchemaConverter.from_recap", "recap/converters/json_schema.py JSONSchemaConverter._convert_field", "recap/converters/json_schema.py JSONSchemaConverter._generate_alias_defs"]}
{"id": "C132", "title": "Only values of a type are valid against the JSON Schema written for it", "statement": "Every JSON value that is valid, by the rules of JSON Schema, against the schema that from_recap returns for a type is a value of the type: fields that are not optional are there, each property is a value of the field with that name, elements, map values and members of unions likewise, enum values are among the symbols, and numbers and lengths are in the range of the type.", "quantifier": "all Recap types of any size and nesting for which a schema is written; all JSON values of any size and depth; all meanings of references that meet the definitions", "why_tests_cant": "A test cannot enumerate the values that a schema lets pass; a missing keyword makes the schema weaker without any error.", "anchors": ["recap/converters/json_schema.py JSONSchemaConverter.from_recap", "recap/converters/json_schema.py JSONSchemaConverter._convert_field", "recap/converters/json_schema.py JSONSchemaConverter._generate_alias_defs"]}
{"id": "C133", "title": "The data of a Protobuf message are values of the type that is read", "statement": "Every datum of the first message of a Protobuf file, by the rules of the Protobuf language, is a value of the Recap type that to_recap reads from the file: integers within the bits, points in time, strings and bytes of any length Protobuf allows, symbols of enums, nested messages wherever they are declared, repeated fields as lists, map fields as maps, absent fields as null and oneofs as one of the members.", "quantifier": "all accepted files of any size and nesting, with a converter that has read no other file; all data of any size and depth", "why_tests_cant": "A test compares the type that is read with an expected one, for a few files; the data of a file are infinitely many, and which declaration a name means depends on all the scopes around it.", "anchors": ["recap/converters/protobuf.py ProtobufConverter.to_recap", "recap/converters/protobuf.py ProtobufConverter._parse_message", "recap/converters/protobuf.py ProtobufConverter._parse_field", "recap/converters/protobuf.py ProtobufConverter._protobuf_type_to_recap_type", "recap/converters/protobuf.py ProtobufConverter._parse_oneof"]}
{"id": "C134", "title": "The values of a struct are data of the Protobuf message written for it", "statement": "Every value of a struct is a datum, by the rules of the Protobuf language, of the message with its name in the file that from_recap returns: numbers fit the scalar type that is chosen, symbols are declared, fields of structs and enums refer to declarations that describe them, lists, maps, nulls and members of unions are what the element allows.", "quantifier": "all structs of any size and nesting for which a file is written; all values of any size and depth", "why_tests_cant": "A test compares the written file with an expected one; that no value is lost is a statement about all values of all types, including the boundaries of every number of bits.", "anchors": ["recap/converters/protobuf.py ProtobufConverter.from_recap", "recap/converters/protobuf.py ProtobufConverter._from_recap_gather_types", "recap/converters/protobuf.py ProtobufConverter._from_recap_construct_elements", "recap/converters/protobuf.py ProtobufConverter._recap_to_field"]}
{"id": "C135", "title": "Only values of a struct are data of the Protobuf message written for it", "statement": "Every datum, by the rules of the Protobuf language, of the message that from_recap writes for a struct is a value of the struct: numbers are in the range of the type, fields that are not optional are there, symbols are among those of the enum, and the parts of lists, maps, unions and nested structs are values of their types.", "quantifier": "all structs of any size and nesting for which a file is written; all data of any size and depth", "why_tests_cant": "A test cannot enumerate the data that a message lets pass; a scalar type that is too wide or a declaration that is taken from another type makes no error.", "anchors": ["recap/converters/protobuf.py ProtobufConverter.from_recap", "recap/converters/protobuf.py ProtobufConverter._from_recap_gather_types", "recap/converters/protobuf.py ProtobufConverter._from_recap_construct_elements", "recap/converters/protobuf.py ProtobufConverter._recap_to_field"]}
{"id": "C136", "title": "Only data of an Avro schema are values of the type that is read", "statement": "Every value of the Recap type that to_recap reads from an Avro schema is a datum of the schema, by the specification of Avro: integers and floats within the bits, byte strings of a fixed type with its size, symbols of the enum, one of the members of a union, elements, map values and fields that are data of their schemas, and what a name refers to a datum of its definition.", "quantifier": "all accepted schemas of any size and nesting, with a converter that may have read other schemas; all values of any size and depth, through all references", "why_tests_cant": "A test compares the type that is read with an expected one, for a few schemas; that no value of the type is foreign to the schema is a statement about infinitely many values, and what a name refers to depends on everything registered before.", "anchors": ["recap/converters/avro.py AvroConverter.to_recap", "recap/converters/avro.py AvroConverter._parse", "recap/converters/avro.py AvroConverter._parse_logical", "recap/types.py RecapTypeRegistry.from_alias", "recap/types.py ProxyType.resolve"]}
{"id": "C137", "title": "Only values of a type are data of the Avro schema written for it", "statement": "Every datum, by the specification of Avro, of the schema that from_recap returns for a type is a value of the type: numbers are in the range of the type, strings and byte strings no longer than its limit, dates, times, decimals and UUIDs in the fields where the type has them, symbols among those of the enum, and elements, map values, fields and members of unions values of their types.", "quantifier": "all Recap types of any size and nesting for which a schema is written; all data of any size and depth", "why_tests_cant": "A test cannot enumerate the data that a schema lets pass; a type that is too wide, or an annotation that Avro ignores, makes no error.", "anchors": ["recap/converters/avro.py AvroConverter.from_recap", "recap/converters/avro.py AvroConverter._from_recap", "recap/converters/avro.py AvroConverter._from_recap_logical"]}
{"id": "C138", "title": "Only valid JSON values are values of the type that is read from a JSON Schema", "statement": "Every JSON value of the Recap type that to_recap reads from a JSON Schema is valid against the schema, by the rules of JSON Schema: the values of the fields are valid against the properties, required properties are there, items of lists are valid against the schema of the items, and members of unions are of one of the types listed.", "quantifier": "all accepted JSON Schemas of any size and nesting; all JSON values of any size and depth", "why_tests_cant": "A test compares the type that is read with an expected one, for a few schemas; a keyword that is not read, or a default that makes a required field optional, makes no error, and that no value of the type is invalid is a statement about infinitely many values.", "anchors": ["recap/converters/json_schema.py JSONSchemaConverter.to_recap", "recap/converters/json_schema.py JSONSchemaConverter._parse", "recap/types.py RecapType.make_nullable"]}
{"id": "C139", "title": "Only data of a Protobuf file are values of the type that is read from it", "statement": "Every value of the Recap type that to_recap reads from a Protobuf file is a datum, by the language guide of Protobuf, of the first message: numbers are in the range of the field's type, symbols among those of the enum, repeated fields lists and map fields maps, a oneof has a value of one of its members or none, and fields with the type of a message have data of the message that the name means there.", "quantifier": "all Protobuf files with any number of messages of any nesting for which a type is returned; all values of any size and depth", "why_tests_cant": "A test compares the type that is read with an expected one, for a few files; a type that is too wide makes no error, and that all its values can be sent is a statement about infinitely many values.", "anchors": ["recap/converters/protobuf.py ProtobufConverter.to_recap", "recap/converters/protobuf.py ProtobufConverter._parse", "recap/converters/protobuf.py ProtobufConverter._protobuf_type_to_recap_type", "recap/types.py RecapTypeRegistry.from_alias"]}
{"id": "C140", "title": "A PostgreSQL table is read with exactly its columns", "statement": "schema(catalog, schema, table) of the PostgreSQL client returns a struct with one field for each column of the table that the user may see, in the order of the columns and with their names, and none for dropped columns, system columns or columns of tables with the same name in other schemas. Fields of columns that can be null are nullable, and the field of a column whose type is an enum has the labels of that enum, in their order.", "quantifier": "all contents of the catalogs of a database, with any number of schemas, tables, columns, types and labels; all orders in which the database may return what the query leaves unordered", "why_tests_cant": "A test runs the query against one small database, in which no names collide and the order happens to be right; a join that multiplies or loses rows, or an aggregate without an order, shows only for other contents.", "anchors": ["recap/clients/postgresql.py PostgresqlClient.schema", "recap/clients/dbapi.py DbapiClient.schema", "recap/converters/postgresql.py PostgresqlConverter._parse_type", "recap/converters/dbapi.py DbapiConverter.to_recap"]}
{"id": "C141", "title": "Reading a table that does not exist is an error", "statement": "If the database has no table with the given name, schema raises an exception; it does not return a type.", "quantifier": "all databases and all names of catalogs, schemas and tables that are not in them", "why_tests_cant": "A test asks for one name that is missing; whether the answer differs from that for a table without columns depends on the contents of the database and on the rights of the user.", "anchors": ["recap/clients/sqlite.py SQLiteClient.schema", "recap/clients/sqlite.py SQLiteClient._table_exists", "recap/clients/postgresql.py PostgresqlClient.schema", "recap/clients/dbapi.py DbapiClient.schema", "recap/converters/dbapi.py DbapiConverter.to_recap"]}
{"id": "C142", "title": "Arrays stored in a PostgreSQL column are values of the type that is read", "statement": "Every array that PostgreSQL stores in a column - with any number of dimensions up to six, whatever is declared, and with elements that can be null - is a value of the field that the converter reads for the column, also after other tables have been read with the same converter.", "quantifier": "all tables with columns that are arrays, of any element type; all arrays of any size and number of dimensions; all states of the registry", "why_tests_cant": "A test looks at the type for one column; that an array has the type depends on its dimensions, on what a reference of the type to itself resolves to, and on the element type, and there are infinitely many arrays.", "anchors": ["recap/converters/postgresql.py PostgresqlConverter._parse_type", "recap/converters/postgresql.py PostgresqlConverter._create_n_dimension_list", "recap/types.py RecapTypeRegistry.register_alias", "recap/types.py ProxyType.resolve"]}
{"id": "C143", "title": "The rows of a table are valid against the JSON Schema that is written for it", "statement": "If a table is read and its type is written as JSON Schema, every row that the database stores in the table is valid against the schema, when it is written as a JSON object with the columns' names: byte strings and decimal numbers as strings, points in time, days and times of day as whole numbers, arrays as arrays.", "quantifier": "all tables of MySQL, PostgreSQL, Snowflake and SQLite with any number of columns for which a schema is written; all rows; all settings of the converters", "why_tests_cant": "A test compares a schema with an expected one; whether all rows are valid depends on what the database can store in a column and on what the keywords of the schema mean together, and there are infinitely many rows.", "anchors": ["recap/converters/json_schema.py JSONSchemaConverter.from_recap", "recap/converters/json_schema.py JSONSchemaConverter._convert_field", "recap/converters/dbapi.py DbapiConverter.to_recap", "recap/converters/mysql.py MysqlConverter._parse_type", "recap/converters/postgresql.py PostgresqlConverter._parse_type", "recap/converters/snowflake.py SnowflakeConverter._parse_type", "recap/converters/sqlite.py SQLiteConverter._parse_type"]}
{"id": "C144", "title": "References in a JSON Schema that is read resolve to what is read for the schema they refer to", "statement": "If a new converter reads a JSON Schema, every reference in the Recap type that it returns resolves, and it resolves to the type that was read from the schema in the document which has the identifier that is referred to.", "quantifier": "all JSON Schemas of any size and depth whose references are to identifiers of schemas in the document, including those that refer to themselves; all references in the type that is returned", "why_tests_cant": "A test compares the returned type with an expected one, in which a reference is equal to every other with the same alias; whether it resolves depends on what the registry contains, and whether it is to the right schema on the aliases of all other schemas.", "anchors": ["recap/converters/json_schema.py JSONSchemaConverter.to_recap", "recap/converters/json_schema.py JSONSchemaConverter._parse", "recap/converters/json_schema.py JSONSchemaConverter.urn_to_alias", "recap/types.py ProxyType.resolve", "recap/types.py RecapTypeRegistry.register_alias"]}
{"id": "C145", "title": "The aliases of types that are read from JSON Schemas are accepted by Recap", "statement": "If a JSON Schema has identifiers, every alias in the Recap type that is read, of the types and of the references, is a fully qualified name as Recap requires, so that the type can be registered and its dictionary read again.", "quantifier": "all JSON Schemas of any size with any identifiers: URLs with any host, port, path and fragment, and references without a host; all types inside the type that is read", "why_tests_cant": "A test has a few URLs; whether the alias is accepted depends on every character of the identifier, and there are infinitely many identifiers.", "anchors": ["recap/converters/json_schema.py JSONSchemaConverter.urn_to_alias", "recap/converters/json_schema.py JSONSchemaConverter._parse", "recap/types.py RecapTypeRegistry.register_alias", "recap/types.py ALIAS_REGEX"]}
{"id": "C146", "title": "A MySQL or Snowflake table is read with exactly its columns", "statement": "Reading a table of a MySQL or Snowflake server gives a struct with one field for each column of that table, and for no column of another table, in the order of the columns in the table, with the column's name, nullable exactly when the column is, and with the type of that column; it does not depend on the order in which the server keeps the rows of information_schema, nor on how it spells the names of the columns of information_schema.", "quantifier": "all servers with any number of catalogs, schemas, tables and columns; all answers the server may give to the query; all ways in which the server compares names for which the requested names are those of one table", "why_tests_cant": "A test asks one server with one table; which rows are selected and in which order depends on all other tables of the server and on choices that the server makes.", "anchors": ["recap/clients/dbapi.py DbapiClient.schema", "recap/clients/mysql.py MysqlClient.schema", "recap/clients/snowflake.py SnowflakeClient", "recap/converters/dbapi.py DbapiConverter.to_recap"]}
{"id": "C147", "title": "The rows of BigQuery and Hive tables are valid against the JSON Schema that is written for them", "statement": "If a BigQuery or Hive table is read and a JSON Schema is written for it, every row that the table can contain, written as a JSON object, is valid against that schema; records and structures are objects with the names of their fields, arrays are arrays and maps are objects. Values that are null are written as null, or left out.", "quantifier": "all BigQuery tables with records and arrays of any depth, all Hive tables with arrays, maps, structures and unions of any depth; all rows that can be stored in them", "why_tests_cant": "A test compares a schema with an expected one; whether all rows are valid depends on the values at all depths and on what the keywords of the schema mean together, and there are infinitely many rows.", "anchors": ["recap/converters/bigquery.py BigQueryConverter.to_recap", "recap/converters/hive_metastore.py HiveMetastoreConverter.to_recap", "recap/converters/hive_metastore.py HiveMetastoreConverter._parse_schema", "recap/converters/json_schema.py JSONSchemaConverter.from_recap", "recap/converters/json_schema.py JSONSchemaConverter._convert_field"]}
{"id": "C148", "title": "The command line prints what the gateway answers", "statement": "If the HTTP gateway answers a request for the schema of a URL in some format, or for the children of a URL, the command line prints the same for the same URL and format, as JSON or as the same Protobuf file. Conversely, what the command line prints is what the gateway answers, unless the gateway refuses the URL because it is not configured, and then the configured URLs have no influence on what is printed.", "quantifier": "all URLs, configured URLs, formats, and answers of the systems behind the clients", "why_tests_cant": "A test compares the two for a few URLs; whether they agree depends on how a URL is matched with every configured one, on all answers of the systems and on all characters that are printed.", "anchors": ["recap/cli.py ls", "recap/cli.py schema", "recap/commands.py ls", "recap/commands.py schema", "recap/server/gateway.py ls", "recap/server/gateway.py schema", "recap/settings.py RecapSettings.unsafe_url"]}
{"id": "C149", "title": "The rows of a table are data of the Avro schema that is written for the table", "statement": "If a table of MySQL, PostgreSQL, Snowflake, SQLite, BigQuery or Hive is read and an Avro schema is written for it, every row that the table can contain is a datum of that schema: it can be encoded with it, column by column, including null where a column can be null.", "quantifier": "all tables of the six systems, with records, arrays and structures of any depth; all rows that can be stored in them", "why_tests_cant": "A test compares a schema with an expected one; whether all rows can be encoded depends on what every attribute of the schema means in Avro and on the values of all columns, and there are infinitely many rows.", "anchors": ["recap/converters/dbapi.py DbapiConverter.to_recap", "recap/converters/mysql.py MysqlConverter", "recap/converters/postgresql.py PostgresqlConverter", "recap/converters/snowflake.py SnowflakeConverter", "recap/converters/sqlite.py SQLiteConverter", "recap/converters/bigquery.py BigQueryConverter.to_recap", "recap/converters/hive_metastore.py HiveMetastoreConverter.to_recap", "recap/converters/avro.py AvroConverter.from_recap"]}
{"id": "C150", "title": "What is shown for the URL of a table describes the rows of that table", "statement": "If a user asks for the JSON Schema of the URL of a table of MySQL, PostgreSQL, Snowflake, BigQuery or SQLite, on the command line or over HTTP, then every row of that table, as a JSON object, is valid against the schema that is printed: the table with the names in the URL, on the host and port or in the file of the URL, reached with the credentials configured for it, whatever other tables the server has and in whatever order it lists columns. Likewise, if Avro is asked for, every row is a datum of the schema. If the types of the columns can be read, a schema is printed.", "quantifier": "all URLs of tables, configured URLs, servers with any number of tables and columns, and rows that can be stored in the table", "why_tests_cant": "A test asks for one URL of one server and looks at the text; the claim spans the parsing of all URLs, the choice of credentials, the query, the converter, the writer and the printed text, for all tables and all rows in them.", "anchors": ["recap/cli.py schema", "recap/commands.py schema", "recap/server/gateway.py schema", "recap/settings.py RecapSettings.unsafe_url", "recap/clients/__init__.py create_client", "recap/clients/mysql.py MysqlClient.parse", "recap/clients/dbapi.py DbapiClient.parse", "recap/clients/snowflake.py SnowflakeClient", "recap/clients/dbapi.py DbapiClient.schema", "recap/clients/postgresql.py PostgresqlClient.schema", "recap/clients/bigquery.py BigQueryClient", "recap/clients/sqlite.py SQLiteClient", "recap/converters/dbapi.py DbapiConverter.to_recap", "recap/converters/mysql.py MysqlConverter", "recap/converters/postgresql.py PostgresqlConverter", "recap/converters/snowflake.py SnowflakeConverter", "recap/converters/bigquery.py BigQueryConverter.to_recap", "recap/converters/sqlite.py SQLiteConverter", "recap/converters/json_schema.py JSONSchemaConverter.from_recap", "recap/converters/avro.py AvroConverter.from_recap"]}
{"id": "C151", "title": "The URL of a Hive metastore or of a Confluent registry leads to that server", "statement": "Creating a client with the URL of a Hive metastore connects to the host and port in the URL. Creating one with the URL of a Confluent registry connects to the same URL with http or https as its scheme, and uses the certificates and the authentication that are given in its query, and nothing else of it. Listing or reading such a URL with the commands, over HTTP or on the command line reaches the same server.", "quantifier": "all URLs of metastores and registries, with any host, port, path and parameters; all configured URLs", "why_tests_cant": "A test creates one client with one URL; the claim is about all URLs, about the texts that are replaced in them, and about every set of configured URLs.", "anchors": ["recap/clients/__init__.py create_client", "recap/clients/__init__.py parse_url", "recap/clients/__init__.py _url_to_dict", "recap/clients/hive_metastore.py HiveMetastoreClient.create", "recap/clients/hive_metastore.py HiveMetastoreClient.parse", "recap/clients/confluent_registry.py ConfluentRegistryClient.create", "recap/clients/confluent_registry.py ConfluentRegistryClient.parse", "recap/clients/confluent_registry.py ALLOWED_ATTRS", "recap/settings.py RecapSettings.unsafe_url"]}
{"id": "C152", "title": "A JSON Schema that is read and written again accepts the same values", "statement": "If a JSON Schema is read and a JSON Schema is written for the type, a JSON value is valid against the second exactly if it is valid against the first: nothing that was allowed is rejected afterwards, and nothing that was rejected is allowed.", "quantifier": "all JSON Schemas that can be read, nested to any depth, and all JSON values", "why_tests_cant": "A test compares the text of one schema with an expected one; whether two schemas accept the same values depends on what their keywords mean, for infinitely many values and schemas.", "anchors": ["recap/converters/json_schema.py JSONSchemaConverter.to_recap", "recap/converters/json_schema.py JSONSchemaConverter._parse", "recap/converters/json_schema.py JSONSchemaConverter.from_recap", "recap/converters/json_schema.py JSONSchemaConverter._from_recap"]}
{"id": "C153", "title": "The file that is named is the file that is read", "statement": "If a user asks for the schema of the path of a file, that file is read, and its suffix says in which format: .avsc, .avro, .avdl and .avpr for Avro, .proto, .protobuf, .protos, .proto2 and .proto3 for Protobuf, .json, .jsonschema and .jsons for JSON Schema, in lower or upper case. If a user asks for a URL with the scheme file, the file that the URL names is read: the one whose path is the path of the URL with percent escapes decoded, on this machine if the host is empty or localhost.", "quantifier": "all paths, absolute and relative, and all URLs of files; all configured URLs", "why_tests_cant": "A test reads a few files with plain names; the claim is about all paths and URLs, including those with characters that mean something in a URL.", "anchors": ["recap/clients/fs.py FilesystemClient.create", "recap/clients/fs.py FilesystemClient.parse", "recap/clients/fs.py FilesystemClient.schema", "recap/clients/fs.py FilesystemClient._read_file", "recap/clients/__init__.py parse_url", "recap/clients/__init__.py _url_to_dict", "recap/settings.py RecapSettings.unsafe_url"]}
{"id": "C154", "title": "An Avro schema that is read and written again has the same data", "statement": "If an Avro schema is read and an Avro schema is written for the type, the second has the same data as the first: whatever could be encoded with the first can be encoded with the second, and nothing else.", "quantifier": "all Avro schemas that can be read, nested to any depth, in any namespace, and all data", "why_tests_cant": "A test compares the text of one schema with an expected one; whether two schemas have the same data depends on what every attribute means in Avro, for infinitely many data and schemas.", "anchors": ["recap/converters/avro.py AvroConverter.to_recap", "recap/converters/avro.py AvroConverter._parse", "recap/converters/avro.py AvroConverter._parse_logical", "recap/converters/avro.py AvroConverter.from_recap", "recap/converters/avro.py AvroConverter._from_recap"]}
