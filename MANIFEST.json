{
 "claims": [
  {
   "property": "C01",
   "status": "proved",
   "theorems": [
    "Recap.C01_verbatim_round_trip_any_registry",
    "Recap.C01_verbatim_round_trip"
   ],
   "note": ""
  },
  {
   "property": "C02",
   "status": "partial",
   "theorems": [
    "Recap.C02_canonical_round_trip_partial",
    "Recap.C02_lossy_union_refuted"
   ],
   "note": "False of the code: a union with a default, a null and any further attribute loses default, doc, alias, logical and name (refuted). Proved for all types whose unions have a compact form (Canonical in CompactSpec)."
  },
  {
   "property": "C03",
   "status": "partial",
   "theorems": [
    "Recap.C03_nested_round_trip_partial",
    "Recap.C03_nested_uncompacted_partial",
    "Recap.C03_user_alias_refuted",
    "Recap.C03_default_round_trip_partial",
    "Recap.C03_uncompacted_round_trip_partial",
    "Recap.C03_lossy_union_refuted"
   ],
   "note": "False of the code for the same unions (refuted). Proved for canonical types, also with aliases on the type and on nested types that are kept apart: each type directly inside a type without alias is written with an alias at the top, or defines none and contains nothing that an alias stands for. Where the latter fails, a type is replaced by a reference to a user alias (refuted). Without compaction the restriction on unions is not needed."
  },
  {
   "property": "C04",
   "status": "partial",
   "theorems": [
    "Recap.C04_nested_partial",
    "Recap.C04_uncompacted_refuted",
    "Recap.C04_default_form_partial",
    "Recap.C04_without_aliases_partial",
    "Recap.C04_verbatim_partial",
    "Recap.C04_deep_alias_refuted",
    "Recap.C04_nested_union_refuted"
   ],
   "note": "False of the code: an alias two levels below types without alias is registered twice, and a nested union fails an assertion (both refuted). Proved for canonical types whose aliases are kept apart (see C03), and for the forms without alias substitution with any aliases. Without compaction, the form with aliases fails for an optional field of a type with an alias although the default form does not (refuted)."
  },
  {
   "property": "C05",
   "status": "partial",
   "theorems": [
    "Recap.C05_attributes_kept_partial",
    "Recap.C05_lossy_union_refuted",
    "Recap.C05_type_list_refuted"
   ],
   "note": "False of the code for unions with a default and an attribute of their own, and for a list as `type` (both refuted). Proved for all other dictionaries."
  },
  {
   "property": "C06",
   "status": "proved",
   "theorems": [
    "Recap.C06_parsed_types_bounded",
    "Recap.C06_nested_types_bounded"
   ],
   "note": ""
  },
  {
   "property": "C07",
   "status": "proved",
   "theorems": [
    "Recap.C07_from_dict_terminates"
   ],
   "note": ""
  },
  {
   "property": "C08",
   "status": "proved",
   "theorems": [
    "Recap.C08_aliases_distinct_and_registered",
    "Recap.C08_alias_stands_for_its_type"
   ],
   "note": ""
  },
  {
   "property": "C09",
   "status": "proved",
   "theorems": [
    "Recap.C09_aliases_never_overwritten",
    "Recap.C09_second_registration_raises"
   ],
   "note": ""
  },
  {
   "property": "C10",
   "status": "proved",
   "theorems": [
    "Recap.C10_alias_grammar",
    "Recap.C10_alias_regex"
   ],
   "note": ""
  },
  {
   "property": "C11",
   "status": "proved",
   "theorems": [
    "Recap.C11_user_alias_is_not_builtin",
    "Recap.C11_builtins_stable"
   ],
   "note": ""
  },
  {
   "property": "C12",
   "status": "proved",
   "theorems": [
    "Recap.C12_eq_reflexive",
    "Recap.C12_eq_symmetric",
    "Recap.C12_eq_transitive"
   ],
   "note": ""
  },
  {
   "property": "C13",
   "status": "proved",
   "theorems": [
    "Recap.C13_equality_characterised",
    "Recap.C13_different_classes_differ"
   ],
   "note": ""
  },
  {
   "property": "C14",
   "status": "proved",
   "theorems": [
    "Recap.C14_make_nullable_promotes",
    "Recap.C14_make_nullable_wraps",
    "Recap.C14_make_nullable_union"
   ],
   "note": ""
  },
  {
   "property": "C15",
   "status": "partial",
   "theorems": [
    "Recap.C15_receiver_changes_refuted",
    "Recap.C15_receiver_union_changes_refuted",
    "Recap.C15_receiver_unchanged_partial"
   ],
   "note": "False of the code: make_nullable pops name and default from the receiver and shares a union's member list with the result (both refuted with witnesses). Proved for receivers without name, default and without a union to extend."
  },
  {
   "property": "C16",
   "status": "partial",
   "theorems": [
    "Recap.C16_nullable_union_changes_refuted",
    "Recap.C16_make_nullable_idempotent_partial",
    "Recap.C16_nullable_with_default_partial"
   ],
   "note": "False of the code for unions whose null member is not plain (refuted). Proved for make_nullable applied to its own result and to nullable types with a default."
  },
  {
   "property": "C17",
   "status": "proved",
   "theorems": [
    "Recap.C17_is_nullable",
    "Recap.C17_is_optional",
    "Recap.C17_made_nullable_is_optional"
   ],
   "note": ""
  },
  {
   "property": "C18",
   "status": "partial",
   "theorems": [
    "Recap.C18_reference_resolves",
    "Recap.C18_unregistered_reference_fails",
    "Recap.C18_bytes_override_lost_refuted",
    "Recap.C18_doc_override_lost_refuted"
   ],
   "note": "Proved for references whose overrides are ordinary attribute names, in every later registry state. The overrides `bytes`, `doc` and `logical` written in a document do not take effect (refuted with witnesses)."
  },
  {
   "property": "C19",
   "status": "partial",
   "theorems": [
    "Recap.C19_recursive_reference_refuted",
    "Recap.C19_backward_references_partial"
   ],
   "note": "False of the code for recursive types (refuted: the second step fails). Proved for documents in which every reference is to an alias defined earlier, for any number of steps and any later registry history."
  },
  {
   "property": "C20",
   "status": "proved",
   "theorems": [
    "Recap.C20_list_shorthand",
    "Recap.C20_string_shorthand",
    "Recap.C20_list_is_union_of_members"
   ],
   "note": ""
  },
  {
   "property": "C21",
   "status": "partial",
   "theorems": [
    "Recap.C21_nested_list_refuted",
    "Recap.C21_optional_refuted",
    "Recap.C21_type_list_partial"
   ],
   "note": "False of the code when a member is itself a list, and with `optional` (both refuted). Proved for members that are dictionaries or strings."
  },
  {
   "property": "C22",
   "status": "partial",
   "theorems": [
    "Recap.C22_string_types_refuted",
    "Recap.C22_optional_partial",
    "Recap.C22_optional_means_union"
   ],
   "note": "False of the code when `types` is a string (refuted). Proved otherwise, with the exact meaning of `optional`."
  },
  {
   "property": "C23",
   "status": "partial",
   "theorems": [
    "Recap.C23_alias_refuted",
    "Recap.C23_unknown_names_are_references_partial"
   ],
   "note": "False of the code when an alias is given on the reference (TypeError; refuted). Proved for all other attributes except the constructor parameter names self, type_, registry."
  },
  {
   "property": "C24",
   "status": "proved",
   "theorems": [
    "Recap.C24_substitution_sound",
    "Recap.C24_reference_equal"
   ],
   "note": ""
  },
  {
   "property": "C25",
   "status": "proved",
   "theorems": [
    "Recap.C25_storage_refines_map"
   ],
   "note": ""
  },
  {
   "property": "C26",
   "status": "proved",
   "theorems": [
    "Recap.C26_versions_increase",
    "Recap.C26_put_is_fresh"
   ],
   "note": ""
  },
  {
   "property": "C27",
   "status": "proved",
   "theorems": [
    "Recap.C27_versions_and_latest"
   ],
   "note": ""
  },
  {
   "property": "C28",
   "status": "proved",
   "theorems": [
    "Recap.C28_names_survive"
   ],
   "note": ""
  },
  {
   "property": "C29",
   "status": "partial",
   "theorems": [
    "Recap.C29_parent_directory_refuted",
    "Recap.C29_own_directory_partial"
   ],
   "note": "False of the code for the names . and .. (quote_plus leaves dots alone; refuted: a put under .. writes outside the storage directory). Proved for all other names."
  },
  {
   "property": "C30",
   "status": "proved",
   "theorems": [
    "Recap.C30_ls_sorted_and_complete"
   ],
   "note": ""
  },
  {
   "property": "C31",
   "status": "partial",
   "theorems": [
    "Recap.C31_crash_loses_nothing_partial",
    "Recap.C31_overwrite_refuted"
   ],
   "note": "False of the code when an existing version is written again (refuted). Proved for every put that creates a version: nothing stored before is lost at any crash point."
  },
  {
   "property": "C32",
   "status": "partial",
   "theorems": [
    "Recap.C32_crash_outcomes_partial",
    "Recap.C32_unreadable_version_refuted"
   ],
   "note": "False of the code: a crash between opening and writing leaves a version that is listed but cannot be read (refuted). Proved: the exact set of possible outcomes of a crash."
  },
  {
   "property": "C33",
   "status": "proved",
   "theorems": [
    "Recap.C33_published_versions_immutable"
   ],
   "note": ""
  },
  {
   "property": "C34",
   "status": "partial",
   "theorems": [
    "Recap.C34_later_puts_rejected_partial",
    "Recap.C34_sequential_puts_partial",
    "Recap.C34_overlapping_puts_refuted"
   ],
   "note": "False of the code for PUTs that overlap (refuted: both answer 200). Proved for requests that do not overlap, in every registry state and for any number of requests."
  },
  {
   "property": "C35",
   "status": "proved",
   "theorems": [
    "Recap.C35_posts_get_distinct_versions"
   ],
   "note": ""
  },
  {
   "property": "C36",
   "status": "partial",
   "theorems": [
    "Recap.C36_get_returns_stored_partial",
    "Recap.C36_lossy_document_refuted",
    "Recap.C36_get_equal_partial"
   ],
   "note": "False of the code for types that do not survive to_dict and from_dict (refuted with a document). Proved for canonical types whose aliases are kept apart (see C03): whatever happens after a successful POST or PUT, GET answers with a document that reads as an equal type, up to built-in aliases; and for all types the exact answer in terms of to_dict and from_dict."
  },
  {
   "property": "C37",
   "status": "proved",
   "theorems": [
    "Recap.C37_rejected_requests_change_nothing"
   ],
   "note": ""
  },
  {
   "property": "C38",
   "status": "partial",
   "theorems": [
    "Recap.C38_unknown_is_404_partial",
    "Recap.C38_known_is_200_partial",
    "Recap.C38_known_refuted"
   ],
   "note": "False of the code: a stored document that cannot be written again gives 500 (C38_known_refuted: a union with an alias, a default and an attribute that is called values is stored without its alias, and then the attribute is taken for a type). 404 exactly for what has not been stored: proved for all histories of ordinary names. 200 for what has been stored: proved for histories of canonical types whose aliases are kept apart (see C03)."
  },
  {
   "property": "C39",
   "status": "proved",
   "theorems": [
    "Recap.Url.C39_credentials_hidden",
    "Recap.Url.C39_list_hidden"
   ],
   "note": "For all URLs of the form of SettingsSpec (ASCII network location, path not starting with two slashes), one by one and for the whole list. Credentials are those before the host; a password given as a query parameter is shown, which the statement does not exclude."
  },
  {
   "property": "C40",
   "status": "partial",
   "theorems": [
    "Recap.Url.C40_rest_kept_partial",
    "Recap.Url.C40_ipv6_refuted",
    "Recap.Url.C40_file_refuted"
   ],
   "note": "False of the code: the brackets of an IPv6 host are dropped with the credentials, and file URLs gain slashes (both refuted). Proved for URLs of the form of SettingsSpec with a host name if there are credentials, and with a host or a scheme outside slashSchemes; the host is shown in lower case and the path without trailing slashes."
  },
  {
   "property": "C41",
   "status": "partial",
   "theorems": [
    "Recap.Url.C41_first_match_partial",
    "Recap.Url.C41_empty_path_refuted",
    "Recap.Url.C41_file_refuted"
   ],
   "note": "False of the code: a configured URL with an empty path answers for nothing, and a merged file URL has extra slashes (both refuted). Proved, with the exact URL returned, when all configured URLs have a path and have a host or a scheme outside slashSchemes."
  },
  {
   "property": "C42",
   "status": "proved",
   "theorems": [
    "Recap.Url.C42_uncovered",
    "Recap.Url.C42_strict_server"
   ],
   "note": "For all URLs of the form of SettingsSpec, where matching is the relation Covers; and for any texts at all, that what strict mode lets pass has the scheme, host and port of a configured URL."
  },
  {
   "property": "C43",
   "status": "partial",
   "theorems": [
    "Recap.Url.C43_prefix_partial",
    "Recap.Url.C43_sibling_refuted"
   ],
   "note": "False of the code: the comparison of paths is textual, so credentials for /data are added to /database (refuted). Proved: credentials are added only when the text of the configured path is a prefix of that of the requested path."
  },
  {
   "property": "C44",
   "status": "partial",
   "theorems": [
    "Recap.Url.C44_shown_usable_partial",
    "Recap.Url.C44_empty_path_refuted"
   ],
   "note": "False of the code for configured URLs with an empty path (refuted). Proved for URLs of the form of SettingsSpec with a path, with a host name if there are credentials, and with a host or a scheme outside slashSchemes."
  },
  {
   "property": "C45",
   "status": "partial",
   "theorems": [
    "Recap.Url.C45_request_wins_partial",
    "Recap.Url.C45_blank_refuted"
   ],
   "note": "False of the code for parameters of the request that are blank or have no value: they are dropped and the configured value is used (refuted). Proved for parameters as parse_qs reads them, for one configured URL; C41_first_match_partial has the same for any list."
  },
  {
   "property": "C46",
   "status": "partial",
   "theorems": [
    "Recap.Clients.C46_server_partial",
    "Recap.Clients.C46_registry_refuted",
    "Recap.Clients.C46_hive_refuted",
    "Recap.Clients.C46_bigquery_partial",
    "Recap.Clients.C46_sqlite_partial"
   ],
   "note": "False of the code for http+csr, https+csr and thrift+hms: parse_url makes an http, https or thrift URL, which create_client refuses (both refuted). Proved for MySQL, PostgreSQL, Snowflake and BigQuery URLs without the parameters in reserved, and for SQLite URLs of relative files without a query."
  },
  {
   "property": "C47",
   "status": "partial",
   "theorems": [
    "Recap.Clients.C47_unsupported_partial",
    "Recap.Clients.C47_parameter_refuted"
   ],
   "note": "False of the code: a query parameter called scheme replaces the scheme (refuted). Proved for URLs of the form of SettingsSpec without that parameter, for both functions."
  },
  {
   "property": "C48",
   "status": "proved",
   "theorems": [
    "Recap.C48_fields_match_columns"
   ],
   "note": ""
  },
  {
   "property": "C49",
   "status": "partial",
   "theorems": [
    "Recap.C49_nullability_partial",
    "Recap.C49_not_null_refuted"
   ],
   "note": "False of the code: a NOT NULL SQLite column of NUMERIC affinity and a zero-dimensional PostgreSQL array are nullable (refuted). Proved: every nullable column is nullable, and a field of a NOT NULL column is nullable only in these two cases."
  },
  {
   "property": "C50",
   "status": "proved",
   "theorems": [
    "Recap.C50_defaults"
   ],
   "note": ""
  },
  {
   "property": "C51",
   "status": "partial",
   "theorems": [
    "Recap.C51_all_valid_partial",
    "Recap.C51_zero_length_refuted"
   ],
   "note": "False of the code: MySQL CHAR(0) gives a type that validate() rejects (refuted). Proved for columns whose declared lengths and precisions lie in the documented ranges (GoodColumn)."
  },
  {
   "property": "C52",
   "status": "partial",
   "theorems": [
    "Recap.C52_timestamp_precision_partial",
    "Recap.C52_nanoseconds_refuted",
    "Recap.C52_snowflake_precision"
   ],
   "note": "False of the code for MySQL and PostgreSQL precisions above 6 (refuted; such columns do not exist in these systems). Proved for precisions up to 6, and for Snowflake without restriction."
  },
  {
   "property": "C53",
   "status": "proved",
   "theorems": [
    "Recap.C53_dimensions"
   ],
   "note": ""
  },
  {
   "property": "C54",
   "status": "partial",
   "theorems": [
    "Recap.C54_repeatable_partial",
    "Recap.C54_second_read_fails",
    "Recap.C54_second_read_refuted"
   ],
   "note": "False of the code: a second read of a PostgreSQL table with an array column fails because the alias is taken (refuted, and proved in general). Proved for MySQL, Snowflake, SQLite and for PostgreSQL tables without arrays."
  },
  {
   "property": "C55",
   "status": "proved",
   "theorems": [
    "Recap.C55_affinity",
    "Recap.C55_total"
   ],
   "note": ""
  },
  {
   "property": "C56",
   "status": "proved",
   "theorems": [
    "Recap.C56_fields_kept"
   ],
   "note": ""
  },
  {
   "property": "C57",
   "status": "proved",
   "theorems": [
    "Recap.C57_columns_nullable"
   ],
   "note": ""
  },
  {
   "property": "C58",
   "status": "proved",
   "theorems": [
    "Recap.C58_unions_flat"
   ],
   "note": ""
  },
  {
   "property": "C59",
   "status": "partial",
   "theorems": [
    "Recap.C59_attributes_kept_partial",
    "Recap.C59_list_attributes_refuted"
   ],
   "note": "False of the code: a list or map inside a union loses its attributes to a bogus attribute named extra_attrs (refuted). Proved: every alternative without lists and maps is kept, with its attributes, up to duplicates."
  },
  {
   "property": "C60",
   "status": "partial",
   "theorems": [
    "Recap.Avro.C60_integers_partial",
    "Recap.Avro.C60_wide_refuted"
   ],
   "note": "Proved for signed integers of 1 to 64 bits and unsigned integers of 1 to 32 bits. False of every wider integer that is written: its largest value has one digit more than the decimal has (refuted universally)."
  },
  {
   "property": "C61",
   "status": "partial",
   "theorems": [
    "Recap.Avro.C61_round_trip_partial",
    "Recap.Avro.C61_fixed_refuted",
    "Recap.Avro.C61_lossy_refuted",
    "Recap.Avro.C61_namespace_refuted",
    "Recap.Avro.C61_duration_refuted"
   ],
   "note": "Proved for every struct, of any depth, of the types in Native whose aliases are those of the namespace given to to_recap and new to the converter. False of fixed-length bytes (every length), durations, other widths, sized strings, fixed lists and sized decimals, which come back changed, and of aliases in other namespaces (all refuted)."
  },
  {
   "property": "C62",
   "status": "partial",
   "theorems": [
    "Recap.Avro.C62_accepted_partial",
    "Recap.Avro.C62_fields_refuted",
    "Recap.Avro.C62_array_refuted"
   ],
   "note": "False of the code: two records in one namespace with a field of the same name, and arrays and maps of unions, are refused (both refuted). Proved for every record of the types in Means: it is accepted if and only if the full names of its types and of its simple fields are distinct, well-formed and new."
  },
  {
   "property": "C63",
   "status": "partial",
   "theorems": [
    "Recap.Avro.C63_names_partial",
    "Recap.Avro.C63_nameless_refuted",
    "Recap.Avro.C63_names_refuted"
   ],
   "note": "False of the code: a list of int32 becomes an array of the undefined type int32, and a recursive schema that is read and written refers to a name that is only an alias (both refuted). Proved: every type name is a keyword or an alias in the output, if the references are to dotted aliases defined in the type or are named references to built-in aliases."
  },
  {
   "property": "C64",
   "status": "partial",
   "theorems": [
    "Recap.Protobuf.C64_numbers_partial",
    "Recap.Protobuf.C64_numbers_refuted"
   ],
   "note": "False of the code: the field after a oneof with several members has the number of one of them (refuted). Proved for types where only the last field of each struct is a union of several types and no such union is a member of another one."
  },
  {
   "property": "C65",
   "status": "partial",
   "theorems": [
    "Recap.Protobuf.C65_flat_partial",
    "Recap.Protobuf.C65_text_refuted",
    "Recap.Protobuf.C65_map_refuted",
    "Recap.Protobuf.C65_number_refuted"
   ],
   "note": "False of the code: what is read from a first message with a string, bytes or map field is never written (both refuted universally), and field numbers change (refuted). Proved for one message of required numeric fields and oneofs of several numeric fields, up to field numbers, cardinality and types that are read alike (int32 for sint32)."
  },
  {
   "property": "C66",
   "status": "partial",
   "theorems": [
    "Recap.Protobuf.C66_order_partial",
    "Recap.Protobuf.C66_forward_refuted"
   ],
   "note": "False of the code: a message other than the first that refers to a later one is not read (refuted). Proved: a file is read if each message but the first refers only to itself, to the first and to what is declared before it, names are distinct, and the keys of maps are integers or strings."
  },
  {
   "property": "C67",
   "status": "partial",
   "theorems": [
    "Recap.Json.C67_required_partial",
    "Recap.Json.C67_required_refuted"
   ],
   "note": "False of the code: a required property that accepts null and has a default becomes optional (refuted). Proved for every object schema that is accepted: the fields are the properties, in order, and a field need not be given exactly when its property is not listed as required or accepts null and has a default."
  },
  {
   "property": "C68",
   "status": "proved",
   "theorems": [
    "Recap.Json.C68_everywhere",
    "Recap.Json.C68_struct",
    "Recap.Json.C68_aliased"
   ],
   "note": "For every type on which from_recap succeeds and every place in the written schema, including $defs: each object schema with properties is that of a struct in the type or in what its references resolve to; and the schema of a struct itself is that of its fields, in place or, if it has an alias, in $defs."
  },
  {
   "property": "C69",
   "status": "partial",
   "theorems": [
    "Recap.Json.C69_ends_partial",
    "Recap.Json.C69_resolves_partial",
    "Recap.Json.C69_refuted",
    "Recap.Json.C69_dangling_refuted"
   ],
   "note": "False of the code: a list of references to an alias defined in the same type overwrites its definition by a reference to itself, and a field that refers to a type read earlier leaves references undefined (both refuted). Proved: every reference has a definition if the aliases that occur are defined in the type and references to them have attributes of their own; and following references ends if the type refers only to built-in aliases and its aliases are distinct."
  },
  {
   "property": "C70",
   "status": "partial",
   "theorems": [
    "Recap.Json.C70_round_trip_partial",
    "Recap.Json.C70_lossy_refuted",
    "Recap.Json.C70_unread_refuted"
   ],
   "note": "Proved for every struct, of any depth, of strings, 64-bit floats, signed 32-bit integers, booleans, null, lists, structs and optional fields, with descriptions and defaults (Native). False of bytes, enums, sized strings, other widths, dates and fixed lists, which come back as something else, and of maps, unions and aliased types, which are not read (both refuted)."
  },
  {
   "property": "C71",
   "status": "proved",
   "theorems": [
    "Recap.C71_parsed_types_well_formed",
    "Recap.C71_parsed_documents_round_trip"
   ],
   "note": ""
  },
  {
   "property": "C72",
   "status": "partial",
   "theorems": [
    "Recap.C72_invalid_override_refuted",
    "Recap.C72_resolved_types_valid_partial",
    "Recap.C72_builtin_references_valid_partial"
   ],
   "note": "False of the code: overrides are applied after validation (refuted: int32 with bits 0). Proved for overrides that leave bits, bytes_, length and variable alone, in every later registry state."
  },
  {
   "property": "C73",
   "status": "partial",
   "theorems": [
    "Recap.C73_stored_types_bounded_partial",
    "Recap.C73_any_text_accepted_refuted"
   ],
   "note": "False of the code: a body that is neither JSON nor a type name is accepted as a reference and stored (refuted). Proved: everything accepted respects the documented bounds at every depth."
  },
  {
   "property": "C74",
   "status": "partial",
   "theorems": [
    "Recap.C74_lost_schema_refuted",
    "Recap.C74_later_process_partial"
   ],
   "note": "False of the code: two processes choose the same version before either writes, and one schema is lost (refuted). Proved for processes that do not overlap; C26_versions_increase gives the same over any history with crashes."
  },
  {
   "property": "C75",
   "status": "proved",
   "theorems": [
    "Recap.C75_self_reference"
   ],
   "note": ""
  },
  {
   "property": "C76",
   "status": "partial",
   "theorems": [
    "Recap.C76_columns_independent_partial",
    "Recap.C76_array_names_refuted"
   ],
   "note": "False of the code: the array columns a.b and a_b share an alias, so a table with both cannot be converted (refuted). Proved for every dialect and column list without array columns of free dimensions."
  },
  {
   "property": "C77",
   "status": "partial",
   "theorems": [
    "Recap.C77_array_elements_partial",
    "Recap.C77_timestamp_array_refuted"
   ],
   "note": "False of the code: arrays of timestamps raise KeyError (refuted). Proved for arrays with enforced dimensions of every element type other than timestamps, decimals, enums and arrays."
  },
  {
   "property": "C78",
   "status": "partial",
   "theorems": [
    "Recap.C78_bigquery_refuted",
    "Recap.C78_time_of_day_partial",
    "Recap.C78_time_overflow_refuted"
   ],
   "note": "False of the code: Snowflake TIME becomes a 32 bit integer counting nanoseconds (refuted). Proved for Snowflake TIME(p) with p at most 3; BigQuery TIME becomes a 32 bit count of microseconds (also refuted)."
  },
  {
   "property": "C79",
   "status": "partial",
   "theorems": [
    "Recap.C79_sqlite_fields_partial",
    "Recap.C79_not_null_refuted"
   ],
   "note": "False of the code for NOT NULL columns of NUMERIC affinity (refuted). Proved with that exception."
  },
  {
   "property": "C80",
   "status": "partial",
   "theorems": [
    "Recap.C80_declared_length_partial",
    "Recap.C80_text_length_partial",
    "Recap.C80_two_words_refuted"
   ],
   "note": "False of the code for declared types of several words (refuted: CHARACTER VARYING(10)). Proved for types of one word."
  },
  {
   "property": "C81",
   "status": "proved",
   "theorems": [
    "Recap.C81_supported_tables",
    "Recap.C81_only_value_error"
   ],
   "note": ""
  },
  {
   "property": "C82",
   "status": "proved",
   "theorems": [
    "Recap.C82_mirrors_table"
   ],
   "note": ""
  },
  {
   "property": "C83",
   "status": "proved",
   "theorems": [
    "Recap.C83_bigquery_valid",
    "Recap.C83_hive_valid"
   ],
   "note": ""
  },
  {
   "property": "C84",
   "status": "proved",
   "theorems": [
    "Recap.C84_known_schemas",
    "Recap.C84_only_value_error"
   ],
   "note": ""
  },
  {
   "property": "C85",
   "status": "partial",
   "theorems": [
    "Recap.C85_hive_decimals_fit",
    "Recap.C85_bigquery_decimals_fit",
    "Recap.C85_mysql_decimals_fit",
    "Recap.C85_snowflake_decimals_fit",
    "Recap.C85_postgresql_refuted"
   ],
   "note": "False of the code for PostgreSQL: NUMERIC(100,0) becomes a decimal of 32 bytes (refuted). Proved for Hive without restriction, and for BigQuery, MySQL and Snowflake within their limits on precision."
  },
  {
   "property": "C86",
   "status": "partial",
   "theorems": [
    "Recap.Clients.C86_strict_partial",
    "Recap.Clients.C86_host_refuted"
   ],
   "note": "False of the code: with ?host=... strict mode sends the configured credentials to another host (refuted). Proved for MySQL, PostgreSQL and Snowflake when no query, requested or configured, uses the parameters in reserved."
  },
  {
   "property": "C87",
   "status": "partial",
   "theorems": [
    "Recap.Clients.C87_postgresql",
    "Recap.Clients.C87_mysql",
    "Recap.Clients.C87_snowflake_partial",
    "Recap.Clients.C87_snowflake_refuted"
   ],
   "note": "Proved for PostgreSQL and MySQL. False for Snowflake: the driver is not told the database (refuted); the rest is proved for it."
  },
  {
   "property": "C88",
   "status": "partial",
   "theorems": [
    "Recap.Clients.C88_levels_partial",
    "Recap.Clients.C88_mysql_refuted"
   ],
   "note": "False of the code for MySQL, where a path that is too deep lists the tables of the schema (refuted). Proved for PostgreSQL and Snowflake at all depths and for MySQL up to the schema, with the host, port and credentials of the connection."
  },
  {
   "property": "C89",
   "status": "partial",
   "theorems": [
    "Recap.Clients.C89_bigquery_refuted"
   ],
   "note": "False of the code for every BigQuery URL: the negation is proved universally, listing never succeeds because parse makes three arguments and ls takes two."
  },
  {
   "property": "C90",
   "status": "partial",
   "theorems": [
    "Recap.Clients.C90_sqlite_partial",
    "Recap.Clients.C90_absolute_refuted",
    "Recap.Clients.C90_parameter_refuted"
   ],
   "note": "False of the code for absolute paths and for URLs with parameters (both refuted). Proved for relative paths of any depth without a query, for all configurations whose SQLite URLs have no query or fragment."
  },
  {
   "property": "C91",
   "status": "partial",
   "theorems": [
    "Recap.Clients.C91_decoded_partial",
    "Recap.Clients.C91_escape_refuted"
   ],
   "note": "False of the code: percent escapes reach the driver undecoded (refuted). Proved for credentials without a percent sign, when nothing is configured."
  },
  {
   "property": "C92",
   "status": "partial",
   "theorems": [
    "Recap.Clients.C92_files_partial",
    "Recap.Clients.C92_below_refuted"
   ],
   "note": "False of the code in one direction: with file:///data configured nothing below /data can be read (refuted). Proved in the other: what strict mode allows is covered by a configured URL, which is that of the root."
  },
  {
   "property": "C93",
   "status": "partial",
   "theorems": [
    "Recap.Json.C93_accepted_partial",
    "Recap.Json.C93_error_refuted"
   ],
   "note": "False of the code: items: true is refused with a TypeError (refuted). Proved: without $id, $ref and $dynamicRef exactly the object schemas of Readable are accepted."
  },
  {
   "property": "C94",
   "status": "proved",
   "theorems": [
    "Recap.Avro.C94_meaning"
   ],
   "note": "For every record of the types in Means (AvroMeans.lean), in any namespace, and every state of the converter."
  },
  {
   "property": "C95",
   "status": "partial",
   "theorems": [
    "Recap.Avro.C95_documented_partial",
    "Recap.Avro.C95_doc_refuted"
   ],
   "note": "False of the code: the doc of a field whose type is a dictionary ends up among the other attributes (refuted). Proved for all other docs and for the defaults of all fields, at any depth, of every accepted record of the types in Means."
  },
  {
   "property": "C96",
   "status": "proved",
   "theorems": [
    "Recap.Avro.C96_references"
   ],
   "note": "For every accepted record of the types in Means, every reference in what is read, and every state of the converter."
  },
  {
   "property": "C97",
   "status": "partial",
   "theorems": [
    "Recap.Avro.C97_independent_partial",
    "Recap.Avro.C97_twice_refuted"
   ],
   "note": "False of the code: a schema that gives any name cannot be read twice by one converter (refuted universally). Proved for schemas whose names differ from those of the schema that was read before."
  },
  {
   "property": "C98",
   "status": "partial",
   "theorems": [
    "Recap.Avro.C98_logical_refuted"
   ],
   "note": "False of the code for every unknown logical type on a field: the negation is proved universally, to_recap fails with a ValueError. Nothing is left to prove."
  },
  {
   "property": "C99",
   "status": "proved",
   "theorems": [
    "Recap.Protobuf.C99_meaning",
    "Recap.Protobuf.C99_package"
   ],
   "note": "For every accepted file and every history of the converter. As in the code, names of nested messages are not qualified by the messages around them (decls); an expanded message is read as a reference or as what it is."
  },
  {
   "property": "C100",
   "status": "partial",
   "theorems": [
    "Recap.Protobuf.C100_names_partial",
    "Recap.Protobuf.C100_optional_refuted"
   ],
   "note": "False of the code: an optional field whose type has no name of its own is called field_N (refuted universally). Proved for all fields that are neither lists nor optional, of every struct that is declared."
  },
  {
   "property": "C101",
   "status": "partial",
   "theorems": [
    "Recap.Protobuf.C101_declared_partial",
    "Recap.Protobuf.C101_only",
    "Recap.Protobuf.C101_dropped_refuted",
    "Recap.Protobuf.C101_twice_refuted"
   ],
   "note": "False of the code: a struct in a package whose name only begins like the root package is dropped, and a struct that is used twice is declared twice (both refuted). Proved: structs and enums in the root package, or nested in structs that are declared, are declared under their alias; and nothing else is declared."
  },
  {
   "property": "C102",
   "status": "partial",
   "theorems": [
    "Recap.Protobuf.C102_packages_partial",
    "Recap.Protobuf.C102_again_refuted"
   ],
   "note": "False of the code: after a file without a package no other file without a package can be read (refuted universally). Proved: files with a package leave the namespaces of the converter as they were."
  },
  {
   "property": "C103",
   "status": "proved",
   "theorems": [
    "Recap.Protobuf.C103_enums"
   ],
   "note": "For every type that from_recap accepts and every enum in the file, at any depth."
  },
  {
   "property": "C104",
   "status": "proved",
   "theorems": [
    "Recap.Protobuf.C104_integers"
   ],
   "note": "For every struct that is declared (its package is the root package or nested in a declared struct)."
  },
  {
   "property": "C105",
   "status": "partial",
   "theorems": [
    "Recap.Protobuf.C105_flat_partial",
    "Recap.Protobuf.C105_reference_refuted",
    "Recap.Protobuf.C105_root_refuted"
   ],
   "note": "False of the code: what is written for a struct with an enum or a reference and no nested struct is never read (refuted universally), and a struct with a nested struct comes back as the nested one (refuted). Proved for one struct of null, booleans, integers, floats, strings and bytes within the bounds of Protobuf, optional ones whose type has the name of the field, and unions of several of them; all fields come back as optional, logical types are lost."
  },
  {
   "property": "C106",
   "status": "partial",
   "theorems": [
    "Recap.Protobuf.C106_nested_refuted",
    "Recap.Protobuf.C106_refused_partial"
   ],
   "note": "False of the code: lists of lists are flattened, optional lists and maps of lists lose the list (refuted universally). Proved: lists of maps and of unions of several types are refused."
  },
  {
   "property": "C107",
   "status": "partial",
   "theorems": [
    "Recap.Protobuf.C107_scopes_refuted",
    "Recap.Protobuf.C107_dotted_refuted"
   ],
   "note": "False of the code: a file in which two nested messages or enums have the same name is never read (refuted universally), and a dotted reference to a nested message is refused (refuted). Nothing is left to prove."
  },
  {
   "property": "C108",
   "status": "partial",
   "theorems": [
    "Recap.Protobuf.C108_types_partial",
    "Recap.Protobuf.C108_types_refuted"
   ],
   "note": "False of the code: a reference to a built-in alias such as int32 is written as the undeclared type .int32 (refuted). Proved if every reference is to a struct or an enum of the type and all of these are in packages that are reached."
  },
  {
   "property": "C109",
   "status": "partial",
   "theorems": [
    "Recap.Protobuf.C109_inside_partial",
    "Recap.Protobuf.C109_resolved_refuted"
   ],
   "note": "False of the code: a reference of a second message to itself cannot be resolved (refuted). Proved: each reference that is left is to a struct or enum that is in the result."
  },
  {
   "property": "C110",
   "status": "proved",
   "theorems": [
    "Recap.Protobuf.C110_declared"
   ],
   "note": "For every history of the converter, at every field, map value and oneof member of the first message."
  },
  {
   "property": "C111",
   "status": "partial",
   "theorems": [
    "Recap.Protobuf.C111_absolute_refuted"
   ],
   "note": "False of the code: the negation is proved universally, a file whose first message has such a reference is never read. Nothing is left to prove."
  },
  {
   "property": "C112",
   "status": "partial",
   "theorems": [
    "Recap.Commands.C112_answers",
    "Recap.Commands.C112_unsupported",
    "Recap.Commands.C112_media_type_refuted"
   ],
   "note": "Proved: the answer is exactly what the converter for the format makes of what the client reads, and 415 is exactly for content types that ask for no format. False of the code for content types with parameters or upper-case letters, which are refused (refuted)."
  },
  {
   "property": "C113",
   "status": "partial",
   "theorems": [
    "Recap.Commands.C113_nothing_configured",
    "Recap.Commands.C113_configured_partial",
    "Recap.Commands.C113_root_hides_credentials",
    "Recap.Commands.C113_host_refuted"
   ],
   "note": "Proved that without configured URLs nothing is shown and that the root list does not depend on credentials; the server and credentials for the URLs of C86. False of the code for a query that sets a parameter of the driver (refuted)."
  },
  {
   "property": "C114",
   "status": "partial",
   "theorems": [
    "Recap.Commands.C114_no_table_refuted",
    "Recap.Commands.C114_refuted"
   ],
   "note": "False of the code: the negation is proved universally, no table of any database can be shown as Protobuf. Nothing is left to prove."
  },
  {
   "property": "C115",
   "status": "partial",
   "theorems": [
    "Recap.Commands.C115_relational_partial",
    "Recap.Commands.C115_bigquery_partial",
    "Recap.Commands.C115_hive_partial",
    "Recap.Commands.C115_bigquery_refuted",
    "Recap.Commands.C115_hive_refuted"
   ],
   "note": "Proved for tables of relational databases whose lengths lie in the documented range, with PostgreSQL arrays of either kind, for BigQuery tables without descriptions of nullable fields and for Hive tables without comments on columns. False of the code for nullable BigQuery columns with a description and for Hive columns with a comment: the doc moves from the column to the alternative that is not null."
  },
  {
   "property": "C116",
   "status": "partial",
   "theorems": [
    "Recap.Commands.C116_relational_partial",
    "Recap.Commands.C116_bigquery",
    "Recap.Commands.C116_hive_partial",
    "Recap.Commands.C116_sqlite_refuted",
    "Recap.Commands.C116_hive_refuted",
    "Recap.Commands.C116_postgresql_refuted"
   ],
   "note": "Proved for BigQuery, for relational databases except nullable-by-themselves types (SQLite columns of NUMERIC affinity, enforced PostgreSQL arrays of zero dimensions) and free PostgreSQL arrays, and for Hive except columns of type void and unions. False of the code for nullable SQLite NUMERIC columns and for Hive columns of type void or a union of two types, which are required though they can be null, and for PostgreSQL arrays with the default settings, whose definition is a reference to itself (all refuted)."
  },
  {
   "property": "C117",
   "status": "partial",
   "theorems": [
    "Recap.Commands.C117_relational_refuted",
    "Recap.Commands.C117_bigquery_refuted",
    "Recap.Commands.C117_hive_partial",
    "Recap.Commands.C117_hive_refuted",
    "Recap.Commands.C117_union_refuted"
   ],
   "note": "False of the code for relational databases and BigQuery, whatever the table (refuted universally): the record has no name. For Hive, proved that a table is written as an Avro schema exactly if each column is a boolean, integer, float, void, binary, date, decimal, a varchar or char with a length, a list of void, or a union of these without two different types of one Avro kind; strings, timestamps, intervals, maps, structs, other lists and other unions are refused or written as something that is no schema (refuted). References to named types and non-null defaults are not part of the specification of schemas used here."
  },
  {
   "property": "C118",
   "status": "proved",
   "theorems": [
    "Recap.Hive.C118_statistics",
    "Recap.Hive.C118_reads"
   ],
   "note": "For all tables and all lists of statistics: same fields, order, types and attributes; each quantity has the value of the last statistics that say it; everything else is as without. If two columns of a table have the same name, the last one gets the statistics. Statistics for an unknown column raise a KeyError, which is proved too. Timestamps and decimals are the values that the metastore client library gives."
  },
  {
   "property": "C119",
   "status": "partial",
   "theorems": [
    "Recap.Hive.C119_names_refuted",
    "Recap.Hive.C119_recap_refuted",
    "Recap.Hive.C119_json_partial",
    "Recap.Hive.C119_avro_partial",
    "Recap.Hive.C119_protobuf_partial"
   ],
   "note": "Proved for JSON Schema and Avro: the schema is the same with and without statistics, and for Protobuf, where both are refused. False of the code for Recap's own format, whatever the table (refuted universally): each column that has statistics and is neither void nor of a union type is shown without its name; the witness also shows that the default is gone and that reading back does not restore them."
  },
  {
   "property": "C120",
   "status": "proved",
   "theorems": [
    "Recap.Protobuf.C120_written"
   ],
   "note": "For all structs that are declared (their package is the root package or nested in a declared struct, as in C101) and all their fields with the nesting that Protobuf has; other nesting is the subject of C106 and C121."
  },
  {
   "property": "C121",
   "status": "partial",
   "theorems": [
    "Recap.Protobuf.C121_lawful_partial",
    "Recap.Protobuf.C121_messages_partial",
    "Recap.Protobuf.C121_lawful_refuted"
   ],
   "note": "False of the code: maps with float keys, unions of a list and another type, and unions of null alone are written (refuted). Proved: exactly the fields in Allowed are written as elements that Protobuf allows, so every message is lawful if all fields are; the others are not refused."
  },
  {
   "property": "C122",
   "status": "proved",
   "theorems": [
    "Recap.JsonText.C122_exactly_json",
    "Recap.JsonText.C122_unambiguous",
    "Recap.JsonText.C122_bodies",
    "Recap.JsonText.C122_any_layout"
   ],
   "note": "For all bytes; the grammar of RFC 8259 is the specification. How a text with a fraction or an exponent denotes a float is a parameter with the laws in Lawful (an instance is proved); texts of values outside the model (integral or infinite floats, lone surrogates) are outside the statement."
  },
  {
   "property": "C123",
   "status": "proved",
   "theorems": [
    "Recap.JsonText.C123_read_back",
    "Recap.JsonText.C123_any_encoding"
   ],
   "note": "For all types with Python values as attributes. float.__repr__ and float() are parameters that are assumed to invert each other on doubles (Lawful; an instance is proved)."
  },
  {
   "property": "C124",
   "status": "proved",
   "theorems": [
    "Recap.Bytes.C124_bytes_refine_map",
    "Recap.Bytes.C124_torn_write",
    "Recap.Bytes.C124_whole_write",
    "Recap.Bytes.C124_readers"
   ],
   "note": "For all histories with a crash after any byte and readers at any point of a put; the stored types have Python values as attributes and a document that is not a number (the document of a reference is its name, which from_dict only reads if it is a string). Bytes become durable in order."
  },
  {
   "property": "C125",
   "status": "partial",
   "theorems": [
    "Recap.JsonText.C125_bare_names_partial",
    "Recap.JsonText.C125_null_refuted"
   ],
   "note": "False of the code for the name null, which is a type of Recap (refuted: 400 for every storage, while the quoted name is stored). Proved for all names other than null, true, false, NaN and Infinity, which Python's json module reads as values."
  },
  {
   "property": "C126",
   "status": "partial",
   "theorems": [
    "Recap.C126_mysql_partial",
    "Recap.C126_postgresql_partial",
    "Recap.C126_snowflake_partial",
    "Recap.C126_sqlite_partial",
    "Recap.C126_mysql_refuted",
    "Recap.C126_postgresql_refuted",
    "Recap.C126_postgresql_timestamp_refuted",
    "Recap.C126_snowflake_refuted",
    "Recap.C126_sqlite_refuted",
    "Recap.C126_sqlite_length_refuted",
    "Recap.C126_bigquery_partial",
    "Recap.C126_bigquery_refuted",
    "Recap.C126_bigquery_string_refuted",
    "Recap.C126_hive_partial",
    "Recap.C126_hive_refuted"
   ],
   "note": "False of the code. Refuted for MySQL (UNSIGNED integers), PostgreSQL (NUMERIC without digits, timestamps after 294247), Snowflake and Hive (timestamps after 2262 in nanoseconds), SQLite (text in an INTEGER column, text longer than the declared length) and BigQuery (NUMERIC has nine digits after the point, the type none; STRING(n) counts characters, the type bytes). Proved for all other values of each database, with nested types for BigQuery and Hive; arrays of PostgreSQL are C142. The stored values are those of the documented type names."
  },
  {
   "property": "C127",
   "status": "partial",
   "theorems": [
    "Recap.Listed.C127_server_partial",
    "Recap.Listed.C127_slash_refuted",
    "Recap.Listed.C127_mysql_refuted",
    "Recap.Listed.C127_sqlite_partial",
    "Recap.Listed.C127_sqlite_reserved_refuted",
    "Recap.Listed.C127_sqlite_space_refuted",
    "Recap.Listed.C127_sqlite_quoted_refuted",
    "Recap.Listed.C127_subject_partial",
    "Recap.Listed.C127_subject_refuted"
   ],
   "note": "False of the code. SQLite: the name is put into the PRAGMA statement without quotes, so that reserved words and names of two words raise, and a name in quotes reads another table. PostgreSQL, MySQL and Snowflake: no URL reads a table with a slash in its name; a MySQL URL that names a table lists its schema. Confluent: exactly the subjects that end in -key or -value are read as themselves. Proved for all other MySQL, PostgreSQL and Snowflake URLs and names that can be written in a URL, and for ordinary SQLite names that are not reserved. SQLite's reserved words are a parameter."
  },
  {
   "property": "C128",
   "status": "partial",
   "theorems": [
    "Recap.AvroData.C128_data_partial",
    "Recap.AvroData.C128_annotation_refuted",
    "Recap.AvroData.C128_field_refuted",
    "Recap.AvroData.C128_reference_refuted",
    "Recap.AvroData.C128_recursive_refuted",
    "Recap.AvroData.C128_data_refuted"
   ],
   "note": "False of the code: references inside a type that a reference resolves to are to a copy of the registry without that type, so a list of three numbers is no value of the recursive type of lists; a logical type that Avro ignores, because it does not apply to the type or is that of a field, is read as the type; a fixed decimal that is referred to by its name cannot be resolved. Proved for all schemas in which every name is defined completely before its use and logical types apply, are not those of fields and not referred to, and whose decimals of type bytes have no size. Durations are not among the values."
  },
  {
   "property": "C129",
   "status": "partial",
   "theorems": [
    "Recap.AvroWrite.C129_references_partial",
    "Recap.AvroWrite.C129_bare_refuted",
    "Recap.AvroWrite.C129_values_partial",
    "Recap.AvroWrite.C129_inline_refuted",
    "Recap.AvroWrite.C129_logical_refuted",
    "Recap.AvroWrite.C129_items_refuted",
    "Recap.AvroWrite.C129_values_refuted"
   ],
   "note": "False of the code: a field that is an enum, a list, a map, a structure or a byte string of a fixed length is written with the type inline, which Avro takes for the name of a type, so the schema has no data at all; the logical type of a field is written as an attribute of the field, which Avro ignores; a union inside a list is written as {\"type\": [...]}, which is no schema. Proved for all types without references whose fields are unions, or UUIDs, or have neither parts nor a logical type, whose unions are those of fields, and without integers wider than a long, byte strings of a fixed length and decimals that Avro does not have. C129_references_partial extends this to references to built-in aliases, if what they refer to has a name, a default or a logical type, as the references of fields have; C129_bare_refuted: a list of references such as int32, without attributes, has the empty list as its only datum. Wide integers are C60, references to other aliases C63. The rules are those of the specification of Avro 1.11; libraries that accept more than it are not modelled."
  },
  {
   "property": "C130",
   "status": "partial",
   "theorems": [
    "Recap.JsonData.C130_instances_partial",
    "Recap.JsonData.C130_integers_refuted",
    "Recap.JsonData.C130_instances_refuted",
    "Recap.JsonData.C130_references_partial",
    "Recap.JsonData.C130_references_refuted"
   ],
   "note": "False of the code: integers of JSON Schema have no bound, while the type that is read has 32 bits (C130_integers_refuted, for every integer outside; C130_instances_refuted negates the full statement InstancesHeld). C130_instances_partial proves it for all accepted schemas without $ref and $dynamicRef and all valid values whose whole numbers have at most 32 bits and whose other numbers have at most 53 binary digits. C130_references_partial proves it also for schemas with references to identifiers in the document, where a reference in the type stands for a type in it with the same alias; with what a reference resolves to it is false, as it never resolves (C130_references_refuted, C144). Missing: $dynamicRef and schemas that have to be retrieved; keywords that the converter does not read only make fewer values valid, which the specification ignores; how bytes are written as strings is left open."
  },
  {
   "property": "C131",
   "status": "partial",
   "theorems": [
    "Recap.JsonData.C131_values_partial",
    "Recap.JsonData.C131_interpretation",
    "Recap.JsonData.C131_reference_refuted",
    "Recap.JsonData.C131_oneOf_refuted",
    "Recap.JsonData.C131_null_refuted",
    "Recap.JsonData.C131_default_refuted",
    "Recap.JsonData.C131_values_refuted"
   ],
   "note": "False of the code: a value that two members of a union share is rejected by oneOf (C131_oneOf_refuted: every whole number, for an integer and a float); null is rejected for an optional field (C131_null_refuted); a field with a default that is not optional cannot be left out (C131_default_refuted); C131_values_refuted negates the full statement ValuesAccepted. C131_values_partial proves it for values without these cases: optional values are left out rather than null, other fields are there, and members of unions that are not optional are of different kinds; and for types in which it is definite what the references in the schema are to (Definite): each reference in the type, to a built-in alias or to one of the registry, is to a built-in one or has attributes of its own, such as the name of a field, and resolves to something without aliases; the type's own aliases are distinct, not built in and not referred to. C131_interpretation shows that the references in such a schema always have a meaning that meets the definitions. Other references: C131_reference_refuted shows for every registry and every alias that is not built in that the definition written for a reference without attributes, as in a list, is a reference to itself, so that the definitions allow everything or nothing."
  },
  {
   "property": "C132",
   "status": "partial",
   "theorems": [
    "Recap.JsonData.C132_only_partial",
    "Recap.JsonData.C132_exactly_partial",
    "Recap.JsonData.C132_range_refuted",
    "Recap.JsonData.C132_length_refuted",
    "Recap.JsonData.C132_names_refuted",
    "Recap.JsonData.C132_only_refuted"
   ],
   "note": "False of the code: bits and lengths are not written, so every integer is valid for every integer type (C132_range_refuted) and every string for every string type (C132_length_refuted); of fields with the same name only the last is checked (C132_names_refuted); C132_only_refuted negates the full statement OnlyValuesAccepted. C132_only_partial proves that valid values are values of the type apart from the range of numbers, the length of strings and lists and the keys of maps (Shaped), for types whose structures have fields with different names and in which it is definite what the references in the schema are to (Definite, as in C131: with references to the registry that have attributes of their own). C132_exactly_partial: if the members of unions that are not optional are of different kinds, the valid values are exactly those. For other references see C131_reference_refuted."
  },
  {
   "property": "C133",
   "status": "partial",
   "theorems": [
    "Recap.ProtoData.C133_references_partial",
    "Recap.ProtoData.C133_messages_partial",
    "Recap.ProtoData.C133_timestamps_refuted",
    "Recap.ProtoData.C133_recursive_refuted",
    "Recap.ProtoData.C133_messages_refuted"
   ],
   "note": "False of the code: points in time that are 2^63 nanoseconds or more away from 1970, which Protobuf allows up to the year 9999, are no values of the type that is read (C133_timestamps_refuted, for each of them); a reference that is left in a recursive type cannot be resolved, so lists of more than one number are no values of it (C133_recursive_refuted); C133_messages_refuted negates the full statement MessagesHeld. C133_references_partial proves, for every accepted file and all data of its first message within these points in time, that they are values of the type, where a reference has the data of the message or enum with its name; C133_messages_partial the same with the values of the type itself, if no reference is left in it. Both are for a converter that has read no other file, and for names of messages and enums without dots, which is what the language has. Missing: files that need other files. Enum numbers that are not declared and durations are outside the specification."
  },
  {
   "property": "C134",
   "status": "partial",
   "theorems": [
    "Recap.ProtoData.C134_references_partial",
    "Recap.ProtoData.C134_values_partial",
    "Recap.ProtoData.C134_timestamps_refuted",
    "Recap.ProtoData.C134_optional_refuted",
    "Recap.ProtoData.C134_nested_refuted",
    "Recap.ProtoData.C134_values_refuted"
   ],
   "note": "False of the code: logical types are dropped, so a point in time is no datum of the int64 that is written (C134_timestamps_refuted); a list that can be null, which is what to_recap reads for a repeated field, is written as an optional field (C134_optional_refuted); a list of lists is written as one list (C134_nested_refuted); C134_values_refuted negates the full statement ValuesWritten. C134_references_partial proves it for all structs that Protobuf can express (Regular: no nesting of lists, maps and unions in each other; the package of every alias is that of the file or of a message around; types with the same alias are the same) without logical types on integers and bytes, where a reference has the data of the declaration with its name; C134_values_partial the same for values of the type itself, without references. Missing: types that cannot be expressed; references to types of the registry."
  },
  {
   "property": "C135",
   "status": "partial",
   "theorems": [
    "Recap.ProtoData.C135_exactly_partial",
    "Recap.ProtoData.C135_references_partial",
    "Recap.ProtoData.C135_only_partial",
    "Recap.ProtoData.C135_bits_refuted",
    "Recap.ProtoData.C135_absent_refuted",
    "Recap.ProtoData.C135_only_refuted"
   ],
   "note": "False of the code: an integer with eight bits is written as int32, so other integers pass (C135_bits_refuted, for each of them); a field that is not optional can be absent (C135_absent_refuted); C135_only_refuted negates the full statement OnlyValuesWritten. C135_exactly_partial describes the data of the message exactly, for all structs that Protobuf can express (Regular, as in C134): the values as Protobuf stores them (Stored), where numbers have 32 or 64 bits, strings and bytes are shorter than 2 GiB and fields that are no lists or maps can be absent. C135_references_partial and C135_only_partial: if the struct has nothing that Protobuf does not keep (Exact), the data are exactly the values, with and without references."
  },
  {
   "property": "C136",
   "status": "partial",
   "theorems": [
    "Recap.AvroData.C136_exactly_partial",
    "Recap.AvroData.C136_values_partial",
    "Recap.AvroData.C136_fixed_refuted",
    "Recap.AvroData.C136_annotation_refuted",
    "Recap.AvroData.C136_name_refuted",
    "Recap.AvroData.C136_values_refuted"
   ],
   "note": "False of the code: a fixed is read as byte strings of any length up to its size (C136_fixed_refuted); points in time are values of a string with a logical type that Avro ignores (C136_annotation_refuted); the name of a field can be used as that of a type, so an invalid schema has values (C136_name_refuted); C136_values_refuted negates the full statement OnlyDataHeld. C136_exactly_partial describes the values exactly, for the schemas of C128 (every name defined completely before its use, logical types that apply): the data, with byte strings in them possibly shortened. C136_values_partial: without fixed, every value is a datum."
  },
  {
   "property": "C137",
   "status": "partial",
   "theorems": [
    "Recap.AvroWrite.C137_references_partial",
    "Recap.AvroWrite.C137_references_only_partial",
    "Recap.AvroWrite.C137_exactly_partial",
    "Recap.AvroWrite.C137_only_partial",
    "Recap.AvroWrite.C137_same_partial",
    "Recap.AvroWrite.C137_bits_refuted",
    "Recap.AvroWrite.C137_wide_refuted",
    "Recap.AvroWrite.C137_strings_refuted",
    "Recap.AvroWrite.C137_length_refuted",
    "Recap.AvroWrite.C137_only_refuted"
   ],
   "note": "False of the code: integers with other than 32 or 64 bits, or without a sign, have data outside their range (C137_bits_refuted, for all numbers of bits); the data of wider integers are decimals, none of them a value (C137_wide_refuted); strings and byte strings that are longer than any limit are data (C137_strings_refuted, C137_length_refuted); C137_only_refuted negates the full statement OnlyValuesWritten. C137_exactly_partial describes the data exactly, for all types without references (Stored: logical types outside fields only, unions only in fields, nothing for the parts that Avro does not find). C137_only_partial: if numbers have all the bits of Avro's types, strings and byte strings the largest length and fields no logical type (Kept), every datum is a value; C137_same_partial: with C129, the data are exactly the values. C137_references_partial and C137_references_only_partial: the same for types with references to built-in aliases, if what they refer to has a name, a default or a logical type (other references: C129_bare_refuted, C63)."
  },
  {
   "property": "C138",
   "status": "partial",
   "theorems": [
    "Recap.JsonData.C138_references_partial",
    "Recap.JsonData.C138_references_same_partial",
    "Recap.JsonData.C138_colliding_refuted",
    "Recap.JsonData.C138_optional_refuted",
    "Recap.JsonData.C138_exactly_partial",
    "Recap.JsonData.C138_only_partial",
    "Recap.JsonData.C138_same_partial",
    "Recap.JsonData.C138_null_refuted",
    "Recap.JsonData.C138_default_refuted",
    "Recap.JsonData.C138_enum_refuted",
    "Recap.JsonData.C138_required_refuted",
    "Recap.JsonData.C138_only_refuted"
   ],
   "note": "False of the code: a property that is not required can be null (C138_null_refuted), a required property with a default can be left out (C138_default_refuted), the converter does not read enum (C138_enum_refuted, for all lists of strings) nor required names that are no property (C138_required_refuted, for all names); C138_only_refuted negates the full statement OnlyInstancesHeld. C138_exactly_partial describes the values exactly, for all accepted schemas without references (Nearly). C138_only_partial: if the schema has only the keywords that are read, and what is required is a property without a default (Understood), every value without properties that are null is valid; C138_same_partial: with C130, being a value and being valid are the same if numbers are moderate. C138_references_partial and C138_references_same_partial: the same for schemas with references to schemas in the document, if different identifiers have different aliases (otherwise C138_colliding_refuted) and a property with an identifier and a list of types without null is required (otherwise C138_optional_refuted: null is added wherever there is a reference to it). Missing: values with null properties where the schema lists the type null; $dynamicRef; schemas that have to be retrieved."
  },
  {
   "property": "C139",
   "status": "partial",
   "theorems": [
    "Recap.ProtoData.C139_near_partial",
    "Recap.ProtoData.C139_exactly_partial",
    "Recap.ProtoData.C139_only_partial",
    "Recap.ProtoData.C139_null_refuted",
    "Recap.ProtoData.C139_size_refuted",
    "Recap.ProtoData.C139_names_refuted",
    "Recap.ProtoData.C139_only_refuted"
   ],
   "note": "False of the code: repeated fields and map fields can be null (C139_null_refuted), strings and bytes can have exactly 2 GiB (C139_size_refuted), and a message can use the name of what is declared in another message (C139_names_refuted); C139_only_refuted negates the full statement OnlyMessagesHeld. C139_near_partial: every value is a datum apart from that, for all files in which every name means something where it is used, with or without references left in the type. C139_exactly_partial: without references, the values are exactly those (NearRoot). C139_only_partial: every value with strings and bytes smaller than 2 GiB is a datum if nothing in it is null or the file has no repeated fields and map fields. Missing: converters that have read other files before."
  },
  {
   "property": "C140",
   "status": "partial",
   "theorems": [
    "Recap.PgCatalog.C140_rows",
    "Recap.PgCatalog.C140_table_partial",
    "Recap.PgCatalog.C140_types_refuted",
    "Recap.PgCatalog.C140_order_refuted",
    "Recap.PgCatalog.C140_tables_refuted"
   ],
   "note": "False of the code: the query collects the labels of an enum without an order, so that the same table can be read with different types (C140_order_refuted), and a table with a column of any other type that a user has made, such as a domain over an enum, or of an enum without labels is not read at all (C140_types_refuted, for all databases); C140_tables_refuted negates the full statement TablesRead. Proved for all databases whose catalogs have what PostgreSQL guarantees (WellFormed): C140_rows: the rows that are returned are one for each visible column, in order, with its name, default, dimensions and nullability, and the labels of its own enum in some order. C140_table_partial: the struct has a field for each of them, with its name, nullable exactly when the column can be null (unless dimensions are enforced and an array has none), and the strings that the field of an enum holds are exactly its labels."
  },
  {
   "property": "C141",
   "status": "partial",
   "theorems": [
    "Recap.Missing.C141_sqlite_partial",
    "Recap.Missing.C141_postgresql_refuted",
    "Recap.Missing.C141_catalog_refuted",
    "Recap.Missing.C141_others_refuted"
   ],
   "note": "False of the code for PostgreSQL, MySQL and Snowflake: a struct without fields is returned, for all databases without the table (C141_postgresql_refuted, C141_others_refuted), and also for another database than the one that is connected to, whatever tables it has (C141_catalog_refuted). Proved for SQLite: C141_sqlite_partial: the error is raised exactly when the file has no table with that name."
  },
  {
   "property": "C142",
   "status": "partial",
   "theorems": [
    "Recap.PgArrays.C142_others_refuted",
    "Recap.PgArrays.C142_confused_refuted",
    "Recap.PgArrays.C142_exactly_partial",
    "Recap.PgArrays.C142_arrays_partial",
    "Recap.PgArrays.C142_enforced_partial",
    "Recap.PgArrays.C142_dimensions_refuted",
    "Recap.PgArrays.C142_null_refuted",
    "Recap.PgArrays.C142_types_refuted",
    "Recap.PgArrays.C142_enforced_refuted",
    "Recap.PgArrays.C142_arrays_refuted"
   ],
   "note": "False of the code. Without enforced dimensions, no array with three dimensions that is not empty is a value, because the reference of the type to itself is to a copy of the registry without it (C142_dimensions_refuted), and none with an element that is null (C142_null_refuted). With enforced dimensions, no array with fewer or more dimensions than declared is (C142_enforced_refuted). Tables with arrays of smallint, boolean, character, bit varying, numeric or timestamps are not read at all (C142_types_refuted). Nor are those with arrays of any type with another name, such as enums and domains (C142_others_refuted), unless the name starts like one that is known: elements of a type whose name starts with char, varchar or bit are taken for strings or bytes, so that integers of such a domain are no values (C142_confused_refuted). C142_arrays_refuted negates the full statement ArraysHeld, for both settings. Proved for arrays of one or two dimensions without null (C142_arrays_partial), where C142_exactly_partial describes the values exactly, and for arrays with the declared dimensions, if they are enforced, with elements that can be null (C142_enforced_partial). Missing: user-defined types whose name is one of the known names."
  },
  {
   "property": "C143",
   "status": "partial",
   "theorems": [
    "Recap.Rows.C143_rows_partial",
    "Recap.Rows.C143_null_refuted",
    "Recap.Rows.C143_affinity_refuted",
    "Recap.Rows.C143_numeric_refuted",
    "Recap.Rows.C143_array_refuted",
    "Recap.Rows.C143_written_refuted",
    "Recap.Rows.C143_rows_refuted"
   ],
   "note": "False of the code. A row in which null is written is never valid, because the schema of an optional property does not admit null (C143_null_refuted; C143_written_refuted negates the full statement RowsAccepted for every database). With null left out, it is false of SQLite: whole numbers, text and bytes in a column of NUMERIC affinity match two alternatives of oneOf (C143_numeric_refuted), and values that do not go with the affinity of the column are not valid (C143_affinity_refuted). It is false of PostgreSQL with the default settings: the schema of an array is a reference to itself (C143_array_refuted). C143_rows_refuted negates RowsAccepted for both. Proved for all rows with null left out, of tables of MySQL and Snowflake, of PostgreSQL with enforced dimensions and arrays that have those that are declared, and of SQLite with values that go with the affinity (C143_rows_partial); this includes values that are not in the range of the Recap type (C126), as JSON Schema has no ranges. Missing: columns without a name."
  },
  {
   "property": "C144",
   "status": "partial",
   "theorems": [
    "Recap.JsonData.C144_named_partial",
    "Recap.JsonData.C144_dangling_refuted",
    "Recap.JsonData.C144_references_refuted",
    "Recap.JsonData.C144_registered_refuted",
    "Recap.JsonData.C144_ambiguous_refuted",
    "Recap.JsonData.C144_builtin_refuted"
   ],
   "note": "False of the code: nothing that is read is registered, so that no reference resolves unless its alias is that of a built-in type (C144_dangling_refuted, for all documents and all references in what is read), and then it can resolve to another type than was read (C144_builtin_refuted). If the user registers the type that was read, references to it resolve, but those in what they resolve to do not (C144_registered_refuted). Two identifiers can have the same alias, so that it does not say which schema is meant (C144_ambiguous_refuted). C144_references_refuted negates the full statement ReferencesResolve. Proved: C144_named_partial: every reference in the type comes from a reference in the document, the schema in the document that it refers to was read, and a type inside the returned type that is no reference has the alias of the reference and all values that were read for that schema. Schemas that have to be retrieved are not modelled."
  },
  {
   "property": "C145",
   "status": "partial",
   "theorems": [
    "Recap.JsonAlias.C145_exactly_partial",
    "Recap.JsonAlias.C145_aliases_partial",
    "Recap.JsonAlias.C145_relative_refuted",
    "Recap.JsonAlias.C145_version_refuted",
    "Recap.JsonAlias.C145_host_refuted",
    "Recap.JsonAlias.C145_aliases_refuted"
   ],
   "note": "False of the code: the alias of an identifier without a host, such as person.json or urn:example:person, starts with a dot or is empty and cannot be registered (C145_relative_refuted, for all of them and all registries); also those of a URL with a number in its path (C145_version_refuted) and of hosts with a port or without a dot (C145_host_refuted). C145_aliases_refuted negates the full statement AliasesQualified. Proved for identifiers that are URLs, without parameters: C145_exactly_partial says exactly for which of them the alias of the object is accepted, and what it is then: the labels of the host are identifiers, and the path with the fragment is made of words that start with a letter, with one other character between any two. C145_aliases_partial: if all identifiers in the document are of this kind, all aliases in the type that is read are accepted."
  },
  {
   "property": "C146",
   "status": "proved",
   "theorems": [
    "Recap.InfoQuery.C146_columns",
    "Recap.InfoQuery.C146_deterministic",
    "Recap.InfoQuery.C146_mysql",
    "Recap.InfoQuery.C146_missing",
    "Recap.InfoQuery.C146_confused_refuted"
   ],
   "note": "C146_columns and, for MySQL with its single catalog, C146_mysql: for all views, answers of the server and ways to compare names by which the requested names are those of one table (Means): the fields are those of the columns of that table, in order, with their names and nullability, each as the converter makes it of the column alone; which type that is, is in C51 and C52. C146_deterministic: the result does not depend on the order of the rows in the view, on the spelling of its column names or on the way names are compared. C146_missing: for a name that no table has, an empty struct is returned, and no exception. C146_confused_refuted: without Means, if the server takes the names of two tables for the same, the struct has the columns of both. Modelled: the query as a relation between the view and the rows that can be returned; not modelled: SQL itself and the driver."
  },
  {
   "property": "C147",
   "status": "partial",
   "theorems": [
    "Recap.NestedRows.C147_hive_nested_partial",
    "Recap.NestedRows.C147_hive_required_refuted",
    "Recap.NestedRows.C147_hive_inner_null_refuted",
    "Recap.NestedRows.C147_hive_inner_elements_refuted",
    "Recap.NestedRows.C147_hive_numbers_refuted",
    "Recap.NestedRows.C147_bigquery",
    "Recap.NestedRows.C147_bigquery_null_refuted",
    "Recap.NestedRows.C147_hive_partial",
    "Recap.NestedRows.C147_hive_null_refuted",
    "Recap.NestedRows.C147_hive_elements_refuted",
    "Recap.NestedRows.C147_hive_union_refuted",
    "Recap.NestedRows.C147_hive_overlap_refuted",
    "Recap.NestedRows.C147_refuted",
    "Recap.NestedRows.C147_hive_unions_partial"
   ],
   "note": "False of the code. An object that has null for a column that can be null is never valid (C147_bigquery_null_refuted; C147_hive_null_refuted for columns without unions or void, C147_hive_inner_null_refuted for those with unions in Told inside), as the schema of an optional property does not admit null. With null left out it is false of Hive: the schema of a list does not admit null as an element (C147_hive_elements_refuted, C147_hive_inner_elements_refuted), a column of a union of two types is required although it can be null (C147_hive_union_refuted; C147_hive_required_refuted for the unions in Told of several types, and for columns of type void, whose rows are all not valid), and an integer in a union of int and double matches two alternatives of oneOf (C147_hive_overlap_refuted; C147_hive_numbers_refuted for all types of integers and floats and all tables). C147_refuted negates the full statements, for BigQuery if null is written and for Hive in both cases. Proved with null left out: C147_bigquery, for all rows of all BigQuery tables, and C147_hive_partial, for all rows of Hive tables without unions and void in which no element of a list and no value of a map is null. C147_hive_unions_partial adds columns with unions of such types, if the values of the members are of different kinds in JSON (boolean, number, string, array, object), for rows in which these columns are not null; C147_hive_nested_partial allows such unions anywhere in the types of the columns, also inside each other, for rows in which no column or field of a union with several alternatives, no element of a list and no value of a map is null. Names of columns and fields are not empty. Missing: void inside other types."
  },
  {
   "property": "C148",
   "status": "partial",
   "theorems": [
    "Recap.Commands.C148_schema",
    "Recap.Commands.C148_ls_partial",
    "Recap.Commands.C148_empty_refuted",
    "Recap.Commands.C148_refuted",
    "Recap.Commands.C148_only_schema",
    "Recap.Commands.C148_only_ls"
   ],
   "note": "False of the code for empty lists: if the gateway answers with an empty list, recap ls prints nothing, which is no JSON (C148_empty_refuted for all such URLs; C148_refuted negates the full statement SamePrinted). Proved: C148_schema for all URLs and formats, and C148_ls_partial for all lists that are not empty; C148_only_schema and C148_only_ls for the converse. What is printed is modelled as json.dumps as rich calls it, without colours; the text of Protobuf files is not modelled."
  },
  {
   "property": "C149",
   "status": "partial",
   "theorems": [
    "Recap.AvroRows.C149_dimensions_refuted",
    "Recap.AvroRows.C149_arrays_refuted",
    "Recap.AvroRows.C149_hive_maps",
    "Recap.AvroRows.C149_fixed_refuted",
    "Recap.AvroRows.C149_fixed_partial",
    "Recap.AvroRows.C149_rows_partial",
    "Recap.AvroRows.C149_required_refuted",
    "Recap.AvroRows.C149_inline_refuted",
    "Recap.AvroRows.C149_elements_refuted",
    "Recap.AvroRows.C149_bigquery_partial",
    "Recap.AvroRows.C149_bigquery_inline_refuted",
    "Recap.AvroRows.C149_bigquery_required_refuted",
    "Recap.AvroRows.C149_hive_partial",
    "Recap.AvroRows.C149_hive_lists_refuted",
    "Recap.AvroRows.C149_rows_refuted",
    "Recap.AvroRows.C149_sqlite_refuted",
    "Recap.AvroRows.C149_nested_refuted"
   ],
   "note": "False of the code. A row of a table with a NOT NULL column of dates, times, points in time or decimals is never a datum, because the logical type is written as an attribute of the field, where Avro ignores it (C149_required_refuted, C149_bigquery_required_refuted). A table with a NOT NULL column of fixed bytes, bits, enums or arrays, or a BigQuery table with an array or a record that is not NULLABLE, has a schema without any data (C149_inline_refuted, C149_bigquery_inline_refuted). Arrays and lists that can be null have no data with an element: only null and the empty list (C149_elements_refuted for PostgreSQL arrays of one dimension, C149_arrays_refuted for those whose dimensions are not enforced, C149_hive_lists_refuted for Hive lists of anything but void), and, of arrays with k dimensions, those without any element (C149_dimensions_refuted). A text in an INTEGER column of SQLite is no datum (C149_sqlite_refuted). In a BIT column of MySQL that can be null only null and exactly eight bytes are data, in a BINARY(n) column only null and exactly n bytes (C149_fixed_refuted). C149_rows_refuted, C149_sqlite_refuted and C149_nested_refuted negate the full statements. Proved for all rows whose values fit the types of their columns, as in C126, and the columns of Expressible, BigQueryExpressible and HiveExpressible: C149_rows_partial, C149_bigquery_partial, C149_hive_partial (which includes lists of void). C149_fixed_partial adds null and byte strings of exactly the declared length in columns of BINARY and BIT that can be null, which are all the values of such columns in PostgreSQL. Where no schema is written there is nothing to prove: Hive maps (C149_hive_maps), Snowflake timestamps and times, MySQL DATETIME with precision 0, texts without a declared length in Hive and BigQuery. The records of relational tables have no name, which the notion of datum allows. Missing: names of Hive tables whose only dot is the first character."
  },
  {
   "property": "C150",
   "status": "partial",
   "theorems": [
    "Recap.EndToEnd.C150_bigquery_printed",
    "Recap.EndToEnd.C150_bigquery_answered",
    "Recap.EndToEnd.C150_bigquery_avro_partial",
    "Recap.EndToEnd.C150_bigquery_refuted",
    "Recap.EndToEnd.C150_sqlite_printed_partial",
    "Recap.EndToEnd.C150_sqlite_answered_partial",
    "Recap.EndToEnd.C150_sqlite_key_refuted",
    "Recap.EndToEnd.C150_sqlite_refuted",
    "Recap.EndToEnd.C150_pg_printed_partial",
    "Recap.EndToEnd.C150_pg_answered_partial",
    "Recap.EndToEnd.C150_pg_avro_partial",
    "Recap.EndToEnd.C150_pg_refuted",
    "Recap.EndToEnd.C150_printed",
    "Recap.EndToEnd.C150_answered",
    "Recap.EndToEnd.C150_printed_always",
    "Recap.EndToEnd.C150_avro_partial",
    "Recap.EndToEnd.C150_avro_required_refuted",
    "Recap.EndToEnd.C150_null_refuted",
    "Recap.EndToEnd.C150_refuted",
    "Recap.EndToEnd.C150_avro_refuted"
   ],
   "note": "False of the code if columns that are null are written as null, which the schema allows in no property: the object of such a row is never valid against what is printed (C150_null_refuted, C150_refuted, C150_bigquery_refuted). False of SQLite, where a column of a primary key can be null unless it is INTEGER, but its property is required: no row with null in the key is valid (C150_sqlite_key_refuted, C150_sqlite_refuted). False in Avro: if a column with a date, a time, a point in time or a decimal is NOT NULL, no row of the table is a datum (C150_avro_required_refuted, C150_avro_refuted). False of PostgreSQL tables with arrays, whose declared dimensions the server does not enforce (C150_pg_refuted). Proved from the text of the URL to the text that is printed: if null columns are left out, recap schema prints a JSON text of one schema only, and every row that the table can contain is valid against it (C150_printed); so it is with what the gateway answers (C150_answered); something is printed whenever the types of all columns can be read (C150_printed_always); and the rows are data of what is answered in Avro, for the columns and values of C149 (C150_avro_partial). The same is proved of the tables of PostgreSQL that have no array columns, with the query of C140 (C150_pg_printed_partial, C150_pg_answered_partial, C150_pg_avro_partial); of all tables of BigQuery, with records and arrays to any depth (C150_bigquery_printed, C150_bigquery_answered, and C150_bigquery_avro_partial for the columns and values of C149); and of SQLite files with relative paths, for rows whose values go with the affinity of their columns, none of which is NUMERIC, and are not null in the primary key (C150_sqlite_printed_partial, C150_sqlite_answered_partial). Assumed: the URL and the configured ones are well formed and their queries do not replace parts of the URL (C87), the server guarantees what C146 (C140 for PostgreSQL) says about its view or catalog, every column has a name, and string comparison of names on the server distinguishes tables. Missing: Hive metastores, whose URLs cannot be read if the host is a name (C151). Files are the subject of C152 and C154."
  },
  {
   "property": "C151",
   "status": "partial",
   "theorems": [
    "Recap.Clients.C151_hive",
    "Recap.Clients.C151_hive_refuted",
    "Recap.Clients.C151_registry",
    "Recap.Clients.C151_registry_refuted",
    "Recap.Clients.C151_marker_refuted"
   ],
   "note": "False of listing and reading: no URL of a metastore whose host is a name and no URL of a registry can ever be listed or read, whatever is configured, because parse_url makes a URL with the scheme thrift, http or https of it, for which there is no client (C151_hive_refuted, C151_registry_refuted). False of a registry if +csr:// occurs again in the URL, which is replaced there too (C151_marker_refuted). Proved of create_client: the metastore client is given host and port of the URL and nothing else (C151_hive), and the registry client is given the URL with the scheme http or https and the parameters for certificates and authentication (C151_registry), for URLs whose query does not replace other parts. Missing: listing or reading metastores whose host is an IPv6 address, and registries with +csr:// again in the URL."
  },
  {
   "property": "C152",
   "status": "partial",
   "theorems": [
    "Recap.EndToEnd.C152_file_partial",
    "Recap.EndToEnd.C152_file_printed_partial",
    "Recap.JsonData.C152_same_partial",
    "Recap.JsonData.C152_valid_partial",
    "Recap.JsonData.C152_written_partial",
    "Recap.JsonData.C152_null_refuted",
    "Recap.JsonData.C152_types_refuted",
    "Recap.JsonData.C152_null_accepted_refuted",
    "Recap.JsonData.C152_numbers_refuted",
    "Recap.JsonData.C152_enum_refuted",
    "Recap.JsonData.C152_same_refuted"
   ],
   "note": "False: a property that is not required but can be null cannot be null afterwards (C152_null_refuted); a property that is not required and has two types is required afterwards (C152_types_refuted) and can be null (C152_null_accepted_refuted); a whole number is rejected afterwards where number and integer are allowed (C152_numbers_refuted); enum is dropped (C152_enum_refuted, C152_same_refuted). Proved of schemas without references and with no identifier but that of the whole schema, whose lists of types are names, none twice, not both integer and number, without null if there is a default, and whose properties that are not required have a single type other than null: all values that were valid remain valid, whatever other keywords there are (C152_valid_partial), and the same values are valid if none of enum, oneOf and additionalProperties is there and what is required is a property (C152_same_partial). Something is written if there are no identifiers and no property has an empty name (C152_written_partial). From the path of a file to the text that is printed, for such schemas without identifiers and empty names of properties: something is printed (C152_file_printed_partial), and it is JSON of a schema with the same valid values (C152_file_partial). Missing: references and identifiers inside the schema; keywords of JSON Schema other than type, enum, required, items, properties, additionalProperties, oneOf and $ref have no meaning in the model."
  },
  {
   "property": "C153",
   "status": "partial",
   "theorems": [
    "Recap.Files.C153_configured_partial",
    "Recap.Files.C153_configured_urls_partial",
    "Recap.Files.C153_refused",
    "Recap.Files.C153_parameters_refuted",
    "Recap.Files.C153_paths_partial",
    "Recap.Files.C153_urls_partial",
    "Recap.Files.C153_strict_partial",
    "Recap.Files.C153_relative_refuted",
    "Recap.Files.C153_hash_refuted",
    "Recap.Files.C153_escapes_refuted",
    "Recap.Files.C153_localhost_refuted"
   ],
   "note": "False of the code: for a relative path the first character is dropped and a file in the root of the file system is read, /ata/a.json for data/a.json (C153_relative_refuted); a path is cut at the first # or ?, so that for /data/a.json#old.json the file /data/a.json is read (C153_hash_refuted); percent escapes in a URL are not decoded (C153_escapes_refuted); localhost as the host of a URL is taken for a directory (C153_localhost_refuted); a parameter of a configured URL that is named like a part of it replaces that part, so that with file:///?scheme=s3 no path is read any more (C153_parameters_refuted). Proved of absolute paths that start with a single / and have no ?, #, tabs or line breaks that the file is read in the format of its suffix, if no URL with the scheme file is configured (C153_paths_partial) or if file:/// is the only one, also in strict mode (C153_strict_partial); of URLs without a host, without percent escapes and without parameters that are named like parts of a URL (C153_urls_partial). So it is with any configured URLs, if those for files have neither parameters nor fragments, in strict mode if one of them is that of the root (C153_configured_partial, C153_configured_urls_partial); without it strict mode refuses all such paths (C153_refused). Missing: configured URLs for files with other parameters; how the operating system follows a path."
  },
  {
   "property": "C154",
   "status": "partial",
   "theorems": [
    "Recap.AvroData.C154_same_partial",
    "Recap.AvroData.C154_written_partial",
    "Recap.AvroData.C154_array_refuted",
    "Recap.AvroData.C154_date_refuted",
    "Recap.AvroData.C154_fixed_refuted",
    "Recap.AvroData.C154_reference_refuted",
    "Recap.AvroData.C154_same_refuted",
    "Recap.EndToEnd.C154_file_partial",
    "Recap.EndToEnd.C154_file_printed_partial"
   ],
   "note": "False of the code: a record with a field that is an array has no data at all afterwards (C154_array_refuted); a record with a field that is a date has integers instead of dates (C154_date_refuted); a fixed inside a union becomes byte strings of any length (C154_fixed_refuted); a record with a reference to a record has no data at all afterwards, as the name that is referred to is only an alias of the record that is written (C154_reference_refuted); C154_same_refuted negates the full statement SameData. Proved of schemas without references and without fixed, whose logical types apply and whose fields have primitive types or unions, with arrays, maps, enums, logical types and further records inside the unions, to any depth: the data are the same (C154_same_partial), and a schema is written (C154_written_partial). C154_file_partial and C154_file_printed_partial: from the absolute path of such a schema to the printed text, with C153 and the rules of JSON. Missing: which references keep their data, of which C63 says more; durations, which are not among the values."
  }
 ]
}