def m(definition, old, new, breaks, file, **kw):
    return dict(definition=definition, old=old, new=new, breaks=breaks, file=file, **kw)

# run with TARGETS="EndToEndThms EndToEndPgThms ClientsThms5 AvroRowsThms"
MUTANTS = [
 m("convert", "let d ← Json.fromRecap live t", "let d ← Json.fromRecap newRegistry t", "no claim about tables: their types have no references (C150 holds)", "Commands.lean"),
 m("convert", "let d ← Json.fromRecap live t", "let d ← Avro.fromRecap live t", "C150: Avro is printed for JSON Schema", "Commands.lean"),
 m("formatMap", "(\"application/schema+json\", .json), (\"application/avro+json\", .avro)", "(\"application/schema+json\", .avro), (\"application/avro+json\", .json)", "C150: formats swapped by the gateway", "Commands.lean"),
 m("getSchema", "respond (schema s url f true)", "respond (schema s url f false)", "no claim of C150 about strictness, C150 holds", "Commands.lean"),
 m("cliSchema", "schema s url f false", "schema s url .recap false", "C150: another format is printed", "Commands.lean"),
 m("selected", "same r.table table && same r.schema schema && same r.catalog catalog", "same r.table table && same r.schema schema", "C150: columns of tables of other catalogs", "InfoQuery.lean"),
 m("selected", "same r.table table && same r.schema schema && same r.catalog catalog", "same r.table table && same r.schema catalog && same r.catalog schema", "C150: catalog and schema swapped", "InfoQuery.lean"),
 m("mysqlCatalog", "\"def\"", "\"default\"", "C150: no columns in MySQL", "InfoQuery.lean"),
 m("merge", "netloc := conf.netloc", "netloc := url.netloc", "C150: the configured credentials are not used", "Settings.lean"),
 m("findConf", "if ← matchesConf env conf url urlPath then pure (some (merge env conf url urlPath))\n    else findConf env url urlPath us", "pure (some (merge env conf url urlPath))", "C150: the first configured URL is used for all", "Settings.lean"),
 m("parseHive", "pure (url ++ ':' :: p)", "pure url", "no claim of C151: the URL has no client with or without port", "Clients.lean"),
 m("create", "| some host, some port => .ok [(\"host\", host), (\"port\", port)]", "| some host, some port => .ok [(\"host\", port), (\"port\", host)]", "C151: host and port swapped", "Clients.lean"),
 m("registryArgs", "[\"url\", \"ssl.ca.location\"", "[\"url\", \"password\", \"ssl.ca.location\"", "C151: the password of the URL is given as well", "Clients.lean"),
 m("registryArgs", "\"ssl.ca.location\", \"ssl.key.location\"", "\"ssl.ca.location\"", "C151: no key", "Clients.lean"),
 m("dialect", "(d ++ \"://\".toList) url)", "(r ++ \"://\".toList) url)", "C151: csr:// as scheme", "Clients.lean"),
 m("dialect", "replaceAll (d ++ '+' :: r ++ \"://\".toList) (d ++ \"://\".toList) url)", "url)", "C151: the driver stays in the URL", "Clients.lean"),
 m("clients", "(\"http+csr\", .confluent)", "(\"http+csr\", .confluent), (\"http\", .confluent)", "the refutation of C151: listing a registry works", "Clients.lean"),
 m("clients", "(\"thrift+hms\", .hive)", "(\"thrift+hms\", .hive), (\"thrift\", .hive)", "the refutation of C151: listing a metastore works", "Clients.lean"),
 m("parseHive", "let url := \"thrift://\".toList ++ host", "let url := \"thrift+hms://\".toList ++ host", "the refutation of C151: listing a metastore works", "Clients.lean"),
 m("Answer", "a.position ≤ b.position", "b.position ≤ a.position", "C150: columns in reverse order (rows are objects, so that only TableOf is about the order)", "InfoQuery.lean"),
]
