import Verif.Types

/-! Generated by tools/conformance.py from /repo/tests/unit/test_types.py and /repo/tests/spec.
These are tests of the model against the expectations of the project's own test suite,
not properties. -/

namespace Recap.Conform

def toDictIs (t : RType) (clean alias : Bool) (v : PyVal) : Bool :=
  match toDict clean alias t with
  | .ok w => PyVal.pyEq w v
  | .error _ => false

def parseIs (v : PyVal) (t : RType) : Bool :=
  match parse v with
  | .ok u => RType.pyEq u t
  | .error _ => false

def toFrom (t : RType) (clean alias : Bool) : Bool :=
  match toDict clean alias t with
  | .ok w => parseIs w t
  | .error _ => false

def fromTo (v : PyVal) (clean alias : Bool) : Bool :=
  match parse v with
  | .ok t => toDictIs t clean alias v
  | .error _ => false

mutual
/-- `check_aliases` of tests/spec/test_json_schema_spec.py. -/
def checkAliases (reg : Registry) : RType → Bool
  | .proxy _ a => match a.alias with
    | .str s => (reg.find? s).isSome
    | _ => false
  | .struct fs _ => checkAll reg fs
  | .union ts _ => checkAll reg ts
  | .list t _ _ _ => checkAliases reg t
  | .map k v _ => checkAliases reg k && checkAliases reg v
  | _ => true
def checkAll (reg : Registry) : List RType → Bool
  | [] => true
  | t :: ts => checkAliases reg t && checkAll reg ts
end

def specValid (v : PyVal) : Bool :=
  match cleanDict v with
  | .error _ => false
  | .ok w => match fromDict w newRegistry with
    | .error _ => false
    | .ok (t, reg) => checkAliases reg t

example : toDictIs (.null {}) false false (.dict [("type", (.str "null")), ("alias", .none), ("doc", .none), ("logical", .none)]) = true := by decide +kernel
example : toDictIs (.null {}) true false (.str "null") = true := by decide +kernel
example : toDictIs (.bool {}) true false (.str "bool") = true := by decide +kernel
example : toDictIs (.int (.int 32) (.bool true) {}) false false (.dict [("type", (.str "int")), ("bits", (.int 32)), ("signed", (.bool true)), ("alias", .none), ("doc", .none), ("logical", .none)]) = true := by decide +kernel
example : toDictIs (.int (.int 32) (.bool true) {}) true false (.dict [("type", (.str "int")), ("bits", (.int 32))]) = true := by decide +kernel
example : toDictIs (.int (.int 32) (.bool false) {}) true false (.dict [("type", (.str "int")), ("bits", (.int 32)), ("signed", (.bool false))]) = true := by decide +kernel
example : toDictIs (.float (.int 32) {}) true false (.dict [("type", (.str "float")), ("bits", (.int 32))]) = true := by decide +kernel
example : toDictIs (.string .none (.bool true) {}) true false (.str "string") = true := by decide +kernel
example : toDictIs (.string (.int 50) (.bool true) {}) true false (.dict [("type", (.str "string")), ("bytes", (.int 50))]) = true := by decide +kernel
example : toDictIs (.bytes .none (.bool true) {}) true false (.str "bytes") = true := by decide +kernel
example : toDictIs (.bytes (.int 50) (.bool true) {}) true false (.dict [("type", (.str "bytes")), ("bytes", (.int 50))]) = true := by decide +kernel
example : toDictIs (.enum (.list [(.str "foo"), (.str "bar")]) {}) true false (.dict [("type", (.str "enum")), ("symbols", (.list [(.str "foo"), (.str "bar")]))]) = true := by decide +kernel
example : toDictIs (.list (.int (.int 32) (.bool true) {}) .none (.bool true) {}) true false (.dict [("type", (.str "list")), ("values", (.dict [("type", (.str "int")), ("bits", (.int 32))]))]) = true := by decide +kernel
example : toDictIs (.list (.int (.int 32) (.bool true) {}) (.int 10) (.bool true) {}) true false (.dict [("type", (.str "list")), ("values", (.dict [("type", (.str "int")), ("bits", (.int 32))])), ("length", (.int 10))]) = true := by decide +kernel
example : toDictIs (.map (.int (.int 32) (.bool true) {}) (.string (.int 50) (.bool true) {}) {}) true false (.dict [("type", (.str "map")), ("keys", (.dict [("type", (.str "int")), ("bits", (.int 32))])), ("values", (.dict [("type", (.str "string")), ("bytes", (.int 50))]))]) = true := by decide +kernel
example : toDictIs (.union [(.int (.int 32) (.bool true) {}), (.string (.int 50) (.bool true) {})] {}) true false (.list [(.dict [("type", (.str "int")), ("bits", (.int 32))]), (.dict [("type", (.str "string")), ("bytes", (.int 50))])]) = true := by decide +kernel
example : toDictIs (.struct [(.int (.int 32) (.bool true) {}), (.string (.int 50) (.bool true) {})] {}) true false (.dict [("type", (.str "struct")), ("fields", (.list [(.dict [("type", (.str "int")), ("bits", (.int 32))]), (.dict [("type", (.str "string")), ("bytes", (.int 50))])]))]) = true := by decide +kernel
example : toDictIs (.struct [(.union [(.null {}), (.int (.int 32) (.bool true) {}), (.string (.int 50) (.bool true) {})] { extra := [("default", .none)] })] {}) true false (.dict [("type", (.str "struct")), ("fields", (.list [(.dict [("type", (.str "union")), ("types", (.list [(.dict [("type", (.str "int")), ("bits", (.int 32))]), (.dict [("type", (.str "string")), ("bytes", (.int 50))])])), ("optional", (.bool true))])]))]) = true := by decide +kernel
example : toDictIs (.struct [(.list (.map (.int (.int 32) (.bool true) {}) (.string (.int 50) (.bool true) {}) {}) .none (.bool true) {})] {}) true false (.dict [("type", (.str "struct")), ("fields", (.list [(.dict [("type", (.str "list")), ("values", (.dict [("type", (.str "map")), ("keys", (.dict [("type", (.str "int")), ("bits", (.int 32))])), ("values", (.dict [("type", (.str "string")), ("bytes", (.int 50))]))]))])]))]) = true := by decide +kernel
example : toDictIs (.proxy .none { alias := (.str "test_proxy") }) true false (.str "test_proxy") = true := by decide +kernel
example : toDictIs (.int (.int 32) (.bool true) {}) true true (.str "int32") = true := by decide +kernel
example : toDictIs (.bytes (.int 32) (.bool false) { logical := (.str "build.recap.Decimal"), extra := [("precision", (.int 56)), ("scale", (.int 28))] }) true true (.str "decimal256") = true := by decide +kernel
example : toDictIs (.struct [(.string (.int 10) (.bool false) { extra := [("name", (.str "foo")), ("default", (.str "bar"))] })] {}) true true (.dict [("type", (.str "struct")), ("fields", (.list [(.dict [("type", (.str "string")), ("bytes", (.int 10)), ("variable", (.bool false)), ("default", (.str "bar")), ("name", (.str "foo"))])]))]) = true := by decide +kernel
example : toDictIs (.struct [(.union [(.null {}), (.string (.int 50) (.bool true) {}), (.int (.int 32) (.bool true) {})] { extra := [("default", .none)] })] {}) true false (.dict [("type", (.str "struct")), ("fields", (.list [(.dict [("type", (.str "union")), ("types", (.list [(.dict [("type", (.str "string")), ("bytes", (.int 50))]), (.dict [("type", (.str "int")), ("bits", (.int 32))])])), ("optional", (.bool true))])]))]) = true := by decide +kernel
example : toDictIs (.struct [(.union [(.null {}), (.string (.int 50) (.bool true) {}), (.int (.int 32) (.bool true) {})] { extra := [("default", (.str "some_string"))] })] {}) true false (.dict [("type", (.str "struct")), ("fields", (.list [(.dict [("type", (.str "union")), ("types", (.list [(.dict [("type", (.str "string")), ("bytes", (.int 50))]), (.dict [("type", (.str "int")), ("bits", (.int 32))])])), ("optional", (.bool true)), ("default", (.str "some_string"))])]))]) = true := by decide +kernel
example : toDictIs (.struct [(.union [(.null {}), (.string (.int 50) (.bool true) {}), (.int (.int 32) (.bool true) {})] { extra := [("default", .none)] })] {}) true true (.dict [("type", (.str "struct")), ("fields", (.list [(.dict [("type", (.str "union")), ("types", (.list [(.dict [("type", (.str "string")), ("bytes", (.int 50))]), (.str "int32")])), ("optional", (.bool true))])]))]) = true := by decide +kernel
example : toDictIs (.struct [(.union [(.null {}), (.int (.int 32) (.bool true) {})] {})] {}) true true (.dict [("type", (.str "struct")), ("fields", (.list [(.list [(.str "null"), (.str "int32")])]))]) = true := by decide +kernel
example : toDictIs (.struct [(.union [(.null {}), (.string (.int 50) (.bool true) {}), (.int (.int 32) (.bool true) {})] { alias := (.str "recap.build.TestUnion"), extra := [("default", .none)] })] {}) true true (.dict [("type", (.str "struct")), ("fields", (.list [(.dict [("type", (.str "union")), ("alias", (.str "recap.build.TestUnion")), ("types", (.list [(.dict [("type", (.str "string")), ("bytes", (.int 50))]), (.str "int32")])), ("optional", (.bool true))])]))]) = true := by decide +kernel
example : toDictIs (.struct [(.string (.int 10) (.bool true) { alias := (.str "build.recap.Phone"), extra := [("name", (.str "primary_phone"))] }), (.union [(.null {}), (.proxy .none { alias := (.str "build.recap.Phone") })] { extra := [("name", (.str "secondary_phone")), ("default", .none)] })] {}) true true (.dict [("type", (.str "struct")), ("fields", (.list [(.dict [("type", (.str "string")), ("bytes", (.int 10)), ("name", (.str "primary_phone")), ("alias", (.str "build.recap.Phone"))]), (.dict [("type", (.str "build.recap.Phone")), ("name", (.str "secondary_phone")), ("optional", (.bool true))])]))]) = true := by decide +kernel
example : toFrom (.null {}) false false = true := by decide +kernel
example : toFrom (.null {}) true false = true := by decide +kernel
example : toFrom (.bool {}) true false = true := by decide +kernel
example : toFrom (.int (.int 32) (.bool true) {}) false false = true := by decide +kernel
example : toFrom (.int (.int 32) (.bool true) {}) true false = true := by decide +kernel
example : toFrom (.int (.int 32) (.bool false) {}) true false = true := by decide +kernel
example : toFrom (.float (.int 32) {}) true false = true := by decide +kernel
example : toFrom (.string .none (.bool true) {}) true false = true := by decide +kernel
example : toFrom (.string (.int 50) (.bool true) {}) true false = true := by decide +kernel
example : toFrom (.bytes .none (.bool true) {}) true false = true := by decide +kernel
example : toFrom (.bytes (.int 50) (.bool true) {}) true false = true := by decide +kernel
example : toFrom (.enum (.list [(.str "foo"), (.str "bar")]) {}) true false = true := by decide +kernel
example : toFrom (.list (.int (.int 32) (.bool true) {}) .none (.bool true) {}) true false = true := by decide +kernel
example : toFrom (.list (.int (.int 32) (.bool true) {}) (.int 10) (.bool true) {}) true false = true := by decide +kernel
example : toFrom (.map (.int (.int 32) (.bool true) {}) (.string (.int 50) (.bool true) {}) {}) true false = true := by decide +kernel
example : toFrom (.union [(.int (.int 32) (.bool true) {}), (.string (.int 50) (.bool true) {})] {}) true false = true := by decide +kernel
example : toFrom (.struct [(.int (.int 32) (.bool true) {}), (.string (.int 50) (.bool true) {})] {}) true false = true := by decide +kernel
example : toFrom (.struct [(.union [(.null {}), (.int (.int 32) (.bool true) {}), (.string (.int 50) (.bool true) {})] { extra := [("default", .none)] })] {}) true false = true := by decide +kernel
example : toFrom (.struct [(.list (.map (.int (.int 32) (.bool true) {}) (.string (.int 50) (.bool true) {}) {}) .none (.bool true) {})] {}) true false = true := by decide +kernel
example : toFrom (.proxy .none { alias := (.str "test_proxy") }) true false = true := by decide +kernel
example : toFrom (.proxy .none { alias := (.str "test_proxy") }) true true = true := by decide +kernel
example : toFrom (.int (.int 32) (.bool true) {}) true false = true := by decide +kernel
example : toFrom (.bytes (.int 32) (.bool false) { logical := (.str "build.recap.Decimal"), extra := [("precision", (.int 56)), ("scale", (.int 28))] }) true false = true := by decide +kernel
example : toFrom (.struct [(.string (.int 10) (.bool false) { extra := [("name", (.str "foo")), ("default", (.str "bar"))] })] {}) true false = true := by decide +kernel
example : fromTo (.dict [("type", (.str "null")), ("alias", .none), ("doc", .none), ("logical", .none)]) false false = true := by decide +kernel
example : fromTo (.str "null") true false = true := by decide +kernel
example : fromTo (.str "bool") true false = true := by decide +kernel
example : fromTo (.dict [("type", (.str "int")), ("bits", (.int 32)), ("signed", (.bool true)), ("alias", .none), ("doc", .none), ("logical", .none)]) false false = true := by decide +kernel
example : fromTo (.dict [("type", (.str "int")), ("bits", (.int 32))]) true false = true := by decide +kernel
example : fromTo (.dict [("type", (.str "int")), ("bits", (.int 32)), ("signed", (.bool false))]) true false = true := by decide +kernel
example : fromTo (.dict [("type", (.str "float")), ("bits", (.int 32))]) true false = true := by decide +kernel
example : fromTo (.str "string") true false = true := by decide +kernel
example : fromTo (.dict [("type", (.str "string")), ("bytes", (.int 50))]) true false = true := by decide +kernel
example : fromTo (.str "bytes") true false = true := by decide +kernel
example : fromTo (.dict [("type", (.str "bytes")), ("bytes", (.int 50))]) true false = true := by decide +kernel
example : fromTo (.dict [("type", (.str "enum")), ("symbols", (.list [(.str "foo"), (.str "bar")]))]) true false = true := by decide +kernel
example : fromTo (.dict [("type", (.str "list")), ("values", (.dict [("type", (.str "int")), ("bits", (.int 32))]))]) true false = true := by decide +kernel
example : fromTo (.dict [("type", (.str "list")), ("values", (.dict [("type", (.str "int")), ("bits", (.int 32))])), ("length", (.int 10))]) true false = true := by decide +kernel
example : fromTo (.dict [("type", (.str "map")), ("keys", (.dict [("type", (.str "int")), ("bits", (.int 32))])), ("values", (.dict [("type", (.str "string")), ("bytes", (.int 50))]))]) true false = true := by decide +kernel
example : fromTo (.list [(.dict [("type", (.str "int")), ("bits", (.int 32))]), (.dict [("type", (.str "string")), ("bytes", (.int 50))])]) true false = true := by decide +kernel
example : fromTo (.dict [("type", (.str "struct")), ("fields", (.list [(.dict [("type", (.str "int")), ("bits", (.int 32))]), (.dict [("type", (.str "string")), ("bytes", (.int 50))])]))]) true false = true := by decide +kernel
example : fromTo (.dict [("type", (.str "struct")), ("fields", (.list [(.dict [("type", (.str "union")), ("types", (.list [(.dict [("type", (.str "int")), ("bits", (.int 32))]), (.dict [("type", (.str "string")), ("bytes", (.int 50))])])), ("optional", (.bool true))])]))]) true false = true := by decide +kernel
example : fromTo (.dict [("type", (.str "struct")), ("fields", (.list [(.dict [("type", (.str "list")), ("values", (.dict [("type", (.str "map")), ("keys", (.dict [("type", (.str "int")), ("bits", (.int 32))])), ("values", (.dict [("type", (.str "string")), ("bytes", (.int 50))]))]))])]))]) true false = true := by decide +kernel
example : fromTo (.str "test_proxy") true true = true := by decide +kernel
example : fromTo (.str "test_proxy") true false = true := by decide +kernel
example : fromTo (.str "int32") true true = true := by decide +kernel
example : fromTo (.str "int32") true false = true := by decide +kernel
example : fromTo (.str "decimal256") true true = true := by decide +kernel
example : fromTo (.str "decimal256") true false = true := by decide +kernel
example : fromTo (.dict [("type", (.str "struct")), ("fields", (.list [(.dict [("type", (.str "string")), ("bytes", (.int 10)), ("variable", (.bool false)), ("default", (.str "bar")), ("name", (.str "foo"))])]))]) true true = true := by decide +kernel
example : aliasOk "foo.bar.Baz" = true := by decide +kernel
example : aliasOk "foo.Baz" = true := by decide +kernel
example : aliasOk "foo123_.blah" = true := by decide +kernel
example : aliasOk "_foo.blah" = true := by decide +kernel
example : aliasOk "bar123___.___b123lah___43" = true := by decide +kernel
example : aliasOk "foo.bar.baz.blah" = true := by decide +kernel
example : aliasOk "foo" = false := by decide +kernel
example : aliasOk "123foo" = false := by decide +kernel
example : aliasOk "123.blah" = false := by decide +kernel
example : aliasOk "123blah.blah" = false := by decide +kernel
example : aliasOk "blah.123blah" = false := by decide +kernel
example : aliasOk ".blah" = false := by decide +kernel
example : aliasOk "blah." = false := by decide +kernel
example : aliasOk "foo..blah" = false := by decide +kernel
example : aliasOk "foo.blah." = false := by decide +kernel
example : specValid (.dict [("type", (.str "struct")), ("fields", (.list [(.dict [("type", (.str "enum")), ("alias", (.str "enum.alias")), ("symbols", (.list [(.str "A")]))]), (.dict [("type", (.str "enum.alias"))])]))]) = true := by decide +kernel
example : specValid (.dict [("type", (.str "bytes")), ("doc", (.str "doc")), ("alias", (.str "all.optional")), ("logical", (.str "logicalname")), ("variable", (.bool false)), ("bytes", (.int 1))]) = true := by decide +kernel
example : specValid (.dict [("type", (.str "bytes"))]) = true := by decide +kernel
example : specValid (.dict [("type", (.str "bytes")), ("bytes", (.int 9223372036854775807)), ("variable", (.bool true))]) = true := by decide +kernel
example : specValid (.dict [("type", (.str "bytes"))]) = true := by decide +kernel
example : specValid (.dict [("type", (.str "bytes")), ("variable", (.bool true))]) = true := by decide +kernel
example : specValid (.dict [("type", (.str "int")), ("logical", (.str "build.recap.Date")), ("bits", (.int 32)), ("unit", (.str "millisecond"))]) = true := by decide +kernel
example : specValid (.dict [("type", (.str "bytes")), ("logical", (.str "build.recap.Decimal")), ("precision", (.int 18)), ("scale", (.int 0))]) = true := by decide +kernel
example : specValid (.dict [("type", (.str "bytes")), ("logical", (.str "build.recap.Decimal")), ("bytes", (.int 32)), ("variable", (.bool false)), ("precision", (.int 18)), ("scale", (.int 0))]) = true := by decide +kernel
example : specValid (.dict [("type", (.str "enum")), ("doc", (.str "doc")), ("alias", (.str "enum.alias")), ("logical", (.str "logicalname")), ("symbols", (.list [(.str "A"), (.str "B"), (.str "C")]))]) = true := by decide +kernel
example : specValid (.dict [("type", (.str "enum")), ("symbols", (.list []))]) = true := by decide +kernel
example : specValid (.dict [("type", (.str "float")), ("doc", (.str "doc")), ("alias", (.str "all.optional")), ("logical", (.str "logicalname")), ("bits", (.int 1))]) = true := by decide +kernel
example : specValid (.dict [("type", (.str "float")), ("bits", (.int 10))]) = true := by decide +kernel
example : specValid (.dict [("type", (.str "float")), ("bits", (.int 2147483647))]) = true := by decide +kernel
example : specValid (.dict [("type", (.str "int")), ("doc", (.str "doc")), ("alias", (.str "all.optional")), ("logical", (.str "logicalname")), ("bits", (.int 1)), ("signed", (.bool false))]) = true := by decide +kernel
example : specValid (.dict [("type", (.str "int")), ("bits", (.int 10))]) = true := by decide +kernel
example : specValid (.dict [("type", (.str "int")), ("bits", (.int 2147483647)), ("signed", (.bool true))]) = true := by decide +kernel
example : specValid (.dict [("doc", (.str "doc")), ("alias", (.str "all.optional")), ("variable", (.bool false)), ("logical", (.str "logicalname")), ("length", (.int 1)), ("type", (.str "list")), ("values", (.dict [("type", (.str "string"))]))]) = true := by decide +kernel
example : specValid (.dict [("type", (.str "list")), ("values", (.dict [("type", (.str "int")), ("bits", (.int 16))]))]) = true := by decide +kernel
example : specValid (.dict [("type", (.str "list")), ("length", (.int 9223372036854775807)), ("variable", (.bool true)), ("values", (.dict [("type", (.str "float")), ("bits", (.int 16))]))]) = true := by decide +kernel
example : specValid (.dict [("type", (.str "map")), ("doc", (.str "doc")), ("alias", (.str "map.fqn")), ("logical", (.str "logicalname")), ("keys", (.dict [("type", (.str "string"))])), ("values", (.dict [("type", (.str "string"))]))]) = true := by decide +kernel
example : specValid (.dict [("type", (.str "map")), ("doc", (.str "doc")), ("keys", (.dict [("type", (.str "struct"))])), ("values", (.dict [("type", (.str "struct"))]))]) = true := by decide +kernel
example : specValid (.dict [("type", (.str "null")), ("doc", (.str "doc")), ("logical", (.str "logicalname")), ("alias", (.str "alias.null"))]) = true := by decide +kernel
example : specValid (.dict [("type", (.str "null"))]) = true := by decide +kernel
example : specValid (.dict [("type", (.str "string")), ("doc", (.str "doc")), ("alias", (.str "all.optional")), ("variable", (.bool false)), ("logical", (.str "logicalname")), ("bytes", (.int 1))]) = true := by decide +kernel
example : specValid (.dict [("type", (.str "string"))]) = true := by decide +kernel
example : specValid (.dict [("type", (.str "string")), ("bytes", (.int 9223372036854775807)), ("variable", (.bool true))]) = true := by decide +kernel
example : specValid (.dict [("type", (.str "string"))]) = true := by decide +kernel
example : specValid (.dict [("type", (.str "string")), ("variable", (.bool true))]) = true := by decide +kernel
example : specValid (.dict [("type", (.str "struct")), ("name", (.str "all.optional")), ("doc", (.str "doc")), ("alias", (.str "alias.struct")), ("logical", (.str "logicalname")), ("fields", (.list [(.dict [("type", (.str "string"))]), (.dict [("type", (.str "int")), ("bits", (.int 16))])]))]) = true := by decide +kernel
example : specValid (.dict [("type", (.str "struct"))]) = true := by decide +kernel
example : specValid (.dict [("type", (.str "union")), ("doc", (.str "doc")), ("alias", (.str "union.alias")), ("logical", (.str "logicalname")), ("types", (.list [(.dict [("type", (.str "null"))]), (.dict [("type", (.str "string"))])]))]) = true := by decide +kernel
example : specValid (.dict [("type", (.str "union")), ("types", (.list [(.dict [("type", (.str "string"))])]))]) = true := by decide +kernel
example : specValid (.dict [("type", (.str "union")), ("types", (.list []))]) = true := by decide +kernel
example : specValid (.dict [("type", (.str "string")), ("logical", (.str "build.recap.UUID")), ("variable", (.bool false)), ("bytes", (.int 36))]) = true := by decide +kernel
example : specValid (.dict [("type", (.str "string")), ("logical", (.str "build.recap.UUID")), ("variable", (.bool false)), ("bytes", (.int 256))]) = true := by decide +kernel

end Recap.Conform
