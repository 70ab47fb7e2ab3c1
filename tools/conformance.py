"""Transcribes test tables of /repo/tests (read as text, never run) into Lean examples.
Run: python3 tools/conformance.py > lean/Verif/ConformTypes.lean"""
import ast, json, glob, sys

def lstr(s):
    out = '"'
    for c in s:
        if c == '"': out += '\\"'
        elif c == '\\': out += '\\\\'
        elif c == '\n': out += '\\n'
        elif c == '\t': out += '\\t'
        else: out += c
    return out + '"'

def val(v):
    """Python literal -> PyVal"""
    if v is None: return ".none"
    if v is True: return "(.bool true)"
    if v is False: return "(.bool false)"
    if isinstance(v, int): return f"(.int {v})" if v >= 0 else f"(.int ({v}))"
    if isinstance(v, str): return f"(.str {lstr(v)})"
    if isinstance(v, (list, tuple)): return "(.list [" + ", ".join(val(x) for x in v) + "])"
    if isinstance(v, dict): return "(.dict " + dct(v) + ")"
    raise ValueError(repr(v))

def dct(d):
    return "[" + ", ".join(f"({lstr(k)}, {val(v)})" for k, v in d.items()) + "]"

PARAMS = {"NullType": [], "BoolType": [], "IntType": ["bits", "signed"], "FloatType": ["bits"],
          "StringType": ["bytes_", "variable"], "BytesType": ["bytes_", "variable"],
          "ListType": ["values", "length", "variable"], "MapType": ["keys", "values"],
          "StructType": ["fields"], "EnumType": ["symbols"], "UnionType": ["types"],
          "ProxyType": ["alias", "registry"]}
DEFAULTS = {"signed": True, "bytes_": None, "variable": True, "length": None}

def lit(n):
    return ast.literal_eval(n)

def rtype(n):
    """AST of a constructor call -> RType"""
    assert isinstance(n, ast.Call), ast.dump(n)
    c = n.func.id
    args = dict(zip(PARAMS[c], n.args))
    for k in n.keywords:
        args[k.arg] = k.value
    com, extra, own = {}, {}, {}
    for k, v in args.items():
        if k in PARAMS[c]: own[k] = v
        elif k in ("logical", "alias", "doc"): com[k] = lit(v)
        else: extra[k] = lit(v)
    if c == "ProxyType":
        com["alias"] = lit(own["alias"])
    a = "{ " + ", ".join([f"{k} := {val(v)}" for k, v in com.items()] +
                         ([f"extra := {dct(extra)}"] if extra else [])) + " }"
    if a == "{  }": a = "{}"
    def g(k):
        return val(lit(own[k]) if k in own else DEFAULTS[k])
    def ts(k):
        return "[" + ", ".join(rtype(x) for x in own[k].elts) + "]" if k in own else "[]"
    if c == "NullType": return f"(.null {a})"
    if c == "BoolType": return f"(.bool {a})"
    if c == "IntType": return f"(.int {g('bits')} {g('signed')} {a})"
    if c == "FloatType": return f"(.float {g('bits')} {a})"
    if c == "StringType": return f"(.string {g('bytes_')} {g('variable')} {a})"
    if c == "BytesType": return f"(.bytes {g('bytes_')} {g('variable')} {a})"
    if c == "ListType": return f"(.list {rtype(own['values'])} {g('length')} {g('variable')} {a})"
    if c == "MapType": return f"(.map {rtype(own['keys'])} {rtype(own['values'])} {a})"
    if c == "StructType": return f"(.struct {ts('fields')} {a})"
    if c == "EnumType": return f"(.enum {val(lit(own['symbols']))} {a})"
    if c == "UnionType": return f"(.union {ts('types')} {a})"
    if c == "ProxyType": return f"(.proxy .none {a})"

def table(tree, fn):
    for n in ast.walk(tree):
        if isinstance(n, ast.FunctionDef) and n.name == fn:
            return n.decorator_list[0].args[1].elts

B = lambda b: "true" if b else "false"

def types():
    src = open("/repo/tests/unit/test_types.py").read()
    tree = ast.parse(src)
    print("import Verif.Types\n")
    print("/-! Generated by tools/conformance.py from /repo/tests/unit/test_types.py and /repo/tests/spec.")
    print("These are tests of the model against the expectations of the project's own test suite,")
    print("not properties. -/\n")
    print("namespace Recap.Conform\n")
    print("""def toDictIs (t : RType) (clean alias : Bool) (v : PyVal) : Bool :=
  match toDict clean alias t with
  | .ok w => PyVal.pyEq w v
  | .error _ => false

def parseIs (v : PyVal) (t : RType) : Bool :=
  match parse v with
  | .ok u => RType.pyEq u t
  | .error _ => false

def toFrom (t : RType) (clean alias : Bool) : Bool :=
  match toDict clean alias t with
  | .ok w => parseIs w t
  | .error _ => false

def fromTo (v : PyVal) (clean alias : Bool) : Bool :=
  match parse v with
  | .ok t => toDictIs t clean alias v
  | .error _ => false

mutual
/-- `check_aliases` of tests/spec/test_json_schema_spec.py. -/
def checkAliases (reg : Registry) : RType → Bool
  | .proxy _ a => match a.alias with
    | .str s => (reg.find? s).isSome
    | _ => false
  | .struct fs _ => checkAll reg fs
  | .union ts _ => checkAll reg ts
  | .list t _ _ _ => checkAliases reg t
  | .map k v _ => checkAliases reg k && checkAliases reg v
  | _ => true
def checkAll (reg : Registry) : List RType → Bool
  | [] => true
  | t :: ts => checkAliases reg t && checkAll reg ts
end

def specValid (v : PyVal) : Bool :=
  match cleanDict v with
  | .error _ => false
  | .ok w => match fromDict w newRegistry with
    | .error _ => false
    | .ok (t, reg) => checkAliases reg t
""")
    for e in table(tree, "test_to_dict"):
        t, v, c, a = e.elts
        print(f"example : toDictIs {rtype(t)} {B(lit(c))} {B(lit(a))} {val(lit(v))} = true := by decide +kernel")
    for e in table(tree, "test_to_from_dict"):
        t, c, a = e.elts
        print(f"example : toFrom {rtype(t)} {B(lit(c))} {B(lit(a))} = true := by decide +kernel")
    for e in table(tree, "test_from_to_dict"):
        t, c, a = e.elts
        print(f"example : fromTo {val(lit(t))} {B(lit(c))} {B(lit(a))} = true := by decide +kernel")
    for e in table(tree, "test_alias_regex"):
        t, x = e.elts
        print(f"example : aliasOk {lstr(lit(t))} = {B(lit(x))} := by decide +kernel")
    for f in sorted(glob.glob("/repo/tests/spec/valid/*.json")):
        for s in json.load(open(f)):
            print(f"example : specValid {val(s)} = true := by decide +kernel")
    print("\nend Recap.Conform")

if __name__ == "__main__":
    types()
