"""Writes /verif/MANIFEST.json and checks that every theorem it names exists.
Run: python3 tools/manifest.py"""
import json, os, re, glob

ROOT = os.path.dirname(os.path.dirname(os.path.abspath(__file__)))
found = {}
for f in sorted(glob.glob(ROOT + "/lean/Verif/*.lean")):
    scope = []
    for m in re.finditer(r"^(?:namespace (\S+)|end (\S+)|theorem (C\d\d+_\w+))", open(f).read(), re.M):
        if m.group(1):
            scope.append(m.group(1))
        elif m.group(2):
            if scope and scope[-1] == m.group(2):
                scope.pop()
        else:
            found.setdefault(m.group(3).split("_")[0], []).append(".".join(scope + [m.group(3)]))

NOTES = {}
exec(open(ROOT + "/tools/notes.py").read())

props = [json.loads(l)["id"] for l in open(ROOT + "/properties.jsonl")]
claims = []
for pid in props:
    ths = found.get(pid, [])
    status, note = NOTES.get(pid, (None, ""))
    if status is None:
        if not ths:
            continue
        weak = any(t.endswith("_partial") or t.endswith("_refuted") for t in ths)
        status = "partial" if weak else "proved"
    claims.append(dict(property=pid, status=status, theorems=ths, note=note))
unknown = set(found) - set(props)
assert not unknown, unknown
json.dump(dict(claims=claims), open(ROOT + "/MANIFEST.json", "w"), indent=1, ensure_ascii=False)
print(len(claims), "claims;", {s: sum(c["status"] == s for c in claims) for s in ("proved", "partial", "not_applicable")})
print("uncovered:", [p for p in props if p not in [c["property"] for c in claims]])
with open("/tmp/axioms.lean", "w") as f:
    f.write("import Verif\n")
    for c in claims:
        for t in c["theorems"]:
            f.write(f"#print axioms {t}\n")
