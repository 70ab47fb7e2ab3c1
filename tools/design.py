"""Writes the generated sections of DESIGN.md: the disagreements, from MANIFEST.json, and the axioms that each
theorem depends on, from Lean.  Run after tools/manifest.py and lake build: python3 tools/design.py"""
import json, os, re, subprocess

ROOT = os.path.dirname(os.path.dirname(os.path.abspath(__file__)))
claims = json.load(open(ROOT + "/MANIFEST.json"))["claims"]

lines = []
for c in claims:
    refuted = [t.split(".")[-1] for t in c["theorems"] if t.endswith("_refuted")]
    if refuted:
        note = re.split(r" Proved|$", c["note"])[0].strip() or "False of the code in general."
        lines.append(f"* {c['property']}: {note} — " + ", ".join(f"`{t}`" for t in refuted))
disagreements = "\n".join(lines)

out = subprocess.run(["lake", "env", "lean", "/tmp/axioms.lean"], cwd=ROOT + "/lean", capture_output=True, text=True).stdout
groups = {}
for name, _, axs in re.findall(r"'([^']+)' (does not depend on any axioms|depends on axioms: \[([^\]]*)\])", out):
    groups.setdefault(", ".join(f"`{a.strip()}`" for a in axs.split(",")) if axs else "none", []).append(name.split(".")[-1])
assert sum(map(len, groups.values())) == sum(len(c["theorems"]) for c in claims)
axioms = "\n\n".join(f"Axioms: {k}\n\n" + ", ".join(f"`{t}`" for t in v) for k, v in groups.items())

s = open(ROOT + "/DESIGN.md").read()
for key, text in (("disagreements", disagreements), ("axioms", axioms)):
    s = re.sub(rf"<!-- {key} -->.*?<!-- end -->", lambda _: f"<!-- {key} -->\n\n{text}\n\n<!-- end -->", s, flags=re.S)
open(ROOT + "/DESIGN.md", "w").write(s)
