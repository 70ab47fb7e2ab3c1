"""Tests the theorems against wrong programs.

Each entry of tools/mutants/*.py is dict(file, old, new, breaks, claim).  The edit is applied to a scratch copy of
lean/ outside this repository and the copy is rebuilt.  A declaration that no longer checks is cut out of the scratch
copy (its proof is replaced by a hole), so that the modules after it are still checked; a property theorem counts as
failed if it does not check or rests on something that does not.
With QUICK=1 in the environment the rebuild stops as soon as a property theorem has failed, so that the list of failed
theorems is not complete (the log says so).
With TARGETS="AvroDataThms ..." only these modules and what they import are rebuilt and only their theorems are looked
at (the log names them); MUTDIR is the scratch directory, so that two runs can go on at the same time.
Run: python3 tools/mutate.py tools/mutants/types.py [index ...]; appends one line per mutant to seeded/LOG.jsonl.
"""
import json, os, re, shutil, subprocess, sys

ROOT = os.path.dirname(os.path.dirname(os.path.abspath(__file__)))
DIR = os.environ.get("MUTDIR", "/tmp/mut")
WORK = DIR + "/lean"
TARGETS = os.environ.get("TARGETS", "").split()
QUICK = os.environ.get("QUICK") == "1"
HOLE = "sor" + "ry"

START = re.compile(r"^(?:@\[[^\]]*\]\s*)?(?:private |protected )?(theorem|example|def|instance|abbrev|inductive|structure|mutual|end|namespace|open|/--|/-!|section|variable)\b|^/-[-!]|^end\b|^mutual\b")

BASE = DIR + "/base"
assert os.path.exists("/tmp/axioms.lean"), "run tools/manifest.py first"

def snapshot():
    os.makedirs(DIR, exist_ok=True)
    shutil.rmtree(BASE, ignore_errors=True)
    shutil.copytree(ROOT + "/lean", BASE, symlinks=True)
    # the sources of the last commit, whatever is being edited
    shutil.rmtree(BASE + "/Verif")
    subprocess.run(f"git -C {ROOT} archive HEAD lean | tar -x --strip-components=1 -C {BASE}", shell=True, check=True)

def sync():
    shutil.rmtree(WORK, ignore_errors=True)
    shutil.copytree(BASE, WORK, symlinks=True)

DECL = re.compile(r"(?:@\[[^\]]*\]\s*)?(?:private |protected )?(theorem|example|def|instance|abbrev|inductive|structure)\b")

def block(lines, n):
    i = n
    while i >= 0 and not DECL.match(lines[i]):  # in a doc comment: go to the declaration below
        if lines[i].startswith("/--"):
            if not any("-/" in l for l in lines[i:n]):
                while not DECL.match(lines[n]):
                    n += 1
            break
        i -= 1
    i = n
    while i > 0 and not re.match(r"(?:@\[[^\]]*\]\s*)?(?:private |protected )?(theorem|example|def|instance|abbrev|inductive|structure)\b", lines[i]):
        i -= 1
    j = i + 1
    while j < len(lines) and not START.match(lines[j]):
        j += 1
    return i, j

def cut(path, n):
    lines = open(path).read().split("\n")
    i, j = block(lines, n)
    text = "\n".join(lines[i:j])
    m = re.match(r"(?:@\[[^\]]*\]\s*)?(?:private |protected )?(\w+)\s*(\S*)", text)
    kind, name = m.group(1), m.group(2)
    if kind == "example":
        lines[i:j] = ["example : True := trivial"] + [""] * (j - i - 1)
        open(path, "w").write("\n".join(lines))
        return "example"
    if kind != "theorem":
        return None
    if re.search(r":= " + HOLE + r"\s*$", text):
        return None
    # the proof starts at the first `:= by`, `:=` at a line end, `:= term` or pattern clause outside brackets
    depth, pos = 0, None
    for k, c in enumerate(text):
        if c in "([{⟨":
            depth += 1
        elif c in ")]}⟩":
            depth -= 1
        elif depth == 0 and text.startswith(":=", k):
            pos = k; break
        elif depth == 0 and text.startswith("\n  | ", k):
            pos = k; break
    if pos is None:
        return None
    new = text[:pos].rstrip() + " := " + HOLE
    k = new.count("\n") + 1
    lines[i:j] = new.split("\n") + [""] * (j - i - k)
    open(path, "w").write("\n".join(lines))
    return name

def run(m):
    sync()
    path = f"{WORK}/Verif/{m['file']}"
    s = open(path).read()
    assert s.count(m["old"]) == m.get("count", 1), (m["file"], m["old"], s.count(m["old"]))
    s = s.replace(m["old"], m["new"])
    open(path, "w").write(s)
    failed, examples, prev = [], 0, None
    for _ in range(80):
        r = subprocess.run(["lake", "build"] + ["Verif." + t for t in TARGETS], cwd=WORK, capture_output=True, text=True)
        out = r.stdout + r.stderr
        errs = sorted(set((f, int(l)) for f, l in re.findall(r"error: (?:\./)?(Verif/\S+?\.lean):(\d+):\d+", out)), reverse=True)
        if not errs:
            if r.returncode != 0:
                print(out[-3000:])
                return None, None
            break
        done = set()
        for f, l in errs:
            p = f"{WORK}/{f}"
            lines = open(p).read().split("\n")
            key = (f, block(lines, l - 1)[0])
            if key in done:
                continue
            done.add(key)
            name = cut(p, l - 1)
            if name is None:
                print("cannot cut", f, l, lines[l-1]); print(out[:3000])
                return None, None
            if name == "example":
                examples += 1
            else:
                failed.append(name)
        if QUICK and any(re.match(r"C\d", f) for f in failed):
            break
    if TARGETS:
        with open(WORK + "/axioms_.lean", "w") as g:
            g.write("".join(f"import Verif.{t}\n" for t in TARGETS))
            for t in TARGETS:
                text = open(f"{WORK}/Verif/{t}.lean").read()
                space = re.search(r"^namespace (\S+)", text, re.M).group(1)
                g.write("".join(f"#print axioms {space}.{n}\n" for n in re.findall(r"^theorem (C\d+_\w+)", text, re.M)))
    else:
        subprocess.run(["cp", "/tmp/axioms.lean", WORK + "/axioms_.lean"])
    direct = [f for f in failed if re.match(r"C\d", f)]
    if QUICK and direct:
        return dict(direct=direct, through_lemmas=[], lemmas=[f for f in failed if f not in direct], examples=examples), None
    r = subprocess.run(["lake", "env", "lean", "axioms_.lean"], cwd=WORK, capture_output=True, text=True)
    dep = re.findall(r"'Recap\.(?:\w+\.)*(C\d+_\w+)' depends on axioms: \[[^\]]*" + HOLE + "Ax", r.stdout + r.stderr)
    return dict(direct=direct, through_lemmas=sorted(set(dep) - set(direct)), lemmas=[f for f in failed if f not in direct],
                examples=examples), None

if __name__ == "__main__":
    snapshot()
    ns = {}
    exec(open(sys.argv[1]).read(), ns)
    ms = ns["MUTANTS"]
    idx = [int(x) for x in sys.argv[2:]] or range(len(ms))
    for i in idx:
        m = ms[i]
        res, _ = run(m)
        rec = dict(definition=m["definition"], edit=f"{m['old'].strip()}  ==>  {m['new'].strip()}", breaks=m["breaks"],
                   failed=None if res is None else res["direct"] + res["through_lemmas"],
                   failed_directly=None if res is None else res["direct"],
                   failed_helper_lemmas=None if res is None else res["lemmas"],
                   failed_examples=None if res is None else res["examples"], tightened=m.get("tightened", []))
        if QUICK and res is not None and res["direct"]:
            rec["complete"] = False
        if TARGETS:
            rec["modules"] = TARGETS
        print(i, json.dumps(rec, ensure_ascii=False), flush=True)
        if res is not None:
            with open(ROOT + "/seeded/LOG.jsonl", "a") as f:
                f.write(json.dumps(rec, ensure_ascii=False) + "\n")
