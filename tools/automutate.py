"""Screens the theorems against small random edits of the model.

Each definition of the given model files is edited in up to N ways (a literal, a comparison, a condition, an error, a
Boolean).  The edit is applied to a scratch copy of lean/ outside this repository, which is rebuilt until the first
declaration that does not check.  Edits that are no program (the definition itself does not check) are dropped.  An
edit after which everything checks is a survivor, to be looked at by hand.
Run: MUTDIR=/tmp/am python3 tools/automutate.py N seed Avro.lean Types.lean ...; prints one JSON line per edit.
"""
import json, os, random, re, shutil, subprocess, sys

ROOT = os.path.dirname(os.path.dirname(os.path.abspath(__file__)))
DIR = os.environ.get("MUTDIR", "/tmp/am")
WORK, BASE = DIR + "/lean", DIR + "/base"

def snapshot():
    os.makedirs(DIR, exist_ok=True)
    shutil.rmtree(BASE, ignore_errors=True)
    shutil.copytree(ROOT + "/lean", BASE, symlinks=True)
    shutil.rmtree(BASE + "/Verif")
    subprocess.run(f"git -C {ROOT} archive HEAD lean | tar -x --strip-components=1 -C {BASE}", shell=True, check=True)

def defs(text):
    lines = text.split("\n")
    starts = [i for i, l in enumerate(lines) if re.match(r"(def|abbrev) ", l)]
    for i in starts:
        j = i + 1
        while j < len(lines) and not re.match(r"(def|abbrev|theorem|example|structure|inductive|namespace|end|mutual|instance|open|/-|@\[|section|variable|set_option)", lines[j]):
            j += 1
        name = re.match(r"(?:def|abbrev) (\S+)", lines[i]).group(1)
        yield name, i, j, "\n".join(lines[i:j])

OPS = [
    (r'"[^"\n]*"', lambda m: m[:-1] + 'x"'),
    (r"(?<![\w.])\d+(?![\w.])", lambda m: str(int(m) + 1)),
    (r" ≤ ", lambda m: " < "), (r" < ", lambda m: " ≤ "),
    (r" && ", lambda m: " || "), (r" \|\| ", lambda m: " && "),
    (r" ∧ ", lambda m: " ∨ "), (r" ∨ ", lambda m: " ∧ "),
    (r" == ", lambda m: " != "), (r" != ", lambda m: " == "), (r" ≠ ", lambda m: " = "),
    (r"\bif ([^\n]*?) then", lambda m: "if ¬ (" + m[3:-5] + ") then"),
    (r"\.bool true", lambda m: ".bool false"), (r"\.bool false", lambda m: ".bool true"),
    (r"\.valueError", lambda m: ".keyError"), (r"\.typeError", lambda m: ".valueError"),
    (r" \+\+ [\w.]+", lambda m: ""), (r" \+ 1", lambda m: " + 2"), (r" - 1", lambda m: ""),
    (r"\.reverse", lambda m: ""),
    (r"\.none", lambda m: ".bool true"),
]

def edits(body, rng, n):
    head = body.find(":=")
    head = 0 if head < 0 else head
    k = body.find("\n  |")
    if 0 <= k < head or body.find(":=") < 0:
        head = max(k, 0)
    found = []
    for pat, f in OPS:
        for m in re.finditer(pat, body):
            if m.start() < head:
                continue
            line = body[body.rfind("\n", 0, m.start()) + 1:m.start()]
            if "--" in line:
                continue
            new = body[:m.start()] + f(m.group(0)) + body[m.end():]
            if new != body:
                found.append((m.group(0), f(m.group(0)), new, line.strip()))
    rng.shuffle(found)
    return found[:n]

def build(file, lo, hi):
    p = subprocess.Popen(["lake", "build"], cwd=WORK, stdout=subprocess.PIPE, stderr=subprocess.STDOUT, text=True)
    first = None
    try:
        for line in p.stdout:
            m = re.search(r"error: (?:\./)?(Verif/\S+?\.lean):(\d+):\d+", line)
            if m:
                f, l = m.group(1), int(m.group(2))
                if f == "Verif/" + file and lo < l <= hi:
                    first = ("invalid", f, l)
                elif first is None:
                    first = ("killed", f, l)
                break
    finally:
        subprocess.run(["pkill", "-P", str(p.pid)])
        p.kill()
        p.wait()
    return first

def declaration(f, l):
    lines = open(f"{WORK}/{f}").read().split("\n")
    i = l - 1
    while i > 0 and not re.match(r"(?:@\[[^\]]*\]\s*)?(?:private |protected )?(theorem|example|def|instance|abbrev|inductive|structure)\b", lines[i]):
        i -= 1
    return " ".join(lines[i].split()[:2])

if __name__ == "__main__":
    snapshot()
    n, rng = int(sys.argv[1]), random.Random(int(sys.argv[2]))
    shutil.rmtree(WORK, ignore_errors=True)
    shutil.copytree(BASE, WORK, symlinks=True)
    for file in sys.argv[3:]:
        text = open(f"{BASE}/Verif/{file}").read()
        for name, i, j, body in list(defs(text)):
            for old, new, changed, line in edits(body, rng, n):
                lines = text.split("\n")
                lines[i:j] = changed.split("\n")
                open(f"{WORK}/Verif/{file}", "w").write("\n".join(lines))
                r = build(file, i, j)
                status = r[0] if r else "survived"
                if status == "invalid":
                    continue
                where = f"{r[1]}:{declaration(r[1], r[2])}" if r else ""
                print(json.dumps(dict(file=file, definition=name, old=old, new=new, line=line, status=status, by=where), ensure_ascii=False), flush=True)
        shutil.rmtree(WORK, ignore_errors=True)
        shutil.copytree(BASE, WORK, symlinks=True)
