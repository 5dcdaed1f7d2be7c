#!/usr/bin/env python3
"""Check the citations of /repo in the model: every cited file exists, every range lies in the file and
begins and ends on a line of code.  Prints one line for each citation that does not."""
import re, sys, glob, os

REPO = os.environ.get("REPO", "/repo/wite")
LEAN = os.path.join(os.path.dirname(os.path.abspath(__file__)), "..", "lean", "Verif")
files = {}
for p in glob.glob(REPO + "/**/*.hpp", recursive=True):
    files[os.path.relpath(p, REPO)] = open(p).read().split("\n")

def resolve(name):
    m = [f for f in files if f == name or f.endswith("/" + name)]
    return m[0] if len(m) == 1 else (name if name in files else None)

def blank(l):
    l = l.strip()
    return l == "" or set(l) == {"/"}

CITE = re.compile(r"([\w/]+\.hpp):((?:\s*\d+(?:-\d+)?(?:\s*(?:,|and|,\s*and)\s*(?=\d))?)+)")
bad = total = 0
for p in sorted(glob.glob(LEAN + "/Model/*.lean") + glob.glob(LEAN + "/Spec/*.lean")):
    text = open(p).read()
    for m in CITE.finditer(text):
        line = text.count("\n", 0, m.start()) + 1
        where = f"{os.path.relpath(p, LEAN)}:{line}"
        f = resolve(m.group(1))
        if f is None:
            bad += 1; print(where, "no such file or ambiguous:", m.group(1)); continue
        src = files[f]
        for a, b in re.findall(r"(\d+)(?:-(\d+))?", m.group(2)):
            total += 1
            a = int(a); b = int(b or a)
            if not (1 <= a <= b <= len(src)):
                bad += 1; print(where, f"{f}:{a}-{b} outside the file")
            elif blank(src[a - 1]) or blank(src[b - 1]):
                bad += 1; print(where, f"{f}:{a}-{b}", "first:", repr(src[a-1][:50]), "last:", repr(src[b-1][:50]))
print(f"{total} citations, {bad} to look at")
sys.exit(bad > 0)
