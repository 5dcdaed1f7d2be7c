#!/usr/bin/env python3
"""Lists the lines of code in /repo/wite that no definition of the model cites."""
import re, os, glob, collections
R = "/repo/wite"
headers = {os.path.relpath(p, R): open(p).read().split("\n") for p in glob.glob(R + "/**/*.hpp", recursive=True)}
cited = collections.defaultdict(set)
for p in glob.glob("/verif/lean/Verif/Model/*.lean") + glob.glob("/verif/lean/Verif/Spec/*.lean"):
    t = open(p).read()
    for m in re.finditer(r"([a-z_/]+\.hpp)`?:?\s*(?:lines? )?((?:\d+(?:\s*[-–]\s*\d+)?(?:\s*(?:,|and)\s*)?)+)", t):
        name = m.group(1)
        hits = [name] if name in headers else [h for h in headers if h.endswith("/" + name) or name.endswith("/" + h)]
        if len(hits) != 1: print("??", p, name, hits); continue
        for a, b in re.findall(r"(\d+)(?:\s*[-–]\s*(\d+))?", m.group(2)):
            if b and int(b) < int(a): print("??", p, m.group(0))
            for i in range(int(a), int(b or a) + 1): cited[hits[0]].add(i)
for h in sorted(headers):
    miss = []
    for i, x in enumerate(headers[h], 1):
        s = x.strip()
        if not s or s.startswith(("//", "#", "*", "/*", "template", "namespace", "public:", "private:", "using")) or s in ("}", "};", "{", "});") or i in cited[h]: continue
        miss.append((i, x))
    print("=====", h, len(headers[h]), "uncited:", len(miss))
    for i, x in miss: print(f"{i:5} {x}")
