#!/usr/bin/env python3
"""Regenerate MANIFEST.json and lean/Verif/Audit.lean from the theorem names in
lean/Verif/Props.  A theorem named cNN_... belongs to property CNN."""
import json, os, re, glob
root = os.path.dirname(os.path.dirname(os.path.abspath(__file__)))
notes = {}
np = os.path.join(root, "tools", "notes.json")
if os.path.exists(np):
    notes = json.load(open(np))
props = [json.loads(l) for l in open(os.path.join(root, "properties.jsonl")) if l.strip()]
thms, mods = {}, []
for f in sorted(glob.glob(os.path.join(root, "lean/Verif/Props/*.lean"))):
    src = open(f).read()
    mods.append("Verif.Props." + os.path.basename(f)[:-5])
    ns = re.findall(r"^namespace (\S+)", src, re.M)[0]
    for m in re.finditer(r"^(?:private )?theorem (c(\d+)_\w+)", src, re.M):
        thms.setdefault("C" + m.group(2), []).append(ns + "." + m.group(1))
claims = []
for p in props:
    ts = thms.get(p["id"], [])
    if not ts:
        continue
    partial = any(t.endswith("_partial") or "_refuted" in t for t in ts)
    claims.append({"property": p["id"], "status": "partial" if partial else "proved",
                   "theorems": ts, "note": notes.get(p["id"], "")})
json.dump({"claims": claims}, open(os.path.join(root, "MANIFEST.json"), "w"), indent=1, ensure_ascii=False)
with open(os.path.join(root, "lean/Verif/Audit.lean"), "w") as out:
    for m in mods:
        out.write(f"import {m}\n")
    out.write("\n/-!\n# Axioms of every property theorem\n\nGenerated by tools/gen.py; building this file prints the axioms each theorem depends on.\n-/\n\n")
    for k in sorted(thms, key=lambda s: int(s[1:])):
        for t in thms[k]:
            out.write(f"#print axioms {t}\n")
open(os.path.join(root, "lean/Verif.lean"), "w").write("".join(f"import {m}\n" for m in mods) + "import Verif.Audit\n")
missing = [p["id"] for p in props if p["id"] not in thms]
print(len(claims), "claims;", sum(len(c["theorems"]) for c in claims), "theorems; missing:", " ".join(missing))
nonote = [c["property"] for c in claims if c["status"] == "partial" and not c["note"]]
print("partial without note:", " ".join(nonote))
# section 6 of DESIGN.md: where the code does not do what a user would expect
dp = os.path.join(root, "DESIGN.md")
head = open(dp).read().split("## 6. Findings")[0]
titles = {p["id"]: p["title"] for p in props}
with open(dp, "w") as out:
    out.write(head + "## 6. Findings\n\nThe properties that do not hold of the code in full, with what fails and what is\nproved instead.  Every `refuted` theorem has a concrete witness.  Generated by\n`tools/gen.py` from `tools/notes.json`.\n\n")
    for c in claims:
        if c["status"] == "partial":
            out.write(f"* **{c['property']}, {titles[c['property']]}.** {c['note']}\n")
