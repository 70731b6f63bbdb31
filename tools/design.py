#!/usr/bin/env python3
"""Write the table of results in DESIGN.md from MANIFEST.json and the Props modules."""
import glob, json, os, re
root = os.path.dirname(os.path.dirname(os.path.abspath(__file__)))
where = {}
for f in sorted(glob.glob(root + "/lean/Verif/Props/*.lean")):
    for m in re.finditer(r"^theorem (C\d+)[a-z]?_", open(f).read(), re.M):
        where.setdefault(m.group(1), set()).add(os.path.basename(f)[:-5])
titles = {json.loads(l)["id"]: json.loads(l)["title"] for l in open(root + "/properties.jsonl")}
rows = ["## Results", "", "| Id | Property | Status | Theorems in Props/ | Note |", "|---|---|---|---|---|"]
for c in json.load(open(root + "/MANIFEST.json"))["claims"]:
    i = c["property"]
    rows.append(f"| {i} | {titles[i]} | {c['status']} | {', '.join(sorted(where.get(i, [])))} ({len(c['theorems'])}) | {c['note']} |")
p = root + "/DESIGN.md"
s = open(p).read()
a = s.index("<!-- results: tools/design.py -->"); b = s.index("<!-- end results -->")
open(p, "w").write(s[:a] + "<!-- results: tools/design.py -->\n" + "\n".join(rows) + "\n" + s[b:])
