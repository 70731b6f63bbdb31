#!/usr/bin/env python3
"""Write AXIOMS.md: the axioms each theorem of MANIFEST.json depends on (needs a built project)."""
import json, os, re, subprocess, tempfile
root = os.path.dirname(os.path.dirname(os.path.abspath(__file__)))
names = [t for c in json.load(open(root + "/MANIFEST.json"))["claims"] for t in c["theorems"]]
src = "import Verif\n" + "".join(f"#print axioms {n}\n" for n in names)
with tempfile.NamedTemporaryFile("w", suffix=".lean", delete=False) as f:
    f.write(src)
out = subprocess.run(["lake", "env", "lean", f.name], cwd=root + "/lean", capture_output=True, text=True).stdout
os.unlink(f.name)
res = dict(re.findall(r"'([^']+)' depends on axioms: \[([^\]]*)\]", out))
res.update({n: "none" for n in re.findall(r"'([^']+)' does not depend on any axioms", out)})
missing = [n for n in names if n not in res]
assert not missing, missing
groups = {}
for n in names:
    groups.setdefault(", ".join(sorted(re.split(r",\s*", res[n].strip()))), []).append(n)
with open(root + "/AXIOMS.md", "w") as f:
    f.write("# Axioms of the theorems in MANIFEST.json\n\nOutput of `#print axioms`, by tools/axioms.py.\n")
    for k in sorted(groups, key=len):
        f.write(f"\n## {k} ({len(groups[k])})\n\n" + "\n".join(f"* {n}" for n in groups[k]) + "\n")
print({k: len(v) for k, v in groups.items()})
