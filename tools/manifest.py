#!/usr/bin/env python3
"""Regenerate MANIFEST.json from the theorems named Cxx_... in lean/Verif/Props.

Status and notes per property are in tools/status.json."""
import glob, json, os, re
root = os.path.dirname(os.path.dirname(os.path.abspath(__file__)))
thms = {}
for f in sorted(glob.glob(root + "/lean/Verif/Props/**/*.lean", recursive=True)):
    for m in re.finditer(r"^(?:private )?theorem (C\d+[a-z]?)_(\S+)", open(f).read(), re.M):
        thms.setdefault(re.sub(r"[a-z]$", "", m.group(1)), []).append("Kp." + m.group(1) + "_" + m.group(2))
status = json.load(open(root + "/tools/status.json"))
claims = []
for line in open(root + "/properties.jsonl"):
    pid = json.loads(line)["id"]
    if pid not in thms:
        st = status.get(pid, {})
        claims.append({"property": pid, "status": st.get("status", "partial") if st.get("status") == "not_applicable" else "partial",
                       "theorems": [], "note": st.get("note", "Not modelled yet.")})
        continue
    st = status.get(pid, {})
    claims.append({"property": pid, "status": st.get("status", "partial"), "theorems": thms[pid], "note": st.get("note", "")})
json.dump({"claims": claims}, open(root + "/MANIFEST.json", "w"), indent=1, ensure_ascii=False)
print({s: sum(c["status"] == s and bool(c["theorems"]) for c in claims) for s in ("proved", "partial", "not_applicable")},
      "without theorems:", [c["property"] for c in claims if not c["theorems"]])
