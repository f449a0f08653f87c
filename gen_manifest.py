#!/usr/bin/env python3
"""Writes MANIFEST.json from the theorem names in lean/Verif/Props and the notes below."""
import glob, json, re, os

HERE = os.path.dirname(os.path.abspath(__file__))
NOTES = json.load(open(os.path.join(HERE, "manifest_notes.json")))
thms = {}
for f in sorted(glob.glob(os.path.join(HERE, "lean/Verif/Props/**/*.lean"), recursive=True)):
    for m in re.finditer(r"^theorem (C\d\d+_\w+'?)", open(f).read(), re.M):
        thms.setdefault(m.group(1).split("_")[0], []).append("CrystSymm." + m.group(1))
claims = []
for line in open(os.path.join(HERE, "properties.jsonl")):
    pid = json.loads(line)["id"]
    if pid not in thms:
        print("no theorem yet:", pid)
        continue
    n = NOTES.get(pid, {})
    status = n.get("status", "proved")
    claims.append({"property": pid, "status": status, "theorems": thms[pid], "note": n.get("note", "")})
json.dump({"claims": claims}, open(os.path.join(HERE, "MANIFEST.json"), "w"), indent=1, ensure_ascii=False)
print(len(claims), "claims,", sum(len(c["theorems"]) for c in claims), "theorems")
