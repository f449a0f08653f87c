#!/usr/bin/env python3
"""note.py ID [status] "note": set the manifest note of a property."""
import json, sys, os
p = os.path.join(os.path.dirname(os.path.abspath(__file__)), "manifest_notes.json")
d = json.load(open(p))
a = sys.argv[1:]
e = {"note": a[-1]}
if len(a) == 3:
    e["status"] = a[1]
d[a[0]] = e
json.dump(dict(sorted(d.items())), open(p, "w"), indent=1, ensure_ascii=False)
