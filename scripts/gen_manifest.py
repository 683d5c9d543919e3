#!/usr/bin/env python3
"""Writes MANIFEST.json: theorem names are collected from lean/Verif/Props by their `Cnn_` prefix, the status and
the note of each property come from STATUS below."""
import json, re, glob, os
root = os.path.join(os.path.dirname(os.path.abspath(__file__)), "..")
exec(open(os.path.join(root, "scripts", "status.py")).read())
thms = {}
for f in sorted(glob.glob(os.path.join(root, "lean/Verif/Props/*.lean"))):
    for m in re.finditer(r"^(?:private )?theorem\s+((C\d+)_\S+)", open(f).read(), re.M):
        thms.setdefault(m.group(2), []).append("DOA.Props." + m.group(1))
claims = []
for l in open(os.path.join(root, "properties.jsonl")):
    pid = json.loads(l)["id"]
    if pid in STATUS and pid in thms:
        st, note = STATUS[pid]
        claims.append({"property": pid, "status": st, "theorems": thms[pid], "note": note})
    elif pid in STATUS:
        print("no theorem for", pid)
    elif pid in thms:
        print("no status for", pid)
json.dump({"claims": claims}, open(os.path.join(root, "MANIFEST.json"), "w"), indent=1)
print(len(claims), "claims")
