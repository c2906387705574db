#!/usr/bin/env python3
"""Regenerate MANIFEST.json: theorem names are collected from lean/Verif/Props/*.lean (theorems
named C<nn>_*), statuses and notes from tools/status.json."""
import json, re, glob, os
root = os.path.dirname(os.path.dirname(os.path.abspath(__file__)))
thms = {}
for f in sorted(glob.glob(root + "/lean/Verif/Props/*.lean")):
    text = open(f).read()
    namespace = re.search(r"^namespace (\S+)", text, re.M).group(1)
    for m in re.finditer(r"^theorem (C\d+)_(\w+)", text, re.M):
        thms.setdefault(m.group(1), []).append("%s.%s_%s" % (namespace, m.group(1), m.group(2)))
status = json.load(open(root + "/tools/status.json"))
claims = []
for line in open(root + "/properties.jsonl"):
    pid = json.loads(line)["id"]
    st = status.get(pid)
    if st is None:
        if pid in thms:
            print("no status for", pid)
        continue
    claims.append({"property": pid, "status": st["status"], "theorems": thms.get(pid, []), "note": st["note"]})
json.dump({"claims": claims}, open(root + "/MANIFEST.json", "w"), indent=1, ensure_ascii=False)
print(len(claims), "claims", sum(len(c["theorems"]) for c in claims), "theorems")
