#!/usr/bin/env python3
"""Regenerate MANIFEST.json from the theorem names under lean/Verif/Props and tools/notes.json."""
import json, re, glob, os
root = os.path.dirname(os.path.dirname(os.path.abspath(__file__)))
thms = {}
for f in sorted(glob.glob(root + "/lean/Verif/Props/**/*.lean", recursive=True)):
    ns = []
    for line in open(f):
        if m := re.match(r"namespace (\S+)", line):
            ns.append(m.group(1))
        elif m := re.match(r"end (\S+)", line):
            if ns and ns[-1] == m.group(1):
                ns.pop()
        elif m := re.match(r"theorem ((C\d\d)_\w+)", line):
            thms.setdefault(m.group(2), []).append(".".join(ns + [m.group(1)]))
notes = json.load(open(root + "/tools/notes.json"))
claims = []
for line in open(root + "/properties.jsonl"):
    pid = json.loads(line)["id"]
    n = notes.get(pid, {})
    if pid in thms:
        claims.append({"property": pid, "status": n.get("status", "proved"),
                       "theorems": thms[pid], "note": n.get("note", "")})
    elif n.get("status") == "not_applicable":
        claims.append({"property": pid, "status": "not_applicable", "theorems": [], "note": n["note"]})
with open(root + "/MANIFEST.json", "w") as out:
    out.write('{"claims": [\n' + ",\n".join(" " + json.dumps(c) for c in claims) + "\n]}\n")
print(len(claims), "claims", sum(len(c["theorems"]) for c in claims), "theorems")
